import Verif.Model.OutputFields
import Verif.Proofs.Parallel
import Mathlib.Algebra.BigOperators.Ring.Finset
import Mathlib.Tactic.Ring

/-!
# Effects of the loops that fill the arrays of a graphics dump
-/

namespace Fierro

section
variable {K : Type} [Field K]

/-- Under every schedule the loops change entry `c` by `g`. -/
def EffL (ls : List (OutLoop K)) (c : OutCell) (g : K → K) : Prop :=
  ∀ v v', RunLoops ls v v' → v' (Sum.inl c) = g (v (Sum.inl c))

theorem runLoops_append {κ α : Type} [DecidableEq κ]
    (a b : List ((n : ℕ) × (Fin n → List (Action κ α)))) (v v' : κ → α)
    (h : RunLoops (a ++ b) v v') : ∃ w, RunLoops a v w ∧ RunLoops b w v' := by
  induction a generalizing v with
  | nil => exact ⟨v, RunLoops.nil v, h⟩
  | cons l a ih =>
    cases h with
    | cons _ _ s _ _ hs hr =>
      obtain ⟨w, h1, h2⟩ := ih _ hr
      exact ⟨w, RunLoops.cons l a s v w hs h1, h2⟩

theorem EffL.nil (c : OutCell) : EffL ([] : List (OutLoop K)) c id := by
  intro v v' h
  cases h
  rfl

theorem EffL.append {a b : List (OutLoop K)} {c : OutCell} {g h : K → K} (ha : EffL a c g)
    (hb : EffL b c h) : EffL (a ++ b) c (h ∘ g) := by
  intro v v' hr
  obtain ⟨w, h1, h2⟩ := runLoops_append _ _ _ _ hr
  rw [hb _ _ h2, ha _ _ h1, Function.comp]

theorem EffL.single {l : OutLoop K} {c : OutCell} {g : K → K}
    (h : ∀ s, Sched l.2 s → ∀ v, execActions s v (Sum.inl c) = g (v (Sum.inl c))) :
    EffL [l] c g := by
  intro v v' hr
  cases hr with
  | cons _ _ s _ _ hs hr =>
    cases hr
    exact h s hs v

theorem EffL.flatMap_id {A : Type} (l : List A) (f : A → List (OutLoop K)) (c : OutCell)
    (h : ∀ a ∈ l, EffL (f a) c id) : EffL (l.flatMap f) c id := by
  induction l with
  | nil => exact EffL.nil c
  | cons a l ih =>
    rw [List.flatMap_cons]
    exact (h a (by simp)).append (ih fun b hb => h b (List.mem_cons_of_mem _ hb))

theorem EffL.one_of_flatMap {A : Type} [DecidableEq A] (l : List A) (hl : l.Nodup) (f : A → List (OutLoop K))
    (c : OutCell) (a : A) (ha : a ∈ l) (g : K → K) (hg : EffL (f a) c g)
    (h : ∀ b ∈ l, b ≠ a → EffL (f b) c id) : EffL (l.flatMap f) c g := by
  induction l with
  | nil => simp at ha
  | cons b l ih =>
    rw [List.flatMap_cons]
    rw [List.nodup_cons] at hl
    by_cases hab : b = a
    · subst hab
      have := hg.append (EffL.flatMap_id l f c fun b' hb' =>
        h b' (List.mem_cons_of_mem _ hb') fun e => hl.1 (e ▸ hb'))
      simpa using this
    · have hal : a ∈ l := by
        rcases List.mem_cons.1 ha with rfl | h'
        · exact absurd rfl hab
        · exact h'
      have := (h b (by simp) hab).append (ih hl.2 hal fun b' hb' => h b' (List.mem_cons_of_mem _ hb'))
      simpa using this

/-- Additions of several passes. -/
theorem EffL.flatMap_add (n : ℕ) (f : ℕ → List (OutLoop K)) (c : OutCell) (x : ℕ → K)
    (h : ∀ m < n, EffL (f m) c (· + x m)) :
    EffL ((List.range n).flatMap f) c (· + ∑ m ∈ Finset.range n, x m) := by
  induction n with
  | zero =>
    have := EffL.nil (K := K) c
    simpa [EffL] using this
  | succ n ih =>
    rw [List.range_succ, List.flatMap_append]
    have := (ih fun m hm => h m (by omega)).append
      (show EffL ([n].flatMap f) c (· + x n) by simpa using h n (by omega))
    intro v v' hr
    rw [this v v' hr, Function.comp, Finset.sum_range_succ, add_assoc]

/-- Stores of several passes. -/
theorem EffL.flatMap_const (n : ℕ) (hn : 0 < n) (f : ℕ → List (OutLoop K)) (c : OutCell) (x : K)
    (h : ∀ m < n, EffL (f m) c fun _ => x) : EffL ((List.range n).flatMap f) c fun _ => x := by
  obtain ⟨k, rfl⟩ : ∃ k, n = k + 1 := ⟨n - 1, by omega⟩
  rw [List.range_succ, List.flatMap_append]
  intro v v' hr
  obtain ⟨w, _, h2⟩ := runLoops_append _ _ _ _ hr
  exact (show EffL ([k].flatMap f) c fun _ => x by simpa using h k (by omega)) _ _ h2

/-! ### Single loops -/

theorem addLoop_miss (n : ℕ) (ops : ℕ → List (OutCell × K)) (c : OutCell)
    (h : ∀ i < n, ∀ o ∈ ops i, o.1 ≠ c) : EffL [addLoop n ops] c id := by
  apply EffL.single
  intro s hs v
  refine execActions_notin s v _ fun a ha => ?_
  obtain ⟨i, hi⟩ := (sched_mem hs a).1 ha
  obtain ⟨o, ho, hd, _⟩ := rmwThread_mem hi
  obtain ⟨o', ho', rfl⟩ := List.mem_map.1 ho
  rcases hd with hd | hd <;> rw [hd]
  · simp
  · intro he
    exact h i i.2 o' ho' (Sum.inl.inj he)

theorem addLoop_hit (n : ℕ) (ops : ℕ → List (OutCell × K))
    (hdis : ∀ i < n, ∀ j < n, i ≠ j → ∀ o ∈ ops i, ∀ o' ∈ ops j, o.1 ≠ o'.1) (i : ℕ) (hi : i < n)
    (hnd : ((ops i).map Prod.fst).Nodup) (o : OutCell × K) (ho : o ∈ ops i) :
    EffL [addLoop n ops] o.1 (· + o.2) := by
  apply EffL.single
  intro s hs v
  have hcf : ConflictFree (addLoop n ops).2 := rmw_conflictFree _ fun a b hab p hp p' hp' => by
    obtain ⟨q, hq, rfl⟩ := List.mem_map.1 hp
    obtain ⟨q', hq', rfl⟩ := List.mem_map.1 hp'
    exact hdis a a.2 b b.2 (fun e => hab (Fin.ext e)) q hq q' hq'
  rw [sched_own _ hcf s hs v ⟨i, hi⟩]
  · have := congrFun (rmwThread_exec i ((ops i).map fun o => (o.1, fun v => v + o.2)) v) o.1
    refine this.trans ?_
    have h2 := seqUpdates_mem ((ops i).map fun o => (o.1, fun v => v + o.2))
      (by rw [List.map_map]; exact hnd) (fun c => v (Sum.inl c)) (o.1, fun v => v + o.2)
      (List.mem_map.2 ⟨o, ho, rfl⟩)
    exact h2
  · intro j hj a ha
    obtain ⟨p, hp, hd, _⟩ := rmwThread_mem ha
    obtain ⟨q, hq, rfl⟩ := List.mem_map.1 hp
    rcases hd with hd | hd <;> rw [hd]
    · simp
    · intro he
      exact hdis j j.2 i hi (fun e => hj (Fin.ext e)) q hq o ho (Sum.inl.inj he)

theorem lastStore_mem {κ α : Type} [DecidableEq κ] (l : List (κ × α)) (c : κ) (x : α)
    (h : lastStore l c = some x) : (c, x) ∈ l := by
  unfold lastStore at h
  have := List.mem_of_getLast? h
  obtain ⟨p, hp, rfl⟩ := List.mem_map.1 this
  obtain ⟨hp, he⟩ := List.mem_filter.1 hp
  have he := of_decide_eq_true he
  rw [← he]
  exact hp

theorem lastStore_none {κ α : Type} [DecidableEq κ] (l : List (κ × α)) (c : κ)
    (h : lastStore l c = none) (x : α) : (c, x) ∉ l := by
  intro hm
  unfold lastStore at h
  rw [List.getLast?_eq_none_iff, List.map_eq_nil_iff] at h
  have : (c, x) ∈ l.filter fun p => p.1 = c := List.mem_filter.2 ⟨hm, by simp⟩
  rw [h] at this
  simp at this

theorem storeLoop_miss (n : ℕ) (ops : ℕ → List (OutCell × K)) (c : OutCell)
    (h : ∀ i < n, ∀ o ∈ ops i, o.1 ≠ c) : EffL [storeLoop n ops] c id := by
  apply EffL.single
  intro s hs v
  refine execActions_notin s v _ fun a ha => ?_
  obtain ⟨i, hi⟩ := (sched_mem hs a).1 ha
  obtain ⟨o, ho, rfl⟩ := List.mem_map.1 hi
  obtain ⟨o', ho', rfl⟩ := List.mem_map.1 ho
  intro he
  exact h i i.2 o' ho' (Sum.inl.inj he)

theorem storeLoop_hit (n : ℕ) (ops : ℕ → List (OutCell × K)) (c : OutCell) (x : K)
    (hex : ∃ i < n, (c, x) ∈ ops i) (hall : ∀ i < n, ∀ o ∈ ops i, o.1 = c → o.2 = x) :
    EffL [storeLoop n ops] c fun _ => x := by
  apply EffL.single
  intro s hs v
  obtain ⟨i0, hi0, hm0⟩ := hex
  rcases assign_sched (fun i : Fin n => (ops i).map fun o : OutCell × K => ((Sum.inl o.1 : OutCell ⊕ ℕ), o.2))
      s hs v
    (Sum.inl c) with
    ⟨i, y, hl, he⟩ | ⟨hn, _⟩
  · rw [he]
    have := lastStore_mem _ _ _ hl
    obtain ⟨o, ho, heq⟩ := List.mem_map.1 this
    injection heq with h1 h2
    rw [← h2]
    exact hall i i.2 o ho (Sum.inl.inj h1)
  · exact absurd (List.mem_map.2 ⟨(c, x), hm0, rfl⟩) (lastStore_none _ _ (hn ⟨i0, hi0⟩) x)

/-! ### Columns -/

/-- The indices of the entries of a column. -/
def OkIdx (c : OutCol) (i j : ℕ) : Prop := if c.isScalar then i = 0 ∧ j = 0 else i < 3 ∧ j < 3

/-- An entry of a column. -/
def colCell (row : OutCol → ℤ) (c : OutCol) (e i j : ℕ) : OutCell :=
  if c.isScalar then .scal (row c) e else .tens (row c) e i j

/-- Entries and values of one column. -/
def colOps (row : OutCol → ℤ) (c : OutCol) (e : ℕ) (x : ℕ → ℕ → K) : List (OutCell × K) :=
  if c.isScalar then [(.scal (row c) e, x 0 0)] else tensorOps (row c) e x

theorem mem_tensorOps (r : ℤ) (e : ℕ) (x : ℕ → ℕ → K) (o : OutCell × K) :
    o ∈ tensorOps r e x ↔ ∃ i j, (i < 3 ∧ j < 3) ∧ o = (.tens r e i j, x i j) := by
  unfold tensorOps
  simp only [List.mem_flatMap, List.mem_map, List.mem_range]
  constructor
  · rintro ⟨i, hi, j, hj, rfl⟩; exact ⟨i, j, ⟨hi, hj⟩, rfl⟩
  · rintro ⟨i, j, ⟨hi, hj⟩, rfl⟩; exact ⟨i, hi, j, hj, rfl⟩

theorem mem_colOps (row : OutCol → ℤ) (c : OutCol) (e : ℕ) (x : ℕ → ℕ → K) (o : OutCell × K) :
    o ∈ colOps row c e x ↔ ∃ i j, OkIdx c i j ∧ o = (colCell row c e i j, x i j) := by
  unfold colOps OkIdx colCell
  by_cases h : c.isScalar
  · simp only [h, if_true, List.mem_singleton]
    constructor
    · rintro rfl; exact ⟨0, 0, ⟨rfl, rfl⟩, rfl⟩
    · rintro ⟨i, j, ⟨rfl, rfl⟩, rfl⟩; rfl
  · simp only [h]
    exact mem_tensorOps _ _ _ _

theorem colOps_nodup (row : OutCol → ℤ) (c : OutCol) (e : ℕ) (x : ℕ → ℕ → K) :
    ((colOps row c e x).map Prod.fst).Nodup := by
  unfold colOps
  by_cases h : c.isScalar
  · simp [h]
  · simp only [h, tensorOps]
    simp [List.range_succ, List.nodup_cons]

theorem colCell_eq {row : OutCol → ℤ} {c c' : OutCol} {e e' i j i' j' : ℕ} (hk : OkIdx c i j)
    (hk' : OkIdx c' i' j') (h : colCell row c e i j = colCell row c' e' i' j') :
    c.isScalar = c'.isScalar ∧ row c = row c' ∧ e = e' ∧ i = i' ∧ j = j' := by
  unfold colCell at h
  unfold OkIdx at hk hk'
  by_cases h1 : c.isScalar <;> by_cases h2 : c'.isScalar <;> simp only [h1, h2] at h hk hk' ⊢
  · simp only [if_true, OutCell.scal.injEq] at h
    exact ⟨trivial, h.1, h.2, by rw [hk.1, hk'.1], by rw [hk.2, hk'.2]⟩
  · simp at h
  · simp at h
  · simp only [Bool.false_eq_true, if_false, OutCell.tens.injEq] at h
    exact ⟨trivial, h.1, h.2.1, h.2.2.1, h.2.2.2⟩

/-- The rows of two columns are told apart. -/
def Apart (row : OutCol → ℤ) (c c' : OutCol) : Prop := c.isScalar = c'.isScalar → row c ≠ row c'

theorem addCol_miss (row : OutCol → ℤ) (c c' : OutCol) (h : Apart row c c') (n : ℕ) (el : ℕ → ℕ)
    (x : ℕ → ℕ → ℕ → K) (e i j : ℕ) (hk : OkIdx c i j) :
    EffL [addLoop n fun s => colOps row c' (el s) (x s)] (colCell row c e i j) id := by
  apply addLoop_miss
  intro s _ o ho
  obtain ⟨i', j', hk', rfl⟩ := (mem_colOps _ _ _ _ _).1 ho
  intro he
  obtain ⟨h1, h2, _⟩ := colCell_eq hk' hk he
  exact h h1.symm h2.symm

theorem storeCol_miss (row : OutCol → ℤ) (c c' : OutCol) (h : Apart row c c') (n : ℕ)
    (x : ℕ → ℕ → ℕ → K) (e i j : ℕ) (hk : OkIdx c i j) :
    EffL [storeLoop n fun s => colOps row c' s (x s)] (colCell row c e i j) id := by
  apply storeLoop_miss
  intro s _ o ho
  obtain ⟨i', j', hk', rfl⟩ := (mem_colOps _ _ _ _ _).1 ho
  intro he
  obtain ⟨h1, h2, _⟩ := colCell_eq hk' hk he
  exact h h1.symm h2.symm

theorem addCol_hit (row : OutCol → ℤ) (c : OutCol) (n : ℕ) (el : ℕ → ℕ)
    (hinj : ∀ s < n, ∀ s' < n, el s = el s' → s = s') (x : ℕ → ℕ → ℕ → K) (e i j : ℕ)
    (hk : OkIdx c i j) :
    EffL [addLoop n fun s => colOps row c (el s) (x s)] (colCell row c e i j)
      (· + ∑ s ∈ Finset.range n, if el s = e then x s i j else 0) := by
  by_cases hex : ∃ s < n, el s = e
  · obtain ⟨s, hs, rfl⟩ := hex
    have hsum : (∑ s' ∈ Finset.range n, if el s' = el s then x s' i j else 0) = x s i j := by
      rw [Finset.sum_eq_single s]
      · simp
      · intro b hb hbs
        rw [if_neg fun h => hbs (hinj b (Finset.mem_range.1 hb) s hs h)]
      · intro h; exact absurd (Finset.mem_range.2 hs) h
    rw [hsum]
    refine addLoop_hit n (fun s => colOps row c (el s) (x s)) ?_ s hs (colOps_nodup _ _ _ _)
      (colCell row c (el s) i j, x s i j) ((mem_colOps _ _ _ _ _).2 ⟨i, j, hk, rfl⟩)
    intro a ha b hb hab o ho o' ho' he
    obtain ⟨_, _, hk1, rfl⟩ := (mem_colOps _ _ _ _ _).1 ho
    obtain ⟨_, _, hk2, rfl⟩ := (mem_colOps _ _ _ _ _).1 ho'
    exact hab (hinj a ha b hb (colCell_eq hk1 hk2 he).2.2.1)
  · push Not at hex
    have hsum : (∑ s' ∈ Finset.range n, if el s' = e then x s' i j else 0) = 0 :=
      Finset.sum_eq_zero fun b hb => if_neg (hex b (Finset.mem_range.1 hb))
    rw [hsum]
    have := addLoop_miss n (fun s => colOps row c (el s) (x s)) (colCell row c e i j) (by
      intro s hs o ho
      obtain ⟨_, _, hk1, rfl⟩ := (mem_colOps _ _ _ _ _).1 ho
      intro he
      exact hex s hs (colCell_eq hk1 hk he).2.2.1)
    intro v v' hr
    rw [this v v' hr]
    simp

theorem storeCol_hit (row : OutCol → ℤ) (c : OutCol) (n : ℕ) (x : ℕ → ℕ → ℕ → K) (e i j : ℕ)
    (he : e < n) (hk : OkIdx c i j) :
    EffL [storeLoop n fun s => colOps row c s (x s)] (colCell row c e i j) fun _ => x e i j := by
  apply storeLoop_hit
  · exact ⟨e, he, (mem_colOps _ _ _ _ _).2 ⟨i, j, hk, rfl⟩⟩
  · intro s _ o ho heq
    obtain ⟨i', j', hk', rfl⟩ := (mem_colOps _ _ _ _ _).1 ho
    obtain ⟨_, _, rfl, rfl, rfl⟩ := colCell_eq hk' hk heq
    rfl

/-! ### Rows -/

theorem outSlots_append (cols : List (OutCol × String)) (c : OutCol × String) :
    outSlots (cols ++ [c]) = (outSlots cols).enter c := by
  unfold outSlots
  rw [List.foldl_append]
  rfl

theorem outSlots_names (cols : List (OutCol × String)) :
    (outSlots cols).scalars = (cols.filter fun c => c.1.isScalar).map Prod.snd ∧
    (outSlots cols).others = (cols.filter fun c => !c.1.isScalar).map Prod.snd := by
  induction cols using List.reverseRecOn with
  | nil => exact ⟨rfl, rfl⟩
  | append_singleton cols c ih =>
    rw [outSlots_append]
    unfold OutSlots.enter
    by_cases h : c.1.isScalar
    · simp [h, ih.1, ih.2]
    · simp [h, ih.1, ih.2]

/-- The columns of one kind. -/
def kindCols (b : Bool) (cols : List (OutCol × String)) : List (OutCol × String) :=
  cols.filter fun c => c.1.isScalar == b

theorem outSlots_row (cols : List (OutCol × String)) (hnd : (cols.map Prod.fst).Nodup) (b : Bool)
    (k : ℕ) (c : OutCol × String) (hc : (kindCols b cols)[k]? = some c) :
    (outSlots cols).row c.1 = k := by
  induction cols using List.reverseRecOn generalizing k c with
  | nil => simp [kindCols] at hc
  | append_singleton cols d ih =>
    rw [List.map_append, List.nodup_append] at hnd
    have hne : ∀ c ∈ cols, c.1 ≠ d.1 := fun c hc =>
      hnd.2.2 c.1 (List.mem_map.2 ⟨c, hc, rfl⟩) d.1 (by simp)
    have hlen : ((outSlots cols).scalars.length = (kindCols true cols).length) ∧
        ((outSlots cols).others.length = (kindCols false cols).length) := by
      rw [(outSlots_names cols).1, (outSlots_names cols).2, List.length_map, List.length_map]
      refine ⟨?_, ?_⟩ <;> · unfold kindCols; congr 1; apply List.filter_congr; intro x _; cases x.1.isScalar <;> rfl
    rw [outSlots_append]
    by_cases hmem : c ∈ cols
    · have hrow : ((outSlots cols).enter d).row c.1 = (outSlots cols).row c.1 := by
        unfold OutSlots.enter
        split <;> exact Function.update_of_ne (hne c hmem) _ _
      rw [hrow]
      apply ih hnd.1
      unfold kindCols at hc ⊢
      rw [List.filter_append] at hc
      rw [List.getElem?_append] at hc
      split at hc
      · exact hc
      · exfalso
        have := List.mem_of_getElem? hc
        have := (List.mem_filter.1 this).1
        rw [List.mem_singleton] at this
        exact hne c hmem (by rw [this])
    · unfold kindCols at hc
      rw [List.filter_append, List.getElem?_append] at hc
      split at hc
      · exact absurd (List.mem_filter.1 (List.mem_of_getElem? hc)).1 hmem
      · have hm := List.mem_filter.1 (List.mem_of_getElem? hc)
        have hcd : c = d := by simpa using hm.1
        subst hcd
        have hb : c.1.isScalar = b := by simpa using hm.2
        have hk : k = (kindCols b cols).length := by
          have hsing : List.filter (fun x => x.1.isScalar == b) [c] = [c] := by simp [hb]
          rw [hsing] at hc
          obtain ⟨h1, _⟩ := List.getElem?_eq_some_iff.1 hc
          unfold kindCols
          rw [List.length_singleton] at h1
          omega
        unfold OutSlots.enter
        cases b with
        | true => rw [if_pos hb]; simp [hk, hlen.1]
        | false => rw [if_neg (by simp [hb])]; simp [hk, hlen.2]

theorem outSlots_apart (cols : List (OutCol × String)) (hnd : (cols.map Prod.fst).Nodup)
    (c d : OutCol × String) (hc : c ∈ cols) (hd : d ∈ cols) (hne : c.1 ≠ d.1) :
    Apart (outSlots cols).row c.1 d.1 := by
  intro hk hrow
  have hc' : c ∈ kindCols c.1.isScalar cols := List.mem_filter.2 ⟨hc, by simp⟩
  have hd' : d ∈ kindCols c.1.isScalar cols := List.mem_filter.2 ⟨hd, by simp [hk]⟩
  obtain ⟨k, hk1⟩ := List.mem_iff_getElem?.1 hc'
  obtain ⟨l, hl1⟩ := List.mem_iff_getElem?.1 hd'
  rw [outSlots_row cols hnd _ k c hk1, outSlots_row cols hnd _ l d hl1] at hrow
  have hkl : k = l := by exact_mod_cast hrow
  subst hkl
  rw [hk1] at hl1
  injection hl1 with h
  exact hne (by rw [h])

theorem outSlots_bounds (cols : List (OutCol × String)) (hnd : (cols.map Prod.fst).Nodup)
    (c : OutCol × String) (hc : c ∈ cols) : 0 ≤ (outSlots cols).row c.1 ∧
      (outSlots cols).row c.1 < (kindCols c.1.isScalar cols).length := by
  have hc' : c ∈ kindCols c.1.isScalar cols := List.mem_filter.2 ⟨hc, by simp⟩
  obtain ⟨k, hk1⟩ := List.mem_iff_getElem?.1 hc'
  rw [outSlots_row cols hnd _ k c hk1]
  obtain ⟨h, _⟩ := List.getElem?_eq_some_iff.1 hk1
  exact ⟨by omega, by exact_mod_cast h⟩

theorem outSlots_absent (cols : List (OutCol × String)) (c : OutCol)
    (hc : c ∉ cols.map Prod.fst) : (outSlots cols).row c = -1 := by
  induction cols using List.reverseRecOn with
  | nil => rfl
  | append_singleton cols d ih =>
    rw [List.map_append, List.mem_append] at hc
    push Not at hc
    rw [outSlots_append]
    have hne : c ≠ d.1 := by simpa using hc.2
    unfold OutSlots.enter
    split <;> · simp only []; rw [Function.update_of_ne hne]; exact ih hc.1

/-- Names and rows together. -/
theorem zip_rows {B : Type} (cols : List (OutCol × String)) (hnd : (cols.map Prod.fst).Nodup) (b : Bool)
    (F : String → ℤ → B) :
    (((kindCols b cols).map Prod.snd).zipIdx.map fun a => F a.1 a.2)
      = (kindCols b cols).map fun c => F c.2 ((outSlots cols).row c.1) := by
  apply List.ext_getElem?
  intro k
  rw [List.getElem?_map, List.getElem?_zipIdx, List.getElem?_map, List.getElem?_map]
  cases h : (kindCols b cols)[k]? with
  | none => rfl
  | some c =>
    simp only [Option.map_some]
    rw [outSlots_row cols hnd b k c h]
    simp

end

end Fierro
