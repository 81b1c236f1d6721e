import Verif.Model.YamlNode
import Mathlib.Data.List.Lookmap
import Mathlib.Data.List.Range

/-!
# YAML node containers (C38)
-/

namespace Fierro

section StdMapLemmas

variable {κ α : Type*} [LinearOrder κ]

theorem smFind_smInsert (k k' : κ) (v : α) (m : List (κ × α)) (h : smFind k m = none) :
    smFind k' (smInsert k v m) = if k' = k then some v else smFind k' m := by
  induction m with
  | nil => simp [smInsert, smFind]
  | cons x m ih =>
    obtain ⟨a, b⟩ := x
    have hne : k ≠ a := by
      rintro rfl; simp [smFind] at h
    have hm : smFind k m = none := by simpa [smFind, hne] using h
    rw [smInsert]
    by_cases hlt : k < a
    · rw [if_pos hlt, smFind]
    · rw [if_neg hlt, smFind, ih hm]
      by_cases h1 : k' = a
      · subst h1; simp [smFind, hne.symm]
      · simp [smFind, h1]

theorem smFind_smReplace (k k' : κ) (v : α) (m : List (κ × α)) (h : smFind k m ≠ none) :
    smFind k' (smReplace k v m) = if k' = k then some v else smFind k' m := by
  induction m with
  | nil => exact absurd rfl h
  | cons x m ih =>
    obtain ⟨a, b⟩ := x
    rw [smReplace]
    by_cases hk : k = a
    · subst hk
      rw [if_pos rfl]
      by_cases h1 : k' = k <;> simp [smFind, h1]
    · rw [if_neg hk]
      have hm : smFind k m ≠ none := by simpa [smFind, hk] using h
      simp only [smFind]
      rw [ih hm]
      by_cases h1 : k' = a
      · subst h1; simp [Ne.symm hk]
      · simp [h1]

theorem smFind_smAssign (k k' : κ) (v : α) (m : List (κ × α)) :
    smFind k' (smAssign k v m) = if k' = k then some v else smFind k' m := by
  unfold smAssign
  cases h : smFind k m with
  | none => exact smFind_smInsert k k' v m h
  | some c => exact smFind_smReplace k k' v m (by simp [h])

theorem smAssign_of_find (k : κ) (v : α) (m : List (κ × α)) (h : smFind k m = some v) :
    smAssign k v m = m := by
  unfold smAssign
  rw [h]
  dsimp only
  induction m with
  | nil => rfl
  | cons x m ih =>
    obtain ⟨a, b⟩ := x
    rw [smReplace]
    by_cases hk : k = a
    · subst hk
      simp [smFind] at h
      rw [if_pos rfl, h]
    · rw [if_neg hk, ih (by simpa [smFind, hk] using h)]

theorem length_smReplace (k : κ) (v : α) (m : List (κ × α)) :
    (smReplace k v m).length = m.length := by
  induction m with
  | nil => rfl
  | cons x m ih =>
    obtain ⟨a, b⟩ := x
    rw [smReplace]
    split_ifs <;> simp [ih]

theorem length_smInsert (k : κ) (v : α) (m : List (κ × α)) :
    (smInsert k v m).length = m.length + 1 := by
  induction m with
  | nil => rfl
  | cons x m ih =>
    obtain ⟨a, b⟩ := x
    rw [smInsert]
    split_ifs <;> simp [ih]

theorem mem_smInsert (k : κ) (v : α) (m : List (κ × α)) (x : κ × α) :
    x ∈ smInsert k v m ↔ x = (k, v) ∨ x ∈ m := by
  induction m with
  | nil => simp [smInsert]
  | cons y m ih =>
    obtain ⟨a, b⟩ := y
    rw [smInsert]
    split_ifs
    · simp
    · simp only [List.mem_cons, ih]; tauto

theorem keys_smReplace (k : κ) (v : α) (m : List (κ × α)) :
    (smReplace k v m).map Prod.fst = m.map Prod.fst := by
  induction m with
  | nil => rfl
  | cons x m ih =>
    obtain ⟨a, b⟩ := x
    rw [smReplace]
    split_ifs with h
    · simp [h]
    · simp [ih]

/-- Keys in strictly increasing order. -/
def SmSorted (m : List (κ × α)) : Prop := (m.map Prod.fst).Pairwise (· < ·)

theorem smFind_eq_none_iff (k : κ) (m : List (κ × α)) :
    smFind k m = none ↔ ∀ x ∈ m, x.1 ≠ k := by
  induction m with
  | nil => simp [smFind]
  | cons x m ih =>
    obtain ⟨a, b⟩ := x
    rw [smFind]
    by_cases h : k = a
    · subst h; simp
    · rw [if_neg h, ih]
      simp only [List.mem_cons, forall_eq_or_imp]
      constructor
      · intro h'; exact ⟨Ne.symm h, h'⟩
      · intro h'; exact h'.2

theorem SmSorted.insert {k : κ} {v : α} {m : List (κ × α)} (hs : SmSorted m)
    (h : smFind k m = none) : SmSorted (smInsert k v m) := by
  induction m with
  | nil => simp [SmSorted, smInsert]
  | cons x m ih =>
    obtain ⟨a, b⟩ := x
    simp only [SmSorted, List.map_cons, List.pairwise_cons] at hs
    have hne : k ≠ a := by
      rintro rfl; simp [smFind] at h
    have hm : smFind k m = none := by simpa [smFind, hne] using h
    rw [smInsert]
    by_cases hlt : k < a
    · rw [if_pos hlt]
      simp only [SmSorted, List.map_cons, List.pairwise_cons]
      refine ⟨?_, hs⟩
      intro c hc
      rcases List.mem_cons.mp hc with rfl | hc
      · exact hlt
      · exact hlt.trans (hs.1 c hc)
    · rw [if_neg hlt]
      simp only [SmSorted, List.map_cons, List.pairwise_cons]
      refine ⟨?_, ih hs.2 hm⟩
      intro c hc
      obtain ⟨y, hy, rfl⟩ := List.mem_map.mp hc
      rcases (mem_smInsert k v m y).mp hy with rfl | hy
      · exact lt_of_le_of_ne (not_lt.mp hlt) (Ne.symm hne)
      · exact hs.1 _ (List.mem_map_of_mem hy)

theorem SmSorted.assign {k : κ} {v : α} {m : List (κ × α)} (hs : SmSorted m) :
    SmSorted (smAssign k v m) := by
  unfold smAssign
  cases h : smFind k m with
  | none => exact hs.insert h
  | some c => unfold SmSorted; rw [keys_smReplace]; exact hs

theorem smFind_smErase {k : κ} {m : List (κ × α)} (hs : SmSorted m) (k' : κ) :
    smFind k' (smErase k m) = if k' = k then none else smFind k' m := by
  induction m with
  | nil => simp [smErase, smFind]
  | cons x m ih =>
    obtain ⟨a, b⟩ := x
    simp only [SmSorted, List.map_cons, List.pairwise_cons] at hs
    rw [smErase]
    by_cases h : k = a
    · subst h
      rw [if_pos rfl]
      by_cases h1 : k' = k
      · subst h1
        rw [if_pos rfl, smFind_eq_none_iff]
        intro y hy e
        have := hs.1 y.1 (List.mem_map_of_mem hy)
        rw [e] at this
        exact lt_irrefl _ this
      · simp [smFind, h1]
    · rw [if_neg h, smFind, ih hs.2]
      by_cases h1 : k' = a
      · subst h1; simp [smFind, Ne.symm h]
      · simp [smFind, h1]

end StdMapLemmas

/-! ## Sequences -/

section Sequence

variable {α : Type*}

/-- Specification: what a sequence holding exactly the list `l` looks like from outside. -/
def SeqShows (s : List (ℕ × α)) (l : List α) : Prop :=
  s.length = l.length ∧ (∀ i, seqGet s i = l[i]?) ∧ s.map Prod.snd = l

theorem smInsert_last (k : ℕ) (v : α) (m : List (ℕ × α)) (h : ∀ x ∈ m, x.1 < k) :
    smInsert k v m = m ++ [(k, v)] := by
  induction m with
  | nil => rfl
  | cons x m ih =>
    obtain ⟨a, b⟩ := x
    have : a < k := h (a, b) List.mem_cons_self
    rw [smInsert, if_neg (by omega), ih fun y hy => h y (List.mem_cons_of_mem _ hy)]
    rfl

/-- The concrete form of a sequence built by push-backs. -/
def seqOf (l : List α) : List (ℕ × α) := l.zipIdx.map fun x => (x.2, x.1)

theorem seqOf_append (l : List α) (a : α) : seqOf (l ++ [a]) = seqOf l ++ [(l.length, a)] := by
  simp [seqOf, List.zipIdx_append]

theorem seqOf_key_lt (l : List α) (x : ℕ × α) (hx : x ∈ seqOf l) : x.1 < l.length := by
  simp only [seqOf, List.mem_map] at hx
  obtain ⟨y, hy, rfl⟩ := hx
  have := List.mem_zipIdx' hy
  exact this.1

theorem pushBack_seqOf (l : List α) (a : α) : seqPushBack (seqOf l) a = seqOf (l ++ [a]) := by
  have hkey : (match (seqOf l).getLast? with | none => 0 | some x => x.1 + 1) = l.length := by
    rcases List.eq_nil_or_concat l with rfl | ⟨l', b, rfl⟩
    · rfl
    · rw [List.concat_eq_append, seqOf_append]; simp
  have hnone : smFind l.length (seqOf l) = none := by
    rw [smFind_eq_none_iff]
    intro x hx e
    have := seqOf_key_lt l x hx
    omega
  have e : seqPushBack (seqOf l) a = smInsertNew l.length a (seqOf l) := by
    rw [← hkey]; rfl
  rw [e, smInsertNew, hnone, seqOf_append]
  exact smInsert_last _ _ _ (seqOf_key_lt l)

theorem seqOf_shows (l : List α) : SeqShows (seqOf l) l := by
  refine ⟨by simp [seqOf], ?_, by simp [seqOf, List.map_map, Function.comp_def]⟩
  intro i
  unfold seqGet
  induction l using List.reverseRecOn with
  | nil => simp [seqOf, smFind]
  | append_singleton l a ih =>
    have hnone : smFind l.length (seqOf l) = none := by
      rw [smFind_eq_none_iff]
      intro x hx e
      have := seqOf_key_lt l x hx
      omega
    rw [seqOf_append, ← smInsert_last _ _ _ (seqOf_key_lt l), smFind_smInsert _ _ _ _ hnone, ih]
    by_cases h : i = l.length
    · simp [h]
    · rw [if_neg h]
      rcases lt_or_gt_of_ne h with h | h
      · rw [List.getElem?_append_left h]
      · rw [List.getElem?_eq_none (by omega), List.getElem?_eq_none (by simp; omega)]

/-- **C38** After any number of push-backs into an empty sequence, position `i` holds the `i`-th
value pushed, there is nothing at larger positions, the size is the number of values, and iteration
visits them in order. -/
theorem C38_push_back_list (l : List α) : SeqShows (l.foldl seqPushBack []) l := by
  have : ∀ acc : List α, l.foldl seqPushBack (seqOf acc) = seqOf (acc ++ l) := by
    induction l with
    | nil => simp
    | cons a l ih =>
      intro acc
      rw [List.foldl_cons, pushBack_seqOf, ih]
      simp
  have h := this []
  simp only [List.nil_append] at h
  have h0 : (seqOf [] : List (ℕ × α)) = [] := rfl
  rw [← h0, h]
  exact seqOf_shows l

example : SeqShows ([5, 6, 7].foldl seqPushBack []) [5, 6, 7] := C38_push_back_list _

theorem seqOf_sorted (l : List α) : SmSorted (seqOf l) := by
  induction l using List.reverseRecOn with
  | nil => simp [seqOf, SmSorted]
  | append_singleton l a ih =>
    rw [seqOf_append, ← smInsert_last _ _ _ (seqOf_key_lt l)]
    refine ih.insert ?_
    rw [smFind_eq_none_iff]
    intro x hx e
    have := seqOf_key_lt l x hx
    omega

/-- **C38** Erasing position `i` of a sequence built by push-backs removes that position and leaves
all other positions as they were: nothing moves. -/
theorem C38_erase (l : List α) (i j : ℕ) :
    seqGet (seqErase (l.foldl seqPushBack []) i) j = if j = i then none else l[j]? := by
  have : ∀ acc : List α, l.foldl seqPushBack (seqOf acc) = seqOf (acc ++ l) := by
    induction l with
    | nil => simp
    | cons a l ih =>
      intro acc
      rw [List.foldl_cons, pushBack_seqOf, ih]
      simp
  have h := this []
  simp only [List.nil_append] at h
  have h0 : (seqOf [] : List (ℕ × α)) = [] := rfl
  rw [← h0, h]
  unfold seqGet seqErase
  rw [smFind_smErase (seqOf_sorted l)]
  have := (seqOf_shows l).2.1 j
  unfold seqGet at this
  rw [this]

/-- **C38** Hence erasing is not list erasure: afterwards the size is 1 but position 0 is empty and
the remaining value is at position 1. -/
theorem C38_erase_gap_fails :
    let s := seqErase (seqPushBack (seqPushBack [] 'a') 'b') 0
    s.length = 1 ∧ seqGet s 0 = none ∧ seqGet s 1 = some 'b' := by decide

theorem seqNext_ne_none {s : List (ℕ × α)} {k : ℕ} {v : α} (h : smFind (k + 1) s = some v) :
    ∃ k', seqNext s k = some k' ∧ smFind k' s ≠ none := by
  unfold seqNext
  cases hf : s.find? (fun x => k < x.1) with
  | none =>
    exfalso
    have := List.find?_eq_none.mp hf
    have hn : smFind (k + 1) s = none := by
      rw [smFind_eq_none_iff]
      intro x hx e
      exact this x hx (by simp [e])
    rw [hn] at h; cases h
  | some x =>
    refine ⟨x.1, rfl, ?_⟩
    rw [Ne, smFind_eq_none_iff]
    push Not
    exact ⟨x, List.mem_of_find?_eq_some hf, rfl⟩

/-- **C38** Pushing to the front of a sequence that is not empty never returns. -/
theorem C38_push_front_fails (s : List (ℕ × α)) (hs : s ≠ []) (a : α) (fuel : ℕ) :
    seqPushFront fuel s a = none := by
  have key : ∀ (fuel : ℕ) (k : ℕ) (s : List (ℕ × α)), smFind k s ≠ none →
      pushFrontLoop fuel (some k) s = none := by
    intro fuel
    induction fuel with
    | zero => intro k s _; rfl
    | succ fuel ih =>
      intro k s hk
      cases hv : smFind k s with
      | none => exact absurd hv hk
      | some v =>
        rw [pushFrontLoop, hv]
        dsimp only
        have h1 : smFind (k + 1) (smAssign (k + 1) v s) = some v := by
          rw [smFind_smAssign, if_pos rfl]
        obtain ⟨k', e, h2⟩ := seqNext_ne_none h1
        rw [e]
        exact ih k' _ h2
  cases s with
  | nil => exact absurd rfl hs
  | cons x s =>
    unfold seqPushFront
    rw [List.head?_cons, Option.map_some, key fuel x.1 (x :: s) (by simp [smFind])]
    rfl

/-- **C38** Inserting at a position behind the last one loses the new value: the sequence is
unchanged. -/
theorem C38_insert_at_end_fails (l : List α) (hl : l ≠ []) (a : α) (index fuel : ℕ)
    (hi : l.length ≤ index) : seqInsert fuel (seqOf l) index a = some (seqOf l) := by
  rcases List.eq_nil_or_concat l with rfl | ⟨l', b, rfl⟩
  · exact absurd rfl hl
  · rw [List.concat_eq_append] at hi ⊢
    have hlast : (seqOf (l' ++ [b])).getLast? = some (l'.length, b) := by
      rw [seqOf_append]; simp
    have hhead : ∃ x, (seqOf (l' ++ [b])).head? = some x := by
      cases l' <;> simp [seqOf]
    obtain ⟨x, hx⟩ := hhead
    have hlen : (seqOf (l' ++ [b])).length ≤ index := by simpa [seqOf] using hi
    unfold seqInsert
    rw [hx, hlast]
    dsimp only
    rw [if_pos hlen]
    have : smFind l'.length (seqOf (l' ++ [b])) = some b := by
      have := (seqOf_shows (l' ++ [b])).2.1 l'.length
      simpa [seqGet] using this
    rw [smInsertNew, this]

/-- **C38** Inserting strictly inside never returns. -/
theorem C38_insert_inside_fails (l : List α) (a : α) (index fuel : ℕ) (h0 : 0 < index)
    (hi : index < l.length) : seqInsert fuel (seqOf l) index a = none := by
  cases l with
  | nil => simp at hi
  | cons b l =>
    have hhead : (seqOf (b :: l)).head? = some (0, b) := by simp [seqOf]
    obtain ⟨y, hy⟩ : ∃ y, (seqOf (b :: l)).getLast? = some y := by
      cases h : (seqOf (b :: l)).getLast? with
      | none =>
        rw [List.getLast?_eq_none_iff] at h
        simp [seqOf] at h
      | some y => exact ⟨y, rfl⟩
    have hlen : ¬ (seqOf (b :: l)).length ≤ index := by simpa [seqOf] using hi
    unfold seqInsert
    rw [hhead, hy]
    dsimp only
    rw [if_neg hlen]
    have : ∀ (fuel : ℕ) (s : List (ℕ × α)), insertLoop fuel 0 index s = none := by
      intro fuel
      induction fuel with
      | zero => intro s; rfl
      | succ fuel ih =>
        intro s
        rw [insertLoop, if_neg (by omega)]
        exact ih _
    rw [this]
    rfl

/-- **C38** Inserting at the front overwrites the second value with the first and loses the new
one. -/
theorem C38_insert_front_fails :
    seqInsert 5 (seqOf ['a', 'b', 'c']) 0 'x' = some (seqOf ['a', 'a', 'c']) := by decide

end Sequence

/-! ## Nodes as trees -/

namespace YNode

/-- Specification: the data found at a path, without any side effect. -/
def get : YNode → List YKey → YNode
  | t, [] => t
  | seq s, .idx i :: p => get ((smFind i s).getD none) p
  | map m, .name k :: p => get ((smFind k m).getD none) p
  | _, _ :: _ => none

/-- Specification: along the path no bracket meets data of another kind. -/
def Compat : YNode → List YKey → Prop
  | _, [] => True
  | none, _ :: _ => True
  | seq s, .idx i :: p => Compat ((smFind i s).getD none) p
  | map m, .name k :: p => Compat ((smFind k m).getD none) p
  | _, _ :: _ => False

/-- Specification: the path exists in the tree. -/
def Exists : YNode → List YKey → Prop
  | _, [] => True
  | seq s, .idx i :: p => ∃ c, smFind i s = some c ∧ Exists c p
  | map m, .name k :: p => ∃ c, smFind k m = some c ∧ Exists c p
  | _, _ :: _ => False

/-- Specification: two nodes look alike to a reader of values: same text, and the same kind and
size if it is a sequence. -/
def SameData (a b : YNode) : Prop :=
  (∀ s, a = scalar s ↔ b = scalar s) ∧
    ((∃ s, a = seq s) ∨ (∃ s, b = seq s) → a.size = b.size)

theorem SameData.rfl' (a : YNode) : SameData a a := ⟨fun _ => Iff.rfl, fun _ => rfl⟩

theorem get_none (p : List YKey) : get none p = none := by
  cases p with
  | nil => rfl
  | cons k p => cases k <;> rfl

theorem ref_none (p : List YKey) : ref none p = none := by
  induction p with
  | nil => rfl
  | cons k p ih => cases k <;> simpa [ref, initSeq, initMap, smFind] using ih

theorem ref_eq_get (t : YNode) (p : List YKey) : ref t p = get t p := by
  induction p generalizing t with
  | nil => cases t <;> rfl
  | cons k p ih =>
    cases k with
    | idx i =>
      cases t with
      | seq s => simp only [ref, get, initSeq]; exact ih _
      | none => simpa [ref, get, initSeq, smFind] using ref_none p
      | scalar s => simpa [ref, get, initSeq, smFind] using ref_none p
      | map m => simpa [ref, get, initSeq, smFind] using ref_none p
    | name k =>
      cases t with
      | map m => simp only [ref, get, initMap]; exact ih _
      | none => simpa [ref, get, initMap, smFind] using ref_none p
      | scalar s => simpa [ref, get, initMap, smFind] using ref_none p
      | seq s => simpa [ref, get, initMap, smFind] using ref_none p

theorem compat_none (p : List YKey) : Compat none p := by
  cases p <;> trivial

theorem get_seq_idx (s : List (ℕ × YNode)) (i : ℕ) (p : List YKey) :
    get (seq s) (.idx i :: p) = get ((smFind i s).getD none) p := rfl

theorem get_map_name (m : List (String × YNode)) (k : String) (p : List YKey) :
    get (map m) (.name k :: p) = get ((smFind k m).getD none) p := rfl

theorem modify_name (f : YNode → YNode) (t : YNode) (k : String) (p : List YKey) :
    modify f t (.name k :: p) =
      map (smAssign k (modify f ((smFind k t.initMap).getD none) p) t.initMap) := rfl

end YNode

open YNode

/-- **C38** A chain of brackets yields exactly the data at that path (nothing if the path does not
exist or meets data of another kind). -/
theorem C38_lookup_value (t : YNode) (p : List YKey) : t.ref p = t.get p := ref_eq_get t p

/-- **C38** Looking up an existing path leaves the whole tree as it was. -/
theorem C38_lookup_existing_unchanged (t : YNode) (p : List YKey) (h : t.Exists p) :
    t.touch p = t := by
  unfold touch
  induction p generalizing t with
  | nil => rfl
  | cons k p ih =>
    cases k with
    | idx i =>
      cases t with
      | seq s =>
        obtain ⟨c, hc, hp⟩ := h
        simp only [YNode.modify, initSeq, hc]
        rw [ih c hp, smAssign_of_find _ _ _ hc]
      | none => exact h.elim
      | scalar s => exact h.elim
      | map m => exact h.elim
    | name k =>
      cases t with
      | map m =>
        obtain ⟨c, hc, hp⟩ := h
        simp only [YNode.modify, initMap, hc, Option.getD_some]
        rw [ih c hp, smAssign_of_find _ _ _ hc]
      | none => exact h.elim
      | scalar s => exact h.elim
      | seq s => exact h.elim

/-- **C38** Looking up any path that meets no data of another kind changes no data: every text and
every sequence size at every path stays. -/
theorem C38_lookup_keeps_data (t : YNode) (p q : List YKey) (h : t.Compat p) :
    SameData (t.get q) ((t.touch p).get q) := by
  unfold touch
  induction p generalizing t q with
  | nil => exact SameData.rfl' _
  | cons k p ih =>
    cases k with
    | idx i =>
      -- the node is none or a sequence
      have hcase : (∃ s, t = seq s) ∨ t = YNode.none := by
        cases t with
        | seq s => exact Or.inl ⟨s, rfl⟩
        | none => exact Or.inr rfl
        | scalar s => exact h.elim
        | map m => exact h.elim
      rcases hcase with ⟨s, rfl⟩ | rfl
      · cases hc : smFind i s with
        | none =>
          have : modify id (seq s) (.idx i :: p) = seq s := by simp [YNode.modify, initSeq, hc]
          rw [this]; exact SameData.rfl' _
        | some c =>
          have hcomp : Compat c p := by
            have h' : Compat ((smFind i s).getD YNode.none) p := h
            rwa [hc] at h'
          have e : modify id (seq s) (.idx i :: p) = seq (smAssign i (modify id c p) s) := by
            simp [YNode.modify, initSeq, hc]
          rw [e]
          cases q with
          | nil =>
            refine ⟨fun s' => by simp [YNode.get], fun _ => ?_⟩
            simp only [YNode.get, size]
            unfold smAssign
            rw [hc]
            exact (length_smReplace _ _ _).symm
          | cons k' q =>
            cases k' with
            | name n => exact SameData.rfl' _
            | idx j =>
              rw [get_seq_idx, get_seq_idx, smFind_smAssign]
              by_cases hj : j = i
              · subst hj
                rw [if_pos rfl, hc]
                exact ih c q hcomp
              · rw [if_neg hj]; exact SameData.rfl' _
      · have : modify id YNode.none (.idx i :: p) = seq [] := by simp [YNode.modify, initSeq, smFind]
        rw [this, get_none]
        cases q with
        | nil => exact ⟨fun s' => by simp [YNode.get], fun _ => rfl⟩
        | cons k' q =>
          have : get (seq []) (k' :: q) = YNode.none := by
            cases k' with
            | idx j => rw [get_seq_idx]; exact get_none q
            | name n => rfl
          rw [this]; exact SameData.rfl' _
    | name k =>
      have hcase : (∃ m, t = map m) ∨ t = YNode.none := by
        cases t with
        | map m => exact Or.inl ⟨m, rfl⟩
        | none => exact Or.inr rfl
        | scalar s => exact h.elim
        | seq s => exact h.elim
      have key : ∀ m : List (String × YNode), Compat ((smFind k m).getD YNode.none) p →
          ∀ (t : YNode), t.initMap = m → (∀ q', get t (.name k :: q') = get ((smFind k m).getD
            YNode.none) q') →
          (∀ n q', n ≠ k → get t (.name n :: q') = get ((smFind n m).getD YNode.none) q') →
          (∀ s', t ≠ scalar s') → (∀ s', t ≠ seq s') →
          SameData (t.get q) ((modify id t (.name k :: p)).get q) := by
        intro m hcomp t ht h1 h2 h3 h4
        rw [modify_name, ht]
        cases q with
        | nil =>
          have e1 : ∀ t : YNode, get t [] = t := fun t => by cases t <;> rfl
          rw [e1, e1]
          refine ⟨fun s' => ⟨fun e => absurd e (h3 s'), fun e => by cases e⟩, ?_⟩
          rintro (⟨s', e⟩ | ⟨s', e⟩)
          · exact absurd e (h4 s')
          · cases e
        | cons k' q =>
          cases k' with
          | idx j =>
            have e : get t (.idx j :: q) = YNode.none := by
              cases t with
              | seq s' => exact absurd rfl (h4 s')
              | none => rfl
              | scalar s' => rfl
              | map m' => rfl
            rw [e]
            exact SameData.rfl' _
          | name n =>
            rw [get_map_name, smFind_smAssign]
            by_cases hn : n = k
            · subst hn
              rw [if_pos rfl, h1]
              exact ih _ q hcomp
            · rw [if_neg hn, h2 n q hn]
              exact SameData.rfl' _
      rcases hcase with ⟨m, rfl⟩ | rfl
      · exact key m h _ rfl (fun _ => rfl) (fun _ _ _ => rfl) (by simp) (by simp)
      · refine key [] (compat_none p) _ rfl (fun q' => ?_) (fun n q' _ => ?_) (by simp) (by simp)
        · exact (get_none q').symm
        · exact (get_none q').symm

/-- Non-trivial case: looking up a missing name below an existing map. -/
example : (YNode.map [("a", .scalar "1"), ("b", .map [("c", .scalar "2")])]).Compat
    [.name "b", .name "d"] := by
  simp [Compat, smFind]

/-- **C38** Looking up a missing name grows the map: its size and its keys change. -/
theorem C38_lookup_adds_entry_fails :
    let t := YNode.map [("a", .scalar "1")]
    t.size = 1 ∧ (t.touch [.name "zz"]).size = 2 := by
  decide

/-- **C38** Looking up with a bracket of the wrong kind destroys the data. -/
theorem C38_lookup_wrong_kind_fails :
    let t := YNode.map [("regions", .map [("density", .scalar "1")])]
    (t.get [.name "regions", .name "density"]).asString = "1" ∧
      ((t.touch [.name "regions", .idx 0]).get [.name "regions", .name "density"]).asString = "" := by
  decide

/-- **C38** Assigning to a path whose indices exist stores the text there. -/
theorem C38_assign_stores (t : YNode) (p : List YKey) (s : String)
    (h : ∀ (p₁ : List YKey) (i : ℕ) (p₂ : List YKey), p = p₁ ++ .idx i :: p₂ →
      t.Exists (p₁ ++ [.idx i])) :
    (t.assign p s).get p = .scalar s := by
  unfold assign
  have gen : ∀ (p : List YKey) (t : YNode), (∀ (p₁ : List YKey) (i : ℕ) (p₂ : List YKey),
      p = p₁ ++ .idx i :: p₂ → t.Exists (p₁ ++ [.idx i])) →
      (modify (fun _ => YNode.scalar s) t p).get p = .scalar s := by
    clear h t p
    intro p
    induction p with
    | nil => intro t _; rfl
    | cons k p ih =>
      intro t h
      cases k with
      | idx i =>
        have h0 := h [] i p rfl
        cases t with
        | seq l =>
          obtain ⟨c, hc, _⟩ := h0
          have e : modify (fun _ => YNode.scalar s) (seq l) (.idx i :: p) =
              seq (smAssign i (modify (fun _ => YNode.scalar s) c p) l) := by
            simp [YNode.modify, initSeq, hc]
          rw [e, get_seq_idx, smFind_smAssign, if_pos rfl]
          refine ih c ?_
          intro p₁ j p₂ hp
          obtain ⟨c', hc', hex⟩ := h (.idx i :: p₁) j p₂ (by rw [hp]; rfl)
          rw [hc] at hc'
          cases hc'
          exact hex
        | none => exact h0.elim
        | scalar l => exact h0.elim
        | map l => exact h0.elim
      | name k =>
        rw [modify_name, get_map_name, smFind_smAssign, if_pos rfl]
        refine ih _ ?_
        intro p₁ j p₂ hp
        have h1 := h (.name k :: p₁) j p₂ (by rw [hp]; rfl)
        cases t with
        | map m =>
          obtain ⟨c, hc, hex⟩ := h1
          simp only [initMap, hc, Option.getD_some]
          exact hex
        | none => exact h1.elim
        | scalar l => exact h1.elim
        | seq l => exact h1.elim
  exact gen p t h

example : ((YNode.map [("b", .seq [(0, .scalar "2")])]).assign [.name "b", .idx 0] "7").get
    [.name "b", .idx 0] = .scalar "7" := by
  refine C38_assign_stores _ _ _ ?_
  intro p₁ i p₂ h
  rcases p₁ with _ | ⟨a, _ | ⟨b, p₁⟩⟩
  · simp at h
  · simp at h
    obtain ⟨rfl, rfl, rfl⟩ := h
    simp [YNode.Exists, smFind]
  · simp at h

/-- **C38** Assigning to a missing index is lost. -/
theorem C38_assign_missing_index_fails :
    ((YNode.seq [(0, .scalar "2")]).assign [.idx 1] "7").get [.idx 1] = .none := by
  rfl

/-- **C38** Assigning to (or anything done at) one path leaves the text at every other path, as long
as the path meets no data of another kind: `q` is not below `p`. -/
theorem C38_modify_elsewhere (f : YNode → YNode) (t : YNode) (p q : List YKey) (h : t.Compat p)
    (hpq : ¬ p <+: q) (hqp : ¬ q <+: p) : (t.modify f p).get q = t.get q := by
  induction p generalizing t q with
  | nil => exact absurd List.nil_prefix hpq
  | cons k p ih =>
    cases q with
    | nil => exact absurd List.nil_prefix hqp
    | cons k' q =>
      have hsub : k = k' → ¬ p <+: q ∧ ¬ q <+: p := by
        rintro rfl
        exact ⟨fun h => hpq (List.cons_prefix_cons.mpr ⟨rfl, h⟩),
          fun h => hqp (List.cons_prefix_cons.mpr ⟨rfl, h⟩)⟩
      cases k with
      | idx i =>
        cases t with
        | seq s =>
          cases hc : smFind i s with
          | none =>
            have : modify f (seq s) (.idx i :: p) = seq s := by simp [YNode.modify, initSeq, hc]
            rw [this]
          | some c =>
            have hcomp : Compat c p := by
              have h' : Compat ((smFind i s).getD YNode.none) p := h
              rwa [hc] at h'
            have e : modify f (seq s) (.idx i :: p) = seq (smAssign i (modify f c p) s) := by
              simp [YNode.modify, initSeq, hc]
            rw [e]
            cases k' with
            | name n => rfl
            | idx j =>
              rw [get_seq_idx, get_seq_idx, smFind_smAssign]
              by_cases hj : j = i
              · subst hj
                rw [if_pos rfl, hc]
                obtain ⟨a, b⟩ := hsub rfl
                exact ih c q hcomp a b
              · rw [if_neg hj]
        | none =>
          have : modify f YNode.none (.idx i :: p) = seq [] := by simp [YNode.modify, initSeq, smFind]
          rw [this, get_none]
          cases k' with
          | idx j => rw [get_seq_idx]; exact get_none q
          | name n => rfl
        | scalar s => exact h.elim
        | map m => exact h.elim
      | name k =>
        cases t with
        | map m =>
          rw [modify_name]
          cases k' with
          | idx j => rfl
          | name n =>
            rw [get_map_name, get_map_name, smFind_smAssign]
            by_cases hn : n = k
            · subst hn
              rw [if_pos rfl]
              obtain ⟨a, b⟩ := hsub rfl
              exact ih _ q h a b
            · rw [if_neg hn]; rfl
        | none =>
          rw [modify_name, get_none]
          cases k' with
          | idx j => rfl
          | name n =>
            rw [get_map_name, smFind_smAssign]
            by_cases hn : n = k
            · subst hn
              rw [if_pos rfl]
              obtain ⟨a, b⟩ := hsub rfl
              have := ih YNode.none q (compat_none p) a b
              rw [get_none] at this
              exact this
            · rw [if_neg hn]; exact get_none q
        | scalar s => exact h.elim
        | seq s => exact h.elim

/-- **C38** A map's keys are always visited in increasing order, without repetition, whatever was
assigned before: assignment keeps the order. -/
theorem C38_keys_sorted {α : Type*} (ops : List (String × α)) :
    SmSorted (ops.foldl (fun m x => smAssign x.1 x.2 m) []) ∧
      ∀ k, smFind k (ops.foldl (fun m x => smAssign x.1 x.2 m) []) =
        (ops.reverse.find? fun x => x.1 == k).map Prod.snd := by
  induction ops using List.reverseRecOn with
  | nil => exact ⟨by simp [SmSorted], fun k => rfl⟩
  | append_singleton l x ih =>
    rw [List.foldl_append]
    refine ⟨ih.1.assign, fun k => ?_⟩
    simp only [List.foldl_cons, List.foldl_nil, List.reverse_append, List.reverse_cons,
      List.reverse_nil, List.nil_append, List.cons_append, smFind_smAssign]
    rw [List.find?_cons]
    by_cases h : k = x.1
    · simp [h]
    · have : (x.1 == k) = false := by simpa using Ne.symm h
      rw [if_neg h, this, ih.2]

namespace YNode

theorem modify_get_names (f : YNode → YNode) : ∀ (ks : List String) (t : YNode),
    (modify f t (ks.map .name)).get (ks.map .name) = f (t.get (ks.map .name)) := by
  intro ks
  induction ks with
  | nil => intro t; rfl
  | cons k ks ih =>
    intro t
    rw [List.map_cons, modify_name, get_map_name, smFind_smAssign, if_pos rfl, Option.getD_some, ih]
    cases t with
    | map m => rfl
    | none => cases ks <;> rfl
    | scalar l => cases ks <;> rfl
    | seq l => cases ks <;> rfl

end YNode

open YNode in
/-- **C38** Texts pushed back one after the other at a place that is reached by names and does not
yet hold a list: the list found there afterwards holds these texts, in that order. -/
theorem C38_push_back_texts (t : YNode) (ks : List String) (x : String) (xs : List String)
    (h : ∀ s, t.get (ks.map .name) ≠ .seq s) :
    ∃ s, ((x :: xs).foldl (fun t y => t.pushBack (ks.map .name) y) t).get (ks.map .name) = .seq s ∧
      SeqShows s ((x :: xs).map .scalar) := by
  have step : ∀ (ys : List String) (t : YNode) (l : List YNode),
      t.get (ks.map .name) = .seq (seqOf l) →
      (ys.foldl (fun t y => t.pushBack (ks.map .name) y) t).get (ks.map .name)
        = .seq (seqOf (l ++ ys.map .scalar)) := by
    intro ys
    induction ys with
    | nil => intro t l ht; simpa using ht
    | cons y ys ih =>
      intro t l ht
      rw [List.foldl_cons, ih _ (l ++ [.scalar y])]
      · simp
      · rw [pushBack, modify_get_names, ht]
        simp only [initSeq]
        rw [pushBack_seqOf]
  refine ⟨_, ?_, seqOf_shows _⟩
  have h0 : (t.get (ks.map .name)).initSeq = seqOf [] := by
    cases hs : t.get (ks.map .name) with
    | seq s => exact absurd hs (h s)
    | none => rfl
    | scalar l => rfl
    | map m => rfl
  rw [List.foldl_cons, step xs _ [.scalar x]]
  · rfl
  · rw [pushBack, modify_get_names, h0, pushBack_seqOf]
    rfl

example : ∀ s, (YNode.map [("a", .scalar "1")]).get (["b", "c"].map .name) ≠ .seq s := by
  intro s h
  cases h

end Fierro
