import Verif.Model.Checkpoint
import Mathlib.Data.List.Basic
import Mathlib.Data.List.Nodup
import Mathlib.Data.List.TakeWhile
import Mathlib.Tactic.Linarith

/-!
# C152: checkpoints of the forward solve
-/

namespace Fierro

variable {V D : Type}

/-! ## Specification -/

/-- The state after `k` cycles. -/
def ckPath (next : ℕ → V × D → V × D) (s : V × D) : ℕ → V × D
  | 0 => s
  | k + 1 => next k (ckPath next s k)

/-- What an adjoint solve of `N` cycles needs, last cycle first: the states after and before each cycle. -/
def adjointPairs (next : ℕ → V × D → V × D) (s : V × D) : ℕ → List ((V × D) × (V × D))
  | 0 => []
  | N + 1 => (ckPath next s (N + 1), ckPath next s N) :: adjointPairs next s N

/-! ## Lemmas -/

/-- What holds of the containers when the last checkpoint is that of step `k`. -/
structure CkInv (next : ℕ → V × D → V × D) (s : V × D) (st : CkState V D) (k : ℕ) : Prop where
  sorted : st.set.Pairwise fun a b => a.step < b.step
  zero : ∃ c ∈ st.set, c.step = 0
  last : ∃ l c, st.set = l ++ [c] ∧ c.step = k
  values : ∀ c ∈ st.set, (st.mem c.buf, c.data) = ckPath next s c.step
  bufs : ((st.set ++ st.cached).map Ckpt.buf).Nodup
  count : st.set.length = st.active + 1

theorem ckInsert_end (c : Ckpt D) : ∀ l : List (Ckpt D), (∀ d ∈ l, d.step < c.step) → ckInsert c l = l ++ [c]
  | [], _ => rfl
  | d :: l, h => by
    have hd := h d (by simp)
    rw [ckInsert, if_neg (by omega), if_pos hd, ckInsert_end c l fun e he => h e (by simp [he])]
    rfl

theorem ckErase_mid (a b : List (Ckpt D)) (d : Ckpt D)
    (h : (a ++ d :: b).Pairwise fun a b => a.step < b.step) : ckErase d (a ++ d :: b) = a ++ b := by
  unfold ckErase
  have ha : ∀ x ∈ a, x.step < d.step := fun x hx => (List.pairwise_append.1 h).2.2 x hx d (by simp)
  rw [List.eraseP_append_right]
  · simp
  · intro x hx
    have := ha x hx
    simp; omega

variable {next : ℕ → V × D → V × D} {s : V × D} {st : CkState V D} {k : ℕ}

theorem CkInv.le (h : CkInv next s st k) : ∀ c ∈ st.set, c.step ≤ k := by
  obtain ⟨l, e, he, hk⟩ := h.last
  intro c hc
  have hs := h.sorted
  rw [he] at hc hs
  rcases List.mem_append.1 hc with hc | hc
  · have := (List.pairwise_append.1 hs).2.2 c hc e (by simp)
    omega
  · have : c = e := by simpa using hc
    rw [this, hk]

/-- The new last checkpoint in place of `d`. -/
theorem CkInv.replace (h : CkInv next s st k) (d : Ckpt D) (hd : d ∈ st.set) (h0 : d.step ≠ 0) (lv : ℕ) :
    CkInv next s (replaceCk st (k + 1) lv (ckPath next s (k + 1)) d) (k + 1) ∧
      (∃ l, (replaceCk st (k + 1) lv (ckPath next s (k + 1)) d).set =
        l ++ [⟨k + 1, lv, d.buf, (ckPath next s (k + 1)).2⟩]) ∧
      ∀ c ∈ st.set, c.step ≠ d.step → c ∈ (replaceCk st (k + 1) lv (ckPath next s (k + 1)) d).set := by
  obtain ⟨a, b, e⟩ := List.append_of_mem hd
  have hle := h.le
  have hs := h.sorted
  have hb := h.bufs
  have hz := h.zero
  have hv := h.values
  have hc := h.count
  rw [e] at hle hs hb hz hv hc
  have e1 : (replaceCk st (k + 1) lv (ckPath next s (k + 1)) d).set =
      (a ++ b) ++ [⟨k + 1, lv, d.buf, (ckPath next s (k + 1)).2⟩] := by
    simp only [replaceCk, e, ckErase_mid a b d hs]
    apply ckInsert_end
    intro x hx
    have := hle x (by rcases List.mem_append.1 hx with hx | hx <;> simp [hx])
    simp only; omega
  have hab : ∀ x ∈ a ++ b, x ∈ a ++ d :: b := fun x hx => by
    rcases List.mem_append.1 hx with hx | hx <;> simp [hx]
  have hbuf : ∀ x ∈ a ++ b, x.buf ≠ d.buf := by
    intro x hx hxb
    simp only [List.map_append, List.map_cons, List.append_assoc, List.cons_append] at hb
    have hp := (List.nodup_middle.1 hb)
    rw [List.nodup_cons] at hp
    apply hp.1
    rw [← hxb]
    rcases List.mem_append.1 hx with hx | hx
    · exact List.mem_append_left _ (List.mem_map_of_mem hx)
    · exact List.mem_append_right _ (List.mem_append_left _ (List.mem_map_of_mem hx))
  refine ⟨⟨?_, ?_, ⟨a ++ b, _, e1, rfl⟩, ?_, ?_, ?_⟩, ⟨a ++ b, e1⟩, ?_⟩
  · rw [e1, List.pairwise_append]
    refine ⟨hs.sublist ?_, List.pairwise_singleton _ _, ?_⟩
    · exact List.Sublist.append_left (List.sublist_cons_self d b) a
    · intro x hx y hy
      have hy' := List.mem_singleton.1 hy
      have := hle x (hab x hx)
      rw [hy']; simp only; omega
  · obtain ⟨c, hc, c0⟩ := hz
    refine ⟨c, ?_, c0⟩
    rw [e1]
    have : c ≠ d := fun hcd => h0 (by rw [← hcd, c0])
    simp only [List.mem_append, List.mem_cons] at hc ⊢
    tauto
  · intro c hc
    rw [e1] at hc
    rcases List.mem_append.1 hc with hc | hc
    · have : (replaceCk st (k + 1) lv (ckPath next s (k + 1)) d).mem c.buf = st.mem c.buf := by
        simp only [replaceCk]
        exact Function.update_of_ne (hbuf c hc) _ _
      rw [this]
      exact hv c (hab c hc)
    · have hc' := List.mem_singleton.1 hc
      subst hc'
      simp [replaceCk]
  · rw [e1]
    simp only [replaceCk, List.map_append, List.map_cons, List.map_nil, List.append_assoc, List.cons_append,
      List.nil_append] at hb ⊢
    have hp := List.nodup_middle.1 hb
    rw [← List.append_assoc]
    apply List.nodup_middle.2
    rw [List.append_assoc]
    exact hp
  · rw [e1]
    simp only [replaceCk]
    simp at hc ⊢
    omega
  · intro c hc hcd
    rw [e] at hc
    rw [e1]
    have : c ≠ d := fun h => hcd (by rw [h])
    simp only [List.mem_append, List.mem_cons] at hc ⊢
    tauto

/-- A new last checkpoint in a buffer of its own. -/
theorem CkInv.grow (h : CkInv next s st k) (b : ℕ) (cs : List (Ckpt D)) (st' : CkState V D)
    (hb : ((st.set ++ cs).map Ckpt.buf).Nodup) (hf : b ∉ (st.set ++ cs).map Ckpt.buf)
    (hset : st'.set = ckInsert ⟨k + 1, 0, b, (ckPath next s (k + 1)).2⟩ st.set) (hcs : st'.cached = cs)
    (ha : st'.active = st.active + 1) (hm : st'.mem = Function.update st.mem b (ckPath next s (k + 1)).1) :
    CkInv next s st' (k + 1) ∧ st'.set = st.set ++ [⟨k + 1, 0, b, (ckPath next s (k + 1)).2⟩] := by
  have hle := h.le
  have e1 : st'.set = st.set ++ [⟨k + 1, 0, b, (ckPath next s (k + 1)).2⟩] := by
    rw [hset]
    apply ckInsert_end
    intro x hx
    have := hle x hx
    simp only; omega
  refine ⟨⟨?_, ?_, ⟨_, _, e1, rfl⟩, ?_, ?_, ?_⟩, e1⟩
  · rw [e1, List.pairwise_append]
    refine ⟨h.sorted, List.pairwise_singleton _ _, ?_⟩
    intro x hx y hy
    have hy' := List.mem_singleton.1 hy
    have := hle x hx
    rw [hy']; simp only; omega
  · obtain ⟨c, hc, c0⟩ := h.zero
    exact ⟨c, by rw [e1]; simp [hc], c0⟩
  · intro c hc
    rw [e1] at hc
    rcases List.mem_append.1 hc with hc | hc
    · have hne : c.buf ≠ b := fun hcb => hf (by
        rw [← hcb]; exact List.mem_map_of_mem (List.mem_append_left _ hc))
      rw [hm, Function.update_of_ne hne]
      exact h.values c hc
    · have hc' := List.mem_singleton.1 hc
      subst hc'
      simp [hm]
  · rw [e1, hcs]
    simp only [List.map_append, List.map_cons, List.map_nil, List.append_assoc, List.cons_append,
      List.nil_append] at hb hf ⊢
    apply List.nodup_middle.2
    exact List.nodup_cons.2 ⟨hf, hb⟩
  · rw [e1, ha]
    simp [h.count]

/-- The last raised checkpoint is in the set. -/
def RaisedIn (st : CkState V D) : Prop := ∃ r, st.raised = some r ∧ ∃ c ∈ st.set, c.step = r

theorem CkInv.storeFull (h : CkInv next s st k) (hr : RaisedIn st) (ha : 1 ≤ st.active) :
    ∃ st', storeFull st (k + 1) (ckPath next s (k + 1)) = some st' ∧ CkInv next s st' (k + 1) ∧ RaisedIn st' ∧
      st'.active = st.active ∧ st'.cached = st.cached ∧ ∀ c ∈ st'.set, ∃ d ∈ st.set, c.buf = d.buf := by
  obtain ⟨r, er, c, hc, hcr⟩ := hr
  have hany : st.set.any (fun c => c.step == r) = true := by
    rw [List.any_eq_true]; exact ⟨c, hc, by simp [hcr]⟩
  have hbufs : ∀ d ∈ st.set, ∀ lv, ∀ x ∈ (replaceCk st (k + 1) lv (ckPath next s (k + 1)) d).set,
      ∃ y ∈ st.set, x.buf = y.buf := by
    intro d hd lv x hx
    have hins : ∀ (c : Ckpt D) (l : List (Ckpt D)), ∀ x ∈ ckInsert c l, x = c ∨ x ∈ l := by
      intro c l
      induction l with
      | nil => intro x hx; simpa [ckInsert] using hx
      | cons d l ih =>
        intro x hx
        unfold ckInsert at hx
        split at hx
        · simpa using hx
        split at hx
        · rcases List.mem_cons.1 hx with hx | hx
          · exact .inr (by simp [hx])
          · rcases ih x hx with hx | hx
            · exact .inl hx
            · exact .inr (by simp [hx])
        · exact .inr hx
    rcases hins _ _ x hx with rfl | hx
    · exact ⟨d, hd, rfl⟩
    · exact ⟨x, List.mem_of_mem_eraseP hx, rfl⟩
  unfold Fierro.storeFull
  rw [er]
  simp only [hany, if_true]
  cases hd : dispensable st r with
  | some d =>
    unfold dispensable at hd
    have hm : d ∈ (st.set.takeWhile fun c => c.step < r).drop 1 := by
      have := List.mem_of_find?_eq_some hd
      simpa using this
    have htw : d ∈ st.set.takeWhile fun c => c.step < r := List.mem_of_mem_drop hm
    have hdr : d.step < r := by simpa using List.mem_takeWhile_imp htw
    have hds : d ∈ st.set := (List.takeWhile_sublist _).subset htw
    have h0 : d.step ≠ 0 := by
      have hp : (st.set.takeWhile fun c => c.step < r).Pairwise fun a b => a.step < b.step :=
        h.sorted.sublist (List.takeWhile_sublist _)
      cases hl : st.set.takeWhile fun c => decide (c.step < r) with
      | nil => rw [hl] at hm; simp at hm
      | cons x xs =>
        rw [hl] at hm hp
        have := (List.pairwise_cons.1 hp).1 d (by simpa using hm)
        omega
    obtain ⟨i1, i2, i3⟩ := h.replace d hds h0 0
    exact ⟨_, rfl, i1, ⟨r, er, c, i3 c hc (by omega), hcr⟩, rfl, rfl, hbufs d hds 0⟩
  | none =>
    obtain ⟨l, e, he, hek⟩ := h.last
    have hl : st.set.getLast? = some e := by rw [he]; simp
    simp only [hl]
    have hes : e ∈ st.set := by rw [he]; simp
    have hk0 : e.step ≠ 0 := by
      intro hk
      have hcnt := h.count
      have hs := h.sorted
      rw [he] at hcnt hs
      cases l with
      | nil => simp at hcnt; omega
      | cons x xs =>
        have := (List.pairwise_append.1 hs).2.2 x (by simp) e (by simp)
        omega
    obtain ⟨i1, ⟨l', hl'⟩, _⟩ := h.replace e hes hk0 (e.level + 1)
    refine ⟨_, rfl, ⟨i1.sorted, i1.zero, i1.last, i1.values, i1.bufs, i1.count⟩, ⟨k + 1, ?_, ?_⟩, rfl, rfl,
      hbufs e hes _⟩
    · simp [hl']
    · exact ⟨_, by simp only [hl']; exact List.mem_append_right _ (List.mem_singleton.2 rfl), rfl⟩

theorem ckStart_inv : CkInv next s (ckStart s) 0 :=
  ⟨by simp [ckStart], ⟨_, List.mem_singleton.2 rfl, rfl⟩, ⟨[], _, rfl, rfl⟩, by simp [ckStart, ckPath],
    by simp [ckStart], rfl⟩

theorem forward_inv (n : ℕ) (hn : 1 ≤ n) (next : ℕ → V × D → V × D) (s : V × D) : ∀ N, ∃ st,
    forwardRun n next s N = some (st, ckPath next s N) ∧ CkInv next s st N ∧ st.cached = [] ∧
      st.active = min n N ∧ (1 ≤ N → RaisedIn st) ∧ ∀ c ∈ st.set, c.buf ≤ st.active
  | 0 => ⟨ckStart s, rfl, ckStart_inv, rfl, by simp [ckStart], by omega, by simp [ckStart]⟩
  | N + 1 => by
    obtain ⟨st, h1, h2, h3, h4, h5, h6⟩ := forward_inv n hn next s N
    simp only [forwardRun, h1, Option.bind_some]
    change ∃ st', (storeForward n st (N + 1) (ckPath next s (N + 1))).map _ = _ ∧ _
    unfold storeForward
    by_cases hlt : st.active < n
    · rw [if_pos hlt]
      have hb := h2.bufs
      rw [h3] at hb
      have hf : st.active + 1 ∉ (st.set ++ []).map Ckpt.buf := by
        rw [List.append_nil]
        intro hm
        obtain ⟨c, hc, hcb⟩ := List.mem_map.1 hm
        have := h6 c hc
        omega
      obtain ⟨i1, i2⟩ := h2.grow (st.active + 1) []
        { st with
          set := ckInsert ⟨N + 1, 0, st.active + 1, (ckPath next s (N + 1)).2⟩ st.set
          active := st.active + 1
          raised := (ckInsert ⟨N + 1, 0, st.active + 1, (ckPath next s (N + 1)).2⟩ st.set).getLast?.map Ckpt.step
          mem := Function.update st.mem (st.active + 1) (ckPath next s (N + 1)).1 } hb hf rfl h3 rfl rfl
      simp only at i2
      refine ⟨_, rfl, i1, h3, ?_, fun _ => ⟨N + 1, ?_, ?_⟩, ?_⟩
      · simp only; omega
      · simp [i2]
      · exact ⟨_, by simp only [i2]; exact List.mem_append_right _ (List.mem_singleton.2 rfl), rfl⟩
      · intro c hc
        simp only [i2] at hc ⊢
        rcases List.mem_append.1 hc with hc | hc
        · have := h6 c hc; omega
        · have hc' := List.mem_singleton.1 hc
          subst hc'
          exact le_refl _
    · rw [if_neg hlt]
      obtain ⟨st', j1, j2, j3, j4, j5, j6⟩ := h2.storeFull (h5 (by omega)) (by omega)
      rw [j1]
      refine ⟨st', rfl, j2, by rw [j5, h3], by rw [j4]; omega, fun _ => j3, ?_⟩
      intro c hc
      obtain ⟨d, hd, e⟩ := j6 c hc
      rw [e, j4]
      exact h6 d hd

theorem CkInv.storeSolve (n : ℕ) (hn : 1 ≤ n) (h : CkInv next s st k) (hr : RaisedIn st)
    (hc : st.active < n → st.cached ≠ []) :
    ∃ st', storeSolve n st (k + 1) (ckPath next s (k + 1)) = some st' ∧ CkInv next s st' (k + 1) ∧ RaisedIn st' ∧
      st'.active + st'.cached.length = st.active + st.cached.length := by
  unfold Fierro.storeSolve
  by_cases hlt : st.active < n
  · rw [if_pos hlt]
    cases hcs : st.cached with
    | nil => exact absurd hcs (hc hlt)
    | cons b cs =>
      have hb := h.bufs
      rw [hcs] at hb
      simp only [List.map_append, List.map_cons] at hb
      have hp := List.nodup_middle.1 hb
      rw [List.nodup_cons, ← List.map_append] at hp
      obtain ⟨i1, i2⟩ := h.grow b.buf cs
        { st with
          set := ckInsert ⟨k + 1, 0, b.buf, (ckPath next s (k + 1)).2⟩ st.set
          cached := cs
          active := st.active + 1
          mem := Function.update st.mem b.buf (ckPath next s (k + 1)).1 } hp.2 hp.1 rfl rfl rfl rfl
      refine ⟨_, rfl, i1, ?_, by simp; omega⟩
      obtain ⟨r, er, c, hc, hcr⟩ := hr
      exact ⟨r, er, c, by rw [i2]; exact List.mem_append_left _ hc, hcr⟩
  · rw [if_neg hlt]
    obtain ⟨st', j1, j2, j3, j4, j5, _⟩ := h.storeFull hr (by omega)
    exact ⟨st', j1, j2, j3, by rw [j4, j5]⟩

/-- A loop of `m` cycles; the cache suffices for all of them, or holds the buffers up to the limit. -/
theorem solveLoop_inv (n : ℕ) (hn : 1 ≤ n) : ∀ (m k : ℕ) (st : CkState V D), CkInv next s st k → RaisedIn st →
    (m ≤ st.cached.length ∨ n ≤ st.active + st.cached.length) →
    ∃ st', solveLoop n next m k (ckPath next s k) st = some st' ∧ CkInv next s st' (k + m) ∧
      st'.active + st'.cached.length = st.active + st.cached.length
  | 0, k, st, h, _, _ => ⟨st, rfl, h, rfl⟩
  | m + 1, k, st, h, hr, hc => by
    obtain ⟨st1, e1, i1, r1, c1⟩ := h.storeSolve n hn hr fun hlt hnil => by
      rw [hnil] at hc
      simp at hc
      omega
    have hset : st1.set.length ≤ st.set.length + 1 := by
      have hb : ∀ (c : Ckpt D) (l : List (Ckpt D)), (ckInsert c l).length ≤ l.length + 1 := by
        intro c l
        induction l with
        | nil => simp [ckInsert]
        | cons d l ih =>
          unfold ckInsert
          split
          · simp
          split
          · simpa using ih
          · simp
      unfold Fierro.storeSolve at e1
      split at e1
      · split at e1
        · cases e1
        · injection e1 with e1
          rw [← e1]
          exact hb _ _
      · have : 1 ≤ st.active := by omega
        obtain ⟨st', j1, j2, _, j4, _, _⟩ := h.storeFull hr this
        rw [j1] at e1
        injection e1 with e1
        rw [← e1, j2.count, j4, h.count]
        omega
    have hact : st1.active ≤ st.active + 1 := by
      have := i1.count
      have := h.count
      omega
    obtain ⟨st', e2, i2, c2⟩ := solveLoop_inv n hn m (k + 1) st1 i1 r1 (by omega)
    refine ⟨st', ?_, by rw [show k + (m + 1) = k + 1 + m by omega]; exact i2, by omega⟩
    simp only [solveLoop]
    change (Fierro.storeSolve n st (k + 1) (ckPath next s (k + 1))).bind _ = _
    rw [e1]
    exact e2

theorem firstRaised_mem (l : List (Ckpt D)) (h : l ≠ []) : ∃ r, firstRaised l = some r ∧ ∃ c ∈ l, c.step = r := by
  unfold firstRaised
  cases hf : (l.drop 1).find? (fun c => c.level != 0) with
  | some c => exact ⟨c.step, rfl, c, List.mem_of_mem_drop (List.mem_of_find?_eq_some hf), rfl⟩
  | none =>
    cases l with
    | nil => exact absurd rfl h
    | cons x xs => exact ⟨x.step, rfl, x, by simp, rfl⟩

/-- The buffers: as many as the limit, or a checkpoint for every step. -/
def Enough (n : ℕ) (st : CkState V D) (k : ℕ) : Prop :=
  n ≤ st.active + st.cached.length ∨ st.set.length = k + 1

theorem steps_le : ∀ (l : List (Ckpt D)) (a b : ℕ), l.Pairwise (fun a b => a.step < b.step) →
    (∀ c ∈ l, a ≤ c.step ∧ c.step < b) → l.length ≤ b - a
  | [], _, _, _, _ => by simp
  | c :: l, a, b, hp, h => by
    have hc := h c (by simp)
    have := steps_le l (c.step + 1) b (List.pairwise_cons.1 hp).2 fun d hd =>
      ⟨(List.pairwise_cons.1 hp).1 d hd, (h d (by simp [hd])).2⟩
    simp only [List.length_cons]
    omega

/-- One cycle of the sweep: from the state of step `k ≥ 1` to that of the cycle `c`, which is `k - 1` or `k`. -/
theorem sweepStep_inv (n : ℕ) (hn : 1 ≤ n) {c : ℕ} (h : CkInv next s st k) (hk : 1 ≤ k) (hc : c = k - 1 ∨ c = k)
    (he : Enough n st k) :
    ∃ st', sweepStep n next st c = some ((ckPath next s k, ckPath next s c), st') ∧ CkInv next s st' c ∧
      Enough n st' c ∧ st'.active + st'.cached.length = st.active + st.cached.length := by
  obtain ⟨l, e, hl, hek⟩ := h.last
  have hlast : st.set.getLast? = some e := by rw [hl]; simp
  have hs := h.sorted
  rw [hl] at hs
  have her : ckErase e st.set = l := by
    rw [hl]
    have := ckErase_mid l [] e hs
    rwa [List.append_nil] at this
  have hlt : ∀ x ∈ l, x.step < k := fun x hx => by
    have := (List.pairwise_append.1 hs).2.2 x hx e (by simp)
    omega
  have hne : l ≠ [] := by
    intro hnil
    obtain ⟨z, hz, z0⟩ := h.zero
    rw [hl, hnil] at hz
    have : z = e := by simpa using hz
    rw [this] at z0
    omega
  obtain ⟨l', e', hl'⟩ : ∃ l' e', l = l' ++ [e'] := ⟨l.dropLast, l.getLast hne, (List.dropLast_append_getLast hne).symm⟩
  have hcnt : l.length = st.active := by
    have := h.count
    rw [hl] at this
    simpa using this
  have hpos : 1 ≤ st.active := by
    rw [← hcnt]
    exact List.length_pos_iff.2 hne
  have hval : (st.mem e.buf, e.data) = ckPath next s k := by
    rw [← hek]; exact h.values e (by rw [hl]; simp)
  have h1 : CkInv next s
      { st with set := l, cached := e :: st.cached, active := st.active - 1 } e'.step := by
    refine ⟨(List.pairwise_append.1 hs).1, ?_, ⟨l', e', hl', rfl⟩, ?_, ?_, ?_⟩
    · obtain ⟨z, hz, z0⟩ := h.zero
      rw [hl] at hz
      rcases List.mem_append.1 hz with hz | hz
      · exact ⟨z, hz, z0⟩
      · have : z = e := by simpa using hz
        rw [this] at z0
        omega
    · intro x hx
      exact h.values x (by rw [hl]; exact List.mem_append_left _ hx)
    · have hb := h.bufs
      rw [hl] at hb
      simpa using hb
    · simp only; omega
  have he'k : e'.step < k := hlt e' (by rw [hl']; simp)
  simp only [sweepStep, hlast, her]
  have hlast' : l.getLast? = some e' := by rw [hl']; simp
  simp only [hlast']
  rw [hval]
  by_cases hcase : e'.step = c
  · rw [if_neg (not_not.2 hcase)]
    refine ⟨_, ?_, hcase ▸ h1, ?_, by simp only [List.length_cons]; omega⟩
    · simp only [Option.bind_some, hlast', Option.map_some]
      have := h1.values e' (by simp only; rw [hl']; simp)
      simp only at this
      rw [this, hcase]
    · rcases he with he | he
      · left; simp only [List.length_cons]; omega
      · right
        have hck : c = k - 1 := by omega
        rw [hl] at he
        simp at he
        simp only; omega
  · rw [if_pos hcase]
    have hce : e'.step < c := by omega
    have hr : RaisedIn (⟨l, e :: st.cached, st.active - 1, firstRaised l, 0, st.mem⟩ : CkState V D) := firstRaised_mem l hne
    have h1' : CkInv next s (⟨l, e :: st.cached, st.active - 1, firstRaised l, 0, st.mem⟩ : CkState V D) e'.step :=
      ⟨h1.sorted, h1.zero, h1.last, h1.values, h1.bufs, h1.count⟩
    have hv' := h1.values e' (by simp only; rw [hl']; simp)
    simp only at hv'
    have hcond : c - e'.step ≤ (e :: st.cached).length ∨ n ≤ st.active - 1 + (e :: st.cached).length := by
      rcases he with he | he
      · right; simp only [List.length_cons]; omega
      · left
        -- every step has its checkpoint
        rw [hl, hl'] at he
        simp at he
        have hs' := (List.pairwise_append.1 hs).1
        rw [hl'] at hs'
        have hb : l'.length ≤ e'.step - 0 := steps_le l' 0 e'.step (List.pairwise_append.1 hs').1 fun x hx =>
          ⟨Nat.zero_le _, (List.pairwise_append.1 hs').2.2 x hx e' (by simp)⟩
        simp only [List.length_cons]
        omega
    obtain ⟨st2, e2, i2, c2⟩ := solveLoop_inv n hn (c - e'.step) e'.step _ h1' hr hcond
    have hsum : e'.step + (c - e'.step) = c := by omega
    rw [hsum] at i2
    obtain ⟨l2, x2, hl2, hx2⟩ := i2.last
    refine ⟨st2, ?_, i2, ?_, by rw [c2]; simp only [List.length_cons]; omega⟩
    · simp only [checkpointSolve, hv', e2, Option.bind_some]
      have : st2.set.getLast? = some x2 := by rw [hl2]; simp
      rw [this]
      have hv2 := i2.values x2 (by rw [hl2]; simp)
      simp only [Option.map_some, hv2, hx2]
    · simp only [List.length_cons] at c2
      rcases he with he | he
      · left; omega
      · -- a checkpoint for every step remains
        have hc1 : c = k := by
          rcases hc with hc | hc
          · exfalso
            rw [hl, hl'] at he
            simp at he
            have hs' := (List.pairwise_append.1 hs).1
            rw [hl'] at hs'
            have hb : l'.length ≤ e'.step - 0 := steps_le l' 0 e'.step (List.pairwise_append.1 hs').1 fun x hx =>
              ⟨Nat.zero_le _, (List.pairwise_append.1 hs').2.2 x hx e' (by simp)⟩
            omega
          · exact hc
        by_cases hfull : n ≤ st.active + st.cached.length
        · left; omega
        · right
          have hek' : e'.step = k - 1 := by
            rw [hl, hl'] at he
            simp at he
            have hs' := (List.pairwise_append.1 hs).1
            rw [hl'] at hs'
            have hb : l'.length ≤ e'.step - 0 := steps_le l' 0 e'.step (List.pairwise_append.1 hs').1 fun x hx =>
              ⟨Nat.zero_le _, (List.pairwise_append.1 hs').2.2 x hx e' (by simp)⟩
            omega
          have h1m : c - e'.step = 1 := by omega
          rw [h1m] at e2
          simp only [solveLoop, Fierro.storeSolve] at e2
          rw [if_pos (by omega)] at e2
          simp only [Option.bind_some] at e2
          injection e2 with e2
          have := i2.count
          rw [← e2] at this ⊢
          rw [this]
          change st.active - 1 + 1 + 1 = c + 1
          have := h.count
          omega

theorem sweep_inv (n : ℕ) (hn : 1 ≤ n) : ∀ (c : ℕ) (st : CkState V D), CkInv next s st c → Enough n st c →
    sweep n next c st = some (adjointPairs next s c)
  | 0, _, _, _ => rfl
  | c + 1, st, h, he => by
    obtain ⟨st', e1, i1, g1, _⟩ := sweepStep_inv n hn (c := c) h (by omega) (.inl (by omega)) he
    simp only [sweep, e1, Option.bind_some, sweep_inv n hn c st' i1 g1, Option.map_some, adjointPairs]

theorem forward_enough (n : ℕ) (N : ℕ) (h : CkInv next s st N) (ha : st.active = min n N) : Enough n st N := by
  unfold Enough
  have := h.count
  omega

/-! ## The properties -/

/-- **C152.**  With a limit of at least one checkpoint, the backward sweep after a forward solve that reaches the final
time uses in every cycle the states before and after it, as if every state had been kept, for every number of cycles,
every limit and every solver. -/
theorem C152_sweep (n : ℕ) (hn : 1 ≤ n) (next : ℕ → V × D → V × D) (s : V × D) (N : ℕ) (hN : 1 ≤ N) :
    solveAndSweep n next s N true = some (adjointPairs next s N) := by
  obtain ⟨st, h1, h2, _, h4, _, _⟩ := forward_inv n hn next s N
  simp only [solveAndSweep, h1, Option.bind_some, if_true]
  rw [show N - 1 + 1 = N by omega]
  exact sweep_inv n hn N st h2 (forward_enough n N h2 h4)

/-- **C152.**  Entry by entry: the `i`-th cycle of the sweep is that from step `N - 1 - i` to `N - i`. -/
theorem C152_sweep_entry (n : ℕ) (hn : 1 ≤ n) (next : ℕ → V × D → V × D) (s : V × D) (N i : ℕ) (hi : i < N) :
    ∃ l, solveAndSweep n next s N true = some l ∧ l.length = N ∧
      l[i]? = some (ckPath next s (N - i), ckPath next s (N - 1 - i)) := by
  refine ⟨_, C152_sweep n hn next s N (by omega), ?_, ?_⟩
  · clear hi
    induction N with
    | zero => rfl
    | succ N ih => simp [adjointPairs, ih]
  · induction N generalizing i with
    | zero => omega
    | succ N ih =>
      cases i with
      | zero => simp [adjointPairs]
      | succ i =>
        simp only [adjointPairs, List.getElem?_cons_succ]
        rw [ih i (by omega), show N + 1 - (i + 1) = N - i by omega, show N + 1 - 1 - (i + 1) = N - 1 - i by omega]

/-- **C152 (a finding).**  After a forward solve ended by the limit of cycles the sweep begins one cycle too late: its
first cycle uses the last state both as the one before and as the one after, and adds to the gradient of the adjoint
solve. -/
theorem C152_cycle_limit_fails (n : ℕ) (hn : 1 ≤ n) (next : ℕ → V × D → V × D) (s : V × D) (N : ℕ) (hN : 1 ≤ N) :
    solveAndSweep n next s N false =
      some ((ckPath next s N, ckPath next s N) :: adjointPairs next s N) := by
  obtain ⟨st, h1, h2, _, h4, _, _⟩ := forward_inv n hn next s N
  simp only [solveAndSweep, h1, Option.bind_some]
  obtain ⟨st', e1, i1, g1, _⟩ := sweepStep_inv n hn (c := N) h2 hN (.inr rfl) (forward_enough n N h2 h4)
  simp [sweep, e1, sweep_inv n hn N st' i1 g1]

/-- **C152.**  The forward solve keeps the first state and at most `n` others, among them the last, in buffers with
numbers up to `n`, each with the state of its step. -/
theorem C152_forward (n : ℕ) (hn : 1 ≤ n) (next : ℕ → V × D → V × D) (s : V × D) (N : ℕ) :
    ∃ st, forwardRun n next s N = some (st, ckPath next s N) ∧ st.set.length = min n N + 1 ∧
      (∃ c ∈ st.set, c.step = 0) ∧ (∃ c ∈ st.set, c.step = N) ∧ (∀ c ∈ st.set, c.buf ≤ n) ∧
      (st.set.map Ckpt.buf).Nodup ∧ (st.set.map Ckpt.step).Pairwise (· < ·) ∧
      ∀ c ∈ st.set, (st.mem c.buf, c.data) = ckPath next s c.step := by
  obtain ⟨st, h1, h2, h3, h4, _, h6⟩ := forward_inv n hn next s N
  refine ⟨st, h1, by rw [h2.count, h4], h2.zero, ?_, ?_, ?_, ?_, h2.values⟩
  · obtain ⟨l, c, hl, hc⟩ := h2.last
    exact ⟨c, by rw [hl]; simp, hc⟩
  · intro c hc
    have := h6 c hc
    omega
  · have := h2.bufs
    rw [h3, List.append_nil] at this
    exact this
  · exact List.pairwise_map.2 h2.sorted

/-- The containers after the first `j` cycles of the sweep over `N` cycles. -/
def sweepAfter (n : ℕ) (next : ℕ → V × D → V × D) (st : CkState V D) (N : ℕ) : ℕ → Option (CkState V D)
  | 0 => some st
  | j + 1 => (sweepAfter n next st N j).bind fun st' => (sweepStep n next st' (N - 1 - j)).map Prod.snd

/-- **C152.**  In the sweep, too, no more than the first state and `n` others are kept after any cycle, each with the
state of its step, and the last one is that of the cycle. -/
theorem C152_sweep_kept (n : ℕ) (hn : 1 ≤ n) (next : ℕ → V × D → V × D) (s : V × D) (N j : ℕ) (hj : j ≤ N) :
    ∃ st r st', forwardRun n next s N = some (st, r) ∧ sweepAfter n next st N j = some st' ∧
      st'.set.length ≤ n + 1 ∧ st'.set.length ≤ N - j + 1 ∧ (∃ c, st'.set.getLast? = some c ∧ c.step = N - j) ∧
      (st'.set.map Ckpt.buf).Nodup ∧ ∀ c ∈ st'.set, (st'.mem c.buf, c.data) = ckPath next s c.step := by
  obtain ⟨st, h1, h2, h3, h4, _, _⟩ := forward_inv n hn next s N
  have key : ∀ j ≤ N, ∃ st', sweepAfter n next st N j = some st' ∧ CkInv next s st' (N - j) ∧ Enough n st' (N - j) ∧
      st'.active + st'.cached.length = st.active + st.cached.length := by
    intro j
    induction j with
    | zero => intro _; exact ⟨st, rfl, h2, forward_enough n N h2 h4, rfl⟩
    | succ j ih =>
      intro hj
      obtain ⟨st1, e1, i1, g1, c1⟩ := ih (by omega)
      obtain ⟨st2, e2, i2, g2, c2⟩ := sweepStep_inv n hn (c := N - 1 - j) i1 (by omega) (.inl (by omega)) g1
      rw [show N - 1 - j = N - (j + 1) by omega] at i2 g2
      exact ⟨st2, by simp [sweepAfter, e1, e2], i2, g2, by omega⟩
  obtain ⟨st', e, i, _, c⟩ := key j hj
  rw [h3, List.length_nil] at c
  refine ⟨st, _, st', h1, e, ?_, ?_, ?_, ?_, i.values⟩
  · rw [i.count]; omega
  · have := steps_le st'.set 0 (N - j + 1) i.sorted fun x hx => ⟨Nat.zero_le _, Nat.lt_succ_of_le (i.le x hx)⟩
    omega
  · obtain ⟨l, x, hl, hx⟩ := i.last
    exact ⟨x, by rw [hl]; simp, hx⟩
  · have := i.bufs
    rw [List.map_append] at this
    exact (List.nodup_append.1 this).1

/-- **C152.**  When the limit is reached a checkpoint is given up for the new one only if its level is below that of the
last raised one, or if it is the last: all others of that level or above are kept. -/
theorem C152_level_kept (st st' : CkState V D) (step : ℕ) (s : V × D)
    (hs : st.set.Pairwise fun a b => a.step < b.step) (h : storeFull st step s = some st') (c : Ckpt D)
    (hc : c ∈ st.set) (hlev : st.rlevel ≤ c.level) (hlast : st.set.getLast? ≠ some c) : c ∈ st'.set := by
  have hins : ∀ (a : Ckpt D) (l : List (Ckpt D)), ∀ x ∈ l, x ∈ ckInsert a l := by
    intro a l
    induction l with
    | nil => intro x hx; cases hx
    | cons d l ih =>
      intro x hx
      unfold ckInsert
      split
      · exact List.mem_cons_of_mem _ hx
      split
      · rcases List.mem_cons.1 hx with rfl | hx
        · exact List.mem_cons_self
        · exact List.mem_cons_of_mem _ (ih x hx)
      · exact hx
  have hstep : ∀ d ∈ st.set, c.step = d.step → c = d := by
    intro d hd e
    obtain ⟨i, hi, ei⟩ := List.getElem_of_mem hc
    obtain ⟨j, hj, ej⟩ := List.getElem_of_mem hd
    rcases Nat.lt_trichotomy i j with hij | hij | hij
    · have := List.pairwise_iff_getElem.1 hs i j hi hj hij
      rw [ei, ej] at this
      omega
    · subst hij
      exact ei.symm.trans ej
    · have := List.pairwise_iff_getElem.1 hs j i hj hi hij
      rw [ei, ej] at this
      omega
  have hrep : ∀ d ∈ st.set, c ≠ d → ∀ lv, c ∈ (replaceCk st step lv s d).set := by
    intro d hd hne lv
    refine hins _ _ c ?_
    unfold ckErase
    rw [List.mem_eraseP_of_neg]
    · exact hc
    · simpa using fun e => hne (hstep d hd e)
  unfold storeFull at h
  cases er : st.raised with
  | none => rw [er] at h; cases h
  | some r =>
    simp only [er] at h
    split at h
    · cases hd : dispensable st r with
      | some d =>
        simp only [hd, Option.some.injEq] at h
        subst h
        have hl : d.level < st.rlevel := by
          have := List.find?_some hd
          simpa using this
        have hm : d ∈ st.set := by
          have := List.mem_of_find?_eq_some hd
          exact (List.takeWhile_sublist _).subset (List.mem_of_mem_drop (List.mem_reverse.1 this))
        refine hrep d hm (fun e => ?_) 0
        rw [e] at hlev
        omega
      | none =>
        simp only [hd] at h
        cases hg : st.set.getLast? with
        | none => simp [hg] at h
        | some e =>
          simp only [hg, Option.some.injEq] at h
          subst h
          exact hrep e (List.mem_of_getLast? hg) (fun hce => hlast (by rw [hg, hce])) _
    · cases h

/-- **C152 (a finding).**  With a limit of zero, which the input may give, the first cycle uses an iterator that was
never assigned. -/
theorem C152_no_checkpoints_fails (next : ℕ → V × D → V × D) (s : V × D) (N : ℕ) (hN : 1 ≤ N) :
    forwardRun 0 next s N = none := by
  induction N with
  | zero => omega
  | succ N ih =>
    cases N with
    | zero => simp [forwardRun, storeForward, storeFull, ckStart]
    | succ N => rw [forwardRun, ih (by omega)]; rfl

/-- A solver that counts: the sweep over five cycles with two checkpoints. -/
example : solveAndSweep 2 (fun k p => (p.1 + k, p.2 + 1)) ((0, 0) : ℕ × ℕ) 5 true =
    some [((10, 5), (6, 4)), ((6, 4), (3, 3)), ((3, 3), (1, 2)), ((1, 2), (0, 1)), ((0, 1), (0, 0))] :=
  C152_sweep 2 (by decide) _ _ 5 (by decide)

/-- Two checkpoints besides the first: the one of level zero before the raised one makes room, the raised one stays. -/
example : (storeFull (⟨[⟨0, 9, 0, ()⟩, ⟨1, 0, 1, ()⟩, ⟨2, 1, 2, ()⟩], [], 2, some 2, 1, id⟩ : CkState ℕ Unit) 3 (7, ())).map
    (fun st => st.set.map fun c => (c.step, c.level, c.buf)) = some [(0, 9, 0), (2, 1, 2), (3, 0, 1)] := rfl

end Fierro
