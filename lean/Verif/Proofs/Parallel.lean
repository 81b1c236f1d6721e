import Verif.Model.Parallel

/-! Schedule independence of parallel loops. -/

set_option linter.unusedSectionVars false

namespace Fierro

variable {κ α ι : Type} [DecidableEq κ] [DecidableEq ι]

/-- No iteration writes a cell that another one reads or writes. -/
def ConflictFree (t : ι → List (Action κ α)) : Prop :=
  ∀ i j, i ≠ j → ∀ a ∈ t i, ∀ b ∈ t j, a.dst ≠ b.dst ∧ ¬ b.reads a.dst

theorem execActions_cons (a : Action κ α) (l : List (Action κ α)) (m : κ → α) :
    execActions (a :: l) m = execActions l (a.run m) := rfl

theorem execActions_append (l l' : List (Action κ α)) (m : κ → α) :
    execActions (l ++ l') m = execActions l' (execActions l m) := by
  simp [execActions, List.foldl_append]

/-- A cell that is not a destination keeps its value. -/
theorem execActions_notin (l : List (Action κ α)) (m : κ → α) (c : κ) (h : ∀ a ∈ l, a.dst ≠ c) :
    execActions l m c = m c := by
  induction l generalizing m with
  | nil => rfl
  | cons a l ih =>
    rw [execActions_cons, ih _ fun b hb => h b (List.mem_cons_of_mem _ hb)]
    simp [Action.run, (h a (by simp)).symm]

/-- The effect of a list only depends on the cells it reads. -/
theorem execActions_frame (l : List (Action κ α)) (P : κ → Prop) (m m' : κ → α)
    (hP : ∀ c, P c → m c = m' c) (hr : ∀ a ∈ l, ∀ c, a.reads c → P c) :
    ∀ c, (P c ∨ ∃ a ∈ l, a.dst = c) → execActions l m c = execActions l m' c := by
  induction l generalizing m m' P with
  | nil =>
    intro c hc
    rcases hc with hc | ⟨a, ha, _⟩
    · exact hP c hc
    · simp at ha
  | cons a l ih =>
    intro c hc
    rw [execActions_cons, execActions_cons]
    have hv : a.val m = a.val m' := a.frame _ _ fun k hk => hP k (hr a (by simp) k hk)
    refine ih (fun c => P c ∨ c = a.dst) _ _ ?_ ?_ c ?_
    · intro k hk
      by_cases hka : k = a.dst
      · subst hka; simp [Action.run, hv]
      · rcases hk with hk | hk
        · simp [Action.run, hka, hP k hk]
        · exact absurd hk hka
    · intro b hb k hk
      exact Or.inl (hr b (List.mem_cons_of_mem _ hb) k hk)
    · rcases hc with hc | ⟨b, hb, rfl⟩
      · exact Or.inl (Or.inl hc)
      · rcases List.mem_cons.1 hb with rfl | hb
        · exact Or.inl (Or.inr rfl)
        · exact Or.inr ⟨b, hb, rfl⟩

theorem sched_mem {A : Type} {t : ι → List A} {s : List A} (h : Sched t s) (a : A) :
    a ∈ s ↔ ∃ i, a ∈ t i := by
  induction h with
  | done t ht => simp [ht]
  | step t i b rest s hi _ ih =>
    rw [List.mem_cons, ih]
    constructor
    · rintro (rfl | ⟨j, hj⟩)
      · exact ⟨i, by rw [hi]; simp⟩
      · by_cases hji : j = i
        · subst hji
          rw [Function.update_self] at hj
          exact ⟨j, by rw [hi]; exact List.mem_cons_of_mem _ hj⟩
        · rw [Function.update_of_ne hji] at hj
          exact ⟨j, hj⟩
    · rintro ⟨j, hj⟩
      by_cases hji : j = i
      · subst hji
        rw [hi] at hj
        rcases List.mem_cons.1 hj with rfl | hj
        · exact Or.inl rfl
        · exact Or.inr ⟨j, by rw [Function.update_self]; exact hj⟩
      · exact Or.inr ⟨j, by rw [Function.update_of_ne hji]; exact hj⟩

/-- In a conflict-free loop every cell an iteration may write ends up with the value the iteration
would give it when run alone on the initial memory. -/
theorem sched_own (t : ι → List (Action κ α)) (hcf : ConflictFree t) (s : List (Action κ α))
    (h : Sched t s) (m : κ → α) (j : ι) (c : κ) (hc : ∀ i, i ≠ j → ∀ a ∈ t i, a.dst ≠ c) :
    execActions s m c = execActions (t j) m c := by
  induction h generalizing m with
  | done t ht => rw [ht j]
  | step t i a rest s hi hs ih =>
    rw [execActions_cons]
    have hsub : ∀ k b, b ∈ Function.update t i rest k → b ∈ t k := by
      intro k b hb
      by_cases hk : k = i
      · subst hk; rw [Function.update_self] at hb; rw [hi]; exact List.mem_cons_of_mem _ hb
      · rwa [Function.update_of_ne hk] at hb
    rw [ih (fun k l hkl b hb b' hb' => hcf k l hkl b (hsub k b hb) b' (hsub l b' hb'))
      (a.run m) (fun k hk b hb => hc k hk b (hsub k b hb))]
    by_cases hij : i = j
    · subst hij
      rw [Function.update_self, hi, execActions_cons]
    · rw [Function.update_of_ne (Ne.symm hij)]
      have ha : a ∈ t i := by rw [hi]; simp
      have hne : a.dst ≠ c := hc i hij a ha
      refine execActions_frame (t j) (fun k => k ≠ a.dst) _ _ ?_ ?_ c ?_
      · intro k hk; simp [Action.run, hk]
      · intro b hb k hk hka
        subst hka
        exact (hcf i j hij a ha b hb).2 hk
      · exact Or.inl hne.symm

/-- All schedules of a conflict-free loop give the same memory. -/
theorem sched_unique (t : ι → List (Action κ α)) (hcf : ConflictFree t) (s s' : List (Action κ α))
    (h : Sched t s) (h' : Sched t s') (m : κ → α) : execActions s m = execActions s' m := by
  funext c
  by_cases hc : ∃ j, ∃ a ∈ t j, a.dst = c
  · obtain ⟨j, a, ha, rfl⟩ := hc
    have hother : ∀ i, i ≠ j → ∀ b ∈ t i, b.dst ≠ a.dst := fun i hij b hb =>
      (hcf i j hij b hb a ha).1
    rw [sched_own t hcf s h m j _ hother, sched_own t hcf s' h' m j _ hother]
  · push Not at hc
    have hn : ∀ s, Sched t s → execActions s m c = m c := by
      intro s hs
      apply execActions_notin
      intro a ha
      obtain ⟨i, hi⟩ := (sched_mem hs a).1 ha
      exact hc i a hi
    rw [hn s h, hn s' h']

/-- Running the iterations one after the other is a schedule. -/
theorem sched_seq {A : Type} (is : List ι) (hnd : is.Nodup) (t : ι → List A)
    (hall : ∀ i, i ∉ is → t i = []) : Sched t (is.flatMap t) := by
  induction is generalizing t with
  | nil => exact Sched.done t fun i => hall i (by simp)
  | cons i is ih =>
    rw [List.flatMap_cons]
    have hni := (List.nodup_cons.1 hnd).1
    suffices H : ∀ (l : List A) (t : ι → List A), t i = l → (∀ k, k ∉ i :: is → t k = []) →
        Sched t (l ++ is.flatMap t) from H (t i) t rfl hall
    intro l
    induction l with
    | nil =>
      intro t ht hall
      rw [List.nil_append]
      refine ih (List.nodup_cons.1 hnd).2 t fun k hk => ?_
      by_cases hki : k = i
      · rw [hki, ht]
      · exact hall k (by simp [hki, hk])
    | cons a l ihl =>
      intro t ht hall
      rw [List.cons_append]
      refine Sched.step t i a l _ ht ?_
      have := ihl (Function.update t i l) (by simp) ?_
      · have heq : is.flatMap (Function.update t i l) = is.flatMap t := by
          apply List.flatMap_congr
          intro k hk
          rw [Function.update_of_ne]
          rintro rfl
          exact hni hk
        rwa [heq] at this
      · intro k hk
        have : k ≠ i := by rintro rfl; simp at hk
        rw [Function.update_of_ne this]
        exact hall k hk

/-- Every schedule contains exactly the actions of the iterations, so it is a permutation of the
sequential run. -/
theorem sched_perm {A : Type} (is : List ι) (hnd : is.Nodup) (hmem : ∀ i, i ∈ is)
    {t : ι → List A} {s : List A} (h : Sched t s) : s.Perm (is.flatMap t) := by
  induction h with
  | done t ht =>
    have : is.flatMap t = [] := by simp [ht]
    rw [this]
  | step t i a rest s hi hs ih =>
    have h1 : (is.flatMap t).Perm (a :: is.flatMap (Function.update t i rest)) := by
      obtain ⟨l1, l2, rfl⟩ := List.append_of_mem (hmem i)
      have hnot1 : i ∉ l1 := by
        intro hi1
        exact (List.nodup_append.1 hnd).2.2 i hi1 i (by simp) rfl
      have hnot2 : i ∉ l2 := (List.nodup_cons.1 (List.nodup_append.1 hnd).2.1).1
      have hc : ∀ l : List ι, i ∉ l → l.flatMap (Function.update t i rest) = l.flatMap t := by
        intro l hl
        apply List.flatMap_congr
        intro k hk
        rw [Function.update_of_ne]
        rintro rfl
        exact hl hk
      rw [List.flatMap_append, List.flatMap_cons, List.flatMap_append, List.flatMap_cons,
        hc l1 hnot1, hc l2 hnot2, Function.update_self, hi]
      rw [List.cons_append]
      exact List.perm_middle
    exact (List.Perm.cons a ih).trans h1.symm

/-- A loop all of whose actions on shared memory are atomic additions gives the same sums under
every schedule. -/
theorem atomicAdd_exec [AddCommMonoid α] (l : List (κ × α)) (m : κ → α) (c : κ) :
    execActions (l.map fun p => Action.atomicAdd p.1 p.2) m c
      = m c + (l.map fun p => if p.1 = c then p.2 else 0).sum := by
  induction l generalizing m with
  | nil => simp [execActions]
  | cons p l ih =>
    rw [List.map_cons, execActions_cons, ih, List.map_cons, List.sum_cons, ← add_assoc]
    congr 1
    by_cases hp : p.1 = c
    · subst hp; simp [Action.run, Action.atomicAdd]
    · simp [Action.run, Action.atomicAdd, hp, Ne.symm hp]

/-- A loop of atomic additions: whatever the schedule, every cell gains all its contributions. -/
theorem atomicLoop_sched {n : ℕ} [AddCommMonoid α] (adds : Fin n → List (κ × α))
    (s : List (Action κ α))
    (hs : Sched (fun i => (adds i).map fun p => Action.atomicAdd p.1 p.2) s) (m : κ → α) (c : κ) :
    execActions s m c
      = m c + (((List.finRange n).flatMap adds).map fun p => if p.1 = c then p.2 else 0).sum := by
  have hp := sched_perm (List.finRange n) (List.nodup_finRange _) (fun i => List.mem_finRange i) hs
  rw [← List.map_flatMap] at hp
  have hinv : ∀ (s : List (Action κ α)), (∀ a ∈ s, ∃ p : κ × α,
      Action.atomicAdd p.1 p.2 = a) → s = (s.map fun a => (a.dst, a.val 0)).map
        fun p : κ × α => Action.atomicAdd p.1 p.2 := by
    intro s hs
    induction s with
    | nil => rfl
    | cons a s ih =>
      rw [List.map_cons, List.map_cons, ← ih fun b hb => hs b (List.mem_cons_of_mem _ hb)]
      congr 1
      obtain ⟨p, rfl⟩ := hs a (by simp)
      simp [Action.atomicAdd]
  have hall : ∀ a ∈ s, ∃ p : κ × α, Action.atomicAdd p.1 p.2 = a := by
    intro a ha
    obtain ⟨p, _, h⟩ := List.mem_map.1 (hp.mem_iff.1 ha)
    exact ⟨p, h⟩
  have hq := hp.map fun a => (a.dst, a.val 0)
  rw [List.map_map] at hq
  have hid : ((fun a : Action κ α => (a.dst, a.val 0)) ∘
      fun p : κ × α => Action.atomicAdd p.1 p.2) = id := by
    funext p
    simp [Action.atomicAdd]
  rw [hid, List.map_id] at hq
  rw [hinv s hall, atomicAdd_exec, (hq.map _).sum_eq]

end Fierro

namespace Fierro

section loops
variable {γ α : Type} [DecidableEq γ]

theorem execActions_flatMap {κ ι : Type} [DecidableEq κ] (is : List ι)
    (t : ι → List (Action κ α)) (m : κ → α) :
    execActions (is.flatMap t) m = is.foldl (fun m i => execActions (t i) m) m := by
  induction is generalizing m with
  | nil => rfl
  | cons i is ih => rw [List.flatMap_cons, execActions_append, ih, List.foldl_cons]

/-- Every schedule of a conflict-free loop is equivalent to the sequential loop. -/
theorem par_eq_seq {κ : Type} [DecidableEq κ] {n : ℕ} (t : Fin n → List (Action κ α))
    (hcf : ConflictFree t) (s : List (Action κ α)) (h : Sched t s) (m : κ → α) :
    execActions s m = (List.finRange n).foldl (fun m i => execActions (t i) m) m := by
  rw [← execActions_flatMap]
  exact sched_unique t hcf s _ h (sched_seq _ (List.nodup_finRange n) t (by simp)) m

theorem rmwThread_exec (i : ℕ) (ops : List (γ × (α → α))) (m : γ ⊕ ℕ → α) :
    (fun c => execActions (rmwThread i ops) m (Sum.inl c))
      = seqUpdates ops fun c => m (Sum.inl c) := by
  induction ops generalizing m with
  | nil => rfl
  | cons o ops ih =>
    rw [rmwThread, List.flatMap_cons, execActions_append]
    have := ih (execActions [Action.copy (Sum.inr i) (Sum.inl o.1) id,
      Action.copy (Sum.inl o.1) (Sum.inr i) o.2] m)
    rw [rmwThread] at this
    rw [this]
    simp only [seqUpdates, List.foldl_cons]
    congr 1
    funext c
    simp only [execActions, List.foldl_cons, List.foldl_nil, Action.run, Action.copy, id]
    by_cases hc : c = o.1
    · subst hc; simp
    · rw [Function.update_of_ne (by simpa using hc), Function.update_of_ne (by simp),
        Function.update_of_ne hc]

theorem rmwThread_mem {i : ℕ} {ops : List (γ × (α → α))} {a : Action (γ ⊕ ℕ) α}
    (h : a ∈ rmwThread i ops) : ∃ o ∈ ops,
      (a.dst = Sum.inr i ∨ a.dst = Sum.inl o.1) ∧
      ∀ k, a.reads k → k = Sum.inr i ∨ k = Sum.inl o.1 := by
  rw [rmwThread, List.mem_flatMap] at h
  obtain ⟨o, ho, ha⟩ := h
  refine ⟨o, ho, ?_⟩
  rcases List.mem_cons.1 ha with rfl | ha
  · exact ⟨Or.inl rfl, fun k hk => Or.inr hk⟩
  · rw [List.mem_singleton] at ha
    subst ha
    exact ⟨Or.inr rfl, fun k hk => Or.inl hk⟩

theorem rmw_conflictFree {n : ℕ} (ops : Fin n → List (γ × (α → α)))
    (h : ∀ i j, i ≠ j → ∀ o ∈ ops i, ∀ o' ∈ ops j, o.1 ≠ o'.1) :
    ConflictFree fun i : Fin n => rmwThread (i : ℕ) (ops i) := by
  intro i j hij a ha b hb
  obtain ⟨o, ho, hd, _⟩ := rmwThread_mem ha
  obtain ⟨o', ho', hd', hr'⟩ := rmwThread_mem hb
  have hne := h i j hij o ho o' ho'
  have hval : (i : ℕ) ≠ (j : ℕ) := fun hv => hij (Fin.ext hv)
  constructor
  · rcases hd with hd | hd <;> rcases hd' with hd' | hd' <;> rw [hd, hd'] <;> simp [hval, hne]
  · intro hr
    rcases hd with hd | hd <;> rcases hr' _ hr with hr | hr <;> rw [hd] at hr <;>
      simp [hval, hne] at hr

/-- A loop of unprotected updates gives the sequential result if no cell is touched by two
iterations. -/
theorem rmw_sched {n : ℕ} (ops : Fin n → List (γ × (α → α)))
    (h : ∀ i j, i ≠ j → ∀ o ∈ ops i, ∀ o' ∈ ops j, o.1 ≠ o'.1)
    (s : List (Action (γ ⊕ ℕ) α)) (hs : Sched (fun i : Fin n => rmwThread (i : ℕ) (ops i)) s)
    (m : γ ⊕ ℕ → α) :
    (fun c => execActions s m (Sum.inl c))
      = (List.finRange n).foldl (fun v i => seqUpdates (ops i) v) fun c => m (Sum.inl c) := by
  rw [par_eq_seq _ (rmw_conflictFree ops h) s hs]
  generalize List.finRange n = is
  induction is generalizing m with
  | nil => rfl
  | cons i is ih =>
    rw [List.foldl_cons, List.foldl_cons, ih, rmwThread_exec]

theorem reduce_sum [AddCommMonoid α] (t : ReduceTree α) :
    t.eval (· + ·) 0 = t.leaves.sum := by
  induction t with
  | none => rfl
  | leaf x => simp [ReduceTree.eval, ReduceTree.leaves]
  | join a b iha ihb => simp [ReduceTree.eval, ReduceTree.leaves, iha, ihb]

/-- A fold over a list of pairwise disjoint sequential updates written as updates of a function. -/
theorem seqUpdates_notin (ops : List (γ × (α → α))) (v : γ → α) (c : γ)
    (h : ∀ o ∈ ops, o.1 ≠ c) : seqUpdates ops v c = v c := by
  induction ops generalizing v with
  | nil => rfl
  | cons o ops ih =>
    simp only [seqUpdates, List.foldl_cons] at ih ⊢
    rw [ih _ fun o' ho' => h o' (List.mem_cons_of_mem _ ho'),
      Function.update_of_ne (h o (by simp)).symm]

theorem seqUpdates_mem (ops : List (γ × (α → α))) (hnd : (ops.map Prod.fst).Nodup) (v : γ → α)
    (o : γ × (α → α)) (ho : o ∈ ops) : seqUpdates ops v o.1 = o.2 (v o.1) := by
  induction ops generalizing v with
  | nil => simp at ho
  | cons o' ops ih =>
    rw [List.map_cons, List.nodup_cons] at hnd
    have hstep : seqUpdates (o' :: ops) v
        = seqUpdates ops (Function.update v o'.1 (o'.2 (v o'.1))) := rfl
    rcases List.mem_cons.1 ho with rfl | ho
    · rw [hstep, seqUpdates_notin, Function.update_self]
      intro o'' ho'' heq
      exact hnd.1 (List.mem_map.2 ⟨o'', ho'', heq⟩)
    · rw [hstep, ih hnd.2 _ ho, Function.update_of_ne]
      intro heq
      exact hnd.1 (List.mem_map.2 ⟨o, ho, heq⟩)

end loops

end Fierro

namespace Fierro

/-! ### Racing stores of constants -/

section assign
variable {κ α ι : Type} [DecidableEq κ] [DecidableEq ι]

/-- The last value a list of stores gives to cell `c`. -/
def lastStore (l : List (κ × α)) (c : κ) : Option α :=
  ((l.filter fun p => p.1 = c).map Prod.snd).getLast?

theorem lastStore_cons (p : κ × α) (l : List (κ × α)) (c : κ) :
    lastStore (p :: l) c = (lastStore l c).or (if p.1 = c then some p.2 else none) := by
  unfold lastStore
  by_cases h : p.1 = c
  · simp only [List.filter_cons, h, decide_true, if_true, List.map_cons, List.getLast?_cons]
    cases ((l.filter fun p => p.1 = c).map Prod.snd).getLast? <;> rfl
  · simp only [List.filter_cons, h, decide_false, if_false, Bool.false_eq_true]
    cases ((l.filter fun p => p.1 = c).map Prod.snd).getLast? <;> rfl

theorem lastStore_append (l l' : List (κ × α)) (c : κ) :
    lastStore (l ++ l') c = (lastStore l' c).or (lastStore l c) := by
  induction l with
  | nil =>
    have h0 : lastStore ([] : List (κ × α)) c = none := rfl
    rw [List.nil_append, h0]
    cases lastStore l' c <;> rfl
  | cons p l ih =>
    rw [List.cons_append, lastStore_cons, ih, lastStore_cons, Option.or_assoc]

theorem assign_exec (l : List (κ × α)) (m : κ → α) (c : κ) :
    execActions (l.map fun p => Action.assign p.1 p.2) m c = (lastStore l c).getD (m c) := by
  induction l generalizing m with
  | nil => rfl
  | cons p l ih =>
    rw [List.map_cons, execActions_cons, ih, lastStore_cons]
    cases lastStore l c with
    | some v => simp
    | none =>
      by_cases h : p.1 = c
      · subst h; simp [Action.run, Action.assign]
      · simp [Action.run, Action.assign, h, Ne.symm h]

theorem sched_lastStore {w : ι → List (κ × α)} {s : List (κ × α)} (hs : Sched w s) (c : κ) :
    (lastStore s c = none ↔ ∀ i, lastStore (w i) c = none) ∧
    ∀ v, lastStore s c = some v → ∃ i, lastStore (w i) c = some v := by
  induction hs with
  | done t ht => simp [lastStore, ht]
  | step t i a rest s hi hs ih =>
    have hothers : ∀ j, j ≠ i → Function.update t i rest j = t j := fun j hj =>
      Function.update_of_ne hj _ _
    rw [lastStore_cons]
    cases h : lastStore s c with
    | some v =>
      rw [Option.some_or]
      refine ⟨⟨fun hn => (Option.some_ne_none _ hn).elim, fun hall => ?_⟩, ?_⟩
      · exfalso
        have : lastStore s c = none := ih.1.2 fun j => by
          by_cases hj : j = i
          · subst hj
            have := hall j
            rw [hi, lastStore_cons] at this
            rw [Function.update_self]
            exact (Option.or_eq_none_iff.1 this).1
          · rw [hothers j hj]; exact hall j
        rw [h] at this
        cases this
      · intro v' hv'
        injection hv' with hv'
        subst hv'
        obtain ⟨j, hj⟩ := ih.2 v h
        by_cases hji : j = i
        · subst hji
          rw [Function.update_self] at hj
          exact ⟨j, by rw [hi, lastStore_cons, hj]; rfl⟩
        · rw [hothers j hji] at hj
          exact ⟨j, hj⟩
    | none =>
      have hall := ih.1.1 h
      have hrest : lastStore rest c = none := by
        have := hall i
        rwa [Function.update_self] at this
      simp only [Option.none_or]
      have hti : lastStore (t i) c = if a.1 = c then some a.2 else none := by
        rw [hi, lastStore_cons, hrest, Option.none_or]
      refine ⟨⟨fun hn j => ?_, fun hn => ?_⟩, fun v hv => ⟨i, by rw [hti, hv]⟩⟩
      · by_cases hj : j = i
        · subst hj; rw [hti, hn]
        · have := hall j
          rwa [hothers j hj] at this
      · rw [← hti]; exact hn i

/-- Interleavings of mapped threads are the mapped interleavings. -/
theorem sched_map {A B : Type} (f : A → B) (t : ι → List A) (s : List B)
    (hs : Sched (fun i => (t i).map f) s) : ∃ s', Sched t s' ∧ s = s'.map f := by
  generalize ht' : (fun i => (t i).map f) = t' at hs
  induction hs generalizing t with
  | done t' h =>
    subst ht'
    exact ⟨[], Sched.done t fun i => by simpa using h i, rfl⟩
  | step t' i b rest s hi hs ih =>
    subst ht'
    obtain ⟨a, rest', h, rfl, rfl⟩ := List.map_eq_cons_iff.1 hi
    obtain ⟨s', hs', rfl⟩ := ih (Function.update t i rest') (by
      funext j
      by_cases hj : j = i
      · subst hj; simp
      · simp [Function.update_of_ne hj])
    exact ⟨a :: s', Sched.step t i a rest' s' h hs', rfl⟩

theorem map_sched {A B : Type} (f : A → B) {t : ι → List A} {s : List A}
    (hs : Sched t s) : Sched (fun i => (t i).map f) (s.map f) := by
  induction hs with
  | done t h => exact Sched.done _ fun i => by simp [h i]
  | step t i a rest s hi hs ih =>
    refine Sched.step _ i (f a) (rest.map f) _ (by simp [hi]) ?_
    have : (fun j => (Function.update t i rest j).map f)
        = Function.update (fun j => (t j).map f) i (rest.map f) := by
      funext j
      by_cases hj : j = i
      · subst hj; simp
      · simp [Function.update_of_ne hj]
    rwa [this] at ih

/-- Possible results of racing stores: the last store of some iteration. -/
theorem assign_sched (w : ι → List (κ × α)) (s : List (Action κ α))
    (hs : Sched (fun i => (w i).map fun p => Action.assign p.1 p.2) s) (m : κ → α) (c : κ) :
    (∃ i v, lastStore (w i) c = some v ∧ execActions s m c = v) ∨
      ((∀ i, lastStore (w i) c = none) ∧ execActions s m c = m c) := by
  obtain ⟨s', hs', rfl⟩ := sched_map _ w s hs
  rw [assign_exec]
  have h := sched_lastStore hs' c
  cases hl : lastStore s' c with
  | none => exact Or.inr ⟨h.1.1 hl, rfl⟩
  | some v =>
    obtain ⟨i, hi⟩ := h.2 v hl
    exact Or.inl ⟨i, v, hi, rfl⟩

/-- Each of these results occurs. -/
theorem assign_sched_attained {n : ℕ} (w : Fin n → List (κ × α)) (i : Fin n) (m : κ → α) :
    ∃ s, Sched (fun i => (w i).map fun p => Action.assign p.1 p.2) s ∧
      ∀ c v, lastStore (w i) c = some v → execActions s m c = v := by
  have hs : Sched w (((List.finRange n).erase i ++ [i]).flatMap w) := by
    apply sched_seq
    · rw [List.nodup_append]
      refine ⟨(List.nodup_finRange n).erase i, by simp, ?_⟩
      intro a ha b hb hab
      rw [List.mem_singleton] at hb
      subst hb; subst hab
      exact (List.Nodup.not_mem_erase (List.nodup_finRange n)) ha
    · intro j hj
      exfalso
      apply hj
      by_cases hji : j = i
      · simp [hji]
      · simp [List.mem_erase_of_ne hji]
  refine ⟨_, map_sched _ hs, fun c v hv => ?_⟩
  rw [assign_exec, List.flatMap_append, lastStore_append]
  simp [hv]

end assign

end Fierro
