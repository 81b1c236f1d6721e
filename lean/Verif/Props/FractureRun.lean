import Verif.Model.FractureRun
import Verif.Props.CohesiveLaw
import Verif.Props.CohesiveGeometry
import Mathlib.Algebra.BigOperators.Group.List.Basic

/-!
# C127: setup of the fracture option and the run of the reorientation test
-/

namespace Fierro

open Cohesive Contact

/-! ### Parameters -/

/-- The numbers of a list of pairs in order. -/
def flatPairs (l : List (ℝ × ℝ)) : List ℝ := l.flatMap fun p => [p.1, p.2]

theorem flatPairs_get (l : List (ℝ × ℝ)) (rest : List ℝ) (j : ℕ) (h : j < l.length) :
    (flatPairs l ++ rest)[2 * j]? = some l[j].1 ∧ (flatPairs l ++ rest)[2 * j + 1]? = some l[j].2 := by
  induction l generalizing j with
  | nil => simp at h
  | cons p r ih =>
    cases j with
    | zero => simp [flatPairs]
    | succ j =>
      have := ih j (by simpa using h)
      have e1 : 2 * (j + 1) = 2 * j + 2 := by ring
      rw [e1]
      simpa [flatPairs] using this

theorem truncInt_near (x : ℝ) (n : ℕ) (h : |x - n| < 0.5) : truncInt (x + 0.5) = n := by
  obtain ⟨h1, h2⟩ := abs_lt.mp h
  have h0 : (0 : ℝ) ≤ n := Nat.cast_nonneg n
  rw [truncInt, if_pos (by norm_num at h1 ⊢; linarith), Int.floor_eq_iff]
  constructor
  · push_cast; linarith
  · push_cast; norm_num at h2 ⊢; linarith

theorem mapM_some {α β : Type} (f : α → Option β) (g : α → β) (l : List α) (h : ∀ a ∈ l, f a = some (g a)) :
    l.mapM f = some (l.map g) := by
  induction l with
  | nil => rfl
  | cons a r ih =>
    rw [List.mapM_cons, h a (by simp), ih fun b hb => h b (by simp [hb])]
    rfl

theorem mapM_none {α β : Type} (f : α → Option β) (l : List α) (a : α) (ha : a ∈ l) (h : f a = none) :
    l.mapM f = none := by
  induction l with
  | nil => simp at ha
  | cons b r ih =>
    rw [List.mapM_cons]
    rcases List.mem_cons.mp ha with rfl | h'
    · rw [h]; rfl
    · rw [ih h']
      cases f b <;> rfl

/-- **C127 (parameters).** A row of six values and up to ten pairs, the sixth value being the number of pairs up to less
than one half, sets the law to these values. -/
theorem C127_parameters (e a n un ut np : ℝ) (pairs : List (ℝ × ℝ)) (rest : List ℝ) (hp : pairs.length ≤ 10)
    (hn : |np - pairs.length| < 0.5) (rows : ℕ → List ℝ) (bc : ℕ) (npairs : ℕ) (h0 : 0 < npairs)
    (hr : rows bc = [e, a, n, un, ut, np] ++ (flatPairs pairs ++ rest)) :
    initFracture bc rows npairs = some (some ⟨e, a, n, un, ut, pairs⟩) := by
  have hrow : ∀ j (hj : j < pairs.length), pronyPair (rows bc) j = some pairs[j] := by
    intro j hj
    obtain ⟨h1, h2⟩ := flatPairs_get pairs rest j hj
    have e1 : (rows bc)[6 + 2 * j]? = some pairs[j].1 := by
      rw [hr, List.getElem?_append_right (by simp)]; simpa using h1
    have e2 : (rows bc)[6 + 2 * j + 1]? = some pairs[j].2 := by
      rw [hr, List.getElem?_append_right (by simp; omega)]
      simp only [List.length_cons, List.length_nil]
      have : 6 + 2 * j + 1 - (0 + 1 + 1 + 1 + 1 + 1 + 1) = 2 * j + 1 := by omega
      rw [this]; exact h2
    rw [pronyPair, e1, e2]; rfl
  have ht := truncInt_near np pairs.length hn
  have hm : min ((pairs.length : ℤ)).toNat 10 = pairs.length := by simpa using hp
  have hc : (List.range pairs.length).mapM (pronyPair (rows bc)) = some pairs := by
    rw [mapM_some _ (fun j => pairs.getD j (0, 0))]
    · congr 1
      apply List.ext_getElem <;> simp +contextual
    · intro j hj
      have hj' := List.mem_range.mp hj
      rw [hrow j hj']; simp [hj']
  have hq : (List.range pairs.length).mapM (fun j => pronyTerm (fun k => pairs.getD k (0, 0)) pairs.length j) =
      some pairs := by
    rw [mapM_some _ (fun j => pairs.getD j (0, 0))]
    · congr 1
      apply List.ext_getElem <;> simp +contextual
    · intro j hj
      have hj' := List.mem_range.mp hj
      rw [pronyTerm, if_pos (by omega), if_pos ⟨hj', by omega⟩]
  have hneg : ¬ ((bc : ℤ) < 0) := by omega
  rw [initFracture, if_neg hneg, if_neg (by omega)]
  have hrd : readFracture (rows bc) = some ⟨e, a, n, un, ut, pairs⟩ := by
    have g : ∀ k, k < 6 → (rows bc)[k]? = [e, a, n, un, ut, np][k]? := by
      intro k hk
      rw [hr, List.getElem?_append_left (by simpa using hk)]
    rw [readFracture, g 0 (by norm_num), g 1 (by norm_num), g 2 (by norm_num), g 3 (by norm_num), g 4 (by norm_num),
      g 5 (by norm_num)]
    simp only [List.getElem?_cons_zero, List.getElem?_cons_succ, Option.bind_eq_bind, Option.bind_some, ht]
    rw [if_neg (by omega), hm, hc]
    simp only [Option.bind_some, Int.toNat_natCast]
    rw [hq]
    rfl
  rw [Int.toNat_natCast, hrd]
  rfl

/-- **C127 (off).** Without a fracture condition or without pairs the cohesive zones stay switched off. -/
theorem C127_off (bc : ℤ) (rows : ℕ → List ℝ) (npairs : ℕ) (h : bc < 0 ∨ npairs = 0) :
    initFracture bc rows npairs = some none := by
  unfold initFracture
  split_ifs with h1 h2
  · rfl
  · rfl
  · rcases h with h | h <;> contradiction

/-- **C127 (missing values).** "The number of values is checked": a row that announces more Prony terms than it has
values for is read past its end. -/
theorem C127_short_row_fails (e a n un ut : ℝ) (k : ℕ) (hk : 0 < k) :
    readFracture [e, a, n, un, ut, k] = none := by
  have ht : truncInt ((k : ℝ) + 0.5) = k := truncInt_near k k (by norm_num)
  have hc : (List.range (min ((k : ℤ)).toNat 10)).mapM (pronyPair [e, a, n, un, ut, (k : ℝ)]) = none := by
    refine mapM_none _ _ 0 (List.mem_range.mpr (by simp; omega)) ?_
    rfl
  rw [readFracture]
  simp only [List.getElem?_cons_zero, List.getElem?_cons_succ, Option.bind_eq_bind, Option.bind_some, ht]
  rw [if_neg (by omega), hc]
  rfl

/-- **C127 (search).** The test is taken from the first user defined velocity condition that switches it on, if the ones
before it have a first parameter of at most one half. -/
theorem C127_search (before after : List (Bool × List ℝ)) (f wy wz rate xint : ℝ) (rest : List ℝ) (hf : 0.5 < f)
    (hb : ∀ c ∈ before, c.1 = true → ∃ g r, c.2 = g :: r ∧ g ≤ 0.5) :
    findReorient (before ++ (true, f :: wy :: wz :: rate :: xint :: rest) :: after) =
      some (some ⟨wy, wz, rate, xint⟩) := by
  induction before with
  | nil =>
    simp only [List.nil_append, findReorient, if_true, List.getElem?_cons_zero, List.getElem?_cons_succ,
      Option.bind_eq_bind, Option.bind_some, hf]
    rfl
  | cons c r ih =>
    obtain ⟨u, row⟩ := c
    have ih' := ih fun c hc => hb c (by simp [hc])
    cases u with
    | false => simpa [findReorient] using ih'
    | true =>
      obtain ⟨g, r', hg, hl⟩ := hb (true, row) (by simp) rfl
      simp only at hg
      subst hg
      simp only [List.cons_append, findReorient, if_true, List.getElem?_cons_zero, Option.bind_eq_bind,
        Option.bind_some, not_lt.mpr hl, if_false]
      exact ih'

/-- **C127 (no test).** If no user defined velocity condition switches it on there is no test. -/
theorem C127_no_test (l : List (Bool × List ℝ))
    (hb : ∀ c ∈ l, c.1 = true → ∃ g r, c.2 = g :: r ∧ g ≤ 0.5) : findReorient l = some none := by
  induction l with
  | nil => rfl
  | cons c r ih =>
    obtain ⟨u, row⟩ := c
    have ih' := ih fun c hc => hb c (by simp [hc])
    cases u with
    | false => simpa [findReorient] using ih'
    | true =>
      obtain ⟨g, r', hg, hl⟩ := hb (true, row) (by simp) rfl
      simp only at hg
      subst hg
      simp only [findReorient, if_true, List.getElem?_cons_zero, Option.bind_eq_bind,
        Option.bind_some, not_lt.mpr hl, if_false]
      exact ih'

/-- **C127 (condition without parameters).** With fracture switched on, a user defined velocity condition without
parameters, which is allowed, is read past the end of its row. -/
theorem C127_no_parameters_fails (rest : List (Bool × List ℝ)) : findReorient ((true, []) :: rest) = none := rfl

/-! ### Sides -/

/-- **C127 (sides).** Whatever the order of the elements, the nodes pulled away are the nodes of the elements whose centre
lies beyond the interface. -/
theorem C127_sides {N : Type} {k : ℕ} (X : N → Fin 3 → ℝ) (xint : ℝ) (elems : List (Fin k → N)) (n : N) :
    sideFlags X xint elems n = true ↔
      ∃ e ∈ elems, xint < (∑ a, X (e a) 0) / k ∧ ∃ a, e a = n := by
  have key : ∀ flag : N → Bool, elems.foldl (flagElem X xint) flag n = true ↔
      flag n = true ∨ ∃ e ∈ elems, xint < (∑ a, X (e a) 0) / k ∧ ∃ a, e a = n := by
    induction elems with
    | nil => simp
    | cons e r ih =>
      intro flag
      rw [List.foldl_cons, ih]
      have h1 : flagElem X xint flag e n = true ↔
          flag n = true ∨ (xint < (∑ a, X (e a) 0) / k ∧ ∃ a, e a = n) := by
        unfold flagElem centreX
        by_cases hc : (∑ a, X (e a) 0) / k > xint
        · by_cases ha : ∃ a, e a = n
          · simp only [if_pos hc, if_pos ha]
            exact ⟨fun _ => .inr ⟨hc, ha⟩, fun _ => trivial⟩
          · rw [if_pos hc, if_neg ha]
            exact ⟨.inl, fun h => h.resolve_right fun h' => ha h'.2⟩
        · rw [if_neg hc]
          exact ⟨.inl, fun h => h.resolve_right fun h' => hc h'.1⟩
      rw [h1, or_assoc]
      simp only [List.exists_mem_cons_iff]
  rw [sideFlags, key]
  simp

/-! ### The run -/

variable {N P : Type} {m : ℕ}

theorem testStage_vars_false (d : TestJob N P m) (t dt : ℝ) (s : TestState N P m) :
    (testStage d t dt false s).vars = s.vars := by
  funext p; simp [testStage, stage]

theorem testStage_congr (d : TestJob N P m) (t dt : ℝ) (last : Bool) (s s' : TestState N P m) (h : s.vars = s'.vars) :
    testStage d t dt last s = testStage d t dt last s' := by
  simp [testStage, h]

/-- **C127 (stages).** The number of stages makes no difference: a step is its last stage. -/
theorem C127_stages (d : TestJob N P m) (n : ℕ) (hn : 0 < n) (t dt : ℝ) (s : TestState N P m) :
    testStep d n t dt s = testStep d 1 t dt s := by
  have h1 : ∀ s, testStep d 1 t dt s = testStage d t dt true s := by
    intro s
    simp [testStep]
  rw [h1]
  obtain ⟨k, rfl⟩ : ∃ k, n = k + 1 := ⟨n - 1, by omega⟩
  have hp : ∀ j, j ≤ k → ((List.range j).foldl (fun s (r : ℕ) =>
      testStage d t (1 / (((k + 1 : ℕ) : ℝ) - (r : ℝ)) * dt) (decide (r = k + 1 - 1)) s) s).vars = s.vars := by
    intro j hj
    induction j with
    | zero => rfl
    | succ j ih =>
      rw [List.range_succ, List.foldl_append]
      have hne : decide (j = k + 1 - 1) = false := by simp; omega
      simp only [List.foldl_cons, List.foldl_nil, hne]
      rw [testStage_vars_false, ih (by omega)]
  rw [testStep, List.range_succ, List.foldl_append]
  simp only [List.foldl_cons, List.foldl_nil]
  rw [testStage_congr d t _ _ _ s (hp k le_rfl)]
  have e1 : decide (k = k + 1 - 1) = true := by simp
  have e2 : 1 / (((k + 1 : ℕ) : ℝ) - (k : ℝ)) * dt = dt := by push_cast; ring_nf
  rw [e1, e2]

theorem testStep_eq (d : TestJob N P m) (n : ℕ) (hn : 0 < n) (t dt : ℝ) (s : TestState N P m) :
    testStep d n t dt s = testStage d t dt true s := by
  rw [C127_stages d n hn]
  simp [testStep]

theorem testRun_append (d : TestJob N P m) (n : ℕ) (dts : List ℝ) (dt : ℝ) (t : ℝ) (s : TestState N P m) :
    testRun d n t (dts ++ [dt]) s = ((testRun d n t dts s).1 + dt,
      testStep d n (testRun d n t dts s).1 dt (testRun d n t dts s).2) := by
  induction dts generalizing t s with
  | nil => rfl
  | cons a r ih => exact ih _ _

theorem testRun_time (d : TestJob N P m) (n : ℕ) (dts : List ℝ) (t : ℝ) (s : TestState N P m) :
    (testRun d n t dts s).1 = t + dts.sum := by
  induction dts generalizing t s with
  | nil => simp [testRun]
  | cons a r ih =>
    rw [testRun, ih, List.sum_cons]; ring

/-- **C127 (positions).** After any number of steps the nodes are where the prescribed motion has them at the start of the
last step, and their velocities bring them to where it has them at its end. -/
theorem C127_positions (d : TestJob N P m) (n : ℕ) (hn : 0 < n) (t : ℝ) (dts : List ℝ) (dt : ℝ) (hdt : 0 < dt)
    (s : TestState N P m) (k : N) :
    (testRun d n t (dts ++ [dt]) s).1 = t + dts.sum + dt ∧
    (testRun d n t (dts ++ [dt]) s).2.x k = prescribed d.wy d.wz d.rate (d.X k) (d.side k) (t + dts.sum) ∧
    ∀ i, (testRun d n t (dts ++ [dt]) s).2.x k i + dt * (testRun d n t (dts ++ [dt]) s).2.v k i =
      prescribed d.wy d.wz d.rate (d.X k) (d.side k) (t + dts.sum + dt) i := by
  rw [testRun_append, testRun_time]
  refine ⟨rfl, ?_, fun i => ?_⟩
  · simp only [testStep_eq d n hn, testStage]
  · simp only [testStep_eq d n hn, testStage]
    exact (C88_motion d.wy d.wz d.rate (d.X k) (d.X k) (d.side k) (t + dts.sum) dt hdt.ne').2.2 i

/-- **C127 (positions lag).** "The positions stored with a time are those prescribed at that time": they are those of the
start of the last step, also in the graphics written after it. Without rotation a node that is pulled away lies behind
by the opening rate times the step. -/
theorem C127_lag_fails (d : TestJob N P m) (hy : d.wy = 0) (hz : d.wz = 0) (n : ℕ) (hn : 0 < n) (t : ℝ)
    (dts : List ℝ) (dt : ℝ) (hdt : 0 < dt) (s : TestState N P m) (k : N) (hk : d.side k = true) (hr : d.rate ≠ 0) :
    prescribed d.wy d.wz d.rate (d.X k) (d.side k) (testRun d n t (dts ++ [dt]) s).1 0 -
      (testRun d n t (dts ++ [dt]) s).2.x k 0 = d.rate * dt ∧ d.rate * dt ≠ 0 := by
  obtain ⟨h1, h2, -⟩ := C127_positions d n hn t dts dt hdt s k
  refine ⟨?_, mul_ne_zero hr hdt.ne'⟩
  rw [h1, h2, hy, hz, hk]
  have e : ∀ u : ℝ, rot 0 0 u 0 0 = 1 ∧ rot 0 0 u 0 1 = 0 ∧ rot 0 0 u 0 2 = 0 := by
    intro u
    obtain ⟨⟨a0, a1, a2⟩, -, -⟩ := rot_components 0 0 u
    simp only [zero_mul, Real.cos_zero, Real.sin_zero, mul_one, neg_zero, mul_zero] at a0 a1 a2
    exact ⟨a0, a1, a2⟩
  simp only [prescribed, e, if_true]
  ring

/-! ### The normal of the turned crack -/

/-- Image of a vector. -/
noncomputable def turnVec (Q : Fin 3 → Fin 3 → ℝ) (v : Fin 3 → ℝ) (i : Fin 3) : ℝ := ∑ j, Q i j * v j

theorem rot_dot (wy wz t : ℝ) (a b : Fin 3 → ℝ) :
    dot (turnVec (rot wy wz t) a) (turnVec (rot wy wz t) b) = dot a b := by
  obtain ⟨hQ, -, -⟩ := C88_rotation wy wz t
  have h00 := hQ 0 0; have h01 := hQ 0 1; have h02 := hQ 0 2
  have h11 := hQ 1 1; have h12 := hQ 1 2; have h22 := hQ 2 2
  simp only [Fin.sum_univ_three, if_true] at h00 h11 h22
  rw [if_neg (by decide), Fin.sum_univ_three] at h01 h02 h12
  simp only [dot, turnVec, Fin.sum_univ_three]
  linear_combination a 0 * b 0 * h00 + (a 0 * b 1 + a 1 * b 0) * h01 + (a 0 * b 2 + a 2 * b 0) * h02
    + a 1 * b 1 * h11 + (a 1 * b 2 + a 2 * b 1) * h12 + a 2 * b 2 * h22

theorem turn_len (wy wz t : ℝ) (a : Fin 3 → ℝ) : len (turnVec (rot wy wz t) a) = len a := by
  apply len_of_sq _ _ (len_nonneg _)
  rw [rot_dot, sq_len]

theorem turn_cross (wy wz t : ℝ) (a b : Fin 3 → ℝ) :
    cross (turnVec (rot wy wz t) a) (turnVec (rot wy wz t) b) = turnVec (rot wy wz t) (cross a b) := by
  obtain ⟨⟨a0, a1, a2⟩, ⟨b0, b1, b2⟩, ⟨c0, c1, c2⟩⟩ := rot_components wy wz t
  have hy := Real.sin_sq_add_cos_sq (wy * t)
  have hz := Real.sin_sq_add_cos_sq (wz * t)
  funext i
  match i with
  | 0 =>
    simp only [cross_0, cross_1, cross_2, turnVec, Fin.sum_univ_three, a0, a1, a2, b0, b1, b2, c0, c1, c2]
    linear_combination (-(Real.sin (wz * t) * (a 2 * b 0 - a 0 * b 2))) * hy
  | 1 =>
    simp only [cross_0, cross_1, cross_2, turnVec, Fin.sum_univ_three, a0, a1, a2, b0, b1, b2, c0, c1, c2]
    linear_combination (Real.cos (wz * t) * (a 2 * b 0 - a 0 * b 2)) * hy
  | 2 =>
    simp only [cross_0, cross_1, cross_2, turnVec, Fin.sum_univ_three, a0, a1, a2, b0, b1, b2, c0, c1, c2]
    linear_combination (Real.cos (wy * t) * (a 0 * b 1 - a 1 * b 0) - Real.sin (wy * t) * (a 1 * b 2 - a 2 * b 1)) * hz

theorem turn_direction (wy wz t : ℝ) (a : Fin 3 → ℝ) :
    direction (turnVec (rot wy wz t) a) = turnVec (rot wy wz t) (direction a) := by
  funext i
  simp only [direction, turn_len, turnVec, Fin.sum_univ_three]
  ring

/-- The points of a face that turns, and moves away if it is on that side. -/
noncomputable def turnedFace (wy wz rate : ℝ) (A : Fin 3 → Fin 4 → ℝ) (side : Bool) (t : ℝ) : Fin 3 → Fin 4 → ℝ :=
  fun i a => prescribed wy wz rate (fun k => A k a) side t i

theorem xi0 : xiN (K := ℝ) 0 = -1 := rfl
theorem xi1 : xiN (K := ℝ) 1 = 1 := rfl
theorem xi2 : xiN (K := ℝ) 2 = 1 := rfl
theorem xi3 : xiN (K := ℝ) 3 = -1 := rfl
theorem eta0 : etaN (K := ℝ) 0 = -1 := rfl
theorem eta1 : etaN (K := ℝ) 1 = -1 := rfl
theorem eta2 : etaN (K := ℝ) 2 = 1 := rfl
theorem eta3 : etaN (K := ℝ) 3 = 1 := rfl

theorem tangentXi_turned (wy wz rate : ℝ) (A : Fin 3 → Fin 4 → ℝ) (side : Bool) (t : ℝ) :
    tangentXi (turnedFace wy wz rate A side t) 0 0 = turnVec (rot wy wz t) (tangentXi A 0 0) := by
  funext i
  simp only [tangentXi, turnedFace, prescribed, turnVec, Fin.sum_univ_four, Fin.sum_univ_three, dphiXi, xi0, xi1, xi2, xi3]
  ring

theorem tangentEta_turned (wy wz rate : ℝ) (A : Fin 3 → Fin 4 → ℝ) (side : Bool) (t : ℝ) :
    tangentEta (turnedFace wy wz rate A side t) 0 0 = turnVec (rot wy wz t) (tangentEta A 0 0) := by
  funext i
  simp only [tangentEta, turnedFace, prescribed, turnVec, Fin.sum_univ_four, Fin.sum_univ_three, dphiEta, eta0, eta1, eta2, eta3]
  ring

/-- No component of the turned axis is so small that it is set to zero. -/
def NotZapped (wy wz t : ℝ) : Prop := ∀ i, rot wy wz t i 0 = 0 ∨ 1e-13 ≤ |rot wy wz t i 0|

theorem faceNormal_axis (A : Fin 3 → Fin 4 → ℝ) (σ : ℝ) (hσ : σ = 1 ∨ σ = -1)
    (h : ∀ i, faceNormal A i = if i = 0 then σ else 0) :
    1e-20 < len (tangentXi A 0 0) ∧ 1e-20 < len (tangentEta A 0 0) ∧
    1e-20 < len (cross (direction (tangentXi A 0 0)) (direction (tangentEta A 0 0))) ∧
    ∀ i, direction (cross (direction (tangentXi A 0 0)) (direction (tangentEta A 0 0))) i = if i = 0 then σ else 0 := by
  have h0 := h 0
  rw [if_pos rfl] at h0
  have hσ0 : σ ≠ 0 := by rcases hσ with h | h <;> rw [h] <;> norm_num
  by_cases h1 : ¬ 1e-20 < len (tangentXi A 0 0) ∨ ¬ 1e-20 < len (tangentEta A 0 0)
  · simp only [faceNormal, h1, if_true] at h0
    exact absurd h0.symm hσ0
  · by_cases hn : 1e-20 < len (cross (direction (tangentXi A 0 0)) (direction (tangentEta A 0 0)))
    · have hl := len_direction _ (lt_trans (by norm_num) hn)
      obtain ⟨D, hD⟩ : ∃ D, D = direction (cross (direction (tangentXi A 0 0)) (direction (tangentEta A 0 0))) :=
        ⟨_, rfl⟩
      have hz : ∀ i, zap (D i) = if i = 0 then σ else 0 := by
        intro i
        have := h i
        simp only [faceNormal, h1, if_false, hn, if_true] at this
        rw [hD]; exact this
      rw [← hD] at hl ⊢
      have hD0 : D 0 = σ := by
        have := hz 0
        rw [if_pos rfl, zap] at this
        split_ifs at this with h2
        · exact absurd this.symm hσ0
        · exact this
      have hsq := sq_len D
      rw [hl] at hsq
      have hσ2 : σ * σ = 1 := by rcases hσ with h | h <;> rw [h] <;> norm_num
      simp only [dot, hD0, hσ2] at hsq
      have h12 : D 1 * D 1 + D 2 * D 2 = 0 := by linarith
      have hD1 : D 1 = 0 := mul_self_eq_zero.mp (by nlinarith [mul_self_nonneg (D 1), mul_self_nonneg (D 2)])
      have hD2 : D 2 = 0 := mul_self_eq_zero.mp (by nlinarith [mul_self_nonneg (D 1), mul_self_nonneg (D 2)])
      refine ⟨not_not.mp fun h => h1 (.inl h), not_not.mp fun h => h1 (.inr h), hn, fun i => ?_⟩
      match i with
      | 0 => rw [hD0, if_pos rfl]
      | 1 => rw [hD1, if_neg (by decide)]
      | 2 => rw [hD2, if_neg (by decide)]
    · simp only [faceNormal, h1, if_false, hn, zap] at h0
      norm_num at h0
      exact absurd h0.symm hσ0

theorem faceNormal_turned (wy wz rate : ℝ) (A : Fin 3 → Fin 4 → ℝ) (side : Bool) (t σ : ℝ) (hσ : σ = 1 ∨ σ = -1)
    (h : ∀ i, faceNormal A i = if i = 0 then σ else 0) (hz : NotZapped wy wz t) (i : Fin 3) :
    faceNormal (turnedFace wy wz rate A side t) i = σ * rot wy wz t i 0 := by
  obtain ⟨h1, h2, h3, h4⟩ := faceNormal_axis A σ hσ h
  have hcross : cross (direction (tangentXi (turnedFace wy wz rate A side t) 0 0))
      (direction (tangentEta (turnedFace wy wz rate A side t) 0 0)) =
      turnVec (rot wy wz t) (cross (direction (tangentXi A 0 0)) (direction (tangentEta A 0 0))) := by
    rw [tangentXi_turned, tangentEta_turned, turn_direction, turn_direction, turn_cross]
  have hr : 1e-20 < len (tangentXi (turnedFace wy wz rate A side t) 0 0) := by rw [tangentXi_turned, turn_len]; exact h1
  have hs : 1e-20 < len (tangentEta (turnedFace wy wz rate A side t) 0 0) := by
    rw [tangentEta_turned, turn_len]; exact h2
  have hn : 1e-20 < len (cross (direction (tangentXi (turnedFace wy wz rate A side t) 0 0))
      (direction (tangentEta (turnedFace wy wz rate A side t) 0 0))) := by rw [hcross, turn_len]; exact h3
  have hv : direction (cross (direction (tangentXi (turnedFace wy wz rate A side t) 0 0))
      (direction (tangentEta (turnedFace wy wz rate A side t) 0 0))) i = σ * rot wy wz t i 0 := by
    rw [hcross, turn_direction, turnVec, Fin.sum_univ_three, h4, h4, h4, if_pos rfl, if_neg (by decide),
      if_neg (by decide)]
    ring
  simp only [faceNormal, hr, hs, hn, not_true, or_self, if_false, if_true]
  rw [hv, zap]
  split_ifs with hc
  · rcases hz i with h0 | h0
    · rw [h0, mul_zero]
    · exfalso
      rw [abs_mul] at hc
      have : |σ| = 1 := by rcases hσ with h | h <;> rw [h] <;> norm_num
      rw [this, one_mul] at hc
      linarith
  · rfl

/-- A pair of the test: its nodes started together on different sides, and the matched faces belong to the side of the
first node and have the x axis as normal, pointing to the other side. -/
structure PlaneCrack (d : TestJob N P m) (p : CrackPair N) : Prop where
  together : d.X p.a = d.X p.b
  sides : d.side p.b = !d.side p.a
  some_face : p.faces ≠ []
  same : ∀ f ∈ p.faces, ∀ k, d.side (f k) = d.side p.a
  normal : ∀ f ∈ p.faces, ∀ i, faceNormal (fun i k => d.X (f k) i) i =
    if i = 0 then (if d.side p.a then -1 else 1) else 0

/-- **C127 (normal).** The normal found for a pair is the turned x axis, pointing from the first node to the other
side. -/
theorem C127_normal (d : TestJob N P m) (p : CrackPair N) (hp : PlaneCrack d p) (t : ℝ)
    (hz : NotZapped d.wy d.wz t) (i : Fin 3) :
    orientation (p.faces.map fun f i a => prescribed d.wy d.wz d.rate (d.X (f a)) (d.side (f a)) t i) i =
      (if d.side p.a then -1 else 1) * rot d.wy d.wz t i 0 := by
  obtain ⟨hQ, -, -⟩ := C88_rotation d.wy d.wz t
  have h00 := hQ 0 0
  rw [if_pos rfl, Fin.sum_univ_three] at h00
  have hσ : (if d.side p.a then (-1 : ℝ) else 1) = 1 ∨ (if d.side p.a then (-1 : ℝ) else 1) = -1 := by
    cases d.side p.a <;> simp
  refine C85_orientation_flat _ (fun i => (if d.side p.a then -1 else 1) * rot d.wy d.wz t i 0) ?_ ?_ ?_ i
  · apply len_of_sq _ _ zero_le_one
    simp only [dot]
    have : (if d.side p.a then (-1 : ℝ) else 1) ^ 2 = 1 := by cases d.side p.a <;> norm_num
    linear_combination (rot d.wy d.wz t 0 0 * rot d.wy d.wz t 0 0 + rot d.wy d.wz t 1 0 * rot d.wy d.wz t 1 0 +
      rot d.wy d.wz t 2 0 * rot d.wy d.wz t 2 0) * this + h00
  · simpa using hp.some_face
  · intro A hA i
    obtain ⟨f, hf, rfl⟩ := List.mem_map.mp hA
    have e : (fun i a => prescribed d.wy d.wz d.rate (d.X (f a)) (d.side (f a)) t i) =
        turnedFace d.wy d.wz d.rate (fun i k => d.X (f k) i) (d.side p.a) t := by
      funext i a
      rw [turnedFace, hp.same f hf a]
    rw [e]
    exact faceNormal_turned _ _ _ _ _ t _ hσ (hp.normal f hf) hz i

theorem opening_swap (n xA xB vA vB : Fin 3 → ℝ) (dt : ℝ) :
    opening (fun i => -n i) xB xA vB vA dt = opening n xA xB vA vB dt := by
  have hlen : ∀ a : Fin 3 → ℝ, len (fun k => -a k) = len a := by
    intro a; simp [len]
  have hd : dot (fun k => xA k - xB k) (fun i => -n i) = dot (fun k => xB k - xA k) n := by
    simp only [dot]; ring
  have hv : dot (fun k => vA k - vB k) (fun i => -n i) = dot (fun k => vB k - vA k) n := by
    simp only [dot]; ring
  simp only [opening, hd, hv]
  congr 1
  · rw [← hlen]; congr 1; funext k; ring
  · rw [← hlen]; congr 1; funext k; ring

/-- Cosine of the angle between the normals at two times. -/
noncomputable def turnCos (wy wz t dt : ℝ) : ℝ :=
  dot (fun i => rot wy wz (t + dt) i 0) (fun i => rot wy wz t i 0)

/-- What a pair that is pulled apart while it turns sees in a step. -/
noncomputable def turnOpening (wy wz rate t dt : ℝ) : Opening :=
  ⟨rate * t, 0, rate * (t + dt) * turnCos wy wz t dt, |rate * (t + dt)| * √(1 - turnCos wy wz t dt ^ 2)⟩

theorem opening_turn (wy wz rate : ℝ) (X : Fin 3 → ℝ) (t dt : ℝ) (hdt : dt ≠ 0) :
    opening (fun i => rot wy wz t i 0) (prescribed wy wz rate X false t) (prescribed wy wz rate X true t)
        (prescribedVel wy wz rate X false t dt) (prescribedVel wy wz rate X true t dt) dt =
      turnOpening wy wz rate t dt := by
  obtain ⟨h1, h2⟩ := C88_opening_now wy wz rate X t dt
  obtain ⟨h3, h4⟩ := C88_opening_next wy wz rate X t dt hdt
  have hpos : 0 ≤ (opening (fun i => rot wy wz t i 0) (prescribed wy wz rate X false t)
      (prescribed wy wz rate X true t) (prescribedVel wy wz rate X false t dt)
      (prescribedVel wy wz rate X true t dt) dt).ut' := by simp only [opening]; exact len_nonneg _
  obtain ⟨o, ho⟩ : ∃ o, o = opening (fun i => rot wy wz t i 0) (prescribed wy wz rate X false t)
      (prescribed wy wz rate X true t) (prescribedVel wy wz rate X false t dt)
      (prescribedVel wy wz rate X true t dt) dt := ⟨_, rfl⟩
  rw [← ho] at h1 h2 h3 h4 hpos ⊢
  have h5 : o.ut' = |rate * (t + dt)| * √(1 - turnCos wy wz t dt ^ 2) := by
    rw [← Real.sqrt_sq_eq_abs, ← Real.sqrt_mul (sq_nonneg _), ← Real.sqrt_sq hpos]
    congr 1
    rw [turnCos]
    rw [h3] at h4
    linear_combination h4
  cases o
  simp only at h1 h2 h3 h5
  rw [turnOpening, h1, h2, h3, h5]
  rfl

/-- The openings of the steps of a run from time `t`. -/
noncomputable def turnHistory (wy wz rate : ℝ) : ℝ → List ℝ → List (ℝ × Opening)
  | _, [] => []
  | t, dt :: rest => (dt, turnOpening wy wz rate t dt) :: turnHistory wy wz rate (t + dt) rest

/-- The normal of every step of a run is not touched. -/
def RunNotZapped (wy wz : ℝ) : ℝ → List ℝ → Prop
  | _, [] => True
  | t, dt :: rest => NotZapped wy wz t ∧ RunNotZapped wy wz (t + dt) rest

/-- **C127 (history).** Through a run of any number of steps and stages, the internal variables of a pair of the test are
those of the cohesive law along these openings, whichever of its nodes comes first. -/
theorem C127_history (d : TestJob N P m) (n : ℕ) (hn : 0 < n) (p : P) (hp : PlaneCrack d (d.pair p)) (t : ℝ)
    (dts : List ℝ) (hdt : ∀ dt ∈ dts, 0 < dt) (hz : RunNotZapped d.wy d.wz t dts) (s : TestState N P m) :
    (testRun d n t dts s).2.vars p = evolve d.law (turnHistory d.wy d.wz d.rate t dts) (s.vars p) := by
  induction dts generalizing t s with
  | nil => rfl
  | cons dt rest ih =>
    rw [testRun, ih (t + dt) (fun x hx => hdt x (by simp [hx])) hz.2, turnHistory, evolve, testStep_eq d n hn]
    congr 1
    simp only [testStage]
    congr 1
    rw [pairOpening]
    have ho : orientation ((d.pair p).faces.map fun f i a =>
        prescribed d.wy d.wz d.rate (d.X (f a)) (d.side (f a)) t i) =
        fun i => (if d.side (d.pair p).a then -1 else 1) * rot d.wy d.wz t i 0 := by
      funext i; exact C127_normal d (d.pair p) hp t hz.1 i
    rw [ho, hp.sides, ← hp.together]
    cases hs : d.side (d.pair p).a with
    | false =>
      simp only [Bool.false_eq_true, if_false, one_mul, Bool.not_false]
      exact opening_turn d.wy d.wz d.rate _ t dt (hdt dt (by simp)).ne'
    | true =>
      simp only [if_true, Bool.not_true, neg_mul, one_mul]
      rw [opening_swap]
      exact opening_turn d.wy d.wz d.rate _ t dt (hdt dt (by simp)).ne'

/-! ### Without rotation -/

theorem rot_still (t : ℝ) (i : Fin 3) : rot 0 0 t i 0 = if i = 0 then 1 else 0 := by
  obtain ⟨⟨a0, -, -⟩, ⟨b0, -, -⟩, ⟨c0, -, -⟩⟩ := rot_components 0 0 t
  simp only [zero_mul, Real.cos_zero, Real.sin_zero, mul_one, neg_zero] at a0 b0 c0
  match i with
  | 0 => rw [a0, if_pos rfl]
  | 1 => rw [b0, if_neg (by decide)]
  | 2 => rw [c0, if_neg (by decide)]

theorem runNotZapped_still (t : ℝ) (dts : List ℝ) : RunNotZapped 0 0 t dts := by
  induction dts generalizing t with
  | nil => trivial
  | cons a r ih =>
    refine ⟨fun i => ?_, ih _⟩
    rw [rot_still]
    match i with
    | 0 => right; rw [if_pos rfl]; norm_num
    | 1 => left; rw [if_neg (by decide)]
    | 2 => left; rw [if_neg (by decide)]

theorem turnCos_still (t dt : ℝ) : turnCos 0 0 t dt = 1 := by
  have h1 : (1 : Fin 3) ≠ 0 := by decide
  have h2 : (2 : Fin 3) ≠ 0 := by decide
  simp only [turnCos, dot, rot_still, if_true, if_neg h1, if_neg h2]
  norm_num

theorem turnOpening_still (rate t dt : ℝ) : turnOpening 0 0 rate t dt = ⟨rate * t, 0, rate * (t + dt), 0⟩ := by
  rw [turnOpening, turnCos_still]; simp

theorem chained_still (rate t : ℝ) (dts : List ℝ) : Chained (turnHistory 0 0 rate t dts) := by
  induction dts generalizing t with
  | nil => trivial
  | cons a r ih =>
    cases r with
    | nil => trivial
    | cons b r' =>
      refine ⟨?_, ?_, ih (t + a)⟩
      · simp only [turnOpening_still]
      · simp only [turnOpening_still]

theorem turnHistory_last (wy wz rate t : ℝ) (dts : List ℝ) (dt : ℝ) :
    (turnHistory wy wz rate t (dts ++ [dt])).getLast? = some (dt, turnOpening wy wz rate (t + dts.sum) dt) := by
  induction dts generalizing t with
  | nil => simp [turnHistory]
  | cons a r ih =>
    rw [List.cons_append, turnHistory, List.sum_cons, ← add_assoc]
    have := ih (t + a)
    cases h : turnHistory wy wz rate (t + a) (r ++ [dt]) with
    | nil => rw [h] at this; simp at this
    | cons x y => rw [h] at this; rw [List.getLast?_cons_cons]; exact this

theorem turnHistory_pos (wy wz rate t : ℝ) (dts : List ℝ) (h : ∀ dt ∈ dts, 0 < dt) :
    ∀ s ∈ turnHistory wy wz rate t dts, 0 < s.1 := by
  induction dts generalizing t with
  | nil => simp [turnHistory]
  | cons a r ih =>
    intro s hs
    rcases List.mem_cons.mp hs with rfl | h'
    · exact h a (by simp)
    · exact ih (t + a) (fun x hx => h x (by simp [hx])) s h'

/-- **C127 (straight pull).** Without rotation, from time zero and without Prony terms, the normal traction of every pair
is (1 - damage) times modulus times relative opening at the time reached, whatever the steps, and there is no
tangential traction. -/
theorem C127_straight_pull (d : TestJob N P 0) (h0 : d.wy = 0 ∧ d.wz = 0) (hl : LawOk d.law) (n : ℕ) (hn : 0 < n)
    (p : P) (hp : PlaneCrack d (d.pair p)) (dts : List ℝ) (hne : dts ≠ []) (hdt : ∀ dt ∈ dts, 0 < dt)
    (s : TestState N P 0) (hs : s.vars p = Vars.zero 0) :
    let r := testRun d n 0 dts s
    (r.2.vars p).tn = (1 - (r.2.vars p).damage) * d.law.Einf * (d.rate * r.1 / d.law.un) ∧ (r.2.vars p).tt = 0 := by
  intro r
  obtain ⟨init, dt, rfl⟩ : ∃ init dt, dts = init ++ [dt] := ⟨_, _, (List.dropLast_append_getLast hne).symm⟩
  have hz : RunNotZapped d.wy d.wz 0 (init ++ [dt]) := by rw [h0.1, h0.2]; exact runNotZapped_still _ _
  have hv := C127_history d n hn p hp 0 _ hdt hz s
  have ht : r.1 = init.sum + dt := by
    have := testRun_time d n (init ++ [dt]) 0 s
    rw [List.sum_append, zero_add] at this
    simpa using this
  rw [show r.2.vars p = _ from hv, ht, hs, h0.1, h0.2]
  obtain ⟨first, hf, hfu⟩ : ∃ first, (turnHistory 0 0 d.rate 0 (init ++ [dt])).head? = some first ∧
      first.2.un = 0 ∧ first.2.ut = 0 := by
    cases init with
    | nil => exact ⟨_, rfl, by simp [turnOpening_still], by simp [turnOpening_still]⟩
    | cons a b => exact ⟨_, rfl, by simp [turnOpening_still], by simp [turnOpening_still]⟩
  have := C86_elastic_law d.law hl _ (Vars.zero 0) (turnHistory_pos 0 0 d.rate 0 _ hdt)
    (chained_still d.rate 0 (init ++ [dt])) first _ hf (turnHistory_last 0 0 d.rate 0 init dt)
    (by rw [hfu.1]; simp [Vars.zero]) (by rw [hfu.2]; simp [Vars.zero])
  simp only [turnOpening_still, zero_add] at this
  refine ⟨this.1, by rw [this.2]; simp⟩

/-! ### With rotation -/

theorem turnCos_sq_le (wy wz t dt : ℝ) : turnCos wy wz t dt ^ 2 ≤ 1 := by
  obtain ⟨hQ, -, -⟩ := C88_rotation wy wz t
  obtain ⟨hQ', -, -⟩ := C88_rotation wy wz (t + dt)
  have h := hQ 0 0
  have h' := hQ' 0 0
  rw [if_pos rfl, Fin.sum_univ_three] at h h'
  simp only [turnCos, dot]
  obtain ⟨a, ha⟩ : ∃ a, a = fun i => rot wy wz t i 0 := ⟨_, rfl⟩
  obtain ⟨b, hb⟩ : ∃ b, b = fun i => rot wy wz (t + dt) i 0 := ⟨_, rfl⟩
  have ha' : ∀ i, rot wy wz t i 0 = a i := fun i => by rw [ha]
  have hb' : ∀ i, rot wy wz (t + dt) i 0 = b i := fun i => by rw [hb]
  rw [ha', ha', ha'] at h
  rw [hb', hb', hb'] at h'
  rw [ha', ha', ha', hb', hb', hb']
  nlinarith [sq_nonneg (a 0 * b 1 - a 1 * b 0), sq_nonneg (a 0 * b 2 - a 2 * b 0), sq_nonneg (a 1 * b 2 - a 2 * b 1)]

theorem lam_turn (L : Law m) (he : L.un = L.ut) (wy wz rate t dt : ℝ) :
    lam L (turnOpening wy wz rate t dt).un' (turnOpening wy wz rate t dt).ut' =
      lam L (turnOpening 0 0 rate t dt).un' (turnOpening 0 0 rate t dt).ut' := by
  rw [turnOpening_still, lam, lam, turnOpening, he]
  congr 1
  have h1 := turnCos_sq_le wy wz t dt
  have h2 := Real.sq_sqrt (by linarith : (0 : ℝ) ≤ 1 - turnCos wy wz t dt ^ 2)
  have h3 := sq_abs (rate * (t + dt))
  simp only [zero_div, mul_zero, add_zero, div_mul_div_comm, ← add_div]
  congr 1
  linear_combination (√(1 - turnCos wy wz t dt ^ 2)) ^ 2 * h3 + (rate * (t + dt)) ^ 2 * h2

/-- **C127 (damage and rotation).** If the two critical openings are equal, rotation changes neither the damage nor the
rate nor the branch stresses of any pair, through any run. -/
theorem C127_damage_rotation (d : TestJob N P m) (hl : LawOk d.law) (he : d.law.un = d.law.ut) (n : ℕ) (hn : 0 < n)
    (p : P) (hp : PlaneCrack d (d.pair p)) (t : ℝ) (dts : List ℝ) (hdt : ∀ dt ∈ dts, 0 < dt)
    (hz : RunNotZapped d.wy d.wz t dts) (s : TestState N P m) :
    let turned := (testRun d n t dts s).2.vars p
    let still := (testRun { d with wy := 0, wz := 0 } n t dts s).2.vars p
    turned.damage = still.damage ∧ turned.rate = still.rate ∧ turned.branch = still.branch := by
  intro turned still
  have h1 : turned = _ := C127_history d n hn p hp t dts hdt hz s
  have hp' : PlaneCrack { d with wy := 0, wz := 0 } (d.pair p) := ⟨hp.1, hp.2, hp.3, hp.4, hp.5⟩
  have h2 : still = _ := C127_history { d with wy := 0, wz := 0 } n hn p hp' t dts hdt (runNotZapped_still _ _) s
  rw [h1, h2]
  have key : ∀ (dts : List ℝ), (∀ dt ∈ dts, 0 < dt) → ∀ (t : ℝ) (v w : Vars m),
      v.damage = w.damage → v.rate = w.rate → v.branch = w.branch →
      (evolve d.law (turnHistory d.wy d.wz d.rate t dts) v).damage =
        (evolve d.law (turnHistory 0 0 d.rate t dts) w).damage ∧
      (evolve d.law (turnHistory d.wy d.wz d.rate t dts) v).rate =
        (evolve d.law (turnHistory 0 0 d.rate t dts) w).rate ∧
      (evolve d.law (turnHistory d.wy d.wz d.rate t dts) v).branch =
        (evolve d.law (turnHistory 0 0 d.rate t dts) w).branch := by
    intro dts
    induction dts with
    | nil => exact fun _ _ v w h1 h2 h3 => ⟨h1, h2, h3⟩
    | cons dt rest ih =>
      intro hpos t v w e1 e2 e3
      have hd := hpos dt (by simp)
      have i1 := increment_eq d.law hl dt hd (turnOpening d.wy d.wz d.rate t dt) v
      have i2 := increment_eq d.law hl dt hd (turnOpening 0 0 d.rate t dt) w
      have l1 : lam d.law (turnOpening d.wy d.wz d.rate t dt).un (turnOpening d.wy d.wz d.rate t dt).ut =
          lam d.law (turnOpening 0 0 d.rate t dt).un (turnOpening 0 0 d.rate t dt).ut := rfl
      have l2 := lam_turn d.law he d.wy d.wz d.rate t dt
      simp only [turnHistory, evolve]
      refine ih (fun x hx => hpos x (by simp [hx])) (t + dt) _ _ ?_ ?_ ?_
      · simp only [stage, if_true, commit, i1, i2]
        rw [l1, l2, e1]
      · simp only [stage, if_true, commit, i1, i2]
        rw [l1, l2]
      · simp only [stage, if_true, commit, i1, i2]
        rw [l1, l2, e3]
  exact key dts hdt t _ _ rfl rfl rfl

/-- **C127 (traction and rotation).** "The traction on a crack that is pulled open does not depend on its rotation": with a
half turn during the step, without damage and with all parameters one, the traction has the opposite sign, because the
opening at the end of the step is measured along the normal of its start. -/
theorem C127_traction_rotation_fails (d : TestJob N P 0) (hl : d.law = ⟨1, 0, 1, 1, 1, Fin.elim0, Fin.elim0⟩)
    (hy : d.wy = 0) (hz : d.wz = Real.pi) (hr : d.rate = 1) (n : ℕ) (hn : 0 < n) (p : P)
    (hp : PlaneCrack d (d.pair p)) (s : TestState N P 0) (hs : s.vars p = Vars.zero 0) :
    ((testRun d n 0 [1] s).2.vars p).tn = -1 ∧
      ((testRun { d with wy := 0, wz := 0 } n 0 [1] s).2.vars p).tn = 1 := by
  have hok : LawOk d.law := by rw [hl]; exact ⟨one_pos, one_pos, le_rfl⟩
  have hp' : PlaneCrack { d with wy := 0, wz := 0 } (d.pair p) := ⟨hp.1, hp.2, hp.3, hp.4, hp.5⟩
  obtain ⟨-, -, hI⟩ := C88_rotation d.wy d.wz 0
  have hz0 : RunNotZapped d.wy d.wz 0 [1] := by
    refine ⟨fun i => ?_, trivial⟩
    rw [hI]
    match i with
    | 0 => right; rw [if_pos rfl]; norm_num
    | 1 => left; rw [if_neg (by decide)]
    | 2 => left; rw [if_neg (by decide)]
  have h1 := C127_history d n hn p hp 0 [1] (by simp) hz0 s
  have h2 := C127_history { d with wy := 0, wz := 0 } n hn p hp' 0 [1] (by simp) (runNotZapped_still _ _) s
  have hc : turnCos d.wy d.wz 0 1 = -1 := by
    obtain ⟨⟨a1, -, -⟩, ⟨b1, -, -⟩, ⟨c1, -, -⟩⟩ := rot_components d.wy d.wz (0 + 1)
    have h1 : (1 : Fin 3) ≠ 0 := by decide
    have h2 : (2 : Fin 3) ≠ 0 := by decide
    simp only [turnCos, dot, hI, if_true, if_neg h1, if_neg h2, a1, b1, c1]
    rw [hy, hz]
    norm_num
  have hdam : ∀ o : Opening, (stage d.law true 1 o (Vars.zero 0)).damage = 0 := by
    intro o
    have hi := increment_eq d.law hok 1 one_pos o (Vars.zero 0)
    have hz : ∀ r a b : ℝ, damageInc d.law 1 r a b (Vars.zero 0).damage = 0 := by
      intro r a b
      simp only [damageInc, rawDamage, hl, Vars.zero, zero_mul, ite_self, add_zero]
      norm_num
    simp only [stage, if_true, commit, hi]
    rw [hz]
    simp [Vars.zero]
  have step : ∀ o : Opening, o.un = 0 → (stage d.law true 1 o (Vars.zero 0)).tn = o.un' := by
    intro o ho
    have := (C86_elastic_step d.law hok 1 one_pos o (Vars.zero 0)).1
    rw [hdam, ho, hl] at this
    rw [hl]
    simp only [Vars.zero] at this ⊢
    linarith
  constructor
  · rw [h1, hs]
    simp only [turnHistory, evolve]
    rw [step _ (by simp [turnOpening])]
    simp only [turnOpening, hc, hr]
    norm_num
  · rw [h2, hs]
    simp only [turnHistory, evolve]
    rw [step _ (by simp [turnOpening])]
    simp only [turnOpening, turnCos_still, hr]
    norm_num

/-! ### Cases meeting the hypotheses -/

/-- Four points of the plane x = 0, ordered so that the normal points along the x axis. -/
def facePoints : Fin 4 → Fin 3 → ℝ := ![![0, 0, 0], ![0, 1, 0], ![0, 1, 1], ![0, 0, 1]]

/-- Two faces on top of each other: nodes 0 to 3 stay, nodes 4 to 7 are pulled away. -/
noncomputable def twoFaces (wy wz : ℝ) : TestJob (Fin 8) Unit 0 where
  wy := wy
  wz := wz
  rate := 1
  X := fun n => facePoints ⟨n % 4, Nat.mod_lt _ (by norm_num)⟩
  side := fun n => decide (3 < n.val)
  pair := fun _ => ⟨0, 4, [![0, 1, 2, 3]]⟩
  law := ⟨1, 0, 1, 1, 1, Fin.elim0, Fin.elim0⟩

theorem vec3_2 (a b c : ℝ) : (![a, b, c] : Fin 3 → ℝ) 2 = c := rfl

theorem facePoints_eq : facePoints 0 = ![0, 0, 0] ∧ facePoints 1 = ![0, 1, 0] ∧ facePoints 2 = ![0, 1, 1] ∧
    facePoints 3 = ![0, 0, 1] := ⟨rfl, rfl, rfl, rfl⟩

theorem facePoints_normal (i : Fin 3) : faceNormal (fun i k => facePoints k i) i = if i = 0 then 1 else 0 := by
  obtain ⟨p0, p1, p2, p3⟩ := facePoints_eq
  have hr : tangentXi (fun i k => facePoints k i) 0 0 = ![0, 1 / 2, 0] := by
    funext i
    simp only [tangentXi, Fin.sum_univ_four, p0, p1, p2, p3, dphiXi, xi0, xi1, xi2, xi3]
    match i with
    | 0 => norm_num
    | 1 => norm_num
    | 2 => simp only [vec3_2]; norm_num
  have ht : tangentEta (fun i k => facePoints k i) 0 0 = ![0, 0, 1 / 2] := by
    funext i
    simp only [tangentEta, Fin.sum_univ_four, p0, p1, p2, p3, dphiEta, eta0, eta1, eta2, eta3]
    match i with
    | 0 => norm_num
    | 1 => norm_num
    | 2 => simp only [vec3_2]; norm_num
  have l1 : len (![0, 1 / 2, 0] : Fin 3 → ℝ) = 1 / 2 :=
    len_of_sq _ _ (by norm_num) (by simp only [dot, vec3_2]; norm_num)
  have l2 : len (![0, 0, 1 / 2] : Fin 3 → ℝ) = 1 / 2 :=
    len_of_sq _ _ (by norm_num) (by simp only [dot, vec3_2]; norm_num)
  have d1 : direction (![0, 1 / 2, 0] : Fin 3 → ℝ) = ![0, 1, 0] := by
    funext i
    simp only [direction, l1]
    match i with
    | 0 => norm_num
    | 1 => norm_num
    | 2 => simp only [vec3_2]; norm_num
  have d2 : direction (![0, 0, 1 / 2] : Fin 3 → ℝ) = ![0, 0, 1] := by
    funext i
    simp only [direction, l2]
    match i with
    | 0 => norm_num
    | 1 => norm_num
    | 2 => simp only [vec3_2]; norm_num
  have hc : cross (![0, 1, 0] : Fin 3 → ℝ) ![0, 0, 1] = ![1, 0, 0] := by
    funext i
    match i with
    | 0 => simp only [cross_0, vec3_2]; norm_num
    | 1 => simp only [cross_1, vec3_2]; norm_num
    | 2 => simp only [cross_2, vec3_2]; norm_num
  have l3 : len (![1, 0, 0] : Fin 3 → ℝ) = 1 :=
    len_of_sq _ _ (by norm_num) (by simp only [dot, vec3_2]; norm_num)
  have d3 : direction (![1, 0, 0] : Fin 3 → ℝ) = ![1, 0, 0] := by
    funext i
    simp only [direction, l3, div_one]
  simp only [faceNormal, hr, ht, l1, l2, d1, d2, hc, l3, d3]
  match i with
  | 0 => norm_num [zap]
  | 1 => norm_num [zap]
  | 2 => rw [vec3_2, if_neg (by decide : ¬ (2 : Fin 3) = 0)]; norm_num [zap]

theorem twoFaces_plane (wy wz : ℝ) : PlaneCrack (twoFaces wy wz) ((twoFaces wy wz).pair ()) := by
  have h8 : ∀ (n : Fin 8) (k : Fin 4), n.val % 4 = k.val → (twoFaces wy wz).X n = facePoints k := by
    intro n k h
    simp only [twoFaces]
    congr 1
    exact Fin.ext h
  refine ⟨?_, rfl, by simp [twoFaces], ?_, ?_⟩
  · exact (h8 0 0 rfl).trans (h8 4 0 rfl).symm
  · intro f hf k
    have : f = ![0, 1, 2, 3] := by simpa [twoFaces] using hf
    subst this
    fin_cases k <;> rfl
  · intro f hf i
    have : f = ![0, 1, 2, 3] := by simpa [twoFaces] using hf
    subst this
    have hA : (fun i k => (twoFaces wy wz).X ((![0, 1, 2, 3] : Fin 4 → Fin 8) k) i) = fun i k => facePoints k i := by
      funext i k
      rw [h8 _ k (by fin_cases k <;> rfl)]
    have hs : (twoFaces wy wz).side ((twoFaces wy wz).pair ()).a = false := rfl
    rw [hA, hs, facePoints_normal]
    simp

example : (twoFaces 0 Real.pi).law = ⟨1, 0, 1, 1, 1, Fin.elim0, Fin.elim0⟩ ∧ LawOk (twoFaces 0 Real.pi).law ∧
    (twoFaces 0 Real.pi).law.un = (twoFaces 0 Real.pi).law.ut :=
  ⟨rfl, ⟨one_pos, one_pos, le_rfl⟩, rfl⟩

/-- A run with several steps whose normals are not touched. -/
example : RunNotZapped 0 Real.pi 0 [1, 2] := by
  have h : ∀ (n : ℕ), NotZapped 0 Real.pi n := by
    intro n i
    obtain ⟨⟨a, -, -⟩, ⟨b, -, -⟩, ⟨c, -, -⟩⟩ := rot_components 0 Real.pi n
    simp only [zero_mul, Real.cos_zero, Real.sin_zero, mul_one, neg_zero, mul_comm Real.pi, Real.sin_nat_mul_pi,
      Real.cos_nat_mul_pi] at a b c
    match i with
    | 0 => right; rw [a, abs_pow]; norm_num
    | 1 => left; exact b
    | 2 => left; exact c
  refine ⟨by simpa using h 0, ?_, trivial⟩
  simpa using h 1

example : |(2 : ℝ) - ([(1, 2), (3, 4)] : List (ℝ × ℝ)).length| < 0.5 := by norm_num

end Fierro
