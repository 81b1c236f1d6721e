import Mathlib.Tactic.FinCases
import Mathlib.Tactic.FieldSimp
import Verif.Model.EvpLargeJ2
import Verif.Props.EvpLargeGrid
import Verif.Props.EvpLargeNewton

/-!
# C131: the variant of the large strain code for isotropic plasticity
-/

namespace Fierro

open Large

/-! ### Specification -/

/-- Average of the material rate of the deformation gradient over the deformed volume. -/
noncomputable def volumeAvg {g : EvpGrid} (s : GridStep g) : T2 ℝ := fun ii jj =>
  (∑ x, det33 (Matrix.of (s.F x)) * ∑ kk, s.L x ii kk * s.F x kk jj) / ∑ x, det33 (Matrix.of (s.F x))

/-- Its average over the grid points. -/
noncomputable def pointAvg {g : EvpGrid} (s : GridStep g) : T2 ℝ := fun ii jj =>
  (∑ x, ∑ kk, s.L x ii kk * s.F x kk jj) / (Fintype.card g.Ix : ℝ)

/-- The gradient the nodes follow. -/
noncomputable def gradJ2 {g : EvpGrid} (steps : List (GridStep g)) : T2 ℝ := fun ii jj =>
  (if ii = jj then 1 else 0) + (steps.map fun s => s.dt * volumeAvg s ii jj).sum

/-- The accumulated fluctuation of a node of a block that is continued periodically. -/
noncomputable def driftJ2 {g : EvpGrid} (b : RankBlock g) (hm : ∀ a, 0 < b.m a) (steps : List (GridStep g))
    (i : Fin 3 → ℤ) : Fin 3 → ℝ := fun ii =>
  (steps.map fun s => s.dt * nodeMean (unitGrid b.m) hm (blockOf b (fluctuation g s.ref)) i ii).sum

/-- The rank that holds the whole grid. -/
def wholeGrid (n : Fin 3 → ℕ) : RankBlock (unitGrid n) := ⟨0, n, fun a => by simp [unitGrid]⟩

/-! ### Averages -/

theorem avgJ2_eq {g : EvpGrid} (hp : g.Pos) (s : GridStep g) : s.avg = volumeAvg s := by
  funext ii jj
  haveI : Nonempty g.Ix := ⟨fun a => ⟨0, hp a⟩⟩
  have hc : (Fintype.card g.Ix : ℝ) ≠ 0 := by
    exact_mod_cast Fintype.card_ne_zero
  have hw : wgt g.Ix ≠ 0 := by unfold wgt; positivity
  simp only [GridStep.avg, volumeAvg, GridStep.wgtc, GridStep.detAvg, GridStep.ref, velgradRef, ← Finset.sum_mul]
  rw [Finset.sum_div]
  refine Finset.sum_congr rfl fun x _ => ?_
  by_cases h : ∑ x, det33 (Matrix.of (s.F x)) = 0
  · simp [h]
  · field_simp

/-- **C131.** The rate the nodes follow is the average over the deformed volume.  It differs from the
average over the grid points, the rate of the average deformation gradient, by the correlation of volume and
rate; there is no difference when all points have the same volume. -/
theorem C131_average {g : EvpGrid} (hp : g.Pos) (s : GridStep g)
    (hv : ∑ x, det33 (Matrix.of (s.F x)) ≠ 0) (ii jj : Fin 3) :
    s.avg ii jj = pointAvg s ii jj +
      (∑ x, (det33 (Matrix.of (s.F x)) - (∑ y, det33 (Matrix.of (s.F y))) / (Fintype.card g.Ix : ℝ)) *
        ∑ kk, s.L x ii kk * s.F x kk jj) / ∑ x, det33 (Matrix.of (s.F x)) ∧
    ((∀ x y, det33 (Matrix.of (s.F x)) = det33 (Matrix.of (s.F y))) → s.avg ii jj = pointAvg s ii jj) := by
  haveI : Nonempty g.Ix := ⟨fun a => ⟨0, hp a⟩⟩
  have hc : (Fintype.card g.Ix : ℝ) ≠ 0 := by
    exact_mod_cast Fintype.card_ne_zero
  have h1 : s.avg ii jj = pointAvg s ii jj +
      (∑ x, (det33 (Matrix.of (s.F x)) - (∑ y, det33 (Matrix.of (s.F y))) / (Fintype.card g.Ix : ℝ)) *
        ∑ kk, s.L x ii kk * s.F x kk jj) / ∑ x, det33 (Matrix.of (s.F x)) := by
    rw [avgJ2_eq hp]
    simp only [volumeAvg, pointAvg, sub_mul, Finset.sum_sub_distrib, ← Finset.mul_sum]
    field_simp
    ring
  refine ⟨h1, fun hu => ?_⟩
  rw [h1]
  have hz : ∀ x, det33 (Matrix.of (s.F x)) - (∑ y, det33 (Matrix.of (s.F y))) / (Fintype.card g.Ix : ℝ) = 0 := by
    intro x
    rw [Finset.sum_congr rfl fun y _ => hu y x]
    simp only [Finset.sum_const, Finset.card_univ, nsmul_eq_mul]
    field_simp
    ring
  simp only [hz, zero_mul, Finset.sum_const_zero, zero_div, add_zero]

/-! ### Positions -/

/-- **C131.** Any number of steps on any rank: every node of the rank has a position, no point that the
rank does not hold is read, and the position is the gradient accumulated from the volume averages applied to
the index, plus the accumulated fluctuation of the rank's own points, continued periodically at the
boundary of the rank. -/
theorem C131_position {g : EvpGrid} (hp : g.Pos) (b : RankBlock g) (hm : ∀ a, 0 < b.m a) (i : Fin 3 → ℕ)
    (h : ∀ a, 1 ≤ i a ∧ i a ≤ b.m a + 1) (steps : List (GridStep g)) :
    nodeRunJ2 b i steps = some fun ii =>
      (∑ jj, gradJ2 steps ii jj * ((i jj : ℝ) - 1 / 2)) + driftJ2 b hm steps (fun a => (i a : ℤ)) ii := by
  have key : ∀ (l : List (GridStep g)) (x : Fin 3 → ℝ), l.foldlM (nodeStepJ2 b i) x =
      some fun ii => x ii + (∑ jj, (l.map fun s => s.dt * volumeAvg s ii jj).sum * ((i jj : ℝ) - 1 / 2)) +
        driftJ2 b hm l (fun a => (i a : ℤ)) ii := by
    intro l
    induction l with
    | nil =>
      intro x
      simp only [List.foldlM_nil, Option.pure_def, List.map_nil, List.sum_nil, zero_mul, Finset.sum_const_zero,
        driftJ2, add_zero]
    | cons s l ih =>
      intro x
      have e := nodeVelocity_eq (unitGrid b.m) hm 0 i (blockOf b (fluctuation g s.ref))
        (fun a => by simpa [unitGrid] using h a)
      rw [List.foldlM_cons, nodeStepJ2, nodeVelocityJ2, e, Option.map_some, Option.bind_eq_bind,
        Option.bind_some, ih, avgJ2_eq hp]
      congr 1
      funext ii
      simp only [driftJ2, List.map_cons, List.sum_cons, nodeRef, Fin.sum_univ_three, Pi.zero_apply,
        Nat.cast_zero, add_zero]
      norm_num
      ring
  rw [nodeRunJ2, key]
  congr 1
  funext ii
  simp only [nodeRef, gradJ2, add_mul, Finset.sum_add_distrib, ite_mul, one_mul, zero_mul,
    Finset.sum_ite_eq, Finset.mem_univ, if_true]
  norm_num

/-- **C131.** Opposite nodes of the block of every rank differ by the size of the block times a column of
the accumulated gradient: every block is deformed as if it alone filled space periodically. -/
theorem C131_block {g : EvpGrid} (hp : g.Pos) (b : RankBlock g) (hm : ∀ a, 0 < b.m a) (i : Fin 3 → ℕ)
    (h : ∀ a, 1 ≤ i a ∧ i a ≤ b.m a + 1) (c : Fin 3) (hb : i c = 1) (steps : List (GridStep g)) :
    ∃ x y, nodeRunJ2 b i steps = some x ∧
      nodeRunJ2 b (Function.update i c (b.m c + 1)) steps = some y ∧
      ∀ ii, y ii - x ii = b.m c * gradJ2 steps ii c := by
  have h' : ∀ a, 1 ≤ Function.update i c (b.m c + 1) a ∧ Function.update i c (b.m c + 1) a ≤ b.m a + 1 := by
    intro a
    by_cases e : a = c
    · subst e; simp
    · rw [Function.update_of_ne e]; exact h a
  refine ⟨_, _, C131_position hp b hm i h steps, C131_position hp b hm _ h' steps, fun ii => ?_⟩
  have hd : driftJ2 b hm steps (fun a => ((Function.update i c (b.m c + 1) a : ℕ) : ℤ)) ii =
      driftJ2 b hm steps (fun a => (i a : ℤ)) ii := by
    have e : (fun a => ((Function.update i c (b.m c + 1) a : ℕ) : ℤ)) =
        fun a => (i a : ℤ) + (if a = c then 1 else 0) * ((unitGrid b.m).n a : ℤ) := by
      funext a
      by_cases e : a = c
      · subst e; simp [hb, unitGrid]; ring
      · simp [e]
    simp only [driftJ2]
    rw [e]
    simp only [nodeMean_periodic (unitGrid b.m) hm _ (fun a => (i a : ℤ)) fun a => if a = c then 1 else 0]
  rw [hd]
  have hs : ∑ jj, gradJ2 steps ii jj * (((Function.update i c (b.m c + 1) jj : ℕ) : ℝ) - 1 / 2) -
      ∑ jj, gradJ2 steps ii jj * ((i jj : ℝ) - 1 / 2) = b.m c * gradJ2 steps ii c := by
    rw [← Finset.sum_sub_distrib, Finset.sum_eq_single c]
    · simp [hb]; ring
    · intro a _ ha
      rw [Function.update_of_ne ha]; ring
    · simp
  linarith

theorem blockOf_whole {β : Type} (n : Fin 3 → ℕ) (v : (unitGrid n).Ix → β) : blockOf (wholeGrid n) v = v := by
  funext y
  refine congrArg v ?_
  funext a
  exact Fin.ext (by simp [wholeGrid])

/-- **C131.** On a single rank, as long as all points of the grid have the same volume in every step, the
nodes are where the code the variant was made from puts them. -/
theorem C131_single (n : Fin 3 → ℕ) (hn : ∀ a, 0 < n a) (i : Fin 3 → ℕ)
    (steps : List (GridStep (unitGrid n)))
    (hv : ∀ s ∈ steps, ∃ v, v ≠ 0 ∧ ∀ x, det33 (Matrix.of (s.F x)) = v) :
    nodeRunJ2 (wholeGrid n) i steps =
      nodeRun (unitGrid n) (fun _ => 1) 0 i (steps.map fun s => (s.dt, s.ref)) := by
  have hp : (unitGrid n).Pos := hn
  have h0 : nodeRef i = nodeStart (fun _ => 1) i := by
    funext ii
    simp [nodeStart, deltM, Matrix.diagonal_apply]
  have havg : ∀ s ∈ steps, s.avg = refAvg s.ref := by
    intro s hs
    obtain ⟨v, hv0, hv'⟩ := hv s hs
    funext ii jj
    haveI : Nonempty (unitGrid n).Ix := ⟨fun a => ⟨0, hp a⟩⟩
    have hc : (Fintype.card (unitGrid n).Ix : ℝ) ≠ 0 := by exact_mod_cast Fintype.card_ne_zero
    simp only [GridStep.avg, refAvg, GridStep.wgtc, GridStep.detAvg, hv', Finset.sum_const, Finset.card_univ,
      nsmul_eq_mul, wgt]
    refine Finset.sum_congr rfl fun x _ => ?_
    field_simp
  have hstep : ∀ s ∈ steps, ∀ x0, nodeStepJ2 (wholeGrid n) i x0 s = nodeStep (unitGrid n) 0 i x0 (s.dt, s.ref) := by
    intro s hs x0
    have e : nodeVelocityJ2 (wholeGrid n) (fluctuation (unitGrid n) s.ref) i =
        nodeVelocity (unitGrid n) 0 (fluctuation (unitGrid n) s.ref) i :=
      congrArg (fun v => nodeVelocity (unitGrid n) 0 v i) (blockOf_whole n (fluctuation (unitGrid n) s.ref))
    rw [nodeStepJ2, nodeStep, e, havg s hs]
  have key : ∀ l : List (GridStep (unitGrid n)), (∀ s ∈ l, s ∈ steps) → ∀ x0,
      l.foldlM (nodeStepJ2 (wholeGrid n) i) x0 =
        (l.map fun s => (s.dt, s.ref)).foldlM (nodeStep (unitGrid n) 0 i) x0 := by
    intro l
    induction l with
    | nil => intro _ x0; rfl
    | cons s l ih =>
      intro hl x0
      rw [List.map_cons, List.foldlM_cons, List.foldlM_cons, hstep s (hl s (by simp))]
      refine congrArg _ (funext fun x => ?_)
      exact ih (fun t ht => hl t (by simp [ht])) x
  rw [nodeRunJ2, nodeRun, ← h0]
  exact key steps (fun s hs => hs) _

/-! ### Several ranks -/

/-- Three points in a row. -/
def rowOf3 : Fin 3 → ℕ := ![3, 1, 1]

/-- The rank with the first two points. -/
def rankA : RankBlock (unitGrid rowOf3) := ⟨0, ![2, 1, 1], fun a => by fin_cases a <;> simp [unitGrid, rowOf3]⟩

/-- The rank with the third. -/
def rankB : RankBlock (unitGrid rowOf3) :=
  ⟨![2, 0, 0], ![1, 1, 1], fun a => by fin_cases a <;> simp [unitGrid, rowOf3]⟩

/-- Velocities -1, 0, 1 along the row. -/
noncomputable def rowVelocity (x : (unitGrid rowOf3).Ix) (i : Fin 3) : ℝ :=
  if i = 0 then ((x 0 : ℕ) : ℝ) - 1 else 0

theorem rowOf3_pos : ∀ a, 0 < rowOf3 a := by intro a; fin_cases a <;> simp [rowOf3]

theorem rowVelocity_mean (i : Fin 3) : ∑ x, rowVelocity x i = 0 := by
  let e : (unitGrid rowOf3).Ix ≃ (unitGrid rowOf3).Ix := Equiv.piCongrRight fun _ => Fin.revPerm
  have h : ∑ x, rowVelocity x i = ∑ x, -rowVelocity x i := by
    rw [← Equiv.sum_comp e]
    refine Finset.sum_congr rfl fun x _ => ?_
    unfold rowVelocity
    split_ifs
    · have hv : ((e x 0 : Fin _) : ℕ) = 2 - (x 0 : ℕ) := by
        show ((Fin.rev (x 0) : Fin _) : ℕ) = _
        rw [Fin.val_rev]
        show 3 - ((x 0 : ℕ) + 1) = _
        omega
      have hx : (x 0 : ℕ) ≤ 2 := by
        have : (x 0 : ℕ) < 3 := (x 0).2
        omega
      rw [hv, Nat.cast_sub hx]
      push_cast
      ring
    · ring
  rw [Finset.sum_neg_distrib] at h
  linarith

/-- There is a velocity gradient from which the code finds these velocities. -/
theorem rowVelocity_found : ∃ ref : (unitGrid rowOf3).Ix → T2 ℝ,
    fluctuation (unitGrid rowOf3) ref = rowVelocity := by
  refine ⟨fun x i j => deriv (fun t => (unitGrid rowOf3).interp (fun x => rowVelocity x i)
      (Function.update ((unitGrid rowOf3).position x) j t)) ((unitGrid rowOf3).position x j), ?_⟩
  funext x i
  refine C96_velocity rowOf3 rowOf3_pos rowVelocity 0 _ rowVelocity_mean ?_ ?_ x i
  · rintro k ⟨a, ha⟩
    exfalso
    have h1 : rowOf3 a % 2 = 1 := by fin_cases a <;> simp [rowOf3]
    omega
  · intro x i j
    have h := (unitGrid rowOf3).waves_deriv ((unitGrid rowOf3).forward fun x => rowVelocity x i)
      ((unitGrid rowOf3).position x) j
    have h2 : DifferentiableAt ℝ (fun t => (unitGrid rowOf3).interp (fun x => rowVelocity x i)
      (Function.update ((unitGrid rowOf3).position x) j t)) ((unitGrid rowOf3).position x j) :=
      h.differentiableAt
    simpa using h2.hasDerivAt

/-- The nodes of two ranks that lie between them. -/
def nodeOfA : Fin 3 → ℕ := ![3, 1, 1]
def nodeOfB : Fin 3 → ℕ := ![1, 1, 1]

theorem meanA (h : ∀ a, 0 < rankA.m a) : nodeMean (unitGrid rankA.m) h (blockOf rankA rowVelocity)
    (fun a => (nodeOfA a : ℤ)) 0 = -1 / 2 := by
  simp only [nodeMean, Fin.sum_univ_two, blockOf, rowVelocity, wrapPoint, rankA, nodeOfA, unitGrid]
  norm_num

theorem meanB (h : ∀ a, 0 < rankB.m a) : nodeMean (unitGrid rankB.m) h (blockOf rankB rowVelocity)
    (fun a => (nodeOfB a : ℤ)) 0 = 1 := by
  simp only [nodeMean, Fin.sum_univ_two, blockOf, rowVelocity, wrapPoint, rankB, nodeOfB, unitGrid]
  norm_num

/-- **C131 does not hold on several ranks.**  A row of three points shared by two ranks, from an undeformed
grid: the last nodes of the first rank are the first nodes of the second, which counts them from its own
origin.  After a single step the two ranks place them differently: on the first rank the fluctuation of the
last node was taken from its first and last point, on the second from its only point.  The code the variant
was made from places them alike. -/
theorem C131_ranks_fails : ∃ s : GridStep (unitGrid rowOf3), s.dt = 1 ∧ (∀ x, s.F x = fun i j => if i = j then 1 else 0) ∧
    ∃ x y, nodeRunJ2 rankA nodeOfA [s] = some x ∧ nodeRunJ2 rankB nodeOfB [s] = some y ∧
      x 0 ≠ y 0 + ∑ jj, gradJ2 [s] 0 jj * (rankB.start jj : ℝ) ∧
    ∃ x' y', nodeRun (unitGrid rowOf3) (fun _ => 1) rankA.start nodeOfA [(s.dt, s.ref)] = some x' ∧
      nodeRun (unitGrid rowOf3) (fun _ => 1) rankB.start nodeOfB [(s.dt, s.ref)] = some y' ∧
      x' 0 = y' 0 + ∑ jj, gradJ2 [s] 0 jj * (rankB.start jj : ℝ) := by
  obtain ⟨r, hr⟩ := rowVelocity_found
  obtain ⟨s, hs1, hs2, hs3⟩ : ∃ s : GridStep (unitGrid rowOf3), s.dt = 1 ∧
      (∀ x, s.F x = fun i j => if i = j then 1 else 0) ∧ s.L = r :=
    ⟨⟨1, r, fun _ i j => if i = j then 1 else 0⟩, rfl, fun _ => rfl, rfl⟩
  have href : s.ref = r := by
    funext x i j
    simp [GridStep.ref, velgradRef, hs2, hs3]
  have hp : (unitGrid rowOf3).Pos := rowOf3_pos
  have hA : ∀ a, 0 < rankA.m a := by intro a; fin_cases a <;> simp [rankA]
  have hB : ∀ a, 0 < rankB.m a := by intro a; fin_cases a <;> simp [rankB]
  have pA := C131_position hp rankA hA nodeOfA (by intro a; fin_cases a <;> simp [rankA, nodeOfA]) [s]
  have pB := C131_position hp rankB hB nodeOfB (by intro a; fin_cases a <;> simp [rankB, nodeOfB]) [s]
  have dA : driftJ2 rankA hA [s] (fun a => (nodeOfA a : ℤ)) 0 = -1 / 2 := by
    rw [← meanA hA]
    simp only [driftJ2, List.map_cons, List.map_nil, List.sum_cons, List.sum_nil, href, hs1, one_mul, add_zero]
    exact congrArg (fun v => nodeMean (unitGrid rankA.m) hA (blockOf rankA v) (fun a => (nodeOfA a : ℤ)) 0) hr
  have dB : driftJ2 rankB hB [s] (fun a => (nodeOfB a : ℤ)) 0 = 1 := by
    rw [← meanB hB]
    simp only [driftJ2, List.map_cons, List.map_nil, List.sum_cons, List.sum_nil, href, hs1, one_mul, add_zero]
    exact congrArg (fun v => nodeMean (unitGrid rankB.m) hB (blockOf rankB v) (fun a => (nodeOfB a : ℤ)) 0) hr
  have hg : ∀ ii jj, gradJ2 [s] ii jj = nodeGrad (fun _ => 1) [(s.dt, s.ref)] ii jj := by
    intro ii jj
    have hd : ∀ x, det33 (Matrix.of (s.F x)) = 1 := by intro x; simp [det33, hs2]
    have h1 : s.avg = refAvg s.ref := by
      haveI : Nonempty (unitGrid rowOf3).Ix := ⟨fun a => ⟨0, hp a⟩⟩
      have hc : (Fintype.card (unitGrid rowOf3).Ix : ℝ) ≠ 0 := by exact_mod_cast Fintype.card_ne_zero
      funext ii jj
      simp only [GridStep.avg, refAvg, GridStep.wgtc, GridStep.detAvg, hd, Finset.sum_const, Finset.card_univ,
        nsmul_eq_mul, wgt]
      refine Finset.sum_congr rfl fun x _ => ?_
      field_simp
    simp only [gradJ2, nodeGrad, List.map_cons, List.map_nil, List.sum_cons, List.sum_nil, ← avgJ2_eq hp, h1]
  obtain ⟨xa, ya, ea, fa, ga⟩ := C96_ranks (unitGrid rowOf3) hp (fun _ => 1) rankA.start nodeOfA
    (by intro a; fin_cases a <;> simp [rankA, nodeOfA, unitGrid, rowOf3]) [(s.dt, s.ref)]
  obtain ⟨xb, yb, eb, fb, gb⟩ := C96_ranks (unitGrid rowOf3) hp (fun _ => 1) rankB.start nodeOfB
    (by intro a; fin_cases a <;> simp [rankB, nodeOfB, unitGrid, rowOf3]) [(s.dt, s.ref)]
  have hn : (fun a => nodeOfA a + rankA.start a) = fun a => nodeOfB a + rankB.start a := by
    funext a; fin_cases a <;> simp [nodeOfA, nodeOfB, rankA, rankB]
  rw [hn] at fa
  have hy : ya = yb := Option.some.inj (fa.symm.trans fb)
  refine ⟨s, hs1, hs2, _, _, pA, pB, ?_, xa, xb, ea, eb, ?_⟩
  · intro h
    rw [dA, dB] at h
    have e1 : nodeOfA 0 = 3 ∧ nodeOfA 1 = 1 ∧ nodeOfA 2 = 1 := ⟨rfl, rfl, rfl⟩
    have e2 : nodeOfB 0 = 1 ∧ nodeOfB 1 = 1 ∧ nodeOfB 2 = 1 := ⟨rfl, rfl, rfl⟩
    have e3 : rankB.start 0 = 2 ∧ rankB.start 1 = 0 ∧ rankB.start 2 = 0 := ⟨rfl, rfl, rfl⟩
    simp only [Fin.sum_univ_three, e1.1, e1.2.1, e1.2.2, e2.1, e2.2.1, e2.2.2, e3.1, e3.2.1, e3.2.2] at h
    push_cast at h
    linarith
  · rw [ga 0, gb 0, hy]
    simp only [hg, Fin.sum_univ_three, rankA, rankB]
    norm_num

/-! ### Weights -/

/-- A step of two points in a row, stretched to 3/2 and 1/2; the rates of their deformation gradients are
opposite. -/
noncomputable def stretchedRow : GridStep (unitGrid ![2, 1, 1]) where
  dt := 1
  L := fun x i j => if i = j ∧ i = 0 then (if (x 0 : ℕ) = 0 then 2 / 3 else -2) else 0
  F := fun x i j => if i = j then (if i = 0 then (if (x 0 : ℕ) = 0 then 3 / 2 else 1 / 2) else 1) else 0

theorem sum_two_points (f : (unitGrid ![2, 1, 1]).Ix → ℝ) :
    ∑ x, f x = f (fun a => ⟨0, by fin_cases a <;> simp [unitGrid]⟩) +
      f (fun a => ⟨if a = 0 then 1 else 0, by fin_cases a <;> simp [unitGrid]⟩) := by
  let e : Fin 2 ≃ (unitGrid ![2, 1, 1]).Ix :=
    { toFun := fun t a => ⟨if a = 0 then t else 0, by
        have ht := t.2
        fin_cases a <;> simp [unitGrid] <;> omega⟩
      invFun := fun x => x 0
      left_inv := fun t => Fin.ext (by simp)
      right_inv := fun x => by
        funext a
        apply Fin.ext
        fin_cases a
        · rfl
        · have : (x 1 : ℕ) < 1 := (x 1).2
          show 0 = (x 1 : ℕ)
          omega
        · have : (x 2 : ℕ) < 1 := (x 2).2
          show 0 = (x 2 : ℕ)
          omega }
  rw [← Equiv.sum_comp e, Fin.sum_univ_two]
  congr 2
  funext a
  apply Fin.ext
  show (if a = 0 then ((0 : Fin 2) : ℕ) else 0) = 0
  simp

/-- **C131.** The nodes do not follow the average deformation gradient when points have different volumes:
two points of a row on a single rank, one stretched to one and a half times its length, the other compressed
to half of it, with opposite rates of their deformation gradients.  The average deformation gradient does
not change, but in a step of length one the opposite nodes of the grid move apart by a unit length. -/
theorem C131_weights_fails : pointAvg stretchedRow = 0 ∧
    ∃ x y, nodeRunJ2 (wholeGrid ![2, 1, 1]) ![1, 1, 1] [stretchedRow] = some x ∧
      nodeRunJ2 (wholeGrid ![2, 1, 1]) ![3, 1, 1] [stretchedRow] = some y ∧ y 0 - x 0 = 2 + 1 := by
  have hp : (unitGrid ![2, 1, 1]).Pos := by intro a; fin_cases a <;> simp [unitGrid]
  have f1 : ((2 : Fin 3) = 0) = False := by decide
  have f2 : ((0 : Fin 3) = 2) = False := by decide
  have f3 : ((1 : Fin 3) = 2) = False := by decide
  have f4 : ((2 : Fin 3) = 1) = False := by decide
  constructor
  · funext i j
    simp only [pointAvg, sum_two_points, Fin.sum_univ_three, stretchedRow]
    fin_cases i <;> fin_cases j <;> simp <;> norm_num
  · obtain ⟨x, y, hx, hy, h⟩ := C131_block hp (wholeGrid ![2, 1, 1])
      (by intro a; fin_cases a <;> simp [wholeGrid]) ![1, 1, 1]
      (by intro a; fin_cases a <;> simp [wholeGrid]) 0 rfl [stretchedRow]
    have e : Function.update (![1, 1, 1] : Fin 3 → ℕ) 0 ((wholeGrid ![2, 1, 1]).m 0 + 1) = ![3, 1, 1] := by
      funext a; fin_cases a <;> simp [wholeGrid]
    rw [e] at hy
    refine ⟨x, y, hx, hy, ?_⟩
    rw [h 0]
    simp only [gradJ2, List.map_cons, List.map_nil, List.sum_cons, List.sum_nil, volumeAvg, sum_two_points,
      Fin.sum_univ_three, det33, Matrix.of_apply, stretchedRow, wholeGrid, f1, f2, f3, f4]
    norm_num

/-! ### Highest frequency -/

/-- **C131.** When the numbers of points are even, the third possibly one, the strain correction is that of
the code the variant was made from. -/
theorem C131_highest (g : EvpGrid) (c0 s0 : T4 ℝ) (sg : g.Ix → T2 ℝ) (h0 : g.n 0 % 2 = 0) (h1 : g.n 1 % 2 = 0)
    (h2 : g.n 2 % 2 = 0 ∨ g.n 2 = 1) : correctionJ2 g c0 s0 sg = g.correction c0 s0 sg := by
  have hq : ∀ k, nyquistJ2 g k = g.nyquist k := by
    intro k
    unfold nyquistJ2 EvpGrid.nyquist
    rcases h2 with h2 | h2 <;> simp [h0, h1, h2]
  funext x i j
  simp only [correctionJ2, EvpGrid.correction, correctionHatJ2, EvpGrid.correctionHat, hq]

/-- **C131 does not hold for grids with a single layer of points along the first or second axis.**  Every
frequency then counts as the highest one: at every frequency but zero the stress is cancelled in the
reference medium altogether, as if strains need not be compatible. -/
theorem C131_single_layer_fails (g : EvpGrid) (hp : g.Pos) (c0 s0 : T4 ℝ) (sg : g.Ix → T2 ℝ)
    (hn : g.n 0 = 1 ∨ g.n 1 = 1) (k : g.Ix) (hk : ∃ a, (k a : ℕ) ≠ 0) (i j : Fin 3) :
    correctionHatJ2 g c0 s0 sg k i j = -∑ a, ∑ b, (s0 i j a b : ℂ) * g.forward (fun x => sg x a b) k := by
  have hq : nyquistJ2 g k = true := by
    unfold nyquistJ2
    rcases hn with h | h
    · have : (k 0 : ℕ) < 1 := h ▸ (k 0).2
      simp [h]; omega
    · have : (k 1 : ℕ) < 1 := h ▸ (k 1).2
      simp [h]; omega
  have hz : g.zeroFreq k = false := by
    obtain ⟨a, ha⟩ := hk
    unfold EvpGrid.zeroFreq
    fin_cases a <;> simp at ha <;> simp [ha]
  apply Complex.ext
  · simp only [correctionHatJ2, hq, hz, greenCorrection, greenOp, if_true, Bool.false_eq_true, if_false,
      Fin.sum_univ_three, Complex.neg_re, Complex.add_re, Complex.re_ofReal_mul]
    ring
  · simp only [correctionHatJ2, hq, hz, greenCorrection, greenOp, if_true, Bool.false_eq_true, if_false,
      Fin.sum_univ_three, Complex.neg_im, Complex.add_im, Complex.im_ofReal_mul]
    ring

/-- **C131 does not hold for grids with an odd number of points along the second axis.**  One of the two
opposite frequencies of largest magnitude is taken for the highest one, the other is not; the code the
variant was made from treats both as frequencies below the highest. -/
theorem C131_odd_fails (g : EvpGrid) (h0 : 3 ≤ g.n 0) (h1 : 3 ≤ g.n 1) (hodd : g.n 1 % 2 = 1) (h2 : 0 < g.n 2)
    (h2' : g.n 2 ≠ 2) :
    let k : g.Ix := fun a => ⟨if a = 1 then g.n 1 / 2 else 0, by fin_cases a <;> simp <;> omega⟩
    let l : g.Ix := fun a => ⟨if a = 1 then g.n 1 - g.n 1 / 2 else 0, by fin_cases a <;> simp <;> omega⟩
    g.freq l = (fun a => -g.freq k a) ∧ nyquistJ2 g k = true ∧ nyquistJ2 g l = false ∧
      g.nyquist k = false ∧ g.nyquist l = false := by
  intro k l
  refine ⟨?_, ?_, ?_, ?_, ?_⟩
  · funext a
    fin_cases a
    · simp [EvpGrid.freq, waveFreq, waveIndex, k, l]
    · simp only [EvpGrid.freq, waveFreq, k, l, Fin.mk_one, if_true]
      have : waveIndex (g.n 1) (g.n 1 - g.n 1 / 2) = -waveIndex (g.n 1) (g.n 1 / 2) := by
        unfold waveIndex
        rw [if_pos (by omega), if_neg (by omega)]
        omega
      rw [this]
      push_cast
      ring
    · simp [EvpGrid.freq, waveFreq, waveIndex, k, l]
  · simp [nyquistJ2, k]
  · simp only [nyquistJ2, l]
    simp
    omega
  · simp only [EvpGrid.nyquist, k]
    simp
    omega
  · simp only [EvpGrid.nyquist, l]
    simp
    omega

/-! ### Stress equation -/

/-- Admissible data: positive definite stiffness and reference stiffness, positive time step, admissible flow
rule. -/
structure GoodJ2 (d : Large.EvpalIn) : Prop where
  cg : PosForm d.cg66
  c0 : PosForm d.c066mod
  tdot : 0 < d.tdot
  flow : d.flow.Good

/-- The same data without a Green operator at the origin. -/
def withoutGop (d : Large.EvpalIn) : Large.EvpalIn := { d with gop := fun _ _ => 0 }

theorem withoutGop_good (d : Large.EvpalIn) (hd : GoodJ2 d) : (withoutGop d).Good where
  cg := hd.cg
  c0 := hd.c0
  gop := fun x => by simp [withoutGop]
  tdot := hd.tdot
  flow := hd.flow

theorem residualJ2_eq (d : Large.EvpalIn) : residualJ2 d = (withoutGop d).residual := by
  funext x i
  have h : (withoutGop d).cg0 = fun _ _ => 0 := by funext i j; simp [Large.EvpalIn.cg0, withoutGop]
  simp only [residualJ2, Large.EvpalIn.residual, h, zero_mul, sub_zero]
  rfl

theorem jacobianJ2_eq (d : Large.EvpalIn) (T : Dense 6 ℝ) : jacobianJ2 d T = (withoutGop d).jacobian T := by
  funext i j
  have h : (withoutGop d).cg0 = fun _ _ => 0 := by funext i j; simp [Large.EvpalIn.cg0, withoutGop]
  simp only [jacobianJ2, Large.EvpalIn.jacobian, h, sub_zero]
  rfl

/-- **C131.** The stress equation of a grid point has at most one solution and its Newton matrix is regular
at every stress at which there is a tangent. -/
theorem C131_stress (d : Large.EvpalIn) (hd : GoodJ2 d) :
    (∀ x y : Fin 6 → ℝ, (∀ i, residualJ2 d x i = 0) → (∀ i, residualJ2 d y i = 0) → x = y) ∧
    ∀ (sg6 : Fin 6 → ℝ) (T : Dense 6 ℝ), d.flow.tangent66 sg6 = some T → ∀ x : Fin 6 → ℝ,
      (∀ i, ∑ j, jacobianJ2 d T i j * x j = 0) → x = 0 := by
  rw [residualJ2_eq]
  refine ⟨C98_unique _ (withoutGop_good d hd), fun sg6 T hT x hx => ?_⟩
  rw [jacobianJ2_eq] at hx
  exact C98_jacobian_regular _ (withoutGop_good d hd) sg6 T hT x hx

/-- **C131.** The Newton matrix is the exact derivative of the residual in every direction, at every stress at
which there is a tangent and no system of a crystal is exactly unloaded. -/
theorem C131_jacobian (d : Large.EvpalIn) (hd : GoodJ2 d) (sg6 v : Fin 6 → ℝ) (T : Dense 6 ℝ)
    (hT : d.flow.tangent66 sg6 = some T) (hl : d.flow.Loaded sg6) (i : Fin 6) :
    HasDerivAt (fun t : ℝ => residualJ2 d (fun k => sg6 k + t * v k) i)
      (∑ j, jacobianJ2 d T i j * v j) 0 := by
  rw [residualJ2_eq, jacobianJ2_eq]
  exact C98_jacobian_exact _ (withoutGop_good d hd) sg6 v T hT hl i

/-- **C131.** At convergence of the outer iteration, when the stress found is the stress handed in, the
variant and the code it was made from satisfy the same equation: the rate of deformation is the plastic rate
plus the elastic compliance times the stress increment over the time step. -/
theorem C131_constitutive (d : Large.EvpalIn) (hd : GoodJ2 d) :
    ((∀ i, residualJ2 d d.xlambda6 i = 0) ↔ ∀ i, d.residual d.xlambda6 i = 0) ∧
    ((∀ i, residualJ2 d d.xlambda6 i = 0) ↔
      ∀ i, d.strain6 i = d.flow.rate6 d.xlambda6 i +
        (∑ j, d.sg66 i j * (d.xlambda6 j - d.sgt6 j)) / d.tdot) := by
  constructor
  · have h : residualJ2 d d.xlambda6 = d.residual d.xlambda6 := by
      funext i
      simp [residualJ2, Large.EvpalIn.residual]
    rw [h]
  · rw [residualJ2_eq]
    exact C98_constitutive _ (withoutGop_good d hd)

/-- Data that meet the hypotheses. -/
example (q : BasisConst ℝ) : GoodJ2 (fastPull q) :=
  ⟨(fastPull_good q).cg, (fastPull_good q).c0, (fastPull_good q).tdot, (fastPull_good q).flow⟩

/-- A rank with nodes and a step. -/
example : (unitGrid rowOf3).Pos ∧ (∀ a, 0 < rankA.m a) ∧ ∀ a, 1 ≤ nodeOfA a ∧ nodeOfA a ≤ rankA.m a + 1 := by
  refine ⟨rowOf3_pos, ?_, ?_⟩ <;> intro a <;> fin_cases a <;> simp [rankA, nodeOfA]

end Fierro
