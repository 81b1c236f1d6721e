import Verif.Props.EvpLargeAverage
import Verif.Props.EvpLargePolar

/-!
# C92: elastic and plastic parts of the deformation, rotation of the stress
-/

namespace Fierro

open Large Matrix

variable {ι : Type} [Fintype ι]

/-! ### The parts of the deformation -/

/-- What the iteration of a load step does not touch at a point. -/
def SameBody (p r : Point) : Prop :=
  r.F = p.F ∧ r.Fe = p.Fe ∧ r.Fp = p.Fp ∧ r.Fini = p.Fini ∧ r.gas = p.gas

theorem turns_sameBody (turns : List (Turn ι)) (s : State ι) (x : ι) :
    SameBody (s.pt x) ((turns.foldl Large.turn s).pt x) := by
  induction turns generalizing s with
  | nil => exact ⟨rfl, rfl, rfl, rfl, rfl⟩
  | cons t ts ih =>
    rw [List.foldl_cons]
    exact ih (Large.turn s t)

theorem iterated_sameBody (tdot : ℝ) (first : Bool) (udot : M3) (turns : List (Turn ι)) (s : State ι)
    (x : ι) : SameBody (s.pt x) ((iterated tdot first udot turns s).pt x) := by
  cases first with
  | false => exact turns_sameBody turns (zeroCorrections { s with vmac := udot }) x
  | true => exact turns_sameBody turns (zeroCorrections (stepUpdateVelgrad { s with vmac := udot })) x

/-- At every solid point the deformation is the product of elastic, plastic and initial part. -/
def Split (s : State ι) : Prop :=
  ∀ x, (s.pt x).gas = false → (s.pt x).F = (s.pt x).Fe * (s.pt x).Fp * (s.pt x).Fini

/-- **C92.** The state before the first step is split. -/
theorem C92_start (delt : Fin 3 → ℝ) (gas : ι → Bool) : Split (State.start delt gas) := by
  intro x _
  show deltM delt = 1 * 1 * deltM delt
  rw [Matrix.one_mul, Matrix.one_mul]

/-- **C92.** One load step with update: the plastic part is multiplied by the exponential of the plastic
increment, the initial part stays, and the elastic part is what is left of the new deformation; the
determinants multiply in the same way.  Gas points keep elastic and plastic part. -/
theorem C92_step (tdot : ℝ) (first : Bool) (udot : M3) (turns : List (Turn ι))
    (Lp : State ι → ι → M3) (s r : State ι)
    (hr : evolve tdot first true udot turns Lp s = some r) (x : ι) :
    (r.pt x).gas = (s.pt x).gas ∧ (r.pt x).Fini = (s.pt x).Fini ∧
    ((s.pt x).gas = true → (r.pt x).Fe = (s.pt x).Fe ∧ (r.pt x).Fp = (s.pt x).Fp) ∧
    ((s.pt x).gas = false →
      (r.pt x).Fp =
        matrixExp (tdot • Lp (iterated tdot first udot turns s) x) * (s.pt x).Fp ∧
      (inv3Ok ((r.pt x).Fp * (r.pt x).Fini) = true →
        (r.pt x).F = (r.pt x).Fe * (r.pt x).Fp * (r.pt x).Fini ∧
        (r.pt x).F.det = (r.pt x).Fe.det * (r.pt x).Fp.det * (r.pt x).Fini.det)) := by
  obtain ⟨s4, h4⟩ : ∃ s4, s4 = iterated tdot first udot turns s := ⟨_, rfl⟩
  obtain ⟨hF, hFe, hFp, hFi, hg⟩ := iterated_sameBody tdot first udot turns s x
  rw [← h4] at hF hFe hFp hFi hg
  rw [← h4]
  have hr' : updateDefgradE (updateDefgrad tdot (updateDefgradP tdot Lp s4)) = some r := by
    rw [h4, ← hr]; rfl
  obtain ⟨hE, _⟩ := updateE_fields _ _ hr'
  obtain ⟨e1, _, _, _, _, e6, e7, e8, e9⟩ := hE x
  obtain ⟨u, hu⟩ : ∃ u, u = (updateDefgrad tdot (updateDefgradP tdot Lp s4)).pt x := ⟨_, rfl⟩
  rw [← hu] at e1 e6 e7 e8 e9
  have hup : u.Fp = ((s4.pt x).plastic tdot (Lp s4 x)).Fp ∧ u.Fini = ((s4.pt x).plastic tdot (Lp s4 x)).Fini ∧
      u.gas = ((s4.pt x).plastic tdot (Lp s4 x)).gas ∧ u.Fe = ((s4.pt x).plastic tdot (Lp s4 x)).Fe := by
    rw [hu]; exact ⟨rfl, rfl, rfl, rfl⟩
  obtain ⟨u1, u2, u3, u4⟩ := hup
  cases hgas : (s.pt x).gas with
  | true =>
    have hg4 : (s4.pt x).gas = true := hg.trans hgas
    have hp : (s4.pt x).plastic tdot (Lp s4 x) = s4.pt x := by rw [Point.plastic, if_pos hg4]
    rw [hp] at u1 u2 u3 u4
    have he : r.pt x = u := by
      rw [Point.elastic, if_pos (u3.trans hg4)] at e9
      exact Option.some.inj e9
    refine ⟨by rw [he, u3, hg4], by rw [he, u2, hFi], fun _ => ⟨by rw [he, u4, hFe], by rw [he, u1, hFp]⟩,
      fun h => absurd h (by simp)⟩
  | false =>
    have hg4 : (s4.pt x).gas = false := hg.trans hgas
    have hp : (s4.pt x).plastic tdot (Lp s4 x) =
        { s4.pt x with Fp := matrixExp (tdot • Lp s4 x) * (s4.pt x).Fp } := by
      rw [Point.plastic, if_neg (by simp [hg4])]
    rw [hp] at u1 u2 u3 u4
    have hgu : u.gas = false := u3.trans hg4
    have he : (r.pt x).Fe = newFe u := by
      rw [Point.elastic, if_neg (by simp [hgu])] at e9
      obtain ⟨VR, _, hVR⟩ := Option.map_eq_some_iff.mp e9.symm
      rw [← hVR]
    refine ⟨e8.trans hgu, (e7.trans u2).trans hFi, fun h => absurd h (by simp), fun _ => ⟨?_, fun hok => ?_⟩⟩
    · rw [e6, u1, ← hFp]
    · have hk : (r.pt x).F = (r.pt x).Fe * (r.pt x).Fp * (r.pt x).Fini := by
        rw [e6, e7] at hok
        rw [he, e1, e6, e7, newFe, Matrix.mul_assoc, Matrix.mul_assoc, (inv3_mul _ hok).2, Matrix.mul_one]
      refine ⟨hk, ?_⟩
      conv_lhs => rw [hk]
      rw [Matrix.det_mul, Matrix.det_mul]

/-- A load step as it is called: time increment, whether it is the first, whether the configuration is
updated, prescribed gradient, iterations and plastic velocity gradient. -/
structure LoadStep (ι : Type) where
  tdot : ℝ
  first : Bool
  upd : Bool
  udot : M3
  turns : List (Turn ι)
  Lp : State ι → ι → M3

/-- A run of load steps; `none` when the program stops. -/
noncomputable def runSteps (s : State ι) : List (LoadStep ι) → Option (State ι)
  | [] => some s
  | a :: l => (evolve a.tdot a.first a.upd a.udot a.turns a.Lp s).bind fun r => runSteps r l

/-- All inversions of the plastic part of a run finish. -/
def SplitOk : State ι → List (LoadStep ι) → Prop
  | _, [] => True
  | s, a :: l => ∀ r, evolve a.tdot a.first a.upd a.udot a.turns a.Lp s = some r →
      (a.upd = true → ∀ x, (r.pt x).gas = false → inv3Ok ((r.pt x).Fp * (r.pt x).Fini) = true) ∧ SplitOk r l

/-- **C92.** Over every run of load steps, whatever stresses, corrections and plastic rates occur, the
deformation at a solid point is the product of its elastic, plastic and initial part. -/
theorem C92_run (l : List (LoadStep ι)) (s r : State ι) (hs : Split s) (hok : SplitOk s l)
    (hr : runSteps s l = some r) : Split r := by
  induction l generalizing s with
  | nil => rw [runSteps] at hr; obtain rfl := Option.some.inj hr; exact hs
  | cons a l ih =>
    rw [runSteps] at hr
    obtain ⟨m, hm, hr⟩ := Option.bind_eq_some_iff.mp hr
    obtain ⟨h1, h2⟩ := hok m hm
    refine ih m ?_ h2 hr
    cases hu : a.upd with
    | true =>
      rw [hu] at hm
      intro x hg
      obtain ⟨g1, _, _, g4⟩ := C92_step _ _ _ _ _ _ _ hm x
      exact ((g4 (g1 ▸ hg)).2 (h1 hu x hg)).1
    | false =>
      rw [hu] at hm
      have hm' : iterated a.tdot a.first a.udot a.turns s = m := Option.some.inj hm
      intro x hg
      obtain ⟨k1, k2, k3, k4, k5⟩ := iterated_sameBody a.tdot a.first a.udot a.turns s x
      rw [hm'] at k1 k2 k3 k4 k5
      rw [k1, k2, k3, k4]
      exact hs x (k5 ▸ hg)

/-! ### Rotation of the stress -/

theorem rotated_eq (R S : M3) : rotated R S = R * S * Rᵀ := by
  ext i j
  rw [rotated, Matrix.of_apply, Matrix.mul_apply]
  simp only [Matrix.mul_apply, Matrix.transpose_apply, Finset.sum_mul]
  rw [Finset.sum_comm]
  exact Finset.sum_congr rfl fun l _ => Finset.sum_congr rfl fun k _ => by ring

theorem normSq_columns (X : M3) : normSq X = ∑ j, (X.col j) ⬝ᵥ (X.col j) := by
  rw [normSq, Finset.sum_comm]; rfl

theorem col_mul (R X : M3) (j : Fin 3) : (R * X).col j = R *ᵥ X.col j := rfl

theorem normSq_mul_bounds (R X : M3) (e : ℝ)
    (h : ∀ x : Fin 3 → ℝ, x ⬝ᵥ x ≤ (R *ᵥ x) ⬝ᵥ (R *ᵥ x) ∧ (R *ᵥ x) ⬝ᵥ (R *ᵥ x) ≤ e * (x ⬝ᵥ x)) :
    normSq X ≤ normSq (R * X) ∧ normSq (R * X) ≤ e * normSq X := by
  rw [normSq_columns, normSq_columns, Finset.mul_sum]
  simp only [col_mul]
  exact ⟨Finset.sum_le_sum fun j _ => (h _).1, Finset.sum_le_sum fun j _ => (h _).2⟩

theorem trace_mul_bound (S K : M3) : (S * K).trace ^ 2 ≤ normSq S * normSq K := by
  have e : (S * K).trace = ∑ p : Fin 3 × Fin 3, S p.1 p.2 * K p.2 p.1 := by
    rw [Fintype.sum_prod_type]
    simp only [Matrix.trace, Matrix.diag, Matrix.mul_apply]
  have e2 : normSq S = ∑ p : Fin 3 × Fin 3, S p.1 p.2 ^ 2 := by
    rw [Fintype.sum_prod_type, normSq]
    exact Finset.sum_congr rfl fun i _ => Finset.sum_congr rfl fun j _ => by ring
  have e3 : normSq K = ∑ p : Fin 3 × Fin 3, K p.2 p.1 ^ 2 := by
    rw [Fintype.sum_prod_type, ← normSq_transpose, normSq]
    exact Finset.sum_congr rfl fun i _ => Finset.sum_congr rfl fun j _ => by
      rw [Matrix.transpose_apply]; ring
  rw [e, e2, e3]
  exact Finset.sum_mul_sq_le_sq_mul_sq _ _ _

/-- **C92.** The stress handed to the next step is the stress turned by the rotation part of the elastic
increment: it stays symmetric, and pressure and magnitude are kept up to the tolerance of the polar
decomposition. -/
theorem C92_stress (p r : Point) (hg : p.gas = false) (h : p.elastic = some r)
    (hok : dcmpOk (newFe p * inv3 p.Fe) = true) :
    r.sg = p.sg ∧ (p.sgᵀ = p.sg → r.sgtᵀ = r.sgt) ∧
      |r.sgt.trace - p.sg.trace| ≤ 1 / 10 ^ 11 * Real.sqrt (normSq p.sg) ∧
      normSq p.sg ≤ normSq r.sgt ∧ normSq r.sgt ≤ (1 + 1 / 10 ^ 11) ^ 2 * normSq p.sg := by
  rw [Point.elastic, if_neg (by simp [hg])] at h
  obtain ⟨VR, hVR, rfl⟩ := Option.map_eq_some_iff.mp h
  obtain ⟨V, R⟩ := VR
  obtain ⟨_, _, _, _, hK, hx⟩ := C91_polar _ V R hVR hok
  have hS : (rotated R p.sg) = R * p.sg * Rᵀ := rotated_eq R p.sg
  refine ⟨rfl, fun hs => ?_, ?_, ?_, ?_⟩
  · show (rotated R p.sg)ᵀ = rotated R p.sg
    rw [hS, Matrix.transpose_mul, Matrix.transpose_mul, hs, Matrix.transpose_transpose, Matrix.mul_assoc]
  · show |(rotated R p.sg).trace - _| ≤ _
    have e : (rotated R p.sg).trace - p.sg.trace = (p.sg * (Rᵀ * R - 1)).trace := by
      rw [hS, Matrix.trace_mul_comm, ← Matrix.mul_assoc, Matrix.trace_mul_comm, Matrix.mul_sub,
        Matrix.mul_one, Matrix.trace_sub]
    rw [e]
    have hb := trace_mul_bound p.sg (Rᵀ * R - 1)
    apply abs_le_of_sq_le_sq _ (by positivity)
    calc (p.sg * (Rᵀ * R - 1)).trace ^ 2 ≤ normSq p.sg * normSq (Rᵀ * R - 1) := hb
      _ ≤ normSq p.sg * (1 / 10 ^ 11) ^ 2 := mul_le_mul_of_nonneg_left hK (normSq_nonneg _)
      _ = (1 / 10 ^ 11 * Real.sqrt (normSq p.sg)) ^ 2 := by
        rw [mul_pow, Real.sq_sqrt (normSq_nonneg _)]; ring
  all_goals
    have b1 := normSq_mul_bounds R (p.sg * Rᵀ) _ hx
    have b2 := normSq_mul_bounds R p.sgᵀ _ hx
    have e2 : normSq (p.sg * Rᵀ) = normSq (R * p.sgᵀ) := by
      rw [← normSq_transpose, Matrix.transpose_mul, Matrix.transpose_transpose]
    rw [e2] at b1
    rw [normSq_transpose] at b2
    have e3 : normSq (rotated R p.sg) = normSq (R * (p.sg * Rᵀ)) := by rw [hS, Matrix.mul_assoc]
  · show _ ≤ normSq (rotated R p.sg)
    rw [e3]; exact b2.1.trans b1.1
  · show normSq (rotated R p.sg) ≤ _
    rw [e3]
    calc normSq (R * (p.sg * Rᵀ)) ≤ (1 + 1 / 10 ^ 11) * normSq (R * p.sgᵀ) := b1.2
      _ ≤ (1 + 1 / 10 ^ 11) * ((1 + 1 / 10 ^ 11) * normSq p.sg) :=
        mul_le_mul_of_nonneg_left b2.2 (by norm_num)
      _ = (1 + 1 / 10 ^ 11) ^ 2 * normSq p.sg := by ring

/-- **C92.** When the elastic part of a point is only turned, its stress is turned by exactly the same
rotation, whatever the stress is. -/
theorem C92_rigid_turn (p : Point) (hg : p.gas = false) (Q : M3) (hQ : Qᵀ * Q = 1)
    (hokQ : inv3Ok Q = true) (hokF : inv3Ok p.Fe = true) (hF : newFe p = Q * p.Fe) :
    p.elastic = some { p with Fe := Q * p.Fe, sgt := Q * p.sg * Qᵀ } := by
  have e : newFe p * inv3 p.Fe = Q := by
    rw [hF, Matrix.mul_assoc, (inv3_mul _ hokF).1, Matrix.mul_one]
  rw [Point.elastic, if_neg (by simp [hg]), e, C91_rotation Q hQ hokQ]
  simp only [Option.map_some, hF, rotated_eq]

/-! ### A case -/

/-- A solid point in its reference state under a stress, after a small turn about the third axis. -/
noncomputable def turnedPoint : Point :=
  { Point.start (Fin 1) (fun _ => 1) false with
    F := !![3/5, -4/5, 0; 4/5, 3/5, 0; 0, 0, 1]
    sg := Matrix.diagonal ![1, 0, 0] }

theorem inv3_one : inv3 (1 : M3) = 1 := by
  have := (inv3_mul 1 inv3Ok_one).1
  rwa [Matrix.one_mul] at this

example : turnedPoint.elastic = some { turnedPoint with
    Fe := !![3/5, -4/5, 0; 4/5, 3/5, 0; 0, 0, 1] * turnedPoint.Fe
    sgt := !![3/5, -4/5, 0; 4/5, 3/5, 0; 0, 0, 1] * turnedPoint.sg *
      (!![3/5, -4/5, 0; 4/5, 3/5, 0; 0, 0, 1] : M3)ᵀ } := by
  refine C92_rigid_turn turnedPoint rfl _ ?_ ?_ inv3Ok_one ?_
  · ext i j
    fin_cases i <;> fin_cases j <;> simp [Matrix.mul_apply, Fin.sum_univ_three] <;> norm_num
  · apply inv3Ok_of_pos
    rw [posForm_iff]
    intro x hx
    have e : x ⬝ᵥ ((!![3/5, -4/5, 0; 4/5, 3/5, 0; 0, 0, 1] : M3) *ᵥ x) =
        3 / 5 * (x 0 * x 0 + x 1 * x 1) + x 2 * x 2 := by
      simp [dotProduct, Matrix.mulVec, Fin.sum_univ_three]; ring
    rw [e]
    obtain ⟨i, hi⟩ := Function.ne_iff.mp hx
    have h0 := mul_self_nonneg (x 0)
    have h1 := mul_self_nonneg (x 1)
    have h2 := mul_self_nonneg (x 2)
    have hp : 0 < x i * x i := mul_self_pos.mpr hi
    match i, hp with
    | 0, hp => linarith
    | 1, hp => linarith
    | 2, hp => linarith
  · have hd : deltM (fun _ => 1) = (1 : M3) := by
      ext i j; simp [deltM, Matrix.diagonal, Matrix.one_apply]
    show turnedPoint.F * inv3 (1 * deltM fun _ => 1) = _ * 1
    rw [hd, Matrix.one_mul, inv3_one]
    rfl

end Fierro
