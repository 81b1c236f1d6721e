import Verif.Model.EvpOrient
import Verif.Props.EvpReference
import Mathlib.Analysis.SpecialFunctions.Trigonometric.Bounds
import Mathlib.LinearAlgebra.Matrix.Adjugate

/-!
# C69: crystal orientations; C70: Schmid tensors
-/

set_option linter.unusedSectionVars false

namespace Fierro

/-- Proper rotation. -/
def IsRot (a : T2 ℝ) : Prop := a.Orth ∧ (Matrix.of a).det = 1

/-! ### Euler angles -/

/-- **C69.** Any three angles give a rotation: whatever the texture file contains, the matrix of a
grid point is orthogonal with determinant one. -/
theorem C69_euler_rotation (ph th tm : ℝ) : IsRot (euler2 ph th tm) := by
  have h1 := Real.sin_sq_add_cos_sq ph
  have h2 := Real.sin_sq_add_cos_sq th
  have h3 := Real.sin_sq_add_cos_sq tm
  unfold IsRot T2.Orth euler2
  generalize Real.sin ph = sp at *
  generalize Real.cos ph = cp at *
  generalize Real.sin th = st at *
  generalize Real.cos th = ct at *
  generalize Real.sin tm = sm at *
  generalize Real.cos tm = cm at *
  constructor
  · intro i j
    fin_cases i <;> fin_cases j <;> simp [Fin.sum_univ_three]
    · linear_combination (cm ^ 2 + sm ^ 2 * ct ^ 2) * h1 + sm ^ 2 * h2 + h3
    · linear_combination (-cm * sm + cm * sm * ct ^ 2) * h1 + cm * sm * h2
    · linear_combination -(sm * ct * st) * h1
    · linear_combination (-cm * sm + cm * sm * ct ^ 2) * h1 + cm * sm * h2
    · linear_combination (sm ^ 2 + cm ^ 2 * ct ^ 2) * h1 + cm ^ 2 * h2 + h3
    · linear_combination -(cm * ct * st) * h1
    · linear_combination -(sm * ct * st) * h1
    · linear_combination -(cm * ct * st) * h1
    · linear_combination st ^ 2 * h1 + h2
  · rw [Matrix.det_fin_three]
    simp [Matrix.of_apply]
    linear_combination (cm ^ 2 * ct ^ 2 + cm ^ 2 * st ^ 2 + sm ^ 2 * ct ^ 2 + sm ^ 2 * st ^ 2) * h1 +
      (cm ^ 2 + sm ^ 2) * h2 + h3

theorem IsRot.transpose {a : T2 ℝ} (h : IsRot a) : IsRot (fun i j => a j i) :=
  ⟨h.1.transpose, by
    have : (Matrix.of fun i j => a j i) = (Matrix.of a).transpose := rfl
    rw [this, Matrix.det_transpose]; exact h.2⟩

/-- The stored crystal-to-sample matrix is a rotation as well. -/
theorem C69_stored_rotation (ph th om : ℝ) : IsRot (storedOrientation ph th om) :=
  (C69_euler_rotation _ _ _).transpose

theorem IsRot.adjugate {a : T2 ℝ} (h : IsRot a) :
    (Matrix.of a).adjugate = (Matrix.of a).transpose := by
  have h1 : (Matrix.of a) * (Matrix.of a).transpose = 1 := by
    ext i j
    simp only [Matrix.mul_apply, Matrix.transpose_apply, Matrix.of_apply, Matrix.one_apply]
    exact h.1 i j
  have h2 : (Matrix.of a).adjugate * (Matrix.of a) = 1 := by
    rw [Matrix.adjugate_mul, h.2, one_smul]
  calc (Matrix.of a).adjugate = (Matrix.of a).adjugate * ((Matrix.of a) * (Matrix.of a).transpose) := by
        rw [h1, mul_one]
    _ = _ := by rw [← mul_assoc, h2, one_mul]

/-- Every entry of a rotation is its own cofactor. -/
theorem IsRot.cofactor {a : T2 ℝ} (h : IsRot a) :
    a 0 0 = a 1 1 * a 2 2 - a 1 2 * a 2 1 ∧ a 1 1 = a 0 0 * a 2 2 - a 0 2 * a 2 0 ∧
    a 0 1 = a 1 2 * a 2 0 - a 1 0 * a 2 2 ∧ a 1 0 = a 0 2 * a 2 1 - a 0 1 * a 2 2 := by
  have e := h.adjugate
  rw [Matrix.adjugate_fin_three] at e
  have e00 := congrFun (congrFun e 0) 0
  have e11 := congrFun (congrFun e 1) 1
  have e10 := congrFun (congrFun e 1) 0
  have e01 := congrFun (congrFun e 0) 1
  simp at e00 e11 e10 e01
  refine ⟨?_, ?_, ?_, ?_⟩ <;> linarith

theorem atan2R_sin_cos (y x : ℝ) (h : x * x + y * y = 1) :
    Real.sin (atan2R y x) = y ∧ Real.cos (atan2R y x) = x := by
  have hn : ‖(⟨x, y⟩ : ℂ)‖ = 1 := by
    rw [Complex.norm_eq_sqrt_sq_add_sq]
    have : x ^ 2 + y ^ 2 = 1 := by linarith [sq x, sq y]
    simp [this]
  have hne : (⟨x, y⟩ : ℂ) ≠ 0 := by
    intro h0; rw [h0] at hn; simp at hn
  constructor
  · rw [atan2R, Complex.sin_arg, hn]; simp
  · rw [atan2R, Complex.cos_arg hne, hn]; simp

theorem deg_rad (x : ℝ) : x * 180 / Real.pi * Real.pi / 180 = x := by
  field_simp

/-- **C69.** Angles and back: a rotation whose third axis is not within `arccos 0.9999` of the sample
axis, or is exactly along it, is recovered from the written angles. -/
theorem C69_euler_roundtrip (a : T2 ℝ) (h : IsRot a)
    (hz : |a 2 2| < 0.9999 ∨ a 2 2 = 1 ∨ a 2 2 = -1) :
    readOrientation (euler1 a).1 (euler1 a).2.1 (euler1 a).2.2 = a := by
  have r0 := h.1 0 0
  have r1 := h.1 1 1
  have r2 := h.1 2 2
  have c2 := h.1.cols 2 2
  simp only [Fin.sum_univ_three, if_true] at r0 r1 r2 c2
  obtain ⟨k00, k11, k01, k10⟩ := h.cofactor
  have hle : a 2 2 * a 2 2 ≤ 1 := by linarith [mul_self_nonneg (a 2 0), mul_self_nonneg (a 2 1)]
  have hb : -1 ≤ a 2 2 ∧ a 2 2 ≤ 1 := abs_le.mp (abs_le_one_iff_mul_self_le_one.mpr hle)
  have hcth : Real.cos (Real.arccos (a 2 2)) = a 2 2 := Real.cos_arccos hb.1 hb.2
  have hsth : Real.sin (Real.arccos (a 2 2)) = Real.sqrt (1 - a 2 2 ^ 2) := Real.sin_arccos _
  unfold readOrientation euler1
  by_cases hd : |a 2 2| ≥ 0.9999
  · have h1 : a 2 2 = 1 ∨ a 2 2 = -1 := by
      rcases hz with h | h
      · exact absurd h (not_lt.mpr hd)
      · exact h
    have hsq : a 2 2 * a 2 2 = 1 := by rcases h1 with h | h <;> rw [h] <;> norm_num
    have n20 := mul_self_nonneg (a 2 0)
    have n21 := mul_self_nonneg (a 2 1)
    have n02 := mul_self_nonneg (a 0 2)
    have n12 := mul_self_nonneg (a 1 2)
    have z20 : a 2 0 = 0 := mul_self_eq_zero.mp (by linarith)
    have z21 : a 2 1 = 0 := mul_self_eq_zero.mp (by linarith)
    have z02 : a 0 2 = 0 := mul_self_eq_zero.mp (by linarith)
    have z12 : a 1 2 = 0 := mul_self_eq_zero.mp (by linarith)
    have hs0 : Real.sin (Real.arccos (a 2 2)) = 0 := by
      rw [hsth]
      have : 1 - a 2 2 ^ 2 = 0 := by rw [sq, hsq, sub_self]
      rw [this, Real.sqrt_zero]
    have hn : a 0 0 * a 0 0 + a 0 1 * a 0 1 = 1 := by rw [z02] at r0; linarith
    obtain ⟨sp, cp⟩ := atan2R_sin_cos (a 0 1) (a 0 0) hn
    simp only [if_pos hd, deg_rad, zero_mul, zero_div, euler2, sp, cp, hcth, hs0, Real.sin_zero,
      Real.cos_zero]
    rw [z20, z12] at k01
    rw [z12, z21] at k00
    rw [z02, z20] at k11
    rw [z02, z21] at k10
    funext i j
    fin_cases i <;> fin_cases j <;> simp [z20, z21, z02, z12]
    · linear_combination -k10
    · linear_combination -k11
  · have hlt : |a 2 2| < 0.9999 := not_le.mp hd
    have hlt2 : a 2 2 ^ 2 < 1 := by
      have h3 : a 2 2 ^ 2 = |a 2 2| ^ 2 := (sq_abs _).symm
      rw [h3]
      have := abs_nonneg (a 2 2)
      have h4 : |a 2 2| < 1 := lt_trans hlt (by norm_num)
      exact pow_lt_one₀ this h4 (by norm_num)
    have hspos : 0 < Real.sin (Real.arccos (a 2 2)) := by
      rw [hsth]; exact Real.sqrt_pos.mpr (by linarith)
    have hs2 : Real.sin (Real.arccos (a 2 2)) * Real.sin (Real.arccos (a 2 2)) = 1 - a 2 2 * a 2 2 := by
      rw [hsth, Real.mul_self_sqrt (by linarith)]; ring
    simp only [if_neg hd, deg_rad, euler2, hcth]
    generalize Real.sin (Real.arccos (a 2 2)) = s at *
    have hs0 : s ≠ 0 := hspos.ne'
    obtain ⟨sm, cm⟩ := atan2R_sin_cos (a 0 2 / s) (a 1 2 / s) (by
      field_simp; linarith [sq s, sq (a 1 2), sq (a 0 2)])
    obtain ⟨sp, cp⟩ := atan2R_sin_cos (a 2 0 / s) (-a 2 1 / s) (by
      field_simp; linarith [sq s, sq (a 2 1), sq (a 2 0)])
    simp only [sm, cm, sp, cp]
    funext i j
    fin_cases i <;> fin_cases j <;> simp <;> field_simp
    · linear_combination -k00 - a 2 2 * k11 - a 0 0 * hs2
    · linear_combination -k01 + a 2 2 * k10 - a 0 1 * hs2
    · linear_combination -k10 + a 2 2 * k01 - a 1 0 * hs2
    · linear_combination -k11 - a 2 2 * k00 - a 1 1 * hs2

/-- **C69.** Texture file: writing the stored orientation and reading it back gives the same stored
orientation, under the condition of `C69_euler_roundtrip`. -/
theorem C69_texture_roundtrip (ag : T2 ℝ) (h : IsRot ag)
    (hz : |ag 2 2| < 0.9999 ∨ ag 2 2 = 1 ∨ ag 2 2 = -1) :
    storedOrientation (writtenAngles ag).1 (writtenAngles ag).2.1 (writtenAngles ag).2.2 = ag := by
  have := C69_euler_roundtrip (fun j k => ag k j) h.transpose hz
  funext j k
  exact congrFun (congrFun this k) j

/-- **C69 (finding).** Between `0.9999` and `1` the round trip loses the orientation: the angles of a
rotation whose third axis is a little (up to 0.81 degrees) off the sample axis are computed as if it
were exactly along it, so the tilt direction is lost. -/
theorem C69_near_pole_fails : ∃ ag : T2 ℝ, IsRot ag ∧
    storedOrientation (writtenAngles ag).1 (writtenAngles ag).2.1 (writtenAngles ag).2.2 ≠ ag := by
  set t := Real.arccos (0.99995 : ℝ) with ht
  have hc : Real.cos t = 0.99995 := Real.cos_arccos (by norm_num) (by norm_num)
  have hs : Real.sin t ≠ 0 := by
    intro h
    have := Real.sin_sq_add_cos_sq t
    rw [h, hc] at this
    norm_num at this
  refine ⟨fun i j => euler2 0 t (Real.pi / 2) j i, (C69_euler_rotation _ _ _).transpose, ?_⟩
  intro h
  have h1 := congrFun (congrFun h 2) 0
  have hb : |euler2 0 t (Real.pi / 2) 2 2| ≥ 0.9999 := by
    have : euler2 0 t (Real.pi / 2) 2 2 = Real.cos t := by simp [euler2]
    rw [this, hc]; norm_num [abs_of_pos]
  have e : (writtenAngles fun i j => euler2 0 t (Real.pi / 2) j i).2.2 = 0 := by
    show (euler1 (euler2 0 t (Real.pi / 2))).2.2 = 0
    simp only [euler1, if_pos hb]
    ring
  rw [e] at h1
  have e2 : ∀ x y : ℝ, storedOrientation x y 0 2 0 = 0 := by
    intro x y
    simp [storedOrientation, readOrientation, euler2]
  rw [e2] at h1
  simp [euler2] at h1
  exact hs h1.symm

/-! ### The rotation of one step -/

theorem intDiv_delta (i j : Fin 3) :
    ((i : ℕ) + 1) / ((j : ℕ) + 1) * (((j : ℕ) + 1) / ((i : ℕ) + 1)) = if i = j then 1 else 0 := by
  revert i j; decide

theorem rodrigues_eq (w : Fin 3 → ℝ) (i j : Fin 3) : rodrigues w i j = (if i = j then 1 else 0) +
    2 * (skewOf w i j + ∑ k, skewOf w i k * skewOf w k j) /
      (1 + (w 0 * w 0 + w 1 * w 1 + w 2 * w 2)) := by
  simp only [rodrigues, intDiv_delta]
  split_ifs <;> simp

theorem one_add_norm_pos (w : Fin 3 → ℝ) : 0 < 1 + (w 0 * w 0 + w 1 * w 1 + w 2 * w 2) := by
  have h0 := mul_self_nonneg (w 0)
  have h1 := mul_self_nonneg (w 1)
  have h2 := mul_self_nonneg (w 2)
  linarith

theorem rodrigues_mat (w : Fin 3 → ℝ) : rodrigues w =
    let d := 1 + (w 0 * w 0 + w 1 * w 1 + w 2 * w 2)
    ![![(1 + w 0 * w 0 - w 1 * w 1 - w 2 * w 2) / d, 2 * (w 0 * w 1 - w 2) / d, 2 * (w 0 * w 2 + w 1) / d],
      ![2 * (w 0 * w 1 + w 2) / d, (1 - w 0 * w 0 + w 1 * w 1 - w 2 * w 2) / d, 2 * (w 1 * w 2 - w 0) / d],
      ![2 * (w 0 * w 2 - w 1) / d, 2 * (w 1 * w 2 + w 0) / d, (1 - w 0 * w 0 - w 1 * w 1 + w 2 * w 2) / d]] := by
  have hd := (one_add_norm_pos w).ne'
  funext i j
  rw [rodrigues_eq]
  fin_cases i <;> fin_cases j <;> simp [skewOf, Fin.sum_univ_three] <;> field_simp <;> ring

/-- **C69.** The matrix applied in one step is a rotation, whatever the half-angle vector is. -/
theorem C69_increment_rotation (w : Fin 3 → ℝ) : IsRot (rodrigues w) := by
  have hd := (one_add_norm_pos w).ne'
  rw [rodrigues_mat]
  constructor
  · intro i j
    fin_cases i <;> fin_cases j <;> simp [Fin.sum_univ_three] <;> field_simp <;> ring
  · rw [Matrix.det_fin_three]
    simp [Matrix.of_apply]
    field_simp
    ring

theorem IsRot.mul {a b : T2 ℝ} (ha : IsRot a) (hb : IsRot b) :
    IsRot (fun i j => ∑ k, a i k * b k j) := by
  have e : (Matrix.of fun i j => ∑ k, a i k * b k j) = Matrix.of a * Matrix.of b := by
    ext i j; simp [Matrix.mul_apply]
  have ma : Matrix.of a * (Matrix.of a).transpose = 1 := by
    ext i j
    simpa only [Matrix.mul_apply, Matrix.transpose_apply, Matrix.of_apply, Matrix.one_apply] using ha.1 i j
  have mb : Matrix.of b * (Matrix.of b).transpose = 1 := by
    ext i j
    simpa only [Matrix.mul_apply, Matrix.transpose_apply, Matrix.of_apply, Matrix.one_apply] using hb.1 i j
  refine ⟨fun i j => ?_, by rw [e, Matrix.det_mul, ha.2, hb.2, one_mul]⟩
  have h : (Matrix.of a * Matrix.of b) * (Matrix.of a * Matrix.of b).transpose = 1 := by
    rw [Matrix.transpose_mul, mul_assoc, ← mul_assoc (Matrix.of b), mb, one_mul, ma]
  have := congrFun (congrFun h i) j
  simpa only [Matrix.mul_apply, Matrix.transpose_apply, Matrix.of_apply, Matrix.one_apply] using this

/-- **C69.** Every history of updates, with any velocity gradients, spins, shear rates and time steps,
keeps the orientation of a grid point a rotation. -/
theorem C69_history (ag : T2 ℝ) (h : IsRot ag) (steps : List OrientInput) :
    IsRot (steps.foldl updateOrient ag) := by
  induction steps generalizing ag with
  | nil => exact h
  | cons x xs ih =>
    refine ih _ ?_
    unfold updateOrient
    split_ifs
    · exact h
    · exact (C69_increment_rotation _).mul h

/-- Rotation by the angle `t` about the unit axis `n`. -/
noncomputable def axisRotation (n : Fin 3 → ℝ) (t : ℝ) : T2 ℝ := fun i j =>
  Real.cos t * (if i = j then 1 else 0) + Real.sin t * skewOf n i j + (1 - Real.cos t) * (n i * n j)

/-- **C69.** A rotation vector longer than `1e-6` is carried out exactly: the matrix rotates about the
direction of the vector by the length of the vector. -/
theorem C69_axis_angle (v : Fin 3 → ℝ) (hl : 1 / 10 ^ 6 < axialNorm v)
    (hc : Real.cos (axialNorm v / 2) ≠ 0) :
    rodrigues (halfAngleVec v) = axisRotation (fun i => v i / axialNorm v) (axialNorm v) := by
  have hL : axialNorm v ≠ 0 := by
    have : (0 : ℝ) < 1 / 10 ^ 6 := by norm_num
    exact (lt_trans this hl).ne'
  have hsq : axialNorm v * axialNorm v = v 0 * v 0 + v 1 * v 1 + v 2 * v 2 :=
    Real.mul_self_sqrt (by
      have h0 := mul_self_nonneg (v 0)
      have h1 := mul_self_nonneg (v 1)
      have h2 := mul_self_nonneg (v 2)
      linarith)
  have hw : halfAngleVec v = fun i => Real.tan (axialNorm v / 2) * (v i / axialNorm v) := by
    funext i
    simp only [halfAngleVec, gt_iff_lt, if_pos hl]
    ring
  generalize axialNorm v = L at *
  obtain ⟨n, hn⟩ : ∃ n : Fin 3 → ℝ, n = fun i => v i / L := ⟨_, rfl⟩
  have hnn : n 0 * n 0 + n 1 * n 1 + n 2 * n 2 = 1 := by
    rw [hn]; field_simp; linarith [sq L, sq (v 0), sq (v 1), sq (v 2)]
  rw [← hn, hw]
  have hw' : (fun i => Real.tan (L / 2) * (v i / L)) = fun i => Real.tan (L / 2) * n i := by rw [hn]
  rw [hw']
  have hcos : Real.cos L = 2 * Real.cos (L / 2) ^ 2 - 1 := by
    rw [← Real.cos_two_mul]; congr 1; ring
  have hsin : Real.sin L = 2 * Real.sin (L / 2) * Real.cos (L / 2) := by
    rw [← Real.sin_two_mul]; congr 1; ring
  have hsc := Real.sin_sq_add_cos_sq (L / 2)
  rw [Real.tan_eq_sin_div_cos]
  unfold axisRotation
  rw [hcos, hsin]
  generalize Real.sin (L / 2) = s at *
  generalize Real.cos (L / 2) = c at *
  have hd : 1 + (s / c * n 0 * (s / c * n 0) + s / c * n 1 * (s / c * n 1) + s / c * n 2 * (s / c * n 2))
      = 1 / c ^ 2 := by
    field_simp
    linear_combination s ^ 2 * hnn + hsc
  funext i j
  rw [rodrigues_eq]
  simp only [hd]
  fin_cases i <;> fin_cases j <;> simp [skewOf, Fin.sum_univ_three] <;> field_simp
  · linear_combination -2 * s ^ 2 * hnn + (-2 + 2 * n 0 ^ 2) * hsc
  · linear_combination 2 * n 0 * n 1 * hsc
  · linear_combination 2 * n 0 * n 2 * hsc
  · linear_combination 2 * n 1 * n 0 * hsc
  · linear_combination -2 * s ^ 2 * hnn + (-2 + 2 * n 1 ^ 2) * hsc
  · linear_combination 2 * n 1 * n 2 * hsc
  · linear_combination 2 * n 2 * n 0 * hsc
  · linear_combination 2 * n 2 * n 1 * hsc
  · linear_combination -2 * s ^ 2 * hnn + (-2 + 2 * n 2 ^ 2) * hsc

/-- The reference rotation leaves its axis fixed, and its trace is `1 + 2 cos t`. -/
theorem C69_axis_fixed (n : Fin 3 → ℝ) (t : ℝ) (hn : n 0 * n 0 + n 1 * n 1 + n 2 * n 2 = 1) :
    (∀ i, ∑ j, axisRotation n t i j * n j = n i) ∧ ∑ i, axisRotation n t i i = 1 + 2 * Real.cos t := by
  constructor
  · intro i
    fin_cases i <;> simp [axisRotation, skewOf, Fin.sum_univ_three]
    · linear_combination (1 - Real.cos t) * n 0 * hn
    · linear_combination (1 - Real.cos t) * n 1 * hn
    · linear_combination (1 - Real.cos t) * n 2 * hn
  · simp [axisRotation, skewOf, Fin.sum_univ_three]
    linear_combination (1 - Real.cos t) * hn

theorem rodrigues_zero : rodrigues 0 = fun i j => if i = j then 1 else 0 := by
  funext i j
  rw [rodrigues_eq]
  have : ∀ i j, skewOf 0 i j = 0 := by
    intro i j; fin_cases i <;> fin_cases j <;> simp [skewOf]
  simp [this]

theorem halfAngleVec_zero (v : Fin 3 → ℝ) (h : v = 0) : halfAngleVec v = 0 := by
  subst h
  funext i
  simp [halfAngleVec]

theorem orientStep_of_zero (a c : T2 ℝ) (h : axialOf c = 0) : orientStep a c = a := by
  funext i j
  simp only [orientStep, halfAngleVec_zero _ h, rodrigues_zero]
  simp

/-- **C69.** A grid point of a gas phase keeps its orientation. -/
theorem C69_gas (ag : T2 ℝ) (inp : OrientInput) (h : inp.gas = true) : updateOrient ag inp = ag := by
  simp [updateOrient, h]

/-- Plastic distortion rate of a set of slip systems: `∑ γ̇ b ⊗ n` with direction and normal turned into
the sample frame. -/
noncomputable def slipDistortion (ag : T2 ℝ) (sys : List SlipRate) : T2 ℝ := fun i j =>
  (sys.map fun s => s.gamdot * ((∑ k, ag i k * s.dbca k) * (∑ k, ag j k * s.dnca k))).sum

theorem distorOf_eq (ag : T2 ℝ) (sys : List SlipRate) : distorOf ag sys = slipDistortion ag sys := by
  have : ∀ (d0 : T2 ℝ), sys.foldl (fun d s => fun i j =>
      d i j + (∑ k, ag i k * s.dbca k) * (∑ k, ag j k * s.dnca k) * s.gamdot) d0 =
      fun i j => d0 i j + slipDistortion ag sys i j := by
    induction sys with
    | nil => intro d0; funext i j; simp [slipDistortion]
    | cons s ss ih =>
      intro d0
      rw [List.foldl_cons, ih]
      funext i j
      simp only [slipDistortion, List.map_cons, List.sum_cons]
      ring
  unfold distorOf
  rw [this]
  funext i j; simp

/-- **C69.** Deformation carried by slip alone does not turn the lattice: if the velocity gradient
differs from the plastic distortion rate by a symmetric tensor and no macroscopic spin is imposed, the
orientation is unchanged, for every set of slip systems and every time step. -/
theorem C69_slip_no_rotation (ag : T2 ℝ) (inp : OrientInput) (ht : inp.tomtot = fun _ _ => 0)
    (hL : T2.Sym fun i j => inp.velgrad i j - slipDistortion ag inp.sys i j) :
    updateOrient ag inp = ag := by
  unfold updateOrient
  split_ifs
  · rfl
  · apply orientStep_of_zero
    have e : ∀ i j, rotIncrement ag inp i j = 0 := by
      intro i j
      have := hL i j
      simp only at this
      simp only [rotIncrement, distorOf_eq, ht]
      linear_combination inp.tdot / 2 * this
    funext i
    fin_cases i <;> simp [axialOf, e]

/-- **C69.** Rigid spin: without slip and imposed spin, a velocity gradient that is the pure spin `om`
turns the lattice by the angle `|om| dt` about `om`. -/
theorem C69_rigid_spin (ag : T2 ℝ) (om : Fin 3 → ℝ) (dt : ℝ)
    (hl : 1 / 10 ^ 6 < axialNorm (fun i => om i * dt))
    (hc : Real.cos (axialNorm (fun i => om i * dt) / 2) ≠ 0) :
    updateOrient ag { gas := false, velgrad := skewOf om, tomtot := fun _ _ => 0, sys := [], tdot := dt } =
      fun i j => ∑ k, axisRotation (fun i => om i * dt / axialNorm (fun i => om i * dt))
        (axialNorm fun i => om i * dt) i k * ag k j := by
  have e : axialOf (rotIncrement ag
      { gas := false, velgrad := skewOf om, tomtot := fun _ _ => 0, sys := [], tdot := dt }) =
      fun i => om i * dt := by
    funext i
    fin_cases i <;> simp [axialOf, rotIncrement, distorOf, skewOf]
  rw [show updateOrient ag _ = _ from if_neg (by simp)]
  unfold orientStep
  rw [e, C69_axis_angle _ hl hc]

/-- **C69 (finding).** A rotation vector not longer than `1e-6` is not carried out: the guard against a
zero length divides by 1 instead of the length, and the applied rotation is smaller than the requested
one by a factor of more than 10⁵.  A slow rotation resolved by many small steps is lost. -/
theorem C69_small_rotation_fails : ∃ v : Fin 3 → ℝ, axialNorm v = 1 / 10 ^ 6 ∧
    0 < rodrigues (halfAngleVec v) 1 0 ∧
    rodrigues (halfAngleVec v) 1 0 <
      axisRotation (fun i => v i / axialNorm v) (axialNorm v) 1 0 / 10 ^ 5 := by
  have hN : axialNorm ![0, 0, 1 / 10 ^ 6] = 1 / 10 ^ 6 := by
    simp only [axialNorm]
    rw [show (![0, 0, 1 / 10 ^ 6] : Fin 3 → ℝ) 0 = 0 from rfl,
      show (![0, 0, 1 / 10 ^ 6] : Fin 3 → ℝ) 1 = 0 from rfl,
      show (![0, 0, 1 / 10 ^ 6] : Fin 3 → ℝ) 2 = 1 / 10 ^ 6 from rfl]
    rw [show (0 : ℝ) * 0 + 0 * 0 + 1 / 10 ^ 6 * (1 / 10 ^ 6) = (1 / 10 ^ 6) ^ 2 by norm_num]
    exact Real.sqrt_sq (by norm_num)
  obtain ⟨x, hx⟩ : ∃ x : ℝ, x = 1 / 10 ^ 6 / 2 := ⟨_, rfl⟩
  have hx0 : 0 < x := by norm_num [hx]
  have hsle : Real.sin x ≤ x := Real.sin_le hx0.le
  have hs0 : 0 < Real.sin x := Real.sin_pos_of_pos_of_lt_pi hx0 (by
    have := Real.two_le_pi
    have : x < 1 := by norm_num [hx]
    linarith)
  have hcge : 1 / 2 ≤ Real.cos x := by
    have := Real.one_sub_sq_div_two_le_cos (x := x)
    have h2 : x ^ 2 / 2 ≤ 1 / 2 := by norm_num [hx]
    linarith
  have ht0 : 0 < Real.tan x := by
    rw [Real.tan_eq_sin_div_cos]; exact div_pos hs0 (by linarith)
  have ht : Real.tan x ≤ 2 * x := by
    rw [Real.tan_eq_sin_div_cos, div_le_iff₀ (by linarith)]
    nlinarith
  have hw : halfAngleVec ![0, 0, 1 / 10 ^ 6] = ![0, 0, Real.tan x * (1 / 10 ^ 6)] := by
    funext i
    simp only [halfAngleVec, hN, gt_iff_lt, lt_irrefl, if_false, div_one, ← hx]
    fin_cases i <;> simp
  obtain ⟨w, hwd⟩ : ∃ w, w = Real.tan x * (1 / 10 ^ 6) := ⟨_, rfl⟩
  have hw0 : 0 < w := by rw [hwd]; positivity
  have hw1 : w ≤ 1 / 10 ^ 12 := by
    rw [hwd]
    calc Real.tan x * (1 / 10 ^ 6) ≤ 2 * x * (1 / 10 ^ 6) :=
          mul_le_mul_of_nonneg_right ht (by norm_num)
      _ = _ := by norm_num [hx]
  have hR : rodrigues (halfAngleVec ![0, 0, 1 / 10 ^ 6]) 1 0 = 2 * w / (1 + w * w) := by
    rw [hw, ← hwd, rodrigues_mat]
    simp
  have hA : axisRotation (fun i => (![0, 0, 1 / 10 ^ 6] : Fin 3 → ℝ) i / (1 / 10 ^ 6)) (1 / 10 ^ 6) 1 0 =
      Real.sin (1 / 10 ^ 6) := by
    simp [axisRotation, skewOf]
  refine ⟨![0, 0, 1 / 10 ^ 6], hN, ?_, ?_⟩
  · rw [hR]; positivity
  · rw [hR, hN, hA]
    have h1 := Real.sin_gt_sub_cube (x := 1 / 10 ^ 6) (by norm_num)
    have h2 : 2 * w / (1 + w * w) ≤ 2 * w := by
      rw [div_le_iff₀ (by positivity)]
      nlinarith [mul_pos hw0 (mul_pos hw0 hw0)]
    have h3 : (1 : ℝ) / 10 ^ 6 - (1 / 10 ^ 6) ^ 3 / 6 > 9 / 10 ^ 7 := by norm_num
    have h4 : Real.sin (1 / 10 ^ 6) / 10 ^ 5 > 9 / 10 ^ 12 := by
      rw [gt_iff_lt, lt_div_iff₀ (by norm_num)]
      calc (9 : ℝ) / 10 ^ 12 * 10 ^ 5 = 9 / 10 ^ 7 := by norm_num
        _ < _ := by linarith
    have h5 : 2 * w ≤ 2 / 10 ^ 12 := by linarith
    have h6 : (2 : ℝ) / 10 ^ 12 < 9 / 10 ^ 12 := by norm_num
    linarith

/-- A rotation within the hypotheses of the round trip: 90 degrees tilt. -/
example : IsRot (storedOrientation 0 90 0) ∧ |storedOrientation 0 90 0 2 2| < 0.9999 := by
  refine ⟨C69_stored_rotation _ _ _, ?_⟩
  have : (90 : ℝ) * Real.pi / 180 = Real.pi / 2 := by ring
  have e : storedOrientation 0 90 0 2 2 = 0 := by
    show Real.cos (90 * Real.pi / 180) = 0
    rw [this, Real.cos_pi_div_two]
  rw [e]; norm_num

end Fierro
