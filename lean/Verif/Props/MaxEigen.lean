import Verif.Model.MaxEigen
import Mathlib.Analysis.Matrix.Spectrum
import Mathlib.Tactic.FieldSimp
import Mathlib.Tactic.LinearCombination
import Mathlib.Tactic.Linarith

/-!
# C100: the largest eigenvalue of a symmetric tensor
-/

namespace Fierro

open Matrix

/-- Specification: `lam` is an eigenvalue of the tensor. -/
def IsEigen (T : Matrix (Fin 3) (Fin 3) ℝ) (lam : ℝ) : Prop := ∃ x, x ≠ 0 ∧ T *ᵥ x = lam • x

theorem isEigen_iff (T : Matrix (Fin 3) (Fin 3) ℝ) (lam : ℝ) :
    IsEigen T lam ↔ (scalar (Fin 3) lam - T).det = 0 := by
  rw [← Matrix.exists_mulVec_eq_zero_iff]
  unfold IsEigen
  constructor
  · rintro ⟨x, hx, h⟩
    refine ⟨x, hx, ?_⟩
    rw [Matrix.sub_mulVec, h]
    simp
  · rintro ⟨x, hx, h⟩
    refine ⟨x, hx, ?_⟩
    rw [Matrix.sub_mulVec] at h
    have := sub_eq_zero.mp h
    rw [← this]
    simp

/-- The characteristic polynomial of a symmetric tensor has real roots. -/
theorem symm_roots (T : Matrix (Fin 3) (Fin 3) ℝ) (hT : T.IsSymm) :
    ∃ a b c : ℝ, ∀ x : ℝ, (scalar (Fin 3) x - T).det = (x - a) * (x - b) * (x - c) := by
  have hH : T.IsHermitian := by
    rw [Matrix.IsHermitian, Matrix.conjTranspose_eq_transpose_of_trivial]; exact hT
  refine ⟨hH.eigenvalues 0, hH.eigenvalues 1, hH.eigenvalues 2, fun x => ?_⟩
  rw [← Matrix.eval_charpoly, hH.charpoly_eq, Polynomial.eval_prod, Fin.prod_univ_three]
  simp

theorem charDet (T : Matrix (Fin 3) (Fin 3) ℝ) (hT : T.IsSymm) (x : ℝ) :
    (scalar (Fin 3) x - T).det =
      (x - meanDiag T) ^ 3 - 3 * ((((T 0 0 - meanDiag T) ^ 2 + (T 1 1 - meanDiag T) ^ 2
        + (T 2 2 - meanDiag T) ^ 2 + 2 * (T 0 1 ^ 2 + T 0 2 ^ 2 + T 1 2 ^ 2)) / 6)) * (x - meanDiag T)
        - det3x3 (fun i j => if i = j then T i i - meanDiag T else T i j) := by
  have h01 := hT.apply 0 1
  have h02 := hT.apply 0 2
  have h12 := hT.apply 1 2
  rw [Matrix.det_fin_three]
  simp only [Matrix.sub_apply, Matrix.scalar_apply, Matrix.diagonal_apply, det3x3, meanDiag]
  simp only [Fin.isValue, Fin.reduceEq, if_true, if_false, h01, h02, h12]
  ring

theorem det3x3_scaled (T : Matrix (Fin 3) (Fin 3) ℝ) (hp : eigenScale T ≠ 0) :
    det3x3 (fun i j => if i = j then T i i - meanDiag T else T i j)
      = eigenScale T ^ 3 * det3x3 (eigenScaled T) := by
  simp only [det3x3, eigenScaled, Fin.isValue, Fin.reduceEq, if_true, if_false]
  field_simp

theorem sq_eigenScale (T : Matrix (Fin 3) (Fin 3) ℝ) : eigenScale T ^ 2 =
    ((T 0 0 - meanDiag T) ^ 2 + (T 1 1 - meanDiag T) ^ 2 + (T 2 2 - meanDiag T) ^ 2
      + 2 * (T 0 1 ^ 2 + T 0 2 ^ 2 + T 1 2 ^ 2)) / 6 := by
  unfold eigenScale
  rw [Real.sq_sqrt]
  positivity

/-- In exact arithmetic the argument of the arc cosine is in its domain. -/
theorem half_det_bounds (T : Matrix (Fin 3) (Fin 3) ℝ) (hT : T.IsSymm) (hp : eigenScale T ≠ 0) :
    -1 ≤ det3x3 (eigenScaled T) / 2 ∧ det3x3 (eigenScaled T) / 2 ≤ 1 := by
  obtain ⟨a, b, c, h⟩ := symm_roots T hT
  have key : ∀ x, (x - a) * (x - b) * (x - c) = (x - meanDiag T) ^ 3
      - 3 * eigenScale T ^ 2 * (x - meanDiag T) - eigenScale T ^ 3 * det3x3 (eigenScaled T) := by
    intro x
    rw [← h, charDet T hT, sq_eigenScale, det3x3_scaled T hp]
  obtain ⟨m, hm⟩ : ∃ m, m = meanDiag T := ⟨_, rfl⟩
  obtain ⟨p, hpp⟩ : ∃ p, p = eigenScale T := ⟨_, rfl⟩
  obtain ⟨D, hD⟩ : ∃ D, D = det3x3 (eigenScaled T) := ⟨_, rfl⟩
  rw [← hm, ← hpp, ← hD] at key
  rw [← hD]
  rw [← hpp] at hp
  -- scaled roots
  obtain ⟨u, hu⟩ : ∃ u, u = (a - m) / p := ⟨_, rfl⟩
  obtain ⟨v, hv⟩ : ∃ v, v = (b - m) / p := ⟨_, rfl⟩
  obtain ⟨w, hw⟩ : ∃ w, w = (c - m) / p := ⟨_, rfl⟩
  have ha : a = m + p * u := by rw [hu]; field_simp; ring
  have hb : b = m + p * v := by rw [hv]; field_simp; ring
  have hc : c = m + p * w := by rw [hw]; field_simp; ring
  have key2 : ∀ y, (y - u) * (y - v) * (y - w) = y ^ 3 - 3 * y - D := by
    intro y
    have := key (m + p * y)
    rw [ha, hb, hc] at this
    have hp3 : p ^ 3 ≠ 0 := pow_ne_zero 3 hp
    apply mul_left_cancel₀ hp3
    linear_combination this
  have k0 := key2 0
  have k1 := key2 1
  have k2 := key2 (-1)
  have hs : u + v + w = 0 := by linarith
  have hw' : w = -(u + v) := by linarith
  subst hw'
  have hq : u ^ 2 + u * v + v ^ 2 = 3 := by linarith
  have hd : D = -(u * v * (u + v)) := by linarith
  obtain ⟨t, ht⟩ : ∃ t, t = (u + v) ^ 2 := ⟨_, rfl⟩
  have huv : u * v = t - 3 := by rw [ht]; linarith
  have ht4 : t ≤ 4 := by nlinarith [sq_nonneg (u - v)]
  have ht0 : 0 ≤ t := by rw [ht]; positivity
  have hD2 : D ^ 2 = (t - 3) ^ 2 * t := by
    rw [hd, neg_sq, mul_pow, huv, ← ht]
  have hle : D ^ 2 ≤ 4 := by
    rw [hD2]
    nlinarith [mul_nonneg (sq_nonneg (t - 1)) (sub_nonneg.mpr ht4)]
  have habs : |D| ≤ 2 := by
    rw [show (4 : ℝ) = 2 ^ 2 by norm_num, ← sq_abs] at hle
    exact (pow_le_pow_iff_left₀ (abs_nonneg D) (by norm_num) two_ne_zero).mp hle
  rw [abs_le] at habs
  constructor <;> linarith [habs.1, habs.2]

theorem eigenAngle_eq (T : Matrix (Fin 3) (Fin 3) ℝ) (hT : T.IsSymm) (hp : eigenScale T ≠ 0) :
    eigenAngle T = Real.arccos (det3x3 (eigenScaled T) / 2) / 3 := by
  obtain ⟨h1, h2⟩ := half_det_bounds T hT hp
  unfold eigenAngle
  simp only
  split_ifs with h h'
  · rw [le_antisymm h h1, Real.arccos_neg_one]
  · rw [le_antisymm h2 h', Real.arccos_one, zero_div]
  · rfl

/-- The three values computed are the roots of the characteristic polynomial. -/
theorem computed_roots (T : Matrix (Fin 3) (Fin 3) ℝ) (hT : T.IsSymm) (hp : eigenScale T ≠ 0) (x : ℝ) :
    (scalar (Fin 3) x - T).det =
      (x - (meanDiag T + 2 * eigenScale T * Real.cos (eigenAngle T)))
      * (x - (meanDiag T + 2 * eigenScale T * Real.cos (eigenAngle T + 2 * Real.pi / 3)))
      * (x - (3 * meanDiag T - ((meanDiag T + 2 * eigenScale T * Real.cos (eigenAngle T))
        + (meanDiag T + 2 * eigenScale T * Real.cos (eigenAngle T + 2 * Real.pi / 3))))) := by
  obtain ⟨h1, h2⟩ := half_det_bounds T hT hp
  have h3 : Real.cos (3 * eigenAngle T) = det3x3 (eigenScaled T) / 2 := by
    rw [eigenAngle_eq T hT hp, mul_div_cancel₀ _ (by norm_num : (3 : ℝ) ≠ 0), Real.cos_arccos h1 h2]
  rw [Real.cos_three_mul] at h3
  rw [charDet T hT, ← sq_eigenScale, det3x3_scaled T hp]
  have hc2 : Real.cos (eigenAngle T + 2 * Real.pi / 3)
      = -(1 / 2) * Real.cos (eigenAngle T) - √3 / 2 * Real.sin (eigenAngle T) := by
    have e : 2 * Real.pi / 3 = Real.pi - Real.pi / 3 := by ring
    rw [Real.cos_add, e, Real.cos_pi_sub, Real.sin_pi_sub, Real.cos_pi_div_three,
      Real.sin_pi_div_three]
    ring
  rw [hc2]
  have hsc := Real.sin_sq_add_cos_sq (eigenAngle T)
  have h33 : √3 ^ 2 = (3 : ℝ) := Real.sq_sqrt (by norm_num)
  obtain ⟨c, hc⟩ : ∃ c, c = Real.cos (eigenAngle T) := ⟨_, rfl⟩
  obtain ⟨s, hs⟩ : ∃ s, s = Real.sin (eigenAngle T) := ⟨_, rfl⟩
  obtain ⟨p, hpp⟩ : ∃ p, p = eigenScale T := ⟨_, rfl⟩
  obtain ⟨m, hm⟩ : ∃ m, m = meanDiag T := ⟨_, rfl⟩
  obtain ⟨D, hD⟩ : ∃ D, D = det3x3 (eigenScaled T) := ⟨_, rfl⟩
  obtain ⟨q, hq⟩ : ∃ q, q = √(3 : ℝ) := ⟨_, rfl⟩
  rw [← hc, ← hD] at h3
  rw [← hc, ← hs] at hsc
  rw [← hq] at h33
  rw [← hc, ← hs, ← hpp, ← hm, ← hD, ← hq]
  have hs2 : s ^ 2 = 1 - c ^ 2 := by linarith
  have hDD : D = 8 * c ^ 3 - 6 * c := by linarith
  rw [hDD]
  linear_combination (-(x - m - 2 * p * c) * (-p ^ 2 * s ^ 2)) * h33
    + (-(x - m - 2 * p * c) * (-3 * p ^ 2)) * hs2

/-- **C100.** For a symmetric tensor with non-zero determinant that is no multiple of the unit tensor
the function returns the largest modulus of an eigenvalue. -/
theorem C100_spectral_radius (T : Matrix (Fin 3) (Fin 3) ℝ) (hT : T.IsSymm) (hdet : T.det ≠ 0)
    (hmul : ∀ c : ℝ, T ≠ scalar (Fin 3) c) :
    ∃ v, maxEigen3D T = some v ∧ IsGreatest {a | ∃ lam, IsEigen T lam ∧ a = |lam|} v := by
  have hd : det3x3 T ≠ 0 := by
    rw [Matrix.det_fin_three] at hdet
    unfold det3x3
    intro h
    exact hdet (by linarith)
  have hp : eigenScale T ≠ 0 := by
    intro h0
    have h1 := sq_eigenScale T
    rw [h0] at h1
    have h01 := hT.apply 0 1
    have h02 := hT.apply 0 2
    have h12 := hT.apply 1 2
    have s1 := sq_nonneg (T 0 0 - meanDiag T)
    have s2 := sq_nonneg (T 1 1 - meanDiag T)
    have s3 := sq_nonneg (T 2 2 - meanDiag T)
    have s4 := sq_nonneg (T 0 1)
    have s5 := sq_nonneg (T 0 2)
    have s6 := sq_nonneg (T 1 2)
    have e1 : T 0 0 - meanDiag T = 0 := pow_eq_zero_iff two_ne_zero |>.mp (by linarith)
    have e2 : T 1 1 - meanDiag T = 0 := pow_eq_zero_iff two_ne_zero |>.mp (by linarith)
    have e3 : T 2 2 - meanDiag T = 0 := pow_eq_zero_iff two_ne_zero |>.mp (by linarith)
    have e4 : T 0 1 = 0 := pow_eq_zero_iff two_ne_zero |>.mp (by linarith)
    have e5 : T 0 2 = 0 := pow_eq_zero_iff two_ne_zero |>.mp (by linarith)
    have e6 : T 1 2 = 0 := pow_eq_zero_iff two_ne_zero |>.mp (by linarith)
    refine hmul (meanDiag T) ?_
    ext i j
    rw [Matrix.scalar_apply, Matrix.diagonal_apply]
    match i, j with
    | 0, 0 => simpa using sub_eq_zero.mp e1
    | 1, 1 => simpa using sub_eq_zero.mp e2
    | 2, 2 => simpa using sub_eq_zero.mp e3
    | 0, 1 => simpa using e4
    | 0, 2 => simpa using e5
    | 1, 2 => simpa using e6
    | 1, 0 => simpa [h01] using e4
    | 2, 0 => simpa [h02] using e5
    | 2, 1 => simpa [h12] using e6
  unfold maxEigen3D
  rw [if_neg hd, if_neg hp]
  refine ⟨_, rfl, ?_⟩
  have hroots := computed_roots T hT hp
  obtain ⟨e1, he1⟩ : ∃ e, e = meanDiag T + 2 * eigenScale T * Real.cos (eigenAngle T) := ⟨_, rfl⟩
  obtain ⟨e2, he2⟩ : ∃ e, e = meanDiag T + 2 * eigenScale T *
    Real.cos (eigenAngle T + 2 * Real.pi / 3) := ⟨_, rfl⟩
  obtain ⟨e3, he3⟩ : ∃ e, e = 3 * meanDiag T - (e1 + e2) := ⟨_, rfl⟩
  simp only [← he1, ← he2, ← he3] at hroots ⊢
  have hiff : ∀ lam, IsEigen T lam ↔ lam = e1 ∨ lam = e2 ∨ lam = e3 := by
    intro lam
    rw [isEigen_iff, hroots, mul_eq_zero, mul_eq_zero, sub_eq_zero, sub_eq_zero, sub_eq_zero, or_assoc]
  constructor
  · rcases max_choice (max |e1| |e2|) |e3| with h | h
    · rcases max_choice |e1| |e2| with h' | h'
      · exact ⟨e1, (hiff _).mpr (Or.inl rfl), by rw [h, h']⟩
      · exact ⟨e2, (hiff _).mpr (Or.inr (Or.inl rfl)), by rw [h, h']⟩
    · exact ⟨e3, (hiff _).mpr (Or.inr (Or.inr rfl)), h⟩
  · rintro a ⟨lam, hlam, rfl⟩
    rcases (hiff lam).mp hlam with rfl | rfl | rfl
    · exact le_trans (le_max_left _ _) (le_max_left _ _)
    · exact le_trans (le_max_right _ _) (le_max_left _ _)
    · exact le_max_right _ _

/-- **C100 (what fails).** For a tensor with determinant zero the result is zero, though there may be
other eigenvalues (here 1). -/
theorem C100_singular_fails :
    maxEigen3D (Matrix.diagonal ![1, 1, 0]) = some 0 ∧ IsEigen (Matrix.diagonal ![1, 1, 0]) 1 := by
  constructor
  · unfold maxEigen3D
    rw [if_pos]
    simp [det3x3, Matrix.diagonal_apply]
  · refine ⟨![1, 0, 0], ?_, ?_⟩
    · intro h
      have := congrFun h 0
      simp at this
    · funext i
      rw [Matrix.mulVec_diagonal]
      fin_cases i <;> simp

/-- **C100 (what fails).** For a multiple of the unit tensor the result is not a number. -/
theorem C100_unit_fails (c : ℝ) (hc : c ≠ 0) : maxEigen3D (scalar (Fin 3) c) = none := by
  have hm : meanDiag (scalar (Fin 3) c) = c := by
    simp [meanDiag]; ring
  unfold maxEigen3D
  rw [if_neg, if_pos]
  · unfold eigenScale
    rw [hm]
    simp
  · simp [det3x3, hc]

/-- A tensor that meets the hypotheses. -/
example : (!![2, 1, 0; 1, 2, 0; 0, 0, 1] : Matrix (Fin 3) (Fin 3) ℝ).IsSymm ∧
    (!![2, 1, 0; 1, 2, 0; 0, 0, 1] : Matrix (Fin 3) (Fin 3) ℝ).det ≠ 0 ∧
    ∀ c : ℝ, (!![2, 1, 0; 1, 2, 0; 0, 0, 1] : Matrix (Fin 3) (Fin 3) ℝ) ≠ scalar (Fin 3) c := by
  refine ⟨?_, ?_, ?_⟩
  · ext i j; fin_cases i <;> fin_cases j <;> rfl
  · rw [Matrix.det_fin_three]; simp; norm_num
  · intro c h
    have := congrFun (congrFun h 0) 1
    simp at this

end Fierro
