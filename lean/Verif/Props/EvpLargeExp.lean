import Mathlib.Analysis.Matrix.Normed
import Mathlib.Analysis.Normed.Algebra.Exponential
import Mathlib.Analysis.Normed.Algebra.MatrixExponential
import Mathlib.Analysis.SpecialFunctions.Exponential
import Mathlib.LinearAlgebra.Matrix.Trace
import Mathlib.LinearAlgebra.Matrix.NonsingularInverse
import Mathlib.Tactic.FieldSimp
import Mathlib.Tactic.LinearCombination
import Verif.Model.EvpLarge
import Verif.Props.EvpLinalg
import Verif.Props.EvpStress

/-!
# C89: the exponential of an increment and the deformation gradient of a point
-/

namespace Fierro

open Large Matrix

/-! ### Inversion and determinant -/

theorem inv3_mul (A : M3) (h : inv3Ok A = true) : A * inv3 A = 1 ∧ inv3 A * A = 1 := by
  have hi := C65_column_major A h
  refine ⟨?_, ?_⟩
  · ext i j
    rw [Matrix.mul_apply, Matrix.one_apply]
    exact (hi i j).2
  · ext i j
    rw [Matrix.mul_apply, Matrix.one_apply]
    exact (hi i j).1

theorem det33_eq (A : M3) : det33 A = A.det := by
  rw [Matrix.det_fin_three, det33]
  ring

theorem det33_mul (A B : M3) : det33 (A * B) = det33 A * det33 B := by
  rw [det33_eq, det33_eq, det33_eq, Matrix.det_mul]

theorem det33_one : det33 1 = 1 := by rw [det33_eq, Matrix.det_one]

/-- An inversion that ran to its end returns the inverse matrix of linear algebra. -/
theorem inv3_eq (A : M3) (h : inv3Ok A = true) : inv3 A = A⁻¹ :=
  (Matrix.inv_eq_right_inv (inv3_mul A h).1).symm

theorem inv3Ok_det (A : M3) (h : inv3Ok A = true) : det33 A ≠ 0 := by
  intro h0
  have := congrArg det33 (inv3_mul A h).1
  rw [det33_mul, h0, zero_mul, det33_one] at this
  exact zero_ne_one this

/-! ### The exponential -/

theorem matrixExp_eq (A : M3) :
    matrixExp A = 1 + A + (1 / 2 : ℝ) • (A * A) + (1 / 6 : ℝ) • (A * A * A) := by
  ext i j
  simp only [matrixExp, Matrix.of_apply, Matrix.add_apply, Matrix.smul_apply, smul_eq_mul,
    Matrix.one_apply]
  ring

theorem matrixExp_sum (A : M3) :
    matrixExp A = ∑ n ∈ Finset.range 4, ((n.factorial : ℝ)⁻¹) • A ^ n := by
  rw [matrixExp_eq]
  simp only [Finset.sum_range_succ, Finset.sum_range_zero, Nat.factorial, pow_succ, pow_zero]
  norm_num

attribute [local instance] Matrix.frobeniusNormedRing Matrix.frobeniusNormedAlgebra

theorem frob_norm (A : M3) : ‖A‖ = frob A := by
  rw [Matrix.frobenius_norm_def, frob, Real.sqrt_eq_rpow]
  congr 1
  refine Finset.sum_congr rfl fun i _ => Finset.sum_congr rfl fun j _ => ?_
  rw [Real.norm_eq_abs, show (2 : ℝ) = ((2 : ℕ) : ℝ) by norm_num, Real.rpow_natCast, sq_abs, sq]

/-- **C89.** The truncated series differs from the exponential of the increment by at most
`|A|⁴ exp |A| / 24` in the Frobenius norm, for every increment. -/
theorem C89_truncation (A : M3) :
    frob (matrixExp A - NormedSpace.exp A) ≤ frob A ^ 4 / 24 * Real.exp (frob A) := by
  have hs : Summable fun n : ℕ => ((n.factorial : ℝ)⁻¹) • A ^ n :=
    (NormedSpace.norm_expSeries_summable' (𝕂 := ℝ) A).of_norm
  have he : NormedSpace.exp A = ∑' n : ℕ, ((n.factorial : ℝ)⁻¹) • A ^ n := by
    rw [NormedSpace.exp_eq_tsum ℝ]
  have hsplit := hs.sum_add_tsum_nat_add 4
  have hd : matrixExp A - NormedSpace.exp A = -∑' n : ℕ, (((n + 4).factorial : ℝ)⁻¹) • A ^ (n + 4) := by
    rw [matrixExp_sum, he, ← hsplit]
    abel
  rw [← frob_norm, ← frob_norm, hd, norm_neg]
  have hre : Summable fun n : ℕ => ‖A‖ ^ n / (n.factorial : ℝ) := Real.summable_pow_div_factorial ‖A‖
  have hexp : Real.exp ‖A‖ = ∑' n : ℕ, ‖A‖ ^ n / (n.factorial : ℝ) := by
    rw [Real.exp_eq_exp_ℝ, NormedSpace.exp_eq_tsum_div]
  rw [hexp, ← tsum_mul_left]
  refine tsum_of_norm_bounded (hre.mul_left _).hasSum fun n => ?_
  rw [norm_smul, Real.norm_of_nonneg (by positivity)]
  have h1 : ‖A ^ (n + 4)‖ ≤ ‖A‖ ^ (n + 4) := norm_pow_le' A (by omega)
  have h2 : (24 : ℝ) * n.factorial ≤ ((n + 4).factorial : ℝ) := by
    have := Nat.factorial_mul_factorial_dvd_factorial_add n 4
    have := Nat.le_of_dvd (Nat.factorial_pos _) this
    have h4 : Nat.factorial 4 = 24 := rfl
    rw [h4, mul_comm] at this
    exact_mod_cast this
  have hp : (0 : ℝ) < n.factorial := by exact_mod_cast n.factorial_pos
  calc ((n + 4).factorial : ℝ)⁻¹ * ‖A ^ (n + 4)‖
      ≤ (24 * n.factorial : ℝ)⁻¹ * ‖A‖ ^ (n + 4) := by
        apply mul_le_mul (inv_anti₀ (by positivity) h2) h1 (norm_nonneg _) (by positivity)
    _ = ‖A‖ ^ 4 / 24 * (‖A‖ ^ n / n.factorial) := by
        rw [pow_add]; field_simp

/-- **C89.** No increment, no motion. -/
theorem C89_zero : matrixExp 0 = 1 := by rw [matrixExp_eq]; simp

/-- **C89.** Forward and backward increments cancel up to fourth order: the product is
`1 - A⁴/12 - A⁶/36`. -/
theorem C89_reversal (A : M3) :
    matrixExp (-A) * matrixExp A = 1 - (1 / 12 : ℝ) • A ^ 4 - (1 / 36 : ℝ) • A ^ 6 := by
  have e : ∀ B : M3, matrixExp B = 1 + B + (1 / 2 : ℝ) • B ^ 2 + (1 / 6 : ℝ) • B ^ 3 := by
    intro B; rw [matrixExp_eq]; simp only [pow_succ, pow_zero, one_mul]
  have n2 : (-A) ^ 2 = A ^ 2 := by rw [neg_sq]
  have n3 : (-A) ^ 3 = -A ^ 3 := by rw [Odd.neg_pow (by decide)]
  rw [e, e, n2, n3]
  have k : ∀ m n : ℕ, A ^ m * A ^ n = A ^ (m + n) := fun m n => (pow_add A m n).symm
  have k1 : ∀ n : ℕ, A * A ^ n = A ^ (n + 1) := fun n => (pow_succ' A n).symm
  have k2 : ∀ n : ℕ, A ^ n * A = A ^ (n + 1) := fun n => (pow_succ A n).symm
  have k3 : A * A = A ^ 2 := (sq A).symm
  simp only [mul_add, add_mul, one_mul, mul_one, Matrix.smul_mul, Matrix.mul_smul, neg_mul, k, k1, k2,
    k3, smul_smul, smul_neg]
  norm_num
  module

/-- Sum of the principal minors of order two. -/
def secondInvariant (A : M3) : ℝ :=
  A 0 0 * A 1 1 - A 0 1 * A 1 0 + (A 0 0 * A 2 2 - A 0 2 * A 2 0) + (A 1 1 * A 2 2 - A 1 2 * A 2 1)

theorem mul3_apply (A B : M3) (i j : Fin 3) :
    (A * B) i j = A i 0 * B 0 j + A i 1 * B 1 j + A i 2 * B 2 j := by
  rw [Matrix.mul_apply, Fin.sum_univ_three]

theorem cayley3 (A : M3) (ht : A.trace = 0) :
    A * A * A = (-secondInvariant A) • A + (det33 A) • (1 : M3) := by
  have h22 : A 2 2 = -A 0 0 - A 1 1 := by
    rw [Matrix.trace_fin_three] at ht; linarith
  ext i j
  simp only [mul3_apply, Matrix.add_apply, Matrix.smul_apply, smul_eq_mul, Matrix.one_apply]
  match i, j with
  | 0, 0 => simp only [secondInvariant, det33, h22, if_true]; ring
  | 0, 1 => simp only [secondInvariant, det33, h22, if_neg (by decide : ¬ (0 : Fin 3) = 1)]; ring
  | 0, 2 => simp only [secondInvariant, det33, h22, if_neg (by decide : ¬ (0 : Fin 3) = 2)]; ring
  | 1, 0 => simp only [secondInvariant, det33, h22, if_neg (by decide : ¬ (1 : Fin 3) = 0)]; ring
  | 1, 1 => simp only [secondInvariant, det33, h22, if_true]; ring
  | 1, 2 => simp only [secondInvariant, det33, h22, if_neg (by decide : ¬ (1 : Fin 3) = 2)]; ring
  | 2, 0 => simp only [secondInvariant, det33, h22, if_neg (by decide : ¬ (2 : Fin 3) = 0)]; ring
  | 2, 1 => simp only [secondInvariant, det33, h22, if_neg (by decide : ¬ (2 : Fin 3) = 1)]; ring
  | 2, 2 => simp only [secondInvariant, det33, h22, if_true]; ring

set_option maxHeartbeats 4000000 in
theorem det_quadratic (A : M3) (ht : A.trace = 0) (a b c : ℝ) :
    det33 (a • (1 : M3) + b • A + c • (A * A)) =
      a ^ 3 - 2 * a ^ 2 * c * secondInvariant A
        + a * (b ^ 2 * secondInvariant A - 3 * b * c * det33 A + c ^ 2 * secondInvariant A ^ 2)
        + b ^ 3 * det33 A + b * c ^ 2 * det33 A * secondInvariant A + c ^ 3 * det33 A ^ 2 := by
  have h22 : A 2 2 = -A 0 0 - A 1 1 := by
    rw [Matrix.trace_fin_three] at ht; linarith
  simp only [det33, secondInvariant, mul3_apply, Matrix.add_apply, Matrix.smul_apply, smul_eq_mul,
    Matrix.one_apply, h22, if_true, if_neg (by decide : ¬ (0 : Fin 3) = 1),
    if_neg (by decide : ¬ (0 : Fin 3) = 2), if_neg (by decide : ¬ (1 : Fin 3) = 0),
    if_neg (by decide : ¬ (1 : Fin 3) = 2), if_neg (by decide : ¬ (2 : Fin 3) = 0),
    if_neg (by decide : ¬ (2 : Fin 3) = 1)]
  ring

/-- **C89.** Volume change of an isochoric increment (zero trace), exactly: with the second and third
invariants `q` and `d` of the increment the computed determinant is
`1 - q²/12 - qd/6 - d²/24 + q³/36 + q²d/36 + qd²/72 + d³/216`. -/
theorem C89_isochoric (A : M3) (ht : A.trace = 0) :
    det33 (matrixExp A) = 1 - secondInvariant A ^ 2 / 12 - secondInvariant A * det33 A / 6
      - det33 A ^ 2 / 24 + secondInvariant A ^ 3 / 36 + secondInvariant A ^ 2 * det33 A / 36
      + secondInvariant A * det33 A ^ 2 / 72 + det33 A ^ 3 / 216 := by
  have e : matrixExp A = (1 + det33 A / 6) • (1 : M3) + (1 - secondInvariant A / 6) • A
      + (1 / 2 : ℝ) • (A * A) := by
    rw [matrixExp_eq, cayley3 A ht]
    module
  rw [e, det_quadratic A ht]
  ring

/-- **C89.** One slip system (`A = s b ⊗ n` with `n` normal to `b`) is integrated exactly: the result is
the simple shear `1 + A`, which keeps the volume. -/
theorem C89_single_slip (s : ℝ) (b n : Fin 3 → ℝ) (h : ∑ i, n i * b i = 0) :
    matrixExp (s • Matrix.vecMulVec b n) = 1 + s • Matrix.vecMulVec b n ∧
      det33 (matrixExp (s • Matrix.vecMulVec b n)) = 1 := by
  have hd : n ⬝ᵥ b = 0 := h
  have h2 : (s • Matrix.vecMulVec b n) * (s • Matrix.vecMulVec b n) = (0 : M3) := by
    rw [Matrix.smul_mul, Matrix.mul_smul, Matrix.vecMulVec_mul_vecMulVec, hd]
    simp
  have e : matrixExp (s • Matrix.vecMulVec b n) = 1 + s • Matrix.vecMulVec b n := by
    rw [matrixExp_eq, h2]; simp
  refine ⟨e, ?_⟩
  have ht : (s • Matrix.vecMulVec b n : M3).trace = 0 := by
    rw [Matrix.trace_smul, Matrix.trace_vecMulVec, dotProduct_comm, hd, smul_zero]
  have hq : secondInvariant (s • Matrix.vecMulVec b n) = 0 := by
    simp only [secondInvariant, Matrix.smul_apply, Matrix.vecMulVec_apply, smul_eq_mul]
    ring
  have hdet : det33 (s • Matrix.vecMulVec b n) = 0 := by
    simp only [det33, Matrix.smul_apply, Matrix.vecMulVec_apply, smul_eq_mul]
    ring
  rw [C89_isochoric _ ht, hq, hdet]
  norm_num

/-- Rigid spin about the third axis. -/
def spinZ (w : ℝ) : M3 := Matrix.of fun i j =>
  if i = 0 ∧ j = 1 then -w else if i = 1 ∧ j = 0 then w else 0

/-- **C89 does not hold for rigid rotations.** Turning a body without deformation by the angle `w` in
one step, `0 < w < 1`, shrinks its volume: the determinant is `1 - w⁴/12 + w⁶/36 < 1`.  A body spun
through many steps collapses slowly although no strain was prescribed. -/
theorem C89_spin_fails (w : ℝ) (h0 : 0 < w) (h1 : w < 1) :
    det33 (matrixExp (spinZ w)) = 1 - w ^ 4 / 12 + w ^ 6 / 36 ∧ det33 (matrixExp (spinZ w)) < 1 := by
  have ht : (spinZ w).trace = 0 := by
    rw [Matrix.trace_fin_three]; simp [spinZ]
  have hq : secondInvariant (spinZ w) = w ^ 2 := by
    simp [secondInvariant, spinZ]; ring
  have hd : det33 (spinZ w) = 0 := by simp [det33, spinZ]
  have e : det33 (matrixExp (spinZ w)) = 1 - w ^ 4 / 12 + w ^ 6 / 36 := by
    rw [C89_isochoric _ ht, hq, hd]; ring
  refine ⟨e, ?_⟩
  rw [e]
  have h4 : 0 < w ^ 4 := by positivity
  have h6 : w ^ 6 < w ^ 4 := by
    have : w ^ 6 = w ^ 4 * w ^ 2 := by ring
    rw [this]
    have : w ^ 2 < 1 := by nlinarith
    nlinarith
  linarith

/-! ### One point -/

/-- **C89.** One update of a point: the new gradient is the increment times the old one, its
determinant is the product, the stored inverse is its inverse whenever the inversion runs to its end,
and the displacement gradient is the one of the current configuration
(`(1 - disgrad) F = Fini`). -/
theorem C89_update (w tdot : ℝ) (p : Point)
    (hF : inv3Ok (matrixExp (tdot • p.L) * p.F) = true) :
    let q := p.advance w tdot
    q.F = matrixExp (tdot • p.L) * p.F ∧ q.detF = q.F.det ∧
      q.detF = (matrixExp (tdot • p.L)).det * p.F.det ∧ q.detF ≠ 0 ∧
      q.F * q.Finv = 1 ∧ q.Finv * q.F = 1 ∧ (1 - q.disgrad) * q.F = p.Fini ∧ q.wgtc = w * q.F.det := by
  obtain ⟨h1, h2⟩ := inv3_mul _ hF
  refine ⟨rfl, det33_eq _, ?_, inv3Ok_det _ hF, h1, h2, ?_, ?_⟩
  · show det33 _ = _
    rw [det33_mul, det33_eq, det33_eq]
  · show (1 - (1 - p.Fini * inv3 _)) * _ = _
    rw [sub_sub_cancel, Matrix.mul_assoc]
    show p.Fini * (inv3 _ * (matrixExp (tdot • p.L) * p.F)) = _
    rw [h2, Matrix.mul_one]
  · show w * det33 _ = _
    rw [det33_eq]; rfl

/-- **C89.** The velocity gradient is carried to the new configuration: the gradient with respect to
the reference configuration, `L F`, is the same before and after. -/
theorem C89_reference_rate (w tdot : ℝ) (p : Point) (he : inv3Ok (matrixExp (tdot • p.L)) = true) :
    (p.advance w tdot).L * (p.advance w tdot).F = p.L * p.F := by
  show p.L * inv3 _ * (_ * p.F) = _
  rw [Matrix.mul_assoc, ← Matrix.mul_assoc (inv3 _), (inv3_mul _ he).2, Matrix.one_mul]

/-- **C89.** Any number of updates: the gradient is the product of the increments, latest first, times
the initial one, and its determinant the product of theirs. -/
theorem C89_history (w tdot : ℝ) (Ls : List M3) (p : Point) :
    (Ls.foldl (fun p L => Point.advance w tdot { p with L := L }) p).F =
        (Ls.reverse.map fun L => matrixExp (tdot • L)).prod * p.F ∧
      (Ls.foldl (fun p L => Point.advance w tdot { p with L := L }) p).F.det =
        (Ls.map fun L => (matrixExp (tdot • L)).det).prod * p.F.det := by
  induction Ls generalizing p with
  | nil => simp
  | cons L Ls ih =>
    rw [List.foldl_cons]
    obtain ⟨h1, h2⟩ := ih (Point.advance w tdot { p with L := L })
    have hF : (Point.advance w tdot { p with L := L }).F = matrixExp (tdot • L) * p.F := rfl
    refine ⟨?_, ?_⟩
    · rw [h1, hF]; simp [Matrix.mul_assoc]
    · rw [h2, hF]; simp only [List.map_cons, List.prod_cons, Matrix.det_mul]; ring

theorem inv3Ok_of_pos (A : M3) (h : PosForm (fun i j => A i j)) : inv3Ok A = true := by
  have ht : PosForm (fun i j => A j i) := by
    intro x hx
    have := h x hx
    rw [Finset.sum_comm] at this
    refine lt_of_lt_of_eq this ?_
    exact Finset.sum_congr rfl fun i _ => Finset.sum_congr rfl fun j _ => by ring
  exact (C65_positive_definite _ ht).1

theorem inv3Ok_one : inv3Ok 1 = true := by
  refine inv3Ok_of_pos 1 fun x hx => ?_
  have : ∑ i, ∑ j, x i * (1 : M3) i j * x j = ∑ i, x i * x i := by
    refine Finset.sum_congr rfl fun i _ => ?_
    simp [Matrix.one_apply]
  rw [this]
  obtain ⟨i, hi⟩ := Function.ne_iff.mp hx
  exact Finset.sum_pos' (fun _ _ => mul_self_nonneg _) ⟨i, Finset.mem_univ _, mul_self_pos.mpr hi⟩

theorem form_le_frob (B : M3) (x : Fin 3 → ℝ) :
    |∑ i, ∑ j, x i * B i j * x j| ≤ frob B * ∑ i, x i * x i := by
  have hs : ∑ i, ∑ j, x i * B i j * x j = ∑ p : Fin 3 × Fin 3, B p.1 p.2 * (x p.1 * x p.2) := by
    rw [Fintype.sum_prod_type]
    exact Finset.sum_congr rfl fun i _ => Finset.sum_congr rfl fun j _ => by ring
  have hc := Finset.sum_mul_sq_le_sq_mul_sq (Finset.univ : Finset (Fin 3 × Fin 3))
    (fun p => B p.1 p.2) (fun p => x p.1 * x p.2)
  have h1 : ∑ p : Fin 3 × Fin 3, B p.1 p.2 ^ 2 = ∑ i, ∑ j, B i j * B i j := by
    rw [Fintype.sum_prod_type]
    exact Finset.sum_congr rfl fun i _ => Finset.sum_congr rfl fun j _ => sq _
  have h2 : ∑ p : Fin 3 × Fin 3, (x p.1 * x p.2) ^ 2 = (∑ i, x i * x i) ^ 2 := by
    rw [Fintype.sum_prod_type, sq, Finset.sum_mul_sum]
    exact Finset.sum_congr rfl fun i _ => Finset.sum_congr rfl fun j _ => by ring
  rw [h1, h2, ← hs] at hc
  have hn : 0 ≤ ∑ i, x i * x i := Finset.sum_nonneg fun _ _ => mul_self_nonneg _
  have hf : 0 ≤ ∑ i, ∑ j, B i j * B i j :=
    Finset.sum_nonneg fun _ _ => Finset.sum_nonneg fun _ _ => mul_self_nonneg _
  rw [frob]
  refine abs_le_of_sq_le_sq ?_ (mul_nonneg (Real.sqrt_nonneg _) hn)
  rw [mul_pow, Real.sq_sqrt hf]
  exact hc

theorem det_pos_of_posForm (A : M3) (h : PosForm (fun i j => A i j)) : 0 < A.det := by
  have hne : ∀ t : ℝ, 0 ≤ t → t ≤ 1 → ((1 - t) • (1 : M3) + t • A).det ≠ 0 := by
    intro t h0 h1
    have hp : PosForm (fun i j => ((1 - t) • (1 : M3) + t • A) i j) := by
      intro x hx
      have e : ∑ i, ∑ j, x i * ((1 - t) • (1 : M3) + t • A) i j * x j =
          (1 - t) * ∑ i, x i * x i + t * ∑ i, ∑ j, x i * A i j * x j := by
        simp only [Finset.mul_sum]
        rw [← Finset.sum_add_distrib]
        refine Finset.sum_congr rfl fun i _ => ?_
        have : (1 - t) * (x i * x i) = ∑ j, (1 - t) * (x i * (1 : M3) i j * x j) := by
          simp [Matrix.one_apply]
        rw [this, ← Finset.sum_add_distrib]
        refine Finset.sum_congr rfl fun j _ => ?_
        simp only [Matrix.add_apply, Matrix.smul_apply, smul_eq_mul]
        ring
      rw [e]
      have hn : 0 < ∑ i, x i * x i := by
        obtain ⟨i, hi⟩ := Function.ne_iff.mp hx
        exact Finset.sum_pos' (fun _ _ => mul_self_nonneg _) ⟨i, Finset.mem_univ _, mul_self_pos.mpr hi⟩
      have ha := h x hx
      rcases eq_or_lt_of_le h0 with h | h
      · rw [← h]; linarith
      · have := mul_pos h ha
        have := mul_nonneg (sub_nonneg.mpr h1) hn.le
        linarith
    have := inv3Ok_det _ (inv3Ok_of_pos _ hp)
    rwa [det33_eq] at this
  have hc : Continuous fun t : ℝ => ((1 - t) • (1 : M3) + t • A).det := by
    apply Continuous.matrix_det
    fun_prop
  by_contra hle
  have hA : A.det < 0 := by
    rcases lt_or_eq_of_le (not_lt.mp hle) with h | h
    · exact h
    · have := hne 1 zero_le_one le_rfl
      simp at this
      exact absurd h this
  have hi := intermediate_value_Icc' (zero_le_one (α := ℝ)) hc.continuousOn
  have h0 : (0 : ℝ) ∈ Set.Icc (((1 - (1 : ℝ)) • (1 : M3) + (1 : ℝ) • A).det)
      (((1 - (0 : ℝ)) • (1 : M3) + (0 : ℝ) • A).det) := by
    constructor
    · simp; exact hA.le
    · simp
  obtain ⟨t, ht, h⟩ := hi h0
  exact hne t ht.1 ht.2 h

/-- **C89.** Small increments never fail: if the increment is shorter than `1/2` in the Frobenius norm
its exponential has a positive definite form, so its inversion runs to its end, and a gradient with
positive determinant is moved to one with positive determinant. -/
theorem C89_small_increment (A F : M3) (h : frob A < 1 / 2) (hF : 0 < F.det) :
    PosForm (fun i j => matrixExp A i j) ∧ inv3Ok (matrixExp A) = true ∧ 0 < (matrixExp A * F).det := by
  have hp : PosForm (fun i j => matrixExp A i j) := by
    intro x hx
    have hn : 0 < ∑ i, x i * x i := by
      obtain ⟨i, hi⟩ := Function.ne_iff.mp hx
      exact Finset.sum_pos' (fun _ _ => mul_self_nonneg _) ⟨i, Finset.mem_univ _, mul_self_pos.mpr hi⟩
    obtain ⟨B, hB⟩ : ∃ B : M3, B = A + (1 / 2 : ℝ) • (A * A) + (1 / 6 : ℝ) • (A * A * A) := ⟨_, rfl⟩
    have e : matrixExp A = 1 + B := by rw [matrixExp_eq, hB]; abel
    have hs : ∑ i, ∑ j, x i * matrixExp A i j * x j =
        ∑ i, x i * x i + ∑ i, ∑ j, x i * B i j * x j := by
      rw [e, ← Finset.sum_add_distrib]
      refine Finset.sum_congr rfl fun i _ => ?_
      have : x i * x i = ∑ j, x i * (1 : M3) i j * x j := by simp [Matrix.one_apply]
      rw [this, ← Finset.sum_add_distrib]
      exact Finset.sum_congr rfl fun j _ => by rw [Matrix.add_apply]; ring
    have hb := (abs_le.mp (form_le_frob B x)).1
    have ha : 0 ≤ ‖A‖ := norm_nonneg A
    have hlt : ‖A‖ < 1 / 2 := by rw [frob_norm]; exact h
    have hBn : frob B ≤ ‖A‖ + 1 / 2 * ‖A‖ ^ 2 + 1 / 6 * ‖A‖ ^ 3 := by
      rw [← frob_norm, hB]
      refine (norm_add_le _ _).trans (add_le_add ((norm_add_le _ _).trans (add_le_add le_rfl ?_)) ?_)
      · rw [norm_smul, Real.norm_of_nonneg (by norm_num)]
        exact mul_le_mul_of_nonneg_left ((norm_mul_le A A).trans_eq (sq _).symm) (by norm_num)
      · rw [norm_smul, Real.norm_of_nonneg (by norm_num)]
        refine mul_le_mul_of_nonneg_left ?_ (by norm_num)
        refine (norm_mul_le _ _).trans ?_
        rw [pow_succ]
        exact mul_le_mul_of_nonneg_right ((norm_mul_le A A).trans_eq (sq _).symm) ha
    have h2 : ‖A‖ ^ 2 ≤ 1 / 4 := by nlinarith
    have h3 : ‖A‖ ^ 3 ≤ 1 / 8 := by
      have : ‖A‖ ^ 3 = ‖A‖ ^ 2 * ‖A‖ := by ring
      rw [this]; nlinarith [sq_nonneg ‖A‖]
    have hB1 : frob B < 1 := by linarith
    rw [hs]
    nlinarith
  refine ⟨hp, inv3Ok_of_pos _ hp, ?_⟩
  rw [Matrix.det_mul]
  exact mul_pos (det_pos_of_posForm _ hp) hF

/-- The increment of a shear of three percent, as produced by a step of `0.01` at rate 3. -/
def shearL : M3 := Matrix.vecMulVec ![3, 0, 0] ![0, 1, 0]

/-- The hypotheses of `C89_small_increment`, `C89_update` and `C89_reference_rate` are met by a shear
of three percent from the initial state. -/
example : frob ((1 / 100 : ℝ) • shearL) < 1 / 2 ∧ (0 : ℝ) < (1 : M3).det ∧
    inv3Ok (matrixExp ((1 / 100 : ℝ) • shearL)) = true ∧
    inv3Ok (matrixExp ((1 / 100 : ℝ) • shearL) * 1) = true := by
  have hf : frob ((1 / 100 : ℝ) • shearL) < 1 / 2 := by
    rw [frob, Real.sqrt_lt' (by norm_num)]
    simp [Fin.sum_univ_three, shearL]
    norm_num
  have h := C89_small_increment _ 1 hf (by simp)
  exact ⟨hf, by simp, h.2.1, by rw [Matrix.mul_one]; exact h.2.1⟩

/-- `C89_single_slip` applies to a slip system that is not aligned with the axes. -/
example : ∑ i, (![1, 1, 1] : Fin 3 → ℝ) i * (![1, -1, 0] : Fin 3 → ℝ) i = 0 := by
  simp [Fin.sum_univ_three]

/-- `C89_isochoric` applies to a gradient with nonzero invariants. -/
example : (Matrix.of ![![1, 2, 0], ![0, 1, 3], ![1, 0, -2]] : M3).trace = 0 := by
  rw [Matrix.trace_fin_three]; simp; norm_num

end Fierro
