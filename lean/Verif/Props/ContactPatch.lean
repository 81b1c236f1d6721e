import Verif.Model.Contact
import Mathlib.Tactic.FinCases
import Mathlib.Tactic.Ring
import Mathlib.Tactic.LinearCombination
import Mathlib.Tactic.FieldSimp
import Mathlib.Tactic.Positivity
import Mathlib.Tactic.Linarith
import Mathlib.Analysis.Calculus.Deriv.Mul
import Mathlib.Analysis.Calculus.Deriv.Add
import Mathlib.Analysis.Calculus.Deriv.Inv
import Mathlib.Analysis.SpecialFunctions.Sqrt
import Mathlib.Algebra.Order.Field.Basic

/-!
# C76: geometry of a contact patch
# C77: faces of an element and the columns in front of them
-/

set_option linter.unusedSimpArgs false

namespace Fierro
open Contact

namespace Contact

section comps
variable {K : Type} [Field K]
theorem xiN_0 : (xiN 0 : K) = -1 := rfl
theorem etaN_0 : (etaN 0 : K) = -1 := rfl
theorem xiN_1 : (xiN 1 : K) = 1 := rfl
theorem etaN_1 : (etaN 1 : K) = -1 := rfl
theorem xiN_2 : (xiN 2 : K) = 1 := rfl
theorem etaN_2 : (etaN 2 : K) = 1 := rfl
theorem xiN_3 : (xiN 3 : K) = -1 := rfl
theorem etaN_3 : (etaN 3 : K) = 1 := rfl
theorem cross_zero (a b : Fin 3 → K) : cross a b 0 = a 1 * b 2 - a 2 * b 1 := rfl
theorem cross_one (a b : Fin 3 → K) : cross a b 1 = a 2 * b 0 - a 0 * b 2 := rfl
theorem cross_two (a b : Fin 3 → K) : cross a b 2 = a 0 * b 1 - a 1 * b 0 := rfl
theorem hexPhi_0 (p : Fin 3 → K) : hexPhi p 0 = 1 / 8 * (1 - p 0) * (1 - p 1) * (1 - p 2) := rfl
theorem hexDphi_00 (p : Fin 3 → K) : hexDphi p 0 0 = -(1 / 8) * (1 - p 1) * (1 - p 2) := rfl
theorem hexDphi_01 (p : Fin 3 → K) : hexDphi p 0 1 = -(1 / 8) * (1 - p 0) * (1 - p 2) := rfl
theorem hexDphi_02 (p : Fin 3 → K) : hexDphi p 0 2 = -(1 / 8) * (1 - p 0) * (1 - p 1) := rfl
theorem hexPhi_1 (p : Fin 3 → K) : hexPhi p 1 = 1 / 8 * (1 + p 0) * (1 - p 1) * (1 - p 2) := rfl
theorem hexDphi_10 (p : Fin 3 → K) : hexDphi p 1 0 = 1 / 8 * (1 - p 1) * (1 - p 2) := rfl
theorem hexDphi_11 (p : Fin 3 → K) : hexDphi p 1 1 = -(1 / 8) * (1 + p 0) * (1 - p 2) := rfl
theorem hexDphi_12 (p : Fin 3 → K) : hexDphi p 1 2 = -(1 / 8) * (1 + p 0) * (1 - p 1) := rfl
theorem hexPhi_2 (p : Fin 3 → K) : hexPhi p 2 = 1 / 8 * (1 - p 0) * (1 + p 1) * (1 - p 2) := rfl
theorem hexDphi_20 (p : Fin 3 → K) : hexDphi p 2 0 = -(1 / 8) * (1 + p 1) * (1 - p 2) := rfl
theorem hexDphi_21 (p : Fin 3 → K) : hexDphi p 2 1 = 1 / 8 * (1 - p 0) * (1 - p 2) := rfl
theorem hexDphi_22 (p : Fin 3 → K) : hexDphi p 2 2 = -(1 / 8) * (1 - p 0) * (1 + p 1) := rfl
theorem hexPhi_3 (p : Fin 3 → K) : hexPhi p 3 = 1 / 8 * (1 + p 0) * (1 + p 1) * (1 - p 2) := rfl
theorem hexDphi_30 (p : Fin 3 → K) : hexDphi p 3 0 = 1 / 8 * (1 + p 1) * (1 - p 2) := rfl
theorem hexDphi_31 (p : Fin 3 → K) : hexDphi p 3 1 = 1 / 8 * (1 + p 0) * (1 - p 2) := rfl
theorem hexDphi_32 (p : Fin 3 → K) : hexDphi p 3 2 = -(1 / 8) * (1 + p 0) * (1 + p 1) := rfl
theorem hexPhi_4 (p : Fin 3 → K) : hexPhi p 4 = 1 / 8 * (1 - p 0) * (1 - p 1) * (1 + p 2) := rfl
theorem hexDphi_40 (p : Fin 3 → K) : hexDphi p 4 0 = -(1 / 8) * (1 - p 1) * (1 + p 2) := rfl
theorem hexDphi_41 (p : Fin 3 → K) : hexDphi p 4 1 = -(1 / 8) * (1 - p 0) * (1 + p 2) := rfl
theorem hexDphi_42 (p : Fin 3 → K) : hexDphi p 4 2 = 1 / 8 * (1 - p 0) * (1 - p 1) := rfl
theorem hexPhi_5 (p : Fin 3 → K) : hexPhi p 5 = 1 / 8 * (1 + p 0) * (1 - p 1) * (1 + p 2) := rfl
theorem hexDphi_50 (p : Fin 3 → K) : hexDphi p 5 0 = 1 / 8 * (1 - p 1) * (1 + p 2) := rfl
theorem hexDphi_51 (p : Fin 3 → K) : hexDphi p 5 1 = -(1 / 8) * (1 + p 0) * (1 + p 2) := rfl
theorem hexDphi_52 (p : Fin 3 → K) : hexDphi p 5 2 = 1 / 8 * (1 + p 0) * (1 - p 1) := rfl
theorem hexPhi_6 (p : Fin 3 → K) : hexPhi p 6 = 1 / 8 * (1 - p 0) * (1 + p 1) * (1 + p 2) := rfl
theorem hexDphi_60 (p : Fin 3 → K) : hexDphi p 6 0 = -(1 / 8) * (1 + p 1) * (1 + p 2) := rfl
theorem hexDphi_61 (p : Fin 3 → K) : hexDphi p 6 1 = 1 / 8 * (1 - p 0) * (1 + p 2) := rfl
theorem hexDphi_62 (p : Fin 3 → K) : hexDphi p 6 2 = 1 / 8 * (1 - p 0) * (1 + p 1) := rfl
theorem hexPhi_7 (p : Fin 3 → K) : hexPhi p 7 = 1 / 8 * (1 + p 0) * (1 + p 1) * (1 + p 2) := rfl
theorem hexDphi_70 (p : Fin 3 → K) : hexDphi p 7 0 = 1 / 8 * (1 + p 1) * (1 + p 2) := rfl
theorem hexDphi_71 (p : Fin 3 → K) : hexDphi p 7 1 = 1 / 8 * (1 + p 0) * (1 + p 2) := rfl
theorem hexDphi_72 (p : Fin 3 → K) : hexDphi p 7 2 = 1 / 8 * (1 + p 0) * (1 + p 1) := rfl
end comps

end Contact

section general
variable {K : Type} [Field K] [CharZero K]

/-- C76: the weights of the patch nodes add up to one. -/
theorem C76_weights_sum (s t : K) : ∑ k, phi s t k = 1 := by
  simp only [Fin.sum_univ_four, phi, xiN_0, etaN_0, xiN_1, etaN_1, xiN_2, etaN_2, xiN_3, etaN_3]; ring

/-- C76: at the reference position of a patch node the patch passes through that node. -/
theorem C76_patch_through_nodes (A : Fin 3 → Fin 4 → K) (k : Fin 4) (i : Fin 3) :
    refToPhysical A (xiN k) (etaN k) i = A i k := by
  simp only [refToPhysical, Fin.sum_univ_four, phi, xiN_0, etaN_0, xiN_1, etaN_1, xiN_2, etaN_2, xiN_3, etaN_3]
  match k with
  | 0 => simp only [xiN_0, etaN_0, xiN_1, etaN_1, xiN_2, etaN_2, xiN_3, etaN_3]; ring
  | 1 => simp only [xiN_0, etaN_0, xiN_1, etaN_1, xiN_2, etaN_2, xiN_3, etaN_3]; ring
  | 2 => simp only [xiN_0, etaN_0, xiN_1, etaN_1, xiN_2, etaN_2, xiN_3, etaN_3]; ring
  | 3 => simp only [xiN_0, etaN_0, xiN_1, etaN_1, xiN_2, etaN_2, xiN_3, etaN_3]; ring

/-- C76: translating the nodes translates every point of the patch. -/
theorem C76_patch_translation (A : Fin 3 → Fin 4 → K) (c : Fin 3 → K) (s t : K) (i : Fin 3) :
    refToPhysical (fun i j => A i j + c i) s t i = refToPhysical A s t i + c i := by
  have h := C76_weights_sum s t
  simp only [refToPhysical, add_mul, Finset.sum_add_distrib]
  rw [← Finset.mul_sum, h, mul_one]

end general

section ordered
variable {K : Type} [Field K] [LinearOrder K] [IsStrictOrderedRing K]

/-- C76: inside the reference square the weights are not negative. -/
theorem C76_weights_nonneg (s t : K) (hs : |s| ≤ 1) (ht : |t| ≤ 1) (k : Fin 4) : 0 ≤ phi s t k := by
  obtain ⟨h1, h2⟩ := abs_le.mp hs
  obtain ⟨h3, h4⟩ := abs_le.mp ht
  have e1 : 0 ≤ 1 + xiN k * s := by
    match k with
    | 0 => rw [xiN_0]; linarith
    | 1 => rw [xiN_1]; linarith
    | 2 => rw [xiN_2]; linarith
    | 3 => rw [xiN_3]; linarith
  have e2 : 0 ≤ 1 + etaN k * t := by
    match k with
    | 0 => rw [etaN_0]; linarith
    | 1 => rw [etaN_1]; linarith
    | 2 => rw [etaN_2]; linarith
    | 3 => rw [etaN_3]; linarith
  unfold phi
  positivity

/-- C76: every point of the patch lies in every box that contains its nodes. -/
theorem C76_patch_in_box (A : Fin 3 → Fin 4 → K) (i : Fin 3) (lo hi s t : K) (hs : |s| ≤ 1)
    (ht : |t| ≤ 1) (h : ∀ j, lo ≤ A i j ∧ A i j ≤ hi) :
    lo ≤ refToPhysical A s t i ∧ refToPhysical A s t i ≤ hi := by
  have hw := C76_weights_sum s t
  have hn := C76_weights_nonneg s t hs ht
  constructor
  · calc lo = ∑ j, lo * phi s t j := by rw [← Finset.mul_sum, hw, mul_one]
      _ ≤ _ := Finset.sum_le_sum fun j _ => mul_le_mul_of_nonneg_right (h j).1 (hn j)
  · calc _ ≤ ∑ j, hi * phi s t j :=
          Finset.sum_le_sum fun j _ => mul_le_mul_of_nonneg_right (h j).2 (hn j)
      _ = hi := by rw [← Finset.mul_sum, hw, mul_one]

example : |(1 / 2 : ℚ)| ≤ 1 ∧ ∀ j : Fin 4, (0 : ℚ) ≤ (![0, 1, 1, 0] : Fin 4 → ℚ) j ∧
    (![0, 1, 1, 0] : Fin 4 → ℚ) j ≤ 1 := by
  refine ⟨by rw [abs_le]; norm_num, fun j => ?_⟩
  fin_cases j <;> norm_num

end ordered

/-! ### Tangents and normals -/

/-- C76: `tangentXi` is the derivative of the patch point along the first patch coordinate. -/
theorem C76_tangent_xi (A : Fin 3 → Fin 4 → ℝ) (s t : ℝ) (i : Fin 3) :
    HasDerivAt (fun s => refToPhysical A s t i) (tangentXi A s t i) s := by
  have h : (fun s => refToPhysical A s t i)
      = fun s => refToPhysical A 0 t i + tangentXi A 0 t i * s := by
    funext s
    simp only [refToPhysical, tangentXi, Fin.sum_univ_four, phi, dphiXi]
    ring
  rw [h]
  have h2 := ((hasDerivAt_id s).const_mul (tangentXi A 0 t i)).const_add (refToPhysical A 0 t i)
  refine h2.congr_deriv ?_
  simp [tangentXi, dphiXi]

/-- C76: the same for the second patch coordinate. -/
theorem C76_tangent_eta (A : Fin 3 → Fin 4 → ℝ) (s t : ℝ) (i : Fin 3) :
    HasDerivAt (fun t => refToPhysical A s t i) (tangentEta A s t i) t := by
  have h : (fun t => refToPhysical A s t i)
      = fun t => refToPhysical A s 0 i + tangentEta A s 0 i * t := by
    funext t
    simp only [refToPhysical, tangentEta, Fin.sum_univ_four, phi, dphiEta]
    ring
  rw [h]
  have h2 := ((hasDerivAt_id t).const_mul (tangentEta A s 0 i)).const_add (refToPhysical A s 0 i)
  refine h2.congr_deriv ?_
  simp [tangentEta, dphiEta]

namespace Contact

theorem sq_len (a : Fin 3 → ℝ) : len a ^ 2 = dot a a := by
  unfold len dot
  rw [Real.sq_sqrt (by positivity)]
  ring

theorem len_nonneg (a : Fin 3 → ℝ) : 0 ≤ len a := Real.sqrt_nonneg _

theorem len_eq_zero (a : Fin 3 → ℝ) : len a = 0 ↔ a = 0 := by
  constructor
  · intro h
    have h1 := sq_len a
    rw [h] at h1
    unfold dot at h1
    funext i
    have hs0 := mul_self_nonneg (a 0)
    have hs1 := mul_self_nonneg (a 1)
    have hs2 := mul_self_nonneg (a 2)
    match i with
    | 0 => exact mul_self_eq_zero.mp (by linarith)
    | 1 => exact mul_self_eq_zero.mp (by linarith)
    | 2 => exact mul_self_eq_zero.mp (by linarith)
  · rintro rfl
    simp [len]

end Contact

/-- C76: the normal has unit length, is perpendicular to both tangents and forms a right-handed
system with them; it is missing exactly when the tangents are parallel (their cross product
vanishes). -/
theorem C76_normal (A : Fin 3 → Fin 4 → ℝ) (s t : ℝ) :
    (unitNormal A s t = none ↔ cross (tangentXi A s t) (tangentEta A s t) = 0) ∧
    ∀ n, unitNormal A s t = some n →
      dot n n = 1 ∧ dot n (tangentXi A s t) = 0 ∧ dot n (tangentEta A s t) = 0 ∧
      0 < dot n (cross (tangentXi A s t) (tangentEta A s t)) := by
  refine ⟨?_, ?_⟩
  · unfold unitNormal
    simp only [ite_eq_left_iff, reduceCtorEq, imp_false, not_not]
    rw [len_eq_zero]; rfl
  · intro n hn
    simp only [unitNormal] at hn
    split_ifs at hn with h
    simp only [Option.some.injEq] at hn
    have hsq := sq_len (rawNormal A s t)
    have hpos : 0 < len (rawNormal A s t) := lt_of_le_of_ne (len_nonneg _) (Ne.symm h)
    obtain ⟨l, hl⟩ : ∃ l, l = len (rawNormal A s t) := ⟨_, rfl⟩
    rw [← hl] at hsq hpos hn
    have hne : l ≠ 0 := hpos.ne'
    subst hn
    refine ⟨?_, ?_, ?_, ?_⟩
    · have : dot (fun i => rawNormal A s t i / l) (fun i => rawNormal A s t i / l)
          = dot (rawNormal A s t) (rawNormal A s t) / l ^ 2 := by
        unfold dot; field_simp
      rw [this, ← hsq]; field_simp
    · simp only [dot, rawNormal, cross_zero, cross_one, cross_two]
      field_simp; ring
    · simp only [dot, rawNormal, cross_zero, cross_one, cross_two]
      field_simp; ring
    · have : dot (fun i => rawNormal A s t i / l) (cross (tangentXi A s t) (tangentEta A s t))
          = dot (rawNormal A s t) (rawNormal A s t) / l := by
        unfold dot rawNormal; field_simp
      rw [this, ← hsq]
      positivity

/-- The unit square in the `x`-`y` plane as patch. -/
noncomputable def squarePatch : Fin 3 → Fin 4 → ℝ
  | 0, j => (xiN j + 1) / 2
  | 1, j => (etaN j + 1) / 2
  | 2, _ => 0

/-- C76: the unit square patch has the normal `e_z`. -/
example : ∃ n, unitNormal squarePatch 0 0 = some n ∧ n 0 = 0 ∧ n 1 = 0 ∧ n 2 = 1 := by
  have h0 : rawNormal squarePatch 0 0 0 = 0 := by
    simp only [rawNormal, cross_zero, tangentXi, tangentEta, dphiXi, dphiEta, Fin.sum_univ_four,
      squarePatch, xiN_0, etaN_0, xiN_1, etaN_1, xiN_2, etaN_2, xiN_3, etaN_3]
    ring
  have h1 : rawNormal squarePatch 0 0 1 = 0 := by
    simp only [rawNormal, cross_one, tangentXi, tangentEta, dphiXi, dphiEta, Fin.sum_univ_four,
      squarePatch, xiN_0, etaN_0, xiN_1, etaN_1, xiN_2, etaN_2, xiN_3, etaN_3]
    ring
  have h2 : rawNormal squarePatch 0 0 2 = 1 / 4 := by
    simp only [rawNormal, cross_two, tangentXi, tangentEta, dphiXi, dphiEta, Fin.sum_univ_four,
      squarePatch, xiN_0, etaN_0, xiN_1, etaN_1, xiN_2, etaN_2, xiN_3, etaN_3]
    norm_num
  have hl : len (rawNormal squarePatch 0 0) = 1 / 4 := by
    have : len (rawNormal squarePatch 0 0) = √((1 / 4 : ℝ) ^ 2) := by
      unfold len; rw [h0, h1, h2]; norm_num
    rw [this, Real.sqrt_sq (by norm_num)]
  refine ⟨fun i => rawNormal squarePatch 0 0 i / len (rawNormal squarePatch 0 0), ?_, ?_, ?_, ?_⟩
  · simp only [unitNormal]
    rw [if_neg (by rw [hl]; norm_num)]
  · simp only [h0, zero_div]
  · simp only [h1, zero_div]
  · simp only [h2, hl]; norm_num

/-- The mixed second derivative of the patch: the derivative of `tangentXi` along the second patch
coordinate. -/
noncomputable def trueMixed (A : Fin 3 → Fin 4 → ℝ) (i : Fin 3) : ℝ :=
  deriv (fun t => tangentXi A 0 t i) 0

namespace Contact

theorem tangentXi_affine (A : Fin 3 → Fin 4 → ℝ) (s t : ℝ) (i : Fin 3) :
    tangentXi A s t i = tangentXi A 0 0 i + 1 / 4 * (A i 0 - A i 1 + A i 2 - A i 3) * t := by
  simp only [tangentXi, dphiXi, Fin.sum_univ_four, xiN_0, etaN_0, xiN_1, etaN_1, xiN_2, etaN_2, xiN_3, etaN_3]; ring

theorem tangentEta_affine (A : Fin 3 → Fin 4 → ℝ) (s t : ℝ) (i : Fin 3) :
    tangentEta A s t i = tangentEta A 0 0 i + 1 / 4 * (A i 0 - A i 1 + A i 2 - A i 3) * s := by
  simp only [tangentEta, dphiEta, Fin.sum_univ_four, xiN_0, etaN_0, xiN_1, etaN_1, xiN_2, etaN_2, xiN_3, etaN_3]; ring

theorem trueMixed_eq (A : Fin 3 → Fin 4 → ℝ) (i : Fin 3) :
    trueMixed A i = 1 / 4 * (A i 0 - A i 1 + A i 2 - A i 3) := by
  unfold trueMixed
  have h : (fun t => tangentXi A 0 t i)
      = fun t => tangentXi A 0 0 i + 1 / 4 * (A i 0 - A i 1 + A i 2 - A i 3) * t := by
    funext t; exact tangentXi_affine A 0 t i
  rw [h]
  have h2 := ((hasDerivAt_id (0 : ℝ)).const_mul (1 / 4 * (A i 0 - A i 1 + A i 2 - A i 3))).const_add
    (tangentXi A 0 0 i)
  have h3 := h2.deriv
  simp only [id] at h3
  rw [h3]; ring

end Contact

/-- C76, what the code does instead: the vector used as mixed derivative of the patch is the mixed
derivative only when the third and the fourth patch node coincide, which no proper patch satisfies:
the signs of `get_normal_derivatives` belong to another numbering of the patch nodes. -/
theorem C76_mixed_derivative_fails (A : Fin 3 → Fin 4 → ℝ) :
    mixedDerivative A = trueMixed A ↔ ∀ i, A i 2 = A i 3 := by
  constructor
  · intro h i
    have := congrFun h i
    rw [trueMixed_eq] at this
    unfold mixedDerivative at this
    linarith
  · intro h
    funext i
    rw [trueMixed_eq]
    unfold mixedDerivative
    rw [h i]; ring

namespace Contact

/-- Derivative of a normalised vector. -/
theorem normalised_deriv (f : ℝ → Fin 3 → ℝ) (f' : Fin 3 → ℝ) (s : ℝ)
    (hf : ∀ i, HasDerivAt (fun s => f s i) (f' i) s) (h0 : len (f s) ≠ 0) (i : Fin 3) :
    HasDerivAt (fun s => f s i / len (f s))
      ((f' i * len (f s) - f s i * dot (f s) f' / len (f s)) / len (f s) ^ 2) s := by
  have hq : HasDerivAt (fun s => f s 0 ^ 2 + f s 1 ^ 2 + f s 2 ^ 2) (2 * dot (f s) f') s := by
    have := (((hf 0).pow 2).add ((hf 1).pow 2)).add ((hf 2).pow 2)
    refine this.congr_deriv ?_
    simp [dot]; ring
  have hne : f s 0 ^ 2 + f s 1 ^ 2 + f s 2 ^ 2 ≠ 0 := by
    intro h
    apply h0
    unfold len
    rw [h, Real.sqrt_zero]
  have hl : HasDerivAt (fun s => len (f s)) (dot (f s) f' / len (f s)) s := by
    have := hq.sqrt hne
    refine this.congr_deriv ?_
    change 2 * dot (f s) f' / (2 * len (f s)) = _
    rw [mul_div_mul_left _ _ (two_ne_zero)]
  have := (hf i).div hl h0
  refine this.congr_deriv ?_
  rw [mul_div_assoc]

end Contact

/-- C76: with the true mixed derivative of the patch put in, the formulas of
`get_normal_derivatives` are the exact derivatives of the unit normal. -/
theorem C76_normal_derivatives (A : Fin 3 → Fin 4 → ℝ) (s t : ℝ)
    (h0 : len (rawNormal A s t) ≠ 0) (i : Fin 3) :
    HasDerivAt (fun s => rawNormal A s t i / len (rawNormal A s t))
        (dNormalXi A (trueMixed A) s t i) s ∧
      HasDerivAt (fun t => rawNormal A s t i / len (rawNormal A s t))
        (dNormalEta A (trueMixed A) s t i) t := by
  have lin : ∀ (a b x : ℝ), HasDerivAt (fun x => a + b * x) b x := fun a b x => by
    have := ((hasDerivAt_id x).const_mul b).const_add a
    simpa using this
  have hX : ∀ t s i, HasDerivAt (fun s => tangentEta A s t i) (trueMixed A i) s := by
    intro t s i
    have h : (fun s => tangentEta A s t i)
        = fun s => tangentEta A 0 0 i + 1 / 4 * (A i 0 - A i 1 + A i 2 - A i 3) * s := by
      funext s; exact tangentEta_affine A s t i
    rw [h, trueMixed_eq]
    exact lin _ _ _
  have hE : ∀ s t i, HasDerivAt (fun t => tangentXi A s t i) (trueMixed A i) t := by
    intro s t i
    have h : (fun t => tangentXi A s t i)
        = fun t => tangentXi A 0 0 i + 1 / 4 * (A i 0 - A i 1 + A i 2 - A i 3) * t := by
      funext t; exact tangentXi_affine A s t i
    rw [h, trueMixed_eq]
    exact lin _ _ _
  have cX : ∀ s' i, tangentXi A s' t i = tangentXi A s t i := by
    intro s' i; rfl
  have cE : ∀ t' i, tangentEta A s t' i = tangentEta A s t i := by
    intro t' i; rfl
  constructor
  · refine normalised_deriv (fun s => rawNormal A s t) (cross (tangentXi A s t) (trueMixed A)) s
      ?_ h0 i
    intro i
    fin_cases i
    · exact ((hX t s 2).const_mul (tangentXi A s t 1)).sub ((hX t s 1).const_mul (tangentXi A s t 2))
    · exact ((hX t s 0).const_mul (tangentXi A s t 2)).sub ((hX t s 2).const_mul (tangentXi A s t 0))
    · exact ((hX t s 1).const_mul (tangentXi A s t 0)).sub ((hX t s 0).const_mul (tangentXi A s t 1))
  · refine normalised_deriv (fun t => rawNormal A s t) (cross (trueMixed A) (tangentEta A s t)) t
      ?_ h0 i
    intro i
    fin_cases i
    · exact ((hE s t 1).mul_const (tangentEta A s t 2)).sub ((hE s t 2).mul_const (tangentEta A s t 1))
    · exact ((hE s t 2).mul_const (tangentEta A s t 0)).sub ((hE s t 0).mul_const (tangentEta A s t 2))
    · exact ((hE s t 0).mul_const (tangentEta A s t 1)).sub ((hE s t 1).mul_const (tangentEta A s t 0))

/-! ### C77: faces -/

/-- Coordinate direction of a face of the reference cube: faces 0 and 1 are `x = -1` and `x = 1`,
2 and 3 are `y = -1` and `y = 1`, 4 and 5 are `z = -1` and `z = 1`. -/
def faceDir : Fin 6 → Fin 3 := ![0, 0, 1, 1, 2, 2]

/-- The value of that coordinate on the face. -/
def faceSide {K : Type} [Field K] : Fin 6 → K := ![-1, 1, -1, 1, -1, 1]

/-- The face on the other side of the reference cube. -/
def oppositeFace : Fin 6 → Fin 6 := ![1, 0, 3, 2, 5, 4]

namespace Contact
theorem faceNode_00 : faceNode 0 0 = 0 := rfl
theorem faceNode_01 : faceNode 0 1 = 4 := rfl
theorem faceNode_02 : faceNode 0 2 = 6 := rfl
theorem faceNode_03 : faceNode 0 3 = 2 := rfl
theorem faceNode_10 : faceNode 1 0 = 1 := rfl
theorem faceNode_11 : faceNode 1 1 = 3 := rfl
theorem faceNode_12 : faceNode 1 2 = 7 := rfl
theorem faceNode_13 : faceNode 1 3 = 5 := rfl
theorem faceNode_20 : faceNode 2 0 = 0 := rfl
theorem faceNode_21 : faceNode 2 1 = 1 := rfl
theorem faceNode_22 : faceNode 2 2 = 5 := rfl
theorem faceNode_23 : faceNode 2 3 = 4 := rfl
theorem faceNode_30 : faceNode 3 0 = 3 := rfl
theorem faceNode_31 : faceNode 3 1 = 2 := rfl
theorem faceNode_32 : faceNode 3 2 = 6 := rfl
theorem faceNode_33 : faceNode 3 3 = 7 := rfl
theorem faceNode_40 : faceNode 4 0 = 0 := rfl
theorem faceNode_41 : faceNode 4 1 = 2 := rfl
theorem faceNode_42 : faceNode 4 2 = 3 := rfl
theorem faceNode_43 : faceNode 4 3 = 1 := rfl
theorem faceNode_50 : faceNode 5 0 = 4 := rfl
theorem faceNode_51 : faceNode 5 1 = 5 := rfl
theorem faceNode_52 : faceNode 5 2 = 7 := rfl
theorem faceNode_53 : faceNode 5 3 = 6 := rfl
end Contact

section faces
variable {K : Type} [Field K] [CharZero K]

/-- First tangent of a face in terms of the Jacobian. -/
def tangentRowXi (E : Fin 3 → Fin 8 → K) (p : Fin 3 → K) (f : Fin 6) (i : Fin 3) : K :=
  match f with
  | 0 => hexJac E p i 2
  | 1 => hexJac E p i 1
  | 2 => hexJac E p i 0
  | 3 => -hexJac E p i 0
  | 4 => hexJac E p i 1
  | 5 => hexJac E p i 0

/-- Second tangent of a face in terms of the Jacobian. -/
def tangentRowEta (E : Fin 3 → Fin 8 → K) (p : Fin 3 → K) (f : Fin 6) (i : Fin 3) : K :=
  match f with
  | 0 => hexJac E p i 1
  | 1 => hexJac E p i 2
  | 2 => hexJac E p i 2
  | 3 => hexJac E p i 2
  | 4 => hexJac E p i 0
  | 5 => hexJac E p i 1

/-- C77: a point of a face has, with the patch coordinates computed from its element coordinates,
the same physical position as point of the patch, for every hexahedron. -/
theorem C77_face_coordinates (E : Fin 3 → Fin 8 → K) (f : Fin 6) (p : Fin 3 → K)
    (hp : p (faceDir f) = faceSide f) (i : Fin 3) :
    hexPos E p i = refToPhysical (facePos E f) (toPatch f p).1 (toPatch f p).2 i := by
  match f with
  | 0 =>
    have hq : p 0 = -1 := hp
    simp only [hexPos, refToPhysical, facePos, toPatch, phi, Fin.sum_univ_eight, Fin.sum_univ_four,
      xiN_0, etaN_0, xiN_1, etaN_1, xiN_2, etaN_2, xiN_3, etaN_3, hexPhi_0, hexPhi_1, hexPhi_2, hexPhi_3, hexPhi_4, hexPhi_5, hexPhi_6, hexPhi_7, hexDphi_00, hexDphi_01, hexDphi_02, hexDphi_10, hexDphi_11, hexDphi_12, hexDphi_20, hexDphi_21, hexDphi_22, hexDphi_30, hexDphi_31, hexDphi_32, hexDphi_40, hexDphi_41, hexDphi_42, hexDphi_50, hexDphi_51, hexDphi_52, hexDphi_60, hexDphi_61, hexDphi_62, hexDphi_70, hexDphi_71, hexDphi_72, faceNode_00, faceNode_01, faceNode_02, faceNode_03, faceNode_10, faceNode_11, faceNode_12, faceNode_13, faceNode_20, faceNode_21, faceNode_22, faceNode_23, faceNode_30, faceNode_31, faceNode_32, faceNode_33, faceNode_40, faceNode_41, faceNode_42, faceNode_43, faceNode_50, faceNode_51, faceNode_52, faceNode_53, hq]
    ring
  | 1 =>
    have hq : p 0 = 1 := hp
    simp only [hexPos, refToPhysical, facePos, toPatch, phi, Fin.sum_univ_eight, Fin.sum_univ_four,
      xiN_0, etaN_0, xiN_1, etaN_1, xiN_2, etaN_2, xiN_3, etaN_3, hexPhi_0, hexPhi_1, hexPhi_2, hexPhi_3, hexPhi_4, hexPhi_5, hexPhi_6, hexPhi_7, hexDphi_00, hexDphi_01, hexDphi_02, hexDphi_10, hexDphi_11, hexDphi_12, hexDphi_20, hexDphi_21, hexDphi_22, hexDphi_30, hexDphi_31, hexDphi_32, hexDphi_40, hexDphi_41, hexDphi_42, hexDphi_50, hexDphi_51, hexDphi_52, hexDphi_60, hexDphi_61, hexDphi_62, hexDphi_70, hexDphi_71, hexDphi_72, faceNode_00, faceNode_01, faceNode_02, faceNode_03, faceNode_10, faceNode_11, faceNode_12, faceNode_13, faceNode_20, faceNode_21, faceNode_22, faceNode_23, faceNode_30, faceNode_31, faceNode_32, faceNode_33, faceNode_40, faceNode_41, faceNode_42, faceNode_43, faceNode_50, faceNode_51, faceNode_52, faceNode_53, hq]
    ring
  | 2 =>
    have hq : p 1 = -1 := hp
    simp only [hexPos, refToPhysical, facePos, toPatch, phi, Fin.sum_univ_eight, Fin.sum_univ_four,
      xiN_0, etaN_0, xiN_1, etaN_1, xiN_2, etaN_2, xiN_3, etaN_3, hexPhi_0, hexPhi_1, hexPhi_2, hexPhi_3, hexPhi_4, hexPhi_5, hexPhi_6, hexPhi_7, hexDphi_00, hexDphi_01, hexDphi_02, hexDphi_10, hexDphi_11, hexDphi_12, hexDphi_20, hexDphi_21, hexDphi_22, hexDphi_30, hexDphi_31, hexDphi_32, hexDphi_40, hexDphi_41, hexDphi_42, hexDphi_50, hexDphi_51, hexDphi_52, hexDphi_60, hexDphi_61, hexDphi_62, hexDphi_70, hexDphi_71, hexDphi_72, faceNode_00, faceNode_01, faceNode_02, faceNode_03, faceNode_10, faceNode_11, faceNode_12, faceNode_13, faceNode_20, faceNode_21, faceNode_22, faceNode_23, faceNode_30, faceNode_31, faceNode_32, faceNode_33, faceNode_40, faceNode_41, faceNode_42, faceNode_43, faceNode_50, faceNode_51, faceNode_52, faceNode_53, hq]
    ring
  | 3 =>
    have hq : p 1 = 1 := hp
    simp only [hexPos, refToPhysical, facePos, toPatch, phi, Fin.sum_univ_eight, Fin.sum_univ_four,
      xiN_0, etaN_0, xiN_1, etaN_1, xiN_2, etaN_2, xiN_3, etaN_3, hexPhi_0, hexPhi_1, hexPhi_2, hexPhi_3, hexPhi_4, hexPhi_5, hexPhi_6, hexPhi_7, hexDphi_00, hexDphi_01, hexDphi_02, hexDphi_10, hexDphi_11, hexDphi_12, hexDphi_20, hexDphi_21, hexDphi_22, hexDphi_30, hexDphi_31, hexDphi_32, hexDphi_40, hexDphi_41, hexDphi_42, hexDphi_50, hexDphi_51, hexDphi_52, hexDphi_60, hexDphi_61, hexDphi_62, hexDphi_70, hexDphi_71, hexDphi_72, faceNode_00, faceNode_01, faceNode_02, faceNode_03, faceNode_10, faceNode_11, faceNode_12, faceNode_13, faceNode_20, faceNode_21, faceNode_22, faceNode_23, faceNode_30, faceNode_31, faceNode_32, faceNode_33, faceNode_40, faceNode_41, faceNode_42, faceNode_43, faceNode_50, faceNode_51, faceNode_52, faceNode_53, hq]
    ring
  | 4 =>
    have hq : p 2 = -1 := hp
    simp only [hexPos, refToPhysical, facePos, toPatch, phi, Fin.sum_univ_eight, Fin.sum_univ_four,
      xiN_0, etaN_0, xiN_1, etaN_1, xiN_2, etaN_2, xiN_3, etaN_3, hexPhi_0, hexPhi_1, hexPhi_2, hexPhi_3, hexPhi_4, hexPhi_5, hexPhi_6, hexPhi_7, hexDphi_00, hexDphi_01, hexDphi_02, hexDphi_10, hexDphi_11, hexDphi_12, hexDphi_20, hexDphi_21, hexDphi_22, hexDphi_30, hexDphi_31, hexDphi_32, hexDphi_40, hexDphi_41, hexDphi_42, hexDphi_50, hexDphi_51, hexDphi_52, hexDphi_60, hexDphi_61, hexDphi_62, hexDphi_70, hexDphi_71, hexDphi_72, faceNode_00, faceNode_01, faceNode_02, faceNode_03, faceNode_10, faceNode_11, faceNode_12, faceNode_13, faceNode_20, faceNode_21, faceNode_22, faceNode_23, faceNode_30, faceNode_31, faceNode_32, faceNode_33, faceNode_40, faceNode_41, faceNode_42, faceNode_43, faceNode_50, faceNode_51, faceNode_52, faceNode_53, hq]
    ring
  | 5 =>
    have hq : p 2 = 1 := hp
    simp only [hexPos, refToPhysical, facePos, toPatch, phi, Fin.sum_univ_eight, Fin.sum_univ_four,
      xiN_0, etaN_0, xiN_1, etaN_1, xiN_2, etaN_2, xiN_3, etaN_3, hexPhi_0, hexPhi_1, hexPhi_2, hexPhi_3, hexPhi_4, hexPhi_5, hexPhi_6, hexPhi_7, hexDphi_00, hexDphi_01, hexDphi_02, hexDphi_10, hexDphi_11, hexDphi_12, hexDphi_20, hexDphi_21, hexDphi_22, hexDphi_30, hexDphi_31, hexDphi_32, hexDphi_40, hexDphi_41, hexDphi_42, hexDphi_50, hexDphi_51, hexDphi_52, hexDphi_60, hexDphi_61, hexDphi_62, hexDphi_70, hexDphi_71, hexDphi_72, faceNode_00, faceNode_01, faceNode_02, faceNode_03, faceNode_10, faceNode_11, faceNode_12, faceNode_13, faceNode_20, faceNode_21, faceNode_22, faceNode_23, faceNode_30, faceNode_31, faceNode_32, faceNode_33, faceNode_40, faceNode_41, faceNode_42, faceNode_43, faceNode_50, faceNode_51, faceNode_52, faceNode_53, hq]
    ring

/-- C77: the surface normal of a face times the direction in which the face coordinate leaves the
element is the Jacobian determinant there, for every hexahedron; so on elements that are not
inverted the normals of all six faces point outwards. -/
theorem C77_normals_outward (E : Fin 3 → Fin 8 → K) (f : Fin 6) (p : Fin 3 → K)
    (hp : p (faceDir f) = faceSide f) :
    dot (rawNormal (facePos E f) (toPatch f p).1 (toPatch f p).2)
      (fun i => faceSide f * hexJac E p i (faceDir f)) = det (hexJac E p) := by
  have hX : ∀ i, tangentXi (facePos E f) (toPatch f p).1 (toPatch f p).2 i
      = tangentRowXi E p f i := by
    intro i
    have g : tangentXi (facePos E f) (toPatch f p).1 (toPatch f p).2 i = tangentRowXi E p f i := by
      match f with
      | 0 =>
        have hq : p 0 = -1 := hp
        simp only [tangentRowXi, hexJac, tangentXi, dphiXi, facePos, toPatch, Fin.sum_univ_eight,
          Fin.sum_univ_four, xiN_0, etaN_0, xiN_1, etaN_1, xiN_2, etaN_2, xiN_3, etaN_3, hexPhi_0, hexPhi_1, hexPhi_2, hexPhi_3, hexPhi_4, hexPhi_5, hexPhi_6, hexPhi_7, hexDphi_00, hexDphi_01, hexDphi_02, hexDphi_10, hexDphi_11, hexDphi_12, hexDphi_20, hexDphi_21, hexDphi_22, hexDphi_30, hexDphi_31, hexDphi_32, hexDphi_40, hexDphi_41, hexDphi_42, hexDphi_50, hexDphi_51, hexDphi_52, hexDphi_60, hexDphi_61, hexDphi_62, hexDphi_70, hexDphi_71, hexDphi_72, faceNode_00, faceNode_01, faceNode_02, faceNode_03, faceNode_10, faceNode_11, faceNode_12, faceNode_13, faceNode_20, faceNode_21, faceNode_22, faceNode_23, faceNode_30, faceNode_31, faceNode_32, faceNode_33, faceNode_40, faceNode_41, faceNode_42, faceNode_43, faceNode_50, faceNode_51, faceNode_52, faceNode_53, hq]
        ring
      | 1 =>
        have hq : p 0 = 1 := hp
        simp only [tangentRowXi, hexJac, tangentXi, dphiXi, facePos, toPatch, Fin.sum_univ_eight,
          Fin.sum_univ_four, xiN_0, etaN_0, xiN_1, etaN_1, xiN_2, etaN_2, xiN_3, etaN_3, hexPhi_0, hexPhi_1, hexPhi_2, hexPhi_3, hexPhi_4, hexPhi_5, hexPhi_6, hexPhi_7, hexDphi_00, hexDphi_01, hexDphi_02, hexDphi_10, hexDphi_11, hexDphi_12, hexDphi_20, hexDphi_21, hexDphi_22, hexDphi_30, hexDphi_31, hexDphi_32, hexDphi_40, hexDphi_41, hexDphi_42, hexDphi_50, hexDphi_51, hexDphi_52, hexDphi_60, hexDphi_61, hexDphi_62, hexDphi_70, hexDphi_71, hexDphi_72, faceNode_00, faceNode_01, faceNode_02, faceNode_03, faceNode_10, faceNode_11, faceNode_12, faceNode_13, faceNode_20, faceNode_21, faceNode_22, faceNode_23, faceNode_30, faceNode_31, faceNode_32, faceNode_33, faceNode_40, faceNode_41, faceNode_42, faceNode_43, faceNode_50, faceNode_51, faceNode_52, faceNode_53, hq]
        ring
      | 2 =>
        have hq : p 1 = -1 := hp
        simp only [tangentRowXi, hexJac, tangentXi, dphiXi, facePos, toPatch, Fin.sum_univ_eight,
          Fin.sum_univ_four, xiN_0, etaN_0, xiN_1, etaN_1, xiN_2, etaN_2, xiN_3, etaN_3, hexPhi_0, hexPhi_1, hexPhi_2, hexPhi_3, hexPhi_4, hexPhi_5, hexPhi_6, hexPhi_7, hexDphi_00, hexDphi_01, hexDphi_02, hexDphi_10, hexDphi_11, hexDphi_12, hexDphi_20, hexDphi_21, hexDphi_22, hexDphi_30, hexDphi_31, hexDphi_32, hexDphi_40, hexDphi_41, hexDphi_42, hexDphi_50, hexDphi_51, hexDphi_52, hexDphi_60, hexDphi_61, hexDphi_62, hexDphi_70, hexDphi_71, hexDphi_72, faceNode_00, faceNode_01, faceNode_02, faceNode_03, faceNode_10, faceNode_11, faceNode_12, faceNode_13, faceNode_20, faceNode_21, faceNode_22, faceNode_23, faceNode_30, faceNode_31, faceNode_32, faceNode_33, faceNode_40, faceNode_41, faceNode_42, faceNode_43, faceNode_50, faceNode_51, faceNode_52, faceNode_53, hq]
        ring
      | 3 =>
        have hq : p 1 = 1 := hp
        simp only [tangentRowXi, hexJac, tangentXi, dphiXi, facePos, toPatch, Fin.sum_univ_eight,
          Fin.sum_univ_four, xiN_0, etaN_0, xiN_1, etaN_1, xiN_2, etaN_2, xiN_3, etaN_3, hexPhi_0, hexPhi_1, hexPhi_2, hexPhi_3, hexPhi_4, hexPhi_5, hexPhi_6, hexPhi_7, hexDphi_00, hexDphi_01, hexDphi_02, hexDphi_10, hexDphi_11, hexDphi_12, hexDphi_20, hexDphi_21, hexDphi_22, hexDphi_30, hexDphi_31, hexDphi_32, hexDphi_40, hexDphi_41, hexDphi_42, hexDphi_50, hexDphi_51, hexDphi_52, hexDphi_60, hexDphi_61, hexDphi_62, hexDphi_70, hexDphi_71, hexDphi_72, faceNode_00, faceNode_01, faceNode_02, faceNode_03, faceNode_10, faceNode_11, faceNode_12, faceNode_13, faceNode_20, faceNode_21, faceNode_22, faceNode_23, faceNode_30, faceNode_31, faceNode_32, faceNode_33, faceNode_40, faceNode_41, faceNode_42, faceNode_43, faceNode_50, faceNode_51, faceNode_52, faceNode_53, hq]
        ring
      | 4 =>
        have hq : p 2 = -1 := hp
        simp only [tangentRowXi, hexJac, tangentXi, dphiXi, facePos, toPatch, Fin.sum_univ_eight,
          Fin.sum_univ_four, xiN_0, etaN_0, xiN_1, etaN_1, xiN_2, etaN_2, xiN_3, etaN_3, hexPhi_0, hexPhi_1, hexPhi_2, hexPhi_3, hexPhi_4, hexPhi_5, hexPhi_6, hexPhi_7, hexDphi_00, hexDphi_01, hexDphi_02, hexDphi_10, hexDphi_11, hexDphi_12, hexDphi_20, hexDphi_21, hexDphi_22, hexDphi_30, hexDphi_31, hexDphi_32, hexDphi_40, hexDphi_41, hexDphi_42, hexDphi_50, hexDphi_51, hexDphi_52, hexDphi_60, hexDphi_61, hexDphi_62, hexDphi_70, hexDphi_71, hexDphi_72, faceNode_00, faceNode_01, faceNode_02, faceNode_03, faceNode_10, faceNode_11, faceNode_12, faceNode_13, faceNode_20, faceNode_21, faceNode_22, faceNode_23, faceNode_30, faceNode_31, faceNode_32, faceNode_33, faceNode_40, faceNode_41, faceNode_42, faceNode_43, faceNode_50, faceNode_51, faceNode_52, faceNode_53, hq]
        ring
      | 5 =>
        have hq : p 2 = 1 := hp
        simp only [tangentRowXi, hexJac, tangentXi, dphiXi, facePos, toPatch, Fin.sum_univ_eight,
          Fin.sum_univ_four, xiN_0, etaN_0, xiN_1, etaN_1, xiN_2, etaN_2, xiN_3, etaN_3, hexPhi_0, hexPhi_1, hexPhi_2, hexPhi_3, hexPhi_4, hexPhi_5, hexPhi_6, hexPhi_7, hexDphi_00, hexDphi_01, hexDphi_02, hexDphi_10, hexDphi_11, hexDphi_12, hexDphi_20, hexDphi_21, hexDphi_22, hexDphi_30, hexDphi_31, hexDphi_32, hexDphi_40, hexDphi_41, hexDphi_42, hexDphi_50, hexDphi_51, hexDphi_52, hexDphi_60, hexDphi_61, hexDphi_62, hexDphi_70, hexDphi_71, hexDphi_72, faceNode_00, faceNode_01, faceNode_02, faceNode_03, faceNode_10, faceNode_11, faceNode_12, faceNode_13, faceNode_20, faceNode_21, faceNode_22, faceNode_23, faceNode_30, faceNode_31, faceNode_32, faceNode_33, faceNode_40, faceNode_41, faceNode_42, faceNode_43, faceNode_50, faceNode_51, faceNode_52, faceNode_53, hq]
        ring
    exact g
  have hE : ∀ i, tangentEta (facePos E f) (toPatch f p).1 (toPatch f p).2 i
      = tangentRowEta E p f i := by
    intro i
    have g : tangentEta (facePos E f) (toPatch f p).1 (toPatch f p).2 i = tangentRowEta E p f i := by
      match f with
      | 0 =>
        have hq : p 0 = -1 := hp
        simp only [tangentRowEta, hexJac, tangentEta, dphiEta, facePos, toPatch, Fin.sum_univ_eight,
          Fin.sum_univ_four, xiN_0, etaN_0, xiN_1, etaN_1, xiN_2, etaN_2, xiN_3, etaN_3, hexPhi_0, hexPhi_1, hexPhi_2, hexPhi_3, hexPhi_4, hexPhi_5, hexPhi_6, hexPhi_7, hexDphi_00, hexDphi_01, hexDphi_02, hexDphi_10, hexDphi_11, hexDphi_12, hexDphi_20, hexDphi_21, hexDphi_22, hexDphi_30, hexDphi_31, hexDphi_32, hexDphi_40, hexDphi_41, hexDphi_42, hexDphi_50, hexDphi_51, hexDphi_52, hexDphi_60, hexDphi_61, hexDphi_62, hexDphi_70, hexDphi_71, hexDphi_72, faceNode_00, faceNode_01, faceNode_02, faceNode_03, faceNode_10, faceNode_11, faceNode_12, faceNode_13, faceNode_20, faceNode_21, faceNode_22, faceNode_23, faceNode_30, faceNode_31, faceNode_32, faceNode_33, faceNode_40, faceNode_41, faceNode_42, faceNode_43, faceNode_50, faceNode_51, faceNode_52, faceNode_53, hq]
        ring
      | 1 =>
        have hq : p 0 = 1 := hp
        simp only [tangentRowEta, hexJac, tangentEta, dphiEta, facePos, toPatch, Fin.sum_univ_eight,
          Fin.sum_univ_four, xiN_0, etaN_0, xiN_1, etaN_1, xiN_2, etaN_2, xiN_3, etaN_3, hexPhi_0, hexPhi_1, hexPhi_2, hexPhi_3, hexPhi_4, hexPhi_5, hexPhi_6, hexPhi_7, hexDphi_00, hexDphi_01, hexDphi_02, hexDphi_10, hexDphi_11, hexDphi_12, hexDphi_20, hexDphi_21, hexDphi_22, hexDphi_30, hexDphi_31, hexDphi_32, hexDphi_40, hexDphi_41, hexDphi_42, hexDphi_50, hexDphi_51, hexDphi_52, hexDphi_60, hexDphi_61, hexDphi_62, hexDphi_70, hexDphi_71, hexDphi_72, faceNode_00, faceNode_01, faceNode_02, faceNode_03, faceNode_10, faceNode_11, faceNode_12, faceNode_13, faceNode_20, faceNode_21, faceNode_22, faceNode_23, faceNode_30, faceNode_31, faceNode_32, faceNode_33, faceNode_40, faceNode_41, faceNode_42, faceNode_43, faceNode_50, faceNode_51, faceNode_52, faceNode_53, hq]
        ring
      | 2 =>
        have hq : p 1 = -1 := hp
        simp only [tangentRowEta, hexJac, tangentEta, dphiEta, facePos, toPatch, Fin.sum_univ_eight,
          Fin.sum_univ_four, xiN_0, etaN_0, xiN_1, etaN_1, xiN_2, etaN_2, xiN_3, etaN_3, hexPhi_0, hexPhi_1, hexPhi_2, hexPhi_3, hexPhi_4, hexPhi_5, hexPhi_6, hexPhi_7, hexDphi_00, hexDphi_01, hexDphi_02, hexDphi_10, hexDphi_11, hexDphi_12, hexDphi_20, hexDphi_21, hexDphi_22, hexDphi_30, hexDphi_31, hexDphi_32, hexDphi_40, hexDphi_41, hexDphi_42, hexDphi_50, hexDphi_51, hexDphi_52, hexDphi_60, hexDphi_61, hexDphi_62, hexDphi_70, hexDphi_71, hexDphi_72, faceNode_00, faceNode_01, faceNode_02, faceNode_03, faceNode_10, faceNode_11, faceNode_12, faceNode_13, faceNode_20, faceNode_21, faceNode_22, faceNode_23, faceNode_30, faceNode_31, faceNode_32, faceNode_33, faceNode_40, faceNode_41, faceNode_42, faceNode_43, faceNode_50, faceNode_51, faceNode_52, faceNode_53, hq]
        ring
      | 3 =>
        have hq : p 1 = 1 := hp
        simp only [tangentRowEta, hexJac, tangentEta, dphiEta, facePos, toPatch, Fin.sum_univ_eight,
          Fin.sum_univ_four, xiN_0, etaN_0, xiN_1, etaN_1, xiN_2, etaN_2, xiN_3, etaN_3, hexPhi_0, hexPhi_1, hexPhi_2, hexPhi_3, hexPhi_4, hexPhi_5, hexPhi_6, hexPhi_7, hexDphi_00, hexDphi_01, hexDphi_02, hexDphi_10, hexDphi_11, hexDphi_12, hexDphi_20, hexDphi_21, hexDphi_22, hexDphi_30, hexDphi_31, hexDphi_32, hexDphi_40, hexDphi_41, hexDphi_42, hexDphi_50, hexDphi_51, hexDphi_52, hexDphi_60, hexDphi_61, hexDphi_62, hexDphi_70, hexDphi_71, hexDphi_72, faceNode_00, faceNode_01, faceNode_02, faceNode_03, faceNode_10, faceNode_11, faceNode_12, faceNode_13, faceNode_20, faceNode_21, faceNode_22, faceNode_23, faceNode_30, faceNode_31, faceNode_32, faceNode_33, faceNode_40, faceNode_41, faceNode_42, faceNode_43, faceNode_50, faceNode_51, faceNode_52, faceNode_53, hq]
        ring
      | 4 =>
        have hq : p 2 = -1 := hp
        simp only [tangentRowEta, hexJac, tangentEta, dphiEta, facePos, toPatch, Fin.sum_univ_eight,
          Fin.sum_univ_four, xiN_0, etaN_0, xiN_1, etaN_1, xiN_2, etaN_2, xiN_3, etaN_3, hexPhi_0, hexPhi_1, hexPhi_2, hexPhi_3, hexPhi_4, hexPhi_5, hexPhi_6, hexPhi_7, hexDphi_00, hexDphi_01, hexDphi_02, hexDphi_10, hexDphi_11, hexDphi_12, hexDphi_20, hexDphi_21, hexDphi_22, hexDphi_30, hexDphi_31, hexDphi_32, hexDphi_40, hexDphi_41, hexDphi_42, hexDphi_50, hexDphi_51, hexDphi_52, hexDphi_60, hexDphi_61, hexDphi_62, hexDphi_70, hexDphi_71, hexDphi_72, faceNode_00, faceNode_01, faceNode_02, faceNode_03, faceNode_10, faceNode_11, faceNode_12, faceNode_13, faceNode_20, faceNode_21, faceNode_22, faceNode_23, faceNode_30, faceNode_31, faceNode_32, faceNode_33, faceNode_40, faceNode_41, faceNode_42, faceNode_43, faceNode_50, faceNode_51, faceNode_52, faceNode_53, hq]
        ring
      | 5 =>
        have hq : p 2 = 1 := hp
        simp only [tangentRowEta, hexJac, tangentEta, dphiEta, facePos, toPatch, Fin.sum_univ_eight,
          Fin.sum_univ_four, xiN_0, etaN_0, xiN_1, etaN_1, xiN_2, etaN_2, xiN_3, etaN_3, hexPhi_0, hexPhi_1, hexPhi_2, hexPhi_3, hexPhi_4, hexPhi_5, hexPhi_6, hexPhi_7, hexDphi_00, hexDphi_01, hexDphi_02, hexDphi_10, hexDphi_11, hexDphi_12, hexDphi_20, hexDphi_21, hexDphi_22, hexDphi_30, hexDphi_31, hexDphi_32, hexDphi_40, hexDphi_41, hexDphi_42, hexDphi_50, hexDphi_51, hexDphi_52, hexDphi_60, hexDphi_61, hexDphi_62, hexDphi_70, hexDphi_71, hexDphi_72, faceNode_00, faceNode_01, faceNode_02, faceNode_03, faceNode_10, faceNode_11, faceNode_12, faceNode_13, faceNode_20, faceNode_21, faceNode_22, faceNode_23, faceNode_30, faceNode_31, faceNode_32, faceNode_33, faceNode_40, faceNode_41, faceNode_42, faceNode_43, faceNode_50, faceNode_51, faceNode_52, faceNode_53, hq]
        ring
    exact g
  simp only [rawNormal, cross_zero, cross_one, cross_two, dot, hX, hE, det]
  match f with
  | 0 => simp only [tangentRowXi, tangentRowEta]; change _ * (-1 * hexJac E p 0 0) + _ * (-1 * hexJac E p 1 0) + _ * (-1 * hexJac E p 2 0) = _; ring
  | 1 => simp only [tangentRowXi, tangentRowEta]; change _ * (1 * hexJac E p 0 0) + _ * (1 * hexJac E p 1 0) + _ * (1 * hexJac E p 2 0) = _; ring
  | 2 => simp only [tangentRowXi, tangentRowEta]; change _ * (-1 * hexJac E p 0 1) + _ * (-1 * hexJac E p 1 1) + _ * (-1 * hexJac E p 2 1) = _; ring
  | 3 => simp only [tangentRowXi, tangentRowEta]; change _ * (1 * hexJac E p 0 1) + _ * (1 * hexJac E p 1 1) + _ * (1 * hexJac E p 2 1) = _; ring
  | 4 => simp only [tangentRowXi, tangentRowEta]; change _ * (-1 * hexJac E p 0 2) + _ * (-1 * hexJac E p 1 2) + _ * (-1 * hexJac E p 2 2) = _; ring
  | 5 => simp only [tangentRowXi, tangentRowEta]; change _ * (1 * hexJac E p 0 2) + _ * (1 * hexJac E p 1 2) + _ * (1 * hexJac E p 2 2) = _; ring

/-- C77: the same with an order: outward on every element with positive Jacobian at the point. -/
theorem C77_normals_outward_pos {K : Type} [Field K] [LinearOrder K] [IsStrictOrderedRing K]
    (E : Fin 3 → Fin 8 → K) (f : Fin 6) (p : Fin 3 → K)
    (hp : p (faceDir f) = faceSide f) (hJ : 0 < det (hexJac E p)) :
    0 < dot (rawNormal (facePos E f) (toPatch f p).1 (toPatch f p).2)
      (fun i => faceSide f * hexJac E p i (faceDir f)) := by
  rw [C77_normals_outward E f p hp]; exact hJ

end faces

/-- C77: the column in front of a face is bounded by the five faces other than the opposite one,
each taken once. -/
theorem C77_column (f : Fin 6) :
    Function.Injective (columnFaces f) ∧ (∃ i, columnFaces f i = f) ∧
      ∀ g, (∃ i, columnFaces f i = g) ↔ g ≠ oppositeFace f := by
  revert f; decide

/-- C77: the patch coordinates of opposite faces describe opposite nodes: the element nodes of a
face are those with the face coordinate of that face. -/
theorem C77_face_nodes (f : Fin 6) (k : Fin 8) :
    (∃ j, faceNode f j = k) ↔
      ((k.val / 2 ^ (faceDir f).val) % 2 = if (f.val % 2 = 0) then 0 else 1) := by
  revert f k; decide

/-- The unit cube `[0,1]³` as element. -/
def unitCube : Fin 3 → Fin 8 → ℚ :=
  ![![0, 1, 0, 1, 0, 1, 0, 1], ![0, 0, 1, 1, 0, 0, 1, 1], ![0, 0, 0, 0, 1, 1, 1, 1]]

example : (![1, 0, 0] : Fin 3 → ℚ) (faceDir 1) = faceSide 1 ∧
    0 < det (hexJac unitCube ![1, 0, 0]) := by
  constructor
  · simp [faceDir, faceSide]
  · decide +kernel

/-- C76: the positions the search predicts are those of the motion that starts at the position of
the node with its velocity and keeps the acceleration of all forces at the node: as functions of the
time increment they start there, have that velocity, and their second derivative times the mass is the
contact force plus the sum of the corner forces at every time. -/
theorem C76_prediction (x v m fc : ℝ) (fs : List ℝ) (hm : m ≠ 0) :
    ∃ vel : ℝ → ℝ, predicted x v m fc fs 0 = x ∧ vel 0 = v ∧
      ∀ t, HasDerivAt (fun dt => predicted x v m fc fs dt) (vel t) t ∧
        ∃ a, HasDerivAt vel a t ∧ m * a = fc + fs.sum := by
  have hs : ∀ (l : List ℝ) (c : ℝ), l.foldl (· + ·) c = c + l.sum := by
    intro l
    induction l with
    | nil => intro c; simp
    | cons a l ih => intro c; rw [List.foldl_cons, ih, List.sum_cons]; ring
  refine ⟨fun t => v + (fc + fs.sum) / m * t, by simp [predicted], by simp, fun t => ⟨?_, ?_⟩⟩
  · have h : HasDerivAt (fun dt : ℝ => x + v * dt + 1 / 2 * ((fc + fs.sum) / m) * dt * dt)
        (v * 1 + ((1 / 2 * ((fc + fs.sum) / m) * 1) * t + 1 / 2 * ((fc + fs.sum) / m) * t * 1)) t :=
      (((hasDerivAt_id t).const_mul v).const_add x).add
        (((hasDerivAt_id t).const_mul (1 / 2 * ((fc + fs.sum) / m))).mul (hasDerivAt_id t))
    simp only [predicted, hs]
    exact h.congr_deriv (by ring)
  · refine ⟨(fc + fs.sum) / m, ?_, by field_simp⟩
    have h : HasDerivAt (fun t : ℝ => v + (fc + fs.sum) / m * t) ((fc + fs.sum) / m * 1) t :=
      ((hasDerivAt_id t).const_mul _).const_add v
    exact h.congr_deriv (by ring)

example : (2 : ℝ) ≠ 0 := by norm_num

end Fierro
