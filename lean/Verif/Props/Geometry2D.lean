import Verif.Model.Geometry2D
import Verif.Proofs.Simpson
import Mathlib.Algebra.BigOperators.Fin
import Mathlib.Tactic.Ring
import Mathlib.Tactic.FinCases
import Mathlib.Tactic.Linarith
import Mathlib.Tactic.NormNum
import Mathlib.Tactic.LinearCombination

/-!
# C09: quadrilateral elements
-/

namespace Fierro

/-- **C09.** The nodal area vectors of any quadrilateral add up to zero. -/
theorem C09_bmatrix2D_sum_zero {K : Type} [Field K] (x y : Fin 4 → K) (d : Fin 2) :
    ∑ n, bmatrix2D x y n d = 0 := by
  fin_cases d <;> simp only [Fin.sum_univ_four, bmatrix2D] <;> ring

/-- Coordinate `e` of the nodes of a quadrilateral. -/
def coord2 {K : Type} (x y : Fin 4 → K) : Fin 2 → Fin 4 → K
  | 0 => x
  | 1 => y

/-- **C09.** `∑ₙ Bₙᵢ xₙⱼ = A δᵢⱼ` for any quadrilateral, `A` the area the code computes. -/
theorem C09_bmatrix2D_linear {K : Type} [Field K] (x y : Fin 4 → K) (i j : Fin 2) :
    ∑ n, bmatrix2D x y n i * coord2 x y j n = if i = j then areaQuad x y else 0 := by
  fin_cases i <;> fin_cases j <;>
    simp only [Fin.sum_univ_four, bmatrix2D, coord2, areaQuad, Fin.isValue, Fin.mk_one,
      Fin.zero_eta, Fin.reduceEq, if_true, if_false] <;> ring

/-- Signed area of the triangle `(x1,y1) (x2,y2) (x3,y3)`, positive when it is traversed
counter-clockwise (specification). -/
noncomputable def triArea (x1 y1 x2 y2 x3 y3 : ℝ) : ℝ :=
  ((x2 - x1) * (y3 - y1) - (x3 - x1) * (y2 - y1)) / 2

/-- **C09.** The Heron routine returns the absolute area of every triangle. -/
theorem C09_heron_eq (x1 y1 x2 y2 x3 y3 : ℝ) :
    heron x1 y1 x2 y2 x3 y3 = |triArea x1 y1 x2 y2 x3 y3| := by
  have ha := Real.sq_sqrt (show (0:ℝ) ≤ (x2 - x1) * (x2 - x1) + (y2 - y1) * (y2 - y1) by
    nlinarith [sq_nonneg (x2 - x1), sq_nonneg (y2 - y1)])
  have hb := Real.sq_sqrt (show (0:ℝ) ≤ (x3 - x2) * (x3 - x2) + (y3 - y2) * (y3 - y2) by
    nlinarith [sq_nonneg (x3 - x2), sq_nonneg (y3 - y2)])
  have hc := Real.sq_sqrt (show (0:ℝ) ≤ (x3 - x1) * (x3 - x1) + (y3 - y1) * (y3 - y1) by
    nlinarith [sq_nonneg (x3 - x1), sq_nonneg (y3 - y1)])
  unfold heron triArea
  simp only
  generalize Real.sqrt ((x2 - x1) * (x2 - x1) + (y2 - y1) * (y2 - y1)) = a at *
  generalize Real.sqrt ((x3 - x2) * (x3 - x2) + (y3 - y2) * (y3 - y2)) = b at *
  generalize Real.sqrt ((x3 - x1) * (x3 - x1) + (y3 - y1) * (y3 - y1)) = c at *
  rw [← Real.sqrt_sq_eq_abs]
  congr 1
  have key : (0 + a + b + c) * (1 / 2) * ((0 + a + b + c) * (1 / 2) - a) *
      ((0 + a + b + c) * (1 / 2) - b) * ((0 + a + b + c) * (1 / 2) - c)
      = (2 * a ^ 2 * b ^ 2 + 2 * b ^ 2 * c ^ 2 + 2 * c ^ 2 * a ^ 2
          - (a ^ 2) ^ 2 - (b ^ 2) ^ 2 - (c ^ 2) ^ 2) / 16 := by ring
  rw [key, ha, hb, hc]
  ring

/-- **C09.** The corner areas always add up to the sum of the absolute areas of the four
triangles spanned by the edges and the node average. -/
theorem areaWeights2D_sum (x y : Fin 4 → ℝ) :
    ∑ n, areaWeights2D x y n
      = |triArea (x 0) (y 0) (quadCentre x) (quadCentre y) (x 1) (y 1)|
      + |triArea (x 1) (y 1) (quadCentre x) (quadCentre y) (x 2) (y 2)|
      + |triArea (x 2) (y 2) (quadCentre x) (quadCentre y) (x 3) (y 3)|
      + |triArea (x 3) (y 3) (quadCentre x) (quadCentre y) (x 0) (y 0)| := by
  simp only [Fin.sum_univ_four, areaWeights2D, C09_heron_eq]
  ring

/-- **C09.** The corner areas add up to the element area exactly when the four triangles spanned
by the edges and the node average are all traversed counter-clockwise (or degenerate). -/
theorem C09_corner_areas_iff (x y : Fin 4 → ℝ) :
    ∑ n, areaWeights2D x y n = areaQuad x y ↔
      0 ≤ triArea (x 0) (y 0) (x 1) (y 1) (quadCentre x) (quadCentre y) ∧
      0 ≤ triArea (x 1) (y 1) (x 2) (y 2) (quadCentre x) (quadCentre y) ∧
      0 ≤ triArea (x 2) (y 2) (x 3) (y 3) (quadCentre x) (quadCentre y) ∧
      0 ≤ triArea (x 3) (y 3) (x 0) (y 0) (quadCentre x) (quadCentre y) := by
  rw [areaWeights2D_sum]
  have hs : ∀ a b c d e f : ℝ, triArea a b c d e f = -triArea a b e f c d := by
    intros; unfold triArea; ring
  rw [hs (x 0), hs (x 1), hs (x 2), hs (x 3)]
  simp only [abs_neg]
  have hA : areaQuad x y
      = triArea (x 0) (y 0) (x 1) (y 1) (quadCentre x) (quadCentre y)
      + triArea (x 1) (y 1) (x 2) (y 2) (quadCentre x) (quadCentre y)
      + triArea (x 2) (y 2) (x 3) (y 3) (quadCentre x) (quadCentre y)
      + triArea (x 3) (y 3) (x 0) (y 0) (quadCentre x) (quadCentre y) := by
    unfold triArea areaQuad quadCentre; ring
  rw [hA]
  generalize triArea (x 0) (y 0) (x 1) (y 1) (quadCentre x) (quadCentre y) = p
  generalize triArea (x 1) (y 1) (x 2) (y 2) (quadCentre x) (quadCentre y) = q
  generalize triArea (x 2) (y 2) (x 3) (y 3) (quadCentre x) (quadCentre y) = r
  generalize triArea (x 3) (y 3) (x 0) (y 0) (quadCentre x) (quadCentre y) = s
  constructor
  · intro h
    have := le_abs_self p
    have := le_abs_self q
    have := le_abs_self r
    have := le_abs_self s
    refine ⟨?_, ?_, ?_, ?_⟩ <;>
      first
      | exact abs_eq_self.1 (by linarith)
  · rintro ⟨h1, h2, h3, h4⟩
    rw [abs_of_nonneg h1, abs_of_nonneg h2, abs_of_nonneg h3, abs_of_nonneg h4]

/-- A quadrilateral traversed counter-clockwise without reflex corner: every three consecutive
nodes turn left (specification). -/
def ConvexCCW (x y : Fin 4 → ℝ) : Prop :=
  0 ≤ triArea (x 0) (y 0) (x 1) (y 1) (x 2) (y 2) ∧
  0 ≤ triArea (x 1) (y 1) (x 2) (y 2) (x 3) (y 3) ∧
  0 ≤ triArea (x 2) (y 2) (x 3) (y 3) (x 0) (y 0) ∧
  0 ≤ triArea (x 3) (y 3) (x 0) (y 0) (x 1) (y 1)

/-- **C09.** For every convex counter-clockwise element the four corner areas add up exactly to
the element area. -/
theorem C09_corner_areas_convex (x y : Fin 4 → ℝ) (h : ConvexCCW x y) :
    ∑ n, areaWeights2D x y n = areaQuad x y := by
  rw [C09_corner_areas_iff]
  obtain ⟨h0, h1, h2, h3⟩ := h
  unfold triArea at *
  unfold quadCentre
  refine ⟨?_, ?_, ?_, ?_⟩ <;> linarith

/-- The hypothesis is met by a trapezoid that is not a rectangle. -/
example : ConvexCCW ![0, 3, 2, 1] ![0, 0, 1, 1] := by
  simp only [ConvexCCW, triArea]
  simp
  norm_num

/-- **C09 (negative result).** The statement for *every* quadrilateral is false: a quadrilateral
numbered clockwise has corner areas adding up to minus the area. -/
theorem C09_corner_areas_clockwise_fails :
    ∑ n, areaWeights2D ![0, 0, 1, 1] ![0, 1, 1, 0] n
      ≠ areaQuad ![0, 0, 1, 1] ![0, 1, 1, 0] := by
  rw [Ne, C09_corner_areas_iff]
  rintro ⟨h, -⟩
  simp [triArea, quadCentre] at h
  norm_num at h

/-- **C09 (negative result).** It is also false for a counter-clockwise arrow-head (one reflex
corner), although its area is positive. -/
theorem C09_corner_areas_reflex_fails :
    0 < areaQuad (K := ℝ) ![0, 4, 1 / 2, 0] ![0, 0, 1 / 2, 4] ∧
    ∑ n, areaWeights2D ![0, 4, 1 / 2, 0] ![0, 0, 1 / 2, 4] n
      ≠ areaQuad ![0, 4, 1 / 2, 0] ![0, 0, 1 / 2, 4] := by
  refine ⟨by simp [areaQuad]; norm_num, ?_⟩
  rw [Ne, C09_corner_areas_iff]
  rintro ⟨-, h, -⟩
  simp [triArea, quadCentre] at h
  norm_num at h

/-! ### Area and revolved volume are the exact integrals over the bilinear element -/

/-- Bilinear interpolation of nodal values, counter-clockwise node order (specification). -/
noncomputable def bilinear (f : Fin 4 → ℝ) (s t : ℝ) : ℝ :=
  f 0 * ((1 - s) * (1 - t)) + f 1 * (s * (1 - t)) + f 2 * (s * t) + f 3 * ((1 - s) * t)

/-- Jacobian determinant of the map from the unit square to the quadrilateral (specification). -/
noncomputable def jac2 (x y : Fin 4 → ℝ) (s t : ℝ) : ℝ :=
  deriv (fun s => bilinear x s t) s * deriv (fun t => bilinear y s t) t
    - deriv (fun t => bilinear x s t) t * deriv (fun s => bilinear y s t) s

private theorem deriv_affine' (a b s : ℝ) (g : ℝ → ℝ) (h : ∀ t, g t = a + b * t) :
    deriv g s = b := by
  rw [show g = fun t => a + b * t from funext h]
  have h1 : HasDerivAt (fun t : ℝ => a + b * t) b s := by
    simpa using ((hasDerivAt_id s).const_mul b).const_add a
  exact h1.deriv

private theorem jac2_eq (x y : Fin 4 → ℝ) (s t : ℝ) :
    jac2 x y s t = ((x 1 - x 0) * (1 - t) + (x 2 - x 3) * t)
        * ((y 3 - y 0) * (1 - s) + (y 2 - y 1) * s)
      - ((x 3 - x 0) * (1 - s) + (x 2 - x 1) * s)
        * ((y 1 - y 0) * (1 - t) + (y 2 - y 3) * t) := by
  have hs : ∀ f : Fin 4 → ℝ, deriv (fun s => bilinear f s t) s
      = (f 1 - f 0) * (1 - t) + (f 2 - f 3) * t := fun f =>
    deriv_affine' (f 0 * (1 - t) + f 3 * t) _ _ _ (by intro s; unfold bilinear; ring)
  have ht : ∀ f : Fin 4 → ℝ, deriv (fun t => bilinear f s t) t
      = (f 3 - f 0) * (1 - s) + (f 2 - f 1) * s := fun f =>
    deriv_affine' (f 0 * (1 - s) + f 1 * s) _ _ _ (by intro t; unfold bilinear; ring)
  simp only [jac2, hs, ht]

/-- **C09.** The area the code computes is the exact (signed) area of the bilinear element. -/
theorem C09_area_is_integral (x y : Fin 4 → ℝ) :
    ∫ s in (0:ℝ)..1, ∫ t in (0:ℝ)..1, jac2 x y s t = areaQuad x y := by
  simp only [jac2_eq]
  rw [integral2_simpson]
  · simp only [simpson, areaQuad]; ring
  · intro t s; ring
  · intro s t; ring

/-- **C09.** The r-z volume the code computes (before its floor) is the exact integral of the
radius `y` over the bilinear element, i.e. the volume per radian swept around the axis. -/
theorem C09_rz_volume_is_integral (x y : Fin 4 → ℝ) :
    ∫ s in (0:ℝ)..1, ∫ t in (0:ℝ)..1, bilinear y s t * jac2 x y s t = quadVolRaw x y := by
  simp only [jac2_eq]
  rw [integral2_simpson]
  · simp only [simpson, quadVolRaw, bilinear]; ring
  · intro t s; simp only [bilinear]; ring
  · intro s t; simp only [bilinear]; ring

/-- **C09 (floor).** The volume handed on is never below the floor of `10⁻¹⁴`, and is the one of the formula wherever that
one is not below the floor. -/
theorem C09_rz_volume_floor (x y : Fin 4 → ℝ) :
    1e-14 ≤ volQuad x y ∧ (1e-14 ≤ quadVolRaw x y → volQuad x y = quadVolRaw x y) ∧
    (quadVolRaw x y ≤ 1e-14 → volQuad x y = 1e-14) := by
  have hf : (volFloor : ℝ) = 1e-14 := by unfold volFloor; norm_num
  unfold volQuad
  rw [hf]
  exact ⟨le_max_right _ _, fun h => max_eq_left h, fun h => max_eq_right h⟩

end Fierro
