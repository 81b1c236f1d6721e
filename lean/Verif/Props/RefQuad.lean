import Verif.Model.RefQuad
import Mathlib.Analysis.SpecialFunctions.Integrals.Basic
import Mathlib.Algebra.Polynomial.Eval.Degree
import Mathlib.Tactic.IntervalCases
import Mathlib.Tactic.NormNum
import Mathlib.Tactic.Ring
import Mathlib.Tactic.Linarith

/-!
# C145: the tables of quadrature rules

Every rule of the tables is compared with the integral over `[-1, 1]` of every polynomial up to the
degree that the rule is made for: `2 n - 1` for `n` Gauss-Legendre points and `2 n - 3` for `n`
Gauss-Lobatto points.
-/

namespace Fierro

open Polynomial RefQuad

/-- The sum of a rule with points `xs` and weights `ws`. -/
noncomputable def ruleSum (xs ws : List ℝ) (P : ℝ[X]) : ℝ :=
  ((xs.zip ws).map fun a => a.2 * P.eval a.1).sum

/-- The size of the coefficients. -/
noncomputable def coeffSize (P : ℝ[X]) : ℝ := ∑ k ∈ Finset.range (P.natDegree + 1), |P.coeff k|

/-- The rule integrates all polynomials of degree below `d` up to `ε` times the size of the
coefficients. -/
def Integrates (xs ws : List ℝ) (d : ℕ) (ε : ℝ) : Prop :=
  ∀ P : ℝ[X], P.natDegree < d → |ruleSum xs ws P - ∫ x in (-1 : ℝ)..1, P.eval x| ≤ ε * coeffSize P

/-- The defect for a power, in the rational numbers. -/
def powDefect (xs ws : List ℚ) (k : ℕ) : ℚ :=
  ((xs.zip ws).map fun a => a.2 * a.1 ^ k).sum - (1 + (-1) ^ k) / (k + 1)

/-- The defect for a power. -/
noncomputable def powDefectR (xs ws : List ℝ) (k : ℕ) : ℝ :=
  ((xs.zip ws).map fun a => a.2 * a.1 ^ k).sum - (1 + (-1) ^ k) / (k + 1)

theorem powDefectR_cast (xs ws : List ℚ) (k : ℕ) :
    powDefectR (xs.map fun x : ℚ => (x : ℝ)) (ws.map fun x : ℚ => (x : ℝ)) k = (powDefect xs ws k : ℚ) := by
  have h : ∀ l : List (ℚ × ℚ), ((l.map fun a => ((a.1 : ℝ), (a.2 : ℝ))).map fun a => a.2 * a.1 ^ k).sum =
      (((l.map fun a => a.2 * a.1 ^ k).sum : ℚ) : ℝ) := by
    intro l
    induction l with
    | nil => simp
    | cons a l ih => simp only [List.map_cons, List.sum_cons, ih]; push_cast; rfl
  rw [powDefectR, List.zip_map]
  have e : (Prod.map (fun x : ℚ => (x : ℝ)) fun x : ℚ => (x : ℝ)) = fun a => ((a.1 : ℝ), (a.2 : ℝ)) := rfl
  rw [e, h, powDefect]
  push_cast
  rfl

theorem ruleSum_sub (xs ws : List ℝ) (P : ℝ[X]) :
    ruleSum xs ws P - ∫ x in (-1 : ℝ)..1, P.eval x =
      ∑ k ∈ Finset.range (P.natDegree + 1), P.coeff k * powDefectR xs ws k := by
  have h1 : ruleSum xs ws P = ∑ k ∈ Finset.range (P.natDegree + 1),
      P.coeff k * ((xs.zip ws).map fun a => a.2 * a.1 ^ k).sum := by
    unfold ruleSum
    generalize xs.zip ws = l
    induction l with
    | nil => simp
    | cons a l ih =>
      simp only [List.map_cons, List.sum_cons, ih, mul_add, Finset.sum_add_distrib]
      congr 1
      rw [eval_eq_sum_range, Finset.mul_sum]
      exact Finset.sum_congr rfl fun k _ => by ring
  have h2 : (∫ x in (-1 : ℝ)..1, P.eval x) = ∑ k ∈ Finset.range (P.natDegree + 1),
      P.coeff k * ((1 + (-1) ^ k) / (k + 1)) := by
    have : (fun x : ℝ => P.eval x) = fun x => ∑ k ∈ Finset.range (P.natDegree + 1), P.coeff k * x ^ k := by
      funext x
      rw [eval_eq_sum_range]
    rw [this, intervalIntegral.integral_finsetSum]
    · refine Finset.sum_congr rfl fun k _ => ?_
      rw [intervalIntegral.integral_const_mul, integral_pow]
      congr 2
      rw [one_pow, pow_succ]
      ring
    · intro k _
      exact (Continuous.intervalIntegrable (by fun_prop) _ _)
  rw [h1, h2, ← Finset.sum_sub_distrib]
  exact Finset.sum_congr rfl fun k _ => by rw [powDefectR]; ring

theorem integrates_of {xs ws : List ℝ} {d : ℕ} {ε : ℝ} (h : ∀ k < d, |powDefectR xs ws k| ≤ ε) :
    Integrates xs ws d ε := by
  intro P hP
  rw [ruleSum_sub, coeffSize, Finset.mul_sum]
  refine (Finset.abs_sum_le_sum_abs _ _).trans (Finset.sum_le_sum fun k hk => ?_)
  rw [abs_mul, mul_comm]
  exact mul_le_mul_of_nonneg_right (h k (by have := Finset.mem_range.mp hk; omega)) (abs_nonneg _)

theorem integrates_of_rat {xs ws : List ℚ} {d : ℕ} {q : ℚ} {ε : ℝ}
    (h : ∀ k ∈ List.range d, |powDefect xs ws k| ≤ q) (hq : (q : ℝ) = ε) :
    Integrates (xs.map fun x : ℚ => (x : ℝ)) (ws.map fun x : ℚ => (x : ℝ)) d ε := by
  refine integrates_of fun k hk => ?_
  rw [powDefectR_cast, ← hq]
  exact_mod_cast h k (List.mem_range.mpr hk)

theorem legendre_defects : ∀ n ∈ List.range 20, ∀ k ∈ List.range (if n = 0 then 0 else 2 * n),
    |powDefect (legendreNodesQ n) (legendreWeightsQ n) k| ≤ 1 / 10 ^ 29 := by
  decide +kernel

/-- With one to nineteen Gauss-Legendre points every polynomial of degree below twice their number is
integrated up to `1e-29` times the size of its coefficients. -/
theorem C145_legendre (n : ℕ) (h1 : 1 ≤ n) (h2 : n ≤ 19) :
    Integrates ((legendreNodesQ n).map fun x : ℚ => (x : ℝ)) ((legendreWeightsQ n).map fun x : ℚ => (x : ℝ))
      (2 * n) (1 / 10 ^ 29) := by
  have h := legendre_defects n (List.mem_range.mpr (by omega))
  rw [if_neg (by omega)] at h
  exact integrates_of_rat h (by norm_num)

theorem lobatto_defects : ∀ n ∈ [2, 3, 7, 8, 9, 10, 11, 13, 14, 15, 16, 17, 18, 19, 20],
    ∀ k ∈ List.range (2 * n - 2),
    |powDefect (lobattoNodesQ n) (lobattoWeightsQ n) k| ≤ 1 / 10 ^ 23 := by
  decide +kernel

theorem lobatto_defects12 : ∀ k ∈ List.range 22,
    |powDefect (lobattoNodesQ 12) (lobattoWeightsQ 12) k| ≤ 1 / 10 ^ 14 := by
  decide +kernel

theorem sqrt_pow4 {a : ℝ} (h : 0 ≤ a) : √a ^ 2 = a ∧ √a ^ 4 = a ^ 2 ∧ √a ^ 6 = a ^ 3 ∧ √a ^ 8 = a ^ 4 := by
  have e := Real.sq_sqrt h
  refine ⟨e, ?_, ?_, ?_⟩
  · calc √a ^ 4 = (√a ^ 2) ^ 2 := by ring
      _ = a ^ 2 := by rw [e]
  · calc √a ^ 6 = (√a ^ 2) ^ 3 := by ring
      _ = a ^ 3 := by rw [e]
  · calc √a ^ 8 = (√a ^ 2) ^ 4 := by ring
      _ = a ^ 4 := by rw [e]

theorem lobatto4 : ∀ k < 6, powDefectR (lobattoNodes 4) (lobattoWeights 4) k = 0 := by
  obtain ⟨h2, h4, -, -⟩ := sqrt_pow4 (a := 5) (by norm_num)
  intro k hk
  interval_cases k <;> simp [powDefectR, lobattoNodes, lobattoWeights, lobattoWeightsQ] <;> ring_nf <;>
    simp only [h2, h4] <;> norm_num

theorem lobatto5 : ∀ k < 8, powDefectR (lobattoNodes 5) (lobattoWeights 5) k = 0 := by
  obtain ⟨h2, h4, h6, -⟩ := sqrt_pow4 (a := 21) (by norm_num)
  intro k hk
  interval_cases k <;> simp [powDefectR, lobattoNodes, lobattoWeights, lobattoWeightsQ] <;> ring_nf <;>
    simp only [h2, h4, h6] <;> norm_num

theorem lobatto6 : ∀ k < 10, powDefectR (lobattoNodes 6) (lobattoWeights 6) k = 0 := by
  have hs : √(7 : ℝ) ^ 2 = 7 := Real.sq_sqrt (by norm_num)
  have hp : 0 ≤ √(7 : ℝ) := Real.sqrt_nonneg _
  have hle : √(7 : ℝ) ≤ 3 := by
    rw [Real.sqrt_le_left (by norm_num)]
    norm_num
  generalize hr : √(7 : ℝ) = r at hs hp hle
  obtain ⟨a2, a4, a6, a8⟩ := sqrt_pow4 (a := 1 / 21 * (7 + 2 * r)) (by linarith)
  obtain ⟨b2, b4, b6, b8⟩ := sqrt_pow4 (a := 1 / 21 * (7 - 2 * r)) (by linarith)
  have e : ∀ k, powDefectR (lobattoNodes 6) (lobattoWeights 6) k =
      1 / 15 * (-1) ^ k + 1 / 30 * (14 - r) * (-√(1 / 21 * (7 + 2 * r))) ^ k +
        1 / 30 * (14 + r) * (-√(1 / 21 * (7 - 2 * r))) ^ k +
        1 / 30 * (14 + r) * √(1 / 21 * (7 - 2 * r)) ^ k +
        1 / 30 * (14 - r) * √(1 / 21 * (7 + 2 * r)) ^ k + 1 / 15 * 1 ^ k - (1 + (-1) ^ k) / (k + 1) := by
    intro k
    simp only [powDefectR, lobattoNodes, lobattoWeights, hr, List.zip_cons_cons, List.zip_nil_left,
      List.map_cons, List.map_nil, List.sum_cons, List.sum_nil, add_zero]
    ring
  generalize √(1 / 21 * (7 + 2 * r)) = s at *
  generalize √(1 / 21 * (7 - 2 * r)) = t at *
  have h3 : r ^ 3 = 7 * r := by rw [pow_succ, hs]
  have h4 : r ^ 4 = 49 := by
    calc r ^ 4 = (r ^ 2) ^ 2 := by ring
      _ = 49 := by rw [hs]; norm_num
  have h5 : r ^ 5 = 49 * r := by rw [pow_succ, h4]
  intro k hk
  rw [e]
  have odd : ∀ x : ℝ, (-x) ^ 1 = -x ∧ (-x) ^ 3 = -x ^ 3 ∧ (-x) ^ 5 = -x ^ 5 ∧ (-x) ^ 7 = -x ^ 7 ∧
      (-x) ^ 9 = -x ^ 9 := fun x => ⟨by ring, by ring, by ring, by ring, by ring⟩
  have even : ∀ x : ℝ, (-x) ^ 2 = x ^ 2 ∧ (-x) ^ 4 = x ^ 4 ∧ (-x) ^ 6 = x ^ 6 ∧ (-x) ^ 8 = x ^ 8 :=
    fun x => ⟨by ring, by ring, by ring, by ring⟩
  obtain ⟨s2, s4, s6, s8⟩ := even s
  obtain ⟨t2, t4, t6, t8⟩ := even t
  interval_cases k
  · norm_num; ring
  · norm_num
  · rw [s2, t2, a2, b2]; push_cast; ring_nf; rw [hs]; norm_num
  · rw [(odd s).2.1, (odd t).2.1]; push_cast; ring
  · rw [s4, t4, a4, b4]; push_cast; ring_nf; rw [hs]; norm_num
  · rw [(odd s).2.2.1, (odd t).2.2.1]; push_cast; ring
  · rw [s6, t6, a6, b6]; push_cast; ring_nf; simp only [hs, h4]; norm_num
  · rw [(odd s).2.2.2.1, (odd t).2.2.2.1]; push_cast; ring
  · rw [s8, t8, a8, b8]; push_cast; ring_nf; simp only [hs, h4]; norm_num
  · rw [(odd s).2.2.2.2, (odd t).2.2.2.2]; push_cast; ring

/-- With two to twenty Gauss-Lobatto points, twelve excepted, every polynomial of degree at most twice
their number less three is integrated up to `1e-23` times the size of its coefficients. -/
theorem C145_lobatto (n : ℕ) (h1 : 2 ≤ n) (h2 : n ≤ 20) (h3 : n ≠ 12) :
    Integrates (lobattoNodes n) (lobattoWeights n) (2 * n - 2) (1 / 10 ^ 23) := by
  by_cases h4 : n = 4
  · subst h4
    exact integrates_of fun k hk => by rw [lobatto4 k hk]; norm_num
  by_cases h5 : n = 5
  · subst h5
    exact integrates_of fun k hk => by rw [lobatto5 k hk]; norm_num
  by_cases h6 : n = 6
  · subst h6
    exact integrates_of fun k hk => by rw [lobatto6 k hk]; norm_num
  have hm : n ∈ [2, 3, 7, 8, 9, 10, 11, 13, 14, 15, 16, 17, 18, 19, 20] := by
    interval_cases n <;> simp_all
  have hx : lobattoNodes n = (lobattoNodesQ n).map fun x : ℚ => (x : ℝ) := by
    unfold lobattoNodes
    split <;> first | contradiction | rfl
  have hw : lobattoWeights n = (lobattoWeightsQ n).map fun x : ℚ => (x : ℝ) := by
    unfold lobattoWeights
    split <;> first | contradiction | rfl
  rw [hx, hw]
  exact integrates_of_rat (lobatto_defects n hm) (by norm_num)

/-- The rule with one point, used for the thermodynamic points of linear elements, integrates linear
functions exactly. -/
theorem C145_lobatto_one : Integrates (lobattoNodes 1) (lobattoWeights 1) 2 0 := by
  refine integrates_of fun k hk => ?_
  interval_cases k <;> norm_num [powDefectR, lobattoNodes, lobattoWeights, lobattoNodesQ, lobattoWeightsQ]

/-- The rule with twelve Gauss-Lobatto points reaches `1e-14` only. -/
theorem C145_lobatto_twelve :
    Integrates (lobattoNodes 12) (lobattoWeights 12) 22 (1 / 10 ^ 14) :=
  integrates_of_rat lobatto_defects12 (by norm_num)

/-- The fourth and the ninth of twelve Gauss-Lobatto points have a wrong fourteenth digit, an error of
`9e-15` that a double resolves: the integral of the square is missed by more than `4e-15`, where the
thirty digits of the table allow `1e-29` (`common/include/ref_quadrature.hpp:146-159`). -/
theorem C145_lobatto_twelve_fails :
    ¬ Integrates (lobattoNodes 12) (lobattoWeights 12) 22 (4 / 10 ^ 15) := by
  intro h
  have h0 := h (X ^ 2) (by rw [natDegree_X_pow]; norm_num)
  rw [ruleSum_sub, coeffSize, natDegree_X_pow] at h0
  simp only [Finset.sum_range_succ, Finset.sum_range_zero, coeff_X_pow] at h0
  norm_num at h0
  have e : powDefectR (lobattoNodes 12) (lobattoWeights 12) 2 =
      (powDefect (lobattoNodesQ 12) (lobattoWeightsQ 12) 2 : ℚ) := powDefectR_cast _ _ _
  rw [e] at h0
  have h1 : (4 / 10 ^ 15 : ℚ) < |powDefect (lobattoNodesQ 12) (lobattoWeightsQ 12) 2| := by
    decide +kernel
  have h2 : ((4 / 10 ^ 15 : ℚ) : ℝ) < |((powDefect (lobattoNodesQ 12) (lobattoWeightsQ 12) 2 : ℚ) : ℝ)| := by
    exact_mod_cast h1
  norm_num at h2
  linarith

theorem legendre_shape : ∀ n ∈ List.range 20, n ≠ 0 →
    (legendreNodesQ n).length = n ∧ (legendreWeightsQ n).length = n ∧
    (legendreNodesQ n).Pairwise (· < ·) ∧ (∀ x ∈ legendreNodesQ n, -1 < x ∧ x < 1) ∧
    (∀ w ∈ legendreWeightsQ n, 0 < w) ∧
    (legendreNodesQ n).reverse = (legendreNodesQ n).map (- ·) ∧
    (legendreWeightsQ n).reverse = legendreWeightsQ n := by
  decide +kernel

/-- The Gauss-Legendre points are as many as asked for, increasing, inside the interval and symmetric;
the weights are positive and symmetric. -/
theorem C145_legendre_points (n : ℕ) (h1 : 1 ≤ n) (h2 : n ≤ 19) :
    (legendreNodesQ n).length = n ∧ (legendreWeightsQ n).length = n ∧
    (legendreNodesQ n).Pairwise (· < ·) ∧ (∀ x ∈ legendreNodesQ n, -1 < x ∧ x < 1) ∧
    (∀ w ∈ legendreWeightsQ n, 0 < w) ∧
    (legendreNodesQ n).reverse = (legendreNodesQ n).map (- ·) ∧
    (legendreWeightsQ n).reverse = legendreWeightsQ n :=
  legendre_shape n (List.mem_range.mpr (by omega)) (by omega)

theorem lobatto_shape : ∀ n ∈ [2, 3, 7, 8, 9, 10, 11, 12, 13, 14, 15, 16, 17, 18, 19, 20],
    (lobattoNodesQ n).length = n ∧ (lobattoWeightsQ n).length = n ∧
    (lobattoNodesQ n).Pairwise (· < ·) ∧ (lobattoNodesQ n).head? = some (-1) ∧
    (lobattoNodesQ n).getLast? = some 1 ∧ (∀ w ∈ lobattoWeightsQ n, 0 < w) ∧
    (lobattoNodesQ n).reverse = (lobattoNodesQ n).map (- ·) ∧
    (lobattoWeightsQ n).reverse = lobattoWeightsQ n := by
  decide +kernel

/-- The Gauss-Lobatto points are as many as asked for, increasing from `-1` to `1` and symmetric; the
weights are positive and symmetric. -/
theorem C145_lobatto_points (n : ℕ) (h1 : 2 ≤ n) (h2 : n ≤ 20) :
    (lobattoNodes n).length = n ∧ (lobattoWeights n).length = n ∧
    (lobattoNodes n).Pairwise (· < ·) ∧ (lobattoNodes n).head? = some (-1) ∧
    (lobattoNodes n).getLast? = some 1 ∧ (∀ w ∈ lobattoWeights n, 0 < w) ∧
    (lobattoNodes n).reverse = (lobattoNodes n).map (- ·) ∧
    (lobattoWeights n).reverse = lobattoWeights n := by
  by_cases h4 : n = 4
  · subst h4
    have p : 0 < √(5 : ℝ) := Real.sqrt_pos.mpr (by norm_num)
    have l : √(5 : ℝ) < 5 := by rw [Real.sqrt_lt' (by norm_num)]; norm_num
    have ex : lobattoNodes 4 = [-1, -(1 / 5 * √5), 1 / 5 * √5, 1] := by
      simp [lobattoNodes, neg_div]
    have ew : lobattoWeights 4 = [1 / 6, 5 / 6, 5 / 6, 1 / 6] := by
      simp [lobattoWeights, lobattoWeightsQ]
    rw [ex, ew]
    have q1 : 0 < 1 / 5 * √(5 : ℝ) := by linarith
    have q2 : 1 / 5 * √(5 : ℝ) < 1 := by linarith
    generalize 1 / 5 * √(5 : ℝ) = a at q1 q2
    refine ⟨rfl, rfl, ?_, rfl, rfl, ?_, by simp, rfl⟩
    · simp only [List.pairwise_cons, List.mem_cons, List.not_mem_nil, or_false, forall_eq_or_imp, forall_eq]
      refine ⟨⟨?_, ?_, ?_⟩, ⟨?_, ?_⟩, ?_, by simp, List.Pairwise.nil⟩ <;> linarith
    · intro w hw
      simp only [List.mem_cons, List.not_mem_nil, or_false] at hw
      rcases hw with rfl | rfl | rfl | rfl <;> norm_num
  by_cases h5 : n = 5
  · subst h5
    have p : 0 < √(21 : ℝ) := Real.sqrt_pos.mpr (by norm_num)
    have l : √(21 : ℝ) < 7 := by rw [Real.sqrt_lt' (by norm_num)]; norm_num
    have ex : lobattoNodes 5 = [-1, -(1 / 7 * √21), 0, 1 / 7 * √21, 1] := by
      simp [lobattoNodes, neg_div]
    have ew : lobattoWeights 5 = [1 / 10, 49 / 90, 32 / 45, 49 / 90, 1 / 10] := by
      simp [lobattoWeights, lobattoWeightsQ]
    rw [ex, ew]
    have q1 : 0 < 1 / 7 * √(21 : ℝ) := by linarith
    have q2 : 1 / 7 * √(21 : ℝ) < 1 := by linarith
    generalize 1 / 7 * √(21 : ℝ) = a at q1 q2
    refine ⟨rfl, rfl, ?_, rfl, rfl, ?_, by simp, rfl⟩
    · simp only [List.pairwise_cons, List.mem_cons, List.not_mem_nil, or_false, forall_eq_or_imp, forall_eq]
      refine ⟨⟨?_, ?_, ?_, ?_⟩, ⟨?_, ?_, ?_⟩, ⟨?_, ?_⟩, ?_, by simp, List.Pairwise.nil⟩ <;> linarith
    · intro w hw
      simp only [List.mem_cons, List.not_mem_nil, or_false] at hw
      rcases hw with rfl | rfl | rfl | rfl | rfl <;> norm_num
  by_cases h6 : n = 6
  · subst h6
    have p : 0 < √(7 : ℝ) := Real.sqrt_pos.mpr (by norm_num)
    have l : √(7 : ℝ) < 3 := by rw [Real.sqrt_lt' (by norm_num)]; norm_num
    have q0 : 0 < √(1 / 21 * (7 - 2 * √(7 : ℝ))) := Real.sqrt_pos.mpr (by linarith)
    have q1 : √(1 / 21 * (7 - 2 * √(7 : ℝ))) < √(1 / 21 * (7 + 2 * √(7 : ℝ))) :=
      Real.sqrt_lt_sqrt (by linarith) (by linarith)
    have q2 : √(1 / 21 * (7 + 2 * √(7 : ℝ))) < 1 := by
      rw [Real.sqrt_lt' (by norm_num)]
      linarith
    rw [lobattoNodes, lobattoWeights]
    generalize √(1 / 21 * (7 - 2 * √(7 : ℝ))) = a at q0 q1
    generalize √(1 / 21 * (7 + 2 * √(7 : ℝ))) = b at q1 q2
    refine ⟨rfl, rfl, ?_, rfl, rfl, ?_, by simp, rfl⟩
    · simp only [List.pairwise_cons, List.mem_cons, List.not_mem_nil, or_false, forall_eq_or_imp, forall_eq]
      refine ⟨⟨?_, ?_, ?_, ?_, ?_⟩, ⟨?_, ?_, ?_, ?_⟩, ⟨?_, ?_, ?_⟩, ⟨?_, ?_⟩, ?_, by simp,
        List.Pairwise.nil⟩ <;> linarith
    · intro w hw
      simp only [List.mem_cons, List.not_mem_nil, or_false] at hw
      rcases hw with rfl | rfl | rfl | rfl | rfl | rfl <;> linarith
  have hm : n ∈ [2, 3, 7, 8, 9, 10, 11, 12, 13, 14, 15, 16, 17, 18, 19, 20] := by
    interval_cases n <;> simp_all
  have hx : lobattoNodes n = (lobattoNodesQ n).map fun x : ℚ => (x : ℝ) := by
    unfold lobattoNodes
    split <;> first | contradiction | rfl
  have hw : lobattoWeights n = (lobattoWeightsQ n).map fun x : ℚ => (x : ℝ) := by
    unfold lobattoWeights
    split <;> first | contradiction | rfl
  obtain ⟨a1, a2, a3, a4, a5, a6, a7, a8⟩ := lobatto_shape n hm
  rw [hx, hw]
  refine ⟨by simp [a1], by simp [a2], ?_, by simp [a4], by simp [a5], ?_, ?_, ?_⟩
  · rw [List.pairwise_map]
    exact a3.imp fun h => by exact_mod_cast h
  · intro w hw
    obtain ⟨q, hq, rfl⟩ := List.mem_map.mp hw
    exact_mod_cast a6 q hq
  · rw [← List.map_reverse, a7, List.map_map, List.map_map]
    exact List.map_congr_left fun q _ => by simp
  · rw [← List.map_reverse, a8]

end Fierro
