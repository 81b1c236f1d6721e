import Verif.Model.EvpStress
import Verif.Props.EvpTensor
import Mathlib.Analysis.Calculus.Deriv.Pow
import Mathlib.Analysis.Calculus.Deriv.Add
import Mathlib.Analysis.Calculus.Deriv.Mul
import Mathlib.Analysis.Calculus.Deriv.Comp
import Mathlib.Tactic.Linarith

/-!
# C72: stress update at a grid point
-/

set_option linter.unusedSectionVars false

namespace Fierro

/-! ### The flow rule -/

namespace SlipState

/-- Admissible parameters. -/
structure Good (s : SlipState) : Prop where
  crss1 : 0 < s.crss1
  crss2 : 0 < s.crss2
  gamd0 : 0 ≤ s.gamd0
  nrs : 1 ≤ s.nrs

end SlipState

/-- **C72.** The shear rate is the power law: `γ̇₀ (τ/τc)ⁿ` forward with the forward strength, and
`-γ̇₀ (-τ/τc')ⁿ` backward with the backward strength, for even and odd exponents. -/
theorem C72_flow_rule (s : SlipState) (h : s.Good) (n : ℕ) (hn : s.nrs = n) (t : ℝ) :
    s.rateAt t = if t < 0 then -(s.gamd0 * (-t / s.crss2) ^ n) else s.gamd0 * (t / s.crss1) ^ n := by
  have hp : powIntExpo (s.rssAt t) s.nrs = (s.rssAt t) ^ n := by
    rw [C65_power _ _ (Or.inr (by have := h.nrs; omega)), hn, zpow_natCast]
  unfold SlipState.rateAt
  rw [hp]
  unfold SlipState.rssAt SlipState.crssAt SlipState.signOne
  by_cases ht : t < 0
  · have hneg : t / s.crss2 < 0 := div_neg_of_neg_of_pos ht h.crss2
    simp only [if_pos ht, if_pos hneg, abs_pow, abs_of_neg hneg, neg_div]
    ring
  · have hpos : 0 ≤ t / s.crss1 := div_nonneg (not_lt.mp ht) h.crss1.le
    simp only [if_neg ht, if_neg (not_lt.mpr hpos), abs_pow, abs_of_nonneg hpos]
    ring

theorem nrs_cast (s : SlipState) (h : s.Good) : ∃ n : ℕ, s.nrs = n ∧ 1 ≤ n :=
  ⟨s.nrs.toNat, by have := h.nrs; omega, by have := h.nrs; omega⟩

/-- **C72.** The shear rate never decreases with the driving stress and vanishes with it: slip follows
the sense of the stress. -/
theorem C72_monotone (s : SlipState) (h : s.Good) :
    (∀ t t', t ≤ t' → s.rateAt t ≤ s.rateAt t') ∧ s.rateAt 0 = 0 ∧ ∀ t, 0 ≤ s.rateAt t * t := by
  obtain ⟨n, hn, h1⟩ := nrs_cast s h
  have hm : ∀ t t', t ≤ t' → s.rateAt t ≤ s.rateAt t' := by
    intro t t' ht
    rw [C72_flow_rule s h n hn, C72_flow_rule s h n hn]
    have hg := h.gamd0
    split_ifs with a b b
    · have : (-t' / s.crss2) ^ n ≤ (-t / s.crss2) ^ n :=
        pow_le_pow_left₀ (div_nonneg (by linarith) h.crss2.le)
          (div_le_div_of_nonneg_right (by linarith) h.crss2.le) n
      have := mul_le_mul_of_nonneg_left this hg
      linarith
    · have e1 : 0 ≤ s.gamd0 * (-t / s.crss2) ^ n :=
        mul_nonneg hg (pow_nonneg (div_nonneg (by linarith) h.crss2.le) n)
      have e2 : 0 ≤ s.gamd0 * (t' / s.crss1) ^ n :=
        mul_nonneg hg (pow_nonneg (div_nonneg (not_lt.mp b) h.crss1.le) n)
      linarith
    · exact absurd (lt_of_le_of_lt ht b) a
    · exact mul_le_mul_of_nonneg_left (pow_le_pow_left₀ (div_nonneg (not_lt.mp a) h.crss1.le)
        (div_le_div_of_nonneg_right ht h.crss1.le) n) hg
  have h0 : s.rateAt 0 = 0 := by
    rw [C72_flow_rule s h n hn, if_neg (lt_irrefl _), zero_div, zero_pow (by omega), mul_zero]
  refine ⟨hm, h0, fun t => ?_⟩
  rcases le_total 0 t with ht | ht
  · have := hm 0 t ht
    rw [h0] at this
    exact mul_nonneg this ht
  · have := hm t 0 ht
    rw [h0] at this
    exact mul_nonneg_of_nonpos_of_nonpos this ht

/-- **C72.** The tangent used in the Newton matrix is the derivative of the flow rule. -/
theorem C72_tangent (s : SlipState) (h : s.Good) (t : ℝ) (ht : t ≠ 0) :
    HasDerivAt s.rateAt (s.rss1At t) t := by
  obtain ⟨n, hn, h1⟩ := nrs_cast s h
  have hp : powIntExpo (s.rssAt t) (s.nrs - 1) = (s.rssAt t) ^ (n - 1) := by
    rw [C65_power _ _ (Or.inr (by have := h.nrs; omega)), hn,
      show ((n : ℤ) - 1) = ((n - 1 : ℕ) : ℤ) by omega, zpow_natCast]
  have e : s.rateAt = fun t => if t < 0 then -(s.gamd0 * (-t / s.crss2) ^ n)
      else s.gamd0 * (t / s.crss1) ^ n := funext fun t => C72_flow_rule s h n hn t
  unfold SlipState.rss1At
  rw [hp, hn]
  unfold SlipState.rssAt SlipState.crssAt
  have hc1 := h.crss1.ne'
  have hc2 := h.crss2.ne'
  rcases lt_or_gt_of_ne ht with hneg | hpos
  · have hq : t / s.crss2 < 0 := div_neg_of_neg_of_pos hneg h.crss2
    simp only [if_pos hneg, abs_pow, abs_of_neg hq]
    have hd : HasDerivAt (fun t => -(s.gamd0 * (-t / s.crss2) ^ n))
        (s.gamd0 * (n : ℤ) * (-(t / s.crss2)) ^ (n - 1) / s.crss2) t := by
      have h0 : HasDerivAt (fun t : ℝ => -t / s.crss2) (-1 / s.crss2) t :=
        ((hasDerivAt_id t).neg).div_const _
      have h2 : HasDerivAt (fun t : ℝ => -(s.gamd0 * (-t / s.crss2) ^ n))
          (-(s.gamd0 * (n * (-t / s.crss2) ^ (n - 1) * (-1 / s.crss2)))) t :=
        ((h0.pow n).const_mul s.gamd0).neg
      refine h2.congr_deriv ?_
      rw [neg_div]
      push_cast
      field_simp
    refine hd.congr_of_eventuallyEq ?_
    rw [e]
    filter_upwards [gt_mem_nhds hneg] with x hx
    rw [if_pos hx]
  · have hq : 0 < t / s.crss1 := div_pos hpos h.crss1
    simp only [if_neg (not_lt.mpr hpos.le), abs_pow, abs_of_pos hq]
    have hd : HasDerivAt (fun t => s.gamd0 * (t / s.crss1) ^ n)
        (s.gamd0 * (n : ℤ) * (t / s.crss1) ^ (n - 1) / s.crss1) t := by
      have h0 : HasDerivAt (fun t : ℝ => t / s.crss1) (1 / s.crss1) t := (hasDerivAt_id t).div_const _
      have h2 : HasDerivAt (fun t : ℝ => s.gamd0 * (t / s.crss1) ^ n)
          (s.gamd0 * (n * (t / s.crss1) ^ (n - 1) * (1 / s.crss1))) t :=
        (h0.pow n).const_mul s.gamd0
      refine h2.congr_deriv ?_
      push_cast
      field_simp
    refine hd.congr_of_eventuallyEq ?_
    rw [e]
    filter_upwards [lt_mem_nhds hpos] with x hx
    rw [if_neg (not_lt.mpr hx.le)]

/-! ### Plastic rate -/

/-- Resolved shear of any six-component vector on a system. -/
def SlipState.resolved (s : SlipState) (x : Fin 6 → ℝ) : ℝ := ∑ k : Fin 5, s.sch k * x k.castSucc

theorem drive_eq (s : SlipState) (x : Fin 6 → ℝ) : s.drive x = s.resolved x - s.xkin := by
  simp only [SlipState.drive, SlipState.resolved, Fin.sum_univ_five]
  rfl

theorem foldl_list_sum {α : Type} (l : List α) (f : α → ℝ) :
    l.foldl (fun acc s => acc + f s) 0 = (l.map f).sum := by
  have : ∀ (l : List α) (a : ℝ), l.foldl (fun acc s => acc + f s) a = a + (l.map f).sum := by
    intro l
    induction l with
    | nil => intro a; simp
    | cons x xs ih => intro a; rw [List.foldl_cons, ih, List.map_cons, List.sum_cons]; ring
  rw [this, zero_add]

theorem plasticRate6_castSucc (sys : List SlipState) (sg6 : Fin 6 → ℝ) (k : Fin 5) :
    plasticRate6 sys sg6 k.castSucc = (sys.map fun s => s.sch k * s.rateAt (s.drive sg6)).sum := by
  unfold plasticRate6
  rw [dif_pos (show (k.castSucc : ℕ) < 5 from k.isLt), foldl_list_sum]
  rfl

theorem plasticRate6_last (sys : List SlipState) (sg6 : Fin 6 → ℝ) :
    plasticRate6 sys sg6 (Fin.last 5) = 0 := by
  unfold plasticRate6
  rw [dif_neg (by simp)]

theorem sum_list_comm {α : Type} (l : List α) (f : Fin 5 → α → ℝ) :
    ∑ k, (l.map (f k)).sum = (l.map fun s => ∑ k, f k s).sum := by
  induction l with
  | nil => simp
  | cons x xs ih => simp only [List.map_cons, List.sum_cons, Finset.sum_add_distrib, ih]

theorem list_sum_sub {α : Type} (l : List α) (f g : α → ℝ) :
    (l.map fun s => f s - g s).sum = (l.map f).sum - (l.map g).sum := by
  induction l with
  | nil => simp
  | cons x xs ih => simp only [List.map_cons, List.sum_cons, ih]; ring

theorem plastic_inner (sys : List SlipState) (sg6 x : Fin 6 → ℝ) :
    ∑ i, plasticRate6 sys sg6 i * x i =
      (sys.map fun s => s.rateAt (s.drive sg6) * s.resolved x).sum := by
  rw [Fin.sum_univ_castSucc, plasticRate6_last, zero_mul, add_zero]
  simp only [plasticRate6_castSucc, ← List.sum_map_mul_right]
  rw [sum_list_comm]
  congr 1
  refine List.map_congr_left fun s _ => ?_
  simp only [SlipState.resolved, Finset.mul_sum]
  exact Finset.sum_congr rfl fun k _ => by ring

/-- **C72.** Plastic flow is volume preserving and symmetric for every stress and every set of systems. -/
theorem C72_traceless (q : BasisConst ℝ) (sys : List SlipState) (sg6 : Fin 6 → ℝ) :
    let D := chgBasis1 q (le_refl 6) (plasticRate6 sys sg6)
    D.Sym ∧ D 0 0 + D 1 1 + D 2 2 = 0 := by
  refine ⟨C66_symmetric q _ _, ?_⟩
  have e : chgBasis1 q (le_refl 6) (plasticRate6 sys sg6) =
      chgBasis1 q (by omega : 5 ≤ 6) (fun k => plasticRate6 sys sg6 k.castSucc) := by
    funext i j
    rw [chgBasis1_eq, chgBasis1_eq]
    dsimp only
    rw [Fin.sum_univ_castSucc, plasticRate6_last, zero_mul, add_zero]
    rfl
  rw [e]
  exact C66_traceless q _

/-- **C72.** Without kinematic stress the plastic power `ε̇ᵖ : σ` is never negative. -/
theorem C72_dissipation (q : BasisConst ℝ) (hq : q.Exact) (sys : List SlipState)
    (hg : ∀ s ∈ sys, s.Good ∧ s.xkin = 0) (S : T2 ℝ) :
    0 ≤ ∑ i, ∑ j, chgBasis1 q (le_refl 6) (plasticRate6 sys (chgBasis2 q le_rfl S)) i j * S i j := by
  have e := C66_inner q hq (chgBasis1 q (le_refl 6) (plasticRate6 sys (chgBasis2 q le_rfl S))) S
    (C66_symmetric q _ _)
  rw [← e, C66_vector_roundtrip q hq, plastic_inner]
  apply List.sum_nonneg
  intro x hx
  obtain ⟨s, hs, rfl⟩ := List.mem_map.mp hx
  have : s.resolved (chgBasis2 q le_rfl S) = s.drive (chgBasis2 q le_rfl S) := by
    rw [drive_eq, (hg s hs).2, sub_zero]
  rw [this]
  exact (C72_monotone s (hg s hs).1).2.2 _

/-! ### The equation -/

theorem invertView_inverse {n : ℕ} (M : Dense n ℝ) (h : PosForm M) :
    InverseOf M (invertView M) ∧ PosForm (invertView M) := by
  have ht : PosForm (fun i j => M j i) := by
    intro x hx
    have := h x hx
    rw [Finset.sum_comm] at this
    refine lt_of_lt_of_eq this ?_
    exact Finset.sum_congr rfl fun i _ => Finset.sum_congr rfl fun j _ => by ring
  have hi : InverseOf M (invertView M) := C65_column_major M (C65_positive_definite _ ht).1
  exact ⟨hi, hi.posForm h⟩

namespace EvpalIn

/-- Admissible data: positive definite stiffness and reference stiffness, admissible systems, a time
step that is not negative. -/
structure Good (d : EvpalIn) : Prop where
  cg : PosForm d.cg66
  c0 : PosForm d.c066
  tdot : 0 ≤ d.tdot
  sys : ∀ s ∈ d.sys, s.Good

end EvpalIn

theorem apply_inverse {n : ℕ} {A B : Dense n ℝ} (h : InverseOf A B) (x : Fin n → ℝ) (i : Fin n) :
    ∑ k, B i k * (∑ j, A k j * x j) = x i := by
  calc ∑ k, B i k * (∑ j, A k j * x j) = ∑ j, (∑ k, B i k * A k j) * x j := by
        simp only [Finset.mul_sum, Finset.sum_mul]
        rw [Finset.sum_comm]
        exact Finset.sum_congr rfl fun j _ => Finset.sum_congr rfl fun k _ => by ring
    _ = x i := by
        simp only [fun j => (h i j).1]
        simp

/-- Core of uniqueness and regularity: `x + C₀ y = 0` with `x·y` not smaller than `x·S x` forces `x = 0`. -/
theorem zero_of_augmented {C0 : Dense 6 ℝ} (h0 : PosForm C0) (x y : Fin 6 → ℝ)
    (hxy : 0 ≤ ∑ i, x i * y i) (h : ∀ i, x i + ∑ j, C0 i j * y j = 0) : x = 0 := by
  obtain ⟨hi, hp⟩ := invertView_inverse C0 h0
  by_contra hne
  have hpos := hp x hne
  have e : ∀ i, ∑ k, invertView C0 i k * x k + y i = 0 := by
    intro i
    have a := apply_inverse hi y i
    rw [← a, ← Finset.sum_add_distrib]
    refine Finset.sum_eq_zero fun k _ => ?_
    rw [← mul_add, h k, mul_zero]
  have s : ∑ i, x i * (∑ k, invertView C0 i k * x k + y i) = 0 :=
    Finset.sum_eq_zero fun i _ => by rw [e i, mul_zero]
  have s2 : ∑ i, x i * (∑ k, invertView C0 i k * x k + y i) =
      ∑ i, ∑ k, x i * invertView C0 i k * x k + ∑ i, x i * y i := by
    rw [← Finset.sum_add_distrib]
    refine Finset.sum_congr rfl fun i _ => ?_
    rw [mul_add, Finset.mul_sum]
    congr 1
    exact Finset.sum_congr rfl fun k _ => by ring
  linarith

/-- **C72.** The stress equation of a grid point has at most one solution, whatever the slip systems,
exponents and the time step are; a stress found by the iteration is the only one. -/
theorem C72_unique (d : EvpalIn) (hd : d.Good) (x y : Fin 6 → ℝ) (hx : ∀ i, d.residual x i = 0)
    (hy : ∀ i, d.residual y i = 0) : x = y := by
  have hS := (invertView_inverse d.cg66 hd.cg).2
  have key : (fun i => x i - y i) = 0 := by
    refine zero_of_augmented hd.c0 _ (fun i => d.strainceq6 x i - d.strainceq6 y i) ?_ ?_
    · have e : ∑ i, (x i - y i) * (d.strainceq6 x i - d.strainceq6 y i) =
          d.tdot * (∑ i, d.rate6 x i * (x i - y i) - ∑ i, d.rate6 y i * (x i - y i)) +
            ∑ i, ∑ j, (x i - y i) * d.sg66 i j * (x j - y j) := by
        rw [← Finset.sum_sub_distrib, Finset.mul_sum, ← Finset.sum_add_distrib]
        refine Finset.sum_congr rfl fun i _ => ?_
        have e1 : ∑ j, (x i - y i) * d.sg66 i j * (x j - y j) =
            (x i - y i) * (∑ j, d.sg66 i j * x j - ∑ j, d.sg66 i j * y j) := by
          rw [← Finset.sum_sub_distrib, Finset.mul_sum]
          exact Finset.sum_congr rfl fun j _ => by ring
        rw [e1]
        simp only [EvpalIn.strainceq6]
        cases he : d.elastic
        · simp; ring
        · simp [EvpalIn.rate6, he]
      rw [e]
      have h1 : 0 ≤ ∑ i, ∑ j, (x i - y i) * d.sg66 i j * (x j - y j) := by
        by_cases hz : (fun i => x i - y i) = 0
        · have hz' : ∀ i, x i - y i = 0 := fun i => congrFun hz i
          simp [hz']
        · exact (hS _ hz).le
      have h2 : 0 ≤ ∑ i, d.rate6 x i * (x i - y i) - ∑ i, d.rate6 y i * (x i - y i) := by
        cases he : d.elastic
        · simp only [EvpalIn.rate6, he, Bool.false_eq_true, if_false]
          rw [plastic_inner, plastic_inner, ← list_sum_sub]
          apply List.sum_nonneg
          intro z hz
          obtain ⟨s, hs, rfl⟩ := List.mem_map.mp hz
          have hm := (C72_monotone s (hd.sys s hs)).1
          have hr : s.resolved (fun i => x i - y i) = s.drive x - s.drive y := by
            rw [drive_eq, drive_eq]
            simp only [SlipState.resolved, mul_sub, Finset.sum_sub_distrib]
            ring
          rw [hr]
          rcases le_total (s.drive x) (s.drive y) with hle | hle
          · have := hm _ _ hle
            nlinarith
          · have := hm _ _ hle
            nlinarith
        · simp [EvpalIn.rate6, he]
      exact add_nonneg (mul_nonneg hd.tdot h2) h1
    · intro i
      have a := hx i
      have b := hy i
      simp only [EvpalIn.residual] at a b
      have c : ∑ j, d.c066 i j * (d.strainceq6 x j - d.strainceq6 y j) =
          ∑ j, d.c066 i j * (d.strainceq6 x j - d.strain6 j) -
            ∑ j, d.c066 i j * (d.strainceq6 y j - d.strain6 j) := by
        rw [← Finset.sum_sub_distrib]
        exact Finset.sum_congr rfl fun j _ => by ring
      rw [c]
      linarith
  funext i
  have := congrFun key i
  simp only [Pi.zero_apply] at this
  linarith

/-- **C72.** When the stress found equals the stress handed in (convergence of the outer iteration), the
strain of the grid point is exactly elastic plus plastic strain, and conversely. -/
theorem C72_constitutive (d : EvpalIn) (hd : d.Good) (he : d.elastic = false) :
    (∀ i, d.residual d.xlambda6 i = 0) ↔
      ∀ i, d.strain6 i = d.ept6 i + plasticRate6 d.sys d.xlambda6 i * d.tdot +
        ∑ j, d.sg66 i j * d.xlambda6 j := by
  have hs : ∀ i, d.strainceq6 d.xlambda6 i = d.ept6 i + plasticRate6 d.sys d.xlambda6 i * d.tdot +
      ∑ j, d.sg66 i j * d.xlambda6 j := by
    intro i; simp [EvpalIn.strainceq6, EvpalIn.rate6, he]
  have hr : ∀ i, d.residual d.xlambda6 i =
      ∑ j, d.c066 i j * (d.strainceq6 d.xlambda6 j - d.strain6 j) := by
    intro i; simp [EvpalIn.residual]
  constructor
  · intro h i
    obtain ⟨hi, _⟩ := invertView_inverse d.c066 hd.c0
    have a := apply_inverse hi (fun j => d.strainceq6 d.xlambda6 j - d.strain6 j) i
    have : ∀ k, ∑ j, d.c066 k j * (d.strainceq6 d.xlambda6 j - d.strain6 j) = 0 := fun k => by
      rw [← hr k]; exact h k
    simp only [this, mul_zero, Finset.sum_const_zero] at a
    rw [← hs i]
    linarith
  · intro h i
    rw [hr]
    refine Finset.sum_eq_zero fun j _ => ?_
    rw [hs j, ← h j, sub_self, mul_zero]

/-! ### The Newton matrix -/

theorem intDiv_delta6 (i j : Fin 6) :
    ((i : ℕ) + 1) / ((j : ℕ) + 1) * (((j : ℕ) + 1) / ((i : ℕ) + 1)) = if i = j then 1 else 0 := by
  revert i j; decide

/-- The tangent matrix applied to a vector. -/
theorem tangent_apply (sys : List SlipState) (sg6 x : Fin 6 → ℝ) (i : Fin 6) :
    ∑ j, plasticTangent66 sys sg6 i j * x j = if h : i.val < 5 then
      (sys.map fun s => s.sch ⟨i.val, h⟩ * (s.rss1At (s.drive sg6) * s.resolved x)).sum else 0 := by
  by_cases h : i.val < 5
  · rw [dif_pos h, Fin.sum_univ_castSucc]
    have e0 : plasticTangent66 sys sg6 i (Fin.last 5) = 0 := by
      unfold plasticTangent66
      rw [dif_neg (by simp)]
    have e : ∀ k : Fin 5, plasticTangent66 sys sg6 i k.castSucc =
        (sys.map fun s => s.sch ⟨i.val, h⟩ * s.sch k * s.rss1At (s.drive sg6)).sum := by
      intro k
      unfold plasticTangent66
      rw [dif_pos ⟨h, k.isLt⟩, foldl_list_sum]
      rfl
    simp only [e, e0, zero_mul, add_zero, ← List.sum_map_mul_right]
    rw [sum_list_comm]
    congr 1
    refine List.map_congr_left fun s _ => ?_
    simp only [SlipState.resolved, Finset.mul_sum]
    exact Finset.sum_congr rfl fun k _ => by ring
  · rw [dif_neg h]
    refine Finset.sum_eq_zero fun j _ => ?_
    unfold plasticTangent66
    rw [dif_neg (fun hh => h hh.1), zero_mul]

/-- The Newton matrix applied to a vector. -/
theorem jacobian_apply (d : EvpalIn) (sg6 x : Fin 6 → ℝ) (i : Fin 6) :
    ∑ j, d.jacobian sg6 i j * x j = x i + ∑ k, d.c066 i k * (∑ j, d.sg66 k j * x j +
      (if d.elastic then 0 else ∑ j, plasticTangent66 d.sys sg6 k j * x j) * d.tdot) := by
  have e : ∀ j, d.jacobian sg6 i j * x j = (if i = j then x j else 0) +
      ∑ k, d.c066 i k * (d.sg66 k j * x j +
        (if d.elastic then 0 else plasticTangent66 d.sys sg6 k j * x j) * d.tdot) := by
    intro j
    unfold EvpalIn.jacobian
    rw [intDiv_delta6, add_mul, Finset.sum_mul]
    congr 1
    · split_ifs <;> simp
    · refine Finset.sum_congr rfl fun k _ => ?_
      cases d.elastic
      · simp; ring
      · simp; ring
  simp only [e, Finset.sum_add_distrib]
  rw [Finset.sum_ite_eq Finset.univ i x, if_pos (Finset.mem_univ i)]
  congr 1
  rw [Finset.sum_comm]
  refine Finset.sum_congr rfl fun k _ => ?_
  rw [← Finset.mul_sum, Finset.sum_add_distrib, ← Finset.sum_mul]
  congr 3
  cases d.elastic <;> simp

theorem rss1_nonneg (s : SlipState) (h : s.Good) (t : ℝ) : 0 ≤ s.rss1At t := by
  unfold SlipState.rss1At SlipState.crssAt
  have h1 := h.crss1
  have h2 := h.crss2
  have h3 := h.gamd0
  have h4 : (0 : ℝ) ≤ s.nrs := by
    have := h.nrs
    exact_mod_cast (by omega : (0 : ℤ) ≤ s.nrs)
  split_ifs <;> positivity

/-- **C72.** The Newton matrix is regular at every stress. -/
theorem C72_jacobian_regular (d : EvpalIn) (hd : d.Good) (sg6 x : Fin 6 → ℝ)
    (hx : ∀ i, ∑ j, d.jacobian sg6 i j * x j = 0) : x = 0 := by
  have hS := (invertView_inverse d.cg66 hd.cg).2
  refine zero_of_augmented hd.c0 x (fun k => ∑ j, d.sg66 k j * x j +
      (if d.elastic then 0 else ∑ j, plasticTangent66 d.sys sg6 k j * x j) * d.tdot) ?_ ?_
  · simp only [mul_add, Finset.sum_add_distrib]
    have h1 : 0 ≤ ∑ i, x i * ∑ j, d.sg66 i j * x j := by
      have e : ∑ i, x i * ∑ j, d.sg66 i j * x j = ∑ i, ∑ j, x i * d.sg66 i j * x j :=
        Finset.sum_congr rfl fun i _ => by
          rw [Finset.mul_sum]; exact Finset.sum_congr rfl fun j _ => by ring
      rw [e]
      by_cases hz : x = 0
      · simp [hz]
      · exact (hS _ hz).le
    refine add_nonneg h1 ?_
    cases d.elastic
    · simp only [Bool.false_eq_true, if_false, ← mul_assoc, ← Finset.sum_mul]
      refine mul_nonneg ?_ hd.tdot
      simp only [tangent_apply]
      rw [Fin.sum_univ_castSucc]
      have e0 : x (Fin.last 5) * (if h : (Fin.last 5 : Fin 6).val < 5 then
          (d.sys.map fun s => s.sch ⟨(Fin.last 5 : Fin 6).val, h⟩ *
            (s.rss1At (s.drive sg6) * s.resolved x)).sum else 0) = 0 := by
        rw [dif_neg (by simp), mul_zero]
      rw [e0, add_zero]
      have e1 : ∀ k : Fin 5, x k.castSucc * (if h : (k.castSucc : Fin 6).val < 5 then
          (d.sys.map fun s => s.sch ⟨(k.castSucc : Fin 6).val, h⟩ *
            (s.rss1At (s.drive sg6) * s.resolved x)).sum else 0) =
          (d.sys.map fun s => x k.castSucc * (s.sch k * (s.rss1At (s.drive sg6) * s.resolved x))).sum := by
        intro k
        rw [dif_pos (show (k.castSucc : ℕ) < 5 from k.isLt), ← List.sum_map_mul_left]
        rfl
      simp only [e1]
      rw [sum_list_comm]
      apply List.sum_nonneg
      intro z hz
      obtain ⟨s, hs, rfl⟩ := List.mem_map.mp hz
      have e2 : ∑ k : Fin 5, x k.castSucc * (s.sch k * (s.rss1At (s.drive sg6) * s.resolved x)) =
          s.rss1At (s.drive sg6) * (s.resolved x * s.resolved x) := by
        conv_rhs => rw [show s.resolved x * s.resolved x = (∑ k : Fin 5, s.sch k * x k.castSucc) * s.resolved x from rfl]
        rw [Finset.sum_mul, Finset.mul_sum]
        exact Finset.sum_congr rfl fun k _ => by ring
      rw [e2]
      exact mul_nonneg (rss1_nonneg s (hd.sys s hs) _) (mul_self_nonneg _)
    · simp
  · intro i
    rw [← jacobian_apply]
    exact hx i

/-- **C72.** The Newton matrix is the exact derivative of the residual in every direction, at every stress
at which no system has a vanishing driving stress. -/
theorem C72_jacobian_exact (d : EvpalIn) (hd : d.Good) (sg6 v : Fin 6 → ℝ)
    (hdr : d.elastic = true ∨ ∀ s ∈ d.sys, s.drive sg6 ≠ 0) (i : Fin 6) :
    HasDerivAt (fun t : ℝ => d.residual (fun k => sg6 k + t * v k) i)
      (∑ j, d.jacobian sg6 i j * v j) 0 := by
  rw [jacobian_apply]
  unfold EvpalIn.residual
  have hlin : ∀ k : Fin 6, HasDerivAt (fun t : ℝ => sg6 k + t * v k) (v k) 0 := by
    intro k
    have := ((hasDerivAt_id (0 : ℝ)).mul_const (v k)).const_add (sg6 k)
    simpa using this
  have hrate : ∀ k : Fin 6, HasDerivAt (fun t : ℝ => d.rate6 (fun k => sg6 k + t * v k) k)
      (if d.elastic then 0 else ∑ j, plasticTangent66 d.sys sg6 k j * v j) 0 := by
    intro k
    cases he : d.elastic
    · have hdr' : ∀ s ∈ d.sys, s.drive sg6 ≠ 0 := by
        rcases hdr with h | h
        · rw [he] at h; cases h
        · exact h
      simp only [EvpalIn.rate6, he, Bool.false_eq_true, if_false]
      rw [tangent_apply]
      by_cases hk : k.val < 5
      · rw [dif_pos hk]
        have e : (fun t : ℝ => plasticRate6 d.sys (fun k => sg6 k + t * v k) k) = fun t : ℝ =>
            (d.sys.map fun s => s.sch ⟨k.val, hk⟩ * s.rateAt (s.drive fun k => sg6 k + t * v k)).sum := by
          funext t
          unfold plasticRate6
          rw [dif_pos hk, foldl_list_sum]
        rw [e]
        have hsys := hd.sys
        generalize d.sys = L at hdr' hsys ⊢
        clear e hdr
        induction L with
        | nil => simpa using hasDerivAt_const (0 : ℝ) (0 : ℝ)
        | cons s L ih =>
          simp only [List.map_cons, List.sum_cons]
          refine HasDerivAt.add ?_ (ih (fun s' hs' => hdr' s' (List.mem_cons_of_mem _ hs'))
            (fun s' hs' => hsys s' (List.mem_cons_of_mem _ hs')))
          refine HasDerivAt.const_mul _ ?_
          have h1 : HasDerivAt (fun t : ℝ => s.drive fun k => sg6 k + t * v k) (s.resolved v) 0 := by
            have e2 : (fun t : ℝ => s.drive fun k => sg6 k + t * v k) =
                fun t => s.drive sg6 + t * s.resolved v := by
              funext t
              rw [drive_eq, drive_eq]
              simp only [SlipState.resolved, mul_add, Finset.sum_add_distrib, Finset.mul_sum]
              have : ∀ k : Fin 5, s.sch k * (t * v k.castSucc) = t * (s.sch k * v k.castSucc) :=
                fun k => by ring
              simp only [this]
              ring
            rw [e2]
            simpa using ((hasDerivAt_id (0 : ℝ)).mul_const (s.resolved v)).const_add (s.drive sg6)
          have h2 : HasDerivAt s.rateAt (s.rss1At (s.drive sg6)) (s.drive fun k => sg6 k + 0 * v k) := by
            simpa using C72_tangent s (hsys s (List.mem_cons_self ..)) (s.drive sg6)
              (hdr' s (List.mem_cons_self ..))
          exact h2.comp (0 : ℝ) h1
      · rw [dif_neg hk]
        have e : (fun t : ℝ => plasticRate6 d.sys (fun k => sg6 k + t * v k) k) = fun _ => 0 := by
          funext t; unfold plasticRate6; rw [dif_neg hk]
        rw [e]
        exact hasDerivAt_const _ _
    · simp only [EvpalIn.rate6, he, if_true]
      exact hasDerivAt_const _ _
  have hceq : ∀ k : Fin 6, HasDerivAt (fun t : ℝ => d.strainceq6 (fun k => sg6 k + t * v k) k)
      (∑ j, d.sg66 k j * v j +
        (if d.elastic then 0 else ∑ j, plasticTangent66 d.sys sg6 k j * v j) * d.tdot) 0 := by
    intro k
    unfold EvpalIn.strainceq6
    rw [add_comm]
    have hS : HasDerivAt (fun t : ℝ => ∑ j, d.sg66 k j * (sg6 j + t * v j)) (∑ j, d.sg66 k j * v j) 0 :=
      HasDerivAt.fun_sum fun j _ => (hlin j).const_mul _
    refine HasDerivAt.add ?_ hS
    have hr := hrate k
    cases he : d.elastic
    · simp only [he, Bool.false_eq_true, if_false] at hr ⊢
      exact (hr.mul_const d.tdot).const_add _
    · simp only [if_true, zero_mul]
      exact hasDerivAt_const _ _
  refine HasDerivAt.add ((hlin i).sub_const _) ?_
  exact HasDerivAt.fun_sum fun k _ => ((hceq k).sub_const _).const_mul _

/-- **C72.** A Newton step with a completed inversion solves the linearised equation, so it leaves the
stress unchanged exactly when the residual is zero. -/
theorem C72_newton_step (d : EvpalIn) (sg6 : Fin 6 → ℝ)
    (hf : (invertMatrix fun i j => d.jacobian sg6 j i).finished = true) :
    (∀ i, ∑ j, d.jacobian sg6 i j * (d.newton sg6 j - sg6 j) = -d.residual sg6 i) ∧
    (d.newton sg6 = sg6 ↔ ∀ i, d.residual sg6 i = 0) := by
  have hi : InverseOf (d.jacobian sg6) (invertView (d.jacobian sg6)) := C65_column_major _ hf
  have hstep : ∀ j, d.newton sg6 j - sg6 j = -∑ k, invertView (d.jacobian sg6) j k * d.residual sg6 k := by
    intro j
    simp only [EvpalIn.newton, neg_mul, Finset.sum_neg_distrib]
    ring
  have hi' : InverseOf (invertView (d.jacobian sg6)) (d.jacobian sg6) := fun i j =>
    ⟨(hi i j).2, (hi i j).1⟩
  have h1 : ∀ i, ∑ j, d.jacobian sg6 i j * (d.newton sg6 j - sg6 j) = -d.residual sg6 i := by
    intro i
    simp only [hstep, mul_neg, Finset.sum_neg_distrib]
    rw [apply_inverse hi']
  refine ⟨h1, ?_, ?_⟩
  · intro h i
    have := h1 i
    rw [h] at this
    simp at this
    exact this
  · intro h
    funext j
    have := hstep j
    simp only [h, mul_zero, Finset.sum_const_zero, neg_zero] at this
    linarith

/-! ### The loop -/

open Classical in
theorem loop_succ (d : EvpalIn) (left it : ℕ) (x e : Fin 6 → ℝ) : d.loop (left + 1) it x e =
    if EvpalIn.goesOn (EvpalIn.stepNorm (d.newton x) x) d.sgnorm then
      d.loop left (it + 1) (d.newton x) (d.rate6 x) else (it + 1, d.newton x, d.rate6 x) := rfl

theorem loop_count (d : EvpalIn) (left it : ℕ) (x e : Fin 6 → ℝ) :
    (d.loop left it x e).1 ≤ it + left ∧ (1 ≤ left → it + 1 ≤ (d.loop left it x e).1) := by
  induction left generalizing it x e with
  | zero => simp [EvpalIn.loop]
  | succ l ih =>
    simp only [EvpalIn.loop]
    split_ifs
    · obtain ⟨a, b⟩ := ih (it + 1) (d.newton x) (d.rate6 x)
      refine ⟨by omega, fun _ => ?_⟩
      rcases Nat.eq_zero_or_pos l with h | h
      · subst h; simp [EvpalIn.loop]
      · have := b h; omega
    · constructor <;> simp

/-- **C72.** Every grid point does at least one and at most one hundred iterations. -/
theorem C72_terminates (d : EvpalIn) : 1 ≤ d.run.1 ∧ d.run.1 ≤ 100 := by
  obtain ⟨a, b⟩ := loop_count d 100 0 d.xlambda6 (fun _ => 0)
  exact ⟨b (by norm_num), le_trans a (by norm_num)⟩

/-- **C72.** Grid points of a gas phase carry no stress and no plastic rate. -/
theorem C72_gas (d : EvpalIn) : evpalPoint true d = (fun _ _ => 0, fun _ _ => 0) := rfl

/-- **C72.** The thermo-elastic step (first step with thermal strains) is solved exactly, in at most two
iterations. -/
theorem C72_elastic (d : EvpalIn) (hq : d.q.Exact) (he : d.elastic = true)
    (hf : (invertMatrix fun i j => d.jacobian d.xlambda6 j i).finished = true) :
    d.run.1 ≤ 2 ∧ (∀ i, d.residual (chgBasis2 d.q le_rfl d.run.2.1) i = 0) ∧
      d.run.2.2 = fun _ _ => 0 := by
  have hJ : ∀ x y, d.jacobian x = d.jacobian y := by
    intro x y; funext i j; simp [EvpalIn.jacobian, he]
  obtain ⟨h1, h2⟩ := C72_newton_step d d.xlambda6 hf
  -- the residual is affine
  have hres : ∀ i, d.residual (d.newton d.xlambda6) i = 0 := by
    intro i
    have a := h1 i
    rw [jacobian_apply] at a
    simp only [he, if_true, zero_mul, add_zero] at a
    have b : d.residual (d.newton d.xlambda6) i - d.residual d.xlambda6 i =
        (d.newton d.xlambda6 i - d.xlambda6 i) +
          ∑ k, d.c066 i k * ∑ j, d.sg66 k j * (d.newton d.xlambda6 j - d.xlambda6 j) := by
      simp only [EvpalIn.residual, EvpalIn.strainceq6, he, if_true]
      have : ∀ k, d.c066 i k * ∑ j, d.sg66 k j * (d.newton d.xlambda6 j - d.xlambda6 j) =
          d.c066 i k * (d.ept6 k + ∑ j, d.sg66 k j * d.newton d.xlambda6 j - d.strain6 k) -
            d.c066 i k * (d.ept6 k + ∑ j, d.sg66 k j * d.xlambda6 j - d.strain6 k) := by
        intro k
        simp only [mul_sub, Finset.sum_sub_distrib]
        ring
      simp only [this, Finset.sum_sub_distrib]
      ring
    linarith
  have hfix : d.newton (d.newton d.xlambda6) = d.newton d.xlambda6 := by
    have hf' : (invertMatrix fun i j => d.jacobian (d.newton d.xlambda6) j i).finished = true := by
      rw [hJ (d.newton d.xlambda6) d.xlambda6]; exact hf
    exact (C72_newton_step d _ hf').2.mpr hres
  have hstop : ¬ EvpalIn.goesOn (EvpalIn.stepNorm (d.newton (d.newton d.xlambda6)) (d.newton d.xlambda6))
      d.sgnorm := by
    rw [hfix]
    have : EvpalIn.stepNorm (d.newton d.xlambda6) (d.newton d.xlambda6) = 0 := by
      simp [EvpalIn.stepNorm]
    rw [this]
    unfold EvpalIn.goesOn
    split_ifs
    · simp
    · rw [zero_div]; norm_num
  have hrate : ∀ x, d.rate6 x = fun _ => 0 := by intro x; simp [EvpalIn.rate6, he]
  have hl : d.loop 100 0 d.xlambda6 (fun _ => 0) = (1, d.newton d.xlambda6, fun _ => 0) ∨
      d.loop 100 0 d.xlambda6 (fun _ => 0) = (2, d.newton d.xlambda6, fun _ => 0) := by
    rw [loop_succ, loop_succ, if_neg hstop, hfix, hrate, hrate]
    split_ifs with hgo
    · right; rfl
    · left; rfl
  have hz : chgBasis1 d.q (le_refl 6) (fun _ => 0) = fun _ _ => 0 := by
    funext i j; simp [chgBasis1]
  rcases hl with h | h
  · simp only [EvpalIn.run, h, hz]
    refine ⟨by norm_num, fun i => ?_, trivial⟩
    rw [C66_vector_roundtrip d.q hq]; exact hres i
  · simp only [EvpalIn.run, h, hz]
    refine ⟨le_rfl, fun i => ?_, trivial⟩
    rw [C66_vector_roundtrip d.q hq]; exact hres i

theorem loop_result (d : EvpalIn) (left it : ℕ) (x e : Fin 6 → ℝ) (hl : 1 ≤ left) :
    ∃ prev, (d.loop left it x e).2 = (d.newton prev, d.rate6 prev) ∧
      ((d.loop left it x e).1 = it + left ∨
        ¬ EvpalIn.goesOn (EvpalIn.stepNorm (d.newton prev) prev) d.sgnorm) := by
  induction left generalizing it x e with
  | zero => omega
  | succ l ih =>
    simp only [EvpalIn.loop]
    split_ifs with hgo
    · rcases Nat.eq_zero_or_pos l with h | h
      · subst h
        exact ⟨x, rfl, Or.inl rfl⟩
      · obtain ⟨p, h1, h2⟩ := ih (it + 1) (d.newton x) (d.rate6 x) h
        refine ⟨p, h1, h2.imp (fun h => ?_) id⟩
        omega
    · exact ⟨x, rfl, Or.inr hgo⟩

/-- **C72.** What a grid point returns: one Newton step from some previous stress `prev`, together with
the plastic rate of `prev`; with fewer than one hundred iterations the squared length of that last step is
at most `10⁻⁷` times the length of the incoming stress. -/
theorem C72_result (d : EvpalIn) (hq : d.q.Exact) :
    ∃ prev, chgBasis2 d.q le_rfl d.run.2.1 = d.newton prev ∧
      chgBasis2 d.q le_rfl d.run.2.2 = d.rate6 prev ∧
      (d.run.1 < 100 → ∑ i, (d.newton prev i - prev i) ^ 2 ≤
        1 / 10 ^ 7 * Real.sqrt (∑ i, ∑ j, d.sg i j ^ 2)) := by
  obtain ⟨p, h1, h2⟩ := loop_result d 100 0 d.xlambda6 (fun _ => 0) (by norm_num)
  refine ⟨p, ?_, ?_, ?_⟩
  · simp only [EvpalIn.run, h1]
    exact C66_vector_roundtrip d.q hq _ _
  · simp only [EvpalIn.run, h1]
    exact C66_vector_roundtrip d.q hq _ _
  · intro hlt
    have hne : ¬ EvpalIn.goesOn (EvpalIn.stepNorm (d.newton p) p) d.sgnorm := by
      rcases h2 with h | h
      · exfalso
        simp only [EvpalIn.run] at hlt
        omega
      · exact h
    have e1 : ∑ i, (d.newton p i - p i) ^ 2 = EvpalIn.stepNorm (d.newton p) p :=
      Finset.sum_congr rfl fun i _ => pow_two _
    have e2 : Real.sqrt (∑ i, ∑ j, d.sg i j ^ 2) = d.sgnorm := by
      simp only [EvpalIn.sgnorm, pow_two]
    rw [e1, e2]
    unfold EvpalIn.goesOn at hne
    split_ifs at hne with h0
    · rw [not_not.mp hne, h0, mul_zero]
    · have hpos : 0 < d.sgnorm := lt_of_le_of_ne (Real.sqrt_nonneg _) (Ne.symm h0)
      exact (div_le_iff₀ hpos).mp (not_lt.mp hne)

/-! ### Witness -/

/-- Scaled unit matrix with a distinguished first entry. -/
def diagW (a b : ℝ) : Dense 6 ℝ := fun i j => if i = j then (if i = 0 then a else b) else 0

theorem diagW_apply (a b : ℝ) (x : Fin 6 → ℝ) (i : Fin 6) :
    ∑ j, diagW a b i j * x j = (if i = 0 then a else b) * x i := by
  simp only [diagW, ite_mul, zero_mul]
  rw [Finset.sum_ite_eq]
  simp

theorem diagW_pos (a b : ℝ) (ha : 0 < a) (hb : 0 < b) : PosForm (diagW a b) := by
  intro x hx
  have e : ∑ i, ∑ j, x i * diagW a b i j * x j = ∑ i, (if i = 0 then a else b) * (x i * x i) := by
    refine Finset.sum_congr rfl fun i _ => ?_
    have := diagW_apply a b x i
    calc ∑ j, x i * diagW a b i j * x j = x i * ∑ j, diagW a b i j * x j := by
          rw [Finset.mul_sum]; exact Finset.sum_congr rfl fun j _ => by ring
      _ = _ := by rw [this]; ring
  rw [e]
  obtain ⟨k, hk⟩ := Function.ne_iff.mp hx
  refine Finset.sum_pos' (fun i _ => ?_) ⟨k, Finset.mem_univ k, ?_⟩
  · exact mul_nonneg (by split_ifs <;> linarith) (mul_self_nonneg _)
  · exact mul_pos (by split_ifs <;> linarith) (mul_self_pos.mpr hk)

theorem diagW_inverse (a b : ℝ) (ha : 0 < a) (hb : 0 < b) : invertView (diagW a b) = diagW a⁻¹ b⁻¹ := by
  have h : InverseOf (diagW a b) (diagW a⁻¹ b⁻¹) := by
    intro i j
    have e : ∀ p q p' q' : ℝ, ∑ k, diagW p q i k * diagW p' q' k j =
        (if i = 0 then p else q) * diagW p' q' i j := fun p q p' q' =>
      diagW_apply p q (fun k => diagW p' q' k j) i
    rw [e, e]
    unfold diagW
    have := ha.ne'
    have := hb.ne'
    constructor <;> split_ifs <;> simp_all
  exact (invertView_inverse _ (diagW_pos a b ha hb)).1.unique h

/-- One linear-viscous system along the first component, small stress, no strain. -/
noncomputable def smallStress (q : BasisConst ℝ) : EvpalIn where
  q := q
  sg := chgBasis1 q (le_refl 6) fun i => if i = 0 then 1 / 10 ^ 7 else 0
  ept := fun _ _ => 0
  disgrad := fun _ _ => 0
  cg66 := diagW 1 1
  c066 := diagW 1 1
  sys := [⟨fun k => if k = 0 then 1 else 0, 1, 1, 0, 1, 1⟩]
  tdot := 1
  elastic := false

theorem smallStress_good (q : BasisConst ℝ) : (smallStress q).Good where
  cg := diagW_pos 1 1 one_pos one_pos
  c0 := diagW_pos 1 1 one_pos one_pos
  tdot := zero_le_one
  sys := by
    intro s hs
    simp only [smallStress, List.mem_singleton] at hs
    subst hs
    exact ⟨one_pos, one_pos, zero_le_one, le_rfl⟩

theorem smallStress_rate (q : BasisConst ℝ) (x : Fin 6 → ℝ) (i : Fin 6) :
    (smallStress q).rate6 x i = if i = 0 then x 0 else 0 := by
  have h : ∀ t, (⟨fun k => if k = 0 then 1 else 0, 1, 1, 0, 1, 1⟩ : SlipState).rateAt t = t := by
    intro t
    rw [C72_flow_rule _ ⟨one_pos, one_pos, zero_le_one, le_rfl⟩ 1 rfl]
    split_ifs <;> simp
  have e : (smallStress q).rate6 x = plasticRate6
      [⟨fun k => if k = 0 then 1 else 0, 1, 1, 0, 1, 1⟩] x := rfl
  rw [e]
  unfold plasticRate6
  simp only [List.foldl_cons, List.foldl_nil, h, SlipState.drive]
  fin_cases i <;> simp

theorem smallStress_jacobian (q : BasisConst ℝ) (x : Fin 6 → ℝ) :
    (smallStress q).jacobian x = diagW 3 2 := by
  have hg : (⟨fun k => if k = 0 then 1 else 0, 1, 1, 0, 1, 1⟩ : SlipState).Good :=
    ⟨one_pos, one_pos, zero_le_one, le_rfl⟩
  have h : ∀ t, (⟨fun k => if k = 0 then 1 else 0, 1, 1, 0, 1, 1⟩ : SlipState).rss1At t = 1 := by
    intro t
    simp [SlipState.rss1At, SlipState.crssAt, C65_power _ _ (Or.inr (le_refl (0 : ℤ)))]
  funext i j
  have hs : (smallStress q).sg66 = diagW 1 1 := by
    have := diagW_inverse 1 1 one_pos one_pos
    rw [inv_one] at this
    exact this
  unfold EvpalIn.jacobian
  rw [intDiv_delta6, hs]
  simp only [smallStress, Bool.false_eq_true, if_false]
  have e := diagW_apply 1 1 (fun k => diagW 1 1 k j + plasticTangent66
    [(⟨fun k => if k = 0 then 1 else 0, 1, 1, 0, 1, 1⟩ : SlipState)] x k j * 1) i
  rw [e]
  simp only [plasticTangent66, List.foldl_cons, List.foldl_nil, h]
  fin_cases i <;> fin_cases j <;> simp [diagW] <;> norm_num

/-- **C72.** The acceptance test divides the square of the last step by the length of the stress, so it
depends on the unit of stress: with a stress of `10⁻⁷` the first step is accepted although it removed two
thirds of the stress.  The plastic rate stored with the result is that of the stress before the step, three
times the rate of the stress stored. -/
theorem C72_acceptance_fails (q : BasisConst ℝ) (hq : q.Exact) :
    ∃ d : EvpalIn, d.q = q ∧ d.Good ∧ d.elastic = false ∧ d.run.1 = 1 ∧
      chgBasis2 q le_rfl d.run.2.1 0 = d.xlambda6 0 / 3 ∧
      chgBasis2 q le_rfl d.run.2.2 0 = 3 * plasticRate6 d.sys (chgBasis2 q le_rfl d.run.2.1) 0 ∧
      plasticRate6 d.sys (chgBasis2 q le_rfl d.run.2.1) 0 ≠ 0 := by
  have hx : (smallStress q).xlambda6 = fun i => if i = 0 then 1 / 10 ^ 7 else 0 := by
    have e : (smallStress q).xlambda6 = chgBasis2 q (le_refl 6)
      (chgBasis1 q (le_refl 6) fun i => if i = 0 then 1 / 10 ^ 7 else 0) := rfl
    rw [e, C66_vector_roundtrip q hq]
  have hz : ∀ T : T2 ℝ, (∀ i j, T i j = 0) → chgBasis2 q (le_refl 6) T = fun _ => 0 := by
    intro T hT
    funext i
    simp [chgBasis2, hT]
  have hsg : (smallStress q).sg66 = diagW 1 1 := by
    have := diagW_inverse 1 1 one_pos one_pos
    rw [inv_one] at this
    exact this
  have hres : (smallStress q).residual (smallStress q).xlambda6 =
      fun i => if i = 0 then 2 / 10 ^ 7 else 0 := by
    funext i
    have hstr : (smallStress q).strain6 = fun _ => 0 := hz _ (by simp [smallStress])
    have hept : (smallStress q).ept6 = fun _ => 0 := hz _ (by simp [smallStress])
    have hceq : (smallStress q).strainceq6 (smallStress q).xlambda6 =
        fun i => if i = 0 then 2 / 10 ^ 7 else 0 := by
      funext k
      unfold EvpalIn.strainceq6
      rw [hsg, diagW_apply, smallStress_rate, hept, hx]
      by_cases hk : k = 0
      · simp [hk, smallStress]; norm_num
      · simp [hk, smallStress]
    unfold EvpalIn.residual
    rw [sub_self, zero_add, hceq, hstr]
    have := diagW_apply 1 1 (fun j => (if j = 0 then 2 / 10 ^ 7 else 0) - 0) i
    refine Eq.trans this ?_
    simp
  have hnew : (smallStress q).newton (smallStress q).xlambda6 =
      fun i => if i = 0 then 1 / 3 / 10 ^ 7 else 0 := by
    funext i
    unfold EvpalIn.newton
    rw [smallStress_jacobian, diagW_inverse 3 2 (by norm_num) (by norm_num), hres]
    simp only [neg_mul, Finset.sum_neg_distrib]
    have := diagW_apply 3⁻¹ 2⁻¹ (fun j => if j = 0 then 2 / 10 ^ 7 else 0) i
    rw [this, hx]
    by_cases hi : i = 0
    · simp [hi]; norm_num
    · simp [hi]
  have hnorm : (smallStress q).sgnorm = 1 / 10 ^ 7 := by
    have e := C66_inner q hq (smallStress q).sg (smallStress q).sg (C66_symmetric q _ _)
    have e2 : ∑ n, chgBasis2 q (le_refl 6) (smallStress q).sg n *
        chgBasis2 q (le_refl 6) (smallStress q).sg n = (1 / 10 ^ 7) ^ 2 := by
      have : chgBasis2 q (le_refl 6) (smallStress q).sg = fun i => if i = 0 then 1 / 10 ^ 7 else 0 := hx
      rw [this]
      simp
      norm_num
    unfold EvpalIn.sgnorm
    have e3 : ∑ i, ∑ j, (smallStress q).sg i j * (smallStress q).sg i j = (1 / 10 ^ 7) ^ 2 := by
      rw [← e2, e]
    rw [e3]
    exact Real.sqrt_sq (by positivity)
  have hstop : ¬ EvpalIn.goesOn (EvpalIn.stepNorm ((smallStress q).newton (smallStress q).xlambda6)
      (smallStress q).xlambda6) (smallStress q).sgnorm := by
    rw [hnew, hx, hnorm]
    unfold EvpalIn.goesOn EvpalIn.stepNorm
    rw [if_neg (by norm_num)]
    simp [Fin.sum_univ_six]
    norm_num
  have hl : (smallStress q).loop 100 0 (smallStress q).xlambda6 (fun _ => 0) =
      (1, (smallStress q).newton (smallStress q).xlambda6,
        (smallStress q).rate6 (smallStress q).xlambda6) := by
    rw [loop_succ, if_neg hstop]
  have hst : chgBasis2 q (le_refl 6) (smallStress q).run.2.1 = fun i => if i = 0 then 1 / 3 / 10 ^ 7 else 0 := by
    simp only [EvpalIn.run, hl]
    refine Eq.trans (C66_vector_roundtrip q hq _ _) hnew
  have hrt : chgBasis2 q (le_refl 6) (smallStress q).run.2.2 = fun i => if i = 0 then 1 / 10 ^ 7 else 0 := by
    simp only [EvpalIn.run, hl]
    refine Eq.trans (C66_vector_roundtrip q hq _ _) ?_
    funext i
    rw [smallStress_rate, hx]
    simp
  have hp : plasticRate6 (smallStress q).sys (fun i => if i = 0 then 1 / 3 / 10 ^ 7 else 0) 0 =
      1 / 3 / 10 ^ 7 := by
    have := smallStress_rate q (fun i => if i = 0 then 1 / 3 / 10 ^ 7 else 0) 0
    rw [if_pos rfl, if_pos rfl] at this
    exact this
  refine ⟨smallStress q, rfl, smallStress_good q, rfl, ?_, ?_, ?_, ?_⟩
  · simp only [EvpalIn.run, hl]
  · rw [hst, hx]; norm_num
  · rw [hst, hrt, hp]; norm_num
  · rw [hst, hp]; norm_num

/-- The hypotheses of the theorems above are met, with an inversion that completes. -/
example : (smallStress exactConst).Good ∧ exactConst.Exact :=
  ⟨smallStress_good _, exactConst_exact⟩

end Fierro
