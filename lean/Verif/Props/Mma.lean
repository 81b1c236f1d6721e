import Verif.Model.Mma
import Mathlib.Analysis.Calculus.Deriv.Inv
import Mathlib.Analysis.Calculus.Deriv.Pow
import Mathlib.Analysis.Calculus.Deriv.Add
import Mathlib.Analysis.Calculus.Deriv.Mul
import Mathlib.Tactic.Linarith
import Mathlib.Tactic.FieldSimp
import Mathlib.Tactic.Ring
import Mathlib.Tactic.NormNum
import Mathlib.Tactic.Positivity

/-!
# C155: the moving asymptotes of the previous version
-/

namespace Fierro

/-- **C155.**  Every update but a temporary one puts the asymptotes at the shifts from the point, whatever was kept; a
temporary one changes nothing. -/
theorem C155_update {n : ℕ} (obj : MmaObjective n) (l u : Fin n → ℝ) (st : MmaState n) (x : Fin n → ℝ)
    (t : MmaUpdate) :
    (t = .temp → mmaUpdate obj l u st x t = st) ∧
    (t ≠ .temp → (∀ st', mmaUpdate obj l u st' x t = mmaUpdate obj l u st x t) ∧
      ∀ i, (mmaUpdate obj l u st x t).lv i = x i + l i ∧ (mmaUpdate obj l u st x t).uv i = x i + u i) := by
  cases t <;> simp [mmaUpdate, mmaAround]

/-- **C155.**  At the point of the update the gradient of the approximation is that of the objective, for any shifts
other than zero. -/
theorem C155_gradient_at {n : ℕ} (obj : MmaObjective n) (l u : Fin n → ℝ) (st : MmaState n) (x : Fin n → ℝ)
    (t : MmaUpdate) (ht : t ≠ .temp) (i : Fin n) (hl : l i ≠ 0) (hu : u i ≠ 0) :
    mmaGradient (mmaUpdate obj l u st x t) x i = obj.gradient x i := by
  have key : mmaGradient (mmaAround obj l u x) x i = obj.gradient x i := by
    simp only [mmaGradient, mmaAround]
    have h1 : x i + 1 * u i - x i = u i := by ring
    have h2 : x i - (x i + 1 * l i) = -l i := by ring
    have h3 : (-l i) ^ 2 ≠ 0 := pow_ne_zero 2 (neg_ne_zero.2 hl)
    rw [h1, h2, mul_div_assoc, div_self (pow_ne_zero 2 hu), neg_div, mul_div_assoc, div_self h3]
    rcases le_total 0 (obj.gradient x i) with h | h
    · rw [max_eq_right h, min_eq_left h]; ring
    · rw [max_eq_left h, min_eq_right h]; ring
  cases t <;> first | exact absurd rfl ht | exact key

/-- **C155 (a finding).**  At the point of the update the value of the approximation is not that of the objective: each
entry of the gradient adds its absolute value times the distance of the asymptote on its side. -/
theorem C155_value_at_fails {n : ℕ} (obj : MmaObjective n) (l u : Fin n → ℝ) (st : MmaState n) (x : Fin n → ℝ)
    (t : MmaUpdate) (ht : t ≠ .temp) (hl : ∀ i, l i < 0) (hu : ∀ i, 0 < u i) :
    mmaValue (mmaUpdate obj l u st x t) x =
      obj.value x + ∑ i, |obj.gradient x i| * (if 0 ≤ obj.gradient x i then u i else -l i) := by
  have e : mmaUpdate obj l u st x t = mmaAround obj l u x := by
    cases t <;> first | exact absurd rfl ht | rfl
  rw [e]
  simp only [mmaValue, mmaAround]
  rw [add_assoc, ← Finset.sum_add_distrib]
  congr 1
  refine Finset.sum_congr rfl fun i _ => ?_
  have h1 : x i + 1 * u i - x i = u i := by ring
  have h2 : x i - (x i + 1 * l i) = -l i := by ring
  have hu' := (hu i).ne'
  have hl' : -l i ≠ 0 := neg_ne_zero.2 (hl i).ne
  rw [h1, h2]
  by_cases h : 0 ≤ obj.gradient x i
  · rw [if_pos h, abs_of_nonneg h, max_eq_right h, min_eq_left h]
    field_simp
    ring
  · have h' : obj.gradient x i ≤ 0 := by linarith
    rw [if_neg h, abs_of_nonpos h', max_eq_left h', min_eq_right h']
    field_simp
    ring

/-- The point is between the asymptotes in every direction. -/
def Between {n : ℕ} (st : MmaState n) (x : Fin n → ℝ) : Prop := ∀ i, st.lv i < x i ∧ x i < st.uv i

/-- **C155.**  The gradient is the derivative of the value: along every direction, at every point between the
asymptotes, whatever the state. -/
theorem C155_gradient {n : ℕ} (st : MmaState n) (x v : Fin n → ℝ) (hx : Between st x) :
    HasDerivAt (fun t => mmaValue st fun i => x i + t * v i) (∑ i, mmaGradient st x i * v i) 0 := by
  have line : ∀ i, HasDerivAt (fun t : ℝ => x i + t * v i) (v i) 0 := fun i => by
    simpa using ((hasDerivAt_id (0 : ℝ)).mul_const (v i)).const_add (x i)
  have hp : ∀ i, HasDerivAt (fun t : ℝ => st.p i / (st.uv i - (x i + t * v i)))
      (st.p i / (st.uv i - x i) ^ 2 * v i) 0 := fun i => by
    have hne : st.uv i - (x i + 0 * v i) ≠ 0 := by
      have := (hx i).2
      intro h; linarith
    have h := (hasDerivAt_const (0 : ℝ) (st.p i)).fun_div ((line i).const_sub (st.uv i)) hne
    refine h.congr_deriv ?_
    simp
    ring
  have hq : ∀ i, HasDerivAt (fun t : ℝ => st.q i / (x i + t * v i - st.lv i))
      (-(st.q i / (x i - st.lv i) ^ 2) * v i) 0 := fun i => by
    have hne : x i + 0 * v i - st.lv i ≠ 0 := by
      have := (hx i).1
      intro h; linarith
    have h := (hasDerivAt_const (0 : ℝ) (st.q i)).fun_div ((line i).sub_const (st.lv i)) hne
    refine h.congr_deriv ?_
    simp
    ring
  have hs := ((HasDerivAt.fun_sum fun i (_ : i ∈ Finset.univ) => hp i).const_add st.fval).fun_add
    (HasDerivAt.fun_sum fun i (_ : i ∈ Finset.univ) => hq i)
  refine hs.congr_deriv ?_
  rw [← Finset.sum_add_distrib]
  refine Finset.sum_congr rfl fun i _ => ?_
  simp only [mmaGradient]
  ring

/-- **C155.**  The product with the Hessian is the derivative of the gradient along the vector. -/
theorem C155_hessian {n : ℕ} (st : MmaState n) (x v : Fin n → ℝ) (hx : Between st x) (i : Fin n) :
    HasDerivAt (fun t => mmaGradient st (fun i => x i + t * v i) i) (mmaHessVec st v x i) 0 := by
  have line : HasDerivAt (fun t : ℝ => x i + t * v i) (v i) 0 := by
    simpa using ((hasDerivAt_id (0 : ℝ)).mul_const (v i)).const_add (x i)
  have hu : st.uv i - x i ≠ 0 := by
    have := (hx i).2
    intro h; linarith
  have hl : x i - st.lv i ≠ 0 := by
    have := (hx i).1
    intro h; linarith
  have hp : HasDerivAt (fun t : ℝ => st.p i / (st.uv i - (x i + t * v i)) ^ 2)
      (2 * (st.p i / (st.uv i - x i) ^ 3) * v i) 0 := by
    have h := (hasDerivAt_const (0 : ℝ) (st.p i)).fun_div ((line.const_sub (st.uv i)).fun_pow 2)
      (by simpa using hu)
    refine h.congr_deriv ?_
    simp
    field_simp
  have hq : HasDerivAt (fun t : ℝ => st.q i / (x i + t * v i - st.lv i) ^ 2)
      (-(2 * (st.q i / (x i - st.lv i) ^ 3)) * v i) 0 := by
    have h := (hasDerivAt_const (0 : ℝ) (st.q i)).fun_div ((line.sub_const (st.lv i)).fun_pow 2)
      (by simpa using hl)
    refine h.congr_deriv ?_
    simp
    field_simp
  refine (hp.fun_add hq.fun_neg).congr_deriv ?_
  simp only [mmaHessVec, mmaDiagonal]
  ring

theorem around_signs {n : ℕ} (obj : MmaObjective n) (l u x : Fin n → ℝ) (i : Fin n) :
    0 ≤ (mmaAround obj l u x).p i ∧ 0 ≤ (mmaAround obj l u x).q i := by
  constructor
  · exact mul_nonneg (le_max_left _ _) (sq_nonneg _)
  · simp only [mmaAround]
    have : min 0 (obj.gradient x i) ≤ 0 := min_le_left _ _
    nlinarith [sq_nonneg (x i - (x i + 1 * l i))]

/-- **C155.**  The approximation made by an update is convex between its asymptotes: no entry of the Hessian is
negative, and an entry is zero exactly if the gradient of the objective at the point of the update has none there. -/
theorem C155_convex {n : ℕ} (obj : MmaObjective n) (l u x0 : Fin n → ℝ) (st : MmaState n) (t : MmaUpdate)
    (ht : t ≠ .temp) (hl : ∀ i, l i < 0) (hu : ∀ i, 0 < u i) (x : Fin n → ℝ)
    (hx : Between (mmaUpdate obj l u st x0 t) x) (i : Fin n) :
    0 ≤ mmaHessVec (mmaUpdate obj l u st x0 t) (fun _ => 1) x i ∧
      (mmaHessVec (mmaUpdate obj l u st x0 t) (fun _ => 1) x i = 0 ↔ obj.gradient x0 i = 0) := by
  have e : mmaUpdate obj l u st x0 t = mmaAround obj l u x0 := by
    cases t <;> first | exact absurd rfl ht | rfl
  rw [e] at hx ⊢
  obtain ⟨sp, sq⟩ := around_signs obj l u x0 i
  have h1 : 0 < ((mmaAround obj l u x0).uv i - x i) ^ 3 := by
    have := (hx i).2
    exact pow_pos (by linarith) 3
  have h2 : 0 < (x i - (mmaAround obj l u x0).lv i) ^ 3 := by
    have := (hx i).1
    exact pow_pos (by linarith) 3
  have a := div_nonneg sp h1.le
  have b := div_nonneg sq h2.le
  simp only [mmaHessVec, mmaDiagonal, mul_one]
  refine ⟨by linarith, ?_⟩
  have up : (0 : ℝ) < (x0 i + 1 * u i - x0 i) ^ 2 := by
    have := hu i
    exact pow_pos (by linarith) 2
  have lp : (0 : ℝ) < (x0 i - (x0 i + 1 * l i)) ^ 2 := by
    have := hl i
    exact pow_pos (by linarith) 2
  constructor
  · intro h
    have pz : (mmaAround obj l u x0).p i / ((mmaAround obj l u x0).uv i - x i) ^ 3 = 0 := by linarith
    have qz : (mmaAround obj l u x0).q i / (x i - (mmaAround obj l u x0).lv i) ^ 3 = 0 := by linarith
    rw [div_eq_zero_iff, or_iff_left h1.ne'] at pz
    rw [div_eq_zero_iff, or_iff_left h2.ne'] at qz
    simp only [mmaAround] at pz qz
    rw [mul_eq_zero, or_iff_left up.ne'] at pz
    rw [neg_eq_zero, mul_eq_zero, or_iff_left lp.ne'] at qz
    exact le_antisymm (max_eq_left_iff.1 pz) (min_eq_left_iff.1 qz)
  · intro h
    simp [mmaAround, h]

/-- **C155.**  Where it is a number, the product with the inverse of the Hessian is undone by the product with the
Hessian. -/
theorem C155_inverse {n : ℕ} (st : MmaState n) (v w x : Fin n → ℝ)
    (h : ∀ i, mmaInvHessVec st v x i = some (w i)) (i : Fin n) : mmaHessVec st w x i = v i := by
  have := h i
  unfold mmaInvHessVec at this
  split_ifs at this with h0
  simp only [Option.some.injEq] at this
  rw [mmaHessVec, ← this]
  field_simp

/-- **C155 (a finding).**  An entry of the product with the inverse of the Hessian is a division by zero exactly where
the gradient of the objective at the point of the update is zero. -/
theorem C155_inverse_fails {n : ℕ} (obj : MmaObjective n) (l u x0 : Fin n → ℝ) (st : MmaState n) (t : MmaUpdate)
    (ht : t ≠ .temp) (hl : ∀ i, l i < 0) (hu : ∀ i, 0 < u i) (x v : Fin n → ℝ)
    (hx : Between (mmaUpdate obj l u st x0 t) x) (i : Fin n) :
    mmaInvHessVec (mmaUpdate obj l u st x0 t) v x i = none ↔ obj.gradient x0 i = 0 := by
  rw [← (C155_convex obj l u x0 st t ht hl hu x hx i).2]
  unfold mmaInvHessVec mmaHessVec
  rw [mul_one]
  split_ifs with h <;> simp [h]

/-- The objective of one variable that is the variable itself, with asymptotes at one below and above zero. -/
example : Between (mmaUpdate (⟨fun x => x 0, fun _ _ => 1⟩ : MmaObjective 1) (fun _ => -1) (fun _ => 1)
      ⟨0, fun _ => 0, fun _ => 0, fun _ => 0, fun _ => 0⟩ (fun _ => 0) .trial) (fun _ => 1 / 2) ∧
    mmaValue (mmaUpdate (⟨fun x => x 0, fun _ _ => 1⟩ : MmaObjective 1) (fun _ => -1) (fun _ => 1)
      ⟨0, fun _ => 0, fun _ => 0, fun _ => 0, fun _ => 0⟩ (fun _ => 0) .initial) (fun _ => 0) = 1 := by
  constructor
  · intro i
    simp [mmaUpdate, mmaAround]
    norm_num
  · rw [C155_value_at_fails _ _ _ _ _ _ (by decide) (fun _ => by norm_num) (fun _ => by norm_num)]
    simp

end Fierro
