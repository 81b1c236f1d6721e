import Mathlib.Analysis.SpecialFunctions.Pow.Deriv
import Mathlib.Analysis.SpecialFunctions.Sqrt
import Mathlib.Analysis.SpecialFunctions.ExpDeriv
import Verif.Props.EvpLargeFlow
import Verif.Props.EvpOrient

/-!
# C94: isotropic viscoplasticity and its hardening
-/

namespace Fierro

open Large Matrix

/-- The deviator of a tensor. -/
noncomputable def devT (S : T2 ℝ) : T2 ℝ := fun i j => S i j - if i = j then (S 0 0 + S 1 1 + S 2 2) / 3 else 0

/-- Magnitude of a tensor. -/
noncomputable def magT (S : T2 ℝ) : ℝ := Real.sqrt (∑ i, ∑ j, S i j ^ 2)

namespace Large

/-- Parameters that make sense: positive flow stress, a rate that is not negative, an exponent of at least
one. -/
structure J2.Good (d : J2) : Prop where
  rate : 0 ≤ d.edotp0
  flow : 0 < d.sigma0gr
  expo : 1 ≤ d.nrs

end Large

/-! ### The flow rule -/

theorem j2Norm_nonneg (x : Fin 6 → ℝ) : 0 ≤ j2Norm x := Real.sqrt_nonneg _

theorem j2Norm_sq (x : Fin 6 → ℝ) : j2Norm x ^ 2 = ∑ k : Fin 5, x k.castSucc * x k.castSucc :=
  Real.sq_sqrt (Finset.sum_nonneg fun _ _ => mul_self_nonneg _)

theorem j2Mag_eq (d : J2) (h : d.Good) (x : Fin 6 → ℝ) :
    d.mag x = 3 / 2 * d.edotp0 / d.sigma0gr * (j2Norm x / d.sigma0gr) ^ (d.nrs.toNat - 1) := by
  have hn := h.expo
  have e : d.nrs - 1 = ((d.nrs.toNat - 1 : ℕ) : ℤ) := by omega
  rw [J2.mag, C65_power _ _ (Or.inr (by omega)), e, zpow_natCast]
  norm_num

theorem j2Mag_nonneg (d : J2) (h : d.Good) (x : Fin 6 → ℝ) : 0 ≤ d.mag x := by
  rw [j2Mag_eq d h]
  have := h.rate
  have := h.flow
  have := j2Norm_nonneg x
  positivity

theorem chg5_dev (q : BasisConst ℝ) (hq : q.Exact) (S : T2 ℝ) (hS : S.Sym) :
    chgBasis1 q (by omega : 5 ≤ 6) (chgBasis2 q (by omega : 5 ≤ 6) S) = devT S := by
  funext i j
  rw [C66_deviator q hq, devT, ← hS i j]
  ring

theorem j2Norm_dev (q : BasisConst ℝ) (hq : q.Exact) (S : T2 ℝ) (hS : S.Sym) :
    j2Norm (chgBasis2 q le_rfl S) = magT (devT S) := by
  rw [j2Norm, magT]
  congr 1
  have e := C66_inner_deviator q S (chgBasis2 q (by omega : 5 ≤ 6) S)
  rw [chg5_dev q hq S hS] at e
  have e1 : ∑ k : Fin 5, chgBasis2 q le_rfl S k.castSucc * chgBasis2 q le_rfl S k.castSucc =
      ∑ n : Fin 5, chgBasis2 q (by omega : 5 ≤ 6) S n * chgBasis2 q (by omega : 5 ≤ 6) S n := rfl
  rw [e1, e]
  simp [devT, Fin.sum_univ_three]
  ring

/-- **C94.** The plastic rate of an isotropic point is the deviator of the stress times
`3/2 · ε̇₀/σ₀ · (‖dev σ‖/σ₀)ⁿ⁻¹`: it is symmetric and without trace, and does not depend on the pressure. -/
theorem C94_flow_rule (q : BasisConst ℝ) (hq : q.Exact) (d : J2) (h : d.Good) (S : T2 ℝ) (hS : S.Sym)
    (i j : Fin 3) :
    chgBasis1 q le_rfl (d.rate6 (chgBasis2 q le_rfl S)) i j =
      3 / 2 * d.edotp0 / d.sigma0gr * (magT (devT S) / d.sigma0gr) ^ (d.nrs.toNat - 1) * devT S i j := by
  rw [chg6_of_five q _ (by simp [J2.rate6])]
  rw [← j2Norm_dev q hq S hS, ← j2Mag_eq d h, ← chg5_dev q hq S hS]
  have e : (fun k : Fin 5 => d.rate6 (chgBasis2 q le_rfl S) k.castSucc) =
      fun k : Fin 5 => d.mag (chgBasis2 q le_rfl S) * chgBasis2 q (by omega : 5 ≤ 6) S k := by
    funext k
    have : (k.castSucc : Fin 6).val < 5 := k.isLt
    rw [J2.rate6, if_pos this]; rfl
  rw [e]
  simp only [chgBasis1_eq, Finset.mul_sum]
  exact Finset.sum_congr rfl fun k _ => by ring

theorem devT_trace (S : T2 ℝ) : devT S 0 0 + devT S 1 1 + devT S 2 2 = 0 := by
  simp only [devT, if_true]; ring

/-- **C94.** The flow is dissipative: its power is `3/2 · ε̇₀/σ₀ · (‖dev σ‖/σ₀)ⁿ⁻¹ · ‖dev σ‖²`. -/
theorem C94_dissipation (q : BasisConst ℝ) (hq : q.Exact) (d : J2) (h : d.Good) (S : T2 ℝ) (hS : S.Sym) :
    ∑ i, ∑ j, S i j * chgBasis1 q le_rfl (d.rate6 (chgBasis2 q le_rfl S)) i j =
      3 / 2 * d.edotp0 / d.sigma0gr * (magT (devT S) / d.sigma0gr) ^ (d.nrs.toNat - 1) *
        magT (devT S) ^ 2 ∧
    0 ≤ ∑ i, ∑ j, S i j * chgBasis1 q le_rfl (d.rate6 (chgBasis2 q le_rfl S)) i j := by
  have e : ∑ i, ∑ j, S i j * chgBasis1 q le_rfl (d.rate6 (chgBasis2 q le_rfl S)) i j =
      3 / 2 * d.edotp0 / d.sigma0gr * (magT (devT S) / d.sigma0gr) ^ (d.nrs.toNat - 1) *
        magT (devT S) ^ 2 := by
    simp only [C94_flow_rule q hq d h S hS]
    have hm : magT (devT S) ^ 2 = ∑ i, ∑ j, devT S i j ^ 2 :=
      Real.sq_sqrt (Finset.sum_nonneg fun _ _ => Finset.sum_nonneg fun _ _ => sq_nonneg _)
    rw [hm]
    generalize 3 / 2 * d.edotp0 / d.sigma0gr * (magT (devT S) / d.sigma0gr) ^ (d.nrs.toNat - 1) = c
    simp [devT, Fin.sum_univ_three]
    ring
  refine ⟨e, ?_⟩
  rw [e]
  have := h.rate
  have := h.flow
  have : 0 ≤ magT (devT S) := Real.sqrt_nonneg _
  positivity

theorem matT_turn (Q S : M3) (hQ : Qᵀ * Q = 1) :
    devT (fun i j => (Q * S * Qᵀ) i j) = fun i j => (Q * Matrix.of (devT S) * Qᵀ) i j := by
  have hQ' : Q * Qᵀ = 1 := mul_eq_one_comm.mp hQ
  have htr : (Q * S * Qᵀ).trace = S.trace := by
    rw [Matrix.trace_mul_comm, ← Matrix.mul_assoc, hQ, Matrix.one_mul]
  rw [Matrix.trace_fin_three, Matrix.trace_fin_three] at htr
  have e : Matrix.of (devT S) = S - ((S 0 0 + S 1 1 + S 2 2) / 3) • (1 : M3) := by
    ext i j
    simp only [Matrix.of_apply, devT, Matrix.sub_apply, Matrix.smul_apply, Matrix.one_apply, smul_eq_mul]
    split_ifs <;> ring
  funext i j
  rw [e, Matrix.mul_sub, Matrix.sub_mul, Matrix.mul_smul, Matrix.mul_one, Matrix.smul_mul, hQ', devT, htr]
  simp only [Matrix.sub_apply, Matrix.smul_apply, Matrix.one_apply, smul_eq_mul]
  split_ifs <;> ring

theorem magT_turn (Q A : M3) (hQ : Qᵀ * Q = 1) :
    magT (fun i j => (Q * A * Qᵀ) i j) = magT fun i j => A i j := by
  have e : ∀ B : M3, magT (fun i j => B i j) = Real.sqrt (normSq B) := by
    intro B
    rw [magT, normSq]
    congr 1
    exact Finset.sum_congr rfl fun i _ => Finset.sum_congr rfl fun j _ => by ring
  rw [e, e, normSq_trace, normSq_trace]
  congr 1
  have hh : (Q * A * Qᵀ)ᵀ * (Q * A * Qᵀ) = Q * (Aᵀ * A) * Qᵀ := by
    rw [Matrix.transpose_mul, Matrix.transpose_mul, Matrix.transpose_transpose]
    calc Q * (Aᵀ * Qᵀ) * (Q * A * Qᵀ) = Q * Aᵀ * (Qᵀ * Q) * A * Qᵀ := by simp only [Matrix.mul_assoc]
      _ = Q * (Aᵀ * A) * Qᵀ := by rw [hQ, Matrix.mul_one]; simp only [Matrix.mul_assoc]
  rw [hh, Matrix.trace_mul_comm, ← Matrix.mul_assoc, hQ, Matrix.one_mul]

/-- **C94.** The material has no preferred direction: turning the stress turns the plastic rate. -/
theorem C94_isotropic (q : BasisConst ℝ) (hq : q.Exact) (d : J2) (h : d.Good) (S Q : M3) (hS : Sᵀ = S)
    (hQ : Qᵀ * Q = 1) :
    Matrix.of (chgBasis1 q le_rfl (d.rate6 (chgBasis2 q le_rfl fun i j => (Q * S * Qᵀ) i j))) =
      Q * Matrix.of (chgBasis1 q le_rfl (d.rate6 (chgBasis2 q le_rfl fun i j => S i j))) * Qᵀ := by
  have hS1 : T2.Sym (fun i j => S i j) := fun i j => by
    have := congrFun (congrFun hS i) j
    rw [Matrix.transpose_apply] at this
    exact this.symm
  have hS2 : T2.Sym (fun i j => (Q * S * Qᵀ) i j) := by
    have e : (Q * S * Qᵀ)ᵀ = Q * S * Qᵀ := by
      rw [Matrix.transpose_mul, Matrix.transpose_mul, Matrix.transpose_transpose, hS, Matrix.mul_assoc]
    intro i j
    have := congrFun (congrFun e i) j
    rw [Matrix.transpose_apply] at this
    exact this.symm
  have e1 : Matrix.of (chgBasis1 q le_rfl (d.rate6 (chgBasis2 q le_rfl fun i j => S i j))) =
      (3 / 2 * d.edotp0 / d.sigma0gr * (magT (devT fun i j => S i j) / d.sigma0gr) ^ (d.nrs.toNat - 1)) •
        Matrix.of (devT fun i j => S i j) := by
    ext i j
    rw [Matrix.of_apply, C94_flow_rule q hq d h _ hS1, Matrix.smul_apply, Matrix.of_apply, smul_eq_mul]
  ext i j
  rw [e1, Matrix.of_apply, C94_flow_rule q hq d h _ hS2, matT_turn Q S hQ, magT_turn Q _ hQ,
    Matrix.mul_smul, Matrix.smul_mul, Matrix.smul_apply, smul_eq_mul]
  rfl

/-! ### Monotonicity and tangent -/

theorem j2_inner (d : J2) (x y : Fin 6 → ℝ) :
    ∑ i, d.rate6 x i * y i = d.mag x * ∑ k : Fin 5, x k.castSucc * y k.castSucc := by
  rw [Fin.sum_univ_castSucc]
  have hl : d.rate6 x (Fin.last 5) = 0 := by simp [J2.rate6]
  rw [hl, zero_mul, add_zero, Finset.mul_sum]
  refine Finset.sum_congr rfl fun k _ => ?_
  have : (k.castSucc : Fin 6).val < 5 := k.isLt
  rw [J2.rate6, if_pos this]; ring

theorem inner5_le (x y : Fin 6 → ℝ) :
    |∑ k : Fin 5, x k.castSucc * y k.castSucc| ≤ j2Norm x * j2Norm y := by
  apply abs_le_of_sq_le_sq _ (mul_nonneg (j2Norm_nonneg _) (j2Norm_nonneg _))
  rw [mul_pow, j2Norm_sq, j2Norm_sq]
  have := Finset.sum_mul_sq_le_sq_mul_sq Finset.univ (fun k : Fin 5 => x k.castSucc)
    (fun k : Fin 5 => y k.castSucc)
  simpa only [pow_two] using this

/-- **C94.** The flow rule is monotone: for any two stresses the difference of the rates contracted with
the difference of the stresses is not negative. -/
theorem C94_monotone (d : J2) (h : d.Good) (x y : Fin 6 → ℝ) :
    0 ≤ ∑ i, (d.rate6 x i - d.rate6 y i) * (x i - y i) := by
  have e : ∑ i, (d.rate6 x i - d.rate6 y i) * (x i - y i) =
      (∑ i, d.rate6 x i * x i) - (∑ i, d.rate6 x i * y i) - (∑ i, d.rate6 y i * x i) +
        ∑ i, d.rate6 y i * y i := by
    rw [← Finset.sum_sub_distrib, ← Finset.sum_sub_distrib, ← Finset.sum_add_distrib]
    exact Finset.sum_congr rfl fun i _ => by ring
  rw [e, j2_inner, j2_inner, j2_inner, j2_inner, ← j2Norm_sq, ← j2Norm_sq]
  have hc : ∑ k : Fin 5, y k.castSucc * x k.castSucc = ∑ k : Fin 5, x k.castSucc * y k.castSucc :=
    Finset.sum_congr rfl fun k _ => mul_comm _ _
  rw [hc]
  have hxy := (abs_le.mp (inner5_le x y)).2
  have hx := j2Norm_nonneg x
  have hy := j2Norm_nonneg y
  have mx := j2Mag_nonneg d h x
  have my := j2Mag_nonneg d h y
  have hmono : 0 ≤ (d.mag x * j2Norm x - d.mag y * j2Norm y) * (j2Norm x - j2Norm y) := by
    have key : ∀ a b : Fin 6 → ℝ, j2Norm a ≤ j2Norm b → d.mag a * j2Norm a ≤ d.mag b * j2Norm b := by
      intro a b hab
      have ha := j2Norm_nonneg a
      have hf := h.flow
      have : d.mag a ≤ d.mag b := by
        rw [j2Mag_eq d h, j2Mag_eq d h]
        have := h.rate
        gcongr
      exact mul_le_mul this hab ha (j2Mag_nonneg d h b)
    rcases le_total (j2Norm x) (j2Norm y) with hle | hle
    · have := key x y hle
      exact mul_nonneg_of_nonpos_of_nonpos (by linarith) (by linarith)
    · have := key y x hle
      exact mul_nonneg (by linarith) (by linarith)
  nlinarith [mul_le_mul_of_nonneg_left hxy mx, mul_le_mul_of_nonneg_left hxy my]

theorem j2Tangent_apply (d : J2) (x v : Fin 6 → ℝ) (T : Dense 6 ℝ) (hT : d.tangent66 x = some T)
    (i : Fin 6) :
    j2Norm x ≠ 0 ∧ ∑ j, T i j * v j = if i.val < 5 then
      d.mag x * ((d.nrs - 1) * x i / j2Norm x ^ 2 * (∑ k : Fin 5, x k.castSucc * v k.castSucc) + v i)
      else 0 := by
  rw [J2.tangent66] at hT
  split_ifs at hT with hn
  obtain rfl := Option.some.inj hT
  refine ⟨hn, ?_⟩
  simp only [intDiv_delta6, Nat.cast_ite, Nat.cast_one, Nat.cast_zero]
  rw [Fin.sum_univ_castSucc]
  have hlast : ¬ ((Fin.last 5 : Fin 6).val < 5) := by simp
  by_cases hi : i.val < 5
  · rw [if_pos hi, if_neg (fun hh => hlast hh.2), zero_mul, add_zero]
    have hk : ∀ k : Fin 5, (k.castSucc : Fin 6).val < 5 := fun k => k.isLt
    simp only [hi, hk, and_self, if_true]
    obtain ⟨m, rfl⟩ : ∃ m : Fin 5, m.castSucc = i := ⟨⟨i.val, hi⟩, rfl⟩
    have hdel : ∑ k : Fin 5, d.mag x * (if m.castSucc = k.castSucc then (1 : ℝ) else 0) * v k.castSucc =
        d.mag x * v m.castSucc := by
      simp [Fin.castSucc_inj]
    have hsplit : ∀ k : Fin 5, d.mag x * ((d.nrs - 1) * x m.castSucc / j2Norm x * x k.castSucc / j2Norm x +
        if m.castSucc = k.castSucc then (1 : ℝ) else 0) * v k.castSucc =
        d.mag x * ((d.nrs - 1) * x m.castSucc / j2Norm x ^ 2) * (x k.castSucc * v k.castSucc) +
          d.mag x * (if m.castSucc = k.castSucc then (1 : ℝ) else 0) * v k.castSucc := by
      intro k
      field_simp
    rw [Finset.sum_congr rfl fun k _ => hsplit k, Finset.sum_add_distrib, hdel, ← Finset.mul_sum]
    ring
  · rw [if_neg hi, if_neg (fun hh => hi hh.1), zero_mul, add_zero]
    simp [hi]

/-- **C94.** The tangent is the derivative of the plastic rate in every direction, wherever the deviator
is not zero. -/
theorem C94_tangent_exact (d : J2) (h : d.Good) (x v : Fin 6 → ℝ) (T : Dense 6 ℝ)
    (hT : d.tangent66 x = some T) (i : Fin 6) :
    HasDerivAt (fun t : ℝ => d.rate6 (fun k => x k + t * v k) i) (∑ j, T i j * v j) 0 := by
  obtain ⟨hn, hap⟩ := j2Tangent_apply d x v T hT i
  rw [hap]
  by_cases hi : i.val < 5
  · rw [if_pos hi]
    have hlin : ∀ k : Fin 6, HasDerivAt (fun t : ℝ => x k + t * v k) (v k) 0 := by
      intro k
      have := ((hasDerivAt_id (0 : ℝ)).mul_const (v k)).const_add (x k)
      simpa using this
    have hpos : 0 < ∑ k : Fin 5, x k.castSucc * x k.castSucc := by
      rw [← j2Norm_sq]; positivity
    have hnorm : HasDerivAt (fun t : ℝ => j2Norm fun k => x k + t * v k)
        ((∑ k : Fin 5, x k.castSucc * v k.castSucc) / j2Norm x) 0 := by
      have hs : HasDerivAt (fun t : ℝ => ∑ k : Fin 5, (x k.castSucc + t * v k.castSucc) *
          (x k.castSucc + t * v k.castSucc)) (2 * ∑ k : Fin 5, x k.castSucc * v k.castSucc) 0 := by
        rw [Finset.mul_sum]
        refine HasDerivAt.fun_sum fun k _ => ?_
        refine ((hlin k.castSucc).mul (hlin k.castSucc)).congr_deriv ?_
        ring
      have h0 : (∑ k : Fin 5, (x k.castSucc + 0 * v k.castSucc) * (x k.castSucc + 0 * v k.castSucc)) ≠ 0 := by
        simp only [zero_mul, add_zero]; exact hpos.ne'
      refine (hs.sqrt h0).congr_deriv ?_
      simp only [zero_mul, add_zero]
      show _ = _ / Real.sqrt _
      rw [mul_div_mul_left _ _ (by norm_num)]
    have e : (fun t : ℝ => d.rate6 (fun k => x k + t * v k) i) = fun t : ℝ =>
        3 / 2 * d.edotp0 / d.sigma0gr * ((j2Norm fun k => x k + t * v k) / d.sigma0gr) ^ (d.nrs.toNat - 1) *
          (x i + t * v i) := by
      funext t
      rw [J2.rate6, if_pos hi, j2Mag_eq d h]
    rw [e]
    have hx0 : (j2Norm fun k => x k + 0 * v k) = j2Norm x := by simp only [zero_mul, add_zero]
    refine (((hnorm.div_const d.sigma0gr).fun_pow (d.nrs.toNat - 1)).const_mul
      (3 / 2 * d.edotp0 / d.sigma0gr)).mul (hlin i) |>.congr_deriv ?_
    rw [hx0, j2Mag_eq d h, zero_mul, add_zero]
    have hf := h.flow.ne'
    have hexp : (d.nrs : ℝ) - 1 = ((d.nrs.toNat - 1 : ℕ) : ℝ) := by
      have := h.expo
      have h2 : d.nrs - 1 = ((d.nrs.toNat - 1 : ℕ) : ℤ) := by omega
      exact_mod_cast h2
    rw [hexp]
    rcases Nat.eq_zero_or_pos (d.nrs.toNat - 1) with h0 | h0
    · rw [h0]; simp
    · obtain ⟨m, hm⟩ : ∃ m, d.nrs.toNat - 1 = m + 1 := ⟨d.nrs.toNat - 2, by omega⟩
      rw [hm, Nat.add_sub_cancel, pow_succ]
      generalize (j2Norm x / d.sigma0gr) ^ m = w
      field_simp
  · rw [if_neg hi]
    have e : (fun t : ℝ => d.rate6 (fun k => x k + t * v k) i) = fun _ => 0 := by
      funext t; rw [J2.rate6, if_neg hi]
    rw [e]
    exact hasDerivAt_const _ _

/-- **C94.** The tangent never lets the material soften: its quadratic form is not negative. -/
theorem C94_tangent_nonneg (d : J2) (h : d.Good) (x v : Fin 6 → ℝ) (T : Dense 6 ℝ)
    (hT : d.tangent66 x = some T) : 0 ≤ ∑ i, ∑ j, v i * T i j * v j := by
  have e : ∑ i, ∑ j, v i * T i j * v j = ∑ i, v i * ∑ j, T i j * v j := by
    simp only [Finset.mul_sum]
    exact Finset.sum_congr rfl fun i _ => Finset.sum_congr rfl fun j _ => by ring
  have hn := (j2Tangent_apply d x v T hT 0).1
  rw [e]
  simp only [fun i => (j2Tangent_apply d x v T hT i).2]
  rw [Fin.sum_univ_castSucc]
  have hlast : ¬ ((Fin.last 5 : Fin 6).val < 5) := by simp
  have hk : ∀ k : Fin 5, (k.castSucc : Fin 6).val < 5 := fun k => k.isLt
  rw [if_neg hlast, mul_zero, add_zero]
  simp only [hk, if_true]
  have e2 : ∀ k : Fin 5, v k.castSucc * (d.mag x * ((d.nrs - 1) * x k.castSucc / j2Norm x ^ 2 *
      (∑ k : Fin 5, x k.castSucc * v k.castSucc) + v k.castSucc)) =
      d.mag x * ((d.nrs - 1) / j2Norm x ^ 2 * (∑ k : Fin 5, x k.castSucc * v k.castSucc)) *
        (x k.castSucc * v k.castSucc) + d.mag x * (v k.castSucc * v k.castSucc) := fun k => by ring
  rw [Finset.sum_congr rfl fun k _ => e2 k, Finset.sum_add_distrib, ← Finset.mul_sum, ← Finset.mul_sum]
  have m0 := j2Mag_nonneg d h x
  have hexp : (0 : ℝ) ≤ (d.nrs : ℝ) - 1 := by
    have : (1 : ℝ) ≤ (d.nrs : ℝ) := by exact_mod_cast h.expo
    linarith
  have s0 : 0 ≤ ∑ k : Fin 5, v k.castSucc * v k.castSucc := Finset.sum_nonneg fun _ _ => mul_self_nonneg _
  have s1 : 0 ≤ d.mag x * ((d.nrs - 1) / j2Norm x ^ 2 * (∑ k : Fin 5, x k.castSucc * v k.castSucc)) *
      (∑ k : Fin 5, x k.castSucc * v k.castSucc) := by
    have : d.mag x * ((d.nrs - 1) / j2Norm x ^ 2 * (∑ k : Fin 5, x k.castSucc * v k.castSucc)) *
      (∑ k : Fin 5, x k.castSucc * v k.castSucc) =
      d.mag x * ((d.nrs - 1) / j2Norm x ^ 2) * (∑ k : Fin 5, x k.castSucc * v k.castSucc) ^ 2 := by ring
    rw [this]
    positivity
  exact add_nonneg s1 (mul_nonneg m0 s0)

/-! ### Findings about the flow rule -/

/-- Uniaxial stress. -/
def uniaxial (s : ℝ) : T2 ℝ := fun i j => if i = 0 ∧ j = 0 then s else 0

/-- **C94 (finding).** The reference rate is not reached at the flow stress: under uniaxial stress equal to
the flow stress the axial plastic rate is `√(2/3)ⁿ⁻¹ ε̇₀` instead of `ε̇₀`, because the magnitude of the
deviator is used where the equivalent stress is meant.  For the exponent 10 it is less than a sixth. -/
theorem C94_reference_rate_fails (q : BasisConst ℝ) (hq : q.Exact) (d : J2) (h : d.Good) :
    chgBasis1 q le_rfl (d.rate6 (chgBasis2 q le_rfl (uniaxial d.sigma0gr))) 0 0 =
        Real.sqrt (2 / 3) ^ (d.nrs.toNat - 1) * d.edotp0 ∧
      (1 < d.nrs → 0 < d.edotp0 → chgBasis1 q le_rfl (d.rate6 (chgBasis2 q le_rfl (uniaxial d.sigma0gr))) 0 0 <
        d.edotp0) := by
  have hS : (uniaxial d.sigma0gr).Sym := by
    intro i j; simp only [uniaxial, and_comm]
  have hf := h.flow
  have hm : magT (devT (uniaxial d.sigma0gr)) = Real.sqrt (2 / 3) * d.sigma0gr := by
    have e : ∑ i, ∑ j, devT (uniaxial d.sigma0gr) i j ^ 2 = 2 / 3 * d.sigma0gr ^ 2 := by
      simp [devT, uniaxial, Fin.sum_univ_three]; ring
    rw [magT, e, Real.sqrt_mul (by norm_num), Real.sqrt_sq hf.le]
  have hd : devT (uniaxial d.sigma0gr) 0 0 = 2 / 3 * d.sigma0gr := by
    simp [devT, uniaxial]; ring
  have e : chgBasis1 q le_rfl (d.rate6 (chgBasis2 q le_rfl (uniaxial d.sigma0gr))) 0 0 =
        Real.sqrt (2 / 3) ^ (d.nrs.toNat - 1) * d.edotp0 := by
    rw [C94_flow_rule q hq d h _ hS, hm, hd, mul_div_cancel_right₀ _ hf.ne']
    field_simp
  refine ⟨e, fun h1 h2 => ?_⟩
  rw [e]
  have hlt : Real.sqrt (2 / 3) ^ (d.nrs.toNat - 1) < 1 := by
    refine pow_lt_one₀ (Real.sqrt_nonneg _) ?_ (by omega)
    rw [show (1 : ℝ) = Real.sqrt 1 by simp]
    exact Real.sqrt_lt_sqrt (by norm_num) (by norm_num)
  nlinarith

/-- **C94 (finding).** An isotropic point whose stress is a pure pressure has no tangent: the quotient
`0/0` is formed and the stress update returns no number, whatever the strain rate is. -/
theorem C94_pressure_fails (d : Large.EvpalIn) (j : J2) (hj : d.flow = .j2 j) (hq : d.q.Exact) (p : ℝ)
    (hsg : d.sg = fun i j => if i = j then p else 0) (junk : Fin 6 → ℝ) : d.run junk = none := by
  have hS : d.sg.Sym := by
    rw [hsg]; intro i j; simp only [eq_comm]
  have hn : j2Norm d.xlambda6 = 0 := by
    rw [Large.EvpalIn.xlambda6, j2Norm_dev d.q hq d.sg hS, hsg, magT]
    have : ∀ i j : Fin 3, devT (fun i j : Fin 3 => if i = j then p else 0) i j = 0 := by
      intro i j
      simp only [devT, if_true]
      split_ifs <;> ring
    simp [this]
  have hat : ∀ old : Fin 6 → ℝ,
      (d.cut true old 10 ⟨d.xlambda6, junk, 2 * 1⟩ 1).at_ = d.xlambda6 := by
    intro old
    simp [Large.EvpalIn.cut]
  have ht : d.flow.tangent66 d.xlambda6 = none := by
    rw [hj]
    show j.tangent66 _ = none
    rw [J2.tangent66, if_pos hn]
  have hl : d.solve junk = none := by
    show d.loop (99 + 1) 0 junk ⟨d.xlambda6, junk, 1⟩ = none
    rw [Large.EvpalIn.loop]
    show (d.flow.tangent66 (d.cut true junk 10 ⟨d.xlambda6, junk, 2 * 1⟩ 1).at_).bind _ = none
    rw [hat, ht]; rfl
  rw [Large.EvpalIn.run, hl]; rfl

/-! ### Hardening -/

/-- **C94.** The rate that drives hardening is the equivalent rate `√(2/3 · D':D')` of the deviatoric
symmetric part: axial extension at constant volume with rate `e` gives `|e|`, spin gives nothing, and it
scales with the rate. -/
theorem C94_equivalent_rate (D : T2 ℝ) :
    vm D = Real.sqrt (2 / 3) * magT (devT fun i j => (D i j + D j i) / 2) ∧ 0 ≤ vm D ∧
      (∀ c, vm (fun i j => c * D i j) = |c| * vm D) ∧
      (∀ e, vm (fun i j => if i = j then (if i = 0 then e else -e / 2) else 0) = |e|) ∧
      ((∀ i j, D i j = -D j i) → vm D = 0) := by
  have key : ∀ D : T2 ℝ, vm D = Real.sqrt (2 / 3) * magT (devT fun i j => (D i j + D j i) / 2) := by
    intro D
    rw [vm, magT, ← Real.sqrt_mul (by norm_num)]
    congr 2
    rw [Finset.sum_comm]
    refine Finset.sum_congr rfl fun i _ => Finset.sum_congr rfl fun j _ => ?_
    rw [intDiv_delta i j]
    simp only [devT]
    split_ifs <;> ring
  have hmag : ∀ (c : ℝ) (A : T2 ℝ), magT (fun i j => c * A i j) = |c| * magT A := by
    intro c A
    rw [magT, magT, ← Real.sqrt_sq (abs_nonneg c), ← Real.sqrt_mul (sq_nonneg _), sq_abs]
    congr 1
    simp only [Finset.mul_sum, mul_pow]
  refine ⟨key D, ?_, ?_, ?_, ?_⟩
  · rw [key]; exact mul_nonneg (Real.sqrt_nonneg _) (Real.sqrt_nonneg _)
  · intro c
    rw [key, key]
    have : devT (fun i j => (c * D i j + c * D j i) / 2) =
        fun i j => c * devT (fun i j => (D i j + D j i) / 2) i j := by
      funext i j
      simp only [devT]
      split_ifs <;> ring
    rw [this, hmag]; ring
  · intro e
    rw [key, magT, ← Real.sqrt_mul (by norm_num), ← Real.sqrt_sq_eq_abs]
    congr 1
    simp [devT, Fin.sum_univ_three]
    ring
  · intro hD
    rw [key]
    have : ∀ i j, devT (fun i j => (D i j + D j i) / 2) i j = 0 := by
      intro i j
      have h0 := hD 0 0
      have h1 := hD 1 1
      have h2 := hD 2 2
      have hij := hD i j
      simp only [devT]
      split_ifs <;> linarith
    simp [magT, this]

namespace Large

/-- Hardening parameters that make sense. -/
structure J2Harden.Good (h : J2Harden) : Prop where
  sat : 0 < h.sigma1
  slope : 0 ≤ h.thet1

end Large

theorem flow_factor (h : J2Harden) (g : ℝ) (hg : 0 ≤ g) :
    0 ≤ 1 - Real.exp (-g * |h.thet0 / h.sigma1|) ∧ 1 - Real.exp (-g * |h.thet0 / h.sigma1|) ≤ 1 := by
  have h1 : Real.exp (-g * |h.thet0 / h.sigma1|) ≤ 1 := by
    rw [Real.exp_le_one_iff]
    have := mul_nonneg hg (abs_nonneg (h.thet0 / h.sigma1))
    linarith
  have h2 := Real.exp_pos (-g * |h.thet0 / h.sigma1|)
  constructor <;> linarith

theorem flow_mono (h : J2Harden) (hh : h.Good) (a b : ℝ) (ha : 0 ≤ a) (hab : a ≤ b) :
    h.flow a ≤ h.flow b := by
  rw [J2Harden.flow, J2Harden.flow]
  have hs := hh.sat
  have ht := hh.slope
  have f1 := flow_factor h a ha
  have hexp : Real.exp (-b * |h.thet0 / h.sigma1|) ≤ Real.exp (-a * |h.thet0 / h.sigma1|) := by
    apply Real.exp_le_exp.mpr
    have := mul_le_mul_of_nonneg_right hab (abs_nonneg (h.thet0 / h.sigma1))
    linarith
  have k1 : h.sigma1 + h.thet1 * a ≤ h.sigma1 + h.thet1 * b := by
    have := mul_le_mul_of_nonneg_left hab ht
    linarith
  have k2 : 0 ≤ h.sigma1 + h.thet1 * b := by
    have := mul_nonneg ht (ha.trans hab)
    linarith
  have := mul_le_mul k1 (by linarith : 1 - Real.exp (-a * |h.thet0 / h.sigma1|) ≤
    1 - Real.exp (-b * |h.thet0 / h.sigma1|)) f1.1 k2
  linarith

/-- **C94.** The flow stress as a function of the accumulated strain: it starts at `σ₀` with slope
`|θ₀|`, never falls, and stays between `σ₀` and `σ₀ + σ₁ + θ₁ g`. -/
theorem C94_flow_stress (h : J2Harden) (hh : h.Good) :
    h.flow 0 = h.sigma0 ∧ HasDerivAt h.flow |h.thet0| 0 ∧
      (∀ a b, 0 ≤ a → a ≤ b → h.flow a ≤ h.flow b) ∧
      ∀ g, 0 ≤ g → h.sigma0 ≤ h.flow g ∧ h.flow g ≤ h.sigma0 + h.sigma1 + h.thet1 * g := by
  have h0 : h.flow 0 = h.sigma0 := by simp [J2Harden.flow]
  refine ⟨h0, ?_, flow_mono h hh, fun g hg => ⟨?_, ?_⟩⟩
  · have hs := hh.sat
    have d1 : HasDerivAt (fun g : ℝ => h.sigma1 + h.thet1 * g) h.thet1 0 := by
      have := ((hasDerivAt_id (0 : ℝ)).const_mul h.thet1).const_add h.sigma1
      simpa using this
    have d2 : HasDerivAt (fun g : ℝ => 1 - Real.exp (-g * |h.thet0 / h.sigma1|)) |h.thet0 / h.sigma1| 0 := by
      have := (((hasDerivAt_id (0 : ℝ)).neg.mul_const |h.thet0 / h.sigma1|).exp).const_sub 1
      simpa using this
    have d3 := (d1.mul d2).const_add h.sigma0
    refine d3.congr_deriv ?_
    simp only [mul_zero, neg_zero, zero_mul, Real.exp_zero, sub_self, zero_add, add_zero]
    rw [abs_div, abs_of_pos hs]
    field_simp
  · rw [← h0]; exact flow_mono h hh 0 g le_rfl hg
  · rw [J2Harden.flow]
    have f := flow_factor h g hg
    have : 0 ≤ h.sigma1 + h.thet1 * g := by
      have := mul_nonneg hh.slope hg
      linarith [hh.sat]
    have := mul_le_mul_of_nonneg_left f.2 this
    linarith

/-- **C94.** Over every history of plastic rates and time increments that are not negative, the
accumulated strain is the sum of the equivalent increments, the flow stress is the hardening law at that
strain, and neither ever falls. -/
theorem C94_history (h : J2Harden) (hh : h.Good) (l : List (ℝ × T2 ℝ)) (hl : ∀ a ∈ l, 0 ≤ a.1) (g : ℝ)
    (hg : 0 ≤ g) :
    h.run (g, h.flow g) l =
        (g + (l.map fun a => vm a.2 * a.1).sum, h.flow (g + (l.map fun a => vm a.2 * a.1).sum)) ∧
      g ≤ (h.run (g, h.flow g) l).1 ∧ h.flow g ≤ (h.run (g, h.flow g) l).2 := by
  have hr : ∀ g, h.run (g, h.flow g) l =
      (g + (l.map fun a => vm a.2 * a.1).sum, h.flow (g + (l.map fun a => vm a.2 * a.1).sum)) := by
    clear hl hg
    induction l with
    | nil => intro g; simp [J2Harden.run]
    | cons a l ih =>
      intro g
      have e : h.run (g, h.flow g) (a :: l) = h.run (g + vm a.2 * a.1, h.flow (g + vm a.2 * a.1)) l := rfl
      rw [e, ih, List.map_cons, List.sum_cons, add_assoc]
  have hs : 0 ≤ (l.map fun a => vm a.2 * a.1).sum := by
    apply List.sum_nonneg
    intro t ht
    obtain ⟨a, ha, rfl⟩ := List.mem_map.mp ht
    exact mul_nonneg (C94_equivalent_rate a.2).2.1 (hl a ha)
  rw [hr g]
  exact ⟨rfl, by simpa using hs, flow_mono h hh _ _ hg (by linarith)⟩

/-! ### Cases -/

example : (⟨1 / 1000, 10, 100⟩ : J2).Good := ⟨by norm_num, by norm_num, by norm_num⟩

example : (⟨100, 50, 200, 10⟩ : J2Harden).Good := ⟨by norm_num, by norm_num⟩

example (x : Fin 6 → ℝ) (hx : x 0 = 1) : ∃ T, (⟨1 / 1000, 10, 100⟩ : J2).tangent66 x = some T := by
  refine ⟨_, if_neg ?_⟩
  intro h0
  have h2 : j2Norm x ^ 2 = 0 := by rw [h0]; norm_num
  rw [j2Norm_sq, Finset.sum_eq_zero_iff_of_nonneg fun _ _ => mul_self_nonneg _] at h2
  have := h2 0 (Finset.mem_univ _)
  have h3 : (Fin.castSucc (0 : Fin 5)) = (0 : Fin 6) := rfl
  rw [h3, hx] at this
  norm_num at this

end Fierro
