import Verif.Proofs.EvpTensor
import Verif.Props.EvpLinalg
import Mathlib.Analysis.SpecialFunctions.Pow.Real

/-!
# C66: vector notation of tensors; C67: crystal stiffness; C68: stiffness in the sample frame
-/

set_option linter.unusedSectionVars false

namespace Fierro

section field
variable {K : Type} [Field K] [LinearOrder K] [IsStrictOrderedRing K]

/-- Symmetric second order tensor. -/
def T2.Sym (T : T2 K) : Prop := ∀ i j, T i j = T j i

/-- Minor symmetries of a fourth order tensor. -/
def T4.Minor (C : T4 K) : Prop := ∀ i j k l, C i j k l = C j i k l ∧ C i j k l = C i j l k

/-- Major symmetry. -/
def T4.Major (C : T4 K) : Prop := ∀ i j k l, C i j k l = C k l i j

/-- Positive definite on symmetric tensors: the stored energy is positive. -/
def T4.Pos (C : T4 K) : Prop := ∀ T : T2 K, T2.Sym T → T ≠ 0 → 0 < ddot T (act4 C T)

/-! ### C66 -/

/-- **C66.** Components and back: the symmetric part of any tensor. -/
theorem C66_tensor_roundtrip (q : BasisConst K) (h : q.Exact) (T : T2 K) (i j : Fin 3) :
    chgBasis1 q le_rfl (chgBasis2 q le_rfl T) i j = (T i j + T j i) / 2 := by
  rw [← expand6 q h T i j]; rfl

/-- **C66.** A symmetric tensor is recovered exactly from its six components. -/
theorem C66_symmetric_roundtrip (q : BasisConst K) (h : q.Exact) (T : T2 K) (hT : T.Sym) :
    chgBasis1 q le_rfl (chgBasis2 q le_rfl T) = T := by
  funext i j
  rw [C66_tensor_roundtrip q h, ← hT i j]; ring

/-- **C66.** With five components the symmetric deviator is recovered. -/
theorem C66_deviator (q : BasisConst K) (h : q.Exact) (T : T2 K) (i j : Fin 3) :
    chgBasis1 q (by omega : 5 ≤ 6) (chgBasis2 q (by omega : 5 ≤ 6) T) i j =
      (T i j + T j i) / 2 - (if i = j then (T 0 0 + T 1 1 + T 2 2) / 3 else 0) := by
  have e := expand5 q h T i j
  have e2 : chgBasis1 q (by omega : 5 ≤ 6) (chgBasis2 q (by omega : 5 ≤ 6) T) i j =
      ∑ n : Fin 5, ddot T (bT q n.castSucc) * bT q n.castSucc i j := rfl
  rw [e2, e]
  simp only [tr2, Fin.sum_univ_three, dde]
  split_ifs <;> ring

/-- **C66.** Components are recovered from the tensor, with five and with six components. -/
theorem C66_vector_roundtrip (q : BasisConst K) (h : q.Exact) {kdim : ℕ} (hk : kdim ≤ 6)
    (x : Fin kdim → K) : chgBasis2 q hk (chgBasis1 q hk x) = x := by
  funext n
  rw [chgBasis2_eq, chgBasis1_eq, ddot_sum_left]
  simp only [ddot_bT q h, Fin.castLE_inj, mul_ite, mul_one, mul_zero, Finset.sum_ite_eq',
    Finset.mem_univ, if_true]

/-- **C66.** The tensor built from components is symmetric; with five components it is traceless. -/
theorem C66_symmetric (q : BasisConst K) {kdim : ℕ} (hk : kdim ≤ 6) (x : Fin kdim → K) :
    T2.Sym (chgBasis1 q hk x) := by
  intro i j
  rw [chgBasis1_eq]
  exact Finset.sum_congr rfl fun n _ => by rw [bT_symm]

/-- **C66.** Five components always describe a traceless tensor. -/
theorem C66_traceless (q : BasisConst K) (x : Fin 5 → K) :
    let T := chgBasis1 q (by omega : 5 ≤ 6) x
    T 0 0 + T 1 1 + T 2 2 = 0 := by
  have hz : ∀ n : Fin 5, bInt n.castSucc 0 0 + bInt n.castSucc 1 1 + bInt n.castSucc 2 2 = 0 := by
    decide
  simp only [chgBasis1]
  rw [← Finset.sum_add_distrib, ← Finset.sum_add_distrib]
  refine Finset.sum_eq_zero fun n _ => ?_
  have := congrArg (fun z : ℤ => (z : K)) (hz n)
  push_cast at this
  rw [castLE_five_eq]
  simp only [bBasis_eq]
  linear_combination x n * bScale q n.castSucc * this

/-- **C66.** Inner products are kept: work computed from six components is the double contraction. -/
theorem C66_inner (q : BasisConst K) (h : q.Exact) (T U : T2 K) (hT : T.Sym) :
    ∑ n, chgBasis2 q le_rfl T n * chgBasis2 q le_rfl U n = ∑ i, ∑ j, T i j * U i j := by
  have e : ddot T U = ddot U T := ddot_comm T U
  show _ = ddot T U
  conv_rhs => rw [e, ← C66_symmetric_roundtrip q h T hT, chgBasis1_eq, ddot_sum_right]
  rfl

/-- **C66.** With five components the inner product is that with the deviator. -/
theorem C66_inner_deviator (q : BasisConst K) (T : T2 K) (x : Fin 5 → K) :
    ∑ n, x n * chgBasis2 q (by omega : 5 ≤ 6) T n =
      ∑ i, ∑ j, chgBasis1 q (by omega : 5 ≤ 6) x i j * T i j := by
  show _ = ddot _ T
  rw [chgBasis1_eq, ddot_sum_left]
  exact Finset.sum_congr rfl fun n _ => by rw [chgBasis2_eq, ddot_comm]

/-- **C66.** The matrix of a fourth order tensor acts on components as the tensor acts on symmetric
tensors. -/
theorem C66_matrix_action (q : BasisConst K) (h : q.Exact) (C : T4 K) (T : T2 K) (hT : T.Sym)
    (n : Fin 6) :
    ∑ m, chgBasis4 q le_rfl C n m * chgBasis2 q le_rfl T m =
      chgBasis2 q le_rfl (fun i j => ∑ k, ∑ l, C i j k l * T k l) n := by
  have e : chgBasis2 q le_rfl (act4 C T) n = ddot (act4 C T) (bT q n) := rfl
  show _ = chgBasis2 q le_rfl (act4 C T) n
  rw [e]
  conv_rhs => rw [← C66_symmetric_roundtrip q h T hT, chgBasis1_eq, act4_sum, ddot_sum_left]
  refine Finset.sum_congr rfl fun m _ => ?_
  rw [chgBasis4_eq, ddot_comm, mul_comm]; rfl

/-- **C66.** A fourth order tensor with the minor symmetries is recovered from its matrix. -/
theorem C66_fourth_roundtrip (q : BasisConst K) (h : q.Exact) (C : T4 K) (hC : C.Minor) :
    chgBasis3 q le_rfl (chgBasis4 q le_rfl C) = C := by
  -- both act in the same way on every tensor
  have key : ∀ T : T2 K, act4 (chgBasis3 q le_rfl (chgBasis4 q le_rfl C)) T = act4 C T := by
    intro T
    have hs : T2.Sym (fun i j => (T i j + T j i) / 2) := fun i j => by ring
    have c2 : chgBasis2 q le_rfl (fun i j => (T i j + T j i) / 2) = chgBasis2 q (le_refl 6) T := by
      have : (fun i j => (T i j + T j i) / 2) = chgBasis1 q le_rfl (chgBasis2 q le_rfl T) := by
        funext i j; rw [C66_tensor_roundtrip q h]
      rw [this, C66_vector_roundtrip q h]
    have aC : act4 C (fun i j => (T i j + T j i) / 2) = act4 C T := by
      funext i j
      simp only [act4]
      have e1 : ∑ k, ∑ l, C i j k l * T l k = ∑ k, ∑ l, C i j k l * T k l := by
        rw [Finset.sum_comm]
        exact Finset.sum_congr rfl fun k _ => Finset.sum_congr rfl fun l _ => by
          rw [(hC i j l k).2]
      have e2 : ∑ k, ∑ l, C i j k l * ((T k l + T l k) / 2) =
          (∑ k, ∑ l, C i j k l * T k l + ∑ k, ∑ l, C i j k l * T l k) / 2 := by
        rw [← Finset.sum_add_distrib, Finset.sum_div]
        refine Finset.sum_congr rfl fun k _ => ?_
        rw [← Finset.sum_add_distrib, Finset.sum_div]
        exact Finset.sum_congr rfl fun l _ => by ring
      rw [e2, e1]; ring
    have sC : T2.Sym (act4 C T) := fun i j =>
      Finset.sum_congr rfl fun k _ => Finset.sum_congr rfl fun l _ => by rw [(hC i j k l).1]
    rw [act4_chgBasis3]
    have e : ∀ n : Fin 6, (∑ m, chgBasis4 q le_rfl C n m * chgBasis2 q le_rfl T m) =
        chgBasis2 q le_rfl (act4 C T) n := by
      intro n
      rw [← c2, C66_matrix_action q h C _ hs n]
      show chgBasis2 q le_rfl (act4 C _) n = _
      rw [aC]
    simp only [e]
    exact C66_symmetric_roundtrip q h _ sC
  funext i j k l
  have := congrFun (congrFun (key fun a b => if a = k ∧ b = l then 1 else 0) i) j
  simp only [act4] at this
  have pick : ∀ D : T4 K, ∑ a, ∑ b, D i j a b * (if a = k ∧ b = l then (1 : K) else 0) = D i j k l := by
    intro D
    rw [Finset.sum_eq_single k, Finset.sum_eq_single l]
    · simp
    · intro b _ hb; simp [hb]
    · simp
    · intro a _ ha; simp [ha]
    · simp
  rwa [pick, pick] at this

/-- **C66.** Inverse matrices are turned into fourth order tensors that undo each other on symmetric
tensors: the compliance `s0` undoes the stiffness `c0`. -/
theorem C66_inverse_tensor (q : BasisConst K) (h : q.Exact) (A B : Dense 6 K) (hi : InverseOf A B)
    (T : T2 K) (hT : T.Sym) :
    act4 (chgBasis3 q le_rfl B) (act4 (chgBasis3 q le_rfl A) T) = T := by
  have e1 : act4 (chgBasis3 q le_rfl A) T =
      chgBasis1 q le_rfl (fun n => ∑ m, A n m * chgBasis2 q le_rfl T m) := act4_chgBasis3 q le_rfl A T
  have e2 : ∀ U, act4 (chgBasis3 q le_rfl B) U =
      chgBasis1 q le_rfl (fun n => ∑ m, B n m * chgBasis2 q le_rfl U m) :=
    fun U => act4_chgBasis3 q le_rfl B U
  rw [e2, e1, C66_vector_roundtrip q h]
  have e3 : (fun n => ∑ m, B n m * ∑ k, A m k * chgBasis2 q (le_refl 6) T k) = chgBasis2 q le_rfl T := by
    funext n
    have : ∑ m, B n m * ∑ k, A m k * chgBasis2 q (le_refl 6) T k =
        ∑ k, (∑ m, B n m * A m k) * chgBasis2 q le_rfl T k := by
      simp only [Finset.mul_sum, Finset.sum_mul]
      rw [Finset.sum_comm]
      exact Finset.sum_congr rfl fun k _ => Finset.sum_congr rfl fun m _ => by ring
    rw [this]
    simp only [(hi n _).1, ite_mul, one_mul, zero_mul, Finset.sum_ite_eq, Finset.mem_univ, if_true]
  rw [e3, C66_symmetric_roundtrip q h T hT]

end field

/-- The decimal constants of chg_basis.h:30-32. -/
noncomputable def sourceConst : BasisConst ℝ :=
  { r2 := 0.70710678118654744, r3 := 0.57735026918962584, r6 := 0.40824829046386304 }

/-- The exact constants meant by them. -/
noncomputable def exactConst : BasisConst ℝ :=
  { r2 := Real.sqrt (1 / 2), r3 := Real.sqrt (1 / 3), r6 := Real.sqrt (1 / 6) }

/-- The exact constants satisfy the hypothesis of the theorems above. -/
theorem exactConst_exact : exactConst.Exact :=
  ⟨Real.mul_self_sqrt (by norm_num), Real.mul_self_sqrt (by norm_num),
    Real.mul_self_sqrt (by norm_num)⟩

/-- **C66.** With the decimal constants of the source the Gram matrix of the basis differs from the
identity by less than 3·10⁻¹⁶ in every entry, and its off-diagonal entries are exactly zero. -/
theorem C66_source_constants (n m : Fin 6) :
    |(∑ i, ∑ j, bBasis sourceConst i j n * bBasis sourceConst i j m) - (if n = m then 1 else 0)| <
        3 / 10 ^ 16 ∧
    (n ≠ m → ∑ i, ∑ j, bBasis sourceConst i j n * bBasis sourceConst i j m = 0) := by
  have e : ∑ i, ∑ j, bBasis sourceConst i j n * bBasis sourceConst i j m =
      (bScale sourceConst n * bScale sourceConst m) * (∑ i, ∑ j, bInt n i j * bInt m i j : ℤ) := by
    push_cast
    rw [Finset.mul_sum]
    refine Finset.sum_congr rfl fun i _ => ?_
    rw [Finset.mul_sum]
    exact Finset.sum_congr rfl fun j _ => by rw [bBasis_eq, bBasis_eq]; ring
  have o : ∀ n m : Fin 6, n ≠ m → ∑ i, ∑ j, bInt n i j * bInt m i j = 0 := by decide
  by_cases hnm : n = m
  · subst hnm
    refine ⟨?_, fun h => absurd rfl h⟩
    rw [e, if_pos rfl]
    have d : ∀ n : Fin 6, ∑ i, ∑ j, bInt n i j * bInt n i j = 6 / bWeight n := by decide
    rw [d]
    fin_cases n
    · have : ((6 / bWeight 0 : ℤ) : ℝ) = 2 := by norm_num [bWeight]
      show |bScale sourceConst 0 * bScale sourceConst 0 * ((6 / bWeight 0 : ℤ) : ℝ) - 1| < _
      rw [this, abs_lt]; simp only [bScale, sourceConst]; constructor <;> norm_num
    · have : ((6 / bWeight 1 : ℤ) : ℝ) = 6 := by norm_num [bWeight]
      show |bScale sourceConst 1 * bScale sourceConst 1 * ((6 / bWeight 1 : ℤ) : ℝ) - 1| < _
      rw [this, abs_lt]; simp only [bScale, sourceConst]; constructor <;> norm_num
    · have : ((6 / bWeight 2 : ℤ) : ℝ) = 2 := by norm_num [bWeight]
      show |bScale sourceConst 2 * bScale sourceConst 2 * ((6 / bWeight 2 : ℤ) : ℝ) - 1| < _
      rw [this, abs_lt]; simp only [bScale, sourceConst]; constructor <;> norm_num
    · have : ((6 / bWeight 3 : ℤ) : ℝ) = 2 := by norm_num [bWeight]
      show |bScale sourceConst 3 * bScale sourceConst 3 * ((6 / bWeight 3 : ℤ) : ℝ) - 1| < _
      rw [this, abs_lt]; simp only [bScale, sourceConst]; constructor <;> norm_num
    · have : ((6 / bWeight 4 : ℤ) : ℝ) = 2 := by norm_num [bWeight]
      show |bScale sourceConst 4 * bScale sourceConst 4 * ((6 / bWeight 4 : ℤ) : ℝ) - 1| < _
      rw [this, abs_lt]; simp only [bScale, sourceConst]; constructor <;> norm_num
    · have : ((6 / bWeight 5 : ℤ) : ℝ) = 3 := by norm_num [bWeight]
      show |bScale sourceConst 5 * bScale sourceConst 5 * ((6 / bWeight 5 : ℤ) : ℝ) - 1| < _
      rw [this, abs_lt]; simp only [bScale, sourceConst]; constructor <;> norm_num
  · have : (∑ i, ∑ j, bBasis sourceConst i j n * bBasis sourceConst i j m) = 0 := by
      rw [e, o n m hnm]; simp
    rw [this, if_neg hnm]
    exact ⟨by norm_num, fun _ => rfl⟩

/-- A tensor that is not symmetric, to show that the symmetric part is what survives. -/
example : chgBasis1 exactConst le_rfl (chgBasis2 exactConst le_rfl
    (fun i j => if i = 0 ∧ j = 1 then 2 else 0)) 1 0 = 1 := by
  rw [C66_tensor_roundtrip _ exactConst_exact]; norm_num

end Fierro
