import Verif.Model.EvpTensor
import Verif.Proofs.Memory
import Mathlib.Algebra.Order.Field.Basic
import Mathlib.Algebra.BigOperators.Fin
import Mathlib.Algebra.BigOperators.Field
import Mathlib.Tactic.Linarith
import Mathlib.Tactic.LinearCombination
import Mathlib.Tactic.Ring
import Mathlib.Tactic.FinCases
import Mathlib.Tactic.NormNum

/-!
# Helper lemmas for the tensor notation of EVPFFT
-/

set_option linter.unusedSectionVars false

namespace Fierro

section
variable {K : Type} [Field K] [LinearOrder K] [IsStrictOrderedRing K]

/-- The basis constants are the exact square roots of 1/2, 1/3 and 1/6. -/
structure BasisConst.Exact (q : BasisConst K) : Prop where
  h2 : q.r2 * q.r2 = 1 / 2
  h3 : q.r3 * q.r3 = 1 / 3
  h6 : q.r6 * q.r6 = 1 / 6

def bInt (n : Fin 6) (i j : Fin 3) : ℤ :=
  match n with
  | 0 => if i = 0 ∧ j = 0 then -1 else if i = 1 ∧ j = 1 then 1 else 0
  | 1 => if i = 0 ∧ j = 0 then -1 else if i = 1 ∧ j = 1 then -1
         else if i = 2 ∧ j = 2 then 2 else 0
  | 2 => if (i = 1 ∧ j = 2) ∨ (i = 2 ∧ j = 1) then 1 else 0
  | 3 => if (i = 0 ∧ j = 2) ∨ (i = 2 ∧ j = 0) then 1 else 0
  | 4 => if (i = 0 ∧ j = 1) ∨ (i = 1 ∧ j = 0) then 1 else 0
  | 5 => if i = j then 1 else 0

def bScale (q : BasisConst K) (n : Fin 6) : K :=
  match n with
  | 0 => q.r2 | 1 => q.r6 | 2 => q.r2 | 3 => q.r2 | 4 => q.r2 | 5 => q.r3

theorem bBasis_eq (q : BasisConst K) (i j : Fin 3) (n : Fin 6) :
    bBasis q i j n = bScale q n * (bInt n i j : K) := by
  match n with
  | 0 => simp only [bBasis, bInt, bScale]; split_ifs <;> push_cast <;> ring
  | 1 => simp only [bBasis, bInt, bScale]; split_ifs <;> push_cast <;> ring
  | 2 => simp only [bBasis, bInt, bScale]; split_ifs <;> push_cast <;> ring
  | 3 => simp only [bBasis, bInt, bScale]; split_ifs <;> push_cast <;> ring
  | 4 => simp only [bBasis, bInt, bScale]; split_ifs <;> push_cast <;> ring
  | 5 => simp only [bBasis, bInt, bScale]; split_ifs <;> push_cast <;> ring

def bWeight (n : Fin 6) : ℤ :=
  match n with
  | 0 => 3 | 1 => 1 | 2 => 3 | 3 => 3 | 4 => 3 | 5 => 2

theorem bScale_sq (q : BasisConst K) (h : q.Exact) (n : Fin 6) :
    bScale q n * bScale q n = (bWeight n : K) / 6 := by
  match n with
  | 0 => simp only [bScale, bWeight, h.h2]; norm_num
  | 1 => simp only [bScale, bWeight, h.h6]; norm_num
  | 2 => simp only [bScale, bWeight, h.h2]; norm_num
  | 3 => simp only [bScale, bWeight, h.h2]; norm_num
  | 4 => simp only [bScale, bWeight, h.h2]; norm_num
  | 5 => simp only [bScale, bWeight, h.h3]; norm_num

theorem bInt_complete : ∀ i j k l : Fin 3, ∑ n, bWeight n * (bInt n i j * bInt n k l) =
    3 * ((if i = k then 1 else 0) * (if j = l then 1 else 0) +
      (if i = l then 1 else 0) * (if j = k then 1 else 0)) := by decide

theorem bInt_orth : ∀ n m : Fin 6, bWeight n * ∑ i, ∑ j, bInt n i j * bInt m i j =
    if n = m then 6 else 0 := by decide

theorem bBasis_complete (q : BasisConst K) (h : q.Exact) (i j k l : Fin 3) :
    ∑ n, bBasis q i j n * bBasis q k l n = xid4 i j k l := by
  have e : ∀ n, bBasis q i j n * bBasis q k l n =
      ((bWeight n * (bInt n i j * bInt n k l) : ℤ) : K) / 6 := by
    intro n; rw [bBasis_eq, bBasis_eq]; push_cast
    linear_combination (bInt n i j : K) * bInt n k l * bScale_sq q h n
  have c := congrArg (fun z : ℤ => (z : K)) (bInt_complete i j k l)
  push_cast at c
  rw [Finset.sum_congr rfl (fun n _ => e n)]
  simp only [div_eq_mul_inv]
  rw [← Finset.sum_mul]
  push_cast
  rw [c]
  simp only [xid4, dde]
  ring

theorem bBasis_orth (q : BasisConst K) (h : q.Exact) (n m : Fin 6) :
    ∑ i, ∑ j, bBasis q i j n * bBasis q i j m = if n = m then 1 else 0 := by
  have e : ∀ i j, bBasis q i j n * bBasis q i j m =
      (bScale q n * bScale q m) * (bInt n i j * bInt m i j) := by
    intro i j; rw [bBasis_eq, bBasis_eq]; ring
  have c := congrArg (fun z : ℤ => (z : K)) (bInt_orth n m)
  simp only [e, ← Finset.mul_sum]
  push_cast at c
  by_cases hnm : n = m
  · subst hnm
    rw [if_pos rfl] at c ⊢
    rw [bScale_sq q h]
    linear_combination c / 6
  · rw [if_neg hnm] at c ⊢
    have hw : ((bWeight n : ℤ) : K) ≠ 0 := by
      have : ∀ n : Fin 6, bWeight n ≠ 0 := by decide
      exact_mod_cast this n
    rw [(mul_eq_zero.mp c).resolve_left hw, mul_zero]

/-! ### Contractions -/

/-- Double contraction `T : U`. -/
def ddot (T U : T2 K) : K := ∑ i, ∑ j, T i j * U i j

/-- Action of a fourth order tensor on a second order one. -/
def act4 (C : T4 K) (T : T2 K) : T2 K := fun i j => ∑ k, ∑ l, C i j k l * T k l

theorem ddot_sum_right {ι : Type} (s : Finset ι) (T : T2 K) (x : ι → K) (U : ι → T2 K) :
    ddot T (fun i j => ∑ n ∈ s, x n * U n i j) = ∑ n ∈ s, x n * ddot T (U n) := by
  simp only [ddot, Finset.mul_sum]
  rw [Finset.sum_comm' (s := s) (t' := Finset.univ) (s' := fun _ => s) (by simp)]
  refine Finset.sum_congr rfl fun i _ => ?_
  rw [Finset.sum_comm]
  exact Finset.sum_congr rfl fun n _ => Finset.sum_congr rfl fun j _ => by ring

theorem ddot_comm (T U : T2 K) : ddot T U = ddot U T :=
  Finset.sum_congr rfl fun _ _ => Finset.sum_congr rfl fun _ _ => mul_comm _ _

theorem ddot_sum_left {ι : Type} (s : Finset ι) (T : T2 K) (x : ι → K) (U : ι → T2 K) :
    ddot (fun i j => ∑ n ∈ s, x n * U n i j) T = ∑ n ∈ s, x n * ddot (U n) T := by
  rw [ddot_comm, ddot_sum_right]
  exact Finset.sum_congr rfl fun n _ => by rw [ddot_comm]

theorem act4_sum {ι : Type} (s : Finset ι) (C : T4 K) (x : ι → K) (U : ι → T2 K) :
    act4 C (fun i j => ∑ n ∈ s, x n * U n i j) = fun i j => ∑ n ∈ s, x n * act4 C (U n) i j := by
  funext i j
  have := ddot_sum_right s (C i j) x U
  simpa only [ddot, act4] using this

/-- The basis tensor `n`. -/
def bT (q : BasisConst K) (n : Fin 6) : T2 K := fun i j => bBasis q i j n

theorem ddot_bT (q : BasisConst K) (h : q.Exact) (n m : Fin 6) :
    ddot (bT q n) (bT q m) = if n = m then 1 else 0 := bBasis_orth q h n m

theorem bInt_symm : ∀ (n : Fin 6) (i j : Fin 3), bInt n i j = bInt n j i := by decide

theorem bT_symm (q : BasisConst K) (n : Fin 6) (i j : Fin 3) : bT q n i j = bT q n j i := by
  simp only [bT, bBasis_eq, bInt_symm n i j]

theorem chgBasis2_eq (q : BasisConst K) {kdim : ℕ} (hk : kdim ≤ 6) (T : T2 K) (n : Fin kdim) :
    chgBasis2 q hk T n = ddot T (bT q (Fin.castLE hk n)) := rfl

theorem chgBasis1_eq (q : BasisConst K) {kdim : ℕ} (hk : kdim ≤ 6) (x : Fin kdim → K) :
    chgBasis1 q hk x = fun i j => ∑ n, x n * bT q (Fin.castLE hk n) i j := rfl

theorem chgBasis4_eq (q : BasisConst K) {kdim : ℕ} (hk : kdim ≤ 6) (C : T4 K) (n m : Fin kdim) :
    chgBasis4 q hk C n m = ddot (bT q (Fin.castLE hk n)) (act4 C (bT q (Fin.castLE hk m))) := by
  simp only [chgBasis4, ddot, act4, Finset.mul_sum, bT]
  refine Finset.sum_congr rfl fun i _ => Finset.sum_congr rfl fun j _ =>
    Finset.sum_congr rfl fun k _ => Finset.sum_congr rfl fun l _ => by ring

theorem act4_chgBasis3 (q : BasisConst K) {kdim : ℕ} (hk : kdim ≤ 6) (M : Fin kdim → Fin kdim → K)
    (T : T2 K) : act4 (chgBasis3 q hk M) T =
      fun i j => ∑ n, (∑ m, M n m * chgBasis2 q hk T m) * bT q (Fin.castLE hk n) i j := by
  funext i j
  simp only [act4, chgBasis3, chgBasis2, Finset.sum_mul, Finset.mul_sum]
  calc ∑ k, ∑ l, ∑ n, ∑ m, M n m * bBasis q i j (Fin.castLE hk n) *
          bBasis q k l (Fin.castLE hk m) * T k l
      = ∑ n, ∑ m, ∑ k, ∑ l, M n m * bBasis q i j (Fin.castLE hk n) *
          bBasis q k l (Fin.castLE hk m) * T k l := by
        rw [Finset.sum_congr rfl fun k _ => Finset.sum_comm]
        rw [Finset.sum_comm]
        refine Finset.sum_congr rfl fun n _ => ?_
        rw [Finset.sum_congr rfl fun k _ => Finset.sum_comm]
        rw [Finset.sum_comm]
    _ = _ := by
        refine Finset.sum_congr rfl fun n _ => Finset.sum_congr rfl fun m _ =>
          Finset.sum_congr rfl fun k _ => Finset.sum_congr rfl fun l _ => by simp only [bT]; ring

theorem ddot_xid4 (T : T2 K) (i j : Fin 3) :
    ∑ k, ∑ l, T k l * xid4 i j k l = (T i j + T j i) / 2 := by
  have e : ∀ k l, T k l * xid4 i j k l =
      ((if i = k then (if j = l then T k l else 0) else 0) +
        (if i = l then (if j = k then T k l else 0) else 0)) / 2 := by
    intro k l
    simp only [xid4, dde]
    split_ifs <;> ring
  simp only [e, ← Finset.sum_div, Finset.sum_add_distrib]
  congr 1
  congr 1
  · simp
  · rw [Finset.sum_comm]; simp

/-- Expansion in the six basis tensors gives the symmetric part. -/
theorem expand6 (q : BasisConst K) (h : q.Exact) (T : T2 K) (i j : Fin 3) :
    ∑ n, ddot T (bT q n) * bT q n i j = (T i j + T j i) / 2 := by
  rw [← ddot_xid4]
  simp only [ddot, Finset.sum_mul]
  rw [Finset.sum_comm]
  refine Finset.sum_congr rfl fun k _ => ?_
  rw [Finset.sum_comm]
  refine Finset.sum_congr rfl fun l _ => ?_
  rw [← bBasis_complete q h i j k l, Finset.mul_sum]
  exact Finset.sum_congr rfl fun n _ => by simp only [bT]; ring

theorem castLE_five_eq (n : Fin 5) : Fin.castLE (by omega : 5 ≤ 6) n = n.castSucc := rfl

theorem bT_last (q : BasisConst K) (i j : Fin 3) :
    bT q (Fin.last 5) i j = q.r3 * dde i j := by
  have : (Fin.last 5 : Fin 6) = 5 := rfl
  rw [this]
  simp only [bT, bBasis, dde]
  split_ifs <;> ring

/-- Trace. -/
def tr2 (T : T2 K) : K := ∑ i, T i i

theorem ddot_last (q : BasisConst K) (T : T2 K) :
    ddot T (bT q (Fin.last 5)) = q.r3 * tr2 T := by
  simp only [ddot, bT_last, dde, tr2, Finset.mul_sum]
  refine Finset.sum_congr rfl fun i _ => ?_
  simp only [mul_ite, mul_one, mul_zero, Finset.sum_ite_eq, Finset.mem_univ, if_true]
  ring

/-- Expansion in the first five basis tensors gives the deviator of the symmetric part. -/
theorem expand5 (q : BasisConst K) (h : q.Exact) (T : T2 K) (i j : Fin 3) :
    ∑ n : Fin 5, ddot T (bT q n.castSucc) * bT q n.castSucc i j =
      (T i j + T j i) / 2 - tr2 T / 3 * dde i j := by
  have := expand6 q h T i j
  rw [Fin.sum_univ_castSucc, ddot_last, bT_last] at this
  linear_combination this - tr2 T * dde i j * h.h3

end

end Fierro
