import Verif.Model.RefElem
import Verif.Proofs.Memory
import Mathlib.LinearAlgebra.Lagrange
import Mathlib.Algebra.Polynomial.Derivative
import Mathlib.Tactic.Ring
import Mathlib.Tactic.Linarith
import Mathlib.Tactic.FieldSimp
import Mathlib.Tactic.FinCases

namespace Fierro.RefElem

open Polynomial Finset

section

variable {K : Type} [Field K]

theorem foldl_lagrange (x : ℕ → K) (pt : K) (i : ℕ) (l : List ℕ) (a b : K) :
    l.foldl (fun (s : K × K × K) j =>
      let num := if j ≠ i then s.1 * (pt - x j) else s.1
      let den := if j ≠ i then s.2.1 * (x i - x j) else s.2.1
      (num, den, num / den)) (a, b, a / b) =
    (a * (l.map fun j => if j ≠ i then pt - x j else 1).prod,
      b * (l.map fun j => if j ≠ i then x i - x j else 1).prod,
      a * (l.map fun j => if j ≠ i then pt - x j else 1).prod /
        (b * (l.map fun j => if j ≠ i then x i - x j else 1).prod)) := by
  induction l generalizing a b with
  | nil => simp
  | cons j l ih =>
    rw [List.foldl_cons]
    simp only []
    rw [ih]
    by_cases h : j = i <;> simp [h, mul_assoc]

theorem foldl_skip (x : ℕ → K) (pt : K) (i j : ℕ) (l : List ℕ) (a : K) :
    l.foldl (fun q m => if m ≠ j ∧ m ≠ i then q * (pt - x m) else q) a =
      a * (l.map fun m => if m ≠ j ∧ m ≠ i then pt - x m else 1).prod := by
  induction l generalizing a with
  | nil => simp
  | cons m l ih =>
    rw [List.foldl_cons, ih]
    by_cases h : m ≠ j ∧ m ≠ i <;> simp [h, mul_assoc]

theorem foldl_derivative (x : ℕ → K) (i : ℕ) (g : ℕ → K) (l : List ℕ) (a b : K) :
    l.foldl (fun (s : K × K × K) j =>
      let den := if j ≠ i then s.1 * (x i - x j) else s.1
      let grad := if j ≠ i then s.2.1 + g j else s.2.1
      (den, grad, grad / den)) (a, b, b / a) =
    (a * (l.map fun j => if j ≠ i then x i - x j else 1).prod,
      b + (l.map fun j => if j ≠ i then g j else 0).sum,
      (b + (l.map fun j => if j ≠ i then g j else 0).sum) /
        (a * (l.map fun j => if j ≠ i then x i - x j else 1).prod)) := by
  induction l generalizing a b with
  | nil => simp
  | cons j l ih =>
    rw [List.foldl_cons]
    simp only []
    rw [ih]
    by_cases h : j = i <;> simp [h, mul_assoc, add_assoc]

theorem list_prod_range (n : ℕ) (f : ℕ → K) : ((List.range n).map f).prod = ∏ j ∈ range n, f j := by
  induction n with
  | zero => simp
  | succ n ih => rw [List.range_succ, List.map_append, List.prod_append, ih, Finset.prod_range_succ]; simp

theorem list_sum_range (n : ℕ) (f : ℕ → K) : ((List.range n).map f).sum = ∑ j ∈ range n, f j := by
  induction n with
  | zero => simp
  | succ n ih => rw [List.range_succ, List.map_append, List.sum_append, ih, Finset.sum_range_succ]; simp

theorem prod_skip (s : Finset ℕ) (i : ℕ) (f : ℕ → K) :
    (∏ j ∈ s, if j ≠ i then f j else 1) = ∏ j ∈ s.erase i, f j := by
  rw [← Finset.prod_filter]
  congr 1
  ext j
  simp [and_comm]

theorem prod_skip2 (s : Finset ℕ) (i j : ℕ) (f : ℕ → K) :
    (∏ m ∈ s, if m ≠ j ∧ m ≠ i then f m else 1) = ∏ m ∈ (s.erase i).erase j, f m := by
  rw [← Finset.prod_filter]
  congr 1
  ext m
  simp only [mem_filter, mem_erase]
  tauto

theorem sum_skip (s : Finset ℕ) (i : ℕ) (f : ℕ → K) :
    (∑ j ∈ s, if j ≠ i then f j else 0) = ∑ j ∈ s.erase i, f j := by
  rw [← Finset.sum_filter]
  congr 1
  ext j
  simp [and_comm]

theorem lagrange1D_eq (n : ℕ) (x : ℕ → K) (pt : K) (i : ℕ) :
    lagrange1D n x pt i =
      (∏ j ∈ (range n).erase i, (pt - x j)) / ∏ j ∈ (range n).erase i, (x i - x j) := by
  have h := foldl_lagrange x pt i (List.range n) 1 1
  rw [div_one] at h
  rw [lagrange1D, h]
  simp only [one_mul]
  rw [list_prod_range, list_prod_range, prod_skip, prod_skip]

theorem derivative1D_eq (n : ℕ) (x : ℕ → K) (pt : K) (i : ℕ) :
    derivative1D n x pt i =
      (∑ j ∈ (range n).erase i, ∏ m ∈ ((range n).erase i).erase j, (pt - x m)) /
        ∏ j ∈ (range n).erase i, (x i - x j) := by
  have h := foldl_derivative x i (fun j => (List.range n).foldl
    (fun q m => if m ≠ j ∧ m ≠ i then q * (pt - x m) else q) 1) (List.range n) 1 0
  rw [zero_div] at h
  rw [derivative1D, h]
  simp only [one_mul, zero_add]
  rw [list_prod_range, list_sum_range, prod_skip, sum_skip]
  simp only [foldl_skip, one_mul, list_prod_range, prod_skip2]

theorem lagrange1D_eval (n : ℕ) (x : ℕ → K) (pt : K) (i : ℕ) :
    lagrange1D n x pt i = (Lagrange.basis (range n) x i).eval pt := by
  rw [lagrange1D_eq, Lagrange.basis, eval_prod, ← Finset.prod_div_distrib]
  refine Finset.prod_congr rfl fun j _ => ?_
  simp [Lagrange.basisDivisor, div_eq_mul_inv, mul_comm]

theorem derivative1D_eval (n : ℕ) (x : ℕ → K) (pt : K) (i : ℕ) :
    derivative1D n x pt i = (derivative (Lagrange.basis (range n) x i)).eval pt := by
  rw [derivative1D_eq, Lagrange.basis, derivative_prod_finset, eval_finsetSum, div_eq_mul_inv, Finset.sum_mul]
  refine Finset.sum_congr rfl fun j hj => ?_
  rw [eval_mul, eval_prod, ← Finset.mul_prod_erase _ _ hj]
  have h : ∀ m, (Lagrange.basisDivisor (x i) (x m)).eval pt = (pt - x m) / (x i - x m) := fun m => by
    simp [Lagrange.basisDivisor, div_eq_mul_inv, mul_comm]
  simp only [h, Finset.prod_div_distrib]
  simp [Lagrange.basisDivisor, div_eq_mul_inv, mul_inv]
  ring

theorem sum_lagrange1D {n : ℕ} {x : ℕ → K} (hx : Set.InjOn x (range n)) (P : K[X])
    (hP : P.degree < n) (pt : K) :
    ∑ i ∈ range n, P.eval (x i) * lagrange1D n x pt i = P.eval pt := by
  conv_rhs => rw [Lagrange.eq_interpolate (f := P) hx (by simpa using hP)]
  rw [Lagrange.interpolate_apply, eval_finsetSum]
  refine Finset.sum_congr rfl fun i _ => ?_
  rw [lagrange1D_eval, eval_mul, eval_C]

theorem sum_derivative1D {n : ℕ} {x : ℕ → K} (hx : Set.InjOn x (range n)) (P : K[X])
    (hP : P.degree < n) (pt : K) :
    ∑ i ∈ range n, P.eval (x i) * derivative1D n x pt i = (derivative P).eval pt := by
  conv_rhs => rw [Lagrange.eq_interpolate (f := P) hx (by simpa using hP)]
  rw [Lagrange.interpolate_apply, derivative_sum, eval_finsetSum]
  refine Finset.sum_congr rfl fun i _ => ?_
  rw [derivative1D_eval, derivative_C_mul, eval_mul, eval_C]

theorem mem_cube {l : List ℕ} {v : ℕ × ℕ × ℕ} : v ∈ cube l ↔ v.1 ∈ l ∧ v.2.1 ∈ l ∧ v.2.2 ∈ l := by
  obtain ⟨i, j, k⟩ := v
  simp only [cube, List.mem_flatMap, List.mem_map, Prod.mk.injEq]
  constructor
  · rintro ⟨k', hk, j', hj, i', hi, rfl, rfl, rfl⟩
    exact ⟨hi, hj, hk⟩
  · rintro ⟨hi, hj, hk⟩
    exact ⟨k, hk, j, hj, i, hi, rfl, rfl, rfl⟩

theorem rid_inj {n i j k i' j' k' : ℕ} (hi : i < n) (hj : j < n) (hi' : i' < n) (hj' : j' < n)
    (h : rid n i j k = rid n i' j' k') : i = i' ∧ j = j' ∧ k = k' := by
  have hn : 0 < n := by omega
  unfold rid at h
  have e : ∀ a b c : ℕ, a + b * n + c * n * n = a + n * (b + n * c) := fun a b c => by ring
  rw [e, e] at h
  have h1 := congrArg (· % n) h
  simp only [Nat.add_mul_mod_self_left, Nat.mod_eq_of_lt hi, Nat.mod_eq_of_lt hi'] at h1
  subst h1
  have h2 := Nat.eq_of_mul_eq_mul_left hn (Nat.add_left_cancel h)
  have h3 := congrArg (· % n) h2
  simp only [Nat.add_mul_mod_self_left, Nat.mod_eq_of_lt hj, Nat.mod_eq_of_lt hj'] at h3
  subst h3
  exact ⟨rfl, rfl, Nat.eq_of_mul_eq_mul_left hn (Nat.add_left_cancel h2)⟩

theorem rid_lt {n i j k : ℕ} (hi : i < n) (hj : j < n) (hk : k < n) : rid n i j k < n ^ 3 := by
  have h1 : i + j * n + k * n * n < n + (n - 1) * n + (n - 1) * n * n := by
    have : j * n ≤ (n - 1) * n := Nat.mul_le_mul_right _ (by omega)
    have : k * n * n ≤ (n - 1) * n * n := Nat.mul_le_mul_right _ (Nat.mul_le_mul_right _ (by omega))
    omega
  have h2 : n + (n - 1) * n + (n - 1) * n * n = n ^ 3 := by
    obtain ⟨m, rfl⟩ : ∃ m, n = m + 1 := ⟨n - 1, by omega⟩
    simp only [Nat.add_sub_cancel]
    ring
  rw [rid]
  omega

theorem rid_surj {n b : ℕ} (hb : b < n ^ 3) : ∃ i j k, i < n ∧ j < n ∧ k < n ∧ rid n i j k = b := by
  have hn : 0 < n := by
    rcases Nat.eq_zero_or_pos n with rfl | h
    · simp at hb
    · exact h
  refine ⟨b % n, b / n % n, b / n / n, Nat.mod_lt _ hn, Nat.mod_lt _ hn, ?_, ?_⟩
  · rw [Nat.div_div_eq_div_mul]
    apply Nat.div_lt_of_lt_mul
    calc b < n ^ 3 := hb
      _ = n * n * n := by ring
  · have h1 := Nat.div_add_mod b n
    have h2 := Nat.div_add_mod (b / n) n
    unfold rid
    calc b % n + b / n % n * n + b / n / n * n * n
        = n * (n * (b / n / n) + b / n % n) + b % n := by ring
      _ = b := by rw [h2, h1]

theorem tensor_rid (n : ℕ) (f g h : ℕ → K) {i j k : ℕ} (hi : i < n) (hj : j < n) (hk : k < n) :
    tensor n f g h (rid n i j k) = some (f i * g j * h k) := by
  refine Mem.writeAll_of_mem _ _ _ _ ?_ ?_
  · exact List.mem_map.mpr ⟨(i, j, k), mem_cube.mpr (by simp [hi, hj, hk]), rfl⟩
  · intro v' hv
    obtain ⟨⟨i', j', k'⟩, hm, he⟩ := List.mem_map.mp hv
    simp only [mem_cube, List.mem_range] at hm
    simp only [Prod.mk.injEq] at he
    obtain ⟨rfl, rfl, rfl⟩ := rid_inj hm.1 hm.2.1 hi hj he.1
    exact he.2.symm

theorem tensor_none (n : ℕ) (f g h : ℕ → K) {b : ℕ} (hb : n ^ 3 ≤ b) : tensor n f g h b = none := by
  rw [tensor, Mem.writeAll_of_notMem]
  · rfl
  · intro v hv
    obtain ⟨⟨i', j', k'⟩, hm, he⟩ := List.mem_map.mp hv
    simp only [mem_cube, List.mem_range] at hm
    simp only [Prod.mk.injEq] at he
    have := rid_lt hm.1 hm.2.1 hm.2.2
    omega

theorem posWrites_rid (n : ℕ) (x : ℕ → ℝ) {i j k : ℕ} (hi : i < n) (hj : j < n) (hk : k < n)
    (d : Fin 3) :
    Mem.writeAll (posWrites n x) Mem.empty (rid n i j k, d) = some (x (![i, j, k] d)) := by
  refine Mem.writeAll_of_mem _ _ _ _ ?_ ?_
  · refine List.mem_flatMap.mpr ⟨(i, j, k), mem_cube.mpr (by simp [hi, hj, hk]), ?_⟩
    fin_cases d <;> simp
  · intro v' hv
    obtain ⟨⟨i', j', k'⟩, hm, he⟩ := List.mem_flatMap.mp hv
    simp only [mem_cube, List.mem_range] at hm
    simp only [List.mem_cons, List.not_mem_nil, or_false, Prod.mk.injEq] at he
    rcases he with ⟨⟨h1, h2⟩, h3⟩ | ⟨⟨h1, h2⟩, h3⟩ | ⟨⟨h1, h2⟩, h3⟩ <;>
    · obtain ⟨rfl, rfl, rfl⟩ := rid_inj hi hj hm.1 hm.2.1 h1
      subst h2
      simp [h3]

theorem pointOf_posWrites (n : ℕ) (x : ℕ → ℝ) {i j k : ℕ} (hi : i < n) (hj : j < n) (hk : k < n) :
    pointOf (Mem.writeAll (posWrites n x) Mem.empty) (rid n i j k) = some ![x i, x j, x k] := by
  simp only [pointOf, posWrites_rid n x hi hj hk]
  rfl

end

end Fierro.RefElem
