import Verif.Proofs.RefElem

/-!
# C144: the shape functions of the reference element

The fields that an element of order `p` represents are the polynomials of degree at most `p` in each
of the three coordinates.  `Poly3` writes such a field as a sum of products of polynomials in one
coordinate; the statements compare what the code computes with the field and its derivatives.
-/

namespace Fierro

open Polynomial Finset RefElem

variable {K : Type} [Field K]

/-- A polynomial field in three coordinates: a sum of products `P(x) Q(y) R(z)`. -/
abbrev Poly3 (K : Type) [Field K] := List (K[X] × K[X] × K[X])

/-- All degrees are below `n`. -/
def Poly3.Below (f : Poly3 K) (n : ℕ) : Prop :=
  ∀ t ∈ f, t.1.degree < n ∧ t.2.1.degree < n ∧ t.2.2.degree < n

/-- The value at a point. -/
def Poly3.value (f : Poly3 K) (x y z : K) : K :=
  (f.map fun t => t.1.eval x * t.2.1.eval y * t.2.2.eval z).sum

/-- The derivative along `x`. -/
noncomputable def Poly3.dx (f : Poly3 K) : Poly3 K := f.map fun t => (derivative t.1, t.2.1, t.2.2)

/-- The derivative along `y`. -/
noncomputable def Poly3.dy (f : Poly3 K) : Poly3 K := f.map fun t => (t.1, derivative t.2.1, t.2.2)

/-- The derivative along `z`. -/
noncomputable def Poly3.dz (f : Poly3 K) : Poly3 K := f.map fun t => (t.1, t.2.1, derivative t.2.2)

/-- The sum over the nodes of an element, `n` along each axis at the positions `x`, of the values of a
field times the entries of an array of the element. -/
def nodalSum (n : ℕ) (x : ℕ → K) (f : Poly3 K) (m : Mem ℕ K) : K :=
  ∑ k ∈ range n, ∑ j ∈ range n, ∑ i ∈ range n,
    f.value (x i) (x j) (x k) * (m (i + j * n + k * n * n)).getD 0

/-- Each shape function in 1D is one at its own node and zero at the others. -/
theorem C144_nodes {n : ℕ} {x : ℕ → K} (hx : Set.InjOn x (range n)) {i j : ℕ} (hi : i < n)
    (hj : j < n) : lagrange1D n x (x j) i = if i = j then 1 else 0 := by
  rw [lagrange1D_eval]
  split_ifs with h
  · subst h
    exact Lagrange.eval_basis_self hx (by simpa using hi)
  · exact Lagrange.eval_basis_of_ne h (by simpa using hj)

/-- Every polynomial of degree below the number of nodes is reproduced from its nodal values, and so
is its derivative by the derivatives of the shape functions. -/
theorem C144_line {n : ℕ} {x : ℕ → K} (hx : Set.InjOn x (range n)) (P : K[X]) (hP : P.degree < n)
    (pt : K) :
    ∑ i ∈ range n, P.eval (x i) * lagrange1D n x pt i = P.eval pt ∧
      ∑ i ∈ range n, P.eval (x i) * derivative1D n x pt i = (derivative P).eval pt :=
  ⟨sum_lagrange1D hx P hP pt, sum_derivative1D hx P hP pt⟩

/-- The derivative is that of the shape function, at every point and for every list of positions: both
come from one polynomial. -/
theorem C144_derivative (n : ℕ) (x : ℕ → K) (i : ℕ) :
    ∃ L : K[X], ∀ pt, lagrange1D n x pt i = L.eval pt ∧ derivative1D n x pt i = (derivative L).eval pt :=
  ⟨Lagrange.basis (range n) x i, fun pt => ⟨lagrange1D_eval n x pt i, derivative1D_eval n x pt i⟩⟩

/-- The basis of an element has exactly the entries of its nodes, and so have the three
derivatives. -/
theorem C144_entries (n : ℕ) (x : ℕ → K) (pt : Fin 3 → K) (b : ℕ) :
    ((getBasis n x pt b).isSome ↔ b < n ^ 3) ∧ ((partialXi n x pt b).isSome ↔ b < n ^ 3) ∧
      ((partialEta n x pt b).isSome ↔ b < n ^ 3) ∧ ((partialMu n x pt b).isSome ↔ b < n ^ 3) := by
  have key : ∀ f g h : ℕ → K, (tensor n f g h b).isSome ↔ b < n ^ 3 := by
    intro f g h
    constructor
    · intro hs
      by_contra hb
      rw [tensor_none n f g h (not_lt.mp hb)] at hs
      simp at hs
    · intro hb
      obtain ⟨i, j, k, hi, hj, hk, rfl⟩ := rid_surj hb
      rw [tensor_rid n f g h hi hj hk]
      rfl
  exact ⟨key _ _ _, key _ _ _, key _ _ _, key _ _ _⟩

/-- At the node with numbers `i'`, `j'`, `k'` along the axes the basis function of that node is one and
every other is zero. -/
theorem C144_kronecker {n : ℕ} {x : ℕ → K} (hx : Set.InjOn x (range n)) {i j k i' j' k' : ℕ}
    (hi : i < n) (hj : j < n) (hk : k < n) (hi' : i' < n) (hj' : j' < n) (hk' : k' < n) :
    getBasis n x ![x i', x j', x k'] (i + j * n + k * n * n) =
      some (if i = i' ∧ j = j' ∧ k = k' then 1 else 0) := by
  have h := tensor_rid n (lagrange1D n x (x i')) (lagrange1D n x (x j')) (lagrange1D n x (x k')) hi hj hk
  rw [C144_nodes hx hi hi', C144_nodes hx hj hj', C144_nodes hx hk hk'] at h
  refine h.trans ?_
  by_cases h1 : i = i' <;> by_cases h2 : j = j' <;> by_cases h3 : k = k' <;> simp [h1, h2, h3]

theorem nodalSum_tensor {n : ℕ} {x : ℕ → K} (F G H : ℕ → K) (f : Poly3 K) (a b c : K[X] → K)
    (hf : ∀ t ∈ f, ∑ i ∈ range n, t.1.eval (x i) * F i = a t.1 ∧
      ∑ i ∈ range n, t.2.1.eval (x i) * G i = b t.2.1 ∧
      ∑ i ∈ range n, t.2.2.eval (x i) * H i = c t.2.2) :
    nodalSum n x f (tensor n F G H) = (f.map fun t => a t.1 * b t.2.1 * c t.2.2).sum := by
  have h0 : nodalSum n x f (tensor n F G H) = ∑ k ∈ range n, ∑ j ∈ range n, ∑ i ∈ range n,
      f.value (x i) (x j) (x k) * (F i * G j * H k) := by
    refine Finset.sum_congr rfl fun k hk => Finset.sum_congr rfl fun j hj =>
      Finset.sum_congr rfl fun i hi => ?_
    have h := tensor_rid n F G H (mem_range.mp hi) (mem_range.mp hj) (mem_range.mp hk)
    rw [rid] at h
    rw [h]
    rfl
  rw [h0]
  clear h0
  induction f with
  | nil => simp [Poly3.value]
  | cons t f ih =>
    rw [List.map_cons, List.sum_cons, ← ih fun t ht => hf t (List.mem_cons_of_mem _ ht)]
    obtain ⟨h1, h2, h3⟩ := hf t (by simp)
    rw [← h1, ← h2, ← h3]
    simp only [Poly3.value, List.map_cons, List.sum_cons, add_mul, Finset.sum_add_distrib]
    congr 1
    rw [Finset.mul_sum]
    refine Finset.sum_congr rfl fun k _ => ?_
    rw [Finset.mul_sum, Finset.sum_mul]
    refine Finset.sum_congr rfl fun j _ => ?_
    rw [Finset.sum_mul, Finset.sum_mul]
    refine Finset.sum_congr rfl fun i _ => ?_
    ring

/-- Every polynomial field of degree below `n` in each coordinate is reproduced at every point from its
values at the nodes, and its gradient by the three arrays of derivatives. -/
theorem C144_fields {n : ℕ} {x : ℕ → K} (hx : Set.InjOn x (range n)) (f : Poly3 K) (hf : f.Below n)
    (pt : Fin 3 → K) :
    nodalSum n x f (getBasis n x pt) = f.value (pt 0) (pt 1) (pt 2) ∧
      nodalSum n x f (partialXi n x pt) = f.dx.value (pt 0) (pt 1) (pt 2) ∧
      nodalSum n x f (partialEta n x pt) = f.dy.value (pt 0) (pt 1) (pt 2) ∧
      nodalSum n x f (partialMu n x pt) = f.dz.value (pt 0) (pt 1) (pt 2) := by
  refine ⟨?_, ?_, ?_, ?_⟩
  · exact nodalSum_tensor _ _ _ f (eval (pt 0)) (eval (pt 1)) (eval (pt 2)) fun t ht =>
      ⟨sum_lagrange1D hx _ (hf t ht).1 _, sum_lagrange1D hx _ (hf t ht).2.1 _,
        sum_lagrange1D hx _ (hf t ht).2.2 _⟩
  · refine (nodalSum_tensor _ _ _ f (fun P => (derivative P).eval (pt 0)) (eval (pt 1)) (eval (pt 2))
      fun t ht => ⟨sum_derivative1D hx _ (hf t ht).1 _, sum_lagrange1D hx _ (hf t ht).2.1 _,
        sum_lagrange1D hx _ (hf t ht).2.2 _⟩).trans ?_
    simp [Poly3.value, Poly3.dx, Function.comp_def]
  · refine (nodalSum_tensor _ _ _ f (eval (pt 0)) (fun P => (derivative P).eval (pt 1)) (eval (pt 2))
      fun t ht => ⟨sum_lagrange1D hx _ (hf t ht).1 _, sum_derivative1D hx _ (hf t ht).2.1 _,
        sum_lagrange1D hx _ (hf t ht).2.2 _⟩).trans ?_
    simp [Poly3.value, Poly3.dy, Function.comp_def]
  · refine (nodalSum_tensor _ _ _ f (eval (pt 0)) (eval (pt 1)) (fun P => (derivative P).eval (pt 2))
      fun t ht => ⟨sum_lagrange1D hx _ (hf t ht).1 _, sum_lagrange1D hx _ (hf t ht).2.1 _,
        sum_derivative1D hx _ (hf t ht).2.2 _⟩).trans ?_
    simp [Poly3.value, Poly3.dz, Function.comp_def]

/-- The basis functions add up to one and each array of derivatives to zero, at every point. -/
theorem C144_partition {n : ℕ} {x : ℕ → K} (hn : 0 < n) (hx : Set.InjOn x (range n)) (pt : Fin 3 → K) :
    ∑ b ∈ range (n ^ 3), (getBasis n x pt b).getD 0 = 1 ∧
      ∑ b ∈ range (n ^ 3), (partialXi n x pt b).getD 0 = 0 ∧
      ∑ b ∈ range (n ^ 3), (partialEta n x pt b).getD 0 = 0 ∧
      ∑ b ∈ range (n ^ 3), (partialMu n x pt b).getD 0 = 0 := by
  have key : ∀ m : Mem ℕ K, ∑ b ∈ range (n ^ 3), (m b).getD 0 = nodalSum n x [(1, 1, 1)] m := by
    intro m
    simp only [nodalSum, Poly3.value, List.map_cons, List.map_nil, List.sum_cons, List.sum_nil,
      eval_one, mul_one, add_zero, one_mul]
    rw [← Finset.sum_product', ← Finset.sum_product']
    symm
    refine Finset.sum_bij (fun v _ => rid n v.2 v.1.2 v.1.1) ?_ ?_ ?_ ?_
    · rintro ⟨⟨k, j⟩, i⟩ h
      simp only [mem_product, mem_range] at h
      exact mem_range.mpr (rid_lt h.2 h.1.2 h.1.1)
    · rintro ⟨⟨k, j⟩, i⟩ h ⟨⟨k', j'⟩, i'⟩ h' he
      simp only [mem_product, mem_range] at h h'
      obtain ⟨rfl, rfl, rfl⟩ := rid_inj h.2 h.1.2 h'.2 h'.1.2 he
      rfl
    · intro b hb
      obtain ⟨i, j, k, hi, hj, hk, h⟩ := rid_surj (mem_range.mp hb)
      exact ⟨((k, j), i), by simp [hi, hj, hk], h⟩
    · intro v _
      rfl
  have hf : Poly3.Below ([(1, 1, 1)] : Poly3 K) n := by
    have : (1 : K[X]).degree < n := by
      rw [degree_one]
      exact_mod_cast hn
    intro t ht
    obtain rfl := List.mem_singleton.mp ht
    exact ⟨this, this, this⟩
  obtain ⟨h1, h2, h3, h4⟩ := C144_fields hx _ hf pt
  rw [key, key, key, key, h1, h2, h3, h4]
  simp [Poly3.value, Poly3.dx, Poly3.dy, Poly3.dz]

/-- Three distinct positions, a quadratic field. -/
example : Set.InjOn (fun i : ℕ => (i : ℚ)) (range 3) ∧
    Poly3.Below ([(X ^ 2, X, 1), (1, 1, X)] : Poly3 ℚ) 3 := by
  refine ⟨fun a _ b _ h => Nat.cast_injective (R := ℚ) h, ?_⟩
  intro t ht
  have h0 : (1 : ℚ[X]).degree < (3 : ℕ) := by rw [degree_one]; norm_num
  have h1 : (X : ℚ[X]).degree < (3 : ℕ) := by rw [degree_X]; norm_num
  have h2 : (X ^ 2 : ℚ[X]).degree < (3 : ℕ) := by rw [degree_X_pow]; norm_num
  simp only [List.mem_cons, List.not_mem_nil, or_false] at ht
  rcases ht with rfl | rfl
  · exact ⟨h2, h1, h0⟩
  · exact ⟨h0, h0, h1⟩

end Fierro
