import Verif.Props.RefElem
import Verif.Props.RefQuad

/-!
# C146: the reference element of an order
-/

namespace Fierro

open Polynomial Finset RefElem RefQuad

/-! ## Positions along an axis -/

theorem getElem?_stride2 (n a : ℕ) (ha : a < (n + 1) / 2) : (stride2 n)[a]? = some (2 * a) := by
  simp [stride2, ha]

theorem stride2_length (n : ℕ) : (stride2 n).length = (n + 1) / 2 := by simp [stride2]

theorem pos1_dof {p i : ℕ} (hp : p ≠ 0) (hi : i ≤ p) : pos1 p .dof i = lob1 p (2 * i) := by
  have hl : i < (numLob p + 1) / 2 := by simp only [numLob, if_neg hp]; omega
  rw [pos1, Mem.writeAll_of_mem _ _ (Arr1.dof, i) (lob1 p (2 * i))]
  · rfl
  · rw [writes1, if_neg hp]
    refine List.mem_append_left _ (List.mem_map.mpr ⟨(2 * i, i), ?_, rfl⟩)
    rw [List.mem_zipIdx_iff_getElem?]
    exact getElem?_stride2 _ _ hl
  · intro v hv
    rw [writes1, if_neg hp] at hv
    rcases List.mem_append.mp hv with h | h
    · obtain ⟨⟨a, b⟩, hm, he⟩ := List.mem_map.mp h
      rw [List.mem_zipIdx_iff_getElem?] at hm
      simp only [Prod.mk.injEq] at he
      obtain ⟨⟨-, rfl⟩, rfl⟩ := he
      rw [getElem?_stride2 _ _ hl] at hm
      simp only [Option.some.injEq] at hm
      rw [hm]
    · obtain ⟨⟨a, b⟩, hm, he⟩ := List.mem_map.mp h
      simp at he

theorem pos1_dg {p i : ℕ} (hp : p ≠ 0) (hi : i < p) : pos1 p .dg i = dual1 p (2 * i) := by
  have hl : i < (numDual p + 1) / 2 := by simp only [numDual, if_neg hp]; omega
  rw [pos1, Mem.writeAll_of_mem _ _ (Arr1.dg, i) (dual1 p (2 * i))]
  · rfl
  · rw [writes1, if_neg hp]
    refine List.mem_append_right _ (List.mem_map.mpr ⟨(2 * i, i), ?_, rfl⟩)
    rw [List.mem_zipIdx_iff_getElem?]
    exact getElem?_stride2 _ _ hl
  · intro v hv
    rw [writes1, if_neg hp] at hv
    rcases List.mem_append.mp hv with h | h
    · obtain ⟨⟨a, b⟩, hm, he⟩ := List.mem_map.mp h
      simp at he
    · obtain ⟨⟨a, b⟩, hm, he⟩ := List.mem_map.mp h
      rw [List.mem_zipIdx_iff_getElem?] at hm
      simp only [Prod.mk.injEq] at he
      obtain ⟨⟨-, rfl⟩, rfl⟩ := he
      rw [getElem?_stride2 _ _ hl] at hm
      simp only [Option.some.injEq] at hm
      rw [hm]

theorem lobatto_lt {n a b : ℕ} (h1 : 2 ≤ n) (h2 : n ≤ 20) (hab : a < b) (hb : b < n) :
    (lobattoNodes n).getD a 0 < (lobattoNodes n).getD b 0 := by
  obtain ⟨hl, -, hp, -⟩ := C145_lobatto_points n h1 h2
  have e : ∀ c (hc : c < (lobattoNodes n).length), (lobattoNodes n).getD c 0 = (lobattoNodes n)[c] := by
    intro c hc
    rw [List.getD_eq_getElem?_getD, List.getElem?_eq_getElem hc, Option.getD_some]
  rw [e a (by omega), e b (by omega)]
  exact List.pairwise_iff_getElem.mp hp a b (by omega) (by omega) hab

/-- The nodes of an element of order one to nine increase from `-1` to `1` along each axis, and so do
the thermodynamic positions from order two on. -/
theorem C146_positions {p : ℕ} (h1 : 1 ≤ p) (h9 : p ≤ 9) :
    (∀ i j, i < j → j ≤ p → pos1 p .dof i < pos1 p .dof j) ∧ pos1 p .dof 0 = -1 ∧ pos1 p .dof p = 1 ∧
      (∀ i j, i < j → j < p → pos1 p .dg i < pos1 p .dg j) ∧
      (2 ≤ p → pos1 p .dg 0 = -1 ∧ pos1 p .dg (p - 1) = 1) := by
  have hp : p ≠ 0 := by omega
  have ends : ∀ n, 2 ≤ n → n ≤ 20 → (lobattoNodes n).getD 0 0 = -1 ∧ (lobattoNodes n).getD (n - 1) 0 = 1 := by
    intro n a b
    obtain ⟨hl, -, -, hh, ht, -⟩ := C145_lobatto_points n a b
    constructor
    · rw [List.head?_eq_getElem?] at hh
      rw [List.getD_eq_getElem?_getD, hh]
      rfl
    · rw [List.getLast?_eq_getElem?, hl] at ht
      rw [List.getD_eq_getElem?_getD, ht]
      rfl
  have hn : numLob p = 2 * p + 1 := by simp [numLob, hp]
  have hd : numDual p = 2 * p - 1 := by simp [numDual, hp]
  refine ⟨?_, ?_, ?_, ?_, ?_⟩
  · intro i j hij hj
    rw [pos1_dof hp (by omega), pos1_dof hp hj, lob1, lob1, hn]
    exact lobatto_lt (by omega) (by omega) (by omega) (by omega)
  · rw [pos1_dof hp (by omega), lob1, hn]
    exact (ends _ (by omega) (by omega)).1
  · rw [pos1_dof hp le_rfl, lob1, hn]
    exact (ends (2 * p + 1) (by omega) (by omega)).2
  · intro i j hij hj
    rw [pos1_dg hp (by omega), pos1_dg hp hj, dual1, dual1, hd]
    exact lobatto_lt (by omega) (by omega) (by omega) (by omega)
  · intro h2
    rw [pos1_dg hp (by omega), pos1_dg hp (by omega), dual1, dual1, hd]
    have h := ends (2 * p - 1) (by omega) (by omega)
    refine ⟨h.1, ?_⟩
    have e : 2 * (p - 1) = 2 * p - 1 - 1 := by omega
    rw [e]
    exact h.2

theorem pos1_inj {p : ℕ} (h1 : 1 ≤ p) (h9 : p ≤ 9) (a : Arr1) :
    0 < size1 p a ∧ Set.InjOn (pos1 p a) (range (size1 p a)) := by
  have hp : p ≠ 0 := by omega
  obtain ⟨hd, -, -, hg, -⟩ := C146_positions h1 h9
  have key : ∀ (f : ℕ → ℝ) (n : ℕ), (∀ i j, i < j → j < n → f i < f j) → Set.InjOn f (range n) := by
    intro f n hf i hi j hj e
    simp only [coe_range, Set.mem_Iio] at hi hj
    rcases lt_trichotomy i j with h | h | h
    · exact absurd e (hf i j h hj).ne
    · exact h
    · exact absurd e (hf j i h hi).ne'
  cases a
  · have e : size1 p .dof = p + 1 := by simp [size1, numDofs, hp]
    rw [e]
    exact ⟨by omega, key _ _ fun i j h h' => hd i j h (by omega)⟩
  · have e : size1 p .dg = p := by simp [size1, numDg, hp]
    rw [e]
    exact ⟨by omega, key _ _ hg⟩

/-! ## Basis and gradients at the quadrature points -/

theorem pointOf_some (n : ℕ) (x : ℕ → ℝ) {r : ℕ} (hr : r < n ^ 3) :
    ∃ pt, pointOf (Mem.writeAll (posWrites n x) Mem.empty) r = some pt := by
  obtain ⟨i, j, k, hi, hj, hk, rfl⟩ := rid_surj hr
  exact ⟨_, pointOf_posWrites n x hi hj hk⟩

/-- At every Lobatto point and every Gauss point of an element of order one to nine the stored values
of the kinematic basis add up to one, those of the thermodynamic basis as well, and each component
of the stored gradients to zero. -/
theorem C146_sums {p : ℕ} (h1 : 1 ≤ p) (h9 : p ≤ 9) (a : Arr1) :
    (∀ r < (2 * p + 1) ^ 3, ∑ b ∈ range (size1 p a ^ 3), (lobBasis p a r b).getD 0 = 1) ∧
    (∀ r < (2 * p) ^ 3, ∑ b ∈ range (size1 p a ^ 3), (gaussBasis p a r b).getD 0 = 1) ∧
    (∀ r < (2 * p + 1) ^ 3, ∀ d, ∑ b ∈ range ((p + 1) ^ 3), (lobGrad p r b d).getD 0 = 0) ∧
    (∀ r < (2 * p) ^ 3, ∀ d, ∑ b ∈ range ((p + 1) ^ 3), (gaussGrad p r b d).getD 0 = 0) := by
  have hp : p ≠ 0 := by omega
  have hn : numLob p = 2 * p + 1 := by simp [numLob, hp]
  have hg : numGauss p = 2 * p := by simp [numGauss, hp]
  have hs : size1 p .dof = p + 1 := by simp [size1, numDofs, hp]
  have hs' : numDofs p = p + 1 := by simp [numDofs, hp]
  have hb : ∀ pt, ∑ b ∈ range (size1 p a ^ 3), (basisAt p a pt b).getD 0 = 1 := fun pt =>
    (C144_partition (pos1_inj h1 h9 a).1 (pos1_inj h1 h9 a).2 pt).1
  have hd : ∀ pt d, ∑ b ∈ range ((p + 1) ^ 3), (gradAt p pt b d).getD 0 = 0 := by
    intro pt d
    have h := C144_partition (pos1_inj h1 h9 .dof).1 (pos1_inj h1 h9 .dof).2 pt
    rw [hs] at h
    unfold gradAt
    rw [hs']
    fin_cases d
    · exact h.2.1
    · exact h.2.2.1
    · exact h.2.2.2
  refine ⟨?_, ?_, ?_, ?_⟩
  · intro r hr
    obtain ⟨pt, e⟩ := pointOf_some (numLob p) (lob1 p) (r := r) (by rw [hn]; exact hr)
    simp only [lobBasis, lobPositions, e, Option.bind_some]
    exact hb pt
  · intro r hr
    obtain ⟨pt, e⟩ := pointOf_some (numGauss p) (leg1 p) (r := r) (by rw [hg]; exact hr)
    simp only [gaussBasis, gaussPositions, e, Option.bind_some]
    exact hb pt
  · intro r hr d
    obtain ⟨pt, e⟩ := pointOf_some (numLob p) (lob1 p) (r := r) (by rw [hn]; exact hr)
    simp only [lobGrad, lobPositions, e, Option.bind_some]
    exact hd pt d
  · intro r hr d
    obtain ⟨pt, e⟩ := pointOf_some (numGauss p) (leg1 p) (r := r) (by rw [hg]; exact hr)
    simp only [gaussGrad, gaussPositions, e, Option.bind_some]
    exact hd pt d

/-- The derivative of a field along an axis. -/
noncomputable def Poly3.partial {K : Type} [Field K] (f : Poly3 K) : Fin 3 → Poly3 K := ![f.dx, f.dy, f.dz]

theorem pointOf_table (n : ℕ) (x : ℕ → ℝ) {i j k : ℕ} (hi : i < n) (hj : j < n) (hk : k < n) :
    pointOf (Mem.writeAll (posWrites n x) Mem.empty) (i + j * n + k * n * n) = some ![x i, x j, x k] :=
  pointOf_posWrites n x hi hj hk

theorem fields_at {p : ℕ} (h1 : 1 ≤ p) (h9 : p ≤ 9) (f : Poly3 ℝ) (hf : f.Below (p + 1)) (pt : Fin 3 → ℝ) :
    nodalSum (p + 1) (pos1 p .dof) f (basisAt p .dof pt) = f.value (pt 0) (pt 1) (pt 2) ∧
      ∀ d, nodalSum (p + 1) (pos1 p .dof) f (fun b => gradAt p pt b d) =
        (f.partial d).value (pt 0) (pt 1) (pt 2) := by
  have hp : p ≠ 0 := by omega
  have hs : size1 p .dof = p + 1 := by simp [size1, numDofs, hp]
  have hs' : numDofs p = p + 1 := by simp [numDofs, hp]
  have hx := (pos1_inj h1 h9 .dof).2
  rw [hs] at hx
  obtain ⟨a1, a2, a3, a4⟩ := C144_fields hx f hf pt
  constructor
  · have e : basisAt p .dof pt = getBasis (p + 1) (pos1 p .dof) pt := by
      funext b
      rw [basisAt, hs]
    rw [e]
    exact a1
  · intro d
    unfold gradAt
    rw [hs']
    fin_cases d
    · exact a2
    · exact a3
    · exact a4

theorem fields_at_dg {p : ℕ} (h1 : 1 ≤ p) (h9 : p ≤ 9) (f : Poly3 ℝ) (hf : f.Below p) (pt : Fin 3 → ℝ) :
    nodalSum p (pos1 p .dg) f (basisAt p .dg pt) = f.value (pt 0) (pt 1) (pt 2) := by
  have hp : p ≠ 0 := by omega
  have hs : size1 p .dg = p := by simp [size1, numDg, hp]
  have hx := (pos1_inj h1 h9 .dg).2
  rw [hs] at hx
  have e : basisAt p .dg pt = getBasis p (pos1 p .dg) pt := by
    funext b
    rw [basisAt, hs]
  rw [e]
  exact (C144_fields hx f hf pt).1

/-- From the nodal values of a polynomial field of degree at most the order in each coordinate the
stored kinematic basis gives the field at the Gauss point with numbers `i`, `j`, `k`, and the stored
gradients its gradient; the thermodynamic basis does the same for degrees below the order. -/
theorem C146_gauss_fields {p : ℕ} (h1 : 1 ≤ p) (h9 : p ≤ 9) (f g : Poly3 ℝ) (hf : f.Below (p + 1))
    (hg : g.Below p) {i j k : ℕ} (hi : i < 2 * p) (hj : j < 2 * p) (hk : k < 2 * p) :
    let r := i + j * (2 * p) + k * (2 * p) * (2 * p)
    nodalSum (p + 1) (pos1 p .dof) f (gaussBasis p .dof r) = f.value (leg1 p i) (leg1 p j) (leg1 p k) ∧
      (∀ d, nodalSum (p + 1) (pos1 p .dof) f (fun b => gaussGrad p r b d) =
        (f.partial d).value (leg1 p i) (leg1 p j) (leg1 p k)) ∧
      nodalSum p (pos1 p .dg) g (gaussBasis p .dg r) = g.value (leg1 p i) (leg1 p j) (leg1 p k) := by
  intro r
  have hp : p ≠ 0 := by omega
  have hn : numGauss p = 2 * p := by simp [numGauss, hp]
  have hpt : pointOf (gaussPositions p) r = some ![leg1 p i, leg1 p j, leg1 p k] := by
    rw [gaussPositions, hn]
    exact pointOf_table _ _ hi hj hk
  have e : ∀ a, gaussBasis p a r = basisAt p a ![leg1 p i, leg1 p j, leg1 p k] := by
    intro a
    funext b
    rw [gaussBasis, hpt, Option.bind_some]
  obtain ⟨a1, a2⟩ := fields_at h1 h9 f hf ![leg1 p i, leg1 p j, leg1 p k]
  refine ⟨by rw [e]; exact a1, fun d => ?_, by rw [e]; exact fields_at_dg h1 h9 g hg _⟩
  simp only [gaussGrad, hpt, Option.bind_some]
  exact a2 d

/-- The same at the Lobatto points. -/
theorem C146_lobatto_fields {p : ℕ} (h1 : 1 ≤ p) (h9 : p ≤ 9) (f g : Poly3 ℝ) (hf : f.Below (p + 1))
    (hg : g.Below p) {i j k : ℕ} (hi : i ≤ 2 * p) (hj : j ≤ 2 * p) (hk : k ≤ 2 * p) :
    let r := i + j * (2 * p + 1) + k * (2 * p + 1) * (2 * p + 1)
    nodalSum (p + 1) (pos1 p .dof) f (lobBasis p .dof r) = f.value (lob1 p i) (lob1 p j) (lob1 p k) ∧
      (∀ d, nodalSum (p + 1) (pos1 p .dof) f (fun b => lobGrad p r b d) =
        (f.partial d).value (lob1 p i) (lob1 p j) (lob1 p k)) ∧
      nodalSum p (pos1 p .dg) g (lobBasis p .dg r) = g.value (lob1 p i) (lob1 p j) (lob1 p k) := by
  intro r
  have hp : p ≠ 0 := by omega
  have hn : numLob p = 2 * p + 1 := by simp [numLob, hp]
  have hpt : pointOf (lobPositions p) r = some ![lob1 p i, lob1 p j, lob1 p k] := by
    rw [lobPositions, hn]
    exact pointOf_table _ _ (by omega) (by omega) (by omega)
  have e : ∀ a, lobBasis p a r = basisAt p a ![lob1 p i, lob1 p j, lob1 p k] := by
    intro a
    funext b
    rw [lobBasis, hpt, Option.bind_some]
  obtain ⟨a1, a2⟩ := fields_at h1 h9 f hf ![lob1 p i, lob1 p j, lob1 p k]
  refine ⟨by rw [e]; exact a1, fun d => ?_, by rw [e]; exact fields_at_dg h1 h9 g hg _⟩
  simp only [lobGrad, hpt, Option.bind_some]
  exact a2 d

/-! ## Nodes among the Lobatto points -/

theorem getElem?_cube (l : List ℕ) {i j k a b c : ℕ} (hi : l[i]? = some a) (hj : l[j]? = some b)
    (hk : l[k]? = some c) : (cube l)[rid l.length i j k]? = some (a, b, c) := by
  have li : i < l.length := (List.getElem?_eq_some_iff.mp hi).1
  have lj : j < l.length := (List.getElem?_eq_some_iff.mp hj).1
  have e : rid l.length i j k = (i + l.length * j) + l.length * l.length * k := by unfold rid; ring
  rw [e, cube, flatMap_getElem? _ _ (l.length * l.length)]
  · rw [hk, Option.bind_some, flatMap_getElem? _ _ l.length]
    · rw [hj, Option.bind_some, List.getElem?_map, hi]
      rfl
    · intro x _; simp
    · exact li
  · intro x _
    rw [flatMap_length _ _ l.length]
    intro y _; simp
  · have : l.length * j + l.length ≤ l.length * l.length := by
      calc l.length * j + l.length = l.length * (j + 1) := by ring
        _ ≤ l.length * l.length := Nat.mul_le_mul_left _ lj
    omega

theorem countedWrites_get (l : List ℕ) (n : ℕ) {i j k a b c : ℕ} (hi : l[i]? = some a)
    (hj : l[j]? = some b) (hk : l[k]? = some c) :
    Mem.writeAll (countedWrites l n) Mem.empty (rid l.length i j k) = some (rid n a b c) := by
  have h := getElem?_cube l hi hj hk
  refine Mem.writeAll_of_mem _ _ _ _ ?_ ?_
  · refine List.mem_map.mpr ⟨((a, b, c), rid l.length i j k), ?_, rfl⟩
    rw [List.mem_zipIdx_iff_getElem?]
    exact h
  · intro v hv
    obtain ⟨⟨⟨a', b', c'⟩, m⟩, hm, he⟩ := List.mem_map.mp hv
    rw [List.mem_zipIdx_iff_getElem?] at hm
    simp only [Prod.mk.injEq] at he
    obtain ⟨rfl, rfl⟩ := he
    simp only at hm
    rw [h] at hm
    simp only [Option.some.injEq, Prod.mk.injEq] at hm
    obtain ⟨rfl, rfl, rfl⟩ := hm
    rfl

/-- The map from nodes to Lobatto points, for every order from one on: the node with numbers `i`, `j`,
`k` has the number of the Lobatto point with twice these numbers, and its position is that of the
point. -/
theorem C146_node_map {p : ℕ} (h1 : 1 ≤ p) {i j k : ℕ} (hi : i ≤ p) (hj : j ≤ p) (hk : k ≤ p) :
    let b := i + j * (p + 1) + k * (p + 1) * (p + 1)
    let r := 2 * i + 2 * j * (2 * p + 1) + 2 * k * (2 * p + 1) * (2 * p + 1)
    dofLobattoMap p b = some r ∧ ∀ d, ∃ v, dofPositions p (b, d) = some v ∧ lobPositions p (r, d) = some v := by
  intro b r
  have hp : p ≠ 0 := by omega
  have hn : numLob p = 2 * p + 1 := by simp [numLob, hp]
  have hs' : numDofs p = p + 1 := by simp [numDofs, hp]
  have hl : (stride2 (2 * p + 1)).length = p + 1 := by rw [stride2_length]; omega
  have hg : ∀ a, a ≤ p → (stride2 (2 * p + 1))[a]? = some (2 * a) := fun a ha =>
    getElem?_stride2 _ _ (by omega)
  constructor
  · have h := countedWrites_get (stride2 (2 * p + 1)) (2 * p + 1) (hg i hi) (hg j hj) (hg k hk)
    rw [hl] at h
    rw [dofLobattoMap, hn]
    exact h
  · intro d
    have ha := posWrites_rid (p + 1) (pos1 p .dof) (i := i) (j := j) (k := k) (by omega) (by omega)
      (by omega) d
    have hb := posWrites_rid (2 * p + 1) (lob1 p) (i := 2 * i) (j := 2 * j) (k := 2 * k) (by omega)
      (by omega) (by omega) d
    rw [dofPositions, hs', lobPositions, hn]
    refine ⟨_, ha, hb.trans ?_⟩
    fin_cases d
    · exact congrArg some (pos1_dof hp hi).symm
    · exact congrArg some (pos1_dof hp hj).symm
    · exact congrArg some (pos1_dof hp hk).symm

/-- The map of the thermodynamic positions to the smaller set of Lobatto points, for every order from
one on. -/
theorem C146_dual_map {p : ℕ} (h1 : 1 ≤ p) {i j k : ℕ} (hi : i < p) (hj : j < p) (hk : k < p) :
    dualDofLobattoMap p (i + j * p + k * p * p) =
      some (2 * i + 2 * j * (2 * p - 1) + 2 * k * (2 * p - 1) * (2 * p - 1)) := by
  have hp : p ≠ 0 := by omega
  have hd : numDual p = 2 * p - 1 := by simp [numDual, hp]
  by_cases h : p = 1
  · subst h
    obtain rfl : i = 0 := by omega
    obtain rfl : j = 0 := by omega
    obtain rfl : k = 0 := by omega
    decide
  · rw [dualDofLobattoMap, if_neg h, if_pos (by omega), hd]
    have hl : (stride2 (2 * p - 1)).length = p := by rw [stride2_length]; omega
    have hg : ∀ a, a < p → (stride2 (2 * p - 1))[a]? = some (2 * a) := fun a ha =>
      getElem?_stride2 _ _ (by omega)
    have hh := countedWrites_get (stride2 (2 * p - 1)) (2 * p - 1) (hg i hi) (hg j hj) (hg k hk)
    rw [hl] at hh
    exact hh

/-- At the Lobatto point of a node the stored basis is one for that node and zero for the others. -/
theorem C146_nodal {p : ℕ} (h1 : 1 ≤ p) (h9 : p ≤ 9) {i j k i' j' k' : ℕ} (hi : i ≤ p) (hj : j ≤ p)
    (hk : k ≤ p) (hi' : i' ≤ p) (hj' : j' ≤ p) (hk' : k' ≤ p) :
    (dofLobattoMap p (i' + j' * (p + 1) + k' * (p + 1) * (p + 1))).bind
        (fun r => lobBasis p .dof r (i + j * (p + 1) + k * (p + 1) * (p + 1))) =
      some (if i = i' ∧ j = j' ∧ k = k' then 1 else 0) := by
  have hp : p ≠ 0 := by omega
  have hn : numLob p = 2 * p + 1 := by simp [numLob, hp]
  have hs : size1 p .dof = p + 1 := by simp [size1, numDofs, hp]
  have hx := (pos1_inj h1 h9 .dof).2
  rw [hs] at hx
  have hpt := pointOf_posWrites (2 * p + 1) (lob1 p) (i := 2 * i') (j := 2 * j') (k := 2 * k') (by omega)
    (by omega) (by omega)
  rw [(C146_node_map h1 hi' hj' hk').1, Option.bind_some, lobBasis, lobPositions, hn]
  unfold rid at hpt
  rw [hpt, Option.bind_some, basisAt, hs, ← pos1_dof hp hi', ← pos1_dof hp hj', ← pos1_dof hp hk']
  exact C144_kronecker hx (by omega) (by omega) (by omega) (by omega) (by omega) (by omega)

/-! ## Integrals over the element -/

theorem tensor_product (n : ℕ) (w x : ℕ → ℝ) (P Q R : ℝ[X]) :
    ∑ k ∈ range n, ∑ j ∈ range n, ∑ i ∈ range n, (tensor n w w w (rid n i j k)).getD 0 *
          (P.eval (x i) * Q.eval (x j) * R.eval (x k)) =
      (∑ i ∈ range n, w i * P.eval (x i)) * (∑ j ∈ range n, w j * Q.eval (x j)) *
        ∑ k ∈ range n, w k * R.eval (x k) := by
  rw [Finset.mul_sum]
  refine Finset.sum_congr rfl fun k hk => ?_
  rw [Finset.mul_sum, Finset.sum_mul]
  refine Finset.sum_congr rfl fun j hj => ?_
  rw [Finset.sum_mul, Finset.sum_mul]
  refine Finset.sum_congr rfl fun i hi => ?_
  rw [tensor_rid _ _ _ _ (mem_range.mp hi) (mem_range.mp hj) (mem_range.mp hk)]
  simp only [Option.getD_some]
  ring

/-- The sum over the Gauss points of the weights times the values of a product of three polynomials is
the product of the three sums along the axes, for every order from one on. -/
theorem C146_gauss_product {p : ℕ} (h1 : 1 ≤ p) (P Q R : ℝ[X]) :
    ∑ k ∈ range (2 * p), ∑ j ∈ range (2 * p), ∑ i ∈ range (2 * p),
        (gaussWeights3 p (i + j * (2 * p) + k * (2 * p) * (2 * p))).getD 0 *
          (P.eval (leg1 p i) * Q.eval (leg1 p j) * R.eval (leg1 p k)) =
      (∑ i ∈ range (2 * p), legW1 p i * P.eval (leg1 p i)) *
        (∑ j ∈ range (2 * p), legW1 p j * Q.eval (leg1 p j)) *
        ∑ k ∈ range (2 * p), legW1 p k * R.eval (leg1 p k) := by
  have hn : numGauss p = 2 * p := by simp [numGauss, show p ≠ 0 by omega]
  rw [gaussWeights3, hn]
  exact tensor_product _ _ _ P Q R

/-- The same for the Lobatto points. -/
theorem C146_lobatto_product {p : ℕ} (h1 : 1 ≤ p) (P Q R : ℝ[X]) :
    ∑ k ∈ range (2 * p + 1), ∑ j ∈ range (2 * p + 1), ∑ i ∈ range (2 * p + 1),
        (lobWeights3 p (i + j * (2 * p + 1) + k * (2 * p + 1) * (2 * p + 1))).getD 0 *
          (P.eval (lob1 p i) * Q.eval (lob1 p j) * R.eval (lob1 p k)) =
      (∑ i ∈ range (2 * p + 1), lobW1 p i * P.eval (lob1 p i)) *
        (∑ j ∈ range (2 * p + 1), lobW1 p j * Q.eval (lob1 p j)) *
        ∑ k ∈ range (2 * p + 1), lobW1 p k * R.eval (lob1 p k) := by
  have hn : numLob p = 2 * p + 1 := by simp [numLob, show p ≠ 0 by omega]
  rw [lobWeights3, hn]
  exact tensor_product _ _ _ P Q R

theorem ruleSum_eq (P : ℝ[X]) : ∀ (xs ws : List ℝ) (n : ℕ), xs.length = n → ws.length = n →
    ruleSum xs ws P = ∑ i ∈ range n, ws.getD i 0 * P.eval (xs.getD i 0) := by
  intro xs
  induction xs with
  | nil =>
    intro ws n hx hw
    obtain rfl : n = 0 := by simpa using hx.symm
    simp [ruleSum]
  | cons x xs ih =>
    intro ws n hx hw
    cases ws with
    | nil => simp at hx hw; omega
    | cons w ws =>
      obtain ⟨m, rfl⟩ : ∃ m, n = m + 1 := ⟨xs.length, by simpa using hx.symm⟩
      have := ih ws m (by simpa using hx) (by simpa using hw)
      rw [Finset.sum_range_succ']
      simp only [ruleSum, List.map_cons, List.zip_cons_cons, List.sum_cons] at this ⊢
      rw [this, add_comm]
      simp

theorem getD_map_cast (l : List ℚ) (i : ℕ) :
    (l.map fun x : ℚ => (x : ℝ)).getD i 0 = ((l.getD i 0 : ℚ) : ℝ) := by
  rw [List.getD_eq_getElem?_getD, List.getD_eq_getElem?_getD, List.getElem?_map]
  cases l[i]? <;> simp

/-- The sum over the Gauss points along an axis is close to the integral, for every polynomial of
degree below four times the order. -/
theorem C146_gauss_line {p : ℕ} (h1 : 1 ≤ p) (h9 : p ≤ 9) (P : ℝ[X]) (hP : P.natDegree < 4 * p) :
    |∑ i ∈ range (2 * p), legW1 p i * P.eval (leg1 p i) - ∫ x in (-1 : ℝ)..1, P.eval x| ≤
      1 / 10 ^ 29 * coeffSize P := by
  have hg : numGauss p = 2 * p := by simp [numGauss, show p ≠ 0 by omega]
  obtain ⟨l1, l2, -⟩ := C145_legendre_points (2 * p) (by omega) (by omega)
  have h := C145_legendre (2 * p) (by omega) (by omega) P (by omega)
  rw [ruleSum_eq P _ _ (2 * p) (by rw [List.length_map]; exact l1) (by rw [List.length_map]; exact l2)] at h
  simp only [getD_map_cast] at h
  simp only [legW1, leg1, hg]
  exact h

/-- The same for the Lobatto points, less precisely. -/
theorem C146_lobatto_line {p : ℕ} (h1 : 1 ≤ p) (h9 : p ≤ 9) (P : ℝ[X]) (hP : P.natDegree < 4 * p) :
    |∑ i ∈ range (2 * p + 1), lobW1 p i * P.eval (lob1 p i) - ∫ x in (-1 : ℝ)..1, P.eval x| ≤
      1 / 10 ^ 23 * coeffSize P := by
  have hg : numLob p = 2 * p + 1 := by simp [numLob, show p ≠ 0 by omega]
  obtain ⟨l1, l2, -⟩ := C145_lobatto_points (2 * p + 1) (by omega) (by omega)
  have h := C145_lobatto (2 * p + 1) (by omega) (by omega) (by omega) P (by omega)
  rw [ruleSum_eq P _ _ (2 * p + 1) l1 l2] at h
  simp only [lobW1, lob1, hg]
  exact h

/-! ## Orders without an element -/

/-- For order zero the loop that sets the positions runs over the two Lobatto points also for the
thermodynamic array, which has one entry: it reads and writes past the end
(`common/include/ref_elem.hpp:318-324`). -/
theorem C146_order_zero_fails : ∃ w ∈ writes1 0, w.1.1 = Arr1.dg ∧ size1 0 .dg ≤ w.1.2 := by
  refine ⟨((.dg, 1), dual1 0 1), ?_, rfl, by decide⟩
  simp [writes1, numLob, List.range_succ]

/-- For every order from one on the writes stay inside the two arrays. -/
theorem C146_in_bounds {p : ℕ} (h1 : 1 ≤ p) : ∀ w ∈ writes1 p, w.1.2 < size1 p w.1.1 := by
  have hp : p ≠ 0 := by omega
  intro w hw
  rw [writes1, if_neg hp] at hw
  rcases List.mem_append.mp hw with h | h <;>
  · obtain ⟨⟨a, b⟩, hm, rfl⟩ := List.mem_map.mp h
    rw [List.mem_zipIdx_iff_getElem?] at hm
    have := (List.getElem?_eq_some_iff.mp hm).1
    rw [stride2_length] at this
    simp only [size1, numDofs, numDg, numLob, numDual, if_neg hp] at this ⊢
    omega

/-- The tables end at twenty points, and orders from ten on need more: no point is written, all nodes of
the element coincide, and every shape function is a quotient by zero
(`common/include/ref_quadrature.hpp:55-308`). -/
theorem C146_high_order_fails {p : ℕ} (h : 10 ≤ p) :
    (∀ i ≤ p, pos1 p .dof i = 0) ∧
      ∀ i ≤ p, ∏ j ∈ (range (p + 1)).erase i, (pos1 p .dof i - pos1 p .dof j) = 0 := by
  have hp : p ≠ 0 := by omega
  have hn : numLob p = 2 * p + 1 := by simp [numLob, hp]
  have h0 : ∀ i ≤ p, pos1 p .dof i = 0 := by
    intro i hi
    rw [pos1_dof hp hi, lob1, hn]
    have e : lobattoNodes (2 * p + 1) = [] := by
      have e' : lobattoNodesQ (2 * p + 1) = [] := by
        unfold lobattoNodesQ
        split <;> first | omega | rfl
      unfold lobattoNodes
      split <;> first | omega | simp [e']
    rw [e]
    simp
  refine ⟨h0, fun i hi => ?_⟩
  by_cases h1 : i = 0
  · refine Finset.prod_eq_zero (i := 1) (by simp; omega) ?_
    rw [h0 i hi, h0 1 (by omega), sub_zero]
  · refine Finset.prod_eq_zero (i := 0) (by simp; omega) ?_
    rw [h0 i hi, h0 0 (by omega), sub_zero]

/-- The orders the statements range over, and a quadratic field on an element of order two. -/
example : (1 ≤ 2 ∧ 2 ≤ 9) ∧ Poly3.Below ([(X ^ 2, X, 1)] : Poly3 ℝ) (2 + 1) ∧
    Poly3.Below ([(X, 1, X)] : Poly3 ℝ) 2 ∧ (X ^ 7 : ℝ[X]).natDegree < 4 * 2 := by
  refine ⟨by norm_num, ?_, ?_, by rw [natDegree_X_pow]; norm_num⟩
  all_goals
    intro t ht
    obtain rfl := List.mem_singleton.mp ht
    refine ⟨?_, ?_, ?_⟩ <;> simp only [degree_X_pow, degree_X, degree_one] <;> norm_num

end Fierro
