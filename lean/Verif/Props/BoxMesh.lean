import Verif.Proofs.BoxMesh
import Verif.Model.Geometry
import Mathlib.Algebra.BigOperators.Fin
import Mathlib.Algebra.BigOperators.Intervals
import Mathlib.Algebra.Order.Field.Rat
import Mathlib.Tactic.FieldSimp
import Mathlib.Tactic.FinCases
import Mathlib.Algebra.Order.Ring.Cast

/-!
# C03, C04, C05: the built box meshes
-/

namespace Fierro

variable {K : Type} [Field K]

/-! ### C03 -/

/-- **C03.** Local node `(a,b,c)` (`i` fastest) of cell `(i,j,k)` of a built 3D box is an existing
node lying at the corner `(i+a, j+b, k+c)` of the lattice. -/
theorem C03_box3D_corner (b : BoxInput K) {i j k a₁ a₂ a₃ : ℕ} (hi : i < b.nx) (hj : j < b.ny)
    (hk : k < b.nz) (h₁ : a₁ ≤ 1) (h₂ : a₂ ≤ 1) (h₃ : a₃ ≤ 1) :
    ∃ g, (build3DBox b).nodesInElem (i + b.nx * (j + b.ny * k), a₁ + 2 * (a₂ + 2 * a₃)) = some g ∧
      g < (build3DBox b).numNodes ∧
      (build3DBox b).coords (g, 0) = some (b.ox + ((i + a₁ : ℕ) : K) * (b.lx / b.nx)) ∧
      (build3DBox b).coords (g, 1) = some (b.oy + ((j + a₂ : ℕ) : K) * (b.ly / b.ny)) ∧
      (build3DBox b).coords (g, 2) = some (b.oz + ((k + a₃ : ℕ) : K) * (b.lz / b.nz)) := by
  have h := elemWrites3D_get (p := 1) (npi := b.nx + 1) (npj := b.ny + 1) hi hj hk h₁ h₂ h₃
  have hc := nodeWrites3D_get (K := K) (ox := b.ox) (oy := b.oy) (oz := b.oz)
    (dx := b.lx / b.nx) (dy := b.ly / b.ny) (dz := b.lz / b.nz) (npi := b.nx + 1)
    (npj := b.ny + 1) (npk := b.nz + 1) (i := i + a₁) (j := j + a₂) (k := k + a₃)
    (by omega) (by omega) (by omega)
  simp only [Nat.mul_one] at h
  rw [← getIdN_eq]
  exact ⟨_, h, getIdN_lt (by omega) (by omega) (by omega), hc.1, hc.2.1, hc.2.2⟩

/-- **C03.** Exactly the cells `(e,l)` with `e` an element and `l < 8` are filled, always with an
existing node. -/
theorem C03_box3D_filled (b : BoxInput K) (e l : ℕ) :
    (∃ g, (build3DBox b).nodesInElem (e, l) = some g) ↔
      e < (build3DBox b).numElems ∧ l < 8 := by
  constructor
  · rintro ⟨g, hg⟩
    exact elemWrites3D_range hg
  · rintro ⟨he, hl⟩
    obtain ⟨i, j, k, hi, hj, hk, rfl⟩ := getIdN_surj he
    obtain ⟨g, hg, -⟩ := C03_box3D_corner b hi hj hk (a₁ := l % 2) (a₂ := l / 2 % 2)
      (a₃ := l / 4) (by omega) (by omega) (by omega)
    refine ⟨g, ?_⟩
    rw [getIdN_eq]
    convert hg using 3
    omega

/-- **C03.** Two (element, local node) slots hold the same node exactly when they denote the same
lattice point.  Hence the nodes of one element are distinct, neighbours share exactly their common
face/edge/corner, and other elements share nothing. -/
theorem C03_box3D_conforming (b : BoxInput K) {i j k a₁ a₂ a₃ i' j' k' a₁' a₂' a₃' : ℕ}
    (hi : i < b.nx) (hj : j < b.ny) (hk : k < b.nz) (h₁ : a₁ ≤ 1) (h₂ : a₂ ≤ 1) (h₃ : a₃ ≤ 1)
    (hi' : i' < b.nx) (hj' : j' < b.ny) (hk' : k' < b.nz)
    (h₁' : a₁' ≤ 1) (h₂' : a₂' ≤ 1) (h₃' : a₃' ≤ 1) :
    (build3DBox b).nodesInElem (i + b.nx * (j + b.ny * k), a₁ + 2 * (a₂ + 2 * a₃)) =
      (build3DBox b).nodesInElem (i' + b.nx * (j' + b.ny * k'), a₁' + 2 * (a₂' + 2 * a₃')) ↔
    i + a₁ = i' + a₁' ∧ j + a₂ = j' + a₂' ∧ k + a₃ = k' + a₃' := by
  have h := elemWrites3D_get (p := 1) (npi := b.nx + 1) (npj := b.ny + 1) hi hj hk h₁ h₂ h₃
  have h' := elemWrites3D_get (p := 1) (npi := b.nx + 1) (npj := b.ny + 1) hi' hj' hk' h₁' h₂' h₃'
  simp only [Nat.mul_one, Nat.reduceAdd] at h h'
  rw [← getIdN_eq i, ← getIdN_eq i']
  change Mem.writeAll _ _ _ = Mem.writeAll _ _ _ ↔ _
  rw [h, h', Option.some.injEq]
  constructor
  · intro e; exact getIdN_inj (by omega) (by omega) (by omega) (by omega) e
  · rintro ⟨e1, e2, e3⟩; rw [e1, e2, e3]

/-- **C03.** Every node of the mesh is used by some element (given at least one cell per axis). -/
theorem C03_box3D_every_node_used (b : BoxInput K) (hx : 0 < b.nx) (hy : 0 < b.ny) (hz : 0 < b.nz)
    (g : ℕ) (hg : g < (build3DBox b).numNodes) :
    ∃ e l, (build3DBox b).nodesInElem (e, l) = some g := by
  obtain ⟨i, j, k, hi, hj, hk, rfl⟩ := getIdN_surj hg
  have h := elemWrites3D_get (p := 1) (npi := b.nx + 1) (npj := b.ny + 1)
    (i := min i (b.nx - 1)) (j := min j (b.ny - 1)) (k := min k (b.nz - 1))
    (a := i - min i (b.nx - 1)) (b := j - min j (b.ny - 1)) (c := k - min k (b.nz - 1))
    (nx := b.nx) (ny := b.ny) (nz := b.nz)
    (by omega) (by omega) (by omega) (by omega) (by omega) (by omega)
  simp only [Nat.mul_one] at h
  rw [show min i (b.nx - 1) + (i - min i (b.nx - 1)) = i by omega,
    show min j (b.ny - 1) + (j - min j (b.ny - 1)) = j by omega,
    show min k (b.nz - 1) + (k - min k (b.nz - 1)) = k by omega] at h
  exact ⟨_, _, h⟩

/-- **C03 (order).** No box is built exactly when the order is above nineteen. -/
theorem C03_hexN_order (b : BoxInput K) : build3DHexN b = none ↔ 19 < b.p := by
  unfold build3DHexN
  split_ifs with h
  · simp; exact h
  · simp; omega

/-- **C03 (arbitrary order).** The arbitrary-order box: local point `(a,b,c)`, `0 ≤ a,b,c ≤ p`,
of cell `(i,j,k)` is the node at lattice position `(i p + a, j p + b, k p + c)`; exactly
`(p+1)^3` slots per element are filled; slots share a node iff they are the same lattice point. -/
theorem C03_hexN_conforming (b : BoxInput K) (hp : b.p ≤ 19) :
    ∃ m, build3DHexN b = some m ∧
    (∀ i j k a₁ a₂ a₃, i < b.nx → j < b.ny → k < b.nz → a₁ ≤ b.p → a₂ ≤ b.p → a₃ ≤ b.p →
      ∃ g, m.nodesInElem (i + b.nx * (j + b.ny * k), a₁ + (b.p + 1) * (a₂ + (b.p + 1) * a₃)) =
          some g ∧ g < m.numNodes ∧
        m.coords (g, 0) = some (b.ox + ((i * b.p + a₁ : ℕ) : K) * (b.lx / (b.p * b.nx : ℕ))) ∧
        m.coords (g, 1) = some (b.oy + ((j * b.p + a₂ : ℕ) : K) * (b.ly / (b.p * b.ny : ℕ))) ∧
        m.coords (g, 2) = some (b.oz + ((k * b.p + a₃ : ℕ) : K) * (b.lz / (b.p * b.nz : ℕ)))) ∧
    (∀ e l g, m.nodesInElem (e, l) = some g →
      e < b.nx * b.ny * b.nz ∧ l < (b.p + 1) * (b.p + 1) * (b.p + 1)) ∧
    (∀ i j k a₁ a₂ a₃ i' j' k' a₁' a₂' a₃', i < b.nx → j < b.ny → k < b.nz →
      a₁ ≤ b.p → a₂ ≤ b.p → a₃ ≤ b.p → i' < b.nx → j' < b.ny → k' < b.nz →
      a₁' ≤ b.p → a₂' ≤ b.p → a₃' ≤ b.p →
      (m.nodesInElem (i + b.nx * (j + b.ny * k), a₁ + (b.p + 1) * (a₂ + (b.p + 1) * a₃)) =
       m.nodesInElem (i' + b.nx * (j' + b.ny * k'), a₁' + (b.p + 1) * (a₂' + (b.p + 1) * a₃')) ↔
       i * b.p + a₁ = i' * b.p + a₁' ∧ j * b.p + a₂ = j' * b.p + a₂' ∧
         k * b.p + a₃ = k' * b.p + a₃')) := by
  have bound : ∀ {n i a : ℕ}, i < n → a ≤ b.p → i * b.p + a < b.p * n + 1 := by
    intro n i a hi ha
    have : i * b.p + b.p ≤ n * b.p := by
      have := Nat.mul_le_mul_right b.p (Nat.succ_le_of_lt hi)
      rwa [Nat.succ_mul] at this
    rw [Nat.mul_comm b.p n]; omega
  refine ⟨_, by simp only [build3DHexN]; rw [if_neg (by omega)], ?_, ?_, ?_⟩
  · intro i j k a₁ a₂ a₃ hi hj hk h₁ h₂ h₃
    have h := elemWrites3D_get (p := b.p) (npi := b.p * b.nx + 1) (npj := b.p * b.ny + 1)
      hi hj hk h₁ h₂ h₃
    have hc := nodeWrites3D_get (K := K) (ox := b.ox) (oy := b.oy) (oz := b.oz)
      (dx := b.lx / ((b.p * b.nx : ℕ) : K)) (dy := b.ly / ((b.p * b.ny : ℕ) : K))
      (dz := b.lz / ((b.p * b.nz : ℕ) : K)) (npi := b.p * b.nx + 1)
      (npj := b.p * b.ny + 1) (npk := b.p * b.nz + 1)
      (bound hi h₁) (bound hj h₂) (bound hk h₃)
    rw [← getIdN_eq i]
    exact ⟨_, h, getIdN_lt (bound hi h₁) (bound hj h₂) (bound hk h₃), hc.1, hc.2.1, hc.2.2⟩
  · intro e l g hg
    exact elemWrites3D_range hg
  · intro i j k a₁ a₂ a₃ i' j' k' a₁' a₂' a₃' hi hj hk h₁ h₂ h₃ hi' hj' hk' h₁' h₂' h₃'
    have h := elemWrites3D_get (p := b.p) (npi := b.p * b.nx + 1) (npj := b.p * b.ny + 1)
      hi hj hk h₁ h₂ h₃
    have h' := elemWrites3D_get (p := b.p) (npi := b.p * b.nx + 1) (npj := b.p * b.ny + 1)
      hi' hj' hk' h₁' h₂' h₃'
    rw [← getIdN_eq i, ← getIdN_eq i']
    change Mem.writeAll _ _ _ = Mem.writeAll _ _ _ ↔ _
    rw [h, h', Option.some.injEq]
    constructor
    · intro e
      exact getIdN_inj (bound hi h₁) (bound hi' h₁') (bound hj h₂) (bound hj' h₂') e
    · rintro ⟨e1, e2, e3⟩; rw [e1, e2, e3]

/-- A 2×3×1 box over ℚ meeting the hypotheses of the C03 theorems. -/
def sampleBox : BoxInput ℚ :=
  { ox := 1, oy := 0, oz := -1, lx := 4, ly := 3, lz := 5, nx := 2, ny := 3, nz := 1, p := 2 }

example : (build3DBox sampleBox).nodesInElem (5, 7) = some 23 := by decide +kernel
example : ∃ g, (build3DBox sampleBox).nodesInElem (1 + 2 * (2 + 3 * 0), 1 + 2 * (1 + 2 * 1)) =
    some g :=
  let ⟨g, h, _⟩ := C03_box3D_corner sampleBox (i := 1) (j := 2) (k := 0) (a₁ := 1) (a₂ := 1)
    (a₃ := 1) (by decide) (by decide) (by decide) (by decide) (by decide) (by decide)
  ⟨g, h⟩

/-! ### C04 -/

section C04
variable [LinearOrder K] [IsStrictOrderedRing K]

omit [LinearOrder K] [IsStrictOrderedRing K] in
/-- **C04.** The first and the last node in each direction lie on the faces of the box. -/
theorem C04_box3D_extent (b : BoxInput K) (hx : (b.nx : K) ≠ 0) (hy : (b.ny : K) ≠ 0)
    (hz : (b.nz : K) ≠ 0) (i j k : ℕ) (hi : i ≤ b.nx) (hj : j ≤ b.ny) (hk : k ≤ b.nz) :
    let g := i + (b.nx + 1) * (j + (b.ny + 1) * k)
    (i = 0 → (build3DBox b).coords (g, 0) = some b.ox) ∧
    (i = b.nx → (build3DBox b).coords (g, 0) = some (b.ox + b.lx)) ∧
    (j = 0 → (build3DBox b).coords (g, 1) = some b.oy) ∧
    (j = b.ny → (build3DBox b).coords (g, 1) = some (b.oy + b.ly)) ∧
    (k = 0 → (build3DBox b).coords (g, 2) = some b.oz) ∧
    (k = b.nz → (build3DBox b).coords (g, 2) = some (b.oz + b.lz)) := by
  intro g
  obtain ⟨h0, h1, h2⟩ := nodeWrites3D_get (K := K) (ox := b.ox) (oy := b.oy) (oz := b.oz)
    (dx := b.lx / b.nx) (dy := b.ly / b.ny) (dz := b.lz / b.nz) (npi := b.nx + 1)
    (npj := b.ny + 1) (npk := b.nz + 1) (i := i) (j := j) (k := k)
    (by omega) (by omega) (by omega)
  rw [getIdN_eq] at h0 h1 h2
  change (build3DBox b).coords (g, 0) = _ at h0
  change (build3DBox b).coords (g, 1) = _ at h1
  change (build3DBox b).coords (g, 2) = _ at h2
  rw [h0, h1, h2]
  refine ⟨?_, ?_, ?_, ?_, ?_, ?_⟩ <;> rintro rfl <;> congr 1
  · simp
  · rw [mul_div_cancel₀ _ hx]
  · simp
  · rw [mul_div_cancel₀ _ hy]
  · simp
  · rw [mul_div_cancel₀ _ hz]

/-- **C04.** The volumes the code computes for the elements of a built box add up to the volume
of the box (every cell above the code's volume floor). -/
theorem C04_box3D_volume (b : BoxInput K) (hx : 0 < b.nx) (hy : 0 < b.ny) (hz : 0 < b.nz)
    (hfl : volFloor ≤ b.lx / b.nx * (b.ly / b.ny) * (b.lz / b.nz)) :
    ∃ X : ℕ → Fin 3 → Fin 8 → K,
      (∀ e < (build3DBox b).numElems, ∀ d l, (build3DBox b).elemCoord e d.1 l.1 = some (X e d l)) ∧
      ∑ e ∈ Finset.range (build3DBox b).numElems, volHex (X e 0) (X e 1) (X e 2)
        = b.lx * b.ly * b.lz := by
  have key : ∀ e < (build3DBox b).numElems, ∃ X : Fin 3 → Fin 8 → K,
      (∀ d l, (build3DBox b).elemCoord e d.1 l.1 = some (X d l)) ∧
      volHex (X 0) (X 1) (X 2) = b.lx / b.nx * (b.ly / b.ny) * (b.lz / b.nz) := by
    intro e he
    obtain ⟨i, j, k, hi, hj, hk, rfl⟩ := getIdN_surj he
    rw [getIdN_eq]
    refine ⟨fun d l => match d with
      | 0 => b.ox + ((i + l.1 % 2 : ℕ) : K) * (b.lx / b.nx)
      | 1 => b.oy + ((j + l.1 / 2 % 2 : ℕ) : K) * (b.ly / b.ny)
      | 2 => b.oz + ((k + l.1 / 4 : ℕ) : K) * (b.lz / b.nz), ?_, ?_⟩
    · intro d l
      have hl := l.2
      obtain ⟨g, hg, -, h0, h1, h2⟩ := C03_box3D_corner b hi hj hk (a₁ := l.1 % 2)
        (a₂ := l.1 / 2 % 2) (a₃ := l.1 / 4) (by omega) (by omega) (by omega)
      rw [show l.1 % 2 + 2 * (l.1 / 2 % 2 + 2 * (l.1 / 4)) = l.1 by omega] at hg
      unfold BuiltMesh.elemCoord
      rw [hg]
      fin_cases d
      · exact h0
      · exact h1
      · exact h2
    · unfold volHex
      have h12 : (12 : K) ≠ 0 := by norm_num
      rw [max_eq_left]
      · simp [hexVolRaw]
        ring
      · refine hfl.trans (le_of_eq ?_)
        simp [hexVolRaw]
        ring
  choose! X hX using key
  refine ⟨X, fun e he => (hX e he).1, ?_⟩
  rw [Finset.sum_congr rfl fun e he => (hX e (Finset.mem_range.1 he)).2]
  have hx' : (b.nx : K) ≠ 0 := by exact_mod_cast hx.ne'
  have hy' : (b.ny : K) ≠ 0 := by exact_mod_cast hy.ne'
  have hz' : (b.nz : K) ≠ 0 := by exact_mod_cast hz.ne'
  simp [build3DBox]
  field_simp

example : volFloor ≤ sampleBox.lx / sampleBox.nx * (sampleBox.ly / sampleBox.ny) *
    (sampleBox.lz / sampleBox.nz) := by
  norm_num [sampleBox, volFloor]

end C04

/-! ### C05 -/

section C05

/-- **C05.** The four local nodes of cell `(i,j)` are the lattice corners in counter-clockwise
order. -/
theorem C05_box2D_corners (b : BoxInput K) {i j : ℕ} (hi : i < b.nx) (hj : j < b.ny) (l : Fin 4) :
    ∃ g, (build2DBox b).nodesInElem (i + b.nx * j, l.1) = some g ∧
      g < (build2DBox b).numNodes ∧
      (build2DBox b).coords (g, 0) =
        some (b.ox + ((i + ![0, 1, 1, 0] l : ℕ) : K) * (b.lx / b.nx)) ∧
      (build2DBox b).coords (g, 1) =
        some (b.oy + ((j + ![0, 0, 1, 1] l : ℕ) : K) * (b.ly / b.ny)) := by
  have h := elemWrites2D_get (nx := b.nx) (ny := b.ny) hi hj
  have hc := fun (i' j' : ℕ) (hi : i' < b.nx + 1) (hj : j' < b.ny + 1) =>
    nodeWrites2D_get (K := K) (ox := b.ox) (oy := b.oy) (dx := b.lx / b.nx) (dy := b.ly / b.ny) hi hj
  have hlt : ∀ i' j' : ℕ, i' < b.nx + 1 → j' < b.ny + 1 →
      getId i' j' 0 (b.nx + 1) (b.ny + 1) < (b.nx + 1) * (b.ny + 1) := by
    intro i' j' hi' hj'
    have := getIdN_lt (nk := 1) hi' hj' Nat.zero_lt_one
    simpa using this
  have e : i + b.nx * j = getId i j 0 b.nx b.ny := by rw [getIdN_eq]; simp
  rw [e]
  obtain ⟨h0, h1, h2, h3⟩ := h
  fin_cases l
  · exact ⟨_, h0, hlt _ _ (by omega) (by omega), (hc _ _ (by omega) (by omega)).1,
      (hc _ _ (by omega) (by omega)).2⟩
  · exact ⟨_, h1, hlt _ _ (by omega) (by omega), (hc _ _ (by omega) (by omega)).1,
      (hc _ _ (by omega) (by omega)).2⟩
  · exact ⟨_, h2, hlt _ _ (by omega) (by omega), (hc _ _ (by omega) (by omega)).1,
      (hc _ _ (by omega) (by omega)).2⟩
  · exact ⟨_, h3, hlt _ _ (by omega) (by omega), (hc _ _ (by omega) (by omega)).1,
      (hc _ _ (by omega) (by omega)).2⟩

/-- **C05.** Slots hold the same node iff they are the same lattice point; in particular the four
nodes of an element are distinct. -/
theorem C05_box2D_conforming (b : BoxInput K) {i j i' j' : ℕ} (hi : i < b.nx) (hj : j < b.ny)
    (hi' : i' < b.nx) (hj' : j' < b.ny) (l l' : Fin 4) :
    (build2DBox b).nodesInElem (i + b.nx * j, l.1) =
      (build2DBox b).nodesInElem (i' + b.nx * j', l'.1) ↔
    i + ![0, 1, 1, 0] l = i' + ![0, 1, 1, 0] l' ∧ j + ![0, 0, 1, 1] l = j' + ![0, 0, 1, 1] l' := by
  have get : ∀ (i j : ℕ), i < b.nx → j < b.ny → ∀ l : Fin 4,
      (build2DBox b).nodesInElem (i + b.nx * j, l.1) =
        some (getId (i + ![0, 1, 1, 0] l) (j + ![0, 0, 1, 1] l) 0 (b.nx + 1) (b.ny + 1)) := by
    intro i j hi hj l
    have e : i + b.nx * j = getId i j 0 b.nx b.ny := by rw [getIdN_eq]; simp
    obtain ⟨h0, h1, h2, h3⟩ := elemWrites2D_get (nx := b.nx) (ny := b.ny) hi hj
    rw [e]
    fin_cases l
    · exact h0
    · exact h1
    · exact h2
    · exact h3
  have b1 : ∀ l : Fin 4, (![0, 1, 1, 0] : Fin 4 → ℕ) l ≤ 1 := by decide
  have b2 : ∀ l : Fin 4, (![0, 0, 1, 1] : Fin 4 → ℕ) l ≤ 1 := by decide
  have c1 := b1 l; have c2 := b2 l; have c3 := b1 l'; have c4 := b2 l'
  rw [get i j hi hj l, get i' j' hi' hj' l', Option.some.injEq]
  constructor
  · intro e
    obtain ⟨e1, e2, -⟩ := getIdN_inj (by omega) (by omega) (by omega) (by omega) e
    exact ⟨e1, e2⟩
  · rintro ⟨e1, e2⟩; rw [e1, e2]

variable [LinearOrder K] [IsStrictOrderedRing K]

/-- **C05.** Every element of a built 2D box has the area `dx*dy` by the code's area routine and the
areas add up to the area of the rectangle. -/
theorem C05_box2D_area (b : BoxInput K) (hx : 0 < b.nx) (hy : 0 < b.ny) :
    ∃ X : ℕ → Fin 2 → Fin 4 → K,
      (∀ e < (build2DBox b).numElems, ∀ d l, (build2DBox b).elemCoord e d.1 l.1 = some (X e d l)) ∧
      (∀ e < (build2DBox b).numElems,
        areaQuad (X e 0) (X e 1) = b.lx / b.nx * (b.ly / b.ny)) ∧
      ∑ e ∈ Finset.range (build2DBox b).numElems, areaQuad (X e 0) (X e 1) = b.lx * b.ly := by
  have key : ∀ e < (build2DBox b).numElems, ∃ X : Fin 2 → Fin 4 → K,
      (∀ d l, (build2DBox b).elemCoord e d.1 l.1 = some (X d l)) ∧
      areaQuad (X 0) (X 1) = b.lx / b.nx * (b.ly / b.ny) := by
    intro e he
    have he' : e < b.nx * b.ny * 1 := by simpa [build2DBox] using he
    obtain ⟨i, j, k, hi, hj, hk, rfl⟩ := getIdN_surj he'
    obtain rfl : k = 0 := by omega
    rw [getIdN_eq]
    simp only [Nat.mul_zero, Nat.add_zero]
    refine ⟨fun d l => match d with
      | 0 => b.ox + ((i + ![0, 1, 1, 0] l : ℕ) : K) * (b.lx / b.nx)
      | 1 => b.oy + ((j + ![0, 0, 1, 1] l : ℕ) : K) * (b.ly / b.ny), ?_, ?_⟩
    · intro d l
      obtain ⟨g, hg, -, h0, h1⟩ := C05_box2D_corners b hi hj l
      unfold BuiltMesh.elemCoord
      rw [hg]
      fin_cases d
      · exact h0
      · exact h1
    · simp [areaQuad]
      ring
  choose! X hX using key
  refine ⟨X, fun e he => (hX e he).1, fun e he => (hX e he).2, ?_⟩
  rw [Finset.sum_congr rfl fun e he => (hX e (Finset.mem_range.1 he)).2]
  have hx' : (b.nx : K) ≠ 0 := by exact_mod_cast hx.ne'
  have hy' : (b.ny : K) ≠ 0 := by exact_mod_cast hy.ne'
  simp [build2DBox]
  field_simp

example : (build2DBox sampleBox).nodesInElem (5, 2) = some 11 := by decide +kernel

end C05

end Fierro
