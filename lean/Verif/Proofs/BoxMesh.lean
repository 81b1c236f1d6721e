import Verif.Model.BoxMesh
import Verif.Proofs.Memory
import Verif.Proofs.MeshIndex
import Mathlib.Tactic.NormNum

namespace Fierro

theorem getIdN_eq (i j k ni nj : ℕ) : getId i j k ni nj = i + ni * (j + nj * k) := by
  unfold getId; ring

theorem radixN_inj {n a b a' b' : ℕ} (ha : a < n) (ha' : a' < n)
    (h : a + n * b = a' + n * b') : a = a' ∧ b = b' := by
  have := radix_inj (n := n) (a := a) (b := b) (a' := a') (b' := b') (by omega) (by omega)
    (by exact_mod_cast h)
  omega

theorem radixN_lt {n m a b : ℕ} (ha : a < n) (hb : b < m) : a + n * b < n * m := by
  have := radix_lt (n := n) (a := a) (b := b) (m := m) (by omega) (by omega)
  exact_mod_cast this.2

theorem getIdN_inj {i j k i' j' k' ni nj : ℕ} (hi : i < ni) (hi' : i' < ni) (hj : j < nj)
    (hj' : j' < nj) (h : getId i j k ni nj = getId i' j' k' ni nj) :
    i = i' ∧ j = j' ∧ k = k' := by
  rw [getIdN_eq, getIdN_eq] at h
  obtain ⟨h1, h2⟩ := radixN_inj hi hi' h
  obtain ⟨h3, h4⟩ := radixN_inj hj hj' h2
  exact ⟨h1, h3, h4⟩

theorem getIdN_lt {i j k ni nj nk : ℕ} (hi : i < ni) (hj : j < nj) (hk : k < nk) :
    getId i j k ni nj < ni * nj * nk := by
  rw [getIdN_eq, mul_assoc]
  exact radixN_lt hi (radixN_lt hj hk)

/-- Every id below the number of grid points is the id of a grid point. -/
theorem getIdN_surj {ni nj nk e : ℕ} (he : e < ni * nj * nk) :
    ∃ i j k, i < ni ∧ j < nj ∧ k < nk ∧ getId i j k ni nj = e := by
  have hni : 0 < ni := Nat.pos_of_ne_zero (by rintro rfl; simp at he)
  have hnj : 0 < nj := Nat.pos_of_ne_zero (by rintro rfl; simp at he)
  refine ⟨e % ni, e / ni % nj, e / ni / nj, Nat.mod_lt _ hni, Nat.mod_lt _ hnj, ?_, ?_⟩
  · rw [Nat.div_lt_iff_lt_mul hnj, Nat.div_lt_iff_lt_mul hni]
    calc e < ni * nj * nk := he
      _ = nk * nj * ni := by ring
  · rw [getIdN_eq, Nat.mod_add_div, Nat.mod_add_div]

/-! ### Element points -/

theorem range'_map_getElem? {β : Type} (s n a : ℕ) (f : ℕ → β) (ha : a < n) :
    ((List.range' s n).map f)[a]? = some (f (s + a)) := by
  simp [ha]

theorem elemPoints3D_get (p i j k npi npj a b c : ℕ) (ha : a ≤ p) (hb : b ≤ p) (hc : c ≤ p) :
    (elemPoints3D p i j k npi npj)[a + (p + 1) * (b + (p + 1) * c)]? =
      some (getId (i * p + a) (j * p + b) (k * p + c) npi npj) := by
  unfold elemPoints3D
  have hlen : ∀ kc ∈ List.range' (k * p) (p + 1),
      ((List.range' (j * p) (p + 1)).flatMap fun jc =>
        (List.range' (i * p) (p + 1)).map fun ic => getId ic jc kc npi npj).length
        = (p + 1) * (p + 1) := by
    intro kc _
    rw [flatMap_length _ _ (p + 1) (by simp)]; simp
  have e : a + (p + 1) * (b + (p + 1) * c) = (a + (p + 1) * b) + ((p + 1) * (p + 1)) * c := by ring
  rw [e, flatMap_getElem? _ _ _ hlen _ _ (radixN_lt (by omega) (by omega))]
  rw [List.getElem?_range' (by omega : c < p + 1)]
  simp only [Option.bind_some]
  rw [flatMap_getElem? _ _ (p + 1) (by simp) _ _ (by omega),
    List.getElem?_range' (by omega : b < p + 1)]
  simp only [Option.bind_some]
  rw [range'_map_getElem? _ _ _ _ (by omega)]
  simp

theorem elemPoints3D_length (p i j k npi npj : ℕ) :
    (elemPoints3D p i j k npi npj).length = (p + 1) * (p + 1) * (p + 1) := by
  unfold elemPoints3D
  rw [flatMap_length _ _ ((p + 1) * (p + 1))]
  · simp
  · intro kc _
    rw [flatMap_length _ _ (p + 1) (by simp)]; simp

theorem mem_zipIdx_iff {β : Type} (l : List β) (x : β) (n : ℕ) :
    (x, n) ∈ l.zipIdx ↔ l[n]? = some x := by
  rw [List.mem_zipIdx_iff_getElem?]

theorem mem_elemWrites3D {p nx ny nz npi npj e l n : ℕ} :
    ((e, l), n) ∈ elemWrites3D p nx ny nz npi npj ↔
      ∃ i j k, i < nx ∧ j < ny ∧ k < nz ∧ e = getId i j k nx ny ∧
        (elemPoints3D p i j k npi npj)[l]? = some n := by
  simp only [elemWrites3D, List.mem_flatMap, List.mem_range, List.mem_map, Prod.mk.injEq,
    Prod.exists, mem_zipIdx_iff]
  constructor
  · rintro ⟨k, hk, j, hj, i, hi, n', l', h, ⟨he, rfl⟩, rfl⟩
    exact ⟨i, j, k, hi, hj, hk, he.symm, h⟩
  · rintro ⟨i, j, k, hi, hj, hk, he, h⟩
    exact ⟨k, hk, j, hj, i, hi, n, l, h, ⟨he.symm, rfl⟩, rfl⟩

/-- The connectivity array after the element loop: cell `(i,j,k)`, local point `(a,b,c)`. -/
theorem elemWrites3D_get {p nx ny nz npi npj i j k a b c : ℕ} (hi : i < nx) (hj : j < ny)
    (hk : k < nz) (ha : a ≤ p) (hb : b ≤ p) (hc : c ≤ p) :
    Mem.writeAll (elemWrites3D p nx ny nz npi npj) Mem.empty
        (getId i j k nx ny, a + (p + 1) * (b + (p + 1) * c)) =
      some (getId (i * p + a) (j * p + b) (k * p + c) npi npj) := by
  apply Mem.writeAll_of_mem
  · rw [mem_elemWrites3D]
    exact ⟨i, j, k, hi, hj, hk, rfl, elemPoints3D_get p i j k npi npj a b c ha hb hc⟩
  · intro v hv
    rw [mem_elemWrites3D] at hv
    obtain ⟨i', j', k', hi', hj', hk', he, h⟩ := hv
    obtain ⟨rfl, rfl, rfl⟩ := getIdN_inj hi hi' hj hj' he
    rw [elemPoints3D_get p i j k npi npj a b c ha hb hc] at h
    simpa using h.symm

/-- Nothing is written outside `numElems × (p+1)^3`. -/
theorem elemWrites3D_range {p nx ny nz npi npj e l n : ℕ}
    (h : Mem.writeAll (elemWrites3D p nx ny nz npi npj) Mem.empty (e, l) = some n) :
    e < nx * ny * nz ∧ l < (p + 1) * (p + 1) * (p + 1) := by
  have := Mem.mem_of_writeAll _ _ _ h
  rw [mem_elemWrites3D] at this
  obtain ⟨i, j, k, hi, hj, hk, rfl, h'⟩ := this
  refine ⟨getIdN_lt hi hj hk, ?_⟩
  have := (List.getElem?_eq_some_iff.1 h').1
  rwa [elemPoints3D_length] at this

/-! ### Node coordinates -/

section
variable {K : Type} [Field K]

theorem mem_nodeWrites3D {ox oy oz dx dy dz : K} {npi npj npk g d : ℕ} {v : K} :
    ((g, d), v) ∈ nodeWrites3D ox oy oz dx dy dz npi npj npk ↔
      ∃ i j k, i < npi ∧ j < npj ∧ k < npk ∧ g = getId i j k npi npj ∧
        ((d = 0 ∧ v = ox + i * dx) ∨ (d = 1 ∧ v = oy + j * dy) ∨ (d = 2 ∧ v = oz + k * dz)) := by
  simp only [nodeWrites3D, List.mem_flatMap, List.mem_range, List.mem_cons, Prod.mk.injEq,
    List.not_mem_nil, or_false]
  constructor
  · rintro ⟨k, hk, j, hj, i, hi, h⟩
    refine ⟨i, j, k, hi, hj, hk, ?_⟩
    rcases h with ⟨⟨h1, h2⟩, h3⟩ | ⟨⟨h1, h2⟩, h3⟩ | ⟨⟨h1, h2⟩, h3⟩ <;> simp [h1, h2, h3]
  · rintro ⟨i, j, k, hi, hj, hk, rfl, h⟩
    refine ⟨k, hk, j, hj, i, hi, ?_⟩
    simpa using h

theorem nodeWrites3D_get {ox oy oz dx dy dz : K} {npi npj npk i j k : ℕ} (hi : i < npi)
    (hj : j < npj) (hk : k < npk) :
    let m := Mem.writeAll (nodeWrites3D ox oy oz dx dy dz npi npj npk) Mem.empty
    let g := getId i j k npi npj
    m (g, 0) = some (ox + i * dx) ∧ m (g, 1) = some (oy + j * dy) ∧
      m (g, 2) = some (oz + k * dz) := by
  refine ⟨?_, ?_, ?_⟩ <;>
  · apply Mem.writeAll_of_mem
    · rw [mem_nodeWrites3D]; exact ⟨i, j, k, hi, hj, hk, rfl, by simp⟩
    · intro v hv
      rw [mem_nodeWrites3D] at hv
      obtain ⟨i', j', k', hi', hj', hk', he, h⟩ := hv
      obtain ⟨rfl, rfl, rfl⟩ := getIdN_inj hi hi' hj hj' he
      simpa using h

theorem nodeWrites3D_range {ox oy oz dx dy dz : K} {npi npj npk g d : ℕ} {v : K}
    (h : Mem.writeAll (nodeWrites3D ox oy oz dx dy dz npi npj npk) Mem.empty (g, d) = some v) :
    g < npi * npj * npk ∧ d < 3 := by
  have := Mem.mem_of_writeAll _ _ _ h
  rw [mem_nodeWrites3D] at this
  obtain ⟨i, j, k, hi, hj, hk, rfl, h⟩ := this
  exact ⟨getIdN_lt hi hj hk, by omega⟩

/-! ### 2D -/

theorem elemPoints2D_eq (i j npi npj : ℕ) :
    elemPoints2D i j npi npj = [getId i j 0 npi npj, getId (i + 1) j 0 npi npj,
      getId i (j + 1) 0 npi npj, getId (i + 1) (j + 1) 0 npi npj] := by
  simp [elemPoints2D, List.range']

theorem mem_elemWrites2D {nx ny e l n : ℕ} :
    ((e, l), n) ∈ elemWrites2D nx ny ↔
      ∃ i j, i < nx ∧ j < ny ∧ e = getId i j 0 nx ny ∧
        ((l = 0 ∧ n = getId i j 0 (nx + 1) (ny + 1)) ∨
         (l = 1 ∧ n = getId (i + 1) j 0 (nx + 1) (ny + 1)) ∨
         (l = 3 ∧ n = getId i (j + 1) 0 (nx + 1) (ny + 1)) ∨
         (l = 2 ∧ n = getId (i + 1) (j + 1) 0 (nx + 1) (ny + 1))) := by
  simp only [elemWrites2D, List.mem_flatMap, List.mem_range, elemPoints2D_eq,
    List.zipIdx_cons, List.zipIdx_nil, List.map_cons, List.map_nil, List.mem_cons, Prod.mk.injEq,
    List.not_mem_nil, or_false, convertQuad]
  constructor
  · rintro ⟨j, hj, i, hi, h⟩
    refine ⟨i, j, hi, hj, ?_⟩
    rcases h with ⟨⟨h1, h2⟩, h3⟩ | ⟨⟨h1, h2⟩, h3⟩ | ⟨⟨h1, h2⟩, h3⟩ | ⟨⟨h1, h2⟩, h3⟩ <;>
      simp [h1, h2, h3]
  · rintro ⟨i, j, hi, hj, rfl, h⟩
    exact ⟨j, hj, i, hi, by simpa using h⟩

theorem mem_nodeWrites2D {ox oy dx dy : K} {npi npj g d : ℕ} {v : K} :
    ((g, d), v) ∈ nodeWrites2D ox oy dx dy npi npj ↔
      ∃ i j, i < npi ∧ j < npj ∧ g = getId i j 0 npi npj ∧
        ((d = 0 ∧ v = ox + i * dx) ∨ (d = 1 ∧ v = oy + j * dy)) := by
  simp only [nodeWrites2D, List.mem_flatMap, List.mem_range, List.mem_cons, Prod.mk.injEq,
    List.not_mem_nil, or_false]
  constructor
  · rintro ⟨j, hj, i, hi, h⟩
    refine ⟨i, j, hi, hj, ?_⟩
    rcases h with ⟨⟨h1, h2⟩, h3⟩ | ⟨⟨h1, h2⟩, h3⟩ <;> simp [h1, h2, h3]
  · rintro ⟨i, j, hi, hj, rfl, h⟩
    exact ⟨j, hj, i, hi, by simpa using h⟩

theorem elemWrites2D_get {nx ny i j : ℕ} (hi : i < nx) (hj : j < ny) :
    let m := Mem.writeAll (elemWrites2D nx ny) Mem.empty
    let e := getId i j 0 nx ny
    m (e, 0) = some (getId i j 0 (nx + 1) (ny + 1)) ∧
    m (e, 1) = some (getId (i + 1) j 0 (nx + 1) (ny + 1)) ∧
    m (e, 2) = some (getId (i + 1) (j + 1) 0 (nx + 1) (ny + 1)) ∧
    m (e, 3) = some (getId i (j + 1) 0 (nx + 1) (ny + 1)) := by
  refine ⟨?_, ?_, ?_, ?_⟩ <;>
  · apply Mem.writeAll_of_mem
    · rw [mem_elemWrites2D]; exact ⟨i, j, hi, hj, rfl, by simp⟩
    · intro v hv
      rw [mem_elemWrites2D] at hv
      obtain ⟨i', j', hi', hj', he, h⟩ := hv
      obtain ⟨rfl, rfl, -⟩ := getIdN_inj hi hi' hj hj' he
      simpa using h

theorem nodeWrites2D_get {ox oy dx dy : K} {npi npj i j : ℕ} (hi : i < npi) (hj : j < npj) :
    let m := Mem.writeAll (nodeWrites2D ox oy dx dy npi npj) Mem.empty
    let g := getId i j 0 npi npj
    m (g, 0) = some (ox + i * dx) ∧ m (g, 1) = some (oy + j * dy) := by
  refine ⟨?_, ?_⟩ <;>
  · apply Mem.writeAll_of_mem
    · rw [mem_nodeWrites2D]; exact ⟨i, j, hi, hj, rfl, by simp⟩
    · intro v hv
      rw [mem_nodeWrites2D] at hv
      obtain ⟨i', j', hi', hj', he, h⟩ := hv
      obtain ⟨rfl, rfl, -⟩ := getIdN_inj hi hi' hj hj' he
      simpa using h

end

end Fierro
