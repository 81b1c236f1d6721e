import Verif.Model.RegionFill
import Verif.Props.BoxMesh
import Mathlib.Analysis.InnerProductSpace.PiL2
import Mathlib.Algebra.Order.Floor.Ring
import Mathlib.Tactic.FinCases
import Mathlib.Tactic.FieldSimp

/-!
# C36 geometric fills, C37 voxel fills
-/

namespace Fierro

/-- A point of space. -/
noncomputable abbrev pt3 (c : Fin 3 → ℝ) : EuclideanSpace ℝ (Fin 3) := WithLp.toLp 2 c

/-- The projection to the plane of a cylinder. -/
noncomputable abbrev pt2 (c : Fin 3 → ℝ) : EuclideanSpace ℝ (Fin 2) := WithLp.toLp 2 ![c 0, c 1]

/-- **C36**: a sphere fill selects the elements whose centre has a distance from the origin in the
closed interval. -/
theorem C36_sphere (o c : Fin 3 → ℝ) (r1 r2 : ℝ) :
    fillShape (.sphere o r1 r2) c ↔ dist (pt3 c) (pt3 o) ∈ Set.Icc r1 r2 := by
  rw [EuclideanSpace.dist_eq]
  simp only [fillShape, Fin.sum_univ_three, Real.dist_eq, sq_abs, Set.mem_Icc, ge_iff_le, ← sq]

/-- **C36**: a cylinder fill selects by the distance in the plane and by height. -/
theorem C36_cylinder (o c : Fin 3 → ℝ) (r1 r2 z1 z2 : ℝ) :
    fillShape (.cylinder o r1 r2 z1 z2) c ↔
      dist (pt2 c) (pt2 o) ∈ Set.Icc r1 r2 ∧ c 2 ∈ Set.Icc z1 z2 := by
  rw [EuclideanSpace.dist_eq]
  simp only [fillShape, Fin.sum_univ_two, Real.dist_eq, sq_abs, Set.mem_Icc, ge_iff_le, ← sq,
    Matrix.cons_val_zero, Matrix.cons_val_one]
  tauto

/-- **C36**: a box fill selects the elements whose centre is in the closed box. -/
theorem C36_box (c lo hi : Fin 3 → ℝ) :
    fillShape (.box (lo 0) (hi 0) (lo 1) (hi 1) (lo 2) (hi 2)) c ↔ c ∈ Set.Icc lo hi := by
  simp only [fillShape, Set.mem_Icc, Pi.le_def, Fin.forall_fin_succ,
    ge_iff_le, IsEmpty.forall_iff, and_true, Fin.succ_zero_eq_one, Fin.succ_one_eq_two]
  tauto

theorem C36_global (c : Fin 3 → ℝ) : fillShape .global c := trivial

/-- Centre of a cell of a built box. -/
theorem box_centre (b : BoxInput ℝ) {i j k : ℕ} (hi : i < b.nx) (hj : j < b.ny) (hk : k < b.nz)
    (X : Fin 3 → Fin 8 → ℝ)
    (hX : ∀ d l, (build3DBox b).elemCoord (i + b.nx * (j + b.ny * k)) d.1 l.1 = some (X d l)) :
    elemCentre X 0 = b.ox + (i + 1 / 2) * (b.lx / b.nx) ∧
    elemCentre X 1 = b.oy + (j + 1 / 2) * (b.ly / b.ny) ∧
    elemCentre X 2 = b.oz + (k + 1 / 2) * (b.lz / b.nz) := by
  have key : ∀ a₁ a₂ a₃ : ℕ, a₁ ≤ 1 → a₂ ≤ 1 → a₃ ≤ 1 → ∀ l : Fin 8, l.1 = a₁ + 2 * (a₂ + 2 * a₃) →
      X 0 l = b.ox + ((i + a₁ : ℕ) : ℝ) * (b.lx / b.nx) ∧
      X 1 l = b.oy + ((j + a₂ : ℕ) : ℝ) * (b.ly / b.ny) ∧
      X 2 l = b.oz + ((k + a₃ : ℕ) : ℝ) * (b.lz / b.nz) := by
    intro a₁ a₂ a₃ h₁ h₂ h₃ l hl
    obtain ⟨g, hg, -, hx, hy, hz⟩ := C03_box3D_corner b hi hj hk h₁ h₂ h₃
    have e0 := hX 0 l
    have e1 := hX 1 l
    have e2 := hX 2 l
    rw [hl] at e0 e1 e2
    simp only [BuiltMesh.elemCoord, hg, Option.bind_some] at e0 e1 e2
    have c0 : ((0 : Fin 3) : ℕ) = 0 := rfl
    have c1 : ((1 : Fin 3) : ℕ) = 1 := rfl
    have c2 : ((2 : Fin 3) : ℕ) = 2 := rfl
    rw [c0, hx] at e0
    rw [c1, hy] at e1
    rw [c2, hz] at e2
    exact ⟨(Option.some_inj.mp e0).symm, (Option.some_inj.mp e1).symm, (Option.some_inj.mp e2).symm⟩
  have k0 := key 0 0 0 (by omega) (by omega) (by omega) 0 rfl
  have k1 := key 1 0 0 (by omega) (by omega) (by omega) 1 rfl
  have k2 := key 0 1 0 (by omega) (by omega) (by omega) 2 rfl
  have k3 := key 1 1 0 (by omega) (by omega) (by omega) 3 rfl
  have k4 := key 0 0 1 (by omega) (by omega) (by omega) 4 rfl
  have k5 := key 1 0 1 (by omega) (by omega) (by omega) 5 rfl
  have k6 := key 0 1 1 (by omega) (by omega) (by omega) 6 rfl
  have k7 := key 1 1 1 (by omega) (by omega) (by omega) 7 rfl
  simp only [elemCentre, Fin.sum_univ_eight]
  rw [k0.1, k1.1, k2.1, k3.1, k4.1, k5.1, k6.1, k7.1, k0.2.1, k1.2.1, k2.2.1, k3.2.1, k4.2.1,
    k5.2.1, k6.2.1, k7.2.1, k0.2.2, k1.2.2, k2.2.2, k3.2.2, k4.2.2, k5.2.2, k6.2.2, k7.2.2]
  push_cast
  refine ⟨?_, ?_, ?_⟩ <;> ring

theorem half_grid_iff (o h : ℝ) (hh : 0 < h) (i i0 i1 : ℕ) :
    (o + (i + 1 / 2) * h ≥ o + i0 * h ∧ o + (i + 1 / 2) * h ≤ o + i1 * h) ↔ i0 ≤ i ∧ i < i1 := by
  have h1 : o + (i + 1 / 2) * h ≥ o + i0 * h ↔ (i0 : ℝ) ≤ i + 1 / 2 := by
    constructor
    · intro h'; by_contra hc; nlinarith [mul_pos hh (sub_pos.mpr (not_le.mp hc))]
    · intro h'; nlinarith [mul_nonneg hh.le (sub_nonneg.mpr h')]
  have h2 : o + (i + 1 / 2) * h ≤ o + i1 * h ↔ (i : ℝ) + 1 / 2 ≤ i1 := by
    constructor
    · intro h'; by_contra hc; nlinarith [mul_pos hh (sub_pos.mpr (not_le.mp hc))]
    · intro h'; nlinarith [mul_nonneg hh.le (sub_nonneg.mpr h')]
  rw [h1, h2]
  have h3 : (i0 : ℝ) ≤ i + 1 / 2 ↔ i0 ≤ i := by
    constructor
    · intro h'
      by_contra hc
      have : ((i + 1 : ℕ) : ℝ) ≤ i0 := by exact_mod_cast not_le.mp hc
      push_cast at this; linarith
    · intro h'
      have : (i0 : ℝ) ≤ i := by exact_mod_cast h'
      linarith
  have h4 : (i : ℝ) + 1 / 2 ≤ i1 ↔ i < i1 := by
    constructor
    · intro h'
      by_contra hc
      have : (i1 : ℝ) ≤ i := by exact_mod_cast not_lt.mp hc
      linarith
    · intro h'
      have : ((i + 1 : ℕ) : ℝ) ≤ i1 := by exact_mod_cast h'
      push_cast at this; linarith
  rw [h3, h4]

/-- **C36** on a built mesh: a box region whose faces are grid planes `i0, i1 / j0, j1 / k0, k1`
of a built box mesh selects exactly the cells between these planes. -/
theorem C36_grid_box_selects_its_cells (b : BoxInput ℝ) (hlx : 0 < b.lx) (hly : 0 < b.ly)
    (hlz : 0 < b.lz) {i j k : ℕ} (hi : i < b.nx) (hj : j < b.ny) (hk : k < b.nz)
    (X : Fin 3 → Fin 8 → ℝ)
    (hX : ∀ d l, (build3DBox b).elemCoord (i + b.nx * (j + b.ny * k)) d.1 l.1 = some (X d l))
    (i0 i1 j0 j1 k0 k1 : ℕ) :
    fillShape (.box (b.ox + i0 * (b.lx / b.nx)) (b.ox + i1 * (b.lx / b.nx))
      (b.oy + j0 * (b.ly / b.ny)) (b.oy + j1 * (b.ly / b.ny))
      (b.oz + k0 * (b.lz / b.nz)) (b.oz + k1 * (b.lz / b.nz))) (elemCentre X) ↔
    (i0 ≤ i ∧ i < i1) ∧ (j0 ≤ j ∧ j < j1) ∧ (k0 ≤ k ∧ k < k1) := by
  obtain ⟨h0, h1, h2⟩ := box_centre b hi hj hk X hX
  have px : 0 < b.lx / b.nx := div_pos hlx (by exact_mod_cast (by omega : 0 < b.nx))
  have py : 0 < b.ly / b.ny := div_pos hly (by exact_mod_cast (by omega : 0 < b.ny))
  have pz : 0 < b.lz / b.nz := div_pos hlz (by exact_mod_cast (by omega : 0 < b.nz))
  simp only [fillShape, h0, h1, h2]
  rw [← half_grid_iff b.ox _ px i i0 i1, ← half_grid_iff b.oy _ py j j0 j1,
    ← half_grid_iff b.oz _ pz k k0 k1]
  tauto

example : fillShape (.sphere (fun _ => 0) 1 2) ![1, 1, 0] := by
  simp only [fillShape]
  constructor
  · apply Real.le_sqrt_of_sq_le; simp
  · rw [Real.sqrt_le_left (by norm_num)]; simp; norm_num

/-! ### C37 -/

/-- The voxel fill never reads outside the array of voxel values, and what it reads belongs to the
grid position it computed. -/
theorem C37_in_bounds (ax ay az : VoxelAxis) (o c : Fin 3 → ℝ) (size id : ℕ)
    (h : voxelRead ax ay az o c size = some id) :
    id < size ∧ ∃ i j k : ℕ, i < ax.n - 1 ∧ j < ay.n - 1 ∧ k < az.n - 1 ∧
      ax.index (o 0) (c 0) = i ∧ ay.index (o 1) (c 1) = j ∧ az.index (o 2) (c 2) = k ∧
      id = i + (ax.n - 1) * (j + (ay.n - 1) * k) := by
  unfold voxelRead at h
  dsimp only at h
  split_ifs at h with hc
  obtain ⟨h1, h2, h3, h4, h5, h6, h7, h8⟩ := hc
  obtain ⟨i, hi⟩ := Int.eq_ofNat_of_zero_le h3
  obtain ⟨j, hj⟩ := Int.eq_ofNat_of_zero_le h4
  obtain ⟨k, hk⟩ := Int.eq_ofNat_of_zero_le h5
  rw [hi, hj, hk] at h h1 h2
  rw [hi] at h6
  rw [hj] at h7
  rw [hk] at h8
  have hid : getId (i : ℤ) (j : ℤ) (k : ℤ) ((ax.n - 1 : ℕ) : ℤ) ((ay.n - 1 : ℕ) : ℤ) =
      ((i + (ax.n - 1) * (j + (ay.n - 1) * k) : ℕ) : ℤ) := by
    unfold getId; push_cast; ring
  rw [hid] at h h1
  have h' : i + (ax.n - 1) * (j + (ay.n - 1) * k) = id := by
    rw [Int.toNat_natCast] at h; exact Option.some_inj.mp h
  refine ⟨by rw [← h']; exact_mod_cast h1, i, j, k, by exact_mod_cast h6, by exact_mod_cast h7,
    by exact_mod_cast h8, hi, hj, hk, h'.symm⟩

/-- `n` equally spaced points starting at `x0`, spacing `h`. -/
noncomputable def uniformAxis (n : ℕ) (x0 h : ℝ) : VoxelAxis := ⟨n, fun i => x0 + i * h⟩

theorem truncInt_natCast_of {x : ℝ} {m : ℕ} (h1 : (m : ℝ) ≤ x) (h2 : x < m + 1) :
    truncInt x = m := by
  have : 0 ≤ x := le_trans (by positivity) h1
  rw [truncInt, if_pos this, Int.floor_eq_iff]
  exact ⟨by exact_mod_cast h1, by exact_mod_cast h2⟩

theorem uniform_index_arg (n : ℕ) (hn : 3 ≤ n) (x0 h o t : ℝ) (hh : 0 < h) :
    (x0 + o + (t + 1 / 2) * h - (uniformAxis n x0 h).orig - o) / (uniformAxis n x0 h).spacing =
      t * ((n - 1) / (n - 2)) := by
  have h2 : ((n - 2 : ℕ) : ℝ) = n - 2 := by rw [Nat.cast_sub (by omega)]; norm_num
  have h1 : ((n - 1 : ℕ) : ℝ) = n - 1 := by rw [Nat.cast_sub (by omega)]; norm_num
  have hn' : (3 : ℝ) ≤ n := by exact_mod_cast hn
  have hne : (n : ℝ) - 2 ≠ 0 := by intro hc; linarith
  have hne1 : (n : ℝ) - 1 ≠ 0 := by intro hc; linarith
  simp only [VoxelAxis.orig, VoxelAxis.spacing, uniformAxis, h1, h2]
  have : x0 + ((n : ℝ) - 2) * h - (x0 + ((0 : ℕ) : ℝ) * h) = (n - 2) * h := by push_cast; ring
  rw [this]
  field_simp
  push_cast
  ring

/-- **C37**, exactly: on a grid of `N ≥ 2` equal voxels in a direction an element whose centre lies
`t` voxels to the right of the centre of voxel 0 gets voxel `v ≥ 1` if and only if
`v (N-1)/N ≤ t < (v+1) (N-1)/N`, and voxel 0 if and only if `|t| < (N-1)/N`.  (The voxel that
contains the centre is the `v` with `v - 1/2 ≤ t < v + 1/2`.) -/
theorem C37_voxel_exact (N : ℕ) (hN : 2 ≤ N) (x0 h o t : ℝ) (hh : 0 < h) :
    (∀ v : ℕ, 1 ≤ v → ((uniformAxis (N + 1) x0 h).index o (x0 + o + (t + 1 / 2) * h) = v ↔
      v * ((N - 1) / N) ≤ t ∧ t < (v + 1) * (((N : ℝ) - 1) / N))) ∧
    ((uniformAxis (N + 1) x0 h).index o (x0 + o + (t + 1 / 2) * h) = 0 ↔ |t| < ((N : ℝ) - 1) / N) := by
  have hN' : (2 : ℝ) ≤ N := by exact_mod_cast hN
  have hq : (0 : ℝ) < ((N : ℝ) - 1) / N := by apply div_pos <;> linarith
  have harg : (x0 + o + (t + 1 / 2) * h - (uniformAxis (N + 1) x0 h).orig - o) /
      (uniformAxis (N + 1) x0 h).spacing = t / (((N : ℝ) - 1) / N) := by
    rw [uniform_index_arg (N + 1) (by omega) x0 h o t hh]
    push_cast
    rw [div_div_eq_mul_div, mul_div_assoc']
    congr 1 <;> ring
  unfold VoxelAxis.index
  rw [harg]
  generalize hr : ((N : ℝ) - 1) / N = q at hq
  constructor
  · intro v hv
    have hv' : (1 : ℝ) ≤ v := by exact_mod_cast hv
    rw [← le_div_iff₀ hq, ← div_lt_iff₀ hq]
    unfold truncInt
    split_ifs with h0
    · rw [Int.floor_eq_iff]
      push_cast
      rfl
    · rw [Int.ceil_eq_iff]
      push_cast
      push Not at h0
      constructor
      · rintro ⟨h1, -⟩; linarith
      · rintro ⟨h1, -⟩; linarith
  · have habs : |t| < q ↔ -1 < t / q ∧ t / q < 1 := by
      rw [abs_lt, lt_div_iff₀ hq, div_lt_iff₀ hq, one_mul, neg_one_mul]
    rw [habs]
    unfold truncInt
    split_ifs with h0
    · rw [Int.floor_eq_iff]
      push_cast
      constructor
      · rintro ⟨-, h2⟩; exact ⟨by linarith, by linarith⟩
      · rintro ⟨-, h2⟩; exact ⟨h0, by linarith⟩
    · rw [Int.ceil_eq_iff]
      push_cast
      push Not at h0
      constructor
      · rintro ⟨h1, h2⟩; exact ⟨by linarith, by linarith⟩
      · rintro ⟨h1, h2⟩; exact ⟨by linarith, by linarith⟩

/-- **C37** at voxel centres: on an equally spaced grid an element centred in a voxel gets that
voxel's value, for all voxels but the last one of each direction. -/
theorem C37_voxel_centres (n : ℕ) (hn : 3 ≤ n) (x0 h o : ℝ) (hh : 0 < h) (v : ℕ)
    (hv : v < n - 2) :
    (uniformAxis n x0 h).index o (x0 + o + (v + 1 / 2) * h) = v := by
  unfold VoxelAxis.index
  rw [uniform_index_arg n hn x0 h o v hh]
  have hn' : (3 : ℝ) ≤ n := by exact_mod_cast hn
  have hp : (0 : ℝ) < n - 2 := by linarith
  have hv' : (v : ℝ) + 1 ≤ n - 2 := by
    have : ((v + 1 : ℕ) : ℝ) ≤ ((n - 2 : ℕ) : ℝ) := by exact_mod_cast hv
    rw [Nat.cast_sub (by omega)] at this
    push_cast at this; linarith
  have h0 : (0 : ℝ) ≤ v := by positivity
  apply truncInt_natCast_of
  · rw [← mul_div_assoc, le_div_iff₀ hp]; nlinarith
  · rw [← mul_div_assoc, div_lt_iff₀ hp]; nlinarith

/-- **C37** fails for the last layer of voxels: an element centred in a voxel of the last layer of
an equally spaced grid is never filled, whatever the grid. -/
theorem C37_last_layer_lost_fails (n : ℕ) (hn : 3 ≤ n) (x0 h : ℝ) (hh : 0 < h)
    (ay az : VoxelAxis) (o c : Fin 3 → ℝ) (size : ℕ)
    (hc : c 0 = x0 + o 0 + (((n - 2 : ℕ) : ℝ) + 1 / 2) * h) :
    voxelRead (uniformAxis n x0 h) ay az o c size = none := by
  have hn' : (3 : ℝ) ≤ n := by exact_mod_cast hn
  have hp : (0 : ℝ) < n - 2 := by linarith
  have h2 : ((n - 2 : ℕ) : ℝ) = n - 2 := by rw [Nat.cast_sub (by omega)]; norm_num
  have hidx : (uniformAxis n x0 h).index (o 0) (c 0) = ((n - 1 : ℕ) : ℤ) := by
    unfold VoxelAxis.index
    rw [hc, uniform_index_arg n hn x0 h (o 0) _ hh, h2]
    have h1 : ((n - 1 : ℕ) : ℝ) = n - 1 := by rw [Nat.cast_sub (by omega)]; norm_num
    have : ((n : ℝ) - 2) * ((n - 1) / (n - 2)) = ((n - 1 : ℕ) : ℝ) := by
      rw [h1]; field_simp
    rw [this]
    exact_mod_cast truncInt_natCast_of (m := n - 1) le_rfl (by linarith)
  unfold voxelRead
  dsimp only
  rw [if_neg]
  rintro ⟨-, -, -, -, -, h6, -⟩
  rw [hidx] at h6
  simp [uniformAxis] at h6

/-- **C37** fails inside the grid: with four unit voxels starting at 0, a centre at 1.1 lies in
voxel 1 but voxel 0 is read; a centre at -0.2 lies outside but voxel 0 is read. -/
theorem C37_wrong_voxel_fails :
    (uniformAxis 5 0 1).index 0 (11 / 10) = 0 ∧ (uniformAxis 5 0 1).index 0 (-1 / 5) = 0 := by
  constructor
  · unfold VoxelAxis.index
    norm_num [VoxelAxis.orig, VoxelAxis.spacing, uniformAxis]
    have := truncInt_natCast_of (x := 4 / 5) (m := 0) (by norm_num) (by norm_num)
    simpa using this
  · unfold VoxelAxis.index
    norm_num [VoxelAxis.orig, VoxelAxis.spacing, uniformAxis]
    rw [truncInt, if_neg (by norm_num), Int.ceil_eq_iff]
    norm_num

/-- A grid with a single voxel in some direction makes the code divide by zero. -/
theorem C37_single_voxel_spacing_zero (x0 h : ℝ) : (uniformAxis 2 x0 h).spacing = 0 := by
  simp [VoxelAxis.spacing, uniformAxis]

theorem readValues_go {α : Type} (num : ℕ) (vals acc : List α) (hlen : acc.length + vals.length = num)
    (hnum : acc.length ≤ num - 1) :
    readValues num (vals.map fun v => [v]) acc = some ((acc ++ vals).take (num - 1)) := by
  induction vals generalizing acc with
  | nil =>
    simp at hlen
    rw [List.map_nil, readValues, if_neg (by omega)]
    rw [List.append_nil, List.take_of_length_le (by omega)]
  | cons v vals ih =>
    rw [List.map_cons, readValues]
    split_ifs with h
    · rw [ih (acc ++ [v]) (by simp at hlen ⊢; omega) (by simp at hlen ⊢; omega)]
      simp
    · have : acc.length = num - 1 := by omega
      rw [← this, List.take_left]

/-- The loop reading the voxel values stops one value early: from a file with one value per line
the last voxel value is never read (its storage stays uninitialised). -/
theorem C37_last_value_unread_fails {α : Type} (vals : List α) :
    readValues vals.length (vals.map fun v => [v]) [] = some (vals.take (vals.length - 1)) := by
  have := readValues_go vals.length vals [] (by simp) (by simp)
  simpa using this

/-- All values on one line are read completely. -/
theorem C37_single_line_read {α : Type} (vals : List α) (h : 2 ≤ vals.length) :
    readValues vals.length [vals] [] = some vals := by
  rw [readValues, if_pos (by simp; omega), readValues, if_neg (by simp)]
  simp

example : (2 : ℕ) ≤ 4 ∧ (1 : ℕ) ≤ 3 ∧ (0 : ℝ) < 1 := by norm_num
example : (3 : ℕ) ≤ 5 ∧ (2 : ℕ) < 5 - 2 := by decide

end Fierro
