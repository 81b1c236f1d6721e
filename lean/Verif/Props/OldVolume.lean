import Verif.Model.OldVolume
import Mathlib.Tactic.Linarith
import Mathlib.Tactic.FieldSimp
import Mathlib.Tactic.Ring
import Mathlib.Tactic.NormNum
import Mathlib.Tactic.FinCases

/-!
# C154: volumes and regions of the previous version
-/

namespace Fierro

/-- **C154.**  A box contains exactly the points between its bounds, these included. -/
theorem C154_box (v : OldVolume) (h : v.type = .box) (x : Fin 3 → ℝ) :
    oldContains v x = true ↔ ∀ c, v.lo c ≤ x c ∧ x c ≤ v.hi c := by
  simp only [oldContains, h, decide_eq_true_eq]
  constructor
  · rintro ⟨a, b, c, d, e, f⟩ i
    fin_cases i
    · exact ⟨a, b⟩
    · exact ⟨c, d⟩
    · exact ⟨e, f⟩
  · intro g
    exact ⟨(g 0).1, (g 0).2, (g 1).1, (g 1).2, (g 2).1, (g 2).2⟩

theorem between_sqrt (a b s : ℝ) (ha : 0 ≤ a) (hb : 0 ≤ b) (hs : 0 ≤ s) :
    (a ≤ Real.sqrt s ∧ Real.sqrt s ≤ b) ↔ (a ^ 2 ≤ s ∧ s ≤ b ^ 2) := by
  rw [Real.le_sqrt ha, Real.sqrt_le_left hb]
  exact hs

/-- **C154.**  A cylinder contains exactly the points whose distance from the third axis is between its radii. -/
theorem C154_cylinder (v : OldVolume) (h : v.type = .cylinder) (h1 : 0 ≤ v.radius1) (h2 : 0 ≤ v.radius2)
    (x : Fin 3 → ℝ) :
    oldContains v x = true ↔ v.radius1 ^ 2 ≤ x 0 ^ 2 + x 1 ^ 2 ∧ x 0 ^ 2 + x 1 ^ 2 ≤ v.radius2 ^ 2 := by
  simp only [oldContains, h, decide_eq_true_eq]
  rw [between_sqrt _ _ _ h1 h2 (by nlinarith [mul_self_nonneg (x 0), mul_self_nonneg (x 1)])]
  simp only [pow_two]

/-- **C154.**  A sphere contains exactly the points whose distance from its origin is between its radii. -/
theorem C154_sphere (v : OldVolume) (h : v.type = .sphere) (h1 : 0 ≤ v.radius1) (h2 : 0 ≤ v.radius2)
    (x : Fin 3 → ℝ) :
    oldContains v x = true ↔
      v.radius1 ^ 2 ≤ (x 0 - v.orig 0) ^ 2 + (x 1 - v.orig 1) ^ 2 + (x 2 - v.orig 2) ^ 2 ∧
        (x 0 - v.orig 0) ^ 2 + (x 1 - v.orig 1) ^ 2 + (x 2 - v.orig 2) ^ 2 ≤ v.radius2 ^ 2 := by
  simp only [oldContains, h, decide_eq_true_eq]
  rw [between_sqrt _ _ _ h1 h2 (by
    nlinarith [mul_self_nonneg (x 0 - v.orig 0), mul_self_nonneg (x 1 - v.orig 1), mul_self_nonneg (x 2 - v.orig 2)])]
  simp only [pow_two]

/-! ## Voxels -/

theorem intCast_cell (o d x : ℝ) (i : ℕ) (hd : 0 < d) (h1 : o + i * d ≤ x) (h2 : x < o + (i + 1) * d) :
    intCast ((x - o) / d) = i := by
  have hi : (0 : ℝ) ≤ i * d := by positivity
  have h0 : 0 ≤ (x - o) / d := div_nonneg (by linarith) hd.le
  rw [intCast, if_pos h0, Int.floor_eq_iff]
  constructor
  · rw [le_div_iff₀ hd]; push_cast; linarith
  · rw [div_lt_iff₀ hd]; push_cast; linarith

/-- The point is in the cell with the given numbers, of a grid that begins at the given corner. -/
def InCell (corner size x : Fin 3 → ℝ) (cell : Fin 3 → ℕ) : Prop :=
  ∀ c, corner c + cell c * size c ≤ x c ∧ x c < corner c + (cell c + 1) * size c

theorem voxelAt_cell (v : OldVolume) (x : Fin 3 → ℝ) (cell : Fin 3 → ℕ) (hs : ∀ c, 0 < v.size c)
    (hn : ∀ c, cell c < v.num c) (hc : InCell v.orig v.size x cell) :
    voxelAt v x = v.voxels (cell 0 + cell 1 * v.num 0 + cell 2 * v.num 0 * v.num 1) := by
  have e := fun c => intCast_cell (v.orig c) (v.size c) (x c) (cell c) (hs c) (hc c).1 (hc c).2
  have hid : voxelId (cell 0) (cell 1) (cell 2) (v.num 0) (v.num 1) =
      ((cell 0 + cell 1 * v.num 0 + cell 2 * v.num 0 * v.num 1 : ℕ) : ℤ) := by
    simp [voxelId]
  have hlt : cell 0 + cell 1 * v.num 0 + cell 2 * v.num 0 * v.num 1 < v.num 0 * v.num 1 * v.num 2 := by
    have a := hn 0
    have b : (cell 1 + 1) * v.num 0 ≤ v.num 1 * v.num 0 := Nat.mul_le_mul_right _ (hn 1)
    have c : (cell 2 + 1) * (v.num 0 * v.num 1) ≤ v.num 2 * (v.num 0 * v.num 1) := Nat.mul_le_mul_right _ (hn 2)
    nlinarith
  simp only [voxelAt, e, hid]
  rw [if_pos ⟨by exact_mod_cast hlt, by positivity⟩, Int.toNat_natCast]

/-- **C154.**  A voxelized surface contains a point of one of its voxels exactly if that voxel is filled. -/
theorem C154_stl (v : OldVolume) (h : v.type = .stl) (hs : ∀ c, 0 < v.size c) (x : Fin 3 → ℝ) (cell : Fin 3 → ℕ)
    (hn : ∀ c, cell c < v.num c) (hc : InCell v.orig v.size x cell) :
    oldContains v x = v.voxels (cell 0 + cell 1 * v.num 0 + cell 2 * v.num 0 * v.num 1) := by
  simp only [oldContains, h]
  rw [if_neg, voxelAt_cell v x cell hs hn hc]
  rintro ⟨c, hx | hx⟩
  · have h1 : ((cell c : ℝ) + 1) ≤ v.num c := by exact_mod_cast hn c
    have := mul_le_mul_of_nonneg_right h1 (hs c).le
    linarith [(hc c).2]
  · have : (0 : ℝ) ≤ cell c * v.size c := mul_nonneg (Nat.cast_nonneg _) (hs c).le
    linarith [(hc c).1]

/-- **C154.**  A point outside the block of voxels is in neither kind of voxel volume. -/
theorem C154_outside (v : OldVolume) (x : Fin 3 → ℝ) (corner : Fin 3 → ℝ)
    (h : (v.type = .stl ∧ ∀ c, corner c = v.orig c) ∨ (v.type = .vtk ∧ ∀ c, corner c = v.orig c - v.size c / 2))
    (c : Fin 3) (hx : x c < corner c ∨ corner c + v.num c * v.size c < x c) : oldContains v x = false := by
  rcases h with ⟨h, ho⟩ | ⟨h, ho⟩
  all_goals
    simp only [oldContains, h]
    rw [if_pos]
    rw [ho c] at hx
    exact ⟨c, hx.symm.imp (fun a => by linarith) id⟩

/-- **C154 (a finding).**  A point on the last face of the block in the first direction is in the block, but gets the
value of the first voxel of the next row. -/
theorem C154_last_face_fails (v : OldVolume) (h : v.type = .stl) (hs : ∀ c, 0 < v.size c) (x : Fin 3 → ℝ) (j k : ℕ)
    (h0 : x 0 = v.orig 0 + v.num 0 * v.size 0) (hpos : 0 < v.num 0) (hj : j + 1 < v.num 1) (hk : k < v.num 2)
    (h1 : v.orig 1 + j * v.size 1 ≤ x 1 ∧ x 1 < v.orig 1 + (j + 1) * v.size 1)
    (h2 : v.orig 2 + k * v.size 2 ≤ x 2 ∧ x 2 < v.orig 2 + (k + 1) * v.size 2) :
    oldContains v x = v.voxels (0 + (j + 1) * v.num 0 + k * v.num 0 * v.num 1) := by
  have e0 := intCast_cell (v.orig 0) (v.size 0) (x 0) (v.num 0) (hs 0) (by linarith) (by nlinarith [hs 0])
  have e1 := intCast_cell (v.orig 1) (v.size 1) (x 1) j (hs 1) h1.1 h1.2
  have e2 := intCast_cell (v.orig 2) (v.size 2) (x 2) k (hs 2) h2.1 h2.2
  have hid : voxelId (v.num 0) j k (v.num 0) (v.num 1) =
      ((0 + (j + 1) * v.num 0 + k * v.num 0 * v.num 1 : ℕ) : ℤ) := by
    simp only [voxelId]; push_cast; ring
  have hlt : 0 + (j + 1) * v.num 0 + k * v.num 0 * v.num 1 < v.num 0 * v.num 1 * v.num 2 := by
    have b : (j + 1 + 1) * v.num 0 ≤ v.num 1 * v.num 0 := Nat.mul_le_mul_right _ hj
    have c : (k + 1) * (v.num 0 * v.num 1) ≤ v.num 2 * (v.num 0 * v.num 1) := Nat.mul_le_mul_right _ hk
    nlinarith
  simp only [oldContains, h]
  rw [if_neg]
  · simp only [voxelAt, e0, e1, e2, hid]
    rw [if_pos ⟨by exact_mod_cast hlt, by positivity⟩, Int.toNat_natCast]
  · have up : ∀ (c : Fin 3) (i : ℕ), i < v.num c → x c < v.orig c + (i + 1) * v.size c →
        x c ≤ v.num c * v.size c + v.orig c := by
      intro c i hi hx
      have h1 : ((i : ℝ) + 1) ≤ v.num c := by exact_mod_cast hi
      have := mul_le_mul_of_nonneg_right h1 (hs c).le
      linarith
    have lo : ∀ (c : Fin 3) (i : ℕ), v.orig c + i * v.size c ≤ x c → v.orig c ≤ x c := by
      intro c i hx
      have : (0 : ℝ) ≤ i * v.size c := mul_nonneg (Nat.cast_nonneg _) (hs c).le
      linarith
    rintro ⟨c, hx⟩
    fin_cases c
    · rcases hx with hx | hx
      · simp only [Fin.zero_eta] at hx; linarith
      · have := lo 0 (v.num 0) (by linarith)
        simp only [Fin.zero_eta] at hx; linarith
    · rcases hx with hx | hx
      · have := up 1 j (by omega) h1.2
        simp only [Fin.mk_one] at hx; linarith
      · have := lo 1 j h1.1
        simp only [Fin.mk_one] at hx; linarith
    · rcases hx with hx | hx
      · have := up 2 k hk h2.2
        simp only [Fin.reduceFinMk] at hx; linarith
      · have := lo 2 k h2.1
        simp only [Fin.reduceFinMk] at hx; linarith

/-- **C154.**  A voxel file gives a point of the upper half of a voxel in every direction the value of that voxel; the
origin is the centre of the first voxel, so that the block begins half a voxel before it. -/
theorem C154_vtk (v : OldVolume) (h : v.type = .vtk) (hs : ∀ c, 0 < v.size c) (x : Fin 3 → ℝ) (cell : Fin 3 → ℕ)
    (hn : ∀ c, cell c < v.num c) (hc : InCell (fun c => v.orig c - v.size c / 2) v.size x cell)
    (hu : ∀ c, v.orig c + cell c * v.size c ≤ x c) :
    oldContains v x = v.voxels (cell 0 + cell 1 * v.num 0 + cell 2 * v.num 0 * v.num 1) := by
  simp only [oldContains, h]
  rw [if_neg, voxelAt_cell v x cell hs hn fun c => ⟨hu c, by linarith [(hc c).2, hs c]⟩]
  rintro ⟨c, hx | hx⟩
  · have h1 : ((cell c : ℝ) + 1) ≤ v.num c := by exact_mod_cast hn c
    have := mul_le_mul_of_nonneg_right h1 (hs c).le
    linarith [(hc c).2]
  · have : (0 : ℝ) ≤ cell c * v.size c := mul_nonneg (Nat.cast_nonneg _) (hs c).le
    linarith [(hc c).1]

/-- **C154 (a finding).**  A point of the lower half of a voxel of the file in every direction gets the value of the
voxel before it in every direction. -/
theorem C154_vtk_lower_half_fails (v : OldVolume) (h : v.type = .vtk) (hs : ∀ c, 0 < v.size c) (x : Fin 3 → ℝ)
    (cell : Fin 3 → ℕ) (hn : ∀ c, cell c + 1 < v.num c)
    (hc : InCell (fun c => v.orig c - v.size c / 2) v.size x fun c => cell c + 1)
    (hl : ∀ c, x c < v.orig c + (cell c + 1) * v.size c) :
    oldContains v x = v.voxels (cell 0 + cell 1 * v.num 0 + cell 2 * v.num 0 * v.num 1) := by
  have hc' : ∀ c, v.orig c - v.size c / 2 + (cell c + 1) * v.size c ≤ x c := fun c => by
    have := (hc c).1
    push_cast at this
    exact this
  simp only [oldContains, h]
  rw [if_neg, voxelAt_cell v x cell hs (fun c => by have := hn c; omega)
    fun c => ⟨by linarith [hc' c, hs c], hl c⟩]
  rintro ⟨c, hx | hx⟩
  · have h1 : ((cell c : ℝ) + 2) ≤ v.num c := by exact_mod_cast hn c
    have := mul_le_mul_of_nonneg_right h1 (hs c).le
    linarith [hl c, hs c]
  · have : (0 : ℝ) ≤ (cell c + 1) * v.size c := mul_nonneg (by positivity) (hs c).le
    linarith [hc' c]

/-! ## Regions -/

/-- **C154.**  A region is accepted exactly if one of the energy and the specific energy is given, the density is
positive and, if the energy is given, its volume is a box, a cylinder or a sphere; otherwise it is refused, or, with the
energy of another volume, an assertion fails. -/
theorem C154_region_accepted (r : OldRegion) :
    ((∃ r', deriveRegion r = .ok r') ↔
      0 < r.den ∧ ((r.ie = none ∧ r.sie ≠ none) ∨
        (r.ie ≠ none ∧ r.sie = none ∧
          (r.volume.type = .box ∨ r.volume.type = .cylinder ∨ r.volume.type = .sphere)))) ∧
    (deriveRegion r = .asserted ↔ 0 < r.den ∧ r.ie ≠ none ∧ r.sie = none ∧
      (r.volume.type = .global ∨ r.volume.type = .stl ∨ r.volume.type = .vtk)) := by
  unfold deriveRegion
  by_cases hd : r.den ≤ 0
  · have : ¬0 < r.den := by linarith
    cases r.sie <;> cases r.ie <;> simp [hd, this]
  · have : 0 < r.den := by linarith
    cases hs : r.sie <;> cases hi : r.ie <;> simp [hd, this]
    cases ht : r.volume.type <;> simp [oldGetVolume, ht]

/-- **C154.**  A given energy is spread over the volume of the region: specific energy times density times volume is the
energy; a given specific energy is kept; velocities not given are zero. -/
theorem C154_region_energy (r r' : OldRegion) (h : deriveRegion r = .ok r') :
    r'.sie = some r'.fillSie ∧ r'.ie = none ∧ r'.den = r.den ∧ r'.volume = r.volume ∧
      (∀ c, (∀ u, r.vel c = some u → r'.fillVel c = u) ∧ (r.vel c = none → r'.fillVel c = 0)) ∧
      (∀ s, r.sie = some s → r'.fillSie = s ∧ r'.extensive = r.extensive) ∧
      ∀ e, r.ie = some e → r'.extensive = true ∧
        (∀ vol,
          ((r.volume.type = .box ∧
              vol = (r.volume.hi 0 - r.volume.lo 0) * (r.volume.hi 1 - r.volume.lo 1) * (r.volume.hi 2 - r.volume.lo 2)) ∨
            (r.volume.type = .cylinder ∧ vol = Real.pi * r.volume.radius2 ^ 2 - Real.pi * r.volume.radius1 ^ 2) ∨
            (r.volume.type = .sphere ∧
              vol = 4 / 3 * Real.pi * r.volume.radius2 ^ 3 - 4 / 3 * Real.pi * r.volume.radius1 ^ 3)) →
          vol ≠ 0 → r'.fillSie * r.den * vol = e) := by
  unfold deriveRegion at h
  split_ifs at h with h1 h2
  have hden : r.den ≠ 0 := by intro h0; exact h2 h0.le
  cases hi : r.ie with
  | none =>
    rw [hi] at h h1
    cases hs : r.sie with
    | none => simp [hs] at h1
    | some s =>
      simp only [RegionResult.ok.injEq] at h
      subst h
      refine ⟨by simp [hs], rfl, rfl, rfl, fun c => ⟨fun u hu => by simp [hu], fun hu => by simp [hu]⟩, ?_, ?_⟩
      · intro s' e
        simp only [Option.some.injEq] at e
        simp [hs, e]
      · intro e he; cases he
  | some e =>
    rw [hi] at h h1
    have hs : r.sie = none := by
      cases hs : r.sie with
      | none => rfl
      | some s => simp [hs] at h1
    simp only at h
    cases hv : oldGetVolume r.volume with
    | none => rw [hv] at h; cases h
    | some vol =>
      rw [hv] at h
      simp only [RegionResult.ok.injEq] at h
      subst h
      refine ⟨rfl, rfl, rfl, rfl, fun c => ⟨fun u hu => by simp [hu], fun hu => by simp [hu]⟩, ?_, ?_⟩
      · intro s e; rw [hs] at e; cases e
      · intro e' he
        refine ⟨rfl, ?_⟩
        intro vol' hvol h0
        have hvv : vol' = vol := by
          rcases hvol with ⟨ht, hw⟩ | ⟨ht, hw⟩ | ⟨ht, hw⟩ <;>
          · simp only [oldGetVolume, ht, Option.some.injEq] at hv
            rw [hw, ← hv]
            try ring
        subst hvv
        simp only [Option.some.injEq] at he
        subst he
        simp only
        field_simp

/-- **C154.**  A region that was derived can be derived again, with the same values: the energy is not spread twice. -/
theorem C154_region_again (r r' : OldRegion) (h : deriveRegion r = .ok r') : deriveRegion r' = .ok r' := by
  have h2 : 0 < r.den := ((C154_region_accepted r).1.1 ⟨r', h⟩).1
  obtain ⟨a, b, c, -, -, -⟩ := C154_region_energy r r' h
  have hv : r'.fillVel = fun c => (r'.vel c).getD 0 := by
    unfold deriveRegion at h
    split_ifs at h
    cases hi : r.ie with
    | none =>
      rw [hi] at h
      simp only [RegionResult.ok.injEq] at h
      subst h; rfl
    | some e =>
      rw [hi] at h
      simp only at h
      cases hv : oldGetVolume r.volume with
      | none => rw [hv] at h; cases h
      | some vol =>
        rw [hv] at h
        simp only [RegionResult.ok.injEq] at h
        subst h; rfl
  unfold deriveRegion
  rw [if_neg (by simp [a, b]), if_neg (by linarith)]
  obtain ⟨vo, den, sie, ie, vel, fs, fv, ex⟩ := r'
  simp only at a b c hv
  subst a b hv
  rfl

/-- **C154 (a finding).**  A negative inner radius is accepted: with it a sphere contains the points of the whole ball,
but its energy is spread over twice the volume of the ball. -/
theorem C154_negative_radius_fails : ∃ v : OldVolume, v.type = .sphere ∧ v.radius1 < 0 ∧ oldVolumeValid v = true ∧
    (∀ x : Fin 3 → ℝ, oldContains v x = true ↔ x 0 ^ 2 + x 1 ^ 2 + x 2 ^ 2 ≤ v.radius2 ^ 2) ∧
    oldGetVolume v = some (2 * (4 / 3 * Real.pi * v.radius2 ^ 3)) := by
  refine ⟨⟨.sphere, -1, 1, fun _ => 0, fun _ => 0, fun _ => 0, fun _ => 0, fun _ => 0, fun _ => false⟩, rfl,
    by norm_num, by norm_num [oldVolumeValid], ?_, ?_⟩
  · intro x
    simp only [oldContains, decide_eq_true_eq, sub_zero]
    rw [Real.sqrt_le_left (by norm_num)]
    constructor
    · rintro ⟨_, h⟩; nlinarith
    · intro h
      exact ⟨by linarith [Real.sqrt_nonneg (x 0 * x 0 + x 1 * x 1 + x 2 * x 2)], by nlinarith⟩
  · simp only [oldGetVolume, Option.some.injEq]
    ring

/-- **C154.**  An accepted cylinder or sphere has an outer radius that is not negative and greater than the inner one. -/
theorem C154_radii (v : OldVolume) :
    oldVolumeValid v = true ↔ (v.type = .cylinder ∨ v.type = .sphere → 0 ≤ v.radius2 ∧ v.radius1 < v.radius2) := by
  unfold oldVolumeValid
  by_cases h : v.type = .cylinder ∨ v.type = .sphere
  · rw [if_pos h]
    by_cases h1 : v.radius2 < 0
    · rw [if_pos h1]
      simp only [Bool.false_eq_true, false_iff]
      intro g
      linarith [(g h).1]
    · rw [if_neg h1]
      by_cases h2 : v.radius2 ≤ v.radius1
      · rw [if_pos h2]
        simp only [Bool.false_eq_true, false_iff]
        intro g
        linarith [(g h).2]
      · rw [if_neg h2]
        exact ⟨fun _ _ => ⟨by linarith, by linarith⟩, fun _ => rfl⟩
  · rw [if_neg h]
    exact ⟨fun _ g => absurd g h, fun _ => rfl⟩

/-- A block of two by two by one voxels of which the third is filled. -/
def smallBlock (t : OldVolumeType) : OldVolume :=
  ⟨t, 0, 0, fun _ => 0, fun _ => 0, fun _ => 0, fun _ => 1, ![2, 2, 1], fun i => i == 2⟩

/-- A point of the third voxel, and one on the last face of the second that gets the value of the third. -/
example : oldContains (smallBlock .stl) ![1/2, 3/2, 1/2] = true ∧
    oldContains (smallBlock .stl) ![2, 1/2, 1/2] = true := by
  constructor
  · rw [C154_stl (smallBlock .stl) rfl (by intro c; simp [smallBlock]) _ ![0, 1, 0]
      (by intro c; fin_cases c <;> simp [smallBlock])
      (by intro c; fin_cases c <;> simp [smallBlock] <;> norm_num)]
    simp [smallBlock]
  · rw [C154_last_face_fails (smallBlock .stl) rfl (by intro c; simp [smallBlock]) _ 0 0
      (by simp [smallBlock]) (by simp [smallBlock]) (by simp [smallBlock]) (by simp [smallBlock])
      (by simp [smallBlock]; norm_num) (by simp [smallBlock]; norm_num)]
    simp [smallBlock]

end Fierro
