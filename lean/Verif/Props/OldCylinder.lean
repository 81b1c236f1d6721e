import Verif.Props.OldMesh
import Mathlib.Analysis.Real.Pi.Bounds
import Mathlib.Tactic.FinCases

/-!
# C148: cylinders of the previous mesh builder, and the order of points in its files
-/

namespace Fierro

/-- Specification: the angle in radians for degrees. -/
noncomputable def rad (x : ℝ) : ℝ := x * (Real.pi / 180)

/-- Specification: the ring is closed. -/
def OldInput.Round (a : OldInput) : Prop := |a.length.getD 1 0 - 360| < 1 / 10 ^ 8

noncomputable instance (a : OldInput) : Decidable a.Round :=
  inferInstanceAs (Decidable (|a.length.getD 1 0 - 360| < 1 / 10 ^ 8))

/-- The derived values of a cylinder. -/
noncomputable def OldInput.ring (a : OldInput) (inner start : ℝ) : OldGrid :=
  { a.grid with
    points := ![a.grid.points 0, if a.Round then a.grid.points 1 - 1 else a.grid.points 1, a.grid.points 2],
    lower := ![a.grid.lower 0 + inner, a.grid.lower 1 + start * (Real.pi / 180), a.grid.lower 2],
    upper := ![a.grid.upper 0 + inner, a.grid.upper 1 * (Real.pi / 180) + start * (Real.pi / 180),
      a.grid.upper 2],
    delta := oldDelta a.grid.p a.grid.elems
      ![a.grid.lower 0 + inner, a.grid.lower 1 + start * (Real.pi / 180), a.grid.lower 2]
      ![a.grid.upper 0 + inner, a.grid.upper 1 * (Real.pi / 180) + start * (Real.pi / 180),
        a.grid.upper 2] }

theorem deriveCylinder_fits {a : OldInput} (h : a.Fits) (inner start : ℝ) :
    deriveCylinder a inner start =
      if rad (a.length.getD 1 0) < 0 ∨ 360 < rad (a.length.getD 1 0) then .error .angle
      else .ok (a.ring inner start) := by
  unfold deriveCylinder
  rw [deriveBox_fits h]
  rfl

/-- **C148.** A cylinder is built exactly from an input with one value per direction, in two or three
dimensions, of order at least one, whose angle is not negative and at most 360 **radians**. -/
theorem C148_cylinder_accepted (a : OldInput) (inner start : ℝ) :
    (∃ m, buildOldCylinder a inner start = .ok m) ↔
      a.Fits ∧ 0 ≤ a.length.getD 1 0 ∧ rad (a.length.getD 1 0) ≤ 360 := by
  have hpi := Real.pi_pos
  have hneg : rad (a.length.getD 1 0) < 0 ↔ a.length.getD 1 0 < 0 := by
    unfold rad
    constructor
    · intro h
      by_contra hn
      exact absurd h (not_lt.mpr (mul_nonneg (not_lt.mp hn) (by positivity)))
    · intro h
      exact mul_neg_of_neg_of_pos h (by positivity)
  constructor
  · rintro ⟨m, hm⟩
    have hf : a.Fits := by
      rw [← C148_box_accepted]
      unfold buildOldCylinder deriveCylinder at hm
      unfold buildOldBox
      cases hd : deriveBox a with
      | error e => rw [hd] at hm; cases hm
      | ok g =>
        rw [hd] at hm
        simp only [bind, Except.bind, buildRect] at hm ⊢
        cases ht : oldType g.dims g.p with
        | none =>
          split_ifs at hm <;> first | (cases hm; done) | (simp only [ht] at hm; cases hm; done)
        | some t => exact ⟨_, rfl⟩
    refine ⟨hf, ?_⟩
    unfold buildOldCylinder at hm
    rw [deriveCylinder_fits hf] at hm
    split_ifs at hm with h
    · cases hm
    · push Not at h
      exact ⟨not_lt.mp fun hn => absurd (hneg.mpr hn) (not_lt.mpr h.1), h.2⟩
  · rintro ⟨hf, h1, h2⟩
    obtain ⟨t, ht⟩ := (oldType_some hf.1).mpr hf.2.2.2
    unfold buildOldCylinder
    rw [deriveCylinder_fits hf, if_neg (by
      rintro (h | h)
      · exact absurd (hneg.mp h) (not_lt.mpr h1)
      · exact absurd h (not_lt.mpr h2))]
    have ht' : oldType (a.ring inner start).dims (a.ring inner start).p = some t := ht
    simp only [bind, Except.bind, buildRect, ht']
    exact ⟨_, rfl⟩

/-- **C148 (what fails).** The angle is checked after it was turned into radians, so that an angle of
20000 degrees, more than 55 turns, is accepted though only angles up to 360 are to be. -/
theorem C148_angle_fails :
    ∃ m, buildOldCylinder ⟨[0, 0], [1, 20000], [1, 1], 1⟩ 1 0 = .ok m := by
  rw [C148_cylinder_accepted]
  refine ⟨⟨Or.inl rfl, rfl, rfl, le_refl 1⟩, by norm_num, ?_⟩
  have := Real.pi_lt_d2
  unfold rad
  simp only [List.getD_cons_succ, List.getD_cons_zero]
  linarith

theorem buildOldCylinder_ok {a : OldInput} {inner start : ℝ} {m : OldMesh}
    (h : buildOldCylinder a inner start = .ok m) : a.Fits ∧ ∃ t,
      m = { points := fun n => ((Mem.writeAll (oldPointWrites (a.ring inner start)) Mem.empty n).map
              (cylinderPoint a.grid.origin)).map (translatePoint a.grid.origin),
            conn := Mem.writeAll (oldElemWrites (a.ring inner start)) Mem.empty, type := t } := by
  obtain ⟨hf, h1, h2⟩ := (C148_cylinder_accepted a inner start).mp ⟨m, h⟩
  refine ⟨hf, ?_⟩
  obtain ⟨t, ht⟩ := (oldType_some hf.1).mpr hf.2.2.2
  unfold buildOldCylinder at h
  have hpi := Real.pi_pos
  rw [deriveCylinder_fits hf, if_neg (by
      rintro (h | h)
      · exact absurd h (not_lt.mpr (mul_nonneg h1 (by positivity)))
      · exact absurd h (not_lt.mpr h2))] at h
  have ht' : oldType (a.ring inner start).dims (a.ring inner start).p = some t := ht
  simp only [bind, Except.bind, buildRect, ht'] at h
  cases h
  exact ⟨t, rfl⟩

/-- Number of points of a cylinder. -/
noncomputable def OldInput.ringTotal (a : OldInput) : ℕ :=
  (a.p * a.n 0 + 1) * (if a.Round then a.p * a.n 1 else a.p * a.n 1 + 1) *
    (if a.origin.length = 2 then 1 else a.p * a.n 2 + 1)

/-- Specification: the point at radius `r`, angle `θ` around an axis. -/
noncomputable def onCircle (cx cy r θ : ℝ) : ℝ × ℝ := (cx + r * Real.cos θ, cy + r * Real.sin θ)

/-- **C148.** In a cylinder the local point `(u, v, w)` of element `(i, j, k)` is an existing point; it
lies on the circle of its radius at its angle, also where the ring closes. The axis goes through
**twice** the origin of the input. (An angle that differs from 360 degrees by less than 10⁻⁸ but is not
360 is left out.) -/
theorem C148_cylinder_corner (a : OldInput) (inner start : ℝ) (m : OldMesh)
    (h : buildOldCylinder a inner start = .ok m)
    (hround : a.length.getD 1 0 = 360 ∨ 1 / 10 ^ 8 ≤ |a.length.getD 1 0 - 360|) {i j k u v w : ℕ}
    (hi : i < a.n 0) (hj : j < a.n 1) (hk : k < a.n 2) (hu : u ≤ a.p) (hv : v ≤ a.p) (hw : w ≤ a.depth) :
    ∃ g x, m.conn (i + a.n 0 * (j + a.n 1 * k), u + (a.p + 1) * (v + (a.p + 1) * w)) = some g ∧
      g < a.ringTotal ∧ m.points g = some x ∧
      (x 0, x 1) = onCircle (2 * a.origin.getD 0 0) (2 * a.origin.getD 1 0)
        (inner + ((i * a.p + u : ℕ) : ℝ) * (a.length.getD 0 0 / (a.p * a.n 0 : ℕ)))
        (rad (start + ((j * a.p + v : ℕ) : ℝ) * (a.length.getD 1 0 / (a.p * a.n 1 : ℕ)))) ∧
      (a.origin.length = 3 → x 2 = a.origin.getD 2 0 +
        ((k * a.p + w : ℕ) : ℝ) * (a.length.getD 2 0 / (a.p * a.n 2 : ℕ))) := by
  obtain ⟨hf, t, rfl⟩ := buildOldCylinder_ok h
  have hp := OldInput.grid_points hf
  set r := a.ring inner start with hr
  have hp1 : 1 ≤ a.p := hf.2.2.2
  have p0 : r.points 0 = a.p * a.n 0 + 1 := hp.1
  have p2 : r.points 2 = a.grid.points 2 := rfl
  have l0 : i * a.p + u < r.points 0 := by rw [p0]; exact corner_lt hi hu
  have l2 : k * a.p + w < r.points 2 := OldInput.third_lt hf hk hw
  have hpos : 0 < a.p * a.n 1 := Nat.mul_pos hp1 (by omega)
  have hpn : (0 : ℝ) < ((a.p * a.n 1 : ℕ) : ℝ) := by exact_mod_cast hpos
  have lj := corner_lt hj hv
  have p1 : r.points 1 = if a.Round then a.p * a.n 1 else a.p * a.n 1 + 1 := by
    change (if a.Round then a.grid.points 1 - 1 else a.grid.points 1) = _
    rw [hp.2.1]
    split_ifs <;> simp
  have m1 : (j * a.p + v) % r.points 1 < r.points 1 := by
    apply Nat.mod_lt
    rw [p1]
    split_ifs <;> omega
  have hc := oldConn_get r (i := i) (j := j) (k := k) (a := u) (b := v) (c := w) hi hj hk hu hv
    (by change w ≤ a.grid.depth; rw [OldInput.grid_depth hf]; exact hw)
  change _ = some (getId ((i * a.p + u) % _) ((j * a.p + v) % _) ((k * a.p + w) % _) _ _) at hc
  rw [Nat.mod_eq_of_lt l0, Nat.mod_eq_of_lt l2] at hc
  refine ⟨_, translatePoint a.grid.origin (cylinderPoint a.grid.origin
    ![r.lower 0 + ((i * a.p + u : ℕ) : ℝ) * r.delta 0,
    r.lower 1 + (((j * a.p + v) % r.points 1 : ℕ) : ℝ) * r.delta 1,
    if r.dims = 3 then r.lower 2 + ((k * a.p + w : ℕ) : ℝ) * r.delta 2 else 0]), hc, ?_, ?_, ?_, ?_⟩
  · have := getIdN_lt l0 m1 l2
    rw [p0, p1, p2, hp.2.2] at this
    unfold OldInput.ringTotal
    rw [p0, p1]
    exact this
  · dsimp only
    rw [oldPoint_get r l0 m1 l2, Option.map_some, Option.map_some]
  · have hlow0 : r.lower 0 = inner := zero_add _
    have hlow1 : r.lower 1 = start * (Real.pi / 180) := zero_add _
    have hd0 : r.delta 0 = a.length.getD 0 0 / (a.p * a.n 0 : ℕ) := by
      change (a.length.getD 0 0 + inner - (0 + inner)) / _ = _
      congr 1
      ring
    have hd1 : r.delta 1 = a.length.getD 1 0 * (Real.pi / 180) / (a.p * a.n 1 : ℕ) := by
      change (a.length.getD 1 0 * (Real.pi / 180) + start * (Real.pi / 180) -
        (0 + start * (Real.pi / 180))) / _ = _
      congr 1
      ring
    -- the angle of the stored point and the angle meant differ by whole turns
    have hang : ∃ z : ℤ, rad (start + ((j * a.p + v : ℕ) : ℝ) * (a.length.getD 1 0 / (a.p * a.n 1 : ℕ)))
        = r.lower 1 + (((j * a.p + v) % r.points 1 : ℕ) : ℝ) * r.delta 1 + z * (2 * Real.pi) := by
      rw [hlow1, hd1]
      unfold rad
      rcases hround with h360 | hopen
      · have hR : a.Round := by unfold OldInput.Round; rw [h360]; norm_num
        rw [p1, if_pos hR]
        rcases Nat.lt_or_ge (j * a.p + v) (a.p * a.n 1) with hlt | hge
        · refine ⟨0, ?_⟩
          rw [Nat.mod_eq_of_lt hlt]
          simp only [Int.cast_zero, zero_mul, add_zero]
          ring
        · have : j * a.p + v = a.p * a.n 1 := by omega
          refine ⟨1, ?_⟩
          rw [this, Nat.mod_self, h360]
          field_simp
          push_cast
          ring
      · have hR : ¬a.Round := not_lt.mpr hopen
        rw [p1, if_neg hR, Nat.mod_eq_of_lt lj]
        refine ⟨0, ?_⟩
        simp only [Int.cast_zero, zero_mul, add_zero]
        ring
    obtain ⟨z, hz⟩ := hang
    unfold onCircle
    rw [hz, Real.cos_add_int_mul_two_pi, Real.sin_add_int_mul_two_pi]
    unfold translatePoint cylinderPoint
    simp only [Matrix.cons_val_zero, Matrix.cons_val_one]
    rw [hlow0, hd0]
    change (a.origin.getD 0 0 + _ + a.origin.getD 0 0, a.origin.getD 1 0 + _ + a.origin.getD 1 0) = _
    refine Prod.ext ?_ ?_ <;> dsimp only <;> ring
  · intro h3
    have hd2 : r.delta 2 = a.length.getD 2 0 / (a.p * a.n 2 : ℕ) := by
      change (a.length.getD 2 0 - 0) / _ = _
      rw [sub_zero]
      rfl
    have hl2 : r.lower 2 = 0 := rfl
    have hdim : r.dims = 3 := h3
    unfold translatePoint cylinderPoint
    change (if r.dims = 3 then r.lower 2 + ((k * a.p + w : ℕ) : ℝ) * r.delta 2 else 0) +
      a.origin.getD 2 0 = _
    rw [if_pos hdim, hl2, hd2]
    ring

/-- **C148 (what fails).** The origin is added twice: with origin `(1, 0)` and inner radius one, the
first point of the cylinder is at distance two from the origin. -/
theorem C148_origin_twice_fails : ∃ m x, buildOldCylinder ⟨[1, 0], [1, 90], [1, 1], 1⟩ 1 0 = .ok m ∧
    m.points 0 = some x ∧ (x 0 - 1) ^ 2 + (x 1 - 0) ^ 2 = 2 ^ 2 := by
  have hacc : ∃ m, buildOldCylinder ⟨[1, 0], [1, 90], [1, 1], 1⟩ 1 0 = .ok m := by
    rw [C148_cylinder_accepted]
    refine ⟨⟨Or.inl rfl, rfl, rfl, le_refl 1⟩, by norm_num, ?_⟩
    have := Real.pi_lt_d2
    unfold rad
    simp only [List.getD_cons_succ, List.getD_cons_zero]
    linarith
  obtain ⟨m, hm⟩ := hacc
  have hpt : ∃ x, m.points 0 = some x ∧ (x 0, x 1) = onCircle (2 * 1) (2 * 0) 1 0 := by
    obtain ⟨hf, t, rfl⟩ := buildOldCylinder_ok hm
    have hp := OldInput.grid_points hf
    set a : OldInput := ⟨[1, 0], [1, 90], [1, 1], 1⟩ with ha
    have hR : ¬a.Round := by
      change ¬(|(90 : ℝ) - 360| < 1 / 10 ^ 8)
      norm_num
    have g0 : (0 : ℕ) < (a.ring 1 0).points 0 := by
      change 0 < a.grid.points 0
      rw [hp.1]; exact Nat.succ_pos _
    have g1 : (0 : ℕ) < (a.ring 1 0).points 1 := by
      change 0 < (if a.Round then _ else a.grid.points 1)
      rw [if_neg hR, hp.2.1]; exact Nat.succ_pos _
    have g2 : (0 : ℕ) < (a.ring 1 0).points 2 := by
      change 0 < a.grid.points 2
      rw [hp.2.2]; simp [ha]
    have hg := oldPoint_get (a.ring 1 0) g0 g1 g2
    have hid : getId 0 0 0 ((a.ring 1 0).points 0) ((a.ring 1 0).points 1) = 0 := by simp [getId]
    rw [hid] at hg
    refine ⟨_, by dsimp only; rw [hg, Option.map_some, Option.map_some], ?_⟩
    have hl0 : (a.ring 1 0).lower 0 = 1 := zero_add _
    have hl1 : (a.ring 1 0).lower 1 = 0 := by
      change (0 : ℝ) + 0 * (Real.pi / 180) = 0
      ring
    unfold translatePoint cylinderPoint onCircle
    simp only [Matrix.cons_val_zero, Matrix.cons_val_one, hl0, hl1]
    change ((1 : ℝ) + _ + 1, (0 : ℝ) + _ + 0) = _
    norm_num
  obtain ⟨x, hx, hc⟩ := hpt
  refine ⟨m, x, hm, hx, ?_⟩
  unfold onCircle at hc
  simp only [Real.cos_zero, Real.sin_zero, Prod.mk.injEq] at hc
  rw [hc.1, hc.2]
  norm_num

/-- **C148.** A full circle closes: the points at the end of the last element in angle are those at the start of
the first one. -/
theorem C148_ring_closes (a : OldInput) (inner start : ℝ) (m : OldMesh)
    (h : buildOldCylinder a inner start = .ok m) (hround : a.length.getD 1 0 = 360) {i k u w : ℕ}
    (hi : i < a.n 0) (hj : 0 < a.n 1) (hk : k < a.n 2) (hu : u ≤ a.p) (hw : w ≤ a.depth) :
    m.conn (i + a.n 0 * ((a.n 1 - 1) + a.n 1 * k), u + (a.p + 1) * (a.p + (a.p + 1) * w)) =
      m.conn (i + a.n 0 * (0 + a.n 1 * k), u + (a.p + 1) * (0 + (a.p + 1) * w)) := by
  obtain ⟨hf, t, rfl⟩ := buildOldCylinder_ok h
  have hp := OldInput.grid_points hf
  set r := a.ring inner start with hr
  have hw' : w ≤ r.depth := by change w ≤ a.grid.depth; rw [OldInput.grid_depth hf]; exact hw
  have h1 := oldConn_get r (i := i) (j := a.n 1 - 1) (k := k) (a := u) (b := a.p) (c := w) hi
    (by change a.n 1 - 1 < a.n 1; omega) hk hu le_rfl hw'
  have h2 := oldConn_get r (i := i) (j := 0) (k := k) (a := u) (b := 0) (c := w) hi hj hk hu
    (Nat.zero_le _) hw'
  have hR : a.Round := by unfold OldInput.Round; rw [hround]; norm_num
  have p1 : r.points 1 = a.p * a.n 1 := by
    change (if a.Round then a.grid.points 1 - 1 else a.grid.points 1) = _
    rw [if_pos hR, hp.2.1, Nat.add_sub_cancel]
  have e : ((a.n 1 - 1) * a.p + a.p) % r.points 1 = (0 * a.p + 0) % r.points 1 := by
    have : (a.n 1 - 1) * a.p + a.p = a.p * a.n 1 := by
      rw [← Nat.succ_mul, Nat.succ_eq_add_one, Nat.sub_add_cancel hj, Nat.mul_comm]
    rw [this, p1, Nat.mod_self]
    simp
  refine h1.trans (Eq.trans ?_ h2.symm)
  change some (getId _ (((a.n 1 - 1) * a.p + a.p) % r.points 1) _ _ _) =
    some (getId _ ((0 * a.p + 0) % r.points 1) _ _ _)
  rw [e]

/-- **C148 (what fails).** With inner radius zero, the value used when the input gives none, the cylinder has
different points at the same position: on the axis. -/
theorem C148_axis_fails : ∃ m g g' x, buildOldCylinder ⟨[0, 0], [1, 90], [1, 1], 1⟩ 0 0 = .ok m ∧ g ≠ g' ∧
    m.points g = some x ∧ m.points g' = some x := by
  obtain ⟨m, hm⟩ : ∃ m, buildOldCylinder ⟨[0, 0], [1, 90], [1, 1], 1⟩ 0 0 = .ok m := by
    rw [C148_cylinder_accepted]
    refine ⟨⟨Or.inl rfl, rfl, rfl, le_refl 1⟩, by norm_num, ?_⟩
    have := Real.pi_lt_d2
    unfold rad
    simp only [List.getD_cons_succ, List.getD_cons_zero]
    linarith
  refine ⟨m, 0, 2, ?_⟩
  obtain ⟨hf, t, rfl⟩ := buildOldCylinder_ok hm
  have hp := OldInput.grid_points hf
  set a : OldInput := ⟨[0, 0], [1, 90], [1, 1], 1⟩ with ha
  have hR : ¬a.Round := by
    change ¬(|(90 : ℝ) - 360| < 1 / 10 ^ 8)
    norm_num
  have q0 : (a.ring 0 0).points 0 = 2 := by
    change a.grid.points 0 = 2
    rw [hp.1]; rfl
  have q1 : (a.ring 0 0).points 1 = 2 := by
    change (if a.Round then _ else a.grid.points 1) = 2
    rw [if_neg hR, hp.2.1]; rfl
  have q2 : (a.ring 0 0).points 2 = 1 := by
    change a.grid.points 2 = 1
    rw [hp.2.2]; simp [ha]
  have hg := oldPoint_get (a.ring 0 0) (i := 0) (j := 0) (k := 0) (by omega) (by omega) (by omega)
  have hg' := oldPoint_get (a.ring 0 0) (i := 0) (j := 1) (k := 0) (by omega) (by omega) (by omega)
  rw [q0, q1] at hg hg'
  have z0 : getId 0 0 0 2 2 = 0 := rfl
  have z2 : getId 0 1 0 2 2 = 2 := rfl
  rw [z0] at hg
  rw [z2] at hg'
  refine ⟨_, hm, by omega, by dsimp only; rw [hg, Option.map_some, Option.map_some], ?_⟩
  dsimp only
  rw [hg', Option.map_some, Option.map_some]
  have hl0 : (a.ring 0 0).lower 0 = 0 := zero_add _
  congr 1
  funext d
  unfold translatePoint cylinderPoint
  simp only [hl0]
  fin_cases d <;> simp

/-! ### The order of the points in the files -/

theorem latticeOrder_get {p i j k : ℕ} (hi : i ≤ p) (hj : j ≤ p) (hk : k ≤ p) :
    (latticeOrder p)[i + (p + 1) * (j + (p + 1) * k)]? = some (i, j, k) := by
  unfold latticeOrder
  have e : i + (p + 1) * (j + (p + 1) * k) = (i + (p + 1) * j) + ((p + 1) * (p + 1)) * k := by ring
  rw [e, flatMap_getElem? _ _ ((p + 1) * (p + 1)) (by
      intro kc _
      rw [flatMap_length _ _ (p + 1) (by simp)]; simp) _ _ (radixN_lt (by omega) (by omega)),
    List.getElem?_range (by omega : k < p + 1)]
  simp only [Option.bind_some]
  rw [flatMap_getElem? _ _ (p + 1) (by simp) _ _ (by omega), List.getElem?_range (by omega : j < p + 1)]
  simp only [Option.bind_some]
  rw [List.getElem?_map, List.getElem?_range (by omega : i < p + 1)]
  rfl

theorem latticeOrder_length (p : ℕ) : (latticeOrder p).length = (p + 1) ^ 3 := by
  simp only [latticeOrder, List.length_flatMap, List.length_map, List.length_range, List.map_const',
    List.sum_replicate, smul_eq_mul]
  ring

theorem latticeOrder_inj {p a b : ℕ} {v : ℕ × ℕ × ℕ} (ha : (latticeOrder p)[a]? = some v)
    (hb : (latticeOrder p)[b]? = some v) : a = b := by
  have key : ∀ c, (latticeOrder p)[c]? = some v → c = v.1 + (p + 1) * (v.2.1 + (p + 1) * v.2.2) := by
    intro c hc
    have hl : c < (p + 1) ^ 3 := by
      rw [← latticeOrder_length]
      exact (List.getElem?_eq_some_iff.mp hc).1
    have h1 : c % (p + 1) ≤ p := Nat.lt_succ_iff.mp (Nat.mod_lt _ (Nat.succ_pos p))
    have h2 : c / (p + 1) % (p + 1) ≤ p := Nat.lt_succ_iff.mp (Nat.mod_lt _ (Nat.succ_pos p))
    have h3 : c / (p + 1) / (p + 1) ≤ p := by
      apply Nat.lt_succ_iff.mp
      rw [Nat.div_lt_iff_lt_mul (Nat.succ_pos p), Nat.div_lt_iff_lt_mul (Nat.succ_pos p)]
      calc c < (p + 1) ^ 3 := hl
        _ = _ := by rw [Nat.succ_eq_add_one]; ring
    have he : c = c % (p + 1) + (p + 1) * (c / (p + 1) % (p + 1) + (p + 1) * (c / (p + 1) / (p + 1))) := by
      rw [Nat.mod_add_div, Nat.mod_add_div]
    have hg := latticeOrder_get h1 h2 h3
    rw [← he, hc] at hg
    cases hg
    exact he
  rw [key a ha, key b hb]

/-- **C148.** The `calls`-th file of a program: at the place that the VTK format gives to the lattice
point `(i, j, k)` of a hexahedron of order `p` stands the column of that point, displaced by a whole
element for every file before. -/
theorem C148_file_columns (p calls : ℕ) (hp : 1 ≤ p) {i j k : ℕ} (hi : i ≤ p) (hj : j ≤ p) (hk : k ≤ p) :
    writtenColumn p (calls + 1) (pointIndexNat p (i, j, k)) =
      some (calls * (p + 1) ^ 3 + (i + (p + 1) * (j + (p + 1) * k))) := by
  set blk := (latticeOrder p).map (pointIndexNat p) with hblk
  have hlen : blk.length = (p + 1) ^ 3 := by rw [hblk, List.length_map, latticeOrder_length]
  have hm : hexMap p (calls + 1) = hexMap p calls ++ blk := by
    unfold hexMap
    rw [List.replicate_succ', List.flatten_append]
    simp [hblk]
  have hcl : (hexMap p calls).length = calls * (p + 1) ^ 3 := by
    unfold hexMap
    rw [List.length_flatten, List.map_replicate, List.sum_replicate, ← hblk, hlen, smul_eq_mul]
  unfold writtenColumn constructInverse
  rw [hm, List.zipIdx_append, Mem.writeAll_append]
  have hg := latticeOrder_get hi hj hk
  have hmem : (i, j, k) ∈ latticeOrder p := List.mem_of_getElem? hg
  apply Mem.writeAll_of_mem
  · rw [List.mk_mem_zipIdx_iff_le_and_getElem?_sub, zero_add, hcl]
    refine ⟨Nat.le_add_right _ _, ?_⟩
    rw [Nat.add_sub_cancel_left, hblk, List.getElem?_map, hg]
    rfl
  · intro c hc
    rw [List.mk_mem_zipIdx_iff_le_and_getElem?_sub, zero_add, hcl, hblk, List.getElem?_map] at hc
    obtain ⟨h1, h2⟩ := hc
    obtain ⟨w, hw, he⟩ := Option.map_eq_some_iff.mp h2
    have := pointIndexNat_inj hp (List.mem_of_getElem? hw) hmem he
    subst this
    have := latticeOrder_inj hw hg
    omega

/-- **C148.** The first file that a program writes follows the VTK format. -/
theorem C148_first_file (p : ℕ) (hp : 1 ≤ p) {i j k : ℕ} (hi : i ≤ p) (hj : j ≤ p) (hk : k ≤ p) :
    writtenColumn p 1 (pointIndexNat p (i, j, k)) = some (i + (p + 1) * (j + (p + 1) * k)) := by
  rw [C148_file_columns p 0 hp hi hj hk, Nat.zero_mul, Nat.zero_add]

/-- **C148 (what fails).** From its second file on, a program takes **every** entry of an element of
hexahedra from outside the element's row, because the table of places is kept and extended by every
call. -/
theorem C148_second_file_fails (p calls : ℕ) (hp : 1 ≤ p) (h2 : 2 ≤ calls) {l : ℕ}
    (hl : l < (p + 1) * (p + 1) * (p + 1)) :
    ∃ c, writtenColumn p calls l = some c ∧ (p + 1) ^ 3 ≤ c := by
  obtain ⟨⟨i, j, k⟩, hv, rfl⟩ := pointIndexNat_surj hp hl
  rw [mem_latticeOrder] at hv
  obtain ⟨c, rfl⟩ : ∃ c, calls = c + 1 := ⟨calls - 1, by omega⟩
  refine ⟨_, C148_file_columns p c hp hv.1 hv.2.1 hv.2.2, ?_⟩
  exact le_trans (Nat.le_mul_of_pos_left _ (by omega : 0 < c)) (Nat.le_add_right _ _)

example : writtenColumn 2 2 8 = some 28 := C148_file_columns 2 1 (by omega) (i := 1) (j := 0) (k := 0)
  (by omega) (by omega) (by omega)

/-- **C148.** The elements of a mesh of order one, in two and in three dimensions, come back from a file as
they were written. -/
theorem C148_linear_roundtrip (row : List ℕ) (h : row.length = 4 ∨ row.length = 8) :
    ∃ line t, writeLinear row = line.map some ∧ line.length = row.length ∧
      reorderColumns ijkToFea line = some t ∧ ∀ l < row.length, t l = row[l]? := by
  rcases h with h | h
  · obtain ⟨a, b, c, d, rfl⟩ : ∃ a b c d, row = [a, b, c, d] := by
      match row, h with
      | [a, b, c, d], _ => exact ⟨a, b, c, d, rfl⟩
    refine ⟨[a, b, d, c], _, rfl, rfl, rfl, ?_⟩
    intro l hl
    have : l < 4 := hl
    interval_cases l <;> rfl
  · obtain ⟨a, b, c, d, e, f, g, i, rfl⟩ : ∃ a b c d e f g i, row = [a, b, c, d, e, f, g, i] := by
      match row, h with
      | [a, b, c, d, e, f, g, i], _ => exact ⟨a, b, c, d, e, f, g, i, rfl⟩
    refine ⟨[a, b, d, c, e, f, i, g], _, rfl, rfl, rfl, ?_⟩
    intro l hl
    have : l < 8 := hl
    interval_cases l <;> rfl

/-- **C148.** The places of a linear element in a file are those of the VTK format: around the lower face,
then around the upper one. -/
theorem C148_linear_file (a b c d e f g i : ℕ) :
    writeLinear [a, b, c, d] = [some a, some b, some d, some c] ∧
    writeLinear [a, b, c, d, e, f, g, i] =
      [some a, some b, some d, some c, some e, some f, some i, some g] := ⟨rfl, rfl⟩

/-- **C148 (what fails).** No file of hexahedra of order two or more can be read: the order is taken one
too large (the root of the number of points of an element, not one less), and with the table of that order
an entry behind the end of the row is assigned. -/
theorem C148_read_high_order_fails (p : ℕ) (hp : 2 ≤ p) (row : List ℕ) (hrow : row.length = (p + 1) ^ 3) :
    reorderColumns (hexMap (p + 1) 1) row = none := by
  have hh : hexMap (p + 1) 1 = (latticeOrder (p + 1)).map (pointIndexNat (p + 1)) := by
    simp [hexMap]
  unfold reorderColumns
  rw [if_neg]
  intro hall
  rw [List.all_eq_true] at hall
  set q := p + 1 with hq
  have hq1 : 1 ≤ q := by omega
  have hlen : (latticeOrder q).length = (q + 1) ^ 3 := latticeOrder_length q
  have hlt : q ^ 3 < (q + 1) ^ 3 := Nat.pow_lt_pow_left (Nat.lt_succ_self q) (by omega)
  -- the first places are an injection into as many values, so all of these are taken
  have hget : ∀ n, n < q ^ 3 → ∃ v, (latticeOrder q)[n]? = some v ∧ pointIndexNat q v < q ^ 3 := by
    intro n hn
    have hn' : n < (latticeOrder q).length := by omega
    refine ⟨(latticeOrder q)[n], List.getElem?_eq_getElem hn', ?_⟩
    have := hall (pointIndexNat q (latticeOrder q)[n]) (by
      rw [hh, hrow]
      apply List.mem_of_getElem? (i := n)
      rw [List.getElem?_take_of_lt hn, List.getElem?_map, List.getElem?_eq_getElem hn']
      rfl)
    simpa [hrow] using this
  choose! v hv hlt' using hget
  have hinj : Set.InjOn (fun n => pointIndexNat q (v n)) (Finset.range (q ^ 3) : Set ℕ) := by
    intro a ha b hb hab
    have ha' := hv a (by simpa using ha)
    have hb' := hv b (by simpa using hb)
    have := pointIndexNat_inj hq1 (List.mem_of_getElem? ha') (List.mem_of_getElem? hb') hab
    rw [← this] at hb'
    exact latticeOrder_inj ha' hb'
  have hsurj := Finset.surjOn_of_injOn_of_card_le (s := Finset.range (q ^ 3)) (t := Finset.range (q ^ 3)) _
    (fun n hn => by simpa using hlt' n (by simpa using hn)) hinj le_rfl
  -- yet the last corner, behind them, has place six
  have h6 : pointIndexNat q (q, q, q) = 6 := by
    have : q ≠ 0 := by omega
    simp [pointIndexNat, pointIndexFromIJK, this]
  have h8 : 6 < q ^ 3 := by
    have : 2 ^ 3 ≤ q ^ 3 := Nat.pow_le_pow_left (by omega) 3
    omega
  obtain ⟨n, hn, hn6⟩ := hsurj (show 6 ∈ ((Finset.range (q ^ 3) : Finset ℕ) : Set ℕ) by simpa using h8)
  have hn' : n < q ^ 3 := by simpa using hn
  have hlast := latticeOrder_get (le_refl q) (le_refl q) (le_refl q)
  have heq := pointIndexNat_inj hq1 (List.mem_of_getElem? (hv n hn')) (List.mem_of_getElem? hlast)
    (by rw [h6]; exact hn6)
  have hvn := hv n hn'
  rw [heq] at hvn
  have := latticeOrder_inj hvn hlast
  have hbig : q ^ 3 ≤ q + (q + 1) * (q + (q + 1) * q) := by nlinarith [Nat.zero_le (q ^ 2), Nat.zero_le q]
  omega

example : reorderColumns (hexMap 3 1) (List.range 27) = none :=
  C148_read_high_order_fails 2 (by omega) _ rfl

/-- **C148 (what fails).** Were the order right, as it is for order three where the computed root of 64 is a little
below four, the reader would still apply the table in the wrong direction: the second point of the first
edge, column one, is read as column twelve. -/
theorem C148_read_direction_fails : ∃ t, reorderColumns (hexMap 3 1)
      ((List.range 64).map fun l => (writtenColumn 3 1 l).getD 0) = some t ∧ t 1 = some 12 := by
  have hs : (reorderColumns (hexMap 3 1)
      ((List.range 64).map fun l => (writtenColumn 3 1 l).getD 0)).isSome := by decide +kernel
  obtain ⟨t, ht⟩ := Option.isSome_iff_exists.mp hs
  refine ⟨t, ht, ?_⟩
  have hh : (reorderColumns (hexMap 3 1)
      ((List.range 64).map fun l => (writtenColumn 3 1 l).getD 0)).bind (fun m => m 1) = some 12 := by
    decide +kernel
  rw [ht] at hh
  exact hh

end Fierro
