import Verif.Model.OldMesh
import Verif.Props.Output
import Verif.Proofs.BoxMesh

/-!
# C148: the mesh builder of the previous version
-/

namespace Fierro

/-! ### What the two loops leave -/

theorem mem_oldPointWrites {g : OldGrid} {n : ℕ} {v : Fin 3 → ℝ} :
    (n, v) ∈ oldPointWrites g ↔ ∃ i j k, i < g.points 0 ∧ j < g.points 1 ∧ k < g.points 2 ∧
      n = getId i j k (g.points 0) (g.points 1) ∧
      v = ![g.lower 0 + (i : ℝ) * g.delta 0, g.lower 1 + (j : ℝ) * g.delta 1,
            if g.dims = 3 then g.lower 2 + (k : ℝ) * g.delta 2 else 0] := by
  simp only [oldPointWrites, List.mem_flatMap, List.mem_range, List.mem_map, Prod.mk.injEq]
  constructor
  · rintro ⟨k, hk, j, hj, i, hi, h1, h2⟩
    exact ⟨i, j, k, hi, hj, hk, h1.symm, h2.symm⟩
  · rintro ⟨i, j, k, hi, hj, hk, h1, h2⟩
    exact ⟨k, hk, j, hj, i, hi, h1.symm, h2.symm⟩

theorem oldPoint_get (g : OldGrid) {i j k : ℕ} (hi : i < g.points 0) (hj : j < g.points 1)
    (hk : k < g.points 2) :
    Mem.writeAll (oldPointWrites g) Mem.empty (getId i j k (g.points 0) (g.points 1)) =
      some ![g.lower 0 + (i : ℝ) * g.delta 0, g.lower 1 + (j : ℝ) * g.delta 1,
            if g.dims = 3 then g.lower 2 + (k : ℝ) * g.delta 2 else 0] := by
  apply Mem.writeAll_of_mem
  · rw [mem_oldPointWrites]
    exact ⟨i, j, k, hi, hj, hk, rfl, rfl⟩
  · intro v hv
    rw [mem_oldPointWrites] at hv
    obtain ⟨i', j', k', hi', hj', hk', he, h⟩ := hv
    obtain ⟨rfl, rfl, rfl⟩ := getIdN_inj hi hi' hj hj' he
    exact h

theorem oldPoint_none (g : OldGrid) (n : ℕ) :
    Mem.writeAll (oldPointWrites g) Mem.empty n = none ↔ g.points 0 * g.points 1 * g.points 2 ≤ n := by
  constructor
  · intro h
    by_contra hn
    obtain ⟨i, j, k, hi, hj, hk, rfl⟩ := getIdN_surj (not_le.mp hn)
    rw [oldPoint_get g hi hj hk] at h
    cases h
  · intro h
    rw [Mem.writeAll_of_notMem]
    · rfl
    · intro v hv
      rw [mem_oldPointWrites] at hv
      obtain ⟨i, j, k, hi, hj, hk, rfl, -⟩ := hv
      exact absurd (getIdN_lt hi hj hk) (not_lt.mpr h)

/-- The order across the third direction. -/
def OldGrid.depth (g : OldGrid) : ℕ := if g.dims < 3 then 0 else g.p

theorem oldElem_get (g : OldGrid) (i j k a b c : ℕ) (ha : a ≤ g.p) (hb : b ≤ g.p) (hc : c ≤ g.depth) :
    (oldElem g i j k)[a + (g.p + 1) * (b + (g.p + 1) * c)]? =
      some (getId ((i * g.p + a) % g.points 0) ((j * g.p + b) % g.points 1) ((k * g.p + c) % g.points 2)
        (g.points 0) (g.points 1)) := by
  unfold oldElem
  change ((List.range (g.depth + 1)).flatMap _)[_]? = _
  have e : a + (g.p + 1) * (b + (g.p + 1) * c) = (a + (g.p + 1) * b) + ((g.p + 1) * (g.p + 1)) * c := by
    ring
  rw [e, flatMap_getElem? _ _ ((g.p + 1) * (g.p + 1)) (by
      intro kc _
      rw [flatMap_length _ _ (g.p + 1) (by simp)]; simp) _ _ (radixN_lt (by omega) (by omega)),
    List.getElem?_range (by omega : c < g.depth + 1)]
  simp only [Option.bind_some]
  rw [flatMap_getElem? _ _ (g.p + 1) (by simp) _ _ (by omega),
    List.getElem?_range (by omega : b < g.p + 1)]
  simp only [Option.bind_some]
  rw [List.getElem?_map, List.getElem?_range (by omega : a < g.p + 1)]
  simp only [Option.map_some]
  rw [Nat.add_comm a, Nat.add_comm b, Nat.add_comm c]

theorem oldConn_get (g : OldGrid) {i j k a b c : ℕ} (hi : i < g.elems 0) (hj : j < g.elems 1)
    (hk : k < g.elems 2) (ha : a ≤ g.p) (hb : b ≤ g.p) (hc : c ≤ g.depth) :
    Mem.writeAll (oldElemWrites g) Mem.empty
        (i + g.elems 0 * (j + g.elems 1 * k), a + (g.p + 1) * (b + (g.p + 1) * c)) =
      some (getId ((i * g.p + a) % g.points 0) ((j * g.p + b) % g.points 1) ((k * g.p + c) % g.points 2)
        (g.points 0) (g.points 1)) := by
  have hm : ∀ e l n, ((e, l), n) ∈ oldElemWrites g ↔ ∃ i j k, i < g.elems 0 ∧ j < g.elems 1 ∧
      k < g.elems 2 ∧ e = getId i j k (g.elems 0) (g.elems 1) ∧ (oldElem g i j k)[l]? = some n := by
    intro e l n
    simp only [oldElemWrites, List.mem_flatMap, List.mem_range, List.mem_map, Prod.mk.injEq,
      Prod.exists, mem_zipIdx_iff]
    constructor
    · rintro ⟨k, hk, j, hj, i, hi, n', l', h, ⟨he, rfl⟩, rfl⟩
      exact ⟨i, j, k, hi, hj, hk, he.symm, h⟩
    · rintro ⟨i, j, k, hi, hj, hk, he, h⟩
      exact ⟨k, hk, j, hj, i, hi, n, l, h, ⟨he.symm, rfl⟩, rfl⟩
  rw [← getIdN_eq]
  apply Mem.writeAll_of_mem
  · rw [hm]
    exact ⟨i, j, k, hi, hj, hk, rfl, oldElem_get g i j k a b c ha hb hc⟩
  · intro v hv
    rw [hm] at hv
    obtain ⟨i', j', k', hi', hj', hk', he, h⟩ := hv
    obtain ⟨rfl, rfl, rfl⟩ := getIdN_inj hi hi' hj hj' he
    rw [oldElem_get g i j k a b c ha hb hc] at h
    simpa using h.symm

/-! ### What is accepted -/

/-- Specification: an input with one value per direction, two or three directions, order at least one. -/
def OldInput.Fits (a : OldInput) : Prop :=
  (a.origin.length = 2 ∨ a.origin.length = 3) ∧ a.length.length = a.origin.length ∧
    a.elems.length = a.origin.length ∧ 1 ≤ a.p

theorem oldType_some {dims p : ℕ} (h : dims = 2 ∨ dims = 3) :
    (∃ t, oldType dims p = some t) ↔ 1 ≤ p := by
  unfold oldType
  rcases h with rfl | rfl <;> split_ifs <;> simp <;> omega

theorem deriveBox_fits {a : OldInput} (h : a.Fits) : deriveBox a = .ok
    { dims := a.origin.length, origin := fun d => a.origin.getD d 0, elems := fun d => a.elems.getD d 1,
      p := a.p,
      points := fun d => if d.val < a.origin.length then a.p * a.elems.getD d 1 + 1 else 1,
      lower := 0, upper := fun d => a.length.getD d 0,
      delta := oldDelta a.p (fun d => a.elems.getD d 1) 0 (fun d => a.length.getD d 0) } := by
  obtain ⟨h1, h2, h3, h4⟩ := h
  unfold deriveBox
  rw [if_neg (by omega), if_neg (by omega), if_neg (by simp; omega)]

/-- **C148.** A box is built exactly from an input with one value per direction, in two or three
dimensions, of order at least one. -/
theorem C148_box_accepted (a : OldInput) : (∃ m, buildOldBox a = .ok m) ↔ a.Fits := by
  constructor
  · rintro ⟨m, hm⟩
    unfold buildOldBox deriveBox at hm
    split_ifs at hm with h1 h2 h3
    · cases hm
    · cases hm
    · refine ⟨by omega, h3.2, by omega, ?_⟩
      by_contra hp
      have ht : oldType a.origin.length a.p = none := by
        unfold oldType
        rw [if_neg (by omega), if_neg (by omega)]
      simp only [bind, Except.bind, buildRect, ht] at hm
      cases hm
    · cases hm
  · intro h
    obtain ⟨t, ht⟩ := (oldType_some h.1).mpr h.2.2.2
    unfold buildOldBox
    rw [deriveBox_fits h]
    simp only [bind, Except.bind, buildRect, ht]
    exact ⟨_, rfl⟩

/-- **C148 (a finding).** An input with four or more lengths and as many numbers of elements is not
refused: entries behind the end of an array are read before the sizes are checked. Nothing else leads there. -/
theorem C148_four_values_fails (a : OldInput) :
    buildOldBox a = .error .undefined ↔ 4 ≤ a.length.length ∧ 4 ≤ a.elems.length := by
  constructor
  · intro hm
    unfold buildOldBox deriveBox at hm
    split_ifs at hm with h1 h2 h3
    · exact h1
    · cases hm
    · simp only [bind, Except.bind, buildRect] at hm
      cases ht : oldType a.origin.length a.p <;> rw [ht] at hm <;> cases hm
    · cases hm
  · intro h
    unfold buildOldBox deriveBox
    rw [if_pos h]
    rfl

/-- **C148.** Of the other inputs, one with an origin of other than two or three values is refused for its
dimensions, and then one with lists of different lengths for its sizes. -/
theorem C148_box_refused (a : OldInput) (h : ¬(4 ≤ a.length.length ∧ 4 ≤ a.elems.length)) :
    (buildOldBox a = .error .dims ↔ a.origin.length ≠ 2 ∧ a.origin.length ≠ 3) ∧
      (buildOldBox a = .error .sizes ↔ (a.origin.length = 2 ∨ a.origin.length = 3) ∧
        ¬(a.length.length = a.elems.length ∧ a.length.length = a.origin.length)) := by
  unfold buildOldBox deriveBox
  rw [if_neg h]
  by_cases h2 : a.origin.length ≠ 2 ∧ a.origin.length ≠ 3
  · rw [if_pos h2]
    refine ⟨⟨fun _ => h2, fun _ => rfl⟩, ⟨fun hc => (by cases hc), fun hc => by omega⟩⟩
  · rw [if_neg h2]
    by_cases h3 : ¬(a.length.length = a.elems.length ∧ a.length.length = a.origin.length)
    · rw [if_pos h3]
      exact ⟨⟨fun hc => (by cases hc), fun hc => absurd hc h2⟩, ⟨fun _ => ⟨by omega, h3⟩, fun _ => rfl⟩⟩
    · rw [if_neg h3]
      simp only [bind, Except.bind, buildRect]
      constructor
      · constructor
        · intro hm; cases ht : oldType a.origin.length a.p <;> rw [ht] at hm <;> cases hm
        · intro hc; exact absurd hc h2
      · constructor
        · intro hm; cases ht : oldType a.origin.length a.p <;> rw [ht] at hm <;> cases hm
        · intro hc; exact absurd hc.2 h3

example : (⟨[0, 1], [2, 3], [4, 5], 2⟩ : OldInput).Fits := ⟨Or.inl rfl, rfl, rfl, by decide⟩

/-! ### Boxes -/

/-- Elements in direction `d`; one in a direction that is not given. -/
def OldInput.n (a : OldInput) (d : Fin 3) : ℕ := a.elems.getD d 1

/-- Order in the third direction. -/
def OldInput.depth (a : OldInput) : ℕ := if a.origin.length = 2 then 0 else a.p

/-- Number of points: along every direction of the box one more than order times elements. -/
def OldInput.total (a : OldInput) : ℕ :=
  (a.p * a.n 0 + 1) * (a.p * a.n 1 + 1) * (if a.origin.length = 2 then 1 else a.p * a.n 2 + 1)

/-- The derived values of a box. -/
noncomputable def OldInput.grid (a : OldInput) : OldGrid :=
    { dims := a.origin.length, origin := fun d => a.origin.getD d 0, elems := a.n, p := a.p,
      points := fun d => if d.val < a.origin.length then a.p * a.n d + 1 else 1,
      lower := 0, upper := fun d => a.length.getD d 0,
      delta := oldDelta a.p a.n 0 (fun d => a.length.getD d 0) }

theorem buildOldBox_fits {a : OldInput} (h : a.Fits) : ∃ t, oldType a.origin.length a.p = some t ∧
    buildOldBox a = .ok { points := fun n => (Mem.writeAll (oldPointWrites a.grid) Mem.empty n).map
                            (translatePoint a.grid.origin),
                          conn := Mem.writeAll (oldElemWrites a.grid) Mem.empty, type := t } := by
  obtain ⟨t, ht⟩ := (oldType_some h.1).mpr h.2.2.2
  refine ⟨t, ht, ?_⟩
  unfold buildOldBox
  rw [deriveBox_fits h]
  simp only [bind, Except.bind, buildRect, ht]
  rfl

theorem OldInput.grid_depth {a : OldInput} (h : a.Fits) : a.grid.depth = a.depth := by
  unfold OldGrid.depth OldInput.depth OldInput.grid
  rcases h.1 with h | h <;> simp [h]

theorem OldInput.grid_points {a : OldInput} (h : a.Fits) :
    a.grid.points 0 = a.p * a.n 0 + 1 ∧ a.grid.points 1 = a.p * a.n 1 + 1 ∧
      a.grid.points 2 = if a.origin.length = 2 then 1 else a.p * a.n 2 + 1 := by
  unfold OldInput.grid
  rcases h.1 with h | h <;> simp [h]

theorem corner_lt {p n i a : ℕ} (hi : i < n) (ha : a ≤ p) : i * p + a < p * n + 1 := by
  have : (i + 1) * p ≤ n * p := Nat.mul_le_mul_right p hi
  nlinarith

theorem OldInput.third_lt {a : OldInput} (h : a.Fits) {k c : ℕ} (hk : k < a.n 2) (hc : c ≤ a.depth) :
    k * a.p + c < a.grid.points 2 := by
  rw [(OldInput.grid_points h).2.2]
  unfold OldInput.depth at hc
  rcases h.1 with h2 | h2
  · rw [if_pos h2] at hc ⊢
    have : a.n 2 = 1 := by
      unfold OldInput.n
      have := h.2.2.1
      rw [h2] at this
      rw [List.getD_eq_getElem?_getD, List.getElem?_eq_none (by rw [this]; decide)]
      rfl
    have : k = 0 := by omega
    subst this
    omega
  · rw [if_neg (by omega)] at hc ⊢
    exact corner_lt hk hc

/-- **C148.** In a box the local point `(u, v, w)` of element `(i, j, k)` is an existing point, and it
lies at the origin plus the lattice position times the width of a step, in every direction of the
input. -/
theorem C148_box_corner (a : OldInput) (m : OldMesh) (h : buildOldBox a = .ok m) {i j k u v w : ℕ}
    (hi : i < a.n 0) (hj : j < a.n 1) (hk : k < a.n 2) (hu : u ≤ a.p) (hv : v ≤ a.p) (hw : w ≤ a.depth) :
    ∃ g x, m.conn (i + a.n 0 * (j + a.n 1 * k), u + (a.p + 1) * (v + (a.p + 1) * w)) = some g ∧
      g < a.total ∧ m.points g = some x ∧
      ∀ d : Fin 3, d.val < a.origin.length →
        x d = a.origin.getD d 0 +
          ((![i * a.p + u, j * a.p + v, k * a.p + w] d : ℕ) : ℝ) * (a.length.getD d 0 / (a.p * a.n d : ℕ)) := by
  have hf := (C148_box_accepted a).mp ⟨m, h⟩
  obtain ⟨t, -, hb⟩ := buildOldBox_fits hf
  rw [h] at hb
  cases hb
  have hp := OldInput.grid_points hf
  have l0 : i * a.p + u < a.grid.points 0 := by rw [hp.1]; exact corner_lt hi hu
  have l1 : j * a.p + v < a.grid.points 1 := by rw [hp.2.1]; exact corner_lt hj hv
  have l2 := OldInput.third_lt hf hk hw
  have hc := oldConn_get a.grid (i := i) (j := j) (k := k) (a := u) (b := v) (c := w) hi hj hk hu hv
    (by rw [OldInput.grid_depth hf]; exact hw)
  change _ = some (getId ((i * a.p + u) % _) ((j * a.p + v) % _) ((k * a.p + w) % _) _ _) at hc
  rw [Nat.mod_eq_of_lt l0, Nat.mod_eq_of_lt l1, Nat.mod_eq_of_lt l2] at hc
  refine ⟨_, translatePoint a.grid.origin ![a.grid.lower 0 + ((i * a.p + u : ℕ) : ℝ) * a.grid.delta 0,
    a.grid.lower 1 + ((j * a.p + v : ℕ) : ℝ) * a.grid.delta 1,
    if a.grid.dims = 3 then a.grid.lower 2 + ((k * a.p + w : ℕ) : ℝ) * a.grid.delta 2 else 0], hc, ?_, ?_, ?_⟩
  · have := getIdN_lt l0 l1 l2
    rw [hp.2.2] at this
    unfold OldInput.total
    rw [← hp.1, ← hp.2.1]
    exact this
  · dsimp only
    rw [oldPoint_get a.grid l0 l1 l2, Option.map_some]
  · intro d hd
    unfold translatePoint OldInput.grid oldDelta
    fin_cases d
    · simp; ring
    · simp; ring
    · have h3 : a.origin.length = 3 := by
        have := hf.1
        simp at hd
        omega
      simp [h3]; ring

/-- **C148.** Two places of the connectivity of a box hold the same point exactly if they are the same
place of the lattice: neighbours share the points between them, and nothing else is shared. -/
theorem C148_box_conforming (a : OldInput) (m : OldMesh) (h : buildOldBox a = .ok m)
    {i j k u v w i' j' k' u' v' w' : ℕ}
    (hi : i < a.n 0) (hj : j < a.n 1) (hk : k < a.n 2) (hu : u ≤ a.p) (hv : v ≤ a.p) (hw : w ≤ a.depth)
    (hi' : i' < a.n 0) (hj' : j' < a.n 1) (hk' : k' < a.n 2) (hu' : u' ≤ a.p) (hv' : v' ≤ a.p)
    (hw' : w' ≤ a.depth) :
    m.conn (i + a.n 0 * (j + a.n 1 * k), u + (a.p + 1) * (v + (a.p + 1) * w)) =
      m.conn (i' + a.n 0 * (j' + a.n 1 * k'), u' + (a.p + 1) * (v' + (a.p + 1) * w')) ↔
    i * a.p + u = i' * a.p + u' ∧ j * a.p + v = j' * a.p + v' ∧ k * a.p + w = k' * a.p + w' := by
  have hf := (C148_box_accepted a).mp ⟨m, h⟩
  obtain ⟨t, -, hb⟩ := buildOldBox_fits hf
  rw [h] at hb
  cases hb
  have hp := OldInput.grid_points hf
  have hc := fun (i j k u v w : ℕ) (hi : i < a.n 0) (hj : j < a.n 1) (hk : k < a.n 2) (hu : u ≤ a.p)
      (hv : v ≤ a.p) (hw : w ≤ a.depth) =>
    (oldConn_get a.grid (i := i) (j := j) (k := k) (a := u) (b := v) (c := w) hi hj hk hu hv
    (by rw [OldInput.grid_depth hf]; exact hw))
  have key := fun (i j k u v w : ℕ) (hi : i < a.n 0) (hj : j < a.n 1) (hk : k < a.n 2) (hu : u ≤ a.p)
      (hv : v ≤ a.p) (hw : w ≤ a.depth) => show Mem.writeAll (oldElemWrites a.grid) Mem.empty
        (i + a.n 0 * (j + a.n 1 * k), u + (a.p + 1) * (v + (a.p + 1) * w)) =
        some (getId (i * a.p + u) (j * a.p + v) (k * a.p + w) (a.grid.points 0) (a.grid.points 1)) by
    have := hc i j k u v w hi hj hk hu hv hw
    change _ = some (getId ((i * a.p + u) % _) ((j * a.p + v) % _) ((k * a.p + w) % _) _ _) at this
    rw [Nat.mod_eq_of_lt (by rw [hp.1]; exact corner_lt hi hu),
      Nat.mod_eq_of_lt (by rw [hp.2.1]; exact corner_lt hj hv),
      Nat.mod_eq_of_lt (OldInput.third_lt hf hk hw)] at this
    exact this
  dsimp only
  rw [key i j k u v w hi hj hk hu hv hw, key i' j' k' u' v' w' hi' hj' hk' hu' hv' hw', Option.some.injEq]
  constructor
  · intro e
    exact getIdN_inj (by rw [hp.1]; exact corner_lt hi hu) (by rw [hp.1]; exact corner_lt hi' hu')
      (by rw [hp.2.1]; exact corner_lt hj hv) (by rw [hp.2.1]; exact corner_lt hj' hv') e
  · rintro ⟨e1, e2, e3⟩
    rw [e1, e2, e3]

/-- **C148.** A box has exactly the points of the lattice: a number has a position exactly if it is below
their count. -/
theorem C148_box_points (a : OldInput) (m : OldMesh) (h : buildOldBox a = .ok m) (n : ℕ) :
    (∃ x, m.points n = some x) ↔ n < a.total := by
  have hf := (C148_box_accepted a).mp ⟨m, h⟩
  obtain ⟨t, -, hb⟩ := buildOldBox_fits hf
  rw [h] at hb
  cases hb
  have hp := OldInput.grid_points hf
  have ht : a.total = a.grid.points 0 * a.grid.points 1 * a.grid.points 2 := by
    rw [hp.1, hp.2.1, hp.2.2]; rfl
  rw [ht, ← not_le, ← oldPoint_none a.grid n]
  dsimp only
  cases Mem.writeAll (oldPointWrites a.grid) Mem.empty n <;> simp

/-- **C148.** The type of the cells: 9 and 12 for quadrilaterals and hexahedra of order one, 70 and 72 for
those of higher order. -/
theorem C148_type (a : OldInput) (m : OldMesh) (h : buildOldBox a = .ok m) :
    m.type = if a.origin.length = 2 then (if a.p = 1 then 9 else 70) else (if a.p = 1 then 12 else 72) := by
  have hf := (C148_box_accepted a).mp ⟨m, h⟩
  obtain ⟨t, ht, hb⟩ := buildOldBox_fits hf
  rw [h] at hb
  cases hb
  have := hf.2.2.2
  unfold oldType at ht
  rcases hf.1 with h2 | h2 <;> rw [h2] at ht ⊢ <;> split_ifs at ht ⊢ <;> simp_all

end Fierro
