import Verif.Model.StateFiles
import Verif.Props.DumpFiles
import Mathlib.Tactic.FieldSimp
import Mathlib.Tactic.Linarith
import Mathlib.Tactic.NormNum
import Mathlib.Tactic.LinearCombination
import Mathlib.Tactic.IntervalCases
import Verif.Props.OutputFields

/-!
# C122: state files and EnSight files
-/

namespace Fierro

/-! ### Specification -/

/-- Mean over the nodes of an element. -/
noncomputable def cornerMean (x : ℕ → ℕ → ℝ) (nodes : List ℕ) (d : ℕ) : ℝ :=
  (nodes.map fun g => x g d).sum / nodes.length

/-- A vector in space: the third component of a plane problem is zero. -/
def inSpace3 (dims : ℕ) (v : ℕ → ℝ) : ℝ × ℝ × ℝ := (v 0, v 1, if dims = 3 then v 2 else 0)

/-- Length of a vector. -/
noncomputable def length3 (v : ℝ × ℝ × ℝ) : ℝ := Real.sqrt (v.1 ^ 2 + v.2.1 ^ 2 + v.2.2 ^ 2)

/-- Distance from the axis. -/
noncomputable def length2 (v : ℝ × ℝ × ℝ) : ℝ := Real.sqrt (v.1 ^ 2 + v.2.1 ^ 2)

/-- `(m, s)` is the last material point that lies in element `e`, materials in order. -/
def LastPoint (st : OutState ℝ) (e m s : ℕ) : Prop :=
  m < st.numMats ∧ s < st.numMatElems m ∧ st.elem m s = e ∧
    ∀ m' < st.numMats, ∀ s' < st.numMatElems m', st.elem m' s' = e → m' < m ∨ m' = m ∧ s' ≤ s

/-! ### Rows -/

theorem nodeSums_eq (dims : ℕ) (x : ℕ → ℕ → ℝ) (nodes : List ℕ) :
    nodeSums dims x nodes = ((nodes.map fun g => x g 0).sum, (nodes.map fun g => x g 1).sum,
      if dims = 3 then (nodes.map fun g => x g 2).sum else 0) := by
  unfold nodeSums
  have h : ∀ (l : List ℕ) (a : ℝ × ℝ × ℝ), (dims ≠ 3 → a.2.2 = 0) →
      l.foldl (fun a g => (a.1 + x g 0, a.2.1 + x g 1, if dims = 3 then a.2.2 + x g 2 else 0)) a
        = (a.1 + (l.map fun g => x g 0).sum, a.2.1 + (l.map fun g => x g 1).sum,
          if dims = 3 then a.2.2 + (l.map fun g => x g 2).sum else 0) := by
    intro l
    induction l with
    | nil =>
      rintro ⟨a, b, c⟩ hc
      by_cases hd : dims = 3
      · simp [hd]
      · simp only [hd, if_false]
        simp [show c = 0 from hc hd]
    | cons g l ih =>
      intro a ha
      rw [List.foldl_cons, ih _ (by intro hd; simp [hd])]
      by_cases hd : dims = 3
      · simp [hd, add_assoc]
      · simp [hd, add_assoc]
  rw [h nodes (0, 0, 0) (fun _ => rfl)]
  simp

theorem stateCentre_eq (dims : ℕ) (x : ℕ → ℕ → ℝ) (nodes : List ℕ) :
    stateCentre dims x nodes = inSpace3 dims (cornerMean x nodes) := by
  unfold stateCentre inSpace3 cornerMean
  rw [nodeSums_eq]
  by_cases hd : dims = 3 <;> simp [hd]

/-- **C122.** The state file of the material points: a line for each point, materials in order, with the centre of its
element, the distances of the centre from the axis and from the origin, and the state of the point. -/
theorem C122_material_rows (st : OutState ℝ) (nodesOf : ℕ → List ℕ) :
    stateElemRows st nodesOf = (List.range st.numMats).flatMap fun m => (List.range (st.numMatElems m)).map fun s =>
      let c := inSpace3 st.dims (cornerMean st.coords (nodesOf (st.elem m s)))
      [c.1, c.2.1, c.2.2, length2 c, length3 c, st.den m s, st.pres m s, st.sie m s, st.sspd m s, st.vol (st.elem m s),
        st.mass m s] := by
  unfold stateElemRows
  congr 1
  funext m
  congr 1
  funext s
  unfold stateElemRow
  simp only [stateCentre_eq, length2, length3, pow_two]

/-- **C122.** The state file of the nodes: position, distances, velocity and speed of each node; the last column is
the size of the part of the velocity that is not radial in the plane, `|x v_y - y v_x| / r`. -/
theorem C122_node_rows (st : OutState ℝ) (g : ℕ) :
    (stateNodeRows st).length = st.numNodes ∧
    (stateNodeRow st g).1 = (let x := inSpace3 st.dims (st.coords g); let v := inSpace3 st.dims (st.vel g)
      [x.1, x.2.1, x.2.2, length2 x, length3 x, v.1, v.2.1, v.2.2, length3 v]) ∧
    ((st.coords g 0 ≠ 0 ∨ st.coords g 1 ≠ 0) → (stateNodeRow st g).2 =
      some (|st.coords g 0 * st.vel g 1 - st.coords g 1 * st.vel g 0| / length2 (inSpace3 st.dims (st.coords g)))) := by
  refine ⟨by simp [stateNodeRows], ?_, ?_⟩
  · unfold stateNodeRow
    simp only [inSpace3, length2, length3, pow_two]
  · intro h0
    unfold stateNodeRow
    simp only [inSpace3, length2]
    set x := st.coords g 0
    set y := st.coords g 1
    set vx := st.vel g 0
    set vy := st.vel g 1
    have hpos : 0 < x * x + y * y := by
      rcases h0 with h | h
      · have := mul_self_pos.2 h
        have := mul_self_nonneg y
        linarith
      · have := mul_self_pos.2 h
        have := mul_self_nonneg x
        linarith
    obtain ⟨r, hr⟩ : ∃ r, r = Real.sqrt (x * x + y * y) := ⟨_, rfl⟩
    have hr0 : 0 < r := hr ▸ Real.sqrt_pos.2 hpos
    have hr2 : r ^ 2 = x * x + y * y := by rw [hr]; exact Real.sq_sqrt hpos.le
    rw [← hr, if_neg hr0.ne', pow_two, pow_two, ← hr]
    congr 1
    have hsq : (vx - x / r * (vx * (x / r) + vy * (y / r))) * (vx - x / r * (vx * (x / r) + vy * (y / r))) +
        (vy - y / r * (vx * (x / r) + vy * (y / r))) * (vy - y / r * (vx * (x / r) + vy * (y / r)))
        = ((x * vy - y * vx) / r) ^ 2 := by
      have hx : vx - x / r * (vx * (x / r) + vy * (y / r)) = -(y * (x * vy - y * vx)) / r ^ 2 := by
        field_simp
        rw [hr2]
        ring
      have hy : vy - y / r * (vx * (x / r) + vy * (y / r)) = (x * (x * vy - y * vx)) / r ^ 2 := by
        field_simp
        rw [hr2]
        ring
      rw [hx, hy]
      field_simp
      rw [hr2]
      ring
    rw [hsq, Real.sqrt_sq_eq_abs, abs_div, abs_of_pos hr0]

/-- **C122 (what fails).** For a node on the axis the last column of its line is not a number. -/
theorem C122_axis_fails (st : OutState ℝ) (g : ℕ) (hx : st.coords g 0 = 0) (hy : st.coords g 1 = 0) :
    (stateNodeRow st g).2 = none := by
  unfold stateNodeRow
  simp [hx, hy]

/-! ### Fields of EnSight -/

/-- The value in the column of each quantity of a material point. -/
def pointColumn (st : OutState ℝ) (m s : ℕ) : ℕ → Option ℝ
  | 0 => some (st.den m s)
  | 1 => some (st.pres m s)
  | 2 => some (st.sie m s)
  | 4 => some (st.mass m s)
  | 5 => some (st.sspd m s)
  | 7 => some (m : ℝ)
  | 9 => some (if st.eroded m s then 1 else 0)
  | _ => none

theorem mem_enMatWrites {st : OutState ℝ} {m s e v : ℕ} {x : ℝ} :
    ((e, v), x) ∈ enMatWrites st m s ↔ st.elem m s = e ∧ pointColumn st m s v = some x := by
  unfold enMatWrites
  simp only [List.mem_cons, List.not_mem_nil, or_false, Prod.mk.injEq]
  constructor
  · rintro (⟨⟨rfl, rfl⟩, rfl⟩ | ⟨⟨rfl, rfl⟩, rfl⟩ | ⟨⟨rfl, rfl⟩, rfl⟩ | ⟨⟨rfl, rfl⟩, rfl⟩ | ⟨⟨rfl, rfl⟩, rfl⟩ |
      ⟨⟨rfl, rfl⟩, rfl⟩ | ⟨⟨rfl, rfl⟩, rfl⟩) <;> simp [pointColumn]
  · rintro ⟨rfl, h⟩
    unfold pointColumn at h
    split at h <;> simp at h <;> simp [h]

/-- A fold of writes in which the last writer of a cell is known. -/
theorem writeAll_last {κ α β : Type} [DecidableEq κ] (pre post : List β) (f : β → List (κ × α)) (b : β) (k : κ) (v : α)
    (m : Mem κ α) (h1 : (k, v) ∈ f b) (h2 : ∀ v', (k, v') ∈ f b → v' = v) (h3 : ∀ b' ∈ post, ∀ v', (k, v') ∉ f b') :
    Mem.writeAll ((pre ++ b :: post).flatMap f) m k = some v := by
  rw [List.flatMap_append, List.flatMap_cons, Mem.writeAll_append, Mem.writeAll_append,
    Mem.writeAll_of_notMem _ _ _ (by
      intro v' hv
      obtain ⟨b', hb', hv⟩ := List.mem_flatMap.1 hv
      exact h3 b' hb' v' hv)]
  exact Mem.writeAll_of_mem _ _ _ _ h1 h2

theorem range_split {n a : ℕ} (h : a < n) : List.range n = List.range a ++ a :: (List.range' (a + 1) (n - a - 1)) := by
  have h1 : List.range n = List.range a ++ List.range' a (n - a) := by
    obtain ⟨k, rfl⟩ : ∃ k, n = a + k := ⟨n - a, by omega⟩
    have := List.range'_append_1 (s := 0) (m := a) (n := k)
    rw [Nat.zero_add] at this
    rw [Nat.add_sub_cancel_left, List.range_eq_range', List.range_eq_range', this]
  rw [h1]
  obtain ⟨k, hk⟩ : ∃ k, n - a = k + 1 := ⟨n - a - 1, by omega⟩
  rw [hk, List.range'_succ]
  rfl

/-- **C122.** The scalar fields of EnSight: volume and speed of every element, and of the quantities of the materials
those of the last material point in the element (so the only one, where there is one). -/
theorem C122_scalars (st : OutState ℝ) (nodesOf : ℕ → List ℕ) (e : ℕ) (he : e < st.numElems) :
    (∀ m s v, LastPoint st e m s → v ∈ [0, 1, 2, 4, 5, 7, 9] →
      enScalars st nodesOf (e, v) = pointColumn st m s v) ∧
    enScalars st nodesOf (e, 3) = some (st.vol e) ∧
    (st.dims ≤ 3 → enScalars st nodesOf (e, 6) =
      some (Real.sqrt (∑ d ∈ Finset.range st.dims, (inSpace3 st.dims (cornerMean st.vel (nodesOf e)) |> fun v =>
        [v.1, v.2.1, v.2.2].getD d 0) ^ 2))) ∧
    enScalars st nodesOf (e, 8) = some 1 := by
  have hsecond : ∀ v x, v ∈ [3, 6, 8] → ((e, v), x) ∈ [((e, 3), st.vol e), ((e, 6), enSpeed st (nodesOf e)), ((e, 8), (1 : ℝ))] →
      enScalars st nodesOf (e, v) = some x := by
    intro v x hv hx
    unfold enScalars
    rw [Mem.writeAll_append]
    apply Mem.writeAll_of_mem
    · exact List.mem_flatMap.2 ⟨e, List.mem_range.2 he, hx⟩
    · intro x' hx'
      obtain ⟨e', _, hx'⟩ := List.mem_flatMap.1 hx'
      simp only [List.mem_cons, List.not_mem_nil, or_false, Prod.mk.injEq] at hx hx'
      rcases hx' with ⟨⟨rfl, rfl⟩, rfl⟩ | ⟨⟨rfl, rfl⟩, rfl⟩ | ⟨⟨rfl, rfl⟩, rfl⟩ <;> simpa using Eq.symm (by simpa using hx)
  refine ⟨?_, hsecond 3 _ (by simp) (by simp), ?_, hsecond 8 _ (by simp) (by simp)⟩
  · rintro m s v ⟨hm, hs, hel, hlast⟩ hv
    obtain ⟨x, hx⟩ : ∃ x, pointColumn st m s v = some x := by
      simp only [List.mem_cons, List.not_mem_nil, or_false] at hv
      rcases hv with rfl | rfl | rfl | rfl | rfl | rfl | rfl <;> exact ⟨_, rfl⟩
    rw [hx]
    unfold enScalars
    rw [Mem.writeAll_append, Mem.writeAll_of_notMem _ _ _ (by
      intro x' hx'
      obtain ⟨e', _, hx'⟩ := List.mem_flatMap.1 hx'
      simp only [List.mem_cons, List.not_mem_nil, or_false, Prod.mk.injEq] at hx' hv
      omega)]
    rw [range_split hm, List.flatMap_append, List.flatMap_cons, Mem.writeAll_append, Mem.writeAll_append,
      Mem.writeAll_of_notMem _ _ _ (by
        intro x' hx'
        obtain ⟨m', hm', hx'⟩ := List.mem_flatMap.1 hx'
        obtain ⟨s', hs', hx'⟩ := List.mem_flatMap.1 hx'
        rw [List.mem_range'_1] at hm'
        obtain ⟨hel', _⟩ := mem_enMatWrites.1 hx'
        have := hlast m' (by omega) s' (List.mem_range.1 hs') hel'
        omega)]
    rw [range_split hs]
    apply writeAll_last _ _ _ s
    · exact mem_enMatWrites.2 ⟨hel, hx⟩
    · intro x' hx'
      have := (mem_enMatWrites.1 hx').2
      rw [hx] at this
      injection this with this
      exact this.symm
    · intro s' hs' x' hx'
      rw [List.mem_range'_1] at hs'
      obtain ⟨hel', _⟩ := mem_enMatWrites.1 hx'
      have := hlast m hm s' (by omega) hel'
      omega
  · intro hd
    rw [hsecond 6 (enSpeed st (nodesOf e)) (by simp) (by simp)]
    unfold enSpeed
    rw [stateCentre_eq]
    congr 2
    interval_cases st.dims <;> simp [Finset.sum_range_succ, List.range_succ, pow_two]

/-- **C122 (what fails).** An element without material: the columns of the material quantities are never set, and
unspecified numbers are written. -/
theorem C122_bare_fails (st : OutState ℝ) (nodesOf : ℕ → List ℕ) (e v : ℕ)
    (hno : ∀ m < st.numMats, ∀ s < st.numMatElems m, st.elem m s ≠ e) (hv : v ∈ [0, 1, 2, 4, 5, 7, 9]) :
    enScalars st nodesOf (e, v) = none := by
  unfold enScalars
  rw [Mem.writeAll_of_notMem]
  · rfl
  · intro x hx
    rcases List.mem_append.1 hx with hx | hx
    · obtain ⟨m, hm, hx⟩ := List.mem_flatMap.1 hx
      obtain ⟨s, hs, hx⟩ := List.mem_flatMap.1 hx
      exact hno m (List.mem_range.1 hm) s (List.mem_range.1 hs) (mem_enMatWrites.1 hx).1
    · obtain ⟨e', _, hx⟩ := List.mem_flatMap.1 hx
      simp only [List.mem_cons, List.not_mem_nil, or_false, Prod.mk.injEq] at hx hv
      omega

/-- **C122 (what fails).** An element with two materials: the file shows the state of the material with the larger
number alone, so the mass in the file is not the mass of the element. -/
theorem C122_mixed_fails (st : OutState ℝ) (nodesOf : ℕ → List ℕ) (e m m' s s' : ℕ) (he : e < st.numElems)
    (h : LastPoint st e m s) (hm' : m' < m) (hs' : s' < st.numMatElems m') (he' : st.elem m' s' = e)
    (hpos : 0 < st.mass m' s') (hnn : ∀ m s, 0 ≤ st.mass m s) :
    ∃ x, enScalars st nodesOf (e, 4) = some x ∧ x < inElem st st.mass e := by
  refine ⟨st.mass m s, ((C122_scalars st nodesOf e he).1 m s 4 h (by simp)), ?_⟩
  obtain ⟨h1, h2, h3, _⟩ := h
  have hterm : ∀ m s, 0 ≤ (if st.elem m s = e then st.mass m s else 0) := by
    intro m s
    split
    · exact hnn m s
    · exact le_refl 0
  have hrow : ∀ m s, s < st.numMatElems m → st.elem m s = e →
      st.mass m s ≤ ∑ s ∈ Finset.range (st.numMatElems m), if st.elem m s = e then st.mass m s else 0 := by
    intro m s hs hel
    have := Finset.single_le_sum (f := fun s => if st.elem m s = e then st.mass m s else 0)
      (fun s _ => hterm m s) (Finset.mem_range.2 hs)
    simpa [hel] using this
  have htwo : (∑ m ∈ ({m, m'} : Finset ℕ), ∑ s ∈ Finset.range (st.numMatElems m),
      if st.elem m s = e then st.mass m s else 0) ≤ inElem st st.mass e := by
    unfold inElem
    apply Finset.sum_le_sum_of_subset_of_nonneg
    · intro a ha
      simp only [Finset.mem_insert, Finset.mem_singleton] at ha
      rw [Finset.mem_range]
      omega
    · intro a _ _
      exact Finset.sum_nonneg fun s _ => hterm a s
  rw [Finset.sum_pair (by omega)] at htwo
  have a1 := hrow m s h2 h3
  have a2 := hrow m' s' hs' he'
  linarith

/-- **C122.** The vector fields: position, velocity and the change of velocity over the last step, in plane problems
with third component zero. -/
theorem C122_vectors (st : OutState ℝ) (dt : ℝ) (hdt : dt ≠ 0) (g : ℕ) (hd : st.dims = 2 ∨ st.dims = 3) :
    ∀ c < 3, enVector st dt 0 g c = some ([(inSpace3 st.dims (st.coords g)).1, (inSpace3 st.dims (st.coords g)).2.1,
        (inSpace3 st.dims (st.coords g)).2.2].getD c 0) ∧
      enVector st dt 1 g c = some ([(inSpace3 st.dims (st.vel g)).1, (inSpace3 st.dims (st.vel g)).2.1,
        (inSpace3 st.dims (st.vel g)).2.2].getD c 0) ∧
      ∃ a, enVector st dt 2 g c = some a ∧ a * dt = [(inSpace3 st.dims fun d => st.vel g d - st.velN0 g d).1,
        (inSpace3 st.dims fun d => st.vel g d - st.velN0 g d).2.1,
        (inSpace3 st.dims fun d => st.vel g d - st.velN0 g d).2.2].getD c 0 := by
  intro c hc
  rcases hd with hd | hd <;> interval_cases c <;> simp [enVector, inSpace3, hd, hdt]

/-! ### Files -/

section
variable {G : Type}

theorem stateName_inj {b b' : Bool} {t t' : List Char} (h : stateName b t = stateName b' t') : b = b' ∧ t = t' := by
  cases b <;> cases b'
  · exact ⟨rfl, List.append_cancel_right (List.append_cancel_left (List.append_cancel_left h))⟩
  · exact absurd h (by simp [stateName])
  · exact absurd h (by simp [stateName])
  · exact ⟨rfl, List.append_cancel_right (List.append_cancel_left (List.append_cancel_left h))⟩

/-- **C122.** The state files of a dump are there after the run unless a later dump, of the same or of a later solver,
has a time that is printed the same. -/
theorem C122_state_files (fmt : ℝ → List Char) (runs : List (List (StateDump G))) (fs : Mem (List Char) (StateFile G))
    (pre post : List (StateDump G)) (d : StateDump G) (hd : runs.flatten = pre ++ d :: post)
    (hpost : ∀ d' ∈ post, fmt d'.time ≠ fmt d.time) :
    stateRun fmt runs fs (stateName false (fmt d.time)) = some (.elems (stateElemRows d.st d.nodesOf)) ∧
    stateRun fmt runs fs (stateName true (fmt d.time)) = some (.nodes (stateNodeRows d.st)) := by
  have hrun : stateRun fmt runs fs = Mem.writeAll ((pre ++ d :: post).flatMap (stateOps fmt)) fs := by
    unfold stateRun
    rw [← hd, List.flatten_eq_flatMap, List.flatMap_assoc]
    rfl
  have hmem : ∀ (d' : StateDump G) b t f, (stateName b t, f) ∈ stateOps fmt d' →
      t = fmt d'.time ∧ f = if b then .nodes (stateNodeRows d'.st) else .elems (stateElemRows d'.st d'.nodesOf) := by
    intro d' b t f h
    unfold stateOps at h
    simp only [List.mem_cons, List.not_mem_nil, or_false, Prod.mk.injEq] at h
    rcases h with ⟨h, rfl⟩ | ⟨h, rfl⟩ <;> obtain ⟨rfl, rfl⟩ := stateName_inj h <;> simp
  rw [hrun]
  constructor
  · apply writeAll_last _ _ _ d
    · simp [stateOps]
    · intro v hv
      simpa using (hmem _ _ _ _ hv).2
    · intro d' hd' v hv
      exact hpost d' hd' (hmem _ _ _ _ hv).1.symm
  · apply writeAll_last _ _ _ d
    · simp [stateOps]
    · intro v hv
      simpa using (hmem _ _ _ _ hv).2
    · intro d' hd' v hv
      exact hpost d' hd' (hmem _ _ _ _ hv).1.symm

/-- **C122.** The names of the state files: after a dump whose time is printed as `t` the material points stand in
`state/mat_pt_state_t_<t>.txt`, the nodes in `state/node_state_t_<t>.txt`. -/
theorem C122_state_file_names (fmt : ℝ → List Char) (pre : List (List (StateDump G))) (d : StateDump G)
    (fs : Mem (List Char) (StateFile G)) :
    stateRun fmt (pre ++ [[d]]) fs ("state/mat_pt_state_t_".toList ++ fmt d.time ++ ".txt".toList) =
      some (.elems (stateElemRows d.st d.nodesOf)) ∧
    stateRun fmt (pre ++ [[d]]) fs ("state/node_state_t_".toList ++ fmt d.time ++ ".txt".toList) =
      some (.nodes (stateNodeRows d.st)) := by
  have h := C122_state_files fmt (pre ++ [[d]]) fs pre.flatten [] d (by simp) (by simp)
  have e1 : stateName false (fmt d.time) = "state/mat_pt_state_t_".toList ++ fmt d.time ++ ".txt".toList := by
    simp [stateName]
  have e2 : stateName true (fmt d.time) = "state/node_state_t_".toList ++ fmt d.time ++ ".txt".toList := by
    simp [stateName]
  rw [← e1, ← e2]
  exact h

/-- **C122 (what fails).** Two dumps whose times are printed the same (five digits): only the second is left, under
either name. -/
theorem C122_same_time_fails (fmt : ℝ → List Char) (d d' : StateDump G) (fs : Mem (List Char) (StateFile G))
    (h : fmt d.time = fmt d'.time) :
    stateRun fmt [[d], [d']] fs (stateName false (fmt d.time)) = some (.elems (stateElemRows d'.st d'.nodesOf)) ∧
    stateRun fmt [[d], [d']] fs (stateName true (fmt d.time)) = some (.nodes (stateNodeRows d'.st)) := by
  rw [h]
  exact C122_state_files fmt _ fs [d] [] d' (by simp) (by simp)

theorem enName_inj {k k' : ℕ} {e e' : List Char} (h : enName k e = enName k' e') : k = k' ∧ e = e' := by
  have h := List.append_cancel_left h
  injection h with _ h
  obtain ⟨h1, h2⟩ := dot_split (fmtPad_noDot k) (fmtPad_noDot k') h
  exact ⟨fmtPad_inj h1, h2⟩

theorem enName_ne {k : ℕ} {e : List Char} : enName k e ≠ enCase := by
  intro h
  simp [enName, enCase] at h

/-- Files of one EnSight dump by their extensions. -/
def EnContent (d : StateDump G) (ext : List Char) (f : StateFile G) : Prop :=
  (ext = enGeo ∧ f = .geo d.geo) ∨
  (∃ v, enScalarNames[v]? = some ext ∧
    f = .scalar ((List.range d.st.numElems).map fun e => enScalars d.st d.nodesOf (e, v))) ∨
  (∃ v, enVectorNames[v]? = some ext ∧ f = .vector ((List.range 3).flatMap fun c =>
    (List.range d.st.numNodes).map fun g => enVector d.st d.dt v g c))

theorem enNames_nodup : (enGeo :: (enScalarNames ++ enVectorNames)).Nodup := by decide

theorem enContent_unique {d : StateDump G} {ext : List Char} {f f' : StateFile G} (h : EnContent d ext f)
    (h' : EnContent d ext f') : f = f' := by
  have hnd := enNames_nodup
  rw [List.nodup_cons, List.nodup_append] at hnd
  obtain ⟨hg, hs, hv, hsv⟩ := hnd
  have hidx : ∀ {l : List (List Char)} (_ : l.Nodup) {v v' : ℕ}, l[v]? = some ext → l[v']? = some ext → v = v' := by
    intro l hl v v' h1 h2
    obtain ⟨h1', _⟩ := List.getElem?_eq_some_iff.1 h1
    exact (List.getElem?_inj h1' hl).1 (h1.trans h2.symm)
  rcases h with ⟨rfl, rfl⟩ | ⟨v, h, rfl⟩ | ⟨v, h, rfl⟩
  · rcases h' with ⟨_, rfl⟩ | ⟨v, h, rfl⟩ | ⟨v, h, rfl⟩
    · rfl
    · exact absurd (List.mem_append_left _ (List.mem_of_getElem? h)) hg
    · exact absurd (List.mem_append_right _ (List.mem_of_getElem? h)) hg
  · rcases h' with ⟨rfl, rfl⟩ | ⟨v', h', rfl⟩ | ⟨v', h', rfl⟩
    · exact absurd (List.mem_append_left _ (List.mem_of_getElem? h)) hg
    · rw [hidx hs h h']
    · exact absurd rfl (hsv _ (List.mem_of_getElem? h) _ (List.mem_of_getElem? h'))
  · rcases h' with ⟨rfl, rfl⟩ | ⟨v', h', rfl⟩ | ⟨v', h', rfl⟩
    · exact absurd (List.mem_append_right _ (List.mem_of_getElem? h)) hg
    · exact absurd rfl (hsv _ (List.mem_of_getElem? h') _ (List.mem_of_getElem? h))
    · rw [hidx hv h h']

theorem mem_enOps {k k' : ℕ} {times : List ℝ} {d : StateDump G} {ext : List Char} {f : StateFile G} :
    (enName k' ext, f) ∈ enOps k times d ↔ k' = k ∧ EnContent d ext f := by
  unfold enOps EnContent
  simp only [List.cons_append, List.mem_cons, List.mem_append, List.mem_map, Prod.mk.injEq, List.not_mem_nil, or_false]
  constructor
  · rintro (⟨h, rfl⟩ | (⟨⟨n, v⟩, hn, h, rfl⟩ | ⟨⟨n, v⟩, hn, h, rfl⟩) | ⟨h, _⟩)
    · obtain ⟨rfl, rfl⟩ := enName_inj h
      exact ⟨rfl, Or.inl ⟨rfl, rfl⟩⟩
    · obtain ⟨rfl, rfl⟩ := enName_inj h
      exact ⟨rfl, Or.inr (Or.inl ⟨v, List.mem_zipIdx_iff_getElem?.1 hn, rfl⟩)⟩
    · obtain ⟨rfl, rfl⟩ := enName_inj h
      exact ⟨rfl, Or.inr (Or.inr ⟨v, List.mem_zipIdx_iff_getElem?.1 hn, rfl⟩)⟩
    · exact absurd h enName_ne
  · rintro ⟨rfl, ⟨rfl, rfl⟩ | ⟨v, h, rfl⟩ | ⟨v, h, rfl⟩⟩
    · exact Or.inl ⟨rfl, rfl⟩
    · exact Or.inr (Or.inl (Or.inl ⟨(ext, v), List.mem_zipIdx_iff_getElem?.2 h, rfl, rfl⟩))
    · exact Or.inr (Or.inl (Or.inr ⟨(ext, v), List.mem_zipIdx_iff_getElem?.2 h, rfl, rfl⟩))

theorem mem_enSolver {k : ℕ} {ds : List (StateDump G)} {ext : List Char} {f : StateFile G} :
    (enName k ext, f) ∈ enSolver ds ↔ ∃ d, ds[k]? = some d ∧ EnContent d ext f := by
  unfold enSolver
  rw [List.mem_flatMap]
  constructor
  · rintro ⟨⟨d, j⟩, hd, h⟩
    obtain ⟨rfl, h⟩ := mem_enOps.1 h
    exact ⟨d, List.mem_zipIdx_iff_getElem?.1 hd, h⟩
  · rintro ⟨d, hd, h⟩
    exact ⟨(d, k), List.mem_zipIdx_iff_getElem?.2 hd, mem_enOps.2 ⟨rfl, h⟩⟩

theorem case_enSolver {ds : List (StateDump G)} (hne : ds ≠ []) (m : Mem (List Char) (StateFile G)) :
    Mem.writeAll (enSolver ds) m enCase = some (.series ds.length (ds.map fun d => d.time)) := by
  obtain ⟨init, d, rfl⟩ : ∃ init d, ds = init ++ [d] := ⟨_, _, (List.dropLast_append_getLast hne).symm⟩
  unfold enSolver
  rw [List.zipIdx_append, List.flatMap_append, Mem.writeAll_append]
  simp only [List.zipIdx_cons, List.zipIdx_nil, List.flatMap_cons, List.flatMap_nil, List.append_nil]
  apply Mem.writeAll_of_mem
  · unfold enOps
    rw [List.take_of_length_le (by simp)]
    simp
  · intro v hv
    unfold enOps at hv
    simp only [List.cons_append, List.mem_cons, List.mem_append, List.mem_map, Prod.mk.injEq, List.not_mem_nil,
      or_false] at hv
    rcases hv with ⟨h, rfl⟩ | (⟨x, hn, h, rfl⟩ | ⟨x, hn, h, rfl⟩) | ⟨_, rfl⟩
    · exact absurd h.symm enName_ne
    · exact absurd h enName_ne
    · exact absurd h enName_ne
    · rw [List.take_of_length_le (by simp)]
      simp

theorem case_notMem (f : StateFile G) : (enCase, f) ∉ enSolver (G := G) [] := by simp [enSolver]

/-- **C122.** EnSight: after the run, the files of number `k` are those of dump `k` of the last solver that made so
many dumps, and the case file lists the times of the last solver that made any.  (So with one solver all dumps are
there.)  The run is defined exactly if no solver makes more than 20000 dumps. -/
theorem C122_ensight_files (pre post : List (List (StateDump G))) (ds : List (StateDump G))
    (fs : Mem (List Char) (StateFile G)) (hroom : ∀ es ∈ pre ++ ds :: post, es.length ≤ 20000) :
    ∃ fs', enRun (pre ++ ds :: post) fs = some fs' ∧
      (∀ k d ext f, ds[k]? = some d → (∀ es ∈ post, es.length ≤ k) → EnContent d ext f → fs' (enName k ext) = some f) ∧
      (ds ≠ [] → (∀ es ∈ post, es = []) →
        fs' enCase = some (.series ds.length (ds.map fun d => d.time))) := by
  refine ⟨_, if_neg ?_, ?_, ?_⟩
  · rintro ⟨es, hes, hlen⟩
    exact absurd (hroom es hes) (by unfold maxDumps at hlen; omega)
  · intro k d ext f hd hpost hf
    apply writeAll_last _ _ _ ds
    · exact mem_enSolver.2 ⟨d, hd, hf⟩
    · intro f' hf'
      obtain ⟨d', hd', hf'⟩ := mem_enSolver.1 hf'
      rw [hd] at hd'
      injection hd' with hd'
      subst hd'
      exact enContent_unique hf' hf
    · intro es hes f' hf'
      obtain ⟨d', hd', _⟩ := mem_enSolver.1 hf'
      rw [List.getElem?_eq_none (hpost es hes)] at hd'
      exact absurd hd' (by simp)
  · intro hne hpost
    rw [List.flatMap_append, List.flatMap_cons, Mem.writeAll_append, Mem.writeAll_append,
      Mem.writeAll_of_notMem _ _ _ (by
        intro v hv
        obtain ⟨es, hes, hv⟩ := List.mem_flatMap.1 hv
        rw [hpost es hes] at hv
        exact case_notMem v hv)]
    exact case_enSolver hne _

/-- **C122 (what fails).** The names of EnSight files do not contain the solver: of two solvers, the dumps of the
second replace those of the first. -/
theorem C122_ensight_chain_fails (ds es : List (StateDump G)) (fs : Mem (List Char) (StateFile G)) (hne : es ≠ [])
    (h1 : ds.length ≤ es.length) (h2 : es.length ≤ 20000) :
    ∃ fs', enRun [ds, es] fs = some fs' ∧
      (∀ k d e, ds[k]? = some d → es[k]? = some e → fs' (enName k enGeo) = some (.geo e.geo)) ∧
      fs' enCase = some (.series es.length (es.map fun d => d.time)) := by
  obtain ⟨fs', a, b, c⟩ := C122_ensight_files [ds] [] es fs (by
    intro x hx
    simp only [List.cons_append, List.nil_append, List.mem_cons, List.not_mem_nil, or_false] at hx
    rcases hx with rfl | rfl <;> omega)
  exact ⟨fs', a, fun k _ e _ he => b k e enGeo _ he (by simp) (Or.inl ⟨rfl, rfl⟩), c hne (by simp)⟩

end

/-! ### Cases -/

/-- Two elements of two materials, the second element mixed; a third element is empty. -/
noncomputable def sampleState : OutState ℝ where
  numMats := 2
  numElems := 3
  numNodes := 2
  dims := 2
  numMatElems := fun m => if m = 0 then 2 else 1
  elem := fun m s => if m = 0 then s else 1
  den := fun m s => 2 + m + s
  pres := fun _ _ => 5
  sie := fun _ _ => 7
  sspd := fun _ _ => 1
  mass := fun m s => 1 + m + s
  volfrac := fun _ _ => 1
  geoVolfrac := fun _ _ => 1
  conductivity := fun _ _ => 0
  specificHeat := fun _ _ => 0
  eroded := fun _ _ => false
  stress := fun _ _ _ _ => 0
  vol := fun e => 1 + e
  div := fun _ => 0
  levelSet := fun _ => 0
  velGrad := fun _ _ _ => 0
  nodeMass := fun g => g
  temp := fun g => g
  coords := fun g d => g + d
  vel := fun g _ => g
  velN0 := fun _ _ => 0
  gradLevelSet := fun _ _ => 0

example : LastPoint sampleState 0 0 0 ∧ LastPoint sampleState 1 1 0 ∧ (1 < sampleState.numElems) ∧
    (∀ m < sampleState.numMats, ∀ s < sampleState.numMatElems m, sampleState.elem m s ≠ 2) ∧
    sampleState.elem 0 1 = 1 ∧ (0 : ℝ) < sampleState.mass 0 1 := by
  refine ⟨⟨by decide, by decide, rfl, ?_⟩, ⟨by decide, by decide, rfl, ?_⟩, by decide, ?_, rfl, ?_⟩
  · intro m hm s hs h
    have hm : m < 2 := hm
    interval_cases m
    · have h : s = 0 := h
      exact Or.inr ⟨rfl, by omega⟩
    · have h : 1 = 0 := h
      omega
  · intro m hm s hs h
    have hm : m < 2 := hm
    interval_cases m
    · exact Or.inl (by omega)
    · have hs : s < 1 := hs
      exact Or.inr ⟨rfl, by omega⟩
  · intro m hm s hs
    have hm : m < 2 := hm
    interval_cases m
    · have hs : s < 2 := hs
      show s ≠ 2
      omega
    · show 1 ≠ 2
      decide
  · show (0 : ℝ) < 1 + ((0 : ℕ) : ℝ) + ((1 : ℕ) : ℝ)
    norm_num

example : sampleState.coords 1 0 ≠ 0 ∧ (sampleState.dims = 2 ∨ sampleState.dims = 3) := by
  refine ⟨?_, Or.inl rfl⟩
  show ((1 : ℕ) : ℝ) + ((0 : ℕ) : ℝ) ≠ 0
  norm_num

/-- A dump of a sample state at a time. -/
noncomputable def stateDumpAt (t : ℝ) : StateDump ℕ := ⟨t, 1, 0, sampleState, fun _ => [0, 1]⟩

example : ∃ fmt : ℝ → List Char, fmt (stateDumpAt 1).time ≠ fmt (stateDumpAt 0).time ∧
    [[stateDumpAt 0, stateDumpAt 1], [stateDumpAt 1]].flatten = [] ++ stateDumpAt 0 :: [stateDumpAt 1, stateDumpAt 1] ∧
    ∀ es ∈ [[stateDumpAt 0, stateDumpAt 1], [stateDumpAt 1]], es.length ≤ 20000 := by
  refine ⟨fun t => if t = 0 then ['0'] else ['1'], ?_, rfl, ?_⟩
  · simp [stateDumpAt]
  · intro es hes
    simp only [List.mem_cons, List.not_mem_nil, or_false] at hes
    rcases hes with rfl | rfl <;> simp

end Fierro
