import Verif.Model.Output
import Verif.Proofs.Memory
import Verif.Props.MeshIndex
import Mathlib.Data.List.Range
import Mathlib.Data.List.Induction
import Mathlib.Tactic.IntervalCases

/-!
# C20–C23: mesh and graphics files
-/

set_option linter.unusedSectionVars false

namespace Fierro

/-! ### C20 -/

section
variable {K : Type}

theorem tagCount_pos {elems : List (List ℕ)} {g : ℕ} :
    0 < tagCount elems g ↔ ∃ ns ∈ elems, g ∈ ns := by
  have h1 : ∀ (ns : List ℕ) (c : ℕ),
      ns.foldl (fun c n => if n = g then c + 1 else c) c = c + ns.count g := by
    intro ns
    induction ns with
    | nil => simp
    | cons a ns ih =>
      intro c
      rw [List.foldl_cons, ih, List.count_cons]
      by_cases h : a = g <;> simp [h]; omega
  have h2 : ∀ c, elems.foldl (fun c ns =>
      ns.foldl (fun c n => if n = g then c + 1 else c) c) c = c + (elems.map (List.count g)).sum := by
    induction elems with
    | nil => simp
    | cons ns elems ih =>
      intro c
      rw [List.foldl_cons, h1, ih, List.map_cons, List.sum_cons]; omega
  unfold tagCount
  rw [h2, Nat.zero_add]
  constructor
  · intro h
    by_contra hc
    push Not at hc
    have : (elems.map (List.count g)).sum = 0 := by
      rw [List.sum_eq_zero_iff]
      intro x hx
      obtain ⟨ns, hns, rfl⟩ := List.mem_map.mp hx
      exact List.count_eq_zero.mpr (hc ns hns)
    omega
  · rintro ⟨ns, hns, hg⟩
    have h3 := List.count_pos_iff.mpr hg
    have h4 := List.single_le_sum (l := elems.map (List.count g)) (fun _ _ => Nat.zero_le _) _
      (List.mem_map.mpr ⟨ns, hns, rfl⟩)
    omega

/-- The loop over the nodes `0 .. n-1`. -/
theorem compact_inv (dims : ℕ) (hd : dims = 2 ∨ dims = 3) (tag : ℕ → ℕ) (x : ℕ → ℕ → K) (n : ℕ) :
    let c := compactLoop dims n tag x
    (∀ g, (∃ r, c.access g = some r) ↔ g < n ∧ 0 < tag g) ∧
    (∀ g r, c.access g = some r → r < c.next ∧ ∀ d < dims, c.coords (r, d) = some (x g d)) ∧
    (∀ g g' r r', c.access g = some r → c.access g' = some r' → g < g' → r < r') ∧
    (∀ r < c.next, ∃ g, c.access g = some r) ∧
    (∀ r d, c.coords (r, d) ≠ none → r < c.next ∧ d < dims) := by
  induction n with
  | zero =>
    simp [compactLoop, Mem.empty]
  | succ n ih =>
    obtain ⟨i1, i2, i3, i4, i5⟩ := ih
    have hstep : compactLoop dims (n + 1) tag x =
        Compaction.step dims tag x (compactLoop dims n tag x) n := by
      simp [compactLoop, List.range_succ]
    rw [hstep]
    set c := compactLoop dims n tag x with hc
    unfold Compaction.step
    by_cases ht : 0 < tag n
    · rw [if_pos ht]
      have hacc : ∀ g, (c.access.write (n, c.next)) g = if g = n then some c.next else c.access g := by
        intro g; by_cases h : g = n <;> simp [Mem.write, h]
      have hcoord : ∀ r d, Mem.writeAll ([((c.next, 0), x n 0), ((c.next, 1), x n 1)] ++
          if dims = 3 then [((c.next, 2), x n 2)] else []) c.coords (r, d) =
          if r = c.next ∧ d < dims then some (x n d) else c.coords (r, d) := by
        intro r d
        by_cases hr : r = c.next
        · subst hr
          rcases hd with rfl | rfl
          · by_cases h0 : d = 0
            · subst h0; simp [Mem.writeAll, Mem.write, Function.update]
            · by_cases h1 : d = 1
              · subst h1; simp [Mem.writeAll, Mem.write, Function.update]
              · have : ¬ d < 2 := by omega
                simp [Mem.writeAll, Mem.write, Function.update, h0, h1, this]
          · by_cases h0 : d = 0
            · subst h0; simp [Mem.writeAll, Mem.write, Function.update]
            · by_cases h1 : d = 1
              · subst h1; simp [Mem.writeAll, Mem.write, Function.update]
              · by_cases h2 : d = 2
                · subst h2; simp [Mem.writeAll, Mem.write, Function.update]
                · have : ¬ d < 3 := by omega
                  simp [Mem.writeAll, Mem.write, Function.update, h0, h1, h2, this]
        · rcases hd with rfl | rfl <;>
            simp [Mem.writeAll, Mem.write, Function.update, hr]
      have hlt : ∀ g r, c.access g = some r → g < n := fun g r h => ((i1 g).mp ⟨r, h⟩).1
      dsimp only
      refine ⟨fun g => ?_, fun g r h => ?_, fun g g' r r' h h' hgg => ?_, fun r hr => ?_,
        fun r d h => ?_⟩
      · rw [hacc]
        split_ifs with h
        · subst h; simp [ht]
        · rw [i1]
          constructor
          · rintro ⟨a, b⟩; exact ⟨by omega, b⟩
          · rintro ⟨a, b⟩; exact ⟨by omega, b⟩
      · rw [hacc] at h
        split_ifs at h with hg
        · cases h
          subst hg
          exact ⟨Nat.lt_succ_self _, fun d hdd => by rw [hcoord, if_pos ⟨rfl, hdd⟩]⟩
        · obtain ⟨a, b⟩ := i2 g r h
          exact ⟨by omega, fun d hdd => by rw [hcoord, if_neg (by omega)]; exact b d hdd⟩
      · rw [hacc] at h h'
        split_ifs at h with hg <;> split_ifs at h' with hg'
        · omega
        · have := hlt _ _ h'; omega
        · cases h'; exact (i2 g r h).1
        · exact i3 g g' r r' h h' hgg
      · rcases Nat.lt_succ_iff_lt_or_eq.mp hr with h | rfl
        · obtain ⟨g, hg⟩ := i4 r h
          refine ⟨g, ?_⟩
          rw [hacc, if_neg (by have := hlt g r hg; omega)]; exact hg
        · exact ⟨n, by rw [hacc, if_pos rfl]⟩
      · rw [hcoord] at h
        split_ifs at h with hr
        · exact ⟨by rw [hr.1]; exact Nat.lt_succ_self _, hr.2⟩
        · have := i5 r d h; exact ⟨by omega, this.2⟩
    · rw [if_neg ht]
      refine ⟨fun g => ?_, i2, i3, i4, i5⟩
      rw [i1]
      constructor
      · rintro ⟨a, b⟩; exact ⟨by omega, b⟩
      · rintro ⟨a, b⟩
        refine ⟨?_, b⟩
        rcases Nat.lt_succ_iff_lt_or_eq.mp a with h | rfl
        · exact h
        · exact absurd b ht

/-- **C20**, faithful: in the file of a material, local node `l` of each of its elements refers to
a written node, and that node has the coordinates of the mesh node it stands for. -/
theorem C20_connectivity_faithful (dims : ℕ) (hd : dims = 2 ∨ dims = 3) (numNodes : ℕ)
    (elems : List (List ℕ)) (x : ℕ → ℕ → K) (hmesh : ∀ ns ∈ elems, ∀ g ∈ ns, g < numNodes)
    (s l g : ℕ) (ns : List ℕ) (hs : elems[s]? = some ns) (hl : ns[l]? = some g) :
    ∃ r, partNode (buildPart dims numNodes elems x) elems s l = some r ∧
      r < (buildPart dims numNodes elems x).next ∧
      ∀ d < dims, (buildPart dims numNodes elems x).coords (r, d) = some (x g d) := by
  obtain ⟨i1, i2, -⟩ := compact_inv dims hd (tagCount elems) x numNodes
  have hmem : ns ∈ elems := List.mem_of_getElem? hs
  have hg : g ∈ ns := List.mem_of_getElem? hl
  obtain ⟨r, hr⟩ := (i1 g).mpr ⟨hmesh ns hmem g hg, tagCount_pos.mpr ⟨ns, hmem, hg⟩⟩
  refine ⟨r, ?_, i2 g r hr⟩
  simp only [partNode, hs, hl, Option.bind_some]
  exact hr

/-- **C20**, renumbering: distinct mesh nodes get distinct numbers in the same order. -/
theorem C20_order_preserving (dims : ℕ) (hd : dims = 2 ∨ dims = 3) (numNodes : ℕ)
    (elems : List (List ℕ)) (x : ℕ → ℕ → K) {s l s' l' g g' r r' : ℕ} {ns ns' : List ℕ}
    (hs : elems[s]? = some ns) (hl : ns[l]? = some g)
    (hs' : elems[s']? = some ns') (hl' : ns'[l']? = some g')
    (hr : partNode (buildPart dims numNodes elems x) elems s l = some r)
    (hr' : partNode (buildPart dims numNodes elems x) elems s' l' = some r') :
    (g < g' ↔ r < r') ∧ (g = g' ↔ r = r') := by
  obtain ⟨-, -, i3, -⟩ := compact_inv dims hd (tagCount elems) x numNodes
  simp only [partNode, hs, hl, Option.bind_some] at hr
  simp only [partNode, hs', hl', Option.bind_some] at hr'
  have a : g < g' → r < r' := i3 g g' r r' hr hr'
  have b : g' < g → r' < r := i3 g' g r' r hr' hr
  have c : g = g' → r = r' := by rintro rfl; rw [hr] at hr'; exact Option.some_inj.mp hr'
  constructor
  · constructor
    · exact a
    · intro h; by_contra hc
      rcases Nat.lt_or_eq_of_le (not_lt.mp hc) with h1 | h1
      · have := b h1; omega
      · have := c h1.symm; omega
  · constructor
    · exact c
    · intro h; by_contra hc
      rcases Nat.lt_or_gt_of_ne hc with h1 | h1
      · have := a h1; omega
      · have := b h1; omega

/-- **C20**, onto: the nodes written are exactly those of the elements of the material. -/
theorem C20_only_used_nodes (dims : ℕ) (hd : dims = 2 ∨ dims = 3) (numNodes : ℕ)
    (elems : List (List ℕ)) (x : ℕ → ℕ → K) (r : ℕ)
    (hr : r < (buildPart dims numNodes elems x).next) :
    ∃ s l, partNode (buildPart dims numNodes elems x) elems s l = some r := by
  obtain ⟨i1, -, -, i4, -⟩ := compact_inv dims hd (tagCount elems) x numNodes
  obtain ⟨g, hg⟩ := i4 r hr
  obtain ⟨-, ht⟩ := (i1 g).mp ⟨r, hg⟩
  obtain ⟨ns, hns, hgn⟩ := tagCount_pos.mp ht
  obtain ⟨s, hs⟩ := List.getElem?_of_mem hns
  obtain ⟨l, hl⟩ := List.getElem?_of_mem hgn
  refine ⟨s, l, ?_⟩
  simp only [partNode, hs, hl, Option.bind_some]
  exact hg

/-- The arrays of the part are written within their bounds. -/
theorem C20_in_bounds (dims : ℕ) (hd : dims = 2 ∨ dims = 3) (numNodes : ℕ)
    (elems : List (List ℕ)) (x : ℕ → ℕ → K) :
    (buildPart dims numNodes elems x).next ≤ numNodes ∧
    ∀ r d, (buildPart dims numNodes elems x).coords (r, d) ≠ none →
      r < (buildPart dims numNodes elems x).next ∧ d < dims := by
  obtain ⟨-, -, -, -, i5⟩ := compact_inv dims hd (tagCount elems) x numNodes
  refine ⟨?_, i5⟩
  unfold buildPart
  clear i5
  generalize tagCount elems = tag
  induction numNodes with
  | zero => simp [compactLoop]
  | succ n ih =>
    have : compactLoop dims (n + 1) tag x =
        Compaction.step dims tag x (compactLoop dims n tag x) n := by
      simp [compactLoop, List.range_succ]
    rw [this]
    unfold Compaction.step
    by_cases ht : 0 < tag n
    · rw [if_pos ht]; exact Nat.succ_le_succ ih
    · rw [if_neg ht]; exact ih.trans (Nat.le_succ _)

example : partNode (buildPart (K := ℕ) 3 9 [[8, 3], [3, 5]] fun g d => 10 * g + d)
    [[8, 3], [3, 5]] 0 0 = some 2 := by decide
example : (buildPart (K := ℕ) 3 9 [[8, 3], [3, 5]] fun g d => 10 * g + d).coords (2, 1) = some 81 := by
  decide

end

/-! ### C21 -/

theorem getElem?_flatMap_const {α : Type} (E L : ℕ) (f : ℕ → ℕ → α) {e l : ℕ} (he : e < E)
    (hl : l < L) :
    ((List.range E).flatMap fun e => (List.range L).map (f e))[e * L + l]? = some (f e l) := by
  induction E generalizing e f with
  | zero => omega
  | succ E ih =>
    rw [List.range_succ_eq_map, List.flatMap_cons, List.flatMap_map]
    cases e with
    | zero =>
      rw [Nat.zero_mul, Nat.zero_add, List.getElem?_append_left (by simpa using hl)]
      simp [hl]
    | succ e =>
      rw [List.getElem?_append_right (by simp; nlinarith)]
      have h := ih (fun e => f (e + 1)) (e := e) (by omega)
      have e1 : (e + 1) * L + l - ((List.range L).map (f 0)).length = e * L + l := by
        simp only [List.length_map, List.length_range, Nat.succ_mul]; omega
      rw [e1]
      exact h

section
variable {K : Type} [Field K]

/-- **C21**, connectivity in 3D: reading back what was written gives every local node again. -/
theorem C21_ensight_connectivity_3d (prt : K → K) (m : PlainMesh K) (e l : ℕ) (he : e < m.numElems)
    (hl : l < 8) : readEnsightNode 3 (writeEnsight 3 prt m) e l = some (m.nodes e l) := by
  have hp : ensightPerm l < nodesPerElem 3 := by
    unfold nodesPerElem; interval_cases l <;> decide
  have hpp : ensightPerm (ensightPerm l) = l := by interval_cases l <;> rfl
  unfold readEnsightNode writeEnsight
  dsimp only
  rw [getElem?_flatMap_const _ _ (fun e l => m.nodes e (writePerm 3 l) + 1) he hp]
  simp [writePerm, hpp]

/-- Place of the corner `(i,j,k)` in the format's `hexa8`: both faces counter-clockwise
(specification). -/
def hexa8Place (i j k : ℕ) : ℕ := 4 * k + if j = 0 then i else 3 - i

/-- **C21**, format: the elements written in 3D are in the node order of the file format, so that
other tools see the same hexahedra: the corner `(i,j,k)`, local node `i + 2j + 4k`, stands at its
place, numbered from one. -/
theorem C21_ensight_format_3d (prt : K → K) (m : PlainMesh K) (e i j k : ℕ) (he : e < m.numElems)
    (hi : i < 2) (hj : j < 2) (hk : k < 2) :
    (writeEnsight 3 prt m).connTokens[8 * e + hexa8Place i j k]?
      = some (m.nodes e (i + 2 * j + 4 * k) + 1) := by
  have hp : hexa8Place i j k < nodesPerElem 3 := by
    unfold nodesPerElem hexa8Place; interval_cases i <;> interval_cases j <;> interval_cases k <;> decide
  have hpp : ensightPerm (hexa8Place i j k) = i + 2 * j + 4 * k := by
    interval_cases i <;> interval_cases j <;> interval_cases k <;> rfl
  unfold writeEnsight
  dsimp only
  rw [mul_comm 8 e]
  have := getElem?_flatMap_const _ _ (fun e l => m.nodes e (writePerm 3 l) + 1) he hp
  simp only [writePerm, if_true, hpp] at this
  exact this

/-- **C21**, coordinates: each coordinate comes back as the printed value times the scale. -/
theorem C21_ensight_coords (dims : ℕ) (prt : K → K) (m : PlainMesh K) (scale : ℕ → K)
    (g d : ℕ) (hg : g < m.numNodes) (hd : d < dims) (hdims : dims ≤ 3) :
    readEnsightCoord (writeEnsight dims prt m) scale g d = some (prt (m.coords g d) * scale d) := by
  have hd3 : d < 3 := by omega
  unfold readEnsightCoord writeEnsight
  dsimp only
  interval_cases d
  · rw [List.append_assoc, List.getElem?_append_left (by simpa using hg)]
    simp [hg]
  · rw [List.append_assoc, List.getElem?_append_right (by simp),
      List.getElem?_append_left (by simpa using hg)]
    simp [hg]
  · have : dims = 3 := by omega
    subst this
    rw [List.getElem?_append_right (by simp; omega)]
    simp only [List.length_append, List.length_map, List.length_range]
    rw [show 2 * m.numNodes + g - (m.numNodes + m.numNodes) = g by omega]
    simp [hg]

/-- **C21** fails in 2D: the reader permutes the nodes of quadrilaterals, the writer does not;
the square `0,1,2,3` comes back as the bow tie `0,1,3,2`. -/
theorem C21_ensight_2d_fails : ∃ m : PlainMesh ℚ, m.numElems = 1 ∧
    (List.range 4).map (fun l => some (m.nodes 0 l)) = [some 0, some 1, some 2, some 3] ∧
    (List.range 4).map (fun l => readEnsightNode 2 (writeEnsight 2 id m) 0 l) =
      [some 0, some 1, some 3, some 2] :=
  ⟨⟨4, 1, fun _ _ => 0, fun _ l => l⟩, rfl, rfl, by decide +kernel⟩

end

/-! ### C22 -/

theorem mem_latticeOrder {p : ℕ} {v : ℕ × ℕ × ℕ} :
    v ∈ latticeOrder p ↔ v.1 ≤ p ∧ v.2.1 ≤ p ∧ v.2.2 ≤ p := by
  obtain ⟨i, j, k⟩ := v
  simp only [latticeOrder, List.mem_flatMap, List.mem_map, List.mem_range, Prod.mk.injEq]
  constructor
  · rintro ⟨k', hk, j', hj, i', hi, rfl, rfl, rfl⟩; omega
  · rintro ⟨hi, hj, hk⟩
    exact ⟨k, by omega, j, by omega, i, by omega, rfl, rfl, rfl⟩

theorem pointIndexNat_inj {p : ℕ} (hp : 1 ≤ p) {v w : ℕ × ℕ × ℕ} (hv : v ∈ latticeOrder p)
    (hw : w ∈ latticeOrder p) (h : pointIndexNat p v = pointIndexNat p w) : v = w := by
  have hb := C02_pointIndex_bijOn (p : ℤ) p p (by exact_mod_cast hp) (by exact_mod_cast hp)
    (by exact_mod_cast hp)
  rw [mem_latticeOrder] at hv hw
  have hv' : ((v.1 : ℤ), (v.2.1 : ℤ), (v.2.2 : ℤ)) ∈
      {q : ℤ × ℤ × ℤ | (0 ≤ q.1 ∧ q.1 ≤ p) ∧ (0 ≤ q.2.1 ∧ q.2.1 ≤ p) ∧ (0 ≤ q.2.2 ∧ q.2.2 ≤ p)} := by
    simp only [Set.mem_ofPred_eq]; omega
  have hw' : ((w.1 : ℤ), (w.2.1 : ℤ), (w.2.2 : ℤ)) ∈
      {q : ℤ × ℤ × ℤ | (0 ≤ q.1 ∧ q.1 ≤ p) ∧ (0 ≤ q.2.1 ∧ q.2.1 ≤ p) ∧ (0 ≤ q.2.2 ∧ q.2.2 ≤ p)} := by
    simp only [Set.mem_ofPred_eq]; omega
  have h1 := (Set.mem_Ico.mp (hb.mapsTo hv')).1
  have h2 := (Set.mem_Ico.mp (hb.mapsTo hw')).1
  have h3 : pointIndexFromIJK (v.1 : ℤ) v.2.1 v.2.2 p p p = pointIndexFromIJK (w.1 : ℤ) w.2.1 w.2.2 p p p := by
    unfold pointIndexNat at h
    dsimp only at h1 h2
    omega
  have h4 := hb.injOn hv' hw' h3
  simp only [Prod.mk.injEq, Nat.cast_inj] at h4
  exact Prod.ext h4.1 (Prod.ext h4.2.1 h4.2.2)

theorem pointIndexNat_surj {p : ℕ} (hp : 1 ≤ p) {l : ℕ} (hl : l < (p + 1) * (p + 1) * (p + 1)) :
    ∃ v ∈ latticeOrder p, pointIndexNat p v = l := by
  have hb := C02_pointIndex_bijOn (p : ℤ) p p (by exact_mod_cast hp) (by exact_mod_cast hp)
    (by exact_mod_cast hp)
  obtain ⟨⟨i, j, k⟩, ⟨⟨h1, h2⟩, ⟨h3, h4⟩, h5, h6⟩, h7⟩ := hb.surjOn
    (show (l : ℤ) ∈ Set.Ico 0 (((p : ℤ) + 1) * (p + 1) * (p + 1)) from
      ⟨by omega, by exact_mod_cast hl⟩)
  dsimp only at h1 h2 h3 h4 h5 h6 h7
  obtain ⟨i, rfl⟩ := Int.eq_ofNat_of_zero_le h1
  obtain ⟨j, rfl⟩ := Int.eq_ofNat_of_zero_le h3
  obtain ⟨k, rfl⟩ := Int.eq_ofNat_of_zero_le h5
  refine ⟨(i, j, k), mem_latticeOrder.mpr ⟨by exact_mod_cast h2, by exact_mod_cast h4,
    by exact_mod_cast h6⟩, ?_⟩
  unfold pointIndexNat
  dsimp only
  rw [h7]; simp

/-- **C22**: for every order, writing the hexahedra of a mesh to a vtu file and reading them back
gives the same local nodes. -/
theorem C22_vtu_roundtrip (p : ℕ) (hp : 1 ≤ p) (nodes : ℕ → ℕ) (l : ℕ)
    (hl : l < (p + 1) * (p + 1) * (p + 1)) :
    readVtuNode p (writeVtuType p) (writeVtuElem p nodes) l = some (nodes l) := by
  unfold readVtuNode writeVtuType writeVtuElem
  by_cases h1 : p > 1
  · simp only [if_pos h1, show ¬ (72 = 9 ∨ 72 = 11) by omega, if_false, show ¬ (72 = 12) by omega,
      if_true]
    obtain ⟨v, hv, rfl⟩ := pointIndexNat_surj hp hl
    obtain ⟨c, hc⟩ := List.getElem?_of_mem hv
    have hconv : convertPn p (pointIndexNat p v) = some c := by
      apply Mem.writeAll_of_mem
      · exact List.mem_map.mpr ⟨(v, c), List.mem_zipIdx_iff_getElem?.mpr hc, rfl⟩
      · intro c' hc'
        obtain ⟨⟨w, c₀⟩, hw, he⟩ := List.mem_map.mp hc'
        have hw' := List.mem_zipIdx_iff_getElem?.mp hw
        simp only [Prod.mk.injEq] at he
        obtain ⟨he1, rfl⟩ := he
        have : w = v := pointIndexNat_inj hp (List.mem_of_getElem? hw') hv he1
        subst this
        have hnd : (latticeOrder p).Nodup := by
          unfold latticeOrder
          rw [List.nodup_flatMap]
          refine ⟨fun k _ => ?_, ?_⟩
          · rw [List.nodup_flatMap]
            refine ⟨fun j _ => List.nodup_range.map fun a b h => by simpa using h, ?_⟩
            refine List.nodup_range.imp fun {a b} hab => ?_
            rw [Function.onFun, List.disjoint_left]
            intro q h1 h2
            simp only [List.mem_map] at h1 h2
            obtain ⟨_, _, rfl⟩ := h1
            obtain ⟨_, _, h3⟩ := h2
            simp only [Prod.mk.injEq] at h3
            exact hab h3.2.1.symm
          · refine List.nodup_range.imp fun {a b} hab => ?_
            rw [Function.onFun, List.disjoint_left]
            intro q h1 h2
            simp only [List.mem_flatMap, List.mem_map] at h1 h2
            obtain ⟨_, _, _, _, rfl⟩ := h1
            obtain ⟨_, _, _, _, h3⟩ := h2
            simp only [Prod.mk.injEq] at h3
            exact hab h3.2.2.symm
        have hl1 : c < (latticeOrder p).length := (List.getElem?_eq_some_iff.mp hc).1
        exact ((List.getElem?_inj hl1 hnd).mp (hc.trans hw'.symm)).symm
    rw [hconv, Option.bind_some, List.getElem?_map, hc]
    rfl
  · have : p = 1 := by omega
    subst this
    have hl8 : l < 8 := hl
    simp only [gt_iff_lt, lt_irrefl, if_false, or_true, if_true]
    simp [hl8]

/-- The connectivity that the VTK file format prescribes for a Lagrange hexahedron (type 72): the
node at lattice position `(i,j,k)` stands at place `PointIndexFromIJK(i,j,k)`.  `nodes` is in the
order of the code's mesh builders (`i` fastest). -/
def VtkConforming (p : ℕ) (nodes : ℕ → ℕ) (conn : List ℕ) : Prop :=
  ∀ i j k, i ≤ p → j ≤ p → k ≤ p →
    conn[pointIndexNat p (i, j, k)]? = some (nodes (i + (p + 1) * (j + (p + 1) * k)))

/-- The files of high-order meshes do not follow the VTK format: already for order 2 other tools
see scrambled elements. -/
theorem C22_vtk_order_fails : ¬ VtkConforming 2 id (writeVtuElem 2 id) := by
  intro h
  have := h 1 1 0 (by omega) (by omega) (by omega)
  revert this
  decide +kernel

example : readVtuNode 2 72 (writeVtuElem 2 fun l => 100 + l) 26 = some 126 :=
  C22_vtu_roundtrip 2 (by omega) _ 26 (by omega)

/-- Taking the numbers of an array out of a file: lines without the word are skipped, then all
numbers up to the closing line are returned. -/
theorem extractXml_spec {K : Type} (w : String) (pre : List (XmlLine K))
    (hpre : ∀ ws, .tag ws ∈ pre → w ∉ ws) (ws ws' : List String) (hw : w ∈ ws)
    (data : List (List (VtuTok K))) (post : List (XmlLine K)) :
    extractXml w (pre ++ .tag ws :: (data.map XmlLine.values ++ .tag ws' :: post)) =
      some (data.flatten, post) := by
  have hc : ∀ data : List (List (VtuTok K)),
      collectXml (data.map XmlLine.values ++ .tag ws' :: post) = (data.flatten, post) := by
    intro data
    induction data with
    | nil => rfl
    | cons a data ih => simp [collectXml, ih]
  induction pre with
  | nil => simp [extractXml, hw, hc]
  | cons a pre ih =>
    have ih' := ih fun ws h => hpre ws (List.mem_cons_of_mem _ h)
    cases a with
    | tag v => simp [extractXml, hpre v List.mem_cons_self, ih']
    | values v => simpa [extractXml] using ih'

theorem extractXml_none {K : Type} (w : String) (file : List (XmlLine K))
    (h : ∀ ws, .tag ws ∈ file → w ∉ ws) : extractXml w file = none := by
  induction file with
  | nil => rfl
  | cons a file ih =>
    have ih' := ih fun ws h' => h ws (List.mem_cons_of_mem _ h')
    cases a with
    | tag v => simp [extractXml, h v List.mem_cons_self, ih']
    | values v => simpa [extractXml] using ih'

/-- Decimal numbers are not words of the format. -/
theorem toString_nat_ne (n : ℕ) (s : String) (c : Char) (hc : c ∈ s.toList) (hd : c.isDigit = false) :
    s ≠ Nat.repr n := by
  intro h
  have h1 : c ∈ (Nat.repr n).toList := by rw [← h]; exact hc
  rw [Nat.toList_repr] at h1
  have := Nat.isDigit_of_mem_toDigits (by omega) (by omega) h1
  rw [hd] at this; exact absurd this (by simp)

/-- **C22** fails for whole files: the code cannot read the vtu files it writes, because the line
that opens the coordinates does not carry the name the reader looks for (for all meshes, orders
and fields, unless a user field is called `Points`). -/
theorem C22_written_file_rejected_fails {K : Type} (p : ℕ) (prt : K → K) (m : PlainMesh K)
    (pf cf : List (VtuField K)) (hname : ∀ f ∈ pf ++ cf, f.name ≠ "Points") :
    readVtu m.numNodes (writeVtu p prt [] m pf cf) = none := by
  have h : extractXml "Points" (writeVtu p prt [] m pf cf) = none := by
    apply extractXml_none
    intro ws hws
    have hn : ∀ n : ℕ, "Points" ≠ Nat.repr n := fun n =>
      toString_nat_ne n _ 'P' (by decide) (by decide)
    have hfield : ∀ fs : List (VtuField K), (∀ f ∈ fs, f.name ≠ "Points") →
        .tag ws ∈ (if fs = [] then [] else [XmlLine.tag []] ++ fs.flatMap VtuField.write ++ [.tag []]) →
        "Points" ∉ ws := by
      intro fs hfs h
      split_ifs at h
      · simp at h
      · simp only [List.mem_append, XmlLine.tag.injEq, List.mem_flatMap,
          VtuField.write, List.mem_cons, List.mem_map, reduceCtorEq, and_false, exists_false,
          or_false, List.not_mem_nil] at h
        rcases h with (rfl | ⟨f, hf, (rfl | rfl)⟩) | rfl <;> try simp
        exact fun h => hfs f hf h.symm
    unfold writeVtu at hws
    simp only [List.mem_append, or_assoc] at hws
    have h1 := hfield pf fun f hf => hname f (List.mem_append_left _ hf)
    have h2 := hfield cf fun f hf => hname f (List.mem_append_right _ hf)
    rcases hws with h | h | h | h | h | h | h | h | h | h | h | h
    all_goals first | exact h1 h | exact h2 h | skip
    all_goals
      simp only [List.mem_cons, XmlLine.tag.injEq, List.not_mem_nil, or_false, List.mem_map,
        reduceCtorEq, and_false, exists_false] at h
    · rcases h with rfl | rfl | rfl | rfl | rfl | rfl <;> simp [hn]
    · rcases h with rfl | rfl | rfl | rfl <;> simp
    · rcases h with rfl | rfl <;> simp
    · rcases h with rfl | rfl <;> simp
    · rcases h with rfl | rfl <;> simp
    · rcases h with rfl | rfl | rfl <;> simp
  simp [readVtu, h]

/-- **C22** for whole files, given that the coordinate array carries its name: coordinates,
connectivity and cell types are read back in full. -/
theorem C22_named_points_file {K : Type} (p : ℕ) (prt : K → K) (m : PlainMesh K)
    (pf cf : List (VtuField K)) :
    readVtu m.numNodes (writeVtu p prt ["Points"] m pf cf) = some
      ⟨(List.range m.numNodes).flatMap fun g =>
          [.real (prt (m.coords g 0)), .real (prt (m.coords g 1)), .real (prt (m.coords g 2))],
       (List.range m.numElems).flatMap fun e => (writeVtuElem p (m.nodes e)).map .int,
       (List.range m.numElems).map fun _ => .int (writeVtuType p)⟩ := by
  have hn : ∀ n : ℕ, "Points" ≠ Nat.repr n := fun n =>
    toString_nat_ne n _ 'P' (by decide) (by decide)
  have e1 : ∀ f : ℕ → List (VtuTok K), ((List.range m.numElems).map fun e => XmlLine.values (f e)) =
      ((List.range m.numElems).map f).map XmlLine.values := by intro f; simp [Function.comp_def]
  have e2 : ∀ f : ℕ → List (VtuTok K), ((List.range m.numNodes).map fun e => XmlLine.values (f e)) =
      ((List.range m.numNodes).map f).map XmlLine.values := by intro f; simp [Function.comp_def]
  unfold writeVtu
  generalize (if pf = [] then [] else
    [XmlLine.tag []] ++ pf.flatMap VtuField.write ++ [.tag []]) = PF
  generalize (if cf = [] then [] else
    [XmlLine.tag []] ++ cf.flatMap VtuField.write ++ [.tag []]) = CF
  rw [e1, e1, e1, e2]
  set X := (List.range m.numNodes).map fun g =>
    [VtuTok.real (prt (m.coords g 0)), .real (prt (m.coords g 1)), .real (prt (m.coords g 2))] with hX
  set C := (List.range m.numElems).map fun e => (writeVtuElem p (m.nodes e)).map VtuTok.int with hC
  set O := (List.range m.numElems).map fun e => [VtuTok.int (K := K) ((e + 1) * (p + 1) ^ 3)] with hO
  set T := (List.range m.numElems).map fun _ => [VtuTok.int (K := K) (writeVtuType p)] with hT
  have s1 := extractXml_spec (K := K) "Points"
    [.tag ["1.0"], .tag ["UnstructuredGrid", "1.0", "LittleEndian"], .tag [],
      .tag [toString m.numNodes, toString m.numElems], .tag []]
    (by
      intro ws h
      simp only [List.mem_cons, XmlLine.tag.injEq, List.not_mem_nil, or_false] at h
      rcases h with rfl | rfl | rfl | rfl | rfl <;> simp [hn])
    ["Float64", "Points", "3", "ascii"] [] (by simp) X
    ([.tag [], .tag []] ++ .tag ["Int32", "connectivity", "ascii"] :: (C.map XmlLine.values ++
      .tag [] :: ([.tag ["Int32", "offsets", "ascii"]] ++ O.map XmlLine.values ++ [.tag []] ++
      .tag ["Int8", "types", "ascii"] :: (T.map XmlLine.values ++ .tag [] :: ([.tag []] ++ PF ++ CF ++
        [.tag [], .tag [], .tag []])))))
  have s2 := extractXml_spec (K := K) "connectivity" [.tag [], .tag []]
    (by
      intro ws h
      simp only [List.mem_cons, XmlLine.tag.injEq, List.not_mem_nil, or_false] at h
      rcases h with rfl | rfl <;> simp)
    ["Int32", "connectivity", "ascii"] [] (by simp) C
    ([.tag ["Int32", "offsets", "ascii"]] ++ O.map XmlLine.values ++ [.tag []] ++
      .tag ["Int8", "types", "ascii"] :: (T.map XmlLine.values ++ .tag [] :: ([.tag []] ++ PF ++ CF ++
        [.tag [], .tag [], .tag []])))
  have s3 := extractXml_spec (K := K) "types"
    ([.tag ["Int32", "offsets", "ascii"]] ++ O.map XmlLine.values ++ [.tag []])
    (by
      intro ws h
      simp only [List.mem_append, List.mem_cons, XmlLine.tag.injEq, List.not_mem_nil, or_false,
        List.mem_map, reduceCtorEq, and_false, exists_false] at h
      rcases h with rfl | rfl <;> simp)
    ["Int8", "types", "ascii"] [] (by simp) T ([.tag []] ++ PF ++ CF ++ [.tag [], .tag [], .tag []])
  have hlen : X.flatten.length = m.numNodes * 3 := by
    rw [List.length_flatten, hX, List.map_map]
    simp [Function.comp_def]
  simp only [List.cons_append, List.nil_append, List.append_assoc] at s1 s2 s3 ⊢
  unfold readVtu
  rw [s1]
  simp only [hlen, ne_eq, not_true, if_false]
  rw [s2]
  simp only
  rw [s3]
  simp only [Option.some.injEq, VtuRead.mk.injEq]
  refine ⟨?_, ?_, ?_⟩
  · rw [hX, List.flatMap_def]
  · rw [hC, List.flatMap_def]
  · rw [hT]
    clear s1 s2 s3
    generalize List.range m.numElems = L
    induction L with
    | nil => rfl
    | cons a L ih => rw [List.map_cons, List.flatten_cons, ih]; rfl

/-! ### C23 -/

/-- **C23**: the index file names exactly the material files written if and only if the materials
that own elements come first (no material without elements has a smaller number than one with
elements). -/
theorem C23_index_correct_iff (numMats : ℕ) (count : ℕ → ℕ) :
    matFilesIndexed numMats count = matFilesWritten numMats count ↔
      ∀ m m', m < m' → m' < numMats → 0 < count m' → 0 < count m := by
  unfold matFilesIndexed
  set W := matFilesWritten numMats count with hW
  have hmem : ∀ m, m ∈ W ↔ m < numMats ∧ 0 < count m := by
    intro m; rw [hW]; simp [matFilesWritten]
  constructor
  · intro h m m' hm hm' hc
    have h1 : m' ∈ W := (hmem m').mpr ⟨hm', hc⟩
    rw [← h, List.mem_range] at h1
    have h2 : m ∈ W := by rw [← h, List.mem_range]; omega
    exact ((hmem m).mp h2).2
  · intro hpre
    -- number of leading materials with elements
    have key : ∀ n ≤ numMats, (List.range n).filter (fun m => decide (0 < count m)) =
        List.range ((List.range n).filter fun m => decide (0 < count m)).length := by
      intro n hn
      induction n with
      | zero => rfl
      | succ n ih =>
        have ih' := ih (by omega)
        rw [List.range_succ, List.filter_append]
        by_cases hc : 0 < count n
        · have hall : (List.range n).filter (fun m => decide (0 < count m)) = List.range n := by
            rw [List.filter_eq_self]
            intro a ha
            exact decide_eq_true (hpre a n (List.mem_range.mp ha) (by omega) hc)
          rw [hall]
          simp [hc, List.range_succ]
        · simp only [hc, List.filter_cons, List.filter_nil, decide_false, Bool.false_eq_true,
            if_false, List.append_nil]
          exact ih'
    exact (key numMats le_rfl).symm

/-- **C23** fails in general: with material 0 nowhere on the mesh, `mat1` is written but the index
names `mat0`. -/
theorem C23_missing_material_fails : ∃ count : ℕ → ℕ,
    matFilesWritten 2 count = [1] ∧ matFilesIndexed 2 count = [0] :=
  ⟨fun m => if m = 1 then 5 else 0, by decide, by decide⟩

/-- **C22.** A field array written to a vtu file is read back whole: looking for its name finds all its
numbers in order, wherever the array stands, as long as the name does not occur in an earlier line. -/
theorem C22_field_read_back {K : Type} (f : VtuField K) (pre post : List (XmlLine K))
    (hpre : ∀ ws, .tag ws ∈ pre → f.name ∉ ws) :
    extractXml f.name (pre ++ f.write ++ post) = some (f.lines.flatten, post) := by
  have col : ∀ ls : List (List (VtuTok K)),
      collectXml (ls.map XmlLine.values ++ (.tag [] :: post)) = (ls.flatten, post) := by
    intro ls
    induction ls with
    | nil => rfl
    | cons l ls ih => simp [collectXml, ih]
  induction pre with
  | nil =>
    simp only [VtuField.write, List.nil_append, List.cons_append, List.append_assoc]
    rw [extractXml, if_pos (by simp), col]
  | cons x pre ih =>
    have ih := ih fun ws h => hpre ws (List.mem_cons_of_mem _ h)
    cases x with
    | tag ws =>
      simp only [List.cons_append]
      rw [extractXml, if_neg (hpre ws List.mem_cons_self)]
      exact ih
    | values vs => exact ih

example : ∀ ws, (XmlLine.tag ws : XmlLine ℚ) ∈ [.tag ["Float64", "Points"], .values [.int 3]] →
    "density" ∉ ws := by
  intro ws h
  simp at h
  subst h
  decide

end Fierro
