import Verif.Model.StressBC
import Verif.Model.Sgh
import Verif.Props.Sgh
import Verif.Props.Parallel
import Mathlib.Algebra.BigOperators.Fin
import Mathlib.Algebra.CharZero.Defs
import Mathlib.Tactic.Ring
import Mathlib.Tactic.Linarith
import Mathlib.Algebra.BigOperators.Field
import Mathlib.Tactic.FieldSimp
import Mathlib.Tactic.FinCases
import Mathlib.Tactic.NormNum
import Mathlib.Tactic.LinearCombination

/-!
# C61: stress boundary conditions
-/

set_option linter.unusedSectionVars false

namespace Fierro

section field
variable {K : Type} [Field K] [CharZero K] {E N : ℕ}

/-- Vector area of a (possibly warped) quadrilateral: half the cross product of its diagonals. -/
def quadVectorArea (a b c d : Fin 3 → K) : Fin 3 → K := fun i =>
  crossK (fun i => c i - a i) (fun i => d i - b i) i / 2

/-- Vector area of a patch. -/
def patchVectorArea (coords : Fin N → Fin 3 → K) (p : Fin 4 → Fin N) : Fin 3 → K :=
  quadVectorArea (coords (p 0)) (coords (p 1)) (coords (p 2)) (coords (p 3))

theorem finRange_four : List.finRange 4 = [0, 1, 2, 3] := rfl

/-- **C61.** The normal handed to the stress model is a quarter of the vector area of the patch, for
planar and warped patches. -/
theorem C61_corner_normal (coords : Fin N → Fin 3 → K) (p : Fin 4 → Fin N) (d : Fin 3) :
    cornerPatchNormal coords p d = patchVectorArea coords p d / 4 := by
  have h1 : ((0 : Fin 4) + 1) = 1 := rfl
  have h2 : ((1 : Fin 4) + 1) = 2 := rfl
  have h3 : ((2 : Fin 4) + 1) = 3 := rfl
  simp only [cornerPatchNormal, finRange_four, List.foldl_cons, List.foldl_nil, Fin.val_zero,
    Fin.val_one, h1, h2, h3, patchVectorArea, quadVectorArea, patchCentre]
  fin_cases d <;> simp [crossK] <;> ring

/-- **C61.** The traction of a constant stress is the stress times the normal, with the symmetric
tensor built from the six inputs in the order xx, yy, zz, yz, xz, xy. -/
theorem C61_traction (s : Fin 6 → K) (n : Fin 3 → K) :
    constantStress s n 0 = s 0 * n 0 + s 5 * n 1 + s 4 * n 2 ∧
    constantStress s n 1 = s 5 * n 0 + s 1 * n 1 + s 3 * n 2 ∧
    constantStress s n 2 = s 4 * n 0 + s 3 * n 1 + s 2 * n 2 := by
  have h : List.finRange 3 = [0, 1, 2] := rfl
  refine ⟨?_, ?_, ?_⟩ <;> simp [constantStress, h, bcStress]

/-! ### Totals -/

theorem stress_sum_update_add {M : Type} [AddCommMonoid M] {n : ℕ} (F : Fin n → M) (k : Fin n) (x : M) :
    ∑ i, Function.update F k (F k + x) i = ∑ i, F i + x := by
  rw [← Finset.add_sum_erase _ _ (Finset.mem_univ k),
    ← Finset.add_sum_erase Finset.univ F (Finset.mem_univ k), Function.update_self, add_right_comm]
  congr 2
  apply Finset.sum_congr rfl
  intro i hi
  rw [Function.update_of_ne (Finset.ne_of_mem_erase hi)]

theorem addPatchForce_apply (f : (Fin 3 → K) → Fin 3 → K) (coords : Fin N → Fin 3 → K)
    (F : Fin N → Fin 3 → K) (p : Fin 4 → Fin N) (n : Fin N) (d : Fin 3) :
    addPatchForce f coords F p n d
      = F n d + ∑ l, if p l = n then f (cornerPatchNormal coords p) d else 0 := by
  have key : ∀ (ls : List (Fin 4)) (F : Fin N → Fin 3 → K),
      ls.foldl (fun (F : Fin N → Fin 3 → K) l => Function.update F (p l) fun d =>
        F (p l) d + f (cornerPatchNormal coords p) d) F n d
      = F n d + (ls.map fun l => if p l = n then f (cornerPatchNormal coords p) d else 0).sum := by
    intro ls
    induction ls with
    | nil => intro F; simp
    | cons l ls ih =>
      intro F
      rw [List.foldl_cons, ih, List.map_cons, List.sum_cons, ← add_assoc]
      congr 1
      by_cases h : p l = n
      · subst h; simp
      · simp [h, Ne.symm h]
  rw [addPatchForce, key, finRange_four, Fin.sum_univ_four]
  simp [add_assoc]

/-- The force on a node: every corner of every patch of every set that is the node contributes. -/
theorem boundaryStress_apply (sets : List (StressSet K N)) (time : K) (coords : Fin N → Fin 3 → K)
    (n : Fin N) (d : Fin 3) :
    boundaryStress sets time coords n d
      = (sets.map fun s => (s.patches.map fun p =>
          ∑ l, if p l = n then s.force time (cornerPatchNormal coords p) d else 0).sum).sum := by
  have key : ∀ (s : StressSet K N) (ps : List (Fin 4 → Fin N)) (F : Fin N → Fin 3 → K),
      ps.foldl (addPatchForce (s.force time) coords) F n d
      = F n d + (ps.map fun p =>
          ∑ l, if p l = n then s.force time (cornerPatchNormal coords p) d else 0).sum := by
    intro s ps
    induction ps with
    | nil => intro F; simp
    | cons p ps ih =>
      intro F
      rw [List.foldl_cons, ih, addPatchForce_apply, List.map_cons, List.sum_cons, add_assoc]
  have key2 : ∀ (sets : List (StressSet K N)) (F : Fin N → Fin 3 → K),
      sets.foldl (fun F s => s.patches.foldl (addPatchForce (s.force time) coords) F) F n d
      = F n d + (sets.map fun s => (s.patches.map fun p =>
          ∑ l, if p l = n then s.force time (cornerPatchNormal coords p) d else 0).sum).sum := by
    intro sets
    induction sets with
    | nil => intro F; simp
    | cons s sets ih =>
      intro F
      rw [List.foldl_cons, ih, key, List.map_cons, List.sum_cons, add_assoc]
  rw [boundaryStress, key2, zero_add]

/-- Any weighted sum of the nodal forces, patch by patch. -/
theorem boundaryStress_weighted (sets : List (StressSet K N)) (time : K)
    (coords : Fin N → Fin 3 → K) (d : Fin 3) (w : Fin N → K) :
    ∑ n, w n * boundaryStress sets time coords n d
      = (sets.map fun s => (s.patches.map fun p =>
          (∑ l, w (p l)) * s.force time (cornerPatchNormal coords p) d).sum).sum := by
  simp only [boundaryStress_apply]
  have hswap : ∀ (l : List (StressSet K N)) (g : StressSet K N → Fin N → K),
      ∑ n, w n * (l.map fun s => g s n).sum = (l.map fun s => ∑ n, w n * g s n).sum := by
    intro l g
    induction l with
    | nil => simp
    | cons s l ih => simp only [List.map_cons, List.sum_cons, mul_add, Finset.sum_add_distrib, ih]
  have hswap' : ∀ (l : List (Fin 4 → Fin N)) (g : (Fin 4 → Fin N) → Fin N → K),
      ∑ n, w n * (l.map fun s => g s n).sum = (l.map fun s => ∑ n, w n * g s n).sum := by
    intro l g
    induction l with
    | nil => simp
    | cons s l ih => simp only [List.map_cons, List.sum_cons, mul_add, Finset.sum_add_distrib, ih]
  rw [hswap]
  congr 1
  apply List.map_congr_left
  intro s _
  rw [hswap']
  congr 1
  apply List.map_congr_left
  intro p _
  simp only [Finset.mul_sum]
  rw [Finset.sum_comm, Finset.sum_mul]
  apply Finset.sum_congr rfl
  intro l _
  simp

theorem constantStress_eq (s : Fin 6 → K) (n : Fin 3 → K) (i : Fin 3) :
    constantStress s n i = ∑ j, bcStress s i j * n j := by
  have h : List.finRange 3 = [0, 1, 2] := rfl
  simp only [constantStress, h, List.foldl_cons, List.foldl_nil, Fin.sum_univ_three]
  ring

theorem constantStress_list {ι : Type} (s : Fin 6 → K) (l : List ι) (g : ι → Fin 3 → K)
    (d : Fin 3) :
    (l.map fun p => constantStress s (g p) d).sum
      = constantStress s (fun j => (l.map fun p => g p j).sum) d := by
  induction l with
  | nil => simp [constantStress_eq]
  | cons p l ih =>
    rw [List.map_cons, List.sum_cons, ih]
    simp only [List.map_cons, List.sum_cons, constantStress_eq, mul_add, Finset.sum_add_distrib]

theorem constantStress_smul (s : Fin 6 → K) (c : K) (n : Fin 3 → K) (d : Fin 3) :
    constantStress s (fun j => c * n j) d = c * constantStress s n d := by
  simp only [constantStress_eq, Finset.mul_sum]
  exact Finset.sum_congr rfl fun j _ => by ring

theorem cornerForce_quarter (s : Fin 6 → K) (coords : Fin N → Fin 3 → K) (p : Fin 4 → Fin N)
    (d : Fin 3) : constantStress s (cornerPatchNormal coords p) d
      = constantStress s (patchVectorArea coords p) d / 4 := by
  have : cornerPatchNormal coords p = fun d => (1 / 4) * patchVectorArea coords p d :=
    funext fun d => by rw [C61_corner_normal]; ring
  rw [this, constantStress_smul]; ring

/-- **C61.** The nodal forces of a constant stress on a set of patches add up to the stress times the
total vector area. -/
theorem C61_total_force (s : Fin 6 → K) (patches : List (Fin 4 → Fin N)) (time : K)
    (coords : Fin N → Fin 3 → K) (d : Fin 3) :
    ∑ n, boundaryStress [⟨patches, fun _ => constantStress s⟩] time coords n d
      = constantStress s (fun j => (patches.map fun p => patchVectorArea coords p j).sum) d := by
  have h := boundaryStress_weighted [⟨patches, fun _ => constantStress s⟩] time coords d fun _ => 1
  simp only [one_mul] at h
  rw [h, ← constantStress_list]
  simp only [List.map_cons, List.map_nil, List.sum_cons, List.sum_nil, add_zero]
  congr 1
  apply List.map_congr_left
  intro p _
  have h4 : (∑ _l : Fin 4, (1 : K)) = 4 := by simp
  rw [h4, cornerForce_quarter]
  field_simp

/-- **C61.** The force of a patch acts at the mean of its nodes: every first moment of the nodal
forces is that of the force of each patch placed there. -/
theorem C61_moment (s : Fin 6 → K) (patches : List (Fin 4 → Fin N)) (time : K)
    (coords : Fin N → Fin 3 → K) (i d : Fin 3) :
    ∑ n, coords n i * boundaryStress [⟨patches, fun _ => constantStress s⟩] time coords n d
      = (patches.map fun p => (∑ l, coords (p l) i) / 4 *
          constantStress s (patchVectorArea coords p) d).sum := by
  rw [boundaryStress_weighted]
  simp only [List.map_cons, List.map_nil, List.sum_cons, List.sum_nil, add_zero]
  congr 1
  apply List.map_congr_left
  intro p _
  rw [cornerForce_quarter]
  ring

/-- **C61.** Several sets, of any models, superpose: the nodal forces are the sum over the sets. -/
theorem C61_superposition (sets : List (StressSet K N)) (time : K) (coords : Fin N → Fin 3 → K)
    (n : Fin N) (d : Fin 3) :
    boundaryStress sets time coords n d
      = (sets.map fun s => boundaryStress [s] time coords n d).sum := by
  simp only [boundaryStress_apply, List.map_cons, List.map_nil, List.sum_cons, List.sum_nil,
    add_zero]

/-- **C61.** Nodes that are on no patch of a stress set feel no boundary force. -/
theorem C61_off_boundary (sets : List (StressSet K N)) (time : K) (coords : Fin N → Fin 3 → K)
    (n : Fin N) (h : ∀ s ∈ sets, ∀ p ∈ s.patches, ∀ l, p l ≠ n) (d : Fin 3) :
    boundaryStress sets time coords n d = 0 := by
  rw [boundaryStress_apply]
  apply List.sum_eq_zero
  intro x hx
  obtain ⟨s, hs, rfl⟩ := List.mem_map.1 hx
  apply List.sum_eq_zero
  intro y hy
  obtain ⟨p, hp, rfl⟩ := List.mem_map.1 hy
  exact Finset.sum_eq_zero fun l _ => by simp [h s hs p hp l]

/-! ### Closed surfaces -/

/-- Directed edges of a patch, in cyclic order. -/
def patchEdges (p : Fin 4 → Fin N) : List (Fin N × Fin N) :=
  [(p 0, p 1), (p 1, p 2), (p 2, p 3), (p 3, p 0)]

/-- The patches form a closed oriented surface: every directed edge occurs as often as its reverse. -/
def ClosedSurface (patches : List (Fin 4 → Fin N)) : Prop :=
  (patches.flatMap patchEdges).Perm ((patches.flatMap patchEdges).map Prod.swap)

theorem patchVectorArea_edges (coords : Fin N → Fin 3 → K) (p : Fin 4 → Fin N) (d : Fin 3) :
    patchVectorArea coords p d
      = ((patchEdges p).map fun e => crossK (coords e.1) (coords e.2) d).sum / 2 := by
  simp only [patchVectorArea, quadVectorArea, patchEdges, List.map_cons, List.map_nil,
    List.sum_cons, List.sum_nil]
  fin_cases d <;> simp [crossK] <;> ring

theorem crossK_swap (a b : Fin 3 → K) (d : Fin 3) : crossK b a d = -crossK a b d := by
  fin_cases d <;> simp [crossK] <;> ring

/-- The vector areas of a closed surface add up to zero, wherever its nodes are. -/
theorem closed_area_zero (coords : Fin N → Fin 3 → K) (patches : List (Fin 4 → Fin N))
    (hc : ClosedSurface patches) (d : Fin 3) :
    (patches.map fun p => patchVectorArea coords p d).sum = 0 := by
  have h1 : (patches.map fun p => patchVectorArea coords p d).sum
      = ((patches.flatMap patchEdges).map fun e => crossK (coords e.1) (coords e.2) d).sum / 2 := by
    clear hc
    induction patches with
    | nil => simp
    | cons p ps ih =>
      rw [List.map_cons, List.sum_cons, ih, List.flatMap_cons, List.map_append, List.sum_append,
        patchVectorArea_edges]
      ring
  have h2 := (hc.map fun e => crossK (coords e.1) (coords e.2) d).sum_eq
  have h3 : ∀ l : List (Fin N × Fin N),
      ((l.map Prod.swap).map fun e => crossK (coords e.1) (coords e.2) d).sum
        = -(l.map fun e => crossK (coords e.1) (coords e.2) d).sum := by
    intro l
    induction l with
    | nil => simp
    | cons e l ih =>
      simp only [List.map_cons, List.sum_cons, ih, Prod.fst_swap, Prod.snd_swap]
      rw [crossK_swap (coords e.1)]
      ring
  rw [h3] at h2
  have h4 : ((patches.flatMap patchEdges).map fun e => crossK (coords e.1) (coords e.2) d).sum = 0 :=
    self_eq_neg.1 h2
  rw [h1, h4, zero_div]

/-- **C61.** A uniform stress on a closed surface exerts no net force, for every position of the
nodes (warped patches included). -/
theorem C61_closed_surface (s : Fin 6 → K) (patches : List (Fin 4 → Fin N)) (time : K)
    (coords : Fin N → Fin 3 → K) (hc : ClosedSurface patches) (d : Fin 3) :
    ∑ n, boundaryStress [⟨patches, fun _ => constantStress s⟩] time coords n d = 0 := by
  rw [C61_total_force]
  simp only [closed_area_zero coords patches hc]
  simp [constantStress_eq]

/-- The six faces of a hexahedron in the node numbering of the 3D solver, outward. -/
def hexFace : Fin 6 → Fin 4 → Fin 8 :=
  ![![0, 4, 6, 2], ![1, 3, 7, 5], ![0, 1, 5, 4], ![2, 6, 7, 3], ![0, 2, 3, 1], ![4, 5, 7, 6]]

/-- All six. -/
def hexFaces : List (Fin 4 → Fin 8) := List.ofFn hexFace

theorem hexFaces_closed : ClosedSurface hexFaces := by
  unfold ClosedSurface
  decide

/-- Without closedness the net force is the stress times the area: a unit square under unit
pressure. -/
example : ∑ n, boundaryStress (K := ℚ) [⟨[![0, 1, 2, 3]], fun _ => constantStress ![0, 0, -1, 0, 0, 0]⟩]
    0 ![![0, 0, 0], ![1, 0, 0], ![1, 1, 0], ![0, 1, 0]] n 2 = -1 := by
  rw [C61_total_force]
  simp [constantStress_eq, Fin.sum_univ_three, bcStress, patchVectorArea, quadVectorArea, crossK]

/-! ### Balance with the internal stress -/

/-- Node positions of the parallelepiped with corner `o` and edges `a`, `b`, `c`. -/
def slantBox (o a b c : Fin 3 → K) (l : Fin 8) (d : Fin 3) : K :=
  o d + (l.val % 2 : ℕ) * a d + (l.val / 2 % 2 : ℕ) * b d + (l.val / 4 : ℕ) * c d

set_option maxHeartbeats 4000000 in
/-- **C61.** Patch test: on a parallelepiped element, for every node, the traction of a stress on
the six faces cancels the corner force of the same uniform stress inside (which is
`-∑ i, B i * stress i d`, C51). -/
theorem C61_patch_test (s : Fin 6 → K) (o a b c : Fin 3 → K) (time : K) (l : Fin 8) (d : Fin 3) :
    boundaryStress [⟨hexFaces, fun _ => constantStress s⟩] time (slantBox o a b c) l d
      + -∑ i, bmatrix (fun n => slantBox o a b c n 0) (fun n => slantBox o a b c n 1)
          (fun n => slantBox o a b c n 2) l i * bcStress s i d = 0 := by
  have hs : ∀ i j, bcStress s i j = bcStress s j i := by
    intro i j; fin_cases i <;> fin_cases j <;> rfl
  have key : ∀ i, ∑ p ∈ Finset.univ.filter fun f : Fin 6 => ∃ k, hexFace f k = l,
      patchVectorArea (slantBox o a b c) (hexFace p) i / 4
      = bmatrix (fun n => slantBox o a b c n 0) (fun n => slantBox o a b c n 1)
          (fun n => slantBox o a b c n 2) l i := by
    intro i
    have hf : ∀ l : Fin 8, Finset.univ.filter (fun f : Fin 6 => ∃ k, hexFace f k = l)
        = (![{0, 2, 4}, {1, 2, 4}, {0, 3, 4}, {1, 3, 4}, {0, 2, 5}, {1, 2, 5}, {0, 3, 5},
            {1, 3, 5}] : Fin 8 → Finset (Fin 6)) l := by decide
    rw [hf]
    fin_cases l <;> fin_cases i <;>
      simp [hexFace, patchVectorArea, quadVectorArea, crossK, slantBox, bmatrix,
        bmatrixCol0, bmatrixCol1, bmatrixCol2] <;> ring
  have hb : boundaryStress [⟨hexFaces, fun _ => constantStress s⟩] time (slantBox o a b c) l d
      = ∑ f : Fin 6, if ∃ k, hexFace f k = l then
          constantStress s (patchVectorArea (slantBox o a b c) (hexFace f)) d / 4
        else 0 := by
    rw [boundaryStress_apply]
    simp only [List.map_cons, List.map_nil, List.sum_cons, List.sum_nil, add_zero,
      cornerForce_quarter]
    rw [hexFaces, List.map_ofFn, List.sum_ofFn]
    apply Finset.sum_congr rfl
    intro f _
    have hin : ∀ (f : Fin 6) (l : Fin 8), (∃ k, hexFace f k = l) →
        ∃ k, hexFace f k = l ∧ ∀ k', hexFace f k' = l → k' = k := by decide
    simp only [Function.comp]
    by_cases h : ∃ k, hexFace f k = l
    · obtain ⟨k, hk, hu⟩ := hin f l h
      rw [if_pos h, Finset.sum_eq_single k]
      · rw [if_pos hk]
      · intro k' _ hne
        rw [if_neg fun e => hne (hu k' e)]
      · intro h; exact absurd (Finset.mem_univ k) h
    · rw [if_neg h]
      exact Finset.sum_eq_zero fun k _ => if_neg fun e => h ⟨k, e⟩
  rw [hb, ← Finset.sum_filter]
  simp only [← key, constantStress_eq, Finset.sum_mul]
  rw [← sub_eq_add_neg, sub_eq_zero, Finset.sum_comm]
  refine Finset.sum_congr rfl fun f _ => ?_
  rw [Finset.sum_div]
  refine Finset.sum_congr rfl fun i _ => ?_
  rw [hs d i]; ring

/-- **C61 (failure).** The patch test does not extend to elements whose faces are not
parallelograms: every node of a face gets a quarter of the traction, while the internal stress is
distributed by the bilinear shape functions.  On a frustum (bottom face twice the size of the top
face) under unit pressure inside and outside a node is left with a force, so a distorted boundary
layer is not in equilibrium with its own boundary pressure. -/
theorem C61_patch_test_distorted_fails : ∃ (s : Fin 6 → ℚ) (x : Fin 8 → Fin 3 → ℚ),
    (0 : ℚ) < hexVolRaw (fun n => x n 0) (fun n => x n 1) (fun n => x n 2) ∧
    boundaryStress [⟨hexFaces, fun _ => constantStress s⟩] 0 x 0 0
      + -∑ i, bmatrix (fun n => x n 0) (fun n => x n 1) (fun n => x n 2) 0 i * bcStress s i 0
      ≠ 0 := by
  refine ⟨![1, 1, 1, 0, 0, 0], ![![0, 0, 0], ![2, 0, 0], ![0, 2, 0], ![2, 2, 0], ![0, 0, 1],
    ![1, 0, 1], ![0, 1, 1], ![1, 1, 1]], ?_, ?_⟩
  · decide +kernel
  · rw [boundaryStress_apply, Fin.sum_univ_three]
    simp only [List.map_cons, List.map_nil, List.sum_cons, List.sum_nil, add_zero, hexFaces,
      List.ofFn_succ, List.ofFn_zero, constantStress_eq, Fin.sum_univ_three,
      Fin.sum_univ_four]
    simp [hexFace, C61_corner_normal, patchVectorArea, quadVectorArea, crossK, bcStress, bmatrix,
      bmatrixCol0]
    try norm_num

/-- **C61.** Momentum balance with stress boundary conditions: when the external nodal forces are
those of one constant-stress set, a Runge-Kutta stage changes the momentum by exactly
`alpha * dt` times stress times the vector area of the loaded surface. -/
theorem C61_stage_impulse (env : SghEnv K E N) (hWF : env.mesh.WF) (hm : ∀ n, env.mass n ≠ 0)
    (hdisp : DispNeutral env.closures) (time alpha dt : K) (st : SghState K E N) (s : Fin 6 → K)
    (patches : List (Fin 4 → Fin N))
    (hext : env.ext st time = boundaryStress [⟨patches, fun _ => constantStress s⟩] time st.coords)
    (d : Fin 3) :
    momentum env.mass (stageVelFree env time alpha dt st) d
      = momentum env.mass st.velN0 d + alpha * dt *
        constantStress s (fun j => (patches.map fun p => patchVectorArea st.coords p j).sum) d := by
  rw [C10_stage_balance env hWF hm hdisp, hext, C61_total_force]

end field

/-! ### Time-dependent stress -/

/-- **C61.** The time-varying model applies the constant stress scaled by
`exp (-decay (t - t0))` inside the window, both ends included, and nothing outside. -/
theorem C61_time_varying (s : Fin 6 → ℝ) (decay t0 t1 t : ℝ) (n : Fin 3 → ℝ) (i : Fin 3) :
    (t0 ≤ t → t ≤ t1 → timeVaryingStress s decay t0 t1 t n i
      = Real.exp (-(decay * (t - t0))) * constantStress s n i) ∧
    (t < t0 ∨ t1 < t → timeVaryingStress s decay t0 t1 t n i = 0) := by
  have h : List.finRange 3 = [0, 1, 2] := rfl
  constructor
  · intro h0 h1
    rw [timeVaryingStress, if_pos ⟨h0, h1⟩, constantStress_eq]
    simp only [h, List.foldl_cons, List.foldl_nil, Fin.sum_univ_three, neg_mul]
    ring
  · rintro (h0 | h0)
    · rw [timeVaryingStress, if_neg fun hh => absurd hh.1 (not_le.2 h0)]
    · rw [timeVaryingStress, if_neg fun hh => absurd hh.2 (not_le.2 h0)]

/-- **C61.** At the start of the window the full stress acts, and for a positive decay the traction
never grows in magnitude while the window is open. -/
theorem C61_time_varying_decays (s : Fin 6 → ℝ) (decay t0 t1 t t' : ℝ) (hd : 0 ≤ decay)
    (h0 : t0 ≤ t) (htt : t ≤ t') (h1 : t' ≤ t1) (n : Fin 3 → ℝ) (i : Fin 3) :
    timeVaryingStress s decay t0 t1 t0 n i = constantStress s n i ∧
    |timeVaryingStress s decay t0 t1 t' n i| ≤ |timeVaryingStress s decay t0 t1 t n i| := by
  rw [(C61_time_varying s decay t0 t1 t0 n i).1 le_rfl (h0.trans (htt.trans h1)),
    (C61_time_varying s decay t0 t1 t' n i).1 (h0.trans htt) h1,
    (C61_time_varying s decay t0 t1 t n i).1 h0 (htt.trans h1)]
  refine ⟨by simp, ?_⟩
  rw [abs_mul, abs_mul, abs_of_pos (Real.exp_pos _), abs_of_pos (Real.exp_pos _)]
  apply mul_le_mul_of_nonneg_right _ (abs_nonneg _)
  apply Real.exp_le_exp.2
  have := mul_le_mul_of_nonneg_left (sub_le_sub_right htt t0) hd
  linarith

/-- The window of the hypotheses is not empty. -/
example : ∃ t0 t t' t1 : ℝ, t0 ≤ t ∧ t ≤ t' ∧ t' ≤ t1 ∧ t0 < t' := ⟨0, 1, 2, 3, by norm_num⟩

/-! ### Schedules -/

section sched
variable {K : Type} [Field K] [CharZero K] {N : ℕ}

/-- The patch loop of one set, boundary.cpp:179-292: one iteration per patch, atomic additions. -/
def stressLoop (f : (Fin 3 → K) → Fin 3 → K) (coords : Fin N → Fin 3 → K)
    (patches : List (Fin 4 → Fin N)) : (n : ℕ) × (Fin n → List (Action (Fin N × Fin 3) K)) :=
  ⟨patches.length, fun i => (List.finRange 4).flatMap fun l => (List.finRange 3).map fun d =>
    Action.atomicAdd (patches.get i l, d) (f (cornerPatchNormal coords (patches.get i)) d)⟩

theorem stressLoop_sched (f : (Fin 3 → K) → Fin 3 → K) (coords : Fin N → Fin 3 → K)
    (patches : List (Fin 4 → Fin N)) (s : List (Action (Fin N × Fin 3) K))
    (hs : Sched (stressLoop f coords patches).2 s) (m : Fin N × Fin 3 → K) :
    (fun n d => execActions s m (n, d))
      = patches.foldl (addPatchForce f coords) fun n d => m (n, d) := by
  have hs' : Sched (fun i : Fin patches.length => ((List.finRange 4).flatMap fun l =>
      (List.finRange 3).map fun d => ((patches.get i l, d),
        f (cornerPatchNormal coords (patches.get i)) d)).map fun p => Action.atomicAdd p.1 p.2) s := by
    have e : (stressLoop f coords patches).2 = fun i : Fin patches.length =>
        ((List.finRange 4).flatMap fun l => (List.finRange 3).map fun d => ((patches.get i l, d),
          f (cornerPatchNormal coords (patches.get i)) d)).map fun p =>
            Action.atomicAdd p.1 p.2 := by
      funext i
      simp only [List.map_flatMap, List.map_map]
      rfl
    rw [← e]
    exact hs
  funext n d
  rw [atomicLoop_sched _ s hs']
  have key : ∀ (ps : List (Fin 4 → Fin N)) (F : Fin N → Fin 3 → K),
      ps.foldl (addPatchForce f coords) F n d
      = F n d + (ps.map fun p =>
          ∑ l, if p l = n then f (cornerPatchNormal coords p) d else 0).sum := by
    intro ps
    induction ps with
    | nil => intro F; simp
    | cons p ps ih =>
      intro F
      rw [List.foldl_cons, ih, addPatchForce_apply, List.map_cons, List.sum_cons, add_assoc]
  rw [key]
  congr 1
  conv_rhs => rw [← List.map_get_finRange patches, List.map_map]
  have hfl : ∀ l : List (Fin patches.length), ((l.flatMap fun i => (List.finRange 4).flatMap fun l =>
      (List.finRange 3).map fun d => ((patches.get i l, d),
        f (cornerPatchNormal coords (patches.get i)) d)).map fun p =>
          if p.1 = (n, d) then p.2 else 0).sum
      = (l.map ((fun p => ∑ l, if p l = n then f (cornerPatchNormal coords p) d else 0) ∘
          patches.get)).sum := by
    intro l
    induction l with
    | nil => rfl
    | cons i l ih =>
      rw [List.flatMap_cons, List.map_append, List.sum_append, ih, List.map_cons, List.sum_cons]
      congr 1
      have h3 : List.finRange 3 = [0, 1, 2] := rfl
      simp only [finRange_four, h3, List.flatMap_cons, List.flatMap_nil, List.map_cons, List.map_nil,
        List.append_nil, List.map_append, List.sum_append, List.sum_cons, List.sum_nil,
        Function.comp, Fin.sum_univ_four, Prod.mk.injEq]
      fin_cases d <;> simp [add_assoc]
  exact hfl _

/-- **C61.** Patches share nodes, but because the additions are atomic every schedule of the patch
loops leaves the forces of the sequential model. -/
theorem C61_schedules (sets : List (StressSet K N)) (time : K) (coords : Fin N → Fin 3 → K)
    (m : Fin N × Fin 3 → K)
    (hr : RunLoops (sets.map fun s => stressLoop (s.force time) coords s.patches) (fun _ => 0) m) :
    (fun n d => m (n, d)) = boundaryStress sets time coords := by
  rw [boundaryStress]
  exact runLoops_view (view := fun m n d => m (n, d)) _
    (fun F s => s.patches.foldl (addPatchForce (s.force time) coords) F) sets
    (fun s _ l hl m => stressLoop_sched (s.force time) coords s.patches l hl m) _ m hr

end sched

end Fierro
