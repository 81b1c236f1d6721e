import Mathlib.Analysis.SpecialFunctions.Sqrt

/-!
# Boundary sets

common/src/geometry_new.cpp: `check_bdy`, `tag_bdys`, `build_boundry_node_sets`.  The boundary sets
are handled by a parallel loop, each iteration working on the rows of its own set; one iteration
is modelled.
-/

namespace Fierro

/-- `BoundaryConditionSetup`: surface tag, value, tolerance and origin
(common/include/boundary_conditions.hpp). -/
structure SurfaceSpec where
  surface : ℕ
  value : ℝ
  tolerance : ℝ
  origin : Fin 3 → ℝ

/-- `these_patch_coords`: a local array of three numbers of which only the first `dims` are
assigned, geometry_new.cpp:641-651; `none` is an indeterminate value. -/
def patchCoord (dims : ℕ) (x : ℕ → ℝ) (d : ℕ) : Option ℝ := if d < dims then some (x d) else none

/-- The test of one node, geometry_new.cpp:653-692; `none` if an unset coordinate is used. -/
noncomputable def nodeOnSurface (s : SurfaceSpec) (dims : ℕ) (x : ℕ → ℝ) : Option Bool :=
  if s.surface = 0 then (patchCoord dims x 0).map fun a => decide (|a - s.value| ≤ s.tolerance)
  else if s.surface = 1 then (patchCoord dims x 1).map fun a => decide (|a - s.value| ≤ s.tolerance)
  else if s.surface = 2 then (patchCoord dims x 2).map fun a => decide (|a - s.value| ≤ s.tolerance)
  else if s.surface = 3 then do
    let a ← patchCoord dims x 0
    let b ← patchCoord dims x 1
    return decide (|Real.sqrt ((a - s.origin 0) * (a - s.origin 0) +
      (b - s.origin 1) * (b - s.origin 1)) - s.value| ≤ s.tolerance)
  else if s.surface = 4 then do
    let a ← patchCoord dims x 0
    let b ← patchCoord dims x 1
    let c ← patchCoord dims x 2
    return decide (|Real.sqrt ((a - s.origin 0) * (a - s.origin 0) +
      (b - s.origin 1) * (b - s.origin 1) + (c - s.origin 2) * (c - s.origin 2)) - s.value| ≤
      s.tolerance)
  else some false

/-- Counting loop of `check_bdy`, geometry_new.cpp:644-693. -/
noncomputable def countOnSurface (s : SurfaceSpec) (dims : ℕ) (coords : ℕ → ℕ → ℝ) :
    List ℕ → ℕ → Option ℕ
  | [], c => some c
  | g :: gs, c =>
    match nodeOnSurface s dims (coords g) with
    | none => none
    | some b => countOnSurface s dims coords gs (if b then c + 1 else c)

/-- `check_bdy`, geometry_new.cpp:626-704. `patch` are the nodes of the patch. -/
noncomputable def checkBdy (s : SurfaceSpec) (dims : ℕ) (coords : ℕ → ℕ → ℝ) (patch : List ℕ) :
    Option Bool :=
  (countOnSurface s dims coords patch 0).map fun c => decide (c = patch.length)

/-- The loop of `tag_bdys` over the boundary patches for one set, geometry_new.cpp:746-772: the
stride of the row is the number of patches saved so far. -/
noncomputable def tagBdys (s : SurfaceSpec) (dims : ℕ) (coords : ℕ → ℕ → ℝ)
    (nodesInPatch : ℕ → List ℕ) : List ℕ → List ℕ → Option (List ℕ)
  | [], acc => some acc
  | p :: ps, acc =>
    match checkBdy s dims coords (nodesInPatch p) with
    | none => none
    | some b => tagBdys s dims coords nodesInPatch ps (if b then acc ++ [p] else acc)

/-- First pass of `build_boundry_node_sets`, geometry_new.cpp:823-835: marks `-1`. -/
def markNodes (nodesInPatch : ℕ → List ℕ) (patches : List ℕ) (mark : ℕ → ℤ) : ℕ → ℤ :=
  patches.foldl (fun m p => (nodesInPatch p).foldl (fun m g => Function.update m g (-1)) m) mark

/-- One node in the second pass, geometry_new.cpp:844-859. -/
def saveNode (st : (ℕ → ℤ) × List ℕ) (g : ℕ) : (ℕ → ℤ) × List ℕ :=
  if st.1 g = -1 then (Function.update st.1 g (g : ℤ), st.2 ++ [g]) else st

/-- Second pass, geometry_new.cpp:837-860. -/
def saveNodes (nodesInPatch : ℕ → List ℕ) (patches : List ℕ) (st : (ℕ → ℤ) × List ℕ) :
    (ℕ → ℤ) × List ℕ :=
  patches.foldl (fun st p => (nodesInPatch p).foldl saveNode st) st

/-- `build_boundry_node_sets` for one set, geometry_new.cpp:805-886. `mark` is the content of the
temporary array before (it is never initialised). -/
def bdyNodes (nodesInPatch : ℕ → List ℕ) (patches : List ℕ) (mark : ℕ → ℤ) : List ℕ :=
  (saveNodes nodesInPatch patches (markNodes nodesInPatch patches mark, [])).2

end Fierro
