import Mathlib.Data.Real.Basic

/-!
# The tagging of boundary patches in the previous version

Models `FEA_Module::tag_boundaries` and `FEA_Module::check_boundary` of
`/repo/legacy/Fierro_V0/src/Parallel-Solvers/FEA_Module.cpp`, lines 140-360, and their use for the
boundary conditions of `Implicit-Lagrange/FEA_Physics_Modules/FEA_Module_Elasticity.cpp`, lines 1312-1341.  The copies in
`Implicit_Solver.cpp` and `Explicit_Solver.cpp` are not modelled.

Numbers are reals; the patches are the lists of their nodes and all their nodes are in the map of the process.  `none` is
a read past the coordinates of a node.  The warnings of lines 153-163 have no effect and are left out.
-/

namespace Fierro

/-- A read of `node_coord`, which has `num_dim` entries, FEA_Module.cpp:258 and 290-293. -/
def readCoord (dims : ℕ) (x : ℕ → ℝ) (c : ℕ) : Option ℝ := if c < dims then some (x c) else none

/-- `dim_other1` and `dim_other2`, FEA_Module.cpp:268-282. -/
def otherDims : ℕ → ℕ × ℕ
  | 0 => (1, 2)
  | 1 => (0, 2)
  | _ => (0, 1)

/-- The four `patch_limits`. -/
structure PatchLimits where
  sl : ℝ
  su : ℝ
  tl : ℝ
  tu : ℝ

open Classical in
/-- The flag of a node, FEA_Module.cpp:289-318. -/
noncomputable def nodeOn (eps val : ℝ) (dims tag : ℕ) (lim : Option PatchLimits) (x : ℕ → ℝ) : Option Bool :=
  match readCoord dims x tag with
  | none => none
  | some a =>
    if |a - val| ≤ eps then
      match lim with
      | none => some true
      | some l =>
        match readCoord dims x (otherDims tag).1, readCoord dims x (otherDims tag).2 with
        | some b, some c =>
          some (if b - l.sl ≤ -eps ∨ b - l.su ≥ eps ∨ c - l.tl ≤ -eps ∨ c - l.tu ≥ eps then false else true)
        | _, _ => none
    else some false

/-- Whether all nodes are flagged, FEA_Module.cpp:287-323 and 349-355. -/
def allOn (f : ℕ → Option Bool) : List ℕ → Option Bool
  | [] => some true
  | v :: vs =>
    match f v, allOn f vs with
    | some a, some r => some (a && r)
    | _, _ => none

/-- `check_boundary`, FEA_Module.cpp:248-360; the tests for curved surfaces are commented out (lines 325-347). -/
noncomputable def checkBoundary (eps val : ℝ) (dims tag : ℕ) (lim : Option PatchLimits) (coords : ℕ → ℕ → ℝ)
    (nodes : List ℕ) : Option Bool :=
  allOn (fun v => if tag < 3 then nodeOn eps val dims tag lim (coords v) else some false) nodes

/-- `tag_boundaries`, FEA_Module.cpp:165-180, from a given index on: the patches of the set. -/
noncomputable def tagPatches (eps val : ℝ) (dims tag : ℕ) (lim : Option PatchLimits) (coords : ℕ → ℕ → ℝ) :
    ℕ → List (List ℕ) → Option (List ℕ)
  | _, [] => some []
  | k, p :: ps =>
    match checkBoundary eps val dims tag lim coords p, tagPatches eps val dims tag lim coords (k + 1) ps with
    | some a, some r => some (if a then k :: r else r)
    | _, _ => none

/-- `BOUNDARY_TYPE`, Simulation_Parameters/FEA_Module/Boundary_Conditions.h:4-11. -/
inductive SurfType
  | xPlane | yPlane | zPlane | cylinder | sphere | readFile

/-- `Surface`, Boundary_Conditions.h:27-34; the limits are there if `use_limits` is. -/
structure Surf where
  type : SurfType
  position : ℝ
  limits : Option PatchLimits

/-- The tag of a surface, FEA_Module_Elasticity.cpp:1313-1325; `none` is the exception. -/
def surfTag : SurfType → Option ℕ
  | .xPlane => some 0
  | .yPlane => some 1
  | .zPlane => some 2
  | _ => none

/-- The patches of a boundary condition, FEA_Module_Elasticity.cpp:1313-1341; the outer `none` is the exception. -/
noncomputable def tagSurface (eps scale : ℝ) (dims : ℕ) (f : Surf) (coords : ℕ → ℕ → ℝ) (ps : List (List ℕ)) :
    Option (Option (List ℕ)) :=
  match surfTag f.type with
  | none => none
  | some tag => some (tagPatches eps (f.position * scale) dims tag f.limits coords 0 ps)

end Fierro
