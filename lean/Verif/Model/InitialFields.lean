import Mathlib.Analysis.SpecialFunctions.Trigonometric.Basic
import Mathlib.Analysis.SpecialFunctions.Sqrt
import Verif.Model.Parallel

/-!
# Initial fields painted by the region fills

Models `paint_multi_scalar`, `paint_scalar`, `paint_vector` and the loop of `fill_regions` that
calls them, common/src/region_fill.cpp:443-592 and 1600-1975, and the part of
`material_state_setup` that turns them into material state, 753-821.  Exact arithmetic; square roots
and trigonometric functions are the ideal ones.
-/

namespace Fierro

/-- `init_conds::init_scalar_conds`, initial_conditions.hpp:62-86. -/
inductive ScalarField where
  | noICs | uniform | radial | spherical | xlinear | ylinear | zlinear | tgVortex
  deriving DecidableEq

/-- `init_conds::init_vector_conds`, initial_conditions.hpp:41-59. -/
inductive VectorField where
  | noICs | stationary | cartesian | radial | spherical | radialLinear | sphericalLinear | tgVortex
  deriving DecidableEq

/-- `paint_multi_scalar`, region_fill.cpp:1600-1693: the value stored, `none` if nothing is
stored.  `dims` is `num_dims`; `x` the element centre (in 2D the third component is not used by
the fields `uniform`, `radial`, `spherical`, `xlinear`, `ylinear`). -/
noncomputable def paintElem (dims : ℕ) (x : Fin 3 → ℝ) (scalar slope : ℝ) (orig : Fin 3 → ℝ) :
    ScalarField → Option ℝ
  | .uniform => some scalar
  | .radial => some (slope * Real.sqrt (0 + (x 0 - orig 0) * (x 0 - orig 0)
      + (x 1 - orig 1) * (x 1 - orig 1)) - scalar * scalar)
  | .spherical => some (slope * Real.sqrt (((List.finRange 3).take dims).foldl
      (fun r d => r + (x d - orig d) * (x d - orig d)) 0) - scalar)
  | .xlinear => some (slope * x 0 + scalar)
  | .ylinear => some (slope * x 1 + scalar)
  | .zlinear => some (slope * x 2 + scalar)
  | .tgVortex => none
  | .noICs => none

/-- Unit direction computed in `paint_scalar` and `paint_vector`, region_fill.cpp:1735-1748,
1764-1777, 1871-1884 and 1903-1916; `ds` lists the dimensions of the loop. -/
noncomputable def paintDir (ds : List (Fin 3)) (x : Fin 3 → ℝ) (d : Fin 3) : ℝ :=
  let r := Real.sqrt (ds.foldl (fun r d => r + x d * x d) 0)
  if r > 1.0e-14 then x d / r else 0

/-- `paint_scalar`, region_fill.cpp:1710-1820: the values stored, in program order. -/
noncomputable def paintNodeScalar (x : Fin 3 → ℝ) (scalar slope : ℝ) : ScalarField → List ℝ
  | .uniform => [scalar]
  | .radial => [scalar * paintDir [0, 1] x 0, scalar * paintDir [0, 1] x 1]
  | .spherical => [scalar * Real.sqrt ([0, 1, 2].foldl (fun r d => r + x d * x d) 0)]
  | .xlinear => [slope * x 0 + scalar]
  | .ylinear => [slope * x 1 + scalar]
  | .zlinear => [slope * x 2 + scalar]
  | .tgVortex => []
  | .noICs => []

/-- `paint_vector`, region_fill.cpp:1840-1975: the components stored, in program order.  In 2D
(`is3 = false`) `x 2` is whatever lies behind the coordinates of the node (line 561 makes a view of
length 3 of a row of length 2). -/
noncomputable def paintNodeVector (is3 : Bool) (x : Fin 3 → ℝ) (u v w speed : ℝ) :
    VectorField → List (Fin 3 × ℝ)
  | .cartesian => [(0, u), (1, v)] ++ if is3 then [(2, w)] else []
  | .radial => [(0, speed * paintDir [0, 1] x 0), (1, speed * paintDir [0, 1] x 1)]
      ++ if is3 then [(2, 0)] else []
  | .spherical => [(0, speed * paintDir [0, 1, 2] x 0), (1, speed * paintDir [0, 1, 2] x 1)]
      ++ if is3 then [(2, speed * paintDir [0, 1, 2] x 2)] else []
  | .tgVortex => [(0, Real.sin (Real.pi * x 0) * Real.cos (Real.pi * x 1)),
      (1, -1 * Real.cos (Real.pi * x 0) * Real.sin (Real.pi * x 1))]
      ++ if is3 then [(2, 0)] else []
  | .stationary => [(0, 0), (1, 0)] ++ if is3 then [(2, 0)] else []
  | .radialLinear => []
  | .sphericalLinear => []
  | .noICs => []

/-- The part of `RegionFill_t` used for nodal fields. -/
structure NodalFill where
  velField : VectorField
  u : ℝ
  v : ℝ
  w : ℝ
  speed : ℝ
  tempField : ScalarField
  temperature : ℝ

/-- Cells of the nodal state. -/
inductive NodeCell (N : ℕ) where
  | vel (n : Fin N) (d : Fin 3)
  | temp (n : Fin N)
  deriving DecidableEq

/-- Stores of one fill to one node, region_fill.cpp:557-587; the slope handed to `paint_scalar` is
the literal 0 (line 583). -/
noncomputable def paintNode {N : ℕ} (is3 : Bool) (coords : Fin N → Fin 3 → ℝ) (f : NodalFill)
    (n : Fin N) : List (NodeCell N × ℝ) :=
  ((paintNodeVector is3 (coords n) f.u f.v f.w f.speed f.velField).map fun p => (.vel n p.1, p.2))
  ++ (paintNodeScalar (coords n) f.temperature 0 f.tempField).map fun t => (.temp n, t)

/-- Stores of the iteration of one element, region_fill.cpp:448-591: all its fills in the order of
the bins, all its nodes. -/
noncomputable def paintElemNodes {N : ℕ} (is3 : Bool) (coords : Fin N → Fin 3 → ℝ)
    (nodes : List (Fin N)) (fills : List NodalFill) : List (NodeCell N × ℝ) :=
  fills.flatMap fun f => nodes.flatMap fun n => paintNode is3 coords f n

/-- The parallel loop over the elements, region_fill.cpp:443-592. -/
noncomputable def paintLoop {E N : ℕ} (is3 : Bool) (coords : Fin N → Fin 3 → ℝ)
    (nodesInElem : Fin E → List (Fin N)) (fills : Fin E → List NodalFill) (e : Fin E) :
    List (Action (NodeCell N) ℝ) :=
  (paintElemNodes is3 coords (nodesInElem e) (fills e)).map fun p => Action.assign p.1 p.2

/-- What `material_state_setup` derives for one material point, region_fill.cpp:763-793: mass and
specific internal energy from the painted density, specific energy, extensive energy, and the flag
`use_sie`; `none` for a division by a zero mass. -/
noncomputable def setupMassEnergy (vol volfrac geoVolfrac den sie ie : ℝ) (useSie : Bool) :
    ℝ × Option ℝ :=
  let mass := den * (vol * volfrac * geoVolfrac)
  (mass, if useSie = true then some sie else if mass = 0 then none else some (ie / mass))

/-- Level set of an element, region_fill.cpp:716-721 and 817-821. -/
noncomputable def setupLevelSet (painted : List ℝ) : ℝ :=
  painted.foldl min 1.0e32

end Fierro
