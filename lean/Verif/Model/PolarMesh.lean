import Verif.Model.BoxMesh
import Mathlib.Analysis.SpecialFunctions.Trigonometric.Basic

/-!
# The polar mesh

Model of `build_2d_polar`, apps/multiphysics/src/common/include/mesh_io.hpp:1452-1572: a mesh of
quadrilaterals between two radii and two angles.  `double` is an exact real number and `PI` is `π`;
the counts of elements are natural numbers.
-/

namespace Fierro

/-- Mesh input read by `build_2d_polar`, mesh_io.hpp:1462-1483; angles in degrees. -/
structure PolarInput where
  /-- `origin[0]`, `origin[1]` -/
  ox : ℝ
  oy : ℝ
  inner : ℝ
  outer : ℝ
  starting : ℝ
  ending : ℝ
  /-- `num_radial_elems` -/
  nr : ℕ
  /-- `num_angular_elems` -/
  na : ℕ

/-- `r_i`, mesh_io.hpp:1476 and 1513. -/
noncomputable def PolarInput.radius (p : PolarInput) (i : ℕ) : ℝ :=
  p.inner + (i : ℝ) * ((p.outer - p.inner) / (p.nr : ℝ))

/-- `theta_j`, mesh_io.hpp:1465-1466, 1477 and 1514. -/
noncomputable def PolarInput.theta (p : PolarInput) (j : ℕ) : ℝ :=
  Real.pi / 180 * p.starting +
    (j : ℝ) * ((Real.pi / 180 * p.ending - Real.pi / 180 * p.starting) / (p.na : ℝ))

/-- The stores of the loop over the points, mesh_io.hpp:1507-1518 (without the test that may end the
loop). -/
noncomputable def nodeWritesPolar (p : PolarInput) : List ((ℕ × ℕ) × ℝ) :=
  (List.range (p.na + 1)).flatMap fun j =>
    (List.range (p.nr + 1)).flatMap fun i =>
      let g := getId i j 0 (p.nr + 1) (p.na + 1)
      [((g, 0), p.ox + p.radius i * Real.cos (p.theta j)),
       ((g, 1), p.oy + p.radius i * Real.sin (p.theta j))]

open Classical in
/-- `build_2d_polar`, mesh_io.hpp:1452-1572: `none` when the test at 1520-1522 throws for one of the
points.  The connectivity loop (1534-1562) has the text of the one of `build_2d_box`. -/
noncomputable def build2DPolar (p : PolarInput) : Option (BuiltMesh ℝ) :=
  if ∃ w ∈ nodeWritesPolar p, w.1.2 = 0 ∧ w.2 < 0 then none
  else some
    { numNodes := (p.nr + 1) * (p.na + 1)
      numElems := p.nr * p.na
      coords := Mem.writeAll (nodeWritesPolar p) Mem.empty
      nodesInElem := Mem.writeAll (elemWrites2D p.nr p.na) Mem.empty }

end Fierro
