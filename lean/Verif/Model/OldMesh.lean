import Verif.Model.Output
import Mathlib.Analysis.SpecialFunctions.Trigonometric.Basic

/-!
# The mesh builder of the previous version

legacy/Fierro_V0/src/Mesh-Builder: boxes and cylinders in two and three dimensions, of any order, and the
order of the points in the files it writes and reads.  Numbers are real numbers; counts do not overflow
and are not negative. The YAML file itself is not modelled, only the values found in it.
-/

namespace Fierro

/-- How a run of the builder can end other than with a mesh. `undefined`: an entry behind the end of a
vector is read. -/
inductive OldErr
  | undefined | dims | sizes | angle | elementType
  deriving DecidableEq, Repr

/-- The values of a box in the input, MeshBuilderInput.h:33-45 and 52-58. -/
structure OldInput where
  origin : List ℝ
  length : List ℝ
  elems : List ℕ
  p : ℕ

/-- `Input_Rectilinear` after `derive`, embedded in three dimensions. -/
structure OldGrid where
  dims : ℕ
  origin : Fin 3 → ℝ
  elems : Fin 3 → ℕ
  p : ℕ
  points : Fin 3 → ℕ
  lower : Fin 3 → ℝ
  upper : Fin 3 → ℝ
  delta : Fin 3 → ℝ

/-- `derive_delta`, MeshBuilderInput.h:71-76. -/
noncomputable def oldDelta (p : ℕ) (elems : Fin 3 → ℕ) (lower upper : Fin 3 → ℝ) (d : Fin 3) : ℝ :=
  (upper d - lower d) / ((p * elems d : ℕ) : ℝ)

/-- `Input_Rectilinear::derive` and then `validate`, MeshBuilderInput.h:78-114, in that order
(Yaml-Serializable/include/serializable-struct.h:195-196). In two dimensions the third entries are the
ones pushed back in 97-103, and the step in that direction is never used. -/
noncomputable def deriveBox (a : OldInput) : Except OldErr OldGrid :=
  if 4 ≤ a.length.length ∧ 4 ≤ a.elems.length then .error .undefined
  else if a.origin.length ≠ 2 ∧ a.origin.length ≠ 3 then .error .dims
  else if ¬(a.length.length = a.elems.length ∧ a.length.length = a.origin.length) then .error .sizes
  else
    let elems : Fin 3 → ℕ := fun d => a.elems.getD d 1
    let upper : Fin 3 → ℝ := fun d => a.length.getD d 0
    .ok { dims := a.origin.length, origin := fun d => a.origin.getD d 0, elems := elems, p := a.p,
          points := fun d => if d.val < a.origin.length then a.p * elems d + 1 else 1,
          lower := 0, upper := upper, delta := oldDelta a.p elems 0 upper }

/-- `Input_Cylinder::derive` and then `validate`, MeshBuilderInput.h:129-156, on the derived box. The
angles in the input are in degrees; the check of the angle comes after the conversion. -/
noncomputable def deriveCylinder (a : OldInput) (inner start : ℝ) : Except OldErr OldGrid :=
  match deriveBox a with
  | .error e => .error e
  | .ok g =>
    let cyclic := |g.upper 1 - 360| < 1 / 10 ^ 8
    let angle := g.upper 1 * (Real.pi / 180)
    let start := start * (Real.pi / 180)
    let lower : Fin 3 → ℝ := ![g.lower 0 + inner, g.lower 1 + start, g.lower 2]
    let upper : Fin 3 → ℝ := ![g.upper 0 + inner, angle + start, g.upper 2]
    if angle < 0 ∨ 360 < angle then .error .angle
    else
      open Classical in
      .ok { g with points := ![g.points 0, if cyclic then g.points 1 - 1 else g.points 1, g.points 2],
                   lower := lower, upper := upper, delta := oldDelta g.p g.elems lower upper }

/-- The loop over the points of `build_rectilinear`, MeshBuilder.cpp:117-133, a row of the array at a
time. In two dimensions the third component does not exist; here it is zero. -/
noncomputable def oldPointWrites (g : OldGrid) : List (ℕ × (Fin 3 → ℝ)) :=
  (List.range (g.points 2)).flatMap fun k =>
    (List.range (g.points 1)).flatMap fun j =>
      (List.range (g.points 0)).map fun i =>
        (getId i j k (g.points 0) (g.points 1),
          ![g.lower 0 + (i : ℝ) * g.delta 0, g.lower 1 + (j : ℝ) * g.delta 1,
            if g.dims = 3 then g.lower 2 + (k : ℝ) * g.delta 2 else 0])

/-- The points of one element, MeshBuilder.cpp:146-171. -/
def oldElem (g : OldGrid) (i j k : ℕ) : List ℕ :=
  (List.range ((if g.dims < 3 then 0 else g.p) + 1)).flatMap fun kl =>
    (List.range (g.p + 1)).flatMap fun jl =>
      (List.range (g.p + 1)).map fun il =>
        getId ((il + i * g.p) % g.points 0) ((jl + j * g.p) % g.points 1) ((kl + k * g.p) % g.points 2)
          (g.points 0) (g.points 1)

/-- The loop over the elements, MeshBuilder.cpp:139-174. -/
def oldElemWrites (g : OldGrid) : List ((ℕ × ℕ) × ℕ) :=
  (List.range (g.elems 2)).flatMap fun k =>
    (List.range (g.elems 1)).flatMap fun j =>
      (List.range (g.elems 0)).flatMap fun i =>
        (oldElem g i j k).zipIdx.map fun w => ((getId i j k (g.elems 0) (g.elems 1), w.2), w.1)

/-- The VTK cell type, MeshBuilder.cpp:178-197; `none`: exception. -/
def oldType (dims p : ℕ) : Option ℕ :=
  if p = 1 then if dims = 2 then some 9 else if dims = 3 then some 12 else none
  else if 1 < p then if dims = 2 then some 70 else if dims = 3 then some 72 else none
  else none

/-- `Mesh`, Mesh.h:18-23. -/
structure OldMesh where
  points : Mem ℕ (Fin 3 → ℝ)
  conn : Mem (ℕ × ℕ) ℕ
  type : ℕ

/-- `build_rectilinear`, MeshBuilder.cpp:108-203. -/
noncomputable def buildRect (g : OldGrid) : Except OldErr OldMesh :=
  match oldType g.dims g.p with
  | none => .error .elementType
  | some t => .ok { points := Mem.writeAll (oldPointWrites g) Mem.empty,
                    conn := Mem.writeAll (oldElemWrites g) Mem.empty, type := t }

/-- `cylinder_transform`, MeshBuilder.cpp:211-218, of one point. -/
noncomputable def cylinderPoint (origin x : Fin 3 → ℝ) : Fin 3 → ℝ :=
  ![origin 0 + x 0 * Real.cos (x 1), origin 1 + x 0 * Real.sin (x 1), x 2]

/-- `translate`, MeshBuilder.cpp:223-227, of one point. -/
def translatePoint (origin x : Fin 3 → ℝ) : Fin 3 → ℝ := fun d => x d + origin d

/-- `build_mesh` for a box, MeshBuilder.cpp:232-250. -/
noncomputable def buildOldBox (a : OldInput) : Except OldErr OldMesh := do
  let g ← deriveBox a
  let m ← buildRect g
  return { m with points := fun n => (m.points n).map (translatePoint g.origin) }

/-- `build_mesh` for a cylinder, MeshBuilder.cpp:232-250. -/
noncomputable def buildOldCylinder (a : OldInput) (inner start : ℝ) : Except OldErr OldMesh := do
  let g ← deriveCylinder a inner start
  let m ← buildRect g
  return { m with points := fun n =>
    ((m.points n).map (cylinderPoint g.origin)).map (translatePoint g.origin) }

/-! ### The order of the points in the files -/

/-- `construct_inverse`, MeshIO.h:66-72: the vector, as far as it is assigned. -/
def constructInverse (map : List ℕ) : Mem ℕ ℕ := Mem.writeAll map.zipIdx Mem.empty

/-- What `ijk_to_lagrange_hex(p_order)` returns, VtkIO.h:96-106, when it is called for the `calls`-th
time: the vector is `static` and every call appends to it. (Always with the same order.) The function for
one point, VtkIO.h:10-70, has the text of `PointIndexFromIJK`. -/
def hexMap (p calls : ℕ) : List ℕ := (List.replicate calls ((latticeOrder p).map (pointIndexNat p))).flatten

/-- The columns of the element array from which `write_geometry` takes the entries of a line,
VtkIO.cpp:42-60, for hexahedra of order above one: `none` is an unassigned entry. -/
def writtenColumn (p calls j : ℕ) : Option ℕ := constructInverse (hexMap p calls) j

/-- `ijk_to_fea` and its inverse, MeshIO.h:74-82. -/
def ijkToFea : List ℕ := [0, 1, 3, 2, 4, 5, 7, 6]

/-- A line of a file of linear elements, VtkIO.cpp:52-60. -/
def writeLinear (row : List ℕ) : List (Option ℕ) :=
  (List.range row.length).map fun j => (constructInverse ijkToFea j).bind fun c => row[c]?

/-- `reorder_columns`, MeshIO.h:53-63, of one row; `none`: an entry behind the end of `temp` is
assigned. -/
def reorderColumns (order : List ℕ) (row : List ℕ) : Option (Mem ℕ ℕ) :=
  if (order.take row.length).all (· < row.length) then
    some (Mem.writeAll (order.zip row) Mem.empty)
  else none

end Fierro
