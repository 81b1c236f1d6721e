import Verif.Model.Memory
import Verif.Model.MeshIndex
import Mathlib.Algebra.Field.Defs

/-!
# The structured mesh builders

Loop counters (`int` in the code, never negative here) are natural numbers.
The mesh connectivity built afterwards by `mesh.build_connectivity()` belongs to the
`swage` library, which is not part of the repository, and is not modelled.
-/

namespace Fierro

/-- User input of the box builders: `mesh_input.origin`, `.length`, `.num_elems`, `.p_order`. -/
structure BoxInput (K : Type) where
  ox : K
  oy : K
  oz : K
  lx : K
  ly : K
  lz : K
  nx : ℕ
  ny : ℕ
  nz : ℕ
  p : ℕ

/-- What a builder stores: `node.coords` (component-wise array) and `mesh.nodes_in_elem`. -/
structure BuiltMesh (K : Type) where
  numNodes : ℕ
  numElems : ℕ
  coords : Mem (ℕ × ℕ) K
  nodesInElem : Mem (ℕ × ℕ) ℕ

section
variable {K : Type} [Field K]

/-- Loop that stores the point coordinates, mesh_io.hpp:1640-1652 (`build_3d_box`) and
1796-1811 (`build_3d_HexN_box`). -/
def nodeWrites3D (ox oy oz dx dy dz : K) (npi npj npk : ℕ) : List ((ℕ × ℕ) × K) :=
  (List.range npk).flatMap fun k =>
    (List.range npj).flatMap fun j =>
      (List.range npi).flatMap fun i =>
        let gid := getId i j k npi npj
        [((gid, 0), ox + (i : K) * dx), ((gid, 1), oy + (j : K) * dy),
          ((gid, 2), oz + (k : K) * dz)]

/-- The inner three loops over the points of one element (mesh_io.hpp:1672-1690 with `p = 1`,
1836-1861 in general); the running counter `this_point`/`node_lid` is the list position. -/
def elemPoints3D (p i j k npi npj : ℕ) : List ℕ :=
  (List.range' (k * p) (p + 1)).flatMap fun kc =>
    (List.range' (j * p) (p + 1)).flatMap fun jc =>
      (List.range' (i * p) (p + 1)).map fun ic => getId ic jc kc npi npj

/-- Loop that stores the element connectivity, mesh_io.hpp:1663-1693 and 1823-1864. -/
def elemWrites3D (p nx ny nz npi npj : ℕ) : List ((ℕ × ℕ) × ℕ) :=
  (List.range nz).flatMap fun k =>
    (List.range ny).flatMap fun j =>
      (List.range nx).flatMap fun i =>
        (elemPoints3D p i j k npi npj).zipIdx.map fun w =>
          ((getId i j k nx ny, w.2), w.1)

/-- `build_3d_box`, mesh_io.hpp:1587-1705 (the field `p` of the input is not used). -/
def build3DBox (b : BoxInput K) : BuiltMesh K where
  numNodes := (b.nx + 1) * (b.ny + 1) * (b.nz + 1)
  numElems := b.nx * b.ny * b.nz
  coords := Mem.writeAll (nodeWrites3D b.ox b.oy b.oz
      (b.lx / (b.nx : K)) (b.ly / (b.ny : K)) (b.lz / (b.nz : K)) (b.nx + 1) (b.ny + 1) (b.nz + 1))
    Mem.empty
  nodesInElem := Mem.writeAll (elemWrites3D 1 b.nx b.ny b.nz (b.nx + 1) (b.ny + 1)) Mem.empty

/-- `build_3d_HexN_box`, mesh_io.hpp:1720-1877; `none` models the early return for order > 19. -/
def build3DHexN (b : BoxInput K) : Option (BuiltMesh K) :=
  if b.p > 19 then none else some {
    numNodes := (b.p * b.nx + 1) * (b.p * b.ny + 1) * (b.p * b.nz + 1)
    numElems := b.nx * b.ny * b.nz
    coords := Mem.writeAll (nodeWrites3D b.ox b.oy b.oz
        (b.lx / ((b.p * b.nx : ℕ) : K)) (b.ly / ((b.p * b.ny : ℕ) : K))
        (b.lz / ((b.p * b.nz : ℕ) : K))
        (b.p * b.nx + 1) (b.p * b.ny + 1) (b.p * b.nz + 1)) Mem.empty
    nodesInElem := Mem.writeAll
      (elemWrites3D b.p b.nx b.ny b.nz (b.p * b.nx + 1) (b.p * b.ny + 1)) Mem.empty }

/-- `convert_point_number_in_quad`, mesh_io.hpp:1365-1369. -/
def convertQuad : ℕ → ℕ
  | 2 => 3
  | 3 => 2
  | n => n

/-- Loop over the points of the 2D box, mesh_io.hpp:1381-1390. -/
def nodeWrites2D (ox oy dx dy : K) (npi npj : ℕ) : List ((ℕ × ℕ) × K) :=
  (List.range npj).flatMap fun j =>
    (List.range npi).flatMap fun i =>
      let gid := getId i j 0 npi npj
      [((gid, 0), ox + (i : K) * dx), ((gid, 1), oy + (j : K) * dy)]

/-- Inner loops over the points of one 2D element, mesh_io.hpp:1408-1423. -/
def elemPoints2D (i j npi npj : ℕ) : List ℕ :=
  (List.range' j 2).flatMap fun jc => (List.range' i 2).map fun ic => getId ic jc 0 npi npj

/-- Loop that stores the 2D element connectivity, mesh_io.hpp:1399-1425 (same text in
`build_2d_polar`, 1534-1560). -/
def elemWrites2D (nx ny : ℕ) : List ((ℕ × ℕ) × ℕ) :=
  (List.range ny).flatMap fun j =>
    (List.range nx).flatMap fun i =>
      (elemPoints2D i j (nx + 1) (ny + 1)).zipIdx.map fun w =>
        ((getId i j 0 nx ny, convertQuad w.2), w.1)

/-- `build_2d_box`, mesh_io.hpp:1326-1437. -/
def build2DBox (b : BoxInput K) : BuiltMesh K where
  numNodes := (b.nx + 1) * (b.ny + 1)
  numElems := b.nx * b.ny
  coords := Mem.writeAll (nodeWrites2D b.ox b.oy
      (b.lx / (b.nx : K)) (b.ly / (b.ny : K)) (b.nx + 1) (b.ny + 1)) Mem.empty
  nodesInElem := Mem.writeAll (elemWrites2D b.nx b.ny) Mem.empty

/-- The gather at the start of `get_vol_hex`/`get_bmatrix`/`get_area_quad`
(geometry_new.cpp:79-83, 333-337, 499-502): component `d` of local node `l` of element `e`;
`none` if a cell read was never written. -/
def BuiltMesh.elemCoord (m : BuiltMesh K) (e d l : ℕ) : Option K :=
  (m.nodesInElem (e, l)).bind fun g => m.coords (g, d)

end

end Fierro
