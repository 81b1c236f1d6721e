import Verif.Model.Memory
import Verif.Model.MeshIndex
import Mathlib.Algebra.Field.Defs
import Mathlib.Data.List.Basic

/-!
# Mesh and graphics files

common/include/mesh_io.hpp.  Files are modelled by the sequence of numbers they contain; the
header lines, which writer and reader skip in the same number, are left out.  `prt` stands for
printing a number with the format of the code and reading it again.
-/

namespace Fierro

/-! ### Node compaction for the files of one material -/

section
variable {K : Type}

/-- `dummy_counter` after the tagging loop of `build_material_elem_node_lists`,
mesh_io.hpp:4608-4623. `elems` lists, for each storage index of the material, the nodes of its
element. (`atomic_add`: the sum does not depend on the order.) -/
def tagCount (elems : List (List ℕ)) (g : ℕ) : ℕ :=
  elems.foldl (fun c ns => ns.foldl (fun c n => if n = g then c + 1 else c) c) 0

/-- State of the serial compaction loop: next part node number, `access_mat_node_gids`,
`mat_node_coords`. -/
structure Compaction (K : Type) where
  next : ℕ
  access : Mem ℕ ℕ
  coords : Mem (ℕ × ℕ) K

/-- Body of the serial loop, mesh_io.hpp:4629-4642. -/
def Compaction.step (dims : ℕ) (tag : ℕ → ℕ) (x : ℕ → ℕ → K) (s : Compaction K) (g : ℕ) :
    Compaction K :=
  if 0 < tag g then
    { next := s.next + 1
      access := s.access.write (g, s.next)
      coords := Mem.writeAll ([((s.next, 0), x g 0), ((s.next, 1), x g 1)] ++
        if dims = 3 then [((s.next, 2), x g 2)] else []) s.coords }
  else s

/-- The serial loop over all mesh nodes, mesh_io.hpp:4626-4644. -/
def compactLoop (dims numNodes : ℕ) (tag : ℕ → ℕ) (x : ℕ → ℕ → K) : Compaction K :=
  (List.range numNodes).foldl (Compaction.step dims tag x) ⟨0, Mem.empty, Mem.empty⟩

/-- `mat_nodes_in_mat_elem`, mesh_io.hpp:4654-4668; `none` if a cell of
`access_mat_node_gids` that was never written is read. -/
def partNode (c : Compaction K) (elems : List (List ℕ)) (sid lid : ℕ) : Option ℕ :=
  (elems[sid]?.bind fun ns => ns[lid]?).bind c.access

/-- `build_material_elem_node_lists`, mesh_io.hpp:4590-4671. -/
def buildPart (dims numNodes : ℕ) (elems : List (List ℕ)) (x : ℕ → ℕ → K) : Compaction K :=
  compactLoop dims numNodes (tagCount elems) x

end

/-! ### Ensight geometry files -/

/-- `convert_ensight_to_ijk` (mesh_io.hpp:499-507) and the 3D `convert_ijk_to_ensight`
(3143-3150). -/
def ensightPerm : ℕ → ℕ
  | 2 => 3
  | 3 => 2
  | 6 => 7
  | 7 => 6
  | n => n

/-- `convert_ijk_to_ensight`, mesh_io.hpp:3141-3162. -/
def writePerm (dims : ℕ) (l : ℕ) : ℕ := if dims = 3 then ensightPerm l else l

/-- Numbers of an Ensight geometry file in file order. -/
structure EnsightFile (K : Type) where
  numNodes : ℕ
  coordTokens : List K
  numElems : ℕ
  connTokens : List ℕ

/-- A mesh in memory as far as it is written: node coordinates and `nodes_in_elem`. -/
structure PlainMesh (K : Type) where
  numNodes : ℕ
  numElems : ℕ
  coords : ℕ → ℕ → K
  nodes : ℕ → ℕ → ℕ

/-- Nodes per element of the meshes written and read: `2^dims` (mesh_io.hpp:408-411). -/
def nodesPerElem (dims : ℕ) : ℕ := 2 ^ dims

section
variable {K : Type} [Field K]

/-- `write_ensight`, geometry part, mesh_io.hpp:3109-3171. -/
def writeEnsight (dims : ℕ) (prt : K → K) (m : PlainMesh K) : EnsightFile K where
  numNodes := m.numNodes
  coordTokens := ((List.range m.numNodes).map fun g => prt (m.coords g 0)) ++
    ((List.range m.numNodes).map fun g => prt (m.coords g 1)) ++
    ((List.range m.numNodes).map fun g => if dims = 3 then prt (m.coords g 2) else prt 0)
  numElems := m.numElems
  connTokens := (List.range m.numElems).flatMap fun e =>
    (List.range (nodesPerElem dims)).map fun l => m.nodes e (writePerm dims l) + 1

/-- Coordinates read by `read_ensight_mesh`, mesh_io.hpp:438-461: the numbers are read one after
the other, first all x, then all y, then all z. -/
def readEnsightCoord (f : EnsightFile K) (scale : ℕ → K) (g d : ℕ) : Option K :=
  (f.coordTokens[d * f.numNodes + g]?).map (· * scale d)

/-- Connectivity read by `read_ensight_mesh`, mesh_io.hpp:488-519: numbers in order, shifted by
one, then permuted within each element (also in 2D). -/
def readEnsightNode (dims : ℕ) (f : EnsightFile K) (e l : ℕ) : Option ℕ :=
  (f.connTokens[e * nodesPerElem dims + ensightPerm l]?).map (· - 1)

end

/-! ### VTU files, arbitrary-order hexahedra -/

/-- The lattice points of an element in the order of the loops `k`, `j`, `i` with `i` fastest
(mesh_io.hpp:1195-1212, 4271-4278). -/
def latticeOrder (p : ℕ) : List (ℕ × ℕ × ℕ) :=
  (List.range (p + 1)).flatMap fun k => (List.range (p + 1)).flatMap fun j =>
    (List.range (p + 1)).map fun i => (i, j, k)

/-- `PointIndexFromIJK` for equal orders, as an array index. -/
def pointIndexNat (p : ℕ) (v : ℕ × ℕ × ℕ) : ℕ :=
  (pointIndexFromIJK v.1 v.2.1 v.2.2 p p p).toNat

/-- One line of the connectivity written by `write_vtu` in 3D, mesh_io.hpp:4268-4285. -/
def writeVtuElem (p : ℕ) (nodes : ℕ → ℕ) : List ℕ :=
  if p > 1 then (latticeOrder p).map fun v => nodes (pointIndexNat p v)
  else (List.range 8).map nodes

/-- Cell type written, mesh_io.hpp:4324-4336 (3D). -/
def writeVtuType (p : ℕ) : ℕ := if p > 1 then 72 else 11

/-- `convert_pn_vtk_to_ijk`, mesh_io.hpp:1194-1212. -/
def convertPn (p : ℕ) : Mem ℕ ℕ :=
  Mem.writeAll ((latticeOrder p).zipIdx.map fun w => (pointIndexNat p w.1, w.2)) Mem.empty

/-- Connectivity of one element read by `read_vtu_mesh`, mesh_io.hpp:1136-1228: types 11 (and 9)
are taken as they are, 12 is permuted, 72 goes through `convert_pn_vtk_to_ijk`; other types abort. -/
def readVtuNode (p type : ℕ) (conn : List ℕ) (l : ℕ) : Option ℕ :=
  if type = 9 ∨ type = 11 then conn[l]?
  else if type = 12 then conn[ensightPerm l]?
  else if type = 72 then (convertPn p l).bind fun c => conn[c]?
  else none

/-! ### The lines of a vtu file -/

/-- A number in a vtu file: written with a floating point or an integer format. -/
inductive VtuTok (K : Type) where
  | real (x : K)
  | int (n : ℕ)
deriving DecidableEq

/-- A line of a vtu file: a markup line with the quoted words it contains, or a line of numbers.
Markup lines contain `<`, lines of numbers do not. -/
inductive XmlLine (K : Type) where
  | tag (words : List String)
  | values (vs : List (VtuTok K))
deriving DecidableEq

/-- Inner loop of `extract_values_xml`, mesh_io.hpp:183-199: numbers are taken until a line
containing `<`; what is left of the stream is returned too. -/
def collectXml {K : Type} : List (XmlLine K) → List (VtuTok K) × List (XmlLine K)
  | [] => ([], [])
  | .tag _ :: rest => ([], rest)
  | .values vs :: rest => (vs ++ (collectXml rest).1, (collectXml rest).2)

/-- `extract_values_xml`, mesh_io.hpp:161-214; `none` is `found == false`. -/
def extractXml {K : Type} (word : String) : List (XmlLine K) → Option (List (VtuTok K) × List (XmlLine K))
  | [] => none
  | .tag ws :: rest => if word ∈ ws then some (collectXml rest) else extractXml word rest
  | .values _ :: rest => extractXml word rest

/-- A named field array of a vtu file. -/
structure VtuField (K : Type) where
  name : String
  lines : List (List (VtuTok K))

/-- The array of one field, mesh_io.hpp:4355-4425. -/
def VtuField.write {K : Type} (f : VtuField K) : List (XmlLine K) :=
  .tag ["Float64", f.name, "ascii"] :: f.lines.map XmlLine.values ++ [.tag []]

/-- `write_vtu`, mesh_io.hpp:4219-4429, for 3D elements of order `p`. `pointWords` are the quoted words
of the line that opens the coordinates besides type, components and format; the code writes none
(4232). Blank and comment lines are left out. -/
def writeVtu {K : Type} (p : ℕ) (prt : K → K) (pointWords : List String) (m : PlainMesh K)
    (pointFields cellFields : List (VtuField K)) : List (XmlLine K) :=
  [.tag ["1.0"], .tag ["UnstructuredGrid", "1.0", "LittleEndian"], .tag [],
    .tag [toString m.numNodes, toString m.numElems], .tag [],
    .tag (["Float64"] ++ pointWords ++ ["3", "ascii"])] ++
  ((List.range m.numNodes).map fun g => .values
    [.real (prt (m.coords g 0)), .real (prt (m.coords g 1)), .real (prt (m.coords g 2))]) ++
  [.tag [], .tag [], .tag [], .tag ["Int32", "connectivity", "ascii"]] ++
  ((List.range m.numElems).map fun e => .values ((writeVtuElem p (m.nodes e)).map .int)) ++
  [.tag [], .tag ["Int32", "offsets", "ascii"]] ++
  ((List.range m.numElems).map fun e => .values [.int ((e + 1) * (p + 1) ^ 3)]) ++
  [.tag [], .tag ["Int8", "types", "ascii"]] ++
  ((List.range m.numElems).map fun _ => .values [.int (writeVtuType p)]) ++
  [.tag [], .tag []] ++
  (if pointFields = [] then [] else [.tag []] ++ pointFields.flatMap VtuField.write ++ [.tag []]) ++
  (if cellFields = [] then [] else [.tag []] ++ cellFields.flatMap VtuField.write ++ [.tag []]) ++
  [.tag [], .tag [], .tag []]

/-- What `read_vtu_mesh` takes from a file. -/
structure VtuRead (K : Type) where
  coords : List (VtuTok K)
  conn : List (VtuTok K)
  types : List (VtuTok K)

/-- The searches of `read_vtu_mesh`, mesh_io.hpp:1034-1110: coordinates from the start of the file,
then connectivity and types further on; missing coordinates, or a wrong number of them, throw
(`none`). A missing connectivity or type array only prints a message and leaves the array unset
(modelled as no numbers). -/
def readVtu {K : Type} (numNodes : ℕ) (file : List (XmlLine K)) : Option (VtuRead K) :=
  match extractXml "Points" file with
  | none => none
  | some (xs, rest) =>
    if xs.length ≠ numNodes * 3 then none
    else match extractXml "connectivity" rest with
      | none => some ⟨xs, [], []⟩
      | some (cs, rest) => match extractXml "types" rest with
        | none => some ⟨xs, cs, []⟩
        | some (ts, _) => some ⟨xs, cs, ts⟩

/-! ### Names of the files of one graphics dump -/

/-- Materials whose vtu file is written by `write_mesh`, mesh_io.hpp:2713-2804. `count m` is the
number of elements of material `m`. -/
def matFilesWritten (numMats : ℕ) (count : ℕ → ℕ) : List ℕ :=
  (List.range numMats).filter fun m => 0 < count m

/-- Materials whose file the vtm index refers to: `write_vtm` is called with the number of files
written (mesh_io.hpp:2836-2844) and names `mat0 .. mat(n-1)` (4550-4558). -/
def matFilesIndexed (numMats : ℕ) (count : ℕ → ℕ) : List ℕ :=
  List.range (matFilesWritten numMats count).length

end Fierro
