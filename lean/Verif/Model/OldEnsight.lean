import Verif.Model.OldMesh

/-!
# EnSight files of the mesh builder of the previous version

Models `/repo/legacy/Fierro_V0/src/Mesh-Builder/src/EnsightIO.cpp`.  A file is a list of lines; a number is kept as the
number printed (the format `%12.5e` rounds it to six digits, which is not modelled).  Files can be opened.
-/

namespace Fierro

/-- A line of an EnSight file: a text, a number, a real value, or the nodes of an element (`none`: read behind the end
of an array). -/
inductive EnsLine (K : Type)
  | text (s : String)
  | int (n : ℕ)
  | real (x : K)
  | nodes (l : List (Option ℕ))

/-- How the writer ends when it writes no complete files. -/
inductive EnsErr
  | highOrder
  | dimensions
  /-- `sprintf` writes behind the end of `name[100]`. -/
  | overflow
  deriving DecidableEq

/-- What the writer reads of a mesh: `num_dim`, `p_order`, the points with `cols` coordinates each, and the rows of
nodes of the elements (Mesh.h:18-23). -/
structure EnsMesh (K : Type) where
  dims : ℕ
  order : ℕ
  cols : ℕ
  np : ℕ
  point : ℕ → ℕ → K
  rows : List (List ℕ)

variable {K : Type} [Zero K] [One K]

/-- `get_format_string`, EnsightIO.cpp:6-17. -/
def ensFormat (dims : ℕ) : Option String :=
  if dims = 2 then some "quad4" else if dims = 3 then some "hexa8" else none

/-- The lines of the coordinates, EnsightIO.cpp:39-43. -/
def ensCoordinates (m : EnsMesh K) : List (EnsLine K) :=
  (List.range 3).flatMap fun j => (List.range m.np).map fun i => .real (if j < m.cols then m.point i j else 0)

/-- `write_geometry`, EnsightIO.cpp:25-56. -/
def ensGeometry (fmt : String) (m : EnsMesh K) : List (EnsLine K) :=
  [.text "This is the 1st description line of the EnSight Gold geometry file",
    .text "This is the 2nd description line of the EnSight Gold geometry file",
    .text "node id assign", .text "element id assign", .text "part", .int 1, .text "Mesh", .text "coordinates",
    .int m.np] ++ (ensCoordinates m ++ ([.text fmt, .int m.rows.length] ++
      m.rows.map fun row => .nodes ((writeLinear row).map (Option.map (· + 1)))))

/-- `write_variables`, EnsightIO.cpp:63-77. -/
def ensVariables (fmt : String) (m : EnsMesh K) : List (EnsLine K) :=
  [.text "Per_elem scalar values", .text "part", .int 1, .text fmt] ++ m.rows.map fun _ => .real 1

/-- `write_case`, EnsightIO.cpp:85-106. -/
def ensCase (name : String) : List (EnsLine K) :=
  [.text "FORMAT", .text "type: ensight gold", .text "GEOMETRY", .text ("model: data/" ++ name ++ ".*****.geo"),
    .text "VARIABLE", .text ("scalar per element: mat_index data/" ++ name ++ ".*****.var"), .text "TIME",
    .text "time set: 1", .text "number of steps:    1", .text "filename start number: 1",
    .text "filename increment: 1", .text "time values: ", .real 0]

/-- `sprintf` of a name with an ending into `char name[100]`, EnsightIO.cpp:117, 123, 129 and 135: the text and its
final zero need to fit. -/
def nameFits (text : String) : Bool := text.utf8ByteSize < 100

/-- `MeshIO::write_ensight`, EnsightIO.cpp:113-139: the files with their paths. -/
def writeOldEnsight (name : String) (m : EnsMesh K) : Except EnsErr (List (String × List (EnsLine K))) :=
  if 1 < m.order then .error .highOrder
  else if nameFits (name ++ ".00001.geo") = false then .error .overflow
  else match ensFormat m.dims with
    | none => .error .dimensions
    | some fmt =>
      if nameFits (name ++ ".00001.var") = false then .error .overflow
      else if nameFits (name ++ ".case") = false then .error .overflow
      else .ok [("ensight/data/" ++ (name ++ ".00001.geo"), ensGeometry fmt m),
        ("ensight/data/" ++ (name ++ ".00001.var"), ensVariables fmt m),
        ("ensight/" ++ (name ++ ".case"), ensCase name)]

end Fierro
