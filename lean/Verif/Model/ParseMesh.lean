import Verif.Model.ParseBcs
import Verif.Model.PolarMesh
import Verif.Model.MeshRead
import Mathlib.Algebra.Order.Floor.Ring

/-!
# The mesh of an input deck

`parse_mesh_inputs`, input/parse_mesh_inputs.cpp:72-311, with the names and defaults of
common/include/mesh_inputs.hpp, the choice between reading and generating in `Driver::initialize`,
driver.cpp:69-103, `MeshBuilder::build_mesh`, mesh_io.hpp:1282-1311, and the choice of the reader,
mesh_io.hpp:336-383.
-/

namespace Fierro

/-- How the program stops before there is a mesh: an exception, `exit(0)` (the exit status of a
successful run), undefined behaviour, or a number of elements that is not positive (the builders
then divide by zero or ask for a negative number of nodes; this is not followed further). -/
inductive MeshStop
  | throws | exits | undefined | noElements
  deriving DecidableEq, Repr

/-- `mesh_input::source`, mesh_inputs.hpp:43-48. -/
inductive MeshSource | none | generate | file
  deriving DecidableEq, Repr

/-- `mesh_input::type`, mesh_inputs.hpp:51-55. -/
inductive MeshType | box | polar
  deriving DecidableEq, Repr

/-- `mesh_input_source_map`, mesh_inputs.hpp:58-62. -/
def meshSourceMap : String → Option MeshSource
  | "generate" => some .generate
  | "file" => some .file
  | _ => Option.none

/-- `mesh_input_type_map`, mesh_inputs.hpp:64-68. -/
def meshTypeMap : String → Option MeshType
  | "box" => some .box
  | "polar" => some .polar
  | _ => Option.none

/-- `mesh_input_t`, mesh_inputs.hpp:77-106, without `object_ids`. A type without a value is
indeterminate. The numbers of elements are `int`s that are stored as `size_t` and read as `int`s
again. -/
structure MeshInput (K : Type*) where
  numDims : ℤ
  source : MeshSource
  path : String
  type : Option MeshType
  origin : K × K × K
  length : K × K × K
  numElems : ℤ × ℤ × ℤ
  order : ℤ
  inner : K
  outer : K
  starting : K
  ending : K
  numRadial : ℤ
  numAngular : ℤ
  scaleX : K
  scaleY : K
  scaleZ : K

section
variable {V K : Type*} [Field K] [LinearOrder K] [FloorRing K]

/-- The defaults, mesh_inputs.hpp:79-102. -/
def MeshInput.default : MeshInput K where
  numDims := 3
  source := .none
  path := ""
  type := Option.none
  origin := (0, 0, 0)
  length := (0, 0, 0)
  numElems := (1, 1, 1)
  order := 1
  inner := 0
  outer := 1
  starting := 0
  ending := 90
  numRadial := 10
  numAngular := 10
  scaleX := 1
  scaleY := 1
  scaleZ := 1

/-- The conversion of a `double` to `int`: the part behind the point is dropped; undefined if the
result does not fit. -/
def meshTrunc (x : K) : Option ℤ :=
  let n := if 0 ≤ x then ⌊x⌋ else ⌈x⌉
  if -2 ^ 31 ≤ n ∧ n < 2 ^ 31 then some n else none

/-- `num_elems`, parse_mesh_inputs.cpp:189-213. The numbers of `origin` (139-161) and of `length`
(163-186) are read as in `bcOrigin`, the text is the same. Simplified: all numbers are converted to
`double` before the first of them is converted to `int`. -/
def meshCounts (cv : NodeConv V K) (v : V) : Except MeshStop (ℤ × ℤ × ℤ) :=
  match bcOrigin cv v with
  | .error .throws => .error .throws
  | .error .undefined => .error .undefined
  | .ok o =>
    match meshTrunc o.1, meshTrunc o.2.1, meshTrunc o.2.2 with
    | some a, some b, some c => .ok (a, b, c)
    | _, _, _ => .error .undefined

/-- The numbers of `origin` and of `length`, parse_mesh_inputs.cpp:139-186. -/
def meshTriple (cv : NodeConv V K) (v : V) : Except MeshStop (K × K × K) :=
  match bcOrigin cv v with
  | .error .throws => .error .throws
  | .error .undefined => .error .undefined
  | .ok o => .ok o

/-- What one word of `mesh_options` sets, parse_mesh_inputs.cpp:87-287. -/
def meshSet (cv : NodeConv V K) (p : MeshInput K) (w : String) (v : V) :
    Except MeshStop (MeshInput K) :=
  if w = "source" then
    match meshSourceMap (cv.str v) with
    | some s => .ok { p with source := s }
    | Option.none => .error .throws
  else if w = "num_dims" then .ok { p with numDims := cv.int v }
  else if w = "type" then
    match meshTypeMap (cv.str v) with
    | some t => .ok { p with type := some t }
    | Option.none => .error .throws
  else if w = "file_path" then .ok { p with path := cv.str v }
  else if w = "origin" then
    match meshTriple cv v with
    | .ok o => .ok { p with origin := o }
    | .error e => .error e
  else if w = "length" then
    match meshTriple cv v with
    | .ok o => .ok { p with length := o }
    | .error e => .error e
  else if w = "num_elems" then
    match meshCounts cv v with
    | .ok n => .ok { p with numElems := n }
    | .error e => .error e
  else if w = "polynomial_order" then .ok { p with order := cv.int v }
  else if w = "inner_radius" then .ok { p with inner := cv.real v }
  else if w = "outer_radius" then .ok { p with outer := cv.real v }
  else if w = "starting_angle" then .ok { p with starting := cv.real v }
  else if w = "ending_angle" then .ok { p with ending := cv.real v }
  else if w = "num_radial_elems" then .ok { p with numRadial := cv.int v }
  else if w = "num_angular_elems" then .ok { p with numAngular := cv.int v }
  else if w = "scale_x" then .ok { p with scaleX := cv.real v }
  else if w = "scale_y" then .ok { p with scaleY := cv.real v }
  else if w = "scale_z" then .ok { p with scaleZ := cv.real v }
  else .error .throws

/-- The test after each word, parse_mesh_inputs.cpp:291-307. (The first of the two tests only
prints.) -/
def meshCheck (p : MeshInput K) : Except MeshStop (MeshInput K) :=
  if p.source = .generate ∧ p.path ≠ "" then .error .exits else .ok p

/-- One pass of the loop, parse_mesh_inputs.cpp:83-309. -/
def meshWord (cv : NodeConv V K) (p : MeshInput K) (w : String) (v : V) :
    Except MeshStop (MeshInput K) :=
  match meshSet cv p w v with
  | .ok q => meshCheck q
  | .error e => .error e

/-- `parse_mesh_inputs`, parse_mesh_inputs.cpp:72-311; `b` is the block below `mesh_options`. -/
def parseMesh (cv : NodeConv V K) (b : Block V) : Except MeshStop (MeshInput K) :=
  if hasRequired ["source", "num_dims"] b then eachWord (meshWord cv) b MeshInput.default
  else .error .throws

/-- Where the mesh comes from. -/
inductive MeshPlan
  | box3 | box2 | polar
  /-- a reader, the path it opens, and the number of dimensions it is told -/
  | read (format : MeshFormat) (path : List Char) (dims : ℕ)
  deriving DecidableEq

/-- `std::filesystem::path(yaml).parent_path()` for paths without repeated separators: what stands
before the last `/`. -/
def parentPath (yaml : List Char) : List Char :=
  if '/' ∈ yaml then (yaml.reverse.dropWhile (· ≠ '/')).tail.reverse else []

/-- The path of the mesh file, driver.cpp:71-83: a relative path starts at the directory of the
deck. `normal` is `lexically_normal`. (A file in the root directory is not treated; the separators
of other operating systems are not, either.) -/
def meshPath (normal : List Char → List Char) (yaml path : List Char) : List Char :=
  match path with
  | [] => []
  | '/' :: _ => path
  | _ =>
    if yaml = [] then path
    else if parentPath yaml = [] then normal path
    else normal (parentPath yaml ++ '/' :: path)

/-- What `Driver::initialize` does for the mesh, driver.cpp:69-103, with `read_mesh`,
mesh_io.hpp:336-383, and `build_mesh`, mesh_io.hpp:1282-1311. `opens` tells which files can be opened.
The readers are told `Driver::num_dims`, which is 3 and is never set (driver.hpp:77). -/
def meshPlan (opens : List Char → Bool) (normal : List Char → List Char) (yaml : List Char)
    (m : MeshInput K) : Except MeshStop MeshPlan :=
  match m.source with
  | .file =>
    let path := meshPath normal yaml m.path.toList
    if opens path then
      match meshFormat path with
      | some f => .ok (.read f path 3)
      | Option.none => .error .throws
    else .error .throws
  | .generate =>
    if m.numDims = 2 then
      match m.type with
      | some .polar => .ok .polar
      | some .box => .ok .box2
      | Option.none => .error .undefined
    else if m.numDims = 3 then .ok .box3
    else .error .throws
  | .none => .error .throws

end

/-- The input of `build_2d_box` and `build_3d_box`, mesh_io.hpp:1336-1353 and 1597-1622 (`p_order` is
read by `build_3d_HexN_box` only, which nothing calls). -/
def MeshInput.boxInput {K : Type} (m : MeshInput K) : BoxInput K where
  ox := m.origin.1
  oy := m.origin.2.1
  oz := m.origin.2.2
  lx := m.length.1
  ly := m.length.2.1
  lz := m.length.2.2
  nx := m.numElems.1.toNat
  ny := m.numElems.2.1.toNat
  nz := m.numElems.2.2.toNat
  p := m.order.toNat

/-- The input of `build_2d_polar`, mesh_io.hpp:1462-1483. -/
def MeshInput.polarInput (m : MeshInput ℝ) : PolarInput where
  ox := m.origin.1
  oy := m.origin.2.1
  inner := m.inner
  outer := m.outer
  starting := m.starting
  ending := m.ending
  nr := m.numRadial.toNat
  na := m.numAngular.toNat

/-- The builders that `build_mesh` calls, mesh_io.hpp:1288-1310. `readers` stands for the readers of
mesh files. -/
noncomputable def meshOfPlan
    (readers : MeshFormat → List Char → ℕ → MeshInput ℝ → Except MeshStop (BuiltMesh ℝ))
    (m : MeshInput ℝ) : MeshPlan → Except MeshStop (BuiltMesh ℝ)
  | .box3 =>
    if 0 < m.numElems.1 ∧ 0 < m.numElems.2.1 ∧ 0 < m.numElems.2.2 then .ok (build3DBox m.boxInput)
    else .error .noElements
  | .box2 =>
    if 0 < m.numElems.1 ∧ 0 < m.numElems.2.1 then .ok (build2DBox m.boxInput)
    else .error .noElements
  | .polar =>
    if 0 < m.numRadial ∧ 0 < m.numAngular then
      match build2DPolar m.polarInput with
      | some b => .ok b
      | none => .error .throws
    else .error .noElements
  | .read f path dims => readers f path dims m

/-- From the block `mesh_options` to the mesh, driver.cpp:66-103. -/
noncomputable def deckMesh {V : Type*} (cv : NodeConv V ℝ) (opens : List Char → Bool)
    (normal : List Char → List Char) (yaml : List Char)
    (readers : MeshFormat → List Char → ℕ → MeshInput ℝ → Except MeshStop (BuiltMesh ℝ))
    (b : Block V) : Except MeshStop (BuiltMesh ℝ) :=
  match parseMesh cv b with
  | .error e => .error e
  | .ok m =>
    match meshPlan opens normal yaml m with
    | .error e => .error e
    | .ok plan => meshOfPlan readers m plan

end Fierro
