import Verif.Model.Strings
import Mathlib.Algebra.Ring.Int.Defs
import Mathlib.Algebra.Field.Defs

/-!
# Readers of Abaqus decks and legacy VTK files

`MeshReader::read_mesh`, `read_Abaqus_mesh` and `read_vtk_mesh` of common/include/mesh_io.hpp.  A file is
the list of its lines.  The conversion of real numbers by the C++ library is a parameter (`rd` for
`stream >> double`, with the unread rest of the line; `stod` for `std::stod`); integers have no largest
value.
-/

namespace Fierro

/-! ### Choice of the reader -/

/-- The four readers. -/
inductive MeshFormat where
  | ensight | abaqus | vtk | vtu
deriving DecidableEq, Repr

/-- The part after the last point, mesh_io.hpp:358-363 (empty without a point). -/
def fileExtension (path : List Char) : List Char :=
  if '.' ∈ path then (path.reverse.takeWhile fun c => c ≠ '.').reverse else []

/-- Choice of the reader, mesh_io.hpp:353-381; `none`: the call throws. -/
def meshFormat (path : List Char) : Option MeshFormat :=
  let ext := fileExtension path
  if ext = "geo".toList then some .ensight
  else if ext = "inp".toList then some .abaqus
  else if ext = "vtk".toList then some .vtk
  else if ext = "vtu".toList then some .vtu
  else none

/-! ### Numbers -/

/-- White space of the C locale. -/
def isSpaceChar (c : Char) : Bool :=
  c == ' ' || c == '\t' || c == '\n' || c == '\r' || c == '\x0b' || c == '\x0c'

/-- Value of a string of decimal digits. -/
def digitsValue (ds : List Char) : ℤ := (Nat.ofDigitChars 10 ds 0 : ℕ)

/-- Digits of a number and the rest. -/
def readDigits (s : List Char) : Option (ℤ × List Char) :=
  let ds := s.takeWhile Char.isDigit
  if ds = [] then none else some (digitsValue ds, s.dropWhile Char.isDigit)

/-- `stream >> int` and `std::stoi`: value and rest; `none`: no number. -/
def readInt (s : List Char) : Option (ℤ × List Char) :=
  match s.dropWhile isSpaceChar with
  | '-' :: r => (readDigits r).map fun x => (-x.1, x.2)
  | '+' :: r => readDigits r
  | r => readDigits r

/-! ### Abaqus decks -/

/-- `std::getline(iss, token, ',')` on the rest of a line: fails at the end of the line, otherwise reads
over the next comma (or to the end). -/
def skipComma : List Char → Option (List Char)
  | [] => none
  | c :: s => some (((c :: s).dropWhile fun c => c ≠ ',').drop 1)

section
variable {K : Type}

/-- A line with a node, mesh_io.hpp:579-590: label, then three coordinates. The label is not used later. -/
def parseAbqNode (rd : List Char → Option (K × List Char)) (line : List Char) : Option (K × K × K) :=
  (readInt line).bind fun a => (skipComma a.2).bind fun s1 => (rd s1).bind fun x =>
    (skipComma x.2).bind fun s2 => (rd s2).bind fun y =>
      (skipComma y.2).bind fun s3 => (rd s3).map fun z => (x.1, y.1, z.1)

/-- The loop over the entries of an element line, mesh_io.hpp:610-615; `none` in the list: the value of
the entry is not determined by the line (the conversion failed; the loop ends then). -/
def abqEntries : ℕ → List Char → List (Option ℤ)
  | 0, _ => []
  | fuel + 1, s => match skipComma s with
    | none => []
    | some r => match readInt r with
      | none => [none]
      | some x => some x.1 :: abqEntries fuel x.2

/-- A line with an element, mesh_io.hpp:601-615; every pass shortens the line. -/
def parseAbqElem (line : List Char) : Option (List (Option ℤ)) :=
  (readInt line).map fun a => abqEntries (a.2.length + 1) a.2

/-- `convert_abq_to_ijk`, mesh_io.hpp:618-626. -/
def abqPerm : ℕ → ℕ
  | 2 => 3
  | 3 => 2
  | 6 => 7
  | 7 => 6
  | l => l

/-- Renumbering of an element, mesh_io.hpp:628-636; `none`: fewer than eight entries, the code reads
behind the end of the vector. -/
def convertAbq (conn : List (Option ℤ)) : Option (List (Option ℤ)) :=
  (List.range 8).mapM fun l => conn[abqPerm l]?

/-- The variables of the loop over the lines. -/
structure AbqState (K : Type) where
  inNodes : Bool
  inElems : Bool
  nodes : List (K × K × K)
  elems : List (List (Option ℤ))

/-- The first half of the loop body, mesh_io.hpp:569-591, and whether the rest is skipped (`continue`).
`!line.find("*")` holds if the line begins with the star. -/
def abqNodePart (rd : List Char → Option (K × List Char)) (st : AbqState K) (line : List Char) :
    AbqState K × Bool :=
  if findSub "*Node".toList line ≠ none then ({ st with inNodes := true }, false)
  else if st.inNodes = true ∧ findSub "*".toList line = some 0 then ({ st with inNodes := false }, false)
  else if st.inNodes = true then
    match parseAbqNode rd line with
    | none => (st, true)
    | some p => ({ st with nodes := st.nodes ++ [p] }, false)
  else (st, false)

/-- The second half, mesh_io.hpp:593-639; `none`: undefined behaviour. -/
def abqElemPart (st : AbqState K) (line : List Char) : Option (AbqState K) :=
  if findSub "*Element".toList line ≠ none then some { st with inElems := true }
  else if st.inElems = true ∧ findSub "*".toList line = some 0 then some { st with inElems := false }
  else if st.inElems = true then
    match parseAbqElem line with
    | none => some st
    | some conn => (convertAbq conn).map fun c => { st with elems := st.elems ++ [c] }
  else some st

/-- The loop body, mesh_io.hpp:568-640. -/
def abqStep (rd : List Char → Option (K × List Char)) (st : AbqState K) (line : List Char) :
    Option (AbqState K) :=
  if (abqNodePart rd st line).2 then some (abqNodePart rd st line).1
  else abqElemPart (abqNodePart rd st line).1 line

/-- The mesh that was read: coordinates and `nodes_in_elem`. -/
structure AbqMesh (K : Type) where
  nodes : List (K × K × K)
  elems : List (List (Option ℤ))
deriving DecidableEq

/-- `read_Abaqus_mesh`, mesh_io.hpp:549-696 (3D). -/
def readAbaqus (rd : List Char → Option (K × List Char)) (file : List (List Char)) : Option (AbqMesh K) :=
  (file.foldlM (abqStep rd) ⟨false, false, [], []⟩).map fun st =>
    ⟨st.nodes, st.elems.map fun c => c.map fun n => n.map (· - 1)⟩

end

/-! ### Legacy VTK files -/

/-- Search for a line whose first word is `word`, mesh_io.hpp:741-767, 797-824, 888-911: `n` lines are
inspected; behind the end of the file the lines are empty. Fields of the line and the lines behind it. -/
def findLine (word : List Char) : ℕ → List (List Char) → Option (List (List Char) × List (List Char))
  | 0, _ => none
  | n + 1, [] => findLine word n []
  | n + 1, l :: rest => (split l [' ']).bind fun v =>
    if v.head? = some word then some (v, rest) else findLine word n rest

/-- `std::stoi` of field `i` of a line as a size; `none`: no such field (undefined) or no number (throws)
or a negative number. -/
def fieldNat (v : List (List Char)) (i : ℕ) : Option ℕ :=
  v[i]?.bind fun s => (readInt s).bind fun x => if x.1 < 0 then none else some x.1.toNat

section
variable {K : Type} [Field K]

/-- The line of a node, mesh_io.hpp:772-783. -/
def vtkNodeLine (stod : List Char → Option K) (scale : ℕ → K) (dims : ℕ) (line : List Char) :
    Option (List K) :=
  (split line [' ']).bind fun v => (List.range dims).mapM fun d => (v[d]?.bind stod).map (scale d * ·)

/-- The line of an element, mesh_io.hpp:830-840: the number of nodes, then the nodes (converted as real
numbers and cut, which for a numeral is the number); `none` also if there are more nodes than columns. -/
def vtkElemLine (dims : ℕ) (line : List Char) : Option (List ℕ) :=
  (split line [' ']).bind fun v => (fieldNat v 0).bind fun k =>
    if 2 ^ dims < k then none else (List.range k).mapM fun l => fieldNat v (l + 1)

/-- `convert_ensight_to_ijk` of the VTK reader, mesh_io.hpp:846-854. -/
def vtkPerm : ℕ → ℕ
  | 2 => 3
  | 3 => 2
  | 6 => 7
  | 7 => 6
  | l => l

/-- The nodes of an element after the renumbering, mesh_io.hpp:858-866: the number of nodes of the last
element counts for all; `none`: an entry that was not read. -/
def vtkConverted (k : ℕ) (conn : List ℕ) (l : ℕ) : Option ℕ :=
  if l < k then conn[vtkPerm l]? else conn[l]?

/-- The search for the element type, mesh_io.hpp:885-921: if the word is found, the next line must be a
number (otherwise the conversion throws); what it is only leads to messages. -/
def vtkTypesRead (lines : List (List Char)) : Bool :=
  match findLine "CELL_TYPES".toList 1002 lines with
  | none => true
  | some t => (readInt (t.2.headD [])).isSome

/-- The mesh that was read: coordinates of the nodes, `nodes_in_elem`. -/
structure VtkMesh (K : Type) where
  nodes : List (List K)
  elems : List (ℕ → Option ℕ)

/-- `read_vtk_mesh`, mesh_io.hpp:711-925; `none`: a word was not found, an exception was thrown or the
behaviour is undefined. -/
def readVtk (stod : List Char → Option K) (scale : ℕ → K) (dims : ℕ) (file : List (List Char)) :
    Option (VtkMesh K) :=
  (findLine "POINTS".toList 1002 file).bind fun p => (fieldNat p.1 1).bind fun n =>
    if p.2.length < n then none else
    ((p.2.take n).mapM (vtkNodeLine stod scale dims)).bind fun nodes =>
      (findLine "CELLS".toList 1002 (p.2.drop n)).bind fun c => (fieldNat c.1 1).bind fun m =>
        if c.2.length < m then none else
        ((c.2.take m).mapM (vtkElemLine dims)).bind fun elems =>
          if vtkTypesRead (c.2.drop m) = false then none else
          some ⟨nodes, elems.map (vtkConverted ((elems.getLast?.map List.length).getD (2 ^ dims)))⟩

end

end Fierro
