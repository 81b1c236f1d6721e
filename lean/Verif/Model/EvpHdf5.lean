import Verif.Model.DumpFiles

/-!
# The state of the grid written through HDF5 and XDMF

Models `micro_output_writer.h`, `hdf5_io_functions.{h,cpp}`, `XdmfUniformGridWriter.{h,cpp}` (the same files in the four
variants of the code under `apps/micromechanics`) and the writing of the state on top of them:
`write_micro_state` of LS-EVPFFT-J2 and `write_micro_state_xdmf` of the three others.

Simplified: the HDF5 library is its data model (groups, data sets with a type, extents and cells, selections of cells by
hyperslabs in the order of C); the return codes of the library are ignored by the code, so a call which the library
refuses leaves the file as it is; the XDMF file is the record of what is printed, not the text; the write of one set by
all the ranks is any order of the writes of single cells.
-/

namespace Fierro

/-- One direction of a hyperslab, the arguments of `H5Screate_simple` and `H5Sselect_hyperslab`
(hdf5_io_functions.cpp:20-22 and 52-54); the block of the selection is one cell (`NULL`). -/
structure Slab where
  extent : ℕ
  start : ℕ
  stride : ℕ
  count : ℕ
  deriving DecidableEq

/-- The library takes the selection: the stride is not zero and the last cell is inside the extent. -/
def Slab.ok (s : Slab) : Bool :=
  decide (0 < s.stride) && (decide (s.count = 0) || decide (s.start + (s.count - 1) * s.stride < s.extent))

/-- The selected cells in the order of C, the first direction the slowest (library). -/
def slabCells : List Slab → List ℕ
  | [] => [0]
  | s :: r => (List.range s.count).flatMap fun i =>
      (slabCells r).map fun o => (s.start + i * s.stride) * (r.map Slab.extent).prod + o

/-- `reverse_array`, micro_output_writer.h:106-120. -/
def reverseArr (a : List ℕ) (s e : ℕ) : List ℕ :=
  if s < e then
    reverseArr ((a.set s (a.getD e 0)).set e (a.getD s 0)) (s + 1) (e - 1)
  else a
termination_by e - s

/-- `create_hdf5_filespace`, hdf5_io_functions.cpp:3-30; nothing when an array is read past its end. -/
def fileSpace (nd : ℕ) (g l s t : List ℕ) : Option (List Slab) :=
  (List.range nd).mapM fun i => do
    let gi ← g[i]?
    let li ← l[i]?
    let si ← s[i]?
    let ti ← t[i]?
    pure ⟨gi, si, ti, li⟩

/-- `create_hdf5_memspace`, hdf5_io_functions.cpp:32-62. -/
def memSpace (nd : ℕ) (l t : List ℕ) (ghost : ℕ) : Option (List Slab) :=
  (List.range nd).mapM fun i => do
    let li ← l[i]?
    let ti ← t[i]?
    pure ⟨li + 2 * ghost, ghost, ti, li⟩

/-- The two selections of a rank, micro_output_writer.h:31-32. -/
structure SlabWriter where
  file : List Slab
  mem : List Slab

/-- The copy of an array of the caller, micro_output_writer.h:49-67. -/
def copyDims (nd : ℕ) (a : List ℕ) : Option (List ℕ) :=
  (List.range nd).mapM fun i => a[i]?

/-- The constructor, micro_output_writer.h:38-83, with the literal 3 of lines 78 and 80. -/
def mkWriter (fortran : Bool) (nd : ℕ) (g l s : List ℕ) (stride : Option (List ℕ)) : Option SlabWriter := do
  let g ← copyDims nd g
  let l ← copyDims nd l
  let s ← copyDims nd s
  let t ← match stride with
    | none => some (List.replicate nd 1)
    | some t => copyDims nd t
  let rev := fun a => if fortran then reverseArr a 0 (nd - 1) else a
  let f ← fileSpace 3 (rev g) (rev l) (rev s) (rev t)
  let m ← memSpace 3 (rev l) (rev t) 0
  pure ⟨f, m⟩

/-- The types of `deduce_hdf5_datatype` in use, hdf5_io_functions.h. -/
inductive H5Type
  | int
  | dbl
  deriving DecidableEq

/-- A cell of a data set. -/
inductive H5Cell (R : Type)
  | int (z : ℤ)
  | dbl (r : R)

/-- A data set. -/
structure H5Set (R : Type) where
  ty : H5Type
  dims : List ℕ
  data : ℕ → Option (H5Cell R)

/-- The file: the groups and the data sets under their paths. -/
structure H5File (R : Type) where
  groups : List (List Char)
  sets : List Char → Option (H5Set R)

/-- What a rank hands over in `H5Dwrite` (hdf5_io_functions.h, `write_hdf5_dataset`): the cells of the file with their
values.  The outer `none` is a read past the end of the buffer, the inner one a refusal of the library. -/
def transfers {R : Type} (w : SlabWriter) (buf : List (H5Cell R)) : Option (Option (List (ℕ × H5Cell R))) :=
  if (w.file.all Slab.ok && w.mem.all Slab.ok) && decide ((slabCells w.file).length = (slabCells w.mem).length) then do
    let vs ← (slabCells w.mem).mapM fun o => buf[o]?
    pure (some ((slabCells w.file).zip vs))
  else some none

/-- The cells after a list of writes. -/
def cellsAfter {R : Type} (ws : List (ℕ × H5Cell R)) : ℕ → Option (H5Cell R) :=
  ws.foldl (fun d p => Function.update d p.1 (some p.2)) fun _ => none

/-- The group a path lies in (library): all before the last slash. -/
def parentOf (path : List Char) : List Char :=
  ((path.reverse.dropWhile fun c => c != '/').drop 1).reverse

/-- The extents the set is created with, hdf5_io_functions.cpp:103-110: the ranks give the same file space. -/
def rankExtents {R : Type} : List (SlabWriter × List (H5Cell R)) → List ℕ
  | [] => []
  | r :: _ => r.1.file.map Slab.extent

/-- `write_hdf5_dataset` by all the ranks (hdf5_io_functions.h; hdf5_io_functions.cpp:96-113): `sched` is the order in which
the cells reach the file.  If the library refuses the selection of a rank, the set is created and left empty. -/
def writeSet {R : Type} (sched : List (ℕ × H5Cell R) → List (ℕ × H5Cell R)) (path : List Char) (ty : H5Type)
    (ranks : List (SlabWriter × List (H5Cell R))) (f : H5File R) : Option (H5File R) := do
  let ts ← ranks.mapM fun r => transfers r.1 r.2
  if (f.sets path).isNone && decide (parentOf path ∈ f.groups) then
    let data := match ts.mapM id with
      | some l => cellsAfter (sched l.flatten)
      | none => fun _ => none
    pure { f with sets := Function.update f.sets path (some ⟨ty, rankExtents ranks, data⟩) }
  else pure f

/-- What `write_attribute` prints, XdmfUniformGridWriter.cpp:33-41. -/
structure XdmfAttr where
  name : List Char
  dims : List ℕ
  numberType : H5Type
  precision : ℕ
  location : List Char

/-- The XDMF file, XdmfUniformGridWriter.cpp:16-48. -/
structure XdmfDoc where
  grid : List Char
  points : List ℕ
  origin : List ℕ
  spacing : List ℕ
  attrs : List XdmfAttr

/-- What is written of a step: a tensor by its components, whole numbers, reals. -/
inductive MicroItem
  | tensor (name : List Char)
  | ints (name : List Char)
  | reals (name : List Char)
  deriving DecidableEq

/-- The fields in order, write_micro_state.cpp:250-294 of LS-EVPFFT-J2; the other variants write `grain_id` too. -/
def microItems (grain : Bool) : List MicroItem :=
  [.tensor "strain".toList, .tensor "stress".toList, .tensor "pl-strain-rate".toList, .tensor "el-strain".toList,
    .ints "phase_id".toList] ++ (if grain then [.ints "grain_id".toList] else []) ++
  [.reals "vm-strain".toList, .reals "vm-stress".toList, .reals "vm-pl-strain-rate".toList, .reals "vm-el-strain".toList]

/-- The local arrays of a rank, in the order of Fortran. -/
structure MicroRank (R : Type) where
  w : SlabWriter
  n1 : ℕ
  n2 : ℕ
  n3 : ℕ
  tensor : List Char → List R
  ints : List Char → List ℤ
  reals : List Char → List R

/-- The copy of a component into the buffer, write_micro_state.cpp:36-43 of LS-EVPFFT-J2. -/
def componentBuf {R : Type} (n1 n2 n3 : ℕ) (d : List R) (ii jj : ℕ) : Option (List (H5Cell R)) :=
  ((List.range n3).flatMap fun k => (List.range n2).flatMap fun j => (List.range n1).map fun i => (i, j, k)).mapM
    fun p => (d[(ii - 1) + 3 * ((jj - 1) + 3 * (p.1 + n1 * (p.2.1 + n2 * p.2.2)))]?).map H5Cell.dbl

/-- The components with `ii <= jj`, write_micro_state.cpp:31-34 of LS-EVPFFT-J2. -/
def upperPairs : List (ℕ × ℕ) :=
  ([1, 2, 3].flatMap fun ii => [1, 2, 3].map fun jj => (ii, jj)).filter fun p => decide (p.1 ≤ p.2)

/-- `dataset_name` of a component, write_micro_state.cpp:45 of LS-EVPFFT-J2. -/
def componentName (name : List Char) (ii jj : ℕ) : List Char := name ++ '_' :: (fmtNat ii ++ fmtNat jj)

/-- `group_name`, write_micro_state.cpp:232-233 of LS-EVPFFT-J2. -/
def groupName (imicro : ℕ) : List Char := "/TimeStep_".toList ++ fmtNat imicro

/-- `dataset_full_path`, write_micro_state.cpp:46 and 78 of LS-EVPFFT-J2. -/
def setPath (group name : List Char) : List Char := group ++ '/' :: name

/-- The data sets of an item: name, type and the buffer of a rank; write_micro_state.cpp:15-86 of LS-EVPFFT-J2. -/
def itemSets {R : Type} : MicroItem → List (List Char × H5Type × (MicroRank R → Option (List (H5Cell R))))
  | .tensor nm => upperPairs.map fun p =>
      (componentName nm p.1 p.2, .dbl, fun r => componentBuf r.n1 r.n2 r.n3 (r.tensor nm) p.1 p.2)
  | .ints nm => [(nm, .int, fun r => some ((r.ints nm).map H5Cell.int))]
  | .reals nm => [(nm, .dbl, fun r => some ((r.reals nm).map H5Cell.dbl))]

/-- `deduce_attribute_number_type`, XdmfUniformGridWriter.h: the precision. -/
def precisionOf : H5Type → ℕ
  | .int => 4
  | .dbl => 8

/-- One set with its attribute, write_micro_state.cpp:45-53 and 78-84 of LS-EVPFFT-J2; the extents are those of the writer
of the XDMF file. -/
def writeOne {R : Type} (sched : List Char → List (ℕ × H5Cell R) → List (ℕ × H5Cell R)) (hdf : List Char)
    (group : List Char) (n : List ℕ) (ranks : List (MicroRank R))
    (st : H5File R × List XdmfAttr) (s : List Char × H5Type × (MicroRank R → Option (List (H5Cell R)))) :
    Option (H5File R × List XdmfAttr) := do
  let path := setPath group s.1
  let bufs ← ranks.mapM fun r => (s.2.2 r).map fun b => (r.w, b)
  let f ← writeSet (sched path) path s.2.1 bufs st.1
  pure (f, st.2 ++ [⟨s.1, n, s.2.1, precisionOf s.2.1, hdf ++ ':' :: path⟩])

/-- `write_micro_state`, write_micro_state.cpp:215-306 of LS-EVPFFT-J2 and `write_micro_state_xdmf` of the others
(write_micro_state.cpp:335-430 of EVPFFT): the writer of the XDMF file is made with the extents of the directions in the
order z, y, x, the group is created, the fields follow. -/
def writeMicroState {R : Type} (sched : List Char → List (ℕ × H5Cell R) → List (ℕ × H5Cell R)) (hdf : List Char)
    (grain : Bool) (g1 g2 g3 imicro : ℕ) (ranks : List (MicroRank R)) (f : H5File R) :
    Option (H5File R × XdmfDoc) := do
  let group := groupName imicro
  let f := if group ∈ f.groups then f else { f with groups := group :: f.groups }
  let st ← ((microItems grain).flatMap itemSets).foldlM (writeOne sched hdf group [g3, g2, g1] ranks) (f, [])
  pure (st.1, ⟨group.drop 1, [g3 + 1, g2 + 1, g1 + 1], [0, 0, 0], [1, 1, 1], st.2⟩)

/-- The steps of a run which are written, evpfft.cpp:554-558 of LS-EVPFFT-J2, one after the other; the file is made anew
at the start (`H5F_ACC_TRUNC`, hdf5_io_functions.cpp:86). -/
def writeSteps {R : Type} (sched : List Char → List (ℕ × H5Cell R) → List (ℕ × H5Cell R)) (hdf : List Char)
    (grain : Bool) (g1 g2 g3 : ℕ) (steps : List (ℕ × List (MicroRank R))) (f : H5File R) :
    Option (H5File R × List XdmfDoc) :=
  steps.foldlM (fun st s => do
    let r ← writeMicroState sched hdf grain g1 g2 g3 s.1 s.2 st.1
    pure (r.1, st.2 ++ [r.2])) (f, [])

/-- The file made at the start. -/
def newH5 (R : Type) : H5File R := ⟨[], fun _ => none⟩

end Fierro
