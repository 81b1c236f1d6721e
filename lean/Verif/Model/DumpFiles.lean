import Verif.Model.Memory
import Mathlib.Data.List.Basic

/-!
# The files of a run

Models the wiring of `write_mesh` of common/include/mesh_io.hpp, with `write_vtm` and `write_pvd`: which files are
written in a graphics dump, what the index files say, and what is left in the directories after all dumps of all
solvers.  The contents of a `vtu` file (OutputFields.lean) are a parameter here.  A file system is a partial map from
names to contents; `stat`, `mkdir` and `fopen` are taken to succeed, and a directory that is missing has no files.
-/

namespace Fierro

/-- `%zu` and `%d` of a number that is not negative. -/
def fmtNat (n : ℕ) : List Char := Nat.toDigits 10 n

/-- `%05d` of a number that is not negative. -/
def fmtPad (n : ℕ) : List Char := List.replicate (5 - (fmtNat n).length) '0' ++ fmtNat n

/-- The directory of the index file over time. -/
def vizDir : List Char := ['v', 't', 'k', '/']

/-- The directory of the dumps. -/
def vizData : List Char := ['v', 't', 'k', '/', 'd', 'a', 't', 'a', '/']

/-- What the names of all files begin with, mesh_io.hpp:2653, 2669. -/
def vizStem : List Char := ['F', 'i', 'e', 'r', 'r', 'o']

/-- `Fierro.solver%zu`, mesh_io.hpp:4210, 4459, 4517. -/
def vizTitle (solver : ℕ) : List Char := vizStem ++ (['.', 's', 'o', 'l', 'v', 'e', 'r'] ++ fmtNat solver)

/-- Name of a file of fields within its directory, mesh_io.hpp:4210-4211, 4540-4541, 4556-4557. -/
def vtuRel (solver : ℕ) (part : List Char) (dump : ℕ) : List Char :=
  vizTitle solver ++ '.' :: (part ++ '.' :: (fmtPad dump ++ ['.', 'v', 't', 'u']))

/-- Name of the index of a dump within its directory, mesh_io.hpp:4517. -/
def vtmRel (solver dump : ℕ) : List Char :=
  vizTitle solver ++ '.' :: (fmtPad dump ++ ['.', 'v', 't', 'm'])

/-- The same seen from the directory of the index over time, mesh_io.hpp:4471. -/
def vtmFromTop (solver dump : ℕ) : List Char := ['d', 'a', 't', 'a', '/'] ++ vtmRel solver dump

/-- Name of the index over time within its directory, mesh_io.hpp:4459. -/
def pvdRel (solver : ℕ) : List Char := vizTitle solver ++ ['.', 'p', 'v', 'd']

/-- `elem_fields_name`, mesh_io.hpp:2676. -/
def partFields : List Char := ['f', 'i', 'e', 'l', 'd', 's']

/-- `mat_fields_name` with the number, mesh_io.hpp:2753-2755 and 4556-4557. -/
def partMat (m : ℕ) : List Char := ['m', 'a', 't'] ++ fmtNat m

/-- A line `DataSet` of an index: the time step as number, the file, the time. -/
structure VtmPiece (K : Type) where
  index : ℕ
  dump : ℕ
  file : List Char
  time : K
deriving DecidableEq

/-- A block of the index of a dump; `mats` tells the block of the materials from that of the mesh. -/
structure VtmBlock (K : Type) where
  index : ℕ
  mats : Bool
  pieces : List (VtmPiece K)
deriving DecidableEq

/-- Contents of a file. -/
inductive VizFile (K D : Type) where
  | vtu (d : D)
  | vtm (blocks : List (VtmBlock K))
  | pvd (entries : List (K × List Char))
  | other (text : List Char)

/-- A file system. -/
abbrev FileSys (K D : Type) := Mem (List Char) (VizFile K D)

/-- What goes into a dump: the contents of the file of the mesh, the contents of the files of the materials (`none`
for one without elements), whether there are variables of elements or nodes, and of materials. -/
structure VizDump (K D : Type) where
  time : K
  fields : D
  mats : List (Option D)
  meshVars : Bool
  matVars : Bool

section
variable {K D : Type}

/-- Whether `rm dir/Fierro*` removes a file. -/
def isCleared (dir name : List Char) : Bool :=
  (dir ++ vizStem).isPrefixOf name && !(name.drop (dir ++ vizStem).length).contains '/'

/-- The removal of old files, mesh_io.hpp:2642-2673: in the first dump of the first solver. -/
def clearOld (solver dump : ℕ) (fs : FileSys K D) : FileSys K D :=
  if solver = 0 ∧ dump = 0 then fun n => if isCleared vizDir n ∨ isCleared vizData n then none else fs n else fs

/-- Materials with a file and its contents, mesh_io.hpp:2709-2804. -/
def matFiles (d : VizDump K D) : List (ℕ × D) :=
  if d.matVars then d.mats.zipIdx.filterMap fun x => x.1.map fun c => (x.2, c) else []

/-- The files of fields of a dump, mesh_io.hpp:2682-2700 and 2776-2795. -/
def fieldFiles (solver dump : ℕ) (d : VizDump K D) : List (List Char × VizFile K D) :=
  (vizData ++ vtuRel solver partFields dump, .vtu d.fields) ::
    (matFiles d).map fun x => (vizData ++ vtuRel solver (partMat x.1) dump, .vtu x.2)

/-- One file of `write_vtm`, mesh_io.hpp:4533-4562. -/
def vtmBlocks (solver file : ℕ) (time : K) (numMats : ℕ) (meshState matState : Bool) : List (VtmBlock K) :=
  (if meshState then [⟨0, false, [⟨0, file, vtuRel solver partFields file, time⟩]⟩] else []) ++
  (if matState then
    [⟨if meshState then 1 else 0, true,
      (List.range numMats).map fun m => ⟨m, file, vtuRel solver (partMat m) file, time⟩⟩] else [])

/-- `write_vtm`, mesh_io.hpp:4497-4572: the indices of all dumps so far are written anew. -/
def writeVtm (solver dump numMats : ℕ) (meshState matState : Bool) (times : ℕ → K) :
    List (List Char × VizFile K D) :=
  (List.range (dump + 1)).map fun f =>
    (vizData ++ vtmRel solver f, .vtm (vtmBlocks solver f (times f) numMats meshState matState))

/-- `write_pvd`, mesh_io.hpp:4448-4482. -/
def writePvd (solver dump : ℕ) (times : ℕ → K) : List Char × VizFile K D :=
  (vizDir ++ pvdRel solver, .pvd ((List.range (dump + 1)).map fun f => (times f, vtmFromTop solver f)))

/-- What lives on between the dumps of a solver: `graphics_id`, `graphics_times` and the files. -/
structure VizState (K D : Type) where
  dump : ℕ
  times : ℕ → K
  fs : FileSys K D

/-- Size of `graphics_times`, sgh_execute.cpp:130, sgh_execute_rz.cpp:84, sgtm_execute.cpp:87,
level_set_execute.cpp:87. -/
def maxDumps : ℕ := 20000

/-- `write_mesh` with the format `viz`, mesh_io.hpp:2637-2856; `none`: a time is stored behind the end of
`graphics_times`. -/
def writeMesh (solver : ℕ) (s : VizState K D) (d : VizDump K D) : Option (VizState K D) :=
  let fs := Mem.writeAll (fieldFiles solver s.dump d) (clearOld solver s.dump s.fs)
  if maxDumps ≤ s.dump then none else
  let times := Function.update s.times s.dump d.time
  let fs := Mem.writeAll (writeVtm solver s.dump (matFiles d).length d.meshVars d.matVars times) fs
  let fs := Mem.write fs (writePvd solver s.dump times)
  some ⟨s.dump + 1, times, fs⟩

/-- The dumps of one solver: each `execute` has a `MeshWriter` and times of its own (sgh_execute.cpp:127-131; `t0` are
the unspecified times). -/
def writeSolver (solver : ℕ) (t0 : ℕ → K) (ds : List (VizDump K D)) (fs : FileSys K D) : Option (FileSys K D) :=
  (ds.foldlM (writeMesh solver) ⟨0, t0, fs⟩).map (·.fs)

/-- The dumps of all solvers, which run one after the other in the order of their numbers (driver.cpp:287-297). -/
def writeRun (t0 : ℕ → ℕ → K) (runs : List (List (VizDump K D))) (fs : FileSys K D) : Option (FileSys K D) :=
  runs.zipIdx.foldlM (fun fs x => writeSolver x.2 (t0 x.2) x.1 fs) fs

end

end Fierro
