import Verif.Model.CStream
import Verif.Model.EvpOrient

/-!
# EVPFFT: the microstructure files

Models the three readers of `apps/micromechanics/EVPFFT/src/data_grain.cpp` and the rows of `write_texture.cpp`.  Each
rank reads the whole file and keeps the points of its box `start .. stop` (`local_start`, `local_end`).
-/

namespace Fierro

/-- Orientation, grain and phase stored for a point; `none` is a variable that was never set. -/
structure GrainRow where
  ph : Option Val
  th : Option Val
  om : Option Val
  jgr : Option Val
  jph : Option Val

/-- The box of a rank in the whole grid. -/
structure RankBox where
  start : Fin 3 → ℕ
  stop : Fin 3 → ℕ

/-- The test of data_grain.cpp:181-183 and 330-332. -/
def RankBox.has (b : RankBox) (p : ℕ × ℕ × ℕ) : Bool :=
  (b.start 0 ≤ p.1 ∧ p.1 ≤ b.stop 0) ∧ (b.start 1 ≤ p.2.1 ∧ p.2.1 ≤ b.stop 1) ∧
    (b.start 2 ≤ p.2.2 ∧ p.2.2 ≤ b.stop 2)

/-- The subscripts on the rank, data_grain.cpp:185-187. -/
def RankBox.loc (b : RankBox) (p : ℕ × ℕ × ℕ) : ℕ × ℕ × ℕ :=
  (p.1 - b.start 0 + 1, p.2.1 - b.start 1 + 1, p.2.2 - b.start 2 + 1)

/-- The loops of data_grain.cpp:176-178: the first direction is the fastest. -/
def gridOrder (n1 n2 n3 : ℕ) : List (ℕ × ℕ × ℕ) :=
  (List.range n3).flatMap fun kk => (List.range n2).flatMap fun jj => (List.range n1).flatMap fun ii => [(ii, jj, kk)]

/-- The reading of one row, data_grain.cpp:180. -/
def classicRow : List Ins :=
  [.get .real ("ph", []), .get .real ("th", []), .get .real ("om", []), .get .int ("iiii", []),
   .get .int ("jjjj", []), .get .int ("kkkk", []), .get .int ("jgr", []), .get .int ("jph", []), .clear]

/-- What is stored of the variables, data_grain.cpp:188-192. -/
def GrainRow.ofEnv (env : Var → Option Val) : GrainRow :=
  ⟨env ("ph", []), env ("th", []), env ("om", []), env ("jgr", []), env ("jph", [])⟩

/-- The loop of `read_classic_los_alamos_texture_file`, data_grain.cpp:176-198: the assignments to the arrays of the
rank. -/
def classicLoop (F : NumConv) (b : RankBox) : List (ℕ × ℕ × ℕ) → Reader → List ((ℕ × ℕ × ℕ) × GrainRow)
  | [], _ => []
  | p :: ps, s =>
    let s := runIns F classicRow s
    (if b.has p then [(b.loc p, GrainRow.ofEnv s.env)] else []) ++ classicLoop F b ps s

/-- `read_classic_los_alamos_texture_file`, data_grain.cpp:166-205: what the arrays of a rank hold afterwards. -/
def readClassic (F : NumConv) (b : RankBox) (n1 n2 n3 : ℕ) (file : List Char) : Mem (ℕ × ℕ × ℕ) GrainRow :=
  Mem.writeAll (classicLoop F b (gridOrder n1 n2 n3) ⟨fun _ => none, ⟨file, true⟩⟩) Mem.empty

/-- The search for the key line, data_grain.cpp:316-321; `fuel` bounds the number of lines. -/
def skipToTable : ℕ → CStream → CStream
  | 0, s => s
  | fuel + 1, s =>
    match s.getline with
    | (none, s) => s
    | (some line, s) => if line = "LOOKUP_TABLE default".toList then s else skipToTable fuel s

/-- Conversion of a `double` to `int` (toward zero), data_grain.cpp:340-341. -/
noncomputable def latticeTrunc (x : ℝ) : ℤ := if 0 ≤ x then ⌊x⌋ else ⌈x⌉

/-- What is stored for a point, data_grain.cpp:337-341. -/
noncomputable def latticeRow (v : Option Val) : GrainRow :=
  let id : Option Val := match v with
    | some (.real x) => some (.int (latticeTrunc (x + 1)))
    | _ => none
  ⟨some (.real 0), some (.real 0), some (.real 0), id, id⟩

/-- The loop of `read_vtk_lattice_structure`, data_grain.cpp:325-346. -/
noncomputable def latticeLoop (F : NumConv) (b : RankBox) :
    List (ℕ × ℕ × ℕ) → Reader → List ((ℕ × ℕ × ℕ) × GrainRow)
  | [], _ => []
  | p :: ps, s =>
    let s := runIns F [.get .real ("grid_value", [])] s
    (if b.has p then [(b.loc p, latticeRow (s.env ("grid_value", [])))] else []) ++ latticeLoop F b ps s

/-- `read_vtk_lattice_structure`, data_grain.cpp:308-352. -/
noncomputable def readLattice (F : NumConv) (b : RankBox) (n1 n2 n3 : ℕ) (file : List Char) :
    Mem (ℕ × ℕ × ℕ) GrainRow :=
  Mem.writeAll (latticeLoop F b (gridOrder n1 n2 n3)
    ⟨fun _ => none, skipToTable (file.length + 1) ⟨file, true⟩⟩) Mem.empty

/-- The elements of a block of a data set in the order HDF5 hands them over: the last subscript is the fastest.  The
contract of `H5Dread` with the file space and memory space of hdf5_io_functions.cpp for strides of one. -/
def hyperslab {α : Type} : List ℕ → List ℕ → (List ℕ → α) → List α
  | s :: ss, n :: ns, D => (List.range n).flatMap fun i => hyperslab ss ns fun ix => D ((s + i) :: ix)
  | _, _, D => [D []]

/-- The array a rank gets from a data set with `rank` subscripts, data_grain.cpp:226-264: the four sizes and starts are
cut to the rank of the data set; with more subscripts the sizes are read past their end. -/
def readDataset {α : Type} (rank : ℕ) (last : ℕ) (b : RankBox) (n1 n2 n3 : ℕ) (D : List ℕ → α) : Option (List α) :=
  if 4 < rank then none
  else some (hyperslab (([b.start 2, b.start 1, b.start 0, 0] : List ℕ).take rank)
    (([n3, n2, n1, last] : List ℕ).take rank) D)

/-- Entry of an array of type `FMatrix (m,npts1,npts2,npts3)` with subscripts from one. -/
def fEntry {α : Type} (l : List α) (m n1 n2 : ℕ) (c i j k : ℕ) : Option α :=
  l[(c - 1) + m * ((i - 1) + n1 * ((j - 1) + n2 * (k - 1)))]?

/-- `read_hdf5_texture_file`, data_grain.cpp:207-296, at one point of the rank; `none` for a program that stops or
reads past an array. -/
noncomputable def readHdf5 (b : RankBox) (n1 n2 n3 : ℕ) (unit : ℤ) (rankE rankF rankP : ℕ) (E : List ℕ → ℝ)
    (Fid Pid : List ℕ → ℤ) (i j k : ℕ) : Option GrainRow :=
  if rankE ≠ 4 then none
  else
    (readDataset rankE 3 b n1 n2 n3 E).bind fun e =>
    (readDataset rankF 1 b n1 n2 n3 Fid).bind fun f =>
    (readDataset rankP 1 b n1 n2 n3 Pid).bind fun p =>
      let deg : Option ℝ → Option Val := fun x =>
        x.map fun x => .real (if unit = 1 then x * 180 / Real.pi else x)
      some ⟨deg (fEntry e 3 n1 n2 1 i j k), deg (fEntry e 3 n1 n2 2 i j k), deg (fEntry e 3 n1 n2 3 i j k),
        (fEntry f 1 n1 n2 1 i j k).map .int, (fEntry p 1 n1 n2 1 i j k).map .int⟩

/-- The rows `write_texture` prints on a rank with `n1 × n2 × n3` points, write_texture.cpp:12 and 43-69: subscripts,
angles, grain and phase.  Columns are numbers here, not their text. -/
noncomputable def textureRows (rank n1 n2 n3 : ℕ) (ag : ℕ → ℕ → ℕ → T2 ℝ) (jgrain jphase : ℕ → ℕ → ℕ → ℤ) :
    List ((ℕ × ℕ × ℕ) × (ℝ × ℝ × ℝ) × ℤ × ℤ) :=
  if rank = 0 then
    (gridOrder n1 n2 n3).map fun p =>
      let i := p.1 + 1
      let j := p.2.1 + 1
      let k := p.2.2 + 1
      ((i, j, k), writtenAngles (ag i j k), jgrain i j k, jphase i j k)
  else []

end Fierro
