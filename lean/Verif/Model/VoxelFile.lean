import Verif.Model.MeshRead
import Verif.Model.RegionFill

/-!
# The reader of voxel files

`user_voxel_init` of common/src/region_fill.cpp and the use of its result by `fill_geometric_region`.  A file
is the list of its lines and ends with a line break.  `std::stod` is a parameter, numbers are exact and integers
have no largest value.  The outcome `none` stands for an exception, for an access outside an array and for the
use of a variable that was never set.
-/

namespace Fierro

/-- The search for a key word, region_fill.cpp:975-1000, 1008-1012 and 1037-1044 (and the same for the other key
words): the counter of the code is `1001` less the number given here; one line is inspected in every pass, behind the
end of the file the lines are empty.  Result: the fields of the line, the lines behind it, and the counter;
`none`: the loop was left without the key word. -/
def voxelFind (word : List Char) : ℕ → List (List Char) → Option (List (List Char) × List (List Char) × ℕ)
  | 0, [] => none
  | 0, l :: rest => (split l [' ']).bind fun v => if v.head? = some word then some (v, rest, 0) else none
  | f + 1, [] => voxelFind word f []
  | f + 1, l :: rest => (split l [' ']).bind fun v =>
      if v.head? = some word then some (v, rest, f) else voxelFind word f rest

/-- The loop over the lines with values, region_fill.cpp:1017-1033 (also 1058-1073, 1098-1113, 1194-1212): while
fewer than `n - 1` values are stored another line is read; every word of it is stored.  `none`: a word is not a
number, the file ends, or more than `n` values are stored.  Result: the stored values and the lines behind. -/
def voxelValues {α : Type} (conv : List Char → Option α) (n : ℕ) :
    List (List Char) → List α → Option (List α × List (List Char))
  | [], acc => if acc.length < n - 1 then none else some (acc, [])
  | l :: ls, acc =>
    if acc.length < n - 1 then
      (split (trim l) [' ']).bind fun v => (v.mapM conv).bind fun xs =>
        if n < acc.length + xs.length then none else voxelValues conv n ls (acc ++ xs)
    else some (acc, l :: ls)

/-- What the reader keeps: the numbers of points in the three directions, the stored coordinates, the number of
voxels and the stored values.  Entries of `elem_values` behind the stored ones are zero. -/
structure VoxelFile (K : Type) where
  nx : ℕ
  ny : ℕ
  nz : ℕ
  xs : List K
  ys : List K
  zs : List K
  size : ℕ
  vals : List ℤ
deriving DecidableEq

section
variable {K : Type} [Mul K]

/-- The coordinates of one direction, region_fill.cpp:1008-1046 (1048-1086, 1088-1126) with the check that the
entries used in region_fill.cpp:1134-1148 (`0`, `1` and `n - 2`) are set; `n = 0` makes the bound `n - 1` of the
loop wrap around.  Result: the stored coordinates, the lines behind, and the counter of the search. -/
def voxelCoords (stod : List Char → Option K) (word : List Char) (scale : K) (n f : ℕ) (lines : List (List Char)) :
    Option (List K × List (List Char) × ℕ) :=
  if n = 0 then none
  else (voxelFind word f lines).bind fun h =>
    (voxelValues (fun t => (stod t).map (scale * ·)) n h.2.1 []).bind fun s =>
      if s.1.length < 2 then none else some (s.1, s.2, h.2.2)

/-- The values, region_fill.cpp:1175-1224: without the key word all of them stay zero. -/
def voxelTable (n f : ℕ) (lines : List (List Char)) : Option (List ℤ) :=
  match voxelFind "LOOKUP_TABLE".toList f lines with
  | none => some []
  | some h => if n = 0 then none else (voxelValues (fun t => (readInt t).map Prod.fst) n h.2.1 []).map Prod.fst

/-- `user_voxel_init`, region_fill.cpp:926-1231.  The counter is not reset between the first four searches and
between the last two. -/
def readVoxelFile (stod : List Char → Option K) (sx sy sz : K) (file : List (List Char)) : Option (VoxelFile K) :=
  (voxelFind "DIMENSIONS".toList 1001 file).bind fun d =>
  (fieldNat d.1 1).bind fun nx => (fieldNat d.1 2).bind fun ny => (fieldNat d.1 3).bind fun nz =>
  (voxelCoords stod "X_COORDINATES".toList sx nx d.2.2 d.2.1).bind fun x =>
  (voxelCoords stod "Y_COORDINATES".toList sy ny x.2.2 x.2.1).bind fun y =>
  (voxelCoords stod "Z_COORDINATES".toList sz nz y.2.2 y.2.1).bind fun z =>
  (voxelFind "CELL_DATA".toList 1001 z.2.1).bind fun c =>
  (fieldNat c.1 1).bind fun n =>
  (voxelTable n c.2.2 c.2.1).map fun vals => ⟨nx, ny, nz, x.1, y.1, z.1, n, vals⟩

end

/-- One direction of the grid, region_fill.cpp:1128-1148. -/
noncomputable def voxelAxis (n : ℕ) (xs : List ℝ) : VoxelAxis := ⟨n, fun k => xs.getD k 0⟩

/-- The voxel branch of `fill_geometric_region` and the comparison with one, region_fill.cpp:1335-1363 and 364-382:
whether an element with centre `c` is filled by a region with origin `o`.  `none`: a spacing is zero, the code
divides by it. -/
noncomputable def voxelFills (g : VoxelFile ℝ) (o c : Fin 3 → ℝ) : Option Bool :=
  let ax := voxelAxis g.nx g.xs
  let ay := voxelAxis g.ny g.ys
  let az := voxelAxis g.nz g.zs
  if ax.spacing = 0 ∨ ay.spacing = 0 ∨ az.spacing = 0 then none
  else match voxelRead ax ay az o c g.size with
    | none => some false
    | some id => some (decide (g.vals.getD id 0 = 1))

end Fierro
