import Verif.Model.EvpStep
import Verif.Model.EvpColors

/-!
# EVPFFT: the graphics files of a step

Models `write_micro_state_pvtu`, `calculate_eel`, `symmetrize` and `calculate_vm_field` of
`apps/micromechanics/EVPFFT/src/write_micro_state.cpp`.  The binary section of a piece is a list of numbers, each with
the number of bytes `ofstream::write` is given for it.  Sizes are natural numbers (no overflow of `int`).  The text
around the numbers is reduced to the names and offsets of the arrays, which is what a reader takes from it.
-/

namespace Fierro.Evp

/-- A number in the binary section. -/
inductive VTok where
  | u64 (n : ℕ)
  | f64 (x : ℝ)
  | i32 (n : ℤ)
  | u8 (n : ℕ)

/-- Its size in bytes. -/
def VTok.size : VTok → ℕ
  | .u64 _ => 8
  | .f64 _ => 8
  | .i32 _ => 4
  | .u8 _ => 1

/-- What the writer of one rank takes its numbers from. -/
structure PieceIn where
  /-- points of the rank in each direction -/
  n1 : ℕ
  n2 : ℕ
  n3 : ℕ
  /-- `local_start1..3` -/
  start : Fin 3 → ℕ
  rank : ℕ
  imicro : ℕ
  tdot : ℝ
  /-- spacing -/
  delt : Fin 3 → ℝ
  /-- `disgradmacroactual` -/
  disgradmacro : T2 ℝ
  jphase : ℕ → ℕ → ℕ → ℤ
  jgrain : ℕ → ℕ → ℕ → ℤ
  gas : ℤ → Bool
  cg66 : ℕ → ℕ → ℕ → Fin 6 → Fin 6 → ℝ
  ag : ℕ → ℕ → ℕ → T2 ℝ
  disgrad : ℕ → ℕ → ℕ → T2 ℝ
  edotp : ℕ → ℕ → ℕ → T2 ℝ
  sg : ℕ → ℕ → ℕ → T2 ℝ
  q : BasisConst ℝ

namespace PieceIn

variable (P : PieceIn)

/-- The loops over the points of a block, `kx` fastest, write_micro_state.cpp:949-951 and the like. -/
def loop {α : Type} (n1 n2 n3 : ℕ) (f : ℕ → ℕ → ℕ → List α) : List α :=
  (List.range n3).flatMap fun c => (List.range n2).flatMap fun b => (List.range n1).flatMap fun a =>
    f (a + 1) (b + 1) (c + 1)

/-- `symmetrize`, write_micro_state.cpp:191-215. -/
noncomputable def symm (t : T2 ℝ) : T2 ℝ := fun ii jj => 0.5 * (t ii jj + t jj ii)

open Classical in
/-- `calculate_eel` at one point, write_micro_state.cpp:133-189, with the inverse taken as
`refCompliance` (`invert_matrix` on the pointer; a failed inversion is not looked at). -/
noncomputable def eel (i j k : ℕ) : T2 ℝ :=
  if P.gas (P.jphase i j k) then fun _ _ => -100
  else
    let cinvg := chgBasis3 P.q le_rfl (refCompliance (P.cg66 i j k))
    fun ii jj => ∑ kk, ∑ ll, cinvg ii jj kk ll * P.sg i j k kk ll

/-- `defgradavg`, write_micro_state.cpp:483-493. -/
noncomputable def defgradavg : T2 ℝ := fun ii jj =>
  (if P.imicro = 0 then 0 else P.disgradmacro ii jj) + if ii = jj then 1 else 0

/-- `xintp`, write_micro_state.cpp:497-517. -/
noncomputable def xintp (kx ky kz : ℕ) : Fin 3 → ℝ := fun ii =>
  let xtmp : Fin 3 → ℝ := ![kx + P.start 0 - 0.5, ky + P.start 1 - 0.5, kz + P.start 2 - 0.5]
  (∑ jj, P.defgradavg ii jj * xtmp jj) * P.delt ii

/-- The points in the order they are written, write_micro_state.cpp:948-960. -/
def pointOrder : List (ℕ × ℕ × ℕ) := loop (P.n1 + 1) (P.n2 + 1) (P.n3 + 1) fun a b c => [(a, b, c)]

/-- `pid`, write_micro_state.cpp:948-957: the value of the counter when the point is written. -/
def pid (a b c : ℕ) : ℕ := P.pointOrder.idxOf (a, b, c)

/-- `num_points`, write_micro_state.cpp:451. -/
def numPoints : ℕ := (P.n1 + 1) * (P.n2 + 1) * (P.n3 + 1)

/-- `num_cells`, write_micro_state.cpp:452. -/
def numCells : ℕ := P.n1 * P.n2 * P.n3

/-- The arrays of the header in order, each with the amount by which `byte_offset` grows behind it,
write_micro_state.cpp:729-894. -/
def header : List (String × ℕ) :=
  [("TimeValue", 8 + 8),
   ("Points", P.numPoints * 3 * 8 + 8),
   ("connectivity", P.numCells * 8 * 4 + 8),
   ("offsets", P.numCells * 4 + 8),
   ("types", P.numCells * 4 + 8),
   ("rank", P.numCells * 4 + 8),
   ("phase_id", P.numCells * 4 + 8),
   ("grain_id", P.numCells * 4 + 8),
   ("vm-strain", P.numCells * 8 + 8),
   ("vm-stress", P.numCells * 8 + 8),
   ("vm-pl-strain-rate", P.numCells * 8 + 8),
   ("vm-el-strain", P.numCells * 8 + 8),
   ("strain", 6 * P.numCells * 8 + 8),
   ("stress", 6 * P.numCells * 8 + 8),
   ("pl-strain-rate", 6 * P.numCells * 8 + 8),
   ("el-strain", 6 * P.numCells * 8 + 8),
   ("IPFColor", P.numCells * 3 * 1 + 8)]

/-- The offset written for each array: the value of `byte_offset` before it grows. -/
def offsets : List (String × ℕ) → ℕ → List (String × ℕ)
  | [], _ => []
  | (n, s) :: rest, o => (n, o) :: offsets rest (o + s)

/-- The six entries of a tensor in the order of write_micro_state.cpp:1108-1113. -/
def six (t : T2 ℝ) : List VTok :=
  [.f64 (t 0 0), .f64 (t 1 1), .f64 (t 2 2), .f64 (t 0 1), .f64 (t 1 2), .f64 (t 0 2)]

/-- The corners of a cell in the order of write_micro_state.cpp:977-993. -/
def corners (a b c : ℕ) : List VTok :=
  [.i32 (P.pid a b c), .i32 (P.pid (a + 1) b c), .i32 (P.pid (a + 1) (b + 1) c), .i32 (P.pid a (b + 1) c),
   .i32 (P.pid a b (c + 1)), .i32 (P.pid (a + 1) b (c + 1)), .i32 (P.pid (a + 1) (b + 1) (c + 1)),
   .i32 (P.pid a (b + 1) (c + 1))]

/-- The blocks of the binary section, each with the size written in front of it, write_micro_state.cpp:930-1176. -/
noncomputable def blocks : List (ℕ × List VTok) :=
  let cell := loop (α := VTok) P.n1 P.n2 P.n3
  [(8, [.f64 (P.imicro * P.tdot)]),
   (P.numPoints * 3 * 8, loop (P.n1 + 1) (P.n2 + 1) (P.n3 + 1) fun a b c =>
     [.f64 (P.xintp a b c 0), .f64 (P.xintp a b c 1), .f64 (P.xintp a b c 2)]),
   (P.numCells * 8 * 4, cell P.corners),
   (P.numCells * 4, (List.range P.numCells).map fun e => .i32 ((e + 1 : ℕ) * 8)),
   (P.numCells * 4, (List.range P.numCells).map fun _ => .i32 12),
   (P.numCells * 4, (List.range P.numCells).map fun _ => .i32 P.rank),
   (P.numCells * 4, cell fun a b c => [.i32 (P.jphase a b c)]),
   (P.numCells * 4, cell fun a b c => [.i32 (P.jgrain a b c)]),
   (P.numCells * 8, cell fun a b c => [.f64 (vmStrain (symm (P.disgrad a b c)))]),
   (P.numCells * 8, cell fun a b c => [.f64 (vmStress (P.sg a b c))]),
   (P.numCells * 8, cell fun a b c => [.f64 (vmStrain (symm (P.edotp a b c)))]),
   (P.numCells * 8, cell fun a b c => [.f64 (vmStrain (symm (P.eel a b c)))]),
   (6 * P.numCells * 8, cell fun a b c => six (symm (P.disgrad a b c))),
   (6 * P.numCells * 8, cell fun a b c => six (P.sg a b c)),
   (6 * P.numCells * 8, cell fun a b c => six (symm (P.edotp a b c))),
   (6 * P.numCells * 8, cell fun a b c => six (symm (P.eel a b c))),
   (P.numCells * 3 * 1, cell fun a b c =>
     [.u8 (calcIPF (P.ag a b c) 0), .u8 (calcIPF (P.ag a b c) 1), .u8 (calcIPF (P.ag a b c) 2)])]

/-- The binary section: each block behind its size. -/
noncomputable def appended : List VTok := P.blocks.flatMap fun b => .u64 b.1 :: b.2

end PieceIn

/-- The arrays announced for all pieces in the `.pvtu` file, with their numbers of components,
write_micro_state.cpp:577-661. -/
def pvtuArrays : List (String × ℕ) :=
  [("Points", 3), ("rank", 1), ("phase_id", 1), ("grain_id", 1), ("vm-strain", 1), ("vm-stress", 1),
   ("vm-pl-strain-rate", 1), ("vm-el-strain", 1), ("strain", 6), ("stress", 6), ("pl-strain-rate", 6),
   ("el-strain", 6), ("IPFColor", 3)]

end Fierro.Evp
