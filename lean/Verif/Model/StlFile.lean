/-!
# The reader of binary STL files of the voxelizer

Models `binary_stl_reader` of `/repo/legacy/Fierro_V0/src/Voxelizer/src/stl-to-voxelvtk.cpp`, lines 309-390.

The stream is an `std::ifstream` opened for bytes.  A `read` of a stream that is no longer good stores nothing.  A `read`
that meets the end of the file stores the bytes that were left and makes the stream bad for good.  Numbers of four bytes
are read least significant byte first (the machines the code runs on); a `float` is kept as its four bytes.  A byte of a
variable that was never stored is `none`.
-/

namespace Fierro

/-- An input stream: the bytes not yet read, and whether its fail bit is set. -/
structure InStream where
  rest : List UInt8
  bad : Bool

/-- A variable in memory, byte by byte (`none`: not initialised). -/
abbrev Cells := List (Option UInt8)

/-- `input.read(ptr, n)` into the variable `c` of `n` bytes, stl-to-voxelvtk.cpp lines 329, 335 and 361-364. -/
def InStream.readInto (s : InStream) (c : Cells) : InStream × Cells :=
  if s.bad then (s, c)
  else
    let got := s.rest.take c.length
    (⟨s.rest.drop c.length, decide (s.rest.length < c.length)⟩, got.map some ++ c.drop got.length)

/-- `input.seekg(2, input.cur)`, stl-to-voxelvtk.cpp line 365.  A place beyond the end of the file may be sought. -/
def InStream.skip (s : InStream) (n : Nat) : InStream :=
  if s.bad then s else ⟨s.rest.drop n, false⟩

/-- The value of an `unsigned int`, if all its bytes were stored. -/
def cellsValue : Cells → Option Nat
  | [] => some 0
  | none :: _ => none
  | some b :: c => (cellsValue c).map fun v => b.toNat + 256 * v

/-- The four variables `normalp`, `v1p`, `v2p` and `v3p`, stl-to-voxelvtk.cpp lines 349-352. -/
structure StlBuf where
  normal : Cells
  v1 : Cells
  v2 : Cells
  v3 : Cells

/-- The variables before the first facet: not initialised, three floats of four bytes each. -/
def StlBuf.fresh : StlBuf :=
  ⟨List.replicate 12 none, List.replicate 12 none, List.replicate 12 none, List.replicate 12 none⟩

/-- The `j`-th of three floats, `v1p[j]`. -/
def floatAt (c : Cells) (j : Nat) : Cells := (c.drop (4 * j)).take 4

/-- One entry of each of the returned arrays, stl-to-voxelvtk.cpp lines 339-348. -/
structure StlEntry where
  normal : Nat → Cells
  v1X : Cells
  v1Y : Cells
  v1Z : Cells
  v2X : Cells
  v2Y : Cells
  v2Z : Cells
  v3X : Cells
  v3Y : Cells
  v3Z : Cells

/-- What is stored of the variables for a facet, stl-to-voxelvtk.cpp lines 366-377. -/
def StlBuf.entry (b : StlBuf) : StlEntry :=
  { normal := floatAt b.normal
    v1X := floatAt b.v1 0, v1Y := floatAt b.v1 1, v1Z := floatAt b.v1 2
    v2X := floatAt b.v2 0, v2Y := floatAt b.v2 1, v2Z := floatAt b.v2 2
    v3X := floatAt b.v3 0, v3Y := floatAt b.v3 1, v3Z := floatAt b.v3 2 }

/-- The reads of one facet, stl-to-voxelvtk.cpp lines 360-365. -/
def readFacet (s : InStream) (b : StlBuf) : InStream × StlBuf :=
  let r1 := s.readInto b.normal
  let r2 := r1.1.readInto b.v1
  let r3 := r2.1.readInto b.v2
  let r4 := r3.1.readInto b.v3
  (r4.1.skip 2, ⟨r1.2, r2.2, r3.2, r4.2⟩)

/-- The loop over the facets, stl-to-voxelvtk.cpp lines 359-387. -/
def readFacets : Nat → InStream → StlBuf → List StlEntry
  | 0, _, _ => []
  | n + 1, s, b =>
    let r := readFacet s b
    r.2.entry :: readFacets n r.1 r.2

/-- `binary_stl_reader`, stl-to-voxelvtk.cpp lines 310-390, for the bytes of a file (`none`: it cannot be opened, which
makes the stream bad from the start).  `none`: the number of facets is not determined, as `n_facets` was not (wholly)
stored, and the arrays are sized by it. -/
def readStl (file : Option (List UInt8)) : Option (List StlEntry) :=
  let s0 : InStream := ⟨file.getD [], file.isNone⟩
  let r1 := s0.readInto (List.replicate 80 none)
  let r2 := r1.1.readInto (List.replicate 4 none)
  (cellsValue r2.2).map fun n => readFacets n r2.1 StlBuf.fresh

end Fierro
