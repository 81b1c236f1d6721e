/-!
# Runs with separate host and device memory

Most arrays of the multiphysics code are MATAR "dual" arrays (`DCArrayKokkos`,
`DRaggedRightArrayKokkos`): one copy for the host, reached by `a.host(...)`, and one for the
device, reached by `a(...)` inside a kernel.  `a.update_device()` copies host to device,
`a.update_host()` device to host.  On a CPU build both names mean the same memory and the copies
do nothing; on a GPU build they are two memories and nothing else moves data between them.

The model keeps the copies apart.  The content of an array is one value of an arbitrary type `V`,
and what a loop or a kernel computes is left open: every host loop and every kernel is a step with
the lists of the copies it may read and of the copies it may write, and a label under which the
function it computes is looked up.  An array of which only a part is written is listed as read as
well, or is among the arrays which the step reads anyway.
-/

namespace Fierro.Dual

variable {ι V : Type} [DecidableEq ι]

/-- Which copies are up to date: `h` on the host, `d` on the device. -/
structure Flags (ι : Type) where
  h : List ι
  d : List ι
  deriving DecidableEq

/-- A program: host loops and kernels (`run`), host code that uses the device name of an array
(`raw`), the two copies, sequence, branches and loops decided by the host. -/
inductive Prog (ι : Type) where
  | skip
  | run (lbl : Nat) (rdH rdD wrH wrD : List ι)
  | raw (lbl : Nat) (rd wr : List ι)
  | pull (a : ι)
  | push (a : ι)
  | seq (p q : Prog ι)
  | ite (lbl : Nat) (rd : List ι) (p q : Prog ι)
  | loop (lbl : Nat) (rd : List ι) (p : Prog ι)

/-- The two copies of every array. -/
structure Mem (ι V : Type) where
  host : ι → V
  dev : ι → V

/-- How a run ends: with a memory, with an access to memory of the other side, or not within the
number of loop passes allowed. -/
inductive Res (σ : Type) where
  | done (m : σ)
  | fault
  | more
  deriving DecidableEq

def Res.bind {σ τ : Type} : Res σ → (σ → Res τ) → Res τ
  | .done m, f => f m
  | .fault, _ => .fault
  | .more, _ => .more

def Res.map {σ τ : Type} (f : σ → τ) : Res σ → Res τ
  | .done m => .done (f m)
  | .fault => .fault
  | .more => .more

/-- What a step sees of one side: the copies it reads and nothing else. -/
def mask (rd : List ι) (σ : ι → V) : ι → Option V := fun a => if a ∈ rd then some (σ a) else none

/-- Replace the copies of the arrays written. -/
def put (wr : List ι) (new : ι → V) (σ : ι → V) : ι → V := fun a => if a ∈ wr then new a else σ a

/-- The functions computed by the steps and the tests of the branches and loops. -/
structure Code (ι V : Type) where
  step : Nat → (ι → Option V) → (ι → Option V) → ι → V
  test : Nat → (ι → Option V) → Bool

/-- A loop with a bound on its passes. -/
def iter {σ : Type} (c : σ → Bool) (body : σ → Res σ) : Nat → σ → Res σ
  | 0, _ => .more
  | n + 1, m => if c m then (body m).bind (iter c body n) else .done m

/-- A run where host and device have separate memories. -/
def runSep (C : Code ι V) (n : Nat) : Prog ι → Mem ι V → Res (Mem ι V)
  | .skip, m => .done m
  | .run l rdH rdD wrH wrD, m =>
      let new := C.step l (mask rdH m.host) (mask rdD m.dev)
      .done ⟨put wrH new m.host, put wrD new m.dev⟩
  | .raw _ _ _, _ => .fault
  | .pull a, m => .done ⟨put [a] m.dev m.host, m.dev⟩
  | .push a, m => .done ⟨m.host, put [a] m.host m.dev⟩
  | .seq p q, m => (runSep C n p m).bind (runSep C n q)
  | .ite l rd p q, m => if C.test l (mask rd m.host) then runSep C n p m else runSep C n q m
  | .loop l rd p, m => iter (fun m => C.test l (mask rd m.host)) (runSep C n p) n m

/-- A run where host and device share one memory, as in a CPU build. -/
def runOne (C : Code ι V) (n : Nat) : Prog ι → (ι → V) → Res (ι → V)
  | .skip, s => .done s
  | .run l rdH rdD wrH wrD, s =>
      .done (put (wrH ++ wrD) (C.step l (mask rdH s) (mask rdD s)) s)
  | .raw l rd wr, s => .done (put wr (C.step l (mask rd s) (mask rd s)) s)
  | .pull _, s => .done s
  | .push _, s => .done s
  | .seq p q, s => (runOne C n p s).bind (runOne C n q)
  | .ite l rd p q, s => if C.test l (mask rd s) then runOne C n p s else runOne C n q s
  | .loop l rd p, s => iter (fun s => C.test l (mask rd s)) (runOne C n p) n s

/-- Both up to date. -/
def Flags.meet (F G : Flags ι) : Flags ι :=
  ⟨F.h.filter (fun a => a ∈ G.h), F.d.filter (fun a => a ∈ G.d)⟩

/-- Up to date in the first, then in the second. -/
def Flags.le (F G : Flags ι) : Prop := F.h ⊆ G.h ∧ F.d ⊆ G.d

instance (F G : Flags ι) : Decidable (F.le G) := by unfold Flags.le; infer_instance

/-- The analysis: follow which copies are up to date and refuse a step that reads one which is
not.  A loop is analysed from its entry, then from what is up to date both there and after one
pass; that has to be kept by a pass. -/
def check : Flags ι → Prog ι → Option (Flags ι)
  | F, .skip => some F
  | F, .run _ rdH rdD wrH wrD =>
      if rdH ⊆ F.h ∧ rdD ⊆ F.d then
        some ⟨wrH ++ F.h.filter (fun a => a ∉ wrD ∧ a ∉ wrH),
          wrD ++ F.d.filter (fun a => a ∉ wrH ∧ a ∉ wrD)⟩
      else none
  | _, .raw _ _ _ => none
  | F, .pull a => if a ∈ F.d then some ⟨a :: F.h.filter (fun b => b ≠ a), F.d⟩
      else some ⟨F.h.filter (fun b => b ≠ a), F.d⟩
  | F, .push a => if a ∈ F.h then some ⟨F.h, a :: F.d.filter (fun b => b ≠ a)⟩
      else some ⟨F.h, F.d.filter (fun b => b ≠ a)⟩
  | F, .seq p q => (check F p).bind (fun G => check G q)
  | F, .ite _ rd p q =>
      if rd ⊆ F.h then (check F p).bind fun G₁ => (check F q).bind fun G₂ => some (G₁.meet G₂)
      else none
  | F, .loop _ rd p =>
      (check F p).bind fun G =>
        if rd ⊆ (F.meet G).h then
          (check (F.meet G) p).bind fun G' => if (F.meet G).le G' then some (F.meet G) else none
        else none

/-- One after the other. -/
def seqs : List (Prog ι) → Prog ι
  | [] => .skip
  | p :: ps => .seq p (seqs ps)

/-! ## The arrays of the multiphysics code -/

/-- The arrays of a run.  `ctl` are the host variables (loop counters, times, time step, options of
the deck kept in plain structures), `deck` the input files, `files` the output files.  The arrays
that exist on the device only (`CArrayKokkos`, `RaggedRightArrayKokkos`) are kept in groups; no
step uses a host copy of these. -/
inductive Arr where
  -- deck, host variables, output
  | deck | ctl | files
  -- parsed input
  | bcLists | bcEnums | bcData | matOpts | matFns | tables | regLists | numRegs | regFills
  -- mesh
  | coords | nodesInElem | objectIds | fileCoords | fileConn | elemTypes | nodeOrder
  | meshLinks | bdySets | numBdyPatches | numBdyNodes
  -- fills
  | readVoxel | voxelIds | fillScratch | elemVolfrac | elemGeoVolfrac | numMatsInElem | matsInElem
  | matElemsInElem | fDen | fStress | fElastic | fShear | fPoisson | fSie | fUseSie | fIe | fCond
  | fHeat | fLevel
  -- sizes and maps
  | numSaved | numMatElems | numPoints | numCorners | numZones | numMatElemsBuf | numPointsBuf
  | numCornersBuf | numZonesBuf | elemInMatElem
  -- state
  | nodeVel | nodeTemp | nodeMass | nodeForce | nodeHeat | gradLevel | corner | gaussVol | gaussDiv
  | velGrad | levelSet | den | mass | sie | eroded | volfrac | geoVolfrac | cond | heat | zonesSie
  | pres | stress | sspd | modelVars | stepStart
  -- contact and fracture
  | contact | numActive | normIncs | pairCount | pairs | czInfo | bcParams | prony | czVars
  -- moving heat source
  | toolPath | sphere | numPatchTmp
  -- output
  | elemScalars | elemTensors | nodeScalars | nodeVectors | matScalars | matTensors | matCoords
  | matConn | nodeCount | nodeAccess
  deriving DecidableEq, Repr

open Arr

/-- The state a kernel of a solver may read and write, on the device. -/
def solverState : List Arr :=
  [coords, nodeVel, nodeTemp, nodeMass, nodeForce, nodeHeat, gradLevel, corner, gaussVol, gaussDiv,
   velGrad, den, mass, sie, eroded, volfrac, geoVolfrac, cond, heat, pres, stress, sspd, modelVars,
   stepStart, contact, czVars, sphere]

/-- What a kernel of a solver may read besides, on the device. -/
def solverTables : List Arr :=
  [nodesInElem, meshLinks, bdySets, numBdyPatches, numBdyNodes, elemInMatElem, bcEnums, bcData,
   matOpts, matFns, tables, pairs, czInfo, prony, toolPath, numActive]

/-- The host copies that the solvers read to launch a kernel: numbers of material elements and
points, numbers of nodes and patches of a boundary set, the options of materials and boundary
conditions, the lists of boundary conditions of a solver. -/
def solverHost : List Arr :=
  [ctl, numMatElems, numPoints, numBdyNodes, numBdyPatches, matOpts, bcEnums, bcLists]

/-- A kernel of a solver: which arrays it really uses is left open within `solverState`. -/
def kern (l : Nat) (extra : List Arr := []) : Prog Arr :=
  .run l solverHost (extra ++ solverState ++ solverTables) [] (extra ++ solverState)

/-- A reduction of a solver into a host variable (time step). -/
def reduce (l : Nat) (extra : List Arr := []) : Prog Arr :=
  .run l solverHost (extra ++ solverState ++ solverTables) [ctl] []

/-- Host bookkeeping: counters, times, flags. -/
def book (l : Nat) : Prog Arr := .run l solverHost [] [ctl] []

/-- Allocation: both copies hold the same (zero). -/
def alloc (l : Nat) (as : List Arr) : Prog Arr := .run l [] [] as as

/-- `for` loop of the host around kernels: its counter is among the host variables. -/
def hostLoop (l : Nat) (p : Prog Arr) : Prog Arr :=
  .loop l solverHost (.seq p (book (l + 1)))

/-! ## Input -/

/-- `parse_bcs`, `parse_regions`, `parse_materials`
(`input/parse_bdy_conds_inputs.cpp:116-138,228-230,324-329,383-385,730-748`,
`input/parse_regions.cpp:73-76,130-134,1500-1502`,
`input/parse_material_inputs.cpp:225-700,857-880`): boundary lists on the host, boundary
conditions on the device with a copy of the enumerations to the host; the region lists are set to
zero on the device, copied to the host, filled there and copied back; the options of a material
are set on both sides, its functions on the device, the tables on the host and copied. -/
def parse : Prog Arr := seqs [
  .run 10 [deck] [] [ctl, bcLists] [],
  .run 11 [deck, ctl] [] [] [bcEnums, bcData],
  .pull bcEnums,
  .run 12 [] [] [] [numRegs],
  .pull numRegs,
  .run 13 [deck, ctl, numRegs] [] [regLists, numRegs] [],
  .push regLists,
  .push numRegs,
  .run 14 [deck, ctl] [] [] [regFills],
  .run 15 [deck, ctl] [] [matOpts] [matOpts],
  .run 16 [deck, ctl] [] [] [matFns],
  .run 17 [deck, ctl] [] [tables] [],
  .push tables]

/-- The mesh.  Either coordinates and nodes of the elements are set on the host and copied: the
Ensight, Abaqus and VTK readers and the builders of box meshes
(`common/include/mesh_io.hpp:441-521,659-687,779-868,1387-1428,1517-1563,1647-1696,1805-1867`), or
the VTU reader (`:1006-1229`) reads into temporary arrays, copies these and fills the mesh by
kernels, copying the mesh back to the host.  Then the connectivity is built by kernels (library
code). -/
def meshInput : Prog Arr := seqs [
  .ite 20 [ctl]
    (seqs [.run 21 [deck, ctl] [] [coords] [], .push coords,
           .run 22 [deck, ctl] [] [nodesInElem] [], .push nodesInElem])
    (seqs [.run 23 [deck, ctl] [] [objectIds] [], .push objectIds,
           .run 24 [deck, ctl] [] [fileCoords] [], .push fileCoords,
           .run 25 [ctl] [fileCoords] [] [coords], .pull coords,
           .run 26 [deck, ctl] [] [fileConn] [], .push fileConn,
           .run 27 [deck, ctl] [] [elemTypes] [], .push elemTypes,
           .run 28 [ctl] [elemTypes] [] [],
           .ite 29 [elemTypes, ctl]
             (seqs [.run 30 [ctl] [] [nodeOrder] [], .push nodeOrder,
                    .run 31 [ctl] [fileConn, nodeOrder] [] [nodesInElem]])
             (.run 32 [ctl] [fileConn] [] [nodesInElem]),
           .pull nodesInElem]),
  .run 33 [ctl] [nodesInElem] [] [meshLinks]]

/-- `tag_bdys` and `build_boundry_node_sets` (`common/src/geometry_new.cpp:715-874`). -/
def boundarySets : Prog Arr := seqs [
  .run 40 [ctl] [bcData, coords, meshLinks] [] [bdySets, numBdyPatches],
  .pull numBdyPatches,
  .run 41 [ctl, numBdyPatches] [bdySets] [] [bdySets],
  .run 42 [ctl] [numBdyPatches, bdySets, meshLinks] [] [bdySets, numBdyNodes],
  .pull numBdyNodes]

/-! ## Fills and material state -/

/-- The fields a fill may set at the Gauss points (`common/src/region_fill.cpp:607-642`). -/
def fillFields : List Arr :=
  [fDen, fStress, fElastic, fShear, fPoisson, fSie, fUseSie, fIe, fCond, fHeat, fLevel]

/-- Copy a list of arrays to the host. -/
def pulls (l : List Arr) : Prog Arr := seqs (l.map .pull)

/-- Copy a list of arrays to the device. -/
def pushes (l : List Arr) : Prog Arr := seqs (l.map .push)

/-- The first part of `fill_regions` (`common/src/region_fill.cpp:286-435`): which fills read a
voxel file is found on the device and copied to the host; per fill the voxel file is read on the
host and copied, then a kernel finds the elements. -/
def findFills : Prog Arr := seqs [
  alloc 49 [readVoxel, voxelIds, fillScratch],
  .run 50 [ctl] [regFills] [] [readVoxel],
  .pull readVoxel,
  .loop 51 [ctl] (seqs [
    .ite 52 [ctl, readVoxel] (.seq (.run 53 [deck, ctl] [] [voxelIds] []) (.push voxelIds)) .skip,
    .run 54 [ctl] [coords, nodesInElem, regFills, objectIds, voxelIds, fillScratch, matsInElem,
        numMatsInElem, elemVolfrac, elemGeoVolfrac] []
      [fillScratch, matsInElem, numMatsInElem, elemVolfrac, elemGeoVolfrac],
    .run 55 [ctl] [] [ctl] []])]

/-- The rest of `fill_regions` (`common/src/region_fill.cpp:443-662`) for a list `fl` of Gauss
fields and a list `fn` of nodal fields: the kernels paint the fields, then the four element arrays
and the fields of the two lists are copied to the host. -/
def paintFills (fl fn : List Arr) : Prog Arr := seqs [
  .run 56 [ctl] ([coords, nodesInElem, regFills, fillScratch, matsInElem, numMatsInElem] ++ fl) []
    fl,
  .run 57 [ctl] [coords, nodesInElem, regFills, fillScratch, meshLinks, nodeVel, nodeTemp] []
    [nodeVel, nodeTemp],
  .pull matsInElem, .pull elemVolfrac, .pull elemGeoVolfrac, .pull numMatsInElem,
  pulls fl, pulls fn]

/-- `simulation_setup` (`common/src/region_fill.cpp:60-216`, `common/include/state.hpp:391-397`):
volumes, the number of materials of an element set to zero on the device and copied, the fills,
the number of elements of every material by a reduction into the host copy, then the sizes of the
material arrays on the host, all copied to the device. -/
def simulationSetup (fl fn : List Arr) : Prog Arr := seqs [
  .run 60 [ctl] [coords, nodesInElem] [] [gaussVol],
  alloc 59 (fl ++ [elemVolfrac, elemGeoVolfrac, numMatsInElem, matsInElem, matElemsInElem]),
  .run 61 [] [] [] [numMatsInElem], .pull numMatsInElem,
  findFills, paintFills fl fn,
  alloc 62 [numSaved],
  .loop 63 [ctl] (.run 64 [ctl, numSaved] [numMatsInElem, matsInElem] [numSaved, ctl] []),
  .push numSaved,
  .run 65 [ctl, numSaved] [] [numMatElems, numPoints, numCorners, numZones, numMatElemsBuf,
    numPointsBuf, numCornersBuf, numZonesBuf] [],
  pushes [numMatElems, numPoints, numCorners, numZones, numMatElemsBuf, numPointsBuf,
    numCornersBuf, numZonesBuf]]

/-- Which material arrays the solvers of the run have allocated
(`common/src/region_fill.cpp:716-720,767-821,831-842,861-886`). -/
structure Alloc where
  den : Bool
  sie : Bool
  zones : Bool
  eroded : Bool
  cond : Bool
  heat : Bool
  level : Bool

/-- A list of arrays present when allocated. -/
def opt (b : Bool) (l : List Arr) : List Arr := if b then l else []

/-- The material arrays written by the host loop. -/
def Alloc.written (A : Alloc) : List Arr :=
  opt A.den [Arr.den, mass] ++ opt A.eroded [Arr.eroded] ++ opt A.sie [Arr.sie] ++
    opt A.cond [Arr.cond] ++ opt A.heat [Arr.heat] ++ opt A.level [levelSet] ++
    opt A.zones [zonesSie]

/-- The material arrays copied to the device after the host loop: the level set is not among
them. -/
def Alloc.copied (A : Alloc) : List Arr :=
  opt A.den [Arr.den, mass] ++ opt A.sie [Arr.sie] ++ opt A.zones [zonesSie] ++
    opt A.eroded [Arr.eroded] ++ opt A.cond [Arr.cond] ++ opt A.heat [Arr.heat]

/-- `material_state_setup` (`common/src/region_fill.cpp:700-894`): the volumes are copied to the
host; an allocated level set is set to 1e32 on the device and copied to the host; a host loop over
the elements fills the maps and the material arrays; the arrays are copied to the device. -/
def materialSetup (A : Alloc) (fl : List Arr) : Prog Arr := seqs [
  alloc 69 [numSaved], .run 70 [ctl] [] [numSaved] [],
  .pull gaussVol,
  if A.level then .seq (.run 71 [] [] [] [levelSet]) (.pull levelSet) else .skip,
  .run 72 ([ctl, numMatsInElem, matsInElem, numSaved, elemVolfrac, elemGeoVolfrac, gaussVol,
      elemInMatElem, matElemsInElem, volfrac, geoVolfrac] ++ A.written ++ fl) []
    ([elemInMatElem, matElemsInElem, volfrac, geoVolfrac, numSaved] ++ A.written) [],
  .push elemInMatElem, .push volfrac, .push geoVolfrac,
  pushes A.copied]

/-! ## Output -/

/-- `build_material_elem_node_lists` (`common/include/mesh_io.hpp:4603-4669`). -/
def matMesh : Prog Arr := seqs [
  alloc 79 [nodeCount, nodeAccess], .run 80 [] [] [] [nodeCount],
  .run 81 [ctl, numMatElems] [elemInMatElem, nodesInElem, nodeCount] [] [nodeCount],
  .pull nodeCount,
  .run 82 [ctl, nodeCount, coords, matCoords, nodeAccess] [] [matCoords, nodeAccess, nodeCount,
    ctl] [],
  .push matCoords, .push nodeAccess, .push nodeCount,
  .run 78 [ctl, numMatElems] [elemInMatElem, nodesInElem, nodeAccess] [] [matConn],
  .pull matConn]

/-- `write_mesh` (`common/include/mesh_io.hpp:1936-2050,2562-2800`) for the list `req` of the
fields of the solver: the fields are copied to the host; kernels collect the fields asked for into
arrays of the writer, which are copied to the host; the host writes the files from these, the
coordinates and the nodes of the elements; then the same per material. `extra` are the arrays the
kernels read besides the state of all solvers. -/
def writer (req extra : List Arr) : Prog Arr := seqs [
  pulls req,
  alloc 83 [elemScalars, elemTensors, nodeScalars, nodeVectors],
  .loop 84 solverHost
    (.seq (.run 85 solverHost (extra ++ solverState ++ solverTables ++ [elemScalars, elemTensors]) []
      [elemScalars, elemTensors]) (book 86)),
  .run 87 [ctl] [elemScalars] [] [elemScalars],
  .pull elemScalars, .pull elemTensors,
  .run 88 [ctl] solverState [] [nodeScalars, nodeVectors],
  .pull nodeScalars, .pull nodeVectors,
  .ite 89 [ctl] (seqs [
    .run 90 [ctl, coords, nodesInElem, elemScalars, elemTensors, nodeScalars, nodeVectors, files] []
      [files] [],
    .loop 91 solverHost
      (.seq (.ite 92 solverHost (seqs [
        alloc 93 [matScalars, matTensors, matCoords, matConn],
        .run 94 solverHost (solverState ++ solverTables ++ [matScalars, matTensors]) []
          [matScalars, matTensors],
        .pull matScalars, .pull matTensors,
        matMesh,
        .run 95 [ctl, numMatElems, matCoords, matConn, matScalars, matTensors, nodeScalars,
          nodeVectors, files] [] [files] []]) .skip) (book 96)),
    .run 97 [ctl, files] [] [files, ctl] []]) .skip]

/-- Fields of the 3D hydrodynamics solver
(`Solvers/SGH_solver_3D/include/sgh_solver_3D.hpp:61-85`); those without an array or a copy in
`write_mesh` (force, shear moduli) are left out. -/
def hydroReq : List Arr :=
  [den, pres, stress, sie, sspd, mass, volfrac, geoVolfrac, eroded, gaussVol, velGrad, coords,
   nodeVel, nodeMass]

/-- Fields of the axisymmetric solver (`Solvers/SGH_solver_rz/include/sgh_solver_rz.hpp:61-84`). -/
def rzReq : List Arr :=
  [den, pres, stress, sspd, mass, volfrac, geoVolfrac, sie, eroded, gaussVol, velGrad, coords,
   nodeVel, nodeMass]

/-- Fields of the thermal solver (`Solvers/SGTM_solver_3D/include/sgtm_solver_3D.hpp:60-87`). -/
def thermReq : List Arr :=
  [den, pres, stress, sspd, mass, volfrac, geoVolfrac, sie, eroded, cond, heat, gaussVol, gaussDiv,
   coords, nodeVel, nodeMass, nodeTemp]

/-- Fields of the level set solver (`Solvers/level_set_solver/include/level_set_solver.hpp:59-74`). -/
def levelReq : List Arr := [volfrac, geoVolfrac, levelSet, gaussVol, coords, gradLevel, nodeVel]

/-! ## Solvers -/

/-- `cohesive_zones_t::initialize` (`Solvers/SGH_solver_3D/src/fracture.cpp:49-160,426-440,845-851`):
the coordinates are copied to the device once more, the counter of pairs is set on the host and
copied, counted by a kernel and copied back, set and copied again; the pairs are copied to the host
and the cohesive zone data are copied to the host and back. -/
def fractureSetup : Prog Arr := seqs [
  .push coords,
  alloc 99 [pairCount], .run 100 [] [] [pairCount] [], .push pairCount,
  .run 101 [ctl] [coords, meshLinks, pairCount] [] [pairCount],
  .pull pairCount,
  .run 102 [ctl, pairCount] [] [ctl] [],
  .run 103 [] [] [pairCount] [], .push pairCount,
  .run 104 [ctl] [coords, meshLinks, pairCount] [] [pairs, pairCount],
  .pull pairs,
  .run 105 [ctl] [pairs, meshLinks] [ctl] [],
  .run 106 [ctl] [pairs, meshLinks, nodesInElem, coords] [] [czInfo],
  .pull czInfo, .push czInfo, .pull czInfo]

/-- `initialize_fracture_bc` (`fracture.cpp:195-282`): parameters of the boundary condition on the
device, copied to the host, the Prony terms set on the host and copied. -/
def fractureParams : Prog Arr := seqs [
  alloc 98 [bcParams, prony], .run 107 [ctl] [bcEnums, bcData] [] [bcParams], .pull bcParams,
  .run 108 [ctl, bcParams, prony] [] [ctl, prony] [], .push prony,
  .run 109 [ctl] [] [] [czVars]]

/-- `SGH3D::setup` (`Solvers/SGH_solver_3D/src/sgh_setup.cpp:54-152`). -/
def hydroSetup : Prog Arr := seqs [
  .run 110 [deck] [] [ctl] [],
  hostLoop 111 (.seq (.run 112 solverHost
    (solverState ++ solverTables) [] [modelVars])
      (.run 113 solverHost (solverState ++ solverTables) [] [pres, stress, sspd])),
  .run 114 [ctl] [] [] [nodeMass, corner],
  .run 115 solverHost (solverState ++ solverTables) [] [corner, nodeMass],
  .ite 116 [ctl] fractureSetup .skip]

/-- The contact iteration (`Solvers/SGH_solver_3D/src/contact.cpp:2160-2215,2217-2420`): the number
of active nodes is counted on the device and copied; every pass runs kernels of that many nodes
and copies the norm of the increments, which decides on the host. -/
def contactForces : Prog Arr := seqs [
  kern 120, .run 121 [ctl] (solverState ++ solverTables) [] [numActive, contact],
  .pull numActive,
  alloc 122 [normIncs],
  .loop 123 [ctl, normIncs] (seqs [
    .run 124 [ctl, numActive] (solverState ++ solverTables) [] [contact],
    .run 125 [ctl] (solverState ++ solverTables) [] [contact],
    .run 126 [ctl] (solverState ++ solverTables) [] [normIncs],
    .pull normIncs, book 127]),
  kern 128]

/-- The strength model of a material (`Solvers/SGH_solver_3D/src/properties.cpp:331-440`): a model
that runs on the host is called from a host loop over the elements which takes density, internal
energy and volume through the device names of the arrays; other models run in a kernel. -/
def strength (onHost : Bool) : Prog Arr :=
  if onHost then .ite 130 solverHost
    (.raw 131 (solverHost ++ [elemInMatElem, den, sie, gaussVol]) [stress]) (kern 132)
  else kern 132

/-- The time integration of the 3D hydrodynamics solver
(`Solvers/SGH_solver_3D/src/sgh_execute.cpp:62-97,193-205,215-620`). -/
def hydroExecute (onHost : Bool) (req : List Arr) : Prog Arr := seqs [
  .ite 140 [ctl] (kern 141) .skip,
  .ite 142 [ctl] fractureParams .skip,
  book 143,
  writer req [],
  hostLoop 144 (seqs [
    hostLoop 146 (reduce 148),
    hostLoop 149 (kern 151),
    hostLoop 152 (seqs [
      .ite 154 [ctl] (kern 155) (hostLoop 156 (.seq (kern 158) (strength onHost))),
      kern 159,
      .ite 160 [ctl] (.seq (.push nodesInElem) (kern 161)) .skip,
      .ite 162 [ctl] contactForces .skip,
      kern 163, kern 164,
      hostLoop 165 (kern 167), kern 168, kern 169,
      hostLoop 170 (kern 172),
      .ite 173 [ctl] (kern 174) .skip]),
    book 175,
    .ite 176 [ctl] (writer req []) .skip])]

/-- The time integration of the axisymmetric solver
(`Solvers/SGH_solver_rz/src/sgh_execute_rz.cpp:158-470`). -/
def rzExecute (req : List Arr) : Prog Arr := seqs [
  book 180, writer req [],
  hostLoop 181 (seqs [
    hostLoop 183 (reduce 185),
    hostLoop 186 (kern 188),
    hostLoop 189 (seqs [kern 191, hostLoop 192 (kern 194), kern 195, kern 196]),
    book 197,
    .ite 198 [ctl] (writer req []) .skip])]

/-- `boundary_convection` and `boundary_radiation`
(`Solvers/SGTM_solver_3D/src/boundary.cpp:105-125,248-262`): the number of patches of a set is
found on the device and copied. -/
def heatBoundary : Prog Arr :=
  hostLoop 200 (.ite 202 solverHost (seqs [
    alloc 206 [numPatchTmp], .run 203 [ctl] [bdySets] [] [numPatchTmp], .pull numPatchTmp,
    .run 204 (numPatchTmp :: solverHost) (solverState ++ solverTables) [] solverState]) .skip)

/-- The time integration of the thermal solver
(`Solvers/SGTM_solver_3D/src/sgtm_execute.cpp:105-410`).  With a moving heat source its power is
looked up by host code in the device copy of the tool path (`:286`,
`common/include/additive_data.hpp:107-109`, `common/include/table.hpp:165-205`). -/
def thermExecute (moving : Bool) (req : List Arr) : Prog Arr := seqs [
  alloc 208 [toolPath], .run 209 [] [] [] [toolPath], .run 210 [] [] [toolPath] [],
  .push toolPath,
  writer req [],
  alloc 207 [sphere], .run 211 [] [] [sphere] [], .push sphere,
  kern 212,
  hostLoop 213 (seqs [
    hostLoop 215 (reduce 217),
    hostLoop 218 (kern 220),
    hostLoop 221 (seqs [
      kern 223,
      hostLoop 224 (.seq (kern 226)
        (if moving then .seq (.raw 227 [ctl, toolPath] [ctl]) (kern 228) else .skip)),
      heatBoundary, kern 229, kern 230]),
    book 231,
    (if moving then .run 232 [ctl] [toolPath] [] [sphere] else .skip),
    .ite 233 [ctl] (writer req []) .skip])]

/-- The time integration of the level set solver
(`Solvers/level_set_solver/src/level_set_execute.cpp:100-345`). -/
def levelExecute (req : List Arr) : Prog Arr := seqs [
  book 240, writer req [levelSet],
  hostLoop 241 (seqs [
    hostLoop 243 (reduce 245 [levelSet]),
    hostLoop 246 (kern 248 [levelSet]),
    hostLoop 249 (.seq (kern 251 [levelSet])
      (hostLoop 252 (kern 254 [levelSet]))),
    book 255,
    .ite 256 [ctl] (writer req [levelSet]) .skip])]

/-! ## Whole runs (`driver.cpp:52-297`) -/

/-- Input, mesh, fills and material state. -/
def initialise (A : Alloc) (fl fn : List Arr) : Prog Arr := seqs [
  parse, meshInput, boundarySets, simulationSetup fl fn, materialSetup A fl]

/-- A run of the 3D hydrodynamics solver. -/
def hydroRun (onHost : Bool) (A : Alloc) (fl fn : List Arr) : Prog Arr :=
  .seq (initialise A fl fn) (.seq hydroSetup (hydroExecute onHost hydroReq))

/-- A run of the axisymmetric solver, its setup without fracture. -/
def rzRun (A : Alloc) (fl fn : List Arr) : Prog Arr :=
  .seq (initialise A fl fn) (.seq (kern 260) (rzExecute rzReq))

/-- A run of the thermal solver. -/
def thermRun (moving : Bool) (A : Alloc) (fl fn : List Arr) : Prog Arr :=
  .seq (initialise A fl fn) (.seq (kern 270) (thermExecute moving thermReq))

/-- A run of the level set solver. -/
def levelRun (A : Alloc) (fl fn : List Arr) : Prog Arr :=
  .seq (initialise A fl fn) (levelExecute levelReq)

/-- The level set run with one more copy after the material state. -/
def levelRunFixed (A : Alloc) (fl fn : List Arr) : Prog Arr :=
  .seq (initialise A fl fn) (.seq (.push levelSet) (levelExecute levelReq))

/-! ## Motion of the grid in the large strain code -/

/-- Arrays of `update_grid_velgrad`. -/
inductive GArr where
  | velgrad | defgrad | velref | sums | refAvg | data | dataC | work | workG | xnode
  deriving DecidableEq, Repr

open GArr

/-- One transform (`apps/micromechanics/LS-EVPFFT/src/update_grid_velgrad.cpp:65-90,149-175`): with
FFTW or MKL on the host with copies before and after, otherwise on the device. -/
def fft (onHost : Bool) (l : Nat) (a b : GArr) : Prog GArr :=
  if onHost then seqs [.pull a, .run l [a] [] [b] [], .push b] else .run l [] [a] [] [b]

/-- `update_grid_velgrad` of one rank
(`apps/micromechanics/LS-EVPFFT/src/update_grid_velgrad.cpp:9-255`): velocity gradient of the
reference grid and its average over the ranks, transforms, division by the frequency, back
transforms into the block of this rank of a global array; this array is copied to the host and
summed over the ranks there; the kernel that moves the nodes reads its device copy.  `copyBack` is
the copy that the code does not have. -/
def gridMotion (onHost copyBack : Bool) : Prog GArr := seqs [
  .run 300 [] [velgrad, defgrad] [sums] [velref],
  .run 301 [sums] [] [refAvg] [], .push refAvg,
  .run 302 [] [velref] [] [data], fft onHost 303 data dataC,
  .run 304 [] [dataC] [] [work], .run 305 [] [work] [] [work],
  .run 306 [] [work] [] [dataC], fft onHost 307 dataC data,
  .run 308 [] [data] [] [workG],
  .pull workG,
  .run 309 [workG] [] [workG] [],
  if copyBack then .push workG else .skip,
  .run 310 [] [workG, refAvg, xnode] [] [xnode],
  .pull xnode]

end Fierro.Dual
