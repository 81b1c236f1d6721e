import Mathlib.Algebra.BigOperators.Group.List.Basic
import Mathlib.Logic.Function.Basic
import Verif.Model.InputDeck
import Verif.Model.RegionFill

/-!
# Arrays of the state

Models the `initialize` methods of common/include/state.hpp, the `initialize` and
`initialize_material_state` functions of the solvers, and which arrays the second half of `fill_regions` and
`material_state_setup` (common/src/region_fill.cpp) read and write, in the order in which driver.cpp:114-253 calls
them.  An array is its extents and its contents; a default-constructed array has size zero.  Low-order elements:
one Gauss point per element.  Nodal painting (guarded by the size of the array) is in InitialFields.lean.
-/

namespace Fierro.StateAlloc

/-- The arrays of `State_t`, state.hpp:270-281, 338-346, 414-419, 473-508, 665-672, 726-732. -/
inductive Fld
  | coords | coords0 | vel | vel0 | nodeMass | nodeForce | temp | temp0 | nodeHeat | gradLevelSet
  | vol | div | velGrad | levelSet | levelSet0
  | cornerForce | cornerMass | cornerHeat | cornerNormal | cornerVolume
  | elemInMat
  | den | pres | stress | stress0 | sie | sie0 | sspd | mass
  | volfrac | geoVolfrac | deltaVolfrac | deltaGeoVolfrac
  | heatFlux | conductivity | specificHeat | elastic | shear | poisson | eroded | tempGrad
  | matCornerForce | matCornerHeat
  deriving DecidableEq

/-- Extents of a `DCArrayKokkos` and of a `DRaggedRightArrayKokkos` (one row per material, further dimensions
fixed). -/
inductive Extents
  | dense (dims : List ℕ)
  | ragged (rows inner : List ℕ)
  deriving DecidableEq

/-- `size()`. -/
def Extents.size : Extents → ℕ
  | .dense dims => dims.prod
  | .ragged rows inner => rows.sum * inner.prod

/-- The index lies inside the array. -/
def Extents.has : Extents → List ℕ → Bool
  | .dense dims, ix => ix.length == dims.length && (ix.zip dims).all fun p => p.1 < p.2
  | .ragged rows inner, m :: p :: ix =>
    (match rows[m]? with | some r => decide (p < r) | none => false) &&
      (ix.length == inner.length && (ix.zip inner).all fun p => p.1 < p.2)
  | .ragged _ _, _ => false

/-- An array. -/
structure Arr (V : Type) where
  shape : Extents
  val : List ℕ → V

/-- The arrays by name; `none`: default constructed. -/
abbrev Store (N V : Type) := N → Option (Arr V)

/-- `a.size()`. -/
def Store.size {N V : Type} (s : Store N V) (f : N) : ℕ := (s f).elim 0 fun a => a.shape.size

/-- `a = DCArrayKokkos<...>(...)`: a new array, all entries `fresh`. -/
def Store.make {N V : Type} [DecidableEq N] (fresh : V) (s : Store N V) (f : N) (sh : Extents) : Store N V :=
  Function.update s f (some ⟨sh, fun _ => fresh⟩)

/-- `if (a.size() == 0) a = ...`, e.g. state.hpp:289. -/
def Store.alloc {N V : Type} [DecidableEq N] (fresh : V) (s : Store N V) (p : N × Extents) : Store N V :=
  if s.size p.1 = 0 then s.make fresh p.1 p.2 else s

/-- Guarded allocations one after the other. -/
def Store.allocAll {N V : Type} [DecidableEq N] (fresh : V) (s : Store N V) (l : List (N × Extents)) : Store N V :=
  l.foldl (Store.alloc fresh) s

/-- `node_state`, state.hpp:251-260. -/
inductive NodeSt
  | coords | velocity | mass | temp | heatTransfer | force | gradientLevelSet
  deriving DecidableEq

/-- `gauss_pt_state`, state.hpp:323-329. -/
inductive GaussSt
  | volume | divergence | gradient | levelSet
  deriving DecidableEq

/-- `material_pt_state`, state.hpp:449-466. -/
inductive MatSt
  | density | pressure | stress | soundSpeed | sie | mass | volumeFraction | heatFlux | eroded
  | elastic | shear | poisson | conductivity | specificHeat
  deriving DecidableEq

/-- `corner_state`, state.hpp:711-718. -/
inductive CornerSt
  | force | mass | heat | normal | volume
  deriving DecidableEq

/-- `material_corner_state`, state.hpp:652-656. -/
inductive MatCornerSt
  | force | heat
  deriving DecidableEq

/-- `fill_gauss_state`, state.hpp:48-60. -/
inductive FillG
  | density | stress | sie | ie | elastic | shear | poisson | conductivity | specificHeat | levelSet
  deriving DecidableEq

/-- `fill_node_state`, state.hpp:42-46. -/
inductive FillN
  | velocity | temperature
  deriving DecidableEq

/-- `node_t::initialize`, state.hpp:284-317. -/
def nodeArrays (n d : ℕ) : NodeSt → List (Fld × Extents)
  | .coords => [(.coords, .dense [n, d]), (.coords0, .dense [n, d])]
  | .velocity => [(.vel, .dense [n, d]), (.vel0, .dense [n, d])]
  | .force => [(.nodeForce, .dense [n, d])]
  | .mass => [(.nodeMass, .dense [n])]
  | .temp => [(.temp, .dense [n]), (.temp0, .dense [n])]
  | .heatTransfer => [(.nodeHeat, .dense [n])]
  | .gradientLevelSet => [(.gradLevelSet, .dense [n, d])]

/-- `GaussPoint_t::initialize`, state.hpp:349-373. -/
def gaussArrays (n d : ℕ) : GaussSt → List (Fld × Extents)
  | .volume => [(.vol, .dense [n])]
  | .divergence => [(.div, .dense [n])]
  | .gradient => [(.velGrad, .dense [n, d, d])]
  | .levelSet => [(.levelSet, .dense [n]), (.levelSet0, .dense [n])]

/-- `corner_t::initialize`, state.hpp:735-764. -/
def cornerArrays (n d : ℕ) : CornerSt → List (Fld × Extents)
  | .force => [(.cornerForce, .dense [n, d])]
  | .mass => [(.cornerMass, .dense [n])]
  | .heat => [(.cornerHeat, .dense [n])]
  | .normal => [(.cornerNormal, .dense [n, d])]
  | .volume => [(.cornerVolume, .dense [n])]

/-- The loop of `MaterialPoint_t::initialize`, state.hpp:533-588. -/
def matArrays (rows : List ℕ) (d : ℕ) : MatSt → List (Fld × Extents)
  | .density => [(.den, .ragged rows [])]
  | .pressure => [(.pres, .ragged rows [])]
  | .stress => [(.stress, .ragged rows [d, d]), (.stress0, .ragged rows [d, d])]
  | .elastic => [(.elastic, .ragged rows [3])]
  | .shear => [(.shear, .ragged rows [3])]
  | .poisson => [(.poisson, .ragged rows [3])]
  | .soundSpeed => [(.sspd, .ragged rows [])]
  | .mass => [(.mass, .ragged rows [])]
  | .volumeFraction => [(.volfrac, .ragged rows []), (.geoVolfrac, .ragged rows []),
      (.deltaVolfrac, .ragged rows []), (.deltaGeoVolfrac, .ragged rows [])]
  | .sie => [(.sie, .ragged rows []), (.sie0, .ragged rows [])]
  | .heatFlux => [(.heatFlux, .ragged rows [d])]
  | .conductivity => [(.conductivity, .ragged rows [])]
  | .specificHeat => [(.specificHeat, .ragged rows [])]
  | .eroded => [(.eroded, .ragged rows [])]

/-- `MaterialCorner_t::initialize`, state.hpp:690-706. -/
def matCornerArrays (rows : List ℕ) (d : ℕ) : MatCornerSt → List (Fld × Extents)
  | .force => [(.matCornerForce, .ragged rows [d])]
  | .heat => [(.matCornerHeat, .ragged rows [])]

/-- The solvers of driver.cpp:118-213. -/
inductive Solver
  | sgh3D | sghRZ | sgtm3D | levelSet | tlqs3D
  deriving DecidableEq

/-- `required_node_state` of the solvers: sgh_solver_3D.hpp, sgh_solver_rz.hpp, sgtm_solver_3D.hpp,
level_set_solver.hpp and tlqs_solver_3D.hpp, each in its namespace `..._State` (lines 57-101). -/
def Solver.nodeState : Solver → List NodeSt
  | .sgh3D => [.coords, .velocity, .mass, .force]
  | .sghRZ => [.coords, .velocity, .mass]
  | .sgtm3D => [.coords, .velocity, .mass, .temp, .heatTransfer]
  | .levelSet => [.coords, .gradientLevelSet, .velocity]
  | .tlqs3D => [.coords]

/-- `required_gauss_pt_state`, as above. -/
def Solver.gaussState : Solver → List GaussSt
  | .sgh3D => [.volume, .gradient]
  | .sghRZ => [.volume, .gradient]
  | .sgtm3D => [.volume, .divergence]
  | .levelSet => [.levelSet, .volume]
  | .tlqs3D => [.volume]

/-- `required_corner_state`, as above. -/
def Solver.cornerState : Solver → List CornerSt
  | .sgh3D => [.force, .mass]
  | .sghRZ => [.force, .mass]
  | .sgtm3D => [.force, .mass, .heat]
  | .levelSet => [.normal, .volume]
  | .tlqs3D => [.force, .mass]

/-- `required_material_pt_state`, as above. -/
def Solver.matState : Solver → List MatSt
  | .sgh3D => [.density, .pressure, .stress, .sie, .soundSpeed, .mass, .volumeFraction, .eroded, .shear]
  | .sghRZ => [.density, .pressure, .stress, .soundSpeed, .mass, .volumeFraction, .sie, .eroded, .shear]
  | .sgtm3D => [.density, .pressure, .stress, .soundSpeed, .mass, .volumeFraction, .sie, .eroded, .heatFlux,
      .conductivity, .specificHeat]
  | .levelSet => [.volumeFraction]
  | .tlqs3D => [.density, .pressure, .stress, .sie, .soundSpeed, .mass, .volumeFraction, .eroded, .shear]

/-- `required_material_corner_state`, as above; the level set and quasi-static solvers do not allocate any
(level_set_initialize.cpp:75, tlqs_initialize.cpp:89). -/
def Solver.matCornerState : Solver → List MatCornerSt
  | .sgh3D | .sghRZ | .sgtm3D => [.force]
  | .levelSet | .tlqs3D => []

/-- Sizes of the mesh and of the material index spaces. -/
structure Sizes where
  numNodes : ℕ
  numElems : ℕ
  numCorners : ℕ
  numDims : ℕ
  nodesInElem : ℕ

/-- A region: the material, the fields its description names, and the fields it sets
(`..._field != noICsScalar`). -/
structure Region where
  material : ℕ
  namesG : List FillG
  namesN : List FillN
  paints : FillG → Bool

/-- The input. -/
structure Deck where
  solvers : List Solver
  regions : List Region
  numMats : ℕ
  maxMats : ℕ

/-- `fill_gauss_states`, see `filledFields`. -/
def Deck.fillG (d : Deck) : List FillG := filledFields (d.regions.map Region.namesG)

/-- `fill_node_states`. -/
def Deck.fillN (d : Deck) : List FillN := filledFields (d.regions.map Region.namesN)

/-- The test on the dimensions: sgh_initialize.cpp:52-55, sgh_initialize_rz.cpp:51-54, tlqs_initialize.cpp:51-54;
the others have none. -/
def Solver.dimsOk : Solver → ℕ → Bool
  | .sgh3D, d | .tlqs3D, d => d == 3
  | .sghRZ, d => d == 2
  | .sgtm3D, _ | .levelSet, _ => true

/-- The nodal fields that must be filled: sgh_initialize.cpp:63-71, sgtm_initialize.cpp:59-70,
tlqs_initialize.cpp:62-70; the others have no test. -/
def Solver.nodeCheck : Solver → List FillN → Bool
  | .sgh3D, given | .tlqs3D, given => checkFill [.velocity] given
  | .sgtm3D, given => checkFill [.velocity, .temperature] given
  | .sghRZ, _ | .levelSet, _ => true

/-- The material fields that must be filled: sgh_initialize.cpp:96-117, sgtm_initialize.cpp:91-114; the others
have no test. -/
def Solver.matCheck : Solver → List FillG → Bool
  | .sgh3D, given => checkFill [.density, .sie] given || checkFill [.density, .ie] given
  | .sgtm3D, given => checkFill [.density, .sie, .conductivity, .specificHeat] given ||
      checkFill [.density, .ie, .conductivity, .specificHeat] given
  | .sghRZ, _ | .levelSet, _ | .tlqs3D, _ => true

/-- Dimensions used for the velocity gradient: always three in r-z, sgh_initialize_rz.cpp:60. -/
def Solver.gaussDims : Solver → ℕ → ℕ
  | .sghRZ, _ => 3
  | _, d => d

/-- Dimensions used for the material points, sgh_initialize.cpp:90, sgh_initialize_rz.cpp:78,
sgtm_initialize.cpp:86, level_set_initialize.cpp:74, tlqs_initialize.cpp:88. -/
def Solver.matDims : Solver → ℕ → ℕ
  | .sgh3D, _ | .sghRZ, _ | .sgtm3D, _ => 3
  | .levelSet, d | .tlqs3D, d => d

/-- Dimensions used for the material corners, sgh_initialize.cpp:91, sgh_initialize_rz.cpp:79,
sgtm_initialize.cpp:87. -/
def Solver.cornerDims : Solver → ℕ → ℕ
  | .sgh3D, _ => 3
  | _, d => d

/-- The arrays `initialize` of a solver allocates: sgh_initialize.cpp:58-60, sgh_initialize_rz.cpp:59-61,
sgtm_initialize.cpp:52-54, level_set_initialize.cpp:54-56, tlqs_initialize.cpp:57-59. -/
def Solver.meshArrays (s : Solver) (z : Sizes) : List (Fld × Extents) :=
  s.nodeState.flatMap (nodeArrays z.numNodes z.numDims) ++
  s.gaussState.flatMap (gaussArrays z.numElems (s.gaussDims z.numDims)) ++
  s.cornerState.flatMap (cornerArrays z.numCorners z.numDims)

/-- The arrays `initialize_material_state` of a solver allocates, lines as above for `matDims`; the map
`elem_in_mat_elem` (state.hpp:422-428) and the temperature gradient (state.hpp:528-531) always.  `rows` are the
numbers of elements with each material, region_fill.cpp:178-200: the buffer is zero and there is one point per
element. -/
def Solver.matPtArrays (s : Solver) (z : Sizes) (rows : List ℕ) : List (Fld × Extents) :=
  (.elemInMat, .ragged rows []) :: (.tempGrad, .ragged rows [3]) ::
  (s.matState.flatMap (matArrays rows (s.matDims z.numDims)) ++
   s.matCornerState.flatMap (matCornerArrays (rows.map (· * z.nodesInElem)) (s.cornerDims z.numDims)))

/-- The arrays of `fillGaussState_t`, state.hpp:71-90. -/
inductive FillA
  | den | sie | ie | useSie | stress | conductivity | specificHeat | elastic | shear | poisson | levelSet
  deriving DecidableEq

/-- One iteration of `fillGaussState_t::initialize`, state.hpp:101-146.  The extensive energy is allocated if the
*specific* energy has size zero (line 126). -/
def fillAlloc {V : Type} (fresh : V) (np maxMats : ℕ) (s : Store FillA V) : FillG → Store FillA V
  | .density => s.alloc fresh (.den, .dense [np, maxMats])
  | .stress => s.alloc fresh (.stress, .dense [np, maxMats, 3, 3])
  | .elastic => s.alloc fresh (.elastic, .dense [np, maxMats, 3])
  | .shear => s.alloc fresh (.shear, .dense [np, maxMats, 3])
  | .poisson => s.alloc fresh (.poisson, .dense [np, maxMats, 3])
  | .sie => (s.alloc fresh (.sie, .dense [np, maxMats])).alloc fresh (.useSie, .dense [np, maxMats])
  | .ie =>
    (if s.size .sie = 0 then s.make fresh .ie (.dense [np, maxMats]) else s).alloc fresh
      (.useSie, .dense [np, maxMats])
  | .conductivity => s.alloc fresh (.conductivity, .dense [np, maxMats])
  | .specificHeat => s.alloc fresh (.specificHeat, .dense [np, maxMats])
  | .levelSet => s.alloc fresh (.levelSet, .dense [np, maxMats])

/-- `fillGaussState_t::initialize`, state.hpp:93-147, called in region_fill.cpp:78-81. -/
def fillStore {V : Type} (fresh : V) (np maxMats : ℕ) (fields : List FillG) : Store FillA V :=
  fields.foldl (fillAlloc fresh np maxMats) fun _ => none

/-- The arrays that painting one region writes, region_fill.cpp:478-547. -/
def Region.paintArrays (r : Region) : List FillA :=
  (if r.paints .density then [.den] else []) ++
  (if r.paints .sie then [.sie, .useSie] else []) ++
  (if r.paints .ie then [.ie] else []) ++
  (if r.paints .conductivity then [.conductivity] else []) ++
  (if r.paints .specificHeat then [.specificHeat] else []) ++
  (if r.paints .levelSet then [.levelSet] else [])

/-- The regions an element is filled with; `bins` are the `elem_fill_ids`, region_fill.cpp:443-455. -/
def used (d : Deck) (bins : List (List ℕ)) : List (ℕ × ℕ × Region) :=
  (visits bins).filterMap fun v => d.regions[v.2.2]?.map fun r => (v.1, v.2.1, r)

/-- Stores of the painting loop, region_fill.cpp:443-547. -/
def paintStores (d : Deck) (bins : List (List ℕ)) : List (FillA × List ℕ) :=
  (used d bins).flatMap fun u => u.2.2.paintArrays.map fun a => (a, [u.1, u.2.1])

/-- `mats_in_elem`, region_fill.cpp:455. -/
def matsIn (d : Deck) (bins : List (List ℕ)) : List (List ℕ) :=
  bins.map fun b => b.map fun i => (d.regions[i]?.map Region.material).getD 0

/-- What `material_state_setup` reads and writes: an array of the state or of the fills. -/
inductive Ref
  | state (f : Fld)
  | fill (a : FillA)
  deriving DecidableEq

/-- The arrays `material_state_setup` touches for material `m`, stored at `sid`, in slot `a` of element `e` filled
with region `r`, region_fill.cpp:733-826; `size` gives the sizes of the arrays of the state.  The flag `use_sie`
is the one set in region_fill.cpp:500-503. -/
def setupRefs (size : Fld → ℕ) (e a m sid : ℕ) (r : Region) : List (Ref × List ℕ) :=
  [(.state .elemInMat, [m, sid]), (.state .volfrac, [m, sid]), (.state .geoVolfrac, [m, sid]),
    (.state .vol, [e])] ++
  (if 0 < size .den then
    [(.state .den, [m, sid]), (.fill .den, [e, a]), (.state .mass, [m, sid])] else []) ++
  (if 0 < size .eroded then [(.state .eroded, [m, sid])] else []) ++
  (if 0 < size .sie then
    [(.fill .useSie, [e, a]), (.state .sie, [m, sid])] ++
    (if r.paints .sie then [(.fill .sie, [e, a])] else [(.fill .ie, [e, a]), (.state .mass, [m, sid])])
   else []) ++
  (if 0 < size .conductivity then [(.state .conductivity, [m, sid]), (.fill .conductivity, [e, a])] else []) ++
  (if 0 < size .specificHeat then [(.state .specificHeat, [m, sid]), (.fill .specificHeat, [e, a])] else []) ++
  (if 0 < size .levelSet then [(.state .levelSet, [e]), (.fill .levelSet, [e, a])] else [])

/-- All accesses of `material_state_setup`. -/
def setupAccesses (size : Fld → ℕ) (d : Deck) (bins : List (List ℕ)) : List (Ref × List ℕ) :=
  let mats := matsIn d bins
  (used d bins).flatMap fun u =>
    setupRefs size u.1 u.2.1 u.2.2.material
      (((materialMaps mats).matElemsInElem (u.1, u.2.1)).getD 0) u.2.2

/-- An access inside an allocated array. -/
def Store.holds {N V : Type} (s : Store N V) (f : N) (ix : List ℕ) : Bool :=
  (s f).elim false fun a => a.shape.has ix

/-- How the initialisation ends. -/
inductive Outcome (V : Type)
  | thrown
  | outside
  | done (state : Store Fld V)

/-- First loop over the solvers, driver.cpp:116-213. -/
def initSolvers {V : Type} (fresh : V) (z : Sizes) (d : Deck) (st : Store Fld V) : Option (Store Fld V) :=
  d.solvers.foldlM (fun st s =>
    if s.dimsOk z.numDims && s.nodeCheck d.fillN then some (st.allocAll fresh (s.meshArrays z)) else none) st

/-- Second loop over the solvers, driver.cpp:234-240. -/
def initMaterials {V : Type} (fresh : V) (z : Sizes) (d : Deck) (rows : List ℕ) (st : Store Fld V) :
    Option (Store Fld V) :=
  d.solvers.foldlM (fun st s =>
    let st := st.allocAll fresh (s.matPtArrays z rows)
    if s.matCheck d.fillG then some st else none) st

/-- Numbers of elements with each material, region_fill.cpp:140-160. -/
def matRows (d : Deck) (bins : List (List ℕ)) : List ℕ :=
  (List.range d.numMats).map (countMat (matsIn d bins))

/-- `Driver::initialize` after the mesh is there, driver.cpp:114-253.  `st` is the state the mesh reader or builder
leaves (coordinates only, mesh_io.hpp:1376); `bins` are the regions chosen for each element (RegionFill.lean). -/
def driverInit {V : Type} (fresh : V) (z : Sizes) (d : Deck) (bins : List (List ℕ)) (st : Store Fld V) :
    Outcome V :=
  match initSolvers fresh z d st with
  | none => .thrown
  | some st =>
    let fs : Store FillA V := fillStore fresh z.numElems d.maxMats d.fillG
    if (paintStores d bins).all fun p => fs.holds p.1 p.2 then
      match initMaterials fresh z d (matRows d bins) st with
      | none => .thrown
      | some st =>
        if (setupAccesses st.size d bins).all fun p =>
            (match p.1 with | .state f => st.holds f p.2 | .fill a => fs.holds a p.2) then .done st
        else .outside
    else .outside

/-- The arrays that `setup` and `execute` of a solver read or write (with `write_mesh` and the routines they call):
the occurrences of `State.` in the sources of the solver.  The thermal solver also passes `shear_modulii` on, which
is used only if its size is not zero (region_fill.cpp:2182).  The quasi-static solver returns at once
(tlqs_execute.cpp:88). -/
def Solver.runArrays : Solver → List Fld
  | .sgh3D => [.coords, .coords0, .vel, .vel0, .nodeMass, .nodeForce, .vol, .velGrad, .cornerForce, .cornerMass,
      .elemInMat, .den, .pres, .stress, .stress0, .sie, .sie0, .sspd, .mass, .volfrac, .geoVolfrac, .deltaVolfrac,
      .deltaGeoVolfrac, .eroded, .shear, .matCornerForce]
  | .sghRZ => [.coords, .coords0, .vel, .vel0, .nodeMass, .vol, .velGrad, .cornerForce, .cornerMass,
      .elemInMat, .den, .pres, .stress, .stress0, .sie, .sie0, .sspd, .mass, .volfrac, .geoVolfrac, .deltaVolfrac,
      .deltaGeoVolfrac, .eroded, .shear, .matCornerForce]
  | .sgtm3D => [.coords, .coords0, .vel, .vel0, .nodeMass, .temp, .temp0, .nodeHeat, .vol, .div, .cornerMass,
      .cornerHeat, .elemInMat, .den, .pres, .stress, .sie, .sspd, .mass, .volfrac, .geoVolfrac, .eroded, .heatFlux,
      .conductivity, .specificHeat, .tempGrad]
  | .levelSet => [.coords, .vel, .gradLevelSet, .vol, .levelSet, .levelSet0, .cornerNormal, .cornerVolume,
      .elemInMat, .volfrac, .geoVolfrac]
  | .tlqs3D => []

end Fierro.StateAlloc
