import Verif.Model.ParseBcs
import Verif.Model.InitialFields
import Verif.Model.RegionFill

/-!
# The regions of an input deck

`parse_regions`, input/parse_regions.cpp:58-1548, with the names, defaults and required words of
common/include/region.hpp and common/include/initial_conditions.hpp, and how `fill_regions` and
`get_region_scalar`, common/src/region_fill.cpp, use what is stored.
-/

namespace Fierro

/-- How the reading of the regions stops: an exception, `Kokkos::abort`, or an access outside an
array. -/
inductive RegStop
  | throws | aborts | undefined
  deriving DecidableEq, Repr

/-- `region::vol_tag`, region.hpp:52-63, as far as the reader can store it. -/
inductive VolTag | noVolume | global | box | cylinder | sphere | voxelFile | vtuFile
  deriving DecidableEq, Repr

/-- `fill_gauss_state` as far as a region can name it, state.hpp. -/
inductive RegGauss
  | density | sie | ie | specificHeat | conductivity | levelSet
  deriving DecidableEq, Repr

/-- `fill_node_state` as far as a region can name it, state.hpp. -/
inductive RegNode | temperature | velocity
  deriving DecidableEq, Repr

/-- `scalar_ics_type_map`, initial_conditions.hpp:104-113. -/
def scalarIcsMap : String → Option ScalarField
  | "uniform" => some .uniform
  | "radial" => some .radial
  | "spherical" => some .spherical
  | "x_linear" => some .xlinear
  | "y_linear" => some .ylinear
  | "z_linear" => some .zlinear
  | "tg_vortex" => some .tgVortex
  | _ => none

/-- `vector_ics_type_map`, initial_conditions.hpp:93-102. -/
def vectorIcsMap : String → Option VectorField
  | "static" => some .stationary
  | "cartesian" => some .cartesian
  | "radial" => some .radial
  | "spherical" => some .spherical
  | "radial_linear" => some .radialLinear
  | "spherical_linear" => some .sphericalLinear
  | "tg_vortex" => some .tgVortex
  | _ => none

/-- `region_type_map`, region.hpp:67-75. -/
def regionTypeMap : String → Option VolTag
  | "global" => some .global
  | "box" => some .box
  | "sphere" => some .sphere
  | "cylinder" => some .cylinder
  | "voxel_file" => some .voxelFile
  | "vtu_file" => some .vtuFile
  | _ => none

/-- The members of `RegionFill_t` that describe one scalar, e.g. `volfrac_field`, `volfrac`,
`volfrac_slope` and `volfrac_origin`, region.hpp:111-165. Only the level set and the volume fraction
have a slope; the origins of the others are never set. -/
structure ScalarFill (K : Type*) where
  field : ScalarField
  value : K
  slope : K
  origin : K × K × K

/-- `vel_field`, `u`, `v`, `w`, `speed`, region.hpp:109, 136-140. -/
structure VelFill (K : Type*) where
  field : VectorField
  u : K
  v : K
  w : K
  speed : K

/-- The volume of a region: members of `RegionFill_t`, region.hpp:87-106 and 169-172, and
`RegionFill_host_t`, region.hpp:182-190. -/
structure VolFill (K : Type*) where
  volume : VolTag
  x1 : K
  x2 : K
  y1 : K
  y2 : K
  z1 : K
  z2 : K
  radius1 : K
  radius2 : K
  origin : K × K × K
  partId : ℤ
  path : String
  scaleX : K
  scaleY : K
  scaleZ : K

/-- `RegionFill_t` and `RegionFill_host_t`, region.hpp:85-190. The ids are `int`s that are stored as
`size_t`; here they stay integers. -/
structure RegSlot (K : Type*) where
  vol : VolFill K
  solverId : ℤ
  materialId : ℤ
  vel : VelFill K
  den : ScalarFill K
  sie : ScalarFill K
  ie : ScalarFill K
  levelSet : ScalarFill K
  temperature : ScalarFill K
  conductivity : ScalarFill K
  specificHeat : ScalarFill K
  volfrac : ScalarFill K

/-- What is stored once for all regions, region.hpp:200-211; the regions of a solver are a row of
`reg_fills_in_solver` up to `num_reg_fills_in_solver`. -/
structure RegGlob where
  fills : ℕ → List ℕ
  gauss : List RegGauss
  node : List RegNode

/-- The start values, parse_regions.cpp:70-90. -/
def RegGlob.default : RegGlob := ⟨fun _ => [], [], []⟩

section
variable {V K : Type*} [Field K]

/-- A scalar that no region sets, region.hpp:111-130, 142-166. -/
def ScalarFill.none : ScalarFill K := ⟨.noICs, 0, 0, (0, 0, 0)⟩

/-- The volume fraction, region.hpp:133 and 157-160. -/
def ScalarFill.full : ScalarFill K := ⟨.uniform, 1, 0, (0, 0, 0)⟩

/-- The velocity if no region sets it, region.hpp:109, 136-140. -/
def VelFill.none : VelFill K := ⟨.noICs, 0, 0, 0, 0⟩

/-- The volume before it is read, region.hpp:96-106, 169-172, 184-189. The tag has no default in the source; Kokkos
value-initialises the elements of an array, which gives 0, `no_volume`. -/
def VolFill.none : VolFill K where
  volume := .noVolume
  x1 := 0
  x2 := 0
  y1 := 0
  y2 := 0
  z1 := 0
  z2 := 0
  radius1 := 0
  radius2 := 0
  origin := (0, 0, 0)
  partId := 1
  path := ""
  scaleX := 1
  scaleY := 1
  scaleZ := 1

/-- The defaults of a region. The ids have none in the source, see `VolFill.none`. -/
def RegSlot.default : RegSlot K where
  vol := .none
  solverId := 0
  materialId := 0
  vel := .none
  den := .none
  sie := .none
  ie := .none
  levelSet := .none
  temperature := .none
  conductivity := .none
  specificHeat := .none
  volfrac := .full

/-- The numbers of an origin, parse_regions.cpp:688-713, 960-985 and 1457-1482. The text of the code
is that of `bcOrigin`. -/
def regOrigin (cv : NodeConv V K) (v : V) : Except RegStop (K × K × K) :=
  match bcOrigin cv v with
  | .ok o => .ok o
  | .error .throws => .error .throws
  | .error .undefined => .error .undefined

/-- One word below a scalar. `general = true`: the volume fraction and the level set,
parse_regions.cpp:669-814 and 941-1081; `false`: density, specific and extensive internal energy,
specific heat, conductivity and temperature, 170-250, 277-350, 377-450, 476-550, 576-651, 841-915.
(The case `noICsScalar` of the `switch` cannot be reached, the map has no such entry. A negative
density is stored after a message, 178-186.) -/
def scalarWord (cv : NodeConv V K) (general : Bool) (p : ScalarFill K) (w : String) (v : V) :
    Except RegStop (ScalarFill K) :=
  if w = "value" then .ok { p with value := cv.real v }
  else if w = "type" then
    match scalarIcsMap (cv.str v) with
    | Option.none => .error .throws
    | some f =>
      if general = true ∨ f = .uniform ∨ f = .tgVortex then .ok { p with field := f }
      else .error .throws
  else if general = true ∧ w = "slope" then .ok { p with slope := cv.real v }
  else if general = true ∧ w = "origin" then
    match regOrigin cv v with
    | .ok o => .ok { p with origin := o }
    | .error e => .error e
  else .error .throws

/-- The block below a scalar, e.g. parse_regions.cpp:159-250; the required words are those of
region.hpp:373-434. -/
def scalarBlock (cv : NodeConv V K) (general : Bool) (p : ScalarFill K) (v : V) :
    Except RegStop (ScalarFill K) :=
  if hasRequired ["type"] (cv.block v) then eachWord (scalarWord cv general) (cv.block v) p
  else .error .throws

/-- One word below `velocity`, parse_regions.cpp:1107-1241. -/
def velWord (cv : NodeConv V K) (p : VelFill K) (w : String) (v : V) : Except RegStop (VelFill K) :=
  if w = "u" then .ok { p with u := cv.real v }
  else if w = "v" then .ok { p with v := cv.real v }
  else if w = "w" then .ok { p with w := cv.real v }
  else if w = "speed" then .ok { p with speed := cv.real v }
  else if w = "type" then
    match vectorIcsMap (cv.str v) with
    | some f => .ok { p with field := f }
    | Option.none => .error .throws
  else .error .throws

/-- The block below `velocity`, parse_regions.cpp:1096-1242. -/
def velBlock (cv : NodeConv V K) (p : VelFill K) (v : V) : Except RegStop (VelFill K) :=
  if hasRequired ["type"] (cv.block v) then eachWord (velWord cv) (cv.block v) p
  else .error .throws

/-- One word below `volume`, parse_regions.cpp:1257-1486. A type that is not in the map is passed
over (there is no `else` at 1443). -/
def volWord (cv : NodeConv V K) (p : VolFill K) (w : String) (v : V) : Except RegStop (VolFill K) :=
  if w = "radius1" then .ok { p with radius1 := cv.real v }
  else if w = "radius2" then .ok { p with radius2 := cv.real v }
  else if w = "x1" then .ok { p with x1 := cv.real v }
  else if w = "x2" then .ok { p with x2 := cv.real v }
  else if w = "y1" then .ok { p with y1 := cv.real v }
  else if w = "y2" then .ok { p with y2 := cv.real v }
  else if w = "z1" then .ok { p with z1 := cv.real v }
  else if w = "z2" then .ok { p with z2 := cv.real v }
  else if w = "scale_x" then .ok { p with scaleX := cv.real v }
  else if w = "scale_y" then .ok { p with scaleY := cv.real v }
  else if w = "scale_z" then .ok { p with scaleZ := cv.real v }
  else if w = "part_id" then .ok { p with partId := cv.int v }
  else if w = "type" then
    match regionTypeMap (cv.str v) with
    | some t => .ok { p with volume := t }
    | Option.none => .ok p
  else if w = "file_path" then .ok { p with path := cv.str v }
  else if w = "origin" then
    match regOrigin cv v with
    | .ok o => .ok { p with origin := o }
    | .error e => .error e
  else .error .throws

/-- The block below `volume`, parse_regions.cpp:1243-1488. -/
def volBlock (cv : NodeConv V K) (p : VolFill K) (v : V) : Except RegStop (VolFill K) :=
  if hasRequired ["type"] (cv.block v) then eachWord (volWord cv) (cv.block v) p
  else .error .throws

/-- The state of the reader while it reads one region. -/
abbrev RegState (K : Type*) := RegGlob × RegSlot K

/-- One word of region `i`, parse_regions.cpp:119-1498. `reg_fills_in_solver` has `n` rows with one
place for every region. -/
def regWord (cv : NodeConv V K) (n i : ℕ) (p : RegState K) (w : String) (v : V) :
    Except RegStop (RegState K) :=
  if w = "solver_id" then
    if 0 ≤ cv.int v ∧ cv.int v < n then
      let s := (cv.int v).toNat
      .ok ({ p.1 with fills := Function.update p.1.fills s (p.1.fills s ++ [i]) },
        { p.2 with solverId := cv.int v })
    else .error .undefined
  else if w = "material_id" then .ok (p.1, { p.2 with materialId := cv.int v })
  else if w = "density" then
    match scalarBlock cv false p.2.den v with
    | .ok x => .ok ({ p.1 with gauss := storeField p.1.gauss .density }, { p.2 with den := x })
    | .error e => .error e
  else if w = "specific_internal_energy" then
    match scalarBlock cv false p.2.sie v with
    | .ok x => .ok ({ p.1 with gauss := storeField p.1.gauss .sie }, { p.2 with sie := x })
    | .error e => .error e
  else if w = "internal_energy" then
    match scalarBlock cv false p.2.ie v with
    | .ok x => .ok ({ p.1 with gauss := storeField p.1.gauss .ie }, { p.2 with ie := x })
    | .error e => .error e
  else if w = "specific_heat" then
    match scalarBlock cv false p.2.specificHeat v with
    | .ok x => .ok ({ p.1 with gauss := storeField p.1.gauss .specificHeat },
        { p.2 with specificHeat := x })
    | .error e => .error e
  else if w = "thermal_conductivity" then
    match scalarBlock cv false p.2.conductivity v with
    | .ok x => .ok ({ p.1 with gauss := storeField p.1.gauss .conductivity },
        { p.2 with conductivity := x })
    | .error e => .error e
  else if w = "volume_fraction" then
    match scalarBlock cv true p.2.volfrac v with
    | .ok x => .ok (p.1, { p.2 with volfrac := x })
    | .error e => .error e
  else if w = "temperature" then
    match scalarBlock cv false p.2.temperature v with
    | .ok x => .ok ({ p.1 with node := storeField p.1.node .temperature },
        { p.2 with temperature := x })
    | .error e => .error e
  else if w = "level_set" then
    match scalarBlock cv true p.2.levelSet v with
    | .ok x => .ok ({ p.1 with gauss := storeField p.1.gauss .levelSet },
        { p.2 with levelSet := x })
    | .error e => .error e
  else if w = "velocity" then
    match velBlock cv p.2.vel v with
    | .ok x => .ok ({ p.1 with node := storeField p.1.node .velocity }, { p.2 with vel := x })
    | .error e => .error e
  else if w = "volume" then
    match volBlock cv p.2.vol v with
    | .ok x => .ok (p.1, { p.2 with vol := x })
    | .error e => .error e
  else .error .throws

/-- The tests after a region, parse_regions.cpp:1500-1540. -/
def regCheck (p : RegState K) : Except RegStop (RegState K) :=
  if p.1.gauss = [] then .error .throws
  else if p.2.vol.path = "" ∧ p.2.vol.volume = .voxelFile then .error .aborts
  else if p.2.vol.path ≠ "" ∧ p.2.vol.volume ≠ .voxelFile then .error .aborts
  else .ok p

/-- One region, parse_regions.cpp:104-1545; the required words are those of region.hpp:347-351. -/
def parseRegion (cv : NodeConv V K) (n i : ℕ) (b : Block V) (g : RegGlob) :
    Except RegStop (RegState K) :=
  if hasRequired ["material_id", "volume"] b then
    match eachWord (regWord cv n i) b (g, RegSlot.default) with
    | .ok p => regCheck p
    | .error e => .error e
  else .error .throws

/-- The loop over the regions, parse_regions.cpp:104-1547; `i` is the number of the first of
them. -/
def parseRegionsFrom (cv : NodeConv V K) (n : ℕ) :
    ℕ → List (Block V) → RegGlob → Except RegStop (RegGlob × List (RegSlot K))
  | _, [], g => .ok (g, [])
  | i, b :: bs, g =>
    match parseRegion cv n i b g with
    | .error e => .error e
    | .ok (g', p) =>
      match parseRegionsFrom cv n (i + 1) bs g' with
      | .error e => .error e
      | .ok (g'', ps) => .ok (g'', p :: ps)

/-- `parse_regions`, parse_regions.cpp:58-1548, for `n` solvers; `bs` are the blocks below `region`
in the list `regions`. -/
def parseRegions (cv : NodeConv V K) (n : ℕ) (bs : List (Block V)) :
    Except RegStop (RegGlob × List (RegSlot K)) :=
  parseRegionsFrom cv n 0 bs RegGlob.default

end

/-! ## From the stored regions to the elements -/

/-- `get_region_scalar`, region_fill.cpp:1485-1583; `none`: the variable that is returned was never
set. The origin is not an argument: it is only used for `dir`, which nothing reads. (The square root
of a negative number is NaN in the source; `fmax(0.0, vfrac)` then gives 0, and so does the ideal square
root.) -/
noncomputable def regionScalar (x : Fin 3 → ℝ) (f : ScalarFill ℝ) : Option ℝ :=
  match f.field with
  | .uniform => some f.value
  | .radial => some (f.slope * Real.sqrt (0 + x 0 * x 0 + x 1 * x 1 - f.value))
  | .spherical => some (f.slope * Real.sqrt (0 + x 0 * x 0 + x 1 * x 1 + x 2 * x 2 - f.value))
  | .xlinear => some (f.slope * x 0 + f.value)
  | .ylinear => some (f.slope * x 1 + f.value)
  | .zlinear => some (f.slope * x 2 + f.value)
  | .tgVortex => none
  | .noICs => none

/-- The shape of `fill_geometric_region`, region_fill.cpp:1273-1333 and 1372-1383. -/
def VolFill.shape (p : VolFill ℝ) : Shape ℝ :=
  let o : Fin 3 → ℝ := fun d => if d = 0 then p.origin.1 else if d = 1 then p.origin.2.1
    else p.origin.2.2
  match p.volume with
  | .global => .global
  | .box => .box p.x1 p.x2 p.y1 p.y2 p.z1 p.z2
  | .cylinder => .cylinder o p.radius1 p.radius2 p.z1 p.z2
  | .sphere => .sphere o p.radius1 p.radius2
  | _ => .noVolume

open Classical in
/-- Whether a region selects element `e` with centre `x`, `fill_geometric_region(…) == 1`,
region_fill.cpp:364-382 and 1273-1388. `objectIds` are those of the mesh file; `voxel` tells what
`user_voxel_init` and the voxel branch give for this region. -/
noncomputable def regionCovers (objectIds : ℕ → ℤ) (voxel : ℕ → Bool) (p : VolFill ℝ)
    (x : Fin 3 → ℝ) (e : ℕ) : Bool :=
  match p.volume with
  | .voxelFile => voxel e
  | .vtuFile => decide (objectIds e = p.partId)
  | _ => decide (fillShape p.shape x)

/-- `size_t` made of an `int`. -/
def sizeOfInt (i : ℤ) : ℕ := (i % 2 ^ 64).toNat

/-- The fill instructions that `fill_regions` works with, region_fill.cpp:282-437: all regions of the
deck, whatever their solver. `none`: a volume fraction that was never set is used. -/
noncomputable def deckFills (objectIds : ℕ → ℤ) (voxel : ℕ → ℕ → Bool)
    (centre : ℕ → Fin 3 → ℝ) (ps : List (RegSlot ℝ)) : Option (List (FillData ℝ)) :=
  if ∀ p ∈ ps, p.volfrac.field ≠ .tgVortex ∧ p.volfrac.field ≠ .noICs then
    some (ps.zipIdx.map fun q =>
      { materialId := sizeOfInt q.1.materialId
        covers := fun e => regionCovers objectIds (voxel q.2) q.1.vol (centre e) e
        vfrac := fun e => (regionScalar (centre e) q.1.volfrac).getD 0 })
  else none

end Fierro
