import Verif.Model.ParseBcs
import Verif.Model.Jmatpro

/-!
# Reading the materials of an input deck

`parse_materials` and `parse_multimaterial_options`, input/parse_material_inputs.cpp:107-1193, with
the names and defaults of common/include/material.hpp, and the calls through the function pointers
that are set here. The build modelled is one for the CPU, where the host and the device view of a
dual array are the same memory, and without the optional headers `analytic_defined_eos.hpp` and
`decoupled_strength.hpp`, which are not part of the repository.
-/

namespace Fierro

/-- `EOSType`, material.hpp:67-72. -/
inductive EosType | none | decoupled | coupled
  deriving DecidableEq, Repr

/-- `EOSModels`, material.hpp:75-84. -/
inductive EosModel
  | none | gammaLawGas | void | userDefined | hostUserDefined | linearElastic | mieGruneisen
  deriving DecidableEq, Repr

/-- `StrengthType`, material.hpp:47-52. -/
inductive StrengthType | none | incrementBased | stateBased
  deriving DecidableEq, Repr

/-- `StrengthModels`, material.hpp:55-64. -/
inductive StrengthModel
  | none | userDefined | hypoPlasticity | hypoPlasticityRZ | hostANN | hypoElasticPlastic
  | hypoElasticPlasticRZ
  deriving DecidableEq, Repr

/-- `ErosionModels`, material.hpp:95-99. -/
inductive ErosionModel | none | basic
  deriving DecidableEq, Repr

/-- `DissipationModels`, material.hpp:102-109. -/
inductive DissModel | none | mars | marsRZ | directionalMars | directionalMarsRZ
  deriving DecidableEq, Repr

/-- The dissipation functions: `NoDissipationModel`, `MARSDissipationModel` and
`MARSRZDissipationModel`. -/
inductive DissFn | none | mars | marsRZ
  deriving DecidableEq, Repr

/-- `levelSetType`, material.hpp:128-133. -/
inductive LevelSetType | none | evolveFront | advectFront
  deriving DecidableEq, Repr

/-- `EquilibrationModels`, material.hpp:112-117. -/
inductive EquilModel | none | tipton | userDefined
  deriving DecidableEq, Repr

/-- `eos_type_map`, material.hpp:177-182. -/
def eosTypeMap : String → Option EosType
  | "no_eos" => some .none
  | "coupled" => some .coupled
  | "decoupled" => some .decoupled
  | _ => Option.none

/-- `eos_models_map`, material.hpp:184-193. -/
def eosModelMap : String → Option EosModel
  | "no_eos" => some .none
  | "gamma_law_gas" => some .gammaLawGas
  | "void" => some .void
  | "user_defined_eos" => some .userDefined
  | "host_user_defined_eos" => some .hostUserDefined
  | "mie_gruneisen_eos" => some .mieGruneisen
  | "linear_elastic_eos" => some .linearElastic
  | _ => Option.none

/-- `strength_type_map`, material.hpp:158-163. -/
def strengthTypeMap : String → Option StrengthType
  | "no_strength" => some .none
  | "increment_based" => some .incrementBased
  | "state_based" => some .stateBased
  | _ => Option.none

/-- `strength_models_map`, material.hpp:165-174. -/
def strengthModelMap : String → Option StrengthModel
  | "no_strength" => some .none
  | "user_defined_strength" => some .userDefined
  | "hypo_plasticity_strength" => some .hypoPlasticity
  | "hypo_plasticity_strength_rz" => some .hypoPlasticityRZ
  | "hypo_elastic_plastic_strength" => some .hypoElasticPlastic
  | "hypo_elastic_plastic_strength_rz" => some .hypoElasticPlasticRZ
  | "host_ann_strength" => some .hostANN
  | _ => Option.none

/-- `erosion_model_map`, material.hpp:196-200. -/
def erosionMap : String → Option ErosionModel
  | "no_erosion" => some .none
  | "basic" => some .basic
  | _ => Option.none

/-- `dissipation_model_map`, material.hpp:209-216. -/
def dissMap : String → Option DissModel
  | "no_dissipation" => some .none
  | "MARS" => some .mars
  | "MARS_rz" => some .marsRZ
  | "directional_MARS" => some .directionalMars
  | "directional_MARS_rz" => some .directionalMarsRZ
  | _ => Option.none

/-- `level_set_type_map`, material.hpp:218-223. -/
def levelSetMap : String → Option LevelSetType
  | "no_level_set" => some .none
  | "evolve_front" => some .evolveFront
  | _ => Option.none

/-- `equilibration_model_map`, material.hpp:202-207. -/
def equilMap : String → Option EquilModel
  | "no_equilibration" => some .none
  | "tipton" => some .tipton
  | "user_defined" => some .userDefined
  | _ => Option.none

/-- `tabular_model_type_map`, material.hpp:226-230, as far as it is used: the names. -/
def tabularTypes : List String := ["no_tabular_model", "temperature_dependent"]

/-- What is stored for one material: `MaterialEnums_t`, `MaterialFunctions_t`
(material.hpp:266-447) and its rows of the ragged arrays of global variables. A function pointer
without a value is `NULL`; it is named after the model whose functions it points to
(`calc_pressure` and `calc_sound_speed` are always set together). A number without a value is
indeterminate. -/
structure MatSlot (K : Type*) where
  eosType : EosType
  eosModel : EosModel
  eosFn : Option EosModel
  eosOnHost : Bool
  strengthType : StrengthType
  strengthFn : Option StrengthModel
  strengthInit : Option StrengthModel
  strengthOnHost : Bool
  erosion : ErosionModel
  erodeFn : Option ErosionModel
  dissModel : DissModel
  dissFn : Option DissFn
  levelSet : LevelSetType
  erodeTension : Option K
  erodeDensity : Option K
  normalVel : K
  curvatureVel : K
  eosVars : List K
  strengthVars : List K
  dissVars : List K
  tables : Bool × Bool × Bool

/-- The defaults, material.hpp:266-306, 317-447 and parse_material_inputs.cpp:150-156. -/
def MatSlot.default {K : Type*} [Zero K] : MatSlot K where
  eosType := .none
  eosModel := .none
  eosFn := Option.none
  eosOnHost := false
  strengthType := .none
  strengthFn := Option.none
  strengthInit := Option.none
  strengthOnHost := false
  erosion := .none
  erodeFn := Option.none
  dissModel := .none
  dissFn := Option.none
  levelSet := .none
  erodeTension := Option.none
  erodeDensity := Option.none
  normalVel := 0
  curvatureVel := 0
  eosVars := []
  strengthVars := []
  dissVars := []
  tables := (false, false, false)

/-- A table: the list of its rows. -/
abbrev TabData (K : Type*) := List (List K)

/-- `density_table`, `thermal_conductivity_table` and `specific_heat_table` of `Material_t`,
material.hpp:508-510: one of each for all materials. -/
structure MatTables (K : Type*) where
  density : TabData K
  conductivity : TabData K
  specificHeat : TabData K

/-- The state while the words of one material are read. -/
abbrev MatState (K : Type*) := MatTables K × MatSlot K

section
variable {V K : Type*} [Zero K]

/-- `As<std::string>()` of the node below a key: empty if there is no such key. -/
def subStr (cv : NodeConv V K) (v : V) (key : String) : String :=
  match (cv.block v).lookup key with
  | some x => cv.str x
  | none => ""

/-- One field of a tabular model, parse_material_inputs.cpp:848-896. `rd` is
`read_tabular_jmatpro_file`: path, name of the table. -/
def tabularField (rd : String → String → Except MatStop (TabData K)) (path field : String)
    (p : MatState K) : Except MatStop (MatState K) :=
  if field = "density" then
    match rd path field with
    | .ok t => .ok ({ p.1 with density := t }, { p.2 with tables := (true, p.2.tables.2) })
    | .error e => .error e
  else if field = "thermal_conductivity" then
    match rd path field with
    | .ok t => .ok ({ p.1 with conductivity := t },
        { p.2 with tables := (p.2.tables.1, true, p.2.tables.2.2) })
    | .error e => .error e
  else if field = "specific_heat" then
    match rd path field with
    | .ok t => .ok ({ p.1 with specificHeat := t },
        { p.2 with tables := (p.2.tables.1, p.2.tables.2.1, true) })
    | .error e => .error e
  else .error .throws

/-- The loop over the fields, parse_material_inputs.cpp:845-897. -/
def tabularFields (rd : String → String → Except MatStop (TabData K)) (path : String) :
    List String → MatState K → Except MatStop (MatState K)
  | [], p => .ok p
  | f :: fs, p =>
    match tabularField rd path f p with
    | .error e => .error e
    | .ok p' => tabularFields rd path fs p'

/-- `tabular_model`, parse_material_inputs.cpp:809-901. -/
def tabularWord (cv : NodeConv V K) (rd : String → String → Except MatStop (TabData K))
    (p : MatState K) (v : V) : Except MatStop (MatState K) :=
  if subStr cv v "type" ∈ tabularTypes then
    if subStr cv v "file_format" = "Abaqus_jmatpro" then
      match (cv.block v).lookup "fields" with
      | none => .error .throws
      | some x =>
        if (cv.list x).length = 0 then .error .throws
        else tabularFields rd (subStr cv v "tabular_data") ((cv.list x).map cv.str) p
    else .error .throws
  else .error .throws

/-- `eos_model_type`, parse_material_inputs.cpp:217-255: nothing happens for a name that is not in
the map. -/
def eosTypeWord (cv : NodeConv V K) (p : MatSlot K) (v : V) : Except MatStop (MatSlot K) :=
  match eosTypeMap (cv.str v) with
  | Option.none => .ok p
  | some .none => .error .throws
  | some t => .ok { p with eosType := t }

/-- `eos_model`, parse_material_inputs.cpp:258-359. -/
def eosModelWord (cv : NodeConv V K) (p : MatSlot K) (v : V) : Except MatStop (MatSlot K) :=
  match eosModelMap (cv.str v) with
  | Option.none => .error .throws
  | some .mieGruneisen => .error .throws
  | some .hostUserDefined =>
    .ok { p with eosModel := .hostUserDefined, eosFn := some .hostUserDefined, eosOnHost := true }
  | some m => .ok { p with eosModel := m, eosFn := some m }

/-- `strength_model_type`, parse_material_inputs.cpp:362-401. -/
def strengthTypeWord (cv : NodeConv V K) (p : MatSlot K) (v : V) : Except MatStop (MatSlot K) :=
  match strengthTypeMap (cv.str v) with
  | Option.none => .error .throws
  | some .stateBased => .error .throws
  | some t => .ok { p with strengthType := t }

/-- `strength_model`, parse_material_inputs.cpp:404-549, on a mesh with `dims` dimensions. -/
def strengthModelWord (cv : NodeConv V K) (dims : ℕ) (p : MatSlot K) (v : V) :
    Except MatStop (MatSlot K) :=
  match strengthModelMap (cv.str v) with
  | Option.none => .error .throws
  | some .none => .ok { p with strengthFn := some .none, strengthInit := some .none }
  | some .userDefined =>
    .ok { p with strengthFn := some .userDefined, strengthInit := some .userDefined }
  | some .hostANN =>
    .ok { p with strengthFn := some .hostANN, strengthOnHost := true, strengthInit := some .hostANN }
  | some .hypoPlasticity =>
    if dims = 2 then .error .throws
    else .ok { p with strengthFn := some .hypoPlasticity, strengthInit := some .hypoPlasticity }
  | some .hypoPlasticityRZ =>
    if dims = 3 then .error .throws
    else .ok { p with strengthFn := some .hypoPlasticityRZ, strengthInit := some .hypoPlasticityRZ }
  | some _ => .error .throws

/-- `erosion_model`, parse_material_inputs.cpp:552-583. -/
def erosionWord (cv : NodeConv V K) (p : MatSlot K) (v : V) : Except MatStop (MatSlot K) :=
  match erosionMap (cv.str v) with
  | Option.none => .error .throws
  | some m => .ok { p with erosion := m, erodeFn := some m }

/-- `dissipation_model`, parse_material_inputs.cpp:585-662. -/
def dissWord (cv : NodeConv V K) (dims : ℕ) (p : MatSlot K) (v : V) :
    Except MatStop (MatSlot K) :=
  match dissMap (cv.str v) with
  | Option.none => .error .throws
  | some .none => .error .throws
  | some .mars =>
    if dims = 2 then .error .throws else .ok { p with dissModel := .mars, dissFn := some .mars }
  | some .marsRZ =>
    if dims = 3 then .error .throws else .ok { p with dissModel := .marsRZ, dissFn := some .marsRZ }
  | some .directionalMars =>
    if dims = 2 then .error .throws
    else .ok { p with dissModel := .directionalMars, dissFn := some .mars }
  | some .directionalMarsRZ =>
    if dims = 3 then .error .throws
    else .ok { p with dissModel := .directionalMarsRZ, dissFn := some .marsRZ }

/-- `level_set_type`, parse_material_inputs.cpp:664-694. -/
def levelSetWord (cv : NodeConv V K) (p : MatSlot K) (v : V) : Except MatStop (MatSlot K) :=
  match levelSetMap (cv.str v) with
  | Option.none => .error .throws
  | some t => .ok { p with levelSet := t }

/-- A word of a material that only touches its own slot, parse_material_inputs.cpp:213-808; `none`:
the word is another one. -/
def matSlotWord (cv : NodeConv V K) (dims : ℕ) (p : MatSlot K) (w : String) (v : V) :
    Option (Except MatStop (MatSlot K)) :=
  if w = "id" then some (.ok p)
  else if w = "eos_model_type" then some (eosTypeWord cv p v)
  else if w = "eos_model" then some (eosModelWord cv p v)
  else if w = "strength_model_type" then some (strengthTypeWord cv p v)
  else if w = "strength_model" then some (strengthModelWord cv dims p v)
  else if w = "erosion_model" then some (erosionWord cv p v)
  else if w = "dissipation_model" then some (dissWord cv dims p v)
  else if w = "level_set_type" then some (levelSetWord cv p v)
  else if w = "erode_tension_val" then some (.ok { p with erodeTension := some (cv.real v) })
  else if w = "erode_density_val" then some (.ok { p with erodeDensity := some (cv.real v) })
  else if w = "normal_velocity" then some (.ok { p with normalVel := cv.real v })
  else if w = "curvature_velocity" then some (.ok { p with curvatureVel := cv.real v })
  else if w = "eos_global_vars" then
    some (if (cv.list v).length > 100 then .error .throws
      else .ok { p with eosVars := (cv.list v).map cv.real })
  else if w = "strength_global_vars" then
    some (if (cv.list v).length > 100 then .error .throws
      else .ok { p with strengthVars := (cv.list v).map cv.real })
  else if w = "dissipation_global_vars" then
    some (if (cv.list v).length < 6 then .error .throws
      else if (cv.list v).length > 10 then .error .throws
      else .ok { p with dissVars := (cv.list v).map cv.real })
  else Option.none

/-- One word of a material, parse_material_inputs.cpp:205-912. -/
def matWord (cv : NodeConv V K) (rd : String → String → Except MatStop (TabData K)) (dims : ℕ)
    (p : MatState K) (w : String) (v : V) : Except MatStop (MatState K) :=
  match matSlotWord cv dims p.2 w v with
  | some (.ok q) => .ok (p.1, q)
  | some (.error e) => .error e
  | none => if w = "tabular_model" then tabularWord cv rd p v else .error .throws

/-- The state while the materials are read: `check_mat_ids`, the tables, and the slots. -/
abbrev MatsState (K : Type*) := (ℕ → Bool) × MatTables K × (ℕ → MatSlot K)

/-- One material, parse_material_inputs.cpp:163-913, in a deck with `n` of them; the loop for the id
is that of `idLoop`. -/
def parseMat (cv : NodeConv V K) (rd : String → String → Except MatStop (TabData K)) (dims n : ℕ)
    (b : Block V) (s : MatsState K) : Except MatStop (MatsState K) :=
  if hasRequired materialRequired b then
    match idLoop n cv.int b (-1) s.1 with
    | .error _ => .error .throws
    | .ok (i, c) =>
      if i < 0 then .error .throws
      else
        match eachWord (matWord cv rd dims) b (s.2.1, s.2.2 i.toNat) with
        | .error e => .error e
        | .ok (t, p) => .ok (c, t, Function.update s.2.2 i.toNat p)
  else .error .throws

/-- The loop over the materials, parse_material_inputs.cpp:162-914. -/
def parseMatsLoop (cv : NodeConv V K) (rd : String → String → Except MatStop (TabData K))
    (dims n : ℕ) : List (Block V) → MatsState K → Except MatStop (MatsState K)
  | [], s => .ok s
  | b :: bs, s =>
    match parseMat cv rd dims n b s with
    | .error e => .error e
    | .ok s' => parseMatsLoop cv rd dims n bs s'

/-- The default of the dissipation function, parse_material_inputs.cpp:945-950. -/
def matDefaults (p : MatSlot K) : MatSlot K :=
  if p.dissModel = .none then { p with dissFn := some .none } else p

/-- The checks at the end, parse_material_inputs.cpp:955-1000, on a material with its defaults:
`false` is a `Kokkos::abort`. -/
def matCheck (p : MatSlot K) : Bool :=
  !(decide (p.eosVars.length > 0) && decide (p.eosFn = Option.none)) &&
  !(decide (p.eosVars.length > 0) && decide (p.eosModel = .none)) &&
  !(decide (p.eosVars.length = 0) && decide (p.eosFn ≠ Option.none) && decide (p.eosModel ≠ .none)) &&
  !(decide (p.dissVars.length > 0) && decide (p.dissFn = Option.none)) &&
  !(decide (p.dissVars.length > 0) && decide (p.dissModel = .none)) &&
  !(decide (p.dissVars.length = 0) && decide (p.dissFn ≠ Option.none) &&
    decide (p.dissModel ≠ .none))

/-- `parse_materials`, parse_material_inputs.cpp:107-1003. Simplified: the rows of the ragged arrays
are lists (they fit: at most 100, 100 and 10 numbers are let through), and the copies of 917-938
keep them. -/
def parseMats (cv : NodeConv V K) (rd : String → String → Except MatStop (TabData K)) (dims : ℕ)
    (bs : List (Block V)) : Except MatStop (MatTables K × (ℕ → MatSlot K)) :=
  if bs.length = 0 then .error .throws
  else
    match parseMatsLoop cv rd dims bs.length bs
      (fun _ => false, ⟨[], [], []⟩, fun _ => MatSlot.default) with
    | .error e => .error e
    | .ok s =>
      if (List.range bs.length).all fun i => matCheck (matDefaults (s.2.2 i)) then
        .ok (s.2.1, fun i => matDefaults (s.2.2 i))
      else .error .aborts

/-! ## The calls through the pointers -/

/-- The calls of the equation of state that initialise pressure and sound speed of a material with
`points` points, region_fill.cpp:2213-2240: there is no test. `none`: a null pointer is called. -/
def initPressure (points : ℕ) (p : MatSlot K) : Option (List EosModel) :=
  if points = 0 then some [] else p.eosFn.map (List.replicate points)

/-- The call that initialises the strength variables, region_fill.cpp:2118-2130, for every material.
-/
def initStrength (p : MatSlot K) : Option (Option StrengthModel) :=
  if p.strengthType = .none then some Option.none else p.strengthInit.map some

/-- The calls of the equation of state in a time step, SGH_solver_3D/src/properties.cpp:99-148: only
for the type "decoupled". -/
def stepPressure (points : ℕ) (p : MatSlot K) : Option (List EosModel) :=
  if p.eosType = .decoupled then initPressure points p else some []

/-- The calls of the strength model in a time step, SGH_solver_3D/src/properties.cpp:320-430: only
for the type "increment based" (sgh_execute.cpp:353). -/
def stepStress (points : ℕ) (p : MatSlot K) : Option (List StrengthModel) :=
  if p.strengthType = .incrementBased then
    if points = 0 then some [] else p.strengthFn.map (List.replicate points)
  else some []

/-- The calls of the erosion model, properties.cpp:217-250: the model and the two thresholds. -/
def stepErode (points : ℕ) (p : MatSlot K) :
    Option (List (ErosionModel × Option K × Option K)) :=
  if p.erosion ≠ .none then
    if points = 0 then some []
    else p.erodeFn.map fun m => List.replicate points (m, p.erodeTension, p.erodeDensity)
  else some []

/-- The calls of the dissipation model, force_sgh.cpp:172: there is no test. -/
def stepDissipation (points : ℕ) (p : MatSlot K) : Option (List DissFn) :=
  if points = 0 then some [] else p.dissFn.map (List.replicate points)

/-! ## Options for several materials -/

/-- The part of `Material_t` that holds for all materials, material.hpp:521-532. Arrays and numbers
of variables that are never set have no value. -/
structure MultiMat (K : Type*) where
  equil : EquilModel
  equilVars : Option (List K)
  geoEquil : EquilModel
  geoVars : Option (List K)
  maxMats : ℕ

/-- The defaults, material.hpp:523-532. -/
def MultiMat.default {K : Type*} : MultiMat K where
  equil := .none
  equilVars := Option.none
  geoEquil := .none
  geoVars := Option.none
  maxMats := 3

/-- One word of the options, parse_material_inputs.cpp:1047-1190. Both words for a model set the
same variable. -/
def multiWord (cv : NodeConv V K) (p : MultiMat K) (w : String) (v : V) :
    Except MatStop (MultiMat K) :=
  if w = "max_num_mats_per_element" then .ok { p with maxMats := cv.nat v }
  else if w = "mat_equilibration_model" then
    match equilMap (cv.str v) with
    | some m => .ok { p with equil := m }
    | Option.none => .error .throws
  else if w = "geo_equilibration_model" then
    match equilMap (cv.str v) with
    | some m => .ok { p with equil := m }
    | Option.none => .error .throws
  else if w = "mat_equilibration_global_vars" then
    if (cv.list v).length < 2 then .error .throws
    else .ok { p with equilVars := some ((cv.list v).map cv.real) }
  else if w = "geo_equilibration_global_vars" then
    if (cv.list v).length < 2 then .error .throws
    else .ok { p with geoVars := some ((cv.list v).map cv.real) }
  else .error .throws

/-- `parse_multimaterial_options`, parse_material_inputs.cpp:1009-1193; the options may be missing.
(The number of materials is not 0, because `parse_materials` runs first, parse_yaml.cpp:109-110.) -/
def parseMulti (cv : NodeConv V K) (o : Option (Block V)) : Except MatStop (MultiMat K) :=
  match o with
  | none => .ok MultiMat.default
  | some b => eachWord (multiWord cv) b MultiMat.default

/-- What the solver does after each stage, SGH_solver_3D/src/sgh_execute.cpp:549-579: whether it
calls `mat_equilibration`, and whether it calls `geo_equilibration`. -/
def equilCalls (p : MultiMat K) : Bool × Bool :=
  (decide (p.equil ≠ .none), decide (p.geoEquil ≠ .none))

end

end Fierro
