import Mathlib.Data.List.Basic
import Mathlib.Logic.Function.Basic
import Mathlib.Algebra.Order.Field.Basic

/-!
# Reading the blocks of an input deck

input/parse_tools.cpp, input/parse_solver_inputs.cpp, input/parse_material_inputs.cpp,
input/parse_dynamic_inputs.cpp, input/parse_output_options.cpp, input/parse_regions.cpp and the
checks of common/include/state.hpp.
-/

namespace Fierro

/-- The ways in which the parsers stop (`throw std::runtime_error`). -/
inductive InputError
  | missingRequired | noBlocks | idOutOfBounds | idDuplicate | idMissing
  | badMethod | negativeTime | notUnderstood
  deriving DecidableEq, Repr

/-- One block of the deck: the keys below a YAML mapping with their values, in iteration order.
A YAML mapping is a `std::map`, so that the keys of a block are distinct; theorems that need this
say so. `V` stands for the YAML value (a node). -/
abbrev Block (V : Type*) := List (String × V)

/-- The keys of a block, `user_inputs` after parse_tools.cpp:727-731. -/
def Block.keys {V : Type*} (b : Block V) : List String := b.map Prod.fst

/-- The conversions `As<int>`, `As<double>`, `As<bool>`, `As<std::string>` of a YAML value
(Yaml.hpp:68-133, 485-488). They are left arbitrary. (For empty text the C++ `As<int>` returns an
uninitialised variable; "arbitrary" covers this.) -/
structure Conv (V K : Type*) where
  int : V → ℤ
  real : V → K
  bool : V → Bool
  str : V → String

/-- What `validate_inputs` prints "ERROR: invalid input" for, parse_tools.cpp:733-736. Nothing
else happens for such a key. -/
def complaints {V : Type*} (valid : List String) (b : Block V) : List String :=
  b.keys.filter fun w => !valid.contains w

/-- `validate_inputs`, parse_tools.cpp:721-755: the keys, or an exception if a required key is
missing. -/
def validateInputs {V : Type*} (required : List String) (b : Block V) :
    Except InputError (List String) :=
  if required.all fun r => b.keys.contains r then .ok b.keys else .error .missingRequired

/-- The loop that looks for the id, parse_solver_inputs.cpp:93-117 and the same text in
parse_material_inputs.cpp:135-160. State: the id found so far (initially -1) and `check_solver_ids`.
-/
def idLoop {V : Type*} (n : ℕ) (asInt : V → ℤ) :
    Block V → ℤ → (ℕ → Bool) → Except InputError (ℤ × (ℕ → Bool))
  | [], i, c => .ok (i, c)
  | (w, v) :: b, i, c =>
    if w = "id" then
      if asInt v < 0 ∨ (n : ℤ) ≤ asInt v then .error .idOutOfBounds
      else if c (asInt v).toNat then .error .idDuplicate
      else idLoop n asInt b (asInt v) (Function.update c (asInt v).toNat true)
    else idLoop n asInt b i c

/-- The loop over the words that fills the slot, e.g. parse_solver_inputs.cpp:127-184. -/
def wordLoop {V P : Type*} (word : P → String → V → Except InputError P) :
    Block V → P → Except InputError P
  | [], p => .ok p
  | (w, v) :: b, p =>
    match word p w v with
    | .error e => .error e
    | .ok p' => wordLoop word b p'

/-- One pass of the loop over the blocks, parse_solver_inputs.cpp:79-185 and
parse_material_inputs.cpp:117 on: validate, find the id, fill slot `id`. `word` is what the parser
at hand does with one word; it only touches slot `id`. -/
def parseBlock {V P : Type*} (n : ℕ) (required : List String) (asInt : V → ℤ)
    (word : P → String → V → Except InputError P) (b : Block V)
    (s : (ℕ → Bool) × (ℕ → P)) : Except InputError ((ℕ → Bool) × (ℕ → P)) :=
  match validateInputs required b with
  | .error e => .error e
  | .ok _ =>
    match idLoop n asInt b (-1) s.1 with
    | .error e => .error e
    | .ok (i, c) =>
      if i < 0 then .error .idMissing
      else
        match wordLoop word b (s.2 i.toNat) with
        | .error e => .error e
        | .ok p => .ok (c, Function.update s.2 i.toNat p)

/-- The loop over the blocks. -/
def parseBlocksLoop {V P : Type*} (n : ℕ) (required : List String) (asInt : V → ℤ)
    (word : P → String → V → Except InputError P) :
    List (Block V) → (ℕ → Bool) × (ℕ → P) → Except InputError ((ℕ → Bool) × (ℕ → P))
  | [], s => .ok s
  | b :: bs, s =>
    match parseBlock n required asInt word b s with
    | .error e => .error e
    | .ok s' => parseBlocksLoop n required asInt word bs s'

/-- Parsing a list of blocks with ids into `n` slots that start with the default value `p₀`. -/
def parseBlocks {V P : Type*} (required : List String) (asInt : V → ℤ)
    (word : P → String → V → Except InputError P) (p₀ : P) (bs : List (Block V)) :
    Except InputError (ℕ → P) :=
  match parseBlocksLoop bs.length required asInt word bs (fun _ => false, fun _ => p₀) with
  | .error e => .error e
  | .ok s => .ok s.2

/-- `solver_input::method`, solver_inputs.hpp:43-53. -/
inductive SolverMethod
  | none | sgh3D | sghRZ | sgtm3D | levelSet | tlqs3D
  deriving DecidableEq, Repr

/-- `solver_map`, solver_inputs.hpp:55-62. -/
def solverMap : String → Option SolverMethod
  | "dynx_FE" => some .sgh3D
  | "dynx_FE_rz" => some .sghRZ
  | "thrmex_FE" => some .sgtm3D
  | "level_set" => some .levelSet
  | "qstatx_FE" => some .tlqs3D
  | _ => Option.none

/-- `solver_input_t`, solver_inputs.hpp:75-82. -/
structure SolverInput (K : Type*) where
  method : SolverMethod
  timeEnd : K
  movingHeatSource : Bool

/-- One word of a solver block, parse_solver_inputs.cpp:129-183. -/
def solverWord {V K : Type*} [Zero K] [LT K] [DecidableLT K] (cv : Conv V K) (p : SolverInput K)
    (w : String) (v : V) : Except InputError (SolverInput K) :=
  if w = "method" then
    match solverMap (cv.str v) with
    | some m => .ok { p with method := m }
    | none => .error .badMethod
  else if w = "id" then .ok p
  else if w = "time_end" then
    if cv.real v < 0 then .error .negativeTime else .ok { p with timeEnd := cv.real v }
  else if w = "use_moving_heat_source" then .ok { p with movingHeatSource := cv.bool v }
  else .error .notUnderstood

/-- `parse_solver_input`, parse_solver_inputs.cpp:68-187. -/
def parseSolverInput {V K : Type*} [Zero K] [LT K] [DecidableLT K] (cv : Conv V K)
    (bs : List (Block V)) : Except InputError (ℕ → SolverInput K) :=
  parseBlocks ["method", "id"] cv.int (solverWord cv) ⟨.none, 0, false⟩ bs

/-- `material_required_inps`, material.hpp:593-596. -/
def materialRequired : List String := ["id"]

/-- `parse_materials`, parse_material_inputs.cpp:95-170 on: no block at all is an error, and the
blocks are then read like the solver blocks. What one word does to the material (the roughly 900
lines from 170 on) is left arbitrary as `word`. -/
def parseMaterials {V P : Type*} (asInt : V → ℤ) (word : P → String → V → Except InputError P)
    (p₀ : P) (bs : List (Block V)) : Except InputError (ℕ → P) :=
  if bs.length = 0 then .error .noBlocks
  else parseBlocks materialRequired asInt word p₀ bs

/-- `dynamic_options_t`, dynamic_options.hpp:47-65. -/
structure DynamicOptions (K : Type*) where
  cycleStop : ℤ
  timeInitial : K
  timeFinal : K
  dtMin : K
  dtMax : K
  dtStart : K
  dtCfl : K
  fuzz : K
  tiny : K
  small : K
  rkNumStages : ℤ

/-- One word of the dynamic options, parse_dynamic_inputs.cpp:84-145. (`cycle_stop` is an `int`
stored in an `unsigned long`; here it stays an integer.) -/
def dynamicWord {V K : Type*} (cv : Conv V K) (p : DynamicOptions K) (w : String) (v : V) :
    Except InputError (DynamicOptions K) :=
  if w = "time_initial" then .ok { p with timeInitial := cv.real v }
  else if w = "time_final" then .ok { p with timeFinal := cv.real v }
  else if w = "dt_min" then .ok { p with dtMin := cv.real v }
  else if w = "dt_max" then .ok { p with dtMax := cv.real v }
  else if w = "dt_start" then .ok { p with dtStart := cv.real v }
  else if w = "dt_cfl" then .ok { p with dtCfl := cv.real v }
  else if w = "cycle_stop" then .ok { p with cycleStop := cv.int v }
  else if w = "fuzz" then .ok { p with fuzz := cv.real v }
  else if w = "tiny" then .ok { p with tiny := cv.real v }
  else if w = "small" then .ok { p with small := cv.real v }
  else if w = "rk_num_stages" then .ok { p with rkNumStages := cv.int v }
  else .error .notUnderstood

/-- `parse_dynamic_options`, parse_dynamic_inputs.cpp:71-148, run on the options `p₀` (which hold
the defaults of dynamic_options.hpp). -/
def parseDynamicOptions {V K : Type*} (cv : Conv V K) (p₀ : DynamicOptions K) (b : Block V) :
    Except InputError (DynamicOptions K) :=
  match validateInputs ["time_final", "cycle_stop"] b with
  | .error e => .error e
  | .ok _ => wordLoop (dynamicWord cv) b p₀

/-- The element fields chosen for output, parse_output_options.cpp:129-170: names are looked up in
`elem_outputs_map`, an unknown name throws; if the specific internal energy is written then the mass
is added. -/
def elemOutputs {F : Type*} [DecidableEq F] (look : String → Option F) (sie mass : F)
    (old : List F) (names : List String) : Except InputError (List F) :=
  match names.mapM look with
  | none => .error .notUnderstood
  | some fs =>
    let all := old ++ fs
    .ok (if all.contains sie && !all.contains mass then all ++ [mass] else all)

/-- One `store`-guarded `push_back`, e.g. parse_regions.cpp:150-157. -/
def storeField {F : Type*} [DecidableEq F] (fields : List F) (f : F) : List F :=
  if fields.any fun g => g == f then fields else fields ++ [f]

/-- The list of filled fields after parsing all regions: every field of every region in order,
parse_regions.cpp:84-93, 150-1095. `regions` gives the fields named in each region. -/
def filledFields {F : Type*} [DecidableEq F] (regions : List (List F)) : List F :=
  regions.flatten.foldl storeField []

/-- The counter of `check_fill_node_states` and `check_fill_mat_states`,
state.hpp:199-209 and 227-237. -/
def fillCount {F : Type*} [DecidableEq F] (required given : List F) : ℕ :=
  required.foldl (fun n r => given.foldl (fun n g => if g = r then n + 1 else n) n) 0

/-- `check_fill_node_states` and `check_fill_mat_states`, state.hpp:194-245. -/
def checkFill {F : Type*} [DecidableEq F] (required given : List F) : Bool :=
  fillCount required given == required.length

/-- The fields that can be filled at Gauss points, as far as the check uses them. -/
inductive FillField
  | density | sie | ie | other
  deriving DecidableEq, Repr

/-- The material check of the hydrodynamics solver, sgh_initialize.cpp:96-117 with the lists of
sgh_solver_3D.hpp:110-120. -/
def sghMaterialCheck (given : List FillField) : Bool :=
  checkFill [.density, .sie] given || checkFill [.density, .ie] given

end Fierro
