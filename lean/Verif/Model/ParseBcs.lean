import Verif.Model.InputDeck
import Verif.Model.Strings

/-!
# Reading the boundary conditions of an input deck

`parse_bcs`, input/parse_bdy_conds_inputs.cpp:94-751, with the names, defaults and required words of
common/include/boundary_conditions.hpp, and which boundary sets the solvers then visit.
-/

namespace Fierro

/-- How a parser stops early: an exception, or undefined behaviour. -/
inductive ParseStop
  | throws | undefined
  deriving DecidableEq, Repr

/-- The conversions of a YAML node that the parsers of boundary conditions and materials use:
those of `Conv`, `As<size_t>`, the mapping below a node (`Begin()`…`End()`), the sequence below a
node (`Size()` and `operator[]`), and `std::stod` (`none`: it throws). They are left arbitrary. -/
structure NodeConv (V K : Type*) extends Conv V K where
  nat : V → ℕ
  block : V → Block V
  list : V → List V
  stod : List Char → Option K

/-- A loop over the words of a block that stops at the first word that cannot be handled, e.g.
parse_bdy_conds_inputs.cpp:206-691. (`wordLoop` with another type of errors.) -/
def eachWord {ε V P : Type*} (word : P → String → V → Except ε P) : Block V → P → Except ε P
  | [], p => .ok p
  | (w, v) :: b, p =>
    match word p w v with
    | .error e => .error e
    | .ok p' => eachWord word b p'

/-- `validate_inputs`, parse_tools.cpp:721-755, as far as it can stop the run. -/
def hasRequired {V : Type*} (required : List String) (b : Block V) : Bool :=
  required.all fun r => b.keys.contains r

/-- `BdyTag`, boundary_conditions.hpp:47-55. -/
inductive BdyTag | xPlane | yPlane | zPlane | cylinder | sphere | global
  deriving DecidableEq, Repr

/-- The numbers of `BdyTag`, boundary_conditions.hpp:47-55; `check_bdy` compares with them. -/
def BdyTag.toNat : BdyTag → ℕ
  | .xPlane => 0 | .yPlane => 1 | .zPlane => 2 | .cylinder => 3 | .sphere => 4 | .global => 5

/-- `BCVelocityModels`, boundary_conditions.hpp:61-70. -/
inductive BcVel | none | constant | timeVarying | reflected | zero | userDefined | piston
  deriving DecidableEq, Repr

/-- `BCTemperatureModels`, boundary_conditions.hpp:73-82. -/
inductive BcTemp | none | constant | convection | radiation
  deriving DecidableEq, Repr

/-- `BCStressModels`, boundary_conditions.hpp:84-93. -/
inductive BcStress
  | none | constant | timeVarying | userDefined | globalContact | preloadContact | fracture
  deriving DecidableEq, Repr

/-- `BCFcnLocation`, boundary_conditions.hpp:101-105. -/
inductive BcLoc | host | device
  deriving DecidableEq, Repr

/-- `bc_surface_map`, boundary_conditions.hpp:110-118. -/
def bcSurfaceMap : String → Option BdyTag
  | "x_plane" => some .xPlane
  | "y_plane" => some .yPlane
  | "z_plane" => some .zPlane
  | "cylinder" => some .cylinder
  | "sphere" => some .sphere
  | "global" => some .global
  | _ => Option.none

/-- `bc_velocity_model_map`, boundary_conditions.hpp:124-133. -/
def bcVelMap : String → Option BcVel
  | "none" => some .none
  | "constant" => some .constant
  | "time_varying" => some .timeVarying
  | "reflected" => some .reflected
  | "fixed" => some .zero
  | "user_defined" => some .userDefined
  | "piston" => some .piston
  | _ => Option.none

/-- `bc_temperature_model_map`, boundary_conditions.hpp:137-146. -/
def bcTempMap : String → Option BcTemp
  | "none" => some .none
  | "constant" => some .constant
  | "convection" => some .convection
  | "radiation" => some .radiation
  | _ => Option.none

/-- `bc_stress_model_map`, boundary_conditions.hpp:148-157. -/
def bcStressMap : String → Option BcStress
  | "none" => some .none
  | "constant" => some .constant
  | "time_varying" => some .timeVarying
  | "user_defined" => some .userDefined
  | "global_contact" => some .globalContact
  | "preload_contact" => some .preloadContact
  | "fracture" => some .fracture
  | _ => Option.none

/-- `bc_location_map`, boundary_conditions.hpp:161-165. -/
def bcLocMap : String → Option BcLoc
  | "host" => some .host
  | "device" => some .device
  | _ => Option.none

/-- What is stored for one boundary condition: `BoundaryConditionSetup_t`,
`BoundaryConditionEnums_t`, `BoundaryConditionFunctions_t` (boundary_conditions.hpp:174-256) and its
row of the ragged arrays of global variables (parse_bdy_conds_inputs.cpp:715-745). A surface tag
without a value is indeterminate, a function pointer without a value is `NULL`. -/
structure BcSlot (K : Type*) where
  surface : Option BdyTag
  origin : K × K × K
  value : K
  tolerance : K
  velModel : BcVel
  velFn : Option BcVel
  tempModel : BcTemp
  tempFn : Option BcTemp
  stressModel : BcStress
  stressFn : Option BcStress
  location : BcLoc
  velVars : List K
  tempVars : List K
  stressVars : List K

/-- The defaults, boundary_conditions.hpp:176-179, 194-202, 223-256 and
parse_bdy_conds_inputs.cpp:159-165; `tol` is `1.0e-7`. -/
def BcSlot.default {K : Type*} [Zero K] (tol : K) : BcSlot K where
  surface := none
  origin := (0, 0, 0)
  value := 0
  tolerance := tol
  velModel := .none
  velFn := none
  tempModel := .none
  tempFn := none
  stressModel := .none
  stressFn := none
  location := .device
  velVars := []
  tempVars := []
  stressVars := []

/-- What is stored once for all boundary conditions, boundary_conditions.hpp:268-318; the sets of
a solver are a row of `..._bdy_sets_in_solver` up to `num_..._bdy_sets_in_solver`. -/
structure BcGlob where
  velSets : ℕ → List ℕ
  tempSets : ℕ → List ℕ
  stressSets : ℕ → List ℕ
  allowContact : Bool
  allowPreload : Bool
  allowFracture : Bool
  localIter : ℕ
  globalIter : ℕ
  fractureId : Option ℕ

/-- boundary_conditions.hpp:273-280, 318 and parse_bdy_conds_inputs.cpp:127-143. -/
def BcGlob.default : BcGlob where
  velSets := fun _ => []
  tempSets := fun _ => []
  stressSets := fun _ => []
  allowContact := false
  allowPreload := false
  allowFracture := false
  localIter := 500
  globalIter := 100
  fractureId := none

section
variable {V K : Type*} [Zero K]

/-- The three numbers of an origin, parse_bdy_conds_inputs.cpp:562-587: two numbers at least, the
third is read only if there are exactly three. -/
def bcOrigin (cv : NodeConv V K) (v : V) : Except ParseStop (K × K × K) :=
  match exactArrayValues (cv.str v).toList [','] with
  | Option.none => .error .undefined
  | some numbers =>
    match numbers with
    | [x, y, z] =>
      match cv.stod x, cv.stod y, cv.stod z with
      | some a, some b, some c => .ok (a, b, c)
      | _, _, _ => .error .throws
    | x :: y :: _ =>
      match cv.stod x, cv.stod y with
      | some a, some b => .ok (a, b, 0)
      | _, _ => .error .throws
    | _ => .error .undefined

/-- One word below `surface`, parse_bdy_conds_inputs.cpp:516-599. -/
def bcSurfaceWord (cv : NodeConv V K) (p : BcSlot K) (w : String) (v : V) :
    Except ParseStop (BcSlot K) :=
  if w = "type" then
    match bcSurfaceMap (cv.str v) with
    | some t => .ok { p with surface := some t }
    | Option.none => .error .throws
  else if w = "plane_position" then .ok { p with value := cv.real v }
  else if w = "radius" then .ok { p with value := cv.real v }
  else if w = "tolerance" then .ok { p with tolerance := cv.real v }
  else if w = "origin" then
    match bcOrigin cv v with
    | .ok o => .ok { p with origin := o }
    | .error e => .error e
  else .error .throws

/-- The state of the parser while it reads one block. -/
abbrev BcState (K : Type*) := BcGlob × BcSlot K

/-- `velocity_model`, parse_bdy_conds_inputs.cpp:217-298. -/
def bcVelWord (cv : NodeConv V K) (i s : ℕ) (p : BcState K) (v : V) :
    Except ParseStop (BcState K) :=
  match bcVelMap (cv.str v) with
  | Option.none => .error .throws
  | some .none => .error .throws
  | some m => .ok ({ p.1 with velSets := Function.update p.1.velSets s (p.1.velSets s ++ [i]) },
      { p.2 with velModel := m, velFn := some m })

/-- `temperature_model`, parse_bdy_conds_inputs.cpp:300-361; nothing is set and nothing is thrown for
a name that is not in the map. -/
def bcTempWord (cv : NodeConv V K) (i s : ℕ) (p : BcState K) (v : V) :
    Except ParseStop (BcState K) :=
  let g := { p.1 with tempSets := Function.update p.1.tempSets s (p.1.tempSets s ++ [i]) }
  match bcTempMap (cv.str v) with
  | Option.none => .ok (g, p.2)
  | some .none => .error .throws
  | some .constant => .ok (g, { p.2 with tempModel := .constant, tempFn := some .constant })
  | some m => .ok (g, { p.2 with tempModel := m })

/-- `stress_model`, parse_bdy_conds_inputs.cpp:364-473. -/
def bcStressWord (cv : NodeConv V K) (i s : ℕ) (p : BcState K) (v : V) :
    Except ParseStop (BcState K) :=
  let g := { p.1 with stressSets := Function.update p.1.stressSets s (p.1.stressSets s ++ [i]) }
  match bcStressMap (cv.str v) with
  | Option.none => .error .throws
  | some .none => .error .throws
  | some .globalContact => .ok ({ g with allowContact := true }, p.2)
  | some .preloadContact => .ok ({ g with allowPreload := true, allowContact := true }, p.2)
  | some .fracture => .ok ({ g with allowFracture := true, fractureId := some i },
      { p.2 with stressModel := .fracture, stressFn := some .fracture })
  | some m => .ok (g, { p.2 with stressModel := m, stressFn := some m })

/-- One word of a boundary condition with number `i` that names solver `s`,
parse_bdy_conds_inputs.cpp:206-691. -/
def bcWord (cv : NodeConv V K) (i s : ℕ) (p : BcState K) (w : String) (v : V) :
    Except ParseStop (BcState K) :=
  if w = "solver_id" then .ok p
  else if w = "velocity_model" then bcVelWord cv i s p v
  else if w = "temperature_model" then bcTempWord cv i s p v
  else if w = "stress_model" then bcStressWord cv i s p v
  else if w = "location" then
    match bcLocMap (cv.str v) with
    | some l => .ok (p.1, { p.2 with location := l })
    | Option.none => .error .throws
  else if w = "surface" then
    match eachWord (bcSurfaceWord cv) (cv.block v) p.2 with
    | .ok q => .ok (p.1, q)
    | .error e => .error e
  else if w = "velocity_bc_global_vars" then
    if (cv.list v).length > 100 then .error .throws
    else .ok (p.1, { p.2 with velVars := (cv.list v).map cv.real })
  else if w = "temperature_bc_global_vars" then
    if (cv.list v).length > 100 then .error .throws
    else .ok (p.1, { p.2 with tempVars := (cv.list v).map cv.real })
  else if w = "stress_bc_global_vars" then
    if (cv.list v).length > 100 then .error .throws
    else .ok (p.1, { p.2 with stressVars := (cv.list v).map cv.real })
  else if w = "contact_bc_vars" then
    match cv.list v with
    | [a, b] => .ok ({ p.1 with localIter := cv.nat a, globalIter := cv.nat b }, p.2)
    | _ => .error .throws
  else .error .throws

/-- The loop that looks for the solver, parse_bdy_conds_inputs.cpp:183-203; the result is the last
`solver_id` of the block, `-1` if there is none. -/
def bcSolverLoop (cv : NodeConv V K) (numSolvers : ℕ) : Block V → ℤ → Except ParseStop ℤ
  | [], s => .ok s
  | (w, v) :: b, s =>
    if w = "solver_id" then
      if cv.int v < 0 ∨ (numSolvers : ℤ) ≤ cv.int v then .error .throws
      else bcSolverLoop cv numSolvers b (cv.int v)
    else bcSolverLoop cv numSolvers b s

/-- One boundary condition, parse_bdy_conds_inputs.cpp:170-696; `bc_required_inps` are those of
boundary_conditions.hpp:357-361. -/
def parseBc (cv : NodeConv V K) (numSolvers : ℕ) (tol : K) (i : ℕ) (b : Block V) (g : BcGlob) :
    Except ParseStop (BcState K) :=
  if hasRequired ["solver_id", "surface"] b then
    match bcSolverLoop cv numSolvers b (-1) with
    | .error e => .error e
    | .ok s =>
      if s < 0 then .error .throws
      else eachWord (bcWord cv i s.toNat) b (g, BcSlot.default tol)
  else .error .throws

/-- The loop over the boundary conditions, parse_bdy_conds_inputs.cpp:169-701; `i` is `bc_id` of the
first of them. The slots are given in the order of the deck. -/
def parseBcsFrom (cv : NodeConv V K) (numSolvers : ℕ) (tol : K) :
    ℕ → List (Block V) → BcGlob → Except ParseStop (BcGlob × List (BcSlot K))
  | _, [], g => .ok (g, [])
  | i, b :: bs, g =>
    match parseBc cv numSolvers tol i b g with
    | .error e => .error e
    | .ok (g', p) =>
      match parseBcsFrom cv numSolvers tol (i + 1) bs g' with
      | .error e => .error e
      | .ok (g'', ps) => .ok (g'', p :: ps)

/-- `parse_bcs`, parse_bdy_conds_inputs.cpp:94-751. Simplified: the rows of the ragged arrays are
lists (`C108_room` shows that they fit); the final copies (715-745) keep them. -/
def parseBcs (cv : NodeConv V K) (numSolvers : ℕ) (tol : K) (bs : List (Block V)) :
    Except ParseStop (BcGlob × List (BcSlot K)) :=
  parseBcsFrom cv numSolvers tol 0 bs BcGlob.default

/-- The sets that `boundary_temperature`, `boundary_convection` and `boundary_radiation` of the
thermal solver visit for model `m`, SGTM_solver_3D/src/boundary.cpp:56-60, 109-112, 249-252: all
boundary sets of the mesh with this model. The solver has an id but does not look at it. -/
def thermalSets (m : BcTemp) (slots : List (BcSlot K)) : List ℕ :=
  (List.range slots.length).filter fun i => (slots[i]?.map (·.tempModel)) == some m

/-- The function pointers that `boundary_stress` calls, SGH_solver_3D/src/boundary.cpp:168-178,
266-276: for every stress set of the solver, once for each patch of the set. `none`: a call through
a null pointer. -/
def stressCalls (slots : List (BcSlot K)) (patches : ℕ → ℕ) :
    List ℕ → Option (List BcStress)
  | [] => some []
  | i :: is =>
    match stressCalls slots patches is with
    | Option.none => Option.none
    | some l =>
      if patches i = 0 then some l
      else (slots[i]?.bind (·.stressFn)).map fun f => List.replicate (patches i) f ++ l

end

end Fierro
