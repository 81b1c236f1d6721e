import Verif.Model.Strings
import Verif.Model.Table

/-!
# Tables of material properties over temperature

`AbaqusReader::read_tabular_jmatpro_file`, input/read_abaqus_files.cpp:55-165, the functions of
material_models/tabular/include/tabular_material_model.hpp, and `SGTM3D::update_properties`,
SGTM_solver_3D/src/properties.cpp:63-106.
-/

namespace Fierro

/-- How the reading of materials stops early: an exception, or a failed `assert` or
`Kokkos::abort`. -/
inductive MatStop
  | throws | aborts
  deriving DecidableEq, Repr

/-- The keyword of a table, read_abaqus_files.cpp:62-81: the cases for the four names that are
known, otherwise the name itself; in upper case. -/
def jmKeyword (name : List Char) : List Char :=
  let lower := name.map Char.toLower
  (if lower = "density".toList then "*Density".toList
   else if lower = "thermal_conductivity".toList then "*CONDUCTIVITY".toList
   else if lower = "specific_heat".toList ∨ lower = "specific heat".toList then
     "*SPECIFIC HEAT".toList
   else if lower = "elastic".toList then "*ELASTIC".toList
   else '*' :: name).map Char.toUpper

/-- The numbers of a data line, read_abaqus_files.cpp:113-129. `stod` is `std::stod` (`none`: it
throws); the result is `none` if there was a parse error. -/
def jmRow {K : Type*} (stod : List Char → Option K) : List (List Char) → Option (List K)
  | [] => some []
  | t :: ts =>
    if trim t = [] then jmRow stod ts
    else
      match stod (trim t) with
      | none => none
      | some x => (jmRow stod ts).map (x :: ·)

/-- The loop over the lines of the file, read_abaqus_files.cpp:87-135; the second argument is
`in_block`, the third `data_buffer`. (`rfind(s, 0) == 0`: the line starts with `s`.) `none`: `split`
does not return. -/
def jmLoop {K : Type*} (stod : List Char → Option K) (kw : List Char) :
    List (List Char) → Bool → List (List K) → Option (List (List K))
  | [], _, acc => some acc
  | line :: ls, inBlock, acc =>
    if trim line = [] then jmLoop stod kw ls inBlock acc
    else if ['*'].isPrefixOf (trim line) && !['*', '*'].isPrefixOf (trim line) then
      if kw.isPrefixOf ((trim line).map Char.toUpper) then jmLoop stod kw ls true acc
      else if inBlock then some acc
      else jmLoop stod kw ls inBlock acc
    else if inBlock then
      if ['*', '*'].isPrefixOf (trim line) then jmLoop stod kw ls inBlock acc
      else
        match split (trim line) [','] with
        | none => none
        | some tokens =>
          match jmRow stod tokens with
          | none => jmLoop stod kw ls inBlock acc
          | some [] => jmLoop stod kw ls inBlock acc
          | some (x :: xs) => jmLoop stod kw ls inBlock (acc ++ [x :: xs])
    else jmLoop stod kw ls inBlock acc

/-- `verify_data(0)`, table.hpp:103-119: the first column ascends. (There are no NaN here.) -/
def ascending {K : Type*} [LE K] [DecidableLE K] (t : List (List K)) : Bool :=
  (List.range (t.length - 1)).all fun i =>
    match t[i]?.bind (·[0]?), t[i + 1]?.bind (·[0]?) with
    | some a, some b => decide (a ≤ b)
    | _, _ => false

/-- `read_tabular_jmatpro_file`, read_abaqus_files.cpp:55-165. `fs` gives the lines of the file at a
path, if it can be opened; `asserts` tells whether the code is compiled with `assert` (then
`verify_data` can stop it). A table is the list of its rows. -/
def readJmatpro {K : Type*} [LE K] [DecidableLE K] (stod : List Char → Option K) (asserts : Bool)
    (fs : String → Option (List (List Char))) (path name : String) :
    Except MatStop (List (List K)) :=
  match fs path with
  | none => .error .throws
  | some lines =>
    match jmLoop stod (jmKeyword name.toList) lines false [] with
    | none => .error .throws
    | some [] => .error .throws
    | some (r :: rs) =>
      if (r :: rs).all fun row => row.length == r.length then
        if asserts && !ascending ((r :: rs).map List.reverse) then .error .aborts
        else .ok ((r :: rs).map List.reverse)
      else .error .throws

/-- The two columns that `get_density_from_temperature`, `get_thermal_conductivity_from_temperature`
and `get_specific_heat_from_temperature` use, tabular_material_model.hpp:46-72: the temperature
from column 0, the value from column 1. `none`: a column does not exist. -/
def tableColumns {K : Type*} (t : List (List K)) : Option (List (K × K)) :=
  t.mapM fun row =>
    match row[0]?, row[1]? with
    | some x, some y => some (x, y)
    | _, _ => none

/-- The value of a table at a temperature, tabular_material_model.hpp:56-72. Simplified: a table
without a second column is treated as unreadable at every temperature. -/
def tabularValue {K : Type} [Field K] [LinearOrder K] (t : List (List K)) (temp : K) : Option K :=
  (tableColumns t).bind fun rows => tableLookup rows temp

/-- The average temperature of an element, SGTM_solver_3D/src/properties.cpp:87-91. -/
def avgTemp {K : Type*} [Field K] (temps : List K) : K :=
  temps.foldl (fun s t => s + t / (8 : K)) 0

/-- One pass of `update_properties`, SGTM_solver_3D/src/properties.cpp:82-98: density, conductivity
and specific heat of a material point from the tables, through the function pointers of the
material (`false`: null). `none`: a null pointer is called, or a read outside a table. The three
tables are those of `Material_t`, one of each for all materials (material.hpp:508-510). -/
def tabularPoint {K : Type} [Field K] [LinearOrder K] (fns : Bool × Bool × Bool)
    (tables : List (List K) × List (List K) × List (List K)) (temps : List K) :
    Option (K × K × K) :=
  if fns.1 && fns.2.1 && fns.2.2 then
    match tabularValue tables.1 (avgTemp temps), tabularValue tables.2.1 (avgTemp temps),
      tabularValue tables.2.2 (avgTemp temps) with
    | some d, some k, some c => some (d, k, c)
    | _, _, _ => none
  else none

end Fierro
