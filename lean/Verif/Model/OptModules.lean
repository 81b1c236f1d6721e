import Mathlib.Data.Nat.Notation

/-!
# The optimization modules of the previous version

Models the choice of optimization modules in
`/repo/legacy/Fierro_V0/src/Parallel-Solvers/Simulation_Parameters/Simulation_Parameters.h`, lines 98-308, 364-447, and
the types of `Optimization_Options.h`.

The values of constraints and the weights of objectives are of any type.  `none` is an exception.  The only relation of
a constraint is equality (Optimization_Options.h:43), so that it is not a datum here.  A missing component is already
refused by `validate` of the constraint (lines 82-91) when it is loaded; here it is refused where it is used, for the
same constraints.
-/

namespace Fierro

/-- `FEA_MODULE_TYPE`, FEA_Module_Parameters.h:16-24. -/
inductive FeaType where
  | elasticity | inertial | heatConduction | thermoElastic | sgh | eulerian | dynamicElasticity
  deriving DecidableEq

/-- `OPTIMIZATION_MODULE_TYPE`, Optimization_Options.h:15-33. -/
inductive OptModule where
  | kineticTop | internalTop | kineticShape | internalShape | multiObjective | heatTop | strainTop | massTop | massShape
  | inertiaTop | inertiaShape | centerTop | heatConstraintTop | multiTerm | thermoElasticTop | strainConstraintTop
  | displacementTop
  deriving DecidableEq

/-- `OPTIMIZATION_PROCESS` other than none, Optimization_Options.h:36. -/
inductive OptProcess where
  | topology | shape
  deriving DecidableEq

/-- `OPTIMIZATION_OBJECTIVE`, Optimization_Options.h:38-41. -/
inductive OptObjective where
  | none | minKinetic | multi | minCompliance | minThermal | maxCompliance | maxKinetic | maxThermal | minInternal
  | maxInternal
  deriving DecidableEq

/-- `CONSTRAINT_TYPE`, Optimization_Options.h:42. -/
inductive OptConstraintType where
  | mass | inertia | center | displacement
  deriving DecidableEq

/-- `CONSTRAINT_COMPONENT`, Optimization_Options.h:46. -/
inductive OptComponent where
  | x | y | z | xx | yy | zz | xy | xz | yz
  deriving DecidableEq

/-- `component_to_int`, Optimization_Options.h:47-70. -/
def componentInt : OptComponent → ℕ
  | .x => 0 | .y => 1 | .z => 2 | .xx => 0 | .yy => 1 | .zz => 2 | .xy => 3 | .xz => 4 | .yz => 5

/-- `FUNCTION_TYPE`, Optimization_Options.h:6-13. -/
inductive OptFunction where
  | objective | term | equality
  deriving DecidableEq

/-- One entry of `Optimization_Module_List`, `Optimization_Function_Type` and `Function_Arguments`. -/
structure OptEntry (α : Type) where
  type : OptModule
  fn : OptFunction
  value : Option α
  component : Option ℕ

/-- One constraint, Optimization_Options.h:72-77. -/
structure OptConstraint (α : Type) where
  type : OptConstraintType
  value : α
  component : Option OptComponent

/-- The module of an objective, Simulation_Parameters.h:98-165. -/
def objectiveModule : OptProcess → OptObjective → Option OptModule
  | .topology, .minCompliance => some .strainTop
  | .topology, .minThermal => some .heatTop
  | .topology, .minKinetic => some .kineticTop
  | .topology, .maxCompliance => some .strainTop
  | .topology, .maxThermal => some .heatTop
  | .topology, .maxKinetic => some .kineticTop
  | .topology, .minInternal => some .internalTop
  | .topology, .maxInternal => some .internalTop
  | .topology, .multi => some .multiObjective
  | .shape, .minInternal => some .internalShape
  | .shape, .maxInternal => some .internalShape
  | .shape, .minKinetic => some .kineticShape
  | .shape, .maxKinetic => some .kineticShape
  | .shape, .multi => some .multiObjective
  | _, _ => none

/-- The module of a term of several objectives, Simulation_Parameters.h:172-181. -/
def termModule : OptObjective → Option OptModule
  | .minCompliance => some .strainTop
  | .minThermal => some .heatTop
  | _ => none

/-- The terms of several objectives, Simulation_Parameters.h:166-186. -/
def termEntries {α : Type} : List (OptObjective × α) → Option (List (OptEntry α))
  | [] => some []
  | t :: ts => do
    let m ← termModule t.1
    let rest ← termEntries ts
    return ⟨m, .term, none, none⟩ :: rest

/-- `derive_objective_module`, Simulation_Parameters.h:98-165. -/
def objectiveEntries {α : Type} (pr : OptProcess) (o : OptObjective) (terms : List (OptObjective × α)) :
    Option (List (OptEntry α)) := do
  let m ← objectiveModule pr o
  let rest ← if o = .multi then termEntries terms else some []
  return ⟨m, .objective, none, none⟩ :: rest

/-- The entry of a constraint, Simulation_Parameters.h:199-252. -/
def constraintEntry {α : Type} (pr : OptProcess) (c : OptConstraint α) : Option (OptEntry α) :=
  match pr, c.type with
  | .topology, .mass => some ⟨.massTop, .equality, some c.value, none⟩
  | .topology, .inertia => c.component.map fun d => ⟨.inertiaTop, .equality, some c.value, some (componentInt d)⟩
  | .topology, .center => c.component.map fun d => ⟨.centerTop, .equality, some c.value, some (componentInt d)⟩
  | .topology, .displacement => some ⟨.displacementTop, .equality, some c.value, none⟩
  | .shape, .mass => some ⟨.massShape, .equality, some c.value, none⟩
  | .shape, .inertia => c.component.map fun d => ⟨.inertiaShape, .equality, some c.value, some (componentInt d)⟩
  | .shape, _ => none

/-- `derive_constraint_modules`, Simulation_Parameters.h:187-254. -/
def constraintEntries {α : Type} (pr : OptProcess) : List (OptConstraint α) → Option (List (OptEntry α))
  | [] => some []
  | c :: cs => do
    let e ← constraintEntry pr c
    let rest ← constraintEntries pr cs
    return e :: rest

/-- The table of `find_Optimization_module_dependency`, Simulation_Parameters.h:378-394. -/
def optNeeds : OptModule → List FeaType
  | .heatTop | .heatConstraintTop | .thermoElasticTop => [.heatConduction]
  | .massTop | .centerTop | .inertiaTop | .massShape | .inertiaShape => [.inertial]
  | .strainTop | .displacementTop | .strainConstraintTop => [.elasticity]
  | .internalTop | .internalShape | .kineticShape => [.sgh]
  | .kineticTop => [.sgh, .dynamicElasticity]
  | .multiObjective | .multiTerm => []

/-- `find_module`, Simulation_Parameters.h:417-424. -/
def findFea (fea : List FeaType) (t : FeaType) : ℕ := fea.findIdx fun s => s == t

/-- `has_module`, Simulation_Parameters.h:409-411. -/
def hasFea (fea : List FeaType) (t : FeaType) : Bool := findFea fea t != fea.length

/-- `find_Optimization_module_dependency`, Simulation_Parameters.h:377-403: an exception, no dependency, or the index. -/
def optOwner (fea : List FeaType) (m : OptModule) : Option (Option ℕ) :=
  if (optNeeds m).isEmpty then some none
  else match (optNeeds m).find? (hasFea fea) with
    | none => none
    | some t => some (some (findFea fea t))

/-- The loop of `map_Opt_to_FEA`, Simulation_Parameters.h:260-277, from a given index on: the list
`Optimization_Module_My_FEA_Module`, whose entries begin as zero, and `FEA_Module_My_Optimization_Modules`. -/
def mapOwners {α : Type} (fea : List FeaType) : ℕ → List (OptEntry α) → List (List ℕ) → Option (List ℕ × List (List ℕ))
  | _, [], lists => some ([], lists)
  | k, e :: es, lists =>
    match optOwner fea e.type with
    | none => none
    | some none => (mapOwners fea (k + 1) es lists).map fun r => (0 :: r.1, r.2)
    | some (some j) => (mapOwners fea (k + 1) es (lists.modify j fun l => l ++ [k])).map fun r => (j :: r.1, r.2)

/-- `ensure_module` of the inertial module, Simulation_Parameters.h:295 and 439-447. -/
def withInertial (fea : List FeaType) : List FeaType :=
  if findFea fea .inertial = fea.length then fea ++ [.inertial] else fea

/-- What `derive` makes of the modules, Simulation_Parameters.h:294-301. -/
structure OptPlan (α : Type) where
  fea : List FeaType
  entries : List (OptEntry α)
  owner : List ℕ
  lists : List (List ℕ)

/-- The part of `derive` for the modules of an optimization, Simulation_Parameters.h:294-301. -/
def deriveOpt {α : Type} (fea : List FeaType) (pr : OptProcess) (o : OptObjective) (terms : List (OptObjective × α))
    (cs : List (OptConstraint α)) : Option (OptPlan α) := do
  let fea := withInertial fea
  let es ← objectiveEntries pr o terms
  let ds ← constraintEntries pr cs
  let r ← mapOwners fea 0 (es ++ ds) (fea.map fun _ => [])
  return ⟨fea, es ++ ds, r.1, r.2⟩

end Fierro
