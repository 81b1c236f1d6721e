import Verif.Model.Sgtm
import Verif.Model.Jmatpro

/-!
# A whole run of the thermal solver

`SGTM3D::execute`, `apps/multiphysics/src/Solvers/SGTM_solver_3D/src/sgtm_execute.cpp:55-424`: the
clock, the dumps, the material tables and the moving source around the cycles of `Model/Sgtm.lean`.
-/

namespace Fierro

variable {E N : ℕ}

/-- Everything a thermal run reads and does not change. -/
structure ThermJob (E N : ℕ) where
  mesh : Mesh8 E N
  coords : Fin N → Fin 3 → ℝ
  /-- `State.node.mass`, from the setup -/
  mass : Fin N → ℝ
  sets : List (ThermSet N)
  clock : ClockOpts
  /-- `rk_num_stages` (an `int`; modelled for non-negative values) -/
  stages : ℕ
  /-- `use_moving_heat_source` of the solver -/
  moving : Bool
  /-- the table of lines 104-109 -/
  path : List PathPoint
  /-- which of the three table functions of a material are set -/
  fns : ℕ → Bool × Bool × Bool
  /-- density, conductivity and specific heat tables -/
  tables : List (List ℝ) × List (List ℝ) × List (List ℝ)

/-- The variables of the loop. -/
structure ThermLoop (E N : ℕ) where
  st : ThermState E N
  clock : Clock
  /-- `sphere_position` -/
  pos : Fin 3 → ℝ
  /-- the nodal temperatures of the dumps, most recent first -/
  frames : List (Fin N → ℝ)

/-- The environment of a cycle with the given source. -/
def ThermJob.env (J : ThermJob E N) (source : ℕ → Option (ℝ × (Fin 3 → ℝ))) : ThermEnv E N :=
  { mesh := J.mesh, coords := J.coords, mass := J.mass, sets := J.sets, source := source }

/-- What the time step reads of a material point, time_integration.cpp:127-196. -/
def ThermJob.elemOf (J : ThermJob E N) (p : ThermPt E) : ThermElem :=
  { coords := fun l => if h : l < 8 then J.coords (J.mesh.nodesInElem p.elem ⟨l, h⟩) else fun _ => 0
    conductivity := p.conductivity, den := p.den, specificHeat := p.specificHeat }

/-- `update_properties` for one material point, properties.cpp:82-98. -/
noncomputable def ThermJob.tablePoint (J : ThermJob E N) (temp : Fin N → ℝ) (m : ℕ)
    (p : ThermPt E) : Option (ThermPt E) :=
  (tabularPoint (J.fns m) J.tables
    ((List.finRange 8).map fun l => temp (J.mesh.nodesInElem p.elem l))).map fun v =>
      { p with den := v.1, conductivity := v.2.1, specificHeat := v.2.2 }

/-- `update_properties` for one material after the other, sgtm_execute.cpp:161-173. -/
noncomputable def ThermJob.tabulate (J : ThermJob E N) (temp : Fin N → ℝ) :
    ℕ → List (List (ThermPt E)) → Option (List (List (ThermPt E)))
  | _, [] => some []
  | m, pts :: ms =>
    match pts.mapM (J.tablePoint temp m), J.tabulate temp (m + 1) ms with
    | some q, some qs => some (q :: qs)
    | _, _ => none

/-- From the start of `execute` to the cycle loop, sgtm_execute.cpp:66-173: the temperature
boundary conditions, the first dump, the source at the origin, and the tables when there is a
moving source. -/
noncomputable def ThermJob.start (J : ThermJob E N) (st : ThermState E N) :
    Option (ThermLoop E N) :=
  let temp := boundaryTemperature J.sets st.temp
  match (if J.moving then J.tabulate temp 0 st.mats else some st.mats) with
  | none => none
  | some mats =>
    some { st := { st with temp := temp, mats := mats }, clock := clockInit J.clock,
           pos := fun _ => 0, frames := [temp] }

/-- The source used in a cycle that starts at time `t`, sgtm_execute.cpp:286-303; `none` is a read
outside the table. -/
noncomputable def ThermJob.sourceAt (J : ThermJob E N) (t : ℝ) (pos : Fin 3 → ℝ) :
    Option (Option (ℝ × (Fin 3 → ℝ))) :=
  if J.moving then (toolPower J.path t).map fun w => some (w, pos) else some none

/-- The three interpolations of `get_position`, additive_data.hpp:92-101. -/
noncomputable def toolPlace (path : List PathPoint) (t : ℝ) : Option (Fin 3 → ℝ) :=
  match toolPosition path t 0, toolPosition path t 1, toolPosition path t 2 with
  | some x, some y, some z => some ![x, y, z]
  | _, _, _ => none

/-- `Move heat source`, sgtm_execute.cpp:359-369. -/
noncomputable def ThermJob.moveTo (J : ThermJob E N) (t : ℝ) (pos : Fin 3 → ℝ) :
    Option (Fin 3 → ℝ) :=
  if J.moving then toolPlace J.path t else some pos

/-- The clock at the end of a cycle that took the step `dt`, and whether it wrote a dump,
sgtm_execute.cpp:184, 355, 374-408. -/
noncomputable def tickClock (o : ClockOpts) (cycle : ℕ) (dt : ℝ) (s : Clock) : Clock × Bool :=
  let time := s.time + dt
  if writeFlag o cycle time s.gtime = true then
    ({ time := time, dt := s.dt, gtime := ((s.outputId + 1 : ℕ) : ℝ) * o.ival,
       outputId := s.outputId + 1, log := (cycle, time) :: s.log }, true)
  else ({ s with time := time, dt := dt }, false)

/-- The time step of a cycle, sgtm_execute.cpp:186-219. -/
noncomputable def ThermJob.stepOf (J : ThermJob E N) (s : ThermLoop E N) : ℝ :=
  thermCycleDt J.clock (s.st.mats.map fun pts => pts.map J.elemOf) s.clock.time s.clock.gtime
    s.clock.dt

/-- The end of a cycle with step `dt` and new state `st`, sgtm_execute.cpp:355-408. -/
noncomputable def ThermJob.close (J : ThermJob E N) (cycle : ℕ) (dt : ℝ) (s : ThermLoop E N)
    (st : ThermState E N) : Option (ThermLoop E N) :=
  (J.moveTo (s.clock.time + dt) s.pos).map fun pos =>
    { st := st, clock := (tickClock J.clock cycle dt s.clock).1, pos := pos,
      frames := if (tickClock J.clock cycle dt s.clock).2 then st.temp :: s.frames else s.frames }

/-- One pass of the cycle loop, sgtm_execute.cpp:176-408. -/
noncomputable def ThermJob.cycle (J : ThermJob E N) (c : ℕ) (s : ThermLoop E N) :
    Option (ThermLoop E N) :=
  match J.sourceAt s.clock.time s.pos with
  | none => none
  | some src =>
    match thermCycle (J.env fun _ => src) c J.stages (J.stepOf s) s.st with
    | none => none
    | some st => J.close c (J.stepOf s) s st

open Classical in
/-- The cycle loop, sgtm_execute.cpp:176-415, with `n = cycle_stop - cycle` passes left.
`stop_calc` is never set. Returns the variables and the number of cycles made. -/
noncomputable def ThermJob.loop (J : ThermJob E N) :
    ℕ → ℕ → ThermLoop E N → Option (ThermLoop E N × ℕ)
  | 0, c, s => some (s, c)
  | n + 1, c, s =>
    match J.cycle c s with
    | none => none
    | some s' => if s'.clock.time ≥ J.clock.timeFinal then some (s', c + 1) else J.loop n (c + 1) s'

/-- `execute`; `none` is a read or write outside an array, a zero heat capacity, a table function
that is not set, or a zero dump interval in cycles (line 375). -/
noncomputable def ThermJob.execute (J : ThermJob E N) (st : ThermState E N) :
    Option (ThermLoop E N × ℕ) :=
  if J.clock.cycIval = 0 ∧ 0 < J.clock.cycleStop then none
  else
    match J.start st with
    | none => none
    | some s => J.loop J.clock.cycleStop 0 s

end Fierro
