import Verif.Model.RzState
import Verif.Model.ThermRun

/-!
# A whole run of the axisymmetric hydrodynamics solver, and of several such solvers one after the other

`SGHRZ::execute`, `apps/multiphysics/src/Solvers/SGH_solver_rz/src/sgh_execute_rz.cpp:52-526`: nodal masses taken from
the state, time steps, cycles, dumps and the tallies printed at the end, around the cycles of `Model/SghRz.lean`; and
`Driver::execute`, `apps/multiphysics/src/driver.cpp:287-297`.
-/

namespace Fierro

variable {E N : ℕ}

/-- Everything a run reads and does not change. -/
structure RzJob (E N : ℕ) where
  mesh : Mesh4 E N
  sets : List (VelSet (Fin N) ℝ 2)
  closures : RzClosures E N
  clock : ClockOpts
  /-- `rk_num_stages` (an `int`; modelled for non-negative values) -/
  stages : ℕ

/-- What the cycles of a run use: `node_extensive_mass` is set before the loop from the areal masses and radii of
the state the run finds, sgh_execute_rz.cpp:92-97; `tiny` is that of the time step control (line 60). -/
def RzJob.envOf (J : RzJob E N) (st : RzState E N) : RzEnv E N where
  mesh := J.mesh
  ext := rzExtensive st.coords st.areal
  tiny := J.clock.tiny
  sets := J.sets
  closures := J.closures

/-- The variables of the loop. -/
structure RzLoop (E N : ℕ) where
  st : RzState E N
  clock : Clock
  /-- the states written by `write_mesh`, most recent first -/
  frames : List (RzState E N)

/-- What `get_timestep_rz` reads of a material point, time_integration_rz.cpp:135-166. -/
def RzJob.elemOf (J : RzJob E N) (st : RzState E N) (p : RzPt E) : RzCflElem :=
  { coords := fun l => if h : l < 4 then st.coords (J.mesh.nodesInElem p.elem ⟨l, h⟩) else fun _ => 0
    sspd := p.sspd, eroded := p.eroded }

/-- What `get_timestep_rz` reads of the state, material by material. -/
def RzJob.cfl (J : RzJob E N) (st : RzState E N) : List (List RzCflElem) :=
  st.mats.map fun m => m.pts.map (J.elemOf st)

/-- The time step of a cycle, sgh_execute_rz.cpp:185-221. -/
noncomputable def RzJob.stepOf (J : RzJob E N) (s : RzLoop E N) : ℝ :=
  rzCycleDt J.clock (J.cfl s.st) s.clock.time s.clock.gtime s.clock.dt

/-- From the start of `execute` to the cycle loop, sgh_execute_rz.cpp:76-172: boundary velocities, first dump. -/
noncomputable def RzJob.start (J : RzJob E N) (st : RzState E N) : RzLoop E N :=
  let st := { st with vel := boundaryVelocity J.sets J.clock.timeStart st.vel }
  { st := st, clock := clockInit J.clock, frames := [st] }

/-- One pass of the cycle loop, sgh_execute_rz.cpp:179-465. -/
noncomputable def RzJob.cycle (J : RzJob E N) (env : RzEnv E N) (c : ℕ) (s : RzLoop E N) : RzLoop E N :=
  let dt := J.stepOf s
  let st := rzCycle env J.stages s.clock.time dt s.st
  let t := tickClock J.clock c dt s.clock
  { st := st, clock := t.1, frames := if t.2 then st :: s.frames else s.frames }

open Classical in
/-- The cycle loop, sgh_execute_rz.cpp:177-472, with `n = cycle_stop - cycle` passes left.  `stop_calc` is never set.
Returns the variables and the number of cycles made. -/
noncomputable def RzJob.loop (J : RzJob E N) (env : RzEnv E N) : ℕ → ℕ → RzLoop E N → RzLoop E N × ℕ
  | 0, c, s => (s, c)
  | n + 1, c, s =>
    let s' := J.cycle env c s
    if s'.clock.time ≥ J.clock.timeFinal then (s', c + 1) else J.loop env n (c + 1) s'

/-- The tallies printed at the end, sgh_execute_rz.cpp:479-524. -/
structure RzTally where
  keStart : ℝ
  ieStart : ℝ
  keEnd : ℝ
  ieEnd : ℝ
  /-- "total energy change" -/
  change : ℝ
  /-- "material mass conservation error" -/
  matMass : ℝ
  /-- "nodal mass conservation error" -/
  nodeMass : ℝ
  /-- "nodal and material mass error" -/
  nodeMat : ℝ

/-- Tallies before the loop, sgh_execute_rz.cpp:104-150, and after it, 479-524; `ext` is `node_extensive_mass`, which
nothing changes between them. -/
noncomputable def rzTally (ext : Fin N → ℝ) (a b : RzState E N) : RzTally :=
  let ke0 := rzKinetic ext a.vel
  let ie0 := rzInternal a.mats
  let ke1 := rzKinetic ext b.vel
  let ie1 := rzInternal b.mats
  { keStart := ke0, ieStart := ie0, keEnd := ke1, ieEnd := ie1, change := (ie1 + ke1) - (ie0 + ke0)
    matMass := rzMaterialMass b.mats - rzMaterialMass a.mats
    nodeMass := (∑ n, ext n) - ∑ n, ext n
    nodeMat := (∑ n, ext n) - rzMaterialMass b.mats }

/-- What a run leaves. -/
structure RzEnd (E N : ℕ) where
  loop : RzLoop E N
  cycles : ℕ
  tally : RzTally

/-- `execute`; `none` is the remainder by a zero dump interval (line 434). -/
noncomputable def RzJob.execute (J : RzJob E N) (st : RzState E N) : Option (RzEnd E N) :=
  if J.clock.cycIval = 0 ∧ 0 < J.clock.cycleStop then none
  else
    let env := J.envOf st
    let s0 := J.start st
    let r := J.loop env J.clock.cycleStop 0 s0
    some { loop := r.1, cycles := r.2, tally := rzTally env.ext s0.st r.1.st }

/-- The options of a solver: those of the input with the times of its window, driver.cpp:334-398. -/
def RzJob.inWindow (J : RzJob E N) (w : Window) : RzJob E N :=
  { J with clock := { J.clock with timeStart := w.start, timeFinal := w.stop } }

/-- `Driver::execute` for axisymmetric solvers only, driver.cpp:287-297: one after the other on the same state. -/
noncomputable def RzJob.chain (J : RzJob E N) : List Window → RzState E N → Option (List (RzEnd E N))
  | [], _ => some []
  | w :: ws, st =>
    match (J.inWindow w).execute st with
    | none => none
    | some r => (J.chain ws r.loop.st).map (r :: ·)

end Fierro
