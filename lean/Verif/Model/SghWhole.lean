import Verif.Model.Sgh
import Verif.Model.ThermRun

/-!
# A whole run of the 3D hydrodynamics solver, and of several such solvers one after the other

`SGH3D::execute`, `apps/multiphysics/src/Solvers/SGH_solver_3D/src/sgh_execute.cpp:57-677`: time steps taken from
the state, cycles, dumps and the tallies printed at the end, around the cycles of `Model/Sgh.lean`; and
`Driver::execute`, `apps/multiphysics/src/driver.cpp:287-297`.  Without contact and fracture, as `Model/Sgh.lean`.
-/

namespace Fierro

variable {E N : ℕ}

/-- Everything a run reads and does not change. -/
structure SghJob (E N : ℕ) where
  env : SghEnv ℝ E N
  clock : ClockOpts
  /-- `rk_num_stages` (an `int`; modelled for non-negative values) -/
  stages : ℕ

/-- The variables of the loop. -/
structure SghLoop (E N : ℕ) where
  st : SghState ℝ E N
  clock : Clock
  /-- the states written by `write_mesh`, most recent first -/
  frames : List (SghState ℝ E N)

/-- What `get_timestep` reads of a material point, time_integration.cpp:134-194. -/
def SghJob.elemOf (J : SghJob E N) (st : SghState ℝ E N) (p : MatPt ℝ E) : CflElem :=
  { coords := fun l => if h : l < 8 then st.coords (J.env.mesh.nodesInElem p.elem ⟨l, h⟩) else fun _ => 0
    sspd := p.sspd, eroded := p.eroded }

/-- What `get_timestep` reads of the state, material by material. -/
def SghJob.cfl (J : SghJob E N) (st : SghState ℝ E N) : List (List CflElem) :=
  st.mats.map fun m => m.pts.map (J.elemOf st)

/-- The time step of a cycle, sgh_execute.cpp:219-252. -/
noncomputable def SghJob.stepOf (J : SghJob E N) (s : SghLoop E N) : ℝ :=
  cycleDt J.clock (J.cfl s.st) s.clock.time s.clock.gtime s.clock.dt

/-- From the start of `execute` to the cycle loop, sgh_execute.cpp:117-207: boundary velocities, first dump. -/
noncomputable def SghJob.start (J : SghJob E N) (st : SghState ℝ E N) : SghLoop E N :=
  let st := { st with vel := boundaryVelocity J.env.sets J.clock.timeStart st.vel }
  { st := st, clock := clockInit J.clock, frames := [st] }

/-- One pass of the cycle loop, sgh_execute.cpp:217-617. -/
noncomputable def SghJob.cycle (J : SghJob E N) (c : ℕ) (s : SghLoop E N) : SghLoop E N :=
  let dt := J.stepOf s
  let st := sghCycle J.env J.stages s.clock.time dt s.st
  let t := tickClock J.clock c dt s.clock
  { st := st, clock := t.1, frames := if t.2 then st :: s.frames else s.frames }

open Classical in
/-- The cycle loop, sgh_execute.cpp:211-623, with `n = cycle_stop - cycle` passes left.  `stop_calc` is never set.
Returns the variables and the number of cycles made. -/
noncomputable def SghJob.loop (J : SghJob E N) : ℕ → ℕ → SghLoop E N → SghLoop E N × ℕ
  | 0, c, s => (s, c)
  | n + 1, c, s =>
    let s' := J.cycle c s
    if s'.clock.time ≥ J.clock.timeFinal then (s', c + 1) else J.loop n (c + 1) s'

/-- The tallies printed at the end, sgh_execute.cpp:630-676. -/
structure SghTally where
  keStart : ℝ
  ieStart : ℝ
  keEnd : ℝ
  ieEnd : ℝ
  /-- "total energy change" -/
  change : ℝ
  /-- "material mass conservation error" -/
  matMass : ℝ
  /-- "nodal mass conservation error" -/
  nodeMass : ℝ
  /-- "nodal and material mass error" -/
  nodeMat : ℝ

/-- Tallies before the loop, sgh_execute.cpp:139-183, and after it, 630-676. -/
noncomputable def SghJob.tally (J : SghJob E N) (a b : SghState ℝ E N) : SghTally :=
  let ke0 := kineticEnergy J.env.mass a.vel
  let ie0 := internalEnergy a.mats
  let ke1 := kineticEnergy J.env.mass b.vel
  let ie1 := internalEnergy b.mats
  { keStart := ke0, ieStart := ie0, keEnd := ke1, ieEnd := ie1, change := (ie1 + ke1) - (ie0 + ke0)
    matMass := materialMass b.mats - materialMass a.mats
    nodeMass := (∑ n, J.env.mass n) - ∑ n, J.env.mass n
    nodeMat := (∑ n, J.env.mass n) - materialMass b.mats }

/-- What a run leaves. -/
structure SghEnd (E N : ℕ) where
  loop : SghLoop E N
  cycles : ℕ
  tally : SghTally

/-- `execute`; `none` is the remainder by a zero dump interval (line 587). -/
noncomputable def SghJob.execute (J : SghJob E N) (st : SghState ℝ E N) : Option (SghEnd E N) :=
  if J.clock.cycIval = 0 ∧ 0 < J.clock.cycleStop then none
  else
    let s0 := J.start st
    let r := J.loop J.clock.cycleStop 0 s0
    some { loop := r.1, cycles := r.2, tally := J.tally s0.st r.1.st }

/-- The options of a solver: those of the input with the times of its window, driver.cpp:334-398. -/
def SghJob.inWindow (J : SghJob E N) (w : Window) : SghJob E N :=
  { J with clock := { J.clock with timeStart := w.start, timeFinal := w.stop } }

/-- `Driver::execute` for hydrodynamics solvers only, driver.cpp:287-297: one after the other on the same state. -/
noncomputable def SghJob.chain (J : SghJob E N) : List Window → SghState ℝ E N → Option (List (SghEnd E N))
  | [], _ => some []
  | w :: ws, st =>
    match (J.inWindow w).execute st with
    | none => none
    | some r => (J.chain ws r.loop.st).map (r :: ·)

end Fierro
