import Verif.Model.LevelSet
import Verif.Model.SghWhole

/-!
# A whole run of the level set solver on hexahedral meshes, and chains of hydrodynamics and level set solvers

`LevelSet::execute`, `apps/multiphysics/src/Solvers/level_set_solver/src/level_set_execute.cpp:52-350`, around the
cycles of `Model/LevelSet.lean`; and `Driver::execute`, `apps/multiphysics/src/driver.cpp:287-297`, for a list of
solvers of these two kinds on one state.
-/

namespace Fierro

variable {E N : ℕ}

/-- Everything a level set run reads and does not change, but for the nodes of the mesh. -/
structure LsJob (E N : ℕ) where
  mesh : Mesh8 E N
  sets : List (VelSet (Fin N) ℝ 3)
  /-- all materials; `none` is a material whose level set type is not `evolveFront` -/
  mats : List (Option (LsMat E))
  clock : ClockOpts
  /-- `small` -/
  small : ℝ
  /-- `rk_num_stages` (an `int`; modelled for non-negative values) -/
  stages : ℕ

/-- What the stages use; the geometry is that of the nodes the run finds and does not move. -/
noncomputable def LsJob.env (J : LsJob E N) (coords : Fin N → Fin 3 → ℝ) : LsEnv E N 8 3 where
  mesh := lsMesh3 J.mesh
  geom := lsGeom3 J.mesh coords
  fuzz := J.clock.fuzz
  small := J.small
  sets := J.sets
  mats := J.mats.filterMap id

/-- What the time step reads, material by material, level_set_execute.cpp:138-200 and
time_integration.cpp:120-185. -/
noncomputable def LsJob.cfl (J : LsJob E N) (coords : Fin N → Fin 3 → ℝ) : List (Option (List CflElem)) :=
  J.mats.map fun m => m.map fun m => m.elems.map fun e => lsCflElem m.front m.curv fun l =>
    if h : l < 8 then coords (J.mesh.nodesInElem e ⟨l, h⟩) else fun _ => 0

/-- The variables of the loop. -/
structure LsLoop (E : ℕ) where
  phi : Fin E → ℝ
  clock : Clock
  /-- the level sets written by `write_mesh`, most recent first -/
  frames : List (Fin E → ℝ)

/-- The clock at the end of a cycle that took the step `dt`, and whether it wrote a dump,
level_set_execute.cpp:132, 304-337. -/
noncomputable def lsTick (o : ClockOpts) (cycle : ℕ) (dt : ℝ) (s : Clock) : Clock × Bool :=
  let time := s.time + dt
  if writeFlag o cycle time s.gtime = true then
    ({ time := time, dt := s.dt, gtime := time + o.ival,
       outputId := s.outputId + 1, log := (cycle, time) :: s.log }, true)
  else ({ s with time := time, dt := dt }, false)

/-- Before the loop, level_set_execute.cpp:80-123: the first dump; no boundary condition is applied. -/
def LsJob.start (J : LsJob E N) (phi : Fin E → ℝ) : LsLoop E :=
  { phi := phi, clock := clockInit J.clock, frames := [phi] }

/-- The time step of a cycle, level_set_execute.cpp:134-202. -/
noncomputable def LsJob.stepOf (J : LsJob E N) (coords : Fin N → Fin 3 → ℝ) (s : LsLoop E) : ℝ :=
  lsCycleDt J.clock (J.cfl coords) s.clock.time s.clock.gtime s.clock.dt

/-- One pass of the cycle loop, level_set_execute.cpp:126-337. -/
noncomputable def LsJob.cycle (J : LsJob E N) (coords : Fin N → Fin 3 → ℝ) (c : ℕ) (s : LsLoop E) : LsLoop E :=
  let dt := J.stepOf coords s
  let phi := lsCycle (J.env coords) J.stages s.clock.time dt s.phi
  let t := lsTick J.clock c dt s.clock
  { phi := phi, clock := t.1, frames := if t.2 then phi :: s.frames else s.frames }

open Classical in
/-- The cycle loop, level_set_execute.cpp:126-343, with `n = cycle_stop - cycle` passes left.  Returns the variables and
the number of cycles made. -/
noncomputable def LsJob.loop (J : LsJob E N) (coords : Fin N → Fin 3 → ℝ) : ℕ → ℕ → LsLoop E → LsLoop E × ℕ
  | 0, c, s => (s, c)
  | n + 1, c, s =>
    let s' := J.cycle coords c s
    if s'.clock.time ≥ J.clock.timeFinal then (s', c + 1) else J.loop coords n (c + 1) s'

/-- `execute`; `none` is the remainder by a zero dump interval (line 307). -/
noncomputable def LsJob.execute (J : LsJob E N) (coords : Fin N → Fin 3 → ℝ) (phi : Fin E → ℝ) :
    Option (LsLoop E × ℕ) :=
  if J.clock.cycIval = 0 ∧ 0 < J.clock.cycleStop then none
  else some (J.loop coords J.clock.cycleStop 0 (J.start phi))

/-- The options of a solver with the times of its window, driver.cpp:334-398. -/
def LsJob.inWindow (J : LsJob E N) (w : Window) : LsJob E N :=
  { J with clock := { J.clock with timeStart := w.start, timeFinal := w.stop } }

/-- The state the driver passes from solver to solver: that of the hydrodynamics solver and the level set field. -/
structure DriverState (E N : ℕ) where
  hydro : SghState ℝ E N
  phi : Fin E → ℝ

/-- The two kinds of solvers, driver.cpp:110-210. -/
inductive SolverKind
  | hydro
  | levelSet
deriving DecidableEq

/-- What a solver of the chain leaves. -/
inductive SolverEnd (E N : ℕ)
  | hydro (r : SghEnd E N)
  | levelSet (r : LsLoop E) (cycles : ℕ)

/-- The input of a chain: options of both kinds of solver. -/
structure DriverJob (E N : ℕ) where
  sgh : SghJob E N
  ls : LsJob E N

/-- A level set solver of the chain: all solvers share the mesh. -/
def DriverJob.front (D : DriverJob E N) (w : Window) : LsJob E N :=
  { D.ls.inWindow w with mesh := D.sgh.env.mesh }

/-- One solver of the chain, driver.cpp:291-294: hydrodynamics moves nodes and materials and leaves the level set, the
level set solver reads the nodes and changes the level set only. -/
noncomputable def DriverJob.step (D : DriverJob E N) (k : SolverKind) (w : Window) (s : DriverState E N) :
    Option (SolverEnd E N × DriverState E N) :=
  match k with
  | .hydro => ((D.sgh.inWindow w).execute s.hydro).map fun r => (.hydro r, { s with hydro := r.loop.st })
  | .levelSet => ((D.front w).execute s.hydro.coords s.phi).map fun r =>
      (.levelSet r.1 r.2, { s with phi := r.1.phi })

/-- `Driver::execute`, driver.cpp:287-297: one solver after the other. -/
noncomputable def DriverJob.run (D : DriverJob E N) :
    List (SolverKind × Window) → DriverState E N → Option (List (SolverEnd E N) × DriverState E N)
  | [], s => some ([], s)
  | (k, w) :: ks, s =>
    match D.step k w s with
    | none => none
    | some (r, s') => (D.run ks s').map fun q => (r :: q.1, q.2)

end Fierro
