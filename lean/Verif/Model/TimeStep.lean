import Mathlib.Analysis.SpecialFunctions.Sqrt

/-!
# Time step control and the cycle loop of the 3D SGH solver, and the solver chain of the driver

`apps/multiphysics/src/Solvers/SGH_solver_3D/src/time_integration.cpp:110-213` (`get_timestep`),
`apps/multiphysics/src/Solvers/SGH_solver_3D/src/sgh_execute.cpp:57-677` (`execute`, clock and
output control only; the physics of a cycle is in `Model/Sgh.lean`),
`apps/multiphysics/src/driver.cpp:334-398` (`setup_solver_vars`).  Exact real arithmetic; there is
no NaN, so `fmin`/`fmax` are `min`/`max`.
-/

namespace Fierro

/-- Loop variables of the pair enumeration, `time_integration.cpp:151-155`. -/
structure PairCounter where
  countA : ℕ
  countB : ℕ
  loop : ℕ
deriving DecidableEq, Repr

/-- One pass of the body's counter update, `time_integration.cpp:168-176`. -/
def PairCounter.next (c : PairCounter) : PairCounter :=
  let b := c.countB + 1
  let a := c.countA + 1
  if b > 7 then { countA := 0, countB := 1 + (c.loop + 1), loop := c.loop + 1 }
  else { countA := a, countB := b, loop := c.loop }

/-- The pairs `(a, b)` visited by `n` passes starting from `c`, `time_integration.cpp:159-177`. -/
def pairsFrom : ℕ → PairCounter → List (ℕ × ℕ)
  | 0, _ => []
  | n + 1, c => (c.countA, c.countB) :: pairsFrom n c.next

/-- The 28 pairs visited for an element, `time_integration.cpp:151-177`. -/
def nodePairs : List (ℕ × ℕ) := pairsFrom 28 ⟨0, 1, 0⟩

/-- `dist(i)`, `time_integration.cpp:164-166`; an index above 7 would be an out-of-range read of
`coords`, which is shown not to occur (`C14_pairs`). -/
noncomputable def nodeDist (x : ℕ → Fin 3 → ℝ) (a b : ℕ) : ℝ :=
  |Real.sqrt ((x b 0 - x a 0) ^ 2 + (x b 1 - x a 1) ^ 2 + (x b 2 - x a 2) ^ 2)|

/-- `dist_min`, `time_integration.cpp:179-183`. -/
noncomputable def distMin (x : ℕ → Fin 3 → ℝ) : ℝ :=
  let dist := nodePairs.map fun p => nodeDist x p.1 p.2
  dist.foldl (fun m d => min d m) (dist.headD 0)

/-- User options read by the clock of `execute`, `sgh_execute.cpp:103-118`. -/
structure ClockOpts where
  timeStart : ℝ
  timeFinal : ℝ
  dtStart : ℝ
  dtMin : ℝ
  dtMax : ℝ
  dtCfl : ℝ
  fuzz : ℝ
  tiny : ℝ
  /-- `graphics_time_step` -/
  ival : ℝ
  /-- `graphics_iteration_step` (an `int`; modelled for non-negative values) -/
  cycIval : ℕ
  /-- `cycle_stop` (an `int`; modelled for non-negative values) -/
  cycleStop : ℕ

/-- What `get_timestep` reads of one material element. -/
structure CflElem where
  coords : ℕ → Fin 3 → ℝ
  sspd : ℝ
  eroded : Bool

/-- `dt_lcl_` of one element, `time_integration.cpp:186-194`. -/
noncomputable def elemDt (o : ClockOpts) (e : CflElem) : ℝ :=
  let d := o.dtCfl * distMin e.coords / (e.sspd + o.fuzz)
  let d := if e.eroded = true then 1.0e32 else d
  max (min d o.dtMax) o.dtMin

/-- The minimum reduction, `time_integration.cpp:134-199`; `none` is the identity of the
reduction (the largest double), which no step exceeds. -/
noncomputable def reduceMin (o : ClockOpts) : List CflElem → Option ℝ
  | [] => none
  | e :: es =>
    match reduceMin o es with
    | none => some (elemDt o e)
    | some m => some (if elemDt o e < m then elemDt o e else m)

/-- `get_timestep`, `time_integration.cpp:110-213`. -/
noncomputable def getTimestep (o : ClockOpts) (elems : List CflElem) (time gtime dt : ℝ) : ℝ :=
  let dt := dt * 1.1
  let dt := match reduceMin o elems with
    | none => dt
    | some m => if m < dt then m else dt
  let dt := min dt (max o.fuzz (gtime - time) + o.tiny)
  min dt (o.timeFinal - time + o.tiny)

/-- The step of a cycle: minimum over the materials, `sgh_execute.cpp:220-252`. -/
noncomputable def cycleDt (o : ClockOpts) (mats : List (List CflElem)) (time gtime dt : ℝ) : ℝ :=
  mats.foldl (fun m es => min (getTimestep o es time gtime dt) m) o.dtMax

/-- Clock variables of `execute`.  `log` lists `(cycle, time)` of the graphics dumps written inside
the loop, most recent first. -/
structure Clock where
  time : ℝ
  dt : ℝ
  gtime : ℝ
  outputId : ℕ
  log : List (ℕ × ℝ)

/-- Before the loop, `sgh_execute.cpp:117-118, 132-133, 192-207`.  The dump written here is not in
`log`. -/
def clockInit (o : ClockOpts) : Clock :=
  { time := o.timeStart, dt := o.dtStart, gtime := o.timeStart + o.ival, outputId := 1, log := [] }

open Classical in
/-- The `write` flag, `sgh_execute.cpp:586-598`. -/
noncomputable def writeFlag (o : ClockOpts) (cycle : ℕ) (time gtime : ℝ) : Bool :=
  if (cycle + 1) % o.cycIval = 0 ∧ cycle > 0 then true
  else if cycle = o.cycleStop then true
  else if time ≥ o.timeFinal then true
  else if time ≥ gtime then true
  else false

/-- One cycle of the loop as seen by the clock, `sgh_execute.cpp:217-252, 584-617`.  `mats` is the
CFL data of the current state. -/
noncomputable def clockCycle (o : ClockOpts) (mats : List (List CflElem)) (cycle : ℕ) (s : Clock) :
    Clock :=
  let cached := s.dt
  let dt := cycleDt o mats s.time s.gtime s.dt
  let time := s.time + dt
  if writeFlag o cycle time s.gtime = true then
    { time := time, dt := cached, gtime := ((s.outputId + 1 : ℕ) : ℝ) * o.ival,
      outputId := s.outputId + 1, log := (cycle, time) :: s.log }
  else { s with time := time, dt := dt }

open Classical in
/-- The loop `for (cycle = cycle; cycle < cycle_stop; cycle++)`, `sgh_execute.cpp:211-623`, with
`n = cycle_stop - cycle` passes left.  Returns the clock and the number of cycles entered.
`stop_calc` is never set in the source, so its test is left out.  `hist c` is the CFL data found at
the start of cycle `c` (the physics is arbitrary here). -/
noncomputable def clockLoop (o : ClockOpts) (hist : ℕ → List (List CflElem)) :
    ℕ → ℕ → Clock → Clock × ℕ
  | 0, cycle, s => (s, cycle)
  | n + 1, cycle, s =>
    let s' := clockCycle o (hist cycle) cycle s
    if s'.time ≥ o.timeFinal then (s', cycle + 1) else clockLoop o hist n (cycle + 1) s'

/-- `execute`; `none` is undefined behaviour: `(cycle + 1) % graphics_cyc_ival` with a zero
interval (`sgh_execute.cpp:587`), evaluated as soon as one cycle runs. -/
noncomputable def execute (o : ClockOpts) (hist : ℕ → List (List CflElem)) : Option (Clock × ℕ) :=
  if o.cycIval = 0 ∧ 0 < o.cycleStop then none
  else some (clockLoop o hist o.cycleStop 0 (clockInit o))

/-- Start and end time of a solver. -/
structure Window where
  start : ℝ
  stop : ℝ

open Classical in
/-- `setup_solver_vars` for the solver at position 0, `driver.cpp:366-377`. -/
noncomputable def firstWindow (timeFinal tEnd : ℝ) : Window :=
  { start := 0, stop := if tEnd ≤ 1.0e-14 then max 0 timeFinal else tEnd }

open Classical in
/-- `setup_solver_vars` for a later solver, `driver.cpp:378-393`. -/
noncomputable def nextWindow (timeFinal : ℝ) (prev : Window) (tEnd : ℝ) : Window :=
  { start := prev.stop, stop := if tEnd ≤ 1.0e-14 then timeFinal else min tEnd timeFinal }

/-- The later solvers, set up one after the other (`driver.cpp:110-210` calls
`setup_solver_vars` for each solver in order of `solver_id`). -/
noncomputable def laterWindows (timeFinal : ℝ) : Window → List ℝ → List Window
  | _, [] => []
  | w, t :: ts => nextWindow timeFinal w t :: laterWindows timeFinal (nextWindow timeFinal w t) ts

/-- The windows of all solvers for the list of user end times. -/
noncomputable def solverWindows (timeFinal : ℝ) : List ℝ → List Window
  | [] => []
  | t :: ts => firstWindow timeFinal t :: laterWindows timeFinal (firstWindow timeFinal t) ts

end Fierro
