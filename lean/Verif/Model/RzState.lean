import Verif.Model.SghRz
import Verif.Model.TimeStep
import Verif.Model.Materials

/-!
# Material state and clock of the r-z solver

`update_state_rz` and `update_stress` (Solvers/SGH_solver_rz/src/properties_rz.cpp:67-404),
`get_timestep_rz` (time_integration_rz.cpp:113-204) and the cycle loop of `execute`
(sgh_execute_rz.cpp:52-472) as far as clock and dumps are concerned.  Exact real arithmetic.
-/

namespace Fierro

variable {E N : ℕ}

/-! ### Material state -/

/-- What a strength model stores: stress, pressure, sound speed. -/
abbrev StrengthResult := (Fin 3 → Fin 3 → ℝ) × ℝ × ℝ

/-- The strength model of a material. -/
inductive RzStrength (E N : ℕ) where
  | none
  /-- `StrengthType == stateBased` -/
  | stateBased (f : RzPt E → StrengthResult)
  /-- `StrengthType == incrementBased`; `onHost` is `StrengthRunLocation == host` or `dual`.  The
  model runs before the energy update and sees the state at the start of the stage. -/
  | incrementBased (onHost : Bool) (f : RzState E N → RzPt E → StrengthResult)

/-- What the r-z solver reads of a material; the models are arbitrary functions. -/
structure RzModel (E N : ℕ) where
  /-- `EOSType == decoupledEOSType` -/
  decoupled : Bool
  pressure : RzPt E → ℝ
  soundSpeed : RzPt E → ℝ
  strength : RzStrength E N
  /-- limits of the basic erosion model; `none` is `noErosion` -/
  erosion : Option (ℝ × ℝ)

/-- Storing the result of a strength model. -/
def RzPt.store (p : RzPt E) (r : StrengthResult) : RzPt E :=
  { p with stress := r.1, pres := r.2.1, sspd := r.2.2 }

/-- Density, pressure and sound speed, properties_rz.cpp:100-166. -/
noncomputable def rzStateEos (M : RzModel E N) (vol : Fin E → ℝ) (p : RzPt E) : RzPt E :=
  let p := { p with den := p.mass / (vol p.elem * p.volfrac * p.geoVolfrac + 1 / 10 ^ 20) }
  if M.decoupled = true then
    let p := { p with pres := M.pressure p }
    { p with sspd := M.soundSpeed p }
  else p

/-- State-based strength, properties_rz.cpp:169-229: the density is set once more (line 194). -/
noncomputable def rzStateStrength (M : RzModel E N) (vol : Fin E → ℝ) (p : RzPt E) : RzPt E :=
  match M.strength with
  | .stateBased f =>
    let p := { p with den := p.mass / (vol p.elem + 1 / 10 ^ 20) }
    p.store (f p)
  | _ => p

/-- Erosion, properties_rz.cpp:232-272. -/
noncomputable def rzStateErosion (M : RzModel E N) (p : RzPt E) : RzPt E :=
  match M.erosion with
  | none => p
  | some (tension, density) =>
    let p := { p with eroded := basicErode tension density p.pres p.den p.eroded }
    if p.eroded = true then
      { p with pres := 0, sspd := 1 / 10 ^ 32, den := 1 / 10 ^ 32, stress := fun _ _ => 0 }
    else p

/-- `update_state_rz` for one material point, properties_rz.cpp:67-275. -/
noncomputable def rzUpdateState (M : RzModel E N) (vol : Fin E → ℝ) (p : RzPt E) : RzPt E :=
  rzStateErosion M (rzStateStrength M vol (rzStateEos M vol p))

/-- `update_stress` for one material point, properties_rz.cpp:308-404 and its call for increment-based
models, sgh_execute_rz.cpp:301-326.  The branch for models on the host (344-347) is empty. -/
def rzUpdateStress (M : RzModel E N) (st : RzState E N) (p : RzPt E) : RzPt E :=
  match M.strength with
  | .incrementBased onHost f => if onHost = true then p else p.store (f st p)
  | _ => p

/-- The material updates of a stage with the models of this file, sgh_execute_rz.cpp:301-326 and
378-411. -/
noncomputable def rzModelClosures (mesh : Mesh4 E N) (model : ℕ → RzModel E N)
    (disp : RzState E N → RzMat E → RzPt E → Fin 4 → Fin 2 → ℝ) : RzClosures E N where
  disp := disp
  update st st' m p :=
    rzUpdateState (model m.id) (rzVol mesh st'.coords) (rzUpdateStress (model m.id) st p)

/-! ### Clock -/

/-- What `get_timestep_rz` reads of one material element. -/
structure RzCflElem where
  coords : ℕ → Fin 2 → ℝ
  sspd : ℝ
  eroded : Bool

/-- `dt_lcl_` of one element, time_integration_rz.cpp:168-184. -/
noncomputable def rzElemDt (o : ClockOpts) (e : RzCflElem) : ℝ :=
  let d := o.dtCfl * rzDistMin e.coords / (e.sspd + o.fuzz)
  let d := if e.eroded = true then 1.0e32 else d
  max (min d o.dtMax) o.dtMin

/-- The minimum reduction, time_integration_rz.cpp:135-190; `none` is the identity of the reduction. -/
noncomputable def rzReduceMin (o : ClockOpts) : List RzCflElem → Option ℝ
  | [] => none
  | e :: es =>
    match rzReduceMin o es with
    | none => some (rzElemDt o e)
    | some m => some (if rzElemDt o e < m then rzElemDt o e else m)

/-- `get_timestep_rz`, time_integration_rz.cpp:113-204. -/
noncomputable def rzGetTimestep (o : ClockOpts) (elems : List RzCflElem) (time gtime dt : ℝ) : ℝ :=
  let dt := dt * 1.1
  let dt := match rzReduceMin o elems with
    | none => dt
    | some m => if m < dt then m else dt
  let dt := min dt (max o.fuzz (gtime - time) + o.tiny)
  min dt (o.timeFinal - time + o.tiny)

/-- The step of a cycle, sgh_execute_rz.cpp:185-221. -/
noncomputable def rzCycleDt (o : ClockOpts) (mats : List (List RzCflElem)) (time gtime dt : ℝ) : ℝ :=
  mats.foldl (fun m es => min (rzGetTimestep o es time gtime dt) m) o.dtMax

/-- One cycle as seen by the clock, sgh_execute_rz.cpp:183-221 and 430-465 (the test for a dump, 433-445,
has the text of the one of the 3D solver). -/
noncomputable def rzClockCycle (o : ClockOpts) (mats : List (List RzCflElem)) (cycle : ℕ) (s : Clock) :
    Clock :=
  let cached := s.dt
  let dt := rzCycleDt o mats s.time s.gtime s.dt
  let time := s.time + dt
  if writeFlag o cycle time s.gtime = true then
    { time := time, dt := cached, gtime := ((s.outputId + 1 : ℕ) : ℝ) * o.ival,
      outputId := s.outputId + 1, log := (cycle, time) :: s.log }
  else { s with time := time, dt := dt }

open Classical in
/-- The cycle loop, sgh_execute_rz.cpp:177-472, with `n` cycles left; `hist c` is the data found at the
start of cycle `c`. -/
noncomputable def rzClockLoop (o : ClockOpts) (hist : ℕ → List (List RzCflElem)) :
    ℕ → ℕ → Clock → Clock × ℕ
  | 0, cycle, s => (s, cycle)
  | n + 1, cycle, s =>
    let s' := rzClockCycle o (hist cycle) cycle s
    if s'.time ≥ o.timeFinal then (s', cycle + 1) else rzClockLoop o hist n (cycle + 1) s'

/-- `execute`, sgh_execute_rz.cpp:52-526, clock only: start values 76-90 and 156-172; `none` is the
remainder by a zero interval, line 434. -/
noncomputable def rzExecute (o : ClockOpts) (hist : ℕ → List (List RzCflElem)) : Option (Clock × ℕ) :=
  if o.cycIval = 0 ∧ 0 < o.cycleStop then none
  else some (rzClockLoop o hist o.cycleStop 0 (clockInit o))

end Fierro
