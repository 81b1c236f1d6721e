import Verif.Model.EvpStep

/-!
# EVPFFT inside a finite element run

Models `EVPFFT::solve(vel_grad, stress, dt, ...)` of apps/micromechanics/EVPFFT/src/main.cpp:96-231, called once
per element and cycle by `FierroEVPFFTLink::calc_stress`, and the averages it uses, evpal.cpp:312-365.  The load
step itself is `StepState.step`.  Arithmetic is exact.
-/

namespace Fierro

/-- What persists between calls: `active`, `dtAcc`, `udotAcc` and, in order, the loads handed to the load step
as pairs `(udot, tdot)`. -/
structure CoupleState where
  active : Bool
  dtAcc : ℝ
  acc : T2 ℝ
  solved : List (T2 ℝ × ℝ)

/-- State of a new element, evpfft.cpp:61-64 and 141. -/
def CoupleState.init : CoupleState := ⟨false, 0, fun _ _ => 0, []⟩

/-- One call: the velocity gradient and the time increment of the host code. -/
structure HostCall where
  velGrad : T2 ℝ
  dt : ℝ

/-- `L2norm < 1.0e-16`, main.cpp:112-123. -/
noncomputable def HostCall.negligible (c : HostCall) : Prop :=
  Real.sqrt (∑ i, ∑ j, c.velGrad i j * c.velGrad i j) < 1 / 10 ^ 16

/-- `udotAcc` after main.cpp:127-131. -/
def CoupleState.accNext (st : CoupleState) (c : HostCall) : T2 ℝ := fun i j =>
  st.acc i j + c.velGrad i j * c.dt

/-- `udotAccVm`, main.cpp:132-140. -/
noncomputable def accVm (acc : T2 ℝ) : ℝ := vmStrain fun i j => 1 / 2 * (acc i j + acc j i)

/-- `dstran`, main.cpp:142-148. -/
noncomputable def HostCall.dstran (c : HostCall) : T2 ℝ := fun i j =>
  1 / 2 * (c.velGrad i j + c.velGrad j i) * c.dt

/-- Averages left by the last load step, evpal.cpp:342-362: `sg66_avg`, `dedotp66_avg`, `edotp_avg`. -/
structure CoupleAvg where
  sg66 : Dense 6 ℝ
  dedotp66 : Dense 6 ℝ
  edotp : T2 ℝ

/-- `dstress`, main.cpp:153-174. -/
noncomputable def CoupleAvg.dstress (q : BasisConst ℝ) (a : CoupleAvg) (c : HostCall) : T2 ℝ :=
  let M66 : Dense 6 ℝ := fun i j => a.sg66 i j + a.dedotp66 i j * c.dt
  let M : T4 ℝ := chgBasis3 q le_rfl (invertView M66)
  fun i j => ∑ k, ∑ l, M i j k l * (c.dstran k l - a.edotp k l * c.dt)

/-- One call, main.cpp:97-231.  `scauav` is the average stress left by `evolve` when it is run. -/
noncomputable def coupleCall (q : BasisConst ℝ) (th : ℝ) (a : CoupleAvg) (scauav : T2 ℝ) (st : CoupleState)
    (c : HostCall) (stress : T2 ℝ) : CoupleState × T2 ℝ :=
  open Classical in
  if c.negligible then (st, stress)
  else if st.active = true ∧ accVm (st.accNext c) < th then
    ({ st with dtAcc := st.dtAcc + c.dt, acc := st.accNext c },
      fun i j => stress i j + a.dstress q c i j)
  else
    let dtAcc := st.dtAcc + c.dt
    let udot : T2 ℝ := fun i j => st.accNext c i j * (1 / dtAcc)
    (⟨true, 0, fun _ _ => 0, st.solved ++ [(udot, dtAcc)]⟩, scauav)

/-- State after a history of calls; averages and stresses of each call are given. -/
noncomputable def coupleRun (q : BasisConst ℝ) (th : ℝ)
    (calls : List (HostCall × CoupleAvg × T2 ℝ × T2 ℝ)) : CoupleState :=
  calls.foldl (fun st c => (coupleCall q th c.2.1 c.2.2.1 st c.1 c.2.2.2).1) CoupleState.init

/-- `dedotp66_avg`, evpal.cpp:313-320: the tangent of a gas point is a local array that was never assigned
(`none`). -/
noncomputable def tangentAverage (wgt : ℝ) : List (Option (Dense 6 ℝ)) → Option (Dense 6 ℝ)
  | [] => some fun _ _ => 0
  | p :: ps => do
    let m ← p
    let s ← tangentAverage wgt ps
    pure fun i j => s i j + m i j * wgt

end Fierro
