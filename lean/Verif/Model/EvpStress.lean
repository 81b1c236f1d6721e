import Mathlib.Analysis.Real.Sqrt
import Mathlib.Algebra.BigOperators.Fin
import Verif.Model.EvpTensor

/-!
# EVPFFT: stress update at a grid point

Models `evpal.cpp` of `apps/micromechanics/EVPFFT/src` for one grid point (default build, without
`NON_SCHMID_EFFECTS` and `TWO_SIGN_SLIP_SYSTEMS`).  Sums over vector components are written `∑`; the sum
over slip systems is a fold over the list of systems.
-/

namespace Fierro

/-- A slip system at a grid point: `sch`, `crss(is,1)`, `crss(is,2)`, `xkin`, `gamd0`, `nrs`. -/
structure SlipState where
  sch : Fin 5 → ℝ
  crss1 : ℝ
  crss2 : ℝ
  xkin : ℝ
  gamd0 : ℝ
  nrs : ℤ

namespace SlipState

/-- Resolved shear stress minus the kinematic stress, evpal.cpp:142-149. -/
def drive (s : SlipState) (sg6 : Fin 6 → ℝ) : ℝ :=
  (s.sch 0 * sg6 0 + s.sch 1 * sg6 1 + s.sch 2 * sg6 2 + s.sch 3 * sg6 3 + s.sch 4 * sg6 4) - s.xkin

/-- `crss(is,isign)`, evpal.cpp:148-153, for a given driving stress. -/
noncomputable def crssAt (s : SlipState) (t : ℝ) : ℝ := if t < 0 then s.crss2 else s.crss1

/-- `rss`, evpal.cpp:153. -/
noncomputable def rssAt (s : SlipState) (t : ℝ) : ℝ := t / s.crssAt t

/-- `rss1`, evpal.cpp:165. -/
noncomputable def rss1At (s : SlipState) (t : ℝ) : ℝ :=
  s.gamd0 * s.nrs * |powIntExpo (s.rssAt t) (s.nrs - 1)| / s.crssAt t

/-- `COPYSIGN(1.0, x)` for the values occurring here (a zero is never negative). -/
noncomputable def signOne (x : ℝ) : ℝ := if x < 0 then -1 else 1

/-- `rss2` and `gamdot`, evpal.cpp:166 and 169. -/
noncomputable def rateAt (s : SlipState) (t : ℝ) : ℝ :=
  s.gamd0 * |powIntExpo (s.rssAt t) s.nrs| * signOne (s.rssAt t)

end SlipState

/-- `edotp6`, evpal.cpp:172-178. -/
noncomputable def plasticRate6 (sys : List SlipState) (sg6 : Fin 6 → ℝ) : Fin 6 → ℝ := fun i =>
  if h : i.val < 5 then
    sys.foldl (fun acc s => acc + s.sch ⟨i.val, h⟩ * s.rateAt (s.drive sg6)) 0
  else 0

/-- `dedotp66`, evpal.cpp:180-199. -/
noncomputable def plasticTangent66 (sys : List SlipState) (sg6 : Fin 6 → ℝ) : Dense 6 ℝ := fun i j =>
  if h : i.val < 5 ∧ j.val < 5 then
    sys.foldl (fun acc s =>
      acc + s.sch ⟨i.val, h.1⟩ * s.sch ⟨j.val, h.2⟩ * s.rss1At (s.drive sg6)) 0
  else 0

/-- The routine is called with the pointer of a column-major view. -/
noncomputable def invertView {n : ℕ} (M : Dense n ℝ) : Dense n ℝ := fun i j =>
  (invertMatrix (fun i j => M j i)).mat j i

/-- Input of `evpal` at a grid point; `elastic` is `ithermo == 1 && imicro == 1`. -/
structure EvpalIn where
  q : BasisConst ℝ
  sg : T2 ℝ
  ept : T2 ℝ
  disgrad : T2 ℝ
  cg66 : Dense 6 ℝ
  c066 : Dense 6 ℝ
  sys : List SlipState
  tdot : ℝ
  elastic : Bool

namespace EvpalIn

/-- `sg66`, evpal.cpp:81-87. -/
noncomputable def sg66 (d : EvpalIn) : Dense 6 ℝ := invertView d.cg66

/-- `xlambda6`, evpal.cpp:92 and 99. -/
noncomputable def xlambda6 (d : EvpalIn) : Fin 6 → ℝ := chgBasis2 d.q le_rfl d.sg

/-- `ept6`, evpal.cpp:94 and 101. -/
noncomputable def ept6 (d : EvpalIn) : Fin 6 → ℝ := chgBasis2 d.q le_rfl d.ept

/-- `strain6`, evpal.cpp:95 and 102. -/
noncomputable def strain6 (d : EvpalIn) : Fin 6 → ℝ :=
  chgBasis2 d.q le_rfl fun i j => (d.disgrad i j + d.disgrad j i) / 2

/-- `sgnorm`, evpal.cpp:104-113. -/
noncomputable def sgnorm (d : EvpalIn) : ℝ := Real.sqrt (∑ i, ∑ j, d.sg i j * d.sg i j)

/-- Plastic rate used in the iteration, evpal.cpp:127-206. -/
noncomputable def rate6 (d : EvpalIn) (sg6 : Fin 6 → ℝ) : Fin 6 → ℝ :=
  if d.elastic then fun _ => 0 else plasticRate6 d.sys sg6

/-- `strainceq6`, evpal.cpp:209-218. -/
noncomputable def strainceq6 (d : EvpalIn) (sg6 : Fin 6 → ℝ) : Fin 6 → ℝ := fun i =>
  (if d.elastic then d.ept6 i else d.ept6 i + d.rate6 sg6 i * d.tdot) + ∑ j, d.sg66 i j * sg6 j

/-- `res`, evpal.cpp:222-227. -/
noncomputable def residual (d : EvpalIn) (sg6 : Fin 6 → ℝ) : Fin 6 → ℝ := fun i =>
  sg6 i - d.xlambda6 i + ∑ j, d.c066 i j * (d.strainceq6 sg6 j - d.strain6 j)

/-- `xjacobinv` before the inversion, evpal.cpp:229-243; `(ii/jj)*(jj/ii)` is an integer division with
indices counted from 1. -/
noncomputable def jacobian (d : EvpalIn) (sg6 : Fin 6 → ℝ) : Dense 6 ℝ := fun i j =>
  ((((i : ℕ) + 1) / ((j : ℕ) + 1) * (((j : ℕ) + 1) / ((i : ℕ) + 1)) : ℕ) : ℝ) +
    ∑ k, (if d.elastic then d.c066 i k * d.sg66 k j
      else d.c066 i k * (d.sg66 k j + plasticTangent66 d.sys sg6 k j * d.tdot))

/-- The Newton step, evpal.cpp:246-253. -/
noncomputable def newton (d : EvpalIn) (sg6 : Fin 6 → ℝ) : Fin 6 → ℝ := fun i =>
  sg6 i + ∑ j, -invertView (d.jacobian sg6) i j * d.residual sg6 j

/-- `dsgnorm1`, evpal.cpp:275. -/
def stepNorm (new old : Fin 6 → ℝ) : ℝ := ∑ i, (new i - old i) * (new i - old i)

/-- The test `erral > erroral` with `erral = dsgnorm1/sgnorm`, evpal.cpp:116, 121 and 280.  With
`sgnorm = 0` the quotient is infinite, or not a number when the step is zero as well. -/
def goesOn (d1 norm : ℝ) : Prop :=
  if norm = 0 then d1 ≠ 0 else d1 / norm > 1 / 10 ^ 7

open Classical in
/-- The loop, evpal.cpp:121-283; `left` is `itmaxal - iter1`.  Returns the number of iterations, the
stress and the plastic rate of the last iteration. -/
noncomputable def loop (d : EvpalIn) : ℕ → ℕ → (Fin 6 → ℝ) → (Fin 6 → ℝ) →
    ℕ × (Fin 6 → ℝ) × (Fin 6 → ℝ)
  | 0, it, sg6, ed => (it, sg6, ed)
  | left + 1, it, sg6, _ =>
    let new := d.newton sg6
    if goesOn (stepNorm new sg6) d.sgnorm then loop d left (it + 1) new (d.rate6 sg6)
    else (it + 1, new, d.rate6 sg6)

/-- `evpal` at a grid point that is not gas, evpal.cpp:78-298: iterations, stress and plastic rate (the
rate before the first iteration is uninitialised in the source and never used). -/
noncomputable def run (d : EvpalIn) : ℕ × T2 ℝ × T2 ℝ :=
  let r := d.loop 100 0 d.xlambda6 (fun _ => 0)
  (r.1, chgBasis1 d.q le_rfl r.2.1, chgBasis1 d.q le_rfl r.2.2)

end EvpalIn

/-- `evpal` at any grid point, evpal.cpp:78 and 300-310. -/
noncomputable def evpalPoint (gas : Bool) (d : EvpalIn) : T2 ℝ × T2 ℝ :=
  if gas then (fun _ _ => 0, fun _ _ => 0) else (d.run.2.1, d.run.2.2)

end Fierro
