import Mathlib.Algebra.Order.Field.Basic
import Mathlib.Algebra.Order.AbsoluteValue.Basic

/-!
# Tipton pressure equilibration

material_models/equilibration/src/tipton_equilibration.cpp.  The loops over the elements are
parallel and touch only the data of their own Gauss point; the loops over the materials are
serial.  The model is the work done at one Gauss point, `mats` being the material points there in
the order of the material numbers.  The calls that evaluate pressure and sound speed afterwards
(the equation of state, modelled in `Verif.Model.Materials`) are left out.
-/

namespace Fierro

variable {K : Type} [Field K] [LinearOrder K] [IsStrictOrderedRing K]

/-- A material point: the volume fraction that is equilibrated (`volfrac_inout`), the other one
(`volfrac_in`), pressure, density, sound speed, specific internal energy and mass. -/
structure TipMat (K : Type) where
  vf : K
  other : K
  pres : K
  den : K
  sspd : K
  sie : K
  mass : K

/-- Constants of a call: `equilibration_global_vars(0)`, `(1)`, `fuzz`, divergence of the velocity
(408-411 below), `rk_alpha`, `dt` and the volume of the Gauss point. -/
structure TipPars (K : Type) where
  g0 : K
  g1 : K
  fuzz : K
  div : K
  alpha : K
  dt : K
  vol : K

/-- `R`, tipton_equilibration.cpp:360-361 and 452-453. -/
def TipMat.ratio (P : TipPars K) (m : TipMat K) : K := m.vf / (m.den * m.sspd * m.sspd + P.fuzz)

/-- Numerator, denominator and smallest volume fraction. -/
structure TipAvg (K : Type) where
  pres : K
  denom : K
  vfMin : K

/-- Body of `build_gauss_point_averages`, tipton_equilibration.cpp:350-371. -/
def TipAvg.step (P : TipPars K) (a : TipAvg K) (m : TipMat K) : TipAvg K :=
  if m.vf < 1 - P.fuzz then
    ⟨a.pres + m.ratio P * m.pres, a.denom + m.ratio P, min m.vf a.vfMin⟩
  else ⟨m.pres, 1, a.vfMin⟩

/-- All materials, tipton_equilibration.cpp:84-111. -/
def tipAvg (P : TipPars K) (mats : List (TipMat K)) : TipAvg K :=
  mats.foldl (TipAvg.step P) ⟨0, 0, 1⟩

/-- `calc_gauss_point_averages`, tipton_equilibration.cpp:395. -/
def tipPres (P : TipPars K) (a : TipAvg K) : K := a.pres / (a.denom + P.fuzz)

/-- Volume fraction change before limiting, tipton_equilibration.cpp:448-458, 472. -/
def tipDelta (P : TipPars K) (a : TipAvg K) (m : TipMat K) : K :=
  if m.vf < 1 - P.fuzz then
    m.ratio P * (m.pres - tipPres P a) / (P.g1 + P.fuzz) +
      (m.ratio P / (a.denom + P.fuzz) - m.vf) * P.div * P.alpha * P.dt
  else 0

/-- `param`, tipton_equilibration.cpp:462. -/
def tipParam (P : TipPars K) : K := min 1 (max 0 P.g0)

/-- Limiter update of one material, tipton_equilibration.cpp:464-465, 473. -/
def tipLimStep (P : TipPars K) (a : TipAvg K) (lim : K) (m : TipMat K) : K :=
  if m.vf < 1 - P.fuzz then min lim (tipParam P * a.vfMin / (|tipDelta P a m| + P.fuzz)) else 1

/-- Limiter after all materials, starting at 1. -/
def tipLim (P : TipPars K) (a : TipAvg K) (mats : List (TipMat K)) : K :=
  mats.foldl (tipLimStep P a) 1

/-- State update of one material, tipton_equilibration.cpp:541-562. -/
def tipUpdate (P : TipPars K) (a : TipAvg K) (lim : K) (m : TipMat K) : TipMat K :=
  let vfNew := min 1 (max 0 (m.vf + lim * tipDelta P a m))
  let delta := vfNew - m.vf
  { m with
    vf := vfNew
    sie := m.sie - tipPres P a * (delta * P.vol * m.other) / (m.mass + 1 / 10 ^ 20)
    den := m.mass / (P.vol * vfNew * m.other + 1 / 10 ^ 20) }

/-- `mat_equilibration` / `geo_equilibration` at one Gauss point, tipton_equilibration.cpp:67-179,
186-303. -/
def tipton (P : TipPars K) (mats : List (TipMat K)) : List (TipMat K) :=
  let a := tipAvg P mats
  mats.map (tipUpdate P a (tipLim P a mats))

end Fierro
