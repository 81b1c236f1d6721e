import Mathlib.Analysis.SpecialFunctions.Exp
import Mathlib.Data.List.FinRange

/-!
# EVPFFT: Voce hardening

Models `harden.cpp` of `apps/micromechanics/EVPFFT/src` at one grid point.
-/

namespace Fierro

/-- Parameters of the slip systems of a phase: `tau(is,1)`, `tau(is,3)`, `thet(is,1)`, `thet(is,2)` and
`hard`. -/
structure VoceParams (n : ℕ) where
  tau0 : Fin n → ℝ
  tau1 : Fin n → ℝ
  thet0 : Fin n → ℝ
  thet1 : Fin n → ℝ
  hard : Fin n → Fin n → ℝ

/-- State of a grid point: `gacumgr` and `crss(is,1)`, `crss(is,2)`. -/
structure VoceState (n : ℕ) where
  gamtot : ℝ
  crss1 : Fin n → ℝ
  crss2 : Fin n → ℝ

variable {n : ℕ}

/-- `deltgam`, harden.cpp:49-52. -/
def deltGam (gamdot : Fin n → ℝ) (tdot : ℝ) : ℝ :=
  (List.finRange n).foldl (fun acc s => acc + |gamdot s| * tdot) 0

/-- `dtau`, harden.cpp:55-58. -/
def deltTau (p : VoceParams n) (gamdot : Fin n → ℝ) (tdot : ℝ) (s : Fin n) : ℝ :=
  (List.finRange n).foldl (fun acc t => acc + p.hard s t * |gamdot t| * tdot) 0

/-- `voce`, harden.cpp:59-75. -/
noncomputable def voceInc (p : VoceParams n) (s : Fin n) (gamtotx deltgam : ℝ) : ℝ :=
  let tau1 := p.tau1 s
  let thet0 := p.thet0 s
  let thet1 := p.thet1 s
  let tiny := 1 / 10 ^ 4 * p.tau0 s
  if |thet0| > tiny then
    if |tau1| > tiny then
      let fact := |thet0 / tau1|
      let expini := Real.exp (-gamtotx * fact)
      let expdel := Real.exp (-deltgam * fact)
      thet1 * deltgam + (-(fact * tau1 - thet1) / fact * expini * (expdel - 1) -
        thet1 / fact * expini * (expdel * ((gamtotx + deltgam) * fact + 1) - (gamtotx * fact + 1)))
    else thet1 * deltgam
  else 0

/-- `update_crss_voce` at a grid point, harden.cpp:44-88; `gas` is `igas(iph) != 0`. -/
noncomputable def updateVoce (p : VoceParams n) (gas : Bool) (st : VoceState n) (gamdot : Fin n → ℝ)
    (tdot : ℝ) : VoceState n :=
  if gas then st
  else
    let d := deltGam gamdot tdot
    let inc := fun s => deltTau p gamdot tdot s * voceInc p s st.gamtot d / d
    { gamtot := st.gamtot + d
      crss1 := fun s => if |d| > 0 then st.crss1 s + inc s else st.crss1 s
      crss2 := fun s => if |d| > 0 then st.crss2 s + inc s else st.crss2 s }

/-- A sequence of time steps, each with its shear rates and its length. -/
noncomputable def voceRun (p : VoceParams n) (st : VoceState n) (steps : List ((Fin n → ℝ) × ℝ)) :
    VoceState n :=
  steps.foldl (fun st x => updateVoce p false st x.1 x.2) st

end Fierro
