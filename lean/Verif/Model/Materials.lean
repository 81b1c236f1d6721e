import Verif.Model.Sgh
import Mathlib.Analysis.SpecialFunctions.Pow.Real

/-!
# Material models of the solver

`apps/multiphysics/src/material_models/…` and `update_state` of
`Solvers/SGH_solver_3D/src/properties.cpp:67-259`.  Exact real arithmetic.
-/

namespace Fierro

/-! ### Equations of state -/

/-- `GammaLawGasEOSModel::calc_pressure`, eos/gamma_law_eos.hpp:94-111. -/
def gammaPressure (gamma den sie : ℝ) : ℝ := (gamma - 1) * sie * den

/-- `GammaLawGasEOSModel::calc_sound_speed`, eos/gamma_law_eos.hpp:114-137.  For a negative radicand
C gives NaN and `fmax(NaN, csmin)` is `csmin`; `Real.sqrt` gives 0, the same result for
`csmin ≥ 0`. -/
noncomputable def gammaSspd (gamma csmin sie : ℝ) : ℝ :=
  max (Real.sqrt (gamma * (gamma - 1) * sie)) csmin

/-- `LinearElasticEOS::calc_pressure`, eos/elasticity.hpp:77-95; `none` for the division by zero
when the reference density is zero. -/
noncomputable def elasticPressure (B den0 den : ℝ) : Option ℝ :=
  if den0 = 0 then none else some (B * (den / den0 - 1))

/-- `LinearElasticEOS::calc_sound_speed`, eos/elasticity.hpp:97-120, for positive density. -/
noncomputable def elasticSspd (B G csmin den : ℝ) : ℝ :=
  max csmin (Real.sqrt ((B + 4 / 3 * G) / den))

/-- `VoidEOSModel`, eos/void_eos.hpp:74-110. -/
def voidPressure : ℝ := 0

/-- `VoidEOSModel::calc_sound_speed`, eos/void_eos.hpp:104. -/
noncomputable def voidSspd : ℝ := 1 / 10 ^ 32

/-! ### Erosion and `update_state` -/

/-- `BasicErosionModel::erode`, erosion/basic_erosion.hpp:45-65: the new value of the flag. -/
noncomputable def basicErode (tension density pres den : ℝ) (eroded : Bool) : Bool :=
  if pres ≤ tension ∨ den ≤ density then true else eroded

/-- What `update_state` reads of a material.  The function pointers are arbitrary; they receive the
material point (with the new density) and return the values they store. -/
structure MatModel (E : ℕ) where
  /-- `EOSType == decoupledEOSType` -/
  decoupled : Bool
  pressure : MatPt ℝ E → ℝ
  soundSpeed : MatPt ℝ E → ℝ
  /-- `StrengthType == stateBased`: the model and what it stores: stress, pressure, sound speed
  (the arrays it is given write access to) -/
  strength : Option (MatPt ℝ E → (Fin 3 → Fin 3 → ℝ) × ℝ × ℝ)
  /-- `ErosionModels`: tension and density limits of the basic model; `none` is `noErosion` -/
  erosion : Option (ℝ × ℝ)

variable {E : ℕ}

/-- Density, pressure and sound speed, properties.cpp:99-164; `vol` is `GaussPoints_vol`. -/
noncomputable def stateEos (M : MatModel E) (vol : Fin E → ℝ) (p : MatPt ℝ E) : MatPt ℝ E :=
  if M.decoupled = true then
    let p := { p with den := p.mass / (vol p.elem * p.volfrac * p.geoVolfrac + 1 / 10 ^ 20) }
    let p := { p with pres := M.pressure p }
    { p with sspd := M.soundSpeed p }
  else { p with den := p.mass / (vol p.elem + 1 / 10 ^ 20) }

/-- State-based strength, properties.cpp:169-214. -/
def stateStrength (M : MatModel E) (p : MatPt ℝ E) : MatPt ℝ E :=
  match M.strength with
  | none => p
  | some f => { p with stress := (f p).1, pres := (f p).2.1, sspd := (f p).2.2 }

/-- Erosion, properties.cpp:217-256. -/
noncomputable def stateErosion (M : MatModel E) (p : MatPt ℝ E) : MatPt ℝ E :=
  match M.erosion with
  | none => p
  | some (tension, density) =>
    let p := { p with eroded := basicErode tension density p.pres p.den p.eroded }
    if p.eroded = true then
      { p with pres := 0, sspd := 1 / 10 ^ 32, den := 1 / 10 ^ 32, stress := fun _ _ => 0 }
    else p

/-- `update_state` for one material point, properties.cpp:67-259. -/
noncomputable def updateState (M : MatModel E) (vol : Fin E → ℝ) (p : MatPt ℝ E) : MatPt ℝ E :=
  stateErosion M (stateStrength M (stateEos M vol p))

/-! ### Hypo-elastic plastic strength -/

/-- The right-hand side of the Jaumann rate, strength/decoupled_plasticity.hpp:203-283 (3D). -/
noncomputable def jaumannRhs (G : ℝ) (L s : Fin 3 → Fin 3 → ℝ) (i k : Fin 3) : ℝ :=
  let D := fun i j => 1 / 2 * (L i j + L j i)
  let W := fun i j => 1 / 2 * (L i j - L j i)
  let div := 0 + L 0 0 + L 1 1 + L 2 2
  let eye : ℝ := if i = k then 1 else 0
  2 * G * (D i k - div / 3 * eye)
    + (W i 0 * s 0 k - s i 0 * W 0 k) + (W i 1 * s 1 k - s i 1 * W 1 k)
    + (W i 2 * s 2 k - s i 2 * W 2 k)

/-- Sum of the squares of all nine entries, accumulated in loop order
(decoupled_plasticity.hpp:293-299). -/
def sumSq (s : Fin 3 → Fin 3 → ℝ) : ℝ :=
  0 + s 0 0 * s 0 0 + s 0 1 * s 0 1 + s 0 2 * s 0 2 + s 1 0 * s 1 0 + s 1 1 * s 1 1
    + s 1 2 * s 1 2 + s 2 0 * s 2 0 + s 2 1 * s 2 1 + s 2 2 * s 2 2

/-- `fuzz` of the strength models, decoupled_plasticity.hpp:65. -/
noncomputable def strengthFuzz : ℝ := 1 / 10 ^ 16

/-- The scaling factor, decoupled_plasticity.hpp:299-303. -/
noncomputable def yieldFactor (Y : ℝ) (s : Fin 3 → Fin 3 → ℝ) : ℝ :=
  Y / Real.sqrt (3 * (sumSq s / 2) + strengthFuzz)

/-- Elastic predictor, decoupled_plasticity.hpp:286-290. -/
noncomputable def trialStress (G h : ℝ) (L sN0 s : Fin 3 → Fin 3 → ℝ) (i j : Fin 3) : ℝ :=
  sN0 i j + h * jaumannRhs G L s i j

/-- `HypoPlasticityModel::calc_stress`, decoupled_plasticity.hpp:124-322; `h = rk_alpha * dt`. -/
noncomputable def hypoStress (G Y h : ℝ) (L sN0 s : Fin 3 → Fin 3 → ℝ) (i j : Fin 3) : ℝ :=
  let t := trialStress G h L sN0 s
  if yieldFactor Y t < 1 then t i j * yieldFactor Y t else t i j

/-- Deviator, decoupled_plasticity.hpp:470-479. -/
noncomputable def deviator (s : Fin 3 → Fin 3 → ℝ) (i j : Fin 3) : ℝ :=
  if i = j then s i j - (0 + s 0 0 + s 1 1 + s 2 2) / 3 else s i j

/-- Right-hand side of the RZ model (`approach` is the constant 0),
decoupled_plasticity.hpp:629-644. `n` and `s` are the deviators of the old and current stress. -/
noncomputable def rzRhs (G : ℝ) (L n s : Fin 3 → Fin 3 → ℝ) : Fin 3 → Fin 3 → ℝ :=
  let D := fun i j => 1 / 2 * (L i j + L j i)
  let W := fun i j => 1 / 2 * (L i j - L j i)
  let div := 0 + L 0 0 + L 1 1 + L 2 2
  let term := (n 0 0 - n 1 1) / 2
  ![![2 * G * (D 0 0 - div / 3 * 1)
        + term * (((D 0 1 * s 1 0) + (s 0 1 * D 1 0)) + ((D 0 0 * s 0 0) + (s 0 0 * D 0 0)))
        + n 0 1 * ((W 0 1 * s 1 0) - (s 0 1 * W 1 0)),
      G * D 0 1 + (n 0 1 * (((D 0 0 * s 0 1) + (s 0 0 * D 0 1)) + ((D 0 1 * s 1 1) + (s 0 1 * D 1 1)))
        - term * (((W 0 0 * s 0 1) - (s 0 0 * W 0 1)) + ((W 0 1 * s 1 1) - (s 0 1 * W 1 1)))),
      0],
    ![G * D 1 0 + (n 1 0 * (((D 1 0 * s 0 0) + (s 1 0 * D 0 0)) + ((D 1 1 * s 1 0) + (s 1 1 * D 1 0)))
        - term * (((W 1 0 * s 0 0) - (s 1 0 * W 0 0)) + ((W 1 1 * s 1 0) - (s 1 1 * W 1 0)))),
      2 * G * (D 1 1 - div / 3 * 1) + ((W 1 0 * s 0 1) - (s 1 0 * W 0 1)),
      0],
    ![0, 0, 2 * G * (D 2 2 - div / 3 * 1)]]

/-- Elastic predictor of the RZ model, decoupled_plasticity.hpp:646-651. -/
noncomputable def rzTrial (G h : ℝ) (L sN0 s : Fin 3 → Fin 3 → ℝ) (i j : Fin 3) : ℝ :=
  deviator sN0 i j + h * rzRhs G L (deviator sN0) (deviator s) i j

/-- `HypoPlasticityRZModel::calc_stress`, decoupled_plasticity.hpp:417-692; `h = rk_alpha * dt`. -/
noncomputable def rzStress (G Y h : ℝ) (L sN0 s : Fin 3 → Fin 3 → ℝ) : Fin 3 → Fin 3 → ℝ :=
  let t := rzTrial G h L sN0 s
  let factor := Real.sqrt (2 / 3) * Y / Real.sqrt (sumSq t + strengthFuzz)
  let f := if sumSq t - 2 / 3 * (Y * Y) > 0 then factor else 1
  ![![t 0 0 * f, t 0 1 * f, 0], ![t 0 1 * f, t 1 1 * f, 0], ![0, 0, t 2 2 * f]]

/-! ### MARS dissipation -/

/-- The user's parameters, mars.hpp:70-75. -/
structure MarsParams where
  q1 : ℝ
  q1ex : ℝ
  q2 : ℝ
  q2ex : ℝ
  phiFloor : ℝ
  phiCurlFloor : ℝ

/-- What the dissipation model reads for one element and material point. -/
structure MarsInput where
  /-- velocity gradient of the element -/
  L : Fin 3 → Fin 3 → ℝ
  /-- divergence in each neighbouring element -/
  nbrDiv : List ℝ
  vel : Fin 8 → Fin 3 → ℝ
  /-- inward corner area normals -/
  normal : Fin 8 → Fin 3 → ℝ
  den : ℝ
  sspd : ℝ
  vol : ℝ
  fuzz : ℝ
  small : ℝ

namespace MarsInput

/-- mars.hpp:95-97 -/
def div (x : MarsInput) : ℝ := x.L 0 0 + x.L 1 1 + x.L 2 2

/-- mars.hpp:103-108 -/
noncomputable def magCurl (x : MarsInput) : ℝ :=
  Real.sqrt ((x.L 2 1 - x.L 1 2) * (x.L 2 1 - x.L 1 2) + (x.L 0 2 - x.L 2 0) * (x.L 0 2 - x.L 2 0)
    + (x.L 1 0 - x.L 0 1) * (x.L 1 0 - x.L 0 1))

/-- Average velocity, mars.hpp:116-130. -/
noncomputable def velAvg (x : MarsInput) (d : Fin 3) : ℝ :=
  (List.finRange 8).foldl (fun acc l => acc + 1 / 8 * x.vel l d) 0

/-- `mag_vel`, mars.hpp:151-153. -/
noncomputable def magVel (x : MarsInput) (l : Fin 8) : ℝ :=
  Real.sqrt ((x.vel l 0 - x.velAvg 0) * (x.vel l 0 - x.velAvg 0)
    + (x.vel l 1 - x.velAvg 1) * (x.vel l 1 - x.velAvg 1)
    + (x.vel l 2 - x.velAvg 2) * (x.vel l 2 - x.velAvg 2))

/-- magnitude of the corner area normal, mars.hpp:164-166 and 190-192. -/
noncomputable def magNormal (x : MarsInput) (l : Fin 8) : ℝ :=
  Real.sqrt (x.normal l 0 * x.normal l 0 + x.normal l 1 * x.normal l 1
    + x.normal l 2 * x.normal l 2)

/-- corner impedance, mars.hpp:175-184 -/
noncomputable def impedance (x : MarsInput) (q : MarsParams) (l : Fin 8) : ℝ :=
  if x.div < 0 then x.den * (q.q1 * x.sspd + q.q2 * x.magVel l)
  else x.den * (q.q1ex * x.sspd + q.q2ex * x.magVel l)

/-- `mu_term` of MARS, mars.hpp:189-192 (the shock direction is computed there but not used). -/
noncomputable def muMars (x : MarsInput) (q : MarsParams) (l : Fin 8) : ℝ :=
  x.impedance q l * x.magNormal l

/-- Shock direction, mars.hpp:493-510.  If the area normal is zero and the velocity does not vary
the source divides zero by zero; the theorems about the directional model exclude that. -/
noncomputable def shockDir (x : MarsInput) (l : Fin 8) (d : Fin 3) : ℝ :=
  if x.magVel l > x.small then (x.vel l d - x.velAvg d) / x.magVel l
  else x.normal l d / x.magNormal l

/-- `hex8_corner_lids_in_corner_lid`, mars.hpp:342-360. -/
def cornerNbr : Fin 8 → Fin 3 → Fin 8 :=
  ![![1, 2, 4], ![0, 3, 5], ![0, 3, 6], ![2, 1, 7], ![6, 5, 0], ![4, 7, 1], ![4, 7, 2], ![6, 5, 3]]

/-- `dual_surf_normals`, mars.hpp:433-446. -/
noncomputable def dualNormal (x : MarsInput) (l : Fin 8) (k : Fin 3) (d : Fin 3) : ℝ :=
  1 / 2 * (x.normal (cornerNbr l k) d - x.normal l d)

/-- `mu_term` of directional MARS, mars.hpp:533-545. -/
noncomputable def muDirMars (x : MarsInput) (q : MarsParams) (l : Fin 8) : ℝ :=
  x.impedance q l *
    (|x.shockDir l 0 * x.dualNormal l 0 0 + x.shockDir l 1 * x.dualNormal l 0 1
        + x.shockDir l 2 * x.dualNormal l 0 2|
      + |x.shockDir l 0 * x.dualNormal l 1 0 + x.shockDir l 1 * x.dualNormal l 1 1
        + x.shockDir l 2 * x.dualNormal l 1 2|
      + |x.shockDir l 0 * x.dualNormal l 2 0 + x.shockDir l 1 * x.dualNormal l 2 1
        + x.shockDir l 2 * x.dualNormal l 2 2|)

/-- `sum(3)`, mars.hpp:135-137, 198. -/
noncomputable def muSum (mu : Fin 8 → ℝ) : ℝ := (List.finRange 8).foldl (fun acc l => acc + mu l) 0

/-- Riemann velocity, mars.hpp:195-213. -/
noncomputable def velStar (x : MarsInput) (mu : Fin 8 → ℝ) (d : Fin 3) : ℝ :=
  if muSum mu > x.fuzz then
    (List.finRange 8).foldl (fun acc l => acc + mu l * x.vel l d) 0 / muSum mu
  else 0

/-- `r_min`, mars.hpp:229-250. -/
noncomputable def rMin (x : MarsInput) : ℝ :=
  x.nbrDiv.foldl (fun r dn => min (9 / 10 * (dn + x.small) / (x.div + x.small)) r) 1

/-- Shock detector, mars.hpp:252-275 (`n_coef` is the constant 1).  The cube root of a negative
volume is NaN in C; the theorems assume a non-negative volume. -/
noncomputable def phi (x : MarsInput) (q : MarsParams) : ℝ :=
  let phi := 1 - max 0 x.rMin
  let cLength := x.vol ^ (1 / 3 : ℝ)
  let alpha := min 1 (20 * (cLength * |x.div|) / (x.sspd + x.fuzz))
  let phi := alpha * phi
  let phiCurl := max (min 1 (1 * |x.div| / (x.magCurl + x.fuzz))) q.phiCurlFloor
  let phi := min phi phiCurl
  max q.phiFloor phi

/-- Corner forces, mars.hpp:279-289 (`disp_corner_forces` starts at zero, force_sgh.cpp:150). -/
noncomputable def force (x : MarsInput) (q : MarsParams) (mu : Fin 8 → ℝ) (l : Fin 8) (d : Fin 3) :
    ℝ := x.phi q * mu l * (x.velStar mu d - x.vel l d)

/-- `MARSDissipationModel::calc_dissipation`, mars.hpp:47-292. -/
noncomputable def mars (x : MarsInput) (q : MarsParams) : Fin 8 → Fin 3 → ℝ := x.force q (x.muMars q)

/-- `DirMARSDissipationModel::calc_dissipation`, mars.hpp:363-645. -/
noncomputable def dirMars (x : MarsInput) (q : MarsParams) : Fin 8 → Fin 3 → ℝ :=
  x.force q (x.muDirMars q)

end MarsInput

end Fierro
