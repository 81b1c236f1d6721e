import Verif.Model.SghRz

/-!
# Directional dissipation of the axisymmetric solver

Models `DirMARSRZDissipationModel::calc_dissipation`, material_models/artificial_viscosity/mars.hpp:916-1200.
The divergence, the average velocity, the impedance, the Riemann velocity and the shock detector are computed as in
`MARSRZDissipationModel` (SghRz.lean); the lines are repeated in mars.hpp:979-989, 1017-1033, 1050-1052, 1075-1084,
1107-1179.
-/

namespace Fierro.MarsRzInput

/-- `quad4_corner_lids_in_corner_lid`, mars.hpp:922-928. -/
def cornerNbr : Fin 4 → Fin 2 → Fin 4 := ![![1, 3], ![0, 2], ![1, 3], ![2, 0]]

/-- `dual_surf_normals`, mars.hpp:993-1010. -/
noncomputable def dualNormal (x : MarsRzInput) (l : Fin 4) (k : Fin 2) (d : Fin 2) : ℝ :=
  1 / 2 * (x.normal (cornerNbr l k) d - x.normal l d)

/-- Shock direction, mars.hpp:1056-1072; `none` where the source divides by a vanishing corner normal. -/
noncomputable def shockDir (x : MarsRzInput) (l : Fin 4) : Option (Fin 2 → ℝ) :=
  if x.magVel l > x.small then some fun d => (x.vel l d - x.velAvg d) / x.magVel l
  else if x.magNormal l = 0 then none
  else some fun d => x.normal l d / x.magNormal l

/-- `mu_term`, mars.hpp:1094-1098. -/
noncomputable def muDir (x : MarsRzInput) (q : MarsParams) (l : Fin 4) (s : Fin 2 → ℝ) : ℝ :=
  x.impedance q l *
    (|s 0 * x.dualNormal l 0 0 + s 1 * x.dualNormal l 0 1|
      + |s 0 * x.dualNormal l 1 0 + s 1 * x.dualNormal l 1 1|)

/-- Corner forces for given impedances times lengths, mars.hpp:1107-1117 and 1181-1192. -/
noncomputable def dirForce (x : MarsRzInput) (q : MarsParams) (mu : Fin 4 → ℝ) (l : Fin 4) (d : Fin 2) : ℝ :=
  x.phi q * mu l * (x.velStar mu d - x.vel l d)

/-- `DirMARSRZDissipationModel::calc_dissipation`, mars.hpp:930-1198; `none`: not a number. -/
noncomputable def dirMars (x : MarsRzInput) (q : MarsParams) : Option (Fin 4 → Fin 2 → ℝ) := do
  let s0 ← x.shockDir 0
  let s1 ← x.shockDir 1
  let s2 ← x.shockDir 2
  let s3 ← x.shockDir 3
  some (x.dirForce q fun l => x.muDir q l ((![s0, s1, s2, s3] : Fin 4 → Fin 2 → ℝ) l))

end Fierro.MarsRzInput
