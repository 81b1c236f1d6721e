import Mathlib.Analysis.SpecialFunctions.Trigonometric.Inverse
import Mathlib.Analysis.SpecialFunctions.Complex.Arg
import Verif.Model.EvpTensor

/-!
# EVPFFT: crystal orientations

Models `euler.cpp`, `orient.cpp`, `update_orient.cpp`, the angle handling of `data_grain.cpp` and
`write_texture.cpp`, and `update_schmid.cpp` of `apps/micromechanics/EVPFFT/src`.  Real numbers stand
for `real_t`; `atan2(y,x)` is the argument of `x + iy`.
-/

namespace Fierro

/-- `ATAN2(y,x)`. -/
noncomputable def atan2R (y x : ℝ) : ℝ := Complex.arg ⟨x, y⟩

/-- `euler` with `iopt = 2`, euler.cpp:28-44: matrix from angles in radians. -/
noncomputable def euler2 (ph th tm : ℝ) : T2 ℝ :=
  let sph := Real.sin ph
  let cph := Real.cos ph
  let sth := Real.sin th
  let cth := Real.cos th
  let stm := Real.sin tm
  let ctm := Real.cos tm
  ![![ctm * cph - sph * stm * cth, ctm * sph + cph * stm * cth, sth * stm],
    ![-stm * cph - sph * ctm * cth, -sph * stm + cph * ctm * cth, ctm * sth],
    ![sph * sth, -sth * cph, cth]]

/-- `euler` with `iopt = 1`, euler.cpp:15-27: angles `(ph, th, tm)` in degrees from the matrix. -/
noncomputable def euler1 (a : T2 ℝ) : ℝ × ℝ × ℝ :=
  let th := Real.arccos (a 2 2)
  let r : ℝ × ℝ :=
    if |a 2 2| ≥ 0.9999 then (atan2R (a 0 1) (a 0 0), 0)
    else
      let sth := Real.sin th
      (atan2R (a 2 0 / sth) (-a 2 1 / sth), atan2R (a 0 2 / sth) (a 1 2 / sth))
  (r.1 * 180 / Real.pi, th * 180 / Real.pi, r.2 * 180 / Real.pi)

/-- Reading of a texture file: angles in degrees to the sample-to-crystal matrix,
data_grain.cpp:71-74. -/
noncomputable def readOrientation (ph th om : ℝ) : T2 ℝ :=
  euler2 (ph * Real.pi / 180) (th * Real.pi / 180) (om * Real.pi / 180)

/-- `ag`, data_grain.cpp:76-80: the transposed matrix is stored. -/
noncomputable def storedOrientation (ph th om : ℝ) : T2 ℝ := fun j k => readOrientation ph th om k j

/-- Angles written to the texture file, write_texture.cpp:49-57: the stored matrix is transposed
again and decomposed. -/
noncomputable def writtenAngles (ag : T2 ℝ) : ℝ × ℝ × ℝ := euler1 (fun j k => ag k j)

/-- Rotation vector handed to `orient`, orient.cpp:31-33. -/
def axialOf (c : T2 ℝ) : Fin 3 → ℝ := ![c 2 1, c 0 2, c 1 0]

/-- Length of the rotation vector, orient.cpp:34. -/
noncomputable def axialNorm (v : Fin 3 → ℝ) : ℝ := Real.sqrt (v 0 * v 0 + v 1 * v 1 + v 2 * v 2)

/-- `vbar`, orient.cpp:34-43: the half-angle vector; a vector not longer than `1e-6` is divided by 1
instead of its length. -/
noncomputable def halfAngleVec (v : Fin 3 → ℝ) : Fin 3 → ℝ := fun i =>
  let snorm := axialNorm v
  let snorm1 := Real.tan (snorm / 2)
  let snorm' := if snorm > 1 / 10 ^ 6 then snorm else 1
  snorm1 * v i / snorm'

/-- The skew matrix `th`, orient.cpp:46-55. -/
def skewOf (w : Fin 3 → ℝ) : T2 ℝ :=
  ![![0, -w 2, w 1], ![w 2, 0, -w 0], ![-w 1, w 0, 0]]

/-- `rot` from the half-angle vector, orient.cpp:45 and 57-70.  `(i/j)*(j/i)` is an integer division
with indices counted from 1. -/
noncomputable def rodrigues (w : Fin 3 → ℝ) : T2 ℝ := fun i j =>
  let th := skewOf w
  let snorm := w 0 * w 0 + w 1 * w 1 + w 2 * w 2
  ((((i : ℕ) + 1) / ((j : ℕ) + 1) * (((j : ℕ) + 1) / ((i : ℕ) + 1)) : ℕ) : ℝ) +
    2 * (th i j + ∑ k, th i k * th k j) / (1 + snorm)

/-- `orient`, orient.cpp:4-87: the new matrix `rot a`. -/
noncomputable def orientStep (a c : T2 ℝ) : T2 ℝ := fun i j =>
  ∑ k, rodrigues (halfAngleVec (axialOf c)) i k * a k j

/-- One slip system at a grid point: normal and direction in the crystal, and its shear rate. -/
structure SlipRate where
  dnca : Fin 3 → ℝ
  dbca : Fin 3 → ℝ
  gamdot : ℝ

/-- `distor`, update_orient.cpp:59-81: plastic distortion rate in the sample frame. -/
def distorOf (aa : T2 ℝ) (sys : List SlipRate) : T2 ℝ :=
  sys.foldl (fun d s => fun i j =>
    d i j + (∑ k, aa i k * s.dbca k) * (∑ k, aa j k * s.dnca k) * s.gamdot) (fun _ _ => 0)

/-- Input of `update_orient` at one grid point. -/
structure OrientInput where
  gas : Bool
  velgrad : T2 ℝ
  tomtot : T2 ℝ
  sys : List SlipRate
  tdot : ℝ

/-- Total rotation increment, update_orient.cpp:50-54 and 83-102. -/
noncomputable def rotIncrement (ag : T2 ℝ) (inp : OrientInput) : T2 ℝ := fun i j =>
  let rotloc := (inp.velgrad i j - inp.velgrad j i) / 2
  let rotslip := (distorOf ag inp.sys i j - distorOf ag inp.sys j i) / 2
  (inp.tomtot i j + rotloc - rotslip) * inp.tdot

/-- `update_orient` at one grid point, update_orient.cpp:43-118. -/
noncomputable def updateOrient (ag : T2 ℝ) (inp : OrientInput) : T2 ℝ :=
  if inp.gas then ag else orientStep ag (rotIncrement ag inp)

/-- `update_schmid` for one system at one grid point, update_schmid.cpp:47-69: the five components of
the Schmid tensor in the crystal to those in the sample frame. -/
noncomputable def updateSchmid (q : BasisConst ℝ) (ag : T2 ℝ) (schca : Fin 5 → ℝ) : Fin 5 → ℝ :=
  let aux33 := chgBasis1 q (by omega : 5 ≤ 6) schca
  chgBasis2 q (by omega : 5 ≤ 6) fun i j => ∑ i1, ∑ j1, ag i i1 * ag j j1 * aux33 i1 j1

end Fierro
