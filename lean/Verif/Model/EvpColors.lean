import Mathlib.Analysis.SpecialFunctions.Trigonometric.Inverse
import Mathlib.Analysis.SpecialFunctions.Complex.Arg
import Mathlib.Algebra.Order.Floor.Semiring
import Verif.Model.EvpOrient

/-!
# EVPFFT: inverse pole figure colours of the output

Models `calc_IPF_colors` of `apps/micromechanics/EVPFFT/src/write_micro_state.cpp:218-334` and the part of it
that differs in `apps/micromechanics/LS-EVPFFT/src/write_micro_state.cpp:236-262`.  Real numbers stand for
`double`; the literal `3.141592653589793` is π.
-/

namespace Fierro

/-- The quaternion of the three angles taken as radians, write_micro_state.cpp:251-256. -/
noncomputable def quatB (ph th tm : ℝ) : Fin 4 → ℝ :=
  ![Real.sin (0.5 * th) * Real.cos (0.5 * (ph - tm)),
    Real.sin (0.5 * th) * Real.sin (0.5 * (ph - tm)),
    Real.cos (0.5 * th) * Real.sin (0.5 * (ph + tm)),
    Real.cos (0.5 * th) * Real.cos (0.5 * (ph + tm))]

/-- `kk`, write_micro_state.cpp:274-276: the last index that is neither `ii` nor `jj`. -/
def otherIndex (ii jj : Fin 3) : Fin 3 :=
  [0, 1, 2].foldl (fun kk ijk => if ii ≠ ijk ∧ jj ≠ ijk then ijk else kk) 0

/-- `kl`, write_micro_state.cpp:277-279. -/
def cyclicSign (ii jj : Fin 3) : ℤ :=
  let kl : ℤ := (jj : ℕ) - (ii : ℕ)
  let kl := if kl = 2 then -1 else kl
  if kl = -2 then 1 else kl

/-- `dout`, write_micro_state.cpp:258-284: the direction turned back by the quaternion. -/
noncomputable def invTurn (q : Fin 4 → ℝ) (hkl : Fin 3 → ℝ) : Fin 3 → ℝ := fun ii =>
  let t1 := q 3 ^ 2 - q 0 ^ 2 - q 1 ^ 2 - q 2 ^ 2
  let tmp := [0, 1, 2].foldl (fun t (jj : Fin 3) => t + q jj.castSucc * hkl jj) 0
  [0, 1, 2].foldl (fun d (jj : Fin 3) =>
    if ii ≠ jj then d + 2 * q (otherIndex ii jj).castSucc * q 3 * (cyclicSign ii jj : ℝ) * hkl jj else d)
    (t1 * hkl ii + 2 * q ii.castSucc * tmp)

/-- The reference direction after its normalisation, write_micro_state.cpp:243-249; each entry is divided by the
length of what the array holds at that moment. -/
noncomputable def refDirection : Fin 3 → ℝ :=
  [0, 1, 2].foldl (fun h (ii : Fin 3) =>
    Function.update h ii (h ii / Real.sqrt (h 0 ^ 2 + h 1 ^ 2 + h 2 ^ 2))) ![0, 0, 1]

/-- `top`, write_micro_state.cpp:290-301. -/
noncomputable def topIndex (d : Fin 3 → ℝ) : Fin 3 :=
  ([0, 1, 2].foldl (fun (s : ℝ × Fin 3) jj => if s.1 < d jj then (d jj, jj) else s) (0, 0)).2

/-- `bottom`, write_micro_state.cpp:291-305. -/
noncomputable def bottomIndex (d : Fin 3 → ℝ) : Fin 3 :=
  ([0, 1, 2].foldl (fun (s : ℝ × Fin 3) jj => if s.1 > d jj then (d jj, jj) else s) (9999, 0)).2

/-- `middle`, write_micro_state.cpp:293 and 306-308. -/
noncomputable def middleIndex (d : Fin 3 → ℝ) : Fin 3 :=
  [0, 1, 2].foldl (fun m jj => if jj ≠ bottomIndex d ∧ jj ≠ topIndex d then jj else m) 0

/-- The three channels of a direction before they are cut to integers, write_micro_state.cpp:286-325. -/
noncomputable def channels (dout : Fin 3 → ℝ) : Fin 3 → ℝ :=
  let d : Fin 3 → ℝ := fun i => |dout i|
  let top := topIndex d
  let d' := if d top > 1 then Function.update d top 1 else d
  let phi := min (Real.pi / 4) (Real.arccos (d' top))
  let thett := atan2R (d' (bottomIndex d)) (d' (middleIndex d))
  let red := 1 - Real.sin (1.6 * phi)
  let green := (1 - red) * Real.cos (2 * thett)
  let blue := (1 - red) * Real.sin (2 * thett)
  let drmax := max red (max green blue)
  let correct := 1 / drmax
  ![red * correct, green * correct, blue * correct]

/-- The colour of a direction, write_micro_state.cpp:286-329; the product is cut to an unsigned integer, of which the
output keeps the lowest byte (lines 1165-1176). -/
noncomputable def ipfColor (dout : Fin 3 → ℝ) : Fin 3 → ℕ := fun c => ⌊255 * channels dout c⌋₊ % 256

/-- The colour from three angles, taken as radians, write_micro_state.cpp:243-329. -/
noncomputable def colorOfAngles (a : ℝ × ℝ × ℝ) : Fin 3 → ℕ :=
  ipfColor (invTurn (quatB a.1 a.2.1 a.2.2) refDirection)

/-- `calc_IPF_colors` at one point, write_micro_state.cpp:229-329: the angles come from `euler(1, …)` on the stored
matrix. -/
noncomputable def calcIPF (ag : T2 ℝ) : Fin 3 → ℕ := colorOfAngles (euler1 ag)

/-- `aa` of LS-EVPFFT, LS-EVPFFT/src/write_micro_state.cpp:255-262: the loop over `kk` assigns with `=+`, so the
product of the last turn stays. -/
def colorMatrix (ag R : T2 ℝ) : T2 ℝ := fun ii jj =>
  [0, 1, 2].foldl (fun _ (kk : Fin 3) => ag ii kk * R kk jj) 0

/-- `calc_IPF_colors` of LS-EVPFFT at one point, with `R` the rotation of `defgrad_dcmp`,
LS-EVPFFT/src/write_micro_state.cpp:236-351. -/
noncomputable def calcIPFLarge (ag R : T2 ℝ) : Fin 3 → ℕ := colorOfAngles (euler1 (colorMatrix ag R))

end Fierro
