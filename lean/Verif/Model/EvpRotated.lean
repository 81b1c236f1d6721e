import Verif.Model.EvpLargeGrid

/-!
# LSNP-EVPFFT: the rotated scheme of the discrete Green operator

Models `mod_frequency.cpp`, the branches `igamma == 1` of `calc_velocity.cpp`, `inverse_the_greens.cpp`,
`calc_Goperr0.cpp` and `update_grid.cpp`, the last part of `calc_eigenvelgradref.cpp` and the weight of
`allocate_memory.cpp`, all of `apps/micromechanics/LSNP-EVPFFT/src`.

The transforms are those of `Model/EvpGreen.lean`.  Exact arithmetic, ideal sine, cosine and tangent; a
tangent at a pole is `none`.  The constant `twopi`, a double, is a parameter.  `abs` of a double is taken to
be the overload for doubles.
-/

namespace Fierro.Lsnp

open Complex

/-- `prefactor_re`, mod_frequency.cpp:14-18. -/
noncomputable def preRe (x : Fin 3 → ℝ) : ℝ :=
  -0.25 * Real.sin (x 0) - 0.25 * Real.cos (x 1) * Real.sin (x 0) - 0.25 * Real.cos (x 2) * Real.sin (x 0) -
    0.25 * Real.cos (x 1) * Real.cos (x 2) * Real.sin (x 0) - 0.25 * Real.sin (x 1) -
    0.25 * Real.cos (x 0) * Real.sin (x 1) -
    0.25 * Real.cos (x 2) * Real.sin (x 1) - 0.25 * Real.cos (x 0) * Real.cos (x 2) * Real.sin (x 1) -
    0.25 * Real.sin (x 2) -
    0.25 * Real.cos (x 0) * Real.sin (x 2) - 0.25 * Real.cos (x 1) * Real.sin (x 2) -
    0.25 * Real.cos (x 0) * Real.cos (x 1) * Real.sin (x 2) +
    0.25 * Real.sin (x 0) * Real.sin (x 1) * Real.sin (x 2)

/-- `prefactor_im`, mod_frequency.cpp:19-24. -/
noncomputable def preIm (x : Fin 3 → ℝ) : ℝ :=
  0.25 + 0.25 * Real.cos (x 0) + 0.25 * Real.cos (x 1) + 0.25 * Real.cos (x 0) * Real.cos (x 1) +
    0.25 * Real.cos (x 2) + 0.25 * Real.cos (x 0) * Real.cos (x 2) + 0.25 * Real.cos (x 1) * Real.cos (x 2) +
    0.25 * Real.cos (x 0) * Real.cos (x 1) * Real.cos (x 2) - 0.25 * Real.sin (x 0) * Real.sin (x 1) -
    0.25 * Real.cos (x 2) * Real.sin (x 0) * Real.sin (x 1) - 0.25 * Real.sin (x 0) * Real.sin (x 2) -
    0.25 * Real.cos (x 1) * Real.sin (x 0) * Real.sin (x 2) - 0.25 * Real.sin (x 1) * Real.sin (x 2) -
    0.25 * Real.cos (x 0) * Real.sin (x 1) * Real.sin (x 2)

open Classical in
/-- `mod_frequency`, mod_frequency.cpp:3-33. -/
noncomputable def modFreq (x : Fin 3 → ℝ) : Option (Fin 3 → ℂ) :=
  if ∃ a, Real.cos (x a / 2) = 0 then none
  else some fun a => ⟨Real.tan (x a / 2) * preRe x, Real.tan (x a / 2) * preIm x⟩

/-- `xk` handed to `mod_frequency`, calc_eigenvelgradref.cpp:226-229, calc_velocity.cpp:119-121 and
inverse_the_greens.cpp:98-102 with the frequencies of evpfft.cpp:181-204. -/
noncomputable def angle (twopi : ℝ) (g : EvpGrid) (k : g.Ix) : Fin 3 → ℝ := fun a => twopi * g.freq k a

open Classical in
/-- The modified frequencies of the whole grid. -/
noncomputable def modTable (twopi : ℝ) (g : EvpGrid) : Option (g.Ix → Fin 3 → ℂ) :=
  if h : ∀ k, (modFreq (angle twopi g k)).isSome then some fun k => (modFreq (angle twopi g k)).get (h k)
  else none

/-- Gradient of one component of the applied velocity, calc_eigenvelgradref.cpp:189-288. -/
noncomputable def gradOf {g : EvpGrid} (K : g.Ix → Fin 3 → ℂ) (v : g.Ix → ℝ) (x : g.Ix) (j : Fin 3) : ℝ :=
  g.backward (fun k => g.forward v k * K k j) x

/-- `krot_ckrot`, calc_velocity.cpp:154-155. -/
noncomputable def modNorm (k : Fin 3 → ℂ) : ℝ :=
  (k 0).re ^ 2 + (k 0).im ^ 2 + (k 1).re ^ 2 + (k 1).im ^ 2 + (k 2).re ^ 2 + (k 2).im ^ 2

/-- `velhatr`, `velhatim` of the rotated scheme, calc_velocity.cpp:150-179. -/
noncomputable def velHatRot (k : Fin 3 → ℂ) (w : Fin 3 → Fin 3 → ℂ) (i : Fin 3) : ℂ :=
  if 1.0e-15 ≤ |modNorm k| then
    ⟨∑ j, ((w i j).re * (k j).re + (w i j).im * (k j).im) / modNorm k,
      ∑ j, ((w i j).im * (k j).re - (w i j).re * (k j).im) / modNorm k⟩
  else 0

/-- `wgt`, allocate_memory.cpp:17; `d` are the widths of the frame. -/
noncomputable def wgtCode (n d : Fin 3 → ℤ) : ℝ :=
  1 / (((n 0 - 2 * d 0) * (n 1 - 2 * d 1) * (n 1 - 2 * d 1) : ℤ) : ℝ)

/-- `velgradrefavg`, calc_velocity.cpp:36-60. -/
noncomputable def avgCode {g : EvpGrid} (wgt : ℝ) (ref : g.Ix → Fin 3 → Fin 3 → ℝ) (i j : Fin 3) : ℝ :=
  ∑ x, ref x i j * wgt

/-- `velocity` of the rotated scheme, calc_velocity.cpp:62-268; points count from 0, the code counts from 1. -/
noncomputable def velocityRot {g : EvpGrid} (K : g.Ix → Fin 3 → ℂ) (wgt : ℝ)
    (ref : g.Ix → Fin 3 → Fin 3 → ℝ) (x : g.Ix) (i : Fin 3) : ℝ :=
  g.backward (fun k => velHatRot (K k) (fun a b => g.forward (fun y => ref y a b) k) i) x
    + ∑ j, avgCode wgt ref i j * ((((x j : ℕ) : ℝ) + 1) - 0.5)

/-- `D_dft`, inverse_the_greens.cpp:118-122. -/
noncomputable def dDft (k : Fin 3 → ℂ) (i j : Fin 3) : ℝ := (k i).re * (k j).re + (k i).im * (k j).im

/-- `a` before the inversion, inverse_the_greens.cpp:125-134. -/
noncomputable def acousticRot (c0 : T4 ℝ) (k : Fin 3 → ℂ) : Dense 3 ℝ := fun i m =>
  ∑ j, ∑ l, c0 i j m l * dDft k j l

/-- `g1` of the rotated scheme, inverse_the_greens.cpp:104-149. -/
noncomputable def greenRot (c0 : T4 ℝ) (k : Fin 3 → ℂ) : T4 ℝ :=
  if |modNorm k| < 1.0e-15 then fun _ _ _ _ => 0
  else fun p q i j => -invertView (acousticRot c0 k) p i * dDft k q j

/-- `work`, `workim` of one frequency after `inverse_the_greens`, inverse_the_greens.cpp:154-183. -/
noncomputable def correctRot (c0 : T4 ℝ) (zero : Bool) (k : Fin 3 → ℂ) (w : Fin 3 → Fin 3 → ℂ) (i j : Fin 3) :
    ℂ :=
  if zero then 0
  else ⟨∑ m, ∑ l, greenRot c0 k i j m l * (w m l).re, ∑ m, ∑ l, greenRot c0 k i j m l * (w m l).im⟩

/-- `work` after `backward_fft`: the change of the velocity gradient caused by a stress field. -/
noncomputable def correctionRot {g : EvpGrid} (c0 : T4 ℝ) (K : g.Ix → Fin 3 → ℂ) (s : g.Ix → T2 ℝ) (x : g.Ix)
    (i j : Fin 3) : ℝ :=
  g.backward (fun k => correctRot c0 (g.zeroFreq k) (K k) (fun a b => g.forward (fun y => s y a b) k) i j) x

/-- `Goperr0`, calc_Goperr0.cpp:77-136 and 190-266: the backward transform of the operator at the first
point. -/
noncomputable def goperr0 {g : EvpGrid} (hp : ∀ a, 0 < g.n a) (c0 : T4 ℝ) (K : g.Ix → Fin 3 → ℂ) : T4 ℝ :=
  fun i ii j jj => g.backward (fun k =>
    if |modNorm (K k)| < 1.0e-15 then 0
    else ((-invertView (acousticRot c0 (K k)) i j * dDft (K k) ii jj : ℝ) : ℂ)) fun a => ⟨0, hp a⟩

/-- Index used for the node `i` (from 1) of a rank starting at `start`, update_grid.cpp:96-114. -/
def gridIndex (n start i : ℕ) : ℕ := if i + start = n + 1 then 1 else i

/-- What a node moves by, update_grid.cpp:21-34 and 90-118: `workG` holds the velocities of all ranks. -/
noncomputable def nodeStep (g : EvpGrid) (start : Fin 3 → ℕ) (v : g.Ix → Fin 3 → ℝ) (dt : ℝ) (i : Fin 3 → ℕ) :
    Option (Fin 3 → ℝ) :=
  (Large.readPoint g v fun a => gridIndex (g.n a) (start a) (i a)).map fun w c => w c * dt

end Fierro.Lsnp
