import Mathlib.Analysis.SpecialFunctions.Exp
import Mathlib.Analysis.SpecialFunctions.Trigonometric.Basic
import Verif.Model.EvpStress

/-!
# EVPFFT: strain correction with the Green operator of the reference medium

Models `init_xk_gb` of `evpfft.cpp`, `forward_backward_fft.cpp`, `inverse_the_greens.cpp` and
`initialize_disgrad.cpp` of `apps/micromechanics/EVPFFT/src`.  The transforms of heFFTe are replaced by
the sums they compute; the library stores only the frequencies with first index up to `n₁/2` and obtains
the others from the symmetry of transforms of real fields, the model computes all of them.  Indices count
from 0.
-/

namespace Fierro

open Complex

/-- Integer wave number of index `idx` out of `n`, evpfft.cpp:176-180 (`kx`). -/
def waveIndex (n idx : ℕ) : ℤ := if idx > n / 2 then (idx : ℤ) - n else idx

/-- `xk_gb`, `yk_gb`, `zk_gb`, evpfft.cpp:180, 187 and 194. -/
noncomputable def waveFreq (n : ℕ) (delt : ℝ) (idx : ℕ) : ℝ := waveIndex n idx / (delt * n)

/-- `xk` after the division by its length, inverse_the_greens.cpp:34-42. -/
noncomputable def unitFreq (xk : Fin 3 → ℝ) : Fin 3 → ℝ :=
  let norm := Real.sqrt (xk 0 * xk 0 + xk 1 * xk 1 + xk 2 * xk 2)
  if norm ≠ 0 then fun i => xk i / norm else xk

/-- `a` before the inversion, inverse_the_greens.cpp:58-67. -/
def acoustic (c0 : T4 ℝ) (xk : Fin 3 → ℝ) : Dense 3 ℝ := fun i k =>
  ∑ j, ∑ l, c0 i j k l * xk j * xk l

/-- `g1`, inverse_the_greens.cpp:44-81, for an already normalised frequency. -/
noncomputable def greenOp (c0 s0 : T4 ℝ) (nyq : Bool) (xk : Fin 3 → ℝ) : T4 ℝ :=
  if nyq then fun i j k l => -s0 i j k l
  else
    let a := invertView (acoustic c0 xk)
    fun p q i j => -a p i * xk q * xk j

/-- `ddisgrad` or `ddisgradim`, inverse_the_greens.cpp:83-106. -/
noncomputable def greenCorrection (c0 s0 : T4 ℝ) (zero nyq : Bool) (xk : Fin 3 → ℝ) (w : T2 ℝ) : T2 ℝ :=
  if zero then fun _ _ => 0
  else fun i j => ∑ k, ∑ l, greenOp c0 s0 nyq (unitFreq xk) i j k l * w k l

/-- The grid: numbers of points `npts1_g` … and spacings `delt`. -/
structure EvpGrid where
  n : Fin 3 → ℕ
  delt : Fin 3 → ℝ

namespace EvpGrid

/-- Index triples of points and of frequencies. -/
abbrev Ix (g : EvpGrid) := (a : Fin 3) → Fin (g.n a)

/-- Test for the highest frequency, inverse_the_greens.cpp:44-46. -/
def nyquist (g : EvpGrid) (k : g.Ix) : Bool :=
  ((k 0).val + 1 = g.n 0 / 2 + 1 && g.n 0 % 2 = 0) || ((k 1).val + 1 = g.n 1 / 2 + 1 && g.n 1 % 2 = 0) ||
    (g.n 2 > 1 && ((k 2).val + 1 = g.n 2 / 2 + 1 && g.n 2 % 2 = 0))

/-- Test for the zero frequency, inverse_the_greens.cpp:83-85. -/
def zeroFreq (g : EvpGrid) (k : g.Ix) : Bool :=
  (k 0).val + 1 = 1 && (k 1).val + 1 = 1 && (k 2).val + 1 = 1

/-- The three frequencies of an index triple, inverse_the_greens.cpp:30-32. -/
noncomputable def freq (g : EvpGrid) (k : g.Ix) : Fin 3 → ℝ := fun a => waveFreq (g.n a) (g.delt a) (k a)

/-- `exp(2πi Σ kₐ xₐ / nₐ)`. -/
noncomputable def chi (g : EvpGrid) (k x : g.Ix) : ℂ :=
  Complex.exp (2 * Real.pi * I * ∑ a, ((k a : ℕ) : ℂ) * ((x a : ℕ) : ℂ) / (g.n a : ℂ))

/-- Number of points. -/
def size (g : EvpGrid) : ℕ := g.n 0 * g.n 1 * g.n 2

/-- Forward transform of one component, forward_backward_fft.cpp:9-42. -/
noncomputable def forward (g : EvpGrid) (f : g.Ix → ℝ) (k : g.Ix) : ℂ :=
  ∑ x, (f x : ℂ) * (starRingEnd ℂ) (g.chi k x)

/-- Backward transform of one component with full scaling, forward_backward_fft.cpp:46-82 and
heffte_fft.h:158-161.  A transform to real numbers returns the real part. -/
noncomputable def backward (g : EvpGrid) (h : g.Ix → ℂ) (x : g.Ix) : ℝ :=
  ((1 / (g.size : ℂ)) * ∑ k, h k * g.chi k x).re

/-- `work`, `workim` after `inverse_the_greens`. -/
noncomputable def correctionHat (g : EvpGrid) (c0 s0 : T4 ℝ) (sg : g.Ix → T2 ℝ) (k : g.Ix) (i j : Fin 3) :
    ℂ :=
  ⟨greenCorrection c0 s0 (g.zeroFreq k) (g.nyquist k) (g.freq k)
      (fun a b => (g.forward (fun x => sg x a b) k).re) i j,
    greenCorrection c0 s0 (g.zeroFreq k) (g.nyquist k) (g.freq k)
      (fun a b => (g.forward (fun x => sg x a b) k).im) i j⟩

/-- `work` after `backward_fft`: the fluctuation added to the displacement gradient. -/
noncomputable def correction (g : EvpGrid) (c0 s0 : T4 ℝ) (sg : g.Ix → T2 ℝ) (x : g.Ix) : T2 ℝ :=
  fun i j => g.backward (fun k => g.correctionHat c0 s0 sg k i j) x

/-- `initialize_disgrad`, initialize_disgrad.cpp:9-19. -/
noncomputable def initializeDisgrad (g : EvpGrid) (dmac : T2 ℝ) (work disgrad : g.Ix → T2 ℝ) :
    g.Ix → T2 ℝ :=
  fun x i j => disgrad x i j + (dmac i j + work x i j)

end EvpGrid

end Fierro
