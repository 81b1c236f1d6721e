import Verif.Model.EvpGreen
import Verif.Model.EvpLargeLaw

/-!
# LS-EVPFFT: reference stiffness and Green operator in the deformed configuration, current stiffness

Models `calc_c066mod.cpp`, `calc_Goperr0.cpp`, `update_el_stiff.cpp` and `init_c0_s0`, `deinit_c0_s0` of
`evpfft.cpp` of `apps/micromechanics/LS-EVPFFT/src`.  The copies between host and device are left out
(`Goperr0` is filled on the host and read in a kernel).
-/

namespace Fierro.Large

/-- `c0mod`, calc_c066mod.cpp:30-44. -/
noncomputable def c0mod (c0 : T4 ℝ) (F : T2 ℝ) (detF : ℝ) : T4 ℝ := fun i j k l =>
  (∑ m, ∑ n, c0 i m k n * F j m * F l n) / detF

/-- Symmetrisation, calc_c066mod.cpp:46-55 and 91-100. -/
noncomputable def minorSym (c : T4 ℝ) : T4 ℝ := fun i j k l =>
  1 / 4 * (c i j k l + c j i k l + c i j l k + c j i l k)

/-- `c066mod`, calc_c066mod.cpp:29-63. -/
noncomputable def c066mod (q : BasisConst ℝ) (c0 : T4 ℝ) (F : T2 ℝ) (detF : ℝ) : Dense 6 ℝ :=
  chgBasis4 q le_rfl (minorSym (c0mod c0 F detF))

/-- `Goperr0mod`, calc_c066mod.cpp:75-89. -/
noncomputable def goperr0mod (g0 : T4 ℝ) (Finv : T2 ℝ) (detF : ℝ) : T4 ℝ := fun i j k l =>
  (∑ m, ∑ n, g0 i m k n * Finv m j * Finv n l) * detF

/-- `Goperr066mod`, calc_c066mod.cpp:65-102. -/
noncomputable def goperr066mod (q : BasisConst ℝ) (g0 : T4 ℝ) (Finv : T2 ℝ) (detF : ℝ) : Dense 6 ℝ :=
  chgBasis4 q le_rfl (minorSym (goperr0mod g0 Finv detF))

/-- `Goperr0`, calc_Goperr0.cpp:14-164: for every pair of components the operator of all frequencies is
transformed back and the value at the first grid point kept.  At frequency zero the matrix that is inverted
is zero; it is multiplied by zero afterwards. -/
noncomputable def goperr0 (g : EvpGrid) (c0 s0 : T4 ℝ) (origin : g.Ix) : T4 ℝ := fun i ii j jj =>
  g.backward (fun k => (greenOp c0 s0 (g.nyquist k) (unitFreq (g.freq k)) i ii j jj : ℂ)) origin

/-- `cg66` of a point that is not gas, update_el_stiff.cpp:49-112; `R` is the rotation of the elastic
part. -/
noncomputable def currentStiff (q : BasisConst ℝ) (cc : T4 ℝ) (R ag : T2 ℝ) : Dense 6 ℝ :=
  let aa : T2 ℝ := fun i j => ∑ k, R i k * ag k j
  chgBasis4 q le_rfl fun i1 j1 k1 l1 =>
    ∑ i2, ∑ j2, ∑ k2, ∑ l2, aa i1 i2 * aa j1 j2 * cc i2 j2 k2 l2 * aa k1 k2 * aa l1 l2

/-- `c0` and `s0`. -/
structure Reference where
  c0 : T4 ℝ
  s0 : T4 ℝ

/-- `init_c0_s0`, evpfft.cpp:347-371. -/
noncomputable def Reference.init (r : Reference) (tdot : ℝ) : Reference :=
  ⟨fun i j k l => r.c0 i j k l * tdot, fun i j k l => r.s0 i j k l / tdot⟩

/-- `deinit_c0_s0`, evpfft.cpp:373-397. -/
noncomputable def Reference.deinit (r : Reference) (tdot : ℝ) : Reference :=
  ⟨fun i j k l => r.c0 i j k l / tdot, fun i j k l => r.s0 i j k l * tdot⟩

/-- The reference medium over a list of steps with these time increments, evpfft.cpp:473 and 589; nothing
between the two calls changes it (`calc_c0` is commented out, 588). -/
noncomputable def Reference.run (r : Reference) (steps : List ℝ) : Reference :=
  steps.foldl (fun r t => (r.init t).deinit t) r

end Fierro.Large
