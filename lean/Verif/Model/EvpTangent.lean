import Verif.Model.EvpFrame

/-!
# LSNP-EVPFFT: the reference medium between steps

Models `calc_c0.cpp`, `init_c0_s0` and `deinit_c0_s0` of `evpfft.cpp` and the last part of `data_grain.cpp`, all of
`apps/micromechanics/LSNP-EVPFFT/src`.  Exact arithmetic; the sum over points and ranks is a finite sum.
-/

namespace Fierro.Lsnp

/-- What `calc_c0` reads of a grid point. -/
structure MediumPoint where
  frame : Bool
  gas : Bool
  cg66 : Dense 6 ℝ
  sg : T2 ℝ
  sys : List SlipState
  Finv : T2 ℝ
  detF : ℝ

/-- `dsg6_de6` after the inversion, calc_c0.cpp:55-143. -/
noncomputable def pointTangent (q : BasisConst ℝ) (tdot : ℝ) (p : MediumPoint) : Dense 6 ℝ :=
  invertView fun i j => plasticTangent66 p.sys (chgBasis2 q le_rfl p.sg) i j + invertView p.cg66 i j / tdot

/-- `dPg_dF`, calc_c0.cpp:147-160. -/
noncomputable def dPdF (ds : T4 ℝ) (Finv : T2 ℝ) (detF : ℝ) : T4 ℝ := fun i j k l =>
  ∑ p, ∑ r, ds i p k r * Finv j p * Finv l r * detF

/-- `dPg6_dF6`, calc_c0.cpp:145-162. -/
noncomputable def pointMedium (q : BasisConst ℝ) (tdot : ℝ) (p : MediumPoint) : Dense 6 ℝ :=
  chgBasis4 q le_rfl (dPdF (chgBasis3 q le_rfl (pointTangent q tdot p)) p.Finv p.detF)

/-- `dP6_dF6`, calc_c0.cpp:22-194. -/
noncomputable def meanMedium {ι : Type} [Fintype ι] (q : BasisConst ℝ) (tdot wgt : ℝ) (pts : ι → MediumPoint) :
    Dense 6 ℝ := fun i j =>
  ∑ x, if (pts x).frame = false then (if (pts x).gas = false then pointMedium q tdot (pts x) i j * wgt else 0) else 0

/-- `c066`, `dF6_dP6`, `c0`, `s0`. -/
structure Medium where
  c066 : Dense 6 ℝ
  df : Dense 6 ℝ
  c0 : T4 ℝ
  s0 : T4 ℝ

/-- The medium at the start, data_grain.cpp:134-172, from the average stiffness. -/
noncomputable def Medium.start (q : BasisConst ℝ) (c : Dense 6 ℝ) : Medium :=
  ⟨c, invertView c, chgBasis3 q le_rfl c, chgBasis3 q le_rfl (invertView c)⟩

/-- `calc_c0`, calc_c0.cpp:196-222. -/
noncomputable def calcMedium {ι : Type} [Fintype ι] (q : BasisConst ℝ) (tdot wgt xc0 : ℝ) (pts : ι → MediumPoint) :
    Medium :=
  let m := meanMedium q tdot wgt pts
  let s := invertView m
  let c066 : Dense 6 ℝ := fun i j => m i j * xc0
  let s066 : Dense 6 ℝ := fun i j => s i j / xc0
  ⟨c066, s, chgBasis3 q le_rfl c066, chgBasis3 q le_rfl s066⟩

/-- `init_c0_s0`, evpfft.cpp:372-397. -/
noncomputable def Medium.init (r : Medium) (tdot : ℝ) : Medium :=
  ⟨fun i j => r.c066 i j * tdot, fun i j => r.df i j / tdot, fun i j k l => r.c0 i j k l * tdot,
    fun i j k l => r.s0 i j k l / tdot⟩

/-- `deinit_c0_s0`, evpfft.cpp:399-424. -/
noncomputable def Medium.deinit (r : Medium) (tdot : ℝ) : Medium :=
  ⟨fun i j => r.c066 i j / tdot, fun i j => r.df i j * tdot, fun i j k l => r.c0 i j k l / tdot,
    fun i j k l => r.s0 i j k l * tdot⟩

/-- The medium between steps, evpfft.cpp:567-718; a step has a length and the points at its end. -/
noncomputable def Medium.run {ι : Type} [Fintype ι] (q : BasisConst ℝ) (wgt xc0 : ℝ) (r : Medium) :
    List (ℝ × (ι → MediumPoint)) → Medium
  | [] => r
  | s :: rest => Medium.run q wgt xc0 ((calcMedium q s.1 wgt xc0 s.2).deinit s.1) rest

end Fierro.Lsnp
