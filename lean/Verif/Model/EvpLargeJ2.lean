import Verif.Model.EvpLargeGrid
import Verif.Model.EvpLargeLaw

/-!
# LS-EVPFFT-J2: where the variant for isotropic plasticity departs from LS-EVPFFT

Models the functions of `apps/micromechanics/LS-EVPFFT-J2/src` that are not those of
`apps/micromechanics/LS-EVPFFT/src`: the motion of the nodes in `update_grid_velgrad.cpp`, the weights it
takes from `update_defgrad.cpp`, the test for the highest frequency in `inverse_the_greens.cpp` and the
stress equation of `evpal.cpp`.  All files cited here are those of the variant.  Transforms, grid and flow
rules are those of `EvpGreen.lean`, `EvpLargeGrid.lean` and `EvpLargeLaw.lean`.
-/

namespace Fierro.Large

/-- The part of the grid a rank holds: `local_start1` … and `npts1` … -/
structure RankBlock (g : EvpGrid) where
  start : Fin 3 → ℕ
  m : Fin 3 → ℕ
  inside : ∀ a, start a + m a ≤ g.n a

/-- `work(ii,1,i,j,k) = data(i,j,k)`, update_grid_velgrad.cpp:166-172: the points of the rank, counted on the
rank; the array has the size of the block (allocate_memory.cpp:129). -/
def blockOf {g : EvpGrid} {β : Type} (b : RankBlock g) (v : g.Ix → β) : (unitGrid b.m).Ix → β := fun y =>
  v fun a => ⟨b.start a + (y a).val, by have h1 := b.inside a; have h2 : (y a).val < b.m a := (y a).2; omega⟩

/-- `dvnode`, update_grid_velgrad.cpp:197-239: wrapped around at `npts1` …, the sizes of the block. -/
noncomputable def nodeVelocityJ2 {g : EvpGrid} (b : RankBlock g) (v : g.Ix → Fin 3 → ℝ) (i : Fin 3 → ℕ) :
    Option (Fin 3 → ℝ) :=
  nodeVelocity (unitGrid b.m) 0 (blockOf b v) i

/-- What a call of `update_grid_velgrad` finds: the time increment, `velgrad` and `defgrad`. -/
structure GridStep (g : EvpGrid) where
  dt : ℝ
  L : g.Ix → T2 ℝ
  F : g.Ix → T2 ℝ

namespace GridStep

variable {g : EvpGrid}

/-- `velgradref`, update_grid_velgrad.cpp:24-31. -/
def ref (s : GridStep g) : g.Ix → T2 ℝ := fun x => velgradRef (s.L x) (s.F x)

/-- `detFavg`, update_defgrad.cpp:133-134 and 163-164. -/
noncomputable def detAvg (s : GridStep g) : ℝ := ∑ x, det33 (Matrix.of (s.F x)) * wgt g.Ix

/-- `wgtc`, update_defgrad.cpp:101 and 201, set by the call that also set `defgrad`; before the first step
it is `wgt` and `defgrad` the unit matrix (evpfft.cpp:398-412), which is the same. -/
noncomputable def wgtc (s : GridStep g) (x : g.Ix) : ℝ := wgt g.Ix * det33 (Matrix.of (s.F x)) / s.detAvg

/-- `velgradrefavg`, update_grid_velgrad.cpp:33-58. -/
noncomputable def avg (s : GridStep g) : T2 ℝ := fun ii jj => ∑ x, s.ref x ii jj * s.wgtc x

end GridStep

/-- `xnode` of one node after `update_grid_velgrad`, update_grid_velgrad.cpp:9-249. -/
noncomputable def nodeStepJ2 {g : EvpGrid} (b : RankBlock g) (i : Fin 3 → ℕ) (xnode : Fin 3 → ℝ)
    (s : GridStep g) : Option (Fin 3 → ℝ) :=
  (nodeVelocityJ2 b (fluctuation g s.ref) i).map fun dv ii =>
    xnode ii + dv ii * s.dt + ∑ jj, s.avg ii jj * nodeRef i jj * s.dt

/-- `xnode` of one node after any number of steps; at the start evpfft.cpp:415-423. -/
noncomputable def nodeRunJ2 {g : EvpGrid} (b : RankBlock g) (i : Fin 3 → ℕ) (steps : List (GridStep g)) :
    Option (Fin 3 → ℝ) :=
  steps.foldlM (nodeStepJ2 b i) (nodeRef i)

/-! ### Green operator -/

/-- Test for the highest frequency, inverse_the_greens.cpp:44-46. -/
def nyquistJ2 (g : EvpGrid) (k : g.Ix) : Bool :=
  (k 0).val + 1 = g.n 0 / 2 + 1 || (k 1).val + 1 = g.n 1 / 2 + 1 || (g.n 2 > 1 && (k 2).val + 1 = g.n 2 / 2 + 1)

/-- `work`, `workim` after `inverse_the_greens`, inverse_the_greens.cpp:9-117. -/
noncomputable def correctionHatJ2 (g : EvpGrid) (c0 s0 : T4 ℝ) (sg : g.Ix → T2 ℝ) (k : g.Ix) (i j : Fin 3) : ℂ :=
  ⟨greenCorrection c0 s0 (g.zeroFreq k) (nyquistJ2 g k) (g.freq k)
      (fun a b => (g.forward (fun x => sg x a b) k).re) i j,
    greenCorrection c0 s0 (g.zeroFreq k) (nyquistJ2 g k) (g.freq k)
      (fun a b => (g.forward (fun x => sg x a b) k).im) i j⟩

/-- `work` after `backward_fft`. -/
noncomputable def correctionJ2 (g : EvpGrid) (c0 s0 : T4 ℝ) (sg : g.Ix → T2 ℝ) (x : g.Ix) : T2 ℝ :=
  fun i j => g.backward (fun k => correctionHatJ2 g c0 s0 sg k i j) x

/-! ### Stress equation -/

/-- `res`, evpal.cpp:258-264. -/
noncomputable def residualJ2 (d : EvpalIn) (x : Fin 6 → ℝ) : Fin 6 → ℝ := fun i =>
  x i - d.xlambda6 i + ∑ j, d.c066mod i j * (d.strainceq6 x j - d.strain6 j)

/-- `xjacobinv` before the inversion, evpal.cpp:293-303. -/
noncomputable def jacobianJ2 (d : EvpalIn) (T : Dense 6 ℝ) : Dense 6 ℝ := fun i j =>
  ((((i : ℕ) + 1) / ((j : ℕ) + 1) * (((j : ℕ) + 1) / ((i : ℕ) + 1)) : ℕ) : ℝ) +
    ∑ k, d.c066mod i k * (d.sg66 k j / d.tdot + T k j)

end Fierro.Large
