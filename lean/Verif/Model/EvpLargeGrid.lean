import Mathlib.Analysis.SpecialFunctions.Trigonometric.Arctan
import Verif.Model.EvpGreen
import Verif.Model.EvpLarge

/-!
# LS-EVPFFT: motion of the grid nodes and the points written to the output

Models `update_grid_velgrad.cpp`, the nodes of `init_defgrad` (`evpfft.cpp`) and the point positions of
`write_micro_state_pvtu` (`write_micro_state.cpp`) of `apps/micromechanics/LS-EVPFFT/src`.

The transforms are those of `Model/EvpGreen.lean`; frequencies carry no spacing here (evpfft.cpp:179-195),
so the grids have spacing one.  Reading a point that does not exist is `none`.
-/

namespace Fierro.Large

/-- The grid of `npts1_g`, `npts2_g`, `npts3_g` points, frequencies as in evpfft.cpp:176-195. -/
def unitGrid (n : Fin 3 → ℕ) : EvpGrid := ⟨n, fun _ => 1⟩

/-- `velgradref`, update_grid_velgrad.cpp:24-31. -/
def velgradRef (L F : T2 ℝ) : T2 ℝ := fun ii jj => ∑ kk, L ii kk * F kk jj

/-- `velgradrefavg`, update_grid_velgrad.cpp:33-58. -/
noncomputable def refAvg {g : EvpGrid} (ref : g.Ix → T2 ℝ) : T2 ℝ := fun ii jj =>
  ∑ x, ref x ii jj * wgt g.Ix

/-- `xk`, update_grid_velgrad.cpp:18 and 108-110. -/
noncomputable def gridFreq (g : EvpGrid) (k : g.Ix) : Fin 3 → ℝ := fun a => 8 * Real.arctan 1 * g.freq k a

/-- `velhatr`, `velhatim`, update_grid_velgrad.cpp:108-131. -/
noncomputable def velHat (xk : Fin 3 → ℝ) (w : Fin 3 → Fin 3 → ℂ) (ii : Fin 3) : ℂ :=
  let xkxk := xk 0 * xk 0 + xk 1 * xk 1 + xk 2 * xk 2
  if xkxk > 0 then
    ⟨∑ jj, (w ii jj).im * xk jj / xkxk, ∑ jj, -(w ii jj).re * xk jj / xkxk⟩
  else 0

/-- The fluctuating velocity of all grid points, update_grid_velgrad.cpp:60-172. -/
noncomputable def fluctuation (g : EvpGrid) (ref : g.Ix → T2 ℝ) (x : g.Ix) (ii : Fin 3) : ℝ :=
  g.backward (fun k => velHat (gridFreq g k) (fun a b => g.forward (fun y => ref y a b) k) ii) x

/-- `workG` at a point counted from 1. -/
def readPoint (g : EvpGrid) (v : g.Ix → Fin 3 → ℝ) (p : Fin 3 → ℕ) : Option (Fin 3 → ℝ) :=
  if h : ∀ a, 1 ≤ p a ∧ p a ≤ g.n a then some (v fun a => ⟨p a - 1, by have := h a; omega⟩) else none

/-- `iv1`, `iv2` of a node counted from 1, update_grid_velgrad.cpp:197-228. -/
def besideNode (n i : ℕ) : ℕ × ℕ := if i = 1 then (n, 1) else if i = n + 1 then (n, 1) else (i - 1, i)

/-- The eight points around a node in the order of the sum, update_grid_velgrad.cpp:234-239. -/
def aroundNode (b : Fin 3 → ℕ × ℕ) : List (Fin 3 → ℕ) :=
  [![(b 0).1, (b 1).1, (b 2).1], ![(b 0).2, (b 1).1, (b 2).1], ![(b 0).1, (b 1).2, (b 2).1],
   ![(b 0).2, (b 1).2, (b 2).1], ![(b 0).1, (b 1).1, (b 2).2], ![(b 0).2, (b 1).1, (b 2).2],
   ![(b 0).1, (b 1).2, (b 2).2], ![(b 0).2, (b 1).2, (b 2).2]]

/-- Mean of the values at eight points, update_grid_velgrad.cpp:234-239. -/
noncomputable def eighth (read : (Fin 3 → ℕ) → Option (Fin 3 → ℝ)) (ps : List (Fin 3 → ℕ)) :
    Option (Fin 3 → ℝ) :=
  (ps.mapM read).map fun vs ii => 0.125 * (vs.map fun v => v ii).sum

/-- `dvnode`, update_grid_velgrad.cpp:197-239; `start` is `local_start1` … of the rank. -/
noncomputable def nodeVelocity (g : EvpGrid) (start : Fin 3 → ℕ) (v : g.Ix → Fin 3 → ℝ) (i : Fin 3 → ℕ) :
    Option (Fin 3 → ℝ) :=
  eighth (readPoint g v) (aroundNode fun a => besideNode (g.n a) (i a + start a))

/-- `Xnode_ref`, update_grid_velgrad.cpp:230-232, and `x`, evpfft.cpp:446-448: the index on the rank. -/
noncomputable def nodeRef (i : Fin 3 → ℕ) : Fin 3 → ℝ := fun a => (i a : ℝ) - 0.5

/-- `xnode` of one node after `update_grid_velgrad`, update_grid_velgrad.cpp:9-251. -/
noncomputable def nodeStep (g : EvpGrid) (start : Fin 3 → ℕ) (i : Fin 3 → ℕ) (xnode : Fin 3 → ℝ)
    (s : ℝ × (g.Ix → T2 ℝ)) : Option (Fin 3 → ℝ) :=
  (nodeVelocity g start (fluctuation g s.2) i).map fun dv ii =>
    xnode ii + dv ii * s.1 + ∑ jj, refAvg s.2 ii jj * nodeRef i jj * s.1

/-- `xnode` of one node before the first step, evpfft.cpp:446-455. -/
noncomputable def nodeStart (delt : Fin 3 → ℝ) (i : Fin 3 → ℕ) : Fin 3 → ℝ := fun ii =>
  ∑ jj, deltM delt ii jj * nodeRef i jj

/-- `xnode` of one node after any number of steps, each with its time increment and field of
`velgradref`. -/
noncomputable def nodeRun (g : EvpGrid) (delt : Fin 3 → ℝ) (start i : Fin 3 → ℕ)
    (steps : List (ℝ × (g.Ix → T2 ℝ))) : Option (Fin 3 → ℝ) :=
  steps.foldlM (nodeStep g start i) (nodeStart delt i)

/-! ### Points written to the output -/

/-- `uf` of a point of the rank that holds the whole grid, write_micro_state.cpp:517-534. -/
def outFluct (favg : T2 ℝ) (xnode : (Fin 3 → ℕ) → Fin 3 → ℝ) (p : Fin 3 → ℕ) : Fin 3 → ℝ := fun ii =>
  xnode p ii - ∑ jj, favg ii jj * (p jj : ℝ)

/-- `kxn1`, `kxn2`, write_micro_state.cpp:551-581. -/
def besideOut (n k : ℕ) : ℕ × ℕ := if k = 1 then (k, n) else if k = n + 1 then (1, n) else (k, k - 1)

/-- Reading `uf`, an array over the points. -/
def readFluct (n : Fin 3 → ℕ) (uf : (Fin 3 → ℕ) → Fin 3 → ℝ) (p : Fin 3 → ℕ) : Option (Fin 3 → ℝ) :=
  if ∀ a, 1 ≤ p a ∧ p a ≤ n a then some (uf p) else none

/-- `xintp`, write_micro_state.cpp:505-613, on a single rank; `delt_dual(ii)` is `delt(3)` for all `ii`
(line 508). -/
noncomputable def outPoint (n : Fin 3 → ℕ) (delt : Fin 3 → ℝ) (favg : T2 ℝ)
    (xnode : (Fin 3 → ℕ) → Fin 3 → ℝ) (k : Fin 3 → ℕ) : Option (Fin 3 → ℝ) :=
  (eighth (readFluct n (outFluct favg xnode)) (aroundNode fun a => besideOut (n a) (k a))).map
    fun uf ii => (∑ jj, favg ii jj * ((k jj : ℝ) - 0.5) + uf ii) * delt 2

end Fierro.Large
