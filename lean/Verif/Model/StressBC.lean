import Mathlib.Algebra.Field.Basic
import Mathlib.Data.Fin.VecNotation
import Mathlib.Data.List.FinRange
import Mathlib.Analysis.SpecialFunctions.Exp
import Verif.Model.Parallel

/-!
# Stress boundary conditions of the 3D solver

Models `boundary_stress`, Solvers/SGH_solver_3D/src/boundary.cpp:161-297, and the models it calls in
boundary_conditions/stress.
-/

namespace Fierro

section field
variable {K : Type} [Field K] {N : ℕ}

/-- `avg_coords`, boundary.cpp:185-203 (four nodes per patch). -/
def patchCentre (coords : Fin N → Fin 3 → K) (p : Fin 4 → Fin N) (d : Fin 3) : K :=
  (List.finRange 4).foldl (fun acc l => acc + coords (p l) d) 0 / 4

/-- Cross product of boundary.cpp:238-240. -/
def crossK (a b : Fin 3 → K) : Fin 3 → K :=
  ![a 1 * b 2 - a 2 * b 1, a 2 * b 0 - a 0 * b 2, a 0 * b 1 - a 1 * b 0]

/-- `corn_patch_area_normal`, boundary.cpp:207-247 (four nodes per patch). -/
def cornerPatchNormal (coords : Fin N → Fin 3 → K) (p : Fin 4 → Fin N) (d : Fin 3) : K :=
  (List.finRange 4).foldl (fun acc l =>
    let n0 := p l
    let n1 := if l.val < 3 then p (l + 1) else p 0
    acc + crossK (fun d => coords n0 d - patchCentre coords p d)
      (fun d => coords n1 d - patchCentre coords p d) d) 0 / 8

/-- Stress of constant_stress_bc.hpp:47-55 and 88-100 from the six global variables (`sig_00`,
`sig_11`, `sig_22`, `sig_12`, `sig_02`, `sig_01`). -/
def bcStress (s : Fin 6 → K) : Fin 3 → Fin 3 → K :=
  ![![s 0, s 5, s 4], ![s 5, s 1, s 3], ![s 4, s 3, s 2]]

/-- `ConstantStressBC::stress`, constant_stress_bc.hpp:73-114; the force starts from zero
(boundary.cpp:216). -/
def constantStress (s : Fin 6 → K) (normal : Fin 3 → K) (i : Fin 3) : K :=
  (List.finRange 3).foldl (fun acc j => acc + bcStress s i j * normal j) 0

/-- A stress boundary set: the patches and the force of a corner patch as a function of time and
corner normal. -/
structure StressSet (K : Type) (N : ℕ) where
  patches : List (Fin 4 → Fin N)
  force : K → (Fin 3 → K) → Fin 3 → K

/-- One iteration of the patch loop, boundary.cpp:279-289. -/
def addPatchForce (f : (Fin 3 → K) → Fin 3 → K) (coords : Fin N → Fin 3 → K)
    (F : Fin N → Fin 3 → K) (p : Fin 4 → Fin N) : Fin N → Fin 3 → K :=
  (List.finRange 4).foldl (fun F l =>
    Function.update F (p l) fun d => F (p l) d + f (cornerPatchNormal coords p) d) F

/-- `boundary_stress`, boundary.cpp:161-297, into an array that was set to zero
(sgh_execute.cpp:386). -/
def boundaryStress (sets : List (StressSet K N)) (time : K) (coords : Fin N → Fin 3 → K) :
    Fin N → Fin 3 → K :=
  sets.foldl (fun F s => s.patches.foldl (addPatchForce (s.force time) coords) F) fun _ _ => 0

end field

/-- `TimeVaryingStressBC::stress`, time_varying_stress_bc.hpp:78-140; `decay`, `t0`, `t1` are
`var_decay`, `time_start`, `time_end`. -/
noncomputable def timeVaryingStress (s : Fin 6 → ℝ) (decay t0 t1 : ℝ) (time : ℝ)
    (normal : Fin 3 → ℝ) (i : Fin 3) : ℝ :=
  if t0 ≤ time ∧ time ≤ t1 then
    (List.finRange 3).foldl (fun acc j =>
      acc + Real.exp (-decay * (time - t0)) * bcStress s i j * normal j) 0
  else 0

end Fierro
