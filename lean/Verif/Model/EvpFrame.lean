import Verif.Model.EvpRotated

/-!
# LSNP-EVPFFT: velocities prescribed on the surface of the body (`ibc == 1`)

The body is a box of `m` voxels inside a grid of `n` points, surrounded by a frame of `d` voxels on every
side.  Models `init_Xvert`, `solve` and the outer loop of `evolve` of `evpfft.cpp`, `calc_velvert.cpp`,
`update_xvert.cpp`, `calc_vel_boundary_lin_el.cpp`, `calc_wfhat.cpp`, `calc_eigenvelgradref.cpp:7-187`,
`calc_vel_bc_error.cpp`, `calc_IC0a_inv.cpp`, the frame branch of `evpal.cpp` and the loop of
`read_classic_los_alamos_texture_file` marking the frame, all of `apps/micromechanics/LSNP-EVPFFT/src`.

One rank; exact arithmetic; points count from 0 where the code counts from 1.
-/

namespace Fierro.Lsnp

/-- Sizes of the body, `npts1_g - 2*dnpts1_g` …. -/
def bodySize (n d : Fin 3 → ℕ) (a : Fin 3) : ℤ := (n a : ℤ) - 2 * (d a : ℤ)

/-- `i_gs`, `j_gs`, `k_gs`, calc_eigenvelgradref.cpp:30-35 and calc_vel_boundary_lin_el.cpp:26-28. -/
def bodyIndex {n : Fin 3 → ℕ} (d : Fin 3 → ℕ) (x : (Large.unitGrid n).Ix) (a : Fin 3) : ℤ :=
  ((x a : ℕ) : ℤ) + 1 - (d a : ℤ)

/-- The test for a point on the surface of the body, calc_vel_boundary_lin_el.cpp:30-32 (again at 99-101,
calc_eigenvelgradref.cpp:37-39 and calc_vel_bc_error.cpp:41-43). -/
def onBoundary (m p : Fin 3 → ℤ) : Bool :=
  ((p 0 = 1 || p 0 = m 0 + 1) && (1 ≤ p 1 && p 1 ≤ m 0 + 1 && 1 ≤ p 2 && p 2 ≤ m 2 + 1)) ||
  ((p 1 = 1 || p 1 = m 1 + 1) && (1 ≤ p 0 && p 0 ≤ m 1 + 1 && 1 ≤ p 2 && p 2 ≤ m 2 + 1)) ||
  ((p 2 = 1 || p 2 = m 1 + 1) && (1 ≤ p 0 && p 0 ≤ m 1 + 1 && 1 ≤ p 1 && p 1 ≤ m 1 + 1))

/-- `Xvert`, evpfft.cpp:516-552. -/
noncomputable def vertex (m : Fin 3 → ℤ) (v : Fin 8) : Fin 3 → ℝ :=
  ![![0.5, 0.5, 0.5],
    ![1.0 * (m 0 : ℝ) + 0.5, 0.5, 0.5],
    ![1.0 * (m 0 : ℝ) + 0.5, 1.0 * (m 1 : ℝ) + 0.5, 0.5],
    ![0.5, 1.0 * (m 1 : ℝ) + 0.5, 0.5],
    ![0.5, 0.5, 1.0 * (m 2 : ℝ) + 0.5],
    ![1.0 * (m 0 : ℝ) + 0.5, 0.5, 1.0 * (m 2 : ℝ) + 0.5],
    ![1.0 * (m 0 : ℝ) + 0.5, 1.0 * (m 1 : ℝ) + 0.5, 1.0 * (m 2 : ℝ) + 0.5],
    ![0.5, 1.0 * (m 1 : ℝ) + 0.5, 1.0 * (m 2 : ℝ) + 0.5]] v

/-- `velvert`, calc_velvert.cpp:9-16. -/
noncomputable def velVert (udot : T2 ℝ) (xv : Fin 8 → Fin 3 → ℝ) (v : Fin 8) (i : Fin 3) : ℝ :=
  ∑ j, udot i j * xv v j

/-- `update_xvert`, update_xvert.cpp:9-13. -/
noncomputable def moveVert (tdot : ℝ) (vel xv : Fin 8 → Fin 3 → ℝ) (v : Fin 8) (i : Fin 3) : ℝ :=
  xv v i + vel v i * tdot

/-- The vertices at the start of each step, evpfft.cpp:735-750 and 704-711, one entry `(udot, tdot)` per step
made. -/
noncomputable def vertRun (m : Fin 3 → ℤ) : List (T2 ℝ × ℝ) → Fin 8 → Fin 3 → ℝ
  | [] => vertex m
  | s :: before => moveVert s.2 (velVert s.1 (vertRun m before)) (vertRun m before)

/-- `g`, `h`, `r`, calc_vel_boundary_lin_el.cpp:46-48. -/
noncomputable def localCoord (m p : ℤ) : ℝ := 2.0 * (p - 1 : ℤ) / (m : ℝ) - 1.0

/-- `phi`, calc_vel_boundary_lin_el.cpp:50-57. -/
noncomputable def shape (m p : Fin 3 → ℤ) (v : Fin 8) : ℝ :=
  let g := localCoord (m 0) (p 0)
  let h := localCoord (m 1) (p 1)
  let r := localCoord (m 2) (p 2)
  ![0.125 * (1.0 - g) * (1.0 - h) * (1.0 - r), 0.125 * (1.0 + g) * (1.0 - h) * (1.0 - r),
    0.125 * (1.0 + g) * (1.0 + h) * (1.0 - r), 0.125 * (1.0 - g) * (1.0 + h) * (1.0 - r),
    0.125 * (1.0 - g) * (1.0 - h) * (1.0 + r), 0.125 * (1.0 + g) * (1.0 - h) * (1.0 + r),
    0.125 * (1.0 + g) * (1.0 + h) * (1.0 + r), 0.125 * (1.0 - g) * (1.0 + h) * (1.0 + r)] v

/-- `velapp_node` before its mean is removed, calc_vel_boundary_lin_el.cpp:59-64. -/
noncomputable def surfVel (m p : Fin 3 → ℤ) (vel : Fin 8 → Fin 3 → ℝ) (i : Fin 3) : ℝ :=
  ∑ v, vel v i * shape m p v

section
variable {n : Fin 3 → ℕ}

/-- Whether a point lies on the surface of the body according to the code. -/
def onSurf (d : Fin 3 → ℕ) (x : (Large.unitGrid n).Ix) : Bool := onBoundary (bodySize n d) (bodyIndex d x)

/-- `velappavg`, calc_vel_boundary_lin_el.cpp:66-90: sums over the points of the surface. -/
noncomputable def surfMean (d : Fin 3 → ℕ) (f : (Large.unitGrid n).Ix → ℝ) : ℝ :=
  (∑ x, if onSurf d x then f x else 0) / ∑ x, if onSurf (n := n) d x then (1.0 : ℝ) else 0

/-- `velapp_node` after `calc_vel_boundary_lin_el`, calc_vel_boundary_lin_el.cpp:9-121; points off the surface
keep what they had. -/
noncomputable def boundaryVel (d : Fin 3 → ℕ) (vel : Fin 8 → Fin 3 → ℝ)
    (old : (Large.unitGrid n).Ix → Fin 3 → ℝ) (x : (Large.unitGrid n).Ix) (i : Fin 3) : ℝ :=
  if onSurf d x then
    surfVel (bodySize n d) (bodyIndex d x) vel i -
      surfMean d fun y : (Large.unitGrid n).Ix => surfVel (bodySize n d) (bodyIndex d y) vel i
  else old x i

/-- `x(1)`, `x(2)`, `x(3)`, calc_wfhat.cpp:27-49; `kx_g` counts from 1. -/
def wrapDist (n kg : ℕ) : ℤ := if kg ≤ n / 2 then (kg : ℤ) - 1 else (kg : ℤ) - n - 1

/-- `data`, the weights before the transform, calc_wfhat.cpp:51-56. -/
noncomputable def weight (x : (Large.unitGrid n).Ix) : ℝ :=
  let xn2 := ((wrapDist (n 0) ((x 0 : ℕ) + 1) : ℤ) : ℝ) ^ 2 + ((wrapDist (n 1) ((x 1 : ℕ) + 1) : ℤ) : ℝ) ^ 2 +
    ((wrapDist (n 2) ((x 2 : ℕ) + 1) : ℤ) : ℝ) ^ 2
  if xn2 > 0 then 1.0 / xn2 ^ 2 else 0.0

/-- `indf`, calc_eigenvelgradref.cpp:37-51. -/
def indf (d : Fin 3 → ℕ) (x : (Large.unitGrid n).Ix) : Bool :=
  if onSurf d x then true
  else if (x 0 : ℕ) + 1 = 1 || (x 1 : ℕ) + 1 = 1 || (x 2 : ℕ) + 1 = 1 then true
  else false

/-- Transform, product with `wfhat`, transform back, calc_eigenvelgradref.cpp:57-91 and 118-158. -/
noncomputable def convolve (f : (Large.unitGrid n).Ix → ℝ) (x : (Large.unitGrid n).Ix) : ℝ :=
  (Large.unitGrid n).backward (fun k => (Large.unitGrid n).forward f k * (Large.unitGrid n).forward weight k) x

/-- `velapp_node` after the interpolation, calc_eigenvelgradref.cpp:93-187; `none` is a division by zero of a
number that is used. -/
noncomputable def interpolate (d : Fin 3 → ℕ) (v : (Large.unitGrid n).Ix → Fin 3 → ℝ)
    (x : (Large.unitGrid n).Ix) (i : Fin 3) : Option ℝ :=
  if indf d x then some (v x i)
  else
    let den := convolve (fun y => if indf d y then (1.0 : ℝ) else 0.0) x
    if den = 0 then none
    else some (convolve (fun y => v y i * if indf d y then (1.0 : ℝ) else 0.0) x * (1.0 / den))

/-- Length of a vector, `SQRT(POW2 …)`. -/
noncomputable def len3 (w : Fin 3 → ℝ) : ℝ := Real.sqrt (w 0 ^ 2 + w 1 ^ 2 + w 2 ^ 2)

/-- `err_disp_bc_vel`, calc_vel_bc_error.cpp:8-131; `none` is a division by zero. -/
noncomputable def bcError (d : Fin 3 → ℕ) (vel app : (Large.unitGrid n).Ix → Fin 3 → ℝ) : Option ℝ :=
  let count := ∑ x, if onSurf (n := n) d x then (1.0 : ℝ) else 0
  if count = 0 then none
  else
    let va := fun i => surfMean d fun x => vel x i
    let aa := fun i => surfMean d fun x => app x i
    let veln := (∑ x, if onSurf d x then len3 (fun i => app x i - aa i) else 0) / count
    let dveln := (∑ x, if onSurf d x then len3 (fun i => (app x i - aa i) - (vel x i - va i)) else 0) / count
    if veln = 0 then none else some (dveln / veln)

end

/-! ### The frame -/

/-- Points read from the texture file, `iframe` 0, data_grain.cpp:197-214, counted from 0. -/
def insideRead (n d : Fin 3 → ℕ) (p : Fin 3 → ℕ) : Bool :=
  (d 0 ≤ p 0 && (p 0 : ℤ) < (n 0 : ℤ) - d 0) && (d 1 ≤ p 1 && (p 1 : ℤ) < (n 1 : ℤ) - d 2) &&
    (d 2 ≤ p 2 && (p 2 : ℤ) < (n 2 : ℤ) - d 2)

/-- `s66`, calc_IC0a_inv.cpp:14-18. -/
noncomputable def frameCompliance (df : Dense 6 ℝ) (frame_c : ℝ) : Dense 6 ℝ := fun i j => df i j / frame_c

/-- `IC0a66_inv` before the inversion, calc_IC0a_inv.cpp:23-34. -/
noncomputable def frameMatrix (c066 s66 : Dense 6 ℝ) : Dense 6 ℝ := fun i j =>
  (∑ k, c066 i k * s66 k j) + if i = j then 1.0 else 0

/-- `Cinv_sgPK1old` of a frame point, calc_IC0a_inv.cpp:39-60. -/
noncomputable def frameOld (q : BasisConst ℝ) (s66 : Dense 6 ℝ) (sgOld : T2 ℝ) : T2 ℝ := fun i j =>
  ∑ k, ∑ l, chgBasis3 q le_rfl s66 i j k l * sgOld k l

/-- `sgPK1` of a frame point after one iteration, evpal.cpp:361-390. -/
noncomputable def frameStress (q : BasisConst ℝ) (c066 s66 : Dense 6 ℝ) (velref eig sgOld sg : T2 ℝ) : T2 ℝ :=
  let rhs : T2 ℝ := fun i j => sg i j +
    ∑ k, ∑ l, chgBasis3 q le_rfl c066 i j k l * (velref k l - (eig k l - frameOld q s66 sgOld k l))
  fun i j => ∑ k, ∑ l, chgBasis3 q le_rfl (invertView (frameMatrix c066 s66)) i j k l * rhs k l

/-! ### The outer loop -/

/-- `frame_c` and `mult_incr_accum`. -/
structure FrameStiff where
  c : ℝ
  accum : ℝ

/-- The two updates at the start of a pass, evpfft.cpp:596-598. -/
noncomputable def FrameStiff.raise (incr mx : ℝ) (iterOut : ℕ) (s : FrameStiff) : FrameStiff :=
  let c := if iterOut > 1 ∧ s.accum < mx then s.c * incr else s.c
  let a := if iterOut > 1 ∧ s.accum < mx then s.accum * incr else s.accum
  ⟨c, a⟩

open Classical in
/-- The outer loop of `evolve`, evpfft.cpp:589-692: `body` makes one pass and gives the error after it.  Result:
the number of passes, the state, the last error. -/
noncomputable def outerLoop {σ : Type} (itmin itmax : ℕ) (tol : ℝ) (body : ℕ → σ → σ × ℝ) (iterOut : ℕ) (s : σ)
    (err : ℝ) : ℕ × σ × ℝ :=
  if (iterOut ≤ itmax ∧ err > tol) ∨ iterOut < itmin then
    outerLoop itmin itmax tol body (iterOut + 1) (body (iterOut + 1) s).1 (body (iterOut + 1) s).2
  else (iterOut, s, err)
termination_by max (itmax + 1) itmin - iterOut
decreasing_by all_goals omega

end Fierro.Lsnp
