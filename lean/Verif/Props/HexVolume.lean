import Verif.Model.Geometry
import Verif.Proofs.Simpson
import Mathlib.Tactic.FinCases

/-!
# C08 (continued): the volume formula is the volume of the trilinear hexahedron

The hexahedron with nodes `x y z` is the image of the unit cube under the trilinear map of its
nodes (i-fastest node order).  Its (signed) volume is the integral of the Jacobian determinant.
-/

namespace Fierro
open intervalIntegral

/-- Trilinear interpolation of nodal values, node order i-fastest (specification). -/
noncomputable def trilinear (f : Fin 8 → ℝ) (s t u : ℝ) : ℝ :=
  f 0 * ((1 - s) * (1 - t) * (1 - u)) + f 1 * (s * (1 - t) * (1 - u))
    + f 2 * ((1 - s) * t * (1 - u)) + f 3 * (s * t * (1 - u))
    + f 4 * ((1 - s) * (1 - t) * u) + f 5 * (s * (1 - t) * u)
    + f 6 * ((1 - s) * t * u) + f 7 * (s * t * u)

/-- Partial derivatives of the trilinear interpolation (specification). -/
noncomputable def dS (f : Fin 8 → ℝ) (s t u : ℝ) : ℝ := deriv (fun s => trilinear f s t u) s
noncomputable def dT (f : Fin 8 → ℝ) (s t u : ℝ) : ℝ := deriv (fun t => trilinear f s t u) t
noncomputable def dU (f : Fin 8 → ℝ) (s t u : ℝ) : ℝ := deriv (fun u => trilinear f s t u) u

/-- Jacobian determinant of the map from the unit cube to the hexahedron (specification). -/
noncomputable def jac3 (x y z : Fin 8 → ℝ) (s t u : ℝ) : ℝ :=
  dS x s t u * (dT y s t u * dU z s t u - dU y s t u * dT z s t u)
    - dT x s t u * (dS y s t u * dU z s t u - dU y s t u * dS z s t u)
    + dU x s t u * (dS y s t u * dT z s t u - dT y s t u * dS z s t u)

/-- Monomial coefficients of the trilinear interpolation. -/
private noncomputable def cf (f : Fin 8 → ℝ) : Fin 8 → ℝ
  | 0 => f 0
  | 1 => f 1 - f 0
  | 2 => f 2 - f 0
  | 3 => f 3 - f 1 - f 2 + f 0
  | 4 => f 4 - f 0
  | 5 => f 5 - f 4 - f 1 + f 0
  | 6 => f 6 - f 4 - f 2 + f 0
  | 7 => f 7 - f 6 - f 5 + f 4 - f 3 + f 2 + f 1 - f 0

private theorem deriv_affine (a b s : ℝ) (g : ℝ → ℝ) (h : ∀ t, g t = a + b * t) :
    deriv g s = b := by
  rw [show g = fun t => a + b * t from funext h]
  have h1 : HasDerivAt (fun t : ℝ => a + b * t) b s := by
    simpa using ((hasDerivAt_id s).const_mul b).const_add a
  exact h1.deriv

private theorem dS_eq (f : Fin 8 → ℝ) (s t u : ℝ) :
    dS f s t u = cf f 1 + cf f 3 * t + cf f 5 * u + cf f 7 * t * u := by
  unfold dS
  apply deriv_affine (cf f 0 + cf f 2 * t + cf f 4 * u + cf f 6 * t * u)
  intro v; simp only [trilinear, cf]; ring

private theorem dT_eq (f : Fin 8 → ℝ) (s t u : ℝ) :
    dT f s t u = cf f 2 + cf f 3 * s + cf f 6 * u + cf f 7 * s * u := by
  unfold dT
  apply deriv_affine (cf f 0 + cf f 1 * s + cf f 4 * u + cf f 5 * s * u)
  intro v; simp only [trilinear, cf]; ring

private theorem dU_eq (f : Fin 8 → ℝ) (s t u : ℝ) :
    dU f s t u = cf f 4 + cf f 5 * s + cf f 6 * t + cf f 7 * s * t := by
  unfold dU
  apply deriv_affine (cf f 0 + cf f 1 * s + cf f 2 * t + cf f 3 * s * t)
  intro v; simp only [trilinear, cf]; ring

/-- Nodal values from monomial coefficients. -/
private noncomputable def nodal (a : Fin 8 → ℝ) : Fin 8 → ℝ
  | 0 => a 0
  | 1 => a 0 + a 1
  | 2 => a 0 + a 2
  | 3 => a 0 + a 1 + a 2 + a 3
  | 4 => a 0 + a 4
  | 5 => a 0 + a 1 + a 4 + a 5
  | 6 => a 0 + a 2 + a 4 + a 6
  | 7 => a 0 + a 1 + a 2 + a 3 + a 4 + a 5 + a 6 + a 7

private theorem nodal_cf (f : Fin 8 → ℝ) : nodal (cf f) = f := by
  funext n; fin_cases n <;> simp only [nodal, cf, Fin.isValue, Fin.mk_one, Fin.zero_eta,
    Fin.reduceFinMk] <;> ring

/-- The Jacobian determinant as a polynomial in the monomial coefficients. -/
private noncomputable def jacPoly (a b c : Fin 8 → ℝ) (s t u : ℝ) : ℝ :=
  (a 1 + a 3 * t + a 5 * u + a 7 * t * u) *
      ((b 2 + b 3 * s + b 6 * u + b 7 * s * u) * (c 4 + c 5 * s + c 6 * t + c 7 * s * t)
       - (b 4 + b 5 * s + b 6 * t + b 7 * s * t) * (c 2 + c 3 * s + c 6 * u + c 7 * s * u))
    - (a 2 + a 3 * s + a 6 * u + a 7 * s * u) *
      ((b 1 + b 3 * t + b 5 * u + b 7 * t * u) * (c 4 + c 5 * s + c 6 * t + c 7 * s * t)
       - (b 4 + b 5 * s + b 6 * t + b 7 * s * t) * (c 1 + c 3 * t + c 5 * u + c 7 * t * u))
    + (a 4 + a 5 * s + a 6 * t + a 7 * s * t) *
      ((b 1 + b 3 * t + b 5 * u + b 7 * t * u) * (c 2 + c 3 * s + c 6 * u + c 7 * s * u)
       - (b 2 + b 3 * s + b 6 * u + b 7 * s * u) * (c 1 + c 3 * t + c 5 * u + c 7 * t * u))

/-- **C08.** The volume polynomial of the code is exactly the volume of the trilinear hexahedron:
the integral over the unit cube of the Jacobian determinant, for all node positions. -/
theorem C08_vol_is_integral (x y z : Fin 8 → ℝ) :
    ∫ s in (0:ℝ)..1, ∫ t in (0:ℝ)..1, ∫ u in (0:ℝ)..1, jac3 x y z s t u = hexVolRaw x y z := by
  have hj : ∀ s t u, jac3 x y z s t u = jacPoly (cf x) (cf y) (cf z) s t u := by
    intro s t u
    simp only [jac3, dS_eq, dT_eq, dU_eq, jacPoly]
  simp only [hj]
  conv_rhs => rw [← nodal_cf x, ← nodal_cf y, ← nodal_cf z]
  generalize cf x = a
  generalize cf y = b
  generalize cf z = c
  rw [integral3_simpson]
  · simp only [simpson, jacPoly, hexVolRaw, nodal]
    ring
  · intro t u s; simp only [jacPoly]; ring
  · intro s u t; simp only [jacPoly]; ring
  · intro s t u; simp only [jacPoly]; ring

end Fierro
