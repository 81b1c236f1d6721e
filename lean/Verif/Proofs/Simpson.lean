import Mathlib.Analysis.SpecialFunctions.Integrals.Basic
import Mathlib.Tactic.Ring

/-! Simpson's rule is exact for quadratics (helper for the exact-volume theorems). -/

namespace Fierro
open intervalIntegral

theorem integral_quadratic (a b c : ℝ) :
    ∫ t in (0:ℝ)..1, (a + b * t + c * t ^ 2) = a + b / 2 + c / 3 := by
  rw [integral_add, integral_add]
  · have hb : ∫ t in (0:ℝ)..1, b * t = b * ∫ t in (0:ℝ)..1, t :=
      intervalIntegral.integral_const_mul b fun t => t
    rw [hb]
    simp only [integral_const, integral_const_mul, integral_id, integral_pow]
    norm_num
    ring
  all_goals exact Continuous.intervalIntegrable (by fun_prop) _ _

/-- If `f` is a quadratic polynomial its integral over `[0,1]` is given by Simpson's rule. -/
theorem integral_simpson (f : ℝ → ℝ)
    (h : ∀ t, f t = f 0 + (-3 * f 0 + 4 * f (1/2) - f 1) * t
      + (2 * f 0 - 4 * f (1/2) + 2 * f 1) * t ^ 2) :
    ∫ t in (0:ℝ)..1, f t = (f 0 + 4 * f (1/2) + f 1) / 6 := by
  rw [show f = fun t => f 0 + (-3 * f 0 + 4 * f (1/2) - f 1) * t
      + (2 * f 0 - 4 * f (1/2) + 2 * f 1) * t ^ 2 from funext h, integral_quadratic]
  ring

end Fierro

namespace Fierro

/-- `f` is a polynomial of degree at most two (written through three of its values). -/
def IsQuadratic (f : ℝ → ℝ) : Prop :=
  ∀ t, f t = f 0 + (-3 * f 0 + 4 * f (1/2) - f 1) * t + (2 * f 0 - 4 * f (1/2) + 2 * f 1) * t ^ 2

/-- Simpson's rule. -/
noncomputable def simpson (f : ℝ → ℝ) : ℝ := (f 0 + 4 * f (1/2) + f 1) / 6

theorem IsQuadratic.integral {f : ℝ → ℝ} (h : IsQuadratic f) :
    ∫ t in (0:ℝ)..1, f t = simpson f := integral_simpson f h

/-- Exact integration of functions that are quadratic in each of three variables. -/
theorem integral3_simpson (g : ℝ → ℝ → ℝ → ℝ) (h1 : ∀ t u, IsQuadratic fun s => g s t u)
    (h2 : ∀ s u, IsQuadratic fun t => g s t u) (h3 : ∀ s t, IsQuadratic fun u => g s t u) :
    ∫ s in (0:ℝ)..1, ∫ t in (0:ℝ)..1, ∫ u in (0:ℝ)..1, g s t u
      = simpson fun s => simpson fun t => simpson fun u => g s t u := by
  have e3 : ∀ s t, (∫ u in (0:ℝ)..1, g s t u) = simpson fun u => g s t u :=
    fun s t => (h3 s t).integral
  simp only [e3]
  have e2 : ∀ s, (∫ t in (0:ℝ)..1, simpson fun u => g s t u)
      = simpson fun t => simpson fun u => g s t u := by
    intro s
    apply IsQuadratic.integral
    intro t
    have := h2 s 0 t; have := h2 s (1/2) t; have := h2 s 1 t
    simp only [simpson] at *
    linarith
  simp only [e2]
  apply IsQuadratic.integral
  intro s
  have H := fun t u => h1 t u s
  simp only at H
  simp only [simpson]
  rw [H 0 0, H 0 (1/2), H 0 1, H (1/2) 0, H (1/2) (1/2), H (1/2) 1, H 1 0, H 1 (1/2), H 1 1]
  ring

/-- Exact integration of functions that are quadratic in each of two variables. -/
theorem integral2_simpson (g : ℝ → ℝ → ℝ) (h1 : ∀ t, IsQuadratic fun s => g s t)
    (h2 : ∀ s, IsQuadratic fun t => g s t) :
    ∫ s in (0:ℝ)..1, ∫ t in (0:ℝ)..1, g s t = simpson fun s => simpson fun t => g s t := by
  have e2 : ∀ s, (∫ t in (0:ℝ)..1, g s t) = simpson fun t => g s t :=
    fun s => (h2 s).integral
  simp only [e2]
  apply IsQuadratic.integral
  intro s
  have H := fun t => h1 t s
  simp only at H
  simp only [simpson]
  rw [H 0, H (1/2), H 1]
  ring

end Fierro
