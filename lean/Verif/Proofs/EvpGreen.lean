import Verif.Model.EvpGreen
import Mathlib.RingTheory.RootsOfUnity.Complex
import Mathlib.Algebra.BigOperators.Ring.Finset
import Mathlib.Data.Fintype.BigOperators

/-!
# Finite Fourier sums on the grid
-/

namespace Fierro

open Complex

/-- One-dimensional character sum. -/
theorem char_sum (n : ℕ) (hn : n ≠ 0) (m : ℤ) :
    ∑ x : Fin n, Complex.exp (2 * Real.pi * I * (m * (x : ℕ) / n)) = if (n : ℤ) ∣ m then (n : ℂ) else 0 := by
  have hn' : (n : ℂ) ≠ 0 := Nat.cast_ne_zero.mpr hn
  obtain ⟨z, hz⟩ : ∃ z, z = Complex.exp (2 * Real.pi * I * (m / n)) := ⟨_, rfl⟩
  have hx : ∀ x : Fin n, Complex.exp (2 * Real.pi * I * (m * (x : ℕ) / n)) = z ^ (x : ℕ) := by
    intro x
    rw [hz, ← Complex.exp_nat_mul]
    congr 1
    ring
  simp only [hx]
  have hzn : z ^ n = 1 := by
    rw [hz, ← Complex.exp_nat_mul, Complex.exp_eq_one_iff]
    exact ⟨m, by field_simp⟩
  have hz1 : z = 1 ↔ (n : ℤ) ∣ m := by
    rw [hz, Complex.exp_eq_one_iff]
    constructor
    · rintro ⟨k, hk⟩
      refine ⟨k, ?_⟩
      have h2 : (2 * Real.pi * I : ℂ) ≠ 0 := by
        simp [Real.pi_ne_zero, Complex.I_ne_zero]
      have h3 : (m : ℂ) / n = k := mul_left_cancel₀ h2 (by rw [hk]; ring)
      have h4 : (m : ℂ) = n * k := by rw [← h3]; field_simp
      exact_mod_cast h4
    · rintro ⟨k, hk⟩
      refine ⟨k, ?_⟩
      rw [hk]
      push_cast
      field_simp
  rw [Fin.sum_univ_eq_sum_range (fun i => z ^ i) n]
  split_ifs with h
  · rw [hz1.mpr h]; simp
  · have hne : z ≠ 1 := fun h1 => h (hz1.mp h1)
    rw [geom_sum_eq hne, hzn, sub_self, zero_div]

namespace EvpGrid

variable (g : EvpGrid)

/-- All numbers of points are positive. -/
def Pos : Prop := ∀ a, 0 < g.n a

theorem chi_prod (k x : g.Ix) : g.chi k x = ∏ a, Complex.exp
    (2 * Real.pi * I * (((k a : ℕ) : ℂ) * ((x a : ℕ) : ℂ) / (g.n a : ℂ))) := by
  rw [chi, Finset.mul_sum, Complex.exp_sum]

theorem conj_exp_im (r : ℝ) : (starRingEnd ℂ) (Complex.exp (2 * Real.pi * I * r)) =
    Complex.exp (2 * Real.pi * I * (-r)) := by
  rw [← Complex.exp_conj]
  congr 1
  simp only [map_mul, Complex.conj_ofReal, Complex.conj_I]
  have : (starRingEnd ℂ) 2 = 2 := Complex.conj_ofNat 2
  rw [this]
  ring

theorem conj_chi (k x : g.Ix) : (starRingEnd ℂ) (g.chi k x) = ∏ a, Complex.exp
    (2 * Real.pi * I * (-(((k a : ℕ) : ℂ) * ((x a : ℕ) : ℂ) / (g.n a : ℂ)))) := by
  rw [chi_prod, map_prod]
  refine Finset.prod_congr rfl fun a _ => ?_
  have := conj_exp_im (((k a : ℕ) : ℝ) * ((x a : ℕ) : ℝ) / (g.n a : ℝ))
  push_cast at this
  exact this

theorem prod_sum_ix (f : (a : Fin 3) → Fin (g.n a) → ℂ) :
    ∑ x : g.Ix, ∏ a, f a (x a) = ∏ a, ∑ y, f a y := by
  rw [Finset.prod_univ_sum, Fintype.piFinset_univ]

/-- Orthogonality in the points. -/
theorem chi_orthogonal (hp : g.Pos) (k k' : g.Ix) :
    ∑ x, g.chi k x * (starRingEnd ℂ) (g.chi k' x) = if k = k' then (g.size : ℂ) else 0 := by
  have e : ∀ x, g.chi k x * (starRingEnd ℂ) (g.chi k' x) = ∏ a, Complex.exp
      (2 * Real.pi * I * ((((k a : ℕ) : ℤ) - ((k' a : ℕ) : ℤ) : ℤ) * ((x a : ℕ) : ℂ) / (g.n a : ℂ))) := by
    intro x
    rw [chi_prod, conj_chi, ← Finset.prod_mul_distrib]
    refine Finset.prod_congr rfl fun a _ => ?_
    rw [← Complex.exp_add]
    congr 1
    push_cast
    ring
  simp only [e]
  rw [g.prod_sum_ix fun a y => Complex.exp
    (2 * Real.pi * I * ((((k a : ℕ) : ℤ) - ((k' a : ℕ) : ℤ) : ℤ) * ((y : ℕ) : ℂ) / (g.n a : ℂ)))]
  simp only [fun a => char_sum (g.n a) (hp a).ne' (((k a : ℕ) : ℤ) - ((k' a : ℕ) : ℤ))]
  split_ifs with h
  · subst h
    simp [Fin.prod_univ_three, size]
  · obtain ⟨a, ha⟩ := Function.ne_iff.mp h
    refine Finset.prod_eq_zero (Finset.mem_univ a) ?_
    rw [if_neg]
    rintro ⟨c, hc⟩
    apply ha
    have h1 := (k a).isLt
    have h2 := (k' a).isLt
    have hc0 : c = 0 := by
      by_contra hne
      rcases lt_or_gt_of_ne hne with h3 | h3
      · have : (g.n a : ℤ) * c ≤ -(g.n a : ℤ) := by nlinarith
        omega
      · have : (g.n a : ℤ) ≤ (g.n a : ℤ) * c := by nlinarith
        omega
    rw [hc0, mul_zero] at hc
    exact Fin.ext (by omega)

theorem chi_comm (k x : g.Ix) : g.chi k x = g.chi x k := by
  rw [chi_prod, chi_prod]
  refine Finset.prod_congr rfl fun a _ => ?_
  congr 1
  ring

theorem size_ne (hp : g.Pos) : (g.size : ℂ) ≠ 0 := by
  have : g.size ≠ 0 := by
    unfold size
    have h0 := hp 0
    have h1 := hp 1
    have h2 := hp 2
    positivity
  exact Nat.cast_ne_zero.mpr this

/-- Complex inverse transform of a forward transform. -/
theorem inversion (hp : g.Pos) (f : g.Ix → ℝ) (x : g.Ix) :
    (1 / (g.size : ℂ)) * ∑ k, g.forward f k * g.chi k x = f x := by
  have e : ∑ k, g.forward f k * g.chi k x =
      ∑ y, (f y : ℂ) * ∑ k, g.chi x k * (starRingEnd ℂ) (g.chi y k) := by
    simp only [forward, Finset.sum_mul, Finset.mul_sum]
    rw [Finset.sum_comm]
    refine Finset.sum_congr rfl fun y _ => Finset.sum_congr rfl fun k _ => ?_
    rw [g.chi_comm k x, g.chi_comm k y]
    ring
  rw [e]
  simp only [g.chi_orthogonal hp, mul_ite, mul_zero]
  rw [Finset.sum_ite_eq Finset.univ x, if_pos (Finset.mem_univ x)]
  have := g.size_ne hp
  field_simp

/-- Forward transform of the complex inverse transform. -/
theorem inversion' (hp : g.Pos) (h : g.Ix → ℂ) (k : g.Ix) :
    ∑ x, ((1 / (g.size : ℂ)) * ∑ m, h m * g.chi m x) * (starRingEnd ℂ) (g.chi k x) = h k := by
  have e : ∑ x, ((1 / (g.size : ℂ)) * ∑ m, h m * g.chi m x) * (starRingEnd ℂ) (g.chi k x) =
      (1 / (g.size : ℂ)) * ∑ m, h m * ∑ x, g.chi m x * (starRingEnd ℂ) (g.chi k x) := by
    simp only [Finset.sum_mul, Finset.mul_sum]
    rw [Finset.sum_comm]
    refine Finset.sum_congr rfl fun m _ => Finset.sum_congr rfl fun x _ => ?_
    ring
  rw [e]
  simp only [g.chi_orthogonal hp, mul_ite, mul_zero]
  rw [Finset.sum_ite_eq' Finset.univ k, if_pos (Finset.mem_univ k)]
  have := g.size_ne hp
  field_simp

/-- Opposite index triple. -/
def opp (hp : g.Pos) (k : g.Ix) : g.Ix := fun a => ⟨(g.n a - k a) % g.n a, Nat.mod_lt _ (hp a)⟩

theorem opp_val (hp : g.Pos) (k : g.Ix) (a : Fin 3) :
    ((g.opp hp k a : Fin (g.n a)) : ℕ) = if (k a : ℕ) = 0 then 0 else g.n a - k a := by
  have := (k a).isLt
  show (g.n a - k a) % g.n a = _
  split_ifs with h
  · rw [h, Nat.sub_zero, Nat.mod_self]
  · exact Nat.mod_eq_of_lt (by omega)

theorem opp_opp (hp : g.Pos) (k : g.Ix) : g.opp hp (g.opp hp k) = k := by
  funext a
  apply Fin.ext
  have := (k a).isLt
  rw [opp_val, opp_val]
  split_ifs <;> omega

theorem chi_opp (hp : g.Pos) (k x : g.Ix) : g.chi (g.opp hp k) x = (starRingEnd ℂ) (g.chi k x) := by
  rw [chi_prod, conj_chi]
  refine Finset.prod_congr rfl fun a _ => ?_
  have hlt := (k a).isLt
  have hn : (g.n a : ℂ) ≠ 0 := Nat.cast_ne_zero.mpr (hp a).ne'
  rw [opp_val]
  split_ifs with h
  · simp [h]
  · rw [Complex.exp_eq_exp_iff_exists_int]
    refine ⟨((x a : ℕ) : ℤ), ?_⟩
    rw [Nat.cast_sub hlt.le]
    push_cast
    field_simp
    ring

theorem forward_opp (hp : g.Pos) (f : g.Ix → ℝ) (k : g.Ix) :
    g.forward f (g.opp hp k) = (starRingEnd ℂ) (g.forward f k) := by
  simp only [forward, map_sum, map_mul, Complex.conj_ofReal, chi_opp]

/-- Hermitian spectra give real fields. -/
theorem hermitian_real (hp : g.Pos) (h : g.Ix → ℂ) (hh : ∀ k, h (g.opp hp k) = (starRingEnd ℂ) (h k))
    (x : g.Ix) : (1 / (g.size : ℂ)) * ∑ k, h k * g.chi k x = (g.backward h x : ℝ) := by
  have hs : (starRingEnd ℂ) (∑ k, h k * g.chi k x) = ∑ k, h k * g.chi k x := by
    rw [map_sum]
    refine Finset.sum_nbij' (g.opp hp) (g.opp hp) (fun _ _ => Finset.mem_univ _)
      (fun _ _ => Finset.mem_univ _) (fun k _ => g.opp_opp hp k) (fun k _ => g.opp_opp hp k) ?_
    intro k _
    rw [map_mul, hh, chi_opp]
  have hc : (starRingEnd ℂ) ((1 / (g.size : ℂ)) * ∑ k, h k * g.chi k x) =
      (1 / (g.size : ℂ)) * ∑ k, h k * g.chi k x := by
    rw [map_mul, hs]
    congr 1
    simp
  obtain ⟨r, hr⟩ := Complex.conj_eq_iff_real.mp hc
  rw [backward, hr, Complex.ofReal_re]

/-- The spectrum of the field obtained from a Hermitian spectrum is that spectrum. -/
theorem forward_backward (hp : g.Pos) (h : g.Ix → ℂ)
    (hh : ∀ k, h (g.opp hp k) = (starRingEnd ℂ) (h k)) (k : g.Ix) :
    g.forward (g.backward h) k = h k := by
  unfold forward
  simp only [← g.hermitian_real hp h hh]
  exact g.inversion' hp h k

theorem backward_forward (hp : g.Pos) (f : g.Ix → ℝ) (x : g.Ix) :
    g.backward (g.forward f) x = f x := by
  rw [backward, g.inversion hp, Complex.ofReal_re]

end EvpGrid

end Fierro
