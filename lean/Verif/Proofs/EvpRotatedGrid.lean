import Verif.Proofs.EvpRotated
import Verif.Props.EvpGreen

/-!
# Sums over the grid for the rotated scheme
-/

namespace Fierro.Lsnp

open Complex

theorem modNorm_eq (k : Fin 3 → ℂ) : modNorm k = ∑ a, ‖k a‖ ^ 2 := by
  simp only [modNorm, Fin.sum_univ_three, ← Complex.normSq_eq_norm_sq, Complex.normSq_apply]
  ring

theorem modNorm_nonneg (k : Fin 3 → ℂ) : 0 ≤ modNorm k := by
  rw [modNorm_eq]; positivity

theorem modNorm_cast (k : Fin 3 → ℂ) : ((modNorm k : ℝ) : ℂ) = ∑ a, k a * (starRingEnd ℂ) (k a) := by
  rw [modNorm_eq]
  push_cast
  refine Finset.sum_congr rfl fun a _ => ?_
  rw [Complex.mul_conj, Complex.normSq_eq_norm_sq]; push_cast; rfl

theorem velHatRot_eq (k : Fin 3 → ℂ) (w : Fin 3 → Fin 3 → ℂ) (i : Fin 3) (h : 1.0e-15 ≤ modNorm k) :
    velHatRot k w i = (∑ j, w i j * (starRingEnd ℂ) (k j)) / ((modNorm k : ℝ) : ℂ) := by
  rw [velHatRot, if_pos (by rwa [abs_of_nonneg (modNorm_nonneg k)])]
  have hn : modNorm k ≠ 0 := by
    intro h0; rw [h0] at h; norm_num at h
  rw [eq_div_iff (by exact_mod_cast hn)]
  apply Complex.ext
  · simp only [Complex.mul_re, Complex.ofReal_re, Complex.ofReal_im, Complex.re_sum, Complex.conj_re,
      Complex.conj_im, mul_zero, sub_zero, Finset.sum_mul]
    refine Finset.sum_congr rfl fun j _ => ?_
    field_simp
    ring
  · simp only [Complex.mul_im, Complex.ofReal_re, Complex.ofReal_im, Complex.im_sum, Complex.conj_re,
      Complex.conj_im, mul_zero, zero_add, Finset.sum_mul]
    refine Finset.sum_congr rfl fun j _ => ?_
    field_simp
    ring

theorem velHatRot_small (k : Fin 3 → ℂ) (w : Fin 3 → Fin 3 → ℂ) (i : Fin 3) (h : modNorm k < 1.0e-15) :
    velHatRot k w i = 0 := by
  rw [velHatRot, if_neg (by rw [abs_of_nonneg (modNorm_nonneg k)]; exact not_le.mpr h)]

/-- A gradient gives its velocity back. -/
theorem velHatRot_grad (k : Fin 3 → ℂ) (w : Fin 3 → Fin 3 → ℂ) (v : Fin 3 → ℂ) (hw : ∀ i j, w i j = v i * k j)
    (i : Fin 3) (h : 1.0e-15 ≤ modNorm k) : velHatRot k w i = v i := by
  have hn : ((modNorm k : ℝ) : ℂ) ≠ 0 := by
    intro h0
    have : modNorm k = 0 := by exact_mod_cast h0
    rw [this] at h; norm_num at h
  rw [velHatRot_eq k w i h, div_eq_iff hn, modNorm_cast, Finset.mul_sum]
  exact Finset.sum_congr rfl fun j _ => by rw [hw]; ring

variable {n : Fin 3 → ℕ}

/-- The first point, the zero frequency. -/
def origin (hp : ∀ a, 0 < n a) : (Large.unitGrid n).Ix := fun a => ⟨0, hp a⟩

theorem chi_origin (hp : ∀ a, 0 < n a) (x : (Large.unitGrid n).Ix) :
    (Large.unitGrid n).chi (origin hp) x = 1 := by
  simp [EvpGrid.chi, origin]

theorem zeroFreq_iff (hp : ∀ a, 0 < n a) (k : (Large.unitGrid n).Ix) :
    (Large.unitGrid n).zeroFreq k = true ↔ k = origin hp := by
  simp only [EvpGrid.zeroFreq, Bool.and_eq_true, decide_eq_true_eq]
  constructor
  · rintro ⟨⟨h0, h1⟩, h2⟩
    funext a
    apply Fin.ext
    show (k a : ℕ) = 0
    fin_cases a
    · simpa using h0
    · simpa using h1
    · simpa using h2
  · rintro rfl
    simp [origin]

theorem angle_origin (hp : ∀ a, 0 < n a) (t : ℝ) : angle t (Large.unitGrid n) (origin hp) = 0 := by
  funext a
  simp [angle, EvpGrid.freq, waveFreq, waveIndex, origin]

theorem sym_zero : sym 0 = 0 := by
  funext a
  fin_cases a <;> simp [sym, ex_zero]

theorem symTable_origin (hp : ∀ a, 0 < n a) : symTable n (origin hp) = 0 := by
  rw [symTable, angle_origin, sym_zero]

theorem forward_grad (hp : ∀ a, 0 < n a) (v : (Large.unitGrid n).Ix → ℝ) (k : (Large.unitGrid n).Ix)
    (j : Fin 3) :
    (Large.unitGrid n).forward (fun x => gradOf (symTable n) v x j) k =
      (Large.unitGrid n).forward v k * symTable n k j := by
  unfold EvpGrid.forward
  have e : ∀ x, ((gradOf (symTable n) v x j : ℝ) : ℂ) = (1 / ((Large.unitGrid n).size : ℂ)) *
      ∑ k, ((Large.unitGrid n).forward v k * symTable n k j) * (Large.unitGrid n).chi k x := by
    intro x
    rw [grad_symTable n hp, complex_grad n hp]
  simp only [e]
  exact (Large.unitGrid n).inversion' hp _ k

theorem forward_add (g : EvpGrid) (f h : g.Ix → ℝ) (k : g.Ix) :
    g.forward (fun x => f x + h x) k = g.forward f k + g.forward h k := by
  simp only [EvpGrid.forward, ← Finset.sum_add_distrib]
  exact Finset.sum_congr rfl fun x _ => by push_cast; ring

theorem forward_smul (g : EvpGrid) (f : g.Ix → ℝ) (c : ℝ) (k : g.Ix) :
    g.forward (fun x => c * f x) k = c * g.forward f k := by
  simp only [EvpGrid.forward, Finset.mul_sum]
  exact Finset.sum_congr rfl fun x _ => by push_cast; ring

theorem forward_sum {ι : Type} (s : Finset ι) (g : EvpGrid) (f : ι → g.Ix → ℝ) (k : g.Ix) :
    g.forward (fun x => ∑ i ∈ s, f i x) k = ∑ i ∈ s, g.forward (f i) k := by
  simp only [EvpGrid.forward]
  rw [Finset.sum_comm]
  exact Finset.sum_congr rfl fun x _ => by push_cast; rw [Finset.sum_mul]

theorem forward_const (hp : ∀ a, 0 < n a) (c : ℝ) (k : (Large.unitGrid n).Ix) :
    (Large.unitGrid n).forward (fun _ => c) k = if k = origin hp then c * ((Large.unitGrid n).size : ℂ) else 0 := by
  have h := (Large.unitGrid n).chi_orthogonal hp (origin hp) k
  simp only [chi_origin, one_mul] at h
  simp only [EvpGrid.forward, ← Finset.mul_sum, h]
  split_ifs with h1 h2 h2
  · rfl
  · exact absurd h1.symm h2
  · exact absurd h2.symm h1
  · simp

/-- Backward transform of a sum. -/
theorem backward_sub (g : EvpGrid) (f h : g.Ix → ℂ) (x : g.Ix) :
    g.backward (fun k => f k - h k) x = g.backward f x - g.backward h x := by
  simp only [EvpGrid.backward, sub_mul, Finset.sum_sub_distrib, mul_sub, Complex.sub_re]

/-- The mean is the spectrum at frequency zero. -/
theorem backward_mean (hp : ∀ a, 0 < n a) (c : ℂ) (x : (Large.unitGrid n).Ix) :
    (Large.unitGrid n).backward (fun k => if k = origin hp then c else 0) x =
      c.re / ((Large.unitGrid n).size : ℝ) := by
  rw [EvpGrid.backward]
  simp only [ite_mul, zero_mul]
  rw [Finset.sum_ite_eq' Finset.univ (origin hp), if_pos (Finset.mem_univ _), chi_origin, mul_one]
  rw [one_div, ← Complex.ofReal_natCast, ← Complex.ofReal_inv, Complex.re_ofReal_mul]
  field_simp

theorem forward_origin (hp : ∀ a, 0 < n a) (v : (Large.unitGrid n).Ix → ℝ) :
    (Large.unitGrid n).forward v (origin hp) = ((∑ x, v x : ℝ) : ℂ) := by
  simp [EvpGrid.forward, chi_origin]

/-! ### Sizes of the modified frequencies -/

theorem norm_ex_sub_one_eq (t : ℝ) : ‖ex t - 1‖ = 2 * |Real.sin (t / 2)| := by
  have h1 := Real.sin_sq_add_cos_sq (t / 2)
  have hc : Real.cos t = 2 * Real.cos (t / 2) ^ 2 - 1 := by
    rw [← Real.cos_two_mul]; ring_nf
  have hs := Real.sin_sq_add_cos_sq t
  rw [← abs_of_nonneg (norm_nonneg (ex t - 1)), ← abs_two, ← abs_mul, ← sq_eq_sq_iff_abs_eq_abs,
    ← Complex.normSq_eq_norm_sq, Complex.normSq_apply]
  simp only [Complex.sub_re, Complex.sub_im, ex_re, ex_im, Complex.one_re, Complex.one_im]
  nlinarith

theorem norm_one_add_ex_eq (t : ℝ) : ‖1 + ex t‖ = 2 * |Real.cos (t / 2)| := by
  have hc : Real.cos t = 2 * Real.cos (t / 2) ^ 2 - 1 := by
    rw [← Real.cos_two_mul]; ring_nf
  have hs := Real.sin_sq_add_cos_sq t
  rw [← abs_of_nonneg (norm_nonneg (1 + ex t)), ← abs_two, ← abs_mul, ← sq_eq_sq_iff_abs_eq_abs,
    ← Complex.normSq_eq_norm_sq, Complex.normSq_apply]
  simp only [Complex.add_re, Complex.add_im, ex_re, ex_im, Complex.one_re, Complex.one_im]
  nlinarith

/-- Half the angle. -/
theorem half_angle (hp : ∀ a, 0 < n a) (k : (Large.unitGrid n).Ix) (a : Fin 3) :
    angle (2 * Real.pi) (Large.unitGrid n) k a / 2 =
      Real.pi * ((waveIndex (n a) (k a) : ℤ) : ℝ) / n a := by
  have hn : (n a : ℝ) ≠ 0 := Nat.cast_ne_zero.mpr (hp a).ne'
  simp only [angle, EvpGrid.freq, waveFreq, Large.unitGrid, one_mul]
  field_simp

theorem sin_lower (hp : ∀ a, 0 < n a) (k : (Large.unitGrid n).Ix) (a : Fin 3) (h : (k a : ℕ) ≠ 0) :
    2 / (n a : ℝ) ≤ |Real.sin (angle (2 * Real.pi) (Large.unitGrid n) k a / 2)| := by
  have hk : (k a : ℕ) < n a := (k a).isLt
  have hn : (0 : ℝ) < n a := Nat.cast_pos.mpr (hp a)
  obtain ⟨h1, h2, h3, h4⟩ := C73_wave_numbers (n a) (k a) hk
  have hw : (1 : ℝ) ≤ |((waveIndex (n a) (k a) : ℤ) : ℝ)| := by
    have : 1 ≤ |waveIndex (n a) (k a)| := Int.one_le_abs fun h0 => h (h4.mp h0)
    exact_mod_cast this
  have hw2 : |((waveIndex (n a) (k a) : ℤ) : ℝ)| ≤ n a / 2 := by
    have : |2 * waveIndex (n a) (k a)| ≤ (n a : ℤ) := by rw [abs_le]; omega
    have h2 : ((|2 * waveIndex (n a) (k a)| : ℤ) : ℝ) ≤ n a := by exact_mod_cast this
    push_cast at h2
    rw [abs_mul, abs_two] at h2
    linarith
  rw [half_angle hp]
  have e : |Real.sin (Real.pi * ((waveIndex (n a) (k a) : ℤ) : ℝ) / n a)| =
      Real.sin (Real.pi * |((waveIndex (n a) (k a) : ℤ) : ℝ)| / n a) := by
    have hy : 0 ≤ Real.pi * |((waveIndex (n a) (k a) : ℤ) : ℝ)| / n a := by positivity
    have hy2 : Real.pi * |((waveIndex (n a) (k a) : ℤ) : ℝ)| / n a ≤ Real.pi := by
      rw [div_le_iff₀ hn]
      exact mul_le_mul_of_nonneg_left (by linarith) Real.pi_pos.le
    rcases abs_cases ((waveIndex (n a) (k a) : ℤ) : ℝ) with ⟨c, _⟩ | ⟨c, _⟩
    · rw [c] at hy hy2 ⊢
      exact abs_of_nonneg (Real.sin_nonneg_of_nonneg_of_le_pi hy hy2)
    · rw [c] at hy hy2 ⊢
      rw [mul_neg, neg_div, Real.sin_neg] at *
      exact abs_of_nonpos (by
        have := Real.sin_nonneg_of_nonneg_of_le_pi hy hy2
        rw [Real.sin_neg] at this
        linarith)
  rw [e]
  have := Real.mul_le_sin (x := Real.pi * |((waveIndex (n a) (k a) : ℤ) : ℝ)| / n a) (by positivity) (by
    rw [div_le_iff₀ hn]
    nlinarith [Real.pi_pos])
  refine le_trans ?_ this
  have e2 : 2 / Real.pi * (Real.pi * |((waveIndex (n a) (k a) : ℤ) : ℝ)| / n a) =
      2 * |((waveIndex (n a) (k a) : ℤ) : ℝ)| / n a := by
    have := Real.pi_ne_zero
    field_simp
  rw [e2]
  gcongr
  linarith

theorem cos_lower (hp : ∀ a, 0 < n a) (k : (Large.unitGrid n).Ix) (a : Fin 3) (ho : n a % 2 = 1) :
    1 / (n a : ℝ) ≤ |Real.cos (angle (2 * Real.pi) (Large.unitGrid n) k a / 2)| := by
  have hk : (k a : ℕ) < n a := (k a).isLt
  have hn : (0 : ℝ) < n a := Nat.cast_pos.mpr (hp a)
  obtain ⟨h1, h2, h3, h4⟩ := C73_wave_numbers (n a) (k a) hk
  have hw2 : 2 * |((waveIndex (n a) (k a) : ℤ) : ℝ)| ≤ n a - 1 := by
    have : |2 * waveIndex (n a) (k a)| ≤ (n a : ℤ) - 1 := by rw [abs_le]; omega
    have h2 : ((|2 * waveIndex (n a) (k a)| : ℤ) : ℝ) ≤ ((n a : ℤ) - 1 : ℤ) := by exact_mod_cast this
    push_cast at h2
    rw [abs_mul, abs_two] at h2
    linarith
  rw [half_angle hp]
  have e : Real.cos (Real.pi * ((waveIndex (n a) (k a) : ℤ) : ℝ) / n a) =
      Real.sin (Real.pi / 2 - Real.pi * |((waveIndex (n a) (k a) : ℤ) : ℝ)| / n a) := by
    rw [Real.sin_pi_div_two_sub]
    rcases abs_cases ((waveIndex (n a) (k a) : ℤ) : ℝ) with ⟨c, _⟩ | ⟨c, _⟩
    · rw [c]
    · rw [c, mul_neg, neg_div, Real.cos_neg]
  rw [e]
  refine le_trans ?_ (le_abs_self _)
  have hb : Real.pi * |((waveIndex (n a) (k a) : ℤ) : ℝ)| / n a ≤ Real.pi / 2 := by
    rw [div_le_iff₀ hn]
    nlinarith [Real.pi_pos]
  have := Real.mul_le_sin (x := Real.pi / 2 - Real.pi * |((waveIndex (n a) (k a) : ℤ) : ℝ)| / n a)
    (by linarith) (by
      have : 0 ≤ Real.pi * |((waveIndex (n a) (k a) : ℤ) : ℝ)| / n a := by positivity
      linarith)
  refine le_trans ?_ this
  have e2 : 2 / Real.pi * (Real.pi / 2 - Real.pi * |((waveIndex (n a) (k a) : ℤ) : ℝ)| / n a) =
      (n a - 2 * |((waveIndex (n a) (k a) : ℤ) : ℝ)|) / n a := by
    have := Real.pi_ne_zero
    field_simp
  rw [e2]
  gcongr
  linarith

/-- Away from frequency zero the modified frequency is not small on a grid with odd numbers of points. -/
theorem modNorm_lower (hp : ∀ a, 0 < n a) (ho : ∀ a, n a % 2 = 1) (k : (Large.unitGrid n).Ix)
    (hk : k ≠ origin hp) : 16 / ((n 0 * n 1 * n 2 : ℕ) : ℝ) ^ 2 ≤ modNorm (symTable n k) := by
  have hn : ∀ a, (0 : ℝ) < n a := fun a => Nat.cast_pos.mpr (hp a)
  obtain ⟨a, ha⟩ := Function.ne_iff.mp hk
  have ha' : (k a : ℕ) ≠ 0 := fun h => ha (Fin.ext h)
  have key : 4 / ((n 0 * n 1 * n 2 : ℕ) : ℝ) ≤ ‖symTable n k a‖ := by
    have hs := sin_lower hp k a ha'
    have hc := fun b => cos_lower hp k b (ho b)
    have trip : ∀ p q r : ℝ, ∀ b c d : Fin 3, 2 / (n b : ℝ) ≤ p → 1 / (n c : ℝ) ≤ q → 1 / (n d : ℝ) ≤ r →
        4 / ((n b : ℝ) * n c * n d) ≤ (2 * p) * (2 * q) * (2 * r) / 4 := by
      intro p q r b c d h1 h2 h3
      have b0 := hn b
      have c0 := hn c
      have d0 := hn d
      have hp' : 0 ≤ p := le_trans (by positivity) h1
      have hq' : 0 ≤ q := le_trans (by positivity) h2
      have : 2 / (n b : ℝ) * (1 / (n c : ℝ)) * (1 / (n d : ℝ)) ≤ p * q * r :=
        mul_le_mul (mul_le_mul h1 h2 (by positivity) hp') h3 (by positivity) (mul_nonneg hp' hq')
      have e : 2 / (n b : ℝ) * (1 / (n c : ℝ)) * (1 / (n d : ℝ)) = 2 / ((n b : ℝ) * n c * n d) := by
        field_simp
      rw [e] at this
      have e2 : 4 / ((n b : ℝ) * n c * n d) = 2 * (2 / ((n b : ℝ) * n c * n d)) := by ring
      rw [e2]
      linarith
    fin_cases a
    · have := trip _ _ _ 0 1 2 hs (hc 1) (hc 2)
      simp only [Fin.zero_eta, symTable, sym, Matrix.cons_val_zero, norm_div, norm_mul, norm_ex_sub_one_eq,
        norm_one_add_ex_eq] at *
      have n4 : ‖(4 : ℂ)‖ = 4 := by simp
      rw [n4]
      push_cast
      linarith
    · have := trip _ _ _ 1 0 2 hs (hc 0) (hc 2)
      simp only [Fin.mk_one, symTable, sym, Matrix.cons_val_one, Matrix.cons_val_zero, norm_div, norm_mul,
        norm_ex_sub_one_eq, norm_one_add_ex_eq] at *
      have n4 : ‖(4 : ℂ)‖ = 4 := by simp
      rw [n4]
      push_cast
      rw [mul_comm (n 0 : ℝ) (n 1 : ℝ)]
      linarith
    · have := trip _ _ _ 2 0 1 hs (hc 0) (hc 1)
      simp only [Fin.reduceFinMk, symTable, sym, Matrix.cons_val, norm_div, norm_mul,
        norm_ex_sub_one_eq, norm_one_add_ex_eq] at *
      have n4 : ‖(4 : ℂ)‖ = 4 := by simp
      rw [n4]
      push_cast
      rw [show (n 0 : ℝ) * n 1 * n 2 = n 2 * n 0 * n 1 by ring]
      linarith
  rw [modNorm_eq]
  have h0 := Finset.single_le_sum (f := fun a => ‖symTable n k a‖ ^ 2) (s := Finset.univ)
    (fun i _ => by positivity) (Finset.mem_univ a)
  refine le_trans ?_ h0
  have e : 16 / ((n 0 * n 1 * n 2 : ℕ) : ℝ) ^ 2 = (4 / ((n 0 * n 1 * n 2 : ℕ) : ℝ)) ^ 2 := by
    rw [div_pow]; norm_num
  rw [e]
  exact pow_le_pow_left₀ (by positivity) key 2

end Fierro.Lsnp
