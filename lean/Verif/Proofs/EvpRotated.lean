import Verif.Model.EvpRotated
import Verif.Proofs.EvpGreen
import Mathlib.Analysis.SpecialFunctions.Trigonometric.Bounds
import Mathlib.Analysis.Real.Pi.Irrational

/-!
# The modified frequencies in closed form
-/

namespace Fierro.Lsnp

open Complex

/-- `exp(i t)`. -/
noncomputable def ex (t : ℝ) : ℂ := Complex.exp (t * I)

theorem ex_re (t : ℝ) : (ex t).re = Real.cos t := Complex.exp_ofReal_mul_I_re t

theorem ex_im (t : ℝ) : (ex t).im = Real.sin t := Complex.exp_ofReal_mul_I_im t

theorem norm_ex (t : ℝ) : ‖ex t‖ = 1 := Complex.norm_exp_ofReal_mul_I t

theorem ex_zero : ex 0 = 1 := by simp [ex]

theorem ex_add (s t : ℝ) : ex (s + t) = ex s * ex t := by
  simp only [ex, ← Complex.exp_add]; push_cast; ring_nf

theorem pre_eq (x : Fin 3 → ℝ) :
    (⟨preRe x, preIm x⟩ : ℂ) = I / 4 * ((1 + ex (x 0)) * (1 + ex (x 1)) * (1 + ex (x 2))) := by
  have h4 : (I / 4 : ℂ) = ⟨0, 1 / 4⟩ := by
    apply Complex.ext <;> simp
  rw [h4]
  apply Complex.ext
  · simp only [Complex.mul_re, Complex.mul_im, Complex.add_re, Complex.add_im, Complex.one_re, Complex.one_im,
      ex_re, ex_im, preRe]
    ring
  · simp only [Complex.mul_re, Complex.mul_im, Complex.add_re, Complex.add_im, Complex.one_re, Complex.one_im,
      ex_re, ex_im, preIm]
    ring

theorem tan_half (t : ℝ) (h : Real.cos (t / 2) ≠ 0) :
    ((Real.tan (t / 2) : ℝ) : ℂ) * (I * (1 + ex t)) = ex t - 1 := by
  have hc : Real.cos t = 2 * Real.cos (t / 2) ^ 2 - 1 := by
    rw [← Real.cos_two_mul]; ring_nf
  have hs : Real.sin t = 2 * Real.sin (t / 2) * Real.cos (t / 2) := by
    rw [← Real.sin_two_mul]; ring_nf
  have h1 := Real.sin_sq_add_cos_sq (t / 2)
  apply Complex.ext
  · simp only [Complex.mul_re, Complex.mul_im, Complex.add_re, Complex.add_im, Complex.one_re, Complex.one_im,
      Complex.sub_re, ex_re, ex_im, Complex.ofReal_re, Complex.ofReal_im, Complex.I_re, Complex.I_im, hc, hs,
      Real.tan_eq_sin_div_cos]
    field_simp
    linear_combination (-2 * Real.cos (t / 2)) * h1
  · simp only [Complex.mul_re, Complex.mul_im, Complex.add_re, Complex.add_im, Complex.one_re, Complex.one_im,
      Complex.sub_im, ex_re, ex_im, Complex.ofReal_re, Complex.ofReal_im, Complex.I_re, Complex.I_im, hc, hs,
      Real.tan_eq_sin_div_cos]
    field_simp
    ring

/-- The closed form. -/
noncomputable def sym (x : Fin 3 → ℝ) : Fin 3 → ℂ :=
  ![(ex (x 0) - 1) * (1 + ex (x 1)) * (1 + ex (x 2)) / 4,
    (1 + ex (x 0)) * (ex (x 1) - 1) * (1 + ex (x 2)) / 4,
    (1 + ex (x 0)) * (1 + ex (x 1)) * (ex (x 2) - 1) / 4]

theorem modFreq_eq (x : Fin 3 → ℝ) (h : ∀ a, Real.cos (x a / 2) ≠ 0) : modFreq x = some (sym x) := by
  rw [modFreq, if_neg (by push Not; exact h)]
  congr 1
  funext a
  have e : (⟨Real.tan (x a / 2) * preRe x, Real.tan (x a / 2) * preIm x⟩ : ℂ) =
      ((Real.tan (x a / 2) : ℝ) : ℂ) * ⟨preRe x, preIm x⟩ := by
    apply Complex.ext <;>
      simp only [Complex.mul_re, Complex.mul_im, Complex.ofReal_re, Complex.ofReal_im] <;> ring
  rw [e, pre_eq]
  have ht := tan_half (x a) (h a)
  fin_cases a
  · simp only [Fin.zero_eta, sym, Matrix.cons_val_zero] at *
    rw [← ht]; ring
  · simp only [Fin.mk_one, sym, Matrix.cons_val_one, Matrix.cons_val_zero] at *
    rw [← ht]; ring
  · simp only [Fin.reduceFinMk, sym, Matrix.cons_val] at *
    rw [← ht]; ring

/-- Corner of a cell. -/
abbrev Corner := Fin 3 → Fin 2

theorem sym_corners (x : Fin 3 → ℝ) (j : Fin 3) :
    sym x j = ∑ s : Corner, (if s j = 1 then 1 else -1) / 4 * ∏ a, if s a = 1 then ex (x a) else 1 := by
  have e : ∀ s : Corner, ((if s j = 1 then 1 else -1) / 4 * ∏ a, if s a = 1 then ex (x a) else 1 : ℂ) =
      1 / 4 * ∏ a, ((if a = j then (if s a = 1 then 1 else -1) else 1) * if s a = 1 then ex (x a) else 1) := by
    intro s
    rw [Finset.prod_mul_distrib, Finset.prod_ite_eq' Finset.univ j, if_pos (Finset.mem_univ j)]
    ring
  rw [Finset.sum_congr rfl fun s _ => e s, ← Finset.mul_sum]
  have f := Finset.prod_univ_sum (ι := Fin 3) (R := ℂ) (fun _ => (Finset.univ : Finset (Fin 2)))
    (fun a b => (if a = j then (if b = 1 then 1 else -1) else 1) * if b = 1 then ex (x a) else 1)
  rw [Fintype.piFinset_univ] at f
  rw [← f, Fin.prod_univ_three]
  simp only [Fin.sum_univ_two, Fin.zero_eq_one_iff, OfNat.ofNat_ne_one, if_false, if_true]
  fin_cases j
  · simp [sym]; ring
  · simp [sym]; ring
  · simp [sym]; ring

theorem ex_lip (s t : ℝ) : ‖ex s - ex t‖ ≤ |s - t| := by
  have e : ex s - ex t = ex t * (Complex.exp (I * ((s - t : ℝ) : ℂ)) - 1) := by
    rw [mul_sub, mul_one]
    congr 1
    rw [show Complex.exp (I * ((s - t : ℝ) : ℂ)) = ex (s - t) by rw [ex, mul_comm], ← ex_add]
    congr 1; ring
  rw [e, norm_mul, norm_ex, one_mul]
  exact Real.norm_exp_I_mul_ofReal_sub_one_le

theorem triple_lip (a b c a' b' c' : ℂ) (h1 : ‖b‖ ≤ 2) (h2 : ‖c‖ ≤ 2) (h3 : ‖a'‖ ≤ 2) (h4 : ‖b'‖ ≤ 2) :
    ‖a * b * c / 4 - a' * b' * c' / 4‖ ≤ ‖a - a'‖ + ‖b - b'‖ + ‖c - c'‖ := by
  have e : a * b * c / 4 - a' * b' * c' / 4 =
      ((a - a') * b * c + a' * (b - b') * c + a' * b' * (c - c')) / 4 := by ring
  rw [e, norm_div]
  have n4 : ‖(4 : ℂ)‖ = 4 := by simp
  rw [n4, div_le_iff₀ (by norm_num)]
  have m1 : ‖(a - a') * b * c‖ ≤ 4 * ‖a - a'‖ := by
    rw [norm_mul, norm_mul]
    have : ‖b‖ * ‖c‖ ≤ 2 * 2 := mul_le_mul h1 h2 (norm_nonneg _) (by norm_num)
    nlinarith [norm_nonneg (a - a')]
  have m2 : ‖a' * (b - b') * c‖ ≤ 4 * ‖b - b'‖ := by
    rw [norm_mul, norm_mul]
    have : ‖a'‖ * ‖c‖ ≤ 2 * 2 := mul_le_mul h3 h2 (norm_nonneg _) (by norm_num)
    nlinarith [norm_nonneg (b - b')]
  have m3 : ‖a' * b' * (c - c')‖ ≤ 4 * ‖c - c'‖ := by
    rw [norm_mul, norm_mul]
    have : ‖a'‖ * ‖b'‖ ≤ 2 * 2 := mul_le_mul h3 h4 (norm_nonneg _) (by norm_num)
    nlinarith [norm_nonneg (c - c')]
  calc _ ≤ ‖(a - a') * b * c + a' * (b - b') * c‖ + ‖a' * b' * (c - c')‖ := norm_add_le _ _
    _ ≤ ‖(a - a') * b * c‖ + ‖a' * (b - b') * c‖ + ‖a' * b' * (c - c')‖ := by
      gcongr; exact norm_add_le _ _
    _ ≤ _ := by linarith

theorem norm_one_add_ex (t : ℝ) : ‖1 + ex t‖ ≤ 2 := by
  have := norm_add_le (1 : ℂ) (ex t)
  rw [norm_ex, norm_one] at this
  linarith

theorem norm_ex_sub_one (t : ℝ) : ‖ex t - 1‖ ≤ 2 := by
  have := norm_sub_le (ex t) (1 : ℂ)
  rw [norm_ex, norm_one] at this
  linarith

theorem sym_lip (x y : Fin 3 → ℝ) (j : Fin 3) : ‖sym x j - sym y j‖ ≤ ∑ a, |x a - y a| := by
  have h : ∀ a, ‖ex (x a) - ex (y a)‖ ≤ |x a - y a| := fun a => ex_lip _ _
  have p : ∀ a, ‖(1 + ex (x a)) - (1 + ex (y a))‖ ≤ |x a - y a| := fun a => by
    rw [add_sub_add_left_eq_sub]; exact h a
  have m : ∀ a, ‖(ex (x a) - 1) - (ex (y a) - 1)‖ ≤ |x a - y a| := fun a => by
    rw [sub_sub_sub_cancel_right]; exact h a
  rw [Fin.sum_univ_three]
  fin_cases j
  · simp only [Fin.zero_eta, sym, Matrix.cons_val_zero]
    refine (triple_lip _ _ _ _ _ _ (norm_one_add_ex _) (norm_one_add_ex _) (norm_ex_sub_one _)
      (norm_one_add_ex _)).trans ?_
    linarith [m 0, p 1, p 2]
  · simp only [Fin.mk_one, sym, Matrix.cons_val_one, Matrix.cons_val_zero]
    refine (triple_lip _ _ _ _ _ _ (norm_ex_sub_one _) (norm_one_add_ex _) (norm_one_add_ex _)
      (norm_ex_sub_one _)).trans ?_
    linarith [p 0, m 1, p 2]
  · simp only [Fin.reduceFinMk, sym, Matrix.cons_val]
    refine (triple_lip _ _ _ _ _ _ (norm_one_add_ex _) (norm_ex_sub_one _) (norm_one_add_ex _)
      (norm_one_add_ex _)).trans ?_
    linarith [p 0, p 1, m 2]

/-! ### On a grid -/

variable (n : Fin 3 → ℕ)

/-- Neighbour of a point, periodically. -/
def step {n : Fin 3 → ℕ} (hp : ∀ a, 0 < n a) (x : (Large.unitGrid n).Ix) (s : Corner) :
    (Large.unitGrid n).Ix :=
  fun a => ⟨((x a : ℕ) + (s a : ℕ)) % n a, Nat.mod_lt _ (hp a)⟩

theorem ex_angle (hp : ∀ a, 0 < n a) (k : (Large.unitGrid n).Ix) (a : Fin 3) :
    ex (angle (2 * Real.pi) (Large.unitGrid n) k a) =
      Complex.exp (2 * Real.pi * I * (((k a : ℕ) : ℂ) / (n a : ℂ))) := by
  have hn : (n a : ℂ) ≠ 0 := Nat.cast_ne_zero.mpr (hp a).ne'
  rw [ex, Complex.exp_eq_exp_iff_exists_int]
  have hw : waveIndex (n a) (k a) = ((k a : ℕ) : ℤ) - n a ∨ waveIndex (n a) (k a) = ((k a : ℕ) : ℤ) := by
    unfold waveIndex; split_ifs <;> simp
  simp only [angle, EvpGrid.freq, waveFreq, Large.unitGrid]
  rcases hw with h | h <;> rw [h]
  · refine ⟨-1, ?_⟩
    push_cast
    field_simp
    ring
  · refine ⟨0, ?_⟩
    push_cast
    field_simp
    ring

theorem chi_step (hp : ∀ a, 0 < n a) (k x : (Large.unitGrid n).Ix) (s : Corner) :
    (Large.unitGrid n).chi k (step hp x s) = (Large.unitGrid n).chi k x *
      ∏ a, if s a = 1 then ex (angle (2 * Real.pi) (Large.unitGrid n) k a) else 1 := by
  rw [EvpGrid.chi_prod, EvpGrid.chi_prod, ← Finset.prod_mul_distrib]
  refine Finset.prod_congr rfl fun a _ => ?_
  have hn : (n a : ℂ) ≠ 0 := Nat.cast_ne_zero.mpr (hp a).ne'
  have hm := Nat.div_add_mod ((x a : ℕ) + (s a : ℕ)) (n a)
  have e : (if s a = 1 then ex (angle (2 * Real.pi) (Large.unitGrid n) k a) else 1) =
      Complex.exp (2 * Real.pi * I * (((k a : ℕ) : ℂ) * ((s a : ℕ) : ℂ) / (n a : ℂ))) := by
    rcases Fin.exists_fin_two.mp ⟨s a, rfl⟩ with h | h
    · rw [h]; simp
    · rw [h, if_pos rfl, ex_angle n hp]; simp
  rw [e, ← Complex.exp_add, Complex.exp_eq_exp_iff_exists_int]
  refine ⟨-(((k a : ℕ) : ℤ) * ((((x a : ℕ) + (s a : ℕ)) / n a : ℕ) : ℤ)), ?_⟩
  have hm' : ((((x a : ℕ) + (s a : ℕ)) % n a : ℕ) : ℂ) =
      ((x a : ℕ) : ℂ) + ((s a : ℕ) : ℂ) - (n a : ℂ) * ((((x a : ℕ) + (s a : ℕ)) / n a : ℕ) : ℂ) := by
    have : ((n a * (((x a : ℕ) + (s a : ℕ)) / n a) + ((x a : ℕ) + (s a : ℕ)) % n a : ℕ) : ℂ) =
        (((x a : ℕ) + (s a : ℕ) : ℕ) : ℂ) := by rw [hm]
    push_cast at this
    linear_combination this
  show 2 * Real.pi * I * (((k a : ℕ) : ℂ) * ((((x a : ℕ) + (s a : ℕ)) % n a : ℕ) : ℂ) / (n a : ℂ)) = _
  rw [hm']
  generalize (((x a : ℕ) + (s a : ℕ)) / n a : ℕ) = q
  simp only [Large.unitGrid]
  push_cast
  field_simp
  ring

/-- The exact table. -/
noncomputable def symTable (k : (Large.unitGrid n).Ix) : Fin 3 → ℂ :=
  sym (angle (2 * Real.pi) (Large.unitGrid n) k)

theorem complex_grad (hp : ∀ a, 0 < n a) (v : (Large.unitGrid n).Ix → ℝ) (x : (Large.unitGrid n).Ix)
    (j : Fin 3) :
    (1 / ((Large.unitGrid n).size : ℂ)) *
      ∑ k, ((Large.unitGrid n).forward v k * symTable n k j) * (Large.unitGrid n).chi k x =
    ((∑ s : Corner, (if s j = 1 then 1 else -1) / 4 * v (step hp x s) : ℝ) : ℂ) := by
  have e : ∀ k, ((Large.unitGrid n).forward v k * symTable n k j) * (Large.unitGrid n).chi k x =
      ∑ s : Corner, (if s j = 1 then 1 else -1) / 4 *
        ((Large.unitGrid n).forward v k * (Large.unitGrid n).chi k (step hp x s)) := by
    intro k
    rw [symTable, sym_corners, Finset.mul_sum, Finset.sum_mul]
    refine Finset.sum_congr rfl fun s _ => ?_
    rw [chi_step]; ring
  rw [Finset.sum_congr rfl fun k _ => e k, Finset.sum_comm, Finset.mul_sum]
  push_cast
  refine Finset.sum_congr rfl fun s _ => ?_
  rw [← Finset.mul_sum, ← EvpGrid.inversion (Large.unitGrid n) hp v (step hp x s)]
  split_ifs <;> push_cast <;> ring

theorem grad_symTable (hp : ∀ a, 0 < n a) (v : (Large.unitGrid n).Ix → ℝ) (x : (Large.unitGrid n).Ix)
    (j : Fin 3) : gradOf (symTable n) v x j =
      ∑ s : Corner, (if s j = 1 then 1 else -1) / 4 * v (step hp x s) := by
  rw [gradOf, EvpGrid.backward, complex_grad n hp, Complex.ofReal_re]

theorem angle_le (hp : ∀ a, 0 < n a) (t : ℝ) (k : (Large.unitGrid n).Ix) (a : Fin 3) :
    |angle t (Large.unitGrid n) k a - angle (2 * Real.pi) (Large.unitGrid n) k a| ≤ |t - 2 * Real.pi| / 2 := by
  have hn : (0 : ℝ) < n a := Nat.cast_pos.mpr (hp a)
  have hk : (k a : ℕ) < n a := (k a).isLt
  have hw : |((waveIndex (n a) (k a) : ℤ) : ℝ)| ≤ n a / 2 := by
    have : |2 * waveIndex (n a) (k a)| ≤ (n a : ℤ) := by
      rw [abs_le]; unfold waveIndex; split_ifs <;> omega
    have h2 : ((|2 * waveIndex (n a) (k a)| : ℤ) : ℝ) ≤ n a := by exact_mod_cast this
    push_cast at h2
    rw [abs_mul, abs_two] at h2
    linarith
  simp only [angle, EvpGrid.freq, waveFreq, Large.unitGrid, one_mul]
  rw [← sub_mul, abs_mul, abs_div, abs_of_pos hn]
  have : |((waveIndex (n a) (k a) : ℤ) : ℝ)| / n a ≤ 1 / 2 := by
    rw [div_le_iff₀ hn]; linarith
  calc _ ≤ |t - 2 * Real.pi| * (1 / 2) := mul_le_mul_of_nonneg_left this (abs_nonneg _)
    _ = _ := by ring

end Fierro.Lsnp
