import Verif.Proofs.EvpRotatedGrid

/-!
# C124: the rotated scheme of LSNP-EVPFFT

Specification: a point of the grid carries a velocity, the corner of a voxel; a voxel has eight corners,
found periodically.  The gradient of a voxel is the mean of the four differences of its corners along each
direction.
-/

namespace Fierro

open Lsnp Complex

/-- Points of a grid with `n` points along the three directions: a number below `n a` for each. -/
abbrev GridPt (n : Fin 3 → ℕ) := (Large.unitGrid n).Ix

/-- The corner `s` of the voxel at `x`, periodically. -/
def cornerOf {n : Fin 3 → ℕ} (hp : ∀ a, 0 < n a) (x : GridPt n) (s : Fin 3 → Fin 2) : GridPt n :=
  fun a => ⟨((x a : ℕ) + (s a : ℕ)) % n a, Nat.mod_lt _ (hp a)⟩

/-- Derivative along direction `j` in the voxel at `x`: the mean of the four differences of its corners. -/
noncomputable def cellGrad {n : Fin 3 → ℕ} (hp : ∀ a, 0 < n a) (v : GridPt n → ℝ) (x : GridPt n) (j : Fin 3) :
    ℝ :=
  ((∑ s : Fin 3 → Fin 2, if s j = 1 then v (cornerOf hp x s) else 0) -
    ∑ s : Fin 3 → Fin 2, if s j = 0 then v (cornerOf hp x s) else 0) / 4

theorem cellGrad_eq {n : Fin 3 → ℕ} (hp : ∀ a, 0 < n a) (v : GridPt n → ℝ) (x : GridPt n) (j : Fin 3) :
    cellGrad hp v x j = gradOf (symTable n) v x j := by
  rw [grad_symTable n hp, cellGrad, ← Finset.sum_sub_distrib, Finset.sum_div]
  refine Finset.sum_congr rfl fun s _ => ?_
  have : s j = 0 ∨ s j = 1 := Fin.exists_fin_two.mp ⟨s j, rfl⟩
  have e : cornerOf hp x s = step hp x s := rfl
  rw [e]
  rcases this with h | h
  · simp [h]; ring
  · simp [h]; ring

theorem cos_half_zero (t : ℝ) : Real.cos (t / 2) = 0 ↔ ∃ m : ℤ, t = (2 * m + 1) * Real.pi := by
  rw [Real.cos_eq_zero_iff]
  constructor
  · rintro ⟨m, h⟩; exact ⟨m, by linarith⟩
  · rintro ⟨m, h⟩; exact ⟨m, by linarith⟩

/-- **C124 (closed form).** The frequency of the rotated scheme is what the mean of the four corner
differences does to a plane wave, and it exists unless an angle is an odd multiple of `π`. -/
theorem C124_closed_form (x : Fin 3 → ℝ) :
    (modFreq x = none ↔ ∃ a, ∃ m : ℤ, x a = (2 * m + 1) * Real.pi) ∧
    ∀ K, modFreq x = some K → ∀ j, K j = ((∑ s : Fin 3 → Fin 2, if s j = 1 then
        Complex.exp ((∑ a, ((s a : ℕ) : ℂ) * x a) * I) else 0) -
      ∑ s : Fin 3 → Fin 2, if s j = 0 then Complex.exp ((∑ a, ((s a : ℕ) : ℂ) * x a) * I) else 0) / 4 := by
  constructor
  · simp only [← cos_half_zero]
    unfold modFreq
    split_ifs with h
    · simpa using h
    · simpa using h
  · intro K hK j
    have h : ∀ a, Real.cos (x a / 2) ≠ 0 := by
      intro a h0
      rw [modFreq, if_pos ⟨a, h0⟩] at hK
      exact absurd hK (by simp)
    rw [modFreq_eq x h, Option.some.injEq] at hK
    rw [← hK, sym_corners, ← Finset.sum_sub_distrib, Finset.sum_div]
    refine Finset.sum_congr rfl fun s _ => ?_
    have e : Complex.exp ((∑ a, ((s a : ℕ) : ℂ) * x a) * I) = ∏ a, if s a = 1 then ex (x a) else 1 := by
      rw [Finset.sum_mul, Complex.exp_sum]
      refine Finset.prod_congr rfl fun a _ => ?_
      rcases Fin.exists_fin_two.mp ⟨s a, rfl⟩ with h | h <;> rw [h] <;> simp [ex]
    rw [e]
    rcases Fin.exists_fin_two.mp ⟨s j, rfl⟩ with h | h
    · simp [h]; ring
    · simp [h]; ring

theorem modTable_none (t : ℝ) (g : EvpGrid) :
    modTable t g = none ↔ ∃ k, modFreq (angle t g k) = none := by
  unfold modTable
  split_ifs with h
  · simp only [false_iff, not_exists]
    intro k hk
    have := h k
    rw [hk] at this
    exact absurd this (by simp)
  · push Not at h
    simpa using h

theorem modTable_some (t : ℝ) (g : EvpGrid) (K) (h : modTable t g = some K) (k : g.Ix) :
    modFreq (angle t g k) = some (K k) := by
  unfold modTable at h
  split_ifs at h with h1
  rw [Option.some.injEq] at h
  rw [← h]
  simp

/-- **C124 (highest frequency).** With an exact circle constant the table of frequencies would not exist as
soon as one direction has an even number of points: at the highest frequency of that direction the code
multiplies an infinite tangent with a zero prefactor. Only the rounding of the constant keeps the runs of
such grids going. -/
theorem C124_highest_frequency_fails (n : Fin 3 → ℕ) (hp : ∀ a, 0 < n a) :
    modTable (2 * Real.pi) (Large.unitGrid n) = none ↔ ∃ a, Even (n a) := by
  rw [modTable_none]
  simp only [(C124_closed_form _).1]
  have hn : ∀ a, (n a : ℝ) ≠ 0 := fun a => Nat.cast_ne_zero.mpr (hp a).ne'
  have ha : ∀ (k : (Large.unitGrid n).Ix) a, angle (2 * Real.pi) (Large.unitGrid n) k a =
      2 * (waveIndex (n a) (k a) : ℤ) / n a * Real.pi := by
    intro k a
    have := half_angle hp k a
    linear_combination 2 * this
  constructor
  · rintro ⟨k, a, m, h⟩
    refine ⟨a, ?_⟩
    rw [ha] at h
    have h2 := mul_right_cancel₀ Real.pi_ne_zero h
    rw [div_eq_iff (hn a)] at h2
    have h3 : 2 * waveIndex (n a) (k a) = (2 * m + 1) * (n a : ℤ) := by exact_mod_cast h2
    have h4 : Even ((2 * m + 1) * (n a : ℤ)) := by rw [← h3]; exact even_two_mul _
    rw [Int.even_mul] at h4
    rcases h4 with h5 | h5
    · exact absurd h5 (by rw [Int.not_even_iff_odd]; exact odd_two_mul_add_one m)
    · exact_mod_cast h5
  · rintro ⟨a, r, hr⟩
    have hpa := hp a
    refine ⟨fun b => if h : b = a then ⟨r, by subst h; show r < n b; omega⟩ else ⟨0, hp b⟩, a, 0, ?_⟩
    rw [ha]
    simp only [dif_pos]
    have : waveIndex (n a) r = r := by
      unfold waveIndex
      rw [if_neg (by omega)]
    rw [this]
    have h2 : (n a : ℝ) = r + r := by exact_mod_cast hr
    have hr0 : (r : ℝ) ≠ 0 := by
      intro h0
      apply hn a
      rw [h2, h0, add_zero]
    rw [h2]
    push_cast
    field_simp
    ring

/-- **C124 (all frequencies).** With the circle constant of the code, a double and so a rational number, every
frequency of every grid exists. -/
theorem C124_defined (n : Fin 3 → ℕ) (hp : ∀ a, 0 < n a) (t : ℚ) :
    ∃ K, modTable t (Large.unitGrid n) = some K := by
  rw [← Option.ne_none_iff_exists']
  intro h
  rw [modTable_none] at h
  obtain ⟨k, hk⟩ := h
  obtain ⟨a, m, h⟩ := (C124_closed_form _).1.mp hk
  have hn : (n a : ℝ) ≠ 0 := Nat.cast_ne_zero.mpr (hp a).ne'
  have hm : ((2 * m + 1 : ℤ) : ℝ) ≠ 0 := by
    have : (2 * m + 1 : ℤ) ≠ 0 := by omega
    exact_mod_cast this
  apply irrational_pi
  refine ⟨t * (waveIndex (n a) (k a) : ℤ) / n a / (2 * m + 1 : ℤ), ?_⟩
  simp only [angle, EvpGrid.freq, waveFreq, Large.unitGrid, one_mul] at h
  push_cast at hm ⊢
  rw [div_eq_iff hm]
  linear_combination h

theorem norm_forward_le {n : Fin 3 → ℕ} (v : (Large.unitGrid n).Ix → ℝ) (k : (Large.unitGrid n).Ix) :
    ‖(Large.unitGrid n).forward v k‖ ≤ ∑ x, |v x| := by
  refine (norm_sum_le _ _).trans (Finset.sum_le_sum fun x _ => ?_)
  rw [norm_mul, RCLike.norm_conj, Complex.norm_real, Real.norm_eq_abs, EvpGrid.chi_prod, norm_prod]
  rw [Finset.prod_eq_one, mul_one]
  intro a _
  rw [show (2 * Real.pi * I * (((k a : ℕ) : ℂ) * ((x a : ℕ) : ℂ) / ((Large.unitGrid n).n a : ℂ)) : ℂ) =
    ((2 * Real.pi * (((k a : ℕ) : ℝ) * ((x a : ℕ) : ℝ) / ((Large.unitGrid n).n a : ℝ)) : ℝ) : ℂ) * I by
      push_cast; ring]
  exact Complex.norm_exp_ofReal_mul_I _

theorem norm_chi {n : Fin 3 → ℕ} (k x : (Large.unitGrid n).Ix) : ‖(Large.unitGrid n).chi k x‖ = 1 := by
  rw [EvpGrid.chi_prod, norm_prod]
  refine Finset.prod_eq_one fun a _ => ?_
  rw [show (2 * Real.pi * I * (((k a : ℕ) : ℂ) * ((x a : ℕ) : ℂ) / ((Large.unitGrid n).n a : ℂ)) : ℂ) =
    ((2 * Real.pi * (((k a : ℕ) : ℝ) * ((x a : ℕ) : ℝ) / ((Large.unitGrid n).n a : ℝ)) : ℝ) : ℂ) * I by
      push_cast; ring]
  exact Complex.norm_exp_ofReal_mul_I _

theorem card_ix (n : Fin 3 → ℕ) : Fintype.card (Large.unitGrid n).Ix = n 0 * n 1 * n 2 := by
  show Fintype.card ((a : Fin 3) → Fin (n a)) = _
  rw [Fintype.card_pi, Fin.prod_univ_three]
  simp

/-- **C124 (gradient).** The gradient the code takes of a velocity field through the transforms is that of the
eight corners of each voxel, up to the rounding of the circle constant. -/
theorem C124_gradient (n : Fin 3 → ℕ) (hp : ∀ a, 0 < n a) (t : ℝ) (K)
    (hK : modTable t (Large.unitGrid n) = some K) (v : GridPt n → ℝ) (x : GridPt n) (j : Fin 3) :
    |gradOf K v x j - cellGrad hp v x j| ≤ 3 / 2 * |t - 2 * Real.pi| * ∑ y, |v y| := by
  have hK' : ∀ k, K k = sym (angle t (Large.unitGrid n) k) := by
    intro k
    have h := modTable_some t _ K hK k
    have hc : ∀ a, Real.cos (angle t (Large.unitGrid n) k a / 2) ≠ 0 := by
      intro a h0
      rw [modFreq, if_pos ⟨a, h0⟩] at h
      exact absurd h (by simp)
    rw [modFreq_eq _ hc, Option.some.injEq] at h
    exact h.symm
  have hd : ∀ k, ‖K k j - symTable n k j‖ ≤ 3 / 2 * |t - 2 * Real.pi| := by
    intro k
    rw [hK', symTable]
    refine (sym_lip _ _ j).trans ?_
    rw [Fin.sum_univ_three]
    linarith [angle_le n hp t k 0, angle_le n hp t k 1, angle_le n hp t k 2]
  have hs : (0 : ℝ) < (n 0 * n 1 * n 2 : ℕ) := by
    have := Nat.mul_pos (Nat.mul_pos (hp 0) (hp 1)) (hp 2)
    exact_mod_cast this
  rw [cellGrad_eq, gradOf, gradOf, ← backward_sub]
  unfold EvpGrid.backward
  refine (Complex.abs_re_le_norm _).trans ?_
  rw [norm_mul]
  have e : ‖(1 / ((Large.unitGrid n).size : ℂ))‖ = 1 / ((n 0 * n 1 * n 2 : ℕ) : ℝ) := by
    rw [norm_div, norm_one, Complex.norm_natCast]; rfl
  rw [e, div_mul_eq_mul_div, one_mul, div_le_iff₀ hs]
  refine (norm_sum_le _ _).trans ?_
  calc _ ≤ ∑ _k : (Large.unitGrid n).Ix, 3 / 2 * |t - 2 * Real.pi| * ∑ y, |v y| := by
        refine Finset.sum_le_sum fun k _ => ?_
        rw [norm_mul, norm_chi, mul_one]
        show ‖(Large.unitGrid n).forward v k * K k j - (Large.unitGrid n).forward v k * symTable n k j‖ ≤ _
        rw [← mul_sub, norm_mul, mul_comm]
        exact mul_le_mul (hd k) (norm_forward_le v k) (norm_nonneg _) (by positivity)
    _ = _ := by
        rw [Finset.sum_const, Finset.card_univ, card_ix, nsmul_eq_mul, mul_comm]

/-- **C124 (exact gradient).** On a grid with odd numbers of points an exact circle constant gives the
gradient of the eight corners exactly. -/
theorem C124_gradient_exact (n : Fin 3 → ℕ) (hp : ∀ a, 0 < n a) (ho : ∀ a, Odd (n a)) :
    ∃ K, modTable (2 * Real.pi) (Large.unitGrid n) = some K ∧
      ∀ (v : GridPt n → ℝ) (x : GridPt n) (j : Fin 3), gradOf K v x j = cellGrad hp v x j := by
  have h : modTable (2 * Real.pi) (Large.unitGrid n) ≠ none := by
    rw [Ne, C124_highest_frequency_fails n hp]
    rintro ⟨a, ha⟩
    exact Nat.not_even_iff_odd.mpr (ho a) ha
  obtain ⟨K, hK⟩ := Option.ne_none_iff_exists'.mp h
  refine ⟨K, hK, fun v x j => ?_⟩
  have := C124_gradient n hp (2 * Real.pi) K hK v x j
  rw [sub_self, abs_zero, mul_zero, zero_mul] at this
  linarith [abs_nonpos_iff.mp this]

theorem oddTable (n : Fin 3 → ℕ) (K) (hK : modTable (2 * Real.pi) (Large.unitGrid n) = some K) :
    K = symTable n := by
  funext k
  have h := modTable_some _ _ K hK k
  have hc : ∀ a, Real.cos (angle (2 * Real.pi) (Large.unitGrid n) k a / 2) ≠ 0 := by
    intro a h0
    rw [modFreq, if_pos ⟨a, h0⟩] at h
    exact absurd h (by simp)
  rw [modFreq_eq _ hc, Option.some.injEq] at h
  exact h.symm

theorem exactTable_odd {n : Fin 3 → ℕ} (hp : ∀ a, 0 < n a) {K}
    (hK : modTable (2 * Real.pi) (Large.unitGrid n) = some K) (a : Fin 3) : n a % 2 = 1 := by
  by_contra h
  have : modTable (2 * Real.pi) (Large.unitGrid n) = none :=
    (C124_highest_frequency_fails n hp).mpr ⟨a, Nat.even_iff.mpr (by omega)⟩
  rw [hK] at this
  exact absurd this (by simp)

theorem sum_cellGrad {n : Fin 3 → ℕ} (hp : ∀ a, 0 < n a) (v : GridPt n → ℝ) (j : Fin 3) :
    ∑ x, cellGrad hp v x j = 0 := by
  have h := forward_grad hp v (origin hp) j
  rw [symTable_origin, Pi.zero_apply, mul_zero, forward_origin] at h
  have h2 : ∑ x, gradOf (symTable n) v x j = 0 := by exact_mod_cast h
  rw [← h2]
  exact Finset.sum_congr rfl fun x _ => cellGrad_eq hp v x j

theorem velocity_any {n : Fin 3 → ℕ} (hp : ∀ a, 0 < n a) (hN : (n 0 * n 1 * n 2) ^ 2 ≤ 16 * 10 ^ 15) (K)
    (hK : modTable (2 * Real.pi) (Large.unitGrid n) = some K) (wgt : ℝ) (v : GridPt n → Fin 3 → ℝ)
    (A : Fin 3 → Fin 3 → ℝ) (x : GridPt n) (i : Fin 3) :
    velocityRot K wgt (fun y i j => cellGrad hp (fun z => v z i) y j + A i j) x i =
      v x i - (∑ y, v y i) / ((n 0 * n 1 * n 2 : ℕ) : ℝ) +
        wgt * ((n 0 * n 1 * n 2 : ℕ) : ℝ) * ∑ j, A i j * (((x j : ℕ) : ℝ) + 1 / 2) := by
  have hT := oddTable n K hK
  subst hT
  have hs : (0 : ℝ) < (n 0 * n 1 * n 2 : ℕ) := by
    have := Nat.mul_pos (Nat.mul_pos (hp 0) (hp 1)) (hp 2)
    exact_mod_cast this
  have hN' : (((n 0 * n 1 * n 2 : ℕ) : ℝ)) ^ 2 ≤ 16 * 10 ^ 15 := by exact_mod_cast hN
  have hfw : ∀ k, k ≠ origin hp → ∀ a b, (Large.unitGrid n).forward (fun y =>
      cellGrad hp (fun z => v z a) y b + A a b) k =
      (Large.unitGrid n).forward (fun z => v z a) k * symTable n k b := by
    intro k hk a b
    rw [forward_add, forward_const hp, if_neg hk, add_zero, ← forward_grad hp]
    congr 1
    funext y
    exact cellGrad_eq hp _ y b
  have hhat : (fun k => velHatRot (symTable n k) (fun a b => (Large.unitGrid n).forward (fun y =>
      cellGrad hp (fun z => v z a) y b + A a b) k) i) = fun k =>
      (Large.unitGrid n).forward (fun z => v z i) k -
        if k = origin hp then (((∑ y, v y i : ℝ)) : ℂ) else 0 := by
    funext k
    by_cases hk : k = origin hp
    · rw [if_pos hk, hk, forward_origin, sub_self]
      apply velHatRot_small
      rw [symTable_origin]
      simp [modNorm]
      norm_num
    · rw [if_neg hk, sub_zero]
      refine velHatRot_grad _ _ (fun a => (Large.unitGrid n).forward (fun z => v z a) k) (hfw k hk) i ?_
      refine le_trans ?_ (modNorm_lower hp (exactTable_odd hp hK) k hk)
      rw [le_div_iff₀ (by positivity)]
      norm_num at hN' ⊢
      linarith
  have havg : ∀ j, avgCode wgt (fun y i j => cellGrad hp (fun z => v z i) y j + A i j) i j =
      wgt * ((n 0 * n 1 * n 2 : ℕ) : ℝ) * A i j := by
    intro j
    unfold avgCode
    rw [← Finset.sum_mul, Finset.sum_add_distrib, sum_cellGrad, Finset.sum_const, Finset.card_univ, card_ix,
      nsmul_eq_mul]
    ring
  rw [velocityRot, hhat, backward_sub, (Large.unitGrid n).backward_forward hp, backward_mean hp,
    Complex.ofReal_re, Finset.mul_sum]
  congr 1
  refine Finset.sum_congr rfl fun j _ => ?_
  rw [havg]
  norm_num
  ring_nf

/-- **C124 (velocities).** On a grid with odd numbers of points, up to a hundred million of them together, the
velocity field recovered from a velocity gradient is the field it came from, with its mean replaced by the
linear field of the mean gradient. -/
theorem C124_velocity (n : Fin 3 → ℕ) (hp : ∀ a, 0 < n a) (hN : (n 0 * n 1 * n 2) ^ 2 ≤ 16 * 10 ^ 15) (K)
    (hK : modTable (2 * Real.pi) (Large.unitGrid n) = some K) (wgt : ℝ)
    (hw : wgt * ((n 0 * n 1 * n 2 : ℕ) : ℝ) = 1) (v : GridPt n → Fin 3 → ℝ) (A : Fin 3 → Fin 3 → ℝ)
    (ref : GridPt n → Fin 3 → Fin 3 → ℝ) (hr : ∀ x i j, ref x i j = cellGrad hp (fun z => v z i) x j + A i j)
    (x : GridPt n) (i : Fin 3) :
    velocityRot K wgt ref x i = v x i - (∑ y, v y i) / ((n 0 * n 1 * n 2 : ℕ) : ℝ) +
      ∑ j, A i j * (((x j : ℕ) : ℝ) + 1 / 2) := by
  have e : ref = fun y i j => cellGrad hp (fun z => v z i) y j + A i j := by
    funext y i j; exact hr y i j
  rw [e, velocity_any hp hN K hK, hw, one_mul]

/-- **C124 (weight).** The weight of a point divides by the second number of points twice and not by the
third. A uniform velocity gradient therefore gives velocities multiplied by the ratio of the third to the
second number of points, wrong as soon as the two differ. -/
theorem C124_weight_fails (n : Fin 3 → ℕ) (hp : ∀ a, 0 < n a) (hN : (n 0 * n 1 * n 2) ^ 2 ≤ 16 * 10 ^ 15) (K)
    (hK : modTable (2 * Real.pi) (Large.unitGrid n) = some K) (A : Fin 3 → Fin 3 → ℝ) (x : GridPt n)
    (i : Fin 3) :
    velocityRot K (wgtCode (fun a => n a) 0) (fun _ => A) x i =
      (n 2 : ℝ) / n 1 * ∑ j, A i j * (((x j : ℕ) : ℝ) + 1 / 2) := by
  have h := velocity_any hp hN K hK (wgtCode (fun a => n a) 0) (fun _ _ => 0) A x i
  have hc : ∀ y j, cellGrad hp (fun _ => (0 : ℝ)) y j = 0 := by
    intro y j; simp [cellGrad]
  simp only [hc, zero_add] at h
  have hn : ∀ a, (n a : ℝ) ≠ 0 := fun a => Nat.cast_ne_zero.mpr (hp a).ne'
  have hw : wgtCode (fun a => n a) 0 * ((n 0 * n 1 * n 2 : ℕ) : ℝ) = (n 2 : ℝ) / n 1 := by
    have h0 := hn 0
    have h1 := hn 1
    simp only [wgtCode, Pi.zero_apply, mul_zero, sub_zero]
    push_cast
    field_simp
  rw [hw] at h
  rw [h]
  simp

/-- Sign of a corner. -/
theorem neg_one_mod (m q : ℕ) (hq : Even q) : ((-1 : ℝ)) ^ (m % q) = (-1) ^ m := by
  conv_rhs => rw [← Nat.div_add_mod m q]
  rw [pow_add, pow_mul, hq.neg_one_pow, one_pow, one_mul]

/-- **C124 (hourglass).** When two directions have even numbers of points there is a velocity field, far from
constant, whose gradient is zero in every voxel: the velocity is not determined by the gradient. -/
theorem C124_hourglass_fails (n : Fin 3 → ℕ) (hp : ∀ a, 0 < n a) (a b : Fin 3) (hab : a ≠ b)
    (ha : Even (n a)) (hb : Even (n b)) :
    ∃ v : GridPt n → ℝ, (∀ x j, cellGrad hp v x j = 0) ∧ (∀ x, |v x| = 1) ∧ ∃ x y, v x ≠ v y := by
  refine ⟨fun x => (-1) ^ ((x a : ℕ)) * (-1) ^ ((x b : ℕ)), ?_, ?_, ?_⟩
  · intro x j
    rw [cellGrad_eq, grad_symTable n hp]
    have e : ∀ s : Corner, ((if s j = 1 then 1 else -1) / 4 *
        ((-1) ^ ((step hp x s a : ℕ)) * (-1) ^ ((step hp x s b : ℕ))) : ℝ) =
        1 / 4 * ((-1) ^ ((x a : ℕ)) * (-1) ^ ((x b : ℕ))) *
          ∏ c, ((if c = j then (if s c = 1 then 1 else -1) else 1) *
            (if c = a ∨ c = b then (if s c = 1 then -1 else 1) else 1)) := by
      intro s
      have hs : ∀ c, Even (n c) → ((-1 : ℝ)) ^ ((step hp x s c : ℕ)) =
          (-1) ^ ((x c : ℕ)) * if s c = 1 then -1 else 1 := by
        intro c hc
        show ((-1 : ℝ)) ^ (((x c : ℕ) + (s c : ℕ)) % n c) = _
        rw [neg_one_mod _ _ hc, pow_add]
        congr 1
        rcases Fin.exists_fin_two.mp ⟨s c, rfl⟩ with h | h <;> rw [h] <;> simp
      rw [hs a ha, hs b hb, Finset.prod_mul_distrib, Finset.prod_ite_eq' Finset.univ j,
        if_pos (Finset.mem_univ j)]
      have hprod : (∏ c, (if c = a ∨ c = b then (if s c = 1 then (-1 : ℝ) else 1) else 1)) =
          (if s a = 1 then -1 else 1) * (if s b = 1 then -1 else 1) := by
        rw [← Finset.prod_filter]
        rw [show (Finset.univ.filter fun c => c = a ∨ c = b) = {a, b} by ext c; simp]
        exact Finset.prod_pair hab
      rw [hprod]
      ring
    rw [Finset.sum_congr rfl fun s _ => e s, ← Finset.mul_sum]
    have f := Finset.prod_univ_sum (ι := Fin 3) (R := ℝ) (fun _ => (Finset.univ : Finset (Fin 2)))
      (fun c r => (if c = j then (if r = 1 then 1 else -1) else 1) *
            (if c = a ∨ c = b then (if r = 1 then -1 else 1) else 1))
    rw [Fintype.piFinset_univ] at f
    rw [← f]
    obtain ⟨c, hc, hcj⟩ : ∃ c, (c = a ∨ c = b) ∧ c ≠ j := by
      by_cases h : a = j
      · exact ⟨b, Or.inr rfl, fun h2 => hab (h.trans h2.symm)⟩
      · exact ⟨a, Or.inl rfl, h⟩
    rw [Finset.prod_eq_zero (Finset.mem_univ c), mul_zero]
    rw [Fin.sum_univ_two]
    simp [hc, hcj]
  · intro x
    rw [abs_mul, abs_pow, abs_pow, abs_neg, abs_one, one_pow, one_pow, one_mul]
  · obtain ⟨r, hr⟩ := ha
    have hpa := hp a
    refine ⟨fun c => ⟨0, hp c⟩, fun c => if h : c = a then ⟨1, by subst h; show 1 < n c; omega⟩ else ⟨0, hp c⟩, ?_⟩
    simp only [dif_pos, dif_neg hab.symm]
    norm_num

/-! ### The operator -/

/-- Stress caused by a velocity gradient in the reference medium. -/
noncomputable def refStress (c0 : T4 ℝ) (D : Fin 3 → Fin 3 → ℂ) (i j : Fin 3) : ℂ :=
  ∑ m, ∑ l, (c0 i j m l : ℂ) * D m l

/-- Frequencies of the scheme share a complex factor. -/
theorem dDft_rank (k : Fin 3 → ℂ) (t : Fin 3 → ℝ) (c : ℂ) (h : ∀ a, k a = t a * c) (i j : Fin 3) :
    dDft k i j = Complex.normSq c * (t i * t j) ∧
      ((dDft k i j : ℝ) : ℂ) = k i * (starRingEnd ℂ) (k j) := by
  have e : dDft k i j = Complex.normSq c * (t i * t j) := by
    simp only [dDft, h, Complex.mul_re, Complex.mul_im, Complex.ofReal_re, Complex.ofReal_im, Complex.normSq_apply]
    ring
  refine ⟨e, ?_⟩
  rw [e, h, h, map_mul, Complex.conj_ofReal]
  push_cast
  rw [Complex.normSq_eq_conj_mul_self]
  ring

theorem acousticRot_inverse (c0 : T4 ℝ) (hm : c0.Minor) (hp : c0.Pos) (k : Fin 3 → ℂ) (t : Fin 3 → ℝ) (c : ℂ)
    (h : ∀ a, k a = t a * c) (h0 : k ≠ 0) :
    InverseOf (acousticRot c0 k) (invertView (acousticRot c0 k)) := by
  have hc : c ≠ 0 := by
    rintro rfl
    apply h0
    funext a
    rw [h, mul_zero]; rfl
  have ht : t ≠ 0 := by
    rintro rfl
    apply h0
    funext a
    rw [h]; simp
  refine (invertView_inverse _ ?_).1
  intro x hx
  have := acoustic_posForm c0 hm hp t ht x hx
  have e : ∑ i, ∑ m, x i * acousticRot c0 k i m * x m =
      Complex.normSq c * ∑ i, ∑ m, x i * acoustic c0 t i m * x m := by
    simp only [acousticRot, (dDft_rank k t c h _ _).1, acoustic, Finset.mul_sum, Finset.sum_mul]
    refine Finset.sum_congr rfl fun i _ => Finset.sum_congr rfl fun m _ => Finset.sum_congr rfl fun j _ =>
      Finset.sum_congr rfl fun l _ => ?_
    ring
  rw [e]
  exact mul_pos (Complex.normSq_pos.mpr hc) this

/-- A frequency of the scheme. -/
theorem modFreq_rank (x : Fin 3 → ℝ) (k) (h : modFreq x = some k) :
    ∃ (t : Fin 3 → ℝ) (c : ℂ), ∀ a, k a = t a * c := by
  unfold modFreq at h
  split_ifs at h
  rw [Option.some.injEq] at h
  refine ⟨fun a => Real.tan (x a / 2), ⟨preRe x, preIm x⟩, fun a => ?_⟩
  rw [← h]
  apply Complex.ext <;>
    simp only [Complex.mul_re, Complex.mul_im, Complex.ofReal_re, Complex.ofReal_im] <;> ring

theorem inverse_apply_complex {A B : Dense 3 ℝ} (h : InverseOf A B) (x : Fin 3 → ℂ) (i : Fin 3) :
    ∑ m, (A i m : ℂ) * (∑ j, (B m j : ℂ) * x j) = x i ∧
      ∑ m, (B i m : ℂ) * (∑ j, (A m j : ℂ) * x j) = x i := by
  have key : ∀ P Q : Dense 3 ℝ, (∀ j, ∑ m, P i m * Q m j = if i = j then 1 else 0) →
      ∑ m, (P i m : ℂ) * (∑ j, (Q m j : ℂ) * x j) = x i := by
    intro P Q hPQ
    calc ∑ m, (P i m : ℂ) * (∑ j, (Q m j : ℂ) * x j) = ∑ j, ((∑ m, P i m * Q m j : ℝ) : ℂ) * x j := by
          simp only [Finset.mul_sum, Complex.ofReal_sum, Finset.sum_mul]
          rw [Finset.sum_comm]
          refine Finset.sum_congr rfl fun j _ => Finset.sum_congr rfl fun m _ => ?_
          push_cast; ring
      _ = x i := by
          rw [Finset.sum_eq_single i]
          · rw [hPQ, if_pos rfl, Complex.ofReal_one, one_mul]
          · intro j _ hj
            rw [hPQ, if_neg (Ne.symm hj), Complex.ofReal_zero, zero_mul]
          · simp
  exact ⟨key A B fun j => (h i j).2, key B A fun j => (h i j).1⟩

/-- The correction at one frequency. -/
theorem correctRot_eq (c0 : T4 ℝ) (k : Fin 3 → ℂ) (t : Fin 3 → ℝ) (c : ℂ) (h : ∀ a, k a = t a * c)
    (hk : 1.0e-15 ≤ modNorm k) (w : Fin 3 → Fin 3 → ℂ) (p q : Fin 3) :
    correctRot c0 false k w p q =
      (-∑ i, (invertView (acousticRot c0 k) p i : ℂ) * ∑ j, (starRingEnd ℂ) (k j) * w i j) * k q := by
  have e : correctRot c0 false k w p q = ∑ m, ∑ l, ((greenRot c0 k p q m l : ℝ) : ℂ) * w m l := by
    rw [correctRot]
    simp only [Bool.false_eq_true, if_false]
    apply Complex.ext
    · simp [Complex.re_sum]
    · simp [Complex.im_sum]
  rw [e, neg_mul, Finset.sum_mul, ← Finset.sum_neg_distrib]
  refine Finset.sum_congr rfl fun m _ => ?_
  rw [Finset.mul_sum, Finset.sum_mul, ← Finset.sum_neg_distrib]
  refine Finset.sum_congr rfl fun l _ => ?_
  rw [greenRot, if_neg (by rw [abs_of_nonneg (modNorm_nonneg k)]; exact not_lt.mpr hk)]
  have := (dDft_rank k t c h q l).2
  push_cast
  rw [this]
  ring

/-- **C124 (operator).** At a frequency of the scheme that is not negligible, the correction of the velocity
gradient is the gradient of a velocity, and added to the given stress the stress it causes in the reference
medium has no divergence. It is the only such correction. -/
theorem C124_green (c0 : T4 ℝ) (hm : c0.Minor) (hp : c0.Pos) (x : Fin 3 → ℝ) (k) (hx : modFreq x = some k)
    (hk : 1.0e-15 ≤ modNorm k) (w : Fin 3 → Fin 3 → ℂ) :
    (∃ u : Fin 3 → ℂ, ∀ i j, correctRot c0 false k w i j = u i * k j) ∧
    (∀ i, ∑ j, (starRingEnd ℂ) (k j) * (w i j + refStress c0 (correctRot c0 false k w) i j) = 0) ∧
    ∀ D : Fin 3 → Fin 3 → ℂ, (∃ u : Fin 3 → ℂ, ∀ i j, D i j = u i * k j) →
      (∀ i, ∑ j, (starRingEnd ℂ) (k j) * (w i j + refStress c0 D i j) = 0) →
      D = correctRot c0 false k w := by
  obtain ⟨t, c, h⟩ := modFreq_rank x k hx
  have h0 : k ≠ 0 := by
    rintro rfl
    simp [modNorm] at hk
    norm_num at hk
  have hinv := acousticRot_inverse c0 hm hp k t c h h0
  have hstress : ∀ (D : Fin 3 → Fin 3 → ℂ) (u : Fin 3 → ℂ), (∀ i j, D i j = u i * k j) → ∀ i,
      ∑ j, (starRingEnd ℂ) (k j) * (w i j + refStress c0 D i j) =
        ∑ j, (starRingEnd ℂ) (k j) * w i j + ∑ m, (acousticRot c0 k i m : ℂ) * u m := by
    intro D u hD i
    simp only [mul_add, Finset.sum_add_distrib]
    congr 1
    simp only [refStress, Finset.mul_sum, acousticRot]
    rw [Finset.sum_comm]
    refine Finset.sum_congr rfl fun m _ => ?_
    push_cast
    rw [Finset.sum_mul]
    refine Finset.sum_congr rfl fun j _ => ?_
    rw [Finset.sum_mul]
    refine Finset.sum_congr rfl fun l _ => ?_
    have d : ((dDft k j l : ℝ) : ℂ) = k l * (starRingEnd ℂ) (k j) := by
      rw [← (dDft_rank k t c h l j).2, show dDft k j l = dDft k l j by simp only [dDft]; ring]
    rw [d, hD]
    ring
  refine ⟨⟨_, fun i j => correctRot_eq c0 k t c h hk w i j⟩, fun i => ?_, ?_⟩
  · rw [hstress _ _ (fun i j => correctRot_eq c0 k t c h hk w i j)]
    have := (inverse_apply_complex hinv (fun i => ∑ j, (starRingEnd ℂ) (k j) * w i j) i).1
    simp only [mul_neg, Finset.sum_neg_distrib]
    rw [this]
    ring
  · rintro D ⟨u, hD⟩ heq
    funext p q
    rw [hD, correctRot_eq c0 k t c h hk w p q]
    congr 1
    have h2 : ∀ m, ∑ j, (acousticRot c0 k m j : ℂ) * u j = -∑ j, (starRingEnd ℂ) (k j) * w m j := by
      intro m
      have := heq m
      rw [hstress D u hD m] at this
      linear_combination this
    have := (inverse_apply_complex hinv u p).2
    simp only [h2, mul_neg, Finset.sum_neg_distrib] at this
    exact this.symm

/-! ### Whole fields -/

theorem symTable_opp {n : Fin 3 → ℕ} (hp : ∀ a, 0 < n a) (k : GridPt n) (j : Fin 3) :
    symTable n ((Large.unitGrid n).opp hp k) j = (starRingEnd ℂ) (symTable n k j) := by
  have h : ∀ a, ex (angle (2 * Real.pi) (Large.unitGrid n) ((Large.unitGrid n).opp hp k) a) =
      (starRingEnd ℂ) (ex (angle (2 * Real.pi) (Large.unitGrid n) k a)) := by
    intro a
    have hn : (n a : ℂ) ≠ 0 := Nat.cast_ne_zero.mpr (hp a).ne'
    rw [ex_angle n hp, ex_angle n hp, ← Complex.exp_conj, Complex.exp_eq_exp_iff_exists_int]
    have hk : (k a : ℕ) < n a := (k a).isLt
    have hv : (((Large.unitGrid n).opp hp k a : ℕ)) = (n a - (k a : ℕ)) % n a := rfl
    rw [hv]
    simp only [map_mul, map_div₀, Complex.conj_I, Complex.conj_ofReal, map_ofNat, map_natCast]
    by_cases h0 : (k a : ℕ) = 0
    · refine ⟨0, ?_⟩
      rw [h0, Nat.sub_zero, Nat.mod_self]
      simp
    · refine ⟨1, ?_⟩
      rw [Nat.mod_eq_of_lt (by omega), Nat.cast_sub hk.le]
      field_simp
      push_cast
      ring
  have h4 : (starRingEnd ℂ) (4 : ℂ) = 4 := map_ofNat _ 4
  fin_cases j <;> simp [symTable, sym, h, h4]

theorem acousticRot_conj (c0 : T4 ℝ) (k l : Fin 3 → ℂ) (h : ∀ a, l a = (starRingEnd ℂ) (k a)) :
    acousticRot c0 l = acousticRot c0 k := by
  funext i m
  simp only [acousticRot, dDft, h, Complex.conj_re, Complex.conj_im]
  simp

/-- Parseval. -/
theorem parseval (g : EvpGrid) (hp : g.Pos) (f h : g.Ix → ℝ) :
    ((∑ x, f x * h x : ℝ) : ℂ) = (1 / (g.size : ℂ)) * ∑ k, g.forward f k * (starRingEnd ℂ) (g.forward h k) := by
  have e : ∀ k, (starRingEnd ℂ) (g.forward h k) = ∑ x, (h x : ℂ) * g.chi k x := by
    intro k
    simp only [EvpGrid.forward, map_sum, map_mul, Complex.conj_ofReal, Complex.conj_conj]
  simp only [e, Finset.mul_sum]
  rw [Finset.sum_comm]
  push_cast
  refine Finset.sum_congr rfl fun x _ => ?_
  have := g.inversion hp f x
  rw [← this, Finset.mul_sum, Finset.sum_mul]
  refine Finset.sum_congr rfl fun k _ => ?_
  ring

/-- **C124 (correction field).** On a grid with odd numbers of points the correction found for a stress field is
the gradient of a velocity field. The given stress, corrected by the stress which the correction causes in the
reference medium, does no work on the gradient of any velocity field. -/
theorem C124_green_field (n : Fin 3 → ℕ) (hp : ∀ a, 0 < n a) (hN : (n 0 * n 1 * n 2) ^ 2 ≤ 16 * 10 ^ 15) (K)
    (hK : modTable (2 * Real.pi) (Large.unitGrid n) = some K) (c0 : T4 ℝ) (hm : c0.Minor) (hpos : c0.Pos)
    (s : GridPt n → T2 ℝ) :
    (∃ u : GridPt n → Fin 3 → ℝ, ∀ x i j, correctionRot c0 K s x i j = cellGrad hp (fun y => u y i) x j) ∧
    ∀ v : GridPt n → Fin 3 → ℝ, ∑ x, ∑ i, ∑ j, cellGrad hp (fun y => v y i) x j *
      (s x i j + ∑ m, ∑ l, c0 i j m l * correctionRot c0 K s x m l) = 0 := by
  have hT := oddTable n K hK
  subst hT
  have hrank : ∀ k, ∃ (t : Fin 3 → ℝ) (c : ℂ), ∀ a, symTable n k a = t a * c := fun k =>
    modFreq_rank _ _ (modTable_some _ _ _ hK k)
  have hlow : ∀ k, k ≠ origin hp → 1.0e-15 ≤ modNorm (symTable n k) := by
    intro k hk
    have hN' : (((n 0 * n 1 * n 2 : ℕ) : ℝ)) ^ 2 ≤ 16 * 10 ^ 15 := by exact_mod_cast hN
    have hs : (0 : ℝ) < (n 0 * n 1 * n 2 : ℕ) := by
      have := Nat.mul_pos (Nat.mul_pos (hp 0) (hp 1)) (hp 2)
      exact_mod_cast this
    refine le_trans ?_ (modNorm_lower hp (exactTable_odd hp hK) k hk)
    rw [le_div_iff₀ (by positivity)]
    norm_num at hN' ⊢
    linarith
  let U : Fin 3 → (Large.unitGrid n).Ix → ℂ := fun p k => if k = origin hp then 0 else
    -∑ i, (invertView (acousticRot c0 (symTable n k)) p i : ℂ) *
      ∑ j, (starRingEnd ℂ) (symTable n k j) * (Large.unitGrid n).forward (fun y => s y i j) k
  have hor : (Large.unitGrid n).opp hp (origin hp) = origin hp := by
    funext a
    apply Fin.ext
    show (n a - 0) % n a = 0
    simp
  have hU : ∀ p k, U p ((Large.unitGrid n).opp hp k) = (starRingEnd ℂ) (U p k) := by
    intro p k
    by_cases hk : k = origin hp
    · simp only [U, hk, hor, if_true, map_zero]
    · have hk2 : (Large.unitGrid n).opp hp k ≠ origin hp := by
        intro h
        apply hk
        rw [← (Large.unitGrid n).opp_opp hp k, h, hor]
      simp only [U, if_neg hk, if_neg hk2]
      rw [acousticRot_conj c0 (symTable n k) _ fun a => symTable_opp hp k a]
      simp only [map_neg, map_sum, map_mul, Complex.conj_ofReal, Complex.conj_conj, symTable_opp hp,
        (Large.unitGrid n).forward_opp hp]
  have hcor : ∀ i j k, correctRot c0 ((Large.unitGrid n).zeroFreq k) (symTable n k)
      (fun a b => (Large.unitGrid n).forward (fun y => s y a b) k) i j = U i k * symTable n k j := by
    intro i j k
    by_cases hk : k = origin hp
    · have hz : (Large.unitGrid n).zeroFreq k = true := (zeroFreq_iff hp k).mpr hk
      simp only [U, if_pos hk, zero_mul, correctRot, hz, if_true]
    · have hz : (Large.unitGrid n).zeroFreq k = false := by
        rw [Bool.eq_false_iff]
        exact fun h => hk ((zeroFreq_iff hp k).mp h)
      obtain ⟨t, c, h⟩ := hrank k
      rw [hz, correctRot_eq c0 _ t c h (hlow k hk)]
      simp only [U, if_neg hk]
  let u : (Large.unitGrid n).Ix → Fin 3 → ℝ := fun x i => (Large.unitGrid n).backward (U i) x
  have hu : ∀ i k, (Large.unitGrid n).forward (fun x => u x i) k = U i k := fun i k =>
    (Large.unitGrid n).forward_backward hp (U i) (hU i) k
  have hgrad : ∀ x i j, correctionRot c0 (symTable n) s x i j = cellGrad hp (fun y => u y i) x j := by
    intro x i j
    rw [cellGrad_eq, gradOf, correctionRot]
    simp only [hcor, hu]
  refine ⟨⟨u, hgrad⟩, fun v => ?_⟩
  have hfg : ∀ (f : (Large.unitGrid n).Ix → ℝ) j k, (Large.unitGrid n).forward (fun x => cellGrad hp f x j) k =
      (Large.unitGrid n).forward f k * symTable n k j := by
    intro f j k
    rw [← forward_grad hp]
    congr 1
    funext x
    exact cellGrad_eq hp f x j
  have hcast : ((∑ x, ∑ i, ∑ j, cellGrad hp (fun y => v y i) x j *
      (s x i j + ∑ m, ∑ l, c0 i j m l * correctionRot c0 (symTable n) s x m l) : ℝ) : ℂ) = 0 := by
    have e1 : (∑ x, ∑ i, ∑ j, cellGrad hp (fun y => v y i) x j *
        (s x i j + ∑ m, ∑ l, c0 i j m l * correctionRot c0 (symTable n) s x m l)) =
        ∑ i, ∑ j, ∑ x, cellGrad hp (fun y => v y i) x j *
        (s x i j + ∑ m, ∑ l, c0 i j m l * cellGrad hp (fun y => u y m) x l) := by
      rw [Finset.sum_comm]
      refine Finset.sum_congr rfl fun i _ => ?_
      rw [Finset.sum_comm]
      simp only [hgrad]
    rw [e1]
    simp only [Complex.ofReal_sum (s := (Finset.univ : Finset (Fin 3)))]
    simp only [parseval (Large.unitGrid n) hp]
    have hfs : ∀ i j k, (Large.unitGrid n).forward (fun x => s x i j + ∑ m, ∑ l, c0 i j m l *
        cellGrad hp (fun y => u y m) x l) k = (Large.unitGrid n).forward (fun x => s x i j) k +
        refStress c0 (fun m l => U m k * symTable n k l) i j := by
      intro i j k
      rw [forward_add, forward_sum]
      congr 1
      refine Finset.sum_congr rfl fun m _ => ?_
      rw [forward_sum]
      refine Finset.sum_congr rfl fun l _ => ?_
      rw [forward_smul, hfg, hu]
    simp only [hfs, hfg, ← Finset.mul_sum]
    rw [mul_eq_zero]
    right
    have swap : ∀ F : Fin 3 → Fin 3 → (Large.unitGrid n).Ix → ℂ,
        ∑ i, ∑ j, ∑ k, F i j k = ∑ k, ∑ i, ∑ j, F i j k := by
      intro F
      simp only [Fin.sum_univ_three, Finset.sum_add_distrib]
    rw [swap]
    refine Finset.sum_eq_zero fun k _ => Finset.sum_eq_zero fun i _ => ?_
    by_cases hk : k = origin hp
    · rw [hk, symTable_origin]
      simp
    · have hD : (fun m l => U m k * symTable n k l) = correctRot c0 false (symTable n k)
          (fun a b => (Large.unitGrid n).forward (fun y => s y a b) k) := by
        funext m l
        rw [← hcor m l k]
        have hz : (Large.unitGrid n).zeroFreq k = false := by
          rw [Bool.eq_false_iff]
          exact fun h => hk ((zeroFreq_iff hp k).mp h)
        rw [hz]
      have := (C124_green c0 hm hpos _ _ (modTable_some _ _ _ hK k) (hlow k hk)
        (fun a b => (Large.unitGrid n).forward (fun y => s y a b) k)).2.1 i
      rw [← hD] at this
      have h2 := congrArg (starRingEnd ℂ) this
      simp only [map_sum, map_mul, Complex.conj_conj, map_zero] at h2
      have h3 : ∀ j, (Large.unitGrid n).forward (fun y => v y i) k * symTable n k j *
          (starRingEnd ℂ) ((Large.unitGrid n).forward (fun x => s x i j) k +
            refStress c0 (fun m l => U m k * symTable n k l) i j) =
          (Large.unitGrid n).forward (fun y => v y i) k * (symTable n k j *
          (starRingEnd ℂ) ((Large.unitGrid n).forward (fun x => s x i j) k +
            refStress c0 (fun m l => U m k * symTable n k l) i j)) := fun j => by ring
      simp only [h3, ← Finset.mul_sum]
      rw [h2, mul_zero]
  exact_mod_cast hcast

/-- **C124 (operator at a point).** The tensor the code keeps as the response of a point to itself is the
correction at a point caused by a stress at that point alone, whatever the point. -/
theorem C124_self_response (n : Fin 3 → ℕ) (hp : ∀ a, 0 < n a) (t : ℝ) (K)
    (hK : modTable t (Large.unitGrid n) = some K) (c0 : T4 ℝ) (T : T2 ℝ) (y : GridPt n) (i j : Fin 3) :
    correctionRot c0 K (fun x => if x = y then T else fun _ _ => 0) y i j =
      ∑ m, ∑ l, goperr0 hp c0 K i j m l * T m l := by
  have h0 : K (origin hp) = 0 := by
    have h := modTable_some t _ K hK (origin hp)
    rw [angle_origin] at h
    rw [modFreq_eq 0 (by simp), sym_zero, Option.some.injEq] at h
    exact h.symm
  have hf : ∀ k a b, (Large.unitGrid n).forward (fun x => (if x = y then T else fun _ _ => 0) a b) k =
      T a b * (starRingEnd ℂ) ((Large.unitGrid n).chi k y) := by
    intro k a b
    rw [EvpGrid.forward, Finset.sum_eq_single y]
    · simp
    · intro x _ hx; simp [hx]
    · simp
  have hc : ∀ k, correctRot c0 ((Large.unitGrid n).zeroFreq k) (K k)
      (fun a b => (Large.unitGrid n).forward (fun x => (if x = y then T else fun _ _ => 0) a b) k) i j *
        (Large.unitGrid n).chi k y =
      ((∑ m, ∑ l, greenRot c0 (K k) i j m l * T m l : ℝ) : ℂ) := by
    intro k
    have hn : (starRingEnd ℂ) ((Large.unitGrid n).chi k y) * (Large.unitGrid n).chi k y = 1 := by
      rw [mul_comm, Complex.mul_conj, Complex.normSq_eq_norm_sq, norm_chi]; simp
    have e : correctRot c0 false (K k)
        (fun a b => (Large.unitGrid n).forward (fun x => (if x = y then T else fun _ _ => 0) a b) k) i j =
        ((∑ m, ∑ l, greenRot c0 (K k) i j m l * T m l : ℝ) : ℂ) *
          (starRingEnd ℂ) ((Large.unitGrid n).chi k y) := by
      simp only [hf]
      rw [correctRot]
      simp only [Bool.false_eq_true, if_false]
      apply Complex.ext
      · simp only [Complex.re_ofReal_mul, Finset.sum_mul]
        exact Finset.sum_congr rfl fun m _ => Finset.sum_congr rfl fun l _ => by ring
      · simp only [Complex.im_ofReal_mul, Finset.sum_mul]
        exact Finset.sum_congr rfl fun m _ => Finset.sum_congr rfl fun l _ => by ring
    by_cases hk : k = origin hp
    · have hz : (Large.unitGrid n).zeroFreq k = true := (zeroFreq_iff hp k).mpr hk
      rw [hz, correctRot, if_pos rfl, zero_mul, hk, h0]
      have : greenRot c0 (0 : Fin 3 → ℂ) = fun _ _ _ _ => 0 := by
        rw [greenRot, if_pos (by simp [modNorm]; norm_num)]
      rw [this]
      simp
    · have hz : (Large.unitGrid n).zeroFreq k = false := by
        rw [Bool.eq_false_iff]
        exact fun h => hk ((zeroFreq_iff hp k).mp h)
      rw [hz, e, mul_assoc, hn, mul_one]
  have hg : ∀ m l, goperr0 hp c0 K i j m l = 1 / ((Large.unitGrid n).size : ℝ) *
      ∑ k, greenRot c0 (K k) i j m l := by
    intro m l
    have ho : ∀ k, (Large.unitGrid n).chi k (fun a => ⟨0, hp a⟩) = 1 := by
      intro k
      rw [EvpGrid.chi_comm]
      exact chi_origin hp k
    unfold goperr0 EvpGrid.backward
    simp only [ho, mul_one]
    have e : ∀ k, (if |modNorm (K k)| < 1.0e-15 then (0 : ℂ)
        else ((-invertView (acousticRot c0 (K k)) i m * dDft (K k) j l : ℝ) : ℂ)) =
        ((greenRot c0 (K k) i j m l : ℝ) : ℂ) := by
      intro k
      unfold greenRot
      split_ifs <;> simp
    simp only [e]
    rw [← Complex.ofReal_sum, ← Complex.ofReal_natCast, ← Complex.ofReal_one, ← Complex.ofReal_div,
      ← Complex.ofReal_mul, Complex.ofReal_re]
  rw [correctionRot, EvpGrid.backward]
  simp only [hc, hg]
  rw [← Complex.ofReal_sum, ← Complex.ofReal_natCast, ← Complex.ofReal_one, ← Complex.ofReal_div,
    ← Complex.ofReal_mul, Complex.ofReal_re, Finset.mul_sum]
  simp only [Fin.sum_univ_three, Finset.sum_add_distrib, mul_add, ← Finset.sum_mul, ← Finset.mul_sum]
  ring

/-! ### The nodes -/

/-- The point whose velocity moves node `i`, counted from 1, of a periodic box. -/
def nodePoint {n : Fin 3 → ℕ} (hp : ∀ a, 0 < n a) (i : Fin 3 → ℕ) : GridPt n :=
  fun a => ⟨(i a - 1) % n a, Nat.mod_lt _ (hp a)⟩

/-- **C124 (nodes of one rank).** Computed by one rank, every node moves with the velocity of the point with
its number, the nodes past the end with that of the first point. -/
theorem C124_nodes (n : Fin 3 → ℕ) (hp : ∀ a, 0 < n a) (v : GridPt n → Fin 3 → ℝ) (dt : ℝ) (i : Fin 3 → ℕ)
    (hi : ∀ a, 1 ≤ i a ∧ i a ≤ n a + 1) :
    Lsnp.nodeStep (Large.unitGrid n) 0 v dt i = some fun c => v (nodePoint hp i) c * dt := by
  have hg : ∀ a, 1 ≤ gridIndex (n a) 0 (i a) ∧ gridIndex (n a) 0 (i a) ≤ n a := by
    intro a
    have := hi a
    have := hp a
    unfold gridIndex
    split_ifs <;> omega
  unfold Lsnp.nodeStep Large.readPoint
  split_ifs with hd
  swap
  · exact absurd hg hd
  rw [Option.map_some]
  congr 1
  funext c
  congr 2
  funext a
  apply Fin.ext
  show gridIndex (n a) 0 (i a) - 1 = (i a - 1) % n a
  have h1 := hi a
  have h2 := hp a
  unfold gridIndex
  split_ifs with h
  · rw [show i a - 1 = n a by omega, Nat.mod_self]
  · rw [Nat.mod_eq_of_lt (by omega)]

/-- **C124 (nodes of several ranks).** A rank whose part of the grid does not start at the first point looks the
velocity up with its own numbering in the array of the whole grid: all its nodes but the last move with the
velocities of other points. -/
theorem C124_nodes_fails (n start : Fin 3 → ℕ) (dt : ℝ) (hdt : dt ≠ 0) (i : Fin 3 → ℕ)
    (hi : ∀ a, 1 ≤ i a ∧ i a + start a ≤ n a) :
    (∀ v : GridPt n → Fin 3 → ℝ, Lsnp.nodeStep (Large.unitGrid n) start v dt i = some fun c =>
      v (fun a => ⟨i a - 1, show i a - 1 < (Large.unitGrid n).n a by have := hi a; show _ < n a; omega⟩) c * dt) ∧
    (start ≠ 0 → ∃ v : GridPt n → Fin 3 → ℝ, Lsnp.nodeStep (Large.unitGrid n) start v dt i ≠ some fun c =>
      v (fun a => ⟨i a + start a - 1, show i a + start a - 1 < (Large.unitGrid n).n a by have := hi a; show _ < n a; omega⟩) c * dt) := by
  have key : ∀ v : GridPt n → Fin 3 → ℝ, Lsnp.nodeStep (Large.unitGrid n) start v dt i = some fun c =>
      v (fun a => ⟨i a - 1, show i a - 1 < (Large.unitGrid n).n a by have := hi a; show _ < n a; omega⟩) c * dt := by
    intro v
    have hg : ∀ a, gridIndex (n a) (start a) (i a) = i a := by
      intro a
      have := hi a
      unfold gridIndex
      rw [if_neg (by omega)]
    unfold Lsnp.nodeStep Large.readPoint
    have h2 : ∀ a, 1 ≤ gridIndex (n a) (start a) (i a) ∧ gridIndex (n a) (start a) (i a) ≤ n a := by
      intro a
      have := hi a
      rw [hg]; omega
    split_ifs with hd
    swap
    · exact absurd h2 hd
    rw [Option.map_some]
    congr 1
    funext c
    congr 2
    funext a
    apply Fin.ext
    show gridIndex (n a) (start a) (i a) - 1 = i a - 1
    rw [hg]
  refine ⟨key, fun hs => ?_⟩
  obtain ⟨a, ha⟩ := Function.ne_iff.mp hs
  refine ⟨fun x _ => ((x a : ℕ) : ℝ), ?_⟩
  rw [key]
  intro h
  rw [Option.some.injEq] at h
  have h2 := congrFun h 0
  have h3 := mul_right_cancel₀ hdt h2
  have h4 : ((i a - 1 : ℕ) : ℝ) = ((i a + start a - 1 : ℕ) : ℝ) := h3
  have h5 := Nat.cast_injective h4
  have := hi a
  simp only [Pi.zero_apply] at ha
  omega

/-- **C124 (last nodes).** The nodes past the end always move as the first ones do, whatever the velocities.
Under a uniform velocity gradient they should move apart: the outer size of the box does not change, and after
any step the displacement of the last node is wrong by the stretch of the whole box. -/
theorem C124_last_node_fails (n : Fin 3 → ℕ) (hp : ∀ a, 0 < n a) (v : GridPt n → Fin 3 → ℝ) (dt : ℝ) (a : Fin 3)
    (i : Fin 3 → ℕ) (hi : ∀ b, 1 ≤ i b ∧ i b ≤ n b + 1) :
    Lsnp.nodeStep (Large.unitGrid n) 0 v dt (Function.update i a (n a + 1)) =
      Lsnp.nodeStep (Large.unitGrid n) 0 v dt (Function.update i a 1) := by
  have hu : ∀ m, 1 ≤ m → m ≤ n a + 1 → ∀ b, 1 ≤ Function.update i a m b ∧ Function.update i a m b ≤ n b + 1 := by
    intro m h1 h2 b
    by_cases hb : b = a
    · subst hb; simp only [Function.update_self]; exact ⟨h1, h2⟩
    · rw [Function.update_of_ne hb]; exact hi b
  have := hp a
  rw [C124_nodes n hp v dt _ (hu _ (by omega) le_rfl), C124_nodes n hp v dt _ (hu _ le_rfl (by omega))]
  congr 1
  funext c
  congr 2
  funext b
  apply Fin.ext
  show (Function.update i a (n a + 1) b - 1) % n b = (Function.update i a 1 b - 1) % n b
  by_cases hb : b = a
  · subst hb; simp
  · rw [Function.update_of_ne hb, Function.update_of_ne hb]

/-! ### Half of the spectrum -/

/-- Sum over the stored half of the frequencies: those strictly between zero and the highest one along the
first direction stand for themselves and their opposites. -/
noncomputable def halfSum (g : EvpGrid) (h : g.Ix → ℂ) (x : g.Ix) : ℝ :=
  1 / (g.size : ℝ) * ∑ k : g.Ix, if 2 * (k 0 : ℕ) ≤ g.n 0 then
    (if (k 0 : ℕ) = 0 ∨ 2 * (k 0 : ℕ) = g.n 0 then 1 else 2) * (h k * g.chi k x).re else 0

/-- **C124 (half spectrum).** For the transforms of real fields, the stored frequencies, with first index up to
half the number of points, give the whole backward transform. -/
theorem C124_half_spectrum (g : EvpGrid) (hp : g.Pos) (h : g.Ix → ℂ)
    (hh : ∀ k, h (g.opp hp k) = (starRingEnd ℂ) (h k)) (x : g.Ix) : halfSum g h x = g.backward h x := by
  have hre : ∀ k, (h (g.opp hp k) * g.chi (g.opp hp k) x).re = (h k * g.chi k x).re := by
    intro k
    rw [hh, g.chi_opp hp, ← map_mul, Complex.conj_re]
  have hb : g.backward h x = 1 / (g.size : ℝ) * ∑ k, (h k * g.chi k x).re := by
    rw [EvpGrid.backward, one_div, ← Complex.ofReal_natCast, ← Complex.ofReal_inv, Complex.re_ofReal_mul,
      Complex.re_sum, one_div]
  rw [hb, halfSum]
  congr 1
  have hv : ∀ k : g.Ix, (k 0 : ℕ) < g.n 0 := fun k => (k 0).isLt
  have hov : ∀ k : g.Ix, ((g.opp hp k 0 : ℕ)) = if (k 0 : ℕ) = 0 then 0 else g.n 0 - k 0 := by
    intro k
    show (g.n 0 - (k 0 : ℕ)) % g.n 0 = _
    have := hv k
    split_ifs with h0
    · rw [h0, Nat.sub_zero, Nat.mod_self]
    · rw [Nat.mod_eq_of_lt (by omega)]
  have e : ∀ k : g.Ix, (if 2 * (k 0 : ℕ) ≤ g.n 0 then
      (if (k 0 : ℕ) = 0 ∨ 2 * (k 0 : ℕ) = g.n 0 then 1 else 2) * (h k * g.chi k x).re else 0) =
      (if 2 * (k 0 : ℕ) ≤ g.n 0 then (h k * g.chi k x).re else 0) +
        if (k 0 : ℕ) ≠ 0 ∧ 2 * (k 0 : ℕ) < g.n 0 then (h k * g.chi k x).re else 0 := by
    intro k
    by_cases h1 : 2 * (k 0 : ℕ) ≤ g.n 0
    · by_cases h2 : (k 0 : ℕ) = 0 ∨ 2 * (k 0 : ℕ) = g.n 0
      · rw [if_pos h1, if_pos h1, if_pos h2, if_neg (by omega)]; ring
      · rw [if_pos h1, if_pos h1, if_neg h2, if_pos (by omega)]; ring
    · rw [if_neg h1, if_neg h1, if_neg (by omega)]; ring
  have f : ∀ k : g.Ix, (h k * g.chi k x).re =
      (if 2 * (k 0 : ℕ) ≤ g.n 0 then (h k * g.chi k x).re else 0) +
        if g.n 0 < 2 * (k 0 : ℕ) then (h k * g.chi k x).re else 0 := by
    intro k
    by_cases h1 : 2 * (k 0 : ℕ) ≤ g.n 0
    · rw [if_pos h1, if_neg (by omega)]; ring
    · rw [if_neg h1, if_pos (by omega)]; ring
  rw [Finset.sum_congr rfl fun k _ => e k, Finset.sum_congr rfl fun k _ => f k, Finset.sum_add_distrib,
    Finset.sum_add_distrib]
  congr 1
  refine Finset.sum_nbij' (g.opp hp) (g.opp hp) (fun _ _ => Finset.mem_univ _) (fun _ _ => Finset.mem_univ _)
    (fun k _ => g.opp_opp hp k) (fun k _ => g.opp_opp hp k) fun k _ => ?_
  rw [hre, hov]
  have := hv k
  by_cases h0 : (k 0 : ℕ) = 0
  · rw [if_neg (by omega), if_pos h0, if_neg (by omega)]
  · rw [if_neg h0]
    by_cases h1 : 2 * (k 0 : ℕ) < g.n 0
    · rw [if_pos ⟨h0, h1⟩, if_pos (by omega)]
    · rw [if_neg (by omega), if_neg (by omega)]

/-- Hypotheses: a grid of 33 by 35 by 31 points. -/
example : (∀ a, 0 < (![33, 35, 31] : Fin 3 → ℕ) a) ∧ (∀ a, Odd ((![33, 35, 31] : Fin 3 → ℕ) a)) ∧
    ((![33, 35, 31] : Fin 3 → ℕ) 0 * (![33, 35, 31] : Fin 3 → ℕ) 1 * (![33, 35, 31] : Fin 3 → ℕ) 2) ^ 2 ≤
      16 * 10 ^ 15 ∧ (∃ K, modTable (2 * Real.pi) (Large.unitGrid ![33, 35, 31]) = some K) := by
  have hp : ∀ a, 0 < (![33, 35, 31] : Fin 3 → ℕ) a := by decide
  have ho : ∀ a, Odd ((![33, 35, 31] : Fin 3 → ℕ) a) := by decide
  refine ⟨hp, ho, by decide, ?_⟩
  obtain ⟨K, hK, _⟩ := C124_gradient_exact _ hp ho
  exact ⟨K, hK⟩

/-- Hypotheses: three fields of a small grid, the first direction even. -/
example : (∃ a b : Fin 3, a ≠ b ∧ Even ((![4, 6, 3] : Fin 3 → ℕ) a) ∧ Even ((![4, 6, 3] : Fin 3 → ℕ) b)) ∧
    (![2, 0, 0] : Fin 3 → ℕ) ≠ 0 ∧
    ∀ a, 1 ≤ (![1, 2, 3] : Fin 3 → ℕ) a ∧
      (![1, 2, 3] : Fin 3 → ℕ) a + (![2, 0, 0] : Fin 3 → ℕ) a ≤ (![4, 6, 3] : Fin 3 → ℕ) a := by
  refine ⟨⟨0, 1, by decide, by decide, by decide⟩, ?_, by decide⟩
  intro h
  exact absurd (congrFun h 0) (by decide)

/-- Hypotheses of the operator: a frequency that is not negligible, in an isotropic medium. -/
example : ∃ k, modFreq ![Real.pi / 2, 0, 0] = some k ∧ 1.0e-15 ≤ modNorm k ∧
    T4.Minor (isoStiffness (210 : ℝ) (3 / 10)) ∧ T4.Pos (isoStiffness (210 : ℝ) (3 / 10)) := by
  have h0 : ∀ a, Real.cos ((![Real.pi / 2, 0, 0] : Fin 3 → ℝ) a / 2) ≠ 0 := by
    intro a
    fin_cases a
    · simp only [Fin.zero_eta, Matrix.cons_val_zero]
      rw [show Real.pi / 2 / 2 = Real.pi / 4 by ring, Real.cos_pi_div_four]
      positivity
    · simp
    · simp
  refine ⟨_, modFreq_eq _ h0, ?_, fun i j k l => ?_,
    C67_isotropic_positive _ _ (by norm_num) (by norm_num) (by norm_num)⟩
  · have hn : ‖sym ![Real.pi / 2, 0, 0] 0‖ = ‖ex (Real.pi / 2) - 1‖ := by
      simp only [sym, Matrix.cons_val_zero, Matrix.cons_val_one, Matrix.cons_val, ex_zero]
      rw [show (ex (Real.pi / 2) - 1) * (1 + 1) * (1 + 1) / 4 = ex (Real.pi / 2) - 1 by ring]
    rw [modNorm_eq, Fin.sum_univ_three, hn, norm_ex_sub_one_eq,
      show Real.pi / 2 / 2 = Real.pi / 4 by ring, Real.sin_pi_div_four]
    have : (0 : ℝ) ≤ ‖sym ![Real.pi / 2, 0, 0] 1‖ ^ 2 := by positivity
    have : (0 : ℝ) ≤ ‖sym ![Real.pi / 2, 0, 0] 2‖ ^ 2 := by positivity
    have h2 : (2 * |Real.sqrt 2 / 2|) ^ 2 = 2 := by
      rw [abs_of_nonneg (by positivity)]
      have := Real.sq_sqrt (show (0 : ℝ) ≤ 2 by norm_num)
      linear_combination this
    rw [h2]
    norm_num
    linarith
  · fin_cases i <;> fin_cases j <;> fin_cases k <;> fin_cases l <;>
      simp [isoStiffness, xid4, dde]

end Fierro
