import Verif.Props.EvpGreen
import Verif.Proofs.EvpGreen
import Mathlib.Analysis.SpecialFunctions.ExpDeriv
import Mathlib.Analysis.Complex.RealDeriv

/-!
# C73: strain correction with the Green operator, fields on the grid
-/

set_option linter.unusedSectionVars false

namespace Fierro

open Complex

namespace EvpGrid

variable (g : EvpGrid)

/-! ### Specification -/

/-- A grid with points and positive spacings. -/
structure Good : Prop where
  pos : g.Pos
  delt : ∀ a, 0 < g.delt a

/-- Position of a grid point. -/
def position (x : g.Ix) : Fin 3 → ℝ := fun a => g.delt a * ((x a : ℕ) : ℝ)

/-- The wave of an index triple at any point of space. -/
noncomputable def wave (k : g.Ix) (y : Fin 3 → ℝ) : ℂ :=
  Complex.exp (2 * Real.pi * I * ∑ a, (g.freq k a : ℂ) * (y a : ℂ))

/-- Trigonometric interpolation of a field on the grid. -/
noncomputable def interp (f : g.Ix → ℝ) (y : Fin 3 → ℝ) : ℝ :=
  ((1 / (g.size : ℂ)) * ∑ k, g.forward f k * g.wave k y).re

/-- The field has no content at the highest frequency of an even number of points (nothing is asked of
grids with odd numbers). -/
def Resolved (sg : g.Ix → T2 ℝ) : Prop :=
  ∀ k : g.Ix, (∃ a, 2 * (k a : ℕ) = g.n a) → ∀ i j, g.forward (fun x => sg x i j) k = 0

/-! ### Indices -/

theorem nyquist_iff (hp : g.Pos) (k : g.Ix) : g.nyquist k = true ↔ ∃ a, 2 * (k a : ℕ) = g.n a := by
  have h0 := hp 0
  have h1 := hp 1
  have h2 := hp 2
  unfold nyquist
  simp only [Bool.or_eq_true, Bool.and_eq_true, decide_eq_true_eq]
  constructor
  · rintro ((h | h) | h)
    · exact ⟨0, by omega⟩
    · exact ⟨1, by omega⟩
    · exact ⟨2, by omega⟩
  · rintro ⟨a, ha⟩
    have : a = 0 ∨ a = 1 ∨ a = 2 := by fin_cases a <;> simp
    rcases this with rfl | rfl | rfl
    · left; left; omega
    · left; right; omega
    · right; omega

theorem zeroFreq_iff (k : g.Ix) : g.zeroFreq k = true ↔ ∀ a, (k a : ℕ) = 0 := by
  unfold zeroFreq
  simp only [Bool.and_eq_true, decide_eq_true_eq]
  constructor
  · rintro ⟨⟨h0, h1⟩, h2⟩ a
    have : a = 0 ∨ a = 1 ∨ a = 2 := by fin_cases a <;> simp
    rcases this with rfl | rfl | rfl <;> omega
  · intro h
    have h0 := h 0
    have h1 := h 1
    have h2 := h 2
    omega

theorem freq_zero_iff (hg : g.Good) (k : g.Ix) : g.freq k = 0 ↔ g.zeroFreq k = true := by
  rw [zeroFreq_iff]
  have h : ∀ a, g.freq k a = 0 ↔ (k a : ℕ) = 0 := by
    intro a
    have hd := (hg.delt a).ne'
    have hn : (g.n a : ℝ) ≠ 0 := Nat.cast_ne_zero.mpr (hg.pos a).ne'
    unfold freq waveFreq
    rw [div_eq_zero_iff, or_iff_left (mul_ne_zero hd hn), Int.cast_eq_zero]
    exact (C73_wave_numbers _ _ (k a).isLt).2.2.2
  exact ⟨fun h0 a => (h a).mp (congrFun h0 a), fun h0 => funext fun a => (h a).mpr (h0 a)⟩

theorem nyquist_opp (hp : g.Pos) (k : g.Ix) : g.nyquist (g.opp hp k) = g.nyquist k := by
  rw [Bool.eq_iff_iff, nyquist_iff g hp, nyquist_iff g hp]
  refine exists_congr fun a => ?_
  have := (k a).isLt
  rw [opp_val]
  split_ifs <;> omega

theorem zeroFreq_opp (hp : g.Pos) (k : g.Ix) : g.zeroFreq (g.opp hp k) = g.zeroFreq k := by
  rw [Bool.eq_iff_iff, zeroFreq_iff, zeroFreq_iff]
  refine forall_congr' fun a => ?_
  have := (k a).isLt
  rw [opp_val]
  split_ifs <;> omega

theorem freq_opp (hp : g.Pos) (k : g.Ix) (h : g.nyquist k = false) (a : Fin 3) :
    g.freq (g.opp hp k) a = -g.freq k a := by
  have hne : 2 * (k a : ℕ) ≠ g.n a := fun h2 => by
    have := (g.nyquist_iff hp k).mpr ⟨a, h2⟩
    rw [h] at this
    cases this
  have e : waveIndex (g.n a) (g.opp hp k a) = -waveIndex (g.n a) (k a) :=
    C73_opposite _ _ (k a).isLt hne
  unfold freq waveFreq
  rw [e]
  push_cast
  ring

theorem wave_position (hg : g.Good) (k x : g.Ix) : g.wave k (g.position x) = g.chi k x := by
  unfold wave chi
  rw [Finset.mul_sum, Finset.mul_sum, Complex.exp_sum, Complex.exp_sum]
  refine Finset.prod_congr rfl fun a _ => ?_
  rw [Complex.exp_eq_exp_iff_exists_int]
  obtain ⟨c, hc⟩ := (C73_wave_numbers _ _ (k a).isLt).1
  refine ⟨c * (x a : ℕ), ?_⟩
  have hw : ((waveIndex (g.n a) (k a) : ℤ) : ℂ) = ((k a : ℕ) : ℂ) + (g.n a : ℂ) * c := by
    have : waveIndex (g.n a) (k a) = (k a : ℕ) + (g.n a : ℤ) * c := by omega
    rw [this]; push_cast; ring
  have hd : ((g.delt a : ℝ) : ℂ) ≠ 0 := Complex.ofReal_ne_zero.mpr (hg.delt a).ne'
  have hn : (g.n a : ℂ) ≠ 0 := Nat.cast_ne_zero.mpr (hg.pos a).ne'
  unfold freq waveFreq position
  push_cast
  rw [hw]
  field_simp

theorem wave_periodic (hg : g.Good) (k : g.Ix) (y : Fin 3 → ℝ) (m : Fin 3 → ℤ) :
    g.wave k (fun a => y a + g.delt a * g.n a * m a) = g.wave k y := by
  unfold wave
  rw [Finset.mul_sum, Finset.mul_sum, Complex.exp_sum, Complex.exp_sum]
  refine Finset.prod_congr rfl fun a _ => ?_
  rw [Complex.exp_eq_exp_iff_exists_int]
  refine ⟨waveIndex (g.n a) (k a) * m a, ?_⟩
  have hd : ((g.delt a : ℝ) : ℂ) ≠ 0 := Complex.ofReal_ne_zero.mpr (hg.delt a).ne'
  have hn : (g.n a : ℂ) ≠ 0 := Nat.cast_ne_zero.mpr (hg.pos a).ne'
  unfold freq waveFreq
  push_cast
  field_simp

theorem wave_deriv (k : g.Ix) (y : Fin 3 → ℝ) (j : Fin 3) :
    HasDerivAt (fun t : ℝ => g.wave k (Function.update y j t))
      (2 * Real.pi * I * (g.freq k j : ℂ) * g.wave k y) (y j) := by
  have e : (fun t : ℝ => g.wave k (Function.update y j t)) = fun t : ℝ => Complex.exp
      (2 * Real.pi * I * (∑ a, (g.freq k a : ℂ) * (y a : ℂ)) +
        2 * Real.pi * I * (g.freq k j : ℂ) * ((t : ℂ) - (y j : ℂ))) := by
    funext t
    unfold wave
    congr 1
    have h3 : ∑ a, (g.freq k a : ℂ) * ((Function.update y j t a : ℝ) : ℂ) =
        ∑ a, (g.freq k a : ℂ) * (y a : ℂ) + (g.freq k j : ℂ) * ((t : ℂ) - (y j : ℂ)) := by
      have h4 : ∀ a, (g.freq k a : ℂ) * ((Function.update y j t a : ℝ) : ℂ) =
          (g.freq k a : ℂ) * (y a : ℂ) + if a = j then (g.freq k j : ℂ) * ((t : ℂ) - (y j : ℂ)) else 0 := by
        intro a
        by_cases h : a = j
        · subst h
          rw [Function.update_self, if_pos rfl]; ring
        · rw [Function.update_of_ne h, if_neg h, add_zero]
      simp only [h4, Finset.sum_add_distrib]
      rw [Finset.sum_ite_eq' Finset.univ j, if_pos (Finset.mem_univ j)]
    rw [h3]; ring
  rw [e]
  have h1 : HasDerivAt (fun t : ℝ => (t : ℂ)) 1 (y j) := (hasDerivAt_id (y j)).ofReal_comp
  have h2 := (((h1.sub_const (y j : ℂ)).const_mul (2 * Real.pi * I * (g.freq k j : ℂ))).const_add
    (2 * Real.pi * I * (∑ a, (g.freq k a : ℂ) * (y a : ℂ)))).cexp
  refine h2.congr_deriv ?_
  unfold wave
  rw [sub_self, mul_zero, add_zero]
  ring

/-- Real part of a sum of waves and its derivative. -/
theorem waves_deriv (A : g.Ix → ℂ) (y : Fin 3 → ℝ) (j : Fin 3) :
    HasDerivAt (fun t : ℝ => ((1 / (g.size : ℂ)) * ∑ k, A k * g.wave k (Function.update y j t)).re)
      (((1 / (g.size : ℂ)) * ∑ k, A k * (2 * Real.pi * I * (g.freq k j : ℂ) * g.wave k y)).re) (y j) := by
  have h : HasDerivAt (fun t : ℝ => (1 / (g.size : ℂ)) * ∑ k, A k * g.wave k (Function.update y j t))
      ((1 / (g.size : ℂ)) * ∑ k, A k * (2 * Real.pi * I * (g.freq k j : ℂ) * g.wave k y)) (y j) :=
    (HasDerivAt.fun_sum fun k _ => (g.wave_deriv k y j).const_mul (A k)).const_mul _
  exact Complex.reCLM.hasFDerivAt.comp_hasDerivAt (y j) h

/-! ### Spectrum of the correction -/

theorem greenCorrection_neg (c0 s0 : T4 ℝ) (z n : Bool) (xk : Fin 3 → ℝ) (w : T2 ℝ) :
    greenCorrection c0 s0 z n xk (fun a b => -w a b) = fun i j => -greenCorrection c0 s0 z n xk w i j := by
  funext i j
  unfold greenCorrection
  split_ifs
  · simp
  · simp only [mul_neg, Finset.sum_neg_distrib]

theorem correctionHat_hermitian (hg : g.Good) (c0 s0 : T4 ℝ) (hm : c0.Minor) (hp : c0.Pos)
    (sg : g.Ix → T2 ℝ) (k : g.Ix) (i j : Fin 3) :
    g.correctionHat c0 s0 sg (g.opp hg.pos k) i j = (starRingEnd ℂ) (g.correctionHat c0 s0 sg k i j) := by
  have hre : ∀ a b, (g.forward (fun x => sg x a b) (g.opp hg.pos k)).re =
      (g.forward (fun x => sg x a b) k).re := fun a b => by rw [forward_opp, Complex.conj_re]
  have him : ∀ a b, (g.forward (fun x => sg x a b) (g.opp hg.pos k)).im =
      -(g.forward (fun x => sg x a b) k).im := fun a b => by rw [forward_opp, Complex.conj_im]
  have hop : ∀ w : T2 ℝ, greenCorrection c0 s0 (g.zeroFreq (g.opp hg.pos k)) (g.nyquist (g.opp hg.pos k))
      (g.freq (g.opp hg.pos k)) w = greenCorrection c0 s0 (g.zeroFreq k) (g.nyquist k) (g.freq k) w := by
    intro w
    rw [zeroFreq_opp, nyquist_opp]
    cases hz : g.zeroFreq k
    · cases hn : g.nyquist k
      · have hne : g.freq k ≠ 0 := fun h => by
          rw [freq_zero_iff g hg, hz] at h; cases h
        have := C73_direction_only c0 s0 hm hp (g.freq k) hne (-1) (by norm_num) w
        rw [← this]
        congr 1
        funext a
        rw [g.freq_opp hg.pos k hn]
        ring
      · funext i j
        simp [greenCorrection, greenOp]
    · funext i j
      simp [greenCorrection]
  apply Complex.ext
  · simp only [correctionHat, Complex.conj_re, hop, hre]
  · simp only [correctionHat, Complex.conj_im, hop, him, greenCorrection_neg]

theorem correctionHat_zero (c0 s0 : T4 ℝ) (sg : g.Ix → T2 ℝ) (k : g.Ix) (h : g.zeroFreq k = true)
    (i j : Fin 3) : g.correctionHat c0 s0 sg k i j = 0 := by
  apply Complex.ext <;> simp [correctionHat, h, C73_mean_untouched]

theorem correctionHat_resolved (hg : g.Good) (c0 s0 : T4 ℝ) (sg : g.Ix → T2 ℝ) (hr : g.Resolved sg)
    (k : g.Ix) (h : g.nyquist k = true) (i j : Fin 3) : g.correctionHat c0 s0 sg k i j = 0 := by
  have h0 := hr k ((g.nyquist_iff hg.pos k).mp h)
  apply Complex.ext <;> simp [correctionHat, h0, greenCorrection]

theorem backward_eq_zero (hg : g.Good) (h : g.Ix → ℂ)
    (hh : ∀ k, h (g.opp hg.pos k) = (starRingEnd ℂ) (h k)) :
    (∀ x, g.backward h x = 0) ↔ ∀ k, h k = 0 := by
  constructor
  · intro h0 k
    have := g.forward_backward hg.pos h hh k
    rw [← this]
    simp [forward, h0]
  · intro h0 x
    simp [backward, h0]

end EvpGrid

open EvpGrid

/-! ### Theorems -/

/-- **C73.** Added to the displacement gradient, the fluctuation changes no average over the grid, for every
stress field and every grid. -/
theorem C73_field_mean (g : EvpGrid) (hp : g.Pos) (c0 s0 : T4 ℝ) (sg : g.Ix → T2 ℝ) (i j : Fin 3) :
    ∑ x, g.correction c0 s0 sg x i j = 0 := by
  simp only [EvpGrid.correction, EvpGrid.backward, ← Complex.re_sum, ← Finset.mul_sum]
  rw [Finset.sum_comm]
  simp only [← Finset.mul_sum]
  obtain ⟨z, hz⟩ : ∃ z : g.Ix, ∀ a, (z a : ℕ) = 0 := ⟨fun a => ⟨0, hp a⟩, fun _ => rfl⟩
  have h1 : ∀ x, (starRingEnd ℂ) (g.chi z x) = 1 := by
    intro x
    simp [EvpGrid.chi, hz]
  have e : ∀ k, ∑ x, g.chi k x = if k = z then (g.size : ℂ) else 0 := by
    intro k
    rw [← g.chi_orthogonal hp k z]
    exact Finset.sum_congr rfl fun x _ => by rw [h1, mul_one]
  simp only [e, mul_ite, mul_zero]
  rw [Finset.sum_ite_eq' Finset.univ z, if_pos (Finset.mem_univ z),
    g.correctionHat_zero c0 s0 sg z ((g.zeroFreq_iff z).mpr hz)]
  simp

/-- **C73.** The spectrum computed is that of a real field, so nothing is lost by storing half of it: the
transform of the field added is the spectrum computed. -/
theorem C73_field_real (g : EvpGrid) (hg : g.Good) (c0 s0 : T4 ℝ) (hm : c0.Minor) (hp : c0.Pos)
    (sg : g.Ix → T2 ℝ) (k : g.Ix) (i j : Fin 3) :
    g.forward (fun x => g.correction c0 s0 sg x i j) k = g.correctionHat c0 s0 sg k i j :=
  g.forward_backward hg.pos _ (fun k => g.correctionHat_hermitian hg c0 s0 hm hp sg k i j) k

/-- **C73.** The fluctuation is the gradient of a displacement that is periodic in the box. -/
theorem C73_field_displacement (g : EvpGrid) (hg : g.Good) (c0 s0 : T4 ℝ) (sg : g.Ix → T2 ℝ)
    (hr : g.Resolved sg) :
    ∃ u : Fin 3 → (Fin 3 → ℝ) → ℝ,
      (∀ i y (m : Fin 3 → ℤ), u i (fun a => y a + g.delt a * g.n a * m a) = u i y) ∧
      ∀ x i j, HasDerivAt (fun t => u i (Function.update (g.position x) j t))
        (g.correction c0 s0 sg x i j) (g.position x j) := by
  have hU : ∀ k : g.Ix, ∃ U : Fin 3 → ℂ, ∀ i j, g.correctionHat c0 s0 sg k i j = U i * (g.freq k j : ℂ) := by
    intro k
    cases hz : g.zeroFreq k
    · cases hn : g.nyquist k
      · have hne : g.freq k ≠ 0 := fun h => by
          rw [freq_zero_iff g hg, hz] at h; cases h
        obtain ⟨u1, h1⟩ := C73_compatible c0 s0 (g.freq k) hne
          (fun a b => (g.forward (fun x => sg x a b) k).re)
        obtain ⟨u2, h2⟩ := C73_compatible c0 s0 (g.freq k) hne
          (fun a b => (g.forward (fun x => sg x a b) k).im)
        refine ⟨fun i => ⟨u1 i, u2 i⟩, fun i j => ?_⟩
        apply Complex.ext
        · simp [EvpGrid.correctionHat, hz, hn, h1]
        · simp [EvpGrid.correctionHat, hz, hn, h2]
      · exact ⟨fun _ => 0, fun i j => by rw [g.correctionHat_resolved hg c0 s0 sg hr k hn, zero_mul]⟩
    · exact ⟨fun _ => 0, fun i j => by rw [g.correctionHat_zero c0 s0 sg k hz, zero_mul]⟩
  choose U hU using hU
  refine ⟨fun i y => ((1 / (g.size : ℂ)) * ∑ k, U k i / (2 * Real.pi * I) * g.wave k y).re, ?_, ?_⟩
  · intro i y m
    simp only [g.wave_periodic hg]
  · intro x i j
    refine (g.waves_deriv (fun k => U k i / (2 * Real.pi * I)) (g.position x) j).congr_deriv ?_
    unfold EvpGrid.correction EvpGrid.backward
    congr 2
    refine Finset.sum_congr rfl fun k _ => ?_
    show _ = g.correctionHat c0 s0 sg k i j * g.chi k x
    rw [hU, g.wave_position hg]
    have : (2 * Real.pi * I : ℂ) ≠ 0 := by simp [Real.pi_ne_zero, Complex.I_ne_zero]
    field_simp

/-- **C73.** Trigonometric interpolation reproduces the field at the grid points. -/
theorem C73_interpolation (g : EvpGrid) (hg : g.Good) (f : g.Ix → ℝ) (x : g.Ix) :
    g.interp f (g.position x) = f x := by
  unfold EvpGrid.interp
  simp only [g.wave_position hg]
  exact g.backward_forward hg.pos f x

/-- Divergence of the interpolated stress at a grid point. -/
noncomputable def gridDivergence (g : EvpGrid) (sg : g.Ix → T2 ℝ) (x : g.Ix) (i : Fin 3) : ℝ :=
  ∑ j, deriv (fun t => g.interp (fun x => sg x i j) (Function.update (g.position x) j t)) (g.position x j)

theorem gridDivergence_eq (g : EvpGrid) (hg : g.Good) (sg : g.Ix → T2 ℝ) (x : g.Ix) (i : Fin 3) :
    gridDivergence g sg x i = g.backward (fun k => 2 * Real.pi * I *
      ∑ j, g.forward (fun x => sg x i j) k * (g.freq k j : ℂ)) x := by
  unfold gridDivergence EvpGrid.interp
  have e : ∀ j, deriv (fun t => ((1 / (g.size : ℂ)) * ∑ k, g.forward (fun x => sg x i j) k *
      g.wave k (Function.update (g.position x) j t)).re) (g.position x j) =
      ((1 / (g.size : ℂ)) * ∑ k, g.forward (fun x => sg x i j) k *
        (2 * Real.pi * I * (g.freq k j : ℂ) * g.wave k (g.position x))).re :=
    fun j => (g.waves_deriv _ _ j).deriv
  simp only [e, ← Complex.re_sum, ← Finset.mul_sum]
  unfold EvpGrid.backward
  congr 2
  rw [Finset.sum_comm]
  refine Finset.sum_congr rfl fun k _ => ?_
  show _ = (2 * Real.pi * I * ∑ j, g.forward (fun x => sg x i j) k * (g.freq k j : ℂ)) * g.chi k x
  rw [Finset.mul_sum, Finset.sum_mul]
  refine Finset.sum_congr rfl fun j _ => ?_
  rw [g.wave_position hg]
  ring

theorem gridDivergence_zero_iff (g : EvpGrid) (hg : g.Good) (sg : g.Ix → T2 ℝ) (hr : g.Resolved sg) :
    (∀ x i, gridDivergence g sg x i = 0) ↔
      ∀ k i, ∑ j, g.forward (fun x => sg x i j) k * (g.freq k j : ℂ) = 0 := by
  simp only [gridDivergence_eq g hg]
  have hh : ∀ i k, (2 * Real.pi * I * ∑ j, g.forward (fun x => sg x i j) (g.opp hg.pos k) *
      (g.freq (g.opp hg.pos k) j : ℂ)) = (starRingEnd ℂ) (2 * Real.pi * I *
        ∑ j, g.forward (fun x => sg x i j) k * (g.freq k j : ℂ)) := by
    intro i k
    cases hn : g.nyquist k
    · simp only [g.forward_opp hg.pos, g.freq_opp hg.pos k hn, map_mul, map_sum, Complex.conj_ofReal,
        Complex.conj_I]
      have : (starRingEnd ℂ) 2 = 2 := Complex.conj_ofNat 2
      rw [this]
      push_cast
      simp only [mul_neg, Finset.sum_neg_distrib, neg_mul]
    · have h1 := hr k ((g.nyquist_iff hg.pos k).mp hn)
      have h2 := hr (g.opp hg.pos k) ((g.nyquist_iff hg.pos _).mp (by rw [nyquist_opp]; exact hn))
      simp [h1, h2]
  have h2 : (2 * Real.pi * I : ℂ) ≠ 0 := by simp [Real.pi_ne_zero, Complex.I_ne_zero]
  constructor
  · intro h k i
    have := (g.backward_eq_zero hg _ (hh i)).mp (fun x => h x i) k
    exact (mul_eq_zero.mp this).resolve_left h2
  · intro h x i
    exact (g.backward_eq_zero hg _ (hh i)).mpr (fun k => by rw [h k i, mul_zero]) x

/-- **C73.** Fixed point: the fluctuation vanishes at every grid point exactly when the interpolated stress is
divergence free at every grid point.  So the outer iteration stands still exactly in equilibrium. -/
theorem C73_field_equilibrium (g : EvpGrid) (hg : g.Good) (c0 s0 : T4 ℝ) (hm : c0.Minor) (hp : c0.Pos)
    (sg : g.Ix → T2 ℝ) (hr : g.Resolved sg) :
    (∀ x i j, g.correction c0 s0 sg x i j = 0) ↔ ∀ x i, gridDivergence g sg x i = 0 := by
  rw [gridDivergence_zero_iff g hg sg hr]
  have h1 : (∀ x i j, g.correction c0 s0 sg x i j = 0) ↔ ∀ k i j, g.correctionHat c0 s0 sg k i j = 0 := by
    constructor
    · intro h k i j
      exact (g.backward_eq_zero hg _ (fun k => g.correctionHat_hermitian hg c0 s0 hm hp sg k i j)).mp
        (fun x => h x i j) k
    · intro h x i j
      exact (g.backward_eq_zero hg _ (fun k => g.correctionHat_hermitian hg c0 s0 hm hp sg k i j)).mpr
        (fun k => h k i j) x
  rw [h1]
  refine forall_congr' fun k => ?_
  cases hz : g.zeroFreq k
  · cases hn : g.nyquist k
    · have hne : g.freq k ≠ 0 := fun h => by
        rw [freq_zero_iff g hg, hz] at h; cases h
      have e1 := C73_equilibrated c0 s0 hm hp (g.freq k) hne (fun a b => (g.forward (fun x => sg x a b) k).re)
      have e2 := C73_equilibrated c0 s0 hm hp (g.freq k) hne (fun a b => (g.forward (fun x => sg x a b) k).im)
      have e3 : (∀ i j, g.correctionHat c0 s0 sg k i j = 0) ↔
          (∀ i j, greenCorrection c0 s0 false false (g.freq k)
            (fun a b => (g.forward (fun x => sg x a b) k).re) i j = 0) ∧
          ∀ i j, greenCorrection c0 s0 false false (g.freq k)
            (fun a b => (g.forward (fun x => sg x a b) k).im) i j = 0 := by
        simp only [EvpGrid.correctionHat, hz, hn, Complex.ext_iff, Complex.zero_re, Complex.zero_im]
        exact ⟨fun h => ⟨fun i j => (h i j).1, fun i j => (h i j).2⟩, fun h i j => ⟨h.1 i j, h.2 i j⟩⟩
      rw [e3, e1, e2]
      simp only [Complex.ext_iff, Complex.re_sum, Complex.im_sum, Complex.mul_re, Complex.mul_im,
        Complex.ofReal_re, Complex.ofReal_im, mul_zero, sub_zero, zero_add, Complex.zero_re, Complex.zero_im]
      exact ⟨fun h i => ⟨h.1 i, h.2 i⟩, fun h => ⟨fun i => (h i).1, fun i => (h i).2⟩⟩
    · have h0 := hr k ((g.nyquist_iff hg.pos k).mp hn)
      simp [g.correctionHat_resolved hg c0 s0 sg hr k hn, h0]
  · have hf : g.freq k = 0 := (freq_zero_iff g hg k).mpr hz
    simp [g.correctionHat_zero c0 s0 sg k hz, hf]

/-- **C73.** The stress plus the elastic response of the reference medium to the fluctuation is divergence
free at every grid point, whatever the stress was. -/
theorem C73_field_response (g : EvpGrid) (hg : g.Good) (c0 s0 : T4 ℝ) (hm : c0.Minor) (hp : c0.Pos)
    (sg : g.Ix → T2 ℝ) (hr : g.Resolved sg) (x : g.Ix) (i : Fin 3) :
    gridDivergence g (fun x i j => sg x i j + act4 c0 (g.correction c0 s0 sg x) i j) x i = 0 := by
  have hf : ∀ k i j, g.forward (fun x => sg x i j + act4 c0 (g.correction c0 s0 sg x) i j) k =
      g.forward (fun x => sg x i j) k + ∑ p, ∑ q, (c0 i j p q : ℂ) * g.correctionHat c0 s0 sg k p q := by
    intro k i j
    simp only [← C73_field_real g hg c0 s0 hm hp sg k]
    unfold EvpGrid.forward act4
    push_cast
    simp only [add_mul, Finset.sum_add_distrib, Finset.sum_mul, Finset.mul_sum]
    congr 1
    rw [Finset.sum_comm]
    refine Finset.sum_congr rfl fun p _ => ?_
    rw [Finset.sum_comm]
    refine Finset.sum_congr rfl fun q _ => Finset.sum_congr rfl fun y _ => ?_
    ring
  refine (gridDivergence_zero_iff g hg _ ?_).mpr ?_ x i
  · intro k hk i j
    have hn := (g.nyquist_iff hg.pos k).mpr hk
    rw [hf, hr k hk]
    simp [g.correctionHat_resolved hg c0 s0 sg hr k hn]
  · intro k i
    simp only [hf]
    cases hz : g.zeroFreq k
    · cases hn : g.nyquist k
      · have hne : g.freq k ≠ 0 := fun h => by
          rw [freq_zero_iff g hg, hz] at h; cases h
        have e1 := (C73_reference_response c0 s0 hm hp (g.freq k) hne
          (fun a b => (g.forward (fun x => sg x a b) k).re)).1 i
        have e2 := (C73_reference_response c0 s0 hm hp (g.freq k) hne
          (fun a b => (g.forward (fun x => sg x a b) k).im)).1 i
        apply Complex.ext
        · simpa [EvpGrid.correctionHat, hz, hn, Complex.re_sum, act4] using e1
        · simpa [EvpGrid.correctionHat, hz, hn, Complex.im_sum, act4] using e2
      · have h0 := hr k ((g.nyquist_iff hg.pos k).mp hn)
        simp [g.correctionHat_resolved hg c0 s0 sg hr k hn, h0]
    · have hf0 : g.freq k = 0 := (freq_zero_iff g hg k).mpr hz
      simp [hf0]

/-- A grid with odd numbers of points meets the hypotheses for every stress field. -/
example (sg : (EvpGrid.mk ![3, 5, 1] ![1, 1 / 2, 2]).Ix → T2 ℝ) :
    (EvpGrid.mk ![3, 5, 1] ![1, 1 / 2, 2]).Good ∧ (EvpGrid.mk ![3, 5, 1] ![1, 1 / 2, 2]).Resolved sg := by
  refine ⟨⟨fun a => ?_, fun a => ?_⟩, fun k hk => ?_⟩
  · fin_cases a <;> simp
  · fin_cases a <;> simp
  · exfalso
    obtain ⟨a, ha⟩ := hk
    fin_cases a
    · have : 2 * (k 0 : ℕ) = 3 := ha
      omega
    · have : 2 * (k 1 : ℕ) = 5 := ha
      omega
    · have : 2 * (k 2 : ℕ) = 1 := ha
      omega

end Fierro
