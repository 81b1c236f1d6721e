import Verif.Model.EvpGreen
import Verif.Props.EvpStress
import Verif.Props.EvpReference

/-!
# C73: strain correction with the Green operator, one frequency at a time
-/

set_option linter.unusedSectionVars false

namespace Fierro

/-! ### Frequencies -/

/-- **C73.** The wave number of index `idx` is the representative of `idx` modulo the number of points
that is smallest in magnitude; it is zero only for the mean. -/
theorem C73_wave_numbers (n idx : ℕ) (h : idx < n) :
    (n : ℤ) ∣ waveIndex n idx - idx ∧ -(n : ℤ) < 2 * waveIndex n idx ∧ 2 * waveIndex n idx ≤ n ∧
      (waveIndex n idx = 0 ↔ idx = 0) := by
  unfold waveIndex
  split_ifs with hg
  · refine ⟨⟨-1, by ring⟩, by omega, by omega, by omega⟩
  · refine ⟨⟨0, by ring⟩, by omega, by omega, by omega⟩

/-- **C73.** Opposite indices have opposite wave numbers, except at the highest frequency of an even
number of points. -/
theorem C73_opposite (n idx : ℕ) (h : idx < n) (h2 : 2 * idx ≠ n) :
    waveIndex n ((n - idx) % n) = -waveIndex n idx := by
  rcases Nat.eq_zero_or_pos idx with h0 | h0
  · subst h0
    simp [waveIndex]
  · rw [Nat.mod_eq_of_lt (by omega)]
    unfold waveIndex
    split_ifs <;> omega

/-! ### The operator at one frequency -/

theorem unitFreq_spec (xk : Fin 3 → ℝ) (h : xk ≠ 0) :
    ∃ r : ℝ, 0 < r ∧ (∀ i, unitFreq xk i = xk i / r) ∧ r * r = ∑ i, xk i * xk i := by
  have hpos : 0 < xk 0 * xk 0 + xk 1 * xk 1 + xk 2 * xk 2 := by
    obtain ⟨k, hk⟩ := Function.ne_iff.mp h
    have hk' : 0 < xk k * xk k := mul_self_pos.mpr hk
    have a := mul_self_nonneg (xk 0)
    have b := mul_self_nonneg (xk 1)
    have c := mul_self_nonneg (xk 2)
    fin_cases k <;> simp only [Fin.zero_eta, Fin.mk_one, Fin.reduceFinMk] at hk' <;> linarith
  have hs := Real.sqrt_pos.mpr hpos
  refine ⟨Real.sqrt (xk 0 * xk 0 + xk 1 * xk 1 + xk 2 * xk 2), hs, fun i => ?_, ?_⟩
  · unfold unitFreq
    rw [if_pos hs.ne']
  · rw [Real.mul_self_sqrt hpos.le, Fin.sum_univ_three]

/-- Quadratic form of the acoustic tensor. -/
theorem acoustic_form (c0 : T4 ℝ) (n x : Fin 3 → ℝ) :
    ∑ i, ∑ k, x i * acoustic c0 n i k * x k =
      ddot (fun i j => x i * n j) (act4 c0 fun i j => x i * n j) := by
  simp only [acoustic, ddot, act4, Fin.sum_univ_three]
  ring

/-- A stiffness with the minor symmetries sees only the symmetric part of a displacement gradient. -/
theorem ddot_sym_part (c0 : T4 ℝ) (hm : c0.Minor) (T : T2 ℝ) :
    ddot T (act4 c0 T) = ddot (fun i j => (T i j + T j i) / 2) (act4 c0 fun i j => (T i j + T j i) / 2) := by
  have e1 : ∀ a b c d, c0 b a c d = c0 a b c d := fun a b c d => ((hm a b c d).1).symm
  have e2 : ∀ a b c d, c0 a b d c = c0 a b c d := fun a b c d => ((hm a b c d).2).symm
  simp only [ddot, act4, Fin.sum_univ_three]
  rw [e1 0 1 0 0, e1 0 1 0 1, e1 0 1 0 2, e1 0 1 1 0, e1 0 1 1 1, e1 0 1 1 2, e1 0 1 2 0, e1 0 1 2 1,
    e1 0 1 2 2, e1 0 2 0 0, e1 0 2 0 1, e1 0 2 0 2, e1 0 2 1 0, e1 0 2 1 1, e1 0 2 1 2, e1 0 2 2 0,
    e1 0 2 2 1, e1 0 2 2 2, e1 1 2 0 0, e1 1 2 0 1, e1 1 2 0 2, e1 1 2 1 0, e1 1 2 1 1, e1 1 2 1 2,
    e1 1 2 2 0, e1 1 2 2 1, e1 1 2 2 2]
  rw [e2 0 0 0 1, e2 0 0 0 2, e2 0 0 1 2, e2 0 1 0 1, e2 0 1 0 2, e2 0 1 1 2, e2 0 2 0 1, e2 0 2 0 2,
    e2 0 2 1 2, e2 1 1 0 1, e2 1 1 0 2, e2 1 1 1 2, e2 1 2 0 1, e2 1 2 0 2, e2 1 2 1 2, e2 2 2 0 1,
    e2 2 2 0 2, e2 2 2 1 2]
  ring

/-- The acoustic tensor of a reference stiffness with positive energy is positive definite. -/
theorem acoustic_posForm (c0 : T4 ℝ) (hm : c0.Minor) (hp : c0.Pos) (n : Fin 3 → ℝ) (hn : n ≠ 0) :
    PosForm (acoustic c0 n) := by
  intro x hx
  rw [acoustic_form, ddot_sym_part c0 hm]
  refine hp _ (fun i j => by ring) fun h0 => ?_
  have h : ∀ i j, x i * n j + x j * n i = 0 := by
    intro i j
    have := congrFun (congrFun h0 i) j
    simp only [Pi.zero_apply] at this
    linarith
  obtain ⟨i, hi⟩ := Function.ne_iff.mp hx
  obtain ⟨j, hj⟩ := Function.ne_iff.mp hn
  simp only [Pi.zero_apply] at hi hj
  have hii : n i = 0 := by
    have := h i i
    have h2 : x i * n i = 0 := by linarith
    rcases mul_eq_zero.mp h2 with h3 | h3
    · exact absurd h3 hi
    · exact h3
  have hij := h i j
  rw [hii, mul_zero, add_zero] at hij
  rcases mul_eq_zero.mp hij with h3 | h3
  · exact hi h3
  · exact hj h3

/-- The inverse of the acoustic tensor is computed at every frequency but zero. -/
theorem acoustic_inverse (c0 : T4 ℝ) (hm : c0.Minor) (hp : c0.Pos) (n : Fin 3 → ℝ) (hn : n ≠ 0) :
    InverseOf (acoustic c0 n) (invertView (acoustic c0 n)) :=
  (invertView_inverse _ (acoustic_posForm c0 hm hp n hn)).1

theorem unitFreq_ne (xk : Fin 3 → ℝ) (h : xk ≠ 0) : unitFreq xk ≠ 0 := by
  obtain ⟨r, hr, e, _⟩ := unitFreq_spec xk h
  intro h0
  apply h
  funext i
  have := congrFun h0 i
  rw [e i] at this
  simpa [hr.ne'] using this

/-- The amplitude of the displacement behind a correction. -/
noncomputable def greenAmp (c0 : T4 ℝ) (xk : Fin 3 → ℝ) (w : T2 ℝ) (i : Fin 3) : ℝ :=
  -∑ k, invertView (acoustic c0 (unitFreq xk)) i k * ∑ l, w k l * unitFreq xk l

theorem greenCorrection_eq (c0 s0 : T4 ℝ) (xk : Fin 3 → ℝ) (w : T2 ℝ) (i j : Fin 3) :
    greenCorrection c0 s0 false false xk w i j = greenAmp c0 xk w i * unitFreq xk j := by
  simp only [greenCorrection, greenOp, greenAmp, Bool.false_eq_true, if_false, Fin.sum_univ_three]
  ring

/-- **C73.** Compatibility: below the highest frequency the correction is a displacement amplitude times the
frequency, the transform of a displacement gradient. -/
theorem C73_compatible (c0 s0 : T4 ℝ) (xk : Fin 3 → ℝ) (h : xk ≠ 0) (w : T2 ℝ) :
    ∃ u : Fin 3 → ℝ, ∀ i j, greenCorrection c0 s0 false false xk w i j = u i * xk j := by
  obtain ⟨r, hr, e, _⟩ := unitFreq_spec xk h
  refine ⟨fun i => greenAmp c0 xk w i / r, fun i j => ?_⟩
  rw [greenCorrection_eq, e j]
  ring

theorem act4_rank_one (c0 : T4 ℝ) (u n : Fin 3 → ℝ) (i : Fin 3) :
    ∑ j, act4 c0 (fun p q => u p * n q) i j * n j = ∑ k, acoustic c0 n i k * u k := by
  simp only [act4, acoustic, Fin.sum_univ_three]
  ring

/-- **C73.** Equilibrium: the correction is the response of the reference medium that removes the divergence
of the stress, and it is the only compatible one. -/
theorem C73_reference_response (c0 s0 : T4 ℝ) (hm : c0.Minor) (hp : c0.Pos) (xk : Fin 3 → ℝ) (h : xk ≠ 0)
    (w : T2 ℝ) :
    (∀ i, ∑ j, (w i j + act4 c0 (greenCorrection c0 s0 false false xk w) i j) * xk j = 0) ∧
    ∀ u : Fin 3 → ℝ, (∀ i, ∑ j, (w i j + act4 c0 (fun p q => u p * xk q) i j) * xk j = 0) →
      ∀ i j, greenCorrection c0 s0 false false xk w i j = u i * xk j := by
  obtain ⟨r, hr, e, _⟩ := unitFreq_spec xk h
  have hn := unitFreq_ne xk h
  have hi := acoustic_inverse c0 hm hp _ hn
  have hi' : InverseOf (invertView (acoustic c0 (unitFreq xk))) (acoustic c0 (unitFreq xk)) := fun i j =>
    ⟨(hi i j).2, (hi i j).1⟩
  have hx : ∀ j, xk j = r * unitFreq xk j := fun j => by rw [e j]; field_simp
  constructor
  · intro i
    have e1 : greenCorrection c0 s0 false false xk w = fun p q => greenAmp c0 xk w p * unitFreq xk q := by
      funext p q; exact greenCorrection_eq c0 s0 xk w p q
    rw [e1]
    have e2 : ∑ j, (w i j + act4 c0 (fun p q => greenAmp c0 xk w p * unitFreq xk q) i j) * xk j =
        r * (∑ l, w i l * unitFreq xk l +
          ∑ j, act4 c0 (fun p q => greenAmp c0 xk w p * unitFreq xk q) i j * unitFreq xk j) := by
      rw [← Finset.sum_add_distrib, Finset.mul_sum]
      refine Finset.sum_congr rfl fun j _ => ?_
      rw [hx j]; ring
    rw [e2, act4_rank_one]
    have e3 := apply_inverse hi' (fun k => ∑ l, w k l * unitFreq xk l) i
    have e4 : ∑ k, acoustic c0 (unitFreq xk) i k * greenAmp c0 xk w k = -∑ l, w i l * unitFreq xk l := by
      rw [← e3]
      simp only [greenAmp, mul_neg, Finset.sum_neg_distrib]
    rw [e4]; ring
  · intro u hu i j
    rw [greenCorrection_eq]
    have key : ∀ k, ∑ l, w k l * unitFreq xk l = -∑ m, acoustic c0 (unitFreq xk) k m * (r * u m) := by
      intro k
      have hk := hu k
      have e1 : (fun p q => u p * xk q) = fun p q => (r * u p) * unitFreq xk q := by
        funext p q; rw [hx q]; ring
      rw [e1] at hk
      have e2 : ∑ j, (w k j + act4 c0 (fun p q => (r * u p) * unitFreq xk q) k j) * xk j =
          r * (∑ l, w k l * unitFreq xk l +
            ∑ j, act4 c0 (fun p q => (r * u p) * unitFreq xk q) k j * unitFreq xk j) := by
        rw [← Finset.sum_add_distrib, Finset.mul_sum]
        refine Finset.sum_congr rfl fun j _ => ?_
        rw [hx j]; ring
      rw [e2, act4_rank_one] at hk
      rcases mul_eq_zero.mp hk with h0 | h0
      · exact absurd h0 hr.ne'
      · linarith
    have : greenAmp c0 xk w i = r * u i := by
      simp only [greenAmp, key, mul_neg, Finset.sum_neg_distrib, neg_neg]
      exact apply_inverse hi (fun m => r * u m) i
    rw [this, hx j]; ring

/-- **C73.** No correction exactly at the frequencies where the stress is divergence free. -/
theorem C73_equilibrated (c0 s0 : T4 ℝ) (hm : c0.Minor) (hp : c0.Pos) (xk : Fin 3 → ℝ) (h : xk ≠ 0)
    (w : T2 ℝ) :
    (∀ i j, greenCorrection c0 s0 false false xk w i j = 0) ↔ ∀ i, ∑ j, w i j * xk j = 0 := by
  obtain ⟨h1, h2⟩ := C73_reference_response c0 s0 hm hp xk h w
  constructor
  · intro h0 i
    have := h1 i
    have e : greenCorrection c0 s0 false false xk w = fun _ _ => 0 := by funext i j; exact h0 i j
    rw [e] at this
    simpa [act4] using this
  · intro h0 i j
    have := h2 (fun _ => 0) (fun i => by simpa [act4] using h0 i) i j
    rw [this, zero_mul]

/-- **C73.** Projection: the stress caused in the reference medium by a compatible strain is answered by
exactly minus that strain. -/
theorem C73_projection (c0 s0 : T4 ℝ) (hm : c0.Minor) (hp : c0.Pos) (xk : Fin 3 → ℝ) (h : xk ≠ 0)
    (u : Fin 3 → ℝ) (i j : Fin 3) :
    greenCorrection c0 s0 false false xk (act4 c0 fun p q => u p * xk q) i j = -(u i * xk j) := by
  have := (C73_reference_response c0 s0 hm hp xk h (act4 c0 fun p q => u p * xk q)).2 (fun i => -u i)
    (fun i => by
      have e : act4 c0 (fun p q => -u p * xk q) = fun i j => -act4 c0 (fun p q => u p * xk q) i j := by
        funext i j
        simp only [act4, Fin.sum_univ_three]; ring
      rw [e]; simp) i j
  rw [this]; ring

/-- **C73.** The operator depends on the direction of the frequency only, not on its length or sense; so
opposite frequencies get the same operator and real fields stay real. -/
theorem C73_direction_only (c0 s0 : T4 ℝ) (hm : c0.Minor) (hp : c0.Pos) (xk : Fin 3 → ℝ) (h : xk ≠ 0)
    (t : ℝ) (ht : t ≠ 0) (w : T2 ℝ) :
    greenCorrection c0 s0 false false (fun i => t * xk i) w = greenCorrection c0 s0 false false xk w := by
  obtain ⟨u, hu⟩ := C73_compatible c0 s0 xk h w
  have h1 := (C73_reference_response c0 s0 hm hp xk h w).1
  have htx : (fun i => t * xk i) ≠ 0 := by
    intro h0
    apply h
    funext i
    have := congrFun h0 i
    simp only [Pi.zero_apply] at this
    rcases mul_eq_zero.mp this with h3 | h3
    · exact absurd h3 ht
    · exact h3
  have e : greenCorrection c0 s0 false false xk w = fun p q => u p / t * (t * xk q) := by
    funext p q
    rw [hu p q]
    field_simp
  funext i j
  rw [(C73_reference_response c0 s0 hm hp _ htx w).2 (fun i => u i / t) (fun i => ?_) i j, hu i j]
  · field_simp
  · rw [← e]
    have := h1 i
    have e2 : ∑ j, (w i j + act4 c0 (greenCorrection c0 s0 false false xk w) i j) * (t * xk j) =
        t * ∑ j, (w i j + act4 c0 (greenCorrection c0 s0 false false xk w) i j) * xk j := by
      rw [Finset.mul_sum]; exact Finset.sum_congr rfl fun j _ => by ring
    rw [e2, this, mul_zero]

/-- **C73.** At the highest frequency of an even number of points the correction removes the stress of that
frequency in the reference medium altogether. -/
theorem C73_highest_frequency (c0 s0 : T4 ℝ) (hs : ∀ T : T2 ℝ, T.Sym → act4 c0 (act4 s0 T) = T)
    (xk : Fin 3 → ℝ) (w : T2 ℝ) (hw : w.Sym) (i j : Fin 3) :
    w i j + act4 c0 (greenCorrection c0 s0 false true xk w) i j = 0 := by
  have e : greenCorrection c0 s0 false true xk w = fun i j => -act4 s0 w i j := by
    funext i j
    simp only [greenCorrection, greenOp, Bool.false_eq_true, if_false, if_true, act4, Fin.sum_univ_three]
    ring
  have e2 : act4 c0 (fun i j => -act4 s0 w i j) i j = -act4 c0 (act4 s0 w) i j := by
    simp only [act4, mul_neg, Finset.sum_neg_distrib]
  rw [e, e2, hs w hw]
  ring

/-- **C73.** The mean strain is never changed by the operator. -/
theorem C73_mean_untouched (c0 s0 : T4 ℝ) (nyq : Bool) (xk : Fin 3 → ℝ) (w : T2 ℝ) (i j : Fin 3) :
    greenCorrection c0 s0 true nyq xk w i j = 0 := by
  simp [greenCorrection]

/-- The isotropic stiffness meets the hypotheses. -/
example : T4.Minor (isoStiffness (210 : ℝ) (3 / 10)) ∧ T4.Pos (isoStiffness (210 : ℝ) (3 / 10)) ∧
    (![1, 0, 2] : Fin 3 → ℝ) ≠ 0 := by
  refine ⟨fun i j k l => ?_, C67_isotropic_positive _ _ (by norm_num) (by norm_num) (by norm_num), ?_⟩
  · fin_cases i <;> fin_cases j <;> fin_cases k <;> fin_cases l <;>
      simp [isoStiffness, xid4, dde]
  · intro h
    have := congrFun h 0
    simp at this

end Fierro
