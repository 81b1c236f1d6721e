import Verif.Model.EvpHarden
import Mathlib.Algebra.BigOperators.Fin
import Mathlib.Tactic.Linarith
import Mathlib.Tactic.FieldSimp
import Mathlib.Tactic.LinearCombination
import Mathlib.Algebra.Order.BigOperators.Group.Finset

/-!
# C71: Voce hardening
-/

set_option linter.unusedSectionVars false

namespace Fierro

variable {n : ℕ}

/-- The Voce law: strength gained after the accumulated shear `g`. -/
noncomputable def voceLaw (tau1 thet0 thet1 g : ℝ) : ℝ :=
  (tau1 + thet1 * g) * (1 - Real.exp (-g * |thet0 / tau1|))

theorem finRange_foldl_sum (f : Fin n → ℝ) :
    (List.finRange n).foldl (fun acc s => acc + f s) 0 = ∑ s, f s := by
  have : ∀ (l : List (Fin n)) (a : ℝ), l.foldl (fun acc s => acc + f s) a = a + (l.map f).sum := by
    intro l
    induction l with
    | nil => intro a; simp
    | cons x xs ih => intro a; rw [List.foldl_cons, ih, List.map_cons, List.sum_cons]; ring
  rw [this, zero_add, ← List.ofFn_eq_map, List.sum_ofFn]

theorem deltGam_eq (gamdot : Fin n → ℝ) (tdot : ℝ) :
    deltGam gamdot tdot = ∑ s, |gamdot s| * tdot := finRange_foldl_sum _

theorem deltTau_eq (p : VoceParams n) (gamdot : Fin n → ℝ) (tdot : ℝ) (s : Fin n) :
    deltTau p gamdot tdot s = ∑ t, p.hard s t * |gamdot t| * tdot := finRange_foldl_sum _

/-- **C71.** The increment computed for a system is the exact increment of the Voce law over the shear
of the step, not an approximation for small steps. -/
theorem C71_increment (p : VoceParams n) (s : Fin n) (g d : ℝ) (h0 : 0 ≤ p.tau0 s)
    (ht : 1 / 10 ^ 4 * p.tau0 s < |p.thet0 s|) (h1 : 1 / 10 ^ 4 * p.tau0 s < |p.tau1 s|) :
    voceInc p s g d = voceLaw (p.tau1 s) (p.thet0 s) (p.thet1 s) (g + d) -
      voceLaw (p.tau1 s) (p.thet0 s) (p.thet1 s) g := by
  have hp : (0 : ℝ) ≤ 1 / 10 ^ 4 * p.tau0 s := mul_nonneg (by norm_num) h0
  have hf : 0 < |p.thet0 s / p.tau1 s| := by
    rw [abs_div]
    exact div_pos (lt_of_le_of_lt hp ht) (lt_of_le_of_lt hp h1)
  unfold voceInc voceLaw
  simp only [gt_iff_lt, if_pos ht, if_pos h1]
  generalize |p.thet0 s / p.tau1 s| = f at *
  have e : Real.exp (-(g + d) * f) = Real.exp (-g * f) * Real.exp (-d * f) := by
    rw [← Real.exp_add]; congr 1; ring
  rw [e]
  field_simp
  ring

/-- **C71.** Linear hardening: with a vanishing `tau1` the increment is `thet1` times the shear. -/
theorem C71_linear (p : VoceParams n) (s : Fin n) (g d : ℝ)
    (ht : 1 / 10 ^ 4 * p.tau0 s < |p.thet0 s|) (h1 : |p.tau1 s| ≤ 1 / 10 ^ 4 * p.tau0 s) :
    voceInc p s g d = p.thet1 s * d := by
  unfold voceInc
  simp only [gt_iff_lt, if_pos ht, if_neg (not_lt.mpr h1)]

/-- **C71.** The accumulated shear is the sum of the absolute shears of all systems; slip in either
direction counts. -/
theorem C71_accumulated (p : VoceParams n) (st : VoceState n) (gamdot : Fin n → ℝ) (tdot : ℝ) :
    (updateVoce p false st gamdot tdot).gamtot = st.gamtot + ∑ s, |gamdot s| * tdot := by
  simp [updateVoce, deltGam_eq]

/-- **C71.** A gas point, and a point where nothing slips, keeps its strengths. -/
theorem C71_no_slip (p : VoceParams n) (st : VoceState n) (gamdot : Fin n → ℝ) (tdot : ℝ) :
    updateVoce p true st gamdot tdot = st ∧
    ((∀ s, gamdot s = 0) → updateVoce p false st gamdot tdot = st) := by
  refine ⟨rfl, fun h => ?_⟩
  have hd : deltGam gamdot tdot = 0 := by rw [deltGam_eq]; simp [h]
  simp [updateVoce, hd]

/-- Saturating system: the thresholds of the code are passed, and the parameters are physical. -/
structure VoceParams.Voce (p : VoceParams n) (s : Fin n) : Prop where
  tau0 : 0 ≤ p.tau0 s
  thet0 : 1 / 10 ^ 4 * p.tau0 s < |p.thet0 s|
  tau1 : 1 / 10 ^ 4 * p.tau0 s < p.tau1 s
  thet1 : 0 ≤ p.thet1 s

theorem voceLaw_mono (tau1 thet0 thet1 a b : ℝ) (ht : 0 ≤ tau1) (h1 : 0 ≤ thet1) (ha : 0 ≤ a)
    (hab : a ≤ b) : voceLaw tau1 thet0 thet1 a ≤ voceLaw tau1 thet0 thet1 b := by
  unfold voceLaw
  have hf : 0 ≤ |thet0 / tau1| := abs_nonneg _
  generalize |thet0 / tau1| = f at *
  have e1 : Real.exp (-b * f) ≤ Real.exp (-a * f) := Real.exp_le_exp.mpr (by nlinarith)
  have e2 : Real.exp (-a * f) ≤ 1 := Real.exp_le_one_iff.mpr (by nlinarith)
  have hm : thet1 * a ≤ thet1 * b := mul_le_mul_of_nonneg_left hab h1
  have hb : 0 ≤ thet1 * b := mul_nonneg h1 (ha.trans hab)
  exact mul_le_mul (by linarith) (by linarith) (by linarith) (by linarith)

/-- One step: the strength gained lies between the smallest and the largest hardening coefficient times
the increment of the law. -/
theorem voce_step_bounds (p : VoceParams n) (s : Fin n) (hv : p.Voce s) (lo hi : ℝ)
    (hlo : ∀ t, lo ≤ p.hard s t) (hhi : ∀ t, p.hard s t ≤ hi) (st : VoceState n) (hg : 0 ≤ st.gamtot)
    (gamdot : Fin n → ℝ) (tdot : ℝ) (htd : 0 ≤ tdot) :
    let st' := updateVoce p false st gamdot tdot
    let V := fun g => voceLaw (p.tau1 s) (p.thet0 s) (p.thet1 s) g
    st.gamtot ≤ st'.gamtot ∧
    lo * (V st'.gamtot - V st.gamtot) ≤ st'.crss1 s - st.crss1 s ∧
    st'.crss1 s - st.crss1 s ≤ hi * (V st'.gamtot - V st.gamtot) ∧
    st'.crss2 s - st.crss2 s = st'.crss1 s - st.crss1 s := by
  intro st' V
  have ht1 : 0 ≤ p.tau1 s := (lt_of_le_of_lt (mul_nonneg (by norm_num) hv.tau0) hv.tau1).le
  have hd0 : 0 ≤ deltGam gamdot tdot := by
    rw [deltGam_eq]
    exact Finset.sum_nonneg fun t _ => mul_nonneg (abs_nonneg _) htd
  have hgam : st'.gamtot = st.gamtot + deltGam gamdot tdot := rfl
  have hinc := C71_increment p s st.gamtot (deltGam gamdot tdot) hv.tau0 hv.thet0
    (lt_of_lt_of_le hv.tau1 (le_abs_self _))
  have hmono : V st.gamtot ≤ V (st.gamtot + deltGam gamdot tdot) :=
    voceLaw_mono _ _ _ _ _ ht1 hv.thet1 hg (by linarith)
  refine ⟨by rw [hgam]; linarith, ?_⟩
  rcases hd0.eq_or_lt with hz | hpos
  · have c1 : st'.crss1 s = st.crss1 s := by simp [st', updateVoce, ← hz]
    have c2 : st'.crss2 s = st.crss2 s := by simp [st', updateVoce, ← hz]
    rw [hgam, c1, c2, ← hz]
    simp
  · have habs : |deltGam gamdot tdot| > 0 := abs_pos.mpr hpos.ne'
    have c1 : st'.crss1 s - st.crss1 s =
        deltTau p gamdot tdot s / deltGam gamdot tdot * (V (st.gamtot + deltGam gamdot tdot) - V st.gamtot) := by
      simp only [st', updateVoce, Bool.false_eq_true, if_false, if_pos habs, hinc]
      ring
    have c2 : st'.crss2 s - st.crss2 s =
        deltTau p gamdot tdot s / deltGam gamdot tdot * (V (st.gamtot + deltGam gamdot tdot) - V st.gamtot) := by
      simp only [st', updateVoce, Bool.false_eq_true, if_false, if_pos habs, hinc]
      ring
    have hl : lo ≤ deltTau p gamdot tdot s / deltGam gamdot tdot := by
      rw [le_div_iff₀ hpos, deltGam_eq, deltTau_eq, Finset.mul_sum]
      refine Finset.sum_le_sum fun t _ => ?_
      rw [mul_assoc]
      exact mul_le_mul_of_nonneg_right (hlo t) (mul_nonneg (abs_nonneg _) htd)
    have hh : deltTau p gamdot tdot s / deltGam gamdot tdot ≤ hi := by
      rw [div_le_iff₀ hpos, deltGam_eq, deltTau_eq, Finset.mul_sum]
      refine Finset.sum_le_sum fun t _ => ?_
      rw [mul_assoc]
      exact mul_le_mul_of_nonneg_right (hhi t) (mul_nonneg (abs_nonneg _) htd)
    rw [hgam, c1, c2]
    have hV : 0 ≤ V (st.gamtot + deltGam gamdot tdot) - V st.gamtot := by linarith
    exact ⟨mul_le_mul_of_nonneg_right hl hV, mul_le_mul_of_nonneg_right hh hV, rfl⟩

/-- **C71.** Any history: whatever the shear rates and however the deformation is cut into time steps,
the strength gained by a system lies between the smallest and the largest of its hardening coefficients
times the Voce law taken between the first and the last accumulated shear; both senses of slip gain the
same.  With equal coefficients the result does not depend on the steps at all. -/
theorem C71_history (p : VoceParams n) (s : Fin n) (hv : p.Voce s) (lo hi : ℝ)
    (hlo : ∀ t, lo ≤ p.hard s t) (hhi : ∀ t, p.hard s t ≤ hi) (st : VoceState n) (hg : 0 ≤ st.gamtot)
    (steps : List ((Fin n → ℝ) × ℝ)) (hst : ∀ x ∈ steps, 0 ≤ x.2) :
    let st' := voceRun p st steps
    let V := fun g => voceLaw (p.tau1 s) (p.thet0 s) (p.thet1 s) g
    st'.gamtot = st.gamtot + (steps.map fun x => ∑ t, |x.1 t| * x.2).sum ∧ st.gamtot ≤ st'.gamtot ∧
    lo * (V st'.gamtot - V st.gamtot) ≤ st'.crss1 s - st.crss1 s ∧
    st'.crss1 s - st.crss1 s ≤ hi * (V st'.gamtot - V st.gamtot) ∧
    st'.crss2 s - st.crss2 s = st'.crss1 s - st.crss1 s := by
  intro st' V
  induction steps generalizing st with
  | nil => simp [st', voceRun]
  | cons x xs ih =>
    obtain ⟨b0, b1, b2, b3⟩ := voce_step_bounds p s hv lo hi hlo hhi st hg x.1 x.2
      (hst x (List.mem_cons_self ..))
    obtain ⟨a0, a1, a2, a3, a4⟩ := ih (updateVoce p false st x.1 x.2) (hg.trans b0)
      (fun y hy => hst y (List.mem_cons_of_mem _ hy))
    have e : st' = voceRun p (updateVoce p false st x.1 x.2) xs := rfl
    have eg := C71_accumulated p st x.1 x.2
    rw [e]
    refine ⟨?_, b0.trans a1, ?_, ?_, ?_⟩
    · rw [a0, eg, List.map_cons, List.sum_cons, add_assoc]
    · have := b1; have := a2
      simp only [V] at *
      linarith
    · have := b2; have := a3
      simp only [V] at *
      linarith
    · linarith

/-- **C71.** Strengths never decrease under non-negative hardening coefficients. -/
theorem C71_never_softens (p : VoceParams n) (s : Fin n) (hv : p.Voce s) (hh : ∀ t, 0 ≤ p.hard s t)
    (st : VoceState n) (hg : 0 ≤ st.gamtot) (steps : List ((Fin n → ℝ) × ℝ))
    (hst : ∀ x ∈ steps, 0 ≤ x.2) :
    st.crss1 s ≤ (voceRun p st steps).crss1 s ∧ st.crss2 s ≤ (voceRun p st steps).crss2 s := by
  obtain ⟨hi, hhi⟩ : ∃ hi, ∀ t, p.hard s t ≤ hi :=
    ⟨∑ t, p.hard s t, fun t => Finset.single_le_sum (fun t _ => hh t) (Finset.mem_univ t)⟩
  obtain ⟨_, _, a2, _, a4⟩ := C71_history p s hv 0 hi hh hhi st hg steps hst
  constructor <;> linarith

/-- **C71.** Saturation: without a final slope (`thet1 = 0`) no history raises the strength by more than
the largest coefficient times `tau1`. -/
theorem C71_saturation (p : VoceParams n) (s : Fin n) (hv : p.Voce s) (h1 : p.thet1 s = 0) (hi : ℝ)
    (hh : ∀ t, 0 ≤ p.hard s t) (hhi : ∀ t, p.hard s t ≤ hi) (h0 : 0 ≤ hi) (st : VoceState n)
    (hg : 0 ≤ st.gamtot) (steps : List ((Fin n → ℝ) × ℝ)) (hst : ∀ x ∈ steps, 0 ≤ x.2) :
    (voceRun p st steps).crss1 s ≤ st.crss1 s + hi * p.tau1 s := by
  obtain ⟨_, a1, _, a3, _⟩ := C71_history p s hv 0 hi hh hhi st hg steps hst
  have ht1 : 0 ≤ p.tau1 s := (lt_of_le_of_lt (mul_nonneg (by norm_num) hv.tau0) hv.tau1).le
  have hb : ∀ g, 0 ≤ g → 0 ≤ voceLaw (p.tau1 s) (p.thet0 s) (p.thet1 s) g ∧
      voceLaw (p.tau1 s) (p.thet0 s) (p.thet1 s) g ≤ p.tau1 s := by
    intro g hg
    unfold voceLaw
    rw [h1]
    have e := Real.exp_pos (-g * |p.thet0 s / p.tau1 s|)
    have e2 : Real.exp (-g * |p.thet0 s / p.tau1 s|) ≤ 1 :=
      Real.exp_le_one_iff.mpr (by
        rw [neg_mul, Left.neg_nonpos_iff]
        exact mul_nonneg hg (abs_nonneg _))
    constructor
    · exact mul_nonneg (by linarith) (by linarith)
    · nlinarith
  have b0 := (hb _ hg).1
  have b1 := (hb _ (hg.trans a1)).2
  have : hi * (voceLaw (p.tau1 s) (p.thet0 s) (p.thet1 s) (voceRun p st steps).gamtot -
      voceLaw (p.tau1 s) (p.thet0 s) (p.thet1 s) st.gamtot) ≤ hi * p.tau1 s :=
    mul_le_mul_of_nonneg_left (by linarith) h0
  simp only at a3
  linarith

/-- A linear law with slope 2 at an initial strength of 20000. -/
noncomputable def weakSlope : VoceParams 1 where
  tau0 := fun _ => 20000
  tau1 := fun _ => 1 / 10 ^ 6
  thet0 := fun _ => 2
  thet1 := fun _ => 2
  hard := fun _ _ => 1

/-- **C71 (finding).** A hardening slope not above `1e-4` of the initial strength is ignored altogether,
in the linear law too: a point can be sheared without limit and never harden. -/
theorem C71_small_slope_fails : ∃ p : VoceParams 1, 0 < p.thet1 0 ∧ p.thet0 0 = p.thet1 0 ∧
    ∀ (st : VoceState 1) (steps : List ((Fin 1 → ℝ) × ℝ)), (voceRun p st steps).crss1 0 = st.crss1 0 := by
  refine ⟨weakSlope, by norm_num [weakSlope], rfl, ?_⟩
  intro st steps
  induction steps generalizing st with
  | nil => rfl
  | cons x xs ih =>
    show (voceRun _ (updateVoce _ false st x.1 x.2) xs).crss1 0 = _
    rw [ih]
    have hz : ∀ g d : ℝ, voceInc weakSlope 0 g d = 0 := by
      intro g d
      unfold voceInc weakSlope
      simp only
      rw [if_neg (by norm_num)]
    simp [updateVoce, hz]

/-- Two systems with latent hardening. -/
noncomputable def twoSystems : VoceParams 2 where
  tau0 := fun _ => 20
  tau1 := fun _ => 40
  thet0 := fun _ => 200
  thet1 := fun _ => 10
  hard := fun i j => if i = j then 1 else 7 / 5

/-- The hypotheses hold for them. -/
example : twoSystems.Voce 0 := by
  constructor <;> norm_num [twoSystems]

end Fierro
