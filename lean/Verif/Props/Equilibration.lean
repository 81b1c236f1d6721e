import Verif.Model.Equilibration
import Mathlib.Algebra.Order.BigOperators.Group.List
import Mathlib.Tactic.Ring
import Mathlib.Tactic.Linarith
import Mathlib.Tactic.FieldSimp
import Mathlib.Tactic.Positivity
import Mathlib.Data.List.Induction
import Mathlib.Data.Rat.Cast.Order

/-!
# C28: volume fractions under pressure equilibration
-/

set_option linter.unusedSectionVars false

namespace Fierro

variable {K : Type} [Field K] [LinearOrder K] [IsStrictOrderedRing K]

/-- The sum of the volume fractions at the Gauss point. -/
def vfSum (mats : List (TipMat K)) : K := (mats.map TipMat.vf).sum

/-- Average pressure of the method, from its definition: `Σ R p / (Σ R + fuzz)`. -/
def meanPressure (P : TipPars K) (mats : List (TipMat K)) : K :=
  (mats.map fun m => m.vf / (m.den * m.sspd * m.sspd + P.fuzz) * m.pres).sum /
    ((mats.map fun m => m.vf / (m.den * m.sspd * m.sspd + P.fuzz)).sum + P.fuzz)

/-- All materials at the point are mixed: none fills it up to the fuzz. -/
def AllMixed (P : TipPars K) (mats : List (TipMat K)) : Prop := ∀ m ∈ mats, m.vf < 1 - P.fuzz

/-- **C28**, range: whatever the input, volume fractions end in `[0,1]`. -/
theorem C28_range (P : TipPars K) (mats : List (TipMat K)) :
    (tipton P mats).length = mats.length ∧ ∀ m ∈ tipton P mats, 0 ≤ m.vf ∧ m.vf ≤ 1 := by
  refine ⟨by simp [tipton], fun m hm => ?_⟩
  obtain ⟨m, -, rfl⟩ := List.mem_map.mp hm
  exact ⟨le_min zero_le_one (le_max_left _ _), min_le_left _ _⟩

theorem tipAvg_mixed {P : TipPars K} {mats : List (TipMat K)} (h : AllMixed P mats) :
    (tipAvg P mats).pres = (mats.map fun m => m.ratio P * m.pres).sum ∧
    (tipAvg P mats).denom = (mats.map fun m => m.ratio P).sum ∧
    (∀ m ∈ mats, (tipAvg P mats).vfMin ≤ m.vf) ∧
    ((∀ m ∈ mats, 0 ≤ m.vf) → 0 ≤ (tipAvg P mats).vfMin) := by
  induction mats using List.reverseRecOn with
  | nil => simp [tipAvg]
  | append_singleton ms m ih =>
    obtain ⟨h1, h2, h3, h4⟩ := ih fun x hx => h x (List.mem_append_left _ hx)
    have hm := h m (by simp)
    have e : tipAvg P (ms ++ [m]) = TipAvg.step P (tipAvg P ms) m := by simp [tipAvg]
    rw [e, TipAvg.step, if_pos hm]
    refine ⟨by simp [h1], by simp [h2], fun x hx => ?_, fun hx => ?_⟩
    · rcases List.mem_append.mp hx with hx | hx
      · exact (min_le_right _ _).trans (h3 x hx)
      · rw [List.mem_singleton.mp hx]; exact min_le_left _ _
    · exact le_min (hx m (by simp)) (h4 fun y hy => hx y (List.mem_append_left _ hy))

theorem tipParam_range (P : TipPars K) : 0 ≤ tipParam P ∧ tipParam P ≤ 1 :=
  ⟨le_min zero_le_one (le_max_left _ _), min_le_left _ _⟩

theorem tipLim_mixed {P : TipPars K} (hf : 0 < P.fuzz) (a : TipAvg K) (ha : 0 ≤ a.vfMin)
    {mats : List (TipMat K)} (h : AllMixed P mats) :
    0 ≤ tipLim P a mats ∧ tipLim P a mats ≤ 1 ∧
    ∀ m ∈ mats, |tipLim P a mats * tipDelta P a m| ≤ tipParam P * a.vfMin := by
  have key : 0 ≤ tipLim P a mats ∧ tipLim P a mats ≤ 1 ∧
      ∀ m ∈ mats, tipLim P a mats ≤ tipParam P * a.vfMin / (|tipDelta P a m| + P.fuzz) := by
    induction mats using List.reverseRecOn with
    | nil => simp [tipLim]
    | append_singleton ms m ih =>
      obtain ⟨h1, h2, h3⟩ := ih fun x hx => h x (List.mem_append_left _ hx)
      have hm := h m (by simp)
      have e : tipLim P a (ms ++ [m]) = tipLimStep P a (tipLim P a ms) m := by simp [tipLim]
      rw [e, tipLimStep, if_pos hm]
      refine ⟨le_min h1 ?_, (min_le_left _ _).trans h2, fun x hx => ?_⟩
      · have := (tipParam_range P).1
        have := abs_nonneg (tipDelta P a m)
        positivity
      · rcases List.mem_append.mp hx with hx | hx
        · exact (min_le_left _ _).trans (h3 x hx)
        · rw [List.mem_singleton.mp hx]; exact min_le_right _ _
  refine ⟨key.1, key.2.1, fun m hm => ?_⟩
  have h1 := key.2.2 m hm
  have h0 := abs_nonneg (tipDelta P a m)
  rw [le_div_iff₀ (by linarith)] at h1
  rw [abs_mul, abs_of_nonneg key.1]
  nlinarith [key.1]

theorem two_le_vfSum {mats : List (TipMat K)} (h0 : ∀ m ∈ mats, 0 ≤ m.vf) (hl : 2 ≤ mats.length)
    (c : K) (hc : ∀ m ∈ mats, c ≤ m.vf) (m : TipMat K) (hm : m ∈ mats) : m.vf + c ≤ vfSum mats := by
  obtain ⟨s, t, rfl⟩ := List.append_of_mem hm
  have hs : ∀ l : List (TipMat K), (∀ m ∈ l, 0 ≤ m.vf) → 0 ≤ (l.map TipMat.vf).sum := by
    intro l hl
    exact List.sum_nonneg fun x hx => by
      obtain ⟨m, hm, rfl⟩ := List.mem_map.mp hx; exact hl m hm
  have hsne : ∀ l : List (TipMat K), l ≠ [] → (∀ m ∈ l, 0 ≤ m.vf) → (∀ m ∈ l, c ≤ m.vf) →
      c ≤ (l.map TipMat.vf).sum := by
    intro l hl h0 hc
    obtain ⟨a, l', rfl⟩ := List.exists_cons_of_ne_nil hl
    have := hs l' fun m hm => h0 m (List.mem_cons_of_mem _ hm)
    have := hc a List.mem_cons_self
    simp only [List.map_cons, List.sum_cons]; linarith
  have e : vfSum (s ++ m :: t) = m.vf + ((s ++ t).map TipMat.vf).sum := by
    simp [vfSum]; ring
  rw [e]
  have hne : s ++ t ≠ [] := by
    intro h
    rw [List.append_eq_nil_iff] at h
    simp [h.1, h.2] at hl
  have hsub : ∀ x ∈ s ++ t, x ∈ s ++ m :: t := by
    intro x hx
    rcases List.mem_append.mp hx with h | h
    · exact List.mem_append_left _ h
    · exact List.mem_append_right _ (List.mem_cons_of_mem _ h)
  have := hsne (s ++ t) hne (fun x hx => h0 x (hsub x hx)) (fun x hx => hc x (hsub x hx))
  linarith

/-- In a mixed point with fractions that sum to one the final clamp does nothing: the limited
change is applied in full. -/
theorem C28_clamp_inactive (P : TipPars K) (hf : 0 < P.fuzz) (mats : List (TipMat K))
    (hmix : AllMixed P mats) (h0 : ∀ m ∈ mats, 0 ≤ m.vf) (hl : 2 ≤ mats.length)
    (hsum : vfSum mats ≤ 1) :
    ∀ m ∈ mats, (tipUpdate P (tipAvg P mats) (tipLim P (tipAvg P mats) mats) m).vf =
      m.vf + tipLim P (tipAvg P mats) mats * tipDelta P (tipAvg P mats) m := by
  intro m hm
  obtain ⟨-, -, h3, h4⟩ := tipAvg_mixed hmix
  obtain ⟨-, -, h6⟩ := tipLim_mixed hf _ (h4 h0) hmix
  have h7 := h6 m hm
  have hp := tipParam_range P
  have hv := h4 h0
  have h8 : tipParam P * (tipAvg P mats).vfMin ≤ (tipAvg P mats).vfMin := by nlinarith [hp.1, hp.2]
  have h9 := two_le_vfSum h0 hl _ h3 m hm
  have h10 := h3 m hm
  have h11 := abs_le.mp h7
  simp only [tipUpdate]
  rw [max_eq_right (by linarith [h11.1]), min_eq_right (by linarith [h11.2])]

/-- Change of the volume fraction of a material by the method before limiting, from its definition. -/
def tipChange (P : TipPars K) (mats : List (TipMat K)) (m : TipMat K) : K :=
  m.vf / (m.den * m.sspd * m.sspd + P.fuzz) * (m.pres - meanPressure P mats) / (P.g1 + P.fuzz) +
    (m.vf / (m.den * m.sspd * m.sspd + P.fuzz) /
      ((mats.map fun m => m.vf / (m.den * m.sspd * m.sspd + P.fuzz)).sum + P.fuzz) - m.vf) *
      P.div * P.alpha * P.dt

theorem tipAvg_vfMin {P : TipPars K} {mats : List (TipMat K)} (h : AllMixed P mats) :
    (tipAvg P mats).vfMin = 1 ∨ ∃ m ∈ mats, (tipAvg P mats).vfMin = m.vf := by
  induction mats using List.reverseRecOn with
  | nil => exact .inl rfl
  | append_singleton ms m ih =>
    have hm := h m (by simp)
    have e : tipAvg P (ms ++ [m]) = TipAvg.step P (tipAvg P ms) m := by simp [tipAvg]
    rw [e, TipAvg.step, if_pos hm]
    rcases min_choice m.vf (tipAvg P ms).vfMin with hc | hc
    · exact .inr ⟨m, by simp, hc⟩
    · rcases ih fun x hx => h x (List.mem_append_left _ hx) with h1 | ⟨x, hx, h1⟩
      · exact .inl (hc.trans h1)
      · exact .inr ⟨x, List.mem_append_left _ hx, hc.trans h1⟩

theorem tipLim_one {P : TipPars K} (a : TipAvg K) {mats : List (TipMat K)}
    (h : ∀ m ∈ mats, 1 ≤ tipParam P * a.vfMin / (|tipDelta P a m| + P.fuzz)) : tipLim P a mats = 1 := by
  induction mats using List.reverseRecOn with
  | nil => rfl
  | append_singleton ms m ih =>
    have e : tipLim P a (ms ++ [m]) = tipLimStep P a (tipLim P a ms) m := by simp [tipLim]
    rw [e, ih fun x hx => h x (List.mem_append_left _ hx), tipLimStep]
    split_ifs
    · exact min_eq_left (h m (by simp))
    · rfl

/-- **C28**, change: at a mixed point whose fractions sum to at most one all materials change by the same part `q` of
the change of the method, between none and all of it, and by all of it when the changes are small against the smallest
fraction. -/
theorem C28_change (P : TipPars K) (hf : 0 < P.fuzz) (mats : List (TipMat K))
    (hmix : AllMixed P mats) (h0 : ∀ m ∈ mats, 0 ≤ m.vf) (hl : 2 ≤ mats.length)
    (hsum : vfSum mats ≤ 1) :
    ∃ q : K, 0 ≤ q ∧ q ≤ 1 ∧
      (tipton P mats).map TipMat.vf = mats.map (fun m => m.vf + q * tipChange P mats m) ∧
      ((∀ m ∈ mats, ∀ m' ∈ mats, |tipChange P mats m| + P.fuzz ≤ min 1 (max 0 P.g0) * m'.vf) → q = 1) := by
  obtain ⟨h1, h2, h3, h4⟩ := tipAvg_mixed hmix
  obtain ⟨l0, l1, -⟩ := tipLim_mixed hf _ (h4 h0) hmix
  have hp : tipPres P (tipAvg P mats) = meanPressure P mats := by
    unfold tipPres meanPressure
    rw [h1, h2]; rfl
  have hd : ∀ m ∈ mats, tipDelta P (tipAvg P mats) m = tipChange P mats m := by
    intro m hm
    rw [tipDelta, if_pos (hmix m hm), hp, h2]; rfl
  refine ⟨_, l0, l1, ?_, fun h => tipLim_one _ fun m hm => ?_⟩
  · rw [tipton, List.map_map]
    refine List.map_congr_left fun m hm => ?_
    rw [← hd m hm]
    exact C28_clamp_inactive P hf mats hmix h0 hl hsum m hm
  · have hpos : 0 < |tipDelta P (tipAvg P mats) m| + P.fuzz := by positivity
    rw [one_le_div hpos, hd m hm]
    rcases tipAvg_vfMin hmix with hv | ⟨x, hx, hv⟩
    · rw [hv]
      have hm1 : m.vf ≤ 1 := by have := hmix m hm; linarith
      exact (h m hm m hm).trans (mul_le_mul_of_nonneg_left hm1 (tipParam_range P).1)
    · rw [hv]; exact h m hm x hx

/-- Two materials whose pressures differ little: the whole change is applied. -/
example : ∃ (P : TipPars ℚ) (mats : List (TipMat ℚ)), 0 < P.fuzz ∧ AllMixed P mats ∧ (∀ m ∈ mats, 0 ≤ m.vf) ∧
    2 ≤ mats.length ∧ vfSum mats ≤ 1 ∧ (∀ m ∈ mats, tipChange P mats m ≠ 0) ∧
    ∀ m ∈ mats, ∀ m' ∈ mats, |tipChange P mats m| + P.fuzz ≤ min 1 (max 0 P.g0) * m'.vf :=
  ⟨⟨1, 1, 1 / 10 ^ 16, 0, 1, 1, 1⟩, [⟨1 / 2, 1, 11 / 10, 1, 1, 1, 1⟩, ⟨1 / 2, 1, 1, 1, 1, 1, 1⟩],
    by decide +kernel, by unfold AllMixed; decide +kernel, by decide +kernel, by decide +kernel,
    by decide +kernel, by decide +kernel, by decide +kernel⟩

/-- Sum of the unlimited changes. -/
theorem tipDelta_sum {P : TipPars K} {mats : List (TipMat K)} (hmix : AllMixed P mats)
    (hd : (tipAvg P mats).denom + P.fuzz ≠ 0) :
    (mats.map (tipDelta P (tipAvg P mats))).sum =
      meanPressure P mats * P.fuzz / (P.g1 + P.fuzz) +
      ((tipAvg P mats).denom / ((tipAvg P mats).denom + P.fuzz) - vfSum mats) *
        (P.div * P.alpha * P.dt) := by
  obtain ⟨h1, h2, -, -⟩ := tipAvg_mixed hmix
  have hp : tipPres P (tipAvg P mats) = meanPressure P mats := by
    unfold tipPres meanPressure
    rw [h1, h2]; rfl
  have hp2 : meanPressure P mats * ((tipAvg P mats).denom + P.fuzz) =
      (mats.map fun m => m.ratio P * m.pres).sum := by
    rw [← hp, tipPres, div_mul_cancel₀ _ hd, h1]
  have key : ∀ (l : List (TipMat K)) (q d : K), (∀ m ∈ l, m.vf < 1 - P.fuzz) →
      (l.map fun m => if m.vf < 1 - P.fuzz then m.ratio P * (m.pres - q) / (P.g1 + P.fuzz) +
        (m.ratio P / d - m.vf) * P.div * P.alpha * P.dt else 0).sum =
      ((l.map fun m => m.ratio P * m.pres).sum - q * (l.map fun m => m.ratio P).sum) /
        (P.g1 + P.fuzz) + ((l.map fun m => m.ratio P).sum / d - (l.map TipMat.vf).sum) *
        (P.div * P.alpha * P.dt) := by
    intro l q d hl
    induction l with
    | nil => simp
    | cons a l ih =>
      simp only [List.map_cons, List.sum_cons]
      rw [ih fun m hm => hl m (List.mem_cons_of_mem _ hm), if_pos (hl a List.mem_cons_self)]
      ring
  have := key mats (tipPres P (tipAvg P mats)) ((tipAvg P mats).denom + P.fuzz) hmix
  change (mats.map fun m => tipDelta P (tipAvg P mats) m).sum = _
  simp only [tipDelta]
  rw [this, hp, ← h2, ← hp2]
  have e : meanPressure P mats * ((tipAvg P mats).denom + P.fuzz) -
      meanPressure P mats * (tipAvg P mats).denom = meanPressure P mats * P.fuzz := by ring
  rw [e]; rfl

/-- **C28**, sum: at a mixed point whose fractions sum to one the sum changes only by terms with
the factor `fuzz` (1e-16 in the code), also when the limiter is active. -/
theorem C28_sum_kept (P : TipPars K) (hf : 0 < P.fuzz) (hg : 0 ≤ P.g1) (mats : List (TipMat K))
    (hmix : AllMixed P mats) (hK : ∀ m ∈ mats, 0 ≤ m.den)
    (h0 : ∀ m ∈ mats, 0 ≤ m.vf) (hl : 2 ≤ mats.length) (hsum : vfSum mats = 1) :
    |vfSum (tipton P mats) - 1| ≤ P.fuzz * (|meanPressure P mats| / (P.g1 + P.fuzz) +
      |P.div * P.alpha * P.dt| /
        ((mats.map fun m => m.vf / (m.den * m.sspd * m.sspd + P.fuzz)).sum + P.fuzz)) := by
  have hclamp := C28_clamp_inactive P hf mats hmix h0 hl hsum.le
  obtain ⟨-, h2, h3, h4⟩ := tipAvg_mixed hmix
  obtain ⟨l0, l1, -⟩ := tipLim_mixed hf _ (h4 h0) hmix
  have hR : 0 ≤ (tipAvg P mats).denom := by
    rw [h2]
    apply List.sum_nonneg
    intro x hx
    obtain ⟨m, hm, rfl⟩ := List.mem_map.mp hx
    have := h0 m hm
    have := hK m hm
    unfold TipMat.ratio
    have : 0 ≤ m.den * m.sspd * m.sspd := by
      rw [mul_assoc]; exact mul_nonneg (hK m hm) (mul_self_nonneg _)
    positivity
  have hd : (tipAvg P mats).denom + P.fuzz ≠ 0 := by positivity
  have hs : vfSum (tipton P mats) = vfSum mats + tipLim P (tipAvg P mats) mats *
      (mats.map (tipDelta P (tipAvg P mats))).sum := by
    have : ∀ (l : List (TipMat K)) (lim : K), (∀ m ∈ l, (tipUpdate P (tipAvg P mats) lim m).vf =
        m.vf + lim * tipDelta P (tipAvg P mats) m) →
        vfSum (l.map (tipUpdate P (tipAvg P mats) lim)) =
          vfSum l + lim * (l.map (tipDelta P (tipAvg P mats))).sum := by
      intro l lim h
      induction l with
      | nil => simp [vfSum]
      | cons a l ih =>
        have ih' := ih fun m hm => h m (List.mem_cons_of_mem _ hm)
        simp only [vfSum, List.map_cons, List.sum_cons] at ih' ⊢
        rw [ih', h a List.mem_cons_self]; ring
    exact this mats _ hclamp
  rw [hs, hsum, add_sub_cancel_left, tipDelta_sum hmix hd, hsum, abs_mul, abs_of_nonneg l0]
  have e : (tipAvg P mats).denom / ((tipAvg P mats).denom + P.fuzz) - 1 =
      - (P.fuzz / ((tipAvg P mats).denom + P.fuzz)) := by field_simp; ring
  rw [e]
  have hden : (mats.map fun m => m.vf / (m.den * m.sspd * m.sspd + P.fuzz)).sum =
      (tipAvg P mats).denom := by rw [h2]; rfl
  rw [hden]
  have hb : |meanPressure P mats * P.fuzz / (P.g1 + P.fuzz) +
      -(P.fuzz / ((tipAvg P mats).denom + P.fuzz)) * (P.div * P.alpha * P.dt)| ≤
      P.fuzz * (|meanPressure P mats| / (P.g1 + P.fuzz) +
      |P.div * P.alpha * P.dt| / ((tipAvg P mats).denom + P.fuzz)) := by
    refine (abs_add_le _ _).trans (le_of_eq ?_)
    rw [abs_div, abs_mul, abs_mul, abs_neg, abs_div, abs_of_pos hf,
      abs_of_pos (show 0 < P.g1 + P.fuzz by positivity),
      abs_of_pos (show 0 < (tipAvg P mats).denom + P.fuzz by positivity)]
    ring
  have hnn := abs_nonneg (meanPressure P mats * P.fuzz / (P.g1 + P.fuzz) +
      -(P.fuzz / ((tipAvg P mats).denom + P.fuzz)) * (P.div * P.alpha * P.dt))
  nlinarith

/-- Energy exchange: the materials of a point trade `p̄ dV`; what one gains another loses, so with
the other volume fraction equal to one the weighted energy changes by the mean pressure times the
change of the summed volume (zero up to the bound of `C28_sum_kept`). -/
theorem C28_energy_exchange (P : TipPars K) (mats : List (TipMat K)) (hmix : AllMixed P mats)
    (hother : ∀ m ∈ mats, m.other = 1) (hm : ∀ m ∈ mats, 0 ≤ m.mass) :
    ((mats.zip (tipton P mats)).map fun w => (w.1.mass + 1 / 10 ^ 20) * (w.2.sie - w.1.sie)).sum =
      -(meanPressure P mats * P.vol * (vfSum (tipton P mats) - vfSum mats)) := by
  have hp : tipPres P (tipAvg P mats) = meanPressure P mats := by
    obtain ⟨h1, h2, -, -⟩ := tipAvg_mixed hmix
    unfold tipPres meanPressure
    rw [h1, h2]; rfl
  rw [← hp]
  clear hp hmix
  dsimp only [tipton]
  generalize tipAvg P mats = a
  generalize tipLim P a mats = lim
  induction mats with
  | nil => simp [vfSum]
  | cons b l ih =>
    have ih' := ih (fun m h => hother m (List.mem_cons_of_mem _ h))
      (fun m h => hm m (List.mem_cons_of_mem _ h))
    have hb := hm b List.mem_cons_self
    have hne : b.mass + 1 / 10 ^ 20 ≠ 0 := by positivity
    simp only [vfSum, List.map_cons, List.zip_cons_cons, List.sum_cons] at ih' ⊢
    rw [ih']
    simp only [tipUpdate, hother b List.mem_cons_self]
    field_simp
    ring

/-- Density: after equilibration density times the (regularised) volume of the material is its mass. -/
theorem C28_mass_kept (P : TipPars K) (hvol : 0 ≤ P.vol) (mats : List (TipMat K))
    (ho : ∀ m ∈ mats, 0 ≤ m.other) :
    ∀ m ∈ tipton P mats, m.den * (P.vol * m.vf * m.other + 1 / 10 ^ 20) = m.mass := by
  intro m hm
  have hr := (C28_range P mats).2 m hm
  obtain ⟨m₀, h₀, rfl⟩ := List.mem_map.mp hm
  have h1 : 0 ≤ P.vol * (tipUpdate P (tipAvg P mats) (tipLim P (tipAvg P mats) mats) m₀).vf *
      m₀.other := mul_nonneg (mul_nonneg hvol hr.1) (ho _ h₀)
  have h2 : (0 : K) < 1 / 10 ^ 20 := by positivity
  have h3 : P.vol * (tipUpdate P (tipAvg P mats) (tipLim P (tipAvg P mats) mats) m₀).vf *
      m₀.other + 1 / 10 ^ 20 ≠ 0 := by
    intro h; linarith
  exact div_mul_cancel₀ _ h3

/-- The sum is not kept at a point where one material is within the fuzz of filling it: the limiter
is reset by that material, and a trace of another one can grow to a full second filling. -/
theorem C28_near_single_material_fails : ∃ (P : TipPars ℚ) (mats : List (TipMat ℚ)),
    P.fuzz = 1 / 10 ^ 16 ∧ vfSum mats = 1 ∧ (∀ m ∈ mats, 0 < m.vf) ∧
      (tipton P mats).map TipMat.vf = [1, 1 - 1 / 10 ^ 17] :=
  ⟨⟨1, 1 / 4, 1 / 10 ^ 16, 0, 1, 1, 1⟩,
    [⟨1 / 10 ^ 17, 1, 100, 1, 1 / 10 ^ 8, 1, 1⟩, ⟨1 - 1 / 10 ^ 17, 1, 0, 1, 1, 1, 1⟩],
    by decide +kernel, by decide +kernel, by decide +kernel, by decide +kernel⟩

/-- Non-trivial instance of the hypotheses: two materials at different pressure; the stiffer one at
lower pressure shrinks, the sum stays one up to the fuzz. -/
example : ∃ (P : TipPars ℚ) (mats : List (TipMat ℚ)), 0 < P.fuzz ∧ 0 ≤ P.g1 ∧ AllMixed P mats ∧
    (∀ m ∈ mats, 0 ≤ m.den) ∧ (∀ m ∈ mats, 0 ≤ m.vf) ∧ 2 ≤ mats.length ∧ vfSum mats = 1 ∧
    (tipton P mats).map TipMat.vf ≠ mats.map TipMat.vf :=
  ⟨⟨1, 1 / 4, 1 / 10 ^ 16, 0, 1, 1, 1⟩, [⟨1 / 2, 1, 2, 1, 1, 1, 1⟩, ⟨1 / 2, 1, 1, 1, 1, 1, 1⟩],
    by decide +kernel, by decide +kernel, by unfold AllMixed; decide +kernel, by decide +kernel,
    by decide +kernel, by decide +kernel, by decide +kernel, by decide +kernel⟩

end Fierro
