import Verif.Model.Materials
import Verif.Props.Sgh
import Mathlib.Analysis.Calculus.Deriv.Mul
import Mathlib.Analysis.Calculus.Deriv.Add
import Mathlib.Tactic.FieldSimp
import Mathlib.Tactic.FinCases
import Mathlib.Tactic.NormNum
import Mathlib.Tactic.Linarith
import Mathlib.Tactic.LinearCombination

/-!
# C26, C27, C41, C42: equations of state, erosion, strength, density
-/

namespace Fierro

/-! ## C26 -/

/-- Gamma law: pressure is non-negative and increasing in density and in energy. -/
theorem C26_pressure (gamma : ℝ) (hg : 1 < gamma) (den den' sie sie' : ℝ) (hd : 0 ≤ den)
    (he : 0 ≤ sie) (hdd : den ≤ den') (hee : sie ≤ sie') :
    0 ≤ gammaPressure gamma den sie ∧
    gammaPressure gamma den sie ≤ gammaPressure gamma den' sie' := by
  unfold gammaPressure
  have h : 0 ≤ gamma - 1 := by linarith
  exact ⟨by positivity, mul_le_mul (mul_le_mul_of_nonneg_left hee h) hdd hd
    (mul_nonneg h (he.trans hee))⟩

/-- The sound speed is at least the user's minimum, whatever the energy is. -/
theorem C26_sound_speed_floor (gamma csmin sie : ℝ) : csmin ≤ gammaSspd gamma csmin sie :=
  le_max_right _ _

/-- The sound speed grows with the energy. -/
theorem C26_sound_speed_mono (gamma csmin sie sie' : ℝ) (hg : 1 < gamma) (hee : sie ≤ sie') :
    gammaSspd gamma csmin sie ≤ gammaSspd gamma csmin sie' := by
  unfold gammaSspd
  refine max_le_max (Real.sqrt_le_sqrt ?_) le_rfl
  exact mul_le_mul_of_nonneg_left hee (mul_nonneg (by linarith) (by linarith))

/-- Pressure and sound speed belong together: above the floor the square of the sound speed is the
thermodynamic derivative `∂p/∂ρ + (p/ρ²) ∂p/∂e` of the pressure at constant entropy. -/
theorem C26_sound_speed_thermodynamic (gamma csmin den sie : ℝ) (hg : 1 < gamma) (hd : 0 < den)
    (he : 0 ≤ sie) (hfloor : csmin ≤ Real.sqrt (gamma * (gamma - 1) * sie)) :
    gammaSspd gamma csmin sie ^ 2 =
      deriv (fun r => gammaPressure gamma r sie) den +
        gammaPressure gamma den sie / den ^ 2 * deriv (fun e => gammaPressure gamma den e) sie := by
  have h1 : deriv (fun r => gammaPressure gamma r sie) den = (gamma - 1) * sie := by
    simp [gammaPressure]
  have h2 : deriv (fun e => gammaPressure gamma den e) sie = (gamma - 1) * den := by
    simp [gammaPressure]
  rw [h1, h2]
  unfold gammaSspd gammaPressure
  rw [max_eq_left hfloor, Real.sq_sqrt
    (mul_nonneg (mul_nonneg (by linarith) (by linarith)) he)]
  field_simp
  ring

example : gammaSspd (5/3) (1/100) 9 ^ 2 = 10 := by
  unfold gammaSspd
  rw [max_eq_left, Real.sq_sqrt] <;> norm_num
  rw [Real.le_sqrt] <;> norm_num

/-- Linear elastic: at the reference density the pressure vanishes, and it increases with density. -/
theorem C26_elastic_pressure (B den0 : ℝ) (hB : 0 ≤ B) (h0 : 0 < den0) :
    elasticPressure B den0 den0 = some 0 ∧
    ∀ d d' p p', d ≤ d' → elasticPressure B den0 d = some p → elasticPressure B den0 d' = some p' →
      p ≤ p' := by
  unfold elasticPressure
  simp only [h0.ne', if_false, Option.some.injEq]
  refine ⟨by rw [div_self h0.ne']; ring, ?_⟩
  rintro d d' p p' h rfl rfl
  apply mul_le_mul_of_nonneg_left _ hB
  have := div_le_div_of_nonneg_right h h0.le
  linarith

/-- Linear elastic: the sound speed is that of longitudinal waves, `c² ρ = B + 4/3 G`, and never below the floor. -/
theorem C26_elastic_speed (B G csmin den : ℝ) (hB : 0 ≤ B + 4 / 3 * G) (hd : 0 < den) :
    csmin ≤ elasticSspd B G csmin den ∧
    (csmin < elasticSspd B G csmin den → elasticSspd B G csmin den ^ 2 * den = B + 4 / 3 * G) ∧
    (csmin ^ 2 * den ≤ B + 4 / 3 * G → elasticSspd B G csmin den ^ 2 * den = B + 4 / 3 * G) := by
  have hs : Real.sqrt ((B + 4 / 3 * G) / den) ^ 2 * den = B + 4 / 3 * G := by
    rw [Real.sq_sqrt (by positivity), div_mul_cancel₀ _ hd.ne']
  unfold elasticSspd
  refine ⟨le_max_left _ _, fun h => ?_, fun h => ?_⟩
  · rcases max_choice csmin (Real.sqrt ((B + 4 / 3 * G) / den)) with hc | hc
    · rw [hc] at h; exact absurd h (lt_irrefl _)
    · rw [hc, hs]
  · rw [max_eq_right, hs]
    exact Real.le_sqrt_of_sq_le (by rw [le_div_iff₀ hd]; exact h)

/-- A steel-like solid: the hypotheses are met and the floor is not active. -/
example : ∃ B G csmin den : ℝ, 0 ≤ B + 4 / 3 * G ∧ 0 < den ∧ csmin ^ 2 * den ≤ B + 4 / 3 * G :=
  ⟨160, 80, 1, 8, by norm_num, by norm_num, by norm_num⟩

/-! ## C42: density -/

/-- Material density times the volume occupied by the material is the material mass (up to the
`1e-20` guard added to the volume), for materials with a decoupled equation of state. -/
theorem C42_density_times_volume {E : ℕ} (M : MatModel E) (hM : M.decoupled = true)
    (vol : Fin E → ℝ) (p : MatPt ℝ E) (hv : 0 ≤ vol p.elem * p.volfrac * p.geoVolfrac) :
    (stateEos M vol p).den * (vol p.elem * p.volfrac * p.geoVolfrac + 1e-20) = p.mass := by
  unfold stateEos
  rw [if_pos hM]
  have : (1e-20 : ℝ) = 1 / 10 ^ 20 := by norm_num
  rw [this]
  exact div_mul_cancel₀ _ (by positivity)

/-- For materials with a coupled model the volume fractions are ignored: a material that fills half
of an element of volume one, with mass one, gets (nearly) half of its true density 2. -/
theorem C42_coupled_ignores_volfrac_fails (E : ℕ) (M : MatModel E)
    (hM : M.decoupled = false) (p : MatPt ℝ E) (hm : p.mass = 1) :
    (stateEos M (fun _ => 1) { p with volfrac := 1 / 2, geoVolfrac := 1 }).den < 1 := by
  unfold stateEos
  simp only [hM, Bool.false_eq_true, if_false, hm]
  norm_num

/-- A point that is not eroded leaves the state update with the stress, pressure and sound speed the strength model
returns for the point with the new density and the values of the equation of state; without strength model with those of
the equation of state and the stress it had. -/
theorem C42_strength_result {E : ℕ} (M : MatModel E) (vol : Fin E → ℝ) (p : MatPt ℝ E)
    (hne : (updateState M vol p).eroded = false) :
    (∀ f, M.strength = some f →
      ((updateState M vol p).stress, (updateState M vol p).pres, (updateState M vol p).sspd) =
        f (stateEos M vol p)) ∧
    (M.strength = none → (updateState M vol p).stress = p.stress ∧
      (updateState M vol p).pres = (stateEos M vol p).pres ∧
      (updateState M vol p).sspd = (stateEos M vol p).sspd) ∧
    (M.decoupled = true → ∃ q : MatPt ℝ E,
      q = { p with den := p.mass / (vol p.elem * p.volfrac * p.geoVolfrac + 1e-20) } ∧
      (stateEos M vol p).pres = M.pressure q ∧
      (stateEos M vol p).sspd = M.soundSpeed { q with pres := M.pressure q }) := by
  have key : updateState M vol p = { stateStrength M (stateEos M vol p) with
      eroded := (updateState M vol p).eroded } := by
    unfold updateState at hne ⊢
    unfold stateErosion at hne ⊢
    split at hne
    · rfl
    · rename_i t d he
      simp only at hne ⊢
      split_ifs at hne ⊢ with h
      · simp [h] at hne
      · rfl
  have h20 : (1e-20 : ℝ) = 1 / 10 ^ 20 := by norm_num
  refine ⟨fun f hf => ?_, fun hn => ?_, fun hd => ⟨_, rfl, ?_, ?_⟩⟩
  · rw [key]; simp only [stateStrength, hf]
  · rw [key]; simp only [stateStrength, hn, and_self, and_true]
    unfold stateEos; split_ifs <;> rfl
  · unfold stateEos; rw [if_pos hd, h20]
  · unfold stateEos; rw [if_pos hd, h20]

/-! ## C27: erosion -/

section Erosion
variable {E : ℕ}

theorem stateEos_eroded (M : MatModel E) (vol : Fin E → ℝ) (p : MatPt ℝ E) :
    (stateEos M vol p).eroded = p.eroded := by unfold stateEos; split_ifs <;> rfl

theorem stateStrength_eroded (M : MatModel E) (p : MatPt ℝ E) :
    (stateStrength M p).eroded = p.eroded := by unfold stateStrength; split <;> rfl

theorem stateErosion_eroded (M : MatModel E) (p : MatPt ℝ E) (h : p.eroded = true) :
    (stateErosion M p).eroded = true := by
  unfold stateErosion
  split
  · exact h
  · simp only [basicErode, h, ite_self, if_true]

/-- One update never revives an eroded point, whatever the material model. -/
theorem C27_permanent_step (M : MatModel E) (vol : Fin E → ℝ) (p : MatPt ℝ E)
    (h : p.eroded = true) : (updateState M vol p).eroded = true :=
  stateErosion_eroded M _ (by rw [stateStrength_eroded, stateEos_eroded, h])

/-- A material with an erosion model erodes exactly when the pressure or the density given by its
models falls to its limit. -/
theorem C27_erodes_iff (M : MatModel E) (tension density : ℝ)
    (hM : M.erosion = some (tension, density)) (vol : Fin E → ℝ) (p : MatPt ℝ E)
    (h : p.eroded = false) :
    (updateState M vol p).eroded = true ↔
      (stateStrength M (stateEos M vol p)).pres ≤ tension ∨
      (stateStrength M (stateEos M vol p)).den ≤ density := by
  unfold updateState stateErosion
  rw [hM]
  simp only [basicErode, stateStrength_eroded, stateEos_eroded, h]
  split_ifs with h1 h2
  · simp [h1]
  · simp at h2
  · simp_all
  · simp_all

/-- An eroded point is void: zero pressure and stress, floor density and sound speed. -/
theorem C27_void (M : MatModel E) (hM : M.erosion ≠ none) (vol : Fin E → ℝ) (p : MatPt ℝ E)
    (h : (updateState M vol p).eroded = true) :
    (updateState M vol p).pres = 0 ∧ (∀ i j, (updateState M vol p).stress i j = 0) ∧
    (updateState M vol p).den = 1e-32 ∧ (updateState M vol p).sspd = 1e-32 := by
  unfold updateState stateErosion at h ⊢
  obtain ⟨⟨t, d⟩, he⟩ := Option.ne_none_iff_exists'.1 hM
  rw [he] at h ⊢
  simp only at h ⊢
  split_ifs at h ⊢ with h1
  · refine ⟨rfl, fun _ _ => rfl, ?_, ?_⟩ <;> norm_num
  · exact absurd h h1

/-- … and it loads nothing: its corner forces are zero. -/
theorem C27_no_force {N : ℕ} (mesh : Mesh8 E N) (coords : Fin N → Fin 3 → ℝ) (dec : Bool)
    (disp : Fin 8 → Fin 3 → ℝ) (p : MatPt ℝ E) (h : p.eroded = true) (l : Fin 8) (d : Fin 3) :
    matCornerForce mesh coords dec disp p l d = 0 := matCornerForce_eroded _ _ _ _ p h l d

/-- The erosion flag of the point stored at position `j` of the material at position `i`. -/
def erodedAt {N : ℕ} (st : SghState ℝ E N) (i j : ℕ) : Option Bool :=
  (st.mats[i]?).bind fun m => (m.pts[j]?).map MatPt.eroded

theorem erodedAt_stage {N : ℕ} (env : SghEnv ℝ E N)
    (hC : ∀ st st' m p, p.eroded = true → (env.closures.update st st' m p).eroded = true)
    (time alpha dt : ℝ) (st : SghState ℝ E N) (i j : ℕ) (h : erodedAt st i j = some true) :
    erodedAt (sghStage env time alpha dt st) i j = some true := by
  unfold erodedAt at h ⊢
  obtain ⟨m, hm, h⟩ := Option.bind_eq_some_iff.1 h
  obtain ⟨p, hp, h⟩ := Option.map_eq_some_iff.1 h
  simp only [sghStage, saveMatForces, List.getElem?_map, hm, Option.map_some, Option.bind_some, hp]
  rw [hC]
  exact h

theorem erodedAt_rkInit {N : ℕ} (st : SghState ℝ E N) (i j : ℕ) :
    erodedAt (rkInit st) i j = erodedAt st i j := by
  unfold erodedAt rkInit
  simp only [List.getElem?_map]
  cases st.mats[i]? with
  | none => rfl
  | some m =>
    simp only [Option.map_some, Option.bind_some, List.getElem?_map, Option.map_map]
    rfl

/-- In a run of any number of cycles, a point that is eroded stays eroded. -/
theorem C27_permanent_run {N : ℕ} (env : SghEnv ℝ E N) (model : Mat ℝ E → MatModel E)
    (volOf : SghState ℝ E N → Fin E → ℝ)
    (hC : ∀ st st' m p, env.closures.update st st' m p = updateState (model m) (volOf st') p)
    (S : ℕ) (hS : 0 < S) (time : ℝ) (dts : List ℝ) (st : SghState ℝ E N) (i j : ℕ)
    (h : erodedAt st i j = some true) :
    erodedAt (sghRun env S time dts st) i j = some true := by
  have hC' : ∀ st st' m p, p.eroded = true → (env.closures.update st st' m p).eroded = true := by
    intro st st' m p hp; rw [hC]; exact C27_permanent_step _ _ _ hp
  refine sghRun_induct env S (fun s => erodedAt s i j = some true) ?_ dts time st h
  intro time dt st h
  refine sghCycle_induct env S hS time dt st (fun s => erodedAt s i j = some true)
    (fun s => erodedAt s i j = some true) ?_ ?_ ?_
  · show erodedAt (rkInit st) i j = _
    rw [erodedAt_rkInit, h]
  · intro s _ st' h'; exact erodedAt_stage env hC' _ _ _ _ _ _ h'
  · intro s _ st' h'; exact erodedAt_stage env hC' _ _ _ _ _ _ h'

/-- `update_state` is a lawful closure: it does not touch element, mass and energies. -/
theorem updateState_lawful (M : MatModel E) (vol : Fin E → ℝ) (p : MatPt ℝ E) :
    (updateState M vol p).elem = p.elem ∧ (updateState M vol p).mass = p.mass ∧
    (updateState M vol p).sie = p.sie ∧ (updateState M vol p).sieN0 = p.sieN0 := by
  have h1 : ∀ p : MatPt ℝ E, (stateErosion M p).elem = p.elem ∧ (stateErosion M p).mass = p.mass ∧
      (stateErosion M p).sie = p.sie ∧ (stateErosion M p).sieN0 = p.sieN0 := by
    intro p; unfold stateErosion; split
    · simp
    · simp only; split_ifs <;> simp
  have h2 : ∀ p : MatPt ℝ E, (stateStrength M p).elem = p.elem ∧
      (stateStrength M p).mass = p.mass ∧
      (stateStrength M p).sie = p.sie ∧ (stateStrength M p).sieN0 = p.sieN0 := by
    intro p; unfold stateStrength; split <;> simp
  have h3 : (stateEos M vol p).elem = p.elem ∧ (stateEos M vol p).mass = p.mass ∧
      (stateEos M vol p).sie = p.sie ∧ (stateEos M vol p).sieN0 = p.sieN0 := by
    unfold stateEos; split_ifs <;> simp
  unfold updateState
  refine ⟨?_, ?_, ?_, ?_⟩
  · rw [(h1 _).1, (h2 _).1, h3.1]
  · rw [(h1 _).2.1, (h2 _).2.1, h3.2.1]
  · rw [(h1 _).2.2.1, (h2 _).2.2.1, h3.2.2.1]
  · rw [(h1 _).2.2.2, (h2 _).2.2.2, h3.2.2.2]

/-- A gas with an erosion limit. -/
noncomputable def demoGas (E : ℕ) : MatModel E where
  decoupled := true
  pressure p := gammaPressure 1.4 p.den p.sie
  soundSpeed p := gammaSspd 1.4 0.01 p.sie
  strength := none
  erosion := some (-1, 0.5)

/-- A live point of density 1/4 in a unit element falls below the density limit 1/2 and erodes. -/
example (p : MatPt ℝ 1) (h : p.eroded = false) (hm : p.mass = 1 / 4) (hv : p.volfrac = 1)
    (hg : p.geoVolfrac = 1) : (updateState (demoGas 1) (fun _ => 1) p).eroded = true := by
  rw [C27_erodes_iff (demoGas 1) (-1) 0.5 rfl _ p h]
  right
  simp only [stateStrength, stateEos, demoGas, if_true, hm, hv, hg]
  norm_num

end Erosion

/-! ## C41: strength -/

/-- The 3D strength model keeps the stress symmetric. -/
theorem C41_symmetric (G Y h : ℝ) (L sN0 s : Fin 3 → Fin 3 → ℝ) (hn : ∀ i j, sN0 i j = sN0 j i)
    (hs : ∀ i j, s i j = s j i) (i j : Fin 3) :
    hypoStress G Y h L sN0 s i j = hypoStress G Y h L sN0 s j i := by
  have ht : trialStress G h L sN0 s i j = trialStress G h L sN0 s j i := by
    unfold trialStress jaumannRhs
    have he : (if i = j then (1 : ℝ) else 0) = if j = i then 1 else 0 := by
      by_cases hij : i = j
      · simp [hij]
      · simp [hij, Ne.symm hij]
    simp only
    rw [hn i j, he, hs 0 j, hs 1 j, hs 2 j, hs 0 i, hs 1 i, hs 2 i]
    ring
  unfold hypoStress
  simp only [ht]

/-- The 3D strength model keeps the stress deviatoric (trace free). -/
theorem C41_deviatoric (G Y h : ℝ) (L sN0 s : Fin 3 → Fin 3 → ℝ) (hn : ∑ i, sN0 i i = 0) :
    ∑ i, hypoStress G Y h L sN0 s i i = 0 := by
  have ht : ∑ i, trialStress G h L sN0 s i i = 0 := by
    rw [Fin.sum_univ_three] at hn ⊢
    unfold trialStress jaumannRhs
    simp only [if_true]
    linear_combination hn
  unfold hypoStress
  simp only
  split_ifs
  · rw [← Finset.sum_mul, ht, zero_mul]
  · exact ht

theorem sumSq_nonneg (s : Fin 3 → Fin 3 → ℝ) : 0 ≤ sumSq s := by
  unfold sumSq
  nlinarith [mul_self_nonneg (s 0 0), mul_self_nonneg (s 0 1), mul_self_nonneg (s 0 2),
    mul_self_nonneg (s 1 0), mul_self_nonneg (s 1 1), mul_self_nonneg (s 1 2),
    mul_self_nonneg (s 2 0), mul_self_nonneg (s 2 1), mul_self_nonneg (s 2 2)]

theorem sumSq_eq (s : Fin 3 → Fin 3 → ℝ) : sumSq s = ∑ i, ∑ j, s i j ^ 2 := by
  unfold sumSq; simp only [Fin.sum_univ_three]; ring

/-- The stress returned is inside the yield surface: the von Mises stress `sqrt(3/2 s:s)` does not
exceed the yield strength. -/
theorem C41_yield (G Y h : ℝ) (hY : 0 ≤ Y) (L sN0 s : Fin 3 → Fin 3 → ℝ) :
    Real.sqrt (3 / 2 * ∑ i, ∑ j, hypoStress G Y h L sN0 s i j ^ 2) ≤ Y := by
  rw [Real.sqrt_le_left hY]
  have key : ∀ t : Fin 3 → Fin 3 → ℝ, 3 / 2 * (sumSq t) * yieldFactor Y t ^ 2 ≤ Y ^ 2 ∧
      (¬ yieldFactor Y t < 1 → 3 / 2 * sumSq t ≤ Y ^ 2) := by
    intro t
    have hS := sumSq_nonneg t
    have hf : 0 < strengthFuzz := by unfold strengthFuzz; positivity
    have hr : 3 * (sumSq t / 2) + strengthFuzz = 3 / 2 * sumSq t + strengthFuzz := by
      ring
    have hpos : 0 < 3 / 2 * sumSq t + strengthFuzz := by linarith
    unfold yieldFactor
    rw [hr]
    constructor
    · rw [div_pow, Real.sq_sqrt hpos.le, mul_div_assoc', div_le_iff₀ hpos]
      nlinarith [sq_nonneg Y]
    · intro hge
      have h1 := not_lt.1 hge
      rw [one_le_div (Real.sqrt_pos.2 hpos), Real.sqrt_le_left hY] at h1
      linarith
  obtain ⟨h1, h2⟩ := key (trialStress G h L sN0 s)
  by_cases hlt : yieldFactor Y (trialStress G h L sN0 s) < 1
  · have : ∀ i j, hypoStress G Y h L sN0 s i j =
        trialStress G h L sN0 s i j * yieldFactor Y (trialStress G h L sN0 s) := by
      intro i j; unfold hypoStress; simp only; rw [if_pos hlt]
    simp only [this, mul_pow, ← Finset.sum_mul]
    rw [← sumSq_eq]
    linarith
  · have : ∀ i j, hypoStress G Y h L sN0 s i j = trialStress G h L sN0 s i j := by
      intro i j; unfold hypoStress; simp only; rw [if_neg hlt]
    simp only [this]
    rw [← sumSq_eq]
    exact h2 hlt

/-- A rigid rotation of an unstressed body creates no stress. -/
theorem C41_rotation_free (G Y h : ℝ) (L : Fin 3 → Fin 3 → ℝ) (hL : ∀ i j, L i j = - L j i)
    (i j : Fin 3) : hypoStress G Y h L (fun _ _ => 0) (fun _ _ => 0) i j = 0 := by
  have ht : trialStress G h L (fun _ _ => 0) (fun _ _ => 0) i j = 0 := by
    unfold trialStress jaumannRhs
    have h0 : L 0 0 = 0 := by linarith [hL 0 0]
    have h1 : L 1 1 = 0 := by linarith [hL 1 1]
    have h2 : L 2 2 = 0 := by linarith [hL 2 2]
    simp only [h0, h1, h2, hL i j]
    simp
  unfold hypoStress
  simp [ht]

/-- Inside the yield surface the response is elastic: the stress is the old one plus the step times
`2 G` times the deviatoric strain rate, for a motion without spin. -/
theorem C41_elastic (G Y h : ℝ) (L sN0 s : Fin 3 → Fin 3 → ℝ) (hL : ∀ i j, L i j = L j i)
    (hin : 3 / 2 * ∑ i, ∑ j, (sN0 i j + h * (2 * G * (L i j -
      if i = j then (L 0 0 + L 1 1 + L 2 2) / 3 else 0))) ^ 2 + 1e-16 ≤ Y ^ 2) (hY : 0 ≤ Y)
    (i j : Fin 3) :
    hypoStress G Y h L sN0 s i j =
      sN0 i j + h * (2 * G * (L i j - if i = j then (L 0 0 + L 1 1 + L 2 2) / 3 else 0)) := by
  have ht : ∀ i j, trialStress G h L sN0 s i j =
      sN0 i j + h * (2 * G * (L i j - if i = j then (L 0 0 + L 1 1 + L 2 2) / 3 else 0)) := by
    intro i j
    unfold trialStress jaumannRhs
    simp only
    rw [hL j i, hL 0 j, hL 1 j, hL 2 j, hL 0 i, hL 1 i, hL 2 i]
    split_ifs <;> ring
  have hS : sumSq (trialStress G h L sN0 s) = ∑ i, ∑ j, (sN0 i j + h * (2 * G * (L i j -
      if i = j then (L 0 0 + L 1 1 + L 2 2) / 3 else 0))) ^ 2 := by
    rw [sumSq_eq]; simp only [ht]
  have hnot : ¬ yieldFactor Y (trialStress G h L sN0 s) < 1 := by
    unfold yieldFactor
    have hr : 3 * (sumSq (trialStress G h L sN0 s) / 2) + strengthFuzz =
        3 / 2 * sumSq (trialStress G h L sN0 s) + strengthFuzz := by ring
    have hf : 0 < strengthFuzz := by unfold strengthFuzz; positivity
    have hpos : 0 < 3 / 2 * sumSq (trialStress G h L sN0 s) + strengthFuzz := by
      linarith [sumSq_nonneg (trialStress G h L sN0 s)]
    rw [not_lt, hr, one_le_div (Real.sqrt_pos.2 hpos), Real.sqrt_le_left hY, hS]
    refine le_trans ?_ hin
    unfold strengthFuzz; norm_num
  unfold hypoStress
  simp only
  rw [if_neg hnot, ht]

/-- Old deviator plus elastic increment of the RZ model, from their definitions. -/
noncomputable def rzElastic (G h : ℝ) (L s : Fin 3 → Fin 3 → ℝ) (i j : Fin 3) : ℝ :=
  if i = j then s i j - (s 0 0 + s 1 1 + s 2 2) / 3 + h * (2 * G * (L i i - (L 0 0 + L 1 1 + L 2 2) / 3))
  else s i j + (if i = 2 ∨ j = 2 then 0 else h * (G * L i j))

/-- The RZ strength model: the stress is symmetric, has no out-of-plane shear, and is inside the
yield surface up to the guard `fuzz`. -/
theorem C41_rz_symmetric_yield (G Y h : ℝ) (L sN0 s : Fin 3 → Fin 3 → ℝ)
    (hn : ∀ i j, sN0 i j = sN0 j i) (hs : ∀ i j, s i j = s j i) :
    (∀ i j, rzStress G Y h L sN0 s i j = rzStress G Y h L sN0 s j i) ∧
    (3 / 2 * ∑ i, ∑ j, rzStress G Y h L sN0 s i j ^ 2 ≤ Y ^ 2) := by
  have hsymm : rzTrial G h L sN0 s 1 0 = rzTrial G h L sN0 s 0 1 := by
    unfold rzTrial rzRhs deviator
    simp only [Fin.isValue, Matrix.cons_val_zero, Matrix.cons_val_one, if_false,
      if_true, zero_ne_one, one_ne_zero]
    rw [hn 1 0, hs 1 0]
    ring
  constructor
  · intro i j
    unfold rzStress
    fin_cases i <;> fin_cases j <;> simp
  · have hf : 0 < strengthFuzz := by unfold strengthFuzz; positivity
    set t := rzTrial G h L sN0 s with htdef
    have hS := sumSq_nonneg t
    have hle : t 0 0 ^ 2 + 2 * t 0 1 ^ 2 + t 1 1 ^ 2 + t 2 2 ^ 2 ≤ sumSq t := by
      unfold sumSq
      rw [hsymm]
      nlinarith [mul_self_nonneg (t 0 2), mul_self_nonneg (t 1 2), mul_self_nonneg (t 2 0),
        mul_self_nonneg (t 2 1)]
    have hsum : ∀ f : ℝ, (∑ i : Fin 3, ∑ j : Fin 3,
        ((![![t 0 0 * f, t 0 1 * f, 0], ![t 0 1 * f, t 1 1 * f, 0], ![0, 0, t 2 2 * f]] :
          Fin 3 → Fin 3 → ℝ) i j) ^ 2)
        = (t 0 0 ^ 2 + 2 * t 0 1 ^ 2 + t 1 1 ^ 2 + t 2 2 ^ 2) * f ^ 2 := by
      intro f
      simp only [Fin.sum_univ_three, Fin.isValue, Matrix.cons_val_zero, Matrix.cons_val_one,
        Matrix.cons_val]
      ring
    have hrz : rzStress G Y h L sN0 s = ![![t 0 0 * (if sumSq t - 2 / 3 * (Y * Y) > 0 then
        Real.sqrt (2 / 3) * Y / Real.sqrt (sumSq t + strengthFuzz) else 1), _, _], _, _] := rfl
    rw [hrz]
    rw [hsum]
    have h0 : 0 ≤ t 0 0 ^ 2 + 2 * t 0 1 ^ 2 + t 1 1 ^ 2 + t 2 2 ^ 2 := by positivity
    split_ifs with hK
    · rw [div_pow, mul_pow, Real.sq_sqrt (by norm_num), Real.sq_sqrt (by linarith)]
      have hpos : 0 < sumSq t + strengthFuzz := by linarith
      rw [mul_div_assoc', mul_div_assoc', div_le_iff₀ hpos]
      nlinarith [sq_nonneg Y, mul_le_mul_of_nonneg_right hle (sq_nonneg Y),
        mul_nonneg hf.le (sq_nonneg Y)]
    · push Not at hK
      nlinarith

/-- Inside the yield surface the RZ model adds to the deviator of the old stress the step times `2 G` (for the normal
components) or `G` (for the shear component) times the deviatoric strain rate, for an old stress without shear
and with equal axial and radial components and a motion without spin. -/
theorem C41_rz_elastic (G Y h : ℝ) (L sN0 s : Fin 3 → Fin 3 → ℝ) (hL : ∀ i j, L i j = L j i)
    (h01 : sN0 0 1 = 0) (h10 : sN0 1 0 = 0) (heq : sN0 0 0 = sN0 1 1)
    (h02 : sN0 0 2 = 0) (h12 : sN0 1 2 = 0) (h20 : sN0 2 0 = 0) (h21 : sN0 2 1 = 0)
    (hin : 3 / 2 * ∑ i, ∑ j, rzElastic G h L sN0 i j ^ 2 ≤ Y ^ 2) (i j : Fin 3) :
    rzStress G Y h L sN0 s i j = rzElastic G h L sN0 i j := by
  have ht : ∀ i j, rzTrial G h L sN0 s i j = rzElastic G h L sN0 i j := by
    intro i j
    unfold rzTrial rzRhs deviator rzElastic
    simp only [hL 1 0]
    fin_cases i <;> fin_cases j <;> simp [h01, h10, heq, h02, h12, h20, h21] <;> (try ring_nf) <;> (try simp [hL 1 0])
  have hnot : ¬ sumSq (rzTrial G h L sN0 s) - 2 / 3 * (Y * Y) > 0 := by
    rw [sumSq_eq]
    simp only [ht]
    nlinarith
  unfold rzStress
  simp only [if_neg hnot, ht, mul_one]
  fin_cases i <;> fin_cases j <;> simp [rzElastic, h01, h10, h02, h12, h20, h21, hL 1 0]

/-- The hypotheses are met by an old stress with pressure part and hoop deviator, under uniaxial stretching. -/
example : ∃ (G Y h : ℝ) (L sN0 : Fin 3 → Fin 3 → ℝ), (∀ i j, L i j = L j i) ∧ sN0 0 0 = sN0 1 1 ∧ sN0 2 2 ≠ sN0 0 0 ∧
    sN0 0 1 = 0 ∧ sN0 1 0 = 0 ∧ L 0 0 ≠ 0 ∧ 3 / 2 * ∑ i, ∑ j, rzElastic G h L sN0 i j ^ 2 ≤ Y ^ 2 := by
  refine ⟨1, 10, 1, ![![1, 0, 0], ![0, 0, 0], ![0, 0, 0]], ![![1, 0, 0], ![0, 1, 0], ![0, 0, 4]], ?_, ?_, ?_, ?_, ?_, ?_, ?_⟩
  · intro i j; fin_cases i <;> fin_cases j <;> simp
  all_goals simp [rzElastic, Fin.sum_univ_three] <;> norm_num

/-- The two strength models disagree: for simple shear from an unstressed state, below yield, the
RZ model returns half of the shear stress of the 3D model (`G D` instead of `2 G D`). -/
theorem C41_rz_shear_half_fails :
    ∃ (G Y h : ℝ) (L : Fin 3 → Fin 3 → ℝ), (∀ i j, L i j = L j i) ∧
      hypoStress G Y h L (fun _ _ => 0) (fun _ _ => 0) 0 1 = 2 ∧
      rzStress G Y h L (fun _ _ => 0) (fun _ _ => 0) 0 1 = 1 := by
  refine ⟨1, 100, 1, ![![0, 1, 0], ![1, 0, 0], ![0, 0, 0]], ?_, ?_, ?_⟩
  · intro i j; fin_cases i <;> fin_cases j <;> simp
  · rw [C41_elastic]
    · norm_num
    · intro i j; fin_cases i <;> fin_cases j <;> simp
    · simp [Fin.sum_univ_three]; norm_num
    · norm_num
  · unfold rzStress rzTrial rzRhs deviator sumSq
    simp
    norm_num

/-- The RZ model does not keep the stress deviatoric: from the trace-free stress
`diag(1, -1, 0)` a uniaxial stretching produces a stress with non-zero trace. -/
theorem C41_rz_not_deviatoric_fails :
    ∃ (G Y h : ℝ) (L s : Fin 3 → Fin 3 → ℝ), (∑ i, s i i = 0) ∧
      ∑ i, rzStress G Y h L s s i i ≠ 0 := by
  refine ⟨1, 100, 1, ![![1, 0, 0], ![0, 0, 0], ![0, 0, 0]], ![![1, 0, 0], ![0, -1, 0], ![0, 0, 0]],
    ?_, ?_⟩
  · simp [Fin.sum_univ_three]
  · unfold rzStress rzTrial rzRhs deviator sumSq
    simp [Fin.sum_univ_three]
    norm_num

/-- Non-trivial inputs for the strength theorems. -/
example : (∀ i j, (![![1, 2, 0], ![2, -1, 0], ![0, 0, 0]] : Fin 3 → Fin 3 → ℝ) i j =
    (![![1, 2, 0], ![2, -1, 0], ![0, 0, 0]] : Fin 3 → Fin 3 → ℝ) j i) ∧
    ∑ i, (![![1, 2, 0], ![2, -1, 0], ![0, 0, 0]] : Fin 3 → Fin 3 → ℝ) i i = 0 := by
  refine ⟨?_, by simp [Fin.sum_univ_three]⟩
  intro i j; fin_cases i <;> fin_cases j <;> simp

end Fierro
