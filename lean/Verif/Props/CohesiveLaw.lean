/-
C86: the traction law of a cohesive pair.
-/
import Mathlib.Analysis.SpecialFunctions.ExpDeriv
import Mathlib.Tactic.Linarith
import Mathlib.Tactic.FieldSimp
import Mathlib.Tactic.LinearCombination
import Mathlib.Tactic.NormNum
import Verif.Model.Cohesive

namespace Fierro

open Cohesive

variable {m : ℕ}

/-! ### Specification -/

/-- Size of an opening relative to the two critical openings. -/
noncomputable def openingMeasure (L : Law m) (un ut : ℝ) : ℝ := √((un / L.un) ^ 2 + (ut / L.ut) ^ 2)

/-- Parameters that make sense: critical openings are positive, damage does not heal. -/
structure LawOk (L : Law m) : Prop where
  un : 0 < L.un
  ut : 0 < L.ut
  a1 : 0 ≤ L.a1

theorem lam_eq (L : Law m) (un ut : ℝ) : lam L un ut = openingMeasure L un ut := by
  simp only [lam, openingMeasure, sq]

theorem lam_nonneg (L : Law m) (un ut : ℝ) : 0 ≤ lam L un ut := Real.sqrt_nonneg _

theorem lam_eq_zero (L : Law m) (h : LawOk L) (un ut : ℝ) (h0 : lam L un ut = 0) : un = 0 ∧ ut = 0 := by
  unfold lam at h0
  have hs := (Real.sqrt_eq_zero (by nlinarith [mul_self_nonneg (un / L.un), mul_self_nonneg (ut / L.ut)])).mp h0
  have h1 : un / L.un = 0 := mul_self_eq_zero.mp (by nlinarith [mul_self_nonneg (un / L.un), mul_self_nonneg (ut / L.ut)])
  have h2 : ut / L.ut = 0 := mul_self_eq_zero.mp (by nlinarith [mul_self_nonneg (un / L.un), mul_self_nonneg (ut / L.ut)])
  exact ⟨(div_eq_zero_iff.mp h1).resolve_right h.un.ne', (div_eq_zero_iff.mp h2).resolve_right h.ut.ne'⟩

/-- The branch that computes something. -/
theorem increment_eq (L : Law m) (h : LawOk L) (dt : ℝ) (hdt : 0 < dt) (o : Opening) (v : Vars m) :
    let lt := lam L o.un o.ut
    let ltdt := lam L o.un' o.ut'
    let rate := (ltdt - lt) / dt
    let σ := newBranch L dt rate v.branch
    let dα := damageInc L dt rate lt ltdt v.damage
    let deltaE := stiffDt L dt * rate * dt
    let elastic := L.Einf * lt + ∑ j, σ j
    let damp := -∑ j, (1 - decay L dt j) * σ j
    increment L dt o v =
      { rate := rate
        damage := dα
        tn := tractionInc o.un o.un' (invStar L.un lt) (invStar L.un ltdt) v.damage (v.damage + dα) deltaE elastic damp
        tt := tractionInc o.ut o.ut' (invStar L.ut lt) (invStar L.ut ltdt) v.damage (v.damage + dα) deltaE elastic damp
        branch := σ } := by
  have h1 : ¬ ¬ 0 < dt := not_not.mpr hdt
  have h2 : ¬ (L.un = 0 ∨ L.ut = 0) := not_or.mpr ⟨h.un.ne', h.ut.ne'⟩
  intro lt ltdt rate σ dα deltaE elastic damp
  rw [increment, if_neg h1, if_neg h2]

/-! ### Damage -/

theorem damage_step (L : Law m) (h : 0 ≤ L.a1) (dt : ℝ) (o : Opening) (v : Vars m) (hv : v.damage ≤ 1) :
    0 ≤ (increment L dt o v).damage ∧ v.damage + (increment L dt o v).damage ≤ 1 := by
  by_cases h1 : 0 < dt
  swap
  · rw [increment, if_pos h1]
    exact ⟨le_refl _, by simpa [Vars.zero] using hv⟩
  by_cases h2 : L.un = 0 ∨ L.ut = 0
  · rw [increment, if_neg (not_not.mpr h1), if_pos h2]
    exact ⟨le_refl _, by simpa [Vars.zero] using hv⟩
  · rw [increment, if_neg (not_not.mpr h1), if_neg h2]
    simp only [damageInc]
    have hd : 0 < dt := h1
    have hraw : ∀ r a b, 0 ≤ a → 0 ≤ b → 0 ≤ rawDamage L dt r a b := by
      intro r a b ha hb
      unfold rawDamage
      split_ifs
      · exact mul_nonneg (mul_nonneg h (Real.rpow_nonneg (by linarith) _)) hd.le
      · simp
    have := hraw ((lam L o.un' o.ut' - lam L o.un o.ut) / dt) (lam L o.un o.ut) (lam L o.un' o.ut')
      (lam_nonneg ..) (lam_nonneg ..)
    split_ifs with h3
    · exact ⟨by linarith, by linarith⟩
    · exact ⟨this, not_lt.mp h3⟩

/-- C86.  Damage never heals and never exceeds one, over any sequence of steps with any openings and
time increments. -/
theorem C86_damage_range (L : Law m) (h : 0 ≤ L.a1) (steps : List (ℝ × Opening)) (v : Vars m)
    (hv : v.damage ≤ 1) : v.damage ≤ (evolve L steps v).damage ∧ (evolve L steps v).damage ≤ 1 := by
  induction steps generalizing v with
  | nil => exact ⟨le_refl _, hv⟩
  | cons s r ih =>
    have hs := damage_step L h s.1 s.2 v hv
    have := ih (stage L true s.1 s.2 v) (by simpa [stage, commit] using hs.2)
    simp only [evolve]
    refine ⟨le_trans ?_ this.1, this.2⟩
    simpa [stage, commit] using hs.1

/-- C86.  From an undamaged start damage stays between zero and one. -/
theorem C86_damage_unit (L : Law m) (h : 0 ≤ L.a1) (steps : List (ℝ × Opening)) :
    0 ≤ (evolve L steps (Vars.zero m)).damage ∧ (evolve L steps (Vars.zero m)).damage ≤ 1 :=
  C86_damage_range L h steps (Vars.zero m) (by simp [Vars.zero])

/-- C86.  Damage grows only while the opening measure grows, by the power law at the mean of the two
measures, up to one. -/
theorem C86_damage_rule (L : Law m) (h : LawOk L) (dt : ℝ) (hdt : 0 < dt) (o : Opening) (v : Vars m)
    (hv : v.damage ≤ 1) :
    (stage L true dt o v).damage =
      if openingMeasure L o.un o.ut < openingMeasure L o.un' o.ut' then
        min 1 (v.damage + L.a1 * ((openingMeasure L o.un o.ut + openingMeasure L o.un' o.ut') / 2) ^ L.nexp * dt)
      else v.damage := by
  have hi := increment_eq L h dt hdt o v
  simp only [stage, if_true, commit, hi, damageInc, rawDamage, lam_eq]
  have hiff : 0 < (openingMeasure L o.un' o.ut' - openingMeasure L o.un o.ut) / dt ↔
      openingMeasure L o.un o.ut < openingMeasure L o.un' o.ut' := by
    rw [div_pos_iff_of_pos_right hdt, sub_pos]
  by_cases hc : openingMeasure L o.un o.ut < openingMeasure L o.un' o.ut'
  · rw [if_pos (hiff.mpr hc), if_pos hc]
    have he : 0.5 * (openingMeasure L o.un' o.ut' + openingMeasure L o.un o.ut)
        = (openingMeasure L o.un o.ut + openingMeasure L o.un' o.ut') / 2 := by ring
    rw [he]
    split_ifs with h1
    · rw [min_eq_left h1.le]; ring
    · rw [min_eq_right (not_lt.mp h1)]
  · rw [if_neg (fun h => hc (hiff.mp h)), if_neg hc, zero_mul, add_zero, if_neg (not_lt.mpr hv), add_zero]

/-- C86.  Stages other than the last one of a time step leave the stored variables alone, and the
increment of the last stage is computed from the stored ones. -/
theorem C86_commit_last (L : Law m) (stages : List (ℝ × Opening)) (dt : ℝ) (o : Opening) (v : Vars m) :
    stage L true dt o (stages.foldl (fun w s => stage L false s.1 s.2 w) v) = commit v (increment L dt o v) := by
  have : stages.foldl (fun w s => stage L false s.1 s.2 w) v = v := by
    induction stages with
    | nil => rfl
    | cons s r ih => simp [stage]
  rw [this]; simp [stage]

/-- C86.  The recorded rate is the change of the opening measure over the last step divided by its
length, whatever was recorded before. -/
theorem C86_rate (L : Law m) (h : LawOk L) (steps : List (ℝ × Opening)) (dt : ℝ) (hdt : 0 < dt) (o : Opening)
    (v : Vars m) : (evolve L (steps ++ [(dt, o)]) v).rate =
      (openingMeasure L o.un' o.ut' - openingMeasure L o.un o.ut) / dt := by
  induction steps generalizing v with
  | nil =>
    have hi := increment_eq L h dt hdt o v
    simp only [List.nil_append, evolve, stage, if_true, commit, hi, lam_eq]
  | cons s r ih => exact ih _

/-! ### Branch stresses -/

/-- C86.  The branch stresses are integrated exactly: the new value is the value after `dt` of the
solution of `dσ/dt = E dλ/dt − σ/τ` for a constant rate of the opening measure. -/
theorem C86_branch_exact (L : Law m) (h : LawOk L) (dt : ℝ) (hdt : 0 < dt) (o : Opening) (v : Vars m)
    (j : Fin m) (hτ : 0 < L.tau j) :
    let rate := (openingMeasure L o.un' o.ut' - openingMeasure L o.un o.ut) / dt
    ∃ y : ℝ → ℝ, y 0 = v.branch j ∧ (∀ s, HasDerivAt y (L.E j * rate - y s / L.tau j) s) ∧
      (stage L true dt o v).branch j = y dt := by
  intro rate
  refine ⟨fun s => Real.exp (-s / L.tau j) * v.branch j
    + L.E j * L.tau j * rate * (1 - Real.exp (-s / L.tau j)), ?_, ?_, ?_⟩
  · simp
  · intro s
    have he : HasDerivAt (fun s => Real.exp (-s / L.tau j)) (Real.exp (-s / L.tau j) * (-1 / L.tau j)) s :=
      (((hasDerivAt_id s).neg).div_const (L.tau j)).exp
    have := (he.mul_const (v.branch j)).add (((hasDerivAt_const s (1 : ℝ)).sub he).const_mul (L.E j * L.tau j * rate))
    refine this.congr_deriv ?_
    field_simp
    ring
  · have hi := increment_eq L h dt hdt o v
    simp only [stage, if_true, commit, hi, newBranch, lam_eq, decay, tauEff, hτ]
    rfl

/-! ### Tractions -/

theorem inv_opening (L : Law m) (h : LawOk L) (un ut : ℝ) :
    un * invStar L.un (lam L un ut) * lam L un ut = un / L.un ∧
      ut * invStar L.ut (lam L un ut) * lam L un ut = ut / L.ut := by
  rcases (lam_nonneg L un ut).eq_or_lt with h0 | h0
  · obtain ⟨rfl, rfl⟩ := lam_eq_zero L h un ut h0.symm
    simp
  · have h1 : 0 < L.un := h.un
    have h2 : 0 < L.ut := h.ut
    simp only [invStar, h.un, h.ut, h0, and_self, if_true]
    constructor <;> field_simp

/-- C86.  Without Prony terms a step changes the tractions by the difference of the damaged linear law
at the two openings. -/
theorem C86_elastic_step (L : Law 0) (h : LawOk L) (dt : ℝ) (hdt : 0 < dt) (o : Opening) (v : Vars 0) :
    (stage L true dt o v).tn - v.tn
        = (1 - (stage L true dt o v).damage) * L.Einf * (o.un' / L.un) - (1 - v.damage) * L.Einf * (o.un / L.un) ∧
      (stage L true dt o v).tt - v.tt
        = (1 - (stage L true dt o v).damage) * L.Einf * (o.ut' / L.ut) - (1 - v.damage) * L.Einf * (o.ut / L.ut) := by
  have hi := increment_eq L h dt hdt o v
  obtain ⟨a1, a2⟩ := inv_opening L h o.un o.ut
  obtain ⟨b1, b2⟩ := inv_opening L h o.un' o.ut'
  simp only [stage, if_true, commit, hi, tractionInc, stiffDt, Finset.univ_eq_empty, Finset.sum_empty,
    add_zero, neg_zero, mul_zero]
  have hr : L.Einf * ((lam L o.un' o.ut' - lam L o.un o.ut) / dt) * dt
      = L.Einf * (lam L o.un' o.ut' - lam L o.un o.ut) := by field_simp
  rw [hr, ← a1, ← a2, ← b1, ← b2]
  constructor <;> ring

/-- Consecutive steps fit together: each starts at the opening the one before has predicted. -/
def Chained : List (ℝ × Opening) → Prop
  | [] => True
  | [_] => True
  | s :: s' :: r => s'.2.un = s.2.un' ∧ s'.2.ut = s.2.ut' ∧ Chained (s' :: r)

/-- C86.  Without Prony terms and as long as each step starts at the opening predicted by the one
before, the tractions follow the damaged linear law, whatever the path: after any number of steps
they are `(1 − α) E∞ u / u*`, if they were at the start. -/
theorem C86_elastic_law (L : Law 0) (h : LawOk L) (steps : List (ℝ × Opening)) (v : Vars 0)
    (hdt : ∀ s ∈ steps, 0 < s.1) (hc : Chained steps) (first last : ℝ × Opening)
    (hf : steps.head? = some first) (hl : steps.getLast? = some last)
    (hn : v.tn = (1 - v.damage) * L.Einf * (first.2.un / L.un))
    (ht : v.tt = (1 - v.damage) * L.Einf * (first.2.ut / L.ut)) :
    (evolve L steps v).tn = (1 - (evolve L steps v).damage) * L.Einf * (last.2.un' / L.un) ∧
      (evolve L steps v).tt = (1 - (evolve L steps v).damage) * L.Einf * (last.2.ut' / L.ut) := by
  induction steps generalizing v first with
  | nil => simp at hf
  | cons s r ih =>
    have hs : s = first := by simpa using hf
    subst hs
    obtain ⟨e1, e2⟩ := C86_elastic_step L h s.1 (hdt s (by simp)) s.2 v
    match r with
    | [] =>
      have : s = last := by simpa using hl
      subst this
      simp only [evolve]
      constructor <;> linarith
    | s' :: r' =>
      obtain ⟨c1, c2, c3⟩ := hc
      refine ih (stage L true s.1 s.2 v) (fun x hx => hdt x (by simp [hx])) c3 s' rfl
        (by simpa using hl) ?_ ?_
      · rw [c1]; linarith
      · rw [c2]; linarith

/-- C86.  In the general case the tractions of a zone without Prony terms miss the damaged linear law
by the jumps between the predicted openings and the openings the next steps start from. -/
theorem C86_elastic_drift (L : Law 0) (h : LawOk L) (s s' : ℝ × Opening) (hs : 0 < s.1) (hs' : 0 < s'.1)
    (v : Vars 0) :
    let w := stage L true s.1 s.2 v
    (stage L true s'.1 s'.2 w).tn - (1 - (stage L true s'.1 s'.2 w).damage) * L.Einf * (s'.2.un' / L.un)
      = (v.tn - (1 - v.damage) * L.Einf * (s.2.un / L.un))
        + (1 - w.damage) * L.Einf * (s.2.un' - s'.2.un) / L.un := by
  intro w
  have e1 := (C86_elastic_step L h s.1 hs s.2 v).1
  have e2 := (C86_elastic_step L h s'.1 hs' s'.2 w).1
  have h1 := h.un
  rw [show (1 - w.damage) * L.Einf * (s.2.un' - s'.2.un) / L.un
    = (1 - w.damage) * L.Einf * (s.2.un' / L.un) - (1 - w.damage) * L.Einf * (s'.2.un / L.un) by ring]
  linarith

/-- C86.  Once the damage is one the tractions do not change any more, for any law. -/
theorem C86_broken_frozen (L : Law m) (h : 0 ≤ L.a1) (steps : List (ℝ × Opening)) (v : Vars m)
    (hv : v.damage = 1) : (evolve L steps v).tn = v.tn ∧ (evolve L steps v).tt = v.tt ∧
      (evolve L steps v).damage = 1 := by
  induction steps generalizing v with
  | nil => exact ⟨rfl, rfl, hv⟩
  | cons s r ih =>
    have hd := damage_step L h s.1 s.2 v hv.le
    have hd0 : (increment L s.1 s.2 v).damage = 0 := by linarith
    have ht : (increment L s.1 s.2 v).tn = 0 ∧ (increment L s.1 s.2 v).tt = 0 := by
      by_cases h1 : 0 < s.1
      swap
      · rw [increment, if_pos h1]
        exact ⟨rfl, rfl⟩
      by_cases h2 : L.un = 0 ∨ L.ut = 0
      · rw [increment, if_neg (not_not.mpr h1), if_pos h2]
        exact ⟨rfl, rfl⟩
      · rw [increment, if_neg (not_not.mpr h1), if_neg h2] at hd0 ⊢
        simp only at hd0
        simp only [tractionInc, hd0]
        simp only [hv]
        constructor <;> ring
    have := ih (stage L true s.1 s.2 v) (by simp [stage, commit, hd0, hv])
    simp only [evolve]
    rw [this.1, this.2.1]
    exact ⟨by simp [stage, commit, ht.1], by simp [stage, commit, ht.2], this.2.2⟩

/-- C86.  With Prony terms, the first step from a closed zone at rest gives the new opening direction
times `(1 − α) (E∞ λ + Σ σ + Σ a σ)`, where `a` is the decay factor of each branch. -/
theorem C86_prony_first (L : Law m) (h : LawOk L) (dt : ℝ) (hdt : 0 < dt) (un' ut' : ℝ)
    (hpos : 0 < openingMeasure L un' ut') :
    let w := stage L true dt ⟨0, 0, un', ut'⟩ (Vars.zero m)
    w.tn = un' / (L.un * openingMeasure L un' ut') * (1 - w.damage) *
      (L.Einf * openingMeasure L un' ut' + ∑ j, w.branch j + ∑ j, decay L dt j * w.branch j) := by
  intro w
  have hi := increment_eq L h dt hdt ⟨0, 0, un', ut'⟩ (Vars.zero m)
  have h0 : lam L 0 0 = 0 := by simp [lam]
  have hl : lam L un' ut' = openingMeasure L un' ut' := lam_eq ..
  have hw : w = commit (Vars.zero m) (increment L dt ⟨0, 0, un', ut'⟩ (Vars.zero m)) := by
    simp [w, stage]
  rw [hi] at hw
  rw [hw]
  simp only [commit, Vars.zero, zero_add, h0, hl, sub_zero, tractionInc, invStar, h.un, hpos, and_self,
    if_true, mul_zero, zero_mul, stiffDt]
  have hsum : (∑ j, L.E j * tauEff L j * ((1 - decay L dt j) / dt)) * (openingMeasure L un' ut' / dt) * dt
      = ∑ j, newBranch L dt (openingMeasure L un' ut' / dt) (fun _ => 0) j := by
    rw [Finset.sum_mul, Finset.sum_mul]
    refine Finset.sum_congr rfl fun j _ => ?_
    unfold newBranch
    field_simp
    ring
  have hsplit : ∑ j, (1 - decay L dt j) * newBranch L dt (openingMeasure L un' ut' / dt) (fun _ => 0) j
      = ∑ j, newBranch L dt (openingMeasure L un' ut' / dt) (fun _ => 0) j
        - ∑ j, decay L dt j * newBranch L dt (openingMeasure L un' ut' / dt) (fun _ => 0) j := by
    rw [← Finset.sum_sub_distrib]
    exact Finset.sum_congr rfl fun j _ => by ring
  have hE : L.Einf * (openingMeasure L un' ut' / dt) * dt = L.Einf * openingMeasure L un' ut' := by
    field_simp
  rw [hsplit, add_mul, add_mul, hsum, hE]
  ring

/-- C86.  While the opening is held the tractions relax, but by `(1 − a) a σ` per step and branch
instead of the `(1 − a) σ` by which the branch stresses themselves decrease. -/
theorem C86_prony_hold (L : Law m) (h : LawOk L) (dt : ℝ) (hdt : 0 < dt) (un ut : ℝ)
    (hpos : 0 < openingMeasure L un ut) (v : Vars m) (hv : v.damage ≤ 1) :
    let w := stage L true dt ⟨un, ut, un, ut⟩ v
    w.damage = v.damage ∧ (∀ j, w.branch j = decay L dt j * v.branch j) ∧
      w.tn - v.tn = -(un / (L.un * openingMeasure L un ut) * (1 - v.damage) *
        ∑ j, (1 - decay L dt j) * (decay L dt j * v.branch j)) := by
  intro w
  have hi := increment_eq L h dt hdt ⟨un, ut, un, ut⟩ v
  have hl : lam L un ut = openingMeasure L un ut := lam_eq ..
  have hw : w = commit v (increment L dt ⟨un, ut, un, ut⟩ v) := by simp [w, stage]
  have hd : damageInc L dt 0 (openingMeasure L un ut) (openingMeasure L un ut) v.damage = 0 := by
    simp [damageInc, rawDamage, not_lt.mpr hv]
  have hb : ∀ j, newBranch L dt 0 v.branch j = decay L dt j * v.branch j := by
    intro j; simp [newBranch]
  rw [hi] at hw
  rw [hw]
  simp only [commit, hl, sub_self, zero_div, hd, add_zero, tractionInc, invStar, h.un, hpos, and_self,
    if_true, mul_zero, zero_mul, hb]
  refine ⟨trivial, fun _ => trivial, ?_⟩
  ring

/-- One Prony term, all moduli and times one, no damage. -/
noncomputable def oneBranch : Law 1 where
  Einf := 1
  a1 := 0
  nexp := 1
  un := 1
  ut := 1
  E := fun _ => 1
  tau := fun _ => 1

theorem oneBranch_ok : LawOk oneBranch := ⟨one_pos, one_pos, le_refl 0⟩

/-- C86 (finding).  "After a step from a closed zone at rest the traction is the one of the damaged
viscoelastic law, (1 − α) u/(u* λ) (E∞ λ + Σ σ)": false with a Prony term.  The increment uses the
branch stresses of the new time where the ones of the old time are meant, so the branch enters
twice. -/
theorem C86_prony_law_fails :
    ¬ ∀ (m : ℕ) (L : Law m) (dt un' : ℝ), LawOk L → 0 < dt → 0 < un' →
      let w := stage L true dt ⟨0, 0, un', 0⟩ (Vars.zero m)
      w.tn = un' / (L.un * openingMeasure L un' 0) * (1 - w.damage) *
        (L.Einf * openingMeasure L un' 0 + ∑ j, w.branch j) := by
  intro h
  have hm : openingMeasure oneBranch 1 0 = 1 := by simp [openingMeasure, oneBranch]
  have h1 := h 1 oneBranch 1 1 oneBranch_ok one_pos one_pos
  have h2 := C86_prony_first oneBranch oneBranch_ok 1 one_pos 1 0 (by rw [hm]; exact one_pos)
  simp only at h1 h2
  rw [h1, hm] at h2
  have hb : (stage oneBranch true 1 ⟨0, 0, 1, 0⟩ (Vars.zero 1)).branch 0 = 1 - Real.exp (-1) := by
    have hi := increment_eq oneBranch oneBranch_ok 1 one_pos ⟨0, 0, 1, 0⟩ (Vars.zero 1)
    simp only [stage, if_true, commit, hi, newBranch, lam_eq, hm]
    simp [decay, tauEff, oneBranch, Vars.zero, openingMeasure]
  have hd : (stage oneBranch true 1 ⟨0, 0, 1, 0⟩ (Vars.zero 1)).damage = 0 := by
    have hi := increment_eq oneBranch oneBranch_ok 1 one_pos ⟨0, 0, 1, 0⟩ (Vars.zero 1)
    simp only [stage, if_true, commit, hi]
    simp [damageInc, rawDamage, oneBranch, Vars.zero]
  have hdec : decay oneBranch 1 0 = Real.exp (-1) := by simp [decay, tauEff, oneBranch]
  simp only [Fin.sum_univ_one, hb, hd, hdec] at h2
  simp only [oneBranch] at h2
  have he0 := Real.exp_pos (-1)
  have he1 : Real.exp (-1) < 1 := by rw [Real.exp_lt_one_iff]; norm_num
  nlinarith

/-- C86 (finding).  "A zone whose damage has reached one carries no traction": false.  The tractions are
accumulated, and a step that starts from an opening that is not the one predicted before (the last
stage of a step starts at the positions of the stage before, already in the first time step)
leaves a residue that stays for ever: here a compressive traction of a fully broken zone. -/
theorem C86_broken_free_fails :
    ¬ ∀ (L : Law 0) (steps : List (ℝ × Opening)), LawOk L → (∀ s ∈ steps, 0 < s.1) →
      (evolve L steps (Vars.zero 0)).damage = 1 → (evolve L steps (Vars.zero 0)).tn = 0 := by
  intro h
  have hL : LawOk (m := 0) ⟨1, 1, 0, 1, 1, fun _ => 0, fun _ => 0⟩ := ⟨one_pos, one_pos, zero_le_one⟩
  have hdam := C86_damage_rule (m := 0) ⟨1, 1, 0, 1, 1, fun _ => 0, fun _ => 0⟩ hL 1 one_pos ⟨1, 0, 2, 0⟩
    (Vars.zero 0) (by simp [Vars.zero])
  have h1 : openingMeasure (m := 0) ⟨1, 1, 0, 1, 1, fun _ => 0, fun _ => 0⟩ 1 0 = 1 := by simp [openingMeasure]
  have h2 : openingMeasure (m := 0) ⟨1, 1, 0, 1, 1, fun _ => 0, fun _ => 0⟩ 2 0 = 2 := by simp [openingMeasure]
  rw [h1, h2, if_pos (by norm_num), Real.rpow_zero] at hdam
  have hone : (stage (m := 0) ⟨1, 1, 0, 1, 1, fun _ => 0, fun _ => 0⟩ true 1 ⟨1, 0, 2, 0⟩ (Vars.zero 0)).damage = 1 := by
    rw [hdam]; simp [Vars.zero]
  have hstep := (C86_elastic_step ⟨1, 1, 0, 1, 1, fun _ => 0, fun _ => 0⟩ hL 1 one_pos ⟨1, 0, 2, 0⟩ (Vars.zero 0)).1
  have := h ⟨1, 1, 0, 1, 1, fun _ => 0, fun _ => 0⟩ [(1, ⟨1, 0, 2, 0⟩)] hL (by simp) (by simpa [evolve] using hone)
  simp only [evolve] at this
  rw [this, hone] at hstep
  simp [Vars.zero] at hstep

/-- C86 (finding).  "Pressing the two sides into each other does no damage": false.  The opening measure
squares the normal opening, so interpenetration counts like separation. -/
theorem C86_compression_fails :
    ¬ ∀ (L : Law 0) (dt un un' : ℝ), LawOk L → 0 < dt → un' < un → un ≤ 0 →
      (stage L true dt ⟨un, 0, un', 0⟩ (Vars.zero 0)).damage = 0 := by
  intro h
  have hL : LawOk (m := 0) ⟨1, 1, 0, 1, 1, fun _ => 0, fun _ => 0⟩ := ⟨one_pos, one_pos, zero_le_one⟩
  have hdam := C86_damage_rule (m := 0) ⟨1, 1, 0, 1, 1, fun _ => 0, fun _ => 0⟩ hL 1 one_pos ⟨0, 0, -1, 0⟩
    (Vars.zero 0) (by simp [Vars.zero])
  have h1 : openingMeasure (m := 0) ⟨1, 1, 0, 1, 1, fun _ => 0, fun _ => 0⟩ 0 0 = 0 := by simp [openingMeasure]
  have h2 : openingMeasure (m := 0) ⟨1, 1, 0, 1, 1, fun _ => 0, fun _ => 0⟩ (-1) 0 = 1 := by simp [openingMeasure]
  rw [h1, h2, if_pos (by norm_num), Real.rpow_zero] at hdam
  rw [h _ 1 0 (-1) hL one_pos (by norm_num) (le_refl 0)] at hdam
  simp [Vars.zero] at hdam

/-! ### Parameters -/

/-- C86.  Up to ten Prony terms are taken over from the input as given. -/
theorem C86_prony_terms (vars : ℕ → ℝ × ℝ) (n j : ℕ) (hn : n ≤ 10) (hj : j < n) :
    pronyTerm vars n j = some (vars j) := by
  unfold pronyTerm
  rw [if_pos (by omega), if_pos (by omega)]

/-- C86 (finding).  "All Prony terms of the input are used": false.  The eleventh and the twelfth are
replaced by zero modulus and zero time, and from the thirteenth on the code reads outside the array. -/
theorem C86_prony_terms_fails :
    (¬ ∀ (vars : ℕ → ℝ × ℝ) (n j : ℕ), j < n → pronyTerm vars n j = some (vars j)) ∧
      ∀ (vars : ℕ → ℝ × ℝ) (n j : ℕ), 12 ≤ j → pronyTerm vars n j = none := by
  constructor
  · intro h
    have := h (fun _ => (1, 1)) 11 10 (by norm_num)
    simp [pronyTerm] at this
  · intro vars n j hj
    unfold pronyTerm
    rw [if_neg (by omega)]

/-- A zone that opens, closes a little and opens again satisfies the hypotheses of the elastic law. -/
example : ∃ (L : Law 0) (steps : List (ℝ × Opening)), LawOk L ∧ Chained steps ∧ steps.length = 3 ∧
    (∀ s ∈ steps, 0 < s.1) := by
  refine ⟨⟨2, 1, 1, 1, 1, fun _ => 0, fun _ => 0⟩,
    [(1, ⟨0, 0, 1, 1⟩), (1, ⟨1, 1, 1 / 2, 1⟩), (2, ⟨1 / 2, 1, 3, 2⟩)],
    ⟨one_pos, one_pos, zero_le_one⟩, ⟨rfl, rfl, rfl, rfl, trivial⟩, rfl, ?_⟩
  simp

end Fierro
