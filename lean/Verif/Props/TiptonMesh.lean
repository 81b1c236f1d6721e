import Verif.Proofs.TiptonMesh
import Verif.Props.Equilibration
import Mathlib.Algebra.BigOperators.Ring.Finset
import Mathlib.Tactic.FinCases

/-!
# C130: pressure equilibration on a mesh and through a run
-/

namespace Fierro

open TipMesh TipCell

variable {K : Type} [Field K] [LinearOrder K] [IsStrictOrderedRing K] {E : ℕ}

/-! ### Specification -/

/-- The material points in an element, the materials in the order of their numbers. -/
def TipMesh.points (X : TipMesh K E) (e : Fin E) : List (ℕ × ℕ) :=
  (List.range X.elems.length).flatMap (X.atElem e)

/-- The materials of an element. -/
def TipMesh.mix (X : TipMesh K E) (mem : TipCell E → K) (e : Fin E) : List (TipMat K) :=
  (X.points e).map (X.matAt mem)

/-- Each material is at most once in an element. -/
def TipMesh.Once (X : TipMesh K E) : Prop := ∀ r ∈ X.elems, r.Nodup

/-- Volume per volume of the element held by its materials. -/
def TipMesh.filled (X : TipMesh K E) (mem : TipCell E → K) (e : Fin E) : K :=
  ((X.points e).map fun w => mem (vf w.1 w.2)).sum

/-- At least two materials, all with a fraction in `[0, 1 - fuzz)` and a density that is not negative. -/
structure TipMesh.Mixed (X : TipMesh K E) (mem : TipCell E → K) (e : Fin E) : Prop where
  two : 2 ≤ (X.points e).length
  nonneg : ∀ w ∈ X.points e, 0 ≤ mem (vf w.1 w.2)
  below : ∀ w ∈ X.points e, mem (vf w.1 w.2) < 1 - X.fuzz
  den : ∀ w ∈ X.points e, 0 ≤ mem (TipCell.den w.1 w.2)

/-! ### One pass -/

/-- **C130 (points).** The points in an element are those the map from material points to elements names. -/
theorem C130_points (X : TipMesh K E) (e : Fin E) (m s : ℕ) :
    (m, s) ∈ X.points e ↔ ∃ r, X.elems[m]? = some r ∧ r[s]? = some e := by
  simp only [TipMesh.points, List.mem_flatMap, List.mem_range, atElem, List.mem_map, List.mem_filter,
    decide_eq_true_eq, Prod.mk.injEq]
  constructor
  · rintro ⟨m', hm', s', ⟨-, h⟩, rfl, rfl⟩
    refine ⟨_, List.getElem?_eq_getElem hm', ?_⟩
    simpa [row, List.getD_eq_getElem?_getD, List.getElem?_eq_getElem hm'] using h
  · rintro ⟨r, hr, h⟩
    obtain ⟨hm, rfl⟩ := List.getElem?_eq_some_iff.mp hr
    have hrow : X.row m = X.elems[m] := by simp [row, List.getD_eq_getElem?_getD, hm]
    obtain ⟨hs, -⟩ := List.getElem?_eq_some_iff.mp h
    exact ⟨m, hm, s, ⟨by rw [hrow]; exact hs, by rw [hrow]; exact h⟩, rfl, rfl⟩

theorem points_row {X : TipMesh K E} {e : Fin E} {w : ℕ × ℕ} (h : w ∈ X.points e) :
    w.1 < X.elems.length ∧ (X.row w.1)[w.2]? = some e := by
  obtain ⟨r, hr, h⟩ := (C130_points X e w.1 w.2).mp h
  obtain ⟨hm, rfl⟩ := List.getElem?_eq_some_iff.mp hr
  exact ⟨hm, by simpa [row, List.getD_eq_getElem?_getD, hm] using h⟩

/-- All points after a pass. -/
theorem pass_point {X : TipMesh K E} (hd : X.Once) {mem mem' : TipCell E → K} (h : X.Pass mem mem') (e : Fin E) :
    (∀ w ∈ X.points e, X.matAt mem' w = X.afterEos w (tipUpdate (X.pars e) (tipAvg (X.pars e) (X.mix mem e))
      (tipLim (X.pars e) (tipAvg (X.pars e) (X.mix mem e)) (X.mix mem e)) (X.matAt mem w))) ∧
    ∀ c, Kept c → Pt c → (∀ e, ∀ w ∈ X.points e, ¬ Own w.1 w.2 e c) → mem' c = mem c := by
  unfold TipMesh.Pass TipMesh.loops at h
  rw [runDyn_append] at h
  obtain ⟨m1, h1, h⟩ := h
  cases h with
  | cons _ _ sch _ _ hs h =>
    rw [runDyn_append] at h
    obtain ⟨m3, h3, h4⟩ := h
    have hrk : ∀ c, Pt c → TipMesh.reset mem c = mem c := by
      intro c hc; cases c <;> first | rfl | exact hc.elim
    obtain ⟨a1, a2, a3⟩ := X.avgLoops_exec hd _ _ _ h1
    obtain ⟨p1, p2⟩ := X.presLoop_exec m1 sch hs
    have hmat1 : X.matAt m1 = X.matAt mem := X.matAt_congr fun c hc => (a2 c hc).trans (hrk c hc)
    have hav : ∀ e, avgAt m1 e = tipAvg (X.pars e) (X.mix mem e) := by
      intro e
      rw [a1, X.matAt_congr hrk]
      rfl
    set m2 := execActions sch m1 with hm2
    have hpt2 : ∀ c, Pt c → m2 c = m1 c := by
      intro c hc
      refine p2 c ?_
      rintro e rfl; exact hc.elim
    have hmat2 : X.matAt m2 = X.matAt mem := (X.matAt_congr hpt2).trans hmat1
    have havgs : ∀ e, X.Avgs m2 e (tipAvg (X.pars e) (X.mix mem e)) := by
      intro e
      refine ⟨?_, ?_, ?_⟩
      · rw [p1, ← hav]; rfl
      · rw [p2 _ (by simp), ← hav]; rfl
      · rw [p2 _ (by simp), ← hav]; rfl
    obtain ⟨c1, c2, c3, c4⟩ := X.changeLoops_exec hd _ List.nodup_range m2 m3 _ havgs h3
    have hmat3 : X.matAt m3 = X.matAt mem := (X.matAt_kept c4).trans hmat2
    have hlim : ∀ e, m3 (gLim e) = tipLim (X.pars e) (tipAvg (X.pars e) (X.mix mem e)) (X.mix mem e) := by
      intro e
      rw [c1, hmat2, p2 _ (by simp), a3]
      rfl
    obtain ⟨d1, d2⟩ := X.stateLoops_exec hd _ List.nodup_range m3 mem' (fun e => tipAvg (X.pars e) (X.mix mem e))
      (fun e => by rw [c4 (gPres e) trivial]; exact (havgs e).1)
      (fun m hm s e hse => by rw [c2 m hm s e hse, hmat2, hmat3]) h4
    constructor
    · intro w hw
      obtain ⟨hl, hr⟩ := points_row hw
      have := d1 w.1 (List.mem_range.mpr hl) w.2 e hr
      rw [hlim, hmat3] at this
      exact this
    · intro c hk hp hn
      rw [d2 c ?_ ?_, c4 c hk, hpt2 c hp, a2 c hp, hrk c hp]
      · rintro i rfl; exact hp.elim
      · rintro m hm s e hse ⟨-, ho⟩
        refine hn e (m, s) ((C130_points X e m s).mpr ?_) ho
        refine ⟨_, List.getElem?_eq_getElem (List.mem_range.mp hm), ?_⟩
        have hm' := List.mem_range.mp hm
        simpa [row, List.getD_eq_getElem?_getD, hm'] using hse

/-- **C130 (pass).** If no material is twice in an element, then whatever the schedules of the parallel loops the
materials of every element are equilibrated with each other alone, as one point (`tipton`, C28), and their pressures
and sound speeds are those of their equations of state at the new densities and energies. -/
theorem C130_pass (X : TipMesh K E) (hd : X.Once) (mem mem' : TipCell E → K) (h : X.Pass mem mem') (e : Fin E) :
    X.mix mem' e = List.zipWith X.afterEos (X.points e) (tipton (X.pars e) (X.mix mem e)) := by
  have hp := (pass_point hd h e).1
  unfold tipton
  simp only
  generalize tipLim (X.pars e) (tipAvg (X.pars e) (X.mix mem e)) (X.mix mem e) = lim at *
  generalize tipAvg (X.pars e) (X.mix mem e) = a at *
  unfold TipMesh.mix
  rw [List.map_map, List.zipWith_map_right, List.zipWith_self]
  exact List.map_congr_left hp

/-- **C130 (schedules).** A pass can always be carried out, its result does not depend on the schedules, and it
touches no fraction, density, energy, pressure or sound speed but those of the points of the map. -/
theorem C130_schedules (X : TipMesh K E) (hd : X.Once) (mem : TipCell E → K) :
    (∃ mem', X.Pass mem mem') ∧
    (∀ m1 m2, X.Pass mem m1 → X.Pass mem m2 → X.matAt m1 = X.matAt m2) ∧
    ∀ mem', X.Pass mem mem' → ∀ w, (∀ e, w ∉ X.points e) → X.matAt mem' w = X.matAt mem w := by
  have hout : ∀ mem', X.Pass mem mem' → ∀ w, (∀ e, w ∉ X.points e) → X.matAt mem' w = X.matAt mem w := by
    intro mem' h w hw
    have hE : ∀ c, Kept c → Pt c → (∀ (m s : ℕ) (e : Fin E), Own m s e c → m = w.1 ∧ s = w.2) → mem' c = mem c := by
      intro c hk hp ho
      by_cases hEe : Nonempty (Fin E)
      · obtain ⟨e0⟩ := hEe
        refine (pass_point hd h e0).2 c hk hp fun e w' hw' ho' => hw e ?_
        obtain ⟨e1, e2⟩ := ho _ _ _ ho'
        have : w' = w := Prod.ext e1 e2
        exact this ▸ hw'
      · have hnil : ∀ r ∈ X.elems, r = [] := by
          intro r _
          cases r with
          | nil => rfl
          | cons a _ => exact absurd ⟨a⟩ hEe
        have hE0 : E = 0 := by
          rcases Nat.eq_zero_or_pos E with h | h
          · exact h
          · exact absurd ⟨⟨0, h⟩⟩ hEe
        have run0 : ∀ (ls : List ((TipCell E → K) → (n : ℕ) × (Fin n → List (Action (TipCell E) K))))
            (ma mb : TipCell E → K), (∀ l ∈ ls, ∀ mm, (l mm).1 = 0) → RunDyn ls ma mb → mb = ma := by
          intro ls
          induction ls with
          | nil => intro ma mb _ h; cases h; rfl
          | cons l ls ih =>
            intro ma mb hl h
            cases h with
            | cons _ _ s _ _ hs hr =>
              have hsn : s = [] := by
                cases s with
                | nil => rfl
                | cons a s =>
                  obtain ⟨i, -⟩ := (sched_mem hs a).mp (by simp)
                  have := hl l (by simp) ma
                  rw [this] at i
                  exact i.elim0
              subst hsn
              exact ih _ _ (fun l' hl' => hl l' (List.mem_cons_of_mem _ hl')) hr
        have hrow : ∀ m, X.row m = [] := by
          intro m
          unfold row
          rw [List.getD_eq_getElem?_getD]
          cases h' : X.elems[m]? with
          | none => rfl
          | some r => exact hnil r (List.mem_of_getElem? h')
        have hm := run0 _ _ _ (by
          intro l hl mm
          simp only [TipMesh.loops, List.mem_append, List.mem_cons, List.mem_map] at hl
          rcases hl with ⟨m, -, rfl⟩ | rfl | ⟨m, -, rfl⟩ | ⟨m, -, rfl⟩
          · simp [avgLoop, matLoop, hrow]
          · exact hE0
          · simp [changeLoop, matLoop, hrow]
          · simp [stateLoop, matLoop, hrow]) h
        rw [hm]
        cases c <;> first | rfl | exact hp.elim
    simp only [matAt]
    rw [hE (vf w.1 w.2) trivial trivial (fun _ _ _ h => ⟨h.1.symm, h.2.symm⟩),
      hE (pres w.1 w.2) trivial trivial (fun _ _ _ h => ⟨h.1.symm, h.2.symm⟩),
      hE (den w.1 w.2) trivial trivial (fun _ _ _ h => ⟨h.1.symm, h.2.symm⟩),
      hE (sspd w.1 w.2) trivial trivial (fun _ _ _ h => ⟨h.1.symm, h.2.symm⟩),
      hE (sie w.1 w.2) trivial trivial (fun _ _ _ h => ⟨h.1.symm, h.2.symm⟩)]
  refine ⟨runDyn_exists _ _, fun m1 m2 h1 h2 => ?_, hout⟩
  funext w
  by_cases hw : ∃ e, w ∈ X.points e
  · obtain ⟨e, hw⟩ := hw
    rw [(pass_point hd h1 e).1 w hw, (pass_point hd h2 e).1 w hw]
  · push Not at hw
    rw [hout m1 h1 w hw, hout m2 h2 w hw]

/-- The fractions after a pass. -/
theorem filled_eq (X : TipMesh K E) (mem : TipCell E → K) (e : Fin E) : X.filled mem e = vfSum (X.mix mem e) := by
  simp [TipMesh.filled, vfSum, TipMesh.mix, matAt, Function.comp_def]

theorem filled_pass {X : TipMesh K E} (hd : X.Once) {mem mem' : TipCell E → K} (h : X.Pass mem mem') (e : Fin E) :
    X.filled mem' e = vfSum (tipton (X.pars e) (X.mix mem e)) := by
  have hp := (pass_point hd h e).1
  rw [filled_eq]
  unfold vfSum tipton
  simp only
  generalize tipLim (X.pars e) (tipAvg (X.pars e) (X.mix mem e)) (X.mix mem e) = lim at *
  generalize tipAvg (X.pars e) (X.mix mem e) = a at *
  unfold TipMesh.mix
  rw [List.map_map, List.map_map, List.map_map]
  congr 1
  refine List.map_congr_left fun w hw => ?_
  simp only [Function.comp_apply, hp w hw, afterEos]

/-- **C130 (range and mass).** After a pass all fractions are in `[0, 1]`, and density times volume is the mass. -/
theorem C130_range_mass (X : TipMesh K E) (hd : X.Once) (mem mem' : TipCell E → K) (h : X.Pass mem mem') (e : Fin E)
    (w : ℕ × ℕ) (hw : w ∈ X.points e) :
    (0 ≤ mem' (vf w.1 w.2) ∧ mem' (vf w.1 w.2) ≤ 1) ∧
    (0 ≤ X.vol e → 0 ≤ X.other w.1 w.2 →
      mem' (den w.1 w.2) * (X.vol e * mem' (vf w.1 w.2) * X.other w.1 w.2 + 1 / 10 ^ 20) = X.mass w.1 w.2) := by
  have hp := (pass_point hd h e).1 w hw
  have h1 : mem' (vf w.1 w.2) = (X.matAt mem' w).vf := rfl
  have h2 : mem' (den w.1 w.2) = (X.matAt mem' w).den := rfl
  have h0 : 0 ≤ mem' (vf w.1 w.2) ∧ mem' (vf w.1 w.2) ≤ 1 := by
    rw [h1, hp]
    simp only [afterEos, tipUpdate]
    exact ⟨le_min zero_le_one (le_max_left _ _), min_le_left _ _⟩
  refine ⟨h0, fun hv ho => ?_⟩
  have hne : X.vol e * mem' (vf w.1 w.2) * X.other w.1 w.2 + 1 / 10 ^ 20 ≠ 0 := by
    have : 0 ≤ X.vol e * mem' (vf w.1 w.2) * X.other w.1 w.2 := mul_nonneg (mul_nonneg hv h0.1) ho
    positivity
  have hden : mem' (den w.1 w.2) = X.mass w.1 w.2 / (X.vol e * mem' (vf w.1 w.2) * X.other w.1 w.2 + 1 / 10 ^ 20) := by
    rw [h2, h1, hp]
    simp only [afterEos, tipUpdate]
    rfl
  rw [hden, div_mul_cancel₀ _ hne]

/-- **C130 (one material).** An element with one material that fills it keeps fraction and energy. -/
theorem C130_one_material (X : TipMesh K E) (hd : X.Once) (mem mem' : TipCell E → K) (h : X.Pass mem mem') (e : Fin E)
    (w : ℕ × ℕ) (hw : X.points e = [w]) (h1 : 1 - X.fuzz ≤ mem (vf w.1 w.2)) (h2 : mem (vf w.1 w.2) ≤ 1)
    (h0 : 0 ≤ mem (vf w.1 w.2)) :
    mem' (vf w.1 w.2) = mem (vf w.1 w.2) ∧ mem' (sie w.1 w.2) = mem (sie w.1 w.2) := by
  have hp := (pass_point hd h e).1 w (by simp [hw])
  have hδ : tipDelta (X.pars e) (tipAvg (X.pars e) (X.mix mem e)) (X.matAt mem w) = 0 := by
    unfold tipDelta
    exact if_neg (not_lt.mpr h1)
  have e1 : (X.matAt mem' w).vf = mem (vf w.1 w.2) := by
    rw [hp]
    simp only [afterEos, tipUpdate, hδ, mul_zero, add_zero]
    simp only [matAt]
    rw [max_eq_right h0, min_eq_right h2]
  have e2 : (X.matAt mem' w).sie = mem (sie w.1 w.2) := by
    rw [hp]
    simp only [afterEos, tipUpdate, hδ, mul_zero, add_zero]
    simp only [matAt]
    rw [max_eq_right h0, min_eq_right h2]
    simp
  exact ⟨e1, e2⟩

/-! ### Sums of fractions through a run -/

/-- One pass at a mixed point, whatever the sum of the fractions before. -/
theorem tipton_sum_drift (P : TipPars K) (hf : 0 < P.fuzz) (hg : 0 ≤ P.g1) (mats : List (TipMat K))
    (hmix : AllMixed P mats) (hK : ∀ m ∈ mats, 0 ≤ m.den) (h0 : ∀ m ∈ mats, 0 ≤ m.vf) :
    |vfSum (tipton P mats) - 1| ≤ |vfSum mats - 1| * (1 + |P.div * P.alpha * P.dt|) +
      P.fuzz * (|meanPressure P mats| / (P.g1 + P.fuzz) + |P.div * P.alpha * P.dt| /
        ((mats.map fun m => m.vf / (m.den * m.sspd * m.sspd + P.fuzz)).sum + P.fuzz)) := by
  obtain ⟨-, h2, h3, h4⟩ := tipAvg_mixed hmix
  obtain ⟨l0, l1, l2⟩ := tipLim_mixed hf _ (h4 h0) hmix
  have hR : 0 ≤ (tipAvg P mats).denom := by
    rw [h2]
    apply List.sum_nonneg
    intro x hx
    obtain ⟨m, hm, rfl⟩ := List.mem_map.mp hx
    have := h0 m hm
    have : 0 ≤ m.den * m.sspd * m.sspd := by
      rw [mul_assoc]; exact mul_nonneg (hK m hm) (mul_self_nonneg _)
    unfold TipMat.ratio
    positivity
  have hd : (tipAvg P mats).denom + P.fuzz ≠ 0 := by positivity
  have hsum := tipDelta_sum hmix hd
  set a := tipAvg P mats with ha
  set lim := tipLim P a mats with hlim
  set U := vfSum mats + lim * (mats.map (tipDelta P a)).sum with hU
  -- clamping moves the sum towards one
  have hclamp : |vfSum (tipton P mats) - 1| ≤ |U - 1| := by
    have hU' : U = (mats.map fun m => m.vf + lim * tipDelta P a m).sum := by
      rw [hU, vfSum]
      clear_value lim a
      clear * -
      induction mats with
      | nil => simp
      | cons b l ih =>
        simp only [List.map_cons, List.sum_cons]
        rw [← ih]; ring
    have hS : vfSum (tipton P mats) = (mats.map fun m => min 1 (m.vf + lim * tipDelta P a m)).sum := by
      unfold vfSum tipton
      simp only
      rw [List.map_map]
      congr 1
      refine List.map_congr_left fun m hm => ?_
      simp only [Function.comp_apply, tipUpdate, ← ha, ← hlim]
      have hp := tipParam_range P
      have hv := h4 h0
      have h8 : tipParam P * a.vfMin ≤ a.vfMin := by nlinarith [hp.1, hp.2]
      have := (abs_le.mp (l2 m hm)).1
      rw [max_eq_right (by linarith [h3 m hm])]
    have hnn : ∀ m ∈ mats, 0 ≤ m.vf + lim * tipDelta P a m := by
      intro m hm
      have hp := tipParam_range P
      have hv := h4 h0
      have h8 : tipParam P * a.vfMin ≤ a.vfMin := by nlinarith [hp.1, hp.2]
      have := (abs_le.mp (l2 m hm)).1
      linarith [h3 m hm]
    rw [hS, hU']
    have hle : (mats.map fun m => min 1 (m.vf + lim * tipDelta P a m)).sum ≤
        (mats.map fun m => m.vf + lim * tipDelta P a m).sum :=
      List.sum_le_sum fun m _ => min_le_right _ _
    by_cases hall : ∀ m ∈ mats, m.vf + lim * tipDelta P a m ≤ 1
    · rw [List.map_congr_left fun m hm => min_eq_right (hall m hm)]
    · push Not at hall
      obtain ⟨m, hm, hgt⟩ := hall
      have h1 : 1 ≤ (mats.map fun m => min 1 (m.vf + lim * tipDelta P a m)).sum := by
        have := List.single_le_sum (l := mats.map fun m => min 1 (m.vf + lim * tipDelta P a m)) (by
          intro x hx
          obtain ⟨m', hm', rfl⟩ := List.mem_map.mp hx
          exact le_min zero_le_one (hnn m' hm')) _ (List.mem_map_of_mem hm)
        rw [min_eq_left hgt.le] at this
        exact this
      rw [abs_of_nonneg (by linarith), abs_of_nonneg (by linarith)]
      linarith
  refine hclamp.trans ?_
  have hden : (mats.map fun m => m.vf / (m.den * m.sspd * m.sspd + P.fuzz)).sum = a.denom := by rw [h2]; rfl
  rw [hden]
  set c := P.div * P.alpha * P.dt with hc
  set S := vfSum mats with hS
  have hUe : U - 1 = (S - 1) * (1 - lim * c) +
      lim * (P.fuzz * (meanPressure P mats / (P.g1 + P.fuzz) - c / (a.denom + P.fuzz))) := by
    rw [hU, hsum]
    have : a.denom / (a.denom + P.fuzz) = 1 - P.fuzz / (a.denom + P.fuzz) := by field_simp; ring
    rw [this]
    ring
  rw [hUe]
  have hg' : 0 < P.g1 + P.fuzz := by linarith
  have hd' : 0 < a.denom + P.fuzz := by linarith
  refine (abs_add_le _ _).trans (add_le_add ?_ ?_)
  · rw [abs_mul]
    refine mul_le_mul_of_nonneg_left ?_ (abs_nonneg _)
    refine (abs_sub _ _).trans ?_
    rw [abs_one, abs_mul, abs_of_nonneg l0]
    nlinarith [abs_nonneg c]
  · rw [abs_mul, abs_of_nonneg l0, abs_mul, abs_of_pos hf]
    have hb : |meanPressure P mats / (P.g1 + P.fuzz) - c / (a.denom + P.fuzz)| ≤
        |meanPressure P mats| / (P.g1 + P.fuzz) + |c| / (a.denom + P.fuzz) := by
      refine (abs_sub _ _).trans (le_of_eq ?_)
      rw [abs_div, abs_div, abs_of_pos hg', abs_of_pos hd']
    have h5 : P.fuzz * |meanPressure P mats / (P.g1 + P.fuzz) - c / (a.denom + P.fuzz)| ≤
        P.fuzz * (|meanPressure P mats| / (P.g1 + P.fuzz) + |c| / (a.denom + P.fuzz)) :=
      mul_le_mul_of_nonneg_left hb hf.le
    have h6 : 0 ≤ P.fuzz * |meanPressure P mats / (P.g1 + P.fuzz) - c / (a.denom + P.fuzz)| :=
      mul_nonneg hf.le (abs_nonneg _)
    nlinarith

/-- Mean pressure of an element, weighted with fraction over stiffness. -/
def TipMesh.meanPres (X : TipMesh K E) (mem : TipCell E → K) (e : Fin E) : K :=
  ((X.points e).map fun w => mem (vf w.1 w.2) /
      (mem (den w.1 w.2) * mem (sspd w.1 w.2) * mem (sspd w.1 w.2) + X.fuzz) * mem (pres w.1 w.2)).sum /
    (((X.points e).map fun w => mem (vf w.1 w.2) /
      (mem (den w.1 w.2) * mem (sspd w.1 w.2) * mem (sspd w.1 w.2) + X.fuzz)).sum + X.fuzz)

theorem meanPres_eq (X : TipMesh K E) (mem : TipCell E → K) (e : Fin E) :
    X.meanPres mem e = meanPressure (X.pars e) (X.mix mem e) := by
  simp [TipMesh.meanPres, meanPressure, TipMesh.mix, matAt, Function.comp_def, pars]

theorem mixed_facts {X : TipMesh K E} {mem : TipCell E → K} {e : Fin E} (h : X.Mixed mem e) :
    AllMixed (X.pars e) (X.mix mem e) ∧ (∀ m ∈ X.mix mem e, 0 ≤ m.den) ∧ ∀ m ∈ X.mix mem e, 0 ≤ m.vf := by
  refine ⟨?_, ?_, ?_⟩ <;> intro m hm <;> obtain ⟨w, hw, rfl⟩ := List.mem_map.mp hm
  · exact h.below w hw
  · exact h.den w hw
  · exact h.nonneg w hw

/-- **C130 (filling).** One pass at a mixed element: how far the fractions are from filling the element grows by at
most the relative change of volume of the stage, plus terms with the factor `fuzz`. -/
theorem C130_filling (X : TipMesh K E) (hd : X.Once) (mem mem' : TipCell E → K) (h : X.Pass mem mem') (e : Fin E)
    (hf : 0 < X.fuzz) (hg : 0 ≤ X.g1) (hm : X.Mixed mem e) :
    |X.filled mem' e - 1| ≤ |X.filled mem e - 1| * (1 + |X.div e * X.alpha * X.dt|) +
      X.fuzz * (|X.meanPres mem e| / (X.g1 + X.fuzz) + |X.div e * X.alpha * X.dt| /
        (((X.points e).map fun w => mem (vf w.1 w.2) /
          (mem (den w.1 w.2) * mem (sspd w.1 w.2) * mem (sspd w.1 w.2) + X.fuzz)).sum + X.fuzz)) := by
  obtain ⟨f1, f2, f3⟩ := mixed_facts hm
  have := tipton_sum_drift (X.pars e) hf hg (X.mix mem e) f1 f2 f3
  rw [filled_pass hd h, filled_eq, meanPres_eq]
  have e1 : ((X.mix mem e).map fun m => m.vf / (m.den * m.sspd * m.sspd + (X.pars e).fuzz)).sum =
      ((X.points e).map fun w => mem (vf w.1 w.2) /
          (mem (den w.1 w.2) * mem (sspd w.1 w.2) * mem (sspd w.1 w.2) + X.fuzz)).sum := by
    simp [TipMesh.mix, matAt, Function.comp_def, pars]
  rw [e1] at this
  exact this

/-- **C130 (run).** Through any number of passes, the hydrodynamics changing everything but the fractions between
them, an element that starts filled and stays mixed stays filled up to `fuzz` times a constant times the number of
passes with the growth of the volume. -/
theorem C130_run (X : ℕ → TipMesh K E) (before after : ℕ → TipCell E → K) (e : Fin E) (n : ℕ)
    (hsame : ∀ k, (X k).elems = (X 0).elems) (hd : (X 0).Once)
    (hpass : ∀ k < n, (X k).Pass (before k) (after k))
    (hvf : ∀ k < n, ∀ m s, before (k + 1) (vf m s) = after k (vf m s))
    (fuzz c B : K) (hf : 0 < fuzz) (hfz : ∀ k, (X k).fuzz = fuzz) (hg : ∀ k, 0 ≤ (X k).g1)
    (hm : ∀ k < n, (X k).Mixed (before k) e)
    (hc : ∀ k < n, |(X k).div e * (X k).alpha * (X k).dt| ≤ c)
    (hB : ∀ k < n, |(X k).meanPres (before k) e| / ((X k).g1 + fuzz) + |(X k).div e * (X k).alpha * (X k).dt| /
        ((((X k).points e).map fun w => before k (vf w.1 w.2) /
          (before k (den w.1 w.2) * before k (sspd w.1 w.2) * before k (sspd w.1 w.2) + fuzz)).sum + fuzz) ≤ B)
    (h1 : (X 0).filled (before 0) e = 1) :
    |(X 0).filled (before n) e - 1| ≤ fuzz * B * ∑ k ∈ Finset.range n, (1 + c) ^ k := by
  have hpts : ∀ k, (X k).points e = (X 0).points e := by
    intro k
    unfold TipMesh.points atElem row
    rw [hsame k]
  have hfill : ∀ k mem, (X k).filled mem e = (X 0).filled mem e := by
    intro k mem
    unfold TipMesh.filled
    rw [hpts]
  induction n with
  | zero => simp [h1]
  | succ n ih =>
    have ih' := ih (fun k hk => hpass k (by omega)) (fun k hk => hvf k (by omega)) (fun k hk => hm k (by omega))
      (fun k hk => hc k (by omega)) (fun k hk => hB k (by omega))
    have hd' : (X n).Once := by unfold TipMesh.Once; rw [hsame n]; exact hd
    have hstep := C130_filling (X n) hd' _ _ (hpass n (by omega)) e (hfz n ▸ hf) (hg n) (hm n (by omega))
    rw [hfill n (after n), hfill n (before n), hfz] at hstep
    have hnext : (X 0).filled (before (n + 1)) e = (X 0).filled (after n) e := by
      unfold TipMesh.filled
      simp only [hvf n (by omega)]
    rw [hnext, Finset.sum_range_succ']
    have hcn := hc n (by omega)
    have hBn := hB n (by omega)
    have hc0 : 0 ≤ c := (abs_nonneg _).trans hcn
    have h2 : fuzz * (|(X n).meanPres (before n) e| / ((X n).g1 + fuzz) + |(X n).div e * (X n).alpha * (X n).dt| /
        ((((X n).points e).map fun w => before n (vf w.1 w.2) /
          (before n (den w.1 w.2) * before n (sspd w.1 w.2) * before n (sspd w.1 w.2) + fuzz)).sum + fuzz)) ≤
        fuzz * B := mul_le_mul_of_nonneg_left hBn hf.le
    have h3 : |(X 0).filled (before n) e - 1| * (1 + |(X n).div e * (X n).alpha * (X n).dt|) ≤
        fuzz * B * (∑ k ∈ Finset.range n, (1 + c) ^ k) * (1 + c) :=
      mul_le_mul ih' (by linarith) (by positivity) ((abs_nonneg _).trans ih')
    have h4 : fuzz * B * (∑ k ∈ Finset.range n, (1 + c) ^ k) * (1 + c) =
        fuzz * B * ∑ k ∈ Finset.range n, (1 + c) ^ (k + 1) := by
      rw [mul_assoc, Finset.sum_mul]
      simp only [pow_succ]
    rw [pow_zero, mul_add, mul_one]
    linarith

/-! ### Energy -/

/-- **C130 (energy).** In a mixed element whose materials have the other fraction one, the materials exchange energy:
together they lose the mean pressure times the change of the volume they fill. -/
theorem C130_energy (X : TipMesh K E) (hd : X.Once) (mem mem' : TipCell E → K) (h : X.Pass mem mem') (e : Fin E)
    (hm : ∀ w ∈ X.points e, mem (vf w.1 w.2) < 1 - X.fuzz) (ho : ∀ w ∈ X.points e, X.other w.1 w.2 = 1)
    (hmass : ∀ w ∈ X.points e, 0 ≤ X.mass w.1 w.2) :
    ((X.points e).map fun w => (X.mass w.1 w.2 + 1 / 10 ^ 20) * (mem' (sie w.1 w.2) - mem (sie w.1 w.2))).sum =
      -(X.meanPres mem e * X.vol e * (X.filled mem' e - X.filled mem e)) := by
  have f1 : AllMixed (X.pars e) (X.mix mem e) := by
    intro m hm'; obtain ⟨w, hw, rfl⟩ := List.mem_map.mp hm'; exact hm w hw
  have key := C28_energy_exchange (X.pars e) (X.mix mem e) f1
    (fun m hm' => by obtain ⟨w, hw, rfl⟩ := List.mem_map.mp hm'; exact ho w hw)
    (fun m hm' => by obtain ⟨w, hw, rfl⟩ := List.mem_map.mp hm'; exact hmass w hw)
  rw [meanPres_eq, filled_pass hd h, filled_eq]
  refine Eq.trans ?_ key
  have hp := (pass_point hd h e).1
  unfold tipton
  simp only
  generalize tipLim (X.pars e) (tipAvg (X.pars e) (X.mix mem e)) (X.mix mem e) = lim at *
  generalize tipAvg (X.pars e) (X.mix mem e) = a at *
  unfold TipMesh.mix
  rw [List.map_map, List.zip_map', List.map_map]
  congr 1
  refine List.map_congr_left fun w hw => ?_
  have h1 : mem' (sie w.1 w.2) = (X.matAt mem' w).sie := rfl
  rw [h1, hp w hw]
  rfl

/-! ### Order of the materials -/

/-- **C130 (order).** At a mixed point the numbering of the materials makes no difference. -/
theorem C130_order (P : TipPars K) (mats mats' : List (TipMat K)) (hp : mats.Perm mats')
    (hm : ∀ m ∈ mats, m.vf < 1 - P.fuzz) : (tipton P mats).Perm (tipton P mats') := by
  have ha : tipAvg P mats = tipAvg P mats' := by
    unfold tipAvg
    refine List.Perm.foldl_eq' hp (fun x hx y hy z => ?_) _
    simp only [TipAvg.step, if_pos (hm x hx), if_pos (hm y hy)]
    rw [add_right_comm, add_right_comm z.denom, min_left_comm]
  have hl : tipLim P (tipAvg P mats) mats = tipLim P (tipAvg P mats) mats' := by
    unfold tipLim
    refine List.Perm.foldl_eq' hp (fun x hx y hy z => ?_) _
    simp only [tipLimStep, if_pos (hm x hx), if_pos (hm y hy)]
    rw [min_right_comm]
  unfold tipton
  simp only
  rw [← ha, ← hl]
  exact hp.map _

/-! ### A material twice in an element -/

/-- Take the next action of the threads named. -/
def pickActions {A : Type} {n : ℕ} (t : Fin n → List A) : List (Fin n) → List A
  | [] => []
  | i :: is => match t i with
    | [] => pickActions t is
    | a :: r => a :: pickActions (Function.update t i r) is

theorem pickActions_sched {A : Type} {n : ℕ} (t : Fin n → List A) (is : List (Fin n))
    (h : ∀ i, (t i).length ≤ is.count i) : Sched t (pickActions t is) := by
  induction is generalizing t with
  | nil =>
    refine Sched.done t fun i => ?_
    simpa using h i
  | cons i is ih =>
    unfold pickActions
    cases hi : t i with
    | nil =>
      refine ih t fun j => ?_
      by_cases hj : j = i
      · subst hj; simp [hi]
      · have := h j
        rw [List.count_cons_of_ne (Ne.symm hj)] at this
        exact this
    | cons a r =>
      refine Sched.step t i a r _ hi (ih _ fun j => ?_)
      by_cases hj : j = i
      · subst hj
        have := h j
        rw [hi, List.count_cons_self, List.length_cons] at this
        simp only [Function.update_self]
        omega
      · have := h j
        rw [List.count_cons_of_ne (Ne.symm hj)] at this
        rw [Function.update_of_ne hj]
        exact this

/-- One element in which the only material is stored twice, half of the element each (the result
`C18_duplicate_material_fails` shows that the fill can produce). -/
def twiceMesh : TipMesh ℚ 1 where
  elems := [[0, 0]]
  mass _ _ := 1
  other _ _ := 1
  vol _ := 1
  div _ := 0
  g0 := 1
  g1 := 1
  fuzz := 1 / 10 ^ 16
  alpha := 1
  dt := 1
  eosPres _ _ _ den _ := den
  eosSspd _ _ _ _ _ := 1

/-- Pressures 0 and 1. -/
def twiceMem : TipCell 1 → ℚ
  | .vf _ _ => 1 / 2
  | .pres _ s => s
  | .den _ _ => 1
  | .sspd _ _ => 1
  | _ => 0

/-- Iterations one after the other. -/
def inTurn (k : ℕ) : List (Fin 2) := List.replicate k 0 ++ List.replicate k 1

/-- The iterations alternate. -/
def alternating (k : ℕ) : List (Fin 2) := (List.replicate k [0, 1]).flatten

/-- The pass with the first loop under schedule `o`, the others one iteration after the other. -/
def twicePass (o : List (Fin 2)) : TipCell 1 → ℚ :=
  let m0 := TipMesh.reset twiceMem
  let m1 := execActions (pickActions (n := 2) (twiceMesh.avgLoop 0 m0).2 o) m0
  let m2 := execActions (pickActions (n := 1) (twiceMesh.presLoop m1).2 [0]) m1
  let m3 := execActions (pickActions (n := 2) (twiceMesh.changeLoop 0 m2).2 (inTurn 3)) m2
  execActions (pickActions (n := 2) (twiceMesh.stateLoop 0 m3).2 (inTurn 7)) m3

theorem twicePass_pass (o : List (Fin 2)) (h : ∀ i, 6 ≤ o.count i) : twiceMesh.Pass twiceMem (twicePass o) := by
  unfold TipMesh.Pass TipMesh.loops
  refine .cons _ _ _ _ _ (pickActions_sched (n := 2) _ o ?_) (.cons _ _ _ _ _ (pickActions_sched (n := 1) _ [0] ?_)
    (.cons _ _ _ _ _ (pickActions_sched (n := 2) _ (inTurn 3) ?_)
      (.cons _ _ _ _ _ (pickActions_sched (n := 2) _ (inTurn 7) ?_) (.nil _))))
  · intro i
    refine le_trans ?_ (h i)
    simp only [avgLoop, matLoop, avgThread]
    split <;> simp
  · intro i; fin_cases i; exact le_refl 1
  · intro i
    simp only [changeLoop, matLoop, changeThread]
    fin_cases i <;> split <;> simp [inTurn, List.count_replicate]
  · intro i
    fin_cases i <;> simp [stateLoop, matLoop, stateThread, inTurn, List.count_replicate]

/-- **C130 (material twice, fails).** If the fill has put a material twice into an element, two iterations of a
parallel loop add to the averages of one point without protection: under one schedule the element stays filled, under
another one contribution is lost and a third of the element ends up empty. -/
theorem C130_twice_fails :
    (∃ mem', twiceMesh.Pass twiceMem mem' ∧ 1 - 1 / 10 ^ 15 < twiceMesh.filled mem' 0) ∧
    (∃ mem', twiceMesh.Pass twiceMem mem' ∧ twiceMesh.filled mem' 0 < 2 / 3) := by
  refine ⟨⟨_, twicePass_pass (inTurn 6) (by decide), ?_⟩, ⟨_, twicePass_pass (alternating 6) (by decide), ?_⟩⟩
  · decide +kernel
  · decide +kernel

/-! ### The hypotheses can be met -/

/-- Two elements, the first shared by two materials. -/
def mixMesh : TipMesh ℚ 2 where
  elems := [[0, 1], [0]]
  mass _ _ := 1
  other _ _ := 1
  vol _ := 1
  div _ := 0
  g0 := 1
  g1 := 1 / 4
  fuzz := 1 / 10 ^ 16
  alpha := 1
  dt := 1
  eosPres _ _ _ den _ := den
  eosSspd _ _ _ _ _ := 1

/-- Half of the first element each, the second filled by the first material. -/
def mixMem : TipCell 2 → ℚ
  | .vf _ s => if s = 0 then 1 / 2 else 1
  | .pres m _ => m + 1
  | .den _ _ => 1
  | .sspd _ _ => 1
  | _ => 0

example : mixMesh.Once ∧ mixMesh.Mixed mixMem 0 ∧ mixMesh.filled mixMem 0 = 1 ∧ mixMesh.points 1 = [(0, 1)] ∧
    (∃ mem', mixMesh.Pass mixMem mem') := by
  refine ⟨by unfold TipMesh.Once; decide, ⟨by decide, ?_, ?_, ?_⟩, by decide +kernel, by decide, runDyn_exists _ _⟩ <;>
    decide +kernel

end Fierro
