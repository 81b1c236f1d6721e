import Verif.Model.RegionFill
import Verif.Props.BoxMesh
import Mathlib.Tactic.Linarith
import Mathlib.Tactic.Positivity
import Mathlib.Tactic.NormNum
import Mathlib.Data.List.Nodup

/-!
# C17, C18: regions painted on the mesh
-/

set_option linter.unusedSectionVars false

namespace Fierro

section
variable {K : Type} [Field K] [LinearOrder K] [IsStrictOrderedRing K]

/-! ### Specification -/

/-- Fill number `i` selects element `e` with the given property of its volume fraction. -/
def SelectsWith (fills : List (FillData K)) (e : ℕ) (P : K → Prop) (i : ℕ) : Prop :=
  ∃ f, fills[i]? = some f ∧ f.covers e = true ∧ P (f.vfrac e)

/-- Fill `i` selects `e` and fills it completely (volume fraction one up to `1e-8`). -/
def FillsFully (fills : List (FillData K)) (e i : ℕ) : Prop :=
  SelectsWith fills e (fun v => 1 - 1 / 10 ^ 8 ≤ v) i

/-- Fill `i` selects `e` with a smaller volume fraction. -/
def FillsPartly (fills : List (FillData K)) (e i : ℕ) : Prop :=
  SelectsWith fills e (fun v => v < 1 - 1 / 10 ^ 8) i

/-- No two fills use the same material. -/
def DistinctMaterials (fills : List (FillData K)) : Prop := (fills.map FillData.materialId).Nodup

instance (fills : List (FillData K)) (e i : ℕ) : Decidable (FillsFully fills e i) :=
  match h : fills[i]? with
  | none => isFalse (by rintro ⟨f, hf, -⟩; simp [h] at hf)
  | some f => decidable_of_iff (f.covers e = true ∧ 1 - 1 / 10 ^ 8 ≤ f.vfrac e)
      ⟨fun hh => ⟨f, h, hh⟩, by rintro ⟨g, hg, hh⟩; rw [h] at hg; cases hg; exact hh⟩

instance (fills : List (FillData K)) (e i : ℕ) : Decidable (FillsPartly fills e i) :=
  match h : fills[i]? with
  | none => isFalse (by rintro ⟨f, hf, -⟩; simp [h] at hf)
  | some f => decidable_of_iff (f.covers e = true ∧ f.vfrac e < 1 - 1 / 10 ^ 8)
      ⟨fun hh => ⟨f, h, hh⟩, by rintro ⟨g, hg, hh⟩; rw [h] at hg; cases hg; exact hh⟩

/-! ### Helper lemmas -/

theorem isPartial_iff (x : K) : isPartial x ↔ x < 1 - 1 / 10 ^ 8 := by
  have h8 : (0 : K) < 1 / 10 ^ 8 := by positivity
  have h8' : (1 : K) / 10 ^ 8 < 1 := by norm_num
  unfold isPartial clampFrac
  rw [one_mul, min_lt_iff, max_lt_iff]
  constructor
  · rintro (h | h)
    · linarith
    · exact h.2
  · intro h; exact Or.inr ⟨by linarith, h⟩

theorem clampFrac_bounds (x : K) : 0 ≤ clampFrac x ∧ clampFrac x ≤ 1 :=
  ⟨le_min zero_le_one (le_max_left _ _), min_le_left _ _⟩

/-- The fold over all fills up to number `i`. -/
def fillUpTo (fills : List (FillData K)) (maxMats e i : ℕ) : Except FillError (ElemFill K) :=
  (List.range i).foldlM (applyFill fills maxMats e) ElemFill.init

theorem fillUpTo_succ (fills : List (FillData K)) (maxMats e i : ℕ) :
    fillUpTo fills maxMats e (i + 1) =
      (fillUpTo fills maxMats e i).bind fun s => applyFill fills maxMats e s i := by
  unfold fillUpTo
  rw [List.range_succ, List.foldlM_append]
  simp only [List.foldlM_cons, List.foldlM_nil, bind_pure]
  rfl

theorem fillUpTo_ok_succ {fills : List (FillData K)} {maxMats e i : ℕ} {s : ElemFill K}
    (h : fillUpTo fills maxMats e (i + 1) = .ok s) :
    ∃ s₀, fillUpTo fills maxMats e i = .ok s₀ ∧ applyFill fills maxMats e s₀ i = .ok s := by
  rw [fillUpTo_succ] at h
  cases h0 : fillUpTo fills maxMats e i with
  | error x => rw [h0] at h; simp [Except.bind] at h
  | ok s₀ => rw [h0] at h; exact ⟨s₀, rfl, h⟩

theorem lastMatch_lt {fills : List (FillData K)} {mat n a : ℕ}
    (h : lastMatch fills mat n = some a) :
    a < n ∧ fills[a]?.map FillData.materialId = some mat := by
  induction n with
  | zero => simp [lastMatch] at h
  | succ n ih =>
    unfold lastMatch at h
    rw [List.range_succ, List.foldl_append] at h
    simp only [List.foldl_cons, List.foldl_nil] at h
    split_ifs at h with hm
    · cases h; exact ⟨Nat.lt_succ_self _, hm⟩
    · obtain ⟨h1, h2⟩ := ih h
      exact ⟨Nat.lt_succ_of_lt h1, h2⟩

theorem lastMatch_none {fills : List (FillData K)} {mat n : ℕ}
    (h : ∀ a < n, fills[a]?.map FillData.materialId ≠ some mat) : lastMatch fills mat n = none := by
  cases hm : lastMatch fills mat n with
  | none => rfl
  | some a => exact absurd (lastMatch_lt hm).2 (h a (lastMatch_lt hm).1)

theorem fullElem_iff {maxMats num : ℕ} (hm : 0 < maxMats) :
    fullElem maxMats num = true ↔ maxMats ≤ num := by
  unfold fullElem
  rw [if_neg (by omega), decide_eq_true_iff]
  omega

/-- What is known of the row of an element after the first `i` fills, for any fills. -/
structure RowOK (fills : List (FillData K)) (maxMats e i : ℕ) (s : ElemFill K) : Prop where
  num_le_max : s.num ≤ maxMats
  num_le : s.num ≤ i
  slot : ∀ k < s.num, ∃ j f, j < i ∧ fills[j]? = some f ∧ f.covers e = true ∧
    s.fillIds k = some j ∧ s.geo k = some 1 ∧
    s.volfrac k = some (if f.vfrac e < 1 - 1 / 10 ^ 8 then clampFrac (f.vfrac e) else 1)

theorem RowOK.mono {fills : List (FillData K)} {maxMats e i : ℕ} {s : ElemFill K}
    (h : RowOK fills maxMats e i s) : RowOK fills maxMats e (i + 1) s :=
  ⟨h.1, h.2.trans (Nat.le_succ _), fun k hk => by
    obtain ⟨j, f, hj, rest⟩ := h.3 k hk
    exact ⟨j, f, Nat.lt_succ_of_lt hj, rest⟩⟩

theorem store_at (s : ElemFill K) (slot i : ℕ) (vf g : K) (n : ℕ) :
    (s.store slot i vf g n).fillIds slot = some i ∧ (s.store slot i vf g n).volfrac slot = some vf ∧
    (s.store slot i vf g n).geo slot = some g := by
  simp [ElemFill.store, Mem.write]

theorem store_ne (s : ElemFill K) {slot k : ℕ} (i : ℕ) (vf g : K) (n : ℕ) (h : k ≠ slot) :
    (s.store slot i vf g n).fillIds k = s.fillIds k ∧
    (s.store slot i vf g n).volfrac k = s.volfrac k ∧
    (s.store slot i vf g n).geo k = s.geo k := by
  simp [ElemFill.store, Mem.write, h]

theorem applyFill_row {fills : List (FillData K)} {maxMats e i : ℕ} {s s' : ElemFill K}
    (h : RowOK fills maxMats e i s) (ha : applyFill fills maxMats e s i = .ok s') :
    RowOK fills maxMats e (i + 1) s' := by
  unfold applyFill at ha
  cases hf : fills[i]? with
  | none => simp [hf] at ha
  | some f =>
    simp only [hf] at ha
    split_ifs at ha with hc hp hm
    · unfold appendFill at ha
      split_ifs at ha with h1 h2 h3
      all_goals (simp only [] at ha; split_ifs at ha with h4)
      all_goals cases ha
      all_goals rw [isPartial_iff] at hp
      all_goals push Not at h4
      · -- an existing slot is overwritten
        obtain ⟨a, ha⟩ := Option.isSome_iff_exists.mp h3
        have hlt := (lastMatch_lt ha).1
        rw [ha] at h4 ⊢
        simp only [Option.getD_some] at h4 ⊢
        refine ⟨h.1, h.2.trans (Nat.le_succ _), fun k hk => ?_⟩
        by_cases hka : k = a
        · subst hka
          obtain ⟨e1, e2, e3⟩ := store_at s k i (clampFrac (f.vfrac e)) 1 s.num
          exact ⟨i, f, Nat.lt_succ_self _, hf, hc, e1, e3, by rw [e2, if_pos hp]⟩
        · obtain ⟨e1, e2, e3⟩ := store_ne s i (clampFrac (f.vfrac e)) 1 s.num hka
          rw [e1, e2, e3]
          exact h.mono.3 k hk
      · have hn : lastMatch fills f.materialId s.num = none := by
          simpa using h3
        rw [hn] at h4 ⊢
        simp only [Option.getD_none] at h4 ⊢
        refine ⟨h4, Nat.succ_le_succ h.2, fun k hk => ?_⟩
        by_cases hka : k = s.num
        · subst hka
          obtain ⟨e1, e2, e3⟩ := store_at s s.num i (clampFrac (f.vfrac e)) 1 (s.num + 1)
          exact ⟨i, f, Nat.lt_succ_self _, hf, hc, e1, e3, by rw [e2, if_pos hp]⟩
        · obtain ⟨e1, e2, e3⟩ := store_ne s i (clampFrac (f.vfrac e)) 1 (s.num + 1) hka
          rw [e1, e2, e3]
          exact h.mono.3 k (by simp only [ElemFill.store] at hk; omega)
    · cases ha
      rw [isPartial_iff] at hp
      refine ⟨by simp only [ElemFill.store]; omega, by simp [ElemFill.store], fun k hk => ?_⟩
      have hk0 : k = 0 := by simp only [ElemFill.store] at hk; omega
      subst hk0
      obtain ⟨e1, e2, e3⟩ := store_at s 0 i (1 : K) 1 1
      exact ⟨i, f, Nat.lt_succ_self _, hf, hc, e1, e3, by rw [e2, if_neg hp]⟩
    · cases ha; exact h.mono

theorem fillUpTo_row {fills : List (FillData K)} {maxMats e : ℕ} (i : ℕ) {s : ElemFill K}
    (h : fillUpTo fills maxMats e i = .ok s) : RowOK fills maxMats e i s := by
  induction i generalizing s with
  | zero =>
    have : s = ElemFill.init := by simp [fillUpTo] at h; cases h; rfl
    subst this
    exact ⟨Nat.zero_le _, Nat.zero_le _, fun k hk => absurd hk (by simp [ElemFill.init])⟩
  | succ i ih =>
    obtain ⟨s₀, h0, h1⟩ := fillUpTo_ok_succ h
    exact applyFill_row (ih h0) h1

/-! ### C18 -/

/-- **C18**, bound: whatever the fills, if painting an element does not abort, then it holds at
most the user's maximum number of materials; each slot holds a fill that selects the element, with
a volume fraction in `[0,1]`. -/
theorem C18_at_most_max (fills : List (FillData K)) (maxMats e : ℕ) (s : ElemFill K)
    (h : fillElem fills maxMats e = .ok s) :
    s.num ≤ maxMats ∧ ∀ k < s.num, ∃ j f v, fills[j]? = some f ∧ f.covers e = true ∧
      s.fillIds k = some j ∧ s.volfrac k = some v ∧ 0 ≤ v ∧ v ≤ 1 ∧ s.geo k = some 1 := by
  have hr := fillUpTo_row fills.length h
  refine ⟨hr.1, fun k hk => ?_⟩
  obtain ⟨j, f, -, hf, hc, h1, h2, h3⟩ := hr.3 k hk
  refine ⟨j, f, _, hf, hc, h1, h3, ?_, ?_, h2⟩ <;> split_ifs
  · exact (clampFrac_bounds _).1
  · exact zero_le_one
  · exact (clampFrac_bounds _).2
  · exact le_rfl

/-- With a positive maximum the only failure is the deliberate abort: painting never touches
memory outside the arrays. -/
theorem C18_in_bounds (fills : List (FillData K)) (maxMats e : ℕ) (hm : 0 < maxMats) :
    fillElem fills maxMats e ≠ .error .outOfBounds := by
  suffices H : ∀ i ≤ fills.length, fillUpTo fills maxMats e i ≠ .error .outOfBounds from
    H _ le_rfl
  intro i hi
  induction i with
  | zero => simp [fillUpTo]; intro h; cases h
  | succ i ih =>
    rw [fillUpTo_succ]
    cases h0 : fillUpTo fills maxMats e i with
    | error x =>
      have := ih (by omega)
      rw [h0] at this
      simpa [Except.bind] using this
    | ok s =>
      have hr := fillUpTo_row i h0
      simp only [Except.bind]
      unfold applyFill
      rw [List.getElem?_eq_getElem (by omega)]
      dsimp only
      split_ifs with hc hp hz
      · unfold appendFill
        split_ifs with h1 h2 h3
        · simp
        · have := hr.2; omega
        all_goals
          dsimp only
          split_ifs with h4
        · exfalso
          rw [fullElem_iff hm] at h1
          obtain ⟨a, ha⟩ := Option.isSome_iff_exists.mp h3
          have := (lastMatch_lt ha).1
          rw [ha] at h4
          simp at h4
          omega
        · simp
        · exfalso
          rw [fullElem_iff hm] at h1
          have hn : lastMatch fills (fills[i]).materialId s.num = none := by simpa using h3
          rw [hn] at h4
          simp at h4
          omega
        · simp
      · omega
      · simp
      · simp

/-! ### The intended contents of a row -/

/-- The fills expected in an element after the first `i` fills: a complete fill replaces
everything, a partial fill is put behind what is there. -/
def expectedFills (fills : List (FillData K)) (e : ℕ) : ℕ → List ℕ
  | 0 => []
  | i + 1 =>
    if FillsFully fills e i then [i]
    else if FillsPartly fills e i then expectedFills fills e i ++ [i]
    else expectedFills fills e i

/-- Fill `i` has the material of one of the first `k` fills of the input, where `k` is the number of
fills expected in the element before fill `i`. -/
def Reused (fills : List (FillData K)) (e i : ℕ) : Prop :=
  ∃ a < (expectedFills fills e i).length,
    fills[a]?.map FillData.materialId = fills[i]?.map FillData.materialId

/-- The fill numbers stored in the slots of an element. -/
def ElemFill.ids (s : ElemFill K) : List (Option ℕ) := (List.range s.num).map s.fillIds

theorem ids_append (s : ElemFill K) (i : ℕ) (vf g : K) :
    (s.store s.num i vf g (s.num + 1)).ids = s.ids ++ [some i] := by
  unfold ElemFill.ids
  have : (s.store s.num i vf g (s.num + 1)).num = s.num + 1 := rfl
  rw [this, List.range_succ, List.map_append]
  congr 1
  · apply List.map_congr_left
    intro k hk
    exact (store_ne s i vf g _ (by have := List.mem_range.mp hk; omega)).1
  · simp [(store_at s s.num i vf g (s.num + 1)).1]

theorem ids_full (s : ElemFill K) (i : ℕ) (vf g : K) :
    (s.store 0 i vf g 1).ids = [some i] := by
  have : (s.store 0 i vf g 1).num = 1 := rfl
  simp [ElemFill.ids, this, (store_at s 0 i vf g 1).1]

theorem lastMatch_eq_none {fills : List (FillData K)} {mat n : ℕ} :
    lastMatch fills mat n = none ↔ ∀ a < n, fills[a]?.map FillData.materialId ≠ some mat := by
  refine ⟨fun h => ?_, lastMatch_none⟩
  induction n with
  | zero => intro a ha; omega
  | succ n ih =>
    unfold lastMatch at h
    rw [List.range_succ, List.foldl_append] at h
    simp only [List.foldl_cons, List.foldl_nil] at h
    split_ifs at h with hm
    intro a ha
    rcases Nat.lt_succ_iff_lt_or_eq.mp ha with h1 | rfl
    · exact ih h a h1
    · exact hm

theorem not_fully_of_partly {fills : List (FillData K)} {e i : ℕ} (h : FillsPartly fills e i) :
    ¬ FillsFully fills e i := by
  rintro ⟨g, hg, -, h2⟩
  obtain ⟨f, hf, -, h1⟩ := h
  rw [hf] at hg
  cases hg
  exact absurd h1 (not_lt.mpr h2)

/-- One fill. -/
theorem applyFill_fresh {fills : List (FillData K)} {maxMats e i : ℕ} (hi : i < fills.length) (hm : 0 < maxMats) {s : ElemFill K}
    (hs : RowOK fills maxMats e i s) :
    (FillsFully fills e i → ∃ s', applyFill fills maxMats e s i = .ok s' ∧ s'.ids = [some i]) ∧
    (FillsPartly fills e i →
      (¬ ∃ a < s.num, fills[a]?.map FillData.materialId = fills[i]?.map FillData.materialId) →
      (maxMats ≤ s.num → applyFill fills maxMats e s i = .error .tooManyMaterials) ∧
      (s.num < maxMats →
        ∃ s', applyFill fills maxMats e s i = .ok s' ∧ s'.ids = s.ids ++ [some i])) ∧
    (¬ FillsFully fills e i → ¬ FillsPartly fills e i → applyFill fills maxMats e s i = .ok s) := by
  have hf : fills[i]? = some fills[i] := List.getElem?_eq_getElem hi
  refine ⟨?_, ?_, ?_⟩
  · rintro ⟨f, hf', hc, hv⟩
    rw [hf] at hf'
    cases hf'
    refine ⟨s.store 0 i 1 1 1, ?_, ids_full s i 1 1⟩
    unfold applyFill
    simp only [hf, hc, isPartial_iff, not_lt.mpr hv, if_true, if_false]
    rw [if_neg (by omega)]
  · rintro ⟨f, hf', hc, hv⟩ hfresh
    rw [hf] at hf'
    cases hf'
    have hnone : lastMatch fills fills[i].materialId s.num = none :=
      lastMatch_none fun a ha he => hfresh ⟨a, ha, by rw [he, hf]; rfl⟩
    constructor
    · intro hle
      unfold applyFill appendFill
      simp only [hf, hc, isPartial_iff, hv, if_true, (fullElem_iff hm).mpr hle]
    · intro hlt
      refine ⟨s.store s.num i (clampFrac (fills[i].vfrac e)) 1 (s.num + 1), ?_, ids_append s i _ _⟩
      unfold applyFill appendFill
      have h1 : ¬ fullElem maxMats s.num = true := by rw [fullElem_iff hm]; omega
      have h2 : ¬ fills.length < s.num := by have := hs.2; omega
      simp only [hf, hc, isPartial_iff, hv, if_true, h1, h2, hnone, Option.getD_none,
        if_false, Option.isSome_none, Bool.false_eq_true]
      rw [if_neg (by omega)]
  · intro h1 h2
    unfold applyFill
    simp only [hf]
    by_cases hc : fills[i].covers e = true
    · rcases lt_or_ge (fills[i].vfrac e) (1 - 1 / 10 ^ 8) with hv | hv
      · exact absurd ⟨fills[i], hf, hc, hv⟩ h2
      · exact absurd ⟨fills[i], hf, hc, hv⟩ h1
    · simp [hc]

theorem fillUpTo_fresh {fills : List (FillData K)} {maxMats e : ℕ} (hm : 0 < maxMats) (n : ℕ)
    (hn : n ≤ fills.length) (hd : ∀ i < n, FillsPartly fills e i → ¬ Reused fills e i) :
    (∀ s, fillUpTo fills maxMats e n = .ok s → s.ids = (expectedFills fills e n).map some) ∧
    ((∃ s, fillUpTo fills maxMats e n = .ok s) ↔
      ∀ i < n, FillsPartly fills e i → (expectedFills fills e i).length < maxMats) := by
  induction n with
  | zero =>
    refine ⟨fun s hs => ?_, ⟨fun _ i hi => absurd hi (Nat.not_lt_zero _), fun _ => ⟨ElemFill.init, rfl⟩⟩⟩
    have : s = ElemFill.init := by simp [fillUpTo] at hs; cases hs; rfl
    subst this
    simp [ElemFill.ids, ElemFill.init, expectedFills]
  | succ n ih =>
    obtain ⟨ih1, ih2⟩ := ih (by omega) (fun i hi => hd i (by omega))
    have fresh : ∀ s₀, fillUpTo fills maxMats e n = .ok s₀ → FillsPartly fills e n →
        ¬ ∃ a < s₀.num, fills[a]?.map FillData.materialId = fills[n]?.map FillData.materialId := by
      intro s₀ h0 hP
      have : s₀.num = (expectedFills fills e n).length := by
        simpa [ElemFill.ids] using congrArg List.length (ih1 s₀ h0)
      rw [this]
      exact hd n (Nat.lt_succ_self _) hP
    have step : ∀ s₀, fillUpTo fills maxMats e n = .ok s₀ →
        (FillsPartly fills e n → s₀.num = (expectedFills fills e n).length) := by
      intro s₀ h0 _
      have := congrArg List.length (ih1 s₀ h0)
      simpa [ElemFill.ids] using this
    constructor
    · intro s hs
      obtain ⟨s₀, h0, h1⟩ := fillUpTo_ok_succ hs
      obtain ⟨a1, a2, a3⟩ := applyFill_fresh (by omega : n < fills.length) hm
        (fillUpTo_row n h0)
      unfold expectedFills
      split_ifs with hF hP
      · obtain ⟨s', h2, h3⟩ := a1 hF
        rw [h1] at h2; cases h2
        simpa using h3
      · rcases Nat.lt_or_ge s₀.num maxMats with hlt | hge
        · obtain ⟨s', h2, h3⟩ := (a2 hP (fresh s₀ h0 hP)).2 hlt
          rw [h1] at h2; cases h2
          rw [h3, ih1 s₀ h0]; simp
        · rw [(a2 hP (fresh s₀ h0 hP)).1 hge] at h1; cases h1
      · rw [a3 hF hP] at h1; cases h1
        exact ih1 _ h0
    · constructor
      · rintro ⟨s, hs⟩ i hi hP
        obtain ⟨s₀, h0, h1⟩ := fillUpTo_ok_succ hs
        rcases Nat.lt_succ_iff_lt_or_eq.mp hi with hlt | rfl
        · exact ih2.mp ⟨s₀, h0⟩ i hlt hP
        · obtain ⟨-, a2, -⟩ := applyFill_fresh (by omega : i < fills.length) hm
            (fillUpTo_row i h0)
          rw [← step s₀ h0 hP]
          by_contra hc
          rw [(a2 hP (fresh s₀ h0 hP)).1 (by omega)] at h1; cases h1
      · intro H
        obtain ⟨s₀, h0⟩ := ih2.mpr fun i hi => H i (Nat.lt_succ_of_lt hi)
        obtain ⟨a1, a2, a3⟩ := applyFill_fresh (by omega : n < fills.length) hm
          (fillUpTo_row n h0)
        rw [fillUpTo_succ, h0]
        simp only [Except.bind]
        by_cases hF : FillsFully fills e n
        · exact (a1 hF).imp fun _ h => h.1
        · by_cases hP : FillsPartly fills e n
          · refine ((a2 hP (fresh s₀ h0 hP)).2 ?_).imp fun _ h => h.1
            rw [step s₀ h0 hP]
            exact H n (Nat.lt_succ_self _) hP
          · exact ⟨s₀, a3 hF hP⟩

theorem expectedFills_sorted (fills : List (FillData K)) (e n : ℕ) :
    (expectedFills fills e n).Pairwise (· < ·) ∧ ∀ i ∈ expectedFills fills e n, i < n := by
  induction n with
  | zero => simp [expectedFills]
  | succ n ih =>
    unfold expectedFills
    split_ifs
    · simp
    · refine ⟨?_, ?_⟩
      · rw [List.pairwise_append]
        exact ⟨ih.1, by simp, fun a ha b hb => by
          rw [List.mem_singleton.mp hb]; exact ih.2 a ha⟩
      · intro i hi
        rcases List.mem_append.mp hi with h | h
        · exact Nat.lt_succ_of_lt (ih.2 i h)
        · rw [List.mem_singleton.mp h]; exact Nat.lt_succ_self _
    · exact ⟨ih.1, fun i hi => Nat.lt_succ_of_lt (ih.2 i hi)⟩

theorem expectedFills_after (fills : List (FillData K)) (e f n : ℕ) (hf : FillsFully fills e f)
    (hlast : ∀ i, f < i → i < n → ¬ FillsFully fills e i) (hfn : f < n) :
    expectedFills fills e n =
      f :: (List.range n).filter fun i => decide (f < i ∧ FillsPartly fills e i) := by
  induction n with
  | zero => omega
  | succ n ih =>
    unfold expectedFills
    rcases Nat.lt_succ_iff_lt_or_eq.mp hfn with hlt | rfl
    · rw [if_neg (hlast n hlt (Nat.lt_succ_self _)), ih (fun i h1 h2 => hlast i h1 (by omega)) hlt,
        List.range_succ, List.filter_append]
      split_ifs with hP
      · simp [hP, hlt]
      · simp [hP]
    · rw [if_pos hf]
      congr 1
      symm
      rw [List.filter_eq_nil_iff]
      intro i hi
      have := List.mem_range.mp hi
      simp; omega

theorem expectedFills_length (fills : List (FillData K)) (e n : ℕ) :
    (expectedFills fills e n).length ≤ n := by
  induction n with
  | zero => simp [expectedFills]
  | succ n ih =>
    unfold expectedFills
    split_ifs
    · simp
    · simp; omega
    · omega

theorem fresh_of_distinct {fills : List (FillData K)} (hd : DistinctMaterials fills) {e i : ℕ}
    (hi : i < fills.length) : ¬ Reused fills e i := by
  rintro ⟨a, ha, hm⟩
  have := expectedFills_length fills e i
  have hal : a < fills.length := by omega
  rw [List.getElem?_eq_getElem hal, List.getElem?_eq_getElem hi] at hm
  have := (List.Nodup.getElem_inj_iff hd (i := a) (j := i)
    (hi := by simpa using hal) (hj := by simpa using hi)).mp (by simpa using hm)
  omega

/-- After the last complete fill, no partial fill reuses a material in the sense of `Reused`. -/
def FreshUpTo (fills : List (FillData K)) (e n : ℕ) : Prop :=
  ∀ i < n, FillsPartly fills e i → (∀ j, i < j → j < n → ¬ FillsFully fills e j) → ¬ Reused fills e i

theorem fillUpTo_exact {fills : List (FillData K)} {maxMats e : ℕ} (n : ℕ)
    (hn : n ≤ fills.length) {s : ElemFill K} (h : fillUpTo fills maxMats e n = .ok s) :
    (FreshUpTo fills e n ∧ s.ids = (expectedFills fills e n).map some) ∨
      (¬ FreshUpTo fills e n ∧ s.num < (expectedFills fills e n).length) := by
  induction n generalizing s with
  | zero =>
    left
    have : s = ElemFill.init := by simp [fillUpTo] at h; cases h; rfl
    subst this
    exact ⟨fun i hi => absurd hi (Nat.not_lt_zero _), by simp [ElemFill.ids, ElemFill.init, expectedFills]⟩
  | succ n ih =>
    obtain ⟨s₀, h0, h1⟩ := fillUpTo_ok_succ h
    have hi := ih (by omega) h0
    have hf : fills[n]? = some fills[n] := List.getElem?_eq_getElem (by omega)
    by_cases hF : FillsFully fills e n
    · left
      constructor
      · intro i hi hP hl
        rcases Nat.lt_succ_iff_lt_or_eq.mp hi with hlt | rfl
        · exact absurd hF (hl n hlt (Nat.lt_succ_self _))
        · exact absurd hF (not_fully_of_partly hP)
      · unfold expectedFills
        rw [if_pos hF]
        obtain ⟨f, hf', hc, hv⟩ := hF
        rw [hf] at hf'
        cases hf'
        unfold applyFill at h1
        simp only [hf, hc, isPartial_iff, not_lt.mpr hv, if_true, if_false] at h1
        split_ifs at h1
        cases h1
        simpa using ids_full s₀ n 1 1
    · have hfresh : ∀ P : Prop, (FillsPartly fills e n → ¬ Reused fills e n → P) →
          (¬ FillsPartly fills e n → P) → (FillsPartly fills e n → Reused fills e n → P) → P := by
        intro P a b c
        by_cases h1 : FillsPartly fills e n
        · by_cases h2 : Reused fills e n
          · exact c h1 h2
          · exact a h1 h2
        · exact b h1
      have hdown : FreshUpTo fills e (n + 1) → FreshUpTo fills e n := by
        intro hc i hi hP hl
        refine hc i (by omega) hP fun j h1 h2 => ?_
        rcases Nat.lt_succ_iff_lt_or_eq.mp h2 with hlt | rfl
        · exact hl j h1 hlt
        · exact hF
      have hup : FreshUpTo fills e n → (FillsPartly fills e n → ¬ Reused fills e n) →
          FreshUpTo fills e (n + 1) := by
        intro hc hr i hi hP hl
        rcases Nat.lt_succ_iff_lt_or_eq.mp hi with hlt | rfl
        · exact hc i hlt hP fun j h1 h2 => hl j h1 (by omega)
        · exact hr hP
      by_cases hP : FillsPartly fills e n
      · have hexp : expectedFills fills e (n + 1) = expectedFills fills e n ++ [n] := by
          show (if FillsFully fills e n then _ else _) = _
          rw [if_neg hF, if_pos hP]
        obtain ⟨f, hf', hc, hv⟩ := id hP
        rw [hf] at hf'
        cases hf'
        unfold applyFill at h1
        simp only [hf, hc, isPartial_iff, hv, if_true] at h1
        unfold appendFill at h1
        split_ifs at h1 with g1 g2 g3
        all_goals (simp only [] at h1; split_ifs at h1 with g4)
        all_goals cases h1
        · -- stored in an existing slot
          obtain ⟨a, ha⟩ := Option.isSome_iff_exists.mp g3
          right
          rw [hexp, List.length_append, List.length_singleton]
          rcases hi with ⟨hc1, hids⟩ | ⟨hc1, hlt⟩
          · have hnum : s₀.num = (expectedFills fills e n).length := by
              simpa [ElemFill.ids] using congrArg List.length hids
            refine ⟨fun hc2 => hc2 n (Nat.lt_succ_self _) hP (fun j h1 h2 => absurd h1 (by omega))
              ⟨a, hnum ▸ (lastMatch_lt ha).1, ?_⟩, ?_⟩
            · rw [(lastMatch_lt ha).2, hf]; rfl
            · show s₀.num < _
              omega
          · exact ⟨fun hc2 => hc1 (hdown hc2), by show s₀.num < _; omega⟩
        · -- stored in a new slot
          have hnone : lastMatch fills fills[n].materialId s₀.num = none := by simpa using g3
          rcases hi with ⟨hc1, hids⟩ | ⟨hc1, hlt⟩
          · left
            have hnum : s₀.num = (expectedFills fills e n).length := by
              simpa [ElemFill.ids] using congrArg List.length hids
            refine ⟨hup hc1 fun _ => ?_, ?_⟩
            · rintro ⟨a, ha, hm⟩
              rw [← hnum] at ha
              rw [hf] at hm
              exact lastMatch_eq_none.mp hnone a ha hm
            · rw [hexp, hnone]
              show (s₀.store s₀.num n (clampFrac (fills[n].vfrac e)) 1 (s₀.num + 1)).ids = _
              rw [ids_append, hids]
              simp
          · right
            refine ⟨fun hc2 => hc1 (hdown hc2), ?_⟩
            rw [hexp, List.length_append, List.length_singleton]
            show s₀.num + 1 < _
            omega
      · have hexp : expectedFills fills e (n + 1) = expectedFills fills e n := by
          show (if FillsFully fills e n then _ else _) = _
          rw [if_neg hF, if_neg hP]
        have hs : s = s₀ := by
          unfold applyFill at h1
          simp only [hf] at h1
          by_cases hc : fills[n].covers e = true
          · rcases lt_or_ge (fills[n].vfrac e) (1 - 1 / 10 ^ 8) with hv | hv
            · exact absurd ⟨fills[n], hf, hc, hv⟩ hP
            · exact absurd ⟨fills[n], hf, hc, hv⟩ hF
          · simp [hc] at h1; exact h1.symm
        subst hs
        rw [hexp]
        rcases hi with ⟨hc1, hids⟩ | ⟨hc1, hlt⟩
        · exact Or.inl ⟨hup hc1 fun h => absurd h hP, hids⟩
        · exact Or.inr ⟨fun hc2 => hc1 (hdown hc2), hlt⟩

/-! ### C17 -/

/-- **C17**: an element ends up with the last fill `f` that fills it completely in its first slot,
followed by exactly the later partial fills that select it, in the order of the input, if and only if
no such partial fill `i` has the material of one of the first `k` fills of the input, where `k` is the
number of fills the element should hold before it.  (Nothing is assumed of the materials.) -/
theorem C17_last_full_fill_then_partials (fills : List (FillData K)) (maxMats e : ℕ)
    (s : ElemFill K) (h : fillElem fills maxMats e = .ok s) (f : ℕ) (hf : FillsFully fills e f)
    (hlast : ∀ i, f < i → ¬ FillsFully fills e i) :
    (List.range s.num).map s.fillIds =
      (f :: (List.range fills.length).filter fun i => decide (f < i ∧ FillsPartly fills e i)).map
        some ↔
      ∀ i, f < i → FillsPartly fills e i → ∀ a,
        a < 1 + ((List.range i).filter fun j => decide (f < j ∧ FillsPartly fills e j)).length →
          fills[a]?.map FillData.materialId ≠ fills[i]?.map FillData.materialId := by
  have hfl : f < fills.length := by
    obtain ⟨g, hg, -⟩ := hf
    exact (List.getElem?_eq_some_iff.mp hg).1
  have h1 := fillUpTo_exact fills.length le_rfl h
  rw [expectedFills_after fills e f _ hf (fun i hi _ => hlast i hi) hfl] at h1
  have hexp : ∀ i, f < i → (expectedFills fills e i).length =
      1 + ((List.range i).filter fun j => decide (f < j ∧ FillsPartly fills e j)).length := by
    intro i hi
    rw [expectedFills_after fills e f i hf (fun j hj _ => hlast j hj) hi, List.length_cons, add_comm]
  have hfresh : FreshUpTo fills e fills.length ↔ ∀ i, f < i → FillsPartly fills e i → ∀ a,
        a < 1 + ((List.range i).filter fun j => decide (f < j ∧ FillsPartly fills e j)).length →
          fills[a]?.map FillData.materialId ≠ fills[i]?.map FillData.materialId := by
    constructor
    · intro H i hi hP a ha hm
      have hil : i < fills.length := by
        obtain ⟨g, hg, -⟩ := hP
        exact (List.getElem?_eq_some_iff.mp hg).1
      exact H i hil hP (fun j hj _ => hlast j (by omega)) ⟨a, by rw [hexp i hi]; exact ha, hm⟩
    · rintro H i hi hP hl ⟨a, ha, hm⟩
      rcases lt_trichotomy f i with hlt | rfl | hgt
      · exact H i hlt hP a (by rw [← hexp i hlt]; exact ha) hm
      · exact not_fully_of_partly hP hf
      · exact hl f hgt hfl hf
  rw [← hfresh]
  rcases h1 with ⟨h1, h2⟩ | ⟨h1, h2⟩
  · exact ⟨fun _ => h1, fun _ => h2⟩
  · refine ⟨fun h3 => ?_, fun h3 => absurd h3 h1⟩
    have := congrArg List.length h3
    simp only [List.length_map, List.length_range] at this
    omega

/-- **C17**: with pairwise different materials the condition always holds, so the last complete fill
comes first, with volume fraction one, followed by the later partial fills. -/
theorem C17_different_materials (fills : List (FillData K))
    (hd : DistinctMaterials fills) (maxMats e : ℕ) (s : ElemFill K)
    (h : fillElem fills maxMats e = .ok s) (f : ℕ) (hf : FillsFully fills e f)
    (hlast : ∀ i, f < i → ¬ FillsFully fills e i) :
    (List.range s.num).map s.fillIds =
      (f :: (List.range fills.length).filter fun i => decide (f < i ∧ FillsPartly fills e i)).map
        some ∧ s.volfrac 0 = some 1 ∧ s.geo 0 = some 1 := by
  have h1 := (C17_last_full_fill_then_partials fills maxMats e s h f hf hlast).mpr (by
    intro i hi hP a ha hm
    have hil : i < fills.length := by
      obtain ⟨g, hg, -⟩ := hP
      exact (List.getElem?_eq_some_iff.mp hg).1
    refine fresh_of_distinct hd (e := e) hil ⟨a, ?_, hm⟩
    rw [expectedFills_after fills e f i hf (fun j hj _ => hlast j hj) hi, List.length_cons, add_comm]
    exact ha)
  refine ⟨h1, ?_⟩
  have hr := fillUpTo_row fills.length h
  have hpos : 0 < s.num := by
    have := congrArg List.length h1
    simp at this
    omega
  obtain ⟨j, g, -, hg, hc, h2, h3, h4⟩ := hr.3 0 hpos
  have h0 : s.fillIds 0 = some f := by
    have := congrArg (fun l => l[0]?) h1
    simpa [hpos] using this
  rw [h0] at h2
  cases h2
  obtain ⟨g', hg', -, hv⟩ := hf
  rw [hg] at hg'
  cases hg'
  rw [if_neg (not_lt.mpr hv)] at h4
  exact ⟨h4, h3⟩

/-- **C17** without any condition on the materials: an element whose last selecting fill fills it
completely holds that fill only, with volume fraction one, whatever was painted before. -/
theorem C17_full_fill_overwrites (fills : List (FillData K)) (maxMats e : ℕ)
    (s : ElemFill K) (h : fillElem fills maxMats e = .ok s) (f : ℕ) (hf : FillsFully fills e f)
    (hlast : ∀ i g, f < i → fills[i]? = some g → g.covers e = false) :
    s.num = 1 ∧ s.fillIds 0 = some f ∧ s.volfrac 0 = some 1 ∧ s.geo 0 = some 1 := by
  obtain ⟨g, hg, hc, hv⟩ := hf
  have hfl : f < fills.length := (List.getElem?_eq_some_iff.mp hg).1
  suffices H : ∀ n, f < n → n ≤ fills.length → ∀ s, fillUpTo fills maxMats e n = .ok s →
      s.num = 1 ∧ s.fillIds 0 = some f ∧ s.volfrac 0 = some 1 ∧ s.geo 0 = some 1 from
    H _ hfl le_rfl s h
  intro n
  induction n with
  | zero => intro h; omega
  | succ n ih =>
    intro h1 h2 s hs
    obtain ⟨s₀, h3, h4⟩ := fillUpTo_ok_succ hs
    rcases Nat.lt_succ_iff_lt_or_eq.mp h1 with hlt | rfl
    · have hcov := hlast n fills[n] hlt (List.getElem?_eq_getElem (by omega))
      unfold applyFill at h4
      rw [List.getElem?_eq_getElem (by omega)] at h4
      simp only [hcov, Bool.false_eq_true, if_false] at h4
      cases h4
      exact ih hlt (by omega) _ h3
    · unfold applyFill at h4
      simp only [hg, hc, if_true, isPartial_iff, not_lt.mpr hv, if_false] at h4
      split_ifs at h4
      cases h4
      obtain ⟨e1, e2, e3⟩ := store_at s₀ 0 f (1 : K) 1 1
      exact ⟨rfl, e1, e2, e3⟩

/-- An element that no fill selects is left empty. -/
theorem C17_unselected (fills : List (FillData K)) (maxMats e : ℕ)
    (hcov : ∀ f ∈ fills, f.covers e = false) : fillElem fills maxMats e = .ok ElemFill.init := by
  suffices H : ∀ n ≤ fills.length, fillUpTo fills maxMats e n = .ok ElemFill.init from H _ le_rfl
  intro n hn
  induction n with
  | zero => rfl
  | succ n ih =>
    rw [fillUpTo_succ, ih (by omega)]
    simp only [Except.bind]
    unfold applyFill
    rw [List.getElem?_eq_getElem (by omega)]
    simp [hcov _ (List.getElem_mem _)]

/-- If no partial fill reuses the material of an early fill (in particular with different materials)
the run aborts in exactly one case: a partial fill selects an element that already holds the maximum
number of fills. -/
theorem C18_abort_iff (fills : List (FillData K)) (maxMats e : ℕ) (hm : 0 < maxMats)
    (hd : ∀ i < fills.length, FillsPartly fills e i → ¬ Reused fills e i) :
    fillElem fills maxMats e = .error .tooManyMaterials ↔
      ∃ i < fills.length, FillsPartly fills e i ∧ maxMats ≤ (expectedFills fills e i).length := by
  have h := (fillUpTo_fresh hm (e := e) fills.length le_rfl hd).2
  have hb := C18_in_bounds fills maxMats e hm
  constructor
  · intro herr
    by_contra hc
    push Not at hc
    obtain ⟨s, hs⟩ := h.mpr fun i hi hP => hc i hi hP
    have : fillElem fills maxMats e = .ok s := hs
    rw [herr] at this
    cases this
  · rintro ⟨i, hi, hP, hlen⟩
    cases hr : fillElem fills maxMats e with
    | error x => cases x; · rfl
                 · exact absurd hr hb
    | ok s => exact absurd (h.mp ⟨s, hr⟩ i hi hP) (by omega)

/-- **C18**, no repetition, when the fills use pairwise different materials. -/
theorem C18_no_duplicate (fills : List (FillData K)) (hd : DistinctMaterials fills)
    (maxMats e : ℕ) (hm : 0 < maxMats) (s : ElemFill K) (h : fillElem fills maxMats e = .ok s) :
    (matsOf fills s).Nodup ∧ none ∉ matsOf fills s := by
  have h1 := (fillUpTo_fresh hm (e := e) fills.length le_rfl
    fun i hi _ => fresh_of_distinct hd hi).1 s h
  obtain ⟨hs, hlt⟩ := expectedFills_sorted fills e fills.length
  have h2 : matsOf fills s =
      (expectedFills fills e fills.length).map fun i => fills[i]?.map FillData.materialId := by
    have : matsOf fills s = s.ids.map fun o => o.bind fun i => fills[i]?.map FillData.materialId := by
      simp [matsOf, ElemFill.ids]
    rw [this, h1]
    simp [Function.comp_def]
  rw [h2]
  constructor
  · refine List.Nodup.map_on ?_ (hs.imp fun h => ne_of_lt h)
    intro a ha b hb hab
    have hal := hlt a ha
    have hbl := hlt b hb
    rw [List.getElem?_eq_getElem hal, List.getElem?_eq_getElem hbl] at hab
    exact (List.Nodup.getElem_inj_iff hd (hi := by simpa using hal) (hj := by simpa using hbl)).mp
      (by simpa using hab)
  · simp only [List.mem_map, not_exists, not_and]
    intro i hi
    rw [List.getElem?_eq_getElem (hlt i hi)]
    simp

end

/-! ### Where the claims fail

The material of an already stored slot is looked up with the slot number instead of the stored
fill number (region_fill.cpp:1438). -/

theorem exists_ok_of {r : Except FillError (ElemFill ℚ)} (P : ElemFill ℚ → Prop) [DecidablePred P]
    (h : (match r with | .ok s => decide (P s) | .error _ => false) = true) :
    ∃ s, r = .ok s ∧ P s := by
  cases r with
  | error => simp at h
  | ok s => exact ⟨s, rfl, by simpa using h⟩

theorem eq_error_of {r : Except FillError (ElemFill ℚ)} {x : FillError}
    (h : (match r with | .ok _ => false | .error y => decide (y = x)) = true) : r = .error x := by
  cases r with
  | ok => simp at h
  | error y => simp at h; rw [h]

/-- A fill elsewhere (material 0), then two partial fills with material 1 on the element. -/
def repeatedFills : List (FillData ℚ) :=
  [⟨0, fun _ => false, fun _ => 1⟩, ⟨1, fun _ => true, fun _ => 1 / 2⟩,
    ⟨1, fun _ => true, fun _ => 1 / 4⟩]

/-- **C18** fails in general: the element ends up with material 1 twice. -/
theorem C18_duplicate_material_fails :
    ∃ s, fillElem repeatedFills 3 7 = .ok s ∧ matsOf repeatedFills s = [some 1, some 1] := by
  exact exists_ok_of _ (by decide +kernel)

/-- Complete fill with material 0, complete fill with material 1, then half of material 0. -/
def overwrittenFills : List (FillData ℚ) :=
  [⟨0, fun _ => true, fun _ => 1⟩, ⟨1, fun _ => true, fun _ => 1⟩,
    ⟨0, fun _ => true, fun _ => 1 / 2⟩]

/-- **C17** fails in general: the last complete fill (fill 1, material 1) is lost; a partial fill
has replaced it although its material was not in the element. -/
theorem C17_partial_fill_replaces_full_fails :
    ∃ s, fillElem overwrittenFills 3 0 = .ok s ∧ FillsFully overwrittenFills 0 1 ∧
      s.num = 1 ∧ s.fillIds 0 = some 2 ∧ s.volfrac 0 = some (1 / 2) := by
  exact exists_ok_of _ (by decide +kernel)

/-- Painting again a material that is already in a full element aborts although no additional
slot is needed. -/
theorem C18_spurious_abort :
    fillElem (K := ℚ) [⟨0, fun _ => true, fun _ => 1 / 2⟩, ⟨0, fun _ => true, fun _ => 1 / 4⟩] 1 0 =
      .error .tooManyMaterials :=
  eq_error_of (by decide +kernel)

/-- The volume fractions of an element need not add up to one. -/
theorem C18_volume_fractions_may_exceed_one :
    ∃ s, fillElem (K := ℚ) [⟨0, fun _ => true, fun _ => 1⟩, ⟨1, fun _ => true, fun _ => 1 / 2⟩] 3 0 =
        .ok s ∧ s.num = 2 ∧ s.volfrac 0 = some 1 ∧ s.volfrac 1 = some (1 / 2) := by
  exact exists_ok_of _ (by decide +kernel)

/-- Hypotheses of the C17 and C18 theorems are met by a background, an inclusion and a partial
third material. -/
def demoFills : List (FillData ℚ) :=
  [⟨2, fun _ => true, fun _ => 1⟩, ⟨0, fun e => e < 3, fun _ => 1⟩, ⟨1, fun e => e = 2, fun _ => 1 / 3⟩]

example : ∀ i < demoFills.length, FillsPartly demoFills 2 i → ¬ Reused demoFills 2 i :=
  fun _ hi _ => fresh_of_distinct (by unfold DistinctMaterials; decide) hi
example : DistinctMaterials demoFills := by unfold DistinctMaterials; decide
example : FillsFully demoFills 2 1 := by decide +kernel
example : ∃ s, fillElem demoFills 2 2 = .ok s ∧ s.ids = [some 1, some 2] := by
  exact exists_ok_of _ (by decide +kernel)
example : fillElem demoFills 1 2 = .error .tooManyMaterials := eq_error_of (by decide +kernel)

end Fierro
