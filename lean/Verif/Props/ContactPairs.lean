import Verif.Model.ContactPairs
import Mathlib.Algebra.Order.Field.Basic
import Mathlib.Data.List.Nodup
import Mathlib.Data.Finset.Card
import Mathlib.Data.Finset.Dedup
import Mathlib.Data.Rat.Defs
import Mathlib.Algebra.Order.Ring.Rat
import Mathlib.Tactic.Linarith
import Mathlib.Tactic.Ring
import Mathlib.Tactic.FieldSimp
import Mathlib.Tactic.Positivity

/-!
# C82: pairs of penetrating nodes and patches
-/

namespace Fierro
open Contact

namespace Contact

theorem countLoop_eq (elemOf : ℕ → ℕ) (seen row : List ℕ) :
    countLoop elemOf seen row = ((row.map elemOf).toFinset \ seen.toFinset).card := by
  induction row generalizing seen with
  | nil => simp [countLoop]
  | cons p ps ih =>
    simp only [countLoop, ih, List.map_cons, List.toFinset_cons, List.toFinset_append,
      List.toFinset_nil]
    by_cases h : elemOf p ∈ seen
    · rw [if_pos h, zero_add]
      congr 1
      ext y
      simp only [Finset.mem_sdiff, List.mem_toFinset, Finset.mem_insert, Finset.mem_union]
      constructor
      · rintro ⟨a, b⟩
        exact ⟨Or.inr a, fun c => b (Or.inl c)⟩
      · rintro ⟨a, b⟩
        have hne : y ≠ elemOf p := fun e => b (e ▸ h)
        refine ⟨a.resolve_left hne, ?_⟩
        rintro (c | c)
        · exact b c
        · simp [hne] at c
    · rw [if_neg h]
      have : (insert (elemOf p) (ps.map elemOf).toFinset) \ seen.toFinset
          = insert (elemOf p) ((ps.map elemOf).toFinset \ (seen.toFinset ∪ insert (elemOf p) ∅)) := by
        ext y
        simp only [Finset.mem_sdiff, List.mem_toFinset, Finset.mem_insert, Finset.mem_union,
          Finset.notMem_empty, or_false]
        constructor
        · rintro ⟨a | a, b⟩
          · exact Or.inl a
          · by_cases e : y = elemOf p
            · exact Or.inl e
            · exact Or.inr ⟨a, by rintro (c | c); exacts [b c, e c]⟩
        · rintro (a | ⟨a, b⟩)
          · exact ⟨Or.inl a, a ▸ h⟩
          · exact ⟨Or.inr a, fun c => b (Or.inl c)⟩
      rw [this, Finset.card_insert_of_notMem, add_comm]
      simp

theorem nextElem_some (elemOf : ℕ → ℕ) (row : List ℕ) (found : List ℕ)
    (h : found.toFinset.card < (row.map elemOf).toFinset.card) :
    ∃ e, nextElem elemOf row (found.map some) = some e ∧ e ∉ found ∧ e ∈ row.map elemOf := by
  have hex : ∃ p ∈ row, elemOf p ∉ found := by
    by_contra hc
    push Not at hc
    have : (row.map elemOf).toFinset ⊆ found.toFinset := by
      intro y hy
      simp only [List.mem_toFinset, List.mem_map] at hy ⊢
      obtain ⟨p, hp, rfl⟩ := hy
      exact hc p hp
    exact absurd (Finset.card_le_card this) (by omega)
  unfold nextElem
  cases hf : row.find? fun p => some (elemOf p) ∉ found.map some with
  | none =>
    rw [List.find?_eq_none] at hf
    obtain ⟨p, hp, hn⟩ := hex
    exact absurd (by simpa using hn) (hf p hp)
  | some p =>
    have h1 := List.find?_some hf
    have h2 := List.mem_of_find?_eq_some hf
    refine ⟨elemOf p, rfl, ?_, List.mem_map.mpr ⟨p, h2, rfl⟩⟩
    simpa using h1

theorem fill_inv (elemOf : ℕ → ℕ) (row : List ℕ) (n : ℕ) (hn : n ≤ (row.map elemOf).toFinset.card) :
    ∃ l : List ℕ, (List.range n).foldl (fun found _ => found ++ [nextElem elemOf row found]) []
        = l.map some ∧ l.length = n ∧ l.Nodup ∧ ∀ e ∈ l, e ∈ row.map elemOf := by
  induction n with
  | zero => exact ⟨[], rfl, rfl, List.nodup_nil, by simp⟩
  | succ n ih =>
    obtain ⟨l, h1, h2, h3, h4⟩ := ih (by omega)
    rw [List.range_succ, List.foldl_append, h1, List.foldl_cons, List.foldl_nil]
    obtain ⟨e, he1, he2, he3⟩ := nextElem_some elemOf row l (by
      have := List.toFinset_card_of_nodup h3; omega)
    refine ⟨l ++ [e], ?_, by simp [h2], ?_, ?_⟩
    · rw [he1]; simp
    · rw [List.nodup_append]
      refine ⟨h3, List.nodup_singleton e, ?_⟩
      intro a ha b hb
      rw [List.mem_singleton] at hb
      rintro rfl
      exact he2 (hb ▸ ha)
    · intro y hy
      rcases List.mem_append.mp hy with hy | hy
      · exact h4 y hy
      · rw [List.mem_singleton] at hy; exact hy ▸ he3

end Contact

/-- C82: the elements a node is paired with are exactly the elements of the patches it was found
behind, each once. -/
theorem C82_elements (elemOf : ℕ → ℕ) (row : List ℕ) (h : row ≠ []) :
    ∃ l : List ℕ, elemsPenetrated elemOf row = l.map some ∧ l.Nodup ∧
      ∀ e, e ∈ l ↔ ∃ p ∈ row, elemOf p = e := by
  have hc : elemCount elemOf row = (row.map elemOf).toFinset.card := by
    unfold elemCount
    rw [countLoop_eq]
    simp only [List.toFinset_nil, Finset.sdiff_empty]
    rw [if_neg]
    rw [Finset.card_eq_zero, List.toFinset_eq_empty_iff, List.map_eq_nil_iff]
    exact h
  obtain ⟨l, h1, h2, h3, h4⟩ := fill_inv elemOf row _ (le_refl _)
  refine ⟨l, ?_, h3, ?_⟩
  · unfold elemsPenetrated
    rw [hc]; exact h1
  · intro e
    have hsub : l.toFinset ⊆ (row.map elemOf).toFinset := by
      intro y hy
      rw [List.mem_toFinset] at hy ⊢
      exact h4 y hy
    have heq := Finset.eq_of_subset_of_card_le hsub (by
      rw [List.toFinset_card_of_nodup h3, h2])
    rw [← List.mem_toFinset, heq, List.mem_toFinset, List.mem_map]

/-- C82: a node found behind no patch has one empty column. -/
theorem C82_no_elements (elemOf : ℕ → ℕ) : elemsPenetrated elemOf [] = [none] := rfl

section choose
variable {K : Type} [Field K] [LinearOrder K] [IsStrictOrderedRing K]

/-- A patch that qualifies for element `e` without preload: the node is behind it, it faces the body
of the node and lies closer than `10¹⁶`. -/
def Qualifies (elemOf : ℕ → ℕ) (align dist : ℕ → K) (row : List ℕ) (e p : ℕ) : Prop :=
  p ∈ row ∧ elemOf p = e ∧ -(1 / 100) < align p ∧ dist p < 10 ^ 16

namespace Contact
theorem search_inv (elemOf : ℕ → ℕ) (align dist : ℕ → K) (e : ℕ) (row : List ℕ) (s : Search K) :
    let r := row.foldl (searchStep elemOf align dist (some e)) s
    r.best ≤ s.best ∧
    (∀ p ∈ row, elemOf p = e → -(1 / 100) < align p → r.best ≤ dist p) ∧
    (r = s ∨ ∃ p ∈ row, elemOf p = e ∧ -(1 / 100) < align p ∧ dist p < s.best ∧
      r = ⟨dist p, some p⟩) := by
  induction row generalizing s with
  | nil => exact ⟨le_refl _, by simp, Or.inl rfl⟩
  | cons q ps ih =>
    simp only [List.foldl_cons]
    obtain ⟨h1, h2, h3⟩ := ih (searchStep elemOf align dist (some e) s q)
    have hs : (searchStep elemOf align dist (some e) s q).best ≤ s.best := by
      unfold searchStep
      split_ifs with h
      · exact h.2.2.le
      · exact le_refl _
    refine ⟨h1.trans hs, ?_, ?_⟩
    · intro p hp he ha
      rcases List.mem_cons.mp hp with rfl | hp
      · refine h1.trans ?_
        unfold searchStep
        split_ifs with h
        · exact le_refl _
        · by_contra hlt
          exact h ⟨by rw [he], ha, lt_of_not_ge hlt⟩
      · exact h2 p hp he ha
    · rcases h3 with h3 | ⟨p, hp, a, b, c, d⟩
      · by_cases h : some (elemOf q) = some e ∧ -(1 / 100) < align q ∧ dist q < s.best
        · right
          refine ⟨q, List.mem_cons_self, Option.some.inj h.1, h.2.1, h.2.2, ?_⟩
          rw [h3]; unfold searchStep; rw [if_pos h]
        · left
          rw [h3]; unfold searchStep; rw [if_neg h]
      · right
        exact ⟨p, List.mem_cons_of_mem _ hp, a, b, lt_of_lt_of_le c hs, d⟩

theorem preload_inv (elemOf : ℕ → ℕ) (align : ℕ → K) (e : ℕ) (row : List ℕ) (s : Search K) :
    let r := row.foldl (preloadStep elemOf align (some e)) s
    s.best ≤ r.best ∧
    (∀ p ∈ row, elemOf p = e → align p ≤ r.best) ∧
    (r = s ∨ ∃ p ∈ row, elemOf p = e ∧ s.best < align p ∧ r = ⟨align p, some p⟩) := by
  induction row generalizing s with
  | nil => exact ⟨le_refl _, by simp, Or.inl rfl⟩
  | cons q ps ih =>
    simp only [List.foldl_cons]
    obtain ⟨h1, h2, h3⟩ := ih (preloadStep elemOf align (some e) s q)
    have hs : s.best ≤ (preloadStep elemOf align (some e) s q).best := by
      unfold preloadStep
      split_ifs with h
      · exact h.2.le
      · exact le_refl _
    refine ⟨hs.trans h1, ?_, ?_⟩
    · intro p hp he
      rcases List.mem_cons.mp hp with rfl | hp
      · refine le_trans ?_ h1
        unfold preloadStep
        split_ifs with h
        · exact le_refl _
        · by_contra hlt
          exact h ⟨by rw [he], lt_of_not_ge hlt⟩
      · exact h2 p hp he
    · rcases h3 with h3 | ⟨p, hp, a, b, d⟩
      · by_cases h : some (elemOf q) = some e ∧ s.best < align q
        · right
          refine ⟨q, List.mem_cons_self, Option.some.inj h.1, h.2, ?_⟩
          rw [h3]; unfold preloadStep; rw [if_pos h]
        · left
          rw [h3]; unfold preloadStep; rw [if_neg h]
      · right
        exact ⟨p, List.mem_cons_of_mem _ hp, a, lt_of_le_of_lt hs b, d⟩
end Contact

/-- C82: when some patch of the element qualifies, the node is paired with a qualifying patch of that
element, and with the nearest of them, whatever was chosen for other elements before. -/
theorem C82_nearest (elemOf : ℕ → ℕ) (align dist : ℕ → K) (row : List ℕ) (e : ℕ) (before : Option ℕ)
    (h : ∃ p, Qualifies elemOf align dist row e p) :
    ∃ p, chosenPatch elemOf align dist false row (some e) before = some p ∧
      Qualifies elemOf align dist row e p ∧
      ∀ q, Qualifies elemOf align dist row e q → dist p ≤ dist q := by
  obtain ⟨h1, h2, h3⟩ := search_inv elemOf align dist e row ⟨10 ^ 16, before⟩
  obtain ⟨q, hq1, hq2, hq3, hq4⟩ := h
  have hb := h2 q hq1 hq2 hq3
  rcases h3 with h3 | ⟨p, hp1, hp2, hp3, hp4, hp5⟩
  · rw [h3] at hb
    exact absurd hq4 (not_lt.mpr hb)
  · refine ⟨p, ?_, ⟨hp1, hp2, hp3, hp4⟩, ?_⟩
    · simp only [chosenPatch, Bool.false_eq_true, if_false]
      rw [hp5]
    · intro r hr
      have := h2 r hr.1 hr.2.1 hr.2.2.1
      rw [hp5] at this
      exact this

/-- C82: in preload the patch most opposed to the body of the node is taken. -/
theorem C82_preload (elemOf : ℕ → ℕ) (align dist : ℕ → K) (row : List ℕ) (e : ℕ) (before : Option ℕ)
    (h : ∃ p ∈ row, elemOf p = e ∧ -1 < align p) :
    ∃ p ∈ row, chosenPatch elemOf align dist true row (some e) before = some p ∧ elemOf p = e ∧
      ∀ q ∈ row, elemOf q = e → align q ≤ align p := by
  obtain ⟨h1, h2, h3⟩ := preload_inv elemOf align e row ⟨-1, before⟩
  obtain ⟨q, hq1, hq2, hq3⟩ := h
  have hb := h2 q hq1 hq2
  rcases h3 with h3 | ⟨p, hp1, hp2, hp3, hp5⟩
  · rw [h3] at hb
    exact absurd hq3 (not_lt.mpr hb)
  · refine ⟨p, hp1, ?_, hp2, ?_⟩
    · simp only [chosenPatch, if_true]
      rw [hp5]
    · intro r hr he
      have := h2 r hr he
      rw [hp5] at this
      exact this

/-- C82: when no patch of the element qualifies, the choice of the element before stays. -/
theorem C82_unchosen (elemOf : ℕ → ℕ) (align dist : ℕ → K) (row : List ℕ) (e : ℕ) (before : Option ℕ)
    (h : ¬ ∃ p, Qualifies elemOf align dist row e p) :
    chosenPatch elemOf align dist false row (some e) before = before := by
  obtain ⟨h1, h2, h3⟩ := search_inv elemOf align dist e row ⟨10 ^ 16, before⟩
  simp only [chosenPatch, Bool.false_eq_true, if_false]
  rcases h3 with h3 | ⟨p, a, b, c, d, -⟩
  · rw [h3]
  · exact absurd ⟨p, a, b, c, d⟩ h

/-- C82: every element with a qualifying patch gives the node one pair with the nearest qualifying
patch, and different elements give different patches. -/
theorem C82_pairs (elemOf : ℕ → ℕ) (align dist : ℕ → K) (row : List ℕ) (before : Option ℕ)
    (els : List ℕ) (hnd : els.Nodup) (h : ∀ e ∈ els, ∃ p, Qualifies elemOf align dist row e p) :
    ∃ ps : List ℕ, nodePairs elemOf align dist false row before (els.map some) = ps.map some ∧
      ps.map elemOf = els ∧ ps.Nodup ∧
      ∀ p ∈ ps, Qualifies elemOf align dist row (elemOf p) p ∧
        ∀ q, Qualifies elemOf align dist row (elemOf p) q → dist p ≤ dist q := by
  induction els generalizing before with
  | nil => exact ⟨[], rfl, rfl, List.nodup_nil, by simp⟩
  | cons e es ih =>
    obtain ⟨p, hp1, hp2, hp3⟩ := C82_nearest elemOf align dist row e before (h e List.mem_cons_self)
    obtain ⟨ps, h1, h2, h3, h4⟩ := ih (some p) (List.nodup_cons.mp hnd).2
      fun e' he' => h e' (List.mem_cons_of_mem _ he')
    have hpe : elemOf p = e := hp2.2.1
    refine ⟨p :: ps, ?_, ?_, ?_, ?_⟩
    · simp only [List.map_cons, nodePairs, hp1, h1]
    · rw [List.map_cons, h2, hpe]
    · rw [List.nodup_cons]
      refine ⟨fun hm => ?_, h3⟩
      apply (List.nodup_cons.mp hnd).1
      rw [← h2, ← hpe]
      exact List.mem_map.mpr ⟨p, hm, rfl⟩
    · intro q hq
      rcases List.mem_cons.mp hq with rfl | hq
      · rw [hpe]; exact ⟨hp2, hp3⟩
      · exact h4 q hq

/-- C82, what the code does instead: the choice is not reset between elements, so a node inside two
elements of which only the first has a patch facing its body is paired twice with the same patch.
Patch 0 of element 0 faces the body of the node, patch 1 of element 1 does not. -/
theorem C82_duplicate_pair_fails :
    nodePairs (K := ℚ) id (fun p => if p = 0 then 1 else -1) (fun _ => 1) false [0, 1] none
      [some 0, some 1] = [some 0, some 0] := by
  decide +kernel

/-- C82, what the code does instead: the test whether a patch faces the body of the node divides by
the squared distance, so its outcome depends on the unit of length: any patch turned the wrong way
is accepted when lengths are multiplied by a large enough factor and rejected for a small one. -/
theorem C82_units_fails (n x c : Fin 3 → K)
    (hv : n 0 * (c 0 - x 0) + n 1 * (c 1 - x 1) + n 2 * (c 2 - x 2) < 0) :
    (∃ s : K, 0 < s ∧ -(1 / 100) < alignment n (fun i => s * x i) fun i => s * c i) ∧
    ∃ s : K, 0 < s ∧ ¬ -(1 / 100) < alignment n (fun i => s * x i) fun i => s * c i := by
  obtain ⟨A, hA⟩ : ∃ A, A = n 0 * (c 0 - x 0) + n 1 * (c 1 - x 1) + n 2 * (c 2 - x 2) := ⟨_, rfl⟩
  obtain ⟨B, hB⟩ : ∃ B, B = (c 0 - x 0) * (c 0 - x 0) + (c 1 - x 1) * (c 1 - x 1)
    + (c 2 - x 2) * (c 2 - x 2) := ⟨_, rfl⟩
  rw [← hA] at hv
  have hBn : 0 ≤ B := by
    rw [hB]
    exact add_nonneg (add_nonneg (mul_self_nonneg _) (mul_self_nonneg _)) (mul_self_nonneg _)
  have hBp : 0 < B := by
    rcases hBn.lt_or_eq with h | h
    · exact h
    · exfalso
      have h0 : c 0 - x 0 = 0 := by
        apply mul_self_eq_zero.mp
        nlinarith [mul_self_nonneg (c 0 - x 0), mul_self_nonneg (c 1 - x 1), mul_self_nonneg (c 2 - x 2)]
      have h1 : c 1 - x 1 = 0 := by
        apply mul_self_eq_zero.mp
        nlinarith [mul_self_nonneg (c 0 - x 0), mul_self_nonneg (c 1 - x 1), mul_self_nonneg (c 2 - x 2)]
      have h2 : c 2 - x 2 = 0 := by
        apply mul_self_eq_zero.mp
        nlinarith [mul_self_nonneg (c 0 - x 0), mul_self_nonneg (c 1 - x 1), mul_self_nonneg (c 2 - x 2)]
      rw [hA, h0, h1, h2] at hv
      simp at hv
  have hal : ∀ s : K, 0 < s → alignment n (fun i => s * x i) (fun i => s * c i) = A / (s * B) := by
    intro s hs
    have : (s * c 0 - s * x 0) * (s * c 0 - s * x 0) + (s * c 1 - s * x 1) * (s * c 1 - s * x 1)
        + (s * c 2 - s * x 2) * (s * c 2 - s * x 2) = s * s * B := by rw [hB]; ring
    simp only [alignment]
    rw [this, hA]
    have hs' := hs.ne'
    have hB' := hBp.ne'
    field_simp
  constructor
  · refine ⟨200 * -A / B, div_pos (by linarith) hBp, ?_⟩
    rw [hal _ (div_pos (by linarith) hBp)]
    have hB' := hBp.ne'
    have hA' := hv.ne
    have : A / (200 * -A / B * B) = -(1 / 200) := by field_simp
    rw [this]
    have : (1 : K) / 200 < 1 / 100 := by norm_num
    linarith
  · refine ⟨50 * -A / B, div_pos (by linarith) hBp, ?_⟩
    rw [hal _ (div_pos (by linarith) hBp)]
    have hB' := hBp.ne'
    have hA' := hv.ne
    have : A / (50 * -A / B * B) = -(1 / 50) := by field_simp
    rw [this]
    have : (1 : K) / 100 < 1 / 50 := by norm_num
    linarith

end choose

/-! ### Active set -/

namespace Contact
theorem activate_inner (l : List (Option ℕ)) (act : List ℕ) (n : ℕ) (h : act.Nodup) :
    let r := l.foldl (fun act c => if c.isSome then activate act n else act) act
    r.Nodup ∧ ∀ m, m ∈ r ↔ m ∈ act ∨ (m = n ∧ ∃ c ∈ l, c.isSome = true) := by
  induction l generalizing act with
  | nil => exact ⟨h, by simp⟩
  | cons c l ih =>
    simp only [List.foldl_cons]
    have ha : (activate act n).Nodup ∧ ∀ m, m ∈ activate act n ↔ m ∈ act ∨ m = n := by
      unfold activate
      split_ifs with hm
      · exact ⟨h, fun m => ⟨Or.inl, fun hh => hh.elim id fun e => e ▸ hm⟩⟩
      · refine ⟨?_, fun m => by simp⟩
        rw [List.nodup_append]
        refine ⟨h, List.nodup_singleton n, ?_⟩
        intro a ha b hb
        rw [List.mem_singleton] at hb
        rintro rfl
        exact hm (hb ▸ ha)
    cases hc : c.isSome with
    | true =>
      simp only [if_true]
      obtain ⟨h1, h2⟩ := ih _ ha.1
      refine ⟨h1, fun m => ?_⟩
      rw [h2, ha.2]
      constructor
      · rintro ((a | a) | ⟨a, -⟩)
        · exact Or.inl a
        · exact Or.inr ⟨a, c, List.mem_cons_self, hc⟩
        · exact Or.inr ⟨a, c, List.mem_cons_self, hc⟩
      · rintro (a | ⟨a, -⟩)
        · exact Or.inl (Or.inl a)
        · exact Or.inl (Or.inr a)
    | false =>
      simp only [Bool.false_eq_true, if_false]
      obtain ⟨h1, h2⟩ := ih _ h
      refine ⟨h1, fun m => ?_⟩
      rw [h2]
      simp [hc]
end Contact

/-- C82: the list of active nodes has no repeats and holds exactly the nodes with a pair. -/
theorem C82_active_set (pairs : ℕ → List (Option ℕ)) (nodes : List ℕ) :
    (activeSet pairs nodes).Nodup ∧
      ∀ n, n ∈ activeSet pairs nodes ↔ n ∈ nodes ∧ ∃ p, some p ∈ pairs n := by
  have key : ∀ (nodes : List ℕ) (act : List ℕ), act.Nodup →
      let r := nodes.foldl (fun act n =>
        (pairs n).foldl (fun act c => if c.isSome then activate act n else act) act) act
      r.Nodup ∧ ∀ n, n ∈ r ↔ n ∈ act ∨ (n ∈ nodes ∧ ∃ c ∈ pairs n, c.isSome = true) := by
    intro nodes
    induction nodes with
    | nil => intro act h; exact ⟨h, by simp⟩
    | cons m ns ih =>
      intro act h
      simp only [List.foldl_cons]
      obtain ⟨h1, h2⟩ := activate_inner (pairs m) act m h
      obtain ⟨h3, h4⟩ := ih _ h1
      refine ⟨h3, fun n => ?_⟩
      rw [h4, h2]
      constructor
      · rintro ((a | ⟨a, b⟩) | ⟨a, b⟩)
        · exact Or.inl a
        · subst a; exact Or.inr ⟨List.mem_cons_self, b⟩
        · exact Or.inr ⟨List.mem_cons_of_mem _ a, b⟩
      · rintro (a | ⟨a, b⟩)
        · exact Or.inl (Or.inl a)
        · rcases List.mem_cons.mp a with rfl | a
          · exact Or.inl (Or.inr ⟨rfl, b⟩)
          · exact Or.inr ⟨a, b⟩
  obtain ⟨h1, h2⟩ := key nodes [] List.nodup_nil
  refine ⟨h1, fun n => ?_⟩
  unfold activeSet
  rw [h2]
  constructor
  · rintro (a | ⟨a, c, hc, hs⟩)
    · simp at a
    · obtain ⟨p, rfl⟩ := Option.isSome_iff_exists.mp hs
      exact ⟨a, p, hc⟩
  · rintro ⟨a, p, hp⟩
    exact Or.inr ⟨a, some p, hp, rfl⟩

/-- C82: the nodes of a patch are found in the list of boundary nodes: the entry of the map for a
node is its position in that list; a node missing from the list has no entry. -/
theorem C82_surface_map (bdy : ℕ → ℕ) (n g : ℕ) (hinj : ∀ i < n, ∀ j < n, bdy i = bdy j → i = j) :
    (∀ k, surfaceMap bdy n g = some k ↔ k < n ∧ bdy k = g) ∧
      (surfaceMap bdy n g = none ↔ ∀ k < n, bdy k ≠ g) := by
  have key : ∀ n, (∀ k, surfaceMap bdy n g = some k → k < n ∧ bdy k = g) ∧
      (surfaceMap bdy n g = none ↔ ∀ k < n, bdy k ≠ g) := by
    intro n
    induction n with
    | zero => simp [surfaceMap]
    | succ n ih =>
      have hs : surfaceMap bdy (n + 1) g = if g = bdy n then some n else surfaceMap bdy n g := by
        unfold surfaceMap
        rw [List.range_succ, List.foldl_append, List.foldl_cons, List.foldl_nil]
      rw [hs]
      split_ifs with h
      · refine ⟨fun k hk => ?_, ?_⟩
        · simp only [Option.some.injEq] at hk
          subst hk; exact ⟨by omega, h.symm⟩
        · constructor
          · intro hh; simp at hh
          · intro hh; exact absurd h.symm (hh n (by omega))
      · refine ⟨fun k hk => ?_, ?_⟩
        · obtain ⟨a, b⟩ := ih.1 k hk; exact ⟨by omega, b⟩
        · rw [ih.2]
          constructor
          · intro hh k hk
            rcases Nat.lt_succ_iff_lt_or_eq.mp hk with hk | rfl
            · exact hh k hk
            · exact fun e => h e.symm
          · intro hh k hk
            exact hh k (by omega)
  obtain ⟨h1, h2⟩ := key n
  refine ⟨fun k => ⟨h1 k, ?_⟩, h2⟩
  rintro ⟨hk, hg⟩
  cases hm : surfaceMap bdy n g with
  | none => exact absurd hg (h2.mp hm k hk)
  | some j =>
    obtain ⟨a, b⟩ := h1 j hm
    rw [hinj j a k hk (b.trans hg.symm)]

/-! ### Examples -/

/-- C82: a node behind patches 3 and 4 of element 7 and patch 5 of element 2. -/
example : elemsPenetrated (fun p => if p = 5 then 2 else 7) [3, 5, 4] = [some 7, some 2] := by decide

/-- C82: both elements have qualifying patches; the nearer patch of element 7 is patch 4. -/
example : nodePairs (K := ℚ) (fun p => if p = 5 then 2 else 7) (fun _ => 1) (fun p => 10 - p) false
    [3, 5, 4] none [some 7, some 2] = [some 4, some 5] := by decide +kernel

example : Qualifies (K := ℚ) (fun p => if p = 5 then 2 else 7) (fun _ => 1) (fun p => 10 - p)
    [3, 5, 4] 7 4 := by
  refine ⟨by decide, by decide, by norm_num, by norm_num⟩

end Fierro
