import Verif.Model.Strings
import Mathlib.Data.List.Induction
import Mathlib.Tactic.Linarith

/-!
# C32: splitting and trimming
-/

namespace Fierro

/-- `d` occurs in `s`. -/
def Occurs (d s : List Char) : Prop := d <:+: s

theorem findSub_none {d s : List Char} : findSub d s = none ↔ ¬ Occurs d s := by
  unfold Occurs
  induction s with
  | nil =>
    by_cases h : d = []
    · subst h; simp [findSub]
    · simp [findSub, h]
  | cons c s ih =>
    rw [findSub]
    by_cases h : d.isPrefixOf (c :: s)
    · rw [if_pos h]
      simp only [reduceCtorEq, false_iff, not_not]
      exact (List.isPrefixOf_iff_prefix.mp h).isInfix
    · rw [if_neg h, Option.map_eq_none_iff, ih, List.infix_cons_iff]
      rw [List.isPrefixOf_iff_prefix] at h
      simp [h]

theorem findSub_some {d s : List Char} {i : ℕ} (h : findSub d s = some i) :
    s = s.take i ++ d ++ s.drop (i + d.length) ∧ i + d.length ≤ s.length ∧
      ∀ j < i, ¬ d <+: s.drop j := by
  induction s generalizing i with
  | nil =>
    by_cases hd : d = []
    · subst hd
      simp [findSub] at h
      subst h; simp
    · simp [findSub, hd] at h
  | cons c s ih =>
    rw [findSub] at h
    by_cases hp : d.isPrefixOf (c :: s)
    · rw [if_pos hp] at h
      cases h
      obtain ⟨t, ht⟩ := List.isPrefixOf_iff_prefix.mp hp
      refine ⟨?_, ?_, by omega⟩
      · rw [← ht]; simp
      · rw [← ht]; simp
    · rw [if_neg hp, Option.map_eq_some_iff] at h
      obtain ⟨k, hk, rfl⟩ := h
      obtain ⟨h1, h2, h3⟩ := ih hk
      refine ⟨?_, by simp; omega, ?_⟩
      · rw [show k + 1 + d.length = (k + d.length) + 1 by omega]
        simp only [List.take_succ_cons, List.drop_succ_cons, List.cons_append]
        rw [← h1]
      · intro j hj
        cases j with
        | zero => simpa [List.isPrefixOf_iff_prefix] using hp
        | succ j => exact h3 j (by omega)

/-- The part before the first occurrence does not contain the delimiter. -/
theorem not_occurs_take {d s : List Char} (hd : d ≠ []) {i : ℕ} (h : findSub d s = some i) :
    ¬ Occurs d (s.take i) := by
  rintro ⟨a, b, hab⟩
  obtain ⟨h1, h2, h3⟩ := findSub_some h
  have hlen : a.length + d.length + b.length = i := by
    have := congrArg List.length hab
    simp at this; omega
  have hdl : 0 < d.length := List.length_pos_of_ne_nil hd
  apply h3 a.length (by omega)
  have : s = a ++ (d ++ (b ++ s.drop i)) := by
    calc s = s.take i ++ s.drop i := (List.take_append_drop i s).symm
      _ = _ := by rw [← hab]; simp
  rw [this, List.drop_left]
  exact List.prefix_append _ _

theorem splitFuel_enough (d : List Char) (hd : d ≠ []) (s : List Char) (fuel : ℕ)
    (hf : s.length < fuel) : ∃ ps, splitFuel d fuel s = some ps ∧
      d.intercalate ps = s ∧ ps ≠ [] ∧ ∀ p ∈ ps, ¬ Occurs d p := by
  induction fuel generalizing s with
  | zero => omega
  | succ fuel ih =>
    rw [splitFuel]
    cases h : findSub d s with
    | none =>
      exact ⟨[s], rfl, by simp [List.intercalate], by simp, by
        intro p hp; rw [List.mem_singleton.mp hp]; exact findSub_none.mp h⟩
    | some i =>
      obtain ⟨h1, h2, -⟩ := findSub_some h
      have hdl : 0 < d.length := List.length_pos_of_ne_nil hd
      obtain ⟨ps, e, e2, e3, e4⟩ := ih (s.drop (i + d.length)) (by simp; omega)
      refine ⟨s.take i :: ps, by simp [e], ?_, by simp, ?_⟩
      · obtain ⟨q, qs, rfl⟩ := List.exists_cons_of_ne_nil e3
        rw [List.intercalate_cons_cons, e2]
        exact h1.symm
      · intro p hp
        rcases List.mem_cons.mp hp with rfl | hp
        · exact not_occurs_take hd h
        · exact e4 p hp

/-- **C32**, split: for a non-empty delimiter the call returns; joining the pieces with the
delimiter gives back the input, and no piece contains the delimiter. -/
theorem C32_split (s d : List Char) (hd : d ≠ []) : ∃ ps, split s d = some ps ∧
    d.intercalate ps = s ∧ ps ≠ [] ∧ ∀ p ∈ ps, ¬ Occurs d p :=
  splitFuel_enough d hd s _ (Nat.lt_succ_self _)

theorem splitFuel_mono (d : List Char) (s : List Char) (f : ℕ) (ps : List (List Char))
    (h : splitFuel d f s = some ps) (f' : ℕ) (hf : f ≤ f') : splitFuel d f' s = some ps := by
  induction f generalizing s ps f' with
  | zero => simp [splitFuel] at h
  | succ f ih =>
    obtain ⟨f', rfl⟩ : ∃ k, f' = k + 1 := ⟨f' - 1, by omega⟩
    rw [splitFuel] at h ⊢
    cases hs : findSub d s with
    | none => rw [hs] at h; exact h
    | some i =>
      rw [hs] at h
      simp only [Option.map_eq_some_iff] at h ⊢
      obtain ⟨qs, hq, rfl⟩ := h
      exact ⟨qs, ih _ _ hq _ (by omega), rfl⟩

theorem findSub_char (c : Char) (p t : List Char) (hp : c ∉ p) :
    findSub [c] (p ++ c :: t) = some p.length := by
  induction p with
  | nil => simp [findSub]
  | cons a p ih =>
    rw [List.cons_append, findSub, if_neg, ih fun h => hp (List.mem_cons_of_mem _ h)]
    · rfl
    · simp only [List.isPrefixOf_cons_cons, List.isPrefixOf_nil_left, Bool.and_true, beq_iff_eq]
      rintro rfl; exact hp List.mem_cons_self

theorem findSub_char_none (c : Char) (p : List Char) (hp : c ∉ p) : findSub [c] p = none := by
  rw [findSub_none]
  rintro ⟨a, b, rfl⟩
  exact hp (by simp)

/-- **C32**, round trip: splitting at a single character gives back the pieces that were joined. -/
theorem C32_split_join (c : Char) (ps : List (List Char)) (hne : ps ≠ [])
    (hc : ∀ p ∈ ps, c ∉ p) : split ([c].intercalate ps) [c] = some ps := by
  obtain ⟨n, hn⟩ : ∃ n, ps.length ≤ n := ⟨_, le_rfl⟩
  suffices H : ∀ f, ([c].intercalate ps).length < f → splitFuel [c] f ([c].intercalate ps) = some ps from
    H _ (Nat.lt_succ_self _)
  clear hn
  induction ps with
  | nil => exact absurd rfl hne
  | cons p ps ih =>
    intro f hf
    obtain ⟨f, rfl⟩ : ∃ k, f = k + 1 := ⟨f - 1, by omega⟩
    by_cases hps : ps = []
    · subst hps
      have e : [c].intercalate [p] = p := by simp [List.intercalate]
      rw [e, splitFuel, findSub_char_none c p (hc p List.mem_cons_self)]
    · obtain ⟨q, qs, rfl⟩ := List.exists_cons_of_ne_nil hps
      rw [List.intercalate_cons_cons] at hf ⊢
      rw [List.append_assoc, List.singleton_append] at hf ⊢
      rw [splitFuel, findSub_char c p _ (hc p List.mem_cons_self)]
      have e1 : (p ++ c :: [c].intercalate (q :: qs)).drop (p.length + [c].length) =
          [c].intercalate (q :: qs) := by
        rw [show p.length + [c].length = p.length + 1 from rfl, ← List.drop_drop, List.drop_left]
        rfl
      simp only [e1, List.take_left]
      rw [ih (by simp) (fun r hr => hc r (List.mem_cons_of_mem _ hr)) f (by
        simp at hf ⊢; omega)]
      rfl

/-- Splitting at the empty string never returns, for any number of passes of the loop. -/
theorem C32_empty_delimiter_fails (s : List Char) (passes : ℕ) : splitFuel [] passes s = none := by
  induction passes with
  | zero => rfl
  | succ n ih =>
    have : findSub [] s = some 0 := by cases s <;> simp [findSub]
    simp [splitFuel, this, ih]

/-- **C32**, bracketed lists of the input deck: the values between the brackets are returned. -/
theorem C32_array_values (a b : Char) (ps : List (List Char)) (hne : ps ≠ [])
    (hc : ∀ p ∈ ps, ',' ∉ p) :
    exactArrayValues (a :: ([','].intercalate ps ++ [b])) [','] = some ps := by
  unfold exactArrayValues
  rw [if_neg (by simp)]
  simp only [List.tail_cons, List.dropLast_concat]
  exact C32_split_join ',' ps hne hc

/-- The same for numeric lists, where brackets are blanked out instead. -/
theorem C32_extract_list (ps : List (List Char)) (hne : ps ≠ [])
    (hc : ∀ p ∈ ps, ',' ∉ p) (hb : ∀ p ∈ ps, '[' ∉ p ∧ ']' ∉ p) :
    extractListPieces ([','].intercalate ps) = some ps := by
  unfold extractListPieces
  have : ([','].intercalate ps).map (fun c => if c = '[' ∨ c = ']' then ' ' else c) =
      [','].intercalate ps := by
    have h2 : ∀ c ∈ [','].intercalate ps, c ≠ '[' ∧ c ≠ ']' := by
      intro c hcm
      clear hc hne
      induction ps with
      | nil => simp [List.intercalate] at hcm
      | cons p ps ih =>
        by_cases hps : ps = []
        · subst hps
          have : c ∈ p := by simpa [List.intercalate] using hcm
          have hp := hb p List.mem_cons_self
          exact ⟨by rintro rfl; exact hp.1 this, by rintro rfl; exact hp.2 this⟩
        · obtain ⟨q, qs, rfl⟩ := List.exists_cons_of_ne_nil hps
          rw [List.intercalate_cons_cons] at hcm
          rcases List.mem_append.mp hcm with h | h
          · rcases List.mem_append.mp h with h | h
            · have hp := hb p List.mem_cons_self
              exact ⟨by rintro rfl; exact hp.1 h, by rintro rfl; exact hp.2 h⟩
            · have := List.mem_singleton.mp h
              subst this; decide
          · exact ih (fun r hr => hb r (List.mem_cons_of_mem _ hr)) h
    calc _ = ([','].intercalate ps).map id := by
          apply List.map_congr_left
          intro c hcm
          have := h2 c hcm
          simp [this.1, this.2]
      _ = _ := List.map_id _
  rw [this]
  exact C32_split_join ',' ps hne hc

/-! ### Trimming -/

theorem ltrim_spec (s : List Char) : ∃ a, s = a ++ ltrim s ∧ (∀ c ∈ a, c = ' ') ∧
    ∀ c t, ltrim s = c :: t → c ≠ ' ' := by
  induction s with
  | nil => exact ⟨[], rfl, by simp, by simp [ltrim]⟩
  | cons c s ih =>
    by_cases hc : c = ' '
    · subst hc
      obtain ⟨a, h1, h2, h3⟩ := ih
      have e : ltrim (' ' :: s) = ltrim s := by
        unfold ltrim
        rw [List.findIdx?_cons]
        simp only [isWs, beq_self_eq_true, Bool.not_true, Bool.false_eq_true, if_false]
        cases List.findIdx? (fun c => !(c == ' ')) s <;> simp
      rw [e]
      refine ⟨' ' :: a, by rw [List.cons_append, ← h1], ?_, h3⟩
      intro x hx
      rcases List.mem_cons.mp hx with rfl | hx
      · rfl
      · exact h2 x hx
    · have e : ltrim (c :: s) = c :: s := by
        unfold ltrim
        rw [List.findIdx?_cons]
        simp [isWs, hc]
      rw [e]
      exact ⟨[], rfl, by simp, by rintro x t h; cases h; exact hc⟩

theorem rtrim_reverse (s : List Char) : rtrim s = (ltrim s.reverse).reverse := by
  unfold rtrim ltrim findLastNotWs
  cases h : s.reverse.findIdx? (fun c => !isWs c) with
  | none => simp
  | some i =>
    simp only [Option.map_some]
    have hi : i < s.length := by
      have := (List.findIdx?_eq_some_iff_getElem.mp h).1
      simpa using this
    rw [List.drop_reverse, List.reverse_reverse]
    congr 1; omega

theorem rtrim_spec (s : List Char) : ∃ b, s = rtrim s ++ b ∧ (∀ c ∈ b, c = ' ') ∧
    ∀ c t, rtrim s = t ++ [c] → c ≠ ' ' := by
  obtain ⟨a, h1, h2, h3⟩ := ltrim_spec s.reverse
  refine ⟨a.reverse, ?_, fun c hc => h2 c (List.mem_reverse.mp hc), fun c t h => ?_⟩
  · rw [rtrim_reverse, ← List.reverse_append, ← h1, List.reverse_reverse]
  · rw [rtrim_reverse] at h
    apply h3 c t.reverse
    have := congrArg List.reverse h
    simpa using this

/-- **C32**, trim: the result is the input without its leading and trailing blanks. -/
theorem C32_trim (s : List Char) : ∃ a b, s = a ++ trim s ++ b ∧ (∀ c ∈ a, c = ' ') ∧
    (∀ c ∈ b, c = ' ') ∧ (∀ c t, trim s = c :: t → c ≠ ' ') ∧
    ∀ c t, trim s = t ++ [c] → c ≠ ' ' := by
  obtain ⟨a, h1, h2, h3⟩ := ltrim_spec s
  obtain ⟨b, h4, h5, h6⟩ := rtrim_spec (ltrim s)
  refine ⟨a, b, ?_, h2, h5, ?_, h6⟩
  · unfold trim; rw [List.append_assoc, ← h4, ← h1]
  · intro c t h
    unfold trim at h
    rw [h] at h4
    exact h3 c (t ++ b) h4

/-- Only blanks are trimmed: a tab, or the carriage return of a Windows text file, stays. -/
theorem C32_tab_not_trimmed_fails : trim ['\t', 'a', '\r'] = ['\t', 'a', '\r'] := by decide

example : split "a,b,,c".toList [','] = some ["a".toList, "b".toList, [], "c".toList] := by
  decide +kernel
example : exactArrayValues "[0.0, 1.5]".toList [','] = some ["0.0".toList, " 1.5".toList] := by
  decide +kernel
example : trim "  a b ".toList = "a b".toList := by decide +kernel

end Fierro
