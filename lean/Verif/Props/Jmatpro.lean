import Verif.Model.Jmatpro
import Verif.Props.Strings
import Verif.Props.Table
import Mathlib.Data.List.Forall2
import Mathlib.Data.List.Pairwise
import Mathlib.Data.Rat.Floor
import Mathlib.Data.Rat.Encodable

/-!
# C111: tables of material properties over temperature
-/

namespace Fierro

/-! ## Specification -/

/-- The line starts, after blanks, with one star only: an Abaqus keyword. -/
def JmKeywordLine (l : List Char) : Prop :=
  ['*'] <+: trim l ∧ ¬ ['*', '*'] <+: trim l

/-- The line is a keyword line that starts with `kw`, in any case. -/
def JmOpens (kw l : List Char) : Prop :=
  JmKeywordLine l ∧ kw <+: (trim l).map Char.toUpper

/-- `xs` are the numbers between the commas of the line; empty pieces do not count. -/
def LineNumbers {K : Type*} (stod : List Char → Option K) (l : List Char) (xs : List K) : Prop :=
  ∃ ps, [','].intercalate ps = trim l ∧ (∀ p ∈ ps, ',' ∉ p) ∧ ps ≠ [] ∧
    List.Forall₂ (fun p x => stod (trim p) = some x) (ps.filter fun p => trim p ≠ []) xs

/-- The line holds a row of data: no line with a star at its start, and one number at least. -/
def DataRow {K : Type*} (stod : List Char → Option K) (l : List Char) (xs : List K) : Prop :=
  ¬ ['*'] <+: trim l ∧ xs ≠ [] ∧ LineNumbers stod l xs

/-- The file has the block `data` below the keyword `kw`: the first line that opens it, and all
lines up to the next other keyword. -/
def HasTable (kw : List Char) (lines data : List (List Char)) : Prop :=
  ∃ pre l post, lines = pre ++ l :: (data ++ post) ∧ (∀ x ∈ pre, ¬ JmOpens kw x) ∧ JmOpens kw l ∧
    (∀ x ∈ data, JmKeywordLine x → JmOpens kw x) ∧
    (post = [] ∨ ∃ x p, post = x :: p ∧ JmKeywordLine x ∧ ¬ JmOpens kw x)

/-- The keywords of the three tables. -/
def tableKeywords : List (String × String) :=
  [("density", "*DENSITY"), ("thermal_conductivity", "*CONDUCTIVITY"),
   ("specific_heat", "*SPECIFIC HEAT")]

/-! ## Reading -/

theorem jmKeyword_table {name kw : String} (h : (name, kw) ∈ tableKeywords) :
    jmKeyword name.toList = kw.toList := by
  simp only [tableKeywords, List.mem_cons, Prod.mk.injEq, List.not_mem_nil, or_false] at h
  rcases h with ⟨rfl, rfl⟩ | ⟨rfl, rfl⟩ | ⟨rfl, rfl⟩ <;> decide +kernel

section
variable {K : Type*} (stod : List Char → Option K)

theorem jmRow_iff (ps : List (List Char)) (xs : List K) :
    jmRow stod ps = some xs ↔
      List.Forall₂ (fun p x => stod (trim p) = some x) (ps.filter fun p => trim p ≠ []) xs := by
  induction ps generalizing xs with
  | nil => simp [jmRow, eq_comm]
  | cons p ps ih =>
    rw [jmRow]
    by_cases hp : trim p = []
    · rw [if_pos hp, List.filter_cons_of_neg (by simpa using hp)]; exact ih xs
    · rw [if_neg hp, List.filter_cons_of_pos (by simpa using hp)]
      cases hs : stod (trim p) with
      | none =>
        simp only [reduceCtorEq, false_iff]
        intro h
        cases h with
        | cons h1 h2 => rw [hs] at h1; cases h1
      | some x =>
        simp only [Option.map_eq_some_iff]
        constructor
        · rintro ⟨ys, hy, rfl⟩
          exact .cons hs ((ih ys).mp hy)
        · intro h
          cases h with
          | cons h1 h2 =>
            rw [hs] at h1; cases h1
            exact ⟨_, (ih _).mpr h2, rfl⟩

/-- The row that the loop takes from a line inside of the block. -/
def jmData (l : List Char) : Option (List K) :=
  if ['*'].isPrefixOf (trim l) then none
  else
    match (split (trim l) [',']).bind (jmRow stod) with
    | some (x :: xs) => some (x :: xs)
    | _ => none

theorem split_comma_iff (s : List Char) (ps : List (List Char)) :
    split s [','] = some ps ↔ [','].intercalate ps = s ∧ (∀ p ∈ ps, ',' ∉ p) ∧ ps ≠ [] := by
  constructor
  · intro h
    obtain ⟨qs, h1, h2, h3, h4⟩ := C32_split s [','] (by simp)
    rw [h] at h1; cases h1
    refine ⟨h2, fun p hp hc => h4 p hp ?_, h3⟩
    obtain ⟨a, b, rfl⟩ := List.append_of_mem hc
    exact ⟨a, b, by simp⟩
  · rintro ⟨rfl, h2, h3⟩
    exact C32_split_join ',' ps h3 h2

theorem jmData_iff (l : List Char) (xs : List K) : jmData stod l = some xs ↔ DataRow stod l xs := by
  unfold jmData DataRow LineNumbers
  by_cases hs : ['*'] <+: trim l
  · rw [if_pos (List.isPrefixOf_iff_prefix.mpr hs)]
    simp [hs]
  · rw [if_neg (fun h => hs (List.isPrefixOf_iff_prefix.mp h))]
    simp only [hs, not_false_eq_true, true_and]
    obtain ⟨ps, hp, -⟩ := C32_split (trim l) [','] (by simp)
    rw [hp, Option.bind_some]
    have hps := (split_comma_iff _ _).mp hp
    constructor
    · intro h
      cases hr : jmRow stod ps with
      | none => rw [hr] at h; cases h
      | some ys =>
        rw [hr] at h
        cases ys with
        | nil => cases h
        | cons y ys =>
          cases h
          exact ⟨by simp, ps, hps.1, hps.2.1, hps.2.2, (jmRow_iff stod ps _).mp hr⟩
    · rintro ⟨hne, qs, h1, h2, h3, h4⟩
      have hq := (split_comma_iff _ _).mpr ⟨h1, h2, h3⟩
      rw [hp] at hq; cases hq
      rw [(jmRow_iff stod ps xs).mpr h4]
      cases xs with
      | nil => exact absurd rfl hne
      | cons x xs => rfl

theorem isKeyword_iff (l : List Char) :
    (['*'].isPrefixOf (trim l) && !['*', '*'].isPrefixOf (trim l)) = true ↔ JmKeywordLine l := by
  unfold JmKeywordLine
  rw [Bool.and_eq_true, List.isPrefixOf_iff_prefix, Bool.not_eq_true', ← Bool.not_eq_true,
    List.isPrefixOf_iff_prefix]

theorem jmData_of_keyword {l : List Char} (h : ['*'] <+: trim l) : jmData stod l = none := by
  unfold jmData
  rw [if_pos (List.isPrefixOf_iff_prefix.mpr h)]

theorem jmLoop_before (kw : List Char) (pre rest : List (List Char))
    (h : ∀ x ∈ pre, ¬ JmOpens kw x) (acc : List (List K)) :
    jmLoop stod kw (pre ++ rest) false acc = jmLoop stod kw rest false acc := by
  induction pre with
  | nil => rfl
  | cons l pre ih =>
    have ih := ih fun x hx => h x (List.mem_cons_of_mem _ hx)
    rw [List.cons_append, jmLoop, ih]
    by_cases h1 : trim l = []
    · rw [if_pos h1]
    · rw [if_neg h1]
      by_cases h2 : JmKeywordLine l
      · rw [if_pos ((isKeyword_iff l).mpr h2), if_neg]
        · simp
        · intro h3
          exact h l List.mem_cons_self ⟨h2, List.isPrefixOf_iff_prefix.mp h3⟩
      · rw [if_neg (fun h3 => h2 ((isKeyword_iff l).mp h3))]
        simp

theorem jmLoop_inside (kw : List Char) (data rest : List (List Char))
    (h : ∀ x ∈ data, JmKeywordLine x → JmOpens kw x) (acc : List (List K)) :
    jmLoop stod kw (data ++ rest) true acc =
      jmLoop stod kw rest true (acc ++ data.filterMap (jmData stod)) := by
  induction data generalizing acc with
  | nil => simp
  | cons l data ih =>
    have ih := ih fun x hx => h x (List.mem_cons_of_mem _ hx)
    rw [List.cons_append, jmLoop]
    by_cases h1 : trim l = []
    · have : jmData stod l = none := by
        unfold jmData
        rw [h1]
        rfl
      rw [if_pos h1, ih, List.filterMap_cons_none this]
    · rw [if_neg h1]
      by_cases h2 : JmKeywordLine l
      · rw [if_pos ((isKeyword_iff l).mpr h2), if_pos, ih,
          List.filterMap_cons_none (jmData_of_keyword stod h2.1)]
        exact List.isPrefixOf_iff_prefix.mpr (h l List.mem_cons_self h2).2
      · rw [if_neg (fun h3 => h2 ((isKeyword_iff l).mp h3)), if_pos rfl]
        by_cases h3 : ['*', '*'] <+: trim l
        · have h4 : ['*'] <+: trim l := by
            obtain ⟨t, ht⟩ := h3
            exact ⟨'*' :: t, by rw [← ht]; rfl⟩
          rw [if_pos (List.isPrefixOf_iff_prefix.mpr h3), ih,
            List.filterMap_cons_none (jmData_of_keyword stod h4)]
        · rw [if_neg (fun h => h3 (List.isPrefixOf_iff_prefix.mp h))]
          have h4 : ¬ ['*'] <+: trim l := fun h4 => h2 ⟨h4, h3⟩
          obtain ⟨ps, hp, -⟩ := C32_split (trim l) [','] (by simp)
          have hd : jmData stod l = match jmRow stod ps with
              | some (x :: xs) => some (x :: xs)
              | _ => none := by
            unfold jmData
            rw [if_neg (fun h => h4 (List.isPrefixOf_iff_prefix.mp h)), hp, Option.bind_some]
          rw [hp]
          cases hr : jmRow stod ps with
          | none =>
            rw [hr] at hd
            simp only [hr]
            rw [ih, List.filterMap_cons_none hd]
          | some xs =>
            rw [hr] at hd
            cases xs with
            | nil =>
              simp only [hr]
              rw [ih, List.filterMap_cons_none hd]
            | cons x xs =>
              simp only [hr]
              rw [ih, List.filterMap_cons_some hd, List.append_assoc]
              rfl

theorem jmLoop_table (kw : List Char) (lines data : List (List Char))
    (h : HasTable kw lines data) :
    jmLoop stod kw lines false [] = some (data.filterMap (jmData stod)) := by
  obtain ⟨pre, l, post, rfl, h1, h2, h3, h4⟩ := h
  have hne : trim l ≠ [] := by
    intro e
    have := h2.1.1
    rw [e] at this
    simp at this
  rw [jmLoop_before stod kw pre _ h1, jmLoop, if_neg hne, if_pos ((isKeyword_iff l).mpr h2.1),
    if_pos (List.isPrefixOf_iff_prefix.mpr h2.2), jmLoop_inside stod kw data post h3, List.nil_append]
  rcases h4 with rfl | ⟨x, p, rfl, hk, ho⟩
  · rfl
  · have hx : trim x ≠ [] := by
      intro e
      have := hk.1
      rw [e] at this
      simp at this
    rw [jmLoop, if_neg hx, if_pos ((isKeyword_iff x).mpr hk), if_neg, if_pos rfl]
    exact fun hp => ho ⟨hk, List.isPrefixOf_iff_prefix.mp hp⟩

/-- Every file either has the table or no line that opens it. -/
theorem hasTable_or (kw : List Char) (lines : List (List Char)) :
    (∀ x ∈ lines, ¬ JmOpens kw x) ∨ ∃ data, HasTable kw lines data := by
  classical
  by_cases h : ∀ x ∈ lines, ¬ JmOpens kw x
  · exact Or.inl h
  · right
    have first : ∀ (P : List Char → Prop) (ls : List (List Char)), (∃ x ∈ ls, P x) →
        ∃ pre l rest, ls = pre ++ l :: rest ∧ (∀ x ∈ pre, ¬ P x) ∧ P l := by
      intro P ls
      induction ls with
      | nil => rintro ⟨x, hx, -⟩; cases hx
      | cons y ls ih =>
        intro hx
        by_cases hy : P y
        · exact ⟨[], y, ls, rfl, by simp, hy⟩
        · obtain ⟨x, hx, hp⟩ := hx
          rcases List.mem_cons.mp hx with rfl | hx
          · exact absurd hp hy
          · obtain ⟨pre, l, rest, rfl, h1, h2⟩ := ih ⟨x, hx, hp⟩
            refine ⟨y :: pre, l, rest, rfl, ?_, h2⟩
            intro z hz
            rcases List.mem_cons.mp hz with rfl | hz
            · exact hy
            · exact h1 z hz
    have h : ∃ x ∈ lines, JmOpens kw x := by
      by_contra hc
      exact h fun x hx ho => hc ⟨x, hx, ho⟩
    obtain ⟨pre, l, rest, rfl, h1, h2⟩ := first (JmOpens kw) lines h
    by_cases hr : ∃ x ∈ rest, JmKeywordLine x ∧ ¬ JmOpens kw x
    · obtain ⟨data, x, post, rfl, h3, h4⟩ := first _ rest hr
      refine ⟨data, pre, l, x :: post, rfl, h1, h2, ?_, Or.inr ⟨x, post, rfl, h4⟩⟩
      intro y hy hk
      by_contra ho
      exact h3 y hy ⟨hk, ho⟩
    · refine ⟨rest, pre, l, [], by simp, h1, h2, ?_, Or.inl rfl⟩
      intro y hy hk
      by_contra ho
      exact hr ⟨y, hy, hk, ho⟩

end

section
variable {K : Type} [Field K] [LinearOrder K] [IsStrictOrderedRing K]

theorem ascending_iff (t : List (List K)) (hne : ∀ r ∈ t, r ≠ []) :
    ascending t = true ↔ ∀ (i j : ℕ) (r s : List K) (a b : K), i ≤ j → t[i]? = some r →
      t[j]? = some s → r[0]? = some a → s[0]? = some b → a ≤ b := by
  have hz : ∀ r ∈ t, ∃ a, r[0]? = some a := by
    intro r hr
    obtain ⟨a, s, rfl⟩ := List.exists_cons_of_ne_nil (hne r hr)
    exact ⟨a, rfl⟩
  unfold ascending
  rw [List.all_eq_true]
  constructor
  · intro h i j
    induction j with
    | zero =>
      intro r s a b hij hr hs ha hb
      have : i = 0 := by omega
      subst this
      rw [hr] at hs; cases hs
      rw [ha] at hb; cases hb
      exact le_rfl
    | succ j ih =>
      intro r s a b hij hr hs ha hb
      rcases Nat.lt_or_ge i (j + 1) with hlt | hge
      · have hj : j + 1 < t.length := (List.getElem?_eq_some_iff.mp hs).1
        have hu : t[j]? = some t[j] := List.getElem?_eq_getElem (by omega)
        obtain ⟨c, hc⟩ := hz t[j] (List.getElem_mem _)
        have h1 := ih r t[j] a c (by omega) hr hu ha hc
        have h2 := h j (List.mem_range.mpr (by omega))
        rw [hu, hs, Option.bind_some, Option.bind_some, hc, hb] at h2
        exact h1.trans (of_decide_eq_true h2)
      · have : i = j + 1 := by omega
        subst this
        rw [hr] at hs; cases hs
        rw [ha] at hb; cases hb
        exact le_rfl
  · intro h i hi
    have hi := List.mem_range.mp hi
    have h1 : t[i]? = some t[i] := List.getElem?_eq_getElem (by omega)
    have h2 : t[i + 1]? = some t[i + 1] := List.getElem?_eq_getElem (by omega)
    obtain ⟨a, ha⟩ := hz t[i] (List.getElem_mem _)
    obtain ⟨b, hb⟩ := hz t[i + 1] (List.getElem_mem _)
    rw [h1, h2, Option.bind_some, Option.bind_some, ha, hb]
    exact decide_eq_true (h i (i + 1) _ _ a b (by omega) h1 h2 ha hb)

/-- **C111, what is read.** If the file has the table, the call succeeds exactly if the lines of
its block that are neither keywords nor comments and consist of numbers give one row at least, all
rows have the same number of columns, and (with assertions) the last numbers of the rows, which are
the temperatures, do not descend. The table then holds these rows in their order, each one
reversed, so that the temperature comes first. `f` is any function that finds the numbers of a
line. -/
theorem C111_reads (stod : List Char → Option K) (asserts : Bool)
    (fs : String → Option (List (List Char))) (path name kw : String)
    (hkw : (name, kw) ∈ tableKeywords) (lines data : List (List Char)) (hf : fs path = some lines)
    (hd : HasTable kw.toList lines data) (f : List Char → Option (List K))
    (hfun : ∀ l xs, f l = some xs ↔ DataRow stod l xs) (t : List (List K)) :
    readJmatpro stod asserts fs path name = .ok t ↔
      t = (data.filterMap f).map List.reverse ∧ t ≠ [] ∧
      (∀ r ∈ t, ∀ s ∈ t, r.length = s.length) ∧
      (asserts = true → ∀ (i j : ℕ) (r s : List K) (a b : K), i ≤ j → t[i]? = some r →
        t[j]? = some s → r[0]? = some a → s[0]? = some b → a ≤ b) := by
  have hff : f = jmData stod := by
    funext l
    cases h1 : f l with
    | some xs => exact ((jmData_iff stod l xs).mpr ((hfun l xs).mp h1)).symm
    | none =>
      cases h2 : jmData stod l with
      | none => rfl
      | some xs => rw [(hfun l xs).mpr ((jmData_iff stod l xs).mp h2)] at h1; cases h1
  subst hff
  have hloop := jmLoop_table stod _ _ _ hd
  rw [← jmKeyword_table hkw] at hloop
  unfold readJmatpro
  rw [hf]
  simp only [hloop]
  have hne : ∀ r ∈ data.filterMap (jmData stod), r ≠ [] := by
    intro r hr
    obtain ⟨l, -, hl⟩ := List.mem_filterMap.mp hr
    exact ((jmData_iff stod l r).mp hl).2.1
  cases hr : data.filterMap (jmData stod) with
  | nil =>
    simp only [reduceCtorEq, List.map_nil, false_iff]
    rintro ⟨rfl, h, -⟩
    exact h rfl
  | cons r rs =>
    simp only
    have hne' : ∀ x ∈ (r :: rs).map List.reverse, x ≠ [] := by
      intro x hx
      obtain ⟨y, hy, rfl⟩ := List.mem_map.mp hx
      have := hne y (hr ▸ hy)
      simpa using this
    by_cases hall : ((r :: rs).all fun row => row.length == r.length) = true
    · rw [if_pos hall]
      have hlen : ∀ x ∈ (r :: rs).map List.reverse, x.length = r.length := by
        intro x hx
        obtain ⟨y, hy, rfl⟩ := List.mem_map.mp hx
        have := List.all_eq_true.mp hall y hy
        simpa using this
      by_cases ha : (asserts && !ascending ((r :: rs).map List.reverse)) = true
      · rw [if_pos ha]
        simp only [reduceCtorEq, false_iff]
        rintro ⟨rfl, -, -, h⟩
        simp only [Bool.and_eq_true, Bool.not_eq_true'] at ha
        rw [(ascending_iff _ hne').mpr (h ha.1)] at ha
        exact absurd ha.2 (by decide)
      · rw [if_neg ha]
        constructor
        · intro h
          cases h
          refine ⟨rfl, by simp, fun x hx y hy => (hlen x hx).trans (hlen y hy).symm, fun hass => ?_⟩
          apply (ascending_iff _ hne').mp
          rw [hass] at ha
          simpa using ha
        · rintro ⟨rfl, -⟩; rfl
    · rw [if_neg hall]
      simp only [reduceCtorEq, false_iff]
      rintro ⟨rfl, -, h, -⟩
      apply hall
      rw [List.all_eq_true]
      intro x hx
      have := h x.reverse (List.mem_map_of_mem hx) r.reverse (List.mem_map_of_mem List.mem_cons_self)
      simpa using this

/-- **C111, no table.** A file that cannot be opened or has no line with the keyword ends the run
with an exception. Every other file has the table. -/
theorem C111_missing (stod : List Char → Option K) (asserts : Bool)
    (fs : String → Option (List (List Char))) (path name kw : String)
    (hkw : (name, kw) ∈ tableKeywords) :
    (fs path = none → readJmatpro stod asserts fs path name = .error .throws) ∧
    ∀ lines, fs path = some lines →
      ((∀ x ∈ lines, ¬ JmOpens kw.toList x) →
        readJmatpro stod asserts fs path name = .error .throws) ∧
      ((∃ x ∈ lines, JmOpens kw.toList x) → ∃ data, HasTable kw.toList lines data) := by
  refine ⟨fun h => by rw [readJmatpro, h], fun lines hf => ⟨fun h => ?_, fun ⟨x, hx, ho⟩ => ?_⟩⟩
  · unfold readJmatpro
    rw [hf]
    have := jmLoop_before stod (jmKeyword name.toList) lines []
      (by rw [jmKeyword_table hkw]; exact h) ([] : List (List K))
    rw [List.append_nil, jmLoop] at this
    simp only [this]
  · rcases hasTable_or kw.toList lines with h | h
    · exact absurd ho (h x hx)
    · exact h

/-! ## Looking up -/

/-- The rows of a table, as pairs of temperature and value. -/
def IsTable (t : List (List K)) (rows : List (K × K)) : Prop :=
  List.Forall₂ (fun r (p : K × K) => r[0]? = some p.1 ∧ r[1]? = some p.2) t rows

theorem tableColumns_iff (t : List (List K)) (rows : List (K × K)) :
    tableColumns t = some rows ↔ IsTable t rows := by
  unfold tableColumns IsTable
  induction t generalizing rows with
  | nil => simp [eq_comm]
  | cons r t ih =>
    rw [List.mapM_cons]
    constructor
    · intro h
      cases h0 : r[0]? with
      | none => rw [h0] at h; simp at h
      | some a =>
        cases h1 : r[1]? with
        | none => rw [h0, h1] at h; simp at h
        | some b =>
          rw [h0, h1] at h
          simp only [Option.bind_eq_bind, Option.bind_some, Option.pure_def,
            Option.bind_eq_some_iff] at h
          obtain ⟨rs, h2, h3⟩ := h
          cases h3
          exact .cons ⟨h0, h1⟩ ((ih rs).mp h2)
    · intro h
      cases h with
      | cons h1 h2 =>
        rw [h1.1, h1.2]
        simp [(ih _).mpr h2]

/-- **C111, what a lookup gives.** In a table whose temperatures increase, the value at a
temperature of the table is the value of that row, and between two neighbouring rows it lies on the
line through them. -/
theorem C111_lookup (t : List (List K)) (rows : List (K × K)) (ht : IsTable t rows)
    (hs : Increasing rows) :
    (∀ (i : ℕ) (p : K × K), rows[i]? = some p → tabularValue t p.1 = some p.2) ∧
    ∀ (i : ℕ) (p q : K × K) (x : K), rows[i]? = some p → rows[i + 1]? = some q → p.1 ≤ x →
      x ≤ q.1 → tabularValue t x = some (p.2 + (x - p.1) / (q.1 - p.1) * (q.2 - p.2)) := by
  have e : ∀ x, tabularValue t x = tableLookup rows x := by
    intro x
    unfold tabularValue
    rw [(tableColumns_iff t rows).mpr ht]
    rfl
  refine ⟨fun i p hp => (e _).trans (C31_stored_points rows hs i p hp), ?_⟩
  intro i p q x hp hq h1 h2
  rw [e, C31_linear_between rows hs i p q hp hq x h1 h2]
  congr 1; ring

theorem avgTemp_eq (temps : List K) : avgTemp temps = temps.sum / 8 := by
  unfold avgTemp
  suffices H : ∀ s : K, temps.foldl (fun s t => s + t / (8 : K)) s = s + temps.sum / 8 by
    rw [H]; ring
  induction temps with
  | nil => simp
  | cons a temps ih =>
    intro s
    rw [List.foldl_cons, ih, List.sum_cons]; ring

/-- **C111, the properties of a material point.** If the material has all three tables, each with
temperature and value in every row, then a point gets its density, conductivity and specific heat
from the tables at the mean temperature of the eight nodes, and each of them lies between the
smallest and the largest value of its table. -/
theorem C111_point (tables : List (List K) × List (List K) × List (List K))
    (rd rk rc : List (K × K)) (hd : IsTable tables.1 rd) (hk : IsTable tables.2.1 rk)
    (hc : IsTable tables.2.2 rc) (hd0 : rd ≠ []) (hk0 : rk ≠ []) (hc0 : rc ≠ [])
    (temps : List K) (hn : temps.length = 8) :
    ∃ d k c, tabularPoint (true, true, true) tables temps = some (d, k, c) ∧
      tabularValue tables.1 (temps.sum / temps.length) = some d ∧
      tabularValue tables.2.1 (temps.sum / temps.length) = some k ∧
      tabularValue tables.2.2 (temps.sum / temps.length) = some c ∧
      (∀ lo hi, (∀ p ∈ rd, lo ≤ p.2 ∧ p.2 ≤ hi) → lo ≤ d ∧ d ≤ hi) ∧
      (∀ lo hi, (∀ p ∈ rk, lo ≤ p.2 ∧ p.2 ≤ hi) → lo ≤ k ∧ k ≤ hi) ∧
      (∀ lo hi, (∀ p ∈ rc, lo ≤ p.2 ∧ p.2 ≤ hi) → lo ≤ c ∧ c ≤ hi) := by
  have key : ∀ (t : List (List K)) (rows : List (K × K)), IsTable t rows → rows ≠ [] → ∀ x : K,
      ∃ y, tabularValue t x = some y ∧
        ∀ lo hi, (∀ p ∈ rows, lo ≤ p.2 ∧ p.2 ≤ hi) → lo ≤ y ∧ y ≤ hi := by
    intro t rows ht hr x
    obtain ⟨y, hy⟩ := C31_in_range rows x
    refine ⟨y, ?_, fun lo hi hb => C31_bounded rows hr x lo hi y (fun p hp => (hb p hp).1)
      (fun p hp => (hb p hp).2) hy⟩
    unfold tabularValue
    rw [(tableColumns_iff t rows).mpr ht]
    exact hy
  obtain ⟨d, h1, b1⟩ := key tables.1 rd hd hd0 (temps.sum / 8)
  obtain ⟨k, h2, b2⟩ := key tables.2.1 rk hk hk0 (temps.sum / 8)
  obtain ⟨c, h3, b3⟩ := key tables.2.2 rc hc hc0 (temps.sum / 8)
  have e8 : ((temps.length : ℕ) : K) = 8 := by rw [hn]; norm_num
  refine ⟨d, k, c, ?_, by rw [e8]; exact h1, by rw [e8]; exact h2, by rw [e8]; exact h3, b1, b2,
    b3⟩
  unfold tabularPoint
  rw [avgTemp_eq, h1, h2, h3]
  rfl

/-! ## Round trip -/

/-- A way to print numbers that can be read back and used between commas. -/
structure NumberFormat (stod : List Char → Option K) (fmt : K → List Char) : Prop where
  back : ∀ x, stod (fmt x) = some x
  chars : ∀ x, ∀ c ∈ fmt x, c ≠ ' ' ∧ c ≠ ',' ∧ c ≠ '*'

omit [LinearOrder K] [IsStrictOrderedRing K] [Field K] in
theorem trim_of_no_blank (s : List Char) (h : ∀ c ∈ s, c ≠ ' ') : trim s = s := by
  obtain ⟨a, b, h1, h2, h3, -⟩ := C32_trim s
  have ha : a = [] := by
    cases a with
    | nil => rfl
    | cons x a =>
      refine absurd (h2 x List.mem_cons_self) (h x ?_)
      rw [h1]; simp
  have hb : b = [] := by
    cases b with
    | nil => rfl
    | cons x b =>
      refine absurd (h3 x List.mem_cons_self) (h x ?_)
      rw [h1]; simp
  rw [ha, hb] at h1
  simpa using h1.symm

/-- A line of the file for a row: value, temperature. -/
def jmLine (fmt : K → List Char) (p : K × K) : List Char := fmt p.2 ++ ',' :: fmt p.1

theorem dataRow_line (stod : List Char → Option K) (fmt : K → List Char)
    (hfmt : NumberFormat stod fmt) (hne : ∀ x, fmt x ≠ []) (p : K × K) :
    DataRow stod (jmLine fmt p) [p.2, p.1] := by
  have hb : ∀ c ∈ jmLine fmt p, c ≠ ' ' := by
    intro c hc
    simp only [jmLine, List.mem_append, List.mem_cons] at hc
    rcases hc with hc | rfl | hc
    · exact (hfmt.chars _ c hc).1
    · decide
    · exact (hfmt.chars _ c hc).1
  have ht := trim_of_no_blank _ hb
  have hp : ∀ x, trim (fmt x) = fmt x := fun x =>
    trim_of_no_blank _ fun c hc => (hfmt.chars x c hc).1
  refine ⟨?_, by simp, [fmt p.2, fmt p.1], ?_, ?_, by simp, ?_⟩
  · rw [ht]
    rintro ⟨r, hr⟩
    unfold jmLine at hr
    obtain ⟨c, s, hs⟩ := List.exists_cons_of_ne_nil (hne p.2)
    rw [hs] at hr
    simp only [List.singleton_append, List.cons_append, List.cons.injEq] at hr
    exact (hfmt.chars p.2 c (by rw [hs]; exact List.mem_cons_self)).2.2 hr.1.symm
  · rw [ht]; simp [jmLine, List.intercalate_cons_cons]
  · intro q hq hc
    simp only [List.mem_cons, List.not_mem_nil, or_false] at hq
    rcases hq with rfl | rfl
    · exact (hfmt.chars _ _ hc).2.1 rfl
    · exact (hfmt.chars _ _ hc).2.1 rfl
  · have h1 : ([fmt p.2, fmt p.1].filter fun q => decide (trim q ≠ [])) = [fmt p.2, fmt p.1] := by
      simp [hp, hne]
    rw [h1]
    exact .cons (by rw [hp]; exact hfmt.back _) (.cons (by rw [hp]; exact hfmt.back _) .nil)

/-- **C111, round trip.** A table with increasing temperatures that is written below its keyword,
one line "value,temperature" per row, is read back, and a lookup at each temperature of the table
gives the value that was written. -/
theorem C111_round_trip (stod : List Char → Option K) (asserts : Bool) (fmt : K → List Char)
    (hfmt : NumberFormat stod fmt) (hne : ∀ x, fmt x ≠ [])
    (fs : String → Option (List (List Char))) (path name kw : String)
    (hkw : (name, kw) ∈ tableKeywords) (rows : List (K × K)) (hr : rows ≠ [])
    (hs : Increasing rows) (hf : fs path = some (kw.toList :: rows.map (jmLine fmt))) :
    ∃ t, readJmatpro stod asserts fs path name = .ok t ∧ IsTable t rows ∧
      ∀ (i : ℕ) (p : K × K), rows[i]? = some p → tabularValue t p.1 = some p.2 := by
  have hdata : ∀ p, jmData stod (jmLine fmt p) = some [p.2, p.1] := fun p =>
    (jmData_iff stod _ _).mpr (dataRow_line stod fmt hfmt hne p)
  have htab : HasTable kw.toList (kw.toList :: rows.map (jmLine fmt)) (rows.map (jmLine fmt)) := by
    refine ⟨[], kw.toList, [], by simp, by simp, ?_, ?_, Or.inl rfl⟩
    · simp only [tableKeywords, List.mem_cons, Prod.mk.injEq, List.not_mem_nil, or_false] at hkw
      unfold JmOpens JmKeywordLine
      simp only [← List.isPrefixOf_iff_prefix]
      rcases hkw with ⟨-, rfl⟩ | ⟨-, rfl⟩ | ⟨-, rfl⟩ <;> decide +kernel
    · intro x hx hk
      obtain ⟨p, -, rfl⟩ := List.mem_map.mp hx
      exact absurd hk.1 (dataRow_line stod fmt hfmt hne p).1
  have hmap : ((rows.map (jmLine fmt)).filterMap (jmData stod)).map List.reverse =
      rows.map fun p => [p.1, p.2] := by
    rw [List.filterMap_map]
    have : (jmData stod ∘ jmLine fmt) = fun p => some [p.2, p.1] := funext hdata
    rw [this]
    simp
  have hT : IsTable (rows.map fun p => [p.1, p.2]) rows := by
    unfold IsTable
    rw [List.forall₂_map_left_iff]
    exact List.forall₂_same.mpr fun p _ => ⟨rfl, rfl⟩
  refine ⟨rows.map fun p => [p.1, p.2], ?_, hT, (C111_lookup _ rows hT hs).1⟩
  refine (C111_reads stod asserts fs path name kw hkw _ _ hf htab (jmData stod)
    (jmData_iff stod) _).mpr ⟨hmap.symm, by simpa using hr, ?_, fun _ => ?_⟩
  · intro r hr s hs
    obtain ⟨p, -, rfl⟩ := List.mem_map.mp hr
    obtain ⟨q, -, rfl⟩ := List.mem_map.mp hs
    rfl
  · intro i j r s a b hij hi hj ha hb
    rw [List.getElem?_map, Option.map_eq_some_iff] at hi hj
    obtain ⟨p, hp, rfl⟩ := hi
    obtain ⟨q, hq, rfl⟩ := hj
    cases ha; cases hb
    rcases hij.eq_or_lt with rfl | hlt
    · rw [hp] at hq; cases hq; exact le_rfl
    · exact (hs i j p q hlt hp hq).le

end

/-! ## What can go wrong -/

/-- Numbers written as strings of strokes, for examples. -/
def strokes (s : List Char) : Option ℚ := if s.all (· == 'I') then some (s.length : ℚ) else none

/-- A file with a comment, two tables and a line that is not a number. -/
def exJmFile : List (List Char) :=
  ["** steel".toList, "*Density".toList, "III, I".toList, "** cold".toList, "IIII, II".toList,
    "*Conductivity".toList, "I, I".toList]

example : readJmatpro strokes true (fun _ => some exJmFile) "steel.txt" "density" =
    .ok [[1, 3], [2, 4]] := by decide +kernel
example : ∃ data, HasTable "*DENSITY".toList exJmFile data :=
  (C111_missing strokes true (fun _ => some exJmFile) "steel.txt" "density" "*DENSITY"
    (by simp [tableKeywords])).2 exJmFile rfl |>.2
    ⟨"*Density".toList, by simp [exJmFile], by
      unfold JmOpens JmKeywordLine
      simp only [← List.isPrefixOf_iff_prefix]
      decide +kernel⟩
/-- Numbers can be printed in a way that `C111_round_trip` asks for. -/
example : ∃ (stod : List Char → Option ℚ) (fmt : ℚ → List Char), NumberFormat stod fmt ∧
    ∀ x, fmt x ≠ [] := by
  refine ⟨fun s => Encodable.decode (s.length - 1),
    fun x => List.replicate (Encodable.encode x + 1) 'I', ⟨fun x => ?_, fun x c hc => ?_⟩,
    fun x => by simp⟩
  · simp
  · rw [List.eq_of_mem_replicate hc]; decide
example : IsTable (K := ℚ) [[1, 3], [2, 4]] [(1, 3), (2, 4)] :=
  .cons ⟨rfl, rfl⟩ (.cons ⟨rfl, rfl⟩ .nil)
example : tabularPoint (K := ℚ) (true, true, true) ([[1, 3], [2, 4]], [[1, 1]], [[1, 7]])
    [1, 1, 1, 1, 2, 2, 2, 2] = some (7 / 2, 1, 7) := by decide +kernel

/-- **C111 (a line that is not understood).** A line with something that is not a number is left out
without a message: the table misses that temperature. -/
theorem C111_bad_line_fails :
    readJmatpro strokes true
      (fun _ => some ["*Density".toList, "I, I".toList, "IIO, II".toList, "III, III".toList])
      "f" "density" = .ok [[1, 1], [3, 3]] := by decide +kernel

/-- **C111 (a table of one column).** A file that gives the values without temperatures is read
without a message, and every lookup then reads outside of the table. -/
theorem C111_one_column_fails :
    ∃ t : List (List ℚ), readJmatpro strokes true
      (fun _ => some ["*Density".toList, "I".toList, "II".toList]) "f" "density" = .ok t ∧
      ∀ temp, tabularValue t temp = none :=
  ⟨[[1], [2]], by decide +kernel, fun _ => rfl⟩

/-- **C111 (release builds).** Without assertions a table with descending temperatures is accepted,
and a lookup between two of its rows then gives the value of the first row instead of the
interpolated one (3 instead of 4). -/
theorem C111_descending_fails :
    ∃ t : List (List ℚ), readJmatpro strokes false
      (fun _ => some ["*Density".toList, "III, IIII".toList, "IIIII, II".toList]) "f" "density" =
        .ok t ∧ t = [[4, 3], [2, 5]] ∧ tabularValue t 3 = some 3 ∧
      readJmatpro strokes true
        (fun _ => some ["*Density".toList, "III, IIII".toList, "IIIII, II".toList]) "f" "density" =
          .error .aborts :=
  ⟨[[4, 3], [2, 5]], by decide +kernel, rfl, by decide +kernel, by decide +kernel⟩

/-- **C111 (materials without all tables).** With a moving heat source the properties of every
material are looked up: a material without one of the three tables leads to a call through a null
pointer, whatever the temperatures are. -/
theorem C111_missing_table_fails (d k c : Bool) (h : (d && k && c) = false)
    (tables : List (List ℚ) × List (List ℚ) × List (List ℚ)) (temps : List ℚ) :
    tabularPoint (d, k, c) tables temps = none := by
  unfold tabularPoint
  rw [if_neg (by simpa using h)]

end Fierro
