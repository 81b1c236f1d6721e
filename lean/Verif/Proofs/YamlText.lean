import Verif.Model.YamlParse
import Mathlib.Data.List.Basic

/-!
# Lemmas on the text functions of the YAML parser
-/

namespace Fierro

theorem quotePosFrom_nil (s : List Char) (h : '"' ∉ s) (prev : Option Char) (i : ℕ) :
    quotePosFrom prev i s = [] := by
  induction s generalizing prev i with
  | nil => rfl
  | cons c s ih =>
    simp only [List.mem_cons, not_or] at h
    rw [quotePosFrom, if_neg (fun hc => h.1 hc.1.symm)]
    exact ih h.2 _ _

theorem findNotCited_no_quote (s : List Char) (tok : Char) (h : '"' ∉ s) :
    findNotCited s tok = (findFrom tok 0 s).map fun p => (p, 0) := by
  unfold findNotCited
  rw [quotePosFrom_nil s h]
  cases findFrom tok 0 s <;> rfl

theorem findFrom_append (tok : Char) (a b : List Char) (h : tok ∉ a) :
    findFrom tok 0 (a ++ tok :: b) = some a.length := by
  unfold findFrom
  simp only [List.drop_zero, add_zero]
  induction a with
  | nil => simp [List.findIdx?_cons]
  | cons c a ih =>
    simp only [List.mem_cons, not_or] at h
    rw [List.cons_append, List.findIdx?_cons]
    have : (c == tok) = false := by simpa using Ne.symm h.1
    rw [this]
    have := ih h.2
    simp only [Option.map_eq_some_iff] at this ⊢
    obtain ⟨p, hp, rfl⟩ := this
    exact ⟨a.length + 1, by simp [hp], by simp⟩

theorem findFrom_none (tok : Char) (a : List Char) (h : tok ∉ a) : findFrom tok 0 a = none := by
  unfold findFrom
  simp only [List.drop_zero, Option.map_eq_none_iff, List.findIdx?_eq_none_iff]
  intro x hx
  simp only [beq_eq_false_iff_ne, ne_eq]
  rintro rfl
  exact h hx

/-- All characters are blanks or tabs. -/
def AllBlank (s : List Char) : Prop := ∀ c ∈ s, isBlank c = true

theorem dropWhile_allBlank {s : List Char} (h : AllBlank s) (t : List Char) :
    (s ++ t).dropWhile isBlank = t.dropWhile isBlank := by
  induction s with
  | nil => rfl
  | cons c s ih =>
    rw [List.cons_append, List.dropWhile_cons, if_pos (h c List.mem_cons_self)]
    exact ih fun x hx => h x (List.mem_cons_of_mem _ hx)

theorem cutBlank_append {t tr : List Char} (ht : t ≠ [])
    (hl : ∀ c, t.getLast? = some c → isBlank c = false) (htr : AllBlank tr) :
    cutBlank (t ++ tr) = some t := by
  obtain ⟨a, c, rfl⟩ := List.eq_nil_or_concat t |>.resolve_left ht
  rw [List.concat_eq_append] at hl ⊢
  have hc : isBlank c = false := hl c (by simp)
  unfold cutBlank
  have : ¬ ((a ++ [c] ++ tr).all isBlank = true) := by
    rw [List.all_eq_true]
    push Not
    exact ⟨c, by simp, by simp [hc]⟩
  rw [if_neg this]
  have h2 : AllBlank tr.reverse := fun x hx => htr x (List.mem_reverse.mp hx)
  simp only [List.reverse_append, List.reverse_cons, List.reverse_nil, List.nil_append]
  rw [dropWhile_allBlank h2]
  simp [hc]

theorem removeEscapes_id (s : List Char) (h : '\\' ∉ s) : removeEscapes s = s := by
  induction s with
  | nil => rfl
  | cons c s ih =>
    simp only [List.mem_cons, not_or] at h
    have hc : c ≠ '\\' := Ne.symm h.1
    have : removeEscapes (c :: s) = c :: removeEscapes s := by
      cases s with
      | nil =>
        rw [removeEscapes]
        intro _ _ h1 _
        exact hc h1
      | cons d s =>
        rw [removeEscapes]
        intro _ _ h1 _
        exact hc h1
    rw [this, ih h.2]

theorem findIdx?_notBlank {sp t : List Char} (hsp : AllBlank sp) {c : Char} {t' : List Char}
    (ht : t = c :: t') (hc : isBlank c = false) :
    (sp ++ t).findIdx? (fun c => !isBlank c) = some sp.length := by
  subst ht
  induction sp with
  | nil => simp [List.findIdx?_cons, hc]
  | cons x sp ih =>
    rw [List.cons_append, List.findIdx?_cons]
    have : isBlank x = true := hsp x List.mem_cons_self
    simp only [this, Bool.not_true, Bool.false_eq_true, if_false, List.length_cons]
    rw [ih fun y hy => hsp y (List.mem_cons_of_mem _ hy)]
    rfl

theorem findIdx?_allBlank {sp : List Char} (hsp : AllBlank sp) :
    sp.findIdx? (fun c => !isBlank c) = none := by
  rw [List.findIdx?_eq_none_iff]
  intro x hx
  simp [hsp x hx]

theorem findNotBlank_append {a sp t : List Char} (hsp : AllBlank sp) {c : Char} {t' : List Char}
    (ht : t = c :: t') (hc : isBlank c = false) :
    findNotBlank a.length (a ++ (sp ++ t)) = some (a.length + sp.length) := by
  unfold findNotBlank
  rw [List.drop_left, findIdx?_notBlank hsp ht hc]
  simp [Nat.add_comm]

theorem findNotBlank_none {a sp : List Char} (hsp : AllBlank sp) :
    findNotBlank a.length (a ++ sp) = none := by
  unfold findNotBlank
  rw [List.drop_left, findIdx?_allBlank hsp]
  rfl

theorem validateQuote_plain (t : List Char) (h1 : '"' ∉ t) (h2 : '\'' ∉ t) :
    validateQuote t = true := by
  cases t with
  | nil => rfl
  | cons c t =>
    have hc1 : c ≠ '"' := fun e => h1 (by simp [e])
    have hc2 : c ≠ '\'' := fun e => h2 (by simp [e])
    rw [validateQuote, if_neg (by simp [hc1, hc2])]
    have : anyQuotePos (c :: t) 1 = [] := by
      unfold anyQuotePos
      rw [List.filter_eq_nil_iff]
      intro i hi
      have hil : i < (c :: t).length := List.mem_range.mp hi
      have e := List.getElem?_eq_getElem hil
      have hm : (c :: t)[i] ∈ c :: t := List.getElem_mem hil
      have n1 : (c :: t)[i] ≠ '"' := fun e => h1 (e ▸ hm)
      have n2 : (c :: t)[i] ≠ '\'' := fun e => h2 (e ▸ hm)
      rw [e]
      simp only [Bool.and_eq_true, Bool.or_eq_true, beq_iff_eq, Option.some.injEq, n1, n2, or_self,
        and_false, not_false_eq_true]
    rw [this]
    rfl

theorem dropEmpty_blank {bl rest : List YLine} (hbl : ∀ x ∈ bl, x.2 = [])
    (hr : rest = [] ∨ ∃ o d tl, rest = (o, d) :: tl ∧ d ≠ []) : dropEmpty (bl ++ rest) = rest := by
  unfold dropEmpty
  induction bl with
  | nil =>
    rcases hr with rfl | ⟨o, d, tl, rfl, hd⟩
    · rfl
    · rw [List.nil_append, List.dropWhile_cons, if_neg (by simpa using hd)]
  | cons x bl ih =>
    rw [List.cons_append, List.dropWhile_cons, if_pos (by simp [hbl x List.mem_cons_self])]
    exact ih fun y hy => hbl y (List.mem_cons_of_mem _ hy)

theorem dropEmpty_idem (ls : List YLine) : dropEmpty (dropEmpty ls) = dropEmpty ls := by
  unfold dropEmpty
  induction ls with
  | nil => rfl
  | cons x ls ih =>
    rw [List.dropWhile_cons]
    by_cases h : x.2.isEmpty = true
    · rw [if_pos h]; exact ih
    · rw [if_neg h, List.dropWhile_cons, if_neg h]

/-! ## Quoted stretches -/

/-- Every double quote of the text stands after a backslash (`p` is the character in front). -/
def QuotesEscaped : Option Char → List Char → Prop
  | _, [] => True
  | p, c :: s => (c = '"' → p = some '\\') ∧ QuotesEscaped (some c) s

/-- Text in which the sign `tok` occurs in double quotes only, and at most once in each pair of
quotes; the number is the number of pairs. -/
inductive Cited (tok : Char) : ℕ → List Char → Prop
  | plain (a : List Char) : '"' ∉ a → tok ∉ a → Cited tok 0 a
  | quoted (m : ℕ) (a q d : List Char) : '"' ∉ a → tok ∉ a → a.getLast? ≠ some '\\' →
      QuotesEscaped (some '"') q → q.getLast? ≠ some '\\' → q.count tok ≤ 1 → Cited tok m d →
      Cited tok (m + 1) (a ++ '"' :: (q ++ '"' :: d))

theorem Cited.append_left {tok : Char} {m : ℕ} {a d : List Char} (hq : '"' ∉ a) (ht : tok ∉ a)
    (hl : a.getLast? ≠ some '\\') (h : Cited tok m d) : Cited tok m (a ++ d) := by
  cases h with
  | plain b hq' ht' =>
    refine Cited.plain _ ?_ ?_
    · simp [hq, hq']
    · simp [ht, ht']
  | quoted m b q d h1 h2 h3 h4 h5 h6 h7 =>
    rw [← List.append_assoc]
    refine Cited.quoted m _ q d (by simp [hq, h1]) (by simp [ht, h2]) ?_ h4 h5 h6 h7
    rw [List.getLast?_append]
    cases hb : b.getLast? with
    | none => simpa using hl
    | some c => rw [hb] at h3; simpa using h3

theorem Cited.append {tok : Char} {m m' : ℕ} {a d : List Char} (h : Cited tok m a)
    (hl : a.getLast? ≠ some '\\') (h' : Cited tok m' d) : Cited tok (m + m') (a ++ d) := by
  induction h with
  | plain b hq ht => rw [Nat.zero_add]; exact Cited.append_left hq ht hl h'
  | quoted m b q e h1 h2 h3 h4 h5 h6 _ ih =>
    have : b ++ '"' :: (q ++ '"' :: e) ++ d = b ++ '"' :: (q ++ '"' :: (e ++ d)) := by simp
    rw [this]
    have hm : m + 1 + m' = (m + m') + 1 := by omega
    rw [hm]
    refine Cited.quoted _ b q _ h1 h2 h3 h4 h5 h6 (ih ?_)
    intro he
    apply hl
    rw [List.getLast?_append, List.getLast?_cons, List.getLast?_append, List.getLast?_cons, he]
    rfl

theorem findFrom_skip (tok : Char) (x a z : List Char) (h : tok ∉ a) :
    findFrom tok x.length (x ++ (a ++ z)) = findFrom tok (x.length + a.length) (x ++ (a ++ z)) := by
  unfold findFrom
  rw [List.drop_left]
  have : (x ++ (a ++ z)).drop (x.length + a.length) = z := by
    rw [← List.append_assoc]; exact List.drop_left' (by simp)
  rw [this, List.findIdx?_append]
  have hn : a.findIdx? (fun c => c == tok) = none := by
    rw [List.findIdx?_eq_none_iff]
    intro c hc
    simp only [beq_eq_false_iff_ne, ne_eq]
    rintro rfl
    exact h hc
  rw [hn]
  cases z.findIdx? (fun c => c == tok) with
  | none => rfl
  | some p => simp; omega

theorem findFrom_here (tok : Char) (x z : List Char) :
    findFrom tok x.length (x ++ tok :: z) = some x.length := by
  unfold findFrom
  rw [List.drop_left, List.findIdx?_cons]
  simp

theorem findFrom_absent (tok : Char) (x z : List Char) (h : tok ∉ z) :
    findFrom tok x.length (x ++ z) = none := by
  unfold findFrom
  rw [List.drop_left]
  simp only [Option.map_eq_none_iff, List.findIdx?_eq_none_iff]
  intro c hc
  simp only [beq_eq_false_iff_ne, ne_eq]
  rintro rfl
  exact h hc

theorem findFrom_ge {tok : Char} {n p : ℕ} {s : List Char} (h : findFrom tok n s = some p) : n ≤ p := by
  unfold findFrom at h
  rw [Option.map_eq_some_iff] at h
  obtain ⟨q, _, rfl⟩ := h
  omega

theorem quotePos_plain (a : List Char) (h : '"' ∉ a) (p : Option Char) (i : ℕ) (z : List Char) :
    quotePosFrom p i (a ++ z) = quotePosFrom (a.getLast?.or p) (i + a.length) z := by
  induction a generalizing p i with
  | nil => simp
  | cons c a ih =>
    simp only [List.mem_cons, not_or] at h
    rw [List.cons_append, quotePosFrom, if_neg (fun hc => h.1 hc.1.symm), ih h.2]
    congr 1
    · rw [List.getLast?_cons]
      cases a.getLast? <;> rfl
    · simp only [List.length_cons]; omega

theorem quotePos_escaped (q : List Char) (p : Option Char) (h : QuotesEscaped p q) (i : ℕ)
    (z : List Char) :
    quotePosFrom p i (q ++ z) = quotePosFrom (q.getLast?.or p) (i + q.length) z := by
  induction q generalizing p i with
  | nil => simp
  | cons c q ih =>
    rw [List.cons_append, quotePosFrom, if_neg (fun hc => hc.2 (h.1 hc.1)), ih _ h.2]
    congr 1
    · rw [List.getLast?_cons]
      cases q.getLast? <;> rfl
    · simp only [List.length_cons]; omega

/-- The search for a sign passes text in which the sign occurs in quotes only. -/
theorem Cited.scan {tok : Char} (htok : tok ≠ '"') {m : ℕ} {d : List Char} (h : Cited tok m d) :
    ∀ (x y : List Char) (p : Option Char) (pos pre : ℕ), p ≠ some '\\' →
      findFrom tok x.length (x ++ (d ++ y)) = some pos →
      ∃ p', notCitedLoop tok (x ++ (d ++ y)) (quotePairs (quotePosFrom p x.length (d ++ y))) pos pre =
        match findFrom tok (x.length + d.length) (x ++ (d ++ y)) with
        | none => none
        | some pos' => notCitedLoop tok (x ++ (d ++ y))
            (quotePairs (quotePosFrom p' (x.length + d.length) y)) pos' (pre + m) := by
  induction h with
  | plain a hq ht =>
    intro x y p pos pre hp hf
    refine ⟨a.getLast?.or p, ?_⟩
    rw [← findFrom_skip tok x a y ht, hf, quotePos_plain a hq]
    rfl
  | quoted m a q d h1 h2 h3 h4 h5 h6 _ ih =>
    intro x y p pos pre hp hf
    have hp1 : a.getLast?.or p ≠ some '\\' := by
      cases ha : a.getLast? with
      | none => simpa using hp
      | some c => rw [ha] at h3; simpa using h3
    have hp2 : q.getLast?.or (some '"') ≠ some '\\' := by
      cases ha : q.getLast? with
      | none => decide
      | some c => rw [ha] at h5; simpa using h5
    -- the text up to the second quote
    obtain ⟨x', hx'⟩ : ∃ x', x' = x ++ (a ++ '"' :: (q ++ ['"'])) := ⟨_, rfl⟩
    have hs : x ++ (a ++ '"' :: (q ++ '"' :: d) ++ y) = x' ++ (d ++ y) := by
      rw [hx']; simp
    have hlen : x'.length = x.length + a.length + q.length + 2 := by
      rw [hx']; simp; omega
    have hlen2 : x.length + (a ++ '"' :: (q ++ '"' :: d)).length = x'.length + d.length := by
      rw [hlen]; simp; omega
    have hpairs : quotePairs (quotePosFrom p x.length (a ++ '"' :: (q ++ '"' :: d) ++ y)) =
        (x.length + a.length, x.length + a.length + q.length + 1) ::
          quotePairs (quotePosFrom (some '"') x'.length (d ++ y)) := by
      have e1 : a ++ '"' :: (q ++ '"' :: d) ++ y = a ++ ('"' :: (q ++ ('"' :: (d ++ y)))) := by simp
      rw [e1, quotePos_plain a h1, quotePosFrom, if_pos ⟨rfl, hp1⟩, quotePos_escaped q _ h4,
        quotePosFrom, if_pos ⟨rfl, hp2⟩, quotePairs]
      have e2 : x.length + a.length + 1 + q.length = x.length + a.length + q.length + 1 := by omega
      rw [e2, hlen]
    rw [hpairs, hlen2, hs]
    rw [hs] at hf
    -- the sign after the quoted stretch
    have hbefore : findFrom tok x.length (x' ++ (d ++ y)) =
        findFrom tok (x.length + a.length + 1) (x' ++ (d ++ y)) := by
      have := findFrom_skip tok x (a ++ ['"']) (q ++ '"' :: (d ++ y))
        (by simp [h2, htok])
      have e : x ++ (a ++ ['"'] ++ (q ++ '"' :: (d ++ y))) = x' ++ (d ++ y) := by rw [hx']; simp
      rw [e] at this
      rw [this]
      congr 1
      simp; omega
    have hm : pre + (m + 1) = pre + 1 + m := by omega
    rw [hm]
    by_cases htq : tok ∈ q
    · obtain ⟨q1, q2, hq12, hnot1⟩ := List.append_of_mem htq |> fun ⟨s, t, e⟩ =>
        (⟨s, t, e, by
          intro hmem
          have hc := h6
          rw [e, List.count_append, List.count_cons_self] at hc
          have := List.count_pos_iff.mpr hmem
          omega⟩ : ∃ q1 q2, q = q1 ++ tok :: q2 ∧ tok ∉ q1)
      have hnot2 : tok ∉ q2 := by
        intro hmem
        have hc := h6
        rw [hq12, List.count_append, List.count_cons_self] at hc
        have := List.count_pos_iff.mpr hmem
        omega
      -- the sign found is the one in the quotes
      have hpos : pos = x.length + a.length + 1 + q1.length := by
        rw [hbefore] at hf
        have h1' := findFrom_skip tok (x ++ (a ++ ['"'])) q1 (tok :: (q2 ++ '"' :: (d ++ y))) hnot1
        have h2' := findFrom_here tok (x ++ (a ++ ['"']) ++ q1) (q2 ++ '"' :: (d ++ y))
        have e : x ++ (a ++ ['"']) ++ (q1 ++ tok :: (q2 ++ '"' :: (d ++ y))) = x' ++ (d ++ y) := by
          rw [hx', hq12]; simp
        have e' : x ++ (a ++ ['"']) ++ q1 ++ tok :: (q2 ++ '"' :: (d ++ y)) = x' ++ (d ++ y) := by
          rw [hx', hq12]; simp
        rw [e] at h1'
        rw [e'] at h2'
        have l1 : (x ++ (a ++ ['"'])).length = x.length + a.length + 1 := by simp; omega
        have l2 : (x ++ (a ++ ['"']) ++ q1).length = x.length + a.length + 1 + q1.length := by
          simp; omega
        rw [l1] at h1'
        rw [l2] at h2'
        rw [h1', h2'] at hf
        exact (Option.some.inj hf).symm
      have hnext : findFrom tok (pos + 1) (x' ++ (d ++ y)) = findFrom tok x'.length (x' ++ (d ++ y)) := by
        have h1' := findFrom_skip tok (x ++ (a ++ ['"']) ++ (q1 ++ [tok])) (q2 ++ ['"']) (d ++ y)
          (by simp [hnot2, htok])
        have e : x ++ (a ++ ['"']) ++ (q1 ++ [tok]) ++ (q2 ++ ['"'] ++ (d ++ y)) = x' ++ (d ++ y) := by
          rw [hx', hq12]; simp
        rw [e] at h1'
        have l1 : (x ++ (a ++ ['"']) ++ (q1 ++ [tok])).length = pos + 1 := by
          rw [hpos]; simp; omega
        have l2 : pos + 1 + (q2 ++ ['"']).length = x'.length := by
          rw [hpos, hlen, hq12]; simp; omega
        rw [l1, l2] at h1'
        exact h1'
      have hql : q.length = q1.length + q2.length + 1 := by rw [hq12]; simp; omega
      rw [notCitedLoop, if_neg (by omega), if_pos (by omega), if_neg]
      · rw [hnext]
        cases hf' : findFrom tok x'.length (x' ++ (d ++ y)) with
        | none =>
          refine ⟨none, ?_⟩
          have : findFrom tok (x'.length + d.length) (x' ++ (d ++ y)) = none := by
            unfold findFrom at hf' ⊢
            simp only [Option.map_eq_none_iff, List.findIdx?_eq_none_iff] at hf' ⊢
            intro c hc
            refine hf' c ?_
            rw [List.drop_left]
            have e : (x' ++ (d ++ y)).drop (x'.length + d.length) = y := by
              rw [← List.append_assoc]; exact List.drop_left' (by simp)
            rw [e] at hc
            simp [hc]
          rw [this]
        | some pos' => exact ih x' y (some '"') pos' (pre + 1) (by decide) hf'
      · rw [List.length_append, hlen]; omega
    · have hafter : findFrom tok (x.length + a.length + 1) (x' ++ (d ++ y)) =
          findFrom tok x'.length (x' ++ (d ++ y)) := by
        have h1' := findFrom_skip tok (x ++ (a ++ ['"'])) (q ++ ['"']) (d ++ y) (by simp [htq, htok])
        have e : x ++ (a ++ ['"']) ++ (q ++ ['"'] ++ (d ++ y)) = x' ++ (d ++ y) := by rw [hx']; simp
        rw [e] at h1'
        have l1 : (x ++ (a ++ ['"'])).length = x.length + a.length + 1 := by simp; omega
        have l2 : x.length + a.length + 1 + (q ++ ['"']).length = x'.length := by
          rw [hlen]; simp; omega
        rw [l1, l2] at h1'
        exact h1'
      rw [hbefore, hafter] at hf
      have hge := findFrom_ge hf
      rw [notCitedLoop, if_neg (by omega), if_neg (by omega)]
      exact ih x' y (some '"') pos (pre + 1) (by decide) hf

theorem quotePos_ge (l : List Char) (prev : Option Char) (i : ℕ) :
    ∀ p ∈ quotePosFrom prev i l, i ≤ p := by
  induction l generalizing prev i with
  | nil => intro p hp; simp [quotePosFrom] at hp
  | cons c l ih =>
    intro p hp
    rw [quotePosFrom] at hp
    split at hp
    · rcases List.mem_cons.mp hp with rfl | hp
      · exact le_refl _
      · have := ih _ _ p hp; omega
    · have := ih _ _ p hp; omega

/-- The sign is not found if it occurs in quotes only. -/
theorem Cited.findNotCited_none {tok : Char} (htok : tok ≠ '"') {m : ℕ} {d y : List Char}
    (h : Cited tok m d) (hy : tok ∉ y) : findNotCited (d ++ y) tok = none := by
  unfold findNotCited
  cases hf : findFrom tok 0 (d ++ y) with
  | none => rfl
  | some pos =>
    obtain ⟨p', hp'⟩ := h.scan htok [] y none pos 0 (by simp) (by simpa using hf)
    have := findFrom_absent tok ([] ++ d) y hy
    simp only [List.nil_append, List.length_nil, Nat.zero_add] at hp' this
    rw [this] at hp'
    exact hp'

/-- The sign that follows text with the sign in quotes only is found. -/
theorem Cited.findNotCited_some {tok : Char} (htok : tok ≠ '"') {m : ℕ} {d y : List Char}
    (h : Cited tok m d) : findNotCited (d ++ tok :: y) tok = some (d.length, m) := by
  unfold findNotCited
  have hex : ∃ pos, findFrom tok 0 (d ++ tok :: y) = some pos := by
    cases hf : findFrom tok 0 (d ++ tok :: y) with
    | some pos => exact ⟨pos, rfl⟩
    | none =>
      exfalso
      unfold findFrom at hf
      simp only [List.drop_zero, Option.map_eq_none_iff, List.findIdx?_eq_none_iff] at hf
      have := hf tok (by simp)
      simp at this
  obtain ⟨pos, hf⟩ := hex
  rw [hf]
  obtain ⟨p', hp'⟩ := h.scan htok [] (tok :: y) none pos 0 (by simp) (by simpa using hf)
  have := findFrom_here tok ([] ++ d) y
  simp only [List.nil_append, List.length_nil, Nat.zero_add] at hp' this
  rw [this] at hp'
  dsimp only
  rw [hp']
  dsimp only
  rw [quotePosFrom, if_neg (fun h => htok h.1)]
  cases hq' : quotePosFrom (some tok) (d.length + 1) y with
  | nil => rfl
  | cons q qs =>
    cases qs with
    | nil => rfl
    | cons r qs =>
      have := quotePos_ge y (some tok) (d.length + 1) q (by rw [hq']; simp)
      simp only [quotePairs, notCitedLoop]
      rw [if_pos (by omega)]

end Fierro
