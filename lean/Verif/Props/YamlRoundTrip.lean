import Verif.Model.YamlWrite
import Verif.Props.YamlParse
import Mathlib.Tactic.IntervalCases

/-!
# Writing a YAML tree and reading it again (C99)
-/

namespace Fierro

/-! ## Specification: the trees that survive -/

/-- The text has one of the signs that YAML gives a meaning. -/
def HasSign (s : List Char) : Prop :=
  ∃ c ∈ s, c ∈ ['"', ':', '{', '}', '[', ']', ',', '&', '*', '#', '?', '|', '-', '<', '>', '=', '!', '%', '@']

/-- No blank at either end, and not empty. -/
def Trimmed (s : List Char) : Prop :=
  (∃ c s', s = c :: s' ∧ isBlank c = false) ∧ ∀ c, s.getLast? = some c → isBlank c = false

/-- Keys that survive. -/
structure SafeKey (k : List Char) : Prop where
  chars : ∀ c ∈ k, Printable c
  bare : ¬ HasSign k → Trimmed k
  quoted : HasSign k → k.getLast? ≠ some '\\' ∧ k.count ':' ≤ 1 ∧ k.count '#' ≤ 1

/-- The text is written on one line: it is short enough, or there is no blank to break it at. -/
def Fits (cfg : WriteConfig) (v : List Char) : Prop :=
  cfg.scalarMaxLength = 0 ∨ v.length ≤ cfg.scalarMaxLength ∨
    ∀ i, cfg.scalarMaxLength ≤ i → v[i]? ≠ some ' '

/-- A line of a text with several lines: empty, or blanks and then something. -/
def SafeLine (l : List Char) : Prop :=
  (∀ c ∈ l, Printable c) ∧ '#' ∉ l ∧
    (l = [] ∨ ∃ i c d, l = List.replicate i ' ' ++ c :: d ∧ isBlank c = false)

/-- Texts that survive. `own`: the text is a line of its own or an item of a sequence; `blocks`: it
may be written as a block. -/
inductive SafeText (cfg : WriteConfig) (own blocks : Bool) : List Char → Prop
  /-- no sign, no apostrophe, no blank at either end -/
  | bare (v : List Char) : ¬ HasSign v → Trimmed v → '\'' ∉ v → (∀ c ∈ v, Printable c) →
      Fits cfg v → SafeText cfg own blocks v
  /-- with signs, but no quote, at most one comment sign, and at most one colon -/
  | quoted (v : List Char) : HasSign v → '"' ∉ v → v.getLast? ≠ some '\\' → v.count '#' ≤ 1 →
      (own = true → v.count ':' ≤ 1) → (∀ c ∈ v, Printable c) → Fits cfg v →
      SafeText cfg own blocks v
  /-- two or more lines, with or without a line feed at the end -/
  | lines (c : Char) (d : List Char) (more : List (List Char)) (keep : Bool) : blocks = true →
      isBlank c = false → c ≠ '"' → c ≠ '\'' → SafeLine (c :: d) → more ≠ [] →
      (∀ l ∈ more, SafeLine l) → more.getLast? ≠ some [] →
      SafeText cfg own blocks (joinWith '\n' ((c :: d) :: more) ++ lastFeed keep)
  /-- one line that is too long, with single blanks between the words -/
  | long (c : Char) (d : List Char) (keep : Bool) (p : ℕ) : blocks = true →
      isBlank c = false → c ≠ '"' → c ≠ '\'' → (∀ x ∈ c :: d, Printable x) → '#' ∉ c :: d →
      (∀ i, (c :: d)[i]? = some ' ' → ∃ x, (c :: d)[i + 1]? = some x ∧ isBlank x = false) →
      cfg.scalarMaxLength ≠ 0 → cfg.scalarMaxLength < (c :: d).length →
      cfg.scalarMaxLength ≤ p → (c :: d)[p]? = some ' ' →
      SafeText cfg own blocks (c :: d ++ lastFeed keep)

/-- Trees that survive: maps and sequences that are not empty, of any depth, with safe keys and
texts; the keys of a map are in order, as they always are. -/
inductive Writable (cfg : WriteConfig) : YOut → Prop
  | entryText (k s : String) : SafeKey k.toList →
      SafeText cfg cfg.mapScalarNewline (!cfg.mapScalarNewline) s.toList →
      Writable cfg (.entries [(k, .scalar s)])
  | entryNode (k : String) (v : YNode) : SafeKey k.toList → Writable cfg (.node v) →
      Writable cfg (.entries [(k, v)])
  | entriesCons (x : String × YNode) (e : List (String × YNode)) : Writable cfg (.entries [x]) →
      Writable cfg (.entries e) → Writable cfg (.entries (x :: e))
  | itemText (s : String) : SafeText cfg true true s.toList → Writable cfg (.items [.scalar s])
  | itemNode (v : YNode) : Writable cfg (.node v) → Writable cfg (.items [v])
  | itemsCons (v : YNode) (l : List YNode) : Writable cfg (.items [v]) → Writable cfg (.items l) →
      Writable cfg (.items (v :: l))
  | seq (l : List YNode) : Writable cfg (.items l) → Writable cfg (.node (.seq (seqOf l)))
  | map (e : List (String × YNode)) : SmSorted e → Writable cfg (.entries e) →
      Writable cfg (.node (.map e))

/-! ## Lemmas on text -/

theorem shouldBeCited_iff (s : List Char) : shouldBeCited s = true ↔ HasSign s := by
  unfold shouldBeCited HasSign
  simp only [List.any_eq_true, List.contains_iff_mem]
  exact Iff.rfl

theorem addEscape_backslash (s : List Char) :
    addEscape '"' (addEscape '\\' s) = escapeText s := by
  induction s with
  | nil => rfl
  | cons c s ih =>
    rw [addEscape, escapeText]
    by_cases h1 : c = '\\'
    · rw [if_pos h1, if_pos (Or.inl h1), addEscape, if_neg (by decide), addEscape,
        if_neg (by rw [h1]; decide), ih]
    · rw [if_neg h1, addEscape]
      by_cases h2 : c = '"'
      · rw [if_pos h2, if_pos (Or.inr h2), ih]
      · rw [if_neg h2, if_neg (by simp [h1, h2]), ih]

theorem hasSign_escape (k : List Char) : HasSign (escapeText k) ↔ HasSign k := by
  have key : ∀ c, c ∈ ['"', ':', '{', '}', '[', ']', ',', '&', '*', '#', '?', '|', '-', '<', '>', '=',
      '!', '%', '@'] → c ≠ '\\' := by decide
  constructor
  · rintro ⟨c, h1, h2⟩
    exact ⟨c, (mem_escape (key c h2) k).mp h1, h2⟩
  · rintro ⟨c, h1, h2⟩
    exact ⟨c, (mem_escape (key c h2) k).mpr h1, h2⟩

/-- The text of lines, each with its line feed. -/
def unlines (raws : List (List Char)) : List Char := (raws.map fun r => r ++ ['\n']).flatten

theorem unlines_cons (r : List Char) (raws : List (List Char)) :
    unlines (r :: raws) = r ++ '\n' :: unlines raws := by
  simp [unlines]

theorem unlines_append (a b : List (List Char)) : unlines (a ++ b) = unlines a ++ unlines b := by
  simp [unlines]

theorem splitLines_feed (r s : List Char) (h : '\n' ∉ r) :
    splitLines (r ++ '\n' :: s) = r :: splitLines s := by
  induction r with
  | nil => rw [List.nil_append, splitLines, if_pos rfl]
  | cons c r ih =>
    simp only [List.mem_cons, not_or] at h
    rw [List.cons_append, splitLines, if_neg (Ne.symm h.1), ih h.2]

theorem splitLines_plain (r : List Char) (h : '\n' ∉ r) : splitLines r = [r] := by
  induction r with
  | nil => rfl
  | cons c r ih =>
    simp only [List.mem_cons, not_or] at h
    rw [splitLines, if_neg (Ne.symm h.1), ih h.2]

theorem splitLines_unlines (raws : List (List Char)) (h : ∀ r ∈ raws, '\n' ∉ r) :
    splitLines (unlines raws) = raws ++ [[]] := by
  induction raws with
  | nil => rfl
  | cons r raws ih =>
    rw [unlines_cons, splitLines_feed r _ (h r List.mem_cons_self),
      ih fun x hx => h x (List.mem_cons_of_mem _ hx)]
    rfl

theorem splitLines_join (ls : List (List Char)) (hne : ls ≠ []) (h : ∀ r ∈ ls, '\n' ∉ r)
    (keep : Bool) :
    splitLines (joinWith '\n' ls ++ lastFeed keep) = ls ++ (if keep then [[]] else []) := by
  induction ls with
  | nil => exact absurd rfl hne
  | cons r ls ih =>
    cases ls with
    | nil =>
      have hr := h r List.mem_cons_self
      cases keep with
      | false => simp [joinWith, lastFeed, splitLines_plain r hr]
      | true =>
        show splitLines (r ++ '\n' :: []) = _
        rw [splitLines_feed r [] hr]
        rfl
    | cons r' ls =>
      rw [joinWith, List.append_assoc, List.cons_append,
        splitLines_feed r _ (h r List.mem_cons_self), ih (by simp)
          fun x hx => h x (List.mem_cons_of_mem _ hx)]
      rfl

theorem printable_not_feed {s : List Char} (h : ∀ c ∈ s, Printable c) : '\n' ∉ s := by
  intro hm
  rcases h _ hm with h | h
  · exact absurd h (by decide)
  · exact absurd h (by decide)

/-! ### Folding -/

theorem findIdx?_blank {s : List Char} {p : ℕ} (h : s.findIdx? (· == ' ') = some p) :
    s[p]? = some ' ' := by
  rw [List.findIdx?_eq_some_iff_getElem] at h
  obtain ⟨hp, h1, _⟩ := h
  rw [List.getElem?_eq_getElem hp]
  simpa using h1

/-- The pieces of a folded line. -/
theorem lineFolding_pieces (m : ℕ) (hm : m ≠ 0) : ∀ (N : ℕ) (s : List Char), s.length ≤ N →
    (∃ c s', s = c :: s' ∧ isBlank c = false) →
    (∀ i, s[i]? = some ' ' → ∃ x, s[i + 1]? = some x ∧ isBlank x = false) →
    lineFolding m s ≠ [] ∧ joinWith ' ' (lineFolding m s) = s ∧
      ∀ l ∈ lineFolding m s, (∃ c l', l = c :: l' ∧ isBlank c = false) ∧ ∀ x ∈ l, x ∈ s := by
  intro N
  induction N with
  | zero =>
    rintro s hs ⟨c, s', rfl, _⟩ _
    simp at hs
  | succ N ih =>
    rintro s hs ⟨c, s', hs', hc⟩ hbl
    have hne : s ≠ [] := by rw [hs']; simp
    have single : lineFolding m s = [s] →
        lineFolding m s ≠ [] ∧ joinWith ' ' (lineFolding m s) = s ∧
        ∀ l ∈ lineFolding m s, (∃ c l', l = c :: l' ∧ isBlank c = false) ∧ ∀ x ∈ l, x ∈ s := by
      intro h
      rw [h]
      refine ⟨by simp, rfl, ?_⟩
      intro l hl
      rw [List.mem_singleton] at hl
      rw [hl]
      exact ⟨⟨c, s', hs', hc⟩, fun x hx => hx⟩
    by_cases hlt : m < s.length
    · cases hf : (s.drop m).findIdx? (· == ' ') with
      | none =>
        refine single ?_
        rw [lineFolding, if_pos hlt, hf]
      | some p =>
        have he : lineFolding m s = s.take (m + p) :: lineFolding m (s.drop (m + p + 1)) := by
          rw [lineFolding, if_pos hlt, hf]
        have hb : s[m + p]? = some ' ' := by
          have := findIdx?_blank hf
          rwa [List.getElem?_drop] at this
        obtain ⟨x, hx, hxb⟩ := hbl _ hb
        have hlen : m + p + 1 < s.length := by
          by_contra hcon
          rw [List.getElem?_eq_none (by omega)] at hx
          cases hx
        have hdrop : s.drop (m + p + 1) = x :: s.drop (m + p + 2) := by
          rw [List.drop_eq_getElem_cons hlen]
          congr 1
          rw [List.getElem?_eq_getElem hlen] at hx
          exact Option.some.inj hx
        have hsub : ∀ y ∈ s.drop (m + p + 1), y ∈ s := fun y hy => List.mem_of_mem_drop hy
        obtain ⟨h1, h2, h3⟩ := ih (s.drop (m + p + 1)) (by rw [List.length_drop]; omega)
          ⟨x, _, hdrop, hxb⟩ (by
            intro i hi
            rw [List.getElem?_drop] at hi ⊢
            obtain ⟨z, hz, hzb⟩ := hbl _ hi
            refine ⟨z, ?_, hzb⟩
            exact hz)
        rw [he]
        refine ⟨by simp, ?_, ?_⟩
        · cases hl : lineFolding m (s.drop (m + p + 1)) with
          | nil => exact absurd hl h1
          | cons l ls =>
            rw [joinWith, ← hl, h2]
            have hlt' : m + p < s.length := by omega
            have : ' ' :: s.drop (m + p + 1) = s.drop (m + p) := by
              rw [List.drop_eq_getElem_cons hlt']
              congr 1
              rw [List.getElem?_eq_getElem hlt'] at hb
              exact (Option.some.inj hb).symm
            rw [this, List.take_append_drop]
        · intro l hl
          rcases List.mem_cons.mp hl with rfl | hl
          · refine ⟨⟨c, s'.take (m + p - 1), ?_, hc⟩, fun y hy => List.mem_of_mem_take hy⟩
            rw [hs']
            obtain ⟨q, hq⟩ : ∃ q, m + p = q + 1 := ⟨m + p - 1, by omega⟩
            rw [hq, List.take_succ_cons]
            rfl
          · obtain ⟨h4, h5⟩ := h3 l hl
            exact ⟨h4, fun y hy => hsub y (h5 y hy)⟩
    · refine single ?_
      rw [lineFolding, if_neg hlt, if_neg hne]

theorem lineFolding_two {m : ℕ} {s : List Char} {p : ℕ} (hlt : m < s.length) (hp : m ≤ p)
    (hb : s[p]? = some ' ')
    (hbl : ∀ i, s[i]? = some ' ' → ∃ x, s[i + 1]? = some x ∧ isBlank x = false) :
    (lineFolding m s).length ≠ 1 := by
  cases hf : (s.drop m).findIdx? (· == ' ') with
  | none =>
    exfalso
    rw [List.findIdx?_eq_none_iff] at hf
    have hmem : ' ' ∈ s.drop m := by
      refine List.mem_of_getElem? (i := p - m) ?_
      rw [List.getElem?_drop, show m + (p - m) = p by omega]
      exact hb
    have := hf _ hmem
    simp at this
  | some q =>
    rw [lineFolding, if_pos hlt, hf]
    have hb' : s[m + q]? = some ' ' := by
      have := findIdx?_blank hf
      rwa [List.getElem?_drop] at this
    obtain ⟨x, hx, _⟩ := hbl _ hb'
    have hlen : m + q + 1 < s.length := by
      by_contra hcon
      rw [List.getElem?_eq_none (by omega)] at hx
      cases hx
    have hne : lineFolding m (s.drop (m + q + 1)) ≠ [] := by
      have hd : s.drop (m + q + 1) ≠ [] := by
        intro h
        have := congrArg List.length h
        rw [List.length_drop, List.length_nil] at this
        omega
      intro hnil
      rw [lineFolding, if_neg hd] at hnil
      revert hnil
      split
      · split <;> simp
      · simp
    have := List.length_pos_iff.mpr hne
    simp only [List.length_cons]
    omega

theorem fits_oneLine {cfg : WriteConfig} {v : List Char} (hv : v ≠ []) (h : Fits cfg v) :
    (cfg.scalarMaxLength = 0 ∨ v.length ≤ cfg.scalarMaxLength) ∨
      (lineFolding cfg.scalarMaxLength v).length = 1 := by
  rcases h with h | h | h
  · exact Or.inl (Or.inl h)
  · exact Or.inl (Or.inr h)
  · right
    rw [lineFolding]
    have hnone : (v.drop cfg.scalarMaxLength).findIdx? (· == ' ') = none := by
      rw [List.findIdx?_eq_none_iff]
      intro c hc
      obtain ⟨i, hi⟩ := List.mem_iff_getElem?.mp hc
      rw [List.getElem?_drop] at hi
      simp only [beq_eq_false_iff_ne, ne_eq]
      rintro rfl
      exact h _ (by omega) hi
    split
    · rw [hnone]; rfl
    · simp

/-! ## What is written for a text -/

/-- The lines of a text are read as they were written. -/
def LinesOk (raws : List (List Char)) (ls : List YLine) : Prop :=
  List.Forall₂ RawLine raws ls ∧ ∀ r ∈ raws, '\n' ∉ r

theorem LinesOk.nil : LinesOk [] [] := ⟨.nil, by simp⟩

theorem LinesOk.append {a b : List (List Char)} {x y : List YLine} (h : LinesOk a x)
    (h' : LinesOk b y) : LinesOk (a ++ b) (x ++ y) := by
  refine ⟨?_, ?_⟩
  · have := h.1
    clear h
    induction this with
    | nil => exact h'.1
    | cons hl _ ih => exact .cons hl ih
  · intro r hr
    rcases List.mem_append.mp hr with hr | hr
    · exact h.2 r hr
    · exact h'.2 r hr

theorem LinesOk.cons {r : List Char} {l : YLine} {a : List (List Char)} {x : List YLine}
    (hr : RawLine r l) (hf : '\n' ∉ r) (h : LinesOk a x) : LinesOk (r :: a) (l :: x) :=
  LinesOk.append (a := [r]) (x := [l]) ⟨.cons hr .nil, by simpa using hf⟩ h

theorem replicate_blank_feed (n : ℕ) : '\n' ∉ List.replicate n ' ' := by
  rw [List.mem_replicate]
  rintro ⟨_, h⟩
  exact absurd h (by decide)

/-- A line of a block is read with its indentation. -/
theorem safeLine_raw {level : ℕ} (hl : 0 < level) {l : List Char} (h : SafeLine l) :
    ∃ x : YLine, RawLine (List.replicate level ' ' ++ l) x ∧ '\n' ∉ List.replicate level ' ' ++ l ∧
      LineOk x ∧ blockLine level x = l ∧ (x.2 = [] ↔ l = []) ∧ (x.2 = [] ∨ level ≤ x.1) ∧
      (∀ c d, l = c :: d → isBlank c = false → x = (level, c :: d)) := by
  obtain ⟨hp, hh, hform⟩ := h
  have hfeed : '\n' ∉ List.replicate level ' ' ++ l := by
    rw [List.mem_append, not_or]
    exact ⟨replicate_blank_feed level, printable_not_feed hp⟩
  rcases hform with rfl | ⟨i, c, d, rfl, hc⟩
  · refine ⟨(0, []), ?_, hfeed, Or.inl rfl, rfl, by simp, Or.inl rfl, by simp⟩
    refine RawLine.blank (List.replicate level ' ') [] ?_ (Or.inl rfl)
    intro x hx
    rw [List.mem_replicate] at hx
    rw [hx.2]; rfl
  · refine ⟨(level + i, c :: d), ?_, hfeed, Or.inr ⟨c, d, rfl, hc⟩, ?_, by simp, Or.inr (by simp), ?_⟩
    · have := RawLine.text (level + i) (c :: d) [] ⟨c, d, rfl, hc⟩
        (fun x hx => hp x (by simp at hx ⊢; tauto))
        (Or.inr ⟨fun hx => hh (by simp at hx ⊢; tauto), Or.inl rfl⟩) (by omega)
      rw [List.append_nil, ← List.replicate_append_replicate, List.append_assoc] at this
      exact this
    · simp [blockLine]
    · intro c' d' he hc'
      cases i with
      | zero =>
        simp only [List.replicate_zero, List.nil_append] at he
        rw [he]; rfl
      | succ i =>
        exfalso
        rw [List.replicate_succ, List.cons_append] at he
        have := (List.cons.inj he).1
        rw [← this] at hc'
        exact absurd hc' (by decide)

theorem safeLines_raw {level : ℕ} (hl : 0 < level) (ls : List (List Char))
    (h : ∀ l ∈ ls, SafeLine l) : ∃ body : List YLine,
      LinesOk (ls.map fun l => List.replicate level ' ' ++ l) body ∧
      body.map (blockLine level) = ls ∧ (∀ x ∈ body, LineOk x ∧ (x.2 = [] ∨ level ≤ x.1)) ∧
      (ls.getLast? ≠ some [] → ∀ x, body.getLast? = some x → x.2 ≠ []) ∧
      ((∀ l ∈ ls, ∃ c d, l = c :: d ∧ isBlank c = false) →
        ∀ x ∈ body, x.2 ≠ [] ∧ x.1 = level) := by
  induction ls with
  | nil => exact ⟨[], LinesOk.nil, rfl, by simp, by simp, by simp⟩
  | cons l ls ih =>
    obtain ⟨body, h1, h2, h3, h4, h5⟩ := ih fun x hx => h x (List.mem_cons_of_mem _ hx)
    obtain ⟨x, hx1, hx2, hx3, hx4, hx5, hx6, hx7⟩ := safeLine_raw hl (h l List.mem_cons_self)
    refine ⟨x :: body, LinesOk.cons hx1 hx2 h1, by rw [List.map_cons, hx4, h2], ?_, ?_, ?_⟩
    · intro y hy
      rcases List.mem_cons.mp hy with rfl | hy
      · exact ⟨hx3, hx6⟩
      · exact h3 y hy
    · intro hlast y hy
      cases hb : body with
      | nil =>
        rw [hb] at hy h2
        simp only [List.getLast?_singleton, Option.some.injEq] at hy
        subst hy
        simp only [List.map_nil] at h2
        rw [← h2] at hlast
        simp only [List.getLast?_singleton, ne_eq, Option.some.injEq] at hlast
        exact fun hh => hlast (hx5.mp hh)
      | cons z zs =>
        rw [hb, List.getLast?_cons_cons, ← hb] at hy
        refine h4 ?_ y hy
        have hlne : ls ≠ [] := by
          rw [← h2, hb]; simp
        obtain ⟨a, b, rfl⟩ := List.exists_cons_of_ne_nil hlne
        rwa [List.getLast?_cons_cons] at hlast
    · intro hall y hy
      rcases List.mem_cons.mp hy with rfl | hy
      · obtain ⟨c, d, he, hc⟩ := hall l List.mem_cons_self
        rw [hx7 c d he hc]
        exact ⟨by simp, rfl⟩
      · exact h5 (fun m hm => hall m (List.mem_cons_of_mem _ hm)) y hy

theorem splitLines_one (v : List Char) (h : ∀ c ∈ v, Printable c) : splitLines v = [v] :=
  splitLines_plain v (printable_not_feed h)

theorem writeScalar_oneLine {cfg : WriteConfig} {v : List Char} (hv : v ≠ [])
    (hp : ∀ c ∈ v, Printable c) (hf : Fits cfg v) (useLevel : Bool) (level : ℕ) :
    writeScalar cfg v useLevel level = (if useLevel then List.replicate level ' ' else []) ++
      (if shouldBeCited v then '"' :: (v ++ ['"', '\n']) else v ++ ['\n']) := by
  unfold writeScalar
  have hlast : decide (([v] : List (List Char)).getLast? = some []) = false := by simp [hv]
  simp only [if_neg hv, splitLines_one v hp, hlast, Bool.false_eq_true, if_false,
    List.length_singleton, Nat.lt_irrefl, List.headD_cons]
  rcases fits_oneLine hv hf with h | h
  · rw [if_pos h]
  · by_cases h' : cfg.scalarMaxLength = 0 ∨ v.length ≤ cfg.scalarMaxLength
    · rw [if_pos h']
    · rw [if_neg h', if_pos h]

theorem block_lines (level : ℕ) (ls : List (List Char)) :
    (ls.map fun l => List.replicate level ' ' ++ (l ++ ['\n'])).flatten =
      unlines (ls.map fun l => List.replicate level ' ' ++ l) := by
  unfold unlines
  rw [List.map_map]
  congr 1
  apply List.map_congr_left
  intro l _
  simp

/-- What is written for a safe text, and how it is read. -/
theorem safeText_written {cfg : WriteConfig} {own blocks : Bool} {v : List Char}
    (h : SafeText cfg own blocks v) (n level : ℕ) (hn : n < level) :
    ∃ (text : List Char) (raws : List (List Char)) (ls : List YLine),
      writeScalar cfg v false level = text ++ '\n' :: unlines raws ∧ LinesOk raws ls ∧
      LineValue n text ls v ∧ (∀ c ∈ text, Printable c) ∧ (∃ m, Cited '#' m text) ∧
      (own = true → ∃ m, Cited ':' m text) ∧
      (blocks = false → writeScalar cfg v true level =
        List.replicate level ' ' ++ (text ++ '\n' :: unlines raws) ∧
        ∀ n', LineValue n' text ls v) := by
  have hblank : AllBlank [] := by simp [AllBlank]
  have sign : ∀ (s : Char) (keep : Bool), (s = '|' ∨ s = '>') →
      BlockSign s keep (s :: if keep then [] else ['-']) := by
    intro s keep hs
    cases keep with
    | true => exact Or.inl ⟨rfl, rfl⟩
    | false => exact Or.inr ⟨rfl, [], hblank, rfl⟩
  have header : ∀ (s : Char) (keep : Bool), (s = '|' ∨ s = '>') →
      (∀ c ∈ (s :: if keep then [] else ['-'] : List Char), Printable c) ∧
        '"' ∉ (s :: if keep then [] else ['-'] : List Char) ∧
        '#' ∉ (s :: if keep then [] else ['-'] : List Char) ∧
        ':' ∉ (s :: if keep then [] else ['-'] : List Char) := by
    intro s keep hs
    have pr : ∀ t : List Char,
        (t.all fun c => decide (32 ≤ c.toNat) && decide (c.toNat ≤ 125)) = true →
        ∀ c ∈ t, Printable c := by
      intro t ht c hc
      have := List.all_eq_true.mp ht c hc
      simp only [Bool.and_eq_true, decide_eq_true_eq] at this
      exact Or.inr this
    rcases hs with rfl | rfl <;> cases keep <;>
      exact ⟨pr _ rfl, by decide, by decide, by decide⟩
  cases h with
  | bare _ hsign htrim hq hp hf =>
    obtain ⟨⟨c, s', hs', hc⟩, hlast⟩ := htrim
    have hne : v ≠ [] := by rw [hs']; simp
    have hcite : shouldBeCited v = false := by
      rw [Bool.eq_false_iff, ne_eq, shouldBeCited_iff]; exact hsign
    have no : ∀ x ∈ ['"', ':', '{', '}', '[', ']', ',', '&', '*', '#', '?', '|', '-', '<', '>', '=', '!',
        '%', '@'], x ∉ v := fun x hx hv => hsign ⟨x, hv, hx⟩
    have hplain : PlainText v := by
      refine ⟨⟨c, s', hs', hc, ?_, ?_⟩, hlast, ⟨?_, ?_⟩, no _ (by decide), hq⟩
      · rintro rfl; exact no '|' (by decide) (by rw [hs']; simp)
      · rintro rfl; exact no '>' (by decide) (by rw [hs']; simp)
      · intro h; exact no '-' (by decide) (by rw [h]; simp)
      · intro t' h; exact no '-' (by decide) (by rw [h]; simp)
    refine ⟨v, [], [], ?_, LinesOk.nil, ?_, hp, ⟨0, .plain v (no _ (by decide)) (no _ (by decide))⟩,
      fun _ => ⟨0, .plain v (no _ (by decide)) (no _ (by decide))⟩, ?_⟩
    · rw [writeScalar_oneLine hne hp hf, hcite]; rfl
    · have := LineValue.inline (n := n) v v [] [] (.plain v hplain) hblank (by simp)
      rwa [List.append_nil] at this
    · refine fun _ => ⟨by rw [writeScalar_oneLine hne hp hf, hcite]; rfl, fun n' => ?_⟩
      have := LineValue.inline (n := n') v v [] [] (.plain v hplain) hblank (by simp)
      rwa [List.append_nil] at this
  | quoted _ hsign hq hl hh hcol hp hf =>
    have hne : v ≠ [] := by
      rintro rfl
      obtain ⟨c, hc, _⟩ := hsign
      simp at hc
    have hcite : shouldBeCited v = true := (shouldBeCited_iff v).mpr hsign
    have hcited : ∀ tok : Char, v.count tok ≤ 1 → Cited tok 1 ('"' :: (v ++ ['"'])) := by
      intro tok ht
      have := Cited.quoted (tok := tok) 0 [] v [] (by simp) (by simp) (by simp)
        (quotesEscaped_of_no_quote hq _) hl ht (.plain [] (by simp) (by simp))
      simpa using this
    refine ⟨'"' :: (v ++ ['"']), [], [], ?_, LinesOk.nil, ?_, ?_, ⟨1, hcited '#' hh⟩,
      fun ho => ⟨1, hcited ':' (hcol ho)⟩, ?_⟩
    · rw [writeScalar_oneLine hne hp hf, hcite]; simp [unlines]
    · have := LineValue.inline (n := n) _ v [] [] (.double v hne hq hl) hblank (by simp)
      rwa [List.append_nil] at this
    · intro c hc
      simp only [List.mem_cons, List.mem_append, List.not_mem_nil, or_false] at hc
      rcases hc with rfl | hc | rfl
      · exact Or.inr (by decide)
      · exact hp c hc
      · exact Or.inr (by decide)
    · refine fun _ => ⟨by rw [writeScalar_oneLine hne hp hf, hcite]; simp [unlines], fun n' => ?_⟩
      have := LineValue.inline (n := n') _ v [] [] (.double v hne hq hl) hblank (by simp)
      rwa [List.append_nil] at this
  | lines c d more keep hb hc hq1 hq2 hfirst hmore hsafe hlast =>
    have hall : ∀ l ∈ (c :: d) :: more, SafeLine l := by
      intro l hl
      rcases List.mem_cons.mp hl with rfl | hl
      · exact hfirst
      · exact hsafe l hl
    obtain ⟨body, h1, h2, h3, h4, _⟩ := safeLines_raw (level := level) (by omega) ((c :: d) :: more) hall
    have hlast' : ((c :: d) :: more).getLast? ≠ some [] := by
      obtain ⟨a, b, rfl⟩ := List.exists_cons_of_ne_nil hmore
      rwa [List.getLast?_cons_cons]
    -- the first line
    obtain ⟨x, xs, hbody⟩ : ∃ x xs, body = x :: xs := by
      cases body with
      | nil => simp at h2
      | cons x xs => exact ⟨x, xs, rfl⟩
    have hx : x = (level, c :: d) := by
      have hraw := h1.1
      rw [hbody, List.map_cons] at hraw
      obtain ⟨x', hx1, _, _, _, _, _, hx7⟩ := safeLine_raw (level := level) (by omega) hfirst
      have hxx : RawLine (List.replicate level ' ' ++ c :: d) x := by
        cases hraw with
        | cons ha _ => exact ha
      have e1 := hxx.read.1
      rw [hx7 c d rfl hc] at hx1
      rw [hx1.read.1] at e1
      exact (Except.ok.inj e1).symm
    subst hx
    obtain ⟨hd1, hd2, hd3, hd4⟩ := header '|' keep (Or.inl rfl)
    have hfeeds : ∀ r ∈ (c :: d) :: more, '\n' ∉ r := fun r hr => printable_not_feed (hall r hr).1
    have hsplit := splitLines_join ((c :: d) :: more) (by simp) hfeeds keep
    refine ⟨'|' :: (if keep then [] else ['-']), _, body, ?_, h1, ?_, hd1, ⟨0, .plain _ hd2 hd3⟩,
      fun _ => ⟨0, .plain _ hd2 hd4⟩, fun h => absurd (hb.symm.trans h) (by decide)⟩
    · unfold writeScalar
      have hvne : joinWith '\n' ((c :: d) :: more) ++ lastFeed keep ≠ [] := by
        intro h
        have := congrArg List.head? h
        rw [joinWith_head] at this
        cases this
      have hend : decide (((c :: d) :: more ++ (if keep then [[]] else [])).getLast? = some []) = keep := by
        cases keep with
        | true =>
          simp only [if_true, decide_eq_true_eq]
          rw [List.getLast?_append]; rfl
        | false =>
          simp only [Bool.false_eq_true, if_false, List.append_nil]
          exact decide_eq_false hlast'
      have hlines : (if keep = true then ((c :: d) :: more ++ (if keep then [[]] else [])).dropLast
          else (c :: d) :: more ++ (if keep then [[]] else [])) = (c :: d) :: more := by
        cases keep with
        | true => simp only [if_true]; exact List.dropLast_concat
        | false => simp
      have hlen : 1 < ((c :: d) :: more).length := by
        have := List.length_pos_iff.mpr hmore
        simp only [List.length_cons]; omega
      simp only [if_neg hvne, hsplit, hend, hlines, if_pos hlen, block_lines]
      rfl
    · rw [hbody] at h2 h3 h4 ⊢
      have hv := LineValue.literal (n := n) _ keep level c d xs [] (sign '|' keep (Or.inl rfl)) hn hc
        hq1 hq2 (fun y hy => h3 y (List.mem_cons_of_mem _ hy))
        (by
          intro y hy
          refine h4 hlast' y ?_
          rw [List.getLast?_cons, hy]; rfl) (by simp)
      rw [List.append_nil, h2] at hv
      exact hv
  | long c d keep p hb hc hq1 hq2 hp hh hbl hm0 hlt hpm hpb =>
    obtain ⟨g1, g2, g3⟩ := lineFolding_pieces cfg.scalarMaxLength hm0 _ (c :: d) le_rfl
      ⟨c, d, rfl, hc⟩ hbl
    have hall : ∀ l ∈ lineFolding cfg.scalarMaxLength (c :: d), SafeLine l := by
      intro l hl
      obtain ⟨⟨c', l', hl', hc'⟩, hsub⟩ := g3 l hl
      exact ⟨fun x hx => hp x (hsub x hx), fun hx => hh (hsub _ hx),
        Or.inr ⟨0, c', l', by rw [hl']; rfl, hc'⟩⟩
    obtain ⟨body, h1, h2, h3, _, h5⟩ := safeLines_raw (level := level) (by omega) _ hall
    have h5' := h5 fun l hl => (g3 l hl).1
    have hsnd : body.map Prod.snd = lineFolding cfg.scalarMaxLength (c :: d) := by
      rw [← h2]
      apply List.map_congr_left
      intro y hy
      obtain ⟨ha, hb'⟩ := h5' y hy
      rw [blockLine, if_neg ha, hb']
      simp
    obtain ⟨x, xs, hbody⟩ : ∃ x xs, body = x :: xs := by
      cases body with
      | nil => rw [List.map_nil] at hsnd; exact absurd hsnd.symm g1
      | cons x xs => exact ⟨x, xs, rfl⟩
    have hx : ∃ d', x = (level, c :: d') := by
      obtain ⟨ha, hb'⟩ := h5' x (by rw [hbody]; simp)
      have hj : joinWith ' ' (body.map Prod.snd) = c :: d := by rw [hsnd, g2]
      rw [hbody, List.map_cons] at hj
      obtain ⟨o, t⟩ := x
      obtain ⟨a, t', rfl⟩ := List.exists_cons_of_ne_nil ha
      simp only at hb' hj
      have hhead := congrArg List.head? hj
      have := joinWith_head (c := ' ') (x := a) (d := t') (l := xs.map Prod.snd) (y := [])
      rw [List.append_nil] at this
      rw [this] at hhead
      simp only [List.head?_cons, Option.some.injEq] at hhead
      exact ⟨t', by rw [hb', hhead]⟩
    obtain ⟨d', rfl⟩ := hx
    obtain ⟨hd1, hd2, hd3, hd4⟩ := header '>' keep (Or.inr rfl)
    refine ⟨'>' :: (if keep then [] else ['-']), _, body, ?_, h1, ?_, hd1, ⟨0, .plain _ hd2 hd3⟩,
      fun _ => ⟨0, .plain _ hd2 hd4⟩, fun h => absurd (hb.symm.trans h) (by decide)⟩
    · have hsplit : splitLines (c :: d ++ lastFeed keep) = [c :: d] ++ (if keep then [[]] else []) := by
        have := splitLines_join [c :: d] (by simp)
          (by intro r hr; rw [List.mem_singleton] at hr; rw [hr]; exact printable_not_feed hp) keep
        exact this
      unfold writeScalar
      have hend : decide (([c :: d] ++ (if keep then [[]] else [])).getLast? = some []) = keep := by
        cases keep <;> simp
      have hlines : (if keep = true then ([c :: d] ++ (if keep then [[]] else [])).dropLast
          else [c :: d] ++ (if keep then [[]] else [])) = [c :: d] := by
        cases keep <;> simp
      have hvne : c :: d ++ lastFeed keep ≠ [] := by simp
      have hnot : ¬ (cfg.scalarMaxLength = 0 ∨ (c :: d).length ≤ cfg.scalarMaxLength) := by
        push Not
        exact ⟨hm0, hlt⟩
      have htwo := lineFolding_two hlt hpm hpb hbl
      simp only [if_neg hvne, hsplit, hend, hlines, List.length_singleton, Nat.lt_irrefl, if_false,
        List.headD_cons, if_neg hnot, if_neg htwo, block_lines]
      rfl
    · rw [hbody] at hsnd h3 h5' ⊢
      have hv := LineValue.folded (n := n) _ keep level c d' xs [] (sign '>' keep (Or.inr rfl)) hn hc
        hq1 hq2 (fun y hy => ⟨(h3 y (List.mem_cons_of_mem _ hy)).1, h5' y (List.mem_cons_of_mem _ hy)⟩)
        (by simp)
      rw [List.append_nil, hsnd, g2] at hv
      exact hv

/-! ## What is written for a tree -/

theorem safeKey_written {k : List Char} (h : SafeKey k) :
    KeyText (writeKey k) k ∧ (∀ c ∈ writeKey k, Printable c) ∧ 
      (∀ m d, Cited '#' m d → ∃ m', Cited '#' m' (writeKey k ++ (':' :: ' ' :: d))) ∧
      ∃ c w, writeKey k = c :: w ∧ isBlank c = false := by
  have hpe : ∀ c ∈ escapeText k, Printable c := by
    intro c hc
    by_cases hb : c = '\\'
    · rw [hb]; exact Or.inr (by decide)
    · exact h.chars c ((mem_escape hb k).mp hc)
  unfold writeKey addEscapeTokens
  rw [addEscape_backslash]
  by_cases hs : HasSign k
  · obtain ⟨h1, h2, h3⟩ := h.quoted hs
    rw [if_pos ((shouldBeCited_iff _).mpr ((hasSign_escape k).mpr hs))]
    refine ⟨.quoted k h1 h2, ?_, fun m d hd => ⟨m + 1, ?_⟩, '"', _, rfl, by decide⟩
    · intro c hc
      simp only [List.mem_cons, List.mem_append, List.not_mem_nil, or_false] at hc
      rcases hc with rfl | hc | rfl
      · exact Or.inr (by decide)
      · exact hpe c hc
      · exact Or.inr (by decide)
    · have := Cited.quoted (tok := '#') m [] (escapeText k) ([':', ' '] ++ d) (by simp) (by simp)
        (by simp) (quotesEscaped_escape k _) (by rwa [getLast?_escape])
        (by rwa [count_escape (by decide)])
        (Cited.append_left (by decide) (by decide) (by decide) hd)
      simpa using this
  · have hno : ¬ HasSign (escapeText k) := fun hh => hs ((hasSign_escape k).mp hh)
    have no : ∀ x ∈ ['"', ':', '{', '}', '[', ']', ',', '&', '*', '#', '?', '|', '-', '<', '>', '=', '!',
        '%', '@'], x ∉ k := fun x hx hv => hs ⟨x, hv, hx⟩
    have no' : ∀ x ∈ ['"', ':', '{', '}', '[', ']', ',', '&', '*', '#', '?', '|', '-', '<', '>', '=', '!',
        '%', '@'], x ∉ escapeText k := fun x hx hv => hno ⟨x, hv, hx⟩
    obtain ⟨⟨c, k', hk, hc⟩, hl⟩ := h.bare hs
    rw [if_neg (by rw [shouldBeCited_iff]; exact hno)]
    refine ⟨.bare k ⟨⟨c, k', hk, hc, ?_⟩, hl, no _ (by decide), no _ (by decide)⟩, hpe,
      fun m d hd => ⟨m, ?_⟩, ?_⟩
    · rintro rfl
      exact absurd (by rw [hk]; simp) (no '-' (by decide))
    · have := Cited.append_left (tok := '#') (a := escapeText k ++ [':', ' '])
        (by simp [no' '"' (by decide)]) (by simp [no' '#' (by decide)]) (by simp) hd
      simpa using this
    · rw [hk, escapeText]
      split
      · exact ⟨'\\', _, rfl, by decide⟩
      · exact ⟨c, _, rfl, hc⟩

theorem Writable.ne_nil {cfg : WriteConfig} {out : YOut} (h : Writable cfg out) :
    match out with
    | .node v => v.isNone = false
    | .items l => l ≠ []
    | .entries e => ∃ x e', e = x :: e' ∧ x.2.isNone = false := by
  induction h with
  | entryText k s _ _ => exact ⟨_, _, rfl, rfl⟩
  | entryNode k v _ _ ih => exact ⟨_, _, rfl, ih⟩
  | entriesCons x e _ _ ih _ =>
    obtain ⟨y, e', he, hy⟩ := ih
    obtain ⟨rfl, _⟩ := List.cons.inj he
    exact ⟨x, e, rfl, hy⟩
  | itemText s _ => simp
  | itemNode v _ _ => simp
  | itemsCons v l _ _ _ _ => simp
  | seq l _ _ => rfl
  | map e _ _ _ => rfl

theorem Writable.items_cons {cfg : WriteConfig} {l : List YNode} (h : Writable cfg (.items l)) :
    ∀ v ∈ l, v.isNone = false := by
  generalize ho : YOut.items l = out at h
  induction h generalizing l with
  | itemText s _ => cases ho; simp [YNode.isNone]
  | itemNode v hv _ => cases ho; simpa using hv.ne_nil
  | itemsCons v l' _ _ ih1 ih2 =>
    cases ho
    intro x hx
    rcases List.mem_cons.mp hx with rfl | hx
    · exact ih1 rfl x (by simp)
    · exact ih2 rfl x hx
  | _ => cases ho

/-- The first entry at the level, or behind the dash. -/
theorem writeEntries_level {cfg : WriteConfig} {e : List (String × YNode)}
    (h : Writable cfg (.entries e)) (level : ℕ) :
    writeEntries cfg e true level = List.replicate level ' ' ++ writeEntries cfg e false level := by
  obtain ⟨⟨k, v⟩, e', rfl, hv⟩ := h.ne_nil
  simp only at hv
  rw [writeEntries, writeEntries, hv]
  simp

theorem mapOf_sorted {e : List (String × YNode)} (h : SmSorted e) : mapOf e = e := by
  have gen : ∀ (e m : List (String × YNode)), SmSorted (m ++ e) →
      e.foldl (fun m x => smAssign x.1 x.2 m) m = m ++ e := by
    intro e
    induction e with
    | nil => intro m _; simp
    | cons x e ih =>
      intro m hm
      have hlt : ∀ y ∈ m, y.1 < x.1 := by
        intro y hy
        simp only [SmSorted, List.map_append, List.map_cons, List.pairwise_append] at hm
        exact hm.2.2 _ (List.mem_map_of_mem hy) _ List.mem_cons_self
      have hfind : smFind x.1 m = none := by
        clear ih hm
        induction m with
        | nil => rfl
        | cons y m ih' =>
          have hy := hlt y List.mem_cons_self
          rw [smFind, if_neg (ne_of_gt hy)]
          exact ih' fun z hz => hlt z (List.mem_cons_of_mem _ hz)
      have hins : smInsert x.1 x.2 m = m ++ [x] := by
        clear ih hm hfind
        induction m with
        | nil => rfl
        | cons y m ih' =>
          have hy := hlt y List.mem_cons_self
          rw [smInsert, if_neg (not_lt.mpr hy.le), ih' fun z hz => hlt z (List.mem_cons_of_mem _ hz)]
          rfl
      rw [List.foldl_cons]
      have : smAssign x.1 x.2 m = m ++ [x] := by
        unfold smAssign
        rw [hfind]
        exact hins
      rw [this, ih _ (by simpa using hm)]
      simp
  have := gen e [] (by simpa using h)
  simpa [mapOf] using this

theorem SmSorted.nodup {e : List (String × YNode)} (h : SmSorted e) : (e.map Prod.fst).Nodup :=
  h.imp fun hab => ne_of_lt hab

/-- A line of text is read at its indentation. -/
theorem textLine {n : ℕ} {d : List Char} (hhead : ∃ c d', d = c :: d' ∧ isBlank c = false)
    (hp : ∀ c ∈ d, Printable c) (hc : ∃ m, Cited '#' m d) (hm : ':' ∈ d ∨ ' ' ∈ d ∨ 0 < n) :
    RawLine (List.replicate n ' ' ++ d) (n, d) ∧ '\n' ∉ List.replicate n ' ' ++ d := by
  refine ⟨?_, ?_⟩
  · have := RawLine.text n d [] hhead hp (Or.inl ⟨hc, Or.inl rfl⟩) (by
      intro hn
      rcases hm with hm | hm | hm
      · constructor
        · rintro rfl; exact absurd hm (by decide)
        · rintro rfl; exact absurd hm (by decide)
      · constructor
        · rintro rfl; exact absurd hm (by decide)
        · rintro rfl; exact absurd hm (by decide)
      · omega)
    rwa [List.append_nil] at this
  · rw [List.mem_append, not_or]
    exact ⟨replicate_blank_feed n, printable_not_feed hp⟩

/-- What the induction shows. -/
def Written (cfg : WriteConfig) : YOut → Prop
  | .entries e => ∀ level, ∃ (d : List Char) (raws : List (List Char)) (ls : List YLine),
      writeEntries cfg e false level = d ++ '\n' :: unlines raws ∧
      (∃ c d', d = c :: d' ∧ isBlank c = false) ∧ (∀ c ∈ d, Printable c) ∧
      (∃ m, Cited '#' m d) ∧ ':' ∈ d ∧ LinesOk raws ls ∧
      YDoc level ((level, d) :: ls) (.entries e)
  | .items l => ∀ (level : ℕ) (s : List (ℕ × YNode)), s.map Prod.snd = l →
      ∃ (raws : List (List Char)) (ls : List YLine),
        writeItems cfg s level = unlines raws ∧ LinesOk raws ls ∧ YDoc level ls (.items l)
  | .node v => (∀ level, ∃ (raws : List (List Char)) (ls : List YLine),
      writeNode cfg v true level = unlines raws ∧ LinesOk raws ls ∧ YDoc level ls (.node v)) ∧
      (∀ s, v ≠ .scalar s) ∧
      (∀ e, v = .map e → SmSorted e ∧ ∀ level, ∃ (d : List Char) (raws : List (List Char))
        (ls : List YLine), writeEntries cfg e false level = d ++ '\n' :: unlines raws ∧
        (∃ c d', d = c :: d' ∧ isBlank c = false) ∧ (∀ c ∈ d, Printable c) ∧
        (∃ m, Cited '#' m d) ∧ ':' ∈ d ∧ LinesOk raws ls ∧
        YDoc level ((level, d) :: ls) (.entries e))

theorem printable_append {a b : List Char} (ha : ∀ c ∈ a, Printable c) (hb : ∀ c ∈ b, Printable c) :
    ∀ c ∈ a ++ b, Printable c := by
  intro c hc
  rcases List.mem_append.mp hc with hc | hc
  · exact ha c hc
  · exact hb c hc

theorem seqOf_snd (l : List YNode) : (seqOf l).map Prod.snd = l := by
  unfold seqOf
  simp [List.map_map, Function.comp_def]

set_option maxHeartbeats 1000000 in
theorem Writable.written {cfg : WriteConfig} (hind : 2 ≤ cfg.spaceIndentation) {out : YOut}
    (h : Writable cfg out) : Written cfg out := by
  have pcolon : ∀ c ∈ [':', ' '], Printable c := by
    intro c hc
    simp only [List.mem_cons, List.not_mem_nil, or_false] at hc
    rcases hc with rfl | rfl
    · exact Or.inr (by decide)
    · exact Or.inr (by decide)
  have pdash : ∀ c ∈ ['-', ' '], Printable c := by
    intro c hc
    simp only [List.mem_cons, List.not_mem_nil, or_false] at hc
    rcases hc with rfl | rfl
    · exact Or.inr (by decide)
    · exact Or.inr (by decide)
  have hsp : AllBlank [' '] := by simp [AllBlank, isBlank]
  have h0 : AllBlank [] := by simp [AllBlank]
  induction h with
  | entryText k s hk hs =>
    intro level
    obtain ⟨kt, kp, kc, kch, kw, hkw, hkb⟩ := safeKey_written hk
    obtain ⟨text, raws, ls, w1, w2, w3, w4, ⟨mt, w5⟩, w6, w7⟩ :=
      safeText_written hs level (level + cfg.spaceIndentation) (by omega)
    have hsn : YNode.isNone (.scalar s) = false := rfl
    have hbe : YNode.breaksEntry cfg (.scalar s) = cfg.mapScalarNewline := rfl
    have hw : writeEntries cfg [(k, .scalar s)] false level = writeKey k.toList ++ (':' :: ' ' ::
        ((if cfg.mapScalarNewline then ['\n'] else []) ++
          writeScalar cfg s.toList cfg.mapScalarNewline (level + cfg.spaceIndentation))) := by
      rw [writeEntries, hsn, hbe, writeNode]
      simp [writeEntries]
    rw [hw]
    cases hn : cfg.mapScalarNewline with
    | false =>
      refine ⟨writeKey k.toList ++ ':' :: ([' '] ++ text), raws, ls, ?_, ?_, ?_,
        ?_, by simp, w2, ?_⟩
      · rw [w1]; simp
      · rw [hkw]; exact ⟨kch, _, rfl, hkb⟩
      · exact printable_append kp (printable_append (a := [':', ' ']) pcolon w4)
      · exact kc mt text w5
      · have := YDoc.entryScalar level _ _ [' '] _ _ _ kt hsp w3
        rwa [String.ofList_toList, String.ofList_toList] at this
    | true =>
      rw [hn] at w6 w7
      obtain ⟨m', w6'⟩ := w6 rfl
      obtain ⟨w7, w8⟩ := w7 rfl
      obtain ⟨c, d', hd, hcb⟩ : ∃ c d', text = c :: d' ∧ isBlank c = false := by
        obtain ⟨_, _, hg⟩ := w3.good
        exact hg.head
      obtain ⟨r1, r2⟩ := textLine (n := level + cfg.spaceIndentation) ⟨c, d', hd, hcb⟩ w4 ⟨mt, w5⟩
        (Or.inr (Or.inr (by omega)))
      refine ⟨writeKey k.toList ++ ':' :: [' '], _, _, ?_, ?_, ?_, ?_, by simp,
        LinesOk.cons r1 r2 w2, ?_⟩
      · rw [if_pos rfl, w7, unlines_cons]; simp
      · rw [hkw]; exact ⟨kch, _, rfl, hkb⟩
      · exact printable_append kp pcolon
      · exact kc 0 [] (.plain [] (by simp) (by simp))
      · have := YDoc.entryBlock level (level + cfg.spaceIndentation) _ _ [' '] [] _ _ kt hsp (by simp)
          (by omega) (YDoc.scalarNode (level + cfg.spaceIndentation) m' text ls s.toList (w8 _) w6')
        rwa [String.ofList_toList, String.ofList_toList] at this
  | entryNode k v hk hv ih =>
    intro level
    obtain ⟨kt, kp, kc, kch, kw, hkw, hkb⟩ := safeKey_written hk
    obtain ⟨ih1, ih2, _⟩ := ih
    obtain ⟨raws, ls, w1, w2, w3⟩ := ih1 (level + cfg.spaceIndentation)
    have hbe : v.breaksEntry cfg = true := by
      cases v with
      | scalar s => exact absurd rfl (ih2 s)
      | _ => rfl
    have hw : writeEntries cfg [(k, v)] false level = writeKey k.toList ++ (':' :: ' ' :: '\n' ::
          writeNode cfg v true (level + cfg.spaceIndentation)) := by
      rw [writeEntries, hv.ne_nil, hbe]
      simp [writeEntries]
    rw [hw]
    refine ⟨writeKey k.toList ++ ':' :: [' '], raws, ls, ?_, ?_, ?_, ?_,
      by simp, w2, ?_⟩
    · rw [w1]; simp
    · rw [hkw]; exact ⟨kch, _, rfl, hkb⟩
    · exact printable_append kp pcolon
    · exact kc 0 [] (.plain [] (by simp) (by simp))
    · have := YDoc.entryBlock level (level + cfg.spaceIndentation) _ _ [' '] [] _ _ kt hsp (by simp)
        (by omega) w3
      rwa [String.ofList_toList] at this
  | entriesCons x e hx he ihx ihe =>
    intro level
    obtain ⟨d, raws, ls, w1, w2, w3, w4, w5, w6, w7⟩ := ihx level
    obtain ⟨d', raws', ls', v1, v2, v3, v4, v5, v6, v7⟩ := ihe level
    obtain ⟨r1, r2⟩ := textLine (n := level) v2 v3 v4 (Or.inl v5)
    obtain ⟨k, v⟩ := x
    have hvn : v.isNone = false := by
      obtain ⟨y, e', hy, hyn⟩ := hx.ne_nil
      obtain ⟨rfl, _⟩ := List.cons.inj hy
      exact hyn
    have hw : writeEntries cfg ((k, v) :: e) false level =
        writeEntries cfg [(k, v)] false level ++ writeEntries cfg e true level := by
      rw [writeEntries, writeEntries, hvn]
      simp [writeEntries]
    refine ⟨d, raws ++ (List.replicate level ' ' ++ d') :: raws', ls ++ (level, d') :: ls', ?_, w2, w3,
      w4, w5, LinesOk.append w6 (LinesOk.cons r1 r2 v6), ?_⟩
    · rw [hw, w1, writeEntries_level he, v1, unlines_append, unlines_cons]
      simp
    · exact YDoc.entriesAppend level ((level, d) :: ls) _ [(k, v)] e w7 v7
  | itemText s hs =>
    rintro level sq hsq
    obtain ⟨⟨i, v⟩, rfl⟩ : ∃ x, sq = [x] := by
      cases sq with
      | nil => simp at hsq
      | cons x t =>
        cases t with
        | nil => exact ⟨x, rfl⟩
        | cons y t => simp at hsq
    simp only [List.map_cons, List.map_nil, List.cons.injEq, and_true] at hsq
    subst hsq
    obtain ⟨text, raws, ls, w1, w2, w3, w4, ⟨mt, w5⟩, w6, w7⟩ :=
      safeText_written hs level (level + 2) (by omega)
    obtain ⟨m', w6'⟩ := w6 rfl
    have hsn : YNode.isNone (.scalar s) = false := rfl
    have hbe : YNode.breaksItem cfg (.scalar s) = false := rfl
    obtain ⟨r1, r2⟩ := textLine (n := level) (d := '-' :: ' ' :: ([] ++ text)) ⟨_, _, rfl, by decide⟩
      (printable_append (a := ['-', ' ']) pdash w4)
      ⟨mt, Cited.append_left (a := ['-', ' ']) (by decide) (by decide) (by decide) w5⟩
      (Or.inr (Or.inl (by simp)))
    refine ⟨_, _, ?_, LinesOk.cons r1 r2 w2, ?_⟩
    · rw [writeItems, hsn, hbe, writeNode, w1, writeItems, unlines_cons]
      simp
    · have := YDoc.itemScalar level m' [] _ _ _ h0 w3 w6'
      rwa [String.ofList_toList] at this
  | itemNode v hv ih =>
    rintro level sq hsq
    obtain ⟨⟨i, v'⟩, rfl⟩ : ∃ x, sq = [x] := by
      cases sq with
      | nil => simp at hsq
      | cons x t =>
        cases t with
        | nil => exact ⟨x, rfl⟩
        | cons y t => simp at hsq
    simp only [List.map_cons, List.map_nil, List.cons.injEq, and_true] at hsq
    subst hsq
    obtain ⟨ih1, ih2, ih3⟩ := ih
    have hvn := hv.ne_nil
    simp only at hvn
    cases hb : v'.breaksItem cfg with
    | true =>
      obtain ⟨raws, ls, w1, w2, w3⟩ := ih1 (level + 2)
      obtain ⟨r1, r2⟩ := textLine (n := level) (d := ['-', ' ']) ⟨_, _, rfl, by decide⟩ pdash
        ⟨0, .plain _ (by decide) (by decide)⟩ (Or.inr (Or.inl (by simp)))
      refine ⟨_, _, ?_, LinesOk.cons r1 r2 w2, ?_⟩
      · rw [writeItems, hvn, hb, w1, writeItems, unlines_cons]
        simp
      · exact YDoc.itemBlock level (level + 2) [' '] [] ls v' (Or.inr ⟨[], rfl, h0⟩) (by simp) (by omega) w3
    | false =>
      obtain ⟨e, rfl⟩ : ∃ e, v' = .map e := by
        cases v' with
        | map e => exact ⟨e, rfl⟩
        | scalar s => exact absurd rfl (ih2 s)
        | seq l => cases hb
        | none => cases hvn
      obtain ⟨hsorted, h3⟩ := ih3 e rfl
      obtain ⟨d, raws, ls, w1, w2, w3, ⟨mt, w4⟩, w5, w6, w7⟩ := h3 (level + 2)
      obtain ⟨r1, r2⟩ := textLine (n := level) (d := '-' :: ' ' :: ([] ++ d)) ⟨_, _, rfl, by decide⟩
        (printable_append (a := ['-', ' ']) pdash w3)
        ⟨mt, Cited.append_left (a := ['-', ' ']) (by decide) (by decide) (by decide) w4⟩
        (Or.inr (Or.inl (by simp)))
      refine ⟨_, _, ?_, LinesOk.cons r1 r2 w6, ?_⟩
      · rw [writeItems, hvn, hb, writeNode, w1, writeItems, unlines_cons]
        simp
      · have := YDoc.itemInline level [] d ls e h0 hsorted.nodup w7
        rwa [mapOf_sorted hsorted] at this
  | itemsCons v l hv hl ihv ihl =>
    rintro level sq hsq
    cases sq with
    | nil => simp at hsq
    | cons x t =>
      obtain ⟨i, v'⟩ := x
      simp only [List.map_cons, List.cons.injEq] at hsq
      obtain ⟨rfl, rfl⟩ := hsq
      obtain ⟨raws, ls, w1, w2, w3⟩ := ihv level [(i, v')] rfl
      obtain ⟨raws', ls', v1, v2, v3⟩ := ihl level t rfl
      refine ⟨raws ++ raws', ls ++ ls', ?_, w2.append v2, YDoc.itemsAppend level _ _ _ _ w3 v3⟩
      rw [unlines_append, ← w1, ← v1, writeItems, writeItems, writeItems]
      simp
  | seq l hl ih =>
    refine ⟨?_, by simp, by simp⟩
    intro level
    obtain ⟨raws, ls, w1, w2, w3⟩ := ih level (seqOf l) (seqOf_snd l)
    exact ⟨raws, ls, by rw [writeNode, w1], w2, YDoc.seqNode level ls l w3⟩
  | map e hsorted he ih =>
    refine ⟨?_, by simp, ?_⟩
    · intro level
      obtain ⟨d, raws, ls, w1, w2, w3, w4, w5, w6, w7⟩ := ih level
      obtain ⟨r1, r2⟩ := textLine (n := level) w2 w3 w4 (Or.inl w5)
      refine ⟨_, _, ?_, LinesOk.cons r1 r2 w6, ?_⟩
      · rw [writeNode, writeEntries_level he, w1, unlines_cons]
        simp
      · have := YDoc.mapNode level _ e hsorted.nodup w7
        rwa [mapOf_sorted hsorted] at this
    · rintro e' he'
      cases he'
      exact ⟨hsorted, ih⟩

/-! ## Empty lines at the end -/

theorem LineValue.emptyEnd {n : ℕ} {text : List Char} {lines : List YLine} {v : List Char}
    (h : LineValue n text lines v) : LineValue n text (lines ++ [(0, [])]) v := by
  have ext : ∀ bl : List YLine, (∀ x ∈ bl, x.2 = []) → ∀ x ∈ bl ++ [(0, [])], x.2 = [] := by
    intro bl hbl x hx
    rcases List.mem_append.mp hx with hx | hx
    · exact hbl x hx
    · rw [List.mem_singleton] at hx; rw [hx]
  cases h with
  | inline t v tr bl h1 h2 h3 => exact .inline t _ tr _ h1 h2 (ext _ h3)
  | literal _ keep n' c d body bl h1 h2 h3 h4 h5 h6 h7 h8 =>
    rw [List.append_assoc]
    exact .literal _ keep n' c d body _ h1 h2 h3 h4 h5 h6 h7 (ext _ h8)
  | folded _ keep n' c d body bl h1 h2 h3 h4 h5 h6 h7 =>
    rw [List.append_assoc]
    exact .folded _ keep n' c d body _ h1 h2 h3 h4 h5 h6 (ext _ h7)

theorem YDoc.emptyEnd {n : ℕ} {ls : List YLine} {out : YOut} (h : YDoc n ls out) :
    YDoc n (ls ++ [(0, [])]) out := by
  induction h with
  | entryScalar n w k sp text lines v h1 h2 h3 => exact .entryScalar n w k sp text _ v h1 h2 h3.emptyEnd
  | entryBlock n n' w k tr bl ls v h1 h2 h3 h4 _ ih =>
    rw [List.cons_append, List.append_assoc]
    exact .entryBlock n n' w k tr bl _ v h1 h2 h3 h4 ih
  | entriesAppend n ls₁ ls₂ e₁ e₂ h1 _ _ ih =>
    rw [List.append_assoc]
    exact .entriesAppend n _ _ _ _ h1 ih
  | itemScalar n m sp text lines v h1 h2 h3 => exact .itemScalar n m sp text _ v h1 h2.emptyEnd h3
  | itemBlock n n' tr bl ls v h1 h2 h3 _ ih =>
    rw [List.cons_append, List.append_assoc]
    exact .itemBlock n n' tr bl _ v h1 h2 h3 ih
  | itemInline n sp d ls e h1 h2 _ ih => exact .itemInline n sp d _ e h1 h2 ih
  | itemsAppend n ls₁ ls₂ l₁ l₂ h1 _ _ ih =>
    rw [List.append_assoc]
    exact .itemsAppend n _ _ _ _ h1 ih
  | seqNode n ls l _ ih => exact .seqNode n _ l ih
  | mapNode n ls e h1 _ ih => exact .mapNode n _ e h1 ih
  | scalarNode n m text lines v h1 h2 => exact .scalarNode n m text _ v h1.emptyEnd h2

theorem LinesOk.emptyEnd {raws : List (List Char)} {ls : List YLine} (h : LinesOk raws ls) :
    LinesOk (raws ++ [[]]) (ls ++ [(0, [])]) :=
  h.append ⟨.cons (RawLine.blank [] [] (by simp [AllBlank]) (Or.inl rfl)) .nil, by simp⟩

/-! ## The property -/

/-- **C99.** A tree of maps and sequences with safe keys and texts that is written, whatever the
configuration (with an indentation of at least two), and read again is the same tree. -/
theorem C99_round_trip (cfg : WriteConfig) (hind : 2 ≤ cfg.spaceIndentation) (v : YNode)
    (h : Writable cfg (.node v)) :
    ∃ text, serialize cfg v = some text ∧ parseYaml (splitLines text) = .ok v := by
  refine ⟨writeNode cfg v false 0, by rw [serialize, if_neg (by omega)], ?_⟩
  cases h with
  | seq l hl =>
    obtain ⟨raws, ls, w1, w2, w3⟩ := hl.written hind 0 (seqOf l) (seqOf_snd l)
    rw [writeNode, w1, splitLines_unlines raws w2.2]
    exact C39_sequence_document _ [] _ 0 l w2.emptyEnd.1 (by simp) w3.emptyEnd
  | map e hsorted he =>
    obtain ⟨d, raws, ls, w1, w2, w3, w4, w5, w6, w7⟩ := he.written hind 0
    obtain ⟨r1, r2⟩ := textLine (n := 0) w2 w3 w4 (Or.inl w5)
    have hok := (LinesOk.cons r1 r2 w6)
    have he1 : d ++ '\n' :: unlines raws = unlines ((List.replicate 0 ' ' ++ d) :: raws) := by
      rw [unlines_cons]; rfl
    rw [writeNode, w1, he1, splitLines_unlines _ hok.2,
      C39_map_document _ [] _ 0 e hok.emptyEnd.1 (by simp) w7.emptyEnd hsorted.nodup,
      mapOf_sorted hsorted]

/-- **C99.** An indentation below two is refused. -/
theorem C99_indentation (cfg : WriteConfig) (v : YNode) :
    serialize cfg v = none ↔ cfg.spaceIndentation < 2 := by
  unfold serialize
  split <;> simp_all

mutual

/-- The tree without the children that have no content, at every depth. -/
def YNode.prune : YNode → YNode
  | .none => .none
  | .scalar s => .scalar s
  | .seq l => .seq (seqOf (pruneItems l))
  | .map m => .map (pruneEntries m)

/-- The items that have content. -/
def pruneItems : List (ℕ × YNode) → List YNode
  | [] => []
  | (_, v) :: l => if v.isNone then pruneItems l else v.prune :: pruneItems l

/-- The entries that have content. -/
def pruneEntries : List (String × YNode) → List (String × YNode)
  | [] => []
  | (k, v) :: m => if v.isNone then pruneEntries m else (k, v.prune) :: pruneEntries m

end

theorem isNone_prune (v : YNode) : v.prune.isNone = v.isNone := by cases v <;> rfl

theorem breaksItem_prune (cfg : WriteConfig) (v : YNode) :
    v.prune.breaksItem cfg = v.breaksItem cfg := by cases v <;> rfl

theorem breaksEntry_prune (cfg : WriteConfig) (v : YNode) :
    v.prune.breaksEntry cfg = v.breaksEntry cfg := by cases v <;> rfl

/-- The numbers of the items do not matter. -/
theorem writeItems_snd (cfg : WriteConfig) (l l' : List (ℕ × YNode)) (level : ℕ)
    (h : l.map Prod.snd = l'.map Prod.snd) : writeItems cfg l level = writeItems cfg l' level := by
  induction l generalizing l' with
  | nil =>
    cases l' with
    | nil => rfl
    | cons x l' => simp at h
  | cons x l ih =>
    cases l' with
    | nil => simp at h
    | cons y l' =>
      obtain ⟨i, v⟩ := x
      obtain ⟨j, w⟩ := y
      simp only [List.map_cons, List.cons.injEq] at h
      obtain ⟨rfl, h⟩ := h
      rw [writeItems, writeItems, ih l' h]

theorem writeItems_seqOf_cons (cfg : WriteConfig) (v : YNode) (l : List YNode) (level : ℕ) :
    writeItems cfg (seqOf (v :: l)) level = writeItems cfg ((0, v) :: seqOf l) level := by
  apply writeItems_snd
  rw [List.map_cons, seqOf_snd, seqOf_snd]

mutual

theorem writeNode_prune (cfg : WriteConfig) : ∀ (v : YNode) (b : Bool) (level : ℕ),
    writeNode cfg v.prune b level = writeNode cfg v b level
  | .none, _, _ => rfl
  | .scalar _, _, _ => rfl
  | .seq l, b, level => by
    rw [YNode.prune, writeNode, writeNode, writeItems_prune]
  | .map m, b, level => by
    rw [YNode.prune, writeNode, writeNode, writeEntries_prune]

theorem writeItems_prune (cfg : WriteConfig) : ∀ (l : List (ℕ × YNode)) (level : ℕ),
    writeItems cfg (seqOf (pruneItems l)) level = writeItems cfg l level
  | [], _ => rfl
  | (i, v) :: l, level => by
    rw [pruneItems, writeItems]
    cases hv : v.isNone with
    | true => simp only [if_true, List.nil_append]; exact writeItems_prune cfg l level
    | false =>
      simp only [Bool.false_eq_true, if_false]
      rw [writeItems_seqOf_cons, writeItems, isNone_prune, hv, breaksItem_prune,
        writeNode_prune cfg v, writeItems_prune cfg l]
      rfl

theorem writeEntries_prune (cfg : WriteConfig) : ∀ (m : List (String × YNode)) (b : Bool) (level : ℕ),
    writeEntries cfg (pruneEntries m) b level = writeEntries cfg m b level
  | [], _, _ => rfl
  | (k, v) :: m, b, level => by
    rw [pruneEntries, writeEntries]
    cases hv : v.isNone with
    | true => simp only [if_true]; exact writeEntries_prune cfg m b level
    | false =>
      simp only [Bool.false_eq_true, if_false]
      rw [writeEntries, isNone_prune, hv, breaksEntry_prune, writeNode_prune cfg v,
        writeEntries_prune cfg m true level]
      rfl

end

/-- **C99.** Children without content are dropped, and nothing else: if what remains is safe, writing
and reading gives the tree without these children. -/
theorem C99_children_without_content (cfg : WriteConfig) (hind : 2 ≤ cfg.spaceIndentation)
    (v : YNode) (h : Writable cfg (.node v.prune)) :
    ∃ text, serialize cfg v = some text ∧ parseYaml (splitLines text) = .ok v.prune := by
  obtain ⟨text, h1, h2⟩ := C99_round_trip cfg hind v.prune h
  refine ⟨text, ?_, h2⟩
  rw [← h1]
  unfold serialize
  rw [writeNode_prune]

/-! ## The hypotheses can be met -/

/-- A tree with a sequence in a map, a map in the sequence, quoted keys and texts, a text with
several lines, and a key that is too long for one line. -/
def exampleTree : YNode :=
  .map [("a", .seq [(0, .scalar "x y"), (1, .map [("b", .scalar "-1"), ("c:d", .scalar "p: q # r")])]),
    ("t", .scalar "one\n  two\n\nthree\n"), ("u", .scalar "aaa bb cc dddd e")]

theorem example_writable (cfg : WriteConfig) (h1 : cfg.mapScalarNewline = false)
    (h2 : cfg.scalarMaxLength = 10) : Writable cfg (.node exampleTree) := by
  have pr : ∀ t : List Char,
      (t.all fun c => decide (32 ≤ c.toNat) && decide (c.toNat ≤ 125)) = true →
      ∀ c ∈ t, Printable c := by
    intro t ht c hc
    have := List.all_eq_true.mp ht c hc
    simp only [Bool.and_eq_true, decide_eq_true_eq] at this
    exact Or.inr this
  have tr : ∀ t : List Char, (∃ c s', t = c :: s' ∧ isBlank c = false) →
      (match t.getLast? with | none => true | some c => !isBlank c) = true → Trimmed t := by
    intro t h h'
    refine ⟨h, fun c hc => ?_⟩
    rw [hc] at h'
    simpa using h'
  have bare : ∀ k : String, (¬ HasSign k.toList) → Trimmed k.toList → (∀ c ∈ k.toList, Printable c) →
      SafeKey k.toList := fun k h1 h2 h3 => ⟨h3, fun _ => h2, fun h => absurd h h1⟩
  have ka : SafeKey "a".toList :=
    bare _ (by unfold HasSign; decide) (tr _ ⟨_, _, rfl, by decide⟩ (by decide)) (pr _ (by decide))
  have kb : SafeKey "b".toList :=
    bare _ (by unfold HasSign; decide) (tr _ ⟨_, _, rfl, by decide⟩ (by decide)) (pr _ (by decide))
  have kt : SafeKey "t".toList :=
    bare _ (by unfold HasSign; decide) (tr _ ⟨_, _, rfl, by decide⟩ (by decide)) (pr _ (by decide))
  have ku : SafeKey "u".toList :=
    bare _ (by unfold HasSign; decide) (tr _ ⟨_, _, rfl, by decide⟩ (by decide)) (pr _ (by decide))
  have kc : SafeKey "c:d".toList :=
    ⟨pr _ (by decide), fun h => absurd (by unfold HasSign; decide) h,
      fun _ => ⟨by decide, by decide, by decide⟩⟩
  have tx : SafeText cfg true true "x y".toList :=
    .bare _ (by unfold HasSign; decide) (tr _ ⟨_, _, rfl, by decide⟩ (by decide)) (by decide)
      (pr _ (by decide)) (Or.inr (Or.inl (by rw [h2]; decide)))
  have tm : SafeText cfg false true "-1".toList :=
    .quoted _ (by unfold HasSign; decide) (by decide) (by decide) (by decide) (by simp)
      (pr _ (by decide)) (Or.inr (Or.inl (by rw [h2]; decide)))
  have tp : SafeText cfg false true "p: q # r".toList :=
    .quoted _ (by unfold HasSign; decide) (by decide) (by decide) (by decide) (by simp)
      (pr _ (by decide)) (Or.inr (Or.inl (by rw [h2]; decide)))
  have tt : SafeText cfg false true "one\n  two\n\nthree\n".toList :=
    .lines 'o' "ne".toList ["  two".toList, [], "three".toList] true rfl (by decide) (by decide)
      (by decide) ⟨pr _ (by decide), by decide, Or.inr ⟨0, 'o', _, rfl, by decide⟩⟩ (by decide)
      (by
        intro l hl
        simp only [List.mem_cons, List.not_mem_nil, or_false] at hl
        rcases hl with rfl | rfl | rfl
        · exact ⟨pr _ (by decide), by decide, Or.inr ⟨2, 't', "wo".toList, rfl, by decide⟩⟩
        · exact ⟨by simp, by simp, Or.inl rfl⟩
        · exact ⟨pr _ (by decide), by decide, Or.inr ⟨0, 't', "hree".toList, rfl, by decide⟩⟩)
      (by decide)
  have tu : SafeText cfg false true "aaa bb cc dddd e".toList := by
    refine SafeText.long 'a' "aa bb cc dddd e".toList false 14 rfl (by decide) (by decide) (by decide)
      (pr _ (by decide)) (by decide) ?_ (by rw [h2]; decide) (by rw [h2]; decide) (by rw [h2]; decide)
      (by decide)
    intro i hi
    have hlen : i < 16 := by
      by_contra hcon
      rw [List.getElem?_eq_none (by simpa using hcon)] at hi
      cases hi
    interval_cases i <;> first
      | exact absurd hi (by decide)
      | exact ⟨_, rfl, by decide⟩
  refine .map _ (by unfold SmSorted; decide +kernel) (.entriesCons _ _ (.entryNode _ _ ka ?_)
    (.entriesCons _ _ (.entryText _ _ kt (by rw [h1]; exact tt))
      (.entryText _ _ ku (by rw [h1]; exact tu))))
  refine Writable.seq [.scalar "x y", .map [("b", .scalar "-1"), ("c:d", .scalar "p: q # r")]]
    (.itemsCons _ _ (.itemText _ tx) (.itemNode _ ?_))
  exact .map _ (by unfold SmSorted; decide +kernel) (.entriesCons _ _ (.entryText _ _ kb (by rw [h1]; exact tm))
    (.entryText _ _ kc (by rw [h1]; exact tp)))

example : ∃ text, serialize ⟨2, 10, false, false⟩ exampleTree = some text ∧
    parseYaml (splitLines text) = .ok exampleTree :=
  C99_round_trip _ (by decide) _ (example_writable _ rfl rfl)

/-- A child without content. -/
example : (YNode.map [("a", .none), ("b", .scalar "1")]).prune = .map [("b", .scalar "1")] := rfl

/-! ## Trees that do not survive -/

/-- Writes with the configuration that is used if none is given, and reads the text. -/
def writeRead (v : YNode) : Except YErr YNode :=
  match serialize .default v with
  | none => .ok .none
  | some text => parseYaml (splitLines text)

theorem writeRead_of {v : YNode} {text : List Char} {raws : List (List Char)} {r : Except YErr YNode}
    (h1 : serialize .default v = some text) (h2 : splitLines text = raws) (h3 : parseYaml raws = r) :
    writeRead v = r := by
  unfold writeRead
  rw [h1]
  show parseYaml (splitLines text) = r
  rw [h2, h3]

/-- **C99 (what fails).** An empty text comes back as a line feed; in a sequence it is lost, and
the items behind it become a sequence in its place. -/
theorem C99_empty_text_fails :
    writeRead (.map [("a", .scalar ""), ("b", .scalar "1")]) =
        .ok (.map [("a", .scalar "\n"), ("b", .scalar "1")]) ∧
      writeRead (.seq [(0, .scalar ""), (1, .scalar "b")]) =
        .ok (.seq [(0, .seq [(0, .scalar "b")])]) :=
  ⟨rfl, rfl⟩

/-- **C99 (what fails).** An empty map or sequence comes back as a text with a line feed. -/
theorem C99_empty_node_fails :
    writeRead (.map [("a", .map []), ("b", .scalar "1")]) =
        .ok (.map [("a", .scalar "\n"), ("b", .scalar "1")]) ∧
      writeRead (.map [("a", .seq []), ("b", .scalar "1")]) =
        .ok (.map [("a", .scalar "\n"), ("b", .scalar "1")]) :=
  ⟨rfl, rfl⟩

/-- **C99 (what fails).** A double quote in a text is written without escape: the reader refuses the
text; an apostrophe is refused too. -/
theorem C99_quote_fails :
    writeRead (.map [("a", .scalar "4\" pipe")]) = .error .invalidQuote ∧
      writeRead (.map [("a", .scalar "it's")]) = .error .invalidQuote :=
  ⟨writeRead_of (text := "a: \"4\" pipe\"\n".toList) rfl
      (raws := ["a: \"4\" pipe\"".toList, []]) (by decide +kernel) rfl,
    writeRead_of (text := "a: it's\n".toList) rfl
      (raws := ["a: it's".toList, []]) (by decide +kernel) rfl⟩

/-- **C99 (what fails).** The line feed at the end of a single short line is lost. -/
theorem C99_line_feed_fails :
    writeRead (.map [("a", .scalar "b\n")]) = .ok (.map [("a", .scalar "b")]) := rfl

/-- **C99 (what fails).** Blanks at the ends of a text are lost. -/
theorem C99_blank_ends_fails :
    writeRead (.map [("a", .scalar " b ")]) = .ok (.map [("a", .scalar "b")]) := rfl

/-- **C99 (what fails).** A text with two comment signs, or, in a sequence, with two colons (such as
a time of day), is refused. -/
theorem C99_two_signs_fails :
    writeRead (.map [("a", .scalar "#1 #2")]) = .error .invalidQuote ∧
      writeRead (.seq [(0, .scalar "12:30:00")]) = .error .keyIncorrect :=
  ⟨writeRead_of (text := "a: \"#1 #2\"\n".toList) rfl
      (raws := ["a: \"#1 #2\"".toList, []]) (by decide +kernel) rfl,
    writeRead_of (text := "- \"12:30:00\"\n".toList) rfl
      (raws := ["- \"12:30:00\"".toList, []]) (by decide +kernel) rfl⟩
/-- **C99 (what fails).** If texts go on lines of their own, the sign of a text with several lines is
written without indentation: what is read has the sign in the text and the lines in one. -/
theorem C99_newline_block_fails :
    serialize ⟨2, 64, false, true⟩ (.map [("a", .scalar "x\ny")]) =
        some "a: \n|-\n  x\n  y\n".toList ∧
      parseYaml ["a: ".toList, "|-".toList, "  x".toList, "  y".toList, []] =
        .ok (.map [("a", .scalar "\n |- x y")]) := ⟨rfl, rfl⟩

end Fierro
