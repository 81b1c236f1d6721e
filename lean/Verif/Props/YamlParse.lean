import Verif.Proofs.YamlText
import Verif.Props.YamlNode

/-!
# YAML documents (C39)
-/

namespace Fierro

/-! ## Specification: documents with consistent indentation -/

/-- A plain value: not empty, no blank at either end, no quotes, not the start of a sequence item or
of a block scalar. -/
structure PlainText (t : List Char) : Prop where
  head : ∃ c t', t = c :: t' ∧ isBlank c = false ∧ c ≠ '|' ∧ c ≠ '>'
  last : ∀ c, t.getLast? = some c → isBlank c = false
  notItem : t ≠ ['-'] ∧ ∀ t', t ≠ '-' :: ' ' :: t'
  noQuote : '"' ∉ t ∧ '\'' ∉ t

/-- A plain key: not empty, no blank at either end, no colon or double quote; a dash in front is part
of the key if a character other than a blank follows it. -/
structure PlainKey (k : List Char) : Prop where
  head : ∃ c k', k = c :: k' ∧ isBlank c = false ∧
    (c = '-' → ∃ d k'', k' = d :: k'' ∧ d ≠ ' ')
  last : ∀ c, k.getLast? = some c → isBlank c = false
  noSpecial : ':' ∉ k ∧ '"' ∉ k

/-- A backslash in front of every backslash and every double quote. -/
def escapeText : List Char → List Char
  | [] => []
  | c :: s => if c = '\\' ∨ c = '"' then '\\' :: c :: escapeText s else c :: escapeText s

/-- How a key is written: as it is with escapes, or in double quotes with escapes. Quotes may hold
one colon. -/
inductive KeyText : List Char → List Char → Prop
  | bare (k : List Char) : PlainKey k → KeyText (escapeText k) k
  | quoted (k : List Char) : k.getLast? ≠ some '\\' → k.count ':' ≤ 1 →
      KeyText ('"' :: (escapeText k ++ ['"'])) k

/-- How a value is written on one line: as it is, in double quotes, or in single quotes. -/
inductive ValText : List Char → List Char → Prop
  | plain (t : List Char) : PlainText t → ValText t t
  | double (v : List Char) : v ≠ [] → '"' ∉ v → v.getLast? ≠ some '\\' →
      ValText ('"' :: (v ++ ['"'])) v
  | single (v : List Char) : v ≠ [] → '\'' ∉ v → v.getLast? ≠ some '\\' →
      ValText ('\'' :: (v ++ ['\''])) v

/-- Texts one after the other with `c` in between. -/
def joinWith (c : Char) : List (List Char) → List Char
  | [] => []
  | [t] => t
  | t :: t' :: l => t ++ c :: joinWith c (t' :: l)

/-- A line of a literal block with indentation `n`. -/
def blockLine (n : ℕ) (x : YLine) : List Char :=
  if x.2 = [] then [] else List.replicate (x.1 - n) ' ' ++ x.2

/-- The sign in front of a block: alone, the text ends with a line feed; followed by a dash, it does
not. -/
def BlockSign (s : Char) (keep : Bool) (h : List Char) : Prop :=
  (keep = true ∧ h = [s]) ∨ (keep = false ∧ ∃ tr, AllBlank tr ∧ h = s :: '-' :: tr)

/-- The line feed at the end of a block. -/
def lastFeed (keep : Bool) : List Char := if keep then ['\n'] else []

/-- A line that is empty or has text that does not begin with a blank. -/
def LineOk (x : YLine) : Prop := x.2 = [] ∨ ∃ c d, x.2 = c :: d ∧ isBlank c = false

/-- A value that begins on a line at indentation `n`: the text on that line, the lines that follow,
and the value. -/
inductive LineValue (n : ℕ) : List Char → List YLine → List Char → Prop
  /-- on one line; empty lines may follow -/
  | inline (t v tr : List Char) (bl : List YLine) : ValText t v → AllBlank tr →
      (∀ x ∈ bl, x.2 = []) → LineValue n (t ++ tr) bl v
  /-- `|`: the deeper lines as they are -/
  | literal (h : List Char) (keep : Bool) (n' : ℕ) (c : Char) (d : List Char)
      (body bl : List YLine) : BlockSign '|' keep h → n < n' →
      isBlank c = false → c ≠ '"' → c ≠ '\'' →
      (∀ x ∈ body, LineOk x ∧ (x.2 = [] ∨ n' ≤ x.1)) →
      (∀ x, body.getLast? = some x → x.2 ≠ []) → (∀ x ∈ bl, x.2 = []) →
      LineValue n h ((n', c :: d) :: body ++ bl)
        (joinWith '\n' (((n', c :: d) :: body).map (blockLine n')) ++ lastFeed keep)
  /-- `>`: the deeper lines joined by blanks -/
  | folded (h : List Char) (keep : Bool) (n' : ℕ) (c : Char) (d : List Char)
      (body bl : List YLine) : BlockSign '>' keep h → n < n' →
      isBlank c = false → c ≠ '"' → c ≠ '\'' →
      (∀ x ∈ body, LineOk x ∧ x.2 ≠ [] ∧ x.1 = n') → (∀ x ∈ bl, x.2 = []) →
      LineValue n h ((n', c :: d) :: body ++ bl)
        (joinWith ' ' (((n', c :: d) :: body).map Prod.snd) ++ lastFeed keep)

/-- What a group of lines stands for: one value, the items of a sequence, or the entries of a
map. -/
inductive YOut
  | node (v : YNode)
  | items (l : List YNode)
  | entries (l : List (String × YNode))

/-- The map with the given entries. -/
def mapOf (e : List (String × YNode)) : List (String × YNode) :=
  e.foldl (fun m x => smAssign x.1 x.2 m) []

/-- Specification: the lines `ls` at indentation `n` stand for `out`. A line is its indentation and
its text; any number of empty lines may follow a line. -/
inductive YDoc : ℕ → List YLine → YOut → Prop
  /-- `key: text` -/
  | entryScalar (n : ℕ) (w k sp text : List Char) (lines : List YLine) (v : List Char) :
      KeyText w k → AllBlank sp → LineValue n text lines v →
      YDoc n ((n, w ++ ':' :: (sp ++ text)) :: lines)
        (.entries [(String.ofList k, .scalar (String.ofList v))])
  /-- `key:` followed by a deeper block -/
  | entryBlock (n n' : ℕ) (w k tr : List Char) (bl ls : List YLine) (v : YNode) : KeyText w k →
      AllBlank tr → (∀ x ∈ bl, x.2 = []) → n < n' → YDoc n' ls (.node v) →
      YDoc n ((n, w ++ ':' :: tr) :: (bl ++ ls)) (.entries [(String.ofList k, v)])
  /-- entries one after the other -/
  | entriesAppend (n : ℕ) (ls₁ ls₂ : List YLine) (e₁ e₂ : List (String × YNode)) :
      YDoc n ls₁ (.entries e₁) → YDoc n ls₂ (.entries e₂) →
      YDoc n (ls₁ ++ ls₂) (.entries (e₁ ++ e₂))
  /-- `- text`; a colon may be in quotes only -/
  | itemScalar (n m : ℕ) (sp text : List Char) (lines : List YLine) (v : List Char) : AllBlank sp →
      LineValue n text lines v → Cited ':' m text →
      YDoc n ((n, '-' :: ' ' :: (sp ++ text)) :: lines) (.items [.scalar (String.ofList v)])
  /-- `-` followed by a deeper block -/
  | itemBlock (n n' : ℕ) (tr : List Char) (bl ls : List YLine) (v : YNode) :
      (tr = [] ∨ ∃ tr', tr = ' ' :: tr' ∧ AllBlank tr') → (∀ x ∈ bl, x.2 = []) → n < n' →
      YDoc n' ls (.node v) → YDoc n ((n, '-' :: tr) :: (bl ++ ls)) (.items [v])
  /-- `- key: …`: a map whose first entry is on the line of the dash -/
  | itemInline (n : ℕ) (sp d : List Char) (ls : List YLine) (e : List (String × YNode)) :
      AllBlank sp → (e.map Prod.fst).Nodup →
      YDoc (n + (2 + sp.length)) ((n + (2 + sp.length), d) :: ls) (.entries e) →
      YDoc n ((n, '-' :: ' ' :: (sp ++ d)) :: ls) (.items [.map (mapOf e)])
  /-- items one after the other -/
  | itemsAppend (n : ℕ) (ls₁ ls₂ : List YLine) (l₁ l₂ : List YNode) :
      YDoc n ls₁ (.items l₁) → YDoc n ls₂ (.items l₂) → YDoc n (ls₁ ++ ls₂) (.items (l₁ ++ l₂))
  /-- a sequence -/
  | seqNode (n : ℕ) (ls : List YLine) (l : List YNode) : YDoc n ls (.items l) →
      YDoc n ls (.node (.seq (seqOf l)))
  /-- a map, with distinct keys -/
  | mapNode (n : ℕ) (ls : List YLine) (e : List (String × YNode)) : (e.map Prod.fst).Nodup →
      YDoc n ls (.entries e) → YDoc n ls (.node (.map (mapOf e)))
  /-- a value on lines of its own -/
  | scalarNode (n m : ℕ) (text : List Char) (lines : List YLine) (v : List Char) :
      LineValue n text lines v → Cited ':' m text →
      YDoc n ((n, text) :: lines) (.node (.scalar (String.ofList v)))

/-! ## Small facts -/

theorem PlainText.ne_nil {t : List Char} (h : PlainText t) : t ≠ [] := by
  obtain ⟨c, t', rfl, _⟩ := h.head; simp

theorem allBlank_no {sp : List Char} (h : AllBlank sp) {c : Char} (hc : isBlank c = false) :
    c ∉ sp := fun hm => by rw [h c hm] at hc; cases hc

theorem PlainText.notSeq {t tr : List Char} (h : PlainText t) : isSequenceStart (t ++ tr) = false := by
  obtain ⟨c, t', rfl, _⟩ := h.head
  obtain ⟨h1, h2⟩ := h.notItem
  cases t' with
  | nil =>
    have hc : (c == '-') = false := by simpa using h1
    cases tr with
    | nil => simpa [isSequenceStart] using hc
    | cons d tr =>
      simp only [List.cons_append, List.nil_append, isSequenceStart, hc, Bool.false_and]
  | cons d t' =>
    simp only [List.cons_append, isSequenceStart, Bool.and_eq_false_iff, beq_eq_false_iff_ne]
    by_cases hc : c = '-'
    · right
      rintro rfl
      exact h2 t' (by rw [hc])
    · exact Or.inl hc

theorem PlainText.notBlock {t tr : List Char} (h : PlainText t) :
    isBlockScalar (t ++ tr) = .ok false := by
  obtain ⟨c, t', rfl, _, h1, h2⟩ := h.head
  rw [List.cons_append]
  unfold isBlockScalar
  simp [h1, h2]

theorem notSeq_of_head {c : Char} {l : List Char} (h : c ≠ '-') : isSequenceStart (c :: l) = false := by
  cases l <;> simp [isSequenceStart, h]

/-! ### Escapes -/

theorem removeEscapes_other {c : Char} (hc : c ≠ '\\') (s : List Char) :
    removeEscapes (c :: s) = c :: removeEscapes s := by
  cases s with
  | nil =>
    rw [removeEscapes]
    intro _ _ h1 _
    exact hc h1
  | cons d s =>
    rw [removeEscapes]
    intro _ _ h1 _
    exact hc h1

theorem removeEscapes_escape (k : List Char) : removeEscapes (escapeText k) = k := by
  induction k with
  | nil => rfl
  | cons c k ih =>
    rw [escapeText]
    split
    · rw [removeEscapes, ih]
    · rename_i h
      push Not at h
      rw [removeEscapes_other h.1, ih]

theorem getLast?_escape (k : List Char) : (escapeText k).getLast? = k.getLast? := by
  induction k with
  | nil => rfl
  | cons c k ih =>
    rw [escapeText]
    split
    · rw [List.getLast?_cons, List.getLast?_cons, List.getLast?_cons, ih]; rfl
    · rw [List.getLast?_cons, List.getLast?_cons, ih]

theorem count_escape {tok : Char} (h : tok ≠ '\\') (k : List Char) :
    (escapeText k).count tok = k.count tok := by
  induction k with
  | nil => rfl
  | cons c k ih =>
    rw [escapeText]
    split
    · rw [List.count_cons, List.count_cons, List.count_cons, ih]
      simp [Ne.symm h]
    · rw [List.count_cons, List.count_cons, ih]

theorem mem_escape {tok : Char} (h : tok ≠ '\\') (k : List Char) : tok ∈ escapeText k ↔ tok ∈ k := by
  rw [← List.count_pos_iff, ← List.count_pos_iff, count_escape h]

theorem quotesEscaped_escape (k : List Char) (p : Option Char) : QuotesEscaped p (escapeText k) := by
  induction k generalizing p with
  | nil => trivial
  | cons c k ih =>
    rw [escapeText]
    split
    · exact ⟨fun h => absurd h (by decide), fun _ => rfl, ih _⟩
    · rename_i h
      push Not at h
      exact ⟨fun hc => absurd hc h.2, ih _⟩

theorem quotesEscaped_of_no_quote {q : List Char} (h : '"' ∉ q) (p : Option Char) :
    QuotesEscaped p q := by
  induction q generalizing p with
  | nil => trivial
  | cons c q ih =>
    simp only [List.mem_cons, not_or] at h
    exact ⟨fun hc => absurd hc.symm h.1, ih h.2 _⟩

/-! ### Keys -/

/-- What the parser finds in the text of a key. -/
theorem KeyText.facts {w k : List Char} (h : KeyText w k) :
    (∃ c w', w = c :: w' ∧ isBlank c = false) ∧ (∀ x, isSequenceStart (w ++ x) = false) ∧
      cutBlank w = some w ∧
      ((Cited ':' 0 w ∧ removeEscapes w = k) ∨
        (Cited ':' 1 w ∧ ∃ e, w = '"' :: (e ++ ['"']) ∧ removeEscapes e = k)) := by
  cases h with
  | bare _ hk =>
    obtain ⟨c, k', hk', hc, hcd⟩ := hk.head
    have hne : escapeText k ≠ [] := by
      rw [hk', escapeText]; split <;> simp
    have hcut : cutBlank (escapeText k) = some (escapeText k) := by
      have := cutBlank_append (t := escapeText k) (tr := []) hne
        (by rw [getLast?_escape]; exact hk.last) (by simp [AllBlank])
      simpa using this
    refine ⟨?_, ?_, hcut, Or.inl ⟨Cited.plain _ ?_ ?_, removeEscapes_escape k⟩⟩
    · rw [hk', escapeText]
      split
      · exact ⟨'\\', _, rfl, by decide⟩
      · exact ⟨c, _, rfl, hc⟩
    · intro x
      rw [hk', escapeText]
      split
      · exact notSeq_of_head (by decide)
      · by_cases hcm : c = '-'
        · obtain ⟨d, k'', rfl, hd⟩ := hcd hcm
          rw [escapeText]
          split
          · simp [isSequenceStart]
          · simp [isSequenceStart, hd]
        · exact notSeq_of_head hcm
    · rw [mem_escape (by decide)]; exact hk.noSpecial.2
    · rw [mem_escape (by decide)]; exact hk.noSpecial.1
  | quoted _ hl hcount =>
    have hcut : cutBlank ('"' :: (escapeText k ++ ['"'])) = some ('"' :: (escapeText k ++ ['"'])) := by
      have := cutBlank_append (t := '"' :: (escapeText k ++ ['"'])) (tr := []) (by simp)
        (by
          intro c hc
          rw [List.getLast?_cons, List.getLast?_concat] at hc
          simp only [Option.getD_some, Option.some.injEq] at hc
          rw [← hc]; rfl) (by simp [AllBlank])
      simpa using this
    refine ⟨⟨'"', _, rfl, by decide⟩, fun x => notSeq_of_head (by decide), hcut,
      Or.inr ⟨?_, escapeText k, rfl, removeEscapes_escape k⟩⟩
    have := Cited.quoted (tok := ':') 0 [] (escapeText k) [] (by simp) (by simp) (by simp)
      (quotesEscaped_escape k _) (by rw [getLast?_escape]; exact hl)
      (by rw [count_escape (by decide)]; exact hcount) (Cited.plain [] (by simp) (by simp))
    simpa using this

/-- A line with a key, up to the treatment of what follows the colon. -/
theorem ppMap_key {w k : List Char} (h : KeyText w k) (prev : Option ℕ) (n : ℕ) (x : List Char)
    (rest : List YLine) :
    ppMapOrScalar prev (n, w ++ ':' :: x) rest =
      match findNotBlank (w.length + 1) (w ++ ':' :: x) with
      | none =>
        match dropEmpty rest with
        | [] =>
          let r := ppScalar (some n) (w.length + 2, []) []
          .ok (⟨n, .map, k⟩ :: r.1, r.2)
        | y :: rest' =>
          if n < y.1 then .ok ([⟨n, .map, k⟩], y :: rest')
          else
            let r := ppScalar (some n) (w.length + 2, []) (y :: rest')
            .ok (⟨n, .map, k⟩ :: r.1, r.2)
      | some start =>
        let value := (w ++ ':' :: x).drop start
        if isSequenceStart value then .error .blockSequenceNotAllowed
        else
          match isBlockScalar value with
          | .error e => .error e
          | .ok blk =>
            let r := ppScalar (some n) (if blk then n else start + n, value) (dropEmpty rest)
            .ok (⟨n, .map, k⟩ :: r.1, r.2) := by
  obtain ⟨_, _, hcut, hkey⟩ := h.facts
  rcases hkey with ⟨hc, hk⟩ | ⟨hc, e, rfl, hk⟩
  · have hf := hc.findNotCited_some (by decide) (y := x)
    unfold ppMapOrScalar
    simp only [hf, List.take_left, hcut]
    subst hk
    simp only [List.length_cons, List.length_append, List.length_nil, List.cons_append, true_and,
      Nat.lt_irrefl, if_false, if_true, not_lt_zero, zero_ne_one, false_and, List.head?_cons,
      not_true_eq_false, and_self]
    generalize findNotBlank _ _ = o
    cases o with
    | none =>
      cases dropEmpty rest <;> rfl
    | some start =>
      dsimp only
      generalize List.drop start _ = y
      cases hb : isBlockScalar y <;> rfl
  · have hf := hc.findNotCited_some (by decide) (y := x)
    have hlast : ('"' :: (e ++ ['"'])).getLast? = some '"' := by
      rw [List.getLast?_cons, List.getLast?_concat]; rfl
    have hin : (('"' :: (e ++ ['"'])).drop 1).take (('"' :: (e ++ ['"'])).length - 2) = e := by
      simp
    unfold ppMapOrScalar
    simp only [hf, List.take_left, hcut, hlast, hin]
    subst hk
    simp only [List.length_cons, List.length_append, List.length_nil, List.cons_append, true_and,
      Nat.lt_irrefl, if_false, if_true, not_lt_zero, zero_ne_one, false_and, List.head?_cons,
      not_true_eq_false, and_self]
    generalize findNotBlank _ _ = o
    cases o with
    | none =>
      cases dropEmpty rest <;> rfl
    | some start =>
      dsimp only
      generalize List.drop start _ = y
      cases hb : isBlockScalar y <;> rfl

theorem KeyText.colon {w k : List Char} (h : KeyText w k) (x : List Char) :
    findNotCited (w ++ ':' :: x) ':' ≠ none := by
  obtain ⟨_, _, _, hkey⟩ := h.facts
  rcases hkey with ⟨hc, _⟩ | ⟨hc, _⟩
  · rw [hc.findNotCited_some (by decide)]; simp
  · rw [hc.findNotCited_some (by decide)]; simp

/-- The lines that come next: none, or a non-empty one not deeper than `n`. -/
def RestOk (n : ℕ) (rest : List YLine) : Prop :=
  rest = [] ∨ ∃ o d tl, rest = (o, d) :: tl ∧ d ≠ [] ∧ o ≤ n

theorem RestOk.nonblank {n : ℕ} {rest : List YLine} (h : RestOk n rest) :
    rest = [] ∨ ∃ o d tl, rest = (o, d) :: tl ∧ d ≠ [] := by
  rcases h with h | ⟨o, d, tl, h, hd, _⟩
  · exact Or.inl h
  · exact Or.inr ⟨o, d, tl, h, hd⟩

/-- A scalar line and its continuation lines. -/
theorem ppScalar_lines {p : ℕ} {l : YLine} {body bl rest : List YLine} (h : RestOk p rest)
    (hbody : ∀ x ∈ body, x.2 = [] ∨ p < x.1) (hlast : ∀ x, body.getLast? = some x → x.2 ≠ [])
    (hbl : ∀ x ∈ bl, x.2 = []) :
    ppScalar (some p) l ((body ++ bl) ++ rest) =
      ((l :: body).map fun x => ⟨x.1, .scalar, x.2⟩, rest) := by
  have hall : ∀ x ∈ body ++ bl, (x.2.isEmpty || decide (p < x.1)) = true := by
    intro x hx
    rcases List.mem_append.mp hx with hx | hx
    · rcases hbody x hx with h | h
      · simp [h]
      · simp [h]
    · simp [hbl x hx]
  have hsplit : ∀ ys : List YLine, (∀ x ∈ ys, (x.2.isEmpty || decide (p < x.1)) = true) →
      (ys ++ rest).takeWhile (fun x => x.2.isEmpty || decide (p < x.1)) = ys ∧
        (ys ++ rest).dropWhile (fun x => x.2.isEmpty || decide (p < x.1)) = rest := by
    intro ys hys
    induction ys with
    | nil =>
      rcases h with rfl | ⟨o, d, tl, rfl, h1, h2⟩
      · simp
      · have : ((o, d).2.isEmpty || decide (p < (o, d).1)) = false := by
          simp only [Bool.or_eq_false_iff, decide_eq_false_iff_not, List.isEmpty_eq_false_iff]
          exact ⟨h1, by omega⟩
        simp [this]
    | cons x ys ih =>
      have hx := hys x List.mem_cons_self
      have := ih fun y hy => hys y (List.mem_cons_of_mem _ hy)
      rw [List.cons_append, List.takeWhile_cons, List.dropWhile_cons, if_pos hx, if_pos hx, this.1,
        this.2]
      exact ⟨rfl, rfl⟩
  obtain ⟨h1, h2⟩ := hsplit (body ++ bl) hall
  have hkept : ((body ++ bl).reverse.dropWhile fun x => x.2.isEmpty).reverse = body := by
    rw [List.reverse_append]
    have hdrop : ∀ (ys zs : List YLine), (∀ x ∈ ys, x.2 = []) →
        ((ys ++ zs).dropWhile fun x => x.2.isEmpty) = zs.dropWhile fun x => x.2.isEmpty := by
      intro ys zs hys
      induction ys with
      | nil => rfl
      | cons x ys ih =>
        rw [List.cons_append, List.dropWhile_cons, if_pos (by simp [hys x List.mem_cons_self])]
        exact ih fun y hy => hys y (List.mem_cons_of_mem _ hy)
    rw [hdrop _ _ fun x hx => hbl x (List.mem_reverse.mp hx)]
    rcases List.eq_nil_or_concat body with hb | ⟨init, x, hb⟩
    · rw [hb]; rfl
    · rw [List.concat_eq_append] at hb
      have hx : x.2.isEmpty = false := by
        have := hlast x (by rw [hb]; simp)
        simpa using this
      rw [hb]
      simp [hx]
  unfold ppScalar
  simp only [Option.getD_some, h1, h2, hkept]

/-! ### Values -/

theorem validateQuoteLoop_true {s : List Char} {c : Char} {ps : List ℕ} (hlen : s ≠ [])
    (hmem : s.length - 1 ∈ ps) (hend : s[s.length - 1]? = some c)
    (hesc : s[s.length - 1 - 1]? ≠ some '\\')
    (honly : ∀ p ∈ ps, s[p]? = some c → p = s.length - 1) :
    validateQuoteLoop s (some c) ps = true := by
  induction ps with
  | nil => simp at hmem
  | cons p ps ih =>
    rw [validateQuoteLoop, if_neg (by simp)]
    by_cases hp : p = s.length - 1
    · rw [if_pos ⟨by rw [hp, hend], by rw [hp]; exact hesc⟩]
      have : 0 < s.length := List.length_pos_iff.mpr hlen
      have e : p + 1 = s.length := by omega
      simp [e]
    · rw [if_neg (fun h => hp (honly p List.mem_cons_self h.1))]
      refine ih ?_ fun q hq => honly q (List.mem_cons_of_mem _ hq)
      rcases List.mem_cons.mp hmem with h | h
      · exact absurd h.symm hp
      · exact h

theorem validateQuote_quoted {c : Char} (hc : c = '"' ∨ c = '\'') {v : List Char} (hv : v ≠ [])
    (hno : c ∉ v) (hl : v.getLast? ≠ some '\\') : validateQuote (c :: (v ++ [c])) = true := by
  rw [validateQuote, if_pos hc, if_neg (by simp)]
  have hvl : 0 < v.length := List.length_pos_iff.mpr hv
  have hlen : (c :: (v ++ [c])).length = v.length + 2 := by simp
  have hget : ∀ i, i < v.length → (c :: (v ++ [c]))[i + 1]? = v[i]? := by
    intro i hi
    rw [List.getElem?_cons_succ, List.getElem?_append_left hi]
  have hlast : (c :: (v ++ [c]))[v.length + 1]? = some c := by
    rw [List.getElem?_cons_succ, List.getElem?_append_right (le_refl _)]
    simp
  refine validateQuoteLoop_true (by simp) ?_ ?_ ?_ ?_
  · rw [hlen]
    unfold anyQuotePos
    rw [List.mem_filter, List.mem_range, hlen]
    refine ⟨by omega, ?_⟩
    have e : v.length + 2 - 1 = v.length + 1 := by omega
    rw [e, hlast]
    have h2 : 2 ≤ v.length + 1 := by omega
    rcases hc with rfl | rfl <;> simp [h2]
  · rw [hlen]; exact hlast
  · rw [hlen]
    have e : v.length + 2 - 1 - 1 = (v.length - 1) + 1 := by omega
    rw [e, hget _ (by omega), ← List.getLast?_eq_getElem?]
    exact hl
  · intro p hp he
    unfold anyQuotePos at hp
    rw [List.mem_filter, List.mem_range, hlen] at hp
    simp only [Bool.and_eq_true, decide_eq_true_eq] at hp
    rw [hlen]
    obtain ⟨⟨hp1, hp2, _⟩⟩ := And.intro hp trivial
    by_contra hne
    obtain ⟨i, rfl⟩ : ∃ i, p = i + 1 := ⟨p - 1, by omega⟩
    rw [hget i (by omega)] at he
    exact hno (List.mem_of_getElem? he)

/-- What the parser makes of a value on one line. -/
theorem ValText.facts {t v : List Char} (h : ValText t v) :
    (∃ c t', t = c :: t' ∧ isBlank c = false) ∧ (∀ c, t.getLast? = some c → isBlank c = false) ∧
      (∀ x, isSequenceStart (t ++ x) = false) ∧ (∀ x, isBlockScalar (t ++ x) = .ok false) ∧
      validateQuote t = true ∧ stripQuotes t = v := by
  have quoted : ∀ (c : Char) (v : List Char), (c = '"' ∨ c = '\'') → v ≠ [] → c ∉ v →
      v.getLast? ≠ some '\\' →
      (∃ c' t', c :: (v ++ [c]) = c' :: t' ∧ isBlank c' = false) ∧
        (∀ c', (c :: (v ++ [c])).getLast? = some c' → isBlank c' = false) ∧
        (∀ x, isSequenceStart (c :: (v ++ [c]) ++ x) = false) ∧
        (∀ x, isBlockScalar (c :: (v ++ [c]) ++ x) = .ok false) ∧
        validateQuote (c :: (v ++ [c])) = true ∧ stripQuotes (c :: (v ++ [c])) = v := by
    intro c v hc hv hno hl
    have hcb : isBlank c = false := by rcases hc with rfl | rfl <;> rfl
    have hcd : c ≠ '-' := by rcases hc with rfl | rfl <;> decide
    refine ⟨⟨c, _, rfl, hcb⟩, ?_, fun x => notSeq_of_head hcd, ?_, validateQuote_quoted hc hv hno hl,
      ?_⟩
    · intro c' h
      rw [List.getLast?_cons, List.getLast?_concat] at h
      simp only [Option.getD_some, Option.some.injEq] at h
      rw [← h]; exact hcb
    · intro x
      rw [List.cons_append]
      unfold isBlockScalar
      rcases hc with rfl | rfl <;> simp
    · unfold stripQuotes
      rw [if_pos (by rcases hc with rfl | rfl <;> simp)]
      simp
  cases h with
  | plain _ ht =>
    obtain ⟨c, t', ht', hc, _⟩ := ht.head
    refine ⟨⟨c, t', ht', hc⟩, ht.last, fun x => ht.notSeq, fun x => ht.notBlock,
      validateQuote_plain t ht.noQuote.1 ht.noQuote.2, ?_⟩
    have h1 : c ≠ '"' := fun e => ht.noQuote.1 (by simp [ht', e])
    have h2 : c ≠ '\'' := fun e => ht.noQuote.2 (by simp [ht', e])
    unfold stripQuotes
    rw [if_neg (by rw [ht']; simp [h1, h2])]
  | double _ hv hno hl => exact quoted '"' v (Or.inl rfl) hv hno hl
  | single _ hv hno hl => exact quoted '\'' v (Or.inr rfl) hv hno hl

theorem BlockSign.facts {s : Char} {keep : Bool} {h : List Char} (hs : s = '|' ∨ s = '>')
    (hh : BlockSign s keep h) :
    (∃ t, h = s :: t) ∧ isSequenceStart h = false ∧ isBlockScalar h = .ok true ∧
      (h.length == 1) = keep ∧ ':' ∉ h := by
  have hsd : s ≠ '-' := by rcases hs with rfl | rfl <;> decide
  rcases hh with ⟨rfl, rfl⟩ | ⟨rfl, tr, htr, rfl⟩
  · refine ⟨⟨[], rfl⟩, notSeq_of_head hsd, ?_, rfl, ?_⟩
    · unfold isBlockScalar; simp [hs]
    · rcases hs with rfl | rfl <;> decide
  · refine ⟨⟨_, rfl⟩, notSeq_of_head hsd, ?_, ?_, ?_⟩
    · unfold isBlockScalar; simp [hs]
    · simp
    · have := allBlank_no htr (c := ':') (by decide)
      simp only [List.mem_cons, not_or]
      refine ⟨?_, by decide, this⟩
      rcases hs with rfl | rfl <;> decide

/-- A typed line of a scalar. -/
def scalarLine (x : YLine) : TLine := ⟨x.1, .scalar, x.2⟩

theorem lineOk_notBlank {x : YLine} (h : LineOk x) (hne : x.2 ≠ []) : x.2.all isBlank = false := by
  rcases h with h | ⟨c, d, h, hc⟩
  · exact absurd h hne
  · rw [h]; simp [hc]

/-- The typed lines that come next are no scalar lines. -/
def RestN (rest : List TLine) : Prop := rest = [] ∨ ∃ x tl, rest = x :: tl ∧ x.type ≠ .scalar

theorem blockText_last {folded keep : Bool} {n' : ℕ} {x : YLine} {rest : List TLine}
    (hx : LineOk x) (hne : x.2 ≠ []) (hoff : n' ≤ x.1) (hfold : folded = true → x.1 = n')
    (hr : RestN rest) (acc : List Char) (added : Bool) :
    blockText folded keep n' (scalarLine x :: rest) acc added =
      .ok (acc ++ blockLine n' x ++ lastFeed keep, rest) := by
  have hb := lineOk_notBlank hx hne
  have hd : (decide (n' ≠ x.1) && folded) = false := by
    cases folded with
    | false => simp
    | true => simp [hfold rfl]
  have hbl : blockLine n' x = List.replicate (x.1 - n') ' ' ++ x.2 := by
    rw [blockLine, if_neg hne]
  rw [hbl]
  unfold blockText
  rw [if_neg (by simp [scalarLine]), if_neg (by simp [scalarLine, hb]),
    if_neg (by simp only [scalarLine]; omega)]
  simp only [scalarLine, hd]
  rcases hr with rfl | ⟨y, tl, rfl, hy⟩
  · cases keep <;> simp [lastFeed] <;>
      exact fun h1 h2 => absurd (hfold h2).symm (of_decide_eq_true h1)
  · cases keep <;> simp [lastFeed, hy] <;>
      exact fun h1 h2 => absurd (hfold h2).symm (of_decide_eq_true h1)

theorem blockText_literal {keep : Bool} {n' : ℕ} {rest : List TLine} (hr : RestN rest)
    (body : List YLine) :
    (∀ x ∈ body, LineOk x ∧ (x.2 = [] ∨ n' ≤ x.1)) →
    (∃ x, body.getLast? = some x ∧ x.2 ≠ []) → ∀ acc : List Char,
    blockText false keep n' (body.map scalarLine ++ rest) acc false =
      .ok (acc ++ joinWith '\n' (body.map (blockLine n')) ++ lastFeed keep, rest) := by
  induction body with
  | nil => rintro _ ⟨x, hx, _⟩; simp at hx
  | cons x body ih =>
    rintro hbody ⟨y, hy, hyne⟩ acc
    obtain ⟨hok, hoff⟩ := hbody x List.mem_cons_self
    cases body with
    | nil =>
      simp only [List.getLast?_singleton, Option.some.injEq] at hy
      subst hy
      rw [List.map_cons, List.map_nil, List.cons_append, List.nil_append,
        blockText_last hok hyne (hoff.resolve_left hyne) (by simp) hr]
      rfl
    | cons z body =>
      have ih' := ih (fun a ha => hbody a (List.mem_cons_of_mem _ ha))
        ⟨y, by rw [List.getLast?_cons_cons] at hy; exact hy, hyne⟩
      rw [List.map_cons, List.map_cons, List.map_cons, List.map_cons, List.cons_append,
        List.cons_append, joinWith]
      rw [List.map_cons, List.map_cons, List.cons_append] at ih'
      by_cases hne : x.2 = []
      · have hbl : blockLine n' x = [] := by rw [blockLine, if_pos hne]
        rw [blockText, if_neg (by simp [scalarLine]), if_pos (by simp [scalarLine, hne])]
        simp only [Bool.false_eq_true, if_false]
        rw [ih', hbl]
        simp
      · have hb := lineOk_notBlank hok hne
        have hbl : blockLine n' x = List.replicate (x.1 - n') ' ' ++ x.2 := by
          rw [blockLine, if_neg hne]
        have hoff' := hoff.resolve_left hne
        rw [blockText, if_neg (by simp [scalarLine]), if_neg (by simp [scalarLine, hb]),
          if_neg (by simp only [scalarLine]; omega)]
        simp only [scalarLine, Bool.and_false, Bool.false_eq_true, if_false, ne_eq,
          not_true_eq_false]
        simp only [scalarLine] at ih'
        rw [ih', hbl]
        simp

theorem blockText_folded {keep : Bool} {n' : ℕ} {rest : List TLine} (hr : RestN rest)
    (body : List YLine) (hne : body ≠ []) (hbody : ∀ x ∈ body, LineOk x ∧ x.2 ≠ [] ∧ x.1 = n') :
    ∀ (acc : List Char) (added : Bool),
    blockText true keep n' (body.map scalarLine ++ rest) acc added =
      .ok (acc ++ joinWith ' ' (body.map Prod.snd) ++ lastFeed keep, rest) := by
  induction body with
  | nil => exact absurd rfl hne
  | cons x body ih =>
    intro acc added
    obtain ⟨hok, hxne, hoff⟩ := hbody x List.mem_cons_self
    have hbl : blockLine n' x = x.2 := by
      rw [blockLine, if_neg hxne, hoff]; simp
    cases body with
    | nil =>
      rw [List.map_cons, List.map_nil, List.cons_append, List.nil_append,
        blockText_last hok hxne hoff.ge (fun _ => hoff) hr, hbl]
      rfl
    | cons z body =>
      have ih' := ih (by simp) (fun a ha => hbody a (List.mem_cons_of_mem _ ha))
      rw [List.map_cons, List.map_cons, List.map_cons, List.map_cons, List.cons_append,
        List.cons_append, joinWith]
      rw [List.map_cons, List.map_cons, List.cons_append] at ih'
      have hb := lineOk_notBlank hok hxne
      rw [blockText, if_neg (by simp [scalarLine]), if_neg (by simp [scalarLine, hb]),
        if_neg (by simp only [scalarLine]; omega)]
      simp only [scalarLine, hoff, ne_eq, not_true_eq_false, decide_false, Bool.false_and,
        Bool.false_eq_true, if_false, if_true, Nat.sub_self, List.replicate_zero, List.append_nil]
      simp only [scalarLine] at ih'
      rw [ih']
      simp

/-- What the parser does with a value that begins on a line. -/
structure LVGood (n : ℕ) (text : List Char) (lines : List YLine) (v : List Char) (blk : Bool)
    (body : List YLine) : Prop where
  head : ∃ c t', text = c :: t' ∧ isBlank c = false
  notSeq : isSequenceStart text = false
  block : isBlockScalar text = .ok blk
  pp : ∀ (o p : ℕ) (rest : List YLine), p ≤ n → RestOk p rest →
    ppScalar (some p) (o, text) (lines ++ rest) = (((o, text) :: body).map scalarLine, rest)
  ppDrop : ∀ (o p : ℕ) (rest : List YLine), p ≤ n → RestOk p rest →
    ppScalar (some p) (o, text) (dropEmpty (lines ++ rest)) =
      (((o, text) :: body).map scalarLine, rest)
  parse : ∀ (node : YNode) (parent o : ℕ) (rest : List TLine), parent ≤ n →
    (parent ≠ 0 → parent < o ∨ blk = true) → RestN rest →
    parseScalar node parent (((o, text) :: body).map scalarLine ++ rest) =
      .ok (.scalar (String.ofList v), rest)

theorem joinWith_head {c x : Char} {d : List Char} {l : List (List Char)} {y : List Char} :
    (joinWith c ((x :: d) :: l) ++ y).head? = some x := by
  cases l <;> rfl

theorem LineValue.good {n : ℕ} {text : List Char} {lines : List YLine} {v : List Char}
    (h : LineValue n text lines v) : ∃ blk body, LVGood n text lines v blk body := by
  have blockCase : ∀ (s : Char) (h : List Char) (keep : Bool) (n' : ℕ) (c : Char) (d : List Char)
      (body bl : List YLine) (v : List Char), (s = '|' ∨ s = '>') → BlockSign s keep h → n < n' →
      isBlank c = false → (∀ x ∈ body, x.2 = [] ∨ n' ≤ x.1) →
      (∀ x, body.getLast? = some x → x.2 ≠ []) → (∀ x ∈ bl, x.2 = []) →
      (∀ rest, RestN rest → blockText (s == '>') keep n'
        (((n', c :: d) :: body).map scalarLine ++ rest) [] false = .ok (v, rest)) →
      stripQuotes v = v →
      LVGood n h ((n', c :: d) :: body ++ bl) v true ((n', c :: d) :: body) := by
    intro s h keep n' c d body bl v hs hsign hn hc hbody hlast hbl htext hstrip
    obtain ⟨⟨t, ht⟩, h1, h2, h3, h4⟩ := hsign.facts hs
    have hsb : isBlank s = false := by rcases hs with rfl | rfl <;> rfl
    have hpp : ∀ (o p : ℕ) (rest : List YLine), p ≤ n → RestOk p rest →
        ppScalar (some p) (o, h) (((n', c :: d) :: body ++ bl) ++ rest) =
          (((o, h) :: (n', c :: d) :: body).map scalarLine, rest) := by
      intro o p rest hp hr
      refine ppScalar_lines hr ?_ ?_ hbl
      · intro x hx
        rcases List.mem_cons.mp hx with rfl | hx
        · right; show p < n'; omega
        · rcases hbody x hx with h | h
          · exact Or.inl h
          · right; omega
      · intro x hx
        rw [List.getLast?_cons] at hx
        cases hb : body.getLast? with
        | none =>
          rw [hb] at hx
          simp only [Option.getD_none, Option.some.injEq] at hx
          rw [← hx]; simp
        | some y =>
          rw [hb] at hx
          simp only [Option.getD_some, Option.some.injEq] at hx
          exact hlast x (by rw [hb, hx])
    refine ⟨⟨s, t, ht, hsb⟩, h1, h2, hpp, ?_, ?_⟩
    · intro o p rest hp hr
      have : dropEmpty (((n', c :: d) :: body ++ bl) ++ rest) =
          ((n', c :: d) :: body ++ bl) ++ rest := by
        simp [dropEmpty]
      rw [this]
      exact hpp o p rest hp hr
    · intro node parent o rest hp _ hr
      have htx := htext rest hr
      rw [List.map_cons, List.cons_append] at htx
      rw [List.map_cons, List.map_cons, List.cons_append, List.cons_append]
      unfold parseScalar
      have hoff : ¬ (scalarLine (n', c :: d)).offset ≤ parent := by
        show ¬ n' ≤ parent
        omega
      have hhead : (h.head? == some '>') = (s == '>') := by rw [ht]; rfl
      simp only [scalarLine] at htx hoff ⊢
      simp only [h2, hoff, if_false, hhead, h3, htx, hstrip, ne_eq, not_true_eq_false]
  cases h with
  | inline t v tr bl hv htr hbl =>
    obtain ⟨⟨c, t', ht', hc⟩, h2, h3, h4, h5, h6⟩ := hv.facts
    have hne : t ≠ [] := by rw [ht']; simp
    refine ⟨false, [], ⟨c, t' ++ tr, by rw [ht']; rfl, hc⟩, h3 tr, h4 tr, ?_, ?_, ?_⟩
    · intro o p rest hp hr
      have := ppScalar_lines (l := (o, t ++ tr)) (body := []) (bl := lines) hr (by simp) (by simp) hbl
      simpa [scalarLine] using this
    · intro o p rest hp hr
      rw [dropEmpty_blank hbl hr.nonblank]
      have := ppScalar_lines (l := (o, t ++ tr)) (body := []) (bl := []) hr (by simp) (by simp)
        (by simp)
      simpa [scalarLine] using this
    · intro node parent o rest _ hp hr
      have hcut := cutBlank_append hne h2 htr
      have hst : scalarText parent (⟨o, .scalar, t ++ tr⟩ :: rest) [] = .ok (t, rest) := by
        rw [scalarText, if_neg (by
          rintro ⟨h1, h2⟩
          rcases hp h1 with h | h
          · simp only at h2; omega
          · cases h)]
        rcases hr with rfl | ⟨x, tl, rfl, hx⟩
        · simp [hcut]
        · simp [hcut, hx]
      rw [List.map_cons, List.map_nil, List.cons_append, List.nil_append]
      unfold parseScalar
      simp only [scalarLine, h4, hst, h5, h6]
      simp
  | literal _ keep n' c d body bl hsign hn hc hq1 hq2 hbody hlast hbl =>
    refine ⟨true, _, blockCase '|' text keep n' c d body bl _ (Or.inl rfl) hsign hn hc
      (fun x hx => (hbody x hx).2) hlast hbl ?_ ?_⟩
    · intro rest hr
      have hall : ∀ x ∈ (n', c :: d) :: body, LineOk x ∧ (x.2 = [] ∨ n' ≤ x.1) := by
        intro x hx
        rcases List.mem_cons.mp hx with rfl | hx
        · exact ⟨Or.inr ⟨c, d, rfl, hc⟩, Or.inr le_rfl⟩
        · exact hbody x hx
      have hl : ∃ x, ((n', c :: d) :: body).getLast? = some x ∧ x.2 ≠ [] := by
        rw [List.getLast?_cons]
        cases hb : body.getLast? with
        | none => exact ⟨_, rfl, by simp⟩
        | some y => exact ⟨y, rfl, hlast y hb⟩
      have := blockText_literal (keep := keep) hr ((n', c :: d) :: body) hall hl []
      simpa using this
    · unfold stripQuotes
      have hb : blockLine n' (n', c :: d) = c :: d := by simp [blockLine]
      rw [List.map_cons, hb, joinWith_head, if_neg (by simp [hq1, hq2])]
  | folded _ keep n' c d body bl hsign hn hc hq1 hq2 hbody hbl =>
    refine ⟨true, _, blockCase '>' text keep n' c d body bl _ (Or.inr rfl) hsign hn hc
      (fun x hx => Or.inr (hbody x hx).2.2.ge) ?_ hbl ?_ ?_⟩
    · intro x hx
      exact (hbody x (List.mem_of_getLast? hx)).2.1
    · intro rest hr
      have hall : ∀ x ∈ (n', c :: d) :: body, LineOk x ∧ x.2 ≠ [] ∧ x.1 = n' := by
        intro x hx
        rcases List.mem_cons.mp hx with rfl | hx
        · exact ⟨Or.inr ⟨c, d, rfl, hc⟩, by simp, rfl⟩
        · exact hbody x hx
      have := blockText_folded (keep := keep) hr ((n', c :: d) :: body) (by simp) hall [] false
      simpa using this
    · unfold stripQuotes
      rw [List.map_cons, joinWith_head, if_neg (by simp [hq1, hq2])]

/-- A key line with a value on it. -/
theorem ppMap_scalar {prev : Option ℕ} {n : ℕ} {w k sp text v : List Char} {blk : Bool}
    {lines body rest : List YLine} (hk : KeyText w k) (hsp : AllBlank sp)
    (hv : LVGood n text lines v blk body) (hr : RestOk n rest) :
    ppMapOrScalar prev (n, w ++ ':' :: (sp ++ text)) (lines ++ rest) =
      .ok (⟨n, .map, k⟩ :: ((if blk then n else w.length + 1 + sp.length + n, text) :: body).map
        scalarLine, rest) := by
  obtain ⟨c, t', ht', hc⟩ := hv.head
  have hfb : findNotBlank (w.length + 1) (w ++ ':' :: (sp ++ text)) =
      some (w.length + 1 + sp.length) := by
    have := findNotBlank_append (a := w ++ [':']) (sp := sp) (t := text) (c := c)
      (t' := t') hsp ht' hc
    simpa using this
  have hdrop : (w ++ ':' :: (sp ++ text)).drop (w.length + 1 + sp.length) = text := by
    have e : w ++ ':' :: (sp ++ text) = (w ++ ':' :: sp) ++ text := by simp
    rw [e]
    exact List.drop_left' (by simp; omega)
  rw [ppMap_key hk]
  simp only [hfb, hdrop, hv.notSeq, hv.block, hv.ppDrop _ n rest le_rfl hr, Bool.false_eq_true,
    if_false]

/-- A key line whose value is a deeper block. -/
theorem ppMap_block {prev : Option ℕ} {n n' : ℕ} {w k tr d : List Char} {bl rest : List YLine}
    (hk : KeyText w k) (htr : AllBlank tr) (hbl : ∀ x ∈ bl, x.2 = []) (hn : n < n') (hd : d ≠ []) :
    ppMapOrScalar prev (n, w ++ ':' :: tr) (bl ++ (n', d) :: rest) =
      .ok ([⟨n, .map, k⟩], (n', d) :: rest) := by
  have hfb : findNotBlank (w.length + 1) (w ++ ':' :: tr) = none := by
    have := findNotBlank_none (a := w ++ [':']) htr
    simpa using this
  have hde : dropEmpty (bl ++ (n', d) :: rest) = (n', d) :: rest :=
    dropEmpty_blank hbl (Or.inr ⟨n', d, rest, rfl, hd⟩)
  rw [ppMap_key hk]
  simp only [hfb, hde, hn, if_true]

/-- A line that has no colon outside quotes. -/
theorem ppMap_text {m n : ℕ} {prev : Option ℕ} {text : List Char} {rest : List YLine}
    (hc : Cited ':' m text) :
    ppMapOrScalar prev (n, text) rest = .ok (ppScalar prev (n, text) rest) := by
  have hf := hc.findNotCited_none (by decide) (y := []) (by simp)
  rw [List.append_nil] at hf
  unfold ppMapOrScalar
  simp only [hf]

/-! ## What follows an item or entry -/

/-- The end of a pass of the loop of `ParseMap`. -/
def afterMap (fuel n : ℕ) (node : YNode) : List TLine → Except YErr (YNode × List TLine)
  | [] => .ok (node, [])
  | x :: rest =>
    if x.offset < n then .ok (node, x :: rest)
    else if n < x.offset then .error .incorrectOffset
    else if x.type ≠ .map then .error .diffEntryNotAllowed
    else parseMap fuel node (x :: rest)

/-- The end of a pass of the loop of `ParseSequence`. -/
def afterSeq (fuel n : ℕ) (node : YNode) : List TLine → Except YErr (YNode × List TLine)
  | [] => .ok (node, [])
  | x :: rest =>
    if x.offset < n then .ok (node, x :: rest)
    else if n < x.offset then .error .incorrectOffset
    else if x.type ≠ .seq then .error .diffEntryNotAllowed
    else parseSeq fuel node (x :: rest)

/-- The typed lines that come next: none, or one not deeper than `n` that is no scalar. -/
def RestT (n : ℕ) (rest : List TLine) : Prop :=
  rest = [] ∨ ∃ x tl, rest = x :: tl ∧ x.type ≠ .scalar ∧ x.offset ≤ n

theorem RestT.noScalar {n : ℕ} {rest : List TLine} (h : RestT n rest) :
    rest = [] ∨ ∃ x tl, rest = x :: tl ∧ x.type ≠ .scalar := by
  rcases h with h | ⟨x, tl, h, h1, _⟩
  · exact Or.inl h
  · exact Or.inr ⟨x, tl, h, h1⟩

/-- The result of post-processing the lines `ls` followed by `rest`: the lines `ts`, then what
comes from `rest`. -/
def PPGood (ls : List YLine) (ts : List TLine) (okRest : Option ℕ → List YLine → Prop) : Prop :=
  ∀ prev rest fuel, okRest prev rest → (ls ++ rest).length ≤ fuel →
    ∃ fuel' prev', rest.length ≤ fuel' ∧
      ppLoop fuel prev (ls ++ rest) =
        match ppLoop fuel' prev' rest with
        | .error e => .error e
        | .ok ts' => .ok (ts ++ ts')

/-- The lines begin with a non-empty line at indentation `n`. -/
def HeadAt (n : ℕ) (ls : List YLine) : Prop := ∃ d tl, ls = (n, d) :: tl ∧ d ≠ []

/-- What the induction shows about a group of lines. -/
def Good (n : ℕ) (ls : List YLine) : YOut → Prop
  | .entries e => (∃ d tl, ls = (n, d) :: tl ∧ d ≠ [] ∧ isSequenceStart d = false ∧
        findNotCited d ':' ≠ none ∧ ∃ c d', d = c :: d' ∧ isBlank c = false) ∧
      ∃ ts : List TLine, (∃ x tl, ts = x :: tl ∧ x.offset = n ∧ x.type = .map) ∧
        (∃ x, ts.getLast? = some x ∧ x.type = .scalar) ∧
        PPGood ls ts (fun _ rest => RestOk n rest) ∧
        ∀ (m : List (String × YNode)) (node : YNode) (rest : List TLine) (fuel : ℕ),
          node.initMap = m → RestT n rest → 2 * ts.length ≤ fuel →
          (e.map Prod.fst).Nodup → (∀ k ∈ e.map Prod.fst, smFind k m = none) →
          ∃ fuel', fuel ≤ fuel' + 2 * ts.length ∧ parseMap fuel node (ts ++ rest) =
            afterMap fuel' n (.map (e.foldl (fun m x => smAssign x.1 x.2 m) m)) rest
  | .items l => HeadAt n ls ∧
      ∃ ts : List TLine, (∃ x tl, ts = x :: tl ∧ x.offset = n ∧ x.type = .seq) ∧
        (∃ x, ts.getLast? = some x ∧ x.type = .scalar) ∧
        PPGood ls ts (fun _ rest => RestOk n rest) ∧
        ∀ (s : List (ℕ × YNode)) (node : YNode) (rest : List TLine) (fuel : ℕ),
          node.initSeq = s → RestT n rest → 2 * ts.length ≤ fuel →
          ∃ fuel', fuel ≤ fuel' + 2 * ts.length ∧ parseSeq fuel node (ts ++ rest) =
            afterSeq fuel' n (.seq (l.foldl seqPushBack s)) rest
  | .node v => HeadAt n ls ∧
      ∃ ts : List TLine, (∃ x tl, ts = x :: tl ∧ x.offset = n) ∧
        (∃ x, ts.getLast? = some x ∧ x.type = .scalar) ∧
        PPGood ls ts (fun prev rest => ∃ p, prev = some p ∧ p < n ∧ RestOk p rest) ∧
        ∀ (parent : ℕ) (rest : List TLine) (fuel : ℕ), (parent ≠ 0 → parent < n) →
          (rest = [] ∨ ∃ x tl, rest = x :: tl ∧ x.type ≠ .scalar ∧ x.offset < n) →
          2 * ts.length + 1 ≤ fuel →
          parseValue fuel .none parent (ts ++ rest) = .ok (v, rest)

theorem ppLoop_step {fuel : ℕ} {prev : Option ℕ} {l : YLine} {rest rest' : List YLine}
    {ts : List TLine} (h : ppStep prev l rest = .ok (ts, rest')) :
    ppLoop (fuel + 1) prev (l :: rest) =
      match ppLoop fuel ((ts.getLast?.map TLine.offset).or prev) rest' with
      | .error e => .error e
      | .ok ts' => .ok (ts ++ ts') := by
  rw [ppLoop, h]
  rfl

theorem smFind_foldl_none (e : List (String × YNode)) (m : List (String × YNode)) (k : String)
    (hnot : ∀ x ∈ e, x.1 ≠ k) (hm : smFind k m = none) :
    smFind k (e.foldl (fun m x => smAssign x.1 x.2 m) m) = none := by
  induction e generalizing m with
  | nil => exact hm
  | cons x l ih =>
    rw [List.foldl_cons]
    refine ih _ (fun y hy => hnot y (List.mem_cons_of_mem _ hy)) ?_
    rw [smFind_smAssign, if_neg (Ne.symm (hnot x List.mem_cons_self))]
    exact hm

theorem YDoc.good {n : ℕ} {ls : List YLine} {out : YOut} (h : YDoc n ls out) : Good n ls out := by
  induction h with
  | entryScalar n w k sp text lines v hk hsp hval =>
    obtain ⟨blk, body, hv⟩ := hval.good
    obtain ⟨⟨c, w', hw', hc⟩, hseq, _, _⟩ := hk.facts
    refine ⟨⟨_, lines, rfl, by simp, hseq _, hk.colon _, c, w' ++ ':' :: (sp ++ text),
      by rw [hw']; rfl, hc⟩, ?_⟩
    obtain ⟨o, ho, hob⟩ : ∃ o, (if blk then n else w.length + 1 + sp.length + n) = o ∧
        (n < o ∨ blk = true) := by
      refine ⟨_, rfl, ?_⟩
      cases blk with
      | true => exact Or.inr rfl
      | false => left; simp only [Bool.false_eq_true, if_false]; omega
    refine ⟨⟨n, .map, k⟩ :: ((o, text) :: body).map scalarLine, ⟨_, _, rfl, rfl, rfl⟩, ?_, ?_, ?_⟩
    · rw [List.getLast?_cons, List.getLast?_map, List.getLast?_cons]
      exact ⟨_, rfl, rfl⟩
    · intro prev rest fuel hr hfuel
      cases fuel with
      | zero => simp at hfuel
      | succ fuel =>
        have hstep : ppStep prev (n, w ++ ':' :: (sp ++ text)) (lines ++ rest) =
            .ok (⟨n, .map, k⟩ :: ((o, text) :: body).map scalarLine, rest) := by
          unfold ppStep
          rw [if_neg (by rw [hseq]; simp), ← ho]
          exact ppMap_scalar hk hsp hv hr
        refine ⟨fuel, _, ?_, ppLoop_step hstep⟩
        simp only [List.cons_append, List.length_cons, List.length_append] at hfuel
        omega
    · intro m node rest fuel hm hr hfuel hnd hfresh
      simp only [List.length_cons, List.map_cons] at hfuel ⊢
      obtain ⟨f, rfl⟩ : ∃ f, fuel = f + 2 := ⟨fuel - 2, by omega⟩
      refine ⟨f + 1, by omega, ?_⟩
      have hfk : smFind (String.ofList k) m = none := hfresh _ (by simp)
      have hp := hv.parse YNode.none n o rest le_rfl (fun _ => hob) hr.noScalar
      rw [List.map_cons, List.cons_append] at hp
      rw [List.cons_append, List.cons_append, parseMap]
      simp only [hm, hfk, Option.getD_none]
      rw [parseValue]
      simp only [scalarLine] at hp ⊢
      rw [hp]
      simp only [List.foldl_cons, List.foldl_nil]
      cases rest with
      | nil => rfl
      | cons x rest => rfl
  | entryBlock n n' w k tr bl ls v hk htr hbl hn hd ih =>
    obtain ⟨⟨d, tl, hls, hdne⟩, ts, ⟨x, tts, hts, hx⟩, ⟨y, hy, hyt⟩, hpp, hparse⟩ := ih
    obtain ⟨⟨c, w', hw', hc⟩, hseq, _, _⟩ := hk.facts
    refine ⟨⟨_, bl ++ ls, rfl, by simp, hseq _, hk.colon _, c, w' ++ ':' :: tr, by rw [hw']; rfl,
      hc⟩, ?_⟩
    · refine ⟨⟨n, .map, k⟩ :: ts, ⟨_, _, rfl, rfl, rfl⟩, ⟨y, ?_, hyt⟩, ?_, ?_⟩
      · rw [List.getLast?_cons, hy]; rfl
      · intro prev rest fuel hr hfuel
        cases fuel with
        | zero => simp at hfuel
        | succ fuel =>
          have hstep : ppStep prev (n, w ++ ':' :: tr) ((bl ++ ls) ++ rest) =
              .ok ([⟨n, .map, k⟩], ls ++ rest) := by
            unfold ppStep
            rw [if_neg (by rw [hseq]; simp)]
            rw [hls, List.append_assoc, List.cons_append]
            exact ppMap_block hk htr hbl hn hdne
          rw [List.cons_append, ppLoop_step hstep]
          simp only [List.cons_append, List.length_cons, List.length_append] at hfuel
          obtain ⟨fuel', prev', hf', he⟩ := hpp (some n) rest fuel ⟨n, rfl, hn, hr⟩
            (by simp only [List.length_append]; omega)
          refine ⟨fuel', prev', hf', ?_⟩
          have e1 : (Option.map TLine.offset ([⟨n, .map, k⟩] : List TLine).getLast?).or prev = some n := rfl
          rw [e1, he]
          cases ppLoop fuel' prev' rest <;> rfl
      · intro m node rest fuel hm hr hfuel hnd hfresh
        simp only [List.length_cons] at hfuel ⊢
        obtain ⟨f, rfl⟩ : ∃ f, fuel = f + 1 := ⟨fuel - 1, by omega⟩
        refine ⟨f, by omega, ?_⟩
        have hfk : smFind (String.ofList k) m = none := hfresh _ (by simp)
        have hr' : rest = [] ∨ ∃ x tl, rest = x :: tl ∧ x.type ≠ .scalar ∧ x.offset < n' := by
          rcases hr with h | ⟨x, tl, h, h1, h2⟩
          · exact Or.inl h
          · exact Or.inr ⟨x, tl, h, h1, by omega⟩
        have hv := hparse n rest f (fun _ => hn) hr' (by omega)
        rw [hts] at hv ⊢
        rw [List.cons_append] at hv
        rw [List.cons_append, List.cons_append, parseMap]
        simp only [hm, hfk, Option.getD_none]
        rw [hv]
        simp only [List.foldl_cons, List.foldl_nil]
        cases rest with
        | nil => rfl
        | cons x rest => rfl
  | entriesAppend n ls₁ ls₂ e₁ e₂ _ _ ih₁ ih₂ =>
    obtain ⟨⟨d₁, tl₁, hls₁, hd₁⟩, ts₁, ⟨x₁, tt₁, hts₁, hx₁, hxt₁⟩, _, hpp₁, hp₁⟩ := ih₁
    obtain ⟨⟨d₂, tl₂, hls₂, hd₂, _⟩, ts₂, ⟨x₂, tt₂, hts₂, hx₂, hxt₂⟩, ⟨y, hy, hyt⟩, hpp₂, hp₂⟩ := ih₂
    refine ⟨⟨d₁, tl₁ ++ ls₂, by rw [hls₁]; rfl, hd₁⟩, ts₁ ++ ts₂,
      ⟨x₁, tt₁ ++ ts₂, by rw [hts₁]; rfl, hx₁, hxt₁⟩, ⟨y, ?_, hyt⟩, ?_, ?_⟩
    · rw [List.getLast?_append, hy]; rfl
    · intro prev rest fuel hr hfuel
      rw [List.append_assoc] at hfuel ⊢
      obtain ⟨f1, p1, hf1, he1⟩ := hpp₁ prev (ls₂ ++ rest) fuel
        (Or.inr ⟨n, d₂, tl₂ ++ rest, by rw [hls₂]; rfl, hd₂, le_refl n⟩) hfuel
      obtain ⟨f2, p2, hf2, he2⟩ := hpp₂ p1 rest f1 hr hf1
      refine ⟨f2, p2, hf2, ?_⟩
      rw [he1, he2]
      cases ppLoop f2 p2 rest with
      | error e => rfl
      | ok ts => simp
    · intro m node rest fuel hm hr hfuel hnd hfresh
      simp only [List.length_append] at hfuel ⊢
      rw [List.map_append] at hnd hfresh
      rw [List.nodup_append] at hnd
      rw [List.append_assoc]
      have hr1 : RestT n (ts₂ ++ rest) :=
        Or.inr ⟨x₂, tt₂ ++ rest, by rw [hts₂]; rfl, by rw [hxt₂]; simp, by omega⟩
      obtain ⟨f1, hf1, he1⟩ := hp₁ m node (ts₂ ++ rest) fuel hm hr1 (by omega) hnd.1
        (fun k hk => hfresh k (List.mem_append_left _ hk))
      have hstill : ∀ k ∈ e₂.map Prod.fst,
          smFind k (e₁.foldl (fun m x => smAssign x.1 x.2 m) m) = none := by
        intro k hk
        exact smFind_foldl_none e₁ m k
          (fun x hx e => hnd.2.2 x.1 (List.mem_map_of_mem hx) k hk e)
          (hfresh k (List.mem_append_right _ hk))
      obtain ⟨f2, hf2, he2⟩ := hp₂ (e₁.foldl (fun m x => smAssign x.1 x.2 m) m)
        (.map (e₁.foldl (fun m x => smAssign x.1 x.2 m) m)) rest f1 rfl hr (by omega) hnd.2.1 hstill
      refine ⟨f2, by omega, ?_⟩
      rw [he1]
      have hcont : afterMap f1 n (.map (e₁.foldl (fun m x => smAssign x.1 x.2 m) m)) (ts₂ ++ rest) =
          parseMap f1 (.map (e₁.foldl (fun m x => smAssign x.1 x.2 m) m)) (ts₂ ++ rest) := by
        rw [hts₂, List.cons_append, afterMap, if_neg (by omega), if_neg (by omega),
          if_neg (by rw [hxt₂]; simp)]
      rw [hcont, he2, List.foldl_append]
  | itemScalar n m sp text lines v hsp hval hcol =>
    obtain ⟨blk, body, hv⟩ := hval.good
    obtain ⟨c, t', ht', hc⟩ := hv.head
    refine ⟨⟨_, lines, rfl, by simp⟩,
      ⟨n, .seq, []⟩ :: ((n + (2 + sp.length), text) :: body).map scalarLine,
      ⟨_, _, rfl, rfl, rfl⟩, ?_, ?_, ?_⟩
    · rw [List.getLast?_cons, List.getLast?_map, List.getLast?_cons]
      exact ⟨_, rfl, rfl⟩
    · intro prev rest fuel hr hfuel
      cases fuel with
      | zero => simp at hfuel
      | succ fuel =>
        have hstep : ppStep prev (n, '-' :: ' ' :: (sp ++ text)) (lines ++ rest) =
            .ok (⟨n, .seq, []⟩ :: ((n + (2 + sp.length), text) :: body).map scalarLine, rest) := by
          unfold ppStep
          rw [if_pos (by simp [isSequenceStart])]
          have hfb : findNotBlank 1 ('-' :: ' ' :: (sp ++ text)) = some (2 + sp.length) := by
            have hb : AllBlank (' ' :: sp) := by
              intro x hx
              rcases List.mem_cons.mp hx with rfl | hx
              · rfl
              · exact hsp x hx
            have := findNotBlank_append (a := ['-']) (sp := ' ' :: sp) (t := text) (c := c)
              (t' := t') hb ht' hc
            simp only [List.length_cons, List.length_nil, List.cons_append, List.nil_append] at this
            rw [this]
            congr 1
            omega
          have hdrop : ('-' :: ' ' :: (sp ++ text)).drop (2 + sp.length) = text := by
            have e : '-' :: ' ' :: (sp ++ text) = ('-' :: ' ' :: sp) ++ text := by simp
            rw [e]
            exact List.drop_left' (by simp; omega)
          simp only [hfb, hdrop, ppMap_text hcol, hv.ppDrop _ n rest le_rfl hr]
        refine ⟨fuel, _, ?_, ppLoop_step hstep⟩
        simp only [List.cons_append, List.length_cons, List.length_append] at hfuel
        omega
    · intro s node rest fuel hs hr hfuel
      simp only [List.length_cons, List.map_cons] at hfuel ⊢
      obtain ⟨f, rfl⟩ : ∃ f, fuel = f + 2 := ⟨fuel - 2, by omega⟩
      refine ⟨f + 1, by omega, ?_⟩
      have hp := hv.parse YNode.none n (n + (2 + sp.length)) rest le_rfl
        (fun _ => Or.inl (by omega)) hr.noScalar
      rw [List.map_cons, List.cons_append] at hp
      rw [List.cons_append, List.cons_append, parseSeq, parseValue]
      simp only [scalarLine] at hp ⊢
      rw [hp]
      simp only [List.foldl_cons, List.foldl_nil, hs]
      cases rest with
      | nil => rfl
      | cons x rest => rfl
  | itemBlock n n' tr bl ls v htr hbl hn hd ih =>
    obtain ⟨⟨d, tl, hls, hdne⟩, ts, ⟨x, tts, hts, hx⟩, ⟨y, hy, hyt⟩, hpp, hparse⟩ := ih
    refine ⟨⟨_, bl ++ ls, rfl, by simp⟩, ⟨n, .seq, '-' :: tr⟩ :: ts, ⟨_, _, rfl, rfl, rfl⟩,
      ⟨y, ?_, hyt⟩, ?_, ?_⟩
    · rw [List.getLast?_cons, hy]; rfl
    · intro prev rest fuel hr hfuel
      cases fuel with
      | zero => simp at hfuel
      | succ fuel =>
        have hstep : ppStep prev (n, '-' :: tr) ((bl ++ ls) ++ rest) =
            .ok ([⟨n, .seq, '-' :: tr⟩], ls ++ rest) := by
          unfold ppStep
          have hss : isSequenceStart ('-' :: tr) = true := by
            rcases htr with rfl | ⟨tr', rfl, _⟩ <;> rfl
          have hb : AllBlank tr := by
            rcases htr with rfl | ⟨tr', rfl, h⟩
            · simp [AllBlank]
            · intro x hx
              rcases List.mem_cons.mp hx with rfl | hx
              · rfl
              · exact h x hx
          rw [if_pos hss]
          have hfb : findNotBlank 1 ('-' :: tr) = none := findNotBlank_none (a := ['-']) hb
          rw [hls, List.append_assoc, List.cons_append]
          simp only [hfb]
          rw [dropEmpty_blank hbl (Or.inr ⟨n', d, tl ++ rest, rfl, hdne⟩)]
        rw [List.cons_append, ppLoop_step hstep]
        simp only [List.cons_append, List.length_cons, List.length_append] at hfuel
        obtain ⟨fuel', prev', hf', he⟩ := hpp (some n) rest fuel ⟨n, rfl, hn, hr⟩
          (by simp only [List.length_append]; omega)
        refine ⟨fuel', prev', hf', ?_⟩
        have e1 : (Option.map TLine.offset ([⟨n, .seq, '-' :: tr⟩] : List TLine).getLast?).or prev =
          some n := rfl
        rw [e1, he]
        cases ppLoop fuel' prev' rest <;> rfl
    · intro s node rest fuel hs hr hfuel
      simp only [List.length_cons] at hfuel ⊢
      obtain ⟨f, rfl⟩ : ∃ f, fuel = f + 1 := ⟨fuel - 1, by omega⟩
      refine ⟨f, by omega, ?_⟩
      have hr' : rest = [] ∨ ∃ x tl, rest = x :: tl ∧ x.type ≠ .scalar ∧ x.offset < n' := by
        rcases hr with h | ⟨x, tl, h, h1, h2⟩
        · exact Or.inl h
        · exact Or.inr ⟨x, tl, h, h1, by omega⟩
      have hv := hparse n rest f (fun _ => hn) hr' (by omega)
      rw [hts] at hv ⊢
      rw [List.cons_append] at hv
      rw [List.cons_append, List.cons_append, parseSeq]
      rw [hv]
      simp only [List.foldl_cons, List.foldl_nil, hs]
      cases rest with
      | nil => rfl
      | cons x rest => rfl
  | itemInline n sp d ls e hsp hnd _ ih =>
    obtain ⟨⟨d', tl, hls, hdne, hseq, hcol, c, d'', hd'', hc⟩, ts, ⟨x, tts, hts, hx, hxt⟩,
      ⟨y, hy, hyt⟩, hpp, hparse⟩ := ih
    simp only [List.cons.injEq, Prod.mk.injEq, true_and] at hls
    obtain ⟨rfl, rfl⟩ := hls
    refine ⟨⟨_, ls, rfl, by simp⟩, ⟨n, .seq, []⟩ :: ts, ⟨_, _, rfl, rfl, rfl⟩, ⟨y, ?_, hyt⟩, ?_, ?_⟩
    · rw [List.getLast?_cons, hy]; rfl
    · intro prev rest fuel hr hfuel
      cases fuel with
      | zero => simp at hfuel
      | succ fuel =>
        have hr' : RestOk (n + (2 + sp.length)) rest := by
          rcases hr with h | ⟨o, d, tl, h, h1, h2⟩
          · exact Or.inl h
          · exact Or.inr ⟨o, d, tl, h, h1, by omega⟩
        obtain ⟨fuel', prev', hf', he⟩ := hpp prev rest (fuel + 1) hr' (by simpa using hfuel)
        refine ⟨fuel', prev', hf', ?_⟩
        have hfb : findNotBlank 1 ('-' :: ' ' :: (sp ++ d)) = some (2 + sp.length) := by
          have hb : AllBlank (' ' :: sp) := by
            intro x hx
            rcases List.mem_cons.mp hx with rfl | hx
            · rfl
            · exact hsp x hx
          have := findNotBlank_append (a := ['-']) (sp := ' ' :: sp) (t := d) (c := c)
            (t' := d'') hb hd'' hc
          simp only [List.length_cons, List.length_nil, List.cons_append, List.nil_append] at this
          rw [this]
          congr 1
          omega
        have hdrop : ('-' :: ' ' :: (sp ++ d)).drop (2 + sp.length) = d := by
          have e : '-' :: ' ' :: (sp ++ d) = ('-' :: ' ' :: sp) ++ d := by simp
          rw [e]
          exact List.drop_left' (by simp; omega)
        -- the map line does not depend on the line before nor on empty lines after it
        have hsame : ∀ (p q : Option ℕ) (r : List YLine),
            ppMapOrScalar p (n + (2 + sp.length), d) (dropEmpty r) =
              ppMapOrScalar q (n + (2 + sp.length), d) r := by
          intro p q r
          unfold ppMapOrScalar
          cases hf : findNotCited d ':' with
          | none => exact absurd hf hcol
          | some pq => simp only [dropEmpty_idem]
        rw [List.cons_append, ppLoop] at he ⊢
        have hstep : ppStep prev (n, '-' :: ' ' :: (sp ++ d)) (ls ++ rest) =
            match ppMapOrScalar prev (n + (2 + sp.length), d) (ls ++ rest) with
            | .error e => .error e
            | .ok (ts, rest') => .ok (⟨n, .seq, []⟩ :: ts, rest') := by
          unfold ppStep
          rw [if_pos (by simp [isSequenceStart])]
          simp only [hfb, hdrop]
          rw [hsame (some n) prev]
          cases ppMapOrScalar prev (n + (2 + sp.length), d) (ls ++ rest) <;> rfl
        have hstep' : ppStep prev (n + (2 + sp.length), d) (ls ++ rest) =
            ppMapOrScalar prev (n + (2 + sp.length), d) (ls ++ rest) := by
          unfold ppStep
          rw [if_neg (by rw [hseq]; simp)]
        rw [hstep'] at he
        rw [hstep]
        cases hm : ppMapOrScalar prev (n + (2 + sp.length), d) (ls ++ rest) with
        | error er =>
          rw [hm] at he
          dsimp only at he ⊢
          cases hl : ppLoop fuel' prev' rest with
          | error er' => rw [hl] at he; exact he
          | ok tsr => rw [hl] at he; cases he
        | ok r =>
          obtain ⟨ts1, rest1⟩ := r
          rw [hm] at he
          dsimp only at he ⊢
          have hne : ts1 ≠ [] := by
            rintro rfl
            unfold ppMapOrScalar at hm
            cases hf : findNotCited d ':' with
            | none => exact absurd hf hcol
            | some pq =>
              simp only [hf] at hm
              split at hm
              · cases hm
              · split at hm
                · cases hm
                · split at hm
                  · cases hm
                  · split at hm
                    · split at hm
                      · cases hm
                      · split at hm
                        · cases hm
                        · cases hm
                    · split at hm
                      · cases hm
                      · split at hm
                        · cases hm
                        · cases hm
          have hlast : ((⟨n, .seq, []⟩ :: ts1 : List TLine).getLast?.map TLine.offset).or prev =
              (ts1.getLast?.map TLine.offset).or prev := by
            rw [List.getLast?_cons]
            cases hg : ts1.getLast? with
            | none => exact absurd (List.getLast?_eq_none_iff.mp hg) hne
            | some z => rfl
          rw [hlast]
          cases h1 : ppLoop fuel ((ts1.getLast?.map TLine.offset).or prev) rest1 with
          | error er =>
            rw [h1] at he
            cases hl : ppLoop fuel' prev' rest with
            | error er' => rw [hl] at he; exact he
            | ok tsr => rw [hl] at he; cases he
          | ok ts2 =>
            rw [h1] at he
            cases hl : ppLoop fuel' prev' rest with
            | error er' => rw [hl] at he; cases he
            | ok tsr =>
              rw [hl] at he
              have := Except.ok.inj he
              simp only [List.cons_append, this]
    · intro s node rest fuel hs hr hfuel
      simp only [List.length_cons] at hfuel ⊢
      obtain ⟨f, rfl⟩ : ∃ f, fuel = f + 2 := ⟨fuel - 2, by omega⟩
      refine ⟨f + 1, by omega, ?_⟩
      have hr' : RestT (n + (2 + sp.length)) rest := by
        rcases hr with h | ⟨x, tl, h, h1, h2⟩
        · exact Or.inl h
        · exact Or.inr ⟨x, tl, h, h1, by omega⟩
      obtain ⟨f1, _, he1⟩ := hparse [] .none rest f rfl hr' (by omega) hnd (fun k _ => rfl)
      have hend : afterMap f1 (n + (2 + sp.length))
          (.map (e.foldl (fun m x => smAssign x.1 x.2 m) [])) rest = .ok (.map (mapOf e), rest) := by
        rcases hr with rfl | ⟨x, tl, rfl, h1, h2⟩
        · rfl
        · rw [afterMap, if_pos (by omega)]; rfl
      rw [hend] at he1
      rw [hts, List.cons_append] at he1
      rw [hts, List.cons_append, List.cons_append, parseSeq, parseValue]
      simp only [hxt, he1, List.foldl_cons, List.foldl_nil, hs]
      cases rest with
      | nil => rfl
      | cons x rest => rfl
  | itemsAppend n ls₁ ls₂ l₁ l₂ _ _ ih₁ ih₂ =>
    obtain ⟨⟨d₁, tl₁, hls₁, hd₁⟩, ts₁, ⟨x₁, tt₁, hts₁, hx₁, hxt₁⟩, _, hpp₁, hp₁⟩ := ih₁
    obtain ⟨⟨d₂, tl₂, hls₂, hd₂⟩, ts₂, ⟨x₂, tt₂, hts₂, hx₂, hxt₂⟩, ⟨y, hy, hyt⟩, hpp₂, hp₂⟩ := ih₂
    refine ⟨⟨d₁, tl₁ ++ ls₂, by rw [hls₁]; rfl, hd₁⟩, ts₁ ++ ts₂,
      ⟨x₁, tt₁ ++ ts₂, by rw [hts₁]; rfl, hx₁, hxt₁⟩, ⟨y, ?_, hyt⟩, ?_, ?_⟩
    · rw [List.getLast?_append, hy]; rfl
    · intro prev rest fuel hr hfuel
      rw [List.append_assoc] at hfuel ⊢
      obtain ⟨f1, p1, hf1, he1⟩ := hpp₁ prev (ls₂ ++ rest) fuel
        (Or.inr ⟨n, d₂, tl₂ ++ rest, by rw [hls₂]; rfl, hd₂, le_refl n⟩) hfuel
      obtain ⟨f2, p2, hf2, he2⟩ := hpp₂ p1 rest f1 hr hf1
      refine ⟨f2, p2, hf2, ?_⟩
      rw [he1, he2]
      cases ppLoop f2 p2 rest with
      | error e => rfl
      | ok ts => simp
    · intro s node rest fuel hs hr hfuel
      simp only [List.length_append] at hfuel ⊢
      rw [List.append_assoc]
      have hr1 : RestT n (ts₂ ++ rest) :=
        Or.inr ⟨x₂, tt₂ ++ rest, by rw [hts₂]; rfl, by rw [hxt₂]; simp, by omega⟩
      obtain ⟨f1, hf1, he1⟩ := hp₁ s node (ts₂ ++ rest) fuel hs hr1 (by omega)
      obtain ⟨f2, hf2, he2⟩ := hp₂ (l₁.foldl seqPushBack s) (.seq (l₁.foldl seqPushBack s)) rest f1
        rfl hr (by omega)
      refine ⟨f2, by omega, ?_⟩
      rw [he1]
      have hcont : afterSeq f1 n (.seq (l₁.foldl seqPushBack s)) (ts₂ ++ rest) =
          parseSeq f1 (.seq (l₁.foldl seqPushBack s)) (ts₂ ++ rest) := by
        rw [hts₂, List.cons_append, afterSeq, if_neg (by omega), if_neg (by omega),
          if_neg (by rw [hxt₂]; simp)]
      rw [hcont, he2, List.foldl_append]
  | seqNode n ls l _ ih =>
    obtain ⟨hhead, ts, ⟨x, tts, hts, hx, hxt⟩, hlast, hpp, hparse⟩ := ih
    refine ⟨hhead, ts, ⟨x, tts, hts, hx⟩, hlast, ?_, ?_⟩
    · rintro prev rest fuel ⟨p, rfl, hp, hr⟩ hfuel
      refine hpp _ rest fuel ?_ hfuel
      rcases hr with h | ⟨o, d, tl, h, h1, h2⟩
      · exact Or.inl h
      · exact Or.inr ⟨o, d, tl, h, h1, by omega⟩
    · intro parent rest fuel _ hr hfuel
      obtain ⟨f, rfl⟩ : ∃ f, fuel = f + 1 := ⟨fuel - 1, by omega⟩
      have hr' : RestT n rest := by
        rcases hr with h | ⟨x, tl, h, h1, h2⟩
        · exact Or.inl h
        · exact Or.inr ⟨x, tl, h, h1, by omega⟩
      obtain ⟨f1, _, he1⟩ := hparse [] .none rest f rfl hr' (by omega)
      have hseq : l.foldl seqPushBack [] = seqOf l := by
        have : ∀ (l acc : List YNode), l.foldl seqPushBack (seqOf acc) = seqOf (acc ++ l) := by
          intro l
          induction l with
          | nil => simp
          | cons a l ih => intro acc; rw [List.foldl_cons, pushBack_seqOf, ih]; simp
        exact this l []
      have hend : afterSeq f1 n (.seq (l.foldl seqPushBack [])) rest =
          .ok (.seq (seqOf l), rest) := by
        rw [hseq]
        rcases hr with rfl | ⟨x, tl, rfl, h1, h2⟩
        · rfl
        · rw [afterSeq, if_pos h2]
      rw [hend] at he1
      rw [hts, List.cons_append] at he1
      rw [hts, List.cons_append, parseValue]
      simp only [hxt, he1]
  | mapNode n ls e hnd _ ih =>
    obtain ⟨⟨d, tl, hls, hdne, _⟩, ts, ⟨x, tts, hts, hx, hxt⟩, hlast, hpp, hparse⟩ := ih
    refine ⟨⟨d, tl, hls, hdne⟩, ts, ⟨x, tts, hts, hx⟩, hlast, ?_, ?_⟩
    · rintro prev rest fuel ⟨p, rfl, hp, hr⟩ hfuel
      refine hpp _ rest fuel ?_ hfuel
      rcases hr with h | ⟨o, d, tl, h, h1, h2⟩
      · exact Or.inl h
      · exact Or.inr ⟨o, d, tl, h, h1, by omega⟩
    · intro parent rest fuel _ hr hfuel
      obtain ⟨f, rfl⟩ : ∃ f, fuel = f + 1 := ⟨fuel - 1, by omega⟩
      have hr' : RestT n rest := by
        rcases hr with h | ⟨x, tl, h, h1, h2⟩
        · exact Or.inl h
        · exact Or.inr ⟨x, tl, h, h1, by omega⟩
      obtain ⟨f1, _, he1⟩ := hparse [] .none rest f rfl hr' (by omega) hnd (fun k _ => rfl)
      have hend : afterMap f1 n (.map (e.foldl (fun m x => smAssign x.1 x.2 m) [])) rest =
          .ok (.map (mapOf e), rest) := by
        rcases hr with rfl | ⟨x, tl, rfl, h1, h2⟩
        · rfl
        · rw [afterMap, if_pos h2]; rfl
      rw [hend] at he1
      rw [hts, List.cons_append] at he1
      rw [hts, List.cons_append, parseValue]
      simp only [hxt, he1]
  | scalarNode n m text lines v hval hcol =>
    obtain ⟨blk, body, hv⟩ := hval.good
    obtain ⟨c, t', ht', hc⟩ := hv.head
    refine ⟨⟨_, lines, rfl, by simp [ht']⟩, ((n, text) :: body).map scalarLine, ⟨_, _, rfl, rfl⟩,
      ?_, ?_, ?_⟩
    · rw [List.getLast?_map, List.getLast?_cons]
      exact ⟨_, rfl, rfl⟩
    · rintro prev rest fuel ⟨p, rfl, hp, hr⟩ hfuel
      cases fuel with
      | zero => simp at hfuel
      | succ fuel =>
        have hstep : ppStep (some p) (n, text) (lines ++ rest) =
            .ok (((n, text) :: body).map scalarLine, rest) := by
          unfold ppStep
          rw [if_neg (by rw [hv.notSeq]; simp), ppMap_text hcol, hv.pp n p rest hp.le hr]
        refine ⟨fuel, _, ?_, ppLoop_step hstep⟩
        simp only [List.cons_append, List.length_cons, List.length_append] at hfuel
        omega
    · intro parent rest fuel hp hr hfuel
      obtain ⟨f, rfl⟩ : ∃ f, fuel = f + 1 := ⟨fuel - 1, by omega⟩
      have hr' : RestN rest := by
        rcases hr with h | ⟨x, tl, h, h1, h2⟩
        · exact Or.inl h
        · exact Or.inr ⟨x, tl, h, h1⟩
      have hpar : parent ≤ n := by
        by_cases h0 : parent = 0
        · omega
        · exact (hp h0).le
      have := hv.parse YNode.none parent n rest hpar (fun h => Or.inl (hp h)) hr'
      rw [List.map_cons, List.cons_append] at this
      rw [List.map_cons, List.cons_append, parseValue]
      simp only [scalarLine] at this ⊢
      exact this

/-! ## From the text of the file to indentation and text -/

/-- A character the reader accepts: printable ASCII up to `}`, or a tab. -/
def Printable (c : Char) : Prop := c = '\t' ∨ (32 ≤ c.toNat ∧ c.toNat ≤ 125)

/-- What may follow the text of a line: nothing, a carriage return, or a comment. -/
def LineEnd (x : List Char) : Prop := x = [] ∨ x = ['\r'] ∨ ∃ y, x = '#' :: y

/-- A comment sign begins a comment: the text has it in double quotes only, at most once in each
pair; or neither the text nor what follows has one. -/
def CommentOk (d tail : List Char) : Prop :=
  ((∃ m, Cited '#' m d) ∧ LineEnd tail) ∨ ('#' ∉ d ∧ (tail = [] ∨ tail = ['\r']))

/-- Specification: a line of the file and the indentation and text it has. -/
inductive RawLine : List Char → YLine → Prop
  | text (o : ℕ) (d tail : List Char) : (∃ c d', d = c :: d' ∧ isBlank c = false) →
      (∀ c ∈ d, Printable c) → CommentOk d tail →
      (o = 0 → d ≠ "---".toList ∧ d ≠ "...".toList) →
      RawLine (List.replicate o ' ' ++ (d ++ tail)) (o, d)
  | blank (sp tail : List Char) : AllBlank sp → LineEnd tail → RawLine (sp ++ tail) (0, [])

theorem printable_not_cr {c : Char} (h : Printable c) : c ≠ '\r' := by
  rintro rfl
  rcases h with h | ⟨h, _⟩
  · exact absurd h (by decide)
  · exact absurd h (by decide)

theorem blank_printable {c : Char} (h : isBlank c = true) : Printable c := by
  unfold isBlank at h
  simp only [Bool.or_eq_true, beq_iff_eq] at h
  rcases h with rfl | rfl
  · exact Or.inr (by decide)
  · exact Or.inl rfl

theorem printable_check {line : List Char} (h : ∀ c ∈ line, Printable c) :
    line.any (fun c => c != '\t' && (decide (c.toNat < 32) || decide (125 < c.toNat))) = false := by
  rw [List.any_eq_false]
  intro c hc
  rcases h c hc with rfl | ⟨h1, h2⟩
  · simp
  · simp only [Bool.and_eq_true, Bool.or_eq_true, decide_eq_true_eq, bne_iff_ne, not_and]
    intro _
    omega

/-- Text followed by the end of a line: the comment and the return go. -/
theorem stripLine {x tail : List Char} (hx : ∀ c ∈ x, Printable c) (ht : CommentOk x tail) :
    (markerText (x ++ tail) = x ∨ markerText (x ++ tail) = x ++ ['\r']) ∧
      (if (markerText (x ++ tail)).getLast? = some '\r' then (markerText (x ++ tail)).dropLast
        else markerText (x ++ tail)) = x := by
  have hcr : x.getLast? ≠ some '\r' := fun h =>
    printable_not_cr (hx _ (List.mem_of_getLast? h)) rfl
  have key : (findNotCited x '#' = none ∧ tail = []) ∨
      (findNotCited (x ++ ['\r']) '#' = none ∧ tail = ['\r']) ∨
      ∃ y m, tail = '#' :: y ∧ findNotCited (x ++ tail) '#' = some (x.length, m) := by
    rcases ht with ⟨⟨m, hc⟩, rfl | rfl | ⟨y, rfl⟩⟩ | ⟨hh, rfl | rfl⟩
    · left
      have := hc.findNotCited_none (by decide) (y := []) (by simp)
      rw [List.append_nil] at this
      exact ⟨this, rfl⟩
    · exact Or.inr (Or.inl ⟨hc.findNotCited_none (by decide) (by decide), rfl⟩)
    · exact Or.inr (Or.inr ⟨y, m, rfl, hc.findNotCited_some (by decide)⟩)
    · left
      refine ⟨?_, rfl⟩
      unfold findNotCited
      rw [findFrom_none _ _ hh]
    · right; left
      refine ⟨?_, rfl⟩
      unfold findNotCited
      rw [findFrom_none _ _ (by simp [hh])]
  rcases key with ⟨hf, rfl⟩ | ⟨hf, rfl⟩ | ⟨y, m, rfl, hf⟩
  · have : markerText (x ++ []) = x := by
      unfold markerText
      rw [List.append_nil, hf]
    rw [this]
    exact ⟨Or.inl rfl, if_neg hcr⟩
  · have : markerText (x ++ ['\r']) = x ++ ['\r'] := by
      unfold markerText
      rw [hf]
    rw [this]
    refine ⟨Or.inr rfl, ?_⟩
    rw [if_pos (by simp), List.dropLast_concat]
  · have : markerText (x ++ '#' :: y) = x := by
      unfold markerText
      rw [hf]
      simp
    rw [this]
    exact ⟨Or.inl rfl, if_neg hcr⟩

theorem readLine_eq (raw : List Char) : readLine raw =
    (let line := if (markerText raw).getLast? = some '\r' then (markerText raw).dropLast
        else markerText raw
      if line.any (fun c => c != '\t' && (decide (c.toNat < 32) || decide (125 < c.toNat))) then
        .error .invalidCharacter
      else
        match line.findIdx? (fun c => !isBlank c) with
        | none => .ok (0, [])
        | some start =>
          if (line.take start).contains '\t' then .error .tabInOffset
          else .ok (start, line.drop start)) := rfl

theorem RawLine.read {raw : List Char} {l : YLine} (h : RawLine raw l) :
    readLine raw = .ok l ∧ markerText raw ≠ "---".toList ∧ markerText raw ≠ "...".toList := by
  cases h with
  | text o d tail hd hp ht hm =>
    obtain ⟨c, d', rfl, hc⟩ := hd
    have hpx : ∀ x ∈ List.replicate o ' ' ++ c :: d', Printable x := by
      intro x hx
      rcases List.mem_append.mp hx with hx | hx
      · rw [List.mem_replicate] at hx
        rw [hx.2]
        exact Or.inr (by decide)
      · exact hp x hx
    have hrep : AllBlank (List.replicate o ' ') := by
      intro x hx
      rw [List.mem_replicate] at hx
      rw [hx.2]; rfl
    have hcx : CommentOk (List.replicate o ' ' ++ c :: d') tail := by
      rcases ht with ⟨⟨m, hc⟩, ht⟩ | ⟨hh, ht⟩
      · refine Or.inl ⟨⟨m, hc.append_left (allBlank_no hrep (by decide)) (allBlank_no hrep (by decide)) ?_⟩,
          ht⟩
        intro h
        exact allBlank_no hrep (c := '\\') (by decide) (List.mem_of_getLast? h)
      · refine Or.inr ⟨?_, ht⟩
        rw [List.mem_append, not_or]
        exact ⟨allBlank_no hrep (by decide), hh⟩
    obtain ⟨hmk, hline⟩ := stripLine hpx hcx
    rw [List.append_assoc] at hmk hline
    constructor
    · rw [readLine_eq]
      dsimp only
      rw [hline, if_neg (by rw [printable_check hpx]; simp)]
      rw [findIdx?_notBlank hrep rfl hc]
      simp only [List.length_replicate]
      have ht : (List.replicate o ' ' ++ c :: d').take o = List.replicate o ' ' :=
        List.take_left' (by simp)
      have hdr : (List.replicate o ' ' ++ c :: d').drop o = c :: d' := List.drop_left' (by simp)
      rw [ht, hdr, if_neg]
      intro h
      rw [List.contains_iff_mem, List.mem_replicate] at h
      exact absurd h.2 (by decide)
    · have key : ∀ m : List Char, (∃ a b, m = [a, a, b] ∧ a ≠ ' ' ∧ b ≠ '\r' ∧ a = b) →
          (o = 0 → c :: d' ≠ m) → markerText (List.replicate o ' ' ++ (c :: d' ++ tail)) ≠ m := by
        rintro m ⟨a, b, rfl, ha, hb, rfl⟩ hne heq
        cases o with
        | zero =>
          simp only [List.replicate_zero, List.nil_append] at hmk heq
          rw [heq] at hmk
          rcases hmk with h | h
          · exact hne rfl h.symm
          · have := congrArg List.getLast? h
            rw [List.getLast?_concat] at this
            exact hb (by simpa using this)
        | succ o =>
          rw [heq] at hmk
          rw [List.replicate_succ] at hmk
          rcases hmk with h | h
          · exact ha (by simpa using (List.cons.inj h).1)
          · exact ha (by simpa using (List.cons.inj h).1)
      exact ⟨key _ ⟨'-', '-', rfl, by decide, by decide, rfl⟩ fun h => (hm h).1,
        key _ ⟨'.', '.', rfl, by decide, by decide, rfl⟩ fun h => (hm h).2⟩
  | blank sp tail hsp ht =>
    have hpx : ∀ x ∈ sp, Printable x := fun x hx => blank_printable (hsp x hx)
    have hhx : '#' ∉ sp := allBlank_no hsp (by decide)
    have hqx : '"' ∉ sp := allBlank_no hsp (by decide)
    obtain ⟨hmk, hline⟩ := stripLine hpx (Or.inl ⟨⟨0, Cited.plain sp hqx hhx⟩, ht⟩)
    constructor
    · rw [readLine_eq]
      dsimp only
      rw [hline, if_neg (by rw [printable_check hpx]; simp), findIdx?_allBlank hsp]
    · have key : ∀ m : List Char, (∃ a l, m = a :: l ∧ isBlank a = false ∧ a ≠ '\r') →
          markerText (sp ++ tail) ≠ m := by
        rintro m ⟨a, l, rfl, ha, hb⟩ heq
        rw [heq] at hmk
        rcases hmk with h | h
        · exact allBlank_no hsp ha (by rw [← h]; simp)
        · have : a ∈ sp ++ ['\r'] := by rw [← h]; simp
          rcases List.mem_append.mp this with h' | h'
          · exact allBlank_no hsp ha h'
          · exact hb (by simpa using h')
      exact ⟨key _ ⟨'-', _, rfl, by decide, by decide⟩, key _ ⟨'.', _, rfl, by decide, by decide⟩⟩

theorem readLines_cons {raw : List Char} {l : YLine} (hl : RawLine raw l)
    (raws : List (List Char)) (started found : Bool) (acc : List YLine) :
    readLines (raw :: raws) started found acc =
      if found = false ∧ l.2 = [] then readLines raws started found acc
        else readLines raws started true (acc ++ [l]) := by
  obtain ⟨h1, h2, h3⟩ := hl.read
  rw [readLines, if_neg (fun h => h2 h.2), if_neg (by rintro (h | h) <;> contradiction), h1]

theorem readLines_found {raws : List (List Char)} {ls : List YLine}
    (h : List.Forall₂ RawLine raws ls) (started : Bool) (acc : List YLine) :
    readLines raws started true acc = .ok (acc ++ ls) := by
  induction h generalizing acc with
  | nil => simp [readLines]
  | cons hl _ ih =>
    obtain ⟨h1, h2, h3⟩ := hl.read
    rw [readLines, if_neg (fun h => h2 h.2), if_neg (by rintro (h | h) <;> contradiction), h1]
    simp only [Bool.true_eq_false, false_and, if_false]
    rw [ih]
    simp

theorem readLines_lead {raws : List (List Char)} {lead ls : List YLine} (n : ℕ)
    (h : List.Forall₂ RawLine raws (lead ++ ls)) (hlead : ∀ x ∈ lead, x.2 = [])
    (hls : HeadAt n ls) (started : Bool) : readLines raws started false [] = .ok ls := by
  induction lead generalizing raws with
  | nil =>
    obtain ⟨d, tl, rfl, hd⟩ := hls
    cases h with
    | cons hl htl =>
      obtain ⟨h1, h2, h3⟩ := hl.read
      rw [readLines, if_neg (fun h => h2 h.2), if_neg (by rintro (h | h) <;> contradiction), h1]
      dsimp only
      rw [if_neg (fun h => hd h.2), readLines_found htl]
      rfl
  | cons x lead ih =>
    cases h with
    | cons hl htl =>
      obtain ⟨h1, h2, h3⟩ := hl.read
      rw [readLines, if_neg (fun h => h2 h.2), if_neg (by rintro (h | h) <;> contradiction), h1]
      dsimp only
      rw [if_pos ⟨rfl, hlead x List.mem_cons_self⟩]
      exact ih htl fun y hy => hlead y (List.mem_cons_of_mem _ hy)

/-! ## C39 -/

/-- Lines that stand for a map or a sequence give that tree. -/
theorem parse_of_good {raws : List (List Char)} {lead ls : List YLine} {n : ℕ} {v : YNode}
    {ts : List TLine} (h : List.Forall₂ RawLine raws (lead ++ ls)) (hlead : ∀ x ∈ lead, x.2 = [])
    (hhead : HeadAt n ls) (hlast : ∃ x, ts.getLast? = some x ∧ x.type = .scalar)
    (hpp : PPGood ls ts (fun _ rest => RestOk n rest))
    (hparse : ∀ fuel, 2 * ts.length + 1 ≤ fuel → parseValue fuel .none 0 ts = .ok (v, [])) :
    parseYaml raws = .ok v := by
  unfold parseYaml
  rw [readLines_lead n h hlead hhead]
  dsimp only
  unfold postProcess
  obtain ⟨f, p, _, he⟩ := hpp none [] ls.length (Or.inl rfl) (by simp)
  rw [List.append_nil] at he
  rw [he, show ppLoop f p [] = .ok [] by cases f <;> rfl]
  obtain ⟨x, hx, hxt⟩ := hlast
  simp only [List.append_nil, hx, hxt, if_true]
  unfold parseRoot
  rw [hparse _ (by omega)]

/-- **C39.** A document of consistently indented map entries is read as the map with those keys and
values: the nesting follows the indentation, to any depth and of any length. Comments, empty lines,
carriage returns and blanks at the end of lines do not matter. -/
theorem C39_map_document (raws : List (List Char)) (lead ls : List YLine) (n : ℕ)
    (e : List (String × YNode)) (hraw : List.Forall₂ RawLine raws (lead ++ ls))
    (hlead : ∀ x ∈ lead, x.2 = []) (hdoc : YDoc n ls (.entries e)) (hnd : (e.map Prod.fst).Nodup) :
    parseYaml raws = .ok (.map (mapOf e)) := by
  obtain ⟨⟨d, tl, hls, hd, _⟩, ts, ⟨x, tts, hts, hx, hxt⟩, hlast, hpp, hparse⟩ := hdoc.good
  refine parse_of_good hraw hlead ⟨d, tl, hls, hd⟩ hlast hpp ?_
  intro fuel hfuel
  obtain ⟨f, rfl⟩ : ∃ f, fuel = f + 1 := ⟨fuel - 1, by omega⟩
  obtain ⟨f1, _, he⟩ := hparse [] .none [] f rfl (Or.inl rfl) (by omega) hnd (fun k _ => rfl)
  rw [List.append_nil, hts] at he
  rw [hts, parseValue]
  simp only [hxt]
  rw [he]
  rfl

/-- **C39.** A document of consistently indented sequence items is read as the sequence of those
items in order. -/
theorem C39_sequence_document (raws : List (List Char)) (lead ls : List YLine) (n : ℕ)
    (l : List YNode) (hraw : List.Forall₂ RawLine raws (lead ++ ls))
    (hlead : ∀ x ∈ lead, x.2 = []) (hdoc : YDoc n ls (.items l)) :
    parseYaml raws = .ok (.seq (seqOf l)) := by
  obtain ⟨hhead, ts, ⟨x, tts, hts, hx, hxt⟩, hlast, hpp, hparse⟩ := hdoc.good
  refine parse_of_good hraw hlead hhead hlast hpp ?_
  intro fuel hfuel
  obtain ⟨f, rfl⟩ : ∃ f, fuel = f + 1 := ⟨fuel - 1, by omega⟩
  obtain ⟨f1, _, he⟩ := hparse [] .none [] f rfl (Or.inl rfl) (by omega)
  rw [List.append_nil, hts] at he
  rw [hts, parseValue]
  simp only [hxt]
  rw [he]
  have : ∀ (l acc : List YNode), l.foldl seqPushBack (seqOf acc) = seqOf (acc ++ l) := by
    intro l
    induction l with
    | nil => simp
    | cons a l ih => intro acc; rw [List.foldl_cons, pushBack_seqOf, ih]; simp
  have hs : l.foldl seqPushBack [] = seqOf l := this l []
  rw [hs]
  rfl

/-- The entry of a map built from entries with distinct keys. -/
theorem smFind_mapOf (e : List (String × YNode)) (hnd : (e.map Prod.fst).Nodup) (k : String)
    (v : YNode) : smFind k (mapOf e) = some v ↔ (k, v) ∈ e := by
  have gen : ∀ (e : List (String × YNode)) (m : List (String × YNode)), (e.map Prod.fst).Nodup →
      (smFind k (e.foldl (fun m x => smAssign x.1 x.2 m) m) = some v ↔
        (k, v) ∈ e ∨ (k ∉ e.map Prod.fst ∧ smFind k m = some v)) := by
    intro e
    induction e with
    | nil => intro m _; simp
    | cons x e ih =>
      intro m hnd
      rw [List.map_cons, List.nodup_cons] at hnd
      rw [List.foldl_cons, ih _ hnd.2, smFind_smAssign]
      by_cases hk : k = x.1
      · subst hk
        rw [if_pos rfl]
        constructor
        · rintro (h | ⟨_, h⟩)
          · exact absurd (List.mem_map_of_mem (f := Prod.fst) h) hnd.1
          · exact Or.inl (List.mem_cons.mpr (Or.inl (by rw [← Option.some.inj h])))
        · rintro (h | ⟨h, _⟩)
          · rcases List.mem_cons.mp h with h | h
            · exact Or.inr ⟨hnd.1, by rw [← h]⟩
            · exact absurd (List.mem_map_of_mem (f := Prod.fst) h) hnd.1
          · exact absurd (by simp) h
      · rw [if_neg hk]
        have hne : (k, v) ≠ x := fun h => hk (by rw [← h])
        simp only [List.mem_cons, hne, false_or, List.map_cons, hk]
  rw [mapOf, gen e [] hnd]
  simp [smFind]

/-- **C39.** The tree holds exactly the entries of the document: a key has value `v` in the map that
was read if and only if the document has that entry. -/
theorem C39_map_entries (raws : List (List Char)) (lead ls : List YLine) (n : ℕ)
    (e : List (String × YNode)) (hraw : List.Forall₂ RawLine raws (lead ++ ls))
    (hlead : ∀ x ∈ lead, x.2 = []) (hdoc : YDoc n ls (.entries e)) (hnd : (e.map Prod.fst).Nodup) :
    ∃ m, parseYaml raws = .ok (.map m) ∧ ∀ k v, smFind k m = some v ↔ (k, v) ∈ e :=
  ⟨mapOf e, C39_map_document raws lead ls n e hraw hlead hdoc hnd, smFind_mapOf e hnd⟩

/-- **C39.** A line `---` in front of the document changes nothing. -/
theorem C39_start_marker (raws : List (List Char)) (ls : List YLine)
    (hraw : List.Forall₂ RawLine raws ls) :
    parseYaml ("---".toList :: raws) = parseYaml raws := by
  have hm : markerText "---".toList = "---".toList := by decide +kernel
  have key : ∀ (started found : Bool) (acc : List YLine),
      readLines raws started found acc = readLines raws true found acc := by
    induction hraw with
    | nil => intros; rfl
    | cons hl _ ih =>
      intro started found acc
      rw [readLines_cons hl, readLines_cons hl, ih, ih started true]
  unfold parseYaml
  rw [readLines, if_pos ⟨rfl, hm⟩, ← key false]

/-- **C39.** What stands in front of the first line `---` is not read. -/
theorem C39_before_marker (pre raws : List (List Char)) (ps ls : List YLine) (l : YLine)
    (hpre : List.Forall₂ RawLine pre ps) (hraw : List.Forall₂ RawLine raws (l :: ls)) (hl : l.2 ≠ []) :
    parseYaml (pre ++ "---".toList :: raws) = parseYaml raws := by
  have hm : markerText "---".toList = "---".toList := by decide +kernel
  have tail : ∀ (started found : Bool) (acc : List YLine),
      readLines raws started found acc = .ok (acc ++ l :: ls) := by
    intro started found acc
    cases hraw with
    | cons h1 h2 =>
      rw [readLines_cons h1, if_neg (fun h => hl h.2), readLines_found h2]
      simp
  have key : ∀ (found : Bool) (acc : List YLine),
      readLines (pre ++ "---".toList :: raws) false found acc = .ok (l :: ls) := by
    induction hpre with
    | nil =>
      intro found acc
      rw [List.nil_append, readLines, if_pos ⟨rfl, hm⟩, tail]
      rfl
    | cons hp _ ih =>
      intro found acc
      rw [List.cons_append, readLines_cons hp, ih, ih]
      simp
  unfold parseYaml
  rw [key, tail]
  rfl

example : parseYaml ("title".toList :: "---".toList :: ["a: 1".toList]) = parseYaml ["a: 1".toList] := by
  have pr : ∀ t : List Char, (t.all fun c => decide (32 ≤ c.toNat) && decide (c.toNat ≤ 125)) = true →
      ∀ c ∈ t, Printable c := by
    intro t ht c hc
    have := List.all_eq_true.mp ht c hc
    simp only [Bool.and_eq_true, decide_eq_true_eq] at this
    exact Or.inr this
  exact C39_before_marker ["title".toList] ["a: 1".toList] [(0, "title".toList)] [] (0, "a: 1".toList)
    (.cons (.text 0 "title".toList [] ⟨'t', _, rfl, rfl⟩ (pr _ rfl)
      (Or.inl ⟨⟨0, .plain _ (by decide) (by decide)⟩, Or.inl rfl⟩) (by decide)) .nil)
    (.cons (.text 0 "a: 1".toList [] ⟨'a', _, rfl, rfl⟩ (pr _ rfl)
      (Or.inl ⟨⟨0, .plain _ (by decide) (by decide)⟩, Or.inl rfl⟩) (by decide)) .nil) (by decide)

/-- **C39.** Whatever follows a line `...` is not read. -/
theorem C39_end_marker (raws more : List (List Char)) (ls : List YLine)
    (hraw : List.Forall₂ RawLine raws ls) :
    parseYaml (raws ++ "...".toList :: more) = parseYaml raws := by
  have hm : markerText "...".toList = "...".toList := by decide +kernel
  have key : ∀ (started found : Bool) (acc : List YLine),
      readLines (raws ++ "...".toList :: more) started found acc =
        readLines raws started found acc := by
    induction hraw with
    | nil =>
      intro started found acc
      have hne : markerText "...".toList ≠ "---".toList := by decide +kernel
      rw [List.nil_append]
      unfold readLines
      rw [if_neg (fun h => hne h.2), if_pos (Or.inl hm)]
    | cons hl _ ih =>
      intro started found acc
      rw [List.cons_append, readLines_cons hl, readLines_cons hl, ih, ih]
  unfold parseYaml
  rw [key]

/-! ### Documents that are rejected -/

/-- Two groups of lines one after the other: what the parser sees. -/
theorem parse_two {raws : List (List Char)} {lead ls₁ ls₂ : List YLine} {n : ℕ}
    {ts₁ ts₂ : List TLine} (h : List.Forall₂ RawLine raws (lead ++ (ls₁ ++ ls₂)))
    (hlead : ∀ x ∈ lead, x.2 = []) (hhead : HeadAt n ls₁) (hrest : RestOk n ls₂) (n₂ : ℕ)
    (hlast : ∃ x, ts₂.getLast? = some x ∧ x.type = .scalar)
    (hpp₁ : PPGood ls₁ ts₁ (fun _ rest => RestOk n rest))
    (hpp₂ : PPGood ls₂ ts₂ (fun _ rest => RestOk n₂ rest)) :
    parseYaml raws = parseRoot (ts₁ ++ ts₂) := by
  unfold parseYaml
  have hh : HeadAt n (ls₁ ++ ls₂) := by
    obtain ⟨d, tl, rfl, hd⟩ := hhead
    exact ⟨d, tl ++ ls₂, rfl, hd⟩
  rw [readLines_lead n h hlead hh]
  dsimp only
  unfold postProcess
  obtain ⟨f, p, hf, he⟩ := hpp₁ none ls₂ (ls₁ ++ ls₂).length hrest le_rfl
  obtain ⟨f', p', _, he'⟩ := hpp₂ p [] f (Or.inl rfl) (by simpa using hf)
  rw [List.append_nil, show ppLoop f' p' [] = .ok [] by cases f' <;> rfl] at he'
  rw [he, he']
  obtain ⟨x, hx, hxt⟩ := hlast
  have hne : ts₂ ≠ [] := by rintro rfl; simp at hx
  have hl : (ts₁ ++ ts₂).getLast? = some x := by
    rw [List.getLast?_append_of_ne_nil _ hne, hx]
  simp only [List.append_nil, hl, hxt, if_true]

/-- A group of lines that is a map or a sequence (specification). -/
def YOut.isBlock : YOut → Prop
  | .node _ => False
  | _ => True

theorem good_block {n : ℕ} {ls : List YLine} {out : YOut} (h : YDoc n ls out) (hb : out.isBlock) :
    HeadAt n ls ∧ ∃ ts : List TLine, (∃ x tl, ts = x :: tl ∧ x.offset = n ∧
        x.type = match out with | .items _ => .seq | _ => .map) ∧
      (∃ x, ts.getLast? = some x ∧ x.type = .scalar) ∧
      PPGood ls ts (fun _ rest => RestOk n rest) := by
  have := h.good
  match out, hb, this with
  | .entries e, _, ⟨⟨d, tl, hls, hd, _⟩, ts, ⟨x, t, h1, h2, h3⟩, hlast, hpp, _⟩ =>
    exact ⟨⟨d, tl, hls, hd⟩, ts, ⟨x, t, h1, h2, h3⟩, hlast, hpp⟩
  | .items l, _, ⟨hh, ts, ⟨x, t, h1, h2, h3⟩, hlast, hpp, _⟩ =>
    exact ⟨hh, ts, ⟨x, t, h1, h2, h3⟩, hlast, hpp⟩

/-- **C39.** Lines after the document that are less indented than its first line are not dropped
silently: the document is rejected. -/
theorem C39_dedent_rejected (raws : List (List Char)) (lead ls₁ ls₂ : List YLine) (n n₂ : ℕ)
    (e : List (String × YNode)) (out : YOut)
    (hraw : List.Forall₂ RawLine raws (lead ++ (ls₁ ++ ls₂))) (hlead : ∀ x ∈ lead, x.2 = [])
    (hdoc : YDoc n ls₁ (.entries e)) (hnd : (e.map Prod.fst).Nodup)
    (hdoc₂ : YDoc n₂ ls₂ out) (hb : out.isBlock) (hn : n₂ < n) :
    parseYaml raws = .error .unexpectedDocumentEnd := by
  obtain ⟨hh₂, ts₂, ⟨y, tl₂, hts₂, hy, hyt⟩, hlast₂, hpp₂⟩ := good_block hdoc₂ hb
  obtain ⟨⟨d, tl, hls, hd, _⟩, ts, ⟨x, tts, hts, hx, hxt⟩, _, hpp, hparse⟩ := hdoc.good
  have hrest : RestOk n ls₂ := by
    obtain ⟨d₂, t₂, h, hd₂⟩ := hh₂
    exact Or.inr ⟨n₂, d₂, t₂, h, hd₂, hn.le⟩
  rw [parse_two hraw hlead ⟨d, tl, hls, hd⟩ hrest n₂ hlast₂ hpp hpp₂]
  unfold parseRoot
  have hns : y.type ≠ .scalar := by rw [hyt]; cases out <;> simp
  obtain ⟨f1, _, he⟩ := hparse [] .none ts₂ (2 * (ts ++ ts₂).length + 1) rfl
    (Or.inr ⟨y, tl₂, hts₂, hns, by omega⟩) (by simp; omega) hnd (fun k _ => rfl)
  have hv : parseValue (2 * (ts ++ ts₂).length + 2) .none 0 (ts ++ ts₂)
      = parseMap (2 * (ts ++ ts₂).length + 1) .none (ts ++ ts₂) := by
    conv_lhs => rw [hts, List.cons_append, parseValue]
    simp only [hxt, hts, List.cons_append]
  rw [hv, he, hts₂, afterMap, if_pos (by omega)]

/-- **C39.** The same after a sequence. -/
theorem C39_dedent_rejected_sequence (raws : List (List Char)) (lead ls₁ ls₂ : List YLine)
    (n n₂ : ℕ) (l : List YNode) (out : YOut)
    (hraw : List.Forall₂ RawLine raws (lead ++ (ls₁ ++ ls₂))) (hlead : ∀ x ∈ lead, x.2 = [])
    (hdoc : YDoc n ls₁ (.items l)) (hdoc₂ : YDoc n₂ ls₂ out) (hb : out.isBlock) (hn : n₂ < n) :
    parseYaml raws = .error .unexpectedDocumentEnd := by
  obtain ⟨hh₂, ts₂, ⟨y, tl₂, hts₂, hy, hyt⟩, hlast₂, hpp₂⟩ := good_block hdoc₂ hb
  obtain ⟨hh, ts, ⟨x, tts, hts, hx, hxt⟩, _, hpp, hparse⟩ := hdoc.good
  have hrest : RestOk n ls₂ := by
    obtain ⟨d₂, t₂, h, hd₂⟩ := hh₂
    exact Or.inr ⟨n₂, d₂, t₂, h, hd₂, hn.le⟩
  rw [parse_two hraw hlead hh hrest n₂ hlast₂ hpp hpp₂]
  unfold parseRoot
  have hns : y.type ≠ .scalar := by rw [hyt]; cases out <;> simp
  obtain ⟨f1, _, he⟩ := hparse [] .none ts₂ (2 * (ts ++ ts₂).length + 1) rfl
    (Or.inr ⟨y, tl₂, hts₂, hns, by omega⟩) (by simp; omega)
  have hv : parseValue (2 * (ts ++ ts₂).length + 2) .none 0 (ts ++ ts₂)
      = parseSeq (2 * (ts ++ ts₂).length + 1) .none (ts ++ ts₂) := by
    conv_lhs => rw [hts, List.cons_append, parseValue]
    simp only [hxt, hts, List.cons_append]
  rw [hv, he, hts₂, afterSeq, if_pos (by omega)]

/-- **C39.** Map entries and sequence items at one level are rejected. -/
theorem C39_mixed_rejected (raws : List (List Char)) (lead ls₁ ls₂ : List YLine) (n : ℕ)
    (e : List (String × YNode)) (l : List YNode)
    (hraw : List.Forall₂ RawLine raws (lead ++ (ls₁ ++ ls₂))) (hlead : ∀ x ∈ lead, x.2 = [])
    (hdoc : (YDoc n ls₁ (.entries e) ∧ (e.map Prod.fst).Nodup ∧ YDoc n ls₂ (.items l)) ∨
      (YDoc n ls₁ (.items l) ∧ YDoc n ls₂ (.entries e))) :
    parseYaml raws = .error .diffEntryNotAllowed := by
  rcases hdoc with ⟨hdoc, hnd, hdoc₂⟩ | ⟨hdoc, hdoc₂⟩
  · obtain ⟨hh₂, ts₂, ⟨y, tl₂, hts₂, hy, hyt⟩, hlast₂, hpp₂⟩ := good_block hdoc₂ trivial
    obtain ⟨⟨d, tl, hls, hd, _⟩, ts, ⟨x, tts, hts, hx, hxt⟩, _, hpp, hparse⟩ := hdoc.good
    have hrest : RestOk n ls₂ := by
      obtain ⟨d₂, t₂, h, hd₂⟩ := hh₂
      exact Or.inr ⟨n, d₂, t₂, h, hd₂, le_rfl⟩
    rw [parse_two hraw hlead ⟨d, tl, hls, hd⟩ hrest n hlast₂ hpp hpp₂]
    unfold parseRoot
    obtain ⟨f1, _, he⟩ := hparse [] .none ts₂ (2 * (ts ++ ts₂).length + 1) rfl
      (Or.inr ⟨y, tl₂, hts₂, by rw [hyt]; simp, by omega⟩) (by simp; omega) hnd (fun k _ => rfl)
    have hv : parseValue (2 * (ts ++ ts₂).length + 2) .none 0 (ts ++ ts₂)
        = parseMap (2 * (ts ++ ts₂).length + 1) .none (ts ++ ts₂) := by
      conv_lhs => rw [hts, List.cons_append, parseValue]
      simp only [hxt, hts, List.cons_append]
    rw [hv, he, hts₂, afterMap, if_neg (by omega), if_neg (by omega), if_pos (by rw [hyt]; simp)]
  · obtain ⟨hh₂, ts₂, ⟨y, tl₂, hts₂, hy, hyt⟩, hlast₂, hpp₂⟩ := good_block hdoc₂ trivial
    obtain ⟨hh, ts, ⟨x, tts, hts, hx, hxt⟩, _, hpp, hparse⟩ := hdoc.good
    have hrest : RestOk n ls₂ := by
      obtain ⟨d₂, t₂, h, hd₂⟩ := hh₂
      exact Or.inr ⟨n, d₂, t₂, h, hd₂, le_rfl⟩
    rw [parse_two hraw hlead hh hrest n hlast₂ hpp hpp₂]
    unfold parseRoot
    obtain ⟨f1, _, he⟩ := hparse [] .none ts₂ (2 * (ts ++ ts₂).length + 1) rfl
      (Or.inr ⟨y, tl₂, hts₂, by rw [hyt]; simp, by omega⟩) (by simp; omega)
    have hv : parseValue (2 * (ts ++ ts₂).length + 2) .none 0 (ts ++ ts₂)
        = parseSeq (2 * (ts ++ ts₂).length + 1) .none (ts ++ ts₂) := by
      conv_lhs => rw [hts, List.cons_append, parseValue]
      simp only [hxt, hts, List.cons_append]
    rw [hv, he, hts₂, afterSeq, if_neg (by omega), if_neg (by omega), if_pos (by rw [hyt]; simp)]

/-- The rejected kinds of document, and a negative number as an item. -/
example : parseYaml ["  a: 1".toList, "b: 2".toList] = .error .unexpectedDocumentEnd ∧
    parseYaml ["a: 1".toList, "- b".toList] = .error .diffEntryNotAllowed ∧
    parseYaml ["- -1.5".toList] = .ok (.seq [(0, .scalar "-1.5")]) := ⟨rfl, rfl, rfl⟩

/-! A document with nested maps and sequences, comments and empty lines meets the hypotheses. -/

/-- The lines of a small deck. -/
def deckText : List (List Char) :=
  ["# a deck".toList, "a:".toList, "".toList, "  - b: 1 # one".toList,
    "    c: \"x: 5 # y\"".toList, "  - d".toList, "e: |".toList, "  one".toList, "".toList,
    "    two: 2".toList, "f: 5.0\r".toList]

example : ∃ m, parseYaml deckText = .ok (.map m) ∧
    smFind "f" m = some (.scalar "5.0") ∧ smFind "e" m = some (.scalar "one\n\n  two: 2\n") ∧
    smFind "a" m = some (.seq (seqOf [.map (mapOf [("b", .scalar "1"), ("c", .scalar "x: 5 # y")]),
      .scalar "d"])) := by
  have plain : ∀ t : List Char, (∃ c t', t = c :: t' ∧ isBlank c = false ∧ c ≠ '|' ∧ c ≠ '>') →
      (t.getLast?.all fun c => !isBlank c) = true →
      (t ≠ ['-'] ∧ ∀ t', t ≠ '-' :: ' ' :: t') → '"' ∉ t ∧ '\'' ∉ t → ValText t t := by
    intro t h1 h2 h3 h4
    refine .plain t ⟨h1, ?_, h3, h4⟩
    intro c hc
    rw [hc] at h2
    simpa using h2
  have key : ∀ c : Char, isBlank c = false → c ≠ '-' → c ≠ ':' → c ≠ '"' → c ≠ '\\' →
      KeyText [c] [c] := by
    intro c h1 h2 h3 h4 h5
    have hk : PlainKey [c] := by
      refine ⟨⟨c, [], rfl, h1, fun h => absurd h h2⟩, ?_, ?_⟩
      · intro d hd
        simp only [List.getLast?_singleton, Option.some.injEq] at hd
        rw [← hd]; exact h1
      · simp [Ne.symm h3, Ne.symm h4]
    have := KeyText.bare [c] hk
    simpa [escapeText, h4, h5] using this
  have hb : AllBlank [' '] := by simp [AllBlank, isBlank]
  have h0 : AllBlank [] := by simp [AllBlank]
  -- the entries
  have db := YDoc.entryScalar 4 ['b'] ['b'] [' '] _ _ _
    (key 'b' rfl (by decide) (by decide) (by decide) (by decide)) hb
    (.inline ['1'] _ [' '] [] (plain _ ⟨'1', [], rfl, rfl, by decide, by decide⟩ rfl (by simp)
      (by decide)) hb (by simp))
  have dc := YDoc.entryScalar 4 ['c'] ['c'] [' '] _ _ _
    (key 'c' rfl (by decide) (by decide) (by decide) (by decide)) hb
    (.inline _ _ [] [] (.double "x: 5 # y".toList (by simp) (by decide) (by decide)) h0 (by simp))
  have di := YDoc.itemInline 2 [] _ _ _ h0 (by decide +kernel) (YDoc.entriesAppend 4 _ _ _ _ db dc)
  have dd := YDoc.itemScalar 2 0 [] _ _ _ h0
    (.inline ['d'] _ [] [] (plain _ ⟨'d', [], rfl, rfl, by decide, by decide⟩ rfl (by simp)
      (by decide)) h0 (by simp)) (.plain _ (by decide) (by decide))
  have da := YDoc.entryBlock 0 2 ['a'] ['a'] [] [(0, [])] _ _
    (key 'a' rfl (by decide) (by decide) (by decide) (by decide))
    h0 (by simp) (by decide) (YDoc.seqNode 2 _ _ (YDoc.itemsAppend 2 _ _ _ _ di dd))
  have de := YDoc.entryScalar 0 ['e'] ['e'] [' '] _ _ _
    (key 'e' rfl (by decide) (by decide) (by decide) (by decide)) hb
    (.literal ['|'] true 2 'o' "ne".toList [(0, []), (4, "two: 2".toList)] [] (Or.inl ⟨rfl, rfl⟩)
      (by decide) rfl (by decide) (by decide)
      (by
        intro x hx
        simp only [List.mem_cons, List.not_mem_nil, or_false] at hx
        rcases hx with rfl | rfl
        · exact ⟨Or.inl rfl, Or.inl rfl⟩
        · exact ⟨Or.inr ⟨'t', _, rfl, rfl⟩, Or.inr (by decide)⟩)
      (by
        intro x hx
        simp at hx
        rw [← hx]; simp) (by simp))
  have df := YDoc.entryScalar 0 ['f'] ['f'] [' '] _ _ _
    (key 'f' rfl (by decide) (by decide) (by decide) (by decide)) hb
    (.inline "5.0".toList _ [] [] (plain _ ⟨'5', ".0".toList, rfl, rfl, by decide, by decide⟩ rfl
      (by simp) (by decide)) h0 (by simp))
  have doc := YDoc.entriesAppend 0 _ _ _ _ da (YDoc.entriesAppend 0 _ _ _ _ de df)
  have pr : ∀ t : List Char, (t.all fun c => decide (32 ≤ c.toNat) && decide (c.toNat ≤ 125)) = true →
      ∀ c ∈ t, Printable c := by
    intro t ht c hc
    have := List.all_eq_true.mp ht c hc
    simp only [Bool.and_eq_true, decide_eq_true_eq] at this
    exact Or.inr this
  have line : ∀ (o : ℕ) (d tail : List Char), (∃ c d', d = c :: d' ∧ isBlank c = false) →
      (d.all fun c => decide (32 ≤ c.toNat) && decide (c.toNat ≤ 125)) = true → '"' ∉ d → '#' ∉ d →
      LineEnd tail → (o = 0 → d ≠ "---".toList ∧ d ≠ "...".toList) →
      RawLine (List.replicate o ' ' ++ (d ++ tail)) (o, d) := by
    intro o d tail h1 h2 h3 h4 h5 h6
    exact .text o d tail h1 (pr d h2) (Or.inl ⟨⟨0, .plain d h3 h4⟩, h5⟩) h6
  have raw : List.Forall₂ RawLine deckText ([(0, [])] ++ [(0, "a:".toList), (0, []),
      (2, "- b: 1 ".toList), (4, "c: \"x: 5 # y\"".toList), (2, "- d".toList), (0, "e: |".toList),
      (2, "one".toList), (0, []), (4, "two: 2".toList), (0, "f: 5.0".toList)]) := by
    refine .cons (.blank [] _ h0 (Or.inr (Or.inr ⟨_, rfl⟩))) ?_
    refine .cons (line 0 "a:".toList [] ⟨'a', _, rfl, rfl⟩ rfl (by decide) (by decide) (Or.inl rfl)
      (by decide)) ?_
    refine .cons (.blank [] [] h0 (Or.inl rfl)) ?_
    refine .cons (line 2 "- b: 1 ".toList "# one".toList ⟨'-', _, rfl, rfl⟩ rfl (by decide)
      (by decide) (Or.inr (Or.inr ⟨_, rfl⟩)) (by decide)) ?_
    refine .cons (.text 4 "c: \"x: 5 # y\"".toList [] ⟨'c', _, rfl, rfl⟩ (pr _ rfl)
      (Or.inl ⟨⟨1, .quoted 0 "c: ".toList "x: 5 # y".toList [] (by decide) (by decide) (by decide)
        (quotesEscaped_of_no_quote (by decide) _) (by decide) (by decide)
        (.plain [] (by simp) (by simp))⟩, Or.inl rfl⟩) (by decide)) ?_
    refine .cons (line 2 "- d".toList [] ⟨'-', _, rfl, rfl⟩ rfl (by decide) (by decide) (Or.inl rfl)
      (by decide)) ?_
    refine .cons (line 0 "e: |".toList [] ⟨'e', _, rfl, rfl⟩ rfl (by decide) (by decide)
      (Or.inl rfl) (by decide)) ?_
    refine .cons (line 2 "one".toList [] ⟨'o', _, rfl, rfl⟩ rfl (by decide) (by decide) (Or.inl rfl)
      (by decide)) ?_
    refine .cons (.blank [] [] h0 (Or.inl rfl)) ?_
    refine .cons (line 4 "two: 2".toList [] ⟨'t', _, rfl, rfl⟩ rfl (by decide) (by decide)
      (Or.inl rfl) (by decide)) ?_
    refine .cons (line 0 "f: 5.0".toList ['\r'] ⟨'f', _, rfl, rfl⟩ rfl (by decide) (by decide)
      (Or.inr (Or.inl rfl)) (by decide)) ?_
    exact .nil
  obtain ⟨m, h1, h2⟩ := C39_map_entries deckText [(0, [])] _ 0 _ raw (by simp) doc (by decide +kernel)
  refine ⟨m, h1, (h2 _ _).mpr ?_, (h2 _ _).mpr ?_, (h2 _ _).mpr ?_⟩
  · simp
  · have : joinWith '\n' (List.map (blockLine 2) ((2, 'o' :: "ne".toList) ::
        [(0, []), (4, "two: 2".toList)])) ++ lastFeed true = "one\n\n  two: 2\n".toList := by rfl
    rw [this]
    simp
  · simp

/-! ## What the reader does with other documents -/

/-- **C39 (what fails).** A sequence that is not indented below its key is rejected, though YAML
allows it. -/
theorem C39_unindented_sequence_fails :
    parseYaml ["a: 1".toList, "b:".toList, "- c".toList] = .error .diffEntryNotAllowed := by
  rfl

/-- **C39 (what fails).** A deeper line after a value is not rejected: `b: 2` below `a: 1` becomes
part of the value of `a`, and no key `b` exists. -/
theorem C39_wrong_indent_swallowed_fails :
    parseYaml ["a: 1".toList, "  b: 2".toList] = .ok (.map [("a", .scalar "1 b: 2")]) := by
  rfl

/-- **C39 (what fails).** A key without value at the top is given a line feed as its value … -/
theorem C39_empty_value_fails :
    parseYaml ["a:".toList, "b: 2".toList] =
      .ok (.map [("a", .scalar "\n"), ("b", .scalar "2")]) := by
  rfl

/-- … and the same lines deeper in the document are rejected. -/
theorem C39_empty_value_nested_fails :
    parseYaml ["x:".toList, "     a:".toList, "     b: 2".toList] = .error .incorrectOffset := by
  rfl

/-- **C39 (what fails).** The tilde, which YAML uses for null, is an invalid character. -/
theorem C39_tilde_fails : parseYaml ["a: ~".toList] = .error .invalidCharacter := by
  rfl

/-- **C39 (what fails).** An empty quoted text is rejected. -/
theorem C39_empty_quotes_fails : parseYaml ["a: \"\"".toList] = .error .invalidQuote := by
  rfl

/-- **C39 (what fails).** A quoted text with two comment signs is cut at the second and rejected. -/
theorem C39_quoted_comment_sign_fails :
    parseYaml ["a: \"x#y#z\"".toList] = .error .invalidQuote := by
  rfl

/-- **C39 (what fails).** With line ends of the form return, line feed the line `---` is not taken
for the start marker: the document is read as something else. -/
theorem C39_crlf_marker_fails :
    parseYaml ["---\r".toList, "a: 1\r".toList] ≠ parseYaml ["a: 1\r".toList] := by
  intro h
  have h2 : parseYaml ["a: 1\r".toList] = .ok (.map [("a", .scalar "1")]) := by rfl
  rw [h2] at h
  cases h

/-- **C39 (what fails).** The text of a block that begins with a quote loses its first and its last
character. -/
theorem C39_block_quote_fails :
    parseYaml ["a: |".toList, "  \"b\" and c".toList] = .ok (.map [("a", .scalar "b\" and c")]) := by
  rfl

/-- **C39 (what fails).** In a literal block a comment sign is not text: the rest of the line is
lost, and with it what makes the block a text of its own. -/
theorem C39_block_comment_sign_fails :
    parseYaml ["a: |-".toList, "  x # 1".toList, "  y".toList] =
      .ok (.map [("a", .scalar "x \ny")]) := by
  rfl

/-- **C39 (what fails).** Empty lines at the beginning of a literal block are lost, and a blank after
the sign removes the line feed at the end. -/
theorem C39_block_lines_fails :
    parseYaml ["a: |".toList, "".toList, "  x".toList] = .ok (.map [("a", .scalar "x\n")]) ∧
      parseYaml ["a: | ".toList, "  x".toList] = .ok (.map [("a", .scalar "x")]) := ⟨rfl, rfl⟩

/-- **C39 (what fails).** A text with an apostrophe that is not in quotes is rejected. -/
theorem C39_apostrophe_fails : parseYaml ["a: it's".toList] = .error .invalidQuote := by
  rfl

/-- **C39.** Inside a nested block a text over several lines must stay deeper than its key: a further
line at the column of the key is rejected, one column deeper it belongs to the text. -/
theorem C39_continuation_offset :
    parseYaml ["a:".toList, "  b: x".toList, "  y".toList] = .error .incorrectOffset ∧
      parseYaml ["a:".toList, "  b: x".toList, "   y".toList] =
        .ok (.map [("a", .map [("b", .scalar "x y")])]) := ⟨rfl, rfl⟩

/-- **C39 (what fails).** At the top of the document the column is not looked at: a stray line at the
column of the keys becomes part of the value above it. -/
theorem C39_stray_line_fails :
    parseYaml ["a: 1".toList, "stray".toList, "b: 2".toList] =
      .ok (.map [("a", .scalar "1 stray"), ("b", .scalar "2")]) := by
  rfl

end Fierro
