import Verif.Model.MeshRead
import Verif.Model.Geometry
import Verif.Props.Strings
import Mathlib.Data.Fin.VecNotation
import Mathlib.Data.List.Range
import Mathlib.Tactic.IntervalCases
import Mathlib.Tactic.NormNum

/-!
# C103, C104: mesh files
-/

namespace Fierro

/-! ### Specification -/

/-- File name extensions. -/
def MeshFormat.ext : MeshFormat → List Char
  | .ensight => "geo".toList
  | .abaqus => "inp".toList
  | .vtk => "vtk".toList
  | .vtu => "vtu".toList

/-- Blanks, tabulators and carriage returns. -/
def Blanks (b : List Char) : Prop := ∀ c ∈ b, c = ' ' ∨ c = '\t' ∨ c = '\r'

/-- The decimal digits of a number. -/
def decimal (n : ℕ) : List Char := Nat.toDigits 10 n

/-- What reading a real number from a stream does, for the texts `Num t x` of the number `x`: blanks
before it are skipped, a blank or a comma behind it ends it. -/
def StreamReads {K : Type} (Num : List Char → K → Prop) (rd : List Char → Option (K × List Char)) : Prop :=
  ∀ b t x rest, Blanks b → Num t x → (∀ c ∈ rest.head?, c = ',' ∨ Blanks [c]) → rd (b ++ (t ++ rest)) = some (x, rest)

/-- The text of a node: label and three coordinates, separated by commas. -/
def NodeText {K : Type} (Num : List Char → K → Prop) (t : List Char) (id : ℕ) (p : K × K × K) : Prop :=
  ∃ b0 b1 b2 tx b3 b4 ty b5 b6 tz b7, Blanks b0 ∧ Blanks b1 ∧ Blanks b2 ∧ Blanks b3 ∧ Blanks b4 ∧ Blanks b5 ∧
    Blanks b6 ∧ Blanks b7 ∧ Num tx p.1 ∧ Num ty p.2.1 ∧ Num tz p.2.2 ∧
    t = b0 ++ (decimal id ++ (b1 ++ ',' :: (b2 ++ (tx ++ (b3 ++ ',' :: (b4 ++ (ty ++
      (b5 ++ ',' :: (b6 ++ (tz ++ b7))))))))))

/-- The text of an element: label and nodes, separated by commas. -/
def ElemText (t : List Char) (id : ℕ) (ns : List ℕ) : Prop :=
  ∃ (b0 : List Char) (es : List (List Char × List Char × ℕ)) (tail : List Char), Blanks b0 ∧ Blanks tail ∧ (∀ e ∈ es, Blanks e.1 ∧ Blanks e.2.1) ∧ es.map (fun e => e.2.2) = ns ∧
    t = b0 ++ (decimal id ++ (es.flatMap (fun e : List Char × List Char × ℕ =>
      e.1 ++ ',' :: (e.2.1 ++ decimal e.2.2)) ++ tail))

/-- A part of a deck: a keyword line and data lines; nodes with label and coordinates, elements with
label and nodes. -/
inductive AbqBlock (K : Type) where
  | nodes (kw : List Char) (rows : List (List Char × ℕ × (K × K × K)))
  | elems (kw : List Char) (rows : List (List Char × ℕ × List ℕ))
  | other (kw : List Char) (data : List (List Char))

section
variable {K : Type}

/-- The lines. -/
def AbqBlock.lines : AbqBlock K → List (List Char)
  | .nodes kw rows => kw :: rows.map fun r => r.1
  | .elems kw rows => kw :: rows.map fun r => r.1
  | .other kw data => kw :: data

/-- Labels and coordinates of the nodes. -/
def AbqBlock.nodesOf : AbqBlock K → List (ℕ × (K × K × K))
  | .nodes _ rows => rows.map fun r => r.2
  | _ => []

/-- Labels and nodes of the elements. -/
def AbqBlock.elemsOf : AbqBlock K → List (ℕ × List ℕ)
  | .elems _ rows => rows.map fun r => r.2
  | _ => []

/-- Neither of the two keywords occurs. -/
def NoKeyword (l : List Char) : Prop := ¬ "*Node".toList <:+: l ∧ ¬ "*Element".toList <:+: l

/-- A well-formed part: the keyword line begins with a star and names the data, the data lines contain no
star and are the texts of nodes and of elements with at least eight nodes. -/
def AbqBlock.WF (Num : List Char → K → Prop) : AbqBlock K → Prop
  | .nodes kw rows => (∃ r, kw = '*' :: r) ∧ "*Node".toList <:+: kw ∧ ¬ "*Element".toList <:+: kw ∧
      ∀ r ∈ rows, NodeText Num r.1 r.2.1 r.2.2
  | .elems kw rows => (∃ r, kw = '*' :: r) ∧ "*Element".toList <:+: kw ∧ ¬ "*Node".toList <:+: kw ∧
      ∀ r ∈ rows, ElemText r.1 r.2.1 r.2.2 ∧ 8 ≤ r.2.2.length
  | .other kw data => (∃ r, kw = '*' :: r) ∧ NoKeyword kw ∧ ∀ l ∈ data, NoKeyword l

end

/-- The corners of a hexahedron in the order of Abaqus and VTK: around the bottom, then around the top. -/
def hexCorners : List (ℕ × ℕ × ℕ) :=
  [(0, 0, 0), (1, 0, 0), (1, 1, 0), (0, 1, 0), (0, 0, 1), (1, 0, 1), (1, 1, 1), (0, 1, 1)]

/-- The place of local node `l` of the code (`l = i + 2 j + 4 k`) in that order. -/
def cornerPlace (l : ℕ) : ℕ := hexCorners.idxOf (l % 2, l / 2 % 2, l / 4)

/-! ### Choice of the reader -/

theorem fileExtension_eq (stem ext : List Char) (h : '.' ∉ ext) : fileExtension (stem ++ '.' :: ext) = ext := by
  unfold fileExtension
  rw [if_pos (by simp), List.reverse_append, List.reverse_cons, List.append_assoc,
    List.takeWhile_append_of_pos (by
      intro a ha
      rw [List.mem_reverse] at ha
      simp only [ne_eq, decide_not, Bool.not_eq_true', decide_eq_false_iff_not]
      rintro rfl
      exact h ha)]
  simp

theorem fileExtension_mem (path : List Char) (h : '.' ∈ path) :
    ∃ stem, path = stem ++ '.' :: fileExtension path := by
  obtain ⟨s, t, hst, ht⟩ : ∃ s t, path = s ++ '.' :: t ∧ '.' ∉ t := by
    have h' : '.' ∈ path.reverse := by simpa using h
    obtain ⟨a, b, hab, hna⟩ := List.eq_append_cons_of_mem h'
    refine ⟨b.reverse, a.reverse, ?_, by simpa using hna⟩
    have := congrArg List.reverse hab
    simpa using this
  exact ⟨s, by rw [hst, fileExtension_eq s t ht]⟩

/-- **C103.** The reader is chosen by the end of the file name; every other name is refused. -/
theorem C103_reader (path : List Char) (f : MeshFormat) :
    meshFormat path = some f ↔ ∃ stem, path = stem ++ '.' :: f.ext := by
  constructor
  · intro h
    have hdot : '.' ∈ path := by
      by_contra hd
      simp [meshFormat, fileExtension, hd] at h
    obtain ⟨stem, hs⟩ := fileExtension_mem path hdot
    refine ⟨stem, ?_⟩
    rw [hs]
    congr 2
    unfold meshFormat at h
    simp only at h
    split_ifs at h with h1 h2 h3 h4 <;> (injection h with h; subst h; assumption)
  · rintro ⟨stem, rfl⟩
    have : '.' ∉ f.ext := by cases f <;> decide
    unfold meshFormat
    rw [fileExtension_eq _ _ this]
    cases f <;> rfl

/-! ### Numbers -/

theorem decimal_cons (n : ℕ) : ∃ d ds, decimal n = d :: ds ∧ d.isDigit = true ∧ ∀ c ∈ ds, c.isDigit = true := by
  have hne : decimal n ≠ [] := Nat.toDigits_ne_nil
  have hd : ∀ c ∈ decimal n, c.isDigit = true := fun c hc =>
    Nat.isDigit_of_mem_toDigits (by decide) (by decide) hc
  cases h : decimal n with
  | nil => exact absurd h hne
  | cons d ds =>
    rw [h] at hd
    exact ⟨d, ds, rfl, hd d (by simp), fun c hc => hd c (by simp [hc])⟩

theorem digit_not {c : Char} (h : c.isDigit = true) : c ≠ '-' ∧ c ≠ '+' ∧ isSpaceChar c = false ∧ c ≠ ',' ∧ c ≠ '*' ∧ c ≠ ' ' := by
  refine ⟨?_, ?_, ?_, ?_, ?_, ?_⟩
  · rintro rfl; exact absurd h (by decide)
  · rintro rfl; exact absurd h (by decide)
  · cases hs : isSpaceChar c with
    | false => rfl
    | true =>
      exfalso
      simp only [isSpaceChar, Bool.or_eq_true, beq_iff_eq] at hs
      rcases hs with ((((rfl | rfl) | rfl) | rfl) | rfl) | rfl <;> exact absurd h (by decide)
  · rintro rfl; exact absurd h (by decide)
  · rintro rfl; exact absurd h (by decide)
  · rintro rfl; exact absurd h (by decide)

theorem Blanks.space {b : List Char} (h : Blanks b) : ∀ c ∈ b, isSpaceChar c = true := by
  intro c hc
  rcases h c hc with rfl | rfl | rfl <;> rfl

theorem Blanks.not_mem {b : List Char} (h : Blanks b) : ',' ∉ b ∧ '*' ∉ b := by
  constructor <;> intro hc <;> rcases h _ hc with h | h | h <;> exact absurd h (by decide)

theorem readInt_decimal (b : List Char) (hb : Blanks b) (n : ℕ) (rest : List Char)
    (hr : ∀ c ∈ rest.head?, c.isDigit = false) : readInt (b ++ (decimal n ++ rest)) = some ((n : ℤ), rest) := by
  obtain ⟨d, ds, hdec, hd, hds⟩ := decimal_cons n
  have hall : ∀ c ∈ decimal n, c.isDigit = true := by
    rw [hdec]
    intro c hc
    rcases List.mem_cons.1 hc with rfl | hc
    · exact hd
    · exact hds c hc
  have hdw : (b ++ (decimal n ++ rest)).dropWhile isSpaceChar = d :: (ds ++ rest) := by
    rw [List.dropWhile_append_of_pos hb.space, hdec, List.cons_append, List.dropWhile_cons,
      if_neg (by rw [(digit_not hd).2.2.1]; decide)]
  have hdig : readDigits (d :: (ds ++ rest)) = some ((n : ℤ), rest) := by
    have e : d :: (ds ++ rest) = decimal n ++ rest := by rw [hdec]; rfl
    rw [e]
    unfold readDigits
    have hrest : rest.takeWhile Char.isDigit = [] ∧ rest.dropWhile Char.isDigit = rest := by
      cases rest with
      | nil => exact ⟨rfl, rfl⟩
      | cons c r =>
        have := hr c (by simp)
        simp [List.takeWhile_cons, List.dropWhile_cons, this]
    rw [List.takeWhile_append_of_pos hall, List.dropWhile_append_of_pos hall, hrest.1, hrest.2, List.append_nil]
    simp only [hdec, reduceCtorEq, if_false]
    rw [← hdec, digitsValue, decimal, Nat.ofDigitChars_ten_toDigits]
  unfold readInt
  rw [hdw]
  split
  · rename_i h
    injection h with h
    exact absurd h (digit_not hd).1
  · rename_i h
    injection h with h
    exact absurd h (digit_not hd).2.1
  · exact hdig

theorem skipComma_blanks (b r : List Char) (hb : Blanks b) : skipComma (b ++ ',' :: r) = some r := by
  have h : ∀ c ∈ b, decide (c ≠ ',') = true := by
    intro c hc
    simp only [ne_eq, decide_not, Bool.not_eq_true', decide_eq_false_iff_not]
    rintro rfl
    exact hb.not_mem.1 hc
  have : ((b ++ ',' :: r).dropWhile fun c => decide (c ≠ ',')).drop 1 = r := by
    rw [List.dropWhile_append_of_pos h]
    simp
  cases hc : b ++ ',' :: r with
  | nil => simp at hc
  | cons c s =>
    rw [hc] at this
    simp only [skipComma]
    rw [this]

/-! ### Abaqus -/

section
variable {K : Type}

theorem blanks_comma_head (b r : List Char) (hb : Blanks b) :
    ∀ c ∈ (b ++ ',' :: r).head?, c = ',' ∨ Blanks [c] := by
  intro c hc
  cases b with
  | nil => simp at hc; exact Or.inl hc.symm
  | cons d b =>
    simp at hc
    subst hc
    right
    intro e he
    rw [List.mem_singleton] at he
    subst he
    exact hb e (by simp)

theorem blanks_head (b : List Char) (hb : Blanks b) : ∀ c ∈ b.head?, c = ',' ∨ Blanks [c] := by
  intro c hc
  right
  intro e he
  rw [List.mem_singleton] at he
  subst he
  exact hb e (List.mem_of_mem_head? hc)

theorem notDigit_of_sep {l : List Char} (h : ∀ c ∈ l.head?, c = ',' ∨ Blanks [c]) :
    ∀ c ∈ l.head?, c.isDigit = false := by
  intro c hc
  rcases h c hc with rfl | h
  · rfl
  · rcases h c (by simp) with rfl | rfl | rfl <;> rfl

theorem parseAbqNode_text (Num : List Char → K → Prop) (rd : List Char → Option (K × List Char))
    (hrd : StreamReads Num rd) (t : List Char) (id : ℕ) (p : K × K × K) (h : NodeText Num t id p) :
    parseAbqNode rd t = some p := by
  obtain ⟨b0, b1, b2, tx, b3, b4, ty, b5, b6, tz, b7, h0, h1, h2, h3, h4, h5, h6, h7, hx, hy, hz, rfl⟩ := h
  unfold parseAbqNode
  rw [readInt_decimal b0 h0 id _ (notDigit_of_sep (blanks_comma_head _ _ h1))]
  simp only [Option.bind_some]
  rw [skipComma_blanks _ _ h1]
  simp only [Option.bind_some]
  rw [hrd b2 tx p.1 _ h2 hx (blanks_comma_head _ _ h3)]
  simp only [Option.bind_some]
  rw [skipComma_blanks _ _ h3]
  simp only [Option.bind_some]
  rw [hrd b4 ty p.2.1 _ h4 hy (blanks_comma_head _ _ h5)]
  simp only [Option.bind_some]
  rw [skipComma_blanks _ _ h5]
  simp only [Option.bind_some]
  rw [hrd b6 tz p.2.2 _ h6 hz (blanks_head _ h7)]
  rfl

theorem entries_sep (es : List (List Char × List Char × ℕ)) (tail : List Char) (htail : Blanks tail)
    (hes : ∀ e ∈ es, Blanks e.1 ∧ Blanks e.2.1) :
    ∀ c ∈ (es.flatMap (fun e => e.1 ++ ',' :: (e.2.1 ++ decimal e.2.2)) ++ tail).head?, c = ',' ∨ Blanks [c] := by
  cases es with
  | nil => exact blanks_head _ htail
  | cons e es =>
    rw [List.flatMap_cons, List.append_assoc, List.append_assoc, List.cons_append]
    exact blanks_comma_head _ _ (hes e (by simp)).1

theorem abqEntries_text (es : List (List Char × List Char × ℕ)) (tail : List Char) (htail : Blanks tail)
    (hes : ∀ e ∈ es, Blanks e.1 ∧ Blanks e.2.1) (fuel : ℕ)
    (hf : (es.flatMap (fun e => e.1 ++ ',' :: (e.2.1 ++ decimal e.2.2)) ++ tail).length < fuel) :
    ∃ junk, abqEntries fuel (es.flatMap (fun e => e.1 ++ ',' :: (e.2.1 ++ decimal e.2.2)) ++ tail)
      = es.map (fun e => some ((e.2.2 : ℕ) : ℤ)) ++ junk := by
  induction es generalizing fuel with
  | nil => exact ⟨_, rfl⟩
  | cons e es ih =>
    obtain ⟨fuel, rfl⟩ : ∃ k, fuel = k + 1 := ⟨fuel - 1, by omega⟩
    have he := hes e (by simp)
    have hes' : ∀ e ∈ es, Blanks e.1 ∧ Blanks e.2.1 := fun e he => hes e (by simp [he])
    rw [List.flatMap_cons, List.append_assoc, List.append_assoc, List.cons_append, List.append_assoc] at hf ⊢
    obtain ⟨junk, hj⟩ := ih hes' fuel (by
      simp only [List.length_append, List.length_cons] at hf ⊢
      omega)
    refine ⟨junk, ?_⟩
    rw [abqEntries, skipComma_blanks _ _ he.1]
    simp only
    rw [readInt_decimal _ he.2 _ _ (notDigit_of_sep (entries_sep es tail htail hes'))]
    simp only
    rw [hj]
    rfl

theorem abqPerm_eq : ∀ l < 8, abqPerm l = cornerPlace l ∧ cornerPlace l < 8 := by decide

theorem mapM_eq_some {α β : Type} (f : α → Option β) (g : α → β) (l : List α) (h : ∀ a ∈ l, f a = some (g a)) :
    l.mapM f = some (l.map g) := by
  induction l with
  | nil => rfl
  | cons a l ih =>
    rw [List.mapM_cons, h a (by simp), ih fun b hb => h b (by simp [hb])]
    rfl

theorem convertAbq_eq (ns : List ℕ) (junk : List (Option ℤ)) (h : 8 ≤ ns.length) :
    convertAbq (ns.map (fun n : ℕ => some (n : ℤ)) ++ junk)
      = some ((List.range 8).map fun l => (ns[cornerPlace l]?).map fun n : ℕ => (n : ℤ)) := by
  unfold convertAbq
  apply mapM_eq_some
  intro l hl
  obtain ⟨h1, h2⟩ := abqPerm_eq l (List.mem_range.1 hl)
  rw [h1, List.getElem?_append_left (by rw [List.length_map]; omega), List.getElem?_map,
    List.getElem?_eq_getElem (by omega)]
  rfl

/-! #### The loop over the lines -/

theorem find_star (r : List Char) : findSub "*".toList ('*' :: r) = some 0 := by
  simp [findSub]

theorem find_star_none {l : List Char} (h : '*' ∉ l) : findSub "*".toList l = none := by
  rw [findSub_none]
  rintro ⟨a, b, rfl⟩
  exact h (by simp)

theorem noKeyword_of_not_mem {l : List Char} (h : '*' ∉ l) : NoKeyword l := by
  constructor
  · rintro ⟨a, b, rfl⟩
    exact h (by simp)
  · rintro ⟨a, b, rfl⟩
    exact h (by simp)

theorem find_none {w l : List Char} (h : ¬ w <:+: l) : findSub w l = none := findSub_none.2 h

theorem find_some {w l : List Char} (h : w <:+: l) : findSub w l ≠ none := fun h' => findSub_none.1 h' h

theorem step_nodes_kw (rd : List Char → Option (K × List Char)) (st : AbqState K) (kw : List Char)
    (hs : ∃ r, kw = '*' :: r) (h1 : "*Node".toList <:+: kw) (h2 : ¬ "*Element".toList <:+: kw) :
    abqStep rd st kw = some ⟨true, false, st.nodes, st.elems⟩ := by
  obtain ⟨r, rfl⟩ := hs
  unfold abqStep abqNodePart
  rw [if_pos (find_some h1)]
  simp only [Bool.false_eq_true, if_false]
  unfold abqElemPart
  rw [if_neg (by rw [find_none h2]; simp)]
  simp only [find_star, and_true]
  cases st.inElems <;> rfl

theorem nodePart_star (rd : List Char → Option (K × List Char)) (st : AbqState K) (kw : List Char)
    (hs : ∃ r, kw = '*' :: r) (h1 : ¬ "*Node".toList <:+: kw) :
    abqNodePart rd st kw = (⟨false, st.inElems, st.nodes, st.elems⟩, false) := by
  obtain ⟨r, rfl⟩ := hs
  unfold abqNodePart
  rw [if_neg (by rw [find_none h1]; simp)]
  simp only [find_star, and_true]
  obtain ⟨a, b, c, d⟩ := st
  cases a <;> rfl

theorem step_elems_kw (rd : List Char → Option (K × List Char)) (st : AbqState K) (kw : List Char)
    (hs : ∃ r, kw = '*' :: r) (h1 : "*Element".toList <:+: kw) (h2 : ¬ "*Node".toList <:+: kw) :
    abqStep rd st kw = some ⟨false, true, st.nodes, st.elems⟩ := by
  unfold abqStep
  rw [nodePart_star rd st kw hs h2]
  simp only [Bool.false_eq_true, if_false]
  unfold abqElemPart
  rw [if_pos (find_some h1)]

theorem step_other_kw (rd : List Char → Option (K × List Char)) (st : AbqState K) (kw : List Char)
    (hs : ∃ r, kw = '*' :: r) (h : NoKeyword kw) :
    abqStep rd st kw = some ⟨false, false, st.nodes, st.elems⟩ := by
  unfold abqStep
  rw [nodePart_star rd st kw hs h.1]
  simp only [Bool.false_eq_true, if_false]
  unfold abqElemPart
  rw [if_neg (by rw [find_none h.2]; simp)]
  obtain ⟨r, rfl⟩ := hs
  simp only [find_star, and_true]
  cases st.inElems <;> rfl

theorem step_idle (rd : List Char → Option (K × List Char)) (ns : List (K × K × K)) (es : List (List (Option ℤ)))
    (l : List Char) (h : NoKeyword l) :
    abqStep rd ⟨false, false, ns, es⟩ l = some ⟨false, false, ns, es⟩ := by
  have hp : abqNodePart rd ⟨false, false, ns, es⟩ l = (⟨false, false, ns, es⟩, false) := by
    unfold abqNodePart
    rw [if_neg (by rw [find_none h.1]; simp)]
    simp
  unfold abqStep
  rw [hp]
  simp only [Bool.false_eq_true, if_false]
  unfold abqElemPart
  rw [if_neg (by rw [find_none h.2]; simp)]
  simp

theorem idle_lines (rd : List Char → Option (K × List Char)) (ns : List (K × K × K)) (es : List (List (Option ℤ)))
    (ls : List (List Char)) (h : ∀ l ∈ ls, NoKeyword l) :
    ls.foldlM (abqStep rd) ⟨false, false, ns, es⟩ = some ⟨false, false, ns, es⟩ := by
  induction ls with
  | nil => rfl
  | cons l ls ih =>
    rw [List.foldlM_cons, step_idle rd ns es l (h l (by simp))]
    exact ih fun l hl => h l (by simp [hl])

theorem decimal_no_star (n : ℕ) : '*' ∉ decimal n := by
  intro h
  exact (digit_not (Nat.isDigit_of_mem_toDigits (by decide) (by decide) h)).2.2.2.2.1 rfl

theorem nodeText_no_star (Num : List Char → K → Prop) (hnum : ∀ t x, Num t x → '*' ∉ t) {t : List Char} {id : ℕ}
    {p : K × K × K} (h : NodeText Num t id p) : '*' ∉ t := by
  obtain ⟨b0, b1, b2, tx, b3, b4, ty, b5, b6, tz, b7, h0, h1, h2, h3, h4, h5, h6, h7, hx, hy, hz, rfl⟩ := h
  simp only [List.mem_append, List.mem_cons, not_or]
  exact ⟨h0.not_mem.2, decimal_no_star _, h1.not_mem.2, by decide, h2.not_mem.2, hnum _ _ hx, h3.not_mem.2,
    by decide, h4.not_mem.2, hnum _ _ hy, h5.not_mem.2, by decide, h6.not_mem.2, hnum _ _ hz, h7.not_mem.2⟩

theorem elemText_no_star {t : List Char} {id : ℕ} {ns : List ℕ} (h : ElemText t id ns) : '*' ∉ t := by
  obtain ⟨b0, es, tail, h0, h1, h2, -, rfl⟩ := h
  simp only [List.mem_append, List.mem_flatMap, List.mem_cons, not_or, not_exists, not_and]
  exact ⟨h0.not_mem.2, decimal_no_star _, fun e he => ⟨(h2 e he).1.not_mem.2, by decide, (h2 e he).2.not_mem.2,
    decimal_no_star _⟩, h1.not_mem.2⟩

theorem step_node (Num : List Char → K → Prop) (hnum : ∀ t x, Num t x → '*' ∉ t)
    (rd : List Char → Option (K × List Char)) (hrd : StreamReads Num rd) (ns : List (K × K × K))
    (es : List (List (Option ℤ))) (t : List Char) (id : ℕ) (p : K × K × K) (h : NodeText Num t id p) :
    abqStep rd ⟨true, false, ns, es⟩ t = some ⟨true, false, ns ++ [p], es⟩ := by
  have hst := nodeText_no_star Num hnum h
  have hk := noKeyword_of_not_mem hst
  have hp : abqNodePart rd ⟨true, false, ns, es⟩ t = (⟨true, false, ns ++ [p], es⟩, false) := by
    unfold abqNodePart
    rw [if_neg (by rw [find_none hk.1]; simp), if_neg (by rw [find_star_none hst]; simp)]
    simp only [if_true, parseAbqNode_text Num rd hrd t id p h]
  unfold abqStep
  rw [hp]
  simp only [Bool.false_eq_true, if_false]
  unfold abqElemPart
  rw [if_neg (by rw [find_none hk.2]; simp)]
  simp

theorem step_elem (rd : List Char → Option (K × List Char)) (ns : List (K × K × K))
    (es : List (List (Option ℤ))) (t : List Char) (id : ℕ) (cs : List ℕ) (h : ElemText t id cs) (h8 : 8 ≤ cs.length) :
    abqStep rd ⟨false, true, ns, es⟩ t = some ⟨false, true, ns,
      es ++ [(List.range 8).map fun l => (cs[cornerPlace l]?).map fun n : ℕ => (n : ℤ)]⟩ := by
  have hst := elemText_no_star h
  have hk := noKeyword_of_not_mem hst
  have hp : abqNodePart rd ⟨false, true, ns, es⟩ t = (⟨false, true, ns, es⟩, false) := by
    unfold abqNodePart
    rw [if_neg (by rw [find_none hk.1]; simp)]
    simp
  unfold abqStep
  rw [hp]
  simp only [Bool.false_eq_true, if_false]
  unfold abqElemPart
  rw [if_neg (by rw [find_none hk.2]; simp), if_neg (by rw [find_star_none hst]; simp), if_pos rfl]
  obtain ⟨b0, ents, tail, h0, h1, h2, rfl, rfl⟩ := h
  unfold parseAbqElem
  rw [readInt_decimal b0 h0 id _ (notDigit_of_sep (entries_sep ents tail h1 h2))]
  obtain ⟨junk, hj⟩ := abqEntries_text ents tail h1 h2 _ (Nat.lt_succ_self _)
  simp only [Option.map_some]
  rw [hj]
  have := convertAbq_eq (ents.map fun e => e.2.2) junk h8
  rw [List.map_map] at this
  simp only [Function.comp_def] at this
  rw [this]
  rfl

theorem node_rows (Num : List Char → K → Prop) (hnum : ∀ t x, Num t x → '*' ∉ t)
    (rd : List Char → Option (K × List Char)) (hrd : StreamReads Num rd) (ns : List (K × K × K))
    (es : List (List (Option ℤ))) (rows : List (List Char × ℕ × (K × K × K)))
    (h : ∀ r ∈ rows, NodeText Num r.1 r.2.1 r.2.2) :
    (rows.map fun r => r.1).foldlM (abqStep rd) ⟨true, false, ns, es⟩
      = some ⟨true, false, ns ++ rows.map fun r => r.2.2, es⟩ := by
  induction rows generalizing ns with
  | nil => simp
  | cons r rows ih =>
    rw [List.map_cons, List.foldlM_cons, step_node Num hnum rd hrd ns es _ _ _ (h r (by simp))]
    have := ih (ns ++ [r.2.2]) fun r hr => h r (by simp [hr])
    rw [List.map_cons, ← List.append_cons] at *
    simpa using this

theorem elem_rows (rd : List Char → Option (K × List Char)) (ns : List (K × K × K))
    (es : List (List (Option ℤ))) (rows : List (List Char × ℕ × List ℕ))
    (h : ∀ r ∈ rows, ElemText r.1 r.2.1 r.2.2 ∧ 8 ≤ r.2.2.length) :
    (rows.map fun r => r.1).foldlM (abqStep rd) ⟨false, true, ns, es⟩
      = some ⟨false, true, ns, es ++ rows.map fun r => (List.range 8).map fun l =>
        (r.2.2[cornerPlace l]?).map fun n : ℕ => (n : ℤ)⟩ := by
  induction rows generalizing es with
  | nil => simp
  | cons r rows ih =>
    rw [List.map_cons, List.foldlM_cons, step_elem rd ns es _ _ _ (h r (by simp)).1 (h r (by simp)).2]
    have := ih (es ++ [(List.range 8).map fun l => (r.2.2[cornerPlace l]?).map fun n : ℕ => (n : ℤ)])
      fun r hr => h r (by simp [hr])
    simpa using this

/-- **C103.** Reading an Abaqus deck with well-formed parts in any order: the nodes are all nodes of the
deck, in the order of the lines; the elements are all its elements, each corner at its place in the
numbering of the code, labels lowered by one. Other parts are skipped. -/
theorem C103_abaqus (Num : List Char → K → Prop) (hnum : ∀ t x, Num t x → '*' ∉ t)
    (rd : List Char → Option (K × List Char)) (hrd : StreamReads Num rd) (pre : List (List Char))
    (hpre : ∀ l ∈ pre, NoKeyword l) (deck : List (AbqBlock K)) (hdeck : ∀ b ∈ deck, b.WF Num) :
    readAbaqus rd (pre ++ deck.flatMap AbqBlock.lines) = some
      ⟨(deck.flatMap AbqBlock.nodesOf).map fun n => n.2,
       (deck.flatMap AbqBlock.elemsOf).map fun e => (List.range 8).map fun l =>
         (e.2[cornerPlace l]?).map fun n : ℕ => (n : ℤ) - 1⟩ := by
  have key : ∀ (deck : List (AbqBlock K)) (hdeck : ∀ b ∈ deck, b.WF Num) (st : AbqState K),
      ∃ a b, (deck.flatMap AbqBlock.lines).foldlM (abqStep rd) st = some ⟨a, b,
        st.nodes ++ (deck.flatMap AbqBlock.nodesOf).map fun n => n.2,
        st.elems ++ (deck.flatMap AbqBlock.elemsOf).map fun e => (List.range 8).map fun l =>
          (e.2[cornerPlace l]?).map fun n : ℕ => (n : ℤ)⟩ := by
    intro deck
    induction deck with
    | nil => intro _ st; exact ⟨st.inNodes, st.inElems, by simp⟩
    | cons b deck ih =>
      intro hdeck st
      have hb := hdeck b (by simp)
      have ih := ih fun b hb => hdeck b (by simp [hb])
      rw [List.flatMap_cons, List.foldlM_append]
      cases b with
      | nodes kw rows =>
        obtain ⟨h1, h2, h3, h4⟩ := hb
        obtain ⟨a, b, hab⟩ := ih ⟨true, false, st.nodes ++ rows.map fun r => r.2.2, st.elems⟩
        refine ⟨a, b, ?_⟩
        simp only [AbqBlock.lines, List.foldlM_cons]
        rw [step_nodes_kw rd st kw h1 h2 h3]
        simp only [Option.bind_eq_bind, Option.bind_some]
        rw [node_rows Num hnum rd hrd _ _ rows h4]
        simp only [Option.bind_some]
        rw [hab]
        simp [AbqBlock.nodesOf, AbqBlock.elemsOf]
      | elems kw rows =>
        obtain ⟨h1, h2, h3, h4⟩ := hb
        obtain ⟨a, b, hab⟩ := ih ⟨false, true, st.nodes, st.elems ++ rows.map fun r => (List.range 8).map fun l =>
          (r.2.2[cornerPlace l]?).map fun n : ℕ => (n : ℤ)⟩
        refine ⟨a, b, ?_⟩
        simp only [AbqBlock.lines, List.foldlM_cons]
        rw [step_elems_kw rd st kw h1 h2 h3]
        simp only [Option.bind_eq_bind, Option.bind_some]
        rw [elem_rows rd _ _ rows h4]
        simp only [Option.bind_some]
        rw [hab]
        simp [AbqBlock.nodesOf, AbqBlock.elemsOf, Function.comp_def]
      | other kw data =>
        obtain ⟨h1, h2, h3⟩ := hb
        obtain ⟨a, b, hab⟩ := ih ⟨false, false, st.nodes, st.elems⟩
        refine ⟨a, b, ?_⟩
        simp only [AbqBlock.lines, List.foldlM_cons]
        rw [step_other_kw rd st kw h1 h2]
        simp only [Option.bind_eq_bind, Option.bind_some]
        rw [idle_lines rd _ _ data h3]
        simp only [Option.bind_some]
        rw [hab]
        simp [AbqBlock.nodesOf, AbqBlock.elemsOf]
  obtain ⟨a, b, hab⟩ := key deck hdeck ⟨false, false, [], []⟩
  unfold readAbaqus
  rw [List.foldlM_append, idle_lines rd _ _ pre hpre]
  simp only [Option.bind_eq_bind, Option.bind_some]
  rw [hab]
  simp [Function.comp_def]

/-- **C103.** If the nodes of the deck are labelled 1, 2, 3, ... in the order of the lines, each corner of
each element is the node that the deck names: corner `(i, j, k)` is local node `i + 2 j + 4 k`, and its
coordinates are those given for its label. -/
theorem C103_labels (Num : List Char → K → Prop) (hnum : ∀ t x, Num t x → '*' ∉ t)
    (rd : List Char → Option (K × List Char)) (hrd : StreamReads Num rd) (pre : List (List Char))
    (hpre : ∀ l ∈ pre, NoKeyword l) (deck : List (AbqBlock K)) (hdeck : ∀ b ∈ deck, b.WF Num) (n : ℕ)
    (hlab : (deck.flatMap AbqBlock.nodesOf).map (fun x => x.1) = (List.range n).map (· + 1)) :
    ∃ mesh, readAbaqus rd (pre ++ deck.flatMap AbqBlock.lines) = some mesh ∧
      mesh.elems.length = (deck.flatMap AbqBlock.elemsOf).length ∧
      ∀ (e id : ℕ) (cs : List ℕ), (deck.flatMap AbqBlock.elemsOf)[e]? = some (id, cs) →
      ∀ (q i j k a : ℕ) (p : K × K × K), hexCorners[q]? = some (i, j, k) → cs[q]? = some a →
        (a, p) ∈ deck.flatMap AbqBlock.nodesOf →
        ∃ g : ℕ, (mesh.elems[e]?.bind fun c => c[i + 2 * j + 4 * k]?) = some (some (g : ℤ)) ∧
          mesh.nodes[g]? = some p := by
  refine ⟨_, C103_abaqus Num hnum rd hrd pre hpre deck hdeck, by simp, ?_⟩
  intro e id cs he q i j k a p hq ha hp
  have hplace : i + 2 * j + 4 * k < 8 ∧ cornerPlace (i + 2 * j + 4 * k) = q := by
    have hq8 : q < 8 := by
      by_contra h
      rw [List.getElem?_eq_none (by simpa [hexCorners] using h)] at hq
      exact absurd hq (by simp)
    interval_cases q <;> simp [hexCorners] at hq <;> obtain ⟨rfl, rfl, rfl⟩ := hq <;> decide
  obtain ⟨g, hg, hgp⟩ := List.mem_iff_getElem.1 hp
  have hga : a = g + 1 := by
    have h1 : ((deck.flatMap AbqBlock.nodesOf).map (fun x => x.1))[g]? = some a := by
      rw [List.getElem?_map, List.getElem?_eq_getElem hg, hgp]; rfl
    rw [hlab, List.getElem?_map] at h1
    cases hr : (List.range n)[g]? with
    | none => rw [hr] at h1; simp at h1
    | some r =>
      rw [hr] at h1
      have := List.getElem?_eq_some_iff.1 hr
      obtain ⟨hlt, hv⟩ := this
      rw [List.getElem_range] at hv
      simp at h1
      omega
  refine ⟨g, ?_, ?_⟩
  · simp only [List.getElem?_map, he, Option.map_some, Option.bind_some]
    rw [List.getElem?_range hplace.1]
    simp only [Option.map_some, hplace.2, ha, hga]
    push_cast
    simp
  · simp only [List.getElem?_map, List.getElem?_eq_getElem hg, hgp]
    rfl

end

/-! #### What fails -/

/-- The sample deck: a cube, its eight nodes labelled from `first` on. -/
def cubeDeck (first : ℕ) : List (AbqBlock ℤ) :=
  [.other "*Part".toList [],
   .nodes "*Node".toList ((List.range 8).map fun q =>
      let c := hexCorners.getD q (0, 0, 0)
      (decimal (first + q) ++ ", ".toList ++ decimal c.1 ++ ", ".toList ++ decimal c.2.1 ++ ", ".toList
        ++ decimal c.2.2, first + q, ((c.1 : ℤ), (c.2.1 : ℤ), (c.2.2 : ℤ)))),
   .elems "*Element, type=C3D8R".toList
      [("1, ".toList ++ (", ".toList).intercalate ((List.range 8).map fun q => decimal (first + q)), 1,
        (List.range 8).map (first + ·))],
   .other "*End Part".toList ["** the end".toList]]

/-- **C103 (what fails).** Labels are not looked up: with nodes labelled from 11 on the element refers to
nodes 10 to 17 of the eight nodes 0 to 7. -/
theorem C103_labels_fails : ∃ mesh, readAbaqus readInt ((cubeDeck 11).flatMap AbqBlock.lines) = some mesh ∧
    mesh.nodes.length = 8 ∧ mesh.elems = [[10, 11, 13, 12, 14, 15, 17, 16].map fun n : ℤ => some n] := by
  refine ⟨_, rfl, ?_⟩
  decide +kernel

/-- **C103 (what fails).** A comment inside the list of nodes ends it; the nodes behind it are lost. -/
theorem C103_comment_fails : readAbaqus readInt (["*Node", "1, 0, 0, 0", "** second half", "2, 1, 0, 0"].map
    String.toList) = some ⟨[(0, 0, 0)], []⟩ := by
  decide +kernel

/-- **C103 (what fails).** Keywords are taken literally, though Abaqus does not distinguish capital
letters: nothing is read, and nothing is reported. -/
theorem C103_capitals_fails : readAbaqus readInt (["*NODE", "1, 0, 0, 0", "2, 1, 0, 0"].map
    String.toList) = some ⟨[], []⟩ := by
  decide +kernel

/-- **C103 (what fails).** An element that is continued on a second line: the code reads behind the end of
the list of its nodes. -/
theorem C103_continuation_fails (rest : List (List Char)) : readAbaqus readInt ((["*Element, type=C3D8",
    "1, 1, 2, 3, 4,", "5, 6, 7, 8"].map String.toList) ++ rest) = none := by
  unfold readAbaqus
  rw [List.foldlM_append]
  have : (["*Element, type=C3D8", "1, 1, 2, 3, 4,", "5, 6, 7, 8"].map String.toList).foldlM
      (abqStep (K := ℤ) readInt) ⟨false, false, [], []⟩ = none := by decide +kernel
  rw [this]
  rfl

/-! ### Legacy VTK -/

/-- The first word of a line. -/
def firstWord (l : List Char) : List Char := l.takeWhile fun c => c ≠ ' '

/-- Words separated by single blanks. -/
def words (ws : List (List Char)) : List Char := [' '].intercalate ws

section
variable {K : Type} [Field K]

/-- The line of a point: at least as many words as there are coordinates, separated by single blanks. -/
def PointLine (stod : List Char → Option K) (dims : ℕ) (line : List Char) (x : ℕ → K) : Prop :=
  ∃ ws, ws ≠ [] ∧ line = words ws ∧ (∀ w ∈ ws, ' ' ∉ w) ∧ ∀ d < dims, ∃ w, ws[d]? = some w ∧ stod w = some (x d)

/-- The line of a cell: the number of its nodes and the nodes, and possibly more words. -/
def CellLine (line : List Char) (ns : List ℕ) : Prop :=
  ∃ more, line = words (decimal ns.length :: ns.map decimal ++ more) ∧ ∀ w ∈ more, ' ' ∉ w

omit [Field K] in
theorem split_words (ws : List (List Char)) (h : ws ≠ []) (hb : ∀ w ∈ ws, ' ' ∉ w) :
    split (words ws) [' '] = some ws := C32_split_join ' ' ws h hb

theorem split_first (l : List Char) : ∃ v, split l [' '] = some v ∧ v.head? = some (firstWord l) := by
  obtain ⟨ps, h1, h2, h3, h4⟩ := C32_split l [' '] (by simp)
  refine ⟨ps, h1, ?_⟩
  cases ps with
  | nil => exact absurd rfl h3
  | cons p ps =>
    have hp : ' ' ∉ p := by
      intro h
      refine h4 p (by simp) ?_
      obtain ⟨a, b, rfl⟩ := List.append_of_mem h
      exact ⟨a, b, by simp⟩
    have hall : ∀ c ∈ p, decide (c ≠ ' ') = true := by
      intro c hc
      simp only [ne_eq, decide_not, Bool.not_eq_true', decide_eq_false_iff_not]
      rintro rfl
      exact hp hc
    simp only [List.head?_cons, Option.some.injEq]
    rw [← h2]
    unfold firstWord
    cases ps with
    | nil =>
      simp only [List.intercalate_singleton]
      have := List.takeWhile_append_of_pos (l₂ := []) hall
      simpa using this.symm
    | cons p2 ps =>
      have : [' '].intercalate (p :: p2 :: ps) = p ++ ' ' :: [' '].intercalate (p2 :: ps) := by
        rw [List.intercalate_cons_cons]
        simp
      rw [this, List.takeWhile_append_of_pos hall]
      simp

theorem findLine_skip (word : List Char) (pre : List (List Char)) (ws : List (List Char)) (rest : List (List Char))
    (hpre : ∀ l ∈ pre, firstWord l ≠ word) (hws : ∀ w ∈ ws, ' ' ∉ w) (hword : ' ' ∉ word) (n : ℕ) (hn : pre.length < n) :
    findLine word n (pre ++ words (word :: ws) :: rest) = some (word :: ws, rest) := by
  induction pre generalizing n with
  | nil =>
    obtain ⟨n, rfl⟩ : ∃ k, n = k + 1 := ⟨n - 1, by simp at hn; omega⟩
    rw [List.nil_append, findLine, split_words _ (by simp) (by
      intro w hw
      rcases List.mem_cons.1 hw with rfl | hw
      · exact hword
      · exact hws w hw)]
    simp
  | cons l pre ih =>
    obtain ⟨n, rfl⟩ : ∃ k, n = k + 1 := ⟨n - 1, by simp at hn; omega⟩
    obtain ⟨v, hv1, hv2⟩ := split_first l
    rw [List.cons_append, findLine, hv1]
    simp only [Option.bind_some]
    rw [hv2, if_neg (by
      intro h
      injection h with h
      exact hpre l (by simp) h)]
    exact ih (fun l hl => hpre l (by simp [hl])) n (by simp at hn; omega)

theorem decimal_no_blank (n : ℕ) : ' ' ∉ decimal n := by
  intro h
  exact (digit_not (Nat.isDigit_of_mem_toDigits (by decide) (by decide) h)).2.2.2.2.2 rfl

theorem fieldNat_decimal (v : List (List Char)) (i n : ℕ) (h : v[i]? = some (decimal n)) :
    fieldNat v i = some n := by
  unfold fieldNat
  have := readInt_decimal [] (by intro c hc; simp at hc) n [] (by simp)
  simp only [List.nil_append, List.append_nil] at this
  rw [h]
  simp only [Option.bind_some]
  rw [this]
  simp

theorem vtkNodeLine_eq (stod : List Char → Option K) (scale : ℕ → K) (dims : ℕ) (line : List Char) (x : ℕ → K)
    (h : PointLine stod dims line x) :
    vtkNodeLine stod scale dims line = some ((List.range dims).map fun d => scale d * x d) := by
  obtain ⟨ws, h1, rfl, h2, h3⟩ := h
  unfold vtkNodeLine
  rw [split_words ws h1 h2]
  simp only [Option.bind_some]
  apply mapM_eq_some
  intro d hd
  obtain ⟨w, hw, hx⟩ := h3 d (List.mem_range.1 hd)
  rw [hw]
  simp only [Option.bind_some]
  rw [hx]
  rfl

theorem vtkElemLine_eq (dims : ℕ) (line : List Char) (ns : List ℕ) (h : CellLine line ns)
    (hk : ns.length ≤ 2 ^ dims) : vtkElemLine dims line = some ns := by
  obtain ⟨more, rfl, hm⟩ := h
  unfold vtkElemLine
  rw [split_words _ (by simp) (by
    intro w hw
    rcases List.mem_append.1 hw with hw | hw
    · rcases List.mem_cons.1 hw with rfl | hw
      · exact decimal_no_blank _
      · obtain ⟨n, _, rfl⟩ := List.mem_map.1 hw
        exact decimal_no_blank _
    · exact hm w hw)]
  simp only [Option.bind_some]
  rw [fieldNat_decimal _ 0 ns.length (by simp)]
  simp only [Option.bind_some]
  rw [if_neg (by omega), mapM_eq_some _ (fun l => ns.getD l 0)]
  · congr 1
    apply List.ext_getElem (by simp)
    intro i h1 h2
    simp at h1
    simp [List.getD_eq_getElem?_getD, h2]
  · intro l hl
    have hl := List.mem_range.1 hl
    apply fieldNat_decimal
    rw [List.cons_append, List.getElem?_cons_succ, List.getElem?_append_left (by simpa using hl), List.getElem?_map,
      List.getElem?_eq_getElem hl]
    simp [List.getD_eq_getElem?_getD, hl]

theorem vtkPerm_eq : ∀ l < 8, vtkPerm l = cornerPlace l := by decide

theorem mapM_zip {α β γ : Type} (f : α → Option γ) (P : α → β → Prop) (g : β → γ) (as : List α) (bs : List β)
    (h : List.Forall₂ P as bs) (hf : ∀ a b, P a b → f a = some (g b)) : as.mapM f = some (bs.map g) := by
  induction h with
  | nil => rfl
  | cons hab _ ih =>
    rw [List.mapM_cons, hf _ _ hab, ih]
    rfl

theorem mapM_zip_mem {α β γ : Type} (f : α → Option γ) (P : α → β → Prop) (g : β → γ) (as : List α) (bs : List β)
    (h : List.Forall₂ P as bs) (hf : ∀ a, ∀ b ∈ bs, P a b → f a = some (g b)) : as.mapM f = some (bs.map g) := by
  induction h with
  | nil => rfl
  | cons hab _ ih =>
    rw [List.mapM_cons, hf _ _ (by simp) hab, ih fun a b hb => hf a b (by simp [hb])]
    rfl

/-- The reading up to the types of the cells. -/
theorem readVtk_upto (stod : List Char → Option K) (scale : ℕ → K) (pre mid after : List (List Char))
    (more more2 : List (List Char)) (pts cells : List (List Char)) (xs : List (ℕ → K)) (ns : List (List ℕ))
    (hpre : pre.length ≤ 1001 ∧ ∀ l ∈ pre, firstWord l ≠ "POINTS".toList)
    (hmid : mid.length ≤ 1001 ∧ ∀ l ∈ mid, firstWord l ≠ "CELLS".toList)
    (hafter : vtkTypesRead after = true) (hmore : ∀ w ∈ more ++ more2, ' ' ∉ w)
    (hpts : List.Forall₂ (PointLine stod 3) pts xs) (hcells : List.Forall₂ CellLine cells ns)
    (h8 : ∀ c ∈ ns, c.length = 8) :
    ∃ mesh, readVtk stod scale 3 (pre ++ words ("POINTS".toList :: decimal xs.length :: more) :: (pts ++
        (mid ++ words ("CELLS".toList :: decimal ns.length :: more2) :: (cells ++ after)))) = some mesh ∧
      mesh.nodes = xs.map (fun x => [scale 0 * x 0, scale 1 * x 1, scale 2 * x 2]) ∧
      mesh.elems.length = ns.length ∧
      ∀ (e : ℕ) (c : List ℕ), ns[e]? = some c → ∀ q i j k : ℕ, hexCorners[q]? = some (i, j, k) →
        (mesh.elems[e]?.bind fun f => f (i + 2 * j + 4 * k)) = c[q]? := by
  have hlen := hpts.length_eq
  have hlen2 := hcells.length_eq
  have hm1 : ∀ w ∈ decimal xs.length :: more, ' ' ∉ w := by
    intro w hw
    rcases List.mem_cons.1 hw with rfl | hw
    · exact decimal_no_blank _
    · exact hmore w (by simp [hw])
  have hm2 : ∀ w ∈ decimal ns.length :: more2, ' ' ∉ w := by
    intro w hw
    rcases List.mem_cons.1 hw with rfl | hw
    · exact decimal_no_blank _
    · exact hmore w (by simp [hw])
  refine ⟨⟨xs.map fun x => (List.range 3).map fun d => scale d * x d,
    ns.map (vtkConverted ((ns.getLast?.map List.length).getD (2 ^ 3)))⟩, ?_, ?_, by simp, ?_⟩
  · unfold readVtk
    rw [findLine_skip _ pre _ _ hpre.2 hm1 (by decide) 1002 (by omega)]
    simp only [Option.bind_some]
    rw [fieldNat_decimal _ 1 xs.length rfl]
    simp only [Option.bind_some]
    rw [if_neg (by rw [List.length_append]; omega), List.take_append_of_le_length (by omega), ← hlen,
      List.take_length, mapM_zip _ _ (fun x => (List.range 3).map fun d => scale d * x d) pts xs hpts
        (fun a b hab => vtkNodeLine_eq stod scale 3 a b hab), List.drop_left]
    simp only [Option.bind_some]
    rw [findLine_skip _ mid _ _ hmid.2 hm2 (by decide) 1002 (by omega)]
    simp only [Option.bind_some]
    rw [fieldNat_decimal _ 1 ns.length rfl]
    simp only [Option.bind_some]
    rw [if_neg (by rw [List.length_append]; omega), List.take_append_of_le_length (by omega), ← hlen2,
      List.take_length, mapM_zip_mem _ _ id cells ns hcells
        (fun a b hb hab => vtkElemLine_eq 3 a b hab (by rw [h8 b hb]; decide)), List.drop_left, List.map_id]
    simp only [Option.bind_some]
    rw [hafter]
    simp
  · apply List.map_congr_left
    intro x _
    rfl
  · intro e c hc q i j k hq
    have hplace : i + 2 * j + 4 * k < 8 ∧ cornerPlace (i + 2 * j + 4 * k) = q := by
      have hq8 : q < 8 := by
        by_contra h
        rw [List.getElem?_eq_none (by simpa [hexCorners] using h)] at hq
        exact absurd hq (by simp)
      interval_cases q <;> simp [hexCorners] at hq <;> obtain ⟨rfl, rfl, rfl⟩ := hq <;> decide
    have hlast : (ns.getLast?.map List.length).getD (2 ^ 3) = 8 := by
      cases hl : ns.getLast? with
      | none => rfl
      | some c => simp [h8 c (List.mem_of_getLast? hl)]
    simp only [List.getElem?_map, hc, Option.map_some, Option.bind_some, hlast]
    unfold vtkConverted
    rw [if_pos hplace.1, vtkPerm_eq _ hplace.1, hplace.2]

/-- **C104.** Reading a legacy VTK file of hexahedra, in which every point and every cell has its own line
with words separated by single blanks and no more than 1001 other lines stand before each of the key words:
the coordinates are those of the file times the scale, and each corner `(i, j, k)` of a cell is local node
`i + 2 j + 4 k`. -/
theorem C104_vtk (stod : List Char → Option K) (scale : ℕ → K) (pre mid mid2 tail : List (List Char))
    (more more2 more3 : List (List Char)) (pts cells : List (List Char)) (xs : List (ℕ → K)) (ns : List (List ℕ))
    (ty : ℕ)
    (hpre : pre.length ≤ 1001 ∧ ∀ l ∈ pre, firstWord l ≠ "POINTS".toList)
    (hmid : mid.length ≤ 1001 ∧ ∀ l ∈ mid, firstWord l ≠ "CELLS".toList)
    (hmid2 : mid2.length ≤ 1001 ∧ ∀ l ∈ mid2, firstWord l ≠ "CELL_TYPES".toList)
    (hmore : ∀ w ∈ more ++ more2 ++ more3, ' ' ∉ w)
    (hpts : List.Forall₂ (PointLine stod 3) pts xs) (hcells : List.Forall₂ CellLine cells ns)
    (h8 : ∀ c ∈ ns, c.length = 8) :
    ∃ mesh, readVtk stod scale 3 (pre ++ words ("POINTS".toList :: decimal xs.length :: more) :: (pts ++
        (mid ++ words ("CELLS".toList :: decimal ns.length :: more2) :: (cells ++
        (mid2 ++ words ("CELL_TYPES".toList :: more3) :: decimal ty :: tail))))) = some mesh ∧
      mesh.nodes = xs.map (fun x => [scale 0 * x 0, scale 1 * x 1, scale 2 * x 2]) ∧
      mesh.elems.length = ns.length ∧
      ∀ (e : ℕ) (c : List ℕ), ns[e]? = some c → ∀ q i j k : ℕ, hexCorners[q]? = some (i, j, k) →
        (mesh.elems[e]?.bind fun f => f (i + 2 * j + 4 * k)) = c[q]? := by
  refine readVtk_upto stod scale pre mid _ more more2 pts cells xs ns hpre hmid ?_
    (fun w hw => hmore w (List.mem_append_left _ hw)) hpts hcells h8
  unfold vtkTypesRead
  rw [findLine_skip _ mid2 _ _ hmid2.2 (fun w hw => hmore w (by simp [hw])) (by decide) 1002 (by omega)]
  have := readInt_decimal [] (by intro c hc; simp at hc) ty [] (by simp)
  simp only [List.nil_append, List.append_nil] at this
  simp [this]

theorem findLine_absent (word : List Char) (lines : List (List Char)) (h : ∀ l ∈ lines, firstWord l ≠ word)
    (n : ℕ) : findLine word n lines = none := by
  induction n generalizing lines with
  | zero => cases lines <;> rfl
  | succ n ih =>
    cases lines with
    | nil => exact ih [] (by simp)
    | cons l lines =>
      obtain ⟨v, hv1, hv2⟩ := split_first l
      rw [findLine, hv1]
      simp only [Option.bind_some]
      rw [hv2, if_neg (by
        intro h'
        injection h' with h'
        exact h l (by simp) h')]
      exact ih _ fun l hl => h l (by simp [hl])

/-- **C104.** The types of the cells may be missing: a file without the line `CELL_TYPES` is read the
same. -/
theorem C104_no_types (stod : List Char → Option K) (scale : ℕ → K) (pre mid after : List (List Char))
    (more more2 : List (List Char)) (pts cells : List (List Char)) (xs : List (ℕ → K)) (ns : List (List ℕ))
    (hpre : pre.length ≤ 1001 ∧ ∀ l ∈ pre, firstWord l ≠ "POINTS".toList)
    (hmid : mid.length ≤ 1001 ∧ ∀ l ∈ mid, firstWord l ≠ "CELLS".toList)
    (hafter : ∀ l ∈ after, firstWord l ≠ "CELL_TYPES".toList)
    (hmore : ∀ w ∈ more ++ more2, ' ' ∉ w)
    (hpts : List.Forall₂ (PointLine stod 3) pts xs) (hcells : List.Forall₂ CellLine cells ns)
    (h8 : ∀ c ∈ ns, c.length = 8) :
    ∃ mesh, readVtk stod scale 3 (pre ++ words ("POINTS".toList :: decimal xs.length :: more) :: (pts ++
        (mid ++ words ("CELLS".toList :: decimal ns.length :: more2) :: (cells ++ after)))) = some mesh ∧
      mesh.nodes = xs.map (fun x => [scale 0 * x 0, scale 1 * x 1, scale 2 * x 2]) ∧
      mesh.elems.length = ns.length ∧
      ∀ (e : ℕ) (c : List ℕ), ns[e]? = some c → ∀ q i j k : ℕ, hexCorners[q]? = some (i, j, k) →
        (mesh.elems[e]?.bind fun f => f (i + 2 * j + 4 * k)) = c[q]? := by
  refine readVtk_upto stod scale pre mid after more more2 pts cells xs ns hpre hmid ?_ hmore hpts hcells h8
  unfold vtkTypesRead
  rw [findLine_absent _ _ hafter]

theorem readInt_negative (n : ℕ) : readInt ('-' :: decimal n) = some (-(n : ℤ), []) := by
  have h := readInt_decimal [] (by intro c hc; simp at hc) n [] (by simp)
  simp only [List.nil_append, List.append_nil] at h
  have hd : readDigits (decimal n) = some ((n : ℤ), []) := by
    rw [← h]
    unfold readInt
    cases hc : decimal n with
    | nil => rfl
    | cons c r =>
      have hdig : c.isDigit = true := Nat.isDigit_of_mem_toDigits (by decide) (by decide)
        (show c ∈ decimal n by rw [hc]; simp)
      have hns : isSpaceChar c = false := by
        by_contra hsp
        rw [Bool.not_eq_false] at hsp
        unfold isSpaceChar at hsp
        simp only [Bool.or_eq_true, beq_iff_eq] at hsp
        rcases hsp with ((((h | h) | h) | h) | h) | h <;> subst h <;> exact absurd hdig (by decide)
      rw [List.dropWhile_cons_of_neg (by simp [hns])]
      split
      · rename_i heq; injection heq with h1 _; subst h1; exact absurd hdig (by decide)
      · rename_i heq; injection heq with h1 _; subst h1; exact absurd hdig (by decide)
      · rfl
  unfold readInt
  rw [List.dropWhile_cons_of_neg (by decide)]
  simp [hd]

/-- **C104.** A negative number of points does not lead to a mesh. -/
theorem C104_negative (stod : List Char → Option K) (scale : ℕ → K) (pre more rest : List (List Char)) (n : ℕ)
    (hpre : pre.length ≤ 1001 ∧ ∀ l ∈ pre, firstWord l ≠ "POINTS".toList) (hmore : ∀ w ∈ more, ' ' ∉ w) :
    readVtk stod scale 3 (pre ++ words ("POINTS".toList :: ('-' :: decimal (n + 1)) :: more) :: rest) = none := by
  unfold readVtk
  rw [findLine_skip _ pre _ _ hpre.2 (by
    intro w hw
    rcases List.mem_cons.1 hw with rfl | hw
    · intro h
      rcases List.mem_cons.1 h with h | h
      · exact absurd h (by decide)
      · exact decimal_no_blank _ h
    · exact hmore w hw) (by decide) 1002 (by omega)]
  simp only [Option.bind_some]
  have : fieldNat ("POINTS".toList :: ('-' :: decimal (n + 1)) :: more) 1 = none := by
    unfold fieldNat
    simp only [List.getElem?_cons_succ, List.getElem?_cons_zero, Option.bind_some, readInt_negative]
    rw [if_pos (by push_cast; omega)]
  rw [this]
  rfl

end

/-! #### What fails -/

/-- A reader of integers in place of `std::stod`, for the examples. -/
def stodInt (s : List Char) : Option ℚ := (readInt s).map fun x => (x.1 : ℚ)

/-- **C104 (what fails).** Several points on one line (as most programs write them): the call does not
succeed. -/
theorem C104_points_per_line_fails : (readVtk stodInt (fun _ => 1) 3 (["POINTS 2 float", "0 0 0 1 0 0", "",
    "CELLS 0 0"].map String.toList)).isNone = true := by
  decide +kernel

/-- **C104 (what fails).** Two blanks between words: the call does not succeed. -/
theorem C104_two_blanks_fails : (readVtk stodInt (fun _ => 1) 3 (["POINTS 1 float", "0  0 0",
    "CELLS 0 0"].map String.toList)).isNone = true := by
  decide +kernel

/-- **C104 (what fails).** Quadrilaterals are renumbered like hexahedra: the square `0, 1, 2, 3` becomes the
bow tie `0, 1, 3, 2`, whose area, as the code computes it, is zero. -/
theorem C104_quads_fails : ∃ mesh, readVtk stodInt (fun _ => 1) 2 (["POINTS 4 float", "0 0 0", "1 0 0", "1 1 0",
      "0 1 0", "CELLS 1 5", "4 0 1 2 3", "CELL_TYPES 1", "9"].map String.toList) = some mesh ∧
    mesh.nodes = [[0, 0], [1, 0], [1, 1], [0, 1]] ∧
    (mesh.elems.map fun f => (List.range 4).map f) = [[some 0, some 1, some 3, some 2]] ∧
    areaQuad (K := ℚ) ![0, 1, 0, 1] ![0, 0, 1, 1] = 0 := by
  refine ⟨_, rfl, ?_⟩
  decide +kernel

/-! ### Cases that meet the hypotheses -/

/-- Numerals without sign, read as integers. -/
def natNum (t : List Char) (x : ℤ) : Prop := ∃ n : ℕ, t = decimal n ∧ x = n

example : StreamReads natNum readInt ∧ ∀ t x, natNum t x → '*' ∉ t := by
  constructor
  · rintro b _ _ rest hb ⟨n, rfl, rfl⟩ hr
    exact readInt_decimal b hb n rest (notDigit_of_sep hr)
  · rintro _ _ ⟨n, rfl, rfl⟩
    exact decimal_no_star n

example : (∀ b ∈ cubeDeck 1, b.WF natNum) ∧
    ((cubeDeck 1).flatMap AbqBlock.nodesOf).map (fun x => x.1) = (List.range 8).map (· + 1) ∧
    ((cubeDeck 1).flatMap AbqBlock.elemsOf).map (fun x => x.2) = [[1, 2, 3, 4, 5, 6, 7, 8]] := by
  refine ⟨?_, by decide +kernel, by decide +kernel⟩
  have hb0 : Blanks [] := by intro c hc; simp at hc
  have hb1 : Blanks [' '] := by intro c hc; simp at hc; exact Or.inl hc
  intro b hb
  simp only [cubeDeck, List.mem_cons, List.not_mem_nil, or_false] at hb
  rcases hb with rfl | rfl | rfl | rfl
  · exact ⟨⟨_, rfl⟩, ⟨findSub_none.1 (by decide +kernel), findSub_none.1 (by decide +kernel)⟩, by simp⟩
  · refine ⟨⟨_, rfl⟩, ⟨[], [], rfl⟩, findSub_none.1 (by decide +kernel), ?_⟩
    intro r hr
    obtain ⟨q, _, rfl⟩ := List.mem_map.1 hr
    exact ⟨[], [], [' '], _, [], [' '], _, [], [' '], _, [], hb0, hb0, hb1, hb0, hb1, hb0, hb1, hb0,
      ⟨_, rfl, rfl⟩, ⟨_, rfl, rfl⟩, ⟨_, rfl, rfl⟩, by simp⟩
  · refine ⟨⟨_, rfl⟩, ⟨[], ", type=C3D8R".toList, by decide +kernel⟩, findSub_none.1 (by decide +kernel), ?_⟩
    intro r hr
    rw [List.mem_singleton] at hr
    subst hr
    refine ⟨⟨[], (List.range 8).map fun q => ([], [' '], 1 + q), [], hb0, hb0, ?_, by decide +kernel,
      by decide +kernel⟩, by decide⟩
    intro e he
    obtain ⟨q, _, rfl⟩ := List.mem_map.1 he
    exact ⟨hb0, hb1⟩
  · refine ⟨⟨_, rfl⟩, ⟨findSub_none.1 (by decide +kernel), findSub_none.1 (by decide +kernel)⟩, ?_⟩
    intro l hl
    rw [List.mem_singleton] at hl
    subst hl
    exact ⟨findSub_none.1 (by decide +kernel), findSub_none.1 (by decide +kernel)⟩

example (a b c : ℕ) : PointLine stodInt 3 (words [decimal a, decimal b, decimal c]) (fun d => ([a, b, c].getD d 0 : ℕ)) := by
  have hs : ∀ n, stodInt (decimal n) = some (n : ℚ) := by
    intro n
    have := readInt_decimal [] (by intro c hc; simp at hc) n [] (by simp)
    simp only [List.nil_append, List.append_nil] at this
    simp [stodInt, this]
  refine ⟨_, by simp, rfl, ?_, ?_⟩
  · intro w hw
    simp only [List.mem_cons, List.not_mem_nil, or_false] at hw
    rcases hw with rfl | rfl | rfl <;> exact decimal_no_blank _
  · intro d hd
    interval_cases d
    · exact ⟨_, rfl, hs _⟩
    · exact ⟨_, rfl, hs _⟩
    · exact ⟨_, rfl, hs _⟩

example : CellLine "8 0 1 2 3 4 5 6 7".toList (List.range 8) := ⟨[], by decide +kernel, by simp⟩

end Fierro
