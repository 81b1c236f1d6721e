import Verif.Props.YamlStruct

/-!
# Loading structures from YAML: the types of fields (C150)
-/

namespace Fierro

/-! ## What is written comes back -/

/-- **C150.** Numbers and strings come back when reading the printed text gives the value. -/
theorem C150_scalar_returns {α : Type} (rd : String → α) (wr : α → String) (raw : Bool) (d v : α) :
    (scalarCodec rd wr).Returns raw d v ↔ rd (wr v) = v := by
  constructor
  · rintro ⟨n, h⟩
    simp only [scalarCodec, YNode.noValue, YNode.asString, Bool.false_eq_true, if_false, Except.ok.injEq,
      Prod.mk.injEq] at h
    exact h.1
  · intro h
    exact ⟨_, by simp only [scalarCodec, YNode.noValue, YNode.asString, Bool.false_eq_true, if_false, h]; rfl⟩

/-- **C150.** Truth values come back. -/
theorem C150_bool_returns (raw d v : Bool) : boolCodec.Returns raw d v :=
  (C150_scalar_returns _ _ raw d v).mpr (by cases v <;> decide +kernel)

/-- **C150.** Names of an enumeration come back, and a text that is not one of the names is refused. -/
theorem C150_enum_returns (names : List String) (raw : Bool) (d v : ℕ) (hn : names.Nodup) (hv : v < names.length)
    (he : "" ∉ names) :
    (enumCodec names).Returns raw d v ∧
      ∀ s, s ∉ names → (enumCodec names).des raw d (.scalar s) = .error ⟨"", .notAllowed s⟩ := by
  constructor
  · have hs : names[v]? = some names[v] := List.getElem?_eq_getElem hv
    have hne : names[v] ≠ "" := fun e => he (e ▸ List.getElem_mem hv)
    refine ⟨.scalar names[v], ?_⟩
    simp only [enumCodec, hs, if_neg hne, YNode.noValue, YNode.asString, enumOf, List.getElem_mem, if_true,
      Bool.false_eq_true, if_false, List.Nodup.idxOf_getElem hn]
  · intro s hs
    simp [enumCodec, YNode.noValue, YNode.asString, enumOf, hs]

/-- **C150.** An optional value comes back when its content does and is not written as an empty node. -/
theorem C150_option_returns {α : Type} (d : α) (c : Codec α) (raw : Bool) (v : Option α)
    (h : ∀ x, v = some x → c.Returns raw d x ∧ c.ser x .none ≠ .none) : (optCodec d c).Returns raw none v := by
  cases v with
  | none => exact ⟨.none, by simp [optCodec, YNode.noValue]⟩
  | some x =>
    obtain ⟨⟨n, hn⟩, hx⟩ := h x rfl
    refine ⟨n, ?_⟩
    have : (c.ser x .none).noValue = false := by
      rw [← Bool.not_eq_true, noValue_iff]
      exact hx
    simp [optCodec, this, hn]

theorem serItems_eq {α : Type} (c : Codec α) (v : List α) : serItems c v = .seq (seqOf (v.map fun x => c.ser x .none)) := by
  have h0 : seqErase (seqPushBack [] YNode.none) 0 = seqOf [] := by
    simp [seqPushBack, smInsertNew, smFind, smInsert, seqErase, smErase, seqOf]
  unfold serItems
  rw [h0]
  have key : ∀ (v : List α) (l : List YNode), v.foldl (fun s x => seqPushBack s (c.ser x .none)) (seqOf l) =
      seqOf (l ++ v.map fun x => c.ser x .none) := by
    intro v
    induction v with
    | nil => intro l; simp
    | cons x v ih =>
      intro l
      rw [List.foldl_cons, pushBack_seqOf, ih]
      simp
  rw [key, List.nil_append]

theorem sequenceItems_ser {α : Type} (c : Codec α) (v : List α) :
    sequenceItems (serItems c v) = .ok (v.map fun x => c.ser x .none) := by
  rw [serItems_eq]
  have := (seqOf_shows (v.map fun x => c.ser x .none)).2.2
  simp [sequenceItems, seqOf, List.map_map, Function.comp_def]

theorem serItems_noValue {α : Type} (c : Codec α) (v : List α) : (serItems c v).noValue = false := rfl

theorem desItems_returns {α : Type} (d : α) (c : Codec α) (raw : Bool) (v : List α) (h : ∀ x ∈ v, c.Returns raw d x)
    (i : ℕ) : desItems d c raw i (v.map fun x => c.ser x .none) = .ok v := by
  induction v generalizing i with
  | nil => rfl
  | cons x v ih =>
    obtain ⟨n, hn⟩ := h x List.mem_cons_self
    rw [List.map_cons, desItems, hn]
    simp only
    rw [ih (fun y hy => h y (List.mem_cons_of_mem _ hy))]

/-- **C150.** Lists come back, in order, when their elements do, whatever the list held before. -/
theorem C150_list_returns {α : Type} (d : α) (c : Codec α) (raw : Bool) (v₀ v : List α)
    (h : ∀ x ∈ v, c.Returns raw d x) : (vecCodec d c).Returns raw v₀ v := by
  refine ⟨serItems c v, ?_⟩
  simp [vecCodec, serItems_noValue, sequenceItems_ser, desItems_returns d c raw v h]

/-- **C150.** Arrays come back; a list of another length is refused. -/
theorem C150_array_returns {α : Type} (len : ℕ) (d : α) (c : Codec α) (raw : Bool) (v₀ : List α) :
    (∀ v : List α, v.length = len → (∀ x ∈ v, c.Returns raw d x) → (arrayCodec len d c).Returns raw v₀ v) ∧
    (∀ s : List (ℕ × YNode), s.length ≠ len →
      (arrayCodec len d c).des raw v₀ (.seq s) = .error ⟨"", .wrongLength len s.length⟩) := by
  constructor
  · intro v hv h
    refine ⟨serItems c v, ?_⟩
    simp [arrayCodec, serItems_noValue, sequenceItems_ser, desItems_returns d c raw v h, hv]
  · intro s hs
    simp [arrayCodec, YNode.noValue, sequenceItems, hs]

theorem foldl_setInsert {α : Type} [LinearOrder α] (v s : List α) (h : (s ++ v).Pairwise (· < ·)) :
    v.foldl setInsert s = s ++ v := by
  induction v generalizing s with
  | nil => simp
  | cons x v ih =>
    have hx : ∀ y ∈ s, y < x := fun y hy => (List.pairwise_append.mp h).2.2 y hy x List.mem_cons_self
    have hn : x ∉ s := fun hy => lt_irrefl x (hx x hy)
    have hins : setInsert s x = s ++ [x] := by
      rw [setInsert, if_neg hn]
      clear ih hn h
      induction s with
      | nil => rfl
      | cons y s ih =>
        rw [List.orderedInsert, if_neg (not_le.mpr (hx y List.mem_cons_self)),
          ih fun z hz => hx z (List.mem_cons_of_mem _ hz)]
        rfl
    rw [List.foldl_cons, hins, ih _ (by simpa using h)]
    simp

/-- **C150.** Sets come back when their elements do. -/
theorem C150_set_returns {α : Type} [LinearOrder α] (d : α) (c : Codec α) (raw : Bool) (v₀ v : List α)
    (hv : v.Pairwise (· < ·)) (h : ∀ x ∈ v, c.Returns raw d x) : (setCodec d c).Returns raw v₀ v := by
  refine ⟨serItems c v, ?_⟩
  simp [setCodec, serItems_noValue, sequenceItems_ser, desItems_returns d c raw v h,
    foldl_setInsert v [] (by simpa using hv)]

/-- **C150.** The elements of a set loaded from a list are those of the list. -/
theorem C150_set_elements {α : Type} [LinearOrder α] (v : List α) (x : α) : x ∈ v.foldl setInsert [] ↔ x ∈ v := by
  have key : ∀ (v s : List α), x ∈ v.foldl setInsert s ↔ x ∈ s ∨ x ∈ v := by
    intro v
    induction v with
    | nil => simp
    | cons y v ih =>
      intro s
      rw [List.foldl_cons, ih, List.mem_cons, ← or_assoc]
      refine or_congr_left ?_
      unfold setInsert
      split_ifs with h
      · exact ⟨Or.inl, fun hx => hx.elim id fun e => e ▸ h⟩
      · rw [List.mem_orderedInsert, or_comm]
  simpa using key v []

/-! ## Lists in brackets -/

theorem splitOn_intercalate' (ws : List (List Char)) (hne : ws ≠ []) (h : ∀ w ∈ ws, ',' ∉ w) :
    ([','].intercalate ws).splitOn ',' = ws := List.splitOn_intercalate ',' h hne

theorem mem_commas (ws : List (List Char)) (c : Char) (hc : c ∈ [','].intercalate ws) :
    (∃ w ∈ ws, c ∈ w) ∨ c = ',' := by
  induction ws with
  | nil => simp [List.intercalate] at hc
  | cons w ws ih =>
    cases ws with
    | nil =>
      simp only [List.intercalate, List.intersperse, List.flatten_cons, List.flatten_nil, List.append_nil] at hc
      exact Or.inl ⟨w, List.mem_cons_self, hc⟩
    | cons u us =>
      have e : [','].intercalate (w :: u :: us) = w ++ ',' :: [','].intercalate (u :: us) := by
        simp [List.intercalate, List.intersperse]
      rw [e, List.mem_append, List.mem_cons] at hc
      rcases hc with hc | rfl | hc
      · exact Or.inl ⟨w, List.mem_cons_self, hc⟩
      · exact Or.inr rfl
      · rcases ih hc with ⟨x, hx, hc⟩ | hc
        · exact Or.inl ⟨x, List.mem_cons_of_mem _ hx, hc⟩
        · exact Or.inr hc

/-- **C150.** A text of words between brackets, set apart by commas, is the list of these words, exactly as they stand
there; only before the first and behind the last word blanks are taken off. -/
theorem C150_bracket_list (ws : List (List Char)) (hne : ws ≠ [])
    (h : ∀ w ∈ ws, ∀ c ∈ w, c ≠ ',' ∧ c ≠ '[' ∧ c ≠ ']' ∧ c ≠ '\n') (pre post : List Char)
    (hpre : ∀ c ∈ pre, cSpace c = true ∧ c ≠ '\n') (hpost : ∀ c ∈ post, cSpace c = true ∧ c ≠ '\n')
    (hfirst : ∃ c r, [','].intercalate ws = c :: r ∧ cSpace c = false)
    (hlast : ∃ c r, [','].intercalate ws = r ++ [c] ∧ cSpace c = false) :
    sequenceItems (.scalar (String.ofList ('[' :: (pre ++ [','].intercalate ws ++ post) ++ [']']))) =
      .ok (ws.map fun w => .scalar (String.ofList w)) := by
  have hbody : ∀ c ∈ [','].intercalate ws, c ≠ '[' ∧ c ≠ ']' ∧ c ≠ '\n' := by
    intro c hc
    rcases mem_commas ws c hc with ⟨w, hw, hc⟩ | rfl
    · exact (h w hw c hc).2
    · decide
  generalize hb : [','].intercalate ws = b at *
  have hsp : ∀ c, cSpace c = true → c ≠ '[' ∧ c ≠ ']' := by
    intro c hc
    constructor <;> (rintro rfl; revert hc; decide)
  have hlook : looksLikeList ('[' :: (pre ++ b ++ post) ++ [']']) = true := by
    simp only [List.cons_append, looksLikeList, List.getLast?_concat, List.dropLast_concat, beq_self_eq_true,
      Bool.true_and, List.all_eq_true, decide_eq_true_eq]
    intro c hc
    rw [List.mem_append, List.mem_append] at hc
    rcases hc with (hc | hc) | hc
    · exact ⟨(hsp c (hpre c hc).1).1, (hsp c (hpre c hc).1).2, (hpre c hc).2⟩
    · exact hbody c hc
    · exact ⟨(hsp c (hpost c hc).1).1, (hsp c (hpost c hc).1).2, (hpost c hc).2⟩
  have htok : listTokens ('[' :: (pre ++ b ++ post) ++ [']']) = ws := by
    unfold listTokens
    have e1 : ('[' :: (pre ++ b ++ post) ++ [']']).dropWhile (fun c => cSpace c || c == '[') = b ++ post ++ [']'] := by
      have : '[' :: (pre ++ b ++ post) ++ [']'] = ('[' :: pre) ++ (b ++ post ++ [']']) := by simp
      rw [this, List.dropWhile_append_of_pos (by
        intro c hc
        rcases List.mem_cons.mp hc with rfl | hc
        · decide
        · simp [(hpre c hc).1])]
      obtain ⟨c, r, rfl, hc⟩ := hfirst
      have := (hbody c List.mem_cons_self).1
      simp [hc, this]
    have e2 : (b ++ post ++ [']']).rdropWhile (fun c => cSpace c || c == ']') = b := by
      unfold List.rdropWhile
      have : (b ++ post ++ [']']).reverse = (']' :: post.reverse) ++ b.reverse := by simp
      rw [this, List.dropWhile_append_of_pos (by
        intro c hc
        rcases List.mem_cons.mp hc with rfl | hc
        · decide
        · simp [(hpost c (List.mem_reverse.mp hc)).1])]
      obtain ⟨c, r, rfl, hc⟩ := hlast
      have := (hbody c (by simp)).2.1
      simp [hc, this]
    simp only [e1, e2]
    rw [← hb]
    exact splitOn_intercalate' ws hne fun w hw hc => (h w hw _ hc).1 rfl
  simp only [sequenceItems, String.toList_ofList, hlook, if_true, htok]

/-- **C150.** A text is taken as a list only if it stands in brackets, with no further brackets and on one line. -/
theorem C150_not_a_list (s : String) :
    ((∃ b, s.toList = '[' :: (b ++ [']']) ∧ ∀ c ∈ b, c ≠ '[' ∧ c ≠ ']' ∧ c ≠ '\n') →
      ∃ ns, sequenceItems (.scalar s) = .ok ns ∧ ns ≠ []) ∧
    ((¬ ∃ b, s.toList = '[' :: (b ++ [']']) ∧ ∀ c ∈ b, c ≠ '[' ∧ c ≠ ']' ∧ c ≠ '\n') →
      sequenceItems (.scalar s) = .error ⟨"", .notAList s⟩) := by
  have key : looksLikeList s.toList = true ↔
      ∃ b, s.toList = '[' :: (b ++ [']']) ∧ ∀ c ∈ b, c ≠ '[' ∧ c ≠ ']' ∧ c ≠ '\n' := by
    constructor
    · intro h
      unfold looksLikeList at h
      split at h
      · rename_i r e
        rw [Bool.and_eq_true, List.all_eq_true, beq_iff_eq] at h
        obtain ⟨h1, h2⟩ := h
        refine ⟨r.dropLast, ?_, fun c hc => by simpa using h2 c hc⟩
        rw [e, List.cons.injEq]
        exact ⟨rfl, (List.dropLast_append_getLast? _ h1).symm⟩
      · simp at h
    · rintro ⟨b, e, hb⟩
      rw [e]
      simp only [looksLikeList, List.getLast?_concat, List.dropLast_concat, beq_self_eq_true,
        Bool.true_and, List.all_eq_true, decide_eq_true_eq]
      exact hb
  constructor
  · intro h
    refine ⟨_, by rw [sequenceItems, if_pos (key.mpr h)], ?_⟩
    rw [ne_eq, List.map_eq_nil_iff]
    exact List.splitOn_ne_nil _ _
  · intro h
    rw [sequenceItems, if_neg fun e => h (key.mp e)]

/-- **C150 (fails).** Empty brackets are not the empty list: they are a list of one empty text. -/
theorem C150_empty_brackets_fails : sequenceItems (.scalar "[]") = .ok [.scalar ""] := by
  have h : looksLikeList "[]".toList = true := by decide +kernel
  have h2 : listTokens "[]".toList = [[]] := by decide +kernel
  simp only [sequenceItems, h, if_true, h2]
  rfl

/-- **C150 (fails).** The blank behind a comma belongs to the next word, so that `[a, b]` is refused as a list of names
`a` and `b`, though `[a,b]` is not. -/
theorem C150_blank_after_comma_fails :
    (vecCodec 0 (enumCodec ["a", "b"])).des true [] (.scalar "[a, b]") = .error ⟨"<1>", .notAllowed " b"⟩ ∧
    (vecCodec 0 (enumCodec ["a", "b"])).des true [] (.scalar "[a,b]") = .ok ([0, 1], .scalar "[a,b]") := by
  have h : looksLikeList "[a, b]".toList = true := by decide +kernel
  have h2 : listTokens "[a, b]".toList = [['a'], [' ', 'b']] := by decide +kernel
  have h' : looksLikeList "[a,b]".toList = true := by decide +kernel
  have h2' : listTokens "[a,b]".toList = [['a'], ['b']] := by decide +kernel
  constructor
  · simp only [vecCodec, YNode.noValue, sequenceItems, h, h2]
    rfl
  · simp only [vecCodec, YNode.noValue, sequenceItems, h', h2']
    rfl

/-! ## The strict check in lists -/

theorem desItems_ok {α : Type} (d : α) (c : Codec α) (raw : Bool) (i : ℕ) (ns : List YNode) (xs : List α)
    (h : desItems d c raw i ns = .ok xs) :
    xs.length = ns.length ∧ ∀ (j : ℕ) (n : YNode), ns[j]? = some n → ∃ x n', xs[j]? = some x ∧ c.des raw d n = .ok (x, n') := by
  induction ns generalizing i xs with
  | nil =>
    simp only [desItems, Except.ok.injEq] at h
    subst h
    simp
  | cons n ns ih =>
    rw [desItems] at h
    cases hd : c.des raw d n with
    | error e => rw [hd] at h; simp at h
    | ok p =>
      obtain ⟨x, n'⟩ := p
      rw [hd] at h
      simp only at h
      cases hr : desItems d c raw (i + 1) ns with
      | error e => rw [hr] at h; simp at h
      | ok ys =>
        rw [hr] at h
        simp only [Except.ok.injEq] at h
        subst h
        obtain ⟨h1, h2⟩ := ih _ _ hr
        refine ⟨by simp [h1], fun j m hj => ?_⟩
        cases j with
        | zero =>
          simp only [List.getElem?_cons_zero, Option.some.injEq] at hj
          subst hj
          exact ⟨x, n', rfl, hd⟩
        | succ j => exact h2 j m hj

/-- **C150.** A list is loaded item by item, in order, each into a fresh object. -/
theorem C150_items_loaded {α : Type} (d : α) (c : Codec α) (raw : Bool) (v xs : List α) (s : List (ℕ × YNode)) (n' : YNode)
    (h : (vecCodec d c).des raw v (.seq s) = .ok (xs, n')) :
    xs.length = s.length ∧ n' = .seq s ∧
      ∀ (j : ℕ) (x : ℕ × YNode), s[j]? = some x → ∃ y m, xs[j]? = some y ∧ c.des raw d x.2 = .ok (y, m) := by
  simp only [vecCodec, YNode.noValue, sequenceItems, Bool.false_eq_true, if_false] at h
  cases hd : desItems d c raw 0 (s.map Prod.snd) with
  | error e => rw [hd] at h; simp at h
  | ok ys =>
    rw [hd] at h
    simp only [Except.ok.injEq, Prod.mk.injEq] at h
    obtain ⟨rfl, rfl⟩ := h
    obtain ⟨h1, h2⟩ := desItems_ok _ _ _ _ _ _ hd
    exact ⟨by simpa using h1, rfl, fun j x hj => h2 j x.2 (by simp [hj])⟩

/-- **C150.** What is refused in an item is refused in the list. -/
theorem C150_unknown_in_list {α : Type} (d : α) (c : Codec α) (s : List (ℕ × YNode)) (j : ℕ) (x : ℕ × YNode)
    (hx : s[j]? = some x) (h : c.Stray x.2) : (vecCodec d c).Stray (.seq s) := by
  intro v v' n' hd
  obtain ⟨h1, rfl, h3⟩ := C150_items_loaded d c true v v' s n' hd
  obtain ⟨y, m, hy, hm⟩ := h3 j x hx
  have key : validateSubset ((vecCodec d c).ser v' .none) (.seq s) ≠ .ok () := by
    change validateSubset (serItems c v') (.seq s) ≠ .ok ()
    rw [serItems_eq, validateSubset]
    intro hv
    have := ((subsetSeq_iff _ _ _).mp hv).2 j x (c.ser y .none) hx (by
      simp [seqOf, List.map_map, Function.comp_def, hy])
    exact (h d y m hm).2 this
  exact ⟨key, key⟩

/-! ## What the strict functions let through -/

/-- A structure `inner` with one text field `a`. -/
def innerCodec : Codec (∀ _ : Fin 1, String) :=
  structCodec (tupleSpec (fun _ => "a") (fun _ => scalarCodec id id) [] .ok .ok)

/-- A structure with one field `s`, an `inner`. -/
def outerCodec : Codec (∀ _ : Fin 1, ∀ _ : Fin 1, String) :=
  structCodec (tupleSpec (fun _ => "s") (fun _ => innerCodec) [] .ok .ok)

/-- **C150 (fails).** The strict functions do not report an unknown name with nothing behind it. -/
theorem C150_empty_unknown_fails (v : Fin 1 → String) (x : String) :
    loadStrict innerCodec v (.map [("a", .scalar x), ("b", .none)]) = .ok fun _ => x := by
  have e : Function.update v 0 x = fun _ => x := by
    funext i
    rw [Subsingleton.elim i 0, Function.update_self]
  have e2 : Function.update (fun _ : Fin 1 => x) 0 x = fun _ => x := by
    funext i
    rw [Subsingleton.elim i 0, Function.update_self]
  have h : ∀ w : Fin 1 → String, ∀ raw, innerCodec.des raw w (.map [("a", .scalar x), ("b", .none)]) =
      .ok (Function.update w 0 x, .map [("a", .scalar x), ("b", .none)]) := fun w raw => by cases raw <;> rfl
  unfold loadStrict
  rw [h, e]
  have h2 : validateSubset (innerCodec.ser (fun _ => x) .none) (.map [("a", .scalar x), ("b", .none)]) = .ok () := rfl
  simp only [h2, loadNode, h, e2]

/-- **C150 (fails).** A text where a structure is wanted is dropped without a message, by the strict functions too: the
structure keeps its values. -/
theorem C150_text_for_struct_fails (v : Fin 1 → Fin 1 → String) (x : String) :
    loadStrict outerCodec v (.map [("s", .scalar x)]) = .ok v := by
  have e : ∀ w : Fin 1 → Fin 1 → String, Function.update w 0 (w 0) = w := fun w => Function.update_eq_self 0 w
  have h : outerCodec.des true v (.map [("s", .scalar x)]) =
      .ok (Function.update v 0 (v 0), .map [("s", .map [("a", .none)])]) := rfl
  have h' : outerCodec.des false v (.map [("s", .map [("a", .none)])]) =
      .ok (Function.update v 0 (v 0), .map [("s", .map [("a", .none)])]) := rfl
  have h2 : validateSubset (outerCodec.ser v .none) (.map [("s", .map [("a", .none)])]) = .ok () := rfl
  unfold loadStrict
  rw [h, e]
  simp only [h2, loadNode, h', e]

/-- **C150 (fails).** A list with an element twice cannot be loaded into a set by the strict functions. -/
theorem C150_set_twice_fails (x : String) :
    loadStrict (setCodec "" (scalarCodec id id)) [] (.seq [(0, .scalar x), (1, .scalar x)]) =
      .error ⟨"", .notAllLoaded⟩ := by
  have h : (setCodec "" (scalarCodec id id)).des true [] (.seq [(0, .scalar x), (1, .scalar x)]) =
      .ok ([x, x].foldl setInsert [], .seq [(0, .scalar x), (1, .scalar x)]) := rfl
  have e : [x, x].foldl setInsert [] = [x] := by
    simp [setInsert, List.orderedInsert]
  unfold loadStrict
  rw [h, e]
  rfl

/-! ## Derived classes -/

/-- Registering classes one after the other. -/
def registerAll {δ : Type} : List (DerivedClass δ) → Cfg (List (DerivedClass δ))
  | [] => .ok []
  | c :: cs =>
    match registerAll cs with
    | .error e => .error e
    | .ok reg => registerClass reg c

/-- **C150.** Classes can be registered exactly when their types differ. -/
theorem C150_register {δ : Type} (cs : List (DerivedClass δ)) :
    (registerAll cs = .ok cs ↔ (cs.map DerivedClass.tag).Nodup) ∧
      (¬ (cs.map DerivedClass.tag).Nodup → ∃ t ∈ cs.map DerivedClass.tag, registerAll cs = .error ⟨"", .twoClasses t⟩) := by
  induction cs with
  | nil => simp [registerAll]
  | cons c cs ih =>
    rw [registerAll, List.map_cons, List.nodup_cons]
    by_cases hn : (cs.map DerivedClass.tag).Nodup
    · rw [ih.1.mpr hn]
      simp only [registerClass]
      by_cases hc : c.tag ∈ cs.map DerivedClass.tag
      · have : (cs.any fun x => x.tag == c.tag) = true := by
          obtain ⟨x, hx, e⟩ := List.mem_map.mp hc
          exact List.any_eq_true.mpr ⟨x, hx, by simp [e]⟩
        rw [if_pos this]
        simp [hc]
      · have : ¬ (cs.any fun x => x.tag == c.tag) = true := by
          intro h
          obtain ⟨x, hx, e⟩ := List.any_eq_true.mp h
          exact hc (List.mem_map.mpr ⟨x, hx, by simpa using e⟩)
        rw [if_neg this]
        simp [hc, hn]
    · obtain ⟨t, ht, e⟩ := ih.2 hn
      rw [e]
      simp only [reduceCtorEq, hn, and_false, not_false_eq_true, true_implies, true_and]
      exact ⟨t, List.mem_cons_of_mem _ ht, rfl⟩

/-- **C150.** A pointer to a base class: without a type the input is refused; otherwise it is loaded by the class
registered for the type, and refused when there is none. -/
theorem C150_derived {δ : Type} (base : Bool → YNode → Cfg (ℕ × YNode)) (reg : List (DerivedClass δ))
    (hreg : (reg.map DerivedClass.tag).Nodup) (raw : Bool) (n : YNode) :
    (n.child "type" = .none → desDerived base reg raw n = .error ⟨"", .missing "type"⟩) ∧
    (∀ t n', n.child "type" ≠ .none → base true (n.touch [.name "type"]) = .ok (t, n') →
      (∀ c ∈ reg, c.tag = t → desDerived base reg raw n = c.des raw n') ∧
      (t ∉ reg.map DerivedClass.tag → desDerived base reg raw n = .error ⟨"", .noClass t⟩)) := by
  constructor
  · intro h
    rw [desDerived, if_pos ((noValue_iff _).mpr h)]
  · intro t n' h hb
    unfold desDerived
    rw [if_neg fun e => h ((noValue_iff _).mp e), hb]
    refine ⟨fun c hc ht => ?_, fun ht => ?_⟩
    · have : reg.find? (fun x => x.tag == t) = some c := by
        clear hb
        induction reg with
        | nil => simp at hc
        | cons a reg ih =>
          rw [List.map_cons, List.nodup_cons] at hreg
          rcases List.mem_cons.mp hc with rfl | hc
          · simp [ht]
          · have : a.tag ≠ t := fun e => hreg.1 (e ▸ ht ▸ List.mem_map_of_mem hc)
            rw [List.find?_cons_of_neg (by simpa using this)]
            exact ih hreg.2 hc
      simp only [this]
    · have : reg.find? (fun x => x.tag == t) = none := by
        rw [List.find?_eq_none]
        intro x hx e
        exact ht (List.mem_map.mpr ⟨x, hx, by simpa using e⟩)
      simp only [this]

/-- **C150.** An object written through a pointer to its base class comes back as an object of its own class, when that
class loads what it writes and the base class finds the type there. -/
theorem C150_derived_returns {δ : Type} (tagOf : δ → ℕ) (base : Bool → YNode → Cfg (ℕ × YNode))
    (reg : List (DerivedClass δ)) (hreg : (reg.map DerivedClass.tag).Nodup) (raw : Bool) (c : DerivedClass δ)
    (hc : c ∈ reg) (b : δ) (hb : tagOf b = c.tag) (n' n'' : YNode) (ht : (c.ser b .none).child "type" ≠ .none)
    (hbase : base true ((c.ser b .none).touch [.name "type"]) = .ok (tagOf b, n'))
    (hret : c.des raw n' = .ok (b, n'')) :
    ∃ n, serDerived tagOf reg b .none = .ok n ∧ desDerived base reg raw n = .ok (b, n'') := by
  have hfind : reg.find? (fun x => x.tag == tagOf b) = some c := by
    rw [hb]
    clear hb hret hbase ht
    induction reg with
    | nil => simp at hc
    | cons a reg ih =>
      rw [List.map_cons, List.nodup_cons] at hreg
      rcases List.mem_cons.mp hc with rfl | hc
      · simp
      · have : a.tag ≠ c.tag := fun e => hreg.1 (e ▸ List.mem_map_of_mem hc)
        rw [List.find?_cons_of_neg (by simpa using this)]
        exact ih hreg.2 hc
  refine ⟨c.ser b .none, by simp only [serDerived, hfind], ?_⟩
  rw [((C150_derived base reg hreg raw _).2 _ _ ht hbase).1 c hc hb.symm, hret]

/-- **C150.** The texts that mean true, in any case of letters; all others mean false. -/
theorem C150_true_texts (s : String) (d raw : Bool) :
    boolCodec.des raw d (.scalar s) = .ok (decide (s.toList.map Char.toLower ∈ ["true".toList, "yes".toList, "1".toList]),
      .scalar s) := by
  simp only [boolCodec, scalarCodec, YNode.noValue, YNode.asString, boolText, Bool.false_eq_true, if_false,
    List.mem_cons, List.not_mem_nil, or_false, Except.ok.injEq, Prod.mk.injEq, and_true]
  rw [Bool.eq_iff_iff]
  simp [or_assoc]

/-- **C150.** An empty node leaves a value of any of these types as it is. -/
theorem C150_empty_keeps {α : Type} [LinearOrder α] (raw : Bool) (rd : String → α) (wr : α → String) (names : List String)
    (len : ℕ) (d : α) (c : Codec α) :
    (∀ v, (scalarCodec rd wr).des raw v .none = .ok (v, .none)) ∧ (∀ v, (enumCodec names).des raw v .none = .ok (v, .none)) ∧
    (∀ v, (optCodec d c).des raw v .none = .ok (v, .none)) ∧ (∀ v, (vecCodec d c).des raw v .none = .ok (v, .none)) ∧
    (∀ v, (setCodec d c).des raw v .none = .ok (v, .none)) ∧
    ∀ v, (arrayCodec len d c).des raw v .none = .ok (v, .none) :=
  ⟨fun _ => rfl, fun _ => rfl, fun _ => rfl, fun _ => rfl, fun _ => rfl, fun _ => rfl⟩

/-! ## The statements apply -/

example : outerCodec.Stray (.map [("s", .map [("a", .scalar "1"), ("b", .scalar "2")])]) := by
  refine C150_unknown_nested _ (fun i j _ => Subsingleton.elim i j) _ _ _ _ _ 0 (fun h => by cases h)
    (C150_unknown_field _ (fun i j _ => Subsingleton.elim i j) _ _ _ _ _ "b" (fun _ => by decide)
      (fun h => by cases h)) ?_
  intro v v' n' h e
  subst e
  have hd : innerCodec.des true v (.map [("a", .scalar "1"), ("b", .scalar "2")]) =
      .ok (Function.update v 0 "1", .map [("a", .scalar "1"), ("b", .scalar "2")]) := rfl
  have h' : innerCodec.des true v (.map [("a", .scalar "1"), ("b", .scalar "2")]) = .ok (v', .none) := h
  rw [hd] at h'
  simp at h'

example : innerCodec.Returns true (fun _ => "") (fun _ => "x") :=
  C150_struct_returns _ (fun i j _ => Subsingleton.elim i j) _ _ _ _ _ _ _ (by simp)
    (fun _ => (C150_scalar_returns _ _ _ _ _).mpr rfl) (fun _ h => by cases h) (Or.inl rfl)

example : sequenceItems (.scalar (String.ofList ('[' :: ([' '] ++ [','].intercalate [['1'], [' ', '2']] ++ []) ++ [']']))) =
    .ok [.scalar (String.ofList ['1']), .scalar (String.ofList [' ', '2'])] :=
  C150_bracket_list [['1'], [' ', '2']] (by simp) (by decide) [' '] [] (by decide) (by simp) ⟨'1', [',', ' ', '2'], rfl, by decide⟩
    ⟨'2', ['1', ',', ' '], rfl, by decide⟩

end Fierro
