import Verif.Model.YamlIter
import Verif.Props.YamlNode

/-!
# C147: loops over YAML nodes
-/

namespace Fierro

/-- The entries a loop over a node should see: those of a block with their names, those of a list
without; a node with a text or without content has none. -/
def YNode.entries : YNode → List (String × YNode)
  | .map m => m
  | .seq s => s.map fun x => ("", x.2)
  | _ => []

/-- The node is a block or a list. -/
def YNode.IsContainer : YNode → Prop
  | .map _ => True
  | .seq _ => True
  | _ => False

theorem scan_map (m : List (String × YNode)) : ∀ (rest pre seen : List (String × YNode)) (fuel : ℕ),
    m = pre ++ rest → rest.length < fuel →
    scan (.map m) fuel (.map pre.length) seen = .done (seen ++ rest) := by
  intro rest
  induction rest with
  | nil =>
    intro pre seen fuel hm hf
    obtain ⟨f, rfl⟩ : ∃ f, fuel = f + 1 := ⟨fuel - 1, by simp at hf; omega⟩
    subst hm
    simp [scan, YNode.stop, YIter.ne, YIter.eq]
  | cons x rest ih =>
    intro pre seen fuel hm hf
    obtain ⟨f, rfl⟩ : ∃ f, fuel = f + 1 := ⟨fuel - 1, by simp at hf; omega⟩
    have hd : (YNode.map m).deref (.map pre.length) = some x := by
      simp [YNode.deref, YNode.initMap, hm]
    have hne : (YIter.map pre.length).ne (YNode.map m).stop = true := by
      simp [YIter.ne, YIter.eq, YNode.stop, hm]
    rw [scan, if_pos hne, hd]
    have h := ih (pre ++ [x]) (seen ++ [x]) f (by rw [hm]; simp) (by simp at hf; omega)
    rw [List.length_append, List.length_singleton] at h
    simp only [YIter.next]
    rw [h]
    simp

theorem scan_seq (s : List (ℕ × YNode)) : ∀ (rest pre : List (ℕ × YNode)) (seen : List (String × YNode))
    (fuel : ℕ), s = pre ++ rest → rest.length < fuel →
    scan (.seq s) fuel (.seq pre.length) seen = .done (seen ++ rest.map fun x => ("", x.2)) := by
  intro rest
  induction rest with
  | nil =>
    intro pre seen fuel hm hf
    obtain ⟨f, rfl⟩ : ∃ f, fuel = f + 1 := ⟨fuel - 1, by simp at hf; omega⟩
    subst hm
    simp [scan, YNode.stop, YIter.ne, YIter.eq]
  | cons x rest ih =>
    intro pre seen fuel hm hf
    obtain ⟨f, rfl⟩ : ∃ f, fuel = f + 1 := ⟨fuel - 1, by simp at hf; omega⟩
    have hd : (YNode.seq s).deref (.seq pre.length) = some ("", x.2) := by
      simp [YNode.deref, YNode.initSeq, hm]
    have hne : (YIter.seq pre.length).ne (YNode.seq s).stop = true := by
      simp [YIter.ne, YIter.eq, YNode.stop, hm]
    rw [scan, if_pos hne, hd]
    have h := ih (pre ++ [x]) (seen ++ [("", x.2)]) f (by rw [hm]; simp) (by simp at hf; omega)
    rw [List.length_append, List.length_singleton] at h
    simp only [YIter.next]
    rw [h]
    simp

/-- A loop from `Begin()` to `End()` over a block or a list ends, and has then seen every entry once, in
order, and nothing else. -/
theorem C147_visits (t : YNode) (h : t.IsContainer) (fuel : ℕ) (hf : t.size < fuel) :
    scan t fuel t.begin [] = .done t.entries := by
  cases t with
  | none => cases h
  | scalar s => cases h
  | seq s =>
    have := scan_seq s s [] [] fuel rfl hf
    simpa [YNode.begin, YNode.entries] using this
  | map m =>
    have := scan_map m m [] [] fuel rfl hf
    simpa [YNode.begin, YNode.entries] using this

theorem scan_endless {t : YNode} (h : ¬t.IsContainer) : ∀ (fuel : ℕ) (seen : List (String × YNode)),
    scan t fuel t.begin seen = .running (seen ++ List.replicate fuel ("", .none)) := by
  have hb : t.begin = .none := by cases t <;> first | rfl | exact absurd trivial h
  have hs : t.stop = .none := by cases t <;> first | rfl | exact absurd trivial h
  intro fuel
  rw [hb]
  induction fuel with
  | zero => intro seen; simp [scan]
  | succ n ih =>
    intro seen
    rw [scan, hs, if_pos (show YIter.none.ne YIter.none = true from rfl)]
    simp only [YNode.deref, YIter.next]
    rw [ih, List.replicate_succ]
    simp

/-- The loop over a text or over a node without content never ends: `Begin()` and `End()` of such a node
are not equal, not even to themselves, and each pass gives one more entry without name and content
(`input/Yaml.cpp:1752-1770`). -/
theorem C147_no_entries_fails (t : YNode) (h : ¬t.IsContainer) (fuel : ℕ) :
    scan t fuel t.begin [] = .running (List.replicate fuel ("", .none)) := by
  rw [scan_endless h]
  simp

/-- The loop ends exactly for blocks and lists. -/
theorem C147_ends_iff (t : YNode) : (∃ fuel seen, scan t fuel t.begin [] = .done seen) ↔ t.IsContainer := by
  constructor
  · rintro ⟨fuel, seen, h⟩
    by_contra hc
    rw [scan_endless hc] at h
    cases h
  · exact fun h => ⟨t.size + 1, _, C147_visits t h _ (Nat.lt_succ_self _)⟩

/-- Validation of a block: its keys in order if all required ones are there, otherwise the exception. -/
theorem C147_validate (m : List (String × YNode)) (required : List String) (fuel : ℕ) (hf : m.length < fuel) :
    ((∀ r ∈ required, r ∈ m.map Prod.fst) → validateNode fuel required (.map m) = some (.ok (m.map Prod.fst))) ∧
    ((∃ r ∈ required, r ∉ m.map Prod.fst) →
      validateNode fuel required (.map m) = some (.error .missingRequired)) := by
  have h : validateNode fuel required (.map m) = some (validateInputs required m) := by
    rw [validateNode, C147_visits (.map m) trivial fuel hf]
    rfl
  rw [h, validateInputs]
  constructor
  · intro hr
    rw [if_pos]
    · rfl
    · simp only [List.all_eq_true, List.contains_iff_mem]
      exact hr
  · rintro ⟨r, hr, hn⟩
    rw [if_neg]
    intro hall
    simp only [List.all_eq_true, List.contains_iff_mem] at hall
    exact hn (hall r hr)

/-- A required block that is missing from the deck is not reported: the node that stands for it has no
content and its validation never ends. The parsers of the mesh, of the time steps and of the output take
their block so, without looking whether it is there (`input/parse_mesh_inputs.cpp:80`,
`input/parse_dynamic_inputs.cpp:73-79`, `input/parse_output_options.cpp:85`). -/
theorem C147_missing_block_fails (root : YNode) (block : String) (required : List String)
    (h : smFind block root.initMap = none) (fuel : ℕ) :
    validateNode fuel required (root.ref [.name block]) = none := by
  have e : root.ref [.name block] = .none := by simp [YNode.ref, h]
  rw [e, validateNode, C147_no_entries_fails .none (fun h => h)]

/-- Nor is a block that has a text where the entries should be. -/
theorem C147_text_block_fails (root : YNode) (block s : String) (required : List String)
    (h : smFind block root.initMap = some (.scalar s)) (fuel : ℕ) :
    validateNode fuel required (root.ref [.name block]) = none := by
  have e : root.ref [.name block] = .scalar s := by simp [YNode.ref, h]
  rw [e, validateNode, C147_no_entries_fails (.scalar s) (fun h => h)]

/-- A list in the place of a block has keys without name: it is rejected if anything is required. -/
theorem C147_list_block (s : List (ℕ × YNode)) (required : List String) (r : String) (hr : r ∈ required)
    (hne : r ≠ "") (fuel : ℕ) (hf : s.length < fuel) :
    validateNode fuel required (.seq s) = some (.error .missingRequired) := by
  rw [validateNode, C147_visits (.seq s) trivial fuel hf]
  simp only [validateInputs]
  rw [if_neg]
  intro hall
  simp only [List.all_eq_true, List.contains_iff_mem] at hall
  have := hall r hr
  simp only [Block.keys, YNode.entries, List.map_map, List.mem_map, Function.comp] at this
  obtain ⟨x, -, e⟩ := this
  exact hne e.symm

theorem findBlock_map (m : List (String × YNode)) (key : String) : ∀ (rest pre : List (String × YNode)) (fuel : ℕ),
    m = pre ++ rest → rest.length < fuel →
    findBlock (.map m) key fuel (.map pre.length) = some (decide (key ∈ rest.map Prod.fst)) := by
  intro rest
  induction rest with
  | nil =>
    intro pre fuel hm hf
    obtain ⟨f, rfl⟩ : ∃ f, fuel = f + 1 := ⟨fuel - 1, by simp at hf; omega⟩
    subst hm
    simp [findBlock, YNode.stop, YIter.ne, YIter.eq]
  | cons x rest ih =>
    intro pre fuel hm hf
    obtain ⟨f, rfl⟩ : ∃ f, fuel = f + 1 := ⟨fuel - 1, by simp at hf; omega⟩
    have hd : (YNode.map m).deref (.map pre.length) = some x := by
      simp [YNode.deref, YNode.initMap, hm]
    have hne : (YIter.map pre.length).ne (YNode.map m).stop = true := by
      simp [YIter.ne, YIter.eq, YNode.stop, hm]
    rw [findBlock, if_pos hne, hd]
    have h := ih (pre ++ [x]) f (by rw [hm]; simp) (by simp at hf; omega)
    rw [List.length_append, List.length_singleton] at h
    by_cases hx : x.1 = key
    · simp [hx]
    · have hx' : ¬key = x.1 := fun e => hx e.symm
      simp only [if_neg hx, YIter.next]
      rw [h]
      simp [hx']

/-- The search for an optional block tells whether the deck has it. -/
theorem C147_search (m : List (String × YNode)) (key : String) (fuel : ℕ) (hf : m.length < fuel) :
    findBlock (.map m) key fuel (YNode.map m).begin = some (decide (key ∈ m.map Prod.fst)) := by
  have := findBlock_map m key m [] fuel rfl hf
  simpa [YNode.begin] using this

/-- An optional block behind an empty deck is searched for without end. -/
theorem C147_search_empty_fails (t : YNode) (h : ¬t.IsContainer) (key : String) (hk : key ≠ "") (fuel : ℕ) :
    findBlock t key fuel t.begin = none := by
  have hb : t.begin = .none := by cases t <;> first | rfl | exact absurd trivial h
  have hs : t.stop = .none := by cases t <;> first | rfl | exact absurd trivial h
  rw [hb]
  induction fuel with
  | zero => rfl
  | succ n ih =>
    rw [findBlock, hs, if_pos (show YIter.none.ne YIter.none = true from rfl)]
    simp only [YNode.deref, YIter.next]
    rw [if_neg (fun e => hk e.symm)]
    exact ih

/-- The value of `it++` is the entry after: for a block with two entries `*it++` is the second one
(`input/Yaml.cpp:1690-1703`). -/
theorem C147_step (m : List (String × YNode)) (i : ℕ) (hi : i + 1 < m.length) :
    (YNode.map m).deref (YIter.map i).next = some m[i + 1] := by
  simp [YNode.deref, YIter.next, YNode.initMap, hi]

/-- A deck with a block of two entries, one of them required, and without the other blocks. -/
example : validateNode 3 ["time_final"] (.map [("dt_min", .scalar "1.e-8"), ("time_final", .scalar "20.0")]) =
      some (.ok ["dt_min", "time_final"]) ∧
    smFind "mesh_options" (YNode.map [("dynamic_options", .map [])]).initMap = none ∧
    (∀ fuel, validateNode fuel ["num_dims"] ((YNode.map [("dynamic_options", .map [])]).ref [.name "mesh_options"]) =
      none) :=
  ⟨(C147_validate _ _ _ (by decide)).1 (by simp), by decide, fun fuel =>
    C147_missing_block_fails _ _ _ (by decide) fuel⟩

end Fierro
