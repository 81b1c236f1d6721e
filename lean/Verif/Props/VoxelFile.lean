import Verif.Model.VoxelFile
import Verif.Props.MeshRead
import Verif.Props.Shapes

/-!
# C115: voxel files
-/

namespace Fierro

/-! ### Specification: the text of a voxel file -/

/-- A line with numbers: blanks, the texts of the numbers with single blanks between them, blanks. -/
def NumberLine {α : Type} (Num : List Char → α → Prop) (line : List Char) (xs : List α) : Prop :=
  ∃ a b ws, (∀ c ∈ a, c = ' ') ∧ (∀ c ∈ b, c = ' ') ∧ line = a ++ words ws ++ b ∧ xs ≠ [] ∧ List.Forall₂ Num ws xs

/-- The text of an integer. -/
def IntText (t : List Char) (x : ℤ) : Prop := ∃ n : ℕ, (t = decimal n ∧ x = n) ∨ (t = '-' :: decimal n ∧ x = -n)

/-- The numbers of a block of lines that are kept: all of them, but the last one not if it stands alone on
its line. -/
def keptOf {α : Type} (rows : List (List α)) : List α :=
  if rows.getLast?.map List.length = some 1 then rows.flatten.dropLast else rows.flatten

/-- A rectilinear grid with values in its cells, as text: the lines before each key word, the lines with
numbers together with the numbers written there, and the further words of the lines of the key words. -/
structure VoxelText (K : Type) where
  pre : List (List Char)
  nx : ℕ
  ny : ℕ
  nz : ℕ
  dimMore : List (List Char)
  beforeX : List (List Char)
  xMore : List (List Char)
  xRows : List (List Char × List K)
  beforeY : List (List Char)
  yMore : List (List Char)
  yRows : List (List Char × List K)
  beforeZ : List (List Char)
  zMore : List (List Char)
  zRows : List (List Char × List K)
  beforeData : List (List Char)
  num : ℕ
  dataMore : List (List Char)
  beforeTable : List (List Char)
  tableMore : List (List Char)
  rows : List (List Char × List ℤ)
  post : List (List Char)

section
variable {K : Type}

/-- The numbers written in rows. -/
def rowNumbers {α : Type} (rows : List (List Char × List α)) : List (List α) := rows.map Prod.snd

/-- The lines of rows. -/
def rowLines {α : Type} (rows : List (List Char × List α)) : List (List Char) := rows.map Prod.fst

/-- The lines of the file. -/
def VoxelText.lines (T : VoxelText K) : List (List Char) :=
  T.pre ++ words ("DIMENSIONS".toList :: decimal T.nx :: decimal T.ny :: decimal T.nz :: T.dimMore) ::
  (T.beforeX ++ words ("X_COORDINATES".toList :: T.xMore) :: (rowLines T.xRows ++
  (T.beforeY ++ words ("Y_COORDINATES".toList :: T.yMore) :: (rowLines T.yRows ++
  (T.beforeZ ++ words ("Z_COORDINATES".toList :: T.zMore) :: (rowLines T.zRows ++
  (T.beforeData ++ words ("CELL_DATA".toList :: decimal T.num :: T.dataMore) ::
  (T.beforeTable ++ words ("LOOKUP_TABLE".toList :: T.tableMore) :: (rowLines T.rows ++ T.post)))))))))

/-- Lines that do not begin with a word. -/
def Without (word : String) (ls : List (List Char)) : Prop := ∀ l ∈ ls, firstWord l ≠ word.toList

/-- A well-formed file: the key words stand at the beginning of their lines in this order, there are as many numbers
as announced, at least three points in each direction, and the lines with key words are not too far down. -/
structure VoxelText.WF (Num : List Char → K → Prop) (T : VoxelText K) : Prop where
  pre : Without "DIMENSIONS" T.pre
  beforeX : Without "X_COORDINATES" T.beforeX
  beforeY : Without "Y_COORDINATES" T.beforeY
  beforeZ : Without "Z_COORDINATES" T.beforeZ
  beforeData : Without "CELL_DATA" T.beforeData
  beforeTable : Without "LOOKUP_TABLE" T.beforeTable
  more : ∀ w ∈ T.dimMore ++ T.xMore ++ T.yMore ++ T.zMore ++ T.dataMore ++ T.tableMore, ' ' ∉ w
  xRows : ∀ r ∈ T.xRows, NumberLine Num r.1 r.2
  yRows : ∀ r ∈ T.yRows, NumberLine Num r.1 r.2
  zRows : ∀ r ∈ T.zRows, NumberLine Num r.1 r.2
  rows : ∀ r ∈ T.rows, NumberLine IntText r.1 r.2
  nx : (rowNumbers T.xRows).flatten.length = T.nx
  ny : (rowNumbers T.yRows).flatten.length = T.ny
  nz : (rowNumbers T.zRows).flatten.length = T.nz
  num : (rowNumbers T.rows).flatten.length = T.num
  three : 3 ≤ T.nx ∧ 3 ≤ T.ny ∧ 3 ≤ T.nz
  some : 1 ≤ T.num
  head : T.pre.length + T.beforeX.length + T.beforeY.length + T.beforeZ.length ≤ 996
  data : T.beforeData.length + T.beforeTable.length ≤ 999

/-- The texts of the real numbers: not empty, without blanks, not a key word, and converted to the number. -/
def RealTexts (Num : List Char → K → Prop) (stod : List Char → Option K) : Prop :=
  ∀ t x, Num t x → t ≠ [] ∧ ' ' ∉ t ∧ '_' ∉ t ∧ stod t = some x

/-! ### Trimming and splitting a line of numbers -/

theorem ltrim_blanks (a s : List Char) (ha : ∀ c ∈ a, c = ' ') : ltrim (a ++ s) = ltrim s := by
  induction a with
  | nil => rfl
  | cons c a ih =>
    have hc := ha c (by simp)
    subst hc
    rw [← ih fun c hc => ha c (by simp [hc])]
    unfold ltrim
    rw [List.cons_append, List.findIdx?_cons]
    simp only [isWs, beq_self_eq_true, Bool.not_true, Bool.false_eq_true, if_false]
    cases List.findIdx? (fun c => !(c == ' ')) (a ++ s) <;> simp

theorem ltrim_self (c : Char) (s : List Char) (hc : c ≠ ' ') : ltrim (c :: s) = c :: s := by
  unfold ltrim
  rw [List.findIdx?_cons]
  simp [isWs, hc]

theorem trim_between (a t b : List Char) (ha : ∀ c ∈ a, c = ' ') (hb : ∀ c ∈ b, c = ' ')
    (h1 : ∃ c s, t = c :: s ∧ c ≠ ' ') (h2 : ∃ c s, t = s ++ [c] ∧ c ≠ ' ') : trim (a ++ t ++ b) = t := by
  obtain ⟨c, s, rfl, hc⟩ := h1
  obtain ⟨d, s', hs, hd⟩ := h2
  unfold trim
  rw [List.append_assoc, ltrim_blanks a _ ha, List.cons_append, ltrim_self c _ hc, rtrim_reverse,
    ← List.cons_append, List.reverse_append, ltrim_blanks _ _ (by simpa using hb), hs, List.reverse_append]
  simp only [List.reverse_cons, List.reverse_nil, List.nil_append, List.singleton_append]
  rw [ltrim_self d _ hd]
  simp

theorem words_first (w : List Char) (ws : List (List Char)) (h : w ≠ []) (hw : ' ' ∉ w) :
    ∃ c s, words (w :: ws) = c :: s ∧ c ≠ ' ' := by
  obtain ⟨c, s, rfl⟩ := List.exists_cons_of_ne_nil h
  have hc : c ≠ ' ' := by rintro rfl; simp at hw
  cases ws with
  | nil => exact ⟨c, s, by simp [words, List.intercalate], hc⟩
  | cons v vs =>
    refine ⟨c, s ++ [' '] ++ words (v :: vs), ?_, hc⟩
    unfold words
    rw [List.intercalate_cons_cons]
    simp

theorem words_last (ws : List (List Char)) (hne : ws ≠ []) (h : ∀ w ∈ ws, w ≠ [] ∧ ' ' ∉ w) :
    ∃ c s, words ws = s ++ [c] ∧ c ≠ ' ' := by
  induction ws with
  | nil => exact absurd rfl hne
  | cons w ws ih =>
    cases ws with
    | nil =>
      obtain ⟨h1, h2⟩ := h w (by simp)
      refine ⟨w.getLast h1, w.dropLast, ?_, ?_⟩
      · rw [List.dropLast_append_getLast h1]
        simp [words, List.intercalate]
      · intro hc
        exact h2 (hc ▸ List.getLast_mem h1)
    | cons v vs =>
      obtain ⟨c, s, hs, hc⟩ := ih (by simp) fun w hw => h w (by simp [hw])
      refine ⟨c, w ++ [' '] ++ s, ?_, hc⟩
      unfold words at hs ⊢
      rw [List.intercalate_cons_cons, hs]
      simp

/-- The words of a line of numbers after trimming. -/
theorem numberLine_split {α : Type} (Num : List Char → α → Prop) (conv : List Char → Option α)
    (hnum : ∀ t x, Num t x → t ≠ [] ∧ ' ' ∉ t ∧ conv t = some x) (line : List Char) (xs : List α)
    (h : NumberLine Num line xs) :
    ∃ v, split (trim line) [' '] = some v ∧ v.mapM conv = some xs := by
  obtain ⟨a, b, ws, ha, hb, rfl, hne, hall⟩ := h
  have hws : ∀ w ∈ ws, w ≠ [] ∧ ' ' ∉ w := by
    intro w hw
    obtain ⟨x, hx⟩ : ∃ x, Num w x := by
      clear hne
      induction hall with
      | nil => simp at hw
      | cons hab _ ih =>
        rcases List.mem_cons.1 hw with rfl | hw
        · exact ⟨_, hab⟩
        · exact ih hw
    exact ⟨(hnum w x hx).1, (hnum w x hx).2.1⟩
  have hwne : ws ≠ [] := by
    rintro rfl
    cases hall
    exact hne rfl
  refine ⟨ws, ?_, ?_⟩
  · rw [trim_between a _ b ha hb ?_ (words_last ws hwne hws)]
    · exact split_words ws hwne fun w hw => (hws w hw).2
    · obtain ⟨w, ws', rfl⟩ := List.exists_cons_of_ne_nil hwne
      exact words_first w ws' (hws w (by simp)).1 (hws w (by simp)).2
  · have := mapM_zip conv Num id ws xs hall fun t x htx => (hnum t x htx).2.2
    simpa using this

/-! ### The loops -/

theorem voxelFind_skip (word : List Char) (pre : List (List Char)) (ws : List (List Char)) (rest : List (List Char))
    (hpre : ∀ l ∈ pre, firstWord l ≠ word) (hws : ∀ w ∈ ws, ' ' ∉ w) (hword : ' ' ∉ word) (f : ℕ) (hf : pre.length ≤ f) :
    voxelFind word f (pre ++ words (word :: ws) :: rest) = some (word :: ws, rest, f - pre.length - 1) := by
  have hs : split (words (word :: ws)) [' '] = some (word :: ws) := split_words _ (by simp) (by
      intro w hw
      rcases List.mem_cons.1 hw with rfl | hw
      · exact hword
      · exact hws w hw)
  induction pre generalizing f with
  | nil => cases f <;> simp [voxelFind, hs]
  | cons l pre ih =>
    obtain ⟨f, rfl⟩ : ∃ k, f = k + 1 := ⟨f - 1, by simp at hf; omega⟩
    obtain ⟨v, hv1, hv2⟩ := split_first l
    rw [List.cons_append, voxelFind, hv1, Option.bind_some, if_neg (by
      rw [hv2]
      intro h
      exact hpre l (by simp) (Option.some.inj h)),
      ih (fun l hl => hpre l (by simp [hl])) f (by simp at hf; omega)]
    simp

/-- The line that is not read: the last one, if it has a single number. -/
def leftLines {α : Type} (rows : List (List Char × List α)) : List (List Char) :=
  if (rowNumbers rows).getLast?.map List.length = some 1 then (rowLines rows).getLast?.toList else []

theorem voxelValues_rows {α : Type} (conv : List Char → Option α) (n : ℕ)
    (rows : List (List Char × List α)) (rest : List (List Char))
    (h : ∀ r ∈ rows, r.2 ≠ [] ∧ ∃ v, split (trim r.1) [' '] = some v ∧ v.mapM conv = some r.2) (acc : List α)
    (hlen : acc.length + (rowNumbers rows).flatten.length = n) :
    voxelValues conv n (rowLines rows ++ rest) acc = some (acc ++ keptOf (rowNumbers rows), leftLines rows ++ rest) := by
  induction rows generalizing acc with
  | nil =>
    simp [rowNumbers] at hlen
    simp only [rowLines, List.map_nil, List.nil_append, keptOf, rowNumbers, leftLines, List.getLast?_nil, Option.map_none,
      reduceCtorEq, if_false, List.flatten_nil, List.append_nil]
    cases rest with
    | nil => rw [voxelValues, if_neg (by omega)]
    | cons l ls => rw [voxelValues, if_neg (by omega)]
  | cons r rows ih =>
    obtain ⟨hne, v, hv, hm⟩ := h r (by simp)
    have hr : 1 ≤ r.2.length := List.length_pos_iff.mpr hne
    have hlen' : acc.length + (r.2.length + (rowNumbers rows).flatten.length) = n := by
      simpa [rowNumbers] using hlen
    by_cases hlast : rows = [] ∧ r.2.length = 1
    · obtain ⟨rfl, h1⟩ := hlast
      have hn : n = acc.length + 1 := by simpa [rowNumbers, h1] using hlen'.symm
      obtain ⟨x, hx⟩ : ∃ x, r.2 = [x] := List.length_eq_one_iff.mp h1
      simp only [rowLines, List.map_cons, List.map_nil, List.cons_append, List.nil_append]
      rw [voxelValues, if_neg (by omega)]
      simp [keptOf, rowNumbers, leftLines, rowLines, hx]
    · have hrest : 2 ≤ r.2.length + (rowNumbers rows).flatten.length := by
        by_cases h0 : rows = []
        · have : r.2.length ≠ 1 := fun h => hlast ⟨h0, h⟩
          omega
        · obtain ⟨q, qs, rfl⟩ := List.exists_cons_of_ne_nil h0
          have := List.length_pos_iff.mpr (h q (by simp)).1
          simp [rowNumbers]
          omega
      simp only [rowLines, List.map_cons, List.cons_append]
      rw [voxelValues, if_pos (by omega), hv]
      simp only [Option.bind_some]
      rw [hm]
      simp only [Option.bind_some]
      rw [if_neg (by omega)]
      have := ih (fun r hr => h r (by simp [hr])) (acc ++ r.2) (by rw [List.length_append]; omega)
      rw [rowLines] at this
      rw [this]
      cases rows with
      | nil =>
        have h1 : r.2.length ≠ 1 := fun h => hlast ⟨rfl, h⟩
        simp [keptOf, rowNumbers, leftLines, h1]
      | cons q qs =>
        have hq : (rowNumbers (r :: q :: qs)).getLast? = (rowNumbers (q :: qs)).getLast? := by simp [rowNumbers]
        have hq' : (rowLines (r :: q :: qs)).getLast? = (rowLines (q :: qs)).getLast? := by simp [rowLines]
        have hne2 : (rowNumbers (q :: qs)).flatten ≠ [] := by
          have := (h q (by simp)).1
          simp [rowNumbers, this]
        simp only [keptOf, leftLines, hq, hq']
        split_ifs with hc
        · have : (rowNumbers (r :: q :: qs)).flatten = r.2 ++ (rowNumbers (q :: qs)).flatten := by simp [rowNumbers]
          rw [this, List.dropLast_append_of_ne_nil hne2, List.append_assoc]
        · simp [rowNumbers]

theorem leftLines_length {α : Type} (rows : List (List Char × List α)) : (leftLines rows).length ≤ 1 := by
  unfold leftLines
  split_ifs
  · cases (rowLines rows).getLast? <;> simp
  · simp

theorem leftLines_mem {α : Type} (rows : List (List Char × List α)) (l : List Char) (h : l ∈ leftLines rows) :
    ∃ r ∈ rows, r.1 = l := by
  unfold leftLines at h
  split_ifs at h
  · rw [Option.mem_toList] at h
    have := List.mem_of_getLast? h
    simpa [rowLines] using this
  · simp at h

theorem kept_length {α : Type} (rows : List (List α)) : rows.flatten.length ≤ (keptOf rows).length + 1 := by
  unfold keptOf
  split_ifs <;> simp
  omega

theorem keptOf_getElem {α : Type} (rows : List (List α)) (k : ℕ) (h : k + 1 < rows.flatten.length) :
    (keptOf rows)[k]? = rows.flatten[k]? := by
  unfold keptOf
  split_ifs
  · rw [List.getElem?_dropLast, if_pos (by omega)]
  · rfl

theorem words_mem (ws : List (List Char)) (c : Char) (h : c ∈ words ws) : c = ' ' ∨ ∃ w ∈ ws, c ∈ w := by
  induction ws with
  | nil => simp [words, List.intercalate] at h
  | cons w ws ih =>
    cases ws with
    | nil =>
      right
      exact ⟨w, by simp, by simpa [words, List.intercalate] using h⟩
    | cons v vs =>
      unfold words at h ih
      rw [List.intercalate_cons_cons, List.mem_append, List.mem_append] at h
      rcases h with (h | h) | h
      · exact Or.inr ⟨w, by simp, h⟩
      · exact Or.inl (by simpa using h)
      · rcases ih h with h | ⟨u, hu, hc⟩
        · exact Or.inl h
        · exact Or.inr ⟨u, by simp [hu], hc⟩

theorem forall₂_left {α β : Type} {P : α → β → Prop} {as : List α} {bs : List β} (h : List.Forall₂ P as bs) :
    ∀ a ∈ as, ∃ b, P a b := by
  induction h with
  | nil => simp
  | cons hab _ ih =>
    intro a ha
    rcases List.mem_cons.1 ha with rfl | ha
    · exact ⟨_, hab⟩
    · exact ih a ha

/-- A line of numbers does not begin with a word that has an underscore. -/
theorem numberLine_first {Num : List Char → K → Prop} (hnum : ∀ t x, Num t x → '_' ∉ t) (line : List Char)
    (xs : List K) (h : NumberLine Num line xs) (word : List Char) (hw : '_' ∈ word) : firstWord line ≠ word := by
  intro he
  have h1 : '_' ∈ line := by
    rw [← he] at hw
    exact List.takeWhile_subset _ hw
  obtain ⟨a, b, ws, ha, hb, rfl, -, hall⟩ := h
  rw [List.mem_append, List.mem_append] at h1
  rcases h1 with (h1 | h1) | h1
  · exact absurd (ha _ h1) (by decide)
  · rcases words_mem ws _ h1 with h1 | ⟨w, hw, h1⟩
    · exact absurd h1 (by decide)
    · obtain ⟨x, hx⟩ := forall₂_left hall w hw
      exact hnum w x hx h1
  · exact absurd (hb _ h1) (by decide)

theorem intText_read (t : List Char) (x : ℤ) (h : IntText t x) :
    t ≠ [] ∧ ' ' ∉ t ∧ (readInt t).map Prod.fst = some x := by
  obtain ⟨n, ⟨rfl, rfl⟩ | ⟨rfl, rfl⟩⟩ := h
  · refine ⟨Nat.toDigits_ne_nil, decimal_no_blank n, ?_⟩
    have := readInt_decimal [] (by intro c hc; simp at hc) n [] (by simp)
    simp only [List.nil_append, List.append_nil] at this
    rw [this]
    rfl
  · refine ⟨by simp, by simpa using decimal_no_blank n, ?_⟩
    have h1 := readInt_decimal [] (by intro c hc; simp at hc) n [] (by simp)
    simp only [List.nil_append, List.append_nil] at h1
    have h2 : readDigits (decimal n) = some ((n : ℤ), []) := by
      obtain ⟨d, ds, hdec, hd, hds⟩ := decimal_cons n
      rw [← h1]
      unfold readInt
      rw [hdec, List.dropWhile_cons, if_neg (by rw [(digit_not hd).2.2.1]; decide)]
      split
      · rename_i h
        injection h with h
        exact absurd h (digit_not hd).1
      · rename_i h
        injection h with h
        exact absurd h (digit_not hd).2.1
      · rfl
    unfold readInt
    rw [List.dropWhile_cons, if_neg (by decide)]
    simp only
    rw [h2]
    rfl

section
variable [Mul K] (Num : List Char → K → Prop) (stod : List Char → Option K) (hnum : RealTexts Num stod)
include hnum

/-- The coordinates of one direction. -/
theorem voxelCoords_section (word : String) (hword : ' ' ∉ word.toList) (scale : K)
    (n f : ℕ) (before more : List (List Char)) (rows : List (List Char × List K)) (rest : List (List Char))
    (hb : ∀ l ∈ before, firstWord l ≠ word.toList) (hm : ∀ w ∈ more, ' ' ∉ w)
    (hr : ∀ r ∈ rows, NumberLine Num r.1 r.2)
    (hlen : (rowNumbers rows).flatten.length = n) (h3 : 3 ≤ n) (hf : before.length ≤ f) :
    voxelCoords stod word.toList scale n f (before ++ words (word.toList :: more) :: (rowLines rows ++ rest))
      = some ((keptOf (rowNumbers rows)).map (scale * ·), leftLines rows ++ rest, f - before.length - 1) := by
  unfold voxelCoords
  rw [if_neg (by omega), voxelFind_skip word.toList before more _ hb hm hword f hf, Option.bind_some]
  simp only
  have hkl := kept_length (rowNumbers rows)
  have := voxelValues_rows (fun t => (stod t).map (scale * ·)) n
    (rows.map fun r => (r.1, r.2.map (scale * ·))) rest (by
      intro r hr'
      obtain ⟨q, hq, rfl⟩ := List.mem_map.1 hr'
      have hq' := hr q hq
      obtain ⟨v, h1, h2⟩ := numberLine_split Num stod (fun t x h => ⟨(hnum t x h).1, (hnum t x h).2.1,
        (hnum t x h).2.2.2⟩) q.1 q.2 hq'
      refine ⟨by
        obtain ⟨_, _, _, _, _, _, hne, _⟩ := hq'
        simpa using hne, v, h1, ?_⟩
      have hmm : ∀ (v : List (List Char)) (xs : List K), v.mapM stod = some xs →
          v.mapM (fun t => (stod t).map (scale * ·)) = some (xs.map (scale * ·)) := by
        intro v
        induction v with
        | nil => intro xs h; simp at h; subst h; rfl
        | cons w v ih =>
          intro xs h
          rw [List.mapM_cons] at h ⊢
          cases hw : stod w with
          | none => simp [hw] at h
          | some y =>
            cases hv : v.mapM stod with
            | none => simp [hw, hv] at h
            | some ys =>
              simp [hw, hv] at h
              subst h
              rw [ih ys hv]
              simp
      exact hmm v q.2 h2) [] (by
      have e : (rowNumbers (rows.map fun r => (r.1, r.2.map (scale * ·)))).flatten.length
          = (rowNumbers rows).flatten.length := by
        simp [rowNumbers, Function.comp_def]
      rw [e]
      simpa using hlen)
  have e1 : rowLines (rows.map fun r => (r.1, r.2.map (scale * ·))) = rowLines rows := by
    simp [rowLines, Function.comp_def]
  have e2 : rowNumbers (rows.map fun r => (r.1, r.2.map (scale * ·))) = (rowNumbers rows).map (List.map (scale * ·)) := by
    simp [rowNumbers, Function.comp_def]
  have e3 : (((rowNumbers rows).map (List.map (scale * ·))).getLast?.map List.length)
      = (rowNumbers rows).getLast?.map List.length := by
    rw [List.getLast?_map, Option.map_map]
    congr 1
    funext l
    simp
  have e4 : keptOf ((rowNumbers rows).map (List.map (scale * ·))) = (keptOf (rowNumbers rows)).map (scale * ·) := by
    unfold keptOf
    rw [e3]
    split_ifs
    · rw [← List.map_flatten, List.map_dropLast]
    · rw [← List.map_flatten]
  have e5 : leftLines (rows.map fun r => (r.1, r.2.map (scale * ·))) = leftLines rows := by
    unfold leftLines
    rw [e1, e2, e3]
  rw [e1, e2, e4, e5, List.nil_append] at this
  rw [this, Option.bind_some]
  simp only
  rw [if_neg (by rw [List.length_map]; omega)]

/-- **C115.** From a well-formed voxel file the reader keeps the numbers of points, the coordinates times the
scale, the number of voxels and their values, however the numbers are distributed over the lines - except that the
last number of a block is not kept if it stands alone on its line. -/
theorem C115_reads (sx sy sz : K) (T : VoxelText K) (hT : T.WF Num) :
    readVoxelFile stod sx sy sz T.lines = some ⟨T.nx, T.ny, T.nz, (keptOf (rowNumbers T.xRows)).map (sx * ·),
      (keptOf (rowNumbers T.yRows)).map (sy * ·), (keptOf (rowNumbers T.zRows)).map (sz * ·), T.num,
      keptOf (rowNumbers T.rows)⟩ := by
  obtain ⟨h3x, h3y, h3z⟩ := hT.three
  have hmore := hT.more
  simp only [List.mem_append] at hmore
  have hhead := hT.head
  have hdata := hT.data
  have hlx := leftLines_length T.xRows
  have hly := leftLines_length T.yRows
  have hlz := leftLines_length T.zRows
  have hleft : ∀ (rows : List (List Char × List K)) (before : List (List Char)) (word : String),
      (∀ r ∈ rows, NumberLine Num r.1 r.2) → Without word before → '_' ∈ word.toList →
      ∀ l ∈ leftLines rows ++ before, firstWord l ≠ word.toList := by
    intro rows before word hr hb hw l hl
    rcases List.mem_append.1 hl with hl | hl
    · obtain ⟨r, hr', rfl⟩ := leftLines_mem rows l hl
      exact numberLine_first (fun t x h => (hnum t x h).2.2.1) r.1 r.2 (hr r hr') _ hw
    · exact hb l hl
  unfold readVoxelFile VoxelText.lines
  rw [voxelFind_skip "DIMENSIONS".toList T.pre (decimal T.nx :: decimal T.ny :: decimal T.nz :: T.dimMore) _ hT.pre
    (by
      intro w hw
      simp only [List.mem_cons] at hw
      rcases hw with rfl | rfl | rfl | hw
      · exact decimal_no_blank _
      · exact decimal_no_blank _
      · exact decimal_no_blank _
      · exact hmore w (by simp [hw])) (by decide) 1001 (by omega), Option.bind_some]
  simp only
  rw [fieldNat_decimal _ 1 T.nx (by simp), fieldNat_decimal _ 2 T.ny (by simp), fieldNat_decimal _ 3 T.nz (by simp)]
  simp only [Option.bind_some]
  rw [voxelCoords_section Num stod hnum "X_COORDINATES" (by decide) sx T.nx _ T.beforeX T.xMore T.xRows _ hT.beforeX
    (fun w hw => hmore w (by simp [hw])) hT.xRows hT.nx h3x (by omega)]
  simp only [Option.bind_some]
  rw [← List.append_assoc (leftLines T.xRows), voxelCoords_section Num stod hnum "Y_COORDINATES" (by decide) sy T.ny _
    (leftLines T.xRows ++ T.beforeY) T.yMore T.yRows _
    (hleft T.xRows T.beforeY "Y_COORDINATES" hT.xRows hT.beforeY (by decide)) (fun w hw => hmore w (by simp [hw])) hT.yRows hT.ny h3y
    (by rw [List.length_append]; omega)]
  simp only [Option.bind_some]
  rw [← List.append_assoc (leftLines T.yRows), voxelCoords_section Num stod hnum "Z_COORDINATES" (by decide) sz T.nz _
    (leftLines T.yRows ++ T.beforeZ) T.zMore T.zRows _
    (hleft T.yRows T.beforeZ "Z_COORDINATES" hT.yRows hT.beforeZ (by decide)) (fun w hw => hmore w (by simp [hw])) hT.zRows hT.nz h3z
    (by simp only [List.length_append]; omega)]
  simp only [Option.bind_some]
  rw [← List.append_assoc (leftLines T.zRows), voxelFind_skip "CELL_DATA".toList (leftLines T.zRows ++ T.beforeData)
    (decimal T.num :: T.dataMore) _ (hleft T.zRows T.beforeData "CELL_DATA" hT.zRows hT.beforeData (by decide)) (by
      intro w hw
      rcases List.mem_cons.1 hw with rfl | hw
      · exact decimal_no_blank _
      · exact hmore w (by simp [hw])) (by decide) 1001 (by rw [List.length_append]; omega)]
  simp only [Option.bind_some]
  rw [fieldNat_decimal _ 1 T.num (by simp)]
  simp only [Option.bind_some]
  unfold voxelTable
  rw [voxelFind_skip "LOOKUP_TABLE".toList T.beforeTable T.tableMore _ hT.beforeTable (fun w hw => hmore w (by simp [hw]))
    (by decide) _ (by rw [List.length_append]; omega)]
  simp only
  rw [if_neg (by have := hT.some; omega)]
  have := voxelValues_rows (fun t => (readInt t).map Prod.fst) T.num T.rows T.post (by
    intro r hr
    obtain ⟨_, _, _, _, _, _, hne, _⟩ := hT.rows r hr
    exact ⟨hne, numberLine_split IntText _ intText_read r.1 r.2 (hT.rows r hr)⟩) [] (by simpa using hT.num)
  rw [this]
  simp

end

end

/-! ### Which elements are filled -/

/-- Equally spaced numbers. -/
def Uniform (xs : List ℝ) (n : ℕ) (x0 h : ℝ) : Prop := xs = (List.range n).map fun k : ℕ => x0 + k * h

theorem voxelAxis_uniform (rows : List (List ℝ)) (n : ℕ) (x0 h s : ℝ) (hn : 3 ≤ n) (hu : Uniform rows.flatten n x0 h)
    (k : ℕ) (hk : k + 1 < n) :
    (voxelAxis n ((keptOf rows).map (s * ·))).pt k = (uniformAxis n (s * x0) (s * h)).pt k := by
  have hlen : rows.flatten.length = n := by rw [hu]; simp
  have h1 : (keptOf rows)[k]? = some (x0 + k * h) := by
    rw [keptOf_getElem rows k (by omega), hu, List.getElem?_map, List.getElem?_range (by omega)]
    rfl
  simp only [voxelAxis, uniformAxis, List.getD_eq_getElem?_getD, List.getElem?_map, h1, Option.map_some, Option.getD_some]
  ring

theorem voxelAxis_spacing (rows : List (List ℝ)) (n : ℕ) (x0 h s : ℝ) (hn : 3 ≤ n)
    (hu : Uniform rows.flatten n x0 h) :
    (voxelAxis n ((keptOf rows).map (s * ·))).spacing = (uniformAxis n (s * x0) (s * h)).spacing := by
  unfold VoxelAxis.spacing
  have e : (voxelAxis n ((keptOf rows).map (s * ·))).n = n := rfl
  have e' : (uniformAxis n (s * x0) (s * h)).n = n := rfl
  rw [e, e', voxelAxis_uniform rows n x0 h s hn hu 0 (by omega), voxelAxis_uniform rows n x0 h s hn hu (n - 2) (by omega)]

theorem voxelAxis_index (rows : List (List ℝ)) (n : ℕ) (x0 h s o x : ℝ) (hn : 3 ≤ n)
    (hu : Uniform rows.flatten n x0 h) :
    (voxelAxis n ((keptOf rows).map (s * ·))).index o x = (uniformAxis n (s * x0) (s * h)).index o x := by
  unfold VoxelAxis.index
  rw [voxelAxis_spacing rows n x0 h s hn hu]
  unfold VoxelAxis.orig
  rw [voxelAxis_uniform rows n x0 h s hn hu 0 (by omega), voxelAxis_uniform rows n x0 h s hn hu 1 (by omega)]

theorem uniform_spacing_ne (n : ℕ) (x0 h : ℝ) (hn : 3 ≤ n) (hh : 0 < h) : (uniformAxis n x0 h).spacing ≠ 0 := by
  unfold VoxelAxis.spacing uniformAxis
  have h1 : (0 : ℝ) < ((n - 2 : ℕ) : ℝ) := by exact_mod_cast (by omega : 0 < n - 2)
  have h2 : (0 : ℝ) < ((n - 1 : ℕ) : ℝ) := by exact_mod_cast (by omega : 0 < n - 1)
  apply ne_of_gt
  apply div_pos _ h2
  simp only [Nat.cast_zero, zero_mul, add_zero, add_sub_cancel_left]
  positivity

/-- **C115.** A well-formed voxel file with equally spaced points in each direction: an element whose centre is the
centre of voxel `(i, j, k)`, scaled and moved to the origin of the region, is filled exactly if the number written
at place `i + (nx-1) (j + (ny-1) k)` of the values is one - for all voxels but those of the last layer of a
direction. -/
theorem C115_fill (Num : List Char → ℝ → Prop) (stod : List Char → Option ℝ) (hnum : RealTexts Num stod)
    (T : VoxelText ℝ) (hT : T.WF Num) (x0 y0 z0 hx hy hz sx sy sz : ℝ) (o c : Fin 3 → ℝ)
    (hsx : 0 < sx) (hsy : 0 < sy) (hsz : 0 < sz) (hhx : 0 < hx) (hhy : 0 < hy) (hhz : 0 < hz)
    (hux : Uniform (rowNumbers T.xRows).flatten T.nx x0 hx) (huy : Uniform (rowNumbers T.yRows).flatten T.ny y0 hy)
    (huz : Uniform (rowNumbers T.zRows).flatten T.nz z0 hz)
    (hN : T.num = (T.nx - 1) * (T.ny - 1) * (T.nz - 1)) (i j k : ℕ) (hi : i < T.nx - 2) (hj : j < T.ny - 2)
    (hk : k < T.nz - 2) (hc0 : c 0 = sx * (x0 + (i + 1 / 2) * hx) + o 0) (hc1 : c 1 = sy * (y0 + (j + 1 / 2) * hy) + o 1)
    (hc2 : c 2 = sz * (z0 + (k + 1 / 2) * hz) + o 2) :
    ∃ g b, readVoxelFile stod sx sy sz T.lines = some g ∧ voxelFills g o c = some b ∧
      (b = true ↔ (rowNumbers T.rows).flatten[i + (T.nx - 1) * (j + (T.ny - 1) * k)]? = some 1) := by
  obtain ⟨h3x, h3y, h3z⟩ := hT.three
  have key : ∀ (n v : ℕ) (x0 h s o : ℝ), 3 ≤ n → 0 < s → 0 < h → v < n - 2 →
      (uniformAxis n (s * x0) (s * h)).index o (s * (x0 + (v + 1 / 2) * h) + o) = v := by
    intro n v x0 h s o hn hs hh hv
    have := C37_voxel_centres n hn (s * x0) (s * h) o (mul_pos hs hh) v hv
    rw [← this]
    congr 1
    ring
  refine ⟨_, decide ((rowNumbers T.rows).flatten[i + (T.nx - 1) * (j + (T.ny - 1) * k)]? = some 1),
    C115_reads Num stod hnum sx sy sz T hT, ?_, decide_eq_true_iff⟩
  obtain ⟨a, ha⟩ : ∃ a, T.nx = a + 1 := ⟨T.nx - 1, by omega⟩
  obtain ⟨b, hb⟩ : ∃ b, T.ny = b + 1 := ⟨T.ny - 1, by omega⟩
  obtain ⟨d, hd⟩ : ∃ d, T.nz = d + 1 := ⟨T.nz - 1, by omega⟩
  have hid : i + (T.nx - 1) * (j + (T.ny - 1) * k) + 1 < T.num := by
    rw [hN, ha, hb, hd]
    simp only [Nat.add_sub_cancel]
    have hi' : i + 2 ≤ a := by omega
    have hj' : j + 2 ≤ b := by omega
    have hk' : k + 1 ≤ d := by omega
    have h1 : j + b * k + 1 ≤ b * d := by
      have : b * (k + 1) ≤ b * d := Nat.mul_le_mul_left b hk'
      nlinarith
    have h2 : a * (j + b * k + 1) ≤ a * (b * d) := Nat.mul_le_mul_left a h1
    nlinarith
  unfold voxelFills
  simp only
  rw [voxelAxis_spacing _ _ x0 hx sx h3x hux, voxelAxis_spacing _ _ y0 hy sy h3y huy, voxelAxis_spacing _ _ z0 hz sz h3z huz,
    if_neg (by
      rintro (h | h | h)
      · exact uniform_spacing_ne _ _ _ h3x (mul_pos hsx hhx) h
      · exact uniform_spacing_ne _ _ _ h3y (mul_pos hsy hhy) h
      · exact uniform_spacing_ne _ _ _ h3z (mul_pos hsz hhz) h)]
  have hread : voxelRead (voxelAxis T.nx ((keptOf (rowNumbers T.xRows)).map (sx * ·)))
      (voxelAxis T.ny ((keptOf (rowNumbers T.yRows)).map (sy * ·)))
      (voxelAxis T.nz ((keptOf (rowNumbers T.zRows)).map (sz * ·))) o c T.num
      = some (i + (T.nx - 1) * (j + (T.ny - 1) * k)) := by
    unfold voxelRead
    simp only
    rw [voxelAxis_index _ _ x0 hx sx _ _ h3x hux, voxelAxis_index _ _ y0 hy sy _ _ h3y huy,
      voxelAxis_index _ _ z0 hz sz _ _ h3z huz, hc0, hc1, hc2, key _ i x0 hx sx _ h3x hsx hhx hi,
      key _ j y0 hy sy _ h3y hsy hhy hj, key _ k z0 hz sz _ h3z hsz hhz hk]
    have hgid : getId (i : ℤ) j k ((T.nx - 1 : ℕ) : ℤ) ((T.ny - 1 : ℕ) : ℤ)
        = ((i + (T.nx - 1) * (j + (T.ny - 1) * k) : ℕ) : ℤ) := by
      unfold getId
      push_cast
      ring
    have hxn : ∀ n xs, (voxelAxis n xs).n = n := fun _ _ => rfl
    rw [hxn, hxn, hxn, hgid, if_pos ⟨by exact_mod_cast (by omega : _ < T.num), by positivity, by positivity, by positivity, by positivity,
      by exact_mod_cast (by omega : i < T.nx - 1), by exact_mod_cast (by omega : j < T.ny - 1),
      by exact_mod_cast (by omega : k < T.nz - 1)⟩, Int.toNat_natCast]
  rw [hread]
  simp only [Option.some.injEq, decide_eq_decide]
  rw [List.getD_eq_getElem?_getD, keptOf_getElem _ _ (by rw [hT.num]; exact hid)]
  have hlt : i + (T.nx - 1) * (j + (T.ny - 1) * k) < (rowNumbers T.rows).flatten.length := by rw [hT.num]; omega
  rw [List.getElem?_eq_getElem hlt]
  simp

/-! ### A file, and files that are not read -/

/-- Reading of whole numbers as coordinates, for the examples. -/
def exStod (t : List Char) : Option ℚ := (readInt t).map fun x => (x.1 : ℚ)

/-- A grid of two by two by two voxels; the lines with `x`, with `y` and with the values are given. -/
def exVoxel (x y vals : List String) : List (List Char) :=
  (["# vtk DataFile Version 3.0", "grains", "ASCII", "DATASET RECTILINEAR_GRID", "DIMENSIONS 3 3 3",
    "X_COORDINATES 3 float"] ++ x ++ ["Y_COORDINATES 3 float"] ++ y ++ ["Z_COORDINATES 3 float", "0 2 4 ",
    "", "CELL_DATA 8", "SCALARS grain int 1", "LOOKUP_TABLE default"] ++ vals).map String.toList

/-- Such a file, with the numbers spread over the lines, is read; a last number alone on its line is not kept. -/
theorem exVoxel_read : readVoxelFile exStod 1 1 1 (exVoxel [" 0 1", "2"] ["0", "5", "10"] ["1 0 0 1", "0 1 1 -1"]) =
    some ⟨3, 3, 3, [0, 1], [0, 5], [0, 2, 4], 8, [1, 0, 0, 1, 0, 1, 1, -1]⟩ := by
  decide +kernel

/-- **C115 (further blanks).** Two blanks between numbers, or an empty line behind a key word, are not skipped:
the conversion of the empty word throws. -/
theorem C115_blanks_fails :
    readVoxelFile exStod 1 1 1 (exVoxel ["0  1 2"] ["0 5 10"] ["1 0 0 1 0 1 1 1"]) = none ∧
    readVoxelFile exStod 1 1 1 (exVoxel ["0 1 2"] ["", "0 5 10"] ["1 0 0 1 0 1 1 1"]) = none := by
  decide +kernel

/-- **C115 (too many numbers).** A further number on the last line is stored behind the end of the array. -/
theorem C115_surplus_fails :
    readVoxelFile exStod 1 1 1 (exVoxel ["0 1 2"] ["0 5 10"] ["1 0 0 1 0 1 1 1 1"]) = none := by
  decide +kernel

theorem voxelFind_none (word : List Char) (f : ℕ) (lines : List (List Char))
    (h : ∀ l ∈ lines.take (f + 1), firstWord l ≠ word) : voxelFind word f lines = none := by
  induction f generalizing lines with
  | zero =>
    cases lines with
    | nil => rfl
    | cons l rest =>
      obtain ⟨v, hv1, hv2⟩ := split_first l
      rw [voxelFind, hv1, Option.bind_some, if_neg (by
        rw [hv2]
        intro h'
        exact h l (by simp) (Option.some.inj h'))]
  | succ f ih =>
    cases lines with
    | nil => rw [voxelFind]; exact ih [] (by simp)
    | cons l rest =>
      obtain ⟨v, hv1, hv2⟩ := split_first l
      rw [voxelFind, hv1, Option.bind_some, if_neg (by
        rw [hv2]
        intro h'
        exact h l (by simp) (Option.some.inj h'))]
      exact ih rest fun l hl => h l (by rw [List.take_succ_cons]; exact List.mem_cons_of_mem _ hl)

/-- **C115 (long header).** If none of the first 1002 lines begins with `DIMENSIONS` the search ends with a
message only, and the numbers of points that were never set are used. -/
theorem C115_header_fails {K : Type} [Mul K] (stod : List Char → Option K) (sx sy sz : K) (file : List (List Char))
    (h : Without "DIMENSIONS" (file.take 1002)) : readVoxelFile stod sx sy sz file = none := by
  unfold readVoxelFile
  rw [voxelFind_none _ 1001 file h]
  rfl

theorem voxelFind_suffix (word : List Char) (f : ℕ) (lines : List (List Char)) (x) (h : voxelFind word f lines = some x) :
    ∀ l ∈ x.2.1, l ∈ lines := by
  induction f generalizing lines with
  | zero =>
    cases lines with
    | nil => cases h
    | cons l rest =>
      obtain ⟨v, hv1, -⟩ := split_first l
      rw [voxelFind, hv1, Option.bind_some] at h
      split_ifs at h
      injection h with h
      subst h
      intro l hl
      simp [hl]
  | succ f ih =>
    cases lines with
    | nil => rw [voxelFind] at h; exact ih [] h
    | cons l rest =>
      obtain ⟨v, hv1, -⟩ := split_first l
      rw [voxelFind, hv1, Option.bind_some] at h
      split_ifs at h
      · injection h with h
        subst h
        intro l hl
        simp [hl]
      · intro l hl
        exact List.mem_cons_of_mem _ (ih rest h l hl)

theorem voxelValues_suffix {α : Type} (conv : List Char → Option α) (n : ℕ) (lines : List (List Char)) (acc : List α) (x)
    (h : voxelValues conv n lines acc = some x) : ∀ l ∈ x.2, l ∈ lines := by
  induction lines generalizing acc with
  | nil =>
    rw [voxelValues] at h
    split_ifs at h
    injection h with h
    subst h
    simp
  | cons l ls ih =>
    rw [voxelValues] at h
    split_ifs at h
    · obtain ⟨v, -, h⟩ := Option.bind_eq_some_iff.1 h
      obtain ⟨xs, -, h⟩ := Option.bind_eq_some_iff.1 h
      split_ifs at h
      intro l hl
      exact List.mem_cons_of_mem _ (ih _ h l hl)
    · injection h with h
      subst h
      exact fun l hl => hl

theorem voxelCoords_suffix {K : Type} [Mul K] (stod : List Char → Option K) (word : List Char) (scale : K) (n f : ℕ)
    (lines : List (List Char)) (x) (h : voxelCoords stod word scale n f lines = some x) : ∀ l ∈ x.2.1, l ∈ lines := by
  unfold voxelCoords at h
  split_ifs at h
  obtain ⟨a, ha, h⟩ := Option.bind_eq_some_iff.1 h
  obtain ⟨b, hb, h⟩ := Option.bind_eq_some_iff.1 h
  split_ifs at h
  injection h with h
  subst h
  intro l hl
  exact voxelFind_suffix _ _ _ _ ha l (voxelValues_suffix _ _ _ _ _ hb l hl)

/-- **C115 (no table).** If no line begins with `LOOKUP_TABLE` - the word is misspelt or a blank stands before it -
the file is accepted, but all values stay zero: no element is filled. -/
theorem C115_no_table_fails (stod : List Char → Option ℝ) (sx sy sz : ℝ) (file : List (List Char))
    (h : Without "LOOKUP_TABLE" file) (g : VoxelFile ℝ) (hg : readVoxelFile stod sx sy sz file = some g)
    (o c : Fin 3 → ℝ) : voxelFills g o c ≠ some true := by
  have hv : g.vals = [] := by
    unfold readVoxelFile at hg
    obtain ⟨d, hd, hg⟩ := Option.bind_eq_some_iff.1 hg
    obtain ⟨nx, -, hg⟩ := Option.bind_eq_some_iff.1 hg
    obtain ⟨ny, -, hg⟩ := Option.bind_eq_some_iff.1 hg
    obtain ⟨nz, -, hg⟩ := Option.bind_eq_some_iff.1 hg
    obtain ⟨x, hx, hg⟩ := Option.bind_eq_some_iff.1 hg
    obtain ⟨y, hy, hg⟩ := Option.bind_eq_some_iff.1 hg
    obtain ⟨z, hz, hg⟩ := Option.bind_eq_some_iff.1 hg
    obtain ⟨w, hw, hg⟩ := Option.bind_eq_some_iff.1 hg
    obtain ⟨n, -, hg⟩ := Option.bind_eq_some_iff.1 hg
    obtain ⟨vals, hvals, hg⟩ := Option.map_eq_some_iff.1 hg
    subst hg
    have hsub : ∀ l ∈ w.2.1, l ∈ file := fun l hl =>
      voxelFind_suffix _ _ _ _ hd l (voxelCoords_suffix _ _ _ _ _ _ _ hx l (voxelCoords_suffix _ _ _ _ _ _ _ hy l
        (voxelCoords_suffix _ _ _ _ _ _ _ hz l (voxelFind_suffix _ _ _ _ hw l hl))))
    unfold voxelTable at hvals
    rw [voxelFind_none _ _ _ fun l hl => h l (hsub l (List.take_subset _ _ hl))] at hvals
    exact (Option.some.inj hvals).symm
  unfold voxelFills
  simp only
  split_ifs
  · simp
  · split
    · simp
    · rw [hv]
      simp

/-- The file with a blank before the key word is accepted. -/
theorem exVoxel_no_table : (readVoxelFile exStod 1 1 1 ((exVoxel ["0 1 2"] ["0 5 10"] ["1 0 0 1 0 1 1 1"]).map fun l =>
    if firstWord l = "LOOKUP_TABLE".toList then ' ' :: l else l)).map VoxelFile.vals = some [] := by
  decide +kernel

/-- **C115 (one voxel in a direction).** A grid with a single voxel in some direction fills nothing that is defined: the
spacing is zero, and the code divides by it. -/
theorem C115_single_voxel_fails (g : VoxelFile ℝ) (h : g.nx = 2) (o c : Fin 3 → ℝ) : voxelFills g o c = none := by
  unfold voxelFills
  simp only
  rw [if_pos]
  left
  simp [VoxelAxis.spacing, voxelAxis, h]

/-- **C115 (number of voxels).** The number behind `CELL_DATA` is not compared with the numbers of points: here it
is too small, the file is accepted, and the voxels behind it have no value. -/
theorem C115_number_fails :
    readVoxelFile exStod 1 1 1 ((exVoxel ["0 1 2"] ["0 5 10"] ["1 1", "1 1", "1 1", "1 1"]).map fun l =>
      if firstWord l = "CELL_DATA".toList then "CELL_DATA 4".toList else l) =
    some ⟨3, 3, 3, [0, 1, 2], [0, 5, 10], [0, 2, 4], 4, [1, 1, 1, 1]⟩ := by
  decide +kernel

/-! ### The hypotheses can be met -/

/-- Whole numbers as texts of coordinates. -/
def exNum (t : List Char) (x : ℝ) : Prop := ∃ n : ℕ, t = decimal n ∧ x = n

/-- Their conversion. -/
noncomputable def exStodR (t : List Char) : Option ℝ := (readInt t).map fun x => (x.1 : ℝ)

theorem exNum_texts : RealTexts exNum exStodR := by
  rintro t x ⟨n, rfl, rfl⟩
  refine ⟨Nat.toDigits_ne_nil, decimal_no_blank n, ?_, ?_⟩
  · intro h
    have := Nat.isDigit_of_mem_toDigits (by decide) (by decide) h
    exact absurd this (by decide)
  · have := readInt_decimal [] (by intro c hc; simp at hc) n [] (by simp)
    simp only [List.nil_append, List.append_nil] at this
    rw [exStodR, this]
    simp

theorem exLine {α : Type} (Num : List Char → α → Prop) (ws : List (List Char)) (xs : List α) (hne : xs ≠ [])
    (h : List.Forall₂ Num ws xs) : NumberLine Num (words ws) xs := ⟨[], [], ws, by simp, by simp, by simp, hne, h⟩

/-- Three by two by two voxels. -/
noncomputable def exText : VoxelText ℝ where
  pre := ["# vtk DataFile Version 3.0".toList, "ASCII".toList]
  nx := 4
  ny := 3
  nz := 3
  dimMore := []
  beforeX := []
  xMore := ["4".toList, "float".toList]
  xRows := [(words [decimal 0, decimal 2], [((0 : ℕ) : ℝ), ((2 : ℕ) : ℝ)]), (words [decimal 4, decimal 6], [((4 : ℕ) : ℝ), ((6 : ℕ) : ℝ)])]
  beforeY := []
  yMore := []
  yRows := [(words [decimal 0, decimal 1, decimal 2], [((0 : ℕ) : ℝ), ((1 : ℕ) : ℝ), ((2 : ℕ) : ℝ)])]
  beforeZ := []
  zMore := []
  zRows := [(words [decimal 0, decimal 1, decimal 2], [((0 : ℕ) : ℝ), ((1 : ℕ) : ℝ), ((2 : ℕ) : ℝ)])]
  beforeData := [[]]
  num := 12
  dataMore := []
  beforeTable := ["SCALARS grain int 1".toList]
  tableMore := ["default".toList]
  rows := List.replicate 4 (words [decimal 1, decimal 0, '-' :: decimal 1], [1, 0, -1])
  post := []

theorem exText_wf : exText.WF exNum where
  pre := by unfold Without exText; decide +kernel
  beforeX := by simp [Without, exText]
  beforeY := by simp [Without, exText]
  beforeZ := by simp [Without, exText]
  beforeData := by unfold Without exText; decide +kernel
  beforeTable := by unfold Without exText; decide +kernel
  more := by unfold exText; decide +kernel
  xRows := by
    intro r hr
    simp only [exText, List.mem_cons, List.not_mem_nil, or_false] at hr
    rcases hr with rfl | rfl <;> exact exLine _ _ _ (by simp) (.cons ⟨_, rfl, rfl⟩ (.cons ⟨_, rfl, rfl⟩ .nil))
  yRows := by
    intro r hr
    simp only [exText, List.mem_cons, List.not_mem_nil, or_false] at hr
    rcases hr with rfl
    exact exLine _ _ _ (by simp) (.cons ⟨0, rfl, rfl⟩ (.cons ⟨1, rfl, rfl⟩ (.cons ⟨2, rfl, rfl⟩ .nil)))
  zRows := by
    intro r hr
    simp only [exText, List.mem_cons, List.not_mem_nil, or_false] at hr
    rcases hr with rfl
    exact exLine _ _ _ (by simp) (.cons ⟨0, rfl, rfl⟩ (.cons ⟨1, rfl, rfl⟩ (.cons ⟨2, rfl, rfl⟩ .nil)))
  rows := by
    intro r hr
    obtain rfl := List.eq_of_mem_replicate (n := 4) hr
    exact exLine _ _ _ (by simp) (.cons ⟨1, Or.inl ⟨rfl, rfl⟩⟩ (.cons ⟨0, Or.inl ⟨rfl, rfl⟩⟩ (.cons ⟨1, Or.inr ⟨rfl, rfl⟩⟩ .nil)))
  nx := rfl
  ny := rfl
  nz := rfl
  num := rfl
  three := by decide
  some := by decide
  head := by decide
  data := by decide

example : Uniform (rowNumbers exText.xRows).flatten exText.nx 0 2 := by
  simp [Uniform, exText, rowNumbers, List.range_succ]
  norm_num
example : Uniform (rowNumbers exText.yRows).flatten exText.ny 0 1 := by
  simp [Uniform, exText, rowNumbers, List.range_succ]

/-- The second voxel of the file has the value zero and is not filled. -/
example : ∃ g b, readVoxelFile exStodR 1 1 1 exText.lines = some g ∧ voxelFills g 0 ![3, 1 / 2, 1 / 2] = some b ∧
    ¬ b = true := by
  obtain ⟨g, b, h1, h2, h3⟩ := C115_fill exNum exStodR exNum_texts exText exText_wf 0 0 0 2 1 1 1 1 1 0 ![3, 1 / 2, 1 / 2]
    one_pos one_pos one_pos two_pos one_pos one_pos
    (by simp [Uniform, exText, rowNumbers, List.range_succ]; norm_num)
    (by simp [Uniform, exText, rowNumbers, List.range_succ]) (by simp [Uniform, exText, rowNumbers, List.range_succ])
    rfl 1 0 0 (by decide) (by decide) (by decide) (by simp; norm_num) (by simp) (by simp)
  refine ⟨g, b, h1, h2, ?_⟩
  rw [h3]
  simp [exText, rowNumbers, List.replicate]

example : Without "DIMENSIONS" (List.take 1002 ["# vtk DataFile Version 3.0".toList, "  DIMENSIONS 3 3 3".toList]) := by
  unfold Without; decide +kernel

end Fierro
