import Verif.Model.CStream

/-!
# Texts a reader understands

The specification of the text of a line: fields separated by white space, each in a form its conversion understands,
then any comment up to the line break.
-/

namespace Fierro

/-- Nothing, or white space first. -/
def SepStart (cs : List Char) : Prop := ∀ c ∈ cs.head?, cSpace c = true

/-- `t` is a text for the value `v` of kind `k`: not empty, without white space at its start, and converted to `v`
whatever follows behind white space. -/
structure NumConv.Reads (F : NumConv) (k : Kind) (t : List Char) (v : Val) : Prop where
  start : ∃ c ∈ t.head?, cSpace c = false
  conv : ∀ rest, SepStart rest → F.ext k (t ++ rest) = (v, some rest)

/-- Texts of several fields, each behind white space. -/
inductive FieldsText (F : NumConv) : List (Kind × Val) → List Char → Prop
  | nil : FieldsText F [] []
  | cons {k v fs w t cs} : (∀ c ∈ w, cSpace c = true) → F.Reads k t v → SepStart cs → FieldsText F fs cs →
      FieldsText F ((k, v) :: fs) (w ++ t ++ cs)

/-- Text of a line: the fields, a comment, the line break. -/
def LineText (F : NumConv) (fs : List (Kind × Val)) (cs : List Char) : Prop :=
  ∃ a comment, cs = a ++ comment ++ ['\n'] ∧ FieldsText F fs a ∧ SepStart comment ∧ '\n' ∉ comment

theorem sepStart_nil : SepStart [] := by intro c h; simp at h

theorem sepStart_append {a b : List Char} (ha : SepStart a) (hb : SepStart b) : SepStart (a ++ b) := by
  cases a with
  | nil => exact hb
  | cons c a => exact ha

theorem dropWhile_ws (w t : List Char) (hw : ∀ c ∈ w, cSpace c = true) (ht : ∃ c ∈ t.head?, cSpace c = false) :
    (w ++ t).dropWhile cSpace = t := by
  induction w with
  | nil =>
    obtain ⟨c, hc, hf⟩ := ht
    cases t with
    | nil => simp at hc
    | cons d t =>
      simp only [List.head?_cons, Option.mem_def, Option.some.injEq] at hc
      subst hc
      simp [List.dropWhile, hf]
  | cons c w ih =>
    rw [List.cons_append, List.dropWhile_cons_of_pos (hw c (by simp))]
    exact ih fun d hd => hw d (by simp [hd])

theorem head_append {t r : List Char} (ht : ∃ c ∈ t.head?, cSpace c = false) :
    ∃ c ∈ (t ++ r).head?, cSpace c = false := by
  obtain ⟨c, hc, hf⟩ := ht
  cases t with
  | nil => simp at hc
  | cons d t => exact ⟨c, hc, hf⟩

/-- A field is read. -/
theorem get_reads {F : NumConv} {k : Kind} {t : List Char} {v : Val} (h : F.Reads k t v) {w rest : List Char}
    (hw : ∀ c ∈ w, cSpace c = true) (hr : SepStart rest) (old : Option Val) :
    CStream.get (F.ext k) ⟨w ++ t ++ rest, true⟩ old = (some v, ⟨rest, true⟩) := by
  unfold CStream.get
  rw [if_pos rfl]
  have e : (w ++ t ++ rest).dropWhile cSpace = t ++ rest := by
    rw [List.append_assoc]; exact dropWhile_ws w _ hw (head_append h.start)
  simp only [e]
  have hc := h.conv rest hr
  obtain ⟨c, hc', -⟩ := head_append (r := rest) h.start
  cases hcs : t ++ rest with
  | nil => rw [hcs] at hc'; simp at hc'
  | cons d cs =>
    rw [hcs] at hc
    simp only [hc]

/-- Nothing left: the variable keeps its value and the stream fails. -/
theorem get_end {α : Type} (x : List Char → α × Option (List Char)) (cs : List Char) (h : ∀ c ∈ cs, cSpace c = true)
    (old : Option α) : CStream.get x ⟨cs, true⟩ old = (old, ⟨[], false⟩) := by
  unfold CStream.get
  rw [if_pos rfl]
  have : cs.dropWhile cSpace = [] := by
    induction cs with
    | nil => rfl
    | cons c cs ih => rw [List.dropWhile_cons_of_pos (h c (by simp))]; exact ih fun d hd => h d (by simp [hd])
  simp only [this]

theorem get_failed {α : Type} (x : List Char → α × Option (List Char)) (cs : List Char) (old : Option α) :
    CStream.get x ⟨cs, false⟩ old = (old, ⟨cs, false⟩) := by
  simp [CStream.get]

theorem clearLine_line (comment rest : List Char) (h : '\n' ∉ comment) :
    CStream.clearLine ⟨comment ++ '\n' :: rest, true⟩ = ⟨rest, true⟩ := by
  unfold CStream.clearLine
  rw [if_pos rfl]
  congr 1
  induction comment with
  | nil => simp
  | cons c cs ih =>
    have hc : c ≠ '\n' := fun e => h (by simp [e])
    rw [List.cons_append, List.dropWhile_cons_of_pos (by simpa using hc)]
    exact ih fun e => h (by simp [e])

/-- Reading the fields of a line. -/
theorem run_fields (F : NumConv) {fs : List (Kind × Val)} {cs : List Char} (h : FieldsText F fs cs) :
    ∀ (xs : List Var) (env : Var → Option Val) (rest : List Char), xs.length = fs.length → SepStart rest →
      runIns F ((xs.zip fs).map fun p => .get p.2.1 p.1) ⟨env, ⟨cs ++ rest, true⟩⟩ =
        ⟨(xs.zip fs).foldl (fun e p => Function.update e p.1 (some p.2.2)) env, ⟨rest, true⟩⟩ := by
  induction h with
  | nil => intro xs env rest hl _; simp [runIns]
  | @cons k v fs w t cs hw ht hs _ ih =>
    intro xs env rest hl hr
    cases xs with
    | nil => simp at hl
    | cons x xs =>
      simp only [List.length_cons, Nat.add_right_cancel_iff] at hl
      have := get_reads ht (w := w) (rest := cs ++ rest) hw (sepStart_append hs hr) (env x)
      simp only [List.zip_cons_cons, List.map_cons, runIns, List.foldl_cons, Ins.step]
      rw [show w ++ t ++ cs ++ rest = w ++ t ++ (cs ++ rest) by simp, this]
      exact ih xs _ rest hl hr

/-- Reading a line: each variable gets its field, and the file stands at the start of the next line. -/
theorem run_line (F : NumConv) {fs : List (Kind × Val)} {cs : List Char} (h : LineText F fs cs)
    (xs : List Var) (env : Var → Option Val) (rest : List Char) (hl : xs.length = fs.length) :
    runIns F (((xs.zip fs).map fun p => .get p.2.1 p.1) ++ [.clear]) ⟨env, ⟨cs ++ rest, true⟩⟩ =
      ⟨(xs.zip fs).foldl (fun e p => Function.update e p.1 (some p.2.2)) env, ⟨rest, true⟩⟩ := by
  obtain ⟨a, comment, rfl, ha, hs, hn⟩ := h
  have hr : SepStart (comment ++ '\n' :: rest) := sepStart_append hs (by intro c hc; simp at hc; subst hc; rfl)
  have := run_fields F ha xs env (comment ++ '\n' :: rest) hl hr
  unfold runIns at this ⊢
  rw [List.foldl_append, show a ++ comment ++ ['\n'] ++ rest = a ++ (comment ++ '\n' :: rest) by simp, this]
  simp only [List.foldl_cons, List.foldl_nil, Ins.step, clearLine_line comment rest hn]

theorem runIns_append (F : NumConv) (p q : List Ins) (s : Reader) : runIns F (p ++ q) s = runIns F q (runIns F p s) := by
  simp [runIns]

/-- A failed stream: no variable changes. -/
theorem runIns_failed (F : NumConv) (p : List Ins) (env : Var → Option Val) (cs : List Char) :
    runIns F p ⟨env, ⟨cs, false⟩⟩ = ⟨env, ⟨cs, false⟩⟩ := by
  induction p with
  | nil => rfl
  | cons i p ih =>
    have : Ins.step F ⟨env, ⟨cs, false⟩⟩ i = ⟨env, ⟨cs, false⟩⟩ := by
      cases i with
      | get k x => simp [Ins.step, get_failed]
      | clear => simp [Ins.step, CStream.clearLine]
    unfold runIns at ih ⊢
    rw [List.foldl_cons, this, ih]

/-- Words are read as they stand. -/
theorem reads_word (F : NumConv) (t : List Char) (h : t ≠ []) (hw : ∀ c ∈ t, cSpace c = false) :
    F.Reads .word t (.word t) := by
  refine ⟨?_, fun rest hr => ?_⟩
  · cases t with
    | nil => exact absurd rfl h
    | cons c t => exact ⟨c, rfl, hw c (by simp)⟩
  · have h1 : (t ++ rest).takeWhile (fun c => !cSpace c) = t := by
      rw [List.takeWhile_append_of_pos (by intro c hc; simp [hw c hc])]
      cases rest with
      | nil => simp
      | cons c r => simp [hr c rfl]
    have h2 : (t ++ rest).dropWhile (fun c => !cSpace c) = rest := by
      rw [List.dropWhile_append_of_pos (by intro c hc; simp [hw c hc])]
      cases rest with
      | nil => simp
      | cons c r => simp [hr c rfl]
    simp only [NumConv.ext, h1, h2]

end Fierro
