import Mathlib.Data.List.Basic
import Mathlib.Data.List.Nodup
import Mathlib.Data.List.TakeWhile
import Mathlib.Tactic.Common
import Verif.Model.EvpCommand

/-!
# Command line of the crystal plasticity codes (C141)
-/

namespace Fierro

/-! ### Specification: the help text of the codes -/

/-- The letter of an option, as the help text has it. -/
def CmdOpt.letter : CmdOpt → Char
  | .infile => 'f'
  | .micro => 'm'
  | .euler => 'e'
  | .feature => 'g'
  | .phase => 'p'
  | .unit => 'u'
  | .help => 'h'

/-- The long name of an option, as the help text has it. -/
def CmdOpt.word : CmdOpt → List Char
  | .infile => "infile".toList
  | .micro => "micro-filetype".toList
  | .euler => "euler-angles".toList
  | .feature => "feature-ids".toList
  | .phase => "phase-ids".toList
  | .unit => "euler-unit".toList
  | .help => "help".toList

/-- A name stands for the option whose long name, and no other, begins with it. -/
def CmdNames (o : CmdOpt) (name : List Char) : Prop := ∀ o' : CmdOpt, name <+: o'.word ↔ o' = o

/-- A command line gives these options with these values, in this order. -/
inductive CmdGiven : List (List Char) → List (CmdOpt × List Char) → Prop where
  /-- nothing left -/
  | nil : CmdGiven [] []
  /-- `--` ends the options -/
  | stop (ws : List (List Char)) : CmdGiven (['-', '-'] :: ws) []
  /-- a word that does not begin with a dash, or is only a dash, is passed over -/
  | other (w : List Char) (ws : List (List Char)) (s : List (CmdOpt × List Char))
      (hw : w.head? ≠ some '-' ∨ w = ['-']) (h : CmdGiven ws s) : CmdGiven (w :: ws) s
  /-- `-fvalue` -/
  | shortFull (o : CmdOpt) (v : List Char) (ws : List (List Char)) (s : List (CmdOpt × List Char))
      (ho : o ≠ .help) (hv : v ≠ []) (h : CmdGiven ws s) : CmdGiven (('-' :: o.letter :: v) :: ws) ((o, v) :: s)
  /-- `-f value` -/
  | shortOpen (o : CmdOpt) (v : List Char) (ws : List (List Char)) (s : List (CmdOpt × List Char))
      (ho : o ≠ .help) (h : CmdGiven ws s) : CmdGiven (['-', o.letter] :: v :: ws) ((o, v) :: s)
  /-- `--infile=value` -/
  | longFull (o : CmdOpt) (n v : List Char) (ws : List (List Char)) (s : List (CmdOpt × List Char))
      (ho : o ≠ .help) (hn : CmdNames o n) (h : CmdGiven ws s) :
      CmdGiven (('-' :: '-' :: (n ++ '=' :: v)) :: ws) ((o, v) :: s)
  /-- `--infile value` -/
  | longOpen (o : CmdOpt) (n v : List Char) (ws : List (List Char)) (s : List (CmdOpt × List Char))
      (ho : o ≠ .help) (hn : CmdNames o n) (h : CmdGiven ws s) :
      CmdGiven (('-' :: '-' :: n) :: v :: ws) ((o, v) :: s)

/-- The value given last for an option. -/
def lastGiven (o : CmdOpt) : List (CmdOpt × List Char) → Option (List Char)
  | [] => none
  | (o', v) :: s => match lastGiven o s with
    | some x => some x
    | none => if o' = o then some v else none

/-- A text begins with this integer, after white space and perhaps a sign. -/
def BeginsWithInt (v : List Char) (n : ℤ) : Prop :=
  ∃ sp sign ds rest : List Char, v = sp ++ (sign ++ (ds ++ rest)) ∧ (∀ c ∈ sp, isSpaceChar c = true) ∧ ds ≠ [] ∧
    (∀ c ∈ ds, c.isDigit = true) ∧ (∀ c, rest.head? = some c → c.isDigit = false) ∧
    ((sign = [] ∨ sign = ['+']) ∧ n = (Nat.ofDigitChars 10 ds 0 : ℕ) ∨
      sign = ['-'] ∧ n = -((Nat.ofDigitChars 10 ds 0 : ℕ) : ℤ))

/-- The integer a text stands for: the one it begins with, if the machine can hold it, or 0 if it begins with none. -/
def AtoiText (v : List Char) (n : ℤ) : Prop :=
  BeginsWithInt v n ∧ -2147483648 ≤ n ∧ n ≤ 2147483647 ∨ (∀ m, ¬BeginsWithInt v m) ∧ n = 0

/-- Every number given can be held by the machine. -/
def NumbersFit (s : List (CmdOpt × List Char)) : Prop :=
  ∀ p ∈ s, p.1 = .micro ∨ p.1 = .unit → ∃ n, AtoiText p.2 n

/-- The arguments are what the options given last say. -/
structure CmdSays (s : List (CmdOpt × List Char)) (c : CmdArgs) : Prop where
  infile : c.infile = (lastGiven .infile s).getD []
  euler : c.euler = (lastGiven .euler s).getD []
  feature : c.feature = (lastGiven .feature s).getD []
  phase : c.phase = (lastGiven .phase s).getD []
  micro : ∀ v, lastGiven .micro s = some v → AtoiText v c.micro
  noMicro : lastGiven .micro s = none → c.micro = 0
  unit : ∀ v, lastGiven .unit s = some v → AtoiText v c.unit
  noUnit : lastGiven .unit s = none → c.unit = -1

/-- What a run needs: an input file, and for an HDF5 microstructure its three paths and the unit of the angles. -/
def CmdComplete (c : CmdArgs) : Prop :=
  c.infile ≠ [] ∧ (c.micro = 1 → c.euler ≠ [] ∧ c.feature ≠ [] ∧ c.phase ≠ [] ∧ c.unit ≠ -1)

/-! ### Words -/

theorem CmdOpt.word_prefix (o o' : CmdOpt) (h : o.word <+: o'.word) : o' = o := by
  cases o <;> cases o' <;> first | rfl | (exfalso; revert h; decide)

theorem longOpts_mem (o : CmdOpt) : (o.word, o) ∈ longOpts := by
  cases o <;> decide

theorem longOpts_word (p : List Char × CmdOpt) (h : p ∈ longOpts) : p.1 = p.2.word := by
  revert p; decide

theorem list_eq_singleton {α : Type} (l : List α) (x : α) (hn : l.Nodup) (hx : x ∈ l) (h : ∀ y ∈ l, y = x) :
    l = [x] := by
  match l, hn, hx, h with
  | [a], _, hx, _ => simp at hx; rw [hx]
  | a :: b :: t, hn, _, h =>
    have h1 := h a (by simp)
    have h2 := h b (by simp)
    subst h1
    simp [h2] at hn

theorem longOpt_iff (n : List Char) (o : CmdOpt) : longOpt n = some o ↔ CmdNames o n := by
  unfold longOpt
  cases hf : longOpts.find? fun p => decide (p.1 = n) with
  | some p =>
    have hp := List.mem_of_find?_eq_some hf
    have hn : p.1 = n := by simpa using List.find?_some hf
    have hw := longOpts_word p hp
    simp only [Option.some.injEq]
    constructor
    · rintro rfl o'
      rw [← hn, hw]
      exact ⟨fun h => CmdOpt.word_prefix _ _ h, fun h => h ▸ List.prefix_refl _⟩
    · intro h
      exact (h p.2).1 (by rw [← hn, hw])
  | none =>
    simp only
    constructor
    · intro h
      split at h
      · next p hp =>
        simp only [Option.some.injEq] at h
        subst h
        have hm : p ∈ longOpts.filter fun q => n.isPrefixOf q.1 := by rw [hp]; simp
        have hm' := List.mem_filter.1 hm
        have hw := longOpts_word p hm'.1
        intro o'
        constructor
        · intro ho
          have : (o'.word, o') ∈ longOpts.filter fun q => n.isPrefixOf q.1 :=
            List.mem_filter.2 ⟨longOpts_mem o', by simpa using ho⟩
          rw [hp] at this
          simp only [List.mem_singleton] at this
          rw [← this]
        · rintro rfl
          rw [← hw]
          simpa using hm'.2
      · cases h
    · intro h
      have : (longOpts.filter fun q => n.isPrefixOf q.1) = [(o.word, o)] := by
        apply list_eq_singleton
        · exact List.Nodup.filter _ (by decide)
        · exact List.mem_filter.2 ⟨longOpts_mem o, by simpa using (h o).2 rfl⟩
        · intro q hq
          have hq' := List.mem_filter.1 hq
          have hw := longOpts_word q hq'.1
          have : q.2 = o := (h q.2).1 (by rw [← hw]; simpa using hq'.2)
          rw [Prod.ext_iff]
          exact ⟨by rw [hw, this], this⟩
      rw [this]

theorem shortOpt_iff (c : Char) (o : CmdOpt) : shortOpt c = some o ↔ c = o.letter := by
  unfold shortOpt
  constructor
  · intro h
    split_ifs at h <;> first | (cases h; assumption) | cases h
  · rintro rfl
    cases o <;> decide

theorem CmdNames.noEq {o : CmdOpt} {n : List Char} (h : CmdNames o n) : ∀ c ∈ n, c ≠ '=' := by
  intro c hc he
  subst he
  have := ((h o).2 rfl).subset hc
  revert this
  cases o <;> decide

theorem splitEq_full {n v : List Char} (h : ∀ c ∈ n, c ≠ '=') : splitEq (n ++ '=' :: v) = (n, some v) := by
  unfold splitEq
  have h1 : (n ++ '=' :: v).dropWhile (· ≠ '=') = '=' :: v := by
    rw [List.dropWhile_append_of_pos (by simpa using h)]
    simp
  have h2 : (n ++ '=' :: v).takeWhile (· ≠ '=') = n := by
    rw [List.takeWhile_append_of_pos (by simpa using h)]
    simp
  rw [h1, h2]

theorem splitEq_open {n : List Char} (h : ∀ c ∈ n, c ≠ '=') : splitEq n = (n, none) := by
  unfold splitEq
  have h1 : n.dropWhile (· ≠ '=') = [] := by
    rw [List.dropWhile_eq_nil_iff]; simpa using h
  rw [h1]

theorem splitEq_some {b v : List Char} (h : (splitEq b).2 = some v) : b = (splitEq b).1 ++ '=' :: v := by
  unfold splitEq at h ⊢
  have ht := List.takeWhile_append_dropWhile (p := fun c : Char => decide (c ≠ '=')) (l := b)
  have hd : ∀ x t, b.dropWhile (fun c : Char => decide (c ≠ '=')) = x :: t → x = '=' := by
    intro x t hx
    have := List.head?_dropWhile_not (fun c : Char => decide (c ≠ '=')) b
    rw [hx] at this
    simpa using this
  split at h
  · cases h
  · next x t hx =>
    cases h
    rw [hx] at ht
    rw [hd _ _ hx] at ht
    exact ht.symm

theorem splitEq_none {b : List Char} (h : (splitEq b).2 = none) : (splitEq b).1 = b := by
  unfold splitEq at h ⊢
  split at h
  · rfl
  · cases h

theorem CmdOpt.letter_ne (o : CmdOpt) : o.letter ≠ '-' := by cases o <;> decide

theorem CmdNames.ne_nil {o : CmdOpt} {n : List Char} (h : CmdNames o n) : n ≠ [] := by
  rintro rfl
  have h1 := (h .infile).1 (by simp)
  have h2 := (h .help).1 (by simp)
  rw [← h1] at h2
  cases h2

theorem cmdWord_long {n : List Char} (h : n ≠ []) : cmdWord ('-' :: '-' :: n) =
    match longOpt (splitEq n).1, (splitEq n).2 with
    | none, _ => .fault
    | some .help, some _ => .fault
    | some .help, none => .full .help []
    | some o, some v => .full o v
    | some o, none => .open o := by
  cases n with
  | nil => exact absurd rfl h
  | cons x t => rfl

theorem cmdWord_short {c : Char} (t : List Char) (h : c ≠ '-') : cmdWord ('-' :: c :: t) =
    match shortOpt c with
    | none => .fault
    | some .help => .full .help []
    | some o => if t = [] then .open o else .full o t := by
  unfold cmdWord
  split
  · next h1 => simp at h1; exact absurd h1.1 h
  · next h1 => simp at h1; exact absurd h1.1 h
  · next h1 => simp at h1; obtain ⟨rfl, rfl⟩ := h1; rfl
  · next h1 => exact absurd rfl (h1 _ _)

theorem cmdWord_other {w : List Char} (h : w.head? ≠ some '-' ∨ w = ['-']) : cmdWord w = .other := by
  match w, h with
  | [], _ => rfl
  | [c], h =>
    by_cases hc : c = '-'
    · subst hc; rfl
    · unfold cmdWord; split <;> simp_all
  | c :: d :: t, h =>
    have hc : c ≠ '-' := by
      rcases h with h | h
      · simpa using h
      · simp at h
    unfold cmdWord; split <;> simp_all

/-- What a word is, turned around. -/
theorem cmdWord_inv (w : List Char) : match cmdWord w with
    | .stop => w = ['-', '-']
    | .other => w.head? ≠ some '-' ∨ w = ['-']
    | .full o v => o ≠ .help →
        (v ≠ [] ∧ w = '-' :: o.letter :: v) ∨ (∃ n, CmdNames o n ∧ w = '-' :: '-' :: (n ++ '=' :: v))
    | .open o => o ≠ .help ∧ (w = ['-', o.letter] ∨ ∃ n, CmdNames o n ∧ w = '-' :: '-' :: n)
    | .fault => True := by
  match w with
  | [] => simp [cmdWord]
  | [c] =>
    by_cases hc : c = '-'
    · subst hc; simp [cmdWord]
    · rw [cmdWord_other (Or.inl (by simpa using hc))]; left; simpa using hc
  | c :: d :: t =>
    by_cases hc : c = '-'
    swap
    · rw [cmdWord_other (Or.inl (by simpa using hc))]; left; simpa using hc
    subst hc
    by_cases hd : d = '-'
    · subst hd
      by_cases ht : t = []
      · subst ht; rfl
      rw [cmdWord_long ht]
      cases hl : longOpt (splitEq t).1 with
      | none => simp
      | some o =>
        have hn := (longOpt_iff _ _).1 hl
        cases hs : (splitEq t).2 with
        | none =>
          have he := splitEq_none hs
          rw [he] at hn
          cases o
          case help => simp
          all_goals exact ⟨by decide, Or.inr ⟨t, hn, rfl⟩⟩
        | some v =>
          have he := splitEq_some hs
          cases o
          case help => simp
          all_goals exact fun _ => Or.inr ⟨_, hn, by rw [← he]⟩
    · rw [cmdWord_short t hd]
      cases hl : shortOpt d with
      | none => simp
      | some o =>
        have hn := (shortOpt_iff _ _).1 hl
        subst hn
        by_cases ht : t = []
        · subst ht
          cases o
          case help => simp
          all_goals exact ⟨by decide, Or.inl rfl⟩
        · cases o
          case help => simp
          all_goals dsimp only; rw [if_neg ht]; exact fun _ => Or.inl ⟨ht, rfl⟩

theorem cmdWord_shortFull {o : CmdOpt} {v : List Char} (ho : o ≠ .help) (hv : v ≠ []) :
    cmdWord ('-' :: o.letter :: v) = .full o v := by
  rw [cmdWord_short _ o.letter_ne, (shortOpt_iff _ o).2 rfl]
  cases o <;> first | exact absurd rfl ho | simp [hv]

theorem cmdWord_shortOpen {o : CmdOpt} (ho : o ≠ .help) : cmdWord ['-', o.letter] = .open o := by
  rw [cmdWord_short _ o.letter_ne, (shortOpt_iff _ o).2 rfl]
  cases o <;> first | exact absurd rfl ho | simp

theorem cmdWord_longFull {o : CmdOpt} {n v : List Char} (ho : o ≠ .help) (hn : CmdNames o n) :
    cmdWord ('-' :: '-' :: (n ++ '=' :: v)) = .full o v := by
  rw [cmdWord_long (by simp), splitEq_full hn.noEq, (longOpt_iff _ _).2 hn]
  cases o <;> first | exact absurd rfl ho | rfl

theorem cmdWord_longOpen {o : CmdOpt} {n : List Char} (ho : o ≠ .help) (hn : CmdNames o n) :
    cmdWord ('-' :: '-' :: n) = .open o := by
  rw [cmdWord_long hn.ne_nil, splitEq_open hn.noEq, (longOpt_iff _ _).2 hn]
  cases o <;> first | exact absurd rfl ho | rfl

/-! ### The loop -/

/-- The options one after the other, then the check. -/
def setAll (c : CmdArgs) : List (CmdOpt × List Char) → CmdResult
  | [] => checkCmd c
  | (o, v) :: s => match setOpt c o v with
    | .ok c' => setAll c' s
    | r => r

theorem parseCmd_given {ws : List (List Char)} {s : List (CmdOpt × List Char)} (h : CmdGiven ws s) :
    ∀ c, parseCmd c ws = setAll c s := by
  induction h with
  | nil => intro c; rfl
  | stop ws => intro c; simp [parseCmd, cmdWord, setAll]
  | other w ws s hw h ih => intro c; rw [parseCmd, cmdWord_other hw]; exact ih c
  | shortFull o v ws s ho hv h ih =>
    intro c; rw [parseCmd, cmdWord_shortFull ho hv]; simp only [setAll]
    cases hs : setOpt c o v <;> simp [ih]
  | shortOpen o v ws s ho h ih =>
    intro c; rw [parseCmd, cmdWord_shortOpen ho]; simp only [setAll]
    cases hs : setOpt c o v <;> simp [ih]
  | longFull o n v ws s ho hn h ih =>
    intro c; rw [parseCmd, cmdWord_longFull ho hn]; simp only [setAll]
    cases hs : setOpt c o v <;> simp [ih]
  | longOpen o n v ws s ho hn h ih =>
    intro c; rw [parseCmd, cmdWord_longOpen ho hn]; simp only [setAll]
    cases hs : setOpt c o v <;> simp [ih]

theorem setOpt_ok {c c' : CmdArgs} {o : CmdOpt} {v : List Char} (h : setOpt c o v = .ok c') : o ≠ .help := by
  rintro rfl; simp [setOpt] at h

theorem parseCmd_ok (m : ℕ) : ∀ (ws : List (List Char)), ws.length ≤ m → ∀ c c', parseCmd c ws = .ok c' →
    ∃ s, CmdGiven ws s := by
  induction m with
  | zero =>
    intro ws hm c c' _
    have : ws = [] := List.eq_nil_of_length_eq_zero (by omega)
    subst this
    exact ⟨[], .nil⟩
  | succ m ih =>
    intro ws hm c c' h
    cases ws with
    | nil => exact ⟨[], .nil⟩
    | cons w ws =>
      rw [parseCmd.eq_def] at h
      dsimp only at h
      have hi := cmdWord_inv w
      simp only [List.length_cons] at hm
      cases hw : cmdWord w with
      | stop => rw [hw] at hi; simp only at hi; subst hi; exact ⟨[], .stop _⟩
      | other =>
        rw [hw] at hi h
        simp only at hi h
        obtain ⟨s, hs⟩ := ih ws (by omega) _ _ h
        exact ⟨s, .other _ _ _ hi hs⟩
      | fault => rw [hw] at h; simp at h
      | full o v =>
        rw [hw] at hi h
        simp only at hi h
        cases hs : setOpt c o v with
        | help => rw [hs] at h; simp at h
        | undef => rw [hs] at h; simp at h
        | ok c1 =>
          rw [hs] at h
          obtain ⟨s, hs'⟩ := ih ws (by omega) _ _ h
          have ho := setOpt_ok hs
          rcases hi ho with ⟨hv, rfl⟩ | ⟨n, hn, rfl⟩
          · exact ⟨_, .shortFull o v ws s ho hv hs'⟩
          · exact ⟨_, .longFull o n v ws s ho hn hs'⟩
      | «open» o =>
        rw [hw] at hi h
        simp only at hi h
        cases ws with
        | nil => simp at h
        | cons v ws' =>
          simp only at h
          cases hs : setOpt c o v with
          | help => rw [hs] at h; simp at h
          | undef => rw [hs] at h; simp at h
          | ok c1 =>
            rw [hs] at h
            simp only [List.length_cons] at hm
            obtain ⟨s, hs'⟩ := ih ws' (by omega) _ _ h
            obtain ⟨ho, rfl | ⟨n, hn, rfl⟩⟩ := hi
            · exact ⟨_, .shortOpen o v ws' s ho hs'⟩
            · exact ⟨_, .longOpen o n v ws' s ho hn hs'⟩

/-! ### Numbers -/

theorem readDigits_iff (s : List Char) (n : ℤ) : (∃ r, readDigits s = some (n, r)) ↔
    ∃ ds rest : List Char, s = ds ++ rest ∧ ds ≠ [] ∧ (∀ c ∈ ds, c.isDigit = true) ∧
      (∀ c, rest.head? = some c → c.isDigit = false) ∧ n = (Nat.ofDigitChars 10 ds 0 : ℕ) := by
  unfold readDigits digitsValue
  constructor
  · rintro ⟨r, h⟩
    by_cases hd : s.takeWhile Char.isDigit = []
    · simp [hd] at h
    · simp only [hd, if_false, Option.some.injEq, Prod.mk.injEq] at h
      refine ⟨s.takeWhile Char.isDigit, s.dropWhile Char.isDigit, (List.takeWhile_append_dropWhile).symm, hd, ?_, ?_,
        h.1.symm⟩
      · intro c hc; exact List.mem_takeWhile_imp hc
      · intro c hc
        have := List.head?_dropWhile_not Char.isDigit s
        rw [hc] at this
        simpa using this
  · rintro ⟨ds, rest, rfl, hne, hd, hr, rfl⟩
    have h1 : (ds ++ rest).takeWhile Char.isDigit = ds := by
      rw [List.takeWhile_append_of_pos hd]
      cases rest with
      | nil => simp
      | cons x t => simp [hr x rfl]
    exact ⟨(ds ++ rest).dropWhile Char.isDigit, by simp [h1, hne]⟩

theorem dropSpace_append {sp t : List Char} (h : ∀ c ∈ sp, isSpaceChar c = true)
    (ht : ∀ c, t.head? = some c → isSpaceChar c = false) : (sp ++ t).dropWhile isSpaceChar = t := by
  rw [List.dropWhile_append_of_pos h]
  cases t with
  | nil => rfl
  | cons x t => simp [ht x rfl]

theorem digit_not_space {c : Char} (h : c.isDigit = true) : isSpaceChar c = false := by
  by_contra hc
  simp only [Bool.not_eq_false] at hc
  unfold isSpaceChar at hc
  simp only [Bool.or_eq_true, beq_iff_eq] at hc
  rcases hc with ((((rfl | rfl) | rfl) | rfl) | rfl) | rfl <;> revert h <;> decide

theorem digit_not_sign {c : Char} (h : c.isDigit = true) : c ≠ '-' ∧ c ≠ '+' := by
  constructor <;> rintro rfl <;> revert h <;> decide

theorem readInt_iff (v : List Char) (n : ℤ) : (∃ r, readInt v = some (n, r)) ↔ BeginsWithInt v n := by
  constructor
  · rintro ⟨r, h⟩
    have hv := (List.takeWhile_append_dropWhile (p := isSpaceChar) (l := v)).symm
    have hsp : ∀ c ∈ v.takeWhile isSpaceChar, isSpaceChar c = true := fun c hc => List.mem_takeWhile_imp hc
    unfold readInt at h
    split at h
    · next t ht =>
      cases hd : readDigits t with
      | none => simp [hd] at h
      | some x =>
        rw [hd] at h
        simp only [Option.map_some, Option.some.injEq, Prod.mk.injEq] at h
        obtain ⟨ds, rest, rfl, a, b, c, d⟩ := (readDigits_iff t x.1).1 ⟨x.2, hd⟩
        exact ⟨_, ['-'], ds, rest, by rw [ht] at hv; simpa using hv, hsp, a, b, c, Or.inr ⟨rfl, by rw [← h.1, d]⟩⟩
    · next t ht =>
      obtain ⟨ds, rest, rfl, a, b, c, d⟩ := (readDigits_iff t n).1 ⟨r, h⟩
      exact ⟨_, ['+'], ds, rest, by rw [ht] at hv; simpa using hv, hsp, a, b, c, Or.inl ⟨Or.inr rfl, d⟩⟩
    · next t ht =>
      obtain ⟨ds, rest, hs, a, b, c, d⟩ := (readDigits_iff _ n).1 ⟨r, h⟩
      exact ⟨_, [], ds, rest, by rw [List.nil_append, ← hs]; exact hv, hsp, a, b, c,
        Or.inl ⟨Or.inl rfl, d⟩⟩
  · rintro ⟨sp, sign, ds, rest, rfl, hsp, hne, hd, hr, h⟩
    obtain ⟨x, t, rfl⟩ := List.exists_cons_of_ne_nil hne
    have hx := hd x (by simp)
    unfold readInt
    rcases h with ⟨rfl | rfl, rfl⟩ | ⟨rfl, rfl⟩
    · rw [dropSpace_append hsp (by simpa using digit_not_space hx)]
      have := (readDigits_iff ((x :: t) ++ rest) _).2 ⟨x :: t, rest, rfl, hne, hd, hr, rfl⟩
      simp only [List.nil_append, List.cons_append] at this ⊢
      split
      · next h1 => simp at h1; exact absurd h1.1 (digit_not_sign hx).1
      · next h1 => simp at h1; exact absurd h1.1 (digit_not_sign hx).2
      · exact this
    · rw [dropSpace_append hsp (by simp; decide)]
      exact (readDigits_iff ((x :: t) ++ rest) _).2 ⟨x :: t, rest, rfl, hne, hd, hr, rfl⟩
    · rw [dropSpace_append hsp (by simp; decide)]
      obtain ⟨r, hr'⟩ := (readDigits_iff ((x :: t) ++ rest) _).2 ⟨x :: t, rest, rfl, hne, hd, hr, rfl⟩
      exact ⟨r, by simp only [List.cons_append, List.nil_append] at hr' ⊢; rw [hr']; rfl⟩

theorem atoiC_iff (v : List Char) (n : ℤ) : atoiC v = some n ↔ AtoiText v n := by
  unfold atoiC AtoiText
  cases h : readInt v with
  | none =>
    have hno : ∀ m, ¬BeginsWithInt v m := by
      intro m hm
      obtain ⟨r, hr⟩ := (readInt_iff v m).2 hm
      rw [h] at hr; cases hr
    simp only [Option.some.injEq]
    constructor
    · rintro rfl; exact Or.inr ⟨hno, rfl⟩
    · rintro (⟨h1, _⟩ | ⟨_, h1⟩)
      · exact absurd h1 (hno n)
      · exact h1.symm
  | some p =>
    obtain ⟨m, r⟩ := p
    have hm := (readInt_iff v m).1 ⟨r, h⟩
    simp only
    constructor
    · intro hh
      split_ifs at hh with hr
      cases hh
      exact Or.inl ⟨hm, hr⟩
    · rintro (⟨h1, h2⟩ | ⟨h1, _⟩)
      · obtain ⟨r', hr'⟩ := (readInt_iff v n).2 h1
        rw [h] at hr'
        simp only [Option.some.injEq, Prod.mk.injEq] at hr'
        obtain ⟨rfl, _⟩ := hr'
        rw [if_pos h2]
      · exact absurd hm (h1 m)

/-! ### The options given last -/

theorem setAll_ok (s : List (CmdOpt × List Char)) (hs : ∀ p ∈ s, p.1 ≠ .help) : ∀ c, NumbersFit s →
    ∃ c', setAll c s = checkCmd c' ∧
      c'.infile = (lastGiven .infile s).getD c.infile ∧ c'.euler = (lastGiven .euler s).getD c.euler ∧
      c'.feature = (lastGiven .feature s).getD c.feature ∧ c'.phase = (lastGiven .phase s).getD c.phase ∧
      (∀ v, lastGiven .micro s = some v → AtoiText v c'.micro) ∧ (lastGiven .micro s = none → c'.micro = c.micro) ∧
      (∀ v, lastGiven .unit s = some v → AtoiText v c'.unit) ∧ (lastGiven .unit s = none → c'.unit = c.unit) := by
  induction s with
  | nil => intro c _; exact ⟨c, rfl, by simp [lastGiven]⟩
  | cons p s ih =>
    intro c hf
    obtain ⟨o, v⟩ := p
    have hf' : NumbersFit s := fun p hp => hf p (by simp [hp])
    have ih := ih (fun p hp => hs p (by simp [hp]))
    have key : ∃ c1, setOpt c o v = .ok c1 ∧
        c1.infile = (if o = .infile then v else c.infile) ∧ c1.euler = (if o = .euler then v else c.euler) ∧
        c1.feature = (if o = .feature then v else c.feature) ∧ c1.phase = (if o = .phase then v else c.phase) ∧
        (o = .micro → AtoiText v c1.micro) ∧ (o ≠ .micro → c1.micro = c.micro) ∧
        (o = .unit → AtoiText v c1.unit) ∧ (o ≠ .unit → c1.unit = c.unit) := by
      have ho : o ≠ .help := hs (o, v) (by simp)
      cases o with
      | help => exact absurd rfl ho
      | micro =>
        obtain ⟨n, hn⟩ := hf (.micro, v) (by simp) (Or.inl rfl)
        exact ⟨_, by simp only [setOpt, (atoiC_iff v n).2 hn]; rfl, by simp [hn]⟩
      | unit =>
        obtain ⟨n, hn⟩ := hf (.unit, v) (by simp) (Or.inr rfl)
        exact ⟨_, by simp only [setOpt, (atoiC_iff v n).2 hn]; rfl, by simp [hn]⟩
      | _ => exact ⟨_, rfl, by simp⟩
    obtain ⟨c1, h0, h1, h2, h3, h4, h5, h6, h7, h8⟩ := key
    obtain ⟨c', g0, g1, g2, g3, g4, g5, g6, g7, g8⟩ := ih c1 hf'
    refine ⟨c', by rw [setAll, h0]; exact g0, ?_, ?_, ?_, ?_, ?_, ?_, ?_, ?_⟩
    · rw [g1, h1, lastGiven]
      cases lastGiven .infile s <;> simp; split_ifs <;> simp
    · rw [g2, h2, lastGiven]
      cases lastGiven .euler s <;> simp; split_ifs <;> simp
    · rw [g3, h3, lastGiven]
      cases lastGiven .feature s <;> simp; split_ifs <;> simp
    · rw [g4, h4, lastGiven]
      cases lastGiven .phase s <;> simp; split_ifs <;> simp
    · intro x hx
      rw [lastGiven] at hx
      cases hl : lastGiven .micro s with
      | some y => rw [hl] at hx; simp only [Option.some.injEq] at hx; subst hx; exact g5 _ hl
      | none =>
        rw [hl] at hx
        simp only at hx
        split_ifs at hx with ho
        simp only [Option.some.injEq] at hx
        subst hx
        rw [g6 hl]; exact h5 ho
    · intro hx
      rw [lastGiven] at hx
      cases hl : lastGiven .micro s with
      | some y => rw [hl] at hx; simp at hx
      | none =>
        rw [hl] at hx
        simp only at hx
        split_ifs at hx with ho
        rw [g6 hl]; exact h6 ho
    · intro x hx
      rw [lastGiven] at hx
      cases hl : lastGiven .unit s with
      | some y => rw [hl] at hx; simp only [Option.some.injEq] at hx; subst hx; exact g7 _ hl
      | none =>
        rw [hl] at hx
        simp only at hx
        split_ifs at hx with ho
        simp only [Option.some.injEq] at hx
        subst hx
        rw [g8 hl]; exact h7 ho
    · intro hx
      rw [lastGiven] at hx
      cases hl : lastGiven .unit s with
      | some y => rw [hl] at hx; simp at hx
      | none =>
        rw [hl] at hx
        simp only at hx
        split_ifs at hx with ho
        rw [g8 hl]; exact h8 ho

theorem setAll_fits (s : List (CmdOpt × List Char)) (hs : ∀ p ∈ s, p.1 ≠ .help) : ∀ c, ¬NumbersFit s →
    setAll c s = .undef := by
  induction s with
  | nil => intro c h; exact absurd (by intro p hp; simp at hp) h
  | cons p s ih =>
    intro c hf
    obtain ⟨o, v⟩ := p
    have ho : o ≠ .help := hs (o, v) (by simp)
    have ih := ih (fun p hp => hs p (by simp [hp]))
    have hcase : (o = .micro ∨ o = .unit) ∧ (¬∃ n, AtoiText v n) ∨ ¬NumbersFit s := by
      by_contra hcon
      push Not at hcon
      apply hf
      intro q hq hq'
      simp only [List.mem_cons] at hq
      rcases hq with rfl | hq
      · exact hcon.1 hq'
      · exact hcon.2 q hq hq'
    rw [setAll]
    rcases hcase with ⟨h1, h2⟩ | h
    · have hno : atoiC v = none := by
        cases ha : atoiC v with
        | none => rfl
        | some n => exact absurd ⟨n, (atoiC_iff v n).1 ha⟩ h2
      rcases h1 with rfl | rfl <;> simp [setOpt, hno]
    · cases o with
      | help => exact absurd rfl ho
      | micro =>
        cases ha : atoiC v <;> simp [setOpt, ha, ih _ h]
      | unit =>
        cases ha : atoiC v <;> simp [setOpt, ha, ih _ h]
      | _ => simp [setOpt, ih _ h]

theorem CmdGiven.noHelp {ws : List (List Char)} {s : List (CmdOpt × List Char)} (h : CmdGiven ws s) :
    ∀ p ∈ s, p.1 ≠ .help := by
  induction h with
  | nil => intro p hp; simp at hp
  | stop => intro p hp; simp at hp
  | other _ _ _ _ _ ih => exact ih
  | shortFull o v ws s ho _ _ ih => intro p hp; simp only [List.mem_cons] at hp; rcases hp with rfl | hp; exacts [ho, ih p hp]
  | shortOpen o v ws s ho _ ih => intro p hp; simp only [List.mem_cons] at hp; rcases hp with rfl | hp; exacts [ho, ih p hp]
  | longFull o _ v ws s ho _ _ ih => intro p hp; simp only [List.mem_cons] at hp; rcases hp with rfl | hp; exacts [ho, ih p hp]
  | longOpen o _ v ws s ho _ _ ih => intro p hp; simp only [List.mem_cons] at hp; rcases hp with rfl | hp; exacts [ho, ih p hp]

theorem checkCmd_ok (c : CmdArgs) (h : CmdComplete c) : checkCmd c = .ok c := by
  obtain ⟨h1, h2⟩ := h
  unfold checkCmd
  rw [if_neg (by simpa using h1)]
  split_ifs with h3 h4
  · obtain ⟨a, b, d, e⟩ := h2 h3
    simp only [List.length_eq_zero_iff] at h4
    rcases h4 with h | h | h | h
    · exact absurd h a
    · exact absurd h b
    · exact absurd h d
    · exact absurd h e
  · rfl
  · rfl

theorem checkCmd_help (c : CmdArgs) (h : ¬CmdComplete c) : checkCmd c = .help := by
  unfold checkCmd
  split_ifs with h1 h2 h3
  · rfl
  · rfl
  · exfalso
    apply h
    simp only [List.length_eq_zero_iff, not_or] at h1 h3
    exact ⟨h1, fun _ => h3⟩
  · exfalso
    apply h
    simp only [List.length_eq_zero_iff] at h1
    exact ⟨h1, fun h => absurd h h2⟩

theorem AtoiText.unique {v : List Char} {a b : ℤ} (ha : AtoiText v a) (hb : AtoiText v b) : a = b := by
  have h1 := (atoiC_iff v a).2 ha
  have h2 := (atoiC_iff v b).2 hb
  rw [h1] at h2
  exact Option.some.inj h2

theorem CmdSays.unique {s : List (CmdOpt × List Char)} {a b : CmdArgs} (ha : CmdSays s a) (hb : CmdSays s b) :
    a = b := by
  cases hm : lastGiven .micro s with
  | none =>
    cases hu : lastGiven .unit s with
    | none =>
      cases a; cases b
      simp only [CmdArgs.mk.injEq]
      exact ⟨ha.infile.trans hb.infile.symm, (ha.noMicro hm).trans (hb.noMicro hm).symm, ha.euler.trans hb.euler.symm,
        ha.feature.trans hb.feature.symm, ha.phase.trans hb.phase.symm, (ha.noUnit hu).trans (hb.noUnit hu).symm⟩
    | some u =>
      cases a; cases b
      simp only [CmdArgs.mk.injEq]
      exact ⟨ha.infile.trans hb.infile.symm, (ha.noMicro hm).trans (hb.noMicro hm).symm, ha.euler.trans hb.euler.symm,
        ha.feature.trans hb.feature.symm, ha.phase.trans hb.phase.symm, (ha.unit u hu).unique (hb.unit u hu)⟩
  | some m =>
    cases hu : lastGiven .unit s with
    | none =>
      cases a; cases b
      simp only [CmdArgs.mk.injEq]
      exact ⟨ha.infile.trans hb.infile.symm, (ha.micro m hm).unique (hb.micro m hm), ha.euler.trans hb.euler.symm,
        ha.feature.trans hb.feature.symm, ha.phase.trans hb.phase.symm, (ha.noUnit hu).trans (hb.noUnit hu).symm⟩
    | some u =>
      cases a; cases b
      simp only [CmdArgs.mk.injEq]
      exact ⟨ha.infile.trans hb.infile.symm, (ha.micro m hm).unique (hb.micro m hm), ha.euler.trans hb.euler.symm,
        ha.feature.trans hb.feature.symm, ha.phase.trans hb.phase.symm, (ha.unit u hu).unique (hb.unit u hu)⟩

theorem parseCmd_says {ws : List (List Char)} {s : List (CmdOpt × List Char)} (h : CmdGiven ws s)
    (hf : NumbersFit s) : ∃ c, parseCmd {} ws = checkCmd c ∧ CmdSays s c := by
  obtain ⟨c', h0, h1, h2, h3, h4, h5, h6, h7, h8⟩ := setAll_ok s h.noHelp {} hf
  exact ⟨c', (parseCmd_given h {}).trans h0, ⟨h1, h2, h3, h4, h5, h6, h7, h8⟩⟩

/-! ### Theorems -/

/-- A command line is accepted exactly if it is made of options in one of the four forms (and words that are none),
its numbers fit, and what the options given last say is complete; the run gets exactly that. -/
theorem C141_accepts (ws : List (List Char)) (c : CmdArgs) : parseCmd {} ws = .ok c ↔
    ∃ s, CmdGiven ws s ∧ NumbersFit s ∧ CmdSays s c ∧ CmdComplete c := by
  constructor
  · intro h
    obtain ⟨s, hs⟩ := parseCmd_ok ws.length ws le_rfl _ _ h
    have hf : NumbersFit s := by
      by_contra hf
      rw [parseCmd_given hs, setAll_fits s hs.noHelp _ hf] at h
      cases h
    obtain ⟨c', h0, h1⟩ := parseCmd_says hs hf
    have hc : CmdComplete c' := by
      by_contra hc
      rw [h0, checkCmd_help c' hc] at h
      cases h
    rw [h0, checkCmd_ok c' hc] at h
    simp only [CmdResult.ok.injEq] at h
    subst h
    exact ⟨s, hs, hf, h1, hc⟩
  · rintro ⟨s, hs, hf, h1, hc⟩
    obtain ⟨c', h0, h2⟩ := parseCmd_says hs hf
    rw [h0, h2.unique h1]
    exact checkCmd_ok c hc

/-- A command line of options that are not complete prints the help text and leaves. -/
theorem C141_incomplete (ws : List (List Char)) (s : List (CmdOpt × List Char)) (c : CmdArgs) (h : CmdGiven ws s)
    (hf : NumbersFit s) (hs : CmdSays s c) (hc : ¬CmdComplete c) : parseCmd {} ws = .help := by
  obtain ⟨c', h0, h2⟩ := parseCmd_says h hf
  rw [h0, h2.unique hs]
  exact checkCmd_help c hc

/-- A command line that is no such list of options does not start a run: it prints the help text, unless a number
before the fault is too large for the machine. -/
theorem C141_faulty (ws : List (List Char)) (h : ¬∃ s, CmdGiven ws s) :
    parseCmd {} ws = .help ∨ parseCmd {} ws = .undef := by
  cases hp : parseCmd {} ws with
  | help => exact Or.inl rfl
  | undef => exact Or.inr rfl
  | ok c => exact absurd (parseCmd_ok ws.length ws le_rfl _ _ hp) h

/-- Only a number the machine cannot hold makes the outcome undefined. -/
theorem C141_defined (ws : List (List Char)) (h : ∀ s, CmdGiven ws s → NumbersFit s) (hs : ∃ s, CmdGiven ws s) :
    parseCmd {} ws ≠ .undef := by
  obtain ⟨s, hs⟩ := hs
  obtain ⟨c', h0, _⟩ := parseCmd_says hs (h s hs)
  rw [h0]
  by_cases hc : CmdComplete c'
  · rw [checkCmd_ok c' hc]; simp
  · rw [checkCmd_help c' hc]; simp

theorem CmdGiven.unique {ws : List (List Char)} {s : List (CmdOpt × List Char)} (h : CmdGiven ws s) :
    ∀ s' : List (CmdOpt × List Char), CmdGiven ws s' → s = s' := by
  induction h with
  | nil => intro s' h'; cases h'; rfl
  | stop ws =>
    intro s' h'
    generalize hl : ['-', '-'] :: ws = l at h'
    cases h' with
    | nil => cases hl
    | stop => rfl
    | other w ws s hw h =>
      cases hl
      exact absurd hw (by simp)
    | shortFull o v ws s ho hv h =>
      simp only [List.cons.injEq] at hl
      exact absurd hl.1.2.1.symm o.letter_ne
    | shortOpen o v ws s ho h =>
      simp only [List.cons.injEq] at hl
      exact absurd hl.1.2.1.symm o.letter_ne
    | longFull o n v ws s ho hn h =>
      simp at hl
    | longOpen o n v ws s ho hn h =>
      simp only [List.cons.injEq] at hl
      exact absurd hl.1.2.2.symm hn.ne_nil
  | other w ws s hw h ih =>
    intro s' h'
    have hw' := cmdWord_other hw
    generalize hl : w :: ws = l at h'
    cases h' with
    | nil => cases hl
    | stop => cases hl; exact absurd hw (by simp)
    | other w ws s hw h => cases hl; exact ih _ h
    | shortFull o v ws s ho hv h =>
      simp only [List.cons.injEq] at hl; rw [hl.1, cmdWord_shortFull ho hv] at hw'; cases hw'
    | shortOpen o v ws s ho h =>
      simp only [List.cons.injEq] at hl; rw [hl.1, cmdWord_shortOpen ho] at hw'; cases hw'
    | longFull o n v ws s ho hn h =>
      simp only [List.cons.injEq] at hl; rw [hl.1, cmdWord_longFull ho hn] at hw'; cases hw'
    | longOpen o n v ws s ho hn h =>
      simp only [List.cons.injEq] at hl; rw [hl.1, cmdWord_longOpen ho hn] at hw'; cases hw'
  | shortFull o v ws s ho hv h ih =>
    intro s' h'
    exact full_unique (cmdWord_shortFull ho hv) (fun h => ih _ h) h'
  | shortOpen o v ws s ho h ih =>
    intro s' h'
    exact open_unique (cmdWord_shortOpen ho) (fun h => ih _ h) h'
  | longFull o n v ws s ho hn h ih =>
    intro s' h'
    exact full_unique (cmdWord_longFull ho hn) (fun h => ih _ h) h'
  | longOpen o n v ws s ho hn h ih =>
    intro s' h'
    exact open_unique (cmdWord_longOpen ho hn) (fun h => ih _ h) h'
where
  full_unique {w : List Char} {o : CmdOpt} {v : List Char} {ws : List (List Char)} {s s' : List (CmdOpt × List Char)}
      (hw : cmdWord w = .full o v) (ih : ∀ {s'}, CmdGiven ws s' → s = s') (h' : CmdGiven (w :: ws) s') :
      (o, v) :: s = s' := by
    generalize hl : w :: ws = l at h'
    cases h' with
    | nil => cases hl
    | stop => cases hl; simp [cmdWord] at hw
    | other w ws s hw' h => cases hl; rw [cmdWord_other hw'] at hw; cases hw
    | shortFull o v ws s ho hv h =>
      simp only [List.cons.injEq] at hl; rw [hl.1, cmdWord_shortFull ho hv] at hw; cases hw
      obtain ⟨_, rfl⟩ := hl; rw [ih h]
    | shortOpen o v ws s ho h =>
      simp only [List.cons.injEq] at hl; rw [hl.1, cmdWord_shortOpen ho] at hw; cases hw
    | longFull o n v ws s ho hn h =>
      simp only [List.cons.injEq] at hl; rw [hl.1, cmdWord_longFull ho hn] at hw; cases hw
      obtain ⟨_, rfl⟩ := hl; rw [ih h]
    | longOpen o n v ws s ho hn h =>
      simp only [List.cons.injEq] at hl; rw [hl.1, cmdWord_longOpen ho hn] at hw; cases hw
  open_unique {w : List Char} {o : CmdOpt} {v : List Char} {ws : List (List Char)} {s s' : List (CmdOpt × List Char)}
      (hw : cmdWord w = .open o) (ih : ∀ {s'}, CmdGiven ws s' → s = s') (h' : CmdGiven (w :: v :: ws) s') :
      (o, v) :: s = s' := by
    generalize hl : w :: v :: ws = l at h'
    cases h' with
    | nil => cases hl
    | stop => cases hl; simp [cmdWord] at hw
    | other w ws s hw' h => cases hl; rw [cmdWord_other hw'] at hw; cases hw
    | shortFull o v ws s ho hv h =>
      simp only [List.cons.injEq] at hl; rw [hl.1, cmdWord_shortFull ho hv] at hw; cases hw
    | shortOpen o v ws s ho h =>
      simp only [List.cons.injEq] at hl; rw [hl.1, cmdWord_shortOpen ho] at hw; cases hw
      obtain ⟨_, rfl, rfl⟩ := hl; rw [ih h]
    | longFull o n v ws s ho hn h =>
      simp only [List.cons.injEq] at hl; rw [hl.1, cmdWord_longFull ho hn] at hw; cases hw
    | longOpen o n v ws s ho hn h =>
      simp only [List.cons.injEq] at hl; rw [hl.1, cmdWord_longOpen ho hn] at hw; cases hw
      obtain ⟨_, rfl, rfl⟩ := hl; rw [ih h]

/-- A command line can be read in one way only. -/
theorem C141_unambiguous (ws : List (List Char)) (s s' : List (CmdOpt × List Char)) (h : CmdGiven ws s)
    (h' : CmdGiven ws s') : s = s' := h.unique _ h'

/-- Words that are no options can be left out anywhere between options (before a `--`): the outcome is the same, so
such a word is ignored without a message. -/
theorem C141_words (c : CmdArgs) (w : List Char) (hw : w.head? ≠ some '-' ∨ w = ['-']) (ws vs : List (List Char))
    (s : List (CmdOpt × List Char)) (h : CmdGiven ws s) (hstop : ['-', '-'] ∉ ws) :
    parseCmd c (ws ++ w :: vs) = parseCmd c (ws ++ vs) := by
  induction h generalizing c with
  | nil => rw [List.nil_append, parseCmd, cmdWord_other hw]; rfl
  | stop ws => simp at hstop
  | other x ws s hx h ih =>
    rw [List.cons_append, List.cons_append, parseCmd, parseCmd, cmdWord_other hx]
    exact ih c (fun h => hstop (List.mem_cons_of_mem _ h))
  | shortFull o v ws s ho hv h ih =>
    rw [List.cons_append, List.cons_append, parseCmd, parseCmd, cmdWord_shortFull ho hv]
    simp only
    cases setOpt c o v <;> simp only
    exact ih _ (fun h => hstop (List.mem_cons_of_mem _ h))
  | shortOpen o v ws s ho h ih =>
    simp only [List.cons_append]
    rw [parseCmd.eq_def, parseCmd.eq_def c (_ :: _ :: (ws ++ vs))]
    simp only [cmdWord_shortOpen ho]
    cases setOpt c o v <;> simp only
    exact ih _ (fun h => hstop (List.mem_cons_of_mem _ (List.mem_cons_of_mem _ h)))
  | longFull o n v ws s ho hn h ih =>
    rw [List.cons_append, List.cons_append, parseCmd, parseCmd, cmdWord_longFull ho hn]
    simp only
    cases setOpt c o v <;> simp only
    exact ih _ (fun h => hstop (List.mem_cons_of_mem _ h))
  | longOpen o n v ws s ho hn h ih =>
    simp only [List.cons_append]
    rw [parseCmd.eq_def, parseCmd.eq_def c (_ :: _ :: (ws ++ vs))]
    simp only [cmdWord_longOpen ho hn]
    cases setOpt c o v <;> simp only
    exact ih _ (fun h => hstop (List.mem_cons_of_mem _ (List.mem_cons_of_mem _ h)))

/-- A run reads an ASCII, an HDF5 or a lattice file exactly for the types 0, 1 and 2, and an accepted command line
without `-m` reads an ASCII file. -/
theorem C141_reader (t : ℤ) : (microReader t = some .classic ↔ t = 0) ∧ (microReader t = some .hdf5 ↔ t = 1) ∧
    (microReader t = some .lattice ↔ t = 2) ∧ (microReader t = none ↔ t ≠ 0 ∧ t ≠ 1 ∧ t ≠ 2) := by
  unfold microReader
  refine ⟨⟨fun h => ?_, fun h => by simp [h]⟩, ⟨fun h => ?_, fun h => by simp [h]⟩, ⟨fun h => ?_, fun h => by simp [h]⟩,
    ⟨fun h => ?_, fun h => by simp [h]⟩⟩ <;> split_ifs at h <;> simp_all

/-- An accepted command line whose run reads an HDF5 file names the three datasets. -/
theorem C141_hdf5 (ws : List (List Char)) (c : CmdArgs) (h : parseCmd {} ws = .ok c)
    (hr : microReader c.micro = some .hdf5) : c.euler ≠ [] ∧ c.feature ≠ [] ∧ c.phase ≠ [] ∧ c.unit ≠ -1 := by
  obtain ⟨_, _, _, _, hc⟩ := (C141_accepts ws c).1 h
  exact hc.2 ((C141_reader _).2.1.1 hr)

/-- A word for the unit of the angles that does not begin with a number stands for degrees, even `radian`. -/
theorem C141_unit_word_fails (f e g p : List Char) (hf : f ≠ []) (he : e ≠ []) (hg : g ≠ []) (hp : p ≠ []) :
    parseCmd {} ["-f".toList, f, "-m".toList, "1".toList, "-e".toList, e, "-g".toList, g, "-p".toList, p,
      "-u".toList, "radian".toList] = .ok ⟨f, 1, e, g, p, 0⟩ := by
  have h1 : atoiC "1".toList = some 1 := by decide
  have h2 : atoiC "radian".toList = some 0 := by decide
  simp only [parseCmd, show cmdWord "-f".toList = .open .infile from rfl, show cmdWord "-m".toList = .open .micro from rfl,
    show cmdWord "-e".toList = .open .euler from rfl, show cmdWord "-g".toList = .open .feature from rfl,
    show cmdWord "-p".toList = .open .phase from rfl, show cmdWord "-u".toList = .open .unit from rfl, setOpt, h1, h2]
  exact checkCmd_ok _ ⟨hf, fun _ => ⟨he, hg, hp, (by decide : (0 : ℤ) ≠ -1)⟩⟩

/-- `-m hdf5` is accepted and reads the microstructure as an ASCII file, without the datasets being named. -/
theorem C141_type_word_fails (f : List Char) (hf : f ≠ []) :
    parseCmd {} ["-f".toList, f, "-m".toList, "hdf5".toList] = .ok ⟨f, 0, [], [], [], -1⟩ ∧
      microReader 0 = some .classic := by
  have h2 : atoiC "hdf5".toList = some 0 := by decide
  refine ⟨?_, rfl⟩
  simp only [parseCmd, show cmdWord "-f".toList = .open .infile from rfl, show cmdWord "-m".toList = .open .micro from rfl,
    setOpt, h2]
  exact checkCmd_ok _ ⟨hf, fun h => absurd h (by decide : ¬(0 : ℤ) = 1)⟩

/-- An option whose value is left out takes the next option as its value: `-f -m 1` is accepted with the input file
`-m` and an ASCII microstructure. -/
theorem C141_missing_value_fails :
    parseCmd {} ["-f".toList, "-m".toList, "1".toList] = .ok ⟨"-m".toList, 0, [], [], [], -1⟩ := by decide

/-- A type that no reader has is accepted on the command line; the run stops later, when the microstructure is read. -/
theorem C141_type_range_fails (f : List Char) (hf : f ≠ []) :
    parseCmd {} ["-f".toList, f, "-m".toList, "3".toList] = .ok ⟨f, 3, [], [], [], -1⟩ ∧ microReader 3 = none := by
  have h2 : atoiC "3".toList = some 3 := by decide
  refine ⟨?_, rfl⟩
  simp only [parseCmd, show cmdWord "-f".toList = .open .infile from rfl, show cmdWord "-m".toList = .open .micro from rfl,
    setOpt, h2]
  exact checkCmd_ok _ ⟨hf, fun h => absurd h (by decide : ¬(3 : ℤ) = 1)⟩

/-- The example of the help text, in mixed forms, with a word that is no option. -/
example : ∃ s, CmdGiven ["--infile=fft.in".toList, "out".toList, "-m1".toList, "--euler-a".toList, "/E".toList,
    "-g".toList, "/F".toList, "--phase-ids=/P".toList, "-u".toList, "1".toList] s ∧ NumbersFit s ∧
    CmdSays s ⟨"fft.in".toList, 1, "/E".toList, "/F".toList, "/P".toList, 1⟩ :=
  (C141_accepts _ _).1 (by decide) |>.imp fun _ h => ⟨h.1, h.2.1, h.2.2.1⟩

/-- `--e` fits two options and is refused. -/
example : parseCmd {} ["-f".toList, "fft.in".toList, "--e".toList, "/E".toList] = .help := by decide

/-- The help text is printed on request. -/
example : parseCmd {} ["-f".toList, "fft.in".toList, "--help".toList] = .help := by decide

/-- A number too large. -/
example : parseCmd {} ["-f".toList, "fft.in".toList, "-m".toList, "99999999999".toList] = .undef := by decide

end Fierro
