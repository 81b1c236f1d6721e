import Verif.Model.EvpDeck
import Verif.Proofs.CStream

/-!
# Reading a file line by line
-/

namespace Fierro

/-- Text of a line of an input file: data fields and a comment, or for a line without data anything. -/
def DeckLineText (F : NumConv) (fs : List (Kind × Val)) (cs : List Char) : Prop :=
  (fs = [] ∧ ∃ a, cs = a ++ ['\n'] ∧ '\n' ∉ a) ∨ (fs ≠ [] ∧ LineText F fs cs)

/-- Text of several lines. -/
inductive DeckText (F : NumConv) : List (List (Kind × Val)) → List Char → Prop
  | nil : DeckText F [] []
  | cons {fs a ls b} : DeckLineText F fs a → DeckText F ls b → DeckText F (fs :: ls) (a ++ b)

theorem DeckText.split {F : NumConv} {ls ls' : List (List (Kind × Val))} : ∀ {cs}, DeckText F (ls ++ ls') cs →
    ∃ a b, cs = a ++ b ∧ DeckText F ls a ∧ DeckText F ls' b := by
  induction ls with
  | nil => intro cs h; exact ⟨[], cs, rfl, .nil, h⟩
  | cons fs ls ih =>
    intro cs h
    cases h with
    | @cons _ a _ b h1 h2 =>
      obtain ⟨a', b', rfl, ha, hb⟩ := ih h2
      exact ⟨a ++ a', b', by simp, .cons h1 ha, hb⟩

theorem DeckText.append {F : NumConv} {ls ls' : List (List (Kind × Val))} {a b} (h : DeckText F ls a)
    (h' : DeckText F ls' b) : DeckText F (ls ++ ls') (a ++ b) := by
  induction h with
  | nil => exact h'
  | cons h1 _ ih => rw [List.append_assoc, List.cons_append]; exact .cons h1 ih

/-- The assignments made by lines. -/
def deckUpdates (ls : List (List (Kind × Var))) (fs : List (List (Kind × Val))) : List (Var × Val) :=
  (ls.zip fs).flatMap fun p => (p.1.map Prod.snd).zip (p.2.map Prod.snd)

/-- The variables after assignments. -/
def applyUpdates (us : List (Var × Val)) (env : Var → Option Val) : Var → Option Val :=
  us.foldl (fun e p => Function.update e p.1 (some p.2)) env

/-- The last assignment to a variable. -/
def lastUpdate (x : Var) : List (Var × Val) → Option Val
  | [] => none
  | p :: us => (lastUpdate x us).or (if x = p.1 then some p.2 else none)

theorem applyUpdates_apply (us : List (Var × Val)) : ∀ (env : Var → Option Val) (x : Var),
    applyUpdates us env x = (lastUpdate x us).or (env x) := by
  induction us with
  | nil => intro env x; simp [applyUpdates, lastUpdate]
  | cons p us ih =>
    intro env x
    have := ih (Function.update env p.1 (some p.2)) x
    unfold applyUpdates at this ⊢
    rw [List.foldl_cons, this]
    simp only [lastUpdate]
    by_cases h : x = p.1
    · subst h; simp [Option.or_assoc]
    · simp [h]

theorem applyUpdates_append (us vs : List (Var × Val)) (env : Var → Option Val) :
    applyUpdates (us ++ vs) env = applyUpdates vs (applyUpdates us env) := by
  simp [applyUpdates]

theorem run_deckLine (F : NumConv) {xs : List (Kind × Var)} {fs : List (Kind × Val)} {cs : List Char}
    (h : DeckLineText F fs cs) (hk : xs.map Prod.fst = fs.map Prod.fst) (env : Var → Option Val) (rest : List Char) :
    runIns F (lineIns xs) ⟨env, ⟨cs ++ rest, true⟩⟩ =
      ⟨applyUpdates ((xs.map Prod.snd).zip (fs.map Prod.snd)) env, ⟨rest, true⟩⟩ := by
  rcases h with ⟨rfl, a, rfl, ha⟩ | ⟨-, h⟩
  · obtain rfl : xs = [] := by simpa using hk
    simp only [lineIns, runIns, List.map_nil, List.nil_append, List.foldl_cons, List.foldl_nil, Ins.step]
    rw [show a ++ ['\n'] ++ rest = a ++ '\n' :: rest by simp, clearLine_line a rest ha]
    rfl
  · have hl : (xs.map Prod.snd).length = fs.length := by simpa using congrArg List.length hk
    have := run_line F h (xs.map Prod.snd) env rest hl
    have e1 : (((xs.map Prod.snd).zip fs).map fun p => Ins.get p.2.1 p.1) = xs.map fun x => Ins.get x.1 x.2 := by
      clear this hl h
      induction xs generalizing fs with
      | nil => simp
      | cons x xs ih =>
        cases fs with
        | nil => simp at hk
        | cons f fs =>
          simp only [List.map_cons, List.cons.injEq] at hk
          simp only [List.map_cons, List.zip_cons_cons, ih hk.2, hk.1]
    have e2 : ((xs.map Prod.snd).zip fs).foldl (fun (e : Var → Option Val) p => Function.update e p.1 (some p.2.2)) env =
        applyUpdates ((xs.map Prod.snd).zip (fs.map Prod.snd)) env := by
      unfold applyUpdates
      rw [List.zip_map_right, List.foldl_map]
      rfl
    rw [lineIns, ← e1, this, e2]

/-- Reading lines of the right shape: every variable gets its field, and the file stands behind the last line. -/
theorem run_deckLines (F : NumConv) {fs : List (List (Kind × Val))} {cs : List Char} (h : DeckText F fs cs) :
    ∀ (ls : List (List (Kind × Var))), ls.map (List.map Prod.fst) = fs.map (List.map Prod.fst) →
    ∀ (env : Var → Option Val) (rest : List Char), runIns F (linesIns ls) ⟨env, ⟨cs ++ rest, true⟩⟩ =
      ⟨applyUpdates (deckUpdates ls fs) env, ⟨rest, true⟩⟩ := by
  induction h with
  | nil =>
    intro ls hk env rest
    obtain rfl : ls = [] := by simpa using hk
    rfl
  | @cons fs a fss b h1 h2 ih =>
    intro ls hk env rest
    cases ls with
    | nil => simp at hk
    | cons xs ls =>
      simp only [List.map_cons, List.cons.injEq] at hk
      rw [linesIns, List.flatMap_cons, runIns_append, List.append_assoc, run_deckLine F h1 hk.1]
      rw [show ls.flatMap lineIns = linesIns ls from rfl, ih ls hk.2]
      simp only [deckUpdates, List.zip_cons_cons, List.flatMap_cons]
      rw [applyUpdates_append]

theorem collectFn_eq {n : ℕ} {α : Type} {f : Fin n → Option α} {g : Fin n → α} (h : ∀ i, f i = some (g i)) :
    collectFn f = some g := by
  unfold collectFn
  rw [dif_pos (by intro i; rw [h i]; rfl)]
  congr 1
  funext i
  simp [h i]

end Fierro
