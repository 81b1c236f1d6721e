import Verif.Model.EvpGrains
import Verif.Proofs.CStream
import Verif.Proofs.Memory
import Mathlib.Tactic.Linarith
import Mathlib.Tactic.NormNum
import Mathlib.Tactic.FieldSimp
import Mathlib.Analysis.SpecialFunctions.Trigonometric.Basic

/-!
# EVPFFT: the microstructure files (C118)
-/

namespace Fierro

/-- The box lies in the grid. -/
def RankBox.Inside (b : RankBox) (n1 n2 n3 : ℕ) : Prop := b.stop 0 < n1 ∧ b.stop 1 < n2 ∧ b.stop 2 < n3

/-- A row of the text format: three angles, three subscripts, grain and phase. -/
structure TextRow where
  ph : ℝ
  th : ℝ
  om : ℝ
  ix : ℤ × ℤ × ℤ
  jgr : ℤ
  jph : ℤ

/-- Its fields. -/
def TextRow.fields (r : TextRow) : List (Kind × Val) :=
  [(.real, .real r.ph), (.real, .real r.th), (.real, .real r.om), (.int, .int r.ix.1), (.int, .int r.ix.2.1),
   (.int, .int r.ix.2.2), (.int, .int r.jgr), (.int, .int r.jph)]

/-- What a point with this row has to get. -/
def TextRow.stored (r : TextRow) : GrainRow :=
  ⟨some (.real r.ph), some (.real r.th), some (.real r.om), some (.int r.jgr), some (.int r.jph)⟩

/-! ### The loops -/

theorem gridOrder_get {n1 n2 n3 a b c : ℕ} (ha : a < n1) (hb : b < n2) (hc : c < n3) :
    (gridOrder n1 n2 n3)[a + n1 * (b + n2 * c)]? = some (a, b, c) := by
  unfold gridOrder
  have l1 : ∀ b c : ℕ, ((List.range n1).flatMap fun ii => [(ii, b, c)]).length = n1 := by
    intro b c; rw [List.length_flatMap]; simp
  have l2 : ∀ c : ℕ, ((List.range n2).flatMap fun jj => (List.range n1).flatMap fun ii => [(ii, jj, c)]).length =
      n1 * n2 := by
    intro c; rw [List.length_flatMap]; simp [l1]; ring
  have h2 : a + n1 * b < n1 * n2 := by nlinarith
  rw [show a + n1 * (b + n2 * c) = (a + n1 * b) + n1 * n2 * c by ring,
    flatMap_getElem? _ _ _ (fun c _ => l2 c) _ _ h2, List.getElem?_range hc, Option.bind_some,
    flatMap_getElem? _ _ _ (fun b _ => l1 b c) _ _ ha, List.getElem?_range hb, Option.bind_some]
  have := flatMap_getElem? (List.range n1) (fun ii => [(ii, b, c)]) 1 (fun _ _ => rfl) 0 a (by omega)
  rw [zero_add, one_mul] at this
  rw [this, List.getElem?_range ha]
  rfl

theorem gridOrder_length (n1 n2 n3 : ℕ) : (gridOrder n1 n2 n3).length = n1 * n2 * n3 := by
  unfold gridOrder
  simp [List.length_flatMap]
  ring

theorem mem_gridOrder {n1 n2 n3 : ℕ} {p : ℕ × ℕ × ℕ} :
    p ∈ gridOrder n1 n2 n3 ↔ p.1 < n1 ∧ p.2.1 < n2 ∧ p.2.2 < n3 := by
  obtain ⟨a, b, c⟩ := p
  simp only [gridOrder, List.mem_flatMap, List.mem_range, List.mem_singleton, Prod.mk.injEq]
  constructor
  · rintro ⟨k, hk, j, hj, i, hi, rfl, rfl, rfl⟩; exact ⟨hi, hj, hk⟩
  · rintro ⟨h1, h2, h3⟩; exact ⟨c, h3, b, h2, a, h1, rfl, rfl, rfl⟩

theorem gridOrder_inj {n1 n2 n3 i j : ℕ} {p : ℕ × ℕ × ℕ} (hi : (gridOrder n1 n2 n3)[i]? = some p)
    (hj : (gridOrder n1 n2 n3)[j]? = some p) : i = j := by
  have key : ∀ i, (gridOrder n1 n2 n3)[i]? = some p → i = p.1 + n1 * (p.2.1 + n2 * p.2.2) := by
    intro i hi
    have hl : i < n1 * n2 * n3 := by
      rw [← gridOrder_length]; exact (List.getElem?_eq_some_iff.mp hi).1
    have hn1 : 0 < n1 := by
      rcases Nat.eq_zero_or_pos n1 with h | h
      · subst h; simp at hl
      · exact h
    have hn2 : 0 < n2 := by
      rcases Nat.eq_zero_or_pos n2 with h | h
      · subst h; simp at hl
      · exact h
    have hc : i / n1 / n2 < n3 := by
      rw [Nat.div_div_eq_div_mul]; exact Nat.div_lt_of_lt_mul hl
    have e : i % n1 + n1 * (i / n1 % n2 + n2 * (i / n1 / n2)) = i := by
      rw [Nat.mod_add_div, Nat.mod_add_div]
    have := gridOrder_get (n3 := n3) (Nat.mod_lt i hn1) (Nat.mod_lt (i / n1) hn2) hc
    rw [e, hi] at this
    have hp := Option.some.inj this
    rw [hp]; exact e.symm
  rw [key i hi, key j hj]

theorem RankBox.loc_inj (b : RankBox) {p q : ℕ × ℕ × ℕ} (hp : b.has p = true) (hq : b.has q = true)
    (h : b.loc p = b.loc q) : p = q := by
  obtain ⟨p1, p2, p3⟩ := p
  obtain ⟨q1, q2, q3⟩ := q
  simp only [RankBox.has, decide_eq_true_eq] at hp hq
  simp only [RankBox.loc, Prod.mk.injEq] at h ⊢
  omega

/-- Rows kept by a rank. -/
def keep (b : RankBox) (l : List ((ℕ × ℕ × ℕ) × GrainRow)) : List ((ℕ × ℕ × ℕ) × GrainRow) :=
  l.flatMap fun e => if b.has e.1 then [(b.loc e.1, e.2)] else []

theorem writeAll_keep (b : RankBox) (n1 n2 n3 : ℕ) (rows : List GrainRow) (hr : n1 * n2 * n3 ≤ rows.length)
    {p : ℕ × ℕ × ℕ} (hp : p.1 < n1 ∧ p.2.1 < n2 ∧ p.2.2 < n3) (hb : b.has p = true) :
    Mem.writeAll (keep b ((gridOrder n1 n2 n3).zip rows)) Mem.empty (b.loc p) =
      rows[p.1 + n1 * (p.2.1 + n2 * p.2.2)]? := by
  have hg := gridOrder_get (n1 := n1) (n2 := n2) (n3 := n3) hp.1 hp.2.1 hp.2.2
  obtain ⟨hl, -⟩ := List.getElem?_eq_some_iff.mp hg
  rw [gridOrder_length] at hl
  have hrow : rows[p.1 + n1 * (p.2.1 + n2 * p.2.2)]? = some (rows[p.1 + n1 * (p.2.1 + n2 * p.2.2)]'(by omega)) :=
    List.getElem?_eq_getElem _
  rw [hrow]
  have hz : ∀ (q : ℕ × ℕ × ℕ) (r : GrainRow), (q, r) ∈ (gridOrder n1 n2 n3).zip rows ↔
      ∃ i : ℕ, (gridOrder n1 n2 n3)[i]? = some q ∧ rows[i]? = some r := by
    intro q r
    rw [List.mem_iff_getElem?]
    refine exists_congr fun i => ?_
    rw [List.getElem?_zip_eq_some]
  refine Mem.writeAll_of_mem _ _ _ _ ?_ ?_
  · refine List.mem_flatMap.mpr ⟨(p, _), (hz _ _).mpr ⟨_, hg, hrow⟩, ?_⟩
    rw [if_pos hb]; exact List.mem_singleton.mpr rfl
  · intro r' h'
    obtain ⟨⟨q, r⟩, hq, hm⟩ := List.mem_flatMap.mp h'
    split_ifs at hm with hbq
    · have e := List.mem_singleton.mp hm
      simp only [Prod.mk.injEq] at e
      obtain ⟨e1, rfl⟩ := e
      have := b.loc_inj hb hbq e1
      subst this
      obtain ⟨i, hi, hri⟩ := (hz _ _).mp hq
      have := gridOrder_inj hi hg
      subst this
      rw [hrow] at hri
      exact (Option.some.inj hri).symm
    · simp at hm

theorem writeAll_keep_none (b : RankBox) (n1 n2 n3 : ℕ) (rows : List GrainRow) (key : ℕ × ℕ × ℕ)
    (h : ∀ p : ℕ × ℕ × ℕ, b.has p = true → b.loc p ≠ key) :
    Mem.writeAll (keep b ((gridOrder n1 n2 n3).zip rows)) Mem.empty key = none := by
  rw [Mem.writeAll_of_notMem]
  · rfl
  · intro v hv
    obtain ⟨⟨q, r⟩, -, hm⟩ := List.mem_flatMap.mp hv
    split_ifs at hm with hbq
    · have e := List.mem_singleton.mp hm
      simp only [Prod.mk.injEq] at e
      exact h q hbq e.1.symm
    · simp at hm

/-! ### The text format -/

theorem classic_step (F : NumConv) (r : TextRow) (cs : List Char) (h : LineText F r.fields cs) (env : Var → Option Val)
    (rest : List Char) : ∃ env', runIns F classicRow ⟨env, ⟨cs ++ rest, true⟩⟩ = ⟨env', ⟨rest, true⟩⟩ ∧
      GrainRow.ofEnv env' = r.stored := by
  have := run_line F h [("ph", []), ("th", []), ("om", []), ("iiii", []), ("jjjj", []), ("kkkk", []), ("jgr", []),
    ("jph", [])] env rest rfl
  refine ⟨_, this, ?_⟩
  simp [GrainRow.ofEnv, TextRow.fields, TextRow.stored, Function.update_apply]

theorem classicLoop_rows (F : NumConv) (b : RankBox) : ∀ (ps : List (ℕ × ℕ × ℕ)) (rows : List TextRow)
    (texts : List (List Char)) (rest : List Char) (env : Var → Option Val),
    List.Forall₂ (fun r cs => LineText F r.fields cs) rows texts → ps.length ≤ rows.length →
    classicLoop F b ps ⟨env, ⟨texts.flatten ++ rest, true⟩⟩ = keep b (ps.zip (rows.map TextRow.stored)) := by
  intro ps
  induction ps with
  | nil => intro rows texts rest env _ _; simp [classicLoop, keep]
  | cons p ps ih =>
    intro rows texts rest env h hl
    cases h with
    | nil => simp at hl
    | @cons r cs rows texts hr hs =>
      simp only [List.length_cons, Nat.add_le_add_iff_right] at hl
      obtain ⟨env', he, hst⟩ := classic_step F r cs hr env (texts.flatten ++ rest)
      simp only [classicLoop, List.flatten_cons, List.append_assoc]
      rw [he, ih rows texts rest env' hs hl]
      simp only [keep, List.map_cons, List.zip_cons_cons, List.flatMap_cons, hst]

/-- **C118.** The text format: if the file consists of one line for each point of the grid, the first direction
fastest, with any white space between the fields and any comments behind them, then every rank stores at each of its
points the angles, grain and phase of that point's line, whatever box of the grid it owns; nothing is stored outside
its arrays. -/
theorem C118_text (F : NumConv) (b : RankBox) (n1 n2 n3 : ℕ) (rows : List TextRow) (texts : List (List Char))
    (rest : List Char) (h : List.Forall₂ (fun r cs => LineText F r.fields cs) rows texts)
    (hn : rows.length = n1 * n2 * n3) (hb : b.Inside n1 n2 n3) :
    (∀ i j k, b.start 0 + i ≤ b.stop 0 → b.start 1 + j ≤ b.stop 1 → b.start 2 + k ≤ b.stop 2 →
      readClassic F b n1 n2 n3 (texts.flatten ++ rest) (i + 1, j + 1, k + 1) =
        (rows[(b.start 0 + i) + n1 * ((b.start 1 + j) + n2 * (b.start 2 + k))]?).map TextRow.stored) ∧
    ∀ i j k, (i = 0 ∨ b.stop 0 < b.start 0 + i - 1 ∨ j = 0 ∨ b.stop 1 < b.start 1 + j - 1 ∨ k = 0 ∨
      b.stop 2 < b.start 2 + k - 1) → readClassic F b n1 n2 n3 (texts.flatten ++ rest) (i, j, k) = none := by
  obtain ⟨hb1, hb2, hb3⟩ := hb
  unfold readClassic
  rw [classicLoop_rows F b _ rows texts rest _ h (by rw [gridOrder_length, hn])]
  refine ⟨fun i j k hi hj hk => ?_, fun i j k hout => ?_⟩
  · have := writeAll_keep b n1 n2 n3 (rows.map TextRow.stored) (by simp [hn])
      (p := (b.start 0 + i, b.start 1 + j, b.start 2 + k)) ⟨by dsimp only; omega, by dsimp only; omega, by dsimp only; omega⟩
      (by simp only [RankBox.has, decide_eq_true_eq]; omega)
    rw [List.getElem?_map] at this
    rw [← this]
    simp [RankBox.loc]
  · refine writeAll_keep_none b n1 n2 n3 _ _ fun p hp hloc => ?_
    simp only [RankBox.has, decide_eq_true_eq] at hp
    simp only [RankBox.loc, Prod.mk.injEq] at hloc
    omega

/-- What a row leaves in the variables, starting from what they held. -/
def lastRow (env : Var → Option Val) (rows : List TextRow) : GrainRow :=
  (rows.getLast?.map TextRow.stored).getD (GrainRow.ofEnv env)

theorem classicRow_end (F : NumConv) (env : Var → Option Val) (ws : List Char) (good : Bool)
    (h : good = true → ∀ c ∈ ws, cSpace c = true) :
    ∃ cs, runIns F classicRow ⟨env, ⟨ws, good⟩⟩ = ⟨env, ⟨cs, false⟩⟩ := by
  cases good with
  | false => exact ⟨ws, runIns_failed F _ env ws⟩
  | true =>
    refine ⟨[], ?_⟩
    have h1 := get_end (F.ext .real) ws (h rfl) (env ("ph", []))
    have e : Ins.step F ⟨env, ⟨ws, true⟩⟩ (.get .real ("ph", [])) = ⟨env, ⟨[], false⟩⟩ := by
      simp only [Ins.step, h1, Function.update_eq_self]
    have h2 := runIns_failed F classicRow.tail env []
    unfold runIns at h2 ⊢
    conv_lhs => rw [show classicRow = .get .real ("ph", []) :: classicRow.tail from rfl, List.foldl_cons, e]
    exact h2

theorem classicLoop_end (F : NumConv) (b : RankBox) (env : Var → Option Val) : ∀ (ps : List (ℕ × ℕ × ℕ))
    (ws : List Char) (good : Bool), (good = true → ∀ c ∈ ws, cSpace c = true) →
    classicLoop F b ps ⟨env, ⟨ws, good⟩⟩ = keep b (ps.zip (List.replicate ps.length (GrainRow.ofEnv env))) := by
  intro ps
  induction ps with
  | nil => intro ws good _; simp [classicLoop, keep]
  | cons p ps ih =>
    intro ws good h
    obtain ⟨cs, he⟩ := classicRow_end F env ws good h
    simp only [classicLoop]
    rw [he, ih cs false (by simp)]
    simp only [keep, List.length_cons, List.replicate_succ, List.zip_cons_cons, List.flatMap_cons]

theorem classicLoop_short (F : NumConv) (b : RankBox) : ∀ (ps : List (ℕ × ℕ × ℕ)) (rows : List TextRow)
    (texts : List (List Char)) (rest : List Char) (env : Var → Option Val),
    List.Forall₂ (fun r cs => LineText F r.fields cs) rows texts → rows.length ≤ ps.length →
    (∀ c ∈ rest, cSpace c = true) →
    classicLoop F b ps ⟨env, ⟨texts.flatten ++ rest, true⟩⟩ =
      keep b (ps.zip (rows.map TextRow.stored ++ List.replicate (ps.length - rows.length) (lastRow env rows))) := by
  intro ps
  induction ps with
  | nil =>
    intro rows texts rest env h hl _
    cases h with
    | nil => simp [classicLoop, keep]
    | cons _ _ => simp at hl
  | cons p ps ih =>
    intro rows texts rest env h hl hws
    cases h with
    | nil =>
      have := classicLoop_end F b env (p :: ps) rest true (fun _ => hws)
      simpa [lastRow] using this
    | @cons r cs rows texts hr hs =>
      simp only [List.length_cons, Nat.add_le_add_iff_right] at hl
      obtain ⟨env', he, hst⟩ := classic_step F r cs hr env (texts.flatten ++ rest)
      simp only [classicLoop, List.flatten_cons, List.append_assoc]
      rw [he, ih rows texts rest env' hs hl hws]
      have hlast : lastRow env' rows = lastRow env (r :: rows) := by
        unfold lastRow
        cases rows with
        | nil => simp [hst]
        | cons r' rows => simp [List.getLast?_cons]
      simp only [keep, List.map_cons, List.cons_append, List.zip_cons_cons, List.flatMap_cons, hst, hlast,
        List.length_cons, Nat.add_sub_add_right]

/-- **C118 (short file).** *Fails in the code*: a file with too few lines is accepted without a word, and every point
beyond its end gets the values of the last line. -/
theorem C118_short_fails (F : NumConv) (b : RankBox) (n1 n2 n3 : ℕ) (rows : List TextRow) (texts : List (List Char))
    (rest : List Char) (h : List.Forall₂ (fun r cs => LineText F r.fields cs) rows texts)
    (hn : rows.length ≤ n1 * n2 * n3) (hws : ∀ c ∈ rest, cSpace c = true) (r : TextRow) (hr : rows.getLast? = some r)
    (hb : b.Inside n1 n2 n3) (i j k : ℕ) (hi : b.start 0 + i ≤ b.stop 0) (hj : b.start 1 + j ≤ b.stop 1)
    (hk : b.start 2 + k ≤ b.stop 2)
    (hm : rows.length ≤ (b.start 0 + i) + n1 * ((b.start 1 + j) + n2 * (b.start 2 + k))) :
    readClassic F b n1 n2 n3 (texts.flatten ++ rest) (i + 1, j + 1, k + 1) = some r.stored := by
  obtain ⟨hb1, hb2, hb3⟩ := hb
  unfold readClassic
  rw [classicLoop_short F b _ rows texts rest _ h (by rw [gridOrder_length]; exact hn) hws, gridOrder_length]
  have hp : (b.start 0 + i) < n1 ∧ (b.start 1 + j) < n2 ∧ (b.start 2 + k) < n3 := ⟨by omega, by omega, by omega⟩
  have := writeAll_keep b n1 n2 n3
    (rows.map TextRow.stored ++ List.replicate (n1 * n2 * n3 - rows.length) (lastRow (fun _ => none) rows))
    (by simp; omega) (p := (b.start 0 + i, b.start 1 + j, b.start 2 + k)) hp
    (by simp only [RankBox.has, decide_eq_true_eq]; omega)
  have hlt := (List.getElem?_eq_some_iff.mp (gridOrder_get hp.1 hp.2.1 hp.2.2)).1
  rw [gridOrder_length] at hlt
  simp only [RankBox.loc, Nat.add_sub_cancel_left] at this
  rw [this, List.getElem?_append_right (by simpa using hm), List.length_map, List.getElem?_replicate,
    if_pos (by omega)]
  simp [lastRow, hr]

/-- **C118 (subscripts).** *Fails in the code*: the three subscripts of a line play no role, only its place in the file
does.  In a grid of two points a file whose first line is that of the second point swaps the two points. -/
theorem C118_subscripts_fails (F : NumConv) (r1 r2 : TextRow) (t1 t2 : List Char) (h1 : LineText F r1.fields t1)
    (h2 : LineText F r2.fields t2) (_i1 : r1.ix = (2, 1, 1)) (_i2 : r2.ix = (1, 1, 1)) :
    readClassic F ⟨fun _ => 0, ![1, 0, 0]⟩ 2 1 1 (t1 ++ t2) (1, 1, 1) = some r1.stored ∧
    readClassic F ⟨fun _ => 0, ![1, 0, 0]⟩ 2 1 1 (t1 ++ t2) (2, 1, 1) = some r2.stored := by
  have := (C118_text F ⟨fun _ => 0, ![1, 0, 0]⟩ 2 1 1 [r1, r2] [t1, t2] [] (.cons h1 (.cons h2 .nil)) rfl
    ⟨by simp, by simp, by simp⟩).1
  refine ⟨?_, ?_⟩
  · simpa using this 0 0 0 (by simp) (by simp) (by simp)
  · simpa using this 1 0 0 (by simp) (by simp) (by simp)

/-! ### Lattices -/

theorem getline_line (line rest : List Char) (h : '\n' ∉ line) :
    CStream.getline ⟨line ++ '\n' :: rest, true⟩ = (some line, ⟨rest, true⟩) := by
  unfold CStream.getline
  rw [if_pos ⟨rfl, by simp⟩]
  have h1 : (line ++ '\n' :: rest).takeWhile (· ≠ '\n') = line := by
    rw [List.takeWhile_append_of_pos (by
      intro c hc; simp only [ne_eq, decide_not, Bool.not_eq_eq_eq_not, Bool.not_true, decide_eq_false_iff_not]
      rintro rfl; exact h hc)]
    simp
  have h2 : (line ++ '\n' :: rest).dropWhile (· ≠ '\n') = '\n' :: rest := by
    rw [List.dropWhile_append_of_pos (by
      intro c hc; simp only [ne_eq, decide_not, Bool.not_eq_eq_eq_not, Bool.not_true, decide_eq_false_iff_not]
      rintro rfl; exact h hc)]
    simp
  simp only [h1, h2, List.tail_cons]

/-- The text of lines. -/
def linesText (ls : List (List Char)) : List Char := ls.flatMap fun l => l ++ ['\n']

theorem skipToTable_found : ∀ (ls : List (List Char)) (body : List Char) (fuel : ℕ),
    (∀ l ∈ ls, '\n' ∉ l ∧ l ≠ "LOOKUP_TABLE default".toList) → ls.length < fuel →
    skipToTable fuel ⟨linesText ls ++ ("LOOKUP_TABLE default".toList ++ '\n' :: body), true⟩ = ⟨body, true⟩ := by
  intro ls
  induction ls with
  | nil =>
    intro body fuel _ hf
    obtain ⟨f, rfl⟩ : ∃ f, fuel = f + 1 := ⟨fuel - 1, by simp at hf; omega⟩
    simp only [skipToTable, linesText, List.flatMap_nil, List.nil_append]
    rw [getline_line _ _ (by decide)]
    simp
  | cons l ls ih =>
    intro body fuel h hf
    obtain ⟨f, rfl⟩ : ∃ f, fuel = f + 1 := ⟨fuel - 1, by simp at hf; omega⟩
    have hl := h l (by simp)
    simp only [skipToTable, linesText, List.flatMap_cons]
    rw [show l ++ ['\n'] ++ (ls.flatMap fun l => l ++ ['\n']) ++ ("LOOKUP_TABLE default".toList ++ '\n' :: body) =
      l ++ '\n' :: (linesText ls ++ ("LOOKUP_TABLE default".toList ++ '\n' :: body)) by simp [linesText]]
    rw [getline_line _ _ hl.1]
    simp only [hl.2, if_false]
    exact ih body f (fun l hl => h l (by simp [hl])) (by simp at hf; omega)

theorem skipToTable_missing : ∀ (ls : List (List Char)) (fuel : ℕ),
    (∀ l ∈ ls, '\n' ∉ l ∧ l ≠ "LOOKUP_TABLE default".toList) → ls.length < fuel →
    skipToTable fuel ⟨linesText ls, true⟩ = ⟨[], false⟩ := by
  intro ls
  induction ls with
  | nil =>
    intro fuel _ hf
    obtain ⟨f, rfl⟩ : ∃ f, fuel = f + 1 := ⟨fuel - 1, by simp at hf; omega⟩
    simp [skipToTable, linesText, CStream.getline]
  | cons l ls ih =>
    intro fuel h hf
    obtain ⟨f, rfl⟩ : ∃ f, fuel = f + 1 := ⟨fuel - 1, by simp at hf; omega⟩
    have hl := h l (by simp)
    simp only [skipToTable]
    rw [show linesText (l :: ls) = l ++ '\n' :: linesText ls by simp [linesText], getline_line _ _ hl.1]
    simp only [hl.2, if_false]
    exact ih f (fun l hl => h l (by simp [hl])) (by simp at hf; omega)

theorem linesText_length (ls : List (List Char)) : ls.length ≤ (linesText ls).length := by
  induction ls with
  | nil => simp
  | cons l ls ih => simp only [linesText, List.flatMap_cons, List.length_append, List.length_cons] at ih ⊢; omega

/-- What a point with the number `n` of a lattice has to get. -/
def latticeStored (n : ℕ) : GrainRow :=
  ⟨some (.real 0), some (.real 0), some (.real 0), some (.int (n + 1)), some (.int (n + 1))⟩

theorem latticeRow_nat (n : ℕ) : latticeRow (some (.real n)) = latticeStored n := by
  have : latticeTrunc ((n : ℝ) + 1) = (n : ℤ) + 1 := by
    unfold latticeTrunc
    rw [if_pos (by positivity), Int.floor_eq_iff]
    push_cast
    constructor <;> linarith
  simp only [latticeRow, latticeStored, this]

theorem latticeLoop_rows (F : NumConv) (b : RankBox) : ∀ (ps : List (ℕ × ℕ × ℕ)) (ns : List ℕ) (cs rest : List Char)
    (env : Var → Option Val), FieldsText F (ns.map fun n => (.real, .real (n : ℝ))) cs → SepStart rest →
    ps.length ≤ ns.length →
    latticeLoop F b ps ⟨env, ⟨cs ++ rest, true⟩⟩ = keep b (ps.zip (ns.map latticeStored)) := by
  intro ps
  induction ps with
  | nil => intro ns cs rest env _ _ _; simp [latticeLoop, keep]
  | cons p ps ih =>
    intro ns cs rest env h hr hl
    cases ns with
    | nil => simp at hl
    | cons n ns =>
      simp only [List.length_cons, Nat.add_le_add_iff_right] at hl
      cases h with
      | @cons _ _ _ w t cs hw ht hs hf =>
        have hg := get_reads ht (w := w) (rest := cs ++ rest) hw (sepStart_append hs hr) (env ("grid_value", []))
        simp only [latticeLoop, runIns, List.foldl_cons, List.foldl_nil, Ins.step]
        rw [show w ++ t ++ cs ++ rest = w ++ t ++ (cs ++ rest) by simp, hg]
        simp only [Function.update_self]
        rw [ih ns cs rest _ hf hr hl, latticeRow_nat]
        simp only [keep, List.map_cons, List.zip_cons_cons, List.flatMap_cons]

/-- **C118.** The lattice format: behind the line `LOOKUP_TABLE default` the numbers of the points in the order of the
grid give each point its grain and its phase, both one more than its number, with all angles zero, on every rank. -/
theorem C118_lattice (F : NumConv) (b : RankBox) (n1 n2 n3 : ℕ) (head : List (List Char)) (ns : List ℕ)
    (body rest : List Char) (hh : ∀ l ∈ head, '\n' ∉ l ∧ l ≠ "LOOKUP_TABLE default".toList)
    (h : FieldsText F (ns.map fun n => (.real, .real (n : ℝ))) body) (hr : SepStart rest)
    (hn : ns.length = n1 * n2 * n3) (hb : b.Inside n1 n2 n3) (i j k : ℕ) (hi : b.start 0 + i ≤ b.stop 0)
    (hj : b.start 1 + j ≤ b.stop 1) (hk : b.start 2 + k ≤ b.stop 2) :
    readLattice F b n1 n2 n3 (linesText head ++ ("LOOKUP_TABLE default".toList ++ '\n' :: (body ++ rest)))
      (i + 1, j + 1, k + 1) =
      (ns[(b.start 0 + i) + n1 * ((b.start 1 + j) + n2 * (b.start 2 + k))]?).map latticeStored := by
  obtain ⟨hb1, hb2, hb3⟩ := hb
  unfold readLattice
  rw [skipToTable_found head _ _ hh (by
    have := linesText_length head
    simp only [List.length_append]; omega)]
  rw [latticeLoop_rows F b _ ns body rest _ h hr (by rw [gridOrder_length, hn])]
  have := writeAll_keep b n1 n2 n3 (ns.map latticeStored) (by simp [hn])
    (p := (b.start 0 + i, b.start 1 + j, b.start 2 + k)) ⟨by dsimp only; omega, by dsimp only; omega,
      by dsimp only; omega⟩ (by simp only [RankBox.has, decide_eq_true_eq]; omega)
  rw [List.getElem?_map] at this
  rw [← this]
  simp [RankBox.loc]

theorem latticeLoop_failed (F : NumConv) (b : RankBox) (env : Var → Option Val) (cs : List Char) :
    ∀ ps, latticeLoop F b ps ⟨env, ⟨cs, false⟩⟩ =
      keep b (ps.zip (List.replicate ps.length (latticeRow (env ("grid_value", []))))) := by
  intro ps
  induction ps with
  | nil => simp [latticeLoop, keep]
  | cons p ps ih =>
    simp only [latticeLoop, runIns_failed, ih, keep, List.length_cons, List.replicate_succ, List.zip_cons_cons,
      List.flatMap_cons]

/-- **C118 (lattice).** *Fails in the code* when no line is exactly `LOOKUP_TABLE default` (a blank or a carriage return
at its end is enough): the file is accepted, and grain and phase of every point come from a variable that was never
set. -/
theorem C118_lattice_fails (F : NumConv) (b : RankBox) (n1 n2 n3 : ℕ) (ls : List (List Char))
    (hh : ∀ l ∈ ls, '\n' ∉ l ∧ l ≠ "LOOKUP_TABLE default".toList) (hb : b.Inside n1 n2 n3) (i j k : ℕ)
    (hi : b.start 0 + i ≤ b.stop 0) (hj : b.start 1 + j ≤ b.stop 1) (hk : b.start 2 + k ≤ b.stop 2) :
    ∃ r, readLattice F b n1 n2 n3 (linesText ls) (i + 1, j + 1, k + 1) = some r ∧ r.jgr = none ∧ r.jph = none := by
  obtain ⟨hb1, hb2, hb3⟩ := hb
  unfold readLattice
  rw [skipToTable_missing ls _ hh (by have := linesText_length ls; omega), latticeLoop_failed, gridOrder_length]
  have hp : (b.start 0 + i) < n1 ∧ (b.start 1 + j) < n2 ∧ (b.start 2 + k) < n3 := ⟨by omega, by omega, by omega⟩
  have := writeAll_keep b n1 n2 n3 (List.replicate (n1 * n2 * n3) (latticeRow none)) (by simp)
    (p := (b.start 0 + i, b.start 1 + j, b.start 2 + k)) hp
    (by simp only [RankBox.has, decide_eq_true_eq]; omega)
  have hlt := (List.getElem?_eq_some_iff.mp (gridOrder_get hp.1 hp.2.1 hp.2.2)).1
  rw [gridOrder_length] at hlt
  simp only [RankBox.loc, Nat.add_sub_cancel_left] at this
  exact ⟨latticeRow none, by rw [this, List.getElem?_replicate, if_pos hlt], rfl, rfl⟩

/-! ### HDF5 -/

theorem hyperslab_length {α : Type} : ∀ (ss ns : List ℕ) (D : List ℕ → α), ss.length = ns.length →
    (hyperslab ss ns D).length = ns.prod := by
  intro ss
  induction ss with
  | nil => intro ns D h; cases ns <;> simp_all [hyperslab]
  | cons s ss ih =>
    intro ns D h
    cases ns with
    | nil => simp at h
    | cons n ns =>
      simp only [hyperslab, List.length_flatMap, List.prod_cons]
      have := fun i => ih ns (fun ix => D ((s + i) :: ix)) (by simpa using h)
      simp [this]

theorem hyperslab_get {α : Type} (s n : ℕ) (ss ns : List ℕ) (D : List ℕ → α) (h : ss.length = ns.length) {i m : ℕ}
    (hi : i < n) (hm : m < ns.prod) :
    (hyperslab (s :: ss) (n :: ns) D)[m + ns.prod * i]? = (hyperslab ss ns fun ix => D ((s + i) :: ix))[m]? := by
  simp only [hyperslab]
  rw [flatMap_getElem? _ _ ns.prod (fun i _ => hyperslab_length ss ns _ h) _ _ hm, List.getElem?_range hi,
    Option.bind_some]

theorem hyperslab3 {α : Type} (s3 s2 s1 n3 n2 n1 : ℕ) (D : List ℕ → α) {i j k : ℕ} (hi : i < n1) (hj : j < n2)
    (hk : k < n3) : (hyperslab [s3, s2, s1] [n3, n2, n1] D)[i + n1 * (j + n2 * k)]? =
      some (D [s3 + k, s2 + j, s1 + i]) := by
  have h2 : i + n1 * j < n1 * n2 := by nlinarith
  have e1 := hyperslab_get s3 n3 [s2, s1] [n2, n1] D rfl (m := i + n1 * j) hk (by simp; linarith)
  have e2 := hyperslab_get s2 n2 [s1] [n1] (fun ix => D ((s3 + k) :: ix)) rfl (m := i) hj (by simpa using hi)
  have e3 := hyperslab_get s1 n1 [] [] (fun ix => D ((s3 + k) :: (s2 + j) :: ix)) rfl (m := 0) hi (by simp)
  simp only [List.prod_cons, List.prod_nil, mul_one, one_mul, zero_add] at e1 e2 e3
  rw [show i + n1 * (j + n2 * k) = i + n1 * j + n2 * n1 * k by ring, e1, e2, e3]
  simp [hyperslab]

theorem hyperslab4 {α : Type} (s3 s2 s1 n3 n2 n1 m : ℕ) (D : List ℕ → α) {i j k c : ℕ} (hi : i < n1) (hj : j < n2)
    (hk : k < n3) (hc : c < m) : (hyperslab [s3, s2, s1, 0] [n3, n2, n1, m] D)[c + m * (i + n1 * (j + n2 * k))]? =
      some (D [s3 + k, s2 + j, s1 + i, c]) := by
  have h1 : c + m * i < m * n1 := by nlinarith
  have h2 : c + m * i + m * n1 * j < m * n1 * n2 := by
    have := Nat.mul_le_mul_left (m * n1) hj
    have e : m * n1 * j.succ = m * n1 * j + m * n1 := Nat.mul_succ _ _
    omega
  have e1 := hyperslab_get s3 n3 [s2, s1, 0] [n2, n1, m] D rfl (m := c + m * i + m * n1 * j) hk
    (by simp; linarith)
  have e2 := hyperslab_get s2 n2 [s1, 0] [n1, m] (fun ix => D ((s3 + k) :: ix)) rfl (m := c + m * i) hj
    (by simp; linarith)
  have e3 := hyperslab_get s1 n1 [0] [m] (fun ix => D ((s3 + k) :: (s2 + j) :: ix)) rfl (m := c) hi (by simpa using hc)
  have e4 := hyperslab_get 0 m [] [] (fun ix => D ((s3 + k) :: (s2 + j) :: (s1 + i) :: ix)) rfl (m := 0) hc (by simp)
  simp only [List.prod_cons, List.prod_nil, mul_one, one_mul, zero_add] at e1 e2 e3 e4
  rw [show c + m * (i + n1 * (j + n2 * k)) = c + m * i + m * n1 * j + n2 * (n1 * m) * k by ring, e1,
    show c + m * i + m * n1 * j = c + m * i + n1 * m * j by ring, e2, e3, e4]
  simp [hyperslab]

theorem readDataset34 {α : Type} (rank : ℕ) (hr : rank = 3 ∨ rank = 4) (b : RankBox) (n1 n2 n3 : ℕ) (D : List ℕ → α)
    {i j k : ℕ} (hi : i < n1) (hj : j < n2) (hk : k < n3) : ∃ l, readDataset rank 1 b n1 n2 n3 D = some l ∧
      fEntry l 1 n1 n2 1 (i + 1) (j + 1) (k + 1) =
        some (D (([b.start 2 + k, b.start 1 + j, b.start 0 + i, 0] : List ℕ).take rank)) := by
  rcases hr with rfl | rfl
  · refine ⟨_, rfl, ?_⟩
    simp only [fEntry, Nat.add_sub_cancel, Nat.sub_self, zero_add, one_mul]
    exact hyperslab3 _ _ _ _ _ _ D hi hj hk
  · refine ⟨_, rfl, ?_⟩
    simp only [fEntry, Nat.add_sub_cancel, Nat.sub_self]
    exact hyperslab4 _ _ _ _ _ _ 1 D hi hj hk (by omega)

/-- **C118.** The HDF5 format: with data sets whose subscripts run over the third, second and first direction (and, for
the angles, over the three angles), every rank stores at each of its points the entries of that point; angles in radians
become degrees. -/
theorem C118_hdf5 (b : RankBox) (n1 n2 n3 : ℕ) (unit : ℤ) (rankF rankP : ℕ) (hF : rankF = 3 ∨ rankF = 4)
    (hP : rankP = 3 ∨ rankP = 4) (E : List ℕ → ℝ) (Fid Pid : List ℕ → ℤ) (i j k : ℕ) (hi : i < n1) (hj : j < n2)
    (hk : k < n3) :
    let at4 : ℕ → List ℕ := fun c => [b.start 2 + k, b.start 1 + j, b.start 0 + i, c]
    let deg : ℝ → ℝ := fun x => if unit = 1 then 180 * (x / Real.pi) else x
    readHdf5 b n1 n2 n3 unit 4 rankF rankP E Fid Pid (i + 1) (j + 1) (k + 1) =
      some ⟨some (.real (deg (E (at4 0)))), some (.real (deg (E (at4 1)))), some (.real (deg (E (at4 2)))),
        some (.int (Fid ((at4 0).take rankF))), some (.int (Pid ((at4 0).take rankP)))⟩ := by
  intro at4 deg
  obtain ⟨f, hf, hfe⟩ := readDataset34 rankF hF b n1 n2 n3 Fid hi hj hk
  obtain ⟨p, hp, hpe⟩ := readDataset34 rankP hP b n1 n2 n3 Pid hi hj hk
  have he : readDataset 4 3 b n1 n2 n3 E =
      some (hyperslab [b.start 2, b.start 1, b.start 0, 0] [n3, n2, n1, 3] E) := rfl
  have h4 : ∀ c < 3, fEntry (hyperslab [b.start 2, b.start 1, b.start 0, 0] [n3, n2, n1, 3] E) 3 n1 n2 (c + 1) (i + 1)
      (j + 1) (k + 1) = some (E (at4 c)) := by
    intro c hc
    simp only [fEntry, Nat.add_sub_cancel]
    exact hyperslab4 _ _ _ _ _ _ 3 E hi hj hk hc
  have hdeg : ∀ x : ℝ, (if unit = 1 then x * 180 / Real.pi else x) = deg x := by
    intro x; simp only [deg]; split_ifs <;> ring
  simp only [readHdf5, ne_eq, not_true_eq_false, if_false, he, hf, hp, Option.bind_some]
  have e0 := h4 0 (by omega)
  have e1 := h4 1 (by omega)
  have e2 := h4 2 (by omega)
  norm_num only at e0 e1 e2
  rw [hfe, hpe, e0, e1, e2]
  simp only [Option.map_some, hdeg]
  rfl

/-- **C118 (rank of a data set).** *Fails in the code*: only the number of subscripts of the angles is checked.  Grain
numbers in a data set with two subscripts fill the first part of the array, and the grains of the other points are never
set, without a word. -/
theorem C118_hdf5_rank_fails (b : RankBox) (n1 n2 n3 : ℕ) (h1 : 2 ≤ n1) (h2 : 0 < n2) (h3 : 0 < n3) (unit : ℤ)
    (E : List ℕ → ℝ) (Fid Pid : List ℕ → ℤ) :
    ∃ r, readHdf5 b n1 n2 n3 unit 4 2 3 E Fid Pid n1 n2 n3 = some r ∧ r.jgr = none := by
  obtain ⟨p, hp, -⟩ := readDataset34 3 (Or.inl rfl) b n1 n2 n3 Pid (i := 0) (j := 0) (k := 0) (by omega) h2 h3
  have he : readDataset 4 3 b n1 n2 n3 E =
      some (hyperslab [b.start 2, b.start 1, b.start 0, 0] [n3, n2, n1, 3] E) := rfl
  have hf : readDataset 2 1 b n1 n2 n3 Fid = some (hyperslab [b.start 2, b.start 1] [n3, n2] Fid) := rfl
  refine ⟨_, by simp only [readHdf5, ne_eq, not_true_eq_false, if_false, he, hf, hp, Option.bind_some]; rfl, ?_⟩
  simp only [fEntry, Nat.sub_self, zero_add, one_mul]
  rw [List.getElem?_eq_none]
  · rfl
  · rw [hyperslab_length [b.start 2, b.start 1] [n3, n2] _ rfl]
    simp only [List.prod_cons, List.prod_nil, mul_one]
    obtain ⟨a, rfl⟩ : ∃ a, n1 = a + 2 := ⟨n1 - 2, by omega⟩
    obtain ⟨c, rfl⟩ : ∃ c, n2 = c + 1 := ⟨n2 - 1, by omega⟩
    obtain ⟨d, rfl⟩ : ∃ d, n3 = d + 1 := ⟨n3 - 1, by omega⟩
    simp only [Nat.add_sub_cancel]
    have : a + 2 - 1 = a + 1 := by omega
    rw [this]
    nlinarith [Nat.zero_le (a * c), Nat.zero_le (a * (c * d)), Nat.zero_le (a * d), Nat.zero_le (c * d)]

/-! ### The texture file -/

/-- **C118.** On the first rank the texture file has one line for each point of its block, in grid order, with the
subscripts in the block, the angles of the point, its grain and its phase. -/
theorem C118_texture (n1 n2 n3 : ℕ) (ag : ℕ → ℕ → ℕ → T2 ℝ) (jgrain jphase : ℕ → ℕ → ℕ → ℤ) :
    (textureRows 0 n1 n2 n3 ag jgrain jphase).length = n1 * n2 * n3 ∧
    ∀ i < n1, ∀ j < n2, ∀ k < n3, (textureRows 0 n1 n2 n3 ag jgrain jphase)[i + n1 * (j + n2 * k)]? =
      some ((i + 1, j + 1, k + 1), writtenAngles (ag (i + 1) (j + 1) (k + 1)), jgrain (i + 1) (j + 1) (k + 1),
        jphase (i + 1) (j + 1) (k + 1)) := by
  refine ⟨by simp [textureRows, gridOrder_length], fun i hi j hj k hk => ?_⟩
  simp only [textureRows, if_true, List.getElem?_map, gridOrder_get hi hj hk, Option.map_some]

/-- **C118 (texture file).** *Fails in the code* with several ranks: the file holds the block of the first rank only,
with the number of its points in the header; the other ranks write nothing. -/
theorem C118_texture_ranks_fails (boxes : List (ℕ × ℕ × ℕ)) (ag : ℕ → ℕ → ℕ → ℕ → T2 ℝ)
    (jgrain jphase : ℕ → ℕ → ℕ → ℕ → ℤ) :
    ((boxes.zipIdx.flatMap fun e => textureRows e.2 e.1.1 e.1.2.1 e.1.2.2 (ag e.2) (jgrain e.2) (jphase e.2)).length) =
      (boxes.head?.map fun e => e.1 * e.2.1 * e.2.2).getD 0 := by
  cases boxes with
  | nil => simp
  | cons e boxes =>
    rw [List.zipIdx_cons, List.flatMap_cons, List.length_append]
    have h0 : ∀ (l : List (ℕ × ℕ × ℕ)) (s : ℕ), 0 < s → (l.zipIdx s).flatMap (fun e =>
        textureRows e.2 e.1.1 e.1.2.1 e.1.2.2 (ag e.2) (jgrain e.2) (jphase e.2)) = [] := by
      intro l
      induction l with
      | nil => intro s _; simp
      | cons e l ih =>
        intro s hs
        rw [List.zipIdx_cons, List.flatMap_cons, ih (s + 1) (by omega)]
        simp [textureRows, Nat.pos_iff_ne_zero.mp hs]
    rw [h0 _ _ (by omega)]
    simp [(C118_texture e.1 e.2.1 e.2.2 (ag 0) (jgrain 0) (jphase 0)).1]

/-! ### The hypotheses are met -/

/-- Conversions that understand one digit. -/
noncomputable def digitConv : NumConv where
  int := fun cs => match cs with
    | c :: r => if c.isDigit then ((c.toNat - 48 : ℕ), some r) else (0, none)
    | [] => (0, none)
  real := fun cs => match cs with
    | c :: r => if c.isDigit then ((c.toNat - 48 : ℕ), some r) else (0, none)
    | [] => (0, none)

theorem digitConv_int (c : Char) (hd : c.isDigit = true) (hw : cSpace c = false) :
    digitConv.Reads .int [c] (.int ((c.toNat - 48 : ℕ) : ℤ)) :=
  ⟨⟨c, rfl, hw⟩, fun rest _ => by simp [NumConv.ext, digitConv, hd]⟩

theorem digitConv_real (c : Char) (hd : c.isDigit = true) (hw : cSpace c = false) :
    digitConv.Reads .real [c] (.real ((c.toNat - 48 : ℕ) : ℝ)) :=
  ⟨⟨c, rfl, hw⟩, fun rest _ => by simp [NumConv.ext, digitConv, hd]⟩

theorem fieldsText_blank {F : NumConv} {k : Kind} {v : Val} {fs : List (Kind × Val)} {t cs : List Char}
    (ht : F.Reads k t v) (hs : SepStart cs) (h : FieldsText F fs cs) :
    FieldsText F ((k, v) :: fs) (' ' :: (t ++ cs)) :=
  FieldsText.cons (w := [' ']) (by simp [cSpace]) ht hs h

theorem sep_blank (cs : List Char) : SepStart (' ' :: cs) := by intro c hc; simp at hc; subst hc; rfl

example : LineText digitConv (TextRow.fields ⟨7, 8, 9, (2, 1, 1), 4, 1⟩)
    ([' ', '7', ' ', '8', ' ', '9', ' ', '2', ' ', '1', ' ', '1', ' ', '4', ' ', '1'] ++ [' ', 'x'] ++ ['\n']) := by
  refine ⟨_, [' ', 'x'], rfl, ?_, sep_blank _, by decide⟩
  have h7 := digitConv_real '7' rfl rfl
  have h8 := digitConv_real '8' rfl rfl
  have h9 := digitConv_real '9' rfl rfl
  have i2 := digitConv_int '2' rfl rfl
  have i1 := digitConv_int '1' rfl rfl
  have i4 := digitConv_int '4' rfl rfl
  norm_num at h7 h8 h9 i2 i1 i4
  exact fieldsText_blank h7 (sep_blank _) <| fieldsText_blank h8 (sep_blank _) <| fieldsText_blank h9 (sep_blank _) <|
    fieldsText_blank i2 (sep_blank _) <| fieldsText_blank i1 (sep_blank _) <| fieldsText_blank i1 (sep_blank _) <|
    fieldsText_blank i4 (sep_blank _) <| fieldsText_blank i1 sepStart_nil .nil

example : RankBox.Inside ⟨![1, 0, 0], ![1, 0, 0]⟩ 2 1 1 := ⟨by simp, by simp, by simp⟩

example : ∀ l ∈ ["# vtk".toList, "LOOKUP_TABLE default ".toList], '\n' ∉ l ∧ l ≠ "LOOKUP_TABLE default".toList := by
  decide

end Fierro
