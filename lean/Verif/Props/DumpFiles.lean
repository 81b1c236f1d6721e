import Verif.Model.DumpFiles
import Verif.Proofs.Memory
import Mathlib.Data.List.GetD
import Mathlib.Tactic.Ring

/-!
# C121: the files of a run

What lies in the directories after all dumps of all solvers: the specification names the files by solver and number
of the dump.
-/

namespace Fierro

variable {K D : Type}

/-! ### Specification -/

/-- The names that are cleared away in the beginning: `vtk/Fierro*` and `vtk/data/Fierro*`. -/
def IsVizName (n : List Char) : Prop :=
  ∃ rest, '/' ∉ rest ∧ (n = vizDir ++ vizStem ++ rest ∨ n = vizData ++ vizStem ++ rest)

/-- Files of fields: part, number of the dump, contents. -/
def IsField (ds : List (VizDump K D)) (part : List Char) (k : ℕ) (c : D) : Prop :=
  ∃ d, ds[k]? = some d ∧ ((part = partFields ∧ c = d.fields) ∨
    ∃ m, d.matVars = true ∧ d.mats[m]? = some (some c) ∧ part = partMat m)

/-- The number of materials with a file in the last dump. -/
def numMatFiles (d : VizDump K D) : ℕ :=
  if d.matVars then (d.mats.filter Option.isSome).length else 0

/-- What must be found of a solver with the dumps `ds`. -/
structure SolverFiles (i : ℕ) (ds : List (VizDump K D)) (fs : FileSys K D) : Prop where
  /-- Every file of fields of every dump is there. -/
  fields : ∀ part k c, IsField ds part k c → fs (vizData ++ vtuRel i part k) = some (.vtu c)
  /-- Every dump has its index, with its own time. -/
  vtm : ∀ k d, ds[k]? = some d → ∀ l, ds.getLast? = some l → fs (vizData ++ vtmRel i k) =
    some (.vtm (vtmBlocks i k d.time (numMatFiles l) l.meshVars l.matVars))
  /-- The index over time lists all dumps in order, with their times. -/
  pvd : ds ≠ [] → fs (vizDir ++ pvdRel i) =
    some (.pvd (ds.zipIdx.map fun x => (x.1.time, vtmFromTop i x.2)))

/-- The names of the files of a solver. -/
def IsSolverFile (i : ℕ) (ds : List (VizDump K D)) (n : List Char) : Prop :=
  (ds ≠ [] ∧ n = vizDir ++ pvdRel i) ∨ (∃ k < ds.length, n = vizData ++ vtmRel i k) ∨
    ∃ part k c, IsField ds part k c ∧ n = vizData ++ vtuRel i part k

/-! ### Names -/

theorem fmtNat_digit {n : ℕ} {c : Char} (h : c ∈ fmtNat n) : c.isDigit = true :=
  Nat.isDigit_of_mem_toDigits (by decide) (by decide) h

theorem fmtPad_digit {n : ℕ} {c : Char} (h : c ∈ fmtPad n) : c.isDigit = true := by
  rcases List.mem_append.1 h with h | h
  · rw [List.eq_of_mem_replicate h]; rfl
  · exact fmtNat_digit h

theorem ofDigit_zeros (k : ℕ) (l : List Char) :
    Nat.ofDigitChars 10 (List.replicate k '0' ++ l) 0 = Nat.ofDigitChars 10 l 0 := by
  induction k with
  | zero => rfl
  | succ k ih =>
    rw [List.replicate_succ, List.cons_append, Nat.ofDigitChars_cons]
    exact ih

theorem fmtNat_inj {n m : ℕ} (h : fmtNat n = fmtNat m) : n = m := by
  have := congrArg (fun l => Nat.ofDigitChars 10 l 0) h
  simpa [fmtNat, Nat.ofDigitChars_toDigits] using this

theorem fmtPad_inj {n m : ℕ} (h : fmtPad n = fmtPad m) : n = m := by
  have := congrArg (fun l => Nat.ofDigitChars 10 l 0) h
  simpa [fmtPad, fmtNat, ofDigit_zeros, Nat.ofDigitChars_toDigits] using this

theorem fmtNat_noDot (n : ℕ) : '.' ∉ fmtNat n := fun h => absurd (fmtNat_digit h) (by decide)

theorem fmtPad_noDot (n : ℕ) : '.' ∉ fmtPad n := fun h => absurd (fmtPad_digit h) (by decide)

theorem dot_split {a b s t : List Char} (ha : '.' ∉ a) (hb : '.' ∉ b) (h : a ++ '.' :: s = b ++ '.' :: t) :
    a = b ∧ s = t := by
  induction a generalizing b with
  | nil =>
    cases b with
    | nil => simpa using h
    | cons c b =>
      injection h with h1 h2
      exact absurd (h1 ▸ List.mem_cons_self) hb
  | cons c a ih =>
    cases b with
    | nil =>
      injection h with h1 h2
      exact absurd (h1 ▸ List.mem_cons_self) ha
    | cons c' b =>
      injection h with h1 h2
      obtain ⟨h3, h4⟩ := ih (fun h => ha (by simp [h])) (fun h => hb (by simp [h])) h2
      exact ⟨by rw [h1, h3], h4⟩

theorem partMat_noDot (m : ℕ) : '.' ∉ partMat m := by
  intro h
  simp only [partMat, List.mem_append] at h
  rcases h with h | h
  · exact absurd h (by decide)
  · exact fmtNat_noDot m h

theorem partFields_noDot : '.' ∉ partFields := by decide

theorem partMat_inj {m m' : ℕ} (h : partMat m = partMat m') : m = m' :=
  fmtNat_inj (List.append_cancel_left h)

theorem partMat_ne (m : ℕ) : partMat m ≠ partFields := by
  intro h
  injection h with h
  exact absurd h (by decide)

theorem title_split {i j : ℕ} {s t : List Char} (h : vizTitle i ++ '.' :: s = vizTitle j ++ '.' :: t) :
    i = j ∧ s = t := by
  unfold vizTitle at h
  rw [List.append_assoc, List.append_assoc, List.append_assoc, List.append_assoc] at h
  have := dot_split (fmtNat_noDot i) (fmtNat_noDot j) (List.append_cancel_left (List.append_cancel_left h))
  exact ⟨fmtNat_inj this.1, this.2⟩

theorem vtuRel_split {i j k l : ℕ} {p q : List Char} (hp : '.' ∉ p) (hq : '.' ∉ q)
    (h : vtuRel i p k = vtuRel j q l) : i = j ∧ p = q ∧ k = l := by
  obtain ⟨h1, h2⟩ := title_split h
  obtain ⟨h3, h4⟩ := dot_split hp hq h2
  exact ⟨h1, h3, fmtPad_inj (List.append_cancel_right h4)⟩

theorem vtmRel_split {i j k l : ℕ} (h : vtmRel i k = vtmRel j l) : i = j ∧ k = l := by
  obtain ⟨h1, h2⟩ := title_split h
  exact ⟨h1, fmtPad_inj (List.append_cancel_right h2)⟩

theorem vtuRel_ne {i j k l : ℕ} {p : List Char} (hp : '.' ∉ p) (hd : ∃ c ∈ p, c.isDigit = false) :
    vtuRel i p k ≠ vtmRel j l := by
  intro h
  obtain ⟨_, h2⟩ := title_split h
  obtain ⟨h3, _⟩ := dot_split hp (fmtPad_noDot l) h2
  obtain ⟨c, hc, hd⟩ := hd
  rw [fmtPad_digit (h3 ▸ hc)] at hd
  exact absurd hd (by decide)

theorem pvd_ne {i : ℕ} {t : List Char} : vizDir ++ pvdRel i ≠ vizData ++ t := by
  intro h
  simp [vizDir, vizData, pvdRel, vizTitle, vizStem] at h

theorem pvdRel_inj {i j : ℕ} (h : pvdRel i = pvdRel j) : i = j := (title_split h).1

theorem isField_part {ds : List (VizDump K D)} {part : List Char} {k : ℕ} {c : D} (h : IsField ds part k c) :
    '.' ∉ part ∧ (∃ c ∈ part, c.isDigit = false) ∧ k < ds.length := by
  obtain ⟨d, hd, h⟩ := h
  have hk : k < ds.length := by
    by_contra hk
    rw [List.getElem?_eq_none (by omega)] at hd
    exact absurd hd (by simp)
  rcases h with ⟨rfl, _⟩ | ⟨m, _, _, rfl⟩
  · exact ⟨partFields_noDot, ⟨'f', by simp [partFields], by decide⟩, hk⟩
  · exact ⟨partMat_noDot m, ⟨'m', by simp [partMat], by decide⟩, hk⟩

/-! ### One dump -/

theorem mem_matFiles {d : VizDump K D} {m : ℕ} {c : D} :
    (m, c) ∈ matFiles d ↔ d.matVars = true ∧ d.mats[m]? = some (some c) := by
  unfold matFiles
  split
  · rename_i hv
    rw [List.mem_filterMap]
    constructor
    · rintro ⟨⟨x, j⟩, hx, h⟩
      cases x with
      | none => simp at h
      | some x =>
        simp only [Option.map_some, Option.some.injEq, Prod.mk.injEq] at h
        obtain ⟨rfl, rfl⟩ := h
        exact ⟨hv, List.mem_zipIdx_iff_getElem?.1 hx⟩
    · rintro ⟨_, h⟩
      exact ⟨(some c, m), List.mem_zipIdx_iff_getElem?.2 h, by simp⟩
  · rename_i hv
    simp [hv]

theorem matFiles_length (d : VizDump K D) : (matFiles d).length = numMatFiles d := by
  unfold matFiles numMatFiles
  split
  · have : ∀ (l : List (Option D)) (j : ℕ), (List.filterMap (fun x : Option D × ℕ => x.1.map fun c => (x.2, c))
        (l.zipIdx j)).length = (l.filter Option.isSome).length := by
      intro l
      induction l with
      | nil => intro j; rfl
      | cons x l ih =>
        intro j
        rw [List.zipIdx_cons]
        cases x with
        | none => simpa using ih (j + 1)
        | some x => simpa using ih (j + 1)
    exact this d.mats 0
  · rfl

theorem mem_fieldFiles {i k : ℕ} {d : VizDump K D} {n : List Char} {f : VizFile K D}
    (h : (n, f) ∈ fieldFiles i k d) : ∃ part c, n = vizData ++ vtuRel i part k ∧ f = .vtu c ∧
      ((part = partFields ∧ c = d.fields) ∨ ∃ m, d.matVars = true ∧ d.mats[m]? = some (some c) ∧ part = partMat m) := by
  unfold fieldFiles at h
  rcases List.mem_cons.1 h with h | h
  · injection h with h1 h2
    exact ⟨_, _, h1, h2, Or.inl ⟨rfl, rfl⟩⟩
  · obtain ⟨⟨m, c⟩, hm, h⟩ := List.mem_map.1 h
    injection h with h1 h2
    obtain ⟨hv, hg⟩ := mem_matFiles.1 hm
    exact ⟨_, _, h1.symm, h2.symm, Or.inr ⟨m, hv, hg, rfl⟩⟩

theorem fieldFiles_lookup {i k : ℕ} {d : VizDump K D} {part : List Char} {c : D} (fs : FileSys K D)
    (h : (part = partFields ∧ c = d.fields) ∨ ∃ m, d.matVars = true ∧ d.mats[m]? = some (some c) ∧ part = partMat m) :
    Mem.writeAll (fieldFiles i k d) fs (vizData ++ vtuRel i part k) = some (.vtu c) := by
  apply Mem.writeAll_of_mem
  · unfold fieldFiles
    rcases h with ⟨rfl, rfl⟩ | ⟨m, hv, hg, rfl⟩
    · simp
    · exact List.mem_cons_of_mem _ (List.mem_map.2 ⟨(m, c), mem_matFiles.2 ⟨hv, hg⟩, rfl⟩)
  · intro v hv
    obtain ⟨part', c', h1, rfl, h'⟩ := mem_fieldFiles hv
    have hdot : ∀ {p : List Char} {c : D}, ((p = partFields ∧ c = d.fields) ∨ ∃ m, d.matVars = true ∧
        d.mats[m]? = some (some c) ∧ p = partMat m) → '.' ∉ p := by
      rintro p c (⟨rfl, _⟩ | ⟨m, _, _, rfl⟩)
      · exact partFields_noDot
      · exact partMat_noDot m
    obtain ⟨_, hpp, _⟩ := vtuRel_split (hdot h) (hdot h') (List.append_cancel_left h1)
    subst hpp
    congr 1
    rcases h with ⟨rfl, rfl⟩ | ⟨m, hv, hg, rfl⟩
    · rcases h' with ⟨_, rfl⟩ | ⟨m', _, _, hm'⟩
      · rfl
      · exact absurd hm'.symm (partMat_ne m')
    · rcases h' with ⟨hm', _⟩ | ⟨m', _, hg', hm'⟩
      · exact absurd hm' (partMat_ne m)
      · obtain rfl := partMat_inj hm'
        rw [hg] at hg'
        injection hg' with hg'
        injection hg' with hg'
        exact hg'.symm

/-- What holds between two dumps. -/
structure VizInv (i : ℕ) (ds : List (VizDump K D)) (fs0 : FileSys K D) (s : VizState K D) : Prop where
  dump : s.dump = ds.length
  times : ∀ k d, ds[k]? = some d → s.times k = d.time
  files : SolverFiles i ds s.fs
  frame : ∀ n, ¬ IsSolverFile i ds n → s.fs n = fs0 n

theorem isField_snoc {ds : List (VizDump K D)} {d : VizDump K D} {part : List Char} {k : ℕ} {c : D} :
    IsField (ds ++ [d]) part k c ↔ IsField ds part k c ∨ (k = ds.length ∧ ((part = partFields ∧ c = d.fields) ∨
      ∃ m, d.matVars = true ∧ d.mats[m]? = some (some c) ∧ part = partMat m)) := by
  constructor
  · intro h
    have hk := (isField_part h).2.2
    obtain ⟨e, he, h⟩ := h
    rw [List.length_append, List.length_singleton] at hk
    by_cases hlt : k < ds.length
    · rw [List.getElem?_append_left hlt] at he
      exact Or.inl ⟨e, he, h⟩
    · obtain rfl : k = ds.length := by omega
      rw [List.getElem?_append_right (le_refl _)] at he
      simp only [Nat.sub_self, List.getElem?_cons_zero, Option.some.injEq] at he
      subst he
      exact Or.inr ⟨rfl, h⟩
  · rintro (h | ⟨rfl, h⟩)
    · have hk := (isField_part h).2.2
      obtain ⟨e, he, h⟩ := h
      exact ⟨e, by rw [List.getElem?_append_left hk]; exact he, h⟩
    · exact ⟨d, by simp, h⟩

theorem writeMesh_inv (i : ℕ) (ds : List (VizDump K D)) (fs0 : FileSys K D) (s : VizState K D) (d : VizDump K D)
    (hs : VizInv i ds fs0 s) (hold : clearOld i s.dump s.fs = s.fs) (hroom : ds.length < maxDumps) :
    ∃ s', writeMesh i s d = some s' ∧ VizInv i (ds ++ [d]) fs0 s' := by
  obtain ⟨h1, h2, h3, h4⟩ := hs
  unfold writeMesh
  rw [hold, if_neg (by omega)]
  refine ⟨_, rfl, ?_⟩
  have htimes : ∀ k e, (ds ++ [d])[k]? = some e → Function.update s.times s.dump d.time k = e.time := by
    intro k e he
    by_cases hk : k < ds.length
    · rw [List.getElem?_append_left hk] at he
      rw [Function.update_of_ne (by omega)]
      exact h2 k e he
    · have hk' : k < (ds ++ [d]).length := by
        by_contra hk'
        rw [List.getElem?_eq_none (by omega)] at he
        exact absurd he (by simp)
      obtain rfl : k = ds.length := by simp at hk'; omega
      simp at he
      subst he
      rw [h1, Function.update_self]
  have hpvd : ∀ (t : List Char) (w : FileSys K D) (p : ℕ → K),
      Mem.write w (writePvd i s.dump p) (vizData ++ t) = w (vizData ++ t) := by
    intro t w p
    exact Function.update_of_ne (fun h => pvd_ne h.symm) _ _
  have hlast : ∀ l, (ds ++ [d]).getLast? = some l → l = d := by
    intro l hl
    simpa using hl.symm
  refine ⟨by simp [h1], htimes, ⟨?_, ?_, ?_⟩, ?_⟩
  · intro part k c hf
    obtain ⟨p1, p2, p3⟩ := isField_part hf
    dsimp only
    rw [hpvd, Mem.writeAll_of_notMem _ _ _ (by
      intro v hv
      obtain ⟨f, _, hf⟩ := List.mem_map.1 hv
      injection hf with hf _
      exact vtuRel_ne p1 p2 (List.append_cancel_left hf).symm)]
    rcases isField_snoc.1 hf with hf | ⟨rfl, hf'⟩
    · have hk := (isField_part hf).2.2
      rw [Mem.writeAll_of_notMem _ _ _ (by
        intro v hv
        obtain ⟨part', c', e1, _, hf'⟩ := mem_fieldFiles hv
        have hp' : '.' ∉ part' := by
          rcases hf' with ⟨rfl, _⟩ | ⟨m, _, _, rfl⟩
          · exact partFields_noDot
          · exact partMat_noDot m
        have := (vtuRel_split p1 hp' (List.append_cancel_left e1)).2.2
        omega)]
      exact h3.fields part k c hf
    · rw [h1]
      exact fieldFiles_lookup _ hf'
  · intro k e he l hl
    obtain rfl := hlast l hl
    have hk : k < ds.length + 1 := by
      by_contra hk
      rw [List.getElem?_eq_none (by simp; omega)] at he
      exact absurd he (by simp)
    dsimp only
    rw [hpvd]
    apply Mem.writeAll_of_mem
    · refine List.mem_map.2 ⟨k, List.mem_range.2 (by omega), ?_⟩
      rw [matFiles_length, htimes k e he]
    · intro v hv
      obtain ⟨f, _, hf⟩ := List.mem_map.1 hv
      injection hf with hf hf2
      obtain rfl := (vtmRel_split (List.append_cancel_left hf)).2
      rw [← hf2, matFiles_length, htimes f e he]
  · intro _
    dsimp only
    rw [show vizDir ++ pvdRel i = (writePvd (D := D) i s.dump (Function.update s.times s.dump d.time)).1 from rfl]
    unfold Mem.write
    rw [Function.update_self]
    unfold writePvd
    dsimp only
    congr 2
    apply List.ext_getElem?
    intro k
    by_cases hk : k < ds.length + 1
    · have hk' : k < (ds ++ [d]).length := by simpa using hk
      rw [List.getElem?_map, List.getElem?_map, List.getElem?_range (by omega), List.getElem?_zipIdx,
        List.getElem?_eq_getElem hk']
      simp only [Option.map_some, Nat.zero_add]
      rw [htimes k _ (List.getElem?_eq_getElem hk')]
    · rw [List.getElem?_eq_none (by simp; omega), List.getElem?_eq_none (by simp; omega)]
  · intro n hn
    have n1 : n ≠ vizDir ++ pvdRel i := fun h => hn (Or.inl ⟨by simp, h⟩)
    have n2 : ∀ k < (ds ++ [d]).length, n ≠ vizData ++ vtmRel i k := fun k hk h => hn (Or.inr (Or.inl ⟨k, hk, h⟩))
    have n3 : ∀ part k c, IsField (ds ++ [d]) part k c → n ≠ vizData ++ vtuRel i part k :=
      fun part k c hf h => hn (Or.inr (Or.inr ⟨part, k, c, hf, h⟩))
    dsimp only
    rw [show Mem.write _ (writePvd i s.dump _) n = _ from Function.update_of_ne n1 _ _,
      Mem.writeAll_of_notMem _ _ _ (by
        intro v hv
        obtain ⟨f, hf1, hf⟩ := List.mem_map.1 hv
        injection hf with hf _
        exact n2 f (by have := List.mem_range.1 hf1; simp; omega) hf.symm),
      Mem.writeAll_of_notMem _ _ _ (by
        intro v hv
        obtain ⟨part', c', e1, _, hf'⟩ := mem_fieldFiles hv
        exact n3 part' ds.length c' (isField_snoc.2 (Or.inr ⟨rfl, hf'⟩)) (by rw [e1, h1]))]
    refine h4 n ?_
    rintro (⟨_, h⟩ | ⟨k, hk, h⟩ | ⟨part, k, c, hf, h⟩)
    · exact n1 h
    · exact n2 k (by simp; omega) h
    · exact n3 part k c (isField_snoc.2 (Or.inl hf)) h

/-! ### All dumps of a solver -/

theorem foldl_writeMesh (i : ℕ) (fs0 : FileSys K D) (hclear : clearOld i 0 fs0 = fs0) (t0 : ℕ → K)
    (ds : List (VizDump K D)) (hroom : ds.length ≤ maxDumps) :
    ∃ s, ds.foldlM (writeMesh i) ⟨0, t0, fs0⟩ = some s ∧ VizInv i ds fs0 s := by
  induction ds using List.reverseRecOn with
  | nil =>
    exact ⟨_, rfl, rfl, by simp, ⟨by rintro _ _ _ ⟨d, h, _⟩; simp at h, by simp, by simp⟩, fun _ _ => rfl⟩
  | append_singleton ds d ih =>
    rw [List.length_append, List.length_singleton] at hroom
    obtain ⟨s, hs, hinv⟩ := ih (by omega)
    have hold : clearOld i s.dump s.fs = s.fs := by
      by_cases h0 : ds = []
      · subst h0
        simp only [List.foldlM_nil, Option.pure_def, Option.some.injEq] at hs
        subst hs
        exact hclear
      · unfold clearOld
        rw [if_neg]
        rintro ⟨_, h⟩
        rw [hinv.dump, List.length_eq_zero_iff] at h
        exact h0 h
    obtain ⟨s', h1, h2⟩ := writeMesh_inv i ds fs0 s d hinv hold (by omega)
    refine ⟨s', ?_, h2⟩
    rw [List.foldlM_append, hs]
    simp [h1]

theorem clearOld_idem (i k : ℕ) (fs : FileSys K D) : clearOld i k (clearOld i k fs) = clearOld i k fs := by
  unfold clearOld
  split
  · funext n
    dsimp only
    split <;> rfl
  · rfl

theorem writeSolver_files (i : ℕ) (t0 : ℕ → K) (ds : List (VizDump K D)) (fs : FileSys K D)
    (hroom : ds.length ≤ maxDumps) :
    ∃ fs', writeSolver i t0 ds fs = some fs' ∧ SolverFiles i ds fs' ∧
      ∀ n, ¬ IsSolverFile i ds n → fs' n = (if ds = [] then fs else clearOld i 0 fs) n := by
  by_cases h0 : ds = []
  · subst h0
    exact ⟨fs, rfl, ⟨by rintro _ _ _ ⟨d, h, _⟩; simp at h, by simp, by simp⟩, by simp⟩
  · obtain ⟨s, h1, h2⟩ := foldl_writeMesh i (clearOld i 0 fs) (clearOld_idem _ _ _) t0 ds hroom
    refine ⟨s.fs, ?_, h2.files, by rw [if_neg h0]; exact h2.frame⟩
    unfold writeSolver
    obtain ⟨d, ds', rfl⟩ := List.exists_cons_of_ne_nil h0
    have : writeMesh i ⟨0, t0, fs⟩ d = writeMesh i ⟨0, t0, clearOld i 0 fs⟩ d := by
      unfold writeMesh
      rw [clearOld_idem]
    rw [List.foldlM_cons, this, ← List.foldlM_cons, h1]
    rfl

theorem writeSolver_room (i : ℕ) (t0 : ℕ → K) (ds : List (VizDump K D)) (fs : FileSys K D)
    (hroom : maxDumps < ds.length) : writeSolver i t0 ds fs = none := by
  have hgen : ∀ (ds : List (VizDump K D)) (s : VizState K D), maxDumps < s.dump + ds.length → ds ≠ [] →
      ds.foldlM (writeMesh i) s = none := by
    intro ds
    induction ds with
    | nil => intro s _ h; exact absurd rfl h
    | cons d ds ih =>
      intro s hl _
      rw [List.foldlM_cons]
      by_cases hd : maxDumps ≤ s.dump
      · have : writeMesh i s d = none := by unfold writeMesh; rw [if_pos hd]
        rw [this]; rfl
      · rw [List.length_cons] at hl
        have hne : ds ≠ [] := by
          rintro rfl
          simp at hl
          omega
        unfold writeMesh
        rw [if_neg hd]
        exact ih _ (by dsimp only; omega) hne
  unfold writeSolver
  rw [hgen ds _ (by simpa using hroom) (by rintro rfl; simp at hroom)]
  rfl

/-! ### All solvers -/

theorem solverFile_split {i j : ℕ} {ds es : List (VizDump K D)} {n : List Char} (hi : IsSolverFile i ds n)
    (hj : IsSolverFile j es n) : i = j := by
  rcases hi with ⟨_, rfl⟩ | ⟨k, _, rfl⟩ | ⟨part, k, c, hf, rfl⟩
  · rcases hj with ⟨_, h⟩ | ⟨k, _, h⟩ | ⟨part, k, c, hf, h⟩
    · exact pvdRel_inj (List.append_cancel_left h)
    · exact absurd h pvd_ne
    · exact absurd h pvd_ne
  · rcases hj with ⟨_, h⟩ | ⟨k, _, h⟩ | ⟨part, k, c, hf, h⟩
    · exact absurd h.symm pvd_ne
    · exact (vtmRel_split (List.append_cancel_left h)).1
    · exact absurd (List.append_cancel_left h).symm (vtuRel_ne (isField_part hf).1 (isField_part hf).2.1)
  · rcases hj with ⟨_, h⟩ | ⟨k, _, h⟩ | ⟨part', k', c', hf', h⟩
    · exact absurd h.symm pvd_ne
    · exact absurd (List.append_cancel_left h) (vtuRel_ne (isField_part hf).1 (isField_part hf).2.1)
    · exact (vtuRel_split (isField_part hf).1 (isField_part hf').1 (List.append_cancel_left h)).1

theorem solverFiles_congr {i : ℕ} {ds : List (VizDump K D)} {fs fs' : FileSys K D} (h : SolverFiles i ds fs)
    (heq : ∀ n, IsSolverFile i ds n → fs' n = fs n) : SolverFiles i ds fs' := by
  refine ⟨?_, ?_, ?_⟩
  · intro part k c hf
    rw [heq _ (Or.inr (Or.inr ⟨part, k, c, hf, rfl⟩))]
    exact h.fields part k c hf
  · intro k d hd l hl
    have hk : k < ds.length := by
      by_contra hk
      rw [List.getElem?_eq_none (by omega)] at hd
      exact absurd hd (by simp)
    rw [heq _ (Or.inr (Or.inl ⟨k, hk, rfl⟩))]
    exact h.vtm k d hd l hl
  · intro hne
    rw [heq _ (Or.inl ⟨hne, rfl⟩)]
    exact h.pvd hne

theorem clearOld_iff (n : List Char) : (isCleared vizDir n = true ∨ isCleared vizData n = true) ↔ IsVizName n := by
  have hone : ∀ dir : List Char, isCleared dir n = true ↔ ∃ rest, '/' ∉ rest ∧ n = dir ++ vizStem ++ rest := by
    intro dir
    unfold isCleared
    rw [Bool.and_eq_true, List.isPrefixOf_iff_prefix, Bool.not_eq_true', List.contains_eq_mem, decide_eq_false_iff_not]
    constructor
    · rintro ⟨⟨rest, rfl⟩, h⟩
      rw [List.drop_left] at h
      exact ⟨rest, h, rfl⟩
    · rintro ⟨rest, h, rfl⟩
      rw [List.drop_left]
      exact ⟨⟨rest, rfl⟩, h⟩
  rw [hone, hone]
  unfold IsVizName
  constructor
  · rintro (⟨r, h1, h2⟩ | ⟨r, h1, h2⟩)
    · exact ⟨r, h1, Or.inl h2⟩
    · exact ⟨r, h1, Or.inr h2⟩
  · rintro ⟨r, h1, h2 | h2⟩
    · exact Or.inl ⟨r, h1, h2⟩
    · exact Or.inr ⟨r, h1, h2⟩

theorem solverFile_name {i : ℕ} {ds : List (VizDump K D)} {n : List Char} (h : IsSolverFile i ds n) :
    IsVizName n := by
  have hnat : ∀ k, '/' ∉ fmtNat k := fun k h => absurd (fmtNat_digit h) (by decide)
  have hpad : ∀ k, '/' ∉ fmtPad k := fun k h => absurd (fmtPad_digit h) (by decide)
  have hpart : ∀ part k c, IsField ds part k c → '/' ∉ part := by
    rintro part k c ⟨d, _, ⟨rfl, _⟩ | ⟨m, _, _, rfl⟩⟩
    · decide
    · intro h
      simp only [partMat, List.mem_append] at h
      rcases h with h | h
      · exact absurd h (by decide)
      · exact hnat m h
  rcases h with ⟨_, rfl⟩ | ⟨k, _, rfl⟩ | ⟨part, k, c, hf, rfl⟩
  · refine ⟨['.', 's', 'o', 'l', 'v', 'e', 'r'] ++ fmtNat i ++ ['.', 'p', 'v', 'd'], ?_, Or.inl ?_⟩
    · simp [hnat i]
    · simp [pvdRel, vizTitle]
  · refine ⟨['.', 's', 'o', 'l', 'v', 'e', 'r'] ++ fmtNat i ++ '.' :: (fmtPad k ++ ['.', 'v', 't', 'm']), ?_, Or.inr ?_⟩
    · simp [hnat i, hpad k]
    · simp [vtmRel, vizTitle]
  · refine ⟨['.', 's', 'o', 'l', 'v', 'e', 'r'] ++ fmtNat i ++ '.' :: (part ++ '.' :: (fmtPad k ++ ['.', 'v', 't', 'u'])),
      ?_, Or.inr ?_⟩
    · simp [hnat i, hpad k, hpart part k c hf]
    · simp [vtuRel, vizTitle]

/-- **C121.** After a run of any number of solvers with at most 20000 dumps each: every file of fields of every dump of
every solver is there, every dump has its index with its own time, and the index over time of each solver lists all
its dumps in order.  No other file `vtk/Fierro*` or `vtk/data/Fierro*` is left from earlier runs, and all files with
other names are as they were. -/
theorem C121_files (t0 : ℕ → ℕ → K) (runs : List (List (VizDump K D))) (fs : FileSys K D)
    (hroom : ∀ ds ∈ runs, ds.length ≤ 20000) :
    ∃ fs', writeRun t0 runs fs = some fs' ∧
      (∀ i ds, runs[i]? = some ds → SolverFiles i ds fs') ∧
      (∀ n, (∀ i ds, runs[i]? = some ds → ¬ IsSolverFile i ds n) →
        ((∃ d, (runs[0]?.bind (·[0]?)) = some d) → IsVizName n → fs' n = none) ∧
        (¬ IsVizName n → fs' n = fs n)) := by
  induction runs using List.reverseRecOn with
  | nil => exact ⟨fs, rfl, by simp, by simp⟩
  | append_singleton runs ds ih =>
    obtain ⟨fs1, h1, h2, h3⟩ := ih fun ds h => hroom ds (by simp [h])
    obtain ⟨fs2, g1, g2, g3⟩ := writeSolver_files runs.length (t0 runs.length) ds fs1
      (by have := hroom ds (by simp); exact this)
    refine ⟨fs2, ?_, ?_, ?_⟩
    · unfold writeRun at h1 ⊢
      rw [List.zipIdx_append, List.foldlM_append, h1]
      simp [g1]
    · intro i es hi
      by_cases hlt : i < runs.length
      · rw [List.getElem?_append_left hlt] at hi
        refine solverFiles_congr (h2 i es hi) fun n hn => ?_
        rw [g3 n fun hc => absurd (solverFile_split hn hc) (by omega)]
        split
        · rfl
        · unfold clearOld
          rw [if_neg (by omega)]
      · have hk : i < (runs ++ [ds]).length := by
          by_contra hk
          rw [List.getElem?_eq_none (by omega)] at hi
          exact absurd hi (by simp)
        obtain rfl : i = runs.length := by simp at hk; omega
        simp at hi
        subst hi
        exact g2
    · intro n hn
      have hn1 : ∀ i es, runs[i]? = some es → ¬ IsSolverFile i es n := by
        intro i es hi
        have hlt : i < runs.length := by
          by_contra hlt
          rw [List.getElem?_eq_none (by omega)] at hi
          exact absurd hi (by simp)
        exact hn i es (by rw [List.getElem?_append_left hlt]; exact hi)
      obtain ⟨a, b⟩ := h3 n hn1
      have hfin := g3 n (hn runs.length ds (by simp))
      by_cases h0 : runs = []
      · subst h0
        constructor
        · rintro ⟨d, hd⟩ hv
          have hne : ds ≠ [] := by
            rintro rfl
            simp at hd
          rw [hfin, if_neg hne]
          unfold clearOld
          rw [if_pos ⟨rfl, rfl⟩, if_pos ((clearOld_iff n).2 hv)]
        · intro hv
          rw [hfin]
          have : clearOld (K := K) (D := D) 0 0 fs1 n = fs1 n := by
            unfold clearOld
            rw [if_pos ⟨rfl, rfl⟩, if_neg (fun h => hv ((clearOld_iff n).1 h))]
          split
          · exact b hv
          · rw [List.length_nil, this]
            exact b hv
      · have hpos : 0 < runs.length := List.length_pos_iff.2 h0
        have hfin' : fs2 n = fs1 n := by
          rw [hfin]
          split
          · rfl
          · unfold clearOld
            rw [if_neg (by omega)]
        rw [hfin']
        refine ⟨?_, b⟩
        rw [List.getElem?_append_left hpos]
        exact a

/-- **C121.** All the files of a run are `vtk/Fierro*` or `vtk/data/Fierro*`, and different solvers never share one. -/
theorem C121_names (i j : ℕ) (ds es : List (VizDump K D)) (n : List Char) (hi : IsSolverFile i ds n) :
    IsVizName n ∧ (IsSolverFile j es n → i = j) :=
  ⟨solverFile_name hi, solverFile_split hi⟩

/-- **C121.** The run is defined exactly if no solver makes more than 20000 dumps (the time of the next one is stored
behind the end of an array). -/
theorem C121_room (t0 : ℕ → ℕ → K) (runs : List (List (VizDump K D))) (fs : FileSys K D) :
    (∃ fs', writeRun t0 runs fs = some fs') ↔ ∀ ds ∈ runs, ds.length ≤ 20000 := by
  constructor
  · intro h
    by_contra hcon
    push Not at hcon
    obtain ⟨ds, hmem, hlen⟩ := hcon
    have hgen : ∀ (l : List (List (VizDump K D) × ℕ)) (fs : FileSys K D), (∃ x ∈ l, 20000 < x.1.length) →
        l.foldlM (fun fs x => writeSolver x.2 (t0 x.2) x.1 fs) fs = none := by
      intro l
      induction l with
      | nil => intro fs h; simp at h
      | cons x l ih =>
        intro fs hx
        rw [List.foldlM_cons]
        by_cases hbig : 20000 < x.1.length
        · rw [writeSolver_room _ _ _ _ hbig]
          rfl
        · obtain ⟨y, hy, hyl⟩ := hx
          rcases List.mem_cons.1 hy with rfl | hy
          · exact absurd hyl hbig
          · cases writeSolver x.2 (t0 x.2) x.1 fs with
            | none => rfl
            | some fs1 => exact ih fs1 ⟨y, hy, hyl⟩
    obtain ⟨j, hj⟩ := List.getElem?_of_mem hmem
    obtain ⟨fs', h⟩ := h
    unfold writeRun at h
    rw [hgen _ fs ⟨(ds, j), List.mem_zipIdx_iff_getElem?.2 hj, hlen⟩] at h
    exact absurd h (by simp)
  · intro h
    obtain ⟨fs', h1, _⟩ := C121_files t0 runs fs h
    exact ⟨fs', h1⟩

/-- **C121.** The indices lead to the files: if the dumps of a solver have the same materials and variables, and the
materials with elements come first, then every entry of the index over time names an index that is there, and every
file named in that index is there and holds what was dumped at that time. -/
theorem C121_resolves (i : ℕ) (ds : List (VizDump K D)) (fs : FileSys K D) (h : SolverFiles i ds fs) (hne : ds ≠ [])
    (nm : ℕ) (a b : Bool) (hsame : ∀ d ∈ ds, d.meshVars = a ∧ d.matVars = b ∧
      (∀ m, m < nm ↔ ∃ c, d.mats[m]? = some (some c))) :
    ∃ entries, fs (vizDir ++ pvdRel i) = some (.pvd entries) ∧ entries.length = ds.length ∧
      ∀ k d, ds[k]? = some d → ∃ file blocks, entries[k]? = some (d.time, file) ∧
        fs (vizDir ++ file) = some (.vtm blocks) ∧
        (∀ B ∈ blocks, ∀ P ∈ B.pieces, P.time = d.time ∧ P.dump = k ∧
          ∃ c, fs (vizData ++ P.file) = some (.vtu c) ∧
            (if B.mats then d.mats[P.index]? = some (some c) else c = d.fields)) ∧
        ((∃ B ∈ blocks, B.mats = false) ↔ a = true) ∧
        (b = true → ∀ m < nm, ∃ B ∈ blocks, B.mats = true ∧ ∃ P ∈ B.pieces, P.index = m) := by
  refine ⟨_, h.pvd hne, by simp, ?_⟩
  intro k d hd
  obtain ⟨l, hl⟩ : ∃ l, ds.getLast? = some l := ⟨ds.getLast hne, List.getLast?_eq_some_getLast hne⟩
  have hlmem : l ∈ ds := List.mem_of_getLast? hl
  have hdmem : d ∈ ds := List.mem_of_getElem? hd
  obtain ⟨l1, l2, l3⟩ := hsame l hlmem
  obtain ⟨d1, d2, d3⟩ := hsame d hdmem
  have hnum : b = true → numMatFiles l = nm := by
    intro hb
    unfold numMatFiles
    rw [l2, if_pos hb]
    -- the materials with elements are the first `nm`
    have hgen : ∀ (ms : List (Option D)) (n : ℕ), (∀ m, m < n ↔ ∃ c, ms[m]? = some (some c)) →
        (ms.filter Option.isSome).length = n := by
      intro ms
      induction ms with
      | nil =>
        intro n hn
        by_contra h0
        have := (hn 0).1 (by simp at h0; omega)
        simp at this
      | cons x ms ih =>
        intro n hn
        cases n with
        | zero =>
          have : ∀ y ∈ x :: ms, Option.isSome y = false := by
            intro y hy
            obtain ⟨m, hm⟩ := List.getElem?_of_mem hy
            cases y with
            | none => rfl
            | some y => exact absurd ((hn m).2 ⟨y, hm⟩) (by omega)
          rw [List.filter_eq_nil_iff.2 (by intro y hy; rw [this y hy]; decide)]
          rfl
        | succ n =>
          obtain ⟨c, hc⟩ := (hn 0).1 (by omega)
          simp only [List.getElem?_cons_zero, Option.some.injEq] at hc
          subst hc
          rw [List.filter_cons_of_pos rfl, List.length_cons, ih n]
          intro m
          have := hn (m + 1)
          rw [List.getElem?_cons_succ] at this
          rw [← this]
          omega
    exact hgen l.mats nm l3
  refine ⟨vtmFromTop i k, vtmBlocks i k d.time (numMatFiles l) l.meshVars l.matVars, ?_, ?_, ?_, ?_, ?_⟩
  · rw [List.getElem?_map, List.getElem?_zipIdx, hd]
    simp
  · have : vizDir ++ vtmFromTop i k = vizData ++ vtmRel i k := rfl
    rw [this]
    exact h.vtm k d hd l hl
  · intro B hB P hP
    unfold vtmBlocks at hB
    rcases List.mem_append.1 hB with hB | hB
    · split at hB
      · rw [List.mem_singleton] at hB
        subst hB
        rw [List.mem_singleton] at hP
        subst hP
        exact ⟨rfl, rfl, d.fields, h.fields _ k _ ⟨d, hd, Or.inl ⟨rfl, rfl⟩⟩, by simp⟩
      · simp at hB
    · split at hB
      · rename_i hv
        rw [List.mem_singleton] at hB
        subst hB
        obtain ⟨m, hm, rfl⟩ := List.mem_map.1 hP
        rw [l2] at hv
        rw [List.mem_range, hnum hv] at hm
        obtain ⟨c, hc⟩ := (d3 m).1 hm
        exact ⟨rfl, rfl, c, h.fields _ k c ⟨d, hd, Or.inr ⟨m, by rw [d2, hv], hc, rfl⟩⟩, by simpa using hc⟩
      · simp at hB
  · unfold vtmBlocks
    rw [l1]
    cases a <;> cases l.matVars <;> simp
  · intro hb m hm
    unfold vtmBlocks
    rw [l2, if_pos hb]
    refine ⟨_, List.mem_append_right _ (List.mem_singleton.2 rfl), rfl, ?_⟩
    refine ⟨_, List.mem_map.2 ⟨m, List.mem_range.2 (by rw [hnum hb]; exact hm), rfl⟩, rfl⟩

/-! ### Cases -/

/-- A dump for the examples: two materials, the second one without elements. -/
def sampleDump (t : ℕ) : VizDump ℕ ℕ := ⟨t, 10 * t, [some (10 * t + 1), none], true, true⟩

example : (∀ ds ∈ [[sampleDump 0, sampleDump 3], [sampleDump 3]], ds.length ≤ 20000) ∧
    (∀ d ∈ [sampleDump 0, sampleDump 3], d.meshVars = true ∧ d.matVars = true ∧
      ∀ m, m < 1 ↔ ∃ c, d.mats[m]? = some (some c)) := by
  refine ⟨by decide, ?_⟩
  intro d hd
  simp only [List.mem_cons, List.not_mem_nil, or_false] at hd
  rcases hd with rfl | rfl <;> refine ⟨rfl, rfl, ?_⟩ <;> intro m <;>
    (match m with
      | 0 => simp [sampleDump]
      | 1 => simp [sampleDump]
      | m + 2 => simp [sampleDump])

example : IsSolverFile 1 [sampleDump 3] (['v', 't', 'k', '/', 'd', 'a', 't', 'a', '/'] ++
    ['F', 'i', 'e', 'r', 'r', 'o', '.', 's', 'o', 'l', 'v', 'e', 'r', '1', '.', 'm', 'a', 't', '0', '.',
      '0', '0', '0', '0', '0', '.', 'v', 't', 'u']) :=
  Or.inr (Or.inr ⟨partMat 0, 0, 31, ⟨sampleDump 3, rfl, Or.inr ⟨0, rfl, rfl, rfl⟩⟩, by decide⟩)

end Fierro
