import Verif.Model.EvpCrystalFile
import Verif.Props.EvpCrystal
import Verif.Props.EvpElastic
import Verif.Props.EvpDeck

/-!
# C120: the files of a phase of EVPFFT
-/

namespace Fierro

/-- What the author of a crystal file says about a deformation mode.  The indices of a slip system are counted from 0;
the latent coefficients are those towards mode 1, 2, .... -/
structure ModeSpec where
  title : List Char
  rate : ℝ
  expo : ℤ
  twin : ℝ
  sect : ℤ
  tauF : ℝ
  tauB : ℝ
  tau1 : ℝ
  thet0 : ℝ
  thet1 : ℝ
  self : ℝ
  latent : ℕ → ℝ
  sys : List ((ℕ → ℤ) × (ℕ → ℤ))

/-- A crystal file: modes `1..count` and the numbers of those wanted; `hex` for four indices. -/
structure CrystalSpec where
  title : List Char
  word : List Char
  hex : Bool
  cdim : Fin 3 → ℝ
  count : ℕ
  mode : ℕ → ModeSpec
  wanted : List ℕ

namespace CrystalSpec
variable (C : CrystalSpec)

/-- The first lines. -/
def titleText : List (List (Kind × Val)) := [[(.word, .word C.title)], [(.word, .word C.word)]]

def sizeText : List (List (Kind × Val)) :=
  [[(.real, .real (C.cdim 0)), (.real, .real (C.cdim 1)), (.real, .real (C.cdim 2))],
   [(.int, .int C.count)],
   [(.int, .int C.wanted.length)]]

def wantedText : List (List (Kind × Val)) := [C.wanted.map fun m : ℕ => (.int, .int (m : ℤ))]

/-- The first lines of a mode. -/
def modeText (m : ℕ) : List (List (Kind × Val)) :=
  [[(.word, .word (C.mode m).title)],
   [(.int, .int m), (.int, .int (C.mode m).sys.length), (.int, .int (C.mode m).expo), (.real, .real (C.mode m).rate),
    (.real, .real (C.mode m).twin), (.int, .int (C.mode m).sect)],
   [(.real, .real (C.mode m).tauF), (.real, .real (C.mode m).tauB), (.real, .real (C.mode m).tau1),
    (.real, .real (C.mode m).thet0), (.real, .real (C.mode m).thet1)],
   (.real, .real (C.mode m).self) :: (List.range C.count).map fun j => (.real, .real ((C.mode m).latent (j + 1)))]

/-- The number of indices. -/
def dim : ℕ := if C.hex then 4 else 3

/-- The line of a slip system. -/
def sysText (s : (ℕ → ℤ) × (ℕ → ℤ)) : List (Kind × Val) :=
  ((List.range C.dim).map fun k => (Kind.int, Val.int (s.1 k))) ++
    (List.range C.dim).map fun k => (Kind.int, Val.int (s.2 k))

/-- The texts of modes; each slip system stands on a line of its own. -/
def ModesText (F : NumConv) : List ℕ → List Char → Prop
  | [], cs => cs = []
  | m :: ms, cs => ∃ a ls b, cs = a ++ (ls.flatten ++ b) ∧ DeckText F (C.modeText m) a ∧
      List.Forall₂ (fun s l => LineText F (C.sysText s) l ∧ ∃ x, l = x ++ ['\n'] ∧ '\n' ∉ x) (C.mode m).sys ls ∧
      ModesText F ms b

/-- The text of a crystal file. -/
def Text (F : NumConv) (cs : List Char) : Prop :=
  ∃ a b, cs = a ++ b ∧ DeckText F (C.titleText ++ C.sizeText ++ C.wantedText) a ∧
    C.ModesText F (List.range' 1 C.count) b

/-- Plane normal and direction of a slip system, not normalised. -/
noncomputable def vectors (s : (ℕ → ℤ) × (ℕ → ℤ)) : (Fin 3 → ℝ) × (Fin 3 → ℝ) :=
  if C.hex then hexVectors (C.cdim 2 / C.cdim 0) (fun k => s.1 k.val) (fun k => s.2 k.val)
  else cubicVectors C.cdim (fun k => s.1 k.val) (fun k => s.2 k.val)

/-- What has to be stored for a slip system of mode `m`: stresses times `ss`, rates over `ts`; linear hardening when
the first stress is not above `1e-6`. -/
noncomputable def slip (ss ts : ℝ) (m : ℕ) (s : (ℕ → ℤ) × (ℕ → ℤ)) : SlipSys where
  gamd0 := (C.mode m).rate / ts
  nrs := (C.mode m).expo
  twsh := (C.mode m).twin
  tau := ![(C.mode m).tauF * ss, (C.mode m).tauB * ss,
    if 1 / 10 ^ 6 < (C.mode m).tau1 * ss then (C.mode m).tau1 * ss else 1 / 10 ^ 6]
  thet := ![if 1 / 10 ^ 6 < (C.mode m).tau1 * ss then (C.mode m).thet0 * ss else (C.mode m).thet1 * ss,
    (C.mode m).thet1 * ss]
  isectw := (C.mode m).sect
  n := unitComp (C.vectors s).1
  b := unitComp (C.vectors s).2

/-- The file and its slip systems fit in the arrays, the modes are wanted in ascending order, and the lattice constants
are not zero. -/
structure Fits (nsysmx nmodmx : ℕ) : Prop where
  count : C.count ≤ 10
  sorted : C.wanted.Pairwise (· < ·)
  range : ∀ m ∈ C.wanted, 1 ≤ m ∧ m ≤ C.count
  modes : C.wanted.length ≤ nmodmx
  systems : (C.wanted.flatMap fun m => (C.mode m).sys).length ≤ nsysmx
  cdim : ∀ i, C.cdim i ≠ 0

/-- The symmetry is one of those known, and `hex` says which. -/
def Known : Prop :=
  C.word.take 3 ∈ if C.hex then [['H', 'E', 'X'], ['T', 'R', 'I'], ['h', 'e', 'x'], ['t', 'r', 'i']]
    else [['C', 'U', 'B'], ['O', 'R', 'T'], ['c', 'u', 'b'], ['o', 'r', 't']]

/-- Mode `m` has nothing the code would stop at. -/
def Good (m : ℕ) : Prop :=
  C.Known ∧ (C.mode m).thet1 ≤ (C.mode m).thet0 ∧ ∀ s ∈ (C.mode m).sys, (slipVectors (C.vectors s)).isSome

/-- What is wrong with mode `m`. -/
def Fault (m : ℕ) : CrystalStop → Prop
  | .hardening => (C.mode m).thet0 < (C.mode m).thet1
  | .symmetry => (C.mode m).thet1 ≤ (C.mode m).thet0 ∧
      C.word.take 3 ∉ [['H', 'E', 'X'], ['T', 'R', 'I'], ['h', 'e', 'x'], ['t', 'r', 'i'], ['C', 'U', 'B'],
        ['O', 'R', 'T'], ['c', 'u', 'b'], ['o', 'r', 't']]
  | .normality => C.Known ∧ (C.mode m).thet1 ≤ (C.mode m).thet0 ∧ ∃ pre s post, (C.mode m).sys = pre ++ s :: post ∧
      (∀ t ∈ pre, (slipVectors (C.vectors t)).isSome) ∧ vecLen (C.vectors s).1 ≠ 0 ∧ vecLen (C.vectors s).2 ≠ 0 ∧
      1 / 10 ^ 3 ≤ dotV (unitComp (C.vectors s).1) (unitComp (C.vectors s).2)
  | .twins => False

end CrystalSpec

/-! ### Lines -/

theorem map_range_getD {α β : Type} (l : List α) (d : α) (f : α → β) :
    l.map f = (List.range l.length).map fun i => f (l.getD i d) := by
  apply List.ext_getElem
  · simp
  · intro i h1 h2
    simp at h1
    simp [h1]

theorem ok_bind {ε α β : Type} (a : α) (f : α → Except ε β) : ((Except.ok a : Except ε α) >>= f) = f a := rfl

theorem error_bind {ε α β : Type} (e : ε) (f : α → Except ε β) : ((Except.error e : Except ε α) >>= f) = .error e := rfl

theorem guardC_pos {p : Prop} [Decidable p] (h : p) : guardC p = .ok () := if_pos h

theorem need_some {α : Type} {o : Option α} {a : α} (h : o = some a) : need o = .ok a := by rw [h]; rfl

theorem mapM_ok {α β : Type} {f : α → CrystalM β} {g : α → β} : ∀ {l : List α}, (∀ x ∈ l, f x = .ok (g x)) →
    l.mapM f = .ok (l.map g) := by
  intro l
  induction l with
  | nil => intro _; rfl
  | cons x l ih =>
    intro h
    rw [List.mapM_cons, h x (by simp), ok_bind, ih fun y hy => h y (by simp [hy]), ok_bind]
    rfl

theorem mapM_error {α β : Type} {f : α → CrystalM β} {g : α → β} {e : Option CrystalStop} {x : α} {l' : List α}
    (hx : f x = .error e) : ∀ {l : List α}, (∀ x ∈ l, f x = .ok (g x)) → (l ++ x :: l').mapM f = .error e := by
  intro l
  induction l with
  | nil => intro _; rw [List.nil_append, List.mapM_cons, hx, error_bind]
  | cons y l ih =>
    intro h
    rw [List.cons_append, List.mapM_cons, h y (by simp), ok_bind, ih fun z hz => h z (by simp [hz]), error_bind]

theorem sys_read (F : NumConv) (C : CrystalSpec) : ∀ {ss : List ((ℕ → ℤ) × (ℕ → ℤ))} {ls : List (List Char)},
    List.Forall₂ (fun s l => LineText F (C.sysText s) l ∧ ∃ x, l = x ++ ['\n'] ∧ '\n' ∉ x) ss ls →
    DeckText F (ss.map C.sysText) ls.flatten ∧ DeckText F (List.replicate ss.length []) ls.flatten := by
  intro ss ls h
  induction h with
  | nil => exact ⟨.nil, .nil⟩
  | @cons s l ss ls h _ ih =>
    refine ⟨?_, ?_⟩
    · rw [List.map_cons, List.flatten_cons]
      refine .cons (.inr ⟨?_, h.1⟩) ih.1
      unfold CrystalSpec.sysText CrystalSpec.dim
      cases C.hex <;> simp [List.range_succ]
    · rw [List.length_cons, List.replicate_succ, List.flatten_cons]
      exact .cons (.inl ⟨rfl, h.2⟩) ih.2

/-- The assignments made by the lines of slip systems. -/
theorem sys_updates (C : CrystalSpec) (ss : List ((ℕ → ℤ) × (ℕ → ℤ))) :
    deckUpdates (CrystalFile.systems C.dim ss.length) (ss.map C.sysText) =
      (List.range ss.length).flatMap fun j =>
        ((List.range C.dim).map fun k => ((("isn", [j + 1, k + 1]) : Var), Val.int ((ss.getD j default).1 k))) ++
        (List.range C.dim).map fun k => ((("isb", [j + 1, k + 1]) : Var), Val.int ((ss.getD j default).2 k)) := by
  unfold deckUpdates CrystalFile.systems
  rw [map_range_getD ss default C.sysText, List.zip_map', List.flatMap_map]
  congr 1
  funext j
  unfold CrystalSpec.sysText
  simp only [List.map_append, List.map_map]
  rw [List.zip_append (by simp), List.zip_map', List.zip_map']
  rfl

theorem sys_entry (C : CrystalSpec) (ss : List ((ℕ → ℤ) × (ℕ → ℤ))) (env : Var → Option Val) (j k : ℕ)
    (hj : j < ss.length) (hk : k < C.dim) :
    applyUpdates (deckUpdates (CrystalFile.systems C.dim ss.length) (ss.map C.sysText)) env ("isn", [j + 1, k + 1]) =
      some (.int ((ss.getD j default).1 k)) ∧
    applyUpdates (deckUpdates (CrystalFile.systems C.dim ss.length) (ss.map C.sysText)) env ("isb", [j + 1, k + 1]) =
      some (.int ((ss.getD j default).2 k)) := by
  simp only [applyUpdates_apply, sys_updates]
  constructor
  · rw [lastUpdate_some (v := .int ((ss.getD j default).1 k))]
    · rfl
    · simp only [List.map_flatMap, List.mem_flatMap, List.mem_range, List.map_append, List.map_map, List.mem_append,
        List.mem_map, Function.comp]
      exact ⟨j, hj, .inl ⟨k, hk, rfl⟩⟩
    · intro u hu hx
      simp only [List.mem_flatMap, List.mem_range, List.mem_append, List.mem_map] at hu
      obtain ⟨j', -, ⟨k', -, rfl⟩ | ⟨k', -, rfl⟩⟩ := hu
      · simp at hx
        obtain ⟨rfl, rfl⟩ := hx
        rfl
      · simp at hx
  · rw [lastUpdate_some (v := .int ((ss.getD j default).2 k))]
    · rfl
    · simp only [List.map_flatMap, List.mem_flatMap, List.mem_range, List.map_append, List.map_map, List.mem_append,
        List.mem_map, Function.comp]
      exact ⟨j, hj, .inr ⟨k, hk, rfl⟩⟩
    · intro u hu hx
      simp only [List.mem_flatMap, List.mem_range, List.mem_append, List.mem_map] at hu
      obtain ⟨j', -, ⟨k', -, rfl⟩ | ⟨k', -, rfl⟩⟩ := hu
      · simp at hx
      · simp at hx
        obtain ⟨rfl, rfl⟩ := hx
        rfl

/-- The vectors of a system whose line was read. -/
theorem readVectors_eq (C : CrystalSpec) (hd : ∀ i, C.cdim i ≠ 0) (s : Reader) (ss : List ((ℕ → ℤ) × (ℕ → ℤ))) (j : ℕ)
    (h : ∀ k < C.dim, s.env ("isn", [j + 1, k + 1]) = some (.int ((ss.getD j default).1 k)) ∧
      s.env ("isb", [j + 1, k + 1]) = some (.int ((ss.getD j default).2 k))) :
    readVectors C.hex C.cdim s j = .ok (C.vectors (ss.getD j default)) := by
  unfold readVectors CrystalSpec.vectors
  have hdim : C.dim = if C.hex then 4 else 3 := rfl
  cases hc : C.hex
  · rw [hc] at hdim
    simp only [Bool.false_eq_true, if_false] at hdim ⊢
    rw [guardC_pos hd, ok_bind,
      need_some (collectFn_eq fun k : Fin 3 => Reader.int_eq (h k.val (by omega)).1), ok_bind,
      need_some (collectFn_eq fun k : Fin 3 => Reader.int_eq (h k.val (by omega)).2), ok_bind]
  · rw [hc] at hdim
    simp only [if_true] at hdim ⊢
    rw [guardC_pos ⟨hd 0, hd 2⟩, ok_bind,
      need_some (collectFn_eq fun k : Fin 4 => Reader.int_eq (h k.val (by omega)).1), ok_bind,
      need_some (collectFn_eq fun k : Fin 4 => Reader.int_eq (h k.val (by omega)).2), ok_bind]

theorem slipVectors_isSome {v : (Fin 3 → ℝ) × (Fin 3 → ℝ)} (h : (slipVectors v).isSome) :
    slipVectors v = some (unitComp v.1, unitComp v.2) ∧ vecLen v.1 ≠ 0 ∧ vecLen v.2 ≠ 0 := by
  unfold slipVectors at h ⊢
  by_cases h0 : vecLen v.1 = 0 ∨ vecLen v.2 = 0
  · rw [if_pos h0] at h; simp at h
  · rw [if_neg h0] at h ⊢
    dsimp only at h ⊢
    split_ifs at h ⊢ with h1
    · simp at h
    · exact ⟨rfl, fun e => h0 (.inl e), fun e => h0 (.inr e)⟩

theorem symmetryOf_known (C : CrystalSpec) (h : C.Known) : symmetryOf C.word = some C.hex := by
  unfold CrystalSpec.Known at h
  unfold symmetryOf
  cases hc : C.hex <;> rw [hc] at h <;>
    simp only [if_true, Bool.false_eq_true, if_false, List.mem_cons, List.not_mem_nil, or_false] at h
  · rw [if_neg, if_pos h]
    rintro (e | e | e | e) <;> rw [e] at h <;> simp at h
  · rw [if_pos h]

/-- The systems of a good mode. -/
theorem readSystems_good (F : NumConv) (c : CrystalEnv) (C : CrystalSpec) (m : ℕ) (r : ModeHead) (env : Var → Option Val)
    (ls : List (List Char)) (b : List Char)
    (hl : List.Forall₂ (fun s l => LineText F (C.sysText s) l ∧ ∃ x, l = x ++ ['\n'] ∧ '\n' ∉ x) (C.mode m).sys ls)
    (hs : c.sym = symmetryOf C.word) (hc : c.cdim = C.cdim) (hd : ∀ i, C.cdim i ≠ 0)
    (hr : r.nsmx = (C.mode m).sys.length) (hn : r.nsmx ≤ c.nsysmx) (hg : C.Good m) :
    ∃ env', readSystems F c r ⟨env, ⟨ls.flatten ++ b, true⟩⟩ = .ok (⟨env', ⟨b, true⟩⟩,
      (C.mode m).sys.map fun s => r.system (unitComp (C.vectors s).1, unitComp (C.vectors s).2)) := by
  have hdim : (if C.hex then 4 else 3) = C.dim := rfl
  unfold readSystems
  rw [hs, symmetryOf_known C hg.1]
  simp only []
  have hrun := run_deckLines F (sys_read F C hl).1 (CrystalFile.systems C.dim (C.mode m).sys.length) (by
    unfold CrystalFile.systems
    rw [map_range_getD (C.mode m).sys default C.sysText]
    simp [CrystalSpec.sysText, Function.comp_def]) env b
  rw [guardC_pos hn, ok_bind, hdim, hr, hrun, hc]
  refine ⟨applyUpdates (deckUpdates (CrystalFile.systems C.dim (C.mode m).sys.length) ((C.mode m).sys.map C.sysText)) env, ?_⟩
  rw [mapM_ok (g := fun j => (unitComp (C.vectors ((C.mode m).sys.getD j default)).1,
    unitComp (C.vectors ((C.mode m).sys.getD j default)).2)), ok_bind, List.map_map,
    map_range_getD (C.mode m).sys default fun s => r.system (unitComp (C.vectors s).1, unitComp (C.vectors s).2)]
  · rfl
  · intro j hj
    have hj := List.mem_range.mp hj
    unfold readUnit
    rw [readVectors_eq C hd _ (C.mode m).sys j fun k hk => sys_entry C (C.mode m).sys env j k hj hk, ok_bind]
    have hm : (C.mode m).sys.getD j default ∈ (C.mode m).sys := by simp [hj]
    obtain ⟨e, l1, l2⟩ := slipVectors_isSome (hg.2.2 _ hm)
    rw [guardC_pos ⟨l1, l2⟩, ok_bind, e]

/-- The first three lines of a mode. -/
noncomputable def CrystalSpec.head (C : CrystalSpec) (c : CrystalEnv) (m : ℕ) : ModeHead where
  modex := m
  nsmx := (C.mode m).sys.length
  nrs := (C.mode m).expo
  gamd0 := (C.mode m).rate / c.timeScale
  twsh := (C.mode m).twin
  isectw := (C.mode m).sect
  tau0f := (C.mode m).tauF * c.stressScale
  tau0b := (C.mode m).tauB * c.stressScale
  tau1 := (C.mode m).tau1 * c.stressScale
  thet0 := (C.mode m).thet0 * c.stressScale
  thet1 := (C.mode m).thet1 * c.stressScale
  hself := (C.mode m).self
  hlate := fun b => if 1 ≤ b ∧ b ≤ C.count then (C.mode m).latent b else c.l0 m b

theorem mode_latent (C : CrystalSpec) (env : Var → Option Val) (m j : ℕ) (hj : j < C.count) :
    applyUpdates (deckUpdates (CrystalFile.mode m C.count) (C.modeText m)) env ("hlatex", [m, j + 1]) =
      some (.real ((C.mode m).latent (j + 1))) := by
  rw [applyUpdates_apply, lastUpdate_some (v := .real ((C.mode m).latent (j + 1)))]
  · rfl
  · simp [deckUpdates, CrystalFile.mode, CrystalSpec.modeText, List.zip_map', Function.comp_def, hj]
  · intro u hu hx
    simp only [deckUpdates, CrystalFile.mode, CrystalSpec.modeText, List.zip_cons_cons, List.zip_nil_left,
      List.flatMap_cons, List.flatMap_nil, List.map_cons, List.map_nil, List.map_map, List.zip_map', List.mem_append,
      List.mem_cons, List.not_mem_nil, or_false, List.mem_map, List.mem_range, Function.comp] at hu
    rcases hu with hu | hu | hu | hu | ⟨k, -, rfl⟩
    · rw [hu] at hx; simp at hx
    · rcases hu with hu | hu | hu | hu | hu | hu <;> rw [hu] at hx <;> simp at hx
    · rcases hu with hu | hu | hu | hu | hu <;> rw [hu] at hx <;> simp at hx
    · rw [hu] at hx; simp at hx
    · simp at hx
      rw [hx]

theorem readModeHead_eq (c : CrystalEnv) (C : CrystalSpec) (m : ℕ) (env : Var → Option Val) (f : CStream)
    (hn : c.nmodesx = C.count) (ht : c.timeScale ≠ 0) :
    readModeHead c m ⟨applyUpdates (deckUpdates (CrystalFile.mode m C.count) (C.modeText m)) env, f⟩ =
      .ok (C.head c m) := by
  have hk : ∀ (x : Var) (v : Val), x.1 ≠ "hlatex" → lastUpdate x
      [(("prosa", []), Val.word (C.mode m).title), (("modex", []), .int m), (("nsmx", []), .int (C.mode m).sys.length),
       (("nrsx", []), .int (C.mode m).expo), (("gamd0x", []), .real (C.mode m).rate),
       (("twshx", []), .real (C.mode m).twin), (("isectwx", []), .int (C.mode m).sect),
       (("tau0xf", []), .real (C.mode m).tauF), (("tau0xb", []), .real (C.mode m).tauB),
       (("tau1x", []), .real (C.mode m).tau1), (("thet0x", []), .real (C.mode m).thet0),
       (("thet1x", []), .real (C.mode m).thet1), (("hselfx", [m]), .real (C.mode m).self)] = some v →
      (⟨applyUpdates (deckUpdates (CrystalFile.mode m C.count) (C.modeText m)) env, f⟩ : Reader).env x = some v := by
    intro x v hx hv
    have e : deckUpdates (CrystalFile.mode m C.count) (C.modeText m) =
      [(("prosa", []), Val.word (C.mode m).title), (("modex", []), .int m), (("nsmx", []), .int (C.mode m).sys.length),
       (("nrsx", []), .int (C.mode m).expo), (("gamd0x", []), .real (C.mode m).rate),
       (("twshx", []), .real (C.mode m).twin), (("isectwx", []), .int (C.mode m).sect),
       (("tau0xf", []), .real (C.mode m).tauF), (("tau0xb", []), .real (C.mode m).tauB),
       (("tau1x", []), .real (C.mode m).tau1), (("thet0x", []), .real (C.mode m).thet0),
       (("thet1x", []), .real (C.mode m).thet1), (("hselfx", [m]), .real (C.mode m).self)] ++
      (List.range C.count).map fun j => ((("hlatex", [m, j + 1]) : Var), Val.real ((C.mode m).latent (j + 1))) := by
      simp [deckUpdates, CrystalFile.mode, CrystalSpec.modeText, List.zip_map', Function.comp_def]
    dsimp only
    rw [e, applyUpdates_append, applyUpdates_apply, lastUpdate_none, applyUpdates_apply, hv]
    · rfl
    · intro u hu
      simp only [List.mem_map] at hu
      obtain ⟨j, -, rfl⟩ := hu
      intro e
      exact hx (by rw [← e])
  have hi : ∀ (x : Var) (z : ℤ), x.1 ≠ "hlatex" → _ → _ := fun x z h1 h2 => Reader.int_eq (hk x (.int z) h1 h2)
  have hr : ∀ (x : Var) (z : ℝ), x.1 ≠ "hlatex" → _ → _ := fun x z h1 h2 => Reader.real_eq (hk x (.real z) h1 h2)
  unfold readModeHead
  rw [need_some (hi ("modex", []) m (by decide) (by simp [lastUpdate])), ok_bind,
    need_some (hi ("nsmx", []) (C.mode m).sys.length (by decide) (by simp [lastUpdate])), ok_bind,
    need_some (hi ("nrsx", []) (C.mode m).expo (by decide) (by simp [lastUpdate])), ok_bind,
    need_some (hr ("gamd0x", []) (C.mode m).rate (by decide) (by simp [lastUpdate])), ok_bind,
    need_some (hr ("twshx", []) (C.mode m).twin (by decide) (by simp [lastUpdate])), ok_bind,
    need_some (hi ("isectwx", []) (C.mode m).sect (by decide) (by simp [lastUpdate])), ok_bind,
    need_some (hr ("tau0xf", []) (C.mode m).tauF (by decide) (by simp [lastUpdate])), ok_bind,
    need_some (hr ("tau0xb", []) (C.mode m).tauB (by decide) (by simp [lastUpdate])), ok_bind,
    need_some (hr ("tau1x", []) (C.mode m).tau1 (by decide) (by simp [lastUpdate])), ok_bind,
    need_some (hr ("thet0x", []) (C.mode m).thet0 (by decide) (by simp [lastUpdate])), ok_bind,
    need_some (hr ("thet1x", []) (C.mode m).thet1 (by decide) (by simp [lastUpdate])), ok_bind,
    need_some (hr ("hselfx", [m]) (C.mode m).self (by simp) (by simp [lastUpdate])), ok_bind,
    need_some (collectFn_eq (g := fun j : Fin c.nmodesx => (C.mode m).latent (j.val + 1)) fun j =>
      Reader.real_eq (mode_latent C env m j.val (by omega))), ok_bind, guardC_pos ht, ok_bind]
  unfold CrystalSpec.head
  congr 2
  funext b
  rw [← hn]
  by_cases h : 1 ≤ b ∧ b ≤ c.nmodesx
  · rw [dif_pos h, if_pos h]
    dsimp only
    rw [show b - 1 + 1 = b by omega]
  · rw [dif_neg h, if_neg h]

/-! ### The loop over the modes -/

/-- What the head of the file says. -/
structure CrystalSpec.HeadRead (C : CrystalSpec) (c : CrystalEnv) : Prop where
  count : c.nmodesx = C.count
  time : c.timeScale ≠ 0
  sym : c.sym = symmetryOf C.word
  cdim : c.cdim = C.cdim
  mode : ∀ i, c.mode i = (C.wanted.getD (i - 1) 0 : ℕ)
  nmodes : c.nmodes = C.wanted.length

/-- A mode as the loop sees it. -/
noncomputable def CrystalSpec.record (C : CrystalSpec) (c : CrystalEnv) (m : ℕ) : ModeRec SlipSys ℝ where
  modex := m
  hself := (C.mode m).self
  hlate := (C.head c m).hlate
  sys := (C.mode m).sys.map (C.slip c.stressScale c.timeScale m)

theorem head_system (C : CrystalSpec) (c : CrystalEnv) (m : ℕ) (s : (ℕ → ℤ) × (ℕ → ℤ)) :
    (C.head c m).system (unitComp (C.vectors s).1, unitComp (C.vectors s).2) = C.slip c.stressScale c.timeScale m s := by
  unfold ModeHead.system CrystalSpec.slip CrystalSpec.head
  by_cases h : (C.mode m).tau1 * c.stressScale ≤ 1 / 10 ^ 6
  · simp only [if_pos h, if_neg (not_lt.mpr h)]
  · simp only [if_neg h, if_pos (not_le.mp h)]

theorem mode_run (F : NumConv) (C : CrystalSpec) (c : CrystalEnv) (h : C.HeadRead c) (m : ℕ) (env : Var → Option Val)
    (a b : List Char) (ha : DeckText F (C.modeText m) a) :
    runIns F (linesIns (CrystalFile.mode m c.nmodesx)) ⟨env, ⟨a ++ b, true⟩⟩ =
      ⟨applyUpdates (deckUpdates (CrystalFile.mode m C.count) (C.modeText m)) env, ⟨b, true⟩⟩ := by
  rw [h.count]
  exact run_deckLines F ha _ (by simp [CrystalFile.mode, CrystalSpec.modeText, Function.comp_def]) env b

/-- A mode that is not the next one wanted is skipped. -/
theorem crystalMode_skip (F : NumConv) (C : CrystalSpec) (c : CrystalEnv) (h : C.HeadRead c) (m : ℕ)
    (env : Var → Option Val) (a b : List Char) (ls : List (List Char)) (ha : DeckText F (C.modeText m) a)
    (hl : List.Forall₂ (fun s l => LineText F (C.sysText s) l ∧ ∃ x, l = x ++ ['\n'] ∧ '\n' ∉ x) (C.mode m).sys ls)
    (st : CrystalState SlipSys ℝ) (hm : C.wanted.getD (st.kount - 1) 0 ≠ m) :
    ∃ env', crystalMode F c (⟨env, ⟨a ++ (ls.flatten ++ b), true⟩⟩, st) m = .ok (⟨env', ⟨b, true⟩⟩,
      crystalStep (fun i => C.wanted.getD (i - 1) 0) C.wanted.length st (m, C.record c m)) := by
  have hr := run_deckLines F (sys_read F C hl).2 (CrystalFile.skipped (C.mode m).sys.length) (by
    simp [CrystalFile.skipped])
    (applyUpdates (deckUpdates (CrystalFile.mode m C.count) (C.modeText m)) env) b
  refine ⟨applyUpdates (deckUpdates (CrystalFile.skipped (C.mode m).sys.length)
    (List.replicate (C.mode m).sys.length []))
    (applyUpdates (deckUpdates (CrystalFile.mode m C.count) (C.modeText m)) env), ?_⟩
  unfold crystalMode
  dsimp only
  rw [mode_run F C c h m env a _ ha, readModeHead_eq c C m env _ h.count h.time, ok_bind]
  have h1 : (C.head c m).modex ≠ c.mode st.kount := by
    rw [h.mode]
    show (m : ℤ) ≠ _
    exact fun e => hm (by exact_mod_cast e.symm)
  have h2 : (C.record c m).modex ≠ C.wanted.getD (st.kount - 1) 0 := fun e => hm e.symm
  rw [if_pos h1]
  unfold crystalStep
  dsimp only
  rw [if_pos h2]
  have e : (C.head c m).nsmx = (C.mode m).sys.length := rfl
  rw [e, hr]
  rfl

theorem crystalMode_accept (F : NumConv) (C : CrystalSpec) (c : CrystalEnv) (h : C.HeadRead c)
    (hd : ∀ i, C.cdim i ≠ 0) (hss : 0 < c.stressScale) (m : ℕ)
    (env : Var → Option Val) (a b : List Char) (ls : List (List Char)) (ha : DeckText F (C.modeText m) a)
    (hl : List.Forall₂ (fun s l => LineText F (C.sysText s) l ∧ ∃ x, l = x ++ ['\n'] ∧ '\n' ∉ x) (C.mode m).sys ls)
    (st : CrystalState SlipSys ℝ) (hm : C.wanted.getD (st.kount - 1) 0 = m) (hg : C.Good m)
    (hk : st.kount ≤ c.nmodmx) (hsys : st.sys.length + (C.mode m).sys.length ≤ c.nsysmx) :
    ∃ env', crystalMode F c (⟨env, ⟨a ++ (ls.flatten ++ b), true⟩⟩, st) m = .ok (⟨env', ⟨b, true⟩⟩,
      crystalStep (fun i => C.wanted.getD (i - 1) 0) C.wanted.length st (m, C.record c m)) := by
  obtain ⟨env', hr⟩ := readSystems_good F c C m (C.head c m)
    (applyUpdates (deckUpdates (CrystalFile.mode m C.count) (C.modeText m)) env) ls b hl h.sym h.cdim hd rfl
    (le_trans (Nat.le_add_left _ _) hsys) hg
  refine ⟨env', ?_⟩
  unfold crystalMode
  dsimp only
  rw [mode_run F C c h m env a _ ha, readModeHead_eq c C m env _ h.count h.time, ok_bind]
  have h1 : ¬(C.head c m).modex ≠ c.mode st.kount := by
    rw [h.mode, hm]
    exact fun e => e rfl
  have h2 : ¬(C.record c m).modex ≠ C.wanted.getD (st.kount - 1) 0 := fun e => e hm.symm
  have h3 : ¬(C.head c m).thet0 < (C.head c m).thet1 :=
    not_lt.mpr (mul_le_mul_of_nonneg_right hg.2.1 hss.le)
  rw [if_neg h1, if_neg h3, hr, ok_bind, guardC_pos ⟨hk, by simpa using hsys⟩, ok_bind]
  unfold crystalStep
  dsimp only
  rw [if_neg h2]
  have hmode : (fun i => (c.mode i).toNat) = fun i => C.wanted.getD (i - 1) 0 := by
    funext i
    rw [h.mode, Int.toNat_natCast]
  simp only [hmode, h.nmodes, head_system]
  have hlen : (C.record c m).sys.length = (C.head c m).nsmx := by
    simp [CrystalSpec.record, CrystalSpec.head]
  rw [hlen]
  rfl

/-- What holds before mode `k` is read: the wanted modes below `k` were found. -/
structure CrystalFileInv (C : CrystalSpec) (c : CrystalEnv) (k : ℕ) (st : CrystalState SlipSys ℝ) (i : ℕ) : Prop where
  kount : st.kount = i + 1
  le : i ≤ C.wanted.length
  below : ∀ x ∈ C.wanted.take i, x < k
  above : ∀ x ∈ C.wanted.drop i, k ≤ x
  sys : st.sys = (C.wanted.take i).flatMap fun m => (C.mode m).sys.map (C.slip c.stressScale c.timeScale m)

theorem crystalFileInv_step (C : CrystalSpec) (c : CrystalEnv) (hs : C.wanted.Pairwise (· < ·)) {k : ℕ}
    {st : CrystalState SlipSys ℝ} {i : ℕ} (hi : CrystalFileInv C c k st i) (hk : 1 ≤ k) :
    (C.wanted.getD (st.kount - 1) 0 ≠ k ∧ k ∉ C.wanted ∧ CrystalFileInv C c (k + 1)
      (crystalStep (fun i => C.wanted.getD (i - 1) 0) C.wanted.length st (k, C.record c k)) i) ∨
    (C.wanted.getD (st.kount - 1) 0 = k ∧ i < C.wanted.length ∧ C.wanted.take (i + 1) = C.wanted.take i ++ [k] ∧
      CrystalFileInv C c (k + 1)
        (crystalStep (fun i => C.wanted.getD (i - 1) 0) C.wanted.length st (k, C.record c k)) (i + 1)) := by
  have hkk : st.kount - 1 = i := by rw [hi.kount]; rfl
  by_cases hm : C.wanted.getD (st.kount - 1) 0 = k
  · right
    have hlt : i < C.wanted.length := by
      by_contra hn
      rw [hkk, List.getD_eq_default _ _ (not_lt.mp hn)] at hm
      omega
    have hget : C.wanted[i] = k := by
      rw [hkk] at hm
      simpa [hlt] using hm
    have htake : C.wanted.take (i + 1) = C.wanted.take i ++ [k] := by
      rw [List.take_succ_eq_append_getElem hlt, hget]
    refine ⟨hm, hlt, htake, ⟨?_, hlt, ?_, ?_, ?_⟩⟩
    · unfold crystalStep
      dsimp only
      rw [if_neg (by exact fun e => e hm.symm)]
      simp [hi.kount]
    · intro x hx
      rw [htake] at hx
      rcases List.mem_append.mp hx with hx | hx
      · exact Nat.lt_succ_of_lt (hi.below x hx)
      · simp at hx; omega
    · intro x hx
      have hp : (C.wanted.drop i).Pairwise (· < ·) := hs.sublist (List.drop_sublist _ _)
      rw [List.drop_eq_getElem_cons hlt, List.pairwise_cons, hget] at hp
      exact hp.1 x hx
    · unfold crystalStep
      dsimp only
      rw [if_neg (by exact fun e => e hm.symm)]
      dsimp only
      rw [hi.sys, htake, List.flatMap_append]
      simp [CrystalSpec.record]
  · left
    have hni : k ∉ C.wanted := by
      intro hmem
      rw [← List.take_append_drop i C.wanted] at hmem
      rcases List.mem_append.mp hmem with hx | hx
      · exact absurd (hi.below k hx) (lt_irrefl _)
      · have hlt : i < C.wanted.length := by
          by_contra hn
          rw [List.drop_eq_nil_of_le (not_lt.mp hn)] at hx
          simp at hx
        have hp : (C.wanted.drop i).Pairwise (· < ·) := hs.sublist (List.drop_sublist _ _)
        have hab := hi.above C.wanted[i] (by rw [List.drop_eq_getElem_cons hlt]; exact List.mem_cons_self)
        rw [List.drop_eq_getElem_cons hlt] at hx hp
        rcases List.mem_cons.mp hx with e | e
        · apply hm
          rw [hkk]
          simp [hlt, ← e]
        · have := (List.pairwise_cons.mp hp).1 k e
          omega
    refine ⟨hm, hni, ⟨?_, hi.le, ?_, ?_, ?_⟩⟩
    · unfold crystalStep
      dsimp only
      rw [if_pos (by exact fun e => hm e.symm)]
      exact hi.kount
    · intro x hx
      exact Nat.lt_succ_of_lt (hi.below x hx)
    · intro x hx
      have := hi.above x hx
      have hx' : x ≠ k := fun e => hni (by rw [← e]; exact List.mem_of_mem_drop hx)
      omega
    · unfold crystalStep
      dsimp only
      rw [if_pos (by exact fun e => hm e.symm)]
      exact hi.sys

/-- The loop over modes all of which are good when wanted. -/
theorem crystalLoop (F : NumConv) (C : CrystalSpec) (c : CrystalEnv) (h : C.HeadRead c)
    (hf : C.Fits c.nsysmx c.nmodmx) (hss : 0 < c.stressScale) : ∀ (n k : ℕ) (env : Var → Option Val) (cs rest : List Char)
    (st : CrystalState SlipSys ℝ) (i : ℕ), 1 ≤ k → C.ModesText F (List.range' k n) cs → CrystalFileInv C c k st i →
    (∀ m ∈ C.wanted, k ≤ m → m < k + n → C.Good m) →
    ∃ env' i', (List.range' k n).foldlM (crystalMode F c) (⟨env, ⟨cs ++ rest, true⟩⟩, st) = .ok (⟨env', ⟨rest, true⟩⟩,
      (List.range' k n).foldl (fun st m =>
        crystalStep (fun i => C.wanted.getD (i - 1) 0) C.wanted.length st (m, C.record c m)) st) ∧
      CrystalFileInv C c (k + n) ((List.range' k n).foldl (fun st m =>
        crystalStep (fun i => C.wanted.getD (i - 1) 0) C.wanted.length st (m, C.record c m)) st) i' := by
  intro n
  induction n with
  | zero =>
    intro k env cs rest st i _ ht hi _
    simp only [List.range'_zero, CrystalSpec.ModesText] at ht
    subst ht
    exact ⟨env, i, rfl, hi⟩
  | succ n ih =>
    intro k env cs rest st i hk ht hi hg
    rw [List.range'_succ] at ht ⊢
    obtain ⟨a, ls, b, rfl, ha, hl, hb⟩ := ht
    have hassoc : a ++ (ls.flatten ++ b) ++ rest = a ++ (ls.flatten ++ (b ++ rest)) := by simp
    rw [hassoc, List.foldlM_cons, List.foldl_cons]
    have e : k + (n + 1) = k + 1 + n := by omega
    rw [e]
    have hg' : ∀ m ∈ C.wanted, k + 1 ≤ m → m < k + 1 + n → C.Good m := fun m hm h1 h2 => hg m hm (by omega) (by omega)
    rcases crystalFileInv_step C c hf.sorted hi hk with ⟨hm, -, hi'⟩ | ⟨hm, hlt, htake, hi'⟩
    · obtain ⟨env1, he⟩ := crystalMode_skip F C c h k env a (b ++ rest) ls ha hl st hm
      rw [he, ok_bind]
      exact ih (k + 1) env1 b rest _ i (by omega) hb hi' hg'
    · have hkw : k ∈ C.wanted := by
        have : k ∈ C.wanted.take (i + 1) := by rw [htake]; simp
        exact List.mem_of_mem_take this
      have hsz : st.sys.length + (C.mode k).sys.length ≤ c.nsysmx := by
        have h1 : ((C.wanted.take (i + 1)).flatMap fun m => (C.mode m).sys).length ≤
            (C.wanted.flatMap fun m => (C.mode m).sys).length :=
          ((List.take_sublist _ _).flatMap _).length_le
        have h2 := hf.systems
        rw [htake, List.flatMap_append, List.length_append] at h1
        have h3 : st.sys.length = ((C.wanted.take i).flatMap fun m => (C.mode m).sys).length := by
          rw [hi.sys]
          simp [List.length_flatMap]
        rw [h3]
        simp only [List.flatMap_cons, List.flatMap_nil, List.append_nil] at h1
        omega
      have hko : st.kount ≤ c.nmodmx := by
        have := hf.modes
        rw [hi.kount]; omega
      obtain ⟨env1, he⟩ := crystalMode_accept F C c h hf.cdim hss k env a (b ++ rest) ls ha hl st hm
        (hg k hkw (by omega) (by omega)) hko hsz
      rw [he, ok_bind]
      exact ih (k + 1) env1 b rest _ (i + 1) (by omega) hb hi' hg'

/-! ### The head of the file -/

theorem mode_entry (C : CrystalSpec) (env : Var → Option Val) (i : ℕ) (hi : i < C.wanted.length) :
    applyUpdates (deckUpdates (CrystalFile.modes C.wanted.length) C.wantedText) env ("mode", [i + 1]) =
      some (.int (C.wanted.getD i 0 : ℕ)) := by
  have e : deckUpdates (CrystalFile.modes C.wanted.length) C.wantedText =
      (List.range C.wanted.length).map fun i => ((("mode", [i + 1]) : Var), Val.int (C.wanted.getD i 0 : ℕ)) := by
    unfold deckUpdates CrystalFile.modes CrystalSpec.wantedText
    rw [map_range_getD C.wanted 0]
    simp [List.zip_map', Function.comp_def]
  rw [e, applyUpdates_apply, lastUpdate_some (v := .int (C.wanted.getD i 0 : ℕ))]
  · rfl
  · simp [hi]
  · intro u hu hx
    simp only [List.mem_map] at hu
    obtain ⟨k, -, rfl⟩ := hu
    simp only [Prod.mk.injEq, List.cons.injEq, Nat.add_right_cancel_iff, and_true, true_and] at hx
    rw [hx]

/-- What the loop over the modes works with. -/
noncomputable def CrystalSpec.env (C : CrystalSpec) (nsysmx nmodmx : ℕ) (ss ts : ℝ) (l0 : ℕ → ℕ → ℝ) : CrystalEnv :=
  ⟨nsysmx, nmodmx, ss, ts, symmetryOf C.word, C.cdim, C.count, C.wanted.length,
    fun i => (C.wanted.getD (i - 1) 0 : ℕ), l0⟩

theorem CrystalSpec.env_head (C : CrystalSpec) (nsysmx nmodmx : ℕ) (ss ts : ℝ) (l0 : ℕ → ℕ → ℝ) (ht : ts ≠ 0) :
    C.HeadRead (C.env nsysmx nmodmx ss ts l0) :=
  ⟨rfl, ht, rfl, rfl, fun _ => rfl, rfl⟩

/-- The lines behind the titles. -/
theorem readSlips_head (F : NumConv) (C : CrystalSpec) (nsysmx nmodmx : ℕ) (ss ts : ℝ) (h0 : ℕ → ℝ) (l0 : ℕ → ℕ → ℝ)
    (n0 : ℕ → ℕ) (env : Var → Option Val) (a b rest : List Char) (ha : DeckText F C.sizeText a)
    (hb : DeckText F C.wantedText b) (hw : env ("icryst", []) = some (.word C.word)) (hc : C.count ≤ 10)
    (hl : C.wanted.length ≤ 10) (hr : ∀ m ∈ C.wanted, 1 ≤ m ∧ m ≤ C.count) :
    ∃ env', readSlips F nsysmx nmodmx ss ts h0 l0 n0 ⟨env, ⟨a ++ (b ++ rest), true⟩⟩ = (do
      let x ← (List.range' 1 C.count).foldlM (crystalMode F (C.env nsysmx nmodmx ss ts l0))
        (⟨env', ⟨rest, true⟩⟩, { kount := 1, hself := h0, hlate := l0, nsm := n0, sys := [] })
      if 1 < C.wanted.length ∧ twinsFirst x.2.sys then .error (some .twins)
      else .ok (x.2, C.wanted.length)) := by
  have r1 := run_deckLines F ha CrystalFile.sizes rfl env (b ++ rest)
  obtain ⟨env1, he1⟩ : ∃ e, e = applyUpdates (deckUpdates CrystalFile.sizes C.sizeText) env := ⟨_, rfl⟩
  rw [← he1] at r1
  have r2 := run_deckLines F hb (CrystalFile.modes C.wanted.length) (by
    simp [CrystalFile.modes, CrystalSpec.wantedText, Function.comp_def]) env1 rest
  obtain ⟨env2, he2⟩ : ∃ e, e = applyUpdates (deckUpdates (CrystalFile.modes C.wanted.length) C.wantedText) env1 :=
    ⟨_, rfl⟩
  rw [← he2] at r2
  have c1 : (collectFn fun i : Fin 3 => Reader.real ⟨env1, ⟨b ++ rest, true⟩⟩ ("cdim", [i.val + 1])) = some C.cdim := by
    refine collectFn_eq fun i => Reader.real_eq ?_
    rw [he1]
    fin_cases i <;>
      simp [applyUpdates_apply, deckUpdates, CrystalFile.sizes, CrystalSpec.sizeText, lastUpdate]
  have c2 : Reader.int ⟨env1, ⟨b ++ rest, true⟩⟩ ("nmodesx", []) = some (C.count : ℤ) := by
    refine Reader.int_eq ?_
    rw [he1]
    simp [applyUpdates_apply, deckUpdates, CrystalFile.sizes, CrystalSpec.sizeText, lastUpdate]
  have c3 : Reader.int ⟨env1, ⟨b ++ rest, true⟩⟩ ("nmodes", []) = some (C.wanted.length : ℤ) := by
    refine Reader.int_eq ?_
    rw [he1]
    simp [applyUpdates_apply, deckUpdates, CrystalFile.sizes, CrystalSpec.sizeText, lastUpdate]
  have c4 : Reader.word ⟨env2, ⟨rest, true⟩⟩ ("icryst", []) = C.word := by
    refine Reader.word_eq ?_
    show env2 _ = _
    rw [he2, applyUpdates_apply, lastUpdate_none, he1]
    · simp [applyUpdates_apply, deckUpdates, CrystalFile.sizes, CrystalSpec.sizeText, lastUpdate, hw]
    · intro u hu
      simp only [deckUpdates, CrystalFile.modes, CrystalSpec.wantedText, List.zip_cons_cons, List.zip_nil_left,
        List.flatMap_cons, List.flatMap_nil, List.append_nil] at hu
      have := (List.of_mem_zip hu).1
      simp only [List.mem_map, List.mem_range] at this
      obtain ⟨x, ⟨y, -, rfl⟩, hx⟩ := this
      rw [← hx]
      simp
  have c5 : (collectFn fun i : Fin (C.wanted.length : ℤ).toNat =>
      Reader.int ⟨env2, ⟨rest, true⟩⟩ ("mode", [i.val + 1])) = some fun i : Fin (C.wanted.length : ℤ).toNat => ((C.wanted.getD i.val 0 : ℕ) : ℤ) := by
    refine collectFn_eq fun i => Reader.int_eq ?_
    show env2 _ = _
    rw [he2]
    exact mode_entry C env1 i.val (by have := i.isLt; omega)
  refine ⟨env2, ?_⟩
  unfold readSlips
  dsimp only
  rw [r1, need_some c1, ok_bind, need_some c2, ok_bind, need_some c3, ok_bind,
    guardC_pos ⟨by omega, by omega⟩, ok_bind, Int.toNat_natCast, r2]
  rw [Int.toNat_natCast] at c5
  rw [need_some c5, ok_bind, guardC_pos, ok_bind, c4]
  · have e : (⟨nsysmx, nmodmx, ss, ts, symmetryOf C.word, C.cdim, (C.count : ℤ).toNat, C.wanted.length,
        fun i => if h : i - 1 < C.wanted.length then ((C.wanted.getD (i - 1) 0 : ℕ) : ℤ) else 0, l0⟩ : CrystalEnv) =
        C.env nsysmx nmodmx ss ts l0 := by
      unfold CrystalSpec.env
      rw [Int.toNat_natCast]
      congr 1
      funext i
      split_ifs with hi
      · rfl
      · rw [List.getD_eq_default _ _ (not_lt.mp hi)]; rfl
    rw [e, Int.toNat_natCast]
    simp only [Nat.one_lt_cast]
  · intro i
    have := hr (C.wanted.getD i.val 0) (by simp)
    show (1 : ℤ) ≤ (C.wanted.getD i.val 0 : ℕ) ∧ ((C.wanted.getD i.val 0 : ℕ) : ℤ) ≤ 10
    omega

/-- The whole file. -/
theorem readCrystal_head (F : NumConv) (C : CrystalSpec) (nsysmx nmodmx : ℕ) (ss ts : ℝ) (h0 : ℕ → ℝ) (l0 : ℕ → ℕ → ℝ)
    (n0 : ℕ → ℕ) (cs rest : List Char) (h : C.Text F cs) (hc : C.count ≤ 10)
    (hl : C.wanted.length ≤ 10) (hr : ∀ m ∈ C.wanted, 1 ≤ m ∧ m ≤ C.count) :
    ∃ env' b, C.ModesText F (List.range' 1 C.count) b ∧
    readCrystal F nsysmx nmodmx ss ts h0 l0 n0 (cs ++ rest) = (do
      let x ← (List.range' 1 C.count).foldlM (crystalMode F (C.env nsysmx nmodmx ss ts l0))
        (⟨env', ⟨b ++ rest, true⟩⟩, { kount := 1, hself := h0, hlate := l0, nsm := n0, sys := [] })
      if 1 < C.wanted.length ∧ twinsFirst x.2.sys then .error (some .twins)
      else .ok (x.2, C.wanted.length)) := by
  obtain ⟨a, b, rfl, ha, hb⟩ := h
  obtain ⟨a12, a3, rfl, ha, h3⟩ := ha.split
  obtain ⟨a1, a2, rfl, h1, h2⟩ := ha.split
  unfold readCrystal
  rw [show a1 ++ a2 ++ a3 ++ b ++ rest = a1 ++ (a2 ++ (a3 ++ (b ++ rest))) by simp,
    run_deckLines F h1 CrystalFile.titles rfl]
  obtain ⟨env', e⟩ := readSlips_head F C nsysmx nmodmx ss ts h0 l0 n0
    (applyUpdates (deckUpdates CrystalFile.titles C.titleText) fun _ => none) a2 a3 (b ++ rest) h2 h3 (by
      simp [applyUpdates_apply, deckUpdates, CrystalFile.titles, CrystalSpec.titleText, lastUpdate]) hc hl hr
  exact ⟨env', b, hb, e⟩

theorem wanted_length {w : List ℕ} (hs : w.Pairwise (· < ·)) {n : ℕ} (hr : ∀ m ∈ w, 1 ≤ m ∧ m ≤ n) : w.length ≤ n := by
  have hsub : w ⊆ List.range' 1 n := by
    intro m hm
    have := hr m hm
    rw [List.mem_range'_1]
    omega
  have hn : w.Nodup := hs.imp fun h => by omega
  have := (List.subperm_of_subset hn hsub).length_le
  simpa using this

theorem twinsFirst_iff (l : List SlipSys) : twinsFirst l = true ↔
    ∃ i a b, l[i]? = some a ∧ l[i + 1]? = some b ∧ a.twsh ≠ 0 ∧ b.twsh = 0 := by
  unfold twinsFirst
  rw [List.any_eq_true]
  constructor
  · rintro ⟨p, hp, h⟩
    obtain ⟨i, hi, e⟩ := List.mem_iff_getElem.mp hp
    simp only [List.length_zip, List.length_tail] at hi
    rw [List.getElem_zip] at e
    refine ⟨i, p.1, p.2, ?_, ?_, ?_⟩
    · rw [← e, List.getElem?_eq_getElem]
    · rw [← e]
      simp
    · simpa [and_comm] using h
  · rintro ⟨i, a, b, ha, hb, h⟩
    refine ⟨(a, b), ?_, by simpa [and_comm] using h⟩
    obtain ⟨hi, rfl⟩ := List.getElem?_eq_some_iff.mp ha
    obtain ⟨hj, rfl⟩ := List.getElem?_eq_some_iff.mp hb
    rw [List.mem_iff_getElem]
    refine ⟨i, by simp; omega, ?_⟩
    simp

theorem crystalRead_range (C : CrystalSpec) (c : CrystalEnv) (h0 : ℕ → ℝ) (l0 : ℕ → ℕ → ℝ) (n0 : ℕ → ℕ) (n : ℕ) :
    crystalRead (fun i => C.wanted.getD (i - 1) 0) C.wanted.length h0 l0 n0
      ((List.range n).map fun k => C.record c (k + 1)) =
    (List.range' 1 n).foldl (fun st m =>
      crystalStep (fun i => C.wanted.getD (i - 1) 0) C.wanted.length st (m, C.record c m))
      { kount := 1, hself := h0, hlate := l0, nsm := n0, sys := [] } := by
  unfold crystalRead
  have e : ((List.range n).map fun k => C.record c (k + 1)).zipIdx 1 =
      (List.range' 1 n).map fun m => (C.record c m, m) := by
    apply List.ext_getElem
    · simp
    · intro i h1 h2
      simp [Nat.add_comm]
  rw [e, List.foldl_map]

/-- The slip systems wanted, in order (spec). -/
noncomputable def CrystalSpec.all (C : CrystalSpec) (ss ts : ℝ) : List SlipSys :=
  C.wanted.flatMap fun m => (C.mode m).sys.map (C.slip ss ts m)

/-- The modes they belong to (spec). -/
def CrystalSpec.owner (C : CrystalSpec) : List ℕ := C.wanted.flatMap fun m => List.replicate (C.mode m).sys.length m

/-- **C120.** A crystal file in the documented layout is understood whatever comments its lines carry and whatever
stands behind it: the slip systems stored are those of the wanted modes, in order, each with the properties of its mode
in the units asked for and with its unit vectors; the hardening matrix holds the self and latent coefficients of their
modes.  Lines of modes that are not wanted have no influence.  The run stops instead exactly when a slip system follows
a twinning system. -/
theorem C120_crystal (F : NumConv) (C : CrystalSpec) (nsysmx nmodmx : ℕ) (ss ts : ℝ) (h0 : ℕ → ℝ) (l0 : ℕ → ℕ → ℝ)
    (n0 : ℕ → ℕ) (cs rest : List Char) (h : C.Text F cs) (hf : C.Fits nsysmx nmodmx) (hss : 0 < ss) (hts : ts ≠ 0)
    (hg : ∀ m ∈ C.wanted, C.Good m) :
    ((∃ i a b, (C.all ss ts)[i]? = some a ∧ (C.all ss ts)[i + 1]? = some b ∧ a.twsh ≠ 0 ∧ b.twsh = 0) →
      readCrystal F nsysmx nmodmx ss ts h0 l0 n0 (cs ++ rest) = .error (some .twins)) ∧
    (¬(∃ i a b, (C.all ss ts)[i]? = some a ∧ (C.all ss ts)[i + 1]? = some b ∧ a.twsh ≠ 0 ∧ b.twsh = 0) →
      ∃ st, readCrystal F nsysmx nmodmx ss ts h0 l0 n0 (cs ++ rest) = .ok (st, C.wanted.length) ∧
        st.sys = C.all ss ts ∧
        ∀ i j (hi : i < C.owner.length) (hj : j < C.owner.length), hardMatrix st C.wanted.length i j =
          some (if i = j then (C.mode C.owner[i]).self else (C.mode C.owner[i]).latent C.owner[j])) := by
  have hw := wanted_length hf.sorted hf.range
  obtain ⟨env', b, hb, e⟩ := readCrystal_head F C nsysmx nmodmx ss ts h0 l0 n0 cs rest h hf.count (hw.trans hf.count) hf.range
  obtain ⟨env2, i', hloop, -⟩ := crystalLoop F C (C.env nsysmx nmodmx ss ts l0) (C.env_head nsysmx nmodmx ss ts l0 hts)
    hf hss C.count 1 env' b rest { kount := 1, hself := h0, hlate := l0, nsm := n0, sys := [] } 0 le_rfl hb
    ⟨rfl, Nat.zero_le _, by simp, fun x hx => (hf.range x (by simpa using hx)).1, by simp⟩ (fun m hm _ _ => hg m hm)
  rw [e, hloop, ok_bind, ← crystalRead_range]
  obtain ⟨-, h2, h3⟩ := C70_active_modes C.wanted hf.sorted C.count hf.range
    (C.record (C.env nsysmx nmodmx ss ts l0)) (fun _ => rfl) h0 l0 n0
  have hall : (C.wanted.flatMap fun m => (C.record (C.env nsysmx nmodmx ss ts l0) m).sys) = C.all ss ts := rfl
  have howner : (C.wanted.flatMap fun m =>
      List.replicate (C.record (C.env nsysmx nmodmx ss ts l0) m).sys.length m) = C.owner := by
    simp [CrystalSpec.owner, CrystalSpec.record]
  dsimp only at h2 h3 ⊢
  simp only [howner] at h3
  rw [hall] at h2
  rw [h2]
  refine ⟨fun hd => ?_, fun hd => ?_⟩
  · rw [if_pos]
    refine ⟨?_, (twinsFirst_iff _).mpr hd⟩
    by_contra hl
    obtain ⟨i, x, y, hx, hy, hx0, hy0⟩ := hd
    have hmx := List.mem_of_getElem? hx
    have hmy := List.mem_of_getElem? hy
    unfold CrystalSpec.all at hmx hmy
    rcases hcw : C.wanted with _ | ⟨m, _ | ⟨m', w⟩⟩
    · rw [hcw] at hmx; simp at hmx
    · rw [hcw] at hmx hmy
      simp only [List.flatMap_cons, List.flatMap_nil, List.append_nil, List.mem_map] at hmx hmy
      obtain ⟨s, -, rfl⟩ := hmx
      obtain ⟨t, -, rfl⟩ := hmy
      exact hx0 hy0
    · rw [hcw] at hl; simp at hl
  · rw [if_neg (fun hh => hd ((twinsFirst_iff _).mp hh.2))]
    refine ⟨_, rfl, h2, fun i j hi hj => ?_⟩
    rw [h3 i j hi hj]
    congr 1
    split_ifs with hij
    · rfl
    · have hmem : C.owner[j] ∈ C.owner := List.getElem_mem _
      unfold CrystalSpec.owner at hmem
      simp only [List.mem_flatMap] at hmem
      obtain ⟨m, hm, hm'⟩ := hmem
      have hm' := List.eq_of_mem_replicate hm'
      have := hf.range m hm
      show (if 1 ≤ C.owner[j] ∧ C.owner[j] ≤ C.count then _ else _) = _
      rw [if_pos]
      show 1 ≤ C.owner[j] ∧ _
      unfold CrystalSpec.owner
      rw [hm']
      exact this

/-- **C120.** When no slip mode is wanted behind a twinning mode, the check of the order never stops the run. -/
theorem C120_twins (C : CrystalSpec) (ss ts : ℝ) (hs : C.wanted.Pairwise (· < ·))
    (ht : ∀ m ∈ C.wanted, ∀ m' ∈ C.wanted, m < m' → (C.mode m).twin ≠ 0 → (C.mode m').twin ≠ 0) :
    ¬∃ i a b, (C.all ss ts)[i]? = some a ∧ (C.all ss ts)[i + 1]? = some b ∧ a.twsh ≠ 0 ∧ b.twsh = 0 := by
  have hp : (C.all ss ts).Pairwise fun a b => a.twsh ≠ 0 → b.twsh ≠ 0 := by
    unfold CrystalSpec.all
    rw [List.pairwise_flatMap]
    refine ⟨fun m _ => ?_, ?_⟩
    · rw [List.pairwise_map]
      exact List.pairwise_of_forall fun _ _ hh => hh
    · refine List.Pairwise.imp_of_mem ?_ hs
      intro m m' hm hm' hlt x hx y hy
      simp only [List.mem_map] at hx hy
      obtain ⟨s, -, rfl⟩ := hx
      obtain ⟨t, -, rfl⟩ := hy
      exact ht m hm m' hm' hlt
  rintro ⟨i, a, b, ha, hb, h1, h2⟩
  obtain ⟨hi, rfl⟩ := List.getElem?_eq_some_iff.mp ha
  obtain ⟨hj, rfl⟩ := List.getElem?_eq_some_iff.mp hb
  exact List.pairwise_iff_getElem.mp hp i (i + 1) hi hj (by omega) h1 h2

/-! ### Stops -/

theorem symmetryOf_unknown {w : List Char}
    (h : w.take 3 ∉ [['H', 'E', 'X'], ['T', 'R', 'I'], ['h', 'e', 'x'], ['t', 'r', 'i'], ['C', 'U', 'B'],
      ['O', 'R', 'T'], ['c', 'u', 'b'], ['o', 'r', 't']]) : symmetryOf w = none := by
  simp only [List.mem_cons, List.not_mem_nil, or_false, not_or] at h
  unfold symmetryOf
  rw [if_neg (by tauto), if_neg (by tauto)]

/-- The systems of a mode one of which is not orthogonal. -/
theorem readSystems_normality (F : NumConv) (c : CrystalEnv) (C : CrystalSpec) (m : ℕ) (r : ModeHead)
    (env : Var → Option Val) (ls : List (List Char)) (b : List Char)
    (hl : List.Forall₂ (fun s l => LineText F (C.sysText s) l ∧ ∃ x, l = x ++ ['\n'] ∧ '\n' ∉ x) (C.mode m).sys ls)
    (hs : c.sym = symmetryOf C.word) (hc : c.cdim = C.cdim) (hd : ∀ i, C.cdim i ≠ 0)
    (hr : r.nsmx = (C.mode m).sys.length) (hn : r.nsmx ≤ c.nsysmx) (hg : C.Fault m .normality) :
    readSystems F c r ⟨env, ⟨ls.flatten ++ b, true⟩⟩ = .error (some .normality) := by
  have hdim : (if C.hex then 4 else 3) = C.dim := rfl
  obtain ⟨hk, -, pre, s, post, hsys, hpre, l1, l2, hdot⟩ := hg
  unfold readSystems
  rw [hs, symmetryOf_known C hk]
  simp only []
  have hrun := run_deckLines F (sys_read F C hl).1 (CrystalFile.systems C.dim (C.mode m).sys.length) (by
    unfold CrystalFile.systems
    rw [map_range_getD (C.mode m).sys default C.sysText]
    simp [CrystalSpec.sysText, Function.comp_def]) env b
  rw [guardC_pos hn, ok_bind, hdim, hr, hrun, hc]
  have hlen : (C.mode m).sys.length = pre.length + (post.length + 1) := by rw [hsys]; simp
  have hrange : List.range (C.mode m).sys.length =
      List.range pre.length ++ pre.length :: (List.range post.length).map (fun k => pre.length + (k + 1)) := by
    rw [hlen, List.range_add, List.range_succ_eq_map]
    simp [Function.comp_def]
  rw [hrange, mapM_error (e := some .normality) (g := fun j => (unitComp (C.vectors ((C.mode m).sys.getD j default)).1,
    unitComp (C.vectors ((C.mode m).sys.getD j default)).2)), error_bind]
  · unfold readUnit
    rw [readVectors_eq C hd _ (C.mode m).sys pre.length fun k hk =>
      sys_entry C (C.mode m).sys env pre.length k (by omega) hk, ok_bind]
    have hget : (C.mode m).sys.getD pre.length default = s := by rw [hsys]; simp
    rw [hget, guardC_pos ⟨l1, l2⟩, ok_bind]
    have : slipVectors (C.vectors s) = none := by
      unfold slipVectors
      rw [if_neg (by tauto)]
      dsimp only
      rw [if_pos]
      unfold dotV at hdot
      linarith
    rw [this]
  · intro j hj
    have hj := List.mem_range.mp hj
    unfold readUnit
    rw [readVectors_eq C hd _ (C.mode m).sys j fun k hk => sys_entry C (C.mode m).sys env j k (by omega) hk, ok_bind]
    have hm : (C.mode m).sys.getD j default ∈ pre := by
      rw [hsys]
      simp [hj, List.getElem?_append_left]
    obtain ⟨e, l1, l2⟩ := slipVectors_isSome (hpre _ hm)
    rw [guardC_pos ⟨l1, l2⟩, ok_bind, e]

theorem crystalMode_stop (F : NumConv) (C : CrystalSpec) (c : CrystalEnv) (h : C.HeadRead c)
    (hd : ∀ i, C.cdim i ≠ 0) (hss : 0 < c.stressScale) (m : ℕ)
    (env : Var → Option Val) (a b : List Char) (ls : List (List Char)) (ha : DeckText F (C.modeText m) a)
    (hl : List.Forall₂ (fun s l => LineText F (C.sysText s) l ∧ ∃ x, l = x ++ ['\n'] ∧ '\n' ∉ x) (C.mode m).sys ls)
    (st : CrystalState SlipSys ℝ) (hm : C.wanted.getD (st.kount - 1) 0 = m)
    (hsys : (C.mode m).sys.length ≤ c.nsysmx) (e : CrystalStop) (hg : C.Fault m e) :
    crystalMode F c (⟨env, ⟨a ++ (ls.flatten ++ b), true⟩⟩, st) m = .error (some e) := by
  unfold crystalMode
  dsimp only
  rw [mode_run F C c h m env a _ ha, readModeHead_eq c C m env _ h.count h.time, ok_bind]
  have h1 : ¬(C.head c m).modex ≠ c.mode st.kount := by
    rw [h.mode, hm]
    exact fun e => e rfl
  rw [if_neg h1]
  have h3 : (C.mode m).thet1 ≤ (C.mode m).thet0 → ¬(C.head c m).thet0 < (C.head c m).thet1 := fun hh =>
    not_lt.mpr (mul_le_mul_of_nonneg_right hh hss.le)
  cases e with
  | hardening =>
    have : (C.head c m).thet0 < (C.head c m).thet1 :=
      mul_lt_mul_of_pos_right (show (C.mode m).thet0 < (C.mode m).thet1 from hg) hss
    rw [if_pos this]
  | symmetry =>
    rw [if_neg (h3 hg.1)]
    unfold readSystems
    rw [h.sym, symmetryOf_unknown hg.2]
    rfl
  | normality =>
    rw [if_neg (h3 hg.2.1), readSystems_normality F c C m (C.head c m) _ ls b hl h.sym h.cdim hd rfl hsys hg]
    rfl
  | twins => exact absurd hg id

theorem modesText_split (F : NumConv) (C : CrystalSpec) : ∀ (l l' : List ℕ) (cs : List Char), C.ModesText F (l ++ l') cs →
    ∃ a b, cs = a ++ b ∧ C.ModesText F l a ∧ C.ModesText F l' b := by
  intro l
  induction l with
  | nil => intro l' cs h; exact ⟨[], cs, rfl, rfl, h⟩
  | cons m l ih =>
    intro l' cs h
    obtain ⟨a, ls, b, rfl, ha, hl, hb⟩ := h
    obtain ⟨x, y, rfl, hx, hy⟩ := ih l' b hb
    exact ⟨a ++ (ls.flatten ++ x), y, by simp, ⟨a, ls, x, rfl, ha, hl, hx⟩, hy⟩

/-- **C120.** The reading stops at the first wanted mode that is at fault, with the message for that fault: an initial
hardening rate below the final one, a symmetry that is not known, a plane normal and a direction whose scalar product
is 1e-3 or more.  Faults of modes that are not wanted do not stop it (C120_crystal). -/
theorem C120_stops (F : NumConv) (C : CrystalSpec) (nsysmx nmodmx : ℕ) (ss ts : ℝ) (h0 : ℕ → ℝ) (l0 : ℕ → ℕ → ℝ)
    (n0 : ℕ → ℕ) (cs rest : List Char) (h : C.Text F cs) (hf : C.Fits nsysmx nmodmx) (hss : 0 < ss) (hts : ts ≠ 0)
    (m : ℕ) (hm : m ∈ C.wanted) (hg : ∀ k ∈ C.wanted, k < m → C.Good k) (e : CrystalStop) (he : C.Fault m e) :
    readCrystal F nsysmx nmodmx ss ts h0 l0 n0 (cs ++ rest) = .error (some e) := by
  have hw := wanted_length hf.sorted hf.range
  obtain ⟨env', b, hb, eq⟩ := readCrystal_head F C nsysmx nmodmx ss ts h0 l0 n0 cs rest h hf.count (hw.trans hf.count) hf.range
  have hmr := hf.range m hm
  have hr : List.range' 1 C.count = List.range' 1 (m - 1) ++ m :: List.range' (m + 1) (C.count - m) := by
    have e1 : C.count = (m - 1) + ((C.count - m) + 1) := by omega
    rw [show List.range' 1 C.count = List.range' 1 ((m - 1) + ((C.count - m) + 1)) by rw [← e1],
      ← List.range'_append_1, List.range'_succ]
    rw [show 1 + (m - 1) = m by omega]
  rw [hr] at hb
  obtain ⟨x, y, rfl, hx, hy⟩ := modesText_split F C _ _ _ hb
  obtain ⟨env2, i', hloop, hinv⟩ := crystalLoop F C (C.env nsysmx nmodmx ss ts l0) (C.env_head nsysmx nmodmx ss ts l0 hts)
    hf hss (m - 1) 1 env' x (y ++ rest) { kount := 1, hself := h0, hlate := l0, nsm := n0, sys := [] } 0 le_rfl hx
    ⟨rfl, Nat.zero_le _, by simp, fun x hx => (hf.range x (by simpa using hx)).1, by simp⟩
    (fun k hk _ h2 => hg k hk (by omega))
  rw [show 1 + (m - 1) = m by omega] at hinv
  obtain ⟨a, ls, b', rfl, ha, hl, -⟩ := hy
  rw [eq, hr, List.foldlM_append, show x ++ (a ++ (ls.flatten ++ b')) ++ rest =
    x ++ (a ++ (ls.flatten ++ b') ++ rest) by simp, hloop, ok_bind, List.foldlM_cons,
    show a ++ (ls.flatten ++ b') ++ rest = a ++ (ls.flatten ++ (b' ++ rest)) by simp,
    crystalMode_stop F C _ (C.env_head nsysmx nmodmx ss ts l0 hts) hf.cdim hss m env2 a (b' ++ rest) ls ha hl _ _ _ e he]
  · rfl
  · rcases crystalFileInv_step C _ hf.sorted hinv hmr.1 with ⟨-, hn, -⟩ | ⟨hh, -⟩
    · exact absurd hm hn
    · exact hh
  · have h1 : (C.mode m).sys.length ≤ (C.wanted.flatMap fun m => (C.mode m).sys).length := by
      obtain ⟨w1, w2, hww⟩ := List.append_of_mem hm
      rw [hww]
      simp only [List.flatMap_append, List.flatMap_cons, List.length_append]
      omega
    exact h1.trans hf.systems

/-- **C120 (room for ten modes).** The lists of modes have room for ten; a file with more is not refused but written
past their end. -/
theorem C120_room_fails (F : NumConv) (C : CrystalSpec) (nsysmx nmodmx : ℕ) (ss ts : ℝ) (h0 : ℕ → ℝ) (l0 : ℕ → ℕ → ℝ)
    (n0 : ℕ → ℕ) (cs rest : List Char) (h : C.Text F cs) (hc : 10 < C.count) :
    readCrystal F nsysmx nmodmx ss ts h0 l0 n0 (cs ++ rest) = .error none := by
  obtain ⟨a, b, rfl, ha, hb⟩ := h
  obtain ⟨a12, a3, rfl, ha, h3⟩ := ha.split
  obtain ⟨a1, a2, rfl, h1, h2⟩ := ha.split
  unfold readCrystal
  rw [show a1 ++ a2 ++ a3 ++ b ++ rest = a1 ++ (a2 ++ (a3 ++ (b ++ rest))) by simp,
    run_deckLines F h1 CrystalFile.titles rfl]
  unfold readSlips
  dsimp only
  rw [run_deckLines F h2 CrystalFile.sizes rfl]
  rw [need_some (collectFn_eq (g := C.cdim) fun i => Reader.real_eq (by
      fin_cases i <;>
        simp [applyUpdates_apply, deckUpdates, CrystalFile.sizes, CrystalSpec.sizeText, lastUpdate])), ok_bind,
    need_some (Reader.int_eq (z := C.count) (by
      simp [applyUpdates_apply, deckUpdates, CrystalFile.sizes, CrystalSpec.sizeText, lastUpdate])), ok_bind,
    need_some (Reader.int_eq (z := C.wanted.length) (by
      simp [applyUpdates_apply, deckUpdates, CrystalFile.sizes, CrystalSpec.sizeText, lastUpdate])), ok_bind]
  have : guardC ((C.count : ℤ) ≤ 10 ∧ (C.wanted.length : ℤ) ≤ 10) = .error none := if_neg (by omega)
  rw [this]
  rfl

/-- **C120 (threshold in units).** The bound 1e-6 under which hardening counts as linear is compared with the stress in
the units of the run: a file read with the factor 1e-5 (MPa to Mbar) gets another hardening law than with the factor 1
as soon as the saturation stress is not above 0.1. -/
theorem C120_units_fails (F : NumConv) (C : CrystalSpec) (nsysmx nmodmx : ℕ) (h0 : ℕ → ℝ) (l0 : ℕ → ℕ → ℝ)
    (n0 : ℕ → ℕ) (cs rest : List Char) (h : C.Text F cs) (hf : C.Fits nsysmx nmodmx)
    (hg : ∀ m ∈ C.wanted, C.Good m) (m : ℕ) (hm : C.wanted = [m]) (h1 : 1 / 10 ^ 6 < (C.mode m).tau1)
    (h2 : (C.mode m).tau1 ≤ 1 / 10) :
    ∃ st st', readCrystal F nsysmx nmodmx 1 1 h0 l0 n0 (cs ++ rest) = .ok (st, 1) ∧
      readCrystal F nsysmx nmodmx (1 / 10 ^ 5) 1 h0 l0 n0 (cs ++ rest) = .ok (st', 1) ∧
      (∀ x ∈ st.sys, x.thet 0 = (C.mode m).thet0) ∧ ∀ x ∈ st'.sys, x.thet 0 = (C.mode m).thet1 * (1 / 10 ^ 5) := by
  have ht : ∀ ss ts : ℝ, ¬∃ i a b, (C.all ss ts)[i]? = some a ∧ (C.all ss ts)[i + 1]? = some b ∧ a.twsh ≠ 0 ∧
      b.twsh = 0 := by
    intro ss ts
    refine C120_twins C ss ts hf.sorted ?_
    rw [hm]
    intro k hk k' hk' hlt
    simp at hk hk'
    omega
  obtain ⟨st, e1, s1, -⟩ := (C120_crystal F C nsysmx nmodmx 1 1 h0 l0 n0 cs rest h hf one_pos one_ne_zero hg).2 (ht 1 1)
  obtain ⟨st', e2, s2, -⟩ := (C120_crystal F C nsysmx nmodmx (1 / 10 ^ 5) 1 h0 l0 n0 cs rest h hf (by norm_num)
    one_ne_zero hg).2 (ht _ 1)
  rw [hm] at e1 e2
  refine ⟨st, st', e1, e2, fun x hx => ?_, fun x hx => ?_⟩
  · rw [s1, CrystalSpec.all, hm] at hx
    simp only [List.flatMap_cons, List.flatMap_nil, List.append_nil, List.mem_map] at hx
    obtain ⟨s, -, rfl⟩ := hx
    simp only [CrystalSpec.slip, mul_one, if_pos h1]
    rfl
  · rw [s2, CrystalSpec.all, hm] at hx
    simp only [List.flatMap_cons, List.flatMap_nil, List.append_nil, List.mem_map] at hx
    obtain ⟨s, -, rfl⟩ := hx
    have : ¬1 / 10 ^ 6 < (C.mode m).tau1 * (1 / 10 ^ 5) := by
      rw [not_lt]
      linarith
    simp only [CrystalSpec.slip, if_neg this]
    rfl

/-! ### J2 phases of LS-EVPFFT -/

/-- **C120 (units of J2 phases).** The constants of a `J2` phase are stored as they stand in the file, whatever the
conversion factors for stress and time are; those of slip systems and the elastic constants are converted. -/
theorem C120_j2_units_fails (F : NumConv) (nsysmx nmodmx : ℕ) (h0 : ℕ → ℝ) (l0 : ℕ → ℕ → ℝ) (n0 : ℕ → ℕ)
    (title word : List Char) (law : J2Law) (cs rest : List Char) (hw : word.take 2 = ['J', '2'] ∨ word.take 2 = ['j', '2'])
    (h : DeckText F [[(.word, .word title)], [(.word, .word word)], [(.int, .int law.nrs), (.real, .real law.edotp0)],
      [(.real, .real law.sigma0), (.real, .real law.sigma1), (.real, .real law.thet0), (.real, .real law.thet1)]] cs)
    (ss ts : ℝ) :
    readCrystalLs F nsysmx nmodmx ss ts h0 l0 n0 (cs ++ rest) = .ok (.inl law) := by
  obtain ⟨a, b, rfl, ha, hb⟩ := DeckText.split
    (ls := [[(Kind.word, Val.word title)], [(.word, .word word)]])
    (ls' := [[(.int, .int law.nrs), (.real, .real law.edotp0)],
      [(.real, .real law.sigma0), (.real, .real law.sigma1), (.real, .real law.thet0), (.real, .real law.thet1)]]) h
  unfold readCrystalLs
  dsimp only
  rw [List.append_assoc, run_deckLines F ha CrystalFile.titles rfl, Reader.word_eq (w := word) (by
    simp [applyUpdates_apply, deckUpdates, CrystalFile.titles, lastUpdate]), if_pos hw,
    run_deckLines F hb CrystalFile.j2 rfl]
  rw [need_some (Reader.int_eq (z := law.nrs) (by
      simp [applyUpdates_apply, deckUpdates, CrystalFile.j2, lastUpdate])), ok_bind,
    need_some (Reader.real_eq (z := law.edotp0) (by
      simp [applyUpdates_apply, deckUpdates, CrystalFile.j2, lastUpdate])), ok_bind,
    need_some (Reader.real_eq (z := law.sigma0) (by
      simp [applyUpdates_apply, deckUpdates, CrystalFile.j2, lastUpdate])), ok_bind,
    need_some (Reader.real_eq (z := law.sigma1) (by
      simp [applyUpdates_apply, deckUpdates, CrystalFile.j2, lastUpdate])), ok_bind,
    need_some (Reader.real_eq (z := law.thet0) (by
      simp [applyUpdates_apply, deckUpdates, CrystalFile.j2, lastUpdate])), ok_bind,
    need_some (Reader.real_eq (z := law.thet1) (by
      simp [applyUpdates_apply, deckUpdates, CrystalFile.j2, lastUpdate])), ok_bind]

/-- **C120.** Any other phase of LS-EVPFFT is read as EVPFFT reads it. -/
theorem C120_ls (F : NumConv) (C : CrystalSpec) (nsysmx nmodmx : ℕ) (ss ts : ℝ) (h0 : ℕ → ℝ) (l0 : ℕ → ℕ → ℝ)
    (n0 : ℕ → ℕ) (cs rest : List Char) (h : C.Text F cs) (hk : C.Known) :
    readCrystalLs F nsysmx nmodmx ss ts h0 l0 n0 (cs ++ rest) =
      (readCrystal F nsysmx nmodmx ss ts h0 l0 n0 (cs ++ rest)).map .inr := by
  obtain ⟨a, b, rfl, ha, hb⟩ := h
  rw [List.append_assoc C.titleText] at ha
  obtain ⟨a1, a2, rfl, h1, h2⟩ := ha.split
  have hw : ¬(C.word.take 2 = ['J', '2'] ∨ C.word.take 2 = ['j', '2']) := by
    have e : C.word.take 2 = (C.word.take 3).take 2 := by rw [List.take_take]; rfl
    rw [e]
    unfold CrystalSpec.Known at hk
    cases hc : C.hex <;> rw [hc] at hk <;>
      simp only [if_true, Bool.false_eq_true, if_false, List.mem_cons, List.not_mem_nil, or_false] at hk <;>
      rcases hk with e | e | e | e <;> rw [e] <;> simp
  unfold readCrystalLs readCrystal
  dsimp only
  rw [show a1 ++ a2 ++ b ++ rest = a1 ++ (a2 ++ b ++ rest) by simp, run_deckLines F h1 CrystalFile.titles rfl,
    Reader.word_eq (w := C.word) (by
      simp [applyUpdates_apply, deckUpdates, CrystalFile.titles, CrystalSpec.titleText, lastUpdate]), if_neg hw]

/-! ### Elastic constants -/

theorem stiff_entry (M : Fin 6 → Fin 6 → ℝ) (env : Var → Option Val) (i j : Fin 6) :
    applyUpdates (deckUpdates CrystalFile.stiff
      ((List.finRange 6).map fun i => (List.finRange 6).map fun j => (Kind.real, Val.real (M i j)))) env
      ("cc66v", [i.val + 1, j.val + 1]) = some (.real (M i j)) := by
  have e : deckUpdates CrystalFile.stiff
      ((List.finRange 6).map fun i => (List.finRange 6).map fun j => (Kind.real, Val.real (M i j))) =
      (List.finRange 6).flatMap fun i => (List.finRange 6).map fun j =>
        ((("cc66v", [i.val + 1, j.val + 1]) : Var), Val.real (M i j)) := by
    unfold deckUpdates CrystalFile.stiff
    rw [List.zip_map', List.flatMap_map]
    congr 1
  rw [e, applyUpdates_apply, lastUpdate_some (v := .real (M i j))]
  · rfl
  · simp only [List.map_flatMap, List.mem_flatMap, List.mem_finRange, true_and, List.map_map, List.mem_map,
      Function.comp]
    exact ⟨i, j, rfl⟩
  · intro u hu hx
    simp only [List.mem_flatMap, List.mem_finRange, true_and, List.mem_map] at hu
    obtain ⟨i', j', rfl⟩ := hu
    simp only [Prod.mk.injEq, List.cons.injEq, Nat.add_right_cancel_iff, and_true, true_and] at hx
    rw [Fin.ext hx.1, Fin.ext hx.2]

/-- **C120.** An elastic file with flag 0 and a 6 × 6 matrix: the stiffness tensor has the entries of the matrix in
Voigt notation, converted; with another flag and Young's modulus and Poisson's ratio: that of Hooke's law. -/
theorem C120_elastic (F : NumConv) (ss : ℝ) (cs rest : List Char) :
    (∀ M : Fin 6 → Fin 6 → ℝ,
      DeckText F ([(.int, .int 0)] :: (List.finRange 6).map fun i => (List.finRange 6).map fun j => (.real, .real (M i j)))
        cs → ∃ mem, readElast F ss (cs ++ rest) = some mem ∧
          ∀ a b c d, mem (a, b, c, d) = some (M (voigtOf a b) (voigtOf c d) * ss)) ∧
    (∀ (iso : ℤ) (E nu : ℝ), iso ≠ 0 → 1 + nu ≠ 0 → 1 - 2 * nu ≠ 0 →
      DeckText F [[(.int, .int iso)], [(.real, .real E), (.real, .real nu)]] cs →
        ∃ mem, readElast F ss (cs ++ rest) = some mem ∧ ∀ a b c d, mem (a, b, c, d) =
          some ((E * nu / ((1 + nu) * (1 - 2 * nu)) * (if a = b then 1 else 0) * (if c = d then 1 else 0) +
            E / (2 * (1 + nu)) * ((if a = c then 1 else 0) * (if b = d then 1 else 0) +
              (if a = d then 1 else 0) * (if b = c then 1 else 0))) * ss)) := by
  refine ⟨fun M h => ?_, fun iso E nu hi h1 h2 h => ?_⟩
  · obtain ⟨a, b, rfl, ha, hb⟩ := DeckText.split (ls := [[(Kind.int, Val.int 0)]]) h
    unfold readElast
    dsimp only
    rw [List.append_assoc, run_deckLines F ha CrystalFile.iso rfl, Reader.int_eq (z := 0) (by
      simp [applyUpdates_apply, deckUpdates, CrystalFile.iso, lastUpdate]), Option.bind_some, if_pos rfl,
      run_deckLines F hb CrystalFile.stiff (by simp [CrystalFile.stiff, Function.comp_def]),
      collectFn_eq (g := M) fun i => collectFn_eq fun j => Reader.real_eq (stiff_entry M _ i j), Option.bind_some]
    refine ⟨_, rfl, fun a b c d => ?_⟩
    simp only [phaseStiffness, C67_voigt_entries, Option.map_some]
  · obtain ⟨a, b, rfl, ha, hb⟩ := DeckText.split (ls := [[(Kind.int, Val.int iso)]]) h
    unfold readElast
    dsimp only
    rw [List.append_assoc, run_deckLines F ha CrystalFile.iso rfl, Reader.int_eq (z := iso) (by
      simp [applyUpdates_apply, deckUpdates, CrystalFile.iso, lastUpdate]), Option.bind_some, if_neg hi,
      run_deckLines F hb CrystalFile.young rfl, Reader.real_eq (z := E) (by
        simp [applyUpdates_apply, deckUpdates, CrystalFile.young, lastUpdate]), Option.bind_some,
      Reader.real_eq (z := nu) (by
        simp [applyUpdates_apply, deckUpdates, CrystalFile.young, lastUpdate]), Option.bind_some,
      if_neg (by tauto)]
    refine ⟨_, rfl, fun a b c d => ?_⟩
    simp only [phaseStiffness, isoStiffness, isoLambda, isoMu, xid4, dde]
    congr 2
    field_simp

/-- **C120 (incompressible phase).** A Poisson's ratio of one half is not refused: the stiffness is the result of a
division by zero. -/
theorem C120_elastic_fails (F : NumConv) (ss E : ℝ) (iso : ℤ) (hi : iso ≠ 0) (cs rest : List Char)
    (h : DeckText F [[(.int, .int iso)], [(.real, .real E), (.real, .real (1 / 2))]] cs) :
    readElast F ss (cs ++ rest) = none := by
  obtain ⟨a, b, rfl, ha, hb⟩ := DeckText.split (ls := [[(Kind.int, Val.int iso)]]) h
  unfold readElast
  dsimp only
  rw [List.append_assoc, run_deckLines F ha CrystalFile.iso rfl, Reader.int_eq (z := iso) (by
    simp [applyUpdates_apply, deckUpdates, CrystalFile.iso, lastUpdate]), Option.bind_some, if_neg hi,
    run_deckLines F hb CrystalFile.young rfl, Reader.real_eq (z := E) (by
      simp [applyUpdates_apply, deckUpdates, CrystalFile.young, lastUpdate]), Option.bind_some,
    Reader.real_eq (z := 1 / 2) (by
      simp [applyUpdates_apply, deckUpdates, CrystalFile.young, lastUpdate]), Option.bind_some,
    if_pos (by right; norm_num)]

/-! ### The hypotheses are met -/

/-- A cubic crystal; of two modes the second one, with one system (100)[010], is wanted.  The first one would be
refused. -/
noncomputable def cubeFile : CrystalSpec where
  title := ['*']
  word := ['C', 'U', 'B', 'I', 'C']
  hex := false
  cdim := fun _ => 1
  count := 2
  mode := fun m => {
    title := ['*'], rate := 1, expo := 9, twin := 0, sect := 0, tauF := 8, tauB := 8, tau1 := 5,
    thet0 := if m = 1 then 0 else 4, thet1 := 1, self := 1, latent := fun _ => 2
    sys := [(fun k => if k = 0 then 1 else 0, fun k => if k = 1 then 1 else 0)] }
  wanted := [2]

example : cubeFile.Fits 1 1 ∧ ∀ m ∈ cubeFile.wanted, cubeFile.Good m := by
  refine ⟨⟨by simp [cubeFile], by simp [cubeFile], by simp [cubeFile], by simp [cubeFile], by simp [cubeFile],
    by simp [cubeFile]⟩, ?_⟩
  intro m hm
  obtain rfl : m = 2 := by simpa [cubeFile] using hm
  refine ⟨by simp [CrystalSpec.Known, cubeFile], by simp [cubeFile], ?_⟩
  intro s hs
  simp only [cubeFile, List.mem_singleton] at hs
  have e : cubeFile.vectors s = (![1, 0, 0], ![0, 1, 0]) := by
    subst hs
    simp only [CrystalSpec.vectors, cubeFile, Bool.false_eq_true, if_false, cubicVectors, Prod.mk.injEq]
    constructor <;> funext m <;> fin_cases m <;> simp
  rw [e, C70_accepted]
  · rfl
  · simp [vecLen]
  · simp [vecLen]
  · simp [dotV]
  · intro j; fin_cases j <;> simp [vecLen] <;> norm_num
  · intro j; fin_cases j <;> simp [vecLen] <;> norm_num

/-- There is a file with that crystal. -/
example : ∃ cs, cubeFile.Text digitConv cs := by
  have n : ∀ k : ℕ, k < 10 → ∃ n : ℕ, n < 10 ∧ ((k : ℕ) : ℝ) = n := fun k hk => ⟨k, hk, rfl⟩
  have n0 := n 0 (by norm_num)
  have n1 := n 1 (by norm_num)
  have n2 := n 2 (by norm_num)
  have n4 := n 4 (by norm_num)
  have n5 := n 5 (by norm_num)
  have n8 := n 8 (by norm_num)
  norm_num only [Nat.cast_ofNat, Nat.cast_zero, Nat.cast_one] at n0 n1 n2 n4 n5 n8
  have hhead : ∃ a, DeckText digitConv (cubeFile.titleText ++ cubeFile.sizeText ++ cubeFile.wantedText) a := by
    refine deckText_exists _ _ fun fs hfs f hf => digitField_reads ?_
    have hall : ∀ fs ∈ cubeFile.titleText ++ cubeFile.sizeText ++ cubeFile.wantedText, ∀ f ∈ fs, DigitField f := by
      simp only [CrystalSpec.titleText, CrystalSpec.sizeText, CrystalSpec.wantedText, cubeFile, List.cons_append,
        List.nil_append, List.forall_mem_cons, List.map_cons, List.map_nil, DigitField]
      simp [n1, cSpace]
    exact hall fs hfs f hf
  have hmode : ∀ m, m = 1 ∨ m = 2 → ∃ a, DeckText digitConv (cubeFile.modeText m) a := by
    intro m hm
    refine deckText_exists _ _ fun fs hfs f hf => digitField_reads ?_
    have hall : ∀ fs ∈ cubeFile.modeText m, ∀ f ∈ fs, DigitField f := by
      rcases hm with rfl | rfl <;>
      · simp only [CrystalSpec.modeText, cubeFile, List.forall_mem_cons, List.range_succ, List.range_zero,
          List.nil_append, List.cons_append, List.map_cons, List.map_nil, DigitField]
        simp [n0, n1, n2, n4, n5, n8, cSpace]
    exact hall fs hfs f hf
  obtain ⟨a, ha⟩ := hhead
  obtain ⟨a1, h1⟩ := hmode 1 (by simp)
  obtain ⟨a2, h2⟩ := hmode 2 (by simp)
  have hline : ∀ m, List.Forall₂ (fun s l => LineText digitConv (cubeFile.sysText s) l ∧ ∃ x, l = x ++ ['\n'] ∧ '\n' ∉ x)
      (cubeFile.mode m).sys
      [[' ', '1', ' ', '0', ' ', '0', ' ', '0', ' ', '1', ' ', '0'] ++ [] ++ ['\n']] := by
    intro m
    refine .cons ⟨⟨_, [], rfl, ?_, sepStart_nil, by simp⟩,
      [' ', '1', ' ', '0', ' ', '0', ' ', '0', ' ', '1', ' ', '0'], rfl, by decide⟩ .nil
    have i0 := digitConv_int '0' rfl rfl
    have i1 := digitConv_int '1' rfl rfl
    norm_num at i0 i1
    exact fieldsText_blank i1 (sep_blank _) <| fieldsText_blank i0 (sep_blank _) <| fieldsText_blank i0 (sep_blank _) <|
      fieldsText_blank i0 (sep_blank _) <| fieldsText_blank i1 (sep_blank _) <| fieldsText_blank i0 sepStart_nil .nil
  exact ⟨_, a, _, rfl, ha, a1, _, _, rfl, h1, hline 1, a2, _, [], rfl, h2, hline 2, rfl⟩

end Fierro
