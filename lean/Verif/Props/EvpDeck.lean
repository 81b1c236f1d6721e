import Mathlib.Tactic.Linarith
import Mathlib.Tactic.FieldSimp
import Verif.Proofs.DeckLines
import Verif.Props.EvpStep
import Verif.Props.EvpGrains

/-!
# C119: the input file of EVPFFT
-/

namespace Fierro

/-- What the author of an input file wants: the numbers and names in the file. -/
structure DeckSpec where
  sizes : Fin 4 → ℤ
  npts : Fin 3 → ℤ
  delt : Fin 3 → ℝ
  texture : List Char
  phases : List EvpPhase
  given : Fin 3 → Fin 3 → ℤ
  rate : Fin 3 → Fin 3 → ℝ
  /-- flags and values of the stress, in the upper triangle -/
  loaded : Fin 3 → Fin 3 → ℤ
  load : Fin 3 → Fin 3 → ℝ
  incr : ℝ
  ctrl : ℤ
  steps : ℤ
  tol : ℝ
  iters : ℤ
  recover : ℤ
  save : ℤ
  update : ℤ
  harden : ℤ
  tex : ℤ
  fields : ℤ × ℤ
  thermo : Option (List Char)
  /-- the first words of title lines -/
  title : ℕ → List Char

namespace DeckSpec
variable (D : DeckSpec)

/-- The layout of an input file: title lines have at least one word, the lines `[]` may hold anything. -/
def headText : List (List (Kind × Val)) :=
  [[(.int, .int (D.sizes 0)), (.int, .int (D.sizes 1)), (.int, .int (D.sizes 2)), (.int, .int (D.sizes 3))],
   [(.int, .int (D.npts 0)), (.int, .int (D.npts 1)), (.int, .int (D.npts 2))],
   [(.int, .int D.phases.length)],
   [(.real, .real (D.delt 0)), (.real, .real (D.delt 1)), (.real, .real (D.delt 2))],
   [(.word, .word (D.title 0))],
   [(.word, .word D.texture)]]

/-- The five lines of a phase. -/
def phaseText (p : EvpPhase) : List (List (Kind × Val)) :=
  [[(.word, .word (D.title 1))], [(.int, .int p.gas)], [(.word, .word (D.title 2))], [(.word, .word p.plastic)],
   [(.word, .word p.elastic)]]

def flagsText : List (List (Kind × Val)) :=
  [[(.word, .word (D.title 3))], [(.word, .word (D.title 4))],
   [(.int, .int (D.given 0 0)), (.int, .int (D.given 0 1)), (.int, .int (D.given 0 2))],
   [(.int, .int (D.given 1 0)), (.int, .int (D.given 1 1)), (.int, .int (D.given 1 2))],
   [(.int, .int (D.given 2 0)), (.int, .int (D.given 2 1)), (.int, .int (D.given 2 2))]]

def ratesText : List (List (Kind × Val)) :=
  [[],
   [(.real, .real (D.rate 0 0)), (.real, .real (D.rate 0 1)), (.real, .real (D.rate 0 2))],
   [(.real, .real (D.rate 1 0)), (.real, .real (D.rate 1 1)), (.real, .real (D.rate 1 2))],
   [(.real, .real (D.rate 2 0)), (.real, .real (D.rate 2 1)), (.real, .real (D.rate 2 2))],
   [],
   [(.int, .int (D.loaded 0 0)), (.int, .int (D.loaded 0 1)), (.int, .int (D.loaded 0 2))],
   [(.int, .int (D.loaded 1 1)), (.int, .int (D.loaded 1 2))],
   [(.int, .int (D.loaded 2 2))]]

def stressText : List (List (Kind × Val)) :=
  [[],
   [(.real, .real (D.load 0 0)), (.real, .real (D.load 0 1)), (.real, .real (D.load 0 2))],
   [(.real, .real (D.load 1 1)), (.real, .real (D.load 1 2))],
   [(.real, .real (D.load 2 2))],
   [],
   [(.real, .real D.incr)],
   [(.int, .int D.ctrl)]]

def controlText : List (List (Kind × Val)) :=
  [[],
   [(.int, .int D.steps)],
   [(.real, .real D.tol)],
   [(.int, .int D.iters)],
   [(.int, .int D.recover)],
   [(.int, .int D.save)],
   [(.int, .int D.update)],
   [(.int, .int D.harden)],
   [(.int, .int D.tex)],
   [(.int, .int D.fields.1), (.int, .int D.fields.2)],
   [(.int, .int (if D.thermo.isSome then 1 else 0))]]

def thermoText : List (List (Kind × Val)) := D.thermo.toList.map fun w => [(.word, .word w)]

/-- The whole file. -/
def text : List (List (Kind × Val)) :=
  D.headText ++ (D.phases.flatMap D.phaseText ++ (D.flagsText ++ (D.ratesText ++ (D.stressText ++ (D.controlText ++
    D.thermoText)))))

end DeckSpec

theorem Reader.int_eq {s : Reader} {x : Var} {z : ℤ} (h : s.env x = some (.int z)) : s.int x = some z := by
  simp [Reader.int, h]

theorem Reader.real_eq {s : Reader} {x : Var} {z : ℝ} (h : s.env x = some (.real z)) : s.real x = some z := by
  simp [Reader.real, h]

theorem Reader.word_eq {s : Reader} {x : Var} {w : List Char} (h : s.env x = some (.word w)) : s.word x = w := by
  simp [Reader.word, h]

theorem mat_eq {α : Type} {f : Var → Option α} {x : String} {g : Fin 3 → Fin 3 → α}
    (h : ∀ i j : Fin 3, f (x, [i.val + 1, j.val + 1]) = some (g i j)) : Reader.mat f x = some g := by
  unfold Reader.mat
  exact collectFn_eq fun i => collectFn_eq fun j => h i j

/-- The phases are read, and the variables outside the loop keep their values. -/
theorem readPhases_text (F : NumConv) (D : DeckSpec) : ∀ (ps : List EvpPhase) (iph : ℕ) (env : Var → Option Val)
    (cs rest : List Char), DeckText F (ps.flatMap D.phaseText) cs →
    ∃ env', readPhases F ps.length iph ⟨env, ⟨cs ++ rest, true⟩⟩ = some (ps, ⟨env', ⟨rest, true⟩⟩) ∧
      ∀ x : Var, x.1 ∉ ["prosa", "igas", "filecryspl", "filecrysel"] → env' x = env x := by
  intro ps
  induction ps with
  | nil =>
    intro iph env cs rest h
    cases h
    exact ⟨env, rfl, fun _ _ => rfl⟩
  | cons p ps ih =>
    intro iph env cs rest h
    rw [List.flatMap_cons] at h
    obtain ⟨a, b, rfl, ha, hb⟩ := h.split
    have hr := run_deckLines F ha (EvpDeck.phase iph) rfl env (b ++ rest)
    obtain ⟨env', h1, h2⟩ := ih (iph + 1) (applyUpdates (deckUpdates (EvpDeck.phase iph) (D.phaseText p)) env) b rest hb
    refine ⟨env', ?_, fun x hx => ?_⟩
    · simp only [readPhases, List.length_cons, List.append_assoc, hr]
      rw [Reader.int_eq (z := p.gas) (by
        simp [applyUpdates_apply, deckUpdates, EvpDeck.phase, DeckSpec.phaseText, lastUpdate])]
      rw [Reader.word_eq (w := p.plastic) (by
        simp [applyUpdates_apply, deckUpdates, EvpDeck.phase, DeckSpec.phaseText, lastUpdate])]
      rw [Reader.word_eq (w := p.elastic) (by
        simp [applyUpdates_apply, deckUpdates, EvpDeck.phase, DeckSpec.phaseText, lastUpdate])]
      simp only [h1, Option.map_some]
    · rw [h2 x hx, applyUpdates_apply]
      obtain ⟨n, ix⟩ := x
      simp only [List.mem_cons, List.not_mem_nil, or_false, not_or] at hx
      simp [deckUpdates, EvpDeck.phase, DeckSpec.phaseText, lastUpdate, hx]

/-- What the run has to work with. -/
noncomputable def DeckSpec.toRun (q : BasisConst ℝ) (D : DeckSpec) : EvpRun where
  npts := D.npts
  delt := D.delt
  texture := D.texture
  phases := D.phases
  iudot := D.given
  udot := D.rate
  iscau := fun p => D.loaded (ijv p).1 (ijv p).2
  scauchy := fun i j => D.load (min i j) (max i j)
  tdot := timeStep q D.rate D.incr D.ctrl
  nsteps := D.steps
  error := D.tol
  itmax := D.iters
  irecover := D.recover
  isave := D.save
  iupdate := D.update
  iuphard := D.harden
  iwtex := D.tex
  iwfields := D.fields.1
  iwstep := D.fields.2
  ithermo := if D.thermo.isSome then 1 else 0
  thermoFile := D.thermo

/-- How the reading has to end. -/
noncomputable def DeckSpec.end (q : BasisConst ℝ) (D : DeckSpec) : EvpDeckEnd :=
  open Classical in
  if ¬ (D.given 0 0 + D.given 1 1 + D.given 2 2 ≠ 2 ∧ ∀ i j, i ≠ j → D.given i j + D.given j i ≠ 0) then .rateFlags
  else if ¬ (∀ p, (idsimOf D.given p = 1 ∧ D.loaded (ijv p).1 (ijv p).2 = 0) ∨
    (idsimOf D.given p = 0 ∧ D.loaded (ijv p).1 (ijv p).2 = 1)) then .mixedFlags
  else if 0 < D.ctrl then .ictrl
  else .run (D.toRun q)

theorem readEvpDeck_text (q : BasisConst ℝ) (F : NumConv) (D : DeckSpec) (cs rest : List Char)
    (h : DeckText F D.text cs) (hroom : (D.phases.length : ℤ) ≤ D.sizes 0) :
    readEvpDeck q F (cs ++ rest) = some (D.end q) := by
  unfold DeckSpec.text at h
  obtain ⟨a, b, rfl, ha, h⟩ := h.split
  obtain ⟨c, d, rfl, hc, h⟩ := h.split
  obtain ⟨e, f, rfl, he, h⟩ := h.split
  obtain ⟨g, i, rfl, hg, h⟩ := h.split
  obtain ⟨j, k, rfl, hj, h⟩ := h.split
  obtain ⟨l, m, rfl, hl, hm⟩ := h.split
  have r1 := run_deckLines F ha EvpDeck.head rfl (fun _ => none) (c ++ (e ++ (g ++ (j ++ (l ++ (m ++ rest))))))
  obtain ⟨env1, r2, fr⟩ := readPhases_text F D D.phases 1
    (applyUpdates (deckUpdates EvpDeck.head D.headText) fun _ => none) c (e ++ (g ++ (j ++ (l ++ (m ++ rest))))) hc
  have r3 := run_deckLines F he EvpDeck.flags rfl env1 (g ++ (j ++ (l ++ (m ++ rest))))
  obtain ⟨env2, e2⟩ : ∃ e, e = applyUpdates (deckUpdates EvpDeck.flags D.flagsText) env1 := ⟨_, rfl⟩
  rw [← e2] at r3
  have r4 := run_deckLines F hg EvpDeck.rates rfl env2 (j ++ (l ++ (m ++ rest)))
  obtain ⟨env3, e3⟩ : ∃ e, e = applyUpdates (deckUpdates EvpDeck.rates D.ratesText) env2 := ⟨_, rfl⟩
  rw [← e3] at r4
  have r5 := run_deckLines F hj EvpDeck.stress rfl env3 (l ++ (m ++ rest))
  obtain ⟨env4, e4⟩ : ∃ e, e = applyUpdates (deckUpdates EvpDeck.stress D.stressText) env3 := ⟨_, rfl⟩
  rw [← e4] at r5
  have r6 := run_deckLines F hl EvpDeck.control rfl env4 (m ++ rest)
  obtain ⟨env5, e5⟩ : ∃ e, e = applyUpdates (deckUpdates EvpDeck.control D.controlText) env4 := ⟨_, rfl⟩
  rw [← e5] at r6
  -- variables of the head at the end
  have keep : ∀ x : Var, x.1 ∈ ["npts", "delt", "filetext"] →
      env5 x = applyUpdates (deckUpdates EvpDeck.head D.headText) (fun _ => none) x := by
    intro x hx
    have hx' : x.1 ∉ ["prosa", "igas", "filecryspl", "filecrysel"] := by
      simp only [List.mem_cons, List.not_mem_nil, or_false] at hx
      rcases hx with hx | hx | hx <;> rw [hx] <;> decide
    rw [← fr x hx', e5, e4, e3, e2]
    obtain ⟨n, ix⟩ := x
    simp only [List.mem_cons, List.not_mem_nil, or_false] at hx
    simp only [applyUpdates_apply]
    rcases hx with rfl | rfl | rfl <;>
      simp [deckUpdates, EvpDeck.flags, DeckSpec.flagsText, EvpDeck.rates, DeckSpec.ratesText, EvpDeck.stress,
        DeckSpec.stressText, EvpDeck.control, DeckSpec.controlText, lastUpdate]
  have hflags : Reader.mat (Reader.int ⟨env2, ⟨g ++ (j ++ (l ++ (m ++ rest))), true⟩⟩) "iudot" = some D.given := by
    refine mat_eq fun i j => Reader.int_eq ?_
    rw [e2]
    fin_cases i <;> fin_cases j <;>
      simp [applyUpdates_apply, deckUpdates, EvpDeck.flags, DeckSpec.flagsText, lastUpdate]
  have hrate : Reader.mat (Reader.real ⟨env3, ⟨j ++ (l ++ (m ++ rest)), true⟩⟩) "udot" = some D.rate := by
    refine mat_eq fun i j => Reader.real_eq ?_
    rw [e3]
    fin_cases i <;> fin_cases j <;>
      simp [applyUpdates_apply, deckUpdates, EvpDeck.rates, DeckSpec.ratesText, lastUpdate]
  have hiscau : (collectFn fun i : Fin 6 => Reader.int ⟨env3, ⟨j ++ (l ++ (m ++ rest)), true⟩⟩
      ("iscau", [i.val + 1])) = some fun p => D.loaded (ijv p).1 (ijv p).2 := by
    refine collectFn_eq fun i => Reader.int_eq ?_
    rw [e3]
    fin_cases i <;>
      simp [applyUpdates_apply, deckUpdates, EvpDeck.rates, DeckSpec.ratesText, lastUpdate, ijv]
  have hstress : Reader.mat (fun x => Reader.real ⟨env4, ⟨l ++ (m ++ rest), true⟩⟩ (upperVar x)) "scauchy" = some fun i j => D.load (min i j) (max i j) := by
    refine mat_eq fun i j => Reader.real_eq ?_
    rw [e4]
    fin_cases i <;> fin_cases j <;>
      simp [applyUpdates_apply, deckUpdates, EvpDeck.stress, DeckSpec.stressText, lastUpdate, upperVar]
  have hincr : Reader.real ⟨env4, ⟨l ++ (m ++ rest), true⟩⟩ ("dummy", []) = some D.incr := by
    refine Reader.real_eq ?_
    rw [e4]
    simp [applyUpdates_apply, deckUpdates, EvpDeck.stress, DeckSpec.stressText, lastUpdate]
  have hctrl : Reader.int ⟨env4, ⟨l ++ (m ++ rest), true⟩⟩ ("ictrl", []) = some D.ctrl := by
    refine Reader.int_eq ?_
    rw [e4]
    simp [applyUpdates_apply, deckUpdates, EvpDeck.stress, DeckSpec.stressText, lastUpdate]
  have hnpts : (collectFn fun i : Fin 3 => Reader.int ⟨env5, ⟨m ++ rest, true⟩⟩ ("npts", [i.val + 1])) =
      some D.npts := by
    refine collectFn_eq fun i => Reader.int_eq ?_
    refine (keep _ (by simp)).trans ?_
    fin_cases i <;> simp [applyUpdates_apply, deckUpdates, EvpDeck.head, DeckSpec.headText, lastUpdate]
  have hdelt : (collectFn fun i : Fin 3 => Reader.real ⟨env5, ⟨m ++ rest, true⟩⟩ ("delt", [i.val + 1])) =
      some D.delt := by
    refine collectFn_eq fun i => Reader.real_eq ?_
    refine (keep _ (by simp)).trans ?_
    fin_cases i <;> simp [applyUpdates_apply, deckUpdates, EvpDeck.head, DeckSpec.headText, lastUpdate]
  have htext : Reader.word ⟨env5, ⟨m ++ rest, true⟩⟩ ("filetext", []) = D.texture := by
    refine Reader.word_eq ?_
    refine (keep _ (by simp)).trans ?_
    simp [applyUpdates_apply, deckUpdates, EvpDeck.head, DeckSpec.headText, lastUpdate]
  have hint : ∀ (x : String) (z : ℤ), lastUpdate (x, []) (deckUpdates EvpDeck.control D.controlText) = some (.int z) →
      Reader.int ⟨env5, ⟨m ++ rest, true⟩⟩ (x, []) = some z := by
    intro x z hx
    refine Reader.int_eq ?_
    rw [e5]
    exact (applyUpdates_apply _ _ _).trans (by rw [hx]; rfl)
  have htol : Reader.real ⟨env5, ⟨m ++ rest, true⟩⟩ ("error", []) = some D.tol := by
    refine Reader.real_eq ?_
    rw [e5]
    simp [applyUpdates_apply, deckUpdates, EvpDeck.control, DeckSpec.controlText, lastUpdate]
  have hthermo : (if (if D.thermo.isSome then (1 : ℤ) else 0) = 1 then
      some (Reader.word (runIns F (linesIns EvpDeck.thermo) ⟨env5, ⟨m ++ rest, true⟩⟩) ("filethermo", [])) else none) =
      D.thermo := by
    cases hw : D.thermo with
    | none => simp
    | some w =>
      have hm' : DeckText F [[(.word, .word w)]] m := by simpa [DeckSpec.thermoText, hw] using hm
      have r7 := run_deckLines F hm' EvpDeck.thermo rfl env5 rest
      rw [r7]
      simp only [Option.isSome_some, if_true]
      rw [Reader.word_eq (w := w)]
      simp [applyUpdates_apply, deckUpdates, EvpDeck.thermo, lastUpdate]
  have hn : Reader.int ⟨applyUpdates (deckUpdates EvpDeck.head D.headText) (fun _ => none),
      ⟨c ++ (e ++ (g ++ (j ++ (l ++ (m ++ rest))))), true⟩⟩ ("nph", []) = some (D.phases.length : ℤ) := by
    refine Reader.int_eq ?_
    simp [applyUpdates_apply, deckUpdates, EvpDeck.head, DeckSpec.headText, lastUpdate]
  have hmx : Reader.int ⟨applyUpdates (deckUpdates EvpDeck.head D.headText) (fun _ => none),
      ⟨c ++ (e ++ (g ++ (j ++ (l ++ (m ++ rest))))), true⟩⟩ ("NPHMX", []) = some (D.sizes 0) := by
    refine Reader.int_eq ?_
    simp [applyUpdates_apply, deckUpdates, EvpDeck.head, DeckSpec.headText, lastUpdate]
  have c1 := C74_rate_flags D.given
  have c2 := C74_mixed_input D.given fun p => D.loaded (ijv p).1 (ijv p).2
  have s5 : ∀ r : EvpRun, deckControl F r ⟨env4, ⟨l ++ (m ++ rest), true⟩⟩ = some (.run { D.toRun q with
      phases := r.phases, iudot := r.iudot, udot := r.udot, iscau := r.iscau, scauchy := r.scauchy, tdot := r.tdot }) := by
    intro r
    unfold deckControl
    rw [r6]
    simp only
    rw [hnpts, hdelt, htol, htext,
      hint "nsteps" D.steps (by simp [deckUpdates, EvpDeck.control, DeckSpec.controlText, lastUpdate]),
      hint "itmax" D.iters (by simp [deckUpdates, EvpDeck.control, DeckSpec.controlText, lastUpdate]),
      hint "irecover" D.recover (by simp [deckUpdates, EvpDeck.control, DeckSpec.controlText, lastUpdate]),
      hint "isave" D.save (by simp [deckUpdates, EvpDeck.control, DeckSpec.controlText, lastUpdate]),
      hint "iupdate" D.update (by simp [deckUpdates, EvpDeck.control, DeckSpec.controlText, lastUpdate]),
      hint "iuphard" D.harden (by simp [deckUpdates, EvpDeck.control, DeckSpec.controlText, lastUpdate]),
      hint "iwtex" D.tex (by simp [deckUpdates, EvpDeck.control, DeckSpec.controlText, lastUpdate]),
      hint "iwfields" D.fields.1 (by simp [deckUpdates, EvpDeck.control, DeckSpec.controlText, lastUpdate]),
      hint "iwstep" D.fields.2 (by simp [deckUpdates, EvpDeck.control, DeckSpec.controlText, lastUpdate]),
      hint "ithermo" (if D.thermo.isSome then 1 else 0)
        (by simp [deckUpdates, EvpDeck.control, DeckSpec.controlText, lastUpdate])]
    simp only [Option.bind_some]
    rw [hthermo]
    rfl
  have s4 : ∀ r : EvpRun, deckStress q F r ⟨env3, ⟨j ++ (l ++ (m ++ rest)), true⟩⟩ =
      if 0 < D.ctrl then some .ictrl else some (.run { D.toRun q with
        phases := r.phases, iudot := r.iudot, udot := r.udot, iscau := r.iscau,
        tdot := timeStep q r.udot D.incr D.ctrl }) := by
    intro r
    unfold deckStress
    rw [r5]
    simp only
    rw [hstress, hincr, hctrl]
    simp only [Option.bind_some, s5]
    rfl
  have s3 : ∀ r : EvpRun, deckRates q F r ⟨env2, ⟨g ++ (j ++ (l ++ (m ++ rest))), true⟩⟩ =
      if checkMixedBc r.iudot (fun p => D.loaded (ijv p).1 (ijv p).2) = false then some .mixedFlags
      else if 0 < D.ctrl then some .ictrl else some (.run { D.toRun q with
        phases := r.phases, iudot := r.iudot }) := by
    intro r
    unfold deckRates
    rw [r4]
    simp only
    rw [hrate, hiscau]
    simp only [Option.bind_some, s4]
    rfl
  have s2 : ∀ r : EvpRun, deckFlags q F r ⟨env1, ⟨e ++ (g ++ (j ++ (l ++ (m ++ rest)))), true⟩⟩ =
      if checkIudot D.given = false then some .rateFlags
      else if checkMixedBc D.given (fun p => D.loaded (ijv p).1 (ijv p).2) = false then some .mixedFlags
      else if 0 < D.ctrl then some .ictrl else some (.run { D.toRun q with phases := r.phases }) := by
    intro r
    unfold deckFlags
    rw [r3]
    simp only
    rw [hflags]
    simp only [Option.bind_some, s3]
    rfl
  have s1 : readEvpDeck q F (a ++ (c ++ (e ++ (g ++ (j ++ (l ++ m))))) ++ rest) =
      if checkIudot D.given = false then some .rateFlags
      else if checkMixedBc D.given (fun p => D.loaded (ijv p).1 (ijv p).2) = false then some .mixedFlags
      else if 0 < D.ctrl then some .ictrl else some (.run (D.toRun q)) := by
    unfold readEvpDeck
    rw [show a ++ (c ++ (e ++ (g ++ (j ++ (l ++ m))))) ++ rest =
      a ++ (c ++ (e ++ (g ++ (j ++ (l ++ (m ++ rest)))))) by simp, r1]
    simp only
    rw [hmx, hn]
    simp only [Option.bind_some]
    rw [if_neg (not_lt.mpr hroom), Int.toNat_natCast, r2]
    simp only [Option.bind_some, s2]
    rfl
  rw [s1]
  unfold DeckSpec.end
  by_cases k1 : checkIudot D.given = true
  swap
  · rw [if_pos (by simpa using k1), if_pos (fun hh => k1 (c1.mpr hh))]
  rw [if_neg (by simp [k1]), if_neg (not_not.mpr (c1.mp k1))]
  by_cases k2 : checkMixedBc D.given (fun p => D.loaded (ijv p).1 (ijv p).2) = true
  swap
  · rw [if_pos (by simpa using k2), if_pos (fun hh => k2 (c2.mpr hh))]
  rw [if_neg (by simp [k2]), if_neg (not_not.mpr (c2.mp k2))]
  split_ifs <;> rfl

/-- **C119.** An input file in the layout of `DeckSpec.text`, with any comments behind the data of a line, any titles and
anything in the lines between the blocks, makes the run work with exactly its numbers and names: grid, spacing, phases
in order, flags, rates, the symmetric stress, and the controls; unless the flags are contradictory or the control mode is
positive, when it stops with the message for that. -/
theorem C119_deck (q : BasisConst ℝ) (F : NumConv) (D : DeckSpec) (cs rest : List Char) (h : DeckText F D.text cs)
    (hroom : (D.phases.length : ℤ) ≤ D.sizes 0)
    (hrates : D.given 0 0 + D.given 1 1 + D.given 2 2 ≠ 2 ∧ ∀ i j, i ≠ j → D.given i j + D.given j i ≠ 0)
    (hmixed : ∀ p, (idsimOf D.given p = 1 ∧ D.loaded (ijv p).1 (ijv p).2 = 0) ∨
      (idsimOf D.given p = 0 ∧ D.loaded (ijv p).1 (ijv p).2 = 1)) (hctrl : D.ctrl ≤ 0) :
    readEvpDeck q F (cs ++ rest) = some (.run (D.toRun q)) := by
  rw [readEvpDeck_text q F D cs rest h hroom]
  unfold DeckSpec.end
  rw [if_neg (not_not.mpr hrates), if_neg (not_not.mpr hmixed), if_neg (not_lt.mpr hctrl)]

/-- **C119.** Contradictory flags stop the run: first those of the rates, then those of rates and stresses, then a
positive control mode. -/
theorem C119_stops (q : BasisConst ℝ) (F : NumConv) (D : DeckSpec) (cs rest : List Char) (h : DeckText F D.text cs)
    (hroom : (D.phases.length : ℤ) ≤ D.sizes 0) :
    (readEvpDeck q F (cs ++ rest) = some .rateFlags ↔
      ¬ (D.given 0 0 + D.given 1 1 + D.given 2 2 ≠ 2 ∧ ∀ i j, i ≠ j → D.given i j + D.given j i ≠ 0)) ∧
    (readEvpDeck q F (cs ++ rest) = some .mixedFlags ↔
      (D.given 0 0 + D.given 1 1 + D.given 2 2 ≠ 2 ∧ ∀ i j, i ≠ j → D.given i j + D.given j i ≠ 0) ∧
      ¬ ∀ p, (idsimOf D.given p = 1 ∧ D.loaded (ijv p).1 (ijv p).2 = 0) ∨
        (idsimOf D.given p = 0 ∧ D.loaded (ijv p).1 (ijv p).2 = 1)) ∧
    (readEvpDeck q F (cs ++ rest) = some .ictrl ↔
      (D.given 0 0 + D.given 1 1 + D.given 2 2 ≠ 2 ∧ ∀ i j, i ≠ j → D.given i j + D.given j i ≠ 0) ∧
      (∀ p, (idsimOf D.given p = 1 ∧ D.loaded (ijv p).1 (ijv p).2 = 0) ∨
        (idsimOf D.given p = 0 ∧ D.loaded (ijv p).1 (ijv p).2 = 1)) ∧ 0 < D.ctrl) := by
  rw [readEvpDeck_text q F D cs rest h hroom]
  unfold DeckSpec.end
  split_ifs with h1 h2 h3 <;> simp_all

/-- **C119.** The pairs of files of single crystal data that a run reads are those named in the input file for the phases
that are not gas, in the order of the phases; the names given for a gas phase are not looked at. -/
theorem C119_crystal_files (q : BasisConst ℝ) (F : NumConv) (D : DeckSpec) (cs rest : List Char)
    (h : DeckText F D.text cs) (hroom : (D.phases.length : ℤ) ≤ D.sizes 0) (r : EvpRun)
    (hr : readEvpDeck q F (cs ++ rest) = some (.run r)) :
    r.phases.flatMap EvpPhase.calls =
      (D.phases.filter fun p => decide (p.gas = 0)).map fun p => (p.plastic, p.elastic) := by
  rw [readEvpDeck_text q F D cs rest h hroom] at hr
  have hp : r.phases = D.phases := by
    unfold DeckSpec.end at hr
    split_ifs at hr <;> simp only [Option.some.injEq, reduceCtorEq, EvpDeckEnd.run.injEq] at hr
    rw [← hr]
    rfl
  rw [hp]
  induction D.phases with
  | nil => rfl
  | cons p l ih =>
    rw [List.flatMap_cons, ih]
    unfold EvpPhase.calls
    by_cases hg : p.gas = 0 <;> simp [hg]

/-- **C119.** The time step: in mode -1 the number in the file; in mode 0 the step whose strain, in the sense of von
Mises, is the number in the file. -/
theorem C119_time_step (q : BasisConst ℝ) (hq : q.Exact) (D : DeckSpec) :
    (D.ctrl = -1 → (D.toRun q).tdot = some D.incr) ∧
    (D.ctrl = 0 → 0 ≤ D.incr → vmStrain (fun i j => (D.rate i j + D.rate j i) / 2) ≠ 0 →
      ∃ t, (D.toRun q).tdot = some t ∧ vmStrain (fun i j => t * ((D.rate i j + D.rate j i) / 2)) = D.incr) := by
  refine ⟨fun h => by simp [DeckSpec.toRun, timeStep, h], fun h h0 hv => ?_⟩
  obtain ⟨S, hS⟩ : ∃ S : T2 ℝ, S = fun i j => (D.rate i j + D.rate j i) / 2 := ⟨_, rfl⟩
  rw [← hS] at hv
  have hd : dvmOf q S = vmStrain S := C74_strain_routines_agree q hq S
  have hpos : 0 < vmStrain S := lt_of_le_of_ne (Real.sqrt_nonneg _) (Ne.symm hv)
  refine ⟨D.incr / vmStrain S, ?_, ?_⟩
  · simp only [DeckSpec.toRun, timeStep, h]
    rw [← hS, hd, if_neg (by norm_num), if_pos trivial, if_neg hv]
  · have key : ∀ t : ℝ, 0 ≤ t → vmStrain (fun i j => t * S i j) = t * vmStrain S := by
      intro t ht
      unfold vmStrain
      have : ∀ i j, vmDev (fun i j => t * S i j) i j = t * vmDev S i j := by
        intro i j; unfold vmDev; ring
      simp only [this, mul_pow, ← Finset.mul_sum]
      rw [show 2 / 3 * (t ^ 2 * ∑ j, ∑ i, vmDev S i j ^ 2) = t ^ 2 * (2 / 3 * ∑ j, ∑ i, vmDev S i j ^ 2) by ring,
        Real.sqrt_mul (sq_nonneg t), Real.sqrt_sq ht]
    have := key (D.incr / vmStrain S) (div_nonneg h0 hpos.le)
    rw [hS] at this ⊢
    rw [this]
    rw [← hS]
    field_simp

/-- **C119 (time step).** *Fails in the code*: in mode 0 a rate without deviator, as in a run driven by stresses alone,
divides by zero, and a mode below -1 leaves the time step unset; neither is reported. -/
theorem C119_time_step_fails (q : BasisConst ℝ) (hq : q.Exact) (D : DeckSpec) :
    (D.ctrl = 0 → (∀ i j, D.rate i j = 0) → (D.toRun q).tdot = none) ∧
    (D.ctrl < -1 → (D.toRun q).tdot = none) := by
  refine ⟨fun h h0 => ?_, fun h => ?_⟩
  · have hd := C74_strain_routines_agree q hq fun i j => (D.rate i j + D.rate j i) / 2
    simp only [DeckSpec.toRun, timeStep, h]
    rw [if_neg (by norm_num), if_pos trivial, if_pos]
    rw [hd]
    simp [vmStrain, vmDev, h0]
  · simp only [DeckSpec.toRun, timeStep]
    rw [if_neg (by omega), if_neg (by omega)]

/-- **C119 (room for phases).** *Fails in the code*: the number of phases is not compared with the room made for them by
the first number of the file. -/
theorem C119_phases_fails (q : BasisConst ℝ) (F : NumConv) (D : DeckSpec) (cs rest : List Char)
    (h : DeckText F D.text cs) (hroom : D.sizes 0 < D.phases.length) : readEvpDeck q F (cs ++ rest) = none := by
  unfold DeckSpec.text at h
  obtain ⟨a, b, rfl, ha, h⟩ := h.split
  have r1 := run_deckLines F ha EvpDeck.head rfl (fun _ => none) (b ++ rest)
  unfold readEvpDeck
  rw [List.append_assoc, r1]
  have hn : Reader.int ⟨applyUpdates (deckUpdates EvpDeck.head D.headText) (fun _ => none),
      ⟨b ++ rest, true⟩⟩ ("nph", []) = some (D.phases.length : ℤ) := by
    refine Reader.int_eq ?_
    simp [applyUpdates_apply, deckUpdates, EvpDeck.head, DeckSpec.headText, lastUpdate]
  have hmx : Reader.int ⟨applyUpdates (deckUpdates EvpDeck.head D.headText) (fun _ => none),
      ⟨b ++ rest, true⟩⟩ ("NPHMX", []) = some (D.sizes 0) := by
    refine Reader.int_eq ?_
    simp [applyUpdates_apply, deckUpdates, EvpDeck.head, DeckSpec.headText, lastUpdate]
  simp only
  rw [hmx, hn]
  simp only [Option.bind_some]
  rw [if_pos hroom]

/-- **C119 (blank title).** *Fails in the code*: a title line left blank is not taken as the title.  The line behind it
is, so that the name of the microstructure file is taken from the line after its own. -/
theorem C119_blank_title_fails (F : NumConv) (env : Var → Option Val) (w1 w2 : List Char) (l1 l2 rest : List Char)
    (blank : List Char) (hb : ∀ c ∈ blank, cSpace c = true) (h1 : LineText F [(.word, .word w1)] l1)
    (h2 : LineText F [(.word, .word w2)] l2) :
    Reader.word (runIns F (linesIns (EvpDeck.head.drop 4)) ⟨env, ⟨blank ++ '\n' :: (l1 ++ (l2 ++ rest)), true⟩⟩)
      ("filetext", []) = w2 := by
  obtain ⟨a, c, rfl, ha, hs, hn⟩ := h1
  have h1' : LineText F [(.word, .word w1)] (blank ++ ['\n'] ++ (a ++ c ++ ['\n'])) := by
    cases ha with
    | @cons _ _ _ w t cs hw ht hsep hf =>
      cases hf
      refine ⟨blank ++ ['\n'] ++ w ++ t ++ [], c, by simp, ?_, hs, hn⟩
      refine FieldsText.cons (fun d hd => ?_) ht sepStart_nil .nil
      simp only [List.mem_append, List.mem_singleton] at hd
      rcases hd with (hd | rfl) | hd
      · exact hb d hd
      · rfl
      · exact hw d hd
  have ht : DeckText F [[(.word, .word w1)], [(.word, .word w2)]] ((blank ++ ['\n'] ++ (a ++ c ++ ['\n'])) ++ (l2 ++ [])) :=
    .cons (Or.inr ⟨by simp, h1'⟩) (.cons (Or.inr ⟨by simp, h2⟩) .nil)
  have := run_deckLines F ht (EvpDeck.head.drop 4) rfl env rest
  rw [show blank ++ '\n' :: (a ++ c ++ ['\n'] ++ (l2 ++ rest)) =
    blank ++ ['\n'] ++ (a ++ c ++ ['\n']) ++ (l2 ++ []) ++ rest by simp, this]
  refine Reader.word_eq ?_
  simp [applyUpdates_apply, deckUpdates, EvpDeck.head, lastUpdate]

/-- **C119 (field output).** *Fails in the code*: with fields wanted every 0 steps the remainder by zero is taken after
the first step; otherwise they are written after every multiple of the number. -/
theorem C119_field_output_fails (iwstep imicro : ℤ) :
    (iwstep ≠ 0 → (fieldsWritten 1 iwstep imicro = some true ↔ iwstep ∣ imicro)) ∧ fieldsWritten 1 0 imicro = none := by
  refine ⟨fun h => ?_, rfl⟩
  simp only [fieldsWritten, if_true, if_neg h, Option.some.injEq, beq_iff_eq]
  exact (Int.dvd_iff_emod_eq_zero ..).symm

/-! ### Eigenstrains of grains -/

/-- The six numbers of a grain in the order of the file. -/
def thermoRow (e : Fin 6 → ℝ) : List (Kind × Val) := (List.finRange 6).map fun p => (.real, .real (e p))

/-- The component a number of a row stands for: 11, 22, 33, 23, 31, 12. -/
def thermoComp (p : Fin 6) : Fin 3 × Fin 3 := (![0, 1, 2, 1, 2, 0] p, ![0, 1, 2, 2, 0, 1] p)

/-- The variable a number goes to. -/
def thermoVar (m : ℕ) (p : Fin 6) : Var := ("eth", [(thermoComp p).1.val + 1, (thermoComp p).2.val + 1, m + 1])

theorem thermoVar_inj {m m' : ℕ} {p p' : Fin 6} (h : thermoVar m p = thermoVar m' p') : m = m' ∧ p = p' := by
  unfold thermoVar at h
  simp only [Prod.mk.injEq, List.cons.injEq, Nat.add_right_cancel_iff, and_true, true_and] at h
  refine ⟨h.2.2, ?_⟩
  obtain ⟨h1, h2, -⟩ := h
  revert h1 h2
  revert p p'
  decide

theorem lastUpdate_some {x : Var} {v : Val} : ∀ {us : List (Var × Val)}, x ∈ us.map Prod.fst →
    (∀ u ∈ us, u.1 = x → u.2 = v) → lastUpdate x us = some v := by
  intro us
  induction us with
  | nil => intro h; simp at h
  | cons u us ih =>
    intro h hv
    simp only [lastUpdate]
    by_cases hx : x ∈ us.map Prod.fst
    · rw [ih hx fun u hu => hv u (by simp [hu])]; rfl
    · have hu : x = u.1 := by
        simp only [List.map_cons, List.mem_cons] at h
        exact h.resolve_right hx
      have hn : lastUpdate x us = none := by
        clear ih h hv
        induction us with
        | nil => rfl
        | cons w us ih =>
          simp only [List.map_cons, List.mem_cons, not_or] at hx
          simp [lastUpdate, ih hx.2, hx.1]
      rw [hn, if_pos hu, hv u (by simp) hu.symm]
      rfl

theorem lastUpdate_none {x : Var} : ∀ {us : List (Var × Val)}, (∀ u ∈ us, u.1 ≠ x) → lastUpdate x us = none := by
  intro us
  induction us with
  | nil => intro _; rfl
  | cons w us ih =>
    intro h
    simp only [lastUpdate]
    rw [ih fun u hu => h u (by simp [hu]), if_neg fun e => h w (by simp) e.symm]
    rfl

/-- The assignments made by a file of rows. -/
def thermoUpdates : ℕ → List (Fin 6 → ℝ) → List (Var × Val)
  | _, [] => []
  | m, e :: es => ((List.finRange 6).map fun p => (thermoVar m p, Val.real (e p))) ++ thermoUpdates (m + 1) es

theorem thermoUpdates_mem {es : List (Fin 6 → ℝ)} : ∀ {k : ℕ} {u : Var × Val}, u ∈ thermoUpdates k es ↔
    ∃ m e p, es[m]? = some e ∧ u = (thermoVar (k + m) p, .real (e p)) := by
  induction es with
  | nil => intro k u; simp [thermoUpdates]
  | cons e es ih =>
    intro k u
    simp only [thermoUpdates, List.mem_append, List.mem_map, List.mem_finRange, true_and, ih]
    constructor
    · rintro (⟨p, rfl⟩ | ⟨m, e', p, h1, h2⟩)
      · exact ⟨0, e, p, rfl, rfl⟩
      · exact ⟨m + 1, e', p, by simpa using h1, by rw [h2, show k + 1 + m = k + (m + 1) by omega]⟩
    · rintro ⟨m, e', p, h1, h2⟩
      cases m with
      | zero =>
        simp only [List.getElem?_cons_zero, Option.some.injEq] at h1
        subst h1
        exact Or.inl ⟨p, h2.symm⟩
      | succ m => exact Or.inr ⟨m, e', p, by simpa using h1, by rw [h2, show k + 1 + m = k + (m + 1) by omega]⟩

theorem thermoGrain_eq (m : ℕ) : thermoGrain (m + 1) = (List.finRange 6).map fun p => .get .real (thermoVar m p) := by
  have : List.finRange 6 = [0, 1, 2, 3, 4, 5] := by decide
  rw [this]
  rfl

theorem thermo_zip : ∀ (es : List (Fin 6 → ℝ)) (k : ℕ),
    ∃ xs : List Var, xs.length = (es.flatMap thermoRow).length ∧
      ((xs.zip (es.flatMap thermoRow)).map fun p => Ins.get p.2.1 p.1) =
        ((List.range' k es.length).flatMap fun ig => thermoGrain (ig + 1)) ∧
      (xs.zip (es.flatMap thermoRow)).map (fun p => (p.1, p.2.2)) = thermoUpdates k es := by
  intro es
  induction es with
  | nil => intro k; exact ⟨[], rfl, rfl, rfl⟩
  | cons e es ih =>
    intro k
    obtain ⟨xs, h1, h2, h3⟩ := ih (k + 1)
    refine ⟨(List.finRange 6).map (thermoVar k) ++ xs, ?_, ?_, ?_⟩
    · simp [thermoRow] at h1 ⊢; omega
    · rw [List.flatMap_cons, List.zip_append (by simp [thermoRow]), List.map_append, h2, List.length_cons,
        List.range'_succ, List.flatMap_cons, thermoGrain_eq]
      simp [thermoRow, List.zip_map']
    · rw [List.flatMap_cons, List.zip_append (by simp [thermoRow]), List.map_append, h3, thermoUpdates]
      simp [thermoRow, List.zip_map']

theorem run_thermo (F : NumConv) (es : List (Fin 6 → ℝ)) (cs rest : List Char)
    (h : FieldsText F (es.flatMap thermoRow) cs) (hr : SepStart rest) :
    runIns F ((List.range es.length).flatMap fun ig => thermoGrain (ig + 1)) ⟨fun _ => none, ⟨cs ++ rest, true⟩⟩ =
      ⟨applyUpdates (thermoUpdates 0 es) fun _ => none, ⟨rest, true⟩⟩ := by
  obtain ⟨xs, h1, h2, h3⟩ := thermo_zip es 0
  have := run_fields F h xs (fun _ => none) rest h1 hr
  rw [h2, ← List.range_eq_range'] at this
  rw [this, ← h3]
  congr 1
  unfold applyUpdates
  rw [List.foldl_map]

theorem thermo_entry (es : List (Fin 6 → ℝ)) (m : ℕ) (e : Fin 6 → ℝ) (he : es[m]? = some e) (p : Fin 6) :
    lastUpdate (thermoVar m p) (thermoUpdates 0 es) = some (.real (e p)) := by
  refine lastUpdate_some ?_ fun u hu hx => ?_
  · rw [List.mem_map]
    exact ⟨(thermoVar m p, .real (e p)), thermoUpdates_mem.mpr ⟨m, e, p, he, by simp⟩, rfl⟩
  · obtain ⟨m', e', p', h1, rfl⟩ := thermoUpdates_mem.mp hu
    simp only [Nat.zero_add] at hx
    obtain ⟨rfl, rfl⟩ := thermoVar_inj hx
    rw [he] at h1
    simp only [Option.some.injEq] at h1
    rw [h1]

theorem ethEntry_comp (s : Reader) (m : ℕ) (p : Fin 6) :
    ethEntry s (m + 1) (thermoComp p).1 (thermoComp p).2 = s.real (thermoVar m p) ∧
    ethEntry s (m + 1) (thermoComp p).2 (thermoComp p).1 = s.real (thermoVar m p) := by
  fin_cases p <;> exact ⟨rfl, rfl⟩

/-- **C119.** Eigenstrains: with a file that has a row of six numbers 11, 22, 33, 23, 31, 12 for every grain there can
be, and nothing else, a point starts with the symmetric tensor of its grain; without the option, or in a grain numbered
0 or less, with zero. -/
theorem C119_eigenstrain (F : NumConv) (es : List (Fin 6 → ℝ)) (cs rest : List Char)
    (h : FieldsText F (es.flatMap thermoRow) cs) (hr : SepStart rest) :
    (∀ (m : ℕ) (e : Fin 6 → ℝ), es[m]? = some e → ∀ p,
      eptEntry F es.length 1 (cs ++ rest) (m + 1) (thermoComp p).1 (thermoComp p).2 = some (e p) ∧
      eptEntry F es.length 1 (cs ++ rest) (m + 1) (thermoComp p).2 (thermoComp p).1 = some (e p)) ∧
    (∀ (n : ℕ) (ithermo jgr : ℤ) (file : List Char) (i j : Fin 3), ithermo ≠ 1 ∨ jgr ≤ 0 →
      eptEntry F n ithermo file jgr i j = some 0) := by
  refine ⟨fun m e he p => ?_, fun n ithermo jgr file i j hn => ?_⟩
  · have hlt : m < es.length := (List.getElem?_eq_some_iff.mp he).1
    have hv : Reader.real (readThermo F es.length (cs ++ rest)) (thermoVar m p) = some (e p) := by
      unfold readThermo
      rw [run_thermo F es cs rest h hr]
      refine Reader.real_eq ?_
      exact (applyUpdates_apply _ _ _).trans (by rw [thermo_entry es m e he p]; rfl)
    have ht : ((m : ℤ) + 1).toNat = m + 1 := by omega
    unfold eptEntry
    rw [if_pos ⟨rfl, by omega⟩, if_pos (by omega), if_pos ⟨rfl, by omega⟩, if_pos (by omega), ht,
      (ethEntry_comp _ m p).1, (ethEntry_comp _ m p).2, hv]
    exact ⟨rfl, rfl⟩
  · unfold eptEntry
    rw [if_neg]
    rintro ⟨h1, h2⟩
    rcases hn with hn | hn
    · exact hn h1
    · omega

/-- **C119 (eigenstrains).** *Fails in the code*: the reading stops for good at the first thing that is not a number,
such as a comment behind the first row (the lines cleared are those of another file), or at the end of a file with fewer
rows than 200000, and the points of all grains from the second on behind that place start with an unset strain. -/
theorem C119_eigenstrain_fails (F : NumConv) (es : List (Fin 6 → ℝ)) (cs rest : List Char) (n : ℕ)
    (h : FieldsText F (es.flatMap thermoRow) cs) (hr : SepStart rest) (hn : es.length + 2 ≤ n)
    (hbad : rest.dropWhile cSpace = [] ∨ (F.real (rest.dropWhile cSpace)).2 = none) (m : ℕ) (hm : es.length + 1 ≤ m)
    (hmn : m < n) (p : Fin 6) :
    eptEntry F n 1 (cs ++ rest) (m + 1) (thermoComp p).1 (thermoComp p).2 = none := by
  obtain ⟨r, hrn⟩ : ∃ r, n = es.length + (r + 1) := ⟨n - es.length - 1, by omega⟩
  have hrun : ∃ v st, readThermo F n (cs ++ rest) =
      ⟨Function.update (applyUpdates (thermoUpdates 0 es) fun _ => none) (thermoVar es.length 0) v, st⟩ := by
    unfold readThermo
    rw [hrn, List.range_add, List.flatMap_append, runIns_append, run_thermo F es cs rest h hr, List.range_succ_eq_map,
      List.map_cons, List.flatMap_cons, runIns_append]
    have hfin : List.finRange 6 = [0, 1, 2, 3, 4, 5] := by decide
    rw [Nat.add_zero, thermoGrain_eq, hfin]
    simp only [List.map_cons, List.map_nil]
    have hst : ∃ v, Ins.step F ⟨applyUpdates (thermoUpdates 0 es) fun _ => none, ⟨rest, true⟩⟩
        (.get .real (thermoVar es.length 0)) =
        ⟨Function.update (applyUpdates (thermoUpdates 0 es) fun _ => none) (thermoVar es.length 0) v, ⟨[], false⟩⟩ := by
      simp only [Ins.step, CStream.get, if_true]
      rcases hbad with hb | hb
      · rw [hb]; exact ⟨_, rfl⟩
      · cases hd : rest.dropWhile cSpace with
        | nil => exact ⟨_, rfl⟩
        | cons c l =>
          rw [hd] at hb
          simp only [NumConv.ext, hb]
          exact ⟨_, rfl⟩
    obtain ⟨v, hst⟩ := hst
    refine ⟨v, ⟨[], false⟩, ?_⟩
    conv_lhs => rw [show ∀ (a : Ins) l s, runIns F (a :: l) s = runIns F l (Ins.step F s a) from fun _ _ _ => rfl]
    rw [hst, runIns_failed, runIns_failed]
  obtain ⟨v, st, hrun⟩ := hrun
  have ht : ((m : ℤ) + 1).toNat = m + 1 := by omega
  unfold eptEntry
  rw [if_pos ⟨rfl, by omega⟩, if_pos (by omega), ht, (ethEntry_comp _ m p).1, hrun]
  unfold Reader.real
  have hne : thermoVar m p ≠ thermoVar es.length 0 := fun e => by
    have := (thermoVar_inj e).1
    omega
  simp only [Function.update_of_ne hne, applyUpdates_apply]
  rw [lastUpdate_none]
  · rfl
  · intro u hu e
    obtain ⟨m', e', p', h1, rfl⟩ := thermoUpdates_mem.mp hu
    have := (thermoVar_inj e).1
    have := (List.getElem?_eq_some_iff.mp h1).1
    omega

/-! ### The hypotheses are met -/

/-- A run with the normal rate 33 and the shears given, the two other normal stresses zero. -/
noncomputable def tensionDeck : DeckSpec where
  sizes := ![1, 2, 1, 12]
  npts := ![8, 8, 8]
  delt := ![1, 1, 1]
  texture := "tex.txt".toList
  phases := [⟨0, "cu.sx".toList, "cu.el".toList⟩]
  given := fun i j => if i = j ∧ i ≠ 2 then 0 else 1
  rate := fun i j => if i = j then ![-1, -1, 2] i / 2 else 0
  loaded := fun i j => if i = j ∧ i ≠ 2 then 1 else 0
  load := fun _ _ => 0
  incr := 1 / 100
  ctrl := -1
  steps := 10
  tol := 1 / 1000
  iters := 100
  recover := 0
  save := 0
  update := 1
  harden := 1
  tex := 1
  fields := (1, 5)
  thermo := none
  title := fun _ => "*".toList

example : (tensionDeck.phases.length : ℤ) ≤ tensionDeck.sizes 0 ∧
    (tensionDeck.given 0 0 + tensionDeck.given 1 1 + tensionDeck.given 2 2 ≠ 2 ∧
      ∀ i j, i ≠ j → tensionDeck.given i j + tensionDeck.given j i ≠ 0) ∧
    (∀ p, (idsimOf tensionDeck.given p = 1 ∧ tensionDeck.loaded (ijv p).1 (ijv p).2 = 0) ∨
      (idsimOf tensionDeck.given p = 0 ∧ tensionDeck.loaded (ijv p).1 (ijv p).2 = 1)) ∧ tensionDeck.ctrl ≤ 0 := by
  refine ⟨by simp [tensionDeck], ⟨by simp [tensionDeck], ?_⟩, ?_, by simp [tensionDeck]⟩
  · intro i j h; simp [tensionDeck, h, h.symm]
  · intro p
    fin_cases p <;> simp [tensionDeck, idsimOf, ijv]

/-- Every specification all of whose fields have texts has a file. -/
theorem deckText_exists (F : NumConv) (fss : List (List (Kind × Val)))
    (hok : ∀ fs ∈ fss, ∀ f ∈ fs, ∃ t, F.Reads f.1 t f.2) : ∃ cs, DeckText F fss cs := by
  have hfield : ∀ fs : List (Kind × Val), (∀ f ∈ fs, ∃ t, F.Reads f.1 t f.2) →
      ∃ cs, FieldsText F fs cs ∧ SepStart cs := by
    intro fs
    induction fs with
    | nil => intro _; exact ⟨[], .nil, sepStart_nil⟩
    | cons f fs ih =>
      intro h
      obtain ⟨cs, h1, h2⟩ := ih fun g hg => h g (by simp [hg])
      obtain ⟨t, ht⟩ := h f (by simp)
      refine ⟨[' '] ++ t ++ cs, FieldsText.cons (k := f.1) (v := f.2) (by simp [cSpace]) ht h2 h1, ?_⟩
      intro c hc
      simp only [List.cons_append, List.head?_cons, Option.mem_def, Option.some.injEq] at hc
      subst hc
      rfl
  induction fss with
  | nil => exact ⟨[], .nil⟩
  | cons fs fss ih =>
    obtain ⟨b, hb⟩ := ih fun gs hg => hok gs (by simp [hg])
    by_cases he : fs = []
    · exact ⟨['\n'] ++ b, .cons (Or.inl ⟨he, [], rfl, by simp⟩) hb⟩
    · obtain ⟨cs, h1, -⟩ := hfield fs (hok fs (by simp))
      exact ⟨cs ++ ['\n'] ++ b, .cons (Or.inr ⟨he, cs, [], by simp, h1, sepStart_nil, by simp⟩) hb⟩

/-- Fields with a text for `digitConv`. -/
def DigitField : Kind × Val → Prop
  | (.int, .int z) => 0 ≤ z ∧ z < 10
  | (.real, .real x) => ∃ n : ℕ, n < 10 ∧ x = n
  | (.word, .word w) => w ≠ [] ∧ ∀ c ∈ w, cSpace c = false
  | _ => False

theorem digitField_reads {f : Kind × Val} (h : DigitField f) : ∃ t, digitConv.Reads f.1 t f.2 := by
  have dig : ∀ n : ℕ, n < 10 → ∃ c : Char, c.isDigit = true ∧ cSpace c = false ∧ c.toNat - 48 = n := by
    intro n hn
    refine ⟨Char.ofNat (48 + n), ?_⟩
    interval_cases n <;> decide
  match f, h with
  | (.int, .int z), h =>
    obtain ⟨n, rfl⟩ := Int.eq_ofNat_of_zero_le h.1
    obtain ⟨c, h1, h2, h3⟩ := dig n (by have := h.2; omega)
    exact ⟨[c], by rw [← h3]; exact digitConv_int c h1 h2⟩
  | (.real, .real x), h =>
    obtain ⟨n, hn, rfl⟩ := h
    obtain ⟨c, h1, h2, h3⟩ := dig n hn
    exact ⟨[c], by rw [← h3]; exact digitConv_real c h1 h2⟩
  | (.word, .word w), h => exact ⟨w, reads_word _ w h.1 h.2⟩

/-- The same run with numbers of one digit. -/
noncomputable def digitDeck : DeckSpec :=
  { tensionDeck with
    sizes := ![1, 2, 1, 9]
    rate := fun i j => if i = j then ![0, 0, 2] i else 0
    incr := 1
    ctrl := 0
    steps := 9
    tol := 1
    iters := 9
    texture := ['t']
    phases := [⟨0, ['p'], ['e']⟩]
    title := fun _ => ['*'] }

/-- There is a file with that run. -/
example : ∃ cs, DeckText digitConv digitDeck.text cs := by
  refine deckText_exists _ _ fun fs hfs f hf => digitField_reads ?_
  have n0 : ∃ n : ℕ, n < 10 ∧ (0 : ℝ) = n := ⟨0, by norm_num, by norm_num⟩
  have n1 : ∃ n : ℕ, n < 10 ∧ (1 : ℝ) = n := ⟨1, by norm_num, by norm_num⟩
  have n2 : ∃ n : ℕ, n < 10 ∧ (2 : ℝ) = n := ⟨2, by norm_num, by norm_num⟩
  have hall : ∀ fs ∈ digitDeck.text, ∀ f ∈ fs, DigitField f := by
    simp only [DeckSpec.text, DeckSpec.headText, DeckSpec.phaseText, DeckSpec.flagsText, DeckSpec.ratesText,
      DeckSpec.stressText, DeckSpec.controlText, DeckSpec.thermoText, digitDeck, tensionDeck, List.flatMap_cons,
      List.flatMap_nil, List.append_nil, List.cons_append, List.nil_append, List.forall_mem_cons, Option.toList_none,
      List.map_nil, DigitField]
    simp [n0, n1, n2, cSpace]
  exact hall fs hfs f hf

end Fierro
