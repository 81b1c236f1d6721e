import Verif.Model.CStream
import Verif.Model.EvpStep

/-!
# EVPFFT: the input file of a run

Models `vpsc_input` of `apps/micromechanics/EVPFFT/src/vpsc_input.cpp`: which line of the file sets what, the stops, the
time step, and the eigenstrains of `ithermo`.  The files of the phases and the microstructure are read by `data_crystal`,
`data_crystal_elast` and `data_grain` (C70, C118); here the calls are recorded.  Sizes are not limited by memory.
-/

namespace Fierro

/-- `stream >> a >> b ...; CLEAR_LINE(stream)`; without variables just `CLEAR_LINE`. -/
def lineIns (xs : List (Kind × Var)) : List Ins := (xs.map fun x => .get x.1 x.2) ++ [.clear]

/-- Several such statements. -/
def linesIns (ls : List (List (Kind × Var))) : List Ins := ls.flatMap lineIns

namespace EvpDeck

/-- vpsc_input.cpp:53-70. -/
def head : List (List (Kind × Var)) :=
  [[(.int, ("NPHMX", [])), (.int, ("NMODMX", [])), (.int, ("NTWMMX", [])), (.int, ("NSYSMX", []))],
   [(.int, ("npts", [1])), (.int, ("npts", [2])), (.int, ("npts", [3]))],
   [(.int, ("nph", []))],
   [(.real, ("delt", [1])), (.real, ("delt", [2])), (.real, ("delt", [3]))],
   [(.word, ("prosa", []))],
   [(.word, ("filetext", []))]]

/-- vpsc_input.cpp:77-81. -/
def phase (iph : ℕ) : List (List (Kind × Var)) :=
  [[(.word, ("prosa", []))],
   [(.int, ("igas", [iph]))],
   [(.word, ("prosa", []))],
   [(.word, ("filecryspl", []))],
   [(.word, ("filecrysel", []))]]

/-- vpsc_input.cpp:114-122. -/
def flags : List (List (Kind × Var)) :=
  [[(.word, ("prosa", []))],
   [(.word, ("prosa", []))],
   [(.int, ("iudot", [1, 1])), (.int, ("iudot", [1, 2])), (.int, ("iudot", [1, 3]))],
   [(.int, ("iudot", [2, 1])), (.int, ("iudot", [2, 2])), (.int, ("iudot", [2, 3]))],
   [(.int, ("iudot", [3, 1])), (.int, ("iudot", [3, 2])), (.int, ("iudot", [3, 3]))]]

/-- vpsc_input.cpp:127-133 and 144-147. -/
def rates : List (List (Kind × Var)) :=
  [[],
   [(.real, ("udot", [1, 1])), (.real, ("udot", [1, 2])), (.real, ("udot", [1, 3]))],
   [(.real, ("udot", [2, 1])), (.real, ("udot", [2, 2])), (.real, ("udot", [2, 3]))],
   [(.real, ("udot", [3, 1])), (.real, ("udot", [3, 2])), (.real, ("udot", [3, 3]))],
   [],
   [(.int, ("iscau", [1])), (.int, ("iscau", [6])), (.int, ("iscau", [5]))],
   [(.int, ("iscau", [2])), (.int, ("iscau", [4]))],
   [(.int, ("iscau", [3]))]]

/-- vpsc_input.cpp:152-163. -/
def stress : List (List (Kind × Var)) :=
  [[],
   [(.real, ("scauchy", [1, 1])), (.real, ("scauchy", [1, 2])), (.real, ("scauchy", [1, 3]))],
   [(.real, ("scauchy", [2, 2])), (.real, ("scauchy", [2, 3]))],
   [(.real, ("scauchy", [3, 3]))],
   [],
   [(.real, ("dummy", []))],
   [(.int, ("ictrl", []))]]

/-- vpsc_input.cpp:172-192.  With `irecover` equal to 1 the file `stress.in` is opened, but nothing is read from it. -/
def control : List (List (Kind × Var)) :=
  [[],
   [(.int, ("nsteps", []))],
   [(.real, ("error", []))],
   [(.int, ("itmax", []))],
   [(.int, ("irecover", []))],
   [(.int, ("isave", []))],
   [(.int, ("iupdate", []))],
   [(.int, ("iuphard", []))],
   [(.int, ("iwtex", []))],
   [(.int, ("iwfields", [])), (.int, ("iwstep", []))],
   [(.int, ("ithermo", []))]]

/-- vpsc_input.cpp:197. -/
def thermo : List (List (Kind × Var)) := [[(.word, ("filethermo", []))]]

end EvpDeck

/-- An integer variable, if it was set. -/
def Reader.int (s : Reader) (x : Var) : Option ℤ :=
  match s.env x with
  | some (.int z) => some z
  | _ => none

/-- A real variable, if it was set. -/
def Reader.real (s : Reader) (x : Var) : Option ℝ :=
  match s.env x with
  | some (.real z) => some z
  | _ => none

/-- A string; one that was not set is empty. -/
def Reader.word (s : Reader) (x : Var) : List Char :=
  match s.env x with
  | some (.word w) => w
  | _ => []

/-- All entries of an array, if all were set. -/
def collectFn {n : ℕ} {α : Type} (f : Fin n → Option α) : Option (Fin n → α) :=
  if h : ∀ i, (f i).isSome then some fun i => (f i).get (h i) else none

/-- A phase: gas flag and the two files, which are read when the flag is 0. -/
structure EvpPhase where
  gas : ℤ
  plastic : List Char
  elastic : List Char

/-- The files read for a phase, vpsc_input.cpp:85-88. -/
def EvpPhase.calls (p : EvpPhase) : List (List Char × List Char) := if p.gas = 0 then [(p.plastic, p.elastic)] else []

/-- The loop over the phases, vpsc_input.cpp:75-90, for the phases `iph, iph + 1, ...`, `n` of them. -/
def readPhases (F : NumConv) : ℕ → ℕ → Reader → Option (List EvpPhase × Reader)
  | 0, _, s => some ([], s)
  | n + 1, iph, s =>
    let s := runIns F (linesIns (EvpDeck.phase iph)) s
    match s.int ("igas", [iph]) with
    | none => none
    | some g =>
      (readPhases F n (iph + 1) s).map fun r =>
        (⟨g, s.word ("filecryspl", []), s.word ("filecrysel", [])⟩ :: r.1, r.2)

/-- What a run works with. -/
structure EvpRun where
  npts : Fin 3 → ℤ
  delt : Fin 3 → ℝ
  texture : List Char
  phases : List EvpPhase
  iudot : Fin 3 → Fin 3 → ℤ
  udot : Fin 3 → Fin 3 → ℝ
  iscau : Fin 6 → ℤ
  scauchy : Fin 3 → Fin 3 → ℝ
  tdot : Option ℝ
  nsteps : ℤ
  error : ℝ
  itmax : ℤ
  irecover : ℤ
  isave : ℤ
  iupdate : ℤ
  iuphard : ℤ
  iwtex : ℤ
  iwfields : ℤ
  iwstep : ℤ
  ithermo : ℤ
  thermoFile : Option (List Char)

/-- How the reading of the input file ends. -/
inductive EvpDeckEnd where
  | rateFlags
  | mixedFlags
  | ictrl
  | run (r : EvpRun)

/-- `tdot`, vpsc_input.cpp:166-167; `none`: not set, or a division by zero. -/
noncomputable def timeStep (q : BasisConst ℝ) (udot : Fin 3 → Fin 3 → ℝ) (dummy : ℝ) (ictrl : ℤ) : Option ℝ :=
  let dvm := dvmOf q fun i j => (udot i j + udot j i) / 2
  if ictrl = -1 then some dummy
  else if ictrl = 0 then (if dvm = 0 then none else some (dummy / dvm))
  else none

/-- The matrix read into `x`. -/
def Reader.mat {α : Type} (f : Var → Option α) (x : String) : Option (Fin 3 → Fin 3 → α) :=
  collectFn fun i => collectFn fun j => f (x, [i.val + 1, j.val + 1])

/-- The last block, vpsc_input.cpp:171-198; `r` holds what the other blocks set. -/
def deckControl (F : NumConv) (r : EvpRun) (s : Reader) : Option EvpDeckEnd :=
  let s := runIns F (linesIns EvpDeck.control) s
  (collectFn fun i : Fin 3 => s.int ("npts", [i.val + 1])).bind fun npts =>
  (collectFn fun i : Fin 3 => s.real ("delt", [i.val + 1])).bind fun delt =>
  (s.int ("nsteps", [])).bind fun nsteps =>
  (s.real ("error", [])).bind fun error =>
  (s.int ("itmax", [])).bind fun itmax =>
  (s.int ("irecover", [])).bind fun irecover =>
  (s.int ("isave", [])).bind fun isave =>
  (s.int ("iupdate", [])).bind fun iupdate =>
  (s.int ("iuphard", [])).bind fun iuphard =>
  (s.int ("iwtex", [])).bind fun iwtex =>
  (s.int ("iwfields", [])).bind fun iwfields =>
  (s.int ("iwstep", [])).bind fun iwstep =>
  (s.int ("ithermo", [])).bind fun ithermo =>
  some (.run { r with
    npts := npts, delt := delt, texture := s.word ("filetext", []), nsteps := nsteps, error := error, itmax := itmax,
    irecover := irecover, isave := isave, iupdate := iupdate, iuphard := iuphard, iwtex := iwtex,
    iwfields := iwfields, iwstep := iwstep, ithermo := ithermo,
    thermoFile := if ithermo = 1 then
      some ((runIns F (linesIns EvpDeck.thermo) s).word ("filethermo", [])) else none })

/-- The lower triangle of the stress is copied from the upper one, vpsc_input.cpp:157-159. -/
def upperVar (x : Var) : Var :=
  match x.2 with
  | [i, j] => if j < i then (x.1, [j, i]) else x
  | _ => x

/-- Stresses and control mode, vpsc_input.cpp:151-170. -/
noncomputable def deckStress (q : BasisConst ℝ) (F : NumConv) (r : EvpRun) (s : Reader) : Option EvpDeckEnd :=
  let s := runIns F (linesIns EvpDeck.stress) s
  (Reader.mat (fun x => s.real (upperVar x)) "scauchy").bind fun scauchy =>
  (s.real ("dummy", [])).bind fun dummy =>
  (s.int ("ictrl", [])).bind fun ictrl =>
  if 0 < ictrl then some .ictrl
  else deckControl F { r with scauchy := scauchy, tdot := timeStep q r.udot dummy ictrl } s

/-- Rates and stress flags, vpsc_input.cpp:127-149. -/
noncomputable def deckRates (q : BasisConst ℝ) (F : NumConv) (r : EvpRun) (s : Reader) : Option EvpDeckEnd :=
  let s := runIns F (linesIns EvpDeck.rates) s
  (Reader.mat s.real "udot").bind fun udot =>
  (collectFn fun i : Fin 6 => s.int ("iscau", [i.val + 1])).bind fun iscau =>
  if checkMixedBc r.iudot iscau = false then some .mixedFlags
  else deckStress q F { r with udot := udot, iscau := iscau } s

/-- Rate flags, vpsc_input.cpp:114-125. -/
noncomputable def deckFlags (q : BasisConst ℝ) (F : NumConv) (r : EvpRun) (s : Reader) : Option EvpDeckEnd :=
  let s := runIns F (linesIns EvpDeck.flags) s
  (Reader.mat s.int "iudot").bind fun iudot =>
  if checkIudot iudot = false then some .rateFlags
  else deckRates q F { r with iudot := iudot } s

/-- Nothing set yet. -/
def EvpRun.blank : EvpRun :=
  ⟨fun _ => 0, fun _ => 0, [], [], fun _ _ => 0, fun _ _ => 0, fun _ => 0, fun _ _ => 0, none, 0, 0, 0, 0, 0, 0, 0, 0, 0,
    0, 0, none⟩

/-- `vpsc_input`, vpsc_input.cpp:34-228; `none` when a variable is used that was not set, or when there are more phases
than the arrays have room for. -/
noncomputable def readEvpDeck (q : BasisConst ℝ) (F : NumConv) (file : List Char) : Option EvpDeckEnd :=
  let s := runIns F (linesIns EvpDeck.head) ⟨fun _ => none, ⟨file, true⟩⟩
  (s.int ("NPHMX", [])).bind fun nphmx =>
  (s.int ("nph", [])).bind fun nph =>
  if nphmx < nph then none
  else (readPhases F nph.toNat 1 s).bind fun ps => deckFlags q F { EvpRun.blank with phases := ps.1 } ps.2

/-- The six numbers read for a grain, vpsc_input.cpp:203-205.  The lines cleared in this loop are those of the input
file, not of the file of eigenstrains. -/
def thermoGrain (ig : ℕ) : List Ins :=
  [(1, 1), (2, 2), (3, 3), (2, 3), (3, 1), (1, 2)].map fun p => .get .real ("eth", [p.1, p.2, ig])

/-- The file of eigenstrains, vpsc_input.cpp:198-213, for `n` grains (200000 in the source). -/
def readThermo (F : NumConv) (n : ℕ) (file : List Char) : Reader :=
  runIns F ((List.range n).flatMap fun ig => thermoGrain (ig + 1)) ⟨fun _ => none, ⟨file, true⟩⟩

/-- `eth(i,j,ig)` after vpsc_input.cpp:207-209. -/
def ethEntry (s : Reader) (ig : ℕ) (i j : Fin 3) : Option ℝ :=
  s.real ("eth", match i, j with
    | 2, 1 => [2, 3, ig]
    | 0, 2 => [3, 1, ig]
    | 1, 0 => [1, 2, ig]
    | i, j => [i.val + 1, j.val + 1, ig])

/-- The eigenstrain a point starts with, evpfft.cpp:218-245; `none` past the array or when it was not set. -/
def eptEntry (F : NumConv) (n : ℕ) (ithermo : ℤ) (file : List Char) (jgr : ℤ) (i j : Fin 3) : Option ℝ :=
  if ithermo = 1 ∧ 0 < jgr then
    (if jgr ≤ n then ethEntry (readThermo F n file) jgr.toNat i j else none)
  else some 0

/-- Whether fields are written after step `imicro`, evpfft.cpp:426; `none` is a division by zero. -/
def fieldsWritten (iwfields iwstep imicro : ℤ) : Option Bool :=
  if iwfields = 1 then (if iwstep = 0 then none else some (imicro % iwstep == 0)) else some false

end Fierro
