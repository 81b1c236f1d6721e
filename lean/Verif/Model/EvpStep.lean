import Verif.Model.EvpGreen
import Verif.Model.EvpStress

/-!
# EVPFFT: boundary conditions on averages, the load step, equivalent stress and strain

Models `vpsc_input.cpp:112-152,230-316`, `get_smacro.cpp`, `step.cpp`, `initialize_disgrad.cpp`, `vm.cpp`,
`kinhard_param.cpp`, the loop of `evpfft.cpp:318-437` and the phase weight of `data_grain.cpp:44-147`
(apps/micromechanics/EVPFFT/src).  Indices are shifted to start at 0.  Arithmetic is exact.
-/

namespace Fierro

/-! ### Input checks -/

/-- `check_iudot`, vpsc_input.cpp:230-246: `true` when the run goes on. -/
def checkIudot (iudot : Fin 3 → Fin 3 → ℤ) : Bool :=
  decide (¬ iudot 0 0 + iudot 1 1 + iudot 2 2 = 2) &&
    (List.finRange 3).all fun i => (List.finRange 3).all fun j =>
      !(decide (i ≠ j) && decide (iudot i j + iudot j i = 0))

/-- `idsim`, vpsc_input.cpp:291-300. -/
def idsimOf (iudot : Fin 3 → Fin 3 → ℤ) (i : Fin 6) : ℤ :=
  match i with
  | 0 => iudot 0 0
  | 1 => iudot 1 1
  | 2 => iudot 2 2
  | 3 => if iudot 1 2 = 1 ∧ iudot 2 1 = 1 then 1 else 0
  | 4 => if iudot 0 2 = 1 ∧ iudot 2 0 = 1 then 1 else 0
  | 5 => if iudot 0 1 = 1 ∧ iudot 1 0 = 1 then 1 else 0

/-- `check_mixed_bc`, vpsc_input.cpp:302-315: `true` when the run goes on. -/
def checkMixedBc (iudot : Fin 3 → Fin 3 → ℤ) (iscau : Fin 6 → ℤ) : Bool :=
  (List.finRange 6).all fun i =>
    !(decide (iscau i * idsimOf iudot i ≠ 0) || decide (iscau i + idsimOf iudot i ≠ 1))

/-! ### Correction of the average -/

/-- Assignment to one entry. -/
def setEntry (d : T2 ℝ) (a b : Fin 3) (v : ℝ) : T2 ℝ := fun i j => if i = a ∧ j = b then v else d i j

/-- The value assigned to entry `ijv i`, get_smacro.cpp:67-77. -/
def mixedValue (s0 : T4 ℝ) (idsim iscau : Fin 6 → ℤ) (scauchy scauav : T2 ℝ) (i : Fin 6) : ℝ :=
  if idsim i = 0 then
    ∑ k, s0 (ijv i).1 (ijv i).2 (ijv k).1 (ijv k).2 * (iscau k : ℝ) *
      (scauchy (ijv k).1 (ijv k).2 - scauav (ijv k).1 (ijv k).2)
  else 0

/-- `ddisgradmacro` after get_smacro.cpp:62-79; entries outside the table keep their value. -/
def mixedCorrection (s0 : T4 ℝ) (idsim iscau : Fin 6 → ℤ) (scauchy scauav old : T2 ℝ) : T2 ℝ :=
  (List.finRange 6).foldl
    (fun d i => setEntry d (ijv i).1 (ijv i).2 (mixedValue s0 idsim iscau scauchy scauav i)) old

/-! ### The load step -/

/-- What stays fixed during a run. -/
structure StepData where
  c0 : T4 ℝ
  s0 : T4 ℝ
  idsim : Fin 6 → ℤ
  iscau : Fin 6 → ℤ
  scauchy : T2 ℝ

/-- State of the load step.  The names are those of evpfft.h: `ddis` is `ddisgradmacro`, `dacum`
`ddisgradmacroacum`, `dmac` `disgradmacro`, `dmact` `disgradmacrot` (equal to `disgradmacroactual` between
steps), `vmac` `velgradmacro`. -/
structure StepState (g : EvpGrid) where
  disgrad : g.Ix → T2 ℝ
  velgrad : g.Ix → T2 ℝ
  sg : g.Ix → T2 ℝ
  scauav : T2 ℝ
  ddis : T2 ℝ
  dacum : T2 ℝ
  dmac : T2 ℝ
  dmact : T2 ℝ
  vmac : T2 ℝ

namespace StepState

variable {g : EvpGrid}

/-- Average with the weight `wgt`, allocate_memory.cpp:17, get_smacro.cpp:15-47.  The sums over threads and
ranks are taken as one sum. -/
noncomputable def average (g : EvpGrid) (f : g.Ix → T2 ℝ) : T2 ℝ := fun i j =>
  ∑ x, f x i j * (1 / (g.size : ℝ))

/-- Before the iterations, step.cpp:7-37. -/
noncomputable def begin (st : StepState g) (udot : T2 ℝ) (tdot : ℝ) : StepState g :=
  { st with
    velgrad := st.disgrad
    disgrad := fun x i j => st.disgrad x i j + udot i j * tdot
    ddis := fun _ _ => 0
    dacum := fun _ _ => 0 }

/-- One iteration, evpfft.cpp:356-391.  The stress left by `evpal` is given: any stress update is covered. -/
noncomputable def iterate (d : StepData) (st : StepState g) (sgNew : g.Ix → T2 ℝ) : StepState g :=
  let disgrad := g.initializeDisgrad st.ddis (g.correction d.c0 d.s0 st.sg) st.disgrad
  let scauav := average g sgNew
  let ddis := mixedCorrection d.s0 d.idsim d.iscau d.scauchy scauav st.ddis
  { st with
    disgrad := disgrad
    sg := sgNew
    scauav := scauav
    ddis := ddis
    dacum := fun i j => st.dacum i j + ddis i j }

/-- After the iterations, step.cpp:40-88. -/
noncomputable def finish (st : StepState g) (udot : T2 ℝ) (tdot : ℝ) : StepState g :=
  let dactual : T2 ℝ := fun i j => st.dmac i j + st.dacum i j
  { st with
    velgrad := fun x i j => (st.disgrad x i j - st.velgrad x i j) / tdot
    vmac := fun i j => (dactual i j - st.dmact i j) / tdot
    dmact := dactual
    dmac := fun i j => dactual i j + udot i j * tdot }

/-- One load step: rate, time increment and the stress fields left by the iterations. -/
structure Load (g : EvpGrid) where
  udot : T2 ℝ
  tdot : ℝ
  stresses : List (g.Ix → T2 ℝ)

/-- evpfft.cpp:318-437, the part acting on these variables. -/
noncomputable def step (d : StepData) (st : StepState g) (l : Load g) : StepState g :=
  (l.stresses.foldl (iterate d) (st.begin l.udot l.tdot)).finish l.udot l.tdot

/-- `solve`, evpfft.cpp:439-444. -/
noncomputable def run (d : StepData) (st : StepState g) (ls : List (Load g)) : StepState g :=
  ls.foldl (step d) st

/-- Start of a run, evpfft.cpp:204-216 and 89-144. -/
noncomputable def start (g : EvpGrid) (udot : T2 ℝ) (tdot : ℝ) (sg : g.Ix → T2 ℝ) : StepState g where
  disgrad := fun _ _ _ => 0
  velgrad := fun _ _ _ => 0
  sg := sg
  scauav := fun _ _ => 0
  ddis := fun _ _ => 0
  dacum := fun _ _ => 0
  dmac := fun i j => udot i j * tdot
  dmact := fun _ _ => 0
  vmac := fun _ _ => 0

end StepState

/-- Number of iterations, evpfft.cpp:338-342.  `errs n`, `erre n` are the errors after iteration `n`; before
the first they are `2 * error`. -/
noncomputable def iterCount (error : ℝ) (errs erre : ℕ → ℝ) : ℕ → ℕ → ℝ → ℝ → ℕ
  | 0, iter, _, _ => iter
  | left + 1, iter, es, ee =>
    open Classical in
    if es > error ∨ ee > error then
      iterCount error errs erre left (iter + 1) (errs (iter + 1)) (erre (iter + 1))
    else iter

/-- The `while` loop with its initial values. -/
noncomputable def iterations (itmax : ℕ) (error : ℝ) (errs erre : ℕ → ℝ) : ℕ :=
  iterCount error errs erre itmax 0 (2 * error) (2 * error)

/-! ### Equivalent stress and strain -/

/-- Deviator used by `vm`, vm.cpp:16-23; the factor is a product of integer quotients. -/
noncomputable def vmDev (t : T2 ℝ) : T2 ℝ := fun i j =>
  (t i j + t j i) / 2 -
    ((((i : ℕ) + 1) / ((j : ℕ) + 1) : ℕ) : ℝ) * ((((j : ℕ) + 1) / ((i : ℕ) + 1) : ℕ) : ℝ) *
      (t 0 0 + t 1 1 + t 2 2) / 3

/-- `vm`, vm.cpp:4-34. -/
noncomputable def vmStrain (t : T2 ℝ) : ℝ := Real.sqrt (2 / 3 * ∑ j, ∑ i, vmDev t i j ^ 2)

/-- `vm_stress`, vm.cpp:37-45; `stress[0..8]` holds the tensor by columns. -/
noncomputable def vmStress (s : T2 ℝ) : ℝ :=
  Real.sqrt (((s 0 0 - s 1 1) * (s 0 0 - s 1 1) + (s 1 1 - s 2 2) * (s 1 1 - s 2 2) +
    (s 2 2 - s 0 0) * (s 2 2 - s 0 0) + 6 * (s 1 0 ^ 2 + s 2 1 ^ 2 + s 2 0 ^ 2)) / 2)

/-- `svm`, get_smacro.cpp:88-103: six components, the first five of them, back to a tensor. -/
noncomputable def svmOf (q : BasisConst ℝ) (s : T2 ℝ) : ℝ :=
  let sav6 : Fin 6 → ℝ := chgBasis2 q le_rfl s
  let sdev : T2 ℝ := chgBasis1 q (by omega : 5 ≤ 6) (fun k : Fin 5 => sav6 k.castSucc)
  Real.sqrt (3 / 2 * ∑ j, ∑ i, sdev i j * sdev i j)

/-- `dvm`, vpsc_input.cpp:266-287. -/
noncomputable def dvmOf (q : BasisConst ℝ) (s : T2 ℝ) : ℝ :=
  let sav6 : Fin 6 → ℝ := chgBasis2 q le_rfl s
  let sdev : T2 ℝ := chgBasis1 q (by omega : 5 ≤ 6) (fun k : Fin 5 => sav6 k.castSucc)
  Real.sqrt (2 / 3 * ∑ i, ∑ j, sdev i j ^ 2)

/-! ### Back stress, phase average, spacing -/

/-- `kinhard_param` for one system, kinhard_param.cpp:35-52. -/
noncomputable def kinhard (q : BasisConst ℝ) (sg : T2 ℝ) (s : SlipState) : SlipState :=
  let sg5 : Fin 5 → ℝ := chgBasis2 q (by omega : 5 ≤ 6) sg
  { s with xkin := s.sch 0 * sg5 0 + s.sch 1 * sg5 1 + s.sch 2 * sg5 2 + s.sch 3 * sg5 3 + s.sch 4 * sg5 4 }

/-- What one rank adds to an entry of `scauav1`, get_smacro.cpp:28-30 with `wph1` of data_grain.cpp:147 from
the rank's own count.  `total` is the number of points of the whole grid; a point is its phase and stress. -/
noncomputable def rankPhase1 (total : ℕ) (pts : List (ℕ × ℝ)) : ℝ :=
  let nph1 := (pts.filter fun p => p.1 = 1).length
  let wph1 : ℝ := (nph1 : ℝ) / total
  (pts.map fun p => if p.1 = 1 then p.2 * (1 / (total : ℝ)) / wph1 else 0).sum

/-- An entry of `scauav1` after `MPI_Allreduce`. -/
noncomputable def phase1Average (ranks : List (List (ℕ × ℝ))) : ℝ :=
  (ranks.map (rankPhase1 (ranks.map List.length).sum)).sum

/-- New spacing in one direction, step.cpp:153-166; `guarded` is the test `npts3 > 1` of the third
direction.  `none` stands for the quotient `0/0`. -/
noncomputable def newSpacing (guarded : Bool) (npts : ℕ) (delt dsim tdot : ℝ) : Option ℝ :=
  if guarded ∧ ¬ npts > 1 then some delt
  else if (npts : ℝ) - 1 = 0 then none
  else
    let velmax := dsim * delt * ((npts : ℝ) - 1)
    some ((delt * ((npts : ℝ) - 1) + velmax * tdot) / ((npts : ℝ) - 1))

end Fierro
