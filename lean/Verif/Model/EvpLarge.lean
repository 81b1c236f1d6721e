import Mathlib.LinearAlgebra.Matrix.Determinant.Basic
import Mathlib.LinearAlgebra.Matrix.Notation
import Mathlib.Analysis.SpecialFunctions.Pow.Real
import Verif.Model.EvpStress
import Verif.Model.EvpStep

/-!
# LS-EVPFFT: large strain kinematics

Models `matrix_exp.cpp`, `determinant33.cpp`, `defgrad_dcmp.cpp`, `update_defgradp.cpp`,
`update_defgrad.cpp`, `update_defgrade.cpp`, `Cauchy_to_PK1.cpp`, `initialize_velgrad.cpp`, `step.cpp`
and the order of calls in `evolve` of `evpfft.cpp`, all in `apps/micromechanics/LS-EVPFFT/src`.
`math_functions.h` of that directory is the one of `EVPFFT` (see `EvpLinalg.lean`).  Arithmetic is
exact.  The loops over the grid points are functions of the point; the reductions over ranks are sums
over all points.  Grid points form an arbitrary finite type.
-/

namespace Fierro.Large

/-- A 3×3 array; rows and columns count from 0. -/
abbrev M3 := Matrix (Fin 3) (Fin 3) ℝ

/-- `matrix_exp`, matrix_exp.cpp:4-40. -/
noncomputable def matrixExp (A : M3) : M3 := Matrix.of fun i j =>
  A i j + (A * A) i j / 2 + (A * A * A) i j / 6 + if i = j then 1 else 0

/-- `determinant33`, determinant33.cpp:4-18. -/
def det33 (A : M3) : ℝ :=
  A 0 0 * A 1 1 * A 2 2 + A 0 1 * A 1 2 * A 2 0 + A 0 2 * A 1 0 * A 2 1
    - A 2 0 * A 1 1 * A 0 2 - A 2 1 * A 1 2 * A 0 0 - A 2 2 * A 1 0 * A 0 1

/-- `invert_matrix <3>` on a `ViewMatrixTypeReal`; the returned flag is ignored by all callers. -/
noncomputable def inv3 (A : M3) : M3 := Matrix.of (invertView A)

/-- Whether that call ran to its end; not visible to the code. -/
noncomputable def inv3Ok (A : M3) : Bool := (invertMatrix (fun i j => A j i)).finished

/-! ### Polar decomposition -/

/-- `frobenius_norm`, defgrad_dcmp.cpp:132-141. -/
noncomputable def frob (A : M3) : ℝ := Real.sqrt (∑ i, ∑ j, A i j * A i j)

/-- `c`, defgrad_dcmp.cpp:60-67; `err` is `conv_err` of the previous turn. -/
noncomputable def polarScale (err : ℝ) (A : M3) : ℝ :=
  if err < 10 / 10 ^ 2 then 1 else Real.sqrt (frob (inv3 A) / frob A)

/-- `A_next`, defgrad_dcmp.cpp:45-75. -/
noncomputable def polarNext (err : ℝ) (A : M3) : M3 := Matrix.of fun i j =>
  1 / 2 * (polarScale err A * A i j + 1 / polarScale err A * inv3 A j i)

/-- `conv_err`, defgrad_dcmp.cpp:78-84. -/
noncomputable def polarErr (next cur : M3) : ℝ :=
  ∑ i, ∑ j, (next i j - cur i j) * (next i j - cur i j)

/-- What the iteration leaves behind: the last `A_curr`, the error it started from and `A_next`. -/
structure PolarEnd where
  cur : M3
  err : ℝ
  next : M3

/-- The loop of `defgrad_dcmp`, defgrad_dcmp.cpp:41-95, with `fuel` turns left.  `none` is the
`exit(1)` at defgrad_dcmp.cpp:98-101. -/
noncomputable def polarLoop : ℕ → M3 → ℝ → Option PolarEnd
  | 0, _, _ => none
  | fuel + 1, A, err =>
    if polarErr (polarNext err A) A < 1 / 10 ^ 12 then some ⟨A, err, polarNext err A⟩
    else polarLoop fuel (polarNext err A) (polarErr (polarNext err A) A)

/-- Whether all inversions of the loop ran to their end; not visible to the code. -/
noncomputable def polarOk : ℕ → M3 → ℝ → Bool
  | 0, _, _ => true
  | fuel + 1, A, err =>
    inv3Ok A &&
      if polarErr (polarNext err A) A < 1 / 10 ^ 12 then inv3Ok (polarNext err A)
      else polarOk fuel (polarNext err A) (polarErr (polarNext err A) A)

/-- `V` and `R` of `defgrad_dcmp`, defgrad_dcmp.cpp:9-128; `none` when the program stops. -/
noncomputable def defgradDcmp (F : M3) : Option (M3 × M3) :=
  (polarLoop 50 F 1).map fun e => (F * inv3 e.next, e.next)

/-- Whether every `invert_matrix` of the call ran to its end. -/
noncomputable def dcmpOk (F : M3) : Bool := polarOk 50 F 1

/-! ### State -/

/-- The fields of one grid point used here. -/
structure Point where
  F : M3
  Finv : M3
  Fini : M3
  Fe : M3
  Fp : M3
  L : M3
  sg : M3
  sgt : M3
  sgPK1 : M3
  disgrad : M3
  detF : ℝ
  wgtc : ℝ
  gas : Bool

/-- The state of a run.  The names of the code are `defgradinvavgc_inv`, `defgradavg`, `velgradmacro`,
`dvelgradmacro`, `dvelgradmacroacum`, `velgradmacroactual`, `disgradmacrot`. -/
structure State (ι : Type) where
  pt : ι → Point
  favgcInv : M3
  favg : M3
  vmac : M3
  dv : M3
  dvAcum : M3
  vact : M3
  dmact : M3

variable {ι : Type} [Fintype ι]

/-- `wgt`, allocate_memory.cpp:17. -/
noncomputable def wgt (ι : Type) [Fintype ι] : ℝ := 1 / (Fintype.card ι : ℝ)

/-- The diagonal matrix of the spacings. -/
def deltM (delt : Fin 3 → ℝ) : M3 := Matrix.diagonal delt

/-- `init_defgrad`, evpfft.cpp:399-460, for one point; stresses and rates start at zero. -/
noncomputable def Point.start (ι : Type) [Fintype ι] (delt : Fin 3 → ℝ) (gas : Bool) : Point where
  F := deltM delt
  Finv := Matrix.diagonal fun i => 1 / delt i
  Fini := deltM delt
  Fe := 1
  Fp := 1
  L := 0
  sg := 0
  sgt := 0
  sgPK1 := 0
  disgrad := 0
  detF := delt 0 * delt 1 * delt 2
  wgtc := wgt ι
  gas := gas

/-- State before the first step. -/
noncomputable def State.start (delt : Fin 3 → ℝ) (gas : ι → Bool) : State ι where
  pt := fun x => Point.start ι delt (gas x)
  favgcInv := deltM delt
  favg := deltM delt
  vmac := 0
  dv := 0
  dvAcum := 0
  vact := 0
  dmact := 0

/-! ### Parts of a step -/

/-- `step_update_velgrad`, step.cpp:7-23. -/
def stepUpdateVelgrad (s : State ι) : State ι :=
  { s with pt := fun x => { s.pt x with L := s.vmac } }

/-- `step_set_dvelgradmacro_and_dvelgradmacroacum_to_zero`, step.cpp:25-33. -/
def zeroCorrections (s : State ι) : State ι := { s with dv := 0, dvAcum := 0 }

/-- `sgavg`, Cauchy_to_PK1.cpp:18-48. -/
def sgAvg (s : State ι) : M3 := Matrix.of fun i j => ∑ x, (s.pt x).sg i j * (s.pt x).wgtc

/-- `sgPK1` at a point, Cauchy_to_PK1.cpp:55-62. -/
def pk1 (avg : M3) (p : Point) : M3 := Matrix.of fun i j =>
  ∑ k, (p.sg i k - avg i k) * p.Finv j k * p.detF

/-- `Cauchy_to_PK1`, Cauchy_to_PK1.cpp:9-66. -/
def cauchyToPK1 (s : State ι) : State ι :=
  { s with pt := fun x => { s.pt x with sgPK1 := pk1 (sgAvg s) (s.pt x) } }

/-- `dvelgradavg`, initialize_velgrad.cpp:16-54. -/
def dvelgradAvg (s : State ι) (work : ι → M3) : M3 := Matrix.of fun i j =>
  ∑ x, (∑ k, work x i k * (s.pt x).Finv k j) * (s.pt x).wgtc

/-- `dudot_dX_avg`, initialize_velgrad.cpp:56-65. -/
def dudotAvg (s : State ι) (work : ι → M3) : M3 := (s.dv - dvelgradAvg s work) * s.favgcInv

/-- `initialize_velgrad`, initialize_velgrad.cpp:6-87; `work` is the field left by `backward_fft`. -/
def initializeVelgrad (s : State ι) (work : ι → M3) : State ι :=
  { s with pt := fun x =>
      { s.pt x with L := (s.pt x).L + (work x + dudotAvg s work) * (s.pt x).Finv } }

/-- What the parts not modelled here deliver in one turn of the iteration: the strain correction of
the Green operator as a function of the first Piola-Kirchhoff stress, the stress of `evpal` at each
point and the new correction of the average, which `get_smacro` computes from the averages. -/
structure Turn (ι : Type) where
  work : (ι → M3) → ι → M3
  stress : State ι → ι → M3
  corr : M3 → M3

/-- `evpal` and `get_smacro` seen from outside, evpal.cpp:353-372 and get_smacro.cpp:62-85. -/
def stressAndMacro (t : Turn ι) (s : State ι) : State ι :=
  let s1 : State ι := { s with pt := fun x => { s.pt x with sg := t.stress s x } }
  { s1 with dv := t.corr (sgAvg s1), dvAcum := s1.dvAcum + t.corr (sgAvg s1) }

/-- One turn of the `while` loop, evpfft.cpp:497-563. -/
def turn (s : State ι) (t : Turn ι) : State ι :=
  let s1 := cauchyToPK1 s
  stressAndMacro t (initializeVelgrad s1 (t.work fun x => (s1.pt x).sgPK1))

/-- `step_update`, step.cpp:36-68. -/
def stepUpdate (tdot : ℝ) (s : State ι) : State ι :=
  { s with
    pt := fun x => { s.pt x with sgt := (s.pt x).sg }
    vact := s.vmac + s.dvAcum
    dmact := s.dmact + tdot • (s.vmac + s.dvAcum) }

/-- `update_defgradp` at a point with plastic velocity gradient `Lp`, update_defgradp.cpp:37-117. -/
noncomputable def Point.plastic (tdot : ℝ) (Lp : M3) (p : Point) : Point :=
  if p.gas then p else { p with Fp := matrixExp (tdot • Lp) * p.Fp }

/-- The first loop of `update_defgrad` at a point, update_defgrad.cpp:53-134. -/
noncomputable def Point.advance (w tdot : ℝ) (p : Point) : Point :=
  let e := matrixExp (tdot • p.L)
  { p with
    F := e * p.F
    detF := det33 (e * p.F)
    Finv := inv3 (e * p.F)
    wgtc := w * det33 (e * p.F)
    disgrad := 1 - p.Fini * inv3 (e * p.F)
    L := p.L * inv3 e }

/-- `detFavg`, update_defgrad.cpp:140-141 and 175-176. -/
noncomputable def detFavg (q : ι → Point) : ℝ := ∑ x, (q x).detF * wgt ι

/-- `defgradinvavgc` before its inversion, update_defgrad.cpp:143-148 and 178-183. -/
noncomputable def finvAvg (q : ι → Point) : M3 := Matrix.of fun i j =>
  (∑ x, (q x).Finv i j * wgt ι * (q x).detF) / detFavg q

/-- `velgradavg`, update_defgrad.cpp:150-155 and 185-190. -/
noncomputable def velgradAvg (q : ι → Point) : M3 := Matrix.of fun i j =>
  (∑ x, (q x).L i j * wgt ι * (q x).detF) / detFavg q

/-- `defgradavg`, update_defgrad.cpp:157-162 and 192-197. -/
noncomputable def defgradAvg (q : ι → Point) : M3 := Matrix.of fun i j => ∑ x, (q x).F i j * wgt ι

/-- `dudot_dXini_avg`, update_defgrad.cpp:207-216. -/
noncomputable def dudotIniAvg (vact : M3) (q : ι → Point) : M3 :=
  (vact - velgradAvg q) * inv3 (finvAvg q)

/-- The second loop at a point, update_defgrad.cpp:219-234. -/
noncomputable def Point.normalise (davg : ℝ) (d : M3) (p : Point) : Point :=
  { p with wgtc := p.wgtc / davg, L := p.L + d * p.Finv }

/-- `update_defgrad`, update_defgrad.cpp:11-236. -/
noncomputable def updateDefgrad (tdot : ℝ) (s : State ι) : State ι :=
  let q : ι → Point := fun x => (s.pt x).advance (wgt ι) tdot
  { s with
    pt := fun x => (q x).normalise (detFavg q) (dudotIniAvg s.vact q)
    favgcInv := inv3 (finvAvg q)
    favg := defgradAvg q }

/-- The new elastic deformation gradient, update_defgrade.cpp:50-69. -/
noncomputable def newFe (p : Point) : M3 := p.F * inv3 (p.Fp * p.Fini)

/-- `Rinc (sg) Rincᵀ`, update_defgrade.cpp:85-95. -/
def rotated (R S : M3) : M3 := Matrix.of fun i j => ∑ k, ∑ l, R i k * R j l * S k l

/-- `update_defgrade` at a point, update_defgrade.cpp:36-97; `none` when the decomposition stops the
program. -/
noncomputable def Point.elastic (p : Point) : Option Point :=
  if p.gas then some p
  else (defgradDcmp (newFe p * inv3 p.Fe)).map fun VR =>
    { p with Fe := newFe p, sgt := rotated VR.2 p.sg }

/-- `update_defgrade` over the grid: the program goes on when it goes on at every point. -/
noncomputable def updateDefgradE (s : State ι) : Option (State ι) :=
  open Classical in
  if h : ∀ x, (s.pt x).elastic.isSome then
    some { s with pt := fun x => ((s.pt x).elastic).get (h x) }
  else none

/-- `update_defgradp` over the grid. -/
noncomputable def updateDefgradP (tdot : ℝ) (Lp : State ι → ι → M3) (s : State ι) : State ι :=
  { s with pt := fun x => (s.pt x).plastic tdot (Lp s x) }

/-! ### The load step -/

/-- `evolve` up to and including `step_update`, evpfft.cpp:474-570: `first` is `imicro == 1`, `udot` the
prescribed velocity gradient, `turns` the turns of the iteration. -/
def iterated (tdot : ℝ) (first : Bool) (udot : M3) (turns : List (Turn ι)) (s : State ι) : State ι :=
  let s1 : State ι := { s with vmac := udot }
  let s2 := if first then stepUpdateVelgrad s1 else s1
  stepUpdate tdot (turns.foldl turn (zeroCorrections s2))

/-- One call of `evolve`, evpfft.cpp:462-604, without hardening, grid motion, stiffness and output:
`upd` is `iupdate == 1` and `Lp` the plastic velocity gradient computed from the state. -/
noncomputable def evolve (tdot : ℝ) (first upd : Bool) (udot : M3) (turns : List (Turn ι))
    (Lp : State ι → ι → M3) (s : State ι) : Option (State ι) :=
  let s4 := iterated tdot first udot turns s
  if upd then updateDefgradE (updateDefgrad tdot (updateDefgradP tdot Lp s4)) else some s4

end Fierro.Large
