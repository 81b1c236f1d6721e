import Verif.Model.EvpStep

/-!
# EVPFFT: a run on several ranks

Models the distribution of the grid over MPI ranks (`heffte_fft.h:48-75, 120-142`,
`allocate_memory.cpp:3-33, 80-112`), the work each rank does on its own arrays (`evpfft.cpp:146-316`,
`forward_backward_fft.cpp`, `inverse_the_greens.cpp`, `initialize_disgrad.cpp`, `step.cpp`), the sums over all
ranks (`evpal.cpp:296-340`, `get_smacro.cpp:15-47`, `step.cpp:103-131`) and the loop of `evpfft.cpp:318-444`, in which
every rank decides for itself whether to go on (`apps/micromechanics/EVPFFT/src`; the distribution is the
same in the other variants).

The update of the stress and of the crystal state at a point is any function of the values at this point.
Not included: the average over the first phase and the spacing after a step (both depend on the ranks, see
C74), output, `ithermo`.  Indices count from 0.
-/

namespace Fierro

/-! ### Distribution of the grid -/

/-- First index of part `i` out of `p`, `heffte::split_world` called at heffte_fft.h:59-60. -/
def splitLow (n p i : ℕ) : ℕ := i * (n / p) + min i (n % p)

/-- `high - low + 1` of a part, heffte_fft.h:71-72; the last index is one below the first of the next part. -/
def splitSize (n p i : ℕ) : ℕ := splitLow n p (i + 1) - splitLow n p i

/-- Position of a rank in the process grid: the first direction runs fastest in `split_world`. -/
def rankCoord (p : Fin 3 → ℕ) (r : ℕ) : Fin 3 → ℕ := ![r % p 0, r / p 0 % p 1, r / (p 0 * p 1)]

/-- `globalComplexBoxSize`, heffte_fft.h:124. -/
def cplxBox (n : Fin 3 → ℕ) : Fin 3 → ℕ := ![n 0 / 2 + 1, n 1, n 2]

/-- `local_start1..3`, `npts1..3` and the same for the transform, allocate_memory.cpp:8-33. -/
structure FftRank where
  low : Fin 3 → ℕ
  npts : Fin 3 → ℕ
  lowC : Fin 3 → ℕ
  nptsC : Fin 3 → ℕ

/-- The boxes of a rank, heffte_fft.h:55-75. -/
def fftRank (n p : Fin 3 → ℕ) (r : ℕ) : FftRank where
  low a := splitLow (n a) (p a) (rankCoord p r a)
  npts a := splitSize (n a) (p a) (rankCoord p r a)
  lowC a := splitLow (cplxBox n a) (p a) (rankCoord p r a)
  nptsC a := splitSize (cplxBox n a) (p a) (rankCoord p r a)

/-- Number of ranks of a process grid. -/
def numRanks (p : Fin 3 → ℕ) : ℕ := p 0 * p 1 * p 2

/-- Indices of an array of a rank. -/
abbrev LocIx (m : Fin 3 → ℕ) := (a : Fin 3) → Fin (m a)

/-- Every index of the transform is an index of the arrays sized for the points: `work`, `xk_gb`, `yk_gb` and
`zk_gb` are accessed with the former and allocated with the latter (allocate_memory.cpp:80-82 and 108,
forward_backward_fft.cpp:32-39, inverse_the_greens.cpp:10-32). -/
def FftRank.InRange (b : FftRank) : Prop := ∀ k : LocIx b.nptsC, ∀ a, (k a : ℕ) < b.npts a

/-- The element accessed with an index of the transform. -/
def FftRank.cell (b : FftRank) (h : b.InRange) (k : LocIx b.nptsC) : LocIx b.npts := fun a => ⟨k a, h k a⟩

/-- The product of `int`s in `wgt`, allocate_memory.cpp:17; `none` stands for an overflow. -/
def weightProduct (n : Fin 3 → ℕ) : Option ℕ :=
  if n 0 * n 1 < 2 ^ 31 ∧ n 0 * n 1 * n 2 < 2 ^ 31 then some (n 0 * n 1 * n 2) else none

/-! ### What a rank holds -/

/-- The material at a point: any state `M` with any update.  Applied with the number of the step, stress,
displacement gradient and velocity gradient. -/
structure PointLaw (M : Type) where
  /-- `cg66` as a tensor and `igas(jphase)` -/
  cg : M → T4 ℝ
  gas : M → Bool
  /-- `update_schmid` -/
  pre : ℕ → M → M
  /-- `evpal`: stress, state, `dsgnorm2` and `ddgnorm` (both 0 at a gas point) -/
  stress : ℕ → T2 ℝ → T2 ℝ → T2 ℝ → M → T2 ℝ × M × ℝ × ℝ
  /-- `kinhard_param` -/
  kin : ℕ → T2 ℝ → M → M
  /-- the plastic strain grown by the rate, step.cpp:103-107 -/
  accumulate : ℝ → M → M
  /-- `step_texture_rve_update` and `harden` -/
  late : ℕ → T2 ℝ → M → M
  ept : M → T2 ℝ
  edotp : M → T2 ℝ

/-- Arrays and variables of a rank, evpfft.h and allocate_memory.cpp:34-112. -/
structure RankState (M : Type) (b : FftRank) where
  disgrad : LocIx b.npts → T2 ℝ
  velgrad : LocIx b.npts → T2 ℝ
  sg : LocIx b.npts → T2 ℝ
  rest : LocIx b.npts → M
  work : LocIx b.npts → T2 ℝ
  workim : LocIx b.nptsC → T2 ℝ
  /-- `xk_gb`, `yk_gb`, `zk_gb` -/
  xk : (a : Fin 3) → Fin (b.npts a) → ℝ
  wgt : ℝ
  scauav : T2 ℝ
  ddis : T2 ℝ
  dacum : T2 ℝ
  dmac : T2 ℝ
  dmact : T2 ℝ
  vmac : T2 ℝ
  epav : T2 ℝ
  edotpav : T2 ℝ
  errs : ℝ
  erre : ℝ
  evm : ℝ
  svm : ℝ
  dvm : ℝ

/-- The data of a run, the same on every rank (every rank reads the input file). -/
structure RunPar where
  d : StepData
  q : BasisConst ℝ
  udot : T2 ℝ
  tdot : ℝ
  dvm : ℝ
  error : ℝ
  itmax : ℕ
  nsteps : ℕ

/-- The calls of the transform library: the arrays of all ranks in, the arrays of all ranks out.
heffte_fft.h:135-145. -/
structure FftLib (n p : Fin 3 → ℕ) where
  fwd : ((r : Fin (numRanks p)) → LocIx (fftRank n p r).npts → ℝ) →
    (r : Fin (numRanks p)) → LocIx (fftRank n p r).nptsC → ℂ
  bwd : ((r : Fin (numRanks p)) → LocIx (fftRank n p r).nptsC → ℂ) →
    (r : Fin (numRanks p)) → LocIx (fftRank n p r).npts → ℝ

namespace RankState

variable {M : Type} {b : FftRank}

/-- Start of a run on a rank: evpfft.cpp:94-144 (zeros), 170-196 (frequencies), 204-216 (first increment), 251-311
(`init_sg`), 313-316 (`init_evm`), allocate_memory.cpp:17 (`wgt`).  `m0` is the material at the points of the
rank. -/
noncomputable def init (n : Fin 3 → ℕ) (delt : Fin 3 → ℝ) (law : PointLaw M) (P : RunPar) (m0 : LocIx b.npts → M) :
    RankState M b where
  disgrad := fun _ _ _ => 0
  velgrad := fun _ _ _ => 0
  sg := fun x i j =>
    if law.gas (m0 x) then 0 else ∑ k, ∑ l, law.cg (m0 x) i j k l * (P.udot k l * P.tdot)
  rest := m0
  work := fun _ _ _ => 0
  workim := fun _ _ _ => 0
  xk := fun a i =>
    let kx : ℤ := ((i : ℕ) + b.lowC a : ℕ)
    ((if kx > ((n a / 2 : ℕ) : ℤ) then kx - (n a : ℤ) else kx : ℤ) : ℝ) / (delt a * (n a : ℝ))
  wgt := 1 / ((n 0 * n 1 * n 2 : ℕ) : ℝ)
  scauav := fun _ _ => 0
  ddis := fun _ _ => 0
  dacum := fun _ _ => 0
  dmac := fun i j => P.udot i j * P.tdot
  dmact := fun _ _ => 0
  vmac := fun _ _ => 0
  epav := fun _ _ => 0
  edotpav := fun _ _ => 0
  errs := 0
  erre := 0
  evm := P.dvm * P.tdot
  svm := 0
  dvm := P.dvm

/-- evpfft.cpp:329-340 and step.cpp:7-37. -/
noncomputable def begin (law : PointLaw M) (P : RunPar) (m : ℕ) (st : RankState M b) : RankState M b :=
  { st with
    velgrad := st.disgrad
    disgrad := fun x i j => st.disgrad x i j + P.udot i j * P.tdot
    rest := fun x => law.pre m (st.rest x)
    ddis := fun _ _ => 0
    dacum := fun _ _ => 0
    errs := 2 * P.error
    erre := 2 * P.error }

/-- Condition of the `while` loop apart from `iter`, evpfft.cpp:342. -/
def goesOn (P : RunPar) (st : RankState M b) : Prop := st.errs > P.error ∨ st.erre > P.error

/-- `work` and `workim` from the transforms of the nine components, forward_backward_fft.cpp:32-39. -/
noncomputable def storeForward (h : b.InRange) (out : Fin 3 → Fin 3 → LocIx b.nptsC → ℂ) (st : RankState M b) :
    RankState M b :=
  open Classical in
  { st with
    work := fun x =>
      if hx : ∃ k, b.cell h k = x then fun i j => (out i j hx.choose).re else st.work x
    workim := fun k i j => (out i j k).im }

/-- Test for the highest frequency, inverse_the_greens.cpp:44-46. -/
def nyq (n : Fin 3 → ℕ) (b : FftRank) (k : LocIx b.nptsC) : Bool :=
  ((k 0).val + 1 + b.lowC 0 = n 0 / 2 + 1 && n 0 % 2 = 0) || ((k 1).val + 1 + b.lowC 1 = n 1 / 2 + 1 && n 1 % 2 = 0) ||
    (n 2 > 1 && ((k 2).val + 1 + b.lowC 2 = n 2 / 2 + 1 && n 2 % 2 = 0))

/-- Test for the zero frequency, inverse_the_greens.cpp:84-86. -/
def zero (b : FftRank) (k : LocIx b.nptsC) : Bool :=
  (k 0).val + 1 + b.lowC 0 = 1 && (k 1).val + 1 + b.lowC 1 = 1 && (k 2).val + 1 + b.lowC 2 = 1

/-- `inverse_the_greens`, inverse_the_greens.cpp:10-120. -/
noncomputable def greens (n : Fin 3 → ℕ) (h : b.InRange) (d : StepData) (st : RankState M b) : RankState M b :=
  let f := fun (k : LocIx b.nptsC) (w : T2 ℝ) =>
    greenCorrection d.c0 d.s0 (zero b k) (nyq n b k) (fun a => st.xk a (b.cell h k a)) w
  open Classical in
  { st with
    work := fun x => if hx : ∃ k, b.cell h k = x then f hx.choose (st.work x) else st.work x
    workim := fun k => f k (st.workim k) }

/-- `data_cmplx` of one component before the backward transform, forward_backward_fft.cpp:53-60. -/
noncomputable def cplxData (h : b.InRange) (st : RankState M b) (i j : Fin 3) (k : LocIx b.nptsC) : ℂ :=
  ⟨st.work (b.cell h k) i j, st.workim k i j⟩

/-- `work` after the backward transform, forward_backward_fft.cpp:72-78, and `initialize_disgrad`. -/
noncomputable def storeBackward (out : Fin 3 → Fin 3 → LocIx b.npts → ℝ) (st : RankState M b) : RankState M b :=
  { st with
    work := fun x i j => out i j x
    disgrad := fun x i j => st.disgrad x i j + (st.ddis i j + out i j x) }

/-- `evpal` on the points of the rank, without the sums. -/
noncomputable def evpal (law : PointLaw M) (m : ℕ) (st : RankState M b) : RankState M b :=
  let out := fun x => law.stress m (st.sg x) (st.disgrad x) (st.velgrad x) (st.rest x)
  { st with
    sg := fun x => (out x).1
    rest := fun x => (out x).2.1 }

/-- What a rank adds to `all_reduce.array[0]` and `[1]`, evpal.cpp:296-297; `st` is the state before `evpal`. -/
noncomputable def partErr (law : PointLaw M) (m : ℕ) (st : RankState M b) : ℝ × ℝ :=
  let out := fun x => law.stress m (st.sg x) (st.disgrad x) (st.velgrad x) (st.rest x)
  (∑ x, (out x).2.2.1 * st.wgt, ∑ x, (out x).2.2.2 * st.wgt)

/-- What a rank adds to `scauav`, get_smacro.cpp:15-44. -/
noncomputable def partStress (st : RankState M b) : T2 ℝ := fun i j => ∑ x, st.sg x i j * st.wgt

/-- After the sums over the ranks: evpal.cpp:338-340, get_smacro.cpp:62-103, evpfft.cpp:393-394. -/
noncomputable def reduced (P : RunPar) (es ee : ℝ) (av : T2 ℝ) (st : RankState M b) : RankState M b :=
  let ddis := mixedCorrection P.d.s0 P.d.idsim P.d.iscau P.d.scauchy av st.ddis
  let svm := svmOf P.q av
  open Classical in
  { st with
    scauav := av
    ddis := ddis
    dacum := fun i j => st.dacum i j + ddis i j
    svm := svm
    erre := if st.evm > 0 then ee / st.evm else ee
    errs := if svm > 0 then es / svm else es }

/-- After the iterations, without the sums: evpfft.cpp:406-414, step.cpp:40-86 and 103-107. -/
noncomputable def finish (law : PointLaw M) (P : RunPar) (m : ℕ) (st : RankState M b) : RankState M b :=
  let dactual : T2 ℝ := fun i j => st.dmac i j + st.dacum i j
  let vmac : T2 ℝ := fun i j => (dactual i j - st.dmact i j) / P.tdot
  { st with
    rest := fun x => law.accumulate P.tdot (law.kin m (st.sg x) (st.rest x))
    velgrad := fun x i j => (st.disgrad x i j - st.velgrad x i j) / P.tdot
    vmac := vmac
    evm := vmStrain dactual
    dvm := vmStrain vmac
    dmact := dactual
    dmac := fun i j => dactual i j + P.udot i j * P.tdot }

/-- What a rank adds to `epav` and `edotpav`, step.cpp:112-117. -/
noncomputable def partPlastic (law : PointLaw M) (st : RankState M b) : T2 ℝ × T2 ℝ :=
  (fun i j => ∑ x, law.ept (st.rest x) i j * st.wgt, fun i j => ∑ x, law.edotp (st.rest x) i j * st.wgt)

/-- `epav`, `edotpav` on every rank and the last updates of the points, step.cpp:122-131, evpfft.cpp:416-422. -/
noncomputable def close (law : PointLaw M) (m : ℕ) (ep edp : T2 ℝ) (st : RankState M b) : RankState M b :=
  { st with
    epav := ep
    edotpav := edp
    rest := fun x => law.late m (st.velgrad x) (st.rest x) }

end RankState

/-! ### All ranks together -/

/-- The states of all ranks. -/
abbrev AllRanks (M : Type) (n p : Fin 3 → ℕ) := (r : Fin (numRanks p)) → RankState M (fftRank n p r)

namespace AllRanks

variable {M : Type} {n p : Fin 3 → ℕ}

/-- Transforms, correction and new displacement gradients, evpfft.cpp:356-381. -/
noncomputable def corrected (lib : FftLib n p) (P : RunPar) (h : ∀ r : Fin (numRanks p), (fftRank n p r).InRange)
    (D : AllRanks M n p) : AllRanks M n p :=
  let hat := fun i j => lib.fwd fun r x => (D r).sg x i j
  let D1 : AllRanks M n p := fun r => ((D r).storeForward (h r) fun i j => hat i j r).greens n (h r) P.d
  let back := fun i j => lib.bwd fun r => (D1 r).cplxData (h r) i j
  fun r => (D1 r).storeBackward fun i j => back i j r

/-- Stress update and sums, evpfft.cpp:383-394.  `MPI_Allreduce` leaves the sum of the contributions on every rank. -/
noncomputable def updated (law : PointLaw M) (P : RunPar) (m : ℕ) (D : AllRanks M n p) : AllRanks M n p :=
  let es := ∑ r, ((D r).partErr law m).1
  let ee := ∑ r, ((D r).partErr law m).2
  let D1 : AllRanks M n p := fun r => (D r).evpal law m
  let av : T2 ℝ := fun i j => ∑ r, (D1 r).partStress i j
  fun r => (D1 r).reduced P es ee av

/-- One iteration, evpfft.cpp:356-394.  `none` stands for an access outside an array. -/
noncomputable def iterate (lib : FftLib n p) (law : PointLaw M) (P : RunPar) (m : ℕ) (D : AllRanks M n p) :
    Option (AllRanks M n p) :=
  open Classical in
  if h : ∀ r : Fin (numRanks p), (fftRank n p r).InRange then some (updated law P m (corrected lib P h D)) else none

/-- The `while` loop with `left` iterations to go, evpfft.cpp:342-404.  `none` also stands for a run in which some
ranks leave the loop and others wait for them in a call that needs all ranks. -/
noncomputable def loop (lib : FftLib n p) (law : PointLaw M) (P : RunPar) (m : ℕ) :
    ℕ → AllRanks M n p → Option (AllRanks M n p)
  | 0, D => some D
  | left + 1, D =>
    open Classical in
    if ∀ r, (D r).goesOn P then (iterate lib law P m D).bind (loop lib law P m left)
    else if ∀ r, ¬ (D r).goesOn P then some D
    else none

/-- One step, evpfft.cpp:318-437. -/
noncomputable def step (lib : FftLib n p) (law : PointLaw M) (P : RunPar) (D : AllRanks M n p) (m : ℕ) :
    Option (AllRanks M n p) :=
  (loop lib law P m P.itmax fun r => (D r).begin law P m).map fun D1 =>
    let D2 : AllRanks M n p := fun r => (D1 r).finish law P m
    let ep : T2 ℝ := fun i j => ∑ r, ((D2 r).partPlastic law).1 i j
    let edp : T2 ℝ := fun i j => ∑ r, ((D2 r).partPlastic law).2 i j
    fun r => (D2 r).close law m ep edp

/-- A run, evpfft.cpp:146-168 and 439-444.  `m0 r` is the material at the points of rank `r`. -/
noncomputable def run (delt : Fin 3 → ℝ) (lib : FftLib n p) (law : PointLaw M) (P : RunPar)
    (m0 : (r : Fin (numRanks p)) → LocIx (fftRank n p r).npts → M) : Option (AllRanks M n p) :=
  (List.range' 1 P.nsteps).foldlM (step lib law P) fun r => RankState.init n delt law P (m0 r)

end AllRanks

end Fierro
