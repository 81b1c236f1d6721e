import Verif.Model.EvpRanks
import Verif.Proofs.EvpRanks
import Verif.Props.EvpField

/-!
# C135: the crystal plasticity run does not depend on the number of ranks
-/

namespace Fierro

/-! ### Specification: the run on the whole grid -/

/-- Fields on the whole grid and the quantities of the sample. -/
structure WholeState (g : EvpGrid) (M : Type) where
  st : StepState g
  rest : g.Ix → M
  epav : T2 ℝ
  edotpav : T2 ℝ
  errs : ℝ
  erre : ℝ
  evm : ℝ
  svm : ℝ
  dvm : ℝ

namespace WholeState

variable {g : EvpGrid} {M : Type}

/-- Before the first step the stress is the elastic response to the first increment, zero in a gas. -/
noncomputable def init (law : PointLaw M) (P : RunPar) (m0 : g.Ix → M) : WholeState g M where
  st := StepState.start g P.udot P.tdot fun x =>
    if law.gas (m0 x) then fun _ _ => 0 else act4 (law.cg (m0 x)) fun k l => P.udot k l * P.tdot
  rest := m0
  epav := fun _ _ => 0
  edotpav := fun _ _ => 0
  errs := 0
  erre := 0
  evm := P.dvm * P.tdot
  svm := 0
  dvm := P.dvm

/-- Start of a step. -/
noncomputable def begin (law : PointLaw M) (P : RunPar) (m : ℕ) (w : WholeState g M) : WholeState g M :=
  { w with
    st := w.st.begin P.udot P.tdot
    rest := fun x => law.pre m (w.rest x)
    errs := 2 * P.error
    erre := 2 * P.error }

/-- The update of the stress at a point of the grid after the correction of the displacement gradient. -/
noncomputable def update (law : PointLaw M) (P : RunPar) (m : ℕ) (w : WholeState g M) (x : g.Ix) : T2 ℝ × M × ℝ × ℝ :=
  law.stress m (w.st.sg x) (g.initializeDisgrad w.st.ddis (g.correction P.d.c0 P.d.s0 w.st.sg) w.st.disgrad x)
    (w.st.velgrad x) (w.rest x)

/-- One iteration. -/
noncomputable def iterate (law : PointLaw M) (P : RunPar) (m : ℕ) (w : WholeState g M) : WholeState g M :=
  let st := w.st.iterate P.d fun x => (w.update law P m x).1
  let es := (∑ x, (w.update law P m x).2.2.1) / g.size
  let ee := (∑ x, (w.update law P m x).2.2.2) / g.size
  let svm := svmOf P.q st.scauav
  open Classical in
  { w with
    st := st
    rest := fun x => (w.update law P m x).2.1
    svm := svm
    errs := if svm > 0 then es / svm else es
    erre := if w.evm > 0 then ee / w.evm else ee }

/-- At most `left` iterations, as long as one of the errors is too large. -/
noncomputable def loop (law : PointLaw M) (P : RunPar) (m : ℕ) : ℕ → WholeState g M → WholeState g M
  | 0, w => w
  | left + 1, w =>
    open Classical in
    if w.errs > P.error ∨ w.erre > P.error then loop law P m left (w.iterate law P m) else w

/-- One step. -/
noncomputable def step (law : PointLaw M) (P : RunPar) (w : WholeState g M) (m : ℕ) : WholeState g M :=
  let w1 := loop law P m P.itmax (w.begin law P m)
  let st := w1.st.finish P.udot P.tdot
  let rest := fun x => law.accumulate P.tdot (law.kin m (w1.st.sg x) (w1.rest x))
  { w1 with
    st := st
    rest := fun x => law.late m (st.velgrad x) (rest x)
    evm := vmStrain st.dmact
    dvm := vmStrain st.vmac
    epav := StepState.average g fun x => law.ept (rest x)
    edotpav := StepState.average g fun x => law.edotp (rest x) }

/-- The steps 1, 2, …, `nsteps`. -/
noncomputable def run (law : PointLaw M) (P : RunPar) (m0 : g.Ix → M) : WholeState g M :=
  (List.range' 1 P.nsteps).foldl (step law P) (init law P m0)

end WholeState

/-- A rank holds its part of the fields and all the quantities of the sample. -/
structure RankHas {g : EvpGrid} {M : Type} {p : Fin 3 → ℕ} (w : WholeState g M) (r : Fin (numRanks p))
    (s : RankState M (fftRank g.n p r)) : Prop where
  disgrad : ∀ x, s.disgrad x = w.st.disgrad (g.point r x)
  velgrad : ∀ x, s.velgrad x = w.st.velgrad (g.point r x)
  sg : ∀ x, s.sg x = w.st.sg (g.point r x)
  rest : ∀ x, s.rest x = w.rest (g.point r x)
  freq : ∀ a i, s.xk a i = waveFreq (g.n a) (g.delt a) ((fftRank g.n p r).lowC a + i)
  wgt : s.wgt = 1 / (g.size : ℝ)
  scauav : s.scauav = w.st.scauav
  ddis : s.ddis = w.st.ddis
  dacum : s.dacum = w.st.dacum
  dmac : s.dmac = w.st.dmac
  dmact : s.dmact = w.st.dmact
  vmac : s.vmac = w.st.vmac
  epav : s.epav = w.epav
  edotpav : s.edotpav = w.edotpav
  errs : s.errs = w.errs
  erre : s.erre = w.erre
  evm : s.evm = w.evm
  svm : s.svm = w.svm
  dvm : s.dvm = w.dvm

/-- What the library of transforms promises: from the parts of a real field every rank receives its part of the
transform; from the parts of a transform with the symmetry of real fields every rank receives its part of the
field. -/
structure FftLib.Correct {g : EvpGrid} (hp : g.Pos) {p : Fin 3 → ℕ} (lib : FftLib g.n p) : Prop where
  fwd : ∀ (D : (r : Fin (numRanks p)) → LocIx (fftRank g.n p r).npts → ℝ) (f : g.Ix → ℝ),
    (∀ r x, D r x = f (g.point r x)) → ∀ r k, lib.fwd D r k = g.forward f (g.mode hp r k)
  bwd : ∀ (D : (r : Fin (numRanks p)) → LocIx (fftRank g.n p r).nptsC → ℂ) (H : g.Ix → ℂ),
    (∀ k, H (g.opp hp k) = (starRingEnd ℂ) (H k)) →
    (∀ r k, D r k = H (g.mode hp r k)) → ∀ r x, lib.bwd D r x = g.backward H (g.point r x)

/-! ### Distribution -/

/-- **C135.** Every point of the grid belongs to exactly one rank, and so does every frequency the transform of a
real field keeps. -/
theorem C135_split (n p : Fin 3 → ℕ) (hp : ∀ a, 0 < p a) :
    (∀ x : Fin 3 → ℕ, (∀ a, x a < n a) → ∃! r, r < numRanks p ∧
      ∀ a, (fftRank n p r).low a ≤ x a ∧ x a < (fftRank n p r).low a + (fftRank n p r).npts a) ∧
    ∀ k : Fin 3 → ℕ, k 0 ≤ n 0 / 2 → k 1 < n 1 → k 2 < n 2 → ∃! r, r < numRanks p ∧
      ∀ a, (fftRank n p r).lowC a ≤ k a ∧ k a < (fftRank n p r).lowC a + (fftRank n p r).nptsC a := by
  refine ⟨fun x hx => box_owner hp hx, fun k h0 h1 h2 => box_owner hp (m := cplxBox n) fun a => ?_⟩
  fin_cases a
  · exact Nat.lt_succ_of_le h0
  · exact h1
  · exact h2

/-- **C135.** No rank holds a point outside the grid, and on every rank the arrays sized for the points have room for
the frequencies. -/
theorem C135_room (n p : Fin 3 → ℕ) (hn : ∀ a, 0 < n a) (r : ℕ) (hr : r < numRanks p) (a : Fin 3) :
    (fftRank n p r).low a + (fftRank n p r).npts a ≤ n a ∧ (fftRank n p r).nptsC a ≤ (fftRank n p r).npts a := by
  refine ⟨?_, splitSize_mono (cplxBox_le hn a) _ _⟩
  have h := rankCoord_lt hr a
  have h1 := splitLow_mono (n a) (p a) (show rankCoord p r a + 1 ≤ p a from h)
  rw [splitLow_last _ _ (by omega), splitLow_add] at h1
  exact h1

/-- **C135.** The parts differ by at most one plane in each direction. -/
theorem C135_balance (n p : Fin 3 → ℕ) (r s : ℕ) (a : Fin 3) :
    (fftRank n p r).npts a ≤ (fftRank n p s).npts a + 1 := by
  show splitSize _ _ _ ≤ splitSize _ _ _ + 1
  rw [splitSize_eq, splitSize_eq]
  split_ifs <;> omega

/-! ### One iteration -/

theorem cell_injective {b : FftRank} (h : b.InRange) {k k' : LocIx b.nptsC} (e : b.cell h k = b.cell h k') : k = k' :=
  funext fun a => Fin.ext (by
    have := congrArg Fin.val (congrFun e a)
    exact this)

theorem work_forward {M : Type} {b : FftRank} (h : b.InRange) (out : Fin 3 → Fin 3 → LocIx b.nptsC → ℂ)
    (st : RankState M b) (k : LocIx b.nptsC) :
    (st.storeForward h out).work (b.cell h k) = fun i j => (out i j k).re := by
  have hx : ∃ k', b.cell h k' = b.cell h k := ⟨k, rfl⟩
  show (if hx : ∃ k', b.cell h k' = b.cell h k then fun i j => (out i j hx.choose).re else st.work _) = _
  rw [dif_pos hx, cell_injective h hx.choose_spec]

theorem work_greens {M : Type} {b : FftRank} (n : Fin 3 → ℕ) (h : b.InRange) (d : StepData) (st : RankState M b)
    (k : LocIx b.nptsC) :
    (st.greens n h d).work (b.cell h k) =
      greenCorrection d.c0 d.s0 (RankState.zero b k) (RankState.nyq n b k) (fun a => st.xk a (b.cell h k a))
        (st.work (b.cell h k)) := by
  have hx : ∃ k', b.cell h k' = b.cell h k := ⟨k, rfl⟩
  show (if hx : ∃ k', b.cell h k' = b.cell h k then greenCorrection d.c0 d.s0 (RankState.zero b hx.choose)
    (RankState.nyq n b hx.choose) (fun a => st.xk a (b.cell h hx.choose a)) (st.work (b.cell h k)) else _) = _
  rw [dif_pos hx, cell_injective h hx.choose_spec]

theorem rank_zero {g : EvpGrid} (hp : g.Pos) {p : Fin 3 → ℕ} (r : Fin (numRanks p))
    (k : LocIx (fftRank g.n p r).nptsC) :
    RankState.zero (fftRank g.n p r) k = g.zeroFreq (g.mode hp r k) := by
  have e : ∀ a, (k a).val + 1 + (fftRank g.n p r).lowC a = (g.mode hp r k a).val + 1 := fun a => by
    show _ = (fftRank g.n p r).lowC a + (k a).val + 1
    omega
  unfold RankState.zero EvpGrid.zeroFreq
  rw [e 0, e 1, e 2]

theorem rank_nyq {g : EvpGrid} (hp : g.Pos) {p : Fin 3 → ℕ} (r : Fin (numRanks p))
    (k : LocIx (fftRank g.n p r).nptsC) :
    RankState.nyq g.n (fftRank g.n p r) k = g.nyquist (g.mode hp r k) := by
  have e : ∀ a, (k a).val + 1 + (fftRank g.n p r).lowC a = (g.mode hp r k a).val + 1 := fun a => by
    show _ = (fftRank g.n p r).lowC a + (k a).val + 1
    omega
  unfold RankState.nyq EvpGrid.nyquist
  rw [e 0, e 1, e 2]

/-- The stress update and the sums, from a state in which the displacement gradients are corrected. -/
theorem reduce_has {M : Type} {g : EvpGrid} {p : Fin 3 → ℕ} (hp : ∀ a, 0 < p a) (law : PointLaw M) (P : RunPar) (m : ℕ)
    (w : WholeState g M) (D : AllRanks M g.n p)
    (hD : ∀ r, RankHas { w with st := { w.st with
      disgrad := g.initializeDisgrad w.st.ddis (g.correction P.d.c0 P.d.s0 w.st.sg) w.st.disgrad } } r (D r))
    (r : Fin (numRanks p)) :
    RankHas (w.iterate law P m) r (AllRanks.updated law P m D r) := by
  have hup : ∀ r x, law.stress m ((D r).sg x) ((D r).disgrad x) ((D r).velgrad x) ((D r).rest x) =
      w.update law P m (g.point r x) := by
    intro r x
    rw [(hD r).disgrad, (hD r).sg, (hD r).velgrad, (hD r).rest]
    rfl
  have hav : ∀ (f : g.Ix → ℝ), ∑ r : Fin (numRanks p), ∑ x, f (g.point r x) * (D r).wgt =
      ∑ x, f x * (1 / (g.size : ℝ)) := by
    intro f
    rw [← g.sum_ranks p hp fun x => f x * (1 / (g.size : ℝ))]
    exact Finset.sum_congr rfl fun r _ => by rw [(hD r).wgt]
  have hdiv : ∀ (f : g.Ix → ℝ), ∑ x, f x * (1 / (g.size : ℝ)) = (∑ x, f x) / g.size := fun f => by
    rw [Finset.sum_div]
    exact Finset.sum_congr rfl fun x _ => by ring
  have hes : ∑ r, ((D r).partErr law m).1 = (∑ x, (w.update law P m x).2.2.1) / g.size := by
    rw [← hdiv, ← hav]
    exact Finset.sum_congr rfl fun r _ => Finset.sum_congr rfl fun x _ => by
      show (law.stress m ((D r).sg x) ((D r).disgrad x) ((D r).velgrad x) ((D r).rest x)).2.2.1 * (D r).wgt = _
      rw [hup]
  have hee : ∑ r, ((D r).partErr law m).2 = (∑ x, (w.update law P m x).2.2.2) / g.size := by
    rw [← hdiv, ← hav]
    exact Finset.sum_congr rfl fun r _ => Finset.sum_congr rfl fun x _ => by
      show (law.stress m ((D r).sg x) ((D r).disgrad x) ((D r).velgrad x) ((D r).rest x)).2.2.2 * (D r).wgt = _
      rw [hup]
  have hsc : (fun i j => ∑ r, ((D r).evpal law m).partStress i j) =
      (w.iterate law P m).st.scauav := by
    funext i j
    show _ = ∑ x, (w.update law P m x).1 i j * (1 / (g.size : ℝ))
    rw [← hav]
    exact Finset.sum_congr rfl fun r _ => Finset.sum_congr rfl fun x _ => by
      show (law.stress m ((D r).sg x) ((D r).disgrad x) ((D r).velgrad x) ((D r).rest x)).1 i j * (D r).wgt = _
      rw [hup]
  have h := hD r
  unfold AllRanks.updated
  simp only []
  rw [hes, hee, hsc]
  exact
    { disgrad := h.disgrad
      velgrad := h.velgrad
      sg := fun x => congrArg Prod.fst (hup r x)
      rest := fun x => congrArg (fun o => o.2.1) (hup r x)
      freq := h.freq
      wgt := h.wgt
      scauav := rfl
      ddis := by
        show mixedCorrection _ _ _ _ _ (D r).ddis = _
        rw [h.ddis]
        rfl
      dacum := by
        show (fun i j => (D r).dacum i j + mixedCorrection _ _ _ _ _ (D r).ddis i j) = _
        rw [h.ddis, h.dacum]
        rfl
      dmac := h.dmac
      dmact := h.dmact
      vmac := h.vmac
      epav := h.epav
      edotpav := h.edotpav
      errs := rfl
      erre := by
        show (open Classical in if (D r).evm > 0 then _ / (D r).evm else _) = _
        rw [h.evm]
        rfl
      evm := h.evm
      svm := rfl
      dvm := h.dvm }

/-- The frequencies of a rank after the Green operator. -/
theorem cplxData_eq {M : Type} {g : EvpGrid} (hp : g.Pos) {p : Fin 3 → ℕ} (d : StepData) (r : Fin (numRanks p))
    (hr : (fftRank g.n p r).InRange) (s : RankState M (fftRank g.n p r)) (sg : g.Ix → T2 ℝ)
    (hs : ∀ a i, s.xk a i = waveFreq (g.n a) (g.delt a) ((fftRank g.n p r).lowC a + i))
    (out : Fin 3 → Fin 3 → LocIx (fftRank g.n p r).nptsC → ℂ)
    (ho : ∀ i j k, out i j k = g.forward (fun x => sg x i j) (g.mode hp r k)) (i j : Fin 3)
    (k : LocIx (fftRank g.n p r).nptsC) :
    ((s.storeForward hr out).greens g.n hr d).cplxData hr i j k = g.correctionHat d.c0 d.s0 sg (g.mode hp r k) i j := by
  have hf : (fun a => s.xk a ((fftRank g.n p r).cell hr k a)) = g.freq (g.mode hp r k) := by
    funext a
    rw [hs]
    rfl
  apply Complex.ext
  · show ((s.storeForward hr out).greens g.n hr d).work ((fftRank g.n p r).cell hr k) i j = _
    rw [work_greens, work_forward, rank_zero hp, rank_nyq hp]
    show greenCorrection _ _ _ _ (fun a => s.xk a ((fftRank g.n p r).cell hr k a)) _ i j = _
    rw [hf]
    simp only [ho]
    rfl
  · show greenCorrection _ _ (RankState.zero (fftRank g.n p r) k) (RankState.nyq g.n (fftRank g.n p r) k)
      (fun a => s.xk a ((fftRank g.n p r).cell hr k a)) (fun i j => (out i j k).im) i j = _
    rw [rank_zero hp, rank_nyq hp, hf]
    simp only [ho]
    rfl

theorem storeBackward_has {M : Type} {g : EvpGrid} {p : Fin 3 → ℕ} (w : WholeState g M) (r : Fin (numRanks p))
    (s : RankState M (fftRank g.n p r)) (hs : RankHas w r s) (work : g.Ix → T2 ℝ)
    (out : Fin 3 → Fin 3 → LocIx (fftRank g.n p r).npts → ℝ) (ho : ∀ i j x, out i j x = work (g.point r x) i j) :
    RankHas { w with st := { w.st with disgrad := g.initializeDisgrad w.st.ddis work w.st.disgrad } } r
      (s.storeBackward out) := by
  exact
    { disgrad := fun x => by
        show (fun i j => s.disgrad x i j + (s.ddis i j + out i j x)) = _
        rw [hs.disgrad, hs.ddis]
        funext i j
        rw [ho]
        rfl
      velgrad := hs.velgrad
      sg := hs.sg
      rest := hs.rest
      freq := hs.freq
      wgt := hs.wgt
      scauav := hs.scauav
      ddis := hs.ddis
      dacum := hs.dacum
      dmac := hs.dmac
      dmact := hs.dmact
      vmac := hs.vmac
      epav := hs.epav
      edotpav := hs.edotpav
      errs := hs.errs
      erre := hs.erre
      evm := hs.evm
      svm := hs.svm
      dvm := hs.dvm }

theorem work_has {M : Type} {g : EvpGrid} {p : Fin 3 → ℕ} (w : WholeState g M) (r : Fin (numRanks p))
    (s : RankState M (fftRank g.n p r)) (hs : RankHas w r s) (a : LocIx (fftRank g.n p r).npts → T2 ℝ)
    (b : LocIx (fftRank g.n p r).nptsC → T2 ℝ) : RankHas w r { s with work := a, workim := b } :=
  { disgrad := hs.disgrad
    velgrad := hs.velgrad
    sg := hs.sg
    rest := hs.rest
    freq := hs.freq
    wgt := hs.wgt
    scauav := hs.scauav
    ddis := hs.ddis
    dacum := hs.dacum
    dmac := hs.dmac
    dmact := hs.dmact
    vmac := hs.vmac
    epav := hs.epav
    edotpav := hs.edotpav
    errs := hs.errs
    erre := hs.erre
    evm := hs.evm
    svm := hs.svm
    dvm := hs.dvm }

theorem storeForward_form {M : Type} {b : FftRank} (h : b.InRange) (out : Fin 3 → Fin 3 → LocIx b.nptsC → ℂ)
    (s : RankState M b) : ∃ x y, s.storeForward h out = { s with work := x, workim := y } := ⟨_, _, rfl⟩

theorem greens_form {M : Type} {b : FftRank} (n : Fin 3 → ℕ) (h : b.InRange) (d : StepData)
    (s : RankState M b) : ∃ x y, s.greens n h d = { s with work := x, workim := y } := ⟨_, _, rfl⟩

theorem storeForward_has {M : Type} {g : EvpGrid} {p : Fin 3 → ℕ} (w : WholeState g M) (r : Fin (numRanks p))
    (s : RankState M (fftRank g.n p r)) (hs : RankHas w r s) (h : (fftRank g.n p r).InRange)
    (out : Fin 3 → Fin 3 → LocIx (fftRank g.n p r).nptsC → ℂ) : RankHas w r (s.storeForward h out) := by
  obtain ⟨x, y, e⟩ := storeForward_form h out s
  rw [e]
  exact work_has w r s hs x y

theorem greens_has {M : Type} {g : EvpGrid} {p : Fin 3 → ℕ} (w : WholeState g M) (r : Fin (numRanks p))
    (s : RankState M (fftRank g.n p r)) (hs : RankHas w r s) (h : (fftRank g.n p r).InRange) (d : StepData) :
    RankHas w r (s.greens g.n h d) := by
  obtain ⟨x, y, e⟩ := greens_form g.n h d s
  rw [e]
  exact work_has w r s hs x y

theorem corrected_has {M : Type} {g : EvpGrid} (hg : g.Good) {p : Fin 3 → ℕ} (lib : FftLib g.n p)
    (hl : lib.Correct hg.pos) (P : RunPar) (hm : P.d.c0.Minor) (hc : P.d.c0.Pos)
    (hr : ∀ r : Fin (numRanks p), (fftRank g.n p r).InRange)
    (w : WholeState g M) (D : AllRanks M g.n p) (hD : ∀ r, RankHas w r (D r)) (r : Fin (numRanks p)) :
    RankHas { w with st := { w.st with
      disgrad := g.initializeDisgrad w.st.ddis (g.correction P.d.c0 P.d.s0 w.st.sg) w.st.disgrad } } r
      (AllRanks.corrected lib P hr D r) := by
  have hhat : ∀ r i j k, lib.fwd (fun r x => (D r).sg x i j) r k =
      g.forward (fun x => w.st.sg x i j) (g.mode hg.pos r k) := fun r i j k =>
    hl.fwd _ (fun x => w.st.sg x i j) (fun r x => by rw [(hD r).sg]) r k
  have hD1 : ∀ (i j : Fin 3) (r : Fin (numRanks p)) (k : LocIx (fftRank g.n p r).nptsC),
      (((D r).storeForward (hr r) fun i j => lib.fwd (fun r x => (D r).sg x i j) r).greens g.n (hr r)
      P.d).cplxData (hr r) i j k = g.correctionHat P.d.c0 P.d.s0 w.st.sg (g.mode hg.pos r k) i j := by
    intro i j r k
    exact cplxData_eq hg.pos P.d r (hr r) (D r) w.st.sg (hD r).freq _ (hhat r) i j k
  have hback : ∀ (i j : Fin 3) (x : LocIx (fftRank g.n p r).npts), lib.bwd (fun r => (((D r).storeForward (hr r) fun i j =>
      lib.fwd (fun r x => (D r).sg x i j) r).greens g.n (hr r) P.d).cplxData (hr r) i j) r x =
      g.correction P.d.c0 P.d.s0 w.st.sg (g.point r x) i j := by
    intro i j x
    exact hl.bwd _ (fun k => g.correctionHat P.d.c0 P.d.s0 w.st.sg k i j)
      (fun k => g.correctionHat_hermitian hg P.d.c0 P.d.s0 hm hc w.st.sg k i j) (hD1 i j) r x
  exact storeBackward_has w r _ (greens_has w r _ (storeForward_has w r _ (hD r) (hr r) _) (hr r) P.d) _ _ hback

theorem iterate_has {M : Type} {g : EvpGrid} (hg : g.Good) {p : Fin 3 → ℕ} (hp : ∀ a, 0 < p a) (lib : FftLib g.n p)
    (hl : lib.Correct hg.pos) (law : PointLaw M) (P : RunPar) (hm : P.d.c0.Minor) (hc : P.d.c0.Pos) (m : ℕ)
    (w : WholeState g M) (D : AllRanks M g.n p) (hD : ∀ r, RankHas w r (D r)) :
    ∃ D', AllRanks.iterate lib law P m D = some D' ∧ ∀ r, RankHas (w.iterate law P m) r (D' r) := by
  have hr : ∀ r : Fin (numRanks p), (fftRank g.n p r).InRange := fun r => fftRank_inRange hg.pos r
  refine ⟨AllRanks.updated law P m (AllRanks.corrected lib P hr D), by rw [AllRanks.iterate, dif_pos hr], fun r => ?_⟩
  exact reduce_has hp law P m w _ (fun r => corrected_has hg lib hl P hm hc hr w D hD r) r

/-! ### Loop, step, run -/

theorem loop_has {M : Type} {g : EvpGrid} (hg : g.Good) {p : Fin 3 → ℕ} (hp : ∀ a, 0 < p a) (lib : FftLib g.n p)
    (hl : lib.Correct hg.pos) (law : PointLaw M) (P : RunPar) (hm : P.d.c0.Minor) (hc : P.d.c0.Pos) (m : ℕ) (left : ℕ) :
    ∀ (w : WholeState g M) (D : AllRanks M g.n p), (∀ r, RankHas w r (D r)) →
    ∃ D', AllRanks.loop lib law P m left D = some D' ∧ ∀ r, RankHas (w.loop law P m left) r (D' r) := by
  induction left with
  | zero => exact fun w D hD => ⟨D, rfl, hD⟩
  | succ left ih =>
    intro w D hD
    have hgo : ∀ r, (D r).goesOn P ↔ (w.errs > P.error ∨ w.erre > P.error) := fun r => by
      unfold RankState.goesOn
      rw [(hD r).errs, (hD r).erre]
    by_cases h : w.errs > P.error ∨ w.erre > P.error
    · obtain ⟨D', e, hD'⟩ := iterate_has hg hp lib hl law P hm hc m w D hD
      obtain ⟨D'', e', hD''⟩ := ih _ D' hD'
      refine ⟨D'', ?_, ?_⟩
      · rw [AllRanks.loop, if_pos fun r => (hgo r).2 h, e]
        exact e'
      · rw [WholeState.loop, if_pos h]
        exact hD''
    · have r0 : Fin (numRanks p) := ⟨0, Nat.mul_pos (Nat.mul_pos (hp 0) (hp 1)) (hp 2)⟩
      refine ⟨D, ?_, ?_⟩
      · rw [AllRanks.loop, if_neg fun h' => h ((hgo r0).1 (h' r0)), if_pos fun r h' => h ((hgo r).1 h')]
      · rw [WholeState.loop, if_neg h]
        exact hD

theorem begin_has {M : Type} {g : EvpGrid} {p : Fin 3 → ℕ} (law : PointLaw M) (P : RunPar) (m : ℕ) (w : WholeState g M)
    (r : Fin (numRanks p)) (s : RankState M (fftRank g.n p r)) (h : RankHas w r s) :
    RankHas (w.begin law P m) r (s.begin law P m) where
  disgrad x := by
    show (fun i j => s.disgrad x i j + P.udot i j * P.tdot) = _
    rw [h.disgrad]
    rfl
  velgrad := h.disgrad
  sg := h.sg
  rest x := congrArg (law.pre m) (h.rest x)
  freq := h.freq
  wgt := h.wgt
  scauav := h.scauav
  ddis := rfl
  dacum := rfl
  dmac := h.dmac
  dmact := h.dmact
  vmac := h.vmac
  epav := h.epav
  edotpav := h.edotpav
  errs := rfl
  erre := rfl
  evm := h.evm
  svm := h.svm
  dvm := h.dvm

theorem step_has {M : Type} {g : EvpGrid} (hg : g.Good) {p : Fin 3 → ℕ} (hp : ∀ a, 0 < p a) (lib : FftLib g.n p)
    (hl : lib.Correct hg.pos) (law : PointLaw M) (P : RunPar) (hm : P.d.c0.Minor) (hc : P.d.c0.Pos) (m : ℕ)
    (w : WholeState g M) (D : AllRanks M g.n p) (hD : ∀ r, RankHas w r (D r)) :
    ∃ D', AllRanks.step lib law P D m = some D' ∧ ∀ r, RankHas (w.step law P m) r (D' r) := by
  obtain ⟨D1, e, h1⟩ := loop_has hg hp lib hl law P hm hc m P.itmax (w.begin law P m)
    (fun r => (D r).begin law P m) fun r => begin_has law P m w r _ (hD r)
  refine ⟨_, by rw [AllRanks.step, e]; rfl, ?_⟩
  have hav : ∀ (f : g.Ix → ℝ), ∑ r : Fin (numRanks p), ∑ x, f (g.point r x) * (D1 r).wgt =
      ∑ x, f x * (1 / (g.size : ℝ)) := by
    intro f
    rw [← g.sum_ranks p hp fun x => f x * (1 / (g.size : ℝ))]
    exact Finset.sum_congr rfl fun r _ => by rw [(h1 r).wgt]
  have hrest : ∀ r x, law.accumulate P.tdot (law.kin m ((D1 r).sg x) ((D1 r).rest x)) =
      law.accumulate P.tdot (law.kin m (((w.begin law P m).loop law P m P.itmax).st.sg (g.point r x))
        (((w.begin law P m).loop law P m P.itmax).rest (g.point r x))) := fun r x => by
    rw [(h1 r).sg, (h1 r).rest]
  have hpl : ∀ (f : M → T2 ℝ) (i j : Fin 3), ∑ r : Fin (numRanks p), ∑ x, f (law.accumulate P.tdot
      (law.kin m ((D1 r).sg x) ((D1 r).rest x))) i j * (D1 r).wgt = ∑ x, f (law.accumulate P.tdot (law.kin m
      (((w.begin law P m).loop law P m P.itmax).st.sg x) (((w.begin law P m).loop law P m P.itmax).rest x))) i j *
      (1 / (g.size : ℝ)) := fun f i j => by
    rw [← hav fun x => f (law.accumulate P.tdot (law.kin m
      (((w.begin law P m).loop law P m P.itmax).st.sg x) (((w.begin law P m).loop law P m P.itmax).rest x))) i j]
    exact Finset.sum_congr rfl fun r _ => Finset.sum_congr rfl fun x _ => by rw [hrest]
  have hvel : ∀ r x, (fun i j => ((D1 r).disgrad x i j - (D1 r).velgrad x i j) / P.tdot) =
      ((((w.begin law P m).loop law P m P.itmax).st.finish P.udot P.tdot).velgrad (g.point r x)) := fun r x => by
    rw [(h1 r).disgrad, (h1 r).velgrad]
    rfl
  have hact : ∀ r, (fun i j => (D1 r).dmac i j + (D1 r).dacum i j) =
      (((w.begin law P m).loop law P m P.itmax).st.finish P.udot P.tdot).dmact := fun r => by
    rw [(h1 r).dmac, (h1 r).dacum]
    rfl
  have hvm : ∀ r, (fun i j => ((D1 r).dmac i j + (D1 r).dacum i j - (D1 r).dmact i j) / P.tdot) =
      (((w.begin law P m).loop law P m P.itmax).st.finish P.udot P.tdot).vmac := fun r => by
    rw [(h1 r).dmac, (h1 r).dacum, (h1 r).dmact]
    rfl
  intro r
  have h := h1 r
  exact
    { disgrad := h.disgrad
      velgrad := hvel r
      sg := h.sg
      rest := fun x => by
        show law.late m (fun i j => ((D1 r).disgrad x i j - (D1 r).velgrad x i j) / P.tdot)
          (law.accumulate P.tdot (law.kin m ((D1 r).sg x) ((D1 r).rest x))) = _
        rw [hvel, hrest]
        rfl
      freq := h.freq
      wgt := h.wgt
      scauav := h.scauav
      ddis := h.ddis
      dacum := h.dacum
      dmac := by
        show (fun i j => (D1 r).dmac i j + (D1 r).dacum i j + P.udot i j * P.tdot) = _
        rw [h.dmac, h.dacum]
        rfl
      dmact := hact r
      vmac := hvm r
      epav := funext fun i => funext fun j => hpl law.ept i j
      edotpav := funext fun i => funext fun j => hpl law.edotp i j
      errs := h.errs
      erre := h.erre
      evm := by
        show vmStrain (fun i j => (D1 r).dmac i j + (D1 r).dacum i j) = _
        rw [hact]
        rfl
      svm := h.svm
      dvm := by
        show vmStrain (fun i j => ((D1 r).dmac i j + (D1 r).dacum i j - (D1 r).dmact i j) / P.tdot) = _
        rw [hvm]
        rfl }

theorem init_has {M : Type} {g : EvpGrid} {p : Fin 3 → ℕ} (law : PointLaw M) (P : RunPar) (m0 : g.Ix → M)
    (r : Fin (numRanks p)) :
    RankHas (WholeState.init law P m0) r
      (RankState.init g.n g.delt law P fun x : LocIx (fftRank g.n p r).npts => m0 (g.point r x)) where
  disgrad _ := rfl
  velgrad _ := rfl
  sg x := by
    funext i j
    show (if law.gas (m0 (g.point r x)) then (0 : ℝ) else _) =
      (if law.gas (m0 (g.point r x)) then fun _ _ => 0 else _ : T2 ℝ) i j
    split_ifs <;> rfl
  rest _ := rfl
  freq a i := by
    show _ / _ = ((waveIndex (g.n a) ((fftRank g.n p r).lowC a + i) : ℤ) : ℝ) / _
    unfold waveIndex
    rw [Nat.add_comm ((fftRank g.n p r).lowC a)]
    simp only [gt_iff_lt, Nat.cast_lt]
  wgt := rfl
  scauav := rfl
  ddis := rfl
  dacum := rfl
  dmac := rfl
  dmact := rfl
  vmac := rfl
  epav := rfl
  edotpav := rfl
  errs := rfl
  erre := rfl
  evm := rfl
  svm := rfl
  dvm := rfl

/-- **C135.** For every process grid and every material law at the points, a run on all ranks comes to its end: no
rank reaches outside an array and none is left waiting.  At the end every rank holds its part of the fields of
the run on the whole grid, and all ranks hold the same quantities of the sample. -/
theorem C135_run {M : Type} (g : EvpGrid) (hg : g.Good) (p : Fin 3 → ℕ) (hp : ∀ a, 0 < p a) (lib : FftLib g.n p)
    (hl : lib.Correct hg.pos) (law : PointLaw M) (P : RunPar) (hm : P.d.c0.Minor) (hc : P.d.c0.Pos) (m0 : g.Ix → M) :
    ∃ D, AllRanks.run g.delt lib law P (fun r x => m0 (g.point r x)) = some D ∧
      ∀ r, RankHas (WholeState.run law P m0) r (D r) := by
  have key : ∀ (l : List ℕ) (w : WholeState g M) (D : AllRanks M g.n p), (∀ r, RankHas w r (D r)) →
      ∃ D', l.foldlM (AllRanks.step lib law P) D = some D' ∧ ∀ r, RankHas (l.foldl (WholeState.step law P) w) r (D' r) := by
    intro l
    induction l with
    | nil => exact fun w D hD => ⟨D, rfl, hD⟩
    | cons m l ih =>
      intro w D hD
      obtain ⟨D1, e, h1⟩ := step_has hg hp lib hl law P hm hc m w D hD
      obtain ⟨D2, e2, h2⟩ := ih _ D1 h1
      exact ⟨D2, by rw [List.foldlM_cons, e]; exact e2, h2⟩
  exact key _ _ _ fun r => init_has law P m0 r

/-- **C135.** Runs on different numbers of ranks leave the same stress, strain and crystal state at every point
and the same quantities of the sample. -/
theorem C135_same {M : Type} (g : EvpGrid) (hg : g.Good) (p p' : Fin 3 → ℕ) (hp : ∀ a, 0 < p a) (hp' : ∀ a, 0 < p' a)
    (lib : FftLib g.n p) (lib' : FftLib g.n p') (hl : lib.Correct hg.pos) (hl' : lib'.Correct hg.pos)
    (law : PointLaw M) (P : RunPar) (hm : P.d.c0.Minor) (hc : P.d.c0.Pos) (m0 : g.Ix → M)
    (D : AllRanks M g.n p) (D' : AllRanks M g.n p')
    (h : AllRanks.run g.delt lib law P (fun r x => m0 (g.point r x)) = some D)
    (h' : AllRanks.run g.delt lib' law P (fun r x => m0 (g.point r x)) = some D')
    (r : Fin (numRanks p)) (r' : Fin (numRanks p')) :
    (∀ x x', (∀ a, (fftRank g.n p r).low a + x a = (fftRank g.n p' r').low a + (x' a : ℕ)) →
      (D r).sg x = (D' r').sg x' ∧ (D r).disgrad x = (D' r').disgrad x' ∧ (D r).velgrad x = (D' r').velgrad x' ∧
        (D r).rest x = (D' r').rest x') ∧
    (D r).scauav = (D' r').scauav ∧ (D r).dmact = (D' r').dmact ∧ (D r).vmac = (D' r').vmac ∧
    (D r).epav = (D' r').epav ∧ (D r).edotpav = (D' r').edotpav ∧ (D r).evm = (D' r').evm ∧
    (D r).svm = (D' r').svm ∧ (D r).dvm = (D' r').dvm ∧ (D r).errs = (D' r').errs ∧ (D r).erre = (D' r').erre := by
  obtain ⟨E, e, k⟩ := C135_run g hg p hp lib hl law P hm hc m0
  obtain ⟨E', e', k'⟩ := C135_run g hg p' hp' lib' hl' law P hm hc m0
  obtain rfl : E = D := Option.some.inj (e.symm.trans h)
  obtain rfl : E' = D' := Option.some.inj (e'.symm.trans h')
  have a := k r
  have b := k' r'
  refine ⟨fun x x' hx => ?_, a.scauav.trans b.scauav.symm, a.dmact.trans b.dmact.symm, a.vmac.trans b.vmac.symm,
    a.epav.trans b.epav.symm, a.edotpav.trans b.edotpav.symm, a.evm.trans b.evm.symm, a.svm.trans b.svm.symm,
    a.dvm.trans b.dvm.symm, a.errs.trans b.errs.symm, a.erre.trans b.erre.symm⟩
  have hpt : g.point r x = g.point r' x' := funext fun c => Fin.ext (hx c)
  rw [a.sg, b.sg, a.disgrad, b.disgrad, a.velgrad, b.velgrad, a.rest, b.rest, hpt]
  exact ⟨rfl, rfl, rfl, rfl⟩

/-! ### The hypotheses can be met -/

theorem mode_or_opp (g : EvpGrid) (hpos : g.Pos) (p : Fin 3 → ℕ) (hp : ∀ a, 0 < p a) (k : g.Ix) :
    (∃ q : (r : Fin (numRanks p)) × LocIx (fftRank g.n p r).nptsC, g.mode hpos q.1 q.2 = k) ∨
      ∃ q : (r : Fin (numRanks p)) × LocIx (fftRank g.n p r).nptsC, g.mode hpos q.1 q.2 = g.opp hpos k := by
  have key : ∀ k : g.Ix, (k 0 : ℕ) ≤ g.n 0 / 2 →
      ∃ q : (r : Fin (numRanks p)) × LocIx (fftRank g.n p r).nptsC, g.mode hpos q.1 q.2 = k := by
    intro k h0
    obtain ⟨r, ⟨hr, hk⟩, -⟩ := (C135_split g.n p hp).2 (fun a => (k a : ℕ)) h0 (k 1).isLt (k 2).isLt
    refine ⟨⟨⟨r, hr⟩, fun a => ⟨(k a : ℕ) - (fftRank g.n p r).lowC a, ?_⟩⟩, ?_⟩
    · have := hk a
      show (k a : ℕ) - (fftRank g.n p r).lowC a < (fftRank g.n p r).nptsC a
      omega
    · funext a
      apply Fin.ext
      have := hk a
      show (fftRank g.n p r).lowC a + ((k a : ℕ) - (fftRank g.n p r).lowC a) = k a
      omega
  by_cases h : (k 0 : ℕ) ≤ g.n 0 / 2
  · exact .inl (key k h)
  · refine .inr (key _ ?_)
    have := (k 0).isLt
    rw [EvpGrid.opp_val]
    split_ifs <;> omega

/-- **C135.** A library with the promised behaviour exists for every grid and every process grid: the kept half of
the transform of a real field determines the field. -/
theorem C135_library (g : EvpGrid) (hpos : g.Pos) (p : Fin 3 → ℕ) (hp : ∀ a, 0 < p a) :
    ∃ lib : FftLib g.n p, lib.Correct hpos := by
  classical
  have hb := g.point_bijective p hp
  refine ⟨{ fwd := fun D r k => g.forward (fun x => D (Equiv.ofBijective _ hb |>.symm x).1
              (Equiv.ofBijective _ hb |>.symm x).2) (g.mode hpos r k)
            bwd := fun D r x => g.backward (fun k =>
              if h : ∃ q : (r : Fin (numRanks p)) × LocIx (fftRank g.n p r).nptsC, g.mode hpos q.1 q.2 = k then
                D h.choose.1 h.choose.2
              else if h : ∃ q : (r : Fin (numRanks p)) × LocIx (fftRank g.n p r).nptsC,
                  g.mode hpos q.1 q.2 = g.opp hpos k then (starRingEnd ℂ) (D h.choose.1 h.choose.2)
              else 0) (g.point r x) }, ?_, ?_⟩
  · intro D f hD r k
    show g.forward _ _ = _
    congr 1
    funext x
    rw [hD]
    exact congrArg f ((Equiv.ofBijective _ hb).apply_symm_apply x)
  · intro D H hH hD r x
    show g.backward _ _ = _
    congr 1
    funext k
    split_ifs with h h'
    · rw [hD, h.choose_spec]
    · rw [hD, h'.choose_spec, hH, Complex.conj_conj]
    · exact ((mode_or_opp g hpos p hp k).elim h h').elim

/-- Finding: the weight of a point in the averages is `1.0/(npts1_g*npts2_g*npts3_g)` with a product of `int`s
(allocate_memory.cpp:17).  It overflows on a grid of 1291 points per direction (and on every larger one), which
many ranks together can hold. -/
theorem C135_weight_fails (n : ℕ) (h : 1291 ≤ n) :
    weightProduct (fun _ => n) = none ∧ weightProduct (fun _ => 1290) = some (1290 ^ 3) := by
  constructor
  · unfold weightProduct
    rw [if_neg]
    rintro ⟨-, h2⟩
    have : 1291 * 1291 * 1291 ≤ n * n * n := Nat.mul_le_mul (Nat.mul_le_mul h h) h
    have h2 : n * n * n < 2 ^ 31 := h2
    omega
  · decide

/-- A cube of 3 by 4 by 5 points on 2 by 2 by 1 ranks: the second rank holds one plane. -/
example : (EvpGrid.Good ⟨![3, 4, 5], fun _ => 1⟩) ∧ (∀ a, 0 < (![2, 2, 1] : Fin 3 → ℕ) a) ∧
    (fftRank ![3, 4, 5] ![2, 2, 1] 1).low 0 = 2 ∧ (fftRank ![3, 4, 5] ![2, 2, 1] 1).npts 0 = 1 ∧
    (fftRank ![3, 4, 5] ![2, 2, 1] 2).low 1 = 2 ∧
    (∃ lib : FftLib ![3, 4, 5] ![2, 2, 1], FftLib.Correct (g := ⟨![3, 4, 5], fun _ => 1⟩)
      (fun a => by fin_cases a <;> decide) lib) ∧
    T4.Minor (isoStiffness (210 : ℝ) (3 / 10)) ∧ T4.Pos (isoStiffness (210 : ℝ) (3 / 10)) :=
  ⟨⟨fun a => by fin_cases a <;> decide, fun _ => one_pos⟩, fun a => by fin_cases a <;> decide, by decide, by decide,
    by decide, C135_library ⟨![3, 4, 5], fun _ => 1⟩ _ _ (fun a => by fin_cases a <;> decide), fun i j k l => by
      fin_cases i <;> fin_cases j <;> fin_cases k <;> fin_cases l <;> simp [isoStiffness, xid4, dde],
    C67_isotropic_positive _ _ (by norm_num) (by norm_num) (by norm_num)⟩

end Fierro
