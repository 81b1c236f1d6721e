import Verif.Model.SghWhole
import Verif.Props.SghKinematics
import Verif.Props.ThermRun

/-!
# C137: a whole run of the 3D hydrodynamics solver
-/

namespace Fierro

variable {E N : ℕ}

/-! ## The loop in closed form -/

/-- Specification: the loop variables after `k` cycles if the loop were never left. -/
noncomputable def SghJob.after (J : SghJob E N) (st : SghState ℝ E N) : ℕ → SghLoop E N
  | 0 => J.start st
  | k + 1 => J.cycle k (J.after st k)

/-- Specification: what the time step control sees in the course of the run. -/
noncomputable def SghJob.hist (J : SghJob E N) (st : SghState ℝ E N) (k : ℕ) : List (List CflElem) :=
  J.cfl (J.after st k).st

theorem tickClock_eq (o : ClockOpts) (m : List (List CflElem)) (c : ℕ) (s : Clock) :
    (tickClock o c (cycleDt o m s.time s.gtime s.dt) s).1 = clockCycle o m c s := by
  unfold tickClock clockCycle
  simp only
  split_ifs <;> rfl

theorem SghJob.after_clock (J : SghJob E N) (st : SghState ℝ E N) (k : ℕ) :
    (J.after st k).clock = clockAt J.clock (J.hist st) k := by
  induction k with
  | zero => rfl
  | succ k ih =>
    rw [clockAt, ← ih]
    exact tickClock_eq _ _ _ _

theorem SghJob.loop_spec (J : SghJob E N) (st : SghState ℝ E N) (n k : ℕ) :
    (J.loop n k (J.after st k)).1 = J.after st (J.loop n k (J.after st k)).2 ∧
    ((J.loop n k (J.after st k)).1.clock, (J.loop n k (J.after st k)).2)
      = clockLoop J.clock (J.hist st) n k (clockAt J.clock (J.hist st) k) := by
  induction n generalizing k with
  | zero => exact ⟨rfl, by rw [SghJob.loop, clockLoop, J.after_clock]⟩
  | succ n ih =>
    have hc : (J.cycle k (J.after st k)) = J.after st (k + 1) := rfl
    have hd : clockCycle J.clock (J.hist st k) k (clockAt J.clock (J.hist st) k)
      = clockAt J.clock (J.hist st) (k + 1) := rfl
    rw [SghJob.loop, clockLoop]
    simp only [hc, hd, J.after_clock]
    split_ifs with h
    · exact ⟨rfl, by rw [J.after_clock]⟩
    · exact ih (k + 1)

theorem SghJob.execute_spec (J : SghJob E N) (st : SghState ℝ E N) (r : SghEnd E N)
    (h : J.execute st = some r) :
    r.loop = J.after st r.cycles ∧ r.tally = J.tally (J.start st).st r.loop.st ∧
      Fierro.execute J.clock (J.hist st) = some (r.loop.clock, r.cycles) := by
  unfold SghJob.execute at h
  split_ifs at h with hz
  obtain ⟨h1, h2⟩ := J.loop_spec st J.clock.cycleStop 0
  cases h
  refine ⟨h1, rfl, ?_⟩
  unfold Fierro.execute
  rw [if_neg hz]
  congr 1
  exact h2.symm

/-! ## Steps -/

noncomputable def SghJob.dts (J : SghJob E N) (st : SghState ℝ E N) (n : ℕ) : List ℝ :=
  (List.range n).map fun c => J.stepOf (J.after st c)

theorem SghJob.dts_succ (J : SghJob E N) (st : SghState ℝ E N) (n : ℕ) :
    J.dts st (n + 1) = J.dts st n ++ [J.stepOf (J.after st n)] := by
  simp [SghJob.dts, List.range_succ]

theorem SghJob.dts_take (J : SghJob E N) (st : SghState ℝ E N) (n c : ℕ) (h : c ≤ n) :
    (J.dts st n).take c = J.dts st c := by
  unfold SghJob.dts
  rw [← List.map_take, List.take_range, min_eq_left h]

theorem sghRun_snoc (env : SghEnv ℝ E N) (S : ℕ) (t : ℝ) (dts : List ℝ) (dt : ℝ) (st : SghState ℝ E N) :
    sghRun env S t (dts ++ [dt]) st = sghCycle env S (t + dts.sum) dt (sghRun env S t dts st) := by
  induction dts generalizing t st with
  | nil => simp [sghRun]
  | cons d dts ih =>
    rw [List.cons_append, sghRun, ih, sghRun, List.sum_cons, add_assoc]

theorem SghJob.after_run (J : SghJob E N) (st : SghState ℝ E N) (n : ℕ) :
    (J.after st n).st = sghRun J.env J.stages J.clock.timeStart (J.dts st n) (J.start st).st ∧
    (J.after st n).clock.time = J.clock.timeStart + (J.dts st n).sum := by
  induction n with
  | zero => exact ⟨rfl, by simp [SghJob.dts, SghJob.after, SghJob.start, clockInit]⟩
  | succ n ih =>
    rw [J.dts_succ, sghRun_snoc, ← ih.1, ← ih.2]
    refine ⟨rfl, ?_⟩
    show (tickClock _ _ _ _).1.time = _
    rw [tickClock_time, ih.2, List.sum_append, List.sum_singleton, add_assoc]

/-- Specification: the frames written by a run, newest first, next to `(cycle, time)` of each.  The oldest frame is
the initial state; every other one is the state after its cycle with the time of that state; cycles increase. -/
def FramesShow {S : Type} (time : ℕ → ℝ) (state : ℕ → S) : ℕ → List (ℕ × ℝ) → List S → Prop
  | _, [], fs => fs = [state 0]
  | _, _ :: _, [] => False
  | n, (c, t) :: log, f :: fs => c < n ∧ t = time (c + 1) ∧ f = state (c + 1) ∧ FramesShow time state c log fs

theorem FramesShow.mono {S : Type} {time : ℕ → ℝ} {state : ℕ → S} {n m : ℕ} (hnm : n ≤ m) {log : List (ℕ × ℝ)}
    {fs : List S} (h : FramesShow time state n log fs) : FramesShow time state m log fs := by
  cases log with
  | nil => exact h
  | cons p log =>
    cases fs with
    | nil => exact h
    | cons f fs => exact ⟨h.1.trans_le hnm, h.2⟩

theorem FramesShow.congr {S : Type} {time time' : ℕ → ℝ} {state state' : ℕ → S} {n : ℕ} {log : List (ℕ × ℝ)}
    {fs : List S} (h : FramesShow time state n log fs) (ht : ∀ k ≤ n, time k = time' k)
    (hs : ∀ k ≤ n, state k = state' k) : FramesShow time' state' n log fs := by
  induction log generalizing n fs with
  | nil => rw [FramesShow] at h ⊢; rw [h, hs 0 (Nat.zero_le _)]
  | cons p log ih =>
    cases fs with
    | nil => exact h
    | cons f fs =>
      obtain ⟨h1, h2, h3, h4⟩ := h
      exact ⟨h1, h2.trans (ht _ h1), h3.trans (hs _ h1),
        ih h4 (fun k hk => ht k (by omega)) fun k hk => hs k (by omega)⟩

/-- Specification: the run is `dts.length` cycles of the hydrodynamics model with these steps. -/
structure SghHistory (J : SghJob E N) (st : SghState ℝ E N) (r : SghEnd E N) (dts : List ℝ) : Prop where
  count : dts.length = r.cycles
  /-- the cycles start from the given state with the boundary velocities of the start time -/
  final : r.loop.st = sghRun J.env J.stages J.clock.timeStart dts
    { st with vel := boundaryVelocity J.env.sets J.clock.timeStart st.vel }
  time : r.loop.clock.time = J.clock.timeStart + dts.sum
  limit : r.cycles ≤ J.clock.cycleStop
  ended : r.cycles = J.clock.cycleStop ∨ J.clock.timeFinal ≤ r.loop.clock.time
  notLater : ∀ c, 0 < c → c < r.cycles → timeBefore J.clock.timeStart dts c < J.clock.timeFinal
  frames : FramesShow (timeBefore J.clock.timeStart dts)
    (fun k => sghRun J.env J.stages J.clock.timeStart (dts.take k)
      { st with vel := boundaryVelocity J.env.sets J.clock.timeStart st.vel }) r.cycles r.loop.clock.log r.loop.frames
  /-- the step of each cycle keeps to the CFL condition in the state the cycle starts from -/
  stable : 0 < J.clock.fuzz → 0 ≤ J.clock.dtCfl → ∀ c (hc : c < dts.length) (q : SghState ℝ E N),
    q = sghRun J.env J.stages J.clock.timeStart (dts.take c)
      { st with vel := boundaryVelocity J.env.sets J.clock.timeStart st.vel } →
    ∀ m ∈ q.mats, ∀ p ∈ m.pts, p.eroded = false → 0 ≤ p.sspd → ∀ a b : Fin 8, a ≠ b →
      dts[c] * (p.sspd + J.clock.fuzz) ≤ J.clock.dtCfl *
        euclid (q.coords (J.env.mesh.nodesInElem p.elem a)) (q.coords (J.env.mesh.nodesInElem p.elem b)) ∨
      dts[c] ≤ J.clock.dtMin

theorem SghJob.after_frames (J : SghJob E N) (st : SghState ℝ E N) (n : ℕ) :
    FramesShow (fun k => (J.after st k).clock.time) (fun k => (J.after st k).st) n (J.after st n).clock.log
      (J.after st n).frames := by
  induction n with
  | zero => rfl
  | succ n ih =>
    show FramesShow _ _ (n + 1) (tickClock _ _ _ _).1.log (if (tickClock _ _ _ _).2 then _ else _)
    rcases tickClock_dump J.clock n (J.stepOf (J.after st n)) (J.after st n).clock with ⟨hb, hl, -⟩ | ⟨hb, hl, -⟩
    · rw [hb, hl, if_pos rfl]
      refine ⟨by omega, ?_, rfl, ih⟩
      show _ = (tickClock _ _ _ _).1.time
      rw [tickClock_time]
    · rw [hb, hl, if_neg (by simp)]
      exact ih.mono (by omega)

theorem SghJob.history (J : SghJob E N) (st : SghState ℝ E N) (r : SghEnd E N) (h : J.execute st = some r) :
    SghHistory J st r (J.dts st r.cycles) := by
  obtain ⟨h1, -, h3⟩ := J.execute_spec st r h
  obtain ⟨t1, t2, t3, t4⟩ := C15_terminates _ _ _ _ h3
  have hT : ∀ c ≤ r.cycles, (J.after st c).clock.time
      = timeBefore J.clock.timeStart (J.dts st r.cycles) c := by
    intro c hc
    rw [timeBefore, J.dts_take st _ c hc, (J.after_run st c).2]
  have hS : ∀ c ≤ r.cycles, (J.after st c).st = sghRun J.env J.stages J.clock.timeStart
      ((J.dts st r.cycles).take c) { st with vel := boundaryVelocity J.env.sets J.clock.timeStart st.vel } := by
    intro c hc
    rw [J.dts_take st _ c hc, (J.after_run st c).1]
    rfl
  refine ⟨by simp [SghJob.dts], ?_, ?_, t1, t3, ?_, ?_, ?_⟩
  · rw [h1, (J.after_run st _).1]; rfl
  · rw [h1, (J.after_run st _).2]
  · intro c hc0 hc
    rw [← hT c hc.le, J.after_clock]
    exact t4 c hc0 hc
  · have := J.after_frames st r.cycles
    rw [← h1] at this
    exact this.congr hT hS
  · intro hf hcfl c hc q hq m hm p hp hero hs a b hab
    have hc' : c < r.cycles := by simpa [SghJob.dts] using hc
    rw [← hS c hc'.le] at hq
    have hd : (J.dts st r.cycles)[c] = J.stepOf (J.after st c) := by simp [SghJob.dts]
    rw [hd]
    subst hq
    have := C13_cfl J.clock (J.cfl (J.after st c).st) (J.after st c).clock.time (J.after st c).clock.gtime
      (J.after st c).clock.dt hf hcfl _ (List.mem_map_of_mem hm) _ (List.mem_map_of_mem hp) hero hs a b a.2 b.2
      (fun e => hab (Fin.ext e))
    simpa [SghJob.elemOf, SghJob.stepOf] using this

/-- **C137.** A run of the hydrodynamics solver that ends is a number of cycles of the model, one after the other, from
the given state with the boundary velocities applied: no cycle is lost or done twice, and time is the start time plus
the steps made.  It ends after `cycle_stop` cycles or at the final time, and no cycle but the first starts after the
final time.  Each dump shows the state after its cycle with the time of that state, no cycle dumps twice, and the first
dump is the initial state.  Every step keeps to the CFL condition of the state it starts from, unless it is at most the
minimum step. -/
theorem C137_run (J : SghJob E N) (st : SghState ℝ E N) (r : SghEnd E N) (h : J.execute st = some r) :
    ∃ dts, SghHistory J st r dts := ⟨_, J.history st r h⟩

/-- **C137.** The run is defined exactly when the dump interval in cycles is not zero or no cycle is made. -/
theorem C137_defined (J : SghJob E N) (st : SghState ℝ E N) :
    (∃ r, J.execute st = some r) ↔ (J.clock.cycIval ≠ 0 ∨ J.clock.cycleStop = 0) := by
  unfold SghJob.execute
  split_ifs with h
  · simp; omega
  · simp; omega

/-! ## Progress -/

theorem sghCycle_mats_length (env : SghEnv ℝ E N) (S : ℕ) (t dt : ℝ) (st : SghState ℝ E N) :
    (sghCycle env S t dt st).mats.length = st.mats.length := by
  unfold sghCycle
  have : ∀ (l : List ℕ) (s : SghState ℝ E N), (l.foldl (fun st s => sghStage env t (rkAlpha S s) dt st) s).mats.length
      = s.mats.length := by
    intro l
    induction l with
    | nil => intro s; rfl
    | cons a l ih => intro s; rw [List.foldl_cons, ih]; simp [sghStage, saveMatForces]
  rw [this]
  simp [rkInit]

theorem SghJob.hist_ne (J : SghJob E N) (st : SghState ℝ E N) (hm : st.mats ≠ []) (c : ℕ) : J.hist st c ≠ [] := by
  have : (J.after st c).st.mats.length = st.mats.length := by
    induction c with
    | zero => rfl
    | succ c ih =>
      show (sghCycle _ _ _ _ _).mats.length = _
      rw [sghCycle_mats_length, ih]
  intro he
  have h0 : (J.cfl (J.after st c).st).length = 0 := by
    have : J.cfl (J.after st c).st = [] := he
    rw [this]; rfl
  rw [SghJob.cfl, List.length_map, this] at h0
  exact hm (List.length_eq_zero_iff.1 h0)

/-- **C137.** Every cycle makes time advance by at least a fixed amount; with a material the run does not pass the final
time by more than the tolerance; with enough cycles it reaches it, and then its last state is in the last dump. -/
theorem C137_progress (J : SghJob E N) (ho : J.clock.Sane) (hs : J.clock.timeStart < J.clock.timeFinal)
    (st : SghState ℝ E N) (r : SghEnd E N) (h : J.execute st = some r) :
    J.clock.timeStart + r.cycles * min J.clock.dtStart (min J.clock.dtMin J.clock.tiny) ≤ r.loop.clock.time ∧
    (st.mats ≠ [] → r.loop.clock.time ≤ J.clock.timeFinal + J.clock.tiny) ∧
    (J.clock.timeFinal - J.clock.timeStart ≤ J.clock.cycleStop * min J.clock.dtStart (min J.clock.dtMin J.clock.tiny) →
      J.clock.timeFinal ≤ r.loop.clock.time) ∧
    (J.clock.timeFinal ≤ r.loop.clock.time → r.loop.frames.head? = some r.loop.st) := by
  obtain ⟨h1, -, h3⟩ := J.execute_spec st r h
  obtain ⟨t1, t2, t3, t4⟩ := C15_terminates _ _ _ _ h3
  refine ⟨?_, fun hm => C15_stops_at_final _ _ (J.hist_ne st hm) hs ho.tiny.le _ _ h3,
    C15_reaches_final _ ho _ hs _ _ h3, fun hf => ?_⟩
  · have key : ∀ j ≤ r.cycles, J.clock.timeStart + j * min J.clock.dtStart (min J.clock.dtMin J.clock.tiny) ≤
        (clockAt J.clock (J.hist st) j).time := by
      intro j
      induction j with
      | zero => intro _; simp [clockAt, clockInit]
      | succ j ih =>
        intro hj
        have a := ih (by omega)
        have b := C15_time_increases J.clock ho _ hs _ _ h3 j (by omega)
        push_cast
        linarith
    rw [t2]
    exact key _ le_rfl
  · have hn : 0 < r.cycles := by
      rcases Nat.eq_zero_or_pos r.cycles with h0 | h0
      · rw [t2, h0] at hf
        exact absurd hf (not_le.2 hs)
      · exact h0
    obtain ⟨k, hk⟩ : ∃ k, r.cycles = k + 1 := ⟨r.cycles - 1, by omega⟩
    rw [hk] at h1
    rw [h1] at hf ⊢
    have hc : J.after st (k + 1) = J.cycle k (J.after st k) := rfl
    rw [hc] at hf ⊢
    have hf' : J.clock.timeFinal ≤ (tickClock J.clock k (J.stepOf (J.after st k)) (J.after st k).clock).1.time := hf
    rw [tickClock_time] at hf'
    rcases tickClock_dump J.clock k (J.stepOf (J.after st k)) (J.after st k).clock with ⟨hb, -, -⟩ | ⟨-, -, hw⟩
    · show (if (tickClock _ _ _ _).2 then _ else _ : List _).head? = _
      rw [hb]
      rfl
    · rw [writeFlag_final _ _ _ _ hf'] at hw
      cases hw

/-- **C137.** For a solver that starts at time zero and dumps by time only, every requested time the run has passed has a
dump within the tolerances, and by `C137_run` it shows the state of that time. -/
theorem C137_dump_times (J : SghJob E N) (ho : J.clock.Sane) (h0 : J.clock.timeStart = 0) (hf : 0 < J.clock.timeFinal)
    (hiv : J.clock.fuzz + J.clock.tiny < J.clock.ival) (hcy : J.clock.cycleStop < J.clock.cycIval)
    (st : SghState ℝ E N) (hm : st.mats ≠ []) (r : SghEnd E N) (h : J.execute st = some r) (k : ℕ) (hk : 1 ≤ k)
    (hks : k * J.clock.ival ≤ r.loop.clock.time) :
    ∃ p ∈ r.loop.clock.log, k * J.clock.ival ≤ p.2 ∧ p.2 ≤ k * J.clock.ival + J.clock.fuzz + J.clock.tiny :=
  C40_dumps_at_requested_times J.clock ho h0 hf hiv hcy (J.hist st) (J.hist_ne st hm) _ _
    (J.execute_spec st r h).2.2 k hk hks

/-! ## What the run prints -/

theorem sghCycle_mass (env : SghEnv ℝ E N) (hlaw : env.closures.Lawful) (S : ℕ) (t dt : ℝ) (st : SghState ℝ E N) :
    materialMass (sghCycle env S t dt st).mats = materialMass st.mats := by
  have hmap : ∀ (mats : List (Mat ℝ E)) (g : Mat ℝ E → MatPt ℝ E → MatPt ℝ E), (∀ m p, (g m p).mass = p.mass) →
      materialMass (mats.map fun m => { m with pts := m.pts.map (g m) }) = materialMass mats := by
    intro mats g hg
    unfold materialMass
    rw [List.map_map]
    congr 1
    refine List.map_congr_left fun m _ => ?_
    simp [Function.comp_def, hg]
  have : ∀ (l : List ℕ) (s : SghState ℝ E N),
      materialMass (l.foldl (fun st s => sghStage env t (rkAlpha S s) dt st) s).mats = materialMass s.mats := by
    intro l
    induction l with
    | nil => intro s; rfl
    | cons a l ih =>
      intro s
      rw [List.foldl_cons, ih]
      obtain ⟨g, hg, hgm⟩ := sghStage_mats env hlaw t (rkAlpha S a) dt s
      rw [hgm, hmap _ _ fun m p => (hg m p).2.1]
  unfold sghCycle
  rw [this]
  exact hmap st.mats (fun _ p => { p with sieN0 := p.sie, stressN0 := p.stress }) fun _ _ => rfl

/-- **C137.** The mass errors printed at the end are zero, whatever the run did: material models do not change masses,
and nodal masses set up from the material masses add up to them. -/
theorem C137_masses (J : SghJob E N) (hWF : J.env.mesh.WF) (hlaw : J.env.closures.Lawful) (st : SghState ℝ E N)
    (r : SghEnd E N) (h : J.execute st = some r) :
    r.tally.matMass = 0 ∧ r.tally.nodeMass = 0 ∧
      (J.env.mass = nodeMass J.env.mesh (cornerMass st.mats) → r.tally.nodeMat = 0) := by
  obtain ⟨-, h2, -⟩ := J.execute_spec st r h
  have H := J.history st r h
  have hm : materialMass r.loop.st.mats = materialMass st.mats := by
    rw [H.final]
    exact sghRun_induct J.env J.stages (fun s => materialMass s.mats = materialMass st.mats)
      (fun t dt s hs => (sghCycle_mass J.env hlaw J.stages t dt s).trans hs) _ _ _ rfl
  rw [h2]
  refine ⟨?_, sub_self _, fun hn => ?_⟩
  · show materialMass r.loop.st.mats - materialMass st.mats = 0
    rw [hm, sub_self]
  · show (∑ n, J.env.mass n) - materialMass r.loop.st.mats = 0
    rw [hn, C12_node_mass_total (by norm_num) J.env.mesh hWF, hm, sub_self]

/-- **C137.** Between fixed walls and symmetry planes and without applied forces the energy change printed at the end is
zero but for the safeguard 1e-20 of the division by the mass: it is minus 1e-20 times the change of the sum of the
specific energies.  Nodes on walls need not start at rest.  Each element holds one material, which may erode. -/
theorem C137_energy (J : SghJob E N) (hWF : J.env.mesh.WF) (hm : ∀ n, J.env.mass n ≠ 0)
    (hlaw : J.env.closures.Lawful) (hext : ∀ st t n d, J.env.ext st t n d = 0) (Z : Fin N → Fin 3 → Bool)
    (hZ : ClampSets J.env.sets Z) (hS : 0 < J.stages) (st : SghState ℝ E N) (hmass : MassOK st.mats)
    (hone : ((st.mats.flatMap fun m => m.pts).map fun p => p.elem).Nodup) (r : SghEnd E N)
    (h : J.execute st = some r) :
    r.tally.change = - (1 / 10 ^ 20 * ((r.loop.st.mats.map fun m => (m.pts.map fun p => p.sie).sum).sum
      - (st.mats.map fun m => (m.pts.map fun p => p.sie).sum).sum)) := by
  obtain ⟨-, h2, -⟩ := J.execute_spec st r h
  have H := J.history st r h
  have e := C11_run_conserves (by norm_num) J.env hWF hm hlaw hext Z hZ J.stages hS J.clock.timeStart
    (J.dts st r.cycles) { st with vel := boundaryVelocity J.env.sets J.clock.timeStart st.vel } hmass hone
    (fun n d hnd => by show boundaryVelocity _ _ _ n d = 0; rw [hZ, if_pos hnd])
  rw [← H.final] at e
  have p0 := C11_printed_energy J.env.mass (J.start st).st
  have p1 := C11_printed_energy J.env.mass r.loop.st
  have s0 : sumPts (J.start st).st.mats (fun p => p.sie) = (st.mats.map fun m => (m.pts.map fun p => p.sie).sum).sum := rfl
  have s1 : sumPts r.loop.st.mats (fun p => p.sie)
    = (r.loop.st.mats.map fun m => (m.pts.map fun p => p.sie).sum).sum := rfl
  have e' : totalEnergy J.env.mass r.loop.st = totalEnergy J.env.mass (J.start st).st := e
  rw [← s0, ← s1]
  rw [h2]
  show (internalEnergy r.loop.st.mats + kineticEnergy J.env.mass r.loop.st.vel)
    - (internalEnergy (J.start st).st.mats + kineticEnergy J.env.mass (J.start st).st.vel) = _
  have : (energyFuzz : ℝ) = 1 / 10 ^ 20 := rfl
  rw [← this]
  linarith

/-- **C137.** The energies printed at the end are those of the first dump (initial state with boundary velocities) and of
the last state: half mass times velocity squared over the nodes, mass times specific energy over the material points. -/
theorem C137_printed (J : SghJob E N) (st : SghState ℝ E N) (r : SghEnd E N) (h : J.execute st = some r) :
    ∃ f, r.loop.frames.getLast? = some f ∧
      f = { st with vel := boundaryVelocity J.env.sets J.clock.timeStart st.vel } ∧
      r.tally.keStart = ∑ n, 1 / 2 * J.env.mass n * ∑ d, f.vel n d ^ 2 ∧
      r.tally.keEnd = ∑ n, 1 / 2 * J.env.mass n * ∑ d, r.loop.st.vel n d ^ 2 ∧
      r.tally.ieStart = (f.mats.map fun m => (m.pts.map fun p => p.mass * p.sie).sum).sum ∧
      r.tally.ieEnd = (r.loop.st.mats.map fun m => (m.pts.map fun p => p.mass * p.sie).sum).sum ∧
      r.tally.change = (r.tally.keEnd + r.tally.ieEnd) - (r.tally.keStart + r.tally.ieStart) := by
  obtain ⟨h1, h2, -⟩ := J.execute_spec st r h
  have hk : ∀ v : Fin N → Fin 3 → ℝ, kineticEnergy J.env.mass v = ∑ n, 1 / 2 * J.env.mass n * ∑ d, v n d ^ 2 := by
    intro v
    unfold kineticEnergy
    rw [Finset.mul_sum]
    refine Finset.sum_congr rfl fun n _ => ?_
    simp only [Fin.sum_univ_three]
    ring
  have hl : ∀ k, (J.after st k).frames.getLast? = some (J.start st).st := by
    intro k
    induction k with
    | zero => rfl
    | succ k ih =>
      show (if _ then _ else _ : List _).getLast? = _
      split_ifs
      · rw [List.getLast?_cons]
        show some ((J.after st k).frames.getLast?.getD _) = _
        rw [ih]; rfl
      · exact ih
  refine ⟨_, by rw [h1]; exact hl _, rfl, ?_, ?_, ?_, ?_, ?_⟩
  · rw [h2]; exact hk _
  · rw [h2]; exact hk _
  · rw [h2]; rfl
  · rw [h2]; rfl
  · rw [h2]
    show (_ + _) - (_ + _) = (_ : ℝ)
    simp only [SghJob.tally]
    ring

/-- **C137.** A component of the momentum that no boundary set clamps is the same at the end of the run as before it. -/
theorem C137_momentum (J : SghJob E N) (hWF : J.env.mesh.WF) (hm : ∀ n, J.env.mass n ≠ 0)
    (hdisp : DispNeutral J.env.closures) (hext : ∀ st t n d, J.env.ext st t n d = 0) (Z : Fin N → Fin 3 → Bool)
    (hZ : ClampSets J.env.sets Z) (d : Fin 3) (hd : ∀ n, Z n d = false) (hS : 0 < J.stages) (st : SghState ℝ E N)
    (r : SghEnd E N) (h : J.execute st = some r) :
    ∑ n, J.env.mass n * r.loop.st.vel n d = ∑ n, J.env.mass n * st.vel n d := by
  have H := J.history st r h
  have e := C10_run_conserves J.env hWF hm hdisp hext Z hZ d hd J.stages hS J.clock.timeStart (J.dts st r.cycles)
    { st with vel := boundaryVelocity J.env.sets J.clock.timeStart st.vel }
  rw [← H.final] at e
  unfold momentum at e
  rw [e]
  refine Finset.sum_congr rfl fun n _ => ?_
  show _ * boundaryVelocity _ _ _ n d = _
  rw [hZ, hd]
  simp

/-! ## Boundary velocities -/

theorem SghJob.late (J : SghJob E N) (hS : 0 < J.stages) (st : SghState ℝ E N) (c : ℕ) :
    ∃ w, (J.after st (c + 1)).st.vel = boundaryVelocity J.env.sets (J.after st c).clock.time w := by
  by_cases hN : Nonempty (Fin N)
  · obtain ⟨n⟩ := hN
    obtain ⟨-, st', hv⟩ := C49_cycle J.env J.stages hS (J.after st c).clock.time (J.stepOf (J.after st c))
      (J.after st c).st n 0
    exact ⟨_, hv⟩
  · refine ⟨fun _ _ => 0, funext fun n => absurd ⟨n⟩ hN⟩

/-- **C137.** In every state of the run after a cycle, dumped or not, the velocities satisfy the boundary conditions of
the time at which that cycle *started*.  In particular a node whose last set holds it at rest or moves it with constant
velocity has that velocity in every dump. -/
theorem C137_boundary (J : SghJob E N) (hS : 0 < J.stages) (st : SghState ℝ E N) (r : SghEnd E N)
    (h : J.execute st = some r) : ∃ dts, SghHistory J st r dts ∧ ∀ c < r.cycles, ∃ w,
      (sghRun J.env J.stages J.clock.timeStart (dts.take (c + 1))
        { st with vel := boundaryVelocity J.env.sets J.clock.timeStart st.vel }).vel
      = boundaryVelocity J.env.sets (timeBefore J.clock.timeStart dts c) w := by
  refine ⟨_, J.history st r h, fun c hc => ?_⟩
  obtain ⟨w, hw⟩ := J.late hS st c
  refine ⟨w, ?_⟩
  rw [J.dts_take st _ _ hc, timeBefore, J.dts_take st _ _ hc.le, ← (J.after_run st c).2, ← hw,
    (J.after_run st (c + 1)).1]
  rfl

/-- A job on one hexahedron without material: steps of length one. -/
noncomputable def bareJob (sets : List (VelSet (Fin 8) ℝ 3)) (tf : ℝ) (stages cycles : ℕ) : SghJob 1 8 where
  env := { mesh := oneHex, mass := fun _ => 1, sets := sets, ext := fun _ _ _ _ => 0,
           closures := { disp := fun _ _ _ _ _ => 0, update := fun _ _ _ p => p } }
  clock := { timeStart := 0, timeFinal := tf, dtStart := 1, dtMin := 1, dtMax := 1, dtCfl := 1, fuzz := 1, tiny := 1,
             ival := 1, cycIval := 1, cycleStop := cycles }
  stages := stages

/-- All nodes at the origin (their places play no role) with velocity `v` along the first axis. -/
noncomputable def bareState (v : ℝ) : SghState ℝ 1 8 where
  coords := fun _ _ => 0
  coordsN0 := fun _ _ => 0
  vel := fun _ d => if d = 0 then v else 0
  velN0 := fun _ _ => 0
  mats := []

theorem SghJob.execute_one (J : SghJob E N) (hc : J.clock.cycleStop = 1) (hi : J.clock.cycIval ≠ 0)
    (st : SghState ℝ E N) :
    ∃ r, J.execute st = some r ∧ r.loop = J.cycle 0 (J.start st) ∧ r.cycles = 1 := by
  have hl : J.loop 1 0 (J.start st) = (J.cycle 0 (J.start st), 1) := by
    rw [SghJob.loop]
    split_ifs <;> rfl
  refine ⟨_, if_neg (fun h => hi h.1), ?_, ?_⟩
  · rw [hc, hl]
  · rw [hc, hl]

theorem bareJob_one (sets : List (VelSet (Fin 8) ℝ 3)) (tf : ℝ) (stages : ℕ) (st : SghState ℝ 1 8) :
    ∃ r, (bareJob sets tf stages 1).execute st = some r ∧
      r.loop = (bareJob sets tf stages 1).cycle 0 ((bareJob sets tf stages 1).start st) ∧ r.cycles = 1 :=
  SghJob.execute_one _ rfl (by simp [bareJob]) _

theorem bareJob_step (sets : List (VelSet (Fin 8) ℝ 3)) (tf : ℝ) (stages cycles : ℕ) (v : ℝ) :
    (bareJob sets tf stages cycles).stepOf ((bareJob sets tf stages cycles).start (bareState v)) = 1 := rfl

/-- **C137 (what fails: prescribed velocities are late).**  A piston with velocity `t` at time `t` has velocity 0 in the
dump of time 1 that follows a first step of length 1, and has not moved, instead of velocity 1 and a way of 1/2: every
stage of a cycle uses the boundary condition of the start of the cycle. -/
theorem C137_prescribed_fails : ∃ (J : SghJob 1 8) (st : SghState ℝ 1 8) (r : SghEnd 1 8),
    J.env.sets = [⟨List.finRange 8, pistonVelBC ![1, 0, 0] 0 1 0 0 10⟩] ∧ J.execute st = some r ∧
      r.loop.clock.time = 1 ∧ r.loop.frames.head? = some r.loop.st ∧
      (∀ v : Vel ℝ 3, pistonVelBC ![1, 0, 0] 0 1 0 0 10 1 v 0 = 1) ∧
      (∀ n, r.loop.st.vel n 0 = 0) ∧ ∀ n, r.loop.st.coords n 0 = st.coords n 0 := by
  obtain ⟨r, h, h1, -⟩ := bareJob_one [⟨List.finRange 8, pistonVelBC ![1, 0, 0] 0 1 0 0 10⟩] 1 1 (bareState 0)
  have hp : ∀ (w : Fin 8 → Vel ℝ 3) n,
      boundaryVelocity [⟨List.finRange 8, pistonVelBC ![1, 0, 0] 0 1 0 0 10⟩] 0 w n 0 = 0 := by
    intro w n
    have e : boundaryVelocity [⟨List.finRange 8, pistonVelBC ![1, 0, 0] 0 1 0 0 10⟩] 0 w n
        = pistonVelBC ![1, 0, 0] 0 1 0 0 10 0 (w n) :=
      applySet_of_mem _ _ (List.nodup_finRange 8) w n (List.mem_finRange n)
    rw [e]
    simp [pistonVelBC, Fin.sum_univ_three]
  have hd := bareJob_step [⟨List.finRange 8, pistonVelBC ![1, 0, 0] 0 1 0 0 10⟩] 1 1 1 0
  have hv : ∀ n, r.loop.st.vel n 0 = 0 := by
    intro n
    obtain ⟨w, hw⟩ := (bareJob [⟨List.finRange 8, pistonVelBC ![1, 0, 0] 0 1 0 0 10⟩] 1 1 1).late
      (by simp [bareJob]) (bareState 0) 0
    rw [h1]
    exact (congrFun (congrFun hw n) 0).trans (hp w n)
  have ht : r.loop.clock.time = 1 := by
    rw [h1]
    show (tickClock _ _ _ _).1.time = 1
    rw [tickClock_time, hd]
    simp [bareJob, SghJob.start, clockInit]
  refine ⟨_, _, r, rfl, h, ht, ?_, fun v => ?_, hv, fun n => ?_⟩
  · refine (C137_progress _ ?_ ?_ _ _ h).2.2.2 ?_
    · constructor <;> simp [bareJob]
    · simp [bareJob]
    · rw [ht]; simp [bareJob]
  · simp [pistonVelBC, Fin.sum_univ_three]
  · have := (C49_cycle (bareJob [⟨List.finRange 8, pistonVelBC ![1, 0, 0] 0 1 0 0 10⟩] 1 1 1).env 1 one_pos
      ((bareJob [⟨List.finRange 8, pistonVelBC ![1, 0, 0] 0 1 0 0 10⟩] 1 1 1).start (bareState 0)).clock.time
      ((bareJob [⟨List.finRange 8, pistonVelBC ![1, 0, 0] 0 1 0 0 10⟩] 1 1 1).stepOf
        ((bareJob [⟨List.finRange 8, pistonVelBC ![1, 0, 0] 0 1 0 0 10⟩] 1 1 1).start (bareState 0)))
      ((bareJob [⟨List.finRange 8, pistonVelBC ![1, 0, 0] 0 1 0 0 10⟩] 1 1 1).start (bareState 0)).st n 0).1
    have hv' := hv n
    rw [h1] at hv' ⊢
    refine Eq.trans this ?_
    have e0 : ((bareJob [⟨List.finRange 8, pistonVelBC ![1, 0, 0] 0 1 0 0 10⟩] 1 1 1).start (bareState 0)).st.vel n 0 = 0 :=
      hp _ n
    rw [e0]
    have e1 : (sghCycle (bareJob [⟨List.finRange 8, pistonVelBC ![1, 0, 0] 0 1 0 0 10⟩] 1 1 1).env 1
      ((bareJob [⟨List.finRange 8, pistonVelBC ![1, 0, 0] 0 1 0 0 10⟩] 1 1 1).start (bareState 0)).clock.time
      ((bareJob [⟨List.finRange 8, pistonVelBC ![1, 0, 0] 0 1 0 0 10⟩] 1 1 1).stepOf
        ((bareJob [⟨List.finRange 8, pistonVelBC ![1, 0, 0] 0 1 0 0 10⟩] 1 1 1).start (bareState 0)))
      ((bareJob [⟨List.finRange 8, pistonVelBC ![1, 0, 0] 0 1 0 0 10⟩] 1 1 1).start (bareState 0)).st).vel n 0 = 0 := hv'
    rw [e1]
    show (bareState 0).coords n 0 + _ = _
    simp

/-- **C137 (what fails: no stages).**  With `rk_num_stages: 0`, which the input allows, nothing moves while time runs to
the end: the dumps of all times show the initial state. -/
theorem C137_no_stages_fails (J : SghJob E N) (hS : J.stages = 0) (st : SghState ℝ E N) (r : SghEnd E N)
    (h : J.execute st = some r) : r.loop.st.coords = st.coords ∧
      r.loop.st.vel = boundaryVelocity J.env.sets J.clock.timeStart st.vel ∧
      ∀ f ∈ r.loop.frames, f.coords = st.coords := by
  have key : ∀ k, (J.after st k).st.coords = st.coords ∧
      (J.after st k).st.vel = boundaryVelocity J.env.sets J.clock.timeStart st.vel ∧
      ∀ f ∈ (J.after st k).frames, f.coords = st.coords := by
    intro k
    induction k with
    | zero => exact ⟨rfl, rfl, fun f hf => by rw [List.mem_singleton.1 hf]⟩
    | succ k ih =>
      have e : (J.after st (k + 1)).st = rkInit (J.after st k).st := by
        show sghCycle _ _ _ _ _ = _
        rw [hS]
        rfl
      refine ⟨by rw [e]; exact ih.1, by rw [e]; exact ih.2.1, fun f hf => ?_⟩
      have hf' : f ∈ (if (tickClock J.clock k (J.stepOf (J.after st k)) (J.after st k).clock).2
        then (J.after st (k + 1)).st :: (J.after st k).frames else (J.after st k).frames) := hf
      split_ifs at hf'
      · rcases List.mem_cons.1 hf' with rfl | hf'
        · rw [e]; exact ih.1
        · exact ih.2.2 f hf'
      · exact ih.2.2 f hf'
  rw [(J.execute_spec st r h).1]
  exact key _

/-! ## Several solvers -/

/-- Specification: `rs` are runs of the job in the windows `ws`, each from the state the one before has left. -/
inductive SghChain (J : SghJob E N) : List Window → SghState ℝ E N → List (SghEnd E N) → Prop
  | nil (st) : SghChain J [] st []
  | cons (w ws st r rs) : (J.inWindow w).execute st = some r → SghChain J ws r.loop.st rs →
      SghChain J (w :: ws) st (r :: rs)

theorem SghJob.chain_spec (J : SghJob E N) (ws : List Window) (st : SghState ℝ E N) (rs : List (SghEnd E N))
    (h : J.chain ws st = some rs) : SghChain J ws st rs := by
  induction ws generalizing st rs with
  | nil => cases h; exact .nil st
  | cons w ws ih =>
    rw [SghJob.chain] at h
    cases hr : (J.inWindow w).execute st with
    | none => rw [hr] at h; cases h
    | some r =>
      rw [hr] at h
      obtain ⟨rs', h', rfl⟩ := Option.map_eq_some_iff.1 h
      exact .cons w ws st r rs' hr (ih _ _ h')

theorem SghJob.execute_conserves (J : SghJob E N) (hWF : J.env.mesh.WF) (hm : ∀ n, J.env.mass n ≠ 0)
    (hlaw : J.env.closures.Lawful) (hext : ∀ st t n d, J.env.ext st t n d = 0) (Z : Fin N → Fin 3 → Bool)
    (hZ : ClampSets J.env.sets Z) (hS : 0 < J.stages) (st : SghState ℝ E N) (hmass : MassOK st.mats)
    (hone : ((st.mats.flatMap fun m => m.pts).map fun p => p.elem).Nodup) (r : SghEnd E N)
    (h : J.execute st = some r) :
    totalEnergy J.env.mass r.loop.st = totalEnergy J.env.mass { st with vel := fun n d => if Z n d then 0 else st.vel n d } ∧
      (∀ n d, Z n d = true → r.loop.st.vel n d = 0) := by
  have H := J.history st r h
  have hv : boundaryVelocity J.env.sets J.clock.timeStart st.vel = fun n d => if Z n d then 0 else st.vel n d := by
    funext n d; rw [hZ]
  have e := C11_run_conserves (by norm_num) J.env hWF hm hlaw hext Z hZ J.stages hS J.clock.timeStart
    (J.dts st r.cycles) { st with vel := boundaryVelocity J.env.sets J.clock.timeStart st.vel } hmass hone
    (fun n d hnd => by show boundaryVelocity _ _ _ n d = 0; rw [hZ, if_pos hnd])
  rw [← H.final, hv] at e
  refine ⟨e, fun n d hn => ?_⟩
  rw [H.final]
  exact (C49_wall_nodes_stay J.env Z hZ J.stages hS J.clock.timeStart _ _ n d hn (by
    show boundaryVelocity _ _ _ n d = 0; rw [hZ, if_pos hn])).2

theorem SghJob.after_mats_length (J : SghJob E N) (st : SghState ℝ E N) (c : ℕ) :
    (J.after st c).st.mats.length = st.mats.length := by
  induction c with
  | zero => rfl
  | succ c ih =>
    show (sghCycle _ _ _ _ _).mats.length = _
    rw [sghCycle_mats_length, ih]

/-- Each window starts where the one before ends, the first at `a`. -/
def Linked (a : ℝ) : List Window → Prop
  | [] => True
  | w :: ws => w.start = a ∧ Linked w.stop ws

theorem linked_later (tf : ℝ) (w : Window) (ts : List ℝ) : Linked w.stop (laterWindows tf w ts) := by
  induction ts generalizing w with
  | nil => trivial
  | cons t ts ih => exact ⟨rfl, ih _⟩

theorem linked_windows (tf : ℝ) (ends : List ℝ) : Linked 0 (solverWindows tf ends) := by
  cases ends with
  | nil => trivial
  | cons t ts => exact ⟨rfl, linked_later tf _ ts⟩

/-- The time simulated by each solver of a chain. -/
def spans (ws : List Window) (rs : List (SghEnd E N)) : List ℝ :=
  List.zipWith (fun w r => r.loop.clock.time - w.start) ws rs

theorem chain_time (J : SghJob E N) (hJ : J.clock.Sane) {ws : List Window} {st : SghState ℝ E N}
    {rs : List (SghEnd E N)} (h : SghChain J ws st rs) (hm : st.mats ≠ []) (a : ℝ) (hl : Linked a ws)
    (hw : ∀ w ∈ ws, w.start < w.stop)
    (hr : List.Forall₂ (fun w (r : SghEnd E N) => w.stop ≤ r.loop.clock.time) ws rs) :
      ((ws.getLast?.map Window.stop).getD a) - a ≤ (spans ws rs).sum ∧
      (spans ws rs).sum ≤ ((ws.getLast?.map Window.stop).getD a) - a + rs.length * J.clock.tiny := by
  induction h generalizing a with
  | nil st => exact ⟨by simp [spans], by simp [spans]⟩
  | cons w ws st r rs hex hch ih =>
    obtain ⟨l1, l2⟩ := hl
    cases hr with
    | cons r1 r2 =>
    have hw0 := hw w List.mem_cons_self
    have hm' : r.loop.st.mats ≠ [] := by
      intro he
      have := (J.inWindow w).after_mats_length st r.cycles
      rw [← ((J.inWindow w).execute_spec st r hex).1, he] at this
      exact hm (List.length_eq_zero_iff.1 this.symm)
    obtain ⟨s2, s3⟩ := ih hm' w.stop l2 (fun v hv => hw v (List.mem_cons_of_mem _ hv)) r2
    have hs : (J.inWindow w).clock.Sane := ⟨hJ.dtStart, hJ.dtMin, hJ.dtMax, hJ.fuzz, hJ.tiny, hJ.cfl⟩
    have hp := (C137_progress (J.inWindow w) hs hw0 st r hex).2.1 hm
    have hp' : r.loop.clock.time ≤ w.stop + J.clock.tiny := hp
    have hlast : (((w :: ws).getLast?.map Window.stop).getD a) = ((ws.getLast?.map Window.stop).getD w.stop) := by
      rw [List.getLast?_cons]
      cases ws.getLast? <;> rfl
    have e : (spans (w :: ws) (r :: rs)).sum = (r.loop.clock.time - w.start) + (spans ws rs).sum := by
      simp [spans]
    rw [hlast, e, List.length_cons]
    push_cast
    constructor <;> linarith

/-- **C137 (chain).**  Hydrodynamics solvers in the windows the driver gives them run one after the other, each from the
state the one before has left, and each is a run as described above.  If each reaches the end of its window, the time
simulated by all of them together is the end of the last window, within one tolerance for each solver. -/
theorem C137_chain (J : SghJob E N) (hJ : J.clock.Sane) (tf : ℝ) (ends : List ℝ) (st : SghState ℝ E N)
    (hm : st.mats ≠ []) (rs : List (SghEnd E N)) (h : J.chain (solverWindows tf ends) st = some rs) :
    SghChain J (solverWindows tf ends) st rs ∧
    ∀ last, (solverWindows tf ends).getLast? = some last →
      (∀ w ∈ solverWindows tf ends, w.start < w.stop) →
      List.Forall₂ (fun w (r : SghEnd E N) => w.stop ≤ r.loop.clock.time) (solverWindows tf ends) rs →
      last.stop ≤ (spans (solverWindows tf ends) rs).sum ∧
        (spans (solverWindows tf ends) rs).sum ≤ last.stop + rs.length * J.clock.tiny := by
  have hc := J.chain_spec _ _ _ h
  refine ⟨hc, fun last hl hw hr => ?_⟩
  have := chain_time J hJ hc hm 0 (linked_windows tf ends) hw hr
  rw [hl] at this
  simpa using this

/-- Element and mass of all material points. -/
def ptData (mats : List (Mat ℝ E)) : List (List (Fin E × ℝ)) := mats.map fun m => m.pts.map fun p => (p.elem, p.mass)

theorem sghCycle_ptData (env : SghEnv ℝ E N) (hlaw : env.closures.Lawful) (S : ℕ) (t dt : ℝ) (st : SghState ℝ E N) :
    ptData (sghCycle env S t dt st).mats = ptData st.mats := by
  have hmap : ∀ (mats : List (Mat ℝ E)) (g : Mat ℝ E → MatPt ℝ E → MatPt ℝ E),
      (∀ m p, (g m p).elem = p.elem ∧ (g m p).mass = p.mass) →
      ptData (mats.map fun m => { m with pts := m.pts.map (g m) }) = ptData mats := by
    intro mats g hg
    unfold ptData
    rw [List.map_map]
    refine List.map_congr_left fun m _ => ?_
    simp [Function.comp_def, hg]
  have : ∀ (l : List ℕ) (s : SghState ℝ E N),
      ptData (l.foldl (fun st s => sghStage env t (rkAlpha S s) dt st) s).mats = ptData s.mats := by
    intro l
    induction l with
    | nil => intro s; rfl
    | cons a l ih =>
      intro s
      rw [List.foldl_cons, ih]
      obtain ⟨g, hg, hgm⟩ := sghStage_mats env hlaw t (rkAlpha S a) dt s
      rw [hgm, hmap _ _ fun m p => ⟨(hg m p).1, (hg m p).2.1⟩]
  unfold sghCycle
  rw [this]
  exact hmap st.mats (fun _ p => { p with sieN0 := p.sie, stressN0 := p.stress }) fun _ _ => ⟨rfl, rfl⟩

theorem massOK_iff (mats : List (Mat ℝ E)) : MassOK mats ↔ ∀ l ∈ ptData mats, ∀ q ∈ l, q.2 + energyFuzz ≠ 0 := by
  constructor
  · intro h l hl q hq
    obtain ⟨m, hm, rfl⟩ := List.mem_map.1 hl
    obtain ⟨p, hp, rfl⟩ := List.mem_map.1 hq
    exact h m hm p hp
  · intro h m hm p hp
    exact h _ (List.mem_map_of_mem hm) _ (List.mem_map_of_mem hp)

theorem elems_eq (mats : List (Mat ℝ E)) :
    ((mats.flatMap fun m => m.pts).map fun p => p.elem) = (ptData mats).flatten.map Prod.fst := by
  unfold ptData
  induction mats with
  | nil => rfl
  | cons m mats ih =>
    rw [List.flatMap_cons, List.map_append, ih, List.map_cons, List.flatten_cons, List.map_append]
    simp [Function.comp_def]

/-- **C137 (chain).**  Between fixed walls and without applied forces, kinetic plus internal energy (with the safeguarded
mass) is the same after each of the solvers; handing over from one to the next changes nothing. -/
theorem C137_chain_energy (J : SghJob E N) (hWF : J.env.mesh.WF) (hm : ∀ n, J.env.mass n ≠ 0)
    (hlaw : J.env.closures.Lawful) (hext : ∀ st t n d, J.env.ext st t n d = 0) (Z : Fin N → Fin 3 → Bool)
    (hZ : ClampSets J.env.sets Z) (hS : 0 < J.stages) (ws : List Window) (st : SghState ℝ E N)
    (hmass : MassOK st.mats) (hone : ((st.mats.flatMap fun m => m.pts).map fun p => p.elem).Nodup)
    (rs : List (SghEnd E N)) (h : J.chain ws st = some rs) :
    ∀ r ∈ rs, totalEnergy J.env.mass r.loop.st
      = totalEnergy J.env.mass { st with vel := fun n d => if Z n d then 0 else st.vel n d } := by
  have hc := J.chain_spec _ _ _ h
  clear h
  induction hc with
  | nil st => intro r hr; cases hr
  | cons w ws st r rs hex hch ih =>
    obtain ⟨e1, e2⟩ := (J.inWindow w).execute_conserves hWF hm hlaw hext Z hZ hS st hmass hone r hex
    have hd : ptData r.loop.st.mats = ptData st.mats := by
      rw [((J.inWindow w).history st r hex).final]
      exact sghRun_induct J.env J.stages (fun s => ptData s.mats = ptData st.mats)
        (fun t dt s hs => (sghCycle_ptData J.env hlaw J.stages t dt s).trans hs) _ _ _ rfl
    have hcl : { r.loop.st with vel := fun n d => if Z n d then 0 else r.loop.st.vel n d } = r.loop.st := by
      have : (fun n d => if Z n d then 0 else r.loop.st.vel n d) = r.loop.st.vel := by
        funext n d
        split_ifs with hz
        · exact (e2 n d hz).symm
        · rfl
      rw [this]
    have ih' := ih ((massOK_iff _).2 (by rw [hd]; exact (massOK_iff _).1 hmass))
      (by rw [elems_eq, hd, ← elems_eq]; exact hone)
    rw [hcl] at ih'
    intro q hq
    rcases List.mem_cons.1 hq with rfl | hq
    · exact e1
    · exact (ih' q hq).trans e1

/-- **C137 (what fails: time that is never simulated).**  A solver that stops because of `cycle_stop` leaves the rest of
its window undone, but the next solver takes the end of the window as its start time: with steps of length 1, one cycle
per solver and windows 0–2 and 2–4, nodes that move freely with velocity 1 are at 2 in the dump of time 3. -/
theorem C137_chain_gap_fails : ∃ (J : SghJob 1 8) (st : SghState ℝ 1 8) (r1 r2 : SghEnd 1 8),
    J.env.sets = [] ∧ (∀ s t n d, J.env.ext s t n d = 0) ∧ st.mats = [] ∧
    solverWindows 4 [2, 4] = [⟨0, 2⟩, ⟨2, 4⟩] ∧ J.chain (solverWindows 4 [2, 4]) st = some [r1, r2] ∧
    r1.loop.clock.time = 1 ∧ r2.loop.clock.time = 3 ∧ r2.loop.frames.head? = some r2.loop.st ∧
    ∀ n, st.coords n 0 = 0 ∧ st.vel n 0 = 1 ∧ r2.loop.st.vel n 0 = 1 ∧ r2.loop.st.coords n 0 = 2 := by
  have hw : solverWindows 4 [2, 4] = [⟨0, 2⟩, ⟨2, 4⟩] := by
    simp [solverWindows, laterWindows, firstWindow, nextWindow]; norm_num
  let J := bareJob [] 4 1 1
  have one : ∀ (w : Window) (st : SghState ℝ 1 8), st.mats = [] → ∃ r, (J.inWindow w).execute st = some r ∧
      r.loop = (J.inWindow w).cycle 0 ((J.inWindow w).start st) ∧
      r.loop.clock.time = w.start + 1 ∧ r.loop.st.mats = [] ∧
      (∀ n, r.loop.st.coords n 0 = st.coords n 0 + st.vel n 0 ∧ r.loop.st.vel n 0 = st.vel n 0) := by
    intro w st hst
    obtain ⟨r, h, h1, h2⟩ := (J.inWindow w).execute_one rfl (by simp [J, SghJob.inWindow, bareJob]) st
    have hd : (J.inWindow w).stepOf ((J.inWindow w).start st) = 1 := by
      unfold SghJob.stepOf SghJob.cfl
      have : ((J.inWindow w).start st).st.mats = [] := hst
      rw [this]
      rfl
    have hl := (J.inWindow w).after_mats_length st 1
    have hl' : r.loop.st.mats.length = 0 := by rw [h1]; exact hl.trans (by rw [hst]; rfl)
    refine ⟨r, h, h1, ?_, List.length_eq_zero_iff.1 hl', fun n => ?_⟩
    · rw [h1]
      show (tickClock _ _ _ _).1.time = _
      rw [tickClock_time, hd]
      rfl
    · have := C49_free_flight (by norm_num) J.env 1 one_pos w.start [1] ((J.inWindow w).start st).st n 0
        (by simp [J, bareJob]) (fun s => s.mats = []) hst (fun s hs => by simp [rkInit, hs])
        (fun t a dt s hs => by simp [sghStage, saveMatForces, hs]) (fun s hs t => by
          simp [nodeForceTotal_eq, cornerForces, hs, J, bareJob])
      have e : r.loop.st = sghRun J.env 1 w.start [1] ((J.inWindow w).start st).st := by
        rw [h1]
        show sghCycle _ _ _ ((J.inWindow w).stepOf ((J.inWindow w).start st)) _ = _
        rw [hd]
        rfl
      rw [e, this.1, this.2]
      show st.coords n 0 + st.vel n 0 * _ = _ ∧ st.vel n 0 = _
      simp
  obtain ⟨r1, a1, -, a2, a3, a4⟩ := one ⟨0, 2⟩ (bareState 1) rfl
  obtain ⟨r2, b1, b0, b2, b3, b4⟩ := one ⟨2, 4⟩ r1.loop.st a3
  refine ⟨J, bareState 1, r1, r2, rfl, fun _ _ _ _ => rfl, rfl, hw, ?_, by rw [a2]; norm_num, by rw [b2]; norm_num,
    ?_, fun n => ⟨rfl, by simp [bareState], ?_, ?_⟩⟩
  · rw [hw, SghJob.chain, a1]
    simp only [SghJob.chain, b1, Option.map_some]
  · rw [b0]
    have hf : writeFlag (J.inWindow ⟨2, 4⟩).clock 0 (((J.inWindow ⟨2, 4⟩).start r1.loop.st).clock.time
        + (J.inWindow ⟨2, 4⟩).stepOf ((J.inWindow ⟨2, 4⟩).start r1.loop.st))
        ((J.inWindow ⟨2, 4⟩).start r1.loop.st).clock.gtime = true := by
      have hb := b2
      rw [b0] at hb
      have hb' : (tickClock _ _ _ _).1.time = _ := hb
      rw [tickClock_time] at hb'
      rw [hb']
      simp [writeFlag, J, bareJob, SghJob.inWindow, SghJob.start, clockInit]
    have ht : (tickClock (J.inWindow ⟨2, 4⟩).clock 0 ((J.inWindow ⟨2, 4⟩).stepOf ((J.inWindow ⟨2, 4⟩).start r1.loop.st))
        ((J.inWindow ⟨2, 4⟩).start r1.loop.st).clock).2 = true := by
      rcases tickClock_dump (J.inWindow ⟨2, 4⟩).clock 0
        ((J.inWindow ⟨2, 4⟩).stepOf ((J.inWindow ⟨2, 4⟩).start r1.loop.st))
        ((J.inWindow ⟨2, 4⟩).start r1.loop.st).clock with h | h
      · exact h.1
      · rw [hf] at h; simp at h
    show (if _ then _ else _ : List _).head? = _
    rw [if_pos ht]
    rfl
  · rw [(b4 n).2, (a4 n).2]; simp [bareState]
  · rw [(b4 n).1, (a4 n).1, (a4 n).2]; simp [bareState]; norm_num

/-- An expanding cube under pressure, with a time step from the CFL condition. -/
noncomputable def sghCubeJob : SghJob 1 8 where
  env := { mesh := oneHex, mass := fun _ => 1 / 8, sets := [], ext := fun _ _ _ _ => 0,
           closures := { disp := fun _ _ _ _ _ => 0, update := fun _ _ _ p => p } }
  clock := { timeStart := 0, timeFinal := 1, dtStart := 1 / 10, dtMin := 1 / 100, dtMax := 1, dtCfl := 1 / 2,
             fuzz := 1 / 1000, tiny := 1 / 1000, ival := 1 / 2, cycIval := 10, cycleStop := 1000 }
  stages := 2

noncomputable def sghCubeState : SghState ℝ 1 8 where
  coords := fun n d => cubeCoords n d
  coordsN0 := fun n d => cubeCoords n d
  vel := fun n d => cubeCoords n d
  velN0 := fun n d => cubeCoords n d
  mats := [⟨0, true, [⟨0, 1, 0, 0, 1, 1, 1, 1, 1, fun _ _ => 0, fun _ _ => 0, false, fun _ _ => 0⟩]⟩]

/-- The hypotheses of the theorems above are met by a run that ends. -/
example : sghCubeJob.clock.Sane ∧ sghCubeJob.env.mesh.WF ∧ (∀ n, sghCubeJob.env.mass n ≠ 0) ∧ sghCubeJob.env.closures.Lawful ∧
    ClampSets sghCubeJob.env.sets (fun _ _ => false) ∧ 0 < sghCubeJob.stages ∧ MassOK sghCubeState.mats ∧
    ((sghCubeState.mats.flatMap fun m => m.pts).map fun p => p.elem).Nodup ∧ sghCubeState.mats ≠ [] ∧
    ∃ r, sghCubeJob.execute sghCubeState = some r := by
  refine ⟨?_, oneHex_WF, by simp [sghCubeJob], fun _ _ _ _ => ⟨rfl, rfl, rfl, rfl⟩,
    fun t v n d => by simp [sghCubeJob, boundaryVelocity], by simp [sghCubeJob], ?_, by simp [sghCubeState], by simp [sghCubeState],
    ⟨_, if_neg (by simp [sghCubeJob])⟩⟩
  · constructor <;> norm_num [sghCubeJob]
  · intro m hm p hp
    simp [sghCubeState] at hm
    subst hm
    simp at hp
    subst hp
    simp [energyFuzz]
    norm_num

end Fierro
