import Verif.Model.RzWhole
import Verif.Props.RzState
import Verif.Props.SghWhole

/-!
# C138: a whole run of the axisymmetric hydrodynamics solver
-/

namespace Fierro

variable {E N : ℕ}

/-! ## The loop in closed form -/

/-- Specification: the loop variables after `k` cycles if the loop were never left. -/
noncomputable def RzJob.after (J : RzJob E N) (st : RzState E N) : ℕ → RzLoop E N
  | 0 => J.start st
  | k + 1 => J.cycle (J.envOf st) k (J.after st k)

/-- What the time step control sees in the course of the run, in the form of the 3D solver. -/
noncomputable def RzJob.hist (J : RzJob E N) (st : RzState E N) (k : ℕ) : List (List CflElem) :=
  liftMats (J.cfl (J.after st k).st)

theorem RzJob.stepOf_eq (J : RzJob E N) (s : RzLoop E N) :
    J.stepOf s = cycleDt J.clock (liftMats (J.cfl s.st)) s.clock.time s.clock.gtime s.clock.dt :=
  rzCycleDt_lift _ _ _ _ _

theorem RzJob.after_clock (J : RzJob E N) (st : RzState E N) (k : ℕ) :
    (J.after st k).clock = clockAt J.clock (J.hist st) k := by
  induction k with
  | zero => rfl
  | succ k ih =>
    rw [clockAt, ← ih]
    show (tickClock _ _ (J.stepOf _) _).1 = _
    rw [J.stepOf_eq]
    exact tickClock_eq _ _ _ _

theorem RzJob.loop_spec (J : RzJob E N) (st : RzState E N) (n k : ℕ) :
    (J.loop (J.envOf st) n k (J.after st k)).1 = J.after st (J.loop (J.envOf st) n k (J.after st k)).2 ∧
    ((J.loop (J.envOf st) n k (J.after st k)).1.clock, (J.loop (J.envOf st) n k (J.after st k)).2)
      = clockLoop J.clock (J.hist st) n k (clockAt J.clock (J.hist st) k) := by
  induction n generalizing k with
  | zero => exact ⟨rfl, by rw [RzJob.loop, clockLoop, J.after_clock]⟩
  | succ n ih =>
    have hc : (J.cycle (J.envOf st) k (J.after st k)) = J.after st (k + 1) := rfl
    have hd : clockCycle J.clock (J.hist st k) k (clockAt J.clock (J.hist st) k)
      = clockAt J.clock (J.hist st) (k + 1) := rfl
    rw [RzJob.loop, clockLoop]
    simp only [hc, hd, J.after_clock]
    split_ifs with h
    · exact ⟨rfl, by rw [J.after_clock]⟩
    · exact ih (k + 1)

theorem RzJob.execute_spec (J : RzJob E N) (st : RzState E N) (r : RzEnd E N)
    (h : J.execute st = some r) :
    r.loop = J.after st r.cycles ∧ r.tally = rzTally (rzExtensive st.coords st.areal) (J.start st).st r.loop.st ∧
      Fierro.execute J.clock (J.hist st) = some (r.loop.clock, r.cycles) := by
  unfold RzJob.execute at h
  split_ifs at h with hz
  obtain ⟨h1, h2⟩ := J.loop_spec st J.clock.cycleStop 0
  cases h
  refine ⟨h1, rfl, ?_⟩
  unfold Fierro.execute
  rw [if_neg hz]
  congr 1
  exact h2.symm

/-- Specification: the steps of the first `n` cycles. -/
noncomputable def RzJob.dts (J : RzJob E N) (st : RzState E N) (n : ℕ) : List ℝ :=
  (List.range n).map fun c => J.stepOf (J.after st c)

theorem RzJob.dts_succ (J : RzJob E N) (st : RzState E N) (n : ℕ) :
    J.dts st (n + 1) = J.dts st n ++ [J.stepOf (J.after st n)] := by
  simp [RzJob.dts, List.range_succ]

theorem RzJob.dts_take (J : RzJob E N) (st : RzState E N) (n c : ℕ) (h : c ≤ n) :
    (J.dts st n).take c = J.dts st c := by
  unfold RzJob.dts
  rw [← List.map_take, List.take_range, min_eq_left h]

theorem rzRun_snoc (env : RzEnv E N) (S : ℕ) (t : ℝ) (dts : List ℝ) (dt : ℝ) (st : RzState E N) :
    rzRun env S t (dts ++ [dt]) st = rzCycle env S (t + dts.sum) dt (rzRun env S t dts st) := by
  induction dts generalizing t st with
  | nil => simp [rzRun]
  | cons d dts ih =>
    rw [List.cons_append, rzRun, ih, rzRun, List.sum_cons, add_assoc]

theorem RzJob.after_run (J : RzJob E N) (st : RzState E N) (n : ℕ) :
    (J.after st n).st = rzRun (J.envOf st) J.stages J.clock.timeStart (J.dts st n) (J.start st).st ∧
    (J.after st n).clock.time = J.clock.timeStart + (J.dts st n).sum := by
  induction n with
  | zero => exact ⟨rfl, by simp [RzJob.dts, RzJob.after, RzJob.start, clockInit]⟩
  | succ n ih =>
    rw [J.dts_succ, rzRun_snoc, ← ih.1, ← ih.2]
    refine ⟨rfl, ?_⟩
    show (tickClock _ _ _ _).1.time = _
    rw [tickClock_time, ih.2, List.sum_append, List.sum_singleton, add_assoc]

/-- Specification: the state a run starts its cycles from. -/
noncomputable def RzJob.first (J : RzJob E N) (st : RzState E N) : RzState E N :=
  { st with vel := boundaryVelocity J.sets J.clock.timeStart st.vel }

/-- Specification of a run with the steps `dts`. -/
structure RzHistory (J : RzJob E N) (st : RzState E N) (r : RzEnd E N) (dts : List ℝ) : Prop where
  count : dts.length = r.cycles
  /-- the cycles start from the given state with the boundary velocities of the start time, and use the nodal masses
  of the given state -/
  final : r.loop.st = rzRun (J.envOf st) J.stages J.clock.timeStart dts (J.first st)
  time : r.loop.clock.time = J.clock.timeStart + dts.sum
  limit : r.cycles ≤ J.clock.cycleStop
  ended : r.cycles = J.clock.cycleStop ∨ J.clock.timeFinal ≤ r.loop.clock.time
  notLater : ∀ c, 0 < c → c < r.cycles → timeBefore J.clock.timeStart dts c < J.clock.timeFinal
  frames : FramesShow (timeBefore J.clock.timeStart dts)
    (fun k => rzRun (J.envOf st) J.stages J.clock.timeStart (dts.take k) (J.first st)) r.cycles r.loop.clock.log
    r.loop.frames
  /-- the step of each cycle keeps to the CFL condition in the state the cycle starts from -/
  stable : 0 < J.clock.fuzz → 0 ≤ J.clock.dtCfl → ∀ c (hc : c < dts.length) (q : RzState E N),
    q = rzRun (J.envOf st) J.stages J.clock.timeStart (dts.take c) (J.first st) →
    ∀ m ∈ q.mats, ∀ p ∈ m.pts, p.eroded = false → 0 ≤ p.sspd → ∀ a b : Fin 4, a < b →
      dts[c] * (p.sspd + J.clock.fuzz) ≤ J.clock.dtCfl *
        Real.sqrt ((q.coords (J.mesh.nodesInElem p.elem a) 0 - q.coords (J.mesh.nodesInElem p.elem b) 0) ^ 2 +
          (q.coords (J.mesh.nodesInElem p.elem a) 1 - q.coords (J.mesh.nodesInElem p.elem b) 1) ^ 2) ∨
      dts[c] ≤ J.clock.dtMin

theorem RzJob.after_frames (J : RzJob E N) (st : RzState E N) (n : ℕ) :
    FramesShow (fun k => (J.after st k).clock.time) (fun k => (J.after st k).st) n (J.after st n).clock.log
      (J.after st n).frames := by
  induction n with
  | zero => rfl
  | succ n ih =>
    show FramesShow _ _ (n + 1) (tickClock _ _ _ _).1.log (if (tickClock _ _ _ _).2 then _ else _)
    rcases tickClock_dump J.clock n (J.stepOf (J.after st n)) (J.after st n).clock with ⟨hb, hl, -⟩ | ⟨hb, hl, -⟩
    · rw [hb, hl, if_pos rfl]
      refine ⟨by omega, ?_, rfl, ih⟩
      show _ = (tickClock _ _ _ _).1.time
      rw [tickClock_time]
    · rw [hb, hl, if_neg (by simp)]
      exact ih.mono (by omega)

theorem RzJob.history (J : RzJob E N) (st : RzState E N) (r : RzEnd E N) (h : J.execute st = some r) :
    RzHistory J st r (J.dts st r.cycles) := by
  obtain ⟨h1, -, h3⟩ := J.execute_spec st r h
  obtain ⟨t1, t2, t3, t4⟩ := C15_terminates _ _ _ _ h3
  have hT : ∀ c ≤ r.cycles, (J.after st c).clock.time
      = timeBefore J.clock.timeStart (J.dts st r.cycles) c := by
    intro c hc
    rw [timeBefore, J.dts_take st _ c hc, (J.after_run st c).2]
  have hS : ∀ c ≤ r.cycles, (J.after st c).st = rzRun (J.envOf st) J.stages J.clock.timeStart
      ((J.dts st r.cycles).take c) (J.first st) := by
    intro c hc
    rw [J.dts_take st _ c hc, (J.after_run st c).1]
    rfl
  refine ⟨by simp [RzJob.dts], ?_, ?_, t1, t3, ?_, ?_, ?_⟩
  · rw [h1, (J.after_run st _).1]; rfl
  · rw [h1, (J.after_run st _).2]
  · intro c hc0 hc
    rw [← hT c hc.le, J.after_clock]
    exact t4 c hc0 hc
  · have := J.after_frames st r.cycles
    rw [← h1] at this
    exact this.congr hT hS
  · intro hf hcfl c hc q hq m hm p hp hero hs a b hab
    have hc' : c < r.cycles := by simpa [RzJob.dts] using hc
    rw [← hS c hc'.le] at hq
    have hd : (J.dts st r.cycles)[c] = J.stepOf (J.after st c) := by simp [RzJob.dts]
    rw [hd]
    subst hq
    have := C107_cfl J.clock (J.cfl (J.after st c).st) (J.after st c).clock.time (J.after st c).clock.gtime
      (J.after st c).clock.dt hf hcfl _ (List.mem_map_of_mem hm) _ (List.mem_map_of_mem hp) hero hs a b hab b.2
    simpa [RzJob.elemOf, RzJob.stepOf] using this

/-- **C138.** A run of the axisymmetric solver that ends is a number of cycles of the model, one after the other, from
the given state with the boundary velocities applied and with the nodal masses of that state: no cycle is lost or done
twice, and time is the start time plus the steps made.  It ends after `cycle_stop` cycles or at the final time.  Each
dump shows the state after its cycle with the time of that state, no cycle dumps twice, and the first dump is the
initial state.  Every step keeps to the CFL condition of the state it starts from, unless it is at most the minimum
step. -/
theorem C138_run (J : RzJob E N) (st : RzState E N) (r : RzEnd E N) (h : J.execute st = some r) :
    ∃ dts, RzHistory J st r dts := ⟨_, J.history st r h⟩

/-- **C138.** The run is defined exactly when the dump interval in cycles is not zero or no cycle is made. -/
theorem C138_defined (J : RzJob E N) (st : RzState E N) :
    (∃ r, J.execute st = some r) ↔ (J.clock.cycIval ≠ 0 ∨ J.clock.cycleStop = 0) := by
  unfold RzJob.execute
  split_ifs with h
  · simp; omega
  · simp; omega

/-! ## Progress -/

theorem rzCycle_mats_length (env : RzEnv E N) (S : ℕ) (t dt : ℝ) (st : RzState E N) :
    (rzCycle env S t dt st).mats.length = st.mats.length := by
  unfold rzCycle
  have : ∀ (l : List ℝ) (s : RzState E N), (l.foldl (fun st s => rzStage env t (1 / ((S : ℝ) - s)) dt st) s).mats.length
      = s.mats.length := by
    intro l
    induction l with
    | nil => intro s; rfl
    | cons a l ih => intro s; rw [List.foldl_cons, ih]; simp [rzStage, rzStagePre]
  rw [this]
  simp [rzInit]

theorem RzJob.after_mats_length (J : RzJob E N) (st : RzState E N) (c : ℕ) :
    (J.after st c).st.mats.length = st.mats.length := by
  induction c with
  | zero => rfl
  | succ c ih =>
    show (rzCycle _ _ _ _ _).mats.length = _
    rw [rzCycle_mats_length, ih]

theorem RzJob.hist_ne (J : RzJob E N) (st : RzState E N) (hm : st.mats ≠ []) (c : ℕ) : J.hist st c ≠ [] := by
  refine liftMats_ne _ fun he => hm ?_
  have h0 : (J.cfl (J.after st c).st).length = 0 := by rw [he]; rfl
  rw [RzJob.cfl, List.length_map, J.after_mats_length] at h0
  exact List.length_eq_zero_iff.1 h0

/-- **C138.** Every cycle makes time advance by at least a fixed amount; with a material the run does not pass the final
time by more than the tolerance; with enough cycles it reaches it, and then its last state is in the last dump. -/
theorem C138_progress (J : RzJob E N) (ho : J.clock.Sane) (hs : J.clock.timeStart < J.clock.timeFinal)
    (st : RzState E N) (r : RzEnd E N) (h : J.execute st = some r) :
    J.clock.timeStart + r.cycles * min J.clock.dtStart (min J.clock.dtMin J.clock.tiny) ≤ r.loop.clock.time ∧
    (st.mats ≠ [] → r.loop.clock.time ≤ J.clock.timeFinal + J.clock.tiny) ∧
    (J.clock.timeFinal - J.clock.timeStart ≤ J.clock.cycleStop * min J.clock.dtStart (min J.clock.dtMin J.clock.tiny) →
      J.clock.timeFinal ≤ r.loop.clock.time) ∧
    (J.clock.timeFinal ≤ r.loop.clock.time → r.loop.frames.head? = some r.loop.st) := by
  obtain ⟨h1, -, h3⟩ := J.execute_spec st r h
  obtain ⟨t1, t2, t3, t4⟩ := C15_terminates _ _ _ _ h3
  refine ⟨?_, fun hm => C15_stops_at_final _ _ (J.hist_ne st hm) hs ho.tiny.le _ _ h3,
    C15_reaches_final _ ho _ hs _ _ h3, fun hf => ?_⟩
  · have key : ∀ j ≤ r.cycles, J.clock.timeStart + j * min J.clock.dtStart (min J.clock.dtMin J.clock.tiny) ≤
        (clockAt J.clock (J.hist st) j).time := by
      intro j
      induction j with
      | zero => intro _; simp [clockAt, clockInit]
      | succ j ih =>
        intro hj
        have a := ih (by omega)
        have b := C15_time_increases J.clock ho _ hs _ _ h3 j (by omega)
        push_cast
        linarith
    rw [t2]
    exact key _ le_rfl
  · have hn : 0 < r.cycles := by
      rcases Nat.eq_zero_or_pos r.cycles with h0 | h0
      · rw [t2, h0] at hf
        exact absurd hf (not_le.2 hs)
      · exact h0
    obtain ⟨k, hk⟩ : ∃ k, r.cycles = k + 1 := ⟨r.cycles - 1, by omega⟩
    rw [hk] at h1
    rw [h1] at hf ⊢
    have hc : J.after st (k + 1) = J.cycle (J.envOf st) k (J.after st k) := rfl
    rw [hc] at hf ⊢
    have hf' : J.clock.timeFinal ≤ (tickClock J.clock k (J.stepOf (J.after st k)) (J.after st k).clock).1.time := hf
    rw [tickClock_time] at hf'
    rcases tickClock_dump J.clock k (J.stepOf (J.after st k)) (J.after st k).clock with ⟨hb, -, -⟩ | ⟨-, -, hw⟩
    · show (if (tickClock _ _ _ _).2 then _ else _ : List _).head? = _
      rw [hb]
      rfl
    · rw [writeFlag_final _ _ _ _ hf'] at hw
      cases hw

/-- **C138.** For a solver that starts at time zero and dumps by time only, every requested time the run has passed has a
dump within the tolerances, and by `C138_run` it shows the state of that time. -/
theorem C138_dump_times (J : RzJob E N) (ho : J.clock.Sane) (h0 : J.clock.timeStart = 0) (hf : 0 < J.clock.timeFinal)
    (hiv : J.clock.fuzz + J.clock.tiny < J.clock.ival) (hcy : J.clock.cycleStop < J.clock.cycIval)
    (st : RzState E N) (hm : st.mats ≠ []) (r : RzEnd E N) (h : J.execute st = some r) (k : ℕ) (hk : 1 ≤ k)
    (hks : k * J.clock.ival ≤ r.loop.clock.time) :
    ∃ p ∈ r.loop.clock.log, k * J.clock.ival ≤ p.2 ∧ p.2 ≤ k * J.clock.ival + J.clock.fuzz + J.clock.tiny :=
  C40_dumps_at_requested_times J.clock ho h0 hf hiv hcy (J.hist st) (J.hist_ne st hm) _ _
    (J.execute_spec st r h).2.2 k hk hks

/-! ## What the run prints -/

/-- **C138.** The mass errors printed at the end: the one of the materials is zero whatever the run did, since material
models do not change masses; the third one is zero if the masses come from the set-up on convex elements filled by
their materials. -/
theorem C138_masses (J : RzJob E N) (hWF : J.mesh.WF) (hlaw : J.closures.Lawful) (hS : 0 < J.stages)
    (st : RzState E N) (r : RzEnd E N) (h : J.execute st = some r) :
    r.tally.matMass = 0 ∧ r.tally.nodeMass = 0 ∧
      (st.areal = rzNodeAreal J.mesh (rzCornerMass J.mesh st.coords st.mats) →
        RzGeoOK J.mesh st.coords st.mats →
        (∀ m ∈ st.mats, ∀ p ∈ m.pts, p.mass = p.den * rzVol J.mesh st.coords p.elem) → r.tally.nodeMat = 0) := by
  obtain ⟨-, h2, -⟩ := J.execute_spec st r h
  have H := J.history st r h
  have hm : rzMaterialMass r.loop.st.mats = rzMaterialMass st.mats := by
    rw [H.final]
    exact C54_material_mass (J.envOf st) hlaw J.stages hS _ _ _
  rw [h2]
  refine ⟨?_, sub_self _, fun ha hg hd => ?_⟩
  · show rzMaterialMass r.loop.st.mats - rzMaterialMass st.mats = 0
    rw [hm, sub_self]
  · show (∑ n, rzExtensive st.coords st.areal n) - rzMaterialMass r.loop.st.mats = 0
    rw [ha, hm, ← C52_node_mass_total J.mesh hWF st.coords st.mats hg hd]
    exact sub_self _

/-- **C138.** The energies printed at the end are those of the first dump (initial state with boundary velocities) and of
the last state: half mass times velocity squared over the nodes with mass = areal mass times radius of the initial
state, mass times specific energy over the material points. -/
theorem C138_printed (J : RzJob E N) (st : RzState E N) (r : RzEnd E N) (h : J.execute st = some r) :
    ∃ f, r.loop.frames.getLast? = some f ∧ f = J.first st ∧
      r.tally.keStart = ∑ n, 1 / 2 * (st.areal n * st.coords n 1) * ∑ d, f.vel n d ^ 2 ∧
      r.tally.keEnd = ∑ n, 1 / 2 * (st.areal n * st.coords n 1) * ∑ d, r.loop.st.vel n d ^ 2 ∧
      r.tally.ieStart = (f.mats.map fun m => (m.pts.map fun p => p.mass * p.sie).sum).sum ∧
      r.tally.ieEnd = (r.loop.st.mats.map fun m => (m.pts.map fun p => p.mass * p.sie).sum).sum ∧
      r.tally.change = (r.tally.keEnd + r.tally.ieEnd) - (r.tally.keStart + r.tally.ieStart) := by
  obtain ⟨h1, h2, -⟩ := J.execute_spec st r h
  have hk : ∀ v : Fin N → Fin 2 → ℝ, rzKinetic (rzExtensive st.coords st.areal) v
      = ∑ n, 1 / 2 * (st.areal n * st.coords n 1) * ∑ d, v n d ^ 2 := by
    intro v
    unfold rzKinetic rzExtensive
    rw [Finset.mul_sum]
    refine Finset.sum_congr rfl fun n _ => ?_
    simp only [Fin.sum_univ_two]
    ring
  have hl : ∀ k, (J.after st k).frames.getLast? = some (J.start st).st := by
    intro k
    induction k with
    | zero => rfl
    | succ k ih =>
      show (if _ then _ else _ : List _).getLast? = _
      split_ifs
      · rw [List.getLast?_cons]
        show some ((J.after st k).frames.getLast?.getD _) = _
        rw [ih]; rfl
      · exact ih
  refine ⟨_, by rw [h1]; exact hl _, rfl, ?_, ?_, ?_, ?_, ?_⟩
  · rw [h2]; exact hk _
  · rw [h2]; exact hk _
  · rw [h2]; rfl
  · rw [h2]; rfl
  · rw [h2]
    show (_ + _) - (_ + _) = (_ : ℝ)
    simp only [rzTally]
    ring

/-- What the conservation laws need of every state a run goes through: nodes stay off the axis (farther than `tiny`)
or exactly on it, and an element is eroded for all its materials or for none. -/
def RzJob.Fair (J : RzJob E N) (st : RzState E N) (n : ℕ) : Prop :=
  RzAlong (fun s => RzRadiiOK (J.envOf st) s.coords ∧ RzErosionConsistent s.mats) (J.envOf st) J.stages
    J.clock.timeStart (J.dts st n) (J.first st)

theorem RzJob.massOK_first (J : RzJob E N) (st : RzState E N) (ha : ∀ n, 0 < st.areal n) :
    RzMassOK (J.envOf st) (J.first st) := fun n => ⟨ha n, rfl⟩

/-- **C138.** Between fixed walls and symmetry planes the energy change printed at the end is zero, as long as nodes stay
off the axis or on it.  Nodes on walls need not start at rest. -/
theorem C138_energy (J : RzJob E N) (hWF : J.mesh.WF) (hlaw : J.closures.Lawful) (ht : 0 < J.clock.tiny)
    (Z : Fin N → Fin 2 → Bool) (hZ : RzClamp J.sets Z) (hS : 0 < J.stages) (st : RzState E N)
    (ha : ∀ n, 0 < st.areal n) (hmass : ∀ m ∈ st.mats, ∀ p ∈ m.pts, p.mass ≠ 0) (r : RzEnd E N)
    (h : J.execute st = some r) (hfair : J.Fair st r.cycles) : r.tally.change = 0 := by
  obtain ⟨-, h2, -⟩ := J.execute_spec st r h
  have H := J.history st r h
  have e := C54_run_conserves (J.envOf st) hWF hlaw ht Z hZ J.stages hS J.clock.timeStart (J.dts st r.cycles)
    (J.first st) (J.massOK_first st ha) hmass
    (fun n d hnd => by show boundaryVelocity _ _ _ n d = 0; rw [hZ, if_pos hnd]) hfair
  rw [← H.final] at e
  rw [h2]
  have e' : rzKinetic (rzExtensive st.coords st.areal) r.loop.st.vel + rzInternal r.loop.st.mats
      = rzKinetic (rzExtensive st.coords st.areal) (J.first st).vel + rzInternal (J.first st).mats := e
  show (rzInternal r.loop.st.mats + rzKinetic (rzExtensive st.coords st.areal) r.loop.st.vel)
    - (rzInternal (J.first st).mats + rzKinetic (rzExtensive st.coords st.areal) (J.first st).vel) = 0
  linarith

/-- **C138.** Without dissipation and with walls that leave the axial direction free, the axial momentum is the same at
the end of the run as before it. -/
theorem C138_momentum (J : RzJob E N) (hWF : J.mesh.WF) (ht : 0 < J.clock.tiny)
    (hdisp : ∀ st m p l, J.closures.disp st m p l 0 = 0) (Z : Fin N → Fin 2 → Bool) (hZ : RzClamp J.sets Z)
    (hz : ∀ n, Z n 0 = false) (hS : 0 < J.stages) (st : RzState E N) (ha : ∀ n, 0 < st.areal n) (r : RzEnd E N)
    (h : J.execute st = some r)
    (hfair : RzAlong (fun s => RzRadiiOK (J.envOf st) s.coords ∧ RzErosionConsistent s.mats ∧
      RzGeoOK J.mesh s.coords s.mats) (J.envOf st) J.stages J.clock.timeStart (J.dts st r.cycles) (J.first st)) :
    ∑ n, st.areal n * st.coords n 1 * r.loop.st.vel n 0 = ∑ n, st.areal n * st.coords n 1 * st.vel n 0 := by
  have e := C53_run_conserves (J.envOf st) hWF ht hdisp Z hZ hz J.stages hS J.clock.timeStart (J.dts st r.cycles)
    (J.first st) (J.massOK_first st ha) hfair
  rw [← (J.history st r h).final] at e
  have hv : ∀ n, (J.first st).vel n 0 = st.vel n 0 := by
    intro n
    show boundaryVelocity _ _ _ n 0 = _
    rw [hZ, hz, if_neg (by simp)]
  refine (show rzMomentum (rzExtensive st.coords st.areal) r.loop.st.vel 0 = _ from e).trans ?_
  unfold rzMomentum
  refine Finset.sum_congr rfl fun n _ => ?_
  rw [hv]
  rfl

/-- **C138.** No node is ever on the wrong side of the axis in any dump or at the end. -/
theorem C138_radius (J : RzJob E N) (hS : 0 < J.stages) (st : RzState E N) (h0 : ∀ n, 0 ≤ st.coords n 1)
    (r : RzEnd E N) (h : J.execute st = some r) : ∀ f ∈ r.loop.st :: r.loop.frames, ∀ n, 0 ≤ f.coords n 1 := by
  obtain ⟨h1, -, -⟩ := J.execute_spec st r h
  have key : ∀ k, ∀ n, 0 ≤ (J.after st k).st.coords n 1 := by
    intro k n
    rw [(J.after_run st k).1]
    exact C55_radius_nonneg (J.envOf st) J.stages hS _ _ (J.start st).st h0 n
  have fr : ∀ k, ∀ f ∈ (J.after st k).frames, ∀ n, 0 ≤ f.coords n 1 := by
    intro k
    induction k with
    | zero => intro f hf; rw [List.mem_singleton.1 hf]; exact h0
    | succ k ih =>
      intro f hf
      have hf' : f ∈ (if (tickClock J.clock k (J.stepOf (J.after st k)) (J.after st k).clock).2
        then (J.after st (k + 1)).st :: (J.after st k).frames else (J.after st k).frames) := hf
      split_ifs at hf'
      · rcases List.mem_cons.1 hf' with rfl | hf'
        · exact key (k + 1)
        · exact ih f hf'
      · exact ih f hf'
  intro f hf
  rw [h1] at hf
  rcases List.mem_cons.1 hf with rfl | hf
  · exact key _
  · exact fr _ f hf

/-! ## Several solvers -/

/-- **C138 (hand over).**  If nodes stay off the axis or on it, the next solver finds the nodal masses this one started
with, although it takes them from the areal masses and radii of the final state; and that state meets what the energy
law asks of a start. -/
theorem C138_handover (J : RzJob E N) (hlaw : J.closures.Lawful) (ht : 0 < J.clock.tiny) (hS : 0 < J.stages)
    (st : RzState E N) (ha : ∀ n, 0 < st.areal n) (r : RzEnd E N) (h : J.execute st = some r)
    (hfair : J.Fair st r.cycles) :
    (∀ n, r.loop.st.areal n * r.loop.st.coords n 1 = st.areal n * st.coords n 1) ∧
      (∀ n, 0 < r.loop.st.areal n) ∧
      ((∀ m ∈ st.mats, ∀ p ∈ m.pts, p.mass ≠ 0) → ∀ m ∈ r.loop.st.mats, ∀ p ∈ m.pts, p.mass ≠ 0) := by
  have H := J.history st r h
  have hmap : ∀ (mats : List (RzMat E)) (g : RzMat E → RzPt E → RzPt E),
      (∀ m p, (g m p).mass = p.mass) → (∀ m ∈ mats, ∀ p ∈ m.pts, p.mass ≠ 0) →
      ∀ m ∈ mats.map (fun m => { m with pts := m.pts.map (g m) }), ∀ p ∈ m.pts, p.mass ≠ 0 := by
    intro mats g hg h m hm' p hp
    rw [List.mem_map] at hm'
    obtain ⟨m0, hm0, rfl⟩ := hm'
    simp only [List.mem_map] at hp
    obtain ⟨p0, hp0, rfl⟩ := hp
    rw [hg m0 p0]
    exact h m0 hm0 p0 hp0
  have hm : RzMassOK (J.envOf st) r.loop.st := by
    rw [H.final]
    refine rzRun_induct (J.envOf st) J.stages hS _ (fun s => RzMassOK (J.envOf st) s)
      (fun _ s => RzMassOK (J.envOf st) s) ?_ ?_ ?_ J.clock.timeStart (J.dts st r.cycles) (J.first st)
      (J.massOK_first st ha) hfair
    · intro s hs _; exact hs
    · intro _ t al dt s _ _ hP; exact C52_areal_rebuild (J.envOf st) ht t al dt s hP.1
    · intro _ t al dt s _ _ hP; exact C52_areal_rebuild (J.envOf st) ht t al dt s hP.1
  refine ⟨fun n => ((hm n).2).symm, fun n => (hm n).1, fun hmass => ?_⟩
  rw [H.final]
  refine rzRun_induct (J.envOf st) J.stages hS _ (fun s => ∀ m ∈ s.mats, ∀ p ∈ m.pts, p.mass ≠ 0)
    (fun _ s => ∀ m ∈ s.mats, ∀ p ∈ m.pts, p.mass ≠ 0) ?_ ?_ ?_ J.clock.timeStart (J.dts st r.cycles) (J.first st)
    hmass hfair
  · intro s hs _
    exact hmap s.mats (fun _ p => { p with sieN0 := p.sie, stressN0 := p.stress }) (fun _ _ => rfl) hs
  all_goals
    intro _ t al dt s hs _ _
    obtain ⟨g, hg, hgm⟩ := rzStage_mats (J.envOf st) hlaw t al dt s
    rw [hgm]
    exact hmap s.mats g (fun m p => (hg m p).2.1) hs

/-- Specification: `rs` are runs of the job in the windows `ws`, each from the state the one before has left. -/
inductive RzChain (J : RzJob E N) : List Window → RzState E N → List (RzEnd E N) → Prop
  | nil (st) : RzChain J [] st []
  | cons (w ws st r rs) : (J.inWindow w).execute st = some r → RzChain J ws r.loop.st rs →
      RzChain J (w :: ws) st (r :: rs)

/-- All runs of a chain are fair. -/
inductive RzFair (J : RzJob E N) : List Window → RzState E N → List (RzEnd E N) → Prop
  | nil (st) : RzFair J [] st []
  | cons (w ws st r rs) : (J.inWindow w).Fair st r.cycles → RzFair J ws r.loop.st rs → RzFair J (w :: ws) st (r :: rs)

theorem RzJob.chain_spec (J : RzJob E N) (ws : List Window) (st : RzState E N) (rs : List (RzEnd E N))
    (h : J.chain ws st = some rs) : RzChain J ws st rs := by
  induction ws generalizing st rs with
  | nil => cases h; exact .nil st
  | cons w ws ih =>
    rw [RzJob.chain] at h
    cases hr : (J.inWindow w).execute st with
    | none => rw [hr] at h; cases h
    | some r =>
      rw [hr] at h
      obtain ⟨rs', h', rfl⟩ := Option.map_eq_some_iff.1 h
      exact .cons w ws st r rs' hr (ih _ _ h')

theorem RzChain.times {J : RzJob E N} (hJ : J.clock.Sane) {ws : List Window} {st : RzState E N}
    {rs : List (RzEnd E N)} (h : RzChain J ws st rs) (hm : st.mats ≠ []) (hw : ∀ w ∈ ws, w.start < w.stop)
    (hn : ∀ w ∈ ws, w.stop - w.start ≤ J.clock.cycleStop * min J.clock.dtStart (min J.clock.dtMin J.clock.tiny)) :
    List.Forall₂ (fun w (r : RzEnd E N) => ∃ dts : List ℝ, dts.length = r.cycles ∧
      r.loop.clock.time = w.start + dts.sum ∧ w.stop ≤ r.loop.clock.time ∧
      r.loop.clock.time ≤ w.stop + J.clock.tiny) ws rs := by
  induction h with
  | nil st => exact .nil
  | cons w ws st r rs hex hch ih =>
    have hm' : r.loop.st.mats ≠ [] := by
      intro he
      have := (J.inWindow w).after_mats_length st r.cycles
      rw [← ((J.inWindow w).execute_spec st r hex).1, he] at this
      exact hm (List.length_eq_zero_iff.1 this.symm)
    have hs : (J.inWindow w).clock.Sane := ⟨hJ.dtStart, hJ.dtMin, hJ.dtMax, hJ.fuzz, hJ.tiny, hJ.cfl⟩
    obtain ⟨-, p2, p3, -⟩ := C138_progress (J.inWindow w) hs (hw w List.mem_cons_self) st r hex
    have H := (J.inWindow w).history st r hex
    exact .cons ⟨_, H.count, H.time, p3 (hn w List.mem_cons_self), p2 hm⟩
      (ih hm' (fun v hv => hw v (List.mem_cons_of_mem _ hv)) fun v hv => hn v (List.mem_cons_of_mem _ hv))

/-- **C138 (chain).**  Axisymmetric solvers in the windows the driver gives them run one after the other, each from the
state the one before has left, and each is a run as described above; the windows follow each other without gap.  With
enough cycles every solver starts at the start of its window and ends at its end, within the tolerance. -/
theorem C138_chain (J : RzJob E N) (tf : ℝ) (ends : List ℝ) (st : RzState E N) (rs : List (RzEnd E N))
    (h : J.chain (solverWindows tf ends) st = some rs) :
    RzChain J (solverWindows tf ends) st rs ∧ Linked 0 (solverWindows tf ends) ∧
    (J.clock.Sane → st.mats ≠ [] → (∀ w ∈ solverWindows tf ends, w.start < w.stop ∧
        w.stop - w.start ≤ J.clock.cycleStop * min J.clock.dtStart (min J.clock.dtMin J.clock.tiny)) →
      List.Forall₂ (fun w (r : RzEnd E N) => ∃ dts : List ℝ, dts.length = r.cycles ∧
        r.loop.clock.time = w.start + dts.sum ∧ w.stop ≤ r.loop.clock.time ∧
        r.loop.clock.time ≤ w.stop + J.clock.tiny) (solverWindows tf ends) rs) :=
  ⟨J.chain_spec _ _ _ h, linked_windows tf ends, fun hJ hm hw =>
    (J.chain_spec _ _ _ h).times hJ hm (fun w h => (hw w h).1) fun w h => (hw w h).2⟩

/-- **C138 (chain).**  Between fixed walls, while nodes stay off the axis or on it, the energy at the end of each of the
solvers, with the nodal masses of the very first state, is that of the very first state; handing over from one to the
next changes nothing. -/
theorem C138_chain_energy (J : RzJob E N) (hWF : J.mesh.WF) (hlaw : J.closures.Lawful) (ht : 0 < J.clock.tiny)
    (Z : Fin N → Fin 2 → Bool) (hZ : RzClamp J.sets Z) (hS : 0 < J.stages) (ws : List Window) (st : RzState E N)
    (ha : ∀ n, 0 < st.areal n) (hmass : ∀ m ∈ st.mats, ∀ p ∈ m.pts, p.mass ≠ 0) (rs : List (RzEnd E N))
    (h : J.chain ws st = some rs) (hfair : RzFair J ws st rs) :
    ∀ r ∈ rs, r.tally.change = 0 ∧
      rzTotalEnergy (fun n => st.areal n * st.coords n 1) r.loop.st
        = rzTotalEnergy (fun n => st.areal n * st.coords n 1)
          { st with vel := fun n d => if Z n d then 0 else st.vel n d } := by
  have hc := J.chain_spec _ _ _ h
  clear h
  induction hc with
  | nil st => intro r hr; cases hr
  | cons w ws st r rs hex hch ih =>
    cases hfair with
    | cons _ _ _ _ _ f1 f2 =>
    obtain ⟨g1, g2, g3⟩ := C138_handover (J.inWindow w) hlaw ht hS st ha r hex f1
    have c0 := C138_energy (J.inWindow w) hWF hlaw ht Z hZ hS st ha hmass r hex f1
    have H := (J.inWindow w).history st r hex
    have e := C54_run_conserves ((J.inWindow w).envOf st) hWF hlaw ht Z hZ J.stages hS (J.inWindow w).clock.timeStart
      ((J.inWindow w).dts st r.cycles) ((J.inWindow w).first st) ((J.inWindow w).massOK_first st ha) hmass
      (fun n d hnd => by show boundaryVelocity J.sets _ _ n d = 0; rw [hZ, if_pos hnd]) f1
    rw [show rzRun ((J.inWindow w).envOf st) J.stages (J.inWindow w).clock.timeStart ((J.inWindow w).dts st r.cycles)
      ((J.inWindow w).first st) = r.loop.st from H.final.symm] at e
    have hv : (J.inWindow w).first st = { st with vel := fun n d => if Z n d then 0 else st.vel n d } := by
      have : boundaryVelocity J.sets (J.inWindow w).clock.timeStart st.vel
          = fun n d => if Z n d then 0 else st.vel n d := by funext n d; rw [hZ]
      show { st with vel := boundaryVelocity J.sets (J.inWindow w).clock.timeStart st.vel } = _
      rw [this]
    rw [hv] at e
    have hw : ∀ n d, Z n d = true → r.loop.st.vel n d = 0 := by
      rw [H.final]
      refine rzRun_induct ((J.inWindow w).envOf st) J.stages hS _ (fun s => ∀ n d, Z n d = true → s.vel n d = 0)
        (fun _ _ => True) (fun _ _ _ => trivial) (fun _ _ _ _ _ _ _ _ => trivial) ?_ _ _ _ ?_ f1
      · intro _ t al dt s _ _ _ n d hnd
        rw [rzStage_vel]
        exact (hZ _ _ n d).trans (if_pos hnd)
      · intro n d hnd
        rw [hv]
        exact if_pos hnd
    have hcl : { r.loop.st with vel := fun n d => if Z n d then 0 else r.loop.st.vel n d } = r.loop.st := by
      have : (fun n d => if Z n d then 0 else r.loop.st.vel n d) = r.loop.st.vel := by
        funext n d
        split_ifs with hz
        · exact (hw n d hz).symm
        · rfl
      rw [this]
    have ih' := ih g2 (g3 hmass) f2
    rw [hcl, funext g1] at ih'
    intro q hq
    rcases List.mem_cons.1 hq with rfl | hq
    · exact ⟨c0, e⟩
    · exact ⟨(ih' q hq).1, (ih' q hq).2.trans e⟩

/-! ## A node that reaches the axis -/

/-- A ring of nodal masses moving towards the axis, with no material force. -/
noncomputable def ringJob : RzJob 1 4 where
  mesh := oneQuad
  sets := []
  closures := ⟨fun _ _ _ _ _ => 0, fun _ _ _ p => p⟩
  clock := { timeStart := 0, timeFinal := 2, dtStart := 1, dtMin := 1 / 2, dtMax := 1, dtCfl := 1 / 2,
             fuzz := 1 / 1000, tiny := 1 / 1000, ival := 1, cycIval := 10, cycleStop := 1 }
  stages := 1

noncomputable def ringState : RzState 1 4 where
  coords := quadRing
  coordsN0 := quadRing
  vel := fun _ d => if d = 1 then -1 else 0
  velN0 := fun _ _ => 0
  areal := fun _ => 1
  mats := []

theorem ring_execute (w : Window) (st : RzState 1 4) : ∃ r, (ringJob.inWindow w).execute st = some r ∧ r.cycles = 1 ∧
    r.loop = (ringJob.inWindow w).cycle ((ringJob.inWindow w).envOf st) 0 ((ringJob.inWindow w).start st) ∧
    r.tally = rzTally (rzExtensive st.coords st.areal) ((ringJob.inWindow w).start st).st r.loop.st := by
  have hs : (ringJob.inWindow w).clock.cycleStop = 1 := rfl
  refine ⟨_, if_neg (by simp [ringJob, RzJob.inWindow]), ?_, ?_, rfl⟩
  · simp [RzJob.loop, hs]
  · simp [RzJob.loop, hs]

theorem ring_step (w : Window) (st : RzState 1 4) (h : st.mats = []) :
    (ringJob.inWindow w).stepOf ((ringJob.inWindow w).start st) = 1 := by
  simp [RzJob.stepOf, RzJob.cfl, RzJob.start, h, rzCycleDt, ringJob, RzJob.inWindow]

theorem ring_after (w : Window) : ∃ r, (ringJob.inWindow w).execute ringState = some r ∧
    r.loop.st.mats = [] ∧ r.loop.st.vel = ringState.vel ∧
    (∀ n, r.loop.st.coords n 1 = (![0, 0, 1, 1] : Fin 4 → ℝ) n) ∧
    (∀ n, r.loop.st.areal n = (![1, 1, 2, 2] : Fin 4 → ℝ) n) ∧
    r.tally.keStart = 3 ∧ r.tally.keEnd = 3 ∧ r.tally.nodeMass = 0 := by
  obtain ⟨r, h1, -, h2, h3⟩ := ring_execute w ringState
  set J := ringJob.inWindow w with hJ
  set s0 := rzInit (J.start ringState).st with hs0
  have hst : r.loop.st = rzStage (J.envOf ringState) (J.start ringState).clock.time 1 1 s0 := by
    rw [h2]
    show rzCycle _ J.stages _ (J.stepOf (J.start ringState)) _ = _
    rw [ring_step w ringState rfl]
    simp [rzCycle, hJ, ringJob, RzJob.inWindow, hs0]
  have hv0 : s0.velN0 = ringState.vel := rfl
  have hm0 : s0.mats = [] := rfl
  have hfree : rzVelFree (J.envOf ringState) 1 1 s0 = ringState.vel := by
    funext n d
    simp [rzVelFree, rzUpdateVelocity, rzNodeForce, rzCornerForces, hv0, hm0, RzJob.envOf, hJ, ringJob, RzJob.inWindow, oneQuad]
  have hvel : r.loop.st.vel = ringState.vel := by
    rw [hst, rzStage_vel, hfree]; rfl
  have hmats : r.loop.st.mats = [] := by
    rw [hst]; simp [rzStage, rzStagePre, hm0]
  have hco : ∀ n, r.loop.st.coords n 1 = (![0, 0, 1, 1] : Fin 4 → ℝ) n := by
    intro n
    rw [hst]
    have : (rzStage (J.envOf ringState) (J.start ringState).clock.time 1 1 s0).coords n 1
      = rzUpdatePosition 1 1 quadRing (rzVelFree (J.envOf ringState) 1 1 s0) ringState.vel n 1 := rfl
    rw [this, hfree]
    fin_cases n <;> simp [rzUpdatePosition, quadRing, ringState] <;> norm_num
  have har : ∀ n, r.loop.st.areal n = (![1, 1, 2, 2] : Fin 4 → ℝ) n := by
    intro n
    have : r.loop.st.areal = rzArealMass oneQuad (1 / 1000) r.loop.st.coords (rzExtensive quadRing fun _ => 1) := by
      rw [hst]; rfl
    rw [this]
    have h0 := hco 0
    have h1 := hco 1
    have h2 := hco 2
    have h3 := hco 3
    simp at h0 h1 h2 h3
    have e1 : (0 : Fin 4) + 3 = 3 := rfl
    have e2 : (1 : Fin 4) + 1 = 2 := rfl
    have e3 : (1 : Fin 4) + 3 = 0 := rfl
    have e4 : (2 : Fin 4) + 1 = 3 := rfl
    have e5 : (2 : Fin 4) + 3 = 1 := rfl
    have e6 : (3 : Fin 4) + 1 = 0 := rfl
    have e7 : (3 : Fin 4) + 3 = 2 := rfl
    have n1 : (2 : Fin 4) ≠ 0 := by decide
    have n2 : (3 : Fin 4) ≠ 0 := by decide
    have n3 : (2 : Fin 4) ≠ 1 := by decide
    have n4 : (3 : Fin 4) ≠ 1 := by decide
    have q0 : quadRing 0 1 = 1 := rfl
    have q1 : quadRing 1 1 = 1 := rfl
    have q2 : quadRing 2 1 = 2 := rfl
    have q3 : quadRing 3 1 = 2 := rfl
    have k0 : rzArealMass oneQuad (1 / 1000) r.loop.st.coords (rzExtensive quadRing fun _ => 1) 0 = 1 := by
      norm_num [n1, n2, n3, n4, e1, e2, e3, e4, e5, e6, e7, rzArealMass, oneQuad, rzAxisNode, rzArealOffAxis, h0, h1, h2, h3, rzExtensive, q0, q1, q2, q3, Function.update]
    have k1 : rzArealMass oneQuad (1 / 1000) r.loop.st.coords (rzExtensive quadRing fun _ => 1) 1 = 1 := by
      norm_num [n1, n2, n3, n4, e1, e2, e3, e4, e5, e6, e7, rzArealMass, oneQuad, rzAxisNode, rzArealOffAxis, h0, h1, h2, h3, rzExtensive, q0, q1, q2, q3, Function.update]
    have k2 : rzArealMass oneQuad (1 / 1000) r.loop.st.coords (rzExtensive quadRing fun _ => 1) 2 = 2 := by
      norm_num [n1, n2, n3, n4, e1, e2, e3, e4, e5, e6, e7, rzArealMass, oneQuad, rzAxisNode, rzArealOffAxis, h0, h1, h2, h3, rzExtensive, q0, q1, q2, q3, Function.update]
    have k3 : rzArealMass oneQuad (1 / 1000) r.loop.st.coords (rzExtensive quadRing fun _ => 1) 3 = 2 := by
      norm_num [n1, n2, n3, n4, e1, e2, e3, e4, e5, e6, e7, rzArealMass, oneQuad, rzAxisNode, rzArealOffAxis, h0, h1, h2, h3, rzExtensive, q0, q1, q2, q3, Function.update]
    fin_cases n
    · exact k0
    · exact k1
    · exact k2
    · exact k3
  refine ⟨r, h1, hmats, hvel, hco, har, ?_, ?_, ?_⟩
  · rw [h3]
    simp [rzTally, rzKinetic, RzJob.start, boundaryVelocity, rzExtensive, ringState, Fin.sum_univ_four, quadRing, hJ, ringJob, RzJob.inWindow]
    norm_num
  · rw [h3]
    simp [rzTally, rzKinetic, hvel, rzExtensive, ringState, Fin.sum_univ_four, quadRing]
    norm_num
  · rw [h3]; simp [rzTally]

/-- **C138 (what does not hold).**  A ring of nodes that moves onto the axis keeps its mass in the solver that moves it,
but the next solver of the chain takes the nodal masses from areal mass times radius, which is zero on the axis: the
nodes have lost their mass (4 of 6 are left here) and with it their kinetic energy.  Neither solver prints an error: both print zero
for the nodal mass error. -/
theorem C138_handover_fails : ∃ (J : RzJob 1 4) (ws : List Window) (st : RzState 1 4) (r₁ r₂ : RzEnd 1 4),
    J.mesh.WF ∧ J.closures.Lawful ∧ 0 < J.clock.tiny ∧ 0 < J.stages ∧ Linked 0 ws ∧ (∀ n, 0 < st.areal n) ∧
    (∀ n, 0 < st.coords n 1) ∧ J.chain ws st = some [r₁, r₂] ∧
    (∑ n, st.areal n * st.coords n 1 = 6) ∧ (∑ n, r₁.loop.st.areal n * r₁.loop.st.coords n 1 = 4) ∧
    r₁.tally.nodeMass = 0 ∧ r₂.tally.nodeMass = 0 ∧ r₁.tally.change = 0 ∧
    r₁.tally.keEnd + r₁.tally.ieEnd = 3 ∧ r₂.tally.keStart + r₂.tally.ieStart = 2 := by
  obtain ⟨r₁, a1, a2, a3, a4, a5, a6, a7, a8⟩ := ring_after ⟨0, 1⟩
  obtain ⟨r₂, b1, -, b2, b3⟩ := ring_execute ⟨1, 2⟩ r₁.loop.st
  obtain ⟨-, t1, -⟩ := RzJob.execute_spec _ _ _ a1
  have i1 : r₁.tally.ieStart = 0 := by rw [t1]; simp [rzTally, rzInternal, RzJob.start, ringState]
  have i2 : r₁.tally.ieEnd = 0 := by rw [t1]; simp [rzTally, rzInternal, a2]
  have hs : (∑ n, r₁.loop.st.areal n * r₁.loop.st.coords n 1) = 4 := by
    simp only [a4, a5, Fin.sum_univ_four]
    simp
    norm_num
  refine ⟨ringJob, [⟨0, 1⟩, ⟨1, 2⟩], ringState, r₁, r₂, oneQuad_WF, fun _ _ _ _ => ⟨rfl, rfl, rfl, rfl⟩,
    by norm_num [ringJob], by simp [ringJob], ⟨rfl, rfl, trivial⟩, fun _ => by simp [ringState], ?_, ?_, ?_, hs, a8, ?_, ?_, ?_, ?_⟩
  · intro n; fin_cases n <;> simp [ringState, quadRing]
  · simp [RzJob.chain, a1, b1]
  · simp [ringState, quadRing, Fin.sum_univ_four]; norm_num
  · rw [b3]; simp [rzTally]
  · have : r₁.tally.change = (r₁.tally.ieEnd + r₁.tally.keEnd) - (r₁.tally.ieStart + r₁.tally.keStart) := by
      rw [t1]; rfl
    rw [this, a6, a7, i1, i2]; norm_num
  · rw [a7, i2]; norm_num
  · rw [b3]
    have hv : ((ringJob.inWindow ⟨1, 2⟩).start r₁.loop.st).st.vel = ringState.vel := by
      show boundaryVelocity [] (1 : ℝ) r₁.loop.st.vel = _
      rw [a3]; rfl
    have hm : ((ringJob.inWindow ⟨1, 2⟩).start r₁.loop.st).st.mats = [] := a2
    simp only [rzTally, rzKinetic, rzInternal, hv, hm, rzExtensive, a4, a5, Fin.sum_univ_four]
    simp [ringState]
    norm_num

/-- One cycle of an expanding ring under pressure, with a fixed step. -/
noncomputable def pressedRing : RzJob 1 4 where
  mesh := oneQuad
  sets := []
  closures := ⟨fun _ _ _ _ _ => 0, fun _ _ _ p => p⟩
  clock := { timeStart := 0, timeFinal := 1, dtStart := 1 / 10, dtMin := 1 / 10, dtMax := 1 / 10, dtCfl := 1 / 2,
             fuzz := 1 / 1000, tiny := 1 / 10 ^ 14, ival := 1 / 2, cycIval := 10, cycleStop := 1 }
  stages := 1

theorem pressedRing_env (mats : List (RzMat 1)) : pressedRing.envOf (rzDemoState mats) = rzDemoEnv := by
  have : (pressedRing.envOf (rzDemoState mats)).ext = rzDemoEnv.ext := by
    funext n
    show 1 * quadRing n 1 = quadRing n 1
    ring
  show RzEnv.mk _ (pressedRing.envOf (rzDemoState mats)).ext _ _ _ = _
  rw [this]
  rfl

theorem pressedRing_step (s : RzLoop 1 4) (p : RzPt 1) (hm : s.st.mats = [⟨0, true, [p]⟩])
    (hs : s.clock = clockInit pressedRing.clock) : pressedRing.stepOf s = 1 / 10 := by
  simp only [RzJob.stepOf, RzJob.cfl, hm, List.map, rzCycleDt, List.foldl, rzGetTimestep, rzReduceMin, rzElemDt, hs, clockInit]
  norm_num [pressedRing]

/-- The hypotheses of the theorems above are met by a run that ends, and its nodes move. -/
example : ∃ r, pressedRing.execute (rzDemoState [⟨0, true, [rzDemoPt false 1]⟩]) = some r ∧ r.cycles = 1 ∧
    pressedRing.mesh.WF ∧ pressedRing.closures.Lawful ∧ 0 < pressedRing.clock.tiny ∧ 0 < pressedRing.stages ∧
    RzClamp pressedRing.sets (fun _ _ => false) ∧
    pressedRing.Fair (rzDemoState [⟨0, true, [rzDemoPt false 1]⟩]) r.cycles ∧ r.loop.st.vel 2 1 ≠ 0 ∧ r.tally.change = 0 := by
  set st := rzDemoState [⟨0, true, [rzDemoPt false 1]⟩] with hst
  have hex : ∃ r, pressedRing.execute st = some r ∧ r.cycles = 1 := by
    refine ⟨_, if_neg (by simp [pressedRing]), ?_⟩
    have hs : pressedRing.clock.cycleStop = 1 := rfl
    simp [RzJob.loop, hs]
  obtain ⟨r, h1, h2⟩ := hex
  have hlaw : pressedRing.closures.Lawful := fun _ _ _ _ => ⟨rfl, rfl, rfl, rfl⟩
  have hZ : RzClamp pressedRing.sets (fun _ _ => false) := by
    intro t v n d; simp [pressedRing, boundaryVelocity]
  have hd : pressedRing.dts st 1 = [1 / 10] := by
    have : pressedRing.stepOf (pressedRing.start st) = 1 / 10 :=
      pressedRing_step _ (rzDemoPt false 1) rfl rfl
    simp [RzJob.dts, RzJob.after, this]
  have hf : pressedRing.first st = st := rfl
  have hr0 : RzRadiiOK rzDemoEnv quadRing := by
    intro n
    left
    fin_cases n <;> simp [rzDemoEnv, quadRing] <;> norm_num
  have hr1 : RzRadiiOK rzDemoEnv (rzStage rzDemoEnv 0 1 (1 / 10)
      (rzInit (rzDemoState [⟨0, true, [rzDemoPt false 1]⟩]))).coords := by
    intro n
    left
    rw [rzDemo_coords]
    fin_cases n <;>
      simp [rzDemoEnv, quadRing, rzB, rzCoords, oneQuad, bmatrix2D] <;> norm_num
  have hc : ∀ mats : List (RzMat 1), (∃ p, mats = [⟨0, true, [p]⟩]) → RzErosionConsistent mats := by
    rintro _ ⟨p, rfl⟩ m hm p hp m' hm' p' hp' _
    simp only [List.mem_singleton] at hm hm'
    subst hm; subst hm'
    simp only [List.mem_singleton] at hp hp'
    rw [hp, hp']
  have hfair : pressedRing.Fair st r.cycles := by
    unfold RzJob.Fair
    rw [h2, hd, hf, pressedRing_env]
    exact rzDemo_along _ ⟨hr0, hc _ ⟨_, rfl⟩⟩ ⟨hr1, hc _ ⟨_, rfl⟩⟩
  refine ⟨r, h1, h2, oneQuad_WF, hlaw, by norm_num [pressedRing], by simp [pressedRing], hZ, hfair, ?_, ?_⟩
  · have H := pressedRing.history st r h1
    rw [H.final, h2, hd, hf, pressedRing_env]
    have : (rzRun rzDemoEnv pressedRing.stages pressedRing.clock.timeStart [1 / 10] st).vel 2 1
        = rzVelFree rzDemoEnv 1 (1 / 10) (rzInit st) 2 1 := by
      show (rzCycle rzDemoEnv 1 0 (1 / 10) st).vel 2 1 = _
      have e : rzCycle rzDemoEnv 1 0 (1 / 10) st = rzStage rzDemoEnv 0 1 (1 / 10) (rzInit st) := by
        simp [rzCycle]
      rw [e, rzStage_vel]
      rfl
    rw [this, rzDemo_free]
    simp [rzB, rzCoords, oneQuad, bmatrix2D, quadRing]
  · refine C138_energy pressedRing oneQuad_WF hlaw (by norm_num [pressedRing]) _ hZ (by simp [pressedRing]) st
      (fun _ => by simp [hst, rzDemoState]) ?_ r h1 hfair
    intro m hm p hp
    simp only [hst, rzDemoState, List.mem_singleton] at hm
    subst hm
    simp only [List.mem_singleton] at hp
    subst hp
    simp [rzDemoPt]

end Fierro
