import Verif.Model.ThermRun
import Verif.Props.SgtmBoundary
import Verif.Props.SolverLoop
import Verif.Props.Table

/-!
# C123: a whole run of the thermal solver
-/

namespace Fierro

variable {E N : ℕ}

/-! ## The loop in closed form -/

/-- Specification: the loop variables after `k` cycles if the loop were never left. -/
noncomputable def ThermJob.after (J : ThermJob E N) (s0 : ThermLoop E N) : ℕ → Option (ThermLoop E N)
  | 0 => some s0
  | k + 1 => (J.after s0 k).bind (J.cycle k)

theorem ThermJob.loop_spec (J : ThermJob E N) (s0 : ThermLoop E N) (n k : ℕ) (s : ThermLoop E N)
    (hs : J.after s0 k = some s) (r : ThermLoop E N) (m : ℕ) (h : J.loop n k s = some (r, m)) :
    k ≤ m ∧ m ≤ k + n ∧ J.after s0 m = some r ∧
      (m = k + n ∨ J.clock.timeFinal ≤ r.clock.time) ∧
      ∀ j, k < j → j < m → ∀ q, J.after s0 j = some q → q.clock.time < J.clock.timeFinal := by
  induction n generalizing k s with
  | zero =>
    rw [ThermJob.loop] at h
    cases h
    exact ⟨le_rfl, le_rfl, hs, Or.inl rfl, fun j h1 h2 => absurd (h1.trans h2) (lt_irrefl _)⟩
  | succ n ih =>
    rw [ThermJob.loop] at h
    cases hc : J.cycle k s with
    | none => rw [hc] at h; simp at h
    | some s' =>
      rw [hc] at h
      have hs' : J.after s0 (k + 1) = some s' := by rw [ThermJob.after, hs]; exact hc
      by_cases hf : s'.clock.time ≥ J.clock.timeFinal
      · simp only [if_pos hf] at h
        cases h
        exact ⟨by omega, by omega, hs', Or.inr hf, fun j h1 h2 => by omega⟩
      · simp only [if_neg hf] at h
        obtain ⟨h1, h2, h3, h4, h5⟩ := ih (k + 1) s' hs' h
        refine ⟨by omega, by omega, h3, ?_, ?_⟩
        · rcases h4 with h4 | h4
          · left; omega
          · exact Or.inr h4
        · intro j hj1 hj2 q hq
          rcases Nat.lt_or_ge (k + 1) j with h' | h'
          · exact h5 j h' hj2 q hq
          · have : j = k + 1 := by omega
            subst this
            rw [hs'] at hq; cases hq
            exact not_le.1 hf

theorem ThermJob.execute_spec (J : ThermJob E N) (st : ThermState E N) (r : ThermLoop E N) (n : ℕ)
    (h : J.execute st = some (r, n)) :
    ∃ s0, J.start st = some s0 ∧ n ≤ J.clock.cycleStop ∧ J.after s0 n = some r ∧
      (n = J.clock.cycleStop ∨ J.clock.timeFinal ≤ r.clock.time) ∧
      ∀ j, 0 < j → j < n → ∀ q, J.after s0 j = some q → q.clock.time < J.clock.timeFinal := by
  unfold ThermJob.execute at h
  split_ifs at h
  cases hs : J.start st with
  | none => rw [hs] at h; simp at h
  | some s0 =>
    rw [hs] at h
    obtain ⟨_, h2, h3, h4, h5⟩ := J.loop_spec s0 _ 0 s0 rfl r n h
    exact ⟨s0, rfl, by omega, h3, by simpa using h4, h5⟩

/-- What a completed cycle did. -/
theorem ThermJob.cycle_some (J : ThermJob E N) (c : ℕ) (s s' : ThermLoop E N)
    (h : J.cycle c s = some s') :
    ∃ src, J.sourceAt s.clock.time s.pos = some src ∧
      thermCycle (J.env fun _ => src) c J.stages (J.stepOf s) s.st = some s'.st ∧
      J.moveTo (s.clock.time + J.stepOf s) s.pos = some s'.pos ∧
      s'.clock = (tickClock J.clock c (J.stepOf s) s.clock).1 ∧
      s'.frames = if (tickClock J.clock c (J.stepOf s) s.clock).2 then s'.st.temp :: s.frames
        else s.frames := by
  unfold ThermJob.cycle at h
  cases h1 : J.sourceAt s.clock.time s.pos with
  | none => rw [h1] at h; simp at h
  | some src =>
    rw [h1] at h
    cases h2 : thermCycle (J.env fun _ => src) c J.stages (J.stepOf s) s.st with
    | none => simp only [h2] at h; simp at h
    | some st =>
      simp only [h2] at h
      unfold ThermJob.close at h
      rw [Option.map_eq_some_iff] at h
      obtain ⟨pos, hp, rfl⟩ := h
      exact ⟨src, rfl, h2, hp, rfl, rfl⟩

theorem tickClock_time (o : ClockOpts) (c : ℕ) (dt : ℝ) (s : Clock) :
    (tickClock o c dt s).1.time = s.time + dt := by
  unfold tickClock; simp only; split_ifs <;> rfl

theorem tickClock_dt (o : ClockOpts) (c : ℕ) (dt : ℝ) (s : Clock) :
    (tickClock o c dt s).1.dt = s.dt ∨ (tickClock o c dt s).1.dt = dt := by
  unfold tickClock; simp only; split_ifs
  · exact Or.inl rfl
  · exact Or.inr rfl

theorem ThermJob.after_prefix (J : ThermJob E N) (s0 : ThermLoop E N) (n : ℕ) (r : ThermLoop E N)
    (h : J.after s0 n = some r) (j : ℕ) (hj : j ≤ n) : ∃ q, J.after s0 j = some q := by
  induction n generalizing r with
  | zero => obtain rfl : j = 0 := by omega
            exact ⟨s0, rfl⟩
  | succ n ih =>
    rcases Nat.eq_or_lt_of_le hj with rfl | hj
    · exact ⟨r, h⟩
    · rw [ThermJob.after, Option.bind_eq_some_iff] at h
      obtain ⟨q, hq, _⟩ := h
      exact ih q hq (by omega)

theorem ThermJob.after_succ (J : ThermJob E N) (s0 : ThermLoop E N) (n : ℕ) (r : ThermLoop E N)
    (h : J.after s0 (n + 1) = some r) :
    ∃ q, J.after s0 n = some q ∧ J.cycle n q = some r := by
  rw [ThermJob.after, Option.bind_eq_some_iff] at h
  exact h

/-! ## The run as cycles of the thermal model -/

theorem thermCycle_congr (env env' : ThermEnv E N) (c S : ℕ) (dt : ℝ) (st : ThermState E N)
    (h1 : env'.mesh = env.mesh) (h2 : env'.coords = env.coords) (h3 : env'.mass = env.mass)
    (h4 : env'.sets = env.sets) (h5 : env'.source c = env.source c) :
    thermCycle env' c S dt st = thermCycle env c S dt st := by
  have : thermStage env' c = thermStage env c := by
    funext a d x
    unfold thermStage boundaryHeat
    rw [h1, h2, h3, h4, h5]
  unfold thermCycle
  rw [this]

theorem thermRun_snoc (env : ThermEnv E N) (S c : ℕ) (dts : List ℝ) (dt : ℝ) (st : ThermState E N) :
    thermRun env S c (dts ++ [dt]) st
      = (thermRun env S c dts st).bind (thermCycle env (c + dts.length) S dt) := by
  induction dts generalizing c st with
  | nil => simp [thermRun]
  | cons d dts ih =>
    rw [List.cons_append, thermRun, thermRun]
    cases thermCycle env c S d st with
    | none => rfl
    | some x =>
      simp only [Option.bind_some]
      rw [ih]
      congr 2
      simp; omega

/-- Specification: the time before cycle `c`, for a start time and a list of steps. -/
def timeBefore (t0 : ℝ) (dts : List ℝ) (c : ℕ) : ℝ := t0 + (dts.take c).sum

/-- Specification: the moving source as it is in the run. In cycle `c`, which starts at time `t c`,
it has the power that the path gives at `t c`; it is where the path puts it at `t c`, except in the
first cycle, where it is at the origin. -/
def SourceFollows (path : List PathPoint) (t : ℕ → ℝ) (n : ℕ)
    (src : ℕ → Option (ℝ × (Fin 3 → ℝ))) : Prop :=
  ∀ c < n, ∃ w pos, src c = some (w, pos) ∧ toolPower path (t c) = some w ∧
    (c = 0 → pos = fun _ => 0) ∧
    (0 < c → ∀ d, toolPosition path (t c) d = some (pos d))

theorem toolPlace_some (path : List PathPoint) (t : ℝ) (p : Fin 3 → ℝ)
    (h : toolPlace path t = some p) (d : Fin 3) : toolPosition path t d = some (p d) := by
  unfold toolPlace at h
  cases h0 : toolPosition path t 0 <;> cases h1 : toolPosition path t 1 <;>
    cases h2 : toolPosition path t 2 <;> rw [h0, h1, h2] at h <;> simp at h
  subst h
  fin_cases d <;> simp [h0, h1, h2]

/-- The source of cycle `c` and the step of cycle `c` of a run. -/
noncomputable def ThermJob.srcOf (J : ThermJob E N) (s0 : ThermLoop E N) (c : ℕ) :
    Option (ℝ × (Fin 3 → ℝ)) :=
  match J.after s0 c with
  | some s => (J.sourceAt s.clock.time s.pos).getD none
  | none => none

noncomputable def ThermJob.dtOf (J : ThermJob E N) (s0 : ThermLoop E N) (c : ℕ) : ℝ :=
  match J.after s0 c with
  | some s => J.stepOf s
  | none => 0

noncomputable def ThermJob.dts (J : ThermJob E N) (s0 : ThermLoop E N) (n : ℕ) : List ℝ :=
  (List.range n).map (J.dtOf s0)

theorem ThermJob.dts_succ (J : ThermJob E N) (s0 : ThermLoop E N) (n : ℕ) :
    J.dts s0 (n + 1) = J.dts s0 n ++ [J.dtOf s0 n] := by
  simp [ThermJob.dts, List.range_succ]

theorem ThermJob.dts_take (J : ThermJob E N) (s0 : ThermLoop E N) (n c : ℕ) (h : c ≤ n) :
    (J.dts s0 n).take c = J.dts s0 c := by
  unfold ThermJob.dts
  rw [← List.map_take, List.take_range, min_eq_left h]

theorem ThermJob.after_run (J : ThermJob E N) (s0 : ThermLoop E N) (n : ℕ) (r : ThermLoop E N)
    (h : J.after s0 n = some r) :
    thermRun (J.env (J.srcOf s0)) J.stages 0 (J.dts s0 n) s0.st = some r.st ∧
    r.clock.time = s0.clock.time + (J.dts s0 n).sum := by
  induction n generalizing r with
  | zero =>
    cases h
    exact ⟨rfl, by simp [ThermJob.dts]⟩
  | succ n ih =>
    obtain ⟨q, hq, hc⟩ := J.after_succ s0 n r h
    obtain ⟨ih1, ih2⟩ := ih q hq
    obtain ⟨src, h1, h2, h3, h4, h5⟩ := J.cycle_some n q r hc
    have hdt : J.dtOf s0 n = J.stepOf q := by rw [ThermJob.dtOf, hq]
    have hsrc : J.srcOf s0 n = src := by rw [ThermJob.srcOf, hq]; simp [h1]
    rw [J.dts_succ]
    constructor
    · rw [thermRun_snoc, ih1, Option.bind_some, hdt]
      rw [← h2]
      have hl : 0 + (J.dts s0 n).length = n := by simp [ThermJob.dts]
      rw [hl]
      exact thermCycle_congr _ _ _ _ _ _ rfl rfl rfl rfl hsrc
    · rw [h4, tickClock_time, ih2, hdt]
      simp [add_assoc]

theorem ThermJob.start_some (J : ThermJob E N) (st : ThermState E N) (s0 : ThermLoop E N)
    (h : J.start st = some s0) :
    s0.clock = clockInit J.clock ∧ (s0.pos = fun _ => 0) ∧
    s0.frames = [boundaryTemperature J.sets st.temp] ∧
    s0.st.temp = boundaryTemperature J.sets st.temp ∧ s0.st.cornerQ = st.cornerQ ∧
    (if J.moving then J.tabulate s0.st.temp 0 st.mats else some st.mats) = some s0.st.mats := by
  unfold ThermJob.start at h
  simp only at h
  cases hm : (if J.moving then J.tabulate (boundaryTemperature J.sets st.temp) 0 st.mats
      else some st.mats) with
  | none => rw [hm] at h; simp at h
  | some m =>
    rw [hm] at h
    cases h
    exact ⟨rfl, rfl, rfl, rfl, rfl, hm⟩

theorem ThermJob.after_pos (J : ThermJob E N) (hmov : J.moving = true) (s0 : ThermLoop E N)
    (h0 : s0.pos = fun _ => 0) (n : ℕ) (r : ThermLoop E N) (h : J.after s0 n = some r) :
    (n = 0 → r.pos = fun _ => 0) ∧
    (0 < n → ∀ d, toolPosition J.path r.clock.time d = some (r.pos d)) := by
  cases n with
  | zero => cases h; exact ⟨fun _ => h0, fun h => absurd h (lt_irrefl _)⟩
  | succ n =>
    refine ⟨fun h => absurd h (by omega), fun _ d => ?_⟩
    obtain ⟨q, hq, hc⟩ := J.after_succ s0 n r h
    obtain ⟨src, h1, h2, h3, h4, h5⟩ := J.cycle_some n q r hc
    rw [ThermJob.moveTo, if_pos hmov] at h3
    rw [h4, tickClock_time]
    exact toolPlace_some _ _ _ h3 d

/-- **C123.** A finished run of the thermal solver with `n` cycles is `n` cycles of the conduction
model, one after the other, from the initial state after the boundary temperatures (and the tables)
were applied: no cycle is lost, none is done twice, and time is the start time plus the steps made.
The run ends because `cycle_stop` cycles were made or because the final time is reached, and no
cycle starts after the final time. The source has in each cycle the power of the tool path at the
start of the cycle, and its place is that of the tool path at the start of the cycle except in the
first cycle. Without `use_moving_heat_source` there is no source. -/
theorem C123_run (J : ThermJob E N) (st : ThermState E N) (r : ThermLoop E N) (n : ℕ)
    (h : J.execute st = some (r, n)) :
    ∃ (s0 : ThermLoop E N) (dts : List ℝ) (src : ℕ → Option (ℝ × (Fin 3 → ℝ))),
      s0.st.temp = boundaryTemperature J.sets st.temp ∧
      (if J.moving then J.tabulate s0.st.temp 0 st.mats else some st.mats) = some s0.st.mats ∧
      dts.length = n ∧ n ≤ J.clock.cycleStop ∧
      thermRun (J.env src) J.stages 0 dts s0.st = some r.st ∧
      r.clock.time = J.clock.timeStart + dts.sum ∧
      (n = J.clock.cycleStop ∨ J.clock.timeFinal ≤ r.clock.time) ∧
      (∀ c, 0 < c → c < n → timeBefore J.clock.timeStart dts c < J.clock.timeFinal) ∧
      (J.moving = true → SourceFollows J.path (timeBefore J.clock.timeStart dts) n src) ∧
      (J.moving = false → ∀ c, src c = none) := by
  obtain ⟨s0, h0, hn, hr, hend, hlt⟩ := J.execute_spec st r n h
  obtain ⟨k1, k2, k3, k4, k5, k6⟩ := J.start_some st s0 h0
  obtain ⟨h1, h2⟩ := J.after_run s0 n r hr
  have hT : ∀ c ≤ n, ∀ q, J.after s0 c = some q →
      timeBefore J.clock.timeStart (J.dts s0 n) c = q.clock.time := by
    intro c hc q hq
    rw [timeBefore, J.dts_take s0 n c hc, (J.after_run s0 c q hq).2, k1]
    rfl
  refine ⟨s0, J.dts s0 n, J.srcOf s0, k4, k6, by simp [ThermJob.dts], hn, h1, ?_, hend, ?_, ?_, ?_⟩
  · rw [h2, k1]; rfl
  · intro c hc0 hc
    obtain ⟨q, hq⟩ := J.after_prefix s0 n r hr c hc.le
    rw [hT c hc.le q hq]
    exact hlt c hc0 hc q hq
  · intro hmov c hc
    obtain ⟨q, hq⟩ := J.after_prefix s0 n r hr c hc.le
    rw [hT c hc.le q hq]
    obtain ⟨p1, p2⟩ := J.after_pos hmov s0 k2 c q hq
    obtain ⟨w, hw⟩ := C31_in_range (J.path.map fun p => (p.time, p.power)) q.clock.time
    refine ⟨w, q.pos, ?_, hw, p1, p2⟩
    rw [ThermJob.srcOf, hq]
    simp only [ThermJob.sourceAt, hmov, if_true]
    rw [show toolPower J.path q.clock.time = some w from hw]
    rfl
  · intro hmov c
    unfold ThermJob.srcOf
    cases J.after s0 c with
    | none => rfl
    | some q => simp [ThermJob.sourceAt, hmov]

/-! ## Steps and end -/

theorem thermCycleDt_ge_floor (o : ClockOpts) (ho : o.Sane) (m : List (List ThermElem))
    (t g dt : ℝ) (hdt : stepFloor o ≤ dt) (ht : t < o.timeFinal) :
    stepFloor o ≤ thermCycleDt o m t g dt := by
  have hp := stepFloor_pos o ho
  have f1 : stepFloor o ≤ o.dtMin := (min_le_right _ _).trans (min_le_left _ _)
  have f2 : stepFloor o ≤ o.tiny := (min_le_right _ _).trans (min_le_right _ _)
  have hg : ∀ es, stepFloor o ≤ thermTimestep o es t g dt := by
    intro es
    unfold thermTimestep
    simp only
    refine le_min (le_min ?_ ?_) ?_
    · cases hr : thermReduceMin o es with
      | none => simp only; linarith
      | some m =>
        simp only
        split_ifs with h
        · obtain ⟨e, _, hm⟩ := thermReduceMin_mem o es m hr
          rw [hm]; exact f1.trans (le_max_right _ _)
        · linarith
    · linarith [le_max_left o.fuzz (g - t), ho.fuzz]
    · linarith
  have : thermCycleDt o m t g dt =
      (m.map fun es => thermTimestep o es t g dt).foldl (fun m d => min d m) o.dtMax := by
    unfold thermCycleDt; rw [List.foldl_map]
  rw [this]
  rcases foldl_min_mem (m.map fun es => thermTimestep o es t g dt) o.dtMax with h | h
  · rw [h]; exact f1.trans ho.dtMax
  · obtain ⟨es, _, he⟩ := List.mem_map.1 h
    rw [← he]; exact hg es

theorem ThermJob.after_dt (J : ThermJob E N) (ho : J.clock.Sane) (s0 : ThermLoop E N)
    (h0 : s0.clock = clockInit J.clock) (k : ℕ)
    (hk : ∀ j < k, ∀ q, J.after s0 j = some q → q.clock.time < J.clock.timeFinal) (r : ThermLoop E N)
    (hr : J.after s0 k = some r) : stepFloor J.clock ≤ r.clock.dt := by
  induction k generalizing r with
  | zero => cases hr; rw [h0]; exact min_le_left _ _
  | succ k ih =>
    obtain ⟨q, hq, hc⟩ := J.after_succ s0 k r hr
    obtain ⟨src, h1, h2, h3, h4, h5⟩ := J.cycle_some k q r hc
    have ih := ih (fun j hj => hk j (by omega)) q hq
    rw [h4]
    rcases tickClock_dt J.clock k (J.stepOf q) q.clock with h | h
    · rw [h]; exact ih
    · rw [h]; exact thermCycleDt_ge_floor _ ho _ _ _ _ ih (hk k (by omega) q hq)

/-- **C123.** Before the final time every cycle makes time advance by at least a fixed amount; when
the mesh has material the run does not pass the final time by more than the tolerance; and with
enough cycles it reaches it. -/
theorem C123_progress (J : ThermJob E N) (ho : J.clock.Sane)
    (hs : J.clock.timeStart < J.clock.timeFinal) (st : ThermState E N) (r : ThermLoop E N) (n : ℕ)
    (h : J.execute st = some (r, n)) :
    J.clock.timeStart + n * min J.clock.dtStart (min J.clock.dtMin J.clock.tiny) ≤ r.clock.time ∧
    (st.mats ≠ [] → r.clock.time ≤ J.clock.timeFinal + J.clock.tiny) ∧
    (J.clock.timeFinal - J.clock.timeStart
        ≤ J.clock.cycleStop * min J.clock.dtStart (min J.clock.dtMin J.clock.tiny) →
      J.clock.timeFinal ≤ r.clock.time) := by
  obtain ⟨s0, h0, hn, hr, hend, hlt⟩ := J.execute_spec st r n h
  obtain ⟨k1, k2, k3, k4, k5, k6⟩ := J.start_some st s0 h0
  have hlt' : ∀ j < n, ∀ q, J.after s0 j = some q → q.clock.time < J.clock.timeFinal := by
    intro j hj q hq
    rcases Nat.eq_zero_or_pos j with rfl | h'
    · cases hq; rw [k1]; exact hs
    · exact hlt j h' hj q hq
  have key : ∀ j ≤ n, ∀ q, J.after s0 j = some q →
      J.clock.timeStart + j * stepFloor J.clock ≤ q.clock.time := by
    intro j
    induction j with
    | zero => intro _ q hq; cases hq; rw [k1]; simp [clockInit]
    | succ j ih =>
      intro hj q hq
      obtain ⟨p, hp, hc⟩ := J.after_succ s0 j q hq
      obtain ⟨src, h1, h2, h3, h4, h5⟩ := J.cycle_some j p q hc
      have := ih (by omega) p hp
      have := thermCycleDt_ge_floor J.clock ho (p.st.mats.map fun pts => pts.map J.elemOf) p.clock.time
        p.clock.gtime p.clock.dt
        (J.after_dt ho s0 k1 j (fun i hi => hlt' i (by omega)) p hp) (hlt' j (by omega) p hp)
      rw [h4, tickClock_time]
      unfold ThermJob.stepOf
      push_cast
      linarith
  have hk := key n le_rfl r hr
  refine ⟨hk, ?_, ?_⟩
  · intro hm
    have hmats : ∀ j q, J.after s0 j = some q → q.st.mats ≠ [] := by
      intro j
      induction j with
      | zero =>
        intro q hq
        cases hq
        intro he
        rw [he] at k6
        split_ifs at k6 with hmov
        · cases hst : st.mats with
          | nil => exact hm hst
          | cons p ms =>
            rw [hst, ThermJob.tabulate] at k6
            revert k6
            cases List.mapM (J.tablePoint s0.st.temp 0) p <;>
              cases J.tabulate s0.st.temp (0 + 1) ms <;> simp
        · exact hm (Option.some.inj k6)
      | succ j ih =>
        intro q hq
        obtain ⟨p, hp, hc⟩ := J.after_succ s0 j q hq
        obtain ⟨src, h1, h2, h3, h4, h5⟩ := J.cycle_some j p q hc
        by_cases hS : 0 < J.stages
        · refine thermCycle_induct _ _ _ hS _ _ _ h2 (fun x => x.mats ≠ []) (fun x => x.mats ≠ [])
            (ih p hp) ?_ ?_ <;>
          · intro s _ a b ha hab
            obtain ⟨cp, hcp⟩ := thermStage_cp _ _ _ _ a b hab
            obtain ⟨-, -, -, -, hb, -⟩ := thermStage_some _ _ _ _ a b hab cp hcp
            rw [hb]; simpa using ha
        · obtain hS : J.stages = 0 := by omega
          rw [hS, thermCycle] at h2
          simp at h2
          rw [← h2]
          exact ih p hp
    cases n with
    | zero => cases hr; rw [k1]; show J.clock.timeStart ≤ _; linarith [ho.tiny]
    | succ n =>
      obtain ⟨q, hq, hc⟩ := J.after_succ s0 n r hr
      obtain ⟨src, h1, h2, h3, h4, h5⟩ := J.cycle_some n q r hc
      rw [h4, tickClock_time, ThermJob.stepOf]
      obtain ⟨es, hes⟩ := List.exists_mem_of_ne_nil _ (hmats n q hq)
      have g1 := (thermCycleDt_le J.clock (q.st.mats.map fun pts => pts.map J.elemOf) q.clock.time
        q.clock.gtime q.clock.dt).2 _ (List.mem_map_of_mem hes)
      have g2 := (thermTimestep_le J.clock (es.map J.elemOf) q.clock.time q.clock.gtime
        q.clock.dt).2.2.2
      linarith
  · intro hc
    rcases hend with he | he
    · rw [he] at hk
      have : stepFloor J.clock = min J.clock.dtStart (min J.clock.dtMin J.clock.tiny) := rfl
      rw [this] at hk
      linarith
    · exact he

/-! ## Material properties -/

/-- Specification: element, conductivity, density and specific heat of every material point. -/
def thermData (mats : List (List (ThermPt E))) : List (List (Fin E × ℝ × ℝ × ℝ)) :=
  mats.map fun pts => pts.map fun p => (p.elem, p.conductivity, p.den, p.specificHeat)

theorem thermCycle_thermData (env : ThermEnv E N) (c S : ℕ) (dt : ℝ) (st st' : ThermState E N)
    (h : thermCycle env c S dt st = some st') : thermData st'.mats = thermData st.mats := by
  have stage : ∀ s a b, thermData a.mats = thermData st.mats →
      thermStage env c (rkAlpha S s) dt a = some b → thermData b.mats = thermData st.mats := by
    intro s a b ha hab
    obtain ⟨cp, hcp⟩ := thermStage_cp _ _ _ _ a b hab
    obtain ⟨-, -, -, -, hb, -⟩ := thermStage_some _ _ _ _ a b hab cp hcp
    rw [hb, ← ha]
    unfold thermData
    rw [List.map_map]
    refine List.map_congr_left fun pts _ => ?_
    simp [heatPoint]
  rcases Nat.eq_zero_or_pos S with rfl | hS
  · rw [thermCycle] at h
    simp at h
    rw [← h]
  · exact thermCycle_induct env c S hS dt st st' h (fun x => thermData x.mats = thermData st.mats)
      (fun x => thermData x.mats = thermData st.mats) rfl
      (fun s _ a b ha hab => stage s a b ha hab) (fun s _ a b ha hab => stage s a b ha hab)

theorem thermRun_thermData (env : ThermEnv E N) (S c : ℕ) (dts : List ℝ) (st st' : ThermState E N)
    (h : thermRun env S c dts st = some st') : thermData st'.mats = thermData st.mats :=
  thermRun_induct env S (fun a => thermData a.mats = thermData st.mats)
    (fun c dt a b ha hab => (thermCycle_thermData env c S dt a b hab).trans ha) dts c st st' rfl h

/-- **C123 (tables during a run).** Conductivity, density and specific heat never follow the
temperature: the tables are read once, before the first cycle and only with a moving source, so all
three keep their first values for the whole run, however hot the material becomes. -/
theorem C123_properties_frozen_fails (J : ThermJob E N) (st : ThermState E N) (r : ThermLoop E N)
    (n : ℕ) (h : J.execute st = some (r, n)) :
    ∃ s0, J.start st = some s0 ∧ thermData r.st.mats = thermData s0.st.mats ∧
      (J.moving = false → thermData r.st.mats = thermData st.mats) := by
  obtain ⟨s0, h0, hn, hr, hend, hlt⟩ := J.execute_spec st r n h
  obtain ⟨k1, k2, k3, k4, k5, k6⟩ := J.start_some st s0 h0
  have h1 := thermRun_thermData _ _ _ _ _ _ (J.after_run s0 n r hr).1
  refine ⟨s0, h0, h1, fun hm => ?_⟩
  rw [hm] at k6
  rw [h1, ← Option.some.inj k6]

theorem ThermJob.cycle_tables (J : ThermJob E N) (hm : J.moving = false)
    (fns : ℕ → Bool × Bool × Bool) (tables : List (List ℝ) × List (List ℝ) × List (List ℝ))
    (path : List PathPoint) (c : ℕ) (s : ThermLoop E N) :
    ThermJob.cycle { J with fns := fns, tables := tables, path := path } c s = J.cycle c s := by
  unfold ThermJob.cycle ThermJob.sourceAt ThermJob.close ThermJob.moveTo ThermJob.env
    ThermJob.stepOf ThermJob.elemOf
  simp only [hm]
  rfl

/-- **C123 (tables without a moving source).** A material given by tables has no effect unless the
solver has a moving source: without one the run does not depend on the tables at all. -/
theorem C123_tables_unread_fails (J : ThermJob E N) (hm : J.moving = false)
    (fns : ℕ → Bool × Bool × Bool) (tables : List (List ℝ) × List (List ℝ) × List (List ℝ))
    (path : List PathPoint) (st : ThermState E N) :
    ThermJob.execute { J with fns := fns, tables := tables, path := path } st = J.execute st := by
  have hloop : ∀ n c s, ThermJob.loop { J with fns := fns, tables := tables, path := path } n c s
      = J.loop n c s := by
    intro n
    induction n with
    | zero => intro c s; rfl
    | succ n ih =>
      intro c s
      simp only [ThermJob.loop, J.cycle_tables hm, ih]
  have hstart : ThermJob.start { J with fns := fns, tables := tables, path := path } st
      = J.start st := by
    unfold ThermJob.start
    simp [hm]
  unfold ThermJob.execute
  rw [hstart]
  simp only [hloop]

/-- Specification: no element of the list has its centre within the radius 8 of a place. -/
def OutOfReach (mesh : Mesh8 E N) (coords : Fin N → Fin 3 → ℝ) (place : Fin 3 → ℝ) : Prop :=
  ∀ e : Fin E, 8 * 8 < ∑ d, (place d - (∑ l, coords (mesh.nodesInElem e l) d) / 8) ^ 2

theorem cornerHeats_out (mesh : Mesh8 E N) (coords : Fin N → Fin 3 → ℝ) (temp : Fin N → ℝ)
    (w : ℝ) (pos : Fin 3 → ℝ) (hout : OutOfReach mesh coords pos) (mats : List (List (ThermPt E)))
    (cq : Fin E × Fin 8 → ℝ) :
    cornerHeats mesh coords temp (some (w, pos)) mats cq = cornerHeats mesh coords temp none mats cq := by
  have hadd : ∀ (pts : List (ThermPt E)) cq, pts.foldl (addSource mesh coords w pos) cq = cq := by
    intro pts
    induction pts with
    | nil => intro cq; rfl
    | cons p pts ih =>
      intro cq
      rw [List.foldl_cons, ih]
      funext c
      unfold addSource
      rw [if_neg]
      rintro ⟨-, h⟩
      have := hout p.elem
      rw [sourceDistSq_eq] at h
      exact absurd h (not_le.2 (by simpa using this))
  unfold cornerHeats
  simp only [hadd]

/-- **C123 (source in the first cycle).** The tool path is not followed in the first cycle: the
source is at the origin of the coordinates there, with the power of the path. On a mesh out of
reach of the origin the first cycle is done as if there were no source, also if the path starts in
the middle of the mesh. -/
theorem C123_source_start_fails (J : ThermJob E N) (hm : J.moving = true)
    (hout : OutOfReach J.mesh J.coords fun _ => 0) (st : ThermState E N) (s0 s1 : ThermLoop E N)
    (h0 : J.start st = some s0) (h : J.cycle 0 s0 = some s1) :
    thermCycle (J.env fun _ => none) 0 J.stages (J.stepOf s0) s0.st = some s1.st := by
  obtain ⟨k1, k2, k3, k4, k5, k6⟩ := J.start_some st s0 h0
  obtain ⟨src, h1, h2, h3, h4, h5⟩ := J.cycle_some 0 s0 s1 h
  rw [ThermJob.sourceAt, if_pos hm, Option.map_eq_some_iff] at h1
  obtain ⟨w, hw, rfl⟩ := h1
  rw [← h2]
  have : thermStage (J.env fun _ => none) 0 = thermStage (J.env fun _ => some (w, s0.pos)) 0 := by
    funext a d x
    unfold thermStage
    simp only [ThermJob.env, k2]
    rw [cornerHeats_out _ _ _ _ _ hout]
    rfl
  unfold thermCycle
  rw [this]

/-! ## Dumps -/

theorem tickClock_dump (o : ClockOpts) (c : ℕ) (dt : ℝ) (s : Clock) :
    ((tickClock o c dt s).2 = true ∧ (tickClock o c dt s).1.log = (c, s.time + dt) :: s.log ∧
      writeFlag o c (s.time + dt) s.gtime = true) ∨
    ((tickClock o c dt s).2 = false ∧ (tickClock o c dt s).1.log = s.log ∧
      writeFlag o c (s.time + dt) s.gtime = false) := by
  unfold tickClock; simp only; split_ifs with h
  · exact Or.inl ⟨rfl, rfl, h⟩
  · exact Or.inr ⟨rfl, rfl, by simpa using h⟩

/-- Specification: the frames written by a run, newest first, next to `(cycle, time)` of each; each
frame is the state that the run had after its cycle, and the oldest frame is the initial one. -/
def FramesRight (traj : ℕ → Option (ℝ × (Fin N → ℝ))) (first : Fin N → ℝ) (n : ℕ) :
    List (ℕ × ℝ) → List (Fin N → ℝ) → Prop
  | [], fs => fs = [first]
  | _ :: _, [] => False
  | (c, t) :: log, f :: fs => c < n ∧ traj (c + 1) = some (t, f) ∧ FramesRight traj first c log fs

theorem FramesRight.mono {traj : ℕ → Option (ℝ × (Fin N → ℝ))} {first : Fin N → ℝ} {n m : ℕ}
    (hnm : n ≤ m) {log : List (ℕ × ℝ)} {fs : List (Fin N → ℝ)}
    (h : FramesRight traj first n log fs) : FramesRight traj first m log fs := by
  cases log with
  | nil => exact h
  | cons p log =>
    cases fs with
    | nil => exact h
    | cons f fs => exact ⟨h.1.trans_le hnm, h.2⟩

/-- **C123.** The dumps of a run: the first shows the initial state with the boundary temperatures;
every later one shows the state after its cycle and carries the time of that state; the cycles of
the dumps increase, so none writes twice; and a run that reaches its final time has written its last
state. -/
theorem C123_dumps (J : ThermJob E N) (st : ThermState E N) (r : ThermLoop E N) (n : ℕ)
    (h : J.execute st = some (r, n)) :
    ∃ s0, J.start st = some s0 ∧
      FramesRight (fun k => (J.after s0 k).map fun q => (q.clock.time, q.st.temp))
        (boundaryTemperature J.sets st.temp) n r.clock.log r.frames ∧
      (0 < n → J.clock.timeFinal ≤ r.clock.time →
        (n - 1, r.clock.time) ∈ r.clock.log ∧ r.frames.head? = some r.st.temp) := by
  obtain ⟨s0, h0, hn, hr, hend, hlt⟩ := J.execute_spec st r n h
  obtain ⟨k1, k2, k3, k4, k5, k6⟩ := J.start_some st s0 h0
  refine ⟨s0, h0, ?_, ?_⟩
  · have key : ∀ k q, J.after s0 k = some q →
        FramesRight (fun k => (J.after s0 k).map fun q => (q.clock.time, q.st.temp))
          (boundaryTemperature J.sets st.temp) k q.clock.log q.frames := by
      intro k
      induction k with
      | zero => intro q hq; cases hq; rw [k1, k3]; rfl
      | succ k ih =>
        intro q hq
        obtain ⟨p, hp, hc⟩ := J.after_succ s0 k q hq
        obtain ⟨src, h1, h2, h3, h4, h5⟩ := J.cycle_some k p q hc
        have ih := ih p hp
        rcases tickClock_dump J.clock k (J.stepOf p) p.clock with ⟨hb, hl, -⟩ | ⟨hb, hl, -⟩
        · rw [h5, hb, h4, hl]
          refine ⟨by omega, ?_, ih⟩
          simp only [hq, Option.map_some]
          rw [h4, tickClock_time]
        · rw [h5, hb, h4, hl]
          exact ih.mono (by omega)
    exact key n r hr
  · intro hn0 hf
    obtain ⟨k, rfl⟩ : ∃ k, n = k + 1 := ⟨n - 1, by omega⟩
    obtain ⟨p, hp, hc⟩ := J.after_succ s0 k r hr
    obtain ⟨src, h1, h2, h3, h4, h5⟩ := J.cycle_some k p r hc
    rcases tickClock_dump J.clock k (J.stepOf p) p.clock with ⟨hb, hl, -⟩ | ⟨hb, hl, hw⟩
    · rw [h5, hb, h4, hl, tickClock_time]
      simp
    · rw [h4, tickClock_time] at hf
      rw [writeFlag_final _ _ _ _ hf] at hw
      cases hw

/-- **C123.** An insulated body without moving source ends a run with exactly the heat content it
started with, whatever the number of cycles and the steps chosen. -/
theorem C123_conserves (J : ThermJob E N) (hWF : J.mesh.WF) (hins : Insulated J.sets)
    (hm : J.moving = false) (hS : 0 < J.stages) (st : ThermState E N)
    (hcq : ∀ e, ∑ l, st.cornerQ (e, l) = 0) (cp : Fin N → ℝ)
    (hcp : ∀ n, nodeSpecificHeat J.mesh st.mats n = some (cp n)) (r : ThermLoop E N) (n : ℕ)
    (h : J.execute st = some (r, n)) :
    heatContent J.mass cp r.st.temp = heatContent J.mass cp st.temp := by
  obtain ⟨s0, h0, hn, hr, hend, hlt⟩ := J.execute_spec st r n h
  obtain ⟨k1, k2, k3, k4, k5, k6⟩ := J.start_some st s0 h0
  have hmats : st.mats = s0.st.mats := by
    rw [hm] at k6; exact Option.some.inj k6
  rw [boundaryTemperature_free _ hins.noFixed] at k4
  rw [← k4]
  refine C43_run_conserves (J.env (J.srcOf s0)) hWF hins ?_ J.stages hS 0 (J.dts s0 n) s0.st r.st
    (by rw [k5]; exact hcq) cp (by rw [← hmats]; exact hcp) (J.after_run s0 n r hr).1
  intro c
  show J.srcOf s0 c = none
  unfold ThermJob.srcOf
  cases J.after s0 c with
  | none => rfl
  | some q => simp [ThermJob.sourceAt, hm]

/-! ## Completion -/

theorem thermCycle_single (env : ThermEnv E N) (hmass : ∀ n, 0 < env.mass n)
    (hc : ∀ n, env.mesh.cornersInNode n ≠ []) (S c : ℕ) (dt : ℝ) (st : ThermState E N)
    (hs : SingleMaterial st.mats) (hpos : ∀ p ∈ st.mats.flatten, 0 < p.specificHeat) :
    ∃ st', thermCycle env c S dt st = some st' ∧ SingleMaterial st'.mats ∧
      ∀ p ∈ st'.mats.flatten, 0 < p.specificHeat := by
  have key : ∀ k, ∃ b, (List.range k).foldl
      (fun st s => st.bind (thermStage env c (rkAlpha S s) dt))
        (some { st with tempN0 := st.temp }) = some b ∧ SingleMaterial b.mats ∧
        ∀ p ∈ b.mats.flatten, 0 < p.specificHeat := by
    intro k
    induction k with
    | zero => exact ⟨_, rfl, hs, hpos⟩
    | succ k ihk =>
      obtain ⟨a, ha, hsa, hpa⟩ := ihk
      obtain ⟨b, hb⟩ := (C43_single_material_runs env hmass hc c (rkAlpha S k) dt a hsa hpa).1
      obtain ⟨cp, hcp⟩ := thermStage_cp env c _ dt a b hb
      obtain ⟨-, -, -, -, hmats, -⟩ := thermStage_some env c _ dt a b hb cp hcp
      refine ⟨b, ?_, ?_⟩
      · rw [List.range_succ, List.foldl_append, ha]
        exact hb
      · rw [hmats]
        exact singleMaterial_heat _ _ _ _ hsa hpa
  exact key S

/-- **C123.** With one material of positive specific heat and a nonzero dump interval the run
completes: it stays inside its arrays, whatever the boundary sets, the stages, the clock options and
the tool path are. -/
theorem C123_completes (J : ThermJob E N) (hmass : ∀ n, 0 < J.mass n)
    (hc : ∀ n, J.mesh.cornersInNode n ≠ []) (hiv : J.clock.cycIval ≠ 0) (st : ThermState E N)
    (s0 : ThermLoop E N) (h0 : J.start st = some s0) (hs : SingleMaterial s0.st.mats)
    (hpos : ∀ p ∈ s0.st.mats.flatten, 0 < p.specificHeat) :
    ∃ r n, J.execute st = some (r, n) := by
  have hcycle : ∀ c (s : ThermLoop E N), SingleMaterial s.st.mats →
      (∀ p ∈ s.st.mats.flatten, 0 < p.specificHeat) →
      ∃ s', J.cycle c s = some s' ∧ SingleMaterial s'.st.mats ∧
        ∀ p ∈ s'.st.mats.flatten, 0 < p.specificHeat := by
    intro c s h1 h2
    obtain ⟨w, hw⟩ := C31_in_range (J.path.map fun p => (p.time, p.power)) s.clock.time
    have hsrc : ∃ src, J.sourceAt s.clock.time s.pos = some src := by
      unfold ThermJob.sourceAt
      split_ifs
      · rw [show toolPower J.path s.clock.time = some w from hw]; exact ⟨_, rfl⟩
      · exact ⟨_, rfl⟩
    obtain ⟨src, hsrc⟩ := hsrc
    obtain ⟨st', h3, h4, h5⟩ := thermCycle_single (J.env fun _ => src) hmass hc J.stages c
      (J.stepOf s) s.st h1 h2
    have hmove : ∃ p, J.moveTo (s.clock.time + J.stepOf s) s.pos = some p := by
      unfold ThermJob.moveTo
      split_ifs
      · have hx : ∀ d, ∃ x, toolPosition J.path (s.clock.time + J.stepOf s) d = some x :=
          fun d => C31_in_range _ _
        obtain ⟨x, hx0⟩ := hx 0
        obtain ⟨y, hy0⟩ := hx 1
        obtain ⟨z, hz0⟩ := hx 2
        unfold toolPlace
        rw [hx0, hy0, hz0]
        exact ⟨_, rfl⟩
      · exact ⟨_, rfl⟩
    obtain ⟨p, hp⟩ := hmove
    unfold ThermJob.cycle
    rw [hsrc]
    simp only [h3]
    unfold ThermJob.close
    rw [hp]
    exact ⟨_, rfl, h4, h5⟩
  have hloop : ∀ n c (s : ThermLoop E N), SingleMaterial s.st.mats →
      (∀ p ∈ s.st.mats.flatten, 0 < p.specificHeat) → ∃ r, J.loop n c s = some r := by
    intro n
    induction n with
    | zero => intro c s _ _; exact ⟨_, rfl⟩
    | succ n ih =>
      intro c s h1 h2
      obtain ⟨s', h3, h4, h5⟩ := hcycle c s h1 h2
      rw [ThermJob.loop, h3]
      simp only
      split_ifs
      · exact ⟨_, rfl⟩
      · exact ih (c + 1) s' h4 h5
  unfold ThermJob.execute
  rw [if_neg (by omega), h0]
  obtain ⟨⟨r, n⟩, hr⟩ := hloop J.clock.cycleStop 0 s0 hs hpos
  exact ⟨r, n, hr⟩

/-! ## A concrete run -/

/-- One unit cube far from the origin, with the built-in tool path. -/
noncomputable def cubeJob (moving : Bool) : ThermJob 1 8 where
  mesh := thermCubeMesh
  coords n d := thermCubeCoords n d + 100
  mass _ := 1
  sets := []
  clock := defaultClock 1
  stages := 2
  moving := moving
  path := builtinPath
  fns _ := (true, true, true)
  tables := ([[300, 1], [400, 2]], [[300, 3], [400, 4]], [[300, 5], [400, 6]])

example : ∃ r n, (cubeJob false).execute (thermCubeState checkerTemp) = some (r, n) := by
  refine C123_completes _ (fun _ => one_pos) (fun n => by simp [cubeJob, thermCubeMesh])
    (by norm_num [cubeJob, defaultClock]) _ _ rfl (thermCubeState_single _) ?_
  intro p hp
  simp [thermCubeState] at hp
  rw [hp]; norm_num

example : (cubeJob false).clock.Sane ∧ (cubeJob false).clock.timeStart < (cubeJob false).clock.timeFinal ∧
    (cubeJob false).mesh.WF ∧ Insulated (cubeJob false).sets :=
  ⟨defaultClock_sane 1, by norm_num [cubeJob, defaultClock], thermCubeMesh_WF,
    fun s hs => by simp [cubeJob] at hs⟩

/-- With the source on, the tables apply and the run completes as well; the mesh is out of reach of
the origin. -/
example : OutOfReach (cubeJob true).mesh (cubeJob true).coords (fun _ => 0) ∧
    ∃ r n, (cubeJob true).execute (thermCubeState checkerTemp) = some (r, n) := by
  constructor
  · intro e
    have h : ∀ d, 100 ≤ (∑ l, (cubeJob true).coords ((cubeJob true).mesh.nodesInElem e l) d) / 8 := by
      intro d
      have h1 : ∀ l, (100 : ℝ) ≤ (cubeJob true).coords ((cubeJob true).mesh.nodesInElem e l) d := by
        intro l
        have h2 : 0 ≤ thermCubeCoords l d := by
          fin_cases l <;> fin_cases d <;> simp [thermCubeCoords]
        show 100 ≤ thermCubeCoords l d + 100
        linarith
      have h3 := Finset.sum_le_sum fun l (_ : l ∈ Finset.univ) => h1 l
      simp at h3
      linarith
    have h0 := h 0
    rw [Fin.sum_univ_three]
    nlinarith [sq_nonneg (0 - (∑ l, (cubeJob true).coords ((cubeJob true).mesh.nodesInElem e l) 1) / 8),
      sq_nonneg (0 - (∑ l, (cubeJob true).coords ((cubeJob true).mesh.nodesInElem e l) 2) / 8)]
  · obtain ⟨s0, hs0, hone, hp⟩ : ∃ s0, (cubeJob true).start (thermCubeState checkerTemp) = some s0 ∧
        SingleMaterial s0.st.mats ∧ ∀ p ∈ s0.st.mats.flatten, 0 < p.specificHeat := by
      have hv : ∀ a b x : ℝ, 0 < a → a ≤ b →
          ∃ v, tabularValue [[300, a], [400, b]] x = some v ∧ 0 < v := by
        intro a b x ha hab
        obtain ⟨v, hv⟩ := C31_in_range [(300, a), (400, b)] x
        refine ⟨v, hv, ?_⟩
        have := (C31_bounded [(300, a), (400, b)] (by simp) x a b v (by simpa using hab)
          (by simpa using hab) hv).1
        linarith
      obtain ⟨v1, e1, -⟩ := hv 1 2 (avgTemp ((List.finRange 8).map fun l =>
        checkerTemp (thermCubeMesh.nodesInElem 0 l))) (by norm_num) (by norm_num)
      obtain ⟨v2, e2, -⟩ := hv 3 4 (avgTemp ((List.finRange 8).map fun l =>
        checkerTemp (thermCubeMesh.nodesInElem 0 l))) (by norm_num) (by norm_num)
      obtain ⟨v3, e3, p3⟩ := hv 5 6 (avgTemp ((List.finRange 8).map fun l =>
        checkerTemp (thermCubeMesh.nodesInElem 0 l))) (by norm_num) (by norm_num)
      have ht : (cubeJob true).tablePoint checkerTemp 0 ⟨0, 1, 1, 1, false, fun _ => 0⟩
          = some ⟨0, v2, v1, v3, false, fun _ => 0⟩ := by
        unfold ThermJob.tablePoint tabularPoint
        simp only [cubeJob, e1, e2, e3]
        rfl
      have htab : (cubeJob true).tabulate checkerTemp 0 [[⟨0, 1, 1, 1, false, fun _ => 0⟩]]
          = some [[⟨0, v2, v1, v3, false, fun _ => 0⟩]] := by
        unfold ThermJob.tabulate
        simp [List.mapM_cons, ht, ThermJob.tabulate]
      refine ⟨⟨{ thermCubeState checkerTemp with
          mats := [[⟨0, v2, v1, v3, false, fun _ => 0⟩]] }, clockInit (cubeJob true).clock,
          fun _ => 0, [checkerTemp]⟩, ?_, ⟨fun _ => ⟨0, v2, v1, v3, false, fun _ => 0⟩,
          fun e => Subsingleton.elim _ _, by simp⟩, by simpa using p3⟩
      unfold ThermJob.start
      have hb : boundaryTemperature (cubeJob true).sets (thermCubeState checkerTemp).temp
        = checkerTemp := rfl
      rw [hb]
      simp only [show (cubeJob true).moving = true from rfl, if_true]
      rw [show (thermCubeState checkerTemp).mats = [[⟨0, 1, 1, 1, false, fun _ => 0⟩]] from rfl, htab]
      rfl
    exact C123_completes _ (fun _ => one_pos) (fun n => by simp [cubeJob, thermCubeMesh])
      (by norm_num [cubeJob, defaultClock]) _ _ hs0 hone hp

/-! ## Step sizes and tables of a run -/

/-- **C123.** Every step of the run keeps to the diffusion limit of every material point, with the conductivity, density
and specific heat the point has in the run: `20 k / (ρ c) dt` is at most the squared distance of any two nodes of its
element, unless the step is at most the user's minimum. -/
theorem C123_stable (J : ThermJob E N) (st : ThermState E N) (r : ThermLoop E N) (n : ℕ)
    (h : J.execute st = some (r, n)) :
    ∃ (s0 : ThermLoop E N) (dts : List ℝ) (src : ℕ → Option (ℝ × (Fin 3 → ℝ))),
      J.start st = some s0 ∧ dts.length = n ∧ thermRun (J.env src) J.stages 0 dts s0.st = some r.st ∧
      ∀ dt ∈ dts, ∀ pts ∈ r.st.mats, ∀ p ∈ pts, 0 < p.conductivity → 0 < p.den → 0 < p.specificHeat →
        ∀ a b : Fin 8, a ≠ b →
          20 * (p.conductivity / (p.den * p.specificHeat)) * dt ≤
            ∑ d, (J.coords (J.mesh.nodesInElem p.elem a) d - J.coords (J.mesh.nodesInElem p.elem b) d) ^ 2 ∨
          dt ≤ J.clock.dtMin := by
  obtain ⟨s0, h0, hn, hr, hend, hlt⟩ := J.execute_spec st r n h
  have hdata := thermRun_thermData _ _ _ _ _ _ (J.after_run s0 n r hr).1
  refine ⟨s0, J.dts s0 n, J.srcOf s0, h0, by simp [ThermJob.dts], (J.after_run s0 n r hr).1, ?_⟩
  intro dt hdt pts hpts p hp hk hd hc a b hab
  obtain ⟨c, hc', rfl⟩ := List.mem_map.1 hdt
  obtain ⟨q, hq⟩ := J.after_prefix s0 n r hr c (List.mem_range.1 hc').le
  have hdq := thermRun_thermData _ _ _ _ _ _ (J.after_run s0 c q hq).1
  have hmem : pts.map (fun p => (p.elem, p.conductivity, p.den, p.specificHeat)) ∈ thermData q.st.mats := by
    rw [hdq, ← hdata]
    exact List.mem_map_of_mem hpts
  obtain ⟨pts', hpts', heq⟩ := List.mem_map.1 hmem
  have hmem2 : (p.elem, p.conductivity, p.den, p.specificHeat) ∈
      pts'.map (fun p => (p.elem, p.conductivity, p.den, p.specificHeat)) := by
    rw [heq]
    exact List.mem_map_of_mem (f := fun p : ThermPt E => (p.elem, p.conductivity, p.den, p.specificHeat)) hp
  obtain ⟨p', hp', he⟩ := List.mem_map.1 hmem2
  simp only [Prod.mk.injEq] at he
  obtain ⟨e1, e2, e3, e4⟩ := he
  have key := C47_diffusion_limit J.clock (q.st.mats.map fun pts => pts.map J.elemOf) q.clock.time q.clock.gtime
    q.clock.dt _ (List.mem_map_of_mem hpts') _ (List.mem_map_of_mem (f := J.elemOf) hp') (by show 0 < p'.conductivity; rw [e2]; exact hk)
    (by show 0 < p'.den; rw [e3]; exact hd) (by show 0 < p'.specificHeat; rw [e4]; exact hc) a b a.2 b.2
    (fun hh => hab (Fin.ext hh))
  have hstep : J.dtOf s0 c = J.stepOf q := by rw [ThermJob.dtOf, hq]
  rw [hstep]
  refine key.imp_left fun h => ?_
  have hco : ∀ l : Fin 8, (J.elemOf p').coords l = J.coords (J.mesh.nodesInElem p.elem l) := by
    intro l
    simp [ThermJob.elemOf, e1]
  rw [hco, hco, euclid, Real.sq_sqrt (Finset.sum_nonneg fun i _ => sq_nonneg _)] at h
  show 20 * (p.conductivity / (p.den * p.specificHeat)) * _ ≤ _
  have hs : (J.elemOf p').conductivity / ((J.elemOf p').den * (J.elemOf p').specificHeat)
      = p.conductivity / (p.den * p.specificHeat) := by
    show p'.conductivity / (p'.den * p'.specificHeat) = _
    rw [e2, e3, e4]
  rw [hs] at h
  exact h

/-- Specification: the mean temperature of the nodes of an element. -/
noncomputable def elemMean (mesh : Mesh8 E N) (temp : Fin N → ℝ) (e : Fin E) : ℝ :=
  (∑ l, temp (mesh.nodesInElem e l)) / 8

theorem avgTemp_elem (mesh : Mesh8 E N) (temp : Fin N → ℝ) (e : Fin E) :
    avgTemp ((List.finRange 8).map fun l => temp (mesh.nodesInElem e l)) = elemMean mesh temp e := by
  simp only [avgTemp, elemMean, Fin.sum_univ_eight, List.finRange_succ, List.finRange_zero]
  simp
  ring

theorem ThermJob.tablePoint_some (J : ThermJob E N) (temp : Fin N → ℝ) (m : ℕ) (p q : ThermPt E)
    (h : J.tablePoint temp m p = some q) :
    J.fns m = (true, true, true) ∧ q.elem = p.elem ∧ tabularValue J.tables.1 (elemMean J.mesh temp p.elem) = some q.den ∧
      tabularValue J.tables.2.1 (elemMean J.mesh temp p.elem) = some q.conductivity ∧
      tabularValue J.tables.2.2 (elemMean J.mesh temp p.elem) = some q.specificHeat := by
  unfold ThermJob.tablePoint tabularPoint at h
  rw [avgTemp_elem] at h
  split_ifs at h with hf
  · cases h1 : tabularValue J.tables.1 (elemMean J.mesh temp p.elem) <;>
    cases h2 : tabularValue J.tables.2.1 (elemMean J.mesh temp p.elem) <;>
    cases h3 : tabularValue J.tables.2.2 (elemMean J.mesh temp p.elem) <;>
      rw [h1, h2, h3] at h <;> simp at h
    subst h
    refine ⟨?_, rfl, rfl, rfl, rfl⟩
    simp at hf
    exact Prod.ext hf.1.1 (Prod.ext hf.1.2 hf.2)
  · simp at h

theorem mapM_forall {α β : Type*} (f : α → Option β) (l : List α) (r : List β) (h : l.mapM f = some r) :
    List.Forall₂ (fun a b => f a = some b) l r := by
  induction l generalizing r with
  | nil => simp at h; subst h; exact .nil
  | cons a l ih =>
    rw [List.mapM_cons] at h
    cases hf : f a with
    | none => rw [hf] at h; simp at h
    | some b =>
      rw [hf] at h
      cases hl : l.mapM f with
      | none => rw [hl] at h; simp at h
      | some bs =>
        rw [hl] at h
        simp at h
        subst h
        exact .cons hf (ih bs hl)

/-- Specification: the data of a point are those of the tables at the temperature `T` of its element. -/
def FromTables (tables : List (List ℝ) × List (List ℝ) × List (List ℝ)) (T : Fin E → ℝ) (p : ThermPt E)
    (d : Fin E × ℝ × ℝ × ℝ) : Prop :=
  d.1 = p.elem ∧ tabularValue tables.2.1 (T p.elem) = some d.2.1 ∧ tabularValue tables.1 (T p.elem) = some d.2.2.1 ∧
    tabularValue tables.2.2 (T p.elem) = some d.2.2.2

theorem ThermJob.tabulate_some (J : ThermJob E N) (temp : Fin N → ℝ) (m : ℕ) (mats qs : List (List (ThermPt E)))
    (h : J.tabulate temp m mats = some qs) :
    List.Forall₂ (List.Forall₂ (FromTables J.tables (elemMean J.mesh temp))) mats (thermData qs) ∧
      ∀ i pts, mats[i]? = some pts → pts ≠ [] → J.fns (m + i) = (true, true, true) := by
  induction mats generalizing m qs with
  | nil => cases h; exact ⟨.nil, by simp⟩
  | cons pts mats ih =>
    rw [ThermJob.tabulate] at h
    cases h1 : pts.mapM (J.tablePoint temp m) with
    | none => rw [h1] at h; simp at h
    | some q =>
      cases h2 : J.tabulate temp (m + 1) mats with
      | none => rw [h1, h2] at h; simp at h
      | some qs' =>
        rw [h1, h2] at h
        cases h
        obtain ⟨a, b⟩ := ih _ _ h2
        have hq := mapM_forall _ _ _ h1
        refine ⟨.cons ?_ a, ?_⟩
        · rw [List.forall₂_map_right_iff]
          refine hq.imp fun p p' hp => ?_
          obtain ⟨-, k1, k2, k3, k4⟩ := J.tablePoint_some _ _ _ _ hp
          exact ⟨k1, k3, k2, k4⟩
        · intro i pts' hi hne
          cases i with
          | zero =>
            cases hi
            cases hq with
            | nil => exact absurd rfl hne
            | cons hp _ => exact (J.tablePoint_some _ _ _ _ hp).1
          | succ i =>
            have := b i pts' (by simpa using hi) hne
            rwa [show m + 1 + i = m + (i + 1) by ring] at this

/-- **C123.** With a moving source every material point has in the whole run the density, conductivity and specific heat
of the three tables at the mean temperature its element has before the first cycle, and a run only completes if every
material with points has all three tables. -/
theorem C123_tables (J : ThermJob E N) (hm : J.moving = true) (st : ThermState E N) (r : ThermLoop E N) (n : ℕ)
    (h : J.execute st = some (r, n)) :
    List.Forall₂ (List.Forall₂ (FromTables J.tables (elemMean J.mesh (boundaryTemperature J.sets st.temp)))) st.mats
      (thermData r.st.mats) ∧
    ∀ i pts, st.mats[i]? = some pts → pts ≠ [] → J.fns i = (true, true, true) := by
  obtain ⟨s0, h0, hn, hr, hend, hlt⟩ := J.execute_spec st r n h
  obtain ⟨k1, k2, k3, k4, k5, k6⟩ := J.start_some st s0 h0
  rw [thermRun_thermData _ _ _ _ _ _ (J.after_run s0 n r hr).1]
  rw [if_pos hm, k4] at k6
  obtain ⟨a, b⟩ := J.tabulate_some _ _ _ _ k6
  exact ⟨a, fun i pts hi hne => by simpa using b i pts hi hne⟩

end Fierro
