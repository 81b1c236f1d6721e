import Verif.Model.LsWhole
import Verif.Props.LevelSet
import Verif.Props.SghWhole

/-!
# C139: a whole run of the level set solver
# C140: hydrodynamics and level set solvers in one chain
-/

namespace Fierro

variable {E N : ℕ}

/-! ## The loop in closed form -/

/-- Specification: the loop variables after `k` cycles if the loop were never left. -/
noncomputable def LsJob.after (J : LsJob E N) (x : Fin N → Fin 3 → ℝ) (phi : Fin E → ℝ) : ℕ → LsLoop E
  | 0 => J.start phi
  | k + 1 => J.cycle x k (J.after x phi k)

theorem lsTick_eq (o : ClockOpts) (m : List (Option (List CflElem))) (c : ℕ) (s : Clock) :
    (lsTick o c (lsCycleDt o m s.time s.gtime s.dt) s).1 = lsClockCycle o m c s := by
  unfold lsTick lsClockCycle
  simp only
  split_ifs <;> rfl

theorem lsTick_time (o : ClockOpts) (c : ℕ) (dt : ℝ) (s : Clock) : (lsTick o c dt s).1.time = s.time + dt := by
  unfold lsTick
  simp only
  split_ifs <;> rfl

theorem lsTick_dump (o : ClockOpts) (c : ℕ) (dt : ℝ) (s : Clock) :
    ((lsTick o c dt s).2 = true ∧ (lsTick o c dt s).1.log = (c, s.time + dt) :: s.log ∧
      writeFlag o c (s.time + dt) s.gtime = true ∧ (lsTick o c dt s).1.gtime = s.time + dt + o.ival) ∨
    ((lsTick o c dt s).2 = false ∧ (lsTick o c dt s).1.log = s.log ∧
      writeFlag o c (s.time + dt) s.gtime = false ∧ (lsTick o c dt s).1.gtime = s.gtime) := by
  unfold lsTick
  simp only
  split_ifs with h
  · exact Or.inl ⟨rfl, rfl, h, rfl⟩
  · exact Or.inr ⟨rfl, rfl, by simpa using h, rfl⟩

theorem LsJob.after_clock (J : LsJob E N) (x : Fin N → Fin 3 → ℝ) (phi : Fin E → ℝ) (k : ℕ) :
    (J.after x phi k).clock = lsClockAt J.clock (fun _ => J.cfl x) k := by
  induction k with
  | zero => rfl
  | succ k ih =>
    rw [lsClockAt, ← ih]
    exact lsTick_eq _ _ _ _

theorem LsJob.loop_spec (J : LsJob E N) (x : Fin N → Fin 3 → ℝ) (phi : Fin E → ℝ) (n k : ℕ) :
    (J.loop x n k (J.after x phi k)).1 = J.after x phi (J.loop x n k (J.after x phi k)).2 ∧
    ((J.loop x n k (J.after x phi k)).1.clock, (J.loop x n k (J.after x phi k)).2)
      = lsClockLoop J.clock (fun _ => J.cfl x) n k (lsClockAt J.clock (fun _ => J.cfl x) k) := by
  induction n generalizing k with
  | zero => exact ⟨rfl, by rw [LsJob.loop, lsClockLoop, J.after_clock]⟩
  | succ n ih =>
    have hc : J.cycle x k (J.after x phi k) = J.after x phi (k + 1) := rfl
    have hd : lsClockCycle J.clock (J.cfl x) k (lsClockAt J.clock (fun _ => J.cfl x) k)
      = lsClockAt J.clock (fun _ => J.cfl x) (k + 1) := rfl
    rw [LsJob.loop, lsClockLoop]
    simp only [hc, hd, J.after_clock]
    split_ifs with h
    · exact ⟨rfl, by rw [J.after_clock]⟩
    · exact ih (k + 1)

theorem LsJob.execute_spec (J : LsJob E N) (x : Fin N → Fin 3 → ℝ) (phi : Fin E → ℝ) (r : LsLoop E) (n : ℕ)
    (h : J.execute x phi = some (r, n)) :
    r = J.after x phi n ∧
      lsClockLoop J.clock (fun _ => J.cfl x) J.clock.cycleStop 0 (clockInit J.clock) = (r.clock, n) := by
  unfold LsJob.execute at h
  split_ifs at h with hz
  obtain ⟨h1, h2⟩ := J.loop_spec x phi J.clock.cycleStop 0
  have h' := Option.some.inj h
  have e1 : (J.loop x J.clock.cycleStop 0 (J.after x phi 0)).1 = r := congrArg Prod.fst h'
  have e2 : (J.loop x J.clock.cycleStop 0 (J.after x phi 0)).2 = n := congrArg Prod.snd h'
  rw [e1, e2] at h1 h2
  exact ⟨h1, h2.symm⟩

/-- Specification: cycles one after the other with the steps `dts`, from time `t`. -/
noncomputable def lsRun (env : LsEnv E N 8 3) (S : ℕ) : ℝ → List ℝ → (Fin E → ℝ) → Fin E → ℝ
  | _, [], phi => phi
  | t, dt :: dts, phi => lsRun env S (t + dt) dts (lsCycle env S t dt phi)

theorem lsRun_snoc (env : LsEnv E N 8 3) (S : ℕ) (t : ℝ) (dts : List ℝ) (dt : ℝ) (phi : Fin E → ℝ) :
    lsRun env S t (dts ++ [dt]) phi = lsCycle env S (t + dts.sum) dt (lsRun env S t dts phi) := by
  induction dts generalizing t phi with
  | nil => simp [lsRun]
  | cons d dts ih => rw [List.cons_append, lsRun, ih, lsRun, List.sum_cons, add_assoc]

/-- Specification: the steps of the first `n` cycles. -/
noncomputable def LsJob.dts (J : LsJob E N) (x : Fin N → Fin 3 → ℝ) (phi : Fin E → ℝ) (n : ℕ) : List ℝ :=
  (List.range n).map fun c => J.stepOf x (J.after x phi c)

theorem LsJob.dts_succ (J : LsJob E N) (x : Fin N → Fin 3 → ℝ) (phi : Fin E → ℝ) (n : ℕ) :
    J.dts x phi (n + 1) = J.dts x phi n ++ [J.stepOf x (J.after x phi n)] := by
  simp [LsJob.dts, List.range_succ]

theorem LsJob.dts_take (J : LsJob E N) (x : Fin N → Fin 3 → ℝ) (phi : Fin E → ℝ) (n c : ℕ) (h : c ≤ n) :
    (J.dts x phi n).take c = J.dts x phi c := by
  unfold LsJob.dts
  rw [← List.map_take, List.take_range, min_eq_left h]

theorem LsJob.after_run (J : LsJob E N) (x : Fin N → Fin 3 → ℝ) (phi : Fin E → ℝ) (n : ℕ) :
    (J.after x phi n).phi = lsRun (J.env x) J.stages J.clock.timeStart (J.dts x phi n) phi ∧
    (J.after x phi n).clock.time = J.clock.timeStart + (J.dts x phi n).sum := by
  induction n with
  | zero => exact ⟨rfl, by simp [LsJob.dts, LsJob.after, LsJob.start, clockInit]⟩
  | succ n ih =>
    rw [J.dts_succ, lsRun_snoc, ← ih.1, ← ih.2]
    refine ⟨rfl, ?_⟩
    show (lsTick _ _ _ _).1.time = _
    rw [lsTick_time, ih.2, List.sum_append, List.sum_singleton, add_assoc]

/-- Specification of a run with the steps `dts`. -/
structure LsHistory (J : LsJob E N) (x : Fin N → Fin 3 → ℝ) (phi : Fin E → ℝ) (r : LsLoop E) (cycles : ℕ)
    (dts : List ℝ) : Prop where
  count : dts.length = cycles
  final : r.phi = lsRun (J.env x) J.stages J.clock.timeStart dts phi
  time : r.clock.time = J.clock.timeStart + dts.sum
  limit : cycles ≤ J.clock.cycleStop
  ended : cycles = J.clock.cycleStop ∨ J.clock.timeFinal ≤ r.clock.time
  notLater : ∀ c, 0 < c → c < cycles → timeBefore J.clock.timeStart dts c < J.clock.timeFinal
  frames : FramesShow (timeBefore J.clock.timeStart dts)
    (fun k => lsRun (J.env x) J.stages J.clock.timeStart (dts.take k) phi) cycles r.clock.log r.frames
  /-- in every cycle the front moves less than `dt_cfl` times the distance of any two nodes of an element -/
  stable : 0 < J.clock.fuzz → 0 ≤ J.clock.dtCfl → ∀ dt ∈ dts, ∀ m, some m ∈ J.mats → 0 ≤ m.front → 0 ≤ m.curv →
    ∀ e ∈ m.elems, ∀ a b : Fin 8, a ≠ b →
      (m.front + 1) * dt ≤ J.clock.dtCfl * euclid (x (J.mesh.nodesInElem e a)) (x (J.mesh.nodesInElem e b)) ∨
      dt ≤ J.clock.dtMin

theorem LsJob.after_frames (J : LsJob E N) (x : Fin N → Fin 3 → ℝ) (phi : Fin E → ℝ) (n : ℕ) :
    FramesShow (fun k => (J.after x phi k).clock.time) (fun k => (J.after x phi k).phi) n
      (J.after x phi n).clock.log (J.after x phi n).frames := by
  induction n with
  | zero => rfl
  | succ n ih =>
    show FramesShow _ _ (n + 1) (lsTick _ _ _ _).1.log (if (lsTick _ _ _ _).2 then _ else _)
    rcases lsTick_dump J.clock n (J.stepOf x (J.after x phi n)) (J.after x phi n).clock with ⟨hb, hl, -⟩ | ⟨hb, hl, -⟩
    · rw [hb, hl, if_pos rfl]
      refine ⟨by omega, ?_, rfl, ih⟩
      show _ = (lsTick _ _ _ _).1.time
      rw [lsTick_time]
    · rw [hb, hl, if_neg (by simp)]
      exact ih.mono (by omega)

theorem LsJob.history (J : LsJob E N) (x : Fin N → Fin 3 → ℝ) (phi : Fin E → ℝ) (r : LsLoop E) (n : ℕ)
    (h : J.execute x phi = some (r, n)) : LsHistory J x phi r n (J.dts x phi n) := by
  obtain ⟨h1, h3⟩ := J.execute_spec x phi r n h
  obtain ⟨k, -, k2, k3, k4, k5⟩ := lsClockLoop_spec J.clock (fun _ => J.cfl x) J.clock.cycleStop 0
  have hk : k = n := by
    have := k3.symm.trans h3
    exact congrArg Prod.snd this
  subst hk
  rw [Nat.zero_add] at k2 k4
  have hT : ∀ c ≤ k, (J.after x phi c).clock.time = timeBefore J.clock.timeStart (J.dts x phi k) c := by
    intro c hc
    rw [timeBefore, J.dts_take x phi _ c hc, (J.after_run x phi c).2]
  have hS : ∀ c ≤ k, (J.after x phi c).phi = lsRun (J.env x) J.stages J.clock.timeStart
      ((J.dts x phi k).take c) phi := by
    intro c hc
    rw [J.dts_take x phi _ c hc, (J.after_run x phi c).1]
  refine ⟨by simp [LsJob.dts], ?_, ?_, k2, ?_, ?_, ?_, ?_⟩
  · rw [h1, (J.after_run x phi _).1]
  · rw [h1, (J.after_run x phi _).2]
  · rw [h1, J.after_clock]; exact k4
  · intro c hc0 hc
    rw [← hT c hc.le, J.after_clock]
    exact k5 c hc0 hc
  · have := J.after_frames x phi k
    rw [← h1] at this
    exact this.congr hT hS
  · intro hf hcfl dt hdt m hm hF hk e he a b hab
    obtain ⟨c, -, rfl⟩ := List.mem_map.1 hdt
    have hmem : some (m.elems.map fun e => lsCflElem m.front m.curv fun l =>
        if h : l < 8 then x (J.mesh.nodesInElem e ⟨l, h⟩) else fun _ => 0) ∈ J.cfl x :=
      List.mem_map.2 ⟨some m, hm, rfl⟩
    rcases C64_cfl J.clock hcfl hf (J.cfl x) (J.after x phi c).clock.time (J.after x phi c).clock.gtime
      (J.after x phi c).clock.dt _ hmem m.front m.curv hF hk _ (List.mem_map_of_mem he) with h' | h'
    · left
      refine h'.trans (mul_le_mul_of_nonneg_left ?_ hcfl)
      have hl := C14_length_le (fun l => if h : l < 8 then x (J.mesh.nodesInElem e ⟨l, h⟩) else fun _ => 0) a b a.2 b.2
        (fun h => hab (Fin.ext h))
      simpa using hl
    · exact Or.inr h'

/-- **C139.** A run of the level set solver that ends is a number of cycles of the model, one after the other, from the
given level set: no cycle is lost or done twice, and time is the start time plus the steps made.  It ends after
`cycle_stop` cycles or at the final time.  Each dump shows the level set after its cycle with the time of that cycle, no
cycle dumps twice, and the first dump is the initial level set.  In every cycle the front of a material moves at most
`dt_cfl` times the distance of any two nodes of its elements, unless the step is at most the minimum step. -/
theorem C139_run (J : LsJob E N) (x : Fin N → Fin 3 → ℝ) (phi : Fin E → ℝ) (r : LsLoop E) (n : ℕ)
    (h : J.execute x phi = some (r, n)) : ∃ dts, LsHistory J x phi r n dts := ⟨_, J.history x phi r n h⟩

/-- **C139.** The run is defined exactly when the dump interval in cycles is not zero or no cycle is made. -/
theorem C139_defined (J : LsJob E N) (x : Fin N → Fin 3 → ℝ) (phi : Fin E → ℝ) :
    (∃ r, J.execute x phi = some r) ↔ (J.clock.cycIval ≠ 0 ∨ J.clock.cycleStop = 0) := by
  unfold LsJob.execute
  split_ifs with h
  · simp; omega
  · simp; omega

/-! ## Progress -/

theorem LsJob.cfl_some (J : LsJob E N) (x : Fin N → Fin 3 → ℝ) (hm : ∃ m, some m ∈ J.mats) :
    ∃ es, some es ∈ J.cfl x := by
  obtain ⟨m, hm⟩ := hm
  exact ⟨_, List.mem_map.2 ⟨some m, hm, rfl⟩⟩

theorem LsJob.before (J : LsJob E N) (hs : J.clock.timeStart < J.clock.timeFinal) (x : Fin N → Fin 3 → ℝ)
    (phi : Fin E → ℝ) (r : LsLoop E) (n : ℕ) (h : J.execute x phi = some (r, n)) (j : ℕ) (hj : j < n) :
    (J.after x phi j).clock.time < J.clock.timeFinal := by
  have H := J.history x phi r n h
  rcases Nat.eq_zero_or_pos j with rfl | h0
  · exact hs
  · have := H.notLater j h0 hj
    rwa [timeBefore, J.dts_take x phi _ j hj.le, ← (J.after_run x phi j).2] at this

theorem LsJob.step_ge (J : LsJob E N) (ho : J.clock.Sane) (hs : J.clock.timeStart < J.clock.timeFinal)
    (x : Fin N → Fin 3 → ℝ) (phi : Fin E → ℝ) (r : LsLoop E) (n : ℕ) (h : J.execute x phi = some (r, n)) (j : ℕ)
    (hj : j < n) : stepFloor J.clock ≤ J.stepOf x (J.after x phi j) := by
  have hb := fun i (hi : i < n) => J.before hs x phi r n h i hi
  simp only [J.after_clock] at hb
  unfold LsJob.stepOf
  rw [J.after_clock]
  exact lsCycleDt_ge_floor _ ho _ _ _ _ (lsClockAt_dt _ ho _ _ fun i hi => hb i (by omega)) (hb j hj)

/-- **C139.** Every cycle makes time advance by at least a fixed amount; if some material has an evolving level set the
run does not pass the final time by more than the tolerance; with enough cycles it reaches it, and then its last level
set is in the last dump. -/
theorem C139_progress (J : LsJob E N) (ho : J.clock.Sane) (hs : J.clock.timeStart < J.clock.timeFinal)
    (x : Fin N → Fin 3 → ℝ) (phi : Fin E → ℝ) (r : LsLoop E) (n : ℕ) (h : J.execute x phi = some (r, n)) :
    J.clock.timeStart + n * min J.clock.dtStart (min J.clock.dtMin J.clock.tiny) ≤ r.clock.time ∧
    ((∃ m, some m ∈ J.mats) → r.clock.time ≤ J.clock.timeFinal + J.clock.tiny) ∧
    (J.clock.timeFinal - J.clock.timeStart ≤ J.clock.cycleStop * min J.clock.dtStart (min J.clock.dtMin J.clock.tiny) →
      J.clock.timeFinal ≤ r.clock.time) ∧
    (J.clock.timeFinal ≤ r.clock.time → r.frames.head? = some r.phi) := by
  obtain ⟨h1, h3⟩ := J.execute_spec x phi r n h
  have H := J.history x phi r n h
  have key : ∀ j ≤ n, J.clock.timeStart + j * min J.clock.dtStart (min J.clock.dtMin J.clock.tiny) ≤
      (J.after x phi j).clock.time := by
    intro j
    induction j with
    | zero => intro _; simp [LsJob.after, LsJob.start, clockInit]
    | succ j ih =>
      intro hj
      have a := ih (by omega)
      have b := J.step_ge ho hs x phi r n h j (by omega)
      show _ ≤ (lsTick _ _ (J.stepOf x _) _).1.time
      rw [lsTick_time]
      unfold stepFloor at b
      push_cast
      linarith
  have first := key n le_rfl
  rw [← h1] at first
  refine ⟨first, fun hm => ?_, fun hlen => ?_, fun hf => ?_⟩
  · exact (C64_run_ends J.clock ho.tiny.le hs _ (fun _ => J.cfl_some x hm) _ _ h3).2.2.2.2
  · rcases H.ended with h' | h'
    · rw [h'] at first; linarith
    · exact h'
  · have hn : 0 < n := by
      rcases Nat.eq_zero_or_pos n with h0 | h0
      · rw [h1, h0] at hf
        exact absurd hf (not_le.2 hs)
      · exact h0
    obtain ⟨k, rfl⟩ : ∃ k, n = k + 1 := ⟨n - 1, by omega⟩
    rw [h1] at hf ⊢
    have hf' : J.clock.timeFinal ≤ (lsTick J.clock k (J.stepOf x (J.after x phi k)) (J.after x phi k).clock).1.time := hf
    rw [lsTick_time] at hf'
    rcases lsTick_dump J.clock k (J.stepOf x (J.after x phi k)) (J.after x phi k).clock with ⟨hb, -⟩ | ⟨-, -, hw, -⟩
    · show (if (lsTick _ _ _ _).2 then _ else _ : List _).head? = _
      rw [hb]
      rfl
    · rw [writeFlag_final _ _ _ _ hf'] at hw
      cases hw

/-- What is known about the dumps of a run that dumps by time only, `q` of them written. -/
structure LsDumps (o : ClockOpts) (q : ℕ) (s : Clock) : Prop where
  low : o.timeStart + (q + 1) * o.ival ≤ s.gtime
  high : s.gtime ≤ o.timeStart + (q + 1) * o.ival + q * (o.fuzz + o.tiny)
  early : s.time < s.gtime
  have_ : ∀ k : ℕ, 1 ≤ k → k ≤ q → ∃ p ∈ s.log, o.timeStart + k * o.ival ≤ p.2 ∧
    p.2 ≤ o.timeStart + k * (o.ival + o.fuzz + o.tiny)

/-- **C139.** For a solver that dumps by time only and has an evolving level set, whatever its start time, the `k`-th
dump is written between `k` intervals and `k` times interval plus tolerances after the start: the dumps drift by the
tolerances, but none is left out. -/
theorem C139_dump_times (J : LsJob E N) (ho : J.clock.Sane) (hs : J.clock.timeStart < J.clock.timeFinal)
    (hiv : 0 < J.clock.ival) (hcy : J.clock.cycleStop < J.clock.cycIval) (x : Fin N → Fin 3 → ℝ) (phi : Fin E → ℝ)
    (hm : ∃ m, some m ∈ J.mats) (r : LsLoop E) (n : ℕ) (h : J.execute x phi = some (r, n)) (k : ℕ) (hk : 1 ≤ k)
    (hks : J.clock.timeStart + k * (J.clock.ival + J.clock.fuzz + J.clock.tiny) ≤ r.clock.time) :
    ∃ p ∈ r.clock.log, J.clock.timeStart + k * J.clock.ival ≤ p.2 ∧
      p.2 ≤ J.clock.timeStart + k * (J.clock.ival + J.clock.fuzz + J.clock.tiny) := by
  obtain ⟨h1, -⟩ := J.execute_spec x phi r n h
  have H := J.history x phi r n h
  have hfz := ho.fuzz
  have hti := ho.tiny
  -- one cycle
  have step : ∀ j < n, ∀ q, LsDumps J.clock q (J.after x phi j).clock →
      let s' := (J.after x phi (j + 1)).clock
      (∀ k : ℕ, 1 ≤ k → J.clock.timeStart + k * (J.clock.ival + J.clock.fuzz + J.clock.tiny) ≤ s'.time →
        ∃ p ∈ s'.log, J.clock.timeStart + k * J.clock.ival ≤ p.2 ∧
          p.2 ≤ J.clock.timeStart + k * (J.clock.ival + J.clock.fuzz + J.clock.tiny)) ∧
      (s'.time < J.clock.timeFinal → ∃ q, LsDumps J.clock q s') := by
    intro j hj q I
    have hlim := (C64_limits J.clock (J.cfl x) (J.after x phi j).clock.time (J.after x phi j).clock.gtime
      (J.after x phi j).clock.dt (J.cfl_some x hm)).2.2.1
    have hstep : lsCycleDt J.clock (J.cfl x) (J.after x phi j).clock.time (J.after x phi j).clock.gtime
      (J.after x phi j).clock.dt = J.stepOf x (J.after x phi j) := rfl
    rw [hstep] at hlim
    have hup : (J.after x phi j).clock.time + J.stepOf x (J.after x phi j)
        ≤ (J.after x phi j).clock.gtime + J.clock.fuzz + J.clock.tiny := by
      have := max_le (show (J.after x phi j).clock.time + J.clock.fuzz ≤
        (J.after x phi j).clock.gtime + J.clock.fuzz by linarith [I.early])
        (show (J.after x phi j).clock.gtime ≤ (J.after x phi j).clock.gtime + J.clock.fuzz by linarith)
      linarith
    have hnot : ¬((j + 1) % J.clock.cycIval = 0 ∧ j > 0) := by
      rintro ⟨h', -⟩
      have := H.limit
      rw [Nat.mod_eq_of_lt (by omega)] at h'
      omega
    have hne : j ≠ J.clock.cycleStop := by have := H.limit; omega
    obtain ⟨lo, hi, ea, hv⟩ := I
    show (∀ k : ℕ, 1 ≤ k → _ ≤ (lsTick _ _ _ _).1.time → ∃ p ∈ (lsTick _ _ _ _).1.log, _) ∧
      ((lsTick _ _ _ _).1.time < _ → ∃ q, LsDumps _ q (lsTick _ _ _ _).1)
    rw [lsTick_time]
    generalize J.stepOf x (J.after x phi j) = dt at hup ⊢
    generalize (J.after x phi j).clock = s at lo hi ea hv hup ⊢
    have hq0 : (0 : ℝ) ≤ q := Nat.cast_nonneg q
    rcases lsTick_dump J.clock j dt s with ⟨-, hl, hw, hg⟩ | ⟨-, hl, hw, hg⟩
    · rw [hl]
      constructor
      · intro k hk hkt
        rcases Nat.lt_or_ge q k with hqk | hqk
        · have hk1 : (q : ℝ) + 1 ≤ k := by exact_mod_cast hqk
          rcases le_or_gt s.gtime (s.time + dt) with hge | hlt
          · rcases Nat.lt_or_ge (q + 1) k with h2 | h2
            · exfalso
              have hk2 : (q : ℝ) + 2 ≤ k := by exact_mod_cast h2
              nlinarith
            · have hkq : k = q + 1 := by omega
              subst hkq
              refine ⟨_, List.mem_cons_self, ?_, ?_⟩
              · push_cast; linarith
              · push_cast; nlinarith
          · exfalso; nlinarith
        · obtain ⟨p, hp, h1, h2⟩ := hv k hk hqk
          exact ⟨p, List.mem_cons_of_mem _ hp, h1, h2⟩
      · intro hlt
        have hge : s.gtime ≤ s.time + dt := by
          unfold writeFlag at hw
          rw [if_neg hnot, if_neg hne, if_neg (not_le.2 hlt)] at hw
          by_contra hcon
          rw [if_neg hcon] at hw
          cases hw
        refine ⟨q + 1, ?_, ?_, ?_, ?_⟩
        · rw [hg]; push_cast; linarith
        · rw [hg]; push_cast; linarith
        · rw [hg, lsTick_time]; linarith
        · intro k hk hkq
          rw [hl]
          rcases Nat.lt_or_ge q k with h2 | h2
          · have hkq : k = q + 1 := by omega
            subst hkq
            refine ⟨_, List.mem_cons_self, ?_, ?_⟩
            · push_cast; linarith
            · push_cast; linarith
          · obtain ⟨p, hp, h1, h2⟩ := hv k hk h2
            exact ⟨p, List.mem_cons_of_mem _ hp, h1, h2⟩
    · have hlt : s.time + dt < s.gtime ∧ s.time + dt < J.clock.timeFinal := by
        unfold writeFlag at hw
        rw [if_neg hnot, if_neg hne] at hw
        split_ifs at hw with a b
        exact ⟨not_le.1 b, not_le.1 a⟩
      rw [hl]
      constructor
      · intro k hk hkt
        rcases Nat.lt_or_ge q k with hqk | hqk
        · exfalso
          have hk1 : (q : ℝ) + 1 ≤ k := by exact_mod_cast hqk
          nlinarith [hlt.1]
        · exact hv k hk hqk
      · intro _
        exact ⟨q, by rw [hg]; exact lo, by rw [hg]; exact hi, by rw [hg, lsTick_time]; exact hlt.1,
          by rw [hl]; exact hv⟩
  have inv : ∀ j < n, ∃ q, LsDumps J.clock q (J.after x phi j).clock := by
    intro j
    induction j with
    | zero =>
      intro _
      refine ⟨0, ?_, ?_, ?_, ?_⟩
      · show _ ≤ J.clock.timeStart + J.clock.ival
        simp
      · show J.clock.timeStart + J.clock.ival ≤ _
        simp
      · show J.clock.timeStart < J.clock.timeStart + J.clock.ival
        linarith
      · intro k h1 h2; omega
    | succ j ih =>
      intro hj
      obtain ⟨q, I⟩ := ih (by omega)
      exact (step j (by omega) q I).2 (J.before hs x phi r n h (j + 1) hj)
  rw [h1] at hks ⊢
  cases n with
  | zero =>
    exfalso
    have h0 : (J.after x phi 0).clock.time = J.clock.timeStart := rfl
    have hk' : (1 : ℝ) ≤ k := by exact_mod_cast hk
    rw [h0] at hks
    nlinarith
  | succ n =>
    obtain ⟨q, I⟩ := inv n (by omega)
    exact (step n (by omega) q I).1 k hk hks

/-! ## What the run does to the field -/

theorem FramesShow.mem {S : Type} {time : ℕ → ℝ} {state : ℕ → S} {n : ℕ} {log : List (ℕ × ℝ)} {fs : List S}
    (h : FramesShow time state n log fs) : ∀ f ∈ fs, ∃ k ≤ n, f = state k := by
  induction log generalizing n fs with
  | nil =>
    rw [FramesShow] at h
    subst h
    intro f hf
    exact ⟨0, Nat.zero_le _, List.mem_singleton.1 hf⟩
  | cons p log ih =>
    cases fs with
    | nil => exact h.elim
    | cons f fs =>
      obtain ⟨h1, -, h3, h4⟩ := h
      intro g hg
      rcases List.mem_cons.1 hg with rfl | hg
      · exact ⟨_, h1, h3⟩
      · obtain ⟨k, hk, e⟩ := ih h4 g hg
        exact ⟨k, by omega, e⟩

/-- A statement about the level sets after all cycles is one about the dumps and the final level set. -/
theorem LsJob.shown (J : LsJob E N) (x : Fin N → Fin 3 → ℝ) (phi : Fin E → ℝ) (r : LsLoop E) (n : ℕ)
    (h : J.execute x phi = some (r, n)) (P : (Fin E → ℝ) → Prop) (hP : ∀ k ≤ n, P (J.after x phi k).phi) :
    ∀ f ∈ r.phi :: r.frames, P f := by
  obtain ⟨h1, -⟩ := J.execute_spec x phi r n h
  intro f hf
  rcases List.mem_cons.1 hf with rfl | hf
  · rw [h1]; exact hP n le_rfl
  · have := J.after_frames x phi n
    rw [← h1] at this
    obtain ⟨k, hk, rfl⟩ := this.mem f hf
    exact hP k hk

/-- **C139.** Elements outside the evolving materials have their initial level set in every dump and at the end. -/
theorem C139_untouched (J : LsJob E N) (hnd : ((J.mats.filterMap id).flatMap LsMat.elems).Nodup)
    (x : Fin N → Fin 3 → ℝ) (phi : Fin E → ℝ) (r : LsLoop E) (n : ℕ) (h : J.execute x phi = some (r, n)) (e : Fin E)
    (he : ∀ m, some m ∈ J.mats → e ∉ m.elems) : ∀ f ∈ r.phi :: r.frames, f e = phi e := by
  refine J.shown x phi r n h (fun f => f e = phi e) fun k hk => ?_
  clear hk
  have he' : ∀ m ∈ (J.env x).mats, e ∉ m.elems := by
    intro m hm
    obtain ⟨o, ho, h'⟩ := List.mem_filterMap.1 hm
    exact he m (h' ▸ ho)
  have hc : ∀ t dt (psi : Fin E → ℝ), lsCycle (J.env x) J.stages t dt psi e = psi e := by
    intro t dt psi
    unfold lsCycle
    have : ∀ (l : List ℕ) (q : Fin E → ℝ), l.foldl (fun phi (k : ℕ) => lsStage (J.env x) t
        (1 / ((J.stages : ℝ) - k) * dt) psi phi) q e = q e := by
      intro l
      induction l with
      | nil => intro q; rfl
      | cons a l ih =>
        intro q
        rw [List.foldl_cons, ih]
        exact (C63_stage (J.env x) t _ psi q hnd).2 e he'
    exact this _ _
  induction k with
  | zero => rfl
  | succ k ih =>
    show lsCycle _ _ _ _ _ e = _
    rw [hc, ih]

/-- The nodal Hamiltonians `velocity · gradient` the stages of the first `n` cycles find around element `e` are in
`[0, B]`. -/
def LsJob.Bounded (J : LsJob E N) (x : Fin N → Fin 3 → ℝ) (phi : Fin E → ℝ) (n : ℕ) (e : Fin E) (B : ℝ) : Prop :=
  ∀ c < n, ∀ k < J.stages, ∀ psi : Fin E → ℝ,
    psi = lsAfter (J.env x) J.stages (J.after x phi c).clock.time (J.stepOf x (J.after x phi c)) (J.after x phi c).phi k →
    ∀ l, lsNodeHJ (lsStageVel (J.env x) (J.after x phi c).clock.time psi) (lsGrad (lsMesh3 J.mesh) (lsGeom3 J.mesh x) psi)
      (J.mesh.nodesInElem e l) ∈ Set.Icc 0 B

theorem lsCycle_after (env : LsEnv E N 8 3) (S : ℕ) (t dt : ℝ) (phi : Fin E → ℝ) :
    lsCycle env S t dt phi = lsAfter env S t dt phi S := rfl

theorem LsJob.mem_env (J : LsJob E N) (x : Fin N → Fin 3 → ℝ) (m : LsMat E) (hm : some m ∈ J.mats) :
    m ∈ (J.env x).mats := List.mem_filterMap.2 ⟨some m, hm, rfl⟩

/-- **C139.** Finite speed over the whole run: in every dump and at the end the level set of an element of a material
with normal velocity `F` differs from the initial one by at most the time simulated times `(|F| + 1) B + 1`, where `B`
bounds the nodal Hamiltonians met. -/
theorem C139_speed (J : LsJob E N) (ho : J.clock.Sane) (hs : J.clock.timeStart < J.clock.timeFinal)
    (hS : 0 < J.stages) (hnd : ((J.mats.filterMap id).flatMap LsMat.elems).Nodup)
    (x : Fin N → Fin 3 → ℝ) (phi : Fin E → ℝ) (r : LsLoop E) (n : ℕ) (h : J.execute x phi = some (r, n))
    (m : LsMat E) (hm : some m ∈ J.mats) (e : Fin E) (he : e ∈ m.elems)
    (B : ℝ) (hB0 : 0 ≤ B) (hB : J.Bounded x phi n e B) :
    ∀ f ∈ r.phi :: r.frames,
      |f e - phi e| ≤ (r.clock.time - J.clock.timeStart) * ((|m.front| + 1) * B + 1) := by
  have hlen : 0 < (J.env x).geom.len e := mul_pos two_pos
    (Real.rpow_pos_of_pos ((by norm_num [volFloor] : (0 : ℝ) < volFloor).trans_le (le_max_right _ _)) _)
  have hpos : ∀ j < n, 0 ≤ J.stepOf x (J.after x phi j) := fun j hj =>
    (stepFloor_pos _ ho).le.trans (J.step_ge ho hs x phi r n h j hj)
  have hC : 0 ≤ (|m.front| + 1) * B + 1 := by positivity
  have key : ∀ k ≤ n, |(J.after x phi k).phi e - phi e| ≤
      ((J.after x phi k).clock.time - J.clock.timeStart) * ((|m.front| + 1) * B + 1) := by
    intro k
    induction k with
    | zero =>
      intro _
      have h0 : (J.after x phi 0).clock.time = J.clock.timeStart := rfl
      have h1 : (J.after x phi 0).phi = phi := rfl
      rw [h0, h1]; simp
    | succ k ih =>
      intro hk
      have ih := ih (by omega)
      have e1 : (J.after x phi (k + 1)).clock.time
          = (J.after x phi k).clock.time + J.stepOf x (J.after x phi k) := lsTick_time _ _ _ _
      have e2 : (J.after x phi (k + 1)).phi = lsCycle (J.env x) J.stages (J.after x phi k).clock.time
          (J.stepOf x (J.after x phi k)) (J.after x phi k).phi := rfl
      have hp := hpos k (by omega)
      have hBk := hB k (by omega)
      rw [e1, e2, lsCycle_after]
      generalize J.stepOf x (J.after x phi k) = dt at hp hBk ⊢
      generalize (J.after x phi k).clock.time = t at ih hBk ⊢
      generalize (J.after x phi k).phi = psi at ih hBk ⊢
      obtain ⟨S, hS'⟩ : ∃ S, J.stages = S + 1 := ⟨J.stages - 1, by omega⟩
      have hlast : lsAfter (J.env x) J.stages t dt psi J.stages
          = lsStage (J.env x) t dt psi (lsAfter (J.env x) J.stages t dt psi S) := by
        rw [hS']
        simp [lsAfter, List.range_succ]
      have hq := hBk S (by omega) _ rfl
      rw [hlast, (C63_stage (J.env x) t _ psi _ hnd).1 m (J.mem_env x m hm) e he]
      have hsp := C63_finite_speed (J.env x).mesh (J.env x).geom (J.env x).fuzz m.front dt ho.fuzz hp
        (lsStageVel (J.env x) t (lsAfter (J.env x) J.stages t dt psi S))
        (lsGrad (J.env x).mesh (J.env x).geom (lsAfter (J.env x) J.stages t dt psi S)) e hlen (psi e)
        (lsAfter (J.env x) J.stages t dt psi S e) B (fun l => (hq l).1) (fun l => (hq l).2) hB0
      have htri := abs_sub_le (lsNewValue (J.env x).mesh (J.env x).geom (J.env x).fuzz m.front dt
        (lsStageVel (J.env x) t (lsAfter (J.env x) J.stages t dt psi S))
        (lsGrad (J.env x).mesh (J.env x).geom (lsAfter (J.env x) J.stages t dt psi S)) e (psi e)
        (lsAfter (J.env x) J.stages t dt psi S e)) (psi e) (phi e)
      linarith
  have mono : ∀ i ≤ n, (J.after x phi (n - i)).clock.time ≤ (J.after x phi n).clock.time := by
    intro i
    induction i with
    | zero => intro _; exact le_rfl
    | succ i ih =>
      intro hi
      refine le_trans ?_ (ih (by omega))
      have hn : n - i = (n - (i + 1)) + 1 := by omega
      rw [hn]
      have e1 : (J.after x phi (n - (i + 1) + 1)).clock.time
          = (J.after x phi (n - (i + 1))).clock.time + J.stepOf x (J.after x phi (n - (i + 1))) := lsTick_time _ _ _ _
      rw [e1]
      linarith [hpos (n - (i + 1)) (by omega)]
  refine J.shown x phi r n h (fun f => |f e - phi e| ≤ _) fun k hk => (key k hk).trans ?_
  refine mul_le_mul_of_nonneg_right ?_ hC
  rw [(J.execute_spec x phi r n h).1]
  have := mono (n - k) (by omega)
  rw [show n - (n - k) = k by omega] at this
  linarith

/-- **C139.** Reinitialisation over the whole run: an element of a material without normal velocity has the sign of the
initial level set in every dump and at the end, if the largest step is less than half its smoothing length and the nodal
Hamiltonians met are at most 2. -/
theorem C139_sign (J : LsJob E N) (ho : J.clock.Sane) (hs : J.clock.timeStart < J.clock.timeFinal)
    (hnd : ((J.mats.filterMap id).flatMap LsMat.elems).Nodup)
    (x : Fin N → Fin 3 → ℝ) (phi : Fin E → ℝ) (r : LsLoop E) (n : ℕ) (h : J.execute x phi = some (r, n))
    (m : LsMat E) (hm : some m ∈ J.mats) (hF : m.front = 0) (e : Fin E) (he : e ∈ m.elems)
    (hlen : J.clock.dtMax < volHex (elemCoords J.mesh x e 0) (elemCoords J.mesh x e 1) (elemCoords J.mesh x e 2)
      ^ ((1 : ℝ) / 3))
    (hB : J.Bounded x phi n e 2) :
    ∀ f ∈ r.phi :: r.frames, (0 < phi e → 0 < f e) ∧ (phi e < 0 → f e < 0) ∧ (phi e = 0 → f e = 0) := by
  refine J.shown x phi r n h _ fun k hk => ?_
  induction k with
  | zero => exact ⟨id, id, id⟩
  | succ k ih =>
    obtain ⟨i1, i2, i3⟩ := ih (by omega)
    have hdt := (stepFloor_pos _ ho).le.trans (J.step_ge ho hs x phi r n h k (by omega))
    have hmax : J.stepOf x (J.after x phi k) ≤ J.clock.dtMax := (lsCycleDt_le _ _ _ _ _).1
    have hl : (J.env x).geom.len e = 2 * volHex (elemCoords J.mesh x e 0) (elemCoords J.mesh x e 1)
      (elemCoords J.mesh x e 2) ^ ((1 : ℝ) / 3) := rfl
    obtain ⟨g1, g2, g3⟩ := C63_reinit_sign (J.env x) ho.fuzz J.stages (J.after x phi k).clock.time
      (J.stepOf x (J.after x phi k)) hdt (J.after x phi k).phi hnd m (J.mem_env x m hm) hF e he
      (by rw [hl]; linarith) (fun i hi l => hB k (by omega) i hi _ rfl l) J.stages le_rfl
    exact ⟨fun a => g1 (i1 a), fun a => g2 (i2 a), fun a => g3 (i3 a)⟩

/-! ## C140: hydrodynamics and level set solvers in one chain -/

/-- Specification of a chain: each solver runs in its window on what the ones before have left.  A hydrodynamics solver
takes and leaves the hydrodynamic state, a level set solver takes the nodes of that state and takes and leaves the level
set. -/
inductive DriverChain (D : DriverJob E N) :
    List (SolverKind × Window) → DriverState E N → List (SolverEnd E N) → DriverState E N → Prop
  | nil (s) : DriverChain D [] s [] s
  | hydro (w ks st phi r rs s') : (D.sgh.inWindow w).execute st = some r → DriverChain D ks ⟨r.loop.st, phi⟩ rs s' →
      DriverChain D ((.hydro, w) :: ks) ⟨st, phi⟩ (.hydro r :: rs) s'
  | levelSet (w ks st phi r c rs s') : (D.front w).execute st.coords phi = some (r, c) →
      DriverChain D ks ⟨st, r.phi⟩ rs s' →
      DriverChain D ((.levelSet, w) :: ks) ⟨st, phi⟩ (.levelSet r c :: rs) s'

/-- **C140.** What the driver does is such a chain, and every chain is what the driver does. -/
theorem C140_chain (D : DriverJob E N) (ks : List (SolverKind × Window)) (s : DriverState E N)
    (rs : List (SolverEnd E N)) (s' : DriverState E N) :
    D.run ks s = some (rs, s') ↔ DriverChain D ks s rs s' := by
  constructor
  · intro h
    induction ks generalizing s rs with
    | nil =>
      have h' := Option.some.inj h
      obtain ⟨rfl, rfl⟩ := Prod.mk.inj h'
      exact .nil _
    | cons k ks ih =>
      obtain ⟨k, w⟩ := k
      rw [DriverJob.run] at h
      obtain ⟨st, phi⟩ := s
      cases k with
      | hydro =>
        cases hr : (D.sgh.inWindow w).execute st with
        | none => simp [DriverJob.step, hr] at h
        | some r =>
          simp only [DriverJob.step, hr, Option.map_some] at h
          obtain ⟨q, hq, e⟩ := Option.map_eq_some_iff.1 h
          obtain ⟨rfl, rfl⟩ := Prod.mk.inj e
          exact .hydro w ks st phi r _ _ hr (ih _ _ hq)
      | levelSet =>
        cases hr : (D.front w).execute st.coords phi with
        | none => simp [DriverJob.step, hr] at h
        | some r =>
          simp only [DriverJob.step, hr, Option.map_some] at h
          obtain ⟨q, hq, e⟩ := Option.map_eq_some_iff.1 h
          obtain ⟨rfl, rfl⟩ := Prod.mk.inj e
          exact .levelSet w ks st phi r.1 r.2 _ _ hr (ih _ _ hq)
  · intro h
    induction h with
    | nil s => rfl
    | hydro w ks st phi r rs s' hr _ ih => simp only [DriverJob.run, DriverJob.step, hr, Option.map_some, ih]
    | levelSet w ks st phi r c rs s' hr _ ih => simp only [DriverJob.run, DriverJob.step, hr, Option.map_some, ih]

/-- **C140.** A chain is defined exactly when the options of the kinds of solver in it are. -/
theorem C140_defined (D : DriverJob E N) (ks : List (SolverKind × Window)) (s : DriverState E N) :
    (∃ q, D.run ks s = some q) ↔
      ((∃ w, (SolverKind.hydro, w) ∈ ks) → D.sgh.clock.cycIval ≠ 0 ∨ D.sgh.clock.cycleStop = 0) ∧
      ((∃ w, (SolverKind.levelSet, w) ∈ ks) → D.ls.clock.cycIval ≠ 0 ∨ D.ls.clock.cycleStop = 0) := by
  induction ks generalizing s with
  | nil => exact ⟨fun _ => ⟨fun ⟨w, h⟩ => (List.not_mem_nil h).elim, fun ⟨w, h⟩ => (List.not_mem_nil h).elim⟩,
      fun _ => ⟨_, rfl⟩⟩
  | cons k ks ih =>
    obtain ⟨k, w⟩ := k
    cases k with
    | hydro =>
      have hd := C137_defined (D.sgh.inWindow w) s.hydro
      have hd' : (∃ r, (D.sgh.inWindow w).execute s.hydro = some r) ↔
        D.sgh.clock.cycIval ≠ 0 ∨ D.sgh.clock.cycleStop = 0 := hd
      cases hr : (D.sgh.inWindow w).execute s.hydro with
      | none =>
        have hn : ¬(D.sgh.clock.cycIval ≠ 0 ∨ D.sgh.clock.cycleStop = 0) := by
          rw [← hd', hr]; simp
        constructor
        · rintro ⟨q, hq⟩
          simp [DriverJob.run, DriverJob.step, hr] at hq
        · rintro ⟨h1, -⟩
          exact (hn (h1 ⟨w, List.mem_cons_self⟩)).elim
      | some r =>
        have hy := hd'.1 ⟨r, hr⟩
        have hrun : (∃ q, D.run ((.hydro, w) :: ks) s = some q) ↔
            ∃ q, D.run ks { s with hydro := r.loop.st } = some q := by
          simp only [DriverJob.run, DriverJob.step, hr, Option.map_some]
          cases D.run ks { s with hydro := r.loop.st } <;> simp
        rw [hrun, ih]
        refine and_congr ⟨fun _ _ => hy, fun _ _ => hy⟩ ⟨fun h ⟨v, hv⟩ => h ⟨v, ?_⟩, fun h ⟨v, hv⟩ => h ⟨v, ?_⟩⟩
        · rcases List.mem_cons.1 hv with hv | hv
          · cases hv
          · exact hv
        · exact List.mem_cons_of_mem _ hv
    | levelSet =>
      have hd' : (∃ r, (D.front w).execute s.hydro.coords s.phi = some r) ↔
        D.ls.clock.cycIval ≠ 0 ∨ D.ls.clock.cycleStop = 0 := C139_defined (D.front w) s.hydro.coords s.phi
      cases hr : (D.front w).execute s.hydro.coords s.phi with
      | none =>
        have hn : ¬(D.ls.clock.cycIval ≠ 0 ∨ D.ls.clock.cycleStop = 0) := by
          rw [← hd', hr]; simp
        constructor
        · rintro ⟨q, hq⟩
          simp [DriverJob.run, DriverJob.step, hr] at hq
        · rintro ⟨-, h1⟩
          exact (hn (h1 ⟨w, List.mem_cons_self⟩)).elim
      | some r =>
        have hy := hd'.1 ⟨r, hr⟩
        have hrun : (∃ q, D.run ((.levelSet, w) :: ks) s = some q) ↔
            ∃ q, D.run ks { s with phi := r.1.phi } = some q := by
          simp only [DriverJob.run, DriverJob.step, hr, Option.map_some]
          cases D.run ks { s with phi := r.1.phi } <;> simp
        rw [hrun, ih]
        refine and_congr ⟨fun h ⟨v, hv⟩ => h ⟨v, ?_⟩, fun h ⟨v, hv⟩ => h ⟨v, ?_⟩⟩ ⟨fun _ _ => hy, fun _ _ => hy⟩
        · rcases List.mem_cons.1 hv with hv | hv
          · cases hv
          · exact hv
        · exact List.mem_cons_of_mem _ hv

/-- The windows of the hydrodynamics solvers of a chain. -/
def hydroWindows : List (SolverKind × Window) → List Window
  | [] => []
  | (.hydro, w) :: ks => w :: hydroWindows ks
  | (.levelSet, _) :: ks => hydroWindows ks

/-- The results of the hydrodynamics solvers of a chain. -/
def hydroEnds : List (SolverEnd E N) → List (SghEnd E N)
  | [] => []
  | .hydro r :: rs => r :: hydroEnds rs
  | .levelSet _ _ :: rs => hydroEnds rs

/-- **C140.** Level set solvers do not disturb the hydrodynamics: all hydrodynamics solvers give the same results as in
the chain without the level set solvers, in the same windows, and the state at the end is the one the last of them
leaves. -/
theorem C140_hydro_alone (D : DriverJob E N) (ks : List (SolverKind × Window)) (s : DriverState E N)
    (rs : List (SolverEnd E N)) (s' : DriverState E N) (h : D.run ks s = some (rs, s')) :
    D.sgh.chain (hydroWindows ks) s.hydro = some (hydroEnds rs) ∧
    s'.hydro = (((hydroEnds rs).getLast?.map fun r => r.loop.st).getD s.hydro) := by
  have hc := (C140_chain D ks s rs s').1 h
  clear h
  induction hc with
  | nil s => exact ⟨rfl, rfl⟩
  | hydro w ks st phi r rs s' hr _ ih =>
    refine ⟨?_, ?_⟩
    · show D.sgh.chain (w :: hydroWindows ks) st = some (r :: hydroEnds rs)
      have := ih.1
      simp only at this
      rw [SghJob.chain, hr]
      simp only [this, Option.map_some]
    · rw [ih.2]
      show _ = (((r :: hydroEnds rs).getLast?.map fun r => r.loop.st).getD st)
      rw [List.getLast?_cons]
      cases (hydroEnds rs).getLast? <;> rfl
  | levelSet w ks st phi r c rs s' hr _ ih => exact ih

/-- **C140.** Hydrodynamics solvers do not touch the level set, and level set solvers change it in evolving materials only:
all other elements have their initial value at the end of the chain, and so has every element if no level set solver is
in it. -/
theorem C140_front_only (D : DriverJob E N) (ks : List (SolverKind × Window)) (s : DriverState E N)
    (rs : List (SolverEnd E N)) (s' : DriverState E N) (h : D.run ks s = some (rs, s')) :
    ((∀ w, (SolverKind.levelSet, w) ∉ ks) → s'.phi = s.phi) ∧
    (((D.ls.mats.filterMap id).flatMap LsMat.elems).Nodup →
      ∀ e, (∀ m, some m ∈ D.ls.mats → e ∉ m.elems) → s'.phi e = s.phi e) := by
  have hc := (C140_chain D ks s rs s').1 h
  clear h
  induction hc with
  | nil s => exact ⟨fun _ => rfl, fun _ _ _ => rfl⟩
  | hydro w ks st phi r rs s' hr _ ih =>
    exact ⟨fun hw => ih.1 fun v hv => hw v (List.mem_cons_of_mem _ hv), ih.2⟩
  | levelSet w ks st phi r c rs s' hr _ ih =>
    refine ⟨fun hw => (hw w List.mem_cons_self).elim, fun hnd e he => ?_⟩
    rw [ih.2 hnd e he]
    exact C139_untouched (D.front w) hnd st.coords phi r c hr e he _ List.mem_cons_self

/-- **C140.** Total energy is the same at the end of a chain with at least one hydrodynamics solver as in the initial state
with the wall velocities set to zero, under the conditions of `C137_chain_energy`, whatever level set solvers run in
between. -/
theorem C140_energy (D : DriverJob E N) (hWF : D.sgh.env.mesh.WF) (hm : ∀ n, D.sgh.env.mass n ≠ 0)
    (hlaw : D.sgh.env.closures.Lawful) (hext : ∀ st t n d, D.sgh.env.ext st t n d = 0) (Z : Fin N → Fin 3 → Bool)
    (hZ : ClampSets D.sgh.env.sets Z) (hS : 0 < D.sgh.stages) (ks : List (SolverKind × Window)) (s : DriverState E N)
    (hmass : MassOK s.hydro.mats)
    (hone : ((s.hydro.mats.flatMap fun m => m.pts).map fun p => p.elem).Nodup)
    (rs : List (SolverEnd E N)) (s' : DriverState E N) (h : D.run ks s = some (rs, s'))
    (hk : ∃ w, (SolverKind.hydro, w) ∈ ks) :
    totalEnergy D.sgh.env.mass s'.hydro
      = totalEnergy D.sgh.env.mass { s.hydro with vel := fun n d => if Z n d then 0 else s.hydro.vel n d } := by
  obtain ⟨h1, h2⟩ := C140_hydro_alone D ks s rs s' h
  have hne : hydroEnds rs ≠ [] := by
    have hc := (C140_chain D ks s rs s').1 h
    clear h h1 h2 hmass hone
    induction hc with
    | nil s => obtain ⟨w, hw⟩ := hk; cases hw
    | hydro w ks st phi r rs s' hr _ ih => exact List.cons_ne_nil _ _
    | levelSet w ks st phi r c rs s' hr _ ih =>
      refine ih ?_
      obtain ⟨v, hv⟩ := hk
      rcases List.mem_cons.1 hv with hv | hv
      · cases hv
      · exact ⟨v, hv⟩
  have he := C137_chain_energy D.sgh hWF hm hlaw hext Z hZ hS _ s.hydro hmass hone _ h1
  rw [h2, List.getLast?_eq_some_getLast hne]
  exact he _ (List.getLast_mem hne)

/-- The clock at the end of a solver. -/
noncomputable def SolverEnd.time : SolverEnd E N → ℝ
  | .hydro r => r.loop.clock.time
  | .levelSet r _ => r.clock.time

/-- **C140.** With a material in the hydrodynamics and one in the level set solver, and enough cycles for each, every
solver of a chain ends at the end of its window, within the tolerance of its kind, where the next window starts. -/
theorem C140_times (D : DriverJob E N) (h1 : D.sgh.clock.Sane) (h2 : D.ls.clock.Sane) (tf : ℝ) (ends : List ℝ)
    (kinds : List SolverKind) (hw : ∀ w ∈ solverWindows tf ends, w.start < w.stop ∧
      w.stop - w.start ≤ D.sgh.clock.cycleStop * min D.sgh.clock.dtStart (min D.sgh.clock.dtMin D.sgh.clock.tiny) ∧
      w.stop - w.start ≤ D.ls.clock.cycleStop * min D.ls.clock.dtStart (min D.ls.clock.dtMin D.ls.clock.tiny))
    (s : DriverState E N) (hm : s.hydro.mats ≠ []) (hl : ∃ m, some m ∈ D.ls.mats)
    (rs : List (SolverEnd E N)) (s' : DriverState E N)
    (h : D.run (kinds.zip (solverWindows tf ends)) s = some (rs, s')) :
    List.Forall₂ (fun k r => k.2.stop ≤ r.time ∧ r.time ≤ k.2.stop + max D.sgh.clock.tiny D.ls.clock.tiny)
      (kinds.zip (solverWindows tf ends)) rs ∧
    (kinds.length = ends.length → Linked 0 ((kinds.zip (solverWindows tf ends)).map Prod.snd)) := by
  constructor
  · have hc := (C140_chain D _ s rs s').1 h
    have hw' : ∀ k ∈ kinds.zip (solverWindows tf ends), k.2 ∈ solverWindows tf ends :=
      fun k hk => (List.of_mem_zip (show (k.1, k.2) ∈ _ from hk)).2
    clear h
    generalize kinds.zip (solverWindows tf ends) = ks at hc hw'
    induction hc with
    | nil s => exact .nil
    | hydro w ks st phi r rs s' hr _ ih =>
      obtain ⟨a, b, -⟩ := hw w (hw' _ List.mem_cons_self)
      have hs : (D.sgh.inWindow w).clock.Sane := ⟨h1.dtStart, h1.dtMin, h1.dtMax, h1.fuzz, h1.tiny, h1.cfl⟩
      obtain ⟨-, p2, p3, -⟩ := C137_progress (D.sgh.inWindow w) hs a st r hr
      have p2 : r.loop.clock.time ≤ w.stop + D.sgh.clock.tiny := p2 hm
      refine .cons ⟨p3 b, ?_⟩ (ih ?_ fun k hk => hw' k (List.mem_cons_of_mem _ hk))
      · show r.loop.clock.time ≤ w.stop + _
        linarith [le_max_left D.sgh.clock.tiny D.ls.clock.tiny]
      · intro he
        have := (D.sgh.inWindow w).after_mats_length st r.cycles
        rw [← ((D.sgh.inWindow w).execute_spec st r hr).1] at this
        have he' : r.loop.st.mats = [] := he
        rw [he'] at this
        exact hm (List.length_eq_zero_iff.1 this.symm)
    | levelSet w ks st phi r c rs s' hr _ ih =>
      obtain ⟨a, -, b⟩ := hw w (hw' _ List.mem_cons_self)
      have hs : (D.front w).clock.Sane := ⟨h2.dtStart, h2.dtMin, h2.dtMax, h2.fuzz, h2.tiny, h2.cfl⟩
      obtain ⟨-, p2, p3, -⟩ := C139_progress (D.front w) hs a st.coords phi r c hr
      have p2 : r.clock.time ≤ w.stop + D.ls.clock.tiny := p2 hl
      refine .cons ⟨p3 b, ?_⟩ (ih hm fun k hk => hw' k (List.mem_cons_of_mem _ hk))
      show r.clock.time ≤ w.stop + _
      linarith [le_max_right D.sgh.clock.tiny D.ls.clock.tiny]
  · intro hlen
    rw [List.map_snd_zip (by rw [(C16_chain tf ends).1, hlen])]
    exact linked_windows tf ends

/-! ## The hypotheses are met -/

/-- Without boundary conditions the nodal velocities are the unit gradients. -/
theorem LsJob.stageVel_free (J : LsJob E N) (hsets : J.sets = []) (x : Fin N → Fin 3 → ℝ) (t : ℝ) (psi : Fin E → ℝ) :
    lsStageVel (J.env x) t psi
      = fun n => lsVel J.clock.fuzz (lsGrad (lsMesh3 J.mesh) (lsGeom3 J.mesh x) psi n) := by
  unfold lsStageVel
  have : ∀ (l : List (LsMat E)) (v : Fin N → Vel ℝ 3),
      l.foldl (fun v _ => lsBoundary (J.env x).small (J.env x).sets t v) v = v := by
    intro l
    induction l with
    | nil => intro v; rfl
    | cons a l ih =>
      intro v
      rw [List.foldl_cons, ih]
      show lsBoundary J.small J.sets t v = v
      rw [hsets]; rfl
  exact this _ _

/-- Without boundary conditions the Hamiltonians of every run are bounded. -/
theorem LsJob.bounded_exists (J : LsJob E N) (hf : 0 < J.clock.fuzz) (hsets : J.sets = []) (x : Fin N → Fin 3 → ℝ)
    (phi : Fin E → ℝ) (n : ℕ) (e : Fin E) : ∃ B, 0 ≤ B ∧ J.Bounded x phi n e B := by
  have hvel := fun t psi => J.stageVel_free hsets x t psi
  let H : ℕ → ℕ → Fin 8 → ℝ := fun c k l =>
    lsMag (lsGrad (lsMesh3 J.mesh) (lsGeom3 J.mesh x) (lsAfter (J.env x) J.stages (J.after x phi c).clock.time
      (J.stepOf x (J.after x phi c)) (J.after x phi c).phi k) (J.mesh.nodesInElem e l))
  have hH : ∀ c k l, 0 ≤ H c k l := fun _ _ _ => lsMag_nonneg _
  refine ⟨∑ c ∈ Finset.range n, ∑ k ∈ Finset.range J.stages, ∑ l, H c k l,
    Finset.sum_nonneg fun c _ => Finset.sum_nonneg fun k _ => Finset.sum_nonneg fun l _ => hH c k l, ?_⟩
  rintro c hc k hk psi rfl l
  rw [hvel]
  obtain ⟨h1, -, h3⟩ := C62_hamiltonian J.clock.fuzz hf (lsGrad (lsMesh3 J.mesh) (lsGeom3 J.mesh x)
    (lsAfter (J.env x) J.stages (J.after x phi c).clock.time (J.stepOf x (J.after x phi c)) (J.after x phi c).phi k))
    (J.mesh.nodesInElem e l)
  refine ⟨h3, h1.trans ?_⟩
  have s1 := Finset.single_le_sum (fun l _ => hH c k l) (Finset.mem_univ l)
  have s2 := Finset.single_le_sum (f := fun k => ∑ l, H c k l) (fun k _ => Finset.sum_nonneg fun l _ => hH c k l)
    (Finset.mem_range.2 hk)
  have s3 := Finset.single_le_sum (f := fun c => ∑ k ∈ Finset.range J.stages, ∑ l, H c k l)
    (fun c _ => Finset.sum_nonneg fun k _ => Finset.sum_nonneg fun l _ => hH c k l) (Finset.mem_range.2 hc)
  exact (s1.trans s2).trans s3

/-- A front in the unit cube. -/
noncomputable def cubeFront (front : ℝ) (cycles stages : ℕ) : LsJob 1 8 where
  mesh := oneHex
  sets := []
  mats := [some ⟨[0], front, 0⟩, none]
  clock := { sghCubeJob.clock with cycleStop := cycles, dtMax := 1 / 2, cycIval := cycles + 1 }
  small := 1
  stages := stages

theorem cube_volHex : volHex (elemCoords oneHex (fun n d => (cubeCoords n d : ℝ)) 0 0)
    (elemCoords oneHex (fun n d => (cubeCoords n d : ℝ)) 0 1)
    (elemCoords oneHex (fun n d => (cubeCoords n d : ℝ)) 0 2) = 1 := by
  have h : hexVolRaw (elemCoords oneHex (fun n d => (cubeCoords n d : ℝ)) 0 0)
    (elemCoords oneHex (fun n d => (cubeCoords n d : ℝ)) 0 1)
    (elemCoords oneHex (fun n d => (cubeCoords n d : ℝ)) 0 2) = 1 := by
    simp [hexVolRaw, elemCoords, oneHex, cubeCoords]
    norm_num
  rw [volHex, h]
  norm_num [volFloor]

theorem cubeFront_sane (front : ℝ) (cycles stages : ℕ) : (cubeFront front cycles stages).clock.Sane := by
  constructor <;> norm_num [cubeFront, sghCubeJob]

/-- The hypotheses of `C139_progress`, `_dump_times`, `_speed` and `_untouched` are met by runs of any length with any
normal velocity. -/
example (front : ℝ) (cycles stages : ℕ) (hS : 0 < stages) (phi : Fin 1 → ℝ) :
    ∃ r n B, (cubeFront front cycles stages).execute (fun n d => cubeCoords n d) phi = some (r, n) ∧
      (cubeFront front cycles stages).clock.timeStart < (cubeFront front cycles stages).clock.timeFinal ∧
      (cubeFront front cycles stages).clock.cycleStop < (cubeFront front cycles stages).clock.cycIval ∧
      0 ≤ B ∧ (cubeFront front cycles stages).Bounded (fun n d => cubeCoords n d) phi n 0 B ∧
      |r.phi 0 - phi 0| ≤ (r.clock.time - 0) * ((|front| + 1) * B + 1) := by
  obtain ⟨⟨r, n⟩, h⟩ := (C139_defined (cubeFront front cycles stages) (fun n d => cubeCoords n d) phi).2
    (Or.inl (Nat.succ_ne_zero cycles))
  have hlt : (cubeFront front cycles stages).clock.timeStart < (cubeFront front cycles stages).clock.timeFinal := by
    norm_num [cubeFront, sghCubeJob]
  obtain ⟨B, hB, hb⟩ := (cubeFront front cycles stages).bounded_exists (cubeFront_sane _ _ _).fuzz rfl
    (fun n d => cubeCoords n d) phi n 0
  refine ⟨r, n, B, h, hlt, Nat.lt_succ_self cycles, hB, hb, ?_⟩
  exact C139_speed (cubeFront front cycles stages) (cubeFront_sane _ _ _) hlt hS (by simp [cubeFront]) _ phi r n h
    ⟨[0], front, 0⟩ (by simp [cubeFront]) 0 (by simp)
    B hB hb _ List.mem_cons_self

/-- The hypotheses of `C139_sign` are met: a small positive level set stays positive. -/
example : ∃ (c : ℝ) (r : LsLoop 1) (n : ℕ), 0 < c ∧
    (cubeFront 0 1 1).execute (fun n d => cubeCoords n d) (fun _ => c) = some (r, n) ∧ 0 < r.phi 0 := by
  let g := lsGrad (lsMesh3 oneHex) (lsGeom3 oneHex fun n d => cubeCoords n d)
  have hg : ∀ (c : ℝ) n, g (fun _ => c) n = fun d => c * g (fun _ => 1) n d := by
    intro c n
    funext d
    simp only [g, lsGrad_eq]
    rw [← mul_div_assoc, ← List.sum_map_mul_left]
    congr 3
    funext _
    ring
  let K := ∑ n : Fin 8, lsMag (g (fun _ => 1) n)
  have hK : 0 ≤ K := Finset.sum_nonneg fun n _ => lsMag_nonneg _
  have hc : 0 < 1 / (1 + K) := by positivity
  obtain ⟨⟨r, n⟩, h⟩ := (C139_defined (cubeFront 0 1 1) (fun n d => cubeCoords n d) fun _ => 1 / (1 + K)).2
    (Or.inl (by simp [cubeFront]))
  have hlt : (cubeFront 0 1 1).clock.timeStart < (cubeFront 0 1 1).clock.timeFinal := by
    norm_num [cubeFront, sghCubeJob]
  have hn : n ≤ 1 := ((cubeFront 0 1 1).history _ _ r n h).limit
  refine ⟨1 / (1 + K), r, n, hc, h, ?_⟩
  refine (C139_sign (cubeFront 0 1 1) (cubeFront_sane _ _ _) hlt (by simp [cubeFront]) _ _ r n h
    ⟨[0], 0, 0⟩ (by simp [cubeFront]) rfl 0 (by simp) ?_ ?_ _ List.mem_cons_self).1 hc
  · have hv : (1 / 2 : ℝ) < volHex (elemCoords oneHex (fun n d => (cubeCoords n d : ℝ)) 0 0)
      (elemCoords oneHex (fun n d => (cubeCoords n d : ℝ)) 0 1)
      (elemCoords oneHex (fun n d => (cubeCoords n d : ℝ)) 0 2) ^ ((1 : ℝ) / 3) := by
      rw [cube_volHex, Real.one_rpow]
      norm_num
    exact hv
  · intro c hcn k hk psi hpsi l
    have hc0 : c = 0 := by omega
    have hk0 : k = 0 := by
      have : k < 1 := hk
      omega
    subst hc0 hk0
    have hpsi : psi = fun _ => 1 / (1 + K) := hpsi
    rw [(cubeFront 0 1 1).stageVel_free rfl]
    obtain ⟨h1, -, h3⟩ := C62_hamiltonian (cubeFront 0 1 1).clock.fuzz (cubeFront_sane _ _ _).fuzz (g psi)
      (oneHex.nodesInElem 0 l)
    refine ⟨h3, h1.trans ?_⟩
    rw [hpsi, hg, lsMag_smul, abs_of_pos hc]
    have hle : lsMag (g (fun _ => 1) (oneHex.nodesInElem 0 l)) ≤ K :=
      Finset.single_le_sum (f := fun n => lsMag (g (fun _ => 1) n)) (fun n _ => lsMag_nonneg _) (Finset.mem_univ _)
    rw [one_div, inv_mul_le_iff₀ (by linarith)]
    linarith

/-- A chain of three solvers, hydrodynamics, level set, hydrodynamics, meets the hypotheses of C140. -/
example : ∃ rs s', ({ sgh := sghCubeJob, ls := cubeFront 1 1000 2 } : DriverJob 1 8).run
      ([.hydro, .levelSet, .hydro].zip (solverWindows 3 [1, 2, 3])) ⟨sghCubeState, fun _ => 1⟩ = some (rs, s') ∧
    hydroWindows ([.hydro, .levelSet, .hydro].zip (solverWindows 3 [1, 2, 3])) = [⟨0, 1⟩, ⟨2, 3⟩] ∧
    (∃ w, (SolverKind.hydro, w) ∈ [.hydro, .levelSet, .hydro].zip (solverWindows 3 [1, 2, 3])) ∧
    ∀ w ∈ solverWindows 3 [1, 2, 3], w.start < w.stop ∧
      w.stop - w.start ≤ sghCubeJob.clock.cycleStop *
        min sghCubeJob.clock.dtStart (min sghCubeJob.clock.dtMin sghCubeJob.clock.tiny) := by
  have hw : solverWindows 3 [1, 2, 3] = [⟨0, 1⟩, ⟨1, 2⟩, ⟨2, 3⟩] := by
    simp [solverWindows, laterWindows, firstWindow, nextWindow]; norm_num
  obtain ⟨⟨rs, s'⟩, h⟩ := (C140_defined { sgh := sghCubeJob, ls := cubeFront 1 1000 2 }
    ([.hydro, .levelSet, .hydro].zip (solverWindows 3 [1, 2, 3])) ⟨sghCubeState, fun _ => 1⟩).2
    ⟨fun _ => Or.inl (by simp [sghCubeJob]), fun _ => Or.inl (by simp [cubeFront])⟩
  refine ⟨rs, s', h, by rw [hw]; rfl, ⟨⟨0, 1⟩, by rw [hw]; simp⟩, ?_⟩
  rw [hw]
  intro w hw'
  simp only [List.mem_cons, List.not_mem_nil, or_false] at hw'
  have hmin : min sghCubeJob.clock.dtStart (min sghCubeJob.clock.dtMin sghCubeJob.clock.tiny) = 1 / 1000 := by
    norm_num [sghCubeJob]
  rw [hmin]
  rcases hw' with rfl | rfl | rfl <;> constructor <;> norm_num [sghCubeJob]

end Fierro
