import Verif.Props.TimeStep
import Mathlib.Data.List.GetD

/-!
# C15, C16, C40: the cycle loop, graphics dumps, and the chain of solvers
-/

namespace Fierro

/-! ## The loop in closed form -/

/-- Specification: the clock after `k` cycles if the loop were never left. -/
noncomputable def clockAt (o : ClockOpts) (hist : ℕ → List (List CflElem)) : ℕ → Clock
  | 0 => clockInit o
  | k + 1 => clockCycle o (hist k) k (clockAt o hist k)

theorem clockLoop_spec (o : ClockOpts) (hist : ℕ → List (List CflElem)) (n k : ℕ) :
    ∃ m, k ≤ m ∧ m ≤ k + n ∧ clockLoop o hist n k (clockAt o hist k) = (clockAt o hist m, m) ∧
      (m = k + n ∨ o.timeFinal ≤ (clockAt o hist m).time) ∧
      ∀ j, k < j → j < m → (clockAt o hist j).time < o.timeFinal := by
  induction n generalizing k with
  | zero => exact ⟨k, le_rfl, le_rfl, rfl, Or.inl rfl, fun j h1 h2 => absurd (h1.trans h2) (lt_irrefl _)⟩
  | succ n ih =>
    rw [clockLoop]
    by_cases h : (clockAt o hist (k + 1)).time ≥ o.timeFinal
    · refine ⟨k + 1, by omega, by omega, ?_, Or.inr h, fun j h1 h2 => by omega⟩
      exact if_pos h
    · obtain ⟨m, h1, h2, h3, h4, h5⟩ := ih (k + 1)
      refine ⟨m, by omega, by omega, ?_, ?_, ?_⟩
      · rw [← h3]; exact if_neg h
      · rcases h4 with h4 | h4
        · left; omega
        · exact Or.inr h4
      · intro j hj1 hj2
        rcases Nat.lt_or_ge (k + 1) j with h' | h'
        · exact h5 j h' hj2
        · have : j = k + 1 := by omega
          subst this; exact not_le.1 h

/-- The whole execution: it performs `n ≤ cycle_stop` cycles; it ends because `cycle_stop` cycles
were done or because the final time is reached; and it does not go on after the final time. -/
theorem C15_terminates (o : ClockOpts) (hist : ℕ → List (List CflElem)) (s : Clock) (n : ℕ)
    (h : execute o hist = some (s, n)) :
    n ≤ o.cycleStop ∧ s = clockAt o hist n ∧ (n = o.cycleStop ∨ o.timeFinal ≤ s.time) ∧
    ∀ j, 0 < j → j < n → (clockAt o hist j).time < o.timeFinal := by
  unfold execute at h
  split_ifs at h
  obtain ⟨m, h1, h2, h3, h4, h5⟩ := clockLoop_spec o hist o.cycleStop 0
  have h := Option.some.inj h
  rw [show clockInit o = clockAt o hist 0 from rfl, h3] at h
  obtain ⟨rfl, rfl⟩ := Prod.mk.inj h
  simp only [Nat.zero_add] at h2 h4
  exact ⟨h2, rfl, h4, h5⟩

/-- The only undefined behaviour of the loop control is a zero dump interval in cycles. -/
theorem C15_defined_iff (o : ClockOpts) (hist : ℕ → List (List CflElem)) :
    (∃ r, execute o hist = some r) ↔ (o.cycIval ≠ 0 ∨ o.cycleStop = 0) := by
  unfold execute
  split_ifs with h
  · simp; omega
  · simp; omega

theorem clockCycle_time (o : ClockOpts) (m : List (List CflElem)) (c : ℕ) (s : Clock) :
    (clockCycle o m c s).time = s.time + cycleDt o m s.time s.gtime s.dt := by
  unfold clockCycle; simp only; split_ifs <;> rfl

theorem clockCycle_dt (o : ClockOpts) (m : List (List CflElem)) (c : ℕ) (s : Clock) :
    (clockCycle o m c s).dt = s.dt ∨
    (clockCycle o m c s).dt = cycleDt o m s.time s.gtime s.dt := by
  unfold clockCycle; simp only; split_ifs
  · exact Or.inl rfl
  · exact Or.inr rfl

/-- Lower bound for every step taken before the final time. -/
noncomputable def stepFloor (o : ClockOpts) : ℝ := min o.dtStart (min o.dtMin o.tiny)

theorem stepFloor_pos (o : ClockOpts) (ho : o.Sane) : 0 < stepFloor o :=
  lt_min ho.dtStart (lt_min ho.dtMin ho.tiny)

theorem cycleDt_ge_floor (o : ClockOpts) (ho : o.Sane) (m : List (List CflElem)) (t g dt : ℝ)
    (hdt : stepFloor o ≤ dt) (ht : t < o.timeFinal) : stepFloor o ≤ cycleDt o m t g dt := by
  refine le_trans ?_ (C13_not_too_small o m t g dt ho.dtMax)
  have hp := stepFloor_pos o ho
  have h1 : stepFloor o ≤ o.dtMin := (min_le_right _ _).trans (min_le_left _ _)
  have h2 : stepFloor o ≤ o.tiny := (min_le_right _ _).trans (min_le_right _ _)
  refine le_min (le_min (by linarith) h1) (le_min ?_ (by linarith))
  linarith [le_max_left o.fuzz (g - t), ho.fuzz]

theorem clockAt_dt (o : ClockOpts) (ho : o.Sane) (hist : ℕ → List (List CflElem)) (k : ℕ)
    (hk : ∀ j < k, (clockAt o hist j).time < o.timeFinal) :
    stepFloor o ≤ (clockAt o hist k).dt := by
  induction k with
  | zero => exact min_le_left _ _
  | succ k ih =>
    have ih := ih fun j hj => hk j (by omega)
    rw [clockAt]
    rcases clockCycle_dt o (hist k) k (clockAt o hist k) with h | h
    · rw [h]; exact ih
    · rw [h]; exact cycleDt_ge_floor o ho _ _ _ _ ih (hk k (by omega))

theorem clockAt_lt (o : ClockOpts) (hist : ℕ → List (List CflElem)) (hs : o.timeStart < o.timeFinal)
    (n : ℕ) (h : ∀ j, 0 < j → j < n → (clockAt o hist j).time < o.timeFinal) :
    ∀ j < n, (clockAt o hist j).time < o.timeFinal := by
  intro j hj
  rcases Nat.eq_zero_or_pos j with rfl | h'
  · exact hs
  · exact h j h' hj

/-- Time increases in every cycle of the execution, by at least a fixed positive amount. -/
theorem C15_time_increases (o : ClockOpts) (ho : o.Sane) (hist : ℕ → List (List CflElem))
    (hs : o.timeStart < o.timeFinal) (s : Clock) (n : ℕ) (h : execute o hist = some (s, n)) (j : ℕ)
    (hj : j < n) :
    (clockAt o hist j).time + min o.dtStart (min o.dtMin o.tiny) ≤ (clockAt o hist (j + 1)).time := by
  obtain ⟨_, _, _, h4⟩ := C15_terminates o hist s n h
  have hlt := clockAt_lt o hist hs n h4
  rw [clockAt, clockCycle_time]
  have := cycleDt_ge_floor o ho (hist j) (clockAt o hist j).time (clockAt o hist j).gtime _
    (clockAt_dt o ho hist j fun i hi => hlt i (by omega)) (hlt j hj)
  unfold stepFloor at this
  linarith

/-- An execution that reaches the final time stops there, up to the tolerance. -/
theorem C15_stops_at_final (o : ClockOpts) (hist : ℕ → List (List CflElem))
    (hm : ∀ c, hist c ≠ []) (hs : o.timeStart < o.timeFinal) (ht : 0 ≤ o.tiny) (s : Clock) (n : ℕ)
    (h : execute o hist = some (s, n)) : s.time ≤ o.timeFinal + o.tiny := by
  obtain ⟨_, rfl, _, _⟩ := C15_terminates o hist s n h
  cases n with
  | zero => show o.timeStart ≤ _; linarith
  | succ n => rw [clockAt, clockCycle_time]; exact C13_final o _ (hm _) _ _ _

/-- With enough cycles the final time is reached, whatever the sound speeds and node motions are:
`cycle_stop` times the smallest possible step is enough. -/
theorem C15_reaches_final (o : ClockOpts) (ho : o.Sane) (hist : ℕ → List (List CflElem))
    (hs : o.timeStart < o.timeFinal) (s : Clock) (n : ℕ) (h : execute o hist = some (s, n))
    (hc : o.timeFinal - o.timeStart ≤ o.cycleStop * min o.dtStart (min o.dtMin o.tiny)) :
    o.timeFinal ≤ s.time := by
  obtain ⟨_, rfl, h3, h4⟩ := C15_terminates o hist s n h
  rcases h3 with h3 | h3
  · have key : ∀ j ≤ n, o.timeStart + j * min o.dtStart (min o.dtMin o.tiny) ≤
        (clockAt o hist j).time := by
      intro j
      induction j with
      | zero => intro _; simp [clockAt, clockInit]
      | succ j ih =>
        intro hj
        have h1 := ih (by omega)
        have h2 := C15_time_increases o ho hist hs _ n h j (by omega)
        push_cast
        linarith
    have := key n le_rfl
    rw [h3] at this ⊢
    linarith
  · exact h3

theorem clockAt_log (o : ClockOpts) (hist : ℕ → List (List CflElem)) (k : ℕ) :
    (clockAt o hist k).log.length + 1 = (clockAt o hist k).outputId ∧
    (∀ p ∈ (clockAt o hist k).log, p.1 < k ∧ p.2 = (clockAt o hist (p.1 + 1)).time) ∧
    ((clockAt o hist k).log.map Prod.fst).Pairwise (· > ·) := by
  induction k with
  | zero => simp [clockAt, clockInit]
  | succ k ih =>
    obtain ⟨h1, h2, h3⟩ := ih
    have ht := clockCycle_time o (hist k) k (clockAt o hist k)
    by_cases hw : writeFlag o k ((clockAt o hist k).time +
        cycleDt o (hist k) (clockAt o hist k).time (clockAt o hist k).gtime (clockAt o hist k).dt)
        (clockAt o hist k).gtime = true
    · have hlog : (clockAt o hist (k+1)).log = (k, (clockAt o hist (k+1)).time) ::
          (clockAt o hist k).log := by
        rw [clockAt, ht]; unfold clockCycle; simp only; rw [if_pos hw]
      have hid : (clockAt o hist (k+1)).outputId = (clockAt o hist k).outputId + 1 := by
        rw [clockAt]; unfold clockCycle; simp only; rw [if_pos hw]
      rw [hlog, hid]
      refine ⟨by simp [h1], ?_, ?_⟩
      · intro p hp
        rcases List.mem_cons.1 hp with rfl | hp
        · exact ⟨by simp, rfl⟩
        · exact ⟨(h2 p hp).1.trans (by omega), (h2 p hp).2⟩
      · simp only [List.map_cons, List.pairwise_cons]
        refine ⟨?_, h3⟩
        intro a ha
        obtain ⟨p, hp, rfl⟩ := List.mem_map.1 ha
        exact (h2 p hp).1
    · have hlog : (clockAt o hist (k+1)).log = (clockAt o hist k).log := by
        rw [clockAt]; unfold clockCycle; simp only; rw [if_neg hw]
      have hid : (clockAt o hist (k+1)).outputId = (clockAt o hist k).outputId := by
        rw [clockAt]; unfold clockCycle; simp only; rw [if_neg hw]
      rw [hlog, hid]
      exact ⟨h1, fun p hp => ⟨(h2 p hp).1.trans (by omega), (h2 p hp).2⟩, h3⟩

/-- Graphics dumps: no cycle writes twice, and each dump carries the time of its cycle. -/
theorem C15_dump_once (o : ClockOpts) (hist : ℕ → List (List CflElem)) (s : Clock) (n : ℕ)
    (h : execute o hist = some (s, n)) :
    (s.log.map Prod.fst).Nodup ∧ ∀ p ∈ s.log, p.1 < n ∧ p.2 = (clockAt o hist (p.1 + 1)).time := by
  obtain ⟨_, rfl, _, _⟩ := C15_terminates o hist s n h
  obtain ⟨_, h2, h3⟩ := clockAt_log o hist n
  exact ⟨h3.imp fun hab => ne_of_gt hab, h2⟩

theorem writeFlag_final (o : ClockOpts) (c : ℕ) (t g : ℝ) (h : o.timeFinal ≤ t) :
    writeFlag o c t g = true := by
  unfold writeFlag; split_ifs <;> simp_all

/-- If the final time is reached the final state is dumped. -/
theorem C15_final_state_dumped (o : ClockOpts) (hist : ℕ → List (List CflElem)) (s : Clock) (n : ℕ)
    (h : execute o hist = some (s, n)) (hn : 0 < n) (hf : o.timeFinal ≤ s.time) :
    (n - 1, s.time) ∈ s.log := by
  obtain ⟨_, rfl, _, _⟩ := C15_terminates o hist s n h
  obtain ⟨k, rfl⟩ : ∃ k, n = k + 1 := ⟨n - 1, by omega⟩
  have ht := clockCycle_time o (hist k) k (clockAt o hist k)
  rw [clockAt] at hf ⊢
  have hw := writeFlag_final o k _ (clockAt o hist k).gtime hf
  rw [ht] at hw
  rw [ht]
  unfold clockCycle
  simp only
  rw [if_pos hw]
  simp

/-- If the run ends because of `cycle_stop` the last state need not be dumped: the test
`cycle == cycle_stop` in the loop is never true. -/
theorem C15_cycle_stop_test_dead (o : ClockOpts) (hist : ℕ → List (List CflElem)) (s : Clock) (n : ℕ)
    (h : execute o hist = some (s, n)) (hdump : (n - 1, s.time) ∈ s.log) (hn : 0 < n) :
    (n % o.cycIval = 0 ∧ 1 < n) ∨ o.timeFinal ≤ s.time ∨
      (clockAt o hist (n - 1)).gtime ≤ s.time := by
  obtain ⟨hle, rfl, _, _⟩ := C15_terminates o hist s n h
  obtain ⟨k, rfl⟩ : ∃ k, n = k + 1 := ⟨n - 1, by omega⟩
  have ht := clockCycle_time o (hist k) k (clockAt o hist k)
  simp only [Nat.add_sub_cancel] at hdump ⊢
  rw [clockAt] at hdump ⊢
  by_cases hw : writeFlag o k (clockCycle o (hist k) k (clockAt o hist k)).time
      (clockAt o hist k).gtime = true
  · unfold writeFlag at hw
    split_ifs at hw with h1 h2 h3 h4
    · left; exact ⟨h1.1, by omega⟩
    · omega
    · exact Or.inr (Or.inl h3)
    · exact Or.inr (Or.inr h4)
  · exfalso
    rw [ht] at hw
    have hlog : (clockCycle o (hist k) k (clockAt o hist k)).log = (clockAt o hist k).log := by
      unfold clockCycle; simp only; rw [if_neg hw]
    rw [hlog] at hdump
    exact absurd ((clockAt_log o hist k).2.1 _ hdump).1 (lt_irrefl _)

/-! ## C40: dumps at the requested times -/

/-- State of the clock between dumps, for a run from time zero without dumps by cycle count. -/
structure DumpInv (o : ClockOpts) (s : Clock) : Prop where
  gtime : s.gtime = s.outputId * o.ival
  len : s.log.length + 1 = s.outputId
  early : s.time < s.gtime
  dumps : ∀ k : ℕ, 1 ≤ k → k < s.outputId →
    ∃ p ∈ s.log, k * o.ival ≤ p.2 ∧ p.2 ≤ k * o.ival + o.fuzz + o.tiny

theorem clockCycle_dump (o : ClockOpts) (ho : o.Sane) (m : List (List CflElem)) (hm : m ≠ [])
    (c : ℕ) (hc : c + 1 < o.cycIval) (hcs : c < o.cycleStop) (s : Clock) (hi : DumpInv o s)
    (hiv : o.fuzz + o.tiny < o.ival) :
    ((clockCycle o m c s).time < o.timeFinal → DumpInv o (clockCycle o m c s)) ∧
    ∀ k : ℕ, 1 ≤ k → k * o.ival ≤ (clockCycle o m c s).time →
      ∃ p ∈ (clockCycle o m c s).log, k * o.ival ≤ p.2 ∧ p.2 ≤ k * o.ival + o.fuzz + o.tiny := by
  have ht := clockCycle_time o m c s
  have hg := C13_graphics o m hm s.time s.gtime s.dt
  have hub : (clockCycle o m c s).time ≤ s.gtime + o.fuzz + o.tiny := by
    rw [ht]; refine hg.trans ?_
    have : max (s.time + o.fuzz) s.gtime ≤ s.gtime + o.fuzz :=
      max_le (by linarith [hi.early]) (by linarith [ho.fuzz])
    linarith
  have hip : 0 < o.ival := by linarith [ho.fuzz, ho.tiny]
  have hmod : ¬ ((c + 1) % o.cycIval = 0 ∧ c > 0) := by
    rw [Nat.mod_eq_of_lt hc]; omega
  by_cases hw : writeFlag o c (clockCycle o m c s).time s.gtime = true
  · have hlog : (clockCycle o m c s).log = (c, (clockCycle o m c s).time) :: s.log := by
      rw [ht] at hw ⊢; unfold clockCycle; simp only; rw [if_pos hw]
    have hid : (clockCycle o m c s).outputId = s.outputId + 1 := by
      rw [ht] at hw; unfold clockCycle; simp only; rw [if_pos hw]
    have hgt : (clockCycle o m c s).gtime = ((s.outputId + 1 : ℕ) : ℝ) * o.ival := by
      rw [ht] at hw; unfold clockCycle; simp only; rw [if_pos hw]
    have hall : s.gtime ≤ (clockCycle o m c s).time → ∀ k : ℕ, 1 ≤ k → k ≤ s.outputId →
        ∃ p ∈ (clockCycle o m c s).log, k * o.ival ≤ p.2 ∧ p.2 ≤ k * o.ival + o.fuzz + o.tiny := by
      intro hge k hk1 hk2
      rw [hlog]
      rcases Nat.lt_or_ge k s.outputId with h | h
      · obtain ⟨p, hp, h'⟩ := hi.dumps k hk1 h
        exact ⟨p, List.mem_cons_of_mem _ hp, h'⟩
      · have : k = s.outputId := by omega
        subst this
        refine ⟨_, List.mem_cons_self, ?_, ?_⟩
        · rw [← hi.gtime]; exact hge
        · rw [← hi.gtime]; exact hub
    constructor
    · intro hlt
      have hge : s.gtime ≤ (clockCycle o m c s).time := by
        unfold writeFlag at hw
        split_ifs at hw with h2 h3 h4
        · omega
        · linarith
        · exact h4
      refine ⟨by rw [hgt, hid], by rw [hlog, hid]; simp [hi.len], ?_, ?_⟩
      · rw [hgt]; push_cast; rw [add_mul, ← hi.gtime]; linarith
      · intro k h1 h2; rw [hid] at h2; exact hall hge k h1 (by omega)
    · intro k h1 h2
      rcases le_or_gt s.gtime (clockCycle o m c s).time with hge | hlt
      · refine hall hge k h1 ?_
        by_contra hcon
        have : ((s.outputId + 1 : ℕ) : ℝ) ≤ (k : ℝ) := by exact_mod_cast (by omega)
        have h3 := mul_le_mul_of_nonneg_right this hip.le
        push_cast at h3
        rw [add_mul, ← hi.gtime] at h3
        linarith
      · have hk : k < s.outputId := by
          by_contra hcon
          have : ((s.outputId : ℕ) : ℝ) ≤ (k : ℝ) := by exact_mod_cast (by omega)
          have h3 := mul_le_mul_of_nonneg_right this hip.le
          rw [← hi.gtime] at h3
          linarith
        obtain ⟨p, hp, h'⟩ := hi.dumps k h1 hk
        exact ⟨p, by rw [hlog]; exact List.mem_cons_of_mem _ hp, h'⟩
  · have heq : clockCycle o m c s = { s with
        time := (clockCycle o m c s).time, dt := (clockCycle o m c s).dt } := by
      rw [ht] at hw
      conv_lhs => unfold clockCycle
      simp only
      rw [if_neg hw]
      congr 1
      · exact ht.symm
      · unfold clockCycle; simp only; rw [if_neg hw]
    have hlt : (clockCycle o m c s).time < s.gtime := by
      unfold writeFlag at hw
      split_ifs at hw with h2 h3 h4
      · exact absurd rfl hw
      · exact absurd rfl hw
      · exact absurd rfl hw
      · exact not_le.1 h4
    have hlog : (clockCycle o m c s).log = s.log := by rw [heq]
    have hid : (clockCycle o m c s).outputId = s.outputId := by rw [heq]
    have hgt : (clockCycle o m c s).gtime = s.gtime := by rw [heq]
    refine ⟨fun _ => ⟨by rw [hgt, hid, hi.gtime], by rw [hlog, hid, hi.len], by rw [hgt]; exact hlt,
      by rw [hlog, hid]; exact hi.dumps⟩, ?_⟩
    intro k h1 h2
    rw [hlog]
    refine hi.dumps k h1 ?_
    by_contra hcon
    have : ((s.outputId : ℕ) : ℝ) ≤ (k : ℝ) := by exact_mod_cast (by omega)
    have h3 := mul_le_mul_of_nonneg_right this hip.le
    rw [← hi.gtime] at h3
    linarith

/-- For a solver that starts at time zero and does not dump by cycle count, every requested dump
time `k * graphics_time_step` passed by the run has a dump within the tolerances. -/
theorem C40_dumps_at_requested_times (o : ClockOpts) (ho : o.Sane) (h0 : o.timeStart = 0)
    (hf : 0 < o.timeFinal) (hiv : o.fuzz + o.tiny < o.ival) (hcy : o.cycleStop < o.cycIval)
    (hist : ℕ → List (List CflElem)) (hm : ∀ c, hist c ≠ []) (s : Clock) (n : ℕ)
    (h : execute o hist = some (s, n)) (k : ℕ) (hk : 1 ≤ k) (hks : k * o.ival ≤ s.time) :
    ∃ p ∈ s.log, k * o.ival ≤ p.2 ∧ p.2 ≤ k * o.ival + o.fuzz + o.tiny := by
  obtain ⟨hle, rfl, _, h4⟩ := C15_terminates o hist s n h
  have hlt := clockAt_lt o hist (by rw [h0]; exact hf) n h4
  have hip : 0 < o.ival := by linarith [ho.fuzz, ho.tiny]
  have hinit : DumpInv o (clockInit o) := by
    refine ⟨by simp [clockInit, h0], rfl, by simp [clockInit, h0, hip], ?_⟩
    intro k h1 h2
    simp [clockInit] at h2; omega
  have hinv : ∀ j < n, DumpInv o (clockAt o hist j) := by
    intro j
    induction j with
    | zero => intro _; exact hinit
    | succ j ih =>
      intro hj
      exact (clockCycle_dump o ho _ (hm j) j (by omega) (by omega) _ (ih (by omega)) hiv).1
        (hlt (j + 1) hj)
  cases n with
  | zero =>
    exfalso
    have h1 : (1 : ℝ) ≤ k := by exact_mod_cast hk
    simp only [clockAt, clockInit, h0] at hks
    nlinarith
  | succ n =>
    exact (clockCycle_dump o ho _ (hm n) n (by omega) (by omega) _ (hinv n (by omega)) hiv).2 k hk hks

/-- Without "starts at zero" the claim fails badly.  After its first dump the next dump time is
counted from zero, not from the start of the solver, so a solver whose clock is already past it
writes a dump in every cycle and advances at most `fuzz + tiny` per cycle, until the dump counter
has caught up with the clock. -/
theorem C40_late_start_stalls (o : ClockOpts) (ho : o.Sane) (m : ℕ → List (List CflElem))
    (hm : ∀ c, m c ≠ []) (hiv : 0 ≤ o.ival) (k : ℕ) (s : Clock) (hs : clockAt o m k = s)
    (hg : s.gtime = s.outputId * o.ival) (j : ℕ) (hj : (s.outputId + j : ℕ) * o.ival ≤ s.time)
    (hlt : ∀ i < k + j, (clockAt o m i).time < o.timeFinal) :
    (clockAt o m (k + j)).outputId = s.outputId + j ∧
    (clockAt o m (k + j)).log.length = s.log.length + j ∧
    s.time ≤ (clockAt o m (k + j)).time ∧
    (clockAt o m (k + j)).time ≤ s.time + j * (o.fuzz + o.tiny) := by
  suffices H : (clockAt o m (k + j)).outputId = s.outputId + j ∧
      (clockAt o m (k + j)).log.length = s.log.length + j ∧
      s.time ≤ (clockAt o m (k + j)).time ∧
      (clockAt o m (k + j)).time ≤ s.time + j * (o.fuzz + o.tiny) ∧
      (clockAt o m (k + j)).gtime = (clockAt o m (k + j)).outputId * o.ival from
    ⟨H.1, H.2.1, H.2.2.1, H.2.2.2.1⟩
  induction j with
  | zero => simp [hs, hg]
  | succ j ih =>
    have hj' : ((s.outputId + j : ℕ) : ℝ) * o.ival ≤ s.time := by
      refine le_trans ?_ hj
      apply mul_le_mul_of_nonneg_right _ hiv
      push_cast; linarith
    obtain ⟨h1, h2, h3, h4, h5⟩ := ih hj' fun i hi => hlt i (by omega)
    have hge : (clockAt o m (k + j)).gtime ≤ (clockAt o m (k + j)).time := by
      rw [h5, h1]; exact hj'.trans h3
    have ht := clockCycle_time o (m (k + j)) (k + j) (clockAt o m (k + j))
    have hp := (stepFloor_pos o ho).le.trans
      (cycleDt_ge_floor o ho (m (k + j)) (clockAt o m (k + j)).time (clockAt o m (k + j)).gtime
        (clockAt o m (k + j)).dt (clockAt_dt o ho m _ fun i hi => hlt i (by omega))
        (hlt (k + j) (by omega)))
    have hw : writeFlag o (k + j) ((clockAt o m (k + j)).time + cycleDt o (m (k + j))
        (clockAt o m (k + j)).time (clockAt o m (k + j)).gtime (clockAt o m (k + j)).dt)
        (clockAt o m (k + j)).gtime = true := by
      unfold writeFlag
      have : (clockAt o m (k + j)).time + cycleDt o (m (k + j)) (clockAt o m (k + j)).time
        (clockAt o m (k + j)).gtime (clockAt o m (k + j)).dt ≥ (clockAt o m (k + j)).gtime := by
        linarith
      simp [this]
    have hstep := C13_graphics o (m (k + j)) (hm _) (clockAt o m (k + j)).time
      (clockAt o m (k + j)).gtime (clockAt o m (k + j)).dt
    rw [max_eq_left (by linarith [ho.fuzz])] at hstep
    rw [← Nat.add_assoc, clockAt]
    have hid : (clockCycle o (m (k + j)) (k + j) (clockAt o m (k + j))).outputId =
        (clockAt o m (k + j)).outputId + 1 := by
      unfold clockCycle; simp only; rw [if_pos hw]
    have hgt : (clockCycle o (m (k + j)) (k + j) (clockAt o m (k + j))).gtime =
        (((clockAt o m (k + j)).outputId + 1 : ℕ) : ℝ) * o.ival := by
      unfold clockCycle; simp only; rw [if_pos hw]
    have hlog : (clockCycle o (m (k + j)) (k + j) (clockAt o m (k + j))).log.length =
        (clockAt o m (k + j)).log.length + 1 := by
      unfold clockCycle; simp only; rw [if_pos hw]; simp
    refine ⟨by rw [hid, h1]; ring, by rw [hlog, h2]; ring, by rw [ht]; linarith, ?_,
      by rw [hgt, hid]⟩
    rw [ht]; push_cast; linarith

theorem writeFlag_early (o : ClockOpts) (c : ℕ) (hc : c + 1 < o.cycIval) (hcs : c ≠ o.cycleStop)
    (t g : ℝ) (h : t < o.timeFinal) (h2 : t < g) : writeFlag o c t g = false := by
  unfold writeFlag
  rw [Nat.mod_eq_of_lt hc, if_neg (by omega), if_neg hcs, if_neg (not_le.2 h), if_neg (not_le.2 h2)]

/-- The stall really happens: a solver that starts at `time_start ≥ (J + 1) * graphics_time_step`
(as every solver but the first may) and dumps by time only makes, right after its first dump, `J`
consecutive cycles that each write a dump and together advance the time by at most
`J * (fuzz + tiny)` (with the default options: by `J * 1.0001e-12`). -/
theorem C40_late_start_fails (o : ClockOpts) (ho : o.Sane) (m : ℕ → List (List CflElem))
    (hm : ∀ c, m c ≠ []) (hiv : 0 < o.ival) (J : ℕ) (hstart : (J + 1) * o.ival ≤ o.timeStart)
    (hfin : o.timeStart + o.ival + (J + 1) * (o.fuzz + o.tiny) < o.timeFinal)
    (hcy : o.cycleStop < o.cycIval)
    (henough : o.timeFinal - o.timeStart ≤ o.cycleStop * stepFloor o) :
    ∃ k, (clockAt o m k).log.length = 1 ∧ ∀ j ≤ J,
      (clockAt o m (k + j)).log.length = 1 + j ∧
      (clockAt o m (k + j)).time ≤ (clockAt o m k).time + j * (o.fuzz + o.tiny) := by
  classical
  have hft : 0 < o.fuzz + o.tiny := by linarith [ho.fuzz, ho.tiny]
  have hJ : (0 : ℝ) ≤ J := Nat.cast_nonneg J
  have hJ' := mul_nonneg (by linarith : (0 : ℝ) ≤ (J : ℝ) + 1) hft.le
  -- the first cycle after which the first dump time is passed
  have hex : ∃ k, o.timeStart + o.ival ≤ (clockAt o m k).time := by
    by_contra hcon
    push Not at hcon
    have hlt : ∀ i, (clockAt o m i).time < o.timeFinal := fun i => by linarith [hcon i]
    have key : ∀ i : ℕ, o.timeStart + i * stepFloor o ≤ (clockAt o m i).time := by
      intro i
      induction i with
      | zero => simp [clockAt, clockInit]
      | succ i ih =>
        rw [clockAt, clockCycle_time]
        have := cycleDt_ge_floor o ho (m i) (clockAt o m i).time (clockAt o m i).gtime _
          (clockAt_dt o ho m i fun i _ => hlt i) (hlt i)
        push_cast; linarith
    linarith [key o.cycleStop, hlt o.cycleStop]
  obtain ⟨k, hk, hmin⟩ : ∃ k, o.timeStart + o.ival ≤ (clockAt o m k).time ∧
      ∀ i < k, (clockAt o m i).time < o.timeStart + o.ival :=
    ⟨Nat.find hex, Nat.find_spec hex, fun i hi => not_le.1 (Nat.find_min hex hi)⟩
  have hltk : ∀ i < k, (clockAt o m i).time < o.timeFinal := fun i hi => by linarith [hmin i hi]
  have hkey : ∀ i ≤ k, o.timeStart + i * stepFloor o ≤ (clockAt o m i).time := by
    intro i
    induction i with
    | zero => intro _; simp [clockAt, clockInit]
    | succ i ih =>
      intro hi
      rw [clockAt, clockCycle_time]
      have := cycleDt_ge_floor o ho (m i) (clockAt o m i).time (clockAt o m i).gtime _
        (clockAt_dt o ho m i fun i' hi' => hltk i' (by omega)) (hltk i (by omega))
      have := ih (by omega)
      push_cast; linarith
  have hk0 : k ≠ 0 := by
    rintro rfl
    simp only [clockAt, clockInit] at hk; linarith
  have hkc : k ≤ o.cycleStop := by
    obtain ⟨k', rfl⟩ : ∃ k', k = k' + 1 := ⟨k - 1, by omega⟩
    by_contra hcon
    have h1 := hkey k' (by omega)
    have h2 : (o.cycleStop : ℝ) ≤ k' := by exact_mod_cast (by omega)
    have h3 := mul_le_mul_of_nonneg_right h2 (stepFloor_pos o ho).le
    linarith [hltk k' (by omega)]
  -- no dump before
  have hpre : ∀ i < k, (clockAt o m i).outputId = 1 ∧ (clockAt o m i).log = [] ∧
      (clockAt o m i).gtime = o.timeStart + o.ival := by
    intro i
    induction i with
    | zero => intro _; exact ⟨rfl, rfl, rfl⟩
    | succ i ih =>
      intro hi
      obtain ⟨h1, h2, h3⟩ := ih (by omega)
      have hw := writeFlag_early o i (by omega) (by omega) (clockAt o m (i + 1)).time
        (o.timeStart + o.ival) (hltk _ hi) (hmin _ hi)
      rw [clockAt, clockCycle_time, ← h3] at hw
      rw [clockAt]
      refine ⟨?_, ?_, ?_⟩ <;> unfold clockCycle <;> simp only <;> rw [hw] <;>
        simp only [Bool.false_eq_true, if_false]
      exacts [h1, h2, h3]
  obtain ⟨k', rfl⟩ : ∃ k', k = k' + 1 := ⟨k - 1, by omega⟩
  obtain ⟨p1, p2, p3⟩ := hpre k' (by omega)
  have ht := clockCycle_time o (m k') k' (clockAt o m k')
  have hw : writeFlag o k' ((clockAt o m k').time + cycleDt o (m k') (clockAt o m k').time
      (clockAt o m k').gtime (clockAt o m k').dt) (clockAt o m k').gtime = true := by
    rw [clockAt, ht] at hk
    unfold writeFlag
    rw [← p3] at hk
    simp [ge_iff_le, hk]
  have q1 : (clockAt o m (k' + 1)).outputId = 2 := by
    rw [clockAt]; unfold clockCycle; simp only; rw [if_pos hw, p1]
  have q2 : (clockAt o m (k' + 1)).log.length = 1 := by
    rw [clockAt]; unfold clockCycle; simp only; rw [if_pos hw, p2]; rfl
  have q3 : (clockAt o m (k' + 1)).gtime = (2 : ℕ) * o.ival := by
    rw [clockAt]; unfold clockCycle; simp only; rw [if_pos hw, p1]
  have q4 : (clockAt o m (k' + 1)).time ≤ o.timeStart + o.ival + (o.fuzz + o.tiny) := by
    rw [clockAt, ht]
    refine (C13_graphics o (m k') (hm _) _ _ _).trans ?_
    rw [p3]
    have : max ((clockAt o m k').time + o.fuzz) (o.timeStart + o.ival) ≤
        o.timeStart + o.ival + o.fuzz :=
      max_le (by linarith [hmin k' (by omega)]) (by linarith [ho.fuzz])
    linarith
  have H : ∀ j ≤ J, (∀ i < k' + 1 + j, (clockAt o m i).time < o.timeFinal) ∧
      (clockAt o m (k' + 1 + j)).log.length = 1 + j ∧
      (clockAt o m (k' + 1 + j)).time ≤ (clockAt o m (k' + 1)).time + j * (o.fuzz + o.tiny) := by
    intro j
    induction j with
    | zero => intro _; exact ⟨hltk, by simp [q2], by simp⟩
    | succ j ih =>
      intro hj
      obtain ⟨i1, i2, i3⟩ := ih (by omega)
      have hj1 : ((j + 1 : ℕ) : ℝ) ≤ J := by exact_mod_cast hj
      have hcond : (((clockAt o m (k' + 1)).outputId + (j + 1) : ℕ) : ℝ) * o.ival ≤
          (clockAt o m (k' + 1)).time := by
        rw [q1]
        refine le_trans ?_ hk
        have := mul_le_mul_of_nonneg_right hj1 hiv.le
        push_cast at this ⊢
        linarith
      have hlt : ∀ i < k' + 1 + (j + 1), (clockAt o m i).time < o.timeFinal := by
        intro i hi
        rcases Nat.lt_or_ge i (k' + 1 + j) with h | h
        · exact i1 i h
        · have : i = k' + 1 + j := by omega
          subst this
          have h5 := mul_le_mul_of_nonneg_right hj1 hft.le
          push_cast at h5
          linarith
      obtain ⟨r1, r2, r3, r4⟩ := C40_late_start_stalls o ho m hm hiv.le (k' + 1) _ rfl
        (by rw [q1, q3]) (j + 1) hcond hlt
      exact ⟨hlt, by rw [r2, q2], r4⟩
  exact ⟨k' + 1, q2, fun j hj => (H j hj).2⟩

/-- The options of a second solver that starts at time 1 with dumps every 0.01 satisfy the
hypotheses for 99 stalled cycles. -/
noncomputable def lateClock : ClockOpts :=
  { defaultClock 2 with timeStart := 1, ival := 0.01, cycIval := 10 ^ 13, cycleStop := 10 ^ 12 }

example : lateClock.Sane ∧ ((99 : ℕ) + 1) * lateClock.ival ≤ lateClock.timeStart ∧
    lateClock.timeStart + lateClock.ival + ((99 : ℕ) + 1) * (lateClock.fuzz + lateClock.tiny) <
      lateClock.timeFinal ∧ lateClock.cycleStop < lateClock.cycIval ∧
    lateClock.timeFinal - lateClock.timeStart ≤ lateClock.cycleStop * stepFloor lateClock := by
  refine ⟨by constructor <;> norm_num [lateClock, defaultClock], ?_, ?_, ?_, ?_⟩ <;>
    norm_num [lateClock, defaultClock, stepFloor]

/-- The hypotheses of `C40_dumps_at_requested_times` and of the C15 theorems for a default run. -/
example : ∃ o : ClockOpts, o.Sane ∧ o.timeStart = 0 ∧ 0 < o.timeFinal ∧ o.fuzz + o.tiny < o.ival ∧
    o.cycleStop < o.cycIval ∧ (∃ r, execute o (fun _ => [[demoElem]]) = some r) := by
  refine ⟨{ defaultClock 1 with cycIval := 3000000 }, ?_, rfl, ?_, ?_, ?_, ?_⟩
  · constructor <;> norm_num [defaultClock]
  · norm_num [defaultClock]
  · norm_num [defaultClock]
  · norm_num [defaultClock]
  · rw [C15_defined_iff]; left; norm_num

/-! ## C16: the solver chain -/

theorem laterWindows_length (tf : ℝ) (w : Window) (ts : List ℝ) :
    (laterWindows tf w ts).length = ts.length := by
  induction ts generalizing w with
  | nil => rfl
  | cons t ts ih => simp [laterWindows, ih]

theorem laterWindows_get (tf : ℝ) (w : Window) (ts : List ℝ) (i : ℕ) (v : Window)
    (h : (laterWindows tf w ts)[i]? = some v) :
    (∃ u, (w :: laterWindows tf w ts)[i]? = some u ∧ v.start = u.stop) ∧ v.stop ≤ tf := by
  induction ts generalizing w i with
  | nil => simp [laterWindows] at h
  | cons t ts ih =>
    cases i with
    | zero =>
      simp only [laterWindows, List.getElem?_cons_zero, Option.some.injEq] at h
      subst h
      refine ⟨⟨w, rfl, rfl⟩, ?_⟩
      unfold nextWindow; simp only; split_ifs
      · exact le_rfl
      · exact min_le_right _ _
    | succ i =>
      simp only [laterWindows, List.getElem?_cons_succ] at h
      obtain ⟨⟨u, hu, hv⟩, h2⟩ := ih _ i h
      exact ⟨⟨u, by simpa [laterWindows] using hu, hv⟩, h2⟩

/-- The chain has one window per solver; the first starts at time zero; each later one starts when
its predecessor stops, and stops no later than the final time. -/
theorem C16_chain (tf : ℝ) (ends : List ℝ) :
    (solverWindows tf ends).length = ends.length ∧
    (∀ w, (solverWindows tf ends)[0]? = some w → w.start = 0) ∧
    ∀ i w, (solverWindows tf ends)[i + 1]? = some w →
      (∃ u, (solverWindows tf ends)[i]? = some u ∧ w.start = u.stop) ∧ w.stop ≤ tf := by
  cases ends with
  | nil => simp [solverWindows]
  | cons t ts =>
    refine ⟨by simp [solverWindows, laterWindows_length], ?_, ?_⟩
    · intro w hw
      simp only [solverWindows, List.getElem?_cons_zero, Option.some.injEq] at hw
      subst hw; rfl
    · intro i w hw
      exact laterWindows_get tf _ ts i w hw

/-- If the user's end times are set, increasing and within the final time, the windows are exactly
the intervals between consecutive end times. -/
theorem C16_increasing (tf : ℝ) (ends : List ℝ) (hpos : ∀ t ∈ ends, 1.0e-14 < t ∧ t ≤ tf) (i : ℕ)
    (t : ℝ) (ht : ends[i]? = some t) :
    ∃ w, (solverWindows tf ends)[i]? = some w ∧ w.stop = t := by
  have hlater : ∀ (ts : List ℝ) (w : Window), (∀ t ∈ ts, 1.0e-14 < t ∧ t ≤ tf) →
      ∀ (i : ℕ) (t : ℝ), ts[i]? = some t → ∃ v : Window, (laterWindows tf w ts)[i]? = some v ∧ v.stop = t := by
    intro ts
    induction ts with
    | nil => intro w _ i t h; simp at h
    | cons a ts ih =>
      intro w hp i t h
      cases i with
      | zero =>
        simp only [List.getElem?_cons_zero, Option.some.injEq] at h
        subst h
        have := hp a (by simp)
        refine ⟨_, rfl, ?_⟩
        unfold nextWindow; simp only
        rw [if_neg (not_le.2 this.1), min_eq_left this.2]
      | succ i =>
        simp only [List.getElem?_cons_succ] at h
        exact ih _ (fun t ht => hp t (by simp [ht])) i t h
  cases ends with
  | nil => simp at ht
  | cons a ts =>
    cases i with
    | zero =>
      simp only [List.getElem?_cons_zero, Option.some.injEq] at ht
      subst ht
      have := hpos a (by simp)
      refine ⟨_, rfl, ?_⟩
      unfold firstWindow; simp only
      rw [if_neg (not_le.2 this.1)]
    | succ i =>
      simp only [List.getElem?_cons_succ] at ht
      exact hlater ts _ (fun t ht => hpos t (by simp [ht])) i t ht

example : ∀ t ∈ ([1, 2, 3] : List ℝ), (1.0e-14 : ℝ) < t ∧ t ≤ 3 := by
  intro t ht
  simp only [List.mem_cons, List.not_mem_nil, or_false] at ht
  rcases ht with rfl | rfl | rfl <;> norm_num

/-- The first solver is not bounded by the final time, so the second may get a window that ends
before it starts. -/
theorem C16_window_can_be_reversed :
    ∃ tf ends u w, (solverWindows tf ends)[0]? = some u ∧ (solverWindows tf ends)[1]? = some w ∧
      tf < u.stop ∧ w.stop < w.start := by
  refine ⟨1, [2, 0], ⟨0, 2⟩, ⟨2, 1⟩, ?_, ?_, by norm_num, by norm_num⟩ <;>
    simp [solverWindows, laterWindows, firstWindow, nextWindow] <;> norm_num

end Fierro
