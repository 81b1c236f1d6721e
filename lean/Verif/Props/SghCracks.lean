import Verif.Model.SghCracks
import Verif.Props.SghWhole
import Verif.Props.ContactForce
import Verif.Props.CohesiveForce
import Verif.Props.CohesiveLaw
import Mathlib.Tactic.FinCases

/-!
# C142: a whole run of the 3D hydrodynamics solver with contact and cohesive zones
-/

namespace Fierro

variable {E N M P m : ℕ} {X : Type}

/-! ## The loop in closed form -/

/-- Specification: the loop variables after `k` cycles if the loop were never left. -/
noncomputable def CrackJob.after (J : CrackJob E N M P m X) (st : SghState ℝ E N) : ℕ → CrackLoop E N M P m X
  | 0 => J.start st
  | k + 1 => J.cycle k (J.after st k)

/-- Specification: what the time step control sees in the course of the run. -/
noncomputable def CrackJob.hist (J : CrackJob E N M P m X) (st : SghState ℝ E N) (k : ℕ) : List (List CflElem) :=
  J.base.cfl (J.after st k).z.st

theorem CrackJob.after_clock (J : CrackJob E N M P m X) (st : SghState ℝ E N) (k : ℕ) :
    (J.after st k).clock = clockAt J.base.clock (J.hist st) k := by
  induction k with
  | zero => rfl
  | succ k ih =>
    rw [clockAt, ← ih]
    exact tickClock_eq _ _ _ _

theorem CrackJob.loop_spec (J : CrackJob E N M P m X) (st : SghState ℝ E N) (n k : ℕ) :
    (J.loop n k (J.after st k)).1 = J.after st (J.loop n k (J.after st k)).2 ∧
    ((J.loop n k (J.after st k)).1.clock, (J.loop n k (J.after st k)).2)
      = clockLoop J.base.clock (J.hist st) n k (clockAt J.base.clock (J.hist st) k) := by
  induction n generalizing k with
  | zero => exact ⟨rfl, by rw [CrackJob.loop, clockLoop, J.after_clock]⟩
  | succ n ih =>
    have hc : (J.cycle k (J.after st k)) = J.after st (k + 1) := rfl
    have hd : clockCycle J.base.clock (J.hist st k) k (clockAt J.base.clock (J.hist st) k)
      = clockAt J.base.clock (J.hist st) (k + 1) := rfl
    rw [CrackJob.loop, clockLoop]
    simp only [hc, hd, J.after_clock]
    split_ifs with h
    · exact ⟨rfl, by rw [J.after_clock]⟩
    · exact ih (k + 1)

theorem CrackJob.execute_spec (J : CrackJob E N M P m X) (st : SghState ℝ E N) (r : CrackEnd E N M P m X)
    (h : J.execute st = some r) :
    r.loop = J.after st r.cycles ∧ r.tally = J.base.tally (J.start st).z.st r.loop.z.st ∧
      Fierro.execute J.base.clock (J.hist st) = some (r.loop.clock, r.cycles) := by
  unfold CrackJob.execute at h
  split_ifs at h with hz
  obtain ⟨h1, h2⟩ := J.loop_spec st J.base.clock.cycleStop 0
  cases h
  refine ⟨h1, rfl, ?_⟩
  unfold Fierro.execute
  rw [if_neg hz]
  congr 1
  exact h2.symm

noncomputable def CrackJob.dts (J : CrackJob E N M P m X) (st : SghState ℝ E N) (n : ℕ) : List ℝ :=
  (List.range n).map fun c => J.stepOf (J.after st c)

theorem CrackJob.dts_succ (J : CrackJob E N M P m X) (st : SghState ℝ E N) (n : ℕ) :
    J.dts st (n + 1) = J.dts st n ++ [J.stepOf (J.after st n)] := by
  simp [CrackJob.dts, List.range_succ]

theorem CrackJob.dts_take (J : CrackJob E N M P m X) (st : SghState ℝ E N) (n c : ℕ) (h : c ≤ n) :
    (J.dts st n).take c = J.dts st c := by
  unfold CrackJob.dts
  rw [← List.map_take, List.take_range, min_eq_left h]

theorem CrackJob.after_time (J : CrackJob E N M P m X) (st : SghState ℝ E N) (n : ℕ) :
    (J.after st n).clock.time = J.base.clock.timeStart + (J.dts st n).sum := by
  induction n with
  | zero => simp [CrackJob.dts, CrackJob.after, CrackJob.start, clockInit]
  | succ n ih =>
    rw [J.dts_succ]
    show (tickClock _ _ _ _).1.time = _
    rw [tickClock_time, ih, List.sum_append, List.sum_singleton, add_assoc]

/-- Specification: the run goes through the states `q 0, q 1, ...` in steps `dts`, one cycle each. -/
structure CrackHistory (J : CrackJob E N M P m X) (st : SghState ℝ E N) (r : CrackEnd E N M P m X) (dts : List ℝ)
    (q : ℕ → CrackState E N M P m X) : Prop where
  count : dts.length = r.cycles
  /-- the run starts from the given state with the boundary velocities of the start time, without contact and with an
  undamaged crack -/
  start : q 0 = ⟨{ st with vel := boundaryVelocity J.base.env.sets J.base.clock.timeStart st.vel }, J.fresh,
    fun _ _ => 0, fun _ => ⟨0, 0, 0, 0, fun _ => 0⟩⟩
  final : r.loop.z = q r.cycles
  cycles : ∀ c (hc : c < dts.length), q (c + 1) = J.oneCycle (timeBefore J.base.clock.timeStart dts c) dts[c] (q c)
  time : r.loop.clock.time = J.base.clock.timeStart + dts.sum
  limit : r.cycles ≤ J.base.clock.cycleStop
  ended : r.cycles = J.base.clock.cycleStop ∨ J.base.clock.timeFinal ≤ r.loop.clock.time
  notLater : ∀ c, 0 < c → c < r.cycles → timeBefore J.base.clock.timeStart dts c < J.base.clock.timeFinal
  frames : FramesShow (timeBefore J.base.clock.timeStart dts) (fun k => (q k).st) r.cycles r.loop.clock.log
    r.loop.frames
  /-- the step of each cycle keeps to the CFL condition in the state the cycle starts from -/
  stable : 0 < J.base.clock.fuzz → 0 ≤ J.base.clock.dtCfl → ∀ c (hc : c < dts.length),
    ∀ m ∈ (q c).st.mats, ∀ p ∈ m.pts, p.eroded = false → 0 ≤ p.sspd → ∀ a b : Fin 8, a ≠ b →
      dts[c] * (p.sspd + J.base.clock.fuzz) ≤ J.base.clock.dtCfl *
        euclid ((q c).st.coords (J.base.env.mesh.nodesInElem p.elem a))
          ((q c).st.coords (J.base.env.mesh.nodesInElem p.elem b)) ∨
      dts[c] ≤ J.base.clock.dtMin

theorem CrackJob.after_frames (J : CrackJob E N M P m X) (st : SghState ℝ E N) (n : ℕ) :
    FramesShow (fun k => (J.after st k).clock.time) (fun k => (J.after st k).z.st) n (J.after st n).clock.log
      (J.after st n).frames := by
  induction n with
  | zero => rfl
  | succ n ih =>
    show FramesShow _ _ (n + 1) (tickClock _ _ _ _).1.log (if (tickClock _ _ _ _).2 then _ else _)
    rcases tickClock_dump J.base.clock n (J.stepOf (J.after st n)) (J.after st n).clock with ⟨hb, hl, -⟩ | ⟨hb, hl, -⟩
    · rw [hb, hl, if_pos rfl]
      refine ⟨by omega, ?_, rfl, ih⟩
      show _ = (tickClock _ _ _ _).1.time
      rw [tickClock_time]
    · rw [hb, hl, if_neg (by simp)]
      exact ih.mono (by omega)

theorem CrackJob.history (J : CrackJob E N M P m X) (st : SghState ℝ E N) (r : CrackEnd E N M P m X)
    (h : J.execute st = some r) : CrackHistory J st r (J.dts st r.cycles) fun k => (J.after st k).z := by
  obtain ⟨h1, -, h3⟩ := J.execute_spec st r h
  obtain ⟨t1, t2, t3, t4⟩ := C15_terminates _ _ _ _ h3
  have hT : ∀ c ≤ r.cycles, (J.after st c).clock.time
      = timeBefore J.base.clock.timeStart (J.dts st r.cycles) c := by
    intro c hc
    rw [timeBefore, J.dts_take st _ c hc, J.after_time st c]
  have hd : ∀ c (hc : c < (J.dts st r.cycles).length), (J.dts st r.cycles)[c] = J.stepOf (J.after st c) := by
    intro c hc; simp [CrackJob.dts]
  have hl : (J.dts st r.cycles).length = r.cycles := by simp [CrackJob.dts]
  refine ⟨hl, rfl, by rw [h1], ?_, ?_, t1, t3, ?_, ?_, ?_⟩
  · intro c hc
    rw [hd c hc, ← hT c (by omega)]
    rfl
  · rw [h1, J.after_time st _]
  · intro c hc0 hc
    rw [← hT c hc.le, J.after_clock]
    exact t4 c hc0 hc
  · have := J.after_frames st r.cycles
    rw [← h1] at this
    exact this.congr hT fun _ _ => rfl
  · intro hf hcfl c hc m hm p hp hero hs a b hab
    rw [hd c hc]
    have := C13_cfl J.base.clock (J.base.cfl (J.after st c).z.st) (J.after st c).clock.time (J.after st c).clock.gtime
      (J.after st c).clock.dt hf hcfl _ (List.mem_map_of_mem hm) _ (List.mem_map_of_mem hp) hero hs a b a.2 b.2
      (fun e => hab (Fin.ext e))
    simpa [SghJob.elemOf, CrackJob.stepOf] using this

/-- **C142.** A run with contact and cohesive zones that ends is a number of cycles one after the other, from the given
state with the boundary velocities applied, without contact forces and with an undamaged crack; time, dumps, end of the
run and step sizes are as without them (C137). -/
theorem C142_run (J : CrackJob E N M P m X) (st : SghState ℝ E N) (r : CrackEnd E N M P m X)
    (h : J.execute st = some r) : ∃ dts q, CrackHistory J st r dts q := ⟨_, _, J.history st r h⟩

/-! ## Without contact and crack: the run of C137 -/

theorem CrackJob.plain_stage (J : CrackJob E N M P m X) (hc : J.contact = none) (hk : J.crack = none) (last : Bool)
    (time alpha dt : ℝ) (z : CrackState E N M P m X) :
    J.stage last time alpha dt z = { z with st := sghStage J.base.env time alpha dt z.st } := by
  have ho : J.outer last time alpha dt z = J.base.env.ext z.st time := by
    unfold CrackJob.outer CrackJob.nodeForce
    rw [hc, hk]
  unfold CrackJob.stage
  rw [ho]
  have h1 : J.newContact last time alpha dt z = (z.marks, z.cforce) := by
    unfold CrackJob.newContact; rw [hc]
  have h2 : J.newVars last alpha dt z = z.vars := by
    unfold CrackJob.newVars; rw [hk]
  simp only [h1, h2]
  rfl

theorem CrackJob.plain_cycle (J : CrackJob E N M P m X) (hc : J.contact = none) (hk : J.crack = none)
    (time dt : ℝ) (z : CrackState E N M P m X) :
    J.oneCycle time dt z = { z with st := sghCycle J.base.env J.base.stages time dt z.st } := by
  unfold CrackJob.oneCycle sghCycle
  have : ∀ (l : List ℕ) (w : CrackState E N M P m X),
      l.foldl (fun z s => J.stage (decide (s + 1 = J.base.stages)) time (rkAlpha J.base.stages s) dt z) w
        = { w with st := l.foldl (fun st s => sghStage J.base.env time (rkAlpha J.base.stages s) dt st) w.st } := by
    intro l
    induction l with
    | nil => intro w; rfl
    | cons s l ih => intro w; rw [List.foldl_cons, ih, J.plain_stage hc hk]; rfl
  rw [this]

theorem CrackJob.plain_after (J : CrackJob E N M P m X) (hc : J.contact = none) (hk : J.crack = none)
    (st : SghState ℝ E N) (k : ℕ) :
    (J.after st k).z.st = (J.base.after st k).st ∧ (J.after st k).clock = (J.base.after st k).clock ∧
      (J.after st k).frames = (J.base.after st k).frames := by
  induction k with
  | zero => exact ⟨rfl, rfl, rfl⟩
  | succ k ih =>
    obtain ⟨h1, h2, h3⟩ := ih
    have hd : J.stepOf (J.after st k) = J.base.stepOf (J.base.after st k) := by
      unfold CrackJob.stepOf SghJob.stepOf; rw [h1, h2]
    have hz : (J.cycle k (J.after st k)).z.st = (J.base.cycle k (J.base.after st k)).st := by
      show (J.oneCycle _ _ _).st = sghCycle _ _ _ _ _
      rw [J.plain_cycle hc hk, hd, h1, h2]
    refine ⟨hz, ?_, ?_⟩
    · show (tickClock _ _ _ _).1 = (tickClock _ _ _ _).1
      rw [hd, h2]
    · show (if (tickClock _ _ _ _).2 then (J.cycle k (J.after st k)).z.st :: _ else _)
        = (if (tickClock _ _ _ _).2 then (J.base.cycle k (J.base.after st k)).st :: _ else _)
      rw [hz, hd, h2, h3]

/-- **C142.** Without contact and cohesive zones the run is that of C137: same states, dumps, clock, number of cycles
and tallies. -/
theorem C142_plain (J : CrackJob E N M P m X) (hc : J.contact = none) (hk : J.crack = none) (st : SghState ℝ E N) :
    (J.execute st).map (fun r => (r.loop.z.st, r.loop.clock, r.loop.frames, r.cycles, r.tally))
      = (J.base.execute st).map fun r => (r.loop.st, r.loop.clock, r.loop.frames, r.cycles, r.tally) := by
  have key : ∀ n c, (J.loop n c (J.after st c)).2 = (J.base.loop n c (J.base.after st c)).2 := by
    intro n
    induction n with
    | zero => intro c; rfl
    | succ n ih =>
      intro c
      have hA : (J.cycle c (J.after st c)) = J.after st (c + 1) := rfl
      have hB : (J.base.cycle c (J.base.after st c)) = J.base.after st (c + 1) := rfl
      rw [CrackJob.loop, SghJob.loop]
      simp only [hA, hB, (J.plain_after hc hk st (c + 1)).2.1]
      split_ifs
      · rfl
      · exact ih (c + 1)
  have hk0 := key J.base.clock.cycleStop 0
  have e1 := (J.loop_spec st J.base.clock.cycleStop 0).1
  have e2 := (J.base.loop_spec st J.base.clock.cycleStop 0).1
  unfold CrackJob.execute SghJob.execute
  split_ifs
  · rfl
  · simp only [Option.map_some, Option.some.injEq, Prod.mk.injEq]
    have hs : J.start st = J.after st 0 := rfl
    have ht : J.base.start st = J.base.after st 0 := rfl
    rw [hs, ht, e1, e2, hk0]
    obtain ⟨p1, p2, p3⟩ := J.plain_after hc hk st (J.base.loop J.base.clock.cycleStop 0 (J.base.after st 0)).2
    refine ⟨p1, p2, p3, rfl, ?_⟩
    rw [p1]
    rfl

/-! ## One cycle -/

/-- Specification: the forces of the crack on the nodes. -/
noncomputable def crackForce (J : CrackJob E N M P m X) (dt : ℝ) (s : SghState ℝ E N)
    (vars : Fin P → Cohesive.Vars m) (n : Fin N) (d : Fin 3) : ℝ :=
  match J.crack with
  | none => 0
  | some C => ∑ p, ((if (C.pairs p).a = n then (C.load s dt vars p).force d else 0)
      - if (C.pairs p).b = n then (C.load s dt vars p).force d else 0)

/-- Specification: what a cycle of length `dt` does that starts in `z` at time `t`; `s` is the state the last stage
finds, `F` are the forces of boundary conditions, crack and contact. -/
structure CrackStep (J : CrackJob E N M P m X) (t dt : ℝ) (z : CrackState E N M P m X) (s : SghState ℝ E N)
    (F : Fin N → Fin 3 → ℝ) (z' : CrackState E N M P m X) : Prop where
  /-- the last stage starts from the velocities and places of the start of the cycle -/
  saved : s.velN0 = z.st.vel ∧ s.coordsN0 = z.st.coords
  /-- forces: boundary conditions, crack, and contact computed in this very stage -/
  force : ∀ n d, F n d = J.base.env.ext s t n d + crackForce J dt s z.vars n d
    + (match J.contact with
      | none => 0
      | some D => (D.apply z.marks s (contactTime D.preload J.base.clock.timeFinal t 1 dt)).2 n d)
  /-- Newton's law -/
  vel : z'.st.vel = boundaryVelocity J.base.env.sets t fun n d =>
    z.st.vel n d + dt * (F n d + ((J.base.env.mesh.cornersInNode n).map fun c =>
      cornerForces J.base.env.mesh J.base.env.closures s c d).sum) / J.base.env.mass n
  /-- places move with the mean velocity -/
  coords : ∀ n d, z'.st.coords n d = z.st.coords n d + dt * ((z.st.vel n d + z'.st.vel n d) / 2)
  /-- the crack takes one step of the cohesive law, with the openings of this stage -/
  crack : ∀ C, J.crack = some C → ∀ p, z'.vars p = Cohesive.stage C.law true dt (C.openingOf s dt p) (z.vars p)
  /-- contact takes one step -/
  contact : ∀ D, J.contact = some D →
    (z'.marks, z'.cforce) = D.apply z.marks s (contactTime D.preload J.base.clock.timeFinal t 1 dt)

/-- The state the last stage finds. -/
noncomputable def CrackJob.late (J : CrackJob E N M P m X) (time dt : ℝ) (z : CrackState E N M P m X) :
    CrackState E N M P m X :=
  (List.range (J.base.stages - 1)).foldl
    (fun z s => J.stage (decide (s + 1 = J.base.stages)) time (rkAlpha J.base.stages s) dt z)
    { z with st := rkInit z.st }

theorem CrackJob.oneCycle_eq (J : CrackJob E N M P m X) (hS : 0 < J.base.stages) (time dt : ℝ)
    (z : CrackState E N M P m X) : J.oneCycle time dt z = J.stage true time 1 dt (J.late time dt z) := by
  obtain ⟨k, hk⟩ : ∃ k, J.base.stages = k + 1 := ⟨J.base.stages - 1, by omega⟩
  have h1 : (rkAlpha (k + 1) k : ℝ) = 1 := by simp [rkAlpha]
  unfold CrackJob.oneCycle CrackJob.late
  rw [hk, List.range_succ, List.foldl_append, Nat.add_sub_cancel]
  simp only [List.foldl_cons, List.foldl_nil, h1, decide_true]

/-- Before the last stage contact and crack variables are those of the start of the cycle. -/
theorem CrackJob.early_stage (J : CrackJob E N M P m X) (time alpha dt : ℝ) (z : CrackState E N M P m X) :
    (J.stage false time alpha dt z).marks = z.marks ∧ (J.stage false time alpha dt z).cforce = z.cforce ∧
      (J.stage false time alpha dt z).vars = z.vars := by
  have h1 : J.newContact false time alpha dt z = (z.marks, z.cforce) := by
    unfold CrackJob.newContact; cases J.contact <;> simp
  have h2 : J.newVars false alpha dt z = z.vars := by
    unfold CrackJob.newVars; cases J.crack <;> simp [Cohesive.stage]
  unfold CrackJob.stage
  simp only [h1, h2]
  exact ⟨trivial, trivial, trivial⟩

/-- What all stages but the last keep. -/
theorem CrackJob.early_induct (J : CrackJob E N M P m X) (time dt : ℝ) (z : CrackState E N M P m X)
    (Q : SghState ℝ E N → Prop) (h0 : Q (rkInit z.st))
    (hstep : ∀ s f a, Q s → Q (sghStage { J.base.env with ext := fun _ _ => f } time a dt s)) (k : ℕ)
    (hk : k < J.base.stages) (w : CrackState E N M P m X)
    (hw : w = (List.range k).foldl
      (fun z s => J.stage (decide (s + 1 = J.base.stages)) time (rkAlpha J.base.stages s) dt z)
      { z with st := rkInit z.st }) :
    w.marks = z.marks ∧ w.cforce = z.cforce ∧ w.vars = z.vars ∧ Q w.st := by
  induction k generalizing w with
  | zero => subst hw; exact ⟨rfl, rfl, rfl, h0⟩
  | succ k ih =>
    obtain ⟨i1, i2, i3, i4⟩ := ih (by omega) _ rfl
    rw [List.range_succ, List.foldl_append, List.foldl_cons, List.foldl_nil] at hw
    have hf : decide (k + 1 = J.base.stages) = false := by simp; omega
    rw [hf] at hw
    subst hw
    obtain ⟨e1, e2, e3⟩ := J.early_stage time (rkAlpha J.base.stages k) dt ((List.range k).foldl
      (fun z s => J.stage (decide (s + 1 = J.base.stages)) time (rkAlpha J.base.stages s) dt z)
      { z with st := rkInit z.st })
    exact ⟨e1.trans i1, e2.trans i2, e3.trans i3, hstep _ _ _ i4⟩

theorem CrackJob.late_spec (J : CrackJob E N M P m X) (hS : 0 < J.base.stages) (time dt : ℝ)
    (z : CrackState E N M P m X) :
    (J.late time dt z).marks = z.marks ∧ (J.late time dt z).cforce = z.cforce ∧ (J.late time dt z).vars = z.vars ∧
      (J.late time dt z).st.velN0 = z.st.vel ∧ (J.late time dt z).st.coordsN0 = z.st.coords := by
  obtain ⟨h1, h2, h3, h4⟩ := J.early_induct time dt z (fun s => s.velN0 = z.st.vel ∧ s.coordsN0 = z.st.coords)
    ⟨rfl, rfl⟩ (fun s f a hs => hs) (J.base.stages - 1) (by omega) (J.late time dt z) rfl
  exact ⟨h1, h2, h3, h4⟩

theorem Crack.forces_eq (C : Crack N P m) (s : SghState ℝ E N) (dt : ℝ) (vars : Fin P → Cohesive.Vars m) (n : Fin N)
    (d : Fin 3) : C.forces s dt vars n d
      = ∑ p, ((if (C.pairs p).a = n then (C.load s dt vars p).force d else 0)
        - if (C.pairs p).b = n then (C.load s dt vars p).force d else 0) := by
  have hsum : ∀ (l : List (Fin P)), Cohesive.allForces (l.map (C.load s dt vars)) n d
      = (l.map fun p => (if (C.pairs p).a = n then (C.load s dt vars p).force d else 0)
        - if (C.pairs p).b = n then (C.load s dt vars p).force d else 0).sum := by
    intro l
    rw [C87_node_force]
    induction l with
    | nil => simp
    | cons p l ih =>
      have ha : (C.load s dt vars p).a = (C.pairs p).a := rfl
      have hb : (C.load s dt vars p).b = (C.pairs p).b := rfl
      simp only [List.map_cons, List.sum_cons, List.filter_cons, ha, hb, ← ih]
      by_cases h1 : (C.pairs p).a = n <;> by_cases h2 : (C.pairs p).b = n <;> simp [h1, h2] <;> ring
  unfold Crack.forces
  rw [hsum, ← Fin.sum_univ_def]

theorem CrackJob.cycle_step (J : CrackJob E N M P m X) (hS : 0 < J.base.stages) (t dt : ℝ)
    (z : CrackState E N M P m X) : CrackStep J t dt z (J.late t dt z).st (J.outer true t 1 dt (J.late t dt z))
      (J.oneCycle t dt z) := by
  obtain ⟨l1, l2, l3, l4, l5⟩ := J.late_spec hS t dt z
  refine ⟨⟨l4, l5⟩, ?_, ?_, ?_, ?_, ?_⟩
  · intro n d
    have hn : J.nodeForce t 1 dt (J.late t dt z) n d
        = J.base.env.ext (J.late t dt z).st t n d + crackForce J dt (J.late t dt z).st z.vars n d := by
      unfold CrackJob.nodeForce crackForce
      cases J.crack with
      | none => simp
      | some C => simp only [Cohesive.addNodal, one_mul, l3, C.forces_eq]
    unfold CrackJob.outer CrackJob.newContact
    cases hc : J.contact with
    | none => simp only [hn, add_zero]
    | some D => simp only [hn, l1, if_true]
  · rw [J.oneCycle_eq hS]
    show boundaryVelocity _ _ (stageVelFree _ _ _ _ _) = _
    congr 1
    funext n d
    simp only [stageVelFree, updateVelocity, nodeForceTotal, l4, one_mul]
    congr 3
    have : ∀ (l : List (Fin E × Fin 8)) (g : Fin E × Fin 8 → ℝ) (a : ℝ),
        l.foldl (fun acc c => acc + g c) a = a + (l.map g).sum := by
      intro l g
      induction l with
      | nil => intro a; simp
      | cons c l ih => intro a; rw [List.foldl_cons, ih]; simp [add_assoc]
    rw [this]
  · intro n d
    rw [J.oneCycle_eq hS]
    show updatePosition _ _ _ _ _ n d = _
    simp only [updatePosition, l4, l5, one_mul]
    show _ = _ + dt * ((z.st.vel n d + boundaryVelocity _ _ _ n d) / 2)
    ring_nf
  · intro C hC p
    rw [J.oneCycle_eq hS]
    show J.newVars true 1 dt _ p = _
    unfold CrackJob.newVars
    rw [hC]
    simp only [one_mul, l3]
  · intro D hD
    rw [J.oneCycle_eq hS]
    show ((J.newContact true t 1 dt _).1, (J.newContact true t 1 dt _).2) = _
    unfold CrackJob.newContact
    rw [hD]
    simp only [if_true, l1]

/-- **C142.** Every cycle is one step of Newton's law under the forces of its last stage: those of the elements, of the
stress boundary conditions, of the crack and of contact, all for the state the last stage finds.  The crack takes one
step of the cohesive law and contact is resolved once.  With one stage that state is the one the cycle starts from. -/
theorem C142_cycle (J : CrackJob E N M P m X) (hS : 0 < J.base.stages) (t dt : ℝ) (z : CrackState E N M P m X) :
    ∃ s F, CrackStep J t dt z s F (J.oneCycle t dt z) ∧ (J.base.stages = 1 → s = rkInit z.st) := by
  refine ⟨_, _, J.cycle_step hS t dt z, fun h1 => ?_⟩
  unfold CrackJob.late
  rw [h1]
  rfl

/-! ## Conservation -/

theorem scatter_total (bdy : Fin M → Fin N) (hb : Function.Injective bdy) (F : Contact.Forces ℝ M) (d : Fin 3) :
    ∑ n, Contact.scatter bdy F n d = ∑ i, F i d := by
  obtain ⟨c1, c2⟩ := C81_copied bdy hb F
  rw [← Finset.sum_subset (Finset.subset_univ (Finset.univ.map ⟨bdy, hb⟩))]
  · rw [Finset.sum_map]
    exact Finset.sum_congr rfl fun i _ => by
      rw [Function.Embedding.coeFn_mk, c1]
  · intro n _ hn
    rw [c2 n fun i hi => hn (Finset.mem_map.2 ⟨i, Finset.mem_univ _, hi⟩)]

theorem crackForce_total (J : CrackJob E N M P m X) (dt : ℝ) (s : SghState ℝ E N) (vars : Fin P → Cohesive.Vars m)
    (d : Fin 3) : ∑ n, crackForce J dt s vars n d = 0 := by
  unfold crackForce
  cases J.crack with
  | none => simp
  | some C =>
    simp only
    rw [Finset.sum_comm]
    refine Finset.sum_eq_zero fun p _ => ?_
    rw [Finset.sum_sub_distrib]
    simp

/-- The forces of a cycle sum to those of the boundary conditions. -/
theorem CrackStep.total {J : CrackJob E N M P m X} {t dt : ℝ} {z z' : CrackState E N M P m X} {s : SghState ℝ E N}
    {F : Fin N → Fin 3 → ℝ} (h : CrackStep J t dt z s F z')
    (hb : ∀ D, J.contact = some D → Function.Injective D.bdy) (d : Fin 3) :
    ∑ n, F n d = ∑ n, J.base.env.ext s t n d := by
  simp only [h.force, Finset.sum_add_distrib, crackForce_total, add_zero]
  cases hc : J.contact with
  | none => simp
  | some D =>
    simp only
    unfold ContactSetup.apply
    simp only
    rw [scatter_total D.bdy (hb D hc), C81_total_zero, add_zero]

/-- The hydrodynamics of the last stage, with the forces of `C142_cycle`. -/
theorem CrackJob.oneCycle_st (J : CrackJob E N M P m X) (hS : 0 < J.base.stages) (t dt : ℝ)
    (z : CrackState E N M P m X) : ∃ s F, CrackStep J t dt z s F (J.oneCycle t dt z) ∧
      s = (J.late t dt z).st ∧
      (J.oneCycle t dt z).st = sghStage { J.base.env with ext := fun _ _ => F } t 1 dt s := by
  refine ⟨(J.late t dt z).st, J.outer true t 1 dt (J.late t dt z), ?_, rfl, ?_⟩
  · exact J.cycle_step hS t dt z
  · rw [J.oneCycle_eq hS]
    rfl

/-- **C142.** Contact and cohesive zones conserve momentum over the whole run: without tractions on the boundary, a
component of the momentum that no boundary set holds is at the end what it was at the start, whatever pairs are found,
however far the iteration for the contact forces gets, and however damaged the crack is. -/
theorem C142_momentum (J : CrackJob E N M P m X) (hWF : J.base.env.mesh.WF) (hm : ∀ n, J.base.env.mass n ≠ 0)
    (hdisp : DispNeutral J.base.env.closures) (hext : ∀ st t n d, J.base.env.ext st t n d = 0)
    (hb : ∀ D, J.contact = some D → Function.Injective D.bdy) (Z : Fin N → Fin 3 → Bool)
    (hZ : ClampSets J.base.env.sets Z) (d : Fin 3) (hd : ∀ n, Z n d = false) (st : SghState ℝ E N)
    (r : CrackEnd E N M P m X) (h : J.execute st = some r) :
    ∑ n, J.base.env.mass n * r.loop.z.st.vel n d = ∑ n, J.base.env.mass n * st.vel n d := by
  obtain ⟨h1, -, -⟩ := J.execute_spec st r h
  have hclamp : ∀ (t : ℝ) (v : Fin N → Vel ℝ 3), momentum J.base.env.mass (boundaryVelocity J.base.env.sets t v) d
      = momentum J.base.env.mass v d := by
    intro t v
    unfold momentum
    refine Finset.sum_congr rfl fun n _ => ?_
    rw [hZ, hd]
    simp
  have key : ∀ k, momentum J.base.env.mass (J.after st k).z.st.vel d = momentum J.base.env.mass st.vel d := by
    intro k
    induction k with
    | zero => exact hclamp _ _
    | succ k ih =>
      rw [← ih]
      show momentum _ (J.oneCycle _ _ _).st.vel d = _
      rcases Nat.eq_zero_or_pos J.base.stages with hS | hS
      · unfold CrackJob.oneCycle
        rw [hS]
        rfl
      · obtain ⟨s, F, hs, -, he⟩ := J.oneCycle_st hS (J.after st k).clock.time (J.stepOf (J.after st k))
          (J.after st k).z
        have hF := hs.total hb d
        simp only [hext, Finset.sum_const_zero] at hF
        rw [he, sghStage_vel, hclamp, C10_stage_balance { J.base.env with ext := fun _ _ => F } hWF hm hdisp]
        show momentum _ s.velN0 d + _ * ∑ n, F n d = _
        rw [hF, mul_zero, add_zero, hs.saved.1]
  rw [h1]
  exact key _

theorem sghStage_ptData (env : SghEnv ℝ E N) (hlaw : env.closures.Lawful) (t a dt : ℝ) (st : SghState ℝ E N) :
    ptData (sghStage env t a dt st).mats = ptData st.mats := by
  obtain ⟨g, hg, hgm⟩ := sghStage_mats env hlaw t a dt st
  rw [hgm]
  unfold ptData
  rw [List.map_map]
  refine List.map_congr_left fun m _ => ?_
  simp [Function.comp_def, hg]

/-- Energy of one cycle. -/
theorem CrackJob.cycle_energy (J : CrackJob E N M P m X) (hS : 0 < J.base.stages) (hWF : J.base.env.mesh.WF)
    (hm : ∀ n, J.base.env.mass n ≠ 0) (hlaw : J.base.env.closures.Lawful) (Z : Fin N → Fin 3 → Bool)
    (hZ : ClampSets J.base.env.sets Z) (t dt : ℝ) (z : CrackState E N M P m X) (hmass : MassOK z.st.mats)
    (hone : ((z.st.mats.flatMap fun m => m.pts).map fun p => p.elem).Nodup)
    (hv : ∀ n d, Z n d = true → z.st.vel n d = 0) :
    ∃ s F, CrackStep J t dt z s F (J.oneCycle t dt z) ∧
      totalEnergy J.base.env.mass (J.oneCycle t dt z).st = totalEnergy J.base.env.mass z.st
        + dt * ∑ n, ∑ d, F n d * ((z.st.vel n d + (J.oneCycle t dt z).st.vel n d) / 2) ∧
      ptData (J.oneCycle t dt z).st.mats = ptData z.st.mats ∧
      ∀ n d, Z n d = true → (J.oneCycle t dt z).st.vel n d = 0 := by
  obtain ⟨s, F, hs, hl, he⟩ := J.oneCycle_st hS t dt z
  obtain ⟨-, -, -, e1, e2⟩ := J.early_induct t dt z
    (fun s => ptData s.mats = ptData z.st.mats ∧ totalEnergyN0 J.base.env.mass s = totalEnergy J.base.env.mass z.st)
    ⟨by
      show ptData (z.st.mats.map _) = _
      unfold ptData
      rw [List.map_map]
      refine List.map_congr_left fun m _ => ?_
      simp [Function.comp_def], by
      simp only [totalEnergyN0, totalEnergy, internalEnergyFuzz, rkInit]
      rw [sumPts_map_pts]
      rfl⟩
    (fun s f a ⟨p1, p2⟩ => ⟨(sghStage_ptData { J.base.env with ext := fun _ _ => f } hlaw t a dt s).trans p1, by
      obtain ⟨g, hg, hgm⟩ := sghStage_mats { J.base.env with ext := fun _ _ => f } hlaw t a dt s
      rw [← p2, totalEnergyN0, totalEnergyN0, hgm, sumPts_map_pts, sghStage_velN0]
      congr 1
      apply listSum_congr2
      intro m _ p _
      rw [(hg m p).2.1, (hg m p).2.2]⟩)
    (J.base.stages - 1) (by omega) (J.late t dt z) rfl
  rw [← hl] at e1 e2
  have hsm : MassOK s.mats := by rw [massOK_iff, e1, ← massOK_iff]; exact hmass
  have hso : ((s.mats.flatMap fun m => m.pts).map fun p => p.elem).Nodup := by
    rw [elems_eq, e1, ← elems_eq]; exact hone
  refine ⟨s, F, hs, ?_, ?_, ?_⟩
  · rw [he, C11_stage_balance (by norm_num) { J.base.env with ext := fun _ _ => F } hWF hm hlaw t 1 dt s hsm
      (consistent_of_distinct _ hso), e2]
    have hw : wallWork J.base.env.mass (stageVelFree { J.base.env with ext := fun _ _ => F } t 1 dt s)
        (sghStage { J.base.env with ext := fun _ _ => F } t 1 dt s).vel s.velN0 = 0 := by
      rw [sghStage_vel]
      exact wallWork_clamp _ _ Z hZ _ _ _ (by rw [hs.saved.1]; exact hv)
    show _ + _ + wallWork J.base.env.mass _ _ _ = _
    rw [hw, add_zero, externalWork, one_mul, hs.saved.1]
    congr 2
    refine Finset.sum_congr rfl fun n _ => Finset.sum_congr rfl fun d _ => ?_
    rw [add_comm (z.st.vel n d)]
  · rw [he, sghStage_ptData { J.base.env with ext := fun _ _ => F } hlaw, e1]
  · intro n d hnd
    rw [hs.vel, hZ, if_pos hnd]

/-- **C142.** Energy over the whole run: between fixed walls the printed change of energy is exactly the work that the
tractions, the crack and the contact forces of the last stage of each cycle do along the mean velocity of the cycle (up
to the `1e-20` safeguard of the specific energy).  In particular neither the crack nor contact conserves the printed
energy: what they store or take is in no tally. -/
theorem C142_energy (J : CrackJob E N M P m X) (hS : 0 < J.base.stages) (hWF : J.base.env.mesh.WF)
    (hm : ∀ n, J.base.env.mass n ≠ 0) (hlaw : J.base.env.closures.Lawful) (Z : Fin N → Fin 3 → Bool)
    (hZ : ClampSets J.base.env.sets Z) (st : SghState ℝ E N) (hmass : MassOK st.mats)
    (hone : ((st.mats.flatMap fun m => m.pts).map fun p => p.elem).Nodup) (r : CrackEnd E N M P m X)
    (h : J.execute st = some r) :
    ∃ dts q, CrackHistory J st r dts q ∧ ∃ (s : ℕ → SghState ℝ E N) (F : ℕ → Fin N → Fin 3 → ℝ),
      (∀ c (hc : c < dts.length),
        CrackStep J (timeBefore J.base.clock.timeStart dts c) dts[c] (q c) (s c) (F c) (q (c + 1))) ∧
      r.tally.change = (∑ c : Fin dts.length, dts[c] * ∑ n, ∑ d, F c n d *
          (((q c).st.vel n d + (q (c + 1)).st.vel n d) / 2))
        - 1 / 10 ^ 20 * ((r.loop.z.st.mats.map fun m => (m.pts.map fun p => p.sie).sum).sum
          - (st.mats.map fun m => (m.pts.map fun p => p.sie).sum).sum) := by
  have H := J.history st r h
  obtain ⟨h1, h2, -⟩ := J.execute_spec st r h
  have inv : ∀ k, ptData (J.after st k).z.st.mats = ptData st.mats ∧
      ∀ n d, Z n d = true → (J.after st k).z.st.vel n d = 0 := by
    intro k
    induction k with
    | zero =>
      refine ⟨rfl, fun n d hnd => ?_⟩
      show boundaryVelocity _ _ _ n d = 0
      rw [hZ, if_pos hnd]
    | succ k ih =>
      have := J.cycle_energy hS hWF hm hlaw Z hZ (J.after st k).clock.time (J.stepOf (J.after st k)) (J.after st k).z
        (by rw [massOK_iff, ih.1, ← massOK_iff]; exact hmass) (by rw [elems_eq, ih.1, ← elems_eq]; exact hone) ih.2
      obtain ⟨s, F, -, -, a, b⟩ := this
      exact ⟨a.trans ih.1, b⟩
  have step : ∀ c, ∃ (s : SghState ℝ E N) (F : Fin N → Fin 3 → ℝ), ∀ hc : c < (J.dts st r.cycles).length,
      CrackStep J (timeBefore J.base.clock.timeStart (J.dts st r.cycles) c) (J.dts st r.cycles)[c] (J.after st c).z s F
        (J.after st (c + 1)).z ∧
      totalEnergy J.base.env.mass (J.after st (c + 1)).z.st = totalEnergy J.base.env.mass (J.after st c).z.st
        + (J.dts st r.cycles)[c] * ∑ n, ∑ d, F n d *
          (((J.after st c).z.st.vel n d + (J.after st (c + 1)).z.st.vel n d) / 2) := by
    intro c
    by_cases hc : c < (J.dts st r.cycles).length
    · obtain ⟨s, F, a, b, -⟩ := J.cycle_energy hS hWF hm hlaw Z hZ
        (timeBefore J.base.clock.timeStart (J.dts st r.cycles) c) (J.dts st r.cycles)[c] (J.after st c).z
        (by rw [massOK_iff, (inv c).1, ← massOK_iff]; exact hmass)
        (by rw [elems_eq, (inv c).1, ← elems_eq]; exact hone) (inv c).2
      have e : (J.after st (c + 1)).z = _ := H.cycles c hc
      rw [← e] at a b
      exact ⟨s, F, fun _ => ⟨a, b⟩⟩
    · exact ⟨(J.after st c).z.st, fun _ _ => 0, fun h => absurd h hc⟩
  choose s F hF using step
  refine ⟨_, _, H, s, F, fun c hc => (hF c hc).1, ?_⟩
  have tot : ∀ k (hk : k ≤ (J.dts st r.cycles).length), totalEnergy J.base.env.mass (J.after st k).z.st
      = totalEnergy J.base.env.mass (J.after st 0).z.st + ∑ c : Fin k, (J.dts st r.cycles)[c.1] * ∑ n, ∑ d, F c n d *
          (((J.after st c).z.st.vel n d + (J.after st (c + 1)).z.st.vel n d) / 2) := by
    intro k
    induction k with
    | zero => intro _; simp
    | succ k ih =>
      intro hk
      rw [Fin.sum_univ_castSucc, ← add_assoc]
      rw [(hF k (by omega)).2, ih (by omega)]
      rfl
  have hl : r.loop.z = (J.after st (J.dts st r.cycles).length).z := by rw [H.final, H.count]
  have e := tot _ le_rfl
  rw [← hl] at e
  have p0 := C11_printed_energy J.base.env.mass (J.start st).z.st
  have p1 := C11_printed_energy J.base.env.mass r.loop.z.st
  rw [h2]
  show (internalEnergy _ + kineticEnergy _ _) - (internalEnergy _ + kineticEnergy _ _) = _
  have hm0 : (J.start st).z.st.mats = st.mats := rfl
  rw [add_comm (internalEnergy r.loop.z.st.mats), add_comm (internalEnergy (J.start st).z.st.mats), p0, p1, e]
  have ha : (J.after st 0).z.st = (J.start st).z.st := rfl
  rw [ha, hm0]
  simp only [sumPts, energyFuzz, Fin.getElem_fin]
  ring

/-! ## The crack -/

/-- **C142.** Along a run the variables of every crack pair are those of the cohesive law for the openings the last
stages find; damage never decreases from one state of the run to a later one and stays between zero and one. -/
theorem C142_damage (J : CrackJob E N M P m X) (hS : 0 < J.base.stages) (C : Crack N P m) (hC : J.crack = some C)
    (ha : 0 ≤ C.law.a1) (st : SghState ℝ E N) (r : CrackEnd E N M P m X) (h : J.execute st = some r) :
    ∃ dts q, CrackHistory J st r dts q ∧
      (∀ p, ∃ os : List Cohesive.Opening, os.length = dts.length ∧
        (r.loop.z.vars p) = Cohesive.evolve C.law (dts.zip os) ⟨0, 0, 0, 0, fun _ => 0⟩) ∧
      ∀ p i j, i ≤ j → j ≤ r.cycles →
        0 ≤ ((q i).vars p).damage ∧ ((q i).vars p).damage ≤ ((q j).vars p).damage ∧ ((q j).vars p).damage ≤ 1 := by
  have H := J.history st r h
  have hstep : ∀ c, ∃ s : SghState ℝ E N, ∀ p, (J.after st (c + 1)).z.vars p
      = Cohesive.stage C.law true (J.stepOf (J.after st c)) (C.openingOf s (J.stepOf (J.after st c)) p)
          ((J.after st c).z.vars p) := by
    intro c
    obtain ⟨s, F, hs, -⟩ := C142_cycle J hS (J.after st c).clock.time (J.stepOf (J.after st c)) (J.after st c).z
    exact ⟨s, hs.crack C hC⟩
  choose s hs using hstep
  refine ⟨_, _, H, ?_, ?_⟩
  · intro p
    refine ⟨(List.range r.cycles).map fun c => C.openingOf (s c) (J.stepOf (J.after st c)) p, by simp [CrackJob.dts], ?_⟩
    have key : ∀ k, (J.after st k).z.vars p = Cohesive.evolve C.law ((J.dts st k).zip
        ((List.range k).map fun c => C.openingOf (s c) (J.stepOf (J.after st c)) p)) (Cohesive.Vars.zero m) := by
      intro k
      have hz : (J.dts st k).zip ((List.range k).map fun c => C.openingOf (s c) (J.stepOf (J.after st c)) p)
          = (List.range k).map fun c => (J.stepOf (J.after st c), C.openingOf (s c) (J.stepOf (J.after st c)) p) := by
        unfold CrackJob.dts
        rw [List.zip_map']
      rw [hz]
      induction k with
      | zero => rfl
      | succ k ih =>
        have hev : ∀ (l : List (ℝ × Cohesive.Opening)) (x : ℝ × Cohesive.Opening) (v : Cohesive.Vars m),
            Cohesive.evolve C.law (l ++ [x]) v = Cohesive.stage C.law true x.1 x.2 (Cohesive.evolve C.law l v) := by
          intro l
          induction l with
          | nil => intro x v; rfl
          | cons y l ihl => intro x v; rw [List.cons_append, Cohesive.evolve, ihl, Cohesive.evolve]
        rw [List.range_succ, List.map_append, List.map_cons, List.map_nil, hev, ← ih, hs]
        unfold CrackJob.dts
        rw [List.zip_map']
    rw [H.final]
    exact key _
  · intro p i j hij hj
    have one : ∀ c, ((J.after st c).z.vars p).damage ≤ 1 →
        ((J.after st c).z.vars p).damage ≤ ((J.after st (c + 1)).z.vars p).damage ∧
          ((J.after st (c + 1)).z.vars p).damage ≤ 1 := by
      intro c hc
      have := C86_damage_range C.law ha [(J.stepOf (J.after st c), C.openingOf (s c) (J.stepOf (J.after st c)) p)]
        ((J.after st c).z.vars p) hc
      rw [hs]
      exact this
    have low : ∀ k, 0 ≤ ((J.after st k).z.vars p).damage ∧ ((J.after st k).z.vars p).damage ≤ 1 := by
      intro k
      induction k with
      | zero => exact ⟨le_refl (0 : ℝ), zero_le_one⟩
      | succ k ih => exact ⟨ih.1.trans (one k ih.2).1, (one k ih.2).2⟩
    refine ⟨(low i).1, ?_, (low j).2⟩
    induction j, hij using Nat.le_induction with
    | base => exact le_refl _
    | succ j hij ih => exact (ih (by omega)).trans (one j (low j).2).1

/-! ## Contact -/

/-- **C142.** The time over which contact is predicted: the step of the cycle without preload; with preload half of the
time left in the first third of the time up to the end of the run, and five steps later on. -/
theorem C142_preload (tf t dt : ℝ) :
    contactTime false tf t 1 dt = dt ∧
    (t < tf / 3 → contactTime true tf t 1 dt = (tf - t) / 2) ∧
    (tf / 3 ≤ t → contactTime true tf t 1 dt = 5 * dt) := by
  unfold contactTime
  refine ⟨by simp, fun h => ?_, fun h => ?_⟩
  · rw [if_pos rfl, if_pos (by linarith)]
  · rw [if_pos rfl, if_neg (by linarith), mul_one]

/-- **C142.** Contact is resolved in the last stage of a cycle only: in all earlier stages the nodes are pushed by the
contact forces left by the previous cycle, whatever has become of the contact since (in the first cycle by none). -/
theorem C142_contact_stages (J : CrackJob E N M P m X) (D : ContactSetup E N M X) (hD : J.contact = some D) (t dt : ℝ)
    (z : CrackState E N M P m X) (k : ℕ) (hk : k + 1 < J.base.stages) :
    ∃ w : CrackState E N M P m X, w = (List.range k).foldl
        (fun z s => J.stage (decide (s + 1 = J.base.stages)) t (rkAlpha J.base.stages s) dt z) { z with st := rkInit z.st } ∧
      (J.stage (decide (k + 1 = J.base.stages)) t (rkAlpha J.base.stages k) dt w).cforce = z.cforce ∧
      (J.stage (decide (k + 1 = J.base.stages)) t (rkAlpha J.base.stages k) dt w).st.vel
        = boundaryVelocity J.base.env.sets t fun n d => z.st.vel n d + 1 / (J.base.stages - k) * dt *
          ((J.base.env.ext w.st t n d + crackForce J (1 / (J.base.stages - k) * dt) w.st z.vars n d + z.cforce n d)
            + ((J.base.env.mesh.cornersInNode n).map fun c =>
              cornerForces J.base.env.mesh J.base.env.closures w.st c d).sum) / J.base.env.mass n := by
  have hf : decide (k + 1 = J.base.stages) = false := by simp; omega
  refine ⟨_, rfl, ?_⟩
  rw [hf]
  set w := (List.range k).foldl
    (fun z s => J.stage (decide (s + 1 = J.base.stages)) t (rkAlpha J.base.stages s) dt z) { z with st := rkInit z.st }
    with hw
  obtain ⟨h1, h2, h3, h4⟩ := J.early_induct t dt z (fun s => s.velN0 = z.st.vel) rfl (fun s f a hs => hs) k (by omega)
    w hw
  refine ⟨(J.early_stage _ _ _ _).2.1.trans h2, ?_⟩
  show boundaryVelocity _ _ (stageVelFree _ _ _ _ _) = _
  congr 1
  funext n d
  have hsum : ∀ (l : List (Fin E × Fin 8)) (g : Fin E × Fin 8 → ℝ) (a : ℝ),
      l.foldl (fun acc c => acc + g c) a = a + (l.map g).sum := by
    intro l g
    induction l with
    | nil => intro a; simp
    | cons c l ih => intro a; rw [List.foldl_cons, ih]; simp [add_assoc]
  have ho : J.outer false t (rkAlpha J.base.stages k) dt w n d = J.base.env.ext w.st t n d
      + crackForce J (1 / (J.base.stages - k) * dt) w.st z.vars n d + z.cforce n d := by
    have hn : J.nodeForce t (rkAlpha J.base.stages k) dt w n d = J.base.env.ext w.st t n d
        + crackForce J (1 / (J.base.stages - k) * dt) w.st z.vars n d := by
      unfold CrackJob.nodeForce crackForce rkAlpha
      cases J.crack with
      | none => simp
      | some C => simp only [Cohesive.addNodal, h3, C.forces_eq]
    unfold CrackJob.outer CrackJob.newContact
    rw [hD]
    simp only [hn, h2, Bool.false_eq_true, if_false]
  simp only [stageVelFree, updateVelocity, nodeForceTotal, h4]
  rw [hsum, ho]
  rfl

/-- **C142.** The openings a crack pair is given: along the normal, the component of the separation of its two nodes now
and as predicted with their velocities over the step; across the normal (a unit vector), what is left of the two
separations. -/
theorem C142_openings (C : Crack N P m) (s : SghState ℝ E N) (dt : ℝ) (p : Fin P) :
    let q := C.pairs p
    let n := q.normal s.coords
    let u : Fin 3 → ℝ := fun k => s.coords q.b k - s.coords q.a k
    let u' : Fin 3 → ℝ := fun k => (s.coords q.b k + dt * s.vel q.b k) - (s.coords q.a k + dt * s.vel q.a k)
    let o := C.openingOf s dt p
    o.un = ∑ k, u k * n k ∧ o.un' = ∑ k, u' k * n k ∧ 0 ≤ o.ut ∧ 0 ≤ o.ut' ∧
    (∑ k, n k ^ 2 = 1 → o.un ^ 2 + o.ut ^ 2 = ∑ k, u k ^ 2 ∧ o.un' ^ 2 + o.ut' ^ 2 = ∑ k, u' k ^ 2) := by
  intro q n u u' o
  have h1 : o.un = ∑ k, u k * n k := by
    show Contact.dot u n = _
    rw [Contact.dot, Fin.sum_univ_three]
  have h2 : o.un' = ∑ k, u' k * n k := by
    show Contact.dot u n + dt * Contact.dot (fun k => s.vel q.b k - s.vel q.a k) n = _
    simp only [Contact.dot, Fin.sum_univ_three, u, u']
    ring
  refine ⟨h1, h2, Real.sqrt_nonneg _, Real.sqrt_nonneg _, fun hn => ⟨?_, ?_⟩⟩
  · have h3 : o.ut ^ 2 = (u 0 - o.un * n 0) ^ 2 + (u 1 - o.un * n 1) ^ 2 + (u 2 - o.un * n 2) ^ 2 :=
      Real.sq_sqrt (by positivity)
    rw [Fin.sum_univ_three] at h1 hn ⊢
    rw [h3]
    linear_combination (2 * o.un) * h1 + o.un ^ 2 * hn
  · have h3 : o.ut' ^ 2 = (u' 0 - o.un' * n 0) ^ 2 + (u' 1 - o.un' * n 1) ^ 2 + (u' 2 - o.un' * n 2) ^ 2 := by
      refine (Real.sq_sqrt (by positivity)).trans ?_
      have e : o.un' = Contact.dot u n + dt * Contact.dot (fun k => s.vel q.b k - s.vel q.a k) n := rfl
      rw [e]
      simp only [u, u', q]
      ring
    rw [Fin.sum_univ_three] at h2 hn ⊢
    rw [h3]
    linear_combination (2 * o.un') * h2 + o.un' ^ 2 * hn

/-- **C142.** The force a crack pair puts on its nodes is that of the tractions the pair has at the end of the step, on the
area of the pair: along the (unit) normal the normal traction times the area, and its work on the separation of the nodes
is that of both tractions on both openings. -/
theorem C142_pair_force (C : Crack N P m) (s : SghState ℝ E N) (dt : ℝ) (vars : Fin P → Cohesive.Vars m) (p : Fin P)
    (hn : ∑ k, (C.pairs p).normal s.coords k ^ 2 = 1) (ha : 0 < (C.pairs p).area s.coords) :
    let v' := Cohesive.stage C.law true dt (C.openingOf s dt p) (vars p)
    ∑ k, (C.load s dt vars p).force k * (C.pairs p).normal s.coords k = (C.pairs p).area s.coords * v'.tn ∧
    ∑ k, (C.load s dt vars p).force k * (s.coords (C.pairs p).b k - s.coords (C.pairs p).a k)
      = (C.pairs p).area s.coords * (v'.tn * (C.openingOf s dt p).un + v'.tt * (C.openingOf s dt p).ut) := by
  intro v'
  have hl : Contact.len ((C.pairs p).normal s.coords) = 1 := by
    rw [Contact.len, ← Fin.sum_univ_three (fun k => (C.pairs p).normal s.coords k ^ 2), hn, Real.sqrt_one]
  constructor
  · have := (C87_pair_components ((C.pairs p).normal s.coords) (s.coords (C.pairs p).a) (s.coords (C.pairs p).b)
      ((C.pairs p).area s.coords) v'.tn v'.tt ha hl).1
    rw [Fin.sum_univ_three, mul_comm _ v'.tn]
    exact this
  · have := C87_pair_work ((C.pairs p).normal s.coords) (s.coords (C.pairs p).a) (s.coords (C.pairs p).b)
      ((C.pairs p).area s.coords) v'.tn v'.tt ha hl
    rw [Fin.sum_univ_three]
    exact this

/-- **C142.** One step of contact: the pairs the sweep finds are resolved from zero forces, the boundary nodes get the
forces that result and no other node gets any; what contact remembers is what is left after releasing pairs. -/
theorem C142_contact_step (D : ContactSetup E N M X) (hb : Function.Injective D.bdy) (x x' : X) (s : SghState ℝ E N)
    (ps : List (Contact.Pair ℝ M)) (del : ℝ) (hs : D.sweep x s del = (x', ps)) :
    let r := Contact.resolve (D.incr s del) D.maxIter ps fun _ _ => 0
    (D.apply x s del).1 = D.release x' s r del ∧ (∀ i d, (D.apply x s del).2 (D.bdy i) d = r.forces i d) ∧
      ∀ n, (∀ i, D.bdy i ≠ n) → ∀ d, (D.apply x s del).2 n d = 0 := by
  intro r
  obtain ⟨c1, c2⟩ := C81_copied D.bdy hb r.forces
  have he : D.apply x s del = (D.release x' s r del, Contact.scatter D.bdy r.forces) := by
    simp only [ContactSetup.apply, hs]
    rfl
  rw [he]
  exact ⟨rfl, fun i d => congrFun (c1 i) d, fun n hn d => congrFun (c2 n hn) d⟩

/-! ## A concrete run -/

/-- A crack pair of two nodes with normal along the first axis. -/
noncomputable def demoBank : Crack 8 1 0 where
  law := ⟨1, 1, 1, 1, 1, fun _ => 0, fun _ => 0⟩
  pairs := fun _ => ⟨0, 1, fun _ => ![1, 0, 0], fun _ => 1⟩

/-- The hypotheses of `C142_pair_force` are met by this pair in every state. -/
example (s : SghState ℝ 1 8) (dt : ℝ) (vars : Fin 1 → Cohesive.Vars 0) :
    (demoBank.load s dt vars 0).force 0
      = (Cohesive.stage demoBank.law true dt (demoBank.openingOf s dt 0) (vars 0)).tn := by
  have h := (C142_pair_force demoBank s dt vars 0 (by simp [demoBank, Fin.sum_univ_three]) (by simp [demoBank])).1
  simpa [demoBank, Fin.sum_univ_three] using h

/-- Two nodes of a hexahedron without material, joined by a crack. -/
noncomputable def demoCrack : CrackJob 1 8 0 1 0 Unit where
  base := bareJob [] 1 1 1
  contact := none
  crack := some demoBank
  fresh := ()

/-- All nodes at the origin; the second one moves with velocity one along the first axis. -/
noncomputable def demoCrackState : SghState ℝ 1 8 where
  coords := fun _ _ => 0
  coordsN0 := fun _ _ => 0
  vel := fun n d => if n = 1 ∧ d = 0 then 1 else 0
  velN0 := fun _ _ => 0
  mats := []

theorem CrackJob.execute_one (J : CrackJob E N M P m X) (hc : J.base.clock.cycleStop = 1)
    (hi : J.base.clock.cycIval ≠ 0) (st : SghState ℝ E N) :
    ∃ r, J.execute st = some r ∧ r.loop = J.cycle 0 (J.start st) ∧ r.cycles = 1 := by
  have hl : J.loop 1 0 (J.start st) = (J.cycle 0 (J.start st), 1) := by
    rw [CrackJob.loop]
    split_ifs <;> rfl
  refine ⟨_, if_neg (fun h => hi h.1), ?_, ?_⟩
  · rw [hc, hl]
  · rw [hc, hl]

theorem demoBank_opening (s : SghState ℝ 1 8) (hc : s.coords = fun _ _ => 0) (hv : s.vel = demoCrackState.vel) :
    demoBank.openingOf s 1 0 = ⟨0, 0, 1, 0⟩ := by
  unfold Crack.openingOf Cohesive.opening
  simp only [hc, hv, demoCrackState, demoBank]
  simp [Contact.dot, Contact.len]

theorem demoCrack_increment :
    Cohesive.increment (⟨1, 1, 1, 1, 1, fun _ => 0, fun _ => 0⟩ : Cohesive.Law 0) 1 ⟨0, 0, 1, 0⟩
      ⟨0, 0, 0, 0, fun _ => 0⟩ = ⟨1, 1 / 2, 1 / 2, 0, fun _ => 0⟩ := by
  have l0 : Cohesive.lam (⟨1, 1, 1, 1, 1, fun _ => 0, fun _ => 0⟩ : Cohesive.Law 0) 0 0 = 0 := by
    simp [Cohesive.lam]
  have l1 : Cohesive.lam (⟨1, 1, 1, 1, 1, fun _ => 0, fun _ => 0⟩ : Cohesive.Law 0) 1 0 = 1 := by
    simp [Cohesive.lam]
  unfold Cohesive.increment
  rw [if_neg (by norm_num), if_neg (by norm_num)]
  simp only [l0, l1]
  ext1
  · norm_num
  · norm_num [Cohesive.damageInc, Cohesive.rawDamage]
  · norm_num [Cohesive.damageInc, Cohesive.rawDamage, Cohesive.tractionInc, Cohesive.invStar, Cohesive.stiffDt]
  · norm_num [Cohesive.damageInc, Cohesive.rawDamage, Cohesive.tractionInc, Cohesive.invStar, Cohesive.stiffDt]
  · funext j; exact j.elim0

theorem demoCrack_cycle : ∃ s F, CrackStep demoCrack 0 1 (demoCrack.start demoCrackState).z s F
      (demoCrack.oneCycle 0 1 (demoCrack.start demoCrackState).z) ∧
    (∀ n d, F n d = if n = 0 ∧ d = 0 then 1 / 2 else if n = 1 ∧ d = 0 then -(1 / 2) else 0) ∧
    (∀ n d, (demoCrack.oneCycle 0 1 (demoCrack.start demoCrackState).z).st.vel n d
      = if (n = 0 ∨ n = 1) ∧ d = 0 then 1 / 2 else 0) ∧
    ((demoCrack.oneCycle 0 1 (demoCrack.start demoCrackState).z).vars 0).damage = 1 / 2 := by
  obtain ⟨s, F, hs, h1⟩ := C142_cycle demoCrack Nat.one_pos 0 1 (demoCrack.start demoCrackState).z
  have hsr := h1 rfl
  have ho : demoBank.openingOf s 1 0 = ⟨0, 0, 1, 0⟩ := demoBank_opening s (by rw [hsr]; rfl) (by rw [hsr]; rfl)
  have hF : ∀ n d, F n d = if n = 0 ∧ d = 0 then 1 / 2 else if n = 1 ∧ d = 0 then -(1 / 2) else 0 := by
    intro n d
    have hload : (demoBank.load s 1 (demoCrack.start demoCrackState).z.vars 0).force d = if d = 0 then 1 / 2 else 0 := by
      unfold Crack.load
      simp only [ho]
      have hv : (demoCrack.start demoCrackState).z.vars 0 = ⟨0, 0, 0, 0, fun _ => 0⟩ := rfl
      have hi := demoCrack_increment
      rw [hv]
      have hlaw : demoBank.law = ⟨1, 1, 1, 1, 1, fun _ => 0, fun _ => 0⟩ := rfl
      rw [hlaw, hi]
      simp only [demoBank]
      fin_cases d <;> simp [Cohesive.pairForce]
    rw [hs.force]
    have h0 : demoCrack.base.env.ext s 0 n d = 0 := rfl
    have hk : crackForce demoCrack 1 s (demoCrack.start demoCrackState).z.vars n d
        = ∑ p, ((if (demoBank.pairs p).a = n then
            (demoBank.load s 1 (demoCrack.start demoCrackState).z.vars p).force d else 0)
          - if (demoBank.pairs p).b = n then
            (demoBank.load s 1 (demoCrack.start demoCrackState).z.vars p).force d else 0) := rfl
    rw [h0, hk, Fin.sum_univ_one, hload]
    show 0 + ((if (0 : Fin 8) = n then _ else _) - if (1 : Fin 8) = n then _ else _) + 0 = _
    clear hk hload h0 ho hsr hs h1
    fin_cases n <;> fin_cases d <;> simp
  refine ⟨s, F, hs, hF, ?_, ?_⟩
  · intro n d
    have hcf : ∀ c, cornerForces demoCrack.base.env.mesh demoCrack.base.env.closures s c d = 0 := by
      intro c
      have : s.mats = [] := by rw [hsr]; rfl
      unfold cornerForces
      rw [this]
      rfl
    rw [hs.vel]
    show (if n = 1 ∧ d = 0 then (1 : ℝ) else 0) + 1 * (F n d + _) / 1 = _
    simp only [hcf, hF]
    by_cases hd : d = 0 <;> by_cases hn : n = 0 <;> by_cases hn1 : n = 1 <;> simp_all <;> norm_num
  · rw [hs.crack demoBank rfl 0, ho]
    have hv : (demoCrack.start demoCrackState).z.vars 0 = ⟨0, 0, 0, 0, fun _ => 0⟩ := rfl
    have hlaw : demoBank.law = ⟨1, 1, 1, 1, 1, fun _ => 0, fun _ => 0⟩ := rfl
    rw [hv, hlaw, Cohesive.stage, if_pos rfl, demoCrack_increment]
    simp [Cohesive.commit]

theorem demoCrack_run : ∃ r, demoCrack.execute demoCrackState = some r ∧
    r.loop.z = demoCrack.oneCycle 0 1 (demoCrack.start demoCrackState).z := by
  obtain ⟨r, h, h1, -⟩ := demoCrack.execute_one rfl (by decide) demoCrackState
  exact ⟨r, h, by rw [h1]; rfl⟩

/-- **C142 (what fails: the energy of the crack is in no tally).**  Two nodes that only a crack joins, no boundary
conditions, no material: the run prints a total energy change of -1/4 out of 1/2, although the crack is the only thing
that acts and still holds. -/
theorem C142_energy_fails : ∃ (J : CrackJob 1 8 0 1 0 Unit) (st : SghState ℝ 1 8) (r : CrackEnd 1 8 0 1 0 Unit),
    J.execute st = some r ∧ J.base.env.sets = [] ∧ (∀ s t n d, J.base.env.ext s t n d = 0) ∧ st.mats = [] ∧
      r.tally.keStart = 1 / 2 ∧ r.tally.change = -(1 / 4) ∧ (r.loop.z.vars 0).damage < 1 := by
  obtain ⟨r, h, hz⟩ := demoCrack_run
  obtain ⟨s, F, -, -, hv, hd⟩ := demoCrack_cycle
  obtain ⟨-, ht, -⟩ := demoCrack.execute_spec _ _ h
  have ke : ∀ v : Fin 8 → Vel ℝ 3, kineticEnergy demoCrack.base.env.mass v = 1 / 2 * ∑ n, ∑ d, v n d * v n d := by
    intro v
    simp [kineticEnergy, demoCrack, bareJob]
  have k0 : kineticEnergy demoCrack.base.env.mass (demoCrack.start demoCrackState).z.st.vel = 1 / 2 := by
    rw [ke]
    have : ∀ n d, (demoCrack.start demoCrackState).z.st.vel n d = if n = 1 ∧ d = 0 then 1 else 0 := fun _ _ => rfl
    simp only [this, Fin.sum_univ_eight, Fin.sum_univ_three]
    simp
  have k1 : kineticEnergy demoCrack.base.env.mass r.loop.z.st.vel = 1 / 4 := by
    rw [ke, hz]
    simp only [hv, Fin.sum_univ_eight, Fin.sum_univ_three]
    simp
    norm_num
  have i0 : internalEnergy (demoCrack.start demoCrackState).z.st.mats = 0 := rfl
  have i1 : internalEnergy r.loop.z.st.mats = 0 := by
    rw [hz]; rfl
  refine ⟨demoCrack, demoCrackState, r, h, rfl, fun _ _ _ _ => rfl, rfl, ?_, ?_, ?_⟩
  · rw [ht]; exact k0
  · rw [ht]
    show (internalEnergy _ + kineticEnergy _ _) - (internalEnergy _ + kineticEnergy _ _) = _
    rw [k0, k1, i0, i1]
    norm_num
  · rw [hz, hd]; norm_num

/-- **C142 (what fails: the next solver forgets the damage).**  A crack that is half broken at the end of one solver is
undamaged when the next solver starts on the same state: every run sets the variables of the crack to zero. -/
theorem C142_next_solver_fails : ∃ (J : CrackJob 1 8 0 1 0 Unit) (st : SghState ℝ 1 8) (r : CrackEnd 1 8 0 1 0 Unit),
    J.execute st = some r ∧ (r.loop.z.vars 0).damage = 1 / 2 ∧
    ∀ (w : Window) (r' : CrackEnd 1 8 0 1 0 Unit),
      ({ J with base := J.base.inWindow w } : CrackJob 1 8 0 1 0 Unit).execute r.loop.z.st = some r' →
      ∃ dts q, CrackHistory { J with base := J.base.inWindow w } r.loop.z.st r' dts q ∧
        ((q 0).vars 0).damage = 0 := by
  obtain ⟨r, h, hz⟩ := demoCrack_run
  obtain ⟨s, F, -, -, -, hd⟩ := demoCrack_cycle
  refine ⟨demoCrack, demoCrackState, r, h, by rw [hz, hd], fun w r' h' => ?_⟩
  obtain ⟨dts, q, H⟩ := C142_run _ _ _ h'
  exact ⟨dts, q, H, by rw [H.start]⟩

/-- The hypotheses of the theorems are met by this run; momentum goes from one node to the other. -/
example : ∃ r, demoCrack.execute demoCrackState = some r ∧
    (∑ n, demoCrack.base.env.mass n * r.loop.z.st.vel n 0 = ∑ n, demoCrack.base.env.mass n * demoCrackState.vel n 0) ∧
    r.loop.z.st.vel 0 0 = 1 / 2 ∧ demoCrackState.vel 0 0 = 0 := by
  obtain ⟨r, h, hz⟩ := demoCrack_run
  obtain ⟨s, F, -, -, hv, -⟩ := demoCrack_cycle
  refine ⟨r, h, C142_momentum demoCrack ?_ (fun _ => one_ne_zero) (fun _ _ _ _ => ?_) (fun _ _ _ _ => rfl)
    (fun D hD => by cases hD) (fun _ _ => false) (fun t v n d => by simp [demoCrack, bareJob, boundaryVelocity]) 0
    (fun _ => rfl) demoCrackState r h, ?_, ?_⟩
  · exact oneHex_WF
  · exact Finset.sum_eq_zero fun _ _ => rfl
  · rw [hz, hv]; simp
  · simp [demoCrackState]

/-- A job with contact and two stages: the first node against the last face, unit force along the first axis. -/
noncomputable def demoContact : CrackJob 1 8 8 0 0 Unit where
  base := bareJob [] 1 2 1
  contact := some
    { bdy := id, preload := false, maxIter := 1
      sweep := fun _ _ _ => ((), [⟨0, ![4, 5, 6, 7], 0, 0, ![1, 0, 0], 5, 0⟩])
      incr := fun _ _ _ p => p
      release := fun _ _ _ _ => () }
  crack := none
  fresh := ()

/-- The hypotheses of `C142_contact_stages` and `C142_cycle` are met by a job in which a cycle leaves a contact force. -/
example : ∃ D, demoContact.contact = some D ∧ 0 + 1 < demoContact.base.stages ∧ Function.Injective D.bdy ∧
    ∀ z, (demoContact.oneCycle 0 1 z).cforce 0 0 = 1 := by
  refine ⟨_, rfl, by decide, Function.injective_id, fun z => ?_⟩
  obtain ⟨s, F, hs, -⟩ := C142_cycle demoContact (by decide) 0 1 z
  have h := congrArg Prod.snd (hs.contact _ rfl)
  simp only [ContactSetup.apply] at h
  rw [h]
  have h2 := (C81_copied (K := ℝ) (id : Fin 8 → Fin 8) Function.injective_id
    (Contact.resolve (fun _ p => p) 1 [⟨0, ![4, 5, 6, 7], 0, 0, ![1, 0, 0], 5, 0⟩] fun _ _ => 0).forces).1 0
  have h3 := congrFun h2 0
  refine h3.trans ?_
  have : ∀ q : Contact.Resolved ℝ 8, q = Contact.resolve (fun _ p => p) 1
      [⟨0, ![4, 5, 6, 7], 0, 0, ![1, 0, 0], 5, 0⟩] (fun _ _ => 0) → q.forces 0 0 = 1 := by
    intro q hq
    have hd : (Contact.resolveStep (fun _ p => p) [(⟨0, ![4, 5, 6, 7], 0, 0, ![1, 0, 0], 5, 0⟩ : Contact.Pair ℝ 8)]
        fun _ _ => 0).2 0 0 = 1 := by
      norm_num [Contact.resolveStep, Contact.distributeAll, Contact.distribute, Contact.applyForce, Contact.addForce,
        List.finRange_succ, Function.update]
      simp
    rw [hq, Contact.resolve]
    split_ifs
    · exact hd
    · exact hd
  exact this _ rfl

end Fierro
