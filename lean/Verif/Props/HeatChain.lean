import Verif.Model.HeatChain
import Verif.Props.LsWhole
import Verif.Props.ThermRun

/-!
# C143: mechanics and heat conduction in one simulation
-/

namespace Fierro

variable {E N : ℕ}

/-! ## The chain -/

/-- Specification of a simulation: each solver runs in its window on what the ones before have left. -/
inductive SimChain (D : SimJob E N) :
    List (SimKind × Window) → SimState E N → List (SimEnd E N) → SimState E N → Prop
  | nil (s) : SimChain D [] s [] s
  | hydro (w ks st phi heat r rs s') : (D.mech.sgh.inWindow w).execute st = some r →
      SimChain D ks ⟨⟨r.loop.st, phi⟩, heat⟩ rs s' →
      SimChain D ((.mech .hydro, w) :: ks) ⟨⟨st, phi⟩, heat⟩ (.mech (.hydro r) :: rs) s'
  | levelSet (w ks st phi heat r c rs s') : (D.mech.front w).execute st.coords phi = some (r, c) →
      SimChain D ks ⟨⟨st, r.phi⟩, heat⟩ rs s' →
      SimChain D ((.mech .levelSet, w) :: ks) ⟨⟨st, phi⟩, heat⟩ (.mech (.levelSet r c) :: rs) s'
  | thermal (moving w ks s r c rs s') : (D.thermal moving w s.mech.hydro.coords).execute s.therm = some (r, c) →
      SimChain D ks (s.absorb r.st c) rs s' →
      SimChain D ((.thermal moving, w) :: ks) s (.thermal r c :: rs) s'

/-- **C143.** What the driver does is such a chain, and every chain is what the driver does. -/
theorem C143_chain (D : SimJob E N) (ks : List (SimKind × Window)) (s : SimState E N)
    (rs : List (SimEnd E N)) (s' : SimState E N) :
    D.run ks s = some (rs, s') ↔ SimChain D ks s rs s' := by
  constructor
  · intro h
    induction ks generalizing s rs with
    | nil =>
      have h' := Option.some.inj h
      obtain ⟨rfl, rfl⟩ := Prod.mk.inj h'
      exact .nil _
    | cons k ks ih =>
      obtain ⟨k, w⟩ := k
      rw [SimJob.run] at h
      cases hr : D.step k w s with
      | none => rw [hr] at h; cases h
      | some r =>
        rw [hr] at h
        obtain ⟨q, hq, e⟩ := Option.map_eq_some_iff.1 h
        obtain ⟨rfl, rfl⟩ := Prod.mk.inj e
        have hch := ih _ _ hq
        cases k with
        | mech k =>
          obtain ⟨r0, hr0, rfl⟩ := Option.map_eq_some_iff.1 hr
          obtain ⟨⟨st, phi⟩, heat⟩ := s
          cases k with
          | hydro =>
            obtain ⟨r1, hr1, rfl⟩ := Option.map_eq_some_iff.1 hr0
            exact .hydro w ks st phi heat r1 _ _ hr1 hch
          | levelSet =>
            obtain ⟨r1, hr1, rfl⟩ := Option.map_eq_some_iff.1 hr0
            exact .levelSet w ks st phi heat r1.1 r1.2 _ _ hr1 hch
        | thermal mv =>
          obtain ⟨r0, hr0, rfl⟩ := Option.map_eq_some_iff.1 hr
          exact .thermal mv w ks s r0.1 r0.2 _ _ hr0 hch
  · intro h
    induction h with
    | nil s => rfl
    | hydro w ks st phi heat r rs s' hr _ ih =>
      simp only [SimJob.run, SimJob.step, DriverJob.step, hr, Option.map_some, ih]
    | levelSet w ks st phi heat r c rs s' hr _ ih =>
      simp only [SimJob.run, SimJob.step, DriverJob.step, hr, Option.map_some, ih]
    | thermal mv w ks s r c rs s' hr _ ih => simp only [SimJob.run, SimJob.step, hr, Option.map_some, ih]

/-- **C143.** A thermal solver takes mesh, nodal masses, nodes and window from the simulation: what its own input says
of them makes no difference. -/
theorem C143_shared (D : SimJob E N) (mesh : Mesh8 E N) (mass : Fin N → ℝ) (x : Fin N → Fin 3 → ℝ) (mv : Bool) (a b : ℝ)
    (ks : List (SimKind × Window)) (s : SimState E N) :
    ({ D with therm := { D.therm with
        mesh := mesh, mass := mass, coords := x, moving := mv
        clock := { D.therm.clock with timeStart := a, timeFinal := b } } } : SimJob E N).run ks s = D.run ks s := by
  induction ks generalizing s with
  | nil => rfl
  | cons k ks ih =>
    obtain ⟨k, w⟩ := k
    rw [SimJob.run, SimJob.run]
    have e : ∀ k, ({ D with therm := { D.therm with
        mesh := mesh, mass := mass, coords := x, moving := mv
        clock := { D.therm.clock with timeStart := a, timeFinal := b } } } : SimJob E N).step k w s = D.step k w s := by
      intro k
      cases k <;> rfl
    rw [e]
    cases D.step k w s with
    | none => rfl
    | some r => simp only [ih]

/-- **C143.** A thermal solver whose input agrees with the simulation (same mesh and nodal masses, the current nodes,
its window) runs as it does alone. -/
theorem C143_alone (D : SimJob E N) (w : Window) (s : SimState E N) (h1 : D.therm.mesh = D.mech.sgh.env.mesh)
    (h2 : D.therm.mass = D.mech.sgh.env.mass) (h3 : D.therm.coords = s.mech.hydro.coords)
    (h4 : D.therm.clock.timeStart = w.start) (h5 : D.therm.clock.timeFinal = w.stop) :
    D.run [(.thermal D.therm.moving, w)] s =
      (D.therm.execute s.therm).map fun r => ([.thermal r.1 r.2], s.absorb r.1.st r.2) := by
  have e : D.thermal D.therm.moving w s.mech.hydro.coords = D.therm := by
    unfold SimJob.thermal
    rw [← h1, ← h2, ← h3, ← h4, ← h5]
  simp only [SimJob.run, SimJob.step, e]
  cases D.therm.execute s.therm <;> rfl

/-! ## What passes between the solvers -/

/-- Mechanical and thermal data belong to the same material points. -/
def Matched (s : SimState E N) : Prop :=
  List.Forall₂ (fun (m : Mat ℝ E) hs => m.pts.length = hs.length) s.mech.hydro.mats s.heat.pts

theorem forall₂_zipWith_left {α β γ : Type*} {R : γ → α → Prop} (f : α → β → γ) {l : List α} {m : List β}
    (h : l.length = m.length) (hR : ∀ a b, R (f a b) a) : List.Forall₂ R (List.zipWith f l m) l := by
  induction l generalizing m with
  | nil => cases m <;> exact .nil
  | cons a l ih =>
    cases m with
    | nil => simp at h
    | cons b m => exact .cons (hR a b) (ih (by simpa using h))

/-- **C143.** The thermal solver sees, for every material point, its own conductivity, specific heat and flux together
with element, density and erosion flag of the hydrodynamics solver, and the temperatures of the thermal solvers before
it. -/
theorem C143_seen (s : SimState E N) (hM : Matched s) :
    s.therm.temp = s.heat.temp ∧ s.therm.tempN0 = s.heat.tempN0 ∧ s.therm.cornerQ = s.heat.cornerQ ∧
    List.Forall₂ (fun (m : Mat ℝ E) qs => List.Forall₂ (fun (p : MatPt ℝ E) (q : ThermPt E) =>
      q.elem = p.elem ∧ q.den = p.den ∧ q.eroded = p.eroded) m.pts qs) s.mech.hydro.mats s.therm.mats ∧
    List.Forall₂ (List.Forall₂ fun (h : HeatPt) (q : ThermPt E) => q.conductivity = h.conductivity ∧
      q.specificHeat = h.specificHeat ∧ q.qFlux = h.qFlux) s.heat.pts s.therm.mats := by
  refine ⟨rfl, rfl, rfl, ?_, ?_⟩
  · show List.Forall₂ _ _ (List.zipWith _ _ _)
    unfold Matched at hM
    generalize s.mech.hydro.mats = ms at hM ⊢
    generalize s.heat.pts = hs at hM ⊢
    induction hM with
    | nil => exact .nil
    | cons hl _ ih =>
      refine .cons ?_ ih
      exact (forall₂_zipWith_left (R := fun q p => q.elem = p.elem ∧ q.den = p.den ∧ q.eroded = p.eroded)
        thermPoint hl fun a b => ⟨rfl, rfl, rfl⟩).flip
  · show List.Forall₂ _ _ (List.zipWith _ _ _)
    unfold Matched at hM
    generalize s.mech.hydro.mats = ms at hM ⊢
    generalize s.heat.pts = hs at hM ⊢
    induction hM with
    | nil => exact .nil
    | cons hl _ ih =>
      refine .cons ?_ ih
      show List.Forall₂ _ _ (List.zipWith thermPoint _ _)
      rw [List.zipWith_comm]
      exact (forall₂_zipWith_left (R := fun q h => q.conductivity = h.conductivity ∧
        q.specificHeat = h.specificHeat ∧ q.qFlux = h.qFlux)
        (fun h p => thermPoint p h) hl.symm fun a b => ⟨rfl, rfl, rfl⟩).flip

/-- Elements are kept and flags only ever set. -/
def Sticky (a b : List (List (ThermPt E))) : Prop :=
  List.Forall₂ (List.Forall₂ fun p q : ThermPt E => q.elem = p.elem ∧ (p.eroded = true → q.eroded = true)) a b

theorem Sticky.refl (a : List (List (ThermPt E))) : Sticky a a :=
  List.forall₂_same.2 fun _ _ => List.forall₂_same.2 fun _ _ => ⟨rfl, id⟩

theorem forall₂_trans {α : Type*} {R : α → α → Prop} (hR : ∀ a b c, R a b → R b c → R a c) {l m n : List α}
    (h : List.Forall₂ R l m) (h' : List.Forall₂ R m n) : List.Forall₂ R l n := by
  induction h generalizing n with
  | nil => cases h'; exact .nil
  | cons h1 _ ih => cases h' with | cons h2 h3 => exact .cons (hR _ _ _ h1 h2) (ih h3)

theorem Sticky.trans {a b c : List (List (ThermPt E))} (h : Sticky a b) (h' : Sticky b c) : Sticky a c :=
  forall₂_trans (fun _ _ _ => forall₂_trans fun _ _ _ x y => ⟨y.1.trans x.1, fun z => y.2 (x.2 z)⟩) h h'

theorem sticky_heat (mesh : Mesh8 E N) (coords : Fin N → Fin 3 → ℝ) (temp : Fin N → ℝ) (a : List (List (ThermPt E))) :
    Sticky a (a.map fun pts => pts.map (heatPoint mesh coords temp)) := by
  unfold Sticky
  rw [List.forall₂_map_right_iff]
  refine List.forall₂_same.2 fun pts _ => ?_
  rw [List.forall₂_map_right_iff]
  refine List.forall₂_same.2 fun p _ => ⟨rfl, fun h => ?_⟩
  simp only [heatPoint]
  split_ifs
  · rfl
  · exact h

theorem thermRun_sticky (env : ThermEnv E N) (S c : ℕ) (dts : List ℝ) (st st' : ThermState E N)
    (h : thermRun env S c dts st = some st') : Sticky st.mats st'.mats := by
  refine thermRun_induct env S (fun a => Sticky st.mats a.mats) (fun c dt a b ha hab => ?_) dts c st st' (.refl _) h
  have stage : ∀ s x y, Sticky st.mats x.mats → thermStage env c (rkAlpha S s) dt x = some y → Sticky st.mats y.mats := by
    intro s x y hx hxy
    obtain ⟨cp, hcp⟩ := thermStage_cp _ _ _ _ x y hxy
    obtain ⟨-, -, -, -, hb, -⟩ := thermStage_some _ _ _ _ x y hxy cp hcp
    rw [hb]
    exact hx.trans (sticky_heat _ _ _ _)
  rcases Nat.eq_zero_or_pos S with rfl | hS
  · rw [thermCycle] at hab
    simp at hab
    rw [← hab]
    exact ha
  · exact thermCycle_induct env c S hS dt a b hab (fun x => Sticky st.mats x.mats) (fun x => Sticky st.mats x.mats) ha
      (fun s _ x y hx hxy => stage s x y hx hxy) (fun s _ x y hx hxy => stage s x y hx hxy)

theorem ThermJob.tablePoint_keeps (J : ThermJob E N) (temp : Fin N → ℝ) (m : ℕ) (p q : ThermPt E)
    (h : J.tablePoint temp m p = some q) : q.elem = p.elem ∧ q.eroded = p.eroded := by
  obtain ⟨v, -, rfl⟩ := Option.map_eq_some_iff.1 h
  exact ⟨rfl, rfl⟩

theorem ThermJob.tabulate_sticky (J : ThermJob E N) (temp : Fin N → ℝ) (m : ℕ) (a b : List (List (ThermPt E)))
    (h : J.tabulate temp m a = some b) : Sticky a b := by
  induction a generalizing m b with
  | nil => cases h; exact .nil
  | cons pts ms ih =>
    rw [ThermJob.tabulate] at h
    cases h1 : pts.mapM (J.tablePoint temp m) with
    | none => rw [h1] at h; cases h
    | some q =>
      cases h2 : J.tabulate temp (m + 1) ms with
      | none => rw [h1, h2] at h; cases h
      | some qs =>
        rw [h1, h2] at h
        cases h
        refine .cons ?_ (ih _ _ h2)
        refine (mapM_forall _ _ _ h1).imp fun p q hp => ?_
        obtain ⟨e1, e2⟩ := J.tablePoint_keeps _ _ _ _ hp
        exact ⟨e1, fun e => e2.trans e⟩

theorem ThermJob.execute_sticky (J : ThermJob E N) (st : ThermState E N) (r : ThermLoop E N) (n : ℕ)
    (h : J.execute st = some (r, n)) : Sticky st.mats r.st.mats := by
  obtain ⟨s0, h0, hn, hr, hend, hlt⟩ := J.execute_spec st r n h
  obtain ⟨k1, k2, k3, k4, k5, k6⟩ := J.start_some st s0 h0
  refine Sticky.trans ?_ (thermRun_sticky _ _ _ _ _ _ (J.after_run s0 n r hr).1)
  split_ifs at k6 with hm
  · exact J.tabulate_sticky _ _ _ _ k6
  · rw [Option.some.inj k6]; exact .refl _

/-- What a thermal solver may do to a material point of the hydrodynamics solver. -/
def Warmed (moving : Bool) (p p' : MatPt ℝ E) : Prop :=
  p' = { p with den := p'.den, eroded := p'.eroded } ∧ (p.eroded = true → p'.eroded = true) ∧
    (moving = false → p'.den = p.den)

/-- The relation between a state and the one a thermal solver leaves. -/
theorem absorb_warmed (mv : Bool) (ms : List (Mat ℝ E)) (hs : List (List HeatPt))
    (hM : List.Forall₂ (fun (m : Mat ℝ E) hs => m.pts.length = hs.length) ms hs) (qs : List (List (ThermPt E)))
    (hq : Sticky (List.zipWith (fun m hs => List.zipWith thermPoint m.pts hs) ms hs) qs)
    (hd : mv = false → thermData qs = thermData (List.zipWith (fun (m : Mat ℝ E) hs => List.zipWith thermPoint m.pts hs) ms hs)) :
    List.Forall₂ (fun (m m' : Mat ℝ E) => m' = { m with pts := m'.pts } ∧ List.Forall₂ (Warmed mv) m.pts m'.pts) ms
      (List.zipWith (fun m qs => { m with pts := List.zipWith absorbPoint m.pts qs }) ms qs) ∧
    List.Forall₂ (fun (m : Mat ℝ E) hs => m.pts.length = hs.length)
      (List.zipWith (fun m qs => { m with pts := List.zipWith absorbPoint m.pts qs }) ms qs)
      (qs.map fun qs => qs.map fun q => (⟨q.conductivity, q.specificHeat, q.qFlux⟩ : HeatPt)) := by
  unfold Sticky at hq
  induction hM generalizing qs with
  | nil => cases hq; exact ⟨.nil, .nil⟩
  | @cons m hs' ms hs hl hrest ih =>
    cases hq with
    | @cons _ q _ qs hq1 hq2 =>
      have hd' : mv = false → thermData qs = thermData
          (List.zipWith (fun (m : Mat ℝ E) hs => List.zipWith thermPoint m.pts hs) ms hs) := by
        intro h0
        exact (List.cons.inj (hd h0)).2
      have hd1 : mv = false → (q.map fun p => (p.elem, p.conductivity, p.den, p.specificHeat))
          = (List.zipWith thermPoint m.pts hs').map fun p => (p.elem, p.conductivity, p.den, p.specificHeat) := by
        intro h0
        exact (List.cons.inj (hd h0)).1
      obtain ⟨a, b⟩ := ih qs hq2 hd'
      refine ⟨.cons ⟨rfl, ?_⟩ a, .cons ?_ b⟩
      · show List.Forall₂ (Warmed mv) m.pts (List.zipWith absorbPoint m.pts q)
        clear ih hd hd' a b hrest hq2
        replace hq1 : List.Forall₂ _ (List.zipWith thermPoint m.pts hs') q := hq1
        generalize m.pts = ps at hl hq1 hd1 ⊢
        induction ps generalizing hs' q with
        | nil => cases hq1; exact .nil
        | cons p ps ihp =>
          cases hs' with
          | nil => simp at hl
          | cons h hs' =>
            cases hq1 with
            | @cons _ q0 _ q hq3 hq4 =>
              refine .cons ⟨rfl, hq3.2, fun h0 => ?_⟩ (ihp (by simpa using hl) hq4 fun h0 =>
                (List.cons.inj (hd1 h0)).2)
              have := (List.cons.inj (hd1 h0)).1
              simp only [Prod.mk.injEq] at this
              exact this.2.2.1
      · have hlen := hq1.length_eq
        simp only [List.length_zipWith, List.length_map] at hlen ⊢
        omega

/-- **C143.** A thermal solver leaves nodes, velocities, the level set, and of every material point all fields but density
and erosion flag: element, mass, internal energy, pressure, sound speed, volume fractions, stress, corner forces.  A flag
is only ever set, and without moving source the density stays too.  The temperatures and heat data are those the solver
ended with. -/
theorem C143_thermal (D : SimJob E N) (moving : Bool) (w : Window) (s : SimState E N) (hM : Matched s)
    (r : ThermLoop E N) (n : ℕ) (h : (D.thermal moving w s.mech.hydro.coords).execute s.therm = some (r, n)) :
    let s' := s.absorb r.st n
    s'.mech.phi = s.mech.phi ∧ s'.mech.hydro.coords = s.mech.hydro.coords ∧ s'.mech.hydro.vel = s.mech.hydro.vel ∧
    s'.mech.hydro.velN0 = s.mech.hydro.velN0 ∧
    (s'.mech.hydro.coordsN0 = s.mech.hydro.coordsN0 ∨ s'.mech.hydro.coordsN0 = s.mech.hydro.coords) ∧
    List.Forall₂ (fun (m m' : Mat ℝ E) => m' = { m with pts := m'.pts } ∧ List.Forall₂ (Warmed moving) m.pts m'.pts)
      s.mech.hydro.mats s'.mech.hydro.mats ∧
    s'.heat.temp = r.st.temp ∧ s'.heat.tempN0 = r.st.tempN0 ∧ s'.heat.cornerQ = r.st.cornerQ ∧
    s'.therm.mats = r.st.mats ∧ Matched s' := by
  have hq := (D.thermal moving w s.mech.hydro.coords).execute_sticky _ r n h
  have hd : moving = false → thermData r.st.mats = thermData s.therm.mats := by
    intro hm
    obtain ⟨s0, -, -, hd⟩ := C123_properties_frozen_fails _ _ r n h
    exact hd hm
  obtain ⟨a, b⟩ := absorb_warmed moving s.mech.hydro.mats s.heat.pts hM r.st.mats hq hd
  refine ⟨rfl, rfl, rfl, rfl, ?_, a, rfl, rfl, rfl, ?_, b⟩
  · by_cases hn : 0 < n
    · exact Or.inr (if_pos hn)
    · exact Or.inl (if_neg hn)
  · have hq' : Sticky (List.zipWith (fun m hs => List.zipWith thermPoint m.pts hs) s.mech.hydro.mats s.heat.pts)
      r.st.mats := hq
    show List.zipWith _ (List.zipWith _ s.mech.hydro.mats r.st.mats) (r.st.mats.map _) = r.st.mats
    unfold Matched at hM
    clear hd a b hq h
    generalize r.st.mats = qs at hq'
    generalize s.mech.hydro.mats = ms at hM hq'
    generalize s.heat.pts = hs at hM hq'
    unfold Sticky at hq'
    induction hM generalizing qs with
    | nil => cases hq'; rfl
    | @cons m h ms hs hl _ ih =>
      cases hq' with
      | @cons _ q _ qs h1 h2 =>
        refine congrArg₂ List.cons ?_ (ih qs h2)
        show List.zipWith thermPoint (List.zipWith absorbPoint m.pts q) (q.map _) = q
        clear ih h2
        replace h1 : List.Forall₂ _ (List.zipWith thermPoint m.pts h) q := h1
        generalize m.pts = ps at hl h1 ⊢
        induction ps generalizing h q with
        | nil => cases h1; rfl
        | cons p ps ihp =>
          cases h with
          | nil => simp at hl
          | cons h0 h =>
            cases h1 with
            | @cons _ q0 _ q h3 h4 =>
              refine congrArg₂ List.cons ?_ (ihp (by simpa using hl) h4)
              show (⟨p.elem, q0.conductivity, q0.den, q0.specificHeat, q0.eroded, q0.qFlux⟩ : ThermPt E) = q0
              rw [show p.elem = q0.elem from h3.1.symm]

/-! ## Melting -/

/-- Point `j` of material `i`. -/
def thermAt (mats : List (List (ThermPt E))) (i j : ℕ) : Option (ThermPt E) := mats[i]?.bind fun pts => pts[j]?

theorem forall₂_getElem? {α β : Type*} {R : α → β → Prop} {l : List α} {m : List β} (h : List.Forall₂ R l m) (i : ℕ)
    (a : α) (ha : l[i]? = some a) : ∃ b, m[i]? = some b ∧ R a b := by
  induction h generalizing i with
  | nil => simp at ha
  | cons h1 _ ih =>
    cases i with
    | zero => cases ha; exact ⟨_, rfl, h1⟩
    | succ i => simpa using ih i (by simpa using ha)

theorem Sticky.at {a b : List (List (ThermPt E))} (h : Sticky a b) (i j : ℕ) (p : ThermPt E)
    (hp : thermAt a i j = some p) :
    ∃ q, thermAt b i j = some q ∧ q.elem = p.elem ∧ (p.eroded = true → q.eroded = true) := by
  obtain ⟨l, hl, hlp⟩ := Option.bind_eq_some_iff.1 hp
  obtain ⟨m, hm, hlm⟩ := forall₂_getElem? h i l hl
  obtain ⟨q, hq, hpq⟩ := forall₂_getElem? hlm j p hlp
  exact ⟨q, by simp [thermAt, hm, hq], hpq⟩

theorem elemAvgTemp_mean (mesh : Mesh8 E N) (temp : Fin N → ℝ) (e : Fin E) :
    elemAvgTemp mesh temp e = elemMean mesh temp e := by
  simp only [elemAvgTemp, elemMean, Fin.sum_univ_eight, List.finRange_succ, List.finRange_zero]
  simp
  ring

/-- **C143.** The melting flag in one stage of a thermal solver: a point is eroded after the stage exactly if it was before
or the mean temperature its element had before the stage is 900 or more. -/
theorem C143_melt_stage (env : ThermEnv E N) (c : ℕ) (alpha dt : ℝ) (st st' : ThermState E N)
    (h : thermStage env c alpha dt st = some st') (i j : ℕ) (p : ThermPt E) (hp : thermAt st.mats i j = some p) :
    ∃ q, thermAt st'.mats i j = some q ∧ q.elem = p.elem ∧
      (q.eroded = true ↔ p.eroded = true ∨ 900 ≤ elemMean env.mesh st.temp p.elem) := by
  obtain ⟨cp, hcp⟩ := thermStage_cp _ _ _ _ st st' h
  obtain ⟨-, -, -, -, hb, -⟩ := thermStage_some _ _ _ _ st st' h cp hcp
  refine ⟨heatPoint env.mesh env.coords st.temp p, ?_, rfl, ?_⟩
  · rw [hb]
    obtain ⟨l, hl, hlp⟩ := Option.bind_eq_some_iff.1 hp
    simp [thermAt, hl, hlp]
  · show (if 900 ≤ elemAvgTemp env.mesh st.temp p.elem then true else p.eroded) = true ↔ _
    rw [elemAvgTemp_mean]
    split_ifs with h9
    · simp [h9]
    · simp [h9]

/-- **C143.** A material point whose element has a mean temperature of 900 or more when a thermal solver starts counts as
eroded for every later solver, if the solver makes at least one cycle. -/
theorem C143_melt (J : ThermJob E N) (hS : 0 < J.stages) (st : ThermState E N) (r : ThermLoop E N) (n : ℕ) (hn : 0 < n)
    (h : J.execute st = some (r, n)) (i j : ℕ) (p : ThermPt E) (hp : thermAt st.mats i j = some p)
    (hT : 900 ≤ elemMean J.mesh (boundaryTemperature J.sets st.temp) p.elem) :
    ∃ q, thermAt r.st.mats i j = some q ∧ q.elem = p.elem ∧ q.eroded = true := by
  obtain ⟨s0, h0, hn', hr, hend, hlt⟩ := J.execute_spec st r n h
  obtain ⟨k1, k2, k3, k4, k5, k6⟩ := J.start_some st s0 h0
  have hs0 : Sticky st.mats s0.st.mats := by
    split_ifs at k6 with hm
    · exact J.tabulate_sticky _ _ _ _ k6
    · rw [Option.some.inj k6]; exact .refl _
  obtain ⟨q0, hq0, e0, -⟩ := hs0.at i j p hp
  have hrun := (J.after_run s0 n r hr).1
  obtain ⟨d, ds, hds⟩ : ∃ d ds, J.dts s0 n = d :: ds := by
    cases hl : J.dts s0 n with
    | nil => have := congrArg List.length hl; simp [ThermJob.dts] at this; omega
    | cons d ds => exact ⟨d, ds, rfl⟩
  rw [hds, thermRun, Option.bind_eq_some_iff] at hrun
  obtain ⟨a, ha, hb⟩ := hrun
  have hstage : ∀ s x y, (thermAt x.mats i j = some q0 ∧ x.temp = s0.st.temp ∨
        ∃ q, thermAt x.mats i j = some q ∧ q.elem = q0.elem ∧ q.eroded = true) →
      thermStage (J.env (J.srcOf s0)) 0 (rkAlpha J.stages s) d x = some y →
      ∃ q, thermAt y.mats i j = some q ∧ q.elem = q0.elem ∧ q.eroded = true := by
    intro s x y hx hxy
    obtain ⟨cp, hcp⟩ := thermStage_cp _ _ _ _ x y hxy
    obtain ⟨-, -, -, -, hb, -⟩ := thermStage_some _ _ _ _ x y hxy cp hcp
    rcases hx with ⟨h1, h2⟩ | ⟨q, h1, h2, h3⟩
    · refine ⟨heatPoint J.mesh J.coords x.temp q0, ?_, rfl, ?_⟩
      · rw [hb]
        obtain ⟨l, hl, hlp⟩ := Option.bind_eq_some_iff.1 h1
        simp [thermAt, hl, hlp, ThermJob.env]
      · show (if 900 ≤ elemAvgTemp J.mesh x.temp q0.elem then true else q0.eroded) = true
        rw [if_pos]
        rw [elemAvgTemp_mean, h2, k4, e0]
        exact hT
    · rw [hb]
      obtain ⟨q', g1, g2, g3⟩ := (sticky_heat (J.env (J.srcOf s0)).mesh (J.env (J.srcOf s0)).coords x.temp x.mats).at
        i j q h1
      exact ⟨q', g1, g2.trans h2, g3 h3⟩
  obtain ⟨q, hq, e1, e2⟩ := thermCycle_induct _ 0 J.stages hS d s0.st a ha
    (fun x => thermAt x.mats i j = some q0 ∧ x.temp = s0.st.temp ∨
      ∃ q, thermAt x.mats i j = some q ∧ q.elem = q0.elem ∧ q.eroded = true)
    (fun y => ∃ q, thermAt y.mats i j = some q ∧ q.elem = q0.elem ∧ q.eroded = true)
    (Or.inl ⟨hq0, rfl⟩) (fun s _ x y hx hxy => Or.inr (hstage s x y hx hxy)) (fun s _ x y hx hxy => hstage s x y hx hxy)
  obtain ⟨q', g1, g2, g3⟩ := (thermRun_sticky _ _ _ _ _ _ hb).at i j q hq
  exact ⟨q', g1, g2.trans (e1.trans e0), g3 e2⟩

/-! ## The mechanics -/

/-- Equal in all fields but the saved coordinates `node_coords_n0`, which every cycle overwrites before it reads them
and which no dump contains. -/
def SghState.Same (a b : SghState ℝ E N) : Prop :=
  a.coords = b.coords ∧ a.vel = b.vel ∧ a.velN0 = b.velN0 ∧ a.mats = b.mats

theorem SghState.Same.refl (a : SghState ℝ E N) : a.Same a := ⟨rfl, rfl, rfl, rfl⟩

theorem SghState.Same.symm {a b : SghState ℝ E N} (h : a.Same b) : b.Same a :=
  ⟨h.1.symm, h.2.1.symm, h.2.2.1.symm, h.2.2.2.symm⟩

theorem SghState.Same.trans {a b c : SghState ℝ E N} (h : a.Same b) (h' : b.Same c) : a.Same c :=
  ⟨h.1.trans h'.1, h.2.1.trans h'.2.1, h.2.2.1.trans h'.2.2.1, h.2.2.2.trans h'.2.2.2⟩

/-- Two results of a hydrodynamics solver with the same clock, number of cycles, printed tallies, dumps and final state. -/
structure SghEnd.Same (r r' : SghEnd E N) : Prop where
  st : r.loop.st.Same r'.loop.st
  clock : r.loop.clock = r'.loop.clock
  frames : List.Forall₂ SghState.Same r.loop.frames r'.loop.frames
  cycles : r.cycles = r'.cycles
  tally : r.tally = r'.tally

theorem sghCycle_same (env : SghEnv ℝ E N) (S : ℕ) (t dt : ℝ) {a b : SghState ℝ E N} (h : a.Same b) :
    sghCycle env S t dt a = sghCycle env S t dt b := by
  obtain ⟨x, y, u, v, m⟩ := a
  obtain ⟨x', y', u', v', m'⟩ := b
  obtain ⟨h1, h2, h3, h4⟩ := h
  simp only at h1 h2 h3 h4
  subst h1 h2 h3 h4
  rfl

/-- Loop variables that agree. -/
structure SghLoop.Same (s s' : SghLoop E N) : Prop where
  st : s.st.Same s'.st
  clock : s.clock = s'.clock
  frames : List.Forall₂ SghState.Same s.frames s'.frames

theorem SghJob.cycle_same (J : SghJob E N) (c : ℕ) {s s' : SghLoop E N} (h : s.Same s') :
    (J.cycle c s).Same (J.cycle c s') := by
  have hd : J.stepOf s = J.stepOf s' := by
    unfold SghJob.stepOf SghJob.cfl
    rw [h.clock, h.st.2.2.2]
    have : J.elemOf s.st = J.elemOf s'.st := by
      funext p
      unfold SghJob.elemOf
      rw [h.st.1]
    rw [this]
  have hc : sghCycle J.env J.stages s.clock.time (J.stepOf s) s.st
      = sghCycle J.env J.stages s'.clock.time (J.stepOf s') s'.st := by
    rw [hd, h.clock]; exact sghCycle_same _ _ _ _ h.st
  have ht : tickClock J.clock c (J.stepOf s) s.clock = tickClock J.clock c (J.stepOf s') s'.clock := by
    rw [hd, h.clock]
  refine ⟨?_, ?_, ?_⟩
  · show SghState.Same (sghCycle _ _ _ _ _) (sghCycle _ _ _ _ _)
    rw [hc]; exact .refl _
  · show (tickClock _ _ _ _).1 = (tickClock _ _ _ _).1
    rw [ht]
  · show List.Forall₂ _ (if (tickClock J.clock c (J.stepOf s) s.clock).2 then _ else _)
      (if (tickClock J.clock c (J.stepOf s') s'.clock).2 then _ else _)
    rw [ht, hc]
    split_ifs
    · exact .cons (.refl _) h.frames
    · exact h.frames

theorem SghJob.loop_same (J : SghJob E N) (n c : ℕ) {s s' : SghLoop E N} (h : s.Same s') :
    (J.loop n c s).1.Same (J.loop n c s').1 ∧ (J.loop n c s).2 = (J.loop n c s').2 := by
  induction n generalizing c s s' with
  | zero => exact ⟨h, rfl⟩
  | succ n ih =>
    have hc := J.cycle_same c h
    rw [SghJob.loop, SghJob.loop]
    simp only [hc.clock]
    split_ifs
    · exact ⟨hc, rfl⟩
    · exact ih (c + 1) hc

theorem SghJob.execute_same (J : SghJob E N) {a b : SghState ℝ E N} (h : a.Same b) (r : SghEnd E N)
    (hr : J.execute a = some r) : ∃ r', J.execute b = some r' ∧ r.Same r' := by
  unfold SghJob.execute at hr ⊢
  split_ifs at hr with hz
  rw [if_neg hz]
  cases hr
  have hs : (J.start a).Same (J.start b) := by
    have hst : SghState.Same (J.start a).st (J.start b).st := by
      refine ⟨h.1, ?_, h.2.2.1, h.2.2.2⟩
      show boundaryVelocity _ _ a.vel = boundaryVelocity _ _ b.vel
      rw [h.2.1]
    exact ⟨hst, rfl, .cons hst .nil⟩
  obtain ⟨h1, h2⟩ := J.loop_same J.clock.cycleStop 0 hs
  refine ⟨_, rfl, ⟨h1.st, h1.clock, h1.frames, h2, ?_⟩⟩
  show J.tally _ _ = J.tally _ _
  unfold SghJob.tally
  rw [hs.st.2.1, hs.st.2.2.2, h1.st.2.1, h1.st.2.2.2]

/-- The windows of the hydrodynamics solvers. -/
def simHydroWindows : List (SimKind × Window) → List Window
  | [] => []
  | (.mech .hydro, w) :: ks => w :: simHydroWindows ks
  | (.mech .levelSet, _) :: ks => simHydroWindows ks
  | (.thermal _, _) :: ks => simHydroWindows ks

/-- The results of the hydrodynamics solvers. -/
def simHydroEnds : List (SimEnd E N) → List (SghEnd E N)
  | [] => []
  | .mech (.hydro r) :: rs => r :: simHydroEnds rs
  | .mech (.levelSet _ _) :: rs => simHydroEnds rs
  | .thermal _ _ :: rs => simHydroEnds rs

/-- No material point is eroded when the solver ends. -/
def SimEnd.Solid : SimEnd E N → Prop
  | .mech _ => True
  | .thermal r _ => ∀ pts ∈ r.st.mats, ∀ p ∈ pts, p.eroded = false

theorem warmed_solid (ms ms' : List (Mat ℝ E))
    (h : List.Forall₂ (fun (m m' : Mat ℝ E) => m' = { m with pts := m'.pts } ∧
      List.Forall₂ (Warmed false) m.pts m'.pts) ms ms')
    (hs : ∀ m ∈ ms', ∀ p ∈ m.pts, p.eroded = false) : ms' = ms := by
  induction h with
  | nil => rfl
  | @cons m m' ms ms' h1 _ ih =>
    rw [ih fun m hm => hs m (List.mem_cons_of_mem _ hm)]
    congr 1
    have hp : m'.pts = m.pts := by
      have h2 := h1.2
      have h3 := hs m' List.mem_cons_self
      generalize m.pts = a at h2
      generalize m'.pts = b at h2 h3
      induction h2 with
      | nil => rfl
      | @cons p p' a b g1 _ ihb =>
        rw [ihb fun p hp => h3 p (List.mem_cons_of_mem _ hp)]
        congr 1
        have g3 := h3 p' List.mem_cons_self
        have g4 : p.eroded = false := by
          cases hpe : p.eroded with
          | false => rfl
          | true => rw [g1.2.1 hpe] at g3; cases g3
        rw [g1.1, g1.2.2 rfl, g3, ← g4]
    rw [h1.1, hp]

theorem absorb_solid (D : SimJob E N) (w : Window) (s : SimState E N) (hM : Matched s)
    (r : ThermLoop E N) (n : ℕ) (h : (D.thermal false w s.mech.hydro.coords).execute s.therm = some (r, n))
    (hs : ∀ pts ∈ r.st.mats, ∀ p ∈ pts, p.eroded = false) :
    (s.absorb r.st n).mech.hydro.mats = s.mech.hydro.mats := by
  obtain ⟨-, -, -, -, -, hw, -, -, -, hmats, hM'⟩ := C143_thermal D false w s hM r n h
  refine warmed_solid _ _ hw fun m hm p hp => ?_
  have h5 := (C143_seen _ hM').2.2.2.1
  rw [hmats] at h5
  obtain ⟨i, hi⟩ := List.getElem?_of_mem hm
  obtain ⟨j, hj⟩ := List.getElem?_of_mem hp
  obtain ⟨qs, hqs, hR⟩ := forall₂_getElem? h5 i m hi
  obtain ⟨q, hq, -, -, hqe⟩ := forall₂_getElem? hR j p hj
  rw [← hqe]
  exact hs qs (List.mem_of_getElem? hqs) q (List.mem_of_getElem? hq)

theorem execute_matched (J : SghJob E N) (hlaw : J.env.closures.Lawful) (st : SghState ℝ E N) (r : SghEnd E N)
    (h : J.execute st = some r) : ptData r.loop.st.mats = ptData st.mats := by
  rw [(J.history st r h).final]
  exact sghRun_induct J.env J.stages (fun s => ptData s.mats = ptData st.mats)
    (fun t dt s hs => (sghCycle_ptData J.env hlaw J.stages t dt s).trans hs) _ _ _ rfl

theorem matched_iff (s : SimState E N) :
    Matched s ↔ (ptData s.mech.hydro.mats).map List.length = s.heat.pts.map List.length := by
  unfold Matched ptData
  rw [List.map_map]
  generalize s.mech.hydro.mats = ms
  generalize s.heat.pts = hs
  constructor
  · intro h
    induction h with
    | nil => rfl
    | cons h1 _ ih => simp only [List.map_cons, ih]; congr 1; simpa using h1
  · intro h
    induction ms generalizing hs with
    | nil => cases hs with
      | nil => exact .nil
      | cons _ _ => simp at h
    | cons m ms ih => cases hs with
      | nil => simp at h
      | cons g hs =>
        simp only [List.map_cons, List.cons.injEq] at h
        exact .cons (by simpa using h.1) (ih hs h.2)

/-- **C143.** Without moving sources and melting, heat conduction does not disturb the mechanics: all hydrodynamics
solvers give the same clock, cycles, dumps, tallies and final state as in the chain without thermal and level set
solvers, and the simulation ends with the nodes, velocities and material points the last of them leaves. -/
theorem C143_mechanics_alone (D : SimJob E N) (hlaw : D.mech.sgh.env.closures.Lawful) (ks : List (SimKind × Window))
    (s : SimState E N) (hM : Matched s) (rs : List (SimEnd E N)) (s' : SimState E N)
    (h : D.run ks s = some (rs, s')) (hmv : ∀ w, (SimKind.thermal true, w) ∉ ks) (hso : ∀ r ∈ rs, r.Solid) :
    ∃ es, D.mech.sgh.chain (simHydroWindows ks) s.mech.hydro = some es ∧
      List.Forall₂ SghEnd.Same (simHydroEnds rs) es ∧
      s'.mech.hydro.Same ((es.getLast?.map fun r => r.loop.st).getD s.mech.hydro) := by
  have hc := (C143_chain D ks s rs s').1 h
  clear h
  suffices key : ∀ st : SghState ℝ E N, s.mech.hydro.Same st → ∃ es, D.mech.sgh.chain (simHydroWindows ks) st = some es ∧
      List.Forall₂ SghEnd.Same (simHydroEnds rs) es ∧
      s'.mech.hydro.Same ((es.getLast?.map fun r => r.loop.st).getD st) from key _ (.refl _)
  induction hc with
  | nil s => exact fun st hst => ⟨[], rfl, .nil, hst⟩
  | hydro w ks st phi heat r rs s' hr _ ih =>
    intro st0 hst
    obtain ⟨r', hr', hrr⟩ := (D.mech.sgh.inWindow w).execute_same hst r hr
    obtain ⟨es, h1, h2, h3⟩ := ih (by
        rw [matched_iff] at hM ⊢
        show (ptData r.loop.st.mats).map _ = _
        rw [execute_matched (D.mech.sgh.inWindow w) hlaw st r hr]
        exact hM)
      (fun v hv => hmv v (List.mem_cons_of_mem _ hv)) (fun q hq => hso q (List.mem_cons_of_mem _ hq)) r'.loop.st hrr.st
    refine ⟨r' :: es, ?_, .cons hrr h2, ?_⟩
    · show D.mech.sgh.chain (w :: simHydroWindows ks) st0 = _
      rw [SghJob.chain, hr']
      simp only [h1, Option.map_some]
    · rw [List.getLast?_cons]
      cases hl : es.getLast? with
      | none => rw [hl] at h3; exact h3
      | some q => rw [hl] at h3; exact h3
  | levelSet w ks st phi heat r c rs s' hr _ ih =>
    exact ih hM (fun v hv => hmv v (List.mem_cons_of_mem _ hv)) fun q hq => hso q (List.mem_cons_of_mem _ hq)
  | thermal mv w ks s r c rs s' hr _ ih =>
    cases mv with
    | true => exact (hmv w List.mem_cons_self).elim
    | false =>
      have e1 := absorb_solid D w s hM r c hr (hso _ List.mem_cons_self)
      obtain ⟨-, e2, e3, e4, -, -, -, -, -, -, hM'⟩ := C143_thermal D false w s hM r c hr
      intro st hst
      exact ih hM' (fun v hv => hmv v (List.mem_cons_of_mem _ hv)) (fun q hq => hso q (List.mem_cons_of_mem _ hq)) st
        ((show SghState.Same _ _ from ⟨e2, e3, e4, e1⟩).trans hst)

/-! ## The heat -/

/-- **C143.** The hydrodynamics and level set solvers leave temperatures, heat flows and thermal material data alone: a
simulation without thermal solver ends with those it started with. -/
theorem C143_heat_untouched (D : SimJob E N) (ks : List (SimKind × Window)) (s : SimState E N) (rs : List (SimEnd E N))
    (s' : SimState E N) (h : D.run ks s = some (rs, s')) (hk : ∀ mv w, (SimKind.thermal mv, w) ∉ ks) :
    s'.heat = s.heat := by
  have hc := (C143_chain D ks s rs s').1 h
  clear h
  induction hc with
  | nil s => rfl
  | hydro w ks st phi heat r rs s' hr _ ih => exact ih fun mv v hv => hk mv v (List.mem_cons_of_mem _ hv)
  | levelSet w ks st phi heat r c rs s' hr _ ih => exact ih fun mv v hv => hk mv v (List.mem_cons_of_mem _ hv)
  | thermal mv w ks s r c rs s' hr _ ih => exact (hk mv w List.mem_cons_self).elim

theorem nodeSpecificHeat_congr (mesh : Mesh8 E N) (a b : List (List (ThermPt E)))
    (h : (a.map fun l => l.map ThermPt.specificHeat) = b.map fun l => l.map ThermPt.specificHeat) (n : Fin N) :
    nodeSpecificHeat mesh a n = nodeSpecificHeat mesh b n := by
  have key : ∀ (m : List (List (ThermPt E))) (e : Fin E), specificHeatAt m e
      = (m.map fun l => l.map ThermPt.specificHeat)[0]?.bind fun l => l[e.val]? := by
    intro m e
    unfold specificHeatAt
    cases m with
    | nil => rfl
    | cons l m => simp
  have : specificHeatAt a = specificHeatAt b := by
    funext e
    rw [key, key, h]
  unfold nodeSpecificHeat
  rw [this]

theorem therm_specificHeat (s : SimState E N) (hM : Matched s) :
    (s.therm.mats.map fun l => l.map ThermPt.specificHeat) = s.heat.pts.map fun l => l.map HeatPt.specificHeat := by
  have h := (C143_seen s hM).2.2.2.2
  generalize s.therm.mats = a at h
  generalize s.heat.pts = b at h
  induction h with
  | nil => rfl
  | cons h1 _ ih =>
    rw [List.map_cons, List.map_cons, ih]
    congr 1
    induction h1 with
    | nil => rfl
    | cons g1 _ ihg => rw [List.map_cons, List.map_cons, ihg, g1.2.1]

theorem thermRun_cornerQ (env : ThermEnv E N) (hsrc : ∀ c, env.source c = none) (S c : ℕ) (dts : List ℝ)
    (st st' : ThermState E N) (hcq : ∀ e, ∑ l, st.cornerQ (e, l) = 0) (h : thermRun env S c dts st = some st') :
    ∀ e, ∑ l, st'.cornerQ (e, l) = 0 := by
  refine thermRun_induct env S (fun a => ∀ e, ∑ l, a.cornerQ (e, l) = 0) (fun c dt a b ha hab => ?_) dts c st st' hcq h
  have stage : ∀ s x y, (∀ e, ∑ l, x.cornerQ (e, l) = 0) → thermStage env c (rkAlpha S s) dt x = some y →
      ∀ e, ∑ l, y.cornerQ (e, l) = 0 := by
    intro s x y hx hxy e
    obtain ⟨cp, hcp⟩ := thermStage_cp _ _ _ _ x y hxy
    obtain ⟨-, -, -, hq, -⟩ := thermStage_some _ _ _ _ x y hxy cp hcp
    rw [hsrc c] at hq
    rw [hq]
    exact cornerHeats_elem_sum _ _ _ _ _ hx e
  rcases Nat.eq_zero_or_pos S with rfl | hS
  · rw [thermCycle] at hab
    simp at hab
    rw [← hab]
    exact ha
  · exact thermCycle_induct env c S hS dt a b hab (fun x => ∀ e, ∑ l, x.cornerQ (e, l) = 0)
      (fun x => ∀ e, ∑ l, x.cornerQ (e, l) = 0) ha
      (fun s _ x y hx hxy => stage s x y hx hxy) (fun s _ x y hx hxy => stage s x y hx hxy)

theorem ThermJob.execute_cornerQ (J : ThermJob E N) (hm : J.moving = false) (st : ThermState E N)
    (hcq : ∀ e, ∑ l, st.cornerQ (e, l) = 0) (r : ThermLoop E N) (n : ℕ) (h : J.execute st = some (r, n)) :
    ∀ e, ∑ l, r.st.cornerQ (e, l) = 0 := by
  obtain ⟨s0, h0, hn, hr, hend, hlt⟩ := J.execute_spec st r n h
  obtain ⟨k1, k2, k3, k4, k5, k6⟩ := J.start_some st s0 h0
  refine thermRun_cornerQ (J.env (J.srcOf s0)) (fun c => ?_) J.stages 0 (J.dts s0 n) s0.st r.st
    (by rw [k5]; exact hcq) (J.after_run s0 n r hr).1
  show J.srcOf s0 c = none
  unfold ThermJob.srcOf
  cases J.after s0 c with
  | none => rfl
  | some q => simp [ThermJob.sourceAt, hm]

/-- **C143.** In an insulated body without moving source the heat content is the same at the end of a simulation as at its
start, whatever hydrodynamics and level set solvers run in between, however the nodes move and whatever melts. -/
theorem C143_heat (D : SimJob E N) (hWF : D.mech.sgh.env.mesh.WF) (hlaw : D.mech.sgh.env.closures.Lawful)
    (hins : Insulated D.therm.sets) (hS : 0 < D.therm.stages) (ks : List (SimKind × Window)) (s : SimState E N)
    (hM : Matched s) (hcq : ∀ e, ∑ l, s.heat.cornerQ (e, l) = 0) (cp : Fin N → ℝ)
    (hcp : ∀ n, nodeSpecificHeat D.mech.sgh.env.mesh s.therm.mats n = some (cp n)) (rs : List (SimEnd E N))
    (s' : SimState E N) (h : D.run ks s = some (rs, s')) (hmv : ∀ w, (SimKind.thermal true, w) ∉ ks) :
    heatContent D.mech.sgh.env.mass cp s'.heat.temp = heatContent D.mech.sgh.env.mass cp s.heat.temp := by
  have hc := (C143_chain D ks s rs s').1 h
  clear h
  induction hc with
  | nil s => rfl
  | hydro w ks st phi heat r rs s' hr _ ih =>
    have hM' : Matched ⟨⟨r.loop.st, phi⟩, heat⟩ := by
      rw [matched_iff] at hM ⊢
      show (ptData r.loop.st.mats).map _ = _
      rw [execute_matched (D.mech.sgh.inWindow w) hlaw st r hr]
      exact hM
    refine ih hM' hcq (fun n => ?_) fun v hv => hmv v (List.mem_cons_of_mem _ hv)
    rw [← hcp n]
    refine nodeSpecificHeat_congr _ _ _ ?_ n
    rw [therm_specificHeat _ hM', therm_specificHeat _ hM]
  | levelSet w ks st phi heat r c rs s' hr _ ih =>
    exact ih hM hcq hcp fun v hv => hmv v (List.mem_cons_of_mem _ hv)
  | thermal mv w ks s r c rs s' hr _ ih =>
    cases mv with
    | true => exact (hmv w List.mem_cons_self).elim
    | false =>
      obtain ⟨-, -, -, -, -, -, -, -, -, hmats, hM'⟩ := C143_thermal D false w s hM r c hr
      have e := C123_conserves (D.thermal false w s.mech.hydro.coords) hWF hins rfl hS s.therm hcq cp hcp r c hr
      have e' : heatContent D.mech.sgh.env.mass cp (s.absorb r.st c).heat.temp
        = heatContent D.mech.sgh.env.mass cp s.heat.temp := e
      rw [← e']
      refine ih hM' ((D.thermal false w s.mech.hydro.coords).execute_cornerQ rfl s.therm hcq r c hr) (fun n => ?_)
        fun v hv => hmv v (List.mem_cons_of_mem _ hv)
      rw [← hcp n]
      refine nodeSpecificHeat_congr _ _ _ ?_ n
      rw [hmats]
      obtain ⟨s0, -, -, hd⟩ := C123_properties_frozen_fails _ _ r c hr
      have hd' := congrArg (fun l => l.map fun k => k.map fun (d : Fin E × ℝ × ℝ × ℝ) => d.2.2.2) (hd rfl)
      simpa [thermData, Function.comp_def] using hd'

/-! ## Times -/

/-- The clock at the end of a solver. -/
noncomputable def SimEnd.time : SimEnd E N → ℝ
  | .mech r => r.time
  | .thermal r _ => r.clock.time

/-- The options of the kind of solver that ran. -/
def SimJob.clockOf (D : SimJob E N) : SimKind → ClockOpts
  | .mech .hydro => D.mech.sgh.clock
  | .mech .levelSet => D.mech.ls.clock
  | .thermal _ => D.therm.clock

/-- **C143.** With material in the mesh and in the level set solver, and enough cycles, every solver of a simulation ends at
the end of its window, within the tolerance of its kind, where the next window starts. -/
theorem C143_times (D : SimJob E N) (h1 : ∀ k, (D.clockOf k).Sane) (tf : ℝ) (ends : List ℝ)
    (kinds : List SimKind) (hw : ∀ w ∈ solverWindows tf ends, w.start < w.stop ∧
      ∀ k, w.stop - w.start ≤ (D.clockOf k).cycleStop *
        min (D.clockOf k).dtStart (min (D.clockOf k).dtMin (D.clockOf k).tiny))
    (s : SimState E N) (hM : Matched s) (hlaw : D.mech.sgh.env.closures.Lawful) (hm : s.mech.hydro.mats ≠ [])
    (hl : ∃ m, some m ∈ D.mech.ls.mats) (rs : List (SimEnd E N)) (s' : SimState E N)
    (h : D.run (kinds.zip (solverWindows tf ends)) s = some (rs, s')) :
    List.Forall₂ (fun k r => k.2.stop ≤ r.time ∧ r.time ≤ k.2.stop + (D.clockOf k.1).tiny)
      (kinds.zip (solverWindows tf ends)) rs ∧
    (kinds.length = ends.length → Linked 0 ((kinds.zip (solverWindows tf ends)).map Prod.snd)) := by
  constructor
  · have hc := (C143_chain D _ s rs s').1 h
    have hw' : ∀ k ∈ kinds.zip (solverWindows tf ends), k.2 ∈ solverWindows tf ends :=
      fun k hk => (List.of_mem_zip (show (k.1, k.2) ∈ _ from hk)).2
    clear h
    generalize kinds.zip (solverWindows tf ends) = ks at hc hw'
    induction hc with
    | nil s => exact .nil
    | hydro w ks st phi heat r rs s' hr _ ih =>
      obtain ⟨a, b⟩ := hw w (hw' _ List.mem_cons_self)
      have g := h1 (.mech .hydro)
      have hs : (D.mech.sgh.inWindow w).clock.Sane := ⟨g.dtStart, g.dtMin, g.dtMax, g.fuzz, g.tiny, g.cfl⟩
      obtain ⟨-, p2, p3, -⟩ := C137_progress (D.mech.sgh.inWindow w) hs a st r hr
      have hd := execute_matched (D.mech.sgh.inWindow w) hlaw st r hr
      refine .cons ⟨p3 (b (.mech .hydro)), p2 hm⟩ (ih ?_ ?_ fun k hk => hw' k (List.mem_cons_of_mem _ hk))
      · rw [matched_iff] at hM ⊢
        show (ptData r.loop.st.mats).map _ = _
        rw [hd]
        exact hM
      · intro he
        have he' : r.loop.st.mats = [] := he
        have := congrArg List.length hd
        simp only [ptData, List.length_map, he', List.length_nil] at this
        exact hm (List.length_eq_zero_iff.1 this.symm)
    | levelSet w ks st phi heat r c rs s' hr _ ih =>
      obtain ⟨a, b⟩ := hw w (hw' _ List.mem_cons_self)
      have g := h1 (.mech .levelSet)
      have hs : (D.mech.front w).clock.Sane := ⟨g.dtStart, g.dtMin, g.dtMax, g.fuzz, g.tiny, g.cfl⟩
      obtain ⟨-, p2, p3, -⟩ := C139_progress (D.mech.front w) hs a st.coords phi r c hr
      exact .cons ⟨p3 (b (.mech .levelSet)), p2 hl⟩ (ih hM hm fun k hk => hw' k (List.mem_cons_of_mem _ hk))
    | thermal mv w ks s r c rs s' hr _ ih =>
      obtain ⟨a, b⟩ := hw w (hw' _ List.mem_cons_self)
      have g := h1 (.thermal mv)
      have hs : (D.thermal mv w s.mech.hydro.coords).clock.Sane := ⟨g.dtStart, g.dtMin, g.dtMax, g.fuzz, g.tiny, g.cfl⟩
      obtain ⟨-, p2, p3⟩ := C123_progress (D.thermal mv w s.mech.hydro.coords) hs a s.therm r c hr
      obtain ⟨-, -, -, -, -, hwm, -, -, -, -, hM'⟩ := C143_thermal D mv w s hM r c hr
      refine .cons ⟨p3 (b (.thermal mv)), p2 ?_⟩ (ih hM' ?_ fun k hk => hw' k (List.mem_cons_of_mem _ hk))
      · intro he
        have := (C143_seen s hM).2.2.2.1.length_eq
        rw [he] at this
        exact hm (List.length_eq_zero_iff.1 this)
      · intro he
        have := hwm.length_eq
        rw [he] at this
        exact hm (List.length_eq_zero_iff.1 this)
  · intro hlen
    rw [List.map_snd_zip (by rw [(C16_chain tf ends).1, hlen])]
    exact linked_windows tf ends

/-! ## Energy -/

theorem totalEnergy_same (mass : Fin N → ℝ) {a b : SghState ℝ E N} (h : a.Same b) :
    totalEnergy mass a = totalEnergy mass b := by
  unfold totalEnergy
  rw [h.2.1, h.2.2.2]

/-- **C143.** Without moving sources and melting, total mechanical energy is the same at the end of a simulation with at
least one hydrodynamics solver as in the initial state with the wall velocities set to zero, under the conditions of
`C137_chain_energy`: conduction neither heats nor cools the material as the hydrodynamics solver sees it. -/
theorem C143_energy (D : SimJob E N) (hWF : D.mech.sgh.env.mesh.WF) (hm : ∀ n, D.mech.sgh.env.mass n ≠ 0)
    (hlaw : D.mech.sgh.env.closures.Lawful) (hext : ∀ st t n d, D.mech.sgh.env.ext st t n d = 0)
    (Z : Fin N → Fin 3 → Bool) (hZ : ClampSets D.mech.sgh.env.sets Z) (hS : 0 < D.mech.sgh.stages)
    (ks : List (SimKind × Window)) (s : SimState E N) (hM : Matched s) (hmass : MassOK s.mech.hydro.mats)
    (hone : ((s.mech.hydro.mats.flatMap fun m => m.pts).map fun p => p.elem).Nodup)
    (rs : List (SimEnd E N)) (s' : SimState E N) (h : D.run ks s = some (rs, s'))
    (hmv : ∀ w, (SimKind.thermal true, w) ∉ ks) (hso : ∀ r ∈ rs, r.Solid) (hk : ∃ w, (SimKind.mech .hydro, w) ∈ ks) :
    totalEnergy D.mech.sgh.env.mass s'.mech.hydro = totalEnergy D.mech.sgh.env.mass
      { s.mech.hydro with vel := fun n d => if Z n d then 0 else s.mech.hydro.vel n d } := by
  obtain ⟨es, h1, h2, h3⟩ := C143_mechanics_alone D hlaw ks s hM rs s' h hmv hso
  have hne : es ≠ [] := by
    obtain ⟨w, hw⟩ := hk
    have hw' : simHydroWindows ks ≠ [] := by
      clear h hmv h1
      induction ks with
      | nil => cases hw
      | cons k ks ih =>
        rcases List.mem_cons.1 hw with hw | hw2
        · rw [← hw]; exact List.cons_ne_nil _ _
        · obtain ⟨k, v⟩ := k
          cases k with
          | thermal mv => exact ih hw2
          | mech k => cases k with
            | hydro => exact List.cons_ne_nil _ _
            | levelSet => exact ih hw2
    rintro rfl
    cases hl : simHydroWindows ks with
    | nil => exact hw' hl
    | cons v vs =>
      rw [hl, SghJob.chain] at h1
      cases hx : (D.mech.sgh.inWindow v).execute s.mech.hydro with
      | none => rw [hx] at h1; cases h1
      | some r =>
        rw [hx] at h1
        obtain ⟨q, -, e⟩ := Option.map_eq_some_iff.1 h1
        cases e
  have he := C137_chain_energy D.mech.sgh hWF hm hlaw hext Z hZ hS _ s.mech.hydro hmass hone _ h1
  rw [totalEnergy_same _ h3, List.getLast?_eq_some_getLast hne]
  exact he _ (List.getLast_mem hne)

/-! ## Concrete simulations -/

/-- The cube of the hydrodynamics examples with unit heat data; every table has the value 2. -/
noncomputable def cubeSim : SimJob 1 8 where
  mech := { sgh := sghCubeJob, ls := cubeFront 1 1000 2 }
  therm := { mesh := oneHex, coords := fun _ _ => 0, mass := fun _ => 1, sets := [], clock := sghCubeJob.clock, stages := 2,
             moving := false, path := builtinPath, fns := fun _ => (true, true, true)
             tables := ([[300, 2], [400, 2]], [[300, 2], [400, 2]], [[300, 2], [400, 2]]) }

noncomputable def cubeSimState (T : ℝ) : SimState 1 8 where
  mech := ⟨sghCubeState, fun _ => 1⟩
  heat := { temp := fun _ => T, tempN0 := fun _ => T, cornerQ := fun _ => 0, pts := [[⟨1, 1, fun _ => 0⟩]] }

theorem cubeSimState_matched (T : ℝ) : Matched (cubeSimState T) := .cons rfl .nil

theorem cubeSim_sane (k : SimKind) : (cubeSim.clockOf k).Sane := by
  have h : sghCubeJob.clock.Sane := by constructor <;> norm_num [sghCubeJob]
  cases k with
  | thermal mv => exact h
  | mech k => cases k with
    | hydro => exact h
    | levelSet => constructor <;> norm_num [cubeSim, SimJob.clockOf, cubeFront, sghCubeJob]

theorem cubeSim_thermal (mv : Bool) (T : ℝ) : ∃ r n, 0 < n ∧
    (cubeSim.thermal mv ⟨0, 1⟩ sghCubeState.coords).execute (cubeSimState T).therm = some (r, n) := by
  have hstart : ∃ s0, (cubeSim.thermal mv ⟨0, 1⟩ sghCubeState.coords).start (cubeSimState T).therm = some s0 ∧
      SingleMaterial s0.st.mats ∧ ∀ p ∈ s0.st.mats.flatten, 0 < p.specificHeat := by
    cases mv with
    | false =>
      refine ⟨_, rfl, ⟨fun _ => ⟨0, 1, 1, 1, false, fun _ => 0⟩, fun e => Subsingleton.elim _ _, by
        simp [cubeSimState, SimState.therm, sghCubeState, thermPoint]⟩, ?_⟩
      intro p hp
      simp [cubeSimState, SimState.therm, sghCubeState, thermPoint] at hp
      rw [hp]; norm_num
    | true =>
      have hv : ∀ x : ℝ, tabularValue [[300, 2], [400, 2]] x = some 2 := by
        intro x
        obtain ⟨v, hv⟩ := C31_in_range [(300, (2 : ℝ)), (400, 2)] x
        have := C31_bounded [(300, 2), (400, 2)] (by simp) x 2 2 v (by simp) (by simp) hv
        rw [show tabularValue [[300, 2], [400, 2]] x = some v from hv, le_antisymm this.2 this.1]
      refine ⟨⟨{ (cubeSimState T).therm with mats := [[⟨0, 2, 2, 2, false, fun _ => 0⟩]] },
        clockInit (cubeSim.thermal true ⟨0, 1⟩ sghCubeState.coords).clock, fun _ => 0, [fun _ => T]⟩, ?_,
        ⟨fun _ => ⟨0, 2, 2, 2, false, fun _ => 0⟩, fun e => Subsingleton.elim _ _, by simp⟩, by simp⟩
      have ht : (cubeSim.thermal true ⟨0, 1⟩ sghCubeState.coords).tablePoint (fun _ => T) 0
          ⟨0, 1, 1, 1, false, fun _ => 0⟩ = some ⟨0, 2, 2, 2, false, fun _ => 0⟩ := by
        unfold ThermJob.tablePoint tabularPoint
        simp only [SimJob.thermal, cubeSim, hv]
        rfl
      have htab : (cubeSim.thermal true ⟨0, 1⟩ sghCubeState.coords).tabulate (fun _ => T) 0
          [[⟨0, 1, 1, 1, false, fun _ => 0⟩]] = some [[⟨0, 2, 2, 2, false, fun _ => 0⟩]] := by
        unfold ThermJob.tabulate
        simp [List.mapM_cons, ht, ThermJob.tabulate]
      unfold ThermJob.start
      have hb : boundaryTemperature (cubeSim.thermal true ⟨0, 1⟩ sghCubeState.coords).sets (cubeSimState T).therm.temp
        = fun _ => T := rfl
      rw [hb]
      simp only [show (cubeSim.thermal true ⟨0, 1⟩ sghCubeState.coords).moving = true from rfl, if_true]
      rw [show (cubeSimState T).therm.mats = [[⟨0, 1, 1, 1, false, fun _ => 0⟩]] from rfl, htab]
      rfl
  obtain ⟨s0, h0, h1, h2⟩ := hstart
  obtain ⟨r, n, h⟩ := C123_completes (cubeSim.thermal mv ⟨0, 1⟩ sghCubeState.coords)
    (fun n => by show (0 : ℝ) < 1 / 8; norm_num) (fun n => by simp [SimJob.thermal, cubeSim, sghCubeJob, oneHex])
    (by simp [SimJob.thermal, cubeSim, sghCubeJob]) _ s0 h0 h1 h2
  refine ⟨r, n, ?_, h⟩
  have g := cubeSim_sane (.thermal mv)
  have hp := (C123_progress _ (⟨g.dtStart, g.dtMin, g.dtMax, g.fuzz, g.tiny, g.cfl⟩ :
    (cubeSim.thermal mv ⟨0, 1⟩ sghCubeState.coords).clock.Sane) (by show (0 : ℝ) < 1; norm_num) _ r n h).2.2 (by
      show (1 : ℝ) - 0 ≤ ((1000 : ℕ) : ℝ) * min (1 / 10) (min (1 / 100) (1 / 1000))
      norm_num)
  obtain ⟨s1, dts, src, -, -, e1, -, -, e2, -⟩ := C123_run _ _ r n h
  rcases Nat.eq_zero_or_pos n with rfl | hn
  · exfalso
    rw [List.length_eq_zero_iff.1 e1] at e2
    rw [e2] at hp
    have : (1 : ℝ) ≤ 0 + 0 := by simpa [SimJob.thermal] using hp
    norm_num at this
  · exact hn

theorem cubeSim_one (mv : Bool) (T : ℝ) : ∃ r n s', 0 < n ∧
    (cubeSim.thermal mv ⟨0, 1⟩ sghCubeState.coords).execute (cubeSimState T).therm = some (r, n) ∧
    s' = (cubeSimState T).absorb r.st n ∧
    cubeSim.run [(.thermal mv, ⟨0, 1⟩)] (cubeSimState T) = some ([.thermal r n], s') := by
  obtain ⟨r, n, hn, h⟩ := cubeSim_thermal mv T
  exact ⟨r, n, _, hn, h, rfl, (C143_chain _ _ _ _ _).2 (.thermal mv _ _ _ r n _ _ h (.nil _))⟩

/-- **C143 (what fails: a hot body loses its strength).**  A thermal solver marks material at 900 or more as eroded, and
the flag is the one by which the hydrodynamics solver drops the forces of failed material: a cube under pressure with
uniform temperature 1000, insulated and without source, has forces on its nodes before the thermal solver runs and none at
all afterwards, although pressure, stress and nodes are the same. -/
theorem C143_melt_fails : ∃ (D : SimJob 1 8) (s s' : SimState 1 8) (r : ThermLoop 1 8) (n : ℕ),
    Matched s ∧ Insulated D.therm.sets ∧ (∀ m, s.heat.temp m = 1000) ∧
    D.run [(.thermal false, ⟨0, 1⟩)] s = some ([.thermal r n], s') ∧
    cornerForces D.mech.sgh.env.mesh D.mech.sgh.env.closures s.mech.hydro (0, 0) 0 ≠ 0 ∧
    ∀ c d, cornerForces D.mech.sgh.env.mesh D.mech.sgh.env.closures s'.mech.hydro c d = 0 := by
  obtain ⟨r, n, s', hn, h, hs, hrun⟩ := cubeSim_one false 1000
  refine ⟨cubeSim, cubeSimState 1000, s', r, n, cubeSimState_matched _, fun s hs => by simp [cubeSim] at hs, fun _ => rfl,
    hrun, ?_, ?_⟩
  · show cornerForces oneHex _ sghCubeState (0, 0) 0 ≠ 0
    simp [cornerForces, sghCubeState, addCornerForce, matCornerForce, forceComponent, tauStress, elemB, bmatrix,
      bmatrixCol0, elemCoords, oneHex, cubeCoords, cubeSim, sghCubeJob]
    norm_num
  · obtain ⟨-, -, -, -, -, hw, -, -, -, hmats, hM'⟩ := C143_thermal cubeSim false ⟨0, 1⟩ (cubeSimState 1000)
      (cubeSimState_matched _) r n h
    obtain ⟨q, hq, e1, e2⟩ := C143_melt _ (by simp [SimJob.thermal, cubeSim]) _ r n hn h 0 0
      ⟨0, 1, 1, 1, false, fun _ => 0⟩ rfl (by
        show 900 ≤ (∑ l, (1000 : ℝ)) / 8
        norm_num)
    have h5 := (C143_seen _ hM').2.2.2.1
    rw [hmats] at h5
    rw [← hs] at h5 hw
    have hlen := hw.length_eq
    intro c d
    obtain ⟨e, l⟩ := c
    have he : e = 0 := Subsingleton.elim _ _
    subst he
    generalize hms : s'.mech.hydro.mats = ms at h5 hw hlen
    unfold cornerForces
    rw [hms]
    have hlen' : ms.length = 1 := hlen.symm
    obtain ⟨m, rfl⟩ := List.length_eq_one_iff.1 hlen'
    cases hw with
    | cons g _ =>
      have hl2 : m.pts.length = 1 := g.2.length_eq.symm
      obtain ⟨p, hp⟩ := List.length_eq_one_iff.1 hl2
      obtain ⟨qs, hqs, hR⟩ := forall₂_getElem? h5 0 m rfl
      obtain ⟨q', hq', a1, a2, a3⟩ := forall₂_getElem? hR 0 p (by rw [hp]; rfl)
      have hqq : q' = q := by
        have : thermAt r.st.mats 0 0 = some q' := by simp [thermAt, hqs, hq']
        rw [hq] at this
        exact (Option.some.inj this).symm
      subst hqq
      simp [hp, addCornerForce, ← a1, e1, ← a3, e2]

/-- **C143 (what fails: the density of heated material).**  A thermal solver with a moving source replaces the density by
the tabulated value and leaves mass, nodes and volume: after it, mass is not density times volume, and the next
hydrodynamics solver starts from that density. -/
theorem C143_density_fails : ∃ (D : SimJob 1 8) (s s' : SimState 1 8) (r : ThermLoop 1 8) (n : ℕ),
    Matched s ∧ D.run [(.thermal true, ⟨0, 1⟩)] s = some ([.thermal r n], s') ∧
    (∀ m ∈ s.mech.hydro.mats, ∀ p ∈ m.pts,
      p.mass = p.den * thermVol D.mech.sgh.env.mesh s.mech.hydro.coords p.elem) ∧
    s'.mech.hydro.mats ≠ [] ∧ ∀ m ∈ s'.mech.hydro.mats, m.pts ≠ [] ∧ ∀ p ∈ m.pts,
      p.mass ≠ p.den * thermVol D.mech.sgh.env.mesh s'.mech.hydro.coords p.elem := by
  have hvol : thermVol oneHex sghCubeState.coords 0 = 1 := by
    simp [thermVol, volHex, hexVolRaw, volFloor, elemCoords, oneHex, sghCubeState, cubeCoords]
    norm_num
  obtain ⟨r, n, s', hn, h, hs, hrun⟩ := cubeSim_one true 300
  refine ⟨cubeSim, cubeSimState 300, s', r, n, cubeSimState_matched _, hrun, ?_, ?_⟩
  · intro m hm p hp
    simp [cubeSimState, sghCubeState] at hm
    subst hm
    simp at hp
    subst hp
    show (1 : ℝ) = 1 * thermVol oneHex sghCubeState.coords 0
    rw [hvol]; norm_num
  · obtain ⟨-, hco, -, -, -, hw, -, -, -, hmats, hM'⟩ := C143_thermal cubeSim true ⟨0, 1⟩ (cubeSimState 300)
      (cubeSimState_matched _) r n h
    have ht := (C123_tables _ rfl _ r n h).1
    have h5 := (C143_seen _ hM').2.2.2.1
    rw [hmats] at h5
    rw [← hs] at h5 hw hco
    constructor
    · intro he
      rw [he] at hw
      cases hw
    · intro m hm
      obtain ⟨i, hi⟩ := List.getElem?_of_mem hm
      have hw' := hw.flip
      obtain ⟨m0, hm0, -, hpts⟩ := forall₂_getElem? hw' i m hi
      have hm0' : m0 = ⟨0, true, [⟨0, 1, 0, 0, 1, 1, 1, 1, 1, fun _ _ => 0, fun _ _ => 0, false, fun _ _ => 0⟩]⟩ := by
        have := List.mem_of_getElem? hm0
        simpa [cubeSimState, sghCubeState] using this
      subst hm0'
      constructor
      · intro he
        rw [he] at hpts
        cases hpts
      · intro p hp
        obtain ⟨j, hj⟩ := List.getElem?_of_mem hp
        obtain ⟨p0, hp0, hwp⟩ := forall₂_getElem? hpts.flip j p hj
        have hp0' := List.mem_of_getElem? hp0
        simp only [List.mem_singleton] at hp0'
        subst hp0'
        obtain ⟨qs, hqs, hR⟩ := forall₂_getElem? h5 i m hi
        obtain ⟨q, hq, a1, a2, a3⟩ := forall₂_getElem? hR j p hj
        have hd : q.den = 2 := by
          have ht' := ht.flip
          have hqd : (thermData r.st.mats)[i]? = some (qs.map fun p => (p.elem, p.conductivity, p.den, p.specificHeat)) := by
            simp [thermData, hqs]
          obtain ⟨ps, -, hps⟩ := forall₂_getElem? ht' i _ hqd
          obtain ⟨pt, -, hft⟩ := forall₂_getElem? hps.flip j
            (q.elem, q.conductivity, q.den, q.specificHeat) (by simp [hq])
          have hx := hft.2.2.1
          have hb := C31_bounded [(300, (2 : ℝ)), (400, 2)] (by simp) _ 2 2 q.den (by simp) (by simp) hx
          exact le_antisymm hb.2 hb.1
        rw [← a2, hd, hco, hwp.1]
        show (1 : ℝ) ≠ 2 * thermVol oneHex sghCubeState.coords 0
        rw [hvol]; norm_num

/-! ## A simulation without melting -/

theorem heat_solid (mesh : Mesh8 E N) (coords : Fin N → Fin 3 → ℝ) (T : ℝ) (hT : T < 900)
    (a : List (List (ThermPt E))) (h : ∀ pts ∈ a, ∀ p ∈ pts, p.eroded = false) :
    ∀ pts ∈ a.map fun pts => pts.map (heatPoint mesh coords fun _ => T), ∀ p ∈ pts, p.eroded = false := by
  intro pts hpts p hp
  obtain ⟨l, hl, rfl⟩ := List.mem_map.1 hpts
  obtain ⟨q, hq, rfl⟩ := List.mem_map.1 hp
  show (if 900 ≤ elemAvgTemp mesh (fun _ => T) q.elem then true else q.eroded) = false
  rw [elemAvgTemp_mean, if_neg, h l hl q hq]
  show ¬900 ≤ (∑ _ : Fin 8, T) / 8
  simp
  exact hT

/-- **C143.** A solver on an insulated body of uniform temperature below 900 without source leaves that temperature and
melts nothing, so that `C143_mechanics_alone` and `C143_energy` apply. -/
theorem C143_cool (J : ThermJob E N) (hins : Insulated J.sets) (hm : J.moving = false) (hS : 0 < J.stages) (T : ℝ)
    (hT : T < 900) (st : ThermState E N) (hcq : ∀ c, st.cornerQ c = 0) (ht : ∀ n, st.temp n = T)
    (he : ∀ pts ∈ st.mats, ∀ p ∈ pts, p.eroded = false) (r : ThermLoop E N) (n : ℕ)
    (h : J.execute st = some (r, n)) :
    (∀ m, r.st.temp m = T) ∧ (∀ c, r.st.cornerQ c = 0) ∧ (SimEnd.thermal r n).Solid := by
  obtain ⟨s0, h0, hn, hr, hend, hlt⟩ := J.execute_spec st r n h
  obtain ⟨k1, k2, k3, k4, k5, k6⟩ := J.start_some st s0 h0
  have hmats : st.mats = s0.st.mats := by
    rw [hm] at k6; exact Option.some.inj k6
  have hst : st.temp = fun _ => T := funext ht
  rw [boundaryTemperature_free _ hins.noFixed, hst] at k4
  have hsrc : ∀ c, (J.env (J.srcOf s0)).source c = none := by
    intro c
    show J.srcOf s0 c = none
    unfold ThermJob.srcOf
    cases J.after s0 c with
    | none => rfl
    | some q => simp [ThermJob.sourceAt, hm]
  have hsets : ∀ s ∈ (J.env (J.srcOf s0)).sets, s.bc = .other ∨ s.bc = .constant T := fun s hs => Or.inl (hins s hs)
  have key := thermRun_induct (J.env (J.srcOf s0)) J.stages (fun a => (∀ c, a.cornerQ c = 0) ∧ (a.temp = fun _ => T) ∧
      ∀ pts ∈ a.mats, ∀ p ∈ pts, p.eroded = false) ?_ (J.dts s0 n) 0 s0.st r.st
    ⟨by rw [k5]; exact hcq, k4, by rw [← hmats]; exact he⟩ (J.after_run s0 n r hr).1
  · exact ⟨fun m => by rw [key.2.1], key.1, key.2.2⟩
  · intro c dt a b ha hab
    refine thermCycle_induct _ c J.stages hS dt a b hab
      (fun x => (∀ c, x.cornerQ c = 0) ∧ x.temp = (fun _ => T) ∧ (x.tempN0 = fun _ => T) ∧
        ∀ pts ∈ x.mats, ∀ p ∈ pts, p.eroded = false)
      (fun x => (∀ c, x.cornerQ c = 0) ∧ (x.temp = fun _ => T) ∧ ∀ pts ∈ x.mats, ∀ p ∈ pts, p.eroded = false)
      ⟨ha.1, ha.2.1, ha.2.1, ha.2.2⟩ ?_ ?_
    all_goals
      intro s _ x y hx hxy
      obtain ⟨cp, hcp⟩ := thermStage_cp _ c _ dt x y hxy
      obtain ⟨hne, -, hn0, hq, hmy, ht⟩ := thermStage_some _ c _ dt x y hxy cp hcp
      rw [hsrc c, hx.2.1] at hq
      have hy : ∀ c, y.cornerQ c = 0 := by
        intro c; rw [hq]
        exact cornerHeats_zero _ _ _ _ _ hx.1 (fun p _ d => by rw [tempGrad_uniform, mul_zero]) c
      have hTy : y.temp = fun _ => T := by
        rw [ht]
        have : (fun n => x.tempN0 n + rkAlpha J.stages s * dt *
            nodeHeat (J.env (J.srcOf s0)).mesh (boundaryHeat (J.env (J.srcOf s0)) x.temp) y.cornerQ n /
              ((J.env (J.srcOf s0)).mass n * cp n)) = fun _ => T := by
          funext n
          rw [nodeHeat_eq, Insulated.boundaryHeat (env := J.env (J.srcOf s0)) hins, hx.2.2.1]
          have : (List.map y.cornerQ ((J.env (J.srcOf s0)).mesh.cornersInNode n)).sum = 0 := by
            rw [List.map_congr_left (g := fun _ => (0 : ℝ)) fun c _ => hy c]; simp
          rw [this]; simp
        rw [this, boundaryTemperature_uniform _ T hsets]
      have hey : ∀ pts ∈ y.mats, ∀ p ∈ pts, p.eroded = false := by
        rw [hmy, hx.2.1]
        exact heat_solid _ _ T hT _ hx.2.2.2
      first
        | exact ⟨hy, hTy, by rw [hn0]; exact hx.2.2.1, hey⟩
        | exact ⟨hy, hTy, hey⟩

/-- Hydrodynamics, heat conduction, hydrodynamics on the cube meet the hypotheses of the theorems above. -/
example : ∃ rs s', cubeSim.run [(.mech .hydro, ⟨0, 1⟩), (.thermal false, ⟨1, 2⟩), (.mech .hydro, ⟨2, 3⟩)] (cubeSimState 300)
      = some (rs, s') ∧ Matched (cubeSimState 300) ∧ cubeSim.mech.sgh.env.closures.Lawful ∧ Insulated cubeSim.therm.sets ∧
    (∀ r ∈ rs, r.Solid) ∧ (∀ e, ∑ l, (cubeSimState 300).heat.cornerQ (e, l) = 0) ∧
    ∀ n, nodeSpecificHeat cubeSim.mech.sgh.env.mesh (cubeSimState 300).therm.mats n = some 1 := by
  have hlaw : cubeSim.mech.sgh.env.closures.Lawful := fun _ _ _ _ => ⟨rfl, rfl, rfl, rfl⟩
  have hins : Insulated cubeSim.therm.sets := fun s hs => by simp [cubeSim] at hs
  have hy : ∀ w st, ∃ r, (cubeSim.mech.sgh.inWindow w).execute st = some r :=
    fun w st => ⟨_, if_neg (by simp [cubeSim, sghCubeJob, SghJob.inWindow])⟩
  obtain ⟨r1, h1⟩ := hy ⟨0, 1⟩ sghCubeState
  have hd := execute_matched (cubeSim.mech.sgh.inWindow ⟨0, 1⟩) hlaw sghCubeState r1 h1
  have hero : ∀ m ∈ r1.loop.st.mats, ∀ p ∈ m.pts, p.eroded = false := by
    rw [((cubeSim.mech.sgh.inWindow ⟨0, 1⟩).history _ r1 h1).final]
    refine sghRun_induct _ _ (fun s => ∀ m ∈ s.mats, ∀ p ∈ m.pts, p.eroded = false) ?_ _ _ _ ?_
    · intro t dt s hs
      have stage : ∀ (l : List ℕ) (s : SghState ℝ 1 8), (∀ m ∈ s.mats, ∀ p ∈ m.pts, p.eroded = false) →
          ∀ m ∈ (l.foldl (fun st k => sghStage (cubeSim.mech.sgh.inWindow ⟨0, 1⟩).env t
            (rkAlpha (cubeSim.mech.sgh.inWindow ⟨0, 1⟩).stages k) dt st) s).mats, ∀ p ∈ m.pts, p.eroded = false := by
        intro l
        induction l with
        | nil => exact fun s hs => hs
        | cons k l ih =>
          intro s hs
          refine ih _ fun m hm p hp => ?_
          obtain ⟨m1, hm1, rfl⟩ := List.mem_map.1 hm
          obtain ⟨p1, hp1, rfl⟩ := List.mem_map.1 hp
          obtain ⟨m2, hm2, rfl⟩ := List.mem_map.1 hm1
          obtain ⟨p2, hp2, rfl⟩ := List.mem_map.1 hp1
          obtain ⟨m3, hm3, rfl⟩ := List.mem_map.1 hm2
          obtain ⟨p3, hp3, rfl⟩ := List.mem_map.1 hp2
          exact hs m3 hm3 p3 hp3
      refine stage _ _ fun m hm p hp => ?_
      obtain ⟨m1, hm1, rfl⟩ := List.mem_map.1 hm
      obtain ⟨p1, hp1, rfl⟩ := List.mem_map.1 hp
      exact hs m1 hm1 p1 hp1
    · intro m hm p hp
      simp [sghCubeState] at hm
      subst hm
      simp at hp
      subst hp
      rfl
  set s1 : SimState 1 8 := ⟨⟨r1.loop.st, fun _ => 1⟩, (cubeSimState 300).heat⟩ with hs1
  obtain ⟨m, p, hms, hpe, hp0⟩ : ∃ (m : Mat ℝ 1) (p : MatPt ℝ 1), r1.loop.st.mats = [m] ∧ m.pts = [p] ∧ p.elem = 0 := by
    have hl := congrArg List.length hd
    simp only [ptData, List.length_map] at hl
    obtain ⟨m, hm⟩ := List.length_eq_one_iff.1 (show r1.loop.st.mats.length = 1 from hl)
    rw [hm] at hd
    have hd' : (m.pts.map fun p => (p.elem, p.mass)) = [(0, 1)] := (List.cons.inj hd).1
    have hl' := congrArg List.length hd'
    simp only [List.length_map] at hl'
    obtain ⟨p, hp⟩ := List.length_eq_one_iff.1 (show m.pts.length = 1 from hl')
    exact ⟨m, p, hm, hp, Subsingleton.elim _ _⟩
  have hth : s1.therm.mats = [[thermPoint p ⟨1, 1, fun _ => 0⟩]] := by
    show List.zipWith _ r1.loop.st.mats [[_]] = _
    rw [hms]
    show [List.zipWith _ m.pts _] = _
    rw [hpe]
    rfl
  obtain ⟨r2, n2, h2⟩ := C123_completes (cubeSim.thermal false ⟨1, 2⟩ r1.loop.st.coords)
    (fun n => by show (0 : ℝ) < 1 / 8; norm_num) (fun n => by simp [SimJob.thermal, cubeSim, sghCubeJob, oneHex])
    (by simp [SimJob.thermal, cubeSim, sghCubeJob]) s1.therm _ rfl
    ⟨fun _ => thermPoint p ⟨1, 1, fun _ => 0⟩, fun e => Subsingleton.elim _ _, by
      show s1.therm.mats = _
      rw [hth]; simp⟩ (by
        intro q hq
        have hq' : q ∈ s1.therm.mats.flatten := hq
        rw [hth] at hq'
        simp [thermPoint] at hq'
        rw [hq']; norm_num)
  obtain ⟨r3, h3⟩ := hy ⟨2, 3⟩ (s1.absorb r2.st n2).mech.hydro
  refine ⟨[.mech (.hydro r1), .thermal r2 n2, .mech (.hydro r3)], _, (C143_chain _ _ _ _ _).2
    (.hydro _ _ _ _ _ r1 _ _ h1 (.thermal false _ _ _ r2 n2 _ _ h2 (.hydro _ _ _ _ _ r3 _ _ h3 (.nil _)))),
    cubeSimState_matched _, hlaw, hins, ?_, fun e => by simp [cubeSimState], ?_⟩
  · intro r hr
    simp only [List.mem_cons, List.not_mem_nil, or_false] at hr
    rcases hr with rfl | rfl | rfl
    · trivial
    · refine (C143_cool (cubeSim.thermal false ⟨1, 2⟩ r1.loop.st.coords) hins rfl (by simp [SimJob.thermal, cubeSim]) 300 (by norm_num) s1.therm (fun _ => rfl)
        (fun _ => rfl) ?_ r2 n2 h2).2.2
      rw [hth]
      intro pts hpts q hq
      simp only [List.mem_singleton] at hpts
      subst hpts
      simp only [List.mem_singleton] at hq
      subst hq
      exact hero m (by rw [hms]; simp) p (by rw [hpe]; simp)
    · trivial
  · intro n
    simp [nodeSpecificHeat, cubeSim, sghCubeJob, oneHex, cubeSimState, SimState.therm, sghCubeState, thermPoint,
      specificHeatAt]

end Fierro
