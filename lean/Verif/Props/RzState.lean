import Verif.Model.RzState
import Verif.Props.SghRzKinematics
import Verif.Props.SolverLoop

/-!
# C106, C107: material state and clock of the r-z solver
-/

namespace Fierro

variable {E N : ℕ}

/-! ## C106 -/

/-- Specification: the volume a material occupies in its element, with the offset `1e-20` the code
adds. -/
noncomputable def rzOccupied (vol : Fin E → ℝ) (p : RzPt E) : ℝ :=
  vol p.elem * p.volfrac * p.geoVolfrac + 1e-20

theorem rz_offset : (1 / 10 ^ 20 : ℝ) = 1e-20 := by norm_num

/-- A material whose strength model is not called by `update_state_rz`. -/
def RzModel.NotStateBased (M : RzModel E N) : Prop := ∀ f, M.strength ≠ .stateBased f

theorem rzStateStrength_skip (M : RzModel E N) (h : M.NotStateBased) (vol : Fin E → ℝ) (p : RzPt E) :
    rzStateStrength M vol p = p := by
  unfold rzStateStrength
  cases hs : M.strength with
  | none => rfl
  | stateBased f => exact absurd hs (h f)
  | incrementBased b f => rfl

/-- The parts of a point that the material models do not touch. -/
def RzPt.Kept (p q : RzPt E) : Prop :=
  q.elem = p.elem ∧ q.mass = p.mass ∧ q.sie = p.sie ∧ q.sieN0 = p.sieN0 ∧ q.volfrac = p.volfrac ∧
    q.geoVolfrac = p.geoVolfrac ∧ q.stressN0 = p.stressN0 ∧ q.cornerForce = p.cornerForce

theorem RzPt.Kept.refl (p : RzPt E) : p.Kept p := ⟨rfl, rfl, rfl, rfl, rfl, rfl, rfl, rfl⟩

theorem RzPt.Kept.trans {p q r : RzPt E} (h : p.Kept q) (h' : q.Kept r) : p.Kept r := by
  obtain ⟨a1, a2, a3, a4, a5, a6, a7, a8⟩ := h
  obtain ⟨b1, b2, b3, b4, b5, b6, b7, b8⟩ := h'
  exact ⟨b1.trans a1, b2.trans a2, b3.trans a3, b4.trans a4, b5.trans a5, b6.trans a6, b7.trans a7,
    b8.trans a8⟩

theorem rzStateEos_kept (M : RzModel E N) (vol : Fin E → ℝ) (p : RzPt E) :
    p.Kept (rzStateEos M vol p) := by
  unfold rzStateEos; split_ifs <;> exact RzPt.Kept.refl p

theorem rzStateStrength_kept (M : RzModel E N) (vol : Fin E → ℝ) (p : RzPt E) :
    p.Kept (rzStateStrength M vol p) := by
  unfold rzStateStrength; split <;> exact RzPt.Kept.refl p

theorem rzStateErosion_kept (M : RzModel E N) (p : RzPt E) : p.Kept (rzStateErosion M p) := by
  unfold rzStateErosion
  split
  · exact RzPt.Kept.refl p
  · simp only; split_ifs <;> exact RzPt.Kept.refl p

theorem rzUpdateStress_kept (M : RzModel E N) (st : RzState E N) (p : RzPt E) :
    p.Kept (rzUpdateStress M st p) := by
  unfold rzUpdateStress
  split
  · split_ifs <;> exact RzPt.Kept.refl p
  · exact RzPt.Kept.refl p

theorem rzUpdateState_kept (M : RzModel E N) (vol : Fin E → ℝ) (p : RzPt E) :
    p.Kept (rzUpdateState M vol p) :=
  (rzStateEos_kept M vol p).trans
    ((rzStateStrength_kept M vol _).trans (rzStateErosion_kept M _))

/-- An uneroded point is left alone by the erosion step. -/
theorem rzStateErosion_intact (M : RzModel E N) (p : RzPt E)
    (h : (rzStateErosion M p).eroded = false) :
    (rzStateErosion M p).den = p.den ∧ (rzStateErosion M p).pres = p.pres ∧
    (rzStateErosion M p).sspd = p.sspd ∧ (rzStateErosion M p).stress = p.stress := by
  unfold rzStateErosion at h ⊢
  cases he : M.erosion with
  | none => exact ⟨rfl, rfl, rfl, rfl⟩
  | some td =>
    rw [he] at h
    obtain ⟨t, d⟩ := td
    simp only at h ⊢
    split_ifs at h ⊢ with h1
    · simp only at h; rw [h] at h1; exact absurd h1 (by simp)
    · exact ⟨rfl, rfl, rfl, rfl⟩

/-- **C106.** After the update the density of an uneroded point times the volume its material
occupies in the element is its mass, for every equation of state and every strength model that is not
state-based. -/
theorem C106_density (M : RzModel E N) (hM : M.NotStateBased) (vol : Fin E → ℝ) (p : RzPt E)
    (hv : rzOccupied vol p ≠ 0) (he : (rzUpdateState M vol p).eroded = false) :
    (rzUpdateState M vol p).den * rzOccupied vol p = p.mass := by
  unfold rzUpdateState at he ⊢
  rw [(rzStateErosion_intact M _ he).1, rzStateStrength_skip M hM]
  have : (rzStateEos M vol p).den = p.mass / rzOccupied vol p := by
    unfold rzStateEos rzOccupied; rw [← rz_offset]; split_ifs <;> rfl
  rw [this, div_mul_cancel₀ _ hv]

/-- **C106.** … and its pressure is the one of the equation of state at the new density and the new
energy; the sound speed model sees the new pressure. -/
theorem C106_pressure (M : RzModel E N) (hM : M.NotStateBased) (hd : M.decoupled = true)
    (law : ℝ → ℝ → ℝ) (hlaw : ∀ q, M.pressure q = law q.den q.sie)
    (speed : ℝ → ℝ → ℝ → ℝ) (hspeed : ∀ q, M.soundSpeed q = speed q.den q.sie q.pres)
    (vol : Fin E → ℝ) (p : RzPt E) (he : (rzUpdateState M vol p).eroded = false) :
    (rzUpdateState M vol p).pres
      = law (rzUpdateState M vol p).den (rzUpdateState M vol p).sie ∧
    (rzUpdateState M vol p).sspd = speed (rzUpdateState M vol p).den (rzUpdateState M vol p).sie
      (rzUpdateState M vol p).pres ∧ (rzUpdateState M vol p).sie = p.sie := by
  have hk := (rzUpdateState_kept M vol p).2.2.1
  rw [hk]
  unfold rzUpdateState at he ⊢
  obtain ⟨h1, h2, h3, _⟩ := rzStateErosion_intact M _ he
  rw [h1, h2, h3, rzStateStrength_skip M hM]
  unfold rzStateEos
  simp only [hd, if_true, hlaw, hspeed, and_self]

/-- **C106.** Without a decoupled equation of state and without a strength model pressure and sound
speed of a point stay as they are. -/
theorem C106_no_eos (M : RzModel E N) (hM : M.NotStateBased) (hd : M.decoupled = false)
    (vol : Fin E → ℝ) (p : RzPt E) (he : (rzUpdateState M vol p).eroded = false) :
    (rzUpdateState M vol p).pres = p.pres ∧ (rzUpdateState M vol p).sspd = p.sspd ∧
    (rzUpdateState M vol p).stress = p.stress := by
  unfold rzUpdateState at he ⊢
  obtain ⟨_, h2, h3, h4⟩ := rzStateErosion_intact M _ he
  rw [h2, h3, h4, rzStateStrength_skip M hM]
  unfold rzStateEos
  simp [hd]

/-- **C106.** A state-based strength model gets the mass divided by the volume of the whole element as
density, and that density stays. -/
theorem C106_state_strength_density (M : RzModel E N) (f : RzPt E → StrengthResult)
    (hM : M.strength = .stateBased f) (vol : Fin E → ℝ) (p : RzPt E)
    (hv : vol p.elem + 1e-20 ≠ 0) (he : (rzUpdateState M vol p).eroded = false) :
    (rzUpdateState M vol p).den * (vol p.elem + 1e-20) = p.mass ∧
    ∃ q : RzPt E, p.Kept q ∧ q.den = (rzUpdateState M vol p).den ∧
      (rzUpdateState M vol p).stress = (f q).1 ∧ (rzUpdateState M vol p).pres = (f q).2.1 ∧
      (rzUpdateState M vol p).sspd = (f q).2.2 := by
  unfold rzUpdateState at he ⊢
  obtain ⟨h1, h2, h3, h4⟩ := rzStateErosion_intact M _ he
  rw [h1, h2, h3, h4]
  have hk := rzStateEos_kept M vol p
  have hs : rzStateStrength M vol (rzStateEos M vol p)
      = RzPt.store { rzStateEos M vol p with
          den := (rzStateEos M vol p).mass / (vol (rzStateEos M vol p).elem + 1 / 10 ^ 20) }
        (f { rzStateEos M vol p with
          den := (rzStateEos M vol p).mass / (vol (rzStateEos M vol p).elem + 1 / 10 ^ 20) }) := by
    unfold rzStateStrength; rw [hM]
  rw [hs]
  simp only [RzPt.store]
  refine ⟨?_, { rzStateEos M vol p with
    den := (rzStateEos M vol p).mass / (vol (rzStateEos M vol p).elem + 1 / 10 ^ 20) }, hk, rfl, rfl, rfl,
    rfl⟩
  rw [hk.1, hk.2.1, rz_offset, div_mul_cancel₀ _ hv]

/-- **C106.** So with a state-based strength model the density of a point with mass is right exactly
in elements filled by that material alone (or of no volume). -/
theorem C106_state_strength_density_iff (M : RzModel E N) (f : RzPt E → StrengthResult)
    (hM : M.strength = .stateBased f) (vol : Fin E → ℝ) (p : RzPt E) (hm : p.mass ≠ 0)
    (hv : vol p.elem + 1e-20 ≠ 0) (he : (rzUpdateState M vol p).eroded = false) :
    (rzUpdateState M vol p).den * rzOccupied vol p = p.mass ↔
      vol p.elem = 0 ∨ p.volfrac * p.geoVolfrac = 1 := by
  obtain ⟨h, _⟩ := C106_state_strength_density M f hM vol p hv he
  have hd : (rzUpdateState M vol p).den ≠ 0 := by
    intro h0; rw [h0, zero_mul] at h; exact hm h.symm
  constructor
  · intro h'
    have : rzOccupied vol p = vol p.elem + 1e-20 := mul_left_cancel₀ hd (h'.trans h.symm)
    unfold rzOccupied at this
    rcases eq_or_ne (vol p.elem) 0 with h0 | h0
    · exact Or.inl h0
    · right
      apply mul_left_cancel₀ h0
      linear_combination this
  · rintro (h0 | h1)
    · rw [← h]; unfold rzOccupied; rw [h0]; ring
    · rw [← h]; unfold rzOccupied
      linear_combination (rzUpdateState M vol p).den * vol p.elem * h1

/-- A material with a state-based strength model that stores nothing new. -/
noncomputable def rzStateBasedDemo : RzModel 1 4 where
  decoupled := false
  pressure p := p.pres
  soundSpeed p := p.sspd
  strength := .stateBased fun p => (p.stress, p.pres, p.sspd)
  erosion := none

/-- **C106 (state-based strength in mixed elements).** A material with a state-based strength model
that fills half of an element of volume 1 with mass 3/4, density 3/2, is given a density below 0.76. -/
theorem C106_mixed_density_fails :
    (rzUpdateState rzStateBasedDemo (fun _ => 1) (rzDemoPt false (1 / 2))).den < 0.76 ∧
    (rzDemoPt false (1 / 2)).mass = 3 / 2 * (1 * (rzDemoPt false (1 / 2)).volfrac) := by
  constructor
  · simp only [rzUpdateState, rzStateErosion, rzStateBasedDemo, rzStateStrength, RzPt.store, rzStateEos,
      rzDemoPt]
    norm_num
  · norm_num [rzDemoPt]

/-- **C106.** Once eroded a point stays eroded. -/
theorem C106_permanent_step (M : RzModel E N) (vol : Fin E → ℝ) (p : RzPt E)
    (h : p.eroded = true) : (rzUpdateState M vol p).eroded = true := by
  have h1 : (rzStateEos M vol p).eroded = true := by
    unfold rzStateEos; split_ifs <;> exact h
  have h2 : (rzStateStrength M vol (rzStateEos M vol p)).eroded = true := by
    unfold rzStateStrength; split <;> exact h1
  unfold rzUpdateState
  generalize rzStateStrength M vol (rzStateEos M vol p) = q at h2
  unfold rzStateErosion
  split
  · exact h2
  · simp only [basicErode, h2, ite_self, if_true]

/-- **C106.** A point erodes exactly when its material has an erosion model and the pressure its
equation of state gives or its density is at or below the limits. -/
theorem C106_erodes_iff (M : RzModel E N) (hM : M.NotStateBased) (hd : M.decoupled = true)
    (law : ℝ → ℝ → ℝ) (hlaw : ∀ q, M.pressure q = law q.den q.sie)
    (vol : Fin E → ℝ) (p : RzPt E) (h : p.eroded = false) :
    (rzUpdateState M vol p).eroded = true ↔
      ∃ tension density, M.erosion = some (tension, density) ∧
        (law (p.mass / rzOccupied vol p) p.sie ≤ tension ∨ p.mass / rzOccupied vol p ≤ density) := by
  unfold rzUpdateState
  rw [rzStateStrength_skip M hM]
  have hq : (rzStateEos M vol p).pres = law (p.mass / rzOccupied vol p) p.sie ∧
      (rzStateEos M vol p).den = p.mass / rzOccupied vol p ∧ (rzStateEos M vol p).eroded = false := by
    unfold rzStateEos rzOccupied
    rw [← rz_offset]
    simp only [hd, if_true, hlaw, h, and_self]
  generalize rzStateEos M vol p = q at hq
  obtain ⟨h1, h2, h3⟩ := hq
  rw [← h1, ← h2]
  unfold rzStateErosion
  cases he : M.erosion with
  | none => simp [h3]
  | some td =>
    obtain ⟨t, d⟩ := td
    simp only [basicErode, h3, Option.some.injEq, Prod.mk.injEq]
    constructor
    · intro hh
      refine ⟨t, d, ⟨rfl, rfl⟩, ?_⟩
      by_contra hc
      rw [if_neg hc] at hh
      simp at hh
    · rintro ⟨t', d', ⟨rfl, rfl⟩, hc⟩
      rw [if_pos hc]; simp

/-- **C106.** An eroded point of a material with an erosion model carries no pressure and no stress. -/
theorem C106_void (M : RzModel E N) (hM : M.erosion ≠ none) (vol : Fin E → ℝ) (p : RzPt E)
    (h : (rzUpdateState M vol p).eroded = true) :
    (rzUpdateState M vol p).pres = 0 ∧ (∀ i j, (rzUpdateState M vol p).stress i j = 0) ∧
    (rzUpdateState M vol p).den = 1e-32 ∧ (rzUpdateState M vol p).sspd = 1e-32 := by
  unfold rzUpdateState rzStateErosion at h ⊢
  obtain ⟨⟨t, d⟩, he⟩ := Option.ne_none_iff_exists'.1 hM
  rw [he] at h ⊢
  simp only at h ⊢
  split_ifs at h ⊢ with h1
  · refine ⟨rfl, fun _ _ => rfl, ?_, ?_⟩ <;> norm_num
  · exact absurd h h1

/-! ### Whole runs -/

/-- **C106.** The material updates of the solver touch neither the element nor the mass nor the energies
of a point, so the balances C52 to C54 hold for runs with them. -/
theorem C106_lawful (mesh : Mesh4 E N) (model : ℕ → RzModel E N)
    (disp : RzState E N → RzMat E → RzPt E → Fin 4 → Fin 2 → ℝ) :
    (rzModelClosures mesh model disp).Lawful := by
  intro st st' m p
  have h := (rzUpdateStress_kept (model m.id) st p).trans
    (rzUpdateState_kept (model m.id) (rzVol mesh st'.coords) _)
  exact ⟨h.1, h.2.1, h.2.2.1, h.2.2.2.1⟩

/-- Material number and point at position `j` of the material at position `i`. -/
def rzPointAt (st : RzState E N) (i j : ℕ) : Option (ℕ × RzPt E) :=
  (st.mats[i]?).bind fun m => (m.pts[j]?).map fun p => (m.id, p)

theorem rzAlong_true (env : RzEnv E N) (S : ℕ) (time : ℝ) (dts : List ℝ) (st : RzState E N) :
    RzAlong (fun _ => True) env S time dts st := by
  induction dts generalizing time st with
  | nil => trivial
  | cons dt dts ih => exact ⟨fun _ _ => trivial, ih _ _⟩

theorem rzPointAt_init (s : RzState E N) (i j : ℕ) :
    rzPointAt (rzInit s) i j
      = (rzPointAt s i j).map fun x => (x.1, { x.2 with sieN0 := x.2.sie, stressN0 := x.2.stress }) := by
  unfold rzPointAt rzInit
  simp only [List.getElem?_map]
  cases s.mats[i]? with
  | none => rfl
  | some m =>
    simp only [Option.map_some, Option.bind_some, List.getElem?_map, Option.map_map]
    rfl

/-- What one stage does to the point at a position. -/
theorem rzPointAt_stage (env : RzEnv E N) (model : ℕ → RzModel E N)
    (disp : RzState E N → RzMat E → RzPt E → Fin 4 → Fin 2 → ℝ)
    (hC : env.closures = rzModelClosures env.mesh model disp) (time alpha dt : ℝ) (s : RzState E N)
    (i j id : ℕ) (p : RzPt E) (h : rzPointAt s i j = some (id, p)) :
    ∃ sie cf, rzPointAt (rzStage env time alpha dt s) i j = some (id, rzUpdateState (model id)
        (rzVol env.mesh (rzStage env time alpha dt s).coords)
        (rzUpdateStress (model id) s { p with sie := sie, cornerForce := cf })) := by
  unfold rzPointAt at h
  obtain ⟨m, hm, h⟩ := Option.bind_eq_some_iff.1 h
  obtain ⟨q, hq, h⟩ := Option.map_eq_some_iff.1 h
  obtain ⟨rfl, rfl⟩ := Prod.mk.inj h
  refine ⟨(rzUpdateEnergy env.mesh alpha dt s.coords (rzStage env time alpha dt s).vel s.velN0
    (rzWithForce env.mesh env.closures s m q)).sie, (rzWithForce env.mesh env.closures s m q).cornerForce,
    ?_⟩
  unfold rzPointAt rzStage rzStagePre
  simp only [List.getElem?_map, hm, Option.map_some, Option.bind_some, hq, hC, rzModelClosures,
    rzWithForce, rzUpdateEnergy]

/-- An invariant of the point at a position: kept by the start of a cycle, and by the updates of a stage
for whatever energy, force, volumes and state they meet. -/
theorem rzPointAt_run (env : RzEnv E N) (model : ℕ → RzModel E N)
    (disp : RzState E N → RzMat E → RzPt E → Fin 4 → Fin 2 → ℝ)
    (hC : env.closures = rzModelClosures env.mesh model disp) (S : ℕ) (hS : 0 < S) (time : ℝ)
    (dts : List ℝ) (st : RzState E N) (i j id : ℕ) (I : RzPt E → Prop)
    (h0 : ∀ p, I p → I { p with sieN0 := p.sie, stressN0 := p.stress })
    (h1 : ∀ p, I p → ∀ sie cf vol s, I (rzUpdateState (model id) vol
      (rzUpdateStress (model id) s { p with sie := sie, cornerForce := cf })))
    (hst : ∃ p, rzPointAt st i j = some (id, p) ∧ I p) :
    ∃ p, rzPointAt (rzRun env S time dts st) i j = some (id, p) ∧ I p := by
  refine rzRun_induct env S hS (fun _ => True) (fun s => ∃ p, rzPointAt s i j = some (id, p) ∧ I p)
    (fun _ s => ∃ p, rzPointAt s i j = some (id, p) ∧ I p) ?_ ?_ ?_ time dts st hst
    (rzAlong_true env S time dts st)
  · rintro s ⟨p, hp, hI⟩ _
    exact ⟨_, by rw [rzPointAt_init, hp]; rfl, h0 p hI⟩
  all_goals
    rintro s0 time alpha dt s ⟨p, hp, hI⟩ _ _
    obtain ⟨sie, cf, h⟩ := rzPointAt_stage env model disp hC time alpha dt s i j id p hp
    exact ⟨_, h, h1 p hI _ _ _ _⟩

theorem rzUpdateStress_eroded (M : RzModel E N) (s : RzState E N) (p : RzPt E) :
    (rzUpdateStress M s p).eroded = p.eroded := by
  unfold rzUpdateStress
  split
  · split_ifs <;> rfl
  · rfl

/-- **C106.** In a run of any number of cycles an eroded point stays eroded, whatever the models and
the motion are. -/
theorem C106_permanent_run (env : RzEnv E N) (model : ℕ → RzModel E N)
    (disp : RzState E N → RzMat E → RzPt E → Fin 4 → Fin 2 → ℝ)
    (hC : env.closures = rzModelClosures env.mesh model disp) (S : ℕ) (hS : 0 < S) (time : ℝ)
    (dts : List ℝ) (st : RzState E N) (i j id : ℕ) (p : RzPt E)
    (hp : rzPointAt st i j = some (id, p)) (he : p.eroded = true) :
    ∃ q, rzPointAt (rzRun env S time dts st) i j = some (id, q) ∧ q.eroded = true := by
  refine rzPointAt_run env model disp hC S hS time dts st i j id (fun q => q.eroded = true)
    (fun p h => h) ?_ ⟨p, hp, he⟩
  intro p h sie cf vol s
  exact C106_permanent_step _ _ _ (by rw [rzUpdateStress_eroded]; exact h)

/-- **C106.** At the end of every run of at least one cycle the density of every uneroded point whose
strength model is not state-based fits the mesh: density times occupied volume of the moved element is
the mass the point had at the start. -/
theorem C106_density_run (env : RzEnv E N) (model : ℕ → RzModel E N)
    (disp : RzState E N → RzMat E → RzPt E → Fin 4 → Fin 2 → ℝ)
    (hC : env.closures = rzModelClosures env.mesh model disp) (S : ℕ) (hS : 0 < S) (time : ℝ)
    (dts : List ℝ) (hdts : dts ≠ []) (st : RzState E N) (i j id : ℕ) (p : RzPt E)
    (hM : (model id).NotStateBased) (hp : rzPointAt st i j = some (id, p))
    (hv : rzOccupied (rzVol env.mesh (rzRun env S time dts st).coords) p ≠ 0) :
    ∃ q, rzPointAt (rzRun env S time dts st) i j = some (id, q) ∧
      (q.eroded = false →
        q.den * rzOccupied (rzVol env.mesh (rzRun env S time dts st).coords) p = p.mass) := by
  obtain ⟨dt, dts, rfl⟩ := List.exists_cons_of_ne_nil hdts
  -- positions keep what identifies a point; after a stage the density fits
  let K : RzPt E → Prop := fun q => q.elem = p.elem ∧ q.mass = p.mass ∧ q.volfrac = p.volfrac ∧
    q.geoVolfrac = p.geoVolfrac
  let F : RzState E N → Prop := fun s => ∃ q, rzPointAt s i j = some (id, q) ∧ K q ∧
    (rzOccupied (rzVol env.mesh s.coords) p ≠ 0 → q.eroded = false →
      q.den * rzOccupied (rzVol env.mesh s.coords) p = p.mass)
  have hstage : ∀ time alpha dt s, (∃ q, rzPointAt s i j = some (id, q) ∧ K q) →
      F (rzStage env time alpha dt s) := by
    rintro time alpha dt s ⟨q, hq, hK⟩
    obtain ⟨sie, cf, h⟩ := rzPointAt_stage env model disp hC time alpha dt s i j id q hq
    obtain ⟨k1, k2, k3, k4⟩ := hK
    have hk1 := rzUpdateStress_kept (model id) s { q with sie := sie, cornerForce := cf }
    have hk2 := rzUpdateState_kept (model id) (rzVol env.mesh (rzStage env time alpha dt s).coords)
      (rzUpdateStress (model id) s { q with sie := sie, cornerForce := cf })
    have hk := hk1.trans hk2
    have e1 := hk.1.trans k1
    have e2 := hk.2.1.trans k2
    have e3 := hk.2.2.2.2.1.trans k3
    have e4 := hk.2.2.2.2.2.1.trans k4
    refine ⟨_, h, ⟨e1, e2, e3, e4⟩, fun hv he => ?_⟩
    have hocc : rzOccupied (rzVol env.mesh (rzStage env time alpha dt s).coords)
        (rzUpdateStress (model id) s { q with sie := sie, cornerForce := cf })
        = rzOccupied (rzVol env.mesh (rzStage env time alpha dt s).coords) p := by
      unfold rzOccupied
      rw [hk1.1.trans k1, hk1.2.2.2.2.1.trans k3, hk1.2.2.2.2.2.1.trans k4]
    have := C106_density (model id) hM (rzVol env.mesh (rzStage env time alpha dt s).coords)
      (rzUpdateStress (model id) s { q with sie := sie, cornerForce := cf }) (by rw [hocc]; exact hv) he
    rw [hocc, hk1.2.1.trans k2] at this
    exact this
  have hinit : ∀ s : RzState E N, (∃ q, rzPointAt s i j = some (id, q) ∧ K q) →
      ∃ q, rzPointAt (rzInit s) i j = some (id, q) ∧ K q := by
    rintro s ⟨q, hq, hK⟩
    exact ⟨{ q with sieN0 := q.sie, stressN0 := q.stress }, by rw [rzPointAt_init, hq]; rfl, hK⟩
  have hweak : ∀ s, F s → ∃ q, rzPointAt s i j = some (id, q) ∧ K q :=
    fun s ⟨q, h1, h2, _⟩ => ⟨q, h1, h2⟩
  have hcycle : ∀ time dt s, (∃ q, rzPointAt s i j = some (id, q) ∧ K q) →
      F (rzCycle env S time dt s) := by
    intro time dt s hs
    have hk : ∀ k, ∃ q, rzPointAt (rzPartial env S time dt s k) i j = some (id, q) ∧ K q := by
      intro k
      induction k with
      | zero => exact hinit s hs
      | succ k ih => rw [rzPartial_succ]; exact hweak _ (hstage _ _ _ _ ih)
    obtain ⟨S', rfl⟩ : ∃ S', S = S' + 1 := ⟨S - 1, by omega⟩
    have : rzCycle env (S' + 1) time dt s = rzPartial env (S' + 1) time dt s (S' + 1) := rfl
    rw [this, rzPartial_succ]
    exact hstage _ _ _ _ (hk S')
  have hrun : ∀ (dts : List ℝ) time s, F s → F (rzRun env S time dts s) := by
    intro dts
    induction dts with
    | nil => intro time s h; exact h
    | cons dt dts ih => intro time s h; exact ih _ _ (hcycle _ _ _ (hweak s h))
  obtain ⟨q, h1, _, h3⟩ := hrun dts (time + dt) _ (hcycle time dt st ⟨p, hp, rfl, rfl, rfl, rfl⟩)
  exact ⟨q, h1, h3 hv⟩

/-- **C106 (strength models on the host).** An increment-based strength model that is set to run on the
host is never called: over a run of any length the stress of its material stays what it was at the
start, whatever the model is and however the mesh deforms. -/
theorem C106_host_strength_fails (env : RzEnv E N) (model : ℕ → RzModel E N)
    (disp : RzState E N → RzMat E → RzPt E → Fin 4 → Fin 2 → ℝ)
    (hC : env.closures = rzModelClosures env.mesh model disp) (S : ℕ) (hS : 0 < S) (time : ℝ)
    (dts : List ℝ) (st : RzState E N) (i j id : ℕ) (p : RzPt E)
    (f : RzState E N → RzPt E → StrengthResult) (hM : (model id).strength = .incrementBased true f)
    (he : (model id).erosion = none) (hp : rzPointAt st i j = some (id, p)) :
    ∃ q, rzPointAt (rzRun env S time dts st) i j = some (id, q) ∧ q.stress = p.stress := by
  refine rzPointAt_run env model disp hC S hS time dts st i j id (fun q => q.stress = p.stress)
    (fun p h => h) ?_ ⟨p, hp, rfl⟩
  intro q h sie cf vol s
  rw [← h]
  have h1 : rzUpdateStress (model id) s { q with sie := sie, cornerForce := cf }
      = { q with sie := sie, cornerForce := cf } := by
    unfold rzUpdateStress; rw [hM]; rfl
  rw [h1]
  unfold rzUpdateState rzStateErosion
  rw [he, rzStateStrength_skip _ (fun g hg => by rw [hM] at hg; cases hg)]
  unfold rzStateEos
  simp only
  split_ifs <;> rfl

/-- **C106.** On the device the model is called in every stage and what it stores for the stress is the
stress at the end of the stage (for points that do not erode). -/
theorem C106_device_strength (env : RzEnv E N) (model : ℕ → RzModel E N)
    (disp : RzState E N → RzMat E → RzPt E → Fin 4 → Fin 2 → ℝ)
    (hC : env.closures = rzModelClosures env.mesh model disp) (time alpha dt : ℝ) (s : RzState E N)
    (i j id : ℕ) (p : RzPt E) (f : RzState E N → RzPt E → StrengthResult)
    (hM : (model id).strength = .incrementBased false f) (hp : rzPointAt s i j = some (id, p)) :
    ∃ q sie cf, rzPointAt (rzStage env time alpha dt s) i j = some (id, q) ∧
      (q.eroded = false → q.stress = (f s { p with sie := sie, cornerForce := cf }).1) := by
  obtain ⟨sie, cf, h⟩ := rzPointAt_stage env model disp hC time alpha dt s i j id p hp
  refine ⟨_, sie, cf, h, fun he => ?_⟩
  unfold rzUpdateState at he ⊢
  rw [(rzStateErosion_intact _ _ he).2.2.2,
    rzStateStrength_skip _ (fun g hg => by rw [hM] at hg; cases hg)]
  have h1 : rzUpdateStress (model id) s { p with sie := sie, cornerForce := cf }
      = RzPt.store { p with sie := sie, cornerForce := cf }
        (f s { p with sie := sie, cornerForce := cf }) := by
    unfold rzUpdateStress; rw [hM]; rfl
  rw [h1]
  unfold rzStateEos
  simp only
  split_ifs <;> rfl

/-- A gamma-law gas with an erosion model. -/
noncomputable def rzGas : RzModel 1 4 where
  decoupled := true
  pressure p := gammaPressure (5 / 3) p.den p.sie
  soundSpeed p := gammaSspd (5 / 3) 0 p.sie
  strength := .none
  erosion := some (-1, 1 / 1000)

noncomputable def rzGasEnv : RzEnv 1 4 :=
  { rzDemoEnv with closures := rzModelClosures oneQuad (fun _ => rzGas) fun _ _ _ _ _ => 0 }

example : RzModel.NotStateBased rzGas := by intro f h; cases h

/-- The hypotheses of the theorems on runs for one quadrilateral of gas. -/
example : rzGasEnv.closures = rzModelClosures rzGasEnv.mesh (fun _ => rzGas) (fun _ _ _ _ _ => 0) ∧
    rzPointAt (rzDemoState [⟨0, true, [rzDemoPt true 1]⟩]) 0 0 = some (0, rzDemoPt true 1) ∧
    (rzDemoPt true 1).eroded = true ∧ rzOccupied (fun _ => 1) (rzDemoPt true 1) ≠ 0 := by
  refine ⟨rfl, rfl, rfl, ?_⟩
  unfold rzOccupied rzDemoPt; norm_num

/-- A point of gas under pressure does not erode; in tension it does. -/
example : (rzUpdateState rzGas (fun _ => 1) { rzDemoPt false 1 with sie := 3 }).eroded = false := by
  by_contra h
  rw [Bool.not_eq_false] at h
  rw [C106_erodes_iff rzGas (by intro f h; cases h) rfl (gammaPressure (5 / 3)) (fun _ => rfl) _ _ rfl] at h
  obtain ⟨t, d, h1, h2⟩ := h
  simp only [rzGas, Option.some.injEq, Prod.mk.injEq] at h1
  obtain ⟨rfl, rfl⟩ := h1
  norm_num [rzOccupied, rzDemoPt, gammaPressure] at h2

/-! ## C107 -/

/-- A 3D element with the length of an r-z element: its nodes are spread on a line. -/
noncomputable def liftElem (e : RzCflElem) : CflElem where
  coords n i := if i = 0 then n * rzDistMin e.coords else 0
  sspd := e.sspd
  eroded := e.eroded

theorem rzDistMin_nonneg (x : ℕ → Fin 2 → ℝ) : 0 ≤ rzDistMin x := by
  obtain ⟨i, j, _, _, h⟩ := (C55_dist_min x).2
  rw [h]; exact Real.sqrt_nonneg _

theorem liftElem_dist (e : RzCflElem) (a b : ℕ) :
    euclid ((liftElem e).coords a) ((liftElem e).coords b) = |(a : ℝ) - b| * rzDistMin e.coords := by
  unfold euclid liftElem
  rw [Fin.sum_univ_three]
  have h : ((a : ℝ) * rzDistMin e.coords - b * rzDistMin e.coords) ^ 2
      = (|(a : ℝ) - b| * rzDistMin e.coords) ^ 2 := by rw [mul_pow, sq_abs]; ring
  simp only [if_true, Fin.isValue, one_ne_zero, if_false, sub_zero]
  rw [h]
  simp [Real.sqrt_sq (mul_nonneg (abs_nonneg ((a : ℝ) - b)) (rzDistMin_nonneg e.coords))]

theorem liftElem_distMin (e : RzCflElem) : distMin (liftElem e).coords = rzDistMin e.coords := by
  apply le_antisymm
  · have h := C14_length_le (liftElem e).coords 0 1 (by norm_num) (by norm_num) (by norm_num)
    rw [liftElem_dist] at h
    norm_num at h
    exact h
  · obtain ⟨a, b, hab, h⟩ : ∃ a b : ℕ, a ≠ b ∧
        distMin (liftElem e).coords = euclid ((liftElem e).coords a) ((liftElem e).coords b) := by
      obtain ⟨a, b, h1, h2, h3⟩ := C14_length_attained (liftElem e).coords
      exact ⟨a, b, by omega, h3⟩
    rw [h, liftElem_dist]
    have h1 : (1 : ℝ) ≤ |(a : ℝ) - b| := by
      have : (1 : ℤ) ≤ |(a : ℤ) - b| := Int.one_le_abs (by omega)
      exact_mod_cast this
    nlinarith [rzDistMin_nonneg e.coords]

theorem rzElemDt_lift (o : ClockOpts) (e : RzCflElem) : rzElemDt o e = elemDt o (liftElem e) := by
  unfold rzElemDt elemDt
  rw [liftElem_distMin]
  rfl

theorem rzReduceMin_lift (o : ClockOpts) (es : List RzCflElem) :
    rzReduceMin o es = reduceMin o (es.map liftElem) := by
  induction es with
  | nil => rfl
  | cons e es ih =>
    simp only [rzReduceMin, List.map_cons, reduceMin, ih, rzElemDt_lift]
    cases reduceMin o (es.map liftElem) <;> rfl

theorem rzGetTimestep_lift (o : ClockOpts) (es : List RzCflElem) (t g dt : ℝ) :
    rzGetTimestep o es t g dt = getTimestep o (es.map liftElem) t g dt := by
  unfold rzGetTimestep getTimestep
  rw [rzReduceMin_lift]
  cases reduceMin o (es.map liftElem) <;> rfl

/-- The data of a cycle with every element lifted. -/
noncomputable def liftMats (mats : List (List RzCflElem)) : List (List CflElem) :=
  mats.map fun es => es.map liftElem

theorem rzCycleDt_lift (o : ClockOpts) (mats : List (List RzCflElem)) (t g dt : ℝ) :
    rzCycleDt o mats t g dt = cycleDt o (liftMats mats) t g dt := by
  unfold rzCycleDt cycleDt liftMats
  rw [List.foldl_map]
  simp only [rzGetTimestep_lift]

theorem rzClockCycle_lift (o : ClockOpts) (mats : List (List RzCflElem)) (c : ℕ) (s : Clock) :
    rzClockCycle o mats c s = clockCycle o (liftMats mats) c s := by
  unfold rzClockCycle clockCycle
  simp only [rzCycleDt_lift]

theorem rzClockLoop_lift (o : ClockOpts) (hist : ℕ → List (List RzCflElem)) (n c : ℕ) (s : Clock) :
    rzClockLoop o hist n c s = clockLoop o (fun c => liftMats (hist c)) n c s := by
  induction n generalizing c s with
  | zero => rfl
  | succ n ih => simp only [rzClockLoop, clockLoop, ih, rzClockCycle_lift]

theorem rzExecute_lift (o : ClockOpts) (hist : ℕ → List (List RzCflElem)) :
    rzExecute o hist = execute o fun c => liftMats (hist c) := by
  unfold rzExecute execute
  simp only [rzClockLoop_lift]

theorem liftMats_ne (mats : List (List RzCflElem)) (h : mats ≠ []) : liftMats mats ≠ [] := by
  unfold liftMats; simpa using h

/-- **C107.** Bounds of the step of a cycle: it grows by at most 10 percent, is at most the user's
maximum and passes neither the final time nor the next graphics time by more than the tolerances. -/
theorem C107_bounds (o : ClockOpts) (mats : List (List RzCflElem)) (hm : mats ≠ []) (t g dt : ℝ) :
    rzCycleDt o mats t g dt ≤ 1.1 * dt ∧ rzCycleDt o mats t g dt ≤ o.dtMax ∧
    t + rzCycleDt o mats t g dt ≤ o.timeFinal + o.tiny ∧
    t + rzCycleDt o mats t g dt ≤ max (t + o.fuzz) g + o.tiny := by
  rw [rzCycleDt_lift]
  exact ⟨C13_growth o _ (liftMats_ne _ hm) t g dt, C13_max o _ t g dt,
    C13_final o _ (liftMats_ne _ hm) t g dt, C13_graphics o _ (liftMats_ne _ hm) t g dt⟩

/-- **C107.** CFL: during the step a signal at the sound speed of an element crosses at most the
fraction `dt_cfl` of the distance of any two of its four nodes, unless the user's minimum step forces
it. -/
theorem C107_cfl (o : ClockOpts) (mats : List (List RzCflElem)) (t g dt : ℝ)
    (hf : 0 < o.fuzz) (hc : 0 ≤ o.dtCfl) (es : List RzCflElem) (hes : es ∈ mats) (e : RzCflElem)
    (he : e ∈ es) (hero : e.eroded = false) (hs : 0 ≤ e.sspd) (a b : ℕ) (hab : a < b) (hb : b < 4) :
    rzCycleDt o mats t g dt * (e.sspd + o.fuzz) ≤
      o.dtCfl * Real.sqrt ((e.coords a 0 - e.coords b 0) ^ 2 + (e.coords a 1 - e.coords b 1) ^ 2) ∨
    rzCycleDt o mats t g dt ≤ o.dtMin := by
  rw [rzCycleDt_lift]
  rcases C13_cfl o (liftMats mats) t g dt hf hc (es.map liftElem) (List.mem_map_of_mem hes) (liftElem e)
    (List.mem_map_of_mem he) hero hs 1 0 (by norm_num) (by norm_num) (by norm_num) with h | h
  · left
    rw [liftElem_dist] at h
    norm_num at h
    exact h.trans (mul_le_mul_of_nonneg_left ((C55_dist_min e.coords).1 a b hab hb) hc)
  · exact Or.inr h

/-- **C107.** The step is positive before the final time, and not smaller than the limits require. -/
theorem C107_positive (o : ClockOpts) (ho : o.Sane) (mats : List (List RzCflElem)) (t g dt : ℝ)
    (hdt : 0 < dt) (ht : t < o.timeFinal) :
    0 < rzCycleDt o mats t g dt ∧
    min (min (1.1 * dt) o.dtMin)
      (min (max o.fuzz (g - t) + o.tiny) (o.timeFinal - t + o.tiny)) ≤ rzCycleDt o mats t g dt := by
  rw [rzCycleDt_lift]
  exact ⟨C13_positive o ho _ t g dt hdt ht, C13_not_too_small o _ t g dt ho.dtMax⟩

/-- **C107.** Eroded elements do not limit the step: a cycle whose elements are all eroded takes the
largest step the other limits allow. -/
theorem C107_eroded_free (o : ClockOpts) (es : List RzCflElem) (hne : es ≠ [])
    (h : ∀ e ∈ es, e.eroded = true) (hmax : o.dtMax ≤ 1.0e32) (hmin : o.dtMin ≤ o.dtMax) (t g dt : ℝ) :
    rzCycleDt o [es] t g dt = min (min (min (min (1.1 * dt) o.dtMax) (max o.fuzz (g - t) + o.tiny))
      (o.timeFinal - t + o.tiny)) o.dtMax := by
  have hr : rzReduceMin o es = some o.dtMax := by
    have key : ∀ e ∈ es, rzElemDt o e = o.dtMax := by
      intro e he
      simp only [rzElemDt, h e he, if_true]
      rw [min_eq_right hmax, max_eq_left hmin]
    clear h
    induction es with
    | nil => exact absurd rfl hne
    | cons e es ih =>
      simp only [rzReduceMin, key e (by simp)]
      cases es with
      | nil => rfl
      | cons e' es' =>
        rw [ih (by simp) fun x hx => key x (List.mem_cons_of_mem _ hx)]
        simp
  simp only [rzCycleDt, List.foldl_cons, List.foldl_nil, rzGetTimestep, hr]
  rw [mul_comm dt]
  congr 3
  split_ifs with h1
  · rw [min_eq_right h1.le]
  · rw [min_eq_left (not_lt.1 h1)]

/-- Specification: the clock after `k` cycles if the loop were never left. -/
noncomputable def rzClockAt (o : ClockOpts) (hist : ℕ → List (List RzCflElem)) : ℕ → Clock
  | 0 => clockInit o
  | k + 1 => rzClockCycle o (hist k) k (rzClockAt o hist k)

theorem rzClockAt_lift (o : ClockOpts) (hist : ℕ → List (List RzCflElem)) (k : ℕ) :
    rzClockAt o hist k = clockAt o (fun c => liftMats (hist c)) k := by
  induction k with
  | zero => rfl
  | succ k ih => rw [rzClockAt, clockAt, rzClockCycle_lift, ih]

/-- **C107.** The execution performs at most `cycle_stop` cycles, ends because they are done or because
the final time is reached, and does not go on after the final time. -/
theorem C107_terminates (o : ClockOpts) (hist : ℕ → List (List RzCflElem)) (s : Clock) (n : ℕ)
    (h : rzExecute o hist = some (s, n)) :
    n ≤ o.cycleStop ∧ s = rzClockAt o hist n ∧ (n = o.cycleStop ∨ o.timeFinal ≤ s.time) ∧
    ∀ j, 0 < j → j < n → (rzClockAt o hist j).time < o.timeFinal := by
  rw [rzExecute_lift] at h
  simp only [rzClockAt_lift]
  exact C15_terminates o _ s n h

/-- **C107.** The loop control is undefined exactly for a zero dump interval in cycles. -/
theorem C107_defined_iff (o : ClockOpts) (hist : ℕ → List (List RzCflElem)) :
    (∃ r, rzExecute o hist = some r) ↔ (o.cycIval ≠ 0 ∨ o.cycleStop = 0) := by
  rw [rzExecute_lift]; exact C15_defined_iff o _

/-- **C107.** Time increases in every cycle by at least a fixed positive amount; with enough cycles the
run reaches the final time, and it stops there up to the tolerance. -/
theorem C107_progress (o : ClockOpts) (ho : o.Sane) (hist : ℕ → List (List RzCflElem))
    (hm : ∀ c, hist c ≠ []) (hs : o.timeStart < o.timeFinal) (s : Clock) (n : ℕ)
    (h : rzExecute o hist = some (s, n)) :
    (∀ j < n, (rzClockAt o hist j).time + min o.dtStart (min o.dtMin o.tiny)
      ≤ (rzClockAt o hist (j + 1)).time) ∧
    s.time ≤ o.timeFinal + o.tiny ∧
    (o.timeFinal - o.timeStart ≤ o.cycleStop * min o.dtStart (min o.dtMin o.tiny) →
      o.timeFinal ≤ s.time) := by
  rw [rzExecute_lift] at h
  simp only [rzClockAt_lift]
  exact ⟨fun j hj => C15_time_increases o ho _ hs s n h j hj,
    C15_stops_at_final o _ (fun c => liftMats_ne _ (hm c)) hs ho.tiny.le s n h,
    fun hc => C15_reaches_final o ho _ hs s n h hc⟩

/-- **C107.** No cycle dumps twice, each dump carries the time of its cycle, and a run that reaches the
final time dumps its last state. -/
theorem C107_dumps (o : ClockOpts) (hist : ℕ → List (List RzCflElem)) (s : Clock) (n : ℕ)
    (h : rzExecute o hist = some (s, n)) :
    (s.log.map Prod.fst).Nodup ∧
    (∀ p ∈ s.log, p.1 < n ∧ p.2 = (rzClockAt o hist (p.1 + 1)).time) ∧
    (0 < n → o.timeFinal ≤ s.time → (n - 1, s.time) ∈ s.log) := by
  rw [rzExecute_lift] at h
  simp only [rzClockAt_lift]
  exact ⟨(C15_dump_once o _ s n h).1, (C15_dump_once o _ s n h).2,
    fun hn hf => C15_final_state_dumped o _ s n h hn hf⟩

/-- **C107.** For a run from time zero that does not dump by cycle count every requested dump time that
is passed has a dump within the tolerances. -/
theorem C107_requested_dumps (o : ClockOpts) (ho : o.Sane) (h0 : o.timeStart = 0)
    (hf : 0 < o.timeFinal) (hiv : o.fuzz + o.tiny < o.ival) (hcy : o.cycleStop < o.cycIval)
    (hist : ℕ → List (List RzCflElem)) (hm : ∀ c, hist c ≠ []) (s : Clock) (n : ℕ)
    (h : rzExecute o hist = some (s, n)) (k : ℕ) (hk : 1 ≤ k) (hks : k * o.ival ≤ s.time) :
    ∃ p ∈ s.log, k * o.ival ≤ p.2 ∧ p.2 ≤ k * o.ival + o.fuzz + o.tiny := by
  rw [rzExecute_lift] at h
  exact C40_dumps_at_requested_times o ho h0 hf hiv hcy _ (fun c => liftMats_ne _ (hm c)) s n h k hk hks

/-- **C107.** A cycle that dumps takes the step it had before it was cut for the dump into the next
cycle; any other cycle passes its own step on. -/
theorem C107_step_restored (o : ClockOpts) (mats : List (List RzCflElem)) (c : ℕ) (s : Clock) :
    ((rzClockCycle o mats c s).outputId = s.outputId + 1 ∧ (rzClockCycle o mats c s).dt = s.dt ∧
        (rzClockCycle o mats c s).log = (c, (rzClockCycle o mats c s).time) :: s.log) ∨
    ((rzClockCycle o mats c s).outputId = s.outputId ∧ (rzClockCycle o mats c s).log = s.log ∧
        (rzClockCycle o mats c s).gtime = s.gtime ∧
        (rzClockCycle o mats c s).time = s.time + (rzClockCycle o mats c s).dt) := by
  unfold rzClockCycle
  simp only
  split_ifs
  · exact Or.inl ⟨rfl, rfl, rfl⟩
  · exact Or.inr ⟨rfl, rfl, rfl, rfl⟩

/-- A unit square with sound speed 2. -/
noncomputable def rzDemoElem : RzCflElem where
  coords n := if n = 0 then ![0, 0] else if n = 1 then ![1, 0] else if n = 2 then ![1, 1] else ![0, 1]
  sspd := 2
  eroded := false

example : rzCycleDt (defaultClock 1) [[rzDemoElem]] 0 0.1 1e-5 * (2 + 1e-16)
      ≤ 0.4 * Real.sqrt ((rzDemoElem.coords 0 0 - rzDemoElem.coords 1 0) ^ 2
        + (rzDemoElem.coords 0 1 - rzDemoElem.coords 1 1) ^ 2) ∨
    rzCycleDt (defaultClock 1) [[rzDemoElem]] 0 0.1 1e-5 ≤ 1e-8 :=
  C107_cfl (defaultClock 1) [[rzDemoElem]] 0 0.1 1e-5 (defaultClock_sane 1).fuzz
    (defaultClock_sane 1).cfl [rzDemoElem] (by simp) rzDemoElem (by simp) rfl (by norm_num [rzDemoElem])
    0 1 (by norm_num) (by norm_num)

/-- The hypotheses of the theorems on executions for a default run. -/
example : (defaultClock 1).Sane ∧ (defaultClock 1).timeStart < (defaultClock 1).timeFinal ∧
    (defaultClock 1).fuzz + (defaultClock 1).tiny < (defaultClock 1).ival ∧
    ∃ r, rzExecute (defaultClock 1) (fun _ => [[rzDemoElem]]) = some r := by
  refine ⟨defaultClock_sane 1, by norm_num [defaultClock], by norm_num [defaultClock], ?_⟩
  rw [C107_defined_iff]; left; norm_num [defaultClock]

end Fierro
