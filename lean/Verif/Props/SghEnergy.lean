import Verif.Props.Sgh

/-!
# C11: energy balance of the compatible discretisation
-/

set_option linter.unusedSectionVars false

namespace Fierro

variable {K : Type} [Field K] {E N : ℕ}

/-- Sum over all material points of all materials. -/
def sumPts (mats : List (Mat K E)) (f : MatPt K E → K) : K :=
  (mats.map fun m => (m.pts.map f).sum).sum

/-- Internal energy tallied with the mass the energy update divides by (`m + 1e-20`). -/
def internalEnergyFuzz (mats : List (Mat K E)) : K :=
  sumPts mats fun p => (p.mass + energyFuzz) * p.sie

/-- Kinetic plus internal energy, the internal energy weighted with `m + 1e-20`. -/
def totalEnergy (mass : Fin N → K) (st : SghState K E N) : K :=
  kineticEnergy mass st.vel + internalEnergyFuzz st.mats

/-- The energy at the start of the step, as saved by `rk_init`. -/
def totalEnergyN0 (mass : Fin N → K) (st : SghState K E N) : K :=
  kineticEnergy mass st.velN0 + sumPts st.mats fun p => (p.mass + energyFuzz) * p.sieN0

/-- Work done on the nodes during a stage by the external nodal forces (specification). -/
def externalWork (env : SghEnv K E N) (time alpha dt : K) (st : SghState K E N)
    (vel : Fin N → Vel K 3) : K :=
  alpha * dt * ∑ n, ∑ d, env.ext st time n d * ((vel n d + st.velN0 n d) / 2)

/-- Work done by the velocity boundary conditions: momentum they add times mid-step velocity
(specification). -/
def wallWork (mass : Fin N → K) (velFree vel velN0 : Fin N → Vel K 3) : K :=
  ∑ n, ∑ d, mass n * (vel n d - velFree n d) * ((vel n d + velN0 n d) / 2)

theorem sumPts_map_pts (mats : List (Mat K E)) (g : Mat K E → MatPt K E → MatPt K E)
    (f : MatPt K E → K) :
    sumPts (mats.map fun m => { m with pts := m.pts.map (g m) }) f
      = (mats.map fun m => (m.pts.map fun p => f (g m p)).sum).sum := by
  simp [sumPts, Function.comp_def]

theorem listSum_congr2 (mats : List (Mat K E)) (f g : Mat K E → MatPt K E → K)
    (h : ∀ m ∈ mats, ∀ p ∈ m.pts, f m p = g m p) :
    (mats.map fun m => (m.pts.map (f m)).sum).sum = (mats.map fun m => (m.pts.map (g m)).sum).sum := by
  congr 1
  apply List.map_congr_left
  intro m hm
  congr 1
  apply List.map_congr_left
  intro p hp
  exact h m hm p hp

/-- Every material point has a usable mass. -/
def MassOK (mats : List (Mat K E)) : Prop := ∀ m ∈ mats, ∀ p ∈ m.pts, p.mass + energyFuzz ≠ 0

/-- A point with the corner force computed for it. -/
def withForce (env : SghEnv K E N) (st : SghState K E N) (m : Mat K E) (p : MatPt K E) :
    MatPt K E :=
  { p with
    cornerForce := matCornerForce env.mesh st.coords m.decoupledEOS (env.closures.disp st m p) p }

/-- The internal energy after a stage. -/
theorem stage_internal (env : SghEnv K E N) (hlaw : env.closures.Lawful)
    (time alpha dt : K) (st : SghState K E N) (hmass : MassOK st.mats)
    (hcons : ErosionConsistent st.mats) :
    internalEnergyFuzz (sghStage env time alpha dt st).mats
      = sumPts st.mats (fun p => (p.mass + energyFuzz) * p.sieN0)
        - alpha * dt * ∑ c : Fin E × Fin 8, ∑ d, cornerForces env.mesh env.closures st c d *
            (((sghStage env time alpha dt st).vel (env.mesh.nodesInElem c.1 c.2) d
              + st.velN0 (env.mesh.nodesInElem c.1 c.2) d) * (1 / 2)) := by
  set vel := (sghStage env time alpha dt st).vel with hvel
  have hmats : internalEnergyFuzz (sghStage env time alpha dt st).mats
      = (st.mats.map fun m => (m.pts.map fun p => (p.mass + energyFuzz) *
          (updateEnergy env.mesh alpha dt vel st.velN0 (withForce env st m p)).sie).sum).sum := by
    simp only [internalEnergyFuzz, sghStage, saveMatForces]
    rw [sumPts_map_pts]
    simp only [List.map_map, Function.comp_def]
    apply listSum_congr2
    intro m _ p _
    rw [(hlaw _ _ _ _).2.1, (hlaw _ _ _ _).2.2.1]
    rfl
  rw [hmats]
  have h1 : (st.mats.map fun m => (m.pts.map fun p => (p.mass + energyFuzz) *
          (updateEnergy env.mesh alpha dt vel st.velN0 (withForce env st m p)).sie).sum).sum
      = (st.mats.map fun m => (m.pts.map fun p => ((p.mass + energyFuzz) * p.sieN0
          + (-(alpha * dt)) * ∑ c : Fin E × Fin 8, ∑ d, (if c.1 = p.elem then matCornerForce env.mesh
              st.coords m.decoupledEOS (env.closures.disp st m p) p c.2 d else 0) *
            ((vel (env.mesh.nodesInElem c.1 c.2) d
              + st.velN0 (env.mesh.nodesInElem c.1 c.2) d) * (1 / 2)))).sum).sum := by
    apply listSum_congr2
    intro m hm p hp
    have hne := hmass m hm p hp
    simp only [updateEnergy, withForce]
    rw [pointPower_eq]
    have hsum : ∑ c : Fin E × Fin 8, ∑ d, (if c.1 = p.elem then matCornerForce env.mesh
              st.coords m.decoupledEOS (env.closures.disp st m p) p c.2 d else 0) *
            ((vel (env.mesh.nodesInElem c.1 c.2) d
              + st.velN0 (env.mesh.nodesInElem c.1 c.2) d) * (1 / 2))
        = ∑ l, ∑ d, matCornerForce env.mesh
              st.coords m.decoupledEOS (env.closures.disp st m p) p l d *
            ((vel (env.mesh.nodesInElem p.elem l) d
              + st.velN0 (env.mesh.nodesInElem p.elem l) d) * (1 / 2)) := by
      rw [Fintype.sum_prod_type, Finset.sum_eq_single p.elem]
      · simp
      · intro e _ he; simp [he]
      · simp
    rw [hsum]
    simp only
    field_simp
    ring
  rw [h1]
  simp only [listSum_add, listSum_mul]
  rw [sumPts, sub_eq_add_neg]
  congr 1
  rw [neg_mul]
  congr 2
  simp only [listSum_finset]
  apply Finset.sum_congr rfl
  intro c _
  apply Finset.sum_congr rfl
  intro d _
  rw [cornerForces_sum env.mesh env.closures st hcons]
  conv_rhs => rw [mul_comm, ← listSum_mul]
  congr 1
  apply List.map_congr_left
  intro m _
  rw [← listSum_mul]
  congr 1
  apply List.map_congr_left
  intro p _
  ring

/-- **C11.** Energy balance of one Runge-Kutta stage: the change of kinetic plus internal energy
from the start of the step is exactly the work of the external forces plus the work of the
velocity boundary conditions.  No assumption on stresses, equations of state, dissipation model,
step size or Runge-Kutta coefficient. -/
theorem C11_stage_balance (h2 : (2 : K) ≠ 0) (env : SghEnv K E N) (hWF : env.mesh.WF)
    (hm : ∀ n, env.mass n ≠ 0) (hlaw : env.closures.Lawful) (time alpha dt : K)
    (st : SghState K E N) (hmass : MassOK st.mats) (hcons : ErosionConsistent st.mats) :
    totalEnergy env.mass (sghStage env time alpha dt st)
      = totalEnergyN0 env.mass st
        + externalWork env time alpha dt st (sghStage env time alpha dt st).vel
        + wallWork env.mass (stageVelFree env time alpha dt st)
            (sghStage env time alpha dt st).vel st.velN0 := by
  rw [totalEnergy, stage_internal env hlaw time alpha dt st hmass hcons]
  set vel := (sghStage env time alpha dt st).vel with hvel
  -- kinetic energy change
  have hk : kineticEnergy env.mass vel = kineticEnergy env.mass st.velN0
      + wallWork env.mass (stageVelFree env time alpha dt st) vel st.velN0
      + alpha * dt * ∑ d, ∑ n, nodeForceTotal env.mesh (env.ext st time)
          (cornerForces env.mesh env.closures st) n d * ((vel n d + st.velN0 n d) * (1 / 2)) := by
    rw [Finset.sum_comm]
    simp only [kineticEnergy, wallWork, Finset.mul_sum]
    rw [← Finset.sum_add_distrib, ← Finset.sum_add_distrib]
    apply Finset.sum_congr rfl
    intro n _
    rw [← Finset.sum_add_distrib, ← Finset.sum_add_distrib]
    apply Finset.sum_congr rfl
    intro d _
    have hmn := hm n
    simp only [stageVelFree, updateVelocity]
    field_simp
    ring
  rw [hk]
  have hF : ∑ d, ∑ n, nodeForceTotal env.mesh (env.ext st time)
          (cornerForces env.mesh env.closures st) n d * ((vel n d + st.velN0 n d) * (1 / 2))
      = ∑ n, ∑ d, env.ext st time n d * ((vel n d + st.velN0 n d) / 2)
        + ∑ c : Fin E × Fin 8, ∑ d, cornerForces env.mesh env.closures st c d *
            ((vel (env.mesh.nodesInElem c.1 c.2) d
              + st.velN0 (env.mesh.nodesInElem c.1 c.2) d) * (1 / 2)) := by
    have := fun d => sum_nodeForce env.mesh hWF (env.ext st time)
      (cornerForces env.mesh env.closures st) d fun n => (vel n d + st.velN0 n d) * (1 / 2)
    simp only [this, Finset.sum_add_distrib]
    rw [Finset.sum_comm]
    congr 1
    · apply Finset.sum_congr rfl; intro n _
      apply Finset.sum_congr rfl; intro d _
      ring
    · rw [Finset.sum_comm]
  rw [hF, totalEnergyN0, externalWork]
  ring

/-- Boundary sets that only clamp components to zero do no work on nodes that were already
clamped at the start of the step. -/
theorem wallWork_clamp (mass : Fin N → K) (sets : List (VelSet (Fin N) K 3))
    (Z : Fin N → Fin 3 → Bool) (hZ : ClampSets sets Z) (time : K) (velFree velN0 : Fin N → Vel K 3)
    (h0 : ∀ n d, Z n d = true → velN0 n d = 0) :
    wallWork mass velFree (boundaryVelocity sets time velFree) velN0 = 0 := by
  apply Finset.sum_eq_zero
  intro n _
  apply Finset.sum_eq_zero
  intro d _
  rw [hZ]
  by_cases h : Z n d = true
  · simp [h, h0 n d h]
  · simp [h]

/-- An element holds at most one material point, or none of the points is eroded: in both cases
no element is partially eroded, and both are kept by the solver under the stated conditions. -/
theorem consistent_of_distinct (mats : List (Mat K E))
    (h : ((mats.flatMap fun m => m.pts).map fun p => p.elem).Nodup) : ErosionConsistent mats := by
  intro m hm p hp m' hm' p' hp' he
  have h1 : p ∈ mats.flatMap fun m => m.pts := List.mem_flatMap.2 ⟨m, hm, hp⟩
  have h2 : p' ∈ mats.flatMap fun m => m.pts := List.mem_flatMap.2 ⟨m', hm', hp'⟩
  rw [List.inj_on_of_nodup_map h h1 h2 he]

theorem consistent_of_none_eroded (mats : List (Mat K E))
    (h : ∀ m ∈ mats, ∀ p ∈ m.pts, p.eroded = false) : ErosionConsistent mats := by
  intro m hm p hp m' hm' p' hp' _
  rw [h m hm p hp, h m' hm' p' hp']

/-- A stage maps the material points one by one, keeping element, mass and saved energy. -/
theorem sghStage_mats (env : SghEnv K E N) (hlaw : env.closures.Lawful) (time alpha dt : K)
    (st : SghState K E N) :
    ∃ g : Mat K E → MatPt K E → MatPt K E,
      (∀ m p, (g m p).elem = p.elem ∧ (g m p).mass = p.mass ∧ (g m p).sieN0 = p.sieN0) ∧
      (sghStage env time alpha dt st).mats
        = st.mats.map fun m => { m with pts := m.pts.map (g m) } := by
  let st1 : SghState K E N := { sghStage env time alpha dt st with
    mats := (saveMatForces env.mesh env.closures st).map fun m =>
      { m with pts := m.pts.map (updateEnergy env.mesh alpha dt
        (sghStage env time alpha dt st).vel st.velN0) } }
  let upd : Mat K E → MatPt K E → MatPt K E := fun m p =>
    updateEnergy env.mesh alpha dt (sghStage env time alpha dt st).vel st.velN0
      (withForce env st m p)
  refine ⟨fun m p => env.closures.update st st1 { m with pts := m.pts.map (upd m) } (upd m p), ?_, ?_⟩
  · intro m p
    refine ⟨?_, ?_, ?_⟩
    · rw [(hlaw _ _ _ _).1]; rfl
    · rw [(hlaw _ _ _ _).2.1]; rfl
    · rw [(hlaw _ _ _ _).2.2.2]; rfl
  · simp only [sghStage, saveMatForces, List.map_map, Function.comp_def, upd, st1, withForce]

/-- **C11.** In a run of any number of cycles with any step sizes and any number of stages, with
walls (fixed nodes, axis-aligned symmetry planes) and without applied forces, kinetic plus internal
energy is the same at the end as at the start, when each element holds one material (it may
erode) .  The nodes on walls start at rest in the clamped directions, as the solver enforces
before the first cycle. -/
theorem C11_run_conserves (h2 : (2 : K) ≠ 0) (env : SghEnv K E N) (hWF : env.mesh.WF)
    (hm : ∀ n, env.mass n ≠ 0) (hlaw : env.closures.Lawful)
    (hext : ∀ st t n d, env.ext st t n d = 0)
    (Z : Fin N → Fin 3 → Bool) (hZ : ClampSets env.sets Z)
    (S : ℕ) (hS : 0 < S) (time : K) (dts : List K) (st : SghState K E N)
    (hmass : MassOK st.mats)
    (hone : ((st.mats.flatMap fun m => m.pts).map fun p => p.elem).Nodup)
    (hv0 : ∀ n d, Z n d = true → st.vel n d = 0) :
    totalEnergy env.mass (sghRun env S time dts st) = totalEnergy env.mass st := by
  -- invariant of the run
  let Inv : SghState K E N → Prop := fun s => MassOK s.mats ∧
    ((s.mats.flatMap fun m => m.pts).map fun p => p.elem).Nodup
  have hmapInv : ∀ (mats : List (Mat K E)) (g : Mat K E → MatPt K E → MatPt K E),
      (∀ m p, (g m p).elem = p.elem ∧ (g m p).mass = p.mass) →
      (MassOK mats ∧ ((mats.flatMap fun m => m.pts).map fun p => p.elem).Nodup) →
      MassOK (mats.map fun m => { m with pts := m.pts.map (g m) }) ∧
      (((mats.map fun m => { m with pts := m.pts.map (g m) }).flatMap fun m => m.pts).map
        fun p => p.elem).Nodup := by
    intro mats g hg h
    constructor
    · intro m hm' p hp
      rw [List.mem_map] at hm'
      obtain ⟨m0, hm0, rfl⟩ := hm'
      simp only [List.mem_map] at hp
      obtain ⟨p0, hp0, rfl⟩ := hp
      rw [(hg m0 p0).2]
      exact h.1 m0 hm0 p0 hp0
    · have : ((mats.map fun m => { m with pts := m.pts.map (g m) }).flatMap fun m => m.pts).map
          (fun p => p.elem) = (mats.flatMap fun m => m.pts).map fun p => p.elem := by
        rw [List.map_flatMap, List.map_flatMap, List.flatMap_map]
        congr 1
        funext m
        simp only [List.map_map]
        apply List.map_congr_left
        intro p _
        exact (hg m p).1
      rw [this]; exact h.2
  have key := sghRun_induct env S (fun s => (MassOK s.mats ∧
      ((s.mats.flatMap fun m => m.pts).map fun p => p.elem).Nodup) ∧
      (∀ n d, Z n d = true → s.vel n d = 0) ∧
      totalEnergy env.mass s = totalEnergy env.mass st) ?_ dts time st ⟨⟨hmass, hone⟩, hv0, rfl⟩
  · exact key.2.2
  · intro time dt st' ⟨hInv, hv, hE⟩
    rw [← hE]
    apply sghCycle_induct env S hS time dt st'
      (fun s => (MassOK s.mats ∧ ((s.mats.flatMap fun m => m.pts).map fun p => p.elem).Nodup) ∧
        (∀ n d, Z n d = true → s.velN0 n d = 0) ∧
        totalEnergyN0 env.mass s = totalEnergy env.mass st')
      (fun s => (MassOK s.mats ∧ ((s.mats.flatMap fun m => m.pts).map fun p => p.elem).Nodup) ∧
        (∀ n d, Z n d = true → s.vel n d = 0) ∧
        totalEnergy env.mass s = totalEnergy env.mass st')
    · refine ⟨hmapInv st'.mats (fun _ p => { p with sieN0 := p.sie, stressN0 := p.stress })
        (fun m p => ⟨rfl, rfl⟩) hInv, hv, ?_⟩
      simp only [totalEnergyN0, totalEnergy, internalEnergyFuzz, rkInit]
      rw [sumPts_map_pts]
      rfl
    · intro s _ s' ⟨h1, h3, h4⟩
      obtain ⟨g, hg, hgm⟩ := sghStage_mats env hlaw time (rkAlpha S s) dt s'
      refine ⟨?_, h3, ?_⟩
      · rw [hgm]; exact hmapInv s'.mats g (fun m p => ⟨(hg m p).1, (hg m p).2.1⟩) h1
      · rw [← h4, totalEnergyN0, totalEnergyN0, hgm, sumPts_map_pts, sghStage_velN0]
        congr 1
        apply listSum_congr2
        intro m _ p _
        rw [(hg m p).2.1, (hg m p).2.2]
    · intro s _ s' ⟨h1, h3, h4⟩
      obtain ⟨g, hg, hgm⟩ := sghStage_mats env hlaw time (rkAlpha S s) dt s'
      refine ⟨?_, ?_, ?_⟩
      · rw [hgm]; exact hmapInv s'.mats g (fun m p => ⟨(hg m p).1, (hg m p).2.1⟩) h1
      · intro n d hnd
        rw [sghStage_vel, hZ, if_pos hnd]
      · rw [C11_stage_balance h2 env hWF hm hlaw time _ dt s' h1.1 (consistent_of_distinct _ h1.2), h4,
          sghStage_vel, wallWork_clamp env.mass env.sets Z hZ time _ _ h3]
        simp [externalWork, hext]

/-- **C11.** The energy the solver prints (`KE + IE`, with the plain mass) differs from the
conserved one only by `1e-20` times the sum of the specific energies. -/
theorem C11_printed_energy (mass : Fin N → K) (st : SghState K E N) :
    kineticEnergy mass st.vel + internalEnergy st.mats
      = totalEnergy mass st - energyFuzz * sumPts st.mats fun p => p.sie := by
  have : internalEnergyFuzz st.mats = internalEnergy st.mats + energyFuzz * sumPts st.mats fun p => p.sie := by
    simp only [internalEnergyFuzz, internalEnergy, sumPts, add_mul, listSum_add, listSum_mul]
  rw [totalEnergy, this]; ring

/-! ### A concrete mesh: the hypotheses can be met, and what happens in partially eroded elements -/

/-- One hexahedron. -/
def oneHex : Mesh8 1 8 where
  nodesInElem := fun _ l => l
  cornersInNode := fun n => [(0, n)]

theorem oneHex_WF : oneHex.WF := by
  intro n
  refine ⟨by simp [oneHex], fun c => ?_⟩
  obtain ⟨e, l⟩ := c
  have : e = 0 := Subsingleton.elim _ _
  subst this
  simp [oneHex]

/-- Unit cube coordinates. -/
def cubeCoords (n : Fin 8) (d : Fin 3) : ℚ :=
  if (n.val / 2 ^ d.val) % 2 = 1 then 1 else 0

/-- A point with pressure 1 (or an eroded point) in the element. -/
def demoPt (er : Bool) : MatPt ℚ 1 where
  elem := 0
  mass := 1
  sie := 0
  sieN0 := 0
  den := 1
  pres := if er then 0 else 1
  sspd := 1
  volfrac := 1
  geoVolfrac := 1
  stress := fun _ _ => 0
  stressN0 := fun _ _ => 0
  eroded := er
  cornerForce := fun _ _ => 0

def demoState (mats : List (Mat ℚ 1)) : SghState ℚ 1 8 where
  coords := cubeCoords
  coordsN0 := cubeCoords
  vel := cubeCoords
  velN0 := cubeCoords
  mats := mats

def demoEnv : SghEnv ℚ 1 8 where
  mesh := oneHex
  mass := fun _ => 1
  sets := []
  ext := fun _ _ _ _ => 0
  closures := ⟨fun _ _ _ _ _ => 0, fun _ _ _ p => p⟩

theorem demo_lawful : demoEnv.closures.Lawful := fun _ _ _ _ => ⟨rfl, rfl, rfl, rfl⟩

/-- The hypotheses of `C11_run_conserves` are met by an expanding cube under pressure, whose
velocity really changes. -/
example : totalEnergy demoEnv.mass (sghRun demoEnv 2 0 [1 / 10, 1 / 10]
      (demoState [⟨0, true, [demoPt false]⟩]))
      = totalEnergy demoEnv.mass (demoState [⟨0, true, [demoPt false]⟩]) ∧
    (sghStage demoEnv 0 1 1 (demoState [⟨0, true, [demoPt false]⟩])).vel 7 0 ≠ 1 := by
  refine ⟨C11_run_conserves (by norm_num) demoEnv oneHex_WF (by simp [demoEnv]) demo_lawful
    (by simp [demoEnv]) (fun _ _ => false) (fun t v n d => by simp [demoEnv, boundaryVelocity])
    2 (by norm_num) 0 _ _ ?_ (by simp [demoState]) (by simp), by decide +kernel⟩
  intro m hm p hp
  simp [demoState] at hm
  subst hm
  simp at hp
  subst hp
  simp [demoPt, energyFuzz]
  norm_num

/-- **C11 (negative result).** In an element that holds two materials one of which is eroded, the
eroded point *assigns* zero to the corner force instead of adding nothing, so the force of the
other material never reaches the nodes although its energy is charged with the work of that
force: energy is lost. -/
theorem C11_partial_erosion_fails :
    totalEnergy demoEnv.mass (sghStage demoEnv 0 1 1
        (demoState [⟨0, true, [demoPt false]⟩, ⟨1, true, [demoPt true]⟩]))
      ≠ totalEnergyN0 demoEnv.mass
        (demoState [⟨0, true, [demoPt false]⟩, ⟨1, true, [demoPt true]⟩]) := by
  decide +kernel

/-- The order of the materials decides: with the eroded material first nothing is lost. -/
theorem C11_partial_erosion_order :
    totalEnergy demoEnv.mass (sghStage demoEnv 0 1 1
        (demoState [⟨1, true, [demoPt true]⟩, ⟨0, true, [demoPt false]⟩]))
      = totalEnergyN0 demoEnv.mass
        (demoState [⟨1, true, [demoPt true]⟩, ⟨0, true, [demoPt false]⟩]) := by
  decide +kernel

end Fierro
