import Verif.Props.SghEnergy
import Mathlib.Algebra.CharZero.Defs
import Mathlib.Tactic.NormNum

/-!
# C49: kinematics of the nodes, C50: work of the stresses, C51: uniform stress is in equilibrium
-/

set_option linter.unusedSectionVars false

namespace Fierro

variable {K : Type} [Field K] {E N : ℕ}

/-! ### C49: positions -/

/-- As `sghCycle_induct`, with the last stage singled out: its coefficient is one. -/
theorem sghCycle_last (env : SghEnv K E N) (S : ℕ) (hS : 0 < S) (time dt : K)
    (st : SghState K E N) (P : SghState K E N → Prop) (h0 : P (rkInit st))
    (hP : ∀ s, s < S → ∀ st', P st' → P (sghStage env time (rkAlpha S s) dt st')) :
    ∃ st', P st' ∧ sghCycle env S time dt st = sghStage env time 1 dt st' := by
  obtain ⟨k, rfl⟩ : ∃ k, S = k + 1 := ⟨S - 1, by omega⟩
  refine ⟨(List.range k).foldl (fun st s => sghStage env time (rkAlpha (k + 1) s) dt st) (rkInit st),
    ?_, ?_⟩
  · have hk : ∀ j, j ≤ k → P ((List.range j).foldl
        (fun st s => sghStage env time (rkAlpha (k + 1) s) dt st) (rkInit st)) := by
      intro j
      induction j with
      | zero => intro _; exact h0
      | succ j ih =>
        intro hj
        rw [List.range_succ, List.foldl_append]
        exact hP j (by omega) _ (ih (by omega))
    exact hk k le_rfl
  · rw [sghCycle]
    conv => lhs; rw [List.range_succ, List.foldl_append]
    have : (rkAlpha (k + 1) k : K) = 1 := by
      simp [rkAlpha]
    simp [this]

/-- **C49.** One cycle moves every node by the time step times the mean of its velocities before
and after the cycle, and changes the momentum of every node that no boundary set touches by the
full time step times a nodal force; this holds for any number of stages, any material and
any forces. -/
theorem C49_cycle (env : SghEnv K E N) (S : ℕ) (hS : 0 < S) (time dt : K) (st : SghState K E N)
    (n : Fin N) (d : Fin 3) :
    (sghCycle env S time dt st).coords n d
      = st.coords n d + dt * (((sghCycle env S time dt st).vel n d + st.vel n d) / 2) ∧
    ∃ st' : SghState K E N,
      (sghCycle env S time dt st).vel = boundaryVelocity env.sets time (fun n d => st.vel n d
        + dt * (env.ext st' time n d + ((env.mesh.cornersInNode n).map fun c =>
            cornerForces env.mesh env.closures st' c d).sum) / env.mass n) := by
  obtain ⟨st', ⟨hx, hv⟩, h⟩ := sghCycle_last env S hS time dt st
    (fun s => s.coordsN0 = st.coords ∧ s.velN0 = st.vel) ⟨rfl, rfl⟩ (fun _ _ _ h => h)
  rw [h]
  refine ⟨?_, st', ?_⟩
  · simp only [sghStage, updatePosition, hx, hv]
    ring
  · rw [sghStage_vel]
    congr 1
    funext n d
    simp only [stageVelFree, updateVelocity, nodeForceTotal_eq, hv, one_mul]

/-- Velocity of a node before each cycle of a run, and its displacement by the trapezoidal rule
(specification): `x + dt₁ (v₀ + v₁)/2 + dt₂ (v₁ + v₂)/2 + …`. -/
def trapezoid (x : K) : List K → List K → K
  | dt :: dts, v0 :: v1 :: vs => trapezoid (x + dt * ((v0 + v1) / 2)) dts (v1 :: vs)
  | _, _ => x

/-- Velocities of node `n` at the start of the run and after each cycle. -/
def velHistory (env : SghEnv K E N) (S : ℕ) (n : Fin N) (d : Fin 3) :
    K → List K → SghState K E N → List K
  | _, [], st => [st.vel n d]
  | time, dt :: dts, st => st.vel n d ::
      velHistory env S n d (time + dt) dts (sghCycle env S time dt st)

theorem velHistory_head (env : SghEnv K E N) (S : ℕ) (n : Fin N) (d : Fin 3) (time : K)
    (dts : List K) (st : SghState K E N) :
    ∃ vs, velHistory env S n d time dts st = st.vel n d :: vs := by
  cases dts with
  | nil => exact ⟨_, rfl⟩
  | cons dt dts => exact ⟨_, rfl⟩

/-- **C49.** After any run, with any step sizes, the position of a node is its initial position
plus the trapezoidal sum of its velocities: positions and velocities stay consistent, no drift. -/
theorem C49_run_trapezoid (env : SghEnv K E N) (S : ℕ) (hS : 0 < S) (time : K) (dts : List K)
    (st : SghState K E N) (n : Fin N) (d : Fin 3) :
    (sghRun env S time dts st).coords n d
      = trapezoid (st.coords n d) dts (velHistory env S n d time dts st) := by
  induction dts generalizing time st with
  | nil => simp [sghRun, trapezoid]
  | cons dt dts ih =>
    obtain ⟨vs, hvs⟩ := velHistory_head env S n d (time + dt) dts (sghCycle env S time dt st)
    rw [sghRun, ih, velHistory, hvs, trapezoid, ← hvs, (C49_cycle env S hS time dt st n d).1,
      add_comm ((sghCycle env S time dt st).vel n d)]

/-- **C49.** A node clamped in direction `d` (fixed wall or axis-aligned symmetry plane) that
starts at rest in that direction keeps its coordinate exactly, for any run: a symmetry plane stays
flat, a wall is not penetrated by its own nodes. -/
theorem C49_wall_nodes_stay (env : SghEnv K E N) (Z : Fin N → Fin 3 → Bool)
    (hZ : ClampSets env.sets Z) (S : ℕ) (hS : 0 < S) (time : K) (dts : List K)
    (st : SghState K E N) (n : Fin N) (d : Fin 3) (hn : Z n d = true) (h0 : st.vel n d = 0) :
    (sghRun env S time dts st).coords n d = st.coords n d ∧
      (sghRun env S time dts st).vel n d = 0 := by
  apply sghRun_induct env S (fun s => s.coords n d = st.coords n d ∧ s.vel n d = 0) _ dts time st
    ⟨rfl, h0⟩
  intro time dt s ⟨h1, h2⟩
  obtain ⟨hx, st', hv⟩ := C49_cycle env S hS time dt s n d
  have hz : (sghCycle env S time dt s).vel n d = 0 := by
    rw [hv, hZ, if_pos hn]
  exact ⟨by rw [hx, hz, h1, h2]; ring, hz⟩

/-- **C49.** Free flight: a node on no boundary set on which no force acts in the states `P` the
run goes through moves by its velocity times the elapsed time, exactly, however the time is cut
into steps and stages. -/
theorem C49_free_flight (h2 : (2 : K) ≠ 0) (env : SghEnv K E N) (S : ℕ) (hS : 0 < S) (time : K)
    (dts : List K) (st : SghState K E N) (n : Fin N) (d : Fin 3)
    (hset : ∀ s ∈ env.sets, n ∉ s.nodes) (P : SghState K E N → Prop) (h0 : P st)
    (hinit : ∀ s, P s → P (rkInit s)) (hstage : ∀ t a dt s, P s → P (sghStage env t a dt s))
    (hfree : ∀ s, P s → ∀ t, nodeForceTotal env.mesh (env.ext s t)
      (cornerForces env.mesh env.closures s) n d = 0) :
    (sghRun env S time dts st).coords n d = st.coords n d + st.vel n d * dts.sum ∧
      (sghRun env S time dts st).vel n d = st.vel n d := by
  have hbv : ∀ (sets : List (VelSet (Fin N) K 3)), (∀ s ∈ sets, n ∉ s.nodes) →
      ∀ t v, boundaryVelocity sets t v n d = v n d := by
    intro sets
    induction sets with
    | nil => intro _ t v; simp [boundaryVelocity]
    | cons s sets ih =>
      intro h t v
      rw [boundaryVelocity_cons, ih fun s' hs' => h s' (List.mem_cons_of_mem _ hs'),
        applySet_of_notMem _ _ _ _ (h s (by simp))]
  induction dts generalizing time st with
  | nil => simp [sghRun]
  | cons dt dts ih =>
    obtain ⟨st', ⟨hP, hvN⟩, h⟩ := sghCycle_last env S hS time dt st
      (fun s => P s ∧ s.velN0 = st.vel) ⟨hinit _ h0, rfl⟩
      (fun _ _ _ h => ⟨hstage _ _ _ _ h.1, h.2⟩)
    have hPc : P (sghCycle env S time dt st) := by rw [h]; exact hstage _ _ _ _ hP
    have hv' : (sghCycle env S time dt st).vel n d = st.vel n d := by
      rw [h, sghStage_vel, hbv _ hset, stageVelFree, updateVelocity, hfree _ hP, hvN]
      simp
    have hx' : (sghCycle env S time dt st).coords n d = st.coords n d + dt * st.vel n d := by
      rw [(C49_cycle env S hS time dt st n d).1, hv']; field_simp; ring
    rw [sghRun]
    obtain ⟨h3, h4⟩ := ih (time + dt) (sghCycle env S time dt st) hPc
    rw [h3, h4, hx', hv', List.sum_cons]
    exact ⟨by ring, rfl⟩

/-- The hypotheses of free flight are met by a cube without pressure and stress. -/
example : (sghRun demoEnv 2 0 [1 / 2, 1 / 3] (demoState [⟨0, true, [demoPt true]⟩])).coords 7 0
    = 1 + 1 * (1 / 2 + 1 / 3) := by
  have := (C49_free_flight (by norm_num) demoEnv 2 (by norm_num) 0 [1 / 2, 1 / 3]
    (demoState [⟨0, true, [demoPt true]⟩]) 7 0 (by simp [demoEnv])
    (fun s => ∀ m ∈ s.mats, ∀ p ∈ m.pts, p.eroded = true) (by simp [demoState, demoPt])
    (by
      intro s hs m hm p hp
      simp only [rkInit, List.mem_map] at hm
      obtain ⟨m', hm', rfl⟩ := hm
      simp only [List.mem_map] at hp
      obtain ⟨p', hp', rfl⟩ := hp
      exact hs m' hm' p' hp')
    (by
      intro t a dt s hs m hm p hp
      simp only [sghStage, saveMatForces, List.map_map, List.mem_map, Function.comp_apply] at hm
      obtain ⟨m', hm', rfl⟩ := hm
      simp only [List.mem_map, Function.comp_apply] at hp
      obtain ⟨p', hp', rfl⟩ := hp
      exact hs m' hm' p' hp')
    (by
      intro s hs t
      rw [nodeForceTotal_eq]
      have hz : ∀ c d, cornerForces demoEnv.mesh demoEnv.closures s c d = 0 := by
        intro c d
        rw [cornerForces_sum]
        · apply List.sum_eq_zero
          intro x hx
          rw [List.mem_map] at hx
          obtain ⟨m, hm, rfl⟩ := hx
          apply List.sum_eq_zero
          intro x hx
          rw [List.mem_map] at hx
          obtain ⟨p, hp, rfl⟩ := hx
          rw [matCornerForce_eroded _ _ _ _ p (hs m hm p hp)]
          simp
        · intro m hm p hp m' hm' p' hp' _
          rw [hs m hm p hp, hs m' hm' p' hp']
      simp only [hz]
      simp [demoEnv])).1
  rw [this]
  simp [demoState, cubeCoords]

/-! ### C50: work of the stresses -/

/-- Mean velocity of a step. -/
def meanVel (vel velN0 : Fin N → Vel K 3) : Fin N → Vel K 3 := fun n d =>
  (vel n d + velN0 n d) / 2

/-- **C50.** Principle of virtual work: the power of the corner forces of a material point equals
minus the element volume times the double contraction of its stress with the velocity gradient
computed for that velocity, weighted with the volume fractions, plus the power of the dissipation
forces.  It holds for every hexahedron, every velocity field and every stress tensor. -/
theorem C50_stress_power (mesh : Mesh8 E N) (coords : Fin N → Fin 3 → K) (dec : Bool)
    (disp : Fin 8 → Fin 3 → K) (p : MatPt K E) (hp : p.eroded = false) (w : Fin N → Vel K 3)
    (vol : Fin E → K) (hvol : vol p.elem ≠ 0) :
    ∑ l, ∑ d, matCornerForce mesh coords dec disp p l d * w (mesh.nodesInElem p.elem l) d
      = p.volfrac * p.geoVolfrac *
        (∑ l, ∑ d, disp l d * w (mesh.nodesInElem p.elem l) d
          - vol p.elem * ∑ i, ∑ d, tauStress dec p i d * velGrad mesh coords w vol p.elem d i) := by
  simp only [matCornerForce, hp, Bool.false_eq_true, if_false, velGrad, dot8, forceComponent,
    Fin.sum_univ_three, Fin.sum_univ_eight]
  field_simp
  ring

/-- **C50.** Without strength and dissipation, the material point is a fluid at pressure `p`: the
work it receives in a stage is `-p` times the divergence of the mean velocity times volume and
step, so compression (negative divergence) against a positive pressure raises the internal
energy and expansion lowers it. -/
theorem C50_pressure_work (env : SghEnv K E N) (m : Mat K E) (p : MatPt K E) (st : SghState K E N)
    (alpha dt : K) (vel : Fin N → Vel K 3) (vol : Fin E → K) (hvol : vol p.elem ≠ 0)
    (hm : p.mass + energyFuzz ≠ 0) (hdec : m.decoupledEOS = true) (hp : p.eroded = false)
    (hstress : ∀ i j, p.stress i j = 0) (hdisp : ∀ l d, env.closures.disp st m p l d = 0) :
    (p.mass + energyFuzz) * ((updateEnergy env.mesh alpha dt vel st.velN0 (withForce env st m p)).sie
        - p.sieN0)
      = -(alpha * dt * (p.volfrac * p.geoVolfrac) * p.pres * vol p.elem *
          divergence env.mesh st.coords (meanVel vel st.velN0) vol p.elem) := by
  have h1 : pointPower env.mesh vel st.velN0 (withForce env st m p)
      = p.volfrac * p.geoVolfrac * (p.pres * (vol p.elem *
          divergence env.mesh st.coords (meanVel vel st.velN0) vol p.elem)) := by
    rw [pointPower_eq]
    have := C50_stress_power env.mesh st.coords m.decoupledEOS (env.closures.disp st m p) p hp
      (meanVel vel st.velN0) vol hvol
    rw [C07_divergence_trace]
    simp only [hdisp, tauStress, hdec, hstress, Fin.sum_univ_three, true_and, zero_mul,
      Finset.sum_const_zero] at this
    simp only [withForce, hdec, Fin.sum_univ_three]
    simp only [meanVel, div_eq_mul_inv, one_mul] at this ⊢
    rw [this]
    simp
    ring
  simp only [updateEnergy]
  rw [h1]
  simp only [withForce]
  field_simp
  ring

/-- **C50.** Sign of the pressure work over an ordered field: with positive mass, volume and
fractions, a converging mean flow raises the specific energy of a fluid under positive pressure. -/
theorem C50_compression_heats {F : Type} [Field F] [LinearOrder F] [IsStrictOrderedRing F]
    (env : SghEnv F E N) (m : Mat F E) (p : MatPt F E) (st : SghState F E N)
    (alpha dt : F) (vel : Fin N → Vel F 3) (vol : Fin E → F) (hvol : 0 < vol p.elem)
    (hm : 0 < p.mass) (hdec : m.decoupledEOS = true) (hp : p.eroded = false)
    (hstress : ∀ i j, p.stress i j = 0) (hdisp : ∀ l d, env.closures.disp st m p l d = 0)
    (ha : 0 < alpha) (hdt : 0 < dt) (hvf : 0 < p.volfrac) (hgvf : 0 < p.geoVolfrac)
    (hpres : 0 < p.pres) :
    (divergence env.mesh st.coords (meanVel vel st.velN0) vol p.elem < 0 ↔
      p.sieN0 < (updateEnergy env.mesh alpha dt vel st.velN0 (withForce env st m p)).sie) := by
  have hz : (0 : F) < energyFuzz := by unfold energyFuzz; positivity
  have hM : 0 < p.mass + energyFuzz := by linarith
  have := C50_pressure_work env m p st alpha dt vel vol hvol.ne' hM.ne' hdec hp hstress hdisp
  set D := divergence env.mesh st.coords (meanVel vel st.velN0) vol p.elem
  set e := (updateEnergy env.mesh alpha dt vel st.velN0 (withForce env st m p)).sie
  have hc : 0 < alpha * dt * (p.volfrac * p.geoVolfrac) * p.pres * vol p.elem := by positivity
  constructor
  · intro hD
    have h1 : 0 < (p.mass + energyFuzz) * (e - p.sieN0) := by
      rw [this]; have := mul_neg_of_pos_of_neg hc hD; linarith
    have := (pos_iff_pos_of_mul_pos h1).1 hM
    linarith
  · intro he
    have h1 : 0 < (p.mass + energyFuzz) * (e - p.sieN0) := mul_pos hM (by linarith)
    rw [this] at h1
    by_contra hD
    have := mul_nonneg hc.le (not_lt.1 hD)
    linarith

/-- The hypotheses are met by the pressurised cube, with a velocity that compresses it. -/
example : (demoPt false).sieN0 < (updateEnergy demoEnv.mesh 1 1 (fun n d => -cubeCoords n d)
    (fun n d => -cubeCoords n d) (withForce demoEnv { demoState [] with
      velN0 := fun n d => -cubeCoords n d } ⟨0, true, []⟩ (demoPt false))).sie := by
  refine (C50_compression_heats demoEnv ⟨0, true, []⟩ (demoPt false) { demoState [] with
      velN0 := fun n d => -cubeCoords n d } 1 1 (fun n d => -cubeCoords n d) (fun _ => 1)
      (by norm_num) (by norm_num [demoPt]) rfl rfl (fun _ _ => rfl) (fun _ _ => rfl)
      (by norm_num) (by norm_num) (by norm_num [demoPt]) (by norm_num [demoPt])
      (by norm_num [demoPt])).1 ?_
  decide +kernel

/-! ### C51: uniform stress -/

/-- Node `n` is an interior node of a structured block: `P` are the 27 nodes of the eight
hexahedra `el a b c` (`a b c` = 0 for the lower, 1 for the upper neighbour) around it, in the local
node order of the mesh builders (local node `l` is at `(l mod 2, l/2 mod 2, l/4)`), and the
corners listed for the node are these eight. -/
structure InteriorNode (mesh : Mesh8 E N) (n : Fin N) where
  P : ℕ → ℕ → ℕ → Fin N
  el : ℕ → ℕ → ℕ → Fin E
  nodes : ∀ a < 2, ∀ b < 2, ∀ c < 2, ∀ l : Fin 8, mesh.nodesInElem (el a b c) l
    = P (a + l.val % 2) (b + l.val / 2 % 2) (c + l.val / 4)
  corners : (mesh.cornersInNode n).Perm
    [(el 0 0 0, 7), (el 1 0 0, 6), (el 0 1 0, 5), (el 1 1 0, 4),
     (el 0 0 1, 3), (el 1 0 1, 2), (el 0 1 1, 1), (el 1 1 1, 0)]

/-- **C51.** The area vectors of the eight elements around an interior node of a structured block
add up to zero, wherever the 27 nodes are (the elements may be distorted). -/
theorem C51_area_vectors_close (mesh : Mesh8 E N) (coords : Fin N → Fin 3 → K) (n : Fin N)
    (I : InteriorNode mesh n) (d : Fin 3) :
    ((mesh.cornersInNode n).map fun c => elemB mesh coords c.1 c.2 d).sum = 0 := by
  rw [(I.corners.map _).sum_eq]
  have hc : ∀ a < 2, ∀ b < 2, ∀ c < 2, ∀ j, elemCoords mesh coords (I.el a b c) j
      = fun l => coords (I.P (a + l.val % 2) (b + l.val / 2 % 2) (c + l.val / 4)) j := by
    intro a ha b hb c hc j
    funext l
    rw [elemCoords, I.nodes a ha b hb c hc]
  have h01 : (0 : ℕ) < 2 := by norm_num
  have h11 : (1 : ℕ) < 2 := by norm_num
  simp only [List.map_cons, List.map_nil, List.sum_cons, List.sum_nil, elemB,
    hc 0 h01 0 h01 0 h01, hc 1 h11 0 h01 0 h01, hc 0 h01 1 h11 0 h01, hc 1 h11 1 h11 0 h01,
    hc 0 h01 0 h01 1 h11, hc 1 h11 0 h01 1 h11, hc 0 h01 1 h11 1 h11, hc 1 h11 1 h11 1 h11]
  fin_cases d <;>
    simp [bmatrix, bmatrixCol0, bmatrixCol1, bmatrixCol2] <;> ring

/-- Stress of an element: the stresses of the materials in it weighted with their volume
fractions (specification). -/
def elemStress (mats : List (Mat K E)) (e : Fin E) (i j : Fin 3) : K :=
  (mats.map fun m => (m.pts.map fun p =>
    if e = p.elem then tauStress m.decoupledEOS p i j * p.volfrac * p.geoVolfrac else 0).sum).sum

/-- **C51.** Without dissipation and erosion the force of an element on its corner is minus the
area vector times the volume-weighted stress of the materials in it, whatever their number. -/
theorem C51_corner_force_mixture (mesh : Mesh8 E N) (C : Closures K E N) (st : SghState K E N)
    (hdisp : ∀ m ∈ st.mats, ∀ p ∈ m.pts, ∀ l d, C.disp st m p l d = 0)
    (her : ∀ m ∈ st.mats, ∀ p ∈ m.pts, p.eroded = false) (e : Fin E) (l : Fin 8) (d : Fin 3) :
    cornerForces mesh C st (e, l) d
      = -∑ i, elemB mesh st.coords e l i * elemStress st.mats e i d := by
  rw [cornerForces_sum mesh C st (consistent_of_none_eroded _ her)]
  simp only [elemStress, Fin.sum_univ_three]
  rw [← listSum_mul, ← listSum_mul, ← listSum_mul, ← listSum_add, ← listSum_add,
    ← neg_one_mul, ← listSum_mul]
  congr 1
  apply List.map_congr_left
  intro m hm
  rw [← listSum_mul, ← listSum_mul, ← listSum_mul, ← listSum_add, ← listSum_add, ← listSum_mul]
  congr 1
  apply List.map_congr_left
  intro p hp
  by_cases h : e = p.elem
  · subst h
    simp only [if_true, matCornerForce, her m hm p hp, Bool.false_eq_true, if_false, forceComponent,
      hdisp m hm p hp]
    ring
  · simp [h]

/-- **C51.** A uniform stress state exerts no force on an interior node of a structured block, on
any distorted mesh and for any mixture of materials: the corner forces there cancel, so without
external force the node keeps its velocity through a stage. -/
theorem C51_uniform_stress_balanced (env : SghEnv K E N) (st : SghState K E N) (n : Fin N)
    (I : InteriorNode env.mesh n) (time alpha dt : K) (T : Fin 3 → Fin 3 → K)
    (hT : ∀ c ∈ env.mesh.cornersInNode n, ∀ i j, elemStress st.mats c.1 i j = T i j)
    (hdisp : ∀ m ∈ st.mats, ∀ p ∈ m.pts, ∀ l d, env.closures.disp st m p l d = 0)
    (her : ∀ m ∈ st.mats, ∀ p ∈ m.pts, p.eroded = false)
    (hext : ∀ d, env.ext st time n d = 0) (d : Fin 3) :
    stageVelFree env time alpha dt st n d = st.velN0 n d := by
  have h : nodeForceTotal env.mesh (env.ext st time) (cornerForces env.mesh env.closures st) n d = 0 := by
    rw [nodeForceTotal_eq, hext, zero_add]
    have : ((env.mesh.cornersInNode n).map fun c => cornerForces env.mesh env.closures st c d)
        = (env.mesh.cornersInNode n).map fun c => ∑ i, (-(T i d)) * elemB env.mesh st.coords c.1 c.2 i := by
      apply List.map_congr_left
      intro c hc
      obtain ⟨e, l⟩ := c
      rw [C51_corner_force_mixture env.mesh env.closures st hdisp her, ← Finset.sum_neg_distrib]
      apply Finset.sum_congr rfl
      intro i _
      rw [hT _ hc]
      ring
    rw [this, listSum_finset]
    apply Finset.sum_eq_zero
    intro i _
    rw [listSum_mul, C51_area_vectors_close env.mesh st.coords n I, mul_zero]
  rw [stageVelFree, updateVelocity, h]
  simp

/-- Nodes and elements of the 2 × 2 × 2 block, numbered as by the box builder. -/
def blockMesh : Mesh8 8 27 where
  nodesInElem e l :=
    Fin.ofNat 27 ((e.val % 2 + l.val % 2) + 3 * (e.val / 2 % 2 + l.val / 2 % 2)
      + 9 * (e.val / 4 + l.val / 4))
  cornersInNode n :=
    ((List.finRange 8).flatMap fun e => (List.finRange 8).map fun l => (e, l)).filter fun c =>
      Fin.ofNat 27 ((c.1.val % 2 + c.2.val % 2) + 3 * (c.1.val / 2 % 2 + c.2.val / 2 % 2)
        + 9 * (c.1.val / 4 + c.2.val / 4)) = n

/-- The centre of the 2 × 2 × 2 block is an interior node: the hypothesis can be met. -/
def blockInterior : InteriorNode blockMesh 13 where
  P a b c := Fin.ofNat 27 (a + 3 * b + 9 * c)
  el a b c := Fin.ofNat 8 (a + 2 * b + 4 * c)
  nodes := by decide +kernel
  corners := by decide +kernel

end Fierro
