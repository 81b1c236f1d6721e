import Verif.Proofs.Sgh
import Verif.Props.Geometry
import Verif.Props.BoundaryVelocity

/-!
# C07 (velocity gradient), C10, C11, C12, C30: the 3D SGH solver
-/

set_option linter.unusedSectionVars false

namespace Fierro

variable {K : Type} [Field K] {E N : ℕ}

/-! ### C07: velocity gradient and divergence of affine velocity fields -/

theorem dot8_eq (u b : Fin 8 → K) : dot8 u b = ∑ l, u l * b l := by
  simp [dot8, Fin.sum_univ_eight]

theorem dot8_affine (mesh : Mesh8 E N) (coords : Fin N → Fin 3 → K) (L : Fin 3 → Fin 3 → K)
    (c : Fin 3 → K) (e : Fin E) (i j : Fin 3) :
    dot8 (fun l => ∑ k, L i k * coords (mesh.nodesInElem e l) k + c i)
        (fun l => elemB mesh coords e l j)
      = L i j * hexVolRaw (elemCoords mesh coords e 0) (elemCoords mesh coords e 1)
          (elemCoords mesh coords e 2) := by
  rw [dot8_eq]
  have hB := C06_bmatrix_sum_zero (elemCoords mesh coords e 0) (elemCoords mesh coords e 1)
    (elemCoords mesh coords e 2) j
  have hL := fun k => C07_bmatrix_linear (elemCoords mesh coords e 0) (elemCoords mesh coords e 1)
    (elemCoords mesh coords e 2) j k
  have hc : ∀ k l, coord3 (elemCoords mesh coords e 0) (elemCoords mesh coords e 1)
      (elemCoords mesh coords e 2) k l = coords (mesh.nodesInElem e l) k := by
    intro k l; fin_cases k <;> rfl
  simp only [hc] at hL
  have : ∀ l, (∑ k, L i k * coords (mesh.nodesInElem e l) k + c i) * elemB mesh coords e l j
      = ∑ k, L i k * (elemB mesh coords e l j * coords (mesh.nodesInElem e l) k)
        + c i * elemB mesh coords e l j := by
    intro l
    rw [add_mul, Finset.sum_mul]
    congr 1
    apply Finset.sum_congr rfl
    intro k _; ring
  simp only [this, Finset.sum_add_distrib]
  rw [Finset.sum_comm]
  simp only [← Finset.mul_sum]
  simp only [elemB, hL, hB]
  simp

/-- **C07.** For every affine velocity field `v = L x + c` the velocity gradient computed for an
element is exactly `L`, and the computed divergence is `trace L`, when the stored volume is the
volume of the element (`get_vol` stores it whenever it is above the floor, next theorem). -/
theorem C07_velgrad_affine (mesh : Mesh8 E N) (coords : Fin N → Fin 3 → K) (L : Fin 3 → Fin 3 → K)
    (c : Fin 3 → K) (vel : Fin N → Vel K 3) (hv : ∀ n i, vel n i = ∑ k, L i k * coords n k + c i)
    (vol : Fin E → K) (e : Fin E)
    (hvol : vol e = hexVolRaw (elemCoords mesh coords e 0) (elemCoords mesh coords e 1)
      (elemCoords mesh coords e 2)) (hne : vol e ≠ 0) :
    (∀ i j, velGrad mesh coords vel vol e i j = L i j) ∧
    divergence mesh coords vel vol e = L 0 0 + L 1 1 + L 2 2 := by
  have hv' : ∀ i, (fun l => vel (mesh.nodesInElem e l) i)
      = fun l => ∑ k, L i k * coords (mesh.nodesInElem e l) k + c i := by
    intro i; funext l; rw [hv]
  constructor
  · intro i j
    rw [velGrad, hv', dot8_affine, ← hvol]
    field_simp
  · rw [divergence, hv', hv', hv', dot8_affine, dot8_affine, dot8_affine, ← hvol]
    field_simp
    ring

/-- **C07.** The divergence always is the trace of the velocity gradient, for any velocity. -/
theorem C07_divergence_trace (mesh : Mesh8 E N) (coords : Fin N → Fin 3 → K)
    (vel : Fin N → Vel K 3) (vol : Fin E → K) (e : Fin E) :
    divergence mesh coords vel vol e = ∑ i, velGrad mesh coords vel vol e i i := by
  simp [divergence, velGrad, Fin.sum_univ_three]

/-- **C07.** With the volume stored by the code (floored at 1e-14) the result is exact for every
element whose volume is at least the floor (an inverted or collapsed element is excluded). -/
theorem C07_velgrad_affine_stored {F : Type} [Field F] [LinearOrder F] [IsStrictOrderedRing F]
    (mesh : Mesh8 E N) (coords : Fin N → Fin 3 → F) (L : Fin 3 → Fin 3 → F) (c : Fin 3 → F) (e : Fin E)
    (hge : (volFloor : F) ≤ hexVolRaw (elemCoords mesh coords e 0) (elemCoords mesh coords e 1)
      (elemCoords mesh coords e 2)) (i j : Fin 3) :
    velGrad mesh coords (fun n i => ∑ k, L i k * coords n k + c i)
      (fun e => volHex (elemCoords mesh coords e 0) (elemCoords mesh coords e 1)
        (elemCoords mesh coords e 2)) e i j = L i j := by
  have h0 : (0 : F) < volFloor := by unfold volFloor; positivity
  refine (C07_velgrad_affine mesh coords L c _ (fun _ _ => rfl) _ e ?_ ?_).1 i j
  · exact max_eq_left hge
  · exact ne_of_gt (lt_of_lt_of_le h0 (le_max_right _ _))

/-! ### C30: decomposition of the velocity gradient -/

/-- **C30.** Symmetric plus skew part gives the velocity gradient back; the parts are symmetric
and skew; they are the only such pair; the symmetric part carries the trace. -/
theorem C30_decompose (h2 : (2 : K) ≠ 0) (L : Fin 3 → Fin 3 → K) :
    (∀ i j, strainRate L i j + spinRate L i j = L i j) ∧
    (∀ i j, strainRate L i j = strainRate L j i) ∧
    (∀ i j, spinRate L i j = -spinRate L j i) ∧
    (∑ i, strainRate L i i = ∑ i, L i i) ∧
    (∀ D W : Fin 3 → Fin 3 → K, (∀ i j, D i j = D j i) → (∀ i j, W i j = -W j i) →
      (∀ i j, D i j + W i j = L i j) → D = strainRate L ∧ W = spinRate L) := by
  refine ⟨fun i j => ?_, fun i j => ?_, fun i j => ?_, ?_, ?_⟩
  · simp only [strainRate, spinRate]; field_simp; ring
  · simp only [strainRate]; ring
  · simp only [spinRate]; ring
  · apply Finset.sum_congr rfl; intro i _; simp only [strainRate]; field_simp; ring
  · intro D W hD hW h
    constructor <;> funext i j
    · simp only [strainRate, ← h i j, ← h j i, hD j i, hW j i]; field_simp; ring
    · simp only [spinRate, ← h i j, ← h j i, hD j i, hW j i]; field_simp; ring

/-- **C30.** A velocity gradient is a rigid spin (`L` skew) exactly when the strain rate
vanishes. -/
theorem C30_rigid_iff (h2 : (2 : K) ≠ 0) (L : Fin 3 → Fin 3 → K) :
    (∀ i j, strainRate L i j = 0) ↔ ∀ i j, L i j = -L j i := by
  constructor
  · intro h i j
    have := h i j
    simp only [strainRate] at this
    have h' : L i j + L j i = 0 := by
      have h3 : (1 / 2 : K) ≠ 0 := by simpa using h2
      exact (mul_eq_zero.1 this).resolve_left h3
    linear_combination h'
  · intro h i j
    simp only [strainRate, h i j]; ring

/-- The hypothesis is met, and a non-symmetric example. -/
example : strainRate (K := ℚ) (fun i j => if i = 0 ∧ j = 1 then 1 else 0) 1 0 = 1 / 2 := by
  simp [strainRate]

/-! ### C10: momentum -/

/-- Total linear momentum, component `d` (specification). -/
def momentum (mass : Fin N → K) (vel : Fin N → Vel K 3) (d : Fin 3) : K := ∑ n, mass n * vel n d

/-- **C10.** The stress part of the corner forces of any material point sums to zero over the
eight corners; so do the corner forces if the dissipation forces do. -/
theorem C10_stress_force_sums_zero (mesh : Mesh8 E N) (coords : Fin N → Fin 3 → K) (dec : Bool)
    (disp : Fin 8 → Fin 3 → K) (hdisp : ∀ d, ∑ l, disp l d = 0) (p : MatPt K E) (d : Fin 3) :
    ∑ l, matCornerForce mesh coords dec disp p l d = 0 := by
  cases hp : p.eroded
  · simp only [matCornerForce, hp, Bool.false_eq_true, if_false]
    rw [← Finset.sum_mul, ← Finset.sum_mul]
    have hB := fun j => C06_bmatrix_sum_zero (elemCoords mesh coords p.elem 0)
      (elemCoords mesh coords p.elem 1) (elemCoords mesh coords p.elem 2) j
    have : ∑ l, forceComponent mesh coords dec disp p l d = 0 := by
      simp only [forceComponent, Finset.sum_add_distrib, ← Finset.sum_mul, ← Finset.mul_sum]
      simp only [elemB, hB, hdisp]
      ring
    rw [this]; ring
  · exact Finset.sum_eq_zero fun l _ => matCornerForce_eroded _ _ _ _ p hp l d

/-- The dissipation model is momentum neutral: its corner forces sum to zero (proved for MARS
as C29). -/
def DispNeutral (C : Closures K E N) : Prop := ∀ st m p d, ∑ l, C.disp st m p l d = 0

/-- **C10.** Momentum balance of one Runge-Kutta stage before boundary conditions: the momentum
changes exactly by the impulse of the external nodal forces. -/
theorem C10_stage_balance (env : SghEnv K E N) (hWF : env.mesh.WF) (hm : ∀ n, env.mass n ≠ 0)
    (hdisp : DispNeutral env.closures) (time alpha dt : K) (st : SghState K E N) (d : Fin 3) :
    momentum env.mass (stageVelFree env time alpha dt st) d
      = momentum env.mass st.velN0 d + alpha * dt * ∑ n, env.ext st time n d := by
  have h1 : ∀ n, env.mass n * stageVelFree env time alpha dt st n d
      = env.mass n * st.velN0 n d + alpha * dt *
        (nodeForceTotal env.mesh (env.ext st time) (cornerForces env.mesh env.closures st) n d * 1) := by
    intro n
    simp only [stageVelFree, updateVelocity]
    have := hm n
    field_simp
  simp only [momentum, h1, Finset.sum_add_distrib, ← Finset.mul_sum]
  rw [sum_nodeForce env.mesh hWF _ _ d fun _ => 1]
  have h2 : ∑ c : Fin E × Fin 8, cornerForces env.mesh env.closures st c d * 1 = 0 := by
    rw [Fintype.sum_prod_type]
    apply Finset.sum_eq_zero
    intro e _
    simp only [mul_one]
    exact cornerForces_elem env.mesh env.closures st
      (fun m _ p _ _ d => C10_stress_force_sums_zero env.mesh st.coords m.decoupledEOS _
        (hdisp st m p) p d) e d
  rw [h2]
  simp

/-- The boundary sets of a run only clamp velocity components to zero: `Z n d` says that
component `d` of node `n` is clamped (zero-velocity sets and axis-aligned symmetry planes, see
`clampSets_of_list`). -/
def ClampSets (sets : List (VelSet (Fin N) K 3)) (Z : Fin N → Fin 3 → Bool) : Prop :=
  ∀ t v n d, boundaryVelocity sets t v n d = if Z n d = true then 0 else v n d

/-- Zero-velocity sets and axis-aligned symmetry planes, in any number and order, are clamps. -/
theorem clampSets_of_list (sets : List (VelSet (Fin N) K 3))
    (h : ∀ s ∈ sets, s.nodes.Nodup ∧ (s.bc = zeroVelBC ∨ ∃ i, s.bc = reflectedVelBC (Pi.single i 1))) :
    ∃ Z, ClampSets sets Z := by
  induction sets with
  | nil => exact ⟨fun _ _ => false, fun t v n d => by simp [boundaryVelocity]⟩
  | cons s sets ih =>
    obtain ⟨Z, hZ⟩ := ih fun s' hs' => h s' (List.mem_cons_of_mem _ hs')
    obtain ⟨hnd, hbc⟩ := h s (by simp)
    rcases hbc with hbc | ⟨i, hbc⟩
    · refine ⟨fun n d => Z n d || decide (n ∈ s.nodes), fun t v n d => ?_⟩
      rw [boundaryVelocity_cons, hZ]
      by_cases hn : n ∈ s.nodes
      · rw [applySet_of_mem _ _ hnd _ _ hn, hbc]
        simp [hn, zeroVelBC]
      · rw [applySet_of_notMem _ _ _ _ hn]
        simp [hn]
    · refine ⟨fun n d => Z n d || decide (n ∈ s.nodes ∧ d = i), fun t v n d => ?_⟩
      rw [boundaryVelocity_cons, hZ]
      by_cases hn : n ∈ s.nodes
      · rw [applySet_of_mem _ _ hnd _ _ hn, hbc, reflected_axis]
        by_cases hd : d = i
        · subst hd; simp [hn]
        · simp [hn, hd]
      · rw [applySet_of_notMem _ _ _ _ hn]
        simp [hn]

theorem sghStage_vel (env : SghEnv K E N) (time alpha dt : K) (st : SghState K E N) :
    (sghStage env time alpha dt st).vel
      = boundaryVelocity env.sets time (stageVelFree env time alpha dt st) := rfl

theorem sghStage_velN0 (env : SghEnv K E N) (time alpha dt : K) (st : SghState K E N) :
    (sghStage env time alpha dt st).velN0 = st.velN0 := rfl

/-- A property of the state kept by each stage and established by the last stage holds at the end
of a cycle. -/
theorem sghCycle_induct (env : SghEnv K E N) (S : ℕ) (hS : 0 < S) (time dt : K)
    (st : SghState K E N) (P Q : SghState K E N → Prop) (h0 : P (rkInit st))
    (hP : ∀ s, s < S → ∀ st', P st' → P (sghStage env time (rkAlpha S s) dt st'))
    (hQ : ∀ s, s < S → ∀ st', P st' → Q (sghStage env time (rkAlpha S s) dt st')) :
    Q (sghCycle env S time dt st) := by
  have hk : ∀ k, k ≤ S → P ((List.range k).foldl
      (fun st s => sghStage env time (rkAlpha S s) dt st) (rkInit st)) := by
    intro k
    induction k with
    | zero => intro _; exact h0
    | succ k ih =>
      intro hk
      rw [List.range_succ, List.foldl_append]
      exact hP k (by omega) _ (ih (by omega))
  obtain ⟨k, rfl⟩ : ∃ k, S = k + 1 := ⟨S - 1, by omega⟩
  rw [sghCycle]
  conv => arg 1; rw [List.range_succ, List.foldl_append]
  exact hQ k (by omega) _ (hk k (by omega))

/-- A property of the state kept by every cycle holds at the end of the run. -/
theorem sghRun_induct (env : SghEnv K E N) (S : ℕ) (P : SghState K E N → Prop)
    (hstep : ∀ time dt st, P st → P (sghCycle env S time dt st)) (dts : List K) (time : K)
    (st : SghState K E N) (h : P st) : P (sghRun env S time dts st) := by
  induction dts generalizing time st with
  | nil => exact h
  | cons dt dts ih => exact ih _ _ (hstep _ _ _ h)

/-- **C10.** In a run of any number of cycles, with any step sizes and any number of Runge-Kutta
stages, without external forces, the momentum component `d` is conserved exactly if no boundary
set clamps that component (in particular with no boundary sets at all, or along symmetry planes). -/
theorem C10_run_conserves (env : SghEnv K E N) (hWF : env.mesh.WF) (hm : ∀ n, env.mass n ≠ 0)
    (hdisp : DispNeutral env.closures) (hext : ∀ st t n d, env.ext st t n d = 0)
    (Z : Fin N → Fin 3 → Bool) (hZ : ClampSets env.sets Z) (d : Fin 3) (hd : ∀ n, Z n d = false)
    (S : ℕ) (hS : 0 < S) (time : K) (dts : List K) (st : SghState K E N) :
    momentum env.mass (sghRun env S time dts st).vel d = momentum env.mass st.vel d := by
  apply sghRun_induct env S (fun st' => momentum env.mass st'.vel d = momentum env.mass st.vel d)
  · intro time dt st' h
    rw [← h]
    apply sghCycle_induct env S hS time dt st'
      (fun s => momentum env.mass s.velN0 d = momentum env.mass st'.vel d)
      (fun s => momentum env.mass s.vel d = momentum env.mass st'.vel d)
    · rfl
    · intro s _ s' hs'; exact hs'
    · intro s _ s' hs'
      rw [← hs', sghStage_vel]
      have := C10_stage_balance env hWF hm hdisp time (rkAlpha S s) dt s' d
      simp only [hext, Finset.sum_const_zero, mul_zero, add_zero] at this
      rw [← this]
      refine Finset.sum_congr rfl fun n _ => ?_
      rw [hZ, hd]; simp
  · rfl

/-! ### C12: nodal masses -/

theorem foldl_addCornerMass (pts : List (MatPt K E)) (cm : Fin E × Fin 8 → K) (c : Fin E × Fin 8) :
    pts.foldl addCornerMass cm c
      = cm c + (pts.map fun p => if c.1 = p.elem then 1 / 8 * p.mass else 0).sum := by
  induction pts generalizing cm with
  | nil => simp
  | cons p pts ih =>
    rw [List.foldl_cons, ih, List.map_cons, List.sum_cons, ← add_assoc]
    congr 1
    simp only [addCornerMass]
    split <;> simp

theorem cornerMass_eq (mats : List (Mat K E)) (c : Fin E × Fin 8) :
    cornerMass mats c
      = (mats.map fun m => (m.pts.map fun p => if c.1 = p.elem then 1 / 8 * p.mass else 0).sum).sum := by
  unfold cornerMass
  suffices H : ∀ (mats : List (Mat K E)) (cm : Fin E × Fin 8 → K),
      mats.foldl (fun cm m => m.pts.foldl addCornerMass cm) cm c = cm c +
        (mats.map fun m => (m.pts.map fun p => if c.1 = p.elem then 1 / 8 * p.mass else 0).sum).sum by
    rw [H]; simp
  intro mats
  induction mats with
  | nil => simp
  | cons m mats ih =>
    intro cm
    rw [List.foldl_cons, ih, foldl_addCornerMass, List.map_cons, List.sum_cons, add_assoc]

/-- **C12.** The nodal masses add up to the material masses: nothing is lost or counted twice,
for any mesh and any number of materials sharing elements. -/
theorem C12_node_mass_total (h8 : (8 : K) ≠ 0) (mesh : Mesh8 E N) (hWF : mesh.WF)
    (mats : List (Mat K E)) :
    ∑ n, nodeMass mesh (cornerMass mats) n = materialMass mats := by
  have h1 : ∀ n, nodeMass mesh (cornerMass mats) n
      = ((mesh.cornersInNode n).map fun c => cornerMass mats c).sum := by
    intro n; rw [nodeMass, foldl_add_eq, zero_add]
  simp only [h1]
  rw [sum_corners mesh hWF fun _ c => cornerMass mats c]
  simp only [cornerMass_eq]
  rw [← listSum_finset]
  unfold materialMass
  congr 1
  apply List.map_congr_left
  intro m _
  rw [← listSum_finset]
  congr 1
  apply List.map_congr_left
  intro p _
  rw [Fintype.sum_prod_type]
  rw [Finset.sum_eq_single p.elem]
  · simp; field_simp
  · intro e _ he; simp [he]
  · simp

/-- **C12.** Nodal masses are non-negative when material masses are. -/
theorem C12_node_mass_nonneg {F : Type} [Field F] [LinearOrder F] [IsStrictOrderedRing F]
    (mesh : Mesh8 E N) (mats : List (Mat F E)) (h : ∀ m ∈ mats, ∀ p ∈ m.pts, 0 ≤ p.mass) (n : Fin N) :
    0 ≤ nodeMass mesh (cornerMass mats) n := by
  rw [nodeMass, foldl_add_eq, zero_add]
  apply List.sum_nonneg
  intro x hx
  rw [List.mem_map] at hx
  obtain ⟨c, _, rfl⟩ := hx
  rw [cornerMass_eq]
  apply List.sum_nonneg
  intro x hx
  rw [List.mem_map] at hx
  obtain ⟨m, hm, rfl⟩ := hx
  apply List.sum_nonneg
  intro x hx
  rw [List.mem_map] at hx
  obtain ⟨p, hp, rfl⟩ := hx
  split
  · have := h m hm p hp; positivity
  · exact le_rfl

/-- **C12.** A node that touches an element containing material of positive mass has positive
mass, so the division by the nodal mass in the velocity update is safe. -/
theorem C12_node_mass_pos {F : Type} [Field F] [LinearOrder F] [IsStrictOrderedRing F]
    (mesh : Mesh8 E N) (hWF : mesh.WF) (mats : List (Mat F E))
    (h : ∀ m ∈ mats, ∀ p ∈ m.pts, 0 ≤ p.mass) (m : Mat F E) (hm : m ∈ mats) (p : MatPt F E)
    (hp : p ∈ m.pts) (hpos : 0 < p.mass) (l : Fin 8) :
    0 < nodeMass mesh (cornerMass mats) (mesh.nodesInElem p.elem l) := by
  have hc : ∀ c, 0 ≤ cornerMass mats c := by
    intro c
    rw [cornerMass_eq]
    apply List.sum_nonneg
    intro x hx
    rw [List.mem_map] at hx
    obtain ⟨m, hm, rfl⟩ := hx
    apply List.sum_nonneg
    intro x hx
    rw [List.mem_map] at hx
    obtain ⟨p, hp, rfl⟩ := hx
    split
    · have := h m hm p hp; positivity
    · exact le_rfl
  have hin : ∀ m ∈ mats, 0 ≤ (m.pts.map fun q => if p.elem = q.elem then 1 / 8 * q.mass else 0).sum := by
    intro m hm
    apply List.sum_nonneg
    intro x hx
    rw [List.mem_map] at hx
    obtain ⟨q, hq, rfl⟩ := hx
    split
    · have := h m hm q hq; positivity
    · exact le_rfl
  have hcp : 0 < cornerMass mats (p.elem, l) := by
    rw [cornerMass_eq]
    have h2 : (m.pts.map fun q => if p.elem = q.elem then 1 / 8 * q.mass else 0).sum
        ≤ (mats.map fun m => (m.pts.map fun q =>
          if p.elem = q.elem then 1 / 8 * q.mass else 0).sum).sum := by
      apply List.single_le_sum
      · intro x hx
        rw [List.mem_map] at hx
        obtain ⟨m', hm', rfl⟩ := hx
        exact hin m' hm'
      · exact List.mem_map_of_mem hm
    have h3 : 1 / 8 * p.mass ≤ (m.pts.map fun q => if p.elem = q.elem then 1 / 8 * q.mass else 0).sum := by
      apply List.single_le_sum
      · intro x hx
        rw [List.mem_map] at hx
        obtain ⟨q, hq, rfl⟩ := hx
        split
        · have := h m hm q hq; positivity
        · exact le_rfl
      · rw [List.mem_map]; exact ⟨p, hp, by simp⟩
    have h4 : 0 < 1 / 8 * p.mass := by positivity
    exact lt_of_lt_of_le h4 (h3.trans h2)
  rw [nodeMass, foldl_add_eq, zero_add]
  refine lt_of_lt_of_le hcp (List.single_le_sum ?_ _ ?_)
  · intro x hx
    rw [List.mem_map] at hx
    obtain ⟨c, _, rfl⟩ := hx
    exact hc c
  · rw [List.mem_map]
    exact ⟨(p.elem, l), ((hWF _).2 _).2 rfl, rfl⟩

end Fierro
