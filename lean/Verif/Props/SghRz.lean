import Verif.Proofs.SghRz

/-!
# C52–C54: mass, axial momentum and energy of the r-z solver
-/

set_option linter.unusedSectionVars false

namespace Fierro

variable {E N : ℕ}

/-! ### C52: masses -/

/-- **C52.** The corner areas of a convex counter-clockwise element, each times the radius of its
node, add up exactly to the volume (per radian) the code assigns to the element. -/
theorem C52_corner_volume (x y : Fin 4 → ℝ) (h : ConvexCCW x y) :
    ∑ l, areaWeights2D x y l * y l = quadVolRaw x y := by
  have hs : ∀ a b c d e f : ℝ, triArea a b c d e f = -triArea a b e f c d := by
    intros; unfold triArea; ring
  have h' := (C09_corner_areas_iff x y).1 (C09_corner_areas_convex x y h)
  simp only [Fin.sum_univ_four, areaWeights2D, C09_heron_eq]
  rw [hs (x 0), hs (x 1), hs (x 2), hs (x 3)]
  simp only [abs_neg]
  rw [abs_of_nonneg h'.1, abs_of_nonneg h'.2.1, abs_of_nonneg h'.2.2.1, abs_of_nonneg h'.2.2.2]
  unfold triArea quadVolRaw quadCentre
  ring

/-- Sum over all material points of all materials. -/
noncomputable def rzSumPts (mats : List (RzMat E)) (f : RzPt E → ℝ) : ℝ :=
  (mats.map fun m => (m.pts.map f).sum).sum

theorem rz_listSum_congr2 (mats : List (RzMat E)) (f g : RzMat E → RzPt E → ℝ)
    (h : ∀ m ∈ mats, ∀ p ∈ m.pts, f m p = g m p) :
    (mats.map fun m => (m.pts.map (f m)).sum).sum
      = (mats.map fun m => (m.pts.map (g m)).sum).sum := by
  congr 1
  apply List.map_congr_left
  intro m hm
  congr 1
  apply List.map_congr_left
  intro p hp
  exact h m hm p hp

/-- The nodal extensive masses computed at setup: areal node mass times radius. -/
noncomputable def rzSetupExt (mesh : Mesh4 E N) (coords : Fin N → Fin 2 → ℝ)
    (mats : List (RzMat E)) : Fin N → ℝ :=
  rzExtensive coords (rzNodeAreal mesh (rzCornerMass mesh coords mats))

/-- A weighted sum of the areal node masses is the sum over the material points of density times
corner area times weight, whatever the mesh and the number of materials sharing elements. -/
theorem rz_sum_areal (mesh : Mesh4 E N) (hWF : mesh.WF) (coords : Fin N → Fin 2 → ℝ)
    (mats : List (RzMat E)) (w : Fin N → ℝ) :
    ∑ n, rzNodeAreal mesh (rzCornerMass mesh coords mats) n * w n
      = rzSumPts mats fun p => p.den *
          ∑ l, rzCornerArea mesh coords p.elem l * w (mesh.nodesInElem p.elem l) := by
  have h1 : ∀ n, rzNodeAreal mesh (rzCornerMass mesh coords mats) n * w n
      = ((mesh.cornersInNode n).map fun c => rzCornerMass mesh coords mats c * w n).sum := by
    intro n
    rw [rzNodeAreal, foldl_add_eq, zero_add, mul_comm, ← listSum_mul]
    simp only [mul_comm]
  simp only [h1]
  rw [rz_sum_corners mesh hWF fun n c => rzCornerMass mesh coords mats c * w n]
  simp only [rzCornerMass_eq, rzSumPts]
  have h2 : ∀ c : Fin E × Fin 4, ((mats.map fun m => (m.pts.map fun p =>
      if c.1 = p.elem then rzCornerArea mesh coords p.elem c.2 * p.den else 0).sum).sum)
        * w (mesh.nodesInElem c.1 c.2)
      = (mats.map fun m => (m.pts.map fun p => (if c.1 = p.elem then
          rzCornerArea mesh coords p.elem c.2 * p.den else 0)
            * w (mesh.nodesInElem c.1 c.2)).sum).sum := by
    intro c
    rw [mul_comm, ← listSum_mul]
    congr 1
    apply List.map_congr_left
    intro m _
    rw [← listSum_mul]
    simp only [mul_comm]
  simp only [h2]
  rw [← listSum_finset]
  congr 1
  apply List.map_congr_left
  intro m _
  rw [← listSum_finset]
  congr 1
  apply List.map_congr_left
  intro p _
  rw [rz_sum_elem p.elem (fun l => rzCornerArea mesh coords p.elem l * p.den)
    fun c => w (mesh.nodesInElem c.1 c.2), Finset.mul_sum]
  apply Finset.sum_congr rfl
  intro l _
  ring

/-- **C52.** When every element that carries material is convex, counter-clockwise and above the
volume floor, and every point fills its element (its mass is density times element volume), the
nodal masses add up exactly to the material masses, for every mesh. -/
theorem C52_node_mass_total (mesh : Mesh4 E N) (hWF : mesh.WF) (coords : Fin N → Fin 2 → ℝ)
    (mats : List (RzMat E))
    (hgeo : ∀ m ∈ mats, ∀ p ∈ m.pts,
      ConvexCCW (rzCoords mesh coords p.elem 0) (rzCoords mesh coords p.elem 1) ∧
      volFloor ≤ quadVolRaw (rzCoords mesh coords p.elem 0) (rzCoords mesh coords p.elem 1))
    (hmass : ∀ m ∈ mats, ∀ p ∈ m.pts, p.mass = p.den * rzVol mesh coords p.elem) :
    ∑ n, rzSetupExt mesh coords mats n = rzMaterialMass mats := by
  simp only [rzSetupExt, rzExtensive]
  rw [rz_sum_areal mesh hWF coords mats fun n => coords n 1]
  apply rz_listSum_congr2
  intro m hm p hp
  rw [hmass m hm p hp]
  congr 1
  rw [rzVol, volQuad, max_eq_left (hgeo m hm p hp).2]
  exact C52_corner_volume _ _ (hgeo m hm p hp).1

/-- **C52.** Likewise the areal node masses add up to density times element area. -/
theorem C52_areal_mass_total (mesh : Mesh4 E N) (hWF : mesh.WF) (coords : Fin N → Fin 2 → ℝ)
    (mats : List (RzMat E))
    (hgeo : ∀ m ∈ mats, ∀ p ∈ m.pts,
      ConvexCCW (rzCoords mesh coords p.elem 0) (rzCoords mesh coords p.elem 1)) :
    ∑ n, rzNodeAreal mesh (rzCornerMass mesh coords mats) n
      = rzSumPts mats fun p => p.den * rzArea mesh coords p.elem := by
  have := rz_sum_areal mesh hWF coords mats fun _ => 1
  simp only [mul_one] at this
  rw [this]
  apply rz_listSum_congr2
  intro m hm p hp
  congr 1
  exact C09_corner_areas_convex _ _ (hgeo m hm p hp)

/-- Every node is off the axis with positive mass, or on the axis (radius and mass zero), on the
boundary, and has a neighbour off the axis with positive mass. -/
def RzRadiiOK (env : RzEnv E N) (coords : Fin N → Fin 2 → ℝ) : Prop :=
  ∀ n, (env.tiny < coords n 1 ∧ 0 < env.ext n) ∨
    (coords n 1 = 0 ∧ env.ext n = 0 ∧ n ∈ env.mesh.bdyNodes ∧
      ∃ k ∈ env.mesh.nodesInNode n, env.tiny < coords k 1 ∧ 0 < env.ext k)

/-- The mass used to accelerate the nodes, times the radius, is the conserved nodal mass, and it
is positive. -/
def RzMassOK (env : RzEnv E N) (st : RzState E N) : Prop :=
  ∀ n, 0 < st.areal n ∧ env.ext n = st.areal n * st.coords n 1

/-- The mass of an axis node is positive after the loop over the boundary nodes. -/
theorem rzArealMass_axis_pos (env : RzEnv E N) (ht : 0 < env.tiny) (coords : Fin N → Fin 2 → ℝ)
    (h : RzRadiiOK env coords) (n : Fin N) (hn : coords n 1 = 0)
    (hb : n ∈ env.mesh.bdyNodes) (hk : ∃ k ∈ env.mesh.nodesInNode n, env.tiny < coords k 1 ∧ 0 < env.ext k) :
    0 < rzArealMass env.mesh env.tiny coords env.ext n := by
  obtain ⟨k, hkn, hkt, hke⟩ := hk
  unfold rzArealMass
  have hm0 : ∀ q, 0 ≤ rzArealOffAxis env.tiny coords env.ext q := by
    intro q
    unfold rzArealOffAxis
    split
    · rename_i hq
      rcases h q with ⟨h1, h2⟩ | ⟨h1, _⟩
      · exact div_nonneg h2.le (ht.trans h1).le
      · linarith
    · exact le_rfl
  have hkm : 0 < rzArealOffAxis env.tiny coords env.ext k := by
    unfold rzArealOffAxis
    rw [if_pos hkt]
    exact div_pos hke (ht.trans hkt)
  -- the masses never decrease in the loop and the neighbour keeps its mass
  suffices H : ∀ (ns : List (Fin N)) (m : Fin N → ℝ), 0 < m k → 0 ≤ m n →
      (0 < m n ∨ n ∈ ns) → 0 < ns.foldl (rzAxisNode env.mesh env.tiny coords) m n from
    H _ _ hkm (hm0 n) (Or.inr hb)
  intro ns
  induction ns with
  | nil => intro m _ _ h3; simpa using h3
  | cons q ns ih =>
    intro m h1 h2 h3
    rw [List.foldl_cons]
    have hk' : rzAxisNode env.mesh env.tiny coords m q k = m k :=
      rzAxisNode_off _ _ _ _ _ _ (not_lt.2 hkt.le)
    by_cases hq : n = q
    · subst hq
      have := rzAxisNode_self env.mesh env.tiny coords m n (by rw [hn]; exact ht)
      have h4 : 0 < rzAxisNode env.mesh env.tiny coords m n n :=
        lt_of_lt_of_le (by linarith) (this.2.1 k hkn hkt)
      exact ih _ (by rw [hk']; exact h1) h4.le (Or.inl h4)
    · have h4 := rzAxisNode_ne env.mesh env.tiny coords m q n hq
      refine ih _ (by rw [hk']; exact h1) (by rw [h4]; exact h2) ?_
      rw [h4]
      rcases h3 with h3 | h3
      · exact Or.inl h3
      · rcases List.mem_cons.1 h3 with h3 | h3
        · exact absurd h3 hq
        · exact Or.inr h3

/-- **C52.** After every stage the accelerating mass of every node is positive, and times the
radius it is the nodal mass fixed at setup: nodal mass is conserved exactly by the rebuild of the
areal masses, on and off the axis. -/
theorem C52_areal_rebuild (env : RzEnv E N) (ht : 0 < env.tiny) (time alpha dt : ℝ)
    (st : RzState E N) (h : RzRadiiOK env (rzStage env time alpha dt st).coords) :
    RzMassOK env (rzStage env time alpha dt st) := by
  intro n
  have ha : (rzStage env time alpha dt st).areal
      = rzArealMass env.mesh env.tiny (rzStage env time alpha dt st).coords env.ext := rfl
  rw [ha]
  rcases h n with ⟨h1, h2⟩ | ⟨h1, h2, h3, h4⟩
  · rw [rzArealMass_off _ _ _ _ _ h1]
    have hp := ht.trans h1
    exact ⟨div_pos h2 hp, by field_simp⟩
  · exact ⟨rzArealMass_axis_pos env ht _ h n h1 h3 h4, by rw [h1, h2, mul_zero]⟩

/-- **C52.** A boundary node on the axis gets half the largest areal mass among its neighbours off
the axis: its mass is at least half of each of them, and it is half of one of them or zero. -/
theorem C52_axis_mass (mesh : Mesh4 E N) (tiny : ℝ) (coords : Fin N → Fin 2 → ℝ)
    (ext : Fin N → ℝ) (n : Fin N) (hn : coords n 1 < tiny) (hb : n ∈ mesh.bdyNodes) :
    (∀ k ∈ mesh.nodesInNode n, coords k 1 > tiny →
      ext k / coords k 1 / 2 ≤ rzArealMass mesh tiny coords ext n) ∧
    (rzArealMass mesh tiny coords ext n = 0 ∨ ∃ k ∈ mesh.nodesInNode n, coords k 1 > tiny ∧
      rzArealMass mesh tiny coords ext n = ext k / coords k 1 / 2) := by
  unfold rzArealMass
  have h0 : ∀ k, coords k 1 > tiny → rzArealOffAxis tiny coords ext k = ext k / coords k 1 := by
    intro k hk; rw [rzArealOffAxis, if_pos hk]
  have hn0 : rzArealOffAxis tiny coords ext n = 0 := by
    rw [rzArealOffAxis, if_neg (by linarith)]
  suffices H : ∀ (ns : List (Fin N)) (m : Fin N → ℝ),
      (∀ k, coords k 1 > tiny → m k = ext k / coords k 1) →
      (m n = 0 ∨ ∃ k ∈ mesh.nodesInNode n, coords k 1 > tiny ∧ m n = ext k / coords k 1 / 2) →
      ((n ∈ ns → ∀ k ∈ mesh.nodesInNode n, coords k 1 > tiny →
        ext k / coords k 1 / 2 ≤ ns.foldl (rzAxisNode mesh tiny coords) m n) ∧
       m n ≤ ns.foldl (rzAxisNode mesh tiny coords) m n) ∧
      (ns.foldl (rzAxisNode mesh tiny coords) m n = 0 ∨ ∃ k ∈ mesh.nodesInNode n,
        coords k 1 > tiny ∧ ns.foldl (rzAxisNode mesh tiny coords) m n = ext k / coords k 1 / 2) by
    have := H mesh.bdyNodes _ h0 (Or.inl hn0)
    exact ⟨this.1.1 hb, this.2⟩
  intro ns
  induction ns with
  | nil => intro m _ h; exact ⟨⟨by simp, le_rfl⟩, h⟩
  | cons q ns ih =>
    intro m h1 h2
    rw [List.foldl_cons]
    have hoff : ∀ k, coords k 1 > tiny → rzAxisNode mesh tiny coords m q k = ext k / coords k 1 := by
      intro k hk
      rw [rzAxisNode_off _ _ _ _ _ _ (not_lt.2 hk.le), h1 k hk]
    by_cases hq : n = q
    · subst hq
      have hs := rzAxisNode_self mesh tiny coords m n hn
      have h3 : rzAxisNode mesh tiny coords m n n = 0 ∨ ∃ k ∈ mesh.nodesInNode n,
          coords k 1 > tiny ∧ rzAxisNode mesh tiny coords m n n = ext k / coords k 1 / 2 := by
        rcases hs.2.2 with h4 | ⟨k, hk1, hk2, hk3⟩
        · rw [h4]; exact h2
        · exact Or.inr ⟨k, hk1, hk2, by rw [hk3, h1 k hk2]⟩
      obtain ⟨⟨h4, h5⟩, h6⟩ := ih _ hoff h3
      refine ⟨⟨fun _ k hk1 hk2 => ?_, hs.1.trans h5⟩, h6⟩
      have := hs.2.1 k hk1 hk2
      rw [h1 k hk2] at this
      exact this.trans h5
    · have hne := rzAxisNode_ne mesh tiny coords m q n hq
      obtain ⟨⟨h4, h5⟩, h6⟩ := ih _ hoff (by rw [hne]; exact h2)
      refine ⟨⟨fun hin => ?_, by rwa [hne] at h5⟩, h6⟩
      rcases List.mem_cons.1 hin with hin | hin
      · exact absurd hin hq
      · exact h4 hin

/-! ### Runs -/

/-- State after `rk_init_rz` and the first `k` of `S` stages. -/
noncomputable def rzPartial (env : RzEnv E N) (S : ℕ) (time dt : ℝ) (st : RzState E N) (k : ℕ) :
    RzState E N :=
  (List.range k).foldl (fun st s => rzStage env time (1 / ((S : ℝ) - (s : ℝ))) dt st) (rzInit st)

/-- `P` holds for every state the run goes through (specification). -/
def RzAlong (P : RzState E N → Prop) (env : RzEnv E N) (S : ℕ) :
    ℝ → List ℝ → RzState E N → Prop
  | _, [], _ => True
  | time, dt :: dts, st => (∀ k ≤ S, P (rzPartial env S time dt st k)) ∧
      RzAlong P env S (time + dt) dts (rzCycle env S time dt st)

theorem rzPartial_succ (env : RzEnv E N) (S : ℕ) (time dt : ℝ) (st : RzState E N) (k : ℕ) :
    rzPartial env S time dt st (k + 1)
      = rzStage env time (1 / ((S : ℝ) - (k : ℝ))) dt (rzPartial env S time dt st k) := by
  simp [rzPartial, List.range_succ]

/-- Induction over a run with an assumption on all visited states: `I` is kept by the saving of
the step state together with `J` inside the cycle. -/
theorem rzRun_induct (env : RzEnv E N) (S : ℕ) (hS : 0 < S) (P I : RzState E N → Prop)
    (J : RzState E N → RzState E N → Prop)
    (h0 : ∀ st, I st → P (rzInit st) → J st (rzInit st))
    (hJ : ∀ st time alpha dt s, J st s → P s → P (rzStage env time alpha dt s) →
      J st (rzStage env time alpha dt s))
    (hI : ∀ st time alpha dt s, J st s → P s → P (rzStage env time alpha dt s) →
      I (rzStage env time alpha dt s))
    (time : ℝ) (dts : List ℝ) (st : RzState E N) (hst : I st) (hP : RzAlong P env S time dts st) :
    I (rzRun env S time dts st) := by
  induction dts generalizing time st with
  | nil => exact hst
  | cons dt dts ih =>
    obtain ⟨hk, hrest⟩ := hP
    refine ih _ _ ?_ hrest
    have hJk : ∀ k, k ≤ S → J st (rzPartial env S time dt st k) := by
      intro k
      induction k with
      | zero => intro _; exact h0 st hst (hk 0 (by omega))
      | succ k ihk =>
        intro hkS
        rw [rzPartial_succ]
        exact hJ _ _ _ _ _ (ihk (by omega)) (hk k (by omega))
          (by rw [← rzPartial_succ]; exact hk (k + 1) hkS)
    obtain ⟨k, rfl⟩ : ∃ k, S = k + 1 := ⟨S - 1, by omega⟩
    have : rzCycle env (k + 1) time dt st = rzPartial env (k + 1) time dt st (k + 1) := rfl
    rw [this, rzPartial_succ]
    exact hI st _ _ _ _ (hJk k (by omega)) (hk k (by omega))
      (by rw [← rzPartial_succ]; exact hk (k + 1) le_rfl)

/-- The boundary sets only clamp velocity components to zero (specification; zero-velocity sets and
axis-aligned symmetry planes). -/
def RzClamp (sets : List (VelSet (Fin N) ℝ 2)) (Z : Fin N → Fin 2 → Bool) : Prop :=
  ∀ t v n d, boundaryVelocity sets t v n d = if Z n d = true then 0 else v n d

/-! ### C53: axial momentum -/

/-- Total momentum with the nodal masses of the setup (specification). -/
noncomputable def rzMomentum (ext : Fin N → ℝ) (vel : Fin N → Vel ℝ 2) (d : Fin 2) : ℝ :=
  ∑ n, ext n * vel n d

/-- The elements carrying material are convex and above the volume floor. -/
def RzGeoOK (mesh : Mesh4 E N) (coords : Fin N → Fin 2 → ℝ) (mats : List (RzMat E)) : Prop :=
  ∀ m ∈ mats, ∀ p ∈ m.pts,
    ConvexCCW (rzCoords mesh coords p.elem 0) (rzCoords mesh coords p.elem 1) ∧
    volFloor ≤ quadVolRaw (rzCoords mesh coords p.elem 0) (rzCoords mesh coords p.elem 1)

/-- **C53.** For every stress, the radius-weighted axial corner forces of a material point add up
to the radius-weighted axial dissipation force alone: the stress creates no axial momentum. -/
theorem C53_point (mesh : Mesh4 E N) (coords : Fin N → Fin 2 → ℝ) (dec : Bool)
    (disp : Fin 4 → Fin 2 → ℝ) (p : RzPt E) (he : p.eroded = false)
    (hc : ConvexCCW (rzCoords mesh coords p.elem 0) (rzCoords mesh coords p.elem 1))
    (hv : volFloor ≤ quadVolRaw (rzCoords mesh coords p.elem 0) (rzCoords mesh coords p.elem 1)) :
    ∑ l, rzMatForce mesh coords dec disp p l 0 * coords (mesh.nodesInElem p.elem l) 1
      = (∑ l, disp l 0 * coords (mesh.nodesInElem p.elem l) 1) * (p.volfrac * p.geoVolfrac) := by
  set x := rzCoords mesh coords p.elem 0 with hx
  set y := rzCoords mesh coords p.elem 1 with hy
  have hy' : ∀ l, coords (mesh.nodesInElem p.elem l) 1 = y l := fun l => rfl
  have hvol : rzVol mesh coords p.elem = quadVolRaw x y := by
    rw [rzVol, volQuad, max_eq_left hv]
  have hvpos : 0 < quadVolRaw x y := lt_of_lt_of_le (by unfold volFloor; positivity) hv
  have hB0 : ∑ l, rzB mesh coords p.elem l 0 * y l = 0 := by
    have := C09_bmatrix2D_linear x y 0 1
    simp only [coord2, Fin.isValue, zero_ne_one, if_false] at this
    exact this
  have hB1 : ∑ l, rzB mesh coords p.elem l 1 * y l = rzArea mesh coords p.elem := by
    have := C09_bmatrix2D_linear x y 1 1
    simp only [coord2, if_true] at this
    exact this
  have hA : ∑ l, rzCornerArea mesh coords p.elem l * y l = quadVolRaw x y :=
    C52_corner_volume x y hc
  have hterm : ∀ l, rzMatForce mesh coords dec disp p l 0 * y l
      = (-(rzTau dec p 0 0) * (rzB mesh coords p.elem l 0 * y l)
        + -(rzTau dec p 1 0) * (rzB mesh coords p.elem l 1 * y l) + disp l 0 * y l
        + rzTau dec p 1 0 * (rzArea mesh coords p.elem / quadVolRaw x y)
          * (rzCornerArea mesh coords p.elem l * y l)) * (p.volfrac * p.geoVolfrac) := by
    intro l
    simp only [rzMatForce, he, rzForceComponent, rzHoopForce, rzMeanRadius, hvol, Fin.castSucc_zero]
    rw [if_neg (by simp), div_div_eq_mul_div]
    ring
  simp only [hy', hterm]
  rw [← Finset.sum_mul, Finset.sum_add_distrib, Finset.sum_add_distrib, Finset.sum_add_distrib,
    ← Finset.mul_sum, ← Finset.mul_sum, ← Finset.mul_sum, hB0, hB1, hA]
  congr 1
  field_simp
  ring

/-- Radius-weighted axial dissipation forces of all points (specification). -/
noncomputable def rzDissipationAxial (env : RzEnv E N) (st : RzState E N) : ℝ :=
  (st.mats.map fun m => (m.pts.map fun p => if p.eroded = true then 0 else
    (∑ l, env.closures.disp st m p l 0 * st.coords (env.mesh.nodesInElem p.elem l) 1)
      * (p.volfrac * p.geoVolfrac)).sum).sum

/-- Change of velocity before the boundary conditions, weighted with the nodal mass. -/
theorem rz_ext_mul_free (env : RzEnv E N) (alpha dt : ℝ) (st : RzState E N) (h : RzMassOK env st)
    (n : Fin N) (d : Fin 2) :
    env.ext n * rzVelFree env alpha dt st n d = env.ext n * st.velN0 n d
      + alpha * dt * (rzNodeForce env.mesh (rzCornerForces env.mesh env.closures st) n d
        * st.coords n 1) := by
  obtain ⟨h1, h2⟩ := h n
  rw [rzVelFree, rzUpdateVelocity, h2]
  have := h1.ne'
  field_simp

/-- **C53.** Axial momentum balance of one stage before the boundary conditions: only the
dissipation forces change it, by their radius-weighted sum.  Any stresses, any materials. -/
theorem C53_stage_balance (env : RzEnv E N) (hWF : env.mesh.WF) (alpha dt : ℝ)
    (st : RzState E N) (hm : RzMassOK env st) (hcons : RzErosionConsistent st.mats)
    (hgeo : RzGeoOK env.mesh st.coords st.mats) :
    rzMomentum env.ext (rzVelFree env alpha dt st) 0
      = rzMomentum env.ext st.velN0 0 + alpha * dt * rzDissipationAxial env st := by
  simp only [rzMomentum, rz_ext_mul_free env alpha dt st hm, Finset.sum_add_distrib,
    ← Finset.mul_sum]
  congr 2
  rw [rz_sum_nodeForce env.mesh hWF _ 0 fun n => st.coords n 1]
  have h2 : ∀ c : Fin E × Fin 4, rzCornerForces env.mesh env.closures st c 0
        * st.coords (env.mesh.nodesInElem c.1 c.2) 1
      = (st.mats.map fun m => (m.pts.map fun p => (if c.1 = p.elem then
          rzMatForce env.mesh st.coords m.decoupledEOS (env.closures.disp st m p) p c.2 0 else 0)
            * st.coords (env.mesh.nodesInElem c.1 c.2) 1).sum).sum := by
    intro c
    rw [rzCornerForces_sum _ _ _ hcons, mul_comm, ← listSum_mul]
    congr 1
    apply List.map_congr_left
    intro m _
    rw [← listSum_mul]
    simp only [mul_comm]
  simp only [h2]
  rw [← listSum_finset]
  simp only [rzDissipationAxial]
  congr 1
  apply List.map_congr_left
  intro m hmm
  rw [← listSum_finset]
  congr 1
  apply List.map_congr_left
  intro p hp
  rw [rz_sum_elem p.elem
    (fun l => rzMatForce env.mesh st.coords m.decoupledEOS (env.closures.disp st m p) p l 0)
    fun c => st.coords (env.mesh.nodesInElem c.1 c.2) 1]
  cases he : p.eroded
  · rw [if_neg (by simp)]
    exact C53_point env.mesh st.coords _ _ p he (hgeo m hmm p hp).1 (hgeo m hmm p hp).2
  · rw [if_pos rfl]
    apply Finset.sum_eq_zero
    intro l _
    rw [rzMatForce_eroded _ _ _ _ _ he, zero_mul]

theorem rzStage_vel (env : RzEnv E N) (time alpha dt : ℝ) (st : RzState E N) :
    (rzStage env time alpha dt st).vel = boundaryVelocity env.sets time (rzVelFree env alpha dt st) :=
  rfl

theorem rzStage_velN0 (env : RzEnv E N) (time alpha dt : ℝ) (st : RzState E N) :
    (rzStage env time alpha dt st).velN0 = st.velN0 := rfl

/-- **C53.** In a run of any number of cycles, with any step sizes and any number of stages, whose
dissipation forces vanish and whose walls do not clamp the axial direction, the total axial
momentum is conserved exactly (while elements stay convex and nodes stay on or off the axis). -/
theorem C53_run_conserves (env : RzEnv E N) (hWF : env.mesh.WF) (ht : 0 < env.tiny)
    (hdisp : ∀ st m p l, env.closures.disp st m p l 0 = 0)
    (Z : Fin N → Fin 2 → Bool) (hZ : RzClamp env.sets Z) (hz : ∀ n, Z n 0 = false)
    (S : ℕ) (hS : 0 < S) (time : ℝ) (dts : List ℝ) (st : RzState E N) (hm : RzMassOK env st)
    (halong : RzAlong (fun s => RzRadiiOK env s.coords ∧ RzErosionConsistent s.mats ∧
      RzGeoOK env.mesh s.coords s.mats) env S time dts st) :
    rzMomentum env.ext (rzRun env S time dts st).vel 0 = rzMomentum env.ext st.vel 0 := by
  have hd : ∀ s, rzDissipationAxial env s = 0 := by
    intro s
    apply List.sum_eq_zero
    intro a ha
    obtain ⟨m, _, rfl⟩ := List.mem_map.1 ha
    apply List.sum_eq_zero
    intro b hb
    obtain ⟨p, _, rfl⟩ := List.mem_map.1 hb
    simp [hdisp]
  have hstage : ∀ (s0 s : RzState E N) time alpha dt, RzMassOK env s → RzErosionConsistent s.mats →
      RzGeoOK env.mesh s.coords s.mats →
      rzMomentum env.ext (rzStage env time alpha dt s).vel 0 = rzMomentum env.ext s.velN0 0 := by
    intro s0 s time alpha dt h1 h2 h3
    have := C53_stage_balance env hWF alpha dt s h1 h2 h3
    rw [hd, mul_zero, add_zero] at this
    rw [← this, rzStage_vel]
    refine Finset.sum_congr rfl fun n _ => ?_
    rw [hZ, hz]; simp
  refine (rzRun_induct env S hS _ (fun s => RzMassOK env s ∧
      rzMomentum env.ext s.vel 0 = rzMomentum env.ext st.vel 0)
    (fun s0 s => RzMassOK env s ∧ rzMomentum env.ext s.velN0 0 = rzMomentum env.ext st.vel 0)
    ?_ ?_ ?_ time dts st ⟨hm, rfl⟩ halong).2
  · intro s ⟨h1, h2⟩ _
    exact ⟨h1, h2⟩
  · intro s0 time alpha dt s ⟨h1, h2⟩ hP hP'
    exact ⟨C52_areal_rebuild env ht time alpha dt s hP'.1, h2⟩
  · intro s0 time alpha dt s ⟨h1, h2⟩ hP hP'
    exact ⟨C52_areal_rebuild env ht time alpha dt s hP'.1,
      (hstage s0 s time alpha dt h1 hP.2.1 hP.2.2).trans h2⟩

/-! ### C54: energy -/

/-- Kinetic plus internal energy as the solver tallies them. -/
noncomputable def rzTotalEnergy (ext : Fin N → ℝ) (st : RzState E N) : ℝ :=
  rzKinetic ext st.vel + rzInternal st.mats

/-- The energy saved at the start of the step. -/
noncomputable def rzTotalEnergyN0 (ext : Fin N → ℝ) (st : RzState E N) : ℝ :=
  rzKinetic ext st.velN0 + rzSumPts st.mats fun p => p.mass * p.sieN0

/-- Work of the velocity boundary conditions: momentum they add times mid-step velocity
(specification). -/
noncomputable def rzWallWork (ext : Fin N → ℝ) (velFree vel velN0 : Fin N → Vel ℝ 2) : ℝ :=
  ∑ n, ∑ d, ext n * (vel n d - velFree n d) * ((vel n d + velN0 n d) / 2)

/-- The internal energy after a stage. -/
theorem rz_stage_internal (env : RzEnv E N) (hlaw : env.closures.Lawful) (time alpha dt : ℝ)
    (st : RzState E N) (hmass : ∀ m ∈ st.mats, ∀ p ∈ m.pts, p.mass ≠ 0)
    (hcons : RzErosionConsistent st.mats) :
    rzInternal (rzStage env time alpha dt st).mats
      = rzSumPts st.mats (fun p => p.mass * p.sieN0)
        - alpha * dt * ∑ c : Fin E × Fin 4, ∑ d, rzCornerForces env.mesh env.closures st c d *
            (st.coords (env.mesh.nodesInElem c.1 c.2) 1 *
            (((rzStage env time alpha dt st).vel (env.mesh.nodesInElem c.1 c.2) d
              + st.velN0 (env.mesh.nodesInElem c.1 c.2) d) * (1 / 2))) := by
  set vel := (rzStage env time alpha dt st).vel with hvel
  have hmats : rzInternal (rzStage env time alpha dt st).mats
      = (st.mats.map fun m => (m.pts.map fun p => p.mass *
          (rzUpdateEnergy env.mesh alpha dt st.coords vel st.velN0
            (rzWithForce env.mesh env.closures st m p)).sie).sum).sum := by
    simp only [rzInternal, rzStage, rzStagePre, List.map_map, Function.comp_def]
    apply rz_listSum_congr2
    intro m _ p _
    rw [(hlaw _ _ _ _).2.1, (hlaw _ _ _ _).2.2.1]
    rfl
  rw [hmats]
  let w : Fin E × Fin 4 → Fin 2 → ℝ := fun c d => st.coords (env.mesh.nodesInElem c.1 c.2) 1 *
    ((vel (env.mesh.nodesInElem c.1 c.2) d + st.velN0 (env.mesh.nodesInElem c.1 c.2) d) * (1 / 2))
  have h1 : (st.mats.map fun m => (m.pts.map fun p => p.mass *
          (rzUpdateEnergy env.mesh alpha dt st.coords vel st.velN0
            (rzWithForce env.mesh env.closures st m p)).sie).sum).sum
      = (st.mats.map fun m => (m.pts.map fun p => (p.mass * p.sieN0
          + (-(alpha * dt)) * ∑ c : Fin E × Fin 4, ∑ d, (if c.1 = p.elem then rzMatForce env.mesh
              st.coords m.decoupledEOS (env.closures.disp st m p) p c.2 d else 0) * w c d)).sum).sum := by
    apply rz_listSum_congr2
    intro m hm p hp
    have hne := hmass m hm p hp
    simp only [rzUpdateEnergy, rzWithForce]
    rw [rzPointPower_eq]
    have hsum : ∑ c : Fin E × Fin 4, ∑ d, (if c.1 = p.elem then rzMatForce env.mesh
              st.coords m.decoupledEOS (env.closures.disp st m p) p c.2 d else 0) * w c d
        = ∑ l, ∑ d, rzMatForce env.mesh
              st.coords m.decoupledEOS (env.closures.disp st m p) p l d * w (p.elem, l) d := by
      rw [Fintype.sum_prod_type, Finset.sum_eq_single p.elem]
      · simp
      · intro e _ he; simp [he]
      · simp
    rw [hsum]
    simp only [w, mul_assoc]
    field_simp
    ring
  rw [h1]
  simp only [listSum_add, listSum_mul]
  rw [rzSumPts, sub_eq_add_neg]
  congr 1
  rw [neg_mul]
  congr 2
  simp only [listSum_finset]
  apply Finset.sum_congr rfl
  intro c _
  apply Finset.sum_congr rfl
  intro d _
  rw [rzCornerForces_sum env.mesh env.closures st hcons]
  conv_rhs => rw [mul_comm, ← listSum_mul]
  congr 1
  apply List.map_congr_left
  intro m _
  rw [← listSum_mul]
  congr 1
  apply List.map_congr_left
  intro p _
  ring

/-- **C54.** Energy balance of one stage: the change of kinetic plus internal energy from the
start of the step is exactly the work of the velocity boundary conditions, for all stresses,
materials, dissipation forces, step sizes and Runge-Kutta coefficients. -/
theorem C54_stage_balance (env : RzEnv E N) (hWF : env.mesh.WF) (hlaw : env.closures.Lawful)
    (time alpha dt : ℝ) (st : RzState E N) (hm : RzMassOK env st)
    (hmass : ∀ m ∈ st.mats, ∀ p ∈ m.pts, p.mass ≠ 0) (hcons : RzErosionConsistent st.mats) :
    rzTotalEnergy env.ext (rzStage env time alpha dt st)
      = rzTotalEnergyN0 env.ext st
        + rzWallWork env.ext (rzVelFree env alpha dt st) (rzStage env time alpha dt st).vel
            st.velN0 := by
  rw [rzTotalEnergy, rz_stage_internal env hlaw time alpha dt st hmass hcons]
  set vel := (rzStage env time alpha dt st).vel with hvel
  have hk : rzKinetic env.ext vel = rzKinetic env.ext st.velN0
      + rzWallWork env.ext (rzVelFree env alpha dt st) vel st.velN0
      + alpha * dt * ∑ d, ∑ n, rzNodeForce env.mesh (rzCornerForces env.mesh env.closures st) n d
          * (st.coords n 1 * ((vel n d + st.velN0 n d) * (1 / 2))) := by
    rw [Finset.sum_comm]
    simp only [rzKinetic, rzWallWork, Finset.mul_sum]
    rw [← Finset.sum_add_distrib, ← Finset.sum_add_distrib]
    apply Finset.sum_congr rfl
    intro n _
    rw [← Finset.sum_add_distrib, ← Finset.sum_add_distrib]
    apply Finset.sum_congr rfl
    intro d _
    have := rz_ext_mul_free env alpha dt st hm n d
    linear_combination ((vel n d + st.velN0 n d) / 2) * this
  rw [hk]
  have hF : ∑ d, ∑ n, rzNodeForce env.mesh (rzCornerForces env.mesh env.closures st) n d
          * (st.coords n 1 * ((vel n d + st.velN0 n d) * (1 / 2)))
      = ∑ c : Fin E × Fin 4, ∑ d, rzCornerForces env.mesh env.closures st c d *
            (st.coords (env.mesh.nodesInElem c.1 c.2) 1 *
            ((vel (env.mesh.nodesInElem c.1 c.2) d
              + st.velN0 (env.mesh.nodesInElem c.1 c.2) d) * (1 / 2))) := by
    have := fun d => rz_sum_nodeForce env.mesh hWF (rzCornerForces env.mesh env.closures st) d
      fun n => st.coords n 1 * ((vel n d + st.velN0 n d) * (1 / 2))
    simp only [this]
    rw [Finset.sum_comm]
  rw [hF, rzTotalEnergyN0]
  ring

theorem rzWallWork_clamp (ext : Fin N → ℝ) (sets : List (VelSet (Fin N) ℝ 2))
    (Z : Fin N → Fin 2 → Bool) (hZ : RzClamp sets Z) (time : ℝ) (velFree velN0 : Fin N → Vel ℝ 2)
    (h0 : ∀ n d, Z n d = true → velN0 n d = 0) :
    rzWallWork ext velFree (boundaryVelocity sets time velFree) velN0 = 0 := by
  apply Finset.sum_eq_zero
  intro n _
  apply Finset.sum_eq_zero
  intro d _
  rw [hZ]
  by_cases h : Z n d = true
  · simp [h, h0 n d h]
  · simp [h]

/-- A stage maps the material points one by one, keeping element, mass and saved energy. -/
theorem rzStage_mats (env : RzEnv E N) (hlaw : env.closures.Lawful) (time alpha dt : ℝ)
    (st : RzState E N) :
    ∃ g : RzMat E → RzPt E → RzPt E,
      (∀ m p, (g m p).elem = p.elem ∧ (g m p).mass = p.mass ∧ (g m p).sieN0 = p.sieN0) ∧
      (rzStage env time alpha dt st).mats
        = st.mats.map fun m => { m with pts := m.pts.map (g m) } := by
  let upd : RzMat E → RzPt E → RzPt E := fun m p =>
    rzUpdateEnergy env.mesh alpha dt st.coords (rzStage env time alpha dt st).vel st.velN0
      (rzWithForce env.mesh env.closures st m p)
  refine ⟨fun m p => env.closures.update st (rzStagePre env time alpha dt st)
    { m with pts := m.pts.map (upd m) } (upd m p), ?_, ?_⟩
  · intro m p
    refine ⟨?_, ?_, ?_⟩
    · rw [(hlaw _ _ _ _).1]; rfl
    · rw [(hlaw _ _ _ _).2.1]; rfl
    · rw [(hlaw _ _ _ _).2.2.2]; rfl
  · simp only [rzStage, rzStagePre, List.map_map, Function.comp_def, upd]

/-- **C54.** In a run of any number of cycles, with any step sizes, any number of stages, walls and
symmetry planes (nodes on them start at rest in the clamped directions), kinetic plus internal
energy is the same at the end as at the start. -/
theorem C54_run_conserves (env : RzEnv E N) (hWF : env.mesh.WF) (hlaw : env.closures.Lawful)
    (ht : 0 < env.tiny) (Z : Fin N → Fin 2 → Bool) (hZ : RzClamp env.sets Z)
    (S : ℕ) (hS : 0 < S) (time : ℝ) (dts : List ℝ) (st : RzState E N) (hm : RzMassOK env st)
    (hmass : ∀ m ∈ st.mats, ∀ p ∈ m.pts, p.mass ≠ 0)
    (hv0 : ∀ n d, Z n d = true → st.vel n d = 0)
    (halong : RzAlong (fun s => RzRadiiOK env s.coords ∧ RzErosionConsistent s.mats)
      env S time dts st) :
    rzTotalEnergy env.ext (rzRun env S time dts st) = rzTotalEnergy env.ext st := by
  have hmap : ∀ (mats : List (RzMat E)) (g : RzMat E → RzPt E → RzPt E),
      (∀ m p, (g m p).mass = p.mass) → (∀ m ∈ mats, ∀ p ∈ m.pts, p.mass ≠ 0) →
      ∀ m ∈ mats.map (fun m => { m with pts := m.pts.map (g m) }), ∀ p ∈ m.pts, p.mass ≠ 0 := by
    intro mats g hg h m hm' p hp
    rw [List.mem_map] at hm'
    obtain ⟨m0, hm0, rfl⟩ := hm'
    simp only [List.mem_map] at hp
    obtain ⟨p0, hp0, rfl⟩ := hp
    rw [hg m0 p0]
    exact h m0 hm0 p0 hp0
  refine (rzRun_induct env S hS _ (fun s => RzMassOK env s ∧
      (∀ m ∈ s.mats, ∀ p ∈ m.pts, p.mass ≠ 0) ∧ (∀ n d, Z n d = true → s.vel n d = 0) ∧
      rzTotalEnergy env.ext s = rzTotalEnergy env.ext st)
    (fun s0 s => RzMassOK env s ∧ (∀ m ∈ s.mats, ∀ p ∈ m.pts, p.mass ≠ 0) ∧
      (∀ n d, Z n d = true → s.velN0 n d = 0) ∧
      rzTotalEnergyN0 env.ext s = rzTotalEnergy env.ext st)
    ?_ ?_ ?_ time dts st ⟨hm, hmass, hv0, rfl⟩ halong).2.2.2
  · intro s ⟨h1, h2, h3, h4⟩ _
    refine ⟨h1, hmap s.mats (fun _ p => { p with sieN0 := p.sie, stressN0 := p.stress })
      (fun _ _ => rfl) h2, h3, ?_⟩
    rw [← h4]
    simp only [rzTotalEnergyN0, rzTotalEnergy, rzInternal, rzInit, rzSumPts, List.map_map,
      Function.comp_def]
  · intro s0 time alpha dt s ⟨h1, h2, h3, h4⟩ hP hP'
    obtain ⟨g, hg, hgm⟩ := rzStage_mats env hlaw time alpha dt s
    refine ⟨C52_areal_rebuild env ht time alpha dt s hP'.1, ?_, h3, ?_⟩
    · rw [hgm]; exact hmap s.mats g (fun m p => (hg m p).2.1) h2
    · rw [← h4, rzTotalEnergyN0, rzTotalEnergyN0, hgm, rzStage_velN0]
      congr 1
      simp only [rzSumPts, List.map_map, Function.comp_def]
      apply rz_listSum_congr2
      intro m _ p _
      rw [(hg m p).2.1, (hg m p).2.2]
  · intro s0 time alpha dt s ⟨h1, h2, h3, h4⟩ hP hP'
    obtain ⟨g, hg, hgm⟩ := rzStage_mats env hlaw time alpha dt s
    refine ⟨C52_areal_rebuild env ht time alpha dt s hP'.1, ?_, ?_, ?_⟩
    · rw [hgm]; exact hmap s.mats g (fun m p => (hg m p).2.1) h2
    · intro n d hnd
      rw [rzStage_vel, hZ, if_pos hnd]
    · rw [C54_stage_balance env hWF hlaw time alpha dt s h1 h2 hP.2, h4, rzStage_vel,
        rzWallWork_clamp env.ext env.sets Z hZ time _ _ h3, add_zero]

/-- **C54.** Material masses never change during a run. -/
theorem C54_material_mass (env : RzEnv E N) (hlaw : env.closures.Lawful)
    (S : ℕ) (hS : 0 < S) (time : ℝ) (dts : List ℝ) (st : RzState E N) :
    rzMaterialMass (rzRun env S time dts st).mats = rzMaterialMass st.mats := by
  have halong : RzAlong (fun _ => True) env S time dts st := by
    induction dts generalizing time st with
    | nil => trivial
    | cons dt dts ih => exact ⟨fun _ _ => trivial, ih _ _⟩
  refine rzRun_induct env S hS (fun _ => True)
    (fun s => rzMaterialMass s.mats = rzMaterialMass st.mats)
    (fun _ s => rzMaterialMass s.mats = rzMaterialMass st.mats) ?_ ?_ ?_ time dts st rfl halong
  · intro s h _
    rw [← h]
    simp [rzMaterialMass, rzInit, Function.comp_def]
  all_goals
    intro s0 time alpha dt s h _ _
    obtain ⟨g, hg, hgm⟩ := rzStage_mats env hlaw time alpha dt s
    rw [← h, hgm]
    simp only [rzMaterialMass, List.map_map, Function.comp_def]
    apply rz_listSum_congr2
    intro m _ p _
    exact (hg m p).2.1

/-! ### A concrete run meets the hypotheses -/

/-- One quadrilateral. -/
def oneQuad : Mesh4 1 4 where
  nodesInElem := fun _ l => l
  cornersInNode := fun n => [(0, n)]
  nodesInNode := fun n => [n + 1, n + 3]
  bdyNodes := [0, 1, 2, 3]

theorem oneQuad_WF : oneQuad.WF := by
  intro n
  refine ⟨by simp [oneQuad], fun c => ?_⟩
  obtain ⟨e, l⟩ := c
  have : e = 0 := Subsingleton.elim _ _
  subst this
  simp [oneQuad]

/-- The square `0 ≤ z ≤ 1`, `1 ≤ r ≤ 2`. -/
def quadRing : Fin 4 → Fin 2 → ℝ := ![![0, 1], ![1, 1], ![1, 2], ![0, 2]]

/-- A point under pressure. -/
noncomputable def rzDemoPt (er : Bool) (vf : ℝ) : RzPt 1 where
  elem := 0
  mass := 3 / 2 * vf
  sie := 0
  sieN0 := 0
  den := 1
  pres := if er then 0 else 1
  sspd := 1
  volfrac := vf
  geoVolfrac := 1
  stress := fun _ _ => 0
  stressN0 := fun _ _ => 0
  eroded := er
  cornerForce := fun _ _ => 0

noncomputable def rzDemoState (mats : List (RzMat 1)) : RzState 1 4 where
  coords := quadRing
  coordsN0 := quadRing
  vel := fun _ _ => 0
  velN0 := fun _ _ => 0
  areal := fun _ => 1
  mats := mats

noncomputable def rzDemoEnv : RzEnv 1 4 where
  mesh := oneQuad
  ext := fun n => quadRing n 1
  tiny := 1 / 10 ^ 14
  sets := []
  closures := ⟨fun _ _ _ _ _ => 0, fun _ _ _ p => p⟩

theorem rzDemo_free (n : Fin 4) (d : Fin 2) :
    rzVelFree rzDemoEnv 1 (1 / 10) (rzInit (rzDemoState [⟨0, true, [rzDemoPt false 1]⟩])) n d
      = 1 / 10 * rzB oneQuad quadRing 0 n d := by
  fin_cases n <;> fin_cases d <;>
    simp [rzVelFree, rzUpdateVelocity, rzNodeForce, rzCornerForces, rzDemoEnv, rzInit, rzDemoState,
      oneQuad, rzAddForce, rzDemoPt, rzMatForce, rzForceComponent, rzHoopForce, rzTau]

theorem rzDemo_along (P : RzState 1 4 → Prop)
    (h0 : P (rzInit (rzDemoState [⟨0, true, [rzDemoPt false 1]⟩])))
    (h1 : P (rzStage rzDemoEnv 0 1 (1 / 10)
      (rzInit (rzDemoState [⟨0, true, [rzDemoPt false 1]⟩])))) :
    RzAlong P rzDemoEnv 1 0 [1 / 10] (rzDemoState [⟨0, true, [rzDemoPt false 1]⟩]) := by
  refine ⟨fun k hk => ?_, trivial⟩
  rcases Nat.le_one_iff_eq_zero_or_eq_one.1 hk with rfl | rfl
  · exact h0
  · rw [rzPartial_succ]
    simpa [rzPartial] using h1

theorem rzDemo_coords (n : Fin 4) (d : Fin 2) :
    (rzStage rzDemoEnv 0 1 (1 / 10)
      (rzInit (rzDemoState [⟨0, true, [rzDemoPt false 1]⟩]))).coords n d
      = quadRing n d + 1 / 200 * rzB oneQuad quadRing 0 n d := by
  have : (rzStage rzDemoEnv 0 1 (1 / 10)
      (rzInit (rzDemoState [⟨0, true, [rzDemoPt false 1]⟩]))).coords n d
      = rzUpdatePosition 1 (1 / 10) quadRing
          (rzVelFree rzDemoEnv 1 (1 / 10) (rzInit (rzDemoState [⟨0, true, [rzDemoPt false 1]⟩])))
          (fun _ _ => 0) n d := rfl
  rw [this, rzUpdatePosition, rzDemo_free]
  fin_cases n <;> fin_cases d <;>
    simp [quadRing, rzB, rzCoords, oneQuad, bmatrix2D] <;> norm_num

/-- The hypotheses of the run theorems are met by an expanding ring under pressure. -/
example :
    rzTotalEnergy rzDemoEnv.ext (rzRun rzDemoEnv 1 0 [1 / 10]
      (rzDemoState [⟨0, true, [rzDemoPt false 1]⟩]))
      = rzTotalEnergy rzDemoEnv.ext (rzDemoState [⟨0, true, [rzDemoPt false 1]⟩]) ∧
    rzMomentum rzDemoEnv.ext (rzRun rzDemoEnv 1 0 [1 / 10]
      (rzDemoState [⟨0, true, [rzDemoPt false 1]⟩])).vel 0
      = rzMomentum rzDemoEnv.ext (rzDemoState [⟨0, true, [rzDemoPt false 1]⟩]).vel 0 ∧
    rzVelFree rzDemoEnv 1 (1 / 10) (rzInit (rzDemoState [⟨0, true, [rzDemoPt false 1]⟩])) 2 1 ≠ 0 := by
  have hm : RzMassOK rzDemoEnv (rzDemoState [⟨0, true, [rzDemoPt false 1]⟩]) := by
    intro n; simp [rzDemoState, rzDemoEnv]
  have hr0 : RzRadiiOK rzDemoEnv quadRing := by
    intro n
    left
    fin_cases n <;> simp [rzDemoEnv, quadRing] <;> norm_num
  have hr1 : RzRadiiOK rzDemoEnv (rzStage rzDemoEnv 0 1 (1 / 10)
      (rzInit (rzDemoState [⟨0, true, [rzDemoPt false 1]⟩]))).coords := by
    intro n
    left
    rw [rzDemo_coords]
    fin_cases n <;>
      simp [rzDemoEnv, quadRing, rzB, rzCoords, oneQuad, bmatrix2D] <;> norm_num
  have hlaw : rzDemoEnv.closures.Lawful := fun _ _ _ _ => ⟨rfl, rfl, rfl, rfl⟩
  have hZ : RzClamp rzDemoEnv.sets (fun _ _ => false) := by
    intro t v n d; simp [rzDemoEnv, boundaryVelocity]
  have hc : ∀ mats : List (RzMat 1), (∃ p, mats = [⟨0, true, [p]⟩]) → RzErosionConsistent mats := by
    rintro _ ⟨p, rfl⟩ m hm p hp m' hm' p' hp' _
    simp only [List.mem_singleton] at hm hm'
    subst hm; subst hm'
    simp only [List.mem_singleton] at hp hp'
    rw [hp, hp']
  have hmats : (rzStage rzDemoEnv 0 1 (1 / 10)
      (rzInit (rzDemoState [⟨0, true, [rzDemoPt false 1]⟩]))).mats
      = [⟨0, true, [rzUpdateEnergy oneQuad 1 (1 / 10) quadRing (rzStage rzDemoEnv 0 1 (1 / 10)
      (rzInit (rzDemoState [⟨0, true, [rzDemoPt false 1]⟩]))).vel (fun _ _ => 0)
        (rzWithForce oneQuad rzDemoEnv.closures
          (rzInit (rzDemoState [⟨0, true, [rzDemoPt false 1]⟩])) ⟨0, true, [rzDemoPt false 1]⟩
          (rzDemoPt false 1))]⟩] := rfl
  refine ⟨?_, ?_, ?_⟩
  · refine C54_run_conserves rzDemoEnv oneQuad_WF hlaw (by simp [rzDemoEnv]) _ hZ 1 (by norm_num)
      0 _ _ hm ?_ (by simp) (rzDemo_along _ ⟨hr0, ?_⟩ ⟨hr1, ?_⟩)
    · intro m hm p hp
      simp only [rzDemoState, List.mem_singleton] at hm
      subst hm
      simp only [List.mem_singleton] at hp
      subst hp
      simp [rzDemoPt]
    · exact hc _ ⟨_, rfl⟩
    · rw [hmats]; exact hc _ ⟨_, rfl⟩
  · refine C53_run_conserves rzDemoEnv oneQuad_WF (by simp [rzDemoEnv])
      (fun _ _ _ _ => rfl) _ hZ (fun _ => rfl) 1 (by norm_num)
      0 _ _ hm (rzDemo_along _ ⟨hr0, ?_, ?_⟩ ⟨hr1, ?_, ?_⟩)
    · exact hc _ ⟨_, rfl⟩
    · intro m hm p hp
      have : p.elem = 0 := Subsingleton.elim _ _
      rw [this]
      constructor
      · simp [ConvexCCW, triArea, rzCoords, rzDemoEnv, oneQuad, rzInit, rzDemoState, quadRing]
        norm_num
      · simp [quadVolRaw, rzCoords, rzDemoEnv, oneQuad, rzInit, rzDemoState, quadRing, volFloor]
        norm_num
    · rw [hmats]; exact hc _ ⟨_, rfl⟩
    · intro m hm p hp
      have : p.elem = 0 := Subsingleton.elim _ _
      rw [this]
      have hcd : ∀ d l, rzCoords rzDemoEnv.mesh (rzStage rzDemoEnv 0 1 (1 / 10)
          (rzInit (rzDemoState [⟨0, true, [rzDemoPt false 1]⟩]))).coords 0 d l
          = quadRing l d + 1 / 200 * rzB oneQuad quadRing 0 l d := fun d l => rzDemo_coords l d
      constructor
      · simp only [ConvexCCW, triArea, hcd]
        simp [rzB, rzCoords, oneQuad, quadRing, bmatrix2D]
        norm_num
      · simp only [quadVolRaw, hcd]
        simp [rzB, rzCoords, oneQuad, quadRing, bmatrix2D, volFloor]
        norm_num
  · rw [rzDemo_free]
    simp [rzB, rzCoords, oneQuad, quadRing, bmatrix2D]

/-- **C52 (negative result).** The corner masses ignore volume fractions: in an element shared half
and half by two materials of equal density the nodal mass is twice the material mass. -/
theorem C52_mixed_element_fails :
    let mats : List (RzMat 1) := [⟨0, true, [rzDemoPt false (1 / 2)]⟩, ⟨1, true, [rzDemoPt false (1 / 2)]⟩]
    (∀ m ∈ mats, ∀ p ∈ m.pts, p.mass = p.den * p.volfrac * p.geoVolfrac * rzVol oneQuad quadRing p.elem) ∧
    ∑ n, rzSetupExt oneQuad quadRing mats n = 2 * rzMaterialMass mats ∧ rzMaterialMass mats = 3 / 2 := by
  have hcv : ConvexCCW (rzCoords oneQuad quadRing 0 0) (rzCoords oneQuad quadRing 0 1) := by
    simp [ConvexCCW, triArea, rzCoords, oneQuad, quadRing]
    norm_num
  have hv : quadVolRaw (rzCoords oneQuad quadRing 0 0) (rzCoords oneQuad quadRing 0 1) = 3 / 2 := by
    simp [quadVolRaw, rzCoords, oneQuad, quadRing]
    norm_num
  have hA : ∑ l, rzCornerArea oneQuad quadRing 0 l * quadRing (oneQuad.nodesInElem 0 l) 1 = 3 / 2 := by
    rw [← hv]; exact C52_corner_volume _ _ hcv
  intro mats
  refine ⟨?_, ?_, ?_⟩
  · intro m hm p hp
    have hvol : rzVol oneQuad quadRing 0 = 3 / 2 := by
      rw [rzVol, volQuad, hv, max_eq_left (by unfold volFloor; norm_num)]
    have hp' : p = rzDemoPt false (1 / 2) := by
      simp only [mats, List.mem_cons, List.not_mem_nil, or_false] at hm
      rcases hm with rfl | rfl <;> simpa using hp
    subst hp'
    simp only [rzDemoPt, hvol]
    norm_num
  · simp only [rzSetupExt, rzExtensive]
    rw [rz_sum_areal oneQuad oneQuad_WF quadRing mats fun n => quadRing n 1]
    simp only [rzSumPts, mats, List.map_cons, List.map_nil, List.sum_cons, List.sum_nil, rzDemoPt, hA,
      rzMaterialMass]
    norm_num
  · simp only [mats, rzMaterialMass, List.map_cons, List.map_nil, List.sum_cons, List.sum_nil, rzDemoPt]
    norm_num

end Fierro
