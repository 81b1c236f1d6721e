import Verif.Props.LevelSet
import Verif.Props.SghRzKinematics

/-!
# C62, C63: plane meshes, boundary velocities and stages of the level set solver
-/

namespace Fierro

variable {E N m D : ℕ}

/-- The tables of a quadrilateral mesh. -/
def lsMesh2 (mesh : Mesh4 E N) : LsMesh E N 4 := ⟨mesh.nodesInElem, mesh.cornersInNode⟩

/-! ### C62: the gradient on quadrilaterals -/

/-- **C62.** On any quadrilateral mesh a uniform level set has zero gradient at the nodes whose elements close up. -/
theorem C62_uniform_field_2d (mesh : Mesh4 E N) (coords : Fin N → Fin 2 → ℝ) (n : Fin N) (hn : RzInterior mesh n)
    (phi : Fin E → ℝ) (c : ℝ) (hc : ∀ x ∈ mesh.cornersInNode n, phi x.1 = c) (d : Fin 2) :
    lsGrad (lsMesh2 mesh) (lsGeom2 mesh coords) phi n d = 0 := by
  rw [lsGrad_eq]
  have h := C56_equilibrium mesh coords (fun x d => rzB mesh coords x.1 x.2 d * phi x.1) c n hn
    (fun x hx d => by simp only [hc x hx]; ring) d
  rw [rzNodeForce_eq] at h
  simp only [lsMesh2, lsGeom2]
  rw [h, zero_div]

/-- Specification: the four elements and nine nodes around an interior node of a structured block; local nodes run
counter-clockwise from the lower left. -/
structure QuadBlock (mesh : Mesh4 E N) (n : Fin N) where
  P : ℕ → ℕ → Fin N
  el : ℕ → ℕ → Fin E
  nodes : ∀ a < 2, ∀ b < 2, mesh.nodesInElem (el a b) 0 = P a b ∧ mesh.nodesInElem (el a b) 1 = P (a + 1) b ∧
    mesh.nodesInElem (el a b) 2 = P (a + 1) (b + 1) ∧ mesh.nodesInElem (el a b) 3 = P a (b + 1)
  corners : (mesh.cornersInNode n).Perm [(el 0 0, 2), (el 1 0, 3), (el 1 1, 0), (el 0 1, 1)]

/-- **C62.** For a linear level set sampled at the element centres of a lattice of parallelograms the computed nodal
gradient is exact up to its sign: it is minus the gradient of the field. -/
theorem C62_linear_field_2d (mesh : Mesh4 E N) (coords : Fin N → Fin 2 → ℝ) (n : Fin N) (Q : QuadBlock mesh n)
    (o u v : Fin 2 → ℝ)
    (hL : ∀ a < 3, ∀ b < 3, ∀ d, coords (Q.P a b) d = o d + (a : ℝ) * u d + (b : ℝ) * v d)
    (hdet : u 0 * v 1 - u 1 * v 0 ≠ 0) (phi : Fin E → ℝ) (p0 : ℝ) (g : Fin 2 → ℝ)
    (hphi : ∀ a < 2, ∀ b < 2, phi (Q.el a b) = p0 + ∑ d, g d *
      (o d + ((a : ℝ) + 1 / 2) * u d + ((b : ℝ) + 1 / 2) * v d)) (d : Fin 2) :
    lsGrad (lsMesh2 mesh) (lsGeom2 mesh coords) phi n d = -g d := by
  rw [lsGrad_eq]
  have h0 : (0 : ℕ) < 2 := by norm_num
  have h1 : (1 : ℕ) < 2 := by norm_num
  have hx : ∀ a < 2, ∀ b < 2, ∀ d, rzCoords mesh coords (Q.el a b) d
      = ![o d + (a : ℝ) * u d + (b : ℝ) * v d, o d + ((a : ℝ) + 1) * u d + (b : ℝ) * v d,
        o d + ((a : ℝ) + 1) * u d + ((b : ℝ) + 1) * v d, o d + (a : ℝ) * u d + ((b : ℝ) + 1) * v d] := by
    intro a ha b hb d
    obtain ⟨n0, n1, n2, n3⟩ := Q.nodes a ha b hb
    funext l
    fin_cases l
    · simp only [rzCoords, Fin.zero_eta, n0, hL a (by omega) b (by omega)]; simp
    · simp only [rzCoords, Fin.mk_one, n1, hL (a + 1) (by omega) b (by omega)]; simp
    · simp only [rzCoords, Fin.reduceFinMk, n2, hL (a + 1) (by omega) (b + 1) (by omega)]; simp
    · simp only [rzCoords, Fin.reduceFinMk, n3, hL a (by omega) (b + 1) (by omega)]; simp
  have hA : ∀ a < 2, ∀ b < 2, (lsGeom2 mesh coords).vol (Q.el a b) = u 0 * v 1 - u 1 * v 0 := by
    intro a ha b hb
    simp only [lsGeom2, rzArea, hx a ha b hb, areaQuad]
    simp
    ring
  have hn : ((lsMesh2 mesh).cornersInNode n).Perm _ := Q.corners
  rw [(hn.map _).sum_eq, (hn.map _).sum_eq]
  simp only [List.map_cons, List.map_nil, List.sum_cons, List.sum_nil, hA 0 h0 0 h0, hA 1 h1 0 h0, hA 1 h1 1 h1,
    hA 0 h0 1 h1, hphi 0 h0 0 h0, hphi 1 h1 0 h0, hphi 1 h1 1 h1, hphi 0 h0 1 h1, Fin.sum_univ_two]
  have hden : 1 / ((4 : ℕ) : ℝ) * (u 0 * v 1 - u 1 * v 0) + (1 / ((4 : ℕ) : ℝ) * (u 0 * v 1 - u 1 * v 0)
      + (1 / ((4 : ℕ) : ℝ) * (u 0 * v 1 - u 1 * v 0) + (1 / ((4 : ℕ) : ℝ) * (u 0 * v 1 - u 1 * v 0) + 0)))
      = u 0 * v 1 - u 1 * v 0 := by push_cast; ring
  rw [hden, div_eq_iff hdet]
  fin_cases d
  · simp only [lsGeom2, rzB, hx 0 h0 0 h0, hx 1 h1 0 h0, hx 1 h1 1 h1, hx 0 h0 1 h1, bmatrix2D, Fin.zero_eta]
    simp
    ring
  · simp only [lsGeom2, rzB, hx 0 h0 0 h0, hx 1 h1 0 h0, hx 1 h1 1 h1, hx 0 h0 1 h1, bmatrix2D, Fin.mk_one]
    simp
    ring

/-- The 2 × 2 block of unit squares. -/
def quadBlockMesh : Mesh4 4 9 where
  nodesInElem := fun e l => ⟨(e.val % 2 + (![0, 1, 1, 0] : Fin 4 → ℕ) l + 3 * (e.val / 2 + (![0, 0, 1, 1] : Fin 4 → ℕ) l)) % 9,
    Nat.mod_lt _ (by norm_num)⟩
  cornersInNode := fun n => (List.finRange 4 ×ˢ List.finRange 4).filter fun c =>
    (c.1.val % 2 + (![0, 1, 1, 0] : Fin 4 → ℕ) c.2 + 3 * (c.1.val / 2 + (![0, 0, 1, 1] : Fin 4 → ℕ) c.2)) % 9 = n.val
  nodesInNode := fun _ => []
  bdyNodes := []

/-- Its middle node is interior in the sense of the theorems. -/
def quadBlock : QuadBlock quadBlockMesh 4 where
  P := fun a b => ⟨(a + 3 * b) % 9, Nat.mod_lt _ (by norm_num)⟩
  el := fun a b => ⟨(a + 2 * b) % 4, Nat.mod_lt _ (by norm_num)⟩
  nodes := by decide
  corners := by decide

example : RzInterior quadBlockMesh 4 := by unfold RzInterior; decide

/-- **C62 (what fails, in the plane too).**  For `phi = x` on unit squares the stored gradient at the middle node is
`(-1, 0)`. -/
theorem C62_gradient_sign_2d_fails : ∀ d, lsGrad (lsMesh2 quadBlockMesh)
    (lsGeom2 quadBlockMesh fun n => ![((n.val % 3 : ℕ) : ℝ), ((n.val / 3 : ℕ) : ℝ)]) (fun e => (e.val % 2 : ℕ) + 1 / 2) 4 d
      = (![-1, 0] : Fin 2 → ℝ) d := by
  intro d
  rw [C62_linear_field_2d quadBlockMesh _ 4 quadBlock (fun _ => 0) ![1, 0] ![0, 1] ?_ (by simp) _ 0 ![1, 0] ?_ d]
  · fin_cases d <;> simp
  · intro a ha b hb d
    have hv : (quadBlock.P a b).val = a + 3 * b := by
      show (a + 3 * b) % 9 = _
      omega
    have h0 : (a + 3 * b) % 3 = a := by omega
    have h1 : (a + 3 * b) / 3 = b := by omega
    simp only [hv, h0, h1]
    fin_cases d <;> simp
  · intro a ha b hb
    have hv : (quadBlock.el a b).val = a + 2 * b := by
      show (a + 2 * b) % 4 = _
      omega
    have h0 : (a + 2 * b) % 2 = a := by omega
    simp only [hv, h0]
    simp

/-- One square of side one whose lower edge is at radius `r`. -/
def squareAt (r : ℝ) (n : Fin 4) : Fin 2 → ℝ := ![(![0, 1, 1, 0] : Fin 4 → ℝ) n, r + (![0, 0, 1, 1] : Fin 4 → ℝ) n]

/-- One quadrilateral. -/
def squareMesh : Mesh4 1 4 where
  nodesInElem := fun _ l => l
  cornersInNode := fun n => [(0, n)]
  nodesInNode := fun _ => []
  bdyNodes := []

/-- **C63 (what fails: the smoothing length in the plane).**  On quadrilaterals the length over which the sign of the
level set is smoothed is computed from the volume swept around the axis, not from the area: the same unit square has the
smoothing length `2 √(r + 1/2)` when its lower edge is at radius `r`, so that it grows without bound away from the axis
(on hexahedra of side one it is 2). -/
theorem C63_smoothing_length_fails (r : ℝ) (hr : 0 ≤ r) :
    (lsGeom2 squareMesh (squareAt r)).vol 0 = 1 ∧
    (lsGeom2 squareMesh (squareAt r)).len 0 = 2 * Real.sqrt (r + 1 / 2) := by
  constructor
  · simp [lsGeom2, rzArea, areaQuad, rzCoords, squareAt, squareMesh]
    norm_num
  · have hv : quadVolRaw (rzCoords squareMesh (squareAt r) 0 0) (rzCoords squareMesh (squareAt r) 0 1) = r + 1 / 2 := by
      simp [quadVolRaw, rzCoords, squareAt, squareMesh]
      ring
    simp only [lsGeom2, rzVol, volQuad, hv]
    rw [max_eq_left]
    unfold volFloor
    norm_num
    linarith

/-! ### C63: boundary velocities -/

/-- **C63.** The velocity of a node is set by the last boundary set that lists it: it is parallel to the velocity that set
prescribes and shorter than a unit vector by an amount controlled by the safeguard (zero if zero is prescribed).  A node
in no set keeps its velocity. -/
theorem C63_boundary (small : ℝ) (hf : 0 < small) (pre post : List (VelSet (Fin N) ℝ D)) (s : VelSet (Fin N) ℝ D)
    (time : ℝ) (vel : Fin N → Vel ℝ D) (n : Fin N) :
    (s.nodes.Nodup → n ∈ s.nodes → (∀ s' ∈ post, n ∉ s'.nodes) →
      let w := s.bc time (lsBoundary small pre time vel n)
      let r := lsBoundary small (pre ++ s :: post) time vel n
      (∀ d, (lsMag w + small) * r d = w d) ∧ lsMag r < 1 ∧ (lsMag w ≠ 0 → 1 - small / lsMag w ≤ lsMag r)) ∧
    ((∀ s' ∈ pre, n ∉ s'.nodes) → lsBoundary small pre time vel n = vel n) := by
  constructor
  · intro hnd hm hpost w r
    have hr : r = lsVel small w := by
      show boundaryVelocity ((pre ++ s :: post).map (lsScaledBC small)) time vel n = _
      rw [List.map_append, List.map_cons, boundaryVelocity_append, boundaryVelocity_cons,
        boundaryVelocity_of_notMem]
      · exact applySet_of_mem _ s.nodes hnd _ _ hm
      · intro s' hs'
        obtain ⟨t, ht, rfl⟩ := List.mem_map.1 hs'
        exact hpost t ht
    rw [hr]
    rcases C62_direction small hf w with ⟨h1, h2, h3⟩ | ⟨h1, h2⟩
    · exact ⟨h1, h2, fun _ => h3⟩
    · have hw : ∀ d, w d = 0 := by
        intro d
        have := h2 d
        rw [lsVel, h1, zero_add, div_eq_zero_iff] at this
        exact this.resolve_right hf.ne'
      refine ⟨fun d => by rw [h2, hw, mul_zero], ?_, fun h => absurd h1 h⟩
      have : lsVel small w = fun _ => 0 := funext h2
      rw [this]
      simp [lsMag]
  · intro h
    refine boundaryVelocity_of_notMem _ _ _ _ fun s' hs' => ?_
    obtain ⟨t, ht, rfl⟩ := List.mem_map.1 hs'
    exact h t ht

/-- The boundary conditions act once per evolving material; with a velocity prescribed outright the number does not
matter. -/
theorem lsStageVel_prescribed (env : LsEnv E N m D) (hmats : env.mats ≠ []) (pre post : List (VelSet (Fin N) ℝ D))
    (s : VelSet (Fin N) ℝ D) (hsets : env.sets = pre ++ s :: post) (time : ℝ) (w : Vel ℝ D)
    (hw : ∀ v, s.bc time v = w) (n : Fin N) (hnd : s.nodes.Nodup) (hm : n ∈ s.nodes)
    (hpost : ∀ s' ∈ post, n ∉ s'.nodes) (phi : Fin E → ℝ) :
    lsStageVel env time phi n = lsVel env.small w := by
  have one : ∀ v, lsBoundary env.small env.sets time v n = lsVel env.small w := by
    intro v
    rw [hsets]
    show boundaryVelocity ((pre ++ s :: post).map (lsScaledBC env.small)) time v n = _
    rw [List.map_append, List.map_cons, boundaryVelocity_append, boundaryVelocity_cons,
      boundaryVelocity_of_notMem]
    · refine (applySet_of_mem _ s.nodes hnd _ _ hm).trans ?_
      show lsVel env.small (s.bc time _) = _
      rw [hw]
    · intro s' hs'
      obtain ⟨t, ht, rfl⟩ := List.mem_map.1 hs'
      exact hpost t ht
  unfold lsStageVel
  generalize (fun n => lsVel env.fuzz (lsGrad env.mesh env.geom phi n)) = v0
  obtain ⟨ms, a, hms⟩ : ∃ ms a, env.mats = ms ++ [a] :=
    ⟨env.mats.dropLast, env.mats.getLast hmats, (List.dropLast_append_getLast hmats).symm⟩
  rw [hms, List.foldl_append]
  exact one _

/-- **C63.** In a stage, a node of a set that prescribes the velocity `w` (and of no later set) gets the direction of `w`
with a length below one and within `small / |w|` of it, whatever the level set is there and however many materials
evolve; a node in no set gets the direction of the stored gradient. -/
theorem C63_stage_velocity (env : LsEnv E N m D) (hf : 0 < env.small) (hg : 0 < env.fuzz) (time : ℝ) (phi : Fin E → ℝ)
    (n : Fin N) :
    (env.mats ≠ [] → ∀ pre post s w, env.sets = pre ++ s :: post → (∀ v, s.bc time v = w) → s.nodes.Nodup →
      n ∈ s.nodes → (∀ s' ∈ post, n ∉ s'.nodes) → lsMag w ≠ 0 →
      (∃ c : ℝ, 0 < c ∧ ∀ d, lsStageVel env time phi n d = c * w d) ∧ lsMag (lsStageVel env time phi n) < 1 ∧
        1 - env.small / lsMag w ≤ lsMag (lsStageVel env time phi n)) ∧
    ((∀ s ∈ env.sets, n ∉ s.nodes) → ∃ c : ℝ, 0 < c ∧ ∀ d, lsStageVel env time phi n d
      = c * lsGrad env.mesh env.geom phi n d) := by
  have hc : ∀ (f : ℝ) (w : Fin D → ℝ), 0 < f → 0 < 1 / (lsMag w + f) := fun f w h =>
    one_div_pos.2 (add_pos_of_nonneg_of_pos (lsMag_nonneg w) h)
  constructor
  · intro hmats pre post s w hsets hw hnd hm hpost h0
    rw [lsStageVel_prescribed env hmats pre post s hsets time w hw n hnd hm hpost]
    refine ⟨⟨_, hc _ w hf, fun d => by rw [lsVel]; ring⟩, ?_⟩
    rcases C62_direction env.small hf w with ⟨-, h2, h3⟩ | ⟨h1, -⟩
    · exact ⟨h2, h3⟩
    · exact absurd h1 h0
  · intro h
    refine ⟨_, hc env.fuzz (lsGrad env.mesh env.geom phi n) hg, fun d => ?_⟩
    have : ∀ (l : List (LsMat E)) (v : Fin N → Vel ℝ D),
        l.foldl (fun v _ => lsBoundary env.small env.sets time v) v n = v n := by
      intro l
      induction l with
      | nil => intro v; rfl
      | cons a l ih =>
        intro v
        rw [List.foldl_cons, ih]
        exact boundaryVelocity_of_notMem _ _ _ _ fun s' hs' => by
          obtain ⟨t, ht, rfl⟩ := List.mem_map.1 hs'
          exact h t ht
    unfold lsStageVel
    rw [this, lsVel]
    ring

/-! ### C63: the stages of a cycle -/

/-- **C63.** A cycle is its stages one after the other: stage `k` of `S` starts from the level set of the start of the
cycle, uses the velocities and gradients of the level set before it, and covers the fraction `1 / (S - k)` of the step; so
with one stage the whole step, and always the whole step in the last one. -/
theorem C63_stages (env : LsEnv E N m D) (S : ℕ) (time dt : ℝ) (phi : Fin E → ℝ) :
    ∃ q : ℕ → Fin E → ℝ, q 0 = phi ∧ q S = lsCycle env S time dt phi ∧
      ∀ k < S, q (k + 1) = lsStage env time (dt / ((S - k : ℕ) : ℝ)) phi (q k) := by
  refine ⟨lsAfter env S time dt phi, rfl, rfl, fun k hk => ?_⟩
  unfold lsAfter
  rw [List.range_succ, List.foldl_append, List.foldl_cons, List.foldl_nil, Nat.cast_sub hk.le]
  congr 1
  ring

/-- Two sets on a node: the later one wins; the hypotheses of the velocity theorems are met. -/
example : (∃ c : ℝ, 0 < c ∧ ∀ d, lsStageVel { oneCell with sets := [⟨[0], fun _ _ _ => 5⟩, ⟨[0], fun _ _ _ => -3⟩] } 0
    (fun _ => 1) 0 d = c * -3) := by
  have h := (C63_stage_velocity { oneCell with sets := [⟨[0], fun _ _ _ => 5⟩, ⟨[0], fun _ _ _ => -3⟩] }
    (by norm_num [oneCell]) (by norm_num [oneCell]) 0 (fun _ => 1) 0).1 (by simp [oneCell]) [⟨[0], fun _ _ _ => 5⟩] []
    ⟨[0], fun _ _ _ => -3⟩ (fun _ => -3) rfl (fun _ => rfl) (by simp) (by simp) (by simp)
    (by simp [lsMag])
  exact h.1

end Fierro
