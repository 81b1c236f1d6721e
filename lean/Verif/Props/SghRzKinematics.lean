import Verif.Props.SghRz
import Verif.Props.Mars

/-!
# C55–C57: kinematics, equilibrium and dissipation of the r-z solver
-/

set_option linter.unusedSectionVars false

namespace Fierro

variable {E N : ℕ}

/-! ### C55: positions and time step -/

theorem rzStage_coords (env : RzEnv E N) (time alpha dt : ℝ) (st : RzState E N) :
    (rzStage env time alpha dt st).coords
      = rzUpdatePosition alpha dt st.coordsN0 (rzStage env time alpha dt st).vel st.velN0 := rfl

theorem rzStage_coordsN0 (env : RzEnv E N) (time alpha dt : ℝ) (st : RzState E N) :
    (rzStage env time alpha dt st).coordsN0 = st.coordsN0 := rfl

/-- **C55.** No node ever crosses the axis: radii are never negative in a run that starts with
non-negative radii, whatever forces act. -/
theorem C55_radius_nonneg (env : RzEnv E N) (S : ℕ) (hS : 0 < S) (time : ℝ) (dts : List ℝ)
    (st : RzState E N) (h : ∀ n, 0 ≤ st.coords n 1) (n : Fin N) :
    0 ≤ (rzRun env S time dts st).coords n 1 := by
  have halong : RzAlong (fun _ => True) env S time dts st := by
    clear h
    induction dts generalizing time st with
    | nil => trivial
    | cons dt dts ih => exact ⟨fun _ _ => trivial, ih _ _⟩
  refine rzRun_induct env S hS (fun _ => True) (fun s => ∀ n, 0 ≤ s.coords n 1) (fun _ _ => True)
    ?_ ?_ ?_ time dts st h halong n
  · intro _ _ _; trivial
  · intro _ _ _ _ _ _ _ _; trivial
  · intro _ time alpha dt s _ _ _ n
    rw [rzStage_coords, rzUpdatePosition, if_pos rfl]
    exact le_max_left _ _

/-- **C55.** A node on the axis whose radial velocity is held at zero by the boundary sets stays on
the axis exactly, in every run. -/
theorem C55_axis_stays (env : RzEnv E N) (Z : Fin N → Fin 2 → Bool) (hZ : RzClamp env.sets Z)
    (S : ℕ) (hS : 0 < S) (time : ℝ) (dts : List ℝ) (st : RzState E N) (n : Fin N)
    (hn : Z n 1 = true) (h0 : st.coords n 1 = 0) (hv : st.vel n 1 = 0) :
    (rzRun env S time dts st).coords n 1 = 0 ∧ (rzRun env S time dts st).vel n 1 = 0 := by
  have halong : RzAlong (fun _ => True) env S time dts st := by
    clear h0 hv
    induction dts generalizing time st with
    | nil => trivial
    | cons dt dts ih => exact ⟨fun _ _ => trivial, ih _ _⟩
  refine rzRun_induct env S hS (fun _ => True) (fun s => s.coords n 1 = 0 ∧ s.vel n 1 = 0)
    (fun _ s => s.coordsN0 n 1 = 0 ∧ s.velN0 n 1 = 0) ?_ ?_ ?_ time dts st ⟨h0, hv⟩ halong
  · intro s h _; exact h
  · intro _ time alpha dt s h _ _; exact h
  · intro _ time alpha dt s h _ _
    have hvel : (rzStage env time alpha dt s).vel n 1 = 0 := by
      rw [rzStage_vel, hZ, if_pos hn]
    refine ⟨?_, hvel⟩
    rw [rzStage_coords, rzUpdatePosition, if_pos rfl, hvel, h.1, h.2]
    simp

/-- **C55.** Over a whole cycle, with any number of stages, every node moves by the step size times
the mean of its velocities before and after the cycle; the radius is cut off at zero. -/
theorem C55_cycle_position (env : RzEnv E N) (S : ℕ) (hS : 0 < S) (time dt : ℝ)
    (st : RzState E N) (n : Fin N) :
    (rzCycle env S time dt st).coords n 0
      = st.coords n 0 + dt * ((rzCycle env S time dt st).vel n 0 + st.vel n 0) / 2 ∧
    (rzCycle env S time dt st).coords n 1
      = max 0 (st.coords n 1 + dt * ((rzCycle env S time dt st).vel n 1 + st.vel n 1) / 2) := by
  have hk : ∀ k, (rzPartial env S time dt st k).coordsN0 = st.coords ∧
      (rzPartial env S time dt st k).velN0 = st.vel := by
    intro k
    induction k with
    | zero => exact ⟨rfl, rfl⟩
    | succ k ih => rw [rzPartial_succ, rzStage_coordsN0, rzStage_velN0]; exact ih
  obtain ⟨k, rfl⟩ : ∃ k, S = k + 1 := ⟨S - 1, by omega⟩
  have hc : rzCycle env (k + 1) time dt st = rzPartial env (k + 1) time dt st (k + 1) := rfl
  have ha : (1 : ℝ) / (((k + 1 : ℕ) : ℝ) - (k : ℝ)) = 1 := by push_cast; simp
  rw [hc, rzPartial_succ, rzStage_coords, ha, (hk k).1, (hk k).2]
  constructor
  · rw [rzUpdatePosition, if_neg (by simp)]; ring
  · rw [rzUpdatePosition, if_pos rfl]; congr 1; ring

/-- **C55.** The time step looks at every pair of nodes of the element exactly once. -/
theorem C55_pairs : rzPairs.Nodup ∧ ∀ i j, (i, j) ∈ rzPairs ↔ i < j ∧ j < 4 := by
  refine ⟨by decide, fun i j => ?_⟩
  simp only [rzPairs, List.mem_flatMap, List.mem_map, List.mem_range, List.mem_range'_1,
    Prod.mk.injEq]
  constructor
  · rintro ⟨a, ha, b, hb, rfl, rfl⟩; omega
  · rintro ⟨h1, h2⟩; exact ⟨i, by omega, j, by omega, rfl, rfl⟩

/-- **C55.** The length in the time step is the smallest distance between two nodes of the element:
at most each of them, and one of them. -/
theorem C55_dist_min (x : ℕ → Fin 2 → ℝ) :
    (∀ i j, i < j → j < 4 →
      rzDistMin x ≤ Real.sqrt ((x i 0 - x j 0) ^ 2 + (x i 1 - x j 1) ^ 2)) ∧
    ∃ i j, i < j ∧ j < 4 ∧
      rzDistMin x = Real.sqrt ((x i 0 - x j 0) ^ 2 + (x i 1 - x j 1) ^ 2) := by
  have key : ∀ (l : List ℝ) (a : ℝ), (l.foldl (fun m d => min d m) a ≤ a) ∧
      (∀ d ∈ l, l.foldl (fun m d => min d m) a ≤ d) ∧
      (l.foldl (fun m d => min d m) a = a ∨ l.foldl (fun m d => min d m) a ∈ l) := by
    intro l
    induction l with
    | nil => intro a; simp
    | cons b l ih =>
      intro a
      obtain ⟨h1, h2, h3⟩ := ih (min b a)
      rw [List.foldl_cons]
      refine ⟨h1.trans (min_le_right _ _), ?_, ?_⟩
      · intro d hd
        rcases List.mem_cons.1 hd with rfl | hd
        · exact h1.trans (min_le_left _ _)
        · exact h2 d hd
      · rcases h3 with h3 | h3
        · rcases min_choice b a with hm | hm
          · right; rw [h3, hm]; simp
          · left; rw [h3, hm]
        · right; exact List.mem_cons_of_mem _ h3
  have hd : ∀ i j, rzDist x i j = Real.sqrt ((x i 0 - x j 0) ^ 2 + (x i 1 - x j 1) ^ 2) :=
    fun i j => abs_of_nonneg (Real.sqrt_nonneg _)
  obtain ⟨_, h2, h3⟩ := key (rzPairs.map fun p => rzDist x p.1 p.2) (rzDist x 0 1)
  refine ⟨fun i j hij hj => ?_, ?_⟩
  · rw [← hd]
    exact h2 _ (List.mem_map.2 ⟨(i, j), (C55_pairs.2 i j).2 ⟨hij, hj⟩, rfl⟩)
  · rcases h3 with h3 | h3
    · exact ⟨0, 1, by norm_num, by norm_num, by rw [← hd]; exact h3⟩
    · obtain ⟨⟨i, j⟩, hm, he⟩ := List.mem_map.1 h3
      obtain ⟨h4, h5⟩ := (C55_pairs.2 i j).1 hm
      exact ⟨i, j, h4, h5, by rw [← hd]; exact he.symm⟩

/-! ### C56: velocity gradient and equilibrium -/

theorem dot4_eq (u b : Fin 4 → ℝ) : dot4 u b = ∑ l, u l * b l := by
  rw [Fin.sum_univ_four]; rfl

/-- **C56.** The in-plane velocity gradient is exact for every velocity field that is affine in
`(z, r)`, on every element of non-zero area. -/
theorem C56_velgrad_affine (mesh : Mesh4 E N) (coords : Fin N → Fin 2 → ℝ) (e : Fin E)
    (hA : rzArea mesh coords e ≠ 0) (a : Fin 2 → ℝ) (L : Fin 2 → Fin 2 → ℝ)
    (vel : Fin N → Vel ℝ 2)
    (hv : ∀ l i, vel (mesh.nodesInElem e l) i = a i + ∑ j, L i j * coords (mesh.nodesInElem e l) j)
    (i j : Fin 2) : rzVelGrad mesh coords vel e i j = L i j := by
  have h0 := C09_bmatrix2D_sum_zero (rzCoords mesh coords e 0) (rzCoords mesh coords e 1) j
  have h1 := fun k => C09_bmatrix2D_linear (rzCoords mesh coords e 0) (rzCoords mesh coords e 1) j k
  have hc : ∀ l k, coords (mesh.nodesInElem e l) k
      = coord2 (rzCoords mesh coords e 0) (rzCoords mesh coords e 1) k l := by
    intro l k; fin_cases k <;> rfl
  rw [rzVelGrad, dot4_eq]
  have hs : ∑ l, vel (mesh.nodesInElem e l) i * rzB mesh coords e l j
      = L i j * rzArea mesh coords e := by
    have h00 := h1 0
    have h11 := h1 1
    have : ∀ l, vel (mesh.nodesInElem e l) i * rzB mesh coords e l j
        = a i * bmatrix2D (rzCoords mesh coords e 0) (rzCoords mesh coords e 1) l j
        + L i 0 * (bmatrix2D (rzCoords mesh coords e 0) (rzCoords mesh coords e 1) l j
            * coord2 (rzCoords mesh coords e 0) (rzCoords mesh coords e 1) 0 l)
        + L i 1 * (bmatrix2D (rzCoords mesh coords e 0) (rzCoords mesh coords e 1) l j
            * coord2 (rzCoords mesh coords e 0) (rzCoords mesh coords e 1) 1 l) := by
      intro l
      rw [hv, Fin.sum_univ_two, hc, hc, rzB]; ring
    simp only [this, Finset.sum_add_distrib, ← Finset.mul_sum]
    rw [h0, h00, h11, rzArea]
    fin_cases j <;> simp
  rw [hs]
  field_simp

/-- **C56.** The divergence the dissipation and erosion models see is the trace of the velocity
gradient including the hoop term. -/
theorem C56_divergence_trace (mesh : Mesh4 E N) (coords : Fin N → Fin 2 → ℝ)
    (vel : Fin N → Vel ℝ 2) (e : Fin E) :
    rzDivergence mesh coords vel e
      = rzVelGrad mesh coords vel e 0 0 + rzVelGrad mesh coords vel e 1 1
        + rzHoop mesh coords vel e := by
  simp only [rzDivergence, rzVelGrad, rzHoop]; ring

/-- **C56.** For homogeneous radial expansion `v_r = c r` the hoop rate is `c` times the ratio of
the mean nodal radius and the element's volume over area. -/
theorem C56_hoop (mesh : Mesh4 E N) (coords : Fin N → Fin 2 → ℝ) (vel : Fin N → Vel ℝ 2)
    (e : Fin E) (c : ℝ)
    (hv : ∀ l, vel (mesh.nodesInElem e l) 1 = c * coords (mesh.nodesInElem e l) 1) :
    rzHoop mesh coords vel e
      = c * ((∑ l, coords (mesh.nodesInElem e l) 1) / 4) / rzMeanRadius mesh coords e := by
  rw [rzHoop, rzVelR, hv, hv, hv, hv, Fin.sum_univ_four]
  congr 1
  ring

/-- **C56.** On parallelograms (above the volume floor) that ratio is one: homogeneous radial
expansion has exactly the hoop rate `c`. -/
theorem C56_hoop_parallelogram (mesh : Mesh4 E N) (coords : Fin N → Fin 2 → ℝ)
    (vel : Fin N → Vel ℝ 2) (e : Fin E) (c : ℝ)
    (hv : ∀ l, vel (mesh.nodesInElem e l) 1 = c * coords (mesh.nodesInElem e l) 1)
    (hpar : ∀ d, coords (mesh.nodesInElem e 0) d + coords (mesh.nodesInElem e 2) d
      = coords (mesh.nodesInElem e 1) d + coords (mesh.nodesInElem e 3) d)
    (hvol : volFloor ≤ quadVolRaw (rzCoords mesh coords e 0) (rzCoords mesh coords e 1)) :
    rzHoop mesh coords vel e = c := by
  rw [C56_hoop mesh coords vel e c hv, rzMeanRadius, rzVol, volQuad, max_eq_left hvol]
  set x := rzCoords mesh coords e 0
  set y := rzCoords mesh coords e 1
  have hpos : 0 < quadVolRaw x y := lt_of_lt_of_le (by unfold volFloor; positivity) hvol
  have hx : x 3 = x 0 + x 2 - x 1 := by have := hpar 0; change x 0 + x 2 = x 1 + x 3 at this; linarith
  have hy : y 3 = y 0 + y 2 - y 1 := by have := hpar 1; change y 0 + y 2 = y 1 + y 3 at this; linarith
  have hR : quadVolRaw x y = (∑ l, coords (mesh.nodesInElem e l) 1) / 4 * rzArea mesh coords e := by
    rw [Fin.sum_univ_four]
    change quadVolRaw x y = (y 0 + y 1 + y 2 + y 3) / 4 * areaQuad x y
    unfold quadVolRaw areaQuad
    rw [hx, hy]; ring
  have hA : rzArea mesh coords e ≠ 0 := by
    intro h0; rw [h0, mul_zero] at hR; linarith
  rw [hR] at hpos ⊢
  have hr : (∑ l, coords (mesh.nodesInElem e l) 1) / 4 ≠ 0 := by
    intro h0; rw [h0, zero_mul] at hpos; exact lt_irrefl _ hpos
  rw [mul_div_cancel_right₀ _ hA, mul_div_cancel_right₀ _ hr]

/-- **C56 (negative result).** On a trapezoid the hoop rate of homogeneous radial expansion is
wrong: the mean of the nodal radii is not the radius of the centroid. -/
theorem C56_hoop_trapezoid_fails :
    rzHoop oneQuad ![![0, 1], ![3, 1], ![2, 2], ![1, 2]] (fun n => ![0, ![1, 1, 2, 2] n]) 0 ≠ 1 := by
  have hv : volQuad (K := ℝ) (rzCoords oneQuad ![![0, 1], ![3, 1], ![2, 2], ![1, 2]] 0 0)
      (rzCoords oneQuad ![![0, 1], ![3, 1], ![2, 2], ![1, 2]] 0 1) = 17 / 6 := by
    simp [volQuad, quadVolRaw, rzCoords, oneQuad, volFloor]
    norm_num
  rw [rzHoop, rzMeanRadius, rzVol, hv]
  simp [rzVelR, rzArea, areaQuad, rzCoords, oneQuad]
  norm_num

/-- **C56.** A uniform axial translation strains nothing. -/
theorem C56_translation (mesh : Mesh4 E N) (coords : Fin N → Fin 2 → ℝ) (e : Fin E)
    (vel : Fin N → Vel ℝ 2) (w : ℝ) (hv : ∀ l, vel (mesh.nodesInElem e l) 0 = w)
    (hr : ∀ l, vel (mesh.nodesInElem e l) 1 = 0) :
    (∀ i j, rzVelGrad mesh coords vel e i j = 0) ∧ rzHoop mesh coords vel e = 0 := by
  constructor
  · intro i j
    have h0 := C09_bmatrix2D_sum_zero (rzCoords mesh coords e 0) (rzCoords mesh coords e 1) j
    rw [rzVelGrad, dot4_eq]
    fin_cases i
    · simp only [Fin.zero_eta, hv, ← Finset.mul_sum, rzB, h0, mul_zero, zero_mul]
    · simp only [Fin.mk_one, hr, zero_mul, Finset.sum_const_zero]
  · simp [rzHoop, rzVelR, hr]

/-- **C56.** The corner forces of a point under pressure alone (deviatoric stress and dissipation
zero) are the pressure times the outward corner normal times the share of the element: no hoop
force remains. -/
theorem C56_pressure_force (mesh : Mesh4 E N) (coords : Fin N → Fin 2 → ℝ) (p : RzPt E)
    (he : p.eroded = false) (hs : ∀ i j, p.stress i j = 0) (l : Fin 4) (d : Fin 2) :
    rzMatForce mesh coords true (fun _ _ => 0) p l d
      = p.pres * rzB mesh coords p.elem l d * (p.volfrac * p.geoVolfrac) := by
  fin_cases d <;>
    simp [rzMatForce, he, rzForceComponent, rzHoopForce, rzTau, hs] <;> ring

/-- **C56.** For any stress the corner forces of a point in a convex element add up to the hoop
resultant: element area over mean radius times `(τ_rz, τ_rr - τ_θθ)`, plus the dissipation. -/
theorem C56_resultant (mesh : Mesh4 E N) (coords : Fin N → Fin 2 → ℝ) (dec : Bool)
    (disp : Fin 4 → Fin 2 → ℝ) (p : RzPt E) (he : p.eroded = false)
    (hc : ConvexCCW (rzCoords mesh coords p.elem 0) (rzCoords mesh coords p.elem 1)) :
    ∑ l, rzMatForce mesh coords dec disp p l 0
      = (rzArea mesh coords p.elem / rzMeanRadius mesh coords p.elem * rzTau dec p 1 0
          + ∑ l, disp l 0) * (p.volfrac * p.geoVolfrac) ∧
    ∑ l, rzMatForce mesh coords dec disp p l 1
      = (rzArea mesh coords p.elem / rzMeanRadius mesh coords p.elem
            * (rzTau dec p 1 1 - rzTau dec p 2 2)
          + ∑ l, disp l 1) * (p.volfrac * p.geoVolfrac) := by
  have hA : ∑ l, rzCornerArea mesh coords p.elem l = rzArea mesh coords p.elem :=
    C09_corner_areas_convex _ _ hc
  have hB : ∀ j, ∑ l, rzB mesh coords p.elem l j = 0 := fun j => C09_bmatrix2D_sum_zero _ _ j
  constructor
  · have hterm : ∀ l, rzMatForce mesh coords dec disp p l 0
        = (-(rzTau dec p 0 0) * rzB mesh coords p.elem l 0
          + -(rzTau dec p 1 0) * rzB mesh coords p.elem l 1 + disp l 0
          + rzTau dec p 1 0 / rzMeanRadius mesh coords p.elem
            * rzCornerArea mesh coords p.elem l) * (p.volfrac * p.geoVolfrac) := by
      intro l
      simp only [rzMatForce, he, rzForceComponent, rzHoopForce, Fin.castSucc_zero]
      rw [if_neg (by simp)]
      ring
    simp only [hterm]
    rw [← Finset.sum_mul, Finset.sum_add_distrib, Finset.sum_add_distrib, Finset.sum_add_distrib,
      ← Finset.mul_sum, ← Finset.mul_sum, ← Finset.mul_sum, hB, hB, hA]
    ring
  · have hterm : ∀ l, rzMatForce mesh coords dec disp p l 1
        = (-(rzTau dec p 0 1) * rzB mesh coords p.elem l 0
          + -(rzTau dec p 1 1) * rzB mesh coords p.elem l 1 + disp l 1
          + (rzTau dec p 1 1 - rzTau dec p 2 2) / rzMeanRadius mesh coords p.elem
            * rzCornerArea mesh coords p.elem l) * (p.volfrac * p.geoVolfrac) := by
      intro l
      simp only [rzMatForce, he, rzForceComponent, rzHoopForce]
      rw [if_neg (by simp), show (Fin.castSucc (1 : Fin 2)) = (1 : Fin 3) from rfl]
      ring
    simp only [hterm]
    rw [← Finset.sum_mul, Finset.sum_add_distrib, Finset.sum_add_distrib, Finset.sum_add_distrib,
      ← Finset.mul_sum, ← Finset.mul_sum, ← Finset.mul_sum, hB, hB, hA]
    ring

/-- Node of the element after / before local node `l`, counter-clockwise (specification). -/
def rzNext (mesh : Mesh4 E N) (c : Fin E × Fin 4) : Fin N := mesh.nodesInElem c.1 (c.2 + 1)
def rzPrev (mesh : Mesh4 E N) (c : Fin E × Fin 4) : Fin N := mesh.nodesInElem c.1 (c.2 + 3)

/-- The elements around the node close up: the nodes that follow it in its elements are the nodes
that precede it (specification). -/
def RzInterior (mesh : Mesh4 E N) (n : Fin N) : Prop :=
  ((mesh.cornersInNode n).map (rzNext mesh)).Perm ((mesh.cornersInNode n).map (rzPrev mesh))

theorem rzB_eq (mesh : Mesh4 E N) (coords : Fin N → Fin 2 → ℝ) (c : Fin E × Fin 4) :
    rzB mesh coords c.1 c.2 0 = (coords (rzNext mesh c) 1 - coords (rzPrev mesh c) 1) / 2 ∧
    rzB mesh coords c.1 c.2 1 = (coords (rzPrev mesh c) 0 - coords (rzNext mesh c) 0) / 2 := by
  obtain ⟨e, l⟩ := c
  fin_cases l <;> simp [rzB, bmatrix2D, rzCoords, rzNext, rzPrev] <;> constructor <;> ring

theorem listSum_sub_rz {α : Type} (l : List α) (f g : α → ℝ) :
    (l.map fun x => f x - g x).sum = (l.map f).sum - (l.map g).sum := by
  induction l with
  | nil => simp
  | cons x l ih => simp [ih]; ring

/-- **C56.** Equilibrium: when all corner forces around an interior node are the same pressure
times the corner normals (a uniform pressure field, see `C56_pressure_force`; materials may share
elements), the net force on the node is exactly zero, on every mesh. -/
theorem C56_equilibrium (mesh : Mesh4 E N) (coords : Fin N → Fin 2 → ℝ)
    (cf : Fin E × Fin 4 → Fin 2 → ℝ) (P : ℝ) (n : Fin N) (hn : RzInterior mesh n)
    (hcf : ∀ c ∈ mesh.cornersInNode n, ∀ d, cf c d = P * rzB mesh coords c.1 c.2 d) (d : Fin 2) :
    rzNodeForce mesh cf n d = 0 := by
  rw [rzNodeForce_eq, List.map_congr_left fun c hc => hcf c hc d, listSum_mul]
  have hperm : ∀ k, ((mesh.cornersInNode n).map fun c => coords (rzNext mesh c) k).sum
      = ((mesh.cornersInNode n).map fun c => coords (rzPrev mesh c) k).sum := by
    intro k
    have := (hn.map fun m => coords m k).sum_eq
    simpa [List.map_map, Function.comp_def] using this
  fin_cases d
  · simp only [Fin.zero_eta, fun c => (rzB_eq mesh coords c).1, div_eq_inv_mul]
    rw [listSum_mul, listSum_sub_rz, hperm]; simp
  · simp only [Fin.mk_one, fun c => (rzB_eq mesh coords c).2, div_eq_inv_mul]
    rw [listSum_mul, listSum_sub_rz, hperm]; simp

/-- **C56.** On the axis: the elements around an axis node do not close up, but the two loose ends
are axis nodes; uniform pressure still exerts no axial force. -/
theorem C56_axis_equilibrium (mesh : Mesh4 E N) (coords : Fin N → Fin 2 → ℝ)
    (cf : Fin E × Fin 4 → Fin 2 → ℝ) (P : ℝ) (n first last : Fin N)
    (hn : (last :: (mesh.cornersInNode n).map (rzNext mesh)).Perm
      (first :: (mesh.cornersInNode n).map (rzPrev mesh)))
    (hf : coords first 1 = 0) (hl : coords last 1 = 0)
    (hcf : ∀ c ∈ mesh.cornersInNode n, ∀ d, cf c d = P * rzB mesh coords c.1 c.2 d) :
    rzNodeForce mesh cf n 0 = 0 := by
  rw [rzNodeForce_eq, List.map_congr_left fun c hc => hcf c hc 0, listSum_mul]
  have hperm : ((mesh.cornersInNode n).map fun c => coords (rzNext mesh c) 1).sum
      = ((mesh.cornersInNode n).map fun c => coords (rzPrev mesh c) 1).sum := by
    have := (hn.map fun m => coords m 1).sum_eq
    simpa [List.map_map, Function.comp_def, hf, hl] using this
  simp only [fun c => (rzB_eq mesh coords c).1, div_eq_inv_mul]
  rw [listSum_mul, listSum_sub_rz, hperm]; simp

/-- The solver's nodal force in a uniform pressure field, put together. -/
theorem C56_uniform_pressure (mesh : Mesh4 E N) (C : RzClosures E N) (st : RzState E N) (P : ℝ)
    (hdec : ∀ m ∈ st.mats, m.decoupledEOS = true)
    (hpt : ∀ m ∈ st.mats, ∀ p ∈ m.pts, p.eroded = false ∧ p.pres = P ∧ (∀ i j, p.stress i j = 0) ∧
      ∀ l d, C.disp st m p l d = 0)
    (hfull : ∀ e, (st.mats.map fun m => (m.pts.map fun p =>
      if e = p.elem then p.volfrac * p.geoVolfrac else 0).sum).sum = 1)
    (n : Fin N) (hn : RzInterior mesh n) (d : Fin 2) :
    rzNodeForce mesh (rzCornerForces mesh C st) n d = 0 := by
  refine C56_equilibrium mesh st.coords _ P n hn (fun c _ d => ?_) d
  have hcons : RzErosionConsistent st.mats := by
    intro m hm p hp m' hm' p' hp' _
    rw [(hpt m hm p hp).1, (hpt m' hm' p' hp').1]
  rw [rzCornerForces_sum mesh C st hcons, ← mul_one (P * _), ← hfull c.1, ← listSum_mul]
  congr 1
  apply List.map_congr_left
  intro m hm
  rw [← listSum_mul]
  congr 1
  apply List.map_congr_left
  intro p hp
  obtain ⟨h1, h2, h3, h4⟩ := hpt m hm p hp
  by_cases hc : c.1 = p.elem
  · rw [if_pos hc, if_pos hc, hdec m hm,
      show C.disp st m p = fun _ _ => 0 from funext fun l => funext fun d => h4 l d,
      C56_pressure_force mesh st.coords p h1 h3, h2, hc]
  · simp [hc]

/-- Four quadrilaterals around node 4 of a 3 by 3 grid. -/
def quadPatch : Mesh4 4 9 where
  nodesInElem := ![![0, 1, 4, 3], ![1, 2, 5, 4], ![3, 4, 7, 6], ![4, 5, 8, 7]]
  cornersInNode := ![[(0, 0)], [(0, 1), (1, 0)], [(1, 1)], [(0, 3), (2, 0)],
    [(0, 2), (1, 3), (2, 1), (3, 0)], [(1, 2), (3, 1)], [(2, 3)], [(2, 2), (3, 3)], [(3, 2)]]
  nodesInNode := fun _ => []
  bdyNodes := []

/-- The interior node of the patch satisfies the hypothesis. -/
example : RzInterior quadPatch 4 := by unfold RzInterior; decide

/-- With nodes 0, 1, 2 on the axis, node 1 satisfies the hypothesis of `C56_axis_equilibrium`. -/
example : (0 :: (quadPatch.cornersInNode 1).map (rzNext quadPatch)).Perm
    (2 :: (quadPatch.cornersInNode 1).map (rzPrev quadPatch)) := by decide

/-! ### C57: dissipation -/

namespace MarsRzInput

theorem foldl_fin4 (f : Fin 4 → ℝ) :
    (List.finRange 4).foldl (fun acc l => acc + f l) 0 = ∑ l, f l := by
  rw [Fin.sum_univ_four]
  simp [List.finRange_succ]

theorem velStar_eq (x : MarsRzInput) (mu : Fin 4 → ℝ) (d : Fin 2) :
    x.velStar mu d = if x.fuzz < ∑ l, mu l then (∑ l, mu l * x.vel l d) / ∑ l, mu l else 0 := by
  unfold velStar
  rw [foldl_fin4 fun l => mu l * x.vel l d, foldl_fin4]

/-- Physical input: non-negative density, sound speed and coefficients. -/
structure Physical (x : MarsRzInput) (q : MarsParams) : Prop where
  den : 0 ≤ x.den
  sspd : 0 ≤ x.sspd
  fuzz : 0 < x.fuzz
  q1 : 0 ≤ q.q1
  q1ex : 0 ≤ q.q1ex
  q2 : 0 ≤ q.q2
  q2ex : 0 ≤ q.q2ex
  floor : 0 ≤ q.phiFloor ∧ q.phiFloor ≤ 1

theorem mu_nonneg (x : MarsRzInput) (q : MarsParams) (h : x.Physical q) (l : Fin 4) :
    0 ≤ x.mu q l := by
  refine mul_nonneg ?_ (Real.sqrt_nonneg _)
  unfold impedance
  have h0 : 0 ≤ x.magVel l := Real.sqrt_nonneg _
  have h1 := h.den; have h2 := h.sspd; have h3 := h.q1; have h4 := h.q2
  have h5 := h.q1ex; have h6 := h.q2ex
  split_ifs <;> positivity

theorem rMin_le_one (x : MarsRzInput) : x.rMin ≤ 1 := by
  unfold rMin
  suffices H : ∀ (l : List ℝ) (r : ℝ), r ≤ 1 →
      l.foldl (fun r dn => min (9 / 10 * (dn + x.small) / (x.div + x.small)) r) r ≤ 1 from
    H _ 1 le_rfl
  intro l
  induction l with
  | nil => exact fun r h => h
  | cons a l ih => intro r h; exact ih _ ((min_le_right _ _).trans h)

/-- The element seen in a mirror perpendicular to the axis (`z` replaced by `-z`). -/
def mirror (x : MarsRzInput) : MarsRzInput :=
  { x with
    L := fun i j => if i = j then x.L i j else - x.L i j
    vel := fun l d => if d = 0 then - x.vel l d else x.vel l d
    normal := fun l d => if d = 0 then - x.normal l d else x.normal l d }

end MarsRzInput

open MarsRzInput in
/-- **C57.** The shock detector lies between zero and one, and above the user's floor. -/
theorem C57_phi_bounds (x : MarsRzInput) (q : MarsParams) (h : x.Physical q) :
    q.phiFloor ≤ x.phi q ∧ 0 ≤ x.phi q ∧ x.phi q ≤ 1 := by
  have hf : q.phiFloor ≤ x.phi q := le_max_left _ _
  refine ⟨hf, h.floor.1.trans hf, ?_⟩
  unfold MarsRzInput.phi
  simp only
  refine max_le h.floor.2 ((min_le_left _ _).trans ?_)
  have hr := x.rMin_le_one
  have h1 : (0 : ℝ) ≤ 1 - max 0 x.rMin := by linarith [max_le (zero_le_one (α := ℝ)) hr]
  have h2 : 1 - max 0 x.rMin ≤ 1 := by linarith [le_max_left 0 x.rMin]
  have h3 : min 1 (20 * (Real.sqrt x.area * |x.div|) / (x.sspd + x.fuzz)) ≤ 1 := min_le_left _ _
  nlinarith

open MarsRzInput in
/-- **C57.** The corner forces of the dissipation model add up to zero, as forces per radian and
unit radius, whenever the total impedance exceeds `fuzz` or is zero. -/
theorem C57_planar_neutral (x : MarsRzInput) (q : MarsParams) (h : x.Physical q)
    (hs : x.fuzz < ∑ l, x.mu q l ∨ ∑ l, x.mu q l = 0) (d : Fin 2) : ∑ l, x.mars q l d = 0 := by
  unfold MarsRzInput.mars
  simp only [mul_assoc]
  rw [← Finset.mul_sum]
  rcases hs with hs | hs
  · have : ∑ l, x.mu q l * (x.velStar (x.mu q) d - x.vel l d) = 0 := by
      simp only [mul_sub, Finset.sum_sub_distrib, ← Finset.sum_mul]
      rw [velStar_eq, if_pos hs, mul_div_cancel₀ _ (by linarith [h.fuzz]), sub_self]
    rw [this, mul_zero]
  · have h0 : ∀ l, x.mu q l = 0 := fun l =>
      (Finset.sum_eq_zero_iff_of_nonneg fun l _ => x.mu_nonneg q h l).1 hs l (Finset.mem_univ _)
    simp [h0]

open MarsRzInput in
/-- **C57.** Their power (without the radius weight) is never positive: kinetic energy is only
turned into heat. -/
theorem C57_planar_dissipative (x : MarsRzInput) (q : MarsParams) (h : x.Physical q) :
    ∑ l, ∑ d, x.mars q l d * x.vel l d ≤ 0 := by
  rw [Finset.sum_comm]
  apply Finset.sum_nonpos
  intro d _
  have hphi := (C57_phi_bounds x q h).2.1
  have hmu := x.mu_nonneg q h
  have hrew : ∑ l, x.mars q l d * x.vel l d
      = x.phi q * (∑ l, x.mu q l * (x.velStar (x.mu q) d * x.vel l d - x.vel l d * x.vel l d)) := by
    rw [Finset.mul_sum]
    refine Finset.sum_congr rfl fun l _ => ?_
    unfold MarsRzInput.mars; ring
  rw [hrew]
  refine mul_nonpos_of_nonneg_of_nonpos hphi ?_
  rw [velStar_eq]
  split_ifs with hs
  · have hpos : 0 < ∑ l, x.mu q l := h.fuzz.trans hs
    have hkey : ∑ l, x.mu q l * ((∑ k, x.mu q k * x.vel k d) / (∑ k, x.mu q k) * x.vel l d
        - x.vel l d * x.vel l d)
        = - ∑ l, x.mu q l * (x.vel l d - (∑ k, x.mu q k * x.vel k d) / (∑ k, x.mu q k)) ^ 2 := by
      set v := (∑ k, x.mu q k * x.vel k d) / (∑ k, x.mu q k) with hv
      have hv' : ∑ k, x.mu q k * x.vel k d = v * ∑ k, x.mu q k := by
        rw [hv]; field_simp
      have e1 : ∑ l, x.mu q l * (v * x.vel l d - x.vel l d * x.vel l d)
          + ∑ l, x.mu q l * (x.vel l d - v) ^ 2 = v * (v * ∑ l, x.mu q l)
            - v * ∑ l, x.mu q l * x.vel l d := by
        rw [Finset.mul_sum, Finset.mul_sum, Finset.mul_sum, ← Finset.sum_add_distrib,
          ← Finset.sum_sub_distrib]
        refine Finset.sum_congr rfl fun l _ => ?_
        ring
      rw [hv', sub_self] at e1
      linarith
    rw [hkey]
    have : 0 ≤ ∑ l, x.mu q l * (x.vel l d - (∑ k, x.mu q k * x.vel k d) / (∑ k, x.mu q k)) ^ 2 :=
      Finset.sum_nonneg fun l _ => mul_nonneg (hmu l) (sq_nonneg _)
    linarith
  · apply Finset.sum_nonpos
    intro l _
    have := hmu l
    nlinarith [mul_self_nonneg (x.vel l d)]

open MarsRzInput in
/-- **C57.** An element moving as a whole feels no dissipation force (total impedance above
`fuzz`). -/
theorem C57_uniform_velocity (x : MarsRzInput) (q : MarsParams) (h : x.Physical q)
    (hs : x.fuzz < ∑ l, x.mu q l) (d : Fin 2) (w : ℝ) (hv : ∀ l, x.vel l d = w) (l : Fin 4) :
    x.mars q l d = 0 := by
  unfold MarsRzInput.mars
  rw [velStar_eq, if_pos hs]
  simp only [hv, ← Finset.sum_mul]
  have : ∑ l, x.mu q l ≠ 0 := by linarith [h.fuzz]
  rw [mul_div_cancel_left₀ _ this]
  simp

open MarsRzInput in
/-- **C57.** The axial momentum the dissipation creates (its radius-weighted sum, see
`C53_stage_balance`) only comes from the spread of the radii within the element: any reference
radius may be subtracted. -/
theorem C57_axial_leak (x : MarsRzInput) (q : MarsParams) (h : x.Physical q)
    (hs : x.fuzz < ∑ l, x.mu q l ∨ ∑ l, x.mu q l = 0) (r : Fin 4 → ℝ) (R : ℝ) (d : Fin 2) :
    ∑ l, x.mars q l d * r l = ∑ l, x.mars q l d * (r l - R) := by
  simp only [mul_sub, Finset.sum_sub_distrib, ← Finset.sum_mul, C57_planar_neutral x q h hs d]
  simp

/-- A compressed element next to the axis: nodes 0 and 1 on the axis move with axial velocity 3,
nodes 2 and 3 with 1. -/
noncomputable def rzDemoMars : MarsRzInput where
  L := fun i j => if i = 0 ∧ j = 1 then -2 else 0
  hoop := 0
  nbrDiv := []
  vel := ![![3, 0], ![3, 0], ![1, 0], ![1, 0]]
  normal := ![![1 / 2, 1 / 2], ![-1 / 2, 1 / 2], ![-1 / 2, -1 / 2], ![1 / 2, -1 / 2]]
  den := 1
  sspd := 1
  area := 1
  fuzz := 1 / 10 ^ 16
  small := 1 / 10 ^ 14

/-- Constant impedance and full dissipation. -/
noncomputable def rzDemoParams : MarsParams where
  q1 := 1
  q1ex := 1
  q2 := 0
  q2ex := 0
  phiFloor := 1
  phiCurlFloor := 1

theorem rzDemoMars_physical : rzDemoMars.Physical rzDemoParams := by
  constructor <;> simp [rzDemoMars, rzDemoParams]

theorem rzDemoMars_force (l : Fin 4) (d : Fin 2) :
    rzDemoMars.mars rzDemoParams l d
      = Real.sqrt (1 / 2) * ((![2, 0] : Fin 2 → ℝ) d - rzDemoMars.vel l d) := by
  have hphi : rzDemoMars.phi rzDemoParams = 1 := by
    have := C57_phi_bounds rzDemoMars rzDemoParams rzDemoMars_physical
    exact le_antisymm this.2.2 this.1
  have hmu : ∀ l, rzDemoMars.mu rzDemoParams l = Real.sqrt (1 / 2) := by
    intro l
    have himp : rzDemoMars.impedance rzDemoParams l = 1 := by
      simp [MarsRzInput.impedance, rzDemoMars, rzDemoParams]
    rw [MarsRzInput.mu, himp, one_mul, MarsRzInput.magNormal]
    congr 1
    fin_cases l <;> simp [rzDemoMars] <;> norm_num
  have hpos : (1 : ℝ) / 10 ^ 16 < Real.sqrt (1 / 2) := by
    apply Real.lt_sqrt_of_sq_lt
    norm_num
  have hstar : rzDemoMars.velStar (rzDemoMars.mu rzDemoParams) d = (![2, 0] : Fin 2 → ℝ) d := by
    rw [MarsRzInput.velStar_eq]
    simp only [hmu, ← Finset.mul_sum]
    rw [if_pos]
    · have : (0 : ℝ) < Real.sqrt (1 / 2) := lt_trans (by positivity) hpos
      fin_cases d <;> simp only [Fin.sum_univ_four, rzDemoMars] <;> simp <;> field_simp <;> norm_num
    · simp only [Finset.sum_const, Finset.card_univ, Fintype.card_fin]
      simp only [rzDemoMars]
      have : (0 : ℝ) < Real.sqrt (1 / 2) := lt_trans (by positivity) hpos
      rw [nsmul_eq_mul]
      push_cast
      linarith
  rw [MarsRzInput.mars, hphi, hmu, hstar, one_mul]

/-- **C57 (negative result).** With the radius weight that the momentum and energy balances of the
axisymmetric solver carry, neither claim survives: in an element touching the axis the dissipation
creates axial momentum and its weighted power is positive, so it cools the material. -/
theorem C57_weighted_fails :
    let r : Fin 4 → ℝ := ![0, 0, 1, 1]
    ∑ l, rzDemoMars.mars rzDemoParams l 0 * r l ≠ 0 ∧
    0 < ∑ l, ∑ d, rzDemoMars.mars rzDemoParams l d * r l * rzDemoMars.vel l d := by
  have hpos : (0 : ℝ) < Real.sqrt (1 / 2) := Real.sqrt_pos.2 (by norm_num)
  simp only [rzDemoMars_force]
  constructor
  · simp [Fin.sum_univ_four, rzDemoMars]
    norm_num
  · simp [Fin.sum_univ_four, rzDemoMars]

/-- **C57 (negative result).** The dissipation is not mirror symmetric: the limiter divides by the
signed curl, so an element rotating one way is damped while its mirror image is not damped at
all. -/
theorem C57_mirror_fails :
    ∃ (x : MarsRzInput) (q : MarsParams), x.Physical q ∧ 0 < x.phi q ∧ x.mirror.phi q = 0 := by
  let x : MarsRzInput := { rzDemoMars with
    L := ![![-1, -8], ![0, 0]]
    nbrDiv := [1] }
  let q : MarsParams := { rzDemoParams with phiFloor := 0, phiCurlFloor := 0 }
  have hdiv : x.div = -1 := by simp [x, MarsRzInput.div, rzDemoMars]
  have hdiv' : x.mirror.div = -1 := by simp [x, MarsRzInput.div, MarsRzInput.mirror, rzDemoMars]
  have hc : x.magCurl = 8 := by simp [x, MarsRzInput.magCurl]
  have hc' : x.mirror.magCurl = -8 := by simp [x, MarsRzInput.magCurl, MarsRzInput.mirror]
  have hr : x.rMin ≤ 0 := by
    simp only [MarsRzInput.rMin, hdiv]
    simp only [x, List.foldl_cons, List.foldl_nil, rzDemoMars]
    refine (min_le_left _ _).trans ?_
    norm_num
  refine ⟨x, q, ?_, ?_, ?_⟩
  · constructor <;> simp [x, q, rzDemoMars, rzDemoParams]
  · simp only [MarsRzInput.phi, hdiv, hc]
    rw [max_eq_left hr]
    refine lt_max_of_lt_right (lt_min ?_ (lt_max_of_lt_left ?_))
    · simp only [x, rzDemoMars]
      rw [sub_zero, mul_one]
      refine lt_min one_pos ?_
      norm_num
    · simp only [x, rzDemoMars]
      refine lt_min one_pos ?_
      norm_num
  · simp only [MarsRzInput.phi, hdiv', hc']
    simp only [q, x, rzDemoMars, MarsRzInput.mirror]
    apply max_eq_left
    refine (min_le_right _ _).trans (max_le ((min_le_right _ _).trans ?_) le_rfl)
    norm_num

/-- **C57.** With the expansion coefficients set to zero an element whose full rate of expansion, hoop
part included, is not negative feels no dissipation. -/
theorem C57_expansion_off (x : MarsRzInput) (q : MarsParams) (hq1 : q.q1ex = 0) (hq2 : q.q2ex = 0)
    (hdiv : 0 ≤ x.L 0 0 + x.L 1 1 + x.hoop) (l : Fin 4) (d : Fin 2) : x.mars q l d = 0 := by
  have hi : ∀ l, x.impedance q l = 0 := by
    intro l
    rw [MarsRzInput.impedance, if_neg (show ¬ x.div < 0 from not_lt.2 hdiv), hq1, hq2]
    ring
  simp [MarsRzInput.mars, MarsRzInput.mu, hi]

/-- **C57.** Which coefficients act is decided by the sign of the full rate of expansion, hoop part
included. -/
theorem C57_coefficients_used (x : MarsRzInput) (q q' : MarsParams)
    (hf : q.phiFloor = q'.phiFloor) (hc : q.phiCurlFloor = q'.phiCurlFloor)
    (h : (x.L 0 0 + x.L 1 1 + x.hoop < 0 ∧ q.q1 = q'.q1 ∧ q.q2 = q'.q2) ∨
      (0 ≤ x.L 0 0 + x.L 1 1 + x.hoop ∧ q.q1ex = q'.q1ex ∧ q.q2ex = q'.q2ex)) :
    x.mars q = x.mars q' := by
  have hi : x.impedance q = x.impedance q' := by
    funext l
    rcases h with ⟨h, h1, h2⟩ | ⟨h, h1, h2⟩
    · rw [MarsRzInput.impedance, MarsRzInput.impedance, if_pos (show x.div < 0 from h),
        if_pos (show x.div < 0 from h), h1, h2]
    · rw [MarsRzInput.impedance, MarsRzInput.impedance, if_neg (show ¬ x.div < 0 from not_lt.2 h),
        if_neg (show ¬ x.div < 0 from not_lt.2 h), h1, h2]
  have hphi : x.phi q = x.phi q' := by
    unfold MarsRzInput.phi
    rw [hf, hc]
  have hmu : x.mu q = x.mu q' := by funext l; unfold MarsRzInput.mu; rw [hi]
  funext l d
  unfold MarsRzInput.mars
  rw [hmu, hphi]

end Fierro
