import Verif.Model.Geometry
import Verif.Model.BoundaryVelocity
import Mathlib.Algebra.BigOperators.Fin

/-!
# The 3D staggered-grid hydrodynamics (SGH) solver

`apps/multiphysics/src/Solvers/SGH_solver_3D/src/{momentum,energy_sgh,position,force_sgh,
time_integration,sgh_execute}.cpp` and the nodal mass setup of
`common/src/region_fill.cpp:2264-2356`.  Arithmetic is exact (field `K`).

The mesh object of the library `swage` is outside the repository; the model takes the two
incidence tables the solver reads and `Mesh8.WF` states the contract between them.
A corner is the pair (element, local node); `mesh.corners_in_elem(e,l)` is that pair.
-/

namespace Fierro

/-- The incidence tables of an 8-node hexahedral mesh used by the solver. -/
structure Mesh8 (E N : ℕ) where
  /-- `mesh.nodes_in_elem` -/
  nodesInElem : Fin E → Fin 8 → Fin N
  /-- `mesh.corners_in_node(node, 0 .. num_corners_in_node(node)-1)` -/
  cornersInNode : Fin N → List (Fin E × Fin 8)

/-- Contract of the mesh library: the corners listed for a node are exactly the corners at that
node, each once. -/
def Mesh8.WF {E N : ℕ} (m : Mesh8 E N) : Prop :=
  ∀ n, (m.cornersInNode n).Nodup ∧ ∀ c, c ∈ m.cornersInNode n ↔ m.nodesInElem c.1 c.2 = n

/-- State of one material point (one per element and material for this solver). -/
structure MatPt (K : Type) (E : ℕ) where
  /-- `elem_in_mat_elem(mat_id, sid)` -/
  elem : Fin E
  mass : K
  sie : K
  sieN0 : K
  den : K
  pres : K
  sspd : K
  volfrac : K
  geoVolfrac : K
  stress : Fin 3 → Fin 3 → K
  stressN0 : Fin 3 → Fin 3 → K
  eroded : Bool
  /-- `MaterialCorners_force(mat_id, corners_in_mat_elem(sid, lid), dim)` -/
  cornerForce : Fin 8 → Fin 3 → K

/-- One material: its points in storage order. -/
structure Mat (K : Type) (E : ℕ) where
  id : ℕ
  /-- `MaterialEnums(mat_id).EOSType == model::decoupledEOSType` -/
  decoupledEOS : Bool
  pts : List (MatPt K E)

/-- The part of `State_t` evolved by the solver. -/
structure SghState (K : Type) (E N : ℕ) where
  coords : Fin N → Fin 3 → K
  coordsN0 : Fin N → Fin 3 → K
  vel : Fin N → Vel K 3
  velN0 : Fin N → Vel K 3
  mats : List (Mat K E)

section
variable {K : Type} [Field K] {E N : ℕ}

/-- Coordinate `d` of the nodes of an element. -/
def elemCoords (mesh : Mesh8 E N) (coords : Fin N → Fin 3 → K) (e : Fin E) (d : Fin 3) :
    Fin 8 → K := fun l => coords (mesh.nodesInElem e l) d

/-- B-matrix of an element of the mesh. -/
def elemB (mesh : Mesh8 E N) (coords : Fin N → Fin 3 → K) (e : Fin E) : Fin 8 → Fin 3 → K :=
  bmatrix (elemCoords mesh coords e 0) (elemCoords mesh coords e 1) (elemCoords mesh coords e 2)

/-- The eight-term sums of `get_velgrad`. -/
def dot8 (u b : Fin 8 → K) : K :=
  u 0 * b 0 + u 1 * b 1 + u 2 * b 2 + u 3 * b 3 + u 4 * b 4 + u 5 * b 5 + u 6 * b 6 + u 7 * b 7

/-- `get_velgrad`, momentum.cpp:114-203: entry `(i, j)` of element `e`; `vol` is `elem_vol`. -/
def velGrad (mesh : Mesh8 E N) (coords : Fin N → Fin 3 → K) (vel : Fin N → Vel K 3)
    (vol : Fin E → K) (e : Fin E) (i j : Fin 3) : K :=
  dot8 (fun l => vel (mesh.nodesInElem e l) i) (fun l => elemB mesh coords e l j) * (1 / vol e)

/-- `get_divergence`, momentum.cpp:219-280. -/
def divergence (mesh : Mesh8 E N) (coords : Fin N → Fin 3 → K) (vel : Fin N → Vel K 3)
    (vol : Fin E → K) (e : Fin E) : K :=
  0 + dot8 (fun l => vel (mesh.nodesInElem e l) 0) (fun l => elemB mesh coords e l 0) * (1 / vol e)
    + dot8 (fun l => vel (mesh.nodesInElem e l) 1) (fun l => elemB mesh coords e l 1) * (1 / vol e)
    + dot8 (fun l => vel (mesh.nodesInElem e l) 2) (fun l => elemB mesh coords e l 2) * (1 / vol e)

/-- `decompose_vel_grad`, momentum.cpp:303-327, symmetric part. -/
def strainRate (L : Fin 3 → Fin 3 → K) (i j : Fin 3) : K := 1 / 2 * (L i j + L j i)

/-- `decompose_vel_grad`, momentum.cpp:303-327, skew part. -/
def spinRate (L : Fin 3 → Fin 3 → K) (i j : Fin 3) : K := 1 / 2 * (L i j - L j i)

/-! ### Forces -/

/-- The stress `tau` of `get_force`, force_sgh.cpp:156-169. -/
def tauStress (decoupled : Bool) (p : MatPt K E) (i j : Fin 3) : K :=
  if decoupled = true ∧ i = j then p.stress i j - p.pres else p.stress i j

/-- `force_component` of `get_force`, force_sgh.cpp:143-152 and 221-225; `disp` is the result of
the dissipation model for this point. -/
def forceComponent (mesh : Mesh8 E N) (coords : Fin N → Fin 3 → K) (decoupled : Bool)
    (disp : Fin 8 → Fin 3 → K) (p : MatPt K E) (l : Fin 8) (d : Fin 3) : K :=
  (-1) * elemB mesh coords p.elem l 0 * tauStress decoupled p 0 d
    + (-1) * elemB mesh coords p.elem l 1 * tauStress decoupled p 1 d
    + (-1) * elemB mesh coords p.elem l 2 * tauStress decoupled p 2 d + disp l d

/-- The material corner force saved by `get_force`, force_sgh.cpp:211-229. -/
def matCornerForce (mesh : Mesh8 E N) (coords : Fin N → Fin 3 → K) (decoupled : Bool)
    (disp : Fin 8 → Fin 3 → K) (p : MatPt K E) (l : Fin 8) (d : Fin 3) : K :=
  if p.eroded = true then 0
  else forceComponent mesh coords decoupled disp p l d * p.volfrac * p.geoVolfrac

/-- What one iteration of the loop of `get_force` does to the array `corner_force`,
force_sgh.cpp:195-237.  An eroded point *assigns* zero (line 213), other points add (line 232). -/
def addCornerForce (f : MatPt K E → Fin 8 → Fin 3 → K) (cf : Fin E × Fin 8 → Fin 3 → K)
    (p : MatPt K E) : Fin E × Fin 8 → Fin 3 → K := fun c d =>
  if c.1 = p.elem then (if p.eroded = true then 0 else cf c d + f p c.2 d) else cf c d

/-- Models of the material that the solver calls; their results are arbitrary in the model. -/
structure Closures (K : Type) (E N : ℕ) where
  /-- dissipation force of a point (`calc_dissipation`) -/
  disp : SghState K E N → Mat K E → MatPt K E → Fin 8 → Fin 3 → K
  /-- effect of `update_stress`, `update_state` and the equilibration models on a point; they may
  use the state at the start of the stage and the state after the position update -/
  update : SghState K E N → SghState K E N → Mat K E → MatPt K E → MatPt K E

/-- The closures do not touch the element a point lives in, its mass and its energies (the
arrays are passed to these routines but only read). -/
def Closures.Lawful (C : Closures K E N) : Prop :=
  ∀ st st' m p, (C.update st st' m p).elem = p.elem ∧ (C.update st st' m p).mass = p.mass ∧
    (C.update st st' m p).sie = p.sie ∧ (C.update st st' m p).sieN0 = p.sieN0

/-- `get_force` for all materials, sgh_execute.cpp:322-380 with force_sgh.cpp:69-243:
the corner forces of the mesh. -/
def cornerForces (mesh : Mesh8 E N) (C : Closures K E N) (st : SghState K E N) :
    Fin E × Fin 8 → Fin 3 → K :=
  st.mats.foldl (fun cf m =>
    m.pts.foldl (addCornerForce fun p =>
      matCornerForce mesh st.coords m.decoupledEOS (C.disp st m p) p) cf) fun _ _ => 0

/-- `get_force` for all materials: the forces saved per material. -/
def saveMatForces (mesh : Mesh8 E N) (C : Closures K E N) (st : SghState K E N) : List (Mat K E) :=
  st.mats.map fun m => { m with pts := m.pts.map fun p =>
    { p with cornerForce := matCornerForce mesh st.coords m.decoupledEOS (C.disp st m p) p } }

/-! ### Updates -/

/-- Nodal force accumulated in `update_velocity`, momentum.cpp:79-87 (contact not active). -/
def nodeForceTotal (mesh : Mesh8 E N) (ext : Fin N → Fin 3 → K)
    (cf : Fin E × Fin 8 → Fin 3 → K) (n : Fin N) (d : Fin 3) : K :=
  (mesh.cornersInNode n).foldl (fun acc c => acc + cf c d) (ext n d)

/-- `update_velocity`, momentum.cpp:51-99. -/
def updateVelocity (mesh : Mesh8 E N) (alpha dt : K) (mass : Fin N → K)
    (ext : Fin N → Fin 3 → K) (cf : Fin E × Fin 8 → Fin 3 → K) (velN0 : Fin N → Vel K 3) :
    Fin N → Vel K 3 := fun n d =>
  velN0 n d + alpha * dt * nodeForceTotal mesh ext cf n d / mass n

/-- `1.e-20` of energy_sgh.cpp:106. -/
def energyFuzz : K := 1 / 10 ^ 20

/-- Power of the corner forces of a point, energy_sgh.cpp:78-102. -/
def pointPower (mesh : Mesh8 E N) (vel velN0 : Fin N → Vel K 3) (p : MatPt K E) : K :=
  (List.finRange 8).foldl (fun acc l =>
    (List.finRange 3).foldl (fun acc d =>
      acc + p.cornerForce l d *
        ((vel (mesh.nodesInElem p.elem l) d + velN0 (mesh.nodesInElem p.elem l) d) * (1 / 2)))
      acc) 0

/-- `update_energy`, energy_sgh.cpp:55-111. -/
def updateEnergy (mesh : Mesh8 E N) (alpha dt : K) (vel velN0 : Fin N → Vel K 3)
    (p : MatPt K E) : MatPt K E :=
  { p with sie := p.sieN0 - alpha * dt / (p.mass + energyFuzz) * pointPower mesh vel velN0 p }

/-- `update_position`, position.cpp:50-68. -/
def updatePosition (alpha dt : K) (coordsN0 : Fin N → Fin 3 → K) (vel velN0 : Fin N → Vel K 3) :
    Fin N → Fin 3 → K := fun n d =>
  coordsN0 n d + alpha * dt * ((vel n d + velN0 n d) * (1 / 2))

/-- `rk_init`, time_integration.cpp:53-90, for all materials. -/
def rkInit (st : SghState K E N) : SghState K E N :=
  { st with
    coordsN0 := st.coords
    velN0 := st.vel
    mats := st.mats.map fun m => { m with pts := m.pts.map fun p =>
      { p with sieN0 := p.sie, stressN0 := p.stress } } }

/-- Everything fixed during a run: mesh, nodal masses, boundary sets, external nodal forces
(`boundary_stress`, which starts from zero), material models. -/
structure SghEnv (K : Type) (E N : ℕ) where
  mesh : Mesh8 E N
  mass : Fin N → K
  sets : List (VelSet (Fin N) K 3)
  ext : SghState K E N → K → Fin N → Fin 3 → K
  closures : Closures K E N

/-- Velocity after `update_velocity` and before the boundary conditions of a stage. -/
def stageVelFree (env : SghEnv K E N) (time alpha dt : K) (st : SghState K E N) :
    Fin N → Vel K 3 :=
  updateVelocity env.mesh alpha dt env.mass (env.ext st time)
    (cornerForces env.mesh env.closures st) st.velN0

/-- One Runge-Kutta stage, sgh_execute.cpp:285-581, without contact and fracture.
The material updates after the position update are the arbitrary `closures.update`. -/
def sghStage (env : SghEnv K E N) (time alpha dt : K) (st : SghState K E N) : SghState K E N :=
  let vel := boundaryVelocity env.sets time (stageVelFree env time alpha dt st)
  let mats := (saveMatForces env.mesh env.closures st).map fun m =>
    { m with pts := m.pts.map (updateEnergy env.mesh alpha dt vel st.velN0) }
  let st' : SghState K E N :=
    { coords := updatePosition alpha dt st.coordsN0 vel st.velN0
      coordsN0 := st.coordsN0
      vel := vel
      velN0 := st.velN0
      mats := mats }
  { st' with mats := st'.mats.map fun m =>
      { m with pts := m.pts.map (env.closures.update st st' m) } }

/-- The Runge-Kutta coefficient of stage `s` of `S`, sgh_execute.cpp:287. -/
def rkAlpha (S s : ℕ) : K := 1 / ((S : K) - (s : K))

/-- One cycle: `rk_init` and all stages, sgh_execute.cpp:266-581. -/
def sghCycle (env : SghEnv K E N) (S : ℕ) (time dt : K) (st : SghState K E N) : SghState K E N :=
  (List.range S).foldl (fun st s => sghStage env time (rkAlpha S s) dt st) (rkInit st)

/-- Any number of cycles with the step sizes `dts` chosen by the time-step control. -/
def sghRun (env : SghEnv K E N) (S : ℕ) : K → List K → SghState K E N → SghState K E N
  | _, [], st => st
  | time, dt :: dts, st => sghRun env S (time + dt) dts (sghCycle env S time dt st)

/-! ### Tallies printed by the solver -/

/-- `sum_domain_kinetic_energy`, sgh_execute.cpp:792-815. -/
def kineticEnergy (mass : Fin N → K) (vel : Fin N → Vel K 3) : K :=
  1 / 2 * ∑ n, mass n * ∑ d, vel n d * vel n d

/-- `sum_domain_internal_energy` over all materials, sgh_execute.cpp:758-774 and 149-155. -/
def internalEnergy (mats : List (Mat K E)) : K :=
  (mats.map fun m => (m.pts.map fun p => p.mass * p.sie).sum).sum

/-- `sum_domain_material_mass` over all materials, sgh_execute.cpp:818-832 and 169-177. -/
def materialMass (mats : List (Mat K E)) : K :=
  (mats.map fun m => (m.pts.map fun p => p.mass).sum).sum

/-! ### Nodal masses -/

/-- One iteration of `calc_corner_mass`, region_fill.cpp:2276-2290. -/
def addCornerMass (cm : Fin E × Fin 8 → K) (p : MatPt K E) : Fin E × Fin 8 → K := fun c =>
  if c.1 = p.elem then cm c + 1 / 8 * p.mass else cm c

/-- `init_corner_node_masses_zero` and `calc_corner_mass` for all materials,
region_fill.cpp:2341-2356 and 2264-2293. -/
def cornerMass (mats : List (Mat K E)) : Fin E × Fin 8 → K :=
  mats.foldl (fun cm m => m.pts.foldl addCornerMass cm) fun _ => 0

/-- `calc_node_mass`, region_fill.cpp:2311-2327. -/
def nodeMass (mesh : Mesh8 E N) (cm : Fin E × Fin 8 → K) (n : Fin N) : K :=
  (mesh.cornersInNode n).foldl (fun acc c => acc + cm c) 0

end

end Fierro
