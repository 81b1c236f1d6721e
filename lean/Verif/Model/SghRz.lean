import Verif.Model.Geometry2D
import Verif.Model.Materials
import Verif.Model.BoundaryVelocity

/-!
# The axisymmetric (r-z) staggered-grid hydrodynamics solver

`apps/multiphysics/src/Solvers/SGH_solver_rz/src/{sgh_setup_rz,momentum_rz,energy_sgh_rz,
position_rz,force_sgh_rz,time_integration_rz,sgh_execute_rz}.cpp`, all paths below are relative to
that directory.  Coordinates are `(z, r)`: component 0 is the axial position, component 1 the
radius.  Arithmetic is exact; the corner areas use square roots, so the numbers are reals.

As in the 3D model the mesh tables come from the library `swage` and `Mesh4.WF` is its contract.
`GaussPoints.vol` is recomputed from the coordinates after every position update
(sgh_execute_rz.cpp:378) and before the first cycle (region_fill.cpp:68), so the model computes it
from the coordinates where it is read.
-/

namespace Fierro

/-- The incidence tables of a 4-node mesh used by the solver. -/
structure Mesh4 (E N : ℕ) where
  /-- `mesh.nodes_in_elem` -/
  nodesInElem : Fin E → Fin 4 → Fin N
  /-- `mesh.corners_in_node(node, 0 .. num_corners_in_node(node)-1)` -/
  cornersInNode : Fin N → List (Fin E × Fin 4)
  /-- `mesh.nodes_in_node(node, 0 .. num_nodes_in_node(node)-1)` -/
  nodesInNode : Fin N → List (Fin N)
  /-- `mesh.bdy_nodes` -/
  bdyNodes : List (Fin N)

/-- Contract of the mesh library: the corners listed for a node are exactly the corners at that
node, each once. -/
def Mesh4.WF {E N : ℕ} (m : Mesh4 E N) : Prop :=
  ∀ n, (m.cornersInNode n).Nodup ∧ ∀ c, c ∈ m.cornersInNode n ↔ m.nodesInElem c.1 c.2 = n

/-- State of one material point. -/
structure RzPt (E : ℕ) where
  /-- `elem_in_mat_elem(mat_id, sid)` -/
  elem : Fin E
  mass : ℝ
  sie : ℝ
  sieN0 : ℝ
  den : ℝ
  pres : ℝ
  sspd : ℝ
  volfrac : ℝ
  geoVolfrac : ℝ
  stress : Fin 3 → Fin 3 → ℝ
  stressN0 : Fin 3 → Fin 3 → ℝ
  eroded : Bool
  /-- `MaterialCorners_force(mat_id, corners_in_mat_elem(sid, lid), dim)` -/
  cornerForce : Fin 4 → Fin 2 → ℝ

/-- One material: its points in storage order. -/
structure RzMat (E : ℕ) where
  id : ℕ
  /-- `MaterialEnums(mat_id).EOSType == model::decoupledEOSType` -/
  decoupledEOS : Bool
  pts : List (RzPt E)

/-- The part of `State_t` evolved by the solver. -/
structure RzState (E N : ℕ) where
  coords : Fin N → Fin 2 → ℝ
  coordsN0 : Fin N → Fin 2 → ℝ
  vel : Fin N → Vel ℝ 2
  velN0 : Fin N → Vel ℝ 2
  /-- `State.node.mass`: areal mass, i.e. mass divided by the radius -/
  areal : Fin N → ℝ
  mats : List (RzMat E)

variable {E N : ℕ}

/-- Coordinate `d` of the nodes of an element. -/
def rzCoords (mesh : Mesh4 E N) (coords : Fin N → Fin 2 → ℝ) (e : Fin E) (d : Fin 2) :
    Fin 4 → ℝ := fun l => coords (mesh.nodesInElem e l) d

/-- Outward corner normals of an element, `get_bmatrix2D`. -/
noncomputable def rzB (mesh : Mesh4 E N) (coords : Fin N → Fin 2 → ℝ) (e : Fin E) :
    Fin 4 → Fin 2 → ℝ :=
  bmatrix2D (rzCoords mesh coords e 0) (rzCoords mesh coords e 1)

/-- `get_area_quad` of an element. -/
noncomputable def rzArea (mesh : Mesh4 E N) (coords : Fin N → Fin 2 → ℝ) (e : Fin E) : ℝ :=
  areaQuad (rzCoords mesh coords e 0) (rzCoords mesh coords e 1)

/-- `get_area_weights2D` of an element. -/
noncomputable def rzCornerArea (mesh : Mesh4 E N) (coords : Fin N → Fin 2 → ℝ) (e : Fin E) :
    Fin 4 → ℝ :=
  areaWeights2D (rzCoords mesh coords e 0) (rzCoords mesh coords e 1)

/-- `GaussPoints.vol` of an element, `get_vol_quad`. -/
noncomputable def rzVol (mesh : Mesh4 E N) (coords : Fin N → Fin 2 → ℝ) (e : Fin E) : ℝ :=
  volQuad (rzCoords mesh coords e 0) (rzCoords mesh coords e 1)

/-! ### Masses at setup -/

/-- One iteration of `calc_corner_mass_rz`, sgh_setup_rz.cpp:155-186. -/
noncomputable def rzAddCornerMass (mesh : Mesh4 E N) (coords : Fin N → Fin 2 → ℝ)
    (cm : Fin E × Fin 4 → ℝ) (p : RzPt E) : Fin E × Fin 4 → ℝ := fun c =>
  if c.1 = p.elem then cm c + rzCornerArea mesh coords p.elem c.2 * p.den else cm c

/-- `init_corner_node_masses_zero_rz` and `calc_corner_mass_rz` for all materials,
sgh_setup_rz.cpp:55-69 and 110-128. -/
noncomputable def rzCornerMass (mesh : Mesh4 E N) (coords : Fin N → Fin 2 → ℝ)
    (mats : List (RzMat E)) : Fin E × Fin 4 → ℝ :=
  mats.foldl (fun cm m => m.pts.foldl (rzAddCornerMass mesh coords) cm) fun _ => 0

/-- `calc_node_mass_rz`, sgh_setup_rz.cpp:205-222: the areal node mass (the corner masses, which
the solver does not read again, are multiplied by the radius there). -/
noncomputable def rzNodeAreal (mesh : Mesh4 E N) (cm : Fin E × Fin 4 → ℝ) (n : Fin N) : ℝ :=
  (mesh.cornersInNode n).foldl (fun acc c => acc + cm c) 0

/-- `calc_node_extensive_mass_rz`, sgh_execute_rz.cpp:628-639. -/
def rzExtensive (coords : Fin N → Fin 2 → ℝ) (areal : Fin N → ℝ) (n : Fin N) : ℝ :=
  areal n * coords n 1

open Classical in
/-- First loop of `calc_node_areal_mass_rz`, sgh_execute_rz.cpp:665-673. -/
noncomputable def rzArealOffAxis (tiny : ℝ) (coords : Fin N → Fin 2 → ℝ) (ext : Fin N → ℝ)
    (n : Fin N) : ℝ :=
  if coords n 1 > tiny then ext n / coords n 1 else 0

open Classical in
/-- Body of the second loop of `calc_node_areal_mass_rz` for one boundary node,
sgh_execute_rz.cpp:677-694.  Only nodes on the axis are written and only nodes off the axis are
read from neighbours, so the iterations are independent of each other. -/
noncomputable def rzAxisNode (mesh : Mesh4 E N) (tiny : ℝ) (coords : Fin N → Fin 2 → ℝ)
    (m : Fin N → ℝ) (n : Fin N) : Fin N → ℝ :=
  if coords n 1 < tiny then
    (mesh.nodesInNode n).foldl (fun m k =>
      if coords k 1 > tiny then Function.update m n (max (m n) (m k / 2)) else m) m
  else m

/-- `calc_node_areal_mass_rz`, sgh_execute_rz.cpp:657-697. -/
noncomputable def rzArealMass (mesh : Mesh4 E N) (tiny : ℝ) (coords : Fin N → Fin 2 → ℝ)
    (ext : Fin N → ℝ) : Fin N → ℝ :=
  mesh.bdyNodes.foldl (rzAxisNode mesh tiny coords) (rzArealOffAxis tiny coords ext)

/-! ### Velocity gradient -/

/-- The four-term sums of `get_velgrad_rz`. -/
def dot4 (u b : Fin 4 → ℝ) : ℝ := u 0 * b 0 + u 1 * b 1 + u 2 * b 2 + u 3 * b 3

/-- Mean radius `elem_vol / elem_area`, momentum_rz.cpp:150. -/
noncomputable def rzMeanRadius (mesh : Mesh4 E N) (coords : Fin N → Fin 2 → ℝ) (e : Fin E) : ℝ :=
  rzVol mesh coords e / rzArea mesh coords e

/-- Average radial velocity, momentum_rz.cpp:151. -/
noncomputable def rzVelR (mesh : Mesh4 E N) (vel : Fin N → Vel ℝ 2) (e : Fin E) : ℝ :=
  1 / 4 * (vel (mesh.nodesInElem e 0) 1 + vel (mesh.nodesInElem e 1) 1
    + vel (mesh.nodesInElem e 2) 1 + vel (mesh.nodesInElem e 3) 1)

/-- In-plane entries of `get_velgrad_rz`, momentum_rz.cpp:154-168. -/
noncomputable def rzVelGrad (mesh : Mesh4 E N) (coords : Fin N → Fin 2 → ℝ)
    (vel : Fin N → Vel ℝ 2) (e : Fin E) (i j : Fin 2) : ℝ :=
  dot4 (fun l => vel (mesh.nodesInElem e l) i) (fun l => rzB mesh coords e l j)
    * (1 / rzArea mesh coords e)

/-- The hoop entry `(2, 2)` of `get_velgrad_rz`, momentum_rz.cpp:170.  The entries `(0,2)`,
`(1,2)`, `(2,0)` and `(2,1)` are not written by the routine. -/
noncomputable def rzHoop (mesh : Mesh4 E N) (coords : Fin N → Fin 2 → ℝ)
    (vel : Fin N → Vel ℝ 2) (e : Fin E) : ℝ :=
  rzVelR mesh vel e / rzMeanRadius mesh coords e

/-- `get_divergence_rz`, momentum_rz.cpp:249-313. -/
noncomputable def rzDivergence (mesh : Mesh4 E N) (coords : Fin N → Fin 2 → ℝ)
    (vel : Fin N → Vel ℝ 2) (e : Fin E) : ℝ :=
  0 + dot4 (fun l => vel (mesh.nodesInElem e l) 0) (fun l => rzB mesh coords e l 0)
        * (1 / rzArea mesh coords e)
    + (dot4 (fun l => vel (mesh.nodesInElem e l) 1) (fun l => rzB mesh coords e l 1)
        * (1 / rzArea mesh coords e) + rzVelR mesh vel e / rzMeanRadius mesh coords e)

/-! ### Forces -/

/-- The stress `tau`, force_sgh_rz.cpp:161-177. -/
noncomputable def rzTau (decoupled : Bool) (p : RzPt E) (i j : Fin 3) : ℝ :=
  if decoupled = true ∧ i = j then p.stress i j - p.pres else p.stress i j

/-- `force_component`, force_sgh_rz.cpp:149-159 and 227-230. -/
noncomputable def rzForceComponent (mesh : Mesh4 E N) (coords : Fin N → Fin 2 → ℝ)
    (decoupled : Bool) (disp : Fin 4 → Fin 2 → ℝ) (p : RzPt E) (l : Fin 4) (d : Fin 2) : ℝ :=
  (-1) * rzB mesh coords p.elem l 0 * rzTau decoupled p 0 d.castSucc
    + (-1) * rzB mesh coords p.elem l 1 * rzTau decoupled p 1 d.castSucc + disp l d

/-- The hoop terms `force_term_1` and `force_term_2`, force_sgh_rz.cpp:241-271. -/
noncomputable def rzHoopForce (mesh : Mesh4 E N) (coords : Fin N → Fin 2 → ℝ)
    (decoupled : Bool) (p : RzPt E) (l : Fin 4) : Fin 2 → ℝ
  | 0 => rzTau decoupled p 1 0 * rzCornerArea mesh coords p.elem l / rzMeanRadius mesh coords p.elem
  | 1 => (rzTau decoupled p 1 1 - rzTau decoupled p 2 2) * rzCornerArea mesh coords p.elem l
      / rzMeanRadius mesh coords p.elem

/-- The material corner force saved by `get_force_rz`, force_sgh_rz.cpp:217-271. -/
noncomputable def rzMatForce (mesh : Mesh4 E N) (coords : Fin N → Fin 2 → ℝ) (decoupled : Bool)
    (disp : Fin 4 → Fin 2 → ℝ) (p : RzPt E) (l : Fin 4) (d : Fin 2) : ℝ :=
  if p.eroded = true then 0
  else rzForceComponent mesh coords decoupled disp p l d * p.volfrac * p.geoVolfrac
    + rzHoopForce mesh coords decoupled p l d * p.volfrac * p.geoVolfrac

/-- What one iteration of the loop of `get_force_rz` does to `corner_force`,
force_sgh_rz.cpp:200-276.  An eroded point assigns zero (line 220), other points add. -/
noncomputable def rzAddForce (f : RzPt E → Fin 4 → Fin 2 → ℝ) (cf : Fin E × Fin 4 → Fin 2 → ℝ)
    (p : RzPt E) : Fin E × Fin 4 → Fin 2 → ℝ := fun c d =>
  if c.1 = p.elem then (if p.eroded = true then 0 else cf c d + f p c.2 d) else cf c d

/-- Models of the material that the solver calls; their results are arbitrary in the model. -/
structure RzClosures (E N : ℕ) where
  /-- dissipation force of a point (`calc_dissipation`) -/
  disp : RzState E N → RzMat E → RzPt E → Fin 4 → Fin 2 → ℝ
  /-- effect of `update_stress` and `update_state_rz` on a point -/
  update : RzState E N → RzState E N → RzMat E → RzPt E → RzPt E

/-- The closures do not touch the element a point lives in, its mass and its energies. -/
def RzClosures.Lawful (C : RzClosures E N) : Prop :=
  ∀ st st' m p, (C.update st st' m p).elem = p.elem ∧ (C.update st st' m p).mass = p.mass ∧
    (C.update st st' m p).sie = p.sie ∧ (C.update st st' m p).sieN0 = p.sieN0

/-- `set_corner_force_zero_rz` and `get_force_rz` for all materials, sgh_execute_rz.cpp:268-301. -/
noncomputable def rzCornerForces (mesh : Mesh4 E N) (C : RzClosures E N) (st : RzState E N) :
    Fin E × Fin 4 → Fin 2 → ℝ :=
  st.mats.foldl (fun cf m =>
    m.pts.foldl (rzAddForce fun p =>
      rzMatForce mesh st.coords m.decoupledEOS (C.disp st m p) p) cf) fun _ _ => 0

/-- A point with the corner force saved by `get_force_rz`. -/
noncomputable def rzWithForce (mesh : Mesh4 E N) (C : RzClosures E N) (st : RzState E N)
    (m : RzMat E) (p : RzPt E) : RzPt E :=
  { p with cornerForce := rzMatForce mesh st.coords m.decoupledEOS (C.disp st m p) p }

/-! ### Updates -/

/-- Nodal force accumulated in `update_velocity_rz`, momentum_rz.cpp:64-79. -/
noncomputable def rzNodeForce (mesh : Mesh4 E N) (cf : Fin E × Fin 4 → Fin 2 → ℝ) (n : Fin N)
    (d : Fin 2) : ℝ :=
  (mesh.cornersInNode n).foldl (fun acc c => acc + cf c d) 0

/-- `update_velocity_rz`, momentum_rz.cpp:52-89. -/
noncomputable def rzUpdateVelocity (mesh : Mesh4 E N) (alpha dt : ℝ) (areal : Fin N → ℝ)
    (cf : Fin E × Fin 4 → Fin 2 → ℝ) (velN0 : Fin N → Vel ℝ 2) : Fin N → Vel ℝ 2 := fun n d =>
  velN0 n d + alpha * dt * rzNodeForce mesh cf n d / areal n

/-- Power of the corner forces of a point, energy_sgh_rz.cpp:83-114. -/
noncomputable def rzPointPower (mesh : Mesh4 E N) (coords : Fin N → Fin 2 → ℝ)
    (vel velN0 : Fin N → Vel ℝ 2) (p : RzPt E) : ℝ :=
  (List.finRange 4).foldl (fun acc l =>
    (List.finRange 2).foldl (fun acc d =>
      acc + p.cornerForce l d * coords (mesh.nodesInElem p.elem l) 1 *
        ((vel (mesh.nodesInElem p.elem l) d + velN0 (mesh.nodesInElem p.elem l) d) * (1 / 2)))
      acc) 0

/-- `update_energy_rz`, energy_sgh_rz.cpp:54-125. -/
noncomputable def rzUpdateEnergy (mesh : Mesh4 E N) (alpha dt : ℝ) (coords : Fin N → Fin 2 → ℝ)
    (vel velN0 : Fin N → Vel ℝ 2) (p : RzPt E) : RzPt E :=
  { p with sie := p.sieN0 - alpha * dt / p.mass * rzPointPower mesh coords vel velN0 p }

/-- `update_position_rz`, position_rz.cpp:50-76: the radius is cut off at zero. -/
noncomputable def rzUpdatePosition (alpha dt : ℝ) (coordsN0 : Fin N → Fin 2 → ℝ)
    (vel velN0 : Fin N → Vel ℝ 2) : Fin N → Fin 2 → ℝ := fun n d =>
  if d = 1 then max 0 (coordsN0 n d + alpha * dt * ((vel n d + velN0 n d) * (1 / 2)))
  else coordsN0 n d + alpha * dt * ((vel n d + velN0 n d) * (1 / 2))

/-- `rk_init_rz`, time_integration_rz.cpp:54-93, for all materials. -/
def rzInit (st : RzState E N) : RzState E N :=
  { st with
    coordsN0 := st.coords
    velN0 := st.vel
    mats := st.mats.map fun m => { m with pts := m.pts.map fun p =>
      { p with sieN0 := p.sie, stressN0 := p.stress } } }

/-- Everything fixed during a run. -/
structure RzEnv (E N : ℕ) where
  mesh : Mesh4 E N
  /-- `node_extensive_mass` -/
  ext : Fin N → ℝ
  tiny : ℝ
  sets : List (VelSet (Fin N) ℝ 2)
  closures : RzClosures E N

/-- Velocity after `update_velocity_rz` and before the boundary conditions of a stage. -/
noncomputable def rzVelFree (env : RzEnv E N) (alpha dt : ℝ) (st : RzState E N) :
    Fin N → Vel ℝ 2 :=
  rzUpdateVelocity env.mesh alpha dt st.areal (rzCornerForces env.mesh env.closures st) st.velN0

/-- State of a stage after the position update, sgh_execute_rz.cpp:266-375. -/
noncomputable def rzStagePre (env : RzEnv E N) (time alpha dt : ℝ) (st : RzState E N) :
    RzState E N :=
  let vel := boundaryVelocity env.sets time (rzVelFree env alpha dt st)
  { st with
    coords := rzUpdatePosition alpha dt st.coordsN0 vel st.velN0
    vel := vel
    mats := st.mats.map fun m => { m with
      pts := m.pts.map fun p => rzUpdateEnergy env.mesh alpha dt st.coords vel st.velN0
        (rzWithForce env.mesh env.closures st m p) } }

/-- One Runge-Kutta stage, sgh_execute_rz.cpp:252-424. -/
noncomputable def rzStage (env : RzEnv E N) (time alpha dt : ℝ) (st : RzState E N) :
    RzState E N :=
  let st' := rzStagePre env time alpha dt st
  { st' with
    mats := st'.mats.map fun m => { m with pts := m.pts.map (env.closures.update st st' m) }
    areal := rzArealMass env.mesh env.tiny st'.coords env.ext }

/-- One cycle: `rk_init_rz` and all stages, sgh_execute_rz.cpp:232-424; the coefficient of stage
`s` is `1 / (S - s)` (line 256). -/
noncomputable def rzCycle (env : RzEnv E N) (S : ℕ) (time dt : ℝ) (st : RzState E N) :
    RzState E N :=
  (List.range S).foldl (fun st s => rzStage env time (1 / ((S : ℝ) - (s : ℝ))) dt st) (rzInit st)

/-- Any number of cycles with the step sizes `dts`. -/
noncomputable def rzRun (env : RzEnv E N) (S : ℕ) : ℝ → List ℝ → RzState E N → RzState E N
  | _, [], st => st
  | time, dt :: dts, st => rzRun env S (time + dt) dts (rzCycle env S time dt st)

/-! ### Tallies printed by the solver -/

/-- `sum_domain_kinetic_energy_rz`, sgh_execute_rz.cpp:551-573. -/
noncomputable def rzKinetic (ext : Fin N → ℝ) (vel : Fin N → Vel ℝ 2) : ℝ :=
  1 / 2 * ∑ n, ext n * ∑ d, vel n d * vel n d

/-- `sum_domain_internal_energy_rz` over all materials, sgh_execute_rz.cpp:532-549. -/
noncomputable def rzInternal (mats : List (RzMat E)) : ℝ :=
  (mats.map fun m => (m.pts.map fun p => p.mass * p.sie).sum).sum

/-- `sum_domain_material_mass_rz` over all materials, sgh_execute_rz.cpp:577-594. -/
noncomputable def rzMaterialMass (mats : List (RzMat E)) : ℝ :=
  (mats.map fun m => (m.pts.map fun p => p.mass).sum).sum

/-! ### Time step -/

/-- The node pairs of `get_timestep_rz` in program order, time_integration_rz.cpp:156-166:
`for (i = 0; i < 3; i++) for (j = i + 1; j <= 3; j++)`. -/
def rzPairs : List (ℕ × ℕ) :=
  (List.range 3).flatMap fun i => (List.range' (i + 1) (3 - i)).map fun j => (i, j)

/-- Distance of two nodes, time_integration_rz.cpp:160-163. -/
noncomputable def rzDist (x : ℕ → Fin 2 → ℝ) (a b : ℕ) : ℝ :=
  |Real.sqrt ((x a 0 - x b 0) ^ 2 + (x a 1 - x b 1) ^ 2)|

/-- `dist_min`, time_integration_rz.cpp:168-172. -/
noncomputable def rzDistMin (x : ℕ → Fin 2 → ℝ) : ℝ :=
  (rzPairs.map fun p => rzDist x p.1 p.2).foldl (fun m d => min d m)
    (rzDist x 0 1)

/-! ### Dissipation (material_models/artificial_viscosity/mars.hpp) -/

/-- What the r-z dissipation models read for one element and material point. -/
structure MarsRzInput where
  /-- entries (0,0), (0,1), (1,0), (1,1) of the velocity gradient -/
  L : Fin 2 → Fin 2 → ℝ
  /-- hoop entry (2,2) -/
  hoop : ℝ
  /-- divergence in each neighbouring element -/
  nbrDiv : List ℝ
  vel : Fin 4 → Fin 2 → ℝ
  /-- inward corner normals -/
  normal : Fin 4 → Fin 2 → ℝ
  den : ℝ
  sspd : ℝ
  area : ℝ
  fuzz : ℝ
  small : ℝ

namespace MarsRzInput

/-- mars.hpp:705-707 -/
def div (x : MarsRzInput) : ℝ := x.L 0 0 + x.L 1 1 + x.hoop

/-- `mag_curl`, mars.hpp:712-715: the source assigns the curl without taking its magnitude. -/
def magCurl (x : MarsRzInput) : ℝ := x.L 1 0 - x.L 0 1

/-- mars.hpp:723-737 -/
noncomputable def velAvg (x : MarsRzInput) (d : Fin 2) : ℝ :=
  (List.finRange 4).foldl (fun acc l => acc + 1 / 4 * x.vel l d) 0

/-- mars.hpp:758-759 -/
noncomputable def magVel (x : MarsRzInput) (l : Fin 4) : ℝ :=
  Real.sqrt ((x.vel l 0 - x.velAvg 0) * (x.vel l 0 - x.velAvg 0)
    + (x.vel l 1 - x.velAvg 1) * (x.vel l 1 - x.velAvg 1))

/-- corner impedance, mars.hpp:780-789 -/
noncomputable def impedance (x : MarsRzInput) (q : MarsParams) (l : Fin 4) : ℝ :=
  if x.div < 0 then x.den * (q.q1 * x.sspd + q.q2 * x.magVel l)
  else x.den * (q.q1ex * x.sspd + q.q2ex * x.magVel l)

/-- magnitude of the corner normal, mars.hpp:795-797 -/
noncomputable def magNormal (x : MarsRzInput) (l : Fin 4) : ℝ :=
  Real.sqrt (x.normal l 0 * x.normal l 0 + x.normal l 1 * x.normal l 1)

/-- `mu_term`, mars.hpp:795-797 -/
noncomputable def mu (x : MarsRzInput) (q : MarsParams) (l : Fin 4) : ℝ :=
  x.impedance q l * x.magNormal l

/-- Riemann velocity, mars.hpp:799-816 -/
noncomputable def velStar (x : MarsRzInput) (mu : Fin 4 → ℝ) (d : Fin 2) : ℝ :=
  if (List.finRange 4).foldl (fun acc l => acc + mu l) 0 > x.fuzz then
    (List.finRange 4).foldl (fun acc l => acc + mu l * x.vel l d) 0
      / (List.finRange 4).foldl (fun acc l => acc + mu l) 0
  else 0

/-- `r_min`, mars.hpp:830-853 -/
noncomputable def rMin (x : MarsRzInput) : ℝ :=
  x.nbrDiv.foldl (fun r dn => min (9 / 10 * (dn + x.small) / (x.div + x.small)) r) 1

/-- Shock detector, mars.hpp:855-878 (`n_coef` is 1).  With `mag_curl + fuzz = 0` the source
divides by zero; the square root of a negative area is NaN.  The theorems exclude both. -/
noncomputable def phi (x : MarsRzInput) (q : MarsParams) : ℝ :=
  let phi := 1 - max 0 x.rMin
  let alpha := min 1 (20 * (Real.sqrt x.area * |x.div|) / (x.sspd + x.fuzz))
  let phi := alpha * phi
  let phiCurl := max (min 1 (4 * |x.div| / (x.magCurl + x.fuzz))) q.phiCurlFloor
  let phi := min phi phiCurl
  max q.phiFloor phi

/-- Corner forces of `MARSRZDissipationModel`, mars.hpp:880-891. -/
noncomputable def mars (x : MarsRzInput) (q : MarsParams) (l : Fin 4) (d : Fin 2) : ℝ :=
  x.phi q * x.mu q l * (x.velStar (x.mu q) d - x.vel l d)

end MarsRzInput

end Fierro
