import Mathlib.Analysis.SpecialFunctions.Pow.Real
import Verif.Model.BoundaryVelocity
import Verif.Model.TimeStep
import Verif.Model.Sgh
import Verif.Model.SghRz

/-!
# The level set solver

Models `apps/multiphysics/src/Solvers/level_set_solver/src`: `solver_functions.cpp`,
`level_set_boundary.cpp`, `time_integration.cpp` and the cycle loop of `level_set_execute.cpp`.
One Gauss point per element.  Sums over the dimensions and over the nodes of one element are
written `∑` (exact arithmetic).
-/

namespace Fierro

variable {E N m D : ℕ}

/-- The mesh tables read by the solver: `nodes_in_elem`, and for every node the corners
(`corners_in_node`, `elems_in_node`; the element of a corner is its first component). -/
structure LsMesh (E N m : ℕ) where
  nodesInElem : Fin E → Fin m → Fin N
  cornersInNode : Fin N → List (Fin E × Fin m)

/-- Geometry of the (fixed) mesh. -/
structure LsGeom (E m D : ℕ) where
  /-- `corner_normal`: the rows of the B-matrix, solver_functions.cpp:91-113 -/
  normal : Fin E → Fin m → Fin D → ℝ
  /-- `elem_vol`, solver_functions.cpp:81-89 -/
  vol : Fin E → ℝ
  /-- `deltaX`, solver_functions.cpp:237-243 -/
  len : Fin E → ℝ

/-- The geometry of a hexahedral mesh, solver_functions.cpp:83-96 and 238-239; `cbrt` of the
(positive) volume is the power 1/3. -/
noncomputable def lsGeom3 (mesh : Mesh8 E N) (coords : Fin N → Fin 3 → ℝ) : LsGeom E 8 3 where
  normal := elemB mesh coords
  vol := fun e => volHex (elemCoords mesh coords e 0) (elemCoords mesh coords e 1)
    (elemCoords mesh coords e 2)
  len := fun e => 2 * volHex (elemCoords mesh coords e 0) (elemCoords mesh coords e 1)
    (elemCoords mesh coords e 2) ^ ((1 : ℝ) / 3)

/-- The geometry of a quadrilateral mesh, solver_functions.cpp:86-102 and 241-243. -/
noncomputable def lsGeom2 (mesh : Mesh4 E N) (coords : Fin N → Fin 2 → ℝ) : LsGeom E 4 2 where
  normal := rzB mesh coords
  vol := rzArea mesh coords
  len := fun e => 2 * Real.sqrt (rzVol mesh coords e)

/-- The tables of a hexahedral mesh. -/
def lsMesh3 (mesh : Mesh8 E N) : LsMesh E N 8 := ⟨mesh.nodesInElem, mesh.cornersInNode⟩

/-- `node_vol`, solver_functions.cpp:130-156, with the corner volume of line 116. -/
noncomputable def lsNodeVol (M : LsMesh E N m) (G : LsGeom E m D) (n : Fin N) : ℝ :=
  (M.cornersInNode n).foldl (fun acc c => acc + 1 / (m : ℝ) * G.vol c.1) 0

/-- `node_grad_level_set`, solver_functions.cpp:127-161. -/
noncomputable def lsGrad (M : LsMesh E N m) (G : LsGeom E m D) (phi : Fin E → ℝ) (n : Fin N)
    (d : Fin D) : ℝ :=
  (M.cornersInNode n).foldl (fun acc c => acc + G.normal c.1 c.2 d * phi c.1) 0 / lsNodeVol M G n

/-- Euclidean norm as computed, solver_functions.cpp:159-165. -/
noncomputable def lsMag (v : Fin D → ℝ) : ℝ := Real.sqrt (∑ d, v d * v d)

/-- `node_level_set_vel` of a node with gradient `g`, solver_functions.cpp:168-171. -/
noncomputable def lsVel (fuzz : ℝ) (g : Fin D → ℝ) : Vel ℝ D := fun d => g d / (lsMag g + fuzz)

/-- A velocity boundary condition of the level set solver: the model of the set, then the scaling to
unit length, level_set_boundary.cpp:70-89. -/
noncomputable def lsScaledBC (small : ℝ) (s : VelSet (Fin N) ℝ D) : VelSet (Fin N) ℝ D where
  nodes := s.nodes
  bc := fun t v => lsVel small (s.bc t v)

/-- `boundary_velocity`, level_set_boundary.cpp:51-97. -/
noncomputable def lsBoundary (small : ℝ) (sets : List (VelSet (Fin N) ℝ D)) (time : ℝ)
    (vel : Fin N → Vel ℝ D) : Fin N → Vel ℝ D :=
  boundaryVelocity (sets.map (lsScaledBC small)) time vel

/-- `signum`, solver_functions.cpp:244. -/
noncomputable def lsSignum (phi len : ℝ) : ℝ := phi / Real.sqrt (phi * phi + len * len)

/-- `node_HJ`, solver_functions.cpp:257-260. -/
noncomputable def lsNodeHJ (vel : Fin N → Vel ℝ D) (grad : Fin N → Fin D → ℝ) (n : Fin N) : ℝ :=
  ∑ d, vel n d * grad n d

/-- `corner_weight`, solver_functions.cpp:271-275; `c` is `front_vel + signum`. -/
noncomputable def lsWeight (c : ℝ) (v b : Fin D → ℝ) : ℝ := max 0 (∑ d, c * v d * b d)

/-- `elem_HJ`, solver_functions.cpp:246-284. -/
noncomputable def lsElemHJ (M : LsMesh E N m) (G : LsGeom E m D) (fuzz c : ℝ)
    (vel : Fin N → Vel ℝ D) (grad : Fin N → Fin D → ℝ) (e : Fin E) : ℝ :=
  (∑ l, lsWeight c (vel (M.nodesInElem e l)) (G.normal e l) *
      lsNodeHJ vel grad (M.nodesInElem e l)) /
    (∑ l, lsWeight c (vel (M.nodesInElem e l)) (G.normal e l) + fuzz)

/-- The new value of an element, solver_functions.cpp:233-292: `phi` is the value before the stage,
`phi0` the value at the start of the cycle. -/
noncomputable def lsNewValue (M : LsMesh E N m) (G : LsGeom E m D) (fuzz front adt : ℝ)
    (vel : Fin N → Vel ℝ D) (grad : Fin N → Fin D → ℝ) (e : Fin E) (phi0 phi : ℝ) : ℝ :=
  let s := lsSignum phi (G.len e)
  let h := lsElemHJ M G fuzz (front + s) vel grad e
  phi0 - adt * (front * h + s * (h - 1))

/-- A material whose level set type is `evolveFront`. -/
structure LsMat (E : ℕ) where
  elems : List (Fin E)
  /-- `normal_velocity` -/
  front : ℝ
  /-- `curvature_velocity` (only used for the time step) -/
  curv : ℝ

/-- `update_level_set`, solver_functions.cpp:201-301. -/
noncomputable def lsUpdate (M : LsMesh E N m) (G : LsGeom E m D) (fuzz adt : ℝ)
    (vel : Fin N → Vel ℝ D) (grad : Fin N → Fin D → ℝ) (phi0 : Fin E → ℝ) (phi : Fin E → ℝ)
    (mat : LsMat E) : Fin E → ℝ :=
  mat.elems.foldl (fun phi e => Function.update phi e
    (lsNewValue M G fuzz mat.front adt vel grad e (phi0 e) (phi e))) phi

/-- Everything fixed during a run. -/
structure LsEnv (E N m D : ℕ) where
  mesh : LsMesh E N m
  geom : LsGeom E m D
  fuzz : ℝ
  small : ℝ
  sets : List (VelSet (Fin N) ℝ D)
  mats : List (LsMat E)

/-- Nodal velocities of a stage: the unit gradients, then the boundary conditions once for every
evolving material, level_set_execute.cpp:240-264. -/
noncomputable def lsStageVel (env : LsEnv E N m D) (time : ℝ) (phi : Fin E → ℝ) :
    Fin N → Vel ℝ D :=
  env.mats.foldl (fun v _ => lsBoundary env.small env.sets time v)
    fun n => lsVel env.fuzz (lsGrad env.mesh env.geom phi n)

/-- One Runge-Kutta stage, level_set_execute.cpp:234-301; `adt` is `rk_alpha * dt`. -/
noncomputable def lsStage (env : LsEnv E N m D) (time adt : ℝ) (phi0 phi : Fin E → ℝ) :
    Fin E → ℝ :=
  env.mats.foldl (lsUpdate env.mesh env.geom env.fuzz adt (lsStageVel env time phi)
    (lsGrad env.mesh env.geom phi) phi0) phi

/-- The stages of a cycle, level_set_execute.cpp:217-301.  `level_set_n0` is saved only for the
elements of level set materials (`rk_init`) and only read there, so the model saves all. -/
noncomputable def lsCycle (env : LsEnv E N m D) (stages : ℕ) (time dt : ℝ) (phi0 : Fin E → ℝ) :
    Fin E → ℝ :=
  (List.range stages).foldl
    (fun phi (k : ℕ) => lsStage env time (1 / ((stages : ℝ) - (k : ℝ)) * dt) phi0 phi) phi0

/-! ### Time step -/

/-- `front_velocity` of an element, time_integration.cpp:169-175. -/
noncomputable def lsFrontSpeed (front curv dist : ℝ) : ℝ :=
  1.5 + front + curv * (1 / (3 * dist))

/-- What `get_timestep` (time_integration.cpp:94-203) reads of one element.  The routine is that of
the hydrodynamics solver with the front velocity in place of the sound speed and without
erosion, so `elemDt` and `getTimestep` are used with it. -/
noncomputable def lsCflElem (front curv : ℝ) (coords : ℕ → Fin 3 → ℝ) : CflElem where
  coords := coords
  sspd := lsFrontSpeed front curv (distMin coords)
  eroded := false

/-- The step of a cycle, level_set_execute.cpp:134-202: `none` is a material without an evolving
level set, whose `dt_mat` stays `dt`. -/
noncomputable def lsCycleDt (o : ClockOpts) (mats : List (Option (List CflElem)))
    (time gtime dt : ℝ) : ℝ :=
  mats.foldl (fun mn es => min (match es with
    | none => dt
    | some es => getTimestep o es time gtime dt) mn) o.dtMax

/-- One cycle as seen by the clock, level_set_execute.cpp:126-331.  Unlike in the hydrodynamics
solver the next dump is `graphics_dt_ival` after the current time. -/
noncomputable def lsClockCycle (o : ClockOpts) (mats : List (Option (List CflElem))) (cycle : ℕ)
    (s : Clock) : Clock :=
  let cached := s.dt
  let dt := lsCycleDt o mats s.time s.gtime s.dt
  let time := s.time + dt
  if writeFlag o cycle time s.gtime = true then
    { time := time, dt := cached, gtime := time + o.ival,
      outputId := s.outputId + 1, log := (cycle, time) :: s.log }
  else { s with time := time, dt := dt }

open Classical in
/-- The cycle loop, level_set_execute.cpp:126-337, with `n` passes left; the result also gives the
number of cycles entered.  `hist c` is what the time step reads in cycle `c`. -/
noncomputable def lsClockLoop (o : ClockOpts) (hist : ℕ → List (Option (List CflElem))) :
    ℕ → ℕ → Clock → Clock × ℕ
  | 0, cycle, s => (s, cycle)
  | n + 1, cycle, s =>
    let s' := lsClockCycle o (hist cycle) cycle s
    if s'.time ≥ o.timeFinal then (s', cycle + 1) else lsClockLoop o hist n (cycle + 1) s'

end Fierro
