import Verif.Model.Sgh
import Verif.Model.TimeStep
import Verif.Model.Table

/-!
# The thermal solver (SGTM, 3D)

`apps/multiphysics/src/Solvers/SGTM_solver_3D/src/{heat_flux,temperature_sgtm,boundary,
time_integration,sgtm_execute}.cpp`, `common/include/additive_data.hpp` and
`boundary_conditions/temperature/constant_temp_bc.hpp`.  Exact real arithmetic.  The nodes do not
move in this solver, so the coordinates are part of the fixed data; the element volume is the one
`get_vol` stores for them.
-/

namespace Fierro

/-- State of one material point of the thermal solver (one per element and material). -/
structure ThermPt (E : ℕ) where
  /-- `elem_in_mat_elem(mat_id, sid)` -/
  elem : Fin E
  conductivity : ℝ
  den : ℝ
  specificHeat : ℝ
  eroded : Bool
  /-- `MaterialPoints_q_flux(mat_id, sid, dim)` -/
  qFlux : Fin 3 → ℝ

/-- The state evolved by the thermal solver; `mats` lists the points of each material in storage
order. -/
structure ThermState (E N : ℕ) where
  temp : Fin N → ℝ
  tempN0 : Fin N → ℝ
  /-- `State.corner.q_transfer` -/
  cornerQ : Fin E × Fin 8 → ℝ
  mats : List (List (ThermPt E))

variable {E N : ℕ}

/-- `GaussPoints_vol(elem_gid)` as stored by `get_vol`, geometry_new.cpp:371-391. -/
noncomputable def thermVol (mesh : Mesh8 E N) (coords : Fin N → Fin 3 → ℝ) (e : Fin E) : ℝ :=
  volHex (elemCoords mesh coords e 0) (elemCoords mesh coords e 1) (elemCoords mesh coords e 2)

/-! ### Conduction -/

/-- `avg_temp`, heat_flux.cpp:121-126. -/
noncomputable def elemAvgTemp (mesh : Mesh8 E N) (temp : Fin N → ℝ) (e : Fin E) : ℝ :=
  (List.finRange 8).foldl (fun acc l => acc + temp (mesh.nodesInElem e l) / 8) 0

/-- `temp_grad`, heat_flux.cpp:136-154. -/
noncomputable def tempGrad (mesh : Mesh8 E N) (coords : Fin N → Fin 3 → ℝ) (temp : Fin N → ℝ)
    (e : Fin E) (d : Fin 3) : ℝ :=
  (List.finRange 8).foldl (fun acc l => acc + temp (mesh.nodesInElem e l) * elemB mesh coords e l d)
    0 * (1 / thermVol mesh coords e)

/-- `MaterialPoints_q_flux`, heat_flux.cpp:162-165. -/
noncomputable def pointFlux (mesh : Mesh8 E N) (coords : Fin N → Fin 3 → ℝ) (temp : Fin N → ℝ)
    (p : ThermPt E) (d : Fin 3) : ℝ :=
  (-1) * p.conductivity * tempGrad mesh coords temp p.elem d

/-- Heat transferred at a corner, heat_flux.cpp:168-186. -/
noncomputable def cornerHeat (mesh : Mesh8 E N) (coords : Fin N → Fin 3 → ℝ) (e : Fin E)
    (q : Fin 3 → ℝ) (l : Fin 8) : ℝ :=
  (List.finRange 3).foldl (fun acc d => acc + q d * (1 * elemB mesh coords e l d)) 0

open Classical in
/-- The material point after `get_heat_flux`: flux stored, melting flag set at an average of 900 or
more, heat_flux.cpp:129-132 and 162-165.  The array `temp_grad` is only written out; see
`tempGradWrites`. -/
noncomputable def heatPoint (mesh : Mesh8 E N) (coords : Fin N → Fin 3 → ℝ) (temp : Fin N → ℝ)
    (p : ThermPt E) : ThermPt E :=
  { p with
    eroded := if 900 ≤ elemAvgTemp mesh temp p.elem then true else p.eroded
    qFlux := pointFlux mesh coords temp p }

/-- What one iteration of `get_heat_flux` does to `corner_q_transfer`: the eight corners of the
element are assigned (heat_flux.cpp:168-186; line 180 zeroes them first). -/
noncomputable def setCornerHeat (mesh : Mesh8 E N) (coords : Fin N → Fin 3 → ℝ) (temp : Fin N → ℝ)
    (cq : Fin E × Fin 8 → ℝ) (p : ThermPt E) : Fin E × Fin 8 → ℝ := fun c =>
  if c.1 = p.elem then cornerHeat mesh coords p.elem (pointFlux mesh coords temp p) c.2 else cq c

/-- The positions of `MaterialPoints_temp_grad(mat_id, ·, ·)` written by `get_heat_flux`
(heat_flux.cpp:157-159): the element number is used as the number of the material point. -/
def tempGradWrites (pts : List (ThermPt E)) : List ℕ := pts.map fun p => p.elem.val

/-! ### Moving heat source -/

/-- `volume` of the source, heat_flux.cpp:247-249. -/
noncomputable def sourceVolume : ℝ := 4 / 3 * 3.14159 * (8 * 8) * 8

/-- Centre of an element, heat_flux.cpp:252-267. -/
noncomputable def thermElemCentre (mesh : Mesh8 E N) (coords : Fin N → Fin 3 → ℝ) (e : Fin E)
    (d : Fin 3) : ℝ :=
  (List.finRange 8).foldl (fun acc l => acc + coords (mesh.nodesInElem e l) d) 0 / 8

/-- `dist_squared`, heat_flux.cpp:269-272. -/
noncomputable def sourceDistSq (mesh : Mesh8 E N) (coords : Fin N → Fin 3 → ℝ) (pos : Fin 3 → ℝ)
    (e : Fin E) : ℝ :=
  (List.finRange 3).foldl (fun acc d =>
    acc + (pos d - thermElemCentre mesh coords e d) * (pos d - thermElemCentre mesh coords e d)) 0

open Classical in
/-- One iteration of `moving_flux`, heat_flux.cpp:240-298. -/
noncomputable def addSource (mesh : Mesh8 E N) (coords : Fin N → Fin 3 → ℝ) (power : ℝ)
    (pos : Fin 3 → ℝ) (cq : Fin E × Fin 8 → ℝ) (p : ThermPt E) : Fin E × Fin 8 → ℝ := fun c =>
  if c.1 = p.elem ∧ sourceDistSq mesh coords pos p.elem ≤ 8 * 8 then
    cq c + power / sourceVolume * (1 / 8) * thermVol mesh coords p.elem
  else cq c

/-- Loop over the materials, sgtm_execute.cpp:262-306: conduction and, when a moving source is
used, the source, material by material. -/
noncomputable def cornerHeats (mesh : Mesh8 E N) (coords : Fin N → Fin 3 → ℝ) (temp : Fin N → ℝ)
    (source : Option (ℝ × (Fin 3 → ℝ))) (mats : List (List (ThermPt E)))
    (cq : Fin E × Fin 8 → ℝ) : Fin E × Fin 8 → ℝ :=
  mats.foldl (fun cq pts =>
    let cq := pts.foldl (setCornerHeat mesh coords temp) cq
    match source with
    | none => cq
    | some (power, pos) => pts.foldl (addSource mesh coords power pos) cq) cq

/-! ### Boundary conditions -/

/-- `BCTemperatureModel` of a boundary set (boundary.cpp:60, 112, 252). -/
inductive ThermBC where
  /-- `constantTemperatureBC` with `temp_bc_global_vars(bdy_set, 0)` -/
  | constant (value : ℝ)
  | convection
  | radiation
  | other

/-- A boundary set: its nodes and its patches (four nodes each). -/
structure ThermSet (N : ℕ) where
  bc : ThermBC
  nodes : List (Fin N)
  patches : List (Fin 4 → Fin N)

/-- `boundary_temperature`, boundary.cpp:51-83 with constant_temp_bc.hpp:62-78. -/
noncomputable def boundaryTemperature (sets : List (ThermSet N)) (temp : Fin N → ℝ) : Fin N → ℝ :=
  sets.foldl (fun temp s =>
    match s.bc with
    | .constant v => s.nodes.foldl (fun temp n => Function.update temp n v) temp
    | _ => temp) temp

/-- Squared distance, boundary.cpp:160-164. -/
noncomputable def distSq (a b : Fin 3 → ℝ) : ℝ :=
  (List.finRange 3).foldl (fun acc d => acc + (a d - b d) * (a d - b d)) 0

/-- Area of the triangle with corners `a b c` as computed in boundary.cpp:157-168. -/
noncomputable def patchTriArea (a b c : Fin 3 → ℝ) : ℝ :=
  let A := distSq b c
  let B := distSq a c
  let C := distSq a b
  Real.sqrt ((4 * A * B - (A + B - C) * (A + B - C)) / 16)

/-- `surface_area` of a patch, boundary.cpp:137-195. -/
noncomputable def patchArea (coords : Fin N → Fin 3 → ℝ) (p : Fin 4 → Fin N) : ℝ :=
  patchTriArea (coords (p 0)) (coords (p 1)) (coords (p 2))
    + patchTriArea (coords (p 2)) (coords (p 3)) (coords (p 0))

/-- Heat flux into a node of a convection patch, boundary.cpp:203-211. -/
noncomputable def convectionFlux (area temp : ℝ) : ℝ :=
  (-1) * 100 * (temp - 293.15) * (area / 4)

/-- Heat flux into a node of a radiation patch, boundary.cpp:337-359. -/
noncomputable def radiationFlux (area temp : ℝ) : ℝ :=
  (-1) * 0.2 * 5.67037442e-8
    * ((temp - 0) * (temp - 0) * (temp - 0) * (temp - 0) - (0 - 0) * (0 - 0) * (0 - 0) * (0 - 0))
    * (area / 4)

/-- Loop over the nodes of a patch, boundary.cpp:207-217 and 344-364. -/
noncomputable def addPatchFlux (flux : ℝ → ℝ → ℝ) (coords : Fin N → Fin 3 → ℝ) (temp : Fin N → ℝ)
    (q : Fin N → ℝ) (p : Fin 4 → Fin N) : Fin N → ℝ :=
  (List.finRange 4).foldl (fun q l =>
    Function.update q (p l) (q (p l) + flux (patchArea coords p) (temp (p l)))) q

/-- `boundary_convection`, boundary.cpp:101-223. -/
noncomputable def boundaryConvection (sets : List (ThermSet N)) (coords : Fin N → Fin 3 → ℝ)
    (temp : Fin N → ℝ) (q : Fin N → ℝ) : Fin N → ℝ :=
  sets.foldl (fun q s =>
    match s.bc with
    | .convection => s.patches.foldl (addPatchFlux convectionFlux coords temp) q
    | _ => q) q

/-- `boundary_radiation`, boundary.cpp:241-370. -/
noncomputable def boundaryRadiation (sets : List (ThermSet N)) (coords : Fin N → Fin 3 → ℝ)
    (temp : Fin N → ℝ) (q : Fin N → ℝ) : Fin N → ℝ :=
  sets.foldl (fun q s =>
    match s.bc with
    | .radiation => s.patches.foldl (addPatchFlux radiationFlux coords temp) q
    | _ => q) q

/-! ### Temperature update -/

/-- `mat_pt_specific_heat(0, elem_gid)`, temperature_sgtm.cpp:81: material 0 is read at the
position given by the element number; `none` is a read past the points of material 0. -/
def specificHeatAt (mats : List (List (ThermPt E))) (e : Fin E) : Option ℝ :=
  (mats[0]?.bind fun pts => pts[e.val]?).map ThermPt.specificHeat

/-- `Cp` of a node, temperature_sgtm.cpp:77-82.  The elements around a node are taken to be those
of its corners, in the same order (both tables come from the mesh library). -/
noncomputable def nodeSpecificHeat (mesh : Mesh8 E N) (mats : List (List (ThermPt E)))
    (n : Fin N) : Option ℝ :=
  (mesh.cornersInNode n).foldl (fun acc c => do
    let a ← acc
    let h ← specificHeatAt mats c.1
    pure (a + h / ((mesh.cornersInNode n).length : ℝ))) (some 0)

/-- `node_q_transfer` of a node after the corner loop, temperature_sgtm.cpp:68-74. -/
noncomputable def nodeHeat (mesh : Mesh8 E N) (q : Fin N → ℝ) (cq : Fin E × Fin 8 → ℝ)
    (n : Fin N) : ℝ :=
  (mesh.cornersInNode n).foldl (fun acc c => acc + cq c) (q n)

/-- The new temperature of a node, temperature_sgtm.cpp:66-89; `none` is an out-of-range read of
the specific heat or a zero heat capacity (the source would store an infinity or a NaN). -/
noncomputable def newTemp (mesh : Mesh8 E N) (mass : Fin N → ℝ) (alpha dt : ℝ)
    (mats : List (List (ThermPt E))) (q : Fin N → ℝ) (cq : Fin E × Fin 8 → ℝ) (tempN0 : Fin N → ℝ)
    (n : Fin N) : Option ℝ :=
  match nodeSpecificHeat mesh mats n with
  | none => none
  | some cp =>
    if mass n * cp = 0 then none
    else some (tempN0 n + alpha * dt * nodeHeat mesh q cq n / (mass n * cp))

open Classical in
/-- `update_temperature` for all nodes, temperature_sgtm.cpp:53-91. -/
noncomputable def updateTemperature (mesh : Mesh8 E N) (mass : Fin N → ℝ) (alpha dt : ℝ)
    (mats : List (List (ThermPt E))) (q : Fin N → ℝ) (cq : Fin E × Fin 8 → ℝ)
    (tempN0 : Fin N → ℝ) : Option (Fin N → ℝ) :=
  if ∀ n, (newTemp mesh mass alpha dt mats q cq tempN0 n).isSome = true then
    some fun n => (newTemp mesh mass alpha dt mats q cq tempN0 n).getD 0
  else none

/-! ### Stage, cycle, run -/

/-- Everything fixed during a thermal run. -/
structure ThermEnv (E N : ℕ) where
  mesh : Mesh8 E N
  coords : Fin N → Fin 3 → ℝ
  mass : Fin N → ℝ
  sets : List (ThermSet N)
  /-- power and position of the moving source of a cycle, if `use_moving_heat_source` is set -/
  source : ℕ → Option (ℝ × (Fin 3 → ℝ))

/-- Heat put into the nodes by the boundary conditions of a stage, sgtm_execute.cpp:257-259 and
309-320. -/
noncomputable def boundaryHeat (env : ThermEnv E N) (temp : Fin N → ℝ) : Fin N → ℝ :=
  boundaryRadiation env.sets env.coords temp
    (boundaryConvection env.sets env.coords temp fun _ => 0)

/-- One Runge-Kutta stage, sgtm_execute.cpp:252-347, in cycle `c`; `none` is an access outside an
array (or a zero heat capacity). -/
noncomputable def thermStage (env : ThermEnv E N) (c : ℕ) (alpha dt : ℝ) (st : ThermState E N) :
    Option (ThermState E N) :=
  let cq := cornerHeats env.mesh env.coords st.temp (env.source c) st.mats st.cornerQ
  let mats := st.mats.map fun pts => pts.map (heatPoint env.mesh env.coords st.temp)
  if ∀ pts ∈ st.mats, ∀ i ∈ tempGradWrites pts, i < pts.length then
    (updateTemperature env.mesh env.mass alpha dt mats (boundaryHeat env st.temp) cq
      st.tempN0).map fun temp =>
        { temp := boundaryTemperature env.sets temp, tempN0 := st.tempN0, cornerQ := cq,
          mats := mats }
  else none

/-- One cycle: `rk_init` (time_integration.cpp:53-80) and `S` stages, sgtm_execute.cpp:234-347. -/
noncomputable def thermCycle (env : ThermEnv E N) (c S : ℕ) (dt : ℝ) (st : ThermState E N) :
    Option (ThermState E N) :=
  (List.range S).foldl (fun st s => st.bind (thermStage env c (rkAlpha S s) dt))
    (some { st with tempN0 := st.temp })

/-- Any number of cycles, starting with cycle `c`, with the steps `dts`. -/
noncomputable def thermRun (env : ThermEnv E N) (S : ℕ) :
    ℕ → List ℝ → ThermState E N → Option (ThermState E N)
  | _, [], st => some st
  | c, dt :: dts, st => (thermCycle env c S dt st).bind (thermRun env S (c + 1) dts)

/-! ### Time step -/

/-- What `get_timestep` reads of one material element. -/
structure ThermElem where
  coords : ℕ → Fin 3 → ℝ
  conductivity : ℝ
  den : ℝ
  specificHeat : ℝ

open Classical in
/-- `dt_lcl_` of one element, time_integration.cpp:172-208.  A zero diffusivity makes the quotient
infinite in the source; `fmin` with the constant `dt_cfl = 1.0` then gives 1. -/
noncomputable def thermElemDt (o : ClockOpts) (e : ThermElem) : ℝ :=
  let alpha := e.conductivity / (e.den * e.specificHeat)
  let h := distMin e.coords
  let d := if alpha = 0 then 1 else min 1 (h * h / (2 * 3 * alpha) * 0.3)
  max (min d o.dtMax) o.dtMin

/-- The minimum reduction, time_integration.cpp:127-213; `none` is the identity of the
reduction. -/
noncomputable def thermReduceMin (o : ClockOpts) : List ThermElem → Option ℝ
  | [] => none
  | e :: es =>
    match thermReduceMin o es with
    | none => some (thermElemDt o e)
    | some m => some (if thermElemDt o e < m then thermElemDt o e else m)

/-- `get_timestep`, time_integration.cpp:100-227. -/
noncomputable def thermTimestep (o : ClockOpts) (elems : List ThermElem) (time gtime dt : ℝ) : ℝ :=
  let dt := dt * 1.1
  let dt := match thermReduceMin o elems with
    | none => dt
    | some m => if m < dt then m else dt
  let dt := min dt (max o.fuzz (gtime - time) + o.tiny)
  min dt (o.timeFinal - time + o.tiny)

/-- The step of a cycle: minimum over the materials, sgtm_execute.cpp:186-219. -/
noncomputable def thermCycleDt (o : ClockOpts) (mats : List (List ThermElem))
    (time gtime dt : ℝ) : ℝ :=
  mats.foldl (fun m es => min (thermTimestep o es time gtime dt) m) o.dtMax

/-! ### Tool path -/

/-- A row of the tool path table, additive_data.hpp:58-65. -/
structure PathPoint where
  time : ℝ
  pos : Fin 3 → ℝ
  power : ℝ

/-- `get_position`, additive_data.hpp:92-101. -/
noncomputable def toolPosition (path : List PathPoint) (t : ℝ) (d : Fin 3) : Option ℝ :=
  tableLookup (path.map fun p => (p.time, p.pos d)) t

/-- `get_power`, additive_data.hpp:106-109. -/
noncomputable def toolPower (path : List PathPoint) (t : ℝ) : Option ℝ :=
  tableLookup (path.map fun p => (p.time, p.power)) t

end Fierro
