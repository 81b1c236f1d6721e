import Verif.Model.DumpFiles
import Verif.Model.OutputFields
import Mathlib.Analysis.SpecialFunctions.Sqrt

/-!
# State files and EnSight files

Models `write_material_point_state` and the field part of `write_ensight` of common/include/mesh_io.hpp, and the files
that are left after all dumps of all solvers with the formats `state` and `ensight`.  The geometry file of EnSight is
that of Output.lean; its contents are a parameter here.  Numbers are not rounded by printing.
-/

namespace Fierro

/-! ### Rows of the state files -/

/-- Sums over the nodes of an element, mesh_io.hpp:4767-4778; the same loop adds velocities in 2972-2983. -/
def nodeSums (dims : ℕ) (x : ℕ → ℕ → ℝ) (nodes : List ℕ) : ℝ × ℝ × ℝ :=
  nodes.foldl (fun a g => (a.1 + x g 0, a.2.1 + x g 1, if dims = 3 then a.2.2 + x g 2 else 0)) (0, 0, 0)

/-- Centre of an element, mesh_io.hpp:4759-4782. -/
noncomputable def stateCentre (dims : ℕ) (x : ℕ → ℕ → ℝ) (nodes : List ℕ) : ℝ × ℝ × ℝ :=
  let s := nodeSums dims x nodes
  (s.1 / nodes.length, s.2.1 / nodes.length, s.2.2 / nodes.length)

/-- Line of a material point, mesh_io.hpp:4755-4805. -/
noncomputable def stateElemRow (st : OutState ℝ) (nodesOf : ℕ → List ℕ) (m s : ℕ) : List ℝ :=
  let e := st.elem m s
  let c := stateCentre st.dims st.coords (nodesOf e)
  let rad2 := Real.sqrt (c.1 * c.1 + c.2.1 * c.2.1)
  let rad3 := Real.sqrt (c.1 * c.1 + c.2.1 * c.2.1 + c.2.2 * c.2.2)
  [c.1, c.2.1, c.2.2, rad2, rad3, st.den m s, st.pres m s, st.sie m s, st.sspd m s, st.vol e, st.mass m s]

/-- The file of the material points, mesh_io.hpp:4748-4807. -/
noncomputable def stateElemRows (st : OutState ℝ) (nodesOf : ℕ → List ℕ) : List (List ℝ) :=
  (List.range st.numMats).flatMap fun m => (List.range (st.numMatElems m)).map fun s => stateElemRow st nodesOf m s

/-- Line of a node, mesh_io.hpp:4823-4890; `none` in the last column: a division by zero, not a number is printed. -/
noncomputable def stateNodeRow (st : OutState ℝ) (g : ℕ) : List ℝ × Option ℝ :=
  let x := st.coords g 0
  let y := st.coords g 1
  let z := if st.dims = 3 then st.coords g 2 else 0
  let rad2 := Real.sqrt (x * x + y * y)
  let rad3 := Real.sqrt (x * x + y * y + z * z)
  let vx := st.vel g 0
  let vy := st.vel g 1
  let vz := if st.dims = 3 then st.vel g 2 else 0
  let speed := Real.sqrt (vx * vx + vy * vy + vz * vz)
  let ux := x / rad2
  let uy := y / rad2
  let dot := vx * ux + vy * uy
  let ex := vx - ux * dot
  let ey := vy - uy * dot
  ([x, y, z, rad2, rad3, vx, vy, vz, speed], if rad2 = 0 then none else some (Real.sqrt (ex * ex + ey * ey)))

/-- The file of the nodes, mesh_io.hpp:4822-4892. -/
noncomputable def stateNodeRows (st : OutState ℝ) : List (List ℝ × Option ℝ) :=
  (List.range st.numNodes).map (stateNodeRow st)

/-! ### EnSight fields -/

/-- `speed`, mesh_io.hpp:2965-2994. -/
noncomputable def enSpeed (st : OutState ℝ) (nodes : List ℕ) : ℝ :=
  let v := stateCentre st.dims st.vel nodes
  Real.sqrt ((List.range st.dims).foldl (fun a d => a + [v.1, v.2.1, v.2.2].getD d 0 * [v.1, v.2.1, v.2.2].getD d 0) 0)

/-- The columns of a material point, mesh_io.hpp:3010-3020. -/
def enMatWrites (st : OutState ℝ) (m s : ℕ) : List ((ℕ × ℕ) × ℝ) :=
  let e := st.elem m s
  [((e, 0), st.den m s), ((e, 1), st.pres m s), ((e, 2), st.sie m s), ((e, 4), st.mass m s), ((e, 5), st.sspd m s),
    ((e, 7), m), ((e, 9), if st.eroded m s then 1 else 0)]

/-- `elem_fields`, mesh_io.hpp:3000-3031. -/
noncomputable def enScalars (st : OutState ℝ) (nodesOf : ℕ → List ℕ) : Mem (ℕ × ℕ) ℝ :=
  Mem.writeAll
    (((List.range st.numMats).flatMap fun m => (List.range (st.numMatElems m)).flatMap fun s => enMatWrites st m s) ++
      (List.range st.numElems).flatMap fun e => [((e, 3), st.vol e), ((e, 6), enSpeed st (nodesOf e)), ((e, 8), 1)])
    Mem.empty

/-- `vec_fields`, mesh_io.hpp:3034-3068; `none`: a division by a step that is zero. -/
noncomputable def enVector (st : OutState ℝ) (dt : ℝ) (var g d : ℕ) : Option ℝ :=
  match var with
  | 0 => some (if d = 2 ∧ st.dims = 2 then 0 else st.coords g d)
  | 1 => some (if d = 2 ∧ st.dims = 2 then 0 else st.vel g d)
  | _ => if d = 2 ∧ st.dims = 2 then some 0 else if dt = 0 then none else some ((st.vel g d - st.velN0 g d) / dt)

/-- `scalar_var_names`, mesh_io.hpp:2945-2947. -/
def enScalarNames : List (List Char) :=
  [['d', 'e', 'n'], ['p', 'r', 'e', 's'], ['s', 'i', 'e'], ['v', 'o', 'l'], ['m', 'a', 's', 's'], ['s', 's', 'p', 'd'],
    ['s', 'p', 'e', 'e', 'd'], ['m', 'a', 't', '_', 'i', 'd'],
    ['e', 'l', 'e', 'm', '_', 's', 'w', 'i', 't', 'c', 'h'], ['e', 'r', 'o', 'd', 'e', 'd']]

/-- `vec_var_names`, mesh_io.hpp:2949-2951. -/
def enVectorNames : List (List Char) := [['p', 'o', 's'], ['v', 'e', 'l'], ['a', 'c', 'c', 'e', 'l']]

/-! ### Files -/

/-- Contents of the files of both formats. -/
inductive StateFile (G : Type) where
  | elems (rows : List (List ℝ))
  | nodes (rows : List (List ℝ × Option ℝ))
  | geo (g : G)
  | scalar (values : List (Option ℝ))
  | vector (values : List (Option ℝ))
  | series (steps : ℕ) (times : List ℝ)
  | other (text : List Char)

/-- What a dump is made of. -/
structure StateDump (G : Type) where
  time : ℝ
  dt : ℝ
  geo : G
  st : OutState ℝ
  nodesOf : ℕ → List ℕ

section
variable {G : Type}

/-- `state/mat_pt_state_t_%6.4e.txt` and `state/node_state_t_%6.4e.txt`, mesh_io.hpp:4740, 4813; `fmt` prints the
time. -/
def stateName (node : Bool) (t : List Char) : List Char :=
  (if node then ['s', 't', 'a', 't', 'e', '/', 'n', 'o', 'd', 'e'] else
    ['s', 't', 'a', 't', 'e', '/', 'm', 'a', 't', '_', 'p', 't']) ++
    (['_', 's', 't', 'a', 't', 'e', '_', 't', '_'] ++ (t ++ ['.', 't', 'x', 't']))

/-- The files of a state dump, mesh_io.hpp:4734-4896. -/
noncomputable def stateOps (fmt : ℝ → List Char) (d : StateDump G) : List (List Char × StateFile G) :=
  [(stateName false (fmt d.time), .elems (stateElemRows d.st d.nodesOf)),
    (stateName true (fmt d.time), .nodes (stateNodeRows d.st))]

/-- All state dumps of a run: solver after solver. -/
noncomputable def stateRun (fmt : ℝ → List Char) (runs : List (List (StateDump G)))
    (fs : Mem (List Char) (StateFile G)) : Mem (List Char) (StateFile G) :=
  Mem.writeAll (runs.flatMap fun ds => ds.flatMap (stateOps fmt)) fs

/-- `ensight/data/Outputs_SGH.%05d.%s`, mesh_io.hpp:2939, 3093, 3183, 3212. -/
def enName (dump : ℕ) (ext : List Char) : List Char :=
  ['e', 'n', 's', 'i', 'g', 'h', 't', '/', 'd', 'a', 't', 'a', '/', 'O', 'u', 't', 'p', 'u', 't', 's', '_', 'S', 'G',
    'H'] ++ '.' :: (fmtPad dump ++ '.' :: ext)

/-- `ensight/Outputs_SGH.case`, mesh_io.hpp:3249. -/
def enCase : List Char :=
  ['e', 'n', 's', 'i', 'g', 'h', 't', '/', 'O', 'u', 't', 'p', 'u', 't', 's', '_', 'S', 'G', 'H', '.', 'c', 'a', 's', 'e']

/-- The extension of the geometry. -/
def enGeo : List Char := ['g', 'e', 'o']

/-- The files of dump number `k`, mesh_io.hpp:3092-3290; `times` are those of the dumps so far. -/
noncomputable def enOps (k : ℕ) (times : List ℝ) (d : StateDump G) : List (List Char × StateFile G) :=
  (enName k enGeo, .geo d.geo) ::
    (enScalarNames.zipIdx.map fun x => (enName k x.1,
      StateFile.scalar ((List.range d.st.numElems).map fun e => enScalars d.st d.nodesOf (e, x.2)))) ++
    (enVectorNames.zipIdx.map fun x => (enName k x.1,
      StateFile.vector ((List.range 3).flatMap fun c =>
        (List.range d.st.numNodes).map fun g => enVector d.st d.dt x.2 g c))) ++
    [(enCase, .series (k + 1) times)]

/-- The dumps of one solver; the number of the dump starts from zero in each solver. -/
noncomputable def enSolver (ds : List (StateDump G)) : List (List Char × StateFile G) :=
  ds.zipIdx.flatMap fun x => enOps x.2 ((ds.take (x.2 + 1)).map fun d => d.time) x.1

/-- All EnSight dumps of a run; `none`: a solver makes more dumps than there is room for (the guard is that of every
single dump). -/
noncomputable def enRun (runs : List (List (StateDump G))) (fs : Mem (List Char) (StateFile G)) :
    Option (Mem (List Char) (StateFile G)) :=
  if ∃ ds ∈ runs, maxDumps < ds.length then none else some (Mem.writeAll (runs.flatMap enSolver) fs)

end

end Fierro
