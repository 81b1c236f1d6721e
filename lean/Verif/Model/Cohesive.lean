/-
Cohesive zones of the fracture option of the 3D hydro solver: the node pairs that lie on top of
each other, the faces of the elements on the two sides that are matched, the orientation and the
opening of a pair, the rate-dependent traction law with damage, the nodal forces, and the
commitment of the internal variables at the end of a time step.

Source: /repo/apps/multiphysics/src/Solvers/SGH_solver_3D/src/fracture.cpp.
Arithmetic is exact (`ℝ`); parallel loops over pairs are written as lists of pairs because every
iteration only touches its own row.
-/
import Mathlib.Analysis.SpecialFunctions.Pow.Real
import Mathlib.Analysis.SpecialFunctions.Trigonometric.Basic
import Mathlib.Algebra.BigOperators.Fin
import Verif.Model.Contact

namespace Fierro
namespace Cohesive

open Contact

/-! ### Node pairs -/

section pairs

/-- Two nodes overlap, fracture.cpp:81-88 and 127-133: each coordinate differs by at most the
tolerance. -/
def overlap (x : ℕ → Fin 3 → ℝ) (tol : ℝ) (a b : ℕ) : Prop := ∀ k, |x a k - x b k| ≤ tol

open Classical in
/-- The pairs of boundary nodes found by the second pass of `initialize`, fracture.cpp:114-143: for
every `i` and every later `j` of the list of boundary nodes. -/
noncomputable def pairs (x : ℕ → Fin 3 → ℝ) (tol : ℝ) : List ℕ → List (ℕ × ℕ)
  | [] => []
  | a :: rest => (rest.filter fun b => decide (overlap x tol a b)).map (fun b => (a, b)) ++ pairs x tol rest

open Classical in
/-- The number of rows allocated: first pass of `initialize`, fracture.cpp:72-101. -/
noncomputable def pairCount (x : ℕ → Fin 3 → ℝ) (tol : ℝ) : List ℕ → ℕ
  | [] => 0
  | a :: rest => rest.countP (fun b => decide (overlap x tol a b)) + pairCount x tol rest

/-- `cohesive_zone_elem_count`, fracture.cpp:426-443: the largest number of elements around a node
of a pair. -/
def maxElems (deg : ℕ → ℕ) (ps : List (ℕ × ℕ)) : ℕ :=
  ps.foldl (fun m p => max m (max (deg p.1) (deg p.2))) 0

end pairs

/-! ### Face matching -/

section matching

/-- `push_three_faces`, fracture.cpp:752-764. -/
def cornerFaces : Fin 8 → List (Fin 6) :=
  ![[0, 2, 4], [1, 2, 4], [0, 3, 4], [1, 3, 4], [0, 2, 5], [1, 2, 5], [0, 3, 5], [1, 3, 5]]

/-- Search for the local number of a node in an element, fracture.cpp:704-723; `none` is −1. -/
def cornerOf (nodes : Fin 8 → ℕ) (a : ℕ) : Option (Fin 8) :=
  (List.finRange 8).find? fun k => nodes k == a

/-- The faces of the element around the node: empty when the node was not found,
fracture.cpp:777-781 and 803-807. -/
def facesAt (nodes : ℕ → Fin 8 → ℕ) (a e : ℕ) : List (Fin 6) :=
  match cornerOf (nodes e) a with
  | none => []
  | some k => cornerFaces k

/-- A candidate looked at for one slot of side A: its face, the slot of side B and that face. -/
abbrev Cand := Fin 6 × ℕ × Fin 6

/-- The candidates in the order of the three inner loops, fracture.cpp:785-840. -/
def candidates (nodes : ℕ → Fin 8 → ℕ) (a b : ℕ) (sideB : List ℕ) (eA : ℕ) : List Cand :=
  (facesAt nodes a eA).flatMap fun fA =>
    sideB.zipIdx.flatMap fun s => (facesAt nodes b s.1).map fun fB => (fA, s.2, fB)

/-- One slot of side A: the first candidate whose slot of side B has no face yet and which passes
the test, fracture.cpp:767-841.  `good eA fA slotB fB` is the geometric test. -/
def matchSlot (nodes : ℕ → Fin 8 → ℕ) (a b : ℕ) (sideB : List ℕ)
    (good : ℕ → Fin 6 → ℕ → Fin 6 → Bool) (taken : ℕ → Option (Fin 6)) (eA : ℕ) : Option Cand :=
  (candidates nodes a b sideB eA).find? fun c => (taken c.2.1).isNone && good eA c.1 c.2.1 c.2.2

/-- All slots of side A in turn, fracture.cpp:767-841: the matches found, slot by slot, and the
faces stored for side B. -/
def matchAll (nodes : ℕ → Fin 8 → ℕ) (a b : ℕ) (sideB : List ℕ)
    (good : ℕ → Fin 6 → ℕ → Fin 6 → Bool) (taken : ℕ → Option (Fin 6)) :
    List ℕ → List (Option Cand) × (ℕ → Option (Fin 6))
  | [] => ([], taken)
  | eA :: rest =>
    match matchSlot nodes a b sideB good taken eA with
    | none =>
      let r := matchAll nodes a b sideB good taken rest
      (none :: r.1, r.2)
    | some c =>
      let r := matchAll nodes a b sideB good (Function.update taken c.2.1 (some c.2.2)) rest
      (some c :: r.1, r.2)

end matching

/-! ### Geometry -/

section geometry

/-- `zap0`, fracture.cpp:606. -/
noncomputable def zap (v : ℝ) : ℝ := if |v| < 1e-13 then 0 else v

/-- A vector over its length. -/
noncomputable def direction (v : Fin 3 → ℝ) (i : Fin 3) : ℝ := v i / len v

/-- Normal of a face, `compute_face_geometry`, fracture.cpp:523-609: tangents at the face centre,
made unit, their cross product made unit, small components removed. -/
noncomputable def faceNormal (A : Fin 3 → Fin 4 → ℝ) (i : Fin 3) : ℝ :=
  let r := tangentXi A 0 0
  let s := tangentEta A 0 0
  if ¬ 1e-20 < len r ∨ ¬ 1e-20 < len s then 0
  else
    let n := cross (direction r) (direction s)
    zap (if 1e-20 < len n then direction n i else 0)

/-- Centre of a face, fracture.cpp:556-559. -/
noncomputable def faceCentroid (A : Fin 3 → Fin 4 → ℝ) (i : Fin 3) : ℝ := ∑ a, 0.25 * A i a

/-- The test of two faces, fracture.cpp:820-831. -/
def facing (A B : Fin 3 → Fin 4 → ℝ) (tol : ℝ) : Prop :=
  len (fun i => faceCentroid A i - faceCentroid B i) ≤ tol ∧
    dot (faceNormal A) (faceNormal B) ≤ -1 + tol

/-- `oriented`, fracture.cpp:966-1055: sum of the normals of the matched faces of side A, made
unit.  The code computes it twice from the same coordinates, for the two halves of the row. -/
noncomputable def orientation (faces : List (Fin 3 → Fin 4 → ℝ)) (i : Fin 3) : ℝ :=
  let s : Fin 3 → ℝ := fun k => (faces.map fun A => faceNormal A k).sum
  if 0 < len s then s i / len s else 0

/-- Row of `local_opening`. -/
structure Opening where
  /-- normal opening now -/
  un : ℝ
  /-- length of the tangential opening now -/
  ut : ℝ
  /-- predicted normal opening -/
  un' : ℝ
  /-- predicted length of the tangential opening -/
  ut' : ℝ

/-- `ucmap`, fracture.cpp:1124-1180. -/
noncomputable def opening (n xA xB vA vB : Fin 3 → ℝ) (dt : ℝ) : Opening :=
  let u := fun k => xB k - xA k
  let v := fun k => vB k - vA k
  let un := dot u n
  let ut := fun k => u k - un * n k
  let vn := dot v n
  let vt := fun k => v k - vn * n k
  { un := un, ut := len ut, un' := un + dt * vn, ut' := len fun k => ut k + dt * vt k }

end geometry

/-! ### Cohesive law -/

section law

/-- Parameters of the cohesive law with `m` Prony terms, fracture.cpp:228-242. -/
structure Law (m : ℕ) where
  Einf : ℝ
  a1 : ℝ
  nexp : ℝ
  un : ℝ
  ut : ℝ
  E : Fin m → ℝ
  tau : Fin m → ℝ

/-- A row of `internal_vars`: rate of the opening measure, damage, tractions, branch stresses. -/
@[ext] structure Vars (m : ℕ) where
  rate : ℝ
  damage : ℝ
  tn : ℝ
  tt : ℝ
  branch : Fin m → ℝ

/-- All zero, fracture.cpp:252-259. -/
def Vars.zero (m : ℕ) : Vars m := ⟨0, 0, 0, 0, fun _ => 0⟩

variable {m : ℕ}

/-- The parameters of Prony term `j` as stored in `prony_params` when the input asks for `n` terms,
fracture.cpp:217-222 and 236-242: only ten terms are copied into an array of thirty entries that
starts with zeros.  `none`: the read is outside the array. -/
def pronyTerm (vars : ℕ → ℝ × ℝ) (n j : ℕ) : Option (ℝ × ℝ) :=
  if 6 + 2 * j + 1 < 30 then some (if j < n ∧ j < 10 then vars j else (0, 0)) else none

/-- `lambda`, fracture.cpp:1267-1268. -/
noncomputable def lam (L : Law m) (un ut : ℝ) : ℝ :=
  √(un / L.un * (un / L.un) + ut / L.ut * (ut / L.ut))

/-- `tau_eff`, fracture.cpp:1254. -/
noncomputable def tauEff (L : Law m) (j : Fin m) : ℝ :=
  if 0 < L.tau j then L.tau j else 2⁻¹ ^ 1022

/-- `a`, fracture.cpp:1300. -/
noncomputable def decay (L : Law m) (dt : ℝ) (j : Fin m) : ℝ := Real.exp (-dt / tauEff L j)

/-- `E_dt`, fracture.cpp:1250-1257. -/
noncomputable def stiffDt (L : Law m) (dt : ℝ) : ℝ :=
  L.Einf + ∑ j, L.E j * tauEff L j * ((1 - decay L dt j) / dt)

/-- Branch stresses of the new time, fracture.cpp:1294-1302. -/
noncomputable def newBranch (L : Law m) (dt rate : ℝ) (σ : Fin m → ℝ) (j : Fin m) : ℝ :=
  decay L dt j * σ j + L.E j * tauEff L j * rate * (1 - decay L dt j)

/-- Damage increment before the limit, fracture.cpp:1284-1291. -/
noncomputable def rawDamage (L : Law m) (dt rate lt ltdt : ℝ) : ℝ :=
  (if 0 < rate then L.a1 * (0.5 * (ltdt + lt)) ^ L.nexp else 0) * dt

/-- Damage increment, fracture.cpp:1317-1322. -/
noncomputable def damageInc (L : Law m) (dt rate lt ltdt α : ℝ) : ℝ :=
  let d := rawDamage L dt rate lt ltdt
  if 1 < α + d then 1 - α else d

/-- `inv_uns_lambda`, `inv_uts_lambda`, fracture.cpp:1332-1335. -/
noncomputable def invStar (star l : ℝ) : ℝ := if 0 < star ∧ 0 < l then 1 / (star * l) else 0

/-- One traction increment, fracture.cpp:1337-1347. -/
def tractionInc (u u' i i' α α' deltaE elastic damp : ℝ) : ℝ :=
  u' * i' * (1 - α') * deltaE + u' * i' * (1 - α') * elastic - u * i * (1 - α) * elastic
    + u' * i' * (1 - α') * damp

/-- `cohesive_zone_var_update` for one pair, fracture.cpp:1241-1355: the row of
`delta_internal_vars`.  The rows hold zeros when the function returns early (sgh_execute.cpp
resets them in every stage).  A zero critical opening makes the opening measure infinite or not a
number, which is the branch of line 1269; with exact arithmetic there is no other way into it. -/
noncomputable def increment (L : Law m) (dt : ℝ) (o : Opening) (v : Vars m) : Vars m :=
  if ¬ 0 < dt then Vars.zero m
  else if L.un = 0 ∨ L.ut = 0 then { Vars.zero m with branch := v.branch }
  else
    let lt := lam L o.un o.ut
    let ltdt := lam L o.un' o.ut'
    let rate := (ltdt - lt) / dt
    let σ := newBranch L dt rate v.branch
    let sum := ∑ j, σ j
    let sumExp := ∑ j, (1 - decay L dt j) * σ j
    let dα := damageInc L dt rate lt ltdt v.damage
    let α' := v.damage + dα
    let deltaE := stiffDt L dt * rate * dt
    let elastic := L.Einf * lt + sum
    let damp := -sumExp
    { rate := rate
      damage := dα
      tn := tractionInc o.un o.un' (invStar L.un lt) (invStar L.un ltdt) v.damage α' deltaE elastic damp
      tt := tractionInc o.ut o.ut' (invStar L.ut lt) (invStar L.ut ltdt) v.damage α' deltaE elastic damp
      branch := σ }

/-- `commit_internal_vars` for one pair, fracture.cpp:1781-1850: rate and branch stresses are
replaced, damage and tractions accumulate. -/
def commit (v d : Vars m) : Vars m :=
  ⟨d.rate, v.damage + d.damage, v.tn + d.tn, v.tt + d.tt, d.branch⟩

/-- One stage of a time step: increments are recomputed from the committed variables in every
stage, and committed in the last one only, sgh_execute.cpp:285-440, fracture.cpp:1690-1850. -/
noncomputable def stage (L : Law m) (last : Bool) (dt : ℝ) (o : Opening) (v : Vars m) : Vars m :=
  if last then commit v (increment L dt o v) else v

/-- A list of steps: time increment and openings of each. -/
noncomputable def evolve (L : Law m) : List (ℝ × Opening) → Vars m → Vars m
  | [], v => v
  | s :: rest, v => evolve L rest (stage L true s.1 s.2 v)

end law

/-! ### Forces -/

section loads

/-- Signs of the corners, fracture.cpp:1524-1552. -/
def cornerSign : Fin 3 → Fin 8 → ℝ :=
  ![![-1, 1, -1, 1, -1, 1, -1, 1], ![-1, -1, 1, 1, -1, -1, 1, 1], ![-1, -1, -1, -1, 1, 1, 1, 1]]

/-- `dN_dxi`, `dN_deta`, `dN_dzeta`, fracture.cpp:1578-1580. -/
noncomputable def shapeGrad (p : Fin 3 → ℝ) (a : Fin 8) : Fin 3 → ℝ :=
  ![0.125 * cornerSign 0 a * (1 + cornerSign 1 a * p 1) * (1 + cornerSign 2 a * p 2),
    0.125 * cornerSign 1 a * (1 + cornerSign 0 a * p 0) * (1 + cornerSign 2 a * p 2),
    0.125 * cornerSign 2 a * (1 + cornerSign 0 a * p 0) * (1 + cornerSign 1 a * p 1)]

/-- Row `r` of `J`, fracture.cpp:1564-1587. -/
noncomputable def jacRow (E : Fin 3 → Fin 8 → ℝ) (p : Fin 3 → ℝ) (r : Fin 3) (o : Fin 3) : ℝ :=
  ∑ a, E o a * shapeGrad p a r

/-- `gp`, fracture.cpp:1457. -/
noncomputable def gp : ℝ := 0.5773502691896257

/-- The four integration points of a face, fracture.cpp:1464-1504; `s`, `t` are the two signs. -/
def gaussPoint (f : Fin 6) (s t : ℝ) : Fin 3 → ℝ :=
  match f with
  | 0 => ![-1, s, t]
  | 1 => ![1, s, t]
  | 2 => ![s, -1, t]
  | 3 => ![s, 1, t]
  | 4 => ![s, t, -1]
  | 5 => ![s, t, 1]

/-- `a_row`, `b_row`, fracture.cpp:1590-1594. -/
def faceRows (f : Fin 6) : Fin 3 × Fin 3 :=
  match f with
  | 0 | 1 => (1, 2)
  | 2 | 3 => (0, 2)
  | 4 | 5 => (0, 1)

/-- Cross product of the tangents at a point of a face, fracture.cpp:1597-1607. -/
noncomputable def faceCross (E : Fin 3 → Fin 8 → ℝ) (f : Fin 6) (s t : ℝ) : Fin 3 → ℝ :=
  cross (jacRow E (gaussPoint f s t) (faceRows f).1) (jacRow E (gaussPoint f s t) (faceRows f).2)

/-- `area_face`, fracture.cpp:1554-1611. -/
noncomputable def faceArea (E : Fin 3 → Fin 8 → ℝ) (f : Fin 6) : ℝ :=
  len (faceCross E f (-gp) (-gp)) + len (faceCross E f gp (-gp)) + len (faceCross E f (-gp) gp)
    + len (faceCross E f gp gp)

/-- `area_total` of a pair, fracture.cpp:1441-1616, from the matched faces of side A. -/
noncomputable def pairArea (faces : List ((Fin 3 → Fin 8 → ℝ) × Fin 6)) : ℝ :=
  (faces.map fun s => 0.25 * faceArea s.1 s.2).sum

/-- Direction of the tangential traction, fracture.cpp:1630-1654. -/
noncomputable def slip (n u : Fin 3 → ℝ) (k : Fin 3) : ℝ :=
  let t : Fin 3 → ℝ := fun k => u k - dot u n * n k
  if 0 < len t then t k / len t else 0

/-- Force on the node of side A, fracture.cpp:1625-1664; nothing when the area is not positive. -/
noncomputable def pairForce (n xA xB : Fin 3 → ℝ) (area tn tt : ℝ) (k : Fin 3) : ℝ :=
  if area ≤ 0 then 0
  else tn * area * n k + tt * area * slip n (fun k => xB k - xA k) k

/-- What one pair of nodes contributes. -/
structure Pair (N : ℕ) where
  a : Fin N
  b : Fin N
  force : Fin 3 → ℝ

variable {N : ℕ}

/-- Accumulation in `F_cz`, fracture.cpp:1674-1679.  Node numbers are in range by construction (the
code skips pairs that are not, lines 1425-1429 and 1669-1673). -/
def addPair (F : Fin N → Fin 3 → ℝ) (p : Pair N) : Fin N → Fin 3 → ℝ :=
  let F1 := Function.update F p.a fun k => F p.a k + p.force k
  Function.update F1 p.b fun k => F1 p.b k - p.force k

/-- `F_cz` after all pairs, fracture.cpp:1411-1680. -/
def allForces (ps : List (Pair N)) : Fin N → Fin 3 → ℝ := ps.foldl addPair fun _ _ => 0

/-- `add_cohesive_zone_nodal_forces`, fracture.cpp:1860-1899. -/
def addNodal (force F : Fin N → Fin 3 → ℝ) (n : Fin N) (k : Fin 3) : ℝ := force n k + F n k

end loads

/-! ### Prescribed motion of the reorientation test -/

section reorientation

/-- `rotation_matrix_y`, include/reorientation_kinematics.hpp:55-61. -/
noncomputable def rotY (a : ℝ) : Fin 3 → Fin 3 → ℝ :=
  ![![Real.cos a, 0, Real.sin a], ![0, 1, 0], ![-Real.sin a, 0, Real.cos a]]

/-- `rotation_matrix_z`, include/reorientation_kinematics.hpp:71-77. -/
noncomputable def rotZ (a : ℝ) : Fin 3 → Fin 3 → ℝ :=
  ![![Real.cos a, -Real.sin a, 0], ![Real.sin a, Real.cos a, 0], ![0, 0, 1]]

/-- Rotation at time `t`: `mat_mult_3x3` of the two, include/reorientation_kinematics.hpp:87-96 and
118-142. -/
noncomputable def rot (wy wz t : ℝ) (i j : Fin 3) : ℝ := ∑ k, rotZ (wz * t) i k * rotY (wy * t) k j

/-- Position at time `t` of the node that started at `X`; `sideB` tells the nodes that are pulled
away along the normal, include/reorientation_kinematics.hpp:144-182. -/
noncomputable def prescribed (wy wz rate : ℝ) (X : Fin 3 → ℝ) (sideB : Bool) (t : ℝ) (i : Fin 3) : ℝ :=
  rot wy wz t i 0 * X 0 + rot wy wz t i 1 * X 1 + rot wy wz t i 2 * X 2
    + if sideB then rate * t * rot wy wz t i 0 else 0

/-- Velocity stored with it, include/reorientation_kinematics.hpp:189-193. -/
noncomputable def prescribedVel (wy wz rate : ℝ) (X : Fin 3 → ℝ) (sideB : Bool) (t dt : ℝ) (i : Fin 3) : ℝ :=
  (prescribed wy wz rate X sideB (t + dt) i - prescribed wy wz rate X sideB t i) / dt

end reorientation

end Cohesive
end Fierro
