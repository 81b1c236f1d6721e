import Mathlib.Algebra.BigOperators.Fin
import Mathlib.Algebra.Field.Basic
import Mathlib.Data.Fin.VecNotation
import Mathlib.Analysis.Real.Sqrt

/-!
# Contact: surface patches, faces of an element, penetration test, inverse map

`apps/multiphysics/src/Solvers/SGH_solver_3D/src/contact.cpp`.  A patch is a bilinear surface
through four nodes; an element is a trilinear hexahedron in `ijk` node order.  Coordinates are
exact numbers.  Positions of a patch are a matrix `A i j` (direction `i`, node `j`) as in the code.
-/

namespace Fierro
namespace Contact

section patch
variable {K : Type} [Field K]

/-- `xi` at the four patch nodes, contact.cpp:2601-2604. -/
def xiN : Fin 4 → K := ![-1, 1, 1, -1]

/-- `eta` at the four patch nodes, contact.cpp:2605-2608. -/
def etaN : Fin 4 → K := ![-1, -1, 1, 1]

/-- `phi`, contact.cpp:124-130. -/
def phi (s t : K) (k : Fin 4) : K := 1 / 4 * (1 + xiN k * s) * (1 + etaN k * t)

/-- `d_phi_d_xi`, contact.cpp:148-154. -/
def dphiXi (_s t : K) (k : Fin 4) : K := 1 / 4 * xiN k * (1 + etaN k * t)

/-- `d_phi_d_eta`, contact.cpp:157-163. -/
def dphiEta (s _t : K) (k : Fin 4) : K := 1 / 4 * (1 + xiN k * s) * etaN k

/-- `ref_to_physical`, contact.cpp:133-145. -/
def refToPhysical (A : Fin 3 → Fin 4 → K) (s t : K) (i : Fin 3) : K := ∑ j, A i j * phi s t j

/-- `dr_dxi`, contact.cpp:237-245 (also 292-297). -/
def tangentXi (A : Fin 3 → Fin 4 → K) (s t : K) (i : Fin 3) : K := ∑ j, A i j * dphiXi s t j

/-- `dr_deta`, contact.cpp:247-255 (also 292-297). -/
def tangentEta (A : Fin 3 → Fin 4 → K) (s t : K) (i : Fin 3) : K := ∑ j, A i j * dphiEta s t j

/-- Cross product as written in contact.cpp:210-212, 258-260, 300-302, 313-320. -/
def cross (a b : Fin 3 → K) : Fin 3 → K :=
  ![a 1 * b 2 - a 2 * b 1, a 2 * b 0 - a 0 * b 2, a 0 * b 1 - a 1 * b 0]

/-- Scalar product of two vectors, contact.cpp:1380. -/
def dot (a b : Fin 3 → K) : K := a 0 * b 0 + a 1 * b 1 + a 2 * b 2

/-- The normal before it is made a unit vector, contact.cpp:258-260. -/
def rawNormal (A : Fin 3 → Fin 4 → K) (s t : K) : Fin 3 → K :=
  cross (tangentXi A s t) (tangentEta A s t)

/-- `cross_derivative` (meant to be the mixed derivative of the surface), contact.cpp:308-310. -/
def mixedDerivative (A : Fin 3 → Fin 4 → K) (i : Fin 3) : K :=
  1 / 4 * A i 0 - 1 / 4 * A i 1 - 1 / 4 * A i 2 + 1 / 4 * A i 3

/-- Predicted position of a node, `construct_basis`, contact.cpp:100-106: `f` contains the contact
force and the corner forces of the node. -/
def predicted (x v m : K) (contactForce : K) (cornerForces : List K) (dt : K) : K :=
  x + v * dt + 1 / 2 * ((cornerForces.foldl (· + ·) contactForce) / m) * dt * dt

end patch

section element
variable {K : Type} [Field K]

/-- Nodes of the six faces in the order of `penetration_surfaces`, contact.cpp:2692-2729. -/
def faceNode : Fin 6 → Fin 4 → Fin 8 :=
  ![![0, 4, 6, 2], ![1, 3, 7, 5], ![0, 1, 5, 4], ![3, 2, 6, 7], ![0, 2, 3, 1], ![4, 5, 7, 6]]

/-- `surfs_for_column`: the five faces tested for a node in front of face `f`,
contact.cpp:2644-2688. -/
def columnFaces : Fin 6 → Fin 5 → Fin 6 :=
  ![![0, 2, 3, 4, 5], ![1, 2, 3, 4, 5], ![0, 1, 2, 4, 5], ![0, 1, 3, 4, 5], ![0, 1, 2, 3, 4],
    ![0, 1, 2, 3, 5]]

/-- Positions of the nodes of face `f` of an element with node positions `E i k`. -/
def facePos (E : Fin 3 → Fin 8 → K) (f : Fin 6) (i : Fin 3) (j : Fin 4) : K := E i (faceNode f j)

/-- Trilinear shape functions, contact.cpp:1500-1507. -/
def hexPhi (p : Fin 3 → K) : Fin 8 → K :=
  ![1 / 8 * (1 - p 0) * (1 - p 1) * (1 - p 2), 1 / 8 * (1 + p 0) * (1 - p 1) * (1 - p 2),
    1 / 8 * (1 - p 0) * (1 + p 1) * (1 - p 2), 1 / 8 * (1 + p 0) * (1 + p 1) * (1 - p 2),
    1 / 8 * (1 - p 0) * (1 - p 1) * (1 + p 2), 1 / 8 * (1 + p 0) * (1 - p 1) * (1 + p 2),
    1 / 8 * (1 - p 0) * (1 + p 1) * (1 + p 2), 1 / 8 * (1 + p 0) * (1 + p 1) * (1 + p 2)]

/-- Their derivatives, contact.cpp:1434-1460: `dphi[m][c]`. -/
def hexDphi (p : Fin 3 → K) : Fin 8 → Fin 3 → K :=
  ![![-(1 / 8) * (1 - p 1) * (1 - p 2), -(1 / 8) * (1 - p 0) * (1 - p 2), -(1 / 8) * (1 - p 0) * (1 - p 1)],
    ![1 / 8 * (1 - p 1) * (1 - p 2), -(1 / 8) * (1 + p 0) * (1 - p 2), -(1 / 8) * (1 + p 0) * (1 - p 1)],
    ![-(1 / 8) * (1 + p 1) * (1 - p 2), 1 / 8 * (1 - p 0) * (1 - p 2), -(1 / 8) * (1 - p 0) * (1 + p 1)],
    ![1 / 8 * (1 + p 1) * (1 - p 2), 1 / 8 * (1 + p 0) * (1 - p 2), -(1 / 8) * (1 + p 0) * (1 + p 1)],
    ![-(1 / 8) * (1 - p 1) * (1 + p 2), -(1 / 8) * (1 - p 0) * (1 + p 2), 1 / 8 * (1 - p 0) * (1 - p 1)],
    ![1 / 8 * (1 - p 1) * (1 + p 2), -(1 / 8) * (1 + p 0) * (1 + p 2), 1 / 8 * (1 + p 0) * (1 - p 1)],
    ![-(1 / 8) * (1 + p 1) * (1 + p 2), 1 / 8 * (1 - p 0) * (1 + p 2), 1 / 8 * (1 - p 0) * (1 + p 1)],
    ![1 / 8 * (1 + p 1) * (1 + p 2), 1 / 8 * (1 + p 0) * (1 + p 2), 1 / 8 * (1 + p 0) * (1 + p 1)]]

/-- Physical position of a point of the element, contact.cpp:1508-1515. -/
def hexPos (E : Fin 3 → Fin 8 → K) (p : Fin 3 → K) (i : Fin 3) : K := ∑ k, E i k * hexPhi p k

/-- Jacobian, contact.cpp:1462-1474. -/
def hexJac (E : Fin 3 → Fin 8 → K) (p : Fin 3 → K) (i c : Fin 3) : K := ∑ m, E i m * hexDphi p m c

/-- `det_J`, contact.cpp:1477. -/
def det (J : Fin 3 → Fin 3 → K) : K :=
  J 0 0 * (J 1 1 * J 2 2 - J 1 2 * J 2 1) - J 0 1 * (J 1 0 * J 2 2 - J 1 2 * J 2 0)
    + J 0 2 * (J 1 0 * J 2 1 - J 1 1 * J 2 0)

/-- `Jinv`, contact.cpp:1478-1486. -/
def inv (J : Fin 3 → Fin 3 → K) : Fin 3 → Fin 3 → K :=
  ![![(J 1 1 * J 2 2 - J 1 2 * J 2 1) / det J, (J 0 2 * J 2 1 - J 0 1 * J 2 2) / det J,
      (J 0 1 * J 1 2 - J 0 2 * J 1 1) / det J],
    ![(J 1 2 * J 2 0 - J 1 0 * J 2 2) / det J, (J 0 0 * J 2 2 - J 0 2 * J 2 0) / det J,
      (J 0 2 * J 1 0 - J 0 0 * J 1 2) / det J],
    ![(J 1 0 * J 2 1 - J 1 1 * J 2 0) / det J, (J 0 1 * J 2 0 - J 0 0 * J 2 1) / det J,
      (J 0 0 * J 1 1 - J 0 1 * J 1 0) / det J]]

/-- Position of the first guess, contact.cpp:1413-1423. -/
def centre (E : Fin 3 → Fin 8 → K) (i : Fin 3) : K := (∑ k, E i k) / 8

/-- The update of the local coordinates, contact.cpp:1434-1497; `none` stands for the division by
a zero determinant. -/
def newton [DecidableEq K] (E : Fin 3 → Fin 8 → K) (pos : Fin 3 → K) (p x : Fin 3 → K) :
    Option (Fin 3 → K) :=
  let J := hexJac E p
  if det J = 0 then none else some fun j => p j + ∑ k, inv J j k * (pos k - x k)

/-- Patch coordinates of a point of face `f` from element coordinates, contact.cpp:2150-2177. -/
def toPatch (f : Fin 6) (p : Fin 3 → K) : K × K :=
  match f with
  | 0 => (p 2, p 1)
  | 1 => (p 1, p 2)
  | 2 => (p 0, p 2)
  | 3 => (-p 0, p 2)
  | 4 => (p 1, p 0)
  | 5 => (p 0, p 1)

end element

section real

/-- Length of a vector, contact.cpp:263. -/
noncomputable def len (a : Fin 3 → ℝ) : ℝ := √(a 0 ^ 2 + a 1 ^ 2 + a 2 ^ 2)

/-- `get_penetration_normal`, contact.cpp:222-267; `none`: the code divides zero by zero. -/
noncomputable def unitNormal (A : Fin 3 → Fin 4 → ℝ) (s t : ℝ) : Option (Fin 3 → ℝ) :=
  let n := rawNormal A s t
  if len n = 0 then none else some fun i => n i / len n

/-- `get_normal_derivatives`, `d_n_d_xi`, contact.cpp:270-333, as a function of the vector used
as mixed derivative. -/
noncomputable def dNormalXi (A : Fin 3 → Fin 4 → ℝ) (mixed : Fin 3 → ℝ) (s t : ℝ) (i : Fin 3) : ℝ :=
  let n := rawNormal A s t
  let c := cross (tangentXi A s t) mixed
  (c i * len n - n i * dot n c / len n) / len n ^ 2

/-- `d_n_d_eta`, contact.cpp:270-333. -/
noncomputable def dNormalEta (A : Fin 3 → Fin 4 → ℝ) (mixed : Fin 3 → ℝ) (s t : ℝ) (i : Fin 3) : ℝ :=
  let n := rawNormal A s t
  let c := cross mixed (tangentEta A s t)
  (c i * len n - n i * dot n c / len n) / len n ^ 2

/-- Signed distance tested for one face, contact.cpp:1362-1380: normal at the patch centre times
the vector from the patch centre. -/
noncomputable def signedDist (A : Fin 3 → Fin 4 → ℝ) (x : Fin 3 → ℝ) : Option ℝ :=
  (unitNormal A 0 0).map fun n => dot (fun i => x i - refToPhysical A 0 0 i) n

/-- One face of `penetration_check`, contact.cpp:1383: a comparison with NaN is false. -/
noncomputable def behindFace (A : Fin 3 → Fin 4 → ℝ) (x : Fin 3 → ℝ) : Bool :=
  match signedDist A x with
  | none => false
  | some d => decide (d < 1 / 100)

/-- `penetration_check`, contact.cpp:1332-1399, for a node at `x` and the column of face `f` of
the element `E`. -/
noncomputable def penetrates (E : Fin 3 → Fin 8 → ℝ) (f : Fin 6) (x : Fin 3 → ℝ) : Bool :=
  decide (((List.finRange 5).filter fun i => behindFace (facePos E (columnFaces f i)) x).length = 5)

/-- Foot of the perpendicular on the plane through `a` with normal `n`, contact.cpp:2120-2129 (also
1617-1626, 2079-2088); `none`: zero normal. -/
noncomputable def foot (n a x : Fin 3 → ℝ) : Option (Fin 3 → ℝ) :=
  if dot n n = 0 then none
  else
    let c := (n 0 * (x 0 - a 0) + n 1 * (x 1 - a 1) + n 2 * (x 2 - a 2))
      / (-n 0 * n 0 - n 1 * n 1 - n 2 * n 2)
    some fun i => x i + c * n i

/-- Outcome of the inverse map: local coordinates and whether the loop was left by `break`. -/
structure Inverse where
  iso : Fin 3 → ℝ
  converged : Bool

open Classical in
/-- The loop of `isoparametric_inverse`, contact.cpp:1433-1527, with `fuel` iterations left; `p`
and `x` are `iso_pos_iter` and `pos_iter`. -/
noncomputable def inverseLoop (E : Fin 3 → Fin 8 → ℝ) (pos : Fin 3 → ℝ) :
    ℕ → (Fin 3 → ℝ) → (Fin 3 → ℝ) → Option Inverse
  | 0, p, _ => some ⟨p, false⟩
  | fuel + 1, p, x =>
    match newton E pos p x with
    | none => none
    | some q =>
      if len (fun i => pos i - hexPos E q i) < 1 / 10 ^ 8 then some ⟨q, true⟩
      else inverseLoop E pos fuel q (hexPos E q)

/-- `isoparametric_inverse`, contact.cpp:1402-1529. -/
noncomputable def isoInverse (E : Fin 3 → Fin 8 → ℝ) (pos : Fin 3 → ℝ) : Option Inverse :=
  inverseLoop E pos 1000 (fun _ => 0) (centre E)

end real

end Contact
end Fierro
