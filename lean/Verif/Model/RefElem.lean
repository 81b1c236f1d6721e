import Verif.Model.Memory
import Verif.Model.RefQuad

/-!
# The reference element

`common/include/ref_elem.hpp`: the shape functions of hexahedral elements of any order, their
gradients, and the tables of a reference element of a given order.  Exact arithmetic.  The temporary
arrays `val_1d`, `val_3d`, `Dval_1d`, `Dval_3d` are replaced by the values they hold; a loop
`for (i = 0; i < n; i = i + 2)` by the list of the values of `i`.  Arrays start at zero (Kokkos).
-/

namespace Fierro.RefElem

open RefQuad

section Basis

variable {K : Type} [Field K]

/-- Entry `i` of `lagrange_basis_1D` and of `lagrange_elem_basis_1D`, which differ in the positions
they use (`common/include/ref_elem.hpp:1116-1142,1160-1186`). -/
def lagrange1D (n : ℕ) (x : ℕ → K) (pt : K) (i : ℕ) : K :=
  ((List.range n).foldl (fun (s : K × K × K) j =>
    let num := if j ≠ i then s.1 * (pt - x j) else s.1
    let den := if j ≠ i then s.2.1 * (x i - x j) else s.2.1
    (num, den, num / den)) (1, 1, 1)).2.2

/-- Entry `i` of `lagrange_derivative_1D` (`common/include/ref_elem.hpp:1204-1241`). -/
def derivative1D (n : ℕ) (x : ℕ → K) (pt : K) (i : ℕ) : K :=
  ((List.range n).foldl (fun (s : K × K × K) j =>
    let den := if j ≠ i then s.1 * (x i - x j) else s.1
    let grad := if j ≠ i then
        s.2.1 + (List.range n).foldl
          (fun q m => if m ≠ j ∧ m ≠ i then q * (pt - x m) else q) 1
      else s.2.1
    (den, grad, grad / den)) (1, 0, 0)).2.2

/-- `dof_rid`, `elem_dof_rid`, `lobatto_rid`, `dual_lobatto_rid` and `legendre_rid` for `n` entries in
1D (`common/include/ref_elem.hpp:549-552,571-574,593-596,615-618,637-640`). -/
def rid (n i j k : ℕ) : ℕ := i + j * n + k * n * n

/-- The indices `(i, j, k)` of the nested loops over `k`, `j` and `i`. -/
def cube (l : List ℕ) : List (ℕ × ℕ × ℕ) :=
  l.flatMap fun k => l.flatMap fun j => l.map fun i => (i, j, k)

/-- The last loop of the functions that evaluate the basis or a derivative of it
(`common/include/ref_elem.hpp:718-727`). -/
def tensor (n : ℕ) (f g h : ℕ → K) : Mem ℕ K :=
  Mem.writeAll ((cube (List.range n)).map fun v =>
    (rid n v.1 v.2.1 v.2.2, f v.1 * g v.2.1 * h v.2.2)) Mem.empty

/-- `get_basis` and `get_elem_basis` (`common/include/ref_elem.hpp:681-734,754-807`). -/
def getBasis (n : ℕ) (x : ℕ → K) (pt : Fin 3 → K) : Mem ℕ K :=
  tensor n (lagrange1D n x (pt 0)) (lagrange1D n x (pt 1)) (lagrange1D n x (pt 2))

/-- `partial_xi_basis` (`common/include/ref_elem.hpp:827-889`). -/
def partialXi (n : ℕ) (x : ℕ → K) (pt : Fin 3 → K) : Mem ℕ K :=
  tensor n (derivative1D n x (pt 0)) (lagrange1D n x (pt 1)) (lagrange1D n x (pt 2))

/-- `partial_eta_basis` (`common/include/ref_elem.hpp:909-972`). -/
def partialEta (n : ℕ) (x : ℕ → K) (pt : Fin 3 → K) : Mem ℕ K :=
  tensor n (lagrange1D n x (pt 0)) (derivative1D n x (pt 1)) (lagrange1D n x (pt 2))

/-- `partial_mu_basis` (`common/include/ref_elem.hpp:992-1054`). -/
def partialMu (n : ℕ) (x : ℕ → K) (pt : Fin 3 → K) : Mem ℕ K :=
  tensor n (lagrange1D n x (pt 0)) (lagrange1D n x (pt 1)) (derivative1D n x (pt 2))

end Basis

/-! ## The tables of an order (`init`, three dimensions) -/

/-- `num_lobotto_1d` (`common/include/ref_elem.hpp:138-157`). -/
def numLob (p : ℕ) : ℕ := if p = 0 then 2 else 2 * p + 1

/-- `num_dual_lobotto_1d` (`common/include/ref_elem.hpp:138-157`). -/
def numDual (p : ℕ) : ℕ := if p = 0 then 1 else 2 * p - 1

/-- `num_gauss_1d` (`common/include/ref_elem.hpp:138-157`). -/
def numGauss (p : ℕ) : ℕ := if p = 0 then 1 else 2 * p

/-- `num_dofs_1d` (`common/include/ref_elem.hpp:138-157`). -/
def numDofs (p : ℕ) : ℕ := if p = 0 then 2 else p + 1

/-- `num_dg_dofs_1d` (`common/include/ref_elem.hpp:138-157`). -/
def numDg (p : ℕ) : ℕ := if p = 0 then 1 else p

/-- The values of `i` in `for (int i = 0; i < n; i = i + 2)`. -/
def stride2 (n : ℕ) : List ℕ := (List.range ((n + 1) / 2)).map (2 * ·)

/-- `lob_points_1D` (`common/include/ref_elem.hpp:213-219`). -/
noncomputable def lob1 (p i : ℕ) : ℝ := (lobattoNodes (numLob p)).getD i 0

/-- `dual_lob_points_1D` (`common/include/ref_elem.hpp:215-223`). -/
noncomputable def dual1 (p i : ℕ) : ℝ := (lobattoNodes (numDual p)).getD i 0

/-- `lob_weights_1D` (`common/include/ref_elem.hpp:225-228`). -/
noncomputable def lobW1 (p i : ℕ) : ℝ := (lobattoWeights (numLob p)).getD i 0

/-- `leg_nodes_1D` (`common/include/ref_elem.hpp:230-233`). -/
noncomputable def leg1 (p i : ℕ) : ℝ := ((legendreNodesQ (numGauss p)).getD i 0 : ℚ)

/-- `leg_weights_1D` (`common/include/ref_elem.hpp:235-238`). -/
noncomputable def legW1 (p i : ℕ) : ℝ := ((legendreWeightsQ (numGauss p)).getD i 0 : ℚ)

/-- The two arrays of positions in 1D. -/
inductive Arr1
  | dof
  | dg
  deriving DecidableEq

/-- Their allocated sizes (`common/include/ref_elem.hpp:185-189`). -/
def size1 (p : ℕ) : Arr1 → ℕ
  | .dof => numDofs p
  | .dg => numDg p

/-- The assignments to `dof_positions_1d` and `dg_dof_positions_1d`
(`common/include/ref_elem.hpp:317-347`). -/
noncomputable def writes1 (p : ℕ) : List ((Arr1 × ℕ) × ℝ) :=
  if p = 0 then
    (List.range (numLob p)).flatMap fun i => [((.dof, i), lob1 p i), ((.dg, i), dual1 p i)]
  else
    ((stride2 (numLob p)).zipIdx.map fun w => ((.dof, w.2), lob1 p w.1)) ++
      ((stride2 (numDual p)).zipIdx.map fun w => ((.dg, w.2), dual1 p w.1))

/-- An entry of the two arrays. -/
noncomputable def pos1 (p : ℕ) (a : Arr1) (i : ℕ) : ℝ :=
  (Mem.writeAll (writes1 p) Mem.empty (a, i)).getD 0

/-- The assignments of a loop over three indices to an array of positions, from 1D positions. -/
def posWrites (n : ℕ) (x : ℕ → ℝ) : List ((ℕ × Fin 3) × ℝ) :=
  (cube (List.range n)).flatMap fun v =>
    [((rid n v.1 v.2.1 v.2.2, 0), x v.1), ((rid n v.1 v.2.1 v.2.2, 1), x v.2.1),
      ((rid n v.1 v.2.1 v.2.2, 2), x v.2.2)]

/-- `lobotto_point_positions` (`common/include/ref_elem.hpp:244-256`). -/
noncomputable def lobPositions (p : ℕ) : Mem (ℕ × Fin 3) ℝ :=
  Mem.writeAll (posWrites (numLob p) (lob1 p)) Mem.empty

/-- `gauss_point_positions` (`common/include/ref_elem.hpp:303-315`). -/
noncomputable def gaussPositions (p : ℕ) : Mem (ℕ × Fin 3) ℝ :=
  Mem.writeAll (posWrites (numGauss p) (leg1 p)) Mem.empty

/-- `dof_positions` (`common/include/ref_elem.hpp:348-357`). -/
noncomputable def dofPositions (p : ℕ) : Mem (ℕ × Fin 3) ℝ :=
  Mem.writeAll (posWrites (numDofs p) (pos1 p .dof)) Mem.empty

/-- `lobotto_point_weights` (`common/include/ref_elem.hpp:244-256`). -/
noncomputable def lobWeights3 (p : ℕ) : Mem ℕ ℝ := tensor (numLob p) (lobW1 p) (lobW1 p) (lobW1 p)

/-- `gauss_point_weights` (`common/include/ref_elem.hpp:303-315`). -/
noncomputable def gaussWeights3 (p : ℕ) : Mem ℕ ℝ :=
  tensor (numGauss p) (legW1 p) (legW1 p) (legW1 p)

/-- The assignments of a loop with a running counter to an array of point numbers. -/
def countedWrites (l : List ℕ) (n : ℕ) : List (ℕ × ℕ) :=
  (cube l).zipIdx.map fun w => (w.2, rid n w.1.1 w.1.2.1 w.1.2.2)

/-- `dof_lobatto_map` (`common/include/ref_elem.hpp:258-271`). -/
def dofLobattoMap (p : ℕ) : Mem ℕ ℕ :=
  Mem.writeAll (countedWrites (stride2 (numLob p)) (numLob p)) Mem.empty

/-- `dual_dof_lobatto_map` (`common/include/ref_elem.hpp:273-301`). -/
def dualDofLobattoMap (p : ℕ) : Mem ℕ ℕ :=
  if p = 1 then Mem.writeAll (countedWrites (List.range (numDual p)) (numDual p)) Mem.empty
  else if p > 1 then Mem.writeAll (countedWrites (stride2 (numDual p)) (numDual p)) Mem.empty
  else Mem.empty

/-- The three coordinates of a point of a table of positions. -/
noncomputable def pointOf (m : Mem (ℕ × Fin 3) ℝ) (r : ℕ) : Option (Fin 3 → ℝ) :=
  match m (r, 0), m (r, 1), m (r, 2) with
  | some a, some b, some c => some ![a, b, c]
  | _, _, _ => none

/-- The kinematic and the thermodynamic basis at a point: entry `b`. -/
noncomputable def basisAt (p : ℕ) (a : Arr1) (pt : Fin 3 → ℝ) (b : ℕ) : Option ℝ :=
  getBasis (size1 p a) (pos1 p a) pt b

/-- The gradient of the kinematic basis at a point: entry `b`, `d`. -/
noncomputable def gradAt (p : ℕ) (pt : Fin 3 → ℝ) (b : ℕ) (d : Fin 3) : Option ℝ :=
  match d with
  | 0 => partialXi (numDofs p) (pos1 p .dof) pt b
  | 1 => partialEta (numDofs p) (pos1 p .dof) pt b
  | 2 => partialMu (numDofs p) (pos1 p .dof) pt b

/-- `lobotto_point_basis` and `lobotto_point_dg_basis`
(`common/include/ref_elem.hpp:373-393,440-461`). -/
noncomputable def lobBasis (p : ℕ) (a : Arr1) (r b : ℕ) : Option ℝ :=
  (pointOf (lobPositions p) r).bind fun pt => basisAt p a pt b

/-- `gauss_point_basis` and `gauss_point_dg_basis`
(`common/include/ref_elem.hpp:395-416,418-438`). -/
noncomputable def gaussBasis (p : ℕ) (a : Arr1) (r b : ℕ) : Option ℝ :=
  (pointOf (gaussPositions p) r).bind fun pt => basisAt p a pt b

/-- `lobotto_point_grad_basis` (`common/include/ref_elem.hpp:463-503`). -/
noncomputable def lobGrad (p r b : ℕ) (d : Fin 3) : Option ℝ :=
  (pointOf (lobPositions p) r).bind fun pt => gradAt p pt b d

/-- `gauss_point_grad_basis` (`common/include/ref_elem.hpp:505-541`). -/
noncomputable def gaussGrad (p r b : ℕ) (d : Fin 3) : Option ℝ :=
  (pointOf (gaussPositions p) r).bind fun pt => gradAt p pt b d

end Fierro.RefElem
