import Verif.Model.Contact
import Mathlib.Algebra.Order.Floor.Ring
import Mathlib.Data.Finset.Max
import Mathlib.Data.Finset.Lattice.Fold
import Mathlib.Data.List.Range

/-!
# Search for penetrating nodes

Model of `sort`, `penetration_capture_box` and `find_penetrating_nodes` in
`apps/multiphysics/src/Solvers/SGH_solver_3D/src/contact.cpp`.

Simplifications: boundary nodes are addressed by their position in `bdy_nodes` (the code looks the
position up again by a search over the distinct ids, 1648-1658); arithmetic is exact.
-/

namespace Fierro
namespace Contact

section grid
variable {K : Type} [Field K] [LinearOrder K] [FloorRing K]

/-- Largest value over the boundary nodes, contact.cpp:1677-1707. The reductions start from the
identity of the reducer, so with at least one node their result is the maximum. -/
def maxOver {n : ℕ} (v : Fin (n + 1) → K) : K := Finset.univ.sup' Finset.univ_nonempty v

/-- Smallest value over the boundary nodes, contact.cpp:1708-1737. -/
def minOver {n : ℕ} (v : Fin (n + 1) → K) : K := Finset.univ.inf' Finset.univ_nonempty v

/-- `x_min`, `bucket_size` and `Sx, Sy, Sz`. -/
structure Grid (K : Type) where
  lo : Fin 3 → K
  size : K
  dims : Fin 3 → ℕ

/-- `bucket_size`, contact.cpp:1839. -/
def bucketSize (hi lo : Fin 3 → K) : K :=
  max ((hi 0 - lo 0) / 64) (max ((hi 1 - lo 1) / 64) ((hi 2 - lo 2) / 64))

/-- The grid of buckets over the boundary nodes, contact.cpp:1677-1737, 1839-1844. -/
def gridOf {n : ℕ} (x : Fin (n + 1) → Fin 3 → K) : Grid K where
  lo := fun d => minOver fun i => x i d
  size := bucketSize (fun d => maxOver fun i => x i d) (fun d => minOver fun i => x i d)
  dims := fun d =>
    (⌊((maxOver fun i => x i d) - minOver fun i => x i d)
        / bucketSize (fun d => maxOver fun i => x i d) (fun d => minOver fun i => x i d)⌋ + 1).toNat

/-- Number of the bucket with the given position in the grid, contact.cpp:1867 and 1591. -/
def bucketId (g : Grid K) (c : Fin 3 → ℕ) : ℕ :=
  c 2 * g.dims 0 * g.dims 1 + c 1 * g.dims 0 + c 0

/-- `Si_x, Si_y, Si_z` of a boundary node, contact.cpp:1863-1865. -/
def cellOf (g : Grid K) (x : Fin 3 → K) (d : Fin 3) : ℕ := ⌊(x d - g.lo d) / g.size⌋.toNat

/-- `ibox_max, …, kbox_min` of one side of the capture box, contact.cpp:1567-1579. -/
def boxCell (g : Grid K) (y : Fin 3 → K) (d : Fin 3) : ℕ :=
  (max 0 (min ((g.dims d : ℤ) - 1) ⌊(y d - g.lo d) / g.size⌋)).toNat

/-- Upper corner of the capture box, contact.cpp:60-76. -/
def boxHi (depth : K) (X : Fin 3 → Fin 4 → K) (d : Fin 3) : K :=
  max (max (max (X d 0 + depth) (X d 1 + depth)) (X d 2 + depth)) (X d 3 + depth)

/-- Lower corner of the capture box, contact.cpp:60-84. -/
def boxLo (depth : K) (X : Fin 3 → Fin 4 → K) (d : Fin 3) : K :=
  min (min (min (X d 0 - depth) (X d 1 - depth)) (X d 2 - depth)) (X d 3 - depth)

/-- The numbers `a, a + 1, …, b`. -/
def span (a b : ℕ) : List ℕ := List.range' a (b + 1 - a)

/-- The buckets written to `buckets`, in order, contact.cpp:1581-1595. -/
def visited (g : Grid K) (hi lo : Fin 3 → K) : List ℕ :=
  (span (boxCell g lo 0) (boxCell g hi 0)).flatMap fun i =>
    (span (boxCell g lo 1) (boxCell g hi 1)).flatMap fun j =>
      (span (boxCell g lo 2) (boxCell g hi 2)).map fun k => bucketId g ![i, j, k]

end grid

/-! ### Sorting the nodes by bucket -/

/-- `nbox` after the atomic increments, contact.cpp:1857-1869 (`nbox` is allocated zeroed). -/
def countBoxes (lb : ℕ → ℕ) (n : ℕ) : ℕ → ℕ :=
  (List.range n).foldl (fun c i => Function.update c (lb i) (c (lb i) + 1)) fun _ => 0

/-- `npoint`, contact.cpp:1872-1878 (`npoint` is allocated zeroed). -/
def pointers (nbox : ℕ → ℕ) : ℕ → ℕ
  | 0 => 0
  | b + 1 => pointers nbox b + nbox b

/-- One pass of the loop filling `nsort_lid`, contact.cpp:1888-1892. The first component is
`nsort_lid` (nothing at places not written yet), the second `nbox`. -/
def sortStep (np lb : ℕ → ℕ) (st : (ℕ → Option ℕ) × (ℕ → ℕ)) (i : ℕ) : (ℕ → Option ℕ) × (ℕ → ℕ) :=
  (Function.update st.1 (st.2 (lb i) + np (lb i)) (some i),
    Function.update st.2 (lb i) (st.2 (lb i) + 1))

/-- `nsort_lid` and `nbox` after the sort, contact.cpp:1857-1893. -/
def sortNodes (lb : ℕ → ℕ) (n : ℕ) : (ℕ → Option ℕ) × (ℕ → ℕ) :=
  (List.range n).foldl (sortStep (pointers (countBoxes lb n)) lb) (fun _ => none, fun _ => 0)

/-- The nodes read for bucket `b`, contact.cpp:1598-1603. -/
def slice (np : ℕ → ℕ) (st : (ℕ → Option ℕ) × (ℕ → ℕ)) (b : ℕ) : List (Option ℕ) :=
  (List.range (st.2 b)).map fun i => st.1 (np b + i)

/-! ### Recording penetrations -/

/-- Storing a patch in the first free of `cap` columns, nothing when none is free,
contact.cpp:1650-1655. -/
def recordRow (cap : ℕ) (row : List ℕ) (p : ℕ) : List ℕ :=
  if row.length < cap then row ++ [p] else row

/-- What is done with one entry of a bucket, contact.cpp:1603-1659. -/
def nodeStep (cap : ℕ) (test : ℕ → ℕ → Bool) (p : ℕ) (rows : ℕ → List ℕ) (o : Option ℕ) :
    ℕ → List ℕ :=
  match o with
  | none => rows
  | some i => if test p i then Function.update rows i (recordRow cap (rows i) p) else rows

/-- One boundary patch, contact.cpp:1545-1661: all entries of all visited buckets. -/
def patchStep (cap : ℕ) (vis : ℕ → List ℕ) (sl : ℕ → List (Option ℕ)) (test : ℕ → ℕ → Bool)
    (rows : ℕ → List ℕ) (p : ℕ) : ℕ → List ℕ :=
  ((vis p).flatMap sl).foldl (nodeStep cap test p) rows

/-- `node_penetrations` after the search: for every boundary node the patches recorded in its
columns, contact.cpp:1921-1933 and 1531-1663. -/
def findAll (cap : ℕ) (vis : ℕ → List ℕ) (sl : ℕ → List (Option ℕ)) (test : ℕ → ℕ → Bool)
    (numPatches : ℕ) : ℕ → List ℕ :=
  (List.range numPatches).foldl (patchStep cap vis sl test) fun _ => []

section real

/-- Length of an edge of a patch. -/
noncomputable def edgeLen (X : Fin 3 → Fin 4 → ℝ) (a b : Fin 4) : ℝ := len fun i => X i b - X i a

/-- `min_edge_len`, contact.cpp:1550-1555. -/
noncomputable def minEdge (X : Fin 3 → Fin 4 → ℝ) : ℝ :=
  min (min (min (edgeLen X 0 1) (edgeLen X 1 2)) (edgeLen X 2 3)) (edgeLen X 3 0)

/-- `dist_factor`, contact.cpp:1556-1561. -/
noncomputable def distFactor (preload : Bool) : ℝ := if preload then 1 else 1 / 10

/-- `depth_cap`, contact.cpp:1913-1919. -/
noncomputable def depthCap (hi lo : Fin 3 → ℝ) (bs : ℝ) : ℝ :=
  min (min (min (hi 0 - lo 0) (hi 1 - lo 1)) (hi 2 - lo 2) / 4) (3 * bs)

/-- Whether a node found in a bucket is recorded for a patch, contact.cpp:1614-1646. `own` tells
whether the node belongs to the element of the patch. Without a normal the distance is not a number,
the cutoff lets the node pass and the penetration test rejects it. -/
noncomputable def nodeTest (preload : Bool) (E : Fin 3 → Fin 8 → ℝ) (f : Fin 6) (x : Fin 3 → ℝ)
    (own : Bool) : Bool :=
  match unitNormal (facePos E f) 0 0 with
  | none => false
  | some n =>
    match foot n (fun i => facePos E f i 0) x with
    | none => false
    | some P =>
      !decide (distFactor preload * minEdge (facePos E f) < len fun i => x i - P i)
        && penetrates E f x && !own

end real

end Contact
end Fierro
