import Verif.Model.Memory
import Mathlib.Algebra.Order.Field.Basic
import Mathlib.Algebra.Order.Field.Rat
import Mathlib.Algebra.Order.AbsoluteValue.Basic

/-!
# The voxelizer of the previous version (C149)

`legacy/Fierro_V0/src/Voxelizer/src/stl-to-voxelvtk.cpp`, cited as vox.cpp. Arithmetic is exact; a division by zero has
the result of IEEE arithmetic where the code goes on with it. Reading the binary file is not
modelled.
-/

namespace Fierro

variable {K : Type} [Field K] [LinearOrder K]

/-- A facet: the third component of its normal and its three vertices, vox.cpp:338-378. -/
structure StlFacet (K : Type) where
  normal : K
  a : K × K × K
  b : K × K × K
  c : K × K × K

/-- The arguments of the three calls, vox.cpp:69, 79, 89: the coordinates are permuted, the normal is not. -/
def StlFacet.rot (f : StlFacet K) : StlFacet K :=
  { normal := f.normal, a := (f.a.2.1, f.a.2.2, f.a.1), b := (f.b.2.1, f.b.2.2, f.b.1), c := (f.c.2.1, f.c.2.2, f.c.1) }

/-- The body of the reductions for the largest coordinate, vox.cpp:403-413, 429-439, 455-465; `none` is the
neutral element the reduction starts from. -/
def stlStepMax (m : Option K) (t : K × K × K) : Option K :=
  if m.all (· < t.1) ∨ m.all (· < t.2.1) ∨ m.all (· < t.2.2) then
    if t.1 > t.2.1 ∧ t.1 > t.2.2 then some t.1
    else if t.2.1 > t.1 ∧ t.2.1 > t.2.2 then some t.2.1
    else if t.2.2 > t.1 ∧ t.2.2 > t.2.1 then some t.2.2
    else m
  else m

/-- The body of the reductions for the smallest coordinate, vox.cpp:416-426, 442-452, 468-478. -/
def stlStepMin (m : Option K) (t : K × K × K) : Option K :=
  if m.all (t.1 < ·) ∨ m.all (t.2.1 < ·) ∨ m.all (t.2.2 < ·) then
    if t.1 < t.2.1 ∧ t.1 < t.2.2 then some t.1
    else if t.2.1 < t.1 ∧ t.2.1 < t.2.2 then some t.2.1
    else if t.2.2 < t.1 ∧ t.2.2 < t.2.1 then some t.2.2
    else m
  else m

/-- Joining the results of two threads. -/
def joinMax : Option K → Option K → Option K
  | none, y => y
  | x, none => x
  | some x, some y => some (max x y)

/-- Joining the results of two threads. -/
def joinMin : Option K → Option K → Option K
  | none, y => y
  | x, none => x
  | some x, some y => some (min x y)

/-- `FOR_REDUCE_MAX` over the facets, split among threads in any way. -/
def stlMax (chunks : List (List (K × K × K))) : Option K :=
  (chunks.map fun c => c.foldl stlStepMax none).foldl joinMax none

/-- `FOR_REDUCE_MIN` over the facets, split among threads in any way. -/
def stlMin (chunks : List (List (K × K × K))) : Option K :=
  (chunks.map fun c => c.foldl stlStepMin none).foldl joinMin none

/-- The coordinates of the rays along one axis, vox.cpp:485-493 (and 496-515). -/
def gridCo (lo hi : K) (n : ℕ) : Mem ℕ K :=
  Mem.writeAll ([(0, lo), (n + 2, hi)] ++
    (List.range (n + 1)).map fun i : ℕ => (i + 1, (lo + (hi - lo) / n / 2) + (hi - lo) / n * (i : K))) Mem.empty

/-- The smallest coordinate of a facet, vox.cpp:527-534 (and 545, 563). -/
def facetMin (t : K × K × K) : K :=
  if t.1 ≤ t.2.1 ∧ t.1 ≤ t.2.2 then t.1 else if t.2.1 ≤ t.1 ∧ t.2.1 ≤ t.2.2 then t.2.1 else t.2.2

/-- The largest coordinate of a facet, vox.cpp:536-543 (and 554, 572). -/
def facetMax (t : K × K × K) : K :=
  if t.1 ≥ t.2.1 ∧ t.1 ≥ t.2.2 then t.1 else if t.2.1 ≥ t.1 ∧ t.2.1 ≥ t.2.2 then t.2.1 else t.2.2

/-- The facet may be crossed by the ray `r`, vox.cpp:592-599 and 623-629. -/
def StlFacet.possible (f : StlFacet K) (r : K × K) : Prop :=
  (facetMin (f.a.2.1, f.b.2.1, f.c.2.1) ≤ r.2 ∧ r.2 ≤ facetMax (f.a.2.1, f.b.2.1, f.c.2.1)) ∧
    (facetMin (f.a.1, f.b.1, f.c.1) ≤ r.1 ∧ r.1 ≤ facetMax (f.a.1, f.b.1, f.c.1))

instance (f : StlFacet K) (r : K × K) : Decidable (f.possible r) := inferInstanceAs (Decidable (_ ∧ _))

/-- A number of IEEE arithmetic without rounding. -/
inductive Ieee (K : Type)
  | fin (x : K)
  | pos
  | neg
  | nan

/-- `e > y`. -/
def Ieee.gt : Ieee K → K → Prop
  | fin x, y => x > y
  | pos, _ => True
  | _, _ => False

/-- `e < y`. -/
def Ieee.lt : Ieee K → K → Prop
  | fin x, y => x < y
  | neg, _ => True
  | _, _ => False

instance (e : Ieee K) (y : K) : Decidable (e.gt y) := by
  cases e <;> unfold Ieee.gt <;> infer_instance

instance (e : Ieee K) (y : K) : Decidable (e.lt y) := by
  cases e <;> unfold Ieee.lt <;> infer_instance

/-- The second coordinate on the line through `a` and `b` at `x`, vox.cpp:678, 679, 682, 683, 686, 687. -/
def edgeAt (a b : K × K) (x : K) : Ieee K :=
  if a.1 - b.1 = 0 then
    if (a.2 - b.2) * (a.1 - x) = 0 then .nan else if 0 < (a.2 - b.2) * (a.1 - x) then .neg else .pos
  else .fin (a.2 - ((a.2 - b.2) * (a.1 - x) / (a.1 - b.1)))

/-- The ray is on the same side of the edge as the vertex `p`, vox.cpp:681, 685, 689. -/
def sameSide (a b p r : K × K) : Prop :=
  ((edgeAt a b p.1).gt p.2 ∧ (edgeAt a b r.1).gt r.2) ∨ ((edgeAt a b p.1).lt p.2 ∧ (edgeAt a b r.1).lt r.2)

instance (a b p r : K × K) : Decidable (sameSide a b p r) := inferInstanceAs (Decidable (_ ∨ _))

/-- First two coordinates. -/
def flat (p : K × K × K) : K × K := (p.1, p.2.1)

/-- The ray crosses the facet, vox.cpp:675-696. -/
def StlFacet.hits (f : StlFacet K) (r : K × K) : Prop :=
  sameSide (flat f.b) (flat f.c) (flat f.a) r ∧ sameSide (flat f.c) (flat f.a) (flat f.b) r ∧
    sameSide (flat f.a) (flat f.b) (flat f.c) r

instance (f : StlFacet K) (r : K × K) : Decidable (f.hits r) := inferInstanceAs (Decidable (_ ∧ _))

/-- The ray goes through a vertex, vox.cpp:638. -/
def StlFacet.vertexHit (f : StlFacet K) (r : K × K) : Prop := flat f.a = r ∨ flat f.b = r ∨ flat f.c = r

instance (f : StlFacet K) (r : K × K) : Decidable (f.vertexHit r) := inferInstanceAs (Decidable (_ ∨ _))

/-- The facets at vertices that count as crossed, vox.cpp:645-669; the extremes of the normals start from whatever is
in memory. `none`: the ray is left for repair. -/
def vertexPart (gmax gmin : K) (vs : List (StlFacet K)) : Option (List (StlFacet K)) :=
  if vs = [] then some []
  else
    let mx := vs.foldl (fun m f => if f.normal > m then f.normal else m) gmax
    let mn := vs.foldl (fun m f => if f.normal < m then f.normal else m) gmin
    if mx < 0 ∨ mn > 0 then some vs else none

/-- Where the ray meets the plane of the facet, vox.cpp:704-711; `none`: not a finite number. -/
def StlFacet.height (f : StlFacet K) (r : K × K) : Option K :=
  let pA := f.a.2.1 * (f.b.2.2 - f.c.2.2) + f.b.2.1 * (f.c.2.2 - f.a.2.2) + f.c.2.1 * (f.a.2.2 - f.b.2.2)
  let pB := f.a.2.2 * (f.b.1 - f.c.1) + f.b.2.2 * (f.c.1 - f.a.1) + f.c.2.2 * (f.a.1 - f.b.1)
  let pC := f.a.1 * (f.b.2.1 - f.c.2.1) + f.b.1 * (f.c.2.1 - f.a.2.1) + f.c.1 * (f.a.2.1 - f.b.2.1)
  let pD := -f.a.1 * (f.b.2.1 * f.c.2.2 - f.c.2.1 * f.b.2.2) - f.b.1 * (f.c.2.1 * f.a.2.2 - f.a.2.1 * f.c.2.2) -
    f.c.1 * (f.a.2.1 * f.b.2.2 - f.b.2.1 * f.a.2.2)
  if |pC| < 1 / 10 ^ 14 then none else some ((-pD - pA * r.1 - pB * r.2) / pC)

/-- One turn of the loop that keeps the unique values, vox.cpp:718-730; the state is `flagup` and the list so far. -/
def uniqueStep (l : List K) (st : Bool × List K) (w : K × ℕ) : Bool × List K :=
  if st.1 || l.zipIdx.any (fun v => decide (v.1 = w.1) && decide (v.2 ≠ w.2)) then (false, st.2)
  else (false, st.2 ++ [w.1])

/-- "Keep only the unique values", vox.cpp:715-730; `flag`: whether the memory of `flagup` holds one before. -/
def keepUnique (flag : Bool) (l : List K) : List K := (l.zipIdx.foldl (uniqueStep l) (flag, [])).2

/-- The rest of a pass of the sorting loop once the value `x` has been carried to here, vox.cpp:738-743. -/
def bubbleFrom (x : K) : List K → List K
  | [] => [x]
  | y :: t => if x > y then y :: bubbleFrom x t else x :: bubbleFrom y t

/-- One pass of the sorting loop, vox.cpp:737-743. -/
def bubblePass : List K → List K
  | [] => []
  | x :: t => bubbleFrom x t

/-- The sorting loops, vox.cpp:735-744. -/
def bubbleSort (l : List K) : List K := bubblePass^[l.length] l

/-- The relative closeness test, vox.cpp:749-754: with `z = 0` it divides by zero and never holds. -/
def nearTo (z c : K) : Prop := z ≠ 0 ∧ |z - c| / |z| < 1 / 10 ^ 4

instance (z c : K) : Decidable (nearTo z c) := inferInstanceAs (Decidable (_ ∧ _))

/-- A voxel gets marked for one pair of crossings, vox.cpp:746-755. -/
def markPair (z lo hi : K) : Prop := (z > lo ∧ z < hi) ∨ nearTo z lo ∨ nearTo z hi

instance (z lo hi : K) : Decidable (markPair z lo hi) := inferInstanceAs (Decidable (_ ∨ _))

/-- What becomes of a ray: the voxels at these heights are marked and the ray may be left for repair, or a crossing is
not a finite number. -/
inductive RayEnd (K : Type)
  | marks (m : K → Bool) (repair : Bool)
  | infinite

/-- Marking along a ray with these crossings, vox.cpp:732-766. `vertices`: the ray met a vertex; `rep`: it is to be
repaired already. -/
def assignRay (flag vertices rep : Bool) (zs : List K) : RayEnd K :=
  let u := keepUnique flag zs
  if u.length % 2 = 0 then
    let s := bubbleSort u
    .marks (fun z => (List.range (u.length / 2)).any fun m =>
      decide (markPair z (s.getD (2 * m) 0) (s.getD (2 * m + 1) 0))) rep
  else .marks (fun _ => false) (rep || !vertices)

/-- One ray, vox.cpp:617-768. -/
def castRay (flag : Bool) (gmax gmin : K) (fs : List (StlFacet K)) (r : K × K) : RayEnd K :=
  let ps := fs.filter fun f => f.possible r
  let vs := ps.filter fun f => f.vertexHit r
  let v := vertexPart gmax gmin vs
  match (v.getD [] ++ ps.filter fun f => f.hits r).mapM fun f => f.height r with
  | none => .infinite
  | some zs => assignRay flag (!vs.isEmpty) v.isNone zs

/-- Marked voxels among the eight neighbours of a ray at height `k`, vox.cpp:796-838; those beyond the border count as
empty. -/
def repairCount (g : ℕ × ℕ × ℕ → Bool) (elx ely x y k : ℕ) : ℕ :=
  let c (skip : Prop) [Decidable skip] (p : ℕ × ℕ × ℕ) : ℕ := if skip then 0 else (g p).toNat
  c (x = 0 ∨ y = 0) (x - 1, y - 1, k) + c (x = 0) (x - 1, y, k) + c (x = 0 ∨ y + 1 = ely) (x - 1, y + 1, k) +
    c (y = 0) (x, y - 1, k) + c (y + 1 = ely) (x, y + 1, k) +
    c (x + 1 = elx ∨ y = 0) (x + 1, y - 1, k) + c (x + 1 = elx) (x + 1, y, k) +
    c (x + 1 = elx ∨ y + 1 = ely) (x + 1, y + 1, k)

/-- The repair of one voxel, vox.cpp:839-842. -/
def repairVoxel (elx ely : ℕ) (g : ℕ × ℕ × ℕ → Bool) (q : ℕ × ℕ × ℕ) : ℕ × ℕ × ℕ → Bool :=
  if 4 ≤ repairCount g elx ely q.1 q.2.1 q.2.2 then Function.update g q true else g

/-- The repair of the rays of the list, one after the other, vox.cpp:772-847. -/
def repairRays (elx ely elz : ℕ) (g : ℕ × ℕ × ℕ → Bool) (rays : List (ℕ × ℕ)) : ℕ × ℕ × ℕ → Bool :=
  (rays.flatMap fun r => (List.range elz).map fun k => (r.1, r.2, k)).foldl (repairVoxel elx ely) g

/-- The vote of the three directions, vox.cpp:91-104, on the padded arrays: entry `(k, j, i)` of the result. -/
def voteVoxel (gx gy gz : ℕ → ℕ → ℕ → Bool) (k j i : ℕ) : Bool :=
  decide (2 ≤ (gx (j + 1) (k + 1) (i + 1)).toNat + (gy (k + 1) (i + 1) (j + 1)).toNat +
    (gz (i + 1) (j + 1) (k + 1)).toNat)

/-- The cell data of the file, vox.cpp:140-146. -/
def voxelFile (gridX gridY gridZ : ℕ) (out : ℕ → ℕ → ℕ → Bool) : List Bool :=
  (List.range gridZ).flatMap fun i => (List.range gridY).flatMap fun j => (List.range gridX).map fun k => out i j k

end Fierro
