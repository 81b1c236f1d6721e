import Verif.Model.Memory
import Verif.Model.MeshIndex
import Mathlib.Algebra.Order.Field.Basic
import Mathlib.Algebra.BigOperators.Group.Finset.Defs
import Mathlib.Analysis.SpecialFunctions.Sqrt
import Mathlib.Algebra.Order.Floor.Ring

/-!
# Painting regions on the mesh and building the material index spaces

common/src/region_fill.cpp.  `size_t` values are natural numbers; the wrap-around of
`max_num_mats_per_elem-1` at zero is kept.
-/

namespace Fierro

/-! ### Fills of one element -/

/-- What `fill_regions` uses of a fill instruction (`RegionFill_t`): its material, whether it
selects a given element (`fill_geometric_region(...) == 1`) and the volume fraction field at the
centre of the element (`get_region_scalar`). -/
structure FillData (K : Type) where
  materialId : ℕ
  covers : ℕ → Bool
  vfrac : ℕ → K

/-- Row of `elem_fill_ids`, `elem_volfrac`, `elem_geo_volfrac` and
`elem_num_mats_saved_in_elem` belonging to one element. -/
structure ElemFill (K : Type) where
  num : ℕ
  fillIds : Mem ℕ ℕ
  volfrac : Mem ℕ K
  geo : Mem ℕ K

/-- `Kokkos::abort` of region_fill.cpp:1425, or an access outside an array (undefined in C++). -/
inductive FillError
  | tooManyMaterials
  | outOfBounds
  deriving DecidableEq

/-- The number of fills is zero before the first fill (`elem_num_mats_saved_in_elem` is
allocated with value zero). -/
def ElemFill.init {K : Type} : ElemFill K := ⟨0, Mem.empty, Mem.empty, Mem.empty⟩

section
variable {K : Type} [Field K] [LinearOrder K]

/-- `num_fills_saved_in_elem(elem_gid) > max_num_mats_per_elem-1` with `size_t` arithmetic
(64 bit). -/
def fullElem (maxMats num : ℕ) : Bool :=
  decide (num > (if maxMats = 0 then 2 ^ 64 - 1 else maxMats - 1))

/-- The loop of region_fill.cpp:1433-1445: the last `a_fill` whose
`region_fills(a_fill).material_id` is the material.  (The code uses the slot number as a fill
number.) -/
def lastMatch (fills : List (FillData K)) (mat num : ℕ) : Option ℕ :=
  (List.range num).foldl
    (fun acc a => if (fills[a]?.map FillData.materialId) = some mat then some a else acc) none

/-- Store fill `fillId` in slot `slot` of the element, region_fill.cpp:1459-1461 and 424-428. -/
def ElemFill.store (s : ElemFill K) (slot fillId : ℕ) (vf geo : K) (num : ℕ) : ElemFill K :=
  ⟨num, s.fillIds.write (slot, fillId), s.volfrac.write (slot, vf), s.geo.write (slot, geo)⟩

/-- `append_fills_in_elem`, region_fill.cpp:1408-1465. -/
def appendFill (fills : List (FillData K)) (maxMats fillId mat : ℕ) (vf geo : K) (s : ElemFill K) :
    Except FillError (ElemFill K) :=
  if fullElem maxMats s.num then .error .tooManyMaterials
  else if fills.length < s.num then .error .outOfBounds
  else
    let slot := (lastMatch fills mat s.num).getD s.num
    if maxMats ≤ slot then .error .outOfBounds
    else .ok (s.store slot fillId vf geo
      (if (lastMatch fills mat s.num).isSome then s.num else s.num + 1))

/-- `vfrac = fmin(1.0, fmax(0.0, vfrac))`, region_fill.cpp:395-396. -/
def clampFrac (x : K) : K := min 1 (max 0 x)

/-- `combined_volfrac < 1.0 - 1.0e-8` with `geo_volfrac = 1`, region_fill.cpp:399-402. -/
def isPartial (x : K) : Prop := 1 * clampFrac x < 1 - 1 / 10 ^ 8

instance (x : K) : Decidable (isPartial x) := by unfold isPartial; infer_instance

/-- Body of the element loop of `fill_regions` for one fill, region_fill.cpp:363-433. -/
def applyFill (fills : List (FillData K)) (maxMats e : ℕ) (s : ElemFill K) (fillId : ℕ) :
    Except FillError (ElemFill K) :=
  match fills[fillId]? with
  | none => .error .outOfBounds
  | some f =>
    if f.covers e then
      if isPartial (f.vfrac e) then
        appendFill fills maxMats fillId f.materialId (clampFrac (f.vfrac e)) 1 s
      else if maxMats = 0 then .error .outOfBounds
      else .ok (s.store 0 fillId 1 1 1)
    else .ok s

/-- What happens to one element during the loop over all fills, region_fill.cpp:312-437. -/
def fillElem (fills : List (FillData K)) (maxMats e : ℕ) : Except FillError (ElemFill K) :=
  (List.range fills.length).foldlM (applyFill fills maxMats e) ElemFill.init

/-- The parallel loop over the elements for one fill, executed in the order `order`. -/
def fillLoop (fills : List (FillData K)) (maxMats : ℕ) (order : List ℕ)
    (st : ℕ → ElemFill K) (fillId : ℕ) : Except FillError (ℕ → ElemFill K) :=
  order.foldlM (fun st e => do
    let s ← applyFill fills maxMats e (st e) fillId
    pure (Function.update st e s)) st

/-- `fill_regions`, region_fill.cpp:312-437: loop over the fills; `order i` is the order in
which the elements are visited for fill `i`. -/
def fillMesh (fills : List (FillData K)) (maxMats : ℕ) (order : ℕ → List ℕ) :
    Except FillError (ℕ → ElemFill K) :=
  (List.range fills.length).foldlM (fun st i => fillLoop fills maxMats (order i) st i)
    (fun _ => ElemFill.init)

/-- `elem_mat_id(elem_gid,bin)`, region_fill.cpp:448-455. -/
def matsOf (fills : List (FillData K)) (s : ElemFill K) : List (Option ℕ) :=
  (List.range s.num).map fun bin =>
    (s.fillIds bin).bind fun i => fills[i]?.map FillData.materialId

end

/-! ### Material index spaces -/

/-- The counting loop of `simulation_setup`, region_fill.cpp:140-160: number of (element, slot)
pairs that hold material `m`. `mats e` is the list of the materials of element `e`. -/
def countMat (mats : List (List ℕ)) (m : ℕ) : ℕ :=
  mats.foldl (fun sum ms => ms.foldl (fun sum a => if a = m then sum + 1 else sum) sum) 0

/-- The maps built by `material_state_setup` and its running counters. -/
structure MatMaps where
  saved : ℕ → ℕ
  elemInMat : Mem (ℕ × ℕ) ℕ
  matElemsInElem : Mem (ℕ × ℕ) ℕ

/-- Initial maps, region_fill.cpp:702-707. -/
def MatMaps.init : MatMaps := ⟨fun _ => 0, Mem.empty, Mem.empty⟩

/-- Body of the double loop, region_fill.cpp:735-745 and 846, for slot `a` of element `e`
holding material `m`. -/
def MatMaps.step (s : MatMaps) (v : ℕ × ℕ × ℕ) : MatMaps :=
  let (e, a, m) := v
  let sid := s.saved m
  { saved := Function.update s.saved m (sid + 1)
    elemInMat := s.elemInMat.write ((m, sid), e)
    matElemsInElem := s.matElemsInElem.write ((e, a), sid) }

/-- The (element, slot, material) triples in the order in which the serial loop of
`material_state_setup` (region_fill.cpp:731-736) visits them. -/
def visits (mats : List (List ℕ)) : List (ℕ × ℕ × ℕ) :=
  mats.zipIdx.flatMap fun w => w.1.zipIdx.map fun u => (w.2, u.2, u.1)

/-- `material_state_setup`, region_fill.cpp:731-849 (the maps). -/
def materialMaps (mats : List (List ℕ)) : MatMaps := (visits mats).foldl MatMaps.step MatMaps.init

/-- Writes of the mass of the material points, region_fill.cpp:752-774, for `ng` Gauss points per
element: the storage index is `mat_elem_sid + gauss_lid` and the value is
`den(elem_gid + gauss_lid, slot) * vol(elem_gid + gauss_lid) * volfrac(elem, slot) * geo(elem, slot)`. -/
def massWrites {K : Type} [Field K] (ng : ℕ) (den : ℕ → ℕ → K) (vol : ℕ → K)
    (vf geo : ℕ → ℕ → K) (maps : MatMaps) (mats : List (List ℕ)) : List ((ℕ × ℕ) × K) :=
  (visits mats).flatMap fun v =>
    match maps.matElemsInElem (v.1, v.2.1) with
    | none => []
    | some sid => (List.range ng).map fun g =>
        ((v.2.2, sid + g), den (v.1 + g) v.2.1 * (vol (v.1 + g) * vf v.1 v.2.1 * geo v.1 v.2.1))

/-! ### Shapes -/

/-- `region_fills(f_id).volume` with the data used for it, region_fill.cpp:1288-1385; `voxel`
and `vtu` are treated separately. -/
inductive Shape (K : Type)
  | global
  | box (x1 x2 y1 y2 z1 z2 : K)
  | cylinder (origin : Fin 3 → K) (r1 r2 z1 z2 : K)
  | sphere (origin : Fin 3 → K) (r1 r2 : K)
  | noVolume

/-- `fill_geometric_region`, region_fill.cpp:1273-1333 and 1372-1383. -/
noncomputable def fillShape (s : Shape ℝ) (c : Fin 3 → ℝ) : Prop :=
  match s with
  | .global => True
  | .box x1 x2 y1 y2 z1 z2 =>
      c 0 ≥ x1 ∧ c 0 ≤ x2 ∧ c 1 ≥ y1 ∧ c 1 ≤ y2 ∧ c 2 ≥ z1 ∧ c 2 ≤ z2
  | .cylinder o r1 r2 z1 z2 =>
      let dx := c 0 - o 0
      let dy := c 1 - o 1
      Real.sqrt (dx * dx + dy * dy) ≥ r1 ∧ Real.sqrt (dx * dx + dy * dy) ≤ r2 ∧ c 2 ≥ z1 ∧ c 2 ≤ z2
  | .sphere o r1 r2 =>
      let dx := c 0 - o 0
      let dy := c 1 - o 1
      let dz := c 2 - o 2
      Real.sqrt (dx * dx + dy * dy + dz * dz) ≥ r1 ∧ Real.sqrt (dx * dx + dy * dy + dz * dz) ≤ r2
  | .noVolume => False

/-- Element centre of a 3D mesh, region_fill.cpp:341-359. -/
def elemCentre {K : Type} [Field K] {n : ℕ} (X : Fin 3 → Fin n → K) (d : Fin 3) : K :=
  (∑ l, X d l) / (n : K)

/-! ### Voxel fills -/

/-- Conversion `(int)x` of C++ for values in range: truncation towards zero. -/
noncomputable def truncInt (x : ℝ) : ℤ := if 0 ≤ x then ⌊x⌋ else ⌈x⌉

/-- One direction of the grid read by `user_voxel_init`, region_fill.cpp:1130-1148: `n` points
with coordinates `pt`; spacing `(pt(n-2)-pt(0))/(n-1)`, origin `(pt(0)+pt(1))/2`. -/
structure VoxelAxis where
  n : ℕ
  pt : ℕ → ℝ

noncomputable def VoxelAxis.spacing (a : VoxelAxis) : ℝ :=
  (a.pt (a.n - 2) - a.pt 0) / ((a.n - 1 : ℕ) : ℝ)

noncomputable def VoxelAxis.orig (a : VoxelAxis) : ℝ := (1 / 2) * (a.pt 0 + a.pt 1)

/-- `i0`, region_fill.cpp:1341-1347. -/
noncomputable def VoxelAxis.index (a : VoxelAxis) (o x : ℝ) : ℤ :=
  truncInt ((x - a.orig - o) / a.spacing)

/-- The voxel branch of `fill_geometric_region`, region_fill.cpp:1335-1363: `none` if the element
is not filled because it lies outside, else the array index that is read. -/
noncomputable def voxelRead (ax ay az : VoxelAxis) (o c : Fin 3 → ℝ) (size : ℕ) : Option ℕ :=
  let i := ax.index (o 0) (c 0)
  let j := ay.index (o 1) (c 1)
  let k := az.index (o 2) (c 2)
  let id := getId i j k ((ax.n - 1 : ℕ) : ℤ) ((ay.n - 1 : ℕ) : ℤ)
  if id < size ∧ 0 ≤ id ∧ 0 ≤ i ∧ 0 ≤ j ∧ 0 ≤ k ∧ i < (ax.n - 1 : ℕ) ∧ j < (ay.n - 1 : ℕ) ∧
      k < (az.n - 1 : ℕ) then some id.toNat else none

/-- The reading loop of the voxel values, region_fill.cpp:1194-1213 (and 1017-1033 for the
coordinates): lines are consumed while fewer than `num - 1` values have been stored; the result
is the list of stored values (`none` if the file ends early; more than `num` values are stored
out of bounds). -/
def readValues {α : Type} (num : ℕ) : List (List α) → List α → Option (List α)
  | [], acc => if acc.length < num - 1 then none else some acc
  | l :: ls, acc => if acc.length < num - 1 then readValues num ls (acc ++ l) else some acc

end Fierro
