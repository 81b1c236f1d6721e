import Mathlib.Algebra.Order.Floor.Ring
import Mathlib.Analysis.Real.Sqrt
import Mathlib.Analysis.SpecialFunctions.Trigonometric.Basic

/-!
# Volumes and regions of the previous version

Models `Volume` of `/repo/legacy/Fierro_V0/src/Parallel-Solvers/Simulation_Parameters/Geometry.h`, lines 27-221, and
`Region` of `Region.h` beside it.

Numbers are reals.  The voxels of a volume and their sizes are given; the reading of the voxel file (lines 226-547) is
not modelled, except that its origin is the centre of the first voxel (line 455).  Integers do not overflow.
-/

namespace Fierro

/-- `VOLUME_TYPE`, Geometry.h:18-25. -/
inductive OldVolumeType where
  | global | box | cylinder | sphere | stl | vtk
  deriving DecidableEq

/-- The data of `Volume` that `contains` and `get_volume` use, Geometry.h:28-48. -/
structure OldVolume where
  type : OldVolumeType
  radius1 : ℝ
  radius2 : ℝ
  lo : Fin 3 → ℝ
  hi : Fin 3 → ℝ
  orig : Fin 3 → ℝ
  size : Fin 3 → ℝ
  num : Fin 3 → ℕ
  voxels : ℕ → Bool

/-- `(int)x`, towards zero. -/
noncomputable def intCast (x : ℝ) : ℤ := if 0 ≤ x then ⌊x⌋ else ⌈x⌉

/-- `get_id`, Geometry.h:218-221. -/
def voxelId (i j k : ℤ) (ni nj : ℕ) : ℤ := i + j * ni + k * ni * nj

open Classical in
/-- The value of the voxel looked up for a point, Geometry.h:97-119 and 130-152. -/
noncomputable def voxelAt (v : OldVolume) (x : Fin 3 → ℝ) : Bool :=
  let id := voxelId (intCast ((x 0 - v.orig 0) / v.size 0)) (intCast ((x 1 - v.orig 1) / v.size 1))
    (intCast ((x 2 - v.orig 2) / v.size 2)) (v.num 0) (v.num 1)
  if id < ((v.num 0 * v.num 1 * v.num 2 : ℕ) : ℤ) ∧ 0 ≤ id then v.voxels id.toNat else false

open Classical in
/-- `contains`, Geometry.h:63-166. -/
noncomputable def oldContains (v : OldVolume) (x : Fin 3 → ℝ) : Bool :=
  match v.type with
  | .global => true
  | .box => decide (v.lo 0 ≤ x 0 ∧ x 0 ≤ v.hi 0 ∧ v.lo 1 ≤ x 1 ∧ x 1 ≤ v.hi 1 ∧ v.lo 2 ≤ x 2 ∧ x 2 ≤ v.hi 2)
  | .cylinder =>
    let r := Real.sqrt (x 0 * x 0 + x 1 * x 1)
    decide (v.radius1 ≤ r ∧ r ≤ v.radius2)
  | .sphere =>
    let r := Real.sqrt ((x 0 - v.orig 0) * (x 0 - v.orig 0) + (x 1 - v.orig 1) * (x 1 - v.orig 1) +
      (x 2 - v.orig 2) * (x 2 - v.orig 2))
    decide (v.radius1 ≤ r ∧ r ≤ v.radius2)
  | .stl =>
    if ∃ c : Fin 3, v.num c * v.size c + v.orig c < x c ∨ x c < v.orig c then false else voxelAt v x
  | .vtk =>
    if ∃ c : Fin 3, v.num c * v.size c + (v.orig c - v.size c / 2) < x c ∨ x c < v.orig c - v.size c / 2 then false
    else voxelAt v x

/-- `get_volume`, Geometry.h:169-188; none where an assertion fails. -/
noncomputable def oldGetVolume (v : OldVolume) : Option ℝ :=
  match v.type with
  | .box => some ((v.hi 0 - v.lo 0) * (v.hi 1 - v.lo 1) * (v.hi 2 - v.lo 2))
  | .cylinder => some (Real.pi * (v.radius2 ^ 2 - v.radius1 ^ 2))
  | .sphere => some (4 / 3 * Real.pi * (v.radius2 ^ 3 - v.radius1 ^ 3))
  | _ => none

open Classical in
/-- `validate` of a volume, Geometry.h:190-205: whether it is accepted. -/
noncomputable def oldVolumeValid (v : OldVolume) : Bool :=
  if v.type = .cylinder ∨ v.type = .sphere then
    if v.radius2 < 0 then false else if v.radius2 ≤ v.radius1 then false else true
  else true

/-- The data of `Region` for the energy and the velocity, Region.h:21-37; `filled` are `sie`, `u`, `v`, `w` of
`mat_fill_t`. -/
structure OldRegion where
  volume : OldVolume
  den : ℝ
  sie : Option ℝ
  ie : Option ℝ
  vel : Fin 3 → Option ℝ
  fillSie : ℝ
  fillVel : Fin 3 → ℝ
  extensive : Bool

/-- What `derive` of a region does: a refusal, a failed assertion, or the region. -/
inductive RegionResult where
  | refused
  | asserted
  | ok (r : OldRegion)

open Classical in
/-- `derive` of a region, Region.h:46-69. -/
noncomputable def deriveRegion (r : OldRegion) : RegionResult :=
  if r.sie.isSome = r.ie.isSome then .refused
  else if r.den ≤ 0 then .refused
  else
    let vel := fun c => (r.vel c).getD 0
    match r.ie with
    | none => .ok { r with fillVel := vel, fillSie := r.sie.getD 0, ie := none }
    | some e =>
      match oldGetVolume r.volume with
      | none => .asserted
      | some vol =>
        .ok { r with
          fillVel := vel, extensive := true, sie := some (e / (r.den * vol)), fillSie := e / (r.den * vol), ie := none }

end Fierro
