import Mathlib.Algebra.Field.Basic
import Mathlib.Algebra.Order.Field.Basic
import Mathlib.Data.Fin.VecNotation

/-!
# Element geometry (apps/multiphysics/src/common/src/geometry_new.cpp)

Coordinates of the nodes of an element are functions of the local node id.
The formulas are transcribed literally; `fmax` is `max`; arithmetic is exact.
-/

namespace Fierro

section Field
variable {K : Type} [Field K]

/-- Column 0 of `get_bmatrix`, geometry_new.cpp:88-142. -/
def bmatrixCol0 (y z : Fin 8 → K) : Fin 8 → K
  | 0 => (y 1 * (-z 3 - z 2 + z 4 + z 5) + y 3 * (z 1 - z 2) + y 2 * (z 1 + z 3 - z 4 - z 6)
         + y 4 * (-z 1 + z 2 - z 5 + z 6) + y 5 * (-z 1 + z 4) + y 6 * (z 2 - z 4)) * (1 / 12)
  | 1 => (y 0 * (z 3 + z 2 - z 4 - z 5) + y 3 * (-z 0 - z 2 + z 5 + z 7) + y 2 * (-z 0 + z 3)
         + y 4 * (z 0 - z 5) + y 5 * (z 0 - z 3 + z 4 - z 7) + y 7 * (-z 3 + z 5)) * (1 / 12)
  | 2 => (y 0 * (-z 1 - z 3 + z 4 + z 6) + y 1 * (z 0 - z 3) + y 3 * (z 0 + z 1 - z 7 - z 6)
         + y 4 * (-z 0 + z 6) + y 7 * (z 3 - z 6) + y 6 * (-z 0 + z 3 - z 4 + z 7)) * (1 / 12)
  | 3 => (y 0 * (-z 1 + z 2) + y 1 * (z 0 + z 2 - z 5 - z 7) + y 2 * (-z 0 - z 1 + z 7 + z 6)
         + y 5 * (z 1 - z 7) + y 7 * (z 1 - z 2 + z 5 - z 6) + y 6 * (-z 2 + z 7)) * (1 / 12)
  | 4 => (y 0 * (z 1 - z 2 + z 5 - z 6) + y 1 * (-z 0 + z 5) + y 2 * (z 0 - z 6)
         + y 5 * (-z 0 - z 1 + z 7 + z 6) + y 7 * (-z 5 + z 6)
         + y 6 * (z 0 + z 2 - z 5 - z 7)) * (1 / 12)
  | 5 => (y 0 * (z 1 - z 4) + y 1 * (-z 0 + z 3 - z 4 + z 7) + y 3 * (-z 1 + z 7)
         + y 4 * (z 0 + z 1 - z 7 - z 6) + y 7 * (-z 1 - z 3 + z 4 + z 6)
         + y 6 * (z 4 - z 7)) * (1 / 12)
  | 6 => (y 0 * (-z 2 + z 4) + y 3 * (z 2 - z 7) + y 2 * (z 0 - z 3 + z 4 - z 7)
         + y 4 * (-z 0 - z 2 + z 5 + z 7) + y 5 * (-z 4 + z 7)
         + y 7 * (z 3 + z 2 - z 4 - z 5)) * (1 / 12)
  | 7 => (y 1 * (z 3 - z 5) + y 3 * (-z 1 + z 2 - z 5 + z 6) + y 2 * (-z 3 + z 6)
         + y 4 * (z 5 - z 6) + y 5 * (z 1 + z 3 - z 4 - z 6)
         + y 6 * (-z 3 - z 2 + z 4 + z 5)) * (1 / 12)

/-- Column 1 of `get_bmatrix`, geometry_new.cpp:144-198. -/
def bmatrixCol1 (z x : Fin 8 → K) : Fin 8 → K
  | 0 => (z 1 * (-x 3 - x 2 + x 4 + x 5) + z 3 * (x 1 - x 2) + z 2 * (x 1 + x 3 - x 4 - x 6)
         + z 4 * (-x 1 + x 2 - x 5 + x 6) + z 5 * (-x 1 + x 4) + z 6 * (x 2 - x 4)) * (1 / 12)
  | 1 => (z 0 * (x 3 + x 2 - x 4 - x 5) + z 3 * (-x 0 - x 2 + x 5 + x 7) + z 2 * (-x 0 + x 3)
         + z 4 * (x 0 - x 5) + z 5 * (x 0 - x 3 + x 4 - x 7) + z 7 * (-x 3 + x 5)) * (1 / 12)
  | 2 => (z 0 * (-x 1 - x 3 + x 4 + x 6) + z 1 * (x 0 - x 3) + z 3 * (x 0 + x 1 - x 7 - x 6)
         + z 4 * (-x 0 + x 6) + z 7 * (x 3 - x 6) + z 6 * (-x 0 + x 3 - x 4 + x 7)) * (1 / 12)
  | 3 => (z 0 * (-x 1 + x 2) + z 1 * (x 0 + x 2 - x 5 - x 7) + z 2 * (-x 0 - x 1 + x 7 + x 6)
         + z 5 * (x 1 - x 7) + z 7 * (x 1 - x 2 + x 5 - x 6) + z 6 * (-x 2 + x 7)) * (1 / 12)
  | 4 => (z 0 * (x 1 - x 2 + x 5 - x 6) + z 1 * (-x 0 + x 5) + z 2 * (x 0 - x 6)
         + z 5 * (-x 0 - x 1 + x 7 + x 6) + z 7 * (-x 5 + x 6)
         + z 6 * (x 0 + x 2 - x 5 - x 7)) * (1 / 12)
  | 5 => (z 0 * (x 1 - x 4) + z 1 * (-x 0 + x 3 - x 4 + x 7) + z 3 * (-x 1 + x 7)
         + z 4 * (x 0 + x 1 - x 7 - x 6) + z 7 * (-x 1 - x 3 + x 4 + x 6)
         + z 6 * (x 4 - x 7)) * (1 / 12)
  | 6 => (z 0 * (-x 2 + x 4) + z 3 * (x 2 - x 7) + z 2 * (x 0 - x 3 + x 4 - x 7)
         + z 4 * (-x 0 - x 2 + x 5 + x 7) + z 5 * (-x 4 + x 7)
         + z 7 * (x 3 + x 2 - x 4 - x 5)) * (1 / 12)
  | 7 => (z 1 * (x 3 - x 5) + z 3 * (-x 1 + x 2 - x 5 + x 6) + z 2 * (-x 3 + x 6)
         + z 4 * (x 5 - x 6) + z 5 * (x 1 + x 3 - x 4 - x 6)
         + z 6 * (-x 3 - x 2 + x 4 + x 5)) * (1 / 12)

/-- Column 2 of `get_bmatrix`, geometry_new.cpp:200-254. -/
def bmatrixCol2 (x y : Fin 8 → K) : Fin 8 → K
  | 0 => (x 1 * (-y 3 - y 2 + y 4 + y 5) + x 3 * (y 1 - y 2) + x 2 * (y 1 + y 3 - y 4 - y 6)
         + x 4 * (-y 1 + y 2 - y 5 + y 6) + x 5 * (-y 1 + y 4) + x 6 * (y 2 - y 4)) * (1 / 12)
  | 1 => (x 0 * (y 3 + y 2 - y 4 - y 5) + x 3 * (-y 0 - y 2 + y 5 + y 7) + x 2 * (-y 0 + y 3)
         + x 4 * (y 0 - y 5) + x 5 * (y 0 - y 3 + y 4 - y 7) + x 7 * (-y 3 + y 5)) * (1 / 12)
  | 2 => (x 0 * (-y 1 - y 3 + y 4 + y 6) + x 1 * (y 0 - y 3) + x 3 * (y 0 + y 1 - y 7 - y 6)
         + x 4 * (-y 0 + y 6) + x 7 * (y 3 - y 6) + x 6 * (-y 0 + y 3 - y 4 + y 7)) * (1 / 12)
  | 3 => (x 0 * (-y 1 + y 2) + x 1 * (y 0 + y 2 - y 5 - y 7) + x 2 * (-y 0 - y 1 + y 7 + y 6)
         + x 5 * (y 1 - y 7) + x 7 * (y 1 - y 2 + y 5 - y 6) + x 6 * (-y 2 + y 7)) * (1 / 12)
  | 4 => (x 0 * (y 1 - y 2 + y 5 - y 6) + x 1 * (-y 0 + y 5) + x 2 * (y 0 - y 6)
         + x 5 * (-y 0 - y 1 + y 7 + y 6) + x 7 * (-y 5 + y 6)
         + x 6 * (y 0 + y 2 - y 5 - y 7)) * (1 / 12)
  | 5 => (x 0 * (y 1 - y 4) + x 1 * (-y 0 + y 3 - y 4 + y 7) + x 3 * (-y 1 + y 7)
         + x 4 * (y 0 + y 1 - y 7 - y 6) + x 7 * (-y 1 - y 3 + y 4 + y 6)
         + x 6 * (y 4 - y 7)) * (1 / 12)
  | 6 => (x 0 * (-y 2 + y 4) + x 3 * (y 2 - y 7) + x 2 * (y 0 - y 3 + y 4 - y 7)
         + x 4 * (-y 0 - y 2 + y 5 + y 7) + x 5 * (-y 4 + y 7)
         + x 7 * (y 3 + y 2 - y 4 - y 5)) * (1 / 12)
  | 7 => (x 1 * (y 3 - y 5) + x 3 * (-y 1 + y 2 - y 5 + y 6) + x 2 * (-y 3 + y 6)
         + x 4 * (y 5 - y 6) + x 5 * (y 1 + y 3 - y 4 - y 6)
         + x 6 * (-y 3 - y 2 + y 4 + y 5)) * (1 / 12)

/-- `get_bmatrix`, geometry_new.cpp:62-255: entry `(node, dim)`. -/
def bmatrix (x y z : Fin 8 → K) (n : Fin 8) : Fin 3 → K
  | 0 => bmatrixCol0 y z n
  | 1 => bmatrixCol1 z x n
  | 2 => bmatrixCol2 x y n

/-- The polynomial of `get_vol_hex` before the floor is applied, geometry_new.cpp:342-352. -/
def hexVolRaw (x y z : Fin 8 → K) : K :=
  (x 1 * (y 2 * (-z 0 + z 3) + y 4 * (z 0 - z 5) + y 0 * (z 3 + z 2 - z 4 - z 5)
       + y 7 * (-z 3 + z 5) + y 5 * (z 0 - z 3 + z 4 - z 7) + y 3 * (-z 0 - z 2 + z 5 + z 7)) +
     x 6 * (y 0 * (-z 2 + z 4) + y 7 * (z 3 + z 2 - z 4 - z 5) + y 3 * (z 2 - z 7)
       + y 2 * (z 0 - z 3 + z 4 - z 7) + y 5 * (-z 4 + z 7) + y 4 * (-z 0 - z 2 + z 5 + z 7)) +
     x 2 * (y 1 * (z 0 - z 3) + y 6 * (-z 0 + z 3 - z 4 + z 7) + y 7 * (z 3 - z 6)
       + y 3 * (z 0 + z 1 - z 7 - z 6) + y 4 * (-z 0 + z 6) + y 0 * (-z 1 - z 3 + z 4 + z 6)) +
     x 5 * (y 0 * (z 1 - z 4) + y 6 * (z 4 - z 7) + y 3 * (-z 1 + z 7)
       + y 1 * (-z 0 + z 3 - z 4 + z 7) + y 4 * (z 0 + z 1 - z 7 - z 6)
       + y 7 * (-z 1 - z 3 + z 4 + z 6)) +
     x 7 * (y 1 * (z 3 - z 5) + y 6 * (-z 3 - z 2 + z 4 + z 5) + y 5 * (z 1 + z 3 - z 4 - z 6)
       + y 4 * (z 5 - z 6) + y 2 * (-z 3 + z 6) + y 3 * (-z 1 + z 2 - z 5 + z 6)) +
     x 0 * (y 3 * (z 1 - z 2) + y 6 * (z 2 - z 4) + y 5 * (-z 1 + z 4)
       + y 1 * (-z 3 - z 2 + z 4 + z 5) + y 2 * (z 1 + z 3 - z 4 - z 6)
       + y 4 * (-z 1 + z 2 - z 5 + z 6)) +
     x 3 * (y 0 * (-z 1 + z 2) + y 5 * (z 1 - z 7) + y 1 * (z 0 + z 2 - z 5 - z 7)
       + y 6 * (-z 2 + z 7) + y 7 * (z 1 - z 2 + z 5 - z 6) + y 2 * (-z 0 - z 1 + z 7 + z 6)) +
     x 4 * (y 1 * (-z 0 + z 5) + y 6 * (z 0 + z 2 - z 5 - z 7) + y 2 * (z 0 - z 6)
       + y 0 * (z 1 - z 2 + z 5 - z 6) + y 7 * (-z 5 + z 6)
       + y 5 * (-z 0 - z 1 + z 7 + z 6))) * (1 / 12)

/-- `get_area_quad`, geometry_new.cpp:483-512. -/
def areaQuad (x y : Fin 4 → K) : K :=
  (1 / 2) * ((x 0 - x 2) * (y 1 - y 3) + (x 3 - x 1) * (y 0 - y 2))

/-- `get_bmatrix2D`, geometry_new.cpp:407-466: entry `(node, dim)`. -/
def bmatrix2D (x y : Fin 4 → K) : Fin 4 → Fin 2 → K
  | 0, 0 => -(1 / 2) * (y 3 - y 1)
  | 1, 0 => -(1 / 2) * (y 0 - y 2)
  | 2, 0 => -(1 / 2) * (y 1 - y 3)
  | 3, 0 => -(1 / 2) * (y 2 - y 0)
  | 0, 1 => -(1 / 2) * (x 1 - x 3)
  | 1, 1 => -(1 / 2) * (x 2 - x 0)
  | 2, 1 => -(1 / 2) * (x 3 - x 1)
  | 3, 1 => -(1 / 2) * (x 0 - x 2)

/-- The expression of `get_vol_quad` before the floor, geometry_new.cpp:295-297. -/
def quadVolRaw (x y : Fin 4 → K) : K :=
  ((y 2 + y 3 + y 0) * ((y 2 - y 3) * (x 0 - x 3) - (y 0 - y 3) * (x 2 - x 3))
    + (y 0 + y 1 + y 2) * ((y 0 - y 1) * (x 2 - x 1) - (y 2 - y 1) * (x 0 - x 1))) / 6

end Field

section Ordered
variable {K : Type} [Field K] [LinearOrder K]

/-- The floor `1.0E-14` used by `get_vol_hex` and `get_vol_quad`, geometry_new.cpp:299, 355. -/
def volFloor : K := 1 / 10 ^ 14

/-- `get_vol_hex`, geometry_new.cpp:316-358. -/
def volHex (x y z : Fin 8 → K) : K := max (hexVolRaw x y z) volFloor

/-- `get_vol_quad`, geometry_new.cpp:270-301 (volume per radian of the r-z element). -/
def volQuad (x y : Fin 4 → K) : K := max (quadVolRaw x y) volFloor

end Ordered

end Fierro
