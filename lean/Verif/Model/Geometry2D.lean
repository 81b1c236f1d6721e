import Verif.Model.Geometry
import Mathlib.Analysis.Real.Sqrt

/-!
# Corner areas of 2D (r-z) elements (apps/multiphysics/src/common/src/geometry_new.cpp)

These use square roots, so the numbers are real numbers (exact arithmetic).
-/

namespace Fierro

/-- `heron`, geometry_new.cpp:531-552. -/
noncomputable def heron (x1 y1 x2 y2 x3 y3 : ℝ) : ℝ :=
  let a := Real.sqrt ((x2 - x1) * (x2 - x1) + (y2 - y1) * (y2 - y1))
  let b := Real.sqrt ((x3 - x2) * (x3 - x2) + (y3 - y2) * (y3 - y2))
  let c := Real.sqrt ((x3 - x1) * (x3 - x1) + (y3 - y1) * (y3 - y1))
  let S := (0 + a + b + c) * (1 / 2)
  Real.sqrt (S * (S - a) * (S - b) * (S - c))

/-- The element centre accumulated in `get_area_weights2D`, geometry_new.cpp:586-592. -/
noncomputable def quadCentre (x : Fin 4 → ℝ) : ℝ :=
  0 + 1 / 4 * x 0 + 1 / 4 * x 1 + 1 / 4 * x 2 + 1 / 4 * x 3

/-- `get_area_weights2D`, geometry_new.cpp:568-609. -/
noncomputable def areaWeights2D (x y : Fin 4 → ℝ) : Fin 4 → ℝ :=
  let rc := quadCentre y
  let zc := quadCentre x
  let A12 := heron (x 0) (y 0) zc rc (x 1) (y 1)
  let A23 := heron (x 1) (y 1) zc rc (x 2) (y 2)
  let A34 := heron (x 2) (y 2) zc rc (x 3) (y 3)
  let A41 := heron (x 3) (y 3) zc rc (x 0) (y 0)
  fun
  | 0 => (5 * A41 + 5 * A12 + A23 + A34) / 12
  | 1 => (A41 + 5 * A12 + 5 * A23 + A34) / 12
  | 2 => (A41 + A12 + 5 * A23 + 5 * A34) / 12
  | 3 => (5 * A41 + A12 + A23 + 5 * A34) / 12

end Fierro
