import Mathlib.Analysis.SpecialFunctions.Trigonometric.Inverse
import Mathlib.LinearAlgebra.Matrix.Notation

/-!
# The largest eigenvalue of a symmetric tensor

SGH_solver_3D/src/sgh_execute.cpp, `max_Eigen3D`.
-/

namespace Fierro

/-- The expansion used for both determinants, sgh_execute.cpp:696-698, 731-733. -/
def det3x3 (T : Matrix (Fin 3) (Fin 3) ℝ) : ℝ :=
  T 0 0 * (T 1 1 * T 2 2 - T 1 2 * T 2 1) - T 0 1 * (T 1 0 * T 2 2 - T 1 2 * T 2 0)
    + T 0 2 * (T 1 0 * T 2 1 - T 1 1 * T 2 0)

/-- A third of the trace, sgh_execute.cpp:695, 699. -/
noncomputable def meanDiag (T : Matrix (Fin 3) (Fin 3) ℝ) : ℝ := (T 0 0 + T 1 1 + T 2 2) / 3

/-- `p`, sgh_execute.cpp:700-704. -/
noncomputable def eigenScale (T : Matrix (Fin 3) (Fin 3) ℝ) : ℝ :=
  √(((T 0 0 - meanDiag T) ^ 2 + (T 1 1 - meanDiag T) ^ 2 + (T 2 2 - meanDiag T) ^ 2
    + 2 * (T 0 1 ^ 2 + T 0 2 ^ 2 + T 1 2 ^ 2)) / 6)

/-- `B`, sgh_execute.cpp:715-727. -/
noncomputable def eigenScaled (T : Matrix (Fin 3) (Fin 3) ℝ) : Matrix (Fin 3) (Fin 3) ℝ :=
  fun i j => if i = j then 1 / eigenScale T * (T i i - meanDiag T) else 1 / eigenScale T * T i j

open Classical in
/-- `phi`, sgh_execute.cpp:729-746; the literal for the circle number stands for `π`. -/
noncomputable def eigenAngle (T : Matrix (Fin 3) (Fin 3) ℝ) : ℝ :=
  let r := det3x3 (eigenScaled T) / 2
  if r ≤ -1 then Real.pi / 3 else if 1 ≤ r then 0 else Real.arccos r / 3

open Classical in
/-- `max_Eigen3D`, sgh_execute.cpp:689-755; `none`: the result is not a number (the division by `p`
gives an infinite value times zero). -/
noncomputable def maxEigen3D (T : Matrix (Fin 3) (Fin 3) ℝ) : Option ℝ :=
  if det3x3 T = 0 then some 0
  else if eigenScale T = 0 then none
  else
    let tr := meanDiag T
    let p := eigenScale T
    let phi := eigenAngle T
    let e1 := tr + 2 * p * Real.cos phi
    let e2 := tr + 2 * p * Real.cos (phi + 2 * Real.pi / 3)
    let e3 := 3 * tr - (e1 + e2)
    some (max (max |e1| |e2|) |e3|)

end Fierro
