import Verif.Model.Geometry
import Mathlib.Algebra.BigOperators.Fin
import Mathlib.Tactic.Ring
import Mathlib.Tactic.FinCases
import Mathlib.Tactic.FieldSimp
import Mathlib.Algebra.Order.Field.Rat
import Mathlib.Tactic.NormNum

/-!
# C06, C07 (geometry part), C08, C09: identities of the element geometry
-/

namespace Fierro

variable {K : Type} [Field K]

/-- **C06.** The nodal area vectors of any hexahedron add up to zero. -/
theorem C06_bmatrix_sum_zero (x y z : Fin 8 → K) (d : Fin 3) :
    ∑ n, bmatrix x y z n d = 0 := by
  fin_cases d <;>
    simp only [Fin.sum_univ_eight, bmatrix, bmatrixCol0, bmatrixCol1, bmatrixCol2] <;> ring

/-- Coordinate `e` of the nodes. -/
def coord3 (x y z : Fin 8 → K) : Fin 3 → Fin 8 → K
  | 0 => x
  | 1 => y
  | 2 => z

/-- **C07 (geometry).** `∑ₙ Bₙᵢ xₙⱼ = V δᵢⱼ` for any hexahedron, `V` the code's volume polynomial. -/
theorem C07_bmatrix_linear (x y z : Fin 8 → K) (i j : Fin 3) :
    ∑ n, bmatrix x y z n i * coord3 x y z j n = if i = j then hexVolRaw x y z else 0 := by
  fin_cases i <;> fin_cases j <;>
    simp only [Fin.sum_univ_eight, bmatrix, bmatrixCol0, bmatrixCol1, bmatrixCol2, coord3,
      hexVolRaw, Fin.isValue, Fin.mk_one, Fin.zero_eta, Fin.reduceFinMk, Fin.reduceEq, if_true,
      if_false] <;> ring

/-- A concrete skewed hexahedron: its volume is not zero. -/
example : hexVolRaw (K := ℚ) ![0, 2, 0, 2, 0, 2, 0, 3] ![0, 0, 1, 1, 0, 0, 1, 1]
    ![0, 0, 0, 0, 1, 1, 1, 2] ≠ 0 := by
  simp [hexVolRaw]; norm_num

/-! ### C08: the volume polynomial -/

/-- **C08.** Translation invariance. -/
theorem C08_vol_translate (x y z : Fin 8 → K) (a b c : K) :
    hexVolRaw (fun n => x n + a) (fun n => y n + b) (fun n => z n + c) = hexVolRaw x y z := by
  simp only [hexVolRaw]; ring

/-- **C08.** Scaling each axis scales the volume by the product (uniform scaling: cube;
reflection `sx = -1, sy = sz = 1`: sign change). -/
theorem C08_vol_scale (x y z : Fin 8 → K) (sx sy sz : K) :
    hexVolRaw (fun n => sx * x n) (fun n => sy * y n) (fun n => sz * z n)
      = sx * sy * sz * hexVolRaw x y z := by
  simp only [hexVolRaw]; ring

/-- Determinant of the 3×3 matrix with columns `u v w` (specification). -/
def det3 (u v w : Fin 3 → K) : K :=
  u 0 * (v 1 * w 2 - v 2 * w 1) - u 1 * (v 0 * w 2 - v 2 * w 0) + u 2 * (v 0 * w 1 - v 1 * w 0)

/-- Corner `n` of the parallelepiped with origin `o` and edges `u v w`, `i`-fastest order. -/
def parallelepiped (o u v w : Fin 3 → K) (d : Fin 3) : Fin 8 → K
  | 0 => o d
  | 1 => o d + u d
  | 2 => o d + v d
  | 3 => o d + u d + v d
  | 4 => o d + w d
  | 5 => o d + u d + w d
  | 6 => o d + v d + w d
  | 7 => o d + u d + v d + w d

/-- **C08.** For a parallelepiped the volume formula is the determinant of its edges
(for a box: the product of the edge lengths).  `12 ≠ 0` excludes small characteristic. -/
theorem C08_vol_parallelepiped (h12 : (12 : K) ≠ 0) (o u v w : Fin 3 → K) :
    hexVolRaw (parallelepiped o u v w 0) (parallelepiped o u v w 1) (parallelepiped o u v w 2)
      = det3 u v w := by
  simp only [hexVolRaw, parallelepiped, det3]
  field_simp
  ring

/-- **C08.** The volume transforms with the determinant under every linear map `A`
(rows `A 0, A 1, A 2`): rigid rotations leave it unchanged. -/
theorem C08_vol_linear_map (x y z : Fin 8 → K) (A : Fin 3 → Fin 3 → K) :
    hexVolRaw (fun n => A 0 0 * x n + A 0 1 * y n + A 0 2 * z n)
        (fun n => A 1 0 * x n + A 1 1 * y n + A 1 2 * z n)
        (fun n => A 2 0 * x n + A 2 1 * y n + A 2 2 * z n)
      = det3 (A 0) (A 1) (A 2) * hexVolRaw x y z := by
  simp only [hexVolRaw, det3]
  ring

/-- **C08.** The area vectors are the gradient of the volume: moving node `n` by `h` along
an axis changes the volume by exactly `h` times the entry of the B-matrix. -/
theorem C08_vol_gradient (x y z : Fin 8 → K) (n : Fin 8) (h : K) :
    hexVolRaw (Function.update x n (x n + h)) y z
        = hexVolRaw x y z + h * bmatrix x y z n 0 ∧
    hexVolRaw x (Function.update y n (y n + h)) z
        = hexVolRaw x y z + h * bmatrix x y z n 1 ∧
    hexVolRaw x y (Function.update z n (z n + h))
        = hexVolRaw x y z + h * bmatrix x y z n 2 := by
  fin_cases n <;> refine ⟨?_, ?_, ?_⟩ <;>
    simp only [hexVolRaw, bmatrix, bmatrixCol0, bmatrixCol1, bmatrixCol2, Function.update_apply,
      Fin.isValue, Fin.mk_one, Fin.zero_eta, Fin.reduceFinMk, Fin.reduceEq, if_true,
      if_false] <;> ring

/-- The unit cube has volume 1. -/
example : hexVolRaw (K := ℚ) ![0, 1, 0, 1, 0, 1, 0, 1] ![0, 0, 1, 1, 0, 0, 1, 1]
    ![0, 0, 0, 0, 1, 1, 1, 1] = 1 := by
  simp [hexVolRaw]; norm_num

end Fierro
