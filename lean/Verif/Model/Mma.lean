import Mathlib.Algebra.BigOperators.Fin
import Mathlib.Data.Real.Basic

/-!
# The moving asymptotes of the previous version

Models `ObjectiveMMA` of `/repo/legacy/Fierro_V0/src/Parallel-Solvers/Optimization_Modules/MMA_Objective.hpp`.

Vectors are functions on the indices of the design variables, numbers are reals.  ROL is not in the repository; its
elementwise functions are taken to be these: `ThresholdUpper(0)` is the greater of zero and the entry,
`ThresholdLower(0)` the smaller, `DivideAndInvert` divides the second by the first.
-/

namespace Fierro

/-- The wrapped objective: its value and gradient. -/
structure MmaObjective (n : ℕ) where
  value : (Fin n → ℝ) → ℝ
  gradient : (Fin n → ℝ) → Fin n → ℝ

/-- `fval_`, `lv_`, `uv_`, `p_`, `q_`, MMA_Objective.hpp:107-120. -/
structure MmaState (n : ℕ) where
  fval : ℝ
  lv : Fin n → ℝ
  uv : Fin n → ℝ
  p : Fin n → ℝ
  q : Fin n → ℝ

/-- `ROL::UpdateType`. -/
inductive MmaUpdate where
  | initial | accept | revert | trial | temp
  deriving DecidableEq

/-- The update around a point, MMA_Objective.hpp:170-193 (the same lines follow for the other types). -/
noncomputable def mmaAround {n : ℕ} (obj : MmaObjective n) (lShift uShift x : Fin n → ℝ) : MmaState n :=
  let g := obj.gradient x
  let lv := fun i => x i + 1 * lShift i
  let uv := fun i => x i + 1 * uShift i
  { fval := obj.value x
    lv := lv
    uv := uv
    p := fun i => max 0 (g i) * (uv i - x i) ^ 2
    q := fun i => -(min 0 (g i) * (x i - lv i) ^ 2) }

/-- `update`, MMA_Objective.hpp:158-290. -/
noncomputable def mmaUpdate {n : ℕ} (obj : MmaObjective n) (lShift uShift : Fin n → ℝ) (st : MmaState n)
    (x : Fin n → ℝ) : MmaUpdate → MmaState n
  | .temp => st
  | _ => mmaAround obj lShift uShift x

/-- `value`, MMA_Objective.hpp:297-324. -/
noncomputable def mmaValue {n : ℕ} (st : MmaState n) (x : Fin n → ℝ) : ℝ :=
  st.fval + ∑ i, st.p i / (st.uv i - x i) + ∑ i, st.q i / (x i - st.lv i)

/-- `gradient`, MMA_Objective.hpp:331-352. -/
noncomputable def mmaGradient {n : ℕ} (st : MmaState n) (x : Fin n → ℝ) (i : Fin n) : ℝ :=
  st.p i / (st.uv i - x i) ^ 2 + -(st.q i / (x i - st.lv i) ^ 2)

/-- The entries that `hessVec` and `invHessVec` compute before the vector enters, MMA_Objective.hpp:365-379. -/
noncomputable def mmaDiagonal {n : ℕ} (st : MmaState n) (x : Fin n → ℝ) (i : Fin n) : ℝ :=
  2 * (st.p i / (st.uv i - x i) ^ 3) + 2 * (st.q i / (x i - st.lv i) ^ 3)

/-- `hessVec`, MMA_Objective.hpp:359-382. -/
noncomputable def mmaHessVec {n : ℕ} (st : MmaState n) (v x : Fin n → ℝ) (i : Fin n) : ℝ :=
  mmaDiagonal st x i * v i

open Classical in
/-- `invHessVec`, MMA_Objective.hpp:384-407; none is a division by zero, which is not a number or infinite. -/
noncomputable def mmaInvHessVec {n : ℕ} (st : MmaState n) (v x : Fin n → ℝ) (i : Fin n) : Option ℝ :=
  if mmaDiagonal st x i = 0 then none else some (v i / mmaDiagonal st x i)

end Fierro
