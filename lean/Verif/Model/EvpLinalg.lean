import Mathlib.Algebra.Field.Defs
import Mathlib.Algebra.Order.Field.Basic
import Mathlib.Algebra.Order.AbsoluteValue.Basic
import Mathlib.Data.List.FinRange

/-!
# EVPFFT: small dense linear algebra

Models `apps/micromechanics/EVPFFT/src/math_functions.h` and `math_functions.cpp`.  Matrices are
functions of (row, column); the row-major pointer arithmetic `*(matrix + i*n + j)` is replaced by
this indexing.  Arithmetic is exact.
-/

namespace Fierro

/-- A dense matrix as stored at `double *matrix`. -/
abbrev Dense (n : ℕ) (K : Type) := Fin n → Fin n → K

section
variable {n : ℕ} {K : Type}

/-- `swap_rows`, math_functions.cpp:6-13. -/
def swapRows (M : Dense n K) (r1 r2 : Fin n) : Dense n K := fun r c =>
  if r = r1 then M r2 c else if r = r2 then M r1 c else M r c

variable [Field K]

/-- `scale_row`, math_functions.cpp:15-20. -/
def scaleRow (M : Dense n K) (row : Fin n) (factor : K) : Dense n K := fun r c =>
  if r = row then M r c * factor else M r c

/-- `add_rows`, math_functions.cpp:22-27. -/
def addRows (M : Dense n K) (src dest : Fin n) (factor : K) : Dense n K := fun r c =>
  if r = dest then M r c + M src c * factor else M r c

/-- The two matrices worked on by `invert_matrix`: the argument and the local `identity`. -/
structure GjState (n : ℕ) (K : Type) where
  mat : Dense n K
  inv : Dense n K

/-- Elimination of column `i` from row `j`, math_functions.h:58-63. -/
def gjElim (i : Fin n) (s : GjState n K) (j : Fin n) : GjState n K :=
  if j ≠ i then
    let factor := -s.mat j i
    { mat := addRows s.mat i j factor, inv := addRows s.inv i j factor }
  else s

/-- One turn of the elimination loop with a nonzero pivot, math_functions.h:54-64. -/
def gjStep (i : Fin n) (s : GjState n K) : GjState n K :=
  let pivot := s.mat i i
  (List.finRange n).foldl (gjElim i)
    { mat := scaleRow s.mat i (1 / pivot), inv := scaleRow s.inv i (1 / pivot) }

/-- What a call of `invert_matrix` leaves behind.  `finished` is not visible to the caller: it
records whether the elimination loop ran to its end. -/
structure InvertOut (n : ℕ) (K : Type) where
  errorFlag : ℕ
  mat : Dense n K
  finished : Bool

/-- The loop of `invert_matrix`, math_functions.h:48-73.  On a zero pivot the function returns at once
with `error_flag`, which is still `0`, and with the half reduced matrix in the caller's storage. -/
def gjLoop [DecidableEq K] : List (Fin n) → GjState n K → InvertOut n K
  | [], s => { errorFlag := 0, mat := s.inv, finished := true }
  | i :: is, s =>
    if s.mat i i = 0 then { errorFlag := 0, mat := s.mat, finished := false }
    else gjLoop is (gjStep i s)

/-- The identity written at math_functions.h:41-45. -/
def denseId : Dense n K := fun i j => if i = j then 1 else 0

/-- `invert_matrix<n>`, math_functions.h:29-76. -/
def invertMatrix [DecidableEq K] (M : Dense n K) : InvertOut n K :=
  gjLoop (List.finRange n) { mat := M, inv := denseId }

/-- The loop of `PowIntExpo`, math_functions.h:93-98 (binary exponentiation). -/
def powLoop (result base : K) (e : ℕ) : K :=
  if h : e = 0 then result
  else powLoop (if e % 2 = 1 then result * base else result) (base * base) (e / 2)
termination_by e
decreasing_by omega

/-- `PowIntExpo`, math_functions.h:81-101.  (`abs` of the most negative `int` is undefined in C++;
the exponents are unbounded integers here.) -/
def powIntExpo (base : K) (exponent : ℤ) : K :=
  if exponent = 0 then 1
  else if exponent = 1 then base
  else
    let result := powLoop 1 base exponent.natAbs
    if exponent < 0 then 1 / result else result

end

section solve
variable {n : ℕ} {K : Type} [Field K] [LinearOrder K]

/-- Matrix and right-hand side worked on by `solve_linear_system`. -/
structure SlsState (n : ℕ) (K : Type) where
  A : Dense n K
  b : Fin n → K

/-- Search of the pivot row among the rows below `i`, math_functions.cpp:38-43. -/
def slsPivotRow (A : Dense n K) (i : Fin n) : Fin n :=
  (List.finRange n).foldl
    (fun piv j => if i < j then (if |A j i| > |A piv i| then j else piv) else piv) i

/-- Row exchange, math_functions.cpp:46-53. -/
def slsSwap (s : SlsState n K) (i piv : Fin n) : SlsState n K :=
  if piv ≠ i then
    { A := swapRows s.A i piv
      b := fun r => if r = i then s.b piv else if r = piv then s.b i else s.b r }
  else s

/-- Division of row `i` from the diagonal on, math_functions.cpp:60-65. -/
def slsNormalise (s : SlsState n K) (i : Fin n) : SlsState n K :=
  let pivot := s.A i i
  { A := fun r c => if r = i ∧ i ≤ c then s.A r c / pivot else s.A r c
    b := fun r => if r = i then s.b r / pivot else s.b r }

/-- Elimination of column `i` from row `j`, from the diagonal on, math_functions.cpp:69-75. -/
def slsElim (i : Fin n) (s : SlsState n K) (j : Fin n) : SlsState n K :=
  if j ≠ i then
    let factor := s.A j i
    { A := fun r c => if r = j ∧ i ≤ c then s.A r c - factor * s.A i c else s.A r c
      b := fun r => if r = j then s.b r - factor * s.b i else s.b r }
  else s

/-- The loop of `solve_linear_system`, math_functions.cpp:36-80.  Returns the error flag and the
storage of the caller. -/
def slsLoop : List (Fin n) → SlsState n K → ℕ × SlsState n K
  | [], s => (0, s)
  | i :: is, s =>
    let t := slsSwap s i (slsPivotRow s.A i)
    if t.A i i = 0 then (1, t)
    else slsLoop is ((List.finRange n).foldl (slsElim i) (slsNormalise t i))

/-- `solve_linear_system`, math_functions.cpp:30-81: the solution is left in `b`. -/
def solveLinearSystem (A : Dense n K) (b : Fin n → K) : ℕ × SlsState n K :=
  slsLoop (List.finRange n) { A := A, b := b }

end solve

end Fierro
