import Mathlib.Algebra.Order.Field.Basic
import Mathlib.Data.List.Basic

/-!
# Tables

common/include/table.hpp, `Table_t::linear_interpolation` (and its host twin, which has the same
text).  A table is the list of its rows, of each of which the two columns used by the call are
kept: (independent, dependent).
-/

namespace Fierro

variable {K : Type} [Field K] [LinearOrder K] [IsStrictOrderedRing K]

/-- Value on the segment of rows `p`, `q`, table.hpp:193-202. -/
def segmentValue (x : K) (p q : K × K) : K :=
  if q.1 = p.1 then p.2
  else (1 - (x - p.1) / (q.1 - p.1)) * p.2 + (x - p.1) / (q.1 - p.1) * q.2

/-- The search loop, table.hpp:185-204; `none` is a read outside the table. -/
def tableLoop (rows : List (K × K)) (x : K) : List ℕ → Option K
  | [] => some 0
  | i :: is =>
    match rows[i]?, rows[i + 1]? with
    | some p, some q => if p.1 ≤ x ∧ x ≤ q.1 then some (segmentValue x p q) else tableLoop rows x is
    | _, _ => none

/-- `linear_interpolation`, table.hpp:168-208. -/
def tableLookup (rows : List (K × K)) (x : K) : Option K :=
  if rows.length = 0 then some 0
  else
    match rows[0]?, rows[rows.length - 1]? with
    | some first, some last =>
      if x ≤ first.1 then some first.2
      else if last.1 ≤ x then some last.2
      else tableLoop rows x (List.range (rows.length - 1))
    | _, _ => none

/-- The ordering check of `verify_data`, table.hpp:106-109. -/
def verifySorted (rows : List (K × K)) : Bool :=
  (List.range (rows.length - 1)).all fun row =>
    match rows[row]?, rows[row + 1]? with
    | some p, some q => decide (p.1 ≤ q.1)
    | _, _ => false

end Fierro
