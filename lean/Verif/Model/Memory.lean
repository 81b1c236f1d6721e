import Mathlib.Algebra.Ring.Nat
import Mathlib.Logic.Function.Basic
import Mathlib.Data.List.Basic

/-!
# Arrays filled by loops

A C++ array that is filled by assignments inside nested loops is modelled by a
partial map from index to value; `none` means "never written".  A nest of loops is the
list of assignments it performs, in program order.
-/

namespace Fierro

/-- Contents of an array: `none` for a cell that has not been written. -/
abbrev Mem (κ α : Type) := κ → Option α

/-- An array none of whose cells has been written. -/
def Mem.empty {κ α : Type} : Mem κ α := fun _ => none

/-- One assignment `a(k) = v`. -/
def Mem.write {κ α : Type} [DecidableEq κ] (m : Mem κ α) (w : κ × α) : Mem κ α :=
  Function.update m w.1 (some w.2)

/-- A sequence of assignments performed in program order. -/
def Mem.writeAll {κ α : Type} [DecidableEq κ] (ws : List (κ × α)) (m : Mem κ α) : Mem κ α :=
  ws.foldl Mem.write m

end Fierro
