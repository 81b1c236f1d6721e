import Mathlib.Data.List.Basic
import Mathlib.Data.List.Infix

/-!
# String utilities and the table files read with them

common/include/string_utils.hpp and input/read_abaqus_files.cpp.  Strings are lists of characters.
-/

namespace Fierro

/-- `std::string::find`: index of the first occurrence of `d` in `s`. -/
def findSub (d : List Char) : List Char → Option ℕ
  | [] => if d = [] then some 0 else none
  | c :: s => if d.isPrefixOf (c :: s) then some 0 else (findSub d s).map (· + 1)

/-- The loop of `split`, string_utils.hpp:58-65, on the rest of the string from `pos_start` on.
`fuel` bounds the number of passes; `none` means that the loop has not ended yet. -/
def splitFuel (d : List Char) : ℕ → List Char → Option (List (List Char))
  | 0, _ => none
  | fuel + 1, s =>
    match findSub d s with
    | none => some [s]
    | some i => (splitFuel d fuel (s.drop (i + d.length))).map (s.take i :: ·)

/-- `split`, string_utils.hpp:53-67; a pass consumes at least one character unless the delimiter is
empty. `none`: the call does not return. -/
def split (s d : List Char) : Option (List (List Char)) := splitFuel d (s.length + 1) s

/-- `exact_array_values`, string_utils.hpp:81-100; `none` also for the undefined behaviour on
strings with fewer than two characters. -/
def exactArrayValues (s d : List Char) : Option (List (List Char)) :=
  if s.length < 2 then none else split (s.tail.dropLast) d

/-- The pieces that `extract_list` converts to numbers, string_utils.hpp:114-123. -/
def extractListPieces (s : List Char) : Option (List (List Char)) :=
  split (s.map fun c => if c = '[' ∨ c = ']' then ' ' else c) [',']

/-- `WHITESPACE`, string_utils.hpp:39: the blank only. -/
def isWs (c : Char) : Bool := c == ' ' 

/-- `ltrim`, string_utils.hpp:150-154. -/
def ltrim (s : List Char) : List Char :=
  match s.findIdx? (fun c => !isWs c) with
  | none => []
  | some i => s.drop i

/-- `find_last_not_of(WHITESPACE)`. -/
def findLastNotWs (s : List Char) : Option ℕ :=
  (s.reverse.findIdx? fun c => !isWs c).map fun i => s.length - 1 - i

/-- `rtrim`, string_utils.hpp:172-176. -/
def rtrim (s : List Char) : List Char :=
  match findLastNotWs s with
  | none => []
  | some e => s.take (e + 1)

/-- `trim`, string_utils.hpp:194-197. -/
def trim (s : List Char) : List Char := rtrim (ltrim s)

end Fierro
