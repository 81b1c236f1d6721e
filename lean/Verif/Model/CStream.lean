import Mathlib.Data.Real.Basic
import Mathlib.Logic.Function.Basic
import Verif.Model.Memory

/-!
# Formatted input from a text file

`std::ifstream` with `operator>>` as the readers of `apps/micromechanics/EVPFFT/src` use it, and the macro `CLEAR_LINE`
(definitions.h:82).  The conversion of characters to a number is a parameter: it says what is stored and, when it
succeeds, which characters are left.  Reading sets `eofbit` when it meets the end of the file; since nothing is left
then, the next read fails either way, and the bit is not modelled separately.
-/

namespace Fierro

/-- A file being read: the characters left and whether `failbit` is still clear. -/
structure CStream where
  rest : List Char
  good : Bool

/-- `isspace` in the "C" locale. -/
def cSpace (c : Char) : Bool :=
  c == ' ' || c == '\t' || c == '\n' || c == '\r' || c == Char.ofNat 11 || c == Char.ofNat 12

/-- `stream >> v`: white space is skipped; at the end of the file, or when an earlier read failed, `v` keeps its value;
a failed conversion stores what the conversion yields. -/
def CStream.get {α : Type} (x : List Char → α × Option (List Char)) (s : CStream) (v : Option α) :
    Option α × CStream :=
  if s.good then
    match s.rest.dropWhile cSpace with
    | [] => (v, ⟨[], false⟩)
    | c :: cs =>
      match x (c :: cs) with
      | (a, some r) => (some a, ⟨r, true⟩)
      | (a, none) => (some a, ⟨[], false⟩)
  else (v, s)

/-- `CLEAR_LINE`, definitions.h:82: `ignore` up to and with the next line break. -/
def CStream.clearLine (s : CStream) : CStream :=
  if s.good then ⟨(s.rest.dropWhile (· ≠ '\n')).tail, true⟩ else s

/-- `std::getline`: `none` when nothing is left. -/
def CStream.getline (s : CStream) : Option (List Char) × CStream :=
  if s.good = true ∧ s.rest ≠ [] then
    (some (s.rest.takeWhile (· ≠ '\n')), ⟨(s.rest.dropWhile (· ≠ '\n')).tail, true⟩)
  else (none, ⟨s.rest, false⟩)

/-- The types of variables that are read. -/
inductive Kind where
  | int
  | real
  | word

/-- A value read. -/
inductive Val where
  | int (z : ℤ)
  | real (x : ℝ)
  | word (s : List Char)

/-- The conversions `operator>>` applies to characters for `int` and `double`. -/
structure NumConv where
  int : List Char → ℤ × Option (List Char)
  real : List Char → ℝ × Option (List Char)

/-- The conversion for a variable; a `std::string` takes everything up to white space. -/
def NumConv.ext (F : NumConv) : Kind → List Char → Val × Option (List Char)
  | .int, cs => ((.int (F.int cs).1), (F.int cs).2)
  | .real, cs => ((.real (F.real cs).1), (F.real cs).2)
  | .word, cs => (.word (cs.takeWhile fun c => !cSpace c), some (cs.dropWhile fun c => !cSpace c))

/-- A variable: its name and its subscripts. -/
abbrev Var := String × List ℕ

/-- One action of a reader. -/
inductive Ins where
  | get (k : Kind) (x : Var)
  | clear

/-- What the variables hold (`none`: not set) and the file. -/
structure Reader where
  env : Var → Option Val
  file : CStream

/-- One action. -/
def Ins.step (F : NumConv) (s : Reader) : Ins → Reader
  | .get k x =>
    let r := s.file.get (F.ext k) (s.env x)
    ⟨Function.update s.env x r.1, r.2⟩
  | .clear => ⟨s.env, s.file.clearLine⟩

/-- A sequence of actions. -/
def runIns (F : NumConv) (p : List Ins) (s : Reader) : Reader := p.foldl (Ins.step F) s

end Fierro
