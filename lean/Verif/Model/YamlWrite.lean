import Verif.Model.YamlNode

/-!
# The YAML writer

input/Yaml.cpp, `Serialize` and what it calls. The stream is the list of the characters written.
-/

namespace Fierro

/-- `SerializeConfig`, Yaml.hpp:613-635. -/
structure WriteConfig where
  spaceIndentation : ℕ
  scalarMaxLength : ℕ
  sequenceMapNewline : Bool
  mapScalarNewline : Bool

/-- The configuration used if none is given, Yaml.hpp:652-654. -/
def WriteConfig.default : WriteConfig := ⟨2, 64, false, false⟩

/-- The characters of `ShouldBeCited`, Yaml.cpp:4279. -/
def citedSigns : List Char := "\":{}[],&*#?|-<>=!%@".toList

/-- `ShouldBeCited`, Yaml.cpp:4277-4280. -/
def shouldBeCited (s : List Char) : Bool := s.any fun c => citedSigns.contains c

/-- One pass of `AddEscapeTokens`, Yaml.cpp:4301-4308: a backslash goes in front of every `tok`. -/
def addEscape (tok : Char) : List Char → List Char
  | [] => []
  | c :: s => if c = tok then '\\' :: c :: addEscape tok s else c :: addEscape tok s

/-- `AddEscapeTokens` with the tokens of the call, Yaml.cpp:4298-4310, 3787: first the backslashes,
then the double quotes. -/
def addEscapeTokens (s : List Char) : List Char := addEscape '"' (addEscape '\\' s)

/-- `LineFolding`, Yaml.cpp:3705-3738, from position `lastPos` on; `s` is what is left of the
text. -/
def lineFolding (maxLength : ℕ) (s : List Char) : List (List Char) :=
  if maxLength < s.length then
    match (s.drop maxLength).findIdx? (· == ' ') with
    | none => [s]
    | some p => s.take (maxLength + p) :: lineFolding maxLength (s.drop (maxLength + p + 1))
  else if s = [] then [] else [s]
  termination_by s.length
  decreasing_by
    rw [List.length_drop]
    omega

/-- The pieces that `getline` delivers from a text. -/
def splitLines : List Char → List (List Char)
  | [] => [[]]
  | c :: s =>
    if c = '\n' then [] :: splitLines s
    else
      match splitLines s with
      | [] => [[c]]
      | l :: ls => (c :: l) :: ls

/-- The scalar case of `SerializeLoop`, Yaml.cpp:3810-3871. -/
def writeScalar (cfg : WriteConfig) (value : List Char) (useLevel : Bool) (level : ℕ) : List Char :=
  if value = [] then ['\n']
  else
    let lines := splitLines value
    let endNewline := decide (lines.getLast? = some [])
    let lines := if endNewline then lines.dropLast else lines
    let oneLine : List Char :=
      (if useLevel then List.replicate level ' ' else []) ++
        (if shouldBeCited value then '"' :: (value ++ ['"', '\n']) else value ++ ['\n'])
    let block (sign : Char) (lines : List (List Char)) : List Char :=
      sign :: ((if endNewline then [] else ['-']) ++
        '\n' :: (lines.map fun l => List.replicate level ' ' ++ (l ++ ['\n'])).flatten)
    if 1 < lines.length then block '|' lines
    else
      let front := lines.headD []
      if cfg.scalarMaxLength = 0 ∨ front.length ≤ cfg.scalarMaxLength then oneLine
      else
        let folded := lineFolding cfg.scalarMaxLength front
        if folded.length = 1 then oneLine else block '>' folded

/-- Is the node a sequence, or a map that goes on a new line, Yaml.cpp:3770. -/
def YNode.breaksItem (cfg : WriteConfig) : YNode → Bool
  | .seq _ => true
  | .map _ => cfg.sequenceMapNewline
  | _ => false

/-- Is the node no scalar, or a scalar that goes on a new line, Yaml.cpp:3796. -/
def YNode.breaksEntry (cfg : WriteConfig) : YNode → Bool
  | .scalar _ => cfg.mapScalarNewline
  | _ => true

/-- Is the node without content. -/
def YNode.isNone : YNode → Bool
  | .none => true
  | _ => false

/-- The key as it is written, Yaml.cpp:3786-3793. -/
def writeKey (k : List Char) : List Char :=
  if shouldBeCited (addEscapeTokens k) then '"' :: (addEscapeTokens k ++ ['"']) else addEscapeTokens k

mutual

/-- `SerializeLoop`, Yaml.cpp:3756-3877. -/
def writeNode (cfg : WriteConfig) : YNode → Bool → ℕ → List Char
  | .none, _, _ => []
  | .scalar s, useLevel, level => writeScalar cfg s.toList useLevel level
  | .seq l, _, level => writeItems cfg l level
  | .map m, useLevel, level => writeEntries cfg m useLevel level

/-- The loop over the items of a sequence, Yaml.cpp:3763-3777. -/
def writeItems (cfg : WriteConfig) : List (ℕ × YNode) → ℕ → List Char
  | [], _ => []
  | (_, v) :: l, level =>
    (if v.isNone then []
      else List.replicate level ' ' ++ ('-' :: ' ' ::
        ((if v.breaksItem cfg then ['\n'] else []) ++
          writeNode cfg v (v.breaksItem cfg) (level + 2)))) ++ writeItems cfg l level

/-- The loop over the entries of a map, Yaml.cpp:3783-3805; after the first entry that is written
the level is always used. -/
def writeEntries (cfg : WriteConfig) : List (String × YNode) → Bool → ℕ → List Char
  | [], _, _ => []
  | (k, v) :: m, useLevel, level =>
    if v.isNone then writeEntries cfg m useLevel level
    else
      (if useLevel then List.replicate level ' ' else []) ++ (writeKey k.toList ++ (':' :: ' ' ::
        ((if v.breaksEntry cfg then ['\n'] else []) ++
          writeNode cfg v (v.breaksEntry cfg) (level + cfg.spaceIndentation)))) ++
        writeEntries cfg m true level

end

/-- `Serialize`, Yaml.cpp:3898-3905; `none` is the exception for too little indentation. -/
def serialize (cfg : WriteConfig) (root : YNode) : Option (List Char) :=
  if cfg.spaceIndentation < 2 then none else some (writeNode cfg root false 0)

/-- A map with a number and a text. -/
example : serialize .default (.map [("a", .scalar "1"), ("b c", .seq [(0, .scalar "-2")])]) =
    some "a: 1\nb c: \n  - \"-2\"\n".toList := by
  rfl

end Fierro
