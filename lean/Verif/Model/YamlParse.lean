import Verif.Model.YamlNode

/-!
# The YAML parser

input/Yaml.cpp, class `ParseImp` and the quote helpers. Text is a list of characters.
-/

namespace Fierro

/-- The exceptions of the parser, Yaml.cpp:45-60. -/
inductive YErr
  | invalidCharacter | tabInOffset | keyIncorrect | keyMissing | blockSequenceNotAllowed
  | invalidBlockScalar | unexpectedDocumentEnd | incorrectOffset | diffEntryNotAllowed | invalidQuote
  /-- not an exception: the recursion of the model was cut off -/
  | outOfFuel
  deriving DecidableEq, Repr

/-- `find_first_of(token, pos)`. -/
def findFrom (tok : Char) (pos : ℕ) (s : List Char) : Option ℕ :=
  ((s.drop pos).findIdx? (· == tok)).map (· + pos)

/-- Positions of the double quotes that are not preceded by a backslash, see `FindQuote`,
Yaml.cpp:4015-4051. -/
def quotePosFrom : Option Char → ℕ → List Char → List ℕ
  | _, _, [] => []
  | prev, i, c :: s =>
    if c = '"' ∧ prev ≠ some '\\' then i :: quotePosFrom (some c) (i + 1) s
    else quotePosFrom (some c) (i + 1) s

/-- Start and end positions of the quoted stretches, Yaml.cpp:4078-4090. -/
def quotePairs : List ℕ → List (ℕ × ℕ)
  | a :: b :: l => (a, b) :: quotePairs l
  | _ => []

/-- The loop of `FindNotCited`, Yaml.cpp:4096-4121: position of the token and number of quoted
stretches passed. -/
def notCitedLoop (tok : Char) (s : List Char) : List (ℕ × ℕ) → ℕ → ℕ → Option (ℕ × ℕ)
  | [], pos, pre => some (pos, pre)
  | (a, b) :: qs, pos, pre =>
    if pos < a then some (pos, pre)
    else if pos ≤ b then
      if pos + 1 = s.length then none
      else
        match findFrom tok (pos + 1) s with
        | none => none
        | some p => notCitedLoop tok s qs p (pre + 1)
    else notCitedLoop tok s qs pos (pre + 1)

/-- `FindNotCited`, Yaml.cpp:4069-4122. -/
def findNotCited (s : List Char) (tok : Char) : Option (ℕ × ℕ) :=
  match findFrom tok 0 s with
  | none => none
  | some pos => notCitedLoop tok s (quotePairs (quotePosFrom none 0 s)) pos 0

/-- `ValidateQuote`, Yaml.cpp:4178-4214: the loop over the quote characters from the search position
on, given by their positions. -/
def validateQuoteLoop (s : List Char) (token : Option Char) : List ℕ → Bool
  | [] => token == none
  | p :: ps =>
    if token = none ∧ s[p - 1]? ≠ some '\\' then false
    else if s[p]? = token ∧ s[p - 1]? ≠ some '\\' then p + 1 == s.length
    else validateQuoteLoop s token ps

/-- Positions at or after `start` of quote characters of either kind. -/
def anyQuotePos (s : List Char) (start : ℕ) : List ℕ :=
  (List.range s.length).filter fun i => decide (start ≤ i) && (s[i]? == some '"' || s[i]? == some '\'')

/-- `ValidateQuote`, Yaml.cpp:4162-4215. -/
def validateQuote : List Char → Bool
  | [] => true
  | c :: s =>
    if c = '"' ∨ c = '\'' then
      if s = [] then false else validateQuoteLoop (c :: s) (some c) (anyQuotePos (c :: s) 2)
    else validateQuoteLoop (c :: s) none (anyQuotePos (c :: s) 1)

/-- `RemoveAllEscapeTokens`, Yaml.cpp:4327-4340: a backslash goes and the next character stays. -/
def removeEscapes : List Char → List Char
  | '\\' :: c :: s => c :: removeEscapes s
  | c :: s => c :: removeEscapes s
  | [] => []

/-- Blank or tab. -/
def isBlank (c : Char) : Bool := c == ' ' || c == '\t'

/-- `IsSequenceStart`, Yaml.cpp:3498-3509. -/
def isSequenceStart : List Char → Bool
  | [] => false
  | [c] => c == '-'
  | c :: d :: _ => c == '-' && d == ' '

/-- `IsBlockScalar`, Yaml.cpp:3527-3561. -/
def isBlockScalar : List Char → Except YErr Bool
  | [] => .ok false
  | c :: s =>
    if c = '|' ∨ c = '>' then
      match s with
      | [] => .ok true
      | d :: _ => if d = '-' ∨ isBlank d then .ok true else .error .invalidBlockScalar
    else .ok false

/-! ## `ReadLines` -/

/-- A line: offset and data. -/
abbrev YLine := ℕ × List Char

/-- What happens to one line that is not a document marker, Yaml.cpp:2831-2884: the comment goes,
a trailing return goes, the characters are checked, the blanks in front are counted and removed. -/
def readLine (raw : List Char) : Except YErr YLine :=
  let line := match findNotCited raw '#' with
    | none => raw
    | some (pos, _) => raw.take pos
  let line := if line.getLast? = some '\r' then line.dropLast else line
  if line.any (fun c => c != '\t' && (decide (c.toNat < 32) || decide (125 < c.toNat))) then
    .error .invalidCharacter
  else
    match line.findIdx? (fun c => !isBlank c) with
    | none => .ok (0, [])
    | some start =>
      if (line.take start).contains '\t' then .error .tabInOffset
      else .ok (start, line.drop start)

/-- The line as compared with the document markers, Yaml.cpp:2832-2835. -/
def markerText (raw : List Char) : List Char :=
  match findNotCited raw '#' with
  | none => raw
  | some (pos, _) => raw.take pos

/-- `ReadLines`, Yaml.cpp:2815-2899. `raws` are the lines that `getline` delivers (the pieces
between line feeds), `acc` the lines collected so far. -/
def readLines : List (List Char) → Bool → Bool → List YLine → Except YErr (List YLine)
  | [], _, _, acc => .ok acc
  | raw :: raws, started, found, acc =>
    if started = false ∧ markerText raw = "---".toList then readLines raws true found []
    else if markerText raw = "...".toList ∨ markerText raw = "---".toList then .ok acc
    else
      match readLine raw with
      | .error e => .error e
      | .ok l =>
        if found = false ∧ l.2 = [] then readLines raws started found acc
        else readLines raws started true (acc ++ [l])

/-! ## `PostProcessLines` -/

/-- `Node::eType` of a line. -/
inductive YType
  | seq | map | scalar
  deriving DecidableEq, Repr

/-- A line after post-processing. -/
structure TLine where
  offset : ℕ
  type : YType
  data : List Char
  deriving DecidableEq, Repr

/-- `ClearTrailingEmptyLines`, Yaml.cpp:3467-3480. -/
def dropEmpty (ls : List YLine) : List YLine := ls.dropWhile fun l => l.2.isEmpty

/-- `find_first_not_of(" \t", pos)`. -/
def findNotBlank (pos : ℕ) (s : List Char) : Option ℕ :=
  ((s.drop pos).findIdx? fun c => !isBlank c).map (· + pos)

/-- `resize(find_last_not_of(" \t") + 1)`; `none` if there is only blank space. -/
def cutBlank (s : List Char) : Option (List Char) :=
  if s.all isBlank then none else some (s.reverse.dropWhile isBlank).reverse

/-- `PostProcessScalarLine`, Yaml.cpp:3069-3100: the line and the continuation lines (deeper than the
line before, or empty but not at the end) become scalar lines. Result: the scalar lines and what is
left. -/
def ppScalar (prev : Option ℕ) (l : YLine) (rest : List YLine) : List TLine × List YLine :=
  let parent := prev.getD l.1
  let more := rest.takeWhile fun x => x.2.isEmpty || decide (parent < x.1)
  let kept := (more.reverse.dropWhile fun x => x.2.isEmpty).reverse
  ((l :: kept).map fun x => ⟨x.1, .scalar, x.2⟩,
    rest.dropWhile fun x => x.2.isEmpty || decide (parent < x.1))

/-- `PostProcessMappingLine` and, if it says so, `PostProcessScalarLine` on the line it leaves,
Yaml.cpp:2983-3060, 2915-2920. Result: the lines made and what is left. -/
def ppMapOrScalar (prev : Option ℕ) (l : YLine) (rest : List YLine) :
    Except YErr (List TLine × List YLine) :=
  match findNotCited l.2 ':' with
  | none => .ok (ppScalar prev l rest)
  | some (pos, preQuotes) =>
    if 1 < preQuotes then .error .keyIncorrect
    else
      match cutBlank (l.2.take pos) with
      | none => .error .keyMissing
      | some key =>
        if preQuotes = 1 ∧ ¬ (key.head? = some '"' ∧ key.getLast? = some '"') then
          .error .keyIncorrect
        else
          let key := removeEscapes (if preQuotes = 1 then (key.drop 1).take (key.length - 2) else key)
          let mline : TLine := ⟨l.1, .map, key⟩
          match findNotBlank (pos + 1) l.2 with
          | none =>
            match dropEmpty rest with
            | [] =>
              let r := ppScalar (some l.1) (pos + 2, []) []
              .ok (mline :: r.1, r.2)
            | x :: rest' =>
              if l.1 < x.1 then .ok ([mline], x :: rest')
              else
                let r := ppScalar (some l.1) (pos + 2, []) (x :: rest')
                .ok (mline :: r.1, r.2)
          | some start =>
            let value := l.2.drop start
            if isSequenceStart value then .error .blockSequenceNotAllowed
            else
              match isBlockScalar value with
              | .error e => .error e
              | .ok blk =>
                let r := ppScalar (some l.1) (if blk then l.1 else start + l.1, value)
                  (dropEmpty rest)
                .ok (mline :: r.1, r.2)

/-- One pass of the loop of `PostProcessLines`, Yaml.cpp:2908-2921, with `PostProcessSequenceLine`,
2950-2974. -/
def ppStep (prev : Option ℕ) (l : YLine) (rest : List YLine) :
    Except YErr (List TLine × List YLine) :=
  if isSequenceStart l.2 then
    match findNotBlank 1 l.2 with
    | none => .ok ([⟨l.1, .seq, l.2⟩], dropEmpty rest)
    | some v =>
      match ppMapOrScalar (some l.1) (l.1 + v, l.2.drop v) (dropEmpty rest) with
      | .error e => .error e
      | .ok (ts, rest') => .ok (⟨l.1, .seq, []⟩ :: ts, rest')
  else ppMapOrScalar prev l rest

/-- The loop of `PostProcessLines`. -/
def ppLoop : ℕ → Option ℕ → List YLine → Except YErr (List TLine)
  | _, _, [] => .ok []
  | 0, _, _ :: _ => .error .outOfFuel
  | fuel + 1, prev, l :: rest =>
    match ppStep prev l rest with
    | .error e => .error e
    | .ok (ts, rest') =>
      match ppLoop fuel ((ts.getLast?.map TLine.offset).or prev) rest' with
      | .error e => .error e
      | .ok ts' => .ok (ts ++ ts')

/-- `PostProcessLines`, Yaml.cpp:2906-2941. -/
def postProcess (ls : List YLine) : Except YErr (List TLine) :=
  match ppLoop ls.length none ls with
  | .error e => .error e
  | .ok ts =>
    match ts.getLast? with
    | none => .ok ts
    | some t => if t.type = .scalar then .ok ts else .error .unexpectedDocumentEnd

/-! ## `ParseRoot` and the recursive descent -/

/-- The lines of a plain scalar, Yaml.cpp:3267-3290: the text and what is left. -/
def scalarText (parent : ℕ) : List TLine → List Char → Except YErr (List Char × List TLine)
  | [], acc => .ok (acc, [])
  | t :: ts, acc =>
    if parent ≠ 0 ∧ t.offset ≤ parent then .error .incorrectOffset
    else
      let acc := acc ++ (cutBlank t.data).getD ['\n']
      match ts with
      | [] => .ok (acc, [])
      | t' :: ts' => if t'.type = .scalar then scalarText parent (t' :: ts') (acc ++ [' '])
        else .ok (acc, t' :: ts')

/-- The lines of a block scalar, Yaml.cpp:3304-3355: the text and what is left. `folded`: the sign is
`>`; `newline`: a line feed goes after the last line; `off`: the offset of the first line; `added`:
the last character so far is a blank put there by the fold. -/
def blockText (folded newline : Bool) (off : ℕ) :
    List TLine → List Char → Bool → Except YErr (List Char × List TLine)
  | [], acc, _ => .ok (acc, [])
  | t :: ts, acc, added =>
    if t.type ≠ .scalar then .ok (acc, t :: ts)
    else if t.data.all isBlank then
      blockText folded newline off ts ((if added then acc.dropLast else acc) ++ ['\n']) false
    else if t.offset < off then .error .incorrectOffset
    else
      let deeper : Bool := decide (off ≠ t.offset) && folded
      let acc := if deeper then (if added then acc.dropLast else acc) ++ ['\n'] else acc
      let added := if deeper then false else added
      let acc := acc ++ List.replicate (t.offset - off) ' ' ++ t.data
      match ts with
      | [] => .ok (if newline then acc ++ ['\n'] else acc, [])
      | t' :: ts' =>
        if t'.type ≠ .scalar then .ok (if newline then acc ++ ['\n'] else acc, t' :: ts')
        else if folded then blockText folded newline off (t' :: ts') (acc ++ [' ']) true
        else blockText folded newline off (t' :: ts') (acc ++ ['\n']) added

/-- The quotes around a text go, Yaml.cpp:3358-3360. -/
def stripQuotes (data : List Char) : List Char :=
  if data.head? = some '"' ∨ data.head? = some '\'' then (data.drop 1).take (data.length - 2)
  else data

/-- `ParseScalar`, Yaml.cpp:3236-3364; `parent` is the offset of the line before (0 if there is
none). A block scalar without lines leaves the node as it is. -/
def parseScalar (node : YNode) (parent : ℕ) (ts : List TLine) : Except YErr (YNode × List TLine) :=
  match ts with
  | [] => .ok (.scalar "", [])
  | t :: ts' =>
    match isBlockScalar t.data with
    | .error e => .error e
    | .ok true =>
      match ts' with
      | [] => .ok (node, [])
      | b :: bs =>
        if b.type ≠ .scalar then .ok (node, b :: bs)
        else if b.offset ≤ parent then .error .incorrectOffset
        else
          match blockText (t.data.head? == some '>') (t.data.length == 1) b.offset (b :: bs) []
            false with
          | .error e => .error e
          | .ok (data, rest) => .ok (.scalar (String.ofList (stripQuotes data)), rest)
    | .ok false =>
      match scalarText parent (t :: ts') [] with
      | .error e => .error e
      | .ok (data, rest) =>
        if validateQuote data = false then .error .invalidQuote
        else .ok (.scalar (String.ofList (stripQuotes data)), rest)

mutual

/-- The `switch` on the type of the line, Yaml.cpp:3117-3129, 3156-3168, 3204-3216. The node is
handed on so that what is already in it stays. -/
def parseValue : ℕ → YNode → ℕ → List TLine → Except YErr (YNode × List TLine)
  | 0, _, _, _ => .error .outOfFuel
  | _ + 1, node, _, [] => .ok (node, [])
  | fuel + 1, node, parent, t :: ts =>
    match t.type with
    | .seq => parseSeq fuel node (t :: ts)
    | .map => parseMap fuel node (t :: ts)
    | .scalar => parseScalar node parent (t :: ts)

/-- `ParseSequence`, Yaml.cpp:3140-3182. -/
def parseSeq : ℕ → YNode → List TLine → Except YErr (YNode × List TLine)
  | 0, _, _ => .error .outOfFuel
  | _ + 1, node, [] => .ok (node, [])
  | _ + 1, _, [_] => .error .unexpectedDocumentEnd
  | fuel + 1, node, t :: t' :: ts =>
    match parseValue fuel .none t.offset (t' :: ts) with
    | .error e => .error e
    | .ok (child, rest) =>
      let node := YNode.seq (seqPushBack node.initSeq child)
      match rest with
      | [] => .ok (node, [])
      | n :: rest =>
        if n.offset < t.offset then .ok (node, n :: rest)
        else if t.offset < n.offset then .error .incorrectOffset
        else if n.type ≠ .seq then .error .diffEntryNotAllowed
        else parseSeq fuel node (n :: rest)

/-- `ParseMap`, Yaml.cpp:3188-3230. -/
def parseMap : ℕ → YNode → List TLine → Except YErr (YNode × List TLine)
  | 0, _, _ => .error .outOfFuel
  | _ + 1, node, [] => .ok (node, [])
  | _ + 1, _, [_] => .error .unexpectedDocumentEnd
  | fuel + 1, node, t :: t' :: ts =>
    let key := String.ofList t.data
    match parseValue fuel ((smFind key node.initMap).getD .none) t.offset (t' :: ts) with
    | .error e => .error e
    | .ok (child, rest) =>
      let node := YNode.map (smAssign key child node.initMap)
      match rest with
      | [] => .ok (node, [])
      | n :: rest =>
        if n.offset < t.offset then .ok (node, n :: rest)
        else if t.offset < n.offset then .error .incorrectOffset
        else if n.type ≠ t.type then .error .diffEntryNotAllowed
        else parseMap fuel node (n :: rest)

end

/-- `ParseRoot`, Yaml.cpp:3106-3134. -/
def parseRoot (ts : List TLine) : Except YErr YNode :=
  match parseValue (2 * ts.length + 2) .none 0 ts with
  | .error e => .error e
  | .ok (node, []) => .ok node
  | .ok (_, _ :: _) => .error .unexpectedDocumentEnd

/-- `ParseImp::Parse`, Yaml.cpp:2780-2795, from the lines of the file. -/
def parseYaml (raws : List (List Char)) : Except YErr YNode :=
  match readLines raws false false [] with
  | .error e => .error e
  | .ok ls =>
    match postProcess ls with
    | .error e => .error e
    | .ok ts => parseRoot ts

end Fierro
