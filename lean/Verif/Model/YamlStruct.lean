import Verif.Model.YamlNode
import Verif.Model.CStream
import Mathlib.Data.List.DropRight
import Mathlib.Data.List.Sort

/-!
# Loading structures from YAML

legacy/Fierro_V0/src/Yaml-Serializable, the headers configuration-validation.h, yaml-serializable.h,
yaml-serializable-base.h, yaml-serializable-containers.h, serializable-struct.h, serializable-enum.h,
yaml-post-processing.h and type-discrimination.h.  The node classes of src/Yaml.cpp there have the code of those in
apps/multiphysics/src/input/Yaml.cpp, so `YNode` is used.

Simplified: copies of nodes are the same node (`CopyNode`, Yaml.cpp:2706-2734, makes an empty node of an empty list
or map); messages are kept as data; after an exception neither object nor node is looked at.
-/

namespace Fierro

/-- The messages of the exceptions. -/
inductive CfgMsg
  | notAList (s : String)
  | wrongLength (expected found : ℕ)
  | missing (key : String)
  | unexpected (key : String)
  | dictionary
  | list
  | notAllLoaded
  | notAllowed (s : String)
  | noClass (tag : ℕ)
  | twoClasses (tag : ℕ)
  | user (s : String)
  deriving DecidableEq, Repr

/-- `ConfigurationException`, configuration-validation.h:50-63: where (empty: not said) and what. -/
structure CfgErr where
  field : String
  msg : CfgMsg
  deriving DecidableEq, Repr

/-- `ConfigurationException(err, field_name)`, configuration-validation.h:59-61. -/
def CfgErr.under (e : CfgErr) (k : String) : CfgErr := ⟨k ++ (if e.field = "" then "" else "." ++ e.field), e.msg⟩

/-- What a step ends with. -/
abbrev Cfg := Except CfgErr

/-- `Node::IsNone`, Yaml.cpp:984-987. -/
def YNode.noValue : YNode → Bool
  | .none => true
  | _ => false

/-- `node[key]` on its own, Yaml.cpp:1048-1052: the node referred to. -/
def YNode.child (t : YNode) (k : String) : YNode := t.ref [.name k]

/-- The specialisation of `serialize` and `deserialize` that the compiler chooses for a type: `serialize(v, node)` gives
the node afterwards; `deserialize(v, node, raw)` the value and the node afterwards. -/
structure Codec (α : Type) where
  ser : α → YNode → YNode
  des : Bool → α → YNode → Cfg (α × YNode)

/-- `Impl<T>` of numbers and strings, yaml-serializable-containers.h:140-151; `rd` is `StringConverter<T>::Get`,
Yaml.hpp:68-76 and 93-98, also for texts that are no number, `wr` is `operator <<`. -/
def scalarCodec {α : Type} (rd : String → α) (wr : α → String) : Codec α where
  ser v _ := .scalar (wr v)
  des _ v n := .ok (if n.noValue then v else rd n.asString, n)

/-- `StringConverter<bool>::Get`, Yaml.hpp:111-123. -/
def boolText (s : String) : Bool :=
  let t := s.toList.map Char.toLower
  t == "true".toList || t == "yes".toList || t == "1".toList

/-- `deserialize<bool>` and `serialize<bool>`, yaml-serializable-base.h:54-62. -/
def boolCodec : Codec Bool := scalarCodec boolText fun v => if v then "True" else "False"

/-- `from_string` of `SERIALIZABLE_ENUM`, serializable-enum.h:67-71, with `validate_map`,
configuration-validation.h:94-100: the number of the name; of equal names the first is in the map. -/
def enumOf (names : List String) (s : String) : Cfg ℕ :=
  if s ∈ names then .ok (names.idxOf s) else .error ⟨"", .notAllowed s⟩

/-- `SERIALIZABLE_ENUM`, serializable-enum.h:72-90; enumerators are their numbers. -/
def enumCodec (names : List String) : Codec ℕ where
  ser v n := match names[v]? with
    | none => n
    | some s => if s = "" then n else .scalar s
  des _ v n := if n.noValue then .ok (v, n) else
    match enumOf names n.asString with
    | .error e => .error e
    | .ok x => .ok (x, n)

/-- `Impl<std::optional<T>>`, yaml-serializable-containers.h:180-194; `d` is what `T inner_value;` holds. -/
def optCodec {α : Type} (d : α) (c : Codec α) : Codec (Option α) where
  ser v _ := match v with
    | none => .none
    | some x => c.ser x .none
  des raw v n := if n.noValue then .ok (v, n) else
    match c.des raw d n with
    | .error e => .error e
    | .ok (x, n') => .ok (some x, n')

/-- `looks_like_a_list`, yaml-serializable-containers.h:96-98. -/
def looksLikeList (s : List Char) : Bool :=
  match s with
  | '[' :: r => r.getLast? == some ']' && r.dropLast.all fun c => c ≠ '[' ∧ c ≠ ']' ∧ c ≠ '\n'
  | _ => false

/-- `tokenizer(s, ',')`, yaml-serializable-containers.h:76-91: the loop reads up to the next comma until the end of the
text was met, so that an empty text is one empty word. -/
def listTokens (s : List Char) : List (List Char) :=
  let a := s.dropWhile fun c => cSpace c || c == '['
  let b := a.rdropWhile fun c => cSpace c || c == ']'
  b.splitOn ','

/-- `to_sequence_node`, yaml-serializable-containers.h:107-121: the items, in order (the node is a copy, numbered from
0). -/
def sequenceItems : YNode → Cfg (List YNode)
  | .scalar s => if looksLikeList s.toList then .ok ((listTokens s.toList).map fun t => .scalar (String.ofList t))
      else .error ⟨"", .notAList s⟩
  | .seq s => .ok (s.map Prod.snd)
  | _ => .ok []

/-- `deserialize_to_iterable` with `deserialize_from_indexed_item`, yaml-serializable-containers.h:67-74 and 129-136, from
item `i` on; `d` is what `T item;` holds. -/
def desItems {α : Type} (d : α) (c : Codec α) (raw : Bool) : ℕ → List YNode → Cfg (List α)
  | _, [] => .ok []
  | i, n :: ns =>
    match c.des raw d n with
    | .error e => .error (e.under ("<" ++ toString i ++ ">"))
    | .ok (x, _) =>
      match desItems d c raw (i + 1) ns with
      | .error e => .error e
      | .ok xs => .ok (x :: xs)

/-- `set_node_to_empty_sequence`, yaml-serializable-containers.h:54-58, and the `PushBack`s that follow, 168-170. -/
def serItems {α : Type} (c : Codec α) (v : List α) : YNode :=
  .seq (v.foldl (fun s x => seqPushBack s (c.ser x .none)) (seqErase (seqPushBack [] YNode.none) 0))

/-- `Impl<std::vector<T>>`, yaml-serializable-containers.h:159-172. -/
def vecCodec {α : Type} (d : α) (c : Codec α) : Codec (List α) where
  ser v _ := serItems c v
  des raw v n := if n.noValue then .ok (v, n) else
    match sequenceItems n with
    | .error e => .error e
    | .ok ns =>
      match desItems d c raw 0 ns with
      | .error e => .error e
      | .ok xs => .ok (xs, n)

/-- `std::set::insert`, the set as the list of its elements in order. -/
def setInsert {α : Type} [LinearOrder α] (s : List α) (x : α) : List α :=
  if x ∈ s then s else List.orderedInsert (· ≤ ·) x s

/-- `Impl<std::set<T>>`, yaml-serializable-containers.h:203-216. -/
def setCodec {α : Type} [LinearOrder α] (d : α) (c : Codec α) : Codec (List α) where
  ser v _ := serItems c v
  des raw v n := if n.noValue then .ok (v, n) else
    match sequenceItems n with
    | .error e => .error e
    | .ok ns =>
      match desItems d c raw 0 ns with
      | .error e => .error e
      | .ok xs => .ok (xs.foldl setInsert [], n)

/-- `FixedLengthImpl<T, N>`, yaml-serializable-containers.h:277-300; the value is the list of the `len` entries. -/
def arrayCodec {α : Type} (len : ℕ) (d : α) (c : Codec α) : Codec (List α) where
  ser v _ := serItems c v
  des raw v n := if n.noValue then .ok (v, n) else
    match sequenceItems n with
    | .error e => .error e
    | .ok ns =>
      if ns.length ≠ len then .error ⟨"", .wrongLength len ns.length⟩ else
      match desItems d c raw 0 ns with
      | .error e => .error e
      | .ok xs => .ok (xs, n)

/-- A field of a structure `σ`: its name and what `serialize(obj.FIELD, ·)` and `deserialize(obj.FIELD, ·, raw)` do. -/
structure SField (σ : Type) where
  key : String
  ser : σ → YNode → YNode
  des : Bool → σ → YNode → Cfg (σ × YNode)

/-- The field with the given access and type. -/
def SField.of {σ α : Type} (key : String) (get : σ → α) (set : σ → α → σ) (c : Codec α) : SField σ where
  key := key
  ser v n := c.ser (get v) n
  des raw v n := match c.des raw (get v) n with
    | .error e => .error e
    | .ok (x, n') => .ok (set v x, n')

/-- `MAP(YAML_SERIALIZE, ...)`, serializable-struct.h:96 and 143. -/
def serFields {σ : Type} (fs : List (SField σ)) (v : σ) (n : YNode) : YNode :=
  fs.foldl (fun n f => n.modify (f.ser v) [.name f.key]) n

/-- `MAP(YAML_DESERIALIZE, ...)`, serializable-struct.h:101-107 and 148. -/
def desFields {σ : Type} (raw : Bool) : List (SField σ) → σ → YNode → Cfg (σ × YNode)
  | [], v, n => .ok (v, n)
  | f :: fs, v, n =>
    if (n.child f.key).noValue then desFields raw fs v (n.touch [.name f.key])
    else
      match f.des raw v (n.child f.key) with
      | .error e => .error (e.under f.key)
      | .ok (v', c') => desFields raw fs v' (n.modify (fun _ => c') [.name f.key])

/-- `validate_required_fields`, serializable-struct.h:112-115 and 229-235: the node afterwards. -/
def checkRequired : List String → YNode → Cfg YNode
  | [], n => .ok n
  | k :: ks, n =>
    if (n.child k).noValue then .error ⟨"", .missing k⟩ else checkRequired ks (n.touch [.name k])

/-- A structure: the base class, the fields, the required fields, and its own `derive` and `validate` (not those
inherited, which yaml-post-processing.h:112-128 and 138-153 leave out). -/
structure SSpec (σ : Type) where
  base : Option (Codec σ) := none
  fields : List (SField σ)
  required : List String := []
  derive : σ → Cfg σ := .ok
  validate : σ → Cfg σ := .ok

/-- `IMPL_YAML_SERIALIZABLE_FOR` and `IMPL_YAML_SERIALIZABLE_WITH_BASE`, serializable-struct.h:139-154 and 181-198. -/
def structCodec {σ : Type} (S : SSpec σ) : Codec σ where
  ser v n := serFields S.fields v (match S.base with
    | none => n
    | some b => b.ser v n)
  des raw v n :=
    match checkRequired S.required n with
    | .error e => .error e
    | .ok n =>
      match (match S.base with
        | none => .ok (v, n)
        | some b => b.des raw v n : Cfg (σ × YNode)) with
      | .error e => .error e
      | .ok (v, n) =>
        match desFields raw S.fields v n with
        | .error e => .error e
        | .ok (v, n) =>
          if raw then .ok (v, n) else
          match S.derive v with
          | .error e => .error e
          | .ok v =>
            match S.validate v with
            | .error e => .error e
            | .ok v => .ok (v, n)

/-- Several objects with one node, `to`, `from` and `from_raw`, yaml-serializable.h:55-76. -/
def pairCodec {α β : Type} (c : Codec α) (c' : Codec β) : Codec (α × β) where
  ser v n := c'.ser v.2 (c.ser v.1 n)
  des raw v n :=
    match c.des raw v.1 n with
    | .error e => .error e
    | .ok (x, n) =>
      match c'.des raw v.2 n with
      | .error e => .error e
      | .ok (y, n) => .ok ((x, y), n)

mutual

/-- `validate_subset`, configuration-validation.h:172-177. -/
def validateSubset : YNode → YNode → Cfg Unit
  | a, .map m => match a with
    | .map m' => subsetMap m' m
    | _ => .error ⟨"", .dictionary⟩
  | a, .seq s => match a with
    | .seq s' => subsetSeq 0 (s'.map Prod.snd) s
    | _ => .error ⟨"", .list⟩
  | _, _ => .ok ()

/-- The loop of `validate_subset_map`, configuration-validation.h:118-139. -/
def subsetMap : List (String × YNode) → List (String × YNode) → Cfg Unit
  | _, [] => .ok ()
  | m', (k, x) :: m =>
    if x.noValue then subsetMap m' m
    else if ((YNode.map m').child k).noValue then .error ⟨"", .unexpected k⟩
    else match validateSubset ((YNode.map m').child k) x with
      | .error e => .error (e.under k)
      | .ok _ => subsetMap m' m

/-- The loop of `validate_subset_sequence`, configuration-validation.h:146-165. -/
def subsetSeq : ℕ → List YNode → List (ℕ × YNode) → Cfg Unit
  | _, _, [] => .ok ()
  | _, [], _ :: _ => .error ⟨"", .notAllLoaded⟩
  | i, y :: ys, (_, x) :: s =>
    match validateSubset y x with
      | .error e => .error (e.under ("<" ++ toString i ++ ">"))
      | .ok _ => subsetSeq (i + 1) ys s

end

/-- `from`, yaml-serializable.h:64-69, as in `from_string` and `from_file` after the text was read. -/
def loadNode {α : Type} (c : Codec α) (v : α) (n : YNode) : Cfg α :=
  match c.des false v n with
  | .error e => .error e
  | .ok (v, _) => .ok v

/-- `from_strict` with `strict_validation`, yaml-serializable.h:78-91, as in `from_string_strict` and
`from_file_strict` after the text was read: the second pass has the objects and the node of the first. -/
def loadStrict {α : Type} (c : Codec α) (v : α) (n : YNode) : Cfg α :=
  match c.des true v n with
  | .error e => .error e
  | .ok (v, n) =>
    match validateSubset (c.ser v .none) n with
    | .error e => .error e
    | .ok _ => loadNode c v n

/-- A class registered for a base class: `DerivedSerializer`, type-discrimination.h:250-264. -/
structure DerivedClass (δ : Type) where
  tag : ℕ
  ser : δ → YNode → YNode
  des : Bool → YNode → Cfg (δ × YNode)

/-- `registerT`, type-discrimination.h:211-217. -/
def registerClass {δ : Type} (reg : List (DerivedClass δ)) (c : DerivedClass δ) : Cfg (List (DerivedClass δ)) :=
  if reg.any (fun x => x.tag == c.tag) then .error ⟨"", .twoClasses c.tag⟩ else .ok (c :: reg)

/-- `deserialize_as_derived`, type-discrimination.h:158-173; `base` loads the base class and gives its type. -/
def desDerived {δ : Type} (base : Bool → YNode → Cfg (ℕ × YNode)) (reg : List (DerivedClass δ)) (raw : Bool) (n : YNode) :
    Cfg (δ × YNode) :=
  if (n.child "type").noValue then .error ⟨"", .missing "type"⟩ else
  match base true (n.touch [.name "type"]) with
  | .error e => .error e
  | .ok (t, n) =>
    match reg.find? fun x => x.tag == t with
    | none => .error ⟨"", .noClass t⟩
    | some c => c.des raw n

/-- `serialize_as_derived`, type-discrimination.h:175-181. -/
def serDerived {δ : Type} (tagOf : δ → ℕ) (reg : List (DerivedClass δ)) (b : δ) (n : YNode) : Cfg YNode :=
  match reg.find? fun x => x.tag == tagOf b with
  | none => .error ⟨"", .noClass (tagOf b)⟩
  | some c => .ok (c.ser b n)

end Fierro
