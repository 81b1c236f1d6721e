import Verif.Model.YamlNode
import Verif.Model.InputDeck

/-!
# Loops over YAML nodes

input/Yaml.cpp, class `Iterator` (`ConstIterator` has the same text), and the two loops over nodes in
input/parse_tools.cpp and input/parse_material_inputs.cpp.
-/

namespace Fierro

/-- `Iterator`, Yaml.cpp:1548-1584: without container, or a position in the `std::map` of the node it
was taken from; the position behind the last entry is the number of entries. -/
inductive YIter
  | none
  | seq (i : ℕ)
  | map (i : ℕ)
  deriving DecidableEq, Repr

namespace YIter

/-- `operator ==`, Yaml.cpp:1752-1770, for two iterators of one node. -/
def eq : YIter → YIter → Bool
  | seq i, seq j => i == j
  | map i, map j => i == j
  | _, _ => false

/-- `operator !=`, Yaml.cpp:1788-1791. -/
def ne (a b : YIter) : Bool := !a.eq b

/-- `operator ++`, Yaml.cpp:1690-1703: the iterator afterwards, which is also the value of the
expression. -/
def next : YIter → YIter
  | none => none
  | seq i => seq (i + 1)
  | map i => map (i + 1)

end YIter

namespace YNode

/-- `Node::Begin`, Yaml.cpp:2460-2486. -/
def begin : YNode → YIter
  | seq _ => .seq 0
  | map _ => .map 0
  | _ => .none

/-- `Node::End`, Yaml.cpp:2548-2574. -/
def stop : YNode → YIter
  | seq s => .seq s.length
  | map m => .map m.length
  | _ => .none

/-- `operator *`, Yaml.cpp:1656-1672, of an iterator of the node; `none`: behind the last entry. -/
def deref (t : YNode) : YIter → Option (String × YNode)
  | .none => some ("", none)
  | .seq i => t.initSeq[i]?.map fun x => ("", x.2)
  | .map i => t.initMap[i]?

end YNode

/-- How a loop stands after some passes. -/
inductive Scan
  | done (seen : List (String × YNode))
  | running (seen : List (String × YNode))
  | undefined

/-- The passes of `for (auto item = yaml.Begin(); item != yaml.End(); item++)`, parse_tools.cpp:727-736,
with what `*item` has given so far. -/
def scan (t : YNode) : ℕ → YIter → List (String × YNode) → Scan
  | 0, _, seen => .running seen
  | fuel + 1, it, seen =>
    if it.ne t.stop then
      match t.deref it with
      | none => .undefined
      | some x => scan t fuel it.next (seen ++ [x])
    else .done seen

/-- `validate_inputs`, parse_tools.cpp:721-755, on a node, within `fuel` passes of its loop: the keys or
an exception; `none`: the loop has not ended. -/
def validateNode (fuel : ℕ) (required : List String) (t : YNode) : Option (Except InputError (List String)) :=
  match scan t fuel t.begin [] with
  | .done seen => some (validateInputs required seen)
  | _ => none

/-- The search of `parse_multimaterial_options` for its block, parse_material_inputs.cpp:1011-1027;
`none`: not ended within `fuel` passes. -/
def findBlock (t : YNode) (key : String) : ℕ → YIter → Option Bool
  | 0, _ => none
  | fuel + 1, it =>
    if it.ne t.stop then
      match t.deref it with
      | none => none
      | some x => if x.1 = key then some true else findBlock t key fuel it.next
    else some false

end Fierro
