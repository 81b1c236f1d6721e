import Mathlib.Data.List.Basic
import Mathlib.Order.Basic
import Mathlib.Data.String.Basic

/-!
# The YAML node containers

input/Yaml.cpp, classes `SequenceImp`, `MapImp`, `NodeImp` and `Node`.
-/

namespace Fierro

/-! ## `std::map` as a list of pairs in iteration order -/

section StdMap

variable {κ α : Type*} [LinearOrder κ]

/-- Insert a new key at its sorted position. -/
def smInsert (k : κ) (v : α) : List (κ × α) → List (κ × α)
  | [] => [(k, v)]
  | (k', v') :: m => if k < k' then (k, v) :: (k', v') :: m else (k', v') :: smInsert k v m

/-- Overwrite the value of an existing key. -/
def smReplace (k : κ) (v : α) : List (κ × α) → List (κ × α)
  | [] => []
  | (k', v') :: m => if k = k' then (k, v) :: m else (k', v') :: smReplace k v m

/-- `std::map::find`. -/
def smFind (k : κ) : List (κ × α) → Option α
  | [] => none
  | (k', v') :: m => if k = k' then some v' else smFind k m

/-- `m[k] = v`. -/
def smAssign (k : κ) (v : α) (m : List (κ × α)) : List (κ × α) :=
  match smFind k m with
  | none => smInsert k v m
  | some _ => smReplace k v m

/-- `m.insert({k, v})`: no effect if the key is present. -/
def smInsertNew (k : κ) (v : α) (m : List (κ × α)) : List (κ × α) :=
  match smFind k m with
  | none => smInsert k v m
  | some _ => m

/-- `m.erase(k)`. -/
def smErase (k : κ) : List (κ × α) → List (κ × α)
  | [] => []
  | (k', v') :: m => if k = k' then m else (k', v') :: smErase k m

end StdMap

/-! ## `SequenceImp`

Values are node pointers `α`. -/

section Sequence

variable {α : Type*}

/-- `SequenceImp::GetNode`, Yaml.cpp:253-260. -/
def seqGet (s : List (ℕ × α)) (i : ℕ) : Option α := smFind i s

/-- `SequenceImp::PushBack` with the new node `a`, Yaml.cpp:373-385. -/
def seqPushBack (s : List (ℕ × α)) (a : α) : List (ℕ × α) :=
  smInsertNew (match s.getLast? with | none => 0 | some x => x.1 + 1) a s

/-- `SequenceImp::Erase`, Yaml.cpp:403-411. -/
def seqErase (s : List (ℕ × α)) (i : ℕ) : List (ℕ × α) := smErase i s

/-- The iterator position after key `k`: the next larger key. -/
def seqNext (s : List (ℕ × α)) (k : ℕ) : Option ℕ := (s.find? fun x => k < x.1).map Prod.fst

/-- The loop of `SequenceImp::PushFront`, Yaml.cpp:348-350, with the iterator at key `k`;
`none`: not finished within `fuel` passes. -/
def pushFrontLoop : ℕ → Option ℕ → List (ℕ × α) → Option (List (ℕ × α))
  | _, none, s => some s
  | 0, some _, _ => none
  | fuel + 1, some k, s =>
    let s' := match smFind k s with
      | none => s
      | some v => smAssign (k + 1) v s
    pushFrontLoop fuel (seqNext s' k) s'

/-- `SequenceImp::PushFront`, Yaml.cpp:346-355. -/
def seqPushFront (fuel : ℕ) (s : List (ℕ × α)) (a : α) : Option (List (ℕ × α)) :=
  (pushFrontLoop fuel (s.head?.map Prod.fst) s).map (smInsertNew 0 a)

/-- The loop of `SequenceImp::Insert`, Yaml.cpp:315-323. The iterator `it` is never advanced: `k`,
the first key, stays. -/
def insertLoop : ℕ → ℕ → ℕ → List (ℕ × α) → Option (List (ℕ × α))
  | 0, _, _, _ => none
  | fuel + 1, k, index, s =>
    let s' := match smFind k s with
      | none => s
      | some v => smAssign (k + 1) v s
    if k = index then some s' else insertLoop fuel k index s'

/-- `SequenceImp::Insert`, Yaml.cpp:299-328. -/
def seqInsert (fuel : ℕ) (s : List (ℕ × α)) (index : ℕ) (a : α) : Option (List (ℕ × α)) :=
  match s.head?, s.getLast? with
  | some first, some last =>
    if s.length ≤ index then some (smInsertNew last.1 a s)
    else (insertLoop fuel first.1 index s).map (smInsertNew index a)
  | _, _ => some [(0, a)]

end Sequence

/-! ## Nodes -/

/-- `Node` with its `NodeImp`, Yaml.cpp:890-1013, as a value. -/
inductive YNode
  | none
  | scalar (s : String)
  | seq (s : List (ℕ × YNode))
  | map (m : List (String × YNode))

/-- What is given in brackets: a number or a name. -/
inductive YKey
  | idx (i : ℕ)
  | name (k : String)

namespace YNode

/-- `InitSequence`, Yaml.cpp:947-956: keeps a sequence, otherwise the content is deleted. -/
def initSeq : YNode → List (ℕ × YNode)
  | seq s => s
  | _ => []

/-- `InitMap`, Yaml.cpp:974-983. -/
def initMap : YNode → List (String × YNode)
  | map m => m
  | _ => []

/-- `Node::Size`, Yaml.cpp:2201-2208. -/
def size : YNode → ℕ
  | none => 0
  | scalar _ => 0
  | seq s => s.length
  | map m => m.length

/-- `Node::AsString`, Yaml.cpp:2636-2643. -/
def asString : YNode → String
  | scalar s => s
  | _ => ""

/-- The node that `t[k₁][k₂]…` refers to, Yaml.cpp:2292-2323 with `GetNode` 253-260 and 547-556.
A missing index gives the global none node (cleared first). -/
def ref : YNode → List YKey → YNode
  | t, [] => t
  | t, .idx i :: p => ref ((smFind i t.initSeq).getD none) p
  | t, .name k :: p => ref ((smFind k t.initMap).getD none) p

/-- The tree `t` after evaluating `t[k₁][k₂]…` and applying `f` to the node referred to (assigning
to it, for instance). Every bracket converts its node to a sequence or to a map; a missing name is
added as an empty node; a missing index is not added, and what is done below it is done to the
global none node. -/
def modify (f : YNode → YNode) : YNode → List YKey → YNode
  | t, [] => f t
  | t, .idx i :: p =>
    match smFind i t.initSeq with
    | Option.none => seq t.initSeq
    | some c => seq (smAssign i (modify f c p) t.initSeq)
  | t, .name k :: p => map (smAssign k (modify f ((smFind k t.initMap).getD none) p) t.initMap)

/-- The tree after merely evaluating `t[k₁][k₂]…`. -/
def touch (t : YNode) (p : List YKey) : YNode := modify id t p

/-- `t[k₁][k₂]… = s`, Yaml.cpp:2414-2419. -/
def assign (t : YNode) (p : List YKey) (s : String) : YNode := modify (fun _ => scalar s) t p

/-- `t[k₁][k₂]….PushBack() = s`, Yaml.cpp:2270-2274. -/
def pushBack (t : YNode) (p : List YKey) (s : String) : YNode :=
  modify (fun n => seq (seqPushBack n.initSeq (scalar s))) t p

end YNode

end Fierro
