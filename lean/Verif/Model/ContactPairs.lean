import Verif.Model.Contact

/-!
# Pairing of penetrating nodes with patches

Model of the second half of `penetration_sweep` and of `contact_surface_map`
(`apps/multiphysics/src/Solvers/SGH_solver_3D/src/contact.cpp`).

A row is the part of `node_penetrations(node, 1 ..)` before the first filler `num_patches`. `elemOf`
is `elems_in_patch(., 0)`. The filler `num_elems` of `elems_penetrated` is `none`.
-/

namespace Fierro
namespace Contact

/-- The inner loops of the count of elements, contact.cpp:1943-1960; `seen` are the elements of the
earlier entries. -/
def countLoop (elemOf : ℕ → ℕ) (seen : List ℕ) : List ℕ → ℕ
  | [] => 0
  | p :: ps => (if elemOf p ∈ seen then 0 else 1) + countLoop elemOf (seen ++ [elemOf p]) ps

/-- `elem_count`, contact.cpp:1939-1967. -/
def elemCount (elemOf : ℕ → ℕ) (row : List ℕ) : ℕ :=
  let count := countLoop elemOf [] row
  if count = 0 then 1 else count

/-- One entry of `elems_penetrated`, contact.cpp:1976-1992: the first element of the row not among
the earlier entries. -/
def nextElem (elemOf : ℕ → ℕ) (row : List ℕ) (found : List (Option ℕ)) : Option ℕ :=
  (row.find? fun p => some (elemOf p) ∉ found).map elemOf

/-- `elems_penetrated`, contact.cpp:1971-1995. -/
def elemsPenetrated (elemOf : ℕ → ℕ) (row : List ℕ) : List (Option ℕ) :=
  (List.range (elemCount elemOf row)).foldl (fun found _ => found ++ [nextElem elemOf row found]) []

section choose
variable {K : Type} [Field K] [LinearOrder K]

/-- State of the search for the patch of one element: smallest distance (`ptoPmag`) or largest
alignment (`dot_prod`), and the patch chosen (`surf_lid`). -/
structure Search (K : Type) where
  best : K
  chosen : Option ℕ

/-- One patch, no preload: contact.cpp:2077-2098. `align` is `dot_prod_loc`, `dist` is
`ptoPmagloc`. -/
def searchStep (elemOf : ℕ → ℕ) (align dist : ℕ → K) (el : Option ℕ) (s : Search K) (p : ℕ) : Search K :=
  if some (elemOf p) = el ∧ -(1 / 100) < align p ∧ dist p < s.best then ⟨dist p, some p⟩ else s

/-- One patch, preload: contact.cpp:2099-2104. -/
def preloadStep (elemOf : ℕ → ℕ) (align : ℕ → K) (el : Option ℕ) (s : Search K) (p : ℕ) : Search K :=
  if some (elemOf p) = el ∧ s.best < align p then ⟨align p, some p⟩ else s

/-- The patch chosen for one element, contact.cpp:2067-2109; `before` is the value `surf_lid` has from
the elements treated earlier: it is not reset. -/
def chosenPatch (elemOf : ℕ → ℕ) (align dist : ℕ → K) (preload : Bool) (row : List ℕ)
    (el : Option ℕ) (before : Option ℕ) : Option ℕ :=
  if preload then (row.foldl (preloadStep elemOf align el) ⟨-1, before⟩).chosen
  else (row.foldl (searchStep elemOf align dist el) ⟨10 ^ 16, before⟩).chosen

/-- The patches paired with a node, one entry for each entry of `elems_penetrated`; `none`: no pair,
contact.cpp:2067-2113. -/
def nodePairs (elemOf : ℕ → ℕ) (align dist : ℕ → K) (preload : Bool) (row : List ℕ) :
    Option ℕ → List (Option ℕ) → List (Option ℕ)
  | _, [] => []
  | before, el :: els =>
    let c := chosenPatch elemOf align dist preload row el before
    c :: nodePairs elemOf align dist preload row c els

/-- `dot_prod_loc`, contact.cpp:2053-2076: the vector from the node `x` to the centroid `c` of its
elements is divided by its squared length (called `n_to_c_mag`). -/
def alignment (n x c : Fin 3 → K) : K :=
  let v : Fin 3 → K := fun i => c i - x i
  let mag := v 0 * v 0 + v 1 * v 1 + v 2 * v 2
  n 0 * (v 0 / mag) + n 1 * (v 1 / mag) + n 2 * (v 2 / mag)

end choose

/-- Addition of a node to `active_set`, contact.cpp:2181-2200. -/
def activate (active : List ℕ) (node : ℕ) : List ℕ :=
  if node ∈ active then active else active ++ [node]

/-- `active_set(0 .. num_active)` after all nodes: a node is added once for each of its pairs. -/
def activeSet (pairs : ℕ → List (Option ℕ)) (nodes : List ℕ) : List ℕ :=
  nodes.foldl (fun act n => (pairs n).foldl (fun act c => if c.isSome then activate act n else act) act) []

/-- `contact_surface_map(i, j)` for the patch node `g`, contact.cpp:2733-2742; `none`: never
written. -/
def surfaceMap (bdy : ℕ → ℕ) (numBdy : ℕ) (g : ℕ) : Option ℕ :=
  (List.range numBdy).foldl (fun m k => if g = bdy k then some k else m) none

end Contact
end Fierro
