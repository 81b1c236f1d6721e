import Mathlib.Data.List.Sort

/-!
# Boundary patches of the previous version

Models `Node_Combination` of `/repo/legacy/Fierro_V0/src/Parallel-Solvers/node_combination.h` and `.cpp` and
`Solver::Get_Boundary_Patches` of `/repo/legacy/Fierro_V0/src/Parallel-Solvers/Solver.cpp`, lines 3760-4018.

The patches are given as the list of their nodes in the order of the loops over elements and local surfaces; the tables
of the nodes of a surface (lines 3860-3868 and 3899-3908) are not modelled.  `std::sort` is any sort.
-/

namespace Fierro

/-- The loop over the sorted nodes, node_combination.cpp:71-87. -/
def sortedLess : List ℕ → List ℕ → Bool
  | a :: as, b :: bs => if a < b then true else if a = b then sortedLess as bs else false
  | _, _ => false

/-- `operator<` of node combinations, node_combination.cpp:42-88. -/
def ncLess (a b : List ℕ) : Bool :=
  if a.length < b.length then true
  else if b.length < a.length then false
  else sortedLess (a.insertionSort (· ≤ ·)) (b.insertionSort (· ≤ ·))

/-- The loop of `operator==` of node combinations, node_combination.h:120-125. -/
def sortedEqual : List ℕ → List ℕ → Bool
  | a :: as, b :: bs => if a ≠ b then false else sortedEqual as bs
  | _, _ => true

/-- `operator==` of node combinations, node_combination.h:98-126. -/
def ncEq (a b : List ℕ) : Bool :=
  if a.length ≠ b.length then false
  else sortedEqual (a.insertionSort (· ≤ ·)) (b.insertionSort (· ≤ ·))

/-- What `std::set` and `std::map` take for the same key. -/
def ncSame (a b : List ℕ) : Bool := !ncLess a b && !ncLess b a

/-- `my_patches` with the `patch_id` of each entry, and `Patch_Boundary_Flags`. -/
structure PatchFlags where
  set : List (List ℕ × ℕ)
  flags : ℕ → Bool

/-- One patch, Solver.cpp:3869-3884 and 3909-3925: an insertion, or both flags to zero. -/
def addPatch (st : PatchFlags) (p : List ℕ × ℕ) : PatchFlags :=
  match st.set.find? fun d => ncSame d.1 p.1 with
  | none => { st with set := p :: st.set }
  | some d => { st with flags := fun i => if i = p.2 ∨ i = d.2 then false else st.flags i }

/-- The flags after the loops, Solver.cpp:3836-3929. -/
def patchFlags (ps : List (List ℕ)) : PatchFlags := ps.zipIdx.foldl addPatch ⟨[], fun _ => true⟩

/-- `Boundary_Patches`: the flagged patches with not all of their nodes remote, Solver.cpp:3944-4003. -/
def boundaryPatches (isLocal : ℕ → Bool) (ps : List (List ℕ)) : List (List ℕ × ℕ) :=
  ps.zipIdx.filter fun p =>
    (patchFlags ps).flags p.2 && !((p.1.countP fun v => !isLocal v) == p.1.length)

/-- The assignment to an entry of a `std::map` of node combinations. -/
def ncPut (key : List ℕ) (v : ℕ) : List (List ℕ × ℕ) → List (List ℕ × ℕ)
  | [] => [(key, v)]
  | e :: m => if ncSame e.1 key then (e.1, v) :: m else e :: ncPut key v m

/-- `boundary_patch_to_index`, Solver.cpp:3999-4000. -/
def patchIndex (isLocal : ℕ → Bool) (ps : List (List ℕ)) : List (List ℕ × ℕ) :=
  (boundaryPatches isLocal ps).zipIdx.foldl (fun m e => ncPut e.1.1 e.2 m) []

/-- Reading `boundary_patch_to_index[temp]`, FEA_Module_Elasticity.cpp:643: an unknown key is entered with zero. -/
def ncGet (m : List (List ℕ × ℕ)) (q : List ℕ) : ℕ := ((m.find? fun e => ncSame e.1 q).map Prod.snd).getD 0

end Fierro
