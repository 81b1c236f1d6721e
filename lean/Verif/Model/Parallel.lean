import Mathlib.Logic.Function.Basic
import Mathlib.Algebra.BigOperators.Group.List.Basic
import Mathlib.Data.List.FinRange

/-!
# Parallel loops

`FOR_ALL(i, 0, n, { body })` (MATAR's wrapper of `Kokkos::parallel_for`) runs the bodies of the
iterations concurrently, without any order among the memory accesses of different iterations; a
`Kokkos::fence()` follows.  An iteration is a list of atomic actions `cell := value(memory)`; local
variables of the body are cells of their own.  A schedule is any interleaving of the iterations
(sequential consistency: weaker memory models and torn accesses are not modelled).
-/

namespace Fierro

/-- One memory access: `dst := val memory`, where `val` only looks at the cells in `reads`. -/
structure Action (κ α : Type) where
  dst : κ
  reads : κ → Prop
  val : (κ → α) → α
  frame : ∀ m m', (∀ k, reads k → m k = m' k) → val m = val m'

variable {κ α ι : Type} [DecidableEq κ]

/-- Effect of one action. -/
def Action.run (a : Action κ α) (m : κ → α) : κ → α := Function.update m a.dst (a.val m)

/-- Effect of a list of actions, first one first. -/
def execActions (l : List (Action κ α)) (m : κ → α) : κ → α := l.foldl (fun m a => a.run m) m

/-- `Sched threads s`: `s` interleaves the action lists of all threads. -/
inductive Sched [DecidableEq ι] {A : Type} : (ι → List A) → List A → Prop where
  | done (t : ι → List A) : (∀ i, t i = []) → Sched t []
  | step (t : ι → List A) (i : ι) (a : A) (rest s : List A) : t i = a :: rest →
      Sched (Function.update t i rest) s → Sched t (a :: s)

/-- Constant assignment `k := x`. -/
def Action.assign (k : κ) (x : α) : Action κ α where
  dst := k
  reads := fun _ => False
  val := fun _ => x
  frame := fun _ _ _ => rfl

/-- Copy `k := g (src)`. -/
def Action.copy (k src : κ) (g : α → α) : Action κ α where
  dst := k
  reads := fun c => c = src
  val := fun m => g (m src)
  frame := fun m m' h => by rw [h src rfl]

/-- `k := k + src`. -/
def Action.accum [Add α] (k src : κ) : Action κ α where
  dst := k
  reads := fun c => c = k ∨ c = src
  val := fun m => m k + m src
  frame := fun m m' h => by rw [h k (Or.inl rfl), h src (Or.inr rfl)]

/-- `Kokkos::atomic_add(&k, x)`: read, add and write in one indivisible action. -/
def Action.atomicAdd [Add α] (k : κ) (x : α) : Action κ α where
  dst := k
  reads := fun c => c = k
  val := fun m => m k + x
  frame := fun m m' h => by rw [h k rfl]

end Fierro

namespace Fierro

/-! ### Loops of the source -/

section loops
variable {γ α : Type}

/-- Actions of iteration number `i` of a loop whose body performs the unprotected updates
`c = g(c)` in the given order: each is a load into a local variable (cell `inr i`) followed by a
store, so another iteration can get in between. -/
def rmwThread (i : ℕ) (ops : List (γ × (α → α))) : List (Action (γ ⊕ ℕ) α) :=
  ops.flatMap fun o =>
    [Action.copy (Sum.inr i) (Sum.inl o.1) id, Action.copy (Sum.inl o.1) (Sum.inr i) o.2]

/-- Sequential effect of a list of updates. -/
def seqUpdates [DecidableEq γ] (ops : List (γ × (α → α))) (v : γ → α) : γ → α :=
  ops.foldl (fun v o => Function.update v o.1 (o.2 (v o.1))) v

/-- `RunLoops loops m m'`: executing the parallel loops one after the other (a `Kokkos::fence()`
between them) under some schedules leads from memory `m` to memory `m'`.  A loop is given by its
number of iterations and their actions. -/
inductive RunLoops {κ : Type} [DecidableEq κ] :
    List ((n : ℕ) × (Fin n → List (Action κ α))) → (κ → α) → (κ → α) → Prop where
  | nil (m : κ → α) : RunLoops [] m m
  | cons (l : (n : ℕ) × (Fin n → List (Action κ α))) (ls) (s : List (Action κ α)) (m m' : κ → α) :
      Sched l.2 s → RunLoops ls (execActions s m) m' → RunLoops (l :: ls) m m'

/-- The way `FOR_REDUCE_*` combines contributions: the iterations are dealt to threads and
partial results are joined in any order and grouping; a thread without iterations contributes the
neutral element. -/
inductive ReduceTree (α : Type) where
  | none : ReduceTree α
  | leaf : α → ReduceTree α
  | join : ReduceTree α → ReduceTree α → ReduceTree α

/-- The contributions, from left to right. -/
def ReduceTree.leaves : ReduceTree α → List α
  | .none => []
  | .leaf x => [x]
  | .join a b => a.leaves ++ b.leaves

/-- Result of the reduction with operation `op` and neutral element `e`. -/
def ReduceTree.eval (op : α → α → α) (e : α) : ReduceTree α → α
  | .none => e
  | .leaf x => x
  | .join a b => op (a.eval op e) (b.eval op e)

end loops

end Fierro
