import Mathlib.Data.Nat.Notation
import Mathlib.Logic.Function.Basic

/-!
# Checkpoints of the forward solve for the adjoint solve of the previous version

Models `Dynamic_Checkpoint` of `/repo/legacy/Fierro_V0/src/Parallel-Solvers/dynamic_checkpoint.h` and `.cpp` and the code
that uses it in `/repo/legacy/Fierro_V0/src/Parallel-Solvers/Parallel-Explicit/SGH_Solver/src/`: the forward solve in
`FEA_Module_SGH.cpp`, the backward sweep and `checkpoint_solve` in `sgh_optimization.cpp` (the same text is in
`sgh_shape_optimization.cpp`, lines 873-905).

`V` stands for the three vectors of a state (positions, velocities, energies), `D` for its time and time step.  One cycle
of the solver is a function `next` of the cycle and of these; that it depends on nothing else, as a repeated solve needs,
is a simplification.  The three vectors of a checkpoint are kept in one buffer with a number.  Iterators of the set are
the step they point to; stepping back from the first element, line 3493, is guarded afterwards and not modelled as an
error.
-/

namespace Fierro

/-- `Dynamic_Checkpoint`, dynamic_checkpoint.h:66-76 and 155-164: the step, the level, the buffer of the vectors, and
time and time step. -/
structure Ckpt (D : Type) where
  step : ℕ
  level : ℕ
  buf : ℕ
  data : D

/-- The containers, FEA_Module_SGH.h:761-763, the local variables of the search and the contents of the buffers.
`cached` has its last entry first. -/
structure CkState (V D : Type) where
  set : List (Ckpt D)
  cached : List (Ckpt D)
  active : ℕ
  raised : Option ℕ
  rlevel : ℕ
  mem : ℕ → V

variable {V D : Type}

/-- `insert` of the set, ordered by the step (dynamic_checkpoint.cpp:41-50); an equal step is not inserted. -/
def ckInsert (c : Ckpt D) : List (Ckpt D) → List (Ckpt D)
  | [] => [c]
  | d :: l => if c.step < d.step then c :: d :: l else if d.step < c.step then d :: ckInsert c l else d :: l

/-- `erase` of the set. -/
def ckErase (d : Ckpt D) (l : List (Ckpt D)) : List (Ckpt D) := l.eraseP fun c => c.step == d.step

/-- The search for a dispensable checkpoint from the last raised one down to, but without, the first one,
FEA_Module_SGH.cpp:1652-1663 and sgh_optimization.cpp:3491-3504. -/
def dispensable (st : CkState V D) (r : ℕ) : Option (Ckpt D) :=
  ((st.set.takeWhile fun c => c.step < r).drop 1).reverse.find? fun c => c.level < st.rlevel

/-- The new checkpoint takes the buffer of `d`, which is erased, FEA_Module_SGH.cpp:1666-1675 and 1685-1694. -/
def replaceCk (st : CkState V D) (step level : ℕ) (s : V × D) (d : Ckpt D) : CkState V D :=
  { st with
    set := ckInsert ⟨step, level, d.buf, s.2⟩ (ckErase d st.set)
    mem := Function.update st.mem d.buf s.1 }

/-- The case of the limit reached, FEA_Module_SGH.cpp:1649-1698 and sgh_optimization.cpp:3488-3539.  `none`: an iterator
is used that was never assigned or whose element is erased. -/
def storeFull (st : CkState V D) (step : ℕ) (s : V × D) : Option (CkState V D) :=
  match st.raised with
  | none => none
  | some r =>
    if st.set.any (fun c => c.step == r) then
      match dispensable st r with
      | some d => some (replaceCk st step 0 s d)
      | none =>
        match st.set.getLast? with
        | none => none
        | some c =>
          let st' := replaceCk st step (c.level + 1) s c
          some { st' with raised := st'.set.getLast?.map Ckpt.step, rlevel := c.level + 1 }
    else none

/-- The checkpoint after a cycle of the forward solve, FEA_Module_SGH.cpp:1632-1699. -/
def storeForward (n : ℕ) (st : CkState V D) (step : ℕ) (s : V × D) : Option (CkState V D) :=
  if st.active < n then
    let set' := ckInsert ⟨step, 0, st.active + 1, s.2⟩ st.set
    some { st with
      set := set'
      active := st.active + 1
      raised := set'.getLast?.map Ckpt.step
      mem := Function.update st.mem (st.active + 1) s.1 }
  else storeFull st step s

/-- The checkpoint after a cycle of a repeated solve, sgh_optimization.cpp:3470-3539.  `none` for an empty cache: the
entry before its first one is read. -/
def storeSolve (n : ℕ) (st : CkState V D) (step : ℕ) (s : V × D) : Option (CkState V D) :=
  if st.active < n then
    match st.cached with
    | [] => none
    | b :: cs =>
      some { st with
        set := ckInsert ⟨step, 0, b.buf, s.2⟩ st.set
        cached := cs
        active := st.active + 1
        mem := Function.update st.mem b.buf s.1 }
  else storeFull st step s

/-- The containers before the first cycle, FEA_Module_SGH.cpp:902-905 and 1100-1113. -/
def ckStart (s : V × D) : CkState V D :=
  { set := [⟨0, 2147483647, 0, s.2⟩], cached := [], active := 0, raised := none, rlevel := 0, mem := fun _ => s.1 }

/-- The first `N` cycles of the forward solve with a limit of `n` checkpoints, FEA_Module_SGH.cpp:1122-1757. -/
def forwardRun (n : ℕ) (next : ℕ → V × D → V × D) (s : V × D) : ℕ → Option (CkState V D × (V × D))
  | 0 => some (ckStart s, s)
  | N + 1 => (forwardRun n next s N).bind fun r =>
      (storeForward n r.1 (N + 1) (next N r.2)).map fun st => (st, next N r.2)

/-- The loop of `checkpoint_solve`, sgh_optimization.cpp:3028-3566: `m` cycles from `cycle` on. -/
def solveLoop (n : ℕ) (next : ℕ → V × D → V × D) : ℕ → ℕ → V × D → CkState V D → Option (CkState V D)
  | 0, _, _, st => some st
  | m + 1, cycle, s, st =>
    (storeSolve n st (cycle + 1) (next cycle s)).bind (solveLoop n next m (cycle + 1) (next cycle s))

/-- The first guess of the last raised checkpoint: the earliest one, without the first, of a level other than zero,
sgh_optimization.cpp:2954-2960. -/
def firstRaised (set : List (Ckpt D)) : Option ℕ :=
  match (set.drop 1).find? (fun c => c.level != 0) with
  | some c => some c.step
  | none => set.head?.map Ckpt.step

/-- `checkpoint_solve`, sgh_optimization.cpp:2824-3575. -/
def checkpointSolve (n : ℕ) (next : ℕ → V × D → V × D) (st : CkState V D) (start : Ckpt D) (bound : ℕ) :
    Option (CkState V D) :=
  solveLoop n next (bound - start.step) start.step (st.mem start.buf, start.data)
    { st with raised := firstRaised st.set, rlevel := 0 }

/-- One cycle of the backward sweep, sgh_optimization.cpp:626-657: the state used as that after the cycle and the one
used as that before it. -/
def sweepStep (n : ℕ) (next : ℕ → V × D → V × D) (st : CkState V D) (cycle : ℕ) :
    Option (((V × D) × (V × D)) × CkState V D) :=
  match st.set.getLast? with
  | none => none
  | some l =>
    let st1 : CkState V D :=
      { st with set := ckErase l st.set, cached := l :: st.cached, active := st.active - 1 }
    match st1.set.getLast? with
    | none => none
    | some l1 =>
      (if l1.step ≠ cycle then checkpointSolve n next st1 l1 cycle else some st1).bind fun st2 =>
        st2.set.getLast?.map fun l2 => (((st.mem l.buf, l.data), (st2.mem l2.buf, l2.data)), st2)

/-- The backward sweep over the cycles `c - 1, …, 0`, sgh_optimization.cpp:596-658: the states used in each cycle. -/
def sweep (n : ℕ) (next : ℕ → V × D → V × D) : ℕ → CkState V D → Option (List ((V × D) × (V × D)))
  | 0, _ => some []
  | c + 1, st => (sweepStep n next st c).bind fun r => (sweep n next c r.2).map fun l => r.1 :: l

/-- The forward solve and the sweep after it.  `last_time_step` is the loop variable after the loop
(FEA_Module_SGH.cpp:1122, 1753-1759): one less than the number of cycles `N` if the final time was reached (`atEnd`),
and `N` if the limit of cycles was. -/
def solveAndSweep (n : ℕ) (next : ℕ → V × D → V × D) (s : V × D) (N : ℕ) (atEnd : Bool) :
    Option (List ((V × D) × (V × D))) :=
  (forwardRun n next s N).bind fun r => sweep n next ((if atEnd then N - 1 else N) + 1) r.1

end Fierro
