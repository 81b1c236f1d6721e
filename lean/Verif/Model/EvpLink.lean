import Verif.Model.EvpCouple
import Verif.Model.DumpFiles

/-!
# Crystal plasticity in the elements of a finite element run

Models the link between the finite element code and the crystal plasticity codes:
`init_strength_state_vars`, `calc_stress` and `destroy` of
`apps/micromechanics/EVPFFT/src/Fierro-EVPFFT-Link/FierroEVPFFTLink.cpp` (the other variants differ in the
model they look for, in one more output and in velocities of the nodes that are passed on and not used), and
the opening of the output files by every unit cell (`output_file_manager.cpp:15-47`).

A unit cell is any state with any response to a call; `EVPFFT::solve` is the instance `coupleCell` at the end.
Objects made by `new` are entries of `heap`, `none` after `delete`.
-/

namespace Fierro

/-- `FArray(i,j)` of size 3 by 3: first index fastest, counted from 0. -/
def farrayAt (i j : ℕ) : ℕ := i + 3 * j

/-- `ViewFMatrix(i,j)` of size 3 by 3: first index fastest, counted from 1, main.cpp:107-108. -/
def fmatrixAt (i j : ℕ) : ℕ := (i - 1) + 3 * (j - 1)

/-- A loop over the components that stores `x i j` at `pos i j`, FierroEVPFFTLink.cpp:107-112, main.cpp:224-228. -/
def store9 (pos : ℕ → ℕ → ℕ) (o : ℕ) (x : T2 ℝ) (a : ℕ → ℝ) : ℕ → ℝ :=
  (List.finRange 3).foldl (fun a (i : Fin 3) =>
    (List.finRange 3).foldl (fun a (j : Fin 3) => Function.update a (pos (i.val + o) (j.val + o)) (x i j)) a) a

/-- A unit cell: the constructor with the name of the input file (evpfft.cpp:46-85), the response to a call with
velocity gradient, stress, time increment, cycle, element and threshold (main.cpp:97-231), and `evm`, `evmp`, `dvm`,
`dvmp`, `svm`. -/
structure LinkCell (S : Type) where
  make : List Char → S
  solve : S → T2 ℝ → T2 ℝ → ℝ → ℕ → ℕ → ℝ → S × T2 ℝ
  outs : S → Fin 5 → ℝ

/-- `solve` on the memory of its two tensors. -/
def LinkCell.solveAt {S : Type} (cell : LinkCell S) (s : S) (vg st : ℕ → ℝ) (dt : ℝ) (cycle elem : ℕ) (th : ℝ) :
    S × (ℕ → ℝ) :=
  let r := cell.solve s (fun i j => vg (fmatrixAt (i.val + 1) (j.val + 1))) (fun i j => st (fmatrixAt (i.val + 1) (j.val + 1))) dt cycle
    elem th
  (r.1, store9 fmatrixAt 1 r.2 st)

/-- What the link looks at in a material: `strength_model`, `strength_run_location`. -/
structure LinkMat where
  model : Bool
  device : Bool

inductive LinkErr where
  /-- "EVPFFT only runs on Host" -/
  | device
  /-- "EVPFFT not initialized in this element" -/
  | notInit
  /-- access outside an array, or to a deleted object -/
  | ub

/-- `elem_evpfft`, the objects, and the arrays of the finite element code: stress by level and element, user outputs
by element and column. -/
structure LinkState (S : Type) where
  ptrs : List (Option ℕ)
  heap : List (Option S)
  stress : ℕ → ℕ → T2 ℝ
  outs : ℕ → ℕ → ℝ

/-- Arguments of `calc_stress` that are used. -/
structure LinkCall where
  elem : ℕ
  mat : ℕ
  level : ℕ
  velGrad : T2 ℝ
  dt : ℝ
  cycle : ℕ

/-- Name of the input file of a material, FierroEVPFFTLink.cpp:47. -/
def linkFile (mat : ℕ) : List Char := ['e', 'v', 'p', 'f', 'f', 't'] ++ fmtNat (mat + 1) ++ ['.', 'i', 'n']

/-- One pass of the loop over the elements, FierroEVPFFTLink.cpp:34-66. -/
def linkInitElem {S : Type} (cell : LinkCell S) (mats : List LinkMat) (matOf : List ℕ) (st : LinkState S) (e : ℕ) :
    Except LinkErr (LinkState S) :=
  match matOf[e]? with
  | none => .error .ub
  | some mat => match mats[mat]? with
    | none => .error .ub
    | some m =>
      if m.model then
        if m.device then .error .device
        else .ok { st with ptrs := st.ptrs.set e (some st.heap.length),
                           heap := st.heap ++ [some (cell.make (linkFile mat))] }
      else .ok st

/-- `init_strength_state_vars`, FierroEVPFFTLink.cpp:12-69. -/
def linkInit {S : Type} (cell : LinkCell S) (mats : List LinkMat) (matOf : List ℕ) (numElems : ℕ)
    (st : LinkState S) : Except LinkErr (LinkState S) :=
  (List.range numElems).foldlM (linkInitElem cell mats matOf) { st with ptrs := List.replicate numElems none }

/-- `calc_stress`, FierroEVPFFTLink.cpp:71-134.  `globals` is the first column of `strength_global_vars`. -/
def linkCalc {S : Type} (cell : LinkCell S) (globals : ℕ → ℝ) (st : LinkState S) (c : LinkCall) :
    Except LinkErr (LinkState S) :=
  match st.ptrs[c.elem]? with
  | none => .error .ub
  | some none => .error .notInit
  | some (some p) => match st.heap[p]? with
    | some (some s) =>
      let fvg := store9 farrayAt 0 c.velGrad fun _ => 0
      let fst := store9 farrayAt 0 (st.stress c.level c.elem) fun _ => 0
      let r := cell.solveAt s fvg fst c.dt c.cycle c.elem (globals c.mat)
      .ok { st with
        heap := st.heap.set p (some r.1)
        stress := Function.update st.stress c.level (Function.update (st.stress c.level) c.elem
          fun i j => r.2 (farrayAt i j))
        outs := Function.update st.outs c.elem fun k =>
          if h : k < 5 then cell.outs r.1 ⟨k, h⟩ else st.outs c.elem k }
    | _ => .error .ub

/-- One pass of the loop in `destroy`, FierroEVPFFTLink.cpp:148-150.  The pointer keeps its value. -/
def linkDelete {S : Type} (st : LinkState S) (e : ℕ) : Except LinkErr (LinkState S) :=
  match st.ptrs[e]? with
  | none => .error .ub
  | some none => .ok st
  | some (some p) => match st.heap[p]? with
    | some (some _) => .ok { st with heap := st.heap.set p none }
    | _ => .error .ub

/-- `destroy`, FierroEVPFFTLink.cpp:136-152. -/
def linkDestroy {S : Type} (numElems : ℕ) (st : LinkState S) : Except LinkErr (LinkState S) :=
  (List.range numElems).foldlM linkDelete st

/-- The calls of `calc_stress` between the two. -/
def linkCalls {S : Type} (cell : LinkCell S) (globals : ℕ → ℝ) (calls : List LinkCall) (st : LinkState S) :
    Except LinkErr (LinkState S) :=
  calls.foldlM (linkCalc cell globals) st

/-- The unit cell of `EVPFFT::solve` (see `coupleCall`).  The averages and the stress a load step leaves are any
functions of what happened before. -/
noncomputable def coupleCell (q : BasisConst ℝ) (avg : CoupleState → CoupleAvg) (scauav : CoupleState → HostCall → T2 ℝ)
    (outs : CoupleState → Fin 5 → ℝ) : LinkCell CoupleState where
  make := fun _ => CoupleState.init
  solve := fun s vg st dt _ _ th => coupleCall q th (avg s) (scauav s ⟨vg, dt⟩) s ⟨vg, dt⟩ st
  outs := outs

/-! ### Output files -/

/-- Write `t` at a position of a file. -/
def writeAt (file : List Char) (pos : ℕ) (t : List Char) : List Char :=
  file.take pos ++ t ++ file.drop (pos + t.length)

/-- `open_files` of one more unit cell for one file: `fopen(name, "w")` empties the file, the heading goes to its
start, output_file_manager.cpp:18-45.  Kept with the file are the positions of all its writers. -/
def openCell (heading : List Char) (f : List Char × List ℕ) : List Char × List ℕ :=
  (heading, f.2 ++ [heading.length])

/-- A row written by unit cell `w`, each with its own position in the file. -/
def writeRow (f : List Char × List ℕ) (w : ℕ) (row : List Char) : List Char × List ℕ :=
  match f.2[w]? with
  | none => f
  | some pos => (writeAt f.1 pos row, f.2.set w (pos + row.length))

end Fierro
