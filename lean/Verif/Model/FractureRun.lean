import Verif.Model.Cohesive

/-!
# Fracture: setup and the run of the reorientation test

Models `initialize_fracture_bc` and `initialize_reorientation_mode` of
/repo/apps/multiphysics/src/Solvers/SGH_solver_3D/src/fracture.cpp and the branch of the time loop of
`sgh_execute.cpp` that is taken in the reorientation test.  Exact arithmetic.  A row of parameters is a list, a read
past its end is `none`.
-/

namespace Fierro.Cohesive

/-- Conversion to `int`. -/
noncomputable def truncInt (x : ℝ) : ℤ := if 0 ≤ x then ⌊x⌋ else ⌈x⌉

/-- The parameters kept by `initialize_fracture_bc`, fracture.cpp:228-242. -/
structure FractureParams where
  Einf : ℝ
  a1 : ℝ
  nexp : ℝ
  un : ℝ
  ut : ℝ
  prony : List (ℝ × ℝ)

/-- One pair of Prony parameters copied on the device, fracture.cpp:218-222. -/
def pronyPair (row : List ℝ) (j : ℕ) : Option (ℝ × ℝ) := do
  let e ← row[6 + 2 * j]?
  let t ← row[6 + 2 * j + 1]?
  pure (e, t)

/-- Parameters of the fracture condition, fracture.cpp:194-247.  `none`: a read outside the row or outside the
thirty staged values, or a negative number of terms, with which the rows of internal variables are too short for the
four values written to them (250-259, 1305-1355). -/
noncomputable def readFracture (row : List ℝ) : Option FractureParams := do
  let einf ← row[0]?
  let a1 ← row[1]?
  let nexp ← row[2]?
  let un ← row[3]?
  let ut ← row[4]?
  let np ← row[5]?
  let n := truncInt (np + 0.5)
  if n < 0 then none
  else
    let copied ← (List.range (min n.toNat 10)).mapM (pronyPair row)
    let prony ← (List.range n.toNat).mapM fun j => pronyTerm (fun k => copied.getD k (0, 0)) n.toNat j
    pure ⟨einf, a1, nexp, un, ut, prony⟩

/-- `initialize_fracture_bc`, fracture.cpp:168-262: `some none` leaves the cohesive zones switched off. -/
noncomputable def initFracture (bcId : ℤ) (rows : ℕ → List ℝ) (npairs : ℕ) : Option (Option FractureParams) :=
  if bcId < 0 then some none
  else if npairs = 0 then some none
  else (readFracture (rows bcId.toNat)).map some

/-- Parameters of the reorientation test. -/
structure Reorient where
  wy : ℝ
  wz : ℝ
  rate : ℝ
  xint : ℝ

/-- Search for the test among the boundary conditions, fracture.cpp:315-341: whether the velocity model is the user
defined one, and its parameters. -/
noncomputable def findReorient : List (Bool × List ℝ) → Option (Option Reorient)
  | [] => some none
  | (user, row) :: rest =>
    if user then do
      let f ← row[0]?
      if (0.5 : ℝ) < f then do
        let wy ← row[1]?
        let wz ← row[2]?
        let rate ← row[3]?
        let xint ← row[4]?
        pure (some ⟨wy, wz, rate, xint⟩)
      else findReorient rest
    else findReorient rest

/-- Abscissa of the centre of an element, fracture.cpp:385-392. -/
noncomputable def centreX {N : Type} {k : ℕ} (X : N → Fin 3 → ℝ) (nodes : Fin k → N) : ℝ :=
  (∑ a, X (nodes a) 0) / k

open Classical in
/-- Flags of one element, fracture.cpp:394-402. -/
noncomputable def flagElem {N : Type} {k : ℕ} (X : N → Fin 3 → ℝ) (xint : ℝ) (flag : N → Bool) (nodes : Fin k → N) :
    N → Bool := fun n =>
  if centreX X nodes > xint then (if ∃ a, nodes a = n then true else flag n) else flag n

/-- `cz_b_side_flag`, fracture.cpp:361-405, with the elements in the order in which they are taken. -/
noncomputable def sideFlags {N : Type} {k : ℕ} (X : N → Fin 3 → ℝ) (xint : ℝ) (elems : List (Fin k → N)) : N → Bool :=
  elems.foldl (flagElem X xint) fun _ => false

/-- A cohesive pair with the matched faces of the side of its first node. -/
structure CrackPair (N : Type) where
  a : N
  b : N
  faces : List (Fin 4 → N)

/-- Data of a run of the test. -/
structure TestJob (N P : Type) (m : ℕ) where
  wy : ℝ
  wz : ℝ
  rate : ℝ
  X : N → Fin 3 → ℝ
  side : N → Bool
  pair : P → CrackPair N
  law : Law m

/-- Nodes and internal variables. -/
structure TestState (N P : Type) (m : ℕ) where
  x : N → Fin 3 → ℝ
  v : N → Fin 3 → ℝ
  vars : P → Vars m

variable {N P : Type} {m : ℕ}

/-- Openings of a pair in a configuration, fracture.cpp:1709-1740. -/
noncomputable def pairOpening (p : CrackPair N) (x v : N → Fin 3 → ℝ) (dt : ℝ) : Opening :=
  opening (orientation (p.faces.map fun f i a => x (f a) i)) (x p.a) (x p.b) (v p.a) (v p.b) dt

/-- One stage of the test, sgh_execute.cpp:293-308 and 394-440: the motion is prescribed at the time of the start of
the step, and the increments are committed in the last stage.  The rest of the stage is skipped. -/
noncomputable def testStage (d : TestJob N P m) (t dt : ℝ) (last : Bool) (s : TestState N P m) : TestState N P m :=
  let x := fun n => prescribed d.wy d.wz d.rate (d.X n) (d.side n) t
  let v := fun n => prescribedVel d.wy d.wz d.rate (d.X n) (d.side n) t dt
  ⟨x, v, fun p => stage d.law last dt (pairOpening (d.pair p) x v dt) (s.vars p)⟩

/-- One step, sgh_execute.cpp:285-292 and 437-440: stage `r` of `n` has the length `dt / (n - r)`. -/
noncomputable def testStep (d : TestJob N P m) (n : ℕ) (t dt : ℝ) (s : TestState N P m) : TestState N P m :=
  (List.range n).foldl (fun s (r : ℕ) => testStage d t (1 / ((n : ℝ) - (r : ℝ)) * dt) (decide (r = n - 1)) s) s

/-- The steps of a run, sgh_execute.cpp:210-620: time at the end and state; `time_value` grows after the stages. -/
noncomputable def testRun (d : TestJob N P m) (n : ℕ) : ℝ → List ℝ → TestState N P m → ℝ × TestState N P m
  | t, [], s => (t, s)
  | t, dt :: rest, s => testRun d n (t + dt) rest (testStep d n t dt s)

end Fierro.Cohesive
