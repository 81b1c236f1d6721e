import Verif.Model.Equilibration
import Verif.Model.Parallel

/-!
# Pressure equilibration on a mesh

material_models/equilibration/src/tipton_equilibration.cpp, `mat_equilibration` and
`geo_equilibration`, with their parallel loops as memory accesses (`Verif.Model.Parallel`).  One
Gauss point per element (the only number the solvers use).  A read-modify-write of a Gauss point
array is a load into a local variable of the iteration (`tmp`) followed by a store.
-/

namespace Fierro

/-- Memory: the arrays on the Gauss points (`GaussPoint_pres`, `GaussPoint_pres_denominator`,
`GaussPoint_volfrac_min`, `GaussPoint_volfrac_limiter`), those on the material points (first index
the material; `volfrac_inout`, `delta_volfrac_inout`, `pres`, `den`, `sie`, `sspd`) and the locals
of the iterations. -/
inductive TipCell (E : ℕ) where
  | gPres (e : Fin E)
  | gDenom (e : Fin E)
  | gMin (e : Fin E)
  | gLim (e : Fin E)
  | vf (m s : ℕ)
  | dvf (m s : ℕ)
  | pres (m s : ℕ)
  | den (m s : ℕ)
  | sie (m s : ℕ)
  | sspd (m s : ℕ)
  | tmp (i : ℕ)
  deriving DecidableEq

/-- What the loops read and never write: `elem_in_mat_elem` (a row of element numbers for each
material), masses, the fractions `volfrac_in`, volumes and divergences (tipton_equilibration.cpp:452-455),
the constants, and the equations of state of the material points (`calc_pressure` and
`calc_sound_speed` with the stress, the state variables and the moduli fixed). -/
structure TipMesh (K : Type) (E : ℕ) where
  elems : List (List (Fin E))
  mass : ℕ → ℕ → K
  other : ℕ → ℕ → K
  vol : Fin E → K
  div : Fin E → K
  g0 : K
  g1 : K
  fuzz : K
  alpha : K
  dt : K
  eosPres : ℕ → ℕ → (sspd den sie : K) → K
  eosSspd : ℕ → ℕ → (pres den sie : K) → K

/-- `k := g memory`, `g` reading the cells listed. -/
def Action.expr {κ α : Type} (k : κ) (cs : List κ) (g : (κ → α) → α)
    (h : ∀ m m', (∀ c ∈ cs, m c = m' c) → g m = g m' := by intro m m' h; simp [h]) :
    Action κ α where
  dst := k
  reads := fun c => c ∈ cs
  val := g
  frame := h

variable {K : Type} [Field K] [LinearOrder K] [IsStrictOrderedRing K] {E : ℕ}

namespace TipMesh

open TipCell

/-- Row of a material. -/
def row (X : TipMesh K E) (m : ℕ) : List (Fin E) := X.elems.getD m []

/-- The constants at a Gauss point. -/
def pars (X : TipMesh K E) (e : Fin E) : TipPars K := ⟨X.g0, X.g1, X.fuzz, X.div e, X.alpha, X.dt, X.vol e⟩

/-- One iteration of `build_gauss_point_averages`, tipton_equilibration.cpp:336-371; `mixed` is the
outcome of the test in line 351. -/
def avgThread (X : TipMesh K E) (m s : ℕ) (e : Fin E) (mixed : Bool) : List (Action (TipCell E) K) :=
  if mixed then
    [.expr (tmp s) [gMin e] fun v => v (gMin e),
     .expr (gMin e) [vf m s, tmp s] fun v => min (v (vf m s)) (v (tmp s)),
     .expr (tmp s) [gPres e] fun v => v (gPres e),
     .expr (gPres e) [tmp s, vf m s, den m s, sspd m s, pres m s] fun v => v (tmp s) +
       v (vf m s) / (v (den m s) * v (sspd m s) * v (sspd m s) + X.fuzz) * v (pres m s),
     .expr (tmp s) [gDenom e] fun v => v (gDenom e),
     .expr (gDenom e) [tmp s, vf m s, den m s, sspd m s] fun v => v (tmp s) +
       v (vf m s) / (v (den m s) * v (sspd m s) * v (sspd m s) + X.fuzz)]
  else
    [.expr (gPres e) [pres m s] fun v => v (pres m s),
     .expr (gDenom e) [] fun _ => 1]

/-- The test of lines 351 and 459; neither loop writes the fraction. -/
def mixedAt (X : TipMesh K E) (mem : TipCell E → K) (m s : ℕ) : Bool := decide (mem (vf m s) < 1 - X.fuzz)

/-- A loop over the elements of a material. -/
def matLoop (X : TipMesh K E) (body : (TipCell E → K) → ℕ → Fin E → List (Action (TipCell E) K)) (m : ℕ)
    (mem : TipCell E → K) : (n : ℕ) × (Fin n → List (Action (TipCell E) K)) :=
  ⟨(X.row m).length, fun i => body mem i ((X.row m).get i)⟩

/-- `build_gauss_point_averages`, tipton_equilibration.cpp:317-378. -/
def avgLoop (X : TipMesh K E) (m : ℕ) :=
  X.matLoop (fun mem s e => X.avgThread m s e (X.mixedAt mem m s)) m

/-- `calc_gauss_point_averages`, tipton_equilibration.cpp:382-406. -/
def presLoop (X : TipMesh K E) (_mem : TipCell E → K) : (n : ℕ) × (Fin n → List (Action (TipCell E) K)) :=
  ⟨E, fun e => [.expr (gPres e) [gPres e, gDenom e] fun v => v (gPres e) / (v (gDenom e) + X.fuzz)]⟩

/-- One iteration of `calc_volfrac_change`, tipton_equilibration.cpp:437-485. -/
def changeThread (X : TipMesh K E) (m s : ℕ) (e : Fin E) (mixed : Bool) : List (Action (TipCell E) K) :=
  if mixed then
    [.expr (dvf m s) [vf m s, den m s, sspd m s, pres m s, gPres e, gDenom e] fun v =>
       v (vf m s) / (v (den m s) * v (sspd m s) * v (sspd m s) + X.fuzz) * (v (pres m s) - v (gPres e)) /
           (X.g1 + X.fuzz) +
         (v (vf m s) / (v (den m s) * v (sspd m s) * v (sspd m s) + X.fuzz) / (v (gDenom e) + X.fuzz) -
           v (vf m s)) * X.div e * X.alpha * X.dt,
     .expr (tmp s) [gLim e] fun v => v (gLim e),
     .expr (gLim e) [tmp s, gMin e, dvf m s] fun v =>
       min (v (tmp s)) (min 1 (max 0 X.g0) * v (gMin e) / (|v (dvf m s)| + X.fuzz))]
  else
    [.expr (dvf m s) [] fun _ => 0,
     .expr (gLim e) [] fun _ => 1]

/-- `calc_volfrac_change`, tipton_equilibration.cpp:411-492. -/
def changeLoop (X : TipMesh K E) (m : ℕ) :=
  X.matLoop (fun mem s e => X.changeThread m s e (X.mixedAt mem m s)) m

/-- One iteration of `update_state_equilibration`, tipton_equilibration.cpp:524-590. -/
def stateThread (X : TipMesh K E) (m s : ℕ) (e : Fin E) : List (Action (TipCell E) K) :=
  [.expr (tmp s) [vf m s] fun v => v (vf m s),
   .expr (vf m s) [vf m s, gLim e, dvf m s] fun v => min 1 (max 0 (v (vf m s) + v (gLim e) * v (dvf m s))),
   .expr (dvf m s) [vf m s, tmp s] fun v => v (vf m s) - v (tmp s),
   .expr (sie m s) [sie m s, gPres e, dvf m s] fun v =>
     v (sie m s) - v (gPres e) * (v (dvf m s) * X.vol e * X.other m s) / (X.mass m s + 1 / 10 ^ 20),
   .expr (den m s) [vf m s] fun v => X.mass m s / (X.vol e * v (vf m s) * X.other m s + 1 / 10 ^ 20),
   .expr (pres m s) [sspd m s, den m s, sie m s] fun v =>
     X.eosPres m s (v (sspd m s)) (v (den m s)) (v (sie m s)),
   .expr (sspd m s) [pres m s, den m s, sie m s] fun v =>
     X.eosSspd m s (v (pres m s)) (v (den m s)) (v (sie m s))]

/-- `update_state_equilibration`, tipton_equilibration.cpp:495-597. -/
def stateLoop (X : TipMesh K E) (m : ℕ) := X.matLoop (fun _ s e => X.stateThread m s e) m

/-- The four `set_values`, tipton_equilibration.cpp:84-87, 206-209. -/
def reset (mem : TipCell E → K) : TipCell E → K
  | gPres _ => 0
  | gDenom _ => 0
  | gMin _ => 1
  | gLim _ => 1
  | c => mem c

/-- The loops of a pass, in order: tipton_equilibration.cpp:90-183, 212-308. -/
def loops (X : TipMesh K E) : List ((TipCell E → K) → (n : ℕ) × (Fin n → List (Action (TipCell E) K))) :=
  (List.range X.elems.length).map X.avgLoop ++ X.presLoop ::
    ((List.range X.elems.length).map X.changeLoop ++ (List.range X.elems.length).map X.stateLoop)

end TipMesh

/-- Loops one after the other, a fence between them, under some schedules; the actions of a loop may
depend on the memory at its start. -/
inductive RunDyn {κ α : Type} [DecidableEq κ] :
    List ((κ → α) → (n : ℕ) × (Fin n → List (Action κ α))) → (κ → α) → (κ → α) → Prop where
  | nil (m : κ → α) : RunDyn [] m m
  | cons (l) (ls) (s : List (Action κ α)) (m m' : κ → α) :
      Sched (l m).2 s → RunDyn ls (execActions s m) m' → RunDyn (l :: ls) m m'

/-- `mat_equilibration` (tipton_equilibration.cpp:69-185) or `geo_equilibration` (191-310: the two
fractions exchanged) leads from memory `mem` to `mem'`. -/
def TipMesh.Pass (X : TipMesh K E) (mem mem' : TipCell E → K) : Prop :=
  RunDyn X.loops (TipMesh.reset mem) mem'

end Fierro
