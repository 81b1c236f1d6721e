import Verif.Model.LsWhole

/-!
# Mechanics and heat conduction in one simulation

`Driver::execute`, `apps/multiphysics/src/driver.cpp:287-297`, when the input lists solvers of all three kinds: the
hydrodynamics and level set solvers of `Model/LsWhole.lean` and the thermal solver of `Model/ThermRun.lean` work on
one `State_t`.  Nodes, nodal masses, densities and erosion flags are shared; each solver has its own other fields.
-/

namespace Fierro

variable {E N : ℕ}

/-- The fields of a material point only the thermal solver uses (`MaterialPoints.conductivity`, `specific_heat`,
`q_flux`, common/include/state.hpp:490-492). -/
structure HeatPt where
  conductivity : ℝ
  specificHeat : ℝ
  qFlux : Fin 3 → ℝ

/-- The fields of `State_t` only the thermal solver uses. -/
structure HeatState (E N : ℕ) where
  temp : Fin N → ℝ
  tempN0 : Fin N → ℝ
  cornerQ : Fin E × Fin 8 → ℝ
  pts : List (List HeatPt)

/-- `State_t`: the fields of the hydrodynamics and level set solvers, and those of the thermal solver.  The material
points are the same in both, in the same order. -/
structure SimState (E N : ℕ) where
  mech : DriverState E N
  heat : HeatState E N

/-- A material point as the thermal solver sees it. -/
def thermPoint (p : MatPt ℝ E) (h : HeatPt) : ThermPt E :=
  { elem := p.elem, conductivity := h.conductivity, den := p.den, specificHeat := h.specificHeat, eroded := p.eroded,
    qFlux := h.qFlux }

/-- The state as the thermal solver sees it. -/
def SimState.therm (s : SimState E N) : ThermState E N :=
  { temp := s.heat.temp, tempN0 := s.heat.tempN0, cornerQ := s.heat.cornerQ
    mats := List.zipWith (fun m hs => List.zipWith thermPoint m.pts hs) s.mech.hydro.mats s.heat.pts }

/-- What the thermal solver writes into a material point: density (properties.cpp:82-98, with a moving source) and the
erosion flag (heat_flux.cpp:129-132). -/
def absorbPoint (p : MatPt ℝ E) (q : ThermPt E) : MatPt ℝ E := { p with den := q.den, eroded := q.eroded }

/-- The state after a thermal solver that left `t` after `n` cycles.  Its `rk_init` also saves the coordinates
(time_integration.cpp:70-76). -/
def SimState.absorb (s : SimState E N) (t : ThermState E N) (n : ℕ) : SimState E N :=
  { mech := { s.mech with hydro := { s.mech.hydro with
      coordsN0 := if 0 < n then s.mech.hydro.coords else s.mech.hydro.coordsN0
      mats := List.zipWith (fun m qs => { m with pts := List.zipWith absorbPoint m.pts qs }) s.mech.hydro.mats t.mats } }
    heat := { temp := t.temp, tempN0 := t.tempN0, cornerQ := t.cornerQ
              pts := t.mats.map fun qs => qs.map fun q => ⟨q.conductivity, q.specificHeat, q.qFlux⟩ } }

/-- The kinds of solver; `moving` is `use_moving_heat_source` of the solver, which is read per solver
(sgtm_execute.cpp:161, 286, 360). -/
inductive SimKind
  | mech (k : SolverKind)
  | thermal (moving : Bool)

/-- What a solver of the chain leaves. -/
inductive SimEnd (E N : ℕ)
  | mech (r : SolverEnd E N)
  | thermal (r : ThermLoop E N) (cycles : ℕ)

/-- The input: options of all kinds of solver. -/
structure SimJob (E N : ℕ) where
  mech : DriverJob E N
  therm : ThermJob E N

/-- A thermal solver of the chain, in its window (driver.cpp:334-398): mesh and nodal masses are those of the
hydrodynamics solver (both setups compute the masses from the same material points, sgtm_setup.cpp:83-103 and
sgh_setup.cpp:91-111), the coordinates those of the moment. -/
def SimJob.thermal (D : SimJob E N) (moving : Bool) (w : Window) (coords : Fin N → Fin 3 → ℝ) : ThermJob E N :=
  { D.therm with
    mesh := D.mech.sgh.env.mesh, mass := D.mech.sgh.env.mass, coords := coords, moving := moving
    clock := { D.therm.clock with timeStart := w.start, timeFinal := w.stop } }

/-- One solver of the chain, driver.cpp:291-294. -/
noncomputable def SimJob.step (D : SimJob E N) (k : SimKind) (w : Window) (s : SimState E N) :
    Option (SimEnd E N × SimState E N) :=
  match k with
  | .mech k => (D.mech.step k w s.mech).map fun r => (.mech r.1, { s with mech := r.2 })
  | .thermal moving => ((D.thermal moving w s.mech.hydro.coords).execute s.therm).map fun r =>
      (.thermal r.1 r.2, s.absorb r.1.st r.2)

/-- `Driver::execute`, driver.cpp:287-297: one solver after the other. -/
noncomputable def SimJob.run (D : SimJob E N) :
    List (SimKind × Window) → SimState E N → Option (List (SimEnd E N) × SimState E N)
  | [], s => some ([], s)
  | (k, w) :: ks, s =>
    match D.step k w s with
    | none => none
    | some (r, s') => (D.run ks s').map fun q => (r :: q.1, q.2)

end Fierro
