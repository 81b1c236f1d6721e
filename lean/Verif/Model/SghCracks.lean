import Verif.Model.SghWhole
import Verif.Model.ContactForce
import Verif.Model.Cohesive

/-!
# A whole run of the 3D hydrodynamics solver with contact and cohesive zones

`SGH3D::execute`, `apps/multiphysics/src/Solvers/SGH_solver_3D/src/sgh_execute.cpp:57-677`, with the parts that
`Model/SghWhole.lean` leaves out: the forces of the cohesive zones (lines 401-434), the contact forces (441-457, and
`momentum.cpp:68-76`) and the variables that live from one cycle to the next.

Simplifications: the search for contact (`sort`, `penetration_sweep`), the increment of one pair
(`frictionless_increment`) and the release of pairs (`remove_pairs`) are arbitrary functions of what they may read; they
are modelled in `Model/ContactSearch.lean`, `Model/ContactPairs.lean` and `Model/ContactForce.lean`.  So are the normal
and the area of a crack pair, functions of the coordinates (`Cohesive.orientation`, `Cohesive.pairArea`).  The
reorientation test (lines 295-311, 437-439) is not part of this model.
-/

namespace Fierro

variable {E N M P m : ℕ} {X : Type}

/-! ### Cohesive zones -/

/-- A row of `overlapping_node_gids`, with the normal and the area computed for it in every stage,
fracture.cpp:1710-1721 and 1750-1769. -/
structure CrackPair (N : ℕ) where
  a : Fin N
  b : Fin N
  normal : (Fin N → Fin 3 → ℝ) → Fin 3 → ℝ
  area : (Fin N → Fin 3 → ℝ) → ℝ

/-- `cohesive_zones_bank` after `initialize` and `initialize_fracture_bc`. -/
structure Crack (N P m : ℕ) where
  law : Cohesive.Law m
  pairs : Fin P → CrackPair N

/-- The openings of a pair, fracture.cpp:1723-1735. -/
noncomputable def Crack.openingOf (C : Crack N P m) (st : SghState ℝ E N) (dt : ℝ) (p : Fin P) : Cohesive.Opening :=
  let q := C.pairs p
  Cohesive.opening (q.normal st.coords) (st.coords q.a) (st.coords q.b) (st.vel q.a) (st.vel q.b) dt

/-- The force of a pair, fracture.cpp:1411-1680: with the tractions the increments would lead to. -/
noncomputable def Crack.load (C : Crack N P m) (st : SghState ℝ E N) (dt : ℝ) (vars : Fin P → Cohesive.Vars m)
    (p : Fin P) : Cohesive.Pair N :=
  let q := C.pairs p
  let v := vars p
  let d := Cohesive.increment C.law dt (C.openingOf st dt p) v
  { a := q.a, b := q.b
    force := Cohesive.pairForce (q.normal st.coords) (st.coords q.a) (st.coords q.b) (q.area st.coords)
      (v.tn + d.tn) (v.tt + d.tt) }

/-- `compute_cohesive_zone_nodal_forces`: `F_cz`, fracture.cpp:1690-1773. -/
noncomputable def Crack.forces (C : Crack N P m) (st : SghState ℝ E N) (dt : ℝ) (vars : Fin P → Cohesive.Vars m) :
    Fin N → Fin 3 → ℝ :=
  Cohesive.allForces ((List.finRange P).map (C.load st dt vars))

/-! ### Contact -/

/-- What contact needs besides its variables, `contact_state_t::initialize`, contact.cpp:2574-2801. -/
structure ContactSetup (E N M : ℕ) (X : Type) where
  bdy : Fin M → Fin N
  preload : Bool
  /-- `max_global_iter` -/
  maxIter : ℕ
  /-- `sort` and `penetration_sweep`: the pairs, boundary.cpp:116-132 -/
  sweep : X → SghState ℝ E N → ℝ → X × List (Contact.Pair ℝ M)
  /-- `frictionless_increment` -/
  incr : SghState ℝ E N → ℝ → Contact.Forces ℝ M → Contact.Pair ℝ M → Contact.Pair ℝ M
  /-- `remove_pairs`, boundary.cpp:141-145 -/
  release : X → SghState ℝ E N → Contact.Resolved ℝ M → ℝ → X

open Classical in
/-- The time increment contact is computed with, sgh_execute.cpp:445-456. -/
noncomputable def contactTime (preload : Bool) (timeFinal time alpha dt : ℝ) : ℝ :=
  if preload then
    if time < (timeFinal - time) / 2 then (timeFinal - time) / 2 else 5 * dt * alpha
  else dt

/-- `boundary_contact_force`, boundary.cpp:113-147, from zero forces (sgh_execute.cpp:443-444): the variables of contact
and `contact_force`. -/
noncomputable def ContactSetup.apply (D : ContactSetup E N M X) (x : X) (st : SghState ℝ E N) (del : ℝ) :
    X × (Fin N → Fin 3 → ℝ) :=
  let s := D.sweep x st del
  let r := Contact.resolve (D.incr st del) D.maxIter s.2 fun _ _ => 0
  (D.release s.1 st r del, Contact.scatter D.bdy r.forces)

/-! ### The run -/

/-- Everything a run reads and does not change.  `contact` is `none` without `doing_contact`, `crack` is `none` without
`doing_fracture`. -/
structure CrackJob (E N M P m : ℕ) (X : Type) where
  base : SghJob E N
  contact : Option (ContactSetup E N M X)
  crack : Option (Crack N P m)
  /-- the variables of contact after `initialize` -/
  fresh : X

/-- The state that lives from one stage to the next. -/
structure CrackState (E N M P m : ℕ) (X : Type) where
  st : SghState ℝ E N
  /-- variables of `Contact_State` -/
  marks : X
  /-- `Contact_State.contact_force` -/
  cforce : Fin N → Fin 3 → ℝ
  /-- `internal_vars` -/
  vars : Fin P → Cohesive.Vars m

/-- `node.force` when the velocity update is called, sgh_execute.cpp:386-434. -/
noncomputable def CrackJob.nodeForce (J : CrackJob E N M P m X) (time alpha dt : ℝ) (z : CrackState E N M P m X) :
    Fin N → Fin 3 → ℝ :=
  match J.crack with
  | none => J.base.env.ext z.st time
  | some C => Cohesive.addNodal (J.base.env.ext z.st time) (C.forces z.st (alpha * dt) z.vars)

/-- `internal_vars` after a stage: committed in the last one only, sgh_execute.cpp:421-425. -/
noncomputable def CrackJob.newVars (J : CrackJob E N M P m X) (last : Bool) (alpha dt : ℝ)
    (z : CrackState E N M P m X) : Fin P → Cohesive.Vars m :=
  match J.crack with
  | none => z.vars
  | some C => fun p => Cohesive.stage C.law last (alpha * dt) (C.openingOf z.st (alpha * dt) p) (z.vars p)

/-- Contact variables and `contact_force` after a stage: computed in the last one only, sgh_execute.cpp:441-457. -/
noncomputable def CrackJob.newContact (J : CrackJob E N M P m X) (last : Bool) (time alpha dt : ℝ)
    (z : CrackState E N M P m X) : X × (Fin N → Fin 3 → ℝ) :=
  match J.contact with
  | none => (z.marks, z.cforce)
  | some D =>
    if last then D.apply z.marks z.st (contactTime D.preload J.base.clock.timeFinal time alpha dt)
    else (z.marks, z.cforce)

/-- The forces `update_velocity` adds to the corner forces, momentum.cpp:66-76. -/
noncomputable def CrackJob.outer (J : CrackJob E N M P m X) (last : Bool) (time alpha dt : ℝ)
    (z : CrackState E N M P m X) : Fin N → Fin 3 → ℝ :=
  match J.contact with
  | none => J.nodeForce time alpha dt z
  | some _ => fun n d => J.nodeForce time alpha dt z n d + (J.newContact last time alpha dt z).2 n d

/-- One Runge-Kutta stage, sgh_execute.cpp:285-581. -/
noncomputable def CrackJob.stage (J : CrackJob E N M P m X) (last : Bool) (time alpha dt : ℝ)
    (z : CrackState E N M P m X) : CrackState E N M P m X :=
  let f := J.outer last time alpha dt z
  { st := sghStage { J.base.env with ext := fun _ _ => f } time alpha dt z.st
    marks := (J.newContact last time alpha dt z).1
    cforce := (J.newContact last time alpha dt z).2
    vars := J.newVars last alpha dt z }

/-- One cycle, sgh_execute.cpp:266-581. -/
noncomputable def CrackJob.oneCycle (J : CrackJob E N M P m X) (time dt : ℝ) (z : CrackState E N M P m X) :
    CrackState E N M P m X :=
  (List.range J.base.stages).foldl
    (fun z s => J.stage (decide (s + 1 = J.base.stages)) time (rkAlpha J.base.stages s) dt z)
    { z with st := rkInit z.st }

/-- The variables of the loop. -/
structure CrackLoop (E N M P m : ℕ) (X : Type) where
  z : CrackState E N M P m X
  clock : Clock
  frames : List (SghState ℝ E N)

/-- The time step of a cycle, sgh_execute.cpp:219-252. -/
noncomputable def CrackJob.stepOf (J : CrackJob E N M P m X) (s : CrackLoop E N M P m X) : ℝ :=
  cycleDt J.base.clock (J.base.cfl s.z.st) s.clock.time s.clock.gtime s.clock.dt

/-- From the start of `execute` to the loop, sgh_execute.cpp:64-207: contact starts afresh (contact.cpp:2616-2617,
2800-2801) and the internal variables of the crack are set to zero (line 79, fracture.cpp:251-254). -/
noncomputable def CrackJob.start (J : CrackJob E N M P m X) (st : SghState ℝ E N) : CrackLoop E N M P m X :=
  let st := { st with vel := boundaryVelocity J.base.env.sets J.base.clock.timeStart st.vel }
  { z := { st := st, marks := J.fresh, cforce := fun _ _ => 0, vars := fun _ => Cohesive.Vars.zero m }
    clock := clockInit J.base.clock, frames := [st] }

/-- One pass of the cycle loop, sgh_execute.cpp:217-617. -/
noncomputable def CrackJob.cycle (J : CrackJob E N M P m X) (c : ℕ) (s : CrackLoop E N M P m X) :
    CrackLoop E N M P m X :=
  let dt := J.stepOf s
  let z := J.oneCycle s.clock.time dt s.z
  let t := tickClock J.base.clock c dt s.clock
  { z := z, clock := t.1, frames := if t.2 then z.st :: s.frames else s.frames }

open Classical in
/-- The cycle loop, sgh_execute.cpp:211-623, with `n = cycle_stop - cycle` passes left. -/
noncomputable def CrackJob.loop (J : CrackJob E N M P m X) :
    ℕ → ℕ → CrackLoop E N M P m X → CrackLoop E N M P m X × ℕ
  | 0, c, s => (s, c)
  | n + 1, c, s =>
    let s' := J.cycle c s
    if s'.clock.time ≥ J.base.clock.timeFinal then (s', c + 1) else J.loop n (c + 1) s'

/-- What a run leaves. -/
structure CrackEnd (E N M P m : ℕ) (X : Type) where
  loop : CrackLoop E N M P m X
  cycles : ℕ
  tally : SghTally

/-- `execute`; `none` is the remainder by a zero dump interval (line 587). -/
noncomputable def CrackJob.execute (J : CrackJob E N M P m X) (st : SghState ℝ E N) :
    Option (CrackEnd E N M P m X) :=
  if J.base.clock.cycIval = 0 ∧ 0 < J.base.clock.cycleStop then none
  else
    let s0 := J.start st
    let r := J.loop J.base.clock.cycleStop 0 s0
    some { loop := r.1, cycles := r.2, tally := J.base.tally s0.z.st r.1.z.st }

end Fierro
