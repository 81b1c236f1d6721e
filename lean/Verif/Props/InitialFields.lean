import Verif.Proofs.Parallel
import Verif.Model.InitialFields
import Mathlib.Analysis.SpecialFunctions.Trigonometric.Deriv
import Mathlib.Tactic.Ring
import Mathlib.Tactic.Linarith
import Mathlib.Tactic.FieldSimp
import Mathlib.Tactic.NormNum

/-!
# C59, C60: initial fields
-/

set_option linter.unusedSectionVars false

namespace Fierro

/-! ### C59: nodal fields -/

/-- The velocity a fill prescribes at position `x` in 3D; `none` if the fill does not set the
velocity. -/
noncomputable def velPrescribed (f : NodalFill) (x : Fin 3 → ℝ) : Option (Fin 3 → ℝ) :=
  match f.velField with
  | .cartesian => some ![f.u, f.v, f.w]
  | .radial => some (if Real.sqrt (x 0 ^ 2 + x 1 ^ 2) > 1.0e-14 then
      ![f.speed * (x 0 / Real.sqrt (x 0 ^ 2 + x 1 ^ 2)),
        f.speed * (x 1 / Real.sqrt (x 0 ^ 2 + x 1 ^ 2)), 0] else ![0, 0, 0])
  | .spherical => some (if Real.sqrt (x 0 ^ 2 + x 1 ^ 2 + x 2 ^ 2) > 1.0e-14 then
      fun d => f.speed * (x d / Real.sqrt (x 0 ^ 2 + x 1 ^ 2 + x 2 ^ 2)) else ![0, 0, 0])
  | .tgVortex => some ![Real.sin (Real.pi * x 0) * Real.cos (Real.pi * x 1),
      -(Real.cos (Real.pi * x 0) * Real.sin (Real.pi * x 1)), 0]
  | .stationary => some ![0, 0, 0]
  | _ => none

/-- The temperature a fill prescribes: a uniform value, or nothing (the input parser admits no
other temperature field, parse_regions.cpp:861-885). -/
noncomputable def tempPrescribed (f : NodalFill) : Option ℝ :=
  match f.tempField with
  | .uniform => some f.temperature
  | _ => none

/-- Temperature fields admitted by the parser, parse_regions.cpp:856-890. -/
def NodalFill.Parsed (f : NodalFill) : Prop :=
  f.tempField = .uniform ∨ f.tempField = .tgVortex ∨ f.tempField = .noICs

/-- The last prescription of a list of fills. -/
noncomputable def lastPrescribed {β : Type} (g : NodalFill → Option β) (fills : List NodalFill) :
    Option β :=
  (fills.filterMap g).getLast?

theorem lastPrescribed_cons {β : Type} (g : NodalFill → Option β) (f : NodalFill)
    (fills : List NodalFill) :
    lastPrescribed g (f :: fills) = (lastPrescribed g fills).or (g f) := by
  unfold lastPrescribed
  cases h : g f with
  | none => simp [h]
  | some v =>
    simp only [List.filterMap_cons, h, List.getLast?_cons]
    cases (fills.filterMap g).getLast? <;> rfl

section lastStore
variable {N : ℕ}

theorem lastStore_nil {κ α : Type} [DecidableEq κ] (c : κ) :
    lastStore ([] : List (κ × α)) c = none := rfl

theorem paintNode_vel (coords : Fin N → Fin 3 → ℝ) (f : NodalFill) (n n' : Fin N) (d : Fin 3) :
    lastStore (paintNode true coords f n') (.vel n d)
      = if n' = n then (velPrescribed f (coords n)).map fun v => v d else none := by
  have htemp : ∀ l : List ℝ, lastStore (l.map fun t => ((NodeCell.temp n' : NodeCell N), t))
      (.vel n d) = none := by
    intro l
    induction l with
    | nil => rfl
    | cons t l ih => rw [List.map_cons, lastStore_cons, ih]; simp
  rw [paintNode, lastStore_append, htemp, Option.none_or]
  by_cases hn : n' = n
  · subst hn
    rw [if_pos rfl]
    cases hv : f.velField <;>
      simp only [paintNodeVector, velPrescribed, hv, if_true, List.cons_append, List.nil_append,
        List.map_cons, List.map_nil, lastStore_cons, lastStore_nil, Option.none_or,
        NodeCell.vel.injEq, true_and, Option.map_some, Option.map_none]
    · fin_cases d <;> simp
    · fin_cases d <;> simp
    · have hs : ([0, 1] : List (Fin 3)).foldl (fun r d => r + coords n' d * coords n' d) 0
          = coords n' 0 ^ 2 + coords n' 1 ^ 2 := by simp; ring
      simp only [paintDir, hs]
      by_cases hc : Real.sqrt (coords n' 0 ^ 2 + coords n' 1 ^ 2) > 1.0e-14 <;>
        simp only [hc, if_true, if_false] <;> fin_cases d <;> simp
    · have hs : ([0, 1, 2] : List (Fin 3)).foldl (fun r d => r + coords n' d * coords n' d) 0
          = coords n' 0 ^ 2 + coords n' 1 ^ 2 + coords n' 2 ^ 2 := by simp; ring
      simp only [paintDir, hs]
      by_cases hc : Real.sqrt (coords n' 0 ^ 2 + coords n' 1 ^ 2 + coords n' 2 ^ 2) > 1.0e-14 <;>
        simp only [hc, if_true, if_false] <;> fin_cases d <;> simp
    · fin_cases d <;> simp
  · rw [if_neg hn]
    generalize paintNodeVector true (coords n') f.u f.v f.w f.speed f.velField = l
    induction l with
    | nil => rfl
    | cons p l ih => rw [List.map_cons, lastStore_cons, ih]; simp [hn]

theorem paintNode_temp (coords : Fin N → Fin 3 → ℝ) (f : NodalFill) (hf : f.Parsed)
    (n n' : Fin N) : lastStore (paintNode true coords f n') (.temp n)
      = if n' = n then tempPrescribed f else none := by
  have hvel : ∀ l : List (Fin 3 × ℝ), lastStore
      (l.map fun p => ((NodeCell.vel n' p.1 : NodeCell N), p.2)) (.temp n) = none := by
    intro l
    induction l with
    | nil => rfl
    | cons t l ih => rw [List.map_cons, lastStore_cons, ih]; simp
  rw [paintNode, lastStore_append, hvel, Option.or_none]
  rcases hf with hf | hf | hf <;> simp only [hf, paintNodeScalar, tempPrescribed, List.map_nil,
    List.map_cons, lastStore_cons, lastStore_nil, Option.none_or] <;>
    by_cases hn : n' = n <;> simp [hn]

/-- Stores of an element, cell by cell. -/
theorem paintElemNodes_cell {β : Type} (coords : Fin N → Fin 3 → ℝ) (nodes : List (Fin N))
    (fills : List NodalFill) (c : NodeCell N) (n : Fin N) (g : NodalFill → Option β) (r : β → ℝ)
    (h : ∀ f ∈ fills, ∀ n', lastStore (paintNode true coords f n') c
      = if n' = n then (g f).map r else none) :
    lastStore (paintElemNodes true coords nodes fills) c
      = if n ∈ nodes then (lastPrescribed g fills).map r else none := by
  have hnodes : ∀ f ∈ fills, ∀ ns : List (Fin N),
      lastStore (ns.flatMap fun n => paintNode true coords f n) c
        = if n ∈ ns then (g f).map r else none := by
    intro f hf ns
    induction ns with
    | nil => rfl
    | cons n' ns ih =>
      rw [List.flatMap_cons, lastStore_append, ih, h f hf]
      by_cases h1 : n ∈ ns <;> by_cases h2 : n' = n
      · subst h2; simp [h1]
      · simp [h1, h2]
      · subst h2; simp [h1]
      · simp [h1, h2, Ne.symm h2]
  rw [paintElemNodes]
  induction fills with
  | nil => by_cases hn : n ∈ nodes <;> simp [lastStore_nil, lastPrescribed, hn]
  | cons f fills ih =>
    rw [List.flatMap_cons, lastStore_append,
      ih (fun f' hf' => h f' (List.mem_cons_of_mem _ hf'))
        (fun f' hf' => hnodes f' (List.mem_cons_of_mem _ hf')),
      hnodes f (by simp), lastPrescribed_cons]
    by_cases hn : n ∈ nodes
    · simp only [hn, if_true]
      cases lastPrescribed g fills <;> simp
    · simp [hn]

end lastStore

section
variable {E N : ℕ}

/-- **C59.** Under every schedule of the painting loop each component of the velocity of a node is
the one prescribed by the last velocity fill of *some* element at the node; a node none of whose
elements has a velocity fill keeps its value (3D meshes). -/
theorem C59_velocity_component (coords : Fin N → Fin 3 → ℝ) (nodesInElem : Fin E → List (Fin N))
    (fills : Fin E → List NodalFill) (s : List (Action (NodeCell N) ℝ))
    (hs : Sched (paintLoop true coords nodesInElem fills) s) (m : NodeCell N → ℝ) (n : Fin N)
    (d : Fin 3) :
    (∃ e v, n ∈ nodesInElem e ∧
        lastPrescribed (fun f => velPrescribed f (coords n)) (fills e) = some v ∧
        execActions s m (.vel n d) = v d) ∨
    ((∀ e, n ∈ nodesInElem e →
        lastPrescribed (fun f => velPrescribed f (coords n)) (fills e) = none) ∧
      execActions s m (.vel n d) = m (.vel n d)) := by
  have hcell : ∀ e, lastStore (paintElemNodes true coords (nodesInElem e) (fills e)) (.vel n d)
      = if n ∈ nodesInElem e then
          (lastPrescribed (fun f => velPrescribed f (coords n)) (fills e)).map fun v => v d
        else none := fun e =>
    paintElemNodes_cell coords _ _ _ n _ _ fun f _ n' => paintNode_vel coords f n n' d
  rcases assign_sched _ s hs m (.vel n d) with ⟨e, v, h, hv⟩ | ⟨hall, hv⟩
  · left
    rw [hcell] at h
    split_ifs at h with hmem
    obtain ⟨v', hl, rfl⟩ := Option.map_eq_some_iff.1 h
    exact ⟨e, v', hmem, hl, hv⟩
  · right
    refine ⟨fun e he => ?_, hv⟩
    have := hall e
    rw [hcell, if_pos he] at this
    simpa using this

/-- **C59.** If all elements at a node that have velocity fills prescribe the same velocity there,
this is its velocity under every schedule. -/
theorem C59_velocity_unique (coords : Fin N → Fin 3 → ℝ) (nodesInElem : Fin E → List (Fin N))
    (fills : Fin E → List NodalFill) (s : List (Action (NodeCell N) ℝ))
    (hs : Sched (paintLoop true coords nodesInElem fills) s) (m : NodeCell N → ℝ) (n : Fin N)
    (v : Fin 3 → ℝ)
    (hsome : ∃ e, n ∈ nodesInElem e ∧
      lastPrescribed (fun f => velPrescribed f (coords n)) (fills e) = some v)
    (hagree : ∀ e v', n ∈ nodesInElem e →
      lastPrescribed (fun f => velPrescribed f (coords n)) (fills e) = some v' → v' = v)
    (d : Fin 3) : execActions s m (.vel n d) = v d := by
  rcases C59_velocity_component coords nodesInElem fills s hs m n d with
    ⟨e, v', he, hl, h⟩ | ⟨hall, _⟩
  · rw [h, hagree e v' he hl]
  · obtain ⟨e, he, hl⟩ := hsome
    rw [hall e he] at hl
    cases hl

/-- **C59.** The same for the temperature. -/
theorem C59_temperature (coords : Fin N → Fin 3 → ℝ) (nodesInElem : Fin E → List (Fin N))
    (fills : Fin E → List NodalFill) (hparsed : ∀ e, ∀ f ∈ fills e, f.Parsed)
    (s : List (Action (NodeCell N) ℝ))
    (hs : Sched (paintLoop true coords nodesInElem fills) s) (m : NodeCell N → ℝ) (n : Fin N) :
    (∃ e, n ∈ nodesInElem e ∧
        lastPrescribed tempPrescribed (fills e) = some (execActions s m (.temp n))) ∨
    ((∀ e, n ∈ nodesInElem e → lastPrescribed tempPrescribed (fills e) = none) ∧
      execActions s m (.temp n) = m (.temp n)) := by
  have hcell : ∀ e, lastStore (paintElemNodes true coords (nodesInElem e) (fills e)) (.temp n)
      = if n ∈ nodesInElem e then (lastPrescribed tempPrescribed (fills e)).map id else none :=
    fun e => paintElemNodes_cell coords _ _ _ n _ _ fun f hf n' => by
      rw [paintNode_temp coords f (hparsed e f hf), Option.map_id_fun, id]
  rcases assign_sched _ s hs m (.temp n) with ⟨e, v, h, hv⟩ | ⟨hall, hv⟩
  · left
    rw [hcell] at h
    split_ifs at h with hmem
    rw [Option.map_id_fun, id] at h
    exact ⟨e, hmem, by rw [h, hv]⟩
  · right
    refine ⟨fun e he => ?_, hv⟩
    have := hall e
    rw [hcell, if_pos he] at this
    simpa using this

/-- **C59.** Every element at the node can win: for each element there is a schedule after which
all its nodes have the velocity of its last velocity fill. -/
theorem C59_every_element_can_win (coords : Fin N → Fin 3 → ℝ)
    (nodesInElem : Fin E → List (Fin N)) (fills : Fin E → List NodalFill) (e : Fin E)
    (m : NodeCell N → ℝ) :
    ∃ s, Sched (paintLoop true coords nodesInElem fills) s ∧
      ∀ n ∈ nodesInElem e, ∀ v,
        lastPrescribed (fun f => velPrescribed f (coords n)) (fills e) = some v →
        ∀ d, execActions s m (.vel n d) = v d := by
  obtain ⟨s, hs, h⟩ := assign_sched_attained
    (fun e => paintElemNodes true coords (nodesInElem e) (fills e)) e m
  refine ⟨s, hs, fun n hn v hv d => h (.vel n d) (v d) ?_⟩
  rw [paintElemNodes_cell coords _ _ _ n (fun f => velPrescribed f (coords n)) (fun v => v d)
    fun f _ n' => paintNode_vel coords f n n' d, if_pos hn, hv]
  rfl

end

/-! #### The prescribed fields -/

/-- **C59.** A radial velocity field has the given speed, lies in the x-y plane and points away from
the z axis (towards it for a negative speed), except within 1e-14 of the axis, where it vanishes. -/
theorem C59_radial (f : NodalFill) (hf : f.velField = .radial) (x : Fin 3 → ℝ) :
    ∃ v, velPrescribed f x = some v ∧ v 2 = 0 ∧ x 0 * v 1 = x 1 * v 0 ∧
      (1.0e-14 < Real.sqrt (x 0 ^ 2 + x 1 ^ 2) →
        v 0 ^ 2 + v 1 ^ 2 = f.speed ^ 2 ∧
        x 0 * v 0 + x 1 * v 1 = f.speed * Real.sqrt (x 0 ^ 2 + x 1 ^ 2)) ∧
      (Real.sqrt (x 0 ^ 2 + x 1 ^ 2) ≤ 1.0e-14 → v = 0) := by
  set r := Real.sqrt (x 0 ^ 2 + x 1 ^ 2) with hr
  have hr2 : r ^ 2 = x 0 ^ 2 + x 1 ^ 2 := Real.sq_sqrt (by positivity)
  simp only [velPrescribed, hf, Option.some.injEq, exists_eq_left', ← hr]
  by_cases h : r > 1.0e-14
  · have hpos : 0 < r := lt_trans (by norm_num) h
    simp only [h, if_true]
    refine ⟨by simp, ?_, fun _ => ⟨?_, ?_⟩, fun hle => absurd hle (not_le.2 h)⟩
    · simp; ring
    · simp only [Matrix.cons_val_zero, Matrix.cons_val_one]
      field_simp
      rw [← hr2]
    · simp only [Matrix.cons_val_zero, Matrix.cons_val_one]
      field_simp
      rw [hr2]
  · simp only [h, if_false]
    refine ⟨by simp, by simp, fun hlt => hlt.elim, fun _ => ?_⟩
    funext d; fin_cases d <;> rfl

/-- **C59.** A spherical velocity field has the given speed and is parallel to the position. -/
theorem C59_spherical (f : NodalFill) (hf : f.velField = .spherical) (x : Fin 3 → ℝ)
    (hx : 1.0e-14 < Real.sqrt (x 0 ^ 2 + x 1 ^ 2 + x 2 ^ 2)) :
    ∃ v, velPrescribed f x = some v ∧
      v 0 ^ 2 + v 1 ^ 2 + v 2 ^ 2 = f.speed ^ 2 ∧
      x 0 * v 0 + x 1 * v 1 + x 2 * v 2
        = f.speed * Real.sqrt (x 0 ^ 2 + x 1 ^ 2 + x 2 ^ 2) ∧
      ∀ i j, x i * v j = x j * v i := by
  set r := Real.sqrt (x 0 ^ 2 + x 1 ^ 2 + x 2 ^ 2) with hr
  have hr2 : r ^ 2 = x 0 ^ 2 + x 1 ^ 2 + x 2 ^ 2 := Real.sq_sqrt (by positivity)
  have hpos : 0 < r := lt_trans (by norm_num) hx
  simp only [velPrescribed, hf, Option.some.injEq, exists_eq_left', ← hr, hx, if_true]
  refine ⟨?_, ?_, fun i j => by ring⟩
  · field_simp
    rw [← hr2]
  · field_simp
    rw [hr2]

/-- **C59.** The vortex field is divergence free and has no normal component on the planes where
a coordinate is an integer (the walls of the unit square). -/
theorem C59_vortex (f : NodalFill) (hf : f.velField = .tgVortex) :
    ∃ V : (Fin 3 → ℝ) → Fin 3 → ℝ, (∀ x, velPrescribed f x = some (V x)) ∧
      (∀ x, ∃ a b : ℝ, HasDerivAt (fun t => V (Function.update x 0 t) 0) a (x 0) ∧
        HasDerivAt (fun t => V (Function.update x 1 t) 1) b (x 1) ∧ a + b = 0) ∧
      (∀ x : Fin 3 → ℝ, ∀ k : ℤ, x 0 = (k : ℝ) → V x 0 = 0) ∧
      (∀ x : Fin 3 → ℝ, ∀ k : ℤ, x 1 = (k : ℝ) → V x 1 = 0) ∧
      ∀ x, V x 2 = 0 := by
  refine ⟨fun x => ![Real.sin (Real.pi * x 0) * Real.cos (Real.pi * x 1),
      -(Real.cos (Real.pi * x 0) * Real.sin (Real.pi * x 1)), 0],
    fun x => by simp [velPrescribed, hf], fun x => ?_, fun x k hk => ?_, fun x k hk => ?_,
    fun x => by simp⟩
  · refine ⟨Real.cos (Real.pi * x 0) * (Real.pi * 1) * Real.cos (Real.pi * x 1),
      -(Real.cos (Real.pi * x 0) * (Real.cos (Real.pi * x 1) * (Real.pi * 1))), ?_, ?_, by ring⟩
    · have h := (((hasDerivAt_id (x 0)).const_mul Real.pi).sin).mul_const (Real.cos (Real.pi * x 1))
      simpa using h
    · have h := ((((hasDerivAt_id (x 1)).const_mul Real.pi).sin).const_mul
        (Real.cos (Real.pi * x 0))).neg
      simp only [Function.update_self, Matrix.cons_val_one]
      exact h.congr_of_eventuallyEq (Filter.Eventually.of_forall fun t => by
        simp [Function.update])
  · simp [hk, mul_comm Real.pi, Real.sin_int_mul_pi]
  · simp [hk, mul_comm Real.pi, Real.sin_int_mul_pi]

/-! #### What fails -/

/-- Two fills with velocities (1,0,0) and (0,1,0). -/
noncomputable def raceFills : Fin 2 → List NodalFill :=
  ![[⟨.cartesian, 1, 0, 0, 0, .noICs, 0⟩], [⟨.cartesian, 0, 1, 0, 0, .noICs, 0⟩]]

/-- **C59.** The initial velocity of a node between two regions is not determined by the input: two
schedules give different velocities, and a third gives the velocity (1,1,0) that neither region
prescribes, because the components are stored one by one without synchronisation. -/
theorem C59_interface_race_fails :
    ∃ s1 s2 s3 : List (Action (NodeCell 1) ℝ),
      Sched (paintLoop true (fun _ _ => 0) (fun _ => [0]) raceFills) s1 ∧
      Sched (paintLoop true (fun _ _ => 0) (fun _ => [0]) raceFills) s2 ∧
      Sched (paintLoop true (fun _ _ => 0) (fun _ => [0]) raceFills) s3 ∧
      (execActions s1 (fun _ => 0) (.vel 0 0) = 1 ∧ execActions s1 (fun _ => 0) (.vel 0 1) = 0) ∧
      (execActions s2 (fun _ => 0) (.vel 0 0) = 0 ∧ execActions s2 (fun _ => 0) (.vel 0 1) = 1) ∧
      (execActions s3 (fun _ => 0) (.vel 0 0) = 1 ∧ execActions s3 (fun _ => 0) (.vel 0 1) = 1) := by
  have h0 : paintLoop true (fun _ _ => 0) (fun _ => [(0 : Fin 1)]) raceFills 0
      = [Action.assign (.vel 0 0) 1, Action.assign (.vel 0 1) 0, Action.assign (.vel 0 2) 0] := by
    simp [paintLoop, raceFills, paintElemNodes, paintNode, paintNodeVector, paintNodeScalar]
  have h1 : paintLoop true (fun _ _ => 0) (fun _ => [(0 : Fin 1)]) raceFills 1
      = [Action.assign (.vel 0 0) 0, Action.assign (.vel 0 1) 1, Action.assign (.vel 0 2) 0] := by
    simp [paintLoop, raceFills, paintElemNodes, paintNode, paintNodeVector, paintNodeScalar]
  have hL : paintLoop true (fun _ _ => 0) (fun _ => [(0 : Fin 1)]) raceFills
      = ![[Action.assign (.vel 0 0) 1, Action.assign (.vel 0 1) 0, Action.assign (.vel 0 2) 0],
          [Action.assign (.vel 0 0) 0, Action.assign (.vel 0 1) 1,
            Action.assign (.vel 0 2) 0]] := by
    funext i
    fin_cases i
    · exact h0
    · exact h1
  refine ⟨[.assign (.vel 0 0) 0, .assign (.vel 0 1) 1, .assign (.vel 0 2) 0,
      .assign (.vel 0 0) 1, .assign (.vel 0 1) 0, .assign (.vel 0 2) 0],
    [.assign (.vel 0 0) 1, .assign (.vel 0 1) 0, .assign (.vel 0 2) 0,
      .assign (.vel 0 0) 0, .assign (.vel 0 1) 1, .assign (.vel 0 2) 0],
    [.assign (.vel 0 0) 0, .assign (.vel 0 0) 1, .assign (.vel 0 1) 0, .assign (.vel 0 1) 1,
      .assign (.vel 0 2) 0, .assign (.vel 0 2) 0], ?_, ?_, ?_, ?_, ?_, ?_⟩
  · rw [hL]
    refine Sched.step _ 1 _ _ _ rfl ?_
    refine Sched.step _ 1 _ _ _ rfl ?_
    refine Sched.step _ 1 _ _ _ rfl ?_
    refine Sched.step _ 0 _ _ _ rfl ?_
    refine Sched.step _ 0 _ _ _ rfl ?_
    refine Sched.step _ 0 _ _ _ rfl ?_
    refine Sched.done _ fun i => ?_
    fin_cases i <;> rfl
  · rw [hL]
    refine Sched.step _ 0 _ _ _ rfl ?_
    refine Sched.step _ 0 _ _ _ rfl ?_
    refine Sched.step _ 0 _ _ _ rfl ?_
    refine Sched.step _ 1 _ _ _ rfl ?_
    refine Sched.step _ 1 _ _ _ rfl ?_
    refine Sched.step _ 1 _ _ _ rfl ?_
    refine Sched.done _ fun i => ?_
    fin_cases i <;> rfl
  · rw [hL]
    refine Sched.step _ 1 _ _ _ rfl ?_
    refine Sched.step _ 0 _ _ _ rfl ?_
    refine Sched.step _ 0 _ _ _ rfl ?_
    refine Sched.step _ 1 _ _ _ rfl ?_
    refine Sched.step _ 1 _ _ _ rfl ?_
    refine Sched.step _ 0 _ _ _ rfl ?_
    refine Sched.done _ fun i => ?_
    fin_cases i <;> rfl
  all_goals simp [execActions, Action.run, Action.assign, Function.update]

/-- **C59.** The velocity types `radial_linear` and `spherical_linear` are accepted by the input
parser but set nothing: the velocity of all nodes stays what it was. -/
theorem C59_linear_velocity_fails (is3 : Bool) (x : Fin 3 → ℝ) (u v w speed : ℝ) :
    paintNodeVector is3 x u v w speed .radialLinear = [] ∧
      paintNodeVector is3 x u v w speed .sphericalLinear = [] := ⟨rfl, rfl⟩

/-- **C59.** In 2D the spherical velocity field is wrong: the third coordinate read is the memory
behind the node (the first coordinate of the next node), so at (3, 0) with 4 behind it a field of
speed 1 has speed 3/5. -/
theorem C59_spherical_2d_fails :
    paintNodeVector false ![3, 0, 4] 0 0 0 1 .spherical = [(0, 3 / 5), (1, 0)] := by
  have h5 : Real.sqrt 25 = 5 := by
    rw [show (25 : ℝ) = 5 ^ 2 by norm_num]; exact Real.sqrt_sq (by norm_num)
  have hs : ([0, 1, 2] : List (Fin 3)).foldl
      (fun r d => r + (![3, 0, 4] : Fin 3 → ℝ) d * (![3, 0, 4] : Fin 3 → ℝ) d) 0 = 25 := by
    simp; norm_num
  simp only [paintNodeVector, paintDir, hs, h5]
  norm_num

/-- Two elements with the same radial fill agree at their common node. -/
example : ∃ v, lastPrescribed (fun f => velPrescribed f ![0, 2, 0])
    [⟨.stationary, 0, 0, 0, 0, .noICs, 0⟩, ⟨.radial, 0, 0, 0, 3, .uniform, 300⟩] = some v := by
  simp [lastPrescribed, velPrescribed]

/-! ### C60: element fields -/

/-- Fields admitted by the input parser for density, energies, specific heat and conductivity,
parse_regions.cpp:196-220, 297-321, 397-421, 496-520, 597-621. -/
def ParsedElemField (k : ScalarField) : Prop := k = .uniform ∨ k = .tgVortex ∨ k = .noICs

/-- **C60.** Density, energies, specific heat and conductivity: a uniform field is painted as given
on every element, any other admitted field is not painted. -/
theorem C60_painted (dims : ℕ) (x orig : Fin 3 → ℝ) (scalar slope : ℝ) (k : ScalarField)
    (hk : ParsedElemField k) :
    paintElem dims x scalar slope orig k = if k = .uniform then some scalar else none := by
  rcases hk with rfl | rfl | rfl <;> rfl

/-- **C60.** A fill with extensive energy `ie` gives each of its elements exactly that much internal
energy; a fill with specific energy gives mass times it; the mass is density times the volume
occupied by the material. -/
theorem C60_energy (vol vf gvf den sie ie : ℝ) (hden : 0 < den) (hvol : 0 < vol) (hvf : 0 < vf)
    (hgvf : 0 < gvf) :
    (setupMassEnergy vol vf gvf den sie ie true).2 = some sie ∧
    (setupMassEnergy vol vf gvf den sie ie true).1 = den * (vol * vf * gvf) ∧
    ∃ e, (setupMassEnergy vol vf gvf den sie ie false).2 = some e ∧
      (setupMassEnergy vol vf gvf den sie ie false).1 * e = ie := by
  have hm : den * (vol * vf * gvf) ≠ 0 := by positivity
  refine ⟨by simp [setupMassEnergy], rfl, ie / (den * (vol * vf * gvf)), ?_, ?_⟩
  · simp only [setupMassEnergy, hm, if_false, Bool.false_eq_true]
  · exact mul_div_cancel₀ _ hm

/-- **C60.** The energy deposited by an extensive fill grows with the number of its elements: the
sum over `n` elements is `n * ie` (the value is per element, not per region). -/
theorem C60_energy_per_element (ie : ℝ) (els : List (ℝ × ℝ × ℝ × ℝ))
    (h : ∀ q ∈ els, 0 < q.1 ∧ 0 < q.2.1 ∧ 0 < q.2.2.1 ∧ 0 < q.2.2.2) :
    (els.map fun q => (setupMassEnergy q.1 q.2.1 q.2.2.1 q.2.2.2 0 ie false).1 *
      ((setupMassEnergy q.1 q.2.1 q.2.2.1 q.2.2.2 0 ie false).2.getD 0)).sum
      = els.length * ie := by
  induction els with
  | nil => simp
  | cons q els ih =>
    obtain ⟨hv, hvf, hg, hd⟩ := h q (by simp)
    obtain ⟨e, he, hm⟩ := (C60_energy q.1 q.2.1 q.2.2.1 q.2.2.2 0 ie hd hv hvf hg).2.2
    rw [List.map_cons, List.sum_cons, ih fun q' hq' => h q' (List.mem_cons_of_mem _ hq'), he,
      Option.getD_some, hm]
    push_cast [List.length_cons]
    ring

/-- Squared distance in the first `dims` dimensions. -/
noncomputable def sqDist (dims : ℕ) (x y : Fin 3 → ℝ) : ℝ :=
  ∑ d : Fin 3, if (d : ℕ) < dims then (x d - y d) ^ 2 else 0

/-- **C60.** A spherical level set with positive slope is negative inside, zero on and positive
outside the sphere (circle in 2D) around the origin with radius `value / slope`, and for slope one
it is the signed distance. -/
theorem C60_level_set_sphere (dims : ℕ) (hd : dims = 2 ∨ dims = 3) (x orig : Fin 3 → ℝ)
    (value slope : ℝ) (hs : 0 < slope) (hv : 0 ≤ value) :
    ∃ φ, paintElem dims x value slope orig .spherical = some φ ∧
      (φ < 0 ↔ sqDist dims x orig < (value / slope) ^ 2) ∧
      (φ = 0 ↔ sqDist dims x orig = (value / slope) ^ 2) ∧
      (slope = 1 → φ = Real.sqrt (sqDist dims x orig) - value) := by
  have hsum : ((List.finRange 3).take dims).foldl
      (fun r d => r + (x d - orig d) * (x d - orig d)) 0 = sqDist dims x orig := by
    have h3 : List.finRange 3 = [0, 1, 2] := rfl
    rcases hd with rfl | rfl <;> rw [h3] <;> simp [sqDist, Fin.sum_univ_three] <;> ring
  have hnn : 0 ≤ sqDist dims x orig := by
    apply Finset.sum_nonneg
    intro d _
    split_ifs <;> positivity
  set D := sqDist dims x orig
  have hq : 0 ≤ value / slope := by positivity
  refine ⟨slope * Real.sqrt D - value, by simp only [paintElem, hsum], ?_, ?_, ?_⟩
  · rw [← Real.sqrt_lt_sqrt_iff hnn, Real.sqrt_sq hq, lt_div_iff₀ hs]
    constructor <;> intro h <;> nlinarith
  · rw [← Real.sqrt_inj hnn (by positivity), Real.sqrt_sq hq, eq_div_iff hs.ne']
    constructor <;> intro h <;> linarith
  · rintro rfl; ring

/-- **C60.** Linear level sets vanish exactly on the plane `slope * coordinate = -value`. -/
theorem C60_level_set_plane (dims : ℕ) (x orig : Fin 3 → ℝ) (value slope : ℝ) (hs : slope ≠ 0) :
    (paintElem dims x value slope orig .xlinear = some 0 ↔ x 0 = -value / slope) ∧
    (paintElem dims x value slope orig .ylinear = some 0 ↔ x 1 = -value / slope) ∧
    (paintElem dims x value slope orig .zlinear = some 0 ↔ x 2 = -value / slope) := by
  have key : ∀ y : ℝ, slope * y + value = 0 ↔ y = -value / slope := by
    intro y
    rw [eq_div_iff hs]
    constructor <;> intro h <;> linarith
  simp [paintElem, key]

/-- **C60.** The level set of an element is the smallest one of its materials (at most 1e32): it is
negative exactly where one of them is. -/
theorem C60_level_set_union (painted : List ℝ) (b : ℝ) (hb : b ≤ 1.0e32) :
    setupLevelSet painted < b ↔ ∃ φ ∈ painted, φ < b := by
  have key : ∀ (l : List ℝ) (a : ℝ), b ≤ a → (l.foldl min a < b ↔ ∃ φ ∈ l, φ < b) := by
    intro l
    induction l with
    | nil => intro a ha; simp [ha]
    | cons φ l ih =>
      intro a ha
      rw [List.foldl_cons]
      by_cases hφ : φ < b
      · simp only [List.mem_cons, exists_eq_or_imp, hφ, true_or, iff_true]
        have hle : ∀ (l : List ℝ) (a : ℝ), l.foldl min a ≤ a := by
          intro l
          induction l with
          | nil => intro a; exact le_refl a
          | cons y l ih => intro a; exact (ih _).trans (min_le_left _ _)
        exact lt_of_le_of_lt ((hle l _).trans (min_le_right _ _)) hφ
      · rw [ih _ (le_min ha (not_lt.1 hφ))]
        simp [hφ]
  exact key painted _ hb

/-- **C60.** A radial (cylindrical) level set is wrong: the value is squared, so the zero contour of
`value = 2, slope = 1` is the cylinder of radius 4, not 2. -/
theorem C60_level_set_radial_fails :
    paintElem 3 ![4, 0, 0] 2 1 ![0, 0, 0] .radial = some 0 ∧
      paintElem 3 ![2, 0, 0] 2 1 ![0, 0, 0] .radial ≠ some 0 := by
  have h4 : Real.sqrt (4 * 4) = 4 := Real.sqrt_mul_self (by norm_num)
  have h2 : Real.sqrt (2 * 2) = 2 := Real.sqrt_mul_self (by norm_num)
  constructor
  · simp [paintElem, h4]; norm_num
  · simp [paintElem, h2]; norm_num

/-- **C60.** The field type `tg_vortex` is accepted for density, energy and the other scalars but
stores nothing, so the material keeps whatever the array held. -/
theorem C60_vortex_scalar_fails (dims : ℕ) (x orig : Fin 3 → ℝ) (scalar slope : ℝ) :
    ParsedElemField .tgVortex ∧ paintElem dims x scalar slope orig .tgVortex = none :=
  ⟨Or.inr (Or.inl rfl), rfl⟩

end Fierro
