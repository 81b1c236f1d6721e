import Verif.Proofs.Parallel
import Verif.Model.Sgh
import Verif.Model.Sgtm
import Verif.Model.TimeStep
import Mathlib.Tactic.Ring
import Mathlib.Tactic.Linarith

/-!
# C58: parallel loops give the result of the sequential ones, under every schedule

The models of the solvers use sequential loops.  Here the loops of the source are modelled as
concurrent iterations and every interleaving is shown to give the sequential result; `+=` on
shared arrays is a load and a store unless the source uses `Kokkos::atomic_add`.
-/

set_option linter.unusedSectionVars false

namespace Fierro

/-! ### General -/

/-- **C58.** If no iteration of a parallel loop writes a cell that another iteration reads or
writes, every interleaving of the iterations ends with the memory of the sequential loop. -/
theorem C58_conflict_free {κ α : Type} [DecidableEq κ] {n : ℕ} (t : Fin n → List (Action κ α))
    (h : ∀ i j, i ≠ j → ∀ a ∈ t i, ∀ b ∈ t j, a.dst ≠ b.dst ∧ ¬ b.reads a.dst)
    (s : List (Action κ α)) (hs : Sched t s) (m : κ → α) :
    execActions s m = (List.finRange n).foldl (fun m i => execActions (t i) m) m :=
  par_eq_seq t h s hs m

/-- Some schedule always exists (the sequential one), so the theorems are not vacuous. -/
theorem C58_schedule_exists {κ α : Type} {n : ℕ} (t : Fin n → List (Action κ α)) :
    Sched t ((List.finRange n).flatMap t) :=
  sched_seq _ (List.nodup_finRange n) t (by simp)

/-- Every sequence of loops can be executed. -/
theorem C58_run_exists {κ α : Type} [DecidableEq κ]
    (ls : List ((n : ℕ) × (Fin n → List (Action κ α)))) (m : κ → α) :
    ∃ m', RunLoops ls m m' := by
  induction ls generalizing m with
  | nil => exact ⟨m, RunLoops.nil m⟩
  | cons l ls ih =>
    obtain ⟨m', h⟩ := ih (execActions ((List.finRange l.1).flatMap l.2) m)
    exact ⟨m', RunLoops.cons l ls _ m m' (C58_schedule_exists l.2) h⟩

/-- Runs of a sequence of loops: if each loop acts on a view of the memory as a function, the
sequence acts as the composition. -/
theorem runLoops_view {κ α β L : Type} [DecidableEq κ] (view : (κ → α) → β)
    (loop : L → (n : ℕ) × (Fin n → List (Action κ α))) (F : β → L → β) (ls : List L)
    (h : ∀ l ∈ ls, ∀ s, Sched (loop l).2 s → ∀ m, view (execActions s m) = F (view m) l)
    (m m' : κ → α) (hr : RunLoops (ls.map loop) m m') : view m' = ls.foldl F (view m) := by
  induction ls generalizing m with
  | nil => cases hr; rfl
  | cons l ls ih =>
    cases hr with
    | cons _ _ s _ _ hs hr =>
      rw [List.foldl_cons, ← h l (by simp) s hs m]
      exact ih (fun l' hl' => h l' (List.mem_cons_of_mem _ hl')) _ hr

/-! ### Corner forces -/

section force
variable {K : Type} [Field K] {E N : ℕ}

/-- Updates of `corner_force` by one iteration of `get_force`, force_sgh.cpp:195-237: for each
corner and dimension `= 0` (eroded) or `+=`. -/
def cornerForceOps (f : MatPt K E → Fin 8 → Fin 3 → K) (p : MatPt K E) :
    List (((Fin E × Fin 8) × Fin 3) × (K → K)) :=
  (List.finRange 8).flatMap fun l => (List.finRange 3).map fun d =>
    (((p.elem, l), d), fun x => if p.eroded = true then 0 else x + f p l d)

/-- The parallel loop of `get_force` over the points of a material, force_sgh.cpp:69-243. -/
def cornerForceLoop (mesh : Mesh8 E N) (C : Closures K E N) (st : SghState K E N) (m : Mat K E) :
    (n : ℕ) × (Fin n → List (Action (((Fin E × Fin 8) × Fin 3) ⊕ ℕ) K)) :=
  ⟨m.pts.length, fun i => rmwThread (i : ℕ) (cornerForceOps (fun p =>
    matCornerForce mesh st.coords m.decoupledEOS (C.disp st m p) p) (m.pts.get i))⟩

theorem cornerForceOps_fst (f : MatPt K E → Fin 8 → Fin 3 → K) (p : MatPt K E) :
    (cornerForceOps f p).map Prod.fst
      = ((List.finRange 8).flatMap fun l => (List.finRange 3).map fun d => (l, d)).map
          fun x => ((p.elem, x.1), x.2) := by
  simp [cornerForceOps, List.map_flatMap, Function.comp_def]

theorem cornerForceOps_nodup (f : MatPt K E → Fin 8 → Fin 3 → K) (p : MatPt K E) :
    ((cornerForceOps f p).map Prod.fst).Nodup := by
  rw [cornerForceOps_fst]
  apply List.Nodup.map
  · rintro ⟨a, b⟩ ⟨c, d⟩ h
    simp only [Prod.mk.injEq, true_and] at h
    exact Prod.ext h.1 h.2
  · decide

theorem cornerForceOps_elem {f : MatPt K E → Fin 8 → Fin 3 → K} {p : MatPt K E}
    {o : ((Fin E × Fin 8) × Fin 3) × (K → K)} (h : o ∈ cornerForceOps f p) :
    o.1.1.1 = p.elem := by
  simp only [cornerForceOps, List.mem_flatMap, List.mem_map] at h
  obtain ⟨l, _, d, _, rfl⟩ := h
  rfl

/-- The updates of an iteration, executed alone, are `addCornerForce`. -/
theorem seqUpdates_cornerForce (f : MatPt K E → Fin 8 → Fin 3 → K) (p : MatPt K E)
    (cf : Fin E × Fin 8 → Fin 3 → K) :
    seqUpdates (cornerForceOps f p) (fun x => cf x.1 x.2)
      = fun x => addCornerForce f cf p x.1 x.2 := by
  funext x
  obtain ⟨⟨e, l⟩, d⟩ := x
  by_cases he : e = p.elem
  · subst he
    have hmem : (((p.elem, l), d), fun x => if p.eroded = true then 0 else x + f p l d)
        ∈ cornerForceOps f p := by
      simp only [cornerForceOps, List.mem_flatMap, List.mem_map]
      exact ⟨l, List.mem_finRange l, d, List.mem_finRange d, rfl⟩
    rw [seqUpdates_mem _ (cornerForceOps_nodup f p) _ _ hmem]
    simp [addCornerForce]
  · rw [seqUpdates_notin]
    · simp [addCornerForce, he]
    · intro o ho heq
      have := cornerForceOps_elem ho
      rw [heq] at this
      exact he this

theorem foldl_finRange_get {A B : Type} (l : List A) (F : B → A → B) (b : B) :
    (List.finRange l.length).foldl (fun b i => F b (l.get i)) b = l.foldl F b := by
  conv_rhs => rw [← List.map_get_finRange l, List.foldl_map]

/-- **C58.** Corner forces: when the points of each material lie in different elements (C19), every
schedule of the force loops, one material after the other, starting from zeroed corner forces, ends
with the corner forces of the sequential model. -/
theorem C58_corner_forces (mesh : Mesh8 E N) (C : Closures K E N) (st : SghState K E N)
    (hdist : ∀ m ∈ st.mats, (m.pts.map MatPt.elem).Nodup)
    (mem mem' : ((Fin E × Fin 8) × Fin 3) ⊕ ℕ → K) (hzero : ∀ c d, mem (Sum.inl (c, d)) = 0)
    (hrun : RunLoops (st.mats.map (cornerForceLoop mesh C st)) mem mem') (c : Fin E × Fin 8)
    (d : Fin 3) : mem' (Sum.inl (c, d)) = cornerForces mesh C st c d := by
  have key := runLoops_view
    (view := fun m : ((Fin E × Fin 8) × Fin 3) ⊕ ℕ → K => fun c d => m (Sum.inl (c, d)))
    (cornerForceLoop mesh C st)
    (fun cf m => m.pts.foldl (addCornerForce fun p =>
      matCornerForce mesh st.coords m.decoupledEOS (C.disp st m p) p) cf) st.mats ?_ mem mem' hrun
  · rw [cornerForces]
    have h0 : (fun (c : Fin E × Fin 8) (d : Fin 3) => mem (Sum.inl (c, d))) = fun _ _ => 0 := by
      funext c d; exact hzero c d
    rw [h0] at key
    exact congrFun (congrFun key c) d
  · intro m hm s hs memo
    set f := fun p => matCornerForce mesh st.coords m.decoupledEOS (C.disp st m p) p with hf
    have hsep : ∀ i j : Fin m.pts.length, i ≠ j → ∀ o ∈ cornerForceOps f (m.pts.get i),
        ∀ o' ∈ cornerForceOps f (m.pts.get j), o.1 ≠ o'.1 := by
      intro i j hij o ho o' ho' heq
      have h1 := cornerForceOps_elem ho
      have h2 := cornerForceOps_elem ho'
      rw [heq] at h1
      rw [h1] at h2
      apply hij
      have hn := hdist m hm
      rw [List.nodup_iff_injective_get] at hn
      have hi : (⟨i, by simp⟩ : Fin (m.pts.map MatPt.elem).length) = ⟨j, by simp⟩ := by
        apply hn
        simpa using h2
      exact Fin.ext (by simpa using hi)
    have h := rmw_sched _ hsep s hs memo
    funext c d
    have h' := congrFun h (c, d)
    refine h'.trans ?_
    rw [foldl_finRange_get m.pts (fun v p => seqUpdates (cornerForceOps f p) v)]
    clear h h' hs hsep
    have : ∀ (pts : List (MatPt K E)) (cf : Fin E × Fin 8 → Fin 3 → K),
        pts.foldl (fun v p => seqUpdates (cornerForceOps f p) v) (fun x => cf x.1 x.2)
          = fun x => pts.foldl (addCornerForce f) cf x.1 x.2 := by
      intro pts
      induction pts with
      | nil => intro cf; rfl
      | cons p pts ih =>
        intro cf
        rw [List.foldl_cons, List.foldl_cons, seqUpdates_cornerForce, ih]
    have h3 := congrFun (this m.pts fun c d => memo (Sum.inl (c, d))) (c, d)
    exact h3

/-! ### Velocity update -/

/-- Cells used by `update_velocity`. -/
inductive VelCell (E N : ℕ) where
  | cf (c : Fin E × Fin 8) (d : Fin 3)
  | force (n : Fin N) (d : Fin 3)
  | vel (n : Fin N) (d : Fin 3)
  deriving DecidableEq

/-- `node_vel = node_vel_n0 + rk_alpha*dt*node_force/node_mass`, momentum.cpp:91-92. -/
def velStore (E : ℕ) (alpha dt : K) (mass : Fin N → K) (velN0 : Fin N → Vel K 3) (n : Fin N)
    (d : Fin 3) : Action (VelCell E N) K :=
  Action.copy (.vel n d) (.force n d) fun f => velN0 n d + alpha * dt * f / mass n

/-- Actions of the iteration of node `n` of `update_velocity`, momentum.cpp:65-95, one per
statement (contact not active). -/
def velThread (mesh : Mesh8 E N) (alpha dt : K) (mass : Fin N → K) (velN0 : Fin N → Vel K 3)
    (n : Fin N) : List (Action (VelCell E N) K) :=
  ((mesh.cornersInNode n).flatMap fun c => (List.finRange 3).map fun d =>
    Action.accum (.force n d) (.cf c d))
  ++ (List.finRange 3).map fun d => velStore E alpha dt mass velN0 n d

theorem velThread_mem {mesh : Mesh8 E N} {alpha dt : K} {mass : Fin N → K}
    {velN0 : Fin N → Vel K 3} {n : Fin N} {a : Action (VelCell E N) K}
    (h : a ∈ velThread mesh alpha dt mass velN0 n) :
    (∃ d, a.dst = .force n d ∨ a.dst = .vel n d) ∧
      ∀ k, a.reads k → (∃ d, k = .force n d) ∨ ∃ c d, k = .cf c d := by
  rw [velThread, List.mem_append, List.mem_flatMap] at h
  rcases h with ⟨c, _, h⟩ | h
  · obtain ⟨d, _, rfl⟩ := List.mem_map.1 h
    refine ⟨⟨d, Or.inl rfl⟩, fun k hk => ?_⟩
    rcases hk with hk | hk
    · exact Or.inl ⟨d, hk⟩
    · exact Or.inr ⟨c, d, hk⟩
  · obtain ⟨d, _, rfl⟩ := List.mem_map.1 h
    exact ⟨⟨d, Or.inr rfl⟩, fun k hk => Or.inl ⟨d, hk⟩⟩

theorem velThread_conflictFree (mesh : Mesh8 E N) (alpha dt : K) (mass : Fin N → K)
    (velN0 : Fin N → Vel K 3) : ConflictFree (velThread mesh alpha dt mass velN0) := by
  intro i j hij a ha b hb
  obtain ⟨⟨d, hd⟩, _⟩ := velThread_mem ha
  obtain ⟨⟨d', hd'⟩, hr⟩ := velThread_mem hb
  constructor
  · rcases hd with hd | hd <;> rcases hd' with hd' | hd' <;> rw [hd, hd'] <;> simp [hij]
  · intro h
    rcases hr _ h with ⟨d'', h'⟩ | ⟨c, d'', h'⟩ <;> rcases hd with hd | hd <;> rw [hd] at h' <;>
      simp [hij] at h'

/-- The gathering loop of a node. -/
theorem velThread_gather (n : Fin N) (cs : List (Fin E × Fin 8)) (m : VelCell E N → K) (d : Fin 3) :
    execActions (cs.flatMap fun c => (List.finRange 3).map fun d =>
      (Action.accum (VelCell.force n d) (VelCell.cf c d) : Action (VelCell E N) K)) m (.force n d)
      = cs.foldl (fun acc c => acc + m (.cf c d)) (m (.force n d)) := by
  induction cs generalizing m with
  | nil => rfl
  | cons c cs ih =>
    rw [List.flatMap_cons, execActions_append, ih, List.foldl_cons]
    have h1 : ∀ c', execActions ((List.finRange 3).map fun d =>
        (Action.accum (VelCell.force n d) (VelCell.cf c d) : Action (VelCell E N) K)) m (.cf c' d)
          = m (.cf c' d) := by
      intro c'
      apply execActions_notin
      intro a ha
      obtain ⟨d', _, rfl⟩ := List.mem_map.1 ha
      simp [Action.accum]
    have h2 : execActions ((List.finRange 3).map fun d =>
        (Action.accum (VelCell.force n d) (VelCell.cf c d) : Action (VelCell E N) K)) m (.force n d)
          = m (.force n d) + m (.cf c d) := by
      have : List.finRange 3 = [0, 1, 2] := rfl
      fin_cases d <;> simp [this, execActions, Action.run, Action.accum]
    simp only [h1, h2]

/-- **C58.** Velocities: every schedule of the node loop of the velocity update, started with the
external forces in the nodal force array, ends with the velocities and nodal forces of the
sequential model. -/
theorem C58_velocity (mesh : Mesh8 E N) (alpha dt : K) (mass : Fin N → K)
    (velN0 : Fin N → Vel K 3) (ext : Fin N → Fin 3 → K) (cf : Fin E × Fin 8 → Fin 3 → K)
    (m : VelCell E N → K) (hext : ∀ n d, m (.force n d) = ext n d)
    (hcf : ∀ c d, m (.cf c d) = cf c d) (s : List (Action (VelCell E N) K))
    (hs : Sched (velThread mesh alpha dt mass velN0) s) (n : Fin N) (d : Fin 3) :
    execActions s m (.vel n d) = updateVelocity mesh alpha dt mass ext cf velN0 n d ∧
      execActions s m (.force n d) = nodeForceTotal mesh ext cf n d := by
  have hown : ∀ c, (c = .vel n d ∨ c = .force n d) →
      execActions s m c = execActions (velThread mesh alpha dt mass velN0 n) m c := by
    intro c hc
    refine sched_own _ (velThread_conflictFree mesh alpha dt mass velN0) s hs m n c ?_
    intro i hi a ha
    obtain ⟨⟨d', hd⟩, _⟩ := velThread_mem ha
    rcases hc with rfl | rfl <;> rcases hd with hd | hd <;> rw [hd] <;> simp [hi]
  rw [hown _ (Or.inl rfl), hown _ (Or.inr rfl), velThread, execActions_append]
  set m1 := execActions ((mesh.cornersInNode n).flatMap fun c => (List.finRange 3).map fun d =>
    (Action.accum (VelCell.force n d) (VelCell.cf c d) : Action (VelCell E N) K)) m with hm1
  have hforce : ∀ d, m1 (.force n d) = nodeForceTotal mesh ext cf n d := by
    intro d
    rw [hm1, velThread_gather, nodeForceTotal, hext]
    simp only [hcf]
  have h3 : List.finRange 3 = [0, 1, 2] := rfl
  constructor
  · rw [updateVelocity, ← hforce d]
    fin_cases d <;> simp [h3, execActions, Action.run, Action.copy, velStore]
  · rw [← hforce d]
    apply execActions_notin
    intro a ha
    obtain ⟨d', _, rfl⟩ := List.mem_map.1 ha
    simp [velStore, Action.copy]

end force

/-! ### Velocity boundary conditions -/

section bc
variable {K : Type} {N D : ℕ}

/-- The parallel loop of `boundary_velocity` over the nodes of a set, boundary.cpp:63-78; the
vector of a node is one cell. -/
def velSetLoop (time : K) (s : VelSet (Fin N) K D) :
    (n : ℕ) × (Fin n → List (Action (Fin N ⊕ ℕ) (Vel K D))) :=
  ⟨s.nodes.length, fun i => rmwThread (i : ℕ) [(s.nodes.get i, s.bc time)]⟩

/-- **C58.** Velocity boundary conditions: when no set lists a node twice (C24), every schedule
gives the velocities of the sequential model. -/
theorem C58_boundary_velocity (sets : List (VelSet (Fin N) K D)) (time : K)
    (hdist : ∀ s ∈ sets, s.nodes.Nodup) (m m' : Fin N ⊕ ℕ → Vel K D)
    (hrun : RunLoops (sets.map (velSetLoop time)) m m') :
    (fun n => m' (Sum.inl n)) = boundaryVelocity sets time fun n => m (Sum.inl n) := by
  refine runLoops_view (view := fun m : Fin N ⊕ ℕ → Vel K D => fun n => m (Sum.inl n))
    (velSetLoop time) (fun v s => applySet (s.bc time) s.nodes v) sets ?_ m m' hrun
  intro st hst s hs memo
  have hsep : ∀ i j : Fin st.nodes.length, i ≠ j → ∀ o ∈ [(st.nodes.get i, st.bc time)],
      ∀ o' ∈ [(st.nodes.get j, st.bc time)], o.1 ≠ o'.1 := by
    intro i j hij o ho o' ho' heq
    rw [List.mem_singleton] at ho ho'
    subst ho; subst ho'
    exact hij ((List.nodup_iff_injective_get.1 (hdist st hst)) heq)
  refine (rmw_sched _ hsep s hs memo).trans ?_
  rw [foldl_finRange_get st.nodes (fun v n => seqUpdates [(n, st.bc time)] v)]
  rfl

end bc

/-! ### Atomic additions -/

section atomic
variable {N : ℕ}

/-- The parallel loop over the patches of a boundary set with `Kokkos::atomic_add`,
boundary.cpp:125-218 and 362 of the thermal solver. -/
noncomputable def patchFluxLoop (flux : ℝ → ℝ → ℝ) (coords : Fin N → Fin 3 → ℝ) (temp : Fin N → ℝ)
    (patches : List (Fin 4 → Fin N)) : (n : ℕ) × (Fin n → List (Action (Fin N) ℝ)) :=
  ⟨patches.length, fun i => (List.finRange 4).map fun l =>
    Action.atomicAdd (patches.get i l)
      (flux (patchArea coords (patches.get i)) (temp (patches.get i l)))⟩

/-- The additions of all patches of a set, in sequential order. -/
noncomputable def patchAdds (flux : ℝ → ℝ → ℝ) (coords : Fin N → Fin 3 → ℝ) (temp : Fin N → ℝ)
    (patches : List (Fin 4 → Fin N)) : List (Fin N × ℝ) :=
  patches.flatMap fun p => (List.finRange 4).map fun l =>
    (p l, flux (patchArea coords p) (temp (p l)))

theorem addPatchFlux_exec (flux : ℝ → ℝ → ℝ) (coords : Fin N → Fin 3 → ℝ) (temp : Fin N → ℝ)
    (patches : List (Fin 4 → Fin N)) (q : Fin N → ℝ) :
    patches.foldl (addPatchFlux flux coords temp) q
      = execActions ((patchAdds flux coords temp patches).map fun p => Action.atomicAdd p.1 p.2)
          q := by
  induction patches generalizing q with
  | nil => rfl
  | cons p ps ih =>
    have hc : patchAdds flux coords temp (p :: ps) = ((List.finRange 4).map fun l =>
        (p l, flux (patchArea coords p) (temp (p l)))) ++ patchAdds flux coords temp ps := by
      rw [patchAdds, List.flatMap_cons]; rfl
    rw [List.foldl_cons, ih, hc, List.map_append, execActions_append]
    rfl

theorem patchFluxLoop_sched (flux : ℝ → ℝ → ℝ) (coords : Fin N → Fin 3 → ℝ) (temp : Fin N → ℝ)
    (patches : List (Fin 4 → Fin N)) (s : List (Action (Fin N) ℝ))
    (hs : Sched (patchFluxLoop flux coords temp patches).2 s) (q : Fin N → ℝ) :
    execActions s q = patches.foldl (addPatchFlux flux coords temp) q := by
  rw [addPatchFlux_exec]
  have hp := sched_perm (List.finRange patches.length) (List.nodup_finRange _)
    (fun i => List.mem_finRange i) hs
  have hseq : (List.finRange patches.length).flatMap (patchFluxLoop flux coords temp patches).2
      = (patchAdds flux coords temp patches).map fun p => Action.atomicAdd p.1 p.2 := by
    simp only [patchFluxLoop, patchAdds, List.map_flatMap, List.map_map]
    conv_rhs => rw [← List.map_get_finRange patches, List.flatMap_map]
    rfl
  replace hp := hp.trans (List.Perm.of_eq hseq)
  obtain ⟨l, hl, hl'⟩ : ∃ l : List (Fin N × ℝ), s = l.map (fun p => Action.atomicAdd p.1 p.2) ∧
      l.Perm (patchAdds flux coords temp patches) := by
    have hall : ∀ a ∈ s, ∃ p : Fin N × ℝ, Action.atomicAdd p.1 p.2 = a := by
      intro a ha
      obtain ⟨p, _, h⟩ := List.mem_map.1 (hp.mem_iff.1 ha)
      exact ⟨p, h⟩
    have hinv : ∀ (s : List (Action (Fin N) ℝ)), (∀ a ∈ s, ∃ p : Fin N × ℝ,
        Action.atomicAdd p.1 p.2 = a) → s = (s.map fun a => (a.dst, a.val 0)).map
          fun p : Fin N × ℝ => Action.atomicAdd p.1 p.2 := by
      intro s hs
      induction s with
      | nil => rfl
      | cons a s ih =>
        rw [List.map_cons, List.map_cons, ← ih fun b hb => hs b (List.mem_cons_of_mem _ hb)]
        congr 1
        obtain ⟨p, rfl⟩ := hs a (by simp)
        simp [Action.atomicAdd]
    refine ⟨s.map fun a => (a.dst, a.val 0), hinv s hall, ?_⟩
    have := hp.map fun a => (a.dst, a.val 0)
    rw [List.map_map] at this
    have hid : ((fun a : Action (Fin N) ℝ => (a.dst, a.val 0)) ∘
        fun p : Fin N × ℝ => Action.atomicAdd p.1 p.2) = id := by
      funext p
      simp [Action.atomicAdd]
    rw [hid, List.map_id] at this
    exact this
  rw [hl]
  funext c
  rw [atomicAdd_exec, atomicAdd_exec, (hl'.map _).sum_eq]

/-- **C58.** Thermal boundary heat: patches share nodes, but because the additions are atomic
every schedule of the patch loops ends with the nodal heat of the sequential model (convection,
then radiation). -/
theorem C58_boundary_heat (sets : List (ThermSet N)) (coords : Fin N → Fin 3 → ℝ)
    (temp q q1 q2 : Fin N → ℝ)
    (hconv : RunLoops ((sets.filter fun s => s.bc matches .convection).map fun s =>
      patchFluxLoop convectionFlux coords temp s.patches) q q1)
    (hrad : RunLoops ((sets.filter fun s => s.bc matches .radiation).map fun s =>
      patchFluxLoop radiationFlux coords temp s.patches) q1 q2) :
    q2 = boundaryRadiation sets coords temp (boundaryConvection sets coords temp q) := by
  have h1 := runLoops_view (view := fun m : Fin N → ℝ => m)
    (fun s : ThermSet N => patchFluxLoop convectionFlux coords temp s.patches)
    (fun q s => s.patches.foldl (addPatchFlux convectionFlux coords temp) q)
    (sets.filter fun s => s.bc matches .convection)
    (fun l _ s hs m => patchFluxLoop_sched convectionFlux coords temp l.patches s hs m) q q1 hconv
  have h2 := runLoops_view (view := fun m : Fin N → ℝ => m)
    (fun s : ThermSet N => patchFluxLoop radiationFlux coords temp s.patches)
    (fun q s => s.patches.foldl (addPatchFlux radiationFlux coords temp) q)
    (sets.filter fun s => s.bc matches .radiation)
    (fun l _ s hs m => patchFluxLoop_sched radiationFlux coords temp l.patches s hs m) q1 q2 hrad
  rw [h2, h1, boundaryRadiation, boundaryConvection]
  have e1 : ∀ (sets : List (ThermSet N)) (q : Fin N → ℝ),
      (sets.filter fun s => s.bc matches .convection).foldl
        (fun q s => s.patches.foldl (addPatchFlux convectionFlux coords temp) q) q
      = sets.foldl (fun q s => match s.bc with
        | .convection => s.patches.foldl (addPatchFlux convectionFlux coords temp) q
        | _ => q) q := by
    intro sets
    induction sets with
    | nil => intro q; rfl
    | cons s sets ih =>
      intro q
      rw [List.filter_cons, List.foldl_cons, ← ih]
      cases h : s.bc <;> simp
  have e2 : ∀ (sets : List (ThermSet N)) (q : Fin N → ℝ),
      (sets.filter fun s => s.bc matches .radiation).foldl
        (fun q s => s.patches.foldl (addPatchFlux radiationFlux coords temp) q) q
      = sets.foldl (fun q s => match s.bc with
        | .radiation => s.patches.foldl (addPatchFlux radiationFlux coords temp) q
        | _ => q) q := by
    intro sets
    induction sets with
    | nil => intro q; rfl
    | cons s sets ih =>
      intro q
      rw [List.filter_cons, List.foldl_cons, ← ih]
      cases h : s.bc <;> simp
  refine (e2 sets _).trans ?_
  rw [e1 sets q]
  rfl

end atomic

/-! ### Reductions -/

/-- Join of two partial minima; `none` is a thread without elements. -/
noncomputable def optMin : Option ℝ → Option ℝ → Option ℝ
  | none, b => b
  | a, none => a
  | some a, some b => some (if a < b then a else b)

theorem optMin_spec (t : ReduceTree (Option ℝ)) (h : ∀ x ∈ t.leaves, x ≠ none) :
    (t.eval optMin none = none ↔ t.leaves = []) ∧
    ∀ m, t.eval optMin none = some m → some m ∈ t.leaves ∧ ∀ x, some x ∈ t.leaves → m ≤ x := by
  induction t with
  | none => simp [ReduceTree.eval, ReduceTree.leaves]
  | leaf x =>
    simp only [ReduceTree.eval, ReduceTree.leaves, List.mem_singleton] at h ⊢
    refine ⟨by simpa using h x rfl, ?_⟩
    rintro m rfl
    exact ⟨rfl, fun y hy => by injection hy with hy; exact hy.ge⟩
  | join a b iha ihb =>
    simp only [ReduceTree.leaves, List.mem_append] at h ⊢
    have ha := iha fun x hx => h x (Or.inl hx)
    have hb := ihb fun x hx => h x (Or.inr hx)
    simp only [ReduceTree.eval, List.append_eq_nil_iff]
    cases hea : a.eval optMin none with
    | none =>
      have hla := ha.1.1 hea
      cases heb : b.eval optMin none with
      | none => simp [optMin, hla, hb.1.1 heb]
      | some y =>
        have hlb : b.leaves ≠ [] := fun hn => by rw [hb.1.2 hn] at heb; cases heb
        simp only [optMin, hla, hlb, reduceCtorEq, and_false, true_and, List.not_mem_nil, false_or]
        intro m hm
        injection hm with hm
        subst hm
        exact hb.2 _ heb
    | some x =>
      have hla : a.leaves ≠ [] := fun hn => by rw [ha.1.2 hn] at hea; cases hea
      cases heb : b.eval optMin none with
      | none =>
        have hlb := hb.1.1 heb
        simp only [optMin, hla, hlb, reduceCtorEq, and_true, true_and, List.not_mem_nil, or_false]
        intro m hm
        injection hm with hm
        subst hm
        exact ha.2 _ hea
      | some y =>
        have hlb : b.leaves ≠ [] := fun hn => by rw [hb.1.2 hn] at heb; cases heb
        simp only [optMin, hla, hlb, reduceCtorEq, and_false, true_and]
        intro m hm
        injection hm with hm
        obtain ⟨hxa, hxl⟩ := ha.2 _ hea
        obtain ⟨hyb, hyl⟩ := hb.2 _ heb
        split_ifs at hm with hlt
        · subst hm
          refine ⟨Or.inl hxa, ?_⟩
          rintro z (hz | hz)
          · exact hxl z hz
          · exact hlt.le.trans (hyl z hz)
        · subst hm
          push Not at hlt
          refine ⟨Or.inr hyb, ?_⟩
          rintro z (hz | hz)
          · exact hlt.trans (hxl z hz)
          · exact hyl z hz

theorem reduceMin_spec (o : ClockOpts) (es : List CflElem) :
    (reduceMin o es = none ↔ es = []) ∧
    ∀ m, reduceMin o es = some m → (∃ e ∈ es, elemDt o e = m) ∧ ∀ e ∈ es, m ≤ elemDt o e := by
  induction es with
  | nil => simp [reduceMin]
  | cons e es ih =>
    simp only [reduceMin]
    cases h : reduceMin o es with
    | none =>
      have := ih.1.1 h
      subst this
      simp
    | some y =>
      obtain ⟨⟨e', he', hy⟩, hle⟩ := ih.2 y h
      simp only [reduceCtorEq, List.cons_ne_nil, true_and]
      intro m hm
      injection hm with hm
      split_ifs at hm with hlt
      · subst hm
        refine ⟨⟨e, by simp, rfl⟩, ?_⟩
        intro z hz
        rcases List.mem_cons.1 hz with rfl | hz
        · exact le_refl _
        · exact hlt.le.trans (hle z hz)
      · subst hm
        push Not at hlt
        refine ⟨⟨e', List.mem_cons_of_mem _ he', hy⟩, ?_⟩
        intro z hz
        rcases List.mem_cons.1 hz with rfl | hz
        · exact hlt
        · exact hle z hz

/-- **C58.** Time step: however the elements are dealt to threads and in whatever order and grouping
the partial minima are joined, the reduction gives the minimum of the sequential model. -/
theorem C58_time_step (o : ClockOpts) (es : List CflElem) (t : ReduceTree (Option ℝ))
    (ht : t.leaves.Perm (es.map fun e => some (elemDt o e))) :
    t.eval optMin none = reduceMin o es := by
  have h := optMin_spec t fun x hx => by
    obtain ⟨e, _, rfl⟩ := List.mem_map.1 (ht.mem_iff.1 hx)
    simp
  have h' := reduceMin_spec o es
  cases he : t.eval optMin none with
  | none =>
    have h0 := h.1.1 he
    rw [h0, List.nil_perm, List.map_eq_nil_iff] at ht
    rw [(h'.1.2 ht)]
  | some m =>
    obtain ⟨hm, hle⟩ := h.2 m he
    cases hr : reduceMin o es with
    | none =>
      rw [h'.1.1 hr] at ht
      rw [List.map_nil, List.perm_nil] at ht
      rw [ht] at hm
      simp at hm
    | some m' =>
      obtain ⟨⟨e, hes, hem⟩, hle'⟩ := h'.2 m' hr
      have h1 : m ≤ m' := hle m' (ht.mem_iff.2 (List.mem_map.2 ⟨e, hes, by rw [hem]⟩))
      obtain ⟨e2, he2, hm2⟩ := List.mem_map.1 (ht.mem_iff.1 hm)
      injection hm2 with hm2
      have h2 : m' ≤ m := hm2 ▸ hle' e2 he2
      rw [le_antisymm h1 h2]

/-- **C58.** Energy and mass tallies: in exact arithmetic the sum reductions do not depend on the
grouping and order of the contributions. -/
theorem C58_tally {α : Type} [AddCommMonoid α] (xs : List α) (t : ReduceTree α)
    (ht : t.leaves.Perm xs) : t.eval (· + ·) 0 = xs.sum := by
  rw [reduce_sum, ht.sum_eq]

/-! ### What goes wrong without these conditions -/

/-- **C58.** Without atomics the additions of two iterations to one cell can be lost: some schedule
of two unprotected `x += 1`, `x += 2` on `x = 0` ends with 1 (so the patch loops need the
`Kokkos::atomic_add`, and the corner-force loop needs distinct elements). -/
theorem C58_unprotected_addition_fails :
    ∃ s : List (Action (Unit ⊕ ℕ) ℚ),
      Sched (fun i : Fin 2 => rmwThread (i : ℕ) [((), fun x => x + ((i : ℕ) + 1 : ℚ))]) s ∧
      execActions s (fun _ => 0) (Sum.inl ()) = 1 := by
  refine ⟨[Action.copy (Sum.inr 0) (Sum.inl ()) id, Action.copy (Sum.inr 1) (Sum.inl ()) id,
    Action.copy (Sum.inl ()) (Sum.inr 1) (fun x => x + 2),
    Action.copy (Sum.inl ()) (Sum.inr 0) (fun x => x + 1)], ?_, ?_⟩
  · refine Sched.step _ 0 _ _ _ rfl ?_
    refine Sched.step _ 1 _ _ _ rfl ?_
    refine Sched.step _ 1 _ [] _ ?_ ?_
    · simp [Function.update]; norm_num
    refine Sched.step _ 0 _ [] _ ?_ ?_
    · simp [Function.update]
    refine Sched.done _ ?_
    intro i
    fin_cases i <;> simp [Function.update]
  · simp [execActions, Action.run, Action.copy, Function.update]

/-! ### Examples -/

/-- Two iterations adding to different cells: the hypothesis of `C58_conflict_free` holds. -/
example : ConflictFree fun i : Fin 2 =>
    rmwThread (i : ℕ) [((i : Fin 2), fun x : ℚ => x + 1)] :=
  rmw_conflictFree _ fun i j hij o ho o' ho' => by
    rw [List.mem_singleton] at ho ho'
    subst ho; subst ho'
    exact hij

/-- A node set without repetition, and a run of its loop. -/
example : ∃ m' : Fin 3 ⊕ ℕ → Vel ℚ 3, RunLoops
    ([(⟨[0, 2], fun _ v => fun d => - v d⟩ : VelSet (Fin 3) ℚ 3)].map (velSetLoop 0))
    (fun _ _ => 1) m' ∧ m' (Sum.inl 2) 0 = -1 ∧ m' (Sum.inl 1) 0 = 1 := by
  refine ⟨_, RunLoops.cons _ _ _ _ _ (C58_schedule_exists _) (RunLoops.nil _), ?_, ?_⟩ <;>
    simp [velSetLoop, rmwThread, execActions, Action.run, Action.copy, Function.update,
      List.finRange_succ]

/-- A reduction over three threads, one without work. -/
example : ReduceTree.leaves (.join (.join (.leaf (some (3 : ℝ))) .none) (.leaf (some 1)))
    = [some 3, some 1] := rfl

end Fierro
