import Verif.Model.EvpCouple
import Verif.Props.EvpStep

/-!
# C75: EVPFFT as the material of a finite element run
-/

set_option linter.unusedSectionVars false

namespace Fierro

open Classical

/-- The calls that count: those with a velocity gradient that is not negligible. -/
noncomputable def effective (calls : List (HostCall × CoupleAvg × T2 ℝ × T2 ℝ)) : List HostCall :=
  (calls.map Prod.fst).filter fun c => ¬ c.negligible

theorem couple_invariant (q : BasisConst ℝ) (th : ℝ) (calls : List (HostCall × CoupleAvg × T2 ℝ × T2 ℝ))
    (hdt : ∀ c ∈ calls, 0 < c.1.dt) (i j : Fin 3) :
    0 ≤ (coupleRun q th calls).dtAcc ∧
    ((coupleRun q th calls).solved.map fun s => s.1 i j * s.2).sum + (coupleRun q th calls).acc i j =
      ((effective calls).map fun c => c.velGrad i j * c.dt).sum ∧
    ((coupleRun q th calls).solved.map Prod.snd).sum + (coupleRun q th calls).dtAcc =
      ((effective calls).map HostCall.dt).sum := by
  induction calls using List.reverseRecOn with
  | nil => simp [coupleRun, CoupleState.init, effective]
  | append_singleton calls c ih =>
    obtain ⟨h0, h1, h2⟩ := ih fun x hx => hdt x (by simp [hx])
    have hc := hdt c (by simp)
    have e : coupleRun q th (calls ++ [c]) =
        (coupleCall q th c.2.1 c.2.2.1 (coupleRun q th calls) c.1 c.2.2.2).1 := by
      simp [coupleRun, List.foldl_append]
    have ef : effective (calls ++ [c]) = effective calls ++ if c.1.negligible then [] else [c.1] := by
      unfold effective
      rw [List.map_append, List.filter_append]
      congr 1
      by_cases h : c.1.negligible <;> simp [h]
    rw [e, ef]
    by_cases hn : c.1.negligible
    · simp only [coupleCall, if_pos hn, List.append_nil]
      exact ⟨h0, h1, h2⟩
    · simp only [if_neg hn, List.map_append, List.sum_append, List.map_cons, List.map_nil, List.sum_cons,
        List.sum_nil, add_zero]
      unfold coupleCall
      rw [if_neg hn]
      split_ifs with ha
      · refine ⟨by show 0 ≤ _ + _; linarith, ?_, ?_⟩
        · show _ + ((coupleRun q th calls).acc i j + _) = _
          rw [← h1]; ring
        · show _ + ((coupleRun q th calls).dtAcc + _) = _
          rw [← h2]; ring
      · have hne : (coupleRun q th calls).dtAcc + c.1.dt ≠ 0 := by linarith
        refine ⟨le_rfl, ?_, ?_⟩
        · simp only [List.map_append, List.sum_append, List.map_cons, List.map_nil, List.sum_cons,
            List.sum_nil, add_zero]
          rw [← h1, CoupleState.accNext]
          field_simp
          ring
        · simp only [List.map_append, List.sum_append, List.map_cons, List.map_nil, List.sum_cons,
            List.sum_nil, add_zero]
          rw [← h2]
          ring

/-- **C75.** No deformation is lost or counted twice: the deformation handed to the load steps so far, plus
what is still pending, is the sum of velocity gradient times time increment over all calls that were not
negligible, for every history and every threshold. -/
theorem C75_deformation_delivered (q : BasisConst ℝ) (th : ℝ)
    (calls : List (HostCall × CoupleAvg × T2 ℝ × T2 ℝ)) (hdt : ∀ c ∈ calls, 0 < c.1.dt) (i j : Fin 3) :
    ((coupleRun q th calls).solved.map fun s => s.1 i j * s.2).sum + (coupleRun q th calls).acc i j =
      ((effective calls).map fun c => c.velGrad i j * c.dt).sum :=
  (couple_invariant q th calls hdt i j).2.1

/-- **C75.** The same for the time of those calls. -/
theorem C75_time_delivered (q : BasisConst ℝ) (th : ℝ)
    (calls : List (HostCall × CoupleAvg × T2 ℝ × T2 ℝ)) (hdt : ∀ c ∈ calls, 0 < c.1.dt) :
    ((coupleRun q th calls).solved.map Prod.snd).sum + (coupleRun q th calls).dtAcc =
      ((effective calls).map HostCall.dt).sum :=
  (couple_invariant q th calls hdt 0 0).2.2

/-- **C75.** Every load step gets a positive time increment. -/
theorem C75_positive_increments (q : BasisConst ℝ) (th : ℝ)
    (calls : List (HostCall × CoupleAvg × T2 ℝ × T2 ℝ)) (hdt : ∀ c ∈ calls, 0 < c.1.dt) :
    ∀ s ∈ (coupleRun q th calls).solved, 0 < s.2 := by
  induction calls using List.reverseRecOn with
  | nil => simp [coupleRun, CoupleState.init]
  | append_singleton calls c ih =>
    have ih := ih fun x hx => hdt x (by simp [hx])
    have h0 := (couple_invariant q th calls (fun x hx => hdt x (by simp [hx])) 0 0).1
    have hc := hdt c (by simp)
    have e : coupleRun q th (calls ++ [c]) =
        (coupleCall q th c.2.1 c.2.2.1 (coupleRun q th calls) c.1 c.2.2.2).1 := by
      simp [coupleRun, List.foldl_append]
    rw [e]
    unfold coupleCall
    split_ifs
    · exact ih
    · exact ih
    · intro s hs
      rcases List.mem_append.mp hs with h | h
      · exact ih s h
      · rw [List.mem_singleton.mp h]
        show 0 < _ + _
        linarith

/-- **C75.** What is pending never reaches the threshold (a positive one); and nothing is pending before the
first load step, which is taken at the first call that is not negligible. -/
theorem C75_pending_bounded (q : BasisConst ℝ) (th : ℝ) (ht : 0 < th)
    (calls : List (HostCall × CoupleAvg × T2 ℝ × T2 ℝ)) :
    accVm (coupleRun q th calls).acc < th ∧
      ((coupleRun q th calls).active = false → effective calls = [] ∧ (coupleRun q th calls).solved = []) ∧
      ((coupleRun q th calls).active = true → (coupleRun q th calls).solved ≠ []) := by
  have hz : accVm (fun _ _ => 0) < th := by
    unfold accVm
    rw [C74_equivalent_strain]
    simpa using ht
  induction calls using List.reverseRecOn with
  | nil => simpa [coupleRun, CoupleState.init, effective] using hz
  | append_singleton calls c ih =>
    obtain ⟨h1, h2, h3⟩ := ih
    have e : coupleRun q th (calls ++ [c]) =
        (coupleCall q th c.2.1 c.2.2.1 (coupleRun q th calls) c.1 c.2.2.2).1 := by
      simp [coupleRun, List.foldl_append]
    rw [e]
    unfold coupleCall
    split_ifs with hn ha
    · refine ⟨h1, fun h => ?_, h3⟩
      obtain ⟨h4, h5⟩ := h2 h
      refine ⟨?_, h5⟩
      unfold effective at h4 ⊢
      rw [List.map_append, List.filter_append, h4]
      simp [hn]
    · refine ⟨ha.2, fun h => ?_, h3⟩
      rw [ha.1] at h
      cases h
    · exact ⟨hz, fun h => absurd h (by simp), fun _ => by simp⟩

/-- **C75.** *Fails in the code*: time during which the element does not deform is not simulated, so stress
does not relax while the sample is held; here one unit of time passes and none is counted. -/
theorem C75_hold_time_fails (q : BasisConst ℝ) (th : ℝ) (a : CoupleAvg) (s : T2 ℝ) :
    (([(⟨fun _ _ => 0, 1⟩, a, s, s)] : List (HostCall × CoupleAvg × T2 ℝ × T2 ℝ)).map fun c => c.1.dt).sum = 1 ∧
    ((coupleRun q th [(⟨fun _ _ => 0, 1⟩, a, s, s)]).solved.map Prod.snd).sum +
      (coupleRun q th [(⟨fun _ _ => 0, 1⟩, a, s, s)]).dtAcc = 0 := by
  have hn : (⟨fun _ _ => 0, 1⟩ : HostCall).negligible := by
    unfold HostCall.negligible
    simp
  constructor
  · simp
  · simp [coupleRun, coupleCall, hn, CoupleState.init]

/-! ### The grid follows the host -/

open StepState

/-- The load steps taken for a list of loads; the stresses of the iterations are given. -/
def loadsOf {g : EvpGrid} (solved : List (T2 ℝ × ℝ)) (stresses : ℕ → List (g.Ix → T2 ℝ)) : List (Load g) :=
  solved.mapIdx fun n s => ⟨s.1, s.2, stresses n⟩

/-- **C75.** With loads that change from step to step, the average over the grid of a component with a given
rate, or below the diagonal, is the sum of rate times time increment. -/
theorem C75_grid_follows (g : EvpGrid) (hp : g.Pos) (d : StepData) (st : StepState g) (ls : List (Load g))
    (i j : Fin 3) (hc : j < i ∨ ∃ p, d.idsim p ≠ 0 ∧ ijv p = (i, j)) :
    average g (run d st ls).disgrad i j =
      average g st.disgrad i j + (ls.map fun l => l.udot i j * l.tdot).sum := by
  have hk : ∀ av old : T2 ℝ, old i j = 0 →
      mixedCorrection d.s0 d.idsim d.iscau d.scauchy av old i j = 0 := by
    intro av old h0
    rcases hc with h | ⟨p, h, hpij⟩
    · rw [mixedCorrection_lower _ _ _ _ _ _ _ _ h, h0]
    · have := C74_given_rate_kept d.s0 d.idsim d.iscau d.scauchy av old p h
      rwa [hpij] at this
  induction ls generalizing st with
  | nil => simp [run]
  | cons l ls ih =>
    have e : run d st (l :: ls) = run d (st.step d l) ls := rfl
    obtain ⟨k1, k2⟩ := iterations_kept d i j hk l.stresses (st.begin l.udot l.tdot) rfl rfl
    have h1 : (st.step d l).ddis i j = 0 := k1
    have h2 : (st.step d l).dmact i j = st.dmac i j := by
      show (l.stresses.foldl (iterate d) (st.begin l.udot l.tdot)).dmac i j +
        (l.stresses.foldl (iterate d) (st.begin l.udot l.tdot)).dacum i j = _
      rw [(iterations_macro d l.stresses _).1, k2, add_zero]
      rfl
    rw [e, ih, average_step hp, h1, h2, List.map_cons, List.sum_cons]
    ring

/-- **C75.** End to end: for a component with a given rate, the average displacement gradient of the
representative volume plus what is pending is the deformation imposed by the host, for every history of calls,
every stress update and every number of iterations. -/
theorem C75_host_deformation (q : BasisConst ℝ) (th : ℝ)
    (calls : List (HostCall × CoupleAvg × T2 ℝ × T2 ℝ)) (hdt : ∀ c ∈ calls, 0 < c.1.dt)
    (g : EvpGrid) (hp : g.Pos) (d : StepData) (udot : T2 ℝ) (tdot : ℝ) (sg : g.Ix → T2 ℝ)
    (stresses : ℕ → List (g.Ix → T2 ℝ)) (i j : Fin 3)
    (hc : j < i ∨ ∃ p, d.idsim p ≠ 0 ∧ ijv p = (i, j)) :
    average g (run d (start g udot tdot sg) (loadsOf (coupleRun q th calls).solved stresses)).disgrad i j +
      (coupleRun q th calls).acc i j =
      ((effective calls).map fun c => c.velGrad i j * c.dt).sum := by
  rw [C75_grid_follows g hp d _ _ i j hc, ← C75_deformation_delivered q th calls hdt i j]
  have h1 : average g (start g udot tdot sg).disgrad i j = 0 := by simp [start, average]
  have h2 : (loadsOf (coupleRun q th calls).solved stresses).map (fun l => l.udot i j * l.tdot) =
      (coupleRun q th calls).solved.map fun s => s.1 i j * s.2 := by
    unfold loadsOf
    apply List.ext_getElem <;> simp
  rw [h1, h2, zero_add]

/-- **C75.** *Fails in the code*: the displacement gradient reported for the element, and the equivalent strain
used to judge convergence, lag one load behind; they repeat the first load and miss the latest. -/
theorem C75_reported_strain_fails (g : EvpGrid) (d : StepData) (sg : g.Ix → T2 ℝ) (u1 u2 : T2 ℝ)
    (t1 t2 : ℝ) (s1 s2 : List (g.Ix → T2 ℝ)) (i j : Fin 3)
    (hc : j < i ∨ ∃ p, d.idsim p ≠ 0 ∧ ijv p = (i, j)) :
    (run d (start g u1 t1 sg) [⟨u1, t1, s1⟩, ⟨u2, t2, s2⟩]).dmact i j = u1 i j * t1 + u1 i j * t1 := by
  have hk : ∀ av old : T2 ℝ, old i j = 0 →
      mixedCorrection d.s0 d.idsim d.iscau d.scauchy av old i j = 0 := by
    intro av old h0
    rcases hc with h | ⟨p, h, hpij⟩
    · rw [mixedCorrection_lower _ _ _ _ _ _ _ _ h, h0]
    · have := C74_given_rate_kept d.s0 d.idsim d.iscau d.scauchy av old p h
      rwa [hpij] at this
  have step1 : ∀ (st : StepState g) (l : Load g), (st.step d l).dmact i j = st.dmac i j := by
    intro st l
    show (l.stresses.foldl (iterate d) (st.begin l.udot l.tdot)).dmac i j +
      (l.stresses.foldl (iterate d) (st.begin l.udot l.tdot)).dacum i j = _
    rw [(iterations_macro d l.stresses _).1,
      (iterations_kept d i j hk l.stresses (st.begin l.udot l.tdot) rfl rfl).2, add_zero]
    rfl
  show (((start g u1 t1 sg).step d ⟨u1, t1, s1⟩).step d ⟨u2, t2, s2⟩).dmact i j = _
  rw [step1]
  have : ((start g u1 t1 sg).step d ⟨u1, t1, s1⟩).dmac i j =
    ((start g u1 t1 sg).step d ⟨u1, t1, s1⟩).dmact i j + u1 i j * t1 := rfl
  rw [this, step1]
  rfl

/-! ### Extrapolation between load steps -/

theorem chgBasis2_sub (q : BasisConst ℝ) (S T : T2 ℝ) (t : ℝ) (n : Fin 6) :
    chgBasis2 q le_rfl (fun k l => S k l - T k l * t) n =
      chgBasis2 q (le_refl 6) S n - chgBasis2 q (le_refl 6) T n * t := by
  simp only [chgBasis2, Fin.sum_univ_three]
  ring

theorem inverseOf_symm {n : ℕ} {A B : Dense n ℝ} (h : InverseOf A B) : InverseOf B A :=
  fun i j => ⟨(h i j).2, (h i j).1⟩

theorem act4_components (q : BasisConst ℝ) (M : Dense 6 ℝ) (T : T2 ℝ) :
    act4 (chgBasis3 q le_rfl M) T =
      chgBasis1 q le_rfl fun n => ∑ m, M n m * chgBasis2 q (le_refl 6) T m := by
  rw [act4_chgBasis3, chgBasis1_eq]

/-- **C75.** Between load steps the stress increment solves the linearised law: average compliance plus tangent
of the plastic rate times the time increment, applied to the stress increment, gives the strain increment less
the plastic strain increment.  The increment is symmetric. -/
theorem C75_extrapolation (q : BasisConst ℝ) (hq : q.Exact) (a : CoupleAvg) (c : HostCall) (hdt : 0 ≤ c.dt)
    (hs : PosForm a.sg66) (hP : ∀ x : Fin 6 → ℝ, 0 ≤ ∑ i, ∑ j, x i * a.dedotp66 i j * x j) (n : Fin 6) :
    ∑ m, (a.sg66 n m + a.dedotp66 n m * c.dt) * chgBasis2 q le_rfl (a.dstress q c) m =
        chgBasis2 q le_rfl c.dstran n - chgBasis2 q le_rfl a.edotp n * c.dt ∧
      (a.dstress q c).Sym := by
  obtain ⟨A, hA⟩ : ∃ A : Dense 6 ℝ, A = fun i j => a.sg66 i j + a.dedotp66 i j * c.dt := ⟨_, rfl⟩
  have hpos : PosForm A := by
    intro x hx
    have h1 := hs x hx
    have h2 := hP x
    have e : ∑ i, ∑ j, x i * A i j * x j =
        (∑ i, ∑ j, x i * a.sg66 i j * x j) + c.dt * ∑ i, ∑ j, x i * a.dedotp66 i j * x j := by
      rw [hA]
      simp only [Finset.mul_sum, ← Finset.sum_add_distrib]
      exact Finset.sum_congr rfl fun i _ => Finset.sum_congr rfl fun j _ => by ring
    rw [e]
    have := mul_nonneg hdt h2
    linarith
  obtain ⟨hinv, _⟩ := invertView_inverse A hpos
  have hd : a.dstress q c = act4 (chgBasis3 q le_rfl (invertView A))
      (fun k l => c.dstran k l - a.edotp k l * c.dt) := by
    rw [hA]
    rfl
  constructor
  · rw [hd, act4_components]
    rw [C66_vector_roundtrip q hq]
    have hap := apply_inverse (inverseOf_symm hinv) (chgBasis2 q le_rfl fun k l => c.dstran k l - a.edotp k l * c.dt) n
    rw [chgBasis2_sub q c.dstran a.edotp c.dt n] at hap
    rw [← hap, hA]
  · rw [hd, act4_components]
    exact C66_symmetric q le_rfl _

/-- **C75.** Without plasticity the extrapolation is elastic: the stress increment is the average stiffness
applied to the strain increment. -/
theorem C75_extrapolation_elastic (q : BasisConst ℝ) (hq : q.Exact) (cg : Dense 6 ℝ) (hc : PosForm cg)
    (c : HostCall) (n : Fin 6) :
    chgBasis2 q le_rfl ((⟨invertView cg, fun _ _ => 0, fun _ _ => 0⟩ : CoupleAvg).dstress q c) n =
      ∑ m, cg n m * chgBasis2 q le_rfl c.dstran m := by
  obtain ⟨h1, h2⟩ := invertView_inverse cg hc
  obtain ⟨h3, _⟩ := invertView_inverse _ h2
  have hd : (⟨invertView cg, fun _ _ => 0, fun _ _ => 0⟩ : CoupleAvg).dstress q c =
      act4 (chgBasis3 q le_rfl (invertView (invertView cg))) c.dstran := by
    have e : (fun i j => invertView cg i j + (fun _ _ => (0 : ℝ)) i j * c.dt : Dense 6 ℝ) = invertView cg := by
      funext i j; simp
    have e2 : (fun k l => c.dstran k l - (fun _ _ => (0 : ℝ)) k l * c.dt : T2 ℝ) = c.dstran := by
      funext k l; simp
    show act4 (chgBasis3 q le_rfl (invertView (fun i j => invertView cg i j + (fun _ _ => (0 : ℝ)) i j * c.dt)))
      (fun k l => c.dstran k l - (fun _ _ => (0 : ℝ)) k l * c.dt) = _
    rw [e, e2]
  rw [hd, act4_components, C66_vector_roundtrip q hq]
  -- both matrices are inverse to the compliance
  obtain ⟨x, hx⟩ : ∃ x : Fin 6 → ℝ, x = chgBasis2 q le_rfl c.dstran := ⟨_, rfl⟩
  rw [← hx]
  have e1 := apply_inverse (inverseOf_symm h1) (fun k => ∑ m, invertView (invertView cg) k m * x m) n
  have e2 : ∀ k, ∑ m, invertView cg k m * ∑ l, invertView (invertView cg) m l * x l = x k :=
    fun k => apply_inverse (inverseOf_symm h3) x k
  simp only [e2] at e1
  exact e1.symm

/-- **C75.** A call with a negligible gradient changes nothing; a call below the threshold adds the
extrapolated increment; any other returns the average stress of the representative volume. -/
theorem C75_stress_returned (q : BasisConst ℝ) (th : ℝ) (a : CoupleAvg) (scauav stress : T2 ℝ)
    (st : CoupleState) (c : HostCall) :
    (c.negligible → coupleCall q th a scauav st c stress = (st, stress)) ∧
    (¬ c.negligible → st.active = true → accVm (st.accNext c) < th →
      (coupleCall q th a scauav st c stress).2 = fun i j => stress i j + a.dstress q c i j) ∧
    (¬ c.negligible → (st.active = false ∨ th ≤ accVm (st.accNext c)) →
      (coupleCall q th a scauav st c stress).2 = scauav) := by
  refine ⟨fun h => ?_, fun h1 h2 h3 => ?_, fun h1 h2 => ?_⟩
  · unfold coupleCall; rw [if_pos h]
  · unfold coupleCall; rw [if_neg h1, if_pos ⟨h2, h3⟩]
  · unfold coupleCall
    rw [if_neg h1, if_neg]
    rintro ⟨h4, h5⟩
    rcases h2 with h | h
    · rw [h] at h4; cases h4
    · linarith

/-- **C75.** The average tangent of a sample without gas is the weighted sum. -/
theorem C75_tangent_average (wgt : ℝ) (ps : List (Dense 6 ℝ)) (i j : Fin 6) :
    ∃ m, tangentAverage wgt (ps.map some) = some m ∧ m i j = (ps.map fun p => p i j * wgt).sum := by
  induction ps with
  | nil => exact ⟨_, rfl, rfl⟩
  | cons p ps ih =>
    obtain ⟨m, hm, he⟩ := ih
    refine ⟨fun i j => m i j + p i j * wgt, ?_, ?_⟩
    · rw [List.map_cons, tangentAverage, hm]
      rfl
    · rw [List.map_cons, List.sum_cons, ← he]
      ring

/-- **C75.** *Fails in the code* with a gas phase: the average tangent then depends on memory never assigned, and
with it every extrapolated stress. -/
theorem C75_gas_tangent_fails (wgt : ℝ) (ps : List (Option (Dense 6 ℝ))) (h : none ∈ ps) :
    tangentAverage wgt ps = none := by
  induction ps with
  | nil => simp at h
  | cons p ps ih =>
    cases p with
    | none => rfl
    | some m =>
      have h' : none ∈ ps := by simpa using h
      rw [tangentAverage, ih h']
      rfl

/-! ### The hypotheses can be met -/

/-- A stretching call that counts. -/
example : ¬ (⟨fun i j => if i = 2 ∧ j = 2 then 1 else 0, 1⟩ : HostCall).negligible := by
  unfold HostCall.negligible
  have : ∑ i : Fin 3, ∑ j : Fin 3, (if i = 2 ∧ j = 2 then (1 : ℝ) else 0) *
      (if i = 2 ∧ j = 2 then (1 : ℝ) else 0) = 1 := by
    simp [Fin.sum_univ_three]
  simp only [this]
  norm_num

/-- Averages of an isotropic sample with one slip system. -/
example : PosForm (diagW 1 2) ∧ ∀ x : Fin 6 → ℝ, 0 ≤ ∑ i, ∑ j, x i * diagW 3 0 i j * x j := by
  refine ⟨diagW_pos 1 2 one_pos two_pos, fun x => ?_⟩
  refine Finset.sum_nonneg fun i _ => Finset.sum_nonneg fun j _ => ?_
  unfold diagW
  split_ifs with h1 h2
  · subst h1
    nlinarith [mul_self_nonneg (x i)]
  · simp
  · simp

end Fierro
