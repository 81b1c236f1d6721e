import Verif.Model.EvpStep
import Verif.Props.EvpField
import Verif.Props.EvpStress
import Verif.Props.EvpOrient

/-!
# C74: mixed boundary conditions and bookkeeping of the load step
-/

set_option linter.unusedSectionVars false

namespace Fierro

/-! ### Input -/

/-- **C74.** The run goes on exactly when not two of the three normal rates are given, and of each pair of
off-diagonal components at least one. -/
theorem C74_rate_flags (iudot : Fin 3 → Fin 3 → ℤ) :
    checkIudot iudot = true ↔
      iudot 0 0 + iudot 1 1 + iudot 2 2 ≠ 2 ∧ ∀ i j, i ≠ j → iudot i j + iudot j i ≠ 0 := by
  simp only [checkIudot, Bool.and_eq_true, decide_eq_true_eq, List.all_eq_true, List.mem_finRange,
    true_imp_iff, Bool.not_eq_true', Bool.and_eq_false_iff, decide_eq_false_iff_not]
  refine and_congr Iff.rfl (forall_congr' fun i => forall_congr' fun j => ?_)
  tauto

/-- **C74.** The run goes on exactly when for each of the six components either the rate or the stress is
given, never both and never none. -/
theorem C74_mixed_input (iudot : Fin 3 → Fin 3 → ℤ) (iscau : Fin 6 → ℤ) :
    checkMixedBc iudot iscau = true ↔
      ∀ p, (idsimOf iudot p = 1 ∧ iscau p = 0) ∨ (idsimOf iudot p = 0 ∧ iscau p = 1) := by
  simp only [checkMixedBc, List.all_eq_true, List.mem_finRange, true_imp_iff, Bool.not_eq_true',
    Bool.or_eq_false_iff, decide_eq_false_iff_not, not_not]
  refine forall_congr' fun p => ?_
  constructor
  · rintro ⟨h1, h2⟩
    rcases mul_eq_zero.mp h1 with h | h
    · exact Or.inl ⟨by omega, h⟩
    · exact Or.inr ⟨h, by omega⟩
  · rintro (⟨h1, h2⟩ | ⟨h1, h2⟩) <;> simp [h1, h2]

/-- **C74.** A shear rate counts as given when both components of the gradient are given; a normal rate when
its component is. -/
theorem C74_given_rates (iudot : Fin 3 → Fin 3 → ℤ) (p : Fin 6) :
    idsimOf iudot p = 1 ↔ iudot (ijv p).1 (ijv p).2 = 1 ∧ iudot (ijv p).2 (ijv p).1 = 1 := by
  fin_cases p <;> simp [idsimOf, ijv]

/-! ### Correction of the average -/

theorem mixedCorrection_entry (s0 : T4 ℝ) (idsim iscau : Fin 6 → ℤ) (scauchy scauav old : T2 ℝ) (p : Fin 6) :
    mixedCorrection s0 idsim iscau scauchy scauav old (ijv p).1 (ijv p).2 =
      mixedValue s0 idsim iscau scauchy scauav p := by
  have e : List.finRange 6 = [0, 1, 2, 3, 4, 5] := by decide
  unfold mixedCorrection
  rw [e]
  fin_cases p <;> simp [setEntry, ijv]

theorem mixedCorrection_lower (s0 : T4 ℝ) (idsim iscau : Fin 6 → ℤ) (scauchy scauav old : T2 ℝ)
    (i j : Fin 3) (h : j < i) :
    mixedCorrection s0 idsim iscau scauchy scauav old i j = old i j := by
  have e : List.finRange 6 = [0, 1, 2, 3, 4, 5] := by decide
  unfold mixedCorrection
  rw [e]
  revert h
  fin_cases i <;> fin_cases j <;> simp [setEntry, ijv]

/-- The six numbers of a symmetric tensor as a tensor; `w` is the share of each off-diagonal entry. -/
noncomputable def tensorOf6 (w : ℝ) (r : Fin 6 → ℝ) : T2 ℝ :=
  ![![r 0, w * r 5, w * r 4], ![w * r 5, r 1, w * r 3], ![w * r 4, w * r 3, r 2]]

theorem tensorOf6_sym (w : ℝ) (r : Fin 6 → ℝ) : (tensorOf6 w r).Sym := by
  intro i j
  fin_cases i <;> fin_cases j <;> simp [tensorOf6]

theorem act4_tensorOf6 (C : T4 ℝ) (hm : C.Minor) (w : ℝ) (r : Fin 6 → ℝ) (i j : Fin 3) :
    act4 C (tensorOf6 w r) i j = C i j 0 0 * r 0 + C i j 1 1 * r 1 + C i j 2 2 * r 2 +
      2 * w * (C i j 1 2 * r 3 + C i j 0 2 * r 4 + C i j 0 1 * r 5) := by
  have e2 : ∀ a b c d, C a b d c = C a b c d := fun a b c d => ((hm a b c d).2).symm
  simp only [act4, Fin.sum_univ_three, tensorOf6, Matrix.cons_val_zero, Matrix.cons_val_one,
    Matrix.cons_val]
  rw [e2 i j 0 1, e2 i j 0 2, e2 i j 1 2]
  ring

theorem ddot_tensorOf6 (U : T2 ℝ) (hU : U.Sym) (r : Fin 6 → ℝ) :
    ddot (tensorOf6 (1 / 2) r) U = ∑ p, r p * U (ijv p).1 (ijv p).2 := by
  simp only [ddot, Fin.sum_univ_three, Fin.sum_univ_six, tensorOf6, Matrix.cons_val_zero,
    Matrix.cons_val_one, Matrix.cons_val, ijv]
  rw [hU 1 0, hU 2 0, hU 2 1]
  ring

/-- **C74.** The correction of the average vanishes exactly when the prescribed stresses are met: the load
step comes to rest only there. -/
theorem C74_stress_target (s0 : T4 ℝ) (hm : s0.Minor) (hp : s0.Pos) (idsim iscau : Fin 6 → ℤ)
    (hb : ∀ p, (idsim p = 1 ∧ iscau p = 0) ∨ (idsim p = 0 ∧ iscau p = 1)) (scauchy scauav old : T2 ℝ) :
    (∀ p, mixedCorrection s0 idsim iscau scauchy scauav old (ijv p).1 (ijv p).2 = 0) ↔
      ∀ p, iscau p = 1 → scauav (ijv p).1 (ijv p).2 = scauchy (ijv p).1 (ijv p).2 := by
  simp only [mixedCorrection_entry]
  constructor
  · intro h
    obtain ⟨r, hr⟩ : ∃ r : Fin 6 → ℝ, r = fun k => (iscau k : ℝ) *
      (scauchy (ijv k).1 (ijv k).2 - scauav (ijv k).1 (ijv k).2) := ⟨_, rfl⟩
    have hact : ∀ p, act4 s0 (tensorOf6 (1 / 2) r) (ijv p).1 (ijv p).2 =
        ∑ k, s0 (ijv p).1 (ijv p).2 (ijv k).1 (ijv k).2 * (iscau k : ℝ) *
          (scauchy (ijv k).1 (ijv k).2 - scauav (ijv k).1 (ijv k).2) := by
      intro p
      rw [act4_tensorOf6 s0 hm]
      have : ∀ k, s0 (ijv p).1 (ijv p).2 (ijv k).1 (ijv k).2 * (iscau k : ℝ) *
          (scauchy (ijv k).1 (ijv k).2 - scauav (ijv k).1 (ijv k).2) =
          s0 (ijv p).1 (ijv p).2 (ijv k).1 (ijv k).2 * r k := by
        intro k
        rw [hr]
        ring
      simp only [this, Fin.sum_univ_six]
      simp only [ijv, Matrix.cons_val_zero, Matrix.cons_val_one, Matrix.cons_val]
      ring
    have hsym : (act4 s0 (tensorOf6 (1 / 2) r)).Sym := fun i j =>
      Finset.sum_congr rfl fun k _ => Finset.sum_congr rfl fun l _ => by rw [(hm i j k l).1]
    have hz : tensorOf6 (1 / 2) r = 0 := by
      by_contra hne
      have := hp _ (tensorOf6_sym _ r) hne
      rw [ddot_tensorOf6 _ hsym] at this
      refine absurd this (le_of_eq ?_).not_gt
      refine Finset.sum_eq_zero fun p _ => ?_
      rcases hb p with ⟨_, h1⟩ | ⟨h0, _⟩
      · rw [hr]
        simp [h1]
      · have := h p
        unfold mixedValue at this
        rw [if_pos h0] at this
        rw [hact p, this, mul_zero]
    have hr0 : ∀ p, r p = 0 := by
      intro p
      have e := congrFun (congrFun hz (ijv p).1) (ijv p).2
      fin_cases p <;> simpa [tensorOf6, ijv] using e
    intro p h1
    have := hr0 p
    rw [hr] at this
    simp only [h1, Int.cast_one, one_mul] at this
    linarith
  · intro h p
    unfold mixedValue
    split_ifs with h0
    · refine Finset.sum_eq_zero fun k _ => ?_
      rcases hb k with ⟨_, h1⟩ | ⟨_, h1⟩
      · simp [h1]
      · rw [h k h1, sub_self, mul_zero]
    · rfl

/-- **C74.** Components with a given rate are never corrected. -/
theorem C74_given_rate_kept (s0 : T4 ℝ) (idsim iscau : Fin 6 → ℤ) (scauchy scauav old : T2 ℝ) (p : Fin 6)
    (h : idsim p ≠ 0) :
    mixedCorrection s0 idsim iscau scauchy scauav old (ijv p).1 (ijv p).2 = 0 := by
  rw [mixedCorrection_entry]
  exact if_neg h

/-- **C74.** *Fails in the code*: with a stress given for a shear component, the velocity gradient component
marked as given (2,3) is changed by the correction while the free one (3,2) is left alone, so the run keeps
neither the given component nor the rotation it asks for. -/
theorem C74_given_gradient_fails :
    ∃ (iudot : Fin 3 → Fin 3 → ℤ) (iscau : Fin 6 → ℤ) (s0 : T4 ℝ) (scauav : T2 ℝ),
      checkIudot iudot = true ∧ checkMixedBc iudot iscau = true ∧ iudot 1 2 = 1 ∧ iudot 2 1 = 0 ∧
      mixedCorrection s0 (idsimOf iudot) iscau (fun _ _ => 0) scauav (fun _ _ => 0) 1 2 ≠ 0 ∧
      mixedCorrection s0 (idsimOf iudot) iscau (fun _ _ => 0) scauav (fun _ _ => 0) 2 1 = 0 := by
  refine ⟨fun i j => if i = 2 ∧ j = 1 then 0 else 1, ![0, 0, 0, 1, 0, 0], xid4,
    fun i j => if i = 1 ∧ j = 2 then 1 else 0, by decide, by decide, by decide, by decide, ?_, ?_⟩
  · have := mixedCorrection_entry xid4 (idsimOf fun i j => if i = 2 ∧ j = 1 then 0 else 1)
      ![0, 0, 0, 1, 0, 0] (fun _ _ => 0) (fun i j => if i = 1 ∧ j = 2 then 1 else 0) (fun _ _ => 0) 3
    have e : (ijv 3) = (1, 2) := rfl
    rw [e] at this
    simp only at this
    rw [this]
    have h3 : idsimOf (fun i j => if i = 2 ∧ j = 1 then 0 else 1) 3 = 0 := by decide
    unfold mixedValue
    rw [if_pos h3, Fin.sum_univ_six]
    simp [ijv, xid4, dde]
  · rw [mixedCorrection_lower _ _ _ _ _ _ _ _ (by decide)]

/-! ### Averages over the load step -/

namespace StepState

variable {g : EvpGrid}

theorem average_add_const (hp : g.Pos) (f : g.Ix → T2 ℝ) (c : T2 ℝ) (i j : Fin 3) :
    average g (fun x i j => f x i j + c i j) i j = average g f i j + c i j := by
  have hs : (g.size : ℝ) ≠ 0 := by exact_mod_cast g.size_ne hp
  unfold average
  simp only [add_mul, Finset.sum_add_distrib, Finset.sum_const, nsmul_eq_mul]
  congr 1
  have hc : (Finset.univ : Finset g.Ix).card = g.size := by
    rw [Finset.card_univ]
    simp [EvpGrid.Ix, EvpGrid.size, Fintype.card_pi, Fin.prod_univ_three]
  rw [hc]
  field_simp

theorem average_add (f h : g.Ix → T2 ℝ) (i j : Fin 3) :
    average g (fun x i j => f x i j + h x i j) i j = average g f i j + average g h i j := by
  unfold average
  simp only [add_mul, Finset.sum_add_distrib]

theorem average_correction (hp : g.Pos) (c0 s0 : T4 ℝ) (sg : g.Ix → T2 ℝ) (i j : Fin 3) :
    average g (g.correction c0 s0 sg) i j = 0 := by
  unfold average
  rw [← Finset.sum_mul, C73_field_mean g hp, zero_mul]

theorem average_iterate (hp : g.Pos) (d : StepData) (st : StepState g) (s : g.Ix → T2 ℝ) (i j : Fin 3) :
    average g (st.iterate d s).disgrad i j = average g st.disgrad i j + st.ddis i j := by
  have e : (st.iterate d s).disgrad = fun x i j =>
      (st.disgrad x i j + g.correction d.c0 d.s0 st.sg x i j) + st.ddis i j := by
    funext x i j
    simp only [iterate, EvpGrid.initializeDisgrad]
    ring
  rw [e, average_add_const hp, average_add, average_correction hp, add_zero]

theorem iterations_average (hp : g.Pos) (d : StepData) (l : List (g.Ix → T2 ℝ)) (st : StepState g)
    (i j : Fin 3) :
    average g (l.foldl (iterate d) st).disgrad i j =
      average g st.disgrad i j + ((l.foldl (iterate d) st).dacum i j - st.dacum i j) -
        ((l.foldl (iterate d) st).ddis i j - st.ddis i j) := by
  induction l generalizing st with
  | nil => simp
  | cons s l ih =>
    rw [List.foldl_cons, ih, average_iterate hp]
    have h1 : (st.iterate d s).dacum i j = st.dacum i j + (st.iterate d s).ddis i j := rfl
    rw [h1]
    ring

theorem iterations_macro (d : StepData) (l : List (g.Ix → T2 ℝ)) (st : StepState g) :
    (l.foldl (iterate d) st).dmac = st.dmac ∧ (l.foldl (iterate d) st).dmact = st.dmact ∧
      (l.foldl (iterate d) st).velgrad = st.velgrad := by
  induction l generalizing st with
  | nil => simp
  | cons s l ih =>
    rw [List.foldl_cons]
    exact ih _

theorem average_step (hp : g.Pos) (d : StepData) (st : StepState g) (l : Load g) (i j : Fin 3) :
    average g (st.step d l).disgrad i j = average g st.disgrad i j + l.udot i j * l.tdot +
      ((st.step d l).dmact i j - st.dmac i j) - (st.step d l).ddis i j := by
  have h1 : (st.step d l).disgrad = (l.stresses.foldl (iterate d) (st.begin l.udot l.tdot)).disgrad := rfl
  have h2 : (st.step d l).ddis = (l.stresses.foldl (iterate d) (st.begin l.udot l.tdot)).ddis := rfl
  have h3 : (st.step d l).dmact i j = (l.stresses.foldl (iterate d) (st.begin l.udot l.tdot)).dmac i j +
    (l.stresses.foldl (iterate d) (st.begin l.udot l.tdot)).dacum i j := rfl
  have h4 : average g (st.begin l.udot l.tdot).disgrad i j =
      average g st.disgrad i j + l.udot i j * l.tdot :=
    average_add_const hp st.disgrad (fun i j => l.udot i j * l.tdot) i j
  have h5 : (st.begin l.udot l.tdot).dacum i j = 0 := rfl
  have h6 : (st.begin l.udot l.tdot).ddis i j = 0 := rfl
  have h7 : (l.stresses.foldl (iterate d) (st.begin l.udot l.tdot)).dmac = st.dmac :=
    (iterations_macro d l.stresses _).1
  rw [h1, h2, h3, iterations_average hp, h4, h5, h6, h7]
  ring

end StepState

open StepState

/-- **C74.** Bookkeeping of a run with a constant rate: the average over the grid is the displacement gradient
reported, less the last correction of every step so far.  Holds for every stress update, every number of
iterations and of steps. -/
theorem C74_grid_average (g : EvpGrid) (hp : g.Pos) (d : StepData) (udot : T2 ℝ) (tdot : ℝ)
    (sg : g.Ix → T2 ℝ) (ls : List (Load g)) (hl : ∀ l ∈ ls, l.udot = udot ∧ l.tdot = tdot) (i j : Fin 3) :
    average g (run d (start g udot tdot sg) ls).disgrad i j =
      (run d (start g udot tdot sg) ls).dmact i j -
        ∑ k ∈ Finset.range ls.length, (run d (start g udot tdot sg) (ls.take (k + 1))).ddis i j := by
  induction ls using List.reverseRecOn with
  | nil => simp [run, start, average]
  | append_singleton ls l ih =>
    have hl' : ∀ l ∈ ls, l.udot = udot ∧ l.tdot = tdot := fun x hx => hl x (by simp [hx])
    have hd : ∀ m : List (Load g), (∀ l ∈ m, l.udot = udot ∧ l.tdot = tdot) →
        (run d (start g udot tdot sg) m).dmac i j =
          (run d (start g udot tdot sg) m).dmact i j + udot i j * tdot := by
      intro m hm
      induction m using List.reverseRecOn with
      | nil => simp [run, start]
      | append_singleton m x _ =>
        obtain ⟨hu, ht⟩ := hm x (by simp)
        have e : run d (start g udot tdot sg) (m ++ [x]) = (run d (start g udot tdot sg) m).step d x := by
          simp [run, List.foldl_append]
        have e2 : ((run d (start g udot tdot sg) m).step d x).dmac i j =
          ((run d (start g udot tdot sg) m).step d x).dmact i j + x.udot i j * x.tdot := rfl
        rw [e, e2, hu, ht]
    have e : run d (start g udot tdot sg) (ls ++ [l]) = (run d (start g udot tdot sg) ls).step d l := by
      simp [run, List.foldl_append]
    obtain ⟨hu, ht⟩ := hl l (by simp)
    rw [e, average_step hp, ih hl', hd ls hl', hu, ht, List.length_append, List.length_singleton,
      Finset.sum_range_succ]
    have h1 : (ls ++ [l]).take (ls.length + 1) = ls ++ [l] := by
      rw [List.take_of_length_le (by simp)]
    rw [h1, e]
    have h2 : ∑ k ∈ Finset.range ls.length, (run d (start g udot tdot sg) ((ls ++ [l]).take (k + 1))).ddis i j =
        ∑ k ∈ Finset.range ls.length, (run d (start g udot tdot sg) (ls.take (k + 1))).ddis i j := by
      refine Finset.sum_congr rfl fun k hk => ?_
      rw [List.take_append_of_le_length (by have := Finset.mem_range.mp hk; omega)]
    rw [h2]
    ring

/-- Entries that the correction never touches. -/
theorem iterations_kept (d : StepData) {g : EvpGrid} (i j : Fin 3)
    (hk : ∀ av old : T2 ℝ, old i j = 0 → mixedCorrection d.s0 d.idsim d.iscau d.scauchy av old i j = 0)
    (l : List (g.Ix → T2 ℝ)) (st : StepState g) (h1 : st.ddis i j = 0) (h2 : st.dacum i j = 0) :
    (l.foldl (iterate d) st).ddis i j = 0 ∧ (l.foldl (iterate d) st).dacum i j = 0 := by
  induction l generalizing st with
  | nil => exact ⟨h1, h2⟩
  | cons s l ih =>
    rw [List.foldl_cons]
    have h3 : (st.iterate d s).ddis i j = 0 := hk _ _ h1
    refine ih _ h3 ?_
    show st.dacum i j + (st.iterate d s).ddis i j = 0
    rw [h2, h3, add_zero]

/-- **C74.** Given rates are followed exactly: in a run with a constant rate, after any number of steps the
components with a given rate, and the components below the diagonal, have grown by rate times elapsed time, in
the report and on average over the grid, whatever the stress update and the number of iterations. -/
theorem C74_given_rates_followed (g : EvpGrid) (hp : g.Pos) (d : StepData) (udot : T2 ℝ) (tdot : ℝ)
    (sg : g.Ix → T2 ℝ) (ls : List (Load g)) (hl : ∀ l ∈ ls, l.udot = udot ∧ l.tdot = tdot) (i j : Fin 3)
    (hc : j < i ∨ ∃ p, d.idsim p ≠ 0 ∧ ijv p = (i, j)) :
    (run d (start g udot tdot sg) ls).dmact i j = ls.length * (udot i j * tdot) ∧
      average g (run d (start g udot tdot sg) ls).disgrad i j = ls.length * (udot i j * tdot) := by
  have hk : ∀ av old : T2 ℝ, old i j = 0 →
      mixedCorrection d.s0 d.idsim d.iscau d.scauchy av old i j = 0 := by
    intro av old h0
    rcases hc with h | ⟨p, h, hpij⟩
    · rw [mixedCorrection_lower _ _ _ _ _ _ _ _ h, h0]
    · have := C74_given_rate_kept d.s0 d.idsim d.iscau d.scauchy av old p h
      rwa [hpij] at this
  have key : ∀ m : List (Load g), (∀ l ∈ m, l.udot = udot ∧ l.tdot = tdot) →
      (run d (start g udot tdot sg) m).dmact i j = m.length * (udot i j * tdot) ∧
      (run d (start g udot tdot sg) m).dmac i j = (m.length + 1) * (udot i j * tdot) ∧
      (run d (start g udot tdot sg) m).ddis i j = 0 := by
    intro m hm
    induction m using List.reverseRecOn with
    | nil => simp [run, start]
    | append_singleton m x ih =>
      obtain ⟨_, h2, _⟩ := ih fun y hy => hm y (by simp [hy])
      obtain ⟨hu, ht⟩ := hm x (by simp)
      obtain ⟨k1, k2⟩ := iterations_kept d i j hk x.stresses
        ((run d (start g udot tdot sg) m).begin x.udot x.tdot) rfl rfl
      have e : run d (start g udot tdot sg) (m ++ [x]) = (run d (start g udot tdot sg) m).step d x := by
        simp [run, List.foldl_append]
      have hm1 : (x.stresses.foldl (iterate d) ((run d (start g udot tdot sg) m).begin x.udot x.tdot)).dmac =
          (run d (start g udot tdot sg) m).dmac := (iterations_macro d x.stresses _).1
      have hact : ((run d (start g udot tdot sg) m).step d x).dmact i j = (m.length + 1) * (udot i j * tdot) := by
        show (x.stresses.foldl (iterate d) ((run d (start g udot tdot sg) m).begin x.udot x.tdot)).dmac i j +
          (x.stresses.foldl (iterate d) ((run d (start g udot tdot sg) m).begin x.udot x.tdot)).dacum i j = _
        rw [hm1, k2, h2, add_zero]
      rw [e]
      refine ⟨?_, ?_, k1⟩
      · rw [hact]; push_cast [List.length_append, List.length_singleton]; ring
      · have : ((run d (start g udot tdot sg) m).step d x).dmac i j =
          ((run d (start g udot tdot sg) m).step d x).dmact i j + x.udot i j * x.tdot := rfl
        rw [this, hact, hu, ht]
        push_cast [List.length_append, List.length_singleton]
        ring
  refine ⟨(key ls hl).1, ?_⟩
  rw [C74_grid_average g hp d udot tdot sg ls hl, (key ls hl).1]
  have : ∑ k ∈ Finset.range ls.length, (run d (start g udot tdot sg) (ls.take (k + 1))).ddis i j = 0 :=
    Finset.sum_eq_zero fun k _ => (key _ fun l h => hl l (List.mem_of_mem_take h)).2.2
  rw [this, sub_zero]

/-- **C74.** The velocity gradient left at each grid point is the change of its displacement gradient over the
step divided by the time increment. -/
theorem C74_velocity_gradient (g : EvpGrid) (d : StepData) (st : StepState g) (l : Load g) (ht : l.tdot ≠ 0)
    (x : g.Ix) (i j : Fin 3) :
    (st.step d l).velgrad x i j * l.tdot = (st.step d l).disgrad x i j - st.disgrad x i j ∧
      (st.step d l).vmac i j * l.tdot = (st.step d l).dmact i j - st.dmact i j := by
  obtain ⟨_, h2, h3⟩ := iterations_macro d l.stresses (st.begin l.udot l.tdot)
  constructor
  · show ((l.stresses.foldl (iterate d) (st.begin l.udot l.tdot)).disgrad x i j -
      (l.stresses.foldl (iterate d) (st.begin l.udot l.tdot)).velgrad x i j) / l.tdot * l.tdot = _
    rw [h3, div_mul_cancel₀ _ ht]
    rfl
  · show ((st.step d l).dmact i j - (l.stresses.foldl (iterate d) (st.begin l.udot l.tdot)).dmact i j) /
      l.tdot * l.tdot = _
    rw [h2, div_mul_cancel₀ _ ht]
    rfl

/-- The grid, data and load of the counterexample: one point, two normal stresses given. -/
noncomputable def onePoint : EvpGrid := ⟨fun _ => 1, fun _ => 1⟩

/-- **C74.** *Fails in the code*: the displacement gradient reported for the sample is not the average over the
grid when stresses are given, because the last correction of each step is counted but never applied. -/
theorem C74_reported_gradient_fails :
    ∃ (iudot : Fin 3 → Fin 3 → ℤ) (iscau : Fin 6 → ℤ) (scauchy : T2 ℝ) (l : Load onePoint),
      checkIudot iudot = true ∧ checkMixedBc iudot iscau = true ∧
      average onePoint (run ⟨xid4, xid4, idsimOf iudot, iscau, scauchy⟩
          (start onePoint l.udot l.tdot fun _ _ _ => 0) [l]).disgrad 0 0 ≠
        (run ⟨xid4, xid4, idsimOf iudot, iscau, scauchy⟩
          (start onePoint l.udot l.tdot fun _ _ _ => 0) [l]).dmact 0 0 := by
  refine ⟨fun i j => if i = j ∧ i ≠ 2 then 0 else 1, ![1, 1, 0, 0, 0, 0], fun i j => if i = j then 1 else 0,
    ⟨fun _ _ => 0, 1, [fun _ _ _ => 0]⟩, by decide, by decide, ?_⟩
  intro h
  rw [C74_grid_average onePoint (fun _ => Nat.one_pos) _ _ _ _ _ (by simp)] at h
  simp only [List.length_singleton, Finset.sum_range_one, List.take_succ_cons, List.take_zero] at h
  have e : (run ⟨xid4, xid4, idsimOf fun i j => if i = j ∧ i ≠ 2 then 0 else 1, ![1, 1, 0, 0, 0, 0],
      fun i j => if i = j then 1 else 0⟩ (start onePoint (fun _ _ => 0) 1 fun _ _ _ => 0)
        [⟨fun _ _ => 0, 1, [fun _ _ _ => 0]⟩]).ddis 0 0 = 1 := by
    have := mixedCorrection_entry xid4 (idsimOf fun i j => if i = j ∧ i ≠ 2 then 0 else 1)
      ![1, 1, 0, 0, 0, 0] (fun i j => if i = j then 1 else 0)
      (average onePoint fun _ _ _ => 0) (fun _ _ => 0) 0
    refine Eq.trans this ?_
    have h0 : idsimOf (fun i j => if i = j ∧ i ≠ 2 then 0 else 1) 0 = 0 := by decide
    unfold mixedValue
    rw [if_pos h0, Fin.sum_univ_six]
    simp [ijv, xid4, dde, average]
  rw [e] at h
  linarith

/-! ### A homogeneous elastic sample under given stresses -/

/-- **C74.** Uniform stress needs no fluctuation. -/
theorem C74_uniform_stress (g : EvpGrid) (hg : g.Good) (c0 s0 : T4 ℝ) (s : T2 ℝ) (x : g.Ix) (i j : Fin 3) :
    g.correction c0 s0 (fun _ => s) x i j = 0 := by
  obtain ⟨z, hz⟩ : ∃ z : g.Ix, ∀ a, (z a : ℕ) = 0 := ⟨fun a => ⟨0, hg.pos a⟩, fun _ => rfl⟩
  have hf : ∀ k (c : ℝ), g.zeroFreq k = false → g.forward (fun _ => c) k = 0 := by
    intro k c hk
    have hne : z ≠ k := fun h => by
      have := (g.zeroFreq_iff k).mpr (h ▸ hz)
      rw [hk] at this
      cases this
    have h1 : ∀ x, g.chi z x = 1 := by
      intro x
      simp [EvpGrid.chi, hz]
    have := g.chi_orthogonal hg.pos z k
    rw [if_neg hne] at this
    simp only [h1, one_mul] at this
    unfold EvpGrid.forward
    rw [← Finset.mul_sum, this, mul_zero]
  have hh : ∀ k, g.correctionHat c0 s0 (fun _ => s) k i j = 0 := by
    intro k
    cases hz' : g.zeroFreq k
    · apply Complex.ext <;> simp [EvpGrid.correctionHat, hf k _ hz', greenCorrection]
    · exact g.correctionHat_zero c0 s0 _ k hz' i j
  simp [EvpGrid.correction, EvpGrid.backward, hh]

/-- Iteration of a sample made of the reference medium, behaving elastically. -/
noncomputable def elasticIterate (g : EvpGrid) (d : StepData) (st : StepState g) : StepState g :=
  st.iterate d fun x => act4 d.c0 (g.initializeDisgrad st.ddis (g.correction d.c0 d.s0 st.sg) st.disgrad x)

/-- **C74.** One correction of a homogeneous elastic sample with all six stresses given and a compliance that
does not couple shear: normal stresses are met at once, and a quarter of each shear gap is closed, because
shear is counted once in the compliance sum and entered in one of the two entries. -/
theorem C74_stress_correction (c0 s0 : T4 ℝ) (hmc : c0.Minor) (hms : s0.Minor)
    (hinv : ∀ T : T2 ℝ, T.Sym → act4 c0 (act4 s0 T) = T)
    (hun : ∀ p q : Fin 6, p ≠ q → 3 ≤ p.val ∨ 3 ≤ q.val →
      s0 (ijv p).1 (ijv p).2 (ijv q).1 (ijv q).2 = 0)
    (idsim iscau : Fin 6 → ℤ) (h0 : ∀ p, idsim p = 0) (h1 : ∀ p, iscau p = 1) (scauchy s old : T2 ℝ)
    (hold : ∀ i j, j < i → old i j = 0) (p : Fin 6) :
    scauchy (ijv p).1 (ijv p).2 - (s (ijv p).1 (ijv p).2 +
        act4 c0 (mixedCorrection s0 idsim iscau scauchy s old) (ijv p).1 (ijv p).2) =
      (if p.val < 3 then 0 else 3 / 4) * (scauchy (ijv p).1 (ijv p).2 - s (ijv p).1 (ijv p).2) := by
  obtain ⟨r, hr⟩ : ∃ r : Fin 6 → ℝ, r = fun k => scauchy (ijv k).1 (ijv k).2 - s (ijv k).1 (ijv k).2 :=
    ⟨_, rfl⟩
  obtain ⟨D, hD⟩ : ∃ D, D = mixedCorrection s0 idsim iscau scauchy s old := ⟨_, rfl⟩
  have hent : ∀ p, D (ijv p).1 (ijv p).2 = ∑ k, s0 (ijv p).1 (ijv p).2 (ijv k).1 (ijv k).2 * r k := by
    intro p
    rw [hD, mixedCorrection_entry]
    unfold mixedValue
    rw [if_pos (h0 p)]
    refine Finset.sum_congr rfl fun k _ => ?_
    rw [h1 k, hr, Int.cast_one, mul_one]
  have hlow : ∀ i j, j < i → D i j = 0 := fun i j h => by
    rw [hD, mixedCorrection_lower _ _ _ _ _ _ _ _ h, hold i j h]
  have hsymp : act4 c0 D = act4 c0 (act4 s0 (tensorOf6 (1 / 4) r)) := by
    have e2 : ∀ a b c d, c0 a b d c = c0 a b c d := fun a b c d => ((hmc a b c d).2).symm
    have f1 : ∀ a b c d, s0 b a c d = s0 a b c d := fun a b c d => ((hms a b c d).1).symm
    have d0 := hent 0
    have d1 := hent 1
    have d2 := hent 2
    have d3 := hent 3
    have d4 := hent 4
    have d5 := hent 5
    have u := hun
    simp only [Fin.sum_univ_six] at d0 d1 d2 d3 d4 d5
    rw [u 0 3 (by decide) (by decide), u 0 4 (by decide) (by decide), u 0 5 (by decide) (by decide)] at d0
    rw [u 1 3 (by decide) (by decide), u 1 4 (by decide) (by decide), u 1 5 (by decide) (by decide)] at d1
    rw [u 2 3 (by decide) (by decide), u 2 4 (by decide) (by decide), u 2 5 (by decide) (by decide)] at d2
    rw [u 3 0 (by decide) (by decide), u 3 1 (by decide) (by decide), u 3 2 (by decide) (by decide),
      u 3 4 (by decide) (by decide), u 3 5 (by decide) (by decide)] at d3
    rw [u 4 0 (by decide) (by decide), u 4 1 (by decide) (by decide), u 4 2 (by decide) (by decide),
      u 4 3 (by decide) (by decide), u 4 5 (by decide) (by decide)] at d4
    rw [u 5 0 (by decide) (by decide), u 5 1 (by decide) (by decide), u 5 2 (by decide) (by decide),
      u 5 3 (by decide) (by decide), u 5 4 (by decide) (by decide)] at d5
    have u03 := u 0 3 (by decide) (by decide)
    have u04 := u 0 4 (by decide) (by decide)
    have u05 := u 0 5 (by decide) (by decide)
    have u13 := u 1 3 (by decide) (by decide)
    have u14 := u 1 4 (by decide) (by decide)
    have u15 := u 1 5 (by decide) (by decide)
    have u23 := u 2 3 (by decide) (by decide)
    have u24 := u 2 4 (by decide) (by decide)
    have u25 := u 2 5 (by decide) (by decide)
    have u30 := u 3 0 (by decide) (by decide)
    have u31 := u 3 1 (by decide) (by decide)
    have u32 := u 3 2 (by decide) (by decide)
    have u34 := u 3 4 (by decide) (by decide)
    have u35 := u 3 5 (by decide) (by decide)
    have u40 := u 4 0 (by decide) (by decide)
    have u41 := u 4 1 (by decide) (by decide)
    have u42 := u 4 2 (by decide) (by decide)
    have u43 := u 4 3 (by decide) (by decide)
    have u45 := u 4 5 (by decide) (by decide)
    have u50 := u 5 0 (by decide) (by decide)
    have u51 := u 5 1 (by decide) (by decide)
    have u52 := u 5 2 (by decide) (by decide)
    have u53 := u 5 3 (by decide) (by decide)
    have u54 := u 5 4 (by decide) (by decide)
    simp only [ijv, Matrix.cons_val_zero, Matrix.cons_val_one, Matrix.cons_val, zero_mul, zero_add, add_zero]
      at d0 d1 d2 d3 d4 d5 u03 u04 u05 u13 u14 u15 u23 u24 u25 u30 u31 u32 u34 u35 u40 u41 u42 u43 u45 u50
        u51 u52 u53 u54
    funext i j
    rw [act4, act4]
    simp only [act4_tensorOf6 s0 hms, Fin.sum_univ_three]
    rw [hlow 1 0 (by decide), hlow 2 0 (by decide), hlow 2 1 (by decide), d0, d1, d2, d3, d4, d5,
      e2 i j 0 1, e2 i j 0 2, e2 i j 1 2]
    simp only [f1 0 1, f1 0 2, f1 1 2, u03, u04, u05, u13, u14, u15, u23, u24, u25, u30, u31, u32, u34, u35,
      u40, u41, u42, u43, u45, u50, u51, u52, u53, u54]
    ring
  rw [← hD, hsymp, hinv _ (tensorOf6_sym _ r)]
  have : scauchy (ijv p).1 (ijv p).2 - s (ijv p).1 (ijv p).2 = r p := by rw [hr]
  rw [← sub_sub, this]
  fin_cases p <;> simp [tensorOf6, ijv] <;> ring

/-- **C74.** Stress control converges: a homogeneous elastic sample with all six stresses given (compliance not
coupling shear) meets the normal stresses from the second iteration on, and each shear gap shrinks by 3/4 per
iteration, on every grid. -/
theorem C74_stress_control (g : EvpGrid) (hg : g.Good) (d : StepData) (hmc : d.c0.Minor) (hms : d.s0.Minor)
    (hinv : ∀ T : T2 ℝ, T.Sym → act4 d.c0 (act4 d.s0 T) = T)
    (hun : ∀ p q : Fin 6, p ≠ q → 3 ≤ p.val ∨ 3 ≤ q.val →
      d.s0 (ijv p).1 (ijv p).2 (ijv q).1 (ijv q).2 = 0)
    (h0 : ∀ p, d.idsim p = 0) (h1 : ∀ p, d.iscau p = 1) (E : T2 ℝ) (st : StepState g)
    (hE : st.disgrad = fun _ => E) (hs : ∃ s, st.sg = fun _ => s) (hd : st.ddis = fun _ _ => 0) (n : ℕ)
    (p : Fin 6) :
    d.scauchy (ijv p).1 (ijv p).2 - ((elasticIterate g d)^[n + 1] st).scauav (ijv p).1 (ijv p).2 =
      (if p.val < 3 then 0 else 3 / 4) ^ n *
        (d.scauchy (ijv p).1 (ijv p).2 - act4 d.c0 E (ijv p).1 (ijv p).2) := by
  have hav : ∀ (s : T2 ℝ), average g (fun _ => s) = s := by
    intro s
    funext i j
    have := average_add_const hg.pos (fun _ _ _ => (0 : ℝ)) s i j
    simp only [zero_add] at this
    rw [this]
    simp [average]
  have one : ∀ (F : T2 ℝ) (s : T2 ℝ) (st : StepState g), st.disgrad = (fun _ => F) → st.sg = (fun _ => s) →
      (elasticIterate g d st).disgrad = (fun _ i j => F i j + st.ddis i j) ∧
      (elasticIterate g d st).sg = (fun _ => act4 d.c0 fun i j => F i j + st.ddis i j) ∧
      (elasticIterate g d st).scauav = (act4 d.c0 fun i j => F i j + st.ddis i j) ∧
      (elasticIterate g d st).ddis = mixedCorrection d.s0 d.idsim d.iscau d.scauchy
        (act4 d.c0 fun i j => F i j + st.ddis i j) st.ddis := by
    intro F s st hF hsg
    have e : g.initializeDisgrad st.ddis (g.correction d.c0 d.s0 st.sg) st.disgrad =
        fun _ i j => F i j + st.ddis i j := by
      funext x i j
      simp only [EvpGrid.initializeDisgrad, hF, hsg]
      rw [C74_uniform_stress g hg, add_zero]
    have e2 : (fun x => act4 d.c0 (g.initializeDisgrad st.ddis (g.correction d.c0 d.s0 st.sg) st.disgrad x)) =
        fun _ => act4 d.c0 fun i j => F i j + st.ddis i j := by rw [e]
    unfold elasticIterate
    rw [e2]
    simp only [iterate]
    refine ⟨e, trivial, hav _, ?_⟩
    rw [hav]
  -- state after `n + 1` iterations
  have key : ∀ n, ∃ F : T2 ℝ, ((elasticIterate g d)^[n + 1] st).disgrad = (fun _ => F) ∧
      ((elasticIterate g d)^[n + 1] st).sg = (fun _ => act4 d.c0 F) ∧
      ((elasticIterate g d)^[n + 1] st).scauav = act4 d.c0 F ∧
      (∃ old : T2 ℝ, (∀ i j, j < i → old i j = 0) ∧ ((elasticIterate g d)^[n + 1] st).ddis =
        mixedCorrection d.s0 d.idsim d.iscau d.scauchy (act4 d.c0 F) old) ∧
      ∀ p : Fin 6, d.scauchy (ijv p).1 (ijv p).2 - act4 d.c0 F (ijv p).1 (ijv p).2 =
        (if p.val < 3 then 0 else 3 / 4) ^ n *
          (d.scauchy (ijv p).1 (ijv p).2 - act4 d.c0 E (ijv p).1 (ijv p).2) := by
    intro n
    induction n with
    | zero =>
      obtain ⟨s, hs⟩ := hs
      obtain ⟨a1, a2, a3, a4⟩ := one E s st hE hs
      have hz : (fun i j => E i j + st.ddis i j) = E := by
        funext i j
        rw [hd, add_zero]
      rw [zero_add, Function.iterate_one]
      refine ⟨E, ?_, ?_, ?_, ⟨fun _ _ => 0, fun _ _ _ => rfl, ?_⟩, fun p => ?_⟩
      · rw [a1]; funext _; exact hz
      · rw [a2, hz]
      · rw [a3, hz]
      · rw [a4, hz, hd]
      · rw [pow_zero, one_mul]
    | succ n ih =>
      obtain ⟨F, b1, b2, b3, ⟨old, bo, b4⟩, b5⟩ := ih
      obtain ⟨a1, a2, a3, a4⟩ := one F (act4 d.c0 F) _ b1 b2
      have hlow : ∀ i j, j < i → ((elasticIterate g d)^[n + 1] st).ddis i j = 0 := fun i j h => by
        rw [b4, mixedCorrection_lower _ _ _ _ _ _ _ _ h, bo i j h]
      rw [Function.iterate_succ_apply']
      refine ⟨fun i j => F i j + ((elasticIterate g d)^[n + 1] st).ddis i j, a1, a2, a3,
        ⟨_, hlow, a4⟩, fun p => ?_⟩
      have hadd : act4 d.c0 (fun i j => F i j + ((elasticIterate g d)^[n + 1] st).ddis i j) =
          fun i j => act4 d.c0 F i j + act4 d.c0 ((elasticIterate g d)^[n + 1] st).ddis i j := by
        funext i j
        simp only [act4, mul_add, Finset.sum_add_distrib]
      rw [hadd]
      show d.scauchy (ijv p).1 (ijv p).2 - (act4 d.c0 F (ijv p).1 (ijv p).2 +
        act4 d.c0 ((elasticIterate g d)^[n + 1] st).ddis (ijv p).1 (ijv p).2) = _
      rw [b4, C74_stress_correction d.c0 d.s0 hmc hms hinv hun d.idsim d.iscau h0 h1 d.scauchy _ old bo p,
        b5 p, pow_succ]
      ring
  obtain ⟨F, _, _, h3, _, h5⟩ := key n
  rw [h3, h5 p]

/-! ### Iterations -/

theorem iterCount_spec (error : ℝ) (errs erre : ℕ → ℝ) (left iter : ℕ) (es ee : ℝ)
    (h : iter ≠ 0 → es = errs iter ∧ ee = erre iter) :
    iter ≤ iterCount error errs erre left iter es ee ∧
    iterCount error errs erre left iter es ee ≤ iter + left ∧
    (∀ n, iter < n → n < iterCount error errs erre left iter es ee → errs n > error ∨ erre n > error) ∧
    (iterCount error errs erre left iter es ee < iter + left →
      (iter < iterCount error errs erre left iter es ee ∨ ¬ (es > error ∨ ee > error)) ∧
      (iterCount error errs erre left iter es ee ≠ 0 →
        errs (iterCount error errs erre left iter es ee) ≤ error ∧
        erre (iterCount error errs erre left iter es ee) ≤ error)) := by
  induction left generalizing iter es ee with
  | zero =>
    simp only [iterCount]
    refine ⟨le_rfl, le_rfl, fun n h1 h2 => absurd h2 (by omega), fun h => absurd h (by omega)⟩
  | succ left ih =>
    by_cases hc : es > error ∨ ee > error
    · have e : iterCount error errs erre (left + 1) iter es ee =
          iterCount error errs erre left (iter + 1) (errs (iter + 1)) (erre (iter + 1)) := by
        rw [iterCount, if_pos hc]
      obtain ⟨h1, h2, h3, h4⟩ := ih (iter + 1) (errs (iter + 1)) (erre (iter + 1)) fun _ => ⟨rfl, rfl⟩
      rw [e]
      refine ⟨by omega, by omega, fun n hn hn' => ?_, fun hlt => ?_⟩
      · by_cases hn1 : n = iter + 1
        · subst hn1
          by_contra hno
          have : iterCount error errs erre left (iter + 1) (errs (iter + 1)) (erre (iter + 1)) = iter + 1 := by
            cases left with
            | zero => rfl
            | succ l => rw [iterCount, if_neg hno]
          omega
        · exact h3 n (by omega) hn'
      · obtain ⟨_, h6⟩ := h4 (by omega)
        exact ⟨Or.inl (by omega), h6⟩
    · have e : iterCount error errs erre (left + 1) iter es ee = iter := by
        rw [iterCount, if_neg hc]
      rw [e]
      refine ⟨le_rfl, by omega, fun n h1 h2 => absurd h2 (by omega), fun _ => ⟨Or.inr hc, fun h0 => ?_⟩⟩
      obtain ⟨h1, h2⟩ := h h0
      rw [not_or, not_lt, not_lt, h1, h2] at hc
      exact hc

/-- **C74.** With a positive tolerance a load step iterates at least once and at most `itmax` times; it stops
before `itmax` only when both errors are within the tolerance, and at the first iteration for which they are. -/
theorem C74_iterations (itmax : ℕ) (hi : 1 ≤ itmax) (error : ℝ) (he : 0 < error) (errs erre : ℕ → ℝ) :
    1 ≤ iterations itmax error errs erre ∧ iterations itmax error errs erre ≤ itmax ∧
    (∀ n, 1 ≤ n → n < iterations itmax error errs erre → errs n > error ∨ erre n > error) ∧
    (iterations itmax error errs erre < itmax →
      errs (iterations itmax error errs erre) ≤ error ∧ erre (iterations itmax error errs erre) ≤ error) := by
  obtain ⟨h1, h2, h3, h4⟩ := iterCount_spec error errs erre itmax 0 (2 * error) (2 * error)
    (fun h => absurd rfl h)
  rw [zero_add] at h2 h4
  have hpos : 1 ≤ iterations itmax error errs erre := by
    by_contra hlt
    have h0 : iterCount error errs erre itmax 0 (2 * error) (2 * error) = 0 := by
      unfold iterations at hlt
      omega
    rcases (h4 (by omega)).1 with h | h
    · omega
    · exact h (Or.inl (by linarith))
  refine ⟨hpos, h2, fun n hn hn' => h3 n hn hn', fun hlt => (h4 hlt).2 ?_⟩
  unfold iterations at hpos
  omega

/-- **C74.** *Fails in the code* for a zero tolerance: asking for an exact solution makes every load step skip
its iterations altogether. -/
theorem C74_zero_tolerance_fails (itmax : ℕ) (errs erre : ℕ → ℝ) : iterations itmax 0 errs erre = 0 := by
  cases itmax with
  | zero => rfl
  | succ n =>
    unfold iterations
    rw [iterCount, if_neg (by norm_num)]

/-! ### Equivalent stress and strain -/

theorem vmDev_eq (t : T2 ℝ) (i j : Fin 3) :
    vmDev t i j = (t i j + t j i) / 2 - if i = j then (t 0 0 + t 1 1 + t 2 2) / 3 else 0 := by
  unfold vmDev
  rw [← Nat.cast_mul, intDiv_delta]
  split_ifs <;> simp

/-- **C74.** Equivalent strain: the von Mises formula for the symmetric part. -/
theorem C74_equivalent_strain (t : T2 ℝ) :
    vmStrain t = Real.sqrt (2 / 9 * ((t 0 0 - t 1 1) ^ 2 + (t 1 1 - t 2 2) ^ 2 + (t 2 2 - t 0 0) ^ 2) +
      ((t 0 1 + t 1 0) ^ 2 + (t 1 2 + t 2 1) ^ 2 + (t 0 2 + t 2 0) ^ 2) / 3) := by
  unfold vmStrain
  congr 1
  simp only [vmDev_eq, Fin.sum_univ_three]
  simp
  ring

/-- **C74.** Equivalent stress: the von Mises formula for the symmetric part of the average stress. -/
theorem C74_equivalent_stress (q : BasisConst ℝ) (hq : q.Exact) (s : T2 ℝ) :
    svmOf q s = Real.sqrt (((s 0 0 - s 1 1) ^ 2 + (s 1 1 - s 2 2) ^ 2 + (s 2 2 - s 0 0) ^ 2) / 2 +
      3 / 4 * ((s 0 1 + s 1 0) ^ 2 + (s 1 2 + s 2 1) ^ 2 + (s 0 2 + s 2 0) ^ 2)) := by
  have e : ∀ i j, chgBasis1 q (by omega : 5 ≤ 6)
      (fun k : Fin 5 => (chgBasis2 q le_rfl s : Fin 6 → ℝ) k.castSucc) i j =
      (s i j + s j i) / 2 - (if i = j then (s 0 0 + s 1 1 + s 2 2) / 3 else 0) :=
    fun i j => C66_deviator q hq s i j
  simp only [svmOf, e, Fin.sum_univ_three]
  congr 1
  simp
  ring

/-- **C74.** The two stress routines agree on symmetric stresses. -/
theorem C74_stress_routines_agree (q : BasisConst ℝ) (hq : q.Exact) (s : T2 ℝ) (hs : s.Sym) :
    svmOf q s = vmStress s := by
  rw [C74_equivalent_stress q hq]
  unfold vmStress
  congr 1
  rw [hs 0 1, hs 1 2, hs 0 2]
  ring

/-- **C74.** The strain rate used for the time increment is the same measure as the one reported. -/
theorem C74_strain_routines_agree (q : BasisConst ℝ) (hq : q.Exact) (t : T2 ℝ) : dvmOf q t = vmStrain t := by
  have e : ∀ i j, chgBasis1 q (by omega : 5 ≤ 6)
      (fun k : Fin 5 => (chgBasis2 q le_rfl t : Fin 6 → ℝ) k.castSucc) i j = vmDev t i j := by
    intro i j
    rw [vmDev_eq]
    exact C66_deviator q hq t i j
  simp only [dvmOf, vmStrain, e]
  rw [Finset.sum_comm]

/-- **C74.** Uniaxial stress: the equivalent stress is its size; pressure has none; an incompressible uniaxial
strain counts with its axial part. -/
theorem C74_uniaxial (q : BasisConst ℝ) (hq : q.Exact) (s p : ℝ) :
    svmOf q (fun i j => if i = 2 ∧ j = 2 then s else 0) = |s| ∧
    svmOf q (fun i j => if i = j then p else 0) = 0 ∧
    vmStrain (fun i j => if i = j then (if i = 2 then s else -s / 2) else 0) = |s| := by
  refine ⟨?_, ?_, ?_⟩
  · rw [C74_equivalent_stress q hq, ← Real.sqrt_sq_eq_abs]
    congr 1
    simp
  · rw [C74_equivalent_stress q hq]
    simp
  · rw [C74_equivalent_strain, ← Real.sqrt_sq_eq_abs]
    congr 1
    simp
    ring

/-- **C74.** Stress power per volume is at most equivalent stress times equivalent strain rate. -/
theorem C74_work_bound (q : BasisConst ℝ) (hq : q.Exact) (s e : T2 ℝ) (he : e.Sym)
    (ht : e 0 0 + e 1 1 + e 2 2 = 0) : |ddot s e| ≤ svmOf q s * vmStrain e := by
  have cs : (ddot s e) ^ 2 ≤ (svmOf q s) ^ 2 * (vmStrain e) ^ 2 := by
    rw [C74_equivalent_stress q hq, C74_equivalent_strain, Real.sq_sqrt (by positivity),
      Real.sq_sqrt (by positivity)]
    have h2 : e 2 2 = -(e 0 0) - e 1 1 := by linarith
    simp only [ddot, Fin.sum_univ_three]
    rw [he 1 0, he 2 0, he 2 1, h2]
    have key := Finset.sum_mul_sq_le_sq_mul_sq (Finset.univ : Finset (Fin 6))
      ![(2 * s 0 0 - s 1 1 - s 2 2) / 3, (2 * s 1 1 - s 0 0 - s 2 2) / 3, (2 * s 2 2 - s 0 0 - s 1 1) / 3,
        (s 0 1 + s 1 0) / Real.sqrt 2, (s 0 2 + s 2 0) / Real.sqrt 2, (s 1 2 + s 2 1) / Real.sqrt 2]
      ![e 0 0, e 1 1, -(e 0 0) - e 1 1, Real.sqrt 2 * e 0 1, Real.sqrt 2 * e 0 2, Real.sqrt 2 * e 1 2]
    simp only [Fin.sum_univ_six, Matrix.cons_val_zero, Matrix.cons_val_one, Matrix.cons_val, mul_pow, div_pow,
      Real.sq_sqrt (show (0 : ℝ) ≤ 2 by norm_num)] at key
    have c1 : ∀ a b : ℝ, a / Real.sqrt 2 * (Real.sqrt 2 * b) = a * b := by
      intro a b
      have : Real.sqrt 2 ≠ 0 := by positivity
      field_simp
    rw [c1, c1, c1] at key
    refine le_trans (le_of_eq ?_) (le_trans key (le_of_eq ?_))
    · ring
    · ring
  have h1 : 0 ≤ svmOf q s * vmStrain e := mul_nonneg (Real.sqrt_nonneg _) (Real.sqrt_nonneg _)
  rw [← mul_pow] at cs
  exact abs_le_of_sq_le_sq cs h1

/-! ### Back stress, phase average, spacing -/

/-- **C74.** After the thermo-elastic step the back stress equals the resolved stress: no system slips at that
stress, whatever it is. -/
theorem C74_back_stress (q : BasisConst ℝ) (sg : T2 ℝ) (sys : List SlipState) (hs : ∀ s ∈ sys, s.Good) :
    plasticRate6 (sys.map (kinhard q sg)) (chgBasis2 q le_rfl sg) = fun _ => 0 := by
  have hdrive : ∀ s : SlipState, (kinhard q sg s).drive (chgBasis2 q le_rfl sg) = 0 := by
    intro s
    exact sub_self _
  have hrate : ∀ s ∈ sys, (kinhard q sg s).rateAt 0 = 0 := by
    intro s h
    have hg : (kinhard q sg s).Good := ⟨(hs s h).1, (hs s h).2, (hs s h).3, (hs s h).4⟩
    obtain ⟨n, hn, h1⟩ := nrs_cast _ hg
    have h2 := C72_flow_rule _ hg n hn 0
    rw [h2]
    simp [show n ≠ 0 by omega]
  funext i
  unfold plasticRate6
  split_ifs with h
  · rw [List.foldl_map]
    have : ∀ (l : List SlipState), (∀ s ∈ l, s ∈ sys) → l.foldl (fun acc s => acc +
        (kinhard q sg s).sch ⟨i.val, h⟩ * (kinhard q sg s).rateAt
          ((kinhard q sg s).drive (chgBasis2 q le_rfl sg))) 0 = 0 := by
      intro l
      induction l using List.reverseRecOn with
      | nil => intro _; rfl
      | append_singleton l x ih =>
        intro hl
        rw [List.foldl_append, ih fun s h => hl s (by simp [h])]
        simp only [List.foldl_cons, List.foldl_nil]
        rw [hdrive, hrate x (hl x (by simp)), mul_zero, add_zero]
    exact this sys fun _ h => h
  · rfl

/-- **C74.** On one rank the stress reported for phase 1 is its average over the points of that phase. -/
theorem C74_phase_average (pts : List (ℕ × ℝ)) (h : pts ≠ []) :
    phase1Average [pts] = ((pts.filter fun p => p.1 = 1).map Prod.snd).sum /
      (pts.filter fun p => p.1 = 1).length := by
  have hl : ((pts.length : ℕ) : ℝ) ≠ 0 := by
    exact_mod_cast (List.length_pos_iff.mpr h).ne'
  have key : ∀ (l : List (ℕ × ℝ)) (w : ℝ), (l.map fun p => if p.1 = 1 then
      p.2 * (1 / (pts.length : ℝ)) / (w / (pts.length : ℝ)) else 0).sum =
      ((l.filter fun p => p.1 = 1).map Prod.snd).sum / w := by
    intro l w
    induction l with
    | nil => simp
    | cons p l ih =>
      rw [List.map_cons, List.sum_cons, ih, List.filter_cons]
      by_cases hp : p.1 = 1
      · simp only [hp, if_true, decide_true, List.map_cons, List.sum_cons]
        by_cases hw : w = 0
        · simp [hw]
        · field_simp
      · simp [hp]
  simp only [phase1Average, List.map_cons, List.map_nil, List.sum_cons, List.sum_nil, add_zero, rankPhase1]
  exact key pts _

/-- **C74.** *Fails in the code* on two ranks: a uniform stress is reported twice as large for phase 1, because
the weight is formed from the rank's own count of points. -/
theorem C74_phase_average_fails (s : ℝ) : phase1Average [[(1, s)], [(1, s)]] = 2 * s := by
  norm_num [phase1Average, rankPhase1]
  ring

/-- **C74.** The spacing grows with the rate of stretching of its direction. -/
theorem C74_spacing (guarded : Bool) (npts : ℕ) (h : 2 ≤ npts) (delt dsim tdot : ℝ) :
    newSpacing guarded npts delt dsim tdot = some (delt * (1 + dsim * tdot)) := by
  have hn : ((npts : ℝ) - 1) ≠ 0 := by
    have : (2 : ℝ) ≤ npts := by exact_mod_cast h
    intro h0
    linarith
  unfold newSpacing
  rw [if_neg (by omega), if_neg hn]
  field_simp

/-- **C74.** *Fails in the code* for a sample one point thick in its first or second direction: the new spacing
is `0/0`; only the third direction is guarded. -/
theorem C74_thin_sample_fails (delt dsim tdot : ℝ) :
    newSpacing false 1 delt dsim tdot = none ∧ newSpacing true 1 delt dsim tdot = some delt := by
  constructor <;> simp [newSpacing]

/-! ### The hypotheses can be met -/

/-- Boundary conditions of a uniaxial test: rate along the third axis, no lateral stress. -/
example : checkIudot (fun i j => if i = j ∧ i ≠ 2 then 0 else 1) = true ∧
    checkMixedBc (fun i j => if i = j ∧ i ≠ 2 then 0 else 1) ![1, 1, 0, 0, 0, 0] = true := by decide

/-- A reference medium meeting the hypotheses of `C74_stress_control`. -/
example : T4.Minor (xid4 : T4 ℝ) ∧ (∀ T : T2 ℝ, T.Sym → act4 xid4 (act4 xid4 T) = T) ∧
    (∀ p q : Fin 6, p ≠ q → 3 ≤ p.val ∨ 3 ≤ q.val →
      (xid4 : T4 ℝ) (ijv p).1 (ijv p).2 (ijv q).1 (ijv q).2 = 0) := by
  have e : ∀ T : T2 ℝ, T.Sym → act4 xid4 T = T := by
    intro T hT
    funext i j
    have h1 := hT 0 1
    have h2 := hT 0 2
    have h3 := hT 1 2
    fin_cases i <;> fin_cases j <;> simp [act4, xid4, dde, Fin.sum_univ_three] <;> linarith
  refine ⟨fun i j k l => ⟨?_, ?_⟩, fun T hT => ?_, fun p q h _ => ?_⟩
  · simp only [xid4]; ring
  · simp only [xid4]; ring
  · rw [e T hT, e T hT]
  · fin_cases p <;> fin_cases q <;> simp_all [ijv, xid4, dde]

end Fierro
