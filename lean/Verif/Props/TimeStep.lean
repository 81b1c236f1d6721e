import Verif.Model.TimeStep
import Mathlib.Tactic.IntervalCases
import Mathlib.Tactic.Linarith
import Mathlib.Tactic.Positivity
import Mathlib.Tactic.NormNum
import Mathlib.Algebra.BigOperators.Fin

/-!
# C13, C14: the time step and the length it uses
-/

namespace Fierro

/-! ## C14 -/

set_option maxRecDepth 4000 in
/-- The enumeration visits every unordered pair of the eight nodes exactly once and nothing else. -/
theorem C14_pairs : nodePairs.Nodup ∧ ∀ a b, (a, b) ∈ nodePairs ↔ a < b ∧ b < 8 := by
  refine ⟨by decide, fun a b => ⟨fun h => ?_, fun ⟨h1, h2⟩ => ?_⟩⟩
  · have : ∀ p ∈ nodePairs, p.1 < p.2 ∧ p.2 < 8 := by decide
    exact this _ h
  · have : ∀ b < 8, ∀ a < b, (a, b) ∈ nodePairs := by decide
    exact this b h2 a h1

/-- Specification: Euclidean distance of two points of space. -/
noncomputable def euclid (p q : Fin 3 → ℝ) : ℝ := Real.sqrt (∑ i, (p i - q i) ^ 2)

theorem euclid_comm (p q : Fin 3 → ℝ) : euclid p q = euclid q p := by
  unfold euclid; congr 1; apply Finset.sum_congr rfl; intros; ring

theorem nodeDist_eq (x : ℕ → Fin 3 → ℝ) (a b : ℕ) : nodeDist x a b = euclid (x b) (x a) := by
  unfold nodeDist euclid
  rw [abs_of_nonneg (Real.sqrt_nonneg _), Fin.sum_univ_three]

theorem foldl_min_le {α : Type*} [LinearOrder α] (l : List α) (m : α) :
    l.foldl (fun m d => min d m) m ≤ m ∧ ∀ d ∈ l, l.foldl (fun m d => min d m) m ≤ d := by
  induction l generalizing m with
  | nil => simp
  | cons a l ih =>
    simp only [List.foldl_cons, List.mem_cons, forall_eq_or_imp]
    have h := ih (min a m)
    exact ⟨h.1.trans (min_le_right _ _), h.1.trans (min_le_left _ _), h.2⟩

theorem foldl_min_mem {α : Type*} [LinearOrder α] (l : List α) (m : α) :
    l.foldl (fun m d => min d m) m = m ∨ l.foldl (fun m d => min d m) m ∈ l := by
  induction l generalizing m with
  | nil => simp
  | cons a l ih =>
    simp only [List.foldl_cons, List.mem_cons]
    rcases ih (min a m) with h | h
    · rcases min_choice a m with h' | h' <;> rw [h, h'] <;> simp
    · exact Or.inr (Or.inr h)

/-- The characteristic length is a lower bound of all node distances of the element. -/
theorem C14_length_le (x : ℕ → Fin 3 → ℝ) (a b : ℕ) (ha : a < 8) (hb : b < 8) (hab : a ≠ b) :
    distMin x ≤ euclid (x a) (x b) := by
  have key : ∀ a b, a < b → b < 8 → distMin x ≤ euclid (x a) (x b) := by
    intro a b h1 h2
    have hm := (C14_pairs.2 a b).2 ⟨h1, h2⟩
    refine ((foldl_min_le _ _).2 (nodeDist x a b) ?_).trans ?_
    · exact List.mem_map.2 ⟨(a, b), hm, rfl⟩
    · rw [nodeDist_eq, euclid_comm]
  rcases lt_or_gt_of_ne hab with h | h
  · exact key a b h hb
  · rw [euclid_comm]; exact key b a h ha

/-- … and it is attained by some pair of different nodes: it is exactly the minimum distance. -/
theorem C14_length_attained (x : ℕ → Fin 3 → ℝ) :
    ∃ a b, a < b ∧ b < 8 ∧ distMin x = euclid (x a) (x b) := by
  have hmem : distMin x ∈ nodePairs.map fun p => nodeDist x p.1 p.2 := by
    rcases foldl_min_mem (nodePairs.map fun p => nodeDist x p.1 p.2)
      ((nodePairs.map fun p => nodeDist x p.1 p.2).headD 0) with h | h
    · unfold distMin; simp only; rw [h]
      simp [nodePairs, pairsFrom, PairCounter.next]
    · exact h
  obtain ⟨⟨a, b⟩, hp, he⟩ := List.mem_map.1 hmem
  obtain ⟨h1, h2⟩ := (C14_pairs.2 a b).1 hp
  exact ⟨a, b, h1, h2, by rw [← he, nodeDist_eq, euclid_comm]⟩

theorem distMin_nonneg (x : ℕ → Fin 3 → ℝ) : 0 ≤ distMin x := by
  obtain ⟨a, b, _, _, h⟩ := C14_length_attained x
  rw [h]; exact Real.sqrt_nonneg _

/-! ## C13 -/

theorem reduceMin_le (o : ClockOpts) (es : List CflElem) (e : CflElem) (he : e ∈ es) :
    ∃ m, reduceMin o es = some m ∧ m ≤ elemDt o e := by
  induction es with
  | nil => cases he
  | cons a es ih =>
    rw [reduceMin]
    rcases List.mem_cons.1 he with rfl | h
    · cases hr : reduceMin o es with
      | none => exact ⟨_, rfl, le_rfl⟩
      | some m =>
        refine ⟨_, rfl, ?_⟩
        by_cases h : elemDt o e < m
        · rw [if_pos h]
        · rw [if_neg h]; exact not_lt.1 h
    · obtain ⟨m, hm, hle⟩ := ih h
      rw [hm]
      refine ⟨_, rfl, ?_⟩
      by_cases h' : elemDt o a < m
      · simp only [if_pos h']; exact h'.le.trans hle
      · simp only [if_neg h']; exact hle

theorem reduceMin_mem (o : ClockOpts) (es : List CflElem) (m : ℝ) (h : reduceMin o es = some m) :
    ∃ e ∈ es, m = elemDt o e := by
  induction es generalizing m with
  | nil => cases h
  | cons a es ih =>
    rw [reduceMin] at h
    cases hr : reduceMin o es with
    | none => rw [hr] at h; exact ⟨a, by simp, (Option.some.inj h).symm⟩
    | some k =>
      rw [hr] at h
      have h := (Option.some.inj h).symm
      by_cases h' : elemDt o a < k
      · rw [if_pos h'] at h; exact ⟨a, by simp, h⟩
      · rw [if_neg h'] at h
        obtain ⟨e, he, hk⟩ := ih k hr
        exact ⟨e, by simp [he], h.trans hk⟩

theorem getTimestep_le (o : ClockOpts) (es : List CflElem) (t g dt : ℝ) :
    getTimestep o es t g dt ≤ dt * 1.1 ∧
    (∀ e ∈ es, getTimestep o es t g dt ≤ elemDt o e) ∧
    getTimestep o es t g dt ≤ max o.fuzz (g - t) + o.tiny ∧
    getTimestep o es t g dt ≤ o.timeFinal - t + o.tiny := by
  unfold getTimestep
  simp only
  refine ⟨?_, ?_, (min_le_left _ _).trans (min_le_right _ _), min_le_right _ _⟩
  · refine ((min_le_left _ _).trans (min_le_left _ _)).trans ?_
    cases reduceMin o es with
    | none => exact le_rfl
    | some m => simp only; split_ifs with h; exacts [h.le, le_rfl]
  · intro e he
    refine ((min_le_left _ _).trans (min_le_left _ _)).trans ?_
    obtain ⟨m, hm, hle⟩ := reduceMin_le o es e he
    rw [hm]; simp only; split_ifs with h
    exacts [hle, (not_lt.1 h).trans hle]

theorem cycleDt_le (o : ClockOpts) (mats : List (List CflElem)) (t g dt : ℝ) :
    cycleDt o mats t g dt ≤ o.dtMax ∧
    ∀ es ∈ mats, cycleDt o mats t g dt ≤ getTimestep o es t g dt := by
  have : cycleDt o mats t g dt =
      (mats.map fun es => getTimestep o es t g dt).foldl (fun m d => min d m) o.dtMax := by
    unfold cycleDt; rw [List.foldl_map]
  rw [this]
  refine ⟨(foldl_min_le _ _).1, fun es he => (foldl_min_le _ _).2 _ (List.mem_map.2 ⟨es, he, rfl⟩)⟩

/-- The step grows by at most 10 percent. -/
theorem C13_growth (o : ClockOpts) (mats : List (List CflElem)) (hm : mats ≠ []) (t g dt : ℝ) :
    cycleDt o mats t g dt ≤ 1.1 * dt := by
  obtain ⟨es, he⟩ := List.exists_mem_of_ne_nil _ hm
  rw [mul_comm]
  exact ((cycleDt_le o mats t g dt).2 es he).trans (getTimestep_le o es t g dt).1

/-- The step is at most the user's maximum. -/
theorem C13_max (o : ClockOpts) (mats : List (List CflElem)) (t g dt : ℝ) :
    cycleDt o mats t g dt ≤ o.dtMax := (cycleDt_le o mats t g dt).1

/-- CFL: during the step a signal at the sound speed of an element crosses at most the fraction
`dt_cfl` of the distance of any two of its nodes, unless the user's minimum step forces it. -/
theorem C13_cfl (o : ClockOpts) (mats : List (List CflElem)) (t g dt : ℝ)
    (hf : 0 < o.fuzz) (hc : 0 ≤ o.dtCfl) (es : List CflElem) (hes : es ∈ mats) (e : CflElem)
    (he : e ∈ es) (hero : e.eroded = false) (hs : 0 ≤ e.sspd) (a b : ℕ) (ha : a < 8) (hb : b < 8)
    (hab : a ≠ b) :
    cycleDt o mats t g dt * (e.sspd + o.fuzz) ≤ o.dtCfl * euclid (e.coords a) (e.coords b) ∨
    cycleDt o mats t g dt ≤ o.dtMin := by
  have h := ((cycleDt_le o mats t g dt).2 es hes).trans ((getTimestep_le o es t g dt).2.1 e he)
  simp only [elemDt, hero, Bool.false_eq_true, if_false] at h
  rcases le_max_iff.1 h with h | h
  · left
    have h1 := h.trans (min_le_left _ _)
    rw [le_div_iff₀ (by linarith)] at h1
    exact h1.trans (mul_le_mul_of_nonneg_left (C14_length_le _ a b ha hb hab) hc)
  · exact Or.inr h

/-- The step does not carry the run past the final time by more than the tolerance. -/
theorem C13_final (o : ClockOpts) (mats : List (List CflElem)) (hm : mats ≠ []) (t g dt : ℝ) :
    t + cycleDt o mats t g dt ≤ o.timeFinal + o.tiny := by
  obtain ⟨es, he⟩ := List.exists_mem_of_ne_nil _ hm
  linarith [((cycleDt_le o mats t g dt).2 es he).trans (getTimestep_le o es t g dt).2.2.2]

/-- Nor past the next graphics time by more than the tolerances. -/
theorem C13_graphics (o : ClockOpts) (mats : List (List CflElem)) (hm : mats ≠ []) (t g dt : ℝ) :
    t + cycleDt o mats t g dt ≤ max (t + o.fuzz) g + o.tiny := by
  obtain ⟨es, he⟩ := List.exists_mem_of_ne_nil _ hm
  have h := ((cycleDt_le o mats t g dt).2 es he).trans (getTimestep_le o es t g dt).2.2.1
  have : max (t + o.fuzz) g = t + max o.fuzz (g - t) := by
    rw [← max_add_add_left]; congr 1; ring
  linarith

/-- The step is not smaller than the limits require: it is at least the smallest of the grown
previous step, the user's minimum, the distance to the graphics time and to the final time. -/
theorem C13_not_too_small (o : ClockOpts) (mats : List (List CflElem)) (t g dt : ℝ)
    (hmm : o.dtMin ≤ o.dtMax) :
    min (min (1.1 * dt) o.dtMin)
      (min (max o.fuzz (g - t) + o.tiny) (o.timeFinal - t + o.tiny)) ≤ cycleDt o mats t g dt := by
  have hg : ∀ es, min (min (1.1 * dt) o.dtMin)
      (min (max o.fuzz (g - t) + o.tiny) (o.timeFinal - t + o.tiny)) ≤ getTimestep o es t g dt := by
    intro es
    unfold getTimestep
    simp only
    refine le_min (le_min ?_ ?_) ?_
    · refine (min_le_left _ _).trans ?_
      cases hr : reduceMin o es with
      | none => simp only; rw [mul_comm dt]; exact min_le_left _ _
      | some m =>
        simp only
        split_ifs with h
        · obtain ⟨e, _, hm⟩ := reduceMin_mem o es m hr
          rw [hm]; exact (min_le_right _ _).trans (le_max_right _ _)
        · rw [mul_comm dt]; exact min_le_left _ _
    · exact (min_le_right _ _).trans (min_le_left _ _)
    · exact (min_le_right _ _).trans (min_le_right _ _)
  have : cycleDt o mats t g dt =
      (mats.map fun es => getTimestep o es t g dt).foldl (fun m d => min d m) o.dtMax := by
    unfold cycleDt; rw [List.foldl_map]
  rw [this]
  rcases foldl_min_mem (mats.map fun es => getTimestep o es t g dt) o.dtMax with h | h
  · rw [h]; exact ((min_le_left _ _).trans (min_le_right _ _)).trans hmm
  · obtain ⟨es, _, he⟩ := List.mem_map.1 h
    rw [← he]; exact hg es

/-- The user options that make the clock meaningful (the defaults satisfy them). -/
structure ClockOpts.Sane (o : ClockOpts) : Prop where
  dtStart : 0 < o.dtStart
  dtMin : 0 < o.dtMin
  dtMax : o.dtMin ≤ o.dtMax
  fuzz : 0 < o.fuzz
  tiny : 0 < o.tiny
  cfl : 0 ≤ o.dtCfl

/-- Before the final time every step is positive. -/
theorem C13_positive (o : ClockOpts) (ho : o.Sane) (mats : List (List CflElem)) (t g dt : ℝ)
    (hdt : 0 < dt) (ht : t < o.timeFinal) : 0 < cycleDt o mats t g dt := by
  refine lt_of_lt_of_le ?_ (C13_not_too_small o mats t g dt ho.dtMax)
  refine lt_min (lt_min (by linarith) ho.dtMin) (lt_min ?_ (by linarith [ho.tiny]))
  linarith [le_max_left o.fuzz (g - t), ho.fuzz, ho.tiny]

/-- Without the restriction the claim is false: a solver that starts after its final time takes one
step backwards in time (see `C16_window_can_be_reversed`). -/
theorem C13_negative_step_when_late (o : ClockOpts) (mats : List (List CflElem)) (hm : mats ≠ [])
    (t g dt : ℝ) (ht : o.timeFinal + o.tiny < t) : cycleDt o mats t g dt < 0 := by
  linarith [C13_final o mats hm t g dt]

/-- The documented defaults of `dynamic_options.hpp`. -/
noncomputable def defaultClock (tf : ℝ) : ClockOpts where
  timeStart := 0
  timeFinal := tf
  dtStart := 1e-5
  dtMin := 1e-8
  dtMax := 1e-2
  dtCfl := 0.4
  fuzz := 1e-16
  tiny := 1e-12
  ival := 0.1
  cycIval := 1000000
  cycleStop := 2000000

theorem defaultClock_sane (tf : ℝ) : (defaultClock tf).Sane := by
  constructor <;> norm_num [defaultClock]

/-- A unit-cube element with sound speed 2. -/
noncomputable def demoElem : CflElem where
  coords n i := if i = 0 then (n % 2 : ℕ) else if i = 1 then (n / 2 % 2 : ℕ) else (n / 4 : ℕ)
  sspd := 2
  eroded := false

example : cycleDt (defaultClock 1) [[demoElem]] 0 0.1 1e-5 * (2 + 1e-16)
      ≤ 0.4 * euclid (demoElem.coords 0) (demoElem.coords 1) ∨
    cycleDt (defaultClock 1) [[demoElem]] 0 0.1 1e-5 ≤ 1e-8 :=
  C13_cfl (defaultClock 1) [[demoElem]] 0 0.1 1e-5 (defaultClock_sane 1).fuzz
    (defaultClock_sane 1).cfl [demoElem] (by simp) demoElem (by simp) rfl (by norm_num [demoElem]) 0 1
    (by norm_num) (by norm_num) (by norm_num)

end Fierro
