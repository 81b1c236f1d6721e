import Verif.Props.Sgtm
import Verif.Props.TimeStep

/-!
# C46, C47, C48: thermal boundary conditions, time step and tool path of the thermal solver
-/

set_option linter.unusedSectionVars false

namespace Fierro

variable {E N : ℕ}

/-! ### C46: boundary conditions -/

/-- Cross product (specification). -/
def cross3 (u v : Fin 3 → ℝ) : Fin 3 → ℝ :=
  ![u 1 * v 2 - u 2 * v 1, u 2 * v 0 - u 0 * v 2, u 0 * v 1 - u 1 * v 0]

/-- Area of a triangle: half the length of the cross product of two edges (specification). -/
noncomputable def triangleArea (a b c : Fin 3 → ℝ) : ℝ :=
  Real.sqrt (∑ d, cross3 (fun i => b i - a i) (fun i => c i - a i) d ^ 2) / 2

/-- **C46.** The area used for each half of a boundary patch is the area of the triangle, for any
position of its corners. -/
theorem C46_triangle_area (a b c : Fin 3 → ℝ) : patchTriArea a b c = triangleArea a b c := by
  rw [patchTriArea, triangleArea]
  have h : (4 * distSq b c * distSq a c
      - (distSq b c + distSq a c - distSq a b) * (distSq b c + distSq a c - distSq a b)) / 16
      = (∑ d, cross3 (fun i => b i - a i) (fun i => c i - a i) d ^ 2) / 2 ^ 2 := by
    simp only [distSq, foldl_finRange_add, Fin.sum_univ_three, cross3, Matrix.cons_val_zero,
      Matrix.cons_val_one, Matrix.cons_val]
    ring
  rw [h, Real.sqrt_div' _ (by norm_num), Real.sqrt_sq (by norm_num)]

/-- **C46.** For a flat patch in the shape of a parallelogram the patch area is the length of the
cross product of its edges. -/
theorem C46_parallelogram (coords : Fin N → Fin 3 → ℝ) (p : Fin 4 → Fin N) (o u v : Fin 3 → ℝ)
    (h0 : coords (p 0) = o) (h1 : ∀ d, coords (p 1) d = o d + u d)
    (h2 : ∀ d, coords (p 2) d = o d + u d + v d) (h3 : ∀ d, coords (p 3) d = o d + v d) :
    patchArea coords p = Real.sqrt (∑ d, cross3 u v d ^ 2) := by
  rw [patchArea, C46_triangle_area, C46_triangle_area, triangleArea, triangleArea]
  have e1 : (∑ d, cross3 (fun i => coords (p 1) i - coords (p 0) i)
      (fun i => coords (p 2) i - coords (p 0) i) d ^ 2) = ∑ d, cross3 u v d ^ 2 := by
    simp only [Fin.sum_univ_three, cross3, Matrix.cons_val_zero, Matrix.cons_val_one,
      Matrix.cons_val, h0, h1, h2]
    ring
  have e2 : (∑ d, cross3 (fun i => coords (p 3) i - coords (p 2) i)
      (fun i => coords (p 0) i - coords (p 2) i) d ^ 2) = ∑ d, cross3 u v d ^ 2 := by
    simp only [Fin.sum_univ_three, cross3, Matrix.cons_val_zero, Matrix.cons_val_one,
      Matrix.cons_val, h0, h3, h2]
    ring
  rw [e1, e2]; ring

/-- Sum over all nodes after adding to one node. -/
theorem sum_update_add (q : Fin N → ℝ) (n : Fin N) (x : ℝ) :
    ∑ k, Function.update q n (q n + x) k = ∑ k, q k + x := by
  have : Function.update q n (q n + x) = fun k => q k + if k = n then x else 0 := by
    funext k
    by_cases h : k = n
    · subst h; simp
    · simp [h]
  rw [this, Finset.sum_add_distrib]
  simp

theorem sum_addPatchFlux (flux : ℝ → ℝ → ℝ) (coords : Fin N → Fin 3 → ℝ) (temp q : Fin N → ℝ)
    (p : Fin 4 → Fin N) : ∑ n, addPatchFlux flux coords temp q p n
      = ∑ n, q n + ∑ l, flux (patchArea coords p) (temp (p l)) := by
  have key : ∀ (ls : List (Fin 4)) (q : Fin N → ℝ), ∑ n, ls.foldl (fun q l =>
      Function.update q (p l) (q (p l) + flux (patchArea coords p) (temp (p l)))) q n
      = ∑ n, q n + (ls.map fun l => flux (patchArea coords p) (temp (p l))).sum := by
    intro ls
    induction ls with
    | nil => intro q; simp
    | cons l ls ih =>
      intro q
      rw [List.foldl_cons, ih, sum_update_add]
      simp [add_assoc]
  rw [addPatchFlux, key]
  congr 1

theorem sum_foldl_patches (flux : ℝ → ℝ → ℝ) (coords : Fin N → Fin 3 → ℝ) (temp : Fin N → ℝ)
    (ps : List (Fin 4 → Fin N)) (q : Fin N → ℝ) :
    ∑ n, ps.foldl (addPatchFlux flux coords temp) q n
      = ∑ n, q n + (ps.map fun p => ∑ l, flux (patchArea coords p) (temp (p l))).sum := by
  induction ps generalizing q with
  | nil => simp
  | cons p ps ih =>
    rw [List.foldl_cons, ih, sum_addPatchFlux]
    simp [add_assoc]

/-- Patches of the boundary sets of a kind (specification). -/
def patchesWith (P : ThermBC → Bool) (sets : List (ThermSet N)) : List (Fin 4 → Fin N) :=
  ((sets.filter fun s => P s.bc).map ThermSet.patches).flatten

/-- The kinds of heat exchange. -/
def isConvection : ThermBC → Bool
  | .convection => true
  | _ => false

/-- The kinds of heat exchange. -/
def isRadiation : ThermBC → Bool
  | .radiation => true
  | _ => false

theorem sum_convection (sets : List (ThermSet N)) (coords : Fin N → Fin 3 → ℝ) (temp q : Fin N → ℝ) :
    ∑ n, boundaryConvection sets coords temp q n = ∑ n, q n
      + ((patchesWith isConvection sets).map fun p =>
          ∑ l, convectionFlux (patchArea coords p) (temp (p l))).sum := by
  induction sets generalizing q with
  | nil => simp [boundaryConvection, patchesWith]
  | cons s sets ih =>
    have hc : boundaryConvection (s :: sets) coords temp q
        = boundaryConvection sets coords temp (boundaryConvection [s] coords temp q) := rfl
    rw [hc, ih]
    rcases hb : s.bc with v | _ | _ | _
    case convection =>
      have : boundaryConvection [s] coords temp q
          = s.patches.foldl (addPatchFlux convectionFlux coords temp) q := by
        simp [boundaryConvection, hb]
      rw [this, sum_foldl_patches]
      simp [patchesWith, hb, isConvection, add_assoc]
    all_goals simp [boundaryConvection, patchesWith, hb, isConvection]

theorem sum_radiation (sets : List (ThermSet N)) (coords : Fin N → Fin 3 → ℝ) (temp q : Fin N → ℝ) :
    ∑ n, boundaryRadiation sets coords temp q n = ∑ n, q n
      + ((patchesWith isRadiation sets).map fun p =>
          ∑ l, radiationFlux (patchArea coords p) (temp (p l))).sum := by
  induction sets generalizing q with
  | nil => simp [boundaryRadiation, patchesWith]
  | cons s sets ih =>
    have hc : boundaryRadiation (s :: sets) coords temp q
        = boundaryRadiation sets coords temp (boundaryRadiation [s] coords temp q) := rfl
    rw [hc, ih]
    rcases hb : s.bc with v | _ | _ | _
    case radiation =>
      have : boundaryRadiation [s] coords temp q
          = s.patches.foldl (addPatchFlux radiationFlux coords temp) q := by
        simp [boundaryRadiation, hb]
      rw [this, sum_foldl_patches]
      simp [patchesWith, hb, isRadiation, add_assoc]
    all_goals simp [boundaryRadiation, patchesWith, hb, isRadiation]

/-- **C46.** The heat taken through the boundary in a stage: film coefficient 100 times patch area
times the excess of the average patch temperature over 293.15 for each convection patch, plus
emissivity 0.2 times the Stefan-Boltzmann constant times patch area times the average fourth power
of the temperature for each radiation patch; sets of other kinds exchange nothing. -/
theorem C46_boundary_heat (env : ThermEnv E N) (temp : Fin N → ℝ) :
    ∑ n, boundaryHeat env temp n
      = -((patchesWith isConvection env.sets).map fun p =>
          100 * patchArea env.coords p * ((∑ l, temp (p l)) / 4 - 293.15)).sum
        - ((patchesWith isRadiation env.sets).map fun p =>
          0.2 * 5.67037442e-8 * patchArea env.coords p * ((∑ l, temp (p l) ^ 4) / 4)).sum := by
  rw [boundaryHeat, sum_radiation, sum_convection]
  simp only [Finset.sum_const_zero, zero_add]
  have h1 : ∀ p : Fin 4 → Fin N, ∑ l, convectionFlux (patchArea env.coords p) (temp (p l))
      = (-1) * (100 * patchArea env.coords p * ((∑ l, temp (p l)) / 4 - 293.15)) := by
    intro p; simp only [convectionFlux, Fin.sum_univ_four]; ring
  have h2 : ∀ p : Fin 4 → Fin N, ∑ l, radiationFlux (patchArea env.coords p) (temp (p l))
      = (-1) * (0.2 * 5.67037442e-8 * patchArea env.coords p * ((∑ l, temp (p l) ^ 4) / 4)) := by
    intro p; simp only [radiationFlux, Fin.sum_univ_four]; ring
  simp only [h1, h2, listSum_mul]
  ring

theorem patchArea_nonneg (coords : Fin N → Fin 3 → ℝ) (p : Fin 4 → Fin N) :
    0 ≤ patchArea coords p := by
  unfold patchArea patchTriArea; positivity

/-- **C46.** Direction of the exchange: a body at or above 293.15 everywhere never gains heat
through its boundary. -/
theorem C46_hot_body_loses (env : ThermEnv E N) (temp : Fin N → ℝ) (h : ∀ n, 293.15 ≤ temp n) :
    ∑ n, boundaryHeat env temp n ≤ 0 := by
  rw [C46_boundary_heat]
  have h1 : 0 ≤ ((patchesWith isConvection env.sets).map fun p =>
          100 * patchArea env.coords p * ((∑ l, temp (p l)) / 4 - 293.15)).sum := by
    apply List.sum_nonneg
    intro x hx
    obtain ⟨p, -, rfl⟩ := List.mem_map.1 hx
    have := patchArea_nonneg env.coords p
    have h4 : 0 ≤ (∑ l, temp (p l)) / 4 - 293.15 := by
      rw [Fin.sum_univ_four]
      linarith [h (p 0), h (p 1), h (p 2), h (p 3)]
    positivity
  have h2 : 0 ≤ ((patchesWith isRadiation env.sets).map fun p =>
          0.2 * 5.67037442e-8 * patchArea env.coords p * ((∑ l, temp (p l) ^ 4) / 4)).sum := by
    apply List.sum_nonneg
    intro x hx
    obtain ⟨p, -, rfl⟩ := List.mem_map.1 hx
    have := patchArea_nonneg env.coords p
    have h4 : 0 ≤ ∑ l, temp (p l) ^ 4 := Finset.sum_nonneg fun l _ => by positivity
    positivity
  linarith

/-- The last fixed-temperature set containing the node decides (specification). -/
def prescribed (sets : List (ThermSet N)) (n : Fin N) : Option ℝ :=
  (sets.filterMap fun s => match s.bc with
    | .constant v => if n ∈ s.nodes then some v else none
    | _ => none).getLast?

theorem boundaryTemperature_eq (sets : List (ThermSet N)) (temp : Fin N → ℝ) (n : Fin N) :
    boundaryTemperature sets temp n = (prescribed sets n).getD (temp n) := by
  induction sets generalizing temp with
  | nil => rfl
  | cons s sets ih =>
    rw [boundaryTemperature_cons, ih]
    unfold prescribed
    rcases hb : s.bc with v | _ | _ | _
    case constant =>
      have : boundaryTemperature [s] temp n = if n ∈ s.nodes then v else temp n := by
        simp only [boundaryTemperature, List.foldl_cons, List.foldl_nil, hb]
        rw [foldl_update_const]
      rw [this]
      by_cases hn : n ∈ s.nodes
      · simp only [List.filterMap_cons, hb, hn, if_true, List.getLast?_cons]
        simp
      · simp [hb, hn]
    all_goals
      simp [boundaryTemperature, hb]

/-- **C46.** Prescribed temperatures hold at the end of every cycle of a run of any length: a node
in a fixed-temperature set has the value of the last such set in the input. -/
theorem C46_prescribed_holds (env : ThermEnv E N) (S : ℕ) (hS : 0 < S) (c : ℕ) (dts : List ℝ)
    (st st' : ThermState E N) (hne : dts ≠ []) (h : thermRun env S c dts st = some st') (n : Fin N)
    (v : ℝ) (hv : prescribed env.sets n = some v) : st'.temp n = v := by
  have hcyc : ∀ c dt (a b : ThermState E N), thermCycle env c S dt a = some b → b.temp n = v := by
    intro c dt a b hab
    refine thermCycle_induct env c S hS dt a b hab (fun _ => True) (fun x => x.temp n = v) trivial
      (fun _ _ _ _ _ _ => trivial) ?_
    intro s _ x y _ hxy
    obtain ⟨cp, hcp⟩ := thermStage_cp env c _ dt x y hxy
    obtain ⟨-, -, -, -, -, ht⟩ := thermStage_some env c _ dt x y hxy cp hcp
    rw [ht, boundaryTemperature_eq, hv]; rfl
  cases dts with
  | nil => exact absurd rfl hne
  | cons dt dts =>
    rw [thermRun, Option.bind_eq_some_iff] at h
    obtain ⟨a, ha, hb⟩ := h
    exact thermRun_induct env S (fun x => x.temp n = v) (fun c dt a b _ hab => hcyc c dt a b hab)
      dts _ a st' (hcyc c dt st a ha) hb

/-- A set with two prescriptions on node 0: the second one wins. -/
example : prescribed (N := 2) [⟨.constant 300, [0, 1], []⟩, ⟨.constant 400, [0], []⟩] 0 = some 400 := by
  simp [prescribed]

/-- **C46, the surroundings are not the same for the two kinds of exchange**: a body in equilibrium
with the convection temperature still loses heat by radiation (the ambient temperature of the
radiation condition is 0). -/
theorem C46_radiation_ambient_fails (area : ℝ) (ha : 0 < area) :
    convectionFlux area 293.15 = 0 ∧ radiationFlux area 293.15 < 0 := by
  constructor
  · simp [convectionFlux]
  · have h : radiationFlux area 293.15 = -(0.2 * 5.67037442e-8 * 293.15 ^ 4 * (area / 4)) := by
      unfold radiationFlux; ring
    rw [h, neg_lt_zero]; positivity

/-! ### C47: time step -/

theorem thermReduceMin_le (o : ClockOpts) (es : List ThermElem) (e : ThermElem) (he : e ∈ es) :
    ∃ m, thermReduceMin o es = some m ∧ m ≤ thermElemDt o e := by
  induction es with
  | nil => cases he
  | cons a es ih =>
    rw [thermReduceMin]
    rcases List.mem_cons.1 he with rfl | h
    · cases hr : thermReduceMin o es with
      | none => exact ⟨_, rfl, le_rfl⟩
      | some m =>
        refine ⟨_, rfl, ?_⟩
        by_cases h : thermElemDt o e < m
        · rw [if_pos h]
        · rw [if_neg h]; exact not_lt.1 h
    · obtain ⟨m, hm, hle⟩ := ih h
      rw [hm]
      refine ⟨_, rfl, ?_⟩
      by_cases h' : thermElemDt o a < m
      · simp only [if_pos h']; exact h'.le.trans hle
      · simp only [if_neg h']; exact hle

theorem thermReduceMin_mem (o : ClockOpts) (es : List ThermElem) (m : ℝ)
    (h : thermReduceMin o es = some m) : ∃ e ∈ es, m = thermElemDt o e := by
  induction es generalizing m with
  | nil => cases h
  | cons a es ih =>
    rw [thermReduceMin] at h
    cases hr : thermReduceMin o es with
    | none => rw [hr] at h; exact ⟨a, by simp, (Option.some.inj h).symm⟩
    | some k =>
      rw [hr] at h
      have h := (Option.some.inj h).symm
      by_cases h' : thermElemDt o a < k
      · rw [if_pos h'] at h; exact ⟨a, by simp, h⟩
      · rw [if_neg h'] at h
        obtain ⟨e, he, hk⟩ := ih k hr
        exact ⟨e, by simp [he], h.trans hk⟩

theorem thermTimestep_le (o : ClockOpts) (es : List ThermElem) (t g dt : ℝ) :
    thermTimestep o es t g dt ≤ dt * 1.1 ∧
    (∀ e ∈ es, thermTimestep o es t g dt ≤ thermElemDt o e) ∧
    thermTimestep o es t g dt ≤ max o.fuzz (g - t) + o.tiny ∧
    thermTimestep o es t g dt ≤ o.timeFinal - t + o.tiny := by
  unfold thermTimestep
  simp only
  refine ⟨?_, ?_, (min_le_left _ _).trans (min_le_right _ _), min_le_right _ _⟩
  · refine ((min_le_left _ _).trans (min_le_left _ _)).trans ?_
    cases thermReduceMin o es with
    | none => exact le_rfl
    | some m => simp only; split_ifs with h; exacts [h.le, le_rfl]
  · intro e he
    refine ((min_le_left _ _).trans (min_le_left _ _)).trans ?_
    obtain ⟨m, hm, hle⟩ := thermReduceMin_le o es e he
    rw [hm]; simp only; split_ifs with h
    exacts [hle, (not_lt.1 h).trans hle]

theorem thermCycleDt_le (o : ClockOpts) (mats : List (List ThermElem)) (t g dt : ℝ) :
    thermCycleDt o mats t g dt ≤ o.dtMax ∧
    ∀ es ∈ mats, thermCycleDt o mats t g dt ≤ thermTimestep o es t g dt := by
  have : thermCycleDt o mats t g dt =
      (mats.map fun es => thermTimestep o es t g dt).foldl (fun m d => min d m) o.dtMax := by
    unfold thermCycleDt; rw [List.foldl_map]
  rw [this]
  refine ⟨(foldl_min_le _ _).1, fun es he => (foldl_min_le _ _).2 _ (List.mem_map.2 ⟨es, he, rfl⟩)⟩

/-- **C47.** Diffusion limit: with diffusivity `α = k / (ρ c)` of an element, the step satisfies
`20 α dt ≤ L²` for the distance `L` of any two nodes of the element, unless the user's minimum step
forces a larger one. -/
theorem C47_diffusion_limit (o : ClockOpts) (mats : List (List ThermElem)) (t g dt : ℝ)
    (es : List ThermElem) (hes : es ∈ mats) (e : ThermElem) (he : e ∈ es)
    (hk : 0 < e.conductivity) (hr : 0 < e.den) (hs : 0 < e.specificHeat) (a b : ℕ) (ha : a < 8)
    (hb : b < 8) (hab : a ≠ b) :
    20 * (e.conductivity / (e.den * e.specificHeat)) * thermCycleDt o mats t g dt
        ≤ euclid (e.coords a) (e.coords b) ^ 2 ∨
    thermCycleDt o mats t g dt ≤ o.dtMin := by
  have h := ((thermCycleDt_le o mats t g dt).2 es hes).trans ((thermTimestep_le o es t g dt).2.1 e he)
  have hα : 0 < e.conductivity / (e.den * e.specificHeat) := by positivity
  simp only [thermElemDt, hα.ne', if_false] at h
  rcases le_max_iff.1 h with h | h
  · left
    have h1 := (h.trans (min_le_left _ _)).trans (min_le_right _ _)
    have h2 := C14_length_le e.coords a b ha hb hab
    have h3 := distMin_nonneg e.coords
    have h4 : distMin e.coords * distMin e.coords ≤ euclid (e.coords a) (e.coords b) ^ 2 := by
      rw [sq]; exact mul_le_mul h2 h2 h3 (h3.trans h2)
    refine le_trans ?_ h4
    set α := e.conductivity / (e.den * e.specificHeat)
    set D := distMin e.coords * distMin e.coords
    calc 20 * α * thermCycleDt o mats t g dt ≤ 20 * α * (D / (2 * 3 * α) * 0.3) :=
          mul_le_mul_of_nonneg_left h1 (by positivity)
      _ = D := by field_simp; ring
  · exact Or.inr h

/-- **C47.** The other limits of the thermal time step: growth by at most 10 percent, the user's
maximum, one time unit unless the user's minimum is larger, the final time and the next graphics
time. -/
theorem C47_limits (o : ClockOpts) (mats : List (List ThermElem)) (hm : ∃ es ∈ mats, es ≠ [])
    (t g dt : ℝ) :
    thermCycleDt o mats t g dt ≤ 1.1 * dt ∧ thermCycleDt o mats t g dt ≤ o.dtMax ∧
    thermCycleDt o mats t g dt ≤ max 1 o.dtMin ∧
    t + thermCycleDt o mats t g dt ≤ o.timeFinal + o.tiny ∧
    t + thermCycleDt o mats t g dt ≤ max (t + o.fuzz) g + o.tiny := by
  obtain ⟨es, he, hne⟩ := hm
  obtain ⟨x, hx⟩ := List.exists_mem_of_ne_nil _ hne
  have h := (thermCycleDt_le o mats t g dt).2 es he
  obtain ⟨h1, h2, h3, h4⟩ := thermTimestep_le o es t g dt
  refine ⟨by linarith, (thermCycleDt_le o mats t g dt).1, ?_, by linarith, ?_⟩
  · refine (h.trans (h2 x hx)).trans ?_
    unfold thermElemDt
    dsimp only
    refine max_le_max ((min_le_left _ _).trans ?_) le_rfl
    split_ifs
    · exact le_rfl
    · exact min_le_left _ _
  · have : max (t + o.fuzz) g = t + max o.fuzz (g - t) := by
      rw [← max_add_add_left]; congr 1; ring
    linarith

/-- **C47.** Before the final time every step is positive. -/
theorem C47_positive (o : ClockOpts) (ho : o.Sane) (mats : List (List ThermElem)) (t g dt : ℝ)
    (hdt : 0 < dt) (ht : t < o.timeFinal) : 0 < thermCycleDt o mats t g dt := by
  have hg : ∀ es, 0 < thermTimestep o es t g dt := by
    intro es
    unfold thermTimestep
    simp only
    refine lt_min (lt_min ?_ ?_) ?_
    · cases hr : thermReduceMin o es with
      | none => simp only; linarith
      | some m =>
        simp only
        split_ifs with h
        · obtain ⟨e, _, hm⟩ := thermReduceMin_mem o es m hr
          rw [hm]; exact lt_of_lt_of_le ho.dtMin (le_max_right _ _)
        · linarith
    · linarith [le_max_left o.fuzz (g - t), ho.fuzz, ho.tiny]
    · linarith [ho.tiny]
  have : thermCycleDt o mats t g dt =
      (mats.map fun es => thermTimestep o es t g dt).foldl (fun m d => min d m) o.dtMax := by
    unfold thermCycleDt; rw [List.foldl_map]
  rw [this]
  rcases foldl_min_mem (mats.map fun es => thermTimestep o es t g dt) o.dtMax with h | h
  · rw [h]; exact lt_of_lt_of_le ho.dtMin ho.dtMax
  · obtain ⟨es, _, he⟩ := List.mem_map.1 h
    rw [← he]; exact hg es

/-- A unit cube of unit material. -/
noncomputable def demoTherm : ThermElem := ⟨demoElem.coords, 1, 1, 1⟩

example : 20 * (demoTherm.conductivity / (demoTherm.den * demoTherm.specificHeat))
      * thermCycleDt (defaultClock 1) [[demoTherm]] 0 0.1 1e-5
        ≤ euclid (demoTherm.coords 0) (demoTherm.coords 1) ^ 2 ∨
    thermCycleDt (defaultClock 1) [[demoTherm]] 0 0.1 1e-5 ≤ 1e-8 :=
  C47_diffusion_limit (defaultClock 1) [[demoTherm]] 0 0.1 1e-5 [demoTherm] (by simp) demoTherm
    (by simp) (by norm_num [demoTherm]) (by norm_num [demoTherm]) (by norm_num [demoTherm]) 0 1
    (by norm_num) (by norm_num) (by norm_num)

/-! ### C48: tool path -/

/-- The times of the path strictly increase (specification). -/
def PathIncreasing (path : List PathPoint) : Prop :=
  ∀ (i j : ℕ) (p q : PathPoint), i < j → path[i]? = some p → path[j]? = some q → p.time < q.time

theorem path_increasing (path : List PathPoint) (h : PathIncreasing path) (f : PathPoint → ℝ) :
    Increasing (path.map fun p => (p.time, f p)) := by
  intro i j p q hij hp hq
  rw [List.getElem?_map, Option.map_eq_some_iff] at hp hq
  obtain ⟨a, ha, rfl⟩ := hp
  obtain ⟨b, hb, rfl⟩ := hq
  exact h i j a b hij ha hb

/-- **C48.** Between two consecutive points of the path the tool moves on the straight line with
constant velocity, and its power changes linearly; all coordinates and the power use the same
fraction of the segment. -/
theorem C48_straight_line (path : List PathPoint) (h : PathIncreasing path) (i : ℕ)
    (p q : PathPoint) (hp : path[i]? = some p) (hq : path[i + 1]? = some q) (s : ℝ) (h0 : 0 ≤ s)
    (h1 : s ≤ 1) :
    let t := (1 - s) * p.time + s * q.time
    (∀ d, toolPosition path t d = some ((1 - s) * p.pos d + s * q.pos d)) ∧
    toolPower path t = some ((1 - s) * p.power + s * q.power) := by
  intro t
  have hpq := h i (i + 1) p q (by omega) hp hq
  have key : ∀ f : PathPoint → ℝ, tableLookup (path.map fun p => (p.time, f p)) t
      = some ((1 - s) * f p + s * f q) := by
    intro f
    rw [C31_linear_between _ (path_increasing path h f) i (p.time, f p) (q.time, f q)
      (by rw [List.getElem?_map, hp]; rfl) (by rw [List.getElem?_map, hq]; rfl) t
      (by simp only [t]; nlinarith) (by simp only [t]; nlinarith)]
    have hs : (t - p.time) / (q.time - p.time) = s := by
      rw [div_eq_iff (by linarith)]; simp only [t]; ring
    congr 1
    dsimp only
    linear_combination (f q - f p) * hs
  exact ⟨fun d => key fun p => p.pos d, key PathPoint.power⟩

/-- **C48.** Before the first point the tool waits there, after the last point it stays there and
keeps its last power. -/
theorem C48_ends (path : List PathPoint) (first last : PathPoint) (h0 : path[0]? = some first)
    (hl : path[path.length - 1]? = some last) (t : ℝ) :
    (t ≤ first.time → (∀ d, toolPosition path t d = some (first.pos d)) ∧
      toolPower path t = some first.power) ∧
    (first.time < t → last.time ≤ t → (∀ d, toolPosition path t d = some (last.pos d)) ∧
      toolPower path t = some last.power) := by
  have key : ∀ f : PathPoint → ℝ, _ := fun f =>
    C31_clamped (path.map fun p => (p.time, f p)) (first.time, f first) (last.time, f last)
      (by rw [List.getElem?_map, h0]; rfl) (by rw [List.length_map, List.getElem?_map, hl]; rfl) t
  exact ⟨fun ht => ⟨fun d => (key fun p => p.pos d).1 ht, (key PathPoint.power).1 ht⟩,
    fun h1 h2 => ⟨fun d => (key fun p => p.pos d).2 h1 h2, (key PathPoint.power).2 h1 h2⟩⟩

/-- The built-in path of sgtm_execute.cpp:104-109. -/
noncomputable def builtinPath : List PathPoint :=
  [⟨0, ![100, 150, 15], 3000000⟩, ⟨5, ![200, 150, 15], 4000000⟩,
   ⟨5, ![100, 150, 30], 4000000⟩, ⟨10, ![200, 150, 30], 3000000⟩]

/-- **C48, the built-in path jumps**: its second and third point have the same time; at that time
the position of the second point is used, and right after it the tool is on the other line. -/
theorem C48_builtin_path_jumps_fails (t : ℝ) (h : 5 < t) (h' : t < 10) :
    toolPosition builtinPath 5 2 = some 15 ∧ toolPosition builtinPath t 2 = some 30 := by
  have hr : List.range (4 - 1) = [0, 1, 2] := rfl
  constructor
  · norm_num [toolPosition, builtinPath, tableLookup, tableLoop, hr, segmentValue]
    rfl
  · have e1 : ¬ t ≤ 0 := by linarith
    have e2 : ¬ 10 ≤ t := by linarith
    have e3 : ¬ t ≤ 5 := by linarith
    have e4 : 5 ≤ t := by linarith
    have e5 : t ≤ 10 := by linarith
    simp [toolPosition, builtinPath, tableLookup, tableLoop, hr, segmentValue, e1, e2, e3, e4, e5]
    ring

end Fierro
