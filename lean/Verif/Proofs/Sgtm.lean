import Verif.Model.Sgtm
import Verif.Props.Sgh
import Mathlib.Algebra.BigOperators.Field

set_option linter.unusedSectionVars false

namespace Fierro

variable {E N : ℕ}

theorem foldl_finRange_add {n : ℕ} (f : Fin n → ℝ) (a : ℝ) :
    (List.finRange n).foldl (fun acc l => acc + f l) a = a + ∑ l, f l := by
  rw [foldl_add_eq, Fin.sum_univ_def]

theorem tempGrad_eq (mesh : Mesh8 E N) (coords : Fin N → Fin 3 → ℝ) (temp : Fin N → ℝ) (e : Fin E)
    (d : Fin 3) : tempGrad mesh coords temp e d
      = (∑ l, temp (mesh.nodesInElem e l) * elemB mesh coords e l d) / thermVol mesh coords e := by
  rw [tempGrad, foldl_finRange_add, zero_add, mul_one_div]

theorem cornerHeat_eq (mesh : Mesh8 E N) (coords : Fin N → Fin 3 → ℝ) (e : Fin E) (q : Fin 3 → ℝ)
    (l : Fin 8) : cornerHeat mesh coords e q l = ∑ d, q d * elemB mesh coords e l d := by
  rw [cornerHeat, foldl_finRange_add]; simp

theorem elemAvgTemp_eq (mesh : Mesh8 E N) (temp : Fin N → ℝ) (e : Fin E) :
    elemAvgTemp mesh temp e = (∑ l, temp (mesh.nodesInElem e l)) / 8 := by
  rw [elemAvgTemp, foldl_finRange_add, zero_add, Finset.sum_div]

theorem nodeHeat_eq (mesh : Mesh8 E N) (q : Fin N → ℝ) (cq : Fin E × Fin 8 → ℝ) (n : Fin N) :
    nodeHeat mesh q cq n = q n + ((mesh.cornersInNode n).map cq).sum := by
  rw [nodeHeat, foldl_add_eq]

theorem sum_nodeHeat (mesh : Mesh8 E N) (h : mesh.WF) (q : Fin N → ℝ) (cq : Fin E × Fin 8 → ℝ)
    (w : Fin N → ℝ) :
    ∑ n, w n * nodeHeat mesh q cq n
      = ∑ n, w n * q n + ∑ c : Fin E × Fin 8, w (mesh.nodesInElem c.1 c.2) * cq c := by
  simp only [nodeHeat_eq, mul_add, Finset.sum_add_distrib]
  congr 1
  rw [← sum_corners mesh h (fun n c => w n * cq c)]
  apply Finset.sum_congr rfl
  intro n _
  rw [← listSum_mul]

theorem elemB_sum_zero (mesh : Mesh8 E N) (coords : Fin N → Fin 3 → ℝ) (e : Fin E) (d : Fin 3) :
    ∑ l, elemB mesh coords e l d = 0 :=
  C06_bmatrix_sum_zero _ _ _ d

theorem cornerHeat_sum_zero (mesh : Mesh8 E N) (coords : Fin N → Fin 3 → ℝ) (e : Fin E)
    (q : Fin 3 → ℝ) : ∑ l, cornerHeat mesh coords e q l = 0 := by
  simp only [cornerHeat_eq]
  rw [Finset.sum_comm]
  apply Finset.sum_eq_zero
  intro d _
  rw [← Finset.mul_sum, elemB_sum_zero, mul_zero]

/-! ### The array of corner heats -/

open Classical in
/-- Heat the source puts into each corner of the element of `p` (proof helper). -/
noncomputable def sourceTerm (mesh : Mesh8 E N) (coords : Fin N → Fin 3 → ℝ)
    (source : Option (ℝ × (Fin 3 → ℝ))) (p : ThermPt E) : ℝ :=
  match source with
  | none => 0
  | some (power, pos) =>
    if sourceDistSq mesh coords pos p.elem ≤ 8 * 8 then
      power / sourceVolume * (1 / 8) * thermVol mesh coords p.elem
    else 0

theorem foldl_set_notMem (mesh : Mesh8 E N) (coords : Fin N → Fin 3 → ℝ) (temp : Fin N → ℝ)
    (pts : List (ThermPt E)) (cq : Fin E × Fin 8 → ℝ) (e : Fin E) (l : Fin 8)
    (h : e ∉ pts.map ThermPt.elem) :
    pts.foldl (setCornerHeat mesh coords temp) cq (e, l) = cq (e, l) := by
  induction pts generalizing cq with
  | nil => rfl
  | cons p pts ih =>
    simp only [List.map_cons, List.mem_cons, not_or] at h
    rw [List.foldl_cons, ih _ h.2]
    simp [setCornerHeat, h.1]

theorem foldl_set_mem (mesh : Mesh8 E N) (coords : Fin N → Fin 3 → ℝ) (temp : Fin N → ℝ)
    (pts : List (ThermPt E)) (cq : Fin E × Fin 8 → ℝ) (p : ThermPt E) (l : Fin 8)
    (hnd : (pts.map ThermPt.elem).Nodup) (h : p ∈ pts) :
    pts.foldl (setCornerHeat mesh coords temp) cq (p.elem, l)
      = cornerHeat mesh coords p.elem (pointFlux mesh coords temp p) l := by
  induction pts generalizing cq with
  | nil => simp at h
  | cons a pts ih =>
    rw [List.map_cons, List.nodup_cons] at hnd
    rw [List.foldl_cons]
    rcases List.mem_cons.1 h with rfl | h
    · rw [foldl_set_notMem _ _ _ _ _ _ _ hnd.1]
      simp [setCornerHeat]
    · exact ih _ hnd.2 h

theorem foldl_add_notMem (mesh : Mesh8 E N) (coords : Fin N → Fin 3 → ℝ) (power : ℝ)
    (pos : Fin 3 → ℝ) (pts : List (ThermPt E)) (cq : Fin E × Fin 8 → ℝ) (e : Fin E) (l : Fin 8)
    (h : e ∉ pts.map ThermPt.elem) :
    pts.foldl (addSource mesh coords power pos) cq (e, l) = cq (e, l) := by
  induction pts generalizing cq with
  | nil => rfl
  | cons p pts ih =>
    simp only [List.map_cons, List.mem_cons, not_or] at h
    rw [List.foldl_cons, ih _ h.2]
    simp [addSource, h.1]

theorem foldl_add_mem (mesh : Mesh8 E N) (coords : Fin N → Fin 3 → ℝ) (power : ℝ)
    (pos : Fin 3 → ℝ) (pts : List (ThermPt E)) (cq : Fin E × Fin 8 → ℝ) (p : ThermPt E) (l : Fin 8)
    (hnd : (pts.map ThermPt.elem).Nodup) (h : p ∈ pts) :
    pts.foldl (addSource mesh coords power pos) cq (p.elem, l)
      = cq (p.elem, l) + sourceTerm mesh coords (some (power, pos)) p := by
  induction pts generalizing cq with
  | nil => simp at h
  | cons a pts ih =>
    rw [List.map_cons, List.nodup_cons] at hnd
    rw [List.foldl_cons]
    rcases List.mem_cons.1 h with rfl | h
    · rw [foldl_add_notMem _ _ _ _ _ _ _ _ hnd.1]
      simp only [addSource, sourceTerm, true_and]
      split_ifs <;> simp
    · rw [ih _ hnd.2 h]
      have : p.elem ≠ a.elem := fun he => hnd.1 (he ▸ List.mem_map_of_mem h)
      simp [addSource, this]

theorem cornerHeats_cons (mesh : Mesh8 E N) (coords : Fin N → Fin 3 → ℝ) (temp : Fin N → ℝ)
    (source : Option (ℝ × (Fin 3 → ℝ))) (m : List (ThermPt E)) (mats : List (List (ThermPt E)))
    (cq : Fin E × Fin 8 → ℝ) :
    cornerHeats mesh coords temp source (m :: mats) cq
      = cornerHeats mesh coords temp source mats (cornerHeats mesh coords temp source [m] cq) := rfl

theorem cornerHeats_notMem (mesh : Mesh8 E N) (coords : Fin N → Fin 3 → ℝ) (temp : Fin N → ℝ)
    (source : Option (ℝ × (Fin 3 → ℝ))) (mats : List (List (ThermPt E)))
    (cq : Fin E × Fin 8 → ℝ) (e : Fin E) (l : Fin 8)
    (h : e ∉ mats.flatten.map ThermPt.elem) :
    cornerHeats mesh coords temp source mats cq (e, l) = cq (e, l) := by
  induction mats generalizing cq with
  | nil => rfl
  | cons m mats ih =>
    simp only [List.flatten_cons, List.map_append, List.mem_append, not_or] at h
    rw [cornerHeats_cons, ih _ h.2]
    rcases source with _ | ⟨power, pos⟩
    · exact foldl_set_notMem mesh coords temp m cq e l h.1
    · change m.foldl (addSource mesh coords power pos) _ (e, l) = _
      rw [foldl_add_notMem _ _ _ _ _ _ _ _ h.1, foldl_set_notMem mesh coords temp m cq e l h.1]

/-- Value at the corners of an element that belongs to exactly one material point. -/
theorem cornerHeats_mem (mesh : Mesh8 E N) (coords : Fin N → Fin 3 → ℝ) (temp : Fin N → ℝ)
    (source : Option (ℝ × (Fin 3 → ℝ))) (mats : List (List (ThermPt E)))
    (cq : Fin E × Fin 8 → ℝ) (p : ThermPt E) (l : Fin 8)
    (hnd : (mats.flatten.map ThermPt.elem).Nodup) (h : p ∈ mats.flatten) :
    cornerHeats mesh coords temp source mats cq (p.elem, l)
      = cornerHeat mesh coords p.elem (pointFlux mesh coords temp p) l
        + sourceTerm mesh coords source p := by
  induction mats generalizing cq with
  | nil => simp at h
  | cons m mats ih =>
    rw [List.flatten_cons, List.map_append, List.nodup_append] at hnd
    rw [List.flatten_cons, List.mem_append] at h
    rw [cornerHeats_cons]
    rcases h with h | h
    · rw [cornerHeats_notMem]
      · rcases source with _ | ⟨power, pos⟩
        · change m.foldl (setCornerHeat mesh coords temp) cq (p.elem, l) = _
          rw [foldl_set_mem _ _ _ _ _ _ _ hnd.1 h]; simp [sourceTerm]
        · change m.foldl (addSource mesh coords power pos) _ (p.elem, l) = _
          rw [foldl_add_mem _ _ _ _ _ _ _ _ hnd.1 h, foldl_set_mem _ _ _ _ _ _ _ hnd.1 h]
      · intro hm
        exact hnd.2.2 _ (List.mem_map_of_mem h) _ hm rfl
    · exact ih _ hnd.2.1 h

/-- Without a source the corner heats of each element add up to zero, whatever the materials. -/
theorem cornerHeats_elem_sum (mesh : Mesh8 E N) (coords : Fin N → Fin 3 → ℝ) (temp : Fin N → ℝ)
    (mats : List (List (ThermPt E))) (cq : Fin E × Fin 8 → ℝ) (h : ∀ e, ∑ l, cq (e, l) = 0)
    (e : Fin E) : ∑ l, cornerHeats mesh coords temp none mats cq (e, l) = 0 := by
  have key : ∀ (pts : List (ThermPt E)) (cq : Fin E × Fin 8 → ℝ), (∀ e, ∑ l, cq (e, l) = 0) →
      ∀ e, ∑ l, pts.foldl (setCornerHeat mesh coords temp) cq (e, l) = 0 := by
    intro pts
    induction pts with
    | nil => intro cq h e; exact h e
    | cons p pts ih =>
      intro cq h e
      rw [List.foldl_cons]
      apply ih
      intro e
      by_cases he : e = p.elem
      · subst he
        simp only [setCornerHeat, if_true]
        exact cornerHeat_sum_zero _ _ _ _
      · simp only [setCornerHeat, he, if_false]
        exact h e
  induction mats generalizing cq with
  | nil => exact h e
  | cons m mats ih =>
    rw [cornerHeats_cons]
    exact ih _ fun e => key m cq h e

/-- Sum over elements = sum over material points, when each element has exactly one. -/
theorem sum_elems (pts : List (ThermPt E)) (hnd : (pts.map ThermPt.elem).Nodup)
    (hcov : ∀ e, e ∈ pts.map ThermPt.elem) (F : Fin E → ℝ) :
    ∑ e, F e = (pts.map fun p => F p.elem).sum := by
  have : (Finset.univ : Finset (Fin E)) = (pts.map ThermPt.elem).toFinset := by
    ext e; simpa using hcov e
  rw [this, List.sum_toFinset _ hnd, List.map_map]
  rfl

/-! ### The stage -/

theorem specificHeatAt_heat (mesh : Mesh8 E N) (coords : Fin N → Fin 3 → ℝ) (temp : Fin N → ℝ)
    (mats : List (List (ThermPt E))) (e : Fin E) :
    specificHeatAt (mats.map fun pts => pts.map (heatPoint mesh coords temp)) e
      = specificHeatAt mats e := by
  unfold specificHeatAt
  rw [List.getElem?_map]
  cases mats[0]? with
  | none => rfl
  | some pts =>
    simp only [Option.map_some, Option.bind_some, List.getElem?_map, Option.map_map]
    rfl

theorem nodeSpecificHeat_heat (mesh mesh' : Mesh8 E N) (coords : Fin N → Fin 3 → ℝ)
    (temp : Fin N → ℝ) (mats : List (List (ThermPt E))) (n : Fin N) :
    nodeSpecificHeat mesh (mats.map fun pts => pts.map (heatPoint mesh' coords temp)) n
      = nodeSpecificHeat mesh mats n := by
  simp only [nodeSpecificHeat, specificHeatAt_heat]

theorem updateTemperature_some (mesh : Mesh8 E N) (mass : Fin N → ℝ) (alpha dt : ℝ)
    (mats : List (List (ThermPt E))) (q : Fin N → ℝ) (cq : Fin E × Fin 8 → ℝ)
    (tempN0 temp' : Fin N → ℝ)
    (h : updateTemperature mesh mass alpha dt mats q cq tempN0 = some temp') (cp : Fin N → ℝ)
    (hcp : ∀ n, nodeSpecificHeat mesh mats n = some (cp n)) :
    (∀ n, mass n * cp n ≠ 0) ∧
    temp' = fun n => tempN0 n + alpha * dt * nodeHeat mesh q cq n / (mass n * cp n) := by
  unfold updateTemperature at h
  split_ifs at h with hall
  · have hne : ∀ n, mass n * cp n ≠ 0 := by
      intro n h0
      have := hall n
      simp [newTemp, hcp, h0] at this
    refine ⟨hne, ?_⟩
    rw [← Option.some.inj h]
    funext n
    simp [newTemp, hcp, hne n]

theorem updateTemperature_of (mesh : Mesh8 E N) (mass : Fin N → ℝ) (alpha dt : ℝ)
    (mats : List (List (ThermPt E))) (q : Fin N → ℝ) (cq : Fin E × Fin 8 → ℝ)
    (tempN0 : Fin N → ℝ) (cp : Fin N → ℝ)
    (hcp : ∀ n, nodeSpecificHeat mesh mats n = some (cp n)) (hne : ∀ n, mass n * cp n ≠ 0) :
    updateTemperature mesh mass alpha dt mats q cq tempN0
      = some fun n => tempN0 n + alpha * dt * nodeHeat mesh q cq n / (mass n * cp n) := by
  unfold updateTemperature
  have : ∀ n, newTemp mesh mass alpha dt mats q cq tempN0 n
      = some (tempN0 n + alpha * dt * nodeHeat mesh q cq n / (mass n * cp n)) := by
    intro n; simp [newTemp, hcp, hne n]
  simp [this]

/-- What a completed stage did. -/
theorem thermStage_some (env : ThermEnv E N) (c : ℕ) (alpha dt : ℝ) (st st' : ThermState E N)
    (h : thermStage env c alpha dt st = some st') (cp : Fin N → ℝ)
    (hcp : ∀ n, nodeSpecificHeat env.mesh st.mats n = some (cp n)) :
    (∀ n, env.mass n * cp n ≠ 0) ∧
    (∀ n, nodeSpecificHeat env.mesh st'.mats n = some (cp n)) ∧
    st'.tempN0 = st.tempN0 ∧
    st'.cornerQ = cornerHeats env.mesh env.coords st.temp (env.source c) st.mats st.cornerQ ∧
    st'.mats = st.mats.map (fun pts => pts.map (heatPoint env.mesh env.coords st.temp)) ∧
    st'.temp = boundaryTemperature env.sets (fun n => st.tempN0 n + alpha * dt *
      nodeHeat env.mesh (boundaryHeat env st.temp) st'.cornerQ n / (env.mass n * cp n)) := by
  unfold thermStage at h
  dsimp only at h
  by_cases hw : ∀ pts ∈ st.mats, ∀ i ∈ tempGradWrites pts, i < pts.length
  · rw [if_pos hw, Option.map_eq_some_iff] at h
    obtain ⟨temp', ht, rfl⟩ := h
    obtain ⟨hne, rfl⟩ := updateTemperature_some _ _ _ _ _ _ _ _ _ ht cp
      (fun n => by rw [nodeSpecificHeat_heat]; exact hcp n)
    exact ⟨hne, fun n => by rw [nodeSpecificHeat_heat]; exact hcp n, rfl, rfl, rfl, rfl⟩
  · rw [if_neg hw] at h; cases h

theorem thermStage_cp (env : ThermEnv E N) (c : ℕ) (alpha dt : ℝ) (st st' : ThermState E N)
    (h : thermStage env c alpha dt st = some st') :
    ∃ cp : Fin N → ℝ, ∀ n, nodeSpecificHeat env.mesh st.mats n = some (cp n) := by
  unfold thermStage at h
  dsimp only at h
  by_cases hw : ∀ pts ∈ st.mats, ∀ i ∈ tempGradWrites pts, i < pts.length
  · rw [if_pos hw, Option.map_eq_some_iff] at h
    obtain ⟨temp', ht, rfl⟩ := h
    unfold updateTemperature at ht
    split_ifs at ht with hall
    have : ∀ n, ∃ x, nodeSpecificHeat env.mesh st.mats n = some x := by
      intro n
      have := hall n
      rw [newTemp, nodeSpecificHeat_heat] at this
      cases hx : nodeSpecificHeat env.mesh st.mats n with
      | none => rw [hx] at this; simp at this
      | some x => exact ⟨x, rfl⟩
    choose cp hcp using this
    exact ⟨cp, hcp⟩
  · rw [if_neg hw] at h; cases h

/-- A property kept by each stage and established by the last one holds at the end of a cycle. -/
theorem thermCycle_induct (env : ThermEnv E N) (c S : ℕ) (hS : 0 < S) (dt : ℝ)
    (st st' : ThermState E N) (h : thermCycle env c S dt st = some st')
    (P Q : ThermState E N → Prop) (h0 : P { st with tempN0 := st.temp })
    (hP : ∀ s, s < S → ∀ a b, P a → thermStage env c (rkAlpha S s) dt a = some b → P b)
    (hQ : ∀ s, s < S → ∀ a b, P a → thermStage env c (rkAlpha S s) dt a = some b → Q b) :
    Q st' := by
  have hk : ∀ k, k ≤ S → ∀ b, (List.range k).foldl
      (fun st s => st.bind (thermStage env c (rkAlpha S s) dt))
        (some { st with tempN0 := st.temp }) = some b → P b := by
    intro k
    induction k with
    | zero => intro _ b hb; simp at hb; rw [← hb]; exact h0
    | succ k ih =>
      intro hk b hb
      rw [List.range_succ, List.foldl_append] at hb
      simp only [List.foldl_cons, List.foldl_nil, Option.bind_eq_some_iff] at hb
      obtain ⟨a, ha, hb⟩ := hb
      exact hP k (by omega) a b (ih (by omega) a ha) hb
  obtain ⟨k, rfl⟩ : ∃ k, S = k + 1 := ⟨S - 1, by omega⟩
  rw [thermCycle] at h
  rw [List.range_succ, List.foldl_append] at h
  simp only [List.foldl_cons, List.foldl_nil, Option.bind_eq_some_iff] at h
  obtain ⟨a, ha, hb⟩ := h
  exact hQ k (by omega) a st' (hk k (by omega) a ha) hb

theorem thermRun_induct (env : ThermEnv E N) (S : ℕ) (P : ThermState E N → Prop)
    (hstep : ∀ c dt a b, P a → thermCycle env c S dt a = some b → P b) (dts : List ℝ) (c : ℕ)
    (st st' : ThermState E N) (h0 : P st) (h : thermRun env S c dts st = some st') : P st' := by
  induction dts generalizing c st with
  | nil => simp [thermRun] at h; rw [← h]; exact h0
  | cons dt dts ih =>
    rw [thermRun, Option.bind_eq_some_iff] at h
    obtain ⟨a, ha, hb⟩ := h
    exact ih (c + 1) a (hstep c dt st a h0 ha) hb

/-! ### Boundary conditions -/

theorem boundaryTemperature_cons (s : ThermSet N) (sets : List (ThermSet N)) (temp : Fin N → ℝ) :
    boundaryTemperature (s :: sets) temp
      = boundaryTemperature sets (boundaryTemperature [s] temp) := rfl

theorem foldl_update_const (nodes : List (Fin N)) (v : ℝ) (temp : Fin N → ℝ) (n : Fin N) :
    nodes.foldl (fun temp n => Function.update temp n v) temp n
      = if n ∈ nodes then v else temp n := by
  induction nodes generalizing temp with
  | nil => simp
  | cons a nodes ih =>
    rw [List.foldl_cons, ih]
    by_cases h : n ∈ nodes
    · simp [h]
    · by_cases ha : n = a
      · subst ha; simp
      · simp [h, ha]

end Fierro
