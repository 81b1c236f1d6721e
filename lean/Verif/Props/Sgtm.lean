import Verif.Proofs.Sgtm
import Verif.Props.Table
import Mathlib.Tactic.Positivity
import Mathlib.Tactic.NormNum

/-!
# C43, C44, C45: conduction in the thermal solver
-/

set_option linter.unusedSectionVars false

namespace Fierro

variable {E N : ℕ}

/-! ### C43: balance of heat -/

/-- Heat content of the mesh for nodal masses `mass` and nodal specific heats `cp`
(specification). -/
noncomputable def heatContent (mass cp temp : Fin N → ℝ) : ℝ := ∑ n, mass n * cp n * temp n

/-- Each element belongs to exactly one material point (specification: a mesh without mixed
elements). -/
def OnePerElem (mats : List (List (ThermPt E))) : Prop :=
  (mats.flatten.map ThermPt.elem).Nodup ∧ ∀ e, e ∈ mats.flatten.map ThermPt.elem

open Classical in
/-- Volume of the elements whose centre lies in the ball of radius 8 around `pos`
(specification). -/
noncomputable def coveredVolume (mesh : Mesh8 E N) (coords : Fin N → Fin 3 → ℝ) (pos : Fin 3 → ℝ) :
    ℝ :=
  ∑ e, if ∑ d, (pos d - (∑ l, coords (mesh.nodesInElem e l) d) / 8) ^ 2 ≤ 8 ^ 2 then
    volHex (fun l => coords (mesh.nodesInElem e l) 0) (fun l => coords (mesh.nodesInElem e l) 1)
      (fun l => coords (mesh.nodesInElem e l) 2) else 0

theorem mul_add_div_self {m : ℝ} (hm : m ≠ 0) (t x : ℝ) : m * (t + x / m) = m * t + x := by
  field_simp

/-- **C43.** The heat conducted through the eight corners of an element adds up to zero, for any
shape of the element, temperatures and conductivity. -/
theorem C43_element_neutral (mesh : Mesh8 E N) (coords : Fin N → Fin 3 → ℝ) (temp : Fin N → ℝ)
    (p : ThermPt E) :
    ∑ l, cornerHeat mesh coords p.elem (pointFlux mesh coords temp p) l = 0 :=
  cornerHeat_sum_zero _ _ _ _

theorem sourceDistSq_eq (mesh : Mesh8 E N) (coords : Fin N → Fin 3 → ℝ) (pos : Fin 3 → ℝ)
    (e : Fin E) : sourceDistSq mesh coords pos e
      = ∑ d, (pos d - (∑ l, coords (mesh.nodesInElem e l) d) / 8) ^ 2 := by
  rw [sourceDistSq, foldl_finRange_add, zero_add]
  apply Finset.sum_congr rfl
  intro d _
  rw [thermElemCentre, foldl_finRange_add, zero_add]
  ring

/-- The sets of the run put no fixed temperature on a node. -/
def NoFixedTemp (sets : List (ThermSet N)) : Prop := ∀ s ∈ sets, ∀ v, s.bc ≠ .constant v

theorem boundaryTemperature_free (sets : List (ThermSet N)) (h : NoFixedTemp sets)
    (temp : Fin N → ℝ) : boundaryTemperature sets temp = temp := by
  induction sets generalizing temp with
  | nil => rfl
  | cons s sets ih =>
    rw [boundaryTemperature_cons, ih fun s' hs' => h s' (List.mem_cons_of_mem _ hs')]
    have := h s (by simp)
    rcases hb : s.bc with v | _ | _ | _
    · exact absurd hb (this v)
    all_goals simp [boundaryTemperature, hb]

theorem sum_cornerHeats (mesh : Mesh8 E N) (coords : Fin N → Fin 3 → ℝ) (temp : Fin N → ℝ)
    (source : Option (ℝ × (Fin 3 → ℝ))) (mats : List (List (ThermPt E)))
    (cq : Fin E × Fin 8 → ℝ) (hone : OnePerElem mats) :
    ∑ c, cornerHeats mesh coords temp source mats cq c
      = (match source with
        | none => 0
        | some (power, pos) => power * coveredVolume mesh coords pos / sourceVolume) := by
  rw [Fintype.sum_prod_type, sum_elems mats.flatten hone.1 hone.2]
  have h1 : ∀ p ∈ mats.flatten,
      ∑ l, cornerHeats mesh coords temp source mats cq (p.elem, l)
        = 8 * sourceTerm mesh coords source p := by
    intro p hp
    simp only [cornerHeats_mem mesh coords temp source mats cq p _ hone.1 hp,
      Finset.sum_add_distrib, cornerHeat_sum_zero]
    simp
  rw [List.map_congr_left h1]
  rcases source with _ | ⟨power, pos⟩
  · apply List.sum_eq_zero
    intro x hx
    obtain ⟨p, -, rfl⟩ := List.mem_map.1 hx
    simp [sourceTerm]
  · have h2 := sum_elems mats.flatten hone.1 hone.2 fun e =>
      8 * sourceTerm mesh coords (some (power, pos)) ⟨e, 0, 0, 0, false, fun _ => 0⟩
    simp only [sourceTerm] at h2 ⊢
    rw [← h2, coveredVolume, Finset.mul_sum, Finset.sum_div]
    apply Finset.sum_congr rfl
    intro e _
    rw [sourceDistSq_eq]
    by_cases hc : ∑ d, (pos d - (∑ l, coords (mesh.nodesInElem e l) d) / 8) ^ 2 ≤ 8 ^ 2
    · rw [if_pos hc, if_pos (by norm_num at hc ⊢; exact hc)]
      change 8 * (power / sourceVolume * (1 / 8) * thermVol mesh coords e)
        = power * thermVol mesh coords e / sourceVolume
      ring
    · rw [if_neg hc, if_neg (by norm_num at hc ⊢; exact hc)]
      ring

/-- **C43.** Balance of one stage on a mesh without mixed elements and without fixed
temperatures: the heat content changes by exactly the heat coming through the boundary and the
share of the power of the moving source that falls on covered elements (power times covered volume
over the volume of the source). -/
theorem C43_stage_balance (env : ThermEnv E N) (hWF : env.mesh.WF) (c : ℕ) (alpha dt : ℝ)
    (st st' : ThermState E N) (h : thermStage env c alpha dt st = some st')
    (hone : OnePerElem st.mats) (hfix : NoFixedTemp env.sets) (cp : Fin N → ℝ)
    (hcp : ∀ n, nodeSpecificHeat env.mesh st.mats n = some (cp n)) :
    heatContent env.mass cp st'.temp = heatContent env.mass cp st.tempN0
      + alpha * dt * (∑ n, boundaryHeat env st.temp n
        + (match env.source c with
          | none => 0
          | some (power, pos) =>
            power * coveredVolume env.mesh env.coords pos / sourceVolume)) := by
  obtain ⟨hne, -, -, hq, -, ht⟩ := thermStage_some env c alpha dt st st' h cp hcp
  rw [ht, boundaryTemperature_free _ hfix, hq]
  have h1 := sum_nodeHeat env.mesh hWF (boundaryHeat env st.temp)
    (cornerHeats env.mesh env.coords st.temp (env.source c) st.mats st.cornerQ) fun _ => 1
  simp only [one_mul] at h1
  rw [sum_cornerHeats env.mesh env.coords st.temp (env.source c) st.mats st.cornerQ hone] at h1
  rw [← h1, heatContent, heatContent, Finset.mul_sum, ← Finset.sum_add_distrib]
  apply Finset.sum_congr rfl
  intro n _
  exact mul_add_div_self (hne n) _ _

/-- No boundary set exchanges heat or fixes a temperature. -/
def Insulated (sets : List (ThermSet N)) : Prop := ∀ s ∈ sets, s.bc = .other

theorem Insulated.noFixed {sets : List (ThermSet N)} (h : Insulated sets) : NoFixedTemp sets := by
  intro s hs v; rw [h s hs]; simp

theorem Insulated.boundaryHeat {env : ThermEnv E N} (h : Insulated env.sets) (temp : Fin N → ℝ)
    (n : Fin N) : boundaryHeat env temp n = 0 := by
  have h1 : ∀ (sets : List (ThermSet N)), Insulated sets → ∀ q,
      boundaryConvection sets env.coords temp q = q ∧ boundaryRadiation sets env.coords temp q = q := by
    intro sets
    induction sets with
    | nil => intro _ q; exact ⟨rfl, rfl⟩
    | cons s sets ih =>
      intro hs q
      have hb := hs s (by simp)
      have := ih (fun s' hs' => hs s' (List.mem_cons_of_mem _ hs')) q
      simp only [boundaryConvection, boundaryRadiation, List.foldl_cons, hb] at this ⊢
      exact this
  rw [Fierro.boundaryHeat, (h1 env.sets h _).2, (h1 env.sets h _).1]

/-- **C43.** An insulated body without heat source keeps its heat content exactly, for any number
of cycles, any step sizes and any number of Runge-Kutta stages, any conductivities and any
assignment of materials to elements, as long as the run stays in range of its arrays. -/
theorem C43_run_conserves (env : ThermEnv E N) (hWF : env.mesh.WF) (hins : Insulated env.sets)
    (hsrc : ∀ c, env.source c = none) (S : ℕ) (hS : 0 < S) (c : ℕ) (dts : List ℝ)
    (st st' : ThermState E N) (hcq : ∀ e, ∑ l, st.cornerQ (e, l) = 0) (cp : Fin N → ℝ)
    (hcp : ∀ n, nodeSpecificHeat env.mesh st.mats n = some (cp n))
    (h : thermRun env S c dts st = some st') :
    heatContent env.mass cp st'.temp = heatContent env.mass cp st.temp := by
  have key := thermRun_induct env S (fun a => (∀ e, ∑ l, a.cornerQ (e, l) = 0) ∧
    (∀ n, nodeSpecificHeat env.mesh a.mats n = some (cp n)) ∧
    heatContent env.mass cp a.temp = heatContent env.mass cp st.temp) ?_ dts c st st'
    ⟨hcq, hcp, rfl⟩ h
  · exact key.2.2
  · intro c dt a b ha hab
    have stage : ∀ s, s < S → ∀ x y : ThermState E N, ((∀ e, ∑ l, x.cornerQ (e, l) = 0) ∧
        (∀ n, nodeSpecificHeat env.mesh x.mats n = some (cp n)) ∧
        heatContent env.mass cp x.tempN0 = heatContent env.mass cp st.temp) →
        thermStage env c (rkAlpha S s) dt x = some y →
        (∀ e, ∑ l, y.cornerQ (e, l) = 0) ∧
        (∀ n, nodeSpecificHeat env.mesh y.mats n = some (cp n)) ∧
        heatContent env.mass cp y.tempN0 = heatContent env.mass cp st.temp ∧
        heatContent env.mass cp y.temp = heatContent env.mass cp st.temp := by
      intro s _ x y hx hxy
      obtain ⟨hne, hcp', hn0, hq, -, ht⟩ := thermStage_some env c _ dt x y hxy cp hx.2.1
      rw [hsrc c] at hq
      have hy : ∀ e, ∑ l, y.cornerQ (e, l) = 0 := by
        intro e; rw [hq]; exact cornerHeats_elem_sum _ _ _ _ _ hx.1 e
      refine ⟨hy, hcp', by rw [hn0]; exact hx.2.2, ?_⟩
      rw [← hx.2.2, ht, boundaryTemperature_free _ hins.noFixed]
      have h1 := sum_nodeHeat env.mesh hWF (boundaryHeat env x.temp) y.cornerQ fun _ => 1
      simp only [one_mul, hins.boundaryHeat, Finset.sum_const_zero, zero_add] at h1
      rw [Fintype.sum_prod_type, Finset.sum_eq_zero fun e _ => hy e] at h1
      rw [heatContent, heatContent]
      have h2 : ∀ n, env.mass n * cp n * (x.tempN0 n + rkAlpha S s * dt *
          nodeHeat env.mesh (boundaryHeat env x.temp) y.cornerQ n / (env.mass n * cp n))
          = env.mass n * cp n * x.tempN0 n + rkAlpha S s * dt *
            nodeHeat env.mesh (boundaryHeat env x.temp) y.cornerQ n := by
        intro n; exact mul_add_div_self (hne n) _ _
      simp only [h2, Finset.sum_add_distrib, ← Finset.mul_sum]
      rw [h1, mul_zero, add_zero]
    exact thermCycle_induct env c S hS dt a b hab (fun x => (∀ e, ∑ l, x.cornerQ (e, l) = 0) ∧
        (∀ n, nodeSpecificHeat env.mesh x.mats n = some (cp n)) ∧
        heatContent env.mass cp x.tempN0 = heatContent env.mass cp st.temp)
      (fun x => (∀ e, ∑ l, x.cornerQ (e, l) = 0) ∧
        (∀ n, nodeSpecificHeat env.mesh x.mats n = some (cp n)) ∧
        heatContent env.mass cp x.temp = heatContent env.mass cp st.temp) ha
      (fun s hs x y hx hxy => by
        have := stage s hs x y hx hxy; exact ⟨this.1, this.2.1, this.2.2.1⟩)
      (fun s hs x y hx hxy => by
        have := stage s hs x y hx hxy; exact ⟨this.1, this.2.1, this.2.2.2⟩)

/-- Single material filling the mesh with its points in element order (specification). -/
def SingleMaterial (mats : List (List (ThermPt E))) : Prop :=
  ∃ f : Fin E → ThermPt E, (∀ e, (f e).elem = e) ∧ mats = [List.ofFn f]

theorem nodeSpecificHeat_single (mesh : Mesh8 E N) (f : Fin E → ThermPt E) (n : Fin N) :
    nodeSpecificHeat mesh [List.ofFn f] n
      = some (((mesh.cornersInNode n).map fun c =>
          (f c.1).specificHeat / ((mesh.cornersInNode n).length : ℝ)).sum) := by
  have h : ∀ e : Fin E, specificHeatAt [List.ofFn f] e = some (f e).specificHeat := by
    intro e; simp [specificHeatAt]
  rw [nodeSpecificHeat]
  generalize ((mesh.cornersInNode n).length : ℝ) = L
  have : ∀ (l : List (Fin E × Fin 8)) (a : ℝ), l.foldl (fun acc c => do
      let a ← acc
      let h ← specificHeatAt [List.ofFn f] c.1
      pure (a + h / L)) (some a) = some (a + (l.map fun c => (f c.1).specificHeat / L).sum) := by
    intro l
    induction l with
    | nil => intro a; simp
    | cons c l ih =>
      intro a
      rw [List.foldl_cons]
      have : (do
        let a ← some a
        let h ← specificHeatAt [List.ofFn f] c.1
        pure (a + h / L)) = some (a + (f c.1).specificHeat / L) := by
        rw [h]; rfl
      rw [this, ih]
      simp [add_assoc]
  rw [this]; simp

/-- **C43.** With one material filling the mesh the solver never leaves its arrays: a stage
completes, for positive masses and specific heats and a mesh in which every node has a corner, and
the specific heat of a node is the average over the elements around it. -/
theorem C43_single_material_runs (env : ThermEnv E N) (hm : ∀ n, 0 < env.mass n)
    (hc : ∀ n, env.mesh.cornersInNode n ≠ []) (c : ℕ) (alpha dt : ℝ) (st : ThermState E N)
    (hs : SingleMaterial st.mats) (hpos : ∀ p ∈ st.mats.flatten, 0 < p.specificHeat) :
    (∃ st', thermStage env c alpha dt st = some st') ∧
    ∀ n, nodeSpecificHeat env.mesh st.mats n = some (((env.mesh.cornersInNode n).map fun c =>
      ((st.mats.flatten.filter fun p => p.elem = c.1).map ThermPt.specificHeat).sum
        / ((env.mesh.cornersInNode n).length : ℝ)).sum) := by
  obtain ⟨f, hf, hmats⟩ := hs
  have hpos' : ∀ e, 0 < (f e).specificHeat := fun e =>
    hpos _ (by rw [hmats]; simp [List.mem_ofFn])
  have hpos2 : ∀ n, 0 < (((env.mesh.cornersInNode n).map fun c =>
          (f c.1).specificHeat / ((env.mesh.cornersInNode n).length : ℝ)).sum) := by
    intro n
    apply List.sum_pos
    · intro x hx
      obtain ⟨c, hc', rfl⟩ := List.mem_map.1 hx
      have : 0 < (env.mesh.cornersInNode n).length := List.length_pos_of_ne_nil (hc n)
      have := hpos' c.1
      positivity
    · simpa using hc n
  constructor
  · unfold thermStage
    dsimp only
    rw [if_pos]
    · rw [updateTemperature_of _ _ _ _ _ _ _ _ (fun n => ((env.mesh.cornersInNode n).map fun c =>
          (f c.1).specificHeat / ((env.mesh.cornersInNode n).length : ℝ)).sum)]
      · exact ⟨_, rfl⟩
      · intro n
        rw [nodeSpecificHeat_heat, hmats, nodeSpecificHeat_single]
      · intro n
        have := hm n; have := hpos2 n
        positivity
    · intro pts hpts i hi
      rw [hmats, List.mem_singleton] at hpts
      subst hpts
      simp only [tempGradWrites, List.mem_map, List.mem_ofFn] at hi
      obtain ⟨_, ⟨e, rfl⟩, rfl⟩ := hi
      simp
  · intro n
    rw [hmats, nodeSpecificHeat_single]
    congr 2
    apply List.map_congr_left
    intro c _
    congr 1
    have : (([List.ofFn f] : List (List (ThermPt E))).flatten.filter fun p => p.elem = c.1)
        = [f c.1] := by
      simp only [List.flatten_cons, List.flatten_nil, List.append_nil]
      rw [List.ofFn_eq_map, List.filter_map]
      have : ((fun p : ThermPt E => decide (p.elem = c.1)) ∘ f) = fun e => e == c.1 := by
        funext e; simp [hf]; rfl
      rw [this, List.filter_beq, List.count_eq_one_of_mem (List.nodup_finRange E) (List.mem_finRange _)]
      rfl
    rw [this]; simp

theorem singleMaterial_heat (mesh : Mesh8 E N) (coords : Fin N → Fin 3 → ℝ) (temp : Fin N → ℝ)
    (mats : List (List (ThermPt E))) (h : SingleMaterial mats)
    (hpos : ∀ p ∈ mats.flatten, 0 < p.specificHeat) :
    SingleMaterial (mats.map fun pts => pts.map (heatPoint mesh coords temp)) ∧
    ∀ p ∈ (mats.map fun pts => pts.map (heatPoint mesh coords temp)).flatten,
      0 < p.specificHeat := by
  obtain ⟨f, hf, rfl⟩ := h
  refine ⟨⟨fun e => heatPoint mesh coords temp (f e), fun e => hf e, ?_⟩, ?_⟩
  · simp [List.map_ofFn]; rfl
  · intro p hp
    simp only [List.map_cons, List.map_nil, List.flatten_cons, List.flatten_nil, List.append_nil,
      List.mem_map] at hp
    obtain ⟨q, hq, rfl⟩ := hp
    exact hpos q (by simpa using hq)

/-- **C43.** A run of any length of the thermal solver with one material completes. -/
theorem C43_single_material_run (env : ThermEnv E N) (hm : ∀ n, 0 < env.mass n)
    (hc : ∀ n, env.mesh.cornersInNode n ≠ []) (S c : ℕ) (dts : List ℝ) (st : ThermState E N)
    (hs : SingleMaterial st.mats) (hpos : ∀ p ∈ st.mats.flatten, 0 < p.specificHeat) :
    ∃ st', thermRun env S c dts st = some st' := by
  induction dts generalizing c st with
  | nil => exact ⟨st, rfl⟩
  | cons dt dts ih =>
    have key : ∀ k, ∃ b, (List.range k).foldl
        (fun st s => st.bind (thermStage env c (rkAlpha S s) dt))
          (some { st with tempN0 := st.temp }) = some b ∧ SingleMaterial b.mats ∧
          ∀ p ∈ b.mats.flatten, 0 < p.specificHeat := by
      intro k
      induction k with
      | zero => exact ⟨_, rfl, hs, hpos⟩
      | succ k ihk =>
        obtain ⟨a, ha, hsa, hpa⟩ := ihk
        obtain ⟨b, hb⟩ := (C43_single_material_runs env hm hc c (rkAlpha S k) dt a hsa hpa).1
        obtain ⟨cp, hcp⟩ := thermStage_cp env c _ dt a b hb
        obtain ⟨-, -, -, -, hmats, -⟩ := thermStage_some env c _ dt a b hb cp hcp
        refine ⟨b, ?_, ?_⟩
        · rw [List.range_succ, List.foldl_append, ha]
          exact hb
        · rw [hmats]
          exact singleMaterial_heat _ _ _ _ hsa hpa
    obtain ⟨b, hb, hsb, hpb⟩ := key S
    obtain ⟨st', h⟩ := ih (c + 1) b hsb hpb
    exact ⟨st', by rw [thermRun, thermCycle, hb]; exact h⟩

/-- **C43, the claim fails for more than one material.** If the elements are shared out between
materials, at least two of which are present, every stage accesses an array outside its bounds:
the gradient of the last element is stored past the points of its material. -/
theorem C43_two_materials_fails (env : ThermEnv E N) (c : ℕ) (alpha dt : ℝ) (st : ThermState E N)
    (hone : OnePerElem st.mats) (i j : ℕ) (hij : i ≠ j) (m m' : List (ThermPt E))
    (hi : st.mats[i]? = some m) (hj : st.mats[j]? = some m') (hm : m ≠ []) (hm' : m' ≠ []) :
    thermStage env c alpha dt st = none := by
  unfold thermStage
  dsimp only
  rw [if_neg]
  intro hall
  -- the points of two different materials live in different elements
  have hdisj : ∀ (l : List (List (ThermPt E))), (l.flatten.map ThermPt.elem).Nodup →
      ∀ (i j : ℕ) (a b : List (ThermPt E)), i ≠ j → l[i]? = some a → l[j]? = some b →
      ∀ p ∈ a, ∀ q ∈ b, p.elem ≠ q.elem := by
    intro l
    induction l with
    | nil => intro _ i j a b _ h; simp at h
    | cons x l ih =>
      intro hnd i j a b hij ha hb p hp q hq
      rw [List.flatten_cons, List.map_append, List.nodup_append] at hnd
      cases i with
      | zero =>
        cases j with
        | zero => exact absurd rfl hij
        | succ j =>
          simp at ha hb; subst ha
          exact hnd.2.2 _ (List.mem_map_of_mem hp) _ (List.mem_map_of_mem
            (List.mem_flatten.2 ⟨b, List.mem_of_getElem? hb, hq⟩))
      | succ i =>
        cases j with
        | zero =>
          simp at ha hb; subst hb
          intro he
          exact hnd.2.2 _ (List.mem_map_of_mem hq) _ (List.mem_map_of_mem
            (List.mem_flatten.2 ⟨a, List.mem_of_getElem? ha, hp⟩)) he.symm
        | succ j =>
          exact ih hnd.2.1 i j a b (by omega) (by simpa using ha) (by simpa using hb) p hp q hq
  have hnodup : ∀ x ∈ st.mats, (x.map ThermPt.elem).Nodup := by
    intro x hx
    exact (List.nodup_flatten.1 (by simpa [List.map_flatten] using hone.1)).1 _ (List.mem_map_of_mem hx)
  obtain ⟨p0, hp0⟩ := List.exists_mem_of_ne_nil m hm
  have hE : 0 < E := p0.elem.pos
  obtain ⟨pl, hpl, hlast⟩ := List.mem_map.1 (hone.2 ⟨E - 1, by omega⟩)
  obtain ⟨x, hx, hplx⟩ := List.mem_flatten.1 hpl
  obtain ⟨k, hk⟩ := List.getElem?_of_mem hx
  have h1 := hall x hx pl.elem.val (by simp only [tempGradWrites]; exact List.mem_map_of_mem (f := fun p : ThermPt E => p.elem.val) hplx)
  rw [hlast] at h1
  -- another material is not empty, so this one has fewer than `E` points
  obtain ⟨q, hq⟩ : ∃ q : ThermPt E, q.elem ∉ x.map ThermPt.elem := by
    by_cases hki : k = i
    · obtain ⟨q, hq⟩ := List.exists_mem_of_ne_nil m' hm'
      refine ⟨q, fun hmem => ?_⟩
      obtain ⟨p, hp, he⟩ := List.mem_map.1 hmem
      exact hdisj st.mats hone.1 k j x m' (by omega) hk hj p hp q hq he
    · refine ⟨p0, fun hmem => ?_⟩
      obtain ⟨p, hp, he⟩ := List.mem_map.1 hmem
      exact hdisj st.mats hone.1 k i x m hki hk hi p hp p0 hp0 he
  have hlen : (q.elem :: x.map ThermPt.elem).length ≤ E := by
    have := (List.nodup_cons.2 ⟨hq, hnodup x hx⟩).length_le_card
    simpa using this
  simp at hlen h1
  omega

/-! ### C44: exactness -/

/-- **C44.** For an affine temperature field `T = g · x + T₀` the temperature gradient of every
element (not inverted and not collapsed) is exactly `g` and the heat flux is `-k g`. -/
theorem C44_affine_exact (mesh : Mesh8 E N) (coords : Fin N → Fin 3 → ℝ) (g : Fin 3 → ℝ) (T0 : ℝ)
    (temp : Fin N → ℝ) (ht : ∀ n, temp n = ∑ k, g k * coords n k + T0) (p : ThermPt E)
    (hvol : (volFloor : ℝ) ≤ hexVolRaw (elemCoords mesh coords p.elem 0)
      (elemCoords mesh coords p.elem 1) (elemCoords mesh coords p.elem 2)) (d : Fin 3) :
    tempGrad mesh coords temp p.elem d = g d ∧
    pointFlux mesh coords temp p d = -(p.conductivity * g d) := by
  have h1 : tempGrad mesh coords temp p.elem d = g d := by
    have h2 := dot8_affine mesh coords (fun _ k => g k) (fun _ => T0) p.elem 0 d
    rw [dot8_eq] at h2
    rw [tempGrad_eq]
    simp only [ht]
    rw [h2]
    have hv : thermVol mesh coords p.elem = hexVolRaw (elemCoords mesh coords p.elem 0)
      (elemCoords mesh coords p.elem 1) (elemCoords mesh coords p.elem 2) := max_eq_left hvol
    have h0 : (0 : ℝ) < volFloor := by unfold volFloor; positivity
    rw [hv]
    field_simp [ne_of_gt (lt_of_lt_of_le h0 hvol)]
  exact ⟨h1, by rw [pointFlux, h1]; ring⟩

theorem tempGrad_uniform (mesh : Mesh8 E N) (coords : Fin N → Fin 3 → ℝ) (T : ℝ) (e : Fin E)
    (d : Fin 3) : tempGrad mesh coords (fun _ => T) e d = 0 := by
  rw [tempGrad_eq, ← Finset.mul_sum, elemB_sum_zero]; simp

theorem boundaryTemperature_uniform (sets : List (ThermSet N)) (T : ℝ)
    (h : ∀ s ∈ sets, s.bc = .other ∨ s.bc = .constant T) :
    boundaryTemperature sets (fun _ => T) = fun _ => T := by
  induction sets with
  | nil => rfl
  | cons s sets ih =>
    have h1 : boundaryTemperature [s] (fun _ => T) = fun _ => T := by
      rcases h s (by simp) with hb | hb
      · simp [boundaryTemperature, hb]
      · simp only [boundaryTemperature, List.foldl_cons, List.foldl_nil, hb]
        funext n
        rw [foldl_update_const]
        split_ifs <;> rfl
    rw [boundaryTemperature_cons, h1, ih fun s' hs' => h s' (List.mem_cons_of_mem _ hs')]

theorem cornerHeats_zero (mesh : Mesh8 E N) (coords : Fin N → Fin 3 → ℝ) (temp : Fin N → ℝ)
    (mats : List (List (ThermPt E))) (cq : Fin E × Fin 8 → ℝ) (hcq : ∀ c, cq c = 0)
    (hg : ∀ p ∈ mats.flatten, ∀ d, p.conductivity * tempGrad mesh coords temp p.elem d = 0)
    (c : Fin E × Fin 8) : cornerHeats mesh coords temp none mats cq c = 0 := by
  have key : ∀ (pts : List (ThermPt E)) (cq : Fin E × Fin 8 → ℝ), (∀ c, cq c = 0) →
      (∀ p ∈ pts, ∀ d, p.conductivity * tempGrad mesh coords temp p.elem d = 0) →
      ∀ c, pts.foldl (setCornerHeat mesh coords temp) cq c = 0 := by
    intro pts
    induction pts with
    | nil => intro cq h _ c; exact h c
    | cons p pts ih =>
      intro cq h hg c
      rw [List.foldl_cons]
      refine ih _ (fun c => ?_) (fun p' hp' => hg p' (List.mem_cons_of_mem _ hp')) c
      simp only [setCornerHeat]
      split_ifs
      · rw [cornerHeat_eq]
        apply Finset.sum_eq_zero
        intro d _
        rw [pointFlux, mul_assoc (-1), hg p (by simp) d]; ring
      · exact h c
  induction mats generalizing cq with
  | nil => exact hcq c
  | cons m mats ih =>
    rw [cornerHeats_cons]
    refine ih _ (fun c => key m cq hcq (fun p hp => hg p ?_) c) (fun p hp => hg p ?_)
    · simp [hp]
    · rw [List.flatten_cons, List.mem_append]; exact Or.inr hp

/-- **C45.** Without sources and in an insulated body, a temperature field whose gradient vanishes in
every conducting element is never changed by the solver (any number of cycles and stages). -/
theorem C45_no_gradient_no_change (env : ThermEnv E N) (hins : Insulated env.sets)
    (hsrc : ∀ c, env.source c = none) (S : ℕ) (hS : 0 < S) (c : ℕ) (dts : List ℝ)
    (st st' : ThermState E N) (hcq : ∀ c, st.cornerQ c = 0)
    (hg : ∀ p ∈ st.mats.flatten, ∀ d,
      p.conductivity * tempGrad env.mesh env.coords st.temp p.elem d = 0)
    (h : thermRun env S c dts st = some st') : st'.temp = st.temp := by
  have hmats : ∀ (t : Fin N → ℝ) (mats : List (List (ThermPt E))),
      (∀ p ∈ mats.flatten, ∀ d,
        p.conductivity * tempGrad env.mesh env.coords st.temp p.elem d = 0) →
      ∀ p ∈ (mats.map fun pts => pts.map (heatPoint env.mesh env.coords t)).flatten, ∀ d,
        p.conductivity * tempGrad env.mesh env.coords st.temp p.elem d = 0 := by
    intro t mats hm p hp d
    rw [← List.map_flatten, List.mem_map] at hp
    obtain ⟨q, hq, rfl⟩ := hp
    exact hm q hq d
  have key := thermRun_induct env S (fun a => (∀ c, a.cornerQ c = 0) ∧ a.temp = st.temp ∧
    ∀ p ∈ a.mats.flatten, ∀ d, p.conductivity * tempGrad env.mesh env.coords st.temp p.elem d = 0) ?_
    dts c st st' ⟨hcq, rfl, hg⟩ h
  · exact key.2.1
  · intro c dt a b ha hab
    refine thermCycle_induct env c S hS dt a b hab
      (fun x => (∀ c, x.cornerQ c = 0) ∧ x.temp = st.temp ∧ x.tempN0 = st.temp ∧
        ∀ p ∈ x.mats.flatten, ∀ d,
          p.conductivity * tempGrad env.mesh env.coords st.temp p.elem d = 0)
      (fun x => (∀ c, x.cornerQ c = 0) ∧ x.temp = st.temp ∧
        ∀ p ∈ x.mats.flatten, ∀ d,
          p.conductivity * tempGrad env.mesh env.coords st.temp p.elem d = 0)
      ⟨ha.1, ha.2.1, ha.2.1, ha.2.2⟩ ?_ ?_
    all_goals
      intro s _ x y hx hxy
      obtain ⟨cp, hcp⟩ := thermStage_cp env c _ dt x y hxy
      obtain ⟨hne, -, hn0, hq, hm, ht⟩ := thermStage_some env c _ dt x y hxy cp hcp
      rw [hsrc c, hx.2.1] at hq
      have hy : ∀ c, y.cornerQ c = 0 := by
        intro c; rw [hq]
        exact cornerHeats_zero _ _ _ _ _ hx.1 hx.2.2.2 c
      have hT : y.temp = st.temp := by
        rw [ht, boundaryTemperature_free _ hins.noFixed]
        funext n
        rw [nodeHeat_eq, hins.boundaryHeat, hx.2.2.1]
        have : (List.map y.cornerQ (env.mesh.cornersInNode n)).sum = 0 := by
          rw [List.map_congr_left (g := fun _ => (0 : ℝ)) fun c _ => hy c]; simp
        rw [this]; simp
      have hm' := hmats x.temp x.mats hx.2.2.2
      rw [← hm] at hm'
      first
        | exact ⟨hy, hT, by rw [hn0]; exact hx.2.2.1, hm'⟩
        | exact ⟨hy, hT, hm'⟩

/-- **C44.** A uniform temperature stays exactly as it is for any number of cycles without sources,
if every boundary set either is insulated or prescribes that same temperature. -/
theorem C44_uniform_steady (env : ThermEnv E N) (T : ℝ)
    (hsets : ∀ s ∈ env.sets, s.bc = .other ∨ s.bc = .constant T)
    (hsrc : ∀ c, env.source c = none) (S : ℕ) (hS : 0 < S) (c : ℕ) (dts : List ℝ)
    (st st' : ThermState E N) (hcq : ∀ c, st.cornerQ c = 0) (ht : ∀ n, st.temp n = T)
    (h : thermRun env S c dts st = some st') : ∀ n, st'.temp n = T := by
  have hheat : ∀ temp n, boundaryHeat env temp n = 0 := by
    have h1 : ∀ (sets : List (ThermSet N)), (∀ s ∈ sets, s.bc = .other ∨ s.bc = .constant T) →
        ∀ temp q, boundaryConvection sets env.coords temp q = q ∧
          boundaryRadiation sets env.coords temp q = q := by
      intro sets
      induction sets with
      | nil => intro _ temp q; exact ⟨rfl, rfl⟩
      | cons s sets ih =>
        intro hs temp q
        have := ih (fun s' hs' => hs s' (List.mem_cons_of_mem _ hs')) temp q
        rcases hs s (by simp) with hb | hb <;>
        · simp only [boundaryConvection, boundaryRadiation, List.foldl_cons, hb] at this ⊢
          exact this
    intro temp n
    rw [boundaryHeat, (h1 env.sets hsets _ _).2, (h1 env.sets hsets _ _).1]
  have key := thermRun_induct env S (fun a => (∀ c, a.cornerQ c = 0) ∧ a.temp = fun _ => T) ?_
    dts c st st' ⟨hcq, funext ht⟩ h
  · intro n; rw [key.2]
  · intro c dt a b ha hab
    refine thermCycle_induct env c S hS dt a b hab
      (fun x => (∀ c, x.cornerQ c = 0) ∧ x.temp = (fun _ => T) ∧ x.tempN0 = fun _ => T)
      (fun x => (∀ c, x.cornerQ c = 0) ∧ x.temp = fun _ => T) ⟨ha.1, ha.2, ha.2⟩ ?_ ?_
    all_goals
      intro s _ x y hx hxy
      obtain ⟨cp, hcp⟩ := thermStage_cp env c _ dt x y hxy
      obtain ⟨hne, -, hn0, hq, -, ht⟩ := thermStage_some env c _ dt x y hxy cp hcp
      rw [hsrc c, hx.2.1] at hq
      have hy : ∀ c, y.cornerQ c = 0 := by
        intro c; rw [hq]
        exact cornerHeats_zero _ _ _ _ _ hx.1 (fun p _ d => by rw [tempGrad_uniform, mul_zero]) c
      have hT : y.temp = fun _ => T := by
        rw [ht]
        have : (fun n => x.tempN0 n + rkAlpha S s * dt *
            nodeHeat env.mesh (boundaryHeat env x.temp) y.cornerQ n / (env.mass n * cp n))
            = fun _ => T := by
          funext n
          rw [nodeHeat_eq, hheat, hx.2.2]
          have : (List.map y.cornerQ (env.mesh.cornersInNode n)).sum = 0 := by
            rw [List.map_congr_left (g := fun _ => (0 : ℝ)) fun c _ => hy c]; simp
          rw [this]; simp
        rw [this, boundaryTemperature_uniform env.sets T hsets]
      first
        | exact ⟨hy, hT, by rw [hn0]; exact hx.2.2⟩
        | exact ⟨hy, hT⟩

/-! ### C45: heat flows down the temperature gradient -/

/-- Temperature-weighted conduction: exact value. -/
theorem weighted_conduction (mesh : Mesh8 E N) (hWF : mesh.WF) (coords : Fin N → Fin 3 → ℝ)
    (temp w : Fin N → ℝ) (mats : List (List (ThermPt E))) (cq : Fin E × Fin 8 → ℝ)
    (hone : OnePerElem mats) (hv : ∀ e, thermVol mesh coords e ≠ 0) :
    ∑ n, w n * nodeHeat mesh (fun _ => 0) (cornerHeats mesh coords temp none mats cq) n
      = -(mats.flatten.map fun p => p.conductivity * thermVol mesh coords p.elem *
          ∑ d, tempGrad mesh coords temp p.elem d * tempGrad mesh coords w p.elem d).sum := by
  rw [sum_nodeHeat mesh hWF, Fintype.sum_prod_type, sum_elems mats.flatten hone.1 hone.2]
  simp only [mul_zero, Finset.sum_const_zero, zero_add]
  rw [← neg_one_mul, ← listSum_mul]
  congr 1
  apply List.map_congr_left
  intro p hp
  simp only [cornerHeats_mem mesh coords temp none mats cq p _ hone.1 hp, sourceTerm, add_zero,
    cornerHeat_eq, pointFlux]
  have h1 : ∀ d, ∑ l, w (mesh.nodesInElem p.elem l) * elemB mesh coords p.elem l d
      = thermVol mesh coords p.elem * tempGrad mesh coords w p.elem d := by
    intro d; rw [tempGrad_eq]; field_simp [hv p.elem]
  have h2 : ∑ l, w (mesh.nodesInElem p.elem l) *
      ∑ d, -1 * p.conductivity * tempGrad mesh coords temp p.elem d * elemB mesh coords p.elem l d
      = ∑ d, -1 * p.conductivity * tempGrad mesh coords temp p.elem d *
        ∑ l, w (mesh.nodesInElem p.elem l) * elemB mesh coords p.elem l d := by
    simp only [Finset.mul_sum]
    rw [Finset.sum_comm]
    apply Finset.sum_congr rfl; intro d _
    apply Finset.sum_congr rfl; intro l _
    ring
  rw [h2]
  simp only [h1, Finset.mul_sum]
  apply Finset.sum_congr rfl; intro d _
  ring

theorem thermVol_pos (mesh : Mesh8 E N) (coords : Fin N → Fin 3 → ℝ) (e : Fin E) :
    0 < thermVol mesh coords e := by
  have h0 : (0 : ℝ) < volFloor := by unfold volFloor; positivity
  exact lt_of_lt_of_le h0 (le_max_right _ _)

/-- **C45.** Conduction moves heat from hot to cold as a whole: the temperature-weighted sum of
the heat received by the nodes is never positive, for non-negative conductivities, any element
shapes and any temperatures; it is zero only if every conducting element has zero temperature
gradient. -/
theorem C45_down_gradient (mesh : Mesh8 E N) (hWF : mesh.WF) (coords : Fin N → Fin 3 → ℝ)
    (temp : Fin N → ℝ) (mats : List (List (ThermPt E))) (cq : Fin E × Fin 8 → ℝ)
    (hone : OnePerElem mats) (hk : ∀ p ∈ mats.flatten, 0 ≤ p.conductivity) :
    ∑ n, temp n * nodeHeat mesh (fun _ => 0) (cornerHeats mesh coords temp none mats cq) n ≤ 0 ∧
    (∑ n, temp n * nodeHeat mesh (fun _ => 0) (cornerHeats mesh coords temp none mats cq) n = 0 ↔
      ∀ p ∈ mats.flatten, p.conductivity = 0 ∨ ∀ d, tempGrad mesh coords temp p.elem d = 0) := by
  rw [weighted_conduction mesh hWF coords temp temp mats cq hone fun e => (thermVol_pos mesh coords e).ne']
  have hnn : ∀ x ∈ mats.flatten.map fun p => p.conductivity * thermVol mesh coords p.elem *
      ∑ d, tempGrad mesh coords temp p.elem d * tempGrad mesh coords temp p.elem d, 0 ≤ x := by
    intro x hx
    obtain ⟨p, hp, rfl⟩ := List.mem_map.1 hx
    have := hk p hp
    have := thermVol_pos mesh coords p.elem
    have : 0 ≤ ∑ d, tempGrad mesh coords temp p.elem d * tempGrad mesh coords temp p.elem d :=
      Finset.sum_nonneg fun d _ => mul_self_nonneg _
    positivity
  have hsum := List.sum_nonneg hnn
  refine ⟨by linarith, ?_⟩
  rw [neg_eq_zero]
  constructor
  · intro h0 p hp
    have hp0 := List.all_zero_of_le_zero_le_of_sum_eq_zero hnn h0 (List.mem_map_of_mem hp)
    rcases mul_eq_zero.1 hp0 with h | h
    · exact Or.inl ((mul_eq_zero.1 h).resolve_right (thermVol_pos _ _ _).ne')
    · right
      intro d
      have := (Finset.sum_eq_zero_iff_of_nonneg (fun d _ => mul_self_nonneg
        (tempGrad mesh coords temp p.elem d))).1 h d (Finset.mem_univ d)
      exact mul_self_eq_zero.1 this
  · intro h
    apply List.sum_eq_zero
    intro x hx
    obtain ⟨p, hp, rfl⟩ := List.mem_map.1 hx
    rcases h p hp with h | h
    · rw [h]; ring
    · simp [h]

/-! ### A concrete mesh: one unit cube -/

/-- One element with eight nodes. -/
def thermCubeMesh : Mesh8 1 8 := { nodesInElem := fun _ l => l, cornersInNode := fun n => [(0, n)] }

theorem thermCubeMesh_WF : thermCubeMesh.WF := by
  intro n
  refine ⟨by simp [thermCubeMesh], fun c => ?_⟩
  obtain ⟨e, l⟩ := c
  have : e = 0 := Subsingleton.elim _ _
  subst this
  simp [thermCubeMesh]

/-- Corners of the unit cube in `i`-fastest order. -/
def thermCubeCoords (n : Fin 8) (d : Fin 3) : ℝ :=
  ![![0, 0, 0], ![1, 0, 0], ![0, 1, 0], ![1, 1, 0], ![0, 0, 1], ![1, 0, 1], ![0, 1, 1], ![1, 1, 1]] n d

/-- Alternating temperatures 400 and 300. -/
def checkerTemp (n : Fin 8) : ℝ := ![400, 300, 300, 400, 300, 400, 400, 300] n

/-- The cube as a thermal problem without boundary conditions. -/
noncomputable def thermCubeEnv : ThermEnv 1 8 :=
  { mesh := thermCubeMesh, coords := thermCubeCoords, mass := fun _ => 1 / 8, sets := [], source := fun _ => none }

/-- Unit material data with the given temperatures. -/
noncomputable def thermCubeState (temp : Fin 8 → ℝ) : ThermState 1 8 :=
  { temp := temp, tempN0 := temp, cornerQ := fun _ => 0,
    mats := [[⟨0, 1, 1, 1, false, fun _ => 0⟩]] }

theorem thermCubeState_single (temp : Fin 8 → ℝ) : SingleMaterial (thermCubeState temp).mats :=
  ⟨fun _ => ⟨0, 1, 1, 1, false, fun _ => 0⟩, fun e => (Subsingleton.elim _ _), by simp [thermCubeState]⟩

theorem checker_grad (d : Fin 3) : tempGrad thermCubeMesh thermCubeCoords checkerTemp 0 d = 0 := by
  rw [tempGrad_eq]
  have : ∑ l, checkerTemp (thermCubeMesh.nodesInElem 0 l) * elemB thermCubeMesh thermCubeCoords 0 l d = 0 := by
    fin_cases d <;>
      simp [Fin.sum_univ_eight, elemB, bmatrix, bmatrixCol0, bmatrixCol1, bmatrixCol2, elemCoords,
        thermCubeMesh, thermCubeCoords, checkerTemp] <;> norm_num
  rw [this, zero_div]

/-- **C45, temperatures need not even out.** An insulated conducting cube with alternating corner
temperatures of 400 and 300 stays that way for any number of cycles. -/
theorem C45_checkerboard_fails (S : ℕ) (hS : 0 < S) (dts : List ℝ) :
    ∃ st', thermRun thermCubeEnv S 0 dts (thermCubeState checkerTemp) = some st' ∧ st'.temp = checkerTemp ∧
      checkerTemp 0 = 400 ∧ checkerTemp 1 = 300 := by
  obtain ⟨st', h⟩ := C43_single_material_run thermCubeEnv (fun _ => by simp [thermCubeEnv])
    (fun n => by simp [thermCubeEnv, thermCubeMesh]) S 0 dts (thermCubeState checkerTemp)
    (thermCubeState_single _) (fun p hp => by simp [thermCubeState] at hp; rw [hp]; norm_num)
  refine ⟨st', h, ?_, by simp [checkerTemp], by simp [checkerTemp]⟩
  refine C45_no_gradient_no_change thermCubeEnv (fun s hs => by simp [thermCubeEnv] at hs) (fun _ => rfl) S hS 0
    dts (thermCubeState checkerTemp) st' (fun _ => rfl) ?_ h
  intro p hp d
  have : p.elem = 0 := Subsingleton.elim _ _
  rw [this]
  have := checker_grad d
  change _ * tempGrad thermCubeMesh thermCubeCoords checkerTemp 0 d = 0
  rw [this, mul_zero]

/-- Non-trivial instance of the hypotheses: a run of two cycles of the cube with temperature
`x` completes, and its heat content is conserved. -/
example : ∃ st', thermRun thermCubeEnv 2 0 [1 / 100, 1 / 100] (thermCubeState fun n => thermCubeCoords n 0) = some st' ∧
    heatContent thermCubeEnv.mass (fun _ => 1) st'.temp = 1 / 2 := by
  obtain ⟨st', h⟩ := C43_single_material_run thermCubeEnv (fun _ => by simp [thermCubeEnv])
    (fun n => by simp [thermCubeEnv, thermCubeMesh]) 2 0 [1 / 100, 1 / 100] (thermCubeState fun n => thermCubeCoords n 0)
    (thermCubeState_single _) (fun p hp => by simp [thermCubeState] at hp; rw [hp]; norm_num)
  refine ⟨st', h, ?_⟩
  rw [C43_run_conserves thermCubeEnv thermCubeMesh_WF (fun s hs => by simp [thermCubeEnv] at hs) (fun _ => rfl) 2
    (by norm_num) 0 _ _ st' (fun e => by simp [thermCubeState]) (fun _ => 1) ?_ h]
  · simp [heatContent, thermCubeEnv, thermCubeState, thermCubeCoords, Fin.sum_univ_eight]; norm_num
  · intro n
    simp [nodeSpecificHeat, thermCubeEnv, thermCubeMesh, thermCubeState, specificHeatAt]

/-- The gradient of a temperature `2 x + 3 y + 1` on the cube is `(2, 3, 0)` (the volume condition
of `C44_affine_exact` holds). -/
example : tempGrad thermCubeMesh thermCubeCoords (fun n => 2 * thermCubeCoords n 0 + 3 * thermCubeCoords n 1 + 1) 0 1 = 3 := by
  refine (C44_affine_exact thermCubeMesh thermCubeCoords ![2, 3, 0] 1 _ ?_ ⟨0, 1, 1, 1, false, fun _ => 0⟩ ?_ 1).1
  · intro n; simp [Fin.sum_univ_three]
  · simp [volFloor, hexVolRaw, elemCoords, thermCubeMesh, thermCubeCoords]; norm_num

end Fierro
