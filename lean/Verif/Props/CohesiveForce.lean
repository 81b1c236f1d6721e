/-
C87: the nodal forces of the cohesive zones.
-/
import Mathlib.Tactic.Linarith
import Mathlib.Tactic.FieldSimp
import Mathlib.Tactic.LinearCombination
import Verif.Model.Cohesive
import Verif.Props.CohesiveGeometry
import Verif.Props.CohesiveLaw
import Verif.Props.Sgh

namespace Fierro

open Cohesive
open Contact (sq_len len_nonneg)

variable {N : ℕ}

/-! ### Accumulation -/

theorem addPair_eq (F : Fin N → Fin 3 → ℝ) (p : Cohesive.Pair N) (n : Fin N) (k : Fin 3) :
    addPair F p n k = F n k + ((if n = p.a then p.force k else 0) - if n = p.b then p.force k else 0) := by
  unfold addPair
  by_cases hb : n = p.b
  · subst hb
    by_cases ha : p.b = p.a
    · simp [ha]
    · simp only [Function.update_self, if_true]
      rw [Function.update_of_ne ha, if_neg ha]
      ring
  · rw [Function.update_of_ne hb, if_neg hb]
    by_cases ha : n = p.a
    · subst ha; simp
    · rw [Function.update_of_ne ha, if_neg ha]; ring

theorem foldl_addPair (ps : List (Cohesive.Pair N)) (F : Fin N → Fin 3 → ℝ) (n : Fin N) (k : Fin 3) :
    ps.foldl addPair F n k = F n k +
      (ps.map fun p => (if n = p.a then p.force k else 0) - if n = p.b then p.force k else 0).sum := by
  induction ps generalizing F with
  | nil => simp
  | cons p r ih => rw [List.foldl_cons, ih, addPair_eq, List.map_cons, List.sum_cons]; ring

/-- C87.  The cohesive force of a node is the sum of the forces of the pairs in which it is the first
node minus the sum of those in which it is the second, however many pairs share it. -/
theorem C87_node_force (ps : List (Cohesive.Pair N)) (n : Fin N) (k : Fin 3) :
    allForces ps n k = ((ps.filter fun p => p.a = n).map fun p => p.force k).sum
      - ((ps.filter fun p => p.b = n).map fun p => p.force k).sum := by
  unfold allForces
  rw [foldl_addPair]
  simp only [zero_add]
  induction ps with
  | nil => simp
  | cons p r ih =>
    rw [List.map_cons, List.sum_cons, ih]
    by_cases ha : p.a = n <;> by_cases hb : p.b = n
    · simp [ha, hb]
    · have hb' : ¬ n = p.b := fun h => hb h.symm
      simp [ha, hb, hb']; ring
    · have ha' : ¬ n = p.a := fun h => ha h.symm
      simp [ha, hb, ha']; ring
    · have hb' : ¬ n = p.b := fun h => hb h.symm
      have ha' : ¬ n = p.a := fun h => ha h.symm
      simp [ha, hb, ha', hb']

/-- C87.  The cohesive forces add up to zero. -/
theorem C87_total_zero (ps : List (Cohesive.Pair N)) (k : Fin 3) : ∑ n, allForces ps n k = 0 := by
  have key : ∀ F : Fin N → Fin 3 → ℝ, ∑ n, ps.foldl addPair F n k = ∑ n, F n k := by
    induction ps with
    | nil => intro F; rfl
    | cons p r ih =>
      intro F
      rw [List.foldl_cons, ih]
      simp only [addPair_eq, Finset.sum_add_distrib, Finset.sum_sub_distrib]
      simp
  unfold allForces
  rw [key]
  simp

/-- C87.  Moment of the cohesive forces about the origin: pair by pair, minus the separation times the
force on the first node. -/
theorem C87_moment (ps : List (Cohesive.Pair N)) (x : Fin N → Fin 3 → ℝ) (i : Fin 3) :
    ∑ n, Contact.cross (x n) (allForces ps n) i
      = -(ps.map fun p => Contact.cross (fun k => x p.b k - x p.a k) p.force i).sum := by
  have key : ∀ F : Fin N → Fin 3 → ℝ, ∑ n, Contact.cross (x n) (ps.foldl addPair F n) i
      = ∑ n, Contact.cross (x n) (F n) i
        - (ps.map fun p => Contact.cross (fun k => x p.b k - x p.a k) p.force i).sum := by
    induction ps with
    | nil => intro F; simp
    | cons p r ih =>
      intro F
      rw [List.foldl_cons, ih, List.map_cons, List.sum_cons]
      have hs : ∀ (g : Fin N → ℝ) (j : Fin 3), ∑ n, g n * addPair F p n j
          = ∑ n, g n * F n j + (g p.a - g p.b) * p.force j := by
        intro g j
        have hrw : ∀ n, g n * addPair F p n j = g n * F n j
            + ((if n = p.a then g n * p.force j else 0) - if n = p.b then g n * p.force j else 0) := by
          intro n
          rw [addPair_eq]
          split_ifs <;> ring
        simp only [hrw, Finset.sum_add_distrib, Finset.sum_sub_distrib]
        simp
        ring
      match i with
      | 0 =>
        simp only [cross_0, Finset.sum_sub_distrib, hs]
        ring
      | 1 =>
        simp only [cross_1, Finset.sum_sub_distrib, hs]
        ring
      | 2 =>
        simp only [cross_2, Finset.sum_sub_distrib, hs]
        ring
  unfold allForces
  rw [key]
  have h0 : ∑ n, Contact.cross (x n) (fun _ => (0 : ℝ)) i = 0 := by
    refine Finset.sum_eq_zero fun n _ => ?_
    match i with
    | 0 => simp [cross_0]
    | 1 => simp [cross_1]
    | 2 => simp [cross_2]
  rw [h0, zero_sub]

/-- C87.  Cohesive zones conserve momentum: with their forces added to the external nodal forces, a
Runge-Kutta stage changes the momentum of the mesh by the impulse of the external forces alone. -/
theorem C87_stage_momentum {E : ℕ} (env : SghEnv ℝ E N) (hWF : env.mesh.WF) (hm : ∀ n, env.mass n ≠ 0)
    (hdisp : DispNeutral env.closures) (time alpha dt : ℝ) (st : SghState ℝ E N)
    (ps : List (Cohesive.Pair N)) (ext : Fin N → Fin 3 → ℝ)
    (hext : ∀ n d, env.ext st time n d = addNodal ext (allForces ps) n d) (d : Fin 3) :
    momentum env.mass (stageVelFree env time alpha dt st) d
      = momentum env.mass st.velN0 d + alpha * dt * ∑ n, ext n d := by
  rw [C10_stage_balance env hWF hm hdisp]
  simp only [hext, addNodal, Finset.sum_add_distrib, C87_total_zero, add_zero]

/-! ### One pair -/

theorem slip_orthogonal (n u : Fin 3 → ℝ) (hn : Contact.len n = 1) : Contact.dot (slip n u) n = 0 := by
  have h := sq_len n
  rw [hn] at h
  by_cases hc : 0 < Contact.len fun k => u k - Contact.dot u n * n k
  · have hs : ∀ k, slip n u k
        = (u k - Contact.dot u n * n k) / Contact.len fun k => u k - Contact.dot u n * n k := by
      intro k; simp only [slip, hc, if_true]
    simp only [Contact.dot, hs] at h ⊢
    simp only [Contact.dot] at hc
    have := hc.ne'
    field_simp
    linear_combination (u 0 * n 0 + u 1 * n 1 + u 2 * n 2) * h
  · have hs : ∀ k, slip n u k = 0 := by intro k; simp only [slip, hc, if_false]
    simp only [Contact.dot, hs]
    ring

theorem slip_unit (n u : Fin 3 → ℝ) (h : 0 < Contact.len fun k => u k - Contact.dot u n * n k) :
    Contact.dot (slip n u) (slip n u) = 1 := by
  have hl := sq_len fun k => u k - Contact.dot u n * n k
  have hs : ∀ k, slip n u k
      = (u k - Contact.dot u n * n k) / Contact.len fun k => u k - Contact.dot u n * n k := by
    intro k; simp only [slip, h, if_true]
  simp only [Contact.dot, hs] at hl ⊢
  simp only [Contact.dot] at h
  field_simp
  linear_combination -hl

/-- C87.  The force on the first node of a pair with unit normal has the component normal traction
times area along the normal, and tangential traction times area along the direction of slip: with
positive tractions the two nodes are pulled towards each other. -/
theorem C87_pair_components (n xA xB : Fin 3 → ℝ) (area tn tt : ℝ) (ha : 0 < area) (hn : Contact.len n = 1) :
    Contact.dot (pairForce n xA xB area tn tt) n = tn * area ∧
      (0 < (opening n xA xB (fun _ => 0) (fun _ => 0) 0).ut →
        Contact.dot (pairForce n xA xB area tn tt) (slip n fun k => xB k - xA k) = tt * area) := by
  have hs := slip_orthogonal n (fun k => xB k - xA k) hn
  have h := sq_len n
  rw [hn] at h
  have hf : ∀ k, pairForce n xA xB area tn tt k
      = tn * area * n k + tt * area * slip n (fun k => xB k - xA k) k := by
    intro k; rw [pairForce, if_neg (not_le.mpr ha)]
  constructor
  · simp only [Contact.dot, hf] at hs h ⊢
    linear_combination tt * area * hs - tn * area * h
  · intro hu
    have hu1 := slip_unit n (fun k => xB k - xA k) hu
    simp only [Contact.dot, hf] at hs hu1 ⊢
    linear_combination tn * area * hs + tt * area * hu1

/-- C87.  The power of separating the nodes is that of the two tractions on the two openings: the force
on the first node times the separation is `area (Tn un + Tt ut)`. -/
theorem C87_pair_work (n xA xB : Fin 3 → ℝ) (area tn tt : ℝ) (ha : 0 < area) (hn : Contact.len n = 1) :
    Contact.dot (pairForce n xA xB area tn tt) (fun k => xB k - xA k)
      = area * (tn * (opening n xA xB (fun _ => 0) (fun _ => 0) 0).un
        + tt * (opening n xA xB (fun _ => 0) (fun _ => 0) 0).ut) := by
  have h := sq_len n
  rw [hn] at h
  have hf : ∀ k, pairForce n xA xB area tn tt k
      = tn * area * n k + tt * area * slip n (fun k => xB k - xA k) k := by
    intro k; rw [pairForce, if_neg (not_le.mpr ha)]
  have hkey : Contact.dot (slip n fun k => xB k - xA k) (fun k => xB k - xA k)
      = (opening n xA xB (fun _ => 0) (fun _ => 0) 0).ut := by
    have hso := slip_orthogonal n (fun k => xB k - xA k) hn
    obtain ⟨u, hu⟩ : ∃ u : Fin 3 → ℝ, u = fun k => xB k - xA k := ⟨_, rfl⟩
    have hut : (opening n xA xB (fun _ => 0) (fun _ => 0) 0).ut
        = Contact.len fun k => u k - Contact.dot u n * n k := by rw [hu]; rfl
    rw [hut]
    rw [← hu] at hso ⊢
    by_cases hc : 0 < Contact.len fun k => u k - Contact.dot u n * n k
    · have h1 := slip_unit n u hc
      have hu2 : ∀ k, u k = (Contact.len fun k => u k - Contact.dot u n * n k) * slip n u k
          + Contact.dot u n * n k := by
        intro k
        simp only [slip, hc, if_true]
        field_simp
        ring
      obtain ⟨l, hl⟩ : ∃ l, l = Contact.len fun k => u k - Contact.dot u n * n k := ⟨_, rfl⟩
      obtain ⟨d, hd⟩ : ∃ d, d = Contact.dot u n := ⟨_, rfl⟩
      rw [← hl] at hu2 ⊢
      rw [← hd] at hu2
      have e0 := hu2 0; have e1 := hu2 1; have e2 := hu2 2
      simp only [Contact.dot] at h1 hso ⊢
      linear_combination slip n u 0 * e0 + slip n u 1 * e1 + slip n u 2 * e2 + l * h1 + d * hso
    · have h0 : Contact.len (fun k => u k - Contact.dot u n * n k) = 0 :=
        le_antisymm (not_lt.mp hc) (len_nonneg _)
      have hz : ∀ k, slip n u k = 0 := by intro k; simp only [slip, hc, if_false]
      rw [h0]
      simp only [Contact.dot, hz]
      ring
  rw [← hkey]
  simp only [opening, Contact.dot, hf]
  ring

/-- C87.  No force without a matched face. -/
theorem C87_no_area (n xA xB : Fin 3 → ℝ) (tn tt : ℝ) (k : Fin 3) :
    pairForce n xA xB (pairArea []) tn tt k = 0 := by
  simp [pairForce, pairArea]

/-- C87.  The moment of a pair vanishes exactly when the tractions are in the proportion of the
openings, in particular for the damaged linear law (C86) with equal critical openings: the
separation times the force is `area (Tt un − Tn ut)` times the normal crossed with the slip
direction. -/
theorem C87_pair_moment (n xA xB : Fin 3 → ℝ) (area tn tt : ℝ) (ha : 0 < area) (i : Fin 3)
    (hu : 0 < (opening n xA xB (fun _ => 0) (fun _ => 0) 0).ut) :
    Contact.cross (fun k => xB k - xA k) (pairForce n xA xB area tn tt) i
      = area * (tt * (opening n xA xB (fun _ => 0) (fun _ => 0) 0).un
          - tn * (opening n xA xB (fun _ => 0) (fun _ => 0) 0).ut)
        * Contact.cross n (slip n fun k => xB k - xA k) i := by
  have hf : ∀ k, pairForce n xA xB area tn tt k
      = tn * area * n k + tt * area * slip n (fun k => xB k - xA k) k := by
    intro k; rw [pairForce, if_neg (not_le.mpr ha)]
  obtain ⟨l, hl⟩ : ∃ l, l = (opening n xA xB (fun _ => 0) (fun _ => 0) 0).ut := ⟨_, rfl⟩
  obtain ⟨d, hd⟩ : ∃ d, d = (opening n xA xB (fun _ => 0) (fun _ => 0) 0).un := ⟨_, rfl⟩
  have hu2 : ∀ k, xB k - xA k = l * slip n (fun k => xB k - xA k) k + d * n k := by
    intro k
    have hlen : l = Contact.len fun k => (xB k - xA k) - Contact.dot (fun k => xB k - xA k) n * n k := hl
    rw [← hl, hlen] at hu
    simp only [slip, hu, if_true]
    rw [hlen, hd]
    have hne := hu.ne'
    simp only [opening]
    field_simp
    ring
  have e0 := hu2 0; have e1 := hu2 1; have e2 := hu2 2
  rw [← hl, ← hd]
  obtain ⟨s, hs⟩ : ∃ s, s = slip n (fun k => xB k - xA k) := ⟨_, rfl⟩
  rw [← hs] at e0 e1 e2 hf ⊢
  match i with
  | 0 => simp only [cross_0, hf]; rw [e1, e2]; ring
  | 1 => simp only [cross_1, hf]; rw [e0, e2]; ring
  | 2 => simp only [cross_2, hf]; rw [e0, e1]; ring

/-- C87.  With tractions that are the same multiple of the two openings (the damaged linear law of C86
with equal critical openings) the force of a pair is along the line between its nodes. -/
theorem C87_pair_moment_free (n xA xB : Fin 3 → ℝ) (area c : ℝ) (ha : 0 < area) (i : Fin 3) :
    Contact.cross (fun k => xB k - xA k) (pairForce n xA xB area
      (c * (opening n xA xB (fun _ => 0) (fun _ => 0) 0).un)
      (c * (opening n xA xB (fun _ => 0) (fun _ => 0) 0).ut)) i = 0 := by
  by_cases hu : 0 < (opening n xA xB (fun _ => 0) (fun _ => 0) 0).ut
  · rw [C87_pair_moment n xA xB area _ _ ha i hu]; ring
  · have h0 : (opening n xA xB (fun _ => 0) (fun _ => 0) 0).ut = 0 :=
      le_antisymm (not_lt.mp hu) (by simp only [opening]; exact len_nonneg _)
    have hz : (fun k => (xB k - xA k) - Contact.dot (fun k => xB k - xA k) n * n k) = 0 :=
      (Contact.len_eq_zero _).mp h0
    have hk : ∀ k, xB k - xA k = (opening n xA xB (fun _ => 0) (fun _ => 0) 0).un * n k := by
      intro k
      have := congrFun hz k
      simp only [opening, Pi.zero_apply] at this ⊢
      linarith
    have hf : ∀ k, pairForce n xA xB area (c * (opening n xA xB (fun _ => 0) (fun _ => 0) 0).un)
        (c * (opening n xA xB (fun _ => 0) (fun _ => 0) 0).ut) k
        = c * (opening n xA xB (fun _ => 0) (fun _ => 0) 0).un * area * n k := by
      intro k; rw [pairForce, if_neg (not_le.mpr ha), h0]; ring
    obtain ⟨d, hd⟩ : ∃ d, d = (opening n xA xB (fun _ => 0) (fun _ => 0) 0).un := ⟨_, rfl⟩
    match i with
    | 0 => simp only [cross_0, hf]; rw [hk 1, hk 2]; ring
    | 1 => simp only [cross_1, hf]; rw [hk 0, hk 2]; ring
    | 2 => simp only [cross_2, hf]; rw [hk 0, hk 1]; ring

/-- C87 (finding).  "Cohesive forces exert no net moment": false.  With different critical openings in the
normal and the tangential direction the force of the damaged linear law is not along the line
between the two nodes; here the tangential critical opening is twice the normal one. -/
theorem C87_moment_free_fails :
    ¬ ∀ (L : Law 0) (xA xB n : Fin 3 → ℝ), LawOk L → Contact.len n = 1 → ∀ i,
      Contact.cross (fun k => xB k - xA k)
        (pairForce n xA xB 1
          (L.Einf * ((opening n xA xB (fun _ => 0) (fun _ => 0) 0).un / L.un))
          (L.Einf * ((opening n xA xB (fun _ => 0) (fun _ => 0) 0).ut / L.ut))) i = 0 := by
  intro h
  have n0 : (![1, 0, 0] : Fin 3 → ℝ) 0 = 1 := rfl
  have n1 : (![1, 0, 0] : Fin 3 → ℝ) 1 = 0 := rfl
  have n2 : (![1, 0, 0] : Fin 3 → ℝ) 2 = 0 := rfl
  have x0 : (![1, 1, 0] : Fin 3 → ℝ) 0 = 1 := rfl
  have x1 : (![1, 1, 0] : Fin 3 → ℝ) 1 = 1 := rfl
  have x2 : (![1, 1, 0] : Fin 3 → ℝ) 2 = 0 := rfl
  have hun : (opening ![1, 0, 0] (fun _ => 0) ![1, 1, 0] (fun _ => 0) (fun _ => 0) 0).un = 1 := by
    simp only [opening, Contact.dot, n0, n1, n2, x0, x1, x2]; norm_num
  have hut : (opening ![1, 0, 0] (fun _ => 0) ![1, 1, 0] (fun _ => 0) (fun _ => 0) 0).ut = 1 := by
    simp only [opening, Contact.len, Contact.dot, n0, n1, n2, x0, x1, x2]; norm_num
  have hlen : Contact.len (![1, 0, 0] : Fin 3 → ℝ) = 1 := by
    simp only [Contact.len, n0, n1, n2]; norm_num
  have := h ⟨1, 0, 0, 1, 2, fun _ => 0, fun _ => 0⟩ (fun _ => 0) ![1, 1, 0] ![1, 0, 0]
    ⟨one_pos, two_pos, le_refl 0⟩ hlen 2
  rw [hun, hut, C87_pair_moment _ _ _ _ _ _ one_pos 2 (by rw [hut]; exact one_pos), hun, hut] at this
  have hd : Contact.dot (fun k => (![1, 1, 0] : Fin 3 → ℝ) k - 0) ![1, 0, 0] = 1 := by
    simp only [Contact.dot, n0, n1, n2, x0, x1, x2]; norm_num
  have hl : Contact.len (fun k => ((![1, 1, 0] : Fin 3 → ℝ) k - 0) - 1 * (![1, 0, 0] : Fin 3 → ℝ) k) = 1 := by
    simp only [Contact.len, n0, n1, n2, x0, x1, x2]; norm_num
  have hs1 : slip ![1, 0, 0] (fun k => (![1, 1, 0] : Fin 3 → ℝ) k - 0) 1 = 1 := by
    simp only [slip, hd, hl, one_pos, if_true, n1, x1]; norm_num
  have hs0 : slip ![1, 0, 0] (fun k => (![1, 1, 0] : Fin 3 → ℝ) k - 0) 0 = 0 := by
    simp only [slip, hd, hl, one_pos, if_true, n0, x0]; norm_num
  rw [cross_2, hs0, hs1, n0, n1] at this
  norm_num at this

/-- Two pairs sharing a node. -/
example : allForces (N := 3) [⟨0, 1, fun _ => 2⟩, ⟨0, 2, fun _ => 5⟩] 0 1 = 7 := by
  have h1 : ¬ ((1 : Fin 3) = 0) := by decide
  have h2 : ¬ ((2 : Fin 3) = 0) := by decide
  rw [C87_node_force]
  simp only [List.filter, decide_true, h1, h2, decide_false, List.map, List.sum_cons, List.sum_nil]
  norm_num

end Fierro
