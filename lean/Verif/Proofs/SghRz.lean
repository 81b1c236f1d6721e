import Verif.Model.SghRz
import Verif.Proofs.Sgh
import Verif.Props.Geometry2D

/-! Helper lemmas for the r-z solver. -/

set_option linter.unusedSectionVars false

namespace Fierro

variable {E N : ℕ}

theorem rz_sum_corners (mesh : Mesh4 E N) (h : mesh.WF) (g : Fin N → Fin E × Fin 4 → ℝ) :
    ∑ n, ((mesh.cornersInNode n).map (g n)).sum
      = ∑ c : Fin E × Fin 4, g (mesh.nodesInElem c.1 c.2) c := by
  have h1 : ∀ n, ((mesh.cornersInNode n).map (g n)).sum
      = ∑ c : Fin E × Fin 4 with mesh.nodesInElem c.1 c.2 = n, g (mesh.nodesInElem c.1 c.2) c := by
    intro n
    rw [← List.sum_toFinset _ (h n).1]
    have : (mesh.cornersInNode n).toFinset
        = ({c : Fin E × Fin 4 | mesh.nodesInElem c.1 c.2 = n} : Finset _) := by
      ext c; simp [(h n).2 c]
    rw [this]
    apply Finset.sum_congr rfl
    intro c hc
    simp at hc
    rw [hc]
  simp only [h1]
  exact Finset.sum_fiberwise _ _ _

theorem rzNodeForce_eq (mesh : Mesh4 E N) (cf : Fin E × Fin 4 → Fin 2 → ℝ) (n : Fin N)
    (d : Fin 2) :
    rzNodeForce mesh cf n d = ((mesh.cornersInNode n).map fun c => cf c d).sum := by
  rw [rzNodeForce, foldl_add_eq, zero_add]

theorem rz_sum_nodeForce (mesh : Mesh4 E N) (h : mesh.WF) (cf : Fin E × Fin 4 → Fin 2 → ℝ)
    (d : Fin 2) (w : Fin N → ℝ) :
    ∑ n, rzNodeForce mesh cf n d * w n
      = ∑ c : Fin E × Fin 4, cf c d * w (mesh.nodesInElem c.1 c.2) := by
  have := rz_sum_corners mesh h (fun n c => cf c d * w n)
  rw [← this]
  apply Finset.sum_congr rfl
  intro n _
  rw [rzNodeForce_eq, mul_comm, ← listSum_mul]
  simp only [mul_comm]

/-- All points of an element are eroded, or none is. -/
def RzErosionConsistent (mats : List (RzMat E)) : Prop :=
  ∀ m ∈ mats, ∀ p ∈ m.pts, ∀ m' ∈ mats, ∀ p' ∈ m'.pts, p.elem = p'.elem → p.eroded = p'.eroded

theorem rz_foldl_add_sum (f : RzPt E → Fin 4 → Fin 2 → ℝ) (pts : List (RzPt E))
    (hf : ∀ p ∈ pts, p.eroded = true → ∀ l d, f p l d = 0)
    (cf : Fin E × Fin 4 → Fin 2 → ℝ)
    (hcf : ∀ p ∈ pts, p.eroded = true → ∀ l d, cf (p.elem, l) d = 0)
    (hcons : ∀ p ∈ pts, ∀ p' ∈ pts, p.elem = p'.elem → p.eroded = p'.eroded)
    (c : Fin E × Fin 4) (d : Fin 2) :
    pts.foldl (rzAddForce f) cf c d
      = cf c d + (pts.map fun p => if c.1 = p.elem then f p c.2 d else 0).sum := by
  induction pts generalizing cf with
  | nil => simp
  | cons p pts ih =>
    rw [List.foldl_cons, ih (fun q hq => hf q (List.mem_cons_of_mem _ hq)) _ _
      (fun q hq q' hq' => hcons q (List.mem_cons_of_mem _ hq) q' (List.mem_cons_of_mem _ hq'))]
    · rw [List.map_cons, List.sum_cons, ← add_assoc]
      congr 1
      obtain ⟨e, l⟩ := c
      simp only [rzAddForce]
      by_cases he : e = p.elem
      · cases hp : p.eroded
        · simp [he]
        · subst he
          simp [hf p (by simp) hp, hcf p (by simp) hp]
      · simp [he]
    · intro q hq hqe l d'
      simp only [rzAddForce]
      by_cases he : q.elem = p.elem
      · have : p.eroded = true := by
          rw [← hcons q (List.mem_cons_of_mem _ hq) p (by simp) he, hqe]
        simp [he, this]
      · simp [he, hcf q (List.mem_cons_of_mem _ hq) hqe]

theorem rzMatForce_eroded (mesh : Mesh4 E N) (coords : Fin N → Fin 2 → ℝ) (dec : Bool)
    (disp : Fin 4 → Fin 2 → ℝ) (p : RzPt E) (h : p.eroded = true) (l : Fin 4) (d : Fin 2) :
    rzMatForce mesh coords dec disp p l d = 0 := by
  simp [rzMatForce, h]

/-- Without partially eroded elements the corner force is the sum of the material corner
forces. -/
theorem rzCornerForces_sum (mesh : Mesh4 E N) (C : RzClosures E N) (st : RzState E N)
    (hcons : RzErosionConsistent st.mats) (c : Fin E × Fin 4) (d : Fin 2) :
    rzCornerForces mesh C st c d
      = (st.mats.map fun m => (m.pts.map fun p => if c.1 = p.elem then
          rzMatForce mesh st.coords m.decoupledEOS (C.disp st m p) p c.2 d else 0).sum).sum := by
  unfold rzCornerForces
  suffices H : ∀ (mats : List (RzMat E)) (cf : Fin E × Fin 4 → Fin 2 → ℝ),
      RzErosionConsistent mats →
      (∀ m ∈ mats, ∀ p ∈ m.pts, p.eroded = true → ∀ l d, cf (p.elem, l) d = 0) →
      mats.foldl (fun cf m => m.pts.foldl (rzAddForce fun p =>
        rzMatForce mesh st.coords m.decoupledEOS (C.disp st m p) p) cf) cf c d
      = cf c d + (mats.map fun m => (m.pts.map fun p => if c.1 = p.elem then
          rzMatForce mesh st.coords m.decoupledEOS (C.disp st m p) p c.2 d else 0).sum).sum by
    rw [H st.mats _ hcons (by simp)]; simp
  intro mats
  induction mats with
  | nil => intro cf _ _; simp
  | cons m mats ih =>
    intro cf h1 h2
    rw [List.foldl_cons, ih]
    · rw [List.map_cons, List.sum_cons, ← add_assoc]
      congr 1
      exact rz_foldl_add_sum _ m.pts
        (fun p _ hp l d => rzMatForce_eroded _ _ _ _ p hp l d) cf (h2 m (by simp))
        (fun p hp p' hp' => h1 m (by simp) p hp m (by simp) p' hp') c d
    · intro m1 hm1 p hp m2 hm2 p' hp'
      exact h1 m1 (List.mem_cons_of_mem _ hm1) p hp m2 (List.mem_cons_of_mem _ hm2) p' hp'
    · intro m' hm' p hp he l d'
      rw [rz_foldl_add_sum _ m.pts
        (fun p _ hp l d => rzMatForce_eroded _ _ _ _ p hp l d) cf (h2 m (by simp))
        (fun p hp p' hp' => h1 m (by simp) p hp m (by simp) p' hp'),
        h2 m' (List.mem_cons_of_mem _ hm') p hp he, zero_add]
      apply List.sum_eq_zero
      intro x hx
      rw [List.mem_map] at hx
      obtain ⟨q, hq, rfl⟩ := hx
      by_cases hqe : p.elem = q.elem
      · have : q.eroded = true := by
          rw [← h1 m' (List.mem_cons_of_mem _ hm') p hp m (by simp) q hq hqe, he]
        simp [rzMatForce_eroded _ _ _ _ q this]
      · simp [hqe]

theorem rzPointPower_eq (mesh : Mesh4 E N) (coords : Fin N → Fin 2 → ℝ)
    (vel velN0 : Fin N → Vel ℝ 2) (p : RzPt E) :
    rzPointPower mesh coords vel velN0 p = ∑ l, ∑ d, p.cornerForce l d *
      coords (mesh.nodesInElem p.elem l) 1 *
      ((vel (mesh.nodesInElem p.elem l) d + velN0 (mesh.nodesInElem p.elem l) d) * (1 / 2)) := by
  simp only [rzPointPower, foldl_add_eq]
  rw [← List.ofFn_eq_map, List.sum_ofFn]
  rw [zero_add]
  apply Finset.sum_congr rfl
  intro l _
  rw [← List.ofFn_eq_map, List.sum_ofFn]

/-- A sum over all corners of a weight that only sees the element of a point. -/
theorem rz_sum_elem (e : Fin E) (f : Fin 4 → ℝ) (w : Fin E × Fin 4 → ℝ) :
    ∑ c : Fin E × Fin 4, (if c.1 = e then f c.2 else 0) * w c = ∑ l, f l * w (e, l) := by
  rw [Fintype.sum_prod_type, Finset.sum_eq_single e]
  · simp
  · intro e' _ he; simp [he]
  · simp

theorem rzCornerMass_eq (mesh : Mesh4 E N) (coords : Fin N → Fin 2 → ℝ) (mats : List (RzMat E))
    (c : Fin E × Fin 4) :
    rzCornerMass mesh coords mats c = (mats.map fun m => (m.pts.map fun p =>
      if c.1 = p.elem then rzCornerArea mesh coords p.elem c.2 * p.den else 0).sum).sum := by
  have hpts : ∀ (pts : List (RzPt E)) (cm : Fin E × Fin 4 → ℝ),
      pts.foldl (rzAddCornerMass mesh coords) cm c = cm c + (pts.map fun p =>
        if c.1 = p.elem then rzCornerArea mesh coords p.elem c.2 * p.den else 0).sum := by
    intro pts
    induction pts with
    | nil => simp
    | cons p pts ih =>
      intro cm
      rw [List.foldl_cons, ih, List.map_cons, List.sum_cons, ← add_assoc]
      congr 1
      simp only [rzAddCornerMass]
      split <;> simp
  unfold rzCornerMass
  suffices H : ∀ (mats : List (RzMat E)) (cm : Fin E × Fin 4 → ℝ),
      mats.foldl (fun cm m => m.pts.foldl (rzAddCornerMass mesh coords) cm) cm c = cm c +
        (mats.map fun m => (m.pts.map fun p =>
          if c.1 = p.elem then rzCornerArea mesh coords p.elem c.2 * p.den else 0).sum).sum by
    rw [H]; simp
  intro mats
  induction mats with
  | nil => simp
  | cons m mats ih =>
    intro cm
    rw [List.foldl_cons, ih, hpts, List.map_cons, List.sum_cons, add_assoc]

/-! ### Areal masses -/

/-- The fold over the neighbours of one axis node only changes that node. -/
theorem rzAxisNode_ne (mesh : Mesh4 E N) (tiny : ℝ) (coords : Fin N → Fin 2 → ℝ)
    (m : Fin N → ℝ) (n k : Fin N) (h : k ≠ n) : rzAxisNode mesh tiny coords m n k = m k := by
  unfold rzAxisNode
  split
  · generalize mesh.nodesInNode n = ks
    induction ks generalizing m with
    | nil => rfl
    | cons q ks ih =>
      rw [List.foldl_cons, ih]
      split
      · simp [h]
      · rfl
  · rfl

theorem rzAxisNode_off (mesh : Mesh4 E N) (tiny : ℝ) (coords : Fin N → Fin 2 → ℝ)
    (m : Fin N → ℝ) (n k : Fin N) (h : ¬ coords k 1 < tiny) :
    rzAxisNode mesh tiny coords m n k = m k := by
  by_cases hk : k = n
  · subst hk
    unfold rzAxisNode
    rw [if_neg h]
  · exact rzAxisNode_ne _ _ _ _ _ _ hk

theorem rzArealMass_off (mesh : Mesh4 E N) (tiny : ℝ) (coords : Fin N → Fin 2 → ℝ)
    (ext : Fin N → ℝ) (k : Fin N) (h : coords k 1 > tiny) :
    rzArealMass mesh tiny coords ext k = ext k / coords k 1 := by
  unfold rzArealMass
  have : ∀ (ns : List (Fin N)) (m : Fin N → ℝ),
      ns.foldl (rzAxisNode mesh tiny coords) m k = m k := by
    intro ns
    induction ns with
    | nil => intro m; rfl
    | cons q ns ih =>
      intro m
      rw [List.foldl_cons, ih, rzAxisNode_off _ _ _ _ _ _ (not_lt.2 h.le)]
  rw [this, rzArealOffAxis, if_pos h]

/-- One axis node: the larger of its mass and half the largest mass of its off-axis neighbours. -/
theorem rzAxisNode_self (mesh : Mesh4 E N) (tiny : ℝ) (coords : Fin N → Fin 2 → ℝ)
    (m : Fin N → ℝ) (n : Fin N) (h : coords n 1 < tiny) :
    m n ≤ rzAxisNode mesh tiny coords m n n ∧
    (∀ k ∈ mesh.nodesInNode n, coords k 1 > tiny → m k / 2 ≤ rzAxisNode mesh tiny coords m n n) ∧
    (rzAxisNode mesh tiny coords m n n = m n ∨
      ∃ k ∈ mesh.nodesInNode n, coords k 1 > tiny ∧ rzAxisNode mesh tiny coords m n n = m k / 2) := by
  unfold rzAxisNode
  rw [if_pos h]
  generalize mesh.nodesInNode n = ks
  induction ks generalizing m with
  | nil => simp
  | cons q ks ih =>
    rw [List.foldl_cons]
    by_cases hq : coords q 1 > tiny
    · rw [if_pos hq]
      obtain ⟨h1, h2, h3⟩ := ih (Function.update m n (max (m n) (m q / 2)))
      have hqn : q ≠ n := by rintro rfl; linarith
      simp only [Function.update_self] at h1 h3
      have hk : ∀ k, coords k 1 > tiny → Function.update m n (max (m n) (m q / 2)) k = m k := by
        intro k hk
        have : k ≠ n := by rintro rfl; linarith
        simp [this]
      refine ⟨(le_max_left _ _).trans h1, ?_, ?_⟩
      · intro k hkm hkt
        rcases List.mem_cons.1 hkm with rfl | hkm
        · exact (le_max_right _ _).trans h1
        · have := h2 k hkm hkt
          rwa [hk k hkt] at this
      · rcases h3 with h3 | ⟨k, hkm, hkt, h3⟩
        · rcases max_choice (m n) (m q / 2) with hm | hm
          · left; rw [h3, hm]
          · right; exact ⟨q, by simp, hq, by rw [h3, hm]⟩
        · right
          exact ⟨k, List.mem_cons_of_mem _ hkm, hkt, by rw [h3, hk k hkt]⟩
    · rw [if_neg hq]
      obtain ⟨h1, h2, h3⟩ := ih m
      refine ⟨h1, ?_, ?_⟩
      · intro k hkm hkt
        rcases List.mem_cons.1 hkm with rfl | hkm
        · exact absurd hkt hq
        · exact h2 k hkm hkt
      · rcases h3 with h3 | ⟨k, hkm, hkt, h3⟩
        · exact Or.inl h3
        · exact Or.inr ⟨k, List.mem_cons_of_mem _ hkm, hkt, h3⟩

end Fierro
