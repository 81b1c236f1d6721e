import Verif.Model.Sgh
import Verif.Proofs.BoundaryVelocity
import Mathlib.Algebra.BigOperators.Group.Finset.Basic
import Mathlib.Algebra.BigOperators.Ring.Finset
import Mathlib.Tactic.Ring
import Mathlib.Tactic.FieldSimp
import Mathlib.Tactic.Linarith
import Mathlib.Tactic.LinearCombination

set_option linter.unusedSectionVars false

namespace Fierro

theorem foldl_add_eq {K α : Type} [AddCommMonoid K] (f : α → K) (l : List α) (a : K) :
    l.foldl (fun acc c => acc + f c) a = a + (l.map f).sum := by
  induction l generalizing a with
  | nil => simp
  | cons x l ih => simp [ih, add_assoc]

theorem listSum_add {K α : Type} [AddCommMonoid K] (l : List α) (f g : α → K) :
    (l.map fun x => f x + g x).sum = (l.map f).sum + (l.map g).sum := by
  induction l with
  | nil => simp
  | cons x l ih => simp [ih]; abel

theorem listSum_mul {K α : Type} [CommRing K] (l : List α) (f : α → K) (c : K) :
    (l.map fun x => c * f x).sum = c * (l.map f).sum := by
  induction l with
  | nil => simp
  | cons x l ih => simp [ih, mul_add]

theorem listSum_finset {K α ι : Type} [AddCommMonoid K] (s : Finset ι) (l : List α)
    (f : α → ι → K) :
    (l.map fun x => ∑ i ∈ s, f x i).sum = ∑ i ∈ s, (l.map fun x => f x i).sum := by
  induction l with
  | nil => simp
  | cons x l ih => simp [ih, Finset.sum_add_distrib]

section
variable {K : Type} [Field K] {E N : ℕ}

/-- Sum over nodes of sums over the corners of the node = sum over all corners. -/
theorem sum_corners (mesh : Mesh8 E N) (h : mesh.WF) (g : Fin N → Fin E × Fin 8 → K) :
    ∑ n, ((mesh.cornersInNode n).map (g n)).sum
      = ∑ c : Fin E × Fin 8, g (mesh.nodesInElem c.1 c.2) c := by
  have h1 : ∀ n, ((mesh.cornersInNode n).map (g n)).sum
      = ∑ c : Fin E × Fin 8 with mesh.nodesInElem c.1 c.2 = n, g (mesh.nodesInElem c.1 c.2) c := by
    intro n
    rw [← List.sum_toFinset _ (h n).1]
    have : (mesh.cornersInNode n).toFinset
        = ({c : Fin E × Fin 8 | mesh.nodesInElem c.1 c.2 = n} : Finset _) := by
      ext c; simp [(h n).2 c]
    rw [this]
    apply Finset.sum_congr rfl
    intro c hc
    simp at hc
    rw [hc]
  simp only [h1]
  exact Finset.sum_fiberwise _ _ _

theorem nodeForceTotal_eq (mesh : Mesh8 E N) (ext : Fin N → Fin 3 → K)
    (cf : Fin E × Fin 8 → Fin 3 → K) (n : Fin N) (d : Fin 3) :
    nodeForceTotal mesh ext cf n d
      = ext n d + ((mesh.cornersInNode n).map fun c => cf c d).sum := by
  rw [nodeForceTotal, foldl_add_eq]

theorem sum_nodeForce (mesh : Mesh8 E N) (h : mesh.WF) (ext : Fin N → Fin 3 → K)
    (cf : Fin E × Fin 8 → Fin 3 → K) (d : Fin 3) (w : Fin N → K) :
    ∑ n, nodeForceTotal mesh ext cf n d * w n
      = ∑ n, ext n d * w n + ∑ c : Fin E × Fin 8, cf c d * w (mesh.nodesInElem c.1 c.2) := by
  simp only [nodeForceTotal_eq, add_mul, Finset.sum_add_distrib]
  congr 1
  have := sum_corners mesh h (fun n c => cf c d * w n)
  rw [← this]
  apply Finset.sum_congr rfl
  intro n _
  rw [mul_comm, ← listSum_mul]
  simp only [mul_comm]

/-- Invariant: the corner forces of each element sum to zero. -/
theorem foldl_addCornerForce_elem (f : MatPt K E → Fin 8 → Fin 3 → K) (pts : List (MatPt K E))
    (hf : ∀ p ∈ pts, p.eroded = false → ∀ d, ∑ l, f p l d = 0)
    (cf : Fin E × Fin 8 → Fin 3 → K) (hcf : ∀ e d, ∑ l, cf (e, l) d = 0) (e : Fin E) (d : Fin 3) :
    ∑ l, pts.foldl (addCornerForce f) cf (e, l) d = 0 := by
  induction pts generalizing cf with
  | nil => exact hcf e d
  | cons p pts ih =>
    rw [List.foldl_cons]
    apply ih (fun q hq => hf q (List.mem_cons_of_mem _ hq))
    intro e' d'
    simp only [addCornerForce]
    by_cases he : e' = p.elem
    · cases hp : p.eroded
      · simp [he, Finset.sum_add_distrib, hf p (by simp) hp, hcf]
      · simp [he]
    · simp [he, hcf]

theorem cornerForces_elem (mesh : Mesh8 E N) (C : Closures K E N) (st : SghState K E N)
    (hf : ∀ m ∈ st.mats, ∀ p ∈ m.pts, p.eroded = false → ∀ d,
      ∑ l, matCornerForce mesh st.coords m.decoupledEOS (C.disp st m p) p l d = 0)
    (e : Fin E) (d : Fin 3) : ∑ l, cornerForces mesh C st (e, l) d = 0 := by
  unfold cornerForces
  suffices H : ∀ (mats : List (Mat K E)) (cf : Fin E × Fin 8 → Fin 3 → K),
      (∀ m ∈ mats, ∀ p ∈ m.pts, p.eroded = false → ∀ d,
        ∑ l, matCornerForce mesh st.coords m.decoupledEOS (C.disp st m p) p l d = 0) →
      (∀ e d, ∑ l, cf (e, l) d = 0) →
      ∑ l, mats.foldl (fun cf m => m.pts.foldl (addCornerForce fun p =>
        matCornerForce mesh st.coords m.decoupledEOS (C.disp st m p) p) cf) cf (e, l) d = 0 from
    H st.mats _ hf (by simp)
  intro mats
  induction mats with
  | nil => intro cf _ h; exact h e d
  | cons m mats ih =>
    intro cf h1 h2
    rw [List.foldl_cons]
    apply ih _ (fun m' hm' => h1 m' (List.mem_cons_of_mem _ hm'))
    intro e' d'
    exact foldl_addCornerForce_elem _ m.pts (fun p hp he => h1 m (by simp) p hp he) cf h2 e' d'

/-- All points of an element are eroded, or none is. -/
def ErosionConsistent (mats : List (Mat K E)) : Prop :=
  ∀ m ∈ mats, ∀ p ∈ m.pts, ∀ m' ∈ mats, ∀ p' ∈ m'.pts, p.elem = p'.elem → p.eroded = p'.eroded

theorem foldl_addCornerForce_sum (f : MatPt K E → Fin 8 → Fin 3 → K) (pts : List (MatPt K E))
    (hf : ∀ p ∈ pts, p.eroded = true → ∀ l d, f p l d = 0)
    (cf : Fin E × Fin 8 → Fin 3 → K)
    (hcf : ∀ p ∈ pts, p.eroded = true → ∀ l d, cf (p.elem, l) d = 0)
    (hcons : ∀ p ∈ pts, ∀ p' ∈ pts, p.elem = p'.elem → p.eroded = p'.eroded)
    (c : Fin E × Fin 8) (d : Fin 3) :
    pts.foldl (addCornerForce f) cf c d
      = cf c d + (pts.map fun p => if c.1 = p.elem then f p c.2 d else 0).sum := by
  induction pts generalizing cf with
  | nil => simp
  | cons p pts ih =>
    rw [List.foldl_cons, ih (fun q hq => hf q (List.mem_cons_of_mem _ hq)) _ _
      (fun q hq q' hq' => hcons q (List.mem_cons_of_mem _ hq) q' (List.mem_cons_of_mem _ hq'))]
    · rw [List.map_cons, List.sum_cons, ← add_assoc]
      congr 1
      obtain ⟨e, l⟩ := c
      simp only [addCornerForce]
      by_cases he : e = p.elem
      · cases hp : p.eroded
        · simp [he]
        · subst he
          simp [hf p (by simp) hp, hcf p (by simp) hp]
      · simp [he]
    · intro q hq hqe l d'
      simp only [addCornerForce]
      by_cases he : q.elem = p.elem
      · have : p.eroded = true := by
          rw [← hcons q (List.mem_cons_of_mem _ hq) p (by simp) he, hqe]
        simp [he, this]
      · simp [he, hcf q (List.mem_cons_of_mem _ hq) hqe]

theorem matCornerForce_eroded (mesh : Mesh8 E N) (coords : Fin N → Fin 3 → K) (dec : Bool)
    (disp : Fin 8 → Fin 3 → K) (p : MatPt K E) (h : p.eroded = true) (l : Fin 8) (d : Fin 3) :
    matCornerForce mesh coords dec disp p l d = 0 := by
  simp [matCornerForce, h]

/-- Without partially eroded elements the corner force is the sum of the material corner
forces. -/
theorem cornerForces_sum (mesh : Mesh8 E N) (C : Closures K E N) (st : SghState K E N)
    (hcons : ErosionConsistent st.mats) (c : Fin E × Fin 8) (d : Fin 3) :
    cornerForces mesh C st c d
      = (st.mats.map fun m => (m.pts.map fun p => if c.1 = p.elem then
          matCornerForce mesh st.coords m.decoupledEOS (C.disp st m p) p c.2 d else 0).sum).sum := by
  unfold cornerForces
  suffices H : ∀ (mats : List (Mat K E)) (cf : Fin E × Fin 8 → Fin 3 → K),
      ErosionConsistent mats →
      (∀ m ∈ mats, ∀ p ∈ m.pts, p.eroded = true → ∀ l d, cf (p.elem, l) d = 0) →
      mats.foldl (fun cf m => m.pts.foldl (addCornerForce fun p =>
        matCornerForce mesh st.coords m.decoupledEOS (C.disp st m p) p) cf) cf c d
      = cf c d + (mats.map fun m => (m.pts.map fun p => if c.1 = p.elem then
          matCornerForce mesh st.coords m.decoupledEOS (C.disp st m p) p c.2 d else 0).sum).sum by
    rw [H st.mats _ hcons (by simp)]; simp
  intro mats
  induction mats with
  | nil => intro cf _ _; simp
  | cons m mats ih =>
    intro cf h1 h2
    rw [List.foldl_cons, ih]
    · rw [List.map_cons, List.sum_cons, ← add_assoc]
      congr 1
      exact foldl_addCornerForce_sum _ m.pts
        (fun p _ hp l d => matCornerForce_eroded _ _ _ _ p hp l d) cf (h2 m (by simp))
        (fun p hp p' hp' => h1 m (by simp) p hp m (by simp) p' hp') c d
    · intro m1 hm1 p hp m2 hm2 p' hp'
      exact h1 m1 (List.mem_cons_of_mem _ hm1) p hp m2 (List.mem_cons_of_mem _ hm2) p' hp'
    · intro m' hm' p hp he l d'
      rw [foldl_addCornerForce_sum _ m.pts
        (fun p _ hp l d => matCornerForce_eroded _ _ _ _ p hp l d) cf (h2 m (by simp))
        (fun p hp p' hp' => h1 m (by simp) p hp m (by simp) p' hp'),
        h2 m' (List.mem_cons_of_mem _ hm') p hp he, zero_add]
      apply List.sum_eq_zero
      intro x hx
      rw [List.mem_map] at hx
      obtain ⟨q, hq, rfl⟩ := hx
      by_cases hqe : p.elem = q.elem
      · have : q.eroded = true := by
          rw [← h1 m' (List.mem_cons_of_mem _ hm') p hp m (by simp) q hq hqe, he]
        simp [matCornerForce_eroded _ _ _ _ q this]
      · simp [hqe]

theorem pointPower_eq (mesh : Mesh8 E N) (vel velN0 : Fin N → Vel K 3) (p : MatPt K E) :
    pointPower mesh vel velN0 p = ∑ l, ∑ d, p.cornerForce l d *
      ((vel (mesh.nodesInElem p.elem l) d + velN0 (mesh.nodesInElem p.elem l) d) * (1 / 2)) := by
  simp only [pointPower, foldl_add_eq]
  rw [← List.ofFn_eq_map, List.sum_ofFn]
  rw [zero_add]
  apply Finset.sum_congr rfl
  intro l _
  rw [← List.ofFn_eq_map, List.sum_ofFn]

end

end Fierro
