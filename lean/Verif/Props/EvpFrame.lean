import Verif.Model.EvpFrame
import Verif.Props.EvpRotated
import Verif.Props.EvpCouple

/-!
# C125: velocities prescribed on the surface of the body in LSNP-EVPFFT

Specification: the body has `m` voxels along the three directions, its nodes have coordinates from `1` to
`m + 1`, node `p` sits at `p - 1/2`.
-/

namespace Fierro

open Lsnp Complex

/-- On the surface of the body. -/
def OnFaces (m p : Fin 3 → ℤ) : Prop :=
  (∀ a, 1 ≤ p a ∧ p a ≤ m a + 1) ∧ ∃ a, p a = 1 ∨ p a = m a + 1

theorem forall_three (P : Fin 3 → Prop) : (∀ a, P a) ↔ P 0 ∧ P 1 ∧ P 2 :=
  ⟨fun h => ⟨h 0, h 1, h 2⟩, fun h a => by fin_cases a; exacts [h.1, h.2.1, h.2.2]⟩

theorem onBoundary_iff (m p : Fin 3 → ℤ) : onBoundary m p = true ↔
    ((p 0 = 1 ∨ p 0 = m 0 + 1) ∧ 1 ≤ p 1 ∧ p 1 ≤ m 0 + 1 ∧ 1 ≤ p 2 ∧ p 2 ≤ m 2 + 1) ∨
    ((p 1 = 1 ∨ p 1 = m 1 + 1) ∧ 1 ≤ p 0 ∧ p 0 ≤ m 1 + 1 ∧ 1 ≤ p 2 ∧ p 2 ≤ m 2 + 1) ∨
    ((p 2 = 1 ∨ p 2 = m 1 + 1) ∧ 1 ≤ p 0 ∧ p 0 ≤ m 1 + 1 ∧ 1 ≤ p 1 ∧ p 1 ≤ m 1 + 1) := by
  simp only [onBoundary, Bool.or_eq_true, Bool.and_eq_true, decide_eq_true_eq]
  omega

theorem onFaces_iff (m p : Fin 3 → ℤ) : OnFaces m p ↔
    (1 ≤ p 0 ∧ p 0 ≤ m 0 + 1 ∧ 1 ≤ p 1 ∧ p 1 ≤ m 1 + 1 ∧ 1 ≤ p 2 ∧ p 2 ≤ m 2 + 1) ∧
    (p 0 = 1 ∨ p 0 = m 0 + 1 ∨ p 1 = 1 ∨ p 1 = m 1 + 1 ∨ p 2 = 1 ∨ p 2 = m 2 + 1) := by
  constructor
  · rintro ⟨h, a, ha⟩
    have h0 := h 0
    have h1 := h 1
    have h2 := h 2
    refine ⟨by omega, ?_⟩
    fin_cases a <;> simp at ha <;> omega
  · rintro ⟨h, ha⟩
    refine ⟨fun a => ?_, ?_⟩
    · fin_cases a <;> simp <;> omega
    · rcases ha with h | h | h | h | h | h
      · exact ⟨0, Or.inl h⟩
      · exact ⟨0, Or.inr h⟩
      · exact ⟨1, Or.inl h⟩
      · exact ⟨1, Or.inr h⟩
      · exact ⟨2, Or.inl h⟩
      · exact ⟨2, Or.inr h⟩

/-- **C125 (surface).** In a body with the same number of voxels along the three directions the code finds
exactly the points of the surface. -/
theorem C125_surface (m p : Fin 3 → ℤ) (h0 : 0 ≤ m 0) (h1 : m 1 = m 0) (h2 : m 2 = m 0) :
    onBoundary m p = true ↔ OnFaces m p := by
  rw [onBoundary_iff, onFaces_iff]
  omega

/-- **C125 (surface of other bodies).** The test compares coordinates with the sizes of other directions. As soon
as the sizes differ there is a point, not farther from the body than two voxels, which the code takes for a
point of the surface although it is not, or the other way round. -/
theorem C125_surface_fails (m : Fin 3 → ℤ) (h : ∀ a, 2 ≤ m a) (hne : ¬ (m 1 = m 0 ∧ m 2 = m 0)) :
    ∃ p : Fin 3 → ℤ, (∀ a, 1 ≤ p a ∧ p a ≤ m a + 2) ∧ ¬ (onBoundary m p = true ↔ OnFaces m p) := by
  have h0 := h 0
  have h1 := h 1
  have h2 := h 2
  rcases lt_trichotomy (m 0) (m 1) with hlt | heq | hgt
  · refine ⟨![m 0 + 2, 1, 1], fun a => by fin_cases a <;> simp <;> omega, fun hh => ?_⟩
    rw [onBoundary_iff, onFaces_iff] at hh
    have e0 : (![m 0 + 2, 1, 1] : Fin 3 → ℤ) 0 = m 0 + 2 := rfl
    have e1 : (![m 0 + 2, 1, 1] : Fin 3 → ℤ) 1 = 1 := rfl
    have e2 : (![m 0 + 2, 1, 1] : Fin 3 → ℤ) 2 = 1 := rfl
    rw [e0, e1, e2] at hh
    have := hh.1 (Or.inr (Or.inl (by omega)))
    omega
  · refine ⟨![2, 2, m 2 + 1], fun a => by fin_cases a <;> simp <;> omega, fun hh => ?_⟩
    rw [onBoundary_iff, onFaces_iff] at hh
    have e0 : (![2, 2, m 2 + 1] : Fin 3 → ℤ) 0 = 2 := rfl
    have e1 : (![2, 2, m 2 + 1] : Fin 3 → ℤ) 1 = 2 := rfl
    have e2 : (![2, 2, m 2 + 1] : Fin 3 → ℤ) 2 = m 2 + 1 := rfl
    rw [e0, e1, e2] at hh
    have := hh.2 (by omega)
    omega
  · refine ⟨![1, m 1 + 2, 1], fun a => by fin_cases a <;> simp <;> omega, fun hh => ?_⟩
    rw [onBoundary_iff, onFaces_iff] at hh
    have e0 : (![1, m 1 + 2, 1] : Fin 3 → ℤ) 0 = 1 := rfl
    have e1 : (![1, m 1 + 2, 1] : Fin 3 → ℤ) 1 = m 1 + 2 := rfl
    have e2 : (![1, m 1 + 2, 1] : Fin 3 → ℤ) 2 = 1 := rfl
    rw [e0, e1, e2] at hh
    have := hh.1 (Or.inl (by omega))
    omega

/-! ### Velocities of the surface -/

theorem shape_spec (m p : Fin 3 → ℤ) (hm : ∀ a, m a ≠ 0) :
    ∑ v, shape m p v = 1 ∧ ∀ j, ∑ v, vertex m v j * shape m p v = (p j : ℝ) - 1 / 2 := by
  have h : ∀ a, (m a : ℝ) ≠ 0 := fun a => by exact_mod_cast hm a
  have l : ∀ a, (m a : ℝ) * localCoord (m a) (p a) = 2 * ((p a : ℝ) - 1) - m a := by
    intro a
    have := h a
    rw [localCoord]
    push_cast
    field_simp
    norm_num
    ring
  have l0 := l 0
  have l1 := l 1
  have l2 := l 2
  constructor
  · simp only [shape, Fin.sum_univ_eight, Matrix.cons_val]
    norm_num
    ring
  · intro j
    simp only [shape, vertex, Fin.sum_univ_eight]
    fin_cases j <;> simp only [Matrix.cons_val, Fin.zero_eta, Fin.mk_one, Fin.reduceFinMk] <;> norm_num
    · linear_combination (1 / 2 : ℝ) * l0
    · linear_combination (1 / 2 : ℝ) * l1
    · linear_combination (1 / 2 : ℝ) * l2

/-- Deformation after a list of steps, the last step first: each step of length `dt` with velocity gradient `L`
multiplies by `1 + dt L` from the left. -/
noncomputable def stepsDefo : List (T2 ℝ × ℝ) → Fin 3 → Fin 3 → ℝ
  | [] => fun i j => if i = j then 1 else 0
  | s :: before => fun i j => stepsDefo before i j + s.2 * ∑ k, s.1 i k * stepsDefo before k j

/-- **C125 (vertices).** Whatever velocity gradients were prescribed, the eight vertices are at every time the
images of the corners of the initial body under one matrix, the product of the steps. -/
theorem C125_vertices (m : Fin 3 → ℤ) (steps : List (T2 ℝ × ℝ)) (v : Fin 8) (i : Fin 3) :
    vertRun m steps v i = ∑ j, stepsDefo steps i j * vertex m v j := by
  induction steps generalizing i with
  | nil => simp [vertRun, stepsDefo]
  | cons s before ih =>
    simp only [vertRun, moveVert, velVert, stepsDefo, ih]
    simp only [Fin.sum_univ_three]
    ring

/-- **C125 (surface velocities).** A point of the surface is given the velocity of the prescribed gradient at its
place in the deformed body: vertices and surface move as one linear map. The eight weights are between zero
and one. -/
theorem C125_surface_velocity (m p : Fin 3 → ℤ) (hm : ∀ a, 0 < m a) (steps : List (T2 ℝ × ℝ)) (L : T2 ℝ)
    (i : Fin 3) :
    surfVel m p (velVert L (vertRun m steps)) i =
        ∑ k, L i k * ∑ j, stepsDefo steps k j * ((p j : ℝ) - 1 / 2) ∧
      ((∀ a, 1 ≤ p a ∧ p a ≤ m a + 1) → ∀ v, 0 ≤ shape m p v) := by
  constructor
  · have h := (shape_spec m p fun a => (hm a).ne').2
    simp only [surfVel, velVert, C125_vertices]
    simp only [← h, Finset.mul_sum, Finset.sum_mul]
    rw [Finset.sum_comm]
    refine Finset.sum_congr rfl fun k _ => ?_
    rw [Finset.sum_comm]
    refine Finset.sum_congr rfl fun j _ => Finset.sum_congr rfl fun v _ => ?_
    ring
  · intro hb v
    have hl : ∀ a, -1 ≤ localCoord (m a) (p a) ∧ localCoord (m a) (p a) ≤ 1 := by
      intro a
      have h0 : (0 : ℝ) < m a := by exact_mod_cast hm a
      have h1 : (1 : ℝ) ≤ p a := by exact_mod_cast (hb a).1
      have h2 : (p a : ℝ) ≤ m a + 1 := by exact_mod_cast (hb a).2
      rw [localCoord]
      push_cast
      norm_num
      constructor
      · have : 0 ≤ 2 * ((p a : ℝ) - 1) / m a := div_nonneg (by linarith) h0.le
        linarith
      · have : 2 * ((p a : ℝ) - 1) / m a ≤ 2 := by rw [div_le_iff₀ h0]; linarith
        linarith
    have e : ∀ a b c : ℝ, 0 ≤ a → 0 ≤ b → 0 ≤ c → 0 ≤ 0.125 * a * b * c := by
      intro a b c ha hb hc
      have : (0 : ℝ) ≤ 0.125 := by norm_num
      positivity
    have l0 := hl 0
    have l1 := hl 1
    have l2 := hl 2
    simp only [shape]
    fin_cases v <;> simp only [Matrix.cons_val, Fin.zero_eta, Fin.mk_one, Fin.reduceFinMk] <;>
      exact e _ _ _ (by norm_num; linarith) (by norm_num; linarith) (by norm_num; linarith)

/-- **C125 (mean removed).** The velocities given to the surface sum to zero, and the differences between any two
points of the surface are those of the prescribed motion. Points off the surface keep what they had. -/
theorem C125_boundary (n d : Fin 3 → ℕ) (vel : Fin 8 → Fin 3 → ℝ) (old : GridPt n → Fin 3 → ℝ) (i : Fin 3) :
    (∀ x, onSurf d x = false → boundaryVel d vel old x i = old x i) ∧
    (∀ x y, onSurf d x = true → onSurf d y = true → boundaryVel d vel old x i - boundaryVel d vel old y i =
      surfVel (bodySize n d) (bodyIndex d x) vel i - surfVel (bodySize n d) (bodyIndex d y) vel i) ∧
    ((∃ x : GridPt n, onSurf d x = true) → ∑ x, (if onSurf d x then boundaryVel d vel old x i else 0) = 0) := by
  refine ⟨fun x hx => ?_, fun x y hx hy => ?_, fun ⟨z, hz⟩ => ?_⟩
  · simp [boundaryVel, hx]
  · simp only [boundaryVel, hx, hy, if_true]; ring
  · have e : ∀ x : GridPt n, (if onSurf d x then boundaryVel d vel old x i else 0) =
        (if onSurf d x then surfVel (bodySize n d) (bodyIndex d x) vel i else 0) -
          (surfMean d fun y : GridPt n => surfVel (bodySize n d) (bodyIndex d y) vel i) *
            (if onSurf (n := n) d x then (1.0 : ℝ) else 0) := by
      intro x
      by_cases hx : onSurf d x = true
      · simp only [boundaryVel, hx, if_true]; norm_num
      · simp only [hx]; norm_num
    rw [Finset.sum_congr rfl fun x _ => e x, Finset.sum_sub_distrib, ← Finset.mul_sum, surfMean]
    have hpos : (0 : ℝ) < ∑ x, if onSurf (n := n) d x then (1.0 : ℝ) else 0 := by
      refine Finset.sum_pos' (fun x _ => ?_) ⟨z, Finset.mem_univ z, ?_⟩
      · split_ifs <;> norm_num
      · rw [if_pos hz]; norm_num
    rw [div_mul_cancel₀ _ hpos.ne', sub_self]

/-- **C125 (surface in the grid).** The body is the grid without a frame of `d` points on both sides. If its sizes along
the three directions agree, the points given a velocity are exactly those with all coordinates (from 0) between `d` and
`n - d` and at least one of them at an end. -/
theorem C125_surface_points (n d : Fin 3 → ℕ) (s : ℕ) (hs : ∀ a, n a = s + 2 * d a) (x : GridPt n) :
    onSurf d x = true ↔ (∀ a, d a ≤ (x a : ℕ) ∧ (x a : ℕ) ≤ n a - d a) ∧
      ∃ a, (x a : ℕ) = d a ∨ (x a : ℕ) = n a - d a := by
  have hm : ∀ a, bodySize n d a = s := by
    intro a
    have := hs a
    unfold bodySize
    omega
  unfold onSurf
  rw [C125_surface _ _ (by rw [hm]; omega) (by rw [hm, hm]) (by rw [hm, hm])]
  unfold OnFaces
  have e : ∀ a, bodyIndex d x a = ((x a : ℕ) : ℤ) + 1 - (d a : ℤ) := fun _ => rfl
  refine and_congr (forall_congr' fun a => ?_) (exists_congr fun a => ?_)
  · have := hs a
    have := hm a
    have := e a
    omega
  · have := hs a
    have := hm a
    have := e a
    omega

/-- **C125 (motion of the surface).** The velocities given to two points of the surface differ by the prescribed gradient
times the difference of their places in the deformed body. -/
theorem C125_surface_motion (n d : Fin 3 → ℕ) (hd : ∀ a, 2 * d a < n a) (steps : List (T2 ℝ × ℝ)) (L : T2 ℝ)
    (old : GridPt n → Fin 3 → ℝ) (i : Fin 3) (x y : GridPt n) (hx : onSurf d x = true) (hy : onSurf d y = true) :
    let vel := velVert L (vertRun (fun a => (n a : ℤ) - 2 * d a) steps)
    boundaryVel d vel old x i - boundaryVel d vel old y i =
      ∑ k, L i k * ∑ j, stepsDefo steps k j * (((x j : ℕ) : ℝ) - ((y j : ℕ) : ℝ)) := by
  intro vel
  rw [(C125_boundary n d vel old i).2.1 x y hx hy]
  have hm : ∀ a, 0 < bodySize n d a := by
    intro a
    have := hd a
    unfold bodySize
    omega
  have e := fun z : GridPt n => (C125_surface_velocity (bodySize n d) (bodyIndex d z) hm steps L i).1
  have ev : vel = velVert L (vertRun (bodySize n d) steps) := rfl
  rw [ev, e x, e y, ← Finset.sum_sub_distrib]
  refine Finset.sum_congr rfl fun k _ => ?_
  rw [← mul_sub, ← Finset.sum_sub_distrib]
  congr 1
  refine Finset.sum_congr rfl fun j _ => ?_
  have eb : ∀ z : GridPt n, ((bodyIndex d z j : ℤ) : ℝ) = ((z j : ℕ) : ℝ) + 1 - d j := by
    intro z
    simp [bodyIndex]
  rw [eb, eb]
  ring

/-- A body of two voxels in a frame of one: a corner, and an inner point. -/
example : onSurf (n := fun _ => 4) (fun _ => 1) (fun _ => (3 : Fin 4)) = true ∧
    onSurf (n := fun _ => 4) (fun _ => 1) (fun _ => (2 : Fin 4)) = false ∧
    onSurf (n := fun _ => 4) (fun _ => 1) (fun _ => (0 : Fin 4)) = false := by
  have h := fun k : Fin 4 => C125_surface_points (fun _ => 4) (fun _ => 1) 2 (fun _ => rfl) (fun _ => k)
  refine ⟨(h 3).2 ⟨by decide, 0, by decide⟩, Bool.eq_false_iff.2 fun h' => ?_,
    Bool.eq_false_iff.2 fun h' => ?_⟩
  · obtain ⟨-, a, h2⟩ := (h 2).1 h'
    revert h2; revert a; decide
  · have h2 := (((h 0).1 h').1 0).1
    revert h2; decide

/-! ### Weights of the interpolation -/

/-- Distance of two points of a periodic direction with `n` points. -/
def perDist (n i j : ℕ) : ℕ := min ((i + (n - j)) % n) ((j + (n - i)) % n)

/-- Square of the distance of two points of the periodic grid. -/
def perDist2 {n : Fin 3 → ℕ} (x y : GridPt n) : ℕ := ∑ a, perDist (n a) (x a) (y a) ^ 2

theorem wrapDist_even (n k : ℕ) (hk : k < n) (he : n % 2 = 0) :
    |wrapDist n (k + 1)| = min k (n - k) := by
  unfold wrapDist
  split_ifs with h
  · rw [abs_of_nonneg (by push_cast; omega)]; push_cast; omega
  · rw [abs_of_nonpos (by push_cast; omega)]; push_cast; omega

theorem wrapDist_zero (n k : ℕ) (hk : k < n) (h : wrapDist n (k + 1) = 0) : k = 0 := by
  unfold wrapDist at h
  split_ifs at h <;> push_cast at h <;> omega

theorem weight_pos {n : Fin 3 → ℕ} (x : GridPt n) (a : Fin 3) (h : (x a : ℕ) ≠ 0) : 0 < weight x := by
  have h1 : ∀ b, (x b : ℕ) < n b := fun b => (x b).isLt
  have hne : ((wrapDist (n a) ((x a : ℕ) + 1) : ℤ) : ℝ) ≠ 0 := by
    intro h0
    exact h (wrapDist_zero _ _ (h1 a) (by exact_mod_cast h0))
  have hp : 0 < ((wrapDist (n a) ((x a : ℕ) + 1) : ℤ) : ℝ) ^ 2 := by positivity
  have hx : 0 < ((wrapDist (n 0) ((x 0 : ℕ) + 1) : ℤ) : ℝ) ^ 2 +
      ((wrapDist (n 1) ((x 1 : ℕ) + 1) : ℤ) : ℝ) ^ 2 + ((wrapDist (n 2) ((x 2 : ℕ) + 1) : ℤ) : ℝ) ^ 2 := by
    fin_cases a <;> simp only [Fin.zero_eta, Fin.mk_one, Fin.reduceFinMk] at hp <;> positivity
  rw [weight]
  simp only [if_pos hx]
  positivity

theorem weight_nonneg {n : Fin 3 → ℕ} (x : GridPt n) : 0 ≤ weight x := by
  rw [weight]
  split_ifs
  · positivity
  · norm_num

/-- Difference of two points of the periodic grid. -/
def gridSub {n : Fin 3 → ℕ} (hp : ∀ a, 0 < n a) (x y : GridPt n) : GridPt n :=
  fun a => ⟨((x a : ℕ) + (n a - (y a : ℕ))) % n a, Nat.mod_lt _ (hp a)⟩

theorem chi_sub {n : Fin 3 → ℕ} (hp : ∀ a, 0 < n a) (k x y : GridPt n) :
    (Large.unitGrid n).chi k x * (starRingEnd ℂ) ((Large.unitGrid n).chi k y) =
      (Large.unitGrid n).chi k (gridSub hp x y) := by
  rw [EvpGrid.chi_prod, EvpGrid.conj_chi, EvpGrid.chi_prod, ← Finset.prod_mul_distrib]
  refine Finset.prod_congr rfl fun a _ => ?_
  have hn : (n a : ℂ) ≠ 0 := Nat.cast_ne_zero.mpr (hp a).ne'
  have hy : (y a : ℕ) < n a := (y a).isLt
  rw [← Complex.exp_add, Complex.exp_eq_exp_iff_exists_int]
  have hm := Nat.div_add_mod ((x a : ℕ) + (n a - (y a : ℕ))) (n a)
  have hm' : ((((x a : ℕ) + (n a - (y a : ℕ))) % n a : ℕ) : ℂ) = ((x a : ℕ) : ℂ) + ((n a : ℂ) - ((y a : ℕ) : ℂ)) -
      (n a : ℂ) * ((((x a : ℕ) + (n a - (y a : ℕ))) / n a : ℕ) : ℂ) := by
    have : ((n a * (((x a : ℕ) + (n a - (y a : ℕ))) / n a) + ((x a : ℕ) + (n a - (y a : ℕ))) % n a : ℕ) : ℂ) =
        (((x a : ℕ) + (n a - (y a : ℕ)) : ℕ) : ℂ) := by rw [hm]
    rw [Nat.cast_add, Nat.cast_mul, Nat.cast_add, Nat.cast_sub hy.le] at this
    linear_combination this
  refine ⟨((k a : ℕ) : ℤ) * (((((x a : ℕ) + (n a - (y a : ℕ))) / n a : ℕ) : ℤ) - 1), ?_⟩
  have hg : ((gridSub hp x y a : ℕ)) = ((x a : ℕ) + (n a - (y a : ℕ))) % n a := rfl
  rw [hg, hm']
  generalize (((x a : ℕ) + (n a - (y a : ℕ))) / n a : ℕ) = Q
  simp only [Large.unitGrid]
  push_cast
  field_simp
  ring

theorem convolve_eq {n : Fin 3 → ℕ} (hp : ∀ a, 0 < n a) (f : GridPt n → ℝ) (x : GridPt n) :
    convolve f x = ∑ y, f y * weight (gridSub hp x y) := by
  rw [convolve, EvpGrid.backward]
  have e : (1 / ((Large.unitGrid n).size : ℂ)) * ∑ k, ((Large.unitGrid n).forward f k *
      (Large.unitGrid n).forward weight k) * (Large.unitGrid n).chi k x =
      ((∑ y, f y * weight (gridSub hp x y) : ℝ) : ℂ) := by
    have h1 : ∀ k, ((Large.unitGrid n).forward f k * (Large.unitGrid n).forward weight k) *
        (Large.unitGrid n).chi k x =
        ∑ y, (f y : ℂ) * ((Large.unitGrid n).forward weight k * (Large.unitGrid n).chi k (gridSub hp x y)) := by
      intro k
      conv_lhs => rw [show (Large.unitGrid n).forward f k = ∑ y, (f y : ℂ) * (starRingEnd ℂ)
        ((Large.unitGrid n).chi k y) from rfl]
      rw [Finset.sum_mul, Finset.sum_mul]
      refine Finset.sum_congr rfl fun y _ => ?_
      rw [← chi_sub hp]
      ring
    rw [Finset.sum_congr rfl fun k _ => h1 k, Finset.sum_comm, Finset.mul_sum]
    push_cast
    refine Finset.sum_congr rfl fun y _ => ?_
    rw [← Finset.mul_sum, ← (Large.unitGrid n).inversion hp weight (gridSub hp x y)]
    ring
  rw [e, Complex.ofReal_re]

theorem weight_dist {n : Fin 3 → ℕ} (hp : ∀ a, 0 < n a) (he : ∀ a, Even (n a)) (x y : GridPt n) :
    weight (gridSub hp x y) = if x = y then 0 else 1 / ((perDist2 x y : ℕ) : ℝ) ^ 2 := by
  have hd : ∀ a, ((wrapDist (n a) ((gridSub hp x y a : ℕ) + 1) : ℤ) : ℝ) ^ 2 =
      ((perDist (n a) (x a) (y a) : ℕ) : ℝ) ^ 2 := by
    intro a
    have hx : (x a : ℕ) < n a := (x a).isLt
    have hy : (y a : ℕ) < n a := (y a).isLt
    have hg : ((gridSub hp x y a : ℕ)) = ((x a : ℕ) + (n a - (y a : ℕ))) % n a := rfl
    have h1 := wrapDist_even (n a) (gridSub hp x y a) (by rw [hg]; exact Nat.mod_lt _ (hp a))
      (Nat.even_iff.mp (he a))
    have h2 : (min ((gridSub hp x y a : ℕ)) (n a - (gridSub hp x y a : ℕ))) = perDist (n a) (x a) (y a) := by
      rw [hg, perDist]
      rcases lt_trichotomy (x a : ℕ) (y a : ℕ) with h | h | h
      · rw [Nat.mod_eq_of_lt (by omega), Nat.add_comm (y a : ℕ), show n a - (x a : ℕ) + (y a : ℕ) =
          ((y a : ℕ) - (x a : ℕ)) + n a by omega, Nat.add_mod_right, Nat.mod_eq_of_lt (by omega)]
        omega
      · rw [h, show (y a : ℕ) + (n a - (y a : ℕ)) = n a by omega, Nat.mod_self]; simp
      · rw [Nat.mod_eq_of_lt (a := (y a : ℕ) + (n a - (x a : ℕ))) (by omega), show (x a : ℕ) + (n a - (y a : ℕ)) =
          ((x a : ℕ) - (y a : ℕ)) + n a by omega, Nat.add_mod_right, Nat.mod_eq_of_lt (by omega)]
        omega
    rw [← sq_abs, ← Int.cast_abs, h1, ← h2]
    have hlt : ((gridSub hp x y a : ℕ)) < n a := (gridSub hp x y a).isLt
    congr 1
  by_cases hxy : x = y
  · rw [if_pos hxy]
    have h0 : ∀ a, ((wrapDist (n a) ((gridSub hp x y a : ℕ) + 1) : ℤ) : ℝ) ^ 2 = 0 := by
      intro a
      rw [hd a, hxy, perDist]
      have hy : (y a : ℕ) < n a := (y a).isLt
      rw [show (y a : ℕ) + (n a - (y a : ℕ)) = n a by omega, Nat.mod_self]
      simp
    rw [weight]
    simp only [h0]
    norm_num
  · rw [if_neg hxy]
    obtain ⟨a, ha⟩ := Function.ne_iff.mp hxy
    have hx : (x a : ℕ) < n a := (x a).isLt
    have hy : (y a : ℕ) < n a := (y a).isLt
    have ha' : (x a : ℕ) ≠ (y a : ℕ) := fun h => ha (Fin.ext h)
    have hg : ((gridSub hp x y a : ℕ)) ≠ 0 := by
      show ((x a : ℕ) + (n a - (y a : ℕ))) % n a ≠ 0
      rcases Nat.lt_or_gt_of_ne ha' with h | h
      · rw [Nat.mod_eq_of_lt (by omega)]; omega
      · rw [show (x a : ℕ) + (n a - (y a : ℕ)) = ((x a : ℕ) - (y a : ℕ)) + n a by omega, Nat.add_mod_right,
          Nat.mod_eq_of_lt (by omega)]
        omega
    have hw := weight_pos (gridSub hp x y) a hg
    rw [weight] at hw ⊢
    simp only [hd] at hw ⊢
    have e : ((perDist (n 0) (x 0) (y 0) : ℕ) : ℝ) ^ 2 + ((perDist (n 1) (x 1) (y 1) : ℕ) : ℝ) ^ 2 +
        ((perDist (n 2) (x 2) (y 2) : ℕ) : ℝ) ^ 2 = ((perDist2 x y : ℕ) : ℝ) := by
      rw [perDist2, Fin.sum_univ_three]; push_cast; rfl
    rw [e] at hw ⊢
    by_cases hgt : ((perDist2 x y : ℕ) : ℝ) > 0
    · rw [if_pos hgt]; norm_num
    · rw [if_neg hgt] at hw; norm_num at hw

/-- **C125 (weights).** On a grid with even numbers of points the weight of one point for another is the inverse
fourth power of their distance in the periodic grid, and zero for the point itself: the sum the transforms
compute is that sum. -/
theorem C125_weights (n : Fin 3 → ℕ) (hp : ∀ a, 0 < n a) (he : ∀ a, Even (n a)) (f : GridPt n → ℝ)
    (x : GridPt n) :
    convolve f x = ∑ y, f y * if x = y then 0 else 1 / ((perDist2 x y : ℕ) : ℝ) ^ 2 := by
  rw [convolve_eq hp]
  exact Finset.sum_congr rfl fun y _ => by rw [weight_dist hp he]

/-- **C125 (weights of odd grids).** With an odd number of points along a direction the last point of the first
half gets a distance one voxel too large, the point at the same distance on the other side does not: equally
distant points get different weights. With a single point along a direction the distance of a point to itself
is one voxel. -/
theorem C125_weights_fails (h : ℕ) :
    |wrapDist (2 * h + 1) (h + 1)| = h + 1 ∧ perDist (2 * h + 1) h 0 = h ∧
    (0 < h → |wrapDist (2 * h + 1) (h + 1 + 1)| = h ∧ perDist (2 * h + 1) (h + 1) 0 = h) := by
  refine ⟨?_, ?_, fun h0 => ⟨?_, ?_⟩⟩
  · unfold wrapDist
    rw [if_neg (by omega), abs_of_nonpos (by push_cast; omega)]
    push_cast; ring
  · unfold perDist
    rw [Nat.sub_zero, Nat.add_mod_right, Nat.mod_eq_of_lt (by omega), Nat.zero_add]
    rcases Nat.eq_zero_or_pos h with h0 | h0
    · subst h0; rfl
    · rw [Nat.mod_eq_of_lt (by omega)]; omega
  · unfold wrapDist
    rw [if_neg (by omega), abs_of_nonpos (by push_cast; omega)]
    push_cast; ring
  · unfold perDist
    rw [Nat.sub_zero, Nat.add_mod_right, Nat.mod_eq_of_lt (by omega), Nat.zero_add,
      Nat.mod_eq_of_lt (by omega)]
    omega

/-! ### Interpolation to the other points -/

theorem gridSub_ne {n : Fin 3 → ℕ} (hp : ∀ a, 0 < n a) (x y : GridPt n) (h : x ≠ y) :
    ∃ a, ((gridSub hp x y a : ℕ)) ≠ 0 := by
  obtain ⟨a, ha⟩ := Function.ne_iff.mp h
  have hx : (x a : ℕ) < n a := (x a).isLt
  have hy : (y a : ℕ) < n a := (y a).isLt
  have ha' : (x a : ℕ) ≠ (y a : ℕ) := fun h => ha (Fin.ext h)
  refine ⟨a, ?_⟩
  show ((x a : ℕ) + (n a - (y a : ℕ))) % n a ≠ 0
  rcases Nat.lt_or_gt_of_ne ha' with h | h
  · rw [Nat.mod_eq_of_lt (by omega)]; omega
  · rw [show (x a : ℕ) + (n a - (y a : ℕ)) = ((x a : ℕ) - (y a : ℕ)) + n a by omega, Nat.add_mod_right,
      Nat.mod_eq_of_lt (by omega)]
    omega

/-- A point whose velocity is not interpolated: on the surface of the body, or on one of the three walls of the
grid. -/
def Held {n : Fin 3 → ℕ} (d : Fin 3 → ℕ) (x : GridPt n) : Prop := onSurf d x = true ∨ ∃ a, (x a : ℕ) = 0

theorem indf_iff {n : Fin 3 → ℕ} (d : Fin 3 → ℕ) (x : GridPt n) : indf d x = true ↔ Held d x := by
  unfold indf Held
  by_cases h : onSurf d x = true
  · simp [h]
  · simp only [h]
    simp only [Bool.false_eq_true, if_false, false_or]
    rw [Fin.exists_fin_succ]
    simp [Fin.exists_fin_two, or_assoc]

theorem interp_den {n : Fin 3 → ℕ} (hp : ∀ a, 0 < n a) (d : Fin 3 → ℕ) (x : GridPt n) (hx : ¬ Held d x) :
    0 < ∑ y : GridPt n, (if indf d y then (1.0 : ℝ) else 0.0) * weight (gridSub hp x y) := by
  refine Finset.sum_pos' (fun y _ => ?_) ⟨Lsnp.origin hp, Finset.mem_univ _, ?_⟩
  · refine mul_nonneg ?_ (weight_nonneg _)
    split_ifs <;> norm_num
  · have h0 : Held d (Lsnp.origin hp) := Or.inr ⟨0, rfl⟩
    rw [if_pos ((indf_iff d _).2 h0)]
    obtain ⟨a, ha⟩ := gridSub_ne hp x (Lsnp.origin hp) (fun h => hx (h ▸ h0))
    have := weight_pos _ a ha
    norm_num
    exact this

open Classical in
/-- **C125 (interpolation).** Every point is given a velocity, no division by zero happens. Held points keep
theirs. On a grid with even sizes the velocity of any other point is the average of those of the held points,
weighted by the inverse fourth power of the distance. -/
theorem C125_interpolation (n : Fin 3 → ℕ) (hp : ∀ a, 0 < n a) (he : ∀ a, Even (n a)) (d : Fin 3 → ℕ)
    (v : GridPt n → Fin 3 → ℝ) (x : GridPt n) (i : Fin 3) :
    (Held d x → interpolate d v x i = some (v x i)) ∧
    (¬ Held d x →
      0 < ∑ y, (if Held d y then 1 / ((perDist2 x y : ℕ) : ℝ) ^ 2 else 0) ∧
      interpolate d v x i = some ((∑ y, if Held d y then v y i * (1 / ((perDist2 x y : ℕ) : ℝ) ^ 2) else 0) /
        ∑ y, if Held d y then 1 / ((perDist2 x y : ℕ) : ℝ) ^ 2 else 0)) := by
  refine ⟨fun h => ?_, fun h => ?_⟩
  · rw [interpolate, if_pos ((indf_iff d x).2 h)]
  · have hi : ¬ indf d x = true := fun hh => h ((indf_iff d x).1 hh)
    have e1 : (∑ y : GridPt n, (if indf d y then (1.0 : ℝ) else 0.0) * weight (gridSub hp x y)) =
        ∑ y, if Held d y then 1 / ((perDist2 x y : ℕ) : ℝ) ^ 2 else 0 := by
      refine Finset.sum_congr rfl fun y _ => ?_
      rw [weight_dist hp he]
      by_cases hy : Held d y
      · rw [if_pos ((indf_iff d y).2 hy), if_pos hy, if_neg (fun hxy : x = y => h (hxy ▸ hy))]; norm_num
      · rw [if_neg (fun hh => hy ((indf_iff d y).1 hh)), if_neg hy]; norm_num
    have e2 : (∑ y : GridPt n, (v y i * if indf d y then (1.0 : ℝ) else 0.0) * weight (gridSub hp x y)) =
        ∑ y, if Held d y then v y i * (1 / ((perDist2 x y : ℕ) : ℝ) ^ 2) else 0 := by
      refine Finset.sum_congr rfl fun y _ => ?_
      rw [weight_dist hp he]
      by_cases hy : Held d y
      · rw [if_pos ((indf_iff d y).2 hy), if_pos hy, if_neg (fun hxy : x = y => h (hxy ▸ hy))]; norm_num
      · rw [if_neg (fun hh => hy ((indf_iff d y).1 hh)), if_neg hy]; norm_num
    have hpos := interp_den hp d x h
    rw [e1] at hpos
    refine ⟨hpos, ?_⟩
    rw [interpolate, if_neg hi]
    simp only [convolve_eq hp]
    rw [e1, e2, if_neg hpos.ne']
    norm_num [div_eq_mul_inv]

/-- **C125 (bounds of the interpolation).** On every grid, odd sizes included, an interpolated velocity stays
between the smallest and the largest of the held points; in particular a constant is reproduced. -/
theorem C125_interpolation_bounds (n : Fin 3 → ℕ) (hp : ∀ a, 0 < n a) (d : Fin 3 → ℕ)
    (v : GridPt n → Fin 3 → ℝ) (i : Fin 3) (lo hi : ℝ) (hv : ∀ y, Held d y → lo ≤ v y i ∧ v y i ≤ hi)
    (x : GridPt n) : ∃ r, interpolate d v x i = some r ∧ lo ≤ r ∧ r ≤ hi := by
  by_cases h : Held d x
  · exact ⟨v x i, by rw [interpolate, if_pos ((indf_iff d x).2 h)], hv x h⟩
  · have hi' : ¬ indf d x = true := fun hh => h ((indf_iff d x).1 hh)
    have hpos := interp_den hp d x h
    refine ⟨(∑ y : GridPt n, (v y i * if indf d y then (1.0 : ℝ) else 0.0) * weight (gridSub hp x y)) * (1.0 /
      ∑ y : GridPt n, (if indf d y then (1.0 : ℝ) else 0.0) * weight (gridSub hp x y)), ?_, ?_⟩
    · rw [interpolate, if_neg hi']
      simp only [convolve_eq hp]
      rw [if_neg hpos.ne']
    · have key : ∀ y : GridPt n, lo * ((if indf d y then (1.0 : ℝ) else 0.0) * weight (gridSub hp x y)) ≤
          (v y i * if indf d y then (1.0 : ℝ) else 0.0) * weight (gridSub hp x y) ∧
          (v y i * if indf d y then (1.0 : ℝ) else 0.0) * weight (gridSub hp x y) ≤
          hi * ((if indf d y then (1.0 : ℝ) else 0.0) * weight (gridSub hp x y)) := by
        intro y
        have hw := weight_nonneg (gridSub hp x y)
        by_cases hy : Held d y
        · rw [if_pos ((indf_iff d y).2 hy)]
          have := hv y hy
          constructor <;> norm_num <;> nlinarith
        · rw [if_neg (fun hh => hy ((indf_iff d y).1 hh))]; norm_num
      have h1 := Finset.sum_le_sum fun y (_ : y ∈ Finset.univ) => (key y).1
      have h2 := Finset.sum_le_sum fun y (_ : y ∈ Finset.univ) => (key y).2
      rw [← Finset.mul_sum] at h1 h2
      rw [show (1.0 : ℝ) = 1 by norm_num, mul_one_div] at *
      rw [le_div_iff₀ hpos, div_le_iff₀ hpos]
      exact ⟨h1, h2⟩

/-- **C125 (walls).** The points of the three walls of the grid off the surface are never given a velocity: they
keep the one of the start through any number of steps, and pull the points between body and wall towards it. -/
theorem C125_walls (n d : Fin 3 → ℕ) (vel : Fin 8 → Fin 3 → ℝ) (old : GridPt n → Fin 3 → ℝ) (x : GridPt n)
    (a : Fin 3) (ha : (x a : ℕ) = 0) (hx : onSurf d x = false) (i : Fin 3) :
    interpolate d (boundaryVel d vel old) x i = some (old x i) := by
  rw [interpolate, if_pos ((indf_iff d x).2 (Or.inr ⟨a, ha⟩))]
  simp [boundaryVel, hx]

/-! ### Error of the boundary condition -/

theorem len3_eq_zero (w : Fin 3 → ℝ) : len3 w = 0 ↔ ∀ i, w i = 0 := by
  rw [len3, Real.sqrt_eq_zero (by positivity)]
  constructor
  · intro h i
    have h0 := sq_nonneg (w 0)
    have h1 := sq_nonneg (w 1)
    have h2 := sq_nonneg (w 2)
    fin_cases i
    · exact (pow_eq_zero_iff two_ne_zero).1 (show w 0 ^ 2 = 0 by linarith)
    · exact (pow_eq_zero_iff two_ne_zero).1 (show w 1 ^ 2 = 0 by linarith)
    · exact (pow_eq_zero_iff two_ne_zero).1 (show w 2 ^ 2 = 0 by linarith)
  · intro h; simp [h]

theorem len3_nonneg (w : Fin 3 → ℝ) : 0 ≤ len3 w := Real.sqrt_nonneg _

theorem surfCount_pos {n d : Fin 3 → ℕ} (h : ∃ x : GridPt n, onSurf d x = true) :
    (0 : ℝ) < ∑ x, if onSurf (n := n) d x then (1.0 : ℝ) else 0 := by
  obtain ⟨z, hz⟩ := h
  refine Finset.sum_pos' (fun x _ => ?_) ⟨z, Finset.mem_univ z, ?_⟩
  · split_ifs <;> norm_num
  · rw [if_pos hz]; norm_num

theorem surfMean_sub {n d : Fin 3 → ℕ} (f g : GridPt n → ℝ) :
    surfMean d (fun x => f x - g x) = surfMean d f - surfMean d g := by
  simp only [surfMean, ← sub_div, ← Finset.sum_sub_distrib]
  congr 1
  refine Finset.sum_congr rfl fun x _ => ?_
  split_ifs <;> simp

theorem surfMean_of {n d : Fin 3 → ℕ} (h : ∃ x : GridPt n, onSurf d x = true) (f : GridPt n → ℝ) (c : ℝ)
    (hf : ∀ x, onSurf d x = true → f x = c) : surfMean d f = c := by
  have hp := surfCount_pos h
  rw [surfMean, div_eq_iff hp.ne', Finset.mul_sum]
  refine Finset.sum_congr rfl fun x _ => ?_
  split_ifs with hx
  · rw [hf x hx]; norm_num
  · simp

theorem surfSum_zero {n d : Fin 3 → ℕ} (w : GridPt n → Fin 3 → ℝ) :
    (∑ x, if onSurf d x then len3 (w x) else 0) = 0 ↔ ∀ x, onSurf d x = true → ∀ i, w x i = 0 := by
  rw [Finset.sum_eq_zero_iff_of_nonneg]
  · constructor
    · intro h x hx
      have := h x (Finset.mem_univ x)
      rw [if_pos hx] at this
      exact (len3_eq_zero _).1 this
    · intro h x _
      split_ifs with hx
      · exact (len3_eq_zero _).2 (h x hx)
      · rfl
  · intro x _
    split_ifs
    · exact len3_nonneg _
    · exact le_rfl

/-- **C125 (error).** Where the prescribed velocities are not uniform over the surface, the error is a number, not
negative, and zero exactly when the velocities of the surface are those prescribed up to a common
translation. -/
theorem C125_error (n d : Fin 3 → ℕ) (vel app : GridPt n → Fin 3 → ℝ) (y z : GridPt n)
    (hy : onSurf d y = true) (hz : onSurf d z = true) (hne : app y ≠ app z) :
    ∃ e, bcError d vel app = some e ∧ 0 ≤ e ∧
      (e = 0 ↔ ∃ c : Fin 3 → ℝ, ∀ x, onSurf d x = true → ∀ i, vel x i = app x i + c i) := by
  have hex : ∃ x : GridPt n, onSurf d x = true := ⟨y, hy⟩
  have hp := surfCount_pos hex
  have hnn : ∀ w : GridPt n → Fin 3 → ℝ, 0 ≤ ∑ x, if onSurf d x then len3 (w x) else 0 := by
    intro w
    refine Finset.sum_nonneg fun x _ => ?_
    split_ifs
    · exact len3_nonneg _
    · exact le_rfl
  have hv : (∑ x, if onSurf d x then len3 (fun i => app x i - surfMean d fun x : GridPt n => app x i) else 0) ≠ 0 := by
    intro h
    have h' := (surfSum_zero _).1 h
    refine hne (funext fun i => ?_)
    have h1 := h' y hy i
    have h2 := h' z hz i
    linarith
  have hv' : (∑ x, if onSurf d x then len3 (fun i => app x i - surfMean d fun x : GridPt n => app x i) else 0) /
      (∑ x, if onSurf (n := n) d x then (1.0 : ℝ) else 0) ≠ 0 := div_ne_zero hv hp.ne'
  refine ⟨((∑ x, if onSurf d x then len3 (fun i => (app x i - surfMean d fun x : GridPt n => app x i) -
      (vel x i - surfMean d fun x : GridPt n => vel x i)) else 0) /
        (∑ x, if onSurf (n := n) d x then (1.0 : ℝ) else 0)) /
    ((∑ x, if onSurf d x then len3 (fun i => app x i - surfMean d fun x : GridPt n => app x i) else 0) /
      (∑ x, if onSurf (n := n) d x then (1.0 : ℝ) else 0)), ?_, ?_, ?_⟩
  · rw [bcError]
    simp only
    rw [if_neg hp.ne', if_neg hv']
  · exact div_nonneg (div_nonneg (hnn _) hp.le) (div_nonneg (hnn _) hp.le)
  · rw [div_eq_zero_iff, or_iff_left hv', div_eq_zero_iff, or_iff_left hp.ne', surfSum_zero]
    constructor
    · intro h
      refine ⟨fun i => (surfMean d fun x : GridPt n => vel x i) - surfMean d fun x : GridPt n => app x i,
        fun x hx i => ?_⟩
      have := h x hx i
      linarith
    · rintro ⟨c, hc⟩ x hx i
      have : (surfMean d fun x : GridPt n => vel x i) - (surfMean d fun x : GridPt n => app x i) = c i := by
        rw [← surfMean_sub]
        exact surfMean_of hex _ _ fun x hx => by rw [hc x hx i]; ring
      have h2 := hc x hx i
      linarith

/-- **C125 (error of a rigid translation).** When the prescribed velocities are the same all over the surface, as
with a zero velocity gradient, the error is a division by zero. -/
theorem C125_error_fails (n d : Fin 3 → ℕ) (vel app : GridPt n → Fin 3 → ℝ) (c : Fin 3 → ℝ)
    (h : ∀ x, onSurf d x = true → app x = c) : bcError d vel app = none := by
  rw [bcError]
  simp only
  split_ifs with h1 h2 <;> try rfl
  exfalso
  apply h2
  have hex : ∃ x : GridPt n, onSurf d x = true := by
    by_contra hno
    push Not at hno
    exact h1 (Finset.sum_eq_zero fun x _ => by simp [hno x])
  rw [div_eq_zero_iff]
  left
  rw [surfSum_zero]
  intro x hx i
  rw [surfMean_of hex (fun x : GridPt n => app x i) (c i) fun x hx => by rw [h x hx], h x hx, sub_self]

theorem len3_smul (c : ℝ) (w : Fin 3 → ℝ) : len3 (fun i => c * w i) = |c| * len3 w := by
  rw [len3, len3, show (c * w 0) ^ 2 + (c * w 1) ^ 2 + (c * w 2) ^ 2 = c ^ 2 * (w 0 ^ 2 + w 1 ^ 2 + w 2 ^ 2) by ring,
    Real.sqrt_mul (sq_nonneg c), Real.sqrt_sq_eq_abs]

theorem surfMean_smul {n d : Fin 3 → ℕ} (c : ℝ) (f : GridPt n → ℝ) :
    surfMean d (fun x => c * f x) = c * surfMean d f := by
  simp only [surfMean, mul_div_assoc', Finset.mul_sum]
  congr 1
  refine Finset.sum_congr rfl fun x _ => ?_
  split_ifs <;> simp

/-- **C125 (error is relative).** The error does not depend on the unit of velocity nor on the direction of the
motion: multiplying all velocities by a number other than zero leaves it as it is. -/
theorem C125_error_relative (n d : Fin 3 → ℕ) (vel app : GridPt n → Fin 3 → ℝ) (c : ℝ) (hc : c ≠ 0) :
    bcError d (fun x i => c * vel x i) (fun x i => c * app x i) = bcError d vel app := by
  have hc' : |c| ≠ 0 := abs_ne_zero.mpr hc
  have e : ∀ w : GridPt n → Fin 3 → ℝ, (∑ x, if onSurf d x then len3 (fun i => c * w x i) else 0) =
      |c| * ∑ x, if onSurf d x then len3 (w x) else 0 := by
    intro w
    rw [Finset.mul_sum]
    refine Finset.sum_congr rfl fun x _ => ?_
    split_ifs
    · exact len3_smul c (w x)
    · simp
  have e1 := e fun x i => app x i - surfMean d fun x : GridPt n => app x i
  have e2 := e fun x i => (app x i - surfMean d fun x : GridPt n => app x i) -
    (vel x i - surfMean d fun x : GridPt n => vel x i)
  rw [bcError, bcError]
  simp only [surfMean_smul, ← mul_sub] at e1 e2 ⊢
  rw [e1, e2]
  simp only [mul_div_assoc, mul_eq_zero, hc', false_or]
  rw [← mul_div_assoc, mul_div_mul_left _ _ hc']

/-! ### The frame around the body -/

theorem frameMatrix_eq (C df : Dense 6 ℝ) (h : InverseOf C df) (a fc : ℝ) (i j : Fin 6) :
    frameMatrix (fun i j => a * C i j) (frameCompliance df fc) i j = if i = j then 1 + a / fc else 0 := by
  have e : ∑ k, a * C i k * (df k j / fc) = a / fc * ∑ k, C i k * df k j := by
    rw [Finset.mul_sum]
    exact Finset.sum_congr rfl fun k _ => by ring
  rw [frameMatrix]
  simp only [frameCompliance]
  rw [e, (h i j).2]
  split_ifs <;> norm_num
  ring

theorem frameInverse (C df : Dense 6 ℝ) (h : InverseOf C df) (a fc : ℝ) (ha : 0 < a) (hf : 0 < fc)
    (x : Fin 6 → ℝ) (i : Fin 6) :
    (1 + a / fc) * ∑ j, invertView (frameMatrix (fun i j => a * C i j) (frameCompliance df fc)) i j * x j = x i := by
  have hpos : 0 < 1 + a / fc := by positivity
  have hP : PosForm (frameMatrix (fun i j => a * C i j) (frameCompliance df fc)) := by
    intro y hy
    simp only [frameMatrix_eq C df h]
    have e : ∀ i, ∑ j, y i * (if i = j then 1 + a / fc else 0) * y j = (1 + a / fc) * y i ^ 2 := by
      intro i
      simp only [mul_ite, mul_zero, ite_mul, zero_mul, Finset.sum_ite_eq, Finset.mem_univ, if_true]
      ring
    rw [Finset.sum_congr rfl fun i _ => e i, ← Finset.mul_sum]
    obtain ⟨k, hk⟩ := Function.ne_iff.mp hy
    refine mul_pos hpos (Finset.sum_pos' (fun i _ => sq_nonneg _) ⟨k, Finset.mem_univ k, ?_⟩)
    have : y k ≠ 0 := hk
    positivity
  have hi := apply_inverse (invertView_inverse _ hP).1 x i
  have e : ∀ k, ∑ j, frameMatrix (fun i j => a * C i j) (frameCompliance df fc) k j * x j = (1 + a / fc) * x k := by
    intro k
    simp only [frameMatrix_eq C df h, ite_mul, zero_mul, Finset.sum_ite_eq, Finset.mem_univ, if_true]
  rw [Finset.sum_congr rfl fun k _ => by rw [e k]] at hi
  rw [← hi, Finset.mul_sum]
  exact Finset.sum_congr rfl fun j _ => by ring

theorem frame_components (q : BasisConst ℝ) (hq : q.Exact) (C df : Dense 6 ℝ) (h : InverseOf C df) (a fc : ℝ)
    (ha : 0 < a) (hf : 0 < fc) (velref eig sgOld sg : T2 ℝ) (n : Fin 6) :
    (fc + a) * chgBasis2 q le_rfl (frameStress q (fun i j => a * C i j) (frameCompliance df fc) velref eig sgOld sg) n =
      fc * chgBasis2 q (le_refl 6) sg n + a * (chgBasis2 q (le_refl 6) sgOld n +
        fc * ∑ m, C n m * chgBasis2 q (le_refl 6) (fun k l => velref k l - eig k l) m) := by
  have e1 : frameStress q (fun i j => a * C i j) (frameCompliance df fc) velref eig sgOld sg =
      act4 (chgBasis3 q le_rfl (invertView (frameMatrix (fun i j => a * C i j) (frameCompliance df fc))))
        (fun i j => sg i j + act4 (chgBasis3 q le_rfl fun i j => a * C i j) (fun k l => (velref k l - eig k l) +
          act4 (chgBasis3 q le_rfl (frameCompliance df fc)) sgOld k l) i j) := by
    unfold frameStress
    simp only
    funext i j
    simp only [act4]
    refine Finset.sum_congr rfl fun k _ => Finset.sum_congr rfl fun l _ => ?_
    congr 2
    refine Finset.sum_congr rfl fun k' _ => Finset.sum_congr rfl fun l' _ => ?_
    rw [frameOld]; ring
  have add : ∀ S T : T2 ℝ, ∀ n, chgBasis2 q (le_refl 6) (fun k l => S k l + T k l) n =
      chgBasis2 q (le_refl 6) S n + chgBasis2 q (le_refl 6) T n := by
    intro S T n
    simp only [chgBasis2, Fin.sum_univ_three]; ring
  rw [e1, act4_components, C66_vector_roundtrip q hq]
  have hinv := frameInverse C df h a fc ha hf (chgBasis2 q (le_refl 6) (fun i j => sg i j +
    act4 (chgBasis3 q le_rfl fun i j => a * C i j) (fun k l => (velref k l - eig k l) +
          act4 (chgBasis3 q le_rfl (frameCompliance df fc)) sgOld k l) i j)) n
  have e2 : (fc + a) = fc * (1 + a / fc) := by field_simp
  rw [e2, mul_assoc, hinv, add, act4_components, C66_vector_roundtrip q hq]
  have e3 : ∀ m, chgBasis2 q (le_refl 6) (fun k l => (velref k l - eig k l) +
      act4 (chgBasis3 q le_rfl (frameCompliance df fc)) sgOld k l) m =
      chgBasis2 q (le_refl 6) (fun k l => velref k l - eig k l) m +
        ∑ r, df m r / fc * chgBasis2 q (le_refl 6) sgOld r := by
    intro m
    rw [add, act4_components, C66_vector_roundtrip q hq]; rfl
  simp only [e3]
  have e4 : ∑ m, C n m * ∑ r, df m r * chgBasis2 q (le_refl 6) sgOld r = chgBasis2 q (le_refl 6) sgOld n :=
    apply_inverse (inverseOf_symm h) _ n
  have e5 : ∑ m, a * C n m * (chgBasis2 q (le_refl 6) (fun k l => velref k l - eig k l) m +
      ∑ r, df m r / fc * chgBasis2 q (le_refl 6) sgOld r) =
      a * (∑ m, C n m * chgBasis2 q (le_refl 6) (fun k l => velref k l - eig k l) m) +
      a / fc * ∑ m, C n m * ∑ r, df m r * chgBasis2 q (le_refl 6) sgOld r := by
    rw [Finset.mul_sum, Finset.mul_sum, ← Finset.sum_add_distrib]
    refine Finset.sum_congr rfl fun m _ => ?_
    rw [show (∑ r, df m r / fc * chgBasis2 q (le_refl 6) sgOld r) =
      (∑ r, df m r * chgBasis2 q (le_refl 6) sgOld r) / fc by
        rw [Finset.sum_div]; exact Finset.sum_congr rfl fun r _ => by ring]
    ring
  rw [e5, e4]
  field_simp
  ring

/-- Stress of a linear elastic frame: the stress at the start of the step plus `fc` times the stiffness `C` applied
to the velocity gradient in excess of the prescribed one. -/
noncomputable def frameTarget (q : BasisConst ℝ) (C : Dense 6 ℝ) (fc : ℝ) (velref eig sgOld : T2 ℝ) : T2 ℝ :=
  fun i j => sgOld i j + fc * ∑ k, ∑ l, chgBasis3 q le_rfl C i j k l * (velref k l - eig k l)

/-- **C125 (frame).** Let the reference stiffness be a positive multiple `a` of the matrix whose inverse the code
keeps, as it always is, and the frame be `fc` times that matrix. Each iteration brings the stress of a frame point
closer to that of a linear elastic frame by the factor `fc / (fc + a)`: with a fixed velocity gradient `k`
iterations leave the fraction `(fc / (fc + a))^k` of the difference. -/
theorem C125_frame (q : BasisConst ℝ) (hq : q.Exact) (C df : Dense 6 ℝ) (h : InverseOf C df) (a fc : ℝ)
    (ha : 0 < a) (hf : 0 < fc) (velref eig sgOld sg : T2 ℝ) (hs : sg.Sym) (ho : sgOld.Sym) (k : ℕ) (i j : Fin 3) :
    ((frameStress q (fun i j => a * C i j) (frameCompliance df fc) velref eig sgOld)^[k] sg) i j -
        frameTarget q C fc velref eig sgOld i j =
      (fc / (fc + a)) ^ k * (sg i j - frameTarget q C fc velref eig sgOld i j) := by
  have hT : T2.Sym (frameTarget q C fc velref eig sgOld) := by
    intro i j
    have := C66_symmetric q (le_refl 6) (fun n => ∑ m, C n m * chgBasis2 q (le_refl 6) (fun k l => velref k l - eig k l) m) i j
    rw [← act4_components] at this
    simp only [act4] at this
    rw [frameTarget, frameTarget, ho i j, this]
  have t6 : ∀ n, chgBasis2 q (le_refl 6) (frameTarget q C fc velref eig sgOld) n = chgBasis2 q (le_refl 6) sgOld n +
      fc * ∑ m, C n m * chgBasis2 q (le_refl 6) (fun k l => velref k l - eig k l) m := by
    intro n
    have e : chgBasis2 q (le_refl 6) (act4 (chgBasis3 q le_rfl C) fun k l => velref k l - eig k l) n =
        ∑ m, C n m * chgBasis2 q (le_refl 6) (fun k l => velref k l - eig k l) m := by
      rw [act4_components, C66_vector_roundtrip q hq]
    rw [← e]
    unfold frameTarget
    generalize hg : (act4 (chgBasis3 q le_rfl C) fun k l => velref k l - eig k l) = G
    have hg' : ∀ i j, ∑ k, ∑ l, chgBasis3 q le_rfl C i j k l * (velref k l - eig k l) = G i j := by
      intro i j; rw [← hg]; rfl
    simp only [hg']
    simp only [chgBasis2, Finset.mul_sum, ← Finset.sum_add_distrib]
    refine Finset.sum_congr rfl fun i _ => Finset.sum_congr rfl fun j _ => ?_
    ring
  have hfa : fc + a ≠ 0 := by positivity
  have step : ∀ s : T2 ℝ, s.Sym → T2.Sym (frameStress q (fun i j => a * C i j) (frameCompliance df fc) velref eig sgOld s) ∧
      ∀ i j, frameStress q (fun i j => a * C i j) (frameCompliance df fc) velref eig sgOld s i j -
        frameTarget q C fc velref eig sgOld i j = fc / (fc + a) * (s i j - frameTarget q C fc velref eig sgOld i j) := by
    intro s hsym
    have hS : T2.Sym (frameStress q (fun i j => a * C i j) (frameCompliance df fc) velref eig sgOld s) := by
      unfold frameStress
      have := act4_components q (invertView (frameMatrix (fun i j => a * C i j) (frameCompliance df fc)))
        (fun i j => s i j + ∑ k, ∑ l, chgBasis3 q le_rfl (fun i j => a * C i j) i j k l * (velref k l -
          (eig k l - frameOld q (frameCompliance df fc) sgOld k l)))
      have hs := C66_symmetric q (le_refl 6) (fun n => ∑ m, invertView (frameMatrix (fun i j => a * C i j)
        (frameCompliance df fc)) n m * chgBasis2 q (le_refl 6) (fun i j => s i j + ∑ k, ∑ l,
          chgBasis3 q le_rfl (fun i j => a * C i j) i j k l * (velref k l -
          (eig k l - frameOld q (frameCompliance df fc) sgOld k l))) m)
      rw [← this] at hs
      exact hs
    refine ⟨hS, fun i j => ?_⟩
    have hc : ∀ n, chgBasis2 q (le_refl 6) (frameStress q (fun i j => a * C i j) (frameCompliance df fc) velref eig sgOld s) n =
        fc / (fc + a) * chgBasis2 q (le_refl 6) s n +
          a / (fc + a) * chgBasis2 q (le_refl 6) (frameTarget q C fc velref eig sgOld) n := by
      intro n
      have := frame_components q hq C df h a fc ha hf velref eig sgOld s n
      rw [← t6 n] at this
      field_simp
      linear_combination this
    have r1 := congrFun (congrFun (C66_symmetric_roundtrip q hq _ hS) i) j
    have r2 := congrFun (congrFun (C66_symmetric_roundtrip q hq _ hsym) i) j
    have r3 := congrFun (congrFun (C66_symmetric_roundtrip q hq _ hT) i) j
    have r4 : chgBasis1 q (le_refl 6) (chgBasis2 q (le_refl 6) (frameStress q (fun i j => a * C i j) (frameCompliance df fc) velref eig sgOld s)) i j =
        fc / (fc + a) * chgBasis1 q (le_refl 6) (chgBasis2 q (le_refl 6) s) i j +
        a / (fc + a) * chgBasis1 q (le_refl 6) (chgBasis2 q (le_refl 6) (frameTarget q C fc velref eig sgOld)) i j := by
      simp only [chgBasis1_eq]
      rw [Finset.mul_sum, Finset.mul_sum, ← Finset.sum_add_distrib]
      exact Finset.sum_congr rfl fun n _ => by rw [hc n]; ring
    rw [r1, r2, r3] at r4
    rw [r4]
    field_simp
    ring
  have hall : T2.Sym ((frameStress q (fun i j => a * C i j) (frameCompliance df fc) velref eig sgOld)^[k] sg) ∧
      ∀ i j, ((frameStress q (fun i j => a * C i j) (frameCompliance df fc) velref eig sgOld)^[k] sg) i j -
        frameTarget q C fc velref eig sgOld i j =
      (fc / (fc + a)) ^ k * (sg i j - frameTarget q C fc velref eig sgOld i j) := by
    induction k with
    | zero => exact ⟨hs, fun i j => by simp⟩
    | succ k ih =>
      rw [Function.iterate_succ_apply']
      obtain ⟨h1, h2⟩ := step _ ih.1
      refine ⟨h1, fun i j => ?_⟩
      rw [h2, ih.2, pow_succ]; ring
  exact hall.2 i j

/-- **C125 (points of the body).** When the frame is as wide in the second direction as in the third, one line of the
microstructure file is read for every point inside the frame. -/
theorem C125_inside (n d p : Fin 3 → ℕ) (h : d 1 = d 2) :
    insideRead n d p = true ↔ ∀ a, d a ≤ p a ∧ p a + d a < n a := by
  simp only [insideRead, Bool.and_eq_true, decide_eq_true_eq, forall_three]
  omega

/-- **C125 (points of other bodies).** When the frame has another width in the second direction than in the third
the code takes the third for the second: some point of the frame is read as one of the body, or a point of the body
is left out. -/
theorem C125_inside_fails (n d : Fin 3 → ℕ) (h : d 1 ≠ d 2) (hn : ∀ a, 2 * d a < n a) :
    ∃ p : Fin 3 → ℕ, (∀ a, p a < n a) ∧ ¬ (insideRead n d p = true ↔ ∀ a, d a ≤ p a ∧ p a + d a < n a) := by
  have h0 := hn 0
  have h1 := hn 1
  have h2 := hn 2
  have key : ∀ p1 : ℕ, p1 < n 1 → ¬ ((d 1 ≤ p1 ∧ p1 + d 2 < n 1) ↔ (d 1 ≤ p1 ∧ p1 + d 1 < n 1)) →
      ∃ p : Fin 3 → ℕ, (∀ a, p a < n a) ∧ ¬ (insideRead n d p = true ↔ ∀ a, d a ≤ p a ∧ p a + d a < n a) := by
    intro p1 hp hne
    refine ⟨![d 0, p1, d 2], fun a => by fin_cases a <;> simp <;> omega, fun hh => hne ?_⟩
    rw [forall_three] at hh
    simp only [insideRead, Bool.and_eq_true, decide_eq_true_eq] at hh
    have e0 : (![d 0, p1, d 2] : Fin 3 → ℕ) 0 = d 0 := rfl
    have e1 : (![d 0, p1, d 2] : Fin 3 → ℕ) 1 = p1 := rfl
    have e2 : (![d 0, p1, d 2] : Fin 3 → ℕ) 2 = d 2 := rfl
    rw [e0, e1, e2] at hh
    constructor
    · intro hc
      have := hh.1 (by omega)
      omega
    · intro hc
      have := hh.2 (by omega)
      omega
  rcases Nat.lt_or_gt_of_ne h with hlt | hgt
  · exact key (n 1 - d 1 - 1) (by omega) (by omega)
  · exact key (n 1 - d 1) (by omega) (by omega)

/-! ### The outer loop -/

theorem outer_facts {σ : Type} (itmin itmax : ℕ) (tol : ℝ) (body : ℕ → σ → σ × ℝ) (k : ℕ) (s : σ) (err : ℝ) :
    k ≤ (outerLoop itmin itmax tol body k s err).1 ∧ itmin ≤ (outerLoop itmin itmax tol body k s err).1 ∧
    (k ≤ max (itmax + 1) itmin → (outerLoop itmin itmax tol body k s err).1 ≤ max (itmax + 1) itmin) ∧
    ((outerLoop itmin itmax tol body k s err).2.2 ≤ tol ∨ itmax < (outerLoop itmin itmax tol body k s err).1) := by
  induction k, s, err using outerLoop.induct itmin itmax tol body with
  | case1 k s err h ih =>
    rw [outerLoop, if_pos h]
    refine ⟨by omega, ih.2.1, fun hk => ih.2.2.1 ?_, ih.2.2.2⟩
    rcases h with h | h <;> omega
  | case2 k s err h =>
    rw [outerLoop, if_neg h]
    push Not at h
    refine ⟨le_rfl, h.2, id, ?_⟩
    simp only
    by_cases hk : k ≤ itmax
    · exact Or.inl (h.1 hk)
    · exact Or.inr (by omega)

/-- **C125 (passes).** A step makes at least the smallest number of passes asked for. It ends with the error below
the tolerance or after one pass more than the largest number asked for, whichever is first once the smallest
number is reached. -/
theorem C125_passes {σ : Type} (itmin itmax : ℕ) (tol : ℝ) (body : ℕ → σ → σ × ℝ) (s : σ) (err : ℝ) :
    let r := outerLoop itmin itmax tol body 0 s err
    itmin ≤ r.1 ∧ r.1 ≤ max (itmax + 1) itmin ∧ (r.2.2 ≤ tol ∨ itmax < r.1) := by
  have h := outer_facts itmin itmax tol body 0 s err
  exact ⟨h.2.1, h.2.2.1 (Nat.zero_le _), h.2.2.2⟩

theorem outer_all {σ : Type} (itmin itmax : ℕ) (tol : ℝ) (body : ℕ → σ → σ × ℝ) (hb : ∀ k s, tol < (body k s).2)
    (k : ℕ) (s : σ) (err : ℝ) (he : tol < err) (hk : k ≤ itmax + 1) (hmin : itmin ≤ itmax + 1) :
    (outerLoop itmin itmax tol body k s err).1 = itmax + 1 := by
  induction k, s, err using outerLoop.induct itmin itmax tol body with
  | case1 k s err h ih =>
    rw [outerLoop, if_pos h]
    refine ih (hb _ _) ?_
    rcases h with h | h <;> omega
  | case2 k s err h =>
    rw [outerLoop, if_neg h]
    push Not at h
    show k = itmax + 1
    by_contra hne
    exact absurd (h.1 (by omega)) (by linarith)

/-- **C125 (one pass too many).** When the error stays above the tolerance the largest number of passes asked for is
exceeded by one. -/
theorem C125_passes_fails {σ : Type} (itmin itmax : ℕ) (tol : ℝ) (body : ℕ → σ → σ × ℝ) (s : σ) (err : ℝ)
    (hb : ∀ k s, tol < (body k s).2) (he : tol < err) (hmin : itmin ≤ itmax) :
    (outerLoop itmin itmax tol body 0 s err).1 = itmax + 1 :=
  outer_all itmin itmax tol body hb 0 s err he (by omega) (by omega)

/-- **C125 (periodic bodies).** Without prescribed surface velocities the tolerance is never read; the error is set to
zero by the pass. With any value that is not negative left in the variable one pass is made. -/
theorem C125_periodic_passes {σ : Type} (tol : ℝ) (pass : σ → σ) (s : σ) (h : 0 ≤ tol) :
    outerLoop 1 1 tol (fun _ s => (pass s, 0)) 0 s (2 * tol) = (1, pass s, 0) := by
  rw [outerLoop, if_pos (Or.inr one_pos), outerLoop, if_neg]
  push Not
  exact ⟨fun _ => h, le_rfl⟩

/-- **C125 (periodic bodies, tolerance left unset).** Without prescribed surface velocities the tolerance is compared
although it was never set: a negative value left in memory makes the whole iteration of the step run twice. -/
theorem C125_periodic_passes_fails {σ : Type} (tol : ℝ) (pass : σ → σ) (s : σ) (h : tol < 0) :
    outerLoop 1 1 tol (fun _ s => (pass s, 0)) 0 s (2 * tol) = (2, pass (pass s), 0) := by
  rw [outerLoop, if_pos (Or.inr one_pos), outerLoop, if_pos (Or.inl ⟨le_rfl, h⟩), outerLoop, if_neg]
  push Not
  exact ⟨fun hh => absurd hh (by norm_num), by norm_num⟩

/-- Passes `1` to `k` of a step. -/
noncomputable def raises (incr mx : ℝ) (s : FrameStiff) : ℕ → FrameStiff
  | 0 => s
  | k + 1 => FrameStiff.raise incr mx (k + 1) (raises incr mx s k)

/-- **C125 (stiffness of the frame).** Through any number of passes the stiffness of the frame and the accumulated
factor grow together. With a factor per pass above one the accumulated factor never reaches the limit times that
factor, so the stiffness stays below its first value times both. The first pass uses the first
value. -/
theorem C125_stiffness (incr mx c0 : ℝ) (hi : 1 < incr) (hc : 0 < c0) (hm : 1 ≤ mx) (k : ℕ) :
    (raises incr mx ⟨c0, 1⟩ k).c = c0 * (raises incr mx ⟨c0, 1⟩ k).accum ∧
    1 ≤ (raises incr mx ⟨c0, 1⟩ k).accum ∧ (raises incr mx ⟨c0, 1⟩ k).accum < mx * incr ∧
    (raises incr mx ⟨c0, 1⟩ k).c < c0 * (mx * incr) ∧ (raises incr mx ⟨c0, 1⟩ 1).c = c0 := by
  suffices h : (raises incr mx ⟨c0, 1⟩ k).c = c0 * (raises incr mx ⟨c0, 1⟩ k).accum ∧
      1 ≤ (raises incr mx ⟨c0, 1⟩ k).accum ∧ (raises incr mx ⟨c0, 1⟩ k).accum < mx * incr by
    refine ⟨h.1, h.2.1, h.2.2, ?_, ?_⟩
    · rw [h.1]
      exact mul_lt_mul_of_pos_left h.2.2 hc
    · simp [raises, FrameStiff.raise]
  induction k with
  | zero => simp only [raises]; refine ⟨by ring, le_rfl, by nlinarith⟩
  | succ k ih =>
    obtain ⟨h1, h2, h3⟩ := ih
    simp only [raises, FrameStiff.raise]
    split_ifs with h
    · refine ⟨by rw [h1]; ring, by nlinarith, by nlinarith [h.2]⟩
    · exact ⟨h1, h2, h3⟩

/-! ### Cases meeting the hypotheses -/

example : onBoundary ![4, 4, 4] ![5, 2, 3] = true ∧ onBoundary ![4, 4, 4] ![2, 2, 3] = false := by decide

example : onBoundary ![4, 6, 6] ![6, 1, 1] = true := by decide

example : ∃ x : GridPt ![6, 6, 6], onSurf ![1, 1, 1] x = true :=
  ⟨fun a => match a with | 0 => ⟨1, by decide⟩ | 1 => ⟨1, by decide⟩ | 2 => ⟨1, by decide⟩, by decide⟩

example : ∃ x : GridPt ![6, 6, 6], ¬ Held ![1, 1, 1] x :=
  ⟨fun a => match a with | 0 => ⟨2, by decide⟩ | 1 => ⟨2, by decide⟩ | 2 => ⟨2, by decide⟩, by
    rw [← indf_iff]; decide⟩

example : InverseOf (fun i j : Fin 6 => if i = j then (2 : ℝ) else 0) (fun i j => if i = j then 1 / 2 else 0) := by
  intro i j
  constructor <;> by_cases h : i = j <;> simp [h]

end Fierro
