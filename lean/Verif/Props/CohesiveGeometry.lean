/-
C85: normal, opening and area of a cohesive pair.  C88: the prescribed motion of the reorientation
test.
-/
import Mathlib.Tactic.Linarith
import Mathlib.Tactic.FieldSimp
import Mathlib.Tactic.LinearCombination
import Mathlib.Tactic.NormNum
import Verif.Model.Cohesive
import Verif.Props.ContactElement

namespace Fierro

open Cohesive Contact

/-! ### Vectors -/

theorem dot_comm3 (a b : Fin 3 → ℝ) : dot a b = dot b a := by simp only [dot]; ring

theorem len_of_sq (a : Fin 3 → ℝ) (l : ℝ) (hl : 0 ≤ l) (h : dot a a = l ^ 2) : len a = l := by
  have := sq_len a
  rw [h] at this
  nlinarith [len_nonneg a, sq_nonneg (len a - l)]

theorem cross_0 (a b : Fin 3 → ℝ) : cross a b 0 = a 1 * b 2 - a 2 * b 1 := rfl
theorem cross_1 (a b : Fin 3 → ℝ) : cross a b 1 = a 2 * b 0 - a 0 * b 2 := rfl
theorem cross_2 (a b : Fin 3 → ℝ) : cross a b 2 = a 0 * b 1 - a 1 * b 0 := rfl

theorem len_direction (v : Fin 3 → ℝ) (h : 0 < len v) : len (direction v) = 1 := by
  apply len_of_sq _ _ zero_le_one
  have := sq_len v
  simp only [dot, direction] at this ⊢
  field_simp
  linarith

theorem cross_direction (r s : Fin 3 → ℝ) (i : Fin 3) :
    cross (direction r) (direction s) i = (len r)⁻¹ * (len s)⁻¹ * cross r s i := by
  match i with
  | 0 => simp only [cross_0, direction]; ring
  | 1 => simp only [cross_1, direction]; ring
  | 2 => simp only [cross_2, direction]; ring

theorem direction_smul (c : ℝ) (hc : 0 < c) (v : Fin 3 → ℝ) (i : Fin 3) :
    direction (fun k => c * v k) i = direction v i := by
  simp only [direction, len_smul, abs_of_pos hc]
  rcases eq_or_ne (len v) 0 with h | h
  · simp [h]
  · field_simp

/-! ### The normal of a face -/

/-- C85.  On a face that is not degenerate the normal used for the cohesive zone is, up to components
below 1e-13 that are set to zero, the unit vector perpendicular to the face at its centre (the one
of C76, which points out of the element). -/
theorem C85_face_normal (A : Fin 3 → Fin 4 → ℝ)
    (hr : 1e-20 < len (tangentXi A 0 0)) (hs : 1e-20 < len (tangentEta A 0 0))
    (hn : 1e-20 < len (cross (direction (tangentXi A 0 0)) (direction (tangentEta A 0 0)))) :
    ∃ N, unitNormal A 0 0 = some N ∧ ∀ i, |faceNormal A i - N i| < 1e-13 ∧
      (1e-13 ≤ |N i| → faceNormal A i = N i) := by
  have hr0 : 0 < len (tangentXi A 0 0) := lt_trans (by norm_num) hr
  have hs0 : 0 < len (tangentEta A 0 0) := lt_trans (by norm_num) hs
  have hn0 := lt_trans (by norm_num : (0 : ℝ) < 1e-20) hn
  have hc : cross (direction (tangentXi A 0 0)) (direction (tangentEta A 0 0))
      = fun i => ((len (tangentXi A 0 0))⁻¹ * (len (tangentEta A 0 0))⁻¹) * rawNormal A 0 0 i := by
    funext i; exact cross_direction _ _ i
  have hraw : len (rawNormal A 0 0) ≠ 0 := by
    intro h
    rw [hc, len_smul, h, mul_zero] at hn0
    exact lt_irrefl _ hn0
  refine ⟨fun i => rawNormal A 0 0 i / len (rawNormal A 0 0), ?_, fun i => ?_⟩
  · simp [unitNormal, hraw]
  · have hv : faceNormal A i = zap (rawNormal A 0 0 i / len (rawNormal A 0 0)) := by
      simp only [faceNormal, hr, hs, hn, not_true, or_self, if_false, if_true]
      rw [hc, direction_smul _ (mul_pos (inv_pos.mpr hr0) (inv_pos.mpr hs0))]
      rfl
    rw [hv]
    unfold zap
    split_ifs with h
    · exact ⟨by rw [zero_sub, abs_neg]; exact h, fun h' => absurd h (not_lt.mpr h')⟩
    · exact ⟨by rw [sub_self, abs_zero]; norm_num, fun _ => rfl⟩

theorem zap_sq_le (v : ℝ) : zap v ^ 2 ≤ v ^ 2 := by
  unfold zap; split_ifs
  · simpa using sq_nonneg v
  · exact le_refl _

/-- C85.  The normal of a face is never longer than one. -/
theorem C85_normal_le_one (A : Fin 3 → Fin 4 → ℝ) : len (faceNormal A) ≤ 1 := by
  have key : dot (faceNormal A) (faceNormal A) ≤ 1 := by
    by_cases h : ¬ 1e-20 < len (tangentXi A 0 0) ∨ ¬ 1e-20 < len (tangentEta A 0 0)
    · simp only [dot, faceNormal, h, if_true]; norm_num
    · by_cases hn : 1e-20 < len (cross (direction (tangentXi A 0 0)) (direction (tangentEta A 0 0)))
      · have h1 := len_direction _ (lt_trans (by norm_num) hn)
        have h2 := sq_len (direction (cross (direction (tangentXi A 0 0)) (direction (tangentEta A 0 0))))
        rw [h1] at h2
        simp only [dot, faceNormal, h, if_false, hn, if_true] at h2 ⊢
        have a0 := zap_sq_le (direction (cross (direction (tangentXi A 0 0)) (direction (tangentEta A 0 0))) 0)
        have a1 := zap_sq_le (direction (cross (direction (tangentXi A 0 0)) (direction (tangentEta A 0 0))) 1)
        have a2 := zap_sq_le (direction (cross (direction (tangentXi A 0 0)) (direction (tangentEta A 0 0))) 2)
        nlinarith
      · simp only [dot, faceNormal, h, if_false, hn, zap]
        norm_num
  rw [← sq_len] at key
  nlinarith [len_nonneg (faceNormal A)]

/-- C85.  Two faces accepted as the two sides of a crack have centres within the tolerance and normals
that are opposite up to the tolerance. -/
theorem C85_facing (A B : Fin 3 → Fin 4 → ℝ) (tol : ℝ) (h : facing A B tol) :
    (∀ i, |(A i 0 + A i 1 + A i 2 + A i 3) / 4 - (B i 0 + B i 1 + B i 2 + B i 3) / 4| ≤ tol) ∧
      ∑ i, (faceNormal A i + faceNormal B i) ^ 2 ≤ 2 * tol := by
  constructor
  · intro i
    have hc : ∀ A : Fin 3 → Fin 4 → ℝ, (A i 0 + A i 1 + A i 2 + A i 3) / 4 = faceCentroid A i := by
      intro A; simp only [faceCentroid, Fin.sum_univ_four]; ring
    rw [hc, hc]
    refine le_trans ?_ h.1
    unfold len
    apply Real.abs_le_sqrt
    match i with
    | 0 => nlinarith [sq_nonneg (faceCentroid A 1 - faceCentroid B 1), sq_nonneg (faceCentroid A 2 - faceCentroid B 2)]
    | 1 => nlinarith [sq_nonneg (faceCentroid A 0 - faceCentroid B 0), sq_nonneg (faceCentroid A 2 - faceCentroid B 2)]
    | 2 => nlinarith [sq_nonneg (faceCentroid A 0 - faceCentroid B 0), sq_nonneg (faceCentroid A 1 - faceCentroid B 1)]
  · have ha := sq_len (faceNormal A)
    have hb := sq_len (faceNormal B)
    have h1 : len (faceNormal A) ^ 2 ≤ 1 := pow_le_one₀ (len_nonneg _) (C85_normal_le_one A)
    have h2 : len (faceNormal B) ^ 2 ≤ 1 := pow_le_one₀ (len_nonneg _) (C85_normal_le_one B)
    rw [ha] at h1
    rw [hb] at h2
    have hd := h.2
    rw [Fin.sum_univ_three]
    simp only [dot] at h1 h2 hd
    nlinarith

/-- C85.  The orientation of a pair is a unit vector, or zero when the normals of the matched faces add
up to zero (in particular without a matched face). -/
theorem C85_orientation_unit (faces : List (Fin 3 → Fin 4 → ℝ)) :
    len (orientation faces) = 1 ∨
      ((∀ i, orientation faces i = 0) ∧ ∀ k, (faces.map fun A => faceNormal A k).sum = 0) := by
  by_cases h : 0 < len (fun k => (faces.map fun A => faceNormal A k).sum)
  · left
    have := len_direction _ h
    rw [← this]
    congr 1
    funext i
    simp only [orientation, h, if_true, direction]
  · right
    refine ⟨fun i => by simp only [orientation, h, if_false], ?_⟩
    have h0 : len (fun k => (faces.map fun A => faceNormal A k).sum) = 0 :=
      le_antisymm (not_lt.mp h) (len_nonneg _)
    have := (len_eq_zero _).mp h0
    exact fun k => congrFun this k

/-- C85.  When all matched faces have the same unit normal, that is the orientation. -/
theorem C85_orientation_flat (faces : List (Fin 3 → Fin 4 → ℝ)) (N : Fin 3 → ℝ) (hN : len N = 1)
    (hne : faces ≠ []) (h : ∀ A ∈ faces, ∀ i, faceNormal A i = N i) (i : Fin 3) :
    orientation faces i = N i := by
  have hs : (fun k => (faces.map fun A => faceNormal A k).sum) = fun k => (faces.length : ℝ) * N k := by
    funext k
    clear hne
    induction faces with
    | nil => simp
    | cons A r ih =>
      simp only [List.map_cons, List.sum_cons, List.length_cons, Nat.cast_add, Nat.cast_one]
      rw [ih fun B hB => h B (by simp [hB]), h A (by simp)]
      ring
  have hp : (0 : ℝ) < faces.length := by exact_mod_cast List.length_pos_iff.mpr hne
  have hl : len (fun k => (faces.map fun A => faceNormal A k).sum) = faces.length := by
    rw [hs, len_smul, hN, mul_one, abs_of_pos hp]
  have hi := congrFun hs i
  simp only [orientation, hl, hp, if_true]
  rw [hi]
  field_simp

/-! ### The opening -/

/-- C85.  With a unit normal the normal and the tangential opening are the two legs of the separation
of the nodes, now and predicted. -/
theorem C85_opening_pythagoras (n xA xB vA vB : Fin 3 → ℝ) (dt : ℝ) (hn : len n = 1) :
    (opening n xA xB vA vB dt).un ^ 2 + (opening n xA xB vA vB dt).ut ^ 2
        = len (fun k => xB k - xA k) ^ 2 ∧
      (opening n xA xB vA vB dt).un' ^ 2 + (opening n xA xB vA vB dt).ut' ^ 2
        = len (fun k => (xB k + dt * vB k) - (xA k + dt * vA k)) ^ 2 := by
  have h := sq_len n
  rw [hn] at h
  simp only [dot] at h
  constructor
  · simp only [opening, sq_len, dot]
    linear_combination (-((xB 0 - xA 0) * n 0 + (xB 1 - xA 1) * n 1 + (xB 2 - xA 2) * n 2) ^ 2) * h
  · simp only [opening, sq_len, dot]
    linear_combination (-((xB 0 - xA 0) * n 0 + (xB 1 - xA 1) * n 1 + (xB 2 - xA 2) * n 2 +
      dt * ((vB 0 - vA 0) * n 0 + (vB 1 - vA 1) * n 1 + (vB 2 - vA 2) * n 2)) ^ 2) * h

/-- C85.  The predicted opening is the opening of the nodes moved with their velocities, in the
direction of the present normal. -/
theorem C85_opening_prediction (n xA xB vA vB wA wB : Fin 3 → ℝ) (dt ds : ℝ) :
    (opening n xA xB vA vB dt).un'
        = (opening n (fun k => xA k + dt * vA k) (fun k => xB k + dt * vB k) wA wB ds).un ∧
      (opening n xA xB vA vB dt).ut'
        = (opening n (fun k => xA k + dt * vA k) (fun k => xB k + dt * vB k) wA wB ds).ut := by
  constructor
  · simp only [opening, dot]; ring
  · simp only [opening]
    congr 1
    funext k
    simp only [dot]
    ring

/-- C85.  The opening does not see a rigid motion of the whole configuration: rotating positions,
velocities and normal, and shifting positions and velocities, leaves all four numbers as they are. -/
theorem C85_opening_rigid (Q : Fin 3 → Fin 3 → ℝ)
    (hQ : ∀ i j, ∑ k, Q k i * Q k j = if i = j then 1 else 0)
    (n xA xB vA vB c w : Fin 3 → ℝ) (dt : ℝ) :
    opening (fun i => ∑ j, Q i j * n j) (fun i => (∑ j, Q i j * xA j) + c i)
      (fun i => (∑ j, Q i j * xB j) + c i) (fun i => (∑ j, Q i j * vA j) + w i)
      (fun i => (∑ j, Q i j * vB j) + w i) dt = opening n xA xB vA vB dt := by
  have hdot : ∀ a b : Fin 3 → ℝ, dot (fun i => ∑ j, Q i j * a j) (fun i => ∑ j, Q i j * b j) = dot a b := by
    intro a b
    have h00 := hQ 0 0; have h01 := hQ 0 1; have h02 := hQ 0 2
    have h11 := hQ 1 1; have h12 := hQ 1 2; have h22 := hQ 2 2
    simp only [Fin.sum_univ_three, if_true] at h00 h11 h22
    rw [if_neg (by decide), Fin.sum_univ_three] at h01 h02 h12
    simp only [dot, Fin.sum_univ_three]
    linear_combination a 0 * b 0 * h00 + (a 0 * b 1 + a 1 * b 0) * h01 + (a 0 * b 2 + a 2 * b 0) * h02
      + a 1 * b 1 * h11 + (a 1 * b 2 + a 2 * b 1) * h12 + a 2 * b 2 * h22
  have hlen : ∀ a : Fin 3 → ℝ, len (fun i => ∑ j, Q i j * a j) = len a := by
    intro a
    apply len_of_sq _ _ (len_nonneg a)
    rw [hdot, sq_len]
  have hu : (fun k => ((∑ j, Q k j * xB j) + c k) - ((∑ j, Q k j * xA j) + c k))
      = fun i => ∑ j, Q i j * (xB j - xA j) := by
    funext i; simp only [Fin.sum_univ_three]; ring
  have hv : (fun k => ((∑ j, Q k j * vB j) + w k) - ((∑ j, Q k j * vA j) + w k))
      = fun i => ∑ j, Q i j * (vB j - vA j) := by
    funext i; simp only [Fin.sum_univ_three]; ring
  have ht : ∀ (a : Fin 3 → ℝ) (s : ℝ), (fun k => (∑ j, Q k j * a j) - s * ∑ j, Q k j * n j)
      = fun i => ∑ j, Q i j * (a j - s * n j) := by
    intro a s; funext i; simp only [Fin.sum_univ_three]; ring
  have hut : ∀ (a b : Fin 3 → ℝ) (s t : ℝ), (fun k => (∑ j, Q k j * a j) - s * ∑ j, Q k j * n j
      + dt * ((∑ j, Q k j * b j) - t * ∑ j, Q k j * n j))
      = fun i => ∑ j, Q i j * (a j - s * n j + dt * (b j - t * n j)) := by
    intro a b s t; funext i; simp only [Fin.sum_univ_three]; ring
  have hu' : ∀ k, ((∑ j, Q k j * xB j) + c k) - ((∑ j, Q k j * xA j) + c k)
      = ∑ j, Q k j * (xB j - xA j) := fun k => congrFun hu k
  have hv' : ∀ k, ((∑ j, Q k j * vB j) + w k) - ((∑ j, Q k j * vA j) + w k)
      = ∑ j, Q k j * (vB j - vA j) := fun k => congrFun hv k
  simp only [opening, hu', hv', hdot, ht, hut, hlen]

/-! ### The area -/

/-- The corners of face `f` of the element. -/
def faceCorner (E : Fin 3 → Fin 8 → ℝ) (f : Fin 6) (j : Fin 4) : Fin 3 → ℝ := fun k => E k (faceNode f j)

/-- Cross product of the two edges that leave corner `j` of a quadrilateral. -/
noncomputable def cornerCross (q : Fin 4 → Fin 3 → ℝ) (j : Fin 4) : Fin 3 → ℝ :=
  cross (fun k => q (j + 1) k - q j k) (fun k => q (j + 3) k - q j k)

/-- A flat convex quadrilateral with unit normal `N`: at every corner the cross product of the two
edges is a non-negative multiple of `N`. -/
def FlatConvex (q : Fin 4 → Fin 3 → ℝ) (N : Fin 3 → ℝ) : Prop :=
  len N = 1 ∧ ∀ j, ∃ c, 0 ≤ c ∧ ∀ i, cornerCross q j i = c * N i

/-- Area of a flat convex quadrilateral: half the length of the cross product of its diagonals. -/
noncomputable def quadArea3 (q : Fin 4 → Fin 3 → ℝ) : ℝ :=
  1 / 2 * len (cross (fun k => q 2 k - q 0 k) (fun k => q 3 k - q 1 k))

section
theorem cs00 : cornerSign 0 0 = -1 := rfl
theorem cs01 : cornerSign 0 1 = 1 := rfl
theorem cs02 : cornerSign 0 2 = -1 := rfl
theorem cs03 : cornerSign 0 3 = 1 := rfl
theorem cs04 : cornerSign 0 4 = -1 := rfl
theorem cs05 : cornerSign 0 5 = 1 := rfl
theorem cs06 : cornerSign 0 6 = -1 := rfl
theorem cs07 : cornerSign 0 7 = 1 := rfl
theorem cs10 : cornerSign 1 0 = -1 := rfl
theorem cs11 : cornerSign 1 1 = -1 := rfl
theorem cs12 : cornerSign 1 2 = 1 := rfl
theorem cs13 : cornerSign 1 3 = 1 := rfl
theorem cs14 : cornerSign 1 4 = -1 := rfl
theorem cs15 : cornerSign 1 5 = -1 := rfl
theorem cs16 : cornerSign 1 6 = 1 := rfl
theorem cs17 : cornerSign 1 7 = 1 := rfl
theorem cs20 : cornerSign 2 0 = -1 := rfl
theorem cs21 : cornerSign 2 1 = -1 := rfl
theorem cs22 : cornerSign 2 2 = -1 := rfl
theorem cs23 : cornerSign 2 3 = -1 := rfl
theorem cs24 : cornerSign 2 4 = 1 := rfl
theorem cs25 : cornerSign 2 5 = 1 := rfl
theorem cs26 : cornerSign 2 6 = 1 := rfl
theorem cs27 : cornerSign 2 7 = 1 := rfl

theorem shapeGrad_0 (p : Fin 3 → ℝ) (a : Fin 8) : shapeGrad p a 0 =
    0.125 * cornerSign 0 a * (1 + cornerSign 1 a * p 1) * (1 + cornerSign 2 a * p 2) := rfl
theorem shapeGrad_1 (p : Fin 3 → ℝ) (a : Fin 8) : shapeGrad p a 1 =
    0.125 * cornerSign 1 a * (1 + cornerSign 0 a * p 0) * (1 + cornerSign 2 a * p 2) := rfl
theorem shapeGrad_2 (p : Fin 3 → ℝ) (a : Fin 8) : shapeGrad p a 2 =
    0.125 * cornerSign 2 a * (1 + cornerSign 0 a * p 0) * (1 + cornerSign 1 a * p 1) := rfl

theorem jacRow_0 (E : Fin 3 → Fin 8 → ℝ) (p : Fin 3 → ℝ) (o : Fin 3) : jacRow E p 0 o =
    1 / 8 * ((1 - p 1) * (1 - p 2) * (E o 1 - E o 0) + (1 + p 1) * (1 - p 2) * (E o 3 - E o 2)
      + (1 - p 1) * (1 + p 2) * (E o 5 - E o 4) + (1 + p 1) * (1 + p 2) * (E o 7 - E o 6)) := by
  simp only [jacRow, Fin.sum_univ_eight, shapeGrad_0, cs00, cs01, cs02, cs03, cs04, cs05, cs06, cs07,
    cs10, cs11, cs12, cs13, cs14, cs15, cs16, cs17, cs20, cs21, cs22, cs23, cs24, cs25, cs26, cs27]
  ring

theorem jacRow_1 (E : Fin 3 → Fin 8 → ℝ) (p : Fin 3 → ℝ) (o : Fin 3) : jacRow E p 1 o =
    1 / 8 * ((1 - p 0) * (1 - p 2) * (E o 2 - E o 0) + (1 + p 0) * (1 - p 2) * (E o 3 - E o 1)
      + (1 - p 0) * (1 + p 2) * (E o 6 - E o 4) + (1 + p 0) * (1 + p 2) * (E o 7 - E o 5)) := by
  simp only [jacRow, Fin.sum_univ_eight, shapeGrad_1, cs00, cs01, cs02, cs03, cs04, cs05, cs06, cs07,
    cs10, cs11, cs12, cs13, cs14, cs15, cs16, cs17, cs20, cs21, cs22, cs23, cs24, cs25, cs26, cs27]
  ring

theorem jacRow_2 (E : Fin 3 → Fin 8 → ℝ) (p : Fin 3 → ℝ) (o : Fin 3) : jacRow E p 2 o =
    1 / 8 * ((1 - p 0) * (1 - p 1) * (E o 4 - E o 0) + (1 + p 0) * (1 - p 1) * (E o 5 - E o 1)
      + (1 - p 0) * (1 + p 1) * (E o 6 - E o 2) + (1 + p 0) * (1 + p 1) * (E o 7 - E o 3)) := by
  simp only [jacRow, Fin.sum_univ_eight, shapeGrad_2, cs00, cs01, cs02, cs03, cs04, cs05, cs06, cs07,
    cs10, cs11, cs12, cs13, cs14, cs15, cs16, cs17, cs20, cs21, cs22, cs23, cs24, cs25, cs26, cs27]
  ring

/-- Tangents of face 0. -/
theorem row_00 (E : Fin 3 → Fin 8 → ℝ) (s t : ℝ) (o : Fin 3) : jacRow E (gaussPoint 0 s t) 1 o
    = 1 / 4 * ((1 - t) * (E o 2 - E o 0) + (1 + t) * (E o 6 - E o 4)) := by
  rw [jacRow_1]
  have h0 : gaussPoint 0 s t 0 = -1 := rfl
  have h2 : gaussPoint 0 s t 2 = t := rfl
  rw [h0, h2]; ring
theorem row_01 (E : Fin 3 → Fin 8 → ℝ) (s t : ℝ) (o : Fin 3) : jacRow E (gaussPoint 0 s t) 2 o
    = 1 / 4 * ((1 - s) * (E o 4 - E o 0) + (1 + s) * (E o 6 - E o 2)) := by
  rw [jacRow_2]
  have h0 : gaussPoint 0 s t 0 = -1 := rfl
  have h2 : gaussPoint 0 s t 1 = s := rfl
  rw [h0, h2]; ring
theorem row_10 (E : Fin 3 → Fin 8 → ℝ) (s t : ℝ) (o : Fin 3) : jacRow E (gaussPoint 1 s t) 1 o
    = 1 / 4 * ((1 - t) * (E o 3 - E o 1) + (1 + t) * (E o 7 - E o 5)) := by
  rw [jacRow_1]
  have h0 : gaussPoint 1 s t 0 = 1 := rfl
  have h2 : gaussPoint 1 s t 2 = t := rfl
  rw [h0, h2]; ring
theorem row_11 (E : Fin 3 → Fin 8 → ℝ) (s t : ℝ) (o : Fin 3) : jacRow E (gaussPoint 1 s t) 2 o
    = 1 / 4 * ((1 - s) * (E o 5 - E o 1) + (1 + s) * (E o 7 - E o 3)) := by
  rw [jacRow_2]
  have h0 : gaussPoint 1 s t 0 = 1 := rfl
  have h2 : gaussPoint 1 s t 1 = s := rfl
  rw [h0, h2]; ring
theorem row_20 (E : Fin 3 → Fin 8 → ℝ) (s t : ℝ) (o : Fin 3) : jacRow E (gaussPoint 2 s t) 0 o
    = 1 / 4 * ((1 - t) * (E o 1 - E o 0) + (1 + t) * (E o 5 - E o 4)) := by
  rw [jacRow_0]
  have h0 : gaussPoint 2 s t 1 = -1 := rfl
  have h2 : gaussPoint 2 s t 2 = t := rfl
  rw [h0, h2]; ring
theorem row_21 (E : Fin 3 → Fin 8 → ℝ) (s t : ℝ) (o : Fin 3) : jacRow E (gaussPoint 2 s t) 2 o
    = 1 / 4 * ((1 - s) * (E o 4 - E o 0) + (1 + s) * (E o 5 - E o 1)) := by
  rw [jacRow_2]
  have h0 : gaussPoint 2 s t 1 = -1 := rfl
  have h2 : gaussPoint 2 s t 0 = s := rfl
  rw [h0, h2]; ring
theorem row_30 (E : Fin 3 → Fin 8 → ℝ) (s t : ℝ) (o : Fin 3) : jacRow E (gaussPoint 3 s t) 0 o
    = 1 / 4 * ((1 - t) * (E o 3 - E o 2) + (1 + t) * (E o 7 - E o 6)) := by
  rw [jacRow_0]
  have h0 : gaussPoint 3 s t 1 = 1 := rfl
  have h2 : gaussPoint 3 s t 2 = t := rfl
  rw [h0, h2]; ring
theorem row_31 (E : Fin 3 → Fin 8 → ℝ) (s t : ℝ) (o : Fin 3) : jacRow E (gaussPoint 3 s t) 2 o
    = 1 / 4 * ((1 - s) * (E o 6 - E o 2) + (1 + s) * (E o 7 - E o 3)) := by
  rw [jacRow_2]
  have h0 : gaussPoint 3 s t 1 = 1 := rfl
  have h2 : gaussPoint 3 s t 0 = s := rfl
  rw [h0, h2]; ring
theorem row_40 (E : Fin 3 → Fin 8 → ℝ) (s t : ℝ) (o : Fin 3) : jacRow E (gaussPoint 4 s t) 0 o
    = 1 / 4 * ((1 - t) * (E o 1 - E o 0) + (1 + t) * (E o 3 - E o 2)) := by
  rw [jacRow_0]
  have h0 : gaussPoint 4 s t 2 = -1 := rfl
  have h2 : gaussPoint 4 s t 1 = t := rfl
  rw [h0, h2]; ring
theorem row_41 (E : Fin 3 → Fin 8 → ℝ) (s t : ℝ) (o : Fin 3) : jacRow E (gaussPoint 4 s t) 1 o
    = 1 / 4 * ((1 - s) * (E o 2 - E o 0) + (1 + s) * (E o 3 - E o 1)) := by
  rw [jacRow_1]
  have h0 : gaussPoint 4 s t 2 = -1 := rfl
  have h2 : gaussPoint 4 s t 0 = s := rfl
  rw [h0, h2]; ring
theorem row_50 (E : Fin 3 → Fin 8 → ℝ) (s t : ℝ) (o : Fin 3) : jacRow E (gaussPoint 5 s t) 0 o
    = 1 / 4 * ((1 - t) * (E o 5 - E o 4) + (1 + t) * (E o 7 - E o 6)) := by
  rw [jacRow_0]
  have h0 : gaussPoint 5 s t 2 = 1 := rfl
  have h2 : gaussPoint 5 s t 1 = t := rfl
  rw [h0, h2]; ring
theorem row_51 (E : Fin 3 → Fin 8 → ℝ) (s t : ℝ) (o : Fin 3) : jacRow E (gaussPoint 5 s t) 1 o
    = 1 / 4 * ((1 - s) * (E o 6 - E o 4) + (1 + s) * (E o 7 - E o 5)) := by
  rw [jacRow_1]
  have h0 : gaussPoint 5 s t 2 = 1 := rfl
  have h2 : gaussPoint 5 s t 0 = s := rfl
  rw [h0, h2]; ring
end

/-- Sign and patch coordinates of the point with face coordinates `s`, `t`. -/
noncomputable def flatCoord (f : Fin 6) (s t : ℝ) : ℝ × ℝ × ℝ :=
  match f with
  | 0 => (-1, t, s)
  | 1 => (1, s, t)
  | 2 => (1, s, t)
  | 3 => (-1, -s, t)
  | 4 => (-1, t, s)
  | 5 => (1, s, t)

theorem corner_terms (E : Fin 3 → Fin 8 → ℝ) (f : Fin 6) :
    cornerCross (faceCorner E f) 0 = cross (fun k => E k (faceNode f 1) - E k (faceNode f 0))
        (fun k => E k (faceNode f 3) - E k (faceNode f 0)) ∧
      cornerCross (faceCorner E f) 1 = cross (fun k => E k (faceNode f 2) - E k (faceNode f 1))
        (fun k => E k (faceNode f 0) - E k (faceNode f 1)) ∧
      cornerCross (faceCorner E f) 2 = cross (fun k => E k (faceNode f 3) - E k (faceNode f 2))
        (fun k => E k (faceNode f 1) - E k (faceNode f 2)) ∧
      cornerCross (faceCorner E f) 3 = cross (fun k => E k (faceNode f 0) - E k (faceNode f 3))
        (fun k => E k (faceNode f 2) - E k (faceNode f 3)) := ⟨rfl, rfl, rfl, rfl⟩

theorem phi_0 (s t : ℝ) : phi s t 0 = 1 / 4 * (1 - s) * (1 - t) := by
  have h1 : (xiN 0 : ℝ) = -1 := rfl
  have h2 : (etaN 0 : ℝ) = -1 := rfl
  rw [phi, h1, h2]; ring
theorem phi_1 (s t : ℝ) : phi s t 1 = 1 / 4 * (1 + s) * (1 - t) := by
  have h1 : (xiN 1 : ℝ) = 1 := rfl
  have h2 : (etaN 1 : ℝ) = -1 := rfl
  rw [phi, h1, h2]; ring
theorem phi_2 (s t : ℝ) : phi s t 2 = 1 / 4 * (1 + s) * (1 + t) := by
  have h1 : (xiN 2 : ℝ) = 1 := rfl
  have h2 : (etaN 2 : ℝ) = 1 := rfl
  rw [phi, h1, h2]; ring
theorem phi_3 (s t : ℝ) : phi s t 3 = 1 / 4 * (1 - s) * (1 + t) := by
  have h1 : (xiN 3 : ℝ) = -1 := rfl
  have h2 : (etaN 3 : ℝ) = 1 := rfl
  rw [phi, h1, h2]; ring

set_option maxHeartbeats 4000000 in
/-- The cross product of the tangents is the bilinear interpolation of the corner values. -/
theorem faceCross_interp (E : Fin 3 → Fin 8 → ℝ) (f : Fin 6) (s t : ℝ) (i : Fin 3) :
    faceCross E f s t i = (flatCoord f s t).1 * (1 / 4 * ∑ j,
      phi (flatCoord f s t).2.1 (flatCoord f s t).2.2 j * cornerCross (faceCorner E f) j i) := by
  obtain ⟨h0, h1, h2, h3⟩ := corner_terms E f
  rw [Fin.sum_univ_four, h0, h1, h2, h3, phi_0, phi_1, phi_2, phi_3]
  clear h0 h1 h2 h3
  match f with
  | 0 =>
    have n0 : faceNode 0 0 = 0 := rfl
    have n1 : faceNode 0 1 = 4 := rfl
    have n2 : faceNode 0 2 = 6 := rfl
    have n3 : faceNode 0 3 = 2 := rfl
    match i with
    | 0 => simp only [faceCross, faceRows, cross_0, row_00, row_01, n0, n1, n2, n3, flatCoord]; ring
    | 1 => simp only [faceCross, faceRows, cross_1, row_00, row_01, n0, n1, n2, n3, flatCoord]; ring
    | 2 => simp only [faceCross, faceRows, cross_2, row_00, row_01, n0, n1, n2, n3, flatCoord]; ring
  | 1 =>
    have n0 : faceNode 1 0 = 1 := rfl
    have n1 : faceNode 1 1 = 3 := rfl
    have n2 : faceNode 1 2 = 7 := rfl
    have n3 : faceNode 1 3 = 5 := rfl
    match i with
    | 0 => simp only [faceCross, faceRows, cross_0, row_10, row_11, n0, n1, n2, n3, flatCoord]; ring
    | 1 => simp only [faceCross, faceRows, cross_1, row_10, row_11, n0, n1, n2, n3, flatCoord]; ring
    | 2 => simp only [faceCross, faceRows, cross_2, row_10, row_11, n0, n1, n2, n3, flatCoord]; ring
  | 2 =>
    have n0 : faceNode 2 0 = 0 := rfl
    have n1 : faceNode 2 1 = 1 := rfl
    have n2 : faceNode 2 2 = 5 := rfl
    have n3 : faceNode 2 3 = 4 := rfl
    match i with
    | 0 => simp only [faceCross, faceRows, cross_0, row_20, row_21, n0, n1, n2, n3, flatCoord]; ring
    | 1 => simp only [faceCross, faceRows, cross_1, row_20, row_21, n0, n1, n2, n3, flatCoord]; ring
    | 2 => simp only [faceCross, faceRows, cross_2, row_20, row_21, n0, n1, n2, n3, flatCoord]; ring
  | 3 =>
    have n0 : faceNode 3 0 = 3 := rfl
    have n1 : faceNode 3 1 = 2 := rfl
    have n2 : faceNode 3 2 = 6 := rfl
    have n3 : faceNode 3 3 = 7 := rfl
    match i with
    | 0 => simp only [faceCross, faceRows, cross_0, row_30, row_31, n0, n1, n2, n3, flatCoord]; ring
    | 1 => simp only [faceCross, faceRows, cross_1, row_30, row_31, n0, n1, n2, n3, flatCoord]; ring
    | 2 => simp only [faceCross, faceRows, cross_2, row_30, row_31, n0, n1, n2, n3, flatCoord]; ring
  | 4 =>
    have n0 : faceNode 4 0 = 0 := rfl
    have n1 : faceNode 4 1 = 2 := rfl
    have n2 : faceNode 4 2 = 3 := rfl
    have n3 : faceNode 4 3 = 1 := rfl
    match i with
    | 0 => simp only [faceCross, faceRows, cross_0, row_40, row_41, n0, n1, n2, n3, flatCoord]; ring
    | 1 => simp only [faceCross, faceRows, cross_1, row_40, row_41, n0, n1, n2, n3, flatCoord]; ring
    | 2 => simp only [faceCross, faceRows, cross_2, row_40, row_41, n0, n1, n2, n3, flatCoord]; ring
  | 5 =>
    have n0 : faceNode 5 0 = 4 := rfl
    have n1 : faceNode 5 1 = 5 := rfl
    have n2 : faceNode 5 2 = 7 := rfl
    have n3 : faceNode 5 3 = 6 := rfl
    match i with
    | 0 => simp only [faceCross, faceRows, cross_0, row_50, row_51, n0, n1, n2, n3, flatCoord]; ring
    | 1 => simp only [faceCross, faceRows, cross_1, row_50, row_51, n0, n1, n2, n3, flatCoord]; ring
    | 2 => simp only [faceCross, faceRows, cross_2, row_50, row_51, n0, n1, n2, n3, flatCoord]; ring

theorem patchCoord_sign (f : Fin 6) (s t : ℝ) : |(flatCoord f s t).1| = 1 := by
  match f with
  | 0 | 1 | 2 | 3 | 4 | 5 => simp [flatCoord]

theorem gp_le : |gp| ≤ 1 := by rw [gp, abs_of_pos (by norm_num)]; norm_num

/-- C85.  The area used for a face that is flat and convex is the area of the quadrilateral. -/
theorem C85_area_flat (E : Fin 3 → Fin 8 → ℝ) (f : Fin 6) (N : Fin 3 → ℝ)
    (h : FlatConvex (faceCorner E f) N) : faceArea E f = quadArea3 (faceCorner E f) := by
  obtain ⟨hN, hc⟩ := h
  choose c hc0 hc using hc
  have point : ∀ s t, |s| ≤ 1 → |t| ≤ 1 → len (faceCross E f s t)
      = 1 / 4 * ∑ j, phi (flatCoord f s t).2.1 (flatCoord f s t).2.2 j * c j := by
    intro s t hs ht
    have hb : |(flatCoord f s t).2.1| ≤ 1 ∧ |(flatCoord f s t).2.2| ≤ 1 := by
      match f with
      | 0 | 4 => exact ⟨ht, hs⟩
      | 1 | 2 | 5 => exact ⟨hs, ht⟩
      | 3 => exact ⟨by simpa [flatCoord] using hs, ht⟩
    have hv : faceCross E f s t = fun i => ((flatCoord f s t).1 * (1 / 4 * ∑ j,
        phi (flatCoord f s t).2.1 (flatCoord f s t).2.2 j * c j)) * N i := by
      funext i
      rw [faceCross_interp]
      simp only [hc, Fin.sum_univ_four]
      ring
    rw [hv, len_smul, hN, mul_one, abs_mul, patchCoord_sign, one_mul, abs_of_nonneg]
    exact mul_nonneg (by norm_num) (Finset.sum_nonneg fun j _ =>
      mul_nonneg (C76_weights_nonneg _ _ hb.1 hb.2 j) (hc0 j))
  have hg := gp_le
  have hg' : |(-gp)| ≤ 1 := by rwa [abs_neg]
  have hdiag : cross (fun k => faceCorner E f 2 k - faceCorner E f 0 k)
      (fun k => faceCorner E f 3 k - faceCorner E f 1 k)
      = fun i => (1 / 2 * (c 0 + c 1 + c 2 + c 3)) * N i := by
    funext i
    have e0 := hc 0 i; have e1 := hc 1 i; have e2 := hc 2 i; have e3 := hc 3 i
    obtain ⟨h0, h1, h2, h3⟩ := corner_terms E f
    rw [h0] at e0; rw [h1] at e1; rw [h2] at e2; rw [h3] at e3
    match i with
    | 0 => simp only [cross_0, faceCorner] at e0 e1 e2 e3 ⊢; linear_combination 1 / 2 * (e0 + e1 + e2 + e3)
    | 1 => simp only [cross_1, faceCorner] at e0 e1 e2 e3 ⊢; linear_combination 1 / 2 * (e0 + e1 + e2 + e3)
    | 2 => simp only [cross_2, faceCorner] at e0 e1 e2 e3 ⊢; linear_combination 1 / 2 * (e0 + e1 + e2 + e3)
  have hr : quadArea3 (faceCorner E f) = 1 / 4 * (c 0 + c 1 + c 2 + c 3) := by
    rw [quadArea3, hdiag, len_smul, hN, abs_of_nonneg]
    · ring
    · have := hc0 0; have := hc0 1; have := hc0 2; have := hc0 3
      linarith
  rw [hr, faceArea, point _ _ hg' hg', point _ _ hg hg', point _ _ hg' hg, point _ _ hg hg]
  simp only [Fin.sum_univ_four, phi_0, phi_1, phi_2, phi_3]
  match f with
  | 0 | 1 | 2 | 3 | 4 | 5 => simp only [flatCoord]; ring

/-- C85.  The area used for any face is the sum of the sizes of the interpolated normal vector at four
points `(±g, ±g)`, and these points are those of the two-point Gauss rule to `1e-15`: the rule that
integrates cubic polynomials. -/
theorem C85_area_rule (E : Fin 3 → Fin 8 → ℝ) (f : Fin 6) : ∃ g : ℝ, 0 < g ∧ |g ^ 2 - 1 / 3| ≤ 1 / 10 ^ 15 ∧
    faceArea E f = ∑ s : Fin 2, ∑ t : Fin 2, len (fun i => 1 / 4 * ∑ j,
      phi (![-g, g] s) (![-g, g] t) j * cornerCross (faceCorner E f) j i) := by
  refine ⟨gp, by rw [gp]; norm_num, by rw [gp, abs_le]; constructor <;> norm_num, ?_⟩
  have hl : ∀ s t, len (faceCross E f s t) = len (fun i => 1 / 4 * ∑ j,
      phi (flatCoord f s t).2.1 (flatCoord f s t).2.2 j * cornerCross (faceCorner E f) j i) := by
    intro s t
    have hv : faceCross E f s t = fun i => (flatCoord f s t).1 * (1 / 4 * ∑ j,
        phi (flatCoord f s t).2.1 (flatCoord f s t).2.2 j * cornerCross (faceCorner E f) j i) := by
      funext i
      exact faceCross_interp E f s t i
    rw [hv, len_smul, patchCoord_sign, one_mul]
  rw [faceArea, hl, hl, hl, hl, Fin.sum_univ_two, Fin.sum_univ_two, Fin.sum_univ_two]
  match f with
  | 0 | 1 | 2 | 3 | 4 | 5 =>
    simp only [flatCoord, Matrix.cons_val_zero, Matrix.cons_val_one, neg_neg]
    ring

/-- C85.  The area of a pair is a quarter of the areas of its matched faces, so that the four pairs at
the corners of a face share its area. -/
theorem C85_pair_area (faces : List ((Fin 3 → Fin 8 → ℝ) × Fin 6)) (N : (Fin 3 → Fin 8 → ℝ) × Fin 6 → Fin 3 → ℝ)
    (h : ∀ s ∈ faces, FlatConvex (faceCorner s.1 s.2) (N s)) :
    4 * pairArea faces = (faces.map fun s => quadArea3 (faceCorner s.1 s.2)).sum := by
  unfold pairArea
  induction faces with
  | nil => simp
  | cons s r ih =>
    simp only [List.map_cons, List.sum_cons]
    rw [← C85_area_flat s.1 s.2 (N s) (h s (by simp)), ← ih fun s hs => h s (by simp [hs])]
    ring

/-- Corners of the unit cube. -/
def cubeCorners : Fin 3 → Fin 8 → ℝ :=
  ![![0, 1, 0, 1, 0, 1, 0, 1], ![0, 0, 1, 1, 0, 0, 1, 1], ![0, 0, 0, 0, 1, 1, 1, 1]]

set_option linter.unusedSimpArgs false in
/-- The top of the unit cube is flat and convex. -/
example : FlatConvex (faceCorner cubeCorners 5) ![0, 0, 1] := by
  have m0 : (![0, 0, 1] : Fin 3 → ℝ) 0 = 0 := rfl
  have m1 : (![0, 0, 1] : Fin 3 → ℝ) 1 = 0 := rfl
  have m2 : (![0, 0, 1] : Fin 3 → ℝ) 2 = 1 := rfl
  refine ⟨by rw [len, m0, m1, m2]; norm_num, fun j => ⟨1, zero_le_one, fun i => ?_⟩⟩
  have n0 : faceNode 5 0 = 4 := rfl
  have n1 : faceNode 5 1 = 5 := rfl
  have n2 : faceNode 5 2 = 7 := rfl
  have n3 : faceNode 5 3 = 6 := rfl
  have q04 : cubeCorners 0 4 = 0 := rfl
  have q05 : cubeCorners 0 5 = 1 := rfl
  have q06 : cubeCorners 0 6 = 0 := rfl
  have q07 : cubeCorners 0 7 = 1 := rfl
  have q14 : cubeCorners 1 4 = 0 := rfl
  have q15 : cubeCorners 1 5 = 0 := rfl
  have q16 : cubeCorners 1 6 = 1 := rfl
  have q17 : cubeCorners 1 7 = 1 := rfl
  have q24 : cubeCorners 2 4 = 1 := rfl
  have q25 : cubeCorners 2 5 = 1 := rfl
  have q26 : cubeCorners 2 6 = 1 := rfl
  have q27 : cubeCorners 2 7 = 1 := rfl
  obtain ⟨h0, h1, h2, h3⟩ := corner_terms cubeCorners 5
  match j with
  | 0 =>
    rw [h0]
    match i with
    | 0 => simp only [cross_0, n0, n1, n2, n3, m0, q04, q05, q06, q07, q14, q15, q16, q17, q24, q25, q26, q27]; norm_num
    | 1 => simp only [cross_1, n0, n1, n2, n3, m1, q04, q05, q06, q07, q14, q15, q16, q17, q24, q25, q26, q27]; norm_num
    | 2 => simp only [cross_2, n0, n1, n2, n3, m2, q04, q05, q06, q07, q14, q15, q16, q17, q24, q25, q26, q27]; norm_num
  | 1 =>
    rw [h1]
    match i with
    | 0 => simp only [cross_0, n0, n1, n2, n3, m0, q04, q05, q06, q07, q14, q15, q16, q17, q24, q25, q26, q27]; norm_num
    | 1 => simp only [cross_1, n0, n1, n2, n3, m1, q04, q05, q06, q07, q14, q15, q16, q17, q24, q25, q26, q27]; norm_num
    | 2 => simp only [cross_2, n0, n1, n2, n3, m2, q04, q05, q06, q07, q14, q15, q16, q17, q24, q25, q26, q27]; norm_num
  | 2 =>
    rw [h2]
    match i with
    | 0 => simp only [cross_0, n0, n1, n2, n3, m0, q04, q05, q06, q07, q14, q15, q16, q17, q24, q25, q26, q27]; norm_num
    | 1 => simp only [cross_1, n0, n1, n2, n3, m1, q04, q05, q06, q07, q14, q15, q16, q17, q24, q25, q26, q27]; norm_num
    | 2 => simp only [cross_2, n0, n1, n2, n3, m2, q04, q05, q06, q07, q14, q15, q16, q17, q24, q25, q26, q27]; norm_num
  | 3 =>
    rw [h3]
    match i with
    | 0 => simp only [cross_0, n0, n1, n2, n3, m0, q04, q05, q06, q07, q14, q15, q16, q17, q24, q25, q26, q27]; norm_num
    | 1 => simp only [cross_1, n0, n1, n2, n3, m1, q04, q05, q06, q07, q14, q15, q16, q17, q24, q25, q26, q27]; norm_num
    | 2 => simp only [cross_2, n0, n1, n2, n3, m2, q04, q05, q06, q07, q14, q15, q16, q17, q24, q25, q26, q27]; norm_num

/-! ### Prescribed motion -/

theorem rot_components (wy wz t : ℝ) :
    (rot wy wz t 0 0 = Real.cos (wz * t) * Real.cos (wy * t) ∧ rot wy wz t 0 1 = -Real.sin (wz * t) ∧
      rot wy wz t 0 2 = Real.cos (wz * t) * Real.sin (wy * t)) ∧
    (rot wy wz t 1 0 = Real.sin (wz * t) * Real.cos (wy * t) ∧ rot wy wz t 1 1 = Real.cos (wz * t) ∧
      rot wy wz t 1 2 = Real.sin (wz * t) * Real.sin (wy * t)) ∧
    (rot wy wz t 2 0 = -Real.sin (wy * t) ∧ rot wy wz t 2 1 = 0 ∧ rot wy wz t 2 2 = Real.cos (wy * t)) := by
  simp [rot, Fin.sum_univ_three, rotZ, rotY]

/-- C88.  The prescribed motion turns the body rigidly: the matrix is orthogonal, of determinant one,
and the identity at time zero. -/
theorem C88_rotation (wy wz t : ℝ) :
    (∀ i j, ∑ k, rot wy wz t k i * rot wy wz t k j = if i = j then 1 else 0) ∧
      det (rot wy wz t) = 1 ∧ ∀ i j, rot wy wz 0 i j = if i = j then 1 else 0 := by
  obtain ⟨⟨a0, a1, a2⟩, ⟨b0, b1, b2⟩, ⟨c0, c1, c2⟩⟩ := rot_components wy wz t
  have hy := Real.sin_sq_add_cos_sq (wy * t)
  have hz := Real.sin_sq_add_cos_sq (wz * t)
  refine ⟨?_, ?_, ?_⟩
  · intro i j
    match i, j with
    | 0, 0 => rw [Fin.sum_univ_three, a0, b0, c0, if_pos rfl]; linear_combination Real.cos (wy * t) ^ 2 * hz + hy
    | 0, 1 => rw [Fin.sum_univ_three, a0, b0, c0, a1, b1, c1, if_neg (by decide)]; ring
    | 0, 2 => rw [Fin.sum_univ_three, a0, b0, c0, a2, b2, c2, if_neg (by decide)]; linear_combination Real.cos (wy * t) * Real.sin (wy * t) * hz
    | 1, 0 => rw [Fin.sum_univ_three, a0, b0, c0, a1, b1, c1, if_neg (by decide)]; ring
    | 1, 1 => rw [Fin.sum_univ_three, a1, b1, c1, if_pos rfl]; linear_combination hz
    | 1, 2 => rw [Fin.sum_univ_three, a1, b1, c1, a2, b2, c2, if_neg (by decide)]; ring
    | 2, 0 => rw [Fin.sum_univ_three, a0, b0, c0, a2, b2, c2, if_neg (by decide)]; linear_combination Real.cos (wy * t) * Real.sin (wy * t) * hz
    | 2, 1 => rw [Fin.sum_univ_three, a1, b1, c1, a2, b2, c2, if_neg (by decide)]; ring
    | 2, 2 => rw [Fin.sum_univ_three, a2, b2, c2, if_pos rfl]; linear_combination Real.sin (wy * t) ^ 2 * hz + hy
  · simp only [det]
    rw [a0, a1, a2, b0, b1, b2, c0, c1, c2]
    linear_combination (Real.cos (wy * t) ^ 2 + Real.sin (wy * t) ^ 2) * hz + hy
  · obtain ⟨⟨a0, a1, a2⟩, ⟨b0, b1, b2⟩, ⟨c0, c1, c2⟩⟩ := rot_components wy wz 0
    simp only [mul_zero, Real.cos_zero, Real.sin_zero, mul_one, neg_zero] at a0 a1 a2 b0 b1 b2 c0 c1 c2
    intro i j
    match i, j with
    | 0, 0 => rw [a0, if_pos rfl]
    | 0, 1 => rw [a1, if_neg (by decide)]
    | 0, 2 => rw [a2, if_neg (by decide)]
    | 1, 0 => rw [b0, if_neg (by decide)]
    | 1, 1 => rw [b1, if_pos rfl]
    | 1, 2 => rw [b2, if_neg (by decide)]
    | 2, 0 => rw [c0, if_neg (by decide)]
    | 2, 1 => rw [c1, if_neg (by decide)]
    | 2, 2 => rw [c2, if_pos rfl]

/-- C88.  Nodes of the same side keep their distances; at time zero every node is where it started;
moving a node with the stored velocity for the time step brings it to its next prescribed place. -/
theorem C88_motion (wy wz rate : ℝ) (X Y : Fin 3 → ℝ) (side : Bool) (t dt : ℝ) (hdt : dt ≠ 0) :
    len (fun i => prescribed wy wz rate X side t i - prescribed wy wz rate Y side t i)
        = len (fun i => X i - Y i) ∧
      (∀ i, prescribed wy wz rate X side 0 i = X i) ∧
      ∀ i, prescribed wy wz rate X side t i + dt * prescribedVel wy wz rate X side t dt i
        = prescribed wy wz rate X side (t + dt) i := by
  obtain ⟨hQ, -, hI⟩ := C88_rotation wy wz t
  refine ⟨?_, ?_, ?_⟩
  · apply len_of_sq _ _ (len_nonneg _)
    rw [sq_len]
    have h00 := hQ 0 0; have h01 := hQ 0 1; have h02 := hQ 0 2
    have h11 := hQ 1 1; have h12 := hQ 1 2; have h22 := hQ 2 2
    simp only [Fin.sum_univ_three, if_true] at h00 h11 h22
    rw [if_neg (by decide), Fin.sum_univ_three] at h01 h02 h12
    simp only [dot, prescribed]
    linear_combination (X 0 - Y 0) ^ 2 * h00 + 2 * (X 0 - Y 0) * (X 1 - Y 1) * h01
      + 2 * (X 0 - Y 0) * (X 2 - Y 2) * h02 + (X 1 - Y 1) ^ 2 * h11
      + 2 * (X 1 - Y 1) * (X 2 - Y 2) * h12 + (X 2 - Y 2) ^ 2 * h22
  · intro i
    simp only [prescribed, hI, mul_zero, zero_mul, ite_self, add_zero]
    match i with
    | 0 => rw [if_pos rfl, if_neg (by decide), if_neg (by decide)]; ring
    | 1 => rw [if_neg (by decide), if_pos rfl, if_neg (by decide)]; ring
    | 2 => rw [if_neg (by decide), if_neg (by decide), if_pos rfl]; ring
  · intro i
    simp only [prescribedVel]
    field_simp
    ring

/-- C88.  A pair of nodes that started together is pulled apart along the turned x axis, by the opening
rate times the time: with that normal the normal opening is exactly this distance and the
tangential opening is zero, at every time and rotation rate. -/
theorem C88_opening_now (wy wz rate : ℝ) (X : Fin 3 → ℝ) (t dt : ℝ) :
    (opening (fun i => rot wy wz t i 0) (prescribed wy wz rate X false t) (prescribed wy wz rate X true t)
        (prescribedVel wy wz rate X false t dt) (prescribedVel wy wz rate X true t dt) dt).un = rate * t ∧
      (opening (fun i => rot wy wz t i 0) (prescribed wy wz rate X false t) (prescribed wy wz rate X true t)
        (prescribedVel wy wz rate X false t dt) (prescribedVel wy wz rate X true t dt) dt).ut = 0 := by
  obtain ⟨hQ, -, -⟩ := C88_rotation wy wz t
  have h00 := hQ 0 0
  rw [if_pos rfl, Fin.sum_univ_three] at h00
  have hun : dot (fun k => prescribed wy wz rate X true t k - prescribed wy wz rate X false t k)
      (fun i => rot wy wz t i 0) = rate * t := by
    simp only [dot, prescribed, if_true, Bool.false_eq_true, if_false]
    linear_combination rate * t * h00
  refine ⟨hun, ?_⟩
  simp only [opening, hun]
  rw [len_eq_zero]
  funext k
  simp only [prescribed, if_true, Bool.false_eq_true, if_false, Pi.zero_apply]
  ring

/-- C88.  The predicted normal opening is the next opening times the cosine of the angle between the
present and the next normal, and the two predicted openings together have its length. -/
theorem C88_opening_next (wy wz rate : ℝ) (X : Fin 3 → ℝ) (t dt : ℝ) (hdt : dt ≠ 0) :
    (opening (fun i => rot wy wz t i 0) (prescribed wy wz rate X false t) (prescribed wy wz rate X true t)
        (prescribedVel wy wz rate X false t dt) (prescribedVel wy wz rate X true t dt) dt).un'
      = rate * (t + dt) * dot (fun i => rot wy wz (t + dt) i 0) (fun i => rot wy wz t i 0) ∧
    (opening (fun i => rot wy wz t i 0) (prescribed wy wz rate X false t) (prescribed wy wz rate X true t)
        (prescribedVel wy wz rate X false t dt) (prescribedVel wy wz rate X true t dt) dt).un' ^ 2 +
      (opening (fun i => rot wy wz t i 0) (prescribed wy wz rate X false t) (prescribed wy wz rate X true t)
        (prescribedVel wy wz rate X false t dt) (prescribedVel wy wz rate X true t dt) dt).ut' ^ 2
      = (rate * (t + dt)) ^ 2 := by
  have hm := fun side i => (C88_motion wy wz rate X X side t dt hdt).2.2 i
  obtain ⟨hQ, -, -⟩ := C88_rotation wy wz t
  have h00 := hQ 0 0
  rw [if_pos rfl, Fin.sum_univ_three] at h00
  have hd : ∀ i, prescribed wy wz rate X true (t + dt) i - prescribed wy wz rate X false (t + dt) i
      = rate * (t + dt) * rot wy wz (t + dt) i 0 := by
    intro i
    simp only [prescribed, if_true, Bool.false_eq_true, if_false]
    ring
  constructor
  · rw [(C85_opening_prediction _ _ _ _ _ (fun _ => 0) (fun _ => 0) dt dt).1]
    simp only [opening, hm, hd, dot]
    ring
  · have hn : len (fun i => rot wy wz t i 0) = 1 := by
      apply len_of_sq _ _ zero_le_one
      simp only [dot]
      linear_combination h00
    rw [(C85_opening_pythagoras _ _ _ _ _ dt hn).2]
    simp only [hm, hd]
    obtain ⟨hQ', -, -⟩ := C88_rotation wy wz (t + dt)
    have h00' := hQ' 0 0
    rw [if_pos rfl, Fin.sum_univ_three] at h00'
    rw [sq_len]
    simp only [dot]
    linear_combination (rate * (t + dt)) ^ 2 * h00'

/-- C88 (finding).  "During the prescribed motion the opening predicted for the end of the step is
purely normal": false.  The prediction uses the normal of the beginning of the step (both normals
are computed from the same coordinates), so a turning crack that only opens gets a tangential
opening. -/
theorem C88_turning_crack_fails :
    ¬ ∀ (wy wz rate : ℝ) (X : Fin 3 → ℝ) (t dt : ℝ), 0 < dt →
      (opening (fun i => rot wy wz t i 0) (prescribed wy wz rate X false t) (prescribed wy wz rate X true t)
        (prescribedVel wy wz rate X false t dt) (prescribedVel wy wz rate X true t dt) dt).ut' = 0 := by
  intro h
  have h1 := h 0 (Real.pi / 2) 1 (fun _ => 0) 0 1 one_pos
  have h2 := C88_opening_next 0 (Real.pi / 2) 1 (fun _ => 0) 0 1 one_ne_zero
  obtain ⟨⟨a0, -, -⟩, ⟨b0, -, -⟩, ⟨c0, -, -⟩⟩ := rot_components 0 (Real.pi / 2) 0
  obtain ⟨⟨a1, -, -⟩, ⟨b1, -, -⟩, ⟨c1, -, -⟩⟩ := rot_components 0 (Real.pi / 2) (0 + 1)
  simp only [zero_add, mul_one, mul_zero, Real.cos_zero, Real.sin_zero, Real.cos_pi_div_two,
    Real.sin_pi_div_two, neg_zero] at a0 b0 c0 a1 b1 c1
  have hu := h2.1
  have hp := h2.2
  rw [hu, h1] at hp
  simp only [dot, zero_add, a0, b0, c0, a1, b1, c1] at hp
  norm_num at hp

end Fierro
