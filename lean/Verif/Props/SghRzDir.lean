import Verif.Model.SghRzDir
import Verif.Props.SghRzKinematics

/-!
# C129: directional dissipation of the axisymmetric solver
-/

namespace Fierro

open MarsRzInput

/-! ### Specification -/

/-- The corner normals are those of a quadrilateral with the given corners, pointing inward. -/
def OfQuad (x : MarsRzInput) (X Y : Fin 4 → ℝ) : Prop := ∀ l d, x.normal l d = - bmatrix2D X Y l d

/-- From the centre of the quadrilateral to the middle of the edge between two corners. -/
noncomputable def edgeArm (X : Fin 4 → ℝ) (l m : Fin 4) : ℝ :=
  (X l + X m) / 2 - (X 0 + X 1 + X 2 + X 3) / 4

/-- All nodes move faster by `c`. -/
def rzBoost (x : MarsRzInput) (c : Fin 2 → ℝ) : MarsRzInput := { x with vel := fun l d => x.vel l d + c d }

/-! ### Helpers -/

theorem dirMars_some {x : MarsRzInput} {q : MarsParams} {f : Fin 4 → Fin 2 → ℝ} (h : x.dirMars q = some f) :
    ∃ s : Fin 4 → Fin 2 → ℝ, (∀ l, x.shockDir l = some (s l)) ∧
      f = x.dirForce q fun l => x.muDir q l (s l) := by
  unfold MarsRzInput.dirMars at h
  simp only [Option.bind_eq_bind, Option.bind_eq_some_iff, Option.some.injEq] at h
  obtain ⟨s0, h0, s1, h1, s2, h2, s3, h3, rfl⟩ := h
  refine ⟨![s0, s1, s2, s3], ?_, rfl⟩
  intro l; fin_cases l <;> simpa

theorem dirMars_of {x : MarsRzInput} {q : MarsParams} {s : Fin 4 → Fin 2 → ℝ} (h : ∀ l, x.shockDir l = some (s l)) :
    x.dirMars q = some (x.dirForce q fun l => x.muDir q l (s l)) := by
  unfold MarsRzInput.dirMars
  rw [h 0, h 1, h 2, h 3]
  simp only [Option.bind_eq_bind, Option.bind_some]
  congr 2
  funext l
  fin_cases l <;> rfl

theorem impedance_nonneg {x : MarsRzInput} {q : MarsParams} (h : x.Physical q) (l : Fin 4) :
    0 ≤ x.impedance q l := by
  unfold MarsRzInput.impedance
  have h0 : 0 ≤ x.magVel l := Real.sqrt_nonneg _
  have h1 := h.den; have h2 := h.sspd; have h3 := h.q1; have h4 := h.q2
  have h5 := h.q1ex; have h6 := h.q2ex
  split_ifs <;> positivity

theorem muDir_nonneg {x : MarsRzInput} {q : MarsParams} (h : x.Physical q) (l : Fin 4) (s : Fin 2 → ℝ) :
    0 ≤ x.muDir q l s := mul_nonneg (impedance_nonneg h l) (by positivity)

/-! ### Theorems -/

/-- **C129 (defined).** In an element with a nonzero area the forces are always defined. -/
theorem C129_defined (x : MarsRzInput) (q : MarsParams) (X Y : Fin 4 → ℝ) (hq : OfQuad x X Y)
    (ha : areaQuad X Y ≠ 0) : ∃ f, x.dirMars q = some f := by
  have key : ∀ l, ∃ s, x.shockDir l = some s := by
    intro l
    unfold MarsRzInput.shockDir
    by_cases h1 : x.magVel l > x.small
    · rw [if_pos h1]; exact ⟨_, rfl⟩
    · rw [if_neg h1]
      have h2 : x.magNormal l ≠ 0 := by
        intro h
        unfold MarsRzInput.magNormal at h
        rw [Real.sqrt_eq_zero (by nlinarith [mul_self_nonneg (x.normal l 0), mul_self_nonneg (x.normal l 1)])] at h
        have e0 : x.normal l 0 = 0 := by nlinarith [mul_self_nonneg (x.normal l 0), mul_self_nonneg (x.normal l 1)]
        have e1 : x.normal l 1 = 0 := by nlinarith [mul_self_nonneg (x.normal l 0), mul_self_nonneg (x.normal l 1)]
        rw [hq] at e0 e1
        apply ha
        unfold areaQuad
        fin_cases l <;> simp only [bmatrix2D] at e0 e1 <;>
          first
          | (have a : Y 1 - Y 3 = 0 := by linarith
             have b : X 3 - X 1 = 0 := by linarith
             rw [a, b]; ring)
          | (have a : X 0 - X 2 = 0 := by linarith
             have b : Y 0 - Y 2 = 0 := by linarith
             rw [a, b]; ring)
      rw [if_neg h2]; exact ⟨_, rfl⟩
  choose s hs using key
  exact ⟨_, dirMars_of hs⟩

/-- **C129 (neighbours).** The corners between which the dissipation acts are the two ends of an edge, each edge seen
once from each end. -/
theorem C129_neighbours (l m : Fin 4) :
    (∃ k, cornerNbr l k = m) ↔ m = l + 1 ∨ l = m + 1 := by
  revert l m; decide

/-- **C129 (dual edges).** The vectors the direction is compared with are perpendicular to the segments from the
centre of the element to the middles of its edges and as long as these. -/
theorem C129_dual_edges (x : MarsRzInput) (X Y : Fin 4 → ℝ) (hq : OfQuad x X Y) (l : Fin 4) (k : Fin 2) :
    ∃ s : ℝ, (s = 1 ∨ s = -1) ∧
      x.dualNormal l k 0 = s * edgeArm Y l (cornerNbr l k) ∧
      x.dualNormal l k 1 = - (s * edgeArm X l (cornerNbr l k)) := by
  unfold MarsRzInput.dualNormal edgeArm
  simp only [hq _ _]
  fin_cases l <;> fin_cases k <;> simp only [cornerNbr] <;>
    first
    | (refine ⟨1, Or.inl rfl, ?_, ?_⟩ <;> simp [bmatrix2D] <;> ring; done)
    | (refine ⟨-1, Or.inr rfl, ?_, ?_⟩ <;> simp [bmatrix2D] <;> ring; done)

/-- **C129 (neutral).** The forces on the corners of an element add up to zero if the total impedance exceeds `fuzz`;
the sum is never more than `fuzz` times the largest velocity. -/
theorem C129_neutral (x : MarsRzInput) (q : MarsParams) (h : x.Physical q) {f : Fin 4 → Fin 2 → ℝ}
    (hf : x.dirMars q = some f) (d : Fin 2) (vmax : ℝ) (hv : ∀ l, |x.vel l d| ≤ vmax) :
    |∑ l, f l d| ≤ x.fuzz * vmax ∧
    ∀ s : Fin 4 → Fin 2 → ℝ, (∀ l, x.shockDir l = some (s l)) → x.fuzz < ∑ l, x.muDir q l (s l) → ∑ l, f l d = 0 := by
  obtain ⟨s, hs, rfl⟩ := dirMars_some hf
  set mu : Fin 4 → ℝ := fun l => x.muDir q l (s l) with hmu
  have hmu0 : ∀ l, 0 ≤ mu l := fun l => muDir_nonneg h l _
  have hz : x.fuzz < ∑ l, mu l → ∑ l, x.dirForce q mu l d = 0 := by
    intro hsum
    unfold MarsRzInput.dirForce
    simp only [mul_assoc]
    rw [← Finset.mul_sum]
    have : ∑ l, mu l * (x.velStar mu d - x.vel l d) = 0 := by
      simp only [mul_sub, Finset.sum_sub_distrib, ← Finset.sum_mul]
      rw [velStar_eq, if_pos hsum, mul_div_cancel₀ _ (by linarith [h.fuzz]), sub_self]
    rw [this, mul_zero]
  have hvm : 0 ≤ vmax := (abs_nonneg _).trans (hv 0)
  refine ⟨?_, fun s' hs' hsum => ?_⟩
  · by_cases hsum : x.fuzz < ∑ l, mu l
    · rw [hz hsum, abs_zero]; exact mul_nonneg h.fuzz.le hvm
    · have e : ∀ l, x.dirForce q mu l d = - (x.phi q * (mu l * x.vel l d)) := by
        intro l
        unfold MarsRzInput.dirForce
        rw [velStar_eq, if_neg hsum]; ring
      obtain ⟨_, p0, p1⟩ := C57_phi_bounds x q h
      rw [Finset.sum_congr rfl fun l _ => e l, Finset.sum_neg_distrib, ← Finset.mul_sum, abs_neg, abs_mul, abs_of_nonneg p0]
      have h1 : |∑ l, mu l * x.vel l d| ≤ ∑ l, mu l * vmax := by
        refine (Finset.abs_sum_le_sum_abs _ _).trans (Finset.sum_le_sum fun l _ => ?_)
        rw [abs_mul, abs_of_nonneg (hmu0 l)]
        exact mul_le_mul_of_nonneg_left (hv l) (hmu0 l)
      rw [← Finset.sum_mul] at h1
      have h2 : (∑ l, mu l) * vmax ≤ x.fuzz * vmax := mul_le_mul_of_nonneg_right (not_lt.mp hsum) hvm
      have h3 : 0 ≤ |∑ l, mu l * x.vel l d| := abs_nonneg _
      nlinarith
  · have : s' = s := by
      funext l
      have := hs' l
      rw [hs l] at this
      exact (Option.some.inj this).symm
    subst this
    exact hz hsum

/-- **C129 (dissipative).** The forces never feed the motion (radius weight left out, compare
`C57_weighted_fails`). -/
theorem C129_dissipative (x : MarsRzInput) (q : MarsParams) (h : x.Physical q) {f : Fin 4 → Fin 2 → ℝ}
    (hf : x.dirMars q = some f) : ∑ l, ∑ d, f l d * x.vel l d ≤ 0 := by
  obtain ⟨s, hs, rfl⟩ := dirMars_some hf
  set mu : Fin 4 → ℝ := fun l => x.muDir q l (s l) with hmu
  have hmu0 : ∀ l, 0 ≤ mu l := fun l => muDir_nonneg h l _
  have hphi := (C57_phi_bounds x q h).2.1
  rw [Finset.sum_comm]
  apply Finset.sum_nonpos
  intro d _
  have hrew : ∑ l, x.dirForce q mu l d * x.vel l d
      = x.phi q * (∑ l, mu l * (x.velStar mu d * x.vel l d - x.vel l d * x.vel l d)) := by
    rw [Finset.mul_sum]
    refine Finset.sum_congr rfl fun l _ => ?_
    unfold MarsRzInput.dirForce; ring
  rw [hrew]
  refine mul_nonpos_of_nonneg_of_nonpos hphi ?_
  rw [velStar_eq]
  split
  · rename_i hsum
    have hS : 0 < ∑ l, mu l := h.fuzz.trans hsum
    set S := ∑ l, mu l with hSdef
    set V := (∑ l, mu l * x.vel l d) / S with hV
    have hVS : ∑ l, mu l * x.vel l d = V * S := by rw [hV]; field_simp
    have : ∑ l, mu l * (V * x.vel l d - x.vel l d * x.vel l d) = -∑ l, mu l * (x.vel l d - V) ^ 2 := by
      have e1 : ∑ l, mu l * (x.vel l d - V) ^ 2 =
          ∑ l, mu l * (x.vel l d * x.vel l d) - 2 * V * ∑ l, mu l * x.vel l d + V ^ 2 * S := by
        rw [hSdef, Finset.mul_sum, Finset.mul_sum, ← Finset.sum_sub_distrib, ← Finset.sum_add_distrib]
        exact Finset.sum_congr rfl fun l _ => by ring
      have e2 : ∑ l, mu l * (V * x.vel l d - x.vel l d * x.vel l d) =
          V * ∑ l, mu l * x.vel l d - ∑ l, mu l * (x.vel l d * x.vel l d) := by
        rw [Finset.mul_sum, ← Finset.sum_sub_distrib]
        exact Finset.sum_congr rfl fun l _ => by ring
      rw [e1, e2, hVS]; ring
    rw [this]
    exact neg_nonpos.mpr (Finset.sum_nonneg fun l _ => mul_nonneg (hmu0 l) (sq_nonneg _))
  · apply Finset.sum_nonpos
    intro l _
    have := hmu0 l
    nlinarith [mul_self_nonneg (x.vel l d)]

theorem rzBoost_avg (x : MarsRzInput) (c : Fin 2 → ℝ) (d : Fin 2) : (rzBoost x c).velAvg d = x.velAvg d + c d := by
  unfold MarsRzInput.velAvg rzBoost
  simp [List.finRange_succ]
  ring

theorem rzBoost_magVel (x : MarsRzInput) (c : Fin 2 → ℝ) (l : Fin 4) : (rzBoost x c).magVel l = x.magVel l := by
  unfold MarsRzInput.magVel
  simp only [rzBoost_avg]
  simp only [rzBoost, add_sub_add_right_eq_sub]

theorem rzBoost_shockDir (x : MarsRzInput) (c : Fin 2 → ℝ) (l : Fin 4) :
    (rzBoost x c).shockDir l = x.shockDir l := by
  unfold MarsRzInput.shockDir
  simp only [rzBoost_magVel, rzBoost_avg]
  simp only [rzBoost, add_sub_add_right_eq_sub]
  rfl

theorem rzBoost_muDir (x : MarsRzInput) (q : MarsParams) (c : Fin 2 → ℝ) (l : Fin 4) (s : Fin 2 → ℝ) :
    (rzBoost x c).muDir q l s = x.muDir q l s := by
  unfold MarsRzInput.muDir MarsRzInput.impedance
  rw [rzBoost_magVel]
  rfl

/-- **C129 (moving frame).** A common velocity added to all nodes does not change the forces (total impedance above
`fuzz`), and an element that moves as a whole feels none. -/
theorem C129_galilean (x : MarsRzInput) (q : MarsParams) (h : x.Physical q) (c : Fin 2 → ℝ)
    (s : Fin 4 → Fin 2 → ℝ) (hs : ∀ l, x.shockDir l = some (s l)) (hsum : x.fuzz < ∑ l, x.muDir q l (s l)) :
    (rzBoost x c).dirMars q = x.dirMars q ∧
    ((∀ l d, x.vel l d = c d) → ∀ f, x.dirMars q = some f → ∀ l d, f l d = 0) := by
  have hne : ∑ l, x.muDir q l (s l) ≠ 0 := by linarith [h.fuzz]
  constructor
  · rw [dirMars_of hs, dirMars_of (x := rzBoost x c) (fun l => by rw [rzBoost_shockDir]; exact hs l)]
    congr 1
    funext l d
    simp only [rzBoost_muDir]
    unfold MarsRzInput.dirForce
    rw [velStar_eq, velStar_eq]
    have hphi : (rzBoost x c).phi q = x.phi q := rfl
    have hfz : (rzBoost x c).fuzz = x.fuzz := rfl
    rw [hphi, hfz, if_pos hsum, if_pos hsum]
    have e : ∑ l, x.muDir q l (s l) * (rzBoost x c).vel l d =
        ∑ l, x.muDir q l (s l) * x.vel l d + (∑ l, x.muDir q l (s l)) * c d := by
      rw [Finset.sum_mul, ← Finset.sum_add_distrib]
      exact Finset.sum_congr rfl fun l _ => by simp only [rzBoost]; ring
    rw [e, add_div, mul_comm (∑ l, x.muDir q l (s l)), mul_div_assoc, div_self hne]
    simp only [rzBoost]
    ring
  · intro hv f hf l d
    rw [dirMars_of hs] at hf
    cases hf
    unfold MarsRzInput.dirForce
    rw [velStar_eq, if_pos hsum]
    simp only [hv]
    rw [← Finset.sum_mul, mul_comm (∑ l, x.muDir q l (s l)), mul_div_assoc, div_self hne]
    ring

/-- **C129 (aligned motion).** In a rectangular element whose nodes differ in the first component of their velocity
only, every corner resists with its impedance times half the height, whatever the width of the element; the model
without direction takes half the diagonal instead. -/
theorem C129_aligned (x : MarsRzInput) (q : MarsParams) (a b w h : ℝ) (hh : 0 ≤ h)
    (hq : OfQuad x ![a, a + w, a + w, a] ![b, b, b + h, b + h])
    (hy : ∀ l, x.vel l 1 = x.velAvg 1) (hx : ∀ l, x.small < |x.vel l 0 - x.velAvg 0|) (hs : 0 ≤ x.small) (l : Fin 4) :
    (∃ s, x.shockDir l = some s ∧ x.muDir q l s = x.impedance q l * (h / 2)) ∧
    x.mu q l = x.impedance q l * (Real.sqrt (w ^ 2 + h ^ 2) / 2) := by
  have hm : x.magVel l = |x.vel l 0 - x.velAvg 0| := by
    unfold MarsRzInput.magVel
    rw [hy l, sub_self, mul_zero, add_zero, Real.sqrt_mul_self_eq_abs]
  have hpos : 0 < |x.vel l 0 - x.velAvg 0| := lt_of_le_of_lt hs (hx l)
  constructor
  · refine ⟨fun d => (x.vel l d - x.velAvg d) / x.magVel l, ?_, ?_⟩
    · unfold MarsRzInput.shockDir
      rw [if_pos (by rw [hm]; exact hx l)]
    · have hs1 : (x.vel l 1 - x.velAvg 1) / x.magVel l = 0 := by rw [hy l, sub_self, zero_div]
      have hs0 : |(x.vel l 0 - x.velAvg 0) / x.magVel l| = 1 := by
        rw [abs_div, hm, abs_abs, div_self hpos.ne']
      unfold MarsRzInput.muDir
      simp only [hs1, zero_mul, add_zero, abs_mul, hs0, one_mul]
      congr 1
      unfold MarsRzInput.dualNormal
      simp only [hq _ _]
      fin_cases l <;> simp [cornerNbr, bmatrix2D] <;> ring_nf <;> simp [abs_of_nonneg hh]
  · unfold MarsRzInput.mu MarsRzInput.magNormal
    congr 1
    rw [show Real.sqrt (w ^ 2 + h ^ 2) / 2 = Real.sqrt ((w ^ 2 + h ^ 2) / 2 ^ 2) by
      rw [Real.sqrt_div (by positivity), Real.sqrt_sq (by norm_num)]]
    congr 1
    simp only [hq _ _]
    fin_cases l <;> simp [bmatrix2D] <;> ring

/-- **C129 (quiet corner).** At a corner of a rectangular element that moves with the average the direction is that of
the corner, and the resistance is that of the model without direction. -/
theorem C129_quiet_corner (x : MarsRzInput) (q : MarsParams) (a b w h : ℝ) (hw : 0 < w) (hh : 0 < h)
    (hq : OfQuad x ![a, a + w, a + w, a] ![b, b, b + h, b + h]) (l : Fin 4) (hl : x.magVel l ≤ x.small) :
    ∃ s, x.shockDir l = some s ∧ x.muDir q l s = x.mu q l := by
  have hn : x.magNormal l = Real.sqrt (w ^ 2 + h ^ 2) / 2 := by
    unfold MarsRzInput.magNormal
    rw [show Real.sqrt (w ^ 2 + h ^ 2) / 2 = Real.sqrt ((w ^ 2 + h ^ 2) / 2 ^ 2) by
      rw [Real.sqrt_div (by positivity), Real.sqrt_sq (by norm_num)]]
    congr 1
    simp only [hq _ _]
    fin_cases l <;> simp [bmatrix2D] <;> ring
  set m := x.magNormal l with hm
  have hm0 : 0 < m := by rw [hn]; positivity
  have hmm : m * m = (w ^ 2 + h ^ 2) / 4 := by
    rw [hn]
    have := Real.mul_self_sqrt (show 0 ≤ w ^ 2 + h ^ 2 by positivity)
    nlinarith
  refine ⟨fun d => x.normal l d / m, ?_, ?_⟩
  · unfold MarsRzInput.shockDir
    rw [if_neg (not_lt.2 hl), if_neg hm0.ne']
  · unfold MarsRzInput.muDir MarsRzInput.mu
    rw [← hm]
    congr 1
    unfold MarsRzInput.dualNormal
    simp only [hq _ _]
    have key : ∀ p r : ℝ, (|p| = w ^ 2 / 4 ∧ |r| = h ^ 2 / 4) ∨ (|p| = h ^ 2 / 4 ∧ |r| = w ^ 2 / 4) →
        |p / m| + |r / m| = m := by
      intro p r hpr
      rw [abs_div, abs_div, abs_of_pos hm0, ← add_div, div_eq_iff hm0.ne', hmm]
      rcases hpr with ⟨e1, e2⟩ | ⟨e1, e2⟩ <;> rw [e1, e2] <;> ring
    have hw2 : |w ^ 2 * (1 / 4)| = w ^ 2 / 4 := by rw [abs_of_nonneg (by positivity)]; ring
    have hh2 : |h ^ 2 * (1 / 4)| = h ^ 2 / 4 := by rw [abs_of_nonneg (by positivity)]; ring
    have shape : ∀ n0 n1 p0 p1 r0 r1 : ℝ,
        ((|n0 * p0 + n1 * p1| = w ^ 2 / 4 ∧ |n0 * r0 + n1 * r1| = h ^ 2 / 4) ∨
          (|n0 * p0 + n1 * p1| = h ^ 2 / 4 ∧ |n0 * r0 + n1 * r1| = w ^ 2 / 4)) →
        |n0 / m * p0 + n1 / m * p1| + |n0 / m * r0 + n1 / m * r1| = m := by
      intro n0 n1 p0 p1 r0 r1 hyp
      have e1 : n0 / m * p0 + n1 / m * p1 = (n0 * p0 + n1 * p1) / m := by ring
      have e2 : n0 / m * r0 + n1 / m * r1 = (n0 * r0 + n1 * r1) / m := by ring
      rw [e1, e2]
      exact key _ _ hyp
    apply shape
    fin_cases l <;> simp [cornerNbr, bmatrix2D] <;> ring_nf <;> simp [hw2, hh2, abs_mul, abs_of_pos hw, abs_of_pos hh] <;>
      ring_nf <;> simp

/-- **C129 (bound).** However the velocities point, a corner resists with at most its impedance times the lengths of
the two segments from the centre to the middles of its edges. -/
theorem C129_resistance_bound (x : MarsRzInput) (q : MarsParams) (h : x.Physical q) (X Y : Fin 4 → ℝ) (hq : OfQuad x X Y)
    (l : Fin 4) (s : Fin 2 → ℝ) (hs : x.shockDir l = some s) (hsm : 0 ≤ x.small) :
    x.muDir q l s ≤ x.impedance q l *
      (Real.sqrt (edgeArm X l (l + 1) ^ 2 + edgeArm Y l (l + 1) ^ 2)
        + Real.sqrt (edgeArm X l (l + 3) ^ 2 + edgeArm Y l (l + 3) ^ 2)) := by
  have hunit : s 0 ^ 2 + s 1 ^ 2 = 1 := by
    unfold MarsRzInput.shockDir at hs
    split at hs
    · rename_i hgt
      cases hs
      have hp : 0 < x.magVel l := lt_of_le_of_lt hsm hgt
      simp only [div_pow, ← add_div]
      rw [div_eq_one_iff_eq (by positivity)]
      unfold MarsRzInput.magVel
      rw [Real.sq_sqrt (by nlinarith [mul_self_nonneg (x.vel l 0 - x.velAvg 0), mul_self_nonneg (x.vel l 1 - x.velAvg 1)])]
      ring
    · split at hs
      · cases hs
      · rename_i hne
        cases hs
        simp only [div_pow, ← add_div]
        rw [div_eq_one_iff_eq (pow_ne_zero 2 hne)]
        unfold MarsRzInput.magNormal
        rw [Real.sq_sqrt (by nlinarith [mul_self_nonneg (x.normal l 0), mul_self_nonneg (x.normal l 1)])]
        ring
  have one : ∀ k, |s 0 * x.dualNormal l k 0 + s 1 * x.dualNormal l k 1| ≤
      Real.sqrt (edgeArm X l (cornerNbr l k) ^ 2 + edgeArm Y l (cornerNbr l k) ^ 2) := by
    intro k
    obtain ⟨t, ht, e0, e1⟩ := C129_dual_edges x X Y hq l k
    apply Real.abs_le_sqrt
    rw [e0, e1]
    have ht2 : t ^ 2 = 1 := by rcases ht with rfl | rfl <;> norm_num
    set p := edgeArm X l (cornerNbr l k)
    set r := edgeArm Y l (cornerNbr l k)
    have : (s 0 * (t * r) + s 1 * -(t * p)) ^ 2 = t ^ 2 * ((s 0 ^ 2 + s 1 ^ 2) * (p ^ 2 + r ^ 2) - (s 0 * p + s 1 * r) ^ 2) := by
      ring
    rw [this, ht2, hunit]
    nlinarith [sq_nonneg (s 0 * p + s 1 * r)]
  unfold MarsRzInput.muDir
  refine mul_le_mul_of_nonneg_left ?_ (impedance_nonneg h l)
  have h0 := one 0
  have h1 := one 1
  fin_cases l <;> simp only [cornerNbr] at h0 h1 <;> first
    | exact add_le_add h0 h1
    | exact (add_le_add h0 h1).trans (le_of_eq (add_comm _ _))

/-- **C129 (expansion off).** With the expansion coefficients set to zero an element whose full rate of expansion is
not negative feels no force. -/
theorem C129_expansion_off (x : MarsRzInput) (q : MarsParams) (hq1 : q.q1ex = 0) (hq2 : q.q2ex = 0)
    (hdiv : 0 ≤ x.L 0 0 + x.L 1 1 + x.hoop) {f : Fin 4 → Fin 2 → ℝ} (hf : x.dirMars q = some f) (l : Fin 4) (d : Fin 2) :
    f l d = 0 := by
  obtain ⟨s, hs, rfl⟩ := dirMars_some hf
  have hi : ∀ l, x.impedance q l = 0 := by
    intro l
    rw [MarsRzInput.impedance, if_neg (show ¬ x.div < 0 from not_lt.2 hdiv), hq1, hq2]
    ring
  simp [MarsRzInput.dirForce, MarsRzInput.muDir, hi]

/-- **C129 (coefficients).** Which coefficients act is decided by the sign of the full rate of expansion. -/
theorem C129_coefficients_used (x : MarsRzInput) (q q' : MarsParams)
    (hf : q.phiFloor = q'.phiFloor) (hc : q.phiCurlFloor = q'.phiCurlFloor)
    (h : (x.L 0 0 + x.L 1 1 + x.hoop < 0 ∧ q.q1 = q'.q1 ∧ q.q2 = q'.q2) ∨
      (0 ≤ x.L 0 0 + x.L 1 1 + x.hoop ∧ q.q1ex = q'.q1ex ∧ q.q2ex = q'.q2ex)) :
    x.dirMars q = x.dirMars q' := by
  have hi : x.impedance q = x.impedance q' := by
    funext l
    rcases h with ⟨h, h1, h2⟩ | ⟨h, h1, h2⟩
    · rw [MarsRzInput.impedance, MarsRzInput.impedance, if_pos (show x.div < 0 from h),
        if_pos (show x.div < 0 from h), h1, h2]
    · rw [MarsRzInput.impedance, MarsRzInput.impedance, if_neg (show ¬ x.div < 0 from not_lt.2 h),
        if_neg (show ¬ x.div < 0 from not_lt.2 h), h1, h2]
  have hphi : x.phi q = x.phi q' := by
    unfold MarsRzInput.phi
    rw [hf, hc]
  unfold MarsRzInput.dirMars MarsRzInput.dirForce MarsRzInput.muDir
  rw [hi, hphi]

/-- **C129 (collapsed element, fails).** If two opposite corners coincide and the element moves as a whole, the forces
are not numbers, while the model without direction gives zero forces. -/
theorem C129_collapsed_fails : ∃ (x : MarsRzInput) (q : MarsParams) (X Y : Fin 4 → ℝ), x.Physical q ∧ OfQuad x X Y ∧
    (∀ l d, x.vel l d = 0) ∧ x.dirMars q = none ∧ ∀ l d, x.mars q l d = 0 := by
  refine ⟨{ rzDemoMars with
      vel := fun _ _ => 0
      normal := fun l d => - bmatrix2D ![0, 1, 2, 1] ![0, 0, 1, 0] l d }, rzDemoParams,
    ![0, 1, 2, 1], ![0, 0, 1, 0], ?_, fun _ _ => rfl, fun _ _ => rfl, ?_, ?_⟩
  · constructor <;> simp [rzDemoMars, rzDemoParams]
  · have h0 : MarsRzInput.shockDir { rzDemoMars with
        vel := fun _ _ => 0
        normal := fun l d => - bmatrix2D ![0, 1, 2, 1] ![0, 0, 1, 0] l d } 0 = none := by
      unfold MarsRzInput.shockDir
      rw [if_neg, if_pos]
      · simp [MarsRzInput.magNormal, bmatrix2D]
      · simp [MarsRzInput.magVel, MarsRzInput.velAvg, rzDemoMars, List.finRange_succ]
    unfold MarsRzInput.dirMars
    rw [h0]
    rfl
  · intro l d
    simp [MarsRzInput.mars, MarsRzInput.velStar, List.finRange_succ]

theorem rzDemoMars_quad : OfQuad rzDemoMars ![0, 0 + 1, 0 + 1, 0] ![0, 0, 0 + 1, 0 + 1] := by
  intro l d
  fin_cases l <;> fin_cases d <;> simp [rzDemoMars, bmatrix2D] <;> norm_num

theorem rzDemoMars_dir : ∃ s : Fin 4 → Fin 2 → ℝ, (∀ l, rzDemoMars.shockDir l = some (s l)) ∧
    ∀ l, rzDemoMars.muDir rzDemoParams l (s l) = 1 / 2 := by
  have hav : rzDemoMars.velAvg 0 = 2 ∧ rzDemoMars.velAvg 1 = 0 := by
    constructor <;> simp [MarsRzInput.velAvg, rzDemoMars, List.finRange_succ] <;> norm_num
  have key := C129_aligned rzDemoMars rzDemoParams 0 0 1 1 zero_le_one rzDemoMars_quad
    (by intro l; rw [hav.2]; fin_cases l <;> simp [rzDemoMars])
    (by
      intro l; rw [hav.1]
      have h3 : |(3 : ℝ) - 2| = 1 := by norm_num
      have h1 : |(1 : ℝ) - 2| = 1 := by norm_num
      fin_cases l <;> simp [rzDemoMars, h3, h1] <;> norm_num)
    (by simp [rzDemoMars])
  have himp : ∀ l, rzDemoMars.impedance rzDemoParams l = 1 := by
    intro l; simp [MarsRzInput.impedance, rzDemoMars, rzDemoParams]
  choose s hs hm using fun l => (key l).1
  exact ⟨s, hs, fun l => by rw [hm, himp, one_mul]⟩

/-- The demonstration element of C57: defined, with a total impedance above `fuzz`. -/
example : (∃ f, rzDemoMars.dirMars rzDemoParams = some f) ∧ rzDemoMars.Physical rzDemoParams ∧
    ∃ s : Fin 4 → Fin 2 → ℝ, (∀ l, rzDemoMars.shockDir l = some (s l)) ∧
      rzDemoMars.fuzz < ∑ l, rzDemoMars.muDir rzDemoParams l (s l) := by
  refine ⟨C129_defined rzDemoMars rzDemoParams _ _ rzDemoMars_quad ?_, rzDemoMars_physical, ?_⟩
  · simp [areaQuad]
  · obtain ⟨s, hs, hm⟩ := rzDemoMars_dir
    refine ⟨s, hs, ?_⟩
    simp only [hm, Fin.sum_univ_four]
    simp only [rzDemoMars]
    norm_num

/-- **C129 (radius weight, fails).** With the radius weight the momentum and energy balances of the axisymmetric
solver carry, the directional dissipation also creates axial momentum and cools the material in an element touching
the axis. -/
theorem C129_weighted_fails : ∃ f, rzDemoMars.dirMars rzDemoParams = some f ∧
    ∑ l, f l 0 * (![0, 0, 1, 1] : Fin 4 → ℝ) l ≠ 0 ∧
    0 < ∑ l, ∑ d, f l d * (![0, 0, 1, 1] : Fin 4 → ℝ) l * rzDemoMars.vel l d := by
  obtain ⟨s, hs, hm⟩ := rzDemoMars_dir
  have hphi : rzDemoMars.phi rzDemoParams = 1 := by
    have := C57_phi_bounds rzDemoMars rzDemoParams rzDemoMars_physical
    exact le_antisymm this.2.2 this.1
  have hf : ∀ l d, rzDemoMars.dirForce rzDemoParams (fun l => rzDemoMars.muDir rzDemoParams l (s l)) l d
      = 1 / 2 * ((![2, 0] : Fin 2 → ℝ) d - rzDemoMars.vel l d) := by
    intro l d
    unfold MarsRzInput.dirForce
    rw [hphi, velStar_eq]
    simp only [hm]
    rw [if_pos]
    · fin_cases d <;> simp [Fin.sum_univ_four, rzDemoMars] <;> norm_num
    · simp [rzDemoMars]; norm_num
  refine ⟨_, dirMars_of hs, ?_, ?_⟩
  · simp only [hf]
    simp [Fin.sum_univ_four, rzDemoMars]
    norm_num
  · simp only [hf]
    simp [Fin.sum_univ_four, rzDemoMars]

end Fierro
