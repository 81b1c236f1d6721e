import Mathlib.Analysis.SpecialFunctions.Trigonometric.Bounds
import Mathlib.Analysis.Real.Pi.Bounds
import Verif.Model.EvpColors
import Verif.Props.EvpOrient

/-!
# C116: inverse pole figure colours

The colours written for each cell: what direction they show, how the colour depends on it, and where the direction
is not the one meant.
-/

namespace Fierro

open Real

/-! ### The direction -/

/-- **C116 (quaternion and matrix agree).**  For angles in radians the direction that is coloured is the reference
direction carried by the matrix of the same three angles, so for the sample `z` axis its third column. -/
theorem C116_direction (ph th tm : ℝ) (h : Fin 3 → ℝ) (i : Fin 3) :
    invTurn (quatB ph th tm) h i = ∑ j, euler2 ph th tm i j * h j := by
  obtain ⟨a, rfl⟩ : ∃ a, ph = 2 * a := ⟨ph / 2, by ring⟩
  obtain ⟨b, rfl⟩ : ∃ b, th = 2 * b := ⟨th / 2, by ring⟩
  obtain ⟨c, rfl⟩ : ∃ c, tm = 2 * c := ⟨tm / 2, by ring⟩
  have e1 : (0.5 : ℝ) * (2 * b) = b := by ring
  have e2 : (0.5 : ℝ) * (2 * a - 2 * c) = a - c := by ring
  have e3 : (0.5 : ℝ) * (2 * a + 2 * c) = a + c := by ring
  have ha := Real.sin_sq_add_cos_sq a
  have hb := Real.sin_sq_add_cos_sq b
  have hc := Real.sin_sq_add_cos_sq c
  have hi : i = 0 ∨ i = 1 ∨ i = 2 := by fin_cases i <;> simp
  rcases hi with rfl | rfl | rfl <;>
    simp [invTurn, quatB, euler2, otherIndex, cyclicSign, Fin.sum_univ_three, e1, e2, e3, Real.sin_two_mul,
      Real.cos_two_mul', Real.sin_sub, Real.cos_sub, Real.sin_add, Real.cos_add]
  · linear_combination
      ((cos c ^ 2 - sin c ^ 2) * (cos a ^ 2 - sin a ^ 2) * h 0 +
        (cos c ^ 2 - sin c ^ 2) * (2 * sin a * cos a) * h 1) * hb +
      (2 * sin b * cos b) * (2 * sin c * cos c) * h 2 * ha
  · linear_combination
      (-(2 * sin c * cos c) * (cos a ^ 2 - sin a ^ 2) * h 0 -
        (2 * sin a * cos a) * (2 * sin c * cos c) * h 1) * hb +
      (cos c ^ 2 - sin c ^ 2) * (2 * sin b * cos b) * h 2 * ha
  · linear_combination
      ((2 * sin a * cos a) * (2 * sin b * cos b) * h 0 - (2 * sin b * cos b) * (cos a ^ 2 - sin a ^ 2) * h 1) * hc +
      (cos b ^ 2 - sin b ^ 2) * h 2 * ((sin c ^ 2 + cos c ^ 2) * ha + hc)

/-- The normalisation leaves the sample `z` axis. -/
theorem refDirection_eq : refDirection = ![0, 0, 1] := by
  funext i
  fin_cases i <;> simp [refDirection, Function.update]

/-- For angles in radians the coloured direction is the third column of their matrix. -/
theorem direction_column (ph th tm : ℝ) :
    invTurn (quatB ph th tm) refDirection = fun i => euler2 ph th tm i 2 := by
  funext i
  rw [C116_direction, refDirection_eq]
  simp [Fin.sum_univ_three]

/-! ### The colour of a direction -/

/-- Largest entry. -/
def IsTop (m : ℝ) (d : Fin 3 → ℝ) : Prop := (∀ i, d i ≤ m) ∧ ∃ i, d i = m

/-- Smallest entry. -/
def IsBottom (m : ℝ) (d : Fin 3 → ℝ) : Prop := (∀ i, m ≤ d i) ∧ ∃ i, d i = m

theorem top_value (d : Fin 3 → ℝ) (h0 : ∀ i, 0 ≤ d i) : IsTop (d (topIndex d)) d := by
  have a0 := h0 0; have a1 := h0 1; have a2 := h0 2
  refine ⟨fun i => ?_, _, rfl⟩
  have hi : i = 0 ∨ i = 1 ∨ i = 2 := by fin_cases i <;> simp
  simp only [topIndex, List.foldl_cons, List.foldl_nil]
  rcases hi with rfl | rfl | rfl <;> split_ifs <;> dsimp only at * <;> linarith

theorem bottom_value (d : Fin 3 → ℝ) (h1 : ∀ i, d i ≤ 1) : IsBottom (d (bottomIndex d)) d := by
  have a0 := h1 0; have a1 := h1 1; have a2 := h1 2
  refine ⟨fun i => ?_, _, rfl⟩
  have hi : i = 0 ∨ i = 1 ∨ i = 2 := by fin_cases i <;> simp
  simp only [bottomIndex, List.foldl_cons, List.foldl_nil]
  rcases hi with rfl | rfl | rfl <;> split_ifs <;> dsimp only at * <;> linarith

theorem middle_other : ∀ b t : Fin 3, b ≠ t →
    ([0, 1, 2].foldl (fun m jj => if jj ≠ b ∧ jj ≠ t then jj else m) (0 : Fin 3)) ≠ b ∧
    ([0, 1, 2].foldl (fun m jj => if jj ≠ b ∧ jj ≠ t then jj else m) (0 : Fin 3)) ≠ t := by decide

theorem three_sum (d : Fin 3 → ℝ) (t m b : Fin 3) (h1 : m ≠ b) (h2 : m ≠ t) (h3 : b ≠ t) :
    d t + d m + d b = d 0 + d 1 + d 2 := by
  fin_cases t <;> fin_cases m <;> fin_cases b <;> simp at h1 h2 h3 ⊢ <;> ring

theorem middle_value (d : Fin 3 → ℝ) (h0 : ∀ i, 0 ≤ d i) (h1 : ∀ i, d i ≤ 1) :
    d (topIndex d) + d (middleIndex d) + d (bottomIndex d) = d 0 + d 1 + d 2 := by
  by_cases h : bottomIndex d = topIndex d
  · have ht := top_value d h0
    have hb := bottom_value d h1
    have e : ∀ i, d i = d (topIndex d) := fun i => le_antisymm (ht.1 i) (h ▸ hb.1 i)
    rw [e (middleIndex d), e (bottomIndex d), e 0, e 1, e 2]
  · obtain ⟨x, y⟩ := middle_other _ _ h
    exact three_sum d _ _ _ x y h

/-- A colour as the standard scheme gives it for a direction at `phi` from the nearest cube axis, and at `thett`
around it.  The largest channel is brought to 255. -/
noncomputable def schemeColor (a b c : ℝ) : Fin 3 → ℕ :=
  let s := Real.sin (1.6 * min (Real.pi / 4) (Real.arccos a))
  let t := Complex.arg ⟨b, c⟩
  let m := max (1 - s) (max (s * Real.cos (2 * t)) (s * Real.sin (2 * t)))
  ![⌊255 * ((1 - s) / m)⌋₊, ⌊255 * (s * Real.cos (2 * t) / m)⌋₊, ⌊255 * (s * Real.sin (2 * t) / m)⌋₊]

/-- The direction has the entries `a ≥ b ≥ c ≥ 0` up to order and sign. -/
def SortsTo (d : Fin 3 → ℝ) (a b c : ℝ) : Prop :=
  0 ≤ c ∧ c ≤ b ∧ b ≤ a ∧ ∃ σ : Equiv.Perm (Fin 3), ∀ i, |d (σ i)| = ![a, b, c] i

theorem sorts_unique (d : Fin 3 → ℝ) (a b c : ℝ) (h : SortsTo d a b c) (m t : ℝ)
    (hm : IsTop m fun i => |d i|) (ht : IsBottom t fun i => |d i|) :
    m = a ∧ t = c ∧ |d 0| + |d 1| + |d 2| = a + b + c := by
  obtain ⟨h0, h1, h2, σ, hσ⟩ := h
  have e0 : |d (σ 0)| = a := by simpa using hσ 0
  have e1 : |d (σ 1)| = b := by simpa using hσ 1
  have e2 : |d (σ 2)| = c := by simpa using hσ 2
  have all : ∀ i, |d i| = a ∨ |d i| = b ∨ |d i| = c := by
    intro i
    obtain ⟨k, rfl⟩ := σ.surjective i
    have hk : k = 0 ∨ k = 1 ∨ k = 2 := by fin_cases k <;> simp
    rcases hk with rfl | rfl | rfl
    · exact Or.inl e0
    · exact Or.inr (Or.inl e1)
    · exact Or.inr (Or.inr e2)
  refine ⟨?_, ?_, ?_⟩
  · obtain ⟨i, hi⟩ := hm.2
    have := hm.1 (σ 0)
    rcases all i with x | x | x <;> simp only at * <;> linarith
  · obtain ⟨i, hi⟩ := ht.2
    have := ht.1 (σ 2)
    rcases all i with x | x | x <;> simp only at * <;> linarith
  · have := Equiv.sum_comp σ fun i => |d i|
    rw [Fin.sum_univ_three, Fin.sum_univ_three, e0, e1, e2] at this
    linarith

theorem scheme_bounds (a b c : ℝ) (h0 : 0 ≤ c) (h1 : c ≤ b) :
    let s := Real.sin (1.6 * min (Real.pi / 4) (Real.arccos a))
    let t := Complex.arg ⟨b, c⟩
    0 ≤ s ∧ s < 1 ∧ 0 ≤ Real.cos (2 * t) ∧ 0 ≤ Real.sin (2 * t) := by
  intro s t
  have hpi := Real.pi_pos
  have hm0 : 0 ≤ min (Real.pi / 4) (Real.arccos a) := le_min (by linarith) (Real.arccos_nonneg a)
  have hm1 : min (Real.pi / 4) (Real.arccos a) ≤ Real.pi / 4 := min_le_left _ _
  have ht : 0 ≤ t ∧ t ≤ Real.pi / 4 := by
    refine ⟨Complex.arg_nonneg_iff.2 h0, ?_⟩
    by_contra hc
    push Not at hc
    have hle : t ≤ Real.pi / 2 := Complex.arg_le_pi_div_two_iff.2 (Or.inl (le_trans h0 h1))
    have hs : Real.sin (Real.pi / 4) < Real.sin t :=
      Real.sin_lt_sin_of_lt_of_le_pi_div_two (by linarith) hle hc
    have hcs : Real.cos t < Real.cos (Real.pi / 4) :=
      Real.cos_lt_cos_of_nonneg_of_le_pi_div_two (by linarith) hle hc
    rw [Real.sin_pi_div_four] at hs
    rw [Real.cos_pi_div_four] at hcs
    have e1 : ‖(⟨b, c⟩ : ℂ)‖ * Real.cos t = b := Complex.norm_mul_cos_arg ⟨b, c⟩
    have e2 : ‖(⟨b, c⟩ : ℂ)‖ * Real.sin t = c := Complex.norm_mul_sin_arg ⟨b, c⟩
    rcases eq_or_lt_of_le (norm_nonneg (⟨b, c⟩ : ℂ)) with hz | hz
    · have : t = 0 := by
        have : (⟨b, c⟩ : ℂ) = 0 := norm_eq_zero.1 hz.symm
        show Complex.arg ⟨b, c⟩ = 0
        rw [this, Complex.arg_zero]
      linarith
    · nlinarith
  refine ⟨Real.sin_nonneg_of_nonneg_of_le_pi (by nlinarith) (by nlinarith), ?_, ?_, ?_⟩
  · have := Real.sin_lt_sin_of_lt_of_le_pi_div_two (x := 1.6 * min (Real.pi / 4) (Real.arccos a))
      (y := Real.pi / 2) (by nlinarith) le_rfl (by nlinarith)
    rwa [Real.sin_pi_div_two] at this
  · exact Real.cos_nonneg_of_neg_pi_div_two_le_of_le (by nlinarith) (by nlinarith)
  · exact Real.sin_nonneg_of_nonneg_of_le_pi (by nlinarith) (by nlinarith)

theorem ratio_le (s u v : ℝ) (hs : s < 1) :
    let m := max (1 - s) (max u v)
    0 < m ∧ (1 - s) / m ≤ 1 ∧ u / m ≤ 1 ∧ v / m ≤ 1 := by
  intro m
  have hm : 0 < m := lt_of_lt_of_le (by linarith) (le_max_left _ _)
  refine ⟨hm, ?_, ?_, ?_⟩ <;> rw [div_le_one hm]
  · exact le_max_left _ _
  · exact le_trans (le_max_left _ _) (le_max_right _ _)
  · exact le_trans (le_max_right _ _) (le_max_right _ _)

theorem floor_byte (x : ℝ) (h : x ≤ 1) : ⌊255 * x⌋₊ % 256 = ⌊255 * x⌋₊ := by
  apply Nat.mod_eq_of_lt
  apply Nat.floor_lt' (by norm_num) |>.2
  push_cast
  linarith

theorem channels_eq (d e : Fin 3 → ℝ) (he : e = fun i => |d i|) (m b t : ℝ) (hA : e (topIndex e) = m)
    (hB : e (bottomIndex e) = t) (hC : e (middleIndex e) = b) (hm : m ≤ 1) :
    let s := Real.sin (1.6 * min (Real.pi / 4) (Real.arccos m))
    let th := Complex.arg ⟨b, t⟩
    let M := max (1 - s) (max (s * Real.cos (2 * th)) (s * Real.sin (2 * th)))
    channels d = ![(1 - s) / M, s * Real.cos (2 * th) / M, s * Real.sin (2 * th) / M] := by
  subst he
  have hnot : ¬ (fun i => |d i|) (topIndex fun i => |d i|) > 1 := by rw [hA]; exact not_lt.2 hm
  unfold channels
  simp only [if_neg hnot]
  rw [← hA, ← hB, ← hC]
  simp only [atan2R, sub_sub_cancel, mul_one_div]

theorem ipf_core (d : Fin 3 → ℝ) (h1 : ∀ i, |d i| ≤ 1) (m t : ℝ)
    (hm : IsTop m fun i => |d i|) (ht : IsBottom t fun i => |d i|) :
    0 ≤ t ∧ t ≤ |d 0| + |d 1| + |d 2| - m - t ∧ |d 0| + |d 1| + |d 2| - m - t ≤ m ∧ m ≤ 1 ∧
    ipfColor d = schemeColor m (|d 0| + |d 1| + |d 2| - m - t) t := by
  obtain ⟨e, he⟩ : ∃ e, e = fun i => |d i| := ⟨_, rfl⟩
  rw [← he] at hm ht
  have h0 : ∀ i, 0 ≤ e i := fun i => by rw [he]; exact abs_nonneg _
  have h1' : ∀ i, e i ≤ 1 := fun i => by rw [he]; exact h1 i
  have A := top_value e h0
  have B := bottom_value e h1'
  have C := middle_value e h0 h1'
  have hA : e (topIndex e) = m := by
    obtain ⟨i, hi⟩ := hm.2
    exact le_antisymm (hm.1 _) (by rw [← hi]; exact A.1 i)
  have hB : e (bottomIndex e) = t := by
    obtain ⟨i, hi⟩ := ht.2
    exact le_antisymm (by rw [← hi]; exact B.1 i) (ht.1 _)
  have hC : e (middleIndex e) = |d 0| + |d 1| + |d 2| - m - t := by
    have : e 0 + e 1 + e 2 = |d 0| + |d 1| + |d 2| := by rw [he]
    linarith
  have hbm : t ≤ e (middleIndex e) := ht.1 _
  have hmm : e (middleIndex e) ≤ m := hm.1 _
  have ht0 : 0 ≤ t := by rw [← hB]; exact h0 _
  have hm1 : m ≤ 1 := by rw [← hA]; exact h1' _
  have key := channels_eq d e he m _ t hA hB hC hm1
  rw [hC] at hbm hmm
  refine ⟨ht0, hbm, hmm, hm1, ?_⟩
  obtain ⟨s0, s1, c0, c1⟩ := scheme_bounds m _ t ht0 hbm
  obtain ⟨m0, r1, r2, r3⟩ := ratio_le _ (Real.sin (1.6 * min (Real.pi / 4) (Real.arccos m)) *
      Real.cos (2 * Complex.arg ⟨|d 0| + |d 1| + |d 2| - m - t, t⟩))
    (Real.sin (1.6 * min (Real.pi / 4) (Real.arccos m)) *
      Real.sin (2 * Complex.arg ⟨|d 0| + |d 1| + |d 2| - m - t, t⟩)) s1
  funext c
  have hc : c = 0 ∨ c = 1 ∨ c = 2 := by fin_cases c <;> simp
  rcases hc with rfl | rfl | rfl <;> simp only [ipfColor, key, schemeColor]
  · exact floor_byte _ r1
  · exact floor_byte _ r2
  · exact floor_byte _ r3

theorem unit_abs (d : Fin 3 → ℝ) (hd : d 0 ^ 2 + d 1 ^ 2 + d 2 ^ 2 = 1) (i : Fin 3) : |d i| ≤ 1 := by
  have hi : i = 0 ∨ i = 1 ∨ i = 2 := by fin_cases i <;> simp
  rw [← sq_le_one_iff_abs_le_one]
  rcases hi with rfl | rfl | rfl <;> nlinarith [sq_nonneg (d 0), sq_nonneg (d 1), sq_nonneg (d 2)]

/-- **C116 (the scheme).**  A direction with entries `a ≥ b ≥ c ≥ 0`, `a ≤ 1`, up to order and sign gets the colour
of the scheme for `(a, b, c)`. -/
theorem C116_scheme (d : Fin 3 → ℝ) (a b c : ℝ) (h : SortsTo d a b c) (ha : a ≤ 1) :
    ipfColor d = schemeColor a b c := by
  obtain ⟨h0, h1, h2, σ, hσ⟩ := id h
  have e0 : |d (σ 0)| = a := by simpa using hσ 0
  have e1 : |d (σ 1)| = b := by simpa using hσ 1
  have e2 : |d (σ 2)| = c := by simpa using hσ 2
  have all : ∀ i, |d i| ≤ a ∧ c ≤ |d i| := by
    intro i
    obtain ⟨k, rfl⟩ := σ.surjective i
    have hk : k = 0 ∨ k = 1 ∨ k = 2 := by fin_cases k <;> simp
    rcases hk with rfl | rfl | rfl
    · rw [e0]; exact ⟨le_rfl, by linarith⟩
    · rw [e1]; exact ⟨by linarith, by linarith⟩
    · rw [e2]; exact ⟨by linarith, by linarith⟩
  have hm : IsTop a fun i => |d i| := ⟨fun i => (all i).1, σ 0, e0⟩
  have ht : IsBottom c fun i => |d i| := ⟨fun i => (all i).2, σ 2, e2⟩
  rw [(ipf_core d (fun i => le_trans (all i).1 ha) a c hm ht).2.2.2.2, (sorts_unique d a b c h a c hm ht).2.2]
  congr 1
  ring

example : SortsTo ![-0.6, 0, 0.8] 0.8 0.6 0 := by
  refine ⟨le_rfl, by norm_num, by norm_num, ⟨![2, 0, 1], ![1, 2, 0], by decide, by decide⟩, fun i => ?_⟩
  fin_cases i <;> simp <;> norm_num

/-- **C116 (cubic symmetry).**  Changing the order of the crystal axes, or the sense of any of them, does not change
the colour of a direction. -/
theorem C116_symmetry (d : Fin 3 → ℝ) (hd : d 0 ^ 2 + d 1 ^ 2 + d 2 ^ 2 = 1) (σ : Equiv.Perm (Fin 3))
    (ε : Fin 3 → ℝ) (hε : ∀ i, ε i = 1 ∨ ε i = -1) :
    ipfColor (fun i => ε i * d (σ i)) = ipfColor d := by
  have h1 := unit_abs d hd
  have e : ∀ i, |ε i * d (σ i)| = |d (σ i)| := by
    intro i
    rcases hε i with x | x <;> simp [x]
  have hm := top_value (fun i => |d i|) fun i => abs_nonneg _
  have ht := bottom_value (fun i => |d i|) h1
  rw [(ipf_core d h1 _ _ hm ht).2.2.2.2, (ipf_core (fun i => ε i * d (σ i)) (fun i => by rw [e]; exact h1 _)
    |d (topIndex fun i => |d i|)| |d (bottomIndex fun i => |d i|)| ?_ ?_).2.2.2.2]
  · have := Equiv.sum_comp σ fun i => |d i|
    rw [Fin.sum_univ_three, Fin.sum_univ_three] at this
    rw [e, e, e, this]
  · refine ⟨fun i => by show |ε i * d (σ i)| ≤ _; rw [e]; exact hm.1 _, ?_⟩
    obtain ⟨k, hk⟩ := σ.surjective (topIndex fun i => |d i|)
    exact ⟨k, by show |ε k * d (σ k)| = _; rw [e, hk]⟩
  · refine ⟨fun i => by show _ ≤ |ε i * d (σ i)|; rw [e]; exact ht.1 _, ?_⟩
    obtain ⟨k, hk⟩ := σ.surjective (bottomIndex fun i => |d i|)
    exact ⟨k, by show |ε k * d (σ k)| = _; rw [e, hk]⟩

/-- **C116 (range).**  Every channel is at most 255 and one of them is 255. -/
theorem C116_range (d : Fin 3 → ℝ) (hd : d 0 ^ 2 + d 1 ^ 2 + d 2 ^ 2 = 1) :
    (∀ c, ipfColor d c ≤ 255) ∧ ∃ c, ipfColor d c = 255 := by
  have h1 := unit_abs d hd
  refine ⟨fun c => Nat.lt_succ_iff.1 (Nat.mod_lt _ (by norm_num)), ?_⟩
  obtain ⟨t0, tb, bm, m1, hcol⟩ := ipf_core d h1 _ _ (top_value (fun i => |d i|) fun i => abs_nonneg _)
    (bottom_value (fun i => |d i|) h1)
  obtain ⟨s0, s1, c0, c1⟩ := scheme_bounds _ _ _ t0 tb
  rw [hcol]
  unfold schemeColor
  obtain ⟨m0, -⟩ := ratio_le _ (Real.sin (1.6 * min (Real.pi / 4) (Real.arccos |d (topIndex fun i => |d i|)|)) *
      Real.cos (2 * Complex.arg ⟨|d 0| + |d 1| + |d 2| - |d (topIndex fun i => |d i|)| -
        |d (bottomIndex fun i => |d i|)|, |d (bottomIndex fun i => |d i|)|⟩))
    (Real.sin (1.6 * min (Real.pi / 4) (Real.arccos |d (topIndex fun i => |d i|)|)) *
      Real.sin (2 * Complex.arg ⟨|d 0| + |d 1| + |d 2| - |d (topIndex fun i => |d i|)| -
        |d (bottomIndex fun i => |d i|)|, |d (bottomIndex fun i => |d i|)|⟩)) s1
  have full : ∀ x : ℝ, 0 < x → ⌊255 * (x / x)⌋₊ = 255 := fun x hx => by
    rw [div_self hx.ne', mul_one]
    exact_mod_cast Nat.floor_natCast (R := ℝ) 255
  generalize Real.sin (1.6 * min (Real.pi / 4) (Real.arccos |d (topIndex fun i => |d i|)|)) = s at *
  generalize s * Real.cos _ = u at *
  generalize s * Real.sin _ = v at *
  rcases max_choice (1 - s) (max u v) with h | h
  · exact ⟨0, by simp only [h] at m0 ⊢; exact full _ m0⟩
  · rcases max_choice u v with k | k
    · rw [k] at h m0
      exact ⟨1, by simp only [k, h] at m0 ⊢; exact full _ m0⟩
    · rw [k] at h m0
      exact ⟨2, by simp only [k, h] at m0 ⊢; exact full _ m0⟩

theorem floor_255 : ⌊(255 : ℝ)⌋₊ = 255 := by exact_mod_cast Nat.floor_natCast (R := ℝ) 255

theorem scheme_axis : schemeColor 1 0 0 = ![255, 0, 0] := by
  have e : (⟨0, 0⟩ : ℂ) = 0 := rfl
  have hm : min (Real.pi / 4) (0 : ℝ) = 0 := min_eq_right (by positivity)
  simp [schemeColor, e, hm]

/-- `sin 72°`. -/
theorem sin_72 : 255 / 269 < Real.sin (1.6 * (Real.pi / 4)) ∧ Real.sin (1.6 * (Real.pi / 4)) ≤ 255 / 268 := by
  have e : Real.sin (1.6 * (Real.pi / 4)) = Real.cos (Real.pi / 10) := by
    rw [← Real.cos_pi_div_two_sub]; congr 1; ring
  rw [e]
  have h2 : Real.cos (2 * (Real.pi / 10)) = 2 * Real.cos (Real.pi / 10) ^ 2 - 1 := Real.cos_two_mul _
  rw [show 2 * (Real.pi / 10) = Real.pi / 5 by ring, Real.cos_pi_div_five] at h2
  have h5 : Real.sqrt 5 ^ 2 = 5 := Real.sq_sqrt (by norm_num)
  have h50 := Real.sqrt_nonneg 5
  have hc : 0 ≤ Real.cos (Real.pi / 10) :=
    Real.cos_nonneg_of_neg_pi_div_two_le_of_le (by linarith [Real.pi_pos]) (by linarith [Real.pi_pos])
  have l5 : 2.236 < Real.sqrt 5 := by nlinarith
  have u5 : Real.sqrt 5 < 2.237 := by nlinarith
  constructor <;> nlinarith

theorem floor_13 {s : ℝ} (h1 : 255 / 269 < s) (h2 : s ≤ 255 / 268) : ⌊255 * ((1 - s) / s)⌋₊ = 13 := by
  have hs : 0 < s := by linarith
  have e : 255 * ((1 - s) / s) = 255 * (1 - s) / s := by ring
  rw [e, Nat.floor_eq_iff (div_nonneg (by nlinarith) hs.le)]
  constructor
  · rw [le_div_iff₀ hs]; push_cast; nlinarith
  · rw [div_lt_iff₀ hs]; push_cast; nlinarith

theorem scheme_face (x : ℝ) (hx : x = Real.sqrt 2 / 2) : schemeColor x x 0 = ![13, 255, 0] := by
  subst hx
  have ha : Real.arccos (Real.sqrt 2 / 2) = Real.pi / 4 := by
    rw [← Real.cos_pi_div_four, Real.arccos_cos (by positivity) (by linarith [Real.pi_pos])]
  have ht : Complex.arg ⟨Real.sqrt 2 / 2, 0⟩ = 0 := Complex.arg_ofReal_of_nonneg (by positivity)
  obtain ⟨l, u⟩ := sin_72
  have hs : 0 < Real.sin (1.6 * (Real.pi / 4)) := by linarith
  have hm : max (1 - Real.sin (1.6 * (Real.pi / 4))) (max (Real.sin (1.6 * (Real.pi / 4))) 0) =
      Real.sin (1.6 * (Real.pi / 4)) := by
    rw [max_eq_left hs.le, max_eq_right (by linarith)]
  simp only [schemeColor, ha, ht, min_self, mul_zero, Real.cos_zero, Real.sin_zero, mul_one, hm, div_self hs.ne',
    floor_255, floor_13 l u, zero_div, Nat.floor_zero]

theorem scheme_body (x : ℝ) (hx : x = Real.sqrt 3 / 3) : schemeColor x x x = ![13, 0, 255] := by
  have h3 : Real.sqrt 3 ^ 2 = 3 := Real.sq_sqrt (by norm_num)
  have h30 : 0 < Real.sqrt 3 := Real.sqrt_pos.2 (by norm_num)
  have hx0 : 0 < x := by rw [hx]; positivity
  have ha : Real.pi / 4 ≤ Real.arccos x := by
    have e : Real.arccos (Real.sqrt 2 / 2) = Real.pi / 4 := by
      rw [← Real.cos_pi_div_four, Real.arccos_cos (by positivity) (by linarith [Real.pi_pos])]
    rw [← e]
    apply Real.antitone_arccos
    have h2 : Real.sqrt 2 ^ 2 = 2 := Real.sq_sqrt (by norm_num)
    have h20 : 0 < Real.sqrt 2 := Real.sqrt_pos.2 (by norm_num)
    rw [hx]
    by_contra hc
    push Not at hc
    nlinarith
  have ht : Complex.arg ⟨x, x⟩ = Real.pi / 4 := by
    have : (⟨x, x⟩ : ℂ) = (x * Real.sqrt 2 : ℝ) * (Complex.cos (Real.pi / 4 : ℝ) + Complex.sin (Real.pi / 4 : ℝ) * Complex.I) := by
      rw [← Complex.ofReal_cos, ← Complex.ofReal_sin, Real.cos_pi_div_four, Real.sin_pi_div_four]
      have h2 : Real.sqrt 2 * Real.sqrt 2 = 2 := Real.mul_self_sqrt (by norm_num)
      apply Complex.ext <;> simp <;> linear_combination (-x / 2) * h2
    rw [this, Complex.arg_mul_cos_add_sin_mul_I (by positivity)]
    exact ⟨by linarith [Real.pi_pos], by linarith [Real.pi_pos]⟩
  obtain ⟨l, u⟩ := sin_72
  have hs : 0 < Real.sin (1.6 * (Real.pi / 4)) := by linarith
  have hm : max (1 - Real.sin (1.6 * (Real.pi / 4))) (max 0 (Real.sin (1.6 * (Real.pi / 4)))) =
      Real.sin (1.6 * (Real.pi / 4)) := by
    rw [max_eq_right hs.le, max_eq_right (by linarith)]
  have e2 : 2 * (Real.pi / 4) = Real.pi / 2 := by ring
  simp only [schemeColor, min_eq_left ha, ht, e2, Real.cos_pi_div_two, Real.sin_pi_div_two, mul_zero, mul_one, hm,
    div_self hs.ne', floor_255, floor_13 l u, zero_div, Nat.floor_zero]

/-- **C116 (corners of the triangle).**  A cube axis is red, a face diagonal green and a body diagonal blue. -/
theorem C116_corners (d : Fin 3 → ℝ) :
    (SortsTo d 1 0 0 → ipfColor d = ![255, 0, 0]) ∧
    (SortsTo d (Real.sqrt 2 / 2) (Real.sqrt 2 / 2) 0 → ipfColor d = ![13, 255, 0]) ∧
    (SortsTo d (Real.sqrt 3 / 3) (Real.sqrt 3 / 3) (Real.sqrt 3 / 3) → ipfColor d = ![13, 0, 255]) := by
  refine ⟨fun h => ?_, fun h => ?_, fun h => ?_⟩
  · rw [C116_scheme d _ _ _ h le_rfl, scheme_axis]
  · rw [C116_scheme d _ _ _ h, scheme_face _ rfl]
    have h2 : Real.sqrt 2 ^ 2 = 2 := Real.sq_sqrt (by norm_num)
    nlinarith [Real.sqrt_nonneg 2]
  · rw [C116_scheme d _ _ _ h, scheme_body _ rfl]
    have h3 : Real.sqrt 3 ^ 2 = 3 := Real.sq_sqrt (by norm_num)
    nlinarith [Real.sqrt_nonneg 3]

example : SortsTo ![0, -1, 0] 1 0 0 := by
  refine ⟨le_rfl, le_rfl, by norm_num, ⟨![1, 0, 2], ![1, 0, 2], by decide, by decide⟩, fun i => ?_⟩
  fin_cases i <;> simp

/-! ### The angles -/

/-- The colour for the angles `(0, 90, 0)` when 90 is taken as radians. -/
theorem color_90 : colorOfAngles (0, 90, 0) 1 = 255 ∧ colorOfAngles (0, 90, 0) 0 < 255 := by
  have p1 := Real.pi_gt_d4
  have p2 := Real.pi_lt_d4
  set δ : ℝ := 90 - 57 * Real.pi / 2 with hδ
  have d1 : 0.46 < δ := by rw [hδ]; linarith
  have d2 : δ < 0.47 := by rw [hδ]; linarith
  have hs : Real.sin 90 = Real.cos δ := by
    rw [show (90 : ℝ) = δ + Real.pi / 2 + (14 : ℕ) * (2 * Real.pi) by rw [hδ]; push_cast; ring,
      Real.sin_add_nat_mul_two_pi, Real.sin_add_pi_div_two]
  have hc : Real.cos 90 = -Real.sin δ := by
    rw [show (90 : ℝ) = δ + Real.pi / 2 + (14 : ℕ) * (2 * Real.pi) by rw [hδ]; push_cast; ring,
      Real.cos_add_nat_mul_two_pi, Real.cos_add_pi_div_two]
  have s0 : 0 < Real.sin δ := Real.sin_pos_of_pos_of_lt_pi (by linarith) (by linarith)
  have c0 : 0 < Real.cos δ := Real.cos_pos_of_mem_Ioo ⟨by linarith, by linarith⟩
  have sc : Real.sin δ ≤ Real.cos δ := by
    rw [← Real.cos_pi_div_two_sub]
    exact Real.cos_le_cos_of_nonneg_of_le_pi (by linarith) (by linarith) (by linarith)
  have hd : (fun i => euler2 0 90 0 i 2) = ![0, Real.cos δ, -Real.sin δ] := by
    funext i
    fin_cases i <;> simp [euler2, hs, hc]
  have hsort : SortsTo ![0, Real.cos δ, -Real.sin δ] (Real.cos δ) (Real.sin δ) 0 := by
    refine ⟨le_rfl, s0.le, sc, ⟨![1, 2, 0], ![2, 0, 1], by decide, by decide⟩, fun i => ?_⟩
    fin_cases i <;> simp [abs_of_pos c0, abs_of_pos s0]
  have ht : Complex.arg ⟨Real.sin δ, 0⟩ = 0 := Complex.arg_ofReal_of_nonneg s0.le
  have ha : Real.arccos (Real.cos δ) = δ := Real.arccos_cos (by linarith) (by linarith)
  have hmin : min (Real.pi / 4) δ = δ := min_eq_right (by linarith)
  have half : 1 / 2 < Real.sin (1.6 * δ) := by
    rw [← Real.sin_pi_div_six]
    exact Real.sin_lt_sin_of_lt_of_le_pi_div_two (by linarith) (by linarith) (by linarith)
  have hm : max (1 - Real.sin (1.6 * δ)) (max (Real.sin (1.6 * δ)) 0) = Real.sin (1.6 * δ) := by
    rw [max_eq_left (by linarith : (0 : ℝ) ≤ Real.sin (1.6 * δ)), max_eq_right (by linarith)]
  have hcol : colorOfAngles (0, 90, 0) = schemeColor (Real.cos δ) (Real.sin δ) 0 := by
    simp only [colorOfAngles]
    rw [direction_column, hd, C116_scheme _ _ _ _ hsort (Real.cos_le_one _)]
  have hs0 : Real.sin (1.6 * δ) ≠ 0 := by linarith
  rw [hcol]
  simp only [schemeColor, ht, ha, hmin, mul_zero, Real.cos_zero, Real.sin_zero, mul_one, hm]
  refine ⟨?_, ?_⟩
  · show ⌊255 * (Real.sin (1.6 * δ) / Real.sin (1.6 * δ))⌋₊ = 255
    rw [div_self hs0, mul_one, floor_255]
  · show ⌊255 * ((1 - Real.sin (1.6 * δ)) / Real.sin (1.6 * δ))⌋₊ < 255
    rw [Nat.floor_lt' (by norm_num)]
    have : (1 - Real.sin (1.6 * δ)) / Real.sin (1.6 * δ) < 1 := by
      rw [div_lt_one (by linarith)]; linarith
    push_cast
    linarith

theorem orth_witness : IsRot ![![1, 0, 0], ![0, 0, 1], ![0, -1, 0]] := by
  refine ⟨?_, ?_⟩
  · intro i j
    fin_cases i <;> fin_cases j <;> simp [Fin.sum_univ_three]
  · simp [Matrix.det_fin_three]

theorem euler_witness : euler1 ![![1, 0, 0], ![0, 0, 1], ![0, -1, 0]] = (0, 90, 0) := by
  have h : ¬ (0.9999 : ℝ) ≤ 0 := by norm_num
  have hp := Real.pi_ne_zero
  have e1 : (⟨1, 0⟩ : ℂ) = 1 := rfl
  simp [euler1, atan2R, h, e1]
  field_simp
  norm_num

/-- **C116 (angles in degrees).**  The angles are computed in degrees and used as radians: a crystal turned by 90
degrees about the sample `x` axis, whose cube axes lie along the sample axes, is not shown in the colour of a cube
axis. -/
theorem C116_degrees_fails : ∃ ag : T2 ℝ, IsRot ag ∧
    ipfColor (fun i => ag 2 i) = ![255, 0, 0] ∧ ipfColor (fun i => ag i 2) = ![255, 0, 0] ∧
    calcIPF ag 0 < 255 ∧ calcIPF ag 1 = 255 := by
  refine ⟨![![1, 0, 0], ![0, 0, 1], ![0, -1, 0]], orth_witness, ?_, ?_, ?_, ?_⟩
  · apply (C116_corners _).1
    refine ⟨le_rfl, le_rfl, by norm_num, ⟨![1, 0, 2], ![1, 0, 2], by decide, by decide⟩, fun i => ?_⟩
    fin_cases i <;> simp
  · apply (C116_corners _).1
    refine ⟨le_rfl, le_rfl, by norm_num, ⟨![1, 0, 2], ![1, 0, 2], by decide, by decide⟩, fun i => ?_⟩
    fin_cases i <;> simp
  · rw [calcIPF, euler_witness]; exact color_90.2
  · rw [calcIPF, euler_witness]; exact color_90.1

/-- **C116 (frame).**  The stored matrix turns crystal axes to the sample, and the angles are those of that matrix, not
of its transpose as in the texture file.  Taken as radians they would colour the direction of a crystal axis in the
sample: here the sample `z` axis is 37 degrees away from the nearest cube axis of the crystal, and red is shown. -/
theorem C116_frame_fails : ∃ ag : T2 ℝ, IsRot ag ∧ euler1 ag ≠ writtenAngles ag ∧
    (let a := euler1 ag
     colorOfAngles (a.1 * Real.pi / 180, a.2.1 * Real.pi / 180, a.2.2 * Real.pi / 180)) = ![255, 0, 0] ∧
    ipfColor (fun i => ag 2 i) 0 < 255 := by
  have h : ¬ (0.9999 : ℝ) ≤ 0 := by norm_num
  have hp := Real.pi_ne_zero
  have e1 : (⟨-1, 0⟩ : ℂ) = -1 := by apply Complex.ext <;> simp
  have e2 : (⟨1, 0⟩ : ℂ) = 1 := rfl
  have hp0 := Real.pi_pos
  refine ⟨![![0.6, -0.8, 0], ![0, 0, -1], ![0.8, 0.6, 0]], ⟨?_, ?_⟩, ?_, ?_, ?_⟩
  · intro i j
    fin_cases i <;> fin_cases j <;> simp [Fin.sum_univ_three] <;> norm_num
  · simp [Matrix.det_fin_three]; norm_num
  · intro hc
    have := congrArg (fun a => a.1) hc
    simp [euler1, writtenAngles, atan2R, h, e2] at this
    rw [Complex.arg_eq_zero_iff] at this
    norm_num at this
  · simp only [colorOfAngles]
    rw [direction_column]
    apply (C116_corners _).1
    refine ⟨le_rfl, le_rfl, by norm_num, ⟨![1, 0, 2], ![1, 0, 2], by decide, by decide⟩, fun i => ?_⟩
    have k1 : Real.pi / 2 * 180 / Real.pi * Real.pi / 180 = Real.pi / 2 := by field_simp
    have k2 : Real.pi * 180 / Real.pi * Real.pi / 180 = Real.pi := by field_simp
    fin_cases i <;> simp [euler1, euler2, atan2R, h, e1, k1, k2]
  · have hsort : SortsTo (fun i => (![![0.6, -0.8, 0], ![0, 0, -1], ![0.8, 0.6, 0]] : T2 ℝ) 2 i) 0.8 0.6 0 := by
      refine ⟨le_rfl, by norm_num, by norm_num, Equiv.refl _, fun i => ?_⟩
      fin_cases i <;> simp <;> norm_num
    rw [C116_scheme _ _ _ _ hsort (by norm_num)]
    have ht : Complex.arg ⟨0.6, 0⟩ = 0 := Complex.arg_ofReal_of_nonneg (by norm_num)
    have ha : 0.4 ≤ Real.arccos 0.8 := by
      have c : (0.8 : ℝ) ≤ Real.cos 0.4 := by
        have := Real.one_sub_sq_div_two_le_cos (x := (0.4 : ℝ))
        norm_num at this ⊢
        linarith
      have := Real.antitone_arccos c
      rwa [Real.arccos_cos (by norm_num) (by linarith [Real.pi_gt_three])] at this
    have hlo : 0.4 ≤ min (Real.pi / 4) (Real.arccos 0.8) := le_min (by linarith [Real.pi_gt_three]) ha
    have hhi : min (Real.pi / 4) (Real.arccos 0.8) ≤ Real.pi / 4 := min_le_left _ _
    have half : 1 / 2 < Real.sin (1.6 * min (Real.pi / 4) (Real.arccos 0.8)) := by
      rw [← Real.sin_pi_div_six]
      exact Real.sin_lt_sin_of_lt_of_le_pi_div_two (by linarith) (by linarith) (by linarith [Real.pi_lt_d2])
    have hm : max (1 - Real.sin (1.6 * min (Real.pi / 4) (Real.arccos 0.8)))
        (max (Real.sin (1.6 * min (Real.pi / 4) (Real.arccos 0.8))) 0) =
        Real.sin (1.6 * min (Real.pi / 4) (Real.arccos 0.8)) := by
      rw [max_eq_left (by linarith : (0 : ℝ) ≤ Real.sin (1.6 * min (Real.pi / 4) (Real.arccos 0.8))),
        max_eq_right (by linarith)]
    simp only [schemeColor, ht, mul_zero, Real.cos_zero, Real.sin_zero, mul_one, hm]
    generalize Real.sin (1.6 * min (Real.pi / 4) (Real.arccos 0.8)) = s at *
    show ⌊255 * ((1 - s) / s)⌋₊ < 255
    rw [Nat.floor_lt' (by norm_num)]
    have : (1 - s) / s < 1 := by
      rw [div_lt_one (by linarith)]; linarith
    push_cast
    linarith

/-- **C116 (large strains).**  In LS-EVPFFT the product with the rotation of the lattice is assigned with `=+`, so
only its last term stays: a crystal turned by 90 degrees and turned back by the deformation is not shown like a
crystal that never turned. -/
theorem C116_large_fails : ∃ ag R : T2 ℝ, IsRot ag ∧ IsRot R ∧
    (∀ i j, ∑ k, ag i k * R k j = if i = j then 1 else 0) ∧
    calcIPF (fun i j => ∑ k, ag i k * R k j) = ![255, 0, 0] ∧
    calcIPFLarge ag R 0 < 255 ∧ calcIPFLarge ag R 1 = 255 := by
  have h : ¬ (0.9999 : ℝ) ≤ 0 := by norm_num
  have e0 : (⟨0, 0⟩ : ℂ) = 0 := rfl
  have e1 : (⟨1, 0⟩ : ℂ) = 1 := rfl
  have hp := Real.pi_ne_zero
  have hprod : ∀ i j, ∑ k, (![![1, 0, 0], ![0, 0, 1], ![0, -1, 0]] : T2 ℝ) i k *
      (![![1, 0, 0], ![0, 0, -1], ![0, 1, 0]] : T2 ℝ) k j = if i = j then 1 else 0 := by
    intro i j
    fin_cases i <;> fin_cases j <;> simp [Fin.sum_univ_three]
  have hl : euler1 (colorMatrix ![![1, 0, 0], ![0, 0, 1], ![0, -1, 0]] ![![1, 0, 0], ![0, 0, -1], ![0, 1, 0]]) =
      (0, 90, 0) := by
    simp [euler1, colorMatrix, atan2R, h, e0]
    field_simp
    norm_num
  refine ⟨![![1, 0, 0], ![0, 0, 1], ![0, -1, 0]], ![![1, 0, 0], ![0, 0, -1], ![0, 1, 0]], orth_witness, ⟨?_, ?_⟩,
    hprod, ?_, ?_, ?_⟩
  · intro i j
    fin_cases i <;> fin_cases j <;> simp [Fin.sum_univ_three]
  · simp [Matrix.det_fin_three]
  · simp only [hprod]
    simp only [calcIPF, colorOfAngles]
    rw [direction_column]
    apply (C116_corners _).1
    refine ⟨le_rfl, le_rfl, by norm_num, ⟨![2, 1, 0], ![2, 1, 0], by decide, by decide⟩, fun i => ?_⟩
    have k : (0.9999 : ℝ) ≤ 1 := by norm_num
    fin_cases i <;> simp [euler1, euler2, atan2R, k, e1]
  · rw [calcIPFLarge, hl]; exact color_90.2
  · rw [calcIPFLarge, hl]; exact color_90.1

end Fierro
