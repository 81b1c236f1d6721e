import Verif.Model.PolarMesh
import Verif.Model.Geometry
import Verif.Proofs.BoxMesh
import Mathlib.Algebra.BigOperators.Intervals
import Mathlib.Data.Fin.VecNotation
import Mathlib.Tactic.FinCases
import Mathlib.Tactic.LinearCombination
import Mathlib.Tactic.NormNum
import Mathlib.Analysis.SpecialFunctions.Trigonometric.Bounds

/-!
# C105: the polar mesh
-/

namespace Fierro

open Finset Filter Topology

/-- The specification of a radius or of an angle: `k` of `n` equal steps from `a` to `b`. -/
noncomputable def stepped (a b : ℝ) (n k : ℕ) : ℝ := a + (b - a) * k / n

/-- Degrees as radians. -/
noncomputable def radians (deg : ℝ) : ℝ := deg * Real.pi / 180

/-- The point at radius step `i` and angle step `j`, first and second coordinate. -/
noncomputable def polarPoint (p : PolarInput) (i j : ℕ) : Fin 2 → ℝ
  | 0 => p.ox + stepped p.inner p.outer p.nr i *
      Real.cos (stepped (radians p.starting) (radians p.ending) p.na j)
  | 1 => p.oy + stepped p.inner p.outer p.nr i *
      Real.sin (stepped (radians p.starting) (radians p.ending) p.na j)

/-- The angle of one element. -/
noncomputable def PolarInput.step (p : PolarInput) : ℝ :=
  (radians p.ending - radians p.starting) / p.na

theorem radius_eq (p : PolarInput) (i : ℕ) : p.radius i = stepped p.inner p.outer p.nr i := by
  unfold PolarInput.radius stepped; ring

theorem theta_eq (p : PolarInput) (j : ℕ) :
    p.theta j = stepped (radians p.starting) (radians p.ending) p.na j := by
  unfold PolarInput.theta stepped radians; ring

theorem mem_nodeWritesPolar {p : PolarInput} {g d : ℕ} {v : ℝ} :
    ((g, d), v) ∈ nodeWritesPolar p ↔
      ∃ i j, i < p.nr + 1 ∧ j < p.na + 1 ∧ g = getId i j 0 (p.nr + 1) (p.na + 1) ∧
        ((d = 0 ∧ v = polarPoint p i j 0) ∨ (d = 1 ∧ v = polarPoint p i j 1)) := by
  simp only [nodeWritesPolar, List.mem_flatMap, List.mem_range, List.mem_cons, Prod.mk.injEq,
    List.not_mem_nil, or_false, radius_eq, theta_eq, polarPoint]
  constructor
  · rintro ⟨j, hj, i, hi, h⟩
    refine ⟨i, j, hi, hj, ?_⟩
    rcases h with ⟨⟨h1, h2⟩, h3⟩ | ⟨⟨h1, h2⟩, h3⟩ <;> simp [h1, h2, h3]
  · rintro ⟨i, j, hi, hj, rfl, h⟩
    exact ⟨j, hj, i, hi, by simpa using h⟩

theorem nodeWritesPolar_get {p : PolarInput} {i j : ℕ} (hi : i < p.nr + 1) (hj : j < p.na + 1)
    (d : Fin 2) :
    Mem.writeAll (nodeWritesPolar p) Mem.empty (getId i j 0 (p.nr + 1) (p.na + 1), d.1) =
      some (polarPoint p i j d) := by
  apply Mem.writeAll_of_mem
  · rw [mem_nodeWritesPolar]
    refine ⟨i, j, hi, hj, rfl, ?_⟩
    fin_cases d <;> simp
  · intro v hv
    rw [mem_nodeWritesPolar] at hv
    obtain ⟨i', j', hi', hj', he, h⟩ := hv
    obtain ⟨rfl, rfl, -⟩ := getIdN_inj hi hi' hj hj' he
    fin_cases d <;> simpa using h

/-- **C105.** The mesh is built exactly when no point of the polar grid has a negative first
coordinate; otherwise the call throws. -/
theorem C105_accepts (p : PolarInput) :
    (∃ m, build2DPolar p = some m) ↔ ∀ i ≤ p.nr, ∀ j ≤ p.na, 0 ≤ polarPoint p i j 0 := by
  unfold build2DPolar
  split
  · rename_i h
    obtain ⟨⟨⟨g, d⟩, v⟩, hw, hd, hv⟩ := h
    obtain ⟨i, j, hi, hj, -, h⟩ := mem_nodeWritesPolar.1 hw
    simp only at hd hv
    subst hd
    have hv' : v = polarPoint p i j 0 := by simpa using h
    constructor
    · rintro ⟨m, hm⟩; cases hm
    · intro h
      have := h i (by omega) j (by omega)
      rw [hv'] at hv
      exact absurd hv (not_lt.2 this)
  · rename_i h
    constructor
    · rintro - i hi j hj
      by_contra hc
      exact h ⟨((getId i j 0 (p.nr + 1) (p.na + 1), 0), polarPoint p i j 0),
        mem_nodeWritesPolar.2 ⟨i, j, by omega, by omega, rfl, by simp⟩, rfl, not_le.1 hc⟩
    · intro _; exact ⟨_, rfl⟩

theorem build2DPolar_some {p : PolarInput} {m : BuiltMesh ℝ} (h : build2DPolar p = some m) :
    m = { numNodes := (p.nr + 1) * (p.na + 1)
          numElems := p.nr * p.na
          coords := Mem.writeAll (nodeWritesPolar p) Mem.empty
          nodesInElem := Mem.writeAll (elemWrites2D p.nr p.na) Mem.empty } := by
  unfold build2DPolar at h
  split at h
  · cases h
  · exact (Option.some.inj h).symm

/-- **C105.** A built mesh has one node for each point of the grid and one element for each cell;
the four nodes of the cell at radius step `i` and angle step `j` lie on the circles and rays of
that cell, in the order inner, outer, outer, inner. -/
theorem C105_corners {p : PolarInput} {m : BuiltMesh ℝ} (h : build2DPolar p = some m) :
    m.numNodes = (p.nr + 1) * (p.na + 1) ∧ m.numElems = p.nr * p.na ∧
    ∀ i < p.nr, ∀ j < p.na, ∀ l : Fin 4, ∃ g < m.numNodes,
      m.nodesInElem (i + p.nr * j, l.1) = some g ∧
      ∀ d : Fin 2, m.coords (g, d.1) =
        some (polarPoint p (i + ![0, 1, 1, 0] l) (j + ![0, 0, 1, 1] l) d) := by
  obtain rfl := build2DPolar_some h
  refine ⟨rfl, rfl, ?_⟩
  intro i hi j hj l
  have hlt : ∀ i' j' : ℕ, i' < p.nr + 1 → j' < p.na + 1 →
      getId i' j' 0 (p.nr + 1) (p.na + 1) < (p.nr + 1) * (p.na + 1) := by
    intro i' j' hi' hj'
    have := getIdN_lt (nk := 1) hi' hj' Nat.zero_lt_one
    simpa using this
  have e : i + p.nr * j = getId i j 0 p.nr p.na := by rw [getIdN_eq]; simp
  obtain ⟨h0, h1, h2, h3⟩ := elemWrites2D_get (nx := p.nr) (ny := p.na) hi hj
  rw [e]
  fin_cases l
  · exact ⟨_, hlt _ _ (by omega) (by omega), h0, nodeWritesPolar_get (by omega) (by omega)⟩
  · exact ⟨_, hlt _ _ (by omega) (by omega), h1, nodeWritesPolar_get (by omega) (by omega)⟩
  · exact ⟨_, hlt _ _ (by omega) (by omega), h2, nodeWritesPolar_get (by omega) (by omega)⟩
  · exact ⟨_, hlt _ _ (by omega) (by omega), h3, nodeWritesPolar_get (by omega) (by omega)⟩

/-- **C105.** Two slots hold the same node exactly when they are the same point of the grid, so
that neighbouring cells share their edge. -/
theorem C105_conforming {p : PolarInput} {m : BuiltMesh ℝ} (h : build2DPolar p = some m)
    {i j i' j' : ℕ} (hi : i < p.nr) (hj : j < p.na) (hi' : i' < p.nr) (hj' : j' < p.na)
    (l l' : Fin 4) :
    m.nodesInElem (i + p.nr * j, l.1) = m.nodesInElem (i' + p.nr * j', l'.1) ↔
    i + ![0, 1, 1, 0] l = i' + ![0, 1, 1, 0] l' ∧
      j + ![0, 0, 1, 1] l = j' + ![0, 0, 1, 1] l' := by
  obtain rfl := build2DPolar_some h
  have get : ∀ (i j : ℕ), i < p.nr → j < p.na → ∀ l : Fin 4,
      Mem.writeAll (elemWrites2D p.nr p.na) Mem.empty (i + p.nr * j, l.1) =
        some (getId (i + ![0, 1, 1, 0] l) (j + ![0, 0, 1, 1] l) 0 (p.nr + 1) (p.na + 1)) := by
    intro i j hi hj l
    have e : i + p.nr * j = getId i j 0 p.nr p.na := by rw [getIdN_eq]; simp
    obtain ⟨h0, h1, h2, h3⟩ := elemWrites2D_get (nx := p.nr) (ny := p.na) hi hj
    rw [e]
    fin_cases l
    · exact h0
    · exact h1
    · exact h2
    · exact h3
  have b1 : ∀ l : Fin 4, (![0, 1, 1, 0] : Fin 4 → ℕ) l ≤ 1 := by decide
  have b2 : ∀ l : Fin 4, (![0, 0, 1, 1] : Fin 4 → ℕ) l ≤ 1 := by decide
  have c1 := b1 l; have c2 := b2 l; have c3 := b1 l'; have c4 := b2 l'
  simp only [get i j hi hj l, get i' j' hi' hj' l', Option.some.injEq]
  constructor
  · intro e
    obtain ⟨e1, e2, -⟩ := getIdN_inj (by omega) (by omega) (by omega) (by omega) e
    exact ⟨e1, e2⟩
  · rintro ⟨e1, e2⟩; rw [e1, e2]

theorem stepped_succ (a b : ℝ) (n k : ℕ) :
    stepped a b n (k + 1) = stepped a b n k + (b - a) / n := by
  unfold stepped; push_cast; ring

/-- The shoelace value of one cell. -/
theorem area_cell (p : PolarInput) (i j : ℕ) :
    areaQuad (fun l : Fin 4 => polarPoint p (i + ![0, 1, 1, 0] l) (j + ![0, 0, 1, 1] l) 0)
      (fun l => polarPoint p (i + ![0, 1, 1, 0] l) (j + ![0, 0, 1, 1] l) 1) =
    1 / 2 * (stepped p.inner p.outer p.nr (i + 1) ^ 2 - stepped p.inner p.outer p.nr i ^ 2) *
      Real.sin p.step := by
  have hs : p.step = stepped (radians p.starting) (radians p.ending) p.na (j + 1) -
      stepped (radians p.starting) (radians p.ending) p.na j := by
    rw [stepped_succ]; unfold PolarInput.step; ring
  rw [hs, Real.sin_sub]
  simp only [areaQuad, polarPoint, Matrix.cons_val, Matrix.cons_val_zero, Matrix.cons_val_one,
    Nat.add_zero]
  ring

/-- **C105.** The area of the cell at radius step `i` by the code's area routine is
`½ (r_{i+1}² - r_i²) sin Δθ`, whatever the angle step; with radii `0 ≤ inner < outer` and a step
between 0 and a half turn it is positive; and the areas of all elements add up to
`½ (outer² - inner²) n sin Δθ`. -/
theorem C105_area {p : PolarInput} {m : BuiltMesh ℝ} (h : build2DPolar p = some m)
    (hr : 0 < p.nr) :
    ∃ X : ℕ → Fin 2 → Fin 4 → ℝ,
      (∀ e < m.numElems, ∀ d l, m.elemCoord e d.1 l.1 = some (X e d l)) ∧
      (∀ i < p.nr, ∀ j < p.na, areaQuad (X (i + p.nr * j) 0) (X (i + p.nr * j) 1) =
        1 / 2 * (stepped p.inner p.outer p.nr (i + 1) ^ 2 -
          stepped p.inner p.outer p.nr i ^ 2) * Real.sin p.step) ∧
      (0 ≤ p.inner → p.inner < p.outer → 0 < p.step → p.step < Real.pi →
        ∀ e < m.numElems, 0 < areaQuad (X e 0) (X e 1)) ∧
      ∑ e ∈ range m.numElems, areaQuad (X e 0) (X e 1) =
        1 / 2 * (p.outer ^ 2 - p.inner ^ 2) * (p.na * Real.sin p.step) := by
  obtain ⟨-, hne, hc⟩ := C105_corners h
  have hdm : ∀ i < p.nr, ∀ j, (i + p.nr * j) % p.nr = i ∧ (i + p.nr * j) / p.nr = j := by
    intro i hi j
    exact ⟨by rw [Nat.add_mul_mod_self_left, Nat.mod_eq_of_lt hi],
      by rw [Nat.add_mul_div_left _ _ hr, Nat.div_eq_of_lt hi, zero_add]⟩
  let X : ℕ → Fin 2 → Fin 4 → ℝ := fun e d l =>
    polarPoint p (e % p.nr + ![0, 1, 1, 0] l) (e / p.nr + ![0, 0, 1, 1] l) d
  have hA : ∀ e, areaQuad (X e 0) (X e 1) =
      1 / 2 * (stepped p.inner p.outer p.nr (e % p.nr + 1) ^ 2 -
          stepped p.inner p.outer p.nr (e % p.nr) ^ 2) * Real.sin p.step :=
    fun e => area_cell p _ _
  refine ⟨X, ?_, ?_, ?_, ?_⟩
  · intro e he d l
    rw [hne] at he
    have h1 : e % p.nr < p.nr := Nat.mod_lt _ hr
    have h2 : e / p.nr < p.na := by
      rw [Nat.div_lt_iff_lt_mul hr]; rwa [mul_comm] at he
    obtain ⟨g, -, hg, hx⟩ := hc _ h1 _ h2 l
    rw [Nat.mod_add_div] at hg
    unfold BuiltMesh.elemCoord
    rw [hg]
    exact hx d
  · intro i hi j hj
    rw [hA, (hdm i hi j).1]
  · intro hin hio hs hpi e he
    rw [hA]
    have hd : 0 < (p.outer - p.inner) / p.nr := by
      apply div_pos (by linarith); exact_mod_cast hr
    have hr0 : 0 ≤ stepped p.inner p.outer p.nr (e % p.nr) := by
      unfold stepped
      have : 0 ≤ (p.outer - p.inner) * ((e % p.nr : ℕ) : ℝ) / p.nr := by
        apply div_nonneg (mul_nonneg (by linarith) (Nat.cast_nonneg _)) (Nat.cast_nonneg _)
      linarith
    rw [stepped_succ]
    apply mul_pos _ (Real.sin_pos_of_pos_of_lt_pi hs hpi)
    nlinarith
  · rw [hne, mul_comm p.nr p.na, Finset.sum_congr rfl fun e _ => hA e]
    have hsum : ∀ (f : ℕ → ℝ) (n : ℕ), ∑ e ∈ range (n * p.nr), f (e % p.nr) =
        n * ∑ i ∈ range p.nr, f i := by
      intro f n
      induction n with
      | zero => simp
      | succ n ih =>
        rw [Nat.succ_mul, Finset.sum_range_add, ih]
        have : ∑ x ∈ range p.nr, f ((n * p.nr + x) % p.nr) = ∑ i ∈ range p.nr, f i := by
          apply Finset.sum_congr rfl
          intro x hx
          rw [add_comm, Nat.add_mul_mod_self_right, Nat.mod_eq_of_lt (Finset.mem_range.1 hx)]
        rw [this]; push_cast; ring
    rw [hsum (fun i => 1 / 2 * (stepped p.inner p.outer p.nr (i + 1) ^ 2 -
          stepped p.inner p.outer p.nr i ^ 2) * Real.sin p.step), ← Finset.sum_mul,
      ← Finset.mul_sum, Finset.sum_range_sub (fun i => stepped p.inner p.outer p.nr i ^ 2)]
    have e1 : stepped p.inner p.outer p.nr p.nr = p.outer := by
      have : (p.nr : ℝ) ≠ 0 := by exact_mod_cast hr.ne'
      unfold stepped; field_simp; ring
    have e0 : stepped p.inner p.outer p.nr 0 = p.inner := by simp [stepped]
    rw [e1, e0]
    ring

/-- **C105.** The area of the mesh never exceeds the one of the sector, and approaches it as the
number of elements around grows. -/
theorem C105_area_converges (inner outer Δ : ℝ) (h : 0 ≤ inner) (h' : inner ≤ outer) (hΔ : 0 ≤ Δ) :
    (∀ n : ℕ, 1 / 2 * (outer ^ 2 - inner ^ 2) * (n * Real.sin (Δ / n)) ≤
      1 / 2 * (outer ^ 2 - inner ^ 2) * Δ) ∧
    Tendsto (fun n : ℕ => 1 / 2 * (outer ^ 2 - inner ^ 2) * (n * Real.sin (Δ / n))) atTop
      (𝓝 (1 / 2 * (outer ^ 2 - inner ^ 2) * Δ)) := by
  have hA : 0 ≤ 1 / 2 * (outer ^ 2 - inner ^ 2) := by nlinarith
  constructor
  · intro n
    apply mul_le_mul_of_nonneg_left _ hA
    rcases Nat.eq_zero_or_pos n with rfl | hn
    · simpa using hΔ
    · have hn' : (0 : ℝ) < n := by exact_mod_cast hn
      calc (n : ℝ) * Real.sin (Δ / n) ≤ n * (Δ / n) :=
            mul_le_mul_of_nonneg_left (Real.sin_le (div_nonneg hΔ hn'.le)) hn'.le
        _ = Δ := by field_simp
  · apply Tendsto.const_mul
    have hd : HasDerivAt Real.sin 1 0 := by simpa using Real.hasDerivAt_sin 0
    have hd' : HasDerivAt (fun x : ℝ => Real.sin (Δ * x)) Δ 0 := by
      have h1 : HasDerivAt (fun x : ℝ => Δ * x) Δ 0 := by
        simpa using (hasDerivAt_id (0 : ℝ)).const_mul Δ
      have h2 : HasDerivAt Real.sin 1 (Δ * 0) := by simpa using hd
      have h3 := HasDerivAt.comp (0 : ℝ) h2 h1
      rw [one_mul] at h3
      exact h3
    have hs := hd'.tendsto_slope_zero
    have hinv : Tendsto (fun n : ℕ => ((n : ℝ))⁻¹) atTop (𝓝[≠] 0) := by
      rw [tendsto_nhdsWithin_iff]
      refine ⟨tendsto_inv_atTop_nhds_zero_nat, ?_⟩
      filter_upwards [eventually_gt_atTop 0] with n hn
      have : (n : ℝ) ≠ 0 := by exact_mod_cast (Nat.pos_iff_ne_zero.1 hn)
      exact inv_ne_zero this
    have := hs.comp hinv
    refine this.congr fun n => ?_
    simp [div_eq_mul_inv]

/-! ### What the test of the radius misses -/

/-- A quarter ring below the axis: one element, radii 1 and 2, from -90 to 0 degrees. -/
noncomputable def ringBelow : PolarInput :=
  { ox := 0, oy := 0, inner := 1, outer := 2, starting := -90, ending := 0, nr := 1, na := 1 }

/-- A quarter ring above the axis, from 90 to 180 degrees. -/
noncomputable def ringLeft : PolarInput :=
  { ox := 0, oy := 0, inner := 1, outer := 2, starting := 90, ending := 180, nr := 1, na := 1 }

/-- A quarter ring from 0 to 90 degrees. -/
noncomputable def ringAbove : PolarInput :=
  { ox := 0, oy := 0, inner := 1, outer := 2, starting := 0, ending := 90, nr := 1, na := 1 }

theorem cos_zero_deg : Real.cos (radians 0) = 1 ∧ Real.sin (radians 0) = 0 := by simp [radians]

theorem cos_ninety : Real.cos (radians 90) = 0 ∧ Real.sin (radians 90) = 1 := by
  have : radians 90 = Real.pi / 2 := by unfold radians; ring
  simp [this]

theorem cos_neg_ninety : Real.cos (radians (-90)) = 0 ∧ Real.sin (radians (-90)) = -1 := by
  have : radians (-90) = -(Real.pi / 2) := by unfold radians; ring
  simp [this]

theorem cos_half_turn : Real.cos (radians 180) = -1 ∧ Real.sin (radians 180) = 0 := by
  have : radians 180 = Real.pi := by unfold radians; ring
  simp [this]

theorem stepped_one (a b : ℝ) : stepped a b 1 0 = a ∧ stepped a b 1 1 = b := by
  constructor <;> simp [stepped]

/-- **C105 (what fails).** The r-z solvers take the second coordinate of a node for its radius, but
the test "node radius for r-z mesh must be positive" reads the first one.  A quarter ring from -90
to 0 degrees, all of it at negative radii, is accepted and its element has a negative volume. -/
theorem C105_negative_radius_fails :
    ∃ m, build2DPolar ringBelow = some m ∧
      ∃ X : Fin 2 → Fin 4 → ℝ, (∀ d l, m.elemCoord 0 d.1 l.1 = some (X d l)) ∧
        quadVolRaw (X 0) (X 1) < 0 := by
  have hacc : ∃ m, build2DPolar ringBelow = some m := by
    rw [C105_accepts]
    intro i hi j hj
    have hi' : i = 0 ∨ i = 1 := by simp only [ringBelow] at hi; omega
    have hj' : j = 0 ∨ j = 1 := by simp only [ringBelow] at hj; omega
    rcases hi' with rfl | rfl <;> rcases hj' with rfl | rfl <;>
      simp [polarPoint, ringBelow, stepped_one, cos_zero_deg, cos_neg_ninety]
  obtain ⟨m, hm⟩ := hacc
  refine ⟨m, hm, fun d l => polarPoint ringBelow (0 + ![0, 1, 1, 0] l) (0 + ![0, 0, 1, 1] l) d,
    ?_, ?_⟩
  · intro d l
    obtain ⟨g, -, hg, hx⟩ := (C105_corners hm).2.2 0 (by simp [ringBelow]) 0
      (by simp [ringBelow]) l
    have hg' : m.nodesInElem (0, l.1) = some g := by simpa using hg
    unfold BuiltMesh.elemCoord
    rw [hg']
    exact hx d
  · simp [quadVolRaw, polarPoint, ringBelow, stepped_one, cos_zero_deg, cos_neg_ninety]
    norm_num

/-- **C105 (what fails).** For the same reason a ring from 90 to 180 degrees, all of it at radii (second
coordinates) of zero or more, is refused. -/
theorem C105_positive_radius_refused_fails :
    (∀ i ≤ 1, ∀ j ≤ 1, 0 ≤ polarPoint ringLeft i j 1) ∧ build2DPolar ringLeft = none := by
  constructor
  · intro i hi j hj
    have hi' : i = 0 ∨ i = 1 := by omega
    have hj' : j = 0 ∨ j = 1 := by omega
    rcases hi' with rfl | rfl <;> rcases hj' with rfl | rfl <;>
      simp [polarPoint, ringLeft, stepped_one, cos_ninety, cos_half_turn]
  · by_contra hc
    obtain ⟨m, hm⟩ := Option.ne_none_iff_exists'.1 hc
    have := (C105_accepts ringLeft).1 ⟨m, hm⟩ 0 (by simp [ringLeft]) 1 (by simp [ringLeft])
    simp [polarPoint, ringLeft, stepped_one, cos_half_turn] at this
    norm_num at this

/-- **C105 (what fails).** The order of the angles is not checked: from 90 down to 0 degrees the mesh is built
and its element has a negative area. -/
theorem C105_angles_backwards_fails :
    ∃ m, build2DPolar { ringAbove with starting := 90, ending := 0 } = some m ∧
      ∃ X : Fin 2 → Fin 4 → ℝ, (∀ d l, m.elemCoord 0 d.1 l.1 = some (X d l)) ∧
        areaQuad (X 0) (X 1) < 0 := by
  have hacc : ∃ m, build2DPolar { ringAbove with starting := 90, ending := 0 } = some m := by
    rw [C105_accepts]
    intro i hi j hj
    have hi' : i = 0 ∨ i = 1 := by simp only [ringAbove] at hi; omega
    have hj' : j = 0 ∨ j = 1 := by simp only [ringAbove] at hj; omega
    rcases hi' with rfl | rfl <;> rcases hj' with rfl | rfl <;>
      simp [polarPoint, ringAbove, stepped_one, cos_zero_deg, cos_ninety]
  obtain ⟨m, hm⟩ := hacc
  obtain ⟨X, hX, hA, -⟩ := C105_area hm (by simp [ringAbove])
  refine ⟨m, hm, X 0, ?_, ?_⟩
  · exact hX 0 (by rw [(C105_corners hm).2.1]; simp [ringAbove])
  · have := hA 0 (by simp [ringAbove]) 0 (by simp [ringAbove])
    rw [show (0 : ℕ) + ringAbove.nr * 0 = 0 by simp] at this
    rw [this]
    have hs : Real.sin (PolarInput.step { ringAbove with starting := 90, ending := 0 }) = -1 := by
      have : PolarInput.step { ringAbove with starting := 90, ending := 0 } =
          -(Real.pi / 2) := by
        simp [PolarInput.step, ringAbove, radians]; ring
      rw [this]; simp
    rw [hs]
    simp [ringAbove, stepped_one]

/-- The quarter ring from 0 to 90 degrees satisfies the hypotheses of the theorems above. -/
example : (∃ m, build2DPolar ringAbove = some m) ∧ 0 < ringAbove.nr ∧ 0 ≤ ringAbove.inner ∧
    ringAbove.inner < ringAbove.outer ∧ 0 < ringAbove.step ∧ ringAbove.step < Real.pi := by
  have hs : ringAbove.step = Real.pi / 2 := by
    simp [PolarInput.step, ringAbove, radians]; ring
  refine ⟨?_, by simp [ringAbove], by simp [ringAbove], by simp [ringAbove], ?_, ?_⟩
  · rw [C105_accepts]
    intro i hi j hj
    have hi' : i = 0 ∨ i = 1 := by simp only [ringAbove] at hi; omega
    have hj' : j = 0 ∨ j = 1 := by simp only [ringAbove] at hj; omega
    rcases hi' with rfl | rfl <;> rcases hj' with rfl | rfl <;>
      simp [polarPoint, ringAbove, stepped_one, cos_zero_deg, cos_ninety]
  · rw [hs]; positivity
  · rw [hs]; linarith [Real.pi_pos]

end Fierro
