import Verif.Model.Voxel
import Verif.Proofs.Memory
import Mathlib.Tactic.Linarith
import Mathlib.Tactic.FieldSimp
import Mathlib.Tactic.Ring
import Mathlib.Tactic.Positivity
import Mathlib.Tactic.NormNum
import Mathlib.Algebra.Order.Group.MinMax
import Mathlib.Data.List.Sort
import Mathlib.Data.List.Count

/-!
# C149: the voxelizer of the previous version
-/

namespace Fierro

section
variable {K : Type} [Field K] [LinearOrder K] [IsStrictOrderedRing K]

/-! ### The extent of the mesh -/

/-- Specification: one coordinate of a facet is larger than the two others. -/
def Peak (t : K × K × K) (x : K) : Prop :=
  (x = t.1 ∧ t.2.1 < x ∧ t.2.2 < x) ∨ (x = t.2.1 ∧ t.1 < x ∧ t.2.2 < x) ∨ (x = t.2.2 ∧ t.1 < x ∧ t.2.1 < x)

/-- Specification: the result of a search for the largest of the values described by `P`. -/
def IsPeakOf (P : K → Prop) : Option K → Prop
  | none => ∀ x, ¬P x
  | some m => P m ∧ ∀ x, P x → x ≤ m

omit [IsStrictOrderedRing K] [Field K] in
theorem IsPeakOf.unique {P : K → Prop} {a b : Option K} (ha : IsPeakOf P a) (hb : IsPeakOf P b) : a = b := by
  cases a <;> cases b
  · rfl
  · exact absurd hb.1 (ha _)
  · exact absurd ha.1 (hb _)
  · rw [le_antisymm (hb.2 _ ha.1) (ha.2 _ hb.1)]

omit [IsStrictOrderedRing K] [Field K] in
theorem IsPeakOf.congr {P Q : K → Prop} {a : Option K} (h : ∀ x, P x ↔ Q x) (ha : IsPeakOf P a) : IsPeakOf Q a := by
  have : P = Q := funext fun x => propext (h x)
  exact this ▸ ha

omit [IsStrictOrderedRing K] [Field K] in
theorem IsPeakOf.join {P Q : K → Prop} {a b : Option K} (ha : IsPeakOf P a) (hb : IsPeakOf Q b) :
    IsPeakOf (fun x => P x ∨ Q x) (joinMax a b) := by
  cases a <;> cases b
  · exact fun x h => h.elim (ha x) (hb x)
  · exact ⟨Or.inr hb.1, fun x h => h.elim (fun h => absurd h (ha x)) (hb.2 x)⟩
  · exact ⟨Or.inl ha.1, fun x h => h.elim (ha.2 x) fun h => absurd h (hb x)⟩
  · rename_i a b
    refine ⟨?_, fun x h => h.elim (fun h => le_max_of_le_left (ha.2 x h)) fun h => le_max_of_le_right (hb.2 x h)⟩
    rcases max_choice a b with h | h <;> rw [h]
    · exact Or.inl ha.1
    · exact Or.inr hb.1

omit [IsStrictOrderedRing K] [Field K] in
theorem stlStepMax_top {P : K → Prop} {m : Option K} (t : K × K × K) (hm : IsPeakOf P m) :
    IsPeakOf (fun x => P x ∨ Peak t x) (stlStepMax m t) := by
  obtain ⟨a, b, c⟩ := t
  have key : stlStepMax m (a, b, c) = joinMax m (if b < a ∧ c < a then some a else if a < b ∧ c < b then some b
      else if a < c ∧ b < c then some c else none) := by
    unfold stlStepMax
    cases m with
    | none =>
      simp only [Option.all_none, true_or, if_true, gt_iff_lt]
      rfl
    | some m =>
      simp only [Option.all_some, decide_eq_true_eq, gt_iff_lt]
      by_cases h1 : b < a ∧ c < a
      · simp only [if_pos h1, joinMax]
        split_ifs with h
        · have : m < a := by
            rcases h with h | h | h
            · exact h
            · exact lt_trans h h1.1
            · exact lt_trans h h1.2
          rw [max_eq_right this.le]
        · push Not at h
          rw [max_eq_left h.1]
      · by_cases h2 : a < b ∧ c < b
        · simp only [if_neg h1, if_pos h2, joinMax]
          split_ifs with h
          · have : m < b := by
              rcases h with h | h | h
              · exact lt_trans h h2.1
              · exact h
              · exact lt_trans h h2.2
            rw [max_eq_right this.le]
          · push Not at h
            rw [max_eq_left h.2.1]
        · by_cases h3 : a < c ∧ b < c
          · simp only [if_neg h1, if_neg h2, if_pos h3, joinMax]
            split_ifs with h
            · have : m < c := by
                rcases h with h | h | h
                · exact lt_trans h h3.1
                · exact lt_trans h h3.2
                · exact h
              rw [max_eq_right this.le]
            · push Not at h
              rw [max_eq_left h.2.2]
          · simp only [if_neg h1, if_neg h2, if_neg h3, joinMax, ite_self]
  rw [key]
  apply hm.join
  have hx : ∀ x, Peak (a, b, c) x ↔ (x = a ∧ b < x ∧ c < x) ∨ (x = b ∧ a < x ∧ c < x) ∨ (x = c ∧ a < x ∧ b < x) :=
    fun x => Iff.rfl
  split_ifs with h1 h2 h3
  · refine ⟨Or.inl ⟨rfl, h1⟩, fun x h => ?_⟩
    rcases (hx x).mp h with ⟨rfl, -⟩ | ⟨rfl, h, -⟩ | ⟨rfl, h, -⟩
    · exact le_rfl
    · exact h1.1.le
    · exact h1.2.le
  · refine ⟨Or.inr (Or.inl ⟨rfl, h2⟩), fun x h => ?_⟩
    rcases (hx x).mp h with ⟨rfl, h, -⟩ | ⟨rfl, -⟩ | ⟨rfl, -, h⟩
    · exact h2.1.le
    · exact le_rfl
    · exact h2.2.le
  · refine ⟨Or.inr (Or.inr ⟨rfl, h3⟩), fun x h => ?_⟩
    rcases (hx x).mp h with ⟨rfl, -, h⟩ | ⟨rfl, -, h⟩ | ⟨rfl, -⟩
    · exact h3.1.le
    · exact h3.2.le
    · exact le_rfl
  · intro x h
    rcases (hx x).mp h with ⟨rfl, h'⟩ | ⟨rfl, h'⟩ | ⟨rfl, h'⟩
    · exact h1 h'
    · exact h2 h'
    · exact h3 h'

omit [IsStrictOrderedRing K] [Field K] in
theorem foldl_top (c : List (K × K × K)) : ∀ {P : K → Prop} {m : Option K}, IsPeakOf P m →
    IsPeakOf (fun x => P x ∨ ∃ t ∈ c, Peak t x) (c.foldl stlStepMax m) := by
  induction c with
  | nil => intro P m hm; exact hm.congr (by simp)
  | cons t c ih =>
    intro P m hm
    refine (ih (stlStepMax_top t hm)).congr fun x => ?_
    simp only [List.mem_cons, exists_eq_or_imp, or_assoc]

omit [IsStrictOrderedRing K] [Field K] in
theorem foldl_join_top (cs : List (List (K × K × K))) : ∀ {P : K → Prop} {m : Option K}, IsPeakOf P m →
    IsPeakOf (fun x => P x ∨ ∃ t ∈ cs.flatten, Peak t x)
      ((cs.map fun c => c.foldl stlStepMax none).foldl joinMax m) := by
  induction cs with
  | nil => intro P m hm; exact hm.congr (by simp)
  | cons c cs ih =>
    intro P m hm
    have h0 : IsPeakOf (fun _ : K => False) none := fun _ h => h
    refine (ih (hm.join (foldl_top c h0))).congr fun x => ?_
    simp only [List.flatten_cons, List.mem_append, or_and_right, exists_or, false_or, or_assoc]

omit [IsStrictOrderedRing K] [Field K] in
/-- **C149.** However the facets are split among threads, the upper end of the mesh along an axis comes out as the
largest coordinate that is **strictly** larger than the two others of its facet. -/
theorem C149_extent (chunks : List (List (K × K × K))) :
    IsPeakOf (fun x => ∃ t ∈ chunks.flatten, Peak t x) (stlMax chunks) := by
  have h0 : IsPeakOf (fun _ : K => False) none := fun _ h => h
  exact (foldl_join_top chunks h0).congr fun x => by simp

omit [IsStrictOrderedRing K] [Field K] in
/-- **C149.** The upper end does not depend on the split. -/
theorem C149_extent_schedule (chunks chunks' : List (List (K × K × K))) (h : chunks.flatten.Perm chunks'.flatten) :
    stlMax chunks = stlMax chunks' :=
  (C149_extent chunks).unique ((C149_extent chunks').congr fun x =>
    ⟨fun ⟨t, ht, hp⟩ => ⟨t, h.mem_iff.mpr ht, hp⟩, fun ⟨t, ht, hp⟩ => ⟨t, h.mem_iff.mp ht, hp⟩⟩)

/-- Turning the axis around. -/
def flip3 (t : K × K × K) : K × K × K := (-t.1, -t.2.1, -t.2.2)

theorem stlStepMin_flip (m : Option K) (t : K × K × K) :
    (stlStepMin m t).map (- ·) = stlStepMax (m.map (- ·)) (flip3 t) := by
  unfold stlStepMin stlStepMax flip3
  cases m <;> simp only [Option.all_none, Option.all_some, Option.map_none, Option.map_some, neg_lt_neg_iff, gt_iff_lt] <;>
    split_ifs <;> simp_all

theorem joinMin_flip (a b : Option K) : (joinMin a b).map (- ·) = joinMax (a.map (- ·)) (b.map (- ·)) := by
  cases a <;> cases b <;> simp [joinMin, joinMax, max_neg_neg]

/-- **C149.** The lower end of the mesh: the smallest coordinate that is strictly smaller than the two others of its
facet, however the facets are split. -/
theorem C149_extent_lower (chunks : List (List (K × K × K))) :
    (stlMin chunks).map (- ·) = stlMax (chunks.map fun c => c.map flip3) := by
  have h1 : ∀ (c : List (K × K × K)) (m : Option K),
      (c.foldl stlStepMin m).map (- ·) = (c.map flip3).foldl stlStepMax (m.map (- ·)) := by
    intro c
    induction c with
    | nil => intro m; rfl
    | cons t c ih => intro m; rw [List.foldl_cons, ih, stlStepMin_flip]; rfl
  have h2 : ∀ (cs : List (List (K × K × K))) (m : Option K),
      ((cs.map fun c => c.foldl stlStepMin none).foldl joinMin m).map (- ·) =
        ((cs.map fun c => c.map flip3).map fun c => c.foldl stlStepMax none).foldl joinMax (m.map (- ·)) := by
    intro cs
    induction cs with
    | nil => intro m; rfl
    | cons c cs ih =>
      intro m
      simp only [List.map_cons, List.foldl_cons]
      rw [ih, joinMin_flip, h1 c none]
      rfl
  exact h2 chunks none

/-! ### The rays -/

omit [IsStrictOrderedRing K] in
/-- **C149.** The rays of the result are those through the centres of the voxels: ray `i + 1` is half way
between the faces `i` and `i + 1` of `n` equal voxels. The first ray is at the lower end, the last one of the
loop half a voxel above the upper end. -/
theorem C149_rays (lo hi : K) (n : ℕ) (i : ℕ) (hi' : i ≤ n) :
    gridCo lo hi n (i + 1) = some ((lo + (hi - lo) / n / 2) + (hi - lo) / n * (i : K)) ∧
      gridCo lo hi n 0 = some lo ∧ gridCo lo hi n (n + 2) = some hi := by
  unfold gridCo
  refine ⟨?_, ?_, ?_⟩
  · apply Mem.writeAll_of_mem
    · exact List.mem_append_right _ (List.mem_map.mpr ⟨i, List.mem_range.mpr (by omega), rfl⟩)
    · intro v hv
      simp only [List.mem_append, List.mem_cons, Prod.mk.injEq, List.not_mem_nil, or_false, List.mem_map,
        List.mem_range] at hv
      rcases hv with (⟨h, -⟩ | ⟨h, -⟩) | ⟨j, -, hj, rfl⟩
      · omega
      · omega
      · have : j = i := by omega
        rw [this]
  · apply Mem.writeAll_of_mem
    · simp
    · intro v hv
      simp only [List.mem_append, List.mem_cons, Prod.mk.injEq, List.not_mem_nil, or_false, List.mem_map,
        List.mem_range] at hv
      rcases hv with (⟨-, h⟩ | ⟨h, -⟩) | ⟨j, -, hj, -⟩
      · exact h
      · omega
      · omega
  · apply Mem.writeAll_of_mem
    · simp
    · intro v hv
      simp only [List.mem_append, List.mem_cons, Prod.mk.injEq, List.not_mem_nil, or_false, List.mem_map,
        List.mem_range] at hv
      rcases hv with (⟨h, -⟩ | ⟨-, h⟩) | ⟨j, hj', hj, -⟩
      · omega
      · exact h
      · omega

/-- **C149.** Every ray of the result is in the middle of its voxel. -/
theorem C149_ray_centre (lo hi : K) (n : ℕ) (i : ℕ) (hi' : i < n) :
    gridCo lo hi n (i + 1) =
      some (((lo + (i : K) * ((hi - lo) / n)) + (lo + ((i + 1 : ℕ) : K) * ((hi - lo) / n))) / 2) := by
  rw [(C149_rays lo hi n i hi'.le).1]
  congr 1
  push_cast
  ring

/-! ### Which facets a ray crosses -/

/-- Twice the signed area of a triangle. -/
def cross2 (a b p : K × K) : K := (a.2 - p.2) * (a.1 - b.1) - (a.2 - b.2) * (a.1 - p.1)

theorem sameSide_iff (a b p r : K × K) : sameSide a b p r ↔ 0 < cross2 a b p * cross2 a b r := by
  unfold sameSide edgeAt cross2
  by_cases h : a.1 - b.1 = 0
  · simp only [if_pos h, h, mul_zero, zero_sub]
    set u := (a.2 - b.2) * (a.1 - p.1)
    set v := (a.2 - b.2) * (a.1 - r.1)
    rw [neg_mul_neg]
    rcases lt_trichotomy u 0 with hu | hu | hu <;> rcases lt_trichotomy v 0 with hv | hv | hv
    · simp [hu.ne, hv.ne, hu.not_gt, hv.not_gt, Ieee.gt, Ieee.lt, mul_pos_of_neg_of_neg hu hv]
    · simp [hu.ne, hu.not_gt, hv, Ieee.gt, Ieee.lt]
    · simp [hu.ne, hv.ne', hu.not_gt, hv, Ieee.gt, Ieee.lt, (mul_neg_of_neg_of_pos hu hv).le]
    · simp [hu, Ieee.gt, Ieee.lt]
    · simp [hu, Ieee.gt, Ieee.lt]
    · simp [hu, Ieee.gt, Ieee.lt]
    · simp [hu.ne', hv.ne, hu, hv.not_gt, Ieee.gt, Ieee.lt, (mul_neg_of_pos_of_neg hu hv).le]
    · simp [hu.ne', hu, hv, Ieee.gt, Ieee.lt]
    · simp [hu.ne', hv.ne', hu, hv, Ieee.gt, Ieee.lt, mul_pos hu hv]
  · simp only [if_neg h, Ieee.gt, Ieee.lt]
    set d := a.1 - b.1 with hd
    have e1 : ∀ q : K × K, a.2 - (a.2 - b.2) * (a.1 - q.1) / d - q.2 =
        ((a.2 - q.2) * d - (a.2 - b.2) * (a.1 - q.1)) / d := by
      intro q; field_simp; ring
    have hpos : 0 < d * d := mul_self_pos.mpr h
    have e2 : ((a.2 - p.2) * d - (a.2 - b.2) * (a.1 - p.1)) * ((a.2 - r.2) * d - (a.2 - b.2) * (a.1 - r.1)) =
        (a.2 - (a.2 - b.2) * (a.1 - p.1) / d - p.2) * (a.2 - (a.2 - b.2) * (a.1 - r.1) / d - r.2) * (d * d) := by
      rw [e1, e1]; field_simp
    rw [e2, mul_pos_iff_of_pos_right hpos, mul_pos_iff]
    simp only [sub_pos, sub_neg, gt_iff_lt]

/-- Specification: the vertical line through `r` meets the inside of the facet, at height `h`. -/
def Meets (f : StlFacet K) (r : K × K) (h : K) : Prop :=
  ∃ x y z : K, 0 < x ∧ 0 < y ∧ 0 < z ∧ x + y + z = 1 ∧ r.1 = x * f.a.1 + y * f.b.1 + z * f.c.1 ∧
    r.2 = x * f.a.2.1 + y * f.b.2.1 + z * f.c.2.1 ∧ h = x * f.a.2.2 + y * f.b.2.2 + z * f.c.2.2

/-- Specification: the facet is not seen edge on. -/
def Slanted (f : StlFacet K) : Prop := cross2 (flat f.a) (flat f.b) (flat f.c) ≠ 0

/-- **C149.** The test for a crossing, with its divisions by zero, is exact: it holds exactly if the ray meets the
inside of a facet that is not seen edge on. -/
theorem C149_hits (f : StlFacet K) (r : K × K) : f.hits r ↔ Slanted f ∧ ∃ h, Meets f r h := by
  obtain ⟨n, ⟨a1, a2, a3⟩, ⟨b1, b2, b3⟩, ⟨c1, c2, c3⟩⟩ := f
  obtain ⟨r1, r2⟩ := r
  unfold StlFacet.hits Slanted
  rw [sameSide_iff, sameSide_iff, sameSide_iff]
  simp only [flat, cross2]
  set A := (a2 - c2) * (a1 - b1) - (a2 - b2) * (a1 - c1) with hA
  have hA1 : (b2 - a2) * (b1 - c1) - (b2 - c2) * (b1 - a1) = A := by rw [hA]; ring
  have hA2 : (c2 - b2) * (c1 - a1) - (c2 - a2) * (c1 - b1) = A := by rw [hA]; ring
  rw [hA1, hA2]
  set X := (b2 - r2) * (b1 - c1) - (b2 - c2) * (b1 - r1) with hX
  set Y := (c2 - r2) * (c1 - a1) - (c2 - a2) * (c1 - r1) with hY
  set Z := (a2 - r2) * (a1 - b1) - (a2 - b2) * (a1 - r1) with hZ
  have hsum : X + Y + Z = A := by rw [hX, hY, hZ, hA]; ring
  have hr1 : A * r1 = X * a1 + Y * b1 + Z * c1 := by rw [hX, hY, hZ, hA]; ring
  have hr2 : A * r2 = X * a2 + Y * b2 + Z * c2 := by rw [hX, hY, hZ, hA]; ring
  constructor
  · rintro ⟨h1, h2, h3⟩
    have hA0 : A ≠ 0 := by rintro h; rw [h, zero_mul] at h1; exact lt_irrefl _ h1
    have hq : ∀ W, 0 < A * W → 0 < W / A := by
      intro W hW
      have : W / A = A * W / (A * A) := by field_simp
      rw [this]
      exact div_pos hW (mul_self_pos.mpr hA0)
    refine ⟨hA0, _, X / A, Y / A, Z / A, hq _ h1, hq _ h2, hq _ h3, ?_, ?_, ?_, rfl⟩
    · rw [← add_div, ← add_div, hsum, div_self hA0]
    · field_simp; linarith
    · field_simp; linarith
  · rintro ⟨hA0, h, x, y, z, hx, hy, hz, h1, hr1', hr2', -⟩
    have hAA : 0 < A * A := mul_self_pos.mpr hA0
    dsimp only at hr1' hr2'
    have hz' : z = 1 - x - y := by linarith
    have eX : X = A * x := by rw [hX, hA, hr1', hr2', hz']; ring
    have eY : Y = A * y := by rw [hY, hA, hr1', hr2', hz']; ring
    have eZ : Z = A * z := by rw [hZ, hA, hr1', hr2', hz']; ring
    rw [eX, eY, eZ, ← mul_assoc, ← mul_assoc, ← mul_assoc]
    exact ⟨mul_pos hAA hx, mul_pos hAA hy, mul_pos hAA hz⟩

theorem facetMin_le (t : K × K × K) : facetMin t ≤ t.1 ∧ facetMin t ≤ t.2.1 ∧ facetMin t ≤ t.2.2 := by
  unfold facetMin
  split_ifs with h1 h2
  · exact ⟨le_rfl, h1⟩
  · exact ⟨h2.1, le_rfl, h2.2⟩
  · rcases le_total t.1 t.2.1 with h | h
    · have : t.2.2 < t.1 := by by_contra hn; exact h1 ⟨h, not_lt.mp hn⟩
      exact ⟨this.le, this.le.trans h, le_rfl⟩
    · have : t.2.2 < t.2.1 := by by_contra hn; exact h2 ⟨h, not_lt.mp hn⟩
      exact ⟨this.le.trans h, this.le, le_rfl⟩

theorem le_facetMax (t : K × K × K) : t.1 ≤ facetMax t ∧ t.2.1 ≤ facetMax t ∧ t.2.2 ≤ facetMax t := by
  unfold facetMax
  split_ifs with h1 h2
  · exact ⟨le_rfl, h1⟩
  · exact ⟨h2.1, le_rfl, h2.2⟩
  · rcases le_total t.2.1 t.1 with h | h
    · have : t.1 < t.2.2 := by by_contra hn; exact h1 ⟨h, not_lt.mp hn⟩
      exact ⟨this.le, h.trans this.le, le_rfl⟩
    · have : t.2.1 < t.2.2 := by by_contra hn; exact h2 ⟨h, not_lt.mp hn⟩
      exact ⟨h.trans this.le, this.le, le_rfl⟩

/-- A mean lies between bounds. -/
theorem mean_between {x y z a b c lo hi : K} (hx : 0 < x) (hy : 0 < y) (hz : 0 < z) (h : x + y + z = 1)
    (l1 : lo ≤ a) (l2 : lo ≤ b) (l3 : lo ≤ c) (u1 : a ≤ hi) (u2 : b ≤ hi) (u3 : c ≤ hi) :
    lo ≤ x * a + y * b + z * c ∧ x * a + y * b + z * c ≤ hi := by
  have e1 : lo = x * lo + y * lo + z * lo := by rw [← add_mul, ← add_mul, h, one_mul]
  have e2 : hi = x * hi + y * hi + z * hi := by rw [← add_mul, ← add_mul, h, one_mul]
  constructor
  · rw [e1]
    exact add_le_add (add_le_add (mul_le_mul_of_nonneg_left l1 hx.le) (mul_le_mul_of_nonneg_left l2 hy.le))
      (mul_le_mul_of_nonneg_left l3 hz.le)
  · rw [e2]
    exact add_le_add (add_le_add (mul_le_mul_of_nonneg_left u1 hx.le) (mul_le_mul_of_nonneg_left u2 hy.le))
      (mul_le_mul_of_nonneg_left u3 hz.le)

/-- **C149.** The preselection by the extents of the facets loses no crossing and no vertex. -/
theorem C149_preselection (f : StlFacet K) (r : K × K) (h : f.hits r ∨ f.vertexHit r) : f.possible r := by
  have m1 := facetMin_le (f.a.1, f.b.1, f.c.1)
  have m2 := facetMin_le (f.a.2.1, f.b.2.1, f.c.2.1)
  have M1 := le_facetMax (f.a.1, f.b.1, f.c.1)
  have M2 := le_facetMax (f.a.2.1, f.b.2.1, f.c.2.1)
  unfold StlFacet.possible
  rcases h with h | h
  · obtain ⟨-, h, x, y, z, hx, hy, hz, h1, hr1, hr2, -⟩ := (C149_hits f r).mp h
    rw [hr1, hr2]
    exact ⟨mean_between hx hy hz h1 m2.1 m2.2.1 m2.2.2 M2.1 M2.2.1 M2.2.2,
      mean_between hx hy hz h1 m1.1 m1.2.1 m1.2.2 M1.1 M1.2.1 M1.2.2⟩
  · rcases h with rfl | rfl | rfl
    · exact ⟨⟨m2.1, M2.1⟩, m1.1, M1.1⟩
    · exact ⟨⟨m2.2.1, M2.2.1⟩, m1.2.1, M1.2.1⟩
    · exact ⟨⟨m2.2.2, M2.2.2⟩, m1.2.2, M1.2.2⟩

/-- **C149.** The height of a crossing is that of the point of the facet above the ray, if twice the projected area
is at least 10⁻¹⁴. -/
theorem C149_height (f : StlFacet K) (r : K × K) (h : K) (hm : Meets f r h)
    (hC : 1 / 10 ^ 14 ≤ |cross2 (flat f.a) (flat f.b) (flat f.c)|) : f.height r = some h := by
  obtain ⟨n, ⟨a1, a2, a3⟩, ⟨b1, b2, b3⟩, ⟨c1, c2, c3⟩⟩ := f
  obtain ⟨r1, r2⟩ := r
  obtain ⟨x, y, z, -, -, -, h1, hr1, hr2, rfl⟩ := hm
  simp only [flat, cross2] at hC
  dsimp only at hr1 hr2
  have hpc : a1 * (b2 - c2) + b1 * (c2 - a2) + c1 * (a2 - b2) =
      (a2 - c2) * (a1 - b1) - (a2 - b2) * (a1 - c1) := by ring
  have hne : (a2 - c2) * (a1 - b1) - (a2 - b2) * (a1 - c1) ≠ 0 := by
    intro h0
    rw [h0, abs_zero] at hC
    exact absurd hC (not_le.mpr (by positivity))
  unfold StlFacet.height
  dsimp only
  rw [hpc, if_neg (not_lt.mpr hC)]
  congr 1
  rw [div_eq_iff hne]
  have hz' : z = 1 - x - y := by linarith
  rw [hr1, hr2, hz']
  ring

end

end Fierro
