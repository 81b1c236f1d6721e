import Verif.Props.Voxel
import Verif.Props.OldMesh
import Mathlib.Data.List.Duplicate
import Mathlib.Algebra.Ring.Parity
import Mathlib.Data.Finset.Card
import Mathlib.Tactic.Tauto

/-!
# C149: what the voxelizer makes of the crossings of a ray
-/

namespace Fierro

section
variable {K : Type} [Field K] [LinearOrder K]

/-! ### Keeping unique values -/

theorem uniqueStep_fold (l : List K) (ws : List (K × ℕ)) : ∀ acc,
    (ws.foldl (uniqueStep l) (false, acc)).2 = acc ++ (ws.filter fun w =>
      !(l.zipIdx.any fun v => decide (v.1 = w.1) && decide (v.2 ≠ w.2))).map Prod.fst := by
  induction ws with
  | nil => intro acc; simp
  | cons w ws ih =>
    intro acc
    rw [List.foldl_cons]
    by_cases h : (l.zipIdx.any fun v => decide (v.1 = w.1) && decide (v.2 ≠ w.2)) = true
    · have : uniqueStep l (false, acc) w = (false, acc) := by
        unfold uniqueStep; rw [if_pos (by rw [Bool.false_or]; exact h)]
      rw [this, ih, List.filter_cons_of_neg (by rw [h]; decide)]
    · have : uniqueStep l (false, acc) w = (false, acc ++ [w.1]) := by
        unfold uniqueStep; rw [if_neg (by rw [Bool.false_or]; exact h)]
      rw [this, ih, List.filter_cons_of_pos (by rw [Bool.not_eq_true] at h; rw [h]; rfl)]
      simp

theorem dup_iff (l : List K) (w : K × ℕ) (hw : w ∈ l.zipIdx) :
    (l.zipIdx.any fun v => decide (v.1 = w.1) && decide (v.2 ≠ w.2)) = true ↔ 2 ≤ l.count w.1 := by
  obtain ⟨x, i⟩ := w
  have hi := List.mem_zipIdx_iff_getElem?.mp hw
  obtain ⟨hil, hix⟩ := List.getElem?_eq_some_iff.mp hi
  rw [← List.duplicate_iff_two_le_count, List.duplicate_iff_exists_distinct_get]
  simp only [List.any_eq_true, Bool.and_eq_true, decide_eq_true_eq, Prod.exists]
  constructor
  · rintro ⟨y, j, hj, rfl, hne⟩
    obtain ⟨hjl, hjx⟩ := List.getElem?_eq_some_iff.mp (List.mem_zipIdx_iff_getElem?.mp hj)
    dsimp only at hix hjx hil hne ⊢
    rcases Nat.lt_or_gt_of_ne hne with h | h
    · exact ⟨⟨j, hjl⟩, ⟨i, hil⟩, h, hjx.symm, hix.symm⟩
    · exact ⟨⟨i, hil⟩, ⟨j, hjl⟩, h, hix.symm, hjx.symm⟩
  · rintro ⟨n, m, hnm, hn, hm⟩
    have hlt : n.val < m.val := hnm
    by_cases h : n.val = i
    · exact ⟨x, m.val, List.mem_zipIdx_iff_getElem?.mpr (List.getElem?_eq_some_iff.mpr ⟨m.2, hm.symm⟩), rfl,
        by omega⟩
    · exact ⟨x, n.val, List.mem_zipIdx_iff_getElem?.mpr (List.getElem?_eq_some_iff.mpr ⟨n.2, hn.symm⟩), rfl, h⟩

/-- **C149.** The step meant to keep one of equal heights drops **all** of them: what stays are the heights that occur
once (if the memory of its flag does not hold one). -/
theorem C149_unique (l : List K) : keepUnique false l = l.filter fun x => l.count x = 1 := by
  unfold keepUnique
  rw [uniqueStep_fold, List.nil_append]
  have h1 : (l.zipIdx.filter fun w => !(l.zipIdx.any fun v => decide (v.1 = w.1) && decide (v.2 ≠ w.2))) =
      l.zipIdx.filter ((fun x => decide (l.count x = 1)) ∘ Prod.fst) := by
    apply List.filter_congr
    intro w hw
    have hmem : w.1 ∈ l := List.mem_of_getElem? (List.mem_zipIdx_iff_getElem?.mp hw)
    have hpos : 0 < l.count w.1 := List.count_pos_iff.mpr hmem
    have := dup_iff l w hw
    rw [Bool.eq_iff_iff, Bool.not_eq_true', ← Bool.not_eq_true, this]
    simp only [Function.comp, decide_eq_true_eq]
    omega
  rw [h1, ← List.filter_map, List.zipIdx_map_fst]

theorem keepUnique_nodup {l : List K} (h : l.Nodup) : keepUnique false l = l := by
  rw [C149_unique, List.filter_eq_self]
  intro x hx
  simpa using List.count_eq_one_of_mem h hx

/-! ### Sorting -/

theorem bubbleFrom_perm (t : List K) : ∀ x, (bubbleFrom x t).Perm (x :: t) := by
  induction t with
  | nil => intro x; exact .refl _
  | cons y t ih =>
    intro x
    unfold bubbleFrom
    split_ifs
    · exact ((ih x).cons y).trans (.swap _ _ _)
    · exact (ih y).cons x

theorem bubblePass_perm (l : List K) : (bubblePass l).Perm l := by
  cases l with
  | nil => exact .refl _
  | cons x t => exact bubbleFrom_perm t x

theorem bubbleFrom_last (t : List K) : ∀ x, ∃ l' m, bubbleFrom x t = l' ++ [m] ∧ x ≤ m ∧ ∀ z ∈ t, z ≤ m := by
  induction t with
  | nil => intro x; exact ⟨[], x, rfl, le_rfl, by simp⟩
  | cons y t ih =>
    intro x
    unfold bubbleFrom
    split_ifs with h
    · obtain ⟨l', m, he, hx, hm⟩ := ih x
      refine ⟨y :: l', m, by rw [he]; rfl, hx, fun z hz => ?_⟩
      rcases List.mem_cons.mp hz with rfl | hz
      · exact (le_of_lt h).trans hx
      · exact hm z hz
    · obtain ⟨l', m, he, hy, hm⟩ := ih y
      refine ⟨x :: l', m, by rw [he]; rfl, (not_lt.mp h).trans hy, fun z hz => ?_⟩
      rcases List.mem_cons.mp hz with rfl | hz
      · exact hy
      · exact hm z hz

/-- After a pass the largest value is the last one. -/
theorem bubblePass_last (l : List K) (hl : l ≠ []) : ∃ l' m, bubblePass l = l' ++ [m] ∧ ∀ x ∈ l, x ≤ m := by
  cases l with
  | nil => exact absurd rfl hl
  | cons x t =>
    obtain ⟨l', m, he, hx, hm⟩ := bubbleFrom_last t x
    refine ⟨l', m, he, fun z hz => ?_⟩
    rcases List.mem_cons.mp hz with rfl | hz
    · exact hx
    · exact hm z hz

theorem bubbleFrom_sorted (s : List K) : ∀ x, (x :: s).Pairwise (· ≤ ·) → bubbleFrom x s = x :: s := by
  induction s with
  | nil => intro x _; rfl
  | cons y s ih =>
    intro x hp
    obtain ⟨h1, h2⟩ := List.pairwise_cons.mp hp
    unfold bubbleFrom
    rw [if_neg (not_lt.mpr (h1 y (by simp))), ih y h2]

theorem bubbleFrom_append (t s : List K) (hs : s.Pairwise (· ≤ ·)) : ∀ x, (∀ z ∈ x :: t, ∀ y ∈ s, z ≤ y) →
    bubbleFrom x (t ++ s) = bubbleFrom x t ++ s := by
  induction t with
  | nil =>
    intro x hx
    exact bubbleFrom_sorted s x (List.pairwise_cons.mpr ⟨fun y hy => hx x (by simp) y hy, hs⟩)
  | cons y t ih =>
    intro x hx
    rw [List.cons_append]
    unfold bubbleFrom
    split_ifs
    · rw [ih x fun z hz => hx z (by simp only [List.mem_cons] at hz ⊢; tauto)]; rfl
    · rw [ih y fun z hz => hx z (by simp only [List.mem_cons] at hz ⊢; tauto)]; rfl

/-- A sorted end above the rest is left alone. -/
theorem bubblePass_append (l s : List K) (hl : l ≠ []) (hs : s.Pairwise (· ≤ ·)) (hls : ∀ x ∈ l, ∀ y ∈ s, x ≤ y) :
    bubblePass (l ++ s) = bubblePass l ++ s := by
  cases l with
  | nil => exact absurd rfl hl
  | cons x t => exact bubbleFrom_append t s hs x hls

theorem bubble_sorts (n : ℕ) : ∀ (l s : List K), l.length = n → s.Pairwise (· ≤ ·) →
    (∀ x ∈ l, ∀ y ∈ s, x ≤ y) → (bubblePass^[n] (l ++ s)).Pairwise (· ≤ ·) ∧ (bubblePass^[n] (l ++ s)).Perm (l ++ s) := by
  induction n with
  | zero =>
    intro l s hl hs _
    rw [List.length_eq_zero_iff.mp hl]
    exact ⟨hs, .refl _⟩
  | succ n ih =>
    intro l s hl hs hls
    have hne : l ≠ [] := by rintro rfl; simp at hl
    obtain ⟨l', m, he, hm⟩ := bubblePass_last l hne
    have hperm : (l' ++ [m]).Perm l := he ▸ bubblePass_perm l
    have hml : m ∈ l := hperm.mem_iff.mp (by simp)
    rw [Function.iterate_succ_apply, bubblePass_append l s hne hs hls, he, List.append_assoc, List.singleton_append]
    have hlen : l'.length = n := by
      have := hperm.length_eq
      simp only [List.length_append, List.length_singleton] at this
      omega
    have hl' : ∀ x ∈ l', x ∈ l := fun x hx => hperm.mem_iff.mp (by simp [hx])
    have := ih l' (m :: s) hlen (List.pairwise_cons.mpr ⟨fun y hy => hls m hml y hy, hs⟩) (by
      intro x hx y hy
      rcases List.mem_cons.mp hy with rfl | hy
      · exact hm x (hl' x hx)
      · exact hls x (hl' x hx) y hy)
    refine ⟨this.1, this.2.trans ?_⟩
    have h2 := hperm.append_right s
    rwa [List.append_assoc, List.singleton_append] at h2

/-- **C149.** The crossings of a ray are sorted. -/
theorem C149_sorted (l : List K) : (bubbleSort l).Pairwise (· ≤ ·) ∧ (bubbleSort l).Perm l := by
  have := bubble_sorts l.length l [] rfl List.Pairwise.nil (by simp)
  rwa [List.append_nil] at this

/-! ### Marking -/

theorem pairs_mark (z : K) (n : ℕ) : ∀ s : List K, s.length = 2 * n → s.Pairwise (· < ·) →
    ((List.range n).any (fun m => decide (markPair z (s.getD (2 * m) 0) (s.getD (2 * m + 1) 0))) = true ↔
      (∃ c ∈ s, nearTo z c) ∨ (z ∉ s ∧ Odd (s.countP (· < z)))) := by
  induction n with
  | zero =>
    intro s hs _
    rw [List.length_eq_zero_iff.mp hs]
    simp
  | succ n ih =>
    intro s hs hp
    match s, hs with
    | a :: b :: t, hs =>
      have ht : t.length = 2 * n := by simp only [List.length_cons] at hs; omega
      obtain ⟨ha, hp'⟩ := List.pairwise_cons.mp hp
      obtain ⟨hb, hpt⟩ := List.pairwise_cons.mp hp'
      have hab : a < b := ha b (by simp)
      have hr : (List.range (n + 1)).any (fun m =>
            decide (markPair z ((a :: b :: t).getD (2 * m) 0) ((a :: b :: t).getD (2 * m + 1) 0))) =
          (decide (markPair z a b) || (List.range n).any fun m => decide (markPair z (t.getD (2 * m) 0) (t.getD (2 * m + 1) 0))) := by
        rw [List.range_succ_eq_map, List.any_cons, List.any_map]
        rfl
      rw [hr, Bool.or_eq_true, ih t ht hpt, decide_eq_true_eq]
      have hnear : (∃ c ∈ a :: b :: t, nearTo z c) ↔ nearTo z a ∨ nearTo z b ∨ ∃ c ∈ t, nearTo z c := by
        simp only [List.mem_cons, exists_eq_or_imp]
      rw [hnear]
      -- where the height lies
      have hcount : (a :: b :: t).countP (· < z) = t.countP (· < z) + (if b < z then 1 else 0) + (if a < z then 1 else 0) := by
        simp only [List.countP_cons, decide_eq_true_eq]
      have hzero : z ≤ b → t.countP (· < z) = 0 := by
        intro h
        rw [List.countP_eq_zero]
        intro c hc
        simpa using h.trans (hb c hc).le
      unfold markPair
      by_cases h1 : z < a
      · have h2 : z < b := h1.trans hab
        have hz0 := hzero h2.le
        rw [hcount, if_neg h2.not_gt, if_neg h1.not_gt, hz0]
        have n1 : ¬(z > a ∧ z < b) := fun h => absurd h.1 h1.not_gt
        simp only [n1, false_or, Nat.add_zero, Nat.not_odd_zero, and_false, or_false, or_assoc]
      · by_cases h1' : z = a
        · have h2 : z < b := h1' ▸ hab
          have hz0 := hzero h2.le
          rw [hcount, if_neg h2.not_gt, if_neg (h1' ▸ lt_irrefl _), hz0]
          have n1 : ¬(z > a ∧ z < b) := fun h => absurd h.1 (h1' ▸ lt_irrefl _)
          simp only [n1, false_or, Nat.add_zero, Nat.not_odd_zero, and_false, or_false, or_assoc]
        · have ha' : a < z := lt_of_le_of_ne (not_lt.mp h1) (Ne.symm h1')
          by_cases h2 : z < b
          · have hz0 := hzero h2.le
            have hnt : z ∉ t := fun h => absurd (hb z h) h2.not_gt
            have hns : z ∉ a :: b :: t := by
              simp only [List.mem_cons, not_or]
              exact ⟨h1', h2.ne, hnt⟩
            rw [hcount, if_neg h2.not_gt, if_pos ha', hz0]
            have y1 : z > a ∧ z < b := ⟨ha', h2⟩
            simp only [y1, true_or, hns, not_false_eq_true, Nat.zero_add, odd_one, and_self, or_true]
          · by_cases h2' : z = b
            · have hz0 := hzero h2'.le
              have hns : ¬(z ∉ a :: b :: t) := by simp [h2']
              have n1 : ¬(z > a ∧ z < b) := fun h => absurd h.2 h2
              rw [hz0]
              simp only [n1, hns, false_or, false_and, or_false, Nat.not_odd_zero, and_false, or_assoc]
            · have hb' : b < z := lt_of_le_of_ne (not_lt.mp h2) (Ne.symm h2')
              have n1 : ¬(z > a ∧ z < b) := fun h => absurd h.2 h2
              rw [hcount, if_pos hb', if_pos ha']
              have hodd : Odd (t.countP (· < z) + 1 + 1) ↔ Odd (t.countP (· < z)) := by
                rw [Nat.odd_add_one, Nat.not_odd_iff_even, Nat.even_add_one, Nat.not_even_iff_odd]
              have hmem : z ∉ a :: b :: t ↔ z ∉ t := by
                simp only [List.mem_cons, not_or]
                exact ⟨fun h => h.2.2, fun h => ⟨h1', h2', h⟩⟩
              rw [hodd, hmem]
              simp only [n1, false_or, or_assoc]

/-- **C149.** A ray with an even number of different crossings marks the voxels with an odd number of crossings below,
and those within a ten-thousandth of their own coordinate of a crossing. -/
theorem C149_marks (vertices rep : Bool) (zs : List K) (hn : zs.Nodup) (he : Even zs.length) :
    ∃ m, assignRay false vertices rep zs = .marks m rep ∧
      ∀ z, m z = true ↔ (∃ c ∈ zs, nearTo z c) ∨ (z ∉ zs ∧ Odd (zs.countP (· < z))) := by
  obtain ⟨hs, hperm⟩ := C149_sorted zs
  have hlt : (bubbleSort zs).Pairwise (· < ·) := by
    have hnd : (bubbleSort zs).Nodup := hperm.nodup_iff.mpr hn
    exact (hs.and hnd).imp fun h => lt_of_le_of_ne h.1 h.2
  have h2 : zs.length = 2 * (zs.length / 2) := by
    obtain ⟨k, hk⟩ := he
    omega
  unfold assignRay
  rw [keepUnique_nodup hn]
  dsimp only
  rw [if_pos (by omega)]
  refine ⟨_, rfl, fun z => ?_⟩
  rw [pairs_mark z (zs.length / 2) (bubbleSort zs) (by rw [hperm.length_eq]; exact h2) hlt]
  simp only [hperm.mem_iff, hperm.countP_eq]

/-- **C149.** With an odd number of crossings a ray that meets no vertex marks nothing and is left for repair; one that
meets a vertex marks nothing and is left for repair only if its normals asked for it. -/
theorem C149_odd (vertices rep : Bool) (zs : List K) (hn : zs.Nodup) (ho : Odd zs.length) :
    assignRay false vertices rep zs = .marks (fun _ => false) (rep || !vertices) := by
  unfold assignRay
  rw [keepUnique_nodup hn]
  dsimp only
  rw [if_neg (by rw [Nat.odd_iff] at ho; omega)]

variable [IsStrictOrderedRing K]

open Classical in
/-- Specification: the facets that the line through `r` crosses in their inside. -/
noncomputable def crossed (fs : List (StlFacet K)) (r : K × K) : List (StlFacet K) :=
  fs.filter fun f => Slanted f ∧ ∃ h, Meets f r h

theorem mapM_height {fs : List (StlFacet K)} {r : K × K} {zs : List K}
    (h : List.Forall₂ (fun f z => f.height r = some z) fs zs) : fs.mapM (fun f => f.height r) = some zs := by
  induction h with
  | nil => rfl
  | cons h1 _ ih => simp [List.mapM_cons, h1, ih]

/-- **C149.** A ray through no vertex that crosses an even number of facets, at different heights and none of them
nearly edge on, marks exactly the voxels with an odd number of crossed facets below, and those within a
ten-thousandth of their own coordinate of a crossing; whatever was in memory. -/
theorem C149_ray (gmax gmin : K) (fs : List (StlFacet K)) (r : K × K) (zs : List K)
    (hv : ∀ f ∈ fs, ¬f.vertexHit r)
    (hz : List.Forall₂ (fun f z => Meets f r z ∧ 1 / 10 ^ 14 ≤ |cross2 (flat f.a) (flat f.b) (flat f.c)|)
      (crossed fs r) zs) (hn : zs.Nodup) (he : Even zs.length) :
    ∃ m, castRay false gmax gmin fs r = .marks m false ∧
      ∀ z, m z = true ↔ (∃ c ∈ zs, nearTo z c) ∨ (z ∉ zs ∧ Odd (zs.countP (· < z))) := by
  have h1 : ((fs.filter fun f => f.possible r).filter fun f => f.vertexHit r) = [] := by
    rw [List.filter_eq_nil_iff]
    intro f hf
    simpa using hv f (List.mem_filter.mp hf).1
  have h2 : ((fs.filter fun f => f.possible r).filter fun f => f.hits r) = crossed fs r := by
    unfold crossed
    rw [List.filter_filter]
    apply List.filter_congr
    intro f _
    rw [← Bool.decide_and, decide_eq_decide, ← C149_hits]
    exact ⟨fun h => h.1, fun h => ⟨h, C149_preselection f r (Or.inl h)⟩⟩
  have h3 : (crossed fs r).mapM (fun f => f.height r) = some zs :=
    mapM_height (hz.imp fun f z h => C149_height f r z h.1 h.2)
  obtain ⟨m, hm, hz'⟩ := C149_marks (!([] : List (StlFacet K)).isEmpty) false zs hn he
  refine ⟨m, ?_, hz'⟩
  unfold castRay
  simp only [h1, h2]
  change (match (([] : List (StlFacet K)) ++ crossed fs r).mapM (fun f => f.height r) with
    | none => RayEnd.infinite
    | some zs => assignRay false (!([] : List (StlFacet K)).isEmpty) false zs) = _
  rw [List.nil_append, h3]
  exact hm

end

/-- The hypotheses of `C149_ray` are met by two facets one above the other. -/
example : ∃ m, castRay (K := ℚ) false 0 0 [⟨-1, (0, 0, 1), (0, 1, 1), (1, 0, 1)⟩, ⟨1, (0, 0, 2), (1, 0, 2), (0, 1, 2)⟩]
      (1 / 4, 1 / 4) = .marks m false ∧
    ∀ z, m z = true ↔ (∃ c ∈ [(1 : ℚ), 2], nearTo z c) ∨ (z ∉ [(1 : ℚ), 2] ∧ Odd ([(1 : ℚ), 2].countP (· < z))) := by
  have m1 : Meets (K := ℚ) ⟨-1, (0, 0, 1), (0, 1, 1), (1, 0, 1)⟩ (1 / 4, 1 / 4) 1 :=
    ⟨1 / 2, 1 / 4, 1 / 4, by norm_num⟩
  have m2 : Meets (K := ℚ) ⟨1, (0, 0, 2), (1, 0, 2), (0, 1, 2)⟩ (1 / 4, 1 / 4) 2 :=
    ⟨1 / 2, 1 / 4, 1 / 4, by norm_num⟩
  have s1 : Slanted (K := ℚ) ⟨-1, (0, 0, 1), (0, 1, 1), (1, 0, 1)⟩ := by norm_num [Slanted, cross2, flat]
  have s2 : Slanted (K := ℚ) ⟨1, (0, 0, 2), (1, 0, 2), (0, 1, 2)⟩ := by norm_num [Slanted, cross2, flat]
  refine C149_ray 0 0 _ _ [1, 2] ?_ ?_ (by decide) (by decide)
  · intro f hf
    simp only [List.mem_cons, List.not_mem_nil, or_false] at hf
    rcases hf with rfl | rfl <;> norm_num [StlFacet.vertexHit, flat]
  · have : crossed (K := ℚ) [⟨-1, (0, 0, 1), (0, 1, 1), (1, 0, 1)⟩, ⟨1, (0, 0, 2), (1, 0, 2), (0, 1, 2)⟩] (1 / 4, 1 / 4) =
        [⟨-1, (0, 0, 1), (0, 1, 1), (1, 0, 1)⟩, ⟨1, (0, 0, 2), (1, 0, 2), (0, 1, 2)⟩] := by
      unfold crossed
      rw [List.filter_eq_self]
      intro f hf
      simp only [List.mem_cons, List.not_mem_nil, or_false] at hf
      rcases hf with rfl | rfl
      · classical exact decide_eq_true ⟨s1, 1, m1⟩
      · classical exact decide_eq_true ⟨s2, 2, m2⟩
    rw [this]
    exact .cons ⟨m1, by norm_num [cross2, flat]⟩ (.cons ⟨m2, by norm_num [cross2, flat]⟩ .nil)

/-! ### Repair from the neighbours -/

/-- Specification: the voxels around a ray at its height, within the grid. -/
def Beside (elx ely : ℕ) (q p : ℕ × ℕ × ℕ) : Prop :=
  p.2.2 = q.2.2 ∧ p.1 < elx ∧ p.2.1 < ely ∧ (p.1, p.2.1) ≠ (q.1, q.2.1) ∧
    p.1 ≤ q.1 + 1 ∧ q.1 ≤ p.1 + 1 ∧ p.2.1 ≤ q.2.1 + 1 ∧ q.2.1 ≤ p.2.1 + 1

/-- **C149.** The repair counts exactly the marked voxels beside a ray within the grid. -/
theorem C149_repair_count (g : ℕ × ℕ × ℕ → Bool) (elx ely : ℕ) (q : ℕ × ℕ × ℕ) (hx : q.1 < elx) (hy : q.2.1 < ely) :
    ∃ s : Finset (ℕ × ℕ × ℕ), (∀ p, p ∈ s ↔ Beside elx ely q p ∧ g p = true) ∧
      s.card = repairCount g elx ely q.1 q.2.1 q.2.2 := by
  obtain ⟨x, y, k⟩ := q
  dsimp only at hx hy
  -- the eight candidates and whether they are beyond the border
  let cand : List ((ℕ × ℕ × ℕ) × Bool) :=
    [((x - 1, y - 1, k), decide (x = 0 ∨ y = 0)), ((x - 1, y, k), decide (x = 0)),
     ((x - 1, y + 1, k), decide (x = 0 ∨ y + 1 = ely)), ((x, y - 1, k), decide (y = 0)),
     ((x, y + 1, k), decide (y + 1 = ely)), ((x + 1, y - 1, k), decide (x + 1 = elx ∨ y = 0)),
     ((x + 1, y, k), decide (x + 1 = elx)), ((x + 1, y + 1, k), decide (x + 1 = elx ∨ y + 1 = ely))]
  let l := (cand.filter fun c => !c.2 && g c.1).map Prod.fst
  have hcount : l.length = repairCount g elx ely x y k := by
    have : ∀ L : List ((ℕ × ℕ × ℕ) × Bool), ((L.filter fun c => !c.2 && g c.1).map Prod.fst).length =
        (L.map fun c => if c.2 = true then 0 else (g c.1).toNat).sum := by
      intro L
      induction L with
      | nil => rfl
      | cons c L ih =>
        rw [List.map_cons, List.sum_cons, ← ih]
        obtain ⟨p, b⟩ := c
        cases b <;> cases hg : g p <;> simp [List.filter_cons, hg, Nat.add_comm]
    change ((cand.filter fun c => !c.2 && g c.1).map Prod.fst).length = _
    rw [this cand]
    simp only [cand, List.map_cons, List.map_nil, List.sum_cons, List.sum_nil, decide_eq_true_eq]
    unfold repairCount
    dsimp only
    omega
  have hnd : l.Nodup := by
    have hpair : cand.Pairwise fun c d => c.2 = false → d.2 = false → c.1 ≠ d.1 := by
      simp only [cand, List.pairwise_cons, List.mem_cons, List.not_mem_nil, or_false, forall_eq_or_imp, forall_eq,
        decide_eq_false_iff_not, not_or, ne_eq, Prod.mk.injEq, List.Pairwise.nil, and_true, false_imp_iff, implies_true]
      omega
    have h2 := hpair.sublist (List.filter_sublist (p := fun c => !c.2 && g c.1))
    rw [List.nodup_iff_pairwise_ne, List.pairwise_map]
    refine h2.imp_of_mem fun {c d} hc hd h => h ?_ ?_
    · have := (List.mem_filter.mp hc).2
      simp only [Bool.and_eq_true, Bool.not_eq_true'] at this
      exact this.1
    · have := (List.mem_filter.mp hd).2
      simp only [Bool.and_eq_true, Bool.not_eq_true'] at this
      exact this.1
  refine ⟨l.toFinset, ?_, by rw [List.toFinset_card_of_nodup hnd]; exact hcount⟩
  rintro ⟨a, b, c⟩
  have hmem : (a, b, c) ∈ l ↔ (∃ d, ((a, b, c), d) ∈ cand ∧ d = false) ∧ g (a, b, c) = true := by
    constructor
    · intro h
      obtain ⟨⟨w, d⟩, hw, rfl⟩ := List.mem_map.mp h
      obtain ⟨h1, h2⟩ := List.mem_filter.mp hw
      simp only [Bool.and_eq_true, Bool.not_eq_true'] at h2
      exact ⟨⟨d, h1, h2.1⟩, h2.2⟩
    · rintro ⟨⟨d, h1, rfl⟩, h3⟩
      exact List.mem_map.mpr ⟨_, List.mem_filter.mpr ⟨h1, by simpa using h3⟩, rfl⟩
  rw [List.mem_toFinset, hmem]
  refine and_congr_left fun _ => ?_
  unfold Beside
  simp only [cand, List.mem_cons, List.not_mem_nil, or_false, Prod.mk.injEq, exists_eq_right', ne_eq]
  constructor
  · rintro ⟨d, h, rfl⟩
    rcases h with ⟨⟨rfl, rfl, rfl⟩, h⟩ | ⟨⟨rfl, rfl, rfl⟩, h⟩ | ⟨⟨rfl, rfl, rfl⟩, h⟩ | ⟨⟨rfl, rfl, rfl⟩, h⟩ |
      ⟨⟨rfl, rfl, rfl⟩, h⟩ | ⟨⟨rfl, rfl, rfl⟩, h⟩ | ⟨⟨rfl, rfl, rfl⟩, h⟩ | ⟨⟨rfl, rfl, rfl⟩, h⟩ <;>
      (have h' := of_decide_eq_false h.symm; omega)
  · rintro ⟨rfl, h1, h2, h3, h4, h5, h6, h7⟩
    refine ⟨false, ?_, rfl⟩
    simp only [@eq_comm Bool false, decide_eq_false_iff_not, and_true]
    clear hmem hnd hcount
    have ha : a + 1 = x ∨ a = x ∨ a = x + 1 := by omega
    have hb : b + 1 = y ∨ b = y ∨ b = y + 1 := by omega
    rcases ha with ha | ha | ha <;> rcases hb with hb | hb | hb
    · left; omega
    · right; left; omega
    · right; right; left; omega
    · right; right; right; left; omega
    · exact absurd ⟨ha, hb⟩ h3
    · right; right; right; right; left; omega
    · right; right; right; right; right; left; omega
    · right; right; right; right; right; right; left; omega
    · right; right; right; right; right; right; right; omega

theorem repairVoxel_le (elx ely : ℕ) (g : ℕ × ℕ × ℕ → Bool) (q p : ℕ × ℕ × ℕ) (h : g p = true) :
    repairVoxel elx ely g q p = true := by
  unfold repairVoxel
  split_ifs
  · by_cases hp : p = q
    · subst hp; exact Function.update_self ..
    · rw [Function.update_of_ne hp]; exact h
  · exact h

theorem repairFold_le (elx ely : ℕ) (L : List (ℕ × ℕ × ℕ)) : ∀ (g : ℕ × ℕ × ℕ → Bool) (p : ℕ × ℕ × ℕ), g p = true →
    L.foldl (repairVoxel elx ely) g p = true := by
  induction L with
  | nil => exact fun _ _ h => h
  | cons q L ih => exact fun g p h => ih _ p (repairVoxel_le elx ely g q p h)

theorem repairCount_mono (elx ely x y k : ℕ) {g g' : ℕ × ℕ × ℕ → Bool} (h : ∀ p, g p = true → g' p = true) :
    repairCount g elx ely x y k ≤ repairCount g' elx ely x y k := by
  have hb : ∀ p, (g p).toNat ≤ (g' p).toNat := by
    intro p
    cases hg : g p
    · exact Nat.zero_le _
    · rw [h p hg]
  have hc : ∀ (P : Prop) [Decidable P] p, (if P then 0 else (g p).toNat) ≤ if P then 0 else (g' p).toNat := by
    intro P _ p
    split_ifs
    · exact le_rfl
    · exact hb p
  unfold repairCount
  dsimp only
  have := hc (x = 0 ∨ y = 0) (x - 1, y - 1, k)
  have := hc (x = 0) (x - 1, y, k)
  have := hc (x = 0 ∨ y + 1 = ely) (x - 1, y + 1, k)
  have := hc (y = 0) (x, y - 1, k)
  have := hc (y + 1 = ely) (x, y + 1, k)
  have := hc (x + 1 = elx ∨ y = 0) (x + 1, y - 1, k)
  have := hc (x + 1 = elx) (x + 1, y, k)
  have := hc (x + 1 = elx ∨ y + 1 = ely) (x + 1, y + 1, k)
  omega

/-- **C149.** The repair of the rays clears nothing, changes only the rays of the list, fills every voxel of these rays
that has four marked neighbours before, and fills none that has less than four marked neighbours after. -/
theorem C149_repair (elx ely elz : ℕ) (g : ℕ × ℕ × ℕ → Bool) (rays : List (ℕ × ℕ)) (p : ℕ × ℕ × ℕ) :
    (g p = true → repairRays elx ely elz g rays p = true) ∧
    (((p.1, p.2.1) ∉ rays ∨ elz ≤ p.2.2) → repairRays elx ely elz g rays p = g p) ∧
    ((p.1, p.2.1) ∈ rays → p.2.2 < elz → 4 ≤ repairCount g elx ely p.1 p.2.1 p.2.2 →
      repairRays elx ely elz g rays p = true) ∧
    (repairRays elx ely elz g rays p = true → g p = false →
      4 ≤ repairCount (repairRays elx ely elz g rays) elx ely p.1 p.2.1 p.2.2) := by
  unfold repairRays
  set L := rays.flatMap fun r => (List.range elz).map fun k => (r.1, r.2, k) with hL
  have hmem : ∀ q : ℕ × ℕ × ℕ, q ∈ L ↔ (q.1, q.2.1) ∈ rays ∧ q.2.2 < elz := by
    rintro ⟨a, b, c⟩
    simp only [hL, List.mem_flatMap, List.mem_map, List.mem_range, Prod.mk.injEq, Prod.exists]
    constructor
    · rintro ⟨x, y, h, k, hk, rfl, rfl, rfl⟩; exact ⟨h, hk⟩
    · rintro ⟨h, hk⟩; exact ⟨a, b, h, c, hk, rfl, rfl, rfl⟩
  refine ⟨repairFold_le elx ely L g p, ?_, ?_, ?_⟩
  · intro h
    have hn : p ∉ L := by
      rw [hmem]
      rintro ⟨h1, h2⟩
      rcases h with h | h
      · exact h h1
      · omega
    clear_value L
    clear hmem hL
    induction L generalizing g with
    | nil => rfl
    | cons q L ih =>
      rw [List.foldl_cons, ih _ fun h => hn (List.mem_cons_of_mem _ h)]
      unfold repairVoxel
      split_ifs
      · rw [Function.update_of_ne]
        rintro rfl
        exact hn (List.mem_cons_self ..)
      · rfl
  · intro h1 h2 h4
    have hp : p ∈ L := (hmem p).mpr ⟨h1, h2⟩
    obtain ⟨A, B, hAB⟩ := List.append_of_mem hp
    rw [hAB, List.foldl_append, List.foldl_cons]
    apply repairFold_le
    have h4' := le_trans h4 (repairCount_mono elx ely p.1 p.2.1 p.2.2
      (g' := A.foldl (repairVoxel elx ely) g) fun q hq => repairFold_le elx ely A g q hq)
    generalize A.foldl (repairVoxel elx ely) g = G at h4' ⊢
    unfold repairVoxel
    rw [if_pos h4']
    exact Function.update_self ..
  · clear_value L
    clear hmem hL
    induction L generalizing g with
    | nil => intro h h'; exact absurd (h'.symm.trans h) Bool.false_ne_true
    | cons q L ih =>
      rw [List.foldl_cons]
      intro h h'
      by_cases hq : repairVoxel elx ely g q p = true
      · have hpq : p = q ∧ 4 ≤ repairCount g elx ely q.1 q.2.1 q.2.2 := by
          unfold repairVoxel at hq
          split_ifs at hq with hc
          · refine ⟨?_, hc⟩
            by_contra hne
            rw [Function.update_of_ne hne, h'] at hq
            exact Bool.false_ne_true hq
          · rw [h'] at hq
            exact absurd hq Bool.false_ne_true
        obtain ⟨rfl, hc⟩ := hpq
        exact le_trans hc (repairCount_mono elx ely p.1 p.2.1 p.2.2 fun z hz =>
          repairFold_le elx ely L _ z (repairVoxel_le elx ely g p z hz))
      · exact ih _ h (by simpa using hq)

/-- **C149 (what fails).** The repair reads what it has already repaired, so the order of the list matters: with two rays
side by side, of which one has six marked neighbours and the other three, both are filled in one order and
one in the other. -/
theorem C149_repair_order_fails :
    let g : ℕ × ℕ × ℕ → Bool := fun p => decide (p ∈ [(0, 0, 0), (0, 1, 0), (0, 2, 0), (1, 2, 0), (1, 0, 0), (2, 2, 0)])
    repairRays 5 5 1 g [(1, 1), (2, 1)] (2, 1, 0) = true ∧ repairRays 5 5 1 g [(2, 1), (1, 1)] (2, 1, 0) = false := by
  decide +kernel

/-! ### The vote and the file -/

/-- **C149.** A voxel of the result is filled exactly if the rays of two of the three directions through its centre
marked it. -/
theorem C149_vote (gx gy gz : ℕ → ℕ → ℕ → Bool) (k j i : ℕ) :
    voteVoxel gx gy gz k j i = true ↔
      (gx (j + 1) (k + 1) (i + 1) = true ∧ gy (k + 1) (i + 1) (j + 1) = true) ∨
      (gy (k + 1) (i + 1) (j + 1) = true ∧ gz (i + 1) (j + 1) (k + 1) = true) ∨
      (gx (j + 1) (k + 1) (i + 1) = true ∧ gz (i + 1) (j + 1) (k + 1) = true) := by
  unfold voteVoxel
  cases gx (j + 1) (k + 1) (i + 1) <;> cases gy (k + 1) (i + 1) (j + 1) <;> cases gz (i + 1) (j + 1) (k + 1) <;> simp

/-- **C149.** The file lists the voxels with the first direction fastest. -/
theorem C149_file (gridX gridY gridZ : ℕ) (out : ℕ → ℕ → ℕ → Bool) {i j k : ℕ} (hi : i < gridX) (hj : j < gridY)
    (hk : k < gridZ) : (voxelFile gridX gridY gridZ out)[i + gridX * (j + gridY * k)]? = some (out k j i) ∧
      (voxelFile gridX gridY gridZ out).length = gridX * gridY * gridZ := by
  constructor
  · unfold voxelFile
    have e : i + gridX * (j + gridY * k) = (i + gridX * j) + (gridX * gridY) * k := by ring
    rw [e, flatMap_getElem? _ _ (gridX * gridY) (by
        intro kc _
        rw [flatMap_length _ _ gridX (by simp)]; simp [Nat.mul_comm]) _ _ (radixN_lt hi hj), List.getElem?_range hk]
    simp only [Option.bind_some]
    rw [flatMap_getElem? _ _ gridX (by simp) _ _ hi, List.getElem?_range hj]
    simp only [Option.bind_some]
    rw [List.getElem?_map, List.getElem?_range hi]
    rfl
  · simp only [voxelFile, List.length_flatMap, List.length_map, List.length_range, List.map_const',
      List.sum_replicate, smul_eq_mul]
    ring

/-! ### What fails -/

/-- What a ray does at a height: marked, and left for repair. -/
def RayEnd.look {K : Type} (e : RayEnd K) (z : K) : Option (Bool × Bool) :=
  match e with
  | .marks m rep => some (m z, rep)
  | .infinite => none

/-- A tetrahedron whose first face lies in the plane where the first coordinate is one: its four facets. -/
def faceUp : List (ℚ × ℚ × ℚ) := [(1, 1, 1), (1, 1, 0), (1, 1, 0), (1, 1, 0)]

/-- **C149 (what fails).** A mesh whose end along an axis is a single face of a tetrahedron has no facet with one largest
coordinate there: the upper end is not found at all. -/
theorem C149_extent_fails (chunks : List (List (ℚ × ℚ × ℚ))) (h : chunks.flatten = faceUp) : stlMax chunks = none := by
  have h1 := C149_extent_schedule chunks [faceUp] (by simp [h])
  rw [h1]
  decide +kernel

/-- The unit cube, two facets to a face. -/
def stlCube : List (StlFacet ℚ) :=
  [⟨-1, (0, 0, 0), (1, 1, 0), (1, 0, 0)⟩, ⟨-1, (0, 0, 0), (0, 1, 0), (1, 1, 0)⟩,
   ⟨1, (0, 0, 1), (1, 0, 1), (1, 1, 1)⟩, ⟨1, (0, 0, 1), (1, 1, 1), (0, 1, 1)⟩,
   ⟨0, (0, 0, 0), (1, 0, 0), (1, 0, 1)⟩, ⟨0, (0, 0, 0), (1, 0, 1), (0, 0, 1)⟩,
   ⟨0, (0, 1, 0), (1, 1, 1), (1, 1, 0)⟩, ⟨0, (0, 1, 0), (0, 1, 1), (1, 1, 1)⟩,
   ⟨0, (0, 0, 0), (0, 1, 1), (0, 1, 0)⟩, ⟨0, (0, 0, 0), (0, 0, 1), (0, 1, 1)⟩,
   ⟨0, (1, 0, 0), (1, 1, 0), (1, 1, 1)⟩, ⟨0, (1, 0, 0), (1, 1, 1), (1, 0, 1)⟩]

/-- **C149 (what fails).** A ray through an edge crosses neither facet there and is not left for repair: for the unit
cube, the rays through its centre in all three directions mark nothing, so that the voxel at the centre stays
empty. -/
theorem C149_edge_fails :
    (castRay false 0 0 stlCube (1 / 2, 1 / 2)).look (1 / 2) = some (false, false) ∧
    (castRay false 0 0 (stlCube.map StlFacet.rot) (1 / 2, 1 / 2)).look (1 / 2) = some (false, false) ∧
    (castRay false 0 0 (stlCube.map fun f => f.rot.rot) (1 / 2, 1 / 2)).look (1 / 2) = some (false, false) := by
  decide +kernel

/-- Off the diagonals the cube is filled: the hypotheses of `C149_ray` are met. -/
example : (castRay false 0 0 stlCube (1 / 2, 1 / 4)).look (1 / 2) = some (true, false) ∧
    (castRay false 0 0 stlCube (1 / 2, 1 / 4)).look (3 / 2) = some (false, false) := by decide +kernel

/-- A tetrahedron with its tip above the inside of its base. -/
def stlTent : List (StlFacet ℚ) :=
  [⟨-1, (-1, -1, 0), (-1, 2, 0), (2, -1, 0)⟩, ⟨1, (-1, -1, 0), (2, -1, 0), (0, 0, 1)⟩,
   ⟨1, (2, -1, 0), (-1, 2, 0), (0, 0, 1)⟩, ⟨1, (-1, 2, 0), (-1, -1, 0), (0, 0, 1)⟩]

/-- **C149 (what fails).** A ray through the tip of a tetrahedron meets the three facets there at one height, all three
are dropped, and the ray marks nothing. Whether it is left for repair depends on what was in memory. -/
theorem C149_tip_fails :
    (castRay false 1 1 stlTent (0, 0)).look (1 / 2) = some (false, false) ∧
    (castRay false 0 0 stlTent (0, 0)).look (1 / 2) = some (false, true) := by
  decide +kernel

/-- **C149 (what fails).** If the memory of the flag for equal heights holds one, the first crossing of a ray is lost. -/
theorem C149_flag_fails : (castRay true 0 0 stlCube (1 / 2, 1 / 4)).look (1 / 2) = some (false, true) := by
  decide +kernel

/-- **C149 (what fails).** The closeness to a crossing is relative to the coordinate: the same voxel half a unit above
the same part is empty near the origin and filled far away. -/
theorem C149_moved_fails :
    (assignRay false false false [(0 : ℚ), 1]).look (3 / 2) = some (false, false) ∧
    (assignRay false false false [(9999 : ℚ), 10000]).look (9999 + 3 / 2) = some (true, false) := by
  decide +kernel

end Fierro
