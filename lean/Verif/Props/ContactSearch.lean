import Verif.Model.ContactSearch
import Verif.Props.ContactElement
import Mathlib.Tactic.Linarith
import Mathlib.Data.List.Nodup
import Mathlib.Data.List.Dedup
import Mathlib.Data.Fintype.Card
import Mathlib.Data.Fintype.EquivFin

/-!
# C80: the search for penetrating nodes
-/

namespace Fierro
open Contact

namespace Contact

section grid
variable {K : Type} [Field K] [LinearOrder K] [IsStrictOrderedRing K] [FloorRing K]

theorem le_maxOver {n : ℕ} (v : Fin (n + 1) → K) (i : Fin (n + 1)) : v i ≤ maxOver v :=
  Finset.le_sup' v (Finset.mem_univ i)

theorem minOver_le {n : ℕ} (v : Fin (n + 1) → K) (i : Fin (n + 1)) : minOver v ≤ v i :=
  Finset.inf'_le v (Finset.mem_univ i)

theorem ext_le_size (hi lo : Fin 3 → K) (d : Fin 3) : (hi d - lo d) / 64 ≤ bucketSize hi lo := by
  unfold bucketSize
  match d with
  | 0 => exact le_max_left _ _
  | 1 => exact le_trans (le_max_left _ _) (le_max_right _ _)
  | 2 => exact le_trans (le_max_right _ _) (le_max_right _ _)

theorem cell_int {n : ℕ} (x : Fin (n + 1) → Fin 3 → K) (h : 0 < (gridOf x).size) (i : Fin (n + 1))
    (d : Fin 3) : 0 ≤ ⌊(x i d - (gridOf x).lo d) / (gridOf x).size⌋ := by
  apply Int.floor_nonneg.mpr
  apply div_nonneg _ h.le
  have := minOver_le (fun i => x i d) i
  change 0 ≤ x i d - minOver fun i => x i d
  linarith

theorem cell_le {n : ℕ} (x : Fin (n + 1) → Fin 3 → K) (h : 0 < (gridOf x).size) (i : Fin (n + 1))
    (d : Fin 3) : ⌊(x i d - (gridOf x).lo d) / (gridOf x).size⌋ < (gridOf x).dims d := by
  have h1 : ⌊(x i d - (gridOf x).lo d) / (gridOf x).size⌋
      ≤ ⌊((maxOver fun i => x i d) - (gridOf x).lo d) / (gridOf x).size⌋ := by
    apply Int.floor_mono
    apply div_le_div_of_nonneg_right _ h.le
    have := le_maxOver (fun i => x i d) i
    linarith
  have h0 := cell_int x h i d
  have h2 : ((gridOf x).dims d : ℤ)
      = ⌊((maxOver fun i => x i d) - (gridOf x).lo d) / (gridOf x).size⌋ + 1 := by
    change (((⌊((maxOver fun i => x i d) - (gridOf x).lo d) / (gridOf x).size⌋ + 1).toNat : ℕ) : ℤ) = _
    rw [Int.toNat_of_nonneg]
    omega
  omega

theorem bucketId_lt (g : Grid K) (c : Fin 3 → ℕ) (h : ∀ d, c d < g.dims d) :
    bucketId g c < g.dims 0 * g.dims 1 * g.dims 2 := by
  unfold bucketId
  have h0 := h 0
  have h1 := h 1
  have h2 := h 2
  calc c 2 * g.dims 0 * g.dims 1 + c 1 * g.dims 0 + c 0
      < c 2 * g.dims 0 * g.dims 1 + c 1 * g.dims 0 + g.dims 0 := by omega
    _ = c 2 * g.dims 0 * g.dims 1 + (c 1 + 1) * g.dims 0 := by ring
    _ ≤ c 2 * g.dims 0 * g.dims 1 + g.dims 1 * g.dims 0 :=
        Nat.add_le_add_left (Nat.mul_le_mul_right _ h1) _
    _ = (c 2 + 1) * (g.dims 0 * g.dims 1) := by ring
    _ ≤ g.dims 2 * (g.dims 0 * g.dims 1) := Nat.mul_le_mul_right _ h2
    _ = _ := by ring

theorem bucketId_inj (g : Grid K) (c c' : Fin 3 → ℕ) (h : ∀ d, c d < g.dims d)
    (h' : ∀ d, c' d < g.dims d) (he : bucketId g c = bucketId g c') : ∀ d, c d = c' d := by
  unfold bucketId at he
  have r : ∀ c : Fin 3 → ℕ, c 2 * g.dims 0 * g.dims 1 + c 1 * g.dims 0 + c 0
      = c 0 + g.dims 0 * (c 1 + g.dims 1 * c 2) := fun c => by ring
  rw [r, r] at he
  have p0 : 0 < g.dims 0 := by have := h 0; omega
  have p1 : 0 < g.dims 1 := by have := h 1; omega
  have e0 : c 0 = c' 0 := by
    have := congrArg (· % g.dims 0) he
    simp only [Nat.add_mul_mod_self_left] at this
    rwa [Nat.mod_eq_of_lt (h 0), Nat.mod_eq_of_lt (h' 0)] at this
  rw [e0] at he
  have he2 := Nat.eq_of_mul_eq_mul_left p0 (Nat.add_left_cancel he)
  have e1 : c 1 = c' 1 := by
    have := congrArg (· % g.dims 1) he2
    simp only [Nat.add_mul_mod_self_left] at this
    rwa [Nat.mod_eq_of_lt (h 1), Nat.mod_eq_of_lt (h' 1)] at this
  rw [e1] at he2
  have e2 := Nat.eq_of_mul_eq_mul_left p1 (Nat.add_left_cancel he2)
  intro d
  match d with
  | 0 => exact e0
  | 1 => exact e1
  | 2 => exact e2

theorem mem_span (a b i : ℕ) : i ∈ span a b ↔ a ≤ i ∧ i ≤ b := by
  unfold span
  rw [List.mem_range'_1]
  omega

theorem boxCell_lt (g : Grid K) (y : Fin 3 → K) (d : Fin 3) (h : 0 < g.dims d) :
    boxCell g y d < g.dims d := by
  unfold boxCell
  omega

theorem mem_visited (g : Grid K) (hi lo : Fin 3 → K) (b : ℕ) :
    b ∈ visited g hi lo ↔ ∃ c : Fin 3 → ℕ,
      (∀ d, boxCell g lo d ≤ c d ∧ c d ≤ boxCell g hi d) ∧ bucketId g c = b := by
  unfold visited
  simp only [List.mem_flatMap, List.mem_map, mem_span]
  constructor
  · rintro ⟨i, hi', j, hj, k, hk, rfl⟩
    refine ⟨![i, j, k], fun d => ?_, rfl⟩
    match d with
    | 0 => exact hi'
    | 1 => exact hj
    | 2 => exact hk
  · rintro ⟨c, hc, rfl⟩
    exact ⟨c 0, hc 0, c 1, hc 1, c 2, hc 2, rfl⟩

end grid
end Contact

section props
variable {K : Type} [Field K] [LinearOrder K] [IsStrictOrderedRing K] [FloorRing K]

/-- C80: unless all boundary nodes coincide the bucket size is positive and there are between 1 and
65 buckets in each direction. -/
theorem C80_dims {n : ℕ} (x : Fin (n + 1) → Fin 3 → K) (i j : Fin (n + 1)) (d : Fin 3)
    (h : x i d ≠ x j d) :
    0 < (gridOf x).size ∧ ∀ d', 1 ≤ (gridOf x).dims d' ∧ (gridOf x).dims d' ≤ 65 := by
  have hs : 0 < (gridOf x).size := by
    refine lt_of_lt_of_le ?_ (ext_le_size (fun d => maxOver fun i => x i d) (fun d => minOver fun i => x i d) d)
    apply div_pos _ (by norm_num)
    have a1 := le_maxOver (fun i => x i d) i
    have a2 := le_maxOver (fun i => x i d) j
    have b1 := minOver_le (fun i => x i d) i
    have b2 := minOver_le (fun i => x i d) j
    rcases lt_or_gt_of_ne h with h | h
    · linarith
    · linarith
  refine ⟨hs, fun d' => ?_⟩
  have h1 := cell_le x hs i d'
  have h2 := cell_int x hs i d'
  refine ⟨by omega, ?_⟩
  have h3 : ⌊((maxOver fun i => x i d') - minOver fun i => x i d') / (gridOf x).size⌋ ≤ 64 := by
    have : ((maxOver fun i => x i d') - minOver fun i => x i d') / (gridOf x).size ≤ 64 := by
      rw [div_le_iff₀ hs]
      have := ext_le_size (fun d => maxOver fun i => x i d) (fun d => minOver fun i => x i d) d'
      rw [div_le_iff₀ (by norm_num)] at this
      change _ ≤ 64 * bucketSize (fun d => maxOver fun i => x i d) (fun d => minOver fun i => x i d)
      linarith
    have h4 := Int.floor_mono this
    have h5 : ⌊(64 : K)⌋ = 64 := by
      exact_mod_cast Int.floor_natCast (R := K) 64
    rwa [h5] at h4
  change (⌊((maxOver fun i => x i d') - minOver fun i => x i d') / (gridOf x).size⌋ + 1).toNat ≤ 65
  omega

/-- C80: every boundary node gets a bucket of the grid. -/
theorem C80_in_grid {n : ℕ} (x : Fin (n + 1) → Fin 3 → K) (h : 0 < (gridOf x).size)
    (i : Fin (n + 1)) :
    (∀ d, cellOf (gridOf x) (x i) d < (gridOf x).dims d) ∧
      bucketId (gridOf x) (cellOf (gridOf x) (x i))
        < (gridOf x).dims 0 * (gridOf x).dims 1 * (gridOf x).dims 2 := by
  have h1 : ∀ d, cellOf (gridOf x) (x i) d < (gridOf x).dims d := by
    intro d
    have := cell_le x h i d
    have := cell_int x h i d
    unfold cellOf
    omega
  exact ⟨h1, bucketId_lt _ _ h1⟩

/-- C80: two boundary nodes share a bucket exactly when they lie in the same cell of the grid, so
they are less than one bucket apart in each direction. -/
theorem C80_same_bucket {n : ℕ} (x : Fin (n + 1) → Fin 3 → K) (h : 0 < (gridOf x).size)
    (i j : Fin (n + 1))
    (he : bucketId (gridOf x) (cellOf (gridOf x) (x i))
      = bucketId (gridOf x) (cellOf (gridOf x) (x j))) (d : Fin 3) :
    |x i d - x j d| < (gridOf x).size := by
  have hc := bucketId_inj _ _ _ (C80_in_grid x h i).1 (C80_in_grid x h j).1 he d
  have p1 := cell_int x h i d
  have p2 := cell_int x h j d
  have hf : ⌊(x i d - (gridOf x).lo d) / (gridOf x).size⌋
      = ⌊(x j d - (gridOf x).lo d) / (gridOf x).size⌋ := by
    unfold cellOf at hc; omega
  have hlt := Int.abs_sub_lt_one_of_floor_eq_floor hf
  rw [← sub_div, abs_div, abs_of_pos h, div_lt_one h] at hlt
  rwa [sub_sub_sub_cancel_right] at hlt

/-- C80: the buckets visited for a patch are pairwise different buckets of the grid. -/
theorem C80_visited {n : ℕ} (x : Fin (n + 1) → Fin 3 → K) (h : 0 < (gridOf x).size)
    (hi lo : Fin 3 → K) :
    (visited (gridOf x) hi lo).Nodup ∧ ∀ b ∈ visited (gridOf x) hi lo,
      b < (gridOf x).dims 0 * (gridOf x).dims 1 * (gridOf x).dims 2 := by
  have hd : ∀ d, 0 < (gridOf x).dims d := fun d => by
    have := (C80_in_grid x h 0).1 d; omega
  have hlt : ∀ y d, boxCell (gridOf x) y d < (gridOf x).dims d := fun y d => boxCell_lt _ y d (hd d)
  constructor
  · unfold visited
    have hr : ∀ a b, (span a b).Nodup := fun a b => List.nodup_range'
    have inj : ∀ i j k i' j' k', i ∈ span (boxCell (gridOf x) lo 0) (boxCell (gridOf x) hi 0) →
        j ∈ span (boxCell (gridOf x) lo 1) (boxCell (gridOf x) hi 1) →
        k ∈ span (boxCell (gridOf x) lo 2) (boxCell (gridOf x) hi 2) →
        i' ∈ span (boxCell (gridOf x) lo 0) (boxCell (gridOf x) hi 0) →
        j' ∈ span (boxCell (gridOf x) lo 1) (boxCell (gridOf x) hi 1) →
        k' ∈ span (boxCell (gridOf x) lo 2) (boxCell (gridOf x) hi 2) →
        bucketId (gridOf x) ![i, j, k] = bucketId (gridOf x) ![i', j', k'] →
        i = i' ∧ j = j' ∧ k = k' := by
      intro i j k i' j' k' h1 h2 h3 h4 h5 h6 he
      rw [mem_span] at h1 h2 h3 h4 h5 h6
      have l0 := hlt hi 0
      have l1 := hlt hi 1
      have l2 := hlt hi 2
      have := bucketId_inj (gridOf x) ![i, j, k] ![i', j', k']
        (fun d => match d with
          | 0 => lt_of_le_of_lt h1.2 l0
          | 1 => lt_of_le_of_lt h2.2 l1
          | 2 => lt_of_le_of_lt h3.2 l2)
        (fun d => match d with
          | 0 => lt_of_le_of_lt h4.2 l0
          | 1 => lt_of_le_of_lt h5.2 l1
          | 2 => lt_of_le_of_lt h6.2 l2) he
      exact ⟨this 0, this 1, this 2⟩
    rw [List.nodup_flatMap]
    constructor
    · intro i hi'
      rw [List.nodup_flatMap]
      constructor
      · intro j hj
        apply List.Nodup.map_on _ (hr _ _)
        intro k hk k' hk' he
        exact (inj i j k i j k' hi' hj hk hi' hj hk' he).2.2
      · refine List.Pairwise.imp_of_mem ?_ (hr _ _)
        intro j j' hj hj' hne b hb hb'
        obtain ⟨k, hk, rfl⟩ := List.mem_map.mp hb
        obtain ⟨k', hk', he⟩ := List.mem_map.mp hb'
        exact hne ((inj i j k i j' k' hi' hj hk hi' hj' hk' he.symm).2.1)
    · refine List.Pairwise.imp_of_mem ?_ (hr _ _)
      intro i i' hi' hi'' hne b hb hb'
      obtain ⟨j, hj, hb⟩ := List.mem_flatMap.mp hb
      obtain ⟨k, hk, rfl⟩ := List.mem_map.mp hb
      obtain ⟨j', hj', hb'⟩ := List.mem_flatMap.mp hb'
      obtain ⟨k', hk', he⟩ := List.mem_map.mp hb'
      exact hne ((inj i j k i' j' k' hi' hj hk hi'' hj' hk' he.symm).1)
  · intro b hb
    obtain ⟨c, hc, rfl⟩ := (mem_visited _ _ _ _).mp hb
    exact bucketId_lt _ _ fun d => lt_of_le_of_lt (hc d).2 (hlt hi d)

/-- C80: no node is missed: the bucket of every boundary node inside the box is visited. -/
theorem C80_box_covered {n : ℕ} (x : Fin (n + 1) → Fin 3 → K) (h : 0 < (gridOf x).size)
    (hi lo : Fin 3 → K) (i : Fin (n + 1)) (hin : ∀ d, lo d ≤ x i d ∧ x i d ≤ hi d) :
    bucketId (gridOf x) (cellOf (gridOf x) (x i)) ∈ visited (gridOf x) hi lo := by
  rw [mem_visited]
  refine ⟨_, fun d => ?_, rfl⟩
  have h0 := cell_int x h i d
  have h1 := cell_le x h i d
  have l : ⌊(lo d - (gridOf x).lo d) / (gridOf x).size⌋
      ≤ ⌊(x i d - (gridOf x).lo d) / (gridOf x).size⌋ :=
    Int.floor_mono (div_le_div_of_nonneg_right (by linarith [(hin d).1]) h.le)
  have r : ⌊(x i d - (gridOf x).lo d) / (gridOf x).size⌋
      ≤ ⌊(hi d - (gridOf x).lo d) / (gridOf x).size⌋ :=
    Int.floor_mono (div_le_div_of_nonneg_right (by linarith [(hin d).2]) h.le)
  unfold boxCell cellOf
  omega

/-- C80: the box of a patch contains every point of the patch, and with it every point at most the
capture depth away from it in each direction. -/
theorem C80_capture_box (depth : K) (X : Fin 3 → Fin 4 → K) (s t : K) (hs : |s| ≤ 1) (ht : |t| ≤ 1)
    (y : Fin 3 → K) (hy : ∀ d, |y d - refToPhysical X s t d| ≤ depth) (d : Fin 3) :
    boxLo depth X d ≤ y d ∧ y d ≤ boxHi depth X d := by
  have hup : ∀ k, X d k + depth ≤ boxHi depth X d := by
    intro k
    unfold boxHi
    match k with
    | 0 => exact le_trans (le_max_left _ _) (le_trans (le_max_left _ _) (le_max_left _ _))
    | 1 => exact le_trans (le_max_right _ _) (le_trans (le_max_left _ _) (le_max_left _ _))
    | 2 => exact le_trans (le_max_right _ _) (le_max_left _ _)
    | 3 => exact le_max_right _ _
  have hlo : ∀ k, boxLo depth X d ≤ X d k - depth := by
    intro k
    unfold boxLo
    match k with
    | 0 => exact le_trans (le_trans (min_le_left _ _) (min_le_left _ _)) (min_le_left _ _)
    | 1 => exact le_trans (le_trans (min_le_left _ _) (min_le_left _ _)) (min_le_right _ _)
    | 2 => exact le_trans (min_le_left _ _) (min_le_right _ _)
    | 3 => exact min_le_right _ _
  have hp := C76_patch_in_box X d (boxLo depth X d + depth) (boxHi depth X d - depth) s t hs ht
    (fun k => ⟨by linarith [hlo k], by linarith [hup k]⟩)
  obtain ⟨y1, y2⟩ := abs_le.mp (hy d)
  constructor
  · linarith [hp.1]
  · linarith [hp.2]

end props

/-! ### The counting sort -/

namespace Contact

/-- Nodes among the first `n` that lie in bucket `b`, in order (specification). -/
def nodesIn (lb : ℕ → ℕ) (n b : ℕ) : List ℕ := (List.range n).filter fun i => lb i = b

theorem nodesIn_succ (lb : ℕ → ℕ) (n b : ℕ) :
    nodesIn lb (n + 1) b = nodesIn lb n b ++ if lb n = b then [n] else [] := by
  unfold nodesIn
  rw [List.range_succ, List.filter_append]
  congr 1
  by_cases h : lb n = b
  · simp [h]
  · simp [h]

theorem countBoxes_eq (lb : ℕ → ℕ) (n b : ℕ) : countBoxes lb n b = (nodesIn lb n b).length := by
  induction n generalizing b with
  | zero => rfl
  | succ n ih =>
    have hs : countBoxes lb (n + 1)
        = Function.update (countBoxes lb n) (lb n) (countBoxes lb n (lb n) + 1) := by
      unfold countBoxes
      rw [List.range_succ, List.foldl_append]
      rfl
    rw [hs, nodesIn_succ, List.length_append]
    by_cases h : lb n = b
    · subst h
      rw [Function.update_self, if_pos rfl, ih]; rfl
    · rw [Function.update_of_ne (Ne.symm h), if_neg h, ih]; rfl

theorem pointers_mono (nb : ℕ → ℕ) {b b' : ℕ} (h : b < b') :
    pointers nb b + nb b ≤ pointers nb b' := by
  induction b' with
  | zero => omega
  | succ c ih =>
    change _ ≤ pointers nb c + nb c
    rcases Nat.lt_succ_iff_lt_or_eq.mp h with h | h
    · have := ih h; omega
    · subst h; exact le_refl _

theorem nodesIn_length_mono (lb : ℕ → ℕ) (b : ℕ) {m n : ℕ} (h : m ≤ n) :
    (nodesIn lb m b).length ≤ (nodesIn lb n b).length := by
  induction n with
  | zero => have : m = 0 := by omega
            rw [this]
  | succ n ih =>
    rcases Nat.lt_or_ge m (n + 1) with h1 | h1
    · rw [nodesIn_succ, List.length_append]
      have := ih (by omega); omega
    · have : m = n + 1 := by omega
      rw [this]

/-- State after the first `m` nodes. -/
def sortUpTo (lb : ℕ → ℕ) (n m : ℕ) : (ℕ → Option ℕ) × (ℕ → ℕ) :=
  (List.range m).foldl (sortStep (pointers (countBoxes lb n)) lb) (fun _ => none, fun _ => 0)

theorem sortUpTo_spec (lb : ℕ → ℕ) (n m : ℕ) (hm : m ≤ n) :
    (∀ b, (sortUpTo lb n m).2 b = (nodesIn lb m b).length) ∧
    (∀ b t (ht : t < (nodesIn lb m b).length),
      (sortUpTo lb n m).1 (pointers (countBoxes lb n) b + t) = some ((nodesIn lb m b)[t])) ∧
    (∀ q, (sortUpTo lb n m).1 q ≠ none →
      ∃ b t, t < (nodesIn lb m b).length ∧ q = pointers (countBoxes lb n) b + t) := by
  induction m with
  | zero =>
    refine ⟨fun b => rfl, fun b t ht => ?_, fun q hq => absurd rfl hq⟩
    simp [nodesIn] at ht
  | succ m ih =>
    obtain ⟨h1, h2, h3⟩ := ih (by omega)
    have hs : sortUpTo lb n (m + 1)
        = sortStep (pointers (countBoxes lb n)) lb (sortUpTo lb n m) m := by
      unfold sortUpTo
      rw [List.range_succ, List.foldl_append]; rfl
    have hlt : (nodesIn lb m (lb m)).length < (nodesIn lb n (lb m)).length := by
      have := nodesIn_length_mono lb (lb m) hm
      rw [nodesIn_succ, if_pos rfl, List.length_append] at this
      simp at this; omega
    have hdis : ∀ b t, t < (nodesIn lb n b).length → b ≠ lb m →
        pointers (countBoxes lb n) b + t
          ≠ (nodesIn lb m (lb m)).length + pointers (countBoxes lb n) (lb m) := by
      intro b t ht hne he
      rcases Nat.lt_or_gt_of_ne hne with h | h
      · have := pointers_mono (countBoxes lb n) h
        rw [countBoxes_eq] at this; omega
      · have := pointers_mono (countBoxes lb n) h
        rw [countBoxes_eq] at this; omega
    rw [hs]
    refine ⟨fun b => ?_, fun b t ht => ?_, fun q hq => ?_⟩
    · simp only [sortStep, h1]
      by_cases hb : lb m = b
      · subst hb; rw [Function.update_self, nodesIn_succ, if_pos rfl, List.length_append]; rfl
      · rw [Function.update_of_ne (Ne.symm hb), h1, nodesIn_succ, if_neg hb]; simp
    · simp only [sortStep, h1]
      by_cases hb : lb m = b
      · subst hb
        have e : nodesIn lb (m + 1) (lb m) = nodesIn lb m (lb m) ++ [m] := by
          rw [nodesIn_succ, if_pos rfl]
        have hl : (nodesIn lb (m + 1) (lb m)).length = (nodesIn lb m (lb m)).length + 1 := by
          rw [e]; simp
        simp only [e]
        rcases Nat.lt_or_ge t (nodesIn lb m (lb m)).length with h | h
        · rw [Function.update_of_ne (by omega), h2 _ _ h, List.getElem_append_left h]
        · have ht' : t = (nodesIn lb m (lb m)).length := by omega
          subst ht'
          rw [Nat.add_comm, Function.update_self]
          simp
      · have e : nodesIn lb (m + 1) b = nodesIn lb m b := by
          rw [nodesIn_succ, if_neg hb, List.append_nil]
        simp only [e] at ht ⊢
        have hn : t < (nodesIn lb n b).length :=
          lt_of_lt_of_le ht (nodesIn_length_mono lb b (by omega))
        rw [Function.update_of_ne (hdis b t hn (Ne.symm hb)), h2 _ _ ht]
    · simp only [sortStep, h1] at hq
      by_cases hqe : q = (nodesIn lb m (lb m)).length + pointers (countBoxes lb n) (lb m)
      · refine ⟨lb m, (nodesIn lb m (lb m)).length, ?_, by omega⟩
        rw [nodesIn_succ, if_pos rfl]; simp
      · rw [Function.update_of_ne hqe] at hq
        obtain ⟨b, t, ht, he⟩ := h3 q hq
        exact ⟨b, t, lt_of_lt_of_le ht (nodesIn_length_mono lb b (by omega)), he⟩

theorem filter_lt_succ (lb : ℕ → ℕ) (c : ℕ) (l : List ℕ) :
    (l.filter fun i => lb i < c + 1).length
      = (l.filter fun i => lb i < c).length + (l.filter fun i => lb i = c).length := by
  induction l with
  | nil => rfl
  | cons a l ih =>
    simp only [List.filter_cons]
    by_cases h1 : lb a < c
    · have h2 : lb a < c + 1 := by omega
      have h3 : ¬ lb a = c := by omega
      simp only [h1, h2, h3, decide_true, decide_false, if_true, List.length_cons, Bool.false_eq_true,
        if_false]
      omega
    · by_cases h3 : lb a = c
      · have h2 : lb a < c + 1 := by omega
        simp only [h1, h2, h3, decide_true, decide_false, if_true, List.length_cons,
          Bool.false_eq_true, if_false]
        simp only [h3, lt_irrefl, decide_false, Bool.false_eq_true, if_false, Nat.lt_succ_self,
          decide_true, if_true, List.length_cons] at *
        omega
      · have h2 : ¬ lb a < c + 1 := by omega
        simp only [h1, h2, h3, decide_false, Bool.false_eq_true, if_false]
        omega

theorem pointers_eq (lb : ℕ → ℕ) (n c : ℕ) :
    pointers (countBoxes lb n) c = ((List.range n).filter fun i => lb i < c).length := by
  induction c with
  | zero => simp [pointers]
  | succ c ih =>
    rw [pointers, ih, countBoxes_eq, filter_lt_succ]
    rfl

theorem pointers_total (lb : ℕ → ℕ) (n nb : ℕ) (h : ∀ i < n, lb i < nb) :
    pointers (countBoxes lb n) nb = n := by
  rw [pointers_eq, List.filter_eq_self.mpr, List.length_range]
  intro i hi
  simpa using h i (List.mem_range.mp hi)

theorem mem_nodesIn (lb : ℕ → ℕ) (n b i : ℕ) : i ∈ nodesIn lb n b ↔ i < n ∧ lb i = b := by
  simp [nodesIn]

end Contact

/-- C80: after the sort the entries read for a bucket are exactly the nodes in that bucket, each
once, in the order of their numbers, whatever the assignment of buckets. -/
theorem C80_bucket_contents (lb : ℕ → ℕ) (n b : ℕ) :
    slice (pointers (countBoxes lb n)) (sortNodes lb n) b
      = ((List.range n).filter fun i => lb i = b).map some := by
  obtain ⟨h1, h2, -⟩ := sortUpTo_spec lb n n (le_refl _)
  have e : sortNodes lb n = sortUpTo lb n n := rfl
  unfold slice
  rw [e, h1]
  apply List.ext_getElem
  · simp [nodesIn]
  · intro t ht ht'
    simp only [List.length_map, List.length_range] at ht
    simp only [List.getElem_map, List.getElem_range]
    rw [h2 b t ht]
    rfl

/-- C80: the sorted list is a rearrangement of the nodes: as many places as nodes are written, each
holding one node, different places different nodes; nothing is written outside, and every bucket
ends where the next one starts. -/
theorem C80_sorted_permutation (lb : ℕ → ℕ) (n nb : ℕ) (h : ∀ i < n, lb i < nb) :
    (∀ q, (∃ i, (sortNodes lb n).1 q = some i ∧ i < n) ↔ q < n) ∧
    (∀ i < n, ∃ q < n, (sortNodes lb n).1 q = some i) ∧
    (∀ q, n ≤ q → (sortNodes lb n).1 q = none) := by
  obtain ⟨h1, h2, h3⟩ := sortUpTo_spec lb n n (le_refl _)
  have e : sortNodes lb n = sortUpTo lb n n := rfl
  rw [e]
  have hb : ∀ b t, t < (nodesIn lb n b).length → pointers (countBoxes lb n) b + t < n := by
    intro b t ht
    have hnb : b < nb := by
      have := List.getElem_mem ht
      rw [mem_nodesIn] at this
      rw [← this.2]; exact h _ this.1
    have := pointers_mono (countBoxes lb n) hnb
    rw [pointers_total lb n nb h, countBoxes_eq] at this
    omega
  have hex : ∀ i < n, ∃ q < n, (sortUpTo lb n n).1 q = some i := by
    intro i hi
    have hm : i ∈ nodesIn lb n (lb i) := (mem_nodesIn _ _ _ _).mpr ⟨hi, rfl⟩
    obtain ⟨t, ht, he⟩ := List.getElem_of_mem hm
    exact ⟨_, hb _ t ht, by rw [h2 _ t ht, he]⟩
  have hout : ∀ q, n ≤ q → (sortUpTo lb n n).1 q = none := by
    intro q hq
    by_contra hne
    obtain ⟨b, t, ht, rfl⟩ := h3 q hne
    have := hb b t ht
    omega
  refine ⟨fun q => ⟨?_, fun hq => ?_⟩, hex, hout⟩
  · rintro ⟨i, hi, -⟩
    by_contra hge
    rw [hout q (by omega)] at hi
    simp at hi
  · -- every place is used because the places of the nodes are different
    choose f hf using fun i : Fin n => hex i i.2
    have hinj : Function.Injective (fun i : Fin n => (⟨f i, (hf i).1⟩ : Fin n)) := by
      intro i j hij
      have hv : f i = f j := congrArg Fin.val hij
      have a := (hf i).2
      have b := (hf j).2
      rw [hv, b] at a
      exact Fin.ext (Option.some.inj a).symm
    obtain ⟨i, hi⟩ := (Finite.injective_iff_surjective.mp hinj) ⟨q, hq⟩
    have hv : f i = q := congrArg Fin.val hi
    exact ⟨i, by rw [← hv]; exact (hf i).2, i.2⟩

/-- C80: three nodes in buckets 1, 0, 1. -/
example : slice (pointers (countBoxes (fun i => if i = 1 then 0 else 1) 3))
    (sortNodes (fun i => if i = 1 then 0 else 1) 3) 1 = [some 0, some 2] := by decide

/-! ### Recorded penetrations -/

namespace Contact

theorem foldl_nodeStep (cap : ℕ) (test : ℕ → ℕ → Bool) (p : ℕ) (l : List ℕ) (hl : l.Nodup)
    (rows : ℕ → List ℕ) (i : ℕ) :
    (l.map some).foldl (nodeStep cap test p) rows i
      = if i ∈ l ∧ test p i = true then recordRow cap (rows i) p else rows i := by
  induction l generalizing rows with
  | nil => simp
  | cons a l ih =>
    rw [List.nodup_cons] at hl
    simp only [List.map_cons, List.foldl_cons]
    rw [ih hl.2]
    by_cases hai : i = a
    · subst hai
      have hni : i ∉ l := hl.1
      simp only [hni, false_and, if_false, List.mem_cons_self, true_and, nodeStep]
      split_ifs with h
      · rw [Function.update_self]
      · rfl
    · have e : nodeStep cap test p rows (some a) i = rows i := by
        simp only [nodeStep]
        split_ifs
        · rw [Function.update_of_ne hai]
        · rfl
      rw [e]
      simp [hai]

end Contact

/-- C80: the patches recorded for a node are, in order and as far as the columns reach, exactly
those that visit the bucket of the node and pass the test; each patch is recorded at most once. -/
theorem C80_recorded (cap : ℕ) (vis : ℕ → List ℕ) (hvis : ∀ p, (vis p).Nodup) (lb : ℕ → ℕ) (n : ℕ)
    (test : ℕ → ℕ → Bool) (numPatches i : ℕ) (hi : i < n) :
    findAll cap vis (slice (pointers (countBoxes lb n)) (sortNodes lb n)) test numPatches i
      = ((List.range numPatches).filter fun p => lb i ∈ vis p ∧ test p i = true).take cap := by
  have hsl : ∀ b, slice (pointers (countBoxes lb n)) (sortNodes lb n) b = (nodesIn lb n b).map some :=
    C80_bucket_contents lb n
  have hstep : ∀ rows p, patchStep cap vis (slice (pointers (countBoxes lb n)) (sortNodes lb n)) test
      rows p i = if lb i ∈ vis p ∧ test p i = true then recordRow cap (rows i) p else rows i := by
    intro rows p
    unfold patchStep
    have e : (vis p).flatMap (slice (pointers (countBoxes lb n)) (sortNodes lb n))
        = ((vis p).flatMap (nodesIn lb n)).map some := by
      rw [List.map_flatMap]
      exact List.flatMap_congr fun b _ => hsl b
    rw [e, foldl_nodeStep]
    · have : i ∈ (vis p).flatMap (nodesIn lb n) ↔ lb i ∈ vis p := by
        rw [List.mem_flatMap]
        constructor
        · rintro ⟨b, hb, hm⟩
          rw [((mem_nodesIn _ _ _ _).mp hm).2]; exact hb
        · intro hb
          exact ⟨_, hb, (mem_nodesIn _ _ _ _).mpr ⟨hi, rfl⟩⟩
      simp only [this]
    · rw [List.nodup_flatMap]
      refine ⟨fun b _ => List.Nodup.filter _ List.nodup_range, ?_⟩
      refine List.Pairwise.imp ?_ (hvis p)
      intro b b' hne j hj hj'
      apply hne
      rw [← ((mem_nodesIn _ _ _ _).mp hj).2, ← ((mem_nodesIn _ _ _ _).mp hj').2]
  induction numPatches with
  | zero => simp [findAll]
  | succ m ih =>
    have hs : findAll cap vis (slice (pointers (countBoxes lb n)) (sortNodes lb n)) test (m + 1)
        = patchStep cap vis (slice (pointers (countBoxes lb n)) (sortNodes lb n)) test
            (findAll cap vis (slice (pointers (countBoxes lb n)) (sortNodes lb n)) test m) m := by
      unfold findAll
      rw [List.range_succ, List.foldl_append]; rfl
    rw [hs, hstep, ih, List.range_succ, List.filter_append]
    by_cases h : lb i ∈ vis m ∧ test m i = true
    · rw [if_pos h]
      have e : ([m].filter fun p => decide (lb i ∈ vis p ∧ test p i = true)) = [m] := by
        simp [h]
      rw [e]
      unfold recordRow
      rw [List.length_take]
      split_ifs with hlen
      · have hle : ((List.range m).filter fun p => decide (lb i ∈ vis p ∧ test p i = true)).length < cap := by
          omega
        rw [List.take_of_length_le hle.le, List.take_of_length_le]
        rw [List.length_append, List.length_singleton]; omega
      · rw [List.take_append_of_le_length]
        omega
    · rw [if_neg h]
      have e : ([m].filter fun p => decide (lb i ∈ vis p ∧ test p i = true)) = [] := by
        rw [List.filter_eq_nil_iff]
        intro a ha
        rw [List.mem_singleton] at ha
        subst ha
        simpa using h
      rw [e, List.append_nil]

/-- C80: what the test of a single node amounts to: the node belongs to another element, its
distance from the plane of the patch is at most the cutoff (every edge of the patch, or a tenth of
it), and it passes the penetration test. -/
theorem C80_test (preload : Bool) (E : Fin 3 → Fin 8 → ℝ) (f : Fin 6) (x : Fin 3 → ℝ) (own : Bool) :
    nodeTest preload E f x own = true ↔
      own = false ∧ penetrates E f x = true ∧
      ∃ n, unitNormal (facePos E f) 0 0 = some n ∧
        ∀ k : Fin 4, |dot n fun i => x i - E i (faceNode f 0)|
          ≤ (if preload then 1 else 1 / 10) *
            len fun i => E i (faceNode f (k + 1)) - E i (faceNode f k) := by
  have hedge : ∀ v : ℝ, v ≤ distFactor preload * minEdge (facePos E f) ↔
      ∀ k : Fin 4, v ≤ (if preload then 1 else 1 / 10) *
        len fun i => E i (faceNode f (k + 1)) - E i (faceNode f k) := by
    intro v
    have h0 : 0 ≤ distFactor preload := by unfold distFactor; split_ifs <;> norm_num
    change _ ↔ ∀ k : Fin 4, v ≤ distFactor preload * edgeLen (facePos E f) k (k + 1)
    unfold minEdge
    rw [mul_min_of_nonneg _ _ h0, mul_min_of_nonneg _ _ h0, mul_min_of_nonneg _ _ h0]
    simp only [le_min_iff]
    constructor
    · rintro ⟨⟨⟨a, b⟩, c⟩, d⟩ k
      match k with
      | 0 => exact a
      | 1 => exact b
      | 2 => exact c
      | 3 => exact d
    · intro h
      exact ⟨⟨⟨h 0, h 1⟩, h 2⟩, h 3⟩
  unfold nodeTest
  cases hn : unitNormal (facePos E f) 0 0 with
  | none => simp
  | some n =>
    obtain ⟨hu, -⟩ := (C76_normal (facePos E f) 0 0).2 n hn
    have hP : foot n (fun i => facePos E f i 0) x = some fun i =>
        x i + (n 0 * (x 0 - facePos E f 0 0) + n 1 * (x 1 - facePos E f 1 0)
          + n 2 * (x 2 - facePos E f 2 0)) / (-n 0 * n 0 - n 1 * n 1 - n 2 * n 2) * n i := by
      simp only [foot]
      rw [if_neg (by rw [hu]; exact one_ne_zero)]
    have hden : -n 0 * n 0 - n 1 * n 1 - n 2 * n 2 = -1 := by
      unfold dot at hu; linarith
    simp only [hP, hden]
    have hd : len (fun i => x i - (x i + (n 0 * (x 0 - facePos E f 0 0) + n 1 * (x 1 - facePos E f 1 0)
          + n 2 * (x 2 - facePos E f 2 0)) / (-1) * n i))
        = |dot n fun i => x i - E i (faceNode f 0)| := by
      have e : (fun i => x i - (x i + (n 0 * (x 0 - facePos E f 0 0)
          + n 1 * (x 1 - facePos E f 1 0) + n 2 * (x 2 - facePos E f 2 0)) / (-1) * n i))
          = fun i => (dot n fun i => x i - E i (faceNode f 0)) * n i := by
        funext i; simp only [dot, facePos]; ring
      rw [e, len_smul]
      have : len n = 1 := by
        have h2 := sq_len n
        rw [hu] at h2
        have h3 := len_nonneg n
        nlinarith
      rw [this, mul_one]
    rw [hd]
    simp only [Bool.and_eq_true, Bool.not_eq_true', Option.some.injEq, exists_eq_left']
    rw [decide_eq_false_iff_not, not_lt]
    rw [← hedge]
    tauto

/-- C80: how far the box around a patch reaches beyond its nodes: three buckets, but never more than
a quarter of the extent of the boundary in any direction. -/
theorem C80_depth (hi lo : Fin 3 → ℝ) (bs : ℝ) (X : Fin 3 → Fin 4 → ℝ) (d : Fin 3) (v : ℝ) :
    (v ≤ boxHi (depthCap hi lo bs) X d ↔
      ∃ k, v - X d k ≤ 3 * bs ∧ ∀ e, v - X d k ≤ (hi e - lo e) / 4) ∧
    (boxLo (depthCap hi lo bs) X d ≤ v ↔
      ∃ k, X d k - v ≤ 3 * bs ∧ ∀ e, X d k - v ≤ (hi e - lo e) / 4) := by
  have hcap : ∀ w : ℝ, w ≤ depthCap hi lo bs ↔ w ≤ 3 * bs ∧ ∀ e, w ≤ (hi e - lo e) / 4 := by
    intro w
    unfold depthCap
    rw [le_min_iff, le_div_iff₀ (by norm_num), le_min_iff, le_min_iff]
    constructor
    · rintro ⟨⟨⟨a, b⟩, c⟩, h⟩
      refine ⟨h, fun e => ?_⟩
      rw [le_div_iff₀ (by norm_num)]
      match e with
      | 0 => exact a
      | 1 => exact b
      | 2 => exact c
    · rintro ⟨h, ha⟩
      have ha' : ∀ e, w * 4 ≤ hi e - lo e := fun e => by
        have := ha e
        rwa [le_div_iff₀ (by norm_num)] at this
      exact ⟨⟨⟨ha' 0, ha' 1⟩, ha' 2⟩, h⟩
  simp only [← hcap]
  constructor
  · unfold boxHi
    simp only [le_max_iff]
    constructor
    · rintro (((h | h) | h) | h)
      · exact ⟨0, by linarith⟩
      · exact ⟨1, by linarith⟩
      · exact ⟨2, by linarith⟩
      · exact ⟨3, by linarith⟩
    · rintro ⟨k, hk⟩
      match k with
      | 0 => left; left; left; linarith
      | 1 => left; left; right; linarith
      | 2 => left; right; linarith
      | 3 => right; linarith
  · unfold boxLo
    simp only [min_le_iff]
    constructor
    · rintro (((h | h) | h) | h)
      · exact ⟨0, by linarith⟩
      · exact ⟨1, by linarith⟩
      · exact ⟨2, by linarith⟩
      · exact ⟨3, by linarith⟩
    · rintro ⟨k, hk⟩
      match k with
      | 0 => left; left; left; linarith
      | 1 => left; left; right; linarith
      | 2 => left; right; linarith
      | 3 => right; linarith

/-- C80, end to end: a boundary node that lies in the box around a patch, does not belong to the
element of the patch, is close enough to its plane and passes the penetration test is recorded with
this patch, unless a hundred patches are recorded for it already. -/
theorem C80_found {n : ℕ} (x : Fin (n + 1) → Fin 3 → ℝ) (h : 0 < (gridOf x).size)
    (preload : Bool) (depth : ℕ → ℝ) (E : ℕ → Fin 3 → Fin 8 → ℝ) (f : ℕ → Fin 6)
    (own : ℕ → ℕ → Bool) (numPatches p : ℕ) (hp : p < numPatches) (i : Fin (n + 1))
    (lb : ℕ → ℕ) (hlb : ∀ j : Fin (n + 1), lb j = bucketId (gridOf x) (cellOf (gridOf x) (x j)))
    (pos : ℕ → Fin 3 → ℝ) (hpos : ∀ j : Fin (n + 1), pos j = x j)
    (hbox : ∀ d, boxLo (depth p) (facePos (E p) (f p)) d ≤ x i d ∧
      x i d ≤ boxHi (depth p) (facePos (E p) (f p)) d)
    (htest : nodeTest preload (E p) (f p) (x i) (own p i) = true) :
    p ∈ findAll 100
        (fun p => visited (gridOf x) (boxHi (depth p) (facePos (E p) (f p)))
          (boxLo (depth p) (facePos (E p) (f p))))
        (slice (pointers (countBoxes lb (n + 1))) (sortNodes lb (n + 1)))
        (fun p j => nodeTest preload (E p) (f p) (pos j) (own p j)) numPatches i ∨
      (findAll 100
        (fun p => visited (gridOf x) (boxHi (depth p) (facePos (E p) (f p)))
          (boxLo (depth p) (facePos (E p) (f p))))
        (slice (pointers (countBoxes lb (n + 1))) (sortNodes lb (n + 1)))
        (fun p j => nodeTest preload (E p) (f p) (pos j) (own p j)) numPatches i).length = 100 := by
  rw [C80_recorded _ _ (fun p => (C80_visited x h _ _).1) _ _ _ _ _ i.2]
  obtain ⟨l, hl⟩ : ∃ l, l = (List.range numPatches).filter fun p =>
      decide (lb i ∈ visited (gridOf x) (boxHi (depth p) (facePos (E p) (f p)))
        (boxLo (depth p) (facePos (E p) (f p))) ∧
        nodeTest preload (E p) (f p) (pos i) (own p i) = true) := ⟨_, rfl⟩
  rw [← hl]
  have hm : p ∈ l := by
    rw [hl, List.mem_filter]
    refine ⟨List.mem_range.mpr hp, ?_⟩
    rw [decide_eq_true_iff, hlb, hpos]
    exact ⟨C80_box_covered x h _ _ i hbox, htest⟩
  rcases Nat.lt_or_ge l.length 100 with hlen | hlen
  · left; rw [List.take_of_length_le hlen.le]; exact hm
  · right; rw [List.length_take]; omega

/-- Boundary nodes of a thin plate along a diagonal plane of a cube. -/
def plate (i : Fin 8) : Fin 3 → ℚ :=
  match i with
  | 0 => ![0, 0, 0] | 1 => ![64, 0, 0] | 2 => ![64, 64, 64] | 3 => ![0, 64, 64]
  | 4 => ![0, 0, 1/2] | 5 => ![64, 0, 1/2] | 6 => ![64, 63, 64] | 7 => ![0, 63, 64]

/-- The patch of `plate` made of its first four nodes. -/
def platePatch (d : Fin 3) (k : Fin 4) : ℚ := plate (Fin.castLE (by omega) k) d

namespace Contact
theorem visited_length {K : Type} [Field K] [LinearOrder K] [FloorRing K] (g : Grid K)
    (hi lo : Fin 3 → K) :
    (visited g hi lo).length = (boxCell g hi 0 + 1 - boxCell g lo 0)
      * ((boxCell g hi 1 + 1 - boxCell g lo 1) * (boxCell g hi 2 + 1 - boxCell g lo 2)) := by
  unfold visited
  simp [List.length_flatMap, span]
end Contact

namespace Contact
theorem plate_max (d : Fin 3) : (maxOver fun i => plate i d) = 64 := by
  match d with
  | 0 => decide +kernel
  | 1 => decide +kernel
  | 2 => decide +kernel

theorem plate_min (d : Fin 3) : (minOver fun i => plate i d) = 0 := by
  match d with
  | 0 => decide +kernel
  | 1 => decide +kernel
  | 2 => decide +kernel

theorem plate_size : (gridOf plate).size = 1 := by
  change bucketSize (fun d => maxOver fun i => plate i d) (fun d => minOver fun i => plate i d) = 1
  simp only [plate_max, plate_min, bucketSize]
  norm_num

theorem plate_dims (d : Fin 3) : (gridOf plate).dims d = 65 := by
  change (⌊((maxOver fun i => plate i d) - minOver fun i => plate i d) / (gridOf plate).size⌋ + 1).toNat
    = 65
  rw [plate_size, plate_max, plate_min]
  decide +kernel

theorem plate_lo (d : Fin 3) : (gridOf plate).lo d = 0 := plate_min d

theorem plate_patch (d : Fin 3) : (∃ k, platePatch d k = 0) ∧ ∃ k, platePatch d k = 64 := by
  match d with
  | 0 => exact ⟨⟨0, rfl⟩, ⟨1, rfl⟩⟩
  | 1 => exact ⟨⟨0, rfl⟩, ⟨2, rfl⟩⟩
  | 2 => exact ⟨⟨0, rfl⟩, ⟨2, rfl⟩⟩
end Contact

/-- C80, what the code does instead: the array for the buckets of one patch holds 64³ entries, but a
patch may visit 65³ buckets: for a thin plate along a diagonal of a cube the loop writes 12 481
entries past the end of the array. -/
theorem C80_bucket_array_fails (depth : ℚ) (hd : 0 ≤ depth) :
    (visited (gridOf plate) (boxHi depth platePatch) (boxLo depth platePatch)).length
      = 64 ^ 3 + 12481 := by
  have hhi : ∀ d, boxCell (gridOf plate) (boxHi depth platePatch) d = 64 := by
    intro d
    obtain ⟨-, k, hk⟩ := plate_patch d
    have h1 : (64 : ℚ) ≤ boxHi depth platePatch d := by
      have : platePatch d k + depth ≤ boxHi depth platePatch d := by
        unfold boxHi
        match k with
        | 0 => exact le_trans (le_max_left _ _) (le_trans (le_max_left _ _) (le_max_left _ _))
        | 1 => exact le_trans (le_max_right _ _) (le_trans (le_max_left _ _) (le_max_left _ _))
        | 2 => exact le_trans (le_max_right _ _) (le_max_left _ _)
        | 3 => exact le_max_right _ _
      linarith
    have h2 : (64 : ℤ) ≤ ⌊boxHi depth platePatch d⌋ := Int.le_floor.mpr (by exact_mod_cast h1)
    unfold boxCell
    rw [plate_size, plate_lo, plate_dims, sub_zero, div_one]
    push_cast
    omega
  have hlo : ∀ d, boxCell (gridOf plate) (boxLo depth platePatch) d = 0 := by
    intro d
    obtain ⟨⟨k, hk⟩, -⟩ := plate_patch d
    have h1 : boxLo depth platePatch d ≤ 0 := by
      have : boxLo depth platePatch d ≤ platePatch d k - depth := by
        unfold boxLo
        match k with
        | 0 => exact le_trans (le_trans (min_le_left _ _) (min_le_left _ _)) (min_le_left _ _)
        | 1 => exact le_trans (le_trans (min_le_left _ _) (min_le_left _ _)) (min_le_right _ _)
        | 2 => exact le_trans (min_le_left _ _) (min_le_right _ _)
        | 3 => exact min_le_right _ _
      linarith
    have h2 : ⌊boxLo depth platePatch d⌋ ≤ (0 : ℤ) := by
      have := Int.floor_mono h1
      rwa [Int.floor_zero] at this
    unfold boxCell
    rw [plate_size, plate_lo, plate_dims, sub_zero, div_one]
    push_cast
    omega
  rw [visited_length, hhi, hhi, hhi, hlo, hlo, hlo]; norm_num

/-- C80: the grid of the plate satisfies the hypotheses above. -/
example : 0 < (gridOf plate).size := by rw [plate_size]; exact one_pos

end Fierro
