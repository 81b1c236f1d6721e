import Verif.Model.EvpCrystal
import Mathlib.Data.List.Basic
import Mathlib.Data.List.GetD
import Mathlib.Tactic.Ring

namespace Fierro

variable {σ K : Type}

theorem reorderRow_spec (h : ℕ → ℕ → K) (kount nm : ℕ) (mode : ℕ → ℕ) (n : ℕ)
    (hm : ∀ i, i < n → i + 1 ≤ mode (i + 1)) (a b : ℕ) :
    reorderRow h kount nm mode n a b =
      if a = kount ∧ 1 ≤ b ∧ b ≤ n then h nm (mode b) else h a b := by
  induction n generalizing a b with
  | zero =>
    have : ¬ (a = kount ∧ 1 ≤ b ∧ b ≤ 0) := by omega
    rw [if_neg this]; rfl
  | succ n ih =>
    have ih' := ih fun i hi => hm i (by omega)
    have e : reorderRow h kount nm mode (n + 1) = fun a b =>
        if a = kount ∧ b = n + 1 then reorderRow h kount nm mode n nm (mode (n + 1))
        else reorderRow h kount nm mode n a b := by
      unfold reorderRow
      rw [List.range_succ, List.foldl_append]
      rfl
    rw [e]
    dsimp only
    have hge := hm n (by omega)
    by_cases h1 : a = kount ∧ b = n + 1
    · rw [if_pos h1, ih', if_neg (by omega), if_pos (by omega), h1.2]
    · rw [if_neg h1, ih']
      by_cases h2 : a = kount ∧ 1 ≤ b ∧ b ≤ n
      · rw [if_pos h2, if_pos (by omega)]
      · rw [if_neg h2, if_neg (by omega)]

theorem sorted_ge_index (w : List ℕ) (hs : w.Pairwise (· < ·)) (h1 : ∀ m ∈ w, 1 ≤ m) (i : ℕ)
    (hi : i < w.length) : i + 1 ≤ w[i] := by
  induction i with
  | zero => exact h1 _ (List.getElem_mem _)
  | succ i ih =>
    have := ih (by omega)
    have h2 := List.pairwise_iff_getElem.mp hs i (i + 1) (by omega) hi (by omega)
    omega

/-- What is known after the first `N` records. -/
structure CrystalInv (w : List ℕ) (R : ℕ → ModeRec σ K) (N c : ℕ) (st : CrystalState σ K) : Prop where
  le : c ≤ w.length
  below : ∀ i (h : i < w.length), i < c → w[i] ≤ N
  above : ∀ i (h : i < w.length), c ≤ i → N < w[i]
  kount : st.kount = c + 1
  sys : st.sys = (w.take c).flatMap fun m => (R m).sys
  rows : ∀ i (h : i < w.length), i < c → st.nsm (i + 1) = (R w[i]).sys.length ∧
    st.hself (i + 1) = (R w[i]).hself ∧
    ∀ j (hj : j < w.length), st.hlate (i + 1) (j + 1) = (R w[i]).hlate w[j]

theorem crystalInv_step (w : List ℕ) (hs : w.Pairwise (· < ·)) (h1 : ∀ m ∈ w, 1 ≤ m)
    (R : ℕ → ModeRec σ K) (hR : ∀ m, (R m).modex = m) (N c : ℕ) (st : CrystalState σ K)
    (inv : CrystalInv w R N c st) :
    ∃ c', CrystalInv w R (N + 1) c'
      (crystalStep (fun i => w.getD (i - 1) 0) w.length st (N + 1, R (N + 1))) := by
  have hmode : ∀ i (h : i < w.length), (fun i => w.getD (i - 1) 0) (i + 1) = w[i] := by
    intro i h; simp [List.getD_eq_getElem?_getD, h]
  have hcN : c ≤ N := by
    rcases Nat.eq_zero_or_pos c with h | h
    · omega
    · have hl := inv.le
      have a := sorted_ge_index w hs h1 (c - 1) (by omega)
      have b := inv.below (c - 1) (by omega) (by omega)
      omega
  by_cases hc : ∃ h : c < w.length, w[c] = N + 1
  · obtain ⟨hcl, hcv⟩ := hc
    have hk : (R (N + 1)).modex = (fun i => w.getD (i - 1) 0) st.kount := by
      rw [hR, inv.kount, hmode c hcl, hcv]
    refine ⟨c + 1, ?_⟩
    unfold crystalStep
    simp only [hk, ne_eq, not_true_eq_false, if_false]
    have hrow := reorderRow_spec (fun a b => if a = N + 1 then (R (N + 1)).hlate b else st.hlate a b)
      st.kount (N + 1) (fun i => w.getD (i - 1) 0) w.length (by
        intro i hi
        exact (sorted_ge_index w hs h1 i hi).trans (hmode i hi).ge)
    rw [inv.kount] at hrow
    refine ⟨by omega, ?_, ?_, ?_, ?_, ?_⟩
    · intro i h hi
      rcases Nat.lt_or_ge i c with h2 | h2
      · have := inv.below i h h2; omega
      · have : i = c := by omega
        subst this; omega
    · intro i h hi
      have := List.pairwise_iff_getElem.mp hs c i hcl h (by omega)
      omega
    · simp [inv.kount]
    · simp only [inv.sys]
      rw [List.take_add_one, List.getElem?_eq_getElem hcl]
      simp [hcv]
    · intro i h hi
      simp only [inv.kount, hrow]
      rcases Nat.lt_or_ge i c with h2 | h2
      · obtain ⟨a, b, d⟩ := inv.rows i h h2
        refine ⟨?_, ?_, ?_⟩
        · rw [if_neg (by omega)]; exact a
        · rw [if_neg (by omega), if_neg (by omega)]; exact b
        · intro j hj
          rw [if_neg (by omega), if_neg (by omega)]
          exact d j hj
      · have hic : i = c := by omega
        subst hic
        refine ⟨?_, ?_, ?_⟩
        · rw [if_pos rfl, hcv]
        · rw [if_pos rfl, if_pos trivial, hcv]
        · intro j hj
          rw [if_pos ⟨rfl, by omega, by omega⟩, if_pos trivial, hcv]
          exact congrArg _ (hmode j hj)
  · refine ⟨c, ?_⟩
    have hk : (R (N + 1)).modex ≠ (fun i => w.getD (i - 1) 0) st.kount := by
      rw [hR, inv.kount]
      rcases Nat.lt_or_ge c w.length with h | h
      · rw [hmode c h]
        exact fun e => hc ⟨h, e.symm⟩
      · simp [List.getD_eq_getElem?_getD, List.getElem?_eq_none h]
    unfold crystalStep
    dsimp only
    rw [if_pos hk]
    refine ⟨inv.le, ?_, ?_, inv.kount, inv.sys, ?_⟩
    · intro i h hi
      have := inv.below i h hi; omega
    · intro i h hi
      have a := inv.above i h hi
      rcases Nat.lt_or_ge (N + 1) w[i] with h3 | h3
      · exact h3
      · exfalso
        have he : w[i] = N + 1 := by omega
        rcases Nat.eq_or_lt_of_le hi with h4 | h4
        · subst h4; exact hc ⟨h, he⟩
        · have a' := inv.above c (by omega) le_rfl
          have b' := List.pairwise_iff_getElem.mp hs c i (by omega) h h4
          omega
    · intro i h hi
      obtain ⟨a, b, d⟩ := inv.rows i h hi
      refine ⟨a, ?_, ?_⟩
      · show (if i + 1 = N + 1 then _ else _) = _
        rw [if_neg (by omega)]; exact b
      · intro j hj
        show (if i + 1 = N + 1 then _ else _) = _
        rw [if_neg (by omega)]; exact d j hj

theorem crystalRead_inv (w : List ℕ) (hs : w.Pairwise (· < ·)) (h1 : ∀ m ∈ w, 1 ≤ m)
    (R : ℕ → ModeRec σ K) (hR : ∀ m, (R m).modex = m) (h0 : ℕ → K) (l0 : ℕ → ℕ → K) (n0 : ℕ → ℕ)
    (N : ℕ) :
    ∃ c, CrystalInv w R N c (crystalRead (fun i => w.getD (i - 1) 0) w.length h0 l0 n0
      ((List.range N).map fun k => R (k + 1))) := by
  induction N with
  | zero =>
    refine ⟨0, by omega, by omega, ?_, rfl, by simp [crystalRead], by omega⟩
    intro i h _
    have := h1 _ (List.getElem_mem h)
    omega
  | succ N ih =>
    obtain ⟨c, inv⟩ := ih
    have e : crystalRead (fun i => w.getD (i - 1) 0) w.length h0 l0 n0
        ((List.range (N + 1)).map fun k => R (k + 1)) =
        crystalStep (fun i => w.getD (i - 1) 0) w.length
          (crystalRead (fun i => w.getD (i - 1) 0) w.length h0 l0 n0
            ((List.range N).map fun k => R (k + 1))) (N + 1, R (N + 1)) := by
      unfold crystalRead
      rw [List.range_succ, List.map_append, List.zipIdx_append, List.foldl_append]
      simp [Nat.add_comm]
    rw [e]
    exact crystalInv_step w hs h1 R hR N c _ inv

end Fierro
