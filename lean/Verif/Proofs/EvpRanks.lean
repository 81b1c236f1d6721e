import Verif.Model.EvpRanks
import Verif.Proofs.EvpGreen
import Mathlib.Algebra.BigOperators.Group.Finset.Sigma
import Mathlib.Data.Fintype.BigOperators
import Mathlib.Data.Fintype.Sigma
import Mathlib.Tactic.FinCases

/-!
# Distribution of the grid over ranks
-/

namespace Fierro

theorem splitLow_zero (n p : ℕ) : splitLow n p 0 = 0 := by simp [splitLow]

theorem splitLow_last (n p : ℕ) (hp : 0 < p) : splitLow n p p = n := by
  unfold splitLow
  rw [min_eq_right (Nat.mod_lt _ hp).le]
  exact Nat.div_add_mod n p

theorem splitLow_succ (n p i : ℕ) : splitLow n p (i + 1) = splitLow n p i + (n / p + if i < n % p then 1 else 0) := by
  unfold splitLow
  rw [Nat.succ_mul]
  split_ifs with h
  · rw [min_eq_left (by omega), min_eq_left (by omega)]; omega
  · rw [min_eq_right (by omega), min_eq_right (by omega)]; omega

theorem splitSize_eq (n p i : ℕ) : splitSize n p i = n / p + if i < n % p then 1 else 0 := by
  rw [splitSize, splitLow_succ, Nat.add_sub_cancel_left]

theorem splitLow_add (n p i : ℕ) : splitLow n p (i + 1) = splitLow n p i + splitSize n p i := by
  rw [splitSize_eq, splitLow_succ]

theorem splitLow_mono (n p : ℕ) {i j : ℕ} (h : i ≤ j) : splitLow n p i ≤ splitLow n p j := by
  induction h with
  | refl => exact le_rfl
  | step _ ih => rw [splitLow_add]; omega

/-- Larger numbers of points give parts that are at least as large. -/
theorem splitSize_mono {m n : ℕ} (h : m ≤ n) (p i : ℕ) : splitSize m p i ≤ splitSize n p i := by
  rw [splitSize_eq, splitSize_eq]
  have h1 : m / p ≤ n / p := Nat.div_le_div_right h
  rcases Nat.lt_or_ge (m / p) (n / p) with h2 | h2
  · split_ifs <;> omega
  · have e : m / p = n / p := le_antisymm h1 h2
    have a := Nat.div_add_mod m p
    have b := Nat.div_add_mod n p
    rw [e] at a
    have : m % p ≤ n % p := by omega
    rw [e]
    split_ifs <;> omega

theorem split_inside {n p i j : ℕ} (hi : i < p) (hj : j < splitSize n p i) : splitLow n p i + j < n := by
  have h1 := splitLow_add n p i
  have h2 := splitLow_mono n p (show i + 1 ≤ p by omega)
  rw [splitLow_last n p (by omega)] at h2
  omega

/-- Every index lies in exactly one part. -/
theorem split_owner {n p : ℕ} (hp : 0 < p) {x : ℕ} (hx : x < n) :
    ∃ i < p, splitLow n p i ≤ x ∧ x < splitLow n p i + splitSize n p i := by
  have h : ∀ q ≤ p, x < splitLow n p q → ∃ i < q, splitLow n p i ≤ x ∧ x < splitLow n p i + splitSize n p i := by
    intro q
    induction q with
    | zero => intro _ h; rw [splitLow_zero] at h; omega
    | succ q ih =>
      intro hq h
      by_cases hlt : x < splitLow n p q
      · obtain ⟨i, hi, h'⟩ := ih (by omega) hlt
        exact ⟨i, by omega, h'⟩
      · exact ⟨q, by omega, by omega, by rw [← splitLow_add]; exact h⟩
  exact h p le_rfl (by rw [splitLow_last n p hp]; exact hx)

theorem split_unique {n p i j x : ℕ} (h1 : splitLow n p i ≤ x) (h2 : x < splitLow n p i + splitSize n p i)
    (h3 : splitLow n p j ≤ x) (h4 : x < splitLow n p j + splitSize n p j) : i = j := by
  rw [← splitLow_add] at h2 h4
  rcases Nat.lt_trichotomy i j with h | h | h
  · have := splitLow_mono n p (show i + 1 ≤ j from h); omega
  · exact h
  · have := splitLow_mono n p (show j + 1 ≤ i from h); omega

/-! ### Ranks and their positions -/

theorem numRanks_pos {p : Fin 3 → ℕ} {r : ℕ} (h : r < numRanks p) (a : Fin 3) : 0 < p a := by
  unfold numRanks at h
  have h0 : 0 < p 0 * p 1 * p 2 := by omega
  have h2 := Nat.pos_of_mul_pos_left h0
  have h01 := Nat.pos_of_mul_pos_right h0
  have h1 := Nat.pos_of_mul_pos_left h01
  have h00 := Nat.pos_of_mul_pos_right h01
  fin_cases a <;> assumption

theorem rankCoord_lt {p : Fin 3 → ℕ} {r : ℕ} (h : r < numRanks p) (a : Fin 3) : rankCoord p r a < p a := by
  have hp := numRanks_pos h
  have h0 := hp 0
  have h1 := hp 1
  fin_cases a
  · exact Nat.mod_lt _ h0
  · exact Nat.mod_lt _ h1
  · exact Nat.div_lt_of_lt_mul h

/-- The rank at a position. -/
def rankAt (p c : Fin 3 → ℕ) : ℕ := c 0 + p 0 * (c 1 + p 1 * c 2)

theorem rankCoord_rankAt {p c : Fin 3 → ℕ} (h : ∀ a, c a < p a) : rankCoord p (rankAt p c) = c := by
  have h0 := h 0
  have h1 := h 1
  have e1 : rankAt p c / p 0 = c 1 + p 1 * c 2 := by
    rw [rankAt, Nat.add_mul_div_left _ _ (by omega), Nat.div_eq_of_lt h0, Nat.zero_add]
  funext a
  fin_cases a
  · show rankAt p c % p 0 = c 0
    rw [rankAt, Nat.add_mul_mod_self_left, Nat.mod_eq_of_lt h0]
  · show rankAt p c / p 0 % p 1 = c 1
    rw [e1, Nat.add_mul_mod_self_left, Nat.mod_eq_of_lt h1]
  · show rankAt p c / (p 0 * p 1) = c 2
    rw [← Nat.div_div_eq_div_mul, e1, Nat.add_mul_div_left _ _ (by omega), Nat.div_eq_of_lt h1, Nat.zero_add]

theorem rankAt_lt {p c : Fin 3 → ℕ} (h : ∀ a, c a < p a) : rankAt p c < numRanks p := by
  have h0 := h 0
  have h1 := h 1
  have h2 := h 2
  unfold rankAt numRanks
  have a1 : c 1 + p 1 * c 2 + 1 ≤ p 1 * p 2 :=
    calc c 1 + p 1 * c 2 + 1 ≤ p 1 * c 2 + p 1 := by omega
      _ = p 1 * (c 2 + 1) := by ring
      _ ≤ p 1 * p 2 := Nat.mul_le_mul_left _ h2
  calc c 0 + p 0 * (c 1 + p 1 * c 2) < p 0 + p 0 * (c 1 + p 1 * c 2) := by omega
    _ = p 0 * (c 1 + p 1 * c 2 + 1) := by ring
    _ ≤ p 0 * (p 1 * p 2) := Nat.mul_le_mul_left _ a1
    _ = p 0 * p 1 * p 2 := by ring

theorem rankAt_rankCoord (p : Fin 3 → ℕ) (r : ℕ) : rankAt p (rankCoord p r) = r := by
  show r % p 0 + p 0 * (r / p 0 % p 1 + p 1 * (r / (p 0 * p 1))) = r
  rw [← Nat.div_div_eq_div_mul, Nat.mod_add_div, Nat.mod_add_div]

/-- A box of numbers `m` split over the process grid: every point in exactly one part. -/
theorem box_owner {m p : Fin 3 → ℕ} (hp : ∀ a, 0 < p a) {x : Fin 3 → ℕ} (hx : ∀ a, x a < m a) :
    ∃! r, r < numRanks p ∧ ∀ a, splitLow (m a) (p a) (rankCoord p r a) ≤ x a ∧
      x a < splitLow (m a) (p a) (rankCoord p r a) + splitSize (m a) (p a) (rankCoord p r a) := by
  have h : ∀ a, ∃ i < p a, splitLow (m a) (p a) i ≤ x a ∧ x a < splitLow (m a) (p a) i + splitSize (m a) (p a) i :=
    fun a => split_owner (hp a) (hx a)
  choose c hc using h
  refine ⟨rankAt p c, ⟨rankAt_lt fun a => (hc a).1, fun a => ?_⟩, ?_⟩
  · rw [rankCoord_rankAt fun a => (hc a).1]
    exact (hc a).2
  · rintro r ⟨_, h⟩
    have e : rankCoord p r = c := funext fun a =>
      split_unique (h a).1 (h a).2 (hc a).2.1 (hc a).2.2
    rw [← e, rankAt_rankCoord]

/-! ### Points of the grid and points of a rank -/

theorem cplxBox_le {n : Fin 3 → ℕ} (hn : ∀ a, 0 < n a) (a : Fin 3) : cplxBox n a ≤ n a := by
  have := hn 0
  fin_cases a
  · show n 0 / 2 + 1 ≤ n 0
    omega
  · exact le_rfl
  · exact le_rfl

theorem fftRank_inRange {n p : Fin 3 → ℕ} (hn : ∀ a, 0 < n a) (r : ℕ) : (fftRank n p r).InRange := fun k a =>
  lt_of_lt_of_le (k a).isLt (splitSize_mono (cplxBox_le hn a) _ _)

namespace EvpGrid

variable (g : EvpGrid)

/-- The point of the grid at an index of a rank. -/
def point {p : Fin 3 → ℕ} (r : Fin (numRanks p)) (x : LocIx (fftRank g.n p r).npts) : g.Ix := fun a =>
  ⟨(fftRank g.n p r).low a + x a, split_inside (rankCoord_lt r.isLt a) (x a).isLt⟩

/-- The frequency at an index of the transform of a rank. -/
def mode (hp : g.Pos) {p : Fin 3 → ℕ} (r : Fin (numRanks p)) (k : LocIx (fftRank g.n p r).nptsC) : g.Ix := fun a =>
  ⟨(fftRank g.n p r).lowC a + k a,
    lt_of_lt_of_le (split_inside (rankCoord_lt r.isLt a) (k a).isLt) (cplxBox_le hp a)⟩

theorem point_bijective (p : Fin 3 → ℕ) (hp : ∀ a, 0 < p a) :
    Function.Bijective fun q : (r : Fin (numRanks p)) × LocIx (fftRank g.n p r).npts => g.point q.1 q.2 := by
  constructor
  · rintro ⟨r, x⟩ ⟨r', x'⟩ h
    have hv : ∀ a, (fftRank g.n p r).low a + x a = (fftRank g.n p r').low a + x' a := fun a =>
      congrArg Fin.val (congrFun h a)
    have e : (r : ℕ) = r' := by
      refine (box_owner hp (x := fun a => (fftRank g.n p r).low a + x a)
        (fun a => split_inside (rankCoord_lt r.isLt a) (x a).isLt)).unique
        ⟨r.isLt, fun a => ⟨Nat.le_add_right _ _, Nat.add_lt_add_left (x a).isLt _⟩⟩
        ⟨r'.isLt, fun a => ?_⟩
      show _ ≤ (fftRank g.n p r).low a + x a ∧ (fftRank g.n p r).low a + x a < _
      rw [hv a]
      exact ⟨Nat.le_add_right _ _, Nat.add_lt_add_left (x' a).isLt _⟩
    obtain rfl : r = r' := Fin.ext e
    have : x = x' := funext fun a => Fin.ext (by have := hv a; omega)
    rw [this]
  · intro y
    obtain ⟨r, ⟨hr, h⟩, _⟩ := box_owner hp (x := fun a => (y a : ℕ)) fun a => (y a).isLt
    refine ⟨⟨⟨r, hr⟩, fun a => ⟨y a - (fftRank g.n p r).low a, ?_⟩⟩, ?_⟩
    · have : (fftRank g.n p r).low a ≤ y a ∧ (y a : ℕ) < (fftRank g.n p r).low a + (fftRank g.n p r).npts a := h a
      show (y a : ℕ) - (fftRank g.n p r).low a < (fftRank g.n p r).npts a
      omega
    · funext a
      apply Fin.ext
      show (fftRank g.n p r).low a + (y a - (fftRank g.n p r).low a) = y a
      have : (fftRank g.n p r).low a ≤ y a := (h a).1
      omega

/-- Sums over the points of all ranks are sums over the grid. -/
theorem sum_ranks (p : Fin 3 → ℕ) (hp : ∀ a, 0 < p a) (f : g.Ix → ℝ) :
    ∑ r : Fin (numRanks p), ∑ x, f (g.point r x) = ∑ x, f x := by
  rw [← Fintype.sum_sigma' (fun (r : Fin (numRanks p)) (x : LocIx (fftRank g.n p r).npts) => f (g.point r x))]
  exact Fintype.sum_bijective _ (g.point_bijective p hp) _ _ fun _ => rfl

end EvpGrid

end Fierro
