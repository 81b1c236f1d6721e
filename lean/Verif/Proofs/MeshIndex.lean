import Verif.Model.MeshIndex
import Mathlib.Data.Finset.Card
import Mathlib.Order.Interval.Finset.Basic
import Mathlib.Data.Int.Interval
import Mathlib.Data.Finset.Prod
import Mathlib.Algebra.BigOperators.Intervals
import Mathlib.Tactic.Ring
import Mathlib.Tactic.Linarith
import Mathlib.Algebra.Order.BigOperators.Group.Finset

namespace Fierro

/-- Two-digit mixed radix representation is unique. -/
theorem radix_inj {n a b a' b' : ℤ} (ha : 0 ≤ a ∧ a < n) (ha' : 0 ≤ a' ∧ a' < n)
    (h : a + n * b = a' + n * b') : a = a' ∧ b = b' := by
  have hb : b = b' := by
    rcases lt_trichotomy b b' with h1 | h1 | h1
    · nlinarith [ha.1, ha.2, ha'.1, ha'.2]
    · exact h1
    · nlinarith [ha.1, ha.2, ha'.1, ha'.2]
  subst hb
  exact ⟨by linarith, rfl⟩

/-- Range of a two-digit mixed radix number. -/
theorem radix_lt {n m a b : ℤ} (ha : 0 ≤ a ∧ a < n) (hb : 0 ≤ b ∧ b < m) :
    0 ≤ a + n * b ∧ a + n * b < n * m := by
  constructor
  · nlinarith [ha.1, ha.2, hb.1]
  · nlinarith [ha.1, ha.2, hb.1, hb.2]

theorem radix_mod {n a b : ℤ} (ha : 0 ≤ a ∧ a < n) : (a + n * b) % n = a := by
  rw [Int.add_mul_emod_self_left]; exact Int.emod_eq_of_lt ha.1 ha.2

theorem radix_div {n a b : ℤ} (ha : 0 ≤ a ∧ a < n) : (a + n * b) / n = b := by
  rw [Int.add_mul_ediv_left _ _ (by omega : n ≠ 0), Int.ediv_eq_zero_of_lt ha.1 ha.2, zero_add]

/-- An injective self-map of equal-size finite integer sets is a bijection. -/
theorem bijOn_of_inj {α : Type*} [DecidableEq α] (s : Finset α) (n : ℤ) (f : α → ℤ)
    (hmap : ∀ x ∈ s, 0 ≤ f x ∧ f x < n) (hinj : Set.InjOn f s) (hcard : (s.card : ℤ) = n) :
    Set.BijOn f s (Set.Ico 0 n) := by
  refine ⟨fun x hx => ?_, hinj, ?_⟩
  · exact hmap x hx
  · have := Finset.surjOn_of_injOn_of_card_le (s := s) (t := Finset.Ico 0 n) f
      (fun x hx => by simpa using hmap x hx) hinj
      (by rw [Int.card_Ico]; omega)
    simpa using this

/-- The lattice box `[0,a) × [0,b) × [0,c)`. -/
def latticeBox (a b c : ℤ) : Finset (ℤ × ℤ × ℤ) :=
  Finset.Ico 0 a ×ˢ Finset.Ico 0 b ×ˢ Finset.Ico 0 c

theorem mem_latticeBox {a b c : ℤ} {p : ℤ × ℤ × ℤ} :
    p ∈ latticeBox a b c ↔
      (0 ≤ p.1 ∧ p.1 < a) ∧ (0 ≤ p.2.1 ∧ p.2.1 < b) ∧ (0 ≤ p.2.2 ∧ p.2.2 < c) := by
  simp [latticeBox]

theorem card_latticeBox {a b c : ℤ} (ha : 0 ≤ a) (hb : 0 ≤ b) (hc : 0 ≤ c) :
    ((latticeBox a b c).card : ℤ) = a * b * c := by
  simp [latticeBox, Finset.card_product, ha, hb, hc]
  ring

/-! ### `get_id` -/

theorem getId_eq (i j k ni nj : ℤ) : getId i j k ni nj = i + ni * (j + nj * k) := by
  unfold getId; ring

/-! ### `PointIndexFromIJK` -/

/-- Sizes of the 27 consecutive segments of VTK point ids. `p q r` are `order - 1`. -/
def segSize (p q r : ℤ) : ℕ → ℤ
  | 8 => p | 9 => q | 10 => p | 11 => q | 12 => p | 13 => q | 14 => p | 15 => q
  | 16 => r | 17 => r | 18 => r | 19 => r
  | 20 => q * r | 21 => q * r | 22 => r * p | 23 => r * p | 24 => p * q | 25 => p * q
  | 26 => p * q * r
  | _ => 1

def segStart (p q r : ℤ) (n : ℕ) : ℤ := ∑ m ∈ Finset.range n, segSize p q r m

/-- Inverse of the numbering on a segment. -/
def segDecode (p q r : ℤ) (n : ℕ) (t : ℤ) : ℤ × ℤ × ℤ :=
  match n with
  | 0 => (0, 0, 0) | 1 => (p + 1, 0, 0) | 2 => (p + 1, q + 1, 0) | 3 => (0, q + 1, 0)
  | 4 => (0, 0, r + 1) | 5 => (p + 1, 0, r + 1) | 6 => (p + 1, q + 1, r + 1)
  | 7 => (0, q + 1, r + 1)
  | 8 => (t + 1, 0, 0) | 9 => (p + 1, t + 1, 0) | 10 => (t + 1, q + 1, 0) | 11 => (0, t + 1, 0)
  | 12 => (t + 1, 0, r + 1) | 13 => (p + 1, t + 1, r + 1) | 14 => (t + 1, q + 1, r + 1)
  | 15 => (0, t + 1, r + 1)
  | 16 => (0, 0, t + 1) | 17 => (p + 1, 0, t + 1) | 18 => (0, q + 1, t + 1)
  | 19 => (p + 1, q + 1, t + 1)
  | 20 => (0, t % q + 1, t / q + 1) | 21 => (p + 1, t % q + 1, t / q + 1)
  | 22 => (t % p + 1, 0, t / p + 1) | 23 => (t % p + 1, q + 1, t / p + 1)
  | 24 => (t % p + 1, t / p + 1, 0) | 25 => (t % p + 1, t / p + 1, r + 1)
  | _ => (t % p + 1, t / p % q + 1, t / p / q + 1)

theorem segSize_nonneg {p q r : ℤ} (hp : 0 ≤ p) (hq : 0 ≤ q) (hr : 0 ≤ r) (n : ℕ) :
    0 ≤ segSize p q r n := by
  unfold segSize
  split <;> first | assumption | positivity

theorem segStart_succ (p q r : ℤ) (n : ℕ) :
    segStart p q r (n + 1) = segStart p q r n + segSize p q r n := by
  simp [segStart, Finset.sum_range_succ]

theorem segStart_mono {p q r : ℤ} (hp : 0 ≤ p) (hq : 0 ≤ q) (hr : 0 ≤ r) :
    Monotone (segStart p q r) :=
  monotone_nat_of_le_succ fun n => by
    rw [segStart_succ]; have := segSize_nonneg hp hq hr n; omega

theorem segStart_unique {p q r : ℤ} (hp : 0 ≤ p) (hq : 0 ≤ q) (hr : 0 ≤ r) {n n' : ℕ} {t t' : ℤ}
    (ht : 0 ≤ t ∧ t < segSize p q r n) (ht' : 0 ≤ t' ∧ t' < segSize p q r n')
    (h : segStart p q r n + t = segStart p q r n' + t') : n = n' ∧ t = t' := by
  have hm := segStart_mono hp hq hr
  have hn : n = n' := by
    rcases Nat.lt_trichotomy n n' with h1 | h1 | h1
    · have := hm (Nat.succ_le_of_lt h1); rw [Nat.succ_eq_add_one, segStart_succ] at this; omega
    · exact h1
    · have := hm (Nat.succ_le_of_lt h1); rw [Nat.succ_eq_add_one, segStart_succ] at this; omega
  subst hn
  exact ⟨rfl, by omega⟩

set_option linter.unnecessarySeqFocus false in
set_option linter.unusedSimpArgs false in
set_option linter.unusedTactic false in
set_option linter.unreachableTactic false in
set_option maxHeartbeats 4000000 in
/-- Every lattice point has a segment and a local index from which it can be recovered. -/
theorem pointIndex_seg {i j k p q r : ℤ} (hp : 0 ≤ p) (hq : 0 ≤ q) (hr : 0 ≤ r)
    (hi : 0 ≤ i ∧ i ≤ p + 1) (hj : 0 ≤ j ∧ j ≤ q + 1) (hk : 0 ≤ k ∧ k ≤ r + 1) :
    ∃ n t, n < 27 ∧ (0 ≤ t ∧ t < segSize p q r n) ∧
      pointIndexFromIJK i j k (p + 1) (q + 1) (r + 1) = segStart p q r n + t ∧
      segDecode p q r n t = (i, j, k) := by
  have hi' : i = 0 ∨ i = p + 1 ∨ (0 < i ∧ i < p + 1) := by omega
  have hj' : j = 0 ∨ j = q + 1 ∨ (0 < j ∧ j < q + 1) := by omega
  have hk' : k = 0 ∨ k = r + 1 ∨ (0 < k ∧ k < r + 1) := by omega
  have e1 : p + 1 ≠ 0 := by omega
  have e2 : q + 1 ≠ 0 := by omega
  have e3 : r + 1 ≠ 0 := by omega
  rcases hi' with rfl | rfl | hi' <;> rcases hj' with rfl | rfl | hj' <;>
    rcases hk' with rfl | rfl | hk'
  · refine ⟨0, 0, by norm_num, ⟨by omega, by simp only [segSize]; omega⟩, ?_, by simp [segDecode]⟩
    simp [pointIndexFromIJK, segStart, Finset.sum_range_succ, segSize, e1, e2, e3, e1.symm, e2.symm, e3.symm] <;> ring
  · refine ⟨4, 0, by norm_num, ⟨by omega, by simp only [segSize]; omega⟩, ?_, by simp [segDecode]⟩
    simp [pointIndexFromIJK, segStart, Finset.sum_range_succ, segSize, e1, e2, e3, e1.symm, e2.symm, e3.symm] <;> ring
  · have k1 : k ≠ 0 := by omega
    have k2 : k ≠ r + 1 := by omega
    refine ⟨16, k - 1, by norm_num, ⟨by omega, by simp only [segSize]; omega⟩, ?_, by simp [segDecode]⟩
    simp [pointIndexFromIJK, segStart, Finset.sum_range_succ, segSize, e1, e2, e3, e1.symm, e2.symm, e3.symm, k1, k2] <;> ring
  · refine ⟨3, 0, by norm_num, ⟨by omega, by simp only [segSize]; omega⟩, ?_, by simp [segDecode]⟩
    simp [pointIndexFromIJK, segStart, Finset.sum_range_succ, segSize, e1, e2, e3, e1.symm, e2.symm, e3.symm] <;> ring
  · refine ⟨7, 0, by norm_num, ⟨by omega, by simp only [segSize]; omega⟩, ?_, by simp [segDecode]⟩
    simp [pointIndexFromIJK, segStart, Finset.sum_range_succ, segSize, e1, e2, e3, e1.symm, e2.symm, e3.symm] <;> ring
  · have k1 : k ≠ 0 := by omega
    have k2 : k ≠ r + 1 := by omega
    refine ⟨18, k - 1, by norm_num, ⟨by omega, by simp only [segSize]; omega⟩, ?_, by simp [segDecode]⟩
    simp [pointIndexFromIJK, segStart, Finset.sum_range_succ, segSize, e1, e2, e3, e1.symm, e2.symm, e3.symm, k1, k2] <;> ring
  · have j1 : j ≠ 0 := by omega
    have j2 : j ≠ q + 1 := by omega
    refine ⟨11, j - 1, by norm_num, ⟨by omega, by simp only [segSize]; omega⟩, ?_, by simp [segDecode]⟩
    simp [pointIndexFromIJK, segStart, Finset.sum_range_succ, segSize, e1, e2, e3, e1.symm, e2.symm, e3.symm, j1, j2] <;> ring
  · have j1 : j ≠ 0 := by omega
    have j2 : j ≠ q + 1 := by omega
    refine ⟨15, j - 1, by norm_num, ⟨by omega, by simp only [segSize]; omega⟩, ?_, by simp [segDecode]⟩
    simp [pointIndexFromIJK, segStart, Finset.sum_range_succ, segSize, e1, e2, e3, e1.symm, e2.symm, e3.symm, j1, j2] <;> ring
  · have j1 : j ≠ 0 := by omega
    have j2 : j ≠ q + 1 := by omega
    have k1 : k ≠ 0 := by omega
    have k2 : k ≠ r + 1 := by omega
    have hA : 0 ≤ j - 1 ∧ j - 1 < q := by omega
    have hB : 0 ≤ k - 1 ∧ k - 1 < r := by omega
    have hR := radix_lt hA hB
    refine ⟨20, (j - 1) + q * (k - 1), by norm_num, ⟨hR.1, by simp only [segSize]; linarith [hR.2, mul_comm p r]⟩, ?_, by simp [segDecode, radix_mod hA, radix_div hA]⟩
    simp [pointIndexFromIJK, segStart, Finset.sum_range_succ, segSize, e1, e2, e3, e1.symm, e2.symm, e3.symm, j1, j2, k1, k2] <;> ring
  · refine ⟨1, 0, by norm_num, ⟨by omega, by simp only [segSize]; omega⟩, ?_, by simp [segDecode]⟩
    simp [pointIndexFromIJK, segStart, Finset.sum_range_succ, segSize, e1, e2, e3, e1.symm, e2.symm, e3.symm] <;> ring
  · refine ⟨5, 0, by norm_num, ⟨by omega, by simp only [segSize]; omega⟩, ?_, by simp [segDecode]⟩
    simp [pointIndexFromIJK, segStart, Finset.sum_range_succ, segSize, e1, e2, e3, e1.symm, e2.symm, e3.symm] <;> ring
  · have k1 : k ≠ 0 := by omega
    have k2 : k ≠ r + 1 := by omega
    refine ⟨17, k - 1, by norm_num, ⟨by omega, by simp only [segSize]; omega⟩, ?_, by simp [segDecode]⟩
    simp [pointIndexFromIJK, segStart, Finset.sum_range_succ, segSize, e1, e2, e3, e1.symm, e2.symm, e3.symm, k1, k2] <;> ring
  · refine ⟨2, 0, by norm_num, ⟨by omega, by simp only [segSize]; omega⟩, ?_, by simp [segDecode]⟩
    simp [pointIndexFromIJK, segStart, Finset.sum_range_succ, segSize, e1, e2, e3, e1.symm, e2.symm, e3.symm] <;> ring
  · refine ⟨6, 0, by norm_num, ⟨by omega, by simp only [segSize]; omega⟩, ?_, by simp [segDecode]⟩
    simp [pointIndexFromIJK, segStart, Finset.sum_range_succ, segSize, e1, e2, e3, e1.symm, e2.symm, e3.symm] <;> ring
  · have k1 : k ≠ 0 := by omega
    have k2 : k ≠ r + 1 := by omega
    refine ⟨19, k - 1, by norm_num, ⟨by omega, by simp only [segSize]; omega⟩, ?_, by simp [segDecode]⟩
    simp [pointIndexFromIJK, segStart, Finset.sum_range_succ, segSize, e1, e2, e3, e1.symm, e2.symm, e3.symm, k1, k2] <;> ring
  · have j1 : j ≠ 0 := by omega
    have j2 : j ≠ q + 1 := by omega
    refine ⟨9, j - 1, by norm_num, ⟨by omega, by simp only [segSize]; omega⟩, ?_, by simp [segDecode]⟩
    simp [pointIndexFromIJK, segStart, Finset.sum_range_succ, segSize, e1, e2, e3, e1.symm, e2.symm, e3.symm, j1, j2] <;> ring
  · have j1 : j ≠ 0 := by omega
    have j2 : j ≠ q + 1 := by omega
    refine ⟨13, j - 1, by norm_num, ⟨by omega, by simp only [segSize]; omega⟩, ?_, by simp [segDecode]⟩
    simp [pointIndexFromIJK, segStart, Finset.sum_range_succ, segSize, e1, e2, e3, e1.symm, e2.symm, e3.symm, j1, j2] <;> ring
  · have j1 : j ≠ 0 := by omega
    have j2 : j ≠ q + 1 := by omega
    have k1 : k ≠ 0 := by omega
    have k2 : k ≠ r + 1 := by omega
    have hA : 0 ≤ j - 1 ∧ j - 1 < q := by omega
    have hB : 0 ≤ k - 1 ∧ k - 1 < r := by omega
    have hR := radix_lt hA hB
    refine ⟨21, (j - 1) + q * (k - 1), by norm_num, ⟨hR.1, by simp only [segSize]; linarith [hR.2, mul_comm p r]⟩, ?_, by simp [segDecode, radix_mod hA, radix_div hA]⟩
    simp [pointIndexFromIJK, segStart, Finset.sum_range_succ, segSize, e1, e2, e3, e1.symm, e2.symm, e3.symm, j1, j2, k1, k2] <;> ring
  · have i1 : i ≠ 0 := by omega
    have i2 : i ≠ p + 1 := by omega
    refine ⟨8, i - 1, by norm_num, ⟨by omega, by simp only [segSize]; omega⟩, ?_, by simp [segDecode]⟩
    simp [pointIndexFromIJK, segStart, Finset.sum_range_succ, segSize, e1, e2, e3, e1.symm, e2.symm, e3.symm, i1, i2] <;> ring
  · have i1 : i ≠ 0 := by omega
    have i2 : i ≠ p + 1 := by omega
    refine ⟨12, i - 1, by norm_num, ⟨by omega, by simp only [segSize]; omega⟩, ?_, by simp [segDecode]⟩
    simp [pointIndexFromIJK, segStart, Finset.sum_range_succ, segSize, e1, e2, e3, e1.symm, e2.symm, e3.symm, i1, i2] <;> ring
  · have i1 : i ≠ 0 := by omega
    have i2 : i ≠ p + 1 := by omega
    have k1 : k ≠ 0 := by omega
    have k2 : k ≠ r + 1 := by omega
    have hA : 0 ≤ i - 1 ∧ i - 1 < p := by omega
    have hB : 0 ≤ k - 1 ∧ k - 1 < r := by omega
    have hR := radix_lt hA hB
    refine ⟨22, (i - 1) + p * (k - 1), by norm_num, ⟨hR.1, by simp only [segSize]; linarith [hR.2, mul_comm p r]⟩, ?_, by simp [segDecode, radix_mod hA, radix_div hA]⟩
    simp [pointIndexFromIJK, segStart, Finset.sum_range_succ, segSize, e1, e2, e3, e1.symm, e2.symm, e3.symm, i1, i2, k1, k2] <;> ring
  · have i1 : i ≠ 0 := by omega
    have i2 : i ≠ p + 1 := by omega
    refine ⟨10, i - 1, by norm_num, ⟨by omega, by simp only [segSize]; omega⟩, ?_, by simp [segDecode]⟩
    simp [pointIndexFromIJK, segStart, Finset.sum_range_succ, segSize, e1, e2, e3, e1.symm, e2.symm, e3.symm, i1, i2] <;> ring
  · have i1 : i ≠ 0 := by omega
    have i2 : i ≠ p + 1 := by omega
    refine ⟨14, i - 1, by norm_num, ⟨by omega, by simp only [segSize]; omega⟩, ?_, by simp [segDecode]⟩
    simp [pointIndexFromIJK, segStart, Finset.sum_range_succ, segSize, e1, e2, e3, e1.symm, e2.symm, e3.symm, i1, i2] <;> ring
  · have i1 : i ≠ 0 := by omega
    have i2 : i ≠ p + 1 := by omega
    have k1 : k ≠ 0 := by omega
    have k2 : k ≠ r + 1 := by omega
    have hA : 0 ≤ i - 1 ∧ i - 1 < p := by omega
    have hB : 0 ≤ k - 1 ∧ k - 1 < r := by omega
    have hR := radix_lt hA hB
    refine ⟨23, (i - 1) + p * (k - 1), by norm_num, ⟨hR.1, by simp only [segSize]; linarith [hR.2, mul_comm p r]⟩, ?_, by simp [segDecode, radix_mod hA, radix_div hA]⟩
    simp [pointIndexFromIJK, segStart, Finset.sum_range_succ, segSize, e1, e2, e3, e1.symm, e2.symm, e3.symm, i1, i2, k1, k2] <;> ring
  · have i1 : i ≠ 0 := by omega
    have i2 : i ≠ p + 1 := by omega
    have j1 : j ≠ 0 := by omega
    have j2 : j ≠ q + 1 := by omega
    have hA : 0 ≤ i - 1 ∧ i - 1 < p := by omega
    have hB : 0 ≤ j - 1 ∧ j - 1 < q := by omega
    have hR := radix_lt hA hB
    refine ⟨24, (i - 1) + p * (j - 1), by norm_num, ⟨hR.1, by simp only [segSize]; linarith [hR.2, mul_comm p r]⟩, ?_, by simp [segDecode, radix_mod hA, radix_div hA]⟩
    simp [pointIndexFromIJK, segStart, Finset.sum_range_succ, segSize, e1, e2, e3, e1.symm, e2.symm, e3.symm, i1, i2, j1, j2] <;> ring
  · have i1 : i ≠ 0 := by omega
    have i2 : i ≠ p + 1 := by omega
    have j1 : j ≠ 0 := by omega
    have j2 : j ≠ q + 1 := by omega
    have hA : 0 ≤ i - 1 ∧ i - 1 < p := by omega
    have hB : 0 ≤ j - 1 ∧ j - 1 < q := by omega
    have hR := radix_lt hA hB
    refine ⟨25, (i - 1) + p * (j - 1), by norm_num, ⟨hR.1, by simp only [segSize]; linarith [hR.2, mul_comm p r]⟩, ?_, by simp [segDecode, radix_mod hA, radix_div hA]⟩
    simp [pointIndexFromIJK, segStart, Finset.sum_range_succ, segSize, e1, e2, e3, e1.symm, e2.symm, e3.symm, i1, i2, j1, j2] <;> ring
  · have i1 : i ≠ 0 := by omega
    have i2 : i ≠ p + 1 := by omega
    have j1 : j ≠ 0 := by omega
    have j2 : j ≠ q + 1 := by omega
    have k1 : k ≠ 0 := by omega
    have k2 : k ≠ r + 1 := by omega
    have hA : 0 ≤ i - 1 ∧ i - 1 < p := by omega
    have hB : 0 ≤ j - 1 ∧ j - 1 < q := by omega
    have hC : 0 ≤ k - 1 ∧ k - 1 < r := by omega
    have hR := radix_lt hA (radix_lt hB hC)
    refine ⟨26, (i - 1) + p * ((j - 1) + q * (k - 1)), by norm_num, ⟨hR.1, by simp only [segSize]; linarith [hR.2, mul_assoc p q r]⟩, ?_, by simp [segDecode, radix_mod hA, radix_div hA, radix_mod hB, radix_div hB]⟩
    simp [pointIndexFromIJK, segStart, Finset.sum_range_succ, segSize, e1, e2, e3, e1.symm, e2.symm, e3.symm, i1, i2, j1, j2, k1, k2] <;> ring

theorem segStart_27 (p q r : ℤ) : segStart p q r 27 = (p + 2) * (q + 2) * (r + 2) := by
  simp [segStart, Finset.sum_range_succ, segSize]; ring

end Fierro
