import Verif.Proofs.EvpLinalg
import Mathlib.Data.Rat.Defs
import Mathlib.Algebra.Order.Ring.Rat
import Mathlib.Tactic.NormNum
import Mathlib.Tactic.FinCases
import Mathlib.LinearAlgebra.Matrix.Notation

/-!
# C65: dense inversion and integer powers of the crystal plasticity solver
-/

set_option linter.unusedSectionVars false

namespace Fierro

open Matrix

section spec
variable {n : ℕ} {K : Type} [Field K]

/-- `B` is a two-sided inverse of `A`. -/
def InverseOf (A B : Dense n K) : Prop :=
  ∀ i j, (∑ k, B i k * A k j = if i = j then 1 else 0) ∧ (∑ k, A i k * B k j = if i = j then 1 else 0)

/-- The leading principal submatrix of `A` with `m + 1` rows has no kernel. -/
def LeadingRegular (A : Dense n K) (m : Fin n) : Prop :=
  ∀ x : Fin n → K, (∀ c, m < c → x c = 0) → (∀ r, r ≤ m → ∑ c, A r c * x c = 0) → x = 0

/-- Positive definiteness of the (not necessarily symmetric) quadratic form of `A`. -/
def PosForm [LinearOrder K] (A : Dense n K) : Prop :=
  ∀ x : Fin n → K, x ≠ 0 → 0 < ∑ i, ∑ j, x i * A i j * x j

theorem leading_det_iff (A : Dense n K) (m : Fin n) :
    (leading A (m + 1) m.isLt).det ≠ 0 ↔ LeadingRegular A m := by
  constructor
  · intro hd x hx h0
    by_contra hne
    apply hd
    rw [← Matrix.exists_mulVec_eq_zero_iff]
    refine ⟨fun i => x (Fin.castLE m.isLt i), ?_, ?_⟩
    · intro hz
      apply hne
      funext c
      by_cases hc : m < c
      · exact hx c hc
      · have := congrFun hz ⟨c, by have := not_lt.mp hc; have : (c : ℕ) ≤ m := this; omega⟩
        simpa using this
    · funext r
      have hr := h0 (Fin.castLE m.isLt r) (by
        show (r : ℕ) ≤ m; have := r.isLt; omega)
      simp only [Matrix.mulVec, dotProduct, leading, Matrix.of_apply, Pi.zero_apply]
      rw [← hr]
      have hinj : Function.Injective (Fin.castLE m.isLt) := Fin.castLE_injective _
      rw [← Finset.sum_image (s := Finset.univ) (g := Fin.castLE m.isLt)
        (f := fun k => A (Fin.castLE m.isLt r) k * x k) (fun a _ b _ h => hinj h)]
      refine Finset.sum_subset (Finset.subset_univ _) ?_
      intro k _ hk
      have hkq : m < k := by
        by_contra hlt
        have : (k : ℕ) ≤ m := not_lt.mp hlt
        exact hk (Finset.mem_image.mpr ⟨⟨k, by omega⟩, Finset.mem_univ _, Fin.ext rfl⟩)
      rw [hx k hkq, mul_zero]
  · intro hreg hd
    obtain ⟨v, hv, hv0⟩ := Matrix.exists_mulVec_eq_zero_iff.mpr hd
    apply hv
    have hx : (fun c : Fin n => if h : (c : ℕ) < m + 1 then v ⟨c, h⟩ else 0) = 0 := by
      apply hreg
      · intro c hc
        have : ¬ ((c : ℕ) < m + 1) := by have : (m : ℕ) < c := hc; omega
        simp [this]
      · intro r hr
        have hr' : (r : ℕ) < m + 1 := by have : (r : ℕ) ≤ m := hr; omega
        have := congrFun hv0 ⟨r, hr'⟩
        simp only [Matrix.mulVec, dotProduct, leading, Matrix.of_apply, Pi.zero_apply] at this
        refine Eq.trans ?_ this
        have hinj : Function.Injective (Fin.castLE m.isLt) := Fin.castLE_injective _
        have e : ∀ k : Fin (m + 1), A (Fin.castLE m.isLt ⟨r, hr'⟩) (Fin.castLE m.isLt k) * v k =
            A r (Fin.castLE m.isLt k) *
              (if h : ((Fin.castLE m.isLt k : Fin n) : ℕ) < m + 1 then
                v ⟨(Fin.castLE m.isLt k : Fin n), h⟩ else 0) := by
          intro k
          have hk : ((Fin.castLE m.isLt k : Fin n) : ℕ) < m + 1 := k.isLt
          rw [dif_pos hk]; rfl
        rw [Finset.sum_congr rfl (fun k _ => e k)]
        rw [← Finset.sum_image (s := (Finset.univ : Finset (Fin (m + 1)))) (g := Fin.castLE m.isLt)
          (f := fun k : Fin n => A r k * (if h : (k : ℕ) < m + 1 then v ⟨k, h⟩ else 0))
          (fun a _ b _ h => hinj h)]
        symm
        apply Finset.sum_subset (Finset.subset_univ _)
        intro k _ hk
        have hkq : ¬ ((k : ℕ) < m + 1) := by
          intro hlt
          exact hk (Finset.mem_image.mpr ⟨(⟨k, hlt⟩ : Fin (m + 1)), Finset.mem_univ _, Fin.ext rfl⟩)
        rw [dif_neg hkq, mul_zero]
    funext i
    have := congrFun hx (Fin.castLE m.isLt i)
    have hi : ((Fin.castLE m.isLt i : Fin n) : ℕ) < m + 1 := i.isLt
    simp only [dif_pos hi, Pi.zero_apply] at this
    exact this

end spec

section invert
variable {n : ℕ} {K : Type} [Field K] [DecidableEq K]

theorem finRange_map_val (n : ℕ) : (List.finRange n).map Fin.val = List.range' 0 (n - 0) := by
  rw [Nat.sub_zero, ← List.range_eq_range']
  simp

/-- **C65.** When the elimination loop of `invert_matrix` runs to its end, the storage of the caller
holds the inverse of the matrix passed in, for every size. -/
theorem C65_inverse (A : Dense n K) (h : (invertMatrix A).finished = true) :
    InverseOf A (invertMatrix A).mat := by
  obtain ⟨_, hb, _⟩ := gjLoop_spec A (List.finRange n) 0 _ (finRange_map_val n) (gjInv_start A)
  have h1 : Matrix.of (invertMatrix A).mat * Matrix.of A = 1 := hb h
  have h2 : Matrix.of A * Matrix.of (invertMatrix A).mat = 1 := mul_eq_one_comm.mp h1
  intro i j
  have e1 := congrFun (congrFun h1 i) j
  have e2 := congrFun (congrFun h2 i) j
  simp only [Matrix.mul_apply, Matrix.of_apply, Matrix.one_apply] at e1 e2
  exact ⟨e1, e2⟩

/-- **C65.** The loop runs to its end exactly when no leading principal submatrix is singular: no
rows are exchanged, so regularity of the whole matrix is not enough. -/
theorem C65_finished_iff (A : Dense n K) :
    (invertMatrix A).finished = true ↔ ∀ m : Fin n, LeadingRegular A m := by
  obtain ⟨ha, _, _⟩ := gjLoop_spec A (List.finRange n) 0 _ (finRange_map_val n) (gjInv_start A)
  unfold invertMatrix
  rw [ha]
  refine forall_congr' fun m => ?_
  rw [leading_det_iff]
  simp

/-- **C65.** The returned flag is 0 for every matrix; it carries no information. -/
theorem C65_flag (A : Dense n K) : (invertMatrix A).errorFlag = 0 :=
  (gjLoop_spec A (List.finRange n) 0 _ (finRange_map_val n) (gjInv_start A)).2.2

/-- **C65.** The caller passes a column-major array to the row-major routine: inverting the
transposed matrix leaves the transposed inverse in the storage, so the mismatch is harmless. -/
theorem C65_column_major (A : Dense n K) (h : (invertMatrix (fun i j => A j i)).finished = true) :
    InverseOf A (fun i j => (invertMatrix (fun i j => A j i)).mat j i) := by
  have hi := C65_inverse (fun i j => A j i) h
  intro i j
  obtain ⟨h1, h2⟩ := hi j i
  refine ⟨?_, ?_⟩
  · rw [show (if i = j then (1 : K) else 0) = if j = i then 1 else 0 from by simp [eq_comm], ← h2]
    exact Finset.sum_congr rfl fun k _ => mul_comm _ _
  · rw [show (if i = j then (1 : K) else 0) = if j = i then 1 else 0 from by simp [eq_comm], ← h1]
    exact Finset.sum_congr rfl fun k _ => mul_comm _ _

/-- Two inverses of the same matrix agree. -/
theorem InverseOf.unique {A B C : Dense n K} (hB : InverseOf A B) (hC : InverseOf A C) : B = C := by
  have h1 : Matrix.of B * Matrix.of A = 1 := by
    ext i j; simp only [Matrix.mul_apply, Matrix.of_apply, Matrix.one_apply]; exact (hB i j).1
  have h2 : Matrix.of A * Matrix.of C = 1 := by
    ext i j; simp only [Matrix.mul_apply, Matrix.of_apply, Matrix.one_apply]; exact (hC i j).2
  have : Matrix.of B = Matrix.of C := by
    calc Matrix.of B = Matrix.of B * (Matrix.of A * Matrix.of C) := by rw [h2, mul_one]
      _ = Matrix.of C := by rw [← mul_assoc, h1, one_mul]
  funext i j
  exact congrFun (congrFun this i) j

end invert

section order
variable {n : ℕ} {K : Type} [Field K] [LinearOrder K] [IsStrictOrderedRing K]

/-- **C65.** Every matrix with a positive definite quadratic form (elastic stiffness, compliance,
acoustic tensor) is inverted, whatever its size. -/
theorem C65_positive_definite (A : Dense n K) (h : PosForm A) :
    (invertMatrix A).finished = true ∧ InverseOf A (invertMatrix A).mat := by
  have hf : (invertMatrix A).finished = true := by
    rw [C65_finished_iff]
    intro m x hx h0
    by_contra hne
    have hp := h x hne
    have : ∑ i, ∑ j, x i * A i j * x j = 0 := by
      refine Finset.sum_eq_zero fun i _ => ?_
      by_cases hi : m < i
      · rw [hx i hi]; simp
      · have := h0 i (not_lt.mp hi)
        calc ∑ j, x i * A i j * x j = x i * ∑ j, A i j * x j := by
              rw [Finset.mul_sum]; exact Finset.sum_congr rfl fun j _ => by ring
          _ = 0 := by rw [this, mul_zero]
    rw [this] at hp
    exact lt_irrefl _ hp
  exact ⟨hf, C65_inverse A hf⟩

/-- The inverse of a matrix with a positive definite form has a positive definite form. -/
theorem InverseOf.posForm {A B : Dense n K} (hi : InverseOf A B) (h : PosForm A) : PosForm B := by
  intro x hx
  have key : ∀ i, ∑ k, A i k * (∑ j, B k j * x j) = x i := by
    intro i
    calc ∑ k, A i k * (∑ j, B k j * x j) = ∑ j, (∑ k, A i k * B k j) * x j := by
          simp only [Finset.mul_sum, Finset.sum_mul]
          rw [Finset.sum_comm]
          exact Finset.sum_congr rfl fun j _ => Finset.sum_congr rfl fun k _ => by ring
      _ = x i := by
          simp only [(hi i _).2, ite_mul, one_mul, zero_mul, Finset.sum_ite_eq, Finset.mem_univ,
            if_true]
  set y : Fin n → K := fun k => ∑ j, B k j * x j with hy
  have hy0 : y ≠ 0 := by
    intro h0
    apply hx
    funext i
    rw [← key i]
    have : ∀ k, (∑ j, B k j * x j) = 0 := fun k => congrFun h0 k
    simp [this]
  have hp := h y hy0
  have e : ∑ i, ∑ j, x i * B i j * x j = ∑ i, ∑ j, y i * A i j * y j := by
    have e1 : ∑ i, ∑ j, x i * B i j * x j = ∑ i, x i * y i := by
      refine Finset.sum_congr rfl fun i _ => ?_
      rw [hy, Finset.mul_sum]
      exact Finset.sum_congr rfl fun j _ => by ring
    have e2 : ∑ i, ∑ j, y i * A i j * y j = ∑ i, y i * x i := by
      refine Finset.sum_congr rfl fun i _ => ?_
      rw [← key i, Finset.mul_sum]
      exact Finset.sum_congr rfl fun j _ => by rw [hy]; ring
    rw [e1, e2]
    exact Finset.sum_congr rfl fun i _ => mul_comm _ _
  rw [e]; exact hp

/-- **C65.** `solve_linear_system` (partial pivoting) reports 0 exactly when the matrix is regular,
and then leaves the one solution of the system in the right-hand side; otherwise it reports 1. -/
theorem C65_solve (A : Dense n K) (b : Fin n → K) :
    ((solveLinearSystem A b).1 = 0 ∨ (solveLinearSystem A b).1 = 1) ∧
    ((solveLinearSystem A b).1 = 0 ↔
      ∀ x : Fin n → K, (∀ r, ∑ c, A r c * x c = 0) → x = 0) ∧
    ((solveLinearSystem A b).1 = 0 →
      ∀ x : Fin n → K, (∀ r, ∑ c, A r c * x c = b r) ↔ x = (solveLinearSystem A b).2.b) := by
  have hs := slsLoop_spec A b (List.finRange n) 0 { A := A, b := b } (finRange_map_val n)
    (by intro r c h; omega) (fun x => Iff.rfl) (fun x h => h)
  rcases hs with ⟨h0, hx⟩ | ⟨h1, x, hx, hk⟩
  · refine ⟨Or.inl h0, ⟨fun _ x hxk => ?_, fun _ => h0⟩, fun _ => hx⟩
    have hsol := (hx (slsLoop (List.finRange n) { A := A, b := b }).2.b).mpr rfl
    have := (hx (fun c => (slsLoop (List.finRange n) { A := A, b := b }).2.b c + x c)).mp (by
      intro r
      simp only [mul_add, Finset.sum_add_distrib, hsol r, hxk r, add_zero])
    funext c
    have hc := congrFun this c
    simpa using hc
  · have h1' : (solveLinearSystem A b).1 = 1 := h1
    refine ⟨Or.inr h1, ?_, ?_⟩
    · rw [h1']
      constructor
      · intro h; exact absurd h one_ne_zero
      · intro h; exact absurd (h x hk) hx
    · intro h; rw [h1'] at h; exact absurd h one_ne_zero

end order

section power
variable {K : Type} [Field K]

/-- **C65.** `PowIntExpo` is the integer power, for every base and every nonnegative exponent, and for
every nonzero base and every exponent. -/
theorem C65_power (base : K) (e : ℤ) (_h : base ≠ 0 ∨ 0 ≤ e) : powIntExpo base e = base ^ e := by
  unfold powIntExpo
  split_ifs with h0 h1
  · subst h0; simp
  · subst h1; simp
  · rename_i hneg
    dsimp only
    rw [powLoop_eq, one_mul]
    · have : e = -(e.natAbs : ℤ) := by omega
      conv_rhs => rw [this]
      rw [zpow_neg, zpow_natCast, one_div]
  · rename_i hneg
    dsimp only
    rw [powLoop_eq, one_mul]
    have : e = (e.natAbs : ℤ) := by omega
    conv_rhs => rw [this]
    rw [zpow_natCast]

example : powIntExpo (2 : ℚ) (-3) = 1 / 8 := by
  rw [C65_power _ _ (Or.inl (by norm_num))]; norm_num

end power

/-! ### Witnesses -/

/-- **C65.** The regular matrix `[[0,1],[2,0]]` is left as it was and the flag still reports success: a caller testing
the flag cannot tell that its argument was not inverted. -/
theorem C65_regular_fails :
    ∃ A B : Dense 2 ℚ, InverseOf A B ∧ (invertMatrix A).errorFlag = 0 ∧ (invertMatrix A).mat = A ∧
      ¬ InverseOf A (invertMatrix A).mat := by
  refine ⟨![![0, 1], ![2, 0]], ![![0, 1 / 2], ![1, 0]], ?_, C65_flag _, ?_, ?_⟩
  · intro i j
    fin_cases i <;> fin_cases j <;> simp [Fin.sum_univ_two]
  · have h : List.finRange 2 = [0, 1] := rfl
    simp [invertMatrix, h, gjLoop]
  · intro h
    have h2 : List.finRange 2 = [0, 1] := rfl
    have e : (invertMatrix (![![0, 1], ![2, 0]] : Dense 2 ℚ)).mat = ![![0, 1], ![2, 0]] := by
      simp [invertMatrix, h2, gjLoop]
    rw [e] at h
    have := (h 0 0).1
    simp [Fin.sum_univ_two] at this

/-- **C65.** The matrix inverted in every Newton step of the stress update is `1 + C₀ M` with `C₀` and
`M` symmetric positive definite.  It is always regular, but its first pivot can be zero: then the Newton
update silently uses the unreduced matrix in place of its inverse. -/
theorem C65_newton_matrix_fails :
    ∃ C M : Dense 2 ℚ, PosForm C ∧ PosForm M ∧ (∀ i j, C i j = C j i) ∧ (∀ i j, M i j = M j i) ∧
      (let J : Dense 2 ℚ := fun i j => (if i = j then 1 else 0) + ∑ k, C i k * M k j
       (∀ x : Fin 2 → ℚ, (∀ r, ∑ c, J r c * x c = 0) → x = 0) ∧
        (invertMatrix J).finished = false ∧ (invertMatrix J).mat = J ∧
        (invertMatrix J).errorFlag = 0) := by
  refine ⟨![![1, -2], ![-2, 5]], ![![1, 1], ![1, 2]], ?_, ?_, ?_, ?_, ?_⟩
  · intro x hx
    have hne : x 0 ≠ 0 ∨ x 1 ≠ 0 := by
      by_contra hh; push Not at hh
      exact hx (by funext i; fin_cases i <;> simp [hh.1, hh.2])
    simp only [Fin.sum_univ_two, Matrix.cons_val_zero, Matrix.cons_val_one]
    have : x 0 * 1 * x 0 + x 0 * (-2) * x 1 + (x 1 * (-2) * x 0 + x 1 * 5 * x 1) =
        (x 0 - 2 * x 1) ^ 2 + x 1 ^ 2 := by ring
    rw [this]
    by_cases h1 : x 1 = 0
    · have h0 : x 0 ≠ 0 := by tauto
      rw [h1]; simp; positivity
    · positivity
  · intro x hx
    have hne : x 0 ≠ 0 ∨ x 1 ≠ 0 := by
      by_contra hh; push Not at hh
      exact hx (by funext i; fin_cases i <;> simp [hh.1, hh.2])
    simp only [Fin.sum_univ_two, Matrix.cons_val_zero, Matrix.cons_val_one]
    have : x 0 * 1 * x 0 + x 0 * 1 * x 1 + (x 1 * 1 * x 0 + x 1 * 2 * x 1) =
        (x 0 + x 1) ^ 2 + x 1 ^ 2 := by ring
    rw [this]
    by_cases h1 : x 1 = 0
    · have h0 : x 0 ≠ 0 := by tauto
      rw [h1]; simp; positivity
    · positivity
  · intro i j; fin_cases i <;> fin_cases j <;> rfl
  · intro i j; fin_cases i <;> fin_cases j <;> rfl
  · have hJ : (fun i j : Fin 2 => (if i = j then (1 : ℚ) else 0) +
        ∑ k, (![![1, -2], ![-2, 5]] : Dense 2 ℚ) i k * (![![1, 1], ![1, 2]] : Dense 2 ℚ) k j) =
        ![![0, -3], ![3, 9]] := by
      funext i j
      fin_cases i <;> fin_cases j <;> simp [Fin.sum_univ_two] <;> norm_num
    have h2 : List.finRange 2 = [0, 1] := rfl
    dsimp only
    rw [hJ]
    refine ⟨?_, ?_, ?_, C65_flag _⟩
    · intro x hx
      have h0 := hx 0
      have h1 := hx 1
      simp [Fin.sum_univ_two] at h0 h1
      have e1 : x 1 = 0 := by linarith
      have e0 : x 0 = 0 := by linarith
      funext i
      fin_cases i
      · exact e0
      · exact e1
    · simp [invertMatrix, h2, gjLoop]
    · simp [invertMatrix, h2, gjLoop]

/-- A 3×3 matrix with a positive definite form. -/
def spdWitness : Dense 3 ℚ := ![![2, 1, 0], ![-1, 2, 1], ![0, 1, 2]]

example : PosForm spdWitness := by
  intro x hx
  have hne : x 0 ≠ 0 ∨ x 1 ≠ 0 ∨ x 2 ≠ 0 := by
    by_contra hh; push Not at hh
    exact hx (by funext i; fin_cases i <;> simp [hh.1, hh.2.1, hh.2.2])
  have e : ∑ i, ∑ j, x i * spdWitness i j * x j =
      x 0 ^ 2 + x 0 ^ 2 + x 1 ^ 2 + x 2 ^ 2 + (x 1 + x 2) ^ 2 := by
    simp [Fin.sum_univ_three, spdWitness]; ring
  rw [e]
  rcases hne with h | h | h
  · have := pow_pos (abs_pos.mpr h) 2
    rw [sq_abs] at this; nlinarith [sq_nonneg (x 1), sq_nonneg (x 2), sq_nonneg (x 1 + x 2)]
  · have := pow_pos (abs_pos.mpr h) 2
    rw [sq_abs] at this; nlinarith [sq_nonneg (x 0), sq_nonneg (x 2), sq_nonneg (x 1 + x 2)]
  · have := pow_pos (abs_pos.mpr h) 2
    rw [sq_abs] at this; nlinarith [sq_nonneg (x 1), sq_nonneg (x 0), sq_nonneg (x 1 + x 2)]

/-- A matrix that needs a row exchange is solved by `solve_linear_system`. -/
example : (solveLinearSystem (![![0, 1], ![2, 0]] : Dense 2 ℚ) ![3, 4]).1 = 0 := by
  rw [(C65_solve _ _).2.1]
  intro x hx
  have h0 := hx 0
  have h1 := hx 1
  simp [Fin.sum_univ_two] at h0 h1
  funext i
  fin_cases i
  · exact h1
  · exact h0

end Fierro
