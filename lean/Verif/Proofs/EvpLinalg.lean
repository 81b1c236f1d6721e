import Verif.Model.EvpLinalg
import Mathlib.LinearAlgebra.Matrix.NonsingularInverse
import Mathlib.LinearAlgebra.Matrix.Block
import Mathlib.LinearAlgebra.Matrix.ToLinearEquiv
import Mathlib.Tactic.FieldSimp
import Mathlib.Tactic.Ring
import Mathlib.Tactic.Linarith

/-!
# Helper lemmas for the EVPFFT linear algebra
-/

set_option linter.unusedSectionVars false

namespace Fierro

open Matrix

section gj
variable {n : ℕ} {K : Type} [Field K]

theorem scaleRow_mul (B : Dense n K) (A0 : Matrix (Fin n) (Fin n) K) (r : Fin n) (f : K) :
    (Matrix.of (scaleRow B r f)) * A0 = Matrix.of (scaleRow (Matrix.of B * A0) r f) := by
  ext i j
  simp only [Matrix.mul_apply, scaleRow, Matrix.of_apply]
  split_ifs
  · rw [Finset.sum_mul]; refine Finset.sum_congr rfl fun k _ => by ring
  · rfl

theorem addRows_mul (B : Dense n K) (A0 : Matrix (Fin n) (Fin n) K) (s d : Fin n) (f : K) :
    (Matrix.of (addRows B s d f)) * A0 = Matrix.of (addRows (Matrix.of B * A0) s d f) := by
  ext i j
  simp only [Matrix.mul_apply, addRows, Matrix.of_apply]
  split_ifs
  · rw [Finset.sum_mul, ← Finset.sum_add_distrib]; refine Finset.sum_congr rfl fun k _ => by ring
  · rfl

/-- `inv * A0 = mat` is kept by the elimination of one row. -/
theorem gjElim_mul (A0 : Matrix (Fin n) (Fin n) K) (i : Fin n) (s : GjState n K) (j : Fin n)
    (h : Matrix.of s.inv * A0 = Matrix.of s.mat) :
    Matrix.of (gjElim i s j).inv * A0 = Matrix.of (gjElim i s j).mat := by
  unfold gjElim
  split_ifs
  · show Matrix.of (addRows s.inv i j _) * A0 = Matrix.of (addRows s.mat i j _)
    rw [addRows_mul, h]; rfl
  · exact h

theorem gjElims_mul (A0 : Matrix (Fin n) (Fin n) K) (i : Fin n) (l : List (Fin n)) :
    ∀ s : GjState n K, Matrix.of s.inv * A0 = Matrix.of s.mat →
      Matrix.of (l.foldl (gjElim i) s).inv * A0 = Matrix.of (l.foldl (gjElim i) s).mat := by
  induction l with
  | nil => intro s h; exact h
  | cons j l ih => intro s h; exact ih _ (gjElim_mul A0 i s j h)

theorem gjStep_mul (A0 : Matrix (Fin n) (Fin n) K) (i : Fin n) (s : GjState n K)
    (h : Matrix.of s.inv * A0 = Matrix.of s.mat) :
    Matrix.of (gjStep i s).inv * A0 = Matrix.of (gjStep i s).mat := by
  unfold gjStep
  apply gjElims_mul
  show Matrix.of (scaleRow s.inv i _) * A0 = Matrix.of (scaleRow s.mat i _)
  rw [scaleRow_mul, h]; rfl

theorem gjElims_closed (i : Fin n) (l : List (Fin n)) (hl : l.Nodup) :
    ∀ s : GjState n K, ∀ r c,
      (l.foldl (gjElim i) s).mat r c =
        (if r ∈ l ∧ r ≠ i then s.mat r c - s.mat r i * s.mat i c else s.mat r c) ∧
      (l.foldl (gjElim i) s).inv r c =
        (if r ∈ l ∧ r ≠ i then s.inv r c - s.mat r i * s.inv i c else s.inv r c) := by
  induction l with
  | nil => intro s r c; simp
  | cons j l ih =>
    intro s r c
    have hj : j ∉ l := (List.nodup_cons.mp hl).1
    obtain ⟨h1, h2⟩ := ih (List.nodup_cons.mp hl).2 (gjElim i s j) r c
    rw [List.foldl_cons, h1, h2]
    by_cases hji : j = i
    · subst hji
      have e : gjElim j s j = s := by simp [gjElim]
      rw [e]
      constructor <;> · congr 1; simp only [List.mem_cons, eq_iff_iff]; tauto
    · have e : gjElim i s j = { mat := addRows s.mat i j (-s.mat j i),
                                inv := addRows s.inv i j (-s.mat j i) } := by
        simp [gjElim, hji]
      rw [e]
      by_cases hrj : r = j
      · subst hrj
        have : ¬ (i = r) := fun h => hji h.symm
        simp only [addRows, hj, false_and, if_false, List.mem_cons, true_or, true_and,
          if_true, ne_eq, hji, not_false_eq_true]
        constructor <;> ring
      · have hij : ¬ (i = j) := fun h => hji h.symm
        simp [addRows, hrj, hij]

theorem gjStep_closed (i : Fin n) (s : GjState n K) (r c : Fin n) :
    (gjStep i s).mat r c =
        (if r = i then s.mat i c / s.mat i i else s.mat r c - s.mat r i * (s.mat i c / s.mat i i)) ∧
    (gjStep i s).inv r c =
        (if r = i then s.inv i c / s.mat i i else s.inv r c - s.mat r i * (s.inv i c / s.mat i i)) := by
  have := gjElims_closed i (List.finRange n) (List.nodup_finRange n)
    { mat := scaleRow s.mat i (1 / s.mat i i), inv := scaleRow s.inv i (1 / s.mat i i) } r c
  unfold gjStep
  dsimp only
  rw [this.1, this.2]
  by_cases hri : r = i
  · subst hri
    simp [scaleRow, div_eq_mul_inv]
  · simp [scaleRow, hri, div_eq_mul_inv]

/-- State of the elimination after the first `m` columns. -/
structure GjInv (A0 : Dense n K) (m : ℕ) (s : GjState n K) : Prop where
  mul : Matrix.of s.inv * Matrix.of A0 = Matrix.of s.mat
  done : ∀ r c : Fin n, (c : ℕ) < m → s.mat r c = if r = c then 1 else 0
  todo : ∀ r c : Fin n, m ≤ (c : ℕ) → s.inv r c = if r = c then 1 else 0

theorem gjInv_start (A0 : Dense n K) : GjInv A0 0 { mat := A0, inv := denseId } where
  mul := by
    have : (Matrix.of (denseId : Dense n K)) = 1 := by
      ext i j; simp [denseId, Matrix.one_apply]
    rw [this, one_mul]
  done := by intro r c h; omega
  todo := by intro r c _; rfl

theorem gjInv_step (A0 : Dense n K) (i : Fin n) (s : GjState n K) (h : GjInv A0 i s)
    (hp : s.mat i i ≠ 0) : GjInv A0 (i + 1) (gjStep i s) where
  mul := gjStep_mul _ i s h.mul
  done := by
    intro r c hc
    rw [(gjStep_closed i s r c).1]
    by_cases hci : c = i
    · subst hci
      by_cases hr : r = c
      · subst hr; simp [hp]
      · simp [hr, hp]
    · have hlt : (c : ℕ) < i := by
        have : (c : ℕ) ≠ i := fun h => hci (Fin.ext h)
        omega
      have h1 := h.done i c hlt
      have h2 := h.done r c hlt
      have : ¬ (i = c) := fun h => hci h.symm
      rw [if_neg this] at h1
      rw [h1, h2]
      by_cases hr : r = i
      · subst hr; simp [this]
      · simp [hr]
  todo := by
    intro r c hc
    rw [(gjStep_closed i s r c).2]
    have h1 := h.todo i c (by omega)
    have h2 := h.todo r c (by omega)
    have hic : ¬ (i = c) := fun h => by subst h; omega
    rw [if_neg hic] at h1
    rw [h1, h2]
    by_cases hr : r = i
    · subst hr; simp [hic]
    · simp [hr]

/-- Leading principal submatrix with `m` rows. -/
def leading (A : Dense n K) (m : ℕ) (hm : m ≤ n) : Matrix (Fin m) (Fin m) K :=
  Matrix.of fun i j => A (Fin.castLE hm i) (Fin.castLE hm j)

theorem leading_mul (A0 : Dense n K) (m : ℕ) (s : GjState n K) (h : GjInv A0 m s) (q : ℕ)
    (hq : q ≤ n) (hmq : m ≤ q) :
    leading s.inv q hq * leading A0 q hq = leading s.mat q hq := by
  ext r c
  have e := congrFun (congrFun h.mul (Fin.castLE hq r)) (Fin.castLE hq c)
  simp only [Matrix.mul_apply, Matrix.of_apply, leading] at e ⊢
  rw [← e]
  have hinj : Function.Injective (Fin.castLE hq) := Fin.castLE_injective hq
  rw [← Finset.sum_image (s := Finset.univ) (g := Fin.castLE hq)
    (f := fun k => s.inv (Fin.castLE hq r) k * A0 k (Fin.castLE hq c))
    (fun a _ b _ h => hinj h)]
  refine Finset.sum_subset (Finset.subset_univ _) ?_
  intro k _ hk
  have hkq : q ≤ (k : ℕ) := by
    by_contra hlt
    exact hk (Finset.mem_image.mpr ⟨⟨k, by omega⟩, Finset.mem_univ _, Fin.ext rfl⟩)
  have : ¬ (Fin.castLE hq r = k) := fun h => by
    have := congrArg Fin.val h
    have hr := r.isLt
    simp at this; omega
  rw [h.todo _ _ (by omega), if_neg this, zero_mul]

theorem leading_inv_det (A0 : Dense n K) (m : ℕ) (s : GjState n K) (h : GjInv A0 m s)
    (hm : m + 1 ≤ n) : (leading s.inv (m + 1) hm).det ≠ 0 := by
  have e1 : leading s.inv m (by omega) * leading A0 m (by omega) = 1 := by
    rw [leading_mul A0 m s h m (by omega) le_rfl]
    ext r c
    simp only [leading, Matrix.of_apply, Matrix.one_apply]
    rw [h.done _ _ (by simp)]
    simp [Fin.ext_iff]
  have d1 : (leading s.inv m (by omega)).det ≠ 0 := by
    intro h0
    have := congrArg Matrix.det e1
    rw [Matrix.det_mul, h0, zero_mul, Matrix.det_one] at this
    exact zero_ne_one this
  rw [Matrix.det_succ_column _ (Fin.last m), Finset.sum_eq_single (Fin.last m)]
  · have : leading s.inv (m + 1) hm (Fin.last m) (Fin.last m) = 1 := by
      simp only [leading, Matrix.of_apply]
      rw [h.todo _ _ (by simp)]; simp
    rw [this]
    have e2 : (leading s.inv (m + 1) hm).submatrix (Fin.last m).succAbove (Fin.last m).succAbove
        = leading s.inv m (by omega) := by
      ext r c
      simp [leading]
    rw [e2]
    simp only [Fin.val_last, mul_one]
    have hs : ((-1 : K)) ^ (m + m) = 1 := by rw [← two_mul, pow_mul]; simp
    rw [hs, one_mul]; exact d1
  · intro b _ hb
    have : leading s.inv (m + 1) hm b (Fin.last m) = 0 := by
      simp only [leading, Matrix.of_apply]
      rw [h.todo _ _ (by simp), if_neg]
      intro hh
      apply hb
      have := congrArg Fin.val hh
      exact Fin.ext (by simpa using this)
    rw [this]; ring
  · intro hh; exact absurd (Finset.mem_univ _) hh

/-- The pivot met at step `i` is nonzero exactly when the leading submatrix with `i + 1` rows is
nonsingular. -/
theorem pivot_ne_zero_iff (A0 : Dense n K) (i : Fin n) (s : GjState n K) (h : GjInv A0 i s) :
    s.mat i i ≠ 0 ↔ (leading A0 (i + 1) i.isLt).det ≠ 0 := by
  have e := congrArg Matrix.det (leading_mul A0 i s h (i + 1) i.isLt (by omega))
  rw [Matrix.det_mul] at e
  have d : (leading s.mat (i + 1) i.isLt).det = s.mat i i := by
    have ht : (leading s.mat (i + 1) i.isLt).BlockTriangular id := by
      intro r c hrc
      simp only [id] at hrc
      simp only [leading, Matrix.of_apply]
      have hc : (c : ℕ) < i := by
        have := r.isLt
        have h2 : (c : ℕ) < r := hrc
        omega
      rw [h.done _ _ (by simpa using hc), if_neg]
      intro hh
      have := congrArg Fin.val hh
      have h2 : (c : ℕ) < r := hrc
      simp at this; omega
    rw [Matrix.det_of_isUpperTriangular ht, Fin.prod_univ_castSucc]
    have : ∀ k : Fin i, leading s.mat (i + 1) i.isLt k.castSucc k.castSucc = 1 := by
      intro k
      simp only [leading, Matrix.of_apply]
      rw [h.done _ _ (by simp), if_pos rfl]
    rw [Finset.prod_congr rfl (fun k _ => this k), Finset.prod_const_one, one_mul]
    rfl
  rw [d] at e
  have hb := leading_inv_det A0 i s h i.isLt
  rw [← e]
  constructor
  · intro hne h0; apply hne; rw [h0, mul_zero]
  · intro hne; exact mul_ne_zero hb hne

variable [DecidableEq K]

/-- The loop over the columns `m, m+1, …`. -/
theorem gjLoop_spec (A0 : Dense n K) : ∀ (l : List (Fin n)) (m : ℕ) (s : GjState n K),
    l.map Fin.val = (List.range' m (n - m)) → GjInv A0 m s →
    ((gjLoop l s).finished = true ↔ ∀ i : Fin n, m ≤ (i : ℕ) →
        (leading A0 (i + 1) i.isLt).det ≠ 0) ∧
    ((gjLoop l s).finished = true → Matrix.of (gjLoop l s).mat * Matrix.of A0 = 1) ∧
    (gjLoop l s).errorFlag = 0 := by
  intro l
  induction l with
  | nil =>
    intro m s hl h
    have hnm : n ≤ m := by
      have := congrArg List.length hl
      simp at this; omega
    refine ⟨?_, ?_, rfl⟩
    · constructor
      · intro _ i hi; have := i.isLt; omega
      · intro _; rfl
    · intro _
      show Matrix.of s.inv * Matrix.of A0 = 1
      rw [h.mul]
      ext r c
      simp only [Matrix.of_apply, Matrix.one_apply]
      exact h.done r c (by have := c.isLt; omega)
  | cons i is ih =>
    intro m s hl h
    have hmn : m < n := by
      by_contra hh
      have := congrArg List.length hl
      simp at this; omega
    have hr : List.range' m (n - m) = m :: List.range' (m + 1) (n - (m + 1)) := by
      have : n - m = (n - (m + 1)) + 1 := by omega
      rw [this, List.range'_succ]
    rw [hr, List.map_cons, List.cons.injEq] at hl
    obtain ⟨him, hl'⟩ := hl
    have hi : GjInv A0 i s := by rw [him]; exact h
    have hpiv := pivot_ne_zero_iff A0 i s hi
    by_cases hp : s.mat i i = 0
    · have e : gjLoop (i :: is) s = { errorFlag := 0, mat := s.mat, finished := false } := by
        simp [gjLoop, hp]
      rw [e]
      refine ⟨?_, by simp, rfl⟩
      constructor
      · intro hh; simp at hh
      · intro hall
        exact absurd hp (hpiv.mpr (hall i (by omega)))
    · have e : gjLoop (i :: is) s = gjLoop is (gjStep i s) := by simp [gjLoop, hp]
      rw [e]
      have h' : GjInv A0 (m + 1) (gjStep i s) := by
        have := gjInv_step A0 i s hi hp
        rwa [him] at this
      obtain ⟨a, b, c⟩ := ih (m + 1) (gjStep i s) hl' h'
      refine ⟨?_, b, c⟩
      rw [a]
      constructor
      · intro hall k hk
        by_cases hkm : (k : ℕ) = m
        · have : k = i := Fin.ext (by omega)
          rw [this]; exact hpiv.mp hp
        · exact hall k (by omega)
      · intro hall k hk; exact hall k (by omega)

end gj

section pow
variable {K : Type} [Field K]

theorem powLoop_eq : ∀ (e : ℕ) (result base : K), powLoop result base e = result * base ^ e := by
  intro e
  induction e using Nat.strong_induction_on with
  | _ e ih =>
    intro result base
    rw [powLoop]
    split_ifs with h0 h1
    · subst h0; simp
    · rw [ih (e / 2) (by omega)]
      have : e = 2 * (e / 2) + 1 := by omega
      conv_rhs => rw [this, pow_succ, pow_mul]
      rw [pow_two]; ring
    · rw [ih (e / 2) (by omega)]
      have : e = 2 * (e / 2) := by omega
      conv_rhs => rw [this, pow_mul]
      rw [pow_two]

end pow

section sls
variable {n : ℕ} {K : Type} [Field K] [LinearOrder K]

/-- The linear system of a state. -/
def SlsState.Sol (s : SlsState n K) (x : Fin n → K) : Prop := ∀ r, ∑ c, s.A r c * x c = s.b r

theorem slsSwap_sol (s : SlsState n K) (i p : Fin n) (x : Fin n → K) :
    (slsSwap s i p).Sol x ↔ s.Sol x := by
  unfold slsSwap
  split_ifs with h
  · constructor
    · intro hx r
      by_cases h1 : r = i
      · subst h1
        have := hx p
        simpa [swapRows, h] using this
      · by_cases h2 : r = p
        · subst h2
          have := hx i
          simpa [swapRows] using this
        · have := hx r
          simpa [swapRows, h1, h2] using this
    · intro hx r
      by_cases h1 : r = i
      · subst h1; simpa [swapRows] using hx p
      · by_cases h2 : r = p
        · subst h2; simpa [swapRows, h1] using hx i
        · simpa [swapRows, h1, h2] using hx r
  · rfl

/-- Columns before `m` are already those of the identity. -/
def SlsDone (m : ℕ) (A : Dense n K) : Prop :=
  ∀ r c : Fin n, (c : ℕ) < m → A r c = if r = c then 1 else 0

theorem slsNormalise_row (s : SlsState n K) (i : Fin n) (hd : SlsDone (n := n) i s.A) (r c : Fin n) :
    (slsNormalise s i).A r c = if r = i then s.A r c / s.A i i else s.A r c := by
  by_cases hr : r = i
  · subst hr
    by_cases hc : r ≤ c
    · simp [slsNormalise, hc]
    · have h0 := hd r c (not_le.mp hc)
      have : ¬ (r = c) := fun h => hc (h ▸ le_rfl)
      rw [if_neg this] at h0
      simp [slsNormalise, hc, h0]
  · simp [slsNormalise, hr]

theorem slsNormalise_sol (s : SlsState n K) (i : Fin n) (hd : SlsDone (n := n) i s.A)
    (hp : s.A i i ≠ 0) (x : Fin n → K) : (slsNormalise s i).Sol x ↔ s.Sol x := by
  have key : ∀ r, (∑ c, (slsNormalise s i).A r c * x c = (slsNormalise s i).b r) ↔
      (∑ c, s.A r c * x c = s.b r) := by
    intro r
    simp only [slsNormalise_row s i hd]
    by_cases hr : r = i
    · subst hr
      have : ∑ c, (s.A r c / s.A r r) * x c = (∑ c, s.A r c * x c) / s.A r r := by
        rw [div_eq_mul_inv, Finset.sum_mul]
        refine Finset.sum_congr rfl fun c _ => by rw [div_eq_mul_inv]; ring
      simp only [if_true, this, slsNormalise]
      rw [div_left_inj' hp]
    · simp [hr, slsNormalise]
  exact forall_congr' key

theorem slsElims_spec (i : Fin n) (l : List (Fin n)) (hl : l.Nodup) :
    ∀ s : SlsState n K, (∀ c, c < i → s.A i c = 0) → ∀ r,
      (∀ c, (l.foldl (slsElim i) s).A r c =
        if r ∈ l ∧ r ≠ i then s.A r c - s.A r i * s.A i c else s.A r c) ∧
      (l.foldl (slsElim i) s).b r =
        if r ∈ l ∧ r ≠ i then s.b r - s.A r i * s.b i else s.b r := by
  induction l with
  | nil => intro s _ r; simp
  | cons j l ih =>
    intro s hz r
    have hj : j ∉ l := (List.nodup_cons.mp hl).1
    by_cases hji : j = i
    · subst hji
      have e : slsElim j s j = s := by simp [slsElim]
      obtain ⟨h1, h2⟩ := ih (List.nodup_cons.mp hl).2 s hz r
      rw [List.foldl_cons, e]
      refine ⟨fun c => ?_, ?_⟩
      · rw [h1]; congr 1; simp only [List.mem_cons, eq_iff_iff]; tauto
      · rw [h2]; congr 1; simp only [List.mem_cons, eq_iff_iff]; tauto
    · have eA : ∀ r c, (slsElim i s j).A r c =
          if r = j then s.A r c - s.A j i * s.A i c else s.A r c := by
        intro r c
        by_cases hr : r = j
        · subst hr
          by_cases hc : i ≤ c
          · simp [slsElim, hji, hc]
          · simp [slsElim, hji, hc, hz c (not_le.mp hc)]
        · simp [slsElim, hji, hr]
      have eb : ∀ r, (slsElim i s j).b r =
          if r = j then s.b r - s.A j i * s.b i else s.b r := by
        intro r; simp [slsElim, hji]
      have hij : ¬ (i = j) := fun h => hji h.symm
      have hz' : ∀ c, c < i → (slsElim i s j).A i c = 0 := by
        intro c hc; rw [eA, if_neg hij, hz c hc]
      obtain ⟨h1, h2⟩ := ih (List.nodup_cons.mp hl).2 (slsElim i s j) hz' r
      rw [List.foldl_cons]
      refine ⟨fun c => ?_, ?_⟩
      · rw [h1]
        simp only [eA, if_neg hij, List.mem_cons]
        by_cases hr : r = j
        · subst hr; simp [hj, hji]
        · simp [hr]
      · rw [h2]
        simp only [eA, eb, if_neg hij, List.mem_cons]
        by_cases hr : r = j
        · subst hr; simp [hj, hji]
        · simp [hr]

theorem slsElims_sol (i : Fin n) (s : SlsState n K) (hz : ∀ c, c < i → s.A i c = 0)
    (x : Fin n → K) : ((List.finRange n).foldl (slsElim i) s).Sol x ↔ s.Sol x := by
  have hsp := slsElims_spec i (List.finRange n) (List.nodup_finRange n) s hz
  have hrow : ∀ r, r ≠ i →
      ((∑ c, ((List.finRange n).foldl (slsElim i) s).A r c * x c =
        ((List.finRange n).foldl (slsElim i) s).b r) ↔
      (∑ c, s.A r c * x c) - s.A r i * (∑ c, s.A i c * x c) = s.b r - s.A r i * s.b i) := by
    intro r hr
    obtain ⟨h1, h2⟩ := hsp r
    simp only [h1, h2, List.mem_finRange, true_and, ne_eq, hr, not_false_eq_true, if_true]
    rw [Finset.mul_sum, ← Finset.sum_sub_distrib]
    constructor <;>
    · intro h
      rw [← h]
      exact Finset.sum_congr rfl fun c _ => by ring
  have hi : (∑ c, ((List.finRange n).foldl (slsElim i) s).A i c * x c =
        ((List.finRange n).foldl (slsElim i) s).b i) ↔ (∑ c, s.A i c * x c = s.b i) := by
    obtain ⟨h1, h2⟩ := hsp i
    simp [h1, h2]
  constructor
  · intro hx r
    have hxi := hi.mp (hx i)
    by_cases hr : r = i
    · rw [hr]; exact hxi
    · have := (hrow r hr).mp (hx r)
      rw [hxi] at this
      exact sub_left_inj.mp this
  · intro hx r
    by_cases hr : r = i
    · rw [hr]; exact hi.mpr (hx i)
    · rw [hrow r hr, hx r, hx i]

end sls

section slsOrd
variable {n : ℕ} {K : Type} [Field K] [LinearOrder K] [IsStrictOrderedRing K]

theorem slsPivot_fold (A : Dense n K) (i : Fin n) (l : List (Fin n)) :
    ∀ p : Fin n, i ≤ p →
      i ≤ l.foldl (fun piv j => if i < j then (if |A j i| > |A piv i| then j else piv) else piv) p ∧
      |A p i| ≤ |A (l.foldl (fun piv j =>
        if i < j then (if |A j i| > |A piv i| then j else piv) else piv) p) i| ∧
      ∀ j ∈ l, i < j → |A j i| ≤ |A (l.foldl (fun piv j =>
        if i < j then (if |A j i| > |A piv i| then j else piv) else piv) p) i| := by
  induction l with
  | nil => intro p hp; exact ⟨hp, le_rfl, by simp⟩
  | cons j l ih =>
    intro p hp
    simp only [List.foldl_cons]
    by_cases hij : i < j
    · by_cases hgt : |A j i| > |A p i|
      · simp only [hij, hgt, if_true]
        obtain ⟨a, b, c⟩ := ih j hij.le
        refine ⟨a, hgt.le.trans b, ?_⟩
        intro k hk hik
        rcases List.mem_cons.mp hk with rfl | hk
        · exact b
        · exact c k hk hik
      · simp only [hij, hgt, if_true, if_false]
        obtain ⟨a, b, c⟩ := ih p hp
        refine ⟨a, b, ?_⟩
        intro k hk hik
        rcases List.mem_cons.mp hk with rfl | hk
        · exact (not_lt.mp hgt).trans b
        · exact c k hk hik
    · simp only [hij, if_false]
      obtain ⟨a, b, c⟩ := ih p hp
      refine ⟨a, b, ?_⟩
      intro k hk hik
      rcases List.mem_cons.mp hk with rfl | hk
      · exact absurd hik hij
      · exact c k hk hik

theorem slsPivotRow_spec (A : Dense n K) (i : Fin n) :
    i ≤ slsPivotRow A i ∧ ∀ j, i ≤ j → |A j i| ≤ |A (slsPivotRow A i) i| := by
  obtain ⟨a, b, c⟩ := slsPivot_fold A i (List.finRange n) i le_rfl
  refine ⟨a, fun j hj => ?_⟩
  rcases hj.lt_or_eq with h | h
  · exact c j (List.mem_finRange j) h
  · subst h; exact b

theorem slsSwap_row (s : SlsState n K) (i p r c : Fin n) :
    (slsSwap s i p).A r c =
      if r = i then s.A p c else if r = p then s.A i c else s.A r c := by
  unfold slsSwap
  split_ifs with h h1 h2 <;> simp_all [swapRows]

theorem slsDone_swap (s : SlsState n K) (i p : Fin n) (hip : i ≤ p) (hd : SlsDone (n := n) i s.A) :
    SlsDone (n := n) i (slsSwap s i p).A := by
  intro r c hc
  rw [slsSwap_row]
  have hp : (c : ℕ) < p := lt_of_lt_of_le hc hip
  have h1 : p ≠ c := fun h => by subst h; exact lt_irrefl _ hp
  have h2 : i ≠ c := fun h => by subst h; exact lt_irrefl _ hc
  split_ifs with a b d e
  · exact absurd (a.symm.trans b) h2
  · rw [hd p c hc, if_neg h1]
  · exact absurd (d.symm.trans e) h1
  · rw [hd i c hc, if_neg h2]
  · rw [hd r c hc, if_pos ‹_›]
  · rw [hd r c hc, if_neg ‹_›]

theorem slsLoop_spec (A0 : Dense n K) (b0 : Fin n → K) :
    ∀ (l : List (Fin n)) (m : ℕ) (s : SlsState n K),
      l.map Fin.val = List.range' m (n - m) → SlsDone (n := n) m s.A →
      (∀ x, s.Sol x ↔ ∀ r, ∑ c, A0 r c * x c = b0 r) →
      (∀ x : Fin n → K, (∀ r, ∑ c, s.A r c * x c = 0) → ∀ r, ∑ c, A0 r c * x c = 0) →
      ((slsLoop l s).1 = 0 ∧ (∀ x, (∀ r, ∑ c, A0 r c * x c = b0 r) ↔ x = (slsLoop l s).2.b)) ∨
      ((slsLoop l s).1 = 1 ∧ ∃ x : Fin n → K, x ≠ 0 ∧ ∀ r, ∑ c, A0 r c * x c = 0) := by
  intro l
  induction l with
  | nil =>
    intro m s hl hd hsol _
    left
    have hnm : n ≤ m := by
      have := congrArg List.length hl
      simp at this; omega
    refine ⟨rfl, fun x => ?_⟩
    rw [← hsol]
    have : ∀ r, ∑ c, s.A r c * x c = x r := by
      intro r
      rw [Finset.sum_eq_single r]
      · rw [hd r r (by have := r.isLt; omega), if_pos rfl, one_mul]
      · intro c _ hc
        rw [hd r c (by have := c.isLt; omega), if_neg (Ne.symm hc), zero_mul]
      · simp
    show (∀ r, ∑ c, s.A r c * x c = s.b r) ↔ x = s.b
    simp only [this]
    exact ⟨fun h => funext h, fun h r => by rw [h]⟩
  | cons i is ih =>
    intro m s hl hd hsol hker
    have hmn : m < n := by
      by_contra hh
      have := congrArg List.length hl
      simp at this; omega
    have hr : List.range' m (n - m) = m :: List.range' (m + 1) (n - (m + 1)) := by
      have : n - m = (n - (m + 1)) + 1 := by omega
      rw [this, List.range'_succ]
    rw [hr, List.map_cons, List.cons.injEq] at hl
    obtain ⟨him, hl'⟩ := hl
    obtain ⟨hpi, hmax⟩ := slsPivotRow_spec s.A i
    have hd0 : SlsDone (n := n) i s.A := by rw [him]; exact hd
    have hdt := slsDone_swap s i (slsPivotRow s.A i) hpi hd0
    by_cases hp : (slsSwap s i (slsPivotRow s.A i)).A i i = 0
    · right
      have e : slsLoop (i :: is) s = (1, slsSwap s i (slsPivotRow s.A i)) := by
        simp [slsLoop, hp]
      rw [e]
      refine ⟨rfl, ?_⟩
      have hcol : ∀ j, i ≤ j → s.A j i = 0 := by
        intro j hj
        rw [slsSwap_row, if_pos rfl] at hp
        have := hmax j hj
        rw [hp, abs_zero] at this
        exact abs_nonpos_iff.mp this
      refine ⟨fun c => if c = i then 1 else if c < i then -s.A c i else 0, ?_, ?_⟩
      · intro h0
        have := congrFun h0 i
        simp at this
      · apply hker
        intro r
        have hterm : ∀ c, s.A r c * (if c = i then 1 else if c < i then -s.A c i else 0) =
            (if c = i then s.A r i else 0) +
              (if c = r then (if r < i then -s.A r i else 0) else 0) := by
          intro c
          by_cases hci : c = i
          · subst hci
            by_cases hcr : c = r
            · subst hcr; simp
            · simp [hcr]
          · by_cases hlt : c < i
            · rw [if_neg hci, if_pos hlt, hd0 r c hlt]
              by_cases hcr : c = r
              · subst hcr; simp [hci, hlt]
              · have : ¬ (r = c) := fun h => hcr h.symm
                simp [hci, hcr, this]
            · by_cases hcr : c = r
              · subst hcr; simp [hci, hlt]
              · simp [hci, hlt, hcr]
        rw [Finset.sum_congr rfl (fun c _ => hterm c), Finset.sum_add_distrib]
        simp only [Finset.sum_ite_eq', Finset.mem_univ, if_true]
        by_cases hri : r < i
        · simp [hri]
        · simp [hri, hcol r (not_lt.mp hri)]
    · have e : slsLoop (i :: is) s = slsLoop is ((List.finRange n).foldl (slsElim i)
          (slsNormalise (slsSwap s i (slsPivotRow s.A i)) i)) := by
        simp [slsLoop, hp]
      rw [e]
      generalize ht : slsSwap s i (slsPivotRow s.A i) = t at *
      have hrowz : ∀ c, c < i → (slsNormalise t i).A i c = 0 := by
        intro c hc
        rw [slsNormalise_row t i hdt, if_pos rfl, hdt i c hc,
          if_neg (fun h => by subst h; exact lt_irrefl _ hc), zero_div]
      have hsp := slsElims_spec i (List.finRange n) (List.nodup_finRange n) (slsNormalise t i) hrowz
      have hdone : SlsDone (n := n) (m + 1)
          ((List.finRange n).foldl (slsElim i) (slsNormalise t i)).A := by
        intro r c hc
        rw [(hsp r).1 c]
        simp only [List.mem_finRange, true_and, slsNormalise_row t i hdt, if_true]
        by_cases hci : c = i
        · subst hci
          by_cases hrc : r = c
          · subst hrc; simp [hp]
          · simp [hrc, hp]
        · have hlt : (c : ℕ) < i := by
            have : (c : ℕ) ≠ i := fun h => hci (Fin.ext h)
            omega
          have hic : ¬ (i = c) := fun h => hci h.symm
          have h1 := hdt i c hlt
          have h2 := hdt r c hlt
          rw [if_neg hic] at h1
          by_cases hr : r = i
          · subst hr; simp [h1, hic]
          · simp [hr, h1, h2]
      refine ih (m + 1) _ hl' hdone ?_ ?_
      · intro x
        rw [slsElims_sol i _ hrowz, slsNormalise_sol t i hdt hp, ← ht, slsSwap_sol]
        exact hsol x
      · intro x hx
        apply hker
        -- the same operations with a zero right-hand side
        have h0 : ({ A := s.A, b := 0 } : SlsState n K).Sol x := by
          have hb : ∀ (q : SlsState n K), slsSwap { A := q.A, b := 0 } i (slsPivotRow s.A i) =
              { A := (slsSwap q i (slsPivotRow s.A i)).A, b := 0 } := by
            intro q
            unfold slsSwap
            split_ifs
            · simp only [SlsState.mk.injEq, true_and]
              funext r; simp
            · rfl
          have hn : ∀ (q : SlsState n K), slsNormalise { A := q.A, b := 0 } i =
              { A := (slsNormalise q i).A, b := 0 } := by
            intro q
            unfold slsNormalise
            simp; funext r; simp
          rw [← slsSwap_sol _ i (slsPivotRow s.A i), hb, ht,
            ← slsNormalise_sol { A := t.A, b := 0 } i hdt hp, hn,
            ← slsElims_sol i { A := (slsNormalise t i).A, b := 0 } hrowz]
          have hel := slsElims_spec i (List.finRange n) (List.nodup_finRange n)
            { A := (slsNormalise t i).A, b := 0 } hrowz
          intro r
          rw [(hel r).2]
          simp only [(hel r).1]
          have := hx r
          simp only [(hsp r).1] at this
          rw [this]
          simp
        exact h0

end slsOrd

end Fierro
