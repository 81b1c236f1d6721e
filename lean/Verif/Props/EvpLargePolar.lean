import Verif.Props.EvpLargeExp

/-!
# C91: polar decomposition of a gradient
-/

namespace Fierro

open Large Matrix

/-! ### Quadratic forms -/

theorem posForm_iff (B : M3) : PosForm (fun i j => B i j) ↔ ∀ x, x ≠ 0 → 0 < x ⬝ᵥ (B *ᵥ x) := by
  have e : ∀ x : Fin 3 → ℝ, ∑ i, ∑ j, x i * B i j * x j = x ⬝ᵥ (B *ᵥ x) := by
    intro x
    simp only [dotProduct, Matrix.mulVec, Finset.mul_sum]
    exact Finset.sum_congr rfl fun i _ => Finset.sum_congr rfl fun j _ => by ring
  constructor
  · intro h x hx
    rw [← e]; exact h x hx
  · intro h x hx
    show 0 < ∑ i, ∑ j, x i * B i j * x j
    rw [e]; exact h x hx

theorem posForm_congr (B P Q : M3) (h : PosForm (fun i j => B i j)) (hQ : Q * P = 1) :
    PosForm (fun i j => (Pᵀ * B * P) i j) := by
  rw [posForm_iff] at h ⊢
  intro x hx
  have hne : P *ᵥ x ≠ 0 := by
    intro h0
    apply hx
    have : (Q * P) *ᵥ x = Q *ᵥ (P *ᵥ x) := (Matrix.mulVec_mulVec x Q P).symm
    rw [hQ, h0, Matrix.one_mulVec, Matrix.mulVec_zero] at this
    exact this
  have := h _ hne
  rw [← Matrix.mulVec_mulVec, ← Matrix.mulVec_mulVec, Matrix.dotProduct_mulVec x Pᵀ,
    Matrix.vecMul_transpose]
  exact this

theorem posForm_add (A B : M3) (a b : ℝ) (ha : 0 < a) (hb : 0 < b) (hA : PosForm (fun i j => A i j))
    (hB : PosForm (fun i j => B i j)) : PosForm (fun i j => (a • A + b • B) i j) := by
  rw [posForm_iff] at *
  intro x hx
  rw [Matrix.add_mulVec, Matrix.smul_mulVec, Matrix.smul_mulVec, dotProduct_add, dotProduct_smul,
    dotProduct_smul, smul_eq_mul, smul_eq_mul]
  exact add_pos (mul_pos ha (hA x hx)) (mul_pos hb (hB x hx))

theorem posForm_gram (A B : M3) (h : B * A = 1) : PosForm (fun i j => (Aᵀ * A) i j) := by
  have h1 : PosForm (fun i j => (1 : M3) i j) := by
    rw [posForm_iff]
    intro x hx
    rw [Matrix.one_mulVec]
    obtain ⟨i, hi⟩ := Function.ne_iff.mp hx
    exact Finset.sum_pos' (fun _ _ => mul_self_nonneg _) ⟨i, Finset.mem_univ _, mul_self_pos.mpr hi⟩
  have := posForm_congr 1 A B h1 h
  rwa [Matrix.mul_one] at this

/-! ### The invariant of the iteration -/

/-- `A` is a stretched version of the rotation part of `F`: both products with `F` are symmetric and
positive definite. -/
structure SameTurn (F A : M3) : Prop where
  left : A * Fᵀ = F * Aᵀ
  right : Fᵀ * A = Aᵀ * F
  leftPos : PosForm (fun i j => (A * Fᵀ) i j)
  rightPos : PosForm (fun i j => (Fᵀ * A) i j)

theorem sameTurn_start (F B : M3) (h1 : F * B = 1) (h2 : B * F = 1) : SameTurn F F := by
  refine ⟨rfl, rfl, ?_, posForm_gram F B h2⟩
  have := posForm_gram Fᵀ Bᵀ (by rw [← Matrix.transpose_mul, h1, Matrix.transpose_one])
  rwa [Matrix.transpose_transpose] at this

theorem sameTurn_inv (F A B : M3) (h : SameTurn F A) (h1 : A * B = 1) (h2 : B * A = 1) :
    SameTurn F Bᵀ := by
  have t1 : Bᵀ * Aᵀ = 1 := by rw [← Matrix.transpose_mul, h1, Matrix.transpose_one]
  have t2 : Aᵀ * Bᵀ = 1 := by rw [← Matrix.transpose_mul, h2, Matrix.transpose_one]
  have e1 : Bᵀ * Fᵀ = Bᵀ * (Fᵀ * A) * B := by
    rw [Matrix.mul_assoc, Matrix.mul_assoc, h1, Matrix.mul_one]
  have e2 : Fᵀ * Bᵀ = Bᵀᵀ * (A * Fᵀ) * Bᵀ := by
    rw [Matrix.transpose_transpose, ← Matrix.mul_assoc, h2, Matrix.one_mul]
  refine ⟨?_, ?_, ?_, ?_⟩
  · rw [Matrix.transpose_transpose, e1, h.right, ← Matrix.mul_assoc, t1, Matrix.one_mul]
  · rw [e2, h.left, Matrix.transpose_transpose, Matrix.mul_assoc, Matrix.mul_assoc, t2, Matrix.mul_one]
  · rw [e1]; exact posForm_congr _ B A h.rightPos h1
  · rw [e2]; exact posForm_congr _ Bᵀ Aᵀ h.leftPos t2

theorem sameTurn_add (F A B : M3) (a b : ℝ) (ha : 0 < a) (hb : 0 < b) (hA : SameTurn F A)
    (hB : SameTurn F B) : SameTurn F (a • A + b • B) := by
  refine ⟨?_, ?_, ?_, ?_⟩
  · rw [Matrix.add_mul, Matrix.transpose_add, Matrix.mul_add]
    simp only [Matrix.smul_mul, Matrix.transpose_smul, Matrix.mul_smul, hA.left, hB.left]
  · rw [Matrix.mul_add, Matrix.transpose_add, Matrix.add_mul]
    simp only [Matrix.smul_mul, Matrix.transpose_smul, Matrix.mul_smul, hA.right, hB.right]
  · rw [Matrix.add_mul, Matrix.smul_mul, Matrix.smul_mul]
    exact posForm_add _ _ a b ha hb hA.leftPos hB.leftPos
  · rw [Matrix.mul_add, Matrix.mul_smul, Matrix.mul_smul]
    exact posForm_add _ _ a b ha hb hA.rightPos hB.rightPos

/-! ### One turn of the iteration -/

/-- Square of the Frobenius norm. -/
def normSq (A : M3) : ℝ := ∑ i, ∑ j, A i j * A i j

theorem normSq_nonneg (A : M3) : 0 ≤ normSq A :=
  Finset.sum_nonneg fun _ _ => Finset.sum_nonneg fun _ _ => mul_self_nonneg _

theorem normSq_trace (A : M3) : normSq A = (Aᵀ * A).trace := by
  rw [normSq, Finset.sum_comm]
  simp only [Matrix.trace, Matrix.diag, Matrix.mul_apply, Matrix.transpose_apply]

theorem frob_eq (A : M3) : frob A = Real.sqrt (normSq A) := rfl

theorem frob_pos (A B : M3) (h : A * B = 1) : 0 < frob A := by
  rw [frob_eq]
  apply Real.sqrt_pos.mpr
  rcases lt_or_eq_of_le (normSq_nonneg A) with h0 | h0
  · exact h0
  · exfalso
    have hz : ∀ i j, A i j = 0 := by
      intro i j
      have h1 := (Finset.sum_eq_zero_iff_of_nonneg (fun i _ =>
        Finset.sum_nonneg fun j _ => mul_self_nonneg (A i j))).mp h0.symm i (Finset.mem_univ _)
      have h2 := (Finset.sum_eq_zero_iff_of_nonneg (fun j _ => mul_self_nonneg (A i j))).mp h1 j
        (Finset.mem_univ _)
      exact mul_self_eq_zero.mp h2
    have : A = 0 := by ext i j; exact hz i j
    rw [this, Matrix.zero_mul] at h
    have := congrFun (congrFun h 0) 0
    simp at this

theorem polarScale_pos (err : ℝ) (A : M3) (h : inv3Ok A = true) : 0 < polarScale err A := by
  obtain ⟨h1, h2⟩ := inv3_mul A h
  rw [polarScale]
  split_ifs
  · exact one_pos
  · exact Real.sqrt_pos.mpr (div_pos (frob_pos _ _ h2) (frob_pos _ _ h1))

theorem polarNext_eq (err : ℝ) (A : M3) :
    polarNext err A = (polarScale err A / 2) • A + (1 / polarScale err A / 2) • (inv3 A)ᵀ := by
  ext i j
  simp only [polarNext, Matrix.of_apply, Matrix.add_apply, Matrix.smul_apply, smul_eq_mul,
    Matrix.transpose_apply]
  ring

theorem sameTurn_next (F A : M3) (err : ℝ) (h : SameTurn F A) (hok : inv3Ok A = true) :
    SameTurn F (polarNext err A) := by
  obtain ⟨h1, h2⟩ := inv3_mul A hok
  have hc := polarScale_pos err A hok
  rw [polarNext_eq]
  exact sameTurn_add F _ _ _ _ (by positivity) (by positivity) h (sameTurn_inv F A _ h h1 h2)

theorem polarErr_eq (N A : M3) : polarErr N A = normSq (N - A) := rfl

theorem normSq_smul (c : ℝ) (A : M3) : normSq (c • A) = c ^ 2 * normSq A := by
  simp only [normSq, Matrix.smul_apply, smul_eq_mul, Finset.mul_sum]
  exact Finset.sum_congr rfl fun i _ => Finset.sum_congr rfl fun j _ => by ring

theorem normSq_transpose (A : M3) : normSq Aᵀ = normSq A := by
  rw [normSq, Finset.sum_comm]; rfl

/-- The deviation of the next iterate from a rotation: `NᵀN = 1 + GᵀG`, where `G` is bounded by the
change in the last turn. -/
theorem next_orthogonal (err : ℝ) (A : M3) (hok : inv3Ok A = true)
    (hsmall : polarErr (polarNext err A) A < 1 / 10 ^ 12) :
    ∃ G : M3, (polarNext err A)ᵀ * polarNext err A = 1 + Gᵀ * G ∧
      normSq G ≤ 101 / 100 * polarErr (polarNext err A) A := by
  obtain ⟨h1, h2⟩ := inv3_mul A hok
  have hc := polarScale_pos err A hok
  obtain ⟨c, hcdef⟩ : ∃ c, c = polarScale err A := ⟨_, rfl⟩
  obtain ⟨B, hB⟩ : ∃ B, B = (inv3 A)ᵀ := ⟨_, rfl⟩
  obtain ⟨N, hN⟩ : ∃ N, N = polarNext err A := ⟨_, rfl⟩
  rw [← hcdef] at hc
  have hN2 : N = (c / 2) • A + (1 / c / 2) • B := by rw [hN, polarNext_eq, hcdef, hB]
  have hAB : Aᵀ * B = 1 := by rw [hB, ← Matrix.transpose_mul, h2, Matrix.transpose_one]
  have hBA : Bᵀ * A = 1 := by rw [hB, Matrix.transpose_transpose, h2]
  obtain ⟨G, hG⟩ : ∃ G, G = (c / 2) • A - (1 / c / 2) • B := ⟨_, rfl⟩
  rw [← hN] at hsmall ⊢
  have hcc : c * (1 / c) = 1 := mul_one_div_cancel hc.ne'
  have hGN : Nᵀ * N = 1 + Gᵀ * G := by
    rw [hN2, hG]
    simp only [Matrix.transpose_add, Matrix.transpose_sub, Matrix.transpose_smul, Matrix.add_mul,
      Matrix.mul_add, Matrix.sub_mul, Matrix.mul_sub, Matrix.smul_mul, Matrix.mul_smul, hAB, hBA, smul_add, smul_sub,
      smul_smul]
    have e1 : c / 2 * (1 / c / 2) = 1 / 4 := by field_simp; norm_num
    have e2 : 1 / c / 2 * (c / 2) = 1 / 4 := by field_simp; norm_num
    rw [e1, e2]
    module
  refine ⟨G, hGN, ?_⟩
  rw [polarErr_eq] at hsmall ⊢
  rcases lt_or_ge err (10 / 10 ^ 2) with hlt | hge
  · -- unscaled turn
    have hc1 : c = 1 := by rw [hcdef, polarScale, if_pos hlt]
    have hD : N - A = (-1 : ℝ) • G := by
      rw [hN2, hG, hc1]
      module
    rw [hD, normSq_smul]
    have := normSq_nonneg G
    linarith
  · -- scaled turn: `G` is orthogonal to `N`
    have hcs : c = Real.sqrt (frob (inv3 A) / frob A) := by
      rw [hcdef, polarScale, if_neg (not_lt.mpr hge)]
    have hfa := frob_pos _ _ h1
    have hfi := frob_pos _ _ h2
    have hc2 : c ^ 2 = frob (inv3 A) / frob A := by
      rw [hcs, Real.sq_sqrt (div_pos hfi hfa).le]
    have hfA : frob A ^ 2 = normSq A := by rw [frob_eq, Real.sq_sqrt (normSq_nonneg _)]
    have hfB : frob (inv3 A) ^ 2 = normSq B := by
      rw [frob_eq, Real.sq_sqrt (normSq_nonneg _), hB, normSq_transpose]
    have hbal : c ^ 2 * normSq A = (1 / c) ^ 2 * normSq B := by
      rw [one_div, inv_pow, hc2, ← hfA, ← hfB]
      field_simp
    have horth : (Nᵀ * G).trace = 0 := by
      have : Nᵀ * G = (c / 2) ^ 2 • (Aᵀ * A) - (1 / c / 2) ^ 2 • (Bᵀ * B) := by
        rw [hN2, hG]
        simp only [Matrix.transpose_add, Matrix.transpose_smul, Matrix.add_mul,
          Matrix.mul_sub, Matrix.smul_mul, Matrix.mul_smul, hAB, hBA, smul_add,
          smul_sub, smul_smul]
        have e1 : c / 2 * (1 / c / 2) = 1 / 4 := by field_simp; norm_num
        have e2 : 1 / c / 2 * (c / 2) = 1 / 4 := by field_simp; norm_num
        rw [e1, e2, sq, sq]
        module
      rw [this, Matrix.trace_sub, Matrix.trace_smul, Matrix.trace_smul, ← normSq_trace,
        ← normSq_trace, smul_eq_mul, smul_eq_mul, div_pow, div_pow]
      linear_combination (1 / 4 : ℝ) * hbal
    have hD : N - A = (1 - 1 / c) • N - (1 / c) • G := by
      have : N + G = c • A := by rw [hN2, hG]; module
      have hA : A = (1 / c) • (N + G) := by
        rw [this, smul_smul, one_div, inv_mul_cancel₀ hc.ne', one_smul]
      rw [show N - A = N - (1 / c) • (N + G) by rw [← hA]]
      module
    have hsq : normSq (N - A) = (1 - 1 / c) ^ 2 * normSq N + (1 / c) ^ 2 * normSq G := by
      have hGN' : (Gᵀ * N).trace = 0 := by
        have : (Gᵀ * N) = (Nᵀ * G)ᵀ := by rw [Matrix.transpose_mul, Matrix.transpose_transpose]
        rw [this, Matrix.trace_transpose, horth]
      rw [normSq_trace, hD]
      simp only [Matrix.transpose_sub, Matrix.transpose_smul, Matrix.sub_mul, Matrix.mul_sub,
        Matrix.smul_mul, Matrix.mul_smul, Matrix.trace_sub, Matrix.trace_smul, horth, hGN', smul_zero,
        ← normSq_trace, smul_eq_mul]
      ring
    have hN3 : 3 ≤ normSq N := by
      rw [normSq_trace, hGN, Matrix.trace_add, Matrix.trace_one, ← normSq_trace]
      have := normSq_nonneg G
      simp only [Fintype.card_fin]
      norm_num
      exact this
    obtain ⟨u, hu⟩ : ∃ u, u = 1 / c := ⟨_, rfl⟩
    rw [← hu] at hsq
    have hu0 : 0 < u := by rw [hu]; positivity
    have hg0 := normSq_nonneg G
    have hu1 : (1 - u) ^ 2 ≤ 1 / 10 ^ 12 / 3 := by
      have h1 : (1 - u) ^ 2 * 3 ≤ (1 - u) ^ 2 * normSq N :=
        mul_le_mul_of_nonneg_left hN3 (sq_nonneg _)
      have h2 : 0 ≤ u ^ 2 * normSq G := mul_nonneg (sq_nonneg _) hg0
      rw [hsq] at hsmall
      linarith
    have hu2 : 999 / 1000 ≤ u := by
      by_contra hlt
      have : u < 999 / 1000 := not_le.mp hlt
      nlinarith
    have hu3 : 100 / 101 ≤ u ^ 2 := by nlinarith
    have h3 : u ^ 2 * normSq G ≤ normSq (N - A) := by
      rw [hsq]
      have : 0 ≤ (1 - u) ^ 2 * normSq N := mul_nonneg (sq_nonneg _) (by linarith)
      linarith
    have h4 : 100 / 101 * normSq G ≤ u ^ 2 * normSq G := mul_le_mul_of_nonneg_right hu3 hg0
    linarith

/-! ### The loop -/

theorem polarLoop_end (F : M3) : ∀ (fuel : ℕ) (A : M3) (err : ℝ) (e : PolarEnd),
    SameTurn F A → polarLoop fuel A err = some e → polarOk fuel A err = true →
    SameTurn F e.cur ∧ e.next = polarNext e.err e.cur ∧ inv3Ok e.cur = true ∧ inv3Ok e.next = true ∧
      polarErr e.next e.cur < 1 / 10 ^ 12 := by
  intro fuel
  induction fuel with
  | zero => intro A err e _ h; simp [polarLoop] at h
  | succ fuel ih =>
    intro A err e hA h hok
    rw [polarLoop] at h
    rw [polarOk, Bool.and_eq_true] at hok
    by_cases hc : polarErr (polarNext err A) A < 1 / 10 ^ 12
    · rw [if_pos hc] at h hok
      obtain rfl := Option.some.inj h
      exact ⟨hA, rfl, hok.1, hok.2, hc⟩
    · rw [if_neg hc] at h hok
      exact ih _ _ e (sameTurn_next F A err hA hok.1) h hok.2

/-- **C91.** Whenever `defgrad_dcmp` returns and its inversions ran to their end, it returns a polar
decomposition: `V R = F`, `V` is symmetric and positive definite, `R` has the orientation of `F`, and `R`
is a rotation up to the tolerance: it shortens no vector and stretches none by more than one part in
`10¹¹`. -/
theorem C91_polar (F V R : M3) (h : defgradDcmp F = some (V, R)) (hok : dcmpOk F = true) :
    V * R = F ∧ Vᵀ = V ∧ PosForm (fun i j => V i j) ∧ 0 < R.det * F.det ∧
      normSq (Rᵀ * R - 1) ≤ (1 / 10 ^ 11) ^ 2 ∧
      ∀ x : Fin 3 → ℝ, x ⬝ᵥ x ≤ (R *ᵥ x) ⬝ᵥ (R *ᵥ x) ∧
        (R *ᵥ x) ⬝ᵥ (R *ᵥ x) ≤ (1 + 1 / 10 ^ 11) * (x ⬝ᵥ x) := by
  obtain ⟨e, he, hVR⟩ := Option.map_eq_some_iff.mp h
  have hV : V = F * inv3 e.next := (congrArg Prod.fst hVR).symm
  have hR : R = e.next := (congrArg Prod.snd hVR).symm
  have hF : inv3Ok F = true := by
    have h1 : polarOk 50 F 1 = true := hok
    rw [polarOk, Bool.and_eq_true] at h1
    exact h1.1
  obtain ⟨f1, f2⟩ := inv3_mul F hF
  obtain ⟨hA, hnext, hokA, hokN, herr⟩ :=
    polarLoop_end F 50 F 1 e (sameTurn_start F _ f1 f2) he hok
  have hsN : SameTurn F e.next := by rw [hnext]; exact sameTurn_next F _ _ hA hokA
  obtain ⟨r1, r2⟩ := inv3_mul e.next hokN
  obtain ⟨G, hG1, hG2⟩ := next_orthogonal e.err e.cur hokA (by rw [← hnext]; exact herr)
  rw [← hnext] at hG1 hG2
  have hGb : normSq G ≤ 1 / 10 ^ 11 := by
    have := mul_lt_mul_of_pos_left herr (by norm_num : (0 : ℝ) < 101 / 100)
    linarith
  have hB := sameTurn_inv F e.next (inv3 e.next) hsN r1 r2
  have hVe : V = (inv3 e.next)ᵀ * Fᵀ := by
    rw [hV]; rw [hB.left, Matrix.transpose_transpose]
  refine ⟨?_, ?_, ?_, ?_, ?_, ?_⟩
  · rw [hV, hR, Matrix.mul_assoc, r2, Matrix.mul_one]
  · rw [hVe, Matrix.transpose_mul, Matrix.transpose_transpose, Matrix.transpose_transpose, ← hV]
    exact hVe
  · rw [hVe]; exact hB.leftPos
  · have := det_pos_of_posForm _ hsN.leftPos
    rw [hR, ← Matrix.det_transpose F, ← Matrix.det_mul]
    exact this
  · rw [hR, hG1, add_sub_cancel_left]
    have hn : normSq (Gᵀ * G) ≤ normSq G ^ 2 := by
      rw [sq]
      have : ∀ i j, (Gᵀ * G) i j * (Gᵀ * G) i j ≤ (∑ k, G k i * G k i) * (∑ k, G k j * G k j) := by
        intro i j
        rw [Matrix.mul_apply]
        have := Finset.sum_mul_sq_le_sq_mul_sq (Finset.univ : Finset (Fin 3)) (fun k => G k i)
          (fun k => G k j)
        simp only [Matrix.transpose_apply]
        rw [← sq]
        simpa [sq] using this
      calc normSq (Gᵀ * G) ≤ ∑ i, ∑ j, (∑ k, G k i * G k i) * (∑ k, G k j * G k j) :=
            Finset.sum_le_sum fun i _ => Finset.sum_le_sum fun j _ => this i j
        _ = (∑ i, ∑ k, G k i * G k i) * (∑ j, ∑ k, G k j * G k j) := by
            rw [Finset.sum_mul_sum]
        _ = normSq G * normSq G := by
            rw [Finset.sum_comm]; rfl
    exact hn.trans (pow_le_pow_left₀ (normSq_nonneg G) hGb 2)
  · intro x
    have e1 : (R *ᵥ x) ⬝ᵥ (R *ᵥ x) = x ⬝ᵥ x + (G *ᵥ x) ⬝ᵥ (G *ᵥ x) := by
      have : ∀ M : M3, (M *ᵥ x) ⬝ᵥ (M *ᵥ x) = x ⬝ᵥ ((Mᵀ * M) *ᵥ x) := by
        intro M
        rw [← Matrix.mulVec_mulVec, Matrix.dotProduct_mulVec x Mᵀ, Matrix.vecMul_transpose]
      rw [this R, this G, hR, hG1, Matrix.add_mulVec, Matrix.one_mulVec, dotProduct_add]
    have e2 : (G *ᵥ x) ⬝ᵥ (G *ᵥ x) ≤ normSq G * (x ⬝ᵥ x) := by
      simp only [dotProduct, Matrix.mulVec, normSq]
      rw [Finset.sum_mul]
      refine Finset.sum_le_sum fun i _ => ?_
      have := Finset.sum_mul_sq_le_sq_mul_sq (Finset.univ : Finset (Fin 3)) (fun k => G i k) x
      rw [← sq]
      simpa [sq] using this
    have e3 : 0 ≤ (G *ᵥ x) ⬝ᵥ (G *ᵥ x) := Finset.sum_nonneg fun _ _ => mul_self_nonneg _
    have e4 : 0 ≤ x ⬝ᵥ x := Finset.sum_nonneg fun _ _ => mul_self_nonneg _
    rw [e1]
    refine ⟨by linarith, ?_⟩
    have := mul_le_mul_of_nonneg_right hGb e4
    linarith

/-- **C91.** A gradient whose quadratic form is positive definite (every gradient in which no direction
is turned by a right angle or more) never breaks an inversion of the iteration. -/
theorem C91_inversions (F : M3) (h : PosForm (fun i j => F i j)) : dcmpOk F = true := by
  have key : ∀ (fuel : ℕ) (A : M3) (err : ℝ), PosForm (fun i j => A i j) → polarOk fuel A err = true := by
    intro fuel
    induction fuel with
    | zero => intro A err _; rfl
    | succ fuel ih =>
      intro A err hA
      have hokA := inv3Ok_of_pos A hA
      obtain ⟨h1, h2⟩ := inv3_mul A hokA
      have hN : PosForm (fun i j => polarNext err A i j) := by
        have hc := polarScale_pos err A hokA
        rw [polarNext_eq]
        refine posForm_add _ _ _ _ (by positivity) (by positivity) hA ?_
        have e : (inv3 A)ᵀ = (inv3 A)ᵀ * A * inv3 A := by
          rw [Matrix.mul_assoc, h1, Matrix.mul_one]
        rw [e]
        exact posForm_congr A (inv3 A) A hA h1
      rw [polarOk, Bool.and_eq_true]
      refine ⟨hokA, ?_⟩
      split_ifs
      · exact inv3Ok_of_pos _ hN
      · exact ih _ _ hN
  exact key 50 F 1 h

/-- **C91.** A rotation is returned unchanged, with no stretch, after one turn. -/
theorem C91_rotation (Q : M3) (h : Qᵀ * Q = 1) (hok : inv3Ok Q = true) :
    defgradDcmp Q = some (1, Q) := by
  obtain ⟨h1, h2⟩ := inv3_mul Q hok
  have hi : inv3 Q = Qᵀ := by
    calc inv3 Q = Qᵀ * Q * inv3 Q := by rw [h, Matrix.one_mul]
      _ = Qᵀ := by rw [Matrix.mul_assoc, h1, Matrix.mul_one]
  have hf : frob (inv3 Q) = frob Q := by rw [hi, frob_eq, frob_eq, normSq_transpose]
  have hs : polarScale 1 Q = 1 := by
    rw [polarScale, if_neg (by norm_num), hf, div_self (frob_pos _ _ h1).ne', Real.sqrt_one]
  have hn : polarNext 1 Q = Q := by
    rw [polarNext_eq, hs, hi, Matrix.transpose_transpose]
    module
  have he : polarErr Q Q = 0 := by rw [polarErr_eq, sub_self]; simp [normSq]
  have hl : polarLoop 50 Q 1 = some ⟨Q, 1, Q⟩ := by
    rw [polarLoop, hn, he, if_pos (by norm_num)]
  rw [defgradDcmp, hl, Option.map_some, h1]

/-- A quarter turn about the third axis. -/
def quarterTurn : M3 := Matrix.of fun i j =>
  if i = 0 ∧ j = 1 then -1 else if i = 1 ∧ j = 0 then 1 else if i = 2 ∧ j = 2 then 1 else 0

/-- The matrix with one entry. -/
def lastOnly : M3 := Matrix.of fun i j => if i = 2 ∧ j = 2 then 1 else 0

theorem inv3_first_zero (A : M3) (h : A 0 0 = 0) : inv3 A = A := by
  have : (invertMatrix (fun i j => A j i)).mat = fun i j => A j i := by
    have hl : List.finRange 3 = [0, 1, 2] := by decide
    rw [invertMatrix, hl, gjLoop, if_pos h]
  ext i j
  show (invertMatrix (fun i j => A j i)).mat j i = _
  rw [this]

/-- **C91 does not hold for every rotation.** The inversion exchanges no rows and its failure is not
reported.  For a quarter turn about the third axis, a rotation, the routine returns normally with
`V = R = diag(0, 0, 1)`: the returned rotation is singular and `V R` is not the argument. -/
theorem C91_quarter_turn_fails :
    quarterTurnᵀ * quarterTurn = 1 ∧ quarterTurn.det = 1 ∧
      defgradDcmp quarterTurn = some (lastOnly, lastOnly) ∧ lastOnly.det = 0 ∧
      lastOnly * lastOnly ≠ quarterTurn := by
  have hiQ : inv3 quarterTurn = quarterTurn := inv3_first_zero _ (by simp [quarterTurn])
  have hiL : inv3 lastOnly = lastOnly := inv3_first_zero _ (by simp [lastOnly])
  have hfQ : frob quarterTurn ≠ 0 := by
    have : normSq quarterTurn = 3 := by
      simp [normSq, Fin.sum_univ_three, quarterTurn]; norm_num
    rw [frob_eq, this]; positivity
  have hfL : frob lastOnly ≠ 0 := by
    have : normSq lastOnly = 1 := by
      simp [normSq, Fin.sum_univ_three, lastOnly]
    rw [frob_eq, this]; simp
  have hn1 : polarNext 1 quarterTurn = lastOnly := by
    have hs : polarScale 1 quarterTurn = 1 := by
      rw [polarScale, if_neg (by norm_num), hiQ, div_self hfQ, Real.sqrt_one]
    ext i j
    simp only [polarNext, hs, hiQ, Matrix.of_apply]
    fin_cases i <;> fin_cases j <;> simp [quarterTurn, lastOnly] <;> norm_num
  have he1 : polarErr lastOnly quarterTurn = 2 := by
    simp [polarErr, Fin.sum_univ_three, quarterTurn, lastOnly]; norm_num
  have hn2 : polarNext 2 lastOnly = lastOnly := by
    have hs : polarScale 2 lastOnly = 1 := by
      rw [polarScale, if_neg (by norm_num), hiL, div_self hfL, Real.sqrt_one]
    ext i j
    simp only [polarNext, hs, hiL, Matrix.of_apply]
    fin_cases i <;> fin_cases j <;> simp [lastOnly] <;> norm_num
  have he2 : polarErr lastOnly lastOnly = 0 := by simp [polarErr]
  have hl : polarLoop 50 quarterTurn 1 = some ⟨lastOnly, 2, lastOnly⟩ := by
    rw [polarLoop, hn1, he1, if_neg (by norm_num), polarLoop, hn2, he2, if_pos (by norm_num)]
  have hQL : quarterTurn * lastOnly = lastOnly := by
    ext i j
    rw [mul3_apply]
    fin_cases i <;> fin_cases j <;> simp [quarterTurn, lastOnly]
  refine ⟨?_, ?_, ?_, ?_, ?_⟩
  · ext i j
    rw [mul3_apply]
    fin_cases i <;> fin_cases j <;> simp [quarterTurn, Matrix.transpose_apply]
  · rw [← det33_eq]; simp [det33, quarterTurn]
  · rw [defgradDcmp, hl, Option.map_some]
    simp only [hiL, hQL]
  · rw [← det33_eq]; simp [det33, lastOnly]
  · intro h
    have := congrFun (congrFun h 0) 1
    rw [mul3_apply] at this
    simp [quarterTurn, lastOnly] at this

/-- `C91_polar` applies to a stretch by the factor 2, which is not a rotation: its inversions run to
their end. -/
example : dcmpOk (Matrix.diagonal ![2, 1, 1]) = true := by
  refine C91_inversions _ ((posForm_iff _).mpr fun x hx => ?_)
  obtain ⟨i, hi⟩ := Function.ne_iff.mp hx
  have hpos : ∀ k : Fin 3, 0 < (![2, 1, 1] : Fin 3 → ℝ) k := by
    intro k; fin_cases k <;> simp
  have e : x ⬝ᵥ (Matrix.diagonal ![2, 1, 1] *ᵥ x) = ∑ k, (![2, 1, 1] : Fin 3 → ℝ) k * (x k * x k) := by
    simp only [dotProduct, Matrix.mulVec_diagonal]
    exact Finset.sum_congr rfl fun k _ => by ring
  rw [e]
  exact Finset.sum_pos' (fun k _ => mul_nonneg (hpos k).le (mul_self_nonneg _))
    ⟨i, Finset.mem_univ _, mul_pos (hpos i) (mul_self_pos.mpr hi)⟩

end Fierro
