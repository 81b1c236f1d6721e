import Verif.Model.EvpLargeLaw
import Verif.Props.EvpLargeSplit
import Verif.Props.EvpStress

/-!
# C93: plastic flow at large deformation
-/

namespace Fierro

open Large Matrix

/-- Direction and plane normal of a slip system are perpendicular. -/
def InPlane (s : SlipDir) : Prop := s.b ⬝ᵥ s.n = 0

theorem vecMulVec_push (A B : M3) (b n : Fin 3 → ℝ) :
    Matrix.vecMulVec (A *ᵥ b) (B *ᵥ n) = A * Matrix.vecMulVec b n * Bᵀ := by
  rw [Matrix.mul_vecMulVec, Matrix.vecMulVec_mul, Matrix.vecMul_transpose]

/-- The plastic velocity gradient is the sum of the shear rates times direction ⊗ normal, both turned
into the sample frame. -/
theorem slipVelgrad_eq (ag : M3) (l : List (SlipDir × ℝ)) :
    slipVelgrad ag l = ag * (l.map fun s => s.2 • Matrix.vecMulVec s.1.b s.1.n).sum * agᵀ := by
  have key : ∀ acc : M3, l.foldl (slipTerm ag) acc =
      acc + ag * (l.map fun s => s.2 • Matrix.vecMulVec s.1.b s.1.n).sum * agᵀ := by
    induction l with
    | nil => intro acc; simp
    | cons a l ih =>
      intro acc
      rw [List.foldl_cons, ih, List.map_cons, List.sum_cons, Matrix.mul_add, Matrix.add_mul, ← add_assoc]
      congr 1
      rw [Matrix.mul_smul, Matrix.smul_mul, ← vecMulVec_push]
      ext i j
      simp only [slipTerm, Matrix.of_apply, Matrix.add_apply, Matrix.smul_apply, Matrix.vecMulVec_apply,
        smul_eq_mul]
      ring
  rw [slipVelgrad, key, zero_add]

theorem trace_list_sum (l : List M3) : l.sum.trace = (l.map Matrix.trace).sum := by
  induction l with
  | nil => simp
  | cons a l ih => rw [List.sum_cons, Matrix.trace_add, ih, List.map_cons, List.sum_cons]

/-- **C93.** For every crystal orientation and all shear rates on systems whose direction lies in their
plane, the plastic velocity gradient has no trace. -/
theorem C93_crystal_traceless (ag : M3) (ha : agᵀ * ag = 1) (l : List (SlipDir × ℝ))
    (hl : ∀ s ∈ l, InPlane s.1) : (slipVelgrad ag l).trace = 0 := by
  rw [slipVelgrad_eq, Matrix.trace_mul_comm, ← Matrix.mul_assoc, ha, Matrix.one_mul, trace_list_sum,
    List.map_map]
  apply List.sum_eq_zero
  intro t ht
  obtain ⟨s, hs, rfl⟩ := List.mem_map.mp ht
  show (s.2 • Matrix.vecMulVec s.1.b s.1.n).trace = 0
  rw [Matrix.trace_smul, Matrix.trace_vecMulVec, hl s hs, smul_zero]

/-! ### Schmid tensors of the deformed lattice -/

theorem inv3_unique (A B : M3) (h : inv3Ok A = true) (hB : A * B = 1) : B = inv3 A := by
  calc B = inv3 A * A * B := by rw [(inv3_mul A h).2, Matrix.one_mul]
    _ = inv3 A := by rw [Matrix.mul_assoc, hB, Matrix.mul_one]

theorem pushedSlip_eq (Fe ag : M3) (ha : agᵀ * ag = 1) (hF : inv3Ok Fe = true)
    (hFa : inv3Ok (Fe * ag) = true) (s : SlipDir) :
    pushedSlip Fe ag s = Fe * (ag * Matrix.vecMulVec s.b s.n * agᵀ) * inv3 Fe := by
  have ha' : ag * agᵀ = 1 := mul_eq_one_comm.mp ha
  have hi : inv3 (Fe * ag) = agᵀ * inv3 Fe := by
    refine (inv3_unique _ _ hFa ?_).symm
    calc Fe * ag * (agᵀ * inv3 Fe) = Fe * (ag * agᵀ) * inv3 Fe := by simp only [Matrix.mul_assoc]
      _ = 1 := by rw [ha', Matrix.mul_one, (inv3_mul Fe hF).1]
  rw [pushedSlip, hi]
  have : (Matrix.of fun i j => s.b i * s.n j : M3) = Matrix.vecMulVec s.b s.n := by
    ext i j; rfl
  rw [this]
  simp only [Matrix.mul_assoc]

theorem pushedSlip_trace (Fe ag : M3) (hFa : inv3Ok (Fe * ag) = true) (s : SlipDir) (hs : InPlane s) :
    (pushedSlip Fe ag s).trace = 0 := by
  have : (Matrix.of fun i j => s.b i * s.n j : M3) = Matrix.vecMulVec s.b s.n := by
    ext i j; rfl
  rw [pushedSlip, Matrix.trace_mul_comm, ← Matrix.mul_assoc, (inv3_mul _ hFa).2, Matrix.one_mul, this,
    Matrix.trace_vecMulVec]
  exact hs

/-- **C93.** The five stored components of a slip system describe the symmetric part of its slip tensor
carried along by the elastic deformation, whatever that deformation is. -/
theorem C93_schmid_tensor (q : BasisConst ℝ) (hq : q.Exact) (Fe ag : M3) (ha : agᵀ * ag = 1)
    (hF : inv3Ok Fe = true) (hFa : inv3Ok (Fe * ag) = true) (s : SlipDir) (hs : InPlane s) (i j : Fin 3) :
    let P := Fe * Matrix.vecMulVec (ag *ᵥ s.b) (ag *ᵥ s.n) * inv3 Fe
    chgBasis1 q (by omega : 5 ≤ 6) (schmid q Fe ag s) i j = (P i j + P j i) / 2 := by
  intro P
  have hP : P = pushedSlip Fe ag s := by
    rw [pushedSlip_eq Fe ag ha hF hFa, ← vecMulVec_push]
  have ht := pushedSlip_trace Fe ag hFa s hs
  rw [Matrix.trace_fin_three] at ht
  rw [schmid, C66_deviator q hq, hP]
  have h0 : 1 / 2 * (pushedSlip Fe ag s 0 0 + pushedSlip Fe ag s 0 0) +
      1 / 2 * (pushedSlip Fe ag s 1 1 + pushedSlip Fe ag s 1 1) +
      1 / 2 * (pushedSlip Fe ag s 2 2 + pushedSlip Fe ag s 2 2) = 0 := by linarith
  rw [h0]
  split_ifs <;> ring

/-- **C93.** The resolved shear stress of a slip system is the stress contracted with its carried slip
tensor; the pressure does not enter. -/
theorem C93_resolved_shear (q : BasisConst ℝ) (hq : q.Exact) (Fe ag : M3) (ha : agᵀ * ag = 1)
    (hF : inv3Ok Fe = true) (hFa : inv3Ok (Fe * ag) = true) (s : SlipDir) (hs : InPlane s)
    (S : T2 ℝ) (hS : S.Sym) (p : ℝ) :
    ∑ k : Fin 5, schmid q Fe ag s k *
        chgBasis2 q le_rfl (fun i j => S i j - if i = j then p else 0) k.castSucc =
      ∑ i, ∑ j, S i j * (Fe * Matrix.vecMulVec (ag *ᵥ s.b) (ag *ᵥ s.n) * inv3 Fe) i j := by
  have e : ∑ k : Fin 5, schmid q Fe ag s k *
      chgBasis2 q le_rfl (fun i j => S i j - if i = j then p else 0) k.castSucc =
      ∑ k : Fin 5, schmid q Fe ag s k *
        chgBasis2 q (by omega : 5 ≤ 6) (fun i j => S i j - if i = j then p else 0) k := rfl
  rw [e, C66_inner_deviator]
  have hP := pushedSlip_eq Fe ag ha hF hFa s
  rw [← vecMulVec_push] at hP
  have ht := pushedSlip_trace Fe ag hFa s hs
  have hc := C93_schmid_tensor q hq Fe ag ha hF hFa s hs
  simp only at hc
  simp only [hc]
  rw [hP, Matrix.trace_fin_three] at ht
  have s01 := hS 0 1
  have s02 := hS 0 2
  have s12 := hS 1 2
  generalize Fe * Matrix.vecMulVec (ag *ᵥ s.b) (ag *ᵥ s.n) * inv3 Fe = P at *
  simp [Fin.sum_univ_three]
  linear_combination -p * ht + (P 0 1 - P 1 0) / 2 * (-s01) + (P 0 2 - P 2 0) / 2 * (-s02) +
    (P 1 2 - P 2 1) / 2 * (-s12)

theorem chg6_of_five (q : BasisConst ℝ) (y : Fin 6 → ℝ) (h : y (Fin.last 5) = 0) :
    chgBasis1 q le_rfl y = chgBasis1 q (by omega : 5 ≤ 6) fun k : Fin 5 => y k.castSucc := by
  funext i j
  rw [chgBasis1_eq, chgBasis1_eq]
  simp only
  rw [Fin.sum_univ_castSucc, h, zero_mul, add_zero]
  rfl

theorem chg1_list_sum (q : BasisConst ℝ) {α : Type} (l : List α) (f : α → Fin 5 → ℝ) (g : α → ℝ)
    (i j : Fin 3) :
    chgBasis1 q (by omega : 5 ≤ 6) (fun k => (l.map fun s => f s k * g s).sum) i j =
      (l.map fun s => g s * chgBasis1 q (by omega : 5 ≤ 6) (f s) i j).sum := by
  induction l with
  | nil => simp [chgBasis1_eq]
  | cons a l ih =>
    simp only [List.map_cons, List.sum_cons]
    rw [← ih]
    simp only [chgBasis1_eq, add_mul, Finset.sum_add_distrib, Finset.mul_sum]
    congr 1
    exact Finset.sum_congr rfl fun k _ => by ring

theorem list_sum_apply (l : List M3) (i j : Fin 3) : l.sum i j = (l.map fun A => A i j).sum := by
  induction l with
  | nil => simp
  | cons a l ih => rw [List.sum_cons, Matrix.add_apply, ih, List.map_cons, List.sum_cons]

theorem mul_list_sum (A B : M3) (l : List M3) : A * l.sum * B = (l.map fun X => A * X * B).sum := by
  induction l with
  | nil => simp
  | cons a l ih => rw [List.sum_cons, Matrix.mul_add, Matrix.add_mul, ih, List.map_cons, List.sum_cons]

/-- **C93.** The plastic strain rate of the stress update and the plastic velocity gradient of the
deformation update agree: for every stress, the rate is the symmetric part of the velocity gradient
carried along by the elastic deformation. -/
theorem C93_rates_agree (q : BasisConst ℝ) (hq : q.Exact) (Fe ag : M3) (ha : agᵀ * ag = 1)
    (hF : inv3Ok Fe = true) (hFa : inv3Ok (Fe * ag) = true) (l : List (SlipDir × SlipState))
    (hl : ∀ a ∈ l, InPlane a.1 ∧ a.2.sch = schmid q Fe ag a.1) (x : Fin 6 → ℝ) (i j : Fin 3) :
    let Lp := slipVelgrad ag (l.map fun a => (a.1, a.2.rateAt (a.2.drive x)))
    chgBasis1 q le_rfl (plasticRate6 (l.map Prod.snd) x) i j =
      ((Fe * Lp * inv3 Fe) i j + (Fe * Lp * inv3 Fe) j i) / 2 := by
  intro Lp
  rw [chg6_of_five q _ (plasticRate6_last _ _)]
  simp only [plasticRate6_castSucc]
  have e1 : chgBasis1 q (by omega : 5 ≤ 6)
      (fun k => ((l.map Prod.snd).map fun s => s.sch k * s.rateAt (s.drive x)).sum) i j =
      ((l.map Prod.snd).map fun s => s.rateAt (s.drive x) * chgBasis1 q (by omega : 5 ≤ 6) s.sch i j).sum :=
    chg1_list_sum q _ (fun s : SlipState => s.sch) (fun s => s.rateAt (s.drive x)) i j
  have hLp : Fe * Lp * inv3 Fe = (l.map fun a => a.2.rateAt (a.2.drive x) •
      (Fe * Matrix.vecMulVec (ag *ᵥ a.1.b) (ag *ᵥ a.1.n) * inv3 Fe)).sum := by
    show Fe * slipVelgrad ag _ * inv3 Fe = _
    rw [slipVelgrad_eq, mul_list_sum, mul_list_sum, List.map_map, List.map_map, List.map_map]
    congr 1
    refine List.map_congr_left fun a _ => ?_
    simp only [Function.comp, vecMulVec_push, Matrix.mul_smul, Matrix.smul_mul]
  rw [e1, hLp, list_sum_apply, list_sum_apply, List.map_map, List.map_map, List.map_map]
  have : ∀ a ∈ l, (a.2.rateAt (a.2.drive x) * chgBasis1 q (by omega : 5 ≤ 6) a.2.sch i j) =
      a.2.rateAt (a.2.drive x) *
        ((Fe * Matrix.vecMulVec (ag *ᵥ a.1.b) (ag *ᵥ a.1.n) * inv3 Fe) i j +
        (Fe * Matrix.vecMulVec (ag *ᵥ a.1.b) (ag *ᵥ a.1.n) * inv3 Fe) j i) / 2 := by
    intro a hm
    rw [(hl a hm).2]
    have := C93_schmid_tensor q hq Fe ag ha hF hFa a.1 (hl a hm).1 i j
    simp only at this
    rw [this]; ring
  clear e1 hLp
  clear_value Lp
  clear Lp hl
  induction l with
  | nil => simp
  | cons a l ih =>
    simp only [List.map_cons, List.sum_cons, Function.comp] at ih ⊢
    rw [ih fun b hb => this b (List.mem_cons_of_mem _ hb), this a List.mem_cons_self]
    simp only [Matrix.smul_apply, smul_eq_mul]
    ring

/-! ### Isotropic flow -/

/-- **C93.** At an isotropic point the plastic velocity gradient, carried along by the elastic
deformation, is exactly the plastic strain rate: there is no plastic spin in the deformed frame. -/
theorem C93_isotropic (Fe D : M3) (hF : inv3Ok Fe = true) :
    Fe * j2Velgrad Fe D * inv3 Fe = D ∧ (j2Velgrad Fe D).trace = D.trace := by
  obtain ⟨h1, h2⟩ := inv3_mul Fe hF
  constructor
  · calc Fe * (inv3 Fe * D * Fe) * inv3 Fe = (Fe * inv3 Fe) * D * (Fe * inv3 Fe) := by
          simp only [Matrix.mul_assoc]
      _ = D := by rw [h1, Matrix.one_mul, Matrix.mul_one]
  · rw [j2Velgrad, Matrix.trace_mul_comm, ← Matrix.mul_assoc, h1, Matrix.one_mul]

/-! ### Plastic volume -/

/-- **C93.** Slip on one system keeps the volume exactly, for every orientation, rate and time step. -/
theorem C93_single_slip (ag : M3) (ha : agᵀ * ag = 1) (s : SlipDir) (hs : InPlane s) (rate tdot : ℝ)
    (p : Point) (hg : p.gas = false) :
    (p.plastic tdot (slipVelgrad ag [(s, rate)])).Fp.det = p.Fp.det := by
  have e : tdot • slipVelgrad ag [(s, rate)] =
      (tdot * rate) • Matrix.vecMulVec (ag *ᵥ s.b) (ag *ᵥ s.n) := by
    rw [slipVelgrad_eq]
    simp only [List.map_cons, List.map_nil, List.sum_cons, List.sum_nil, add_zero]
    rw [Matrix.mul_smul, Matrix.smul_mul, ← vecMulVec_push, smul_smul]
  have hd : ∑ i, (ag *ᵥ s.n) i * (ag *ᵥ s.b) i = 0 := by
    have h1 : (ag *ᵥ s.n) ⬝ᵥ (ag *ᵥ s.b) = s.n ⬝ᵥ s.b := by
      rw [Matrix.dotProduct_mulVec, Matrix.vecMul_mulVec, ha, Matrix.vecMul_one]
    have h2 : s.n ⬝ᵥ s.b = 0 := by rw [dotProduct_comm]; exact hs
    rw [h2] at h1
    exact h1
  rw [Point.plastic, if_neg (by simp [hg])]
  show (matrixExp _ * p.Fp).det = _
  rw [e, Matrix.det_mul, ← det33_eq (matrixExp _), (C89_single_slip _ _ _ hd).2, one_mul]

theorem normSq_mul_le (A B : M3) : normSq (A * B) ≤ normSq A * normSq B := by
  have h : ∀ i j, (A * B) i j * (A * B) i j ≤ (∑ k, A i k ^ 2) * ∑ k, B k j ^ 2 := by
    intro i j
    rw [Matrix.mul_apply, ← pow_two]
    exact Finset.sum_mul_sq_le_sq_mul_sq _ _ _
  have e1 : normSq A = ∑ i, ∑ k, A i k ^ 2 := by
    rw [normSq]; exact Finset.sum_congr rfl fun i _ => Finset.sum_congr rfl fun j _ => by ring
  have e2 : normSq B = ∑ j, ∑ k, B k j ^ 2 := by
    rw [normSq, Finset.sum_comm]
    exact Finset.sum_congr rfl fun i _ => Finset.sum_congr rfl fun j _ => by ring
  rw [e1, e2, Finset.sum_mul_sum]
  exact Finset.sum_le_sum fun i _ => Finset.sum_le_sum fun j _ => h i j

/-- **C93.** With several systems, or at an isotropic point, the volume changes by an error of fourth
order: an increment `A` without trace and with norm at most `e ≤ 1` changes the plastic volume by a factor
between `1 - e⁴/12` and `1 + e⁴/12`. -/
theorem C93_volume_error (A : M3) (ht : A.trace = 0) (e : ℝ) (he : normSq A ≤ e ^ 2) (h0 : 0 ≤ e)
    (h1 : e ≤ 1) : |(matrixExp A).det - 1| ≤ e ^ 4 / 12 := by
  rw [← det33_eq, C89_isochoric A ht]
  -- the invariants
  have hq2 : (A * A).trace = -2 * secondInvariant A := by
    rw [Matrix.trace_fin_three] at ht
    simp only [Matrix.trace_fin_three, mul3_apply, secondInvariant]
    linear_combination (A 0 0 + A 1 1 + A 2 2) * ht
  have hd3 : (A * A * A).trace = 3 * det33 A := by
    rw [cayley3 A ht, Matrix.trace_add, Matrix.trace_smul, Matrix.trace_smul, ht, Matrix.trace_one]
    simp [mul_comm]
  have n0 := normSq_nonneg A
  have hq : |secondInvariant A| ≤ e ^ 2 / 2 := by
    have b := trace_mul_bound A A
    rw [hq2] at b
    apply abs_le_of_sq_le_sq _ (by positivity)
    nlinarith
  have hd : |det33 A| ≤ e ^ 3 / 3 := by
    have b := trace_mul_bound (A * A) A
    rw [hd3] at b
    have b2 := normSq_mul_le A A
    apply abs_le_of_sq_le_sq _ (by positivity)
    have b3 : normSq (A * A) * normSq A ≤ e ^ 6 := by
      calc normSq (A * A) * normSq A ≤ (normSq A * normSq A) * normSq A :=
            mul_le_mul_of_nonneg_right b2 n0
        _ ≤ (e ^ 2 * e ^ 2) * e ^ 2 := by gcongr
        _ = e ^ 6 := by ring
    nlinarith
  obtain ⟨q, hqq⟩ : ∃ q, q = secondInvariant A := ⟨_, rfl⟩
  obtain ⟨d, hdd⟩ : ∃ d, d = det33 A := ⟨_, rfl⟩
  rw [← hqq] at hq ⊢
  rw [← hdd] at hd ⊢
  have mono : ∀ (m n : ℕ), n ≤ m → e ^ m ≤ e ^ n := fun m n h => pow_le_pow_of_le_one h0 h1 h
  have t1 : |q ^ 2 / 12| ≤ e ^ 4 / 48 := by
    rw [abs_div, abs_pow, abs_of_pos (by norm_num : (0:ℝ) < 12)]
    have : |q| ^ 2 ≤ (e ^ 2 / 2) ^ 2 := by gcongr
    nlinarith
  have t2 : |q * d / 6| ≤ e ^ 4 / 36 := by
    rw [abs_div, abs_mul, abs_of_pos (by norm_num : (0:ℝ) < 6)]
    have : |q| * |d| ≤ (e ^ 2 / 2) * (e ^ 3 / 3) := by gcongr
    nlinarith [mono 5 4 (by norm_num)]
  have t3 : |d ^ 2 / 24| ≤ e ^ 4 / 216 := by
    rw [abs_div, abs_pow, abs_of_pos (by norm_num : (0:ℝ) < 24)]
    have : |d| ^ 2 ≤ (e ^ 3 / 3) ^ 2 := by gcongr
    nlinarith [mono 6 4 (by norm_num)]
  have t4 : |q ^ 3 / 36| ≤ e ^ 4 / 288 := by
    rw [abs_div, abs_pow, abs_of_pos (by norm_num : (0:ℝ) < 36)]
    have : |q| ^ 3 ≤ (e ^ 2 / 2) ^ 3 := by gcongr
    nlinarith [mono 6 4 (by norm_num)]
  have t5 : |q ^ 2 * d / 36| ≤ e ^ 4 / 432 := by
    rw [abs_div, abs_mul, abs_pow, abs_of_pos (by norm_num : (0:ℝ) < 36)]
    have : |q| ^ 2 * |d| ≤ (e ^ 2 / 2) ^ 2 * (e ^ 3 / 3) := by gcongr
    nlinarith [mono 7 4 (by norm_num)]
  have t6 : |q * d ^ 2 / 72| ≤ e ^ 4 / 1296 := by
    rw [abs_div, abs_mul, abs_pow, abs_of_pos (by norm_num : (0:ℝ) < 72)]
    have : |q| * |d| ^ 2 ≤ (e ^ 2 / 2) * (e ^ 3 / 3) ^ 2 := by gcongr
    nlinarith [mono 8 4 (by norm_num)]
  have t7 : |d ^ 3 / 216| ≤ e ^ 4 / 5832 := by
    rw [abs_div, abs_pow, abs_of_pos (by norm_num : (0:ℝ) < 216)]
    have : |d| ^ 3 ≤ (e ^ 3 / 3) ^ 3 := by gcongr
    nlinarith [mono 9 4 (by norm_num)]
  have e4 : 0 ≤ e ^ 4 := by positivity
  rw [abs_le] at *
  constructor <;> linarith [t1.1, t1.2, t2.1, t2.2, t3.1, t3.2, t4.1, t4.2, t5.1, t5.2, t6.1, t6.2, t7.1, t7.2]

/-- Two systems in one plane, each the other with direction and normal exchanged. -/
def pairOfSystems : List (SlipDir × ℝ) := [(⟨![1, 0, 0], ![0, 1, 0]⟩, 1), (⟨![0, 1, 0], ![1, 0, 0]⟩, 1)]

theorem pairOfSystems_velgrad : slipVelgrad 1 pairOfSystems = !![0, 1, 0; 1, 0, 0; 0, 0, 0] := by
  ext i j
  fin_cases i <;> fin_cases j <;> simp [slipVelgrad, pairOfSystems, slipTerm]

/-- **C93 (finding).** Plastic flow on two systems does not keep the volume: with both shear rates one and
an increment `t` the determinant of the plastic part is multiplied by `1 - t⁴/12 - t⁶/36`, so the error
grows with every step in the same direction. -/
theorem C93_volume_fails (t : ℝ) (ht : t ≠ 0) :
    (∀ s ∈ pairOfSystems, InPlane s.1) ∧
      (matrixExp (t • slipVelgrad 1 pairOfSystems)).det = 1 - t ^ 4 / 12 - t ^ 6 / 36 ∧
      (matrixExp (t • slipVelgrad 1 pairOfSystems)).det < 1 := by
  have e : (matrixExp (t • slipVelgrad 1 pairOfSystems)).det = 1 - t ^ 4 / 12 - t ^ 6 / 36 := by
    have htr : (t • slipVelgrad 1 pairOfSystems).trace = 0 := by
      rw [pairOfSystems_velgrad, Matrix.trace_smul, Matrix.trace_fin_three]; simp
    have h1 : secondInvariant (t • slipVelgrad 1 pairOfSystems) = -t ^ 2 := by
      rw [pairOfSystems_velgrad]; simp [secondInvariant]; ring
    have h2 : det33 (t • slipVelgrad 1 pairOfSystems) = 0 := by
      rw [pairOfSystems_velgrad]; simp [det33]
    rw [← det33_eq, C89_isochoric _ htr, h1, h2]
    ring
  refine ⟨?_, e, ?_⟩
  · intro s hs
    simp only [pairOfSystems, List.mem_cons, List.not_mem_nil, or_false] at hs
    rcases hs with rfl | rfl <;> simp [InPlane, dotProduct, Fin.sum_univ_three]
  · rw [e]
    have h4 : 0 < t ^ 4 := by positivity
    have h6 : 0 < t ^ 6 := by positivity
    linarith

/-! ### A case -/

example (q : BasisConst ℝ) (hq : q.Exact) (x : Fin 6 → ℝ) (i j : Fin 3) :
    let st : SlipState := ⟨schmid q 1 1 ⟨![1, 0, 0], ![0, 1, 0]⟩, 1, 1, 0, 1, 3⟩
    chgBasis1 q le_rfl (plasticRate6 [st] x) i j =
      ((1 * slipVelgrad 1 [(⟨![1, 0, 0], ![0, 1, 0]⟩, st.rateAt (st.drive x))] * inv3 1) i j +
        (1 * slipVelgrad 1 [(⟨![1, 0, 0], ![0, 1, 0]⟩, st.rateAt (st.drive x))] * inv3 1) j i) / 2 := by
  intro st
  refine C93_rates_agree q hq 1 1 (by simp) inv3Ok_one (by rw [Matrix.mul_one]; exact inv3Ok_one)
    [(⟨![1, 0, 0], ![0, 1, 0]⟩, st)] ?_ x i j
  intro a ha
  obtain rfl := List.mem_singleton.mp ha
  exact ⟨by simp [InPlane, dotProduct, Fin.sum_univ_three], rfl⟩

end Fierro
