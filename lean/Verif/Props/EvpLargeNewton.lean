import Verif.Props.EvpLargeIso

/-!
# C98: the stress iteration with step cutting
-/

namespace Fierro

open Large

/-- The stress `old + (new - old)/2ᵏ`: the Newton step cut `k` times. -/
noncomputable def halved (old new : Fin 6 → ℝ) (k : ℕ) : Fin 6 → ℝ := fun i =>
  old i + (new i - old i) * (1 / 2) ^ k

/-- The full Newton step from `x` with tangent `T`. -/
noncomputable def fullStep (d : Large.EvpalIn) (T : Dense 6 ℝ) (x : Fin 6 → ℝ) : Fin 6 → ℝ := fun i =>
  x i + ∑ j, -invertView (d.jacobian T) i j * d.residual x j

namespace Large

/-- Admissible flow rule. -/
def Flow.Good : Flow → Prop
  | .crystal sys => ∀ s ∈ sys, s.Good
  | .j2 d => d.Good

/-- Admissible data: positive definite stiffness and reference stiffness, Green operator at the origin
whose quadratic form is not positive, positive time step, admissible flow rule. -/
structure EvpalIn.Good (d : EvpalIn) : Prop where
  cg : PosForm d.cg66
  c0 : PosForm d.c066mod
  gop : ∀ x : Fin 6 → ℝ, ∑ i, ∑ j, x i * d.gop i j * x j ≤ 0
  tdot : 0 < d.tdot
  flow : d.flow.Good

end Large

/-! ### The flow rules -/

theorem flow_monotone (f : Flow) (h : f.Good) (x y : Fin 6 → ℝ) :
    0 ≤ ∑ i, (f.rate6 x i - f.rate6 y i) * (x i - y i) := by
  cases f with
  | j2 d => exact C94_monotone d h x y
  | crystal sys =>
    have e : ∑ i, (plasticRate6 sys x i - plasticRate6 sys y i) * (x i - y i) =
        ∑ i, plasticRate6 sys x i * (x i - y i) - ∑ i, plasticRate6 sys y i * (x i - y i) := by
      rw [← Finset.sum_sub_distrib]
      exact Finset.sum_congr rfl fun i _ => by ring
    show 0 ≤ ∑ i, (plasticRate6 sys x i - plasticRate6 sys y i) * (x i - y i)
    rw [e, plastic_inner, plastic_inner, ← list_sum_sub]
    apply List.sum_nonneg
    intro z hz
    obtain ⟨s, hs, rfl⟩ := List.mem_map.mp hz
    have hm := (C72_monotone s (h s hs)).1
    have hr : s.resolved (fun i => x i - y i) = s.drive x - s.drive y := by
      rw [drive_eq, drive_eq]
      simp only [SlipState.resolved, mul_sub, Finset.sum_sub_distrib]
      ring
    rw [hr]
    rcases le_total (s.drive x) (s.drive y) with hle | hle
    · have := hm _ _ hle
      nlinarith
    · have := hm _ _ hle
      nlinarith

theorem flow_tangent_nonneg (f : Flow) (h : f.Good) (x v : Fin 6 → ℝ) (T : Dense 6 ℝ)
    (hT : f.tangent66 x = some T) : 0 ≤ ∑ i, v i * ∑ j, T i j * v j := by
  cases f with
  | j2 d =>
    have := C94_tangent_nonneg d h x v T hT
    refine le_of_le_of_eq this ?_
    refine Finset.sum_congr rfl fun i _ => ?_
    rw [Finset.mul_sum]
    exact Finset.sum_congr rfl fun j _ => by ring
  | crystal sys =>
    obtain rfl := Option.some.inj hT
    simp only [tangent_apply]
    rw [Fin.sum_univ_castSucc]
    have e0 : v (Fin.last 5) * (if h : (Fin.last 5 : Fin 6).val < 5 then
        (sys.map fun s => s.sch ⟨(Fin.last 5 : Fin 6).val, h⟩ *
          (s.rss1At (s.drive x) * s.resolved v)).sum else 0) = 0 := by
      rw [dif_neg (by simp), mul_zero]
    rw [e0, add_zero]
    have e1 : ∀ k : Fin 5, v k.castSucc * (if h : (k.castSucc : Fin 6).val < 5 then
        (sys.map fun s => s.sch ⟨(k.castSucc : Fin 6).val, h⟩ *
          (s.rss1At (s.drive x) * s.resolved v)).sum else 0) =
        (sys.map fun s => v k.castSucc * (s.sch k * (s.rss1At (s.drive x) * s.resolved v))).sum := by
      intro k
      rw [dif_pos (show (k.castSucc : ℕ) < 5 from k.isLt), ← List.sum_map_mul_left]
      rfl
    simp only [e1]
    rw [sum_list_comm]
    apply List.sum_nonneg
    intro z hz
    obtain ⟨s, hs, rfl⟩ := List.mem_map.mp hz
    have e2 : ∑ k : Fin 5, v k.castSucc * (s.sch k * (s.rss1At (s.drive x) * s.resolved v)) =
        s.rss1At (s.drive x) * (s.resolved v * s.resolved v) := by
      conv_rhs => rw [show s.resolved v * s.resolved v =
        (∑ k : Fin 5, s.sch k * v k.castSucc) * s.resolved v from rfl]
      rw [Finset.sum_mul, Finset.mul_sum]
      exact Finset.sum_congr rfl fun k _ => by ring
    rw [e2]
    exact mul_nonneg (rss1_nonneg s (h s hs) _) (mul_self_nonneg _)

/-- No system of a crystal is exactly unloaded. -/
def Large.Flow.Loaded : Flow → (Fin 6 → ℝ) → Prop
  | .crystal sys, x => ∀ s ∈ sys, s.drive x ≠ 0
  | .j2 _, _ => True

theorem flow_tangent_exact (f : Flow) (h : f.Good) (x v : Fin 6 → ℝ) (T : Dense 6 ℝ)
    (hT : f.tangent66 x = some T) (hl : f.Loaded x) (k : Fin 6) :
    HasDerivAt (fun t : ℝ => f.rate6 (fun k => x k + t * v k) k) (∑ j, T k j * v j) 0 := by
  cases f with
  | j2 d => exact C94_tangent_exact d h x v T hT k
  | crystal sys =>
    obtain rfl := Option.some.inj hT
    show HasDerivAt (fun t : ℝ => plasticRate6 sys (fun k => x k + t * v k) k) _ 0
    rw [tangent_apply]
    by_cases hk : k.val < 5
    · rw [dif_pos hk]
      have e : (fun t : ℝ => plasticRate6 sys (fun k => x k + t * v k) k) = fun t : ℝ =>
          (sys.map fun s => s.sch ⟨k.val, hk⟩ * s.rateAt (s.drive fun k => x k + t * v k)).sum := by
        funext t
        unfold plasticRate6
        rw [dif_pos hk, foldl_list_sum]
      rw [e]
      have hsys : ∀ s ∈ sys, s.Good := h
      have hdr : ∀ s ∈ sys, s.drive x ≠ 0 := hl
      clear e hT h hl
      induction sys with
      | nil => simpa using hasDerivAt_const (0 : ℝ) (0 : ℝ)
      | cons s L ih =>
        simp only [List.map_cons, List.sum_cons]
        refine HasDerivAt.add ?_ (ih (fun s' hs' => hsys s' (List.mem_cons_of_mem _ hs'))
          (fun s' hs' => hdr s' (List.mem_cons_of_mem _ hs')))
        refine HasDerivAt.const_mul _ ?_
        have h1 : HasDerivAt (fun t : ℝ => s.drive fun k => x k + t * v k) (s.resolved v) 0 := by
          have e2 : (fun t : ℝ => s.drive fun k => x k + t * v k) =
              fun t => s.drive x + t * s.resolved v := by
            funext t
            rw [drive_eq, drive_eq]
            simp only [SlipState.resolved, mul_add, Finset.sum_add_distrib, Finset.mul_sum]
            have : ∀ k : Fin 5, s.sch k * (t * v k.castSucc) = t * (s.sch k * v k.castSucc) :=
              fun k => by ring
            simp only [this]
            ring
          rw [e2]
          simpa using ((hasDerivAt_id (0 : ℝ)).mul_const (s.resolved v)).const_add (s.drive x)
        have h2 : HasDerivAt s.rateAt (s.rss1At (s.drive x)) (s.drive fun k => x k + 0 * v k) := by
          simpa using C72_tangent s (hsys s (List.mem_cons_self ..)) (s.drive x)
            (hdr s (List.mem_cons_self ..))
        exact h2.comp (0 : ℝ) h1
    · rw [dif_neg hk]
      have e : (fun t : ℝ => plasticRate6 sys (fun k => x k + t * v k) k) = fun _ => 0 := by
        funext t; unfold plasticRate6; rw [dif_neg hk]
      rw [e]
      exact hasDerivAt_const _ _

/-! ### The equation -/

theorem cg0_apply (d : Large.EvpalIn) (z : Fin 6 → ℝ) (i : Fin 6) :
    ∑ j, d.cg0 i j * z j = ∑ k, d.c066mod i k * ∑ j, d.gop k j * z j := by
  simp only [Large.EvpalIn.cg0, Finset.sum_mul, Finset.mul_sum]
  rw [Finset.sum_comm]
  exact Finset.sum_congr rfl fun k _ => Finset.sum_congr rfl fun j _ => by ring

/-- The residual with the two operators taken together. -/
theorem residual_eq (d : Large.EvpalIn) (x : Fin 6 → ℝ) (i : Fin 6) :
    d.residual x i = x i - d.xlambda6 i + ∑ k, d.c066mod i k * (d.strainceq6 x k - d.strain6 k -
      ∑ j, d.gop k j * (x j - d.xlambda6 j)) := by
  rw [Large.EvpalIn.residual, Finset.sum_sub_distrib, cg0_apply, ← Finset.sum_sub_distrib]
  congr 1
  exact Finset.sum_congr rfl fun k _ => by ring

theorem form_sum (M : Dense 6 ℝ) (z : Fin 6 → ℝ) :
    ∑ i, z i * ∑ j, M i j * z j = ∑ i, ∑ j, z i * M i j * z j :=
  Finset.sum_congr rfl fun i _ => by
    rw [Finset.mul_sum]; exact Finset.sum_congr rfl fun j _ => by ring

theorem large_sg66_nonneg (d : Large.EvpalIn) (hd : d.Good) (z : Fin 6 → ℝ) :
    0 ≤ ∑ i, z i * ∑ j, d.sg66 i j * z j := by
  rw [form_sum]
  by_cases hz : z = 0
  · simp [hz]
  · exact ((invertView_inverse d.cg66 hd.cg).2 _ hz).le

/-- **C98.** The stress equation of a grid point has at most one solution, for crystals and isotropic
phases, whatever exponents, strengths and time step are. -/
theorem C98_unique (d : Large.EvpalIn) (hd : d.Good) (x y : Fin 6 → ℝ) (hx : ∀ i, d.residual x i = 0)
    (hy : ∀ i, d.residual y i = 0) : x = y := by
  have key : (fun i => x i - y i) = 0 := by
    refine zero_of_augmented hd.c0 _ (fun k => d.strainceq6 x k - d.strainceq6 y k -
      ∑ j, d.gop k j * (x j - y j)) ?_ ?_
    · have e : ∑ i, (x i - y i) * (d.strainceq6 x i - d.strainceq6 y i -
          ∑ j, d.gop i j * (x j - y j)) =
          ∑ i, (d.flow.rate6 x i - d.flow.rate6 y i) * (x i - y i) +
            (∑ i, (x i - y i) * ∑ j, d.sg66 i j * (x j - y j)) / d.tdot -
              ∑ i, (x i - y i) * ∑ j, d.gop i j * (x j - y j) := by
        rw [Finset.sum_div, ← Finset.sum_add_distrib, ← Finset.sum_sub_distrib]
        refine Finset.sum_congr rfl fun i _ => ?_
        have e1 : d.strainceq6 x i - d.strainceq6 y i = d.flow.rate6 x i - d.flow.rate6 y i +
            (∑ j, d.sg66 i j * (x j - y j)) / d.tdot := by
          simp only [Large.EvpalIn.strainceq6]
          rw [Finset.sum_div, add_sub_add_comm, ← Finset.sum_sub_distrib]
          congr 1
          exact Finset.sum_congr rfl fun j _ => by ring
        rw [e1]
        ring
      rw [e]
      have h1 := flow_monotone d.flow hd.flow x y
      have h2 := div_nonneg (large_sg66_nonneg d hd fun i => x i - y i) hd.tdot.le
      have h3 := hd.gop fun i => x i - y i
      rw [← form_sum] at h3
      linarith
    · intro i
      have a := hx i
      have b := hy i
      rw [residual_eq] at a b
      have c : ∑ k, d.c066mod i k * (d.strainceq6 x k - d.strainceq6 y k -
            ∑ j, d.gop k j * (x j - y j)) =
          (∑ k, d.c066mod i k * (d.strainceq6 x k - d.strain6 k -
            ∑ j, d.gop k j * (x j - d.xlambda6 j))) -
            ∑ k, d.c066mod i k * (d.strainceq6 y k - d.strain6 k -
              ∑ j, d.gop k j * (y j - d.xlambda6 j)) := by
        rw [← Finset.sum_sub_distrib]
        refine Finset.sum_congr rfl fun k _ => ?_
        have : ∑ j, d.gop k j * (x j - y j) = ∑ j, d.gop k j * (x j - d.xlambda6 j) -
            ∑ j, d.gop k j * (y j - d.xlambda6 j) := by
          rw [← Finset.sum_sub_distrib]
          exact Finset.sum_congr rfl fun j _ => by ring
        rw [this]
        ring
      rw [c]
      linarith
  funext i
  have := congrFun key i
  simp only [Pi.zero_apply] at this
  linarith

/-- **C98.** When the stress found equals the stress handed in, the rate of deformation of the grid point
is the plastic rate plus the elastic compliance times the stress increment over the time step, and
conversely. -/
theorem C98_constitutive (d : Large.EvpalIn) (hd : d.Good) :
    (∀ i, d.residual d.xlambda6 i = 0) ↔
      ∀ i, d.strain6 i = d.flow.rate6 d.xlambda6 i +
        (∑ j, d.sg66 i j * (d.xlambda6 j - d.sgt6 j)) / d.tdot := by
  have hs : ∀ i, d.strainceq6 d.xlambda6 i = d.flow.rate6 d.xlambda6 i +
        (∑ j, d.sg66 i j * (d.xlambda6 j - d.sgt6 j)) / d.tdot := by
    intro i; rw [Finset.sum_div]; rfl
  have hr : ∀ i, d.residual d.xlambda6 i =
      ∑ j, d.c066mod i j * (d.strainceq6 d.xlambda6 j - d.strain6 j) := by
    intro i; simp [Large.EvpalIn.residual]
  constructor
  · intro h i
    obtain ⟨hi, _⟩ := invertView_inverse d.c066mod hd.c0
    have a := apply_inverse hi (fun j => d.strainceq6 d.xlambda6 j - d.strain6 j) i
    have : ∀ k, ∑ j, d.c066mod k j * (d.strainceq6 d.xlambda6 j - d.strain6 j) = 0 := fun k => by
      rw [← hr k]; exact h k
    simp only [this, mul_zero, Finset.sum_const_zero] at a
    rw [← hs i]
    linarith
  · intro h i
    rw [hr]
    refine Finset.sum_eq_zero fun j _ => ?_
    rw [hs j, ← h j, sub_self, mul_zero]

/-! ### The Newton matrix -/

theorem large_jacobian_apply (d : Large.EvpalIn) (T : Dense 6 ℝ) (x : Fin 6 → ℝ) (i : Fin 6) :
    ∑ j, d.jacobian T i j * x j = x i + ∑ k, d.c066mod i k * ((∑ j, T k j * x j) +
      (∑ j, d.sg66 k j * x j) / d.tdot - ∑ j, d.gop k j * x j) := by
  have e : ∀ j, d.jacobian T i j * x j = (if i = j then x j else 0) - d.cg0 i j * x j +
      ∑ k, d.c066mod i k * (T k j * x j + d.sg66 k j * x j / d.tdot) := by
    intro j
    unfold Large.EvpalIn.jacobian
    rw [intDiv_delta6, add_mul, sub_mul, Finset.sum_mul]
    congr 1
    · congr 1
      split_ifs <;> simp
    · exact Finset.sum_congr rfl fun k _ => by ring
  simp only [e, Finset.sum_add_distrib, Finset.sum_sub_distrib]
  rw [Finset.sum_ite_eq Finset.univ i x, if_pos (Finset.mem_univ i), cg0_apply]
  have e2 : ∑ j, ∑ k, d.c066mod i k * (T k j * x j + d.sg66 k j * x j / d.tdot) =
      ∑ k, d.c066mod i k * ((∑ j, T k j * x j) + (∑ j, d.sg66 k j * x j) / d.tdot) := by
    rw [Finset.sum_comm]
    refine Finset.sum_congr rfl fun k _ => ?_
    rw [← Finset.mul_sum, Finset.sum_add_distrib, Finset.sum_div]
  rw [e2, sub_add_eq_add_sub, add_sub_assoc, ← Finset.sum_sub_distrib]
  congr 1
  exact Finset.sum_congr rfl fun k _ => by ring

/-- **C98.** The Newton matrix is regular at every stress at which there is a tangent. -/
theorem C98_jacobian_regular (d : Large.EvpalIn) (hd : d.Good) (sg6 : Fin 6 → ℝ) (T : Dense 6 ℝ)
    (hT : d.flow.tangent66 sg6 = some T) (x : Fin 6 → ℝ)
    (hx : ∀ i, ∑ j, d.jacobian T i j * x j = 0) : x = 0 := by
  refine zero_of_augmented hd.c0 x (fun k => (∑ j, T k j * x j) +
      (∑ j, d.sg66 k j * x j) / d.tdot - ∑ j, d.gop k j * x j) ?_ ?_
  · have e : ∑ i, x i * ((∑ j, T i j * x j) + (∑ j, d.sg66 i j * x j) / d.tdot -
        ∑ j, d.gop i j * x j) = ∑ i, x i * ∑ j, T i j * x j +
          (∑ i, x i * ∑ j, d.sg66 i j * x j) / d.tdot - ∑ i, x i * ∑ j, d.gop i j * x j := by
      rw [Finset.sum_div, ← Finset.sum_add_distrib, ← Finset.sum_sub_distrib]
      exact Finset.sum_congr rfl fun i _ => by ring
    rw [e]
    have h1 := flow_tangent_nonneg d.flow hd.flow sg6 x T hT
    have h2 := div_nonneg (large_sg66_nonneg d hd x) hd.tdot.le
    have h3 := hd.gop x
    rw [← form_sum] at h3
    linarith
  · intro i
    rw [← large_jacobian_apply]
    exact hx i

/-- **C98.** The Newton matrix is the exact derivative of the residual in every direction, at every stress
at which there is a tangent and no system of a crystal is exactly unloaded. -/
theorem C98_jacobian_exact (d : Large.EvpalIn) (hd : d.Good) (sg6 v : Fin 6 → ℝ) (T : Dense 6 ℝ)
    (hT : d.flow.tangent66 sg6 = some T) (hl : d.flow.Loaded sg6) (i : Fin 6) :
    HasDerivAt (fun t : ℝ => d.residual (fun k => sg6 k + t * v k) i)
      (∑ j, d.jacobian T i j * v j) 0 := by
  rw [large_jacobian_apply]
  simp only [residual_eq]
  have hlin : ∀ k : Fin 6, HasDerivAt (fun t : ℝ => sg6 k + t * v k) (v k) 0 := by
    intro k
    have := ((hasDerivAt_id (0 : ℝ)).mul_const (v k)).const_add (sg6 k)
    simpa using this
  have hceq : ∀ k : Fin 6, HasDerivAt (fun t : ℝ => d.strainceq6 (fun k => sg6 k + t * v k) k)
      ((∑ j, T k j * v j) + (∑ j, d.sg66 k j * v j) / d.tdot) 0 := by
    intro k
    unfold Large.EvpalIn.strainceq6
    refine HasDerivAt.add (flow_tangent_exact d.flow hd.flow sg6 v T hT hl k) ?_
    rw [Finset.sum_div]
    exact HasDerivAt.fun_sum fun j _ => (((hlin j).sub_const _).const_mul _).div_const _
  refine HasDerivAt.add ((hlin i).sub_const _) ?_
  refine HasDerivAt.fun_sum fun k _ => HasDerivAt.const_mul _ ?_
  refine HasDerivAt.sub ((hceq k).sub_const _) ?_
  exact HasDerivAt.fun_sum fun j _ => ((hlin j).sub_const _).const_mul _

/-- **C98.** A full step with a completed inversion solves the linearised equation, so it leaves the
stress unchanged exactly when the residual is zero. -/
theorem C98_full_step (d : Large.EvpalIn) (T : Dense 6 ℝ) (x : Fin 6 → ℝ)
    (hf : (invertMatrix fun i j => d.jacobian T j i).finished = true) :
    (∀ i, ∑ j, d.jacobian T i j * (fullStep d T x j - x j) = -d.residual x i) ∧
    (fullStep d T x = x ↔ ∀ i, d.residual x i = 0) := by
  have hi : InverseOf (d.jacobian T) (invertView (d.jacobian T)) := C65_column_major _ hf
  have hstep : ∀ j, fullStep d T x j - x j = -∑ k, invertView (d.jacobian T) j k * d.residual x k := by
    intro j
    simp only [fullStep, neg_mul, Finset.sum_neg_distrib]
    ring
  have hi' : InverseOf (invertView (d.jacobian T)) (d.jacobian T) := fun i j =>
    ⟨(hi i j).2, (hi i j).1⟩
  have h1 : ∀ i, ∑ j, d.jacobian T i j * (fullStep d T x j - x j) = -d.residual x i := by
    intro i
    simp only [hstep, mul_neg, Finset.sum_neg_distrib]
    rw [apply_inverse hi']
  refine ⟨h1, ?_, ?_⟩
  · intro h i
    have := h1 i
    rw [h] at this
    simp at this
    exact this
  · intro h
    funext j
    have := hstep j
    simp only [h, mul_zero, Finset.sum_const_zero, neg_zero] at this
    linarith

/-! ### Cutting -/

theorem halved_zero (old new : Fin 6 → ℝ) : halved old new 0 = new := by
  funext i; simp [halved]

theorem halved_succ (old new : Fin 6 → ℝ) (k : ℕ) :
    halved old (fun i => old i + (new i - old i) * (1 / 2)) k = halved old new (k + 1) := by
  funext i
  simp only [halved]
  rw [pow_succ]
  ring

theorem cut_general (d : Large.EvpalIn) (old : Fin 6 → ℝ) (left : ℕ) (c : Cut) (resold : ℝ)
    (hgt : c.resn > resold) : ∃ m, m ≤ left ∧
      (d.cut false old (left + 1) c resold).at_ = halved old c.cur m ∧
      (d.cut false old (left + 1) c resold).resn = len6 (d.residual (halved old c.cur m)) ∧
      (∀ k, k < m → resold < len6 (d.residual (halved old c.cur k))) ∧
      ((len6 (d.residual (halved old c.cur m)) ≤ resold ∧
          (d.cut false old (left + 1) c resold).cur = halved old c.cur m) ∨
        (m = left ∧ resold < len6 (d.residual (halved old c.cur m)) ∧
          (d.cut false old (left + 1) c resold).cur = halved old c.cur (left + 1))) := by
  induction left generalizing c with
  | zero =>
    refine ⟨0, le_rfl, ?_⟩
    rw [Large.EvpalIn.cut, if_pos hgt]
    simp only [Bool.false_eq_true, if_false, Large.EvpalIn.cut, halved_zero]
    refine ⟨trivial, trivial, fun k hk => absurd hk (Nat.not_lt_zero k), ?_⟩
    by_cases h : len6 (d.residual c.cur) > resold
    · right
      rw [if_pos h]
      refine ⟨trivial, h, ?_⟩
      rw [← halved_succ, halved_zero]
    · left
      rw [if_neg h]
      exact ⟨not_lt.mp h, rfl⟩
  | succ l ih =>
    rw [Large.EvpalIn.cut, if_pos hgt]
    simp only [Bool.false_eq_true, if_false]
    by_cases h : len6 (d.residual c.cur) > resold
    · rw [if_pos h]
      obtain ⟨m, hm, h1, h2, h3, h4⟩ := ih ⟨fun i => old i + (c.cur i - old i) * (1 / 2), c.cur,
        len6 (d.residual c.cur)⟩ h
      simp only [halved_succ] at h1 h2 h3 h4
      refine ⟨m + 1, by omega, h1, h2, ?_, ?_⟩
      · intro k hk
        cases k with
        | zero => rw [halved_zero]; exact h
        | succ k => exact h3 k (by omega)
      · rcases h4 with h4 | ⟨hm', h5, h6⟩
        · exact Or.inl h4
        · exact Or.inr ⟨by omega, h5, h6⟩
    · rw [if_neg h]
      refine ⟨0, Nat.zero_le _, ?_⟩
      rw [Large.EvpalIn.cut, if_neg h]
      simp only [halved_zero]
      exact ⟨trivial, trivial, fun k hk => absurd hk (Nat.not_lt_zero k), Or.inl ⟨not_lt.mp h, trivial⟩⟩

/-- **C98.** The cutting of a step.  The stress evaluated last is the first of the stresses
`old + (new - old)/2ᵏ`, `k = 0, …, 9`, whose residual is not longer than the one before the step, and it is
the stress kept; when all ten residuals are longer, the tenth was evaluated last and the stress kept is
cut once more, without an evaluation. -/
theorem C98_cut (d : Large.EvpalIn) (old new at0 : Fin 6 → ℝ) (r : ℝ) (hr : 0 < r) :
    let c := d.cut false old 10 ⟨new, at0, 2 * r⟩ r
    c.resn = len6 (d.residual c.at_) ∧
    ((∃ m, m < 10 ∧ (∀ k, k < m → r < len6 (d.residual (halved old new k))) ∧
        len6 (d.residual (halved old new m)) ≤ r ∧ c.at_ = halved old new m ∧ c.cur = halved old new m) ∨
      ((∀ k, k < 10 → r < len6 (d.residual (halved old new k))) ∧
        c.at_ = halved old new 9 ∧ c.cur = halved old new 10)) := by
  intro c
  obtain ⟨m, hm, h1, h2, h3, h4⟩ := cut_general d old 9 ⟨new, at0, 2 * r⟩ r
    (show 2 * r > r by linarith)
  refine ⟨h2.trans (by rw [← h1]), ?_⟩
  rcases h4 with ⟨h5, h6⟩ | ⟨h7, h5, h6⟩
  · exact Or.inl ⟨m, by omega, h3, h5, h1, h6⟩
  · subst h7
    refine Or.inr ⟨fun k hk => ?_, h1, h6⟩
    rcases Nat.lt_or_ge k 9 with h | h
    · exact h3 k h
    · obtain rfl : k = 9 := by omega
      exact h5

/-- **C98.** A step of which some cut down to the ninth does not lengthen the residual, leaves a stress
with a residual that is not longer. -/
theorem C98_cut_descends (d : Large.EvpalIn) (old new at0 : Fin 6 → ℝ) (r : ℝ) (hr : 0 < r) (m : ℕ)
    (hm : m < 10) (h : len6 (d.residual (halved old new m)) ≤ r) :
    let c := d.cut false old 10 ⟨new, at0, 2 * r⟩ r
    len6 (d.residual c.cur) ≤ r ∧ c.at_ = c.cur ∧ c.resn = len6 (d.residual c.cur) := by
  intro c
  obtain ⟨h0, ⟨m', _, _, h5, h6, h7⟩ | ⟨h1, _, _⟩⟩ := C98_cut d old new at0 r hr
  · refine ⟨?_, ?_, ?_⟩
    · show len6 (d.residual (d.cut false old 10 ⟨new, at0, 2 * r⟩ r).cur) ≤ r
      rw [h7]; exact h5
    · exact h6.trans h7.symm
    · refine h0.trans ?_
      rw [h6, ← h7]
  · exact absurd h (not_le.mpr (h1 m hm))

/-- The first iteration evaluates the stress handed in. -/
theorem cut_first (d : Large.EvpalIn) (old junk : Fin 6 → ℝ) :
    d.cut true old 10 ⟨d.xlambda6, junk, 2 * 1⟩ 1 =
      ⟨d.xlambda6, d.xlambda6, len6 (d.residual d.xlambda6)⟩ := by
  rw [Large.EvpalIn.cut, if_pos (by norm_num)]
  simp only [if_true, lt_irrefl, gt_iff_lt, if_false]
  rw [Large.EvpalIn.cut, if_neg (lt_irrefl _)]

/-! ### The loop -/

open Classical in
theorem large_loop_succ (d : Large.EvpalIn) (left it : ℕ) (old : Fin 6 → ℝ) (c : Cut) :
    d.loop (left + 1) it old c =
      (d.flow.tangent66 (d.cut (it == 0) old 10 ⟨c.cur, c.at_, 2 * c.resn⟩ c.resn).at_).bind fun T =>
        if Large.EvpalIn.goesOn (d.newton T (d.cut (it == 0) old 10 ⟨c.cur, c.at_, 2 * c.resn⟩ c.resn))
            (d.cut (it == 0) old 10 ⟨c.cur, c.at_, 2 * c.resn⟩ c.resn).cur d.sgnorm then
          d.loop left (it + 1) (d.cut (it == 0) old 10 ⟨c.cur, c.at_, 2 * c.resn⟩ c.resn).cur
            ⟨d.newton T (d.cut (it == 0) old 10 ⟨c.cur, c.at_, 2 * c.resn⟩ c.resn),
              (d.cut (it == 0) old 10 ⟨c.cur, c.at_, 2 * c.resn⟩ c.resn).at_,
              (d.cut (it == 0) old 10 ⟨c.cur, c.at_, 2 * c.resn⟩ c.resn).resn⟩
        else some (it + 1, d.newton T (d.cut (it == 0) old 10 ⟨c.cur, c.at_, 2 * c.resn⟩ c.resn),
          (d.cut (it == 0) old 10 ⟨c.cur, c.at_, 2 * c.resn⟩ c.resn).at_) := rfl

open Classical in
theorem solve_start (d : Large.EvpalIn) (junk : Fin 6 → ℝ) :
    d.solve junk = (d.flow.tangent66 d.xlambda6).bind fun T =>
      if Large.EvpalIn.goesOn (fullStep d T d.xlambda6) d.xlambda6 d.sgnorm then
        d.loop 99 1 d.xlambda6 ⟨fullStep d T d.xlambda6, d.xlambda6, len6 (d.residual d.xlambda6)⟩
      else some (1, fullStep d T d.xlambda6, d.xlambda6) := by
  have h : (d.cut (0 == 0) junk 10 ⟨d.xlambda6, junk, 2 * 1⟩ 1) =
      ⟨d.xlambda6, d.xlambda6, len6 (d.residual d.xlambda6)⟩ := cut_first d junk junk
  show d.loop (99 + 1) 0 junk ⟨d.xlambda6, junk, 1⟩ = _
  rw [large_loop_succ]
  simp only [h]
  rfl

/-- **C98.** The previous stress and the residual are not set before the first iteration; what they hold
never matters. -/
theorem C98_start (d : Large.EvpalIn) (junk junk' : Fin 6 → ℝ) : d.run junk = d.run junk' := by
  have : d.solve junk = d.solve junk' := by rw [solve_start, solve_start]
  rw [Large.EvpalIn.run, Large.EvpalIn.run, this]

theorem large_loop_count (d : Large.EvpalIn) (left it : ℕ) (old : Fin 6 → ℝ) (c : Cut)
    (r : ℕ × (Fin 6 → ℝ) × (Fin 6 → ℝ)) (h : d.loop left it old c = some r) :
    it ≤ r.1 ∧ r.1 ≤ it + left := by
  induction left generalizing it old c with
  | zero =>
    rw [Large.EvpalIn.loop] at h
    obtain rfl := Option.some.inj h
    simp
  | succ l ih =>
    rw [large_loop_succ] at h
    obtain ⟨T, _, hT⟩ := Option.bind_eq_some_iff.mp h
    split_ifs at hT
    · have := ih _ _ _ hT
      omega
    · obtain rfl := Option.some.inj hT
      simp

/-- **C98.** Every grid point does at least one and at most one hundred iterations. -/
theorem C98_terminates (d : Large.EvpalIn) (junk : Fin 6 → ℝ) (n : ℕ) (S D : T2 ℝ)
    (h : d.run junk = some (n, S, D)) : 1 ≤ n ∧ n ≤ 100 := by
  rw [Large.EvpalIn.run, Option.map_eq_some_iff] at h
  obtain ⟨r, hr, he⟩ := h
  have hn : r.1 = n := congrArg Prod.fst he
  rw [solve_start] at hr
  obtain ⟨T, _, hT⟩ := Option.bind_eq_some_iff.mp hr
  split_ifs at hT
  · have := large_loop_count d _ _ _ _ r hT
    omega
  · obtain rfl := Option.some.inj hT
    simp at hn
    omega

/-- A Newton step that nine halvings do not save: the residual of the full step and of its nine halvings
are all longer than before the step. -/
def Exhausted (d : Large.EvpalIn) : Prop :=
  ∃ (x : Fin 6 → ℝ) (T : Dense 6 ℝ), d.flow.tangent66 x = some T ∧
    ∀ k, k < 10 → len6 (d.residual x) < len6 (d.residual (halved x (fullStep d T x) k))

theorem len6_nonneg (x : Fin 6 → ℝ) : 0 ≤ len6 x := Real.sqrt_nonneg _

theorem loop_descends (d : Large.EvpalIn) (hx : ¬ Exhausted d) (left it : ℕ) (hit : it ≠ 0)
    (old : Fin 6 → ℝ) (T : Dense 6 ℝ) (hT : d.flow.tangent66 old = some T)
    (r : ℕ × (Fin 6 → ℝ) × (Fin 6 → ℝ))
    (h : d.loop left it old ⟨fullStep d T old, old, len6 (d.residual old)⟩ = some r) :
    len6 (d.residual r.2.2) ≤ len6 (d.residual old) := by
  induction left generalizing it old T with
  | zero =>
    rw [Large.EvpalIn.loop] at h
    obtain rfl := Option.some.inj h
    exact le_rfl
  | succ l ih =>
    have hb : (it == 0) = false := by simpa using hit
    rw [large_loop_succ, hb] at h
    obtain ⟨c, hc⟩ : ∃ c, c = d.cut false old 10 ⟨fullStep d T old, old, 2 * len6 (d.residual old)⟩
        (len6 (d.residual old)) := ⟨_, rfl⟩
    simp only [← hc] at h
    have key : len6 (d.residual c.at_) ≤ len6 (d.residual old) ∧ c.resn = len6 (d.residual c.at_) ∧
        (c.cur = c.at_ ∨ ∀ i, d.residual old i = 0 ∧ c.at_ = old) := by
      rcases eq_or_lt_of_le (len6_nonneg (d.residual old)) with h0 | hpos
      · have e : c = ⟨fullStep d T old, old, 2 * len6 (d.residual old)⟩ := by
          rw [hc, Large.EvpalIn.cut, if_neg]
          rw [← h0]; norm_num
        rw [e]
        refine ⟨le_rfl, ?_, Or.inr ?_⟩
        · show 2 * len6 (d.residual old) = len6 (d.residual old)
          rw [← h0]; norm_num
        · have hs : ∑ i, d.residual old i * d.residual old i = 0 := by
            have := h0.symm
            rw [len6, Real.sqrt_eq_zero (Finset.sum_nonneg fun _ _ => mul_self_nonneg _)] at this
            exact this
          intro i
          rw [Finset.sum_eq_zero_iff_of_nonneg fun _ _ => mul_self_nonneg _] at hs
          exact ⟨mul_self_eq_zero.mp (hs i (Finset.mem_univ i)), rfl⟩
      · obtain ⟨h0, ⟨m, _, _, h5, h6, h7⟩ | ⟨h1, _, _⟩⟩ := C98_cut d old (fullStep d T old) old _ hpos
        · rw [← hc] at h0 h6 h7
          exact ⟨by rw [h6]; exact h5, h0, Or.inl (h7.trans h6.symm)⟩
        · exact absurd ⟨old, T, hT, h1⟩ hx
    obtain ⟨k1, k2, k3⟩ := key
    obtain ⟨T', hT', hb'⟩ := Option.bind_eq_some_iff.mp h
    split_ifs at hb' with hg
    · rcases k3 with k3 | k3
      · have e : d.newton T' c = fullStep d T' c.at_ := by
          funext i; simp only [Large.EvpalIn.newton, fullStep, k3]
        rw [e, k2, k3] at hb'
        exact (ih (it + 1) (by omega) c.at_ T' hT' hb').trans k1
      · exfalso
        have e : d.newton T' c = c.cur := by
          funext i
          have hz : ∀ j, d.residual c.at_ j = 0 := fun j => by rw [(k3 j).2]; exact (k3 j).1
          simp [Large.EvpalIn.newton, hz]
        rw [← hc, e, Large.EvpalIn.goesOn] at hg
        simp only [sub_self, len6, mul_zero, Finset.sum_const_zero, Real.sqrt_zero] at hg
        split_ifs at hg
        · exact hg rfl
        · norm_num at hg
    · obtain rfl := Option.some.inj hb'
      exact k1

/-- **C98.** Either some full Newton step would have needed more than nine cuts, or the residual at the
stress evaluated last, the one whose plastic rate is stored, is not longer than the residual of the stress
handed in. -/
theorem C98_descends (d : Large.EvpalIn) (junk : Fin 6 → ℝ) (n : ℕ) (x a : Fin 6 → ℝ)
    (h : d.solve junk = some (n, x, a)) :
    len6 (d.residual a) ≤ len6 (d.residual d.xlambda6) ∨ Exhausted d := by
  by_cases hx : Exhausted d
  · exact Or.inr hx
  left
  rw [solve_start] at h
  obtain ⟨T, hT, hb⟩ := Option.bind_eq_some_iff.mp h
  split_ifs at hb
  · exact loop_descends d hx 99 1 one_ne_zero _ T hT _ hb
  · obtain ⟨_, _, rfl⟩ : 1 = n ∧ fullStep d T d.xlambda6 = x ∧ d.xlambda6 = a := by
      simpa using hb
    exact le_rfl

theorem goesOn_false {new old : Fin 6 → ℝ} {norm : ℝ} (hn : 0 ≤ norm)
    (h : ¬ Large.EvpalIn.goesOn new old norm) : len6 (fun i => new i - old i) ≤ norm / 10 ^ 10 := by
  rw [Large.EvpalIn.goesOn] at h
  split_ifs at h with h0
  · push Not at h
    rw [h, h0]; norm_num
  · have hp : 0 < norm := lt_of_le_of_ne hn (Ne.symm h0)
    rw [gt_iff_lt, not_lt, div_le_iff₀ hp] at h
    linarith

theorem loop_exit (d : Large.EvpalIn) (left it : ℕ) (old : Fin 6 → ℝ) (c : Cut)
    (r : ℕ × (Fin 6 → ℝ) × (Fin 6 → ℝ)) (h : d.loop left it old c = some r) (hr : r.1 < it + left) :
    ∃ T, d.flow.tangent66 r.2.2 = some T ∧
      len6 (fun i => ∑ j, -invertView (d.jacobian T) i j * d.residual r.2.2 j) ≤ d.sgnorm / 10 ^ 10 := by
  induction left generalizing it old c with
  | zero =>
    rw [Large.EvpalIn.loop] at h
    obtain rfl := Option.some.inj h
    simp at hr
  | succ l ih =>
    rw [large_loop_succ] at h
    obtain ⟨T, hT0, hT⟩ := Option.bind_eq_some_iff.mp h
    split_ifs at hT with hg
    · exact ih _ _ _ hT (by omega)
    · have := goesOn_false (show 0 ≤ d.sgnorm from Real.sqrt_nonneg _) hg
      obtain rfl := Option.some.inj hT
      refine ⟨T, hT0, ?_⟩
      simpa [Large.EvpalIn.newton] using this

/-- **C98.** When fewer than one hundred iterations are reported, the Newton correction at the stress
evaluated last is at most `10⁻¹⁰` of the length of the stress handed in; with a completed inversion the
residual there is the Newton matrix times that correction. -/
theorem C98_exit (d : Large.EvpalIn) (junk : Fin 6 → ℝ) (n : ℕ) (x a : Fin 6 → ℝ)
    (h : d.solve junk = some (n, x, a)) (hn : n < 100) :
    ∃ (T : Dense 6 ℝ) (s : Fin 6 → ℝ), d.flow.tangent66 a = some T ∧ len6 s ≤ d.sgnorm / 10 ^ 10 ∧
      ((invertMatrix fun i j => d.jacobian T j i).finished = true →
        ∀ i, d.residual a i = -∑ j, d.jacobian T i j * s j) := by
  obtain ⟨T, hT, hs⟩ := loop_exit d 100 0 junk _ (n, x, a) h (by simpa using hn)
  refine ⟨T, _, hT, hs, fun hf i => ?_⟩
  have := (C98_full_step d T a hf).1 i
  simp only [fullStep, add_sub_cancel_left] at this
  linarith

/-- **C98.** The plastic rate stored is the one of the flow rule at a stress whose residual is not longer than
the residual of the stress handed in (or a step was exhausted), and whose Newton correction is at most `10⁻¹⁰` of that
stress when fewer than one hundred iterations are reported. -/
theorem C98_stored_rate (d : Large.EvpalIn) (hq : d.q.Exact) (junk : Fin 6 → ℝ) (n : ℕ) (S D : T2 ℝ)
    (h : d.run junk = some (n, S, D)) :
    ∃ a : Fin 6 → ℝ, chgBasis2 d.q le_rfl D = d.flow.rate6 a ∧
      (len6 (d.residual a) ≤ len6 (d.residual d.xlambda6) ∨ Exhausted d) ∧
      (n < 100 → ∃ (T : Dense 6 ℝ) (s : Fin 6 → ℝ), d.flow.tangent66 a = some T ∧ len6 s ≤ d.sgnorm / 10 ^ 10 ∧
        ((invertMatrix fun i j => d.jacobian T j i).finished = true →
          ∀ i, d.residual a i = -∑ j, d.jacobian T i j * s j)) := by
  rw [Large.EvpalIn.run, Option.map_eq_some_iff] at h
  obtain ⟨⟨m, x, a⟩, hr, he⟩ := h
  obtain ⟨rfl, rfl, rfl⟩ : m = n ∧ chgBasis1 d.q le_rfl x = S ∧ chgBasis1 d.q le_rfl (d.flow.rate6 a) = D := by
    simpa using he
  exact ⟨a, C66_vector_roundtrip d.q hq _ _, C98_descends d junk m x a hr, C98_exit d junk m x a hr⟩

/-! ### Witness -/

/-- One cubic system along the first component, no stress, a fast deformation along it. -/
noncomputable def fastPull (q : BasisConst ℝ) : Large.EvpalIn where
  q := q
  sg := fun _ _ => 0
  sgt := fun _ _ => 0
  velgrad := chgBasis1 q (le_refl 6) fun i => if i = 0 then 2 ^ 20 else 0
  cg66 := diagW 1 1
  c066mod := diagW 1 1
  gop := fun _ _ => 0
  flow := .crystal [⟨fun k => if k = 0 then 1 else 0, 1, 1, 0, 1, 3⟩]
  tdot := 1

theorem fastPull_good (q : BasisConst ℝ) : (fastPull q).Good where
  cg := diagW_pos 1 1 one_pos one_pos
  c0 := diagW_pos 1 1 one_pos one_pos
  gop := by intro x; simp [fastPull]
  tdot := one_pos
  flow := by
    intro s hs
    simp only [List.mem_singleton] at hs
    subst hs
    exact ⟨one_pos, one_pos, zero_le_one, by norm_num⟩

/-- The stress `t` along the first component. -/
def along (t : ℝ) : Fin 6 → ℝ := fun i => if i = 0 then t else 0

theorem len6_along (t : ℝ) : len6 (along t) = |t| := by
  rw [len6, ← Real.sqrt_sq_eq_abs]
  congr 1
  rw [Finset.sum_eq_single 0]
  · simp [along, sq]
  · intro b _ hb; simp [along, hb]
  · simp

theorem halved_along (s t : ℝ) (k : ℕ) : halved (along s) (along t) k = along (s + (t - s) * (1 / 2) ^ k) := by
  funext i
  by_cases h : i = 0
  · simp [halved, along, h]
  · simp [halved, along, h]

theorem fastPull_lambda (q : BasisConst ℝ) : (fastPull q).xlambda6 = along 0 := by
  funext i
  simp [Large.EvpalIn.xlambda6, fastPull, chgBasis2, along]

theorem fastPull_strain (q : BasisConst ℝ) (hq : q.Exact) : (fastPull q).strain6 = along (2 ^ 20) := by
  have e : (fun i j => ((fastPull q).velgrad i j + (fastPull q).velgrad j i) / 2) =
      chgBasis1 q (le_refl 6) fun i => if i = 0 then 2 ^ 20 else 0 := by
    funext i j
    have hs := C66_symmetric q (le_refl 6) (fun i => if i = 0 then (2 : ℝ) ^ 20 else 0) i j
    have e : (fastPull q).velgrad = chgBasis1 q (le_refl 6) fun i => if i = 0 then (2 : ℝ) ^ 20 else 0 := rfl
    rw [e, ← hs]
    ring
  show chgBasis2 q le_rfl (fun i j => ((fastPull q).velgrad i j + (fastPull q).velgrad j i) / 2) = _
  rw [e, C66_vector_roundtrip q hq]
  rfl

theorem fastPull_sg66 (q : BasisConst ℝ) : (fastPull q).sg66 = diagW 1 1 := by
  have := diagW_inverse 1 1 one_pos one_pos
  rw [inv_one] at this
  exact this

theorem cubic_rate (t : ℝ) (ht : 0 ≤ t) :
    (⟨fun k => if k = 0 then 1 else 0, 1, 1, 0, 1, 3⟩ : SlipState).rateAt t = t ^ 3 := by
  rw [C72_flow_rule _ ⟨one_pos, one_pos, zero_le_one, by norm_num⟩ 3 rfl, if_neg (not_lt.mpr ht)]
  simp

theorem fastPull_residual (q : BasisConst ℝ) (hq : q.Exact) (t : ℝ) (ht : 0 ≤ t) :
    (fastPull q).residual (along t) = along (2 * t + t ^ 3 - 2 ^ 20) := by
  have hrate : (fastPull q).flow.rate6 (along t) = along (t ^ 3) := by
    funext i
    show plasticRate6 [⟨fun k => if k = 0 then 1 else 0, 1, 1, 0, 1, 3⟩] (along t) i = _
    unfold plasticRate6
    have hd : (⟨fun k => if k = 0 then 1 else 0, 1, 1, 0, 1, 3⟩ : SlipState).drive (along t) = t := by
      simp [SlipState.drive, along]
    simp only [List.foldl_cons, List.foldl_nil, hd, cubic_rate t ht]
    fin_cases i <;> simp [along]
  have hsgt : (fastPull q).sgt6 = fun _ => 0 := by
    funext i; simp [Large.EvpalIn.sgt6, fastPull, chgBasis2]
  have hceq : (fastPull q).strainceq6 (along t) = along (t + t ^ 3) := by
    funext i
    have e := diagW_apply 1 1 (along t) i
    have e1 : (fastPull q).strainceq6 (along t) i = along (t ^ 3) i + ∑ j, diagW 1 1 i j * along t j := by
      rw [Large.EvpalIn.strainceq6, hrate, fastPull_sg66, hsgt]
      congr 1
      refine Finset.sum_congr rfl fun j _ => ?_
      show diagW 1 1 i j * (along t j - 0) / 1 = _
      ring
    rw [e1, e]
    by_cases h : i = 0
    · simp [along, h]; ring
    · simp [along, h]
  funext i
  rw [residual_eq, hceq, fastPull_strain q hq, fastPull_lambda]
  have e : ∀ k, (along (t + t ^ 3) k - along (2 ^ 20) k - ∑ j, (fastPull q).gop k j *
      (along t j - along 0 j)) = along (t + t ^ 3 - 2 ^ 20) k := by
    intro k
    have : ∑ j, (fastPull q).gop k j * (along t j - along 0 j) = 0 := by simp [fastPull]
    rw [this]
    by_cases h : k = 0 <;> simp [along, h]
  simp only [e]
  have e2 := diagW_apply 1 1 (along (t + t ^ 3 - 2 ^ 20)) i
  have e3 : ∑ k, (fastPull q).c066mod i k * along (t + t ^ 3 - 2 ^ 20) k = _ := e2
  rw [e3]
  by_cases h : i = 0
  · simp [along, h]; ring
  · simp [along, h]

theorem fastPull_step (q : BasisConst ℝ) (hq : q.Exact) : ∃ T,
    (fastPull q).flow.tangent66 (along 0) = some T ∧ fullStep (fastPull q) T (along 0) = along (2 ^ 19) := by
  refine ⟨_, rfl, ?_⟩
  have hz : plasticTangent66 [⟨fun k => if k = 0 then 1 else 0, 1, 1, 0, 1, 3⟩] (along 0) =
      fun _ _ => 0 := by
    funext i j
    have h1 : (⟨fun k => if k = 0 then 1 else 0, 1, 1, 0, 1, 3⟩ : SlipState).rss1At
        ((⟨fun k => if k = 0 then 1 else 0, 1, 1, 0, 1, 3⟩ : SlipState).drive (along 0)) = 0 := by
      have hd : (⟨fun k => if k = 0 then 1 else 0, 1, 1, 0, 1, 3⟩ : SlipState).drive (along 0) = 0 := by
        simp [SlipState.drive, along]
      rw [hd]
      have hp : powIntExpo (0 : ℝ) 2 = 0 := by
        rw [C65_power _ _ (Or.inr (by norm_num : (0 : ℤ) ≤ 2))]; norm_num
      simp [SlipState.rss1At, SlipState.rssAt, hp]
    unfold plasticTangent66
    simp only [List.foldl_cons, List.foldl_nil, h1]
    simp
  have hJ : (fastPull q).jacobian (plasticTangent66
      [⟨fun k => if k = 0 then 1 else 0, 1, 1, 0, 1, 3⟩] (along 0)) = diagW 2 2 := by
    funext i j
    unfold Large.EvpalIn.jacobian
    rw [intDiv_delta6, fastPull_sg66, hz]
    have e := diagW_apply 1 1 (fun k => diagW 1 1 k j) i
    have e1 : ∑ k, (fastPull q).c066mod i k * (diagW 1 1 k j / (fastPull q).tdot + 0) =
        ∑ k, diagW 1 1 i k * diagW 1 1 k j := by
      refine Finset.sum_congr rfl fun k _ => ?_
      show diagW 1 1 i k * (diagW 1 1 k j / 1 + 0) = _
      ring
    have e2 : (fastPull q).cg0 i j = 0 := by simp [Large.EvpalIn.cg0, fastPull]
    rw [e1, e, e2]
    by_cases h : i = j
    · simp [diagW, h]; norm_num
    · simp [diagW, h]
  funext i
  show along 0 i + ∑ j, -invertView ((fastPull q).jacobian (plasticTangent66
      [⟨fun k => if k = 0 then 1 else 0, 1, 1, 0, 1, 3⟩] (along 0))) i j *
      (fastPull q).residual (along 0) j = _
  rw [hJ, diagW_inverse 2 2 two_pos two_pos, fastPull_residual q hq 0 le_rfl]
  simp only [neg_mul, Finset.sum_neg_distrib]
  rw [diagW_apply]
  by_cases h : i = 0
  · simp [along, h]; norm_num
  · simp [along, h]

/-- **C98.** The step cutting gives up after ten evaluations and goes on with the stress it has: for a grid
point pulled fast from rest with a cubic flow rule, the first Newton step and its first nine halvings all
lengthen the residual.  The stress kept is halved a tenth time without being evaluated, its residual is longer than before
the step, and the next correction is computed from the residual and the tangent of another stress, twice as
large. -/
theorem C98_ten_cuts_fails (q : BasisConst ℝ) (hq : q.Exact) :
    ∃ (d : Large.EvpalIn) (T : Dense 6 ℝ), d.q = q ∧ d.Good ∧ Exhausted d ∧
      d.flow.tangent66 d.xlambda6 = some T ∧
      let c := d.cut false d.xlambda6 10 ⟨fullStep d T d.xlambda6, d.xlambda6,
        2 * len6 (d.residual d.xlambda6)⟩ (len6 (d.residual d.xlambda6))
      len6 (d.residual d.xlambda6) < len6 (d.residual c.cur) ∧ c.cur ≠ c.at_ ∧
        c.at_ 0 = 2 * c.cur 0 := by
  obtain ⟨T, hT, hs⟩ := fastPull_step q hq
  have hres : ∀ t, 0 ≤ t → len6 ((fastPull q).residual (along t)) = |2 * t + t ^ 3 - 2 ^ 20| := by
    intro t ht
    rw [fastPull_residual q hq t ht, len6_along]
  have h0 : len6 ((fastPull q).residual (along 0)) = 2 ^ 20 := by
    rw [hres 0 le_rfl]; norm_num
  have hbig : ∀ t, 2 ^ 9 ≤ t → (2 : ℝ) ^ 20 < len6 ((fastPull q).residual (along t)) := by
    intro t ht
    rw [hres t (by linarith [show (0 : ℝ) < 2 ^ 9 by norm_num])]
    refine lt_of_lt_of_le ?_ (le_abs_self _)
    have : (2 : ℝ) ^ 27 ≤ t ^ 3 := by
      calc (2 : ℝ) ^ 27 = (2 ^ 9) ^ 3 := by norm_num
        _ ≤ t ^ 3 := pow_le_pow_left₀ (by norm_num) ht 3
    norm_num at this ht ⊢
    linarith
  have hh : ∀ k, halved (along 0) (along (2 ^ 19)) k = along (2 ^ 19 * (1 / 2) ^ k) := by
    intro k; rw [halved_along]; congr 1; ring
  have hall : ∀ k, k < 10 → len6 ((fastPull q).residual (along 0)) <
      len6 ((fastPull q).residual (halved (along 0) (along (2 ^ 19)) k)) := by
    intro k hk
    rw [h0, hh]
    apply hbig
    have : ((1 : ℝ) / 2) ^ 10 ≤ (1 / 2) ^ k := pow_le_pow_of_le_one (by norm_num) (by norm_num) hk.le
    calc (2 : ℝ) ^ 9 = 2 ^ 19 * (1 / 2) ^ 10 := by norm_num
      _ ≤ _ := by gcongr
  refine ⟨fastPull q, T, rfl, fastPull_good q, ⟨along 0, T, hT, by rw [hs]; exact hall⟩, ?_, ?_⟩
  · rw [fastPull_lambda]; exact hT
  · rw [fastPull_lambda, hs]
    obtain ⟨_, ⟨m, hm, _, h5, _, _⟩ | ⟨_, h6, h7⟩⟩ := C98_cut (fastPull q) (along 0) (along (2 ^ 19)) (along 0)
      (len6 ((fastPull q).residual (along 0))) (by rw [h0]; norm_num)
    · exact absurd h5 (not_le.mpr (hall m hm))
    · intro c
      have e6 : c.at_ = along (2 ^ 10) := h6.trans (by rw [hh]; norm_num)
      have e7 : c.cur = along (2 ^ 9) := h7.trans (by rw [hh]; norm_num)
      rw [e6, e7]
      refine ⟨?_, ?_, ?_⟩
      · rw [h0]; exact hbig _ le_rfl
      · intro h
        have := congrFun h 0
        norm_num [along] at this
      · norm_num [along]

example (q : BasisConst ℝ) : (fastPull q).Good := fastPull_good q

end Fierro
