import Verif.Model.EvpTangent
import Verif.Props.EvpLargeStiff
import Verif.Props.EvpCouple

/-!
# C126: the reference medium of LSNP-EVPFFT between steps
-/

namespace Fierro

open Lsnp

/-- A point whose data make sense. -/
structure MediumPoint.Good (p : MediumPoint) : Prop where
  stiff : PosForm p.cg66
  sys : ∀ s ∈ p.sys, s.Good
  vol : 0 < p.detF

/-- A point of the body that is not gas. -/
def MediumPoint.Counted (p : MediumPoint) : Prop := p.frame = false ∧ p.gas = false

/-- Response of a stiffness to a rate `D` of the deformation gradient: the velocity gradient `D F⁻¹`, its stress, and
the first Piola-Kirchhoff stress of that, `J (…) F⁻ᵀ`. -/
noncomputable def piolaResponse (ds : T4 ℝ) (Finv : T2 ℝ) (J : ℝ) (D : T2 ℝ) : T2 ℝ := fun i j =>
  J * timesT (act4 ds (timesT D Finv)) (flipT Finv) i j

theorem act4_dPdF (ds : T4 ℝ) (Finv : T2 ℝ) (J : ℝ) (D : T2 ℝ) :
    act4 (dPdF ds Finv J) D = piolaResponse ds Finv J D := by
  funext i j
  simp only [act4, dPdF, piolaResponse, timesT, flipT, Fin.sum_univ_three]
  ring

/-- **C126 (response of a point).** The matrix summed for a point answers a symmetric rate of the deformation gradient
with the symmetric part of the first Piola-Kirchhoff stress of the tangent stiffness. -/
theorem C126_point_response (q : BasisConst ℝ) (hq : q.Exact) (t : ℝ) (p : MediumPoint) (D : T2 ℝ) (hD : D.Sym)
    (n : Fin 6) :
    ∑ m, pointMedium q t p n m * chgBasis2 q le_rfl D m =
      chgBasis2 q le_rfl (piolaResponse (chgBasis3 q le_rfl (pointTangent q t p)) p.Finv p.detF D) n := by
  rw [pointMedium, C66_matrix_action q hq _ D hD, ← act4_dPdF]
  rfl

theorem tangent_posForm (q : BasisConst ℝ) (t : ℝ) (ht : 0 < t) (p : MediumPoint) (hp : MediumPoint.Good p) :
    PosForm fun i j => plasticTangent66 p.sys (chgBasis2 q le_rfl p.sg) i j + invertView p.cg66 i j / t := by
  intro x hx
  have h1 : 0 ≤ ∑ i, x i * ∑ j, plasticTangent66 p.sys (chgBasis2 q le_rfl p.sg) i j * x j :=
    flow_tangent_nonneg (.crystal p.sys) hp.sys (chgBasis2 q le_rfl p.sg) x _ rfl
  have h2 := (invertView_inverse p.cg66 hp.stiff).2 x hx
  have e : ∑ i, ∑ j, x i * (plasticTangent66 p.sys (chgBasis2 q le_rfl p.sg) i j + invertView p.cg66 i j / t) * x j =
      (∑ i, x i * ∑ j, plasticTangent66 p.sys (chgBasis2 q le_rfl p.sg) i j * x j) +
        (∑ i, ∑ j, x i * invertView p.cg66 i j * x j) / t := by
    simp only [Finset.mul_sum, Finset.sum_div, ← Finset.sum_add_distrib]
    exact Finset.sum_congr rfl fun i _ => Finset.sum_congr rfl fun j _ => by ring
  rw [e]
  have := div_pos h2 ht
  linarith

/-- **C126 (tangent of a point).** The tangent stiffness of a point is the inverse of the tangent of its plastic rate
plus the inverse of its stiffness over the time step, and has positive energy. -/
theorem C126_point_tangent (q : BasisConst ℝ) (t : ℝ) (ht : 0 < t) (p : MediumPoint) (hp : MediumPoint.Good p) :
    InverseOf (fun i j => plasticTangent66 p.sys (chgBasis2 q le_rfl p.sg) i j + invertView p.cg66 i j / t)
      (pointTangent q t p) ∧ InverseOf p.cg66 (invertView p.cg66) ∧ PosForm (pointTangent q t p) :=
  ⟨(invertView_inverse _ (tangent_posForm q t ht p hp)).1, (invertView_inverse _ hp.stiff).1,
    (invertView_inverse _ (tangent_posForm q t ht p hp)).2⟩

theorem ddot_chgBasis3 (q : BasisConst ℝ) (M : Dense 6 ℝ) (T : T2 ℝ) :
    ddot T (act4 (chgBasis3 q le_rfl M) T) =
      ∑ n, ∑ m, chgBasis2 q (le_refl 6) T n * M n m * chgBasis2 q (le_refl 6) T m := by
  rw [act4_components, chgBasis1_eq, ddot_sum_right]
  refine Finset.sum_congr rfl fun n _ => ?_
  rw [Finset.sum_mul]
  refine Finset.sum_congr rfl fun m _ => ?_
  rw [chgBasis2_eq, chgBasis2_eq]
  ring

theorem ddot_dPdF (ds : T4 ℝ) (Finv : T2 ℝ) (J : ℝ) (E : T2 ℝ) :
    ddot E (act4 (dPdF ds Finv J) E) = J * ddot (timesT E Finv) (act4 ds (timesT E Finv)) := by
  simp only [ddot, act4, dPdF, timesT, Fin.sum_univ_three]
  ring

/-- **C126 (energy of a point).** The energy of the matrix of a point is that of its tangent stiffness at the velocity
gradient `E F⁻¹`, per unit of the undeformed volume. -/
theorem C126_point_energy (q : BasisConst ℝ) (t : ℝ) (p : MediumPoint) (x : Fin 6 → ℝ) :
    ∑ n, ∑ m, x n * pointMedium q t p n m * x m = p.detF * ∑ n, ∑ m,
      chgBasis2 q (le_refl 6) (timesT (chgBasis1 q le_rfl x) p.Finv) n * pointTangent q t p n m *
        chgBasis2 q (le_refl 6) (timesT (chgBasis1 q le_rfl x) p.Finv) m := by
  rw [pointMedium, form_chgBasis4, ddot_dPdF, ddot_chgBasis3]

theorem pointMedium_nonneg (q : BasisConst ℝ) (t : ℝ) (ht : 0 < t) (p : MediumPoint) (hp : MediumPoint.Good p)
    (x : Fin 6 → ℝ) : 0 ≤ ∑ n, ∑ m, x n * pointMedium q t p n m * x m := by
  rw [C126_point_energy]
  refine mul_nonneg hp.vol.le ?_
  by_cases h : chgBasis2 q (le_refl 6) (timesT (chgBasis1 q le_rfl x) p.Finv) = 0
  · simp [h]
  · exact ((C126_point_tangent q t ht p hp).2.2 _ h).le

theorem pointMedium_pos (q : BasisConst ℝ) (hq : q.Exact) (t : ℝ) (ht : 0 < t) (p : MediumPoint)
    (hp : MediumPoint.Good p) (ha : Acute p.Finv) : PosForm (pointMedium q t p) := by
  intro x hx
  rw [C126_point_energy]
  refine mul_pos hp.vol ((C126_point_tangent q t ht p hp).2.2 _ fun h => ?_)
  refine chgBasis1_ne q hq x hx (acute_sym p.Finv _ ha (C66_symmetric q le_rfl x) ?_)
  funext i j
  have := C66_tensor_roundtrip q hq (timesT (chgBasis1 q le_rfl x) p.Finv) i j
  rw [h] at this
  rw [symT, ← this]
  simp [chgBasis1]

theorem meanMedium_form {ι : Type} [Fintype ι] (q : BasisConst ℝ) (t w : ℝ) (pts : ι → MediumPoint)
    (x : Fin 6 → ℝ) : ∑ n, ∑ m, x n * meanMedium q t w pts n m * x m =
      ∑ y, if (pts y).frame = false then (if (pts y).gas = false then
        (∑ n, ∑ m, x n * pointMedium q t (pts y) n m * x m) * w else 0) else 0 := by
  have e : ∀ y, (if (pts y).frame = false then (if (pts y).gas = false then
        (∑ n, ∑ m, x n * pointMedium q t (pts y) n m * x m) * w else 0) else 0) =
      ∑ n, ∑ m, x n * (if (pts y).frame = false then (if (pts y).gas = false then pointMedium q t (pts y) n m * w
        else 0) else 0) * x m := by
    intro y
    split_ifs
    · rw [Finset.sum_mul]
      refine Finset.sum_congr rfl fun n _ => ?_
      rw [Finset.sum_mul]
      exact Finset.sum_congr rfl fun m _ => by ring
    · simp
    · simp
  refine Eq.trans ?_ (Finset.sum_congr rfl fun y _ => (e y).symm)
  refine Eq.trans (Finset.sum_congr rfl fun n _ => ?_) Finset.sum_comm
  refine Eq.trans ?_ Finset.sum_comm
  refine Finset.sum_congr rfl fun m _ => ?_
  rw [meanMedium, Finset.mul_sum, Finset.sum_mul]

/-- **C126 (mean).** Let the data of all points of the body make sense. If at least one of them has an inverse
deformation gradient that turns no vector by a right angle or more, the mean matrix has positive energy. -/
theorem C126_mean_positive {ι : Type} [Fintype ι] (q : BasisConst ℝ) (hq : q.Exact) (t w : ℝ) (ht : 0 < t)
    (hw : 0 < w) (pts : ι → MediumPoint) (hg : ∀ y, MediumPoint.Counted (pts y) → MediumPoint.Good (pts y))
    (hs : ∃ y, MediumPoint.Counted (pts y) ∧ Acute (pts y).Finv) : PosForm (meanMedium q t w pts) := by
  intro x hx
  rw [meanMedium_form]
  obtain ⟨y, hy, ha⟩ := hs
  refine Finset.sum_pos' (fun z _ => ?_) ⟨y, Finset.mem_univ y, ?_⟩
  · split_ifs with h1 h2
    · exact mul_nonneg (pointMedium_nonneg q t ht _ (hg z ⟨h1, h2⟩) x) hw.le
    · exact le_rfl
    · exact le_rfl
  · rw [if_pos hy.1, if_pos hy.2]
    exact mul_pos (pointMedium_pos q hq t ht _ (hg y hy) ha x hx) hw

/-- A usable reference medium: stiffness `a C`, the inverse of `C`, and the tensors of both, with positive
energy. -/
def Medium.Sound (q : BasisConst ℝ) (a : ℝ) (r : Medium) : Prop :=
  ∃ C : Dense 6 ℝ, PosForm C ∧ InverseOf C r.df ∧ (∀ i j, r.c066 i j = a * C i j) ∧
    r.c0 = chgBasis3 q le_rfl r.c066 ∧ r.s0 = chgBasis3 q le_rfl fun i j => r.df i j / a

theorem posForm_smul {n : ℕ} (C : Dense n ℝ) (h : PosForm C) (t : ℝ) (ht : 0 < t) :
    PosForm fun i j => C i j * t := by
  intro x hx
  have e : ∑ i, ∑ j, x i * (C i j * t) * x j = (∑ i, ∑ j, x i * C i j * x j) * t := by
    simp only [Finset.sum_mul]
    exact Finset.sum_congr rfl fun i _ => Finset.sum_congr rfl fun j _ => by ring
  rw [e]
  exact mul_pos (h x hx) ht

theorem inverseOf_smul {n : ℕ} {C B : Dense n ℝ} (h : InverseOf C B) (t : ℝ) (ht : t ≠ 0) :
    InverseOf (fun i j => C i j * t) (fun i j => B i j / t) := by
  intro i j
  have e1 : ∑ k, B i k / t * (C k j * t) = ∑ k, B i k * C k j :=
    Finset.sum_congr rfl fun k _ => by field_simp
  have e2 : ∑ k, C i k * t * (B k j / t) = ∑ k, C i k * B k j :=
    Finset.sum_congr rfl fun k _ => by field_simp
  exact ⟨e1.trans (h i j).1, e2.trans (h i j).2⟩

theorem chgBasis3_smul (q : BasisConst ℝ) (M : Dense 6 ℝ) (t : ℝ) (i j k l : Fin 3) :
    chgBasis3 q (le_refl 6) (fun a b => M a b * t) i j k l = chgBasis3 q (le_refl 6) M i j k l * t := by
  simp only [chgBasis3, Finset.sum_mul]
  exact Finset.sum_congr rfl fun a _ => Finset.sum_congr rfl fun b _ => by ring

theorem Medium.Sound.init {q : BasisConst ℝ} {a : ℝ} {r : Medium} (h : Medium.Sound q a r) (t : ℝ) (ht : 0 < t) :
    Medium.Sound q a (r.init t) := by
  obtain ⟨C, hC, hi, hc, h0, hs⟩ := h
  refine ⟨fun i j => C i j * t, posForm_smul C hC t ht, inverseOf_smul hi t ht.ne', fun i j => ?_, ?_, ?_⟩
  · simp only [Medium.init, hc]; ring
  · funext i j k l
    simp only [Medium.init, h0, chgBasis3_smul]
  · funext i j k l
    simp only [Medium.init, hs, div_eq_mul_inv]
    rw [← chgBasis3_smul]
    congr 1
    funext x y
    ring

theorem Medium.deinit_eq (r : Medium) (t : ℝ) : r.deinit t = r.init t⁻¹ := by
  simp only [Medium.deinit, Medium.init, div_eq_mul_inv, inv_inv]

/-- Steps whose data make sense. -/
def GoodStep {ι : Type} (s : ℝ × (ι → MediumPoint)) : Prop :=
  0 < s.1 ∧ (∀ y, MediumPoint.Counted (s.2 y) → MediumPoint.Good (s.2 y)) ∧
    ∃ y, MediumPoint.Counted (s.2 y) ∧ Acute (s.2 y).Finv

theorem calcMedium_sound {ι : Type} [Fintype ι] (q : BasisConst ℝ) (hq : q.Exact) (w xc0 : ℝ) (hw : 0 < w)
    (s : ℝ × (ι → MediumPoint)) (hs : GoodStep s) :
    Medium.Sound q xc0 (calcMedium q s.1 w xc0 s.2) := by
  have hP := C126_mean_positive q hq s.1 w hs.1 hw s.2 hs.2.1 hs.2.2
  exact ⟨meanMedium q s.1 w s.2, hP, (invertView_inverse _ hP).1, fun i j => mul_comm _ _, rfl, rfl⟩

/-- **C126 (start).** The medium at the start is usable, with factor one. -/
theorem C126_start (q : BasisConst ℝ) (c : Dense 6 ℝ) (h : PosForm c) : Medium.Sound q 1 (Medium.start q c) := by
  refine ⟨c, h, (invertView_inverse _ h).1, fun i j => (one_mul _).symm, rfl, ?_⟩
  simp only [Medium.start, div_one]

/-- **C126 (run).** Through any number of steps with any lengths the medium stays usable, between steps and within
every step. The factor is one until the first step ends and the given one from then on. -/
theorem C126_run {ι : Type} [Fintype ι] (q : BasisConst ℝ) (hq : q.Exact) (w xc0 : ℝ) (hw : 0 < w)
    (steps : List (ℝ × (ι → MediumPoint))) (hs : ∀ s ∈ steps, GoodStep s) (a : ℝ) (r : Medium)
    (hr : Medium.Sound q a r) :
    Medium.Sound q (if steps = [] then a else xc0) (r.run q w xc0 steps) ∧
    ∀ t : ℝ, 0 < t → Medium.Sound q (if steps = [] then a else xc0) ((r.run q w xc0 steps).init t) := by
  suffices h : Medium.Sound q (if steps = [] then a else xc0) (r.run q w xc0 steps) from ⟨h, fun t ht => h.init t ht⟩
  induction steps generalizing r a with
  | nil => simpa [Medium.run] using hr
  | cons s rest ih =>
    have h1 : Medium.Sound q xc0 ((calcMedium q s.1 w xc0 s.2).deinit s.1) := by
      rw [Medium.deinit_eq]
      exact (calcMedium_sound q hq w xc0 hw s (hs s (by simp))).init _
        (inv_pos.mpr (hs s (by simp)).1)
    have := ih (fun s' h' => hs s' (by simp [h'])) xc0 _ h1
    rw [Medium.run, if_neg (by simp)]
    simpa using this

/-- **C126 (use).** A usable medium has what the solver needs: the tensor of the stiffness has the minor symmetries
and positive energy, and the tensor of the compliance undoes it on symmetric tensors. -/
theorem C126_usable (q : BasisConst ℝ) (hq : q.Exact) (a : ℝ) (ha : 0 < a) (r : Medium) (h : Medium.Sound q a r) :
    r.c0.Minor ∧ r.c0.Pos ∧ ∀ T : T2 ℝ, T.Sym → act4 r.s0 (act4 r.c0 T) = T := by
  obtain ⟨C, hC, hi, hc, h0, hs⟩ := h
  have hc' : r.c066 = fun i j => C i j * a := by funext i j; rw [hc]; ring
  refine ⟨fun i j k l => ?_, fun T hT h0' => ?_, fun T hT => ?_⟩
  · rw [h0]
    simp only [chgBasis3]
    have hb : ∀ i j n, bBasis q i j n = bBasis q j i n := fun i j n => bT_symm q n i j
    constructor
    · exact Finset.sum_congr rfl fun x _ => Finset.sum_congr rfl fun y _ => by rw [hb i j]
    · exact Finset.sum_congr rfl fun x _ => Finset.sum_congr rfl fun y _ => by rw [hb k l]
  · rw [h0, ddot_chgBasis3, hc']
    refine posForm_smul C hC a ha _ fun hz => h0' ?_
    rw [← C66_symmetric_roundtrip q hq T hT, hz]
    funext i j; simp [chgBasis1]
  · rw [h0, hs, hc']
    exact C66_inverse_tensor q hq _ _ (inverseOf_smul hi a ha.ne') T hT

theorem Medium.run_append {ι : Type} [Fintype ι] (q : BasisConst ℝ) (w xc0 : ℝ) (r : Medium)
    (a : List (ℝ × (ι → MediumPoint))) (s : ℝ × (ι → MediumPoint)) :
    r.run q w xc0 (a ++ [s]) = (calcMedium q s.1 w xc0 s.2).deinit s.1 := by
  induction a generalizing r with
  | nil => rfl
  | cons x rest ih => exact ih _

/-- **C126 (homogeneous body).** After a run whose last step ends with an undeformed elastic body of one stiffness, with
weights that sum to one, the medium is the given factor times that stiffness, whatever the lengths of the steps and
whatever happened before. -/
theorem C126_homogeneous {ι : Type} [Fintype ι] (q : BasisConst ℝ) (hq : q.Exact) (t xc0 : ℝ) (ht : 0 < t)
    (w : ℝ) (hw : (Fintype.card ι : ℝ) * w = 1) (cg : Dense 6 ℝ) (hc : PosForm cg) (pts : ι → MediumPoint)
    (h : ∀ y, (pts y).frame = false ∧ (pts y).gas = false ∧ (pts y).cg66 = cg ∧ (pts y).sys = [] ∧
      (pts y).Finv = (fun i j => if i = j then 1 else 0) ∧ (pts y).detF = 1) (r : Medium)
    (before : List (ℝ × (ι → MediumPoint))) (i j : Fin 6) :
    (r.run q w xc0 (before ++ [(t, pts)])).c066 i j = xc0 * cg i j := by
  rw [Medium.run_append]
  have hT : ∀ y, pointTangent q t (pts y) = fun i j => cg i j * t := by
    intro y
    have hgood : MediumPoint.Good (pts y) := by
      obtain ⟨_, _, h1, h2, _, h3⟩ := h y
      exact ⟨h1 ▸ hc, by simp [h2], by rw [h3]; norm_num⟩
    have h1 := (C126_point_tangent q t ht (pts y) hgood).1
    have h2 : (fun i j => plasticTangent66 (pts y).sys (chgBasis2 q le_rfl (pts y).sg) i j +
        invertView (pts y).cg66 i j / t) = fun i j => invertView cg i j / t := by
      funext i j
      rw [(h y).2.2.1, (h y).2.2.2.1, plasticTangent66]
      simp
    rw [h2] at h1
    have h3 : InverseOf (fun i j => invertView cg i j / t) (fun i j => cg i j * t) := by
      have := inverseOf_smul (inverseOf_symm (invertView_inverse cg hc).1) t⁻¹ (inv_ne_zero ht.ne')
      simpa [div_eq_mul_inv] using this
    funext i j
    have e1 := apply_inverse h3 (fun k => pointTangent q t (pts y) k j) i
    have e2 : ∀ k, ∑ l, invertView cg k l / t * pointTangent q t (pts y) l j = if k = j then 1 else 0 :=
      fun k => (h1 k j).2
    simp only [e2] at e1
    rw [← e1]
    simp
  have hD : ∀ y, pointMedium q t (pts y) = fun i j => cg i j * t := by
    intro y
    funext n m
    have e : dPdF (chgBasis3 q le_rfl (pointTangent q t (pts y))) (pts y).Finv (pts y).detF =
        chgBasis3 q le_rfl (pointTangent q t (pts y)) := by
      funext i j k l
      rw [(h y).2.2.2.2.1, (h y).2.2.2.2.2, dPdF]
      simp
    rw [pointMedium, e, chgBasis4_eq, act4_components]
    have hb : ∀ m : Fin 6, chgBasis2 q (le_refl 6) (bT q (Fin.castLE (le_refl 6) m)) = fun k => if k = m then 1 else 0 := by
      intro m
      have := C66_vector_roundtrip q hq (le_refl 6) (fun k => if k = m then (1 : ℝ) else 0)
      rw [chgBasis1_eq] at this
      simpa using this
    rw [hb]
    have hn : ∀ (x : Fin 6 → ℝ), ddot (bT q (Fin.castLE (le_refl 6) n)) (chgBasis1 q (le_refl 6) x) = x n := by
      intro x
      rw [ddot_comm]
      exact congrFun (C66_vector_roundtrip q hq (le_refl 6) x) n
    rw [hn, hT y]
    simp
  simp only [Medium.deinit, calcMedium, meanMedium]
  have e : ∀ y, (if (pts y).frame = false then (if (pts y).gas = false then pointMedium q t (pts y) i j * w else 0)
      else 0) = cg i j * t * w := by
    intro y
    rw [if_pos (h y).1, if_pos (h y).2.1, hD y]
  rw [Finset.sum_congr rfl fun y _ => e y, Finset.sum_const, Finset.card_univ, nsmul_eq_mul]
  field_simp
  linear_combination xc0 * cg i j * hw

/-- Inverse of a quarter turn about the third axis. -/
def backTurn : T2 ℝ := ![![0, 1, 0], ![-1, 0, 0], ![0, 0, 1]]

/-- **C126 (quarter turn).** When the whole body has turned by a right angle about an axis, without any other
deformation being needed, the mean matrix has no inverse, whatever the materials: the reference medium cannot be
computed. -/
theorem C126_quarter_turn_fails {ι : Type} [Fintype ι] (q : BasisConst ℝ) (hq : q.Exact) (t w : ℝ)
    (pts : ι → MediumPoint) (h : ∀ y, MediumPoint.Counted (pts y) → (pts y).Finv = backTurn) (B : Dense 6 ℝ) :
    ¬ InverseOf (meanMedium q t w pts) B := by
  intro hB
  obtain ⟨E, hE⟩ : ∃ E : T2 ℝ, E = fun i j => if i = j ∧ i ≠ 2 then 1 else 0 := ⟨_, rfl⟩
  have hsym : E.Sym := by
    intro i j
    rw [hE]
    fin_cases i <;> fin_cases j <;> simp
  have hskew : ∀ i j, (timesT E backTurn i j + timesT E backTurn j i) / 2 = 0 := by
    intro i j
    rw [hE]
    fin_cases i <;> fin_cases j <;> simp [timesT, backTurn]
  have h6 : chgBasis2 q (le_refl 6) (timesT E backTurn) = 0 := by
    have e : chgBasis1 q (le_refl 6) (chgBasis2 q (le_refl 6) (timesT E backTurn)) = 0 := by
      funext i j
      rw [C66_tensor_roundtrip q hq, hskew]; rfl
    by_contra hne
    exact chgBasis1_ne q hq _ hne e
  have hp : ∀ y, MediumPoint.Counted (pts y) → ∀ n, ∑ m, pointMedium q t (pts y) n m * chgBasis2 q le_rfl E m = 0 := by
    intro y hy n
    rw [C126_point_response q hq t _ E hsym]
    have e : piolaResponse (chgBasis3 q le_rfl (pointTangent q t (pts y))) (pts y).Finv (pts y).detF E = 0 := by
      funext i j
      rw [piolaResponse, h y hy, act4_components, h6]
      simp [chgBasis1, timesT]
    rw [e]
    simp [chgBasis2]
  have hm : ∀ n, ∑ m, meanMedium q t w pts n m * chgBasis2 q le_rfl E m = 0 := by
    intro n
    simp only [meanMedium, Finset.sum_mul]
    rw [Finset.sum_comm]
    refine Finset.sum_eq_zero fun y _ => ?_
    by_cases h1 : (pts y).frame = false
    · by_cases h2 : (pts y).gas = false
      · simp only [if_pos h1, if_pos h2]
        have e : ∑ m, pointMedium q t (pts y) n m * w * chgBasis2 q le_rfl E m =
            w * ∑ m, pointMedium q t (pts y) n m * chgBasis2 q le_rfl E m := by
          rw [Finset.mul_sum]
          exact Finset.sum_congr rfl fun m _ => by ring
        rw [e, hp y ⟨h1, h2⟩, mul_zero]
      · simp [h2]
    · simp [h1]
  have hz : chgBasis2 q (le_refl 6) E = 0 := by
    funext n
    have := apply_inverse hB (chgBasis2 q le_rfl E) n
    rw [← this]
    simp [hm]
  have hE0 : E = 0 := by
    rw [← C66_symmetric_roundtrip q hq E hsym, hz]
    funext i j; simp [chgBasis1]
  have := congrFun (congrFun hE0 0) 0
  rw [hE] at this
  simp at this

/-! ### Cases meeting the hypotheses -/

theorem identity_acute : Acute (fun i j => if i = j then (1 : ℝ) else 0) := by
  intro v hv
  have e : ∀ i, ∑ j, v i * (if i = j then (1 : ℝ) else 0) * v j = v i ^ 2 := fun i => by simp; ring
  rw [Finset.sum_congr rfl fun i _ => e i]
  obtain ⟨k, hk⟩ := Function.ne_iff.mp hv
  have : v k ≠ 0 := hk
  exact Finset.sum_pos' (fun i _ => sq_nonneg _) ⟨k, Finset.mem_univ k, by positivity⟩

/-- An undeformed elastic point of unit stiffness. -/
def unitPoint (frame : Bool) : MediumPoint :=
  ⟨frame, false, fun i j => if i = j then 1 else 0, 0, [], fun i j => if i = j then 1 else 0, 1⟩

theorem unitPoint_good (frame : Bool) : MediumPoint.Good (unitPoint frame) := by
  refine ⟨fun x hx => ?_, by simp [unitPoint], one_pos⟩
  have e : ∀ i, ∑ j, x i * (unitPoint frame).cg66 i j * x j = x i ^ 2 := fun i => by simp [unitPoint]; ring
  rw [Finset.sum_congr rfl fun i _ => e i]
  obtain ⟨k, hk⟩ := Function.ne_iff.mp hx
  have : x k ≠ 0 := hk
  exact Finset.sum_pos' (fun i _ => sq_nonneg _) ⟨k, Finset.mem_univ k, by positivity⟩

example : GoodStep ((1 / 2 : ℝ), fun y : Fin 4 => unitPoint (y = 3)) :=
  ⟨by norm_num, fun _ _ => unitPoint_good _, 0, ⟨by simp [unitPoint], rfl⟩, identity_acute⟩

example (y : Fin 4) (_ : MediumPoint.Counted { unitPoint (y = 3) with Finv := backTurn }) :
    ({ unitPoint (y = 3) with Finv := backTurn } : MediumPoint).Finv = backTurn := rfl

end Fierro
