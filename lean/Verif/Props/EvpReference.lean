import Verif.Props.EvpElastic

/-!
# C68: stiffness in the sample frame and the reference medium
-/

set_option linter.unusedSectionVars false

namespace Fierro

section field
variable {K : Type} [Field K] [LinearOrder K] [IsStrictOrderedRing K]

/-- Orthogonal matrix. -/
def T2.Orth (a : T2 K) : Prop := ∀ i j, ∑ k, a i k * a j k = if i = j then 1 else 0

/-- The tensor `T` seen in the rotated frame: `a T aᵀ`. -/
def pushT (a T : T2 K) : T2 K := fun i j => ∑ i1, ∑ j1, a i i1 * a j j1 * T i1 j1

/-- And back: `aᵀ S a`. -/
def pullT (a S : T2 K) : T2 K := fun i j => ∑ i2, ∑ j2, a i2 i * a j2 j * S i2 j2

theorem sum_comm22 {ι : Type} [Fintype ι] (f : ι → ι → ι → ι → K) :
    ∑ a, ∑ b, ∑ c, ∑ d, f a b c d = ∑ c, ∑ d, ∑ a, ∑ b, f a b c d := by
  calc ∑ a, ∑ b, ∑ c, ∑ d, f a b c d = ∑ a, ∑ c, ∑ b, ∑ d, f a b c d :=
        Finset.sum_congr rfl fun a _ => Finset.sum_comm
    _ = ∑ c, ∑ a, ∑ b, ∑ d, f a b c d := Finset.sum_comm
    _ = ∑ c, ∑ a, ∑ d, ∑ b, f a b c d :=
        Finset.sum_congr rfl fun c _ => Finset.sum_congr rfl fun a _ => Finset.sum_comm
    _ = _ := Finset.sum_congr rfl fun c _ => Finset.sum_comm

theorem T2.Orth.cols {a : T2 K} (h : a.Orth) (i j : Fin 3) :
    ∑ k, a k i * a k j = if i = j then 1 else 0 := by
  have h1 : (Matrix.of a) * (Matrix.of a).transpose = 1 := by
    ext i j
    simp only [Matrix.mul_apply, Matrix.transpose_apply, Matrix.of_apply, Matrix.one_apply]
    exact h i j
  have h2 := mul_eq_one_comm.mp h1
  have := congrFun (congrFun h2 i) j
  simpa only [Matrix.mul_apply, Matrix.transpose_apply, Matrix.of_apply, Matrix.one_apply] using this

theorem T2.Orth.transpose {a : T2 K} (h : a.Orth) : T2.Orth (fun i j => a j i) := h.cols

theorem pull_push (a T : T2 K) (h : a.Orth) : pullT a (pushT a T) = T := by
  funext i j
  simp only [pullT, pushT, Finset.mul_sum]
  rw [sum_comm22]
  have e : ∀ c d, ∑ x, ∑ y, a x i * a y j * (a x c * a y d * T c d) =
      (if i = c then 1 else 0) * (if j = d then 1 else 0) * T c d := by
    intro c d
    rw [← h.cols i c, ← h.cols j d, Finset.sum_mul_sum, Finset.sum_mul]
    refine Finset.sum_congr rfl fun x _ => ?_
    rw [Finset.sum_mul]
    exact Finset.sum_congr rfl fun y _ => by ring
  simp only [e]
  simp

theorem push_sym (a T : T2 K) (hT : T.Sym) : T2.Sym (pushT a T) := by
  intro i j
  simp only [pushT]
  rw [Finset.sum_comm]
  exact Finset.sum_congr rfl fun k _ => Finset.sum_congr rfl fun l _ => by rw [hT l k]; ring

theorem ddot_pull (a T S : T2 K) : ddot T (pullT a S) = ddot (pushT a T) S := by
  simp only [ddot, pullT, pushT, Finset.mul_sum, Finset.sum_mul]
  rw [sum_comm22]
  exact Finset.sum_congr rfl fun i _ => Finset.sum_congr rfl fun j _ =>
    Finset.sum_congr rfl fun k _ => Finset.sum_congr rfl fun l _ => by ring

/-- **C68.** The stiffness stored at a grid point answers a strain in the sample frame with: strain to
the crystal frame, stiffness of the phase, stress back to the sample frame. -/
theorem C68_rotated_action (a : T2 K) (C : T4 K) (T : T2 K) :
    act4 (rotateStiffness a C) T = pullT a (act4 C (pushT a T)) := by
  funext i j
  simp only [act4, rotateStiffness, pullT, pushT, Finset.sum_mul, Finset.mul_sum]
  rw [sum_comm22]
  refine Finset.sum_congr rfl fun i2 _ => Finset.sum_congr rfl fun j2 _ => ?_
  rw [sum_comm22]
  exact Finset.sum_congr rfl fun _ _ => Finset.sum_congr rfl fun _ _ =>
    Finset.sum_congr rfl fun _ _ => Finset.sum_congr rfl fun _ _ => by ring

/-- **C68.** The stored energy does not depend on the frame. -/
theorem C68_energy (a : T2 K) (C : T4 K) (T : T2 K) :
    ddot T (act4 (rotateStiffness a C) T) = ddot (pushT a T) (act4 C (pushT a T)) := by
  rw [C68_rotated_action, ddot_pull]

/-- **C68.** Rotation keeps the minor and the major symmetry. -/
theorem C68_symmetries (a : T2 K) (C : T4 K) (hm : C.Minor) :
    (rotateStiffness a C).Minor ∧ (C.Major → (rotateStiffness a C).Major) := by
  refine ⟨fun i j k l => ⟨?_, ?_⟩, fun hM i j k l => ?_⟩
  · simp only [rotateStiffness]
    rw [Finset.sum_comm]
    exact Finset.sum_congr rfl fun x _ => Finset.sum_congr rfl fun y _ =>
      Finset.sum_congr rfl fun z _ => Finset.sum_congr rfl fun w _ => by
        rw [(hm y x z w).1]; ring
  · simp only [rotateStiffness]
    refine Finset.sum_congr rfl fun x _ => Finset.sum_congr rfl fun y _ => ?_
    rw [Finset.sum_comm]
    exact Finset.sum_congr rfl fun z _ => Finset.sum_congr rfl fun w _ => by
        rw [(hm x y w z).2]; ring
  · simp only [rotateStiffness]
    rw [sum_comm22]
    exact Finset.sum_congr rfl fun x _ => Finset.sum_congr rfl fun y _ =>
      Finset.sum_congr rfl fun z _ => Finset.sum_congr rfl fun w _ => by
        rw [hM z w x y]; ring

/-- **C68.** Rotation keeps the stored energy positive. -/
theorem C68_positive (a : T2 K) (ha : a.Orth) (C : T4 K) (hC : C.Pos) : (rotateStiffness a C).Pos := by
  intro T hT h0
  rw [C68_energy]
  refine hC _ (push_sym a T hT) fun hz => h0 ?_
  rw [← pull_push a T ha, hz]
  funext i j; simp [pullT]

/-- **C68.** The response of an isotropic phase does not depend on the orientation of the grain. -/
theorem C68_isotropic (a : T2 K) (ha : a.Orth) (E nu : K) (T : T2 K) (hT : T.Sym) :
    act4 (rotateStiffness a (isoStiffness E nu)) T = act4 (isoStiffness E nu) T := by
  rw [C68_rotated_action]
  have e : ∀ U : T2 K, U.Sym → act4 (isoStiffness E nu) U = fun i j =>
      isoLambda E nu * tr2 U * dde i j + 2 * isoMu E nu * U i j := by
    intro U hU
    funext i j
    have := C67_isotropic E nu U hU i j
    show ∑ k, ∑ l, isoStiffness E nu i j k l * U k l = _
    rw [this]; simp only [tr2, Fin.sum_univ_three, dde]
  have htr : tr2 (pushT a T) = tr2 T := by
    simp only [tr2, pushT]
    have : ∑ x, ∑ i1, ∑ j1, a x i1 * a x j1 * T i1 j1 = ∑ i1, ∑ j1, ∑ x, a x i1 * a x j1 * T i1 j1 := by
      rw [Finset.sum_comm]
      exact Finset.sum_congr rfl fun i _ => Finset.sum_comm
    rw [this]
    simp only [← Finset.sum_mul, ha.cols]
    simp
  rw [e _ (push_sym a T hT), e T hT, htr]
  funext i j
  have lin : pullT a (fun i j => isoLambda E nu * tr2 T * dde i j + 2 * isoMu E nu * pushT a T i j) i j
      = isoLambda E nu * tr2 T * (∑ x, ∑ y, a x i * a y j * dde x y) +
        2 * isoMu E nu * pullT a (pushT a T) i j := by
    simp only [pullT, Finset.mul_sum, ← Finset.sum_add_distrib]
    exact Finset.sum_congr rfl fun x _ => Finset.sum_congr rfl fun y _ => by ring
  rw [lin, pull_push a T ha]
  have hd : ∑ x, ∑ y, a x i * a y j * dde x y = dde i j := by
    simp only [dde, mul_ite, mul_one, mul_zero, Finset.sum_ite_eq, Finset.mem_univ, if_true]
    exact ha.cols i j
  rw [hd]

theorem form_chgBasis4 (q : BasisConst K) (C : T4 K) (x : Fin 6 → K) :
    ∑ n, ∑ m, x n * chgBasis4 q le_rfl C n m * x m =
      ddot (chgBasis1 q le_rfl x) (act4 C (chgBasis1 q le_rfl x)) := by
  rw [chgBasis1_eq, ddot_sum_left, act4_sum]
  refine Finset.sum_congr rfl fun n _ => ?_
  rw [ddot_sum_right, Finset.mul_sum]
  exact Finset.sum_congr rfl fun m _ => by rw [chgBasis4_eq]; ring

theorem posForm_chgBasis4 (q : BasisConst K) (h : q.Exact) (C : T4 K) (hC : C.Pos) :
    PosForm (chgBasis4 q le_rfl C) := by
  intro x hx
  rw [form_chgBasis4]
  refine hC _ (C66_symmetric q le_rfl x) fun h0 => hx ?_
  rw [← C66_vector_roundtrip q h le_rfl x, h0]
  funext n; simp [chgBasis2]

/-- A grid point whose orientation and stiffness are physical. -/
def GrainPoint.Good : GrainPoint K → Prop
  | .gas => True
  | .crystal a C => a.Orth ∧ C.Pos ∧ C.Minor

/-- A point that is not gas. -/
def GrainPoint.Solid : GrainPoint K → Prop
  | .gas => False
  | .crystal _ _ => True

theorem refStiffness_pos_aux (q : BasisConst K) (h : q.Exact) (wgt : K) (hw : 0 < wgt)
    (pts : List (GrainPoint K)) : ∀ c : Dense 6 K,
    (∀ x : Fin 6 → K, 0 ≤ ∑ i, ∑ j, x i * c i j * x j) → (∀ p ∈ pts, p.Good) →
    (PosForm c ∨ ∃ p ∈ pts, p.Solid) →
    PosForm (pts.foldl (refStep q wgt) c) := by
  induction pts with
  | nil => intro c _ _ hs; simpa using hs
  | cons p pts ih =>
    intro c hc hg hs
    cases p with
    | gas =>
      refine ih c hc (fun p hp => hg p (List.mem_cons_of_mem _ hp)) ?_
      rcases hs with h | ⟨p, hp, hps⟩
      · exact Or.inl h
      · rcases List.mem_cons.mp hp with rfl | hp
        · exact absurd hps id
        · exact Or.inr ⟨p, hp, hps⟩
    | crystal a C =>
      obtain ⟨ha, hC, _⟩ := hg _ List.mem_cons_self
      have hp : PosForm (pointStiffness q a C) := posForm_chgBasis4 q h _ (C68_positive a ha C hC)
      have e : ∀ x : Fin 6 → K, ∑ i, ∑ j, x i * (c i j + pointStiffness q a C i j * wgt) * x j =
          (∑ i, ∑ j, x i * c i j * x j) + (∑ i, ∑ j, x i * pointStiffness q a C i j * x j) * wgt := by
        intro x
        rw [Finset.sum_mul, ← Finset.sum_add_distrib]
        refine Finset.sum_congr rfl fun i _ => ?_
        rw [Finset.sum_mul, ← Finset.sum_add_distrib]
        exact Finset.sum_congr rfl fun j _ => by ring
      have hn : PosForm (fun i j => c i j + pointStiffness q a C i j * wgt) := by
        intro x hx
        rw [e]
        have := mul_pos (hp x hx) hw
        linarith [hc x]
      refine ih _ ?_ (fun p hp => hg p (List.mem_cons_of_mem _ hp)) (Or.inl hn)
      intro x
      by_cases hx : x = 0
      · subst hx; simp
      · exact (hn x hx).le

/-- **C68.** On a grid with at least one crystal point, and physical orientations and stiffnesses
everywhere, the reference stiffness has a positive definite form, the inversion without row exchanges
runs to its end and the compliance stored is its inverse. -/
theorem C68_reference (q : BasisConst K) (h : q.Exact) (wgt : K) (hw : 0 < wgt)
    (pts : List (GrainPoint K)) (hg : ∀ p ∈ pts, p.Good) (hs : ∃ p ∈ pts, p.Solid) :
    PosForm (refStiffness q wgt pts) ∧
      InverseOf (refStiffness q wgt pts) (refCompliance (refStiffness q wgt pts)) := by
  have hp : PosForm (refStiffness q wgt pts) :=
    refStiffness_pos_aux q h wgt hw pts _ (by intro x; simp) hg (Or.inr hs)
  refine ⟨hp, ?_⟩
  have ht : PosForm (fun a b => refStiffness q wgt pts b a) := by
    intro x hx
    have := hp x hx
    rw [Finset.sum_comm]
    have e : ∑ i, ∑ j, x i * refStiffness q wgt pts i j * x j =
        ∑ j, ∑ i, x i * refStiffness q wgt pts j i * x j := by
      refine Finset.sum_congr rfl fun i _ => Finset.sum_congr rfl fun j _ => by ring
    rw [← e]; exact this
  exact C65_column_major _ (C65_positive_definite _ ht).1

/-- **C68.** The reference compliance tensor undoes the reference stiffness tensor on every symmetric
tensor. -/
theorem C68_compliance_tensor (q : BasisConst K) (h : q.Exact) (wgt : K) (hw : 0 < wgt)
    (pts : List (GrainPoint K)) (hg : ∀ p ∈ pts, p.Good) (hs : ∃ p ∈ pts, p.Solid)
    (T : T2 K) (hT : T.Sym) :
    act4 (refS0 q (refStiffness q wgt pts)) (act4 (refC0 q (refStiffness q wgt pts)) T) = T :=
  C66_inverse_tensor q h _ _ (C68_reference q h wgt hw pts hg hs).2 T hT

theorem refStiffness_uniform_aux (q : BasisConst K) (wgt : K) (M : Fin 6 → Fin 6 → K)
    (pts : List (GrainPoint K)) : ∀ c : Dense 6 K,
    (∀ p ∈ pts, ∃ a C, p = .crystal a C ∧ pointStiffness q a C = M) →
    (pts.foldl (refStep q wgt) c) =
      fun i j => c i j + pts.length * (M i j * wgt) := by
  induction pts with
  | nil => intro c _; funext i j; simp
  | cons p pts ih =>
    intro c hp
    obtain ⟨a, C, rfl, hM⟩ := hp p List.mem_cons_self
    rw [List.foldl_cons, ih _ (fun p h => hp p (List.mem_cons_of_mem _ h))]
    funext i j
    simp only [refStep]
    rw [hM, List.length_cons]; push_cast; ring

/-- **C68.** When every point has the same stiffness matrix and the weights add up to one, the
reference stiffness is that matrix. -/
theorem C68_homogeneous (q : BasisConst K) (wgt : K) (M : Fin 6 → Fin 6 → K)
    (pts : List (GrainPoint K)) (hw : pts.length * wgt = 1)
    (hp : ∀ p ∈ pts, ∃ a C, p = .crystal a C ∧ pointStiffness q a C = M) :
    refStiffness q wgt pts = M := by
  unfold refStiffness
  rw [refStiffness_uniform_aux q wgt M pts _ hp]
  funext i j
  linear_combination M i j * hw

/-- **C68.** A polycrystal of an isotropic phase has the reference stiffness of the phase, whatever the
orientations of its grains. -/
theorem C68_isotropic_polycrystal (q : BasisConst K) (E nu wgt : K) (as : List (T2 K))
    (ha : ∀ a ∈ as, a.Orth) (hw : as.length * wgt = 1) :
    refStiffness q wgt (as.map fun a => .crystal a (isoStiffness E nu)) =
      chgBasis4 q le_rfl (isoStiffness E nu) := by
  refine C68_homogeneous q wgt _ _ (by simpa using hw) ?_
  intro p hp
  obtain ⟨a, haa, rfl⟩ := List.mem_map.mp hp
  refine ⟨a, _, rfl, ?_⟩
  funext n m
  rw [pointStiffness, chgBasis4_eq, chgBasis4_eq,
    C68_isotropic a (ha a haa) E nu _ (fun i j => bT_symm q _ i j)]

/-- A rotation by 90 degrees about the third axis and an isotropic phase meet the hypotheses. -/
example : GrainPoint.Good (.crystal (fun i j : Fin 3 =>
    if i = 0 ∧ j = 1 then (1 : K) else if i = 1 ∧ j = 0 then -1 else if i = 2 ∧ j = 2 then 1 else 0)
    (isoStiffness 2 (1 / 4))) := by
  refine ⟨?_, C67_isotropic_positive _ _ (by norm_num) (by norm_num) (by norm_num), ?_⟩
  · intro i j
    fin_cases i <;> fin_cases j <;> simp
  · intro i j k l
    constructor
    · simp only [isoStiffness, xid4, dde, eq_comm (a := i) (b := j)]; ring
    · simp only [isoStiffness, xid4, dde, eq_comm (a := k) (b := l)]; ring

end field

end Fierro
