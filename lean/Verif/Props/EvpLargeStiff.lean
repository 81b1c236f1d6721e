import Verif.Model.EvpLargeStiff
import Verif.Props.EvpField
import Verif.Props.EvpReference
import Verif.Props.EvpLargeNewton

/-!
# C95: reference stiffness and Green operator in the deformed configuration
-/

namespace Fierro

open Large

/-- The tensor `E A`. -/
def timesT (E A : T2 ℝ) : T2 ℝ := fun i m => ∑ j, E i j * A j m

/-- Every vector keeps an acute angle with its image. -/
def Acute (F : T2 ℝ) : Prop := ∀ v : Fin 3 → ℝ, v ≠ 0 → 0 < ∑ i, ∑ j, v i * F i j * v j

/-! ### Forms -/

theorem ddot_minorSym (c : T4 ℝ) (E : T2 ℝ) (hE : E.Sym) :
    ddot E (act4 (minorSym c) E) = ddot E (act4 c E) := by
  have h01 := hE 0 1
  have h02 := hE 0 2
  have h12 := hE 1 2
  simp only [ddot, act4, minorSym, Fin.sum_univ_three, h01, h02, h12]
  ring

theorem ddot_c0mod (c0 : T4 ℝ) (F : T2 ℝ) (J : ℝ) (E : T2 ℝ) :
    ddot E (act4 (c0mod c0 F J) E) = ddot (timesT E F) (act4 c0 (timesT E F)) / J := by
  simp only [ddot, act4, c0mod, timesT, Fin.sum_univ_three]
  ring

theorem ddot_goperr0mod (g0 : T4 ℝ) (Fi : T2 ℝ) (J : ℝ) (E : T2 ℝ) :
    ddot E (act4 (goperr0mod g0 Fi J) E) =
      ddot (timesT E fun j m => Fi m j) (act4 g0 (timesT E fun j m => Fi m j)) * J := by
  simp only [ddot, act4, goperr0mod, timesT, Fin.sum_univ_three]
  ring

/-- **C95.** The energy of a strain rate `E` in the reference medium of a deformed point is the energy of
`E F` in the reference medium, over the volume ratio. -/
theorem C95_reference_energy (q : BasisConst ℝ) (c0 : T4 ℝ) (F : T2 ℝ) (J : ℝ) (x : Fin 6 → ℝ) :
    ∑ n, ∑ m, x n * c066mod q c0 F J n m * x m =
      ddot (timesT (chgBasis1 q le_rfl x) F) (act4 c0 (timesT (chgBasis1 q le_rfl x) F)) / J := by
  rw [c066mod, form_chgBasis4, ddot_minorSym _ _ (C66_symmetric q le_rfl x), ddot_c0mod]

/-- The symmetric part. -/
noncomputable def symT (T : T2 ℝ) : T2 ℝ := fun i j => (T i j + T j i) / 2

/-- The transposed tensor. -/
def flipT (T : T2 ℝ) : T2 ℝ := fun i j => T j i

theorem act4_minorSym_c0mod (c0 : T4 ℝ) (F : T2 ℝ) (J : ℝ) (E : T2 ℝ) (hE : E.Sym) :
    act4 (minorSym (c0mod c0 F J)) E =
      symT fun i j => timesT (act4 c0 (timesT E F)) (flipT F) i j / J := by
  have h01 := hE 0 1
  have h02 := hE 0 2
  have h12 := hE 1 2
  funext i j
  simp only [act4, minorSym, c0mod, timesT, symT, flipT, Fin.sum_univ_three, h01, h02, h12]
  ring

theorem act4_minorSym_goperr0mod (g0 : T4 ℝ) (Fi : T2 ℝ) (J : ℝ) (S : T2 ℝ) (hS : S.Sym) :
    act4 (minorSym (goperr0mod g0 Fi J)) S =
      symT (timesT (act4 g0 fun i m => J * timesT S (flipT Fi) i m) Fi) := by
  have h01 := hS 0 1
  have h02 := hS 0 2
  have h12 := hS 1 2
  funext i j
  simp only [act4, minorSym, goperr0mod, timesT, symT, flipT, Fin.sum_univ_three, h01, h02, h12]
  ring

/-- **C95.** The reference medium of a deformed point answers a symmetric velocity gradient `E` with the
symmetric part of the Cauchy stress whose first Piola-Kirchhoff stress is the reference response to the
rate `E F` of the deformation gradient. -/
theorem C95_reference_stress (q : BasisConst ℝ) (hq : q.Exact) (c0 : T4 ℝ) (F : T2 ℝ) (J : ℝ) (E : T2 ℝ)
    (hE : E.Sym) (n : Fin 6) :
    ∑ m, c066mod q c0 F J n m * chgBasis2 q le_rfl E m =
      chgBasis2 q le_rfl (symT fun i j => timesT (act4 c0 (timesT E F)) (flipT F) i j / J) n := by
  rw [c066mod, C66_matrix_action q hq _ E hE, ← act4_minorSym_c0mod c0 F J E hE]
  rfl

/-- **C95.** The Green operator of a deformed point takes a Cauchy stress to its first Piola-Kirchhoff
stress, applies the operator of the reference grid and takes the rate of the deformation gradient back to
the symmetric velocity gradient. -/
theorem C95_green_strain (q : BasisConst ℝ) (hq : q.Exact) (g0 : T4 ℝ) (Fi : T2 ℝ) (J : ℝ) (S : T2 ℝ)
    (hS : S.Sym) (n : Fin 6) :
    ∑ m, goperr066mod q g0 Fi J n m * chgBasis2 q le_rfl S m =
      chgBasis2 q le_rfl (symT (timesT (act4 g0 fun i m => J * timesT S (flipT Fi) i m) Fi)) n := by
  rw [goperr066mod, C66_matrix_action q hq _ S hS, ← act4_minorSym_goperr0mod g0 Fi J S hS]
  rfl

theorem symT_sym (T : T2 ℝ) : (symT T).Sym := fun i j => by simp only [symT]; ring

/-- A symmetric tensor whose product with an acute one is antisymmetric is zero. -/
theorem acute_sym (F E : T2 ℝ) (hF : Acute F) (hE : E.Sym) (h : symT (timesT E F) = 0) : E = 0 := by
  have key : ∑ a : Fin 3, ∑ i, ∑ j, E a i * F i j * E a j = 0 := by
    have hs : ∀ i j, (timesT E F i j + timesT E F j i) = 0 := fun i j => by
      have := congrFun (congrFun h i) j
      simp only [symT, Pi.zero_apply] at this
      linarith
    have e : ∑ a : Fin 3, ∑ i, ∑ j, E a i * F i j * E a j =
        ∑ a : Fin 3, ∑ j, timesT E F a j * E a j := by
      refine Finset.sum_congr rfl fun a _ => ?_
      rw [Finset.sum_comm]
      exact Finset.sum_congr rfl fun j _ => by rw [timesT, Finset.sum_mul]
    rw [e]
    have e2 : ∑ a : Fin 3, ∑ j, timesT E F a j * E a j = ∑ a : Fin 3, ∑ j, timesT E F j a * E a j := by
      rw [Finset.sum_comm]
      exact Finset.sum_congr rfl fun a _ => Finset.sum_congr rfl fun j _ => by rw [hE j a]
    have e3 : ∑ a : Fin 3, ∑ j, timesT E F a j * E a j + ∑ a : Fin 3, ∑ j, timesT E F j a * E a j = 0 := by
      simp only [← Finset.sum_add_distrib, ← add_mul, hs, zero_mul, Finset.sum_const_zero]
    linarith
  by_contra hne
  obtain ⟨a, ha⟩ := Function.ne_iff.mp hne
  have hpos : 0 < ∑ a : Fin 3, ∑ i, ∑ j, E a i * F i j * E a j := by
    refine Finset.sum_pos' (fun b _ => ?_) ⟨a, Finset.mem_univ _, hF (E a) ha⟩
    by_cases hb : E b = 0
    · simp [hb]
    · exact (hF (E b) hb).le
  exact hpos.ne' key

/-- The energy of any velocity gradient is that of its symmetric part, hence not negative. -/
theorem ddot_nonneg (c0 : T4 ℝ) (hm : c0.Minor) (hp : c0.Pos) (T : T2 ℝ) : 0 ≤ ddot T (act4 c0 T) := by
  rw [ddot_sym_part c0 hm]
  by_cases h : (fun i j => (T i j + T j i) / 2 : T2 ℝ) = 0
  · rw [h]; simp [ddot]
  · exact (hp _ (symT_sym T) h).le

theorem chgBasis1_ne (q : BasisConst ℝ) (hq : q.Exact) (x : Fin 6 → ℝ) (hx : x ≠ 0) :
    chgBasis1 q le_rfl x ≠ 0 := fun h0 => hx <| by
  rw [← C66_vector_roundtrip q hq le_rfl x, h0]
  funext n; simp [chgBasis2]

/-- **C95.** The reference stiffness of a deformed point is never indefinite, and it is positive definite
when the deformation gradient keeps every vector within a right angle of itself. -/
theorem C95_reference_positive (q : BasisConst ℝ) (hq : q.Exact) (c0 : T4 ℝ) (hm : c0.Minor) (hp : c0.Pos)
    (F : T2 ℝ) (J : ℝ) (hJ : 0 < J) :
    (∀ x : Fin 6 → ℝ, 0 ≤ ∑ n, ∑ m, x n * c066mod q c0 F J n m * x m) ∧
      (Acute F → PosForm (c066mod q c0 F J)) := by
  refine ⟨fun x => ?_, fun hF x hx => ?_⟩
  · rw [C95_reference_energy]
    exact div_nonneg (ddot_nonneg c0 hm hp _) hJ.le
  · rw [C95_reference_energy]
    refine div_pos ?_ hJ
    rw [ddot_sym_part c0 hm]
    exact hp _ (symT_sym _) fun h0 =>
      chgBasis1_ne q hq x hx (acute_sym F _ hF (C66_symmetric q le_rfl x) h0)

/-- **C95.** At an undeformed point the matrix is that of the reference stiffness. -/
theorem C95_undeformed (q : BasisConst ℝ) (c0 : T4 ℝ) (hm : c0.Minor) :
    c066mod q c0 (fun i j => if i = j then 1 else 0) 1 = chgBasis4 q le_rfl c0 := by
  rw [c066mod]
  congr 1
  funext i j k l
  have e : ∀ i j k l, c0mod c0 (fun i j => if i = j then 1 else 0) 1 i j k l = c0 i j k l := by
    intro i j k l
    simp [c0mod]
  simp only [minorSym, e]
  rw [← (hm i j k l).1, ← (hm i j l k).1, ← (hm i j k l).2]
  ring

/-! ### The Green operator at the origin -/

/-- **C95.** The Green operator at the origin is the mean of the operators of all frequencies. -/
theorem C95_green_mean (g : EvpGrid) (c0 s0 : T4 ℝ) (o : g.Ix) (ho : ∀ a, (o a : ℕ) = 0)
    (i ii j jj : Fin 3) :
    goperr0 g c0 s0 o i ii j jj =
      (∑ k, greenOp c0 s0 (g.nyquist k) (unitFreq (g.freq k)) i ii j jj) / g.size := by
  have h1 : ∀ k, g.chi k o = 1 := fun k => by simp [EvpGrid.chi, ho]
  rw [goperr0, EvpGrid.backward]
  simp only [h1, mul_one]
  rw [← Complex.ofReal_sum, ← Complex.ofReal_natCast, ← Complex.ofReal_one, ← Complex.ofReal_div,
    ← Complex.ofReal_mul, Complex.ofReal_re]
  ring

/-- Work of a velocity gradient against its image under a Green operator. -/
theorem ddot_greenOp (c0 s0 : T4 ℝ) (nyq : Bool) (n : Fin 3 → ℝ) (W : T2 ℝ) :
    ddot W (act4 (greenOp c0 s0 nyq n) W) =
      if nyq then -ddot W (act4 s0 W)
      else -∑ p, ∑ i, (∑ j, W p j * n j) * invertView (acoustic c0 n) p i * ∑ j, W i j * n j := by
  cases nyq
  · simp only [Bool.false_eq_true, if_false, ddot, act4, greenOp, Fin.sum_univ_three]
    ring
  · simp only [if_true, ddot, act4, greenOp, Fin.sum_univ_three]
    ring

theorem greenOp_nonpos (c0 s0 : T4 ℝ) (hm : c0.Minor) (hp : c0.Pos) (sm : s0.Minor) (sp : s0.Pos)
    (nyq : Bool) (n : Fin 3 → ℝ) (W : T2 ℝ) : ddot W (act4 (greenOp c0 s0 nyq n) W) ≤ 0 := by
  rw [ddot_greenOp]
  cases nyq
  · rw [if_neg (by simp)]
    rw [neg_nonpos]
    by_cases hv : (fun p => ∑ j, W p j * n j) = (0 : Fin 3 → ℝ)
    · have : ∀ p, ∑ j, W p j * n j = 0 := fun p => congrFun hv p
      simp [this]
    · have hn : n ≠ 0 := by
        rintro rfl
        exact hv (by funext p; simp)
      exact ((acoustic_inverse c0 hm hp n hn).posForm (acoustic_posForm c0 hm hp n hn) _ hv).le
  · rw [if_pos rfl, neg_nonpos]
    exact ddot_nonneg s0 sm sp W

theorem act4_goperr0 (g : EvpGrid) (c0 s0 : T4 ℝ) (o : g.Ix) (ho : ∀ a, (o a : ℕ) = 0) (W : T2 ℝ) :
    ddot W (act4 (goperr0 g c0 s0 o) W) =
      (∑ k, ddot W (act4 (greenOp c0 s0 (g.nyquist k) (unitFreq (g.freq k))) W)) / g.size := by
  simp only [ddot, act4, C95_green_mean g c0 s0 o ho, Fin.sum_univ_three, Finset.mul_sum,
    Finset.sum_add_distrib, Finset.sum_div, mul_add, add_div, Finset.sum_mul]
  have e : ∀ a b c d : Fin 3, ∑ k, W a b * (greenOp c0 s0 (g.nyquist k) (unitFreq (g.freq k)) a b c d /
      (g.size : ℝ) * W c d) = ∑ k, W a b * (greenOp c0 s0 (g.nyquist k) (unitFreq (g.freq k)) a b c d *
      W c d) / (g.size : ℝ) := fun a b c d => Finset.sum_congr rfl fun k _ => by ring
  simp only [e]

/-- **C95.** The Green operator never adds work: its quadratic form is not positive on any velocity
gradient at the origin of the grid, nor on any stress at a deformed point. -/
theorem C95_green_nonpositive (q : BasisConst ℝ) (g : EvpGrid) (c0 s0 : T4 ℝ) (hm : c0.Minor) (hp : c0.Pos)
    (sm : s0.Minor) (sp : s0.Pos) (o : g.Ix) (ho : ∀ a, (o a : ℕ) = 0) :
    (∀ W : T2 ℝ, ddot W (act4 (goperr0 g c0 s0 o) W) ≤ 0) ∧
      ∀ (Fi : T2 ℝ) (J : ℝ), 0 < J → ∀ x : Fin 6 → ℝ,
        ∑ n, ∑ m, x n * goperr066mod q (goperr0 g c0 s0 o) Fi J n m * x m ≤ 0 := by
  have h1 : ∀ W : T2 ℝ, ddot W (act4 (goperr0 g c0 s0 o) W) ≤ 0 := fun W => by
    rw [act4_goperr0 g c0 s0 o ho]
    exact div_nonpos_of_nonpos_of_nonneg
      (Finset.sum_nonpos fun k _ => greenOp_nonpos c0 s0 hm hp sm sp _ _ W) (Nat.cast_nonneg _)
  refine ⟨h1, fun Fi J hJ x => ?_⟩
  rw [goperr066mod, form_chgBasis4, ddot_minorSym _ _ (C66_symmetric q le_rfl x), ddot_goperr0mod]
  exact mul_nonpos_of_nonpos_of_nonneg (h1 _) hJ.le

/-! ### Symmetry -/

/-- The inverse of a symmetric matrix is symmetric. -/
theorem inverse_sym {n : ℕ} {A B : Dense n ℝ} (h : InverseOf A B) (hA : ∀ i j, A i j = A j i) (i j : Fin n) :
    B i j = B j i := by
  have h1 : (Matrix.of B * Matrix.of A : Matrix (Fin n) (Fin n) ℝ) = 1 := by
    ext a b
    rw [Matrix.mul_apply, Matrix.one_apply]
    exact (h a b).1
  have hAt : (Matrix.of A).transpose = Matrix.of A := by
    ext a b
    exact hA b a
  have h2 : ((Matrix.of A) * (Matrix.of B).transpose : Matrix (Fin n) (Fin n) ℝ) = 1 := by
    have := congrArg Matrix.transpose h1
    rwa [Matrix.transpose_mul, hAt, Matrix.transpose_one] at this
  have h3 : Matrix.of B = (Matrix.of B).transpose := by
    calc Matrix.of B = Matrix.of B * (Matrix.of A * (Matrix.of B).transpose) := by rw [h2, Matrix.mul_one]
      _ = (Matrix.of B).transpose := by rw [← Matrix.mul_assoc, h1, Matrix.one_mul]
  exact congrFun (congrFun h3 i) j

theorem minorSym_major (c : T4 ℝ) (h : c.Major) : (minorSym c).Major := fun i j k l => by
  simp only [minorSym]
  rw [h i j k l, h j i k l, h i j l k, h j i l k]
  ring

theorem chgBasis4_sym (q : BasisConst ℝ) (c : T4 ℝ) (h : c.Major) (n m : Fin 6) :
    chgBasis4 q le_rfl c n m = chgBasis4 q le_rfl c m n := by
  simp only [chgBasis4]
  rw [sum_comm22]
  refine Finset.sum_congr rfl fun i _ => Finset.sum_congr rfl fun j _ => Finset.sum_congr rfl fun k _ =>
    Finset.sum_congr rfl fun l _ => ?_
  rw [h k l i j]
  ring

theorem greenOp_major (c0 s0 : T4 ℝ) (hm : c0.Minor) (hM : c0.Major) (hp : c0.Pos) (sM : s0.Major) (nyq : Bool)
    (n : Fin 3 → ℝ) : (greenOp c0 s0 nyq n).Major := by
  intro i j k l
  cases nyq
  · simp only [greenOp, Bool.false_eq_true, if_false]
    by_cases hn : n = 0
    · simp [hn]
    · have hA : ∀ a b, acoustic c0 n a b = acoustic c0 n b a := fun a b => by
        simp only [acoustic]
        rw [Finset.sum_comm]
        exact Finset.sum_congr rfl fun x _ => Finset.sum_congr rfl fun y _ => by rw [hM]; ring
      rw [inverse_sym (acoustic_inverse c0 hm hp n hn) hA i k]
      ring
  · simp only [greenOp, if_true]
    rw [sM]

/-- **C95.** Both matrices of a deformed point are symmetric when the reference stiffness and compliance
are. -/
theorem C95_symmetric (q : BasisConst ℝ) (g : EvpGrid) (c0 s0 : T4 ℝ) (hm : c0.Minor) (hM : c0.Major)
    (hp : c0.Pos) (sM : s0.Major) (o : g.Ix) (ho : ∀ a, (o a : ℕ) = 0) (F Fi : T2 ℝ) (J : ℝ) (n m : Fin 6) :
    c066mod q c0 F J n m = c066mod q c0 F J m n ∧
      goperr066mod q (goperr0 g c0 s0 o) Fi J n m = goperr066mod q (goperr0 g c0 s0 o) Fi J m n := by
  refine ⟨chgBasis4_sym q _ (minorSym_major _ fun i j k l => ?_) n m,
    chgBasis4_sym q _ (minorSym_major _ fun i j k l => ?_) n m⟩
  · simp only [c0mod]
    rw [Finset.sum_comm]
    congr 1
    exact Finset.sum_congr rfl fun x _ => Finset.sum_congr rfl fun y _ => by rw [hM]; ring
  · have hG : (goperr0 g c0 s0 o).Major := fun a b c d => by
      rw [C95_green_mean g c0 s0 o ho, C95_green_mean g c0 s0 o ho]
      congr 1
      exact Finset.sum_congr rfl fun k _ => greenOp_major c0 s0 hm hM hp sM _ _ a b c d
    simp only [goperr0mod]
    rw [Finset.sum_comm]
    congr 1
    exact Finset.sum_congr rfl fun x _ => Finset.sum_congr rfl fun y _ => by rw [hG]; ring

/-! ### The current stiffness -/

theorem currentStiff_eq (q : BasisConst ℝ) (cc : T4 ℝ) (R ag : T2 ℝ) :
    currentStiff q cc R ag = chgBasis4 q le_rfl (rotateStiffness (flipT (timesT R ag)) cc) := by
  rw [currentStiff]
  congr 1
  funext i j k l
  simp only [rotateStiffness, flipT]
  exact Finset.sum_congr rfl fun _ _ => Finset.sum_congr rfl fun _ _ => Finset.sum_congr rfl fun _ _ =>
    Finset.sum_congr rfl fun _ _ => by simp only [timesT]; ring

/-- Components of `E` along the columns of `A`. -/
def alongCols (A E : T2 ℝ) : T2 ℝ := timesT (timesT (flipT A) E) A

theorem pushT_flip (A E : T2 ℝ) : pushT (flipT A) E = alongCols A E := by
  funext i j
  simp only [pushT, flipT, alongCols, timesT, Fin.sum_univ_three]
  ring

/-- **C95.** The current stiffness of a crystal stores in a strain the energy its phase stores in the
components of that strain along the turned crystal axes: the rotation of the elastic part enters, its
stretch does not. -/
theorem C95_current_energy (q : BasisConst ℝ) (cc : T4 ℝ) (R ag : T2 ℝ) (x : Fin 6 → ℝ) :
    ∑ n, ∑ m, x n * currentStiff q cc R ag n m * x m =
      ddot (alongCols (timesT R ag) (chgBasis1 q le_rfl x))
        (act4 cc (alongCols (timesT R ag) (chgBasis1 q le_rfl x))) := by
  rw [currentStiff_eq, form_chgBasis4, C68_energy, pushT_flip]

/-- **C95.** The current stiffness is positive definite as long as the turned crystal axes are
independent; they need not be exactly orthogonal. -/
theorem C95_current_positive (q : BasisConst ℝ) (hq : q.Exact) (cc : T4 ℝ) (hp : cc.Pos) (R ag A' : T2 ℝ)
    (hA : timesT A' (timesT R ag) = fun i j => if i = j then 1 else 0) :
    PosForm (currentStiff q cc R ag) := by
  intro x hx
  rw [C95_current_energy]
  have hs := C66_symmetric q le_rfl x
  have hne := chgBasis1_ne q hq x hx
  obtain ⟨E, hE⟩ : ∃ E, E = chgBasis1 q le_rfl x := ⟨_, rfl⟩
  obtain ⟨A, hAd⟩ : ∃ A, A = timesT R ag := ⟨_, rfl⟩
  rw [← hE] at hs hne ⊢
  rw [← hAd] at hA ⊢
  refine hp _ ?_ fun h0 => hne ?_
  · rw [← pushT_flip]
    exact push_sym _ _ hs
  · have h1 : (Matrix.of A' * Matrix.of A : Matrix (Fin 3) (Fin 3) ℝ) = 1 := by
      ext i j
      rw [Matrix.mul_apply, Matrix.one_apply]
      exact congrFun (congrFun hA i) j
    have h2 := mul_eq_one_comm.mp h1
    have h3 : ((Matrix.of A).transpose * Matrix.of E * Matrix.of A : Matrix (Fin 3) (Fin 3) ℝ) = 0 := by
      ext i j
      have := congrFun (congrFun h0 i) j
      rw [Matrix.mul_apply]
      simp only [Matrix.mul_apply]
      exact this
    have h4 : (Matrix.of E : Matrix (Fin 3) (Fin 3) ℝ) =
        (Matrix.of A').transpose * ((Matrix.of A).transpose * Matrix.of E * Matrix.of A) * Matrix.of A' := by
      have h5 : ((Matrix.of A').transpose * (Matrix.of A).transpose : Matrix (Fin 3) (Fin 3) ℝ) = 1 := by
        rw [← Matrix.transpose_mul, h2, Matrix.transpose_one]
      calc (Matrix.of E : Matrix (Fin 3) (Fin 3) ℝ) =
          ((Matrix.of A').transpose * (Matrix.of A).transpose) * Matrix.of E * (Matrix.of A * Matrix.of A') := by
            rw [h5, h2, Matrix.one_mul, Matrix.mul_one]
        _ = _ := by simp only [Matrix.mul_assoc]
    rw [h3, Matrix.mul_zero, Matrix.zero_mul] at h4
    exact h4

/-- **C95.** The matrices the code builds at a deformed point meet the conditions of the stress iteration
(C98). -/
theorem C95_iteration_data (d : Large.EvpalIn) (hq : d.q.Exact) (g : EvpGrid) (c0 s0 : T4 ℝ) (hm : c0.Minor)
    (hp : c0.Pos) (sm : s0.Minor) (sp : s0.Pos) (o : g.Ix) (ho : ∀ a, (o a : ℕ) = 0) (F Fi : T2 ℝ) (J : ℝ)
    (hJ : 0 < J) (hF : Acute F) (cc : T4 ℝ) (hcc : cc.Pos) (R ag A' : T2 ℝ)
    (hA : timesT A' (timesT R ag) = fun i j => if i = j then 1 else 0) (ht : 0 < d.tdot)
    (hf : d.flow.Good) (e1 : d.cg66 = currentStiff d.q cc R ag) (e2 : d.c066mod = c066mod d.q c0 F J)
    (e3 : d.gop = goperr066mod d.q (goperr0 g c0 s0 o) Fi J) : d.Good where
  cg := e1 ▸ C95_current_positive d.q hq cc hcc R ag A' hA
  c0 := e2 ▸ (C95_reference_positive d.q hq c0 hm hp F J hJ).2 hF
  gop := fun x => by
    rw [e3]
    exact (C95_green_nonpositive d.q g c0 s0 hm hp sm sp o ho).2 Fi J hJ x
  tdot := ht
  flow := hf

/-! ### Scaling by the time increment -/

/-- **C95.** The reference medium is the same after any number of steps, whatever their time increments:
the scaling at the start of each step is undone at its end. -/
theorem C95_scaling (r : Reference) (steps : List ℝ) (h : ∀ t ∈ steps, t ≠ 0) : r.run steps = r := by
  induction steps with
  | nil => rfl
  | cons t l ih =>
    have ht := h t (List.mem_cons_self ..)
    have e : (r.init t).deinit t = r := by
      simp only [Reference.init, Reference.deinit, mul_div_cancel_right₀ _ ht, div_mul_cancel₀ _ ht]
    show ((r.init t).deinit t).run l = r
    rw [e]
    exact ih fun x hx => h x (List.mem_cons_of_mem _ hx)

/-- **C95.** Within a step the scaled compliance still inverts the scaled stiffness. -/
theorem C95_scaled_inverse (r : Reference) (t : ℝ) (ht : t ≠ 0) (T : T2 ℝ)
    (h : act4 r.c0 (act4 r.s0 T) = T) : act4 (r.init t).c0 (act4 (r.init t).s0 T) = T := by
  conv_rhs => rw [← h]
  funext i j
  simp only [act4, Reference.init, Fin.sum_univ_three]
  field_simp

/-! ### Large rotations -/

/-- A quarter turn about the third axis. -/
def turnZ : T2 ℝ := fun i j =>
  if i = 0 ∧ j = 1 then -1 else if i = 1 ∧ j = 0 then 1 else if i = 2 ∧ j = 2 then 1 else 0

/-- Equal stretching in the plane of the turn. -/
def planeStretch : T2 ℝ := fun i j => if i = j ∧ i ≠ 2 then 1 else 0

/-- **C95.** Positive definiteness is lost at large rotations.  After a rigid quarter turn the reference
medium gives no stress to equal stretching in the plane of the turn, whatever the reference stiffness. -/
theorem C95_definite_fails (q : BasisConst ℝ) (hq : q.Exact) (c0 : T4 ℝ) (hm : c0.Minor) :
    turnZ.Orth ∧ planeStretch.Sym ∧ chgBasis2 q le_rfl planeStretch ≠ 0 ∧
      ∀ n, ∑ m, c066mod q c0 turnZ 1 n m * chgBasis2 q le_rfl planeStretch m = 0 := by
  have hs : planeStretch.Sym := fun i j => by
    fin_cases i <;> fin_cases j <;> simp [planeStretch]
  refine ⟨fun i j => ?_, hs, fun h0 => ?_, fun n => ?_⟩
  · fin_cases i <;> fin_cases j <;> simp [turnZ, Fin.sum_univ_three]
  · have := C66_symmetric_roundtrip q hq planeStretch hs
    rw [h0] at this
    have h1 := congrFun (congrFun this 0) 0
    simp [chgBasis1, planeStretch] at h1
  · rw [C95_reference_stress q hq c0 turnZ 1 planeStretch hs]
    have e : act4 c0 (timesT planeStretch turnZ) = 0 := by
      funext i j
      have h01 := (hm i j 0 1).2
      simp only [act4, timesT, planeStretch, turnZ, Fin.sum_univ_three]
      simp
      linarith
    rw [e]
    have e2 : (symT fun i j => timesT (0 : T2 ℝ) (flipT turnZ) i j / 1) = 0 := by
      funext i j; simp [symT, timesT]
    rw [e2]
    simp [chgBasis2]

/-! ### The hypotheses are met -/

/-- A simple shear of size one keeps an acute angle. -/
example : Acute fun i j => if i = j then 1 else if i = 0 ∧ j = 1 then 1 else 0 := by
  intro v hv
  have e : ∑ i, ∑ j, v i * (if i = j then 1 else if i = 0 ∧ j = 1 then 1 else 0) * v j =
      (v 0 + v 1 / 2) ^ 2 + 3 / 4 * v 1 ^ 2 + v 2 ^ 2 := by
    simp [Fin.sum_univ_three]
    ring
  rw [e]
  by_contra hc
  have h1 : v 1 = 0 := by nlinarith [sq_nonneg (v 0 + v 1 / 2), sq_nonneg (v 1), sq_nonneg (v 2)]
  have h2 : v 2 = 0 := by nlinarith [sq_nonneg (v 0 + v 1 / 2), sq_nonneg (v 1), sq_nonneg (v 2)]
  have h0 : v 0 = 0 := by nlinarith [sq_nonneg (v 0)]
  exact hv (by funext i; fin_cases i <;> simp [h0, h1, h2])

example : T4.Minor (isoStiffness (210 : ℝ) (3 / 10)) ∧ T4.Major (isoStiffness (210 : ℝ) (3 / 10)) ∧
    T4.Pos (isoStiffness (210 : ℝ) (3 / 10)) := by
  refine ⟨fun i j k l => ?_, fun i j k l => ?_,
    C67_isotropic_positive _ _ (by norm_num) (by norm_num) (by norm_num)⟩
  · fin_cases i <;> fin_cases j <;> fin_cases k <;> fin_cases l <;> simp [isoStiffness, xid4, dde]
  · fin_cases i <;> fin_cases j <;> fin_cases k <;> fin_cases l <;> simp [isoStiffness, xid4, dde]

example : timesT (flipT turnZ) (timesT turnZ fun i j => if i = j then 1 else 0) =
    fun i j => if i = j then 1 else 0 := by
  funext i j
  fin_cases i <;> fin_cases j <;> simp [timesT, flipT, turnZ, Fin.sum_univ_three]

end Fierro
