import Verif.Props.EvpTensor

/-!
# C67: crystal stiffness; C68: stiffness in the sample frame and reference medium
-/

set_option linter.unusedSectionVars false

namespace Fierro

/-! ### C67 -/

/-- Voigt number (from 0) of a pair of tensor indices: 11, 22, 33, 23, 13, 12. -/
def voigtOf (a b : Fin 3) : Fin 6 :=
  if h : a = b then ⟨a, by omega⟩ else ⟨6 - (a + b), by
    have : (a : ℕ) ≠ b := fun e => h (Fin.ext e)
    omega⟩

theorem voigtOf_pair : ∀ (i : Fin 6) (a b : Fin 3),
    ((a, b) = ((ijv i).1, (ijv i).2) ∨ (a, b) = ((ijv i).2, (ijv i).1)) ↔ voigtOf a b = i := by
  decide

theorem voigtOf_ijv : ∀ i : Fin 6, voigtOf (ijv i).1 (ijv i).2 = i := by decide

theorem voigtOf_symm : ∀ a b : Fin 3, voigtOf a b = voigtOf b a := by decide

theorem mem_voigtKeys (i j : Fin 6) (a b c d : Fin 3) :
    ((a, b, c, d) : Key4) ∈ voigtKeys i j ↔ voigtOf a b = i ∧ voigtOf c d = j := by
  rw [← voigtOf_pair, ← voigtOf_pair]
  simp only [voigtKeys, List.mem_cons, Prod.mk.injEq, List.not_mem_nil, or_false]
  tauto

theorem mem_voigtPairs (p : Fin 6 × Fin 6) : p ∈ voigtPairs := by
  simp only [voigtPairs, List.mem_flatMap, List.mem_map, List.mem_finRange, true_and]
  exact ⟨p.1, p.2, rfl⟩

theorem voigtFill {K : Type} (g : Fin 6 → Fin 6 → K) (a b c d : Fin 3) :
    Mem.writeAll (voigtPairs.flatMap fun p => (voigtKeys p.1 p.2).map fun k => (k, g p.1 p.2))
      Mem.empty ((a, b, c, d) : Key4) = some (g (voigtOf a b) (voigtOf c d)) := by
  apply Mem.writeAll_of_mem
  · rw [List.mem_flatMap]
    refine ⟨(voigtOf a b, voigtOf c d), mem_voigtPairs _, ?_⟩
    rw [List.mem_map]
    exact ⟨(a, b, c, d), (mem_voigtKeys _ _ _ _ _ _).mpr ⟨rfl, rfl⟩, rfl⟩
  · intro v' hv
    rw [List.mem_flatMap] at hv
    obtain ⟨p, _, hp⟩ := hv
    rw [List.mem_map] at hp
    obtain ⟨k, hk, he⟩ := hp
    rw [Prod.mk.injEq] at he
    obtain ⟨rfl, rfl⟩ := he
    obtain ⟨h1, h2⟩ := (mem_voigtKeys _ _ _ _ _ _).mp hk
    rw [h1, h2]

section field
variable {K : Type} [Field K] [LinearOrder K] [IsStrictOrderedRing K]

/-- **C67.** The stiffness matrix read from the file fills every entry of the tensor, and entry
`(a,b,c,d)` is the matrix entry of the Voigt numbers of `(a,b)` and `(c,d)`. -/
theorem C67_voigt_entries (c2 : Fin 6 → Fin 6 → K) (a b c d : Fin 3) :
    voigt1 c2 (a, b, c, d) = some (c2 (voigtOf a b) (voigtOf c d)) := voigtFill c2 a b c d

/-- The tensor of a stiffness matrix (spec). -/
def voigtTensor (c2 : Fin 6 → Fin 6 → K) : T4 K := fun a b c d => c2 (voigtOf a b) (voigtOf c d)

/-- **C67.** Matrix to tensor to matrix is the identity. -/
theorem C67_voigt_roundtrip (c2 : Fin 6 → Fin 6 → K) (C : T4 K)
    (h : ∀ a b c d, voigt1 c2 (a, b, c, d) = some (C a b c d)) : voigt2 C = c2 := by
  funext i j
  have := h (ijv i).1 (ijv i).2 (ijv j).1 (ijv j).2
  rw [C67_voigt_entries, voigtOf_ijv, voigtOf_ijv] at this
  exact (Option.some.inj this).symm

/-- **C67.** The tensor has the minor symmetries, and the major symmetry exactly when the matrix is
symmetric. -/
theorem C67_voigt_symmetries (c2 : Fin 6 → Fin 6 → K) (C : T4 K)
    (h : ∀ a b c d, voigt1 c2 (a, b, c, d) = some (C a b c d)) :
    C.Minor ∧ (C.Major ↔ ∀ i j, c2 i j = c2 j i) := by
  have e : ∀ a b c d, C a b c d = c2 (voigtOf a b) (voigtOf c d) := by
    intro a b c d
    have := h a b c d
    rw [C67_voigt_entries] at this
    exact (Option.some.inj this).symm
  refine ⟨fun i j k l => ⟨?_, ?_⟩, ?_, ?_⟩
  · rw [e, e, voigtOf_symm i j]
  · rw [e, e, voigtOf_symm k l]
  · intro hM i j
    have := hM (ijv i).1 (ijv i).2 (ijv j).1 (ijv j).2
    rwa [e, e, voigtOf_ijv, voigtOf_ijv] at this
  · intro hs i j k l
    rw [e, e, hs]

/-- Engineering strain (shear components doubled) in Voigt order. -/
def engStrain (T : T2 K) (j : Fin 6) : K := (if 2 < j then 2 else 1) * T (ijv j).1 (ijv j).2

theorem sum_voigt (f : Fin 6 → K) (T : T2 K) (hT : T.Sym) :
    ∑ k, ∑ l, f (voigtOf k l) * T k l = ∑ j, f j * engStrain T j := by
  have v00 : voigtOf 0 0 = 0 := rfl
  have v01 : voigtOf 0 1 = 5 := rfl
  have v02 : voigtOf 0 2 = 4 := rfl
  have v10 : voigtOf 1 0 = 5 := rfl
  have v11 : voigtOf 1 1 = 1 := rfl
  have v12 : voigtOf 1 2 = 3 := rfl
  have v20 : voigtOf 2 0 = 4 := rfl
  have v21 : voigtOf 2 1 = 3 := rfl
  have v22 : voigtOf 2 2 = 2 := rfl
  have j0 : engStrain T 0 = T 0 0 := one_mul _
  have j1 : engStrain T 1 = T 1 1 := one_mul _
  have j2 : engStrain T 2 = T 2 2 := one_mul _
  have j3 : engStrain T 3 = 2 * T 1 2 := rfl
  have j4 : engStrain T 4 = 2 * T 0 2 := rfl
  have j5 : engStrain T 5 = 2 * T 0 1 := rfl
  simp only [Fin.sum_univ_three, Fin.sum_univ_six, v00, v01, v02, v10, v11, v12, v20, v21, v22,
    j0, j1, j2, j3, j4, j5, hT 1 0, hT 2 0, hT 2 1]
  ring

/-- **C67.** Hooke's law in matrix form: stress components are the matrix times the engineering
strains. -/
theorem C67_voigt_hooke (c2 : Fin 6 → Fin 6 → K) (C : T4 K)
    (h : ∀ a b c d, voigt1 c2 (a, b, c, d) = some (C a b c d)) (T : T2 K) (hT : T.Sym) (i : Fin 6) :
    ∑ k, ∑ l, C (ijv i).1 (ijv i).2 k l * T k l = ∑ j, c2 i j * engStrain T j := by
  have e : ∀ k l, C (ijv i).1 (ijv i).2 k l = c2 i (voigtOf k l) := by
    intro k l
    have := h (ijv i).1 (ijv i).2 k l
    rw [C67_voigt_entries, voigtOf_ijv] at this
    exact (Option.some.inj this).symm
  simp only [e]
  exact sum_voigt (c2 i) T hT

theorem voigt_energy (c2 : Fin 6 → Fin 6 → K) (T : T2 K) (hT : T.Sym) :
    ddot T (act4 (voigtTensor c2) T) = ∑ i, ∑ j, engStrain T i * c2 i j * engStrain T j := by
  have e : ∀ a b, act4 (voigtTensor c2) T a b = ∑ j, c2 (voigtOf a b) j * engStrain T j := by
    intro a b
    exact sum_voigt (c2 (voigtOf a b)) T hT
  simp only [ddot, e]
  have := sum_voigt (fun i => ∑ j, c2 i j * engStrain T j) T hT
  calc ∑ i, ∑ j, T i j * ∑ k, c2 (voigtOf i j) k * engStrain T k
      = ∑ i, ∑ j, (∑ k, c2 (voigtOf i j) k * engStrain T k) * T i j :=
        Finset.sum_congr rfl fun i _ => Finset.sum_congr rfl fun j _ => mul_comm _ _
    _ = _ := this
    _ = _ := by
        refine Finset.sum_congr rfl fun i _ => ?_
        rw [Finset.sum_mul]
        exact Finset.sum_congr rfl fun j _ => by ring

/-- The strain with given engineering components. -/
def ofEng (x : Fin 6 → K) : T2 K := fun a b =>
  (if a = b then 1 else 1 / 2) * x (voigtOf a b)

theorem ofEng_sym (x : Fin 6 → K) : T2.Sym (ofEng x) := by
  intro i j
  simp only [ofEng, voigtOf_symm i j, eq_comm]

theorem engStrain_ofEng (x : Fin 6 → K) : engStrain (ofEng x) = x := by
  funext j
  have h : ∀ j : Fin 6, ((ijv j).1 = (ijv j).2) ↔ ¬ 2 < j := by decide
  simp only [engStrain, ofEng, voigtOf_ijv]
  by_cases hj : 2 < j
  · rw [if_pos hj, if_neg (fun e => (h j).mp e hj)]; ring
  · rw [if_neg hj, if_pos ((h j).mpr hj)]; ring

theorem engStrain_ne_zero (T : T2 K) (hT : T.Sym) (h : T ≠ 0) : engStrain T ≠ 0 := by
  intro h0
  apply h
  have z : ∀ j, T (ijv j).1 (ijv j).2 = 0 := by
    intro j
    have := congrFun h0 j
    simp only [engStrain, Pi.zero_apply, mul_eq_zero] at this
    rcases this with h | h
    · split_ifs at h
      · exact absurd h (by norm_num)
      · exact absurd h one_ne_zero
    · exact h
  funext a b
  have hp := (voigtOf_pair (voigtOf a b) a b).mpr rfl
  rcases hp with hp | hp
  · rw [Prod.mk.injEq] at hp
    have := z (voigtOf a b)
    rw [← hp.1, ← hp.2] at this; exact this
  · rw [Prod.mk.injEq] at hp
    have := z (voigtOf a b)
    rw [hT, ← hp.1, ← hp.2] at this; exact this

/-- **C67.** The stored energy of the tensor is positive for every strain exactly when the matrix of
the input file has a positive definite form. -/
theorem C67_voigt_positive (c2 : Fin 6 → Fin 6 → K) (C : T4 K)
    (h : ∀ a b c d, voigt1 c2 (a, b, c, d) = some (C a b c d)) : C.Pos ↔ PosForm c2 := by
  have e : C = voigtTensor c2 := by
    funext a b c d
    have := h a b c d
    rw [C67_voigt_entries] at this
    exact (Option.some.inj this).symm
  rw [e]
  constructor
  · intro hP x hx
    have := hP (ofEng x) (ofEng_sym x) (by
      intro h0
      apply hx
      rw [← engStrain_ofEng x, h0]
      funext j; simp [engStrain])
    rwa [voigt_energy c2 _ (ofEng_sym x), engStrain_ofEng] at this
  · intro hP T hT h0
    rw [voigt_energy c2 T hT]
    exact hP _ (engStrain_ne_zero T hT h0)

/-- **C67.** `iopt = 3` turns a compliance matrix into the tensor that returns the strain tensor whose
engineering components are the matrix times the stresses. -/
theorem C67_compliance (s2 : Fin 6 → Fin 6 → K) (S : T4 K)
    (h : ∀ a b c d, voigt3 s2 (a, b, c, d) = some (S a b c d)) (sig : T2 K) (hs : sig.Sym) :
    engStrain (fun a b => ∑ k, ∑ l, S a b k l * sig k l) =
      fun i => ∑ j, s2 i j * sig (ijv j).1 (ijv j).2 := by
  have e : ∀ a b c d, S a b c d =
      voigtFactor (voigtOf a b) (voigtOf c d) * s2 (voigtOf a b) (voigtOf c d) := by
    intro a b c d
    have := h a b c d
    rw [show voigt3 s2 (a, b, c, d) = _ from
      voigtFill (fun i j => voigtFactor i j * s2 i j) a b c d] at this
    exact (Option.some.inj this).symm
  funext i
  simp only [engStrain, e, voigtOf_ijv]
  rw [sum_voigt (fun v => voigtFactor i v * s2 i v) sig hs, Finset.mul_sum]
  refine Finset.sum_congr rfl fun j _ => ?_
  simp only [voigtFactor, engStrain]
  split_ifs <;> ring

/-- **C67.** Isotropic input: the stress is `λ tr(ε) 1 + 2 μ ε`. -/
theorem C67_isotropic (E nu : K) (T : T2 K) (hT : T.Sym) (i j : Fin 3) :
    ∑ k, ∑ l, isoStiffness E nu i j k l * T k l =
      isoLambda E nu * (T 0 0 + T 1 1 + T 2 2) * (if i = j then 1 else 0) +
        2 * isoMu E nu * T i j := by
  have e1 := ddot_xid4 T i j
  have e2 : ∑ k, ∑ l, (dde k l : K) * T k l = T 0 0 + T 1 1 + T 2 2 := by
    simp [dde, Fin.sum_univ_three]
  calc ∑ k, ∑ l, isoStiffness E nu i j k l * T k l
      = isoLambda E nu * dde i j * (∑ k, ∑ l, dde k l * T k l) +
          2 * isoMu E nu * ∑ k, ∑ l, T k l * xid4 i j k l := by
        rw [Finset.mul_sum, Finset.mul_sum, ← Finset.sum_add_distrib]
        refine Finset.sum_congr rfl fun k _ => ?_
        rw [Finset.mul_sum, Finset.mul_sum, ← Finset.sum_add_distrib]
        exact Finset.sum_congr rfl fun l _ => by simp only [isoStiffness]; ring
    _ = _ := by
        rw [e1, e2, ← hT i j]
        simp only [dde]
        split_ifs <;> ring

/-- **C67.** The two isotropic constants are the Young modulus and the Poisson ratio: stretching with
free lateral contraction `ν` gives the uniaxial stress `E e`. -/
theorem C67_uniaxial (E nu e : K) (h1 : 1 + nu ≠ 0) (h2 : 1 - 2 * nu ≠ 0) (i j : Fin 3) :
    ∑ k, ∑ l, isoStiffness E nu i j k l *
        (if k = l then (if k = 0 then e else -(nu * e)) else 0) =
      if i = 0 ∧ j = 0 then E * e else 0 := by
  rw [C67_isotropic E nu (fun k l => if k = l then (if k = 0 then e else -(nu * e)) else 0)]
  · unfold isoLambda isoMu
    have t : ((if (0 : Fin 3) = 0 then (if (0 : Fin 3) = 0 then e else -(nu * e)) else 0) +
      (if (1 : Fin 3) = 1 then (if (1 : Fin 3) = 0 then e else -(nu * e)) else 0) +
      (if (2 : Fin 3) = 2 then (if (2 : Fin 3) = 0 then e else -(nu * e)) else 0)) =
        (1 - 2 * nu) * e := by simp; ring
    rw [t]
    by_cases hij : i = j
    · subst hij
      by_cases hi : i = 0
      · subst hi; simp; field_simp; ring
      · simp [hi]; field_simp; ring
    · have : ¬ (i = 0 ∧ j = 0) := fun h => hij (h.1.trans h.2.symm)
      simp [hij, this]
  · intro a b
    by_cases hab : a = b
    · subst hab; rfl
    · have : ¬ b = a := fun h => hab h.symm
      simp [hab, this]

/-- Squared norm of the deviator, nonnegative. -/
theorem ddot_dev (T : T2 K) : ddot T T - (T 0 0 + T 1 1 + T 2 2) ^ 2 / 3 =
    ddot (fun i j => T i j - (if i = j then (T 0 0 + T 1 1 + T 2 2) / 3 else 0))
      (fun i j => T i j - (if i = j then (T 0 0 + T 1 1 + T 2 2) / 3 else 0)) := by
  simp [ddot, Fin.sum_univ_three]; ring

theorem ddot_self_nonneg (T : T2 K) : 0 ≤ ddot T T :=
  Finset.sum_nonneg fun _ _ => Finset.sum_nonneg fun _ _ => mul_self_nonneg _

theorem ddot_self_eq_zero (T : T2 K) : ddot T T = 0 ↔ T = 0 := by
  constructor
  · intro h
    have h1 := (Finset.sum_eq_zero_iff_of_nonneg (fun i _ =>
      Finset.sum_nonneg fun j _ => mul_self_nonneg (T i j))).mp h
    funext i j
    have h2 := (Finset.sum_eq_zero_iff_of_nonneg (fun j _ => mul_self_nonneg (T i j))).mp
      (h1 i (Finset.mem_univ _))
    exact mul_self_eq_zero.mp (h2 j (Finset.mem_univ _))
  · intro h; subst h; simp [ddot]

/-- **C67.** For `E > 0` and `-1 < ν < 1/2` the isotropic stiffness has positive stored energy. -/
theorem C67_isotropic_positive (E nu : K) (hE : 0 < E) (h1 : -1 < nu) (h2 : nu < 1 / 2) :
    T4.Pos (isoStiffness E nu) := by
  intro T hT h0
  have e : ddot T (act4 (isoStiffness E nu) T) =
      isoLambda E nu * (T 0 0 + T 1 1 + T 2 2) ^ 2 + 2 * isoMu E nu * ddot T T := by
    have : act4 (isoStiffness E nu) T = fun i j =>
        isoLambda E nu * (T 0 0 + T 1 1 + T 2 2) * (if i = j then 1 else 0) +
        2 * isoMu E nu * T i j := by
      funext i j; exact C67_isotropic E nu T hT i j
    rw [this]
    simp [ddot, Fin.sum_univ_three]; ring
  rw [e]
  have p1 : 0 < 1 + nu := by linarith
  have p2 : 0 < 1 - 2 * nu := by linarith
  have mu : 0 < isoMu E nu := by unfold isoMu; positivity
  have bulk : isoLambda E nu + 2 * isoMu E nu / 3 = E / (3 * (1 - 2 * nu)) := by
    unfold isoLambda isoMu; field_simp; ring
  have bulkpos : 0 < E / (3 * (1 - 2 * nu)) := by positivity
  have dev := ddot_self_nonneg (fun i j => T i j - (if i = j then (T 0 0 + T 1 1 + T 2 2) / 3 else 0))
  rw [← ddot_dev] at dev
  have key : isoLambda E nu * (T 0 0 + T 1 1 + T 2 2) ^ 2 + 2 * isoMu E nu * ddot T T =
      E / (3 * (1 - 2 * nu)) * (T 0 0 + T 1 1 + T 2 2) ^ 2 +
        2 * isoMu E nu * (ddot T T - (T 0 0 + T 1 1 + T 2 2) ^ 2 / 3) := by
    rw [← bulk]; ring
  rw [key]
  have hpos : 0 < ddot T T :=
    lt_of_le_of_ne (ddot_self_nonneg T) (fun h => h0 ((ddot_self_eq_zero T).mp h.symm))
  by_cases ht : T 0 0 + T 1 1 + T 2 2 = 0
  · rw [ht]
    have : 2 * isoMu E nu * (ddot T T - 0 ^ 2 / 3) = 2 * isoMu E nu * ddot T T := by ring
    rw [this]
    have : E / (3 * (1 - 2 * nu)) * (0 : K) ^ 2 = 0 := by ring
    rw [this]; positivity
  · have : 0 < (T 0 0 + T 1 1 + T 2 2) ^ 2 := by positivity
    have a1 := mul_pos bulkpos this
    have a2 := mul_nonneg (mul_pos two_pos mu).le dev
    linarith

/-- **C67.** Every entry of the stiffness of a phase is written, whichever form the input takes, and it
is the tensor of the matrix, or the isotropic tensor, times the stress scale. -/
theorem C67_phase_stiffness (scale : K) (inp : ElastInput K) (a b c d : Fin 3) :
    phaseStiffness scale inp (a, b, c, d) = some ((match inp with
      | .full m => voigtTensor m a b c d
      | .iso E nu => isoStiffness E nu a b c d) * scale) := by
  cases inp with
  | full m =>
    show (voigt1 m (a, b, c, d)).map (· * scale) = _
    rw [C67_voigt_entries]; rfl
  | iso E nu => rfl

end field

set_option maxRecDepth 100000 in
/-- **C67.** `iopt = 4` is meant to build the tensor of a quantity antisymmetric in its first two
indices for the shear rows and leave the three normal rows as they are.  The test `i < 3` sends the
third normal row to the shear branch: entry `(3,3,1,1)` comes out with the wrong sign. -/
theorem C67_antisymmetric_option_fails (c2 : Fin 6 → Fin 6 → ℚ) :
    voigt4 c2 (0, 0, 0, 0) = some (c2 0 0) ∧ voigt4 c2 (1, 1, 0, 0) = some (c2 1 0) ∧
      voigt4 c2 (2, 2, 0, 0) = some (-c2 2 0) := by
  refine ⟨rfl, rfl, rfl⟩

set_option maxRecDepth 100000 in
/-- **C67.** In the shear rows `iopt = 4` gives the entry of the matrix for the two index pairs in the order of the
Voigt table and its negative if the first pair is turned; the order of the second pair does not matter. -/
theorem C67_antisymmetric_shear (c2 : Fin 6 → Fin 6 → ℚ) (s t : Fin 6) (hs : 2 < s) :
    voigt4 c2 ((ijv s).1, (ijv s).2, (ijv t).1, (ijv t).2) = some (c2 s t) ∧
    voigt4 c2 ((ijv s).1, (ijv s).2, (ijv t).2, (ijv t).1) = some (c2 s t) ∧
    voigt4 c2 ((ijv s).2, (ijv s).1, (ijv t).1, (ijv t).2) = some (-c2 s t) ∧
    voigt4 c2 ((ijv s).2, (ijv s).1, (ijv t).2, (ijv t).1) = some (-c2 s t) := by
  fin_cases s <;> first | (exact absurd hs (by decide)) | skip
  all_goals fin_cases t <;> exact ⟨rfl, rfl, rfl, rfl⟩

/-- Cubic stiffness of copper (GPa), as in the example inputs. -/
def copper : Fin 6 → Fin 6 → ℚ := fun i j =>
  if i = j then (if 2 < i then 77 else 170) else if 2 < i ∨ 2 < j then 0 else 124

/-- The hypothesis of C67 is met by a cubic crystal. -/
example : PosForm copper := by
  intro x hx
  have hne : ∃ i, x i ≠ 0 := by
    by_contra hh; push Not at hh; exact hx (funext hh)
  have e : ∑ i, ∑ j, x i * copper i j * x j =
      46 * (x 0 ^ 2 + x 1 ^ 2 + x 2 ^ 2) + 124 * (x 0 + x 1 + x 2) ^ 2 +
        77 * (x 3 ^ 2 + x 4 ^ 2 + x 5 ^ 2) := by
    have c : ∀ i j, copper i j = ![![170, 124, 124, 0, 0, 0], ![124, 170, 124, 0, 0, 0],
        ![124, 124, 170, 0, 0, 0], ![0, 0, 0, 77, 0, 0], ![0, 0, 0, 0, 77, 0],
        ![0, 0, 0, 0, 0, 77]] i j := by decide
    simp only [c]
    simp [Fin.sum_univ_six]; ring
  rw [e]
  obtain ⟨i, hi⟩ := hne
  have sq : 0 < x i ^ 2 := by positivity
  have := sq_nonneg (x 0 + x 1 + x 2)
  have q0 := sq_nonneg (x 0)
  have q1 := sq_nonneg (x 1)
  have q2 := sq_nonneg (x 2)
  have q3 := sq_nonneg (x 3)
  have q4 := sq_nonneg (x 4)
  have q5 := sq_nonneg (x 5)
  fin_cases i
  · have s : 0 < x 0 ^ 2 := sq
    linarith
  · have s : 0 < x 1 ^ 2 := sq
    linarith
  · have s : 0 < x 2 ^ 2 := sq
    linarith
  · have s : 0 < x 3 ^ 2 := sq
    linarith
  · have s : 0 < x 4 ^ 2 := sq
    linarith
  · have s : 0 < x 5 ^ 2 := sq
    linarith

end Fierro
