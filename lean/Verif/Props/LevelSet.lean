import Verif.Model.LevelSet
import Verif.Props.SolverLoop
import Verif.Props.SghKinematics
import Verif.Props.StressBC
import Verif.Props.Parallel
import Mathlib.Tactic.Positivity

/-!
# C62-C64: the level set solver
-/

set_option linter.unusedSectionVars false

namespace Fierro

variable {E N m D : ℕ}

theorem foldl_add_eq_sum {ι : Type} (l : List ι) (f : ι → ℝ) (a : ℝ) :
    l.foldl (fun acc c => acc + f c) a = a + (l.map f).sum := by
  induction l generalizing a with
  | nil => simp
  | cons c l ih => rw [List.foldl_cons, ih, List.map_cons, List.sum_cons, add_assoc]

theorem lsGrad_eq (M : LsMesh E N m) (G : LsGeom E m D) (phi : Fin E → ℝ) (n : Fin N) (d : Fin D) :
    lsGrad M G phi n d = ((M.cornersInNode n).map fun c => G.normal c.1 c.2 d * phi c.1).sum /
      ((M.cornersInNode n).map fun c => 1 / (m : ℝ) * G.vol c.1).sum := by
  rw [lsGrad, lsNodeVol, foldl_add_eq_sum, foldl_add_eq_sum, zero_add, zero_add]

/-! ### C62: gradient and front direction -/

/-- **C62.** A uniform level set has zero gradient at the interior nodes of a structured hexahedral
block, however distorted. -/
theorem C62_uniform_field (mesh : Mesh8 E N) (coords : Fin N → Fin 3 → ℝ) (n : Fin N)
    (I : InteriorNode mesh n) (phi : Fin E → ℝ) (c : ℝ)
    (hc : ∀ x ∈ mesh.cornersInNode n, phi x.1 = c) (d : Fin 3) :
    lsGrad (lsMesh3 mesh) (lsGeom3 mesh coords) phi n d = 0 := by
  rw [lsGrad_eq]
  have h : ((mesh.cornersInNode n).map fun x => elemB mesh coords x.1 x.2 d * phi x.1).sum
      = ((mesh.cornersInNode n).map fun x => elemB mesh coords x.1 x.2 d).sum * c := by
    rw [← List.sum_map_mul_right]
    congr 1
    apply List.map_congr_left
    intro x hx
    rw [hc x hx]
  have h' := C51_area_vectors_close mesh coords n I d
  simp only [lsMesh3, lsGeom3]
  rw [h, h', zero_mul, zero_div]

/-- The 27 nodes around an interior node form a lattice with edge vectors `u`, `v`, `w`. -/
def LatticeAround {mesh : Mesh8 E N} {n : Fin N} (I : InteriorNode mesh n)
    (coords : Fin N → Fin 3 → ℝ) (o u v w : Fin 3 → ℝ) : Prop :=
  ∀ a < 3, ∀ b < 3, ∀ c < 3, ∀ d,
    coords (I.P a b c) d = o d + (a : ℝ) * u d + (b : ℝ) * v d + (c : ℝ) * w d

theorem slantBox_B (o u v w : Fin 3 → ℝ) (l : Fin 8) (i : Fin 3) :
    bmatrix (fun n => slantBox o u v w n 0) (fun n => slantBox o u v w n 1)
      (fun n => slantBox o u v w n 2) l i
      = ((if l.val % 2 = 1 then 1 else -1) * crossK v w i
        + (if l.val / 2 % 2 = 1 then 1 else -1) * crossK w u i
        + (if l.val / 4 = 1 then 1 else -1) * crossK u v i) / 4 := by
  fin_cases l <;> fin_cases i <;>
    simp [crossK, slantBox, bmatrix, bmatrixCol0, bmatrixCol1, bmatrixCol2] <;> ring

theorem slantBox_vol (o u v w : Fin 3 → ℝ) :
    hexVolRaw (fun n => slantBox o u v w n 0) (fun n => slantBox o u v w n 1)
      (fun n => slantBox o u v w n 2) = det3 u v w := by
  simp [det3, slantBox, hexVolRaw]; ring

theorem lattice_elem {mesh : Mesh8 E N} {n : Fin N} {I : InteriorNode mesh n}
    {coords : Fin N → Fin 3 → ℝ} {o u v w : Fin 3 → ℝ} (hL : LatticeAround I coords o u v w)
    {a b c : ℕ} (ha : a < 2) (hb : b < 2) (hc : c < 2) (d : Fin 3) :
    elemCoords mesh coords (I.el a b c) d
      = fun l => slantBox (fun d => o d + (a : ℝ) * u d + (b : ℝ) * v d + (c : ℝ) * w d) u v w l d := by
  funext l
  have h2 : l.val < 8 := l.isLt
  rw [elemCoords, I.nodes a ha b hb c hc l, hL _ (by omega) _ (by omega) _ (by omega), slantBox]
  push_cast
  ring

/-- Cramer's rule as an identity. -/
theorem cramer3 (g u v w : Fin 3 → ℝ) (d : Fin 3) :
    (∑ i, g i * u i) * crossK v w d + (∑ i, g i * v i) * crossK w u d
      + (∑ i, g i * w i) * crossK u v d = det3 u v w * g d := by
  fin_cases d <;> simp [det3, crossK, Fin.sum_univ_three] <;> ring

/-- **C62.** For a linear level set sampled at the element centres of a lattice of parallelepipeds
the computed nodal gradient is exact up to its sign: it is **minus** the gradient of the field. -/
theorem C62_linear_field (mesh : Mesh8 E N) (coords : Fin N → Fin 3 → ℝ) (n : Fin N)
    (I : InteriorNode mesh n) (o u v w : Fin 3 → ℝ) (hL : LatticeAround I coords o u v w)
    (hdet : volFloor ≤ det3 u v w) (phi : Fin E → ℝ) (p0 : ℝ) (g : Fin 3 → ℝ)
    (hphi : ∀ a < 2, ∀ b < 2, ∀ c < 2, phi (I.el a b c) = p0 + ∑ d, g d *
      (o d + ((a : ℝ) + 1 / 2) * u d + ((b : ℝ) + 1 / 2) * v d + ((c : ℝ) + 1 / 2) * w d))
    (d : Fin 3) :
    lsGrad (lsMesh3 mesh) (lsGeom3 mesh coords) phi n d = -g d := by
  have hpos : (0 : ℝ) < det3 u v w := lt_of_lt_of_le (by unfold volFloor; positivity) hdet
  rw [lsGrad_eq]
  have hvol : ∀ a < 2, ∀ b < 2, ∀ c < 2, (lsGeom3 mesh coords).vol (I.el a b c) = det3 u v w := by
    intro a ha b hb c hc
    simp only [lsGeom3, lattice_elem hL ha hb hc, volHex, slantBox_vol]
    exact max_eq_left hdet
  have hB : ∀ a < 2, ∀ b < 2, ∀ c < 2, ∀ l i, (lsGeom3 mesh coords).normal (I.el a b c) l i
      = ((if l.val % 2 = 1 then 1 else -1) * crossK v w i
        + (if l.val / 2 % 2 = 1 then 1 else -1) * crossK w u i
        + (if l.val / 4 = 1 then 1 else -1) * crossK u v i) / 4 := by
    intro a ha b hb c hc l i
    simp only [lsGeom3, elemB, lattice_elem hL ha hb hc]
    exact slantBox_B _ u v w l i
  have h0 : (0 : ℕ) < 2 := by norm_num
  have h1 : (1 : ℕ) < 2 := by norm_num
  have hn : ((lsMesh3 mesh).cornersInNode n).Perm _ := I.corners
  rw [(hn.map _).sum_eq, (hn.map _).sum_eq]
  simp only [List.map_cons, List.map_nil, List.sum_cons, List.sum_nil, hvol 0 h0 0 h0 0 h0,
    hvol 1 h1 0 h0 0 h0, hvol 0 h0 1 h1 0 h0, hvol 1 h1 1 h1 0 h0, hvol 0 h0 0 h0 1 h1,
    hvol 1 h1 0 h0 1 h1, hvol 0 h0 1 h1 1 h1, hvol 1 h1 1 h1 1 h1,
    hB 0 h0 0 h0 0 h0, hB 1 h1 0 h0 0 h0, hB 0 h0 1 h1 0 h0, hB 1 h1 1 h1 0 h0, hB 0 h0 0 h0 1 h1,
    hB 1 h1 0 h0 1 h1, hB 0 h0 1 h1 1 h1, hB 1 h1 1 h1 1 h1,
    hphi 0 h0 0 h0 0 h0, hphi 1 h1 0 h0 0 h0, hphi 0 h0 1 h1 0 h0, hphi 1 h1 1 h1 0 h0,
    hphi 0 h0 0 h0 1 h1, hphi 1 h1 0 h0 1 h1, hphi 0 h0 1 h1 1 h1, hphi 1 h1 1 h1 1 h1]
  have hc := cramer3 g u v w d
  have hden : 1 / ((8 : ℕ) : ℝ) * det3 u v w + (1 / ((8 : ℕ) : ℝ) * det3 u v w
      + (1 / ((8 : ℕ) : ℝ) * det3 u v w + (1 / ((8 : ℕ) : ℝ) * det3 u v w
      + (1 / ((8 : ℕ) : ℝ) * det3 u v w + (1 / ((8 : ℕ) : ℝ) * det3 u v w
      + (1 / ((8 : ℕ) : ℝ) * det3 u v w + (1 / ((8 : ℕ) : ℝ) * det3 u v w + 0)))))))
      = det3 u v w := by push_cast; ring
  rw [hden, div_eq_iff hpos.ne']
  simp only [Fin.sum_univ_three] at hc ⊢
  norm_num
  linear_combination (-1 : ℝ) * hc

/-- Coordinates of the unit lattice on the 2 × 2 × 2 block. -/
def blockCoords (n : Fin 27) : Fin 3 → ℝ :=
  ![(n.val % 3 : ℕ), (n.val / 3 % 3 : ℕ), (n.val / 9 : ℕ)]

theorem blockCoords_lattice :
    LatticeAround blockInterior blockCoords (fun _ => 0) ![1, 0, 0] ![0, 1, 0] ![0, 0, 1] := by
  intro a ha b hb c hc d
  have hv : (blockInterior.P a b c).val = a + 3 * b + 9 * c := by
    show (a + 3 * b + 9 * c) % 27 = _
    omega
  have h0 : (a + 3 * b + 9 * c) % 3 = a := by omega
  have h1 : (a + 3 * b + 9 * c) / 3 % 3 = b := by omega
  have h2 : (a + 3 * b + 9 * c) / 9 = c := by omega
  simp only [blockCoords, hv, h0, h1, h2]
  fin_cases d <;> simp

/-- **C62 (failure).** The nodal gradient of the level set, which is also the output field
`grad_level_set`, points the wrong way: `corner_normal` is taken to point into the element, but the
B-matrix points outward (the hydrodynamics solver multiplies it by -1, this solver does not).  For
`phi = x` on the unit lattice the x-component at the centre is -1. -/
theorem C62_gradient_sign_fails :
    lsGrad (lsMesh3 blockMesh) (lsGeom3 blockMesh blockCoords)
      (fun e => (e.val % 2 : ℕ) + 1 / 2) 13 0 = -1 := by
  have h := C62_linear_field blockMesh blockCoords 13 blockInterior (fun _ => 0) ![1, 0, 0]
    ![0, 1, 0] ![0, 0, 1] blockCoords_lattice (by simp [det3, volFloor]; norm_num)
    (fun e => (e.val % 2 : ℕ) + 1 / 2) 0 ![1, 0, 0] (by
      intro a ha b hb c hc
      have hv : (blockInterior.el a b c).val = a + 2 * b + 4 * c := by
        show (a + 2 * b + 4 * c) % 8 = _
        omega
      have h0 : (a + 2 * b + 4 * c) % 2 = a := by omega
      simp only [hv, h0]
      simp [Fin.sum_univ_three]) 0
  simpa using h

theorem lsMag_nonneg (v : Fin D → ℝ) : 0 ≤ lsMag v := Real.sqrt_nonneg _

theorem lsMag_sq (v : Fin D → ℝ) : lsMag v * lsMag v = ∑ d, v d * v d :=
  Real.mul_self_sqrt (Finset.sum_nonneg fun _ _ => mul_self_nonneg _)

theorem lsMag_smul (c : ℝ) (v : Fin D → ℝ) : lsMag (fun d => c * v d) = |c| * lsMag v := by
  unfold lsMag
  have : ∑ d, c * v d * (c * v d) = c ^ 2 * ∑ d, v d * v d := by
    rw [Finset.mul_sum]; exact Finset.sum_congr rfl fun d _ => by ring
  rw [this, Real.sqrt_mul (sq_nonneg c), Real.sqrt_sq_eq_abs]

/-- **C62.** The front direction is parallel to the gradient and shorter than a unit vector, by an
amount controlled by `fuzz`; a vanishing gradient gives zero, not a division by zero. -/
theorem C62_direction (fuzz : ℝ) (hf : 0 < fuzz) (g : Fin D → ℝ) :
    (∀ d, (lsMag g + fuzz) * lsVel fuzz g d = g d) ∧ lsMag (lsVel fuzz g) < 1 ∧
    1 - fuzz / lsMag g ≤ lsMag (lsVel fuzz g) ∨ lsMag g = 0 ∧ ∀ d, lsVel fuzz g d = 0 := by
  have hp : 0 < lsMag g + fuzz := add_pos_of_nonneg_of_pos (lsMag_nonneg g) hf
  by_cases h0 : lsMag g = 0
  · right
    refine ⟨h0, fun d => ?_⟩
    have hs := lsMag_sq g
    rw [h0, mul_zero] at hs
    have hz := (Finset.sum_eq_zero_iff_of_nonneg fun d _ => mul_self_nonneg (g d)).1 hs.symm d
      (Finset.mem_univ d)
    rw [lsVel, mul_self_eq_zero.1 hz, zero_div]
  · left
    have hg : 0 < lsMag g := lt_of_le_of_ne (lsMag_nonneg g) (Ne.symm h0)
    have hm : lsMag (lsVel fuzz g) = lsMag g / (lsMag g + fuzz) := by
      have : lsVel fuzz g = fun d => (1 / (lsMag g + fuzz)) * g d := by
        funext d; rw [lsVel]; ring
      rw [this, lsMag_smul, abs_of_pos (by positivity)]; ring
    refine ⟨fun d => ?_, ?_, ?_⟩
    · simp only [lsVel]; field_simp
    · rw [hm, div_lt_one hp]; linarith
    · rw [hm, le_div_iff₀ hp]
      have : (1 - fuzz / lsMag g) * (lsMag g + fuzz) = lsMag g - fuzz * fuzz / lsMag g := by
        field_simp; ring
      rw [this]
      have : 0 ≤ fuzz * fuzz / lsMag g := by positivity
      linarith

/-- **C62.** Where no boundary condition acts the nodal Hamiltonian is the norm of the gradient, to
within `fuzz`. -/
theorem C62_hamiltonian (fuzz : ℝ) (hf : 0 < fuzz) (grad : Fin N → Fin D → ℝ) (n : Fin N) :
    lsNodeHJ (fun n => lsVel fuzz (grad n)) grad n ≤ lsMag (grad n) ∧
    lsMag (grad n) - fuzz ≤ lsNodeHJ (fun n => lsVel fuzz (grad n)) grad n ∧
    0 ≤ lsNodeHJ (fun n => lsVel fuzz (grad n)) grad n := by
  have hg := lsMag_nonneg (grad n)
  have hp : 0 < lsMag (grad n) + fuzz := by linarith
  have h : lsNodeHJ (fun n => lsVel fuzz (grad n)) grad n
      = lsMag (grad n) * lsMag (grad n) / (lsMag (grad n) + fuzz) := by
    rw [lsMag_sq, Finset.sum_div]
    exact Finset.sum_congr rfl fun d _ => by simp only [lsVel]; ring
  rw [h]
  refine ⟨?_, ?_, by positivity⟩
  · rw [div_le_iff₀ hp]; nlinarith
  · rw [le_div_iff₀ hp]; nlinarith

/-! ### C63: the update -/

/-- **C63.** The smoothed sign lies strictly between -1 and 1, has the sign of the level set and is
odd. -/
theorem C63_signum (phi len : ℝ) (hl : 0 < len) :
    |lsSignum phi len| < 1 ∧ (0 < lsSignum phi len ↔ 0 < phi) ∧
    (lsSignum phi len < 0 ↔ phi < 0) ∧ lsSignum (-phi) len = -lsSignum phi len ∧
    |lsSignum phi len| * len ≤ |phi| := by
  have hr : 0 < phi * phi + len * len := by nlinarith [mul_self_nonneg phi, mul_pos hl hl]
  have hs : 0 < Real.sqrt (phi * phi + len * len) := Real.sqrt_pos.2 hr
  have habs : |lsSignum phi len| = |phi| / Real.sqrt (phi * phi + len * len) := by
    rw [lsSignum, abs_div, abs_of_pos hs]
  refine ⟨?_, ?_, ?_, ?_, ?_⟩
  · rw [habs, div_lt_one hs, Real.lt_sqrt (abs_nonneg _), sq_abs]
    nlinarith
  · rw [lsSignum, lt_div_iff₀ hs, zero_mul]
  · rw [lsSignum, div_lt_iff₀ hs, zero_mul]
  · rw [lsSignum, lsSignum, neg_mul_neg, neg_div]
  · rw [habs, div_mul_eq_mul_div, div_le_iff₀ hs]
    apply mul_le_mul_of_nonneg_left _ (abs_nonneg _)
    exact Real.le_sqrt_of_sq_le (by nlinarith [mul_self_nonneg phi])

/-- **C63.** The Hamiltonian of an element is between 0 and the largest nodal one: the upwind
weights only average. -/
theorem C63_average (M : LsMesh E N m) (G : LsGeom E m D) (fuzz c : ℝ) (hf : 0 < fuzz)
    (vel : Fin N → Vel ℝ D) (grad : Fin N → Fin D → ℝ) (e : Fin E) (B : ℝ)
    (h0 : ∀ l, 0 ≤ lsNodeHJ vel grad (M.nodesInElem e l))
    (hB : ∀ l, lsNodeHJ vel grad (M.nodesInElem e l) ≤ B) (hB0 : 0 ≤ B) :
    0 ≤ lsElemHJ M G fuzz c vel grad e ∧ lsElemHJ M G fuzz c vel grad e ≤ B := by
  have hw : ∀ l, 0 ≤ lsWeight c (vel (M.nodesInElem e l)) (G.normal e l) := fun l => le_max_left _ _
  have hs : 0 ≤ ∑ l, lsWeight c (vel (M.nodesInElem e l)) (G.normal e l) :=
    Finset.sum_nonneg fun l _ => hw l
  have hp : 0 < ∑ l, lsWeight c (vel (M.nodesInElem e l)) (G.normal e l) + fuzz := by linarith
  constructor
  · exact div_nonneg (Finset.sum_nonneg fun l _ => mul_nonneg (hw l) (h0 l)) hp.le
  · rw [lsElemHJ, div_le_iff₀ hp]
    have : ∑ l, lsWeight c (vel (M.nodesInElem e l)) (G.normal e l) *
        lsNodeHJ vel grad (M.nodesInElem e l)
        ≤ ∑ l, lsWeight c (vel (M.nodesInElem e l)) (G.normal e l) * B :=
      Finset.sum_le_sum fun l _ => mul_le_mul_of_nonneg_left (hB l) (hw l)
    rw [← Finset.sum_mul] at this
    nlinarith

/-- **C63.** Only upwind nodes count: an element's Hamiltonian does not change when the gradient
changes at nodes from which the front moves out of the element. -/
theorem C63_upwind (M : LsMesh E N m) (G : LsGeom E m D) (fuzz c : ℝ)
    (vel : Fin N → Vel ℝ D) (grad grad' : Fin N → Fin D → ℝ) (e : Fin E)
    (h : ∀ l, 0 < ∑ d, c * vel (M.nodesInElem e l) d * G.normal e l d →
      grad (M.nodesInElem e l) = grad' (M.nodesInElem e l)) :
    lsElemHJ M G fuzz c vel grad e = lsElemHJ M G fuzz c vel grad' e := by
  unfold lsElemHJ
  congr 1
  apply Finset.sum_congr rfl
  intro l _
  by_cases hl : 0 < ∑ d, c * vel (M.nodesInElem e l) d * G.normal e l d
  · simp only [lsNodeHJ, h l hl]
  · rw [lsWeight, max_eq_left (not_lt.1 hl), zero_mul, zero_mul]

/-- **C63.** What one stage does to an element: `phi0 - adt * ((front + s) * h - s)` with the
smoothed sign `s` and the element Hamiltonian `h`. -/
theorem C63_new_value (M : LsMesh E N m) (G : LsGeom E m D) (fuzz front adt : ℝ)
    (vel : Fin N → Vel ℝ D) (grad : Fin N → Fin D → ℝ) (e : Fin E) (phi0 phi : ℝ) :
    lsNewValue M G fuzz front adt vel grad e phi0 phi = phi0 - adt *
      ((front + lsSignum phi (G.len e)) *
        lsElemHJ M G fuzz (front + lsSignum phi (G.len e)) vel grad e
        - lsSignum phi (G.len e)) := by
  rw [lsNewValue]; ring

/-- **C63.** Finite speed: if the nodal Hamiltonians around an element are in `[0, B]`, the stage
changes it by at most `adt * ((|front| + 1) * B + 1)`. -/
theorem C63_finite_speed (M : LsMesh E N m) (G : LsGeom E m D) (fuzz front adt : ℝ) (hf : 0 < fuzz)
    (ha : 0 ≤ adt) (vel : Fin N → Vel ℝ D) (grad : Fin N → Fin D → ℝ) (e : Fin E)
    (hl : 0 < G.len e) (phi0 phi B : ℝ)
    (h0 : ∀ l, 0 ≤ lsNodeHJ vel grad (M.nodesInElem e l))
    (hB : ∀ l, lsNodeHJ vel grad (M.nodesInElem e l) ≤ B) (hB0 : 0 ≤ B) :
    |lsNewValue M G fuzz front adt vel grad e phi0 phi - phi0| ≤ adt * ((|front| + 1) * B + 1) := by
  obtain ⟨hh0, hhB⟩ := C63_average M G fuzz (front + lsSignum phi (G.len e)) hf vel grad e B h0 hB hB0
  rw [C63_new_value]
  set s := lsSignum phi (G.len e)
  set h := lsElemHJ M G fuzz (front + s) vel grad e
  have hs : |s| < 1 := (C63_signum phi (G.len e) hl).1
  have e1 : phi0 - adt * ((front + s) * h - s) - phi0 = -(adt * ((front + s) * h - s)) := by ring
  rw [e1, abs_neg, abs_mul, abs_of_nonneg ha]
  apply mul_le_mul_of_nonneg_left _ ha
  have h1 : |front + s| ≤ |front| + 1 := (abs_add_le _ _).trans (by linarith)
  calc |(front + s) * h - s| ≤ |(front + s) * h| + |s| := abs_sub _ _
    _ = |front + s| * h + |s| := by rw [abs_mul, abs_of_nonneg hh0]
    _ ≤ (|front| + 1) * B + 1 := by
        have := mul_le_mul h1 hhB hh0 (by positivity)
        linarith

/-- **C63.** A signed distance function (element Hamiltonian 1) moves exactly with the normal
velocity of the material; without velocity it stays. -/
theorem C63_distance_function (M : LsMesh E N m) (G : LsGeom E m D) (fuzz front adt : ℝ)
    (vel : Fin N → Vel ℝ D) (grad : Fin N → Fin D → ℝ) (e : Fin E) (phi0 phi : ℝ)
    (h : lsElemHJ M G fuzz (front + lsSignum phi (G.len e)) vel grad e = 1) :
    lsNewValue M G fuzz front adt vel grad e phi0 phi = phi0 - adt * front := by
  rw [C63_new_value, h]; ring

/-- **C63.** Around a uniform gradient `g` (length `a > 0`), away from boundary conditions, the stage
follows the level set equation `phi_t + F |grad phi| + s (|grad phi| - 1) = 0` up to the safeguards
`fuzz`; `W` is the sum of the upwind weights. -/
theorem C63_consistent (M : LsMesh E N m) (G : LsGeom E m D) (fuzz front adt : ℝ) (hf : 0 < fuzz)
    (ha : 0 ≤ adt) (grad : Fin N → Fin D → ℝ) (g : Fin D → ℝ) (e : Fin E) (phi0 phi W : ℝ)
    (hg : ∀ l, grad (M.nodesInElem e l) = g) (hl : 0 < G.len e)
    (hW : W = ∑ l, lsWeight (front + lsSignum phi (G.len e))
      (lsVel fuzz g) (G.normal e l)) :
    |lsNewValue M G fuzz front adt (fun n => lsVel fuzz (grad n)) grad e phi0 phi
      - (phi0 - adt * (front * lsMag g + lsSignum phi (G.len e) * (lsMag g - 1)))|
    ≤ adt * (|front| + 1) * (fuzz + lsMag g * (fuzz / (W + fuzz))) := by
  have hW0 : 0 ≤ W := by rw [hW]; exact Finset.sum_nonneg fun l _ => le_max_left _ _
  have hWp : 0 < W + fuzz := by linarith
  set s := lsSignum phi (G.len e) with hsdef
  have hs : |s| < 1 := (C63_signum phi (G.len e) hl).1
  -- the common nodal value
  have hn : ∀ l, lsNodeHJ (fun n => lsVel fuzz (grad n)) grad (M.nodesInElem e l)
      = ∑ d, lsVel fuzz g d * g d := fun l => by simp only [lsNodeHJ, hg]
  set H := ∑ d, lsVel fuzz g d * g d with hH
  have hb : H ≤ lsMag g ∧ lsMag g - fuzz ≤ H ∧ 0 ≤ H := by
    have := C62_hamiltonian (N := 1) fuzz hf (fun _ => g) 0
    exact this
  have hE : lsElemHJ M G fuzz (front + s) (fun n => lsVel fuzz (grad n)) grad e
      = W * H / (W + fuzz) := by
    rw [lsElemHJ]
    simp only [hn, hg]
    rw [← Finset.sum_mul, hW]
  rw [C63_new_value, ← hsdef, hE]
  have e1 : phi0 - adt * ((front + s) * (W * H / (W + fuzz)) - s)
      - (phi0 - adt * (front * lsMag g + s * (lsMag g - 1)))
      = adt * ((front + s) * (lsMag g - W * H / (W + fuzz))) := by ring
  rw [e1, abs_mul, abs_mul, abs_of_nonneg ha, mul_assoc]
  apply mul_le_mul_of_nonneg_left _ ha
  have h1 : |front + s| ≤ |front| + 1 := (abs_add_le _ _).trans (by linarith)
  have hle : W * H / (W + fuzz) = H - H * (fuzz / (W + fuzz)) := by field_simp; ring
  have hq : 0 ≤ fuzz / (W + fuzz) := by positivity
  have h2 : 0 ≤ lsMag g - W * H / (W + fuzz) := by
    rw [hle]; nlinarith [hb.1, mul_nonneg hb.2.2 hq]
  rw [abs_of_nonneg h2]
  apply mul_le_mul h1 _ h2 (by positivity)
  rw [hle]
  have := mul_le_mul_of_nonneg_right hb.1 hq
  linarith [hb.2.1]

/-- **C63.** The wrong sign of the gradient does not reach the level set: exchanging inward and
outward normals leaves every stage unchanged when no boundary set is active. -/
theorem C63_normal_sign_harmless (env : LsEnv E N m D) (hs : env.sets = []) (time adt : ℝ)
    (phi0 phi : Fin E → ℝ) :
    lsStage { env with geom := { env.geom with normal := fun e l d => - env.geom.normal e l d } }
      time adt phi0 phi = lsStage env time adt phi0 phi := by
  obtain ⟨M, G, fuzz, small, sets, mats⟩ := env
  dsimp only at hs ⊢
  subst hs
  have hgrad : ∀ phi : Fin E → ℝ, lsGrad M { G with normal := fun e l d => - G.normal e l d } phi
      = fun n d => - lsGrad M G phi n d := by
    intro phi; funext n d
    simp only [lsGrad, lsNodeVol]
    rw [← neg_div]
    congr 1
    rw [foldl_add_eq_sum, foldl_add_eq_sum]
    simp [List.sum_neg, neg_mul, Function.comp_def]
  have hmag : ∀ g : Fin D → ℝ, lsMag (fun d => - g d) = lsMag g := by
    intro g; simp [lsMag]
  have hvel : ∀ g : Fin D → ℝ, lsVel fuzz (fun d => - g d) = fun d => - lsVel fuzz g d := by
    intro g; funext d; simp only [lsVel, hmag, neg_div]
  have hb : ∀ v : Fin N → Vel ℝ D, lsBoundary small [] time v = v := fun v => rfl
  have hfold : ∀ (ms : List (LsMat E)) (v : Fin N → Vel ℝ D),
      ms.foldl (fun v _ => lsBoundary small [] time v) v = v := by
    intro ms v
    induction ms generalizing v with
    | nil => rfl
    | cons a ms ih => rw [List.foldl_cons, hb, ih]
  simp only [lsStage, lsStageVel, hfold, hgrad, hvel]
  congr 1
  funext phi mat
  simp only [lsUpdate]
  congr 1
  funext phi e
  congr 1
  simp only [lsNewValue, lsElemHJ, lsWeight, lsNodeHJ]
  simp only [mul_neg, neg_mul, neg_neg]

theorem lsUpdate_notin (M : LsMesh E N m) (G : LsGeom E m D) (fuzz adt : ℝ)
    (vel : Fin N → Vel ℝ D) (grad : Fin N → Fin D → ℝ) (phi0 phi : Fin E → ℝ) (mat : LsMat E)
    (e : Fin E) (he : e ∉ mat.elems) :
    lsUpdate M G fuzz adt vel grad phi0 phi mat e = phi e := by
  unfold lsUpdate
  generalize mat.elems = es at he
  induction es generalizing phi with
  | nil => rfl
  | cons a es ih =>
    rw [List.foldl_cons, ih _ (fun h => he (by simp [h])), Function.update_of_ne]
    intro h; exact he (by simp [h])

theorem lsUpdate_mem (M : LsMesh E N m) (G : LsGeom E m D) (fuzz adt : ℝ)
    (vel : Fin N → Vel ℝ D) (grad : Fin N → Fin D → ℝ) (phi0 phi : Fin E → ℝ) (mat : LsMat E)
    (hnd : mat.elems.Nodup) (e : Fin E) (he : e ∈ mat.elems) :
    lsUpdate M G fuzz adt vel grad phi0 phi mat e
      = lsNewValue M G fuzz mat.front adt vel grad e (phi0 e) (phi e) := by
  obtain ⟨es, front, curv⟩ := mat
  dsimp only at hnd he ⊢
  induction es generalizing phi with
  | nil => simp at he
  | cons a es ih =>
    rw [List.nodup_cons] at hnd
    rcases List.mem_cons.1 he with rfl | h
    · have := lsUpdate_notin M G fuzz adt vel grad phi0 (Function.update phi e
        (lsNewValue M G fuzz front adt vel grad e (phi0 e) (phi e))) ⟨es, front, curv⟩ e hnd.1
      rw [Function.update_self] at this
      exact this
    · have hne : e ≠ a := fun h' => hnd.1 (h' ▸ h)
      have := ih (Function.update phi a
        (lsNewValue M G fuzz front adt vel grad a (phi0 a) (phi a))) hnd.2 h
      rw [Function.update_of_ne hne] at this
      exact this

/-- **C63.** A stage gives each element of an evolving material its new value, computed from the
state before the stage, whatever the order of elements and materials; all other elements keep their
value. -/
theorem C63_stage (env : LsEnv E N m D) (time adt : ℝ) (phi0 phi : Fin E → ℝ)
    (hnd : (env.mats.flatMap LsMat.elems).Nodup) :
    (∀ mat ∈ env.mats, ∀ e ∈ mat.elems, lsStage env time adt phi0 phi e
      = lsNewValue env.mesh env.geom env.fuzz mat.front adt (lsStageVel env time phi)
          (lsGrad env.mesh env.geom phi) e (phi0 e) (phi e)) ∧
    ∀ e, (∀ mat ∈ env.mats, e ∉ mat.elems) → lsStage env time adt phi0 phi e = phi e := by
  unfold lsStage
  generalize lsStageVel env time phi = vel
  generalize lsGrad env.mesh env.geom phi = grad
  have hout : ∀ (ms : List (LsMat E)) (psi : Fin E → ℝ) (e : Fin E),
      (∀ mat ∈ ms, e ∉ mat.elems) →
      ms.foldl (lsUpdate env.mesh env.geom env.fuzz adt vel grad phi0) psi e = psi e := by
    intro ms
    induction ms with
    | nil => intro psi e _; rfl
    | cons a ms ih =>
      intro psi e h
      rw [List.foldl_cons, ih _ _ fun mat hm => h mat (by simp [hm]),
        lsUpdate_notin _ _ _ _ _ _ _ _ _ _ (h a (by simp))]
  refine ⟨?_, fun e he => hout _ _ _ he⟩
  generalize env.mats = ms at hnd
  induction ms generalizing phi with
  | nil => intro mat h; simp at h
  | cons a ms ih =>
    rw [List.flatMap_cons, List.nodup_append] at hnd
    intro mat hmat e he
    rw [List.foldl_cons]
    rcases List.mem_cons.1 hmat with rfl | h
    · rw [hout _ _ _ fun mat' hm' he' =>
          hnd.2.2 e he e (List.mem_flatMap.2 ⟨mat', hm', he'⟩) rfl,
        lsUpdate_mem _ _ _ _ _ _ _ _ _ hnd.1 _ he]
    · rw [ih _ hnd.2.1 mat h e he, lsUpdate_notin]
      intro he'
      exact hnd.2.2 e he' e (List.mem_flatMap.2 ⟨mat, h, he⟩) rfl

/-- The level set after `k` of the `stages` stages of a cycle. -/
noncomputable def lsAfter (env : LsEnv E N m D) (stages : ℕ) (time dt : ℝ) (phi0 : Fin E → ℝ)
    (k : ℕ) : Fin E → ℝ :=
  (List.range k).foldl
    (fun phi (j : ℕ) => lsStage env time (1 / ((stages : ℝ) - (j : ℝ)) * dt) phi0 phi) phi0

/-- **C63.** Reinitialisation (no normal velocity) never moves the front across an element: if the
step is less than half the smoothing length and the nodal Hamiltonians met during the cycle stay in
`[0, 2]`, the level set of the element has the same sign after every stage as at the start, for any
number of stages. -/
theorem C63_reinit_sign (env : LsEnv E N m D) (hf : 0 < env.fuzz) (stages : ℕ) (time dt : ℝ)
    (hdt : 0 ≤ dt) (phi0 : Fin E → ℝ) (hnd : (env.mats.flatMap LsMat.elems).Nodup)
    (mat : LsMat E) (hmat : mat ∈ env.mats) (hfront : mat.front = 0) (e : Fin E)
    (he : e ∈ mat.elems) (hlen : 2 * dt < env.geom.len e)
    (hH : ∀ k < stages, ∀ l, lsNodeHJ (lsStageVel env time (lsAfter env stages time dt phi0 k))
        (lsGrad env.mesh env.geom (lsAfter env stages time dt phi0 k)) (env.mesh.nodesInElem e l)
      ∈ Set.Icc (0 : ℝ) 2) (k : ℕ) (hk : k ≤ stages) :
    (0 < phi0 e → 0 < lsAfter env stages time dt phi0 k e) ∧
    (phi0 e < 0 → lsAfter env stages time dt phi0 k e < 0) ∧
    (phi0 e = 0 → lsAfter env stages time dt phi0 k e = 0) := by
  set L := env.geom.len e with hL
  have hLp : 0 < L := by linarith
  have hr0 : 0 ≤ dt / L := by positivity
  have hr1 : dt / L < 1 / 2 := by rw [div_lt_div_iff₀ hLp two_pos]; linarith
  set r := dt / L with hr
  have hmain : ∀ k ≤ stages, |lsAfter env stages time dt phi0 k e - phi0 e| * (1 - r)
      ≤ r * |phi0 e| := by
    intro k
    induction k with
    | zero =>
      intro _
      have h0 : lsAfter env stages time dt phi0 0 e = phi0 e := rfl
      rw [h0, sub_self, abs_zero, zero_mul]
      positivity
    | succ k ih =>
      intro hk
      have ih := ih (by omega)
      have hstep : lsAfter env stages time dt phi0 (k + 1)
          = lsStage env time (1 / ((stages : ℝ) - (k : ℝ)) * dt) phi0
              (lsAfter env stages time dt phi0 k) := by
        simp [lsAfter, List.range_succ]
      rw [hstep, (C63_stage env time _ phi0 _ hnd).1 mat hmat e he, C63_new_value, hfront]
      set psi := lsAfter env stages time dt phi0 k with hpsi
      set h := lsElemHJ env.mesh env.geom env.fuzz (0 + lsSignum (psi e) (env.geom.len e))
        (lsStageVel env time psi) (lsGrad env.mesh env.geom psi) e with hh
      have hav := C63_average env.mesh env.geom env.fuzz (0 + lsSignum (psi e) (env.geom.len e)) hf
        (lsStageVel env time psi) (lsGrad env.mesh env.geom psi) e 2
        (fun l => (hH k (by omega) l).1) (fun l => (hH k (by omega) l).2) two_pos.le
      rw [← hh] at hav
      have hsg := (C63_signum (psi e) L hLp).2.2.2.2
      rw [← hL]
      set s := lsSignum (psi e) L with hsdef
      have hal : (1 : ℝ) ≤ (stages : ℝ) - k := by
        have : ((k + 1 : ℕ) : ℝ) ≤ stages := by exact_mod_cast hk
        push_cast at this; linarith
      have ha0 : 0 ≤ 1 / ((stages : ℝ) - (k : ℝ)) * dt := by positivity
      have ha1 : 1 / ((stages : ℝ) - (k : ℝ)) * dt ≤ dt := by
        have : 1 / ((stages : ℝ) - (k : ℝ)) ≤ 1 := by
          rw [div_le_one (by linarith)]; exact hal
        nlinarith
      generalize 1 / ((stages : ℝ) - (k : ℝ)) * dt = adt at ha0 ha1 ⊢
      have e1 : phi0 e - adt * ((0 + s) * h - s) - phi0 e = -(adt * (s * (h - 1))) := by ring
      rw [e1, abs_neg, abs_mul, abs_mul, abs_of_nonneg ha0]
      have hh1 : |h - 1| ≤ 1 := by rw [abs_le]; constructor <;> linarith [hav.1, hav.2]
      have hbound : adt * (|s| * |h - 1|) ≤ r * |psi e| := by
        have h1 : |s| * |h - 1| ≤ |s| := mul_le_of_le_one_right (abs_nonneg _) hh1
        have h2 : adt * (|s| * |h - 1|) ≤ dt * |s| :=
          mul_le_mul ha1 h1 (by positivity) hdt
        have h3 : dt * |s| ≤ r * |psi e| := by
          have : dt = r * L := by rw [hr]; field_simp
          rw [this, mul_assoc]
          apply mul_le_mul_of_nonneg_left _ hr0
          linarith
        linarith
      have htri : |psi e| ≤ |psi e - phi0 e| + |phi0 e| := by
        have := abs_add_le (psi e - phi0 e) (phi0 e)
        simpa using this
      have hr2 : 0 < 1 - r := by linarith
      calc adt * (|s| * |h - 1|) * (1 - r) ≤ r * |psi e| * (1 - r) :=
            mul_le_mul_of_nonneg_right hbound hr2.le
        _ ≤ r * (|psi e - phi0 e| + |phi0 e|) * (1 - r) := by
            apply mul_le_mul_of_nonneg_right _ hr2.le
            exact mul_le_mul_of_nonneg_left htri hr0
        _ = r * (|psi e - phi0 e| * (1 - r)) + r * |phi0 e| * (1 - r) := by ring
        _ ≤ r * (r * |phi0 e|) + r * |phi0 e| * (1 - r) := by
            have := mul_le_mul_of_nonneg_left ih hr0
            linarith
        _ = r * |phi0 e| := by ring
  have hb := hmain k hk
  set d := lsAfter env stages time dt phi0 k e - phi0 e with hd
  have hval : lsAfter env stages time dt phi0 k e = phi0 e + d := by rw [hd]; ring
  have hr2 : 0 < 1 - r := by linarith
  rw [hval]
  have hsmall : phi0 e ≠ 0 → |d| < |phi0 e| := by
    intro hne
    have hp : 0 < |phi0 e| := abs_pos.2 hne
    by_contra hcon
    have := mul_le_mul_of_nonneg_right (not_lt.1 hcon) hr2.le
    nlinarith
  refine ⟨fun h => ?_, fun h => ?_, fun h => ?_⟩
  · have h1 := hsmall h.ne'
    rw [abs_of_pos h] at h1
    linarith [neg_abs_le d]
  · have h1 := hsmall h.ne
    rw [abs_of_neg h] at h1
    linarith [le_abs_self d]
  · rw [h, abs_zero, mul_zero] at hb
    have h0 : |d| ≤ 0 := by
      by_contra hcon
      have := mul_pos (not_le.1 hcon) hr2
      linarith
    rw [h, abs_eq_zero.1 (le_antisymm h0 (abs_nonneg d)), add_zero]

/-- A periodic mesh of one cell: both corners belong to the one node, with opposite normals. -/
noncomputable def oneCell : LsEnv 1 1 2 1 where
  mesh := { nodesInElem := fun _ _ => 0, cornersInNode := fun _ => [(0, 0), (0, 1)] }
  geom := { normal := fun _ l _ => if l = 0 then 1 else -1, vol := fun _ => 1, len := fun _ => 2 }
  fuzz := 1 / 100
  small := 1 / 100
  sets := []
  mats := [{ elems := [0], front := 0, curv := 0 }]

example (stages : ℕ) : 0 < lsAfter oneCell stages 0 (1 / 2) (fun _ => 1) stages 0 := by
  refine (C63_reinit_sign oneCell (by norm_num [oneCell]) stages 0 (1 / 2) (by norm_num) (fun _ => 1)
    (by decide) { elems := [0], front := 0, curv := 0 } (by simp [oneCell]) rfl 0 (by simp)
    (by norm_num [oneCell]) ?_ stages le_rfl).1 one_pos
  intro k _ l
  have hg : ∀ phi : Fin 1 → ℝ, lsGrad oneCell.mesh oneCell.geom phi = fun _ _ => 0 := by
    intro phi; funext n d
    simp [lsGrad, oneCell]
  simp [lsNodeHJ, hg]

/-- The update loop of one material: every iteration reads and writes its own element. -/
noncomputable def lsUpdateLoop (M : LsMesh E N m) (G : LsGeom E m D) (fuzz adt : ℝ)
    (vel : Fin N → Vel ℝ D) (grad : Fin N → Fin D → ℝ) (phi0 : Fin E → ℝ) (mat : LsMat E) :
    Fin mat.elems.length → List (Action (Fin E ⊕ ℕ) ℝ) :=
  fun i => rmwThread (i : ℕ) [(mat.elems.get i, fun phi =>
    lsNewValue M G fuzz mat.front adt vel grad (mat.elems.get i) (phi0 (mat.elems.get i)) phi)]

/-- **C63.** Every interleaving of the parallel update loop gives the sequential result. -/
theorem C63_schedules (M : LsMesh E N m) (G : LsGeom E m D) (fuzz adt : ℝ)
    (vel : Fin N → Vel ℝ D) (grad : Fin N → Fin D → ℝ) (phi0 : Fin E → ℝ) (mat : LsMat E)
    (hnd : mat.elems.Nodup) (s : List (Action (Fin E ⊕ ℕ) ℝ))
    (hs : Sched (lsUpdateLoop M G fuzz adt vel grad phi0 mat) s) (mem : Fin E ⊕ ℕ → ℝ) :
    (fun e => execActions s mem (Sum.inl e))
      = lsUpdate M G fuzz adt vel grad phi0 (fun e => mem (Sum.inl e)) mat := by
  rw [rmw_sched _ _ s hs]
  · exact foldl_finRange_get mat.elems (fun phi e => Function.update phi e
      (lsNewValue M G fuzz mat.front adt vel grad e (phi0 e) (phi e))) _
  · intro i j hij o ho o' ho'
    simp only [List.mem_singleton] at ho ho'
    subst ho ho'
    dsimp only
    intro h
    exact hij (List.nodup_iff_injective_get.1 hnd h)

/-! ### C64: time step and clock -/

theorem lsCycleDt_le (o : ClockOpts) (mats : List (Option (List CflElem))) (t g dt : ℝ) :
    lsCycleDt o mats t g dt ≤ o.dtMax ∧
    (∀ es, some es ∈ mats → lsCycleDt o mats t g dt ≤ getTimestep o es t g dt) ∧
    (none ∈ mats → lsCycleDt o mats t g dt ≤ dt) := by
  have : lsCycleDt o mats t g dt = (mats.map fun es => match es with
      | none => dt
      | some es => getTimestep o es t g dt).foldl (fun m d => min d m) o.dtMax := by
    unfold lsCycleDt
    rw [List.foldl_map]
    rfl
  rw [this]
  refine ⟨(foldl_min_le _ _).1, fun es he => (foldl_min_le _ _).2 _ (List.mem_map.2 ⟨_, he, rfl⟩),
    fun he => (foldl_min_le _ _).2 _ (List.mem_map.2 ⟨_, he, rfl⟩)⟩

/-- **C64.** Stable steps: for an evolving material with `0 ≤ front` the speed of the level set
equation is at most `front + 1`, and the step moves it at most `dt_cfl` times the shortest node
distance, unless the user's minimum step is active. -/
theorem C64_cfl (o : ClockOpts) (hc : 0 ≤ o.dtCfl) (hf : 0 < o.fuzz)
    (mats : List (Option (List CflElem))) (t g dt : ℝ) (es : List CflElem) (hes : some es ∈ mats)
    (front curv : ℝ) (hF : 0 ≤ front) (hk : 0 ≤ curv) (coords : ℕ → Fin 3 → ℝ)
    (he : lsCflElem front curv coords ∈ es) :
    (front + 1) * lsCycleDt o mats t g dt ≤ o.dtCfl * distMin coords ∨
    lsCycleDt o mats t g dt ≤ o.dtMin := by
  have h1 := ((lsCycleDt_le o mats t g dt).2.1 es hes).trans ((getTimestep_le o es t g dt).2.1 _ he)
  have hd := distMin_nonneg coords
  simp only [elemDt, lsCflElem, Bool.false_eq_true, if_false] at h1
  rcases le_max_iff.1 h1 with h1 | h1
  · left
    have h1 := h1.trans (min_le_left _ _)
    have hq : 0 ≤ curv * (1 / (3 * distMin coords)) := by positivity
    have hs : front + 1 ≤ lsFrontSpeed front curv (distMin coords) + o.fuzz := by
      have h15 : (1.5 : ℝ) = 3 / 2 := by norm_num
      rw [lsFrontSpeed, h15]; linarith
    have hp : 0 < lsFrontSpeed front curv (distMin coords) + o.fuzz := by linarith
    rw [le_div_iff₀ hp] at h1
    rcases le_or_gt 0 (lsCycleDt o mats t g dt) with h | h
    · nlinarith
    · have : (front + 1) * lsCycleDt o mats t g dt ≤ 0 :=
        mul_nonpos_of_nonneg_of_nonpos (by linarith) h.le
      exact this.trans (by positivity)
  · exact Or.inr h1

/-- **C64.** Limits of a step when some material evolves: growth by a tenth, the maximum step, the
next dump and the final time. -/
theorem C64_limits (o : ClockOpts) (mats : List (Option (List CflElem))) (t g dt : ℝ)
    (hm : ∃ es, some es ∈ mats) :
    lsCycleDt o mats t g dt ≤ dt * 1.1 ∧ lsCycleDt o mats t g dt ≤ o.dtMax ∧
    t + lsCycleDt o mats t g dt ≤ max (t + o.fuzz) g + o.tiny ∧
    t + lsCycleDt o mats t g dt ≤ o.timeFinal + o.tiny := by
  obtain ⟨es, he⟩ := hm
  obtain ⟨h1, h2, -⟩ := lsCycleDt_le o mats t g dt
  obtain ⟨g1, -, g3, g4⟩ := getTimestep_le o es t g dt
  have h2 := h2 es he
  refine ⟨h2.trans g1, h1, ?_, by linarith⟩
  have : max (t + o.fuzz) g = t + max o.fuzz (g - t) := by
    rw [← max_add_add_left]; congr 1; ring
  rw [this]; linarith

theorem getTimestep_ge_floor (o : ClockOpts) (ho : o.Sane) (es : List CflElem) (t g dt : ℝ)
    (hdt : stepFloor o ≤ dt) (ht : t < o.timeFinal) : stepFloor o ≤ getTimestep o es t g dt := by
  have h := cycleDt_ge_floor o ho [es] t g dt hdt ht
  exact h.trans ((cycleDt_le o [es] t g dt).2 es (by simp))

theorem lsCycleDt_ge_floor (o : ClockOpts) (ho : o.Sane) (mats : List (Option (List CflElem)))
    (t g dt : ℝ) (hdt : stepFloor o ≤ dt) (ht : t < o.timeFinal) :
    stepFloor o ≤ lsCycleDt o mats t g dt := by
  have hmax : stepFloor o ≤ o.dtMax :=
    ((min_le_right _ _).trans (min_le_left _ _)).trans ho.dtMax
  unfold lsCycleDt
  have key : ∀ (ms : List (Option (List CflElem))) (x : ℝ), stepFloor o ≤ x →
      stepFloor o ≤ ms.foldl (fun mn es => min (match es with
        | none => dt
        | some es => getTimestep o es t g dt) mn) x := by
    intro ms
    induction ms with
    | nil => intro x hx; exact hx
    | cons a ms ih =>
      intro x hx
      rw [List.foldl_cons]
      apply ih
      refine le_min ?_ hx
      cases a with
      | none => exact hdt
      | some es => exact getTimestep_ge_floor o ho es t g dt hdt ht
  exact key mats _ hmax

/-- The clock after `k` cycles if the loop were never left. -/
noncomputable def lsClockAt (o : ClockOpts) (hist : ℕ → List (Option (List CflElem))) : ℕ → Clock
  | 0 => clockInit o
  | k + 1 => lsClockCycle o (hist k) k (lsClockAt o hist k)

theorem lsClockCycle_time (o : ClockOpts) (m : List (Option (List CflElem))) (c : ℕ) (s : Clock) :
    (lsClockCycle o m c s).time = s.time + lsCycleDt o m s.time s.gtime s.dt := by
  unfold lsClockCycle; simp only; split_ifs <;> rfl

theorem lsClockCycle_dt (o : ClockOpts) (m : List (Option (List CflElem))) (c : ℕ) (s : Clock) :
    (lsClockCycle o m c s).dt = s.dt ∨
    (lsClockCycle o m c s).dt = lsCycleDt o m s.time s.gtime s.dt := by
  unfold lsClockCycle; simp only; split_ifs
  · exact Or.inl rfl
  · exact Or.inr rfl

theorem lsClockLoop_spec (o : ClockOpts) (hist : ℕ → List (Option (List CflElem))) (n k : ℕ) :
    ∃ m, k ≤ m ∧ m ≤ k + n ∧ lsClockLoop o hist n k (lsClockAt o hist k) = (lsClockAt o hist m, m) ∧
      (m = k + n ∨ o.timeFinal ≤ (lsClockAt o hist m).time) ∧
      ∀ j, k < j → j < m → (lsClockAt o hist j).time < o.timeFinal := by
  induction n generalizing k with
  | zero => exact ⟨k, le_rfl, le_rfl, rfl, Or.inl rfl, fun j h1 h2 => absurd (h1.trans h2) (lt_irrefl _)⟩
  | succ n ih =>
    rw [lsClockLoop]
    by_cases h : (lsClockAt o hist (k + 1)).time ≥ o.timeFinal
    · refine ⟨k + 1, by omega, by omega, ?_, Or.inr h, fun j h1 h2 => by omega⟩
      exact if_pos h
    · obtain ⟨m, h1, h2, h3, h4, h5⟩ := ih (k + 1)
      refine ⟨m, by omega, by omega, ?_, ?_, ?_⟩
      · rw [← h3]; exact if_neg h
      · rcases h4 with h4 | h4
        · left; omega
        · exact Or.inr h4
      · intro j hj1 hj2
        rcases Nat.lt_or_ge (k + 1) j with h' | h'
        · exact h5 j h' hj2
        · have : j = k + 1 := by omega
          subst this; exact not_le.1 h

/-- **C64.** A run ends after at most `cycle_stop` cycles, or earlier at the first cycle that reaches
the final time; with an evolving material in the last cycle it does not pass it by more than the
tolerance. -/
theorem C64_run_ends (o : ClockOpts) (ht : 0 ≤ o.tiny) (hs : o.timeStart < o.timeFinal)
    (hist : ℕ → List (Option (List CflElem))) (hm : ∀ c, ∃ es, some es ∈ hist c) (s : Clock) (n : ℕ)
    (h : lsClockLoop o hist o.cycleStop 0 (clockInit o) = (s, n)) :
    n ≤ o.cycleStop ∧ s = lsClockAt o hist n ∧ (n = o.cycleStop ∨ o.timeFinal ≤ s.time) ∧
    (∀ j < n, (lsClockAt o hist j).time < o.timeFinal) ∧ s.time ≤ o.timeFinal + o.tiny := by
  obtain ⟨k, h1, h2, h3, h4, h5⟩ := lsClockLoop_spec o hist o.cycleStop 0
  rw [show clockInit o = lsClockAt o hist 0 from rfl, h3] at h
  obtain ⟨rfl, rfl⟩ := Prod.mk.inj h
  simp only [Nat.zero_add] at h2 h4
  refine ⟨h2, rfl, h4, fun j hj => ?_, ?_⟩
  · rcases Nat.eq_zero_or_pos j with rfl | h'
    · exact hs
    · exact h5 j h' hj
  · cases k with
    | zero => show o.timeStart ≤ _; linarith
    | succ k =>
      rw [lsClockAt, lsClockCycle_time]
      exact (C64_limits o _ _ _ _ (hm k)).2.2.2

theorem lsClockAt_dt (o : ClockOpts) (ho : o.Sane) (hist : ℕ → List (Option (List CflElem)))
    (k : ℕ) (hk : ∀ j < k, (lsClockAt o hist j).time < o.timeFinal) :
    stepFloor o ≤ (lsClockAt o hist k).dt := by
  induction k with
  | zero => exact min_le_left _ _
  | succ k ih =>
    have ih := ih fun j hj => hk j (by omega)
    rw [lsClockAt]
    rcases lsClockCycle_dt o (hist k) k (lsClockAt o hist k) with h | h
    · rw [h]; exact ih
    · rw [h]; exact lsCycleDt_ge_floor o ho _ _ _ _ ih (hk k (by omega))

/-- **C64.** Every cycle before the final time advances the clock by at least
`min dt_start (min dt_min tiny)`, whatever materials are present. -/
theorem C64_time_increases (o : ClockOpts) (ho : o.Sane)
    (hist : ℕ → List (Option (List CflElem))) (j : ℕ)
    (hj : ∀ i ≤ j, (lsClockAt o hist i).time < o.timeFinal) :
    (lsClockAt o hist j).time + min o.dtStart (min o.dtMin o.tiny)
      ≤ (lsClockAt o hist (j + 1)).time := by
  rw [lsClockAt, lsClockCycle_time]
  have := lsCycleDt_ge_floor o ho (hist j) (lsClockAt o hist j).time (lsClockAt o hist j).gtime _
    (lsClockAt_dt o ho hist j fun i hi => hj i (by omega)) (hj j le_rfl)
  unfold stepFloor at this
  linarith

/-- **C64 (failure).** The step cannot recover from a small starting value when the mesh also
contains a material without an evolving level set: the step of such a material is the old step
itself, so in every cycle of the run the step is at most `dt_start` (in the hydrodynamics solver it
grows by 10 percent per cycle up to the stable one). -/
theorem C64_step_growth_fails (o : ClockOpts) (hist : ℕ → List (Option (List CflElem)))
    (hn : ∀ c, none ∈ hist c) (k : ℕ) :
    (lsClockAt o hist k).dt ≤ o.dtStart ∧
    (lsClockAt o hist (k + 1)).time ≤ (lsClockAt o hist k).time + o.dtStart := by
  have h1 : ∀ k, (lsClockAt o hist k).dt ≤ o.dtStart := by
    intro k
    induction k with
    | zero => exact le_rfl
    | succ k ih =>
      rw [lsClockAt]
      rcases lsClockCycle_dt o (hist k) k (lsClockAt o hist k) with h | h
      · rw [h]; exact ih
      · rw [h]; exact ((lsCycleDt_le o _ _ _ _).2.2 (hn k)).trans ih
  refine ⟨h1 k, ?_⟩
  rw [lsClockAt, lsClockCycle_time]
  have := ((lsCycleDt_le o (hist k) (lsClockAt o hist k).time (lsClockAt o hist k).gtime
    (lsClockAt o hist k).dt).2.2 (hn k)).trans (h1 k)
  linarith

/-- **C64 (failure).** If no material has an evolving level set nothing limits the step to the final
time: with start 0, final time 1, first step 3/4 and maximum step 10 the run ends at 3/2. -/
theorem C64_overshoot_fails (o : ClockOpts) (h0 : o.timeStart = 0) (h1 : o.timeFinal = 1)
    (h2 : o.dtStart = 3 / 4) (h3 : o.dtMax = 10) (h4 : 2 ≤ o.cycleStop) :
    (lsClockLoop o (fun _ => [none]) o.cycleStop 0 (clockInit o)).1.time = 3 / 2 := by
  have hdt : ∀ t g, lsCycleDt o [none] t g (3 / 4) = 3 / 4 := by
    intro t g; simp only [lsCycleDt, List.foldl_cons, List.foldl_nil, h3]; norm_num
  have hd0 : (lsClockAt o (fun _ => [none]) 0).dt = 3 / 4 := h2
  have ht0 : (lsClockAt o (fun _ => [none]) 0).time = 0 := h0
  have ht1 : (lsClockAt o (fun _ => [none]) 1).time = 3 / 4 := by
    rw [lsClockAt, lsClockCycle_time, hd0, ht0, hdt, zero_add]
  have hd1 : (lsClockAt o (fun _ => [none]) 1).dt = 3 / 4 := by
    rw [lsClockAt]
    rcases lsClockCycle_dt o [none] 0 (lsClockAt o (fun _ => [none]) 0) with h | h
    · rw [h, hd0]
    · rw [h, hd0, hdt]
  have ht2 : (lsClockAt o (fun _ => [none]) 2).time = 3 / 2 := by
    rw [lsClockAt, lsClockCycle_time, hd1, ht1, hdt]; norm_num
  obtain ⟨k, _, hk2, hk3, hk4, hk5⟩ := lsClockLoop_spec o (fun _ => [none]) o.cycleStop 0
  rw [show clockInit o = lsClockAt o (fun _ => [none]) 0 from rfl, hk3]
  have hk : k = 2 := by
    rcases hk4 with h | h
    · by_contra hne
      have := hk5 2 (by omega) (by omega)
      rw [ht2, h1] at this; norm_num at this
    · rcases Nat.lt_or_ge 2 k with hlt | hge
      · have := hk5 2 (by omega) hlt
        rw [ht2, h1] at this; norm_num at this
      · interval_cases k
        · rw [ht0, h1] at h; norm_num at h
        · rw [ht1, h1] at h; norm_num at h
        · rfl
  subst hk
  exact ht2

/-- Eight nodes at distance 1 in a row; only the distances matter below. -/
def rowCoords (l : ℕ) : Fin 3 → ℝ := ![(l : ℝ), 0, 0]

theorem rowCoords_dist : distMin rowCoords = 1 := by
  have he : ∀ a b : ℕ, euclid (rowCoords a) (rowCoords b) = |(a : ℝ) - b| := by
    intro a b
    simp [euclid, rowCoords, Fin.sum_univ_three, Real.sqrt_sq_eq_abs]
  apply le_antisymm
  · have := C14_length_le rowCoords 0 1 (by norm_num) (by norm_num) (by norm_num)
    rw [he] at this; simpa using this
  · obtain ⟨a, b, hab, _, h⟩ := C14_length_attained rowCoords
    rw [h, he, abs_sub_comm]
    have : (a : ℝ) + 1 ≤ b := by exact_mod_cast hab
    exact (by linarith : (1 : ℝ) ≤ b - a).trans (le_abs_self _)

/-- **C64 (failure).** The stability limit is lost for a front moving in the negative direction: the
speed used is `1.5 + front`, without absolute value.  For `front = -3/2`, node distance 1 and a CFL
number of 2/5 the step is the maximum step 1 and the front moves 3/2. -/
theorem C64_negative_velocity_fails :
    ∃ (o : ClockOpts) (front : ℝ) (coords : ℕ → Fin 3 → ℝ), o.dtCfl = 2 / 5 ∧ o.dtMin = 0 ∧
      distMin coords = 1 ∧ lsCycleDt o [some [lsCflElem front 0 coords]] 0 100 1 = 1 ∧
      o.dtCfl * distMin coords
        < |front| * lsCycleDt o [some [lsCflElem front 0 coords]] 0 100 1 := by
  let o : ClockOpts := { timeStart := 0, timeFinal := 100, dtStart := 1, dtMin := 0, dtMax := 1,
                         dtCfl := 2 / 5, fuzz := 1 / 100, tiny := 0, ival := 100,
                         cycIval := 100, cycleStop := 100 }
  have h : lsCycleDt o [some [lsCflElem (-3 / 2) 0 rowCoords]] 0 100 1 = 1 := by
    have he : elemDt o (lsCflElem (-3 / 2) 0 rowCoords) = 1 := by
      simp only [elemDt, lsCflElem, lsFrontSpeed, rowCoords_dist, o, Bool.false_eq_true, if_false]
      norm_num
    simp only [lsCycleDt, List.foldl_cons, List.foldl_nil, getTimestep, reduceMin, he, o]
    norm_num
  refine ⟨o, -3 / 2, rowCoords, rfl, rfl, rowCoords_dist, h, ?_⟩
  rw [h, rowCoords_dist]
  simp only [o]
  norm_num

end Fierro
