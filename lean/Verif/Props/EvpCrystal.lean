import Verif.Proofs.EvpCrystal
import Verif.Props.EvpOrient

/-!
# C70: slip systems, Schmid tensors and active modes
-/

set_option linter.unusedSectionVars false

namespace Fierro

/-- Scalar product. -/
def dotV (x y : Fin 3 → ℝ) : ℝ := x 0 * y 0 + x 1 * y 1 + x 2 * y 2

/-! ### Indices to vectors -/

/-- **C70.** Three-index notation: the scalar product of normal and direction is that of the indices,
whatever the cell edges are. -/
theorem C70_cubic_orthogonality (cdim : Fin 3 → ℝ) (h : ∀ m, cdim m ≠ 0) (isn isb : Fin 3 → ℤ) :
    dotV (cubicVectors cdim isn isb).1 (cubicVectors cdim isn isb).2 =
      ((isn 0 * isb 0 + isn 1 * isb 1 + isn 2 * isb 2 : ℤ) : ℝ) := by
  have h0 := h 0
  have h1 := h 1
  have h2 := h 2
  simp only [dotV, cubicVectors]
  push_cast
  field_simp

/-- **C70.** Four-index notation: if the redundant third indices are consistent, the scalar product of
normal and direction is the four-index product, whatever the axial ratio is. -/
theorem C70_hex_orthogonality (covera : ℝ) (h : covera ≠ 0) (isn isb : Fin 4 → ℤ)
    (hn : isn 2 = -(isn 0 + isn 1)) (hb : isb 2 = -(isb 0 + isb 1)) :
    dotV (hexVectors covera isn isb).1 (hexVectors covera isn isb).2 =
      ((isn 0 * isb 0 + isn 1 * isb 1 + isn 2 * isb 2 + isn 3 * isb 3 : ℤ) : ℝ) := by
  have h3 : Real.sqrt 3 ≠ 0 := by norm_num
  have h3' : Real.sqrt 3 * Real.sqrt 3 = 3 := Real.mul_self_sqrt (by norm_num)
  simp only [dotV, hexVectors, hn, hb, Matrix.cons_val_zero, Matrix.cons_val_one, Matrix.cons_val]
  push_cast
  field_simp
  ring

theorem vecLen_sq (s : Fin 3 → ℝ) : vecLen s * vecLen s = dotV s s :=
  Real.mul_self_sqrt (by
    have h0 := mul_self_nonneg (s 0)
    have h1 := mul_self_nonneg (s 1)
    have h2 := mul_self_nonneg (s 2)
    linarith)

theorem unitComp_sq (s : Fin 3 → ℝ) (j : Fin 3) :
    (s j / vecLen s) * (s j / vecLen s) - 1 / 10 ^ 6 ≤ unitComp s j * unitComp s j ∧
      unitComp s j * unitComp s j ≤ (s j / vecLen s) * (s j / vecLen s) := by
  unfold unitComp
  dsimp only
  split_ifs with h
  · have h2 : (s j / vecLen s) * (s j / vecLen s) ≤ 1 / 10 ^ 6 := by
      have e : (s j / vecLen s) * (s j / vecLen s) = |s j / vecLen s| * |s j / vecLen s| :=
        (abs_mul_abs_self _).symm
      rw [e]
      calc |s j / vecLen s| * |s j / vecLen s| ≤ 1 / 10 ^ 3 * (1 / 10 ^ 3) :=
            mul_le_mul h.le h.le (abs_nonneg _) (by norm_num)
        _ = _ := by norm_num
    constructor
    · linarith
    · have := mul_self_nonneg (s j / vecLen s); linarith
  · constructor
    · have : (0 : ℝ) < 1 / 10 ^ 6 := by norm_num
      linarith
    · exact le_rfl

/-- **C70.** The stored normals and directions have unit length up to the cut-off of small components:
their squared length lies between `1 - 3e-6` and `1`. -/
theorem C70_unit_length (v : (Fin 3 → ℝ) × (Fin 3 → ℝ)) (n b : Fin 3 → ℝ)
    (h : slipVectors v = some (n, b)) :
    1 - 3 / 10 ^ 6 ≤ dotV n n ∧ dotV n n ≤ 1 ∧ 1 - 3 / 10 ^ 6 ≤ dotV b b ∧ dotV b b ≤ 1 := by
  have key : ∀ s : Fin 3 → ℝ, vecLen s ≠ 0 →
      1 - 3 / 10 ^ 6 ≤ dotV (unitComp s) (unitComp s) ∧ dotV (unitComp s) (unitComp s) ≤ 1 := by
    intro s hs
    have e : s 0 / vecLen s * (s 0 / vecLen s) + s 1 / vecLen s * (s 1 / vecLen s) +
        s 2 / vecLen s * (s 2 / vecLen s) = 1 := by
      have := vecLen_sq s
      unfold dotV at this
      field_simp
      linarith [sq (vecLen s), sq (s 0), sq (s 1), sq (s 2)]
    obtain ⟨a0, b0⟩ := unitComp_sq s 0
    obtain ⟨a1, b1⟩ := unitComp_sq s 1
    obtain ⟨a2, b2⟩ := unitComp_sq s 2
    have e6 : (3 : ℝ) / 10 ^ 6 = 1 / 10 ^ 6 + 1 / 10 ^ 6 + 1 / 10 ^ 6 := by norm_num
    unfold dotV
    constructor <;> linarith
  unfold slipVectors at h
  dsimp only at h
  split_ifs at h with h1 h2
  simp only [not_or] at h1
  simp only [Option.some.injEq, Prod.mk.injEq] at h
  obtain ⟨rfl, rfl⟩ := h
  exact ⟨(key _ h1.1).1, (key _ h1.1).2, (key _ h1.2).1, (key _ h1.2).2⟩

/-- **C70.** A system with perpendicular vectors none of whose normalised components is cut off is
accepted, with the exact unit vectors. -/
theorem C70_accepted (v : (Fin 3 → ℝ) × (Fin 3 → ℝ)) (h1 : vecLen v.1 ≠ 0) (h2 : vecLen v.2 ≠ 0)
    (ho : dotV v.1 v.2 = 0) (c1 : ∀ j, v.1 j = 0 ∨ 1 / 10 ^ 3 ≤ |v.1 j / vecLen v.1|)
    (c2 : ∀ j, v.2 j = 0 ∨ 1 / 10 ^ 3 ≤ |v.2 j / vecLen v.2|) :
    slipVectors v = some (fun j => v.1 j / vecLen v.1, fun j => v.2 j / vecLen v.2) := by
  have key : ∀ s : Fin 3 → ℝ, (∀ j, s j = 0 ∨ 1 / 10 ^ 3 ≤ |s j / vecLen s|) →
      unitComp s = fun j => s j / vecLen s := by
    intro s hs
    funext j
    unfold unitComp
    dsimp only
    rcases hs j with h | h
    · rw [h]; simp
    · rw [if_neg (not_lt.mpr h)]
  unfold slipVectors
  rw [if_neg (by simp [h1, h2]), key _ c1, key _ c2]
  dsimp only
  have e : 0 + v.1 0 / vecLen v.1 * (v.2 0 / vecLen v.2) + v.1 1 / vecLen v.1 * (v.2 1 / vecLen v.2) +
      v.1 2 / vecLen v.1 * (v.2 2 / vecLen v.2) = 0 := by
    have : dotV v.1 v.2 / (vecLen v.1 * vecLen v.2) = 0 := by rw [ho, zero_div]
    refine Eq.trans ?_ this
    rw [dotV]
    field_simp
    ring
  rw [e, if_neg (by norm_num)]

/-- **C70 (finding).** The normality check rejects only positive scalar products: a direction antiparallel
to the plane normal is accepted as a slip system. -/
theorem C70_normality_check_fails :
    slipVectors (cubicVectors (fun _ => 1) ![1, 0, 0] ![-1, 0, 0]) =
      some (![1, 0, 0], ![-1, 0, 0]) ∧
    slipVectors (cubicVectors (fun _ => 1) ![1, 0, 0] ![1, 0, 0]) = none := by
  have l1 : vecLen (fun m => ((![1, 0, 0] : Fin 3 → ℤ) m : ℝ) / 1) = 1 := by
    simp [vecLen]
  have l2 : vecLen (fun m => ((![-1, 0, 0] : Fin 3 → ℤ) m : ℝ) * 1) = 1 := by
    simp [vecLen]
  have l3 : vecLen (fun m => ((![1, 0, 0] : Fin 3 → ℤ) m : ℝ) * 1) = 1 := by
    simp [vecLen]
  have u1 : unitComp (fun m => ((![1, 0, 0] : Fin 3 → ℤ) m : ℝ) / 1) = ![1, 0, 0] := by
    funext j
    unfold unitComp
    rw [l1]
    fin_cases j <;> norm_num
  have u2 : unitComp (fun m => ((![-1, 0, 0] : Fin 3 → ℤ) m : ℝ) * 1) = ![-1, 0, 0] := by
    funext j
    unfold unitComp
    rw [l2]
    fin_cases j <;> norm_num
  have u3 : unitComp (fun m => ((![1, 0, 0] : Fin 3 → ℤ) m : ℝ) * 1) = ![1, 0, 0] := by
    funext j
    unfold unitComp
    rw [l3]
    fin_cases j <;> norm_num
  constructor
  · unfold slipVectors cubicVectors
    dsimp only
    rw [l1, l2, u1, u2, if_neg (by norm_num)]
    exact if_neg (show ¬((0 : ℝ) + 1 * -1 + 0 * 0 + 0 * 0 ≥ 1 / 10 ^ 3) by norm_num)
  · unfold slipVectors cubicVectors
    dsimp only
    rw [l1, l3, u1, u3, if_neg (by norm_num)]
    exact if_pos (show (0 : ℝ) + 1 * 1 + 0 * 0 + 0 * 0 ≥ 1 / 10 ^ 3 by norm_num)

/-! ### Schmid tensors -/

/-- Normal or direction in the sample frame. -/
def turn (a : T2 ℝ) (x : Fin 3 → ℝ) : Fin 3 → ℝ := fun i => ∑ k, a i k * x k

theorem push_schmid (a : T2 ℝ) (n b : Fin 3 → ℝ) :
    pushT a (schmidTensor n b) = schmidTensor (turn a n) (turn a b) := by
  funext i j
  simp only [pushT, schmidTensor, turn, Fin.sum_univ_three]
  ring

theorem turn_dot (a : T2 ℝ) (ha : a.Orth) (x y : Fin 3 → ℝ) :
    dotV (turn a x) (turn a y) = dotV x y := by
  have c := ha.cols
  have c00 := c 0 0
  have c01 := c 0 1
  have c02 := c 0 2
  have c11 := c 1 1
  have c12 := c 1 2
  have c22 := c 2 2
  simp [Fin.sum_univ_three] at c00 c01 c02 c11 c12 c22
  simp only [dotV, turn, Fin.sum_univ_three]
  linear_combination x 0 * y 0 * c00 + (x 0 * y 1 + x 1 * y 0) * c01 + (x 0 * y 2 + x 2 * y 0) * c02 +
    x 1 * y 1 * c11 + (x 1 * y 2 + x 2 * y 1) * c12 + x 2 * y 2 * c22

theorem chg5_schmid (q : BasisConst ℝ) (h : q.Exact) (n b : Fin 3 → ℝ) (hb : dotV n b = 0) :
    chgBasis1 q (by omega : 5 ≤ 6) (schmidVec q n b) = schmidTensor n b := by
  funext i j
  unfold schmidVec
  rw [C66_deviator q h]
  unfold dotV at hb
  have : schmidTensor n b 0 0 + schmidTensor n b 1 1 + schmidTensor n b 2 2 = 0 := by
    simp only [schmidTensor]; linarith
  rw [this]
  simp only [schmidTensor]
  split_ifs <;> ring

/-- **C70.** The five stored components of a slip system describe exactly the Schmid tensor
`(n⊗b + b⊗n)/2`, and after every update of the orientation the Schmid tensor of the turned normal and
the turned direction. -/
theorem C70_schmid_tensor (q : BasisConst ℝ) (h : q.Exact) (ag : T2 ℝ) (ha : ag.Orth)
    (n b : Fin 3 → ℝ) (hb : dotV n b = 0) :
    updateSchmid q ag (schmidVec q n b) = schmidVec q (turn ag n) (turn ag b) ∧
    ∀ i j, chgBasis1 q (by omega : 5 ≤ 6) (updateSchmid q ag (schmidVec q n b)) i j =
      (turn ag n i * turn ag b j + turn ag n j * turn ag b i) / 2 := by
  have e : updateSchmid q ag (schmidVec q n b) = schmidVec q (turn ag n) (turn ag b) := by
    unfold updateSchmid
    dsimp only
    rw [chg5_schmid q h n b hb]
    have := push_schmid ag n b
    unfold pushT at this
    rw [this]
    rfl
  refine ⟨e, fun i j => ?_⟩
  rw [e, chg5_schmid q h _ _ (by rw [turn_dot ag ha, hb])]
  rfl

/-- **C70.** Resolved shear stress: the five-component product of a stored Schmid vector with the stress
components is `n'·σ·b'` with normal and direction in the sample frame; the pressure does not enter. -/
theorem C70_resolved_shear (q : BasisConst ℝ) (h : q.Exact) (ag : T2 ℝ) (ha : ag.Orth)
    (n b : Fin 3 → ℝ) (hb : dotV n b = 0) (S : T2 ℝ) (hS : S.Sym) (p : ℝ) :
    ∑ k : Fin 5, updateSchmid q ag (schmidVec q n b) k *
        chgBasis2 q le_rfl (fun i j => S i j - if i = j then p else 0) k.castSucc =
      ∑ i, ∑ j, turn ag n i * S i j * turn ag b j := by
  have e : ∑ k : Fin 5, updateSchmid q ag (schmidVec q n b) k *
      chgBasis2 q le_rfl (fun i j => S i j - if i = j then p else 0) k.castSucc =
      ∑ k : Fin 5, updateSchmid q ag (schmidVec q n b) k *
        chgBasis2 q (by omega : 5 ≤ 6) (fun i j => S i j - if i = j then p else 0) k := rfl
  rw [e, C66_inner_deviator]
  have ht : dotV (turn ag n) (turn ag b) = 0 := by rw [turn_dot ag ha, hb]
  unfold dotV at ht
  simp only [(C70_schmid_tensor q h ag ha n b hb).2]
  have s01 := hS 0 1
  have s02 := hS 0 2
  have s12 := hS 1 2
  generalize turn ag n = N at *
  generalize turn ag b = B at *
  simp [Fin.sum_univ_three]
  linear_combination -p * ht + (N 1 * B 0 - N 0 * B 1) / 2 * s01 + (N 2 * B 0 - N 0 * B 2) / 2 * s02 +
    (N 2 * B 1 - N 1 * B 2) / 2 * s12

/-- **C70.** The length of a Schmid vector never changes: it is `1/√2` for unit normal and direction,
for every orientation. -/
theorem C70_schmid_length (q : BasisConst ℝ) (h : q.Exact) (ag : T2 ℝ) (ha : ag.Orth)
    (n b : Fin 3 → ℝ) (hb : dotV n b = 0) (hn1 : dotV n n = 1) (hb1 : dotV b b = 1) :
    ∑ k, updateSchmid q ag (schmidVec q n b) k * updateSchmid q ag (schmidVec q n b) k = 1 / 2 := by
  rw [(C70_schmid_tensor q h ag ha n b hb).1]
  have e : ∀ x y : Fin 3 → ℝ, dotV x y = 0 →
      ∑ k, schmidVec q x y k * schmidVec q x y k = ddot (schmidTensor x y) (schmidTensor x y) := by
    intro x y hxy
    have := C66_inner_deviator q (schmidTensor x y) (schmidVec q x y)
    rw [chg5_schmid q h x y hxy] at this
    exact this
  have t0 : dotV (turn ag n) (turn ag b) = 0 := by rw [turn_dot ag ha, hb]
  have t1 : dotV (turn ag n) (turn ag n) = 1 := by rw [turn_dot ag ha, hn1]
  have t2 : dotV (turn ag b) (turn ag b) = 1 := by rw [turn_dot ag ha, hb1]
  rw [e _ _ t0]
  unfold dotV at t0 t1 t2
  simp only [ddot, schmidTensor, Fin.sum_univ_three]
  generalize turn ag n = N at *
  generalize turn ag b = B at *
  linear_combination (B 0 * B 0 + B 1 * B 1 + B 2 * B 2) / 2 * t1 + t2 / 2 +
    (N 0 * B 0 + N 1 * B 1 + N 2 * B 2) / 2 * t0

/-! ### Active modes -/

variable {σ K : Type}

/-- **C70.** Choice of modes: if the file numbers its modes 1, 2, …, N and the wanted modes are listed in
ascending order, the phase gets exactly the systems of the wanted modes in that order, and the hardening
matrix holds the file's self coefficient on the diagonal and elsewhere the file's coefficient between
the modes of the two systems.  Values left in the arrays by earlier phases do not matter. -/
theorem C70_active_modes (w : List ℕ) (hs : w.Pairwise (· < ·)) (N : ℕ) (hw : ∀ m ∈ w, 1 ≤ m ∧ m ≤ N)
    (R : ℕ → ModeRec σ K) (hR : ∀ m, (R m).modex = m) (h0 : ℕ → K) (l0 : ℕ → ℕ → K) (n0 : ℕ → ℕ) :
    let st := crystalRead (fun i => w.getD (i - 1) 0) w.length h0 l0 n0
      ((List.range N).map fun k => R (k + 1))
    let modes := w.flatMap fun m => List.replicate (R m).sys.length m
    st.kount = w.length + 1 ∧ st.sys = w.flatMap (fun m => (R m).sys) ∧
    ∀ i j (hi : i < modes.length) (hj : j < modes.length), hardMatrix st w.length i j =
      some (if i = j then (R modes[i]).hself else (R modes[i]).hlate modes[j]) := by
  intro st modes
  obtain ⟨c, inv⟩ := crystalRead_inv w hs (fun m hm => (hw m hm).1) R hR h0 l0 n0 N
  have hc : c = w.length := by
    rcases Nat.lt_or_ge c w.length with h | h
    · have a := inv.above c h le_rfl
      have b := (hw _ (List.getElem_mem h)).2
      omega
    · have := inv.le; omega
  subst hc
  refine ⟨inv.kount, by rw [inv.sys, List.take_length], ?_⟩
  intro i j hi hj
  -- the code's list of modes, and the file's
  have hlist : modeOfSystems st.nsm w.length =
      (List.range w.length).flatMap fun k => List.replicate (R (w.getD k 0)).sys.length (k + 1) := by
    unfold modeOfSystems
    have : ∀ k ∈ List.range w.length, List.replicate (st.nsm (k + 1)) (k + 1) =
        List.replicate (R (w.getD k 0)).sys.length (k + 1) := by
      intro k hk
      have hk' := List.mem_range.mp hk
      rw [(inv.rows k hk' hk').1]
      simp [List.getD_eq_getElem?_getD, hk']
    rw [List.flatMap, List.flatMap, List.map_congr_left this]
  have hmodes : modes = (modeOfSystems st.nsm w.length).map fun k => w.getD (k - 1) 0 := by
    rw [hlist, List.map_flatMap]
    have hw' : w = (List.range w.length).map fun k => w.getD k 0 := by
      apply List.ext_getElem
      · simp
      · intro k h1 h2; simp [List.getD_eq_getElem?_getD, h1]
    conv_lhs => rw [show modes = w.flatMap fun m => List.replicate (R m).sys.length m from rfl]
    conv_lhs => rw [hw']
    rw [List.flatMap_map]
    simp
  have hlen : (modeOfSystems st.nsm w.length).length = modes.length := by rw [hmodes]; simp
  have hget : ∀ k (hk : k < modes.length), ∃ m, ∃ hm : m < w.length,
      (modeOfSystems st.nsm w.length)[k]? = some (m + 1) ∧ modes[k] = w[m] := by
    intro k hk
    have hk2 : k < (modeOfSystems st.nsm w.length).length := by rw [hlen]; exact hk
    have hmem : ∀ x ∈ modeOfSystems st.nsm w.length, ∃ m, m < w.length ∧ x = m + 1 := by
      intro x hx
      rw [hlist] at hx
      obtain ⟨m, hm, hm2⟩ := List.mem_flatMap.mp hx
      exact ⟨m, List.mem_range.mp hm, (List.mem_replicate.mp hm2).2⟩
    obtain ⟨m, hm', he'⟩ := hmem _ (List.getElem_mem hk2)
    refine ⟨m, hm', by rw [List.getElem?_eq_getElem hk2, he'], ?_⟩
    have : modes[k] = ((modeOfSystems st.nsm w.length).map fun k => w.getD (k - 1) 0)[k]'(by simpa using hk2) := by
      simp only [hmodes]
    rw [this, List.getElem_map, he']
    simp [List.getD_eq_getElem?_getD, hm']
  obtain ⟨a, ha, ea, ma⟩ := hget i hi
  obtain ⟨b, hb, eb, mb⟩ := hget j hj
  obtain ⟨_, r2, r3⟩ := inv.rows a ha ha
  simp only [hardMatrix, ea, eb, ma, mb]
  congr 1
  split_ifs
  · exact r2
  · exact r3 b hb

/-- **C70 (finding).** Wanted modes listed in another order are dropped without a message: asking for
modes 2 and 1 of a file with modes 1 and 2 yields only the systems of mode 2, and the number of systems
of the second wanted mode keeps the value left in the array. -/
theorem C70_mode_order_fails (R : ℕ → ModeRec σ K) (hR : ∀ m, (R m).modex = m) (h0 : ℕ → K)
    (l0 : ℕ → ℕ → K) (n0 : ℕ → ℕ) :
    let st := crystalRead (fun i => [2, 1].getD (i - 1) 0) 2 h0 l0 n0
      ((List.range 2).map fun k => R (k + 1))
    st.sys = (R 2).sys ∧ st.nsm 2 = n0 2 := by
  have e : (List.range 2).map (fun k => R (k + 1)) = [R 1, R 2] := rfl
  intro st
  simp only [st, crystalRead, e, List.zipIdx, List.foldl_cons, List.foldl_nil, crystalStep, hR]
  simp

/-- **C70 (finding).** The latent coefficients of the wanted modes are looked up by mode number in a row
that is filled by position in the file: when the file's numbers are not 1, 2, …, the hardening matrix
holds whatever the array contained before. -/
theorem C70_mode_numbers_fails (h0 : ℕ → K) (l0 : ℕ → ℕ → K) (n0 : ℕ → ℕ) (a s : K) (x y : σ) :
    let st := crystalRead (fun i => [7].getD (i - 1) 0) 1 h0 l0 n0
      [{ modex := 7, hself := s, hlate := fun j => if j = 1 then a else l0 1 j, sys := [x, y] }]
    hardMatrix st 1 0 1 = some (l0 1 7) := by
  intro st
  simp only [st, crystalRead, List.zipIdx, List.foldl_cons, List.foldl_nil, crystalStep, hardMatrix,
    modeOfSystems, reorderRow]
  simp [List.replicate]

/-- The octahedral system (111)[1-10] of a cubic crystal meets the hypotheses above. -/
example : dotV (cubicVectors (fun _ => 1) ![1, 1, 1] ![1, -1, 0]).1
    (cubicVectors (fun _ => 1) ![1, 1, 1] ![1, -1, 0]).2 = 0 := by
  rw [C70_cubic_orthogonality _ (fun _ => one_ne_zero)]; simp

/-- Two wanted modes out of three. -/
example : ([1, 3] : List ℕ).Pairwise (· < ·) ∧ ∀ m ∈ ([1, 3] : List ℕ), 1 ≤ m ∧ m ≤ 3 := by decide

end Fierro
