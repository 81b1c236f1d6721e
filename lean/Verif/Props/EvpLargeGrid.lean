import Verif.Model.EvpLargeGrid
import Verif.Props.EvpField
import Verif.Props.EvpLargeAverage
import Verif.Props.EvpLargeExp
import Mathlib.Analysis.Calculus.FDeriv.Comp
import Mathlib.Topology.Algebra.Module.FiniteDimension

/-!
# C96: motion of the grid nodes
-/

namespace Fierro

open Large Complex

/-! ### Specification -/

/-- The point of the periodic grid with these integer coordinates, counted from 0. -/
def wrapPoint (g : EvpGrid) (hp : g.Pos) (z : Fin 3 → ℤ) : g.Ix := fun a =>
  ⟨(z a % (g.n a : ℤ)).toNat, by
    have h := hp a
    have h1 := Int.emod_nonneg (z a) (b := (g.n a : ℤ)) (by omega)
    have h2 := Int.emod_lt_of_pos (z a) (b := (g.n a : ℤ)) (by omega)
    omega⟩

/-- Mean of a periodic field over the eight points around node `i` (node `i` lies between the points
`i - 2` and `i - 1`). -/
noncomputable def nodeMean (g : EvpGrid) (hp : g.Pos) (v : g.Ix → Fin 3 → ℝ) (i : Fin 3 → ℤ) (ii : Fin 3) : ℝ :=
  (∑ a : Fin 2, ∑ b : Fin 2, ∑ c : Fin 2,
    v (wrapPoint g hp fun d => i d - 2 + (![(a : ℤ), (b : ℤ), (c : ℤ)] : Fin 3 → ℤ) d) ii) / 8

/-- The macroscopic gradient the nodes follow: initial spacings plus the increments of the averages. -/
noncomputable def nodeGrad {g : EvpGrid} (delt : Fin 3 → ℝ) (steps : List (ℝ × (g.Ix → T2 ℝ))) : T2 ℝ :=
  fun ii jj => (if ii = jj then delt ii else 0) + (steps.map fun s => s.1 * refAvg s.2 ii jj).sum

/-- The accumulated fluctuation of a node. -/
noncomputable def nodeDrift (g : EvpGrid) (hp : g.Pos) (steps : List (ℝ × (g.Ix → T2 ℝ))) (i : Fin 3 → ℤ)
    (ii : Fin 3) : ℝ :=
  (steps.map fun s => s.1 * nodeMean g hp (fluctuation g s.2) i ii).sum

/-! ### Indices -/

theorem besideNode_spec (n i : ℕ) (h1 : 1 ≤ i) (h2 : i ≤ n + 1) (hn : 0 < n) :
    (1 ≤ (besideNode n i).1 ∧ (besideNode n i).1 ≤ n) ∧ (1 ≤ (besideNode n i).2 ∧ (besideNode n i).2 ≤ n) ∧
      (besideNode n i).1 - 1 = (((i : ℤ) - 2) % (n : ℤ)).toNat ∧
      (besideNode n i).2 - 1 = (((i : ℤ) - 1) % (n : ℤ)).toNat := by
  rw [besideNode]
  by_cases e1 : i = 1
  · subst e1
    rw [if_pos rfl]
    have : ((1 : ℕ) : ℤ) - 2 = ((n : ℤ) - 1) + (n : ℤ) * (-1) := by push_cast; ring
    rw [this, Int.add_mul_emod_self_left, Int.emod_eq_of_lt (by omega) (by omega)]
    refine ⟨by omega, by omega, by omega, by simp⟩
  · rw [if_neg e1]
    by_cases e2 : i = n + 1
    · rw [if_pos e2, e2]
      have : ((n + 1 : ℕ) : ℤ) - 1 = (n : ℤ) := by push_cast; ring
      rw [this, Int.emod_self, Int.emod_eq_of_lt (by omega) (by omega)]
      refine ⟨by omega, by omega, by omega, by simp⟩
    · rw [if_neg e2, Int.emod_eq_of_lt (by omega) (by omega), Int.emod_eq_of_lt (by omega) (by omega)]
      refine ⟨by dsimp; omega, by dsimp; omega, by dsimp; omega, by dsimp; omega⟩

theorem readPoint_wrap (g : EvpGrid) (hp : g.Pos) (v : g.Ix → Fin 3 → ℝ) (p : Fin 3 → ℕ) (z : Fin 3 → ℤ)
    (h : ∀ a, (1 ≤ p a ∧ p a ≤ g.n a) ∧ p a - 1 = (z a % (g.n a : ℤ)).toNat) :
    readPoint g v p = some (v (wrapPoint g hp z)) := by
  rw [readPoint, dif_pos fun a => (h a).1]
  congr 2
  funext a
  exact Fin.ext (h a).2

theorem eighth_eight (read : (Fin 3 → ℕ) → Option (Fin 3 → ℝ)) (b : Fin 3 → ℕ × ℕ)
    (f : Fin 2 → Fin 2 → Fin 2 → Fin 3 → ℝ)
    (h : ∀ x y z : Fin 2, read ![if x = 0 then (b 0).1 else (b 0).2, if y = 0 then (b 1).1 else (b 1).2,
      if z = 0 then (b 2).1 else (b 2).2] = some (f x y z)) :
    eighth read (aroundNode b) = some fun ii => (∑ x, ∑ y, ∑ z, f x y z ii) / 8 := by
  have h000 := h 0 0 0
  have h100 := h 1 0 0
  have h010 := h 0 1 0
  have h110 := h 1 1 0
  have h001 := h 0 0 1
  have h101 := h 1 0 1
  have h011 := h 0 1 1
  have h111 := h 1 1 1
  simp only [if_true, one_ne_zero, if_false] at h000 h100 h010 h110 h001 h101 h011 h111
  simp only [eighth, aroundNode, List.mapM_cons, List.mapM_nil, h000, h100, h010, h110, h001, h101, h011, h111,
    Option.pure_def, Option.bind_eq_bind, Option.bind_some, Option.map_some, List.map_cons, List.map_nil,
    List.sum_cons, List.sum_nil, Fin.sum_univ_two]
  congr 1
  funext ii
  norm_num
  ring

theorem nodeVelocity_eq (g : EvpGrid) (hp : g.Pos) (start i : Fin 3 → ℕ) (v : g.Ix → Fin 3 → ℝ)
    (h : ∀ a, 1 ≤ i a + start a ∧ i a + start a ≤ g.n a + 1) :
    nodeVelocity g start v i = some (nodeMean g hp v fun a => (i a : ℤ) + (start a : ℤ)) := by
  rw [nodeVelocity]
  rw [eighth_eight (readPoint g v) _ (fun x y z => v (wrapPoint g hp fun d =>
    (i d : ℤ) + (start d : ℤ) - 2 + (![(x : ℤ), (y : ℤ), (z : ℤ)] : Fin 3 → ℤ) d))]
  · rfl
  · intro x y z
    apply readPoint_wrap
    have key : ∀ a (w : Fin 2), (1 ≤ (if w = 0 then (besideNode (g.n a) (i a + start a)).1
        else (besideNode (g.n a) (i a + start a)).2) ∧ (if w = 0 then (besideNode (g.n a) (i a + start a)).1
        else (besideNode (g.n a) (i a + start a)).2) ≤ g.n a) ∧ (if w = 0 then
        (besideNode (g.n a) (i a + start a)).1 else (besideNode (g.n a) (i a + start a)).2) - 1 =
        (((i a : ℤ) + (start a : ℤ) - 2 + (w : ℤ)) % (g.n a : ℤ)).toNat := by
      intro a w
      obtain ⟨h1, h2, h3, h4⟩ := besideNode_spec (g.n a) (i a + start a) (h a).1 (h a).2 (hp a)
      push_cast at h3 h4
      match w with
      | 0 => exact ⟨h1, by simpa using h3⟩
      | 1 =>
        refine ⟨h2, ?_⟩
        have e : ((i a : ℤ) + (start a : ℤ) - 2 + ((1 : Fin 2) : ℤ)) = (i a : ℤ) + (start a : ℤ) - 1 := by
          simp; ring
        rw [e]
        exact h4
    intro a
    match a with
    | 0 => exact key 0 x
    | 1 => exact key 1 y
    | 2 => exact key 2 z

theorem nodeMean_periodic (g : EvpGrid) (hp : g.Pos) (v : g.Ix → Fin 3 → ℝ) (i m : Fin 3 → ℤ) :
    nodeMean g hp v (fun a => i a + m a * g.n a) = nodeMean g hp v i := by
  funext ii
  rw [nodeMean, nodeMean]
  congr 1
  refine Finset.sum_congr rfl fun x _ => Finset.sum_congr rfl fun y _ => Finset.sum_congr rfl fun z _ => ?_
  refine congrFun (congrArg v ?_) ii
  funext a
  apply Fin.ext
  show ((i a + m a * g.n a - 2 + _) % (g.n a : ℤ)).toNat = ((i a - 2 + _) % (g.n a : ℤ)).toNat
  congr 1
  rw [show i a + m a * (g.n a : ℤ) - 2 + (![(x : ℤ), (y : ℤ), (z : ℤ)] : Fin 3 → ℤ) a =
    i a - 2 + (![(x : ℤ), (y : ℤ), (z : ℤ)] : Fin 3 → ℤ) a + m a * (g.n a : ℤ) by ring]
  exact Int.add_mul_emod_self_right _ _ _

theorem nodeDrift_periodic (g : EvpGrid) (hp : g.Pos) (steps : List (ℝ × (g.Ix → T2 ℝ))) (i m : Fin 3 → ℤ) :
    nodeDrift g hp steps (fun a => i a + m a * g.n a) = nodeDrift g hp steps i := by
  funext ii
  simp only [nodeDrift, nodeMean_periodic]

/-! ### Positions -/

/-- **C96.** Any number of steps on any rank: every node of the rank has a position, no point outside the
grid is read, and the position is the accumulated average gradient applied to the index plus the
accumulated fluctuation, interpolated periodically. -/
theorem C96_position (g : EvpGrid) (hp : g.Pos) (delt : Fin 3 → ℝ) (start i : Fin 3 → ℕ)
    (h : ∀ a, 1 ≤ i a + start a ∧ i a + start a ≤ g.n a + 1) (steps : List (ℝ × (g.Ix → T2 ℝ))) :
    nodeRun g delt start i steps = some fun ii =>
      (∑ jj, nodeGrad delt steps ii jj * ((i jj : ℝ) - 1 / 2)) +
        nodeDrift g hp steps (fun a => (i a : ℤ) + (start a : ℤ)) ii := by
  have key : ∀ (l : List (ℝ × (g.Ix → T2 ℝ))) (x : Fin 3 → ℝ), l.foldlM (nodeStep g start i) x =
      some fun ii => x ii + (∑ jj, (l.map fun s => s.1 * refAvg s.2 ii jj).sum * ((i jj : ℝ) - 1 / 2)) +
        nodeDrift g hp l (fun a => (i a : ℤ) + (start a : ℤ)) ii := by
    intro l
    induction l with
    | nil =>
      intro x
      simp only [List.foldlM_nil, Option.pure_def, List.map_nil, List.sum_nil, zero_mul, Finset.sum_const_zero,
        nodeDrift, add_zero]
    | cons s l ih =>
      intro x
      rw [List.foldlM_cons, nodeStep, nodeVelocity_eq g hp start i _ h, Option.map_some, Option.bind_eq_bind,
        Option.bind_some, ih]
      congr 1
      funext ii
      simp only [nodeDrift, List.map_cons, List.sum_cons, nodeRef, Fin.sum_univ_three]
      norm_num
      ring
  rw [nodeRun, key]
  congr 1
  funext ii
  simp only [nodeStart, nodeGrad, nodeRef, deltM, Matrix.diagonal_apply, add_mul, Finset.sum_add_distrib]
  norm_num

/-- **C96.** Opposite nodes of the grid differ by the number of points times a column of the accumulated
average gradient, exactly and for all histories: the deformed grid tiles space. -/
theorem C96_opposite (g : EvpGrid) (hp : g.Pos) (delt : Fin 3 → ℝ) (i : Fin 3 → ℕ)
    (h : ∀ a, 1 ≤ i a ∧ i a ≤ g.n a + 1) (b : Fin 3) (hb : i b = 1) (steps : List (ℝ × (g.Ix → T2 ℝ))) :
    ∃ x y, nodeRun g delt 0 i steps = some x ∧
      nodeRun g delt 0 (Function.update i b (g.n b + 1)) steps = some y ∧
      ∀ ii, y ii - x ii = g.n b * nodeGrad delt steps ii b := by
  have h' : ∀ a, 1 ≤ Function.update i b (g.n b + 1) a + (0 : Fin 3 → ℕ) a ∧
      Function.update i b (g.n b + 1) a + (0 : Fin 3 → ℕ) a ≤ g.n a + 1 := by
    intro a
    by_cases e : a = b
    · subst e; simp
    · rw [Function.update_of_ne e]; exact h a
  refine ⟨_, _, C96_position g hp delt 0 i (fun a => by simpa using h a) steps,
    C96_position g hp delt 0 _ h' steps, fun ii => ?_⟩
  have hm : nodeDrift g hp steps (fun a => ((Function.update i b (g.n b + 1) a : ℕ) : ℤ) + ((0 : Fin 3 → ℕ) a : ℤ)) ii =
      nodeDrift g hp steps (fun a => (i a : ℤ) + ((0 : Fin 3 → ℕ) a : ℤ)) ii := by
    have e : (fun a => ((Function.update i b (g.n b + 1) a : ℕ) : ℤ) + ((0 : Fin 3 → ℕ) a : ℤ)) =
        fun a => ((i a : ℤ) + ((0 : Fin 3 → ℕ) a : ℤ)) + (if a = b then 1 else 0) * (g.n a : ℤ) := by
      funext a
      by_cases e : a = b
      · subst e; simp [hb]; ring
      · simp [e]
    rw [e]
    exact congrFun (nodeDrift_periodic g hp steps _ fun a => if a = b then 1 else 0) ii
  rw [hm]
  have hs : ∑ jj, nodeGrad delt steps ii jj * (((Function.update i b (g.n b + 1) jj : ℕ) : ℝ) - 1 / 2) -
      ∑ jj, nodeGrad delt steps ii jj * ((i jj : ℝ) - 1 / 2) = g.n b * nodeGrad delt steps ii b := by
    rw [← Finset.sum_sub_distrib, Finset.sum_eq_single b]
    · simp [hb]; ring
    · intro a _ ha
      rw [Function.update_of_ne ha]; ring
    · simp
  linarith

/-- **C96.** Splitting the grid over ranks does not change its shape: the position of a node on a rank is
that of the same node on a single rank, moved by the accumulated average gradient applied to the offset
of the rank. -/
theorem C96_ranks (g : EvpGrid) (hp : g.Pos) (delt : Fin 3 → ℝ) (start i : Fin 3 → ℕ)
    (h : ∀ a, 1 ≤ i a + start a ∧ i a + start a ≤ g.n a + 1) (steps : List (ℝ × (g.Ix → T2 ℝ))) :
    ∃ x y, nodeRun g delt start i steps = some x ∧ nodeRun g delt 0 (fun a => i a + start a) steps = some y ∧
      ∀ ii, x ii = y ii - ∑ jj, nodeGrad delt steps ii jj * (start jj : ℝ) := by
  refine ⟨_, _, C96_position g hp delt start i h steps, C96_position g hp delt 0 _ (by simpa using h) steps,
    fun ii => ?_⟩
  have e : (fun a => ((i a + start a : ℕ) : ℤ) + ((0 : Fin 3 → ℕ) a : ℤ)) = fun a => (i a : ℤ) + (start a : ℤ) := by
    funext a; simp
  rw [e]
  simp only [Fin.sum_univ_three]
  push_cast
  ring

/-! ### Velocities -/

theorem velHat_eq (xk : Fin 3 → ℝ) (h : xk ≠ 0) (w : Fin 3 → Fin 3 → ℂ) (ii : Fin 3) :
    0 < ∑ j, xk j * xk j ∧
      velHat xk w ii = -I * (∑ j, w ii j * (xk j : ℂ)) / ((∑ j, xk j * xk j : ℝ) : ℂ) := by
  have hpos : 0 < ∑ j, xk j * xk j := by
    obtain ⟨j, hj⟩ := Function.ne_iff.mp h
    exact Finset.sum_pos' (fun j _ => mul_self_nonneg _) ⟨j, Finset.mem_univ _, mul_self_pos.mpr hj⟩
  refine ⟨hpos, ?_⟩
  have e : ∑ j, xk j * xk j = xk 0 * xk 0 + xk 1 * xk 1 + xk 2 * xk 2 := Fin.sum_univ_three _
  rw [e] at hpos ⊢
  obtain ⟨r, hr⟩ : ∃ r, r = xk 0 * xk 0 + xk 1 * xk 1 + xk 2 * xk 2 := ⟨_, rfl⟩
  simp only [velHat]
  rw [← hr] at hpos ⊢
  rw [if_pos hpos]
  apply Complex.ext
  · rw [Complex.div_ofReal_re]
    simp [Fin.sum_univ_three]
    ring
  · rw [Complex.div_ofReal_im]
    simp [Fin.sum_univ_three]
    ring

theorem velHat_zero (w : Fin 3 → Fin 3 → ℂ) (ii : Fin 3) : velHat 0 w ii = 0 := by
  simp [velHat]

/-- **C96.** The gradient handed to the transforms is the gradient with respect to the reference grid: if the
velocity has the gradient `L` at a material point and the motion of the grid the gradient `F`, the velocity as a
function of the reference position has this gradient. -/
theorem C96_reference (phi v : (Fin 3 → ℝ) → Fin 3 → ℝ) (X : Fin 3 → ℝ) (F L : T2 ℝ)
    (hphi : HasFDerivAt phi (LinearMap.toContinuousLinearMap (Matrix.mulVecLin (Matrix.of F))) X)
    (hv : HasFDerivAt v (LinearMap.toContinuousLinearMap (Matrix.mulVecLin (Matrix.of L))) (phi X)) :
    HasFDerivAt (v ∘ phi)
      (LinearMap.toContinuousLinearMap (Matrix.mulVecLin (Matrix.of (velgradRef L F)))) X := by
  have e : (Matrix.of (velgradRef L F)) = Matrix.of L * Matrix.of F := by
    ext a b
    simp [velgradRef, Matrix.mul_apply]
  have e2 : LinearMap.toContinuousLinearMap (Matrix.mulVecLin (Matrix.of (velgradRef L F))) =
      (LinearMap.toContinuousLinearMap (Matrix.mulVecLin (Matrix.of L))).comp
        (LinearMap.toContinuousLinearMap (Matrix.mulVecLin (Matrix.of F))) := by
    refine ContinuousLinearMap.ext fun y => ?_
    rw [e]
    simp [Matrix.mulVec_mulVec]
  rw [e2]
  exact hv.comp X hphi

/-- **C96.** At every frequency the velocity is the one whose gradient comes closest to the given
gradient, and what is left over is orthogonal to the frequency. -/
theorem C96_closest (xk : Fin 3 → ℝ) (h : xk ≠ 0) (w : Fin 3 → Fin 3 → ℂ) (ii : Fin 3) :
    ∑ j, (xk j : ℂ) * (w ii j - I * xk j * velHat xk w ii) = 0 ∧
      ∀ u : ℂ, ∑ j, Complex.normSq (w ii j - I * xk j * velHat xk w ii) ≤
        ∑ j, Complex.normSq (w ii j - I * xk j * u) := by
  obtain ⟨hpos, hv⟩ := velHat_eq xk h w ii
  have horth : ∑ j, (xk j : ℂ) * (w ii j - I * xk j * velHat xk w ii) = 0 := by
    have hne : ((∑ j, xk j * xk j : ℝ) : ℂ) ≠ 0 := Complex.ofReal_ne_zero.mpr hpos.ne'
    have e : ∑ j, (xk j : ℂ) * (w ii j - I * xk j * velHat xk w ii) =
        ∑ j, w ii j * (xk j : ℂ) - I * velHat xk w ii * ((∑ j, xk j * xk j : ℝ) : ℂ) := by
      simp only [Fin.sum_univ_three]; push_cast; ring
    rw [e, hv]
    obtain ⟨X, hX⟩ : ∃ X : ℂ, X = ((∑ j, xk j * xk j : ℝ) : ℂ) := ⟨_, rfl⟩
    obtain ⟨W, hW⟩ : ∃ W : ℂ, W = ∑ j, w ii j * (xk j : ℂ) := ⟨_, rfl⟩
    rw [← hX] at hne ⊢
    rw [← hW]
    have e2 : I * (-I * W / X) * X = -(I * I) * W := by field_simp
    rw [e2, Complex.I_mul_I]
    ring
  refine ⟨horth, fun u => ?_⟩
  obtain ⟨d, hd⟩ : ∃ d, d = u - velHat xk w ii := ⟨_, rfl⟩
  have hu : u = velHat xk w ii + d := by rw [hd]; ring
  obtain ⟨r, hr⟩ : ∃ r : Fin 3 → ℂ, r = fun j => w ii j - I * xk j * velHat xk w ii := ⟨_, rfl⟩
  have e1 : ∀ j, w ii j - I * xk j * u = r j - I * xk j * d := fun j => by rw [hu, hr]; ring
  have e2 : ∀ j, w ii j - I * xk j * velHat xk w ii = r j := fun j => by rw [hr]
  simp only [e1, e2] at horth ⊢
  have h1 := congrArg Complex.re horth
  have h2 := congrArg Complex.im horth
  simp only [Fin.sum_univ_three, Complex.add_re, Complex.add_im, Complex.mul_re, Complex.mul_im,
    Complex.ofReal_re, Complex.ofReal_im, zero_mul, sub_zero, add_zero, Complex.zero_re, Complex.zero_im] at h1 h2
  simp only [Fin.sum_univ_three, Complex.normSq_apply, Complex.sub_re, Complex.sub_im, Complex.mul_re,
    Complex.mul_im, Complex.I_re, Complex.I_im, Complex.ofReal_re, Complex.ofReal_im]
  have hq : 0 ≤ (xk 0 ^ 2 + xk 1 ^ 2 + xk 2 ^ 2) * (d.re ^ 2 + d.im ^ 2) := by positivity
  have e3 := congrArg (fun t => 2 * d.im * t) h1
  have e4 := congrArg (fun t => -2 * d.re * t) h2
  simp only [mul_zero] at e3 e4
  linarith [hq, e3, e4]

theorem twopi_eq : 8 * Real.arctan 1 = 2 * Real.pi := by rw [Real.arctan_one]; ring

theorem gridFreq_zero (g : EvpGrid) (k : g.Ix) (h : g.freq k = 0) : gridFreq g k = 0 := by
  funext a; simp [gridFreq, h]

/-- **C96.** The fluctuating velocity has zero mean over the grid. -/
theorem C96_mean (n : Fin 3 → ℕ) (hn : ∀ a, 0 < n a) (ref : (unitGrid n).Ix → T2 ℝ) (ii : Fin 3) :
    ∑ x, fluctuation (unitGrid n) ref x ii = 0 := by
  have hg : (unitGrid n).Good := ⟨hn, fun _ => one_pos⟩
  simp only [fluctuation, EvpGrid.backward, ← Complex.re_sum, ← Finset.mul_sum]
  rw [Finset.sum_comm]
  simp only [← Finset.mul_sum]
  obtain ⟨z, hz⟩ : ∃ z : (unitGrid n).Ix, ∀ a, (z a : ℕ) = 0 := ⟨fun a => ⟨0, hn a⟩, fun _ => rfl⟩
  have h1 : ∀ x, (starRingEnd ℂ) ((unitGrid n).chi z x) = 1 := by
    intro x
    simp [EvpGrid.chi, hz]
  have e : ∀ k, ∑ x, (unitGrid n).chi k x = if k = z then ((unitGrid n).size : ℂ) else 0 := by
    intro k
    rw [← (unitGrid n).chi_orthogonal hg.pos k z]
    exact Finset.sum_congr rfl fun x _ => by rw [h1, mul_one]
  simp only [e, mul_ite, mul_zero]
  rw [Finset.sum_ite_eq' Finset.univ z, if_pos (Finset.mem_univ z),
    gridFreq_zero _ z (((unitGrid n).freq_zero_iff hg z).mpr (((unitGrid n).zeroFreq_iff z).mpr hz)), velHat_zero]
  simp

theorem forward_const (g : EvpGrid) (hg : g.Good) (c : ℝ) (k : g.Ix) (hk : g.freq k ≠ 0) :
    g.forward (fun _ => c) k = 0 := by
  obtain ⟨z, hz⟩ : ∃ z : g.Ix, ∀ a, (z a : ℕ) = 0 := ⟨fun a => ⟨0, hg.pos a⟩, fun _ => rfl⟩
  have hkz : z ≠ k := fun h => hk ((g.freq_zero_iff hg k).mpr ((g.zeroFreq_iff k).mpr (h ▸ hz)))
  have e := g.chi_orthogonal hg.pos z k
  rw [if_neg hkz] at e
  have h1 : ∀ x, g.chi z x = 1 := fun x => by simp [EvpGrid.chi, hz]
  simp only [h1, one_mul] at e
  rw [EvpGrid.forward, ← Finset.mul_sum, e, mul_zero]

/-- **C96.** The velocities are found exactly: when the gradient in the reference grid is a constant plus
the gradient of (the trigonometric interpolation of) a velocity field with zero mean and no content at the
highest frequency of an even number of points, the fluctuation computed is that velocity field. -/
theorem C96_velocity (n : Fin 3 → ℕ) (hn : ∀ a, 0 < n a) (u : (unitGrid n).Ix → Fin 3 → ℝ) (A : T2 ℝ)
    (ref : (unitGrid n).Ix → T2 ℝ) (hmean : ∀ i, ∑ x, u x i = 0)
    (hres : ∀ k : (unitGrid n).Ix, (∃ a, 2 * (k a : ℕ) = n a) → ∀ i, (unitGrid n).forward (fun x => u x i) k = 0)
    (hgrad : ∀ x i j, HasDerivAt (fun t => (unitGrid n).interp (fun x => u x i)
      (Function.update ((unitGrid n).position x) j t)) (ref x i j - A i j) ((unitGrid n).position x j))
    (x : (unitGrid n).Ix) (i : Fin 3) : fluctuation (unitGrid n) ref x i = u x i := by
  obtain ⟨g, hgd⟩ : ∃ g, g = unitGrid n := ⟨_, rfl⟩
  have hg : (unitGrid n).Good := ⟨hn, fun _ => one_pos⟩
  have hny : ∀ k : (unitGrid n).Ix, (unitGrid n).nyquist k = true → ∀ i, (unitGrid n).forward (fun x => u x i) k = 0 :=
    fun k hk => hres k (((unitGrid n).nyquist_iff hg.pos k).mp hk)
  -- spectrum of the gradient
  have href : ∀ i j, (fun x => ref x i j) = fun x => A i j + (unitGrid n).backward (fun k =>
      2 * Real.pi * I * ((unitGrid n).freq k j : ℂ) * (unitGrid n).forward (fun x => u x i) k) x := by
    intro i j
    funext x
    have h1 := (unitGrid n).waves_deriv ((unitGrid n).forward fun x => u x i) ((unitGrid n).position x) j
    have h2 := (hgrad x i j).unique h1
    have h3 : ref x i j = A i j + ((1 / ((unitGrid n).size : ℂ)) * ∑ k, (unitGrid n).forward (fun x => u x i) k *
        (2 * Real.pi * I * ((unitGrid n).freq k j : ℂ) * (unitGrid n).wave k ((unitGrid n).position x))).re := by
      linarith
    rw [h3, EvpGrid.backward]
    congr 3
    refine Finset.sum_congr rfl fun k _ => ?_
    rw [(unitGrid n).wave_position hg]
    ring
  have hherm : ∀ i j k, (2 * Real.pi * I * ((unitGrid n).freq ((unitGrid n).opp hg.pos k) j : ℂ) *
      (unitGrid n).forward (fun x => u x i) ((unitGrid n).opp hg.pos k)) =
      (starRingEnd ℂ) (2 * Real.pi * I * ((unitGrid n).freq k j : ℂ) * (unitGrid n).forward (fun x => u x i) k) := by
    intro i j k
    rw [(unitGrid n).forward_opp hg.pos]
    cases hk : (unitGrid n).nyquist k
    · rw [(unitGrid n).freq_opp hg.pos k hk j]
      have h2 : (starRingEnd ℂ) 2 = 2 := Complex.conj_ofNat 2
      simp only [map_mul, Complex.conj_ofReal, Complex.conj_I, h2]
      push_cast
      ring
    · rw [hny k hk i]
      simp
  have hfw : ∀ i j k, (unitGrid n).freq k ≠ 0 → (unitGrid n).forward (fun x => ref x i j) k =
      2 * Real.pi * I * ((unitGrid n).freq k j : ℂ) * (unitGrid n).forward (fun x => u x i) k := by
    intro i j k hk
    have hb := (unitGrid n).forward_backward hg.pos (fun k => 2 * Real.pi * I *
      ((unitGrid n).freq k j : ℂ) * (unitGrid n).forward (fun x => u x i) k) (hherm i j) k
    have hc := forward_const (unitGrid n) hg (A i j) k hk
    rw [href i j, ← hb]
    conv_rhs => rw [← zero_add ((unitGrid n).forward _ k), ← hc]
    simp only [EvpGrid.forward, ← Finset.sum_add_distrib]
    exact Finset.sum_congr rfl fun y _ => by push_cast; ring
  have hv : ∀ k, velHat (gridFreq (unitGrid n) k) (fun a b => (unitGrid n).forward (fun y => ref y a b) k) i =
      (unitGrid n).forward (fun x => u x i) k := by
    intro k
    by_cases hk : (unitGrid n).freq k = 0
    · rw [gridFreq_zero _ k hk, velHat_zero]
      have hz := ((unitGrid n).zeroFreq_iff k).mp (((unitGrid n).freq_zero_iff hg k).mp hk)
      have h1 : ∀ x, (starRingEnd ℂ) ((unitGrid n).chi k x) = 1 := fun x => by simp [EvpGrid.chi, hz]
      simp only [EvpGrid.forward, h1, mul_one]
      rw [← Complex.ofReal_sum, hmean i]
      simp
    · have hne : gridFreq (unitGrid n) k ≠ 0 := by
        intro h0
        apply hk
        funext a
        have := congrFun h0 a
        simp only [gridFreq, twopi_eq, Pi.zero_apply, mul_eq_zero] at this
        rcases this with h | h
        · rcases h with h | h
          · norm_num at h
          · exact absurd h Real.pi_ne_zero
        · exact h
      obtain ⟨hpos, he⟩ := velHat_eq (gridFreq (unitGrid n) k) hne
        (fun a b => (unitGrid n).forward (fun y => ref y a b) k) i
      rw [he]
      have hsum : ∑ j, (unitGrid n).forward (fun y => ref y i j) k * ((gridFreq (unitGrid n) k j : ℝ) : ℂ) =
          I * (unitGrid n).forward (fun x => u x i) k *
            ((∑ j, gridFreq (unitGrid n) k j * gridFreq (unitGrid n) k j : ℝ) : ℂ) := by
        simp only [hfw i _ k hk, gridFreq, twopi_eq, Fin.sum_univ_three]
        push_cast
        ring
      rw [hsum]
      have hn0 : ((∑ j, gridFreq (unitGrid n) k j * gridFreq (unitGrid n) k j : ℝ) : ℂ) ≠ 0 :=
        Complex.ofReal_ne_zero.mpr hpos.ne'
      rw [mul_comm (-I), mul_assoc, div_eq_iff hn0]
      have hI : I * I = -1 := Complex.I_mul_I
      linear_combination (-(unitGrid n).forward (fun x => u x i) k *
        ((∑ j, gridFreq (unitGrid n) k j * gridFreq (unitGrid n) k j : ℝ) : ℂ)) * hI
  rw [fluctuation]
  simp only [hv]
  exact (unitGrid n).backward_forward hg.pos (fun x => u x i) x

theorem fluctuation_const (n : Fin 3 → ℕ) (hn : ∀ a, 0 < n a) (A : T2 ℝ) :
    fluctuation (unitGrid n) (fun _ => A) = 0 := by
  have hg : (unitGrid n).Good := ⟨hn, fun _ => one_pos⟩
  funext x ii
  have hv : ∀ k, velHat (gridFreq (unitGrid n) k)
      (fun a b => (unitGrid n).forward (fun _ => A a b) k) ii = 0 := by
    intro k
    by_cases hk : (unitGrid n).freq k = 0
    · rw [gridFreq_zero _ k hk, velHat_zero]
    · simp only [forward_const (unitGrid n) hg _ k hk, velHat]
      split_ifs
      · apply Complex.ext <;> simp
      · rfl
  rw [fluctuation]
  simp only [hv]
  simp [EvpGrid.backward]

/-- **C96.** Steps with the same gradient at all points move the grid affinely. -/
theorem C96_uniform (n : Fin 3 → ℕ) (hn : ∀ a, 0 < n a) (delt : Fin 3 → ℝ) (i : Fin 3 → ℕ)
    (h : ∀ a, 1 ≤ i a ∧ i a ≤ n a + 1) (steps : List (ℝ × T2 ℝ)) :
    nodeRun (unitGrid n) delt 0 i (steps.map fun s => (s.1, fun _ => s.2)) = some fun ii =>
      ∑ jj, ((if ii = jj then delt ii else 0) + (steps.map fun s => s.1 * s.2 ii jj).sum) *
        ((i jj : ℝ) - 1 / 2) := by
  have hp : (unitGrid n).Pos := hn
  rw [C96_position (unitGrid n) hp delt 0 i (fun a => h a)]
  congr 1
  funext ii
  have hne : Nonempty (unitGrid n).Ix := ⟨fun a => ⟨0, hn a⟩⟩
  have hd : nodeDrift (unitGrid n) hp (steps.map fun s => (s.1, fun _ => s.2))
      (fun a => (i a : ℤ) + ((0 : Fin 3 → ℕ) a : ℤ)) ii = 0 := by
    rw [nodeDrift, List.map_map]
    apply List.sum_eq_zero
    intro y hy
    obtain ⟨s, _, rfl⟩ := List.mem_map.mp hy
    simp [fluctuation_const n hn, nodeMean]
  have hav : ∀ A : T2 ℝ, refAvg (g := unitGrid n) (fun _ => A) = A := by
    intro A
    funext a b
    simp only [refAvg]
    rw [← Finset.mul_sum, sum_wgt, mul_one]
  rw [hd, add_zero]
  simp only [nodeGrad, List.map_map, Function.comp_def, hav]

/-! ### Output -/

/-- Mean over the eight nodes with these wrapped indices. -/
noncomputable def outMean (n : Fin 3 → ℕ) (d : (Fin 3 → ℕ) → ℝ) (k : Fin 3 → ℕ) : ℝ :=
  (∑ x : Fin 2, ∑ y : Fin 2, ∑ z : Fin 2, d ![if x = 0 then (besideOut (n 0) (k 0)).1 else (besideOut (n 0) (k 0)).2,
    if y = 0 then (besideOut (n 1) (k 1)).1 else (besideOut (n 1) (k 1)).2,
    if z = 0 then (besideOut (n 2) (k 2)).1 else (besideOut (n 2) (k 2)).2]) / 8

theorem besideOut_range (n k : ℕ) (hn : 0 < n) (h : 1 ≤ k ∧ k ≤ n + 1) (x : Fin 2) :
    1 ≤ (if x = 0 then (besideOut n k).1 else (besideOut n k).2) ∧
      (if x = 0 then (besideOut n k).1 else (besideOut n k).2) ≤ n := by
  rw [besideOut]
  match x with
  | 0 => rw [if_pos rfl]; split_ifs <;> dsimp <;> omega
  | 1 => rw [if_neg one_ne_zero]; split_ifs <;> dsimp <;> omega

/-- Mean index of the two neighbours of an output point. -/
noncomputable def midIndex (n k : ℕ) : ℝ := (((besideOut n k).1 : ℝ) + ((besideOut n k).2 : ℝ)) / 2

theorem outPoint_eq (n : Fin 3 → ℕ) (hn : ∀ a, 0 < n a) (delt : Fin 3 → ℝ) (favg : T2 ℝ)
    (xnode : (Fin 3 → ℕ) → Fin 3 → ℝ) (k : Fin 3 → ℕ) (h : ∀ a, 1 ≤ k a ∧ k a ≤ n a + 1) :
    outPoint n delt favg xnode k = some fun ii =>
      (∑ jj, favg ii jj * ((k jj : ℝ) - 1 / 2) + outMean n (fun p => outFluct favg xnode p ii) k) * delt 2 := by
  rw [outPoint, eighth_eight (readFluct n (outFluct favg xnode)) _ (fun x y z => outFluct favg xnode
    ![if x = 0 then (besideOut (n 0) (k 0)).1 else (besideOut (n 0) (k 0)).2,
      if y = 0 then (besideOut (n 1) (k 1)).1 else (besideOut (n 1) (k 1)).2,
      if z = 0 then (besideOut (n 2) (k 2)).1 else (besideOut (n 2) (k 2)).2])]
  · rw [Option.map_some]
    congr 1
    funext ii
    rw [outMean]
    norm_num
  · intro x y z
    rw [readFluct, if_pos]
    intro a
    match a with
    | 0 => exact besideOut_range _ _ (hn 0) (h 0) x
    | 1 => exact besideOut_range _ _ (hn 1) (h 1) y
    | 2 => exact besideOut_range _ _ (hn 2) (h 2) z

theorem outMean_affine (n : Fin 3 → ℕ) (G F : T2 ℝ) (d : (Fin 3 → ℕ) → Fin 3 → ℝ) (k : Fin 3 → ℕ) (ii : Fin 3) :
    outMean n (fun p => outFluct F (fun p ii => ∑ jj, G ii jj * ((p jj : ℝ) - 1 / 2) + d p ii) p ii) k =
      ∑ jj, (G ii jj * (midIndex (n jj) (k jj) - 1 / 2) - F ii jj * midIndex (n jj) (k jj)) +
        outMean n (fun p => d p ii) k := by
  simp only [outMean, outFluct, midIndex, Fin.sum_univ_two, Fin.sum_univ_three, if_true, one_ne_zero, if_false,
    Matrix.cons_val_zero, Matrix.cons_val_one, Matrix.cons_val]
  ring

/-- **C96.** A point is written for every node, no point outside the grid being read.  With the average
gradient `G` the nodes follow, the points written are the nodes moved by half a cell, their fluctuations
averaged once more, times the third spacing. -/
theorem C96_output (n : Fin 3 → ℕ) (hn : ∀ a, 0 < n a) (delt : Fin 3 → ℝ) (G : T2 ℝ)
    (d : (Fin 3 → ℕ) → Fin 3 → ℝ) (k : Fin 3 → ℕ) (h : ∀ a, 1 ≤ k a ∧ k a ≤ n a + 1) :
    outPoint n delt G (fun p ii => ∑ jj, G ii jj * ((p jj : ℝ) - 1 / 2) + d p ii) k = some fun ii =>
      (∑ jj, G ii jj * ((k jj : ℝ) - 1) + outMean n (fun p => d p ii) k) * delt 2 := by
  rw [outPoint_eq n hn delt G _ k h]
  congr 1
  funext ii
  rw [outMean_affine]
  simp only [Fin.sum_univ_three]
  ring

/-- **C96 does not hold for the points written when the spacing is not one.**  The average gradient
already contains the spacing and is multiplied by the third spacing again: before the first step the cells
written have the edges `delt i * delt 3` instead of `delt i`. -/
theorem C96_output_spacing_fails (n : Fin 3 → ℕ) (hn : ∀ a, 0 < n a) (delt : Fin 3 → ℝ) (k : Fin 3 → ℕ)
    (h : ∀ a, 1 ≤ k a ∧ k a ≤ n a + 1) :
    outPoint n delt (deltM delt) (nodeStart delt) k = some (fun ii => delt ii * delt 2 * ((k ii : ℝ) - 1)) ∧
      ∀ ii, nodeStart delt k ii = delt ii * ((k ii : ℝ) - 1 / 2) := by
  have hs : ∀ p : Fin 3 → ℕ, ∀ ii, nodeStart delt p ii = ∑ jj, deltM delt ii jj * ((p jj : ℝ) - 1 / 2) + 0 := by
    intro p ii
    simp only [nodeStart, nodeRef]
    norm_num
  have hs' : nodeStart delt = fun p ii => ∑ jj, deltM delt ii jj * ((p jj : ℝ) - 1 / 2) +
      (fun _ _ => 0 : (Fin 3 → ℕ) → Fin 3 → ℝ) p ii := by
    funext p ii; exact hs p ii
  refine ⟨?_, fun ii => ?_⟩
  · rw [hs']
    have e := C96_output n hn delt (deltM delt) (fun _ _ => 0) k h
    refine Eq.trans e ?_
    congr 1
    funext ii
    simp [outMean, deltM, Matrix.diagonal_apply]
    ring
  · rw [hs]
    simp [deltM, Matrix.diagonal_apply]

/-- Stretching along the first axis. -/
def stretchX (l : ℝ) : M3 := Matrix.diagonal fun i => if i = 0 then l else 0

/-- A point with a given velocity gradient, before the first step. -/
noncomputable def startWith (ι : Type) [Fintype ι] (L : M3) : Point :=
  { Point.start ι (fun _ => 1) false with L := L }

theorem stretch_avg (n : Fin 3 → ℕ) (hn : ∀ a, 0 < n a) (t l w : ℝ) (i j : Fin 3) :
    defgradAvg (fun _ : (unitGrid n).Ix => (startWith (unitGrid n).Ix (stretchX l)).advance w t) i j =
      if i = j then (if i = 0 then 1 + t * l + (t * l) ^ 2 / 2 + (t * l) ^ 3 / 6 else 1) else 0 := by
  have hne : Nonempty (unitGrid n).Ix := ⟨fun a => ⟨0, hn a⟩⟩
  have e : (((startWith (unitGrid n).Ix (stretchX l)).advance w t).F : M3) =
      matrixExp (t • stretchX l) * deltM (fun _ => 1) := rfl
  simp only [defgradAvg, Matrix.of_apply]
  rw [← Finset.mul_sum, sum_wgt, mul_one, e]
  have h1 : deltM (fun _ => (1 : ℝ)) = 1 := Matrix.diagonal_one
  rw [h1, Matrix.mul_one]
  simp only [matrixExp, Matrix.of_apply, stretchX]
  rw [show (t • Matrix.diagonal fun i : Fin 3 => if i = 0 then l else 0) =
    Matrix.diagonal fun i : Fin 3 => if i = 0 then t * l else 0 by
      rw [← Matrix.diagonal_smul]
      congr 1
      funext a
      by_cases ha : a = 0 <;> simp [ha]]
  simp only [Matrix.diagonal_mul_diagonal, Matrix.diagonal_apply]
  by_cases hij : i = j
  · subst hij
    by_cases h0 : i = 0
    · simp [h0]; ring
    · simp [h0]
  · simp [hij]

/-- **C96 does not hold for the points written after a step of finite size.**  The nodes follow the sum of
the increments of the average gradient, the average gradient used for the output the product of their
exponentials; the difference is not periodic and is averaged across the boundary of the grid.  After one
step of uniform stretching, which deforms all cells alike, the first cell written is longer than the
second, by an amount that grows with the number of points. -/
theorem C96_output_stretch_fails (n : Fin 3 → ℕ) (hn : ∀ a, 0 < n a) (h3 : 3 ≤ n 0) (t l w : ℝ) :
    ∃ (X : (Fin 3 → ℕ) → Fin 3 → ℝ) (p : Fin 3 → Fin 3 → ℝ),
      (∀ i, (∀ a, 1 ≤ i a ∧ i a ≤ n a + 1) →
        nodeRun (unitGrid n) (fun _ => 1) 0 i [(t, fun _ => stretchX l)] = some (X i)) ∧
      (∀ i, (∀ a, 1 ≤ i a ∧ i a ≤ n a) → X (Function.update i 0 (i 0 + 1)) 0 - X i 0 = 1 + t * l) ∧
      (∀ c : Fin 3, outPoint n (fun _ => 1)
        (defgradAvg fun _ : (unitGrid n).Ix => (startWith (unitGrid n).Ix (stretchX l)).advance w t) X
        ![c + 1, 1, 1] = some (p c)) ∧
      p 1 0 - p 0 0 = 1 + t * l + n 0 / 2 * ((t * l) ^ 2 / 2 + (t * l) ^ 3 / 6) ∧
      p 2 0 - p 1 0 = 1 + t * l := by
  obtain ⟨G, hG⟩ : ∃ G : T2 ℝ, G = fun ii jj => (if ii = jj then 1 else 0) + (0 + t * stretchX l ii jj) := ⟨_, rfl⟩
  obtain ⟨X, hX⟩ : ∃ X : (Fin 3 → ℕ) → Fin 3 → ℝ, X = fun p ii => ∑ jj, G ii jj * ((p jj : ℝ) - 1 / 2) +
    (fun _ _ => 0 : (Fin 3 → ℕ) → Fin 3 → ℝ) p ii := ⟨_, rfl⟩
  obtain ⟨F, hF⟩ : ∃ F : T2 ℝ, F = fun i j => defgradAvg (fun _ : (unitGrid n).Ix =>
    (startWith (unitGrid n).Ix (stretchX l)).advance w t) i j := ⟨_, rfl⟩
  have hr : ∀ c : Fin 3, ∀ a, 1 ≤ (![(c : ℕ) + 1, 1, 1] : Fin 3 → ℕ) a ∧ (![(c : ℕ) + 1, 1, 1] : Fin 3 → ℕ) a ≤ n a + 1 := by
    intro c a
    match a with
    | 0 =>
      have := c.isLt
      show 1 ≤ (c : ℕ) + 1 ∧ (c : ℕ) + 1 ≤ n 0 + 1
      omega
    | 1 => exact ⟨le_rfl, by simp⟩
    | 2 => exact ⟨le_rfl, by simp⟩
  have hout := fun c => outPoint_eq n hn (fun _ => 1) F X ![(c : Fin 3) + 1, 1, 1] (hr c)
  have hG0 : ∀ jj, G 0 jj = if jj = 0 then 1 + t * l else 0 := by
    intro jj
    rw [hG]
    match jj with
    | 0 => simp [stretchX]
    | 1 => simp [stretchX]
    | 2 => simp [stretchX]
  have hF0 : ∀ jj, F 0 jj = if jj = 0 then 1 + t * l + (t * l) ^ 2 / 2 + (t * l) ^ 3 / 6 else 0 := by
    intro jj
    rw [hF]
    show defgradAvg _ 0 jj = _
    rw [stretch_avg n hn]
    match jj with
    | 0 => simp
    | 1 => simp
    | 2 => simp
  have hval : ∀ k, (∑ jj, F 0 jj * ((k jj : ℝ) - 1 / 2) + outMean n (fun p => outFluct F X p 0) k) * 1 =
      F 0 0 * ((k 0 : ℝ) - 1 / 2) + (G 0 0 * (midIndex (n 0) (k 0) - 1 / 2) - F 0 0 * midIndex (n 0) (k 0)) := by
    intro k
    have hz : outMean n (fun _ => (0 : ℝ)) k = 0 := by simp [outMean]
    rw [hX, outMean_affine, hz]
    simp [hG0, hF0, Fin.sum_univ_three]
  have m1 : midIndex (n 0) 1 = (1 + n 0) / 2 := by simp [midIndex, besideOut]
  have m2 : midIndex (n 0) 2 = 3 / 2 := by
    rw [midIndex, besideOut, if_neg (by omega), if_neg (by omega)]
    norm_num
  have m3 : midIndex (n 0) 3 = 5 / 2 := by
    rw [midIndex, besideOut, if_neg (by omega), if_neg (by omega)]
    norm_num
  refine ⟨X, fun c ii => (∑ jj, F ii jj * (((![(c : ℕ) + 1, 1, 1] : Fin 3 → ℕ) jj : ℝ) - 1 / 2) +
    outMean n (fun p => outFluct F X p ii) ![(c : ℕ) + 1, 1, 1]) * 1, fun i hi => ?_, fun i hi => ?_,
    fun c => ?_, ?_, ?_⟩
  · have := C96_uniform n hn (fun _ => 1) i hi [(t, fun a b => stretchX l a b)]
    rw [hX, hG]
    simpa using this
  · rw [hX]
    simp [hG0, Fin.sum_univ_three]
    ring
  · have := hout c
    rw [hF] at this ⊢
    exact this
  · dsimp only
    rw [hval, hval]
    simp only [hG0, hF0, if_true]
    simp [m1, m2]
    ring
  · dsimp only
    rw [hval, hval]
    simp only [hG0, hF0, if_true]
    simp [m2, m3]
    ring

/-! ### The hypotheses are met -/

/-- A step that moves a 2 × 1 × 1 grid. -/
example : ∃ x, nodeRun (unitGrid ![2, 1, 1]) (fun _ => 1) 0 ![3, 1, 2] [(1 / 2, fun _ => stretchX 1)] = some x := by
  have hn : ∀ a, 0 < (![2, 1, 1] : Fin 3 → ℕ) a := by decide
  exact ⟨_, C96_position (unitGrid ![2, 1, 1]) hn _ _ _ (by decide) _⟩

/-- A frequency and a velocity field with zero mean. -/
example : (![0, 1, 2] : Fin 3 → ℝ) ≠ 0 := fun h => by
  have := congrFun h 1
  simp at this

example : ∃ u : (unitGrid ![3, 1, 1]).Ix → Fin 3 → ℝ, u ≠ 0 ∧ (∀ i, ∑ x, u x i = 0) ∧
    ∀ k : (unitGrid ![3, 1, 1]).Ix, (∃ a, 2 * (k a : ℕ) = (![3, 1, 1] : Fin 3 → ℕ) a) → ∀ i,
      (unitGrid ![3, 1, 1]).forward (fun x => u x i) k = 0 := by
  obtain ⟨e, he⟩ : ∃ e : Equiv.Perm (unitGrid ![3, 1, 1]).Ix, ∃ x, e x ≠ x :=
    ⟨Equiv.swap (fun a => ⟨0, by fin_cases a <;> simp [unitGrid]⟩)
      (fun a => ⟨if a = 0 then 1 else 0, by fin_cases a <;> simp [unitGrid]⟩),
      fun a => ⟨0, by fin_cases a <;> simp [unitGrid]⟩, by
        rw [Equiv.swap_apply_left]
        intro h
        have := congrArg Fin.val (congrFun h 0)
        simp at this⟩
  obtain ⟨x, hx⟩ := he
  refine ⟨fun y _ => (if y = x then 1 else 0) - (if y = e x then 1 else 0), fun h => ?_, fun i => ?_, ?_⟩
  · have := congrFun (congrFun h x) 0
    simp [Ne.symm hx] at this
  · simp
  · rintro k ⟨a, ha⟩
    exfalso
    match a with
    | 0 =>
      change 2 * (k 0 : ℕ) = 3 at ha
      omega
    | 1 =>
      change 2 * (k 1 : ℕ) = 1 at ha
      omega
    | 2 =>
      change 2 * (k 2 : ℕ) = 1 at ha
      omega

end Fierro
