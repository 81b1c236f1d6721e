import Verif.Model.ContactForce
import Verif.Props.ContactPatch
import Verif.Props.Sgh
import Mathlib.Tactic.Linarith
import Mathlib.Tactic.LinearCombination
import Mathlib.Tactic.FieldSimp
import Mathlib.Algebra.BigOperators.Field
import Mathlib.Algebra.BigOperators.Ring.Finset

/-!
# C81: contact forces
# C83: the force increment of one pair
-/

namespace Fierro
open Contact

/-! ### Specification -/

/-- Part of the force of a pair that node `a` receives: all of it on the penetrating node, minus the
shape function of the contact point on each node of the patch. -/
def share {K : Type} [Field K] {M : ℕ} (p : Pair K M) (a : Fin M) : K :=
  (if a = p.slave then 1 else 0) - ∑ k, if a = p.nodes k then phi p.xi p.eta k else 0

namespace Contact
section
variable {K : Type} [Field K] {M : ℕ}

theorem addForce_apply (F : Forces K M) (b : Fin M) (v : Fin 3 → K) (a : Fin M) (d : Fin 3) :
    addForce F b v a d = F a d + if a = b then v d else 0 := by
  unfold addForce
  by_cases h : a = b
  · subst h; rw [Function.update_self, if_pos rfl]
  · rw [Function.update_of_ne h, if_neg h, add_zero]

theorem applyForce_apply (p : Pair K M) (v : K) (F : Forces K M) (a : Fin M) (d : Fin 3) :
    applyForce p v F a d = F a d + v * p.normal d * share p a := by
  have h : (List.finRange 4) = [0, 1, 2, 3] := rfl
  unfold applyForce share
  rw [h]
  simp only [List.foldl_cons, List.foldl_nil, addForce_apply, Fin.sum_univ_four]
  have hi : ∀ (c : Prop) [Decidable c] (y : K), (if c then y else 0) = y * if c then 1 else 0 := by
    intro c _ y; split_ifs <;> ring
  rw [hi (a = p.slave) (v * p.normal d), hi (a = p.nodes 0) (-v * _ * _), hi (a = p.nodes 1) (-v * _ * _),
    hi (a = p.nodes 2) (-v * _ * _), hi (a = p.nodes 3) (-v * _ * _), hi (a = p.nodes 0) (phi _ _ _),
    hi (a = p.nodes 1) (phi _ _ _), hi (a = p.nodes 2) (phi _ _ _), hi (a = p.nodes 3) (phi _ _ _)]
  ring

theorem distribute_forces [LinearOrder K] (p : Pair K M) (F : Forces K M) :
    ∃ v, (distribute p F).2 = applyForce p v F ∧ (distribute p F).1.total = p.total + v := by
  simp only [distribute]
  split_ifs with h
  · exact ⟨-p.total, rfl, by simp⟩
  · exact ⟨_, rfl, rfl⟩

end
end Contact

section props
variable {K : Type} [Field K] [CharZero K] {M : ℕ}

/-- C81: the shares of a pair add up to zero: what the node gains the patch loses. -/
theorem C81_action_reaction (p : Pair K M) : ∑ a, share p a = 0 := by
  unfold share
  rw [Finset.sum_sub_distrib, Finset.sum_comm]
  simp only [Finset.sum_ite_eq', Finset.mem_univ, if_true]
  rw [C76_weights_sum, sub_self]

/-- C81: the total contact force is unchanged by the distribution of any list of pairs. -/
theorem C81_distribute_total [LinearOrder K] (ps : List (Pair K M)) (F : Forces K M) (d : Fin 3) :
    ∑ a, (distributeAll ps F).2 a d = ∑ a, F a d := by
  induction ps generalizing F with
  | nil => rfl
  | cons p ps ih =>
    simp only [distributeAll]
    rw [ih]
    obtain ⟨v, hv, -⟩ := distribute_forces p F
    rw [hv]
    simp only [applyForce_apply, Finset.sum_add_distrib]
    rw [← Finset.mul_sum, C81_action_reaction, mul_zero, add_zero]

/-- C81: starting from zero, the contact forces of all nodes add up to zero at the end of the
resolution, whatever the increments and however the loop ends. -/
theorem C81_total_zero [LinearOrder K] (incr : Forces K M → Pair K M → Pair K M) (maxIter : ℕ)
    (ps : List (Pair K M)) (d : Fin 3) :
    ∑ a, (resolve incr maxIter ps fun _ _ => 0).forces a d = 0 := by
  have key : ∀ n ps (F : Forces K M), ∑ a, (resolve incr n ps F).forces a d = ∑ a, F a d := by
    intro n
    induction n with
    | zero => intro ps F; rfl
    | succ n ih =>
      intro ps F
      simp only [resolve]
      split_ifs
      · exact C81_distribute_total _ _ _
      · rw [ih]; exact C81_distribute_total _ _ _
  rw [key]; simp

/-- C81: the force a pair exerts has the moment of the vector from the contact point on the patch to
the node: `v (x - P) × n`. -/
theorem C81_moment (p : Pair K M) (v : K) (F : Forces K M) (x : Fin M → Fin 3 → K) (d : Fin 3) :
    ∑ a, cross (x a) (fun i => applyForce p v F a i - F a i) d
      = v * cross (fun i => x p.slave i
          - refToPhysical (fun i k => x (p.nodes k) i) p.xi p.eta i) p.normal d := by
  have hF : ∀ a i, applyForce p v F a i - F a i = v * p.normal i * share p a := by
    intro a i; rw [applyForce_apply]; ring
  have hlin : ∀ i, ∑ a, x a i * share p a = x p.slave i
      - refToPhysical (fun i k => x (p.nodes k) i) p.xi p.eta i := by
    intro i
    unfold share refToPhysical
    simp only [mul_sub, Finset.sum_sub_distrib, Finset.mul_sum]
    rw [Finset.sum_comm (s := (Finset.univ : Finset (Fin M))) (t := (Finset.univ : Finset (Fin 4)))]
    simp only [mul_ite, mul_zero, mul_one, Finset.sum_ite_eq', Finset.mem_univ, if_true]
  simp only [hF]
  match d with
  | 0 =>
    simp only [cross_zero]
    rw [← hlin 1, ← hlin 2, Finset.sum_mul, Finset.sum_mul, ← Finset.sum_sub_distrib, Finset.mul_sum]
    exact Finset.sum_congr rfl fun a _ => by ring
  | 1 =>
    simp only [cross_one]
    rw [← hlin 2, ← hlin 0, Finset.sum_mul, Finset.sum_mul, ← Finset.sum_sub_distrib, Finset.mul_sum]
    exact Finset.sum_congr rfl fun a _ => by ring
  | 2 =>
    simp only [cross_two]
    rw [← hlin 0, ← hlin 1, Finset.sum_mul, Finset.sum_mul, ← Finset.sum_sub_distrib, Finset.mul_sum]
    exact Finset.sum_congr rfl fun a _ => by ring

/-- C81: so no moment is created when the contact point is the foot of the perpendicular from the
node. -/
theorem C81_no_moment (p : Pair K M) (v : K) (F : Forces K M) (x : Fin M → Fin 3 → K) (c : K)
    (h : ∀ i, x p.slave i - refToPhysical (fun i k => x (p.nodes k) i) p.xi p.eta i = c * p.normal i)
    (d : Fin 3) :
    ∑ a, cross (x a) (fun i => applyForce p v F a i - F a i) d = 0 := by
  rw [C81_moment]
  simp only [h]
  match d with
  | 0 => simp only [cross_zero]; ring
  | 1 => simp only [cross_one]; ring
  | 2 => simp only [cross_two]; ring

end props

section ordered
variable {K : Type} [Field K] [LinearOrder K] [IsStrictOrderedRing K] {M : ℕ}

namespace Contact
theorem distribute_total_nonneg (p : Pair K M) (F : Forces K M) : 0 ≤ (distribute p F).1.total := by
  simp only [distribute]
  split_ifs with h
  · exact le_refl _
  · push Not at h
    change 0 ≤ p.total + 1 / 5 * p.inc
    linarith [h.1]

theorem distribute_edge (p : Pair K M) (F : Forces K M) :
    (distribute p F).1.total = 0 ∨
      |(distribute p F).1.xi| ≤ 101 / 100 ∧ |(distribute p F).1.eta| ≤ 101 / 100 := by
  simp only [distribute]
  split_ifs with h
  · left; rfl
  · push Not at h
    right; exact h.2

theorem distributeAll_forall (P : Pair K M → Prop) (h : ∀ p F, P (distribute p F).1)
    (ps : List (Pair K M)) (F : Forces K M) : ∀ q ∈ (distributeAll ps F).1, P q := by
  induction ps generalizing F with
  | nil => intro q hq; simp [distributeAll] at hq
  | cons p ps ih =>
    intro q hq
    simp only [distributeAll, List.mem_cons] at hq
    rcases hq with rfl | hq
    · exact h _ _
    · exact ih _ q hq

theorem resolve_forall (P : Pair K M → Prop) (h : ∀ p F, P (distribute p F).1)
    (incr : Forces K M → Pair K M → Pair K M) (n : ℕ) (ps : List (Pair K M)) (F : Forces K M)
    (h0 : ∀ q ∈ ps, P q) : ∀ q ∈ (resolve incr n ps F).pairs, P q := by
  induction n generalizing ps F with
  | zero => exact h0
  | succ n ih =>
    simp only [resolve]
    split_ifs
    · exact distributeAll_forall P h _ _
    · exact ih _ _ (distributeAll_forall P h _ _)
end Contact

/-- C81: contact never pulls: at the end of the resolution the accumulated force of every pair is
not negative, whatever the increments. -/
theorem C81_no_tension (incr : Forces K M → Pair K M → Pair K M) (n : ℕ) (ps : List (Pair K M))
    (F : Forces K M) (h0 : ∀ q ∈ ps, q.total = 0) :
    ∀ q ∈ (resolve incr n ps F).pairs, 0 ≤ q.total :=
  resolve_forall _ distribute_total_nonneg incr n ps F fun q hq => (h0 q hq).ge

/-- C81: a pair whose contact point has left the patch by more than one percent ends with no
accumulated force. -/
theorem C81_edge (incr : Forces K M → Pair K M → Pair K M) (n : ℕ) (ps : List (Pair K M))
    (F : Forces K M) (h0 : ∀ q ∈ ps, q.total = 0) :
    ∀ q ∈ (resolve incr n ps F).pairs, q.total ≠ 0 →
      |q.xi| ≤ 101 / 100 ∧ |q.eta| ≤ 101 / 100 := by
  intro q hq hne
  exact (resolve_forall (fun q => q.total = 0 ∨ |q.xi| ≤ 101 / 100 ∧ |q.eta| ≤ 101 / 100)
    distribute_edge incr n ps F (fun q hq => Or.inl (h0 q hq)) q hq).resolve_left hne

/-- C81: when the loop ends early, the increments applied last are below the tolerance. -/
theorem C81_converged (incr : Forces K M → Pair K M → Pair K M) (n : ℕ) (ps : List (Pair K M))
    (F : Forces K M) (hc : (resolve incr n ps F).converged = true) :
    ∀ q ∈ (resolve incr n ps F).pairs, |1 / 5 * q.inc| ≤ 1 / 10 ^ 8 := by
  have key : ∀ n ps (F : Forces K M), (resolve incr n ps F).converged = true →
      incNorm (resolve incr n ps F).pairs ≤ (1 / 10 ^ 8) ^ 2 := by
    intro n
    induction n with
    | zero => intro ps F h; simp [resolve] at h
    | succ n ih =>
      intro ps F h
      simp only [resolve] at h ⊢
      split_ifs at h ⊢ with hle
      · exact hle
      · exact ih _ _ h
  have h1 := key n ps F hc
  intro q hq
  have h2 : (1 / 5 * q.inc) * (1 / 5 * q.inc) ≤ incNorm (resolve incr n ps F).pairs := by
    unfold incNorm
    rw [← List.sum_eq_foldl]
    apply List.single_le_sum
    · intro a ha
      obtain ⟨r, -, rfl⟩ := List.mem_map.mp ha
      exact mul_self_nonneg _
    · exact List.mem_map.mpr ⟨q, hq, rfl⟩
  apply abs_le_of_sq_le_sq _ (by positivity)
  rw [pow_two]
  linarith

/-- C81: superposition: as long as the increments leave normals and contact points unchanged, the
force on every node is the sum of the accumulated forces of the pairs, each times its normal and
the share of the node. -/
theorem C81_superposition (incr : Forces K M → Pair K M → Pair K M)
    (hincr : ∀ F p, ∃ f, incr F p = { p with inc := f }) (n : ℕ) (ps : List (Pair K M))
    (h0 : ∀ q ∈ ps, q.total = 0) (a : Fin M) (d : Fin 3) :
    (resolve incr n ps fun _ _ => 0).forces a d
      = ((resolve incr n ps fun _ _ => 0).pairs.map fun q => q.total * q.normal d * share q a).sum := by
  have hd : ∀ (ps : List (Pair K M)) (F : Forces K M),
      (distributeAll ps F).2 a d - ((distributeAll ps F).1.map fun q => q.total * q.normal d * share q a).sum
        = F a d - (ps.map fun q => q.total * q.normal d * share q a).sum := by
    intro ps
    induction ps with
    | nil => intro F; rfl
    | cons p ps ih =>
      intro F
      simp only [distributeAll, List.map_cons, List.sum_cons]
      have h1 := ih (distribute p F).2
      have h2 : (distribute p F).2 a d
          - (distribute p F).1.total * (distribute p F).1.normal d * share (distribute p F).1 a
          = F a d - p.total * p.normal d * share p a := by
        simp only [distribute]
        split_ifs with h
        · simp only [applyForce_apply]
          change F a d + -p.total * p.normal d * share p a - 0 * p.normal d * share p a = _
          ring
        · simp only [applyForce_apply]
          change F a d + 1 / 5 * p.inc * p.normal d * share p a
            - (p.total + 1 / 5 * p.inc) * p.normal d * share p a = _
          ring
      linarith
  have hm : ∀ (F : Forces K M) (ps : List (Pair K M)),
      ((ps.map (incr F)).map fun q => q.total * q.normal d * share q a)
        = ps.map fun q => q.total * q.normal d * share q a := by
    intro F ps
    rw [List.map_map]
    apply List.map_congr_left
    intro q _
    obtain ⟨f, hf⟩ := hincr F q
    simp only [Function.comp_apply, hf]
    rfl
  have key : ∀ n (ps : List (Pair K M)) (F : Forces K M),
      (resolve incr n ps F).forces a d
        - ((resolve incr n ps F).pairs.map fun q => q.total * q.normal d * share q a).sum
        = F a d - (ps.map fun q => q.total * q.normal d * share q a).sum := by
    intro n
    induction n with
    | zero => intro ps F; rfl
    | succ n ih =>
      intro ps F
      have hs := hd (ps.map (incr F)) F
      rw [hm] at hs
      simp only [resolve]
      split_ifs
      · exact hs
      · rw [ih]; exact hs
  have h1 := key n ps fun _ _ => 0
  have h2 : (ps.map fun q => q.total * q.normal d * share q a).sum = 0 := by
    apply List.sum_eq_zero
    intro y hy
    obtain ⟨q, hq, rfl⟩ := List.mem_map.mp hy
    rw [h0 q hq, zero_mul, zero_mul]
  rw [h2, sub_zero] at h1
  linarith

/-- C81: speed of the resolution: only a fifth of each increment is applied, so when a pair needs the
force `need` and the increment is computed exactly, `(4/5)^n` of it is missing after `n` passes. -/
theorem C81_relaxation (need : K) (hneed : 0 ≤ need) (p : Pair K M) (hx : |p.xi| ≤ 1)
    (he : |p.eta| ≤ 1) (h0 : p.total = 0) (F : Forces K M) (n : ℕ) :
    ∃ f, ((fun r : List (Pair K M) × Forces K M =>
        resolveStep (fun _ q => { q with inc := need - q.total }) r.1 r.2)^[n] ([p], F)).1
      = [{ p with total := (1 - (4 / 5) ^ n) * need, inc := f }] := by
  have h45 : (0 : K) ≤ 4 / 5 := by norm_num
  induction n with
  | zero =>
    refine ⟨p.inc, ?_⟩
    simp only [Function.iterate_zero, id_eq, pow_zero, sub_self, zero_mul]
    rw [← h0]
  | succ n ih =>
    obtain ⟨f, hf⟩ := ih
    rw [Function.iterate_succ_apply']
    obtain ⟨r, hr⟩ : ∃ r, r = (fun r : List (Pair K M) × Forces K M =>
        resolveStep (fun _ q => { q with inc := need - q.total }) r.1 r.2)^[n] ([p], F) := ⟨_, rfl⟩
    rw [← hr] at hf ⊢
    simp only [resolveStep, hf, List.map_cons, List.map_nil, distributeAll, distribute]
    have hpow : (0 : K) ≤ (4 / 5) ^ n := pow_nonneg h45 n
    have hpow1 : (4 / 5 : K) ^ n ≤ 1 := pow_le_one₀ h45 (by norm_num)
    rw [if_neg]
    · refine ⟨need - (1 - (4 / 5) ^ n) * need, ?_⟩
      congr 2
      rw [pow_succ]; ring
    · push Not
      refine ⟨?_, by linarith, by linarith⟩
      have : (1 / 5 : K) * (need - (1 - (4 / 5) ^ n) * need) + (1 - (4 / 5) ^ n) * need
          = (1 - (4 / 5) * (4 / 5) ^ n) * need := by ring
      rw [this]
      apply mul_nonneg _ hneed
      nlinarith

end ordered

/-! ### Momentum -/

section momentum
variable {K : Type} [Field K] [LinearOrder K] [IsStrictOrderedRing K] {M E N : ℕ}

namespace Contact
theorem scatter_apply (bdy : Fin M → Fin N) (hb : Function.Injective bdy) (F : Forces K M)
    (n : Fin N) :
    scatter bdy F n = if h : ∃ i, bdy i = n then F h.choose else fun _ => 0 := by
  have key : ∀ (l : List (Fin M)) (G : Fin N → Fin 3 → K),
      l.foldl (fun G i => Function.update G (bdy i) (F i)) G n
        = if h : ∃ i ∈ l, bdy i = n then F h.choose else G n := by
    intro l
    induction l with
    | nil => intro G; simp
    | cons b l ih =>
      intro G
      rw [List.foldl_cons, ih]
      by_cases h1 : ∃ i ∈ l, bdy i = n
      · have h2 : ∃ i ∈ b :: l, bdy i = n := by
          obtain ⟨i, hi, he⟩ := h1; exact ⟨i, List.mem_cons_of_mem _ hi, he⟩
        rw [dif_pos h1, dif_pos h2]
        congr 1
        exact hb (h1.choose_spec.2.trans h2.choose_spec.2.symm)
      · rw [dif_neg h1]
        by_cases hbn : bdy b = n
        · have h2 : ∃ i ∈ b :: l, bdy i = n := ⟨b, List.mem_cons_self, hbn⟩
          rw [dif_pos h2, ← hb (hbn.trans h2.choose_spec.2.symm)]
          subst hbn
          rw [Function.update_self]
        · have h2 : ¬ ∃ i ∈ b :: l, bdy i = n := by
            rintro ⟨i, hi, he⟩
            rcases List.mem_cons.mp hi with rfl | hi
            · exact hbn he
            · exact h1 ⟨i, hi, he⟩
          rw [dif_neg h2, Function.update_of_ne (Ne.symm hbn)]
  unfold scatter
  rw [key]
  by_cases h : ∃ i, bdy i = n
  · have h2 : ∃ i ∈ List.finRange M, bdy i = n := by
      obtain ⟨i, hi⟩ := h; exact ⟨i, List.mem_finRange i, hi⟩
    rw [dif_pos h, dif_pos h2]
    congr 1
    exact hb (h2.choose_spec.2.trans h.choose_spec.symm)
  · have h2 : ¬ ∃ i ∈ List.finRange M, bdy i = n := by
      rintro ⟨i, -, hi⟩; exact h ⟨i, hi⟩
    rw [dif_neg h, dif_neg h2]
end Contact

/-- C81: every boundary node gets its contact force, all other nodes get none. -/
theorem C81_copied (bdy : Fin M → Fin N) (hb : Function.Injective bdy) (F : Forces K M) :
    (∀ i, scatter bdy F (bdy i) = F i) ∧ ∀ n, (∀ i, bdy i ≠ n) → scatter bdy F n = fun _ => 0 := by
  constructor
  · intro i
    have h : ∃ j, bdy j = bdy i := ⟨i, rfl⟩
    rw [scatter_apply bdy hb, dif_pos h]
    congr 1
    exact hb h.choose_spec
  · intro n hn
    rw [scatter_apply bdy hb, dif_neg]
    rintro ⟨i, hi⟩
    exact hn i hi

/-- C81: contact conserves momentum: with contact forces added to the external nodal forces, a
Runge-Kutta stage changes the momentum of the mesh by the impulse of the external forces alone,
whatever the pairs and increments. -/
theorem C81_stage_momentum (env : SghEnv K E N) (hWF : env.mesh.WF) (hm : ∀ n, env.mass n ≠ 0)
    (hdisp : DispNeutral env.closures) (time alpha dt : K) (st : SghState K E N)
    (bdy : Fin M → Fin N) (hb : Function.Injective bdy)
    (incr : Forces K M → Pair K M → Pair K M) (maxIter : ℕ) (ps : List (Pair K M))
    (ext : Fin N → Fin 3 → K)
    (hext : ∀ n d, env.ext st time n d
      = ext n d + scatter bdy (resolve incr maxIter ps fun _ _ => 0).forces n d)
    (d : Fin 3) :
    momentum env.mass (stageVelFree env time alpha dt st) d
      = momentum env.mass st.velN0 d + alpha * dt * ∑ n, ext n d := by
  rw [C10_stage_balance env hWF hm hdisp]
  simp only [hext, Finset.sum_add_distrib]
  obtain ⟨F, hF⟩ : ∃ F, F = (resolve incr maxIter ps fun _ _ => 0).forces := ⟨_, rfl⟩
  have h0 := C81_total_zero incr maxIter ps d
  rw [← hF] at h0 ⊢
  have hs : ∑ n, scatter bdy F n d = ∑ i, F i d := by
    obtain ⟨c1, c2⟩ := C81_copied bdy hb F
    rw [← Finset.sum_subset (Finset.subset_univ (Finset.univ.map ⟨bdy, hb⟩))]
    · rw [Finset.sum_map]
      exact Finset.sum_congr rfl fun i _ => by
        change scatter bdy F (bdy i) d = _
        rw [c1]
    · intro n _ hn
      rw [c2 n]
      intro i hi
      exact hn (Finset.mem_map.mpr ⟨i, Finset.mem_univ i, hi⟩)
  rw [hs, h0, add_zero]

end momentum

/-! ### What release does -/

/-- A pair of node 4 with the patch of nodes 0-3. -/
def turningPair : Pair ℚ 5 where
  slave := 4
  nodes := fun k => k.castLE (by omega)
  xi := 0
  eta := 0
  normal := ![0, 0, 1]
  inc := 0
  total := 0

/-- Increments as they occur when the patch turns: a push along `z`, then a pull along `x`. -/
def turningIncr (F : Forces ℚ 5) (p : Pair ℚ 5) : Pair ℚ 5 :=
  if F 4 2 = 0 then { p with inc := 5 } else { p with inc := -10, normal := ![1, 0, 0] }

/-- C81, what the code does instead: releasing a pair subtracts the accumulated force with the
present normal and contact point, not with those it was applied with. Here the pair is released
(accumulated force 0), but the node keeps the force 1 in `z` and gets a force -1 in `x`. -/
theorem C81_release_fails :
    ((resolve turningIncr 2 [turningPair] fun _ _ => 0).pairs.map fun q => q.total) = [0] ∧
    (resolve turningIncr 2 [turningPair] fun _ _ => 0).forces 4 2 = 1 ∧
    (resolve turningIncr 2 [turningPair] fun _ _ => 0).forces 4 0 = -1 := by
  decide +kernel

/-! ### C83 -/

section increment
variable {K : Type} [Field K] {M : ℕ}

/-- Position of a node after `dt` under constant acceleration `(contact + corner force) / mass`
(specification). -/
def ballistic (nd : NodeData K M) (G : Forces K M) (dt : K) (a : Fin M) (i : Fin 3) : K :=
  nd.pos a i + nd.vel a i * dt + 1 / 2 * ((G a i + nd.corner a i) / nd.mass a) * (dt * dt)

/-- C83: what is brought to zero: with the increment applied as action and reaction to the contact
forces, the distance of the predicted node from the predicted contact point of the patch. -/
theorem C83_gap (nd : NodeData K M) (F : Forces K M) (dt : K) (p : Pair K M)
    (hs : ∀ k, p.slave ≠ p.nodes k) (hn : Function.Injective p.nodes) (i : Fin 3) :
    gapVec nd F dt p i = ballistic nd (applyForce p p.inc F) dt p.slave i
      - refToPhysical (fun i k => ballistic nd (applyForce p p.inc F) dt (p.nodes k) i) p.xi p.eta i := by
  have h1 : share p p.slave = 1 := by
    unfold share
    rw [if_pos rfl, Finset.sum_eq_zero, sub_zero]
    intro k _
    rw [if_neg (hs k)]
  have h2 : ∀ k, share p (p.nodes k) = -phi p.xi p.eta k := by
    intro k
    unfold share
    rw [if_neg (Ne.symm (hs k))]
    simp only [hn.eq_iff, Finset.sum_ite_eq, Finset.mem_univ, if_true]
    ring
  unfold gapVec refToPhysical ballistic patchPos predictedWith
  simp only [applyForce_apply, h1, h2]
  congr 1
  · ring
  · refine Finset.sum_congr rfl fun k _ => ?_
    ring

/-- C83: in the first pass the third column of the Jacobian is the exact rate of change with the
force. -/
theorem C83_force_column (nd : NodeData K M) (F : Forces K M) (dt : K) (p : Pair K M)
    (dnXi dnEta : Fin 3 → K) (h : K) (j : Fin 3) :
    gapVec nd F dt { p with inc := p.inc + h } j
      = gapVec nd F dt p j + h * gapJac nd F dt p p.normal dnXi dnEta j 2 := by
  simp only [gapVec, gapJac, patchPos, predictedWith, Fin.sum_univ_four]
  ring

/-- C83: as long as the increment is zero the first two columns are the exact rates of change with
the patch coordinates. -/
theorem C83_coordinate_columns (nd : NodeData K M) (F : Forces K M) (dt : K) (p : Pair K M)
    (h0 : p.inc = 0) (nrm dnXi dnEta : Fin 3 → K) (h : K) (j : Fin 3) :
    gapVec nd F dt { p with xi := p.xi + h } j
        = gapVec nd F dt p j + h * gapJac nd F dt p nrm dnXi dnEta j 0 ∧
    gapVec nd F dt { p with eta := p.eta + h } j
        = gapVec nd F dt p j + h * gapJac nd F dt p nrm dnXi dnEta j 1 := by
  constructor
  · simp only [gapVec, gapJac, patchPos, predictedWith, Fin.sum_univ_four, phi, dphiXi, h0]
    ring
  · simp only [gapVec, gapJac, patchPos, predictedWith, Fin.sum_univ_four, phi, dphiEta, h0]
    ring

/-- C83, what the code does instead: with a non-zero increment the terms for the turning normal go to
the wrong places: the second column gets the derivative of the normal in the first direction instead
of the second, and the reaction term of the second direction is added to the first column. Relative
to a Jacobian whose second column has the derivative `dnEta` in both terms, the columns are off by
the amounts below. -/
theorem C83_jacobian_fails (nd : NodeData K M) (F : Forces K M) (dt : K) (p : Pair K M)
    (nrm dnXi dnEta : Fin 3 → K) (j : Fin 3) :
    gapJac nd F dt p nrm dnXi dnEta j 0 - gapJac nd F dt p nrm dnXi (fun _ => 0) j 0
      = p.inc * dt * dt / 2 * dnEta j * ∑ k, phi p.xi p.eta k ^ 2 / nd.mass (p.nodes k) ∧
    gapJac nd F dt p nrm dnXi dnEta j 1
        - (gapJac nd F dt p nrm (fun _ => 0) (fun _ => 0) j 1
          + p.inc * dt * dt / (2 * nd.mass p.slave) * dnEta j
          + p.inc * dt * dt / 2 * dnEta j * ∑ k, phi p.xi p.eta k ^ 2 / nd.mass (p.nodes k))
      = p.inc * dt * dt / (2 * nd.mass p.slave) * (dnXi j - dnEta j)
        - p.inc * dt * dt / 2 * dnEta j * ∑ k, phi p.xi p.eta k ^ 2 / nd.mass (p.nodes k) := by
  constructor
  · simp only [gapJac, Fin.sum_univ_four]
    ring
  · simp only [gapJac, Fin.sum_univ_four]
    ring

/-- C83: the parts of the Jacobian that are right for any increment. If the normal turns with the
first coordinate at the rate `d`, the first column without the misplaced term is the exact rate of
change of the distance; if it turns with the second coordinate at the rate `d`, the exact rate is the
second column without its normal term, with the two terms that belong there. -/
theorem C83_turning_normal (nd : NodeData K M) (F : Forces K M) (dt : K) (p : Pair K M)
    (d : Fin 3 → K) (j : Fin 3) :
    (∃ a b, ∀ h, gapVec nd F dt { p with xi := p.xi + h, normal := fun i => p.normal i + h * d i } j
      = gapVec nd F dt p j + h * gapJac nd F dt p p.normal d (fun _ => 0) j 0 + h ^ 2 * (a + h * b)) ∧
    ∃ a b, ∀ h, gapVec nd F dt { p with eta := p.eta + h, normal := fun i => p.normal i + h * d i } j
      = gapVec nd F dt p j + h * (gapJac nd F dt p p.normal (fun _ => 0) (fun _ => 0) j 1
          + p.inc * dt * dt / (2 * nd.mass p.slave) * d j
          + p.inc * dt * dt / 2 * d j * ∑ k, phi p.xi p.eta k ^ 2 / nd.mass (p.nodes k))
        + h ^ 2 * (a + h * b) := by
  have hxi : ∀ h k, phi (p.xi + h) p.eta k = phi p.xi p.eta k + h * dphiXi p.xi p.eta k := by
    intro h k; simp only [phi, dphiXi]; ring
  have heta : ∀ h k, phi p.xi (p.eta + h) k = phi p.xi p.eta k + h * dphiEta p.xi p.eta k := by
    intro h k; simp only [phi, dphiEta]; ring
  constructor
  · refine ⟨∑ k, p.inc * dt * dt / 2 / nd.mass (p.nodes k) * (p.normal j * dphiXi p.xi p.eta k ^ 2
      + 2 * d j * phi p.xi p.eta k * dphiXi p.xi p.eta k),
      ∑ k, p.inc * dt * dt / 2 / nd.mass (p.nodes k) * (d j * dphiXi p.xi p.eta k ^ 2), fun h => ?_⟩
    simp only [gapVec, gapJac, patchPos, predictedWith, hxi, Fin.sum_univ_four, mul_inv, div_eq_mul_inv]
    ring
  · refine ⟨∑ k, p.inc * dt * dt / 2 / nd.mass (p.nodes k) * (p.normal j * dphiEta p.xi p.eta k ^ 2
      + 2 * d j * phi p.xi p.eta k * dphiEta p.xi p.eta k),
      ∑ k, p.inc * dt * dt / 2 / nd.mass (p.nodes k) * (d j * dphiEta p.xi p.eta k ^ 2), fun h => ?_⟩
    simp only [gapVec, gapJac, patchPos, predictedWith, heta, Fin.sum_univ_four, mul_inv, div_eq_mul_inv]
    ring

end increment

section newton
variable {M : ℕ}

/-- C83: whenever the computation of an increment ends as converged, the squared distance between
the predicted node and the predicted contact point is at most `10⁻¹⁵`; node, patch and accumulated
force of the pair are untouched. -/
theorem C83_converged (nd : NodeData ℝ M) (F : Forces ℝ M) (dt : ℝ) (n : ℕ) (p q : Pair ℝ M)
    (h : increment nd F dt n p = some (q, true)) :
    gapVec nd F dt q 0 ^ 2 + gapVec nd F dt q 1 ^ 2 + gapVec nd F dt q 2 ^ 2 ≤ 1 / 10 ^ 15 ∧
      q.slave = p.slave ∧ q.nodes = p.nodes ∧ q.total = p.total := by
  have key : ∀ nrm0 m (p : Pair ℝ M) sol, incLoop nd F dt nrm0 m p sol = some (q, true) →
      gapVec nd F dt q 0 ^ 2 + gapVec nd F dt q 1 ^ 2 + gapVec nd F dt q 2 ^ 2 ≤ 1 / 10 ^ 15 ∧
        q.slave = p.slave ∧ q.nodes = p.nodes ∧ q.total = p.total := by
    intro nrm0 m
    induction m with
    | zero => intro p sol h; simp [incLoop] at h
    | succ m ih =>
      intro p sol h
      simp only [incLoop] at h
      split_ifs at h with h1 h2 h3
      · simp only [Option.some.injEq, Prod.mk.injEq, and_true] at h
        subst h
        refine ⟨?_, rfl, rfl, rfl⟩
        simp only [pow_two] at h1 ⊢
        exact h1
      · simp at h
      · split at h
        · simp at h
        · obtain ⟨a, b, c, d⟩ := ih _ _ h
          exact ⟨a, b, c, d⟩
  exact key _ _ _ _ h

/-- C83: converged or not, the computation never touches node, patch and accumulated force. -/
theorem C83_frame (nd : NodeData ℝ M) (F : Forces ℝ M) (dt : ℝ) (n : ℕ) (p q : Pair ℝ M) (b : Bool)
    (h : increment nd F dt n p = some (q, b)) :
    q.slave = p.slave ∧ q.nodes = p.nodes ∧ q.total = p.total := by
  have key : ∀ nrm0 m (p : Pair ℝ M) sol, incLoop nd F dt nrm0 m p sol = some (q, b) →
        q.slave = p.slave ∧ q.nodes = p.nodes ∧ q.total = p.total := by
    intro nrm0 m
    induction m with
    | zero =>
      intro p sol h
      simp only [incLoop, Option.some.injEq, Prod.mk.injEq] at h
      rw [← h.1]; exact ⟨rfl, rfl, rfl⟩
    | succ m ih =>
      intro p sol h
      simp only [incLoop] at h
      split_ifs at h with h1 h2 h3
      · simp only [Option.some.injEq, Prod.mk.injEq] at h
        rw [← h.1]; exact ⟨rfl, rfl, rfl⟩
      · simp only [Option.some.injEq, Prod.mk.injEq] at h
        rw [← h.1]; exact ⟨rfl, rfl, rfl⟩
      · split at h
        · simp at h
        · obtain ⟨b, c, d⟩ := ih _ _ h
          exact ⟨b, c, d⟩
  exact key _ _ _ _ h

/-- C83: the normal a pair ends with belongs to the point it ends at: either neither has changed, or it
is the unit normal, at the new patch coordinates, of the patch predicted with an increment of the force
and the pair `r` of the pass before; for a pair that converged it is its own increment. -/
theorem C83_normal_at_point (nd : NodeData ℝ M) (F : Forces ℝ M) (dt : ℝ) (n : ℕ) (p q : Pair ℝ M) (b : Bool)
    (h : increment nd F dt n p = some (q, b)) :
    (q.xi = p.xi ∧ q.eta = p.eta ∧ q.normal = p.normal ∧ (b = true → q.inc = p.inc)) ∨
      ∃ (r : Pair ℝ M) (c : ℝ), r.nodes = p.nodes ∧ r.slave = p.slave ∧ (b = true → c = q.inc) ∧
        unitNormal (patchPos nd F dt { r with inc := c } (phi r.xi r.eta)) q.xi q.eta = some q.normal := by
  have key : ∀ nrm0 m (p q : Pair ℝ M) sol, incLoop nd F dt nrm0 m p sol = some (q, b) →
      (q.xi = p.xi ∧ q.eta = p.eta ∧ q.normal = p.normal ∧ (b = true → q.inc = p.inc)) ∨
      ∃ (r : Pair ℝ M) (c : ℝ), r.nodes = p.nodes ∧ r.slave = p.slave ∧ (b = true → c = q.inc) ∧
        unitNormal (patchPos nd F dt { r with inc := c } (phi r.xi r.eta)) q.xi q.eta = some q.normal := by
    intro nrm0 m
    induction m with
    | zero =>
      intro p q sol h
      simp only [incLoop, Option.some.injEq, Prod.mk.injEq] at h
      rw [← h.1]; exact Or.inl ⟨rfl, rfl, rfl, fun _ => rfl⟩
    | succ m ih =>
      intro p q sol h
      simp only [incLoop] at h
      split_ifs at h with h1 h2 h3
      · simp only [Option.some.injEq, Prod.mk.injEq] at h
        rw [← h.1]; exact Or.inl ⟨rfl, rfl, rfl, fun _ => rfl⟩
      · simp only [Option.some.injEq, Prod.mk.injEq] at h
        obtain ⟨rfl, rfl⟩ := h
        exact Or.inl ⟨rfl, rfl, rfl, fun h => by cases h⟩
      · split at h
        · simp at h
        · rename_i nn hn
          rcases ih _ _ _ h with ⟨e1, e2, e3, e4⟩ | ⟨r, c, e1, e2, e3, e4⟩
          · right
            refine ⟨p, _, rfl, rfl, fun hb => (e4 hb).symm, ?_⟩
            rw [e1, e2, e3]
            exact hn
          · exact Or.inr ⟨r, c, e1, e2, e3, e4⟩
  exact key _ _ _ _ _ h

/-- C83: a pair in contact already (predicted distance below the tolerance) keeps its values. -/
theorem C83_no_change (nd : NodeData ℝ M) (F : Forces ℝ M) (dt : ℝ) (n : ℕ) (p : Pair ℝ M)
    (h : gapVec nd F dt p 0 ^ 2 + gapVec nd F dt p 1 ^ 2 + gapVec nd F dt p 2 ^ 2 ≤ 1 / 10 ^ 15) :
    increment nd F dt (n + 1) p = some (p, true) := by
  unfold increment
  simp only [incLoop]
  rw [if_pos]
  simp only [pow_two] at h
  exact h

namespace Contact
theorem mul_inv_apply (J : Fin 3 → Fin 3 → ℝ) (h : det J ≠ 0) (w : Fin 3 → ℝ) (i : Fin 3) :
    ∑ d, J i d * ∑ k, inv J d k * w k = w i := by
  have hdd : det J = J 0 0 * (J 1 1 * J 2 2 - J 1 2 * J 2 1) - J 0 1 * (J 1 0 * J 2 2 - J 1 2 * J 2 0)
    + J 0 2 * (J 1 0 * J 2 1 - J 1 1 * J 2 0) := rfl
  obtain ⟨D, hD⟩ : ∃ D, D = det J := ⟨_, rfl⟩
  have e00 : inv J 0 0 = (J 1 1 * J 2 2 - J 1 2 * J 2 1) / D := by rw [hD]; rfl
  have e01 : inv J 0 1 = (J 0 2 * J 2 1 - J 0 1 * J 2 2) / D := by rw [hD]; rfl
  have e02 : inv J 0 2 = (J 0 1 * J 1 2 - J 0 2 * J 1 1) / D := by rw [hD]; rfl
  have e10 : inv J 1 0 = (J 1 2 * J 2 0 - J 1 0 * J 2 2) / D := by rw [hD]; rfl
  have e11 : inv J 1 1 = (J 0 0 * J 2 2 - J 0 2 * J 2 0) / D := by rw [hD]; rfl
  have e12 : inv J 1 2 = (J 0 2 * J 1 0 - J 0 0 * J 1 2) / D := by rw [hD]; rfl
  have e20 : inv J 2 0 = (J 1 0 * J 2 1 - J 1 1 * J 2 0) / D := by rw [hD]; rfl
  have e21 : inv J 2 1 = (J 0 1 * J 2 0 - J 0 0 * J 2 1) / D := by rw [hD]; rfl
  have e22 : inv J 2 2 = (J 0 0 * J 1 1 - J 0 1 * J 1 0) / D := by rw [hD]; rfl
  rw [← hD] at h hdd
  simp only [Fin.sum_univ_three, e00, e01, e02, e10, e11, e12, e20, e21, e22]
  match i with
  | 0 => field_simp; rw [hdd]; ring
  | 1 => field_simp; rw [hdd]; ring
  | 2 => field_simp; rw [hdd]; ring
end Contact

/-- C83, what the code does instead: when a pair starts without a force, the first guess of the
force goes into the unknowns but not into the residual. The first step therefore ends not at the zero
of the linearised distance but off by the displacement the guess makes, `J_{·3} · guess`. -/
theorem C83_first_guess_fails (nd : NodeData ℝ M) (F : Forces ℝ M) (dt : ℝ) (p q : Pair ℝ M)
    (h0 : p.inc = 0) (J : Fin 3 → Fin 3 → ℝ)
    (hJ : J = gapJac nd F dt p p.normal (fun _ => 0) fun _ => 0) (hdet : det J ≠ 0)
    (hgap : ¬ gapVec nd F dt p 0 ^ 2 + gapVec nd F dt p 1 ^ 2 + gapVec nd F dt p 2 ^ 2 ≤ 1 / 10 ^ 15)
    (h : increment nd F dt 1 p = some (q, false)) (j : Fin 3) :
    gapVec nd F dt p j + (J j 0 * (q.xi - p.xi) + J j 1 * (q.eta - p.eta) + J j 2 * (q.inc - p.inc))
      = J j 2 * forceGuess nd dt p := by
  have hJJ : ∀ a b, gapJac nd F dt p p.normal a b = J := by
    intro a b
    rw [hJ]
    funext i c
    match c with
    | 0 => simp only [gapJac, h0]; simp
    | 1 => simp only [gapJac, h0]; simp
    | 2 => rfl
  unfold increment at h
  rw [if_pos h0] at h
  have hg : ¬ gapVec nd F dt p 0 * gapVec nd F dt p 0 + gapVec nd F dt p 1 * gapVec nd F dt p 1
      + gapVec nd F dt p 2 * gapVec nd F dt p 2 ≤ 1 / 10 ^ 15 := by
    simpa only [pow_two] using hgap
  simp only [incLoop, hJJ] at h
  rw [if_neg hg] at h
  split_ifs at h with h1
  split at h
  · simp at h
  · simp only [Option.some.injEq, Prod.mk.injEq, and_true] at h
    have hm := mul_inv_apply J hdet (gapVec nd F dt p) j
    rw [Fin.sum_univ_three] at hm
    rw [← h, h0]
    change gapVec nd F dt p j + (J j 0 * (p.xi - ∑ k, inv J 0 k * gapVec nd F dt p k - p.xi)
      + J j 1 * (p.eta - ∑ k, inv J 1 k * gapVec nd F dt p k - p.eta)
      + J j 2 * (forceGuess nd dt p - ∑ k, inv J 2 k * gapVec nd F dt p k - 0)) = _
    linear_combination -hm

/-- C83: the first guess of the force. If it acted in full on the node and on each node of the patch,
the motion along the normal it makes in a time step would be the distance of the contact point from
the node: the guess pushes the node out if and only if the node is behind the patch. -/
theorem C83_guess (nd : NodeData ℝ M) (dt : ℝ) (hdt : 0 < dt) (p : Pair ℝ M)
    (hm : ∀ a, 0 < nd.mass a) (hn : dot p.normal p.normal = 1) :
    dt ^ 2 / 2 * (forceGuess nd dt p / nd.mass p.slave
        + ∑ k, forceGuess nd dt p / nd.mass (p.nodes k))
      = dot p.normal (fun i => refToPhysical (patchCoords nd p) p.xi p.eta i - nd.pos p.slave i) ∧
    (0 < forceGuess nd dt p ↔
      0 < dot p.normal fun i => refToPhysical (patchCoords nd p) p.xi p.eta i - nd.pos p.slave i) := by
  obtain ⟨S, hS⟩ : ∃ S, S = 1 / nd.mass p.slave + ∑ k, 1 / nd.mass (p.nodes k) := ⟨_, rfl⟩
  have hSpos : 0 < S := by
    rw [hS]
    have h1 : 0 < 1 / nd.mass p.slave := one_div_pos.mpr (hm _)
    have h2 : 0 ≤ ∑ k, 1 / nd.mass (p.nodes k) :=
      Finset.sum_nonneg fun k _ => (one_div_pos.mpr (hm _)).le
    linarith
  obtain ⟨D, hD⟩ : ∃ D, D = dot p.normal
      (fun i => refToPhysical (patchCoords nd p) p.xi p.eta i - nd.pos p.slave i) := ⟨_, rfl⟩
  have hg : forceGuess nd dt p = 2 / (dt * dt * S) * D := by
    unfold forceGuess
    rw [hn, mul_one, ← hS, hD]
    simp only [dot, refToPhysical, patchCoords]
    ring
  have hsum : forceGuess nd dt p / nd.mass p.slave + ∑ k, forceGuess nd dt p / nd.mass (p.nodes k)
      = forceGuess nd dt p * S := by
    rw [hS, mul_add, Finset.mul_sum]
    simp only [mul_one_div]
  rw [← hD, hsum, hg]
  constructor
  · field_simp
  · have : 0 < 2 / (dt * dt * S) := by positivity
    exact mul_pos_iff_of_pos_left this

/-- C83: if the equations of a step have no unique solution the pair is left without a force and not
as converged. -/
theorem C83_singular (nd : NodeData ℝ M) (F : Forces ℝ M) (dt : ℝ) (n : ℕ) (p : Pair ℝ M)
    (hgap : ¬ gapVec nd F dt p 0 ^ 2 + gapVec nd F dt p 1 ^ 2 + gapVec nd F dt p 2 ^ 2 ≤ 1 / 10 ^ 15)
    (hn : len (rawNormal (patchCoords nd p) p.xi p.eta) ≠ 0)
    (hdet : det (gapJac nd F dt p p.normal
      (dNormalXi (patchCoords nd p) (mixedDerivative (patchCoords nd p)) p.xi p.eta)
      (dNormalEta (patchCoords nd p) (mixedDerivative (patchCoords nd p)) p.xi p.eta)) = 0) :
    increment nd F dt (n + 1) p = some ({ p with inc := 0 }, false) := by
  unfold increment
  simp only [incLoop]
  rw [if_neg (by simpa only [pow_two] using hgap), if_neg hn, if_pos hdet]

end newton

/-- C83: a node above the middle of a patch is not one of its nodes, and the patch nodes differ. -/
example : (∀ k, turningPair.slave ≠ turningPair.nodes k) ∧ Function.Injective turningPair.nodes := by
  decide

/-- C81: increments that change only the force. -/
example : ∀ (F : Forces ℚ 5) (p : Pair ℚ 5), ∃ f, (fun _ q => { q with inc := 1 - q.total } :
    Forces ℚ 5 → Pair ℚ 5 → Pair ℚ 5) F p = { p with inc := f } := fun _ p => ⟨1 - p.total, rfl⟩

/-- C81: a pair that converges: a force 1 is needed; the loop ends as converged. -/
example : (resolve (fun _ q => { q with inc := 1 - q.total } : Forces ℚ 5 → Pair ℚ 5 → Pair ℚ 5) 100
    [turningPair] fun _ _ => 0).converged = true := by
  decide +kernel

/-- A unit patch at rest with a node on its centre. -/
noncomputable def restingData : NodeData ℝ 5 where
  pos := ![![0, 0, 0], ![1, 0, 0], ![1, 1, 0], ![0, 1, 0], ![1 / 2, 1 / 2, 0]]
  vel := fun _ _ => 0
  mass := fun _ => 1
  corner := fun _ _ => 0

/-- The pair of that node with the patch. -/
noncomputable def restingPair : Pair ℝ 5 where
  slave := 4
  nodes := ![0, 1, 2, 3]
  xi := 0
  eta := 0
  normal := ![0, 0, 1]
  inc := 0
  total := 0

/-- C83: the predicted distance of the resting pair is zero, so the computation ends as converged. -/
example : increment restingData (fun _ _ => 0) 1 500 restingPair = some (restingPair, true) := by
  apply C83_no_change restingData (fun _ _ => 0) 1 499
  have h : ∀ i, gapVec restingData (fun _ _ => 0) 1 restingPair i = 0 := by
    intro i
    have n0 : restingPair.nodes 0 = 0 := rfl
    have n1 : restingPair.nodes 1 = 1 := rfl
    have n2 : restingPair.nodes 2 = 2 := rfl
    have n3 : restingPair.nodes 3 = 3 := rfl
    have hslave : restingPair.slave = 4 := rfl
    have hxi : restingPair.xi = 0 := rfl
    have heta : restingPair.eta = 0 := rfl
    have hinc : restingPair.inc = 0 := rfl
    have hv : ∀ a i, restingData.vel a i = 0 := fun _ _ => rfl
    have hm : ∀ a, restingData.mass a = 1 := fun _ => rfl
    have hc : ∀ a i, restingData.corner a i = 0 := fun _ _ => rfl
    simp only [gapVec, patchPos, predictedWith, Fin.sum_univ_four, phi, xiN_0, xiN_1, xiN_2, xiN_3,
      etaN_0, etaN_1, etaN_2, etaN_3, n0, n1, n2, n3, hslave, hxi, heta, hinc, hv, hm, hc]
    match i with
    | 0 =>
      have p0 : restingData.pos 0 0 = 0 := rfl
      have p1 : restingData.pos 1 0 = 1 := rfl
      have p2 : restingData.pos 2 0 = 1 := rfl
      have p3 : restingData.pos 3 0 = 0 := rfl
      have p4 : restingData.pos 4 0 = 1 / 2 := rfl
      rw [p0, p1, p2, p3, p4]; norm_num
    | 1 =>
      have p0 : restingData.pos 0 1 = 0 := rfl
      have p1 : restingData.pos 1 1 = 0 := rfl
      have p2 : restingData.pos 2 1 = 1 := rfl
      have p3 : restingData.pos 3 1 = 1 := rfl
      have p4 : restingData.pos 4 1 = 1 / 2 := rfl
      rw [p0, p1, p2, p3, p4]; norm_num
    | 2 =>
      have p0 : restingData.pos 0 2 = 0 := rfl
      have p1 : restingData.pos 1 2 = 0 := rfl
      have p2 : restingData.pos 2 2 = 0 := rfl
      have p3 : restingData.pos 3 2 = 0 := rfl
      have p4 : restingData.pos 4 2 = 0 := rfl
      rw [p0, p1, p2, p3, p4]; norm_num
  rw [h, h, h]; norm_num

end Fierro
