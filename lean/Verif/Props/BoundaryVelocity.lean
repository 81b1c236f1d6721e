import Verif.Proofs.BoundaryVelocity
import Mathlib.Tactic.FieldSimp
import Mathlib.Tactic.Linarith
import Mathlib.Tactic.NormNum
import Mathlib.Algebra.Order.BigOperators.Ring.Finset
import Mathlib.Algebra.BigOperators.Pi

/-!
# C25: prescribed velocity boundary conditions
-/

set_option linter.unusedSectionVars false

namespace Fierro

variable {K : Type} [Field K] {D : ℕ} {N : Type} [DecidableEq N]

/-- **C25.** Nodes that belong to no boundary set are untouched. -/
theorem C25_untouched (sets : List (VelSet N K D)) (t : K) (vel : N → Vel K D) (n : N)
    (h : ∀ s ∈ sets, n ∉ s.nodes) : boundaryVelocity sets t vel n = vel n :=
  boundaryVelocity_of_notMem sets t vel n h

/-- **C25.** The parallel loop over the nodes of a set has the same effect in every execution
order, because each node is listed once. -/
theorem C25_schedule_independent (f : Vel K D → Vel K D) (nodes nodes' : List N)
    (hnd : nodes.Nodup) (hp : nodes.Perm nodes') (vel : N → Vel K D) :
    applySet f nodes vel = applySet f nodes' vel := by
  funext n
  by_cases h : n ∈ nodes
  · rw [applySet_of_mem f nodes hnd vel n h,
      applySet_of_mem f nodes' (hp.nodup_iff.1 hnd) vel n (hp.mem_iff.1 h)]
  · rw [applySet_of_notMem f nodes vel n h,
      applySet_of_notMem f nodes' vel n (fun h' => h (hp.mem_iff.2 h'))]

/-- **C25.** The last set containing a node decides: the velocity after all sets is the
function of that set applied to whatever the earlier sets left. -/
theorem C25_last_set_decides (pre post : List (VelSet N K D)) (s : VelSet N K D) (t : K)
    (vel : N → Vel K D) (n : N) (hnd : s.nodes.Nodup) (hn : n ∈ s.nodes)
    (hpost : ∀ s' ∈ post, n ∉ s'.nodes) :
    boundaryVelocity (pre ++ s :: post) t vel n = s.bc t (boundaryVelocity pre t vel n) := by
  rw [boundaryVelocity_append, boundaryVelocity_cons, boundaryVelocity_of_notMem _ _ _ _ hpost,
    applySet_of_mem _ _ hnd _ _ hn]

/-- **C25.** A node whose last set is a zero-velocity set is at rest, whatever came before. -/
theorem C25_zero (pre post : List (VelSet N K D)) (nodes : List N) (t : K)
    (vel : N → Vel K D) (n : N) (hnd : nodes.Nodup) (hn : n ∈ nodes)
    (hpost : ∀ s' ∈ post, n ∉ s'.nodes) (d : Fin D) :
    boundaryVelocity (pre ++ ⟨nodes, zeroVelBC⟩ :: post) t vel n d = 0 := by
  rw [C25_last_set_decides pre post _ t vel n hnd hn hpost]; rfl

/-- **C25.** A node whose last set is a constant-velocity set moves with the given velocity. -/
theorem C25_constant (pre post : List (VelSet N K D)) (nodes : List N) (u : Fin D → K) (t : K)
    (vel : N → Vel K D) (n : N) (hnd : nodes.Nodup) (hn : n ∈ nodes)
    (hpost : ∀ s' ∈ post, n ∉ s'.nodes) (d : Fin D) :
    boundaryVelocity (pre ++ ⟨nodes, constantVelBC u⟩ :: post) t vel n d = u d := by
  rw [C25_last_set_decides pre post _ t vel n hnd hn hpost]; rfl

/-! ### Reflected (symmetry plane) condition -/

/-- The velocity with its component along `n` removed (specification). -/
def removeNormal (n v : Fin D → K) : Fin D → K :=
  fun d => v d - (∑ e, v e * n e) / (∑ e, n e * n e) * n d

theorem reflected_axis (i : Fin D) (t : K) (v : Vel K D) :
    reflectedVelBC (Pi.single i 1) t v = Function.update v i 0 := by
  funext d
  have hm : ∑ e, (Pi.single i 1 : Fin D → K) e * (Pi.single i 1 : Fin D → K) e = 1 := by
    rw [Finset.sum_eq_single i] <;> simp +contextual
  simp only [reflectedVelBC, hm]
  by_cases h : d = i
  · subst h; simp
  · simp [h]

/-- **C25.** For a normal that is a positive unit axis vector the reflected condition removes the
normal component and leaves the tangential ones unchanged. -/
theorem C25_reflected_axis (i : Fin D) (t : K) (v : Vel K D) :
    reflectedVelBC (Pi.single i 1) t v i = 0 ∧
    ∀ d, d ≠ i → reflectedVelBC (Pi.single i 1) t v d = v d := by
  rw [reflected_axis]
  exact ⟨by simp, fun d hd => by simp [hd]⟩

/-- **C25.** Several symmetry planes: if all sets are axis-aligned reflections then after the
whole loop component `d` of a node is zero when the node lies on a plane with axis `d`, and is
unchanged otherwise, in whatever order the sets are given. -/
theorem C25_reflected_planes (planes : List (List N × Fin D)) (t : K) (vel : N → Vel K D)
    (hnd : ∀ p ∈ planes, p.1.Nodup) (n : N) (d : Fin D) :
    ((∃ p ∈ planes, n ∈ p.1 ∧ p.2 = d) →
      boundaryVelocity (planes.map fun p => ⟨p.1, reflectedVelBC (Pi.single p.2 1)⟩) t vel n d = 0) ∧
    ((∀ p ∈ planes, n ∈ p.1 → p.2 ≠ d) →
      boundaryVelocity (planes.map fun p => ⟨p.1, reflectedVelBC (Pi.single p.2 1)⟩) t vel n d
        = vel n d) := by
  have hone : ∀ p : List N × Fin D, p.1.Nodup → ∀ w : N → Vel K D,
      applySet (reflectedVelBC (Pi.single p.2 1) t) p.1 w n d
        = if n ∈ p.1 ∧ p.2 = d then 0 else w n d := by
    intro p hp w
    by_cases h : n ∈ p.1
    · rw [applySet_of_mem _ _ hp _ _ h, reflected_axis]
      by_cases hd : p.2 = d
      · subst hd; simp [h]
      · rw [Function.update_of_ne (fun e => hd e.symm)]; simp [hd]
    · rw [applySet_of_notMem _ _ _ _ h]; simp [h]
  have hgen : ∀ (planes : List (List N × Fin D)) (w : N → Vel K D), (∀ p ∈ planes, p.1.Nodup) →
      boundaryVelocity (planes.map fun p => ⟨p.1, reflectedVelBC (Pi.single p.2 1)⟩) t w n d
        = if ∃ p ∈ planes, n ∈ p.1 ∧ p.2 = d then 0 else w n d := by
    intro planes
    induction planes with
    | nil => intro w _; simp [boundaryVelocity]
    | cons p ps ih =>
      intro w hw
      rw [List.map_cons, boundaryVelocity_cons, ih _ (fun q hq => hw q (List.mem_cons_of_mem _ hq))]
      simp only [List.exists_mem_cons_iff]
      rw [hone p (hw p (by simp))]
      by_cases h1 : ∃ q ∈ ps, n ∈ q.1 ∧ q.2 = d
      · simp [h1]
      · by_cases h2 : n ∈ p.1 ∧ p.2 = d
        · simp [h2]
        · rw [if_neg h1, if_neg h2, if_neg (not_or.2 ⟨h2, h1⟩)]
  rw [hgen planes vel hnd]
  constructor
  · intro h; rw [if_pos h]
  · intro h; rw [if_neg]; rintro ⟨p, hp, h1, h2⟩; exact h p hp h1 h2

section ordered
variable {F : Type} [Field F] [LinearOrder F] [IsStrictOrderedRing F]

/-- **C25 (exact range of validity).** The reflected condition removes exactly the normal
component of *every* velocity if and only if the user's normal is a positive unit axis vector.
For any other normal (an oblique plane, an axis of length other than one, a negative axis) the
code computes something else. -/
theorem C25_reflected_iff (n : Fin D → F) (hn : n ≠ 0) (t : F) :
    (∀ v : Vel F D, reflectedVelBC n t v = removeNormal n v) ↔ ∃ i, n = Pi.single i 1 := by
  have hm : 0 < ∑ e, n e * n e := by
    obtain ⟨i, hi⟩ : ∃ i, n i ≠ 0 := by
      by_contra h
      push Not at h
      exact hn (funext h)
    exact Finset.sum_pos' (fun e _ => mul_self_nonneg _)
      ⟨i, Finset.mem_univ _, mul_self_pos.2 hi⟩
  constructor
  · intro h
    set m := ∑ e, n e * n e with hmdef
    -- test with unit vectors
    have key : ∀ i d, (Pi.single i 1 : Fin D → F) d * n d / m = n i / m * n d := by
      intro i d
      have := congrFun (h (Pi.single i 1)) d
      simp only [reflectedVelBC, removeNormal] at this
      rw [← hmdef] at this
      have hs : ∑ e, (Pi.single i 1 : Fin D → F) e * n e = n i := by
        rw [Finset.sum_eq_single i] <;> simp +contextual
      rw [hs] at this
      linarith
    obtain ⟨i, hi⟩ : ∃ i, n i ≠ 0 := by
      by_contra h
      push Not at h
      exact hn (funext h)
    have h0 : ∀ d, d ≠ i → n d = 0 := by
      intro d hd
      have := key i d
      rw [Pi.single_eq_of_ne hd] at this
      simp at this
      rcases this with (h | h) | h
      · exact absurd h hi
      · exact absurd h hm.ne'
      · exact h
    have h1 : n i = 1 := by
      have := key i i
      rw [Pi.single_eq_same] at this
      field_simp at this
      exact this.symm
    refine ⟨i, funext fun d => ?_⟩
    by_cases hd : d = i
    · subst hd; simp [h1]
    · rw [h0 d hd, Pi.single_eq_of_ne hd]
  · rintro ⟨i, rfl⟩ v
    rw [reflected_axis]
    have hs : ∑ e, v e * (Pi.single i 1 : Fin D → F) e = v i := by
      rw [Finset.sum_eq_single i] <;> simp +contextual
    have hm1 : ∑ e, (Pi.single i 1 : Fin D → F) e * (Pi.single i 1 : Fin D → F) e = 1 := by
      rw [Finset.sum_eq_single i] <;> simp +contextual
    funext d
    simp only [removeNormal, hs, hm1]
    by_cases hd : d = i
    · subst hd; simp
    · simp [hd]

/-- **C25 (negative result).** With the outward normal of the lower wall, `(-1,0,0)`, the reflected
condition doubles the normal velocity instead of removing it. -/
theorem C25_reflected_negative_axis_fails (t : F) (v : Vel F 3) :
    reflectedVelBC ![-1, 0, 0] t v 0 = 2 * v 0 := by
  simp [reflectedVelBC, Fin.sum_univ_three]
  ring

end ordered

/-! ### Piston -/

/-- **C25.** A piston along a positive axis (of any length) imposes the prescribed velocity on that
component while the time is in its window, lets the node slide freely in the other components,
and does nothing outside the window. -/
theorem C25_piston_axis (i : Fin D) (c v0 v1 v2 ts te t : ℝ) (hc : 0 < c) (v : Vel ℝ D) :
    (ts ≤ t ∧ t ≤ te →
      pistonVelBC (Pi.single i c) v0 v1 v2 ts te t v i
        = v0 + v1 * (t - ts) + v2 * (t - ts) ^ 2 / 2 ∧
      ∀ d, d ≠ i → pistonVelBC (Pi.single i c) v0 v1 v2 ts te t v d = v d) ∧
    (¬(ts ≤ t ∧ t ≤ te) → pistonVelBC (Pi.single i c) v0 v1 v2 ts te t v = v) := by
  have hm : ∑ e, (Pi.single i c : Fin D → ℝ) e * (Pi.single i c : Fin D → ℝ) e = c * c := by
    rw [Finset.sum_eq_single i] <;> simp +contextual
  have hs : Real.sqrt (c * c) = c := Real.sqrt_mul_self hc.le
  constructor
  · intro h
    constructor
    · simp only [pistonVelBC, if_pos h, hm, hs, Pi.single_eq_same]
      field_simp
      ring
    · intro d hd
      simp [pistonVelBC, if_pos h, hm, Pi.single_eq_of_ne hd]
  · intro h
    simp [pistonVelBC, if_neg h]

/-- **C25.** The same for the exponentially decaying prescribed velocity. -/
theorem C25_time_varying_axis (i : Fin D) (c v0 v1 ts te t : ℝ) (hc : 0 < c) (v : Vel ℝ D) :
    (ts ≤ t ∧ t ≤ te →
      timeVaryingVelBC (Pi.single i c) v0 v1 ts te t v i = v0 * Real.exp (-(v1 * (t - ts))) ∧
      ∀ d, d ≠ i → timeVaryingVelBC (Pi.single i c) v0 v1 ts te t v d = v d) ∧
    (¬(ts ≤ t ∧ t ≤ te) → timeVaryingVelBC (Pi.single i c) v0 v1 ts te t v = v) := by
  have hm : ∑ e, (Pi.single i c : Fin D → ℝ) e * (Pi.single i c : Fin D → ℝ) e = c * c := by
    rw [Finset.sum_eq_single i] <;> simp +contextual
  have hs : Real.sqrt (c * c) = c := Real.sqrt_mul_self hc.le
  constructor
  · intro h
    constructor
    · simp only [timeVaryingVelBC, if_pos h, hm, hs, Pi.single_eq_same, neg_mul]
      field_simp
      ring
    · intro d hd
      simp [timeVaryingVelBC, if_pos h, Pi.single_eq_of_ne hd]
  · intro h
    simp [timeVaryingVelBC, if_neg h]

/-- **C25 (negative result).** A piston whose direction is a negative axis (a piston pushing in
`-x`) does not impose its velocity: the previous velocity survives doubled. -/
theorem C25_piston_negative_axis_fails (v0 ts te t : ℝ) (h : ts ≤ t ∧ t ≤ te) (v : Vel ℝ 3) :
    pistonVelBC ![-1, 0, 0] v0 0 0 ts te t v 0 = 2 * v 0 - v0 := by
  simp [pistonVelBC, if_pos h, Fin.sum_univ_three]
  ring

/-- Hypotheses are met: a corner node on two symmetry planes. -/
example : boundaryVelocity (N := ℕ) (K := ℚ) (D := 3)
    [⟨[0, 1], reflectedVelBC (Pi.single 0 1)⟩, ⟨[0, 2], reflectedVelBC (Pi.single 1 1)⟩] 0
    (fun _ => ![1, 2, 3]) 0 2 = 3 := by
  have := (C25_reflected_planes (N := ℕ) (K := ℚ) (D := 3) [([0, 1], 0), ([0, 2], 1)] 0
    (fun _ => ![1, 2, 3]) (by simp) 0 2).2 (by simp)
  simpa using this

end Fierro
