import Verif.Model.Materials
import Verif.Props.Sgh
import Mathlib.Tactic.FieldSimp
import Mathlib.Tactic.Linarith
import Mathlib.Tactic.Positivity

/-!
# C29: the MARS dissipation models

Both models (`mars` and the directional `dirMars`) are covered by theorems about `force` with an
arbitrary impedance `mu`, together with the fact that both impedances are non-negative.
-/

namespace Fierro
namespace MarsInput

theorem foldl_fin8 (f : Fin 8 → ℝ) :
    (List.finRange 8).foldl (fun acc l => acc + f l) 0 = ∑ l, f l := by
  rw [Fin.sum_univ_eight]
  simp [List.finRange_succ]

theorem muSum_eq (mu : Fin 8 → ℝ) : muSum mu = ∑ l, mu l := foldl_fin8 mu

theorem velStar_eq (x : MarsInput) (mu : Fin 8 → ℝ) (d : Fin 3) :
    x.velStar mu d = if x.fuzz < ∑ l, mu l then (∑ l, mu l * x.vel l d) / ∑ l, mu l else 0 := by
  unfold velStar
  rw [foldl_fin8 fun l => mu l * x.vel l d, muSum_eq]

theorem velAvg_eq (x : MarsInput) (d : Fin 3) : x.velAvg d = (∑ l, x.vel l d) / 8 := by
  unfold velAvg
  rw [foldl_fin8 fun l => 1 / 8 * x.vel l d, ← Finset.mul_sum]
  ring

/-- Physical input: non-negative density, sound speed, volume, coefficients. -/
structure Physical (x : MarsInput) (q : MarsParams) : Prop where
  den : 0 ≤ x.den
  sspd : 0 ≤ x.sspd
  vol : 0 ≤ x.vol
  fuzz : 0 < x.fuzz
  q1 : 0 ≤ q.q1
  q1ex : 0 ≤ q.q1ex
  q2 : 0 ≤ q.q2
  q2ex : 0 ≤ q.q2ex
  floor : 0 ≤ q.phiFloor ∧ q.phiFloor ≤ 1
  curlFloor : 0 ≤ q.phiCurlFloor

theorem magVel_nonneg (x : MarsInput) (l : Fin 8) : 0 ≤ x.magVel l := Real.sqrt_nonneg _

theorem impedance_nonneg (x : MarsInput) (q : MarsParams) (h : x.Physical q) (l : Fin 8) :
    0 ≤ x.impedance q l := by
  unfold impedance
  have := x.magVel_nonneg l
  have h1 := h.den; have h2 := h.sspd; have h3 := h.q1; have h4 := h.q2
  have h5 := h.q1ex; have h6 := h.q2ex
  split_ifs <;> positivity

theorem muMars_nonneg (x : MarsInput) (q : MarsParams) (h : x.Physical q) (l : Fin 8) :
    0 ≤ x.muMars q l :=
  mul_nonneg (x.impedance_nonneg q h l) (Real.sqrt_nonneg _)

theorem muDirMars_nonneg (x : MarsInput) (q : MarsParams) (h : x.Physical q) (l : Fin 8) :
    0 ≤ x.muDirMars q l :=
  mul_nonneg (x.impedance_nonneg q h l) (by positivity)

theorem rMin_le_one (x : MarsInput) : x.rMin ≤ 1 := by
  unfold rMin
  suffices H : ∀ (l : List ℝ) (r : ℝ), r ≤ 1 →
      l.foldl (fun r dn => min (9 / 10 * (dn + x.small) / (x.div + x.small)) r) r ≤ 1 from
    H _ 1 le_rfl
  intro l
  induction l with
  | nil => exact fun r h => h
  | cons a l ih => intro r h; exact ih _ ((min_le_right _ _).trans h)

end MarsInput

open MarsInput

/-- The shock detector lies between zero and one, and above the user's floor. -/
theorem C29_phi_bounds (x : MarsInput) (q : MarsParams) (h : x.Physical q) :
    q.phiFloor ≤ x.phi q ∧ 0 ≤ x.phi q ∧ x.phi q ≤ 1 := by
  have hf : q.phiFloor ≤ x.phi q := le_max_left _ _
  refine ⟨hf, h.floor.1.trans hf, ?_⟩
  unfold MarsInput.phi
  simp only
  refine max_le h.floor.2 ((min_le_left _ _).trans ?_)
  have hr := x.rMin_le_one
  have h1 : (0 : ℝ) ≤ 1 - max 0 x.rMin := by linarith [max_le (zero_le_one (α := ℝ)) hr]
  have h2 : 1 - max 0 x.rMin ≤ 1 := by linarith [le_max_left 0 x.rMin]
  have h3 : min 1 (20 * (x.vol ^ (1 / 3 : ℝ) * |x.div|) / (x.sspd + x.fuzz)) ≤ 1 := min_le_left _ _
  nlinarith

/-- The dissipation forces of an element sum to zero (no momentum is created) whenever the total
impedance exceeds `fuzz` or is zero. -/
theorem C29_momentum_neutral (x : MarsInput) (q : MarsParams) (mu : Fin 8 → ℝ)
    (hmu : ∀ l, 0 ≤ mu l) (hf : 0 < x.fuzz) (hs : x.fuzz < ∑ l, mu l ∨ ∑ l, mu l = 0) (d : Fin 3) :
    ∑ l, x.force q mu l d = 0 := by
  unfold MarsInput.force
  simp only [mul_assoc]
  rw [← Finset.mul_sum]
  rcases hs with hs | hs
  · have : ∑ l, mu l * (x.velStar mu d - x.vel l d) = 0 := by
      simp only [mul_sub, Finset.sum_sub_distrib, ← Finset.sum_mul]
      rw [velStar_eq, if_pos hs, mul_div_cancel₀ _ (by linarith), sub_self]
    rw [this, mul_zero]
  · have h0 : ∀ l, mu l = 0 := fun l =>
      (Finset.sum_eq_zero_iff_of_nonneg fun l _ => hmu l).1 hs l (Finset.mem_univ _)
    simp [h0]

/-- In the remaining case (total impedance positive but at most `fuzz`) the solver does create
momentum, but at most `fuzz` times the largest velocity component. -/
theorem C29_momentum_leak_bound (x : MarsInput) (q : MarsParams) (h : x.Physical q)
    (mu : Fin 8 → ℝ) (hmu : ∀ l, 0 ≤ mu l) (d : Fin 3) (vmax : ℝ)
    (hv : ∀ l, |x.vel l d| ≤ vmax) : |∑ l, x.force q mu l d| ≤ x.fuzz * vmax := by
  have hvm : 0 ≤ vmax := (abs_nonneg _).trans (hv 0)
  rcases lt_or_ge x.fuzz (∑ l, mu l) with hs | hs
  · rw [C29_momentum_neutral x q mu hmu h.fuzz (Or.inl hs)]
    simpa using mul_nonneg h.fuzz.le hvm
  · obtain ⟨_, hp0, hp1⟩ := C29_phi_bounds x q h
    have hstar : x.velStar mu d = 0 := by rw [velStar_eq, if_neg (not_lt.2 hs)]
    calc |∑ l, x.force q mu l d| ≤ ∑ l, |x.force q mu l d| := Finset.abs_sum_le_sum_abs _ _
      _ ≤ ∑ l, mu l * vmax := by
          apply Finset.sum_le_sum
          intro l _
          unfold MarsInput.force
          rw [hstar, abs_mul, abs_mul, abs_of_nonneg hp0, abs_of_nonneg (hmu l), zero_sub, abs_neg]
          have h1 : x.phi q * mu l ≤ mu l := by nlinarith [hmu l]
          exact mul_le_mul h1 (hv l) (abs_nonneg _) (hmu l)
      _ = (∑ l, mu l) * vmax := by rw [Finset.sum_mul]
      _ ≤ x.fuzz * vmax := mul_le_mul_of_nonneg_right hs hvm

/-- The dissipation forces never feed kinetic energy: their power on the nodes is not positive. -/
theorem C29_dissipative (x : MarsInput) (q : MarsParams) (h : x.Physical q) (mu : Fin 8 → ℝ)
    (hmu : ∀ l, 0 ≤ mu l) : ∑ l, ∑ d, x.force q mu l d * x.vel l d ≤ 0 := by
  obtain ⟨_, hp0, _⟩ := C29_phi_bounds x q h
  rw [Finset.sum_comm]
  apply Finset.sum_nonpos
  intro d _
  have key : ∑ l, x.force q mu l d * x.vel l d =
      -(x.phi q) * ∑ l, mu l * (x.vel l d - x.velStar mu d) ^ 2
        + x.velStar mu d * ∑ l, x.force q mu l d := by
    rw [Finset.mul_sum, Finset.mul_sum, ← Finset.sum_add_distrib]
    apply Finset.sum_congr rfl
    intro l _
    unfold MarsInput.force
    ring
  rw [key]
  have h1 : 0 ≤ ∑ l, mu l * (x.vel l d - x.velStar mu d) ^ 2 :=
    Finset.sum_nonneg fun l _ => mul_nonneg (hmu l) (sq_nonneg _)
  have h2 : x.velStar mu d * ∑ l, x.force q mu l d = 0 := by
    rcases lt_or_ge x.fuzz (∑ l, mu l) with hs | hs
    · rw [C29_momentum_neutral x q mu hmu h.fuzz (Or.inl hs), mul_zero]
    · rw [velStar_eq, if_neg (not_lt.2 hs), zero_mul]
  rw [h2]
  nlinarith [mul_nonneg hp0 h1]

/-- The three facts for the two models the user can choose. -/
theorem C29_mars (x : MarsInput) (q : MarsParams) (h : x.Physical q) :
    (∑ l, ∑ d, x.mars q l d * x.vel l d ≤ 0) ∧ (∑ l, ∑ d, x.dirMars q l d * x.vel l d ≤ 0) :=
  ⟨C29_dissipative x q h _ (x.muMars_nonneg q h), C29_dissipative x q h _ (x.muDirMars_nonneg q h)⟩

/-- A uniform velocity added to all nodes. -/
def boost (x : MarsInput) (c : Fin 3 → ℝ) : MarsInput := { x with vel := fun l d => x.vel l d + c d }

theorem boost_magVel (x : MarsInput) (c : Fin 3 → ℝ) (l : Fin 8) :
    (boost x c).magVel l = x.magVel l := by
  have : ∀ d, (boost x c).vel l d - (boost x c).velAvg d = x.vel l d - x.velAvg d := by
    intro d
    rw [velAvg_eq, velAvg_eq]
    simp only [boost, Finset.sum_add_distrib, Finset.sum_const, Finset.card_univ, Fintype.card_fin]
    simp
    ring
  unfold MarsInput.magVel
  simp only [this]

theorem boost_impedance (x : MarsInput) (q : MarsParams) (c : Fin 3 → ℝ) (l : Fin 8) :
    (boost x c).impedance q l = x.impedance q l := by
  unfold MarsInput.impedance
  rw [boost_magVel]
  rfl

theorem boost_muMars (x : MarsInput) (q : MarsParams) (c : Fin 3 → ℝ) :
    (boost x c).muMars q = x.muMars q := by
  funext l; unfold MarsInput.muMars; rw [boost_impedance]; rfl

theorem boost_muDirMars (x : MarsInput) (q : MarsParams) (c : Fin 3 → ℝ) :
    (boost x c).muDirMars q = x.muDirMars q := by
  have hd : ∀ l d, (boost x c).shockDir l d = x.shockDir l d := by
    intro l d
    have : (boost x c).vel l d - (boost x c).velAvg d = x.vel l d - x.velAvg d := by
      rw [velAvg_eq, velAvg_eq]
      simp only [boost, Finset.sum_add_distrib, Finset.sum_const, Finset.card_univ,
        Fintype.card_fin]
      simp
      ring
    unfold MarsInput.shockDir
    rw [boost_magVel, this]
    rfl
  funext l
  unfold MarsInput.muDirMars
  simp only [hd, boost_impedance]
  rfl

theorem boost_force (x : MarsInput) (q : MarsParams) (mu : Fin 8 → ℝ) (c : Fin 3 → ℝ)
    (hf : 0 < x.fuzz) (hs : x.fuzz < ∑ l, mu l) (l : Fin 8) (d : Fin 3) :
    (boost x c).force q mu l d = x.force q mu l d := by
  have hv : (boost x c).velStar mu d = x.velStar mu d + c d := by
    have hf' : (boost x c).fuzz = x.fuzz := rfl
    rw [velStar_eq, velStar_eq, if_pos hs, hf', if_pos hs]
    simp only [boost, mul_add, Finset.sum_add_distrib, ← Finset.sum_mul]
    have : ∑ l, mu l ≠ 0 := by linarith
    field_simp
  have hp : (boost x c).phi q = x.phi q := rfl
  unfold MarsInput.force
  rw [hv, hp]
  simp only [boost]
  ring

/-- The forces depend on velocity differences only (Galilean invariance): adding the same velocity
to all nodes of an element changes nothing, as long as the total impedance exceeds `fuzz`. -/
theorem C29_galilean (x : MarsInput) (q : MarsParams) (c : Fin 3 → ℝ) (hf : 0 < x.fuzz)
    (l : Fin 8) (d : Fin 3) :
    (x.fuzz < ∑ k, x.muMars q k → (boost x c).mars q l d = x.mars q l d) ∧
    (x.fuzz < ∑ k, x.muDirMars q k → (boost x c).dirMars q l d = x.dirMars q l d) := by
  unfold MarsInput.mars MarsInput.dirMars
  rw [boost_muMars, boost_muDirMars]
  exact ⟨fun h => boost_force x q _ c hf h l d, fun h => boost_force x q _ c hf h l d⟩

/-- An element in rigid translation feels no dissipation force. -/
theorem C29_translation_free (x : MarsInput) (q : MarsParams) (mu : Fin 8 → ℝ) (hf : 0 < x.fuzz)
    (hs : x.fuzz < ∑ l, mu l) (c : Fin 3 → ℝ) (hv : ∀ l d, x.vel l d = c d) (l : Fin 8)
    (d : Fin 3) : x.force q mu l d = 0 := by
  unfold MarsInput.force
  rw [velStar_eq, if_pos hs]
  simp only [hv]
  rw [← Finset.sum_mul, mul_div_assoc, mul_comm (∑ l, mu l), div_mul_cancel₀ _ (by linarith)]
  ring

/-- **C29.** With the expansion coefficients set to zero an expanding (or divergence-free) element
feels no dissipation at all, whatever its velocities. -/
theorem C29_expansion_off (x : MarsInput) (q : MarsParams) (hq1 : q.q1ex = 0) (hq2 : q.q2ex = 0)
    (hdiv : 0 ≤ x.L 0 0 + x.L 1 1 + x.L 2 2) (l : Fin 8) (d : Fin 3) :
    x.mars q l d = 0 ∧ x.dirMars q l d = 0 := by
  have hi : ∀ l, x.impedance q l = 0 := by
    intro l
    rw [MarsInput.impedance, if_neg (show ¬ x.div < 0 from not_lt.2 hdiv), hq1, hq2]
    ring
  constructor
  · simp [MarsInput.mars, MarsInput.force, MarsInput.muMars, hi]
  · simp [MarsInput.dirMars, MarsInput.force, MarsInput.muDirMars, hi]

/-- **C29.** In a compressed element the expansion coefficients play no role, in an expanding one
the compression coefficients play none. -/
theorem C29_coefficients_used (x : MarsInput) (q q' : MarsParams)
    (hf : q.phiFloor = q'.phiFloor) (hc : q.phiCurlFloor = q'.phiCurlFloor)
    (h : (x.L 0 0 + x.L 1 1 + x.L 2 2 < 0 ∧ q.q1 = q'.q1 ∧ q.q2 = q'.q2) ∨
      (0 ≤ x.L 0 0 + x.L 1 1 + x.L 2 2 ∧ q.q1ex = q'.q1ex ∧ q.q2ex = q'.q2ex)) :
    x.mars q = x.mars q' ∧ x.dirMars q = x.dirMars q' := by
  have hi : x.impedance q = x.impedance q' := by
    funext l
    rcases h with ⟨h, h1, h2⟩ | ⟨h, h1, h2⟩
    · rw [MarsInput.impedance, MarsInput.impedance, if_pos (show x.div < 0 from h), if_pos (show x.div < 0 from h), h1, h2]
    · rw [MarsInput.impedance, MarsInput.impedance, if_neg (show ¬ x.div < 0 from not_lt.2 h), if_neg (show ¬ x.div < 0 from not_lt.2 h), h1, h2]
  have hphi : x.phi q = x.phi q' := by
    unfold MarsInput.phi
    rw [hf, hc]
  constructor
  · funext l d
    unfold MarsInput.mars MarsInput.force MarsInput.velStar MarsInput.muSum MarsInput.muMars
    rw [hi, hphi]
  · funext l d
    unfold MarsInput.dirMars MarsInput.force MarsInput.velStar MarsInput.muSum MarsInput.muDirMars
    rw [hi, hphi]

/-- Position of a corner along each of the three directions of the element (specification):
corner `l` sits at `(i, j, k)` with `l = i + 2 j + 4 k`. -/
def cornerBit (l : Fin 8) (a : Fin 3) : Bool := (l.val / 2 ^ a.val) % 2 == 1

/-- **C29.** The three neighbours of a corner used by the directional model are exactly the corners
joined to it by an edge of the hexahedron: those that differ in exactly one direction. -/
theorem C29_corner_neighbours (l m : Fin 8) :
    (∃ k, MarsInput.cornerNbr l k = m) ↔ ∃ a, ∀ b, (cornerBit l b ≠ cornerBit m b ↔ b = a) := by
  revert l m; decide

/-- **C29.** The face between two corners is seen with opposite normals from its two sides, and
the dual faces of the element close: their normals add up to zero. -/
theorem C29_dual_faces (x : MarsInput) :
    (∀ l m k k' d, MarsInput.cornerNbr l k = m → MarsInput.cornerNbr m k' = l →
      x.dualNormal l k d = -x.dualNormal m k' d) ∧
    ∀ d, ∑ l, ∑ k, x.dualNormal l k d = 0 := by
  constructor
  · intro l m k k' d h h'
    unfold MarsInput.dualNormal
    rw [h, h']; ring
  · intro d
    simp only [MarsInput.dualNormal, Fin.sum_univ_eight, Fin.sum_univ_three]
    simp only [MarsInput.cornerNbr, Matrix.cons_val]
    ring

/-! ### Consequences for the solver -/

section Solver
variable {E N : ℕ}

theorem matCornerForce_sum (mesh : Mesh8 E N) (coords : Fin N → Fin 3 → ℝ) (dec : Bool)
    (disp : Fin 8 → Fin 3 → ℝ) (p : MatPt ℝ E) (d : Fin 3) :
    ∑ l, matCornerForce mesh coords dec disp p l d =
      if p.eroded = true then 0 else (∑ l, disp l d) * p.volfrac * p.geoVolfrac := by
  have h0 := C10_stress_force_sums_zero mesh coords dec (fun _ _ => 0) (by simp) p d
  cases hp : p.eroded
  · simp only [matCornerForce, hp, Bool.false_eq_true, if_false] at h0 ⊢
    have : ∀ l, forceComponent mesh coords dec disp p l d =
        forceComponent mesh coords dec (fun _ _ => 0) p l d + disp l d := by
      intro l; simp [forceComponent]
    simp only [this, add_mul, Finset.sum_add_distrib]
    rw [h0, zero_add, ← Finset.sum_mul, ← Finset.sum_mul]
  · simp only [if_true]
    exact Finset.sum_eq_zero fun l _ => matCornerForce_eroded _ _ _ _ p hp l d

/-- Exact momentum balance of a stage for an arbitrary dissipation model: the change is the impulse
of the external forces plus that of the dissipation forces of the live points. -/
theorem C10_stage_balance_exact (env : SghEnv ℝ E N) (hWF : env.mesh.WF)
    (hm : ∀ n, env.mass n ≠ 0) (time alpha dt : ℝ) (st : SghState ℝ E N)
    (hcons : ErosionConsistent st.mats) (d : Fin 3) :
    momentum env.mass (stageVelFree env time alpha dt st) d
      = momentum env.mass st.velN0 d + alpha * dt * (∑ n, env.ext st time n d +
        (st.mats.map fun m => (m.pts.map fun p => if p.eroded = true then 0 else
          (∑ l, env.closures.disp st m p l d) * p.volfrac * p.geoVolfrac).sum).sum) := by
  have h1 : ∀ n, env.mass n * stageVelFree env time alpha dt st n d
      = env.mass n * st.velN0 n d + alpha * dt *
        (nodeForceTotal env.mesh (env.ext st time) (cornerForces env.mesh env.closures st) n d * 1) := by
    intro n
    simp only [stageVelFree, updateVelocity]
    have := hm n
    field_simp
  simp only [momentum, h1, Finset.sum_add_distrib, ← Finset.mul_sum]
  rw [sum_nodeForce env.mesh hWF _ _ d fun _ => 1]
  have h2 : ∑ c : Fin E × Fin 8, cornerForces env.mesh env.closures st c d * 1 =
      (st.mats.map fun m => (m.pts.map fun p => if p.eroded = true then 0 else
          (∑ l, env.closures.disp st m p l d) * p.volfrac * p.geoVolfrac).sum).sum := by
    simp only [mul_one, cornerForces_sum env.mesh env.closures st hcons]
    rw [← listSum_finset]
    congr 1
    apply List.map_congr_left
    intro m _
    rw [← listSum_finset]
    congr 1
    apply List.map_congr_left
    intro p _
    rw [← matCornerForce_sum env.mesh st.coords m.decoupledEOS, Fintype.sum_prod_type,
      Finset.sum_eq_single p.elem]
    · simp
    · intro e _ he; simp [he]
    · simp
  rw [h2]
  simp

/-- A solver whose materials use MARS or directional MARS. -/
def UsesMars (C : Closures ℝ E N) (inp : SghState ℝ E N → Mat ℝ E → MatPt ℝ E → MarsInput)
    (q : Mat ℝ E → MarsParams) : Prop :=
  ∀ st m p, C.disp st m p = (inp st m p).mars (q m) ∨ C.disp st m p = (inp st m p).dirMars (q m)

theorem abs_listSum_le {α : Type*} (l : List α) (f : α → ℝ) (c : ℝ) (h : ∀ a ∈ l, |f a| ≤ c) :
    |(l.map f).sum| ≤ l.length * c := by
  induction l with
  | nil => simp
  | cons a l ih =>
    rw [List.map_cons, List.sum_cons, List.length_cons]
    have h1 := abs_add_le (f a) ((l.map f).sum)
    have h2 := h a (by simp)
    have h3 := ih fun b hb => h b (by simp [hb])
    push_cast
    linarith

/-- With MARS the momentum of a stage is conserved up to the external impulse and at most
`fuzz * vmax` per material point and unit of time. -/
theorem C10_mars_stage (env : SghEnv ℝ E N) (hWF : env.mesh.WF)
    (hm : ∀ n, env.mass n ≠ 0) (time alpha dt : ℝ) (st : SghState ℝ E N)
    (hcons : ErosionConsistent st.mats) (d : Fin 3)
    (inp : SghState ℝ E N → Mat ℝ E → MatPt ℝ E → MarsInput) (q : Mat ℝ E → MarsParams)
    (hC : UsesMars env.closures inp q) (fuzz vmax : ℝ) (hfuzz : 0 ≤ fuzz) (hvmax : 0 ≤ vmax)
    (hphys : ∀ m ∈ st.mats, ∀ p ∈ m.pts, (inp st m p).Physical (q m) ∧ (inp st m p).fuzz = fuzz ∧
      ∀ l, |(inp st m p).vel l d| ≤ vmax)
    (hvf : ∀ m ∈ st.mats, ∀ p ∈ m.pts, 0 ≤ p.volfrac ∧ p.volfrac ≤ 1 ∧ 0 ≤ p.geoVolfrac ∧
      p.geoVolfrac ≤ 1) (M : ℕ) (hM : ∀ m ∈ st.mats, m.pts.length ≤ M) :
    |momentum env.mass (stageVelFree env time alpha dt st) d -
      (momentum env.mass st.velN0 d + alpha * dt * ∑ n, env.ext st time n d)|
      ≤ |alpha * dt| * (st.mats.length * (M * (fuzz * vmax))) := by
  rw [C10_stage_balance_exact env hWF hm time alpha dt st hcons d]
  have : ∀ a b c : ℝ, a + alpha * dt * (b + c) - (a + alpha * dt * b) = alpha * dt * c := by
    intros; ring
  rw [this, abs_mul]
  apply mul_le_mul_of_nonneg_left _ (abs_nonneg _)
  apply abs_listSum_le
  intro m hmm
  have hpt : ∀ p ∈ m.pts, |if p.eroded = true then 0 else
      (∑ l, env.closures.disp st m p l d) * p.volfrac * p.geoVolfrac| ≤ fuzz * vmax := by
    intro p hp
    obtain ⟨h1, h2, h3⟩ := hphys m hmm p hp
    obtain ⟨v1, v2, v3, v4⟩ := hvf m hmm p hp
    have hfz : 0 < fuzz := h2 ▸ h1.fuzz
    have hb : |∑ l, env.closures.disp st m p l d| ≤ fuzz * vmax := by
      rcases hC st m p with h | h
      · rw [h, ← h2]; exact C29_momentum_leak_bound _ _ h1 _ (muMars_nonneg _ _ h1) d vmax h3
      · rw [h, ← h2]; exact C29_momentum_leak_bound _ _ h1 _ (muDirMars_nonneg _ _ h1) d vmax h3
    split_ifs
    · rw [abs_zero]; positivity
    · rw [mul_assoc, abs_mul, abs_of_nonneg (mul_nonneg v1 v3)]
      have : p.volfrac * p.geoVolfrac ≤ 1 := mul_le_one₀ v2 v3 v4
      calc _ ≤ fuzz * vmax * 1 := mul_le_mul hb this (mul_nonneg v1 v3) (by positivity)
        _ = _ := mul_one _
  refine (abs_listSum_le m.pts _ (fuzz * vmax) hpt).trans ?_
  have : (m.pts.length : ℝ) ≤ M := by exact_mod_cast hM m hmm
  exact mul_le_mul_of_nonneg_right this (mul_nonneg hfuzz hvmax)

end Solver

/-- A physical input with two different velocities: the hypotheses are met and the power is
strictly negative, so the statements are not about zero forces only. -/
noncomputable def demoMars : MarsInput where
  L i j := if i = j then -1 else 0
  nbrDiv := []
  vel l _ := if l = 0 then 1 else 0
  normal _ _ := 1
  den := 1
  sspd := 1
  vol := 1
  fuzz := 1e-16
  small := 1e-8

noncomputable def demoMarsParams : MarsParams := ⟨1, 1, 1, 1, 1, 0⟩

example : demoMars.Physical demoMarsParams := by
  constructor <;> norm_num [demoMars, demoMarsParams]

example : demoMars.force demoMarsParams (fun _ => 1) 0 0 = -7 / 8 := by
  have hphi : demoMars.phi demoMarsParams = 1 := by
    have h := C29_phi_bounds demoMars demoMarsParams
      (by constructor <;> norm_num [demoMars, demoMarsParams])
    exact le_antisymm h.2.2 h.1
  unfold MarsInput.force
  rw [hphi, velStar_eq]
  simp only [demoMars, Fin.sum_univ_eight]
  have h : ∀ k : Fin 8, k ≠ 0 → (if k = 0 then (1 : ℝ) else 0) = 0 := fun k hk => if_neg hk
  rw [h 1 (by decide), h 2 (by decide), h 3 (by decide), h 4 (by decide), h 5 (by decide),
    h 6 (by decide), h 7 (by decide)]
  norm_num

end Fierro
