import Verif.Props.Mars
import Verif.Props.SghRzDir

/-!
# C29, C57, C129: the dissipation models stated outright
-/

namespace Fierro

/-! ### Specification -/

/-- Length of a vector. -/
noncomputable def spanLen {D : ℕ} (a : Fin D → ℝ) : ℝ := Real.sqrt (∑ d, a d ^ 2)

/-- Velocity of a corner relative to the mean of the corners. -/
noncomputable def relVel {k D : ℕ} (v : Fin k → Fin D → ℝ) (l : Fin k) (d : Fin D) : ℝ := v l d - (∑ j, v j d) / k

/-- Impedance of a corner: density times (linear coefficient times sound speed + quadratic coefficient times the
relative speed), with one pair of coefficients in compression and another otherwise. -/
noncomputable def cornerZ {k D : ℕ} (q : MarsParams) (tr den c : ℝ) (v : Fin k → Fin D → ℝ) (l : Fin k) : ℝ :=
  den * ((if tr < 0 then q.q1 else q.q1ex) * c + (if tr < 0 then q.q2 else q.q2ex) * spanLen (relVel v l))

/-- Velocity the corners relax to: the mean weighted with the impedances. -/
noncomputable def commonVel {k D : ℕ} (fuzz : ℝ) (μ : Fin k → ℝ) (v : Fin k → Fin D → ℝ) (d : Fin D) : ℝ :=
  if fuzz < ∑ l, μ l then (∑ l, μ l * v l d) / ∑ l, μ l else 0

/-- The values the smoothness of the flow is judged by: one, and for each neighbour nine tenths of the ratio of the
divergences. -/
def smoothness (small tr : ℝ) (nbrs : List ℝ) : Set ℝ :=
  {r | r = 1 ∨ ∃ t ∈ nbrs, r = 9 / 10 * ((t + small) / (tr + small))}

/-- Shock detector: `R` is the smoothness, `h` the length scale, `κ` the ratio of divergence and curl. -/
noncomputable def shockPhi (q : MarsParams) (tr c fuzz h κ R : ℝ) : ℝ :=
  max q.phiFloor (min (min 1 (20 * h * |tr| / (c + fuzz)) * (1 - max 0 R)) (max (min 1 κ) q.phiCurlFloor))

/-! ### Helpers -/

theorem foldl_min_least {α : Type*} (g : α → ℝ) (l : List α) (a : ℝ) :
    IsLeast {r | r = a ∨ ∃ t ∈ l, r = g t} (l.foldl (fun r t => min (g t) r) a) := by
  induction l generalizing a with
  | nil => exact ⟨Or.inl rfl, fun r hr => by rcases hr with rfl | ⟨t, ht, -⟩; · exact le_rfl
                                             · cases ht⟩
  | cons t l ih =>
    obtain ⟨h1, h2⟩ := ih (min (g t) a)
    rw [List.foldl_cons]
    refine ⟨?_, ?_⟩
    · rcases h1 with h | ⟨s, hs, h⟩
      · rcases min_choice (g t) a with h' | h'
        · exact Or.inr ⟨t, List.mem_cons_self, h.trans h'⟩
        · exact Or.inl (h.trans h')
      · exact Or.inr ⟨s, List.mem_cons_of_mem _ hs, h⟩
    · rintro r (rfl | ⟨s, hs, rfl⟩)
      · exact (h2 (Or.inl rfl)).trans (min_le_right _ _)
      · rcases List.mem_cons.1 hs with rfl | hs
        · exact (h2 (Or.inl rfl)).trans (min_le_left _ _)
        · exact h2 (Or.inr ⟨s, hs, rfl⟩)

theorem smoothness_fold (small tr : ℝ) (nbrs : List ℝ) :
    IsLeast (smoothness small tr nbrs)
      (nbrs.foldl (fun r dn => min (9 / 10 * (dn + small) / (tr + small)) r) 1) := by
  have h := foldl_min_least (fun dn => 9 / 10 * (dn + small) / (tr + small)) nbrs 1
  have e : smoothness small tr nbrs = {r | r = 1 ∨ ∃ t ∈ nbrs, r = 9 / 10 * (t + small) / (tr + small)} := by
    unfold smoothness
    simp only [mul_div_assoc]
  rw [e]
  exact h

theorem MarsInput.magVel_eq (x : MarsInput) (l : Fin 8) : x.magVel l = spanLen (relVel x.vel l) := by
  simp only [MarsInput.magVel, spanLen, relVel, Fin.sum_univ_three, x.velAvg_eq]
  push_cast
  ring_nf

theorem MarsInput.magNormal_eq (x : MarsInput) (l : Fin 8) : x.magNormal l = spanLen (x.normal l) := by
  simp only [MarsInput.magNormal, spanLen, Fin.sum_univ_three]
  ring_nf

theorem MarsInput.impedance_eq (x : MarsInput) (q : MarsParams) (l : Fin 8) :
    x.impedance q l = cornerZ q (∑ i, x.L i i) x.den x.sspd x.vel l := by
  have hd : x.div = ∑ i, x.L i i := by rw [MarsInput.div, Fin.sum_univ_three]
  unfold MarsInput.impedance cornerZ
  rw [hd, x.magVel_eq]
  split_ifs <;> rfl

theorem MarsInput.phi_eq (x : MarsInput) (q : MarsParams) :
    x.phi q = shockPhi q (∑ i, x.L i i) x.sspd x.fuzz (x.vol ^ (1 / 3 : ℝ))
      (|∑ i, x.L i i| / (spanLen (![x.L 2 1 - x.L 1 2, x.L 0 2 - x.L 2 0, x.L 1 0 - x.L 0 1]) + x.fuzz)) x.rMin := by
  have hd : x.div = ∑ i, x.L i i := by rw [MarsInput.div, Fin.sum_univ_three]
  have hc : x.magCurl = spanLen (![x.L 2 1 - x.L 1 2, x.L 0 2 - x.L 2 0, x.L 1 0 - x.L 0 1]) := by
    simp only [MarsInput.magCurl, spanLen, Fin.sum_univ_three]
    simp
    ring_nf
  unfold MarsInput.phi shockPhi
  simp only [hd, hc, one_mul, mul_assoc]

/-! ### Theorems -/

/-- **C29.** The dissipation force on a corner, outright: it pulls the velocity of the corner towards the mean of the
corner velocities weighted with impedance times area, with this weight and the shock detector as factors; the detector is
computed from the least of the ratios of divergences (`R`), the size of the element, and the ratio of divergence and
curl. -/
theorem C29_law (x : MarsInput) (q : MarsParams) :
    ∃ R, IsLeast (smoothness x.small (∑ i, x.L i i) x.nbrDiv) R ∧
    ∀ (μ : Fin 8 → ℝ) (φ : ℝ), (∀ l, μ l = cornerZ q (∑ i, x.L i i) x.den x.sspd x.vel l * spanLen (x.normal l)) →
      φ = shockPhi q (∑ i, x.L i i) x.sspd x.fuzz (x.vol ^ (1 / 3 : ℝ)) (|∑ i, x.L i i|
        / (spanLen (![x.L 2 1 - x.L 1 2, x.L 0 2 - x.L 2 0, x.L 1 0 - x.L 0 1]) + x.fuzz)) R →
      ∀ l d, x.mars q l d = φ * μ l * (commonVel x.fuzz μ x.vel d - x.vel l d) := by
  have hd : x.div = ∑ i, x.L i i := by rw [MarsInput.div, Fin.sum_univ_three]
  refine ⟨x.rMin, ?_, fun μ φ hμ hφ l d => ?_⟩
  · rw [MarsInput.rMin, hd]; exact smoothness_fold _ _ _
  · have hm : x.muMars q = μ := funext fun l => by rw [MarsInput.muMars, x.impedance_eq, x.magNormal_eq, hμ]
    rw [MarsInput.mars, MarsInput.force, hm, x.phi_eq, ← hφ, x.velStar_eq]
    rfl

/-- **C29.** The directional model differs in the weight only: the area is replaced by the sum, over the three edges at
the corner, of the size of the dual face as seen along the shock direction: the direction of the relative velocity, or
the corner normal where that is too small. -/
theorem C29_directional_law (x : MarsInput) (q : MarsParams) :
    ∃ R, IsLeast (smoothness x.small (∑ i, x.L i i) x.nbrDiv) R ∧
    ∀ (μ : Fin 8 → ℝ) (φ : ℝ) (s : Fin 8 → Fin 3 → ℝ),
      (∀ l, x.small < spanLen (relVel x.vel l) → ∀ d, s l d = relVel x.vel l d / spanLen (relVel x.vel l)) →
      (∀ l, spanLen (relVel x.vel l) ≤ x.small → ∀ d, s l d = x.normal l d / spanLen (x.normal l)) →
      (∀ l, μ l = cornerZ q (∑ i, x.L i i) x.den x.sspd x.vel l *
        ∑ k, |∑ d, s l d * ((x.normal (MarsInput.cornerNbr l k) d - x.normal l d) / 2)|) →
      φ = shockPhi q (∑ i, x.L i i) x.sspd x.fuzz (x.vol ^ (1 / 3 : ℝ)) (|∑ i, x.L i i|
        / (spanLen (![x.L 2 1 - x.L 1 2, x.L 0 2 - x.L 2 0, x.L 1 0 - x.L 0 1]) + x.fuzz)) R →
      ∀ l d, x.dirMars q l d = φ * μ l * (commonVel x.fuzz μ x.vel d - x.vel l d) := by
  have hd : x.div = ∑ i, x.L i i := by rw [MarsInput.div, Fin.sum_univ_three]
  refine ⟨x.rMin, ?_, fun μ φ s hs1 hs2 hμ hφ l d => ?_⟩
  · rw [MarsInput.rMin, hd]; exact smoothness_fold _ _ _
  · have hs : ∀ l d, x.shockDir l d = s l d := by
      intro l d
      unfold MarsInput.shockDir
      rw [x.magVel_eq, x.magNormal_eq]
      split_ifs with h
      · rw [hs1 l h d, relVel, x.velAvg_eq]; norm_num
      · rw [hs2 l (not_lt.1 h) d]
    have hm : x.muDirMars q = μ := by
      funext l
      rw [MarsInput.muDirMars, x.impedance_eq, hμ]
      simp only [Fin.sum_univ_three, hs, MarsInput.dualNormal]
      ring_nf
    rw [MarsInput.dirMars, MarsInput.force, hm, x.phi_eq, ← hφ, x.velStar_eq]
    rfl

namespace MarsRzInput

theorem foldl4_sum (f : Fin 4 → ℝ) : (List.finRange 4).foldl (fun acc l => acc + f l) 0 = ∑ l, f l := by
  rw [Fin.sum_univ_four]
  simp [List.finRange_succ]

theorem avg_eq (x : MarsRzInput) (d : Fin 2) : x.velAvg d = (∑ l, x.vel l d) / 4 := by
  unfold velAvg
  rw [foldl4_sum fun l => 1 / 4 * x.vel l d, ← Finset.mul_sum]
  ring

theorem magVel_eq (x : MarsRzInput) (l : Fin 4) : x.magVel l = spanLen (relVel x.vel l) := by
  simp only [magVel, spanLen, relVel, Fin.sum_univ_two, x.avg_eq]
  push_cast
  ring_nf

theorem magNormal_eq (x : MarsRzInput) (l : Fin 4) : x.magNormal l = spanLen (x.normal l) := by
  simp only [magNormal, spanLen, Fin.sum_univ_two]
  ring_nf

theorem impedance_eq (x : MarsRzInput) (q : MarsParams) (l : Fin 4) :
    x.impedance q l = cornerZ q (x.L 0 0 + x.L 1 1 + x.hoop) x.den x.sspd x.vel l := by
  unfold impedance cornerZ
  rw [x.magVel_eq, div]
  split_ifs <;> rfl

theorem common_eq (x : MarsRzInput) (μ : Fin 4 → ℝ) (d : Fin 2) : x.velStar μ d = commonVel x.fuzz μ x.vel d := by
  unfold velStar commonVel
  rw [foldl4_sum fun l => μ l * x.vel l d, foldl4_sum μ]

theorem phi_eq (x : MarsRzInput) (q : MarsParams) :
    x.phi q = shockPhi q (x.L 0 0 + x.L 1 1 + x.hoop) x.sspd x.fuzz (Real.sqrt x.area)
      (4 * |x.L 0 0 + x.L 1 1 + x.hoop| / (x.L 1 0 - x.L 0 1 + x.fuzz)) x.rMin := by
  unfold phi shockPhi
  simp only [div, magCurl, mul_assoc]

end MarsRzInput

/-- **C57.** The dissipation force on a corner of the axisymmetric solver, outright, as in `C29_law`; the divergence
includes the hoop term, the length scale is the root of the area, and the detector divides by the curl itself, not by its
size. -/
theorem C57_law (x : MarsRzInput) (q : MarsParams) :
    ∃ R, IsLeast (smoothness x.small (x.L 0 0 + x.L 1 1 + x.hoop) x.nbrDiv) R ∧
    ∀ (tr : ℝ) (μ : Fin 4 → ℝ) (φ : ℝ), tr = x.L 0 0 + x.L 1 1 + x.hoop →
      (∀ l, μ l = cornerZ q tr x.den x.sspd x.vel l * spanLen (x.normal l)) →
      φ = shockPhi q tr x.sspd x.fuzz (Real.sqrt x.area) (4 * |tr| / (x.L 1 0 - x.L 0 1 + x.fuzz)) R →
      ∀ l d, x.mars q l d = φ * μ l * (commonVel x.fuzz μ x.vel d - x.vel l d) := by
  refine ⟨x.rMin, ?_, fun tr μ φ ht hμ hφ l d => ?_⟩
  · rw [MarsRzInput.rMin, MarsRzInput.div]; exact smoothness_fold _ _ _
  · subst ht
    have hm : x.mu q = μ := funext fun l => by rw [MarsRzInput.mu, x.impedance_eq, x.magNormal_eq, hμ]
    rw [MarsRzInput.mars, hm, x.phi_eq, ← hφ, x.common_eq]

/-- **C129.** The directional model of the axisymmetric solver, outright: defined if every corner has a shock direction,
and then as in `C57_law` with the sum of the dual edges seen along the shock direction in place of the corner length. -/
theorem C129_law (x : MarsRzInput) (q : MarsParams)
    (hok : ∀ l, x.small < spanLen (relVel x.vel l) ∨ spanLen (x.normal l) ≠ 0) :
    ∃ R, IsLeast (smoothness x.small (x.L 0 0 + x.L 1 1 + x.hoop) x.nbrDiv) R ∧
    ∀ (tr : ℝ) (μ : Fin 4 → ℝ) (φ : ℝ) (s : Fin 4 → Fin 2 → ℝ), tr = x.L 0 0 + x.L 1 1 + x.hoop →
      (∀ l, x.small < spanLen (relVel x.vel l) → ∀ d, s l d = relVel x.vel l d / spanLen (relVel x.vel l)) →
      (∀ l, spanLen (relVel x.vel l) ≤ x.small → ∀ d, s l d = x.normal l d / spanLen (x.normal l)) →
      (∀ l, μ l = cornerZ q tr x.den x.sspd x.vel l *
        ∑ k, |∑ d, s l d * ((x.normal (MarsRzInput.cornerNbr l k) d - x.normal l d) / 2)|) →
      φ = shockPhi q tr x.sspd x.fuzz (Real.sqrt x.area) (4 * |tr| / (x.L 1 0 - x.L 0 1 + x.fuzz)) R →
      x.dirMars q = some fun l d => φ * μ l * (commonVel x.fuzz μ x.vel d - x.vel l d) := by
  refine ⟨x.rMin, ?_, fun tr μ φ s ht hs1 hs2 hμ hφ => ?_⟩
  · rw [MarsRzInput.rMin, MarsRzInput.div]; exact smoothness_fold _ _ _
  · subst ht
    have hs : ∀ l, x.shockDir l = some (s l) := by
      intro l
      unfold MarsRzInput.shockDir
      rw [x.magVel_eq, x.magNormal_eq]
      split_ifs with h h'
      · congr 1
        funext d
        rw [hs1 l h d, relVel, x.avg_eq]; norm_num
      · exact absurd h' ((hok l).resolve_left h)
      · congr 1
        funext d
        rw [hs2 l (not_lt.1 h) d]
    rw [dirMars_of hs]
    congr 1
    have hm : (fun l => x.muDir q l (s l)) = μ := by
      funext l
      rw [MarsRzInput.muDir, x.impedance_eq, hμ]
      simp only [Fin.sum_univ_two, MarsRzInput.dualNormal]
      ring_nf
    funext l d
    rw [hm, MarsRzInput.dirForce, x.phi_eq, ← hφ, x.common_eq]

/-- The hypothesis of `C129_law` is met by every input with nonzero corner normals. -/
example (x : MarsRzInput) (h : ∀ l, x.normal l 0 ≠ 0) (l : Fin 4) :
    x.small < spanLen (relVel x.vel l) ∨ spanLen (x.normal l) ≠ 0 := by
  right
  unfold spanLen
  rw [Fin.sum_univ_two]
  have := h l
  positivity

end Fierro
