import Mathlib.Tactic.Module
import Verif.Props.EvpLargeExp

/-!
# C90: averages over the deformed volume; C97: first Piola-Kirchhoff stress
-/

namespace Fierro

open Large Matrix

variable {ι : Type} [Fintype ι]

/-! ### Specification -/

/-- Average of a field over the deformed volume. -/
def meanC (s : State ι) (f : ι → M3) : M3 := ∑ x, (s.pt x).wgtc • f x

/-- Average velocity gradient. -/
def meanL (s : State ι) : M3 := meanC s fun x => (s.pt x).L

/-- The weights of the points are their shares of the deformed volume, each stored inverse is the
inverse of the gradient of its point, the stored determinant is its determinant and the stored matrix
is the inverse of the average inverse gradient. -/
structure Balanced (s : State ι) : Prop where
  sum_one : ∑ x, (s.pt x).wgtc = 1
  share : ∀ x, (s.pt x).wgtc * ∑ y, (s.pt y).F.det = (s.pt x).F.det
  det : ∀ x, (s.pt x).detF = (s.pt x).F.det
  inv : ∀ x, (s.pt x).F * (s.pt x).Finv = 1
  mean_left : meanC s (fun x => (s.pt x).Finv) * s.favgcInv = 1
  mean_right : s.favgcInv * meanC s (fun x => (s.pt x).Finv) = 1

theorem meanC_apply (s : State ι) (f : ι → M3) (i j : Fin 3) :
    meanC s f i j = ∑ x, (s.pt x).wgtc * f x i j := by
  simp [meanC, Matrix.sum_apply]

theorem meanC_mul (s : State ι) (A : M3) (f : ι → M3) : meanC s (fun x => A * f x) = A * meanC s f := by
  simp only [meanC, Finset.mul_sum, Matrix.mul_smul]

theorem meanC_add (s : State ι) (f g : ι → M3) :
    meanC s (fun x => f x + g x) = meanC s f + meanC s g := by
  simp only [meanC, smul_add, Finset.sum_add_distrib]

/-! ### Start -/

theorem deltM_det (delt : Fin 3 → ℝ) : (deltM delt).det = delt 0 * delt 1 * delt 2 := by
  rw [deltM, Matrix.det_diagonal, Fin.prod_univ_three]

theorem deltM_inv (delt : Fin 3 → ℝ) (h : ∀ a, delt a ≠ 0) :
    deltM delt * Matrix.diagonal (fun i => 1 / delt i) = 1 := by
  rw [deltM, Matrix.diagonal_mul_diagonal, ← Matrix.diagonal_one]
  congr 1
  funext i
  exact mul_one_div_cancel (h i)

theorem sum_wgt [Nonempty ι] : ∑ _x : ι, wgt ι = 1 := by
  have : (Fintype.card ι : ℝ) ≠ 0 := by exact_mod_cast Fintype.card_ne_zero
  simp only [wgt, Finset.sum_const, Finset.card_univ, nsmul_eq_mul]
  exact mul_one_div_cancel this

/-- **C90.** The initial state is balanced for every grid and every nonzero spacing. -/
theorem C90_start [Nonempty ι] (delt : Fin 3 → ℝ) (h : ∀ a, delt a ≠ 0) (gas : ι → Bool) :
    Balanced (State.start delt gas) := by
  have hm : meanC (State.start delt gas) (fun x => ((State.start delt gas).pt x).Finv) =
      Matrix.diagonal fun i => 1 / delt i := by
    show ∑ _x : ι, wgt ι • (Matrix.diagonal (fun i => 1 / delt i) : M3) = _
    rw [← Finset.sum_smul]
    have := sum_wgt (ι := ι)
    rw [this, one_smul]
  refine ⟨sum_wgt, ?_, ?_, fun x => deltM_inv delt h, ?_, ?_⟩
  · intro x
    show wgt ι * ∑ _y : ι, (deltM delt).det = (deltM delt).det
    have hs := sum_wgt (ι := ι)
    rw [Finset.sum_const, nsmul_eq_mul] at hs ⊢
    rw [← mul_assoc, mul_comm (wgt ι), hs, one_mul]
  · intro x
    exact (deltM_det delt).symm
  · rw [hm]; exact mul_eq_one_comm.mp (deltM_inv delt h)
  · rw [hm]; exact deltM_inv delt h

/-! ### The iteration -/

theorem turn_fields (s : State ι) (t : Turn ι) (x : ι) :
    ((turn s t).pt x).F = (s.pt x).F ∧ ((turn s t).pt x).Finv = (s.pt x).Finv ∧
      ((turn s t).pt x).detF = (s.pt x).detF ∧ ((turn s t).pt x).wgtc = (s.pt x).wgtc ∧
      (turn s t).favgcInv = s.favgcInv ∧ (turn s t).vmac = s.vmac ∧ (turn s t).dmact = s.dmact :=
  ⟨rfl, rfl, rfl, rfl, rfl, rfl, rfl⟩

theorem balanced_congr (s r : State ι) (hF : ∀ x, (r.pt x).F = (s.pt x).F)
    (hi : ∀ x, (r.pt x).Finv = (s.pt x).Finv) (hd : ∀ x, (r.pt x).detF = (s.pt x).detF)
    (hw : ∀ x, (r.pt x).wgtc = (s.pt x).wgtc) (hf : r.favgcInv = s.favgcInv) (h : Balanced s) :
    Balanced r := by
  have hm : meanC r (fun x => (r.pt x).Finv) = meanC s (fun x => (s.pt x).Finv) := by
    simp only [meanC, hi, hw]
  refine ⟨?_, ?_, ?_, ?_, ?_, ?_⟩
  · simp only [hw]; exact h.sum_one
  · intro x; simp only [hw, hF]; exact h.share x
  · intro x; rw [hd, hF]; exact h.det x
  · intro x; rw [hi, hF]; exact h.inv x
  · rw [hm, hf]; exact h.mean_left
  · rw [hm, hf]; exact h.mean_right

theorem turn_balanced (s : State ι) (t : Turn ι) (h : Balanced s) : Balanced (turn s t) :=
  balanced_congr s _ (fun _ => rfl) (fun _ => rfl) (fun _ => rfl) (fun _ => rfl) rfl h

theorem initialize_mean (s : State ι) (h : Balanced s) (work : ι → M3) :
    meanL (initializeVelgrad s work) = meanL s + s.dv := by
  have hd : dvelgradAvg s work = meanC s fun x => work x * (s.pt x).Finv := by
    ext i j
    rw [meanC_apply]
    simp only [dvelgradAvg, Matrix.of_apply, Matrix.mul_apply]
    exact Finset.sum_congr rfl fun x _ => mul_comm _ _
  have e : meanL (initializeVelgrad s work) =
      meanC s (fun x => (s.pt x).L + (work x + dudotAvg s work) * (s.pt x).Finv) := rfl
  rw [e, meanC_add]
  have e2 : meanC s (fun x => (work x + dudotAvg s work) * (s.pt x).Finv) = s.dv := by
    simp only [Matrix.add_mul]
    rw [meanC_add, meanC_mul, ← hd, dudotAvg, Matrix.mul_assoc, h.mean_right, Matrix.mul_one]
    abel
  rw [e2]
  rfl

/-- **C90.** One turn of the iteration moves the average velocity gradient by the correction found in
the turn before, whatever the stress, the fluctuation and the deformation of the points. -/
theorem C90_turn (s : State ι) (h : Balanced s) (t : Turn ι) :
    meanL (turn s t) = meanL s + s.dv := by
  have e : meanL (turn s t) = meanL (initializeVelgrad (cauchyToPK1 s)
      (t.work fun x => ((cauchyToPK1 s).pt x).sgPK1)) := rfl
  rw [e, initialize_mean (cauchyToPK1 s) (balanced_congr s _ (fun _ => rfl) (fun _ => rfl) (fun _ => rfl)
    (fun _ => rfl) rfl h)]
  rfl

theorem turn_acum (s : State ι) (t : Turn ι) : (turn s t).dvAcum = s.dvAcum + (turn s t).dv := rfl

theorem turns_mean (turns : List (Turn ι)) (s : State ι) (h : Balanced s) :
    Balanced (turns.foldl turn s) ∧
      meanL (turns.foldl turn s) + (turns.foldl turn s).dv =
        meanL s + s.dv + ((turns.foldl turn s).dvAcum - s.dvAcum) := by
  induction turns generalizing s with
  | nil => exact ⟨h, by simp⟩
  | cons t ts ih =>
    rw [List.foldl_cons]
    obtain ⟨h1, h2⟩ := ih (turn s t) (turn_balanced s t h)
    refine ⟨h1, ?_⟩
    rw [h2, C90_turn s h t, turn_acum]
    abel

/-- **C90.** After any number of turns the average velocity gradient is the one at the start of the
iteration plus all corrections of this step but the last. -/
theorem C90_iteration (tdot : ℝ) (first : Bool) (udot : M3) (turns : List (Turn ι)) (s : State ι)
    (h : Balanced s) :
    let r := iterated tdot first udot turns s
    Balanced r ∧ r.vact = udot + r.dvAcum ∧ r.dmact = s.dmact + tdot • r.vact ∧
      meanL r = (if first then udot else meanL s) + (r.dvAcum - r.dv) := by
  intro r
  obtain ⟨s0, hs0⟩ : ∃ s0, s0 = zeroCorrections (if first then
    stepUpdateVelgrad { s with vmac := udot } else { s with vmac := udot }) := ⟨_, rfl⟩
  have hr : r = stepUpdate tdot (turns.foldl turn s0) := by rw [hs0]; rfl
  have hb0 : Balanced s0 := by
    rw [hs0]
    cases first <;>
      exact balanced_congr s _ (fun _ => rfl) (fun _ => rfl) (fun _ => rfl) (fun _ => rfl) rfl h
  have hm0 : meanL s0 = if first then udot else meanL s := by
    rw [hs0]
    cases first
    · rfl
    · show meanC s (fun _ => udot) = udot
      rw [meanC, ← Finset.sum_smul, h.sum_one, one_smul]
  have hz : s0.dv = 0 ∧ s0.dvAcum = 0 ∧ s0.vmac = udot ∧ s0.dmact = s.dmact := by
    rw [hs0]; cases first <;> exact ⟨rfl, rfl, rfl, rfl⟩
  have hv : (turns.foldl turn s0).vmac = s0.vmac ∧ (turns.foldl turn s0).dmact = s0.dmact := by
    clear hs0 hb0 hm0 hz hr
    induction turns generalizing s0 with
    | nil => exact ⟨rfl, rfl⟩
    | cons t ts ih => exact ih (turn s0 t)
  obtain ⟨h1, h2⟩ := turns_mean turns s0 hb0
  refine ⟨?_, ?_, ?_, ?_⟩
  · rw [hr]
    exact balanced_congr (turns.foldl turn s0) _ (fun _ => rfl) (fun _ => rfl) (fun _ => rfl)
      (fun _ => rfl) rfl h1
  · rw [hr]
    show (turns.foldl turn s0).vmac + _ = _
    rw [hv.1, hz.2.2.1]; rfl
  · rw [hr]
    show (turns.foldl turn s0).dmact + _ = _
    rw [hv.2, hz.2.2.2]; rfl
  · have e : meanL r = meanL (turns.foldl turn s0) := by rw [hr]; rfl
    have e1 : r.dvAcum = (turns.foldl turn s0).dvAcum := by rw [hr]; rfl
    have e2 : r.dv = (turns.foldl turn s0).dv := by rw [hr]; rfl
    rw [e, e1, e2, ← hm0]
    rw [hz.1, hz.2.1, add_zero, sub_zero] at h2
    rw [← add_sub_assoc, ← h2]
    abel

/-! ### The update -/

/-- What `update_defgrad` needs at a state: every increment and every new gradient is inverted to the
end, the mean determinant is not zero and the mean inverse is inverted to the end. -/
structure UpdateOk (tdot : ℝ) (s : State ι) : Prop where
  inc : ∀ x, inv3Ok (matrixExp (tdot • (s.pt x).L)) = true
  grad : ∀ x, inv3Ok (matrixExp (tdot • (s.pt x).L) * (s.pt x).F) = true
  vol : ∑ x, (matrixExp (tdot • (s.pt x).L) * (s.pt x).F).det ≠ 0
  mean : inv3Ok (finvAvg fun x => (s.pt x).advance (wgt ι) tdot) = true

theorem wgt_ne [Nonempty ι] : wgt ι ≠ 0 := by
  have : (Fintype.card ι : ℝ) ≠ 0 := by exact_mod_cast Fintype.card_ne_zero
  exact one_div_ne_zero this

/-- **C90.** `update_defgrad` re-establishes the balance and makes the average velocity gradient equal
to the macroscopic one. -/
theorem C90_update [Nonempty ι] (tdot : ℝ) (s : State ι) (h : UpdateOk tdot s) :
    Balanced (updateDefgrad tdot s) ∧ meanL (updateDefgrad tdot s) = s.vact := by
  obtain ⟨q, hq⟩ : ∃ q : ι → Point, q = fun x => (s.pt x).advance (wgt ι) tdot := ⟨_, rfl⟩
  have hdet : ∀ x, (q x).detF = (q x).F.det := by
    intro x; rw [hq]; exact det33_eq _
  have hD : detFavg q = wgt ι * ∑ x, (q x).F.det := by
    simp only [detFavg, hdet, Finset.mul_sum]
    exact Finset.sum_congr rfl fun x _ => mul_comm _ _
  have hS : ∑ x, (q x).F.det ≠ 0 := by
    rw [hq]; exact h.vol
  have hD0 : detFavg q ≠ 0 := by rw [hD]; exact mul_ne_zero wgt_ne hS
  have hwg : ∀ x, ((updateDefgrad tdot s).pt x).wgtc = wgt ι * (q x).F.det / detFavg q := by
    intro x
    rw [hq, ← det33_eq]; rfl
  have hFF : ∀ x, ((updateDefgrad tdot s).pt x).F = (q x).F := by intro x; rw [hq]; rfl
  have hFi : ∀ x, ((updateDefgrad tdot s).pt x).Finv = (q x).Finv := by intro x; rw [hq]; rfl
  have hLL : ∀ x, ((updateDefgrad tdot s).pt x).L = (q x).L + dudotIniAvg s.vact q * (q x).Finv := by
    intro x; rw [hq]; rfl
  have hmean : ∀ f : ι → M3, meanC (updateDefgrad tdot s) f =
      Matrix.of fun i j => (∑ x, f x i j * wgt ι * (q x).detF) / detFavg q := by
    intro f
    ext i j
    rw [meanC_apply, Matrix.of_apply, Finset.sum_div]
    refine Finset.sum_congr rfl fun x _ => ?_
    rw [hwg, hdet]
    ring
  have hfm : meanC (updateDefgrad tdot s) (fun x => ((updateDefgrad tdot s).pt x).Finv) = finvAvg q := by
    rw [hmean]; simp only [hFi]; rfl
  have hfi : (updateDefgrad tdot s).favgcInv = inv3 (finvAvg q) := by rw [hq]; rfl
  have hok : inv3Ok (finvAvg q) = true := by rw [hq]; exact h.mean
  obtain ⟨hi1, hi2⟩ := inv3_mul _ hok
  refine ⟨⟨?_, ?_, ?_, ?_, ?_, ?_⟩, ?_⟩
  · simp only [hwg]
    rw [← Finset.sum_div, ← Finset.mul_sum, ← hD, div_self hD0]
  · intro x
    simp only [hwg, hFF, hD]
    rw [div_mul_eq_mul_div, div_eq_iff (by rw [← hD]; exact hD0)]
    ring
  · intro x
    rw [hFF, ← hdet x, hq]; rfl
  · intro x
    rw [hFF, hFi, hq]
    exact (inv3_mul _ (h.grad x)).1
  · rw [hfm, hfi]; exact hi1
  · rw [hfm, hfi]; exact hi2
  · have e : meanL (updateDefgrad tdot s) = meanC (updateDefgrad tdot s)
        (fun x => (q x).L + dudotIniAvg s.vact q * ((updateDefgrad tdot s).pt x).Finv) := by
      simp only [meanL, hLL, hFi]
    rw [e, meanC_add, meanC_mul, hfm, dudotIniAvg, Matrix.mul_assoc, hi2, Matrix.mul_one]
    have : meanC (updateDefgrad tdot s) (fun x => (q x).L) = velgradAvg q := by rw [hmean]; rfl
    rw [this]
    abel

theorem updateE_fields (s r : State ι) (h : updateDefgradE s = some r) :
    (∀ x, (r.pt x).F = (s.pt x).F ∧ (r.pt x).Finv = (s.pt x).Finv ∧ (r.pt x).detF = (s.pt x).detF ∧
      (r.pt x).wgtc = (s.pt x).wgtc ∧ (r.pt x).L = (s.pt x).L ∧ (r.pt x).Fp = (s.pt x).Fp ∧
      (r.pt x).Fini = (s.pt x).Fini ∧ (r.pt x).gas = (s.pt x).gas ∧
      some (r.pt x) = (s.pt x).elastic) ∧
    r.favgcInv = s.favgcInv ∧ r.vact = s.vact ∧ r.dmact = s.dmact ∧ r.dv = s.dv ∧
      r.dvAcum = s.dvAcum := by
  classical
  rw [updateDefgradE] at h
  split_ifs at h with hs
  · obtain rfl := (Option.some.inj h)
    refine ⟨fun x => ?_, rfl, rfl, rfl, rfl, rfl⟩
    obtain ⟨p, hp⟩ := Option.isSome_iff_exists.mp (hs x)
    have hg : ((s.pt x).elastic).get (hs x) = p := by simp [hp]
    have key : p.F = (s.pt x).F ∧ p.Finv = (s.pt x).Finv ∧ p.detF = (s.pt x).detF ∧
        p.wgtc = (s.pt x).wgtc ∧ p.L = (s.pt x).L ∧ p.Fp = (s.pt x).Fp ∧ p.Fini = (s.pt x).Fini ∧
        p.gas = (s.pt x).gas := by
      rw [Point.elastic] at hp
      split_ifs at hp with hgas
      · obtain rfl := Option.some.inj hp
        exact ⟨rfl, rfl, rfl, rfl, rfl, rfl, rfl, rfl⟩
      · obtain ⟨VR, _, rfl⟩ := Option.map_eq_some_iff.mp hp
        exact ⟨rfl, rfl, rfl, rfl, rfl, rfl, rfl, rfl⟩
    show (((s.pt x).elastic).get (hs x)).F = _ ∧ _
    obtain ⟨k1, k2, k3, k4, k5, k6, k7, k8⟩ := key
    simp only [hg]
    exact ⟨k1, k2, k3, k4, k5, k6, k7, k8, hp.symm⟩

/-- **C90.** A complete step with update of the configuration, from any balanced state: the new state
is balanced, its average velocity gradient is the prescribed one plus all stress-driven corrections of
this step, and the macroscopic displacement gradient advanced by that rate times the time step. -/
theorem C90_step [Nonempty ι] (tdot : ℝ) (first : Bool) (udot : M3) (turns : List (Turn ι))
    (Lp : State ι → ι → M3) (s r : State ι) (hs : Balanced s)
    (hr : evolve tdot first true udot turns Lp s = some r)
    (hok : UpdateOk tdot (iterated tdot first udot turns s)) :
    Balanced r ∧ meanL r = r.vact ∧ r.vact = udot + r.dvAcum ∧ r.dmact = s.dmact + tdot • r.vact := by
  obtain ⟨h1, h2, h3, _⟩ := C90_iteration tdot first udot turns s hs
  obtain ⟨s4, h4⟩ : ∃ s4, s4 = iterated tdot first udot turns s := ⟨_, rfl⟩
  rw [← h4] at h1 h2 h3 hok
  have hr' : updateDefgradE (updateDefgrad tdot (updateDefgradP tdot Lp s4)) = some r := by
    rw [h4, ← hr]; rfl
  have hpF : ∀ x, ((updateDefgradP tdot Lp s4).pt x).F = (s4.pt x).F ∧
      ((updateDefgradP tdot Lp s4).pt x).L = (s4.pt x).L ∧
      (((updateDefgradP tdot Lp s4).pt x).advance (wgt ι) tdot).Finv =
        ((s4.pt x).advance (wgt ι) tdot).Finv ∧
      (((updateDefgradP tdot Lp s4).pt x).advance (wgt ι) tdot).detF =
        ((s4.pt x).advance (wgt ι) tdot).detF := by
    intro x
    show ((s4.pt x).plastic tdot _).F = _ ∧ ((s4.pt x).plastic tdot _).L = _ ∧
      (((s4.pt x).plastic tdot _).advance _ _).Finv = _ ∧ (((s4.pt x).plastic tdot _).advance _ _).detF = _
    rw [Point.plastic]
    split_ifs <;> exact ⟨rfl, rfl, rfl, rfl⟩
  have hok' : UpdateOk tdot (updateDefgradP tdot Lp s4) := by
    refine ⟨fun x => ?_, fun x => ?_, ?_, ?_⟩
    · rw [(hpF x).2.1]; exact hok.inc x
    · rw [(hpF x).2.1, (hpF x).1]; exact hok.grad x
    · simp only [hpF]; exact hok.vol
    · have : finvAvg (fun x => ((updateDefgradP tdot Lp s4).pt x).advance (wgt ι) tdot) =
          finvAvg (fun x => (s4.pt x).advance (wgt ι) tdot) := by
        ext i j
        simp only [finvAvg, detFavg, Matrix.of_apply, hpF]
      rw [this]; exact hok.mean
  obtain ⟨hb, hm⟩ := C90_update tdot _ hok'
  obtain ⟨hf, hf2, hf3, hf4, _, hf6⟩ := updateE_fields _ _ hr'
  have hv : r.vact = s4.vact := hf3
  have hdm : r.dmact = s4.dmact := hf4
  have hac : r.dvAcum = s4.dvAcum := hf6
  refine ⟨?_, ?_, ?_, ?_⟩
  · exact balanced_congr _ _ (fun x => (hf x).1) (fun x => (hf x).2.1) (fun x => (hf x).2.2.1)
      (fun x => (hf x).2.2.2.1) hf2 hb
  · have : meanL r = meanL (updateDefgrad tdot (updateDefgradP tdot Lp s4)) := by
      simp only [meanL, meanC]
      exact Finset.sum_congr rfl fun x _ => by rw [(hf x).2.2.2.1, (hf x).2.2.2.2.1]
    rw [this, hm, hv]; rfl
  · rw [hv, h2, hac]
  · rw [hdm, h3, hv]

/-- **C90 does not hold for a rate that changes between steps.** In a step other than the first the
fields keep the average velocity gradient the step before ended with; the new prescribed rate `udot` is
not applied to them before the end of the step.  Without stress control the points are therefore
deformed in the whole step at the old average rate, while the macroscopic displacement gradient advances
at the new one. -/
theorem C90_rate_change_fails (tdot : ℝ) (udot : M3) (turns : List (Turn ι)) (s : State ι)
    (hs : Balanced s) (hprev : meanL s = s.vact) (hne : udot ≠ s.vact)
    (hcorr : ∀ t ∈ turns, ∀ A, t.corr A = 0) :
    let r := iterated tdot false udot turns s
    meanL r = s.vact ∧ r.vact = udot ∧ r.dmact = s.dmact + tdot • udot ∧ meanL r ≠ r.vact := by
  intro r
  obtain ⟨_, h2, h3, h4⟩ := C90_iteration tdot false udot turns s hs
  have hz : r.dvAcum = 0 ∧ r.dv = 0 := by
    have : ∀ (ts : List (Turn ι)) (s0 : State ι), (∀ t ∈ ts, ∀ A, t.corr A = 0) → s0.dv = 0 →
        s0.dvAcum = 0 → (ts.foldl turn s0).dvAcum = 0 ∧ (ts.foldl turn s0).dv = 0 := by
      intro ts
      induction ts with
      | nil => exact fun s0 _ h1 h2 => ⟨h2, h1⟩
      | cons t ts ih =>
        intro s0 hc h1 h2
        have hd : (turn s0 t).dv = 0 := hc t (by simp) _
        exact ih (turn s0 t) (fun u hu => hc u (by simp [hu])) hd (by rw [turn_acum, hd, h2, add_zero])
    exact this turns _ hcorr rfl rfl
  have e1 : meanL r = s.vact := by
    have := h4
    rw [if_neg (by decide)] at this
    rw [this, hz.1, hz.2, hprev]; simp
  have e2 : r.vact = udot := by rw [h2, hz.1, add_zero]
  refine ⟨e1, e2, by rw [h3, e2], ?_⟩
  rw [e1, e2]
  exact fun h => hne h.symm

/-- **C90 does not hold without update of the configuration.** With `iupdate = 0` nothing resets the
fields after the first step: for any rates and any stresses the average velocity gradient at the end of
a later step is the one of the step before plus the corrections; the prescribed rate `udot` does not
enter. -/
theorem C90_no_update_fails (tdot : ℝ) (udot : M3) (turns : List (Turn ι)) (Lp : State ι → ι → M3)
    (s : State ι) (hs : Balanced s) :
    ∃ r, evolve tdot false false udot turns Lp s = some r ∧ Balanced r ∧
      meanL r = meanL s + (r.dvAcum - r.dv) ∧ r.vact = udot + r.dvAcum := by
  refine ⟨_, rfl, ?_⟩
  obtain ⟨h1, h2, _, h4⟩ := C90_iteration tdot false udot turns s hs
  exact ⟨h1, h4, h2⟩

/-! ### C97 -/

/-- **C97.** Power: the first Piola-Kirchhoff stress works on the gradient of the velocity in the
reference configuration as the Cauchy stress, relative to its average, works on the velocity gradient,
times the volume ratio: `P : (L F) = J (σ - σ̄) : L`, for every velocity gradient. -/
theorem C97_power (s : State ι) (hs : Balanced s) (x : ι) (L : M3) :
    ∑ i, ∑ j, ((cauchyToPK1 s).pt x).sgPK1 i j * (L * (s.pt x).F) i j =
      (s.pt x).F.det * ∑ i, ∑ j, ((s.pt x).sg i j - sgAvg s i j) * L i j := by
  obtain ⟨D, hD⟩ : ∃ D : M3, D = (s.pt x).sg - sgAvg s := ⟨_, rfl⟩
  have hP : ((cauchyToPK1 s).pt x).sgPK1 = (s.pt x).detF • (D * (s.pt x).Finvᵀ) := by
    ext i j
    show pk1 (sgAvg s) (s.pt x) i j = _
    rw [pk1, Matrix.of_apply]
    rw [hD, Matrix.smul_apply, Matrix.mul_apply, smul_eq_mul, Finset.mul_sum]
    refine Finset.sum_congr rfl fun k _ => ?_
    simp only [Matrix.transpose_apply, Matrix.sub_apply]
    ring
  have htr : ∀ A B : M3, ∑ i, ∑ j, A i j * B i j = (A * Bᵀ).trace := by
    intro A B
    simp only [Matrix.trace, Matrix.diag, Matrix.mul_apply, Matrix.transpose_apply]
  have hR : ∑ i, ∑ j, ((s.pt x).sg i j - sgAvg s i j) * L i j = ∑ i, ∑ j, D i j * L i j := by
    rw [hD]; rfl
  rw [hR, htr, htr, hP, hs.det, Matrix.transpose_mul, Matrix.smul_mul, Matrix.trace_smul, smul_eq_mul,
    Matrix.mul_assoc, ← Matrix.mul_assoc ((s.pt x).Finvᵀ), ← Matrix.transpose_mul, hs.inv,
    Matrix.transpose_one, Matrix.one_mul]

/-- **C97.** Only differences from the average stress drive the correction: the average of the driving
Cauchy stress is zero, and a uniform stress field gives no first Piola-Kirchhoff stress at any point,
whatever the deformation. -/
theorem C97_driving (s : State ι) (hs : Balanced s) :
    meanC s (fun x => (s.pt x).sg - sgAvg s) = 0 ∧
      ∀ S : M3, (∀ x, (s.pt x).sg = S) → ∀ x, ((cauchyToPK1 s).pt x).sgPK1 = 0 := by
  have hm : meanC s (fun x => (s.pt x).sg) = sgAvg s := by
    ext i j
    rw [meanC_apply, sgAvg, Matrix.of_apply]
    exact Finset.sum_congr rfl fun x _ => mul_comm _ _
  refine ⟨?_, ?_⟩
  · have : meanC s (fun x => (s.pt x).sg - sgAvg s) =
        meanC s (fun x => (s.pt x).sg) - ∑ x, (s.pt x).wgtc • sgAvg s := by
      simp only [meanC, smul_sub, Finset.sum_sub_distrib]
    rw [this, hm, ← Finset.sum_smul, hs.sum_one, one_smul, sub_self]
  · intro S hS x
    have hav : sgAvg s = S := by
      rw [← hm]
      simp only [meanC, hS]
      rw [← Finset.sum_smul, hs.sum_one, one_smul]
    ext i j
    show pk1 (sgAvg s) (s.pt x) i j = _
    rw [pk1, Matrix.of_apply]
    simp [hS, hav]

/-- **C97.** Total power over the grid: the sum of `P : (L F)` over the points is the deformed volume
times the average of the driving stress power. -/
theorem C97_total_power (s : State ι) (hs : Balanced s) (L : ι → M3) :
    ∑ x, ∑ i, ∑ j, ((cauchyToPK1 s).pt x).sgPK1 i j * (L x * (s.pt x).F) i j =
      (∑ x, (s.pt x).F.det) *
        ∑ x, (s.pt x).wgtc * ∑ i, ∑ j, ((s.pt x).sg i j - sgAvg s i j) * L x i j := by
  rw [Finset.mul_sum]
  refine Finset.sum_congr rfl fun x _ => ?_
  rw [C97_power s hs x (L x), ← hs.share x]
  ring

/-! ### Examples -/

/-- Two points of which one carries stress. -/
noncomputable def twoPoint : State (Fin 2) :=
  { State.start (ι := Fin 2) (fun _ => 1) (fun _ => false) with
    pt := fun x => { Point.start (Fin 2) (fun _ => 1) false with sg := if x = 0 then 1 else 0 } }

/-- The hypotheses of the averages and of the power identity are met by a state in which the driving
stress is not zero. -/
example : Balanced twoPoint ∧ ((cauchyToPK1 twoPoint).pt 0).sgPK1 ≠ 0 := by
  have hb : Balanced twoPoint :=
    balanced_congr (State.start (ι := Fin 2) (fun _ => 1) (fun _ => false)) _ (fun _ => rfl) (fun _ => rfl)
      (fun _ => rfl) (fun _ => rfl) rfl (C90_start _ (fun _ => one_ne_zero) _)
  refine ⟨hb, fun h => ?_⟩
  have h0 := C97_power twoPoint hb 0 1
  rw [h] at h0
  simp [twoPoint, sgAvg, Point.start, State.start, deltM, Fin.sum_univ_three, wgt] at h0
  norm_num at h0

/-- `UpdateOk` holds for the initial state on unit spacing, which is at rest. -/
example : UpdateOk (1 / 10) (State.start (ι := Fin 2) (fun _ => 1) (fun _ => false)) := by
  have h1 : deltM (fun _ => 1) = 1 := Matrix.diagonal_one
  have hF : ∀ x : Fin 2, ((State.start (ι := Fin 2) (fun _ => 1) (fun _ => false)).pt x).F = 1 :=
    fun _ => h1
  have hL : ∀ x : Fin 2, ((State.start (ι := Fin 2) (fun _ => 1) (fun _ => false)).pt x).L = 0 :=
    fun _ => rfl
  have hone : inv3 1 = 1 := by
    have := (inv3_mul 1 inv3Ok_one).1
    rwa [Matrix.one_mul] at this
  refine ⟨fun x => ?_, fun x => ?_, ?_, ?_⟩
  · rw [hL, smul_zero, C89_zero]; exact inv3Ok_one
  · rw [hL, hF, smul_zero, C89_zero, Matrix.mul_one]; exact inv3Ok_one
  · simp [hL, hF, C89_zero]
  · have : finvAvg (fun x => ((State.start (ι := Fin 2) (fun _ => 1) (fun _ => false)).pt x).advance
        (wgt (Fin 2)) (1 / 10)) = 1 := by
      ext i j
      simp only [finvAvg, detFavg, Point.advance, hL, hF, smul_zero, C89_zero, Matrix.mul_one, hone,
        det33_one, wgt, Matrix.of_apply, Fin.sum_univ_two]
      rw [Fintype.card_fin]
      norm_num
      ring
    rw [this]; exact inv3Ok_one

end Fierro
