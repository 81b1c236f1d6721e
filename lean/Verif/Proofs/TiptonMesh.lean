import Verif.Model.TiptonMesh
import Verif.Proofs.Parallel
import Mathlib.Data.List.Nodup
import Mathlib.Data.List.Perm.Basic

/-!
# Loops of the equilibration on a mesh, helpers
-/

namespace Fierro

variable {K : Type} [Field K] [LinearOrder K] [IsStrictOrderedRing K] {E : ℕ}

theorem runDyn_append {κ α : Type} [DecidableEq κ]
    (a b : List ((κ → α) → (n : ℕ) × (Fin n → List (Action κ α)))) (m m' : κ → α) :
    RunDyn (a ++ b) m m' ↔ ∃ m1, RunDyn a m m1 ∧ RunDyn b m1 m' := by
  induction a generalizing m with
  | nil =>
    constructor
    · intro h; exact ⟨m, .nil m, h⟩
    · rintro ⟨m1, h1, h2⟩; cases h1; exact h2
  | cons l a ih =>
    rw [List.cons_append]
    constructor
    · intro h
      cases h with
      | cons _ _ s _ _ hs hr =>
        obtain ⟨m1, h1, h2⟩ := (ih _).mp hr
        exact ⟨m1, .cons _ _ s _ _ hs h1, h2⟩
    · rintro ⟨m1, h1, h2⟩
      cases h1 with
      | cons _ _ s _ _ hs hr => exact .cons _ _ s _ _ hs ((ih _).mpr ⟨m1, hr, h2⟩)

theorem runDyn_exists {κ α : Type} [DecidableEq κ]
    (ls : List ((κ → α) → (n : ℕ) × (Fin n → List (Action κ α)))) (m : κ → α) :
    ∃ m', RunDyn ls m m' := by
  induction ls generalizing m with
  | nil => exact ⟨m, .nil m⟩
  | cons l ls ih =>
    obtain ⟨m', h⟩ := ih (execActions ((List.finRange (l m).1).flatMap (l m).2) m)
    exact ⟨m', .cons _ _ _ _ _ (sched_seq _ (List.nodup_finRange _) _ (by simp)) h⟩

namespace TipMesh

open TipCell

/-- The cells an iteration touches. -/
def Own (m s : ℕ) (e : Fin E) : TipCell E → Prop
  | gPres e' | gDenom e' | gMin e' | gLim e' => e' = e
  | vf m' s' | dvf m' s' | pres m' s' | den m' s' | sie m' s' | sspd m' s' => m' = m ∧ s' = s
  | tmp i => i = s

theorem own_disj {m s s' : ℕ} {e e' : Fin E} (hs : s ≠ s') (he : e ≠ e') (c : TipCell E) (h : Own m s e c)
    (h' : Own m s' e' c) : False := by
  cases c <;> simp only [Own] at h h' <;>
    first
    | exact he (h.symm.trans h')
    | exact hs (h.2.symm.trans h'.2)
    | exact hs (h.symm.trans h')

theorem avgThread_own (X : TipMesh K E) (m s : ℕ) (e : Fin E) (b : Bool) :
    ∀ a ∈ X.avgThread m s e b, Own m s e a.dst ∧ ∀ c, a.reads c → Own m s e c := by
  cases b <;> simp [avgThread, Action.expr, Own]

theorem changeThread_own (X : TipMesh K E) (m s : ℕ) (e : Fin E) (b : Bool) :
    ∀ a ∈ X.changeThread m s e b, Own m s e a.dst ∧ ∀ c, a.reads c → Own m s e c := by
  cases b <;> simp [changeThread, Action.expr, Own]

theorem stateThread_own (X : TipMesh K E) (m s : ℕ) (e : Fin E) :
    ∀ a ∈ X.stateThread m s e, Own m s e a.dst ∧ ∀ c, a.reads c → Own m s e c := by
  simp [stateThread, Action.expr, Own]

theorem matLoop_exec (X : TipMesh K E) (m : ℕ) (hnd : (X.row m).Nodup)
    (body : (TipCell E → K) → ℕ → Fin E → List (Action (TipCell E) K)) (mem : TipCell E → K)
    (hb : ∀ s e, ∀ a ∈ body mem s e, Own m s e a.dst ∧ ∀ c, a.reads c → Own m s e c)
    (sch : List (Action (TipCell E) K)) (hs : Sched (X.matLoop body m mem).2 sch) :
    (∀ s e, (X.row m)[s]? = some e → ∀ c, Own m s e c →
      execActions sch mem c = execActions (body mem s e) mem c) ∧
    (∀ c, (∀ s e, (X.row m)[s]? = some e → ¬ Own m s e c) → execActions sch mem c = mem c) := by
  have hdis : ∀ i j : Fin (X.row m).length, i ≠ j → ∀ c, Own m i ((X.row m).get i) c →
      Own m j ((X.row m).get j) c → False := by
    intro i j hij c h1 h2
    refine own_disj (s := i) (s' := j) (fun h => hij (Fin.ext h)) (fun h => hij ?_) c h1 h2
    exact (List.nodup_iff_injective_get.mp hnd) h
  have hcf : ConflictFree (X.matLoop body m mem).2 := by
    intro i j hij a ha b hb'
    obtain ⟨h1, -⟩ := hb _ _ a ha
    obtain ⟨h2, h3⟩ := hb _ _ b hb'
    refine ⟨fun h => hdis i j hij a.dst h1 (h ▸ h2), fun h => hdis i j hij a.dst h1 (h3 _ h)⟩
  constructor
  · intro s e hse c hc
    obtain ⟨hlt, rfl⟩ := List.getElem?_eq_some_iff.mp hse
    refine sched_own _ hcf sch hs mem ⟨s, hlt⟩ c fun i hi a ha hac => ?_
    obtain ⟨h1, -⟩ := hb _ _ a ha
    exact hdis i ⟨s, hlt⟩ hi c (hac ▸ h1) hc
  · intro c hc
    refine execActions_notin _ _ _ fun a ha hac => ?_
    obtain ⟨i, hi⟩ := (sched_mem hs a).mp ha
    obtain ⟨h1, -⟩ := hb _ _ a hi
    exact hc i ((X.row m).get i) (List.getElem?_eq_getElem i.2) (hac ▸ h1)

/-- A material point as the loops see it. -/
def matAt (X : TipMesh K E) (mem : TipCell E → K) (w : ℕ × ℕ) : TipMat K :=
  ⟨mem (vf w.1 w.2), X.other w.1 w.2, mem (pres w.1 w.2), mem (den w.1 w.2), mem (sspd w.1 w.2),
    mem (sie w.1 w.2), X.mass w.1 w.2⟩

/-- The material points in an element, by material. -/
def atElem (X : TipMesh K E) (e : Fin E) (m : ℕ) : List (ℕ × ℕ) :=
  ((List.range (X.row m).length).filter fun s => (X.row m)[s]? = some e).map fun s => (m, s)

theorem atElem_some (X : TipMesh K E) {e : Fin E} {m s : ℕ} (hnd : (X.row m).Nodup)
    (h : (X.row m)[s]? = some e) : X.atElem e m = [(m, s)] := by
  have : (List.range (X.row m).length).filter (fun s => (X.row m)[s]? = some e) = [s] := by
    refine List.perm_singleton.mp ((List.perm_ext_iff_of_nodup (List.nodup_range.filter _) (by simp)).mpr ?_)
    intro t
    simp only [List.mem_filter, List.mem_range, decide_eq_true_eq, List.mem_singleton]
    obtain ⟨hlt, rfl⟩ := List.getElem?_eq_some_iff.mp h
    constructor
    · rintro ⟨ht, h2⟩
      obtain ⟨ht, h2⟩ := List.getElem?_eq_some_iff.mp h2
      exact (List.Nodup.getElem_inj_iff hnd).mp h2
    · rintro rfl; exact ⟨hlt, h⟩
  rw [atElem, this]; rfl

theorem atElem_none (X : TipMesh K E) {e : Fin E} {m : ℕ} (h : ∀ s : ℕ, (X.row m)[s]? ≠ some e) :
    X.atElem e m = [] := by
  simp [atElem, h]

/-- Averages at a Gauss point. -/
def avgAt (mem : TipCell E → K) (e : Fin E) : TipAvg K := ⟨mem (gPres e), mem (gDenom e), mem (gMin e)⟩

/-- Cells of the material points. -/
def Pt : TipCell E → Prop
  | vf _ _ | dvf _ _ | pres _ _ | den _ _ | sie _ _ | sspd _ _ => True
  | _ => False

theorem matAt_congr (X : TipMesh K E) {mem mem' : TipCell E → K} (h : ∀ c, Pt c → mem c = mem' c) :
    X.matAt mem = X.matAt mem' := by
  funext w
  simp only [matAt, h (vf _ _) trivial, h (pres _ _) trivial, h (den _ _) trivial, h (sspd _ _) trivial,
    h (sie _ _) trivial]

theorem avgThread_exec (X : TipMesh K E) (m s : ℕ) (e : Fin E) (mem : TipCell E → K) :
    avgAt (execActions (X.avgThread m s e (X.mixedAt mem m s)) mem) e =
      TipAvg.step (X.pars e) (avgAt mem e) (X.matAt mem (m, s)) := by
  by_cases h : mem (vf m s) < 1 - X.fuzz
  · simp [avgThread, mixedAt, h, execActions, Action.run, Action.expr, avgAt, TipAvg.step, matAt, pars,
      TipMat.ratio, Function.update]
  · simp [avgThread, mixedAt, h, execActions, Action.run, Action.expr, avgAt, TipAvg.step, matAt, pars,
      Function.update]

theorem avgThread_dst (X : TipMesh K E) (m s : ℕ) (e : Fin E) (b : Bool) :
    ∀ a ∈ X.avgThread m s e b, ¬ Pt a.dst ∧ ∀ e', a.dst ≠ gLim e' := by
  cases b <;> simp [avgThread, Action.expr, Pt]

/-- Effect of `build_gauss_point_averages`. -/
theorem avgLoop_exec (X : TipMesh K E) (m : ℕ) (hnd : (X.row m).Nodup) (mem : TipCell E → K)
    (sch : List (Action (TipCell E) K)) (hs : Sched (X.avgLoop m mem).2 sch) :
    (∀ e, avgAt (execActions sch mem) e =
      ((X.atElem e m).map (X.matAt mem)).foldl (TipAvg.step (X.pars e)) (avgAt mem e)) ∧
    (∀ c, Pt c → execActions sch mem c = mem c) ∧ ∀ e, execActions sch mem (gLim e) = mem (gLim e) := by
  obtain ⟨h1, h2⟩ := X.matLoop_exec m hnd _ mem (fun s e => X.avgThread_own m s e _) sch hs
  have hdst : ∀ a ∈ sch, ¬ Pt a.dst ∧ ∀ e', a.dst ≠ gLim e' := by
    intro a ha
    obtain ⟨i, hi⟩ := (sched_mem hs a).mp ha
    exact X.avgThread_dst _ _ _ _ a hi
  refine ⟨fun e => ?_, fun c hc => ?_, fun e => ?_⟩
  · by_cases hex : ∃ s : ℕ, (X.row m)[s]? = some e
    · obtain ⟨s, hse⟩ := hex
      rw [X.atElem_some hnd hse]
      simp only [List.map_cons, List.map_nil, List.foldl_cons, List.foldl_nil]
      rw [← avgThread_exec]
      unfold avgAt
      rw [h1 s e hse (gPres e) rfl, h1 s e hse (gDenom e) rfl, h1 s e hse (gMin e) rfl]
    · push Not at hex
      rw [X.atElem_none hex]
      simp only [List.map_nil, List.foldl_nil]
      have : ∀ c, (c = gPres e ∨ c = gDenom e ∨ c = gMin e) → execActions sch mem c = mem c := by
        intro c hc
        refine h2 c fun s e' hse ho => ?_
        have : e = e' := by rcases hc with rfl | rfl | rfl <;> exact ho
        exact hex s (this ▸ hse)
      unfold avgAt
      rw [this _ (.inl rfl), this _ (.inr (.inl rfl)), this _ (.inr (.inr rfl))]
  · exact execActions_notin _ _ _ fun a ha h => (hdst a ha).1 (h ▸ hc)
  · exact execActions_notin _ _ _ fun a ha h => (hdst a ha).2 e h

theorem row_nodup {X : TipMesh K E} (hd : ∀ r ∈ X.elems, r.Nodup) (m : ℕ) : (X.row m).Nodup := by
  unfold row
  rw [List.getD_eq_getElem?_getD]
  cases h : X.elems[m]? with
  | none => simp
  | some r => exact hd r (List.mem_of_getElem? h)

theorem avgLoops_exec (X : TipMesh K E) (hd : ∀ r ∈ X.elems, r.Nodup) (ms : List ℕ) (mem mem' : TipCell E → K)
    (h : RunDyn (ms.map X.avgLoop) mem mem') :
    (∀ e, avgAt mem' e =
      ((ms.flatMap (X.atElem e)).map (X.matAt mem)).foldl (TipAvg.step (X.pars e)) (avgAt mem e)) ∧
    (∀ c, Pt c → mem' c = mem c) ∧ ∀ e, mem' (gLim e) = mem (gLim e) := by
  induction ms generalizing mem with
  | nil => cases h; exact ⟨fun e => rfl, fun c _ => rfl, fun e => rfl⟩
  | cons m ms ih =>
    rw [List.map_cons] at h
    cases h with
    | cons _ _ s _ _ hs hr =>
      obtain ⟨a1, a2, a3⟩ := X.avgLoop_exec m (row_nodup hd m) mem s hs
      obtain ⟨b1, b2, b3⟩ := ih _ hr
      refine ⟨fun e => ?_, fun c hc => (b2 c hc).trans (a2 c hc), fun e => (b3 e).trans (a3 e)⟩
      rw [b1, a1, X.matAt_congr a2, List.flatMap_cons, List.map_append, List.foldl_append]

theorem presLoop_exec (X : TipMesh K E) (mem : TipCell E → K) (sch : List (Action (TipCell E) K))
    (hs : Sched (X.presLoop mem).2 sch) :
    (∀ e, execActions sch mem (gPres e) = mem (gPres e) / (mem (gDenom e) + X.fuzz)) ∧
    ∀ c, (∀ e, c ≠ gPres e) → execActions sch mem c = mem c := by
  have hcf : ConflictFree (X.presLoop mem).2 := by
    intro i j hij a ha b hb
    simp only [presLoop, List.mem_singleton] at ha hb
    subst ha hb
    have hij' : ¬ gPres i = gPres j := fun h => hij (gPres.inj h)
    refine ⟨hij', ?_⟩
    simp only [Action.expr, List.mem_cons, List.not_mem_nil, or_false, not_or]
    exact ⟨hij', fun h => nomatch h⟩
  constructor
  · intro e
    rw [sched_own _ hcf sch hs mem e (gPres e)]
    · simp [presLoop, execActions, Action.run, Action.expr]
    · intro i hi a ha
      simp only [presLoop, List.mem_singleton] at ha
      subst ha
      exact fun h => hi (gPres.inj h)
  · intro c hc
    refine execActions_notin _ _ _ fun a ha h => ?_
    obtain ⟨i, hi⟩ := (sched_mem hs a).mp ha
    simp only [presLoop, List.mem_singleton] at hi
    subst hi
    exact hc i h.symm

/-- The averages behind the mean pressure stored. -/
def Avgs (X : TipMesh K E) (mem : TipCell E → K) (e : Fin E) (a : TipAvg K) : Prop :=
  mem (gPres e) = tipPres (X.pars e) a ∧ mem (gDenom e) = a.denom ∧ mem (gMin e) = a.vfMin

theorem changeThread_exec (X : TipMesh K E) (m s : ℕ) (e : Fin E) (mem : TipCell E → K) (a : TipAvg K)
    (ha : X.Avgs mem e a) :
    execActions (X.changeThread m s e (X.mixedAt mem m s)) mem (dvf m s) =
      tipDelta (X.pars e) a (X.matAt mem (m, s)) ∧
    execActions (X.changeThread m s e (X.mixedAt mem m s)) mem (gLim e) =
      tipLimStep (X.pars e) a (mem (gLim e)) (X.matAt mem (m, s)) := by
  obtain ⟨h1, h2, h3⟩ := ha
  have hp : (X.pars e).fuzz = X.fuzz := rfl
  by_cases h : mem (vf m s) < 1 - X.fuzz
  · constructor
    · simp only [changeThread, mixedAt, h, execActions, Action.run, Action.expr, decide_true, if_true,
        List.foldl_cons, List.foldl_nil]
      simp [Function.update, tipDelta, matAt, hp, h, TipMat.ratio, h1, h2]
      rfl
    · simp only [changeThread, mixedAt, h, execActions, Action.run, Action.expr, decide_true, if_true,
        List.foldl_cons, List.foldl_nil]
      simp [Function.update, tipLimStep, tipDelta, tipParam, matAt, hp, h, TipMat.ratio, h1, h2, h3]
      rfl
  · constructor
    · simp [changeThread, mixedAt, h, execActions, Action.run, Action.expr, Function.update, tipDelta, matAt, hp]
    · simp [changeThread, mixedAt, h, execActions, Action.run, Action.expr, Function.update, tipLimStep, matAt, hp]

theorem changeThread_dst (X : TipMesh K E) (m s : ℕ) (e : Fin E) (b : Bool) :
    ∀ a ∈ X.changeThread m s e b, a.dst = dvf m s ∨ a.dst = gLim e ∨ a.dst = tmp s := by
  cases b <;> simp [changeThread, Action.expr]

theorem changeLoop_exec (X : TipMesh K E) (m : ℕ) (hnd : (X.row m).Nodup) (mem : TipCell E → K)
    (sch : List (Action (TipCell E) K)) (hs : Sched (X.changeLoop m mem).2 sch) (av : Fin E → TipAvg K)
    (ha : ∀ e, X.Avgs mem e (av e)) :
    (∀ e, execActions sch mem (gLim e) =
      ((X.atElem e m).map (X.matAt mem)).foldl (tipLimStep (X.pars e) (av e)) (mem (gLim e))) ∧
    (∀ s e, (X.row m)[s]? = some e → execActions sch mem (dvf m s) = tipDelta (X.pars e) (av e) (X.matAt mem (m, s))) ∧
    (∀ c, (∀ e, c ≠ gLim e) → (∀ s, c ≠ dvf m s) → (∀ i, c ≠ tmp i) → execActions sch mem c = mem c) := by
  obtain ⟨h1, h2⟩ := X.matLoop_exec m hnd _ mem (fun s e => X.changeThread_own m s e _) sch hs
  refine ⟨fun e => ?_, fun s e hse => ?_, fun c c1 c2 c3 => ?_⟩
  · by_cases hex : ∃ s : ℕ, (X.row m)[s]? = some e
    · obtain ⟨s, hse⟩ := hex
      rw [X.atElem_some hnd hse, h1 s e hse (gLim e) rfl, (X.changeThread_exec m s e mem _ (ha e)).2]
      rfl
    · push Not at hex
      rw [X.atElem_none hex]
      refine h2 _ fun s e' hse ho => ?_
      have : e = e' := ho
      exact hex s (this ▸ hse)
  · rw [h1 s e hse (dvf m s) ⟨rfl, rfl⟩, (X.changeThread_exec m s e mem _ (ha e)).1]
  · refine execActions_notin _ _ _ fun a ha' h => ?_
    obtain ⟨i, hi⟩ := (sched_mem hs a).mp ha'
    rcases X.changeThread_dst _ _ _ _ a hi with h' | h' | h'
    · exact c2 _ (h.symm.trans h')
    · exact c1 _ (h.symm.trans h')
    · exact c3 _ (h.symm.trans h')

/-- Cells the change loops leave alone. -/
def Kept : TipCell E → Prop
  | gLim _ | dvf _ _ | tmp _ => False
  | _ => True

theorem matAt_kept (X : TipMesh K E) {mem mem' : TipCell E → K} (h : ∀ c, Kept c → mem c = mem' c) :
    X.matAt mem = X.matAt mem' := by
  funext w
  simp only [matAt, h (vf _ _) trivial, h (pres _ _) trivial, h (den _ _) trivial, h (sspd _ _) trivial,
    h (sie _ _) trivial]

theorem changeLoops_exec (X : TipMesh K E) (hd : ∀ r ∈ X.elems, r.Nodup) (ms : List ℕ) (hms : ms.Nodup)
    (mem mem' : TipCell E → K) (av : Fin E → TipAvg K) (ha : ∀ e, X.Avgs mem e (av e))
    (h : RunDyn (ms.map X.changeLoop) mem mem') :
    (∀ e, mem' (gLim e) =
      ((ms.flatMap (X.atElem e)).map (X.matAt mem)).foldl (tipLimStep (X.pars e) (av e)) (mem (gLim e))) ∧
    (∀ m ∈ ms, ∀ s e, (X.row m)[s]? = some e → mem' (dvf m s) = tipDelta (X.pars e) (av e) (X.matAt mem (m, s))) ∧
    (∀ m, m ∉ ms → ∀ s, mem' (dvf m s) = mem (dvf m s)) ∧
    (∀ c, Kept c → mem' c = mem c) := by
  induction ms generalizing mem with
  | nil => cases h; exact ⟨fun e => rfl, by simp, fun _ _ _ => rfl, fun c _ => rfl⟩
  | cons m ms ih =>
    rw [List.map_cons] at h
    rw [List.nodup_cons] at hms
    cases h with
    | cons _ _ s _ _ hs hr =>
      obtain ⟨a1, a2, a3⟩ := X.changeLoop_exec m (row_nodup hd m) mem s hs av ha
      have ak : ∀ c, Kept c → execActions s mem c = mem c := by
        intro c hc
        refine a3 c ?_ ?_ ?_ <;> rintro x rfl <;> exact hc
      have ha' : ∀ e, X.Avgs (execActions s mem) e (av e) := by
        intro e
        obtain ⟨p1, p2, p3⟩ := ha e
        exact ⟨(ak (gPres e) trivial).trans p1, (ak (gDenom e) trivial).trans p2, (ak (gMin e) trivial).trans p3⟩
      obtain ⟨b1, b2, b3, b4⟩ := ih hms.2 _ ha' hr
      refine ⟨fun e => ?_, fun m' hm' t e ht => ?_, fun m' hm' t => ?_, fun c hc => (b4 c hc).trans (ak c hc)⟩
      · rw [b1, a1, X.matAt_kept ak, List.flatMap_cons, List.map_append, List.foldl_append]
      · rcases List.mem_cons.mp hm' with rfl | hm'
        · rw [b3 _ hms.1, a2 t e ht]
        · rw [b2 m' hm' t e ht, X.matAt_kept ak]
      · have h1 : m' ≠ m := fun h => hm' (by simp [h])
        have h2 : m' ∉ ms := fun h => hm' (List.mem_cons_of_mem _ h)
        rw [b3 m' h2]
        refine a3 _ (by simp) ?_ (by simp)
        rintro s' hs'
        cases hs'
        exact h1 rfl

/-- What `calc_pressure` and `calc_sound_speed` add to the updated point. -/
def afterEos (X : TipMesh K E) (w : ℕ × ℕ) (t : TipMat K) : TipMat K :=
  { t with
    pres := X.eosPres w.1 w.2 t.sspd t.den t.sie
    sspd := X.eosSspd w.1 w.2 (X.eosPres w.1 w.2 t.sspd t.den t.sie) t.den t.sie }

theorem stateThread_exec (X : TipMesh K E) (m s : ℕ) (e : Fin E) (mem : TipCell E → K) (a : TipAvg K)
    (hp : mem (gPres e) = tipPres (X.pars e) a) (hd : mem (dvf m s) = tipDelta (X.pars e) a (X.matAt mem (m, s))) :
    X.matAt (execActions (X.stateThread m s e) mem) (m, s) =
      X.afterEos (m, s) (tipUpdate (X.pars e) a (mem (gLim e)) (X.matAt mem (m, s))) := by
  have hv : (X.pars e).vol = X.vol e := rfl
  simp only [stateThread, execActions, Action.run, Action.expr, List.foldl_cons, List.foldl_nil]
  simp only [matAt, afterEos, tipUpdate, ← hd, ← hp, hv]
  have hd' := hd
  simp only [matAt] at hd'
  simp [Function.update, ← hd']

theorem stateThread_dst (X : TipMesh K E) (m s : ℕ) (e : Fin E) :
    ∀ a ∈ X.stateThread m s e, (Pt a.dst ∧ Own m s e a.dst) ∨ a.dst = tmp s := by
  simp [stateThread, Action.expr, Pt, Own]

theorem stateLoop_exec (X : TipMesh K E) (m : ℕ) (hnd : (X.row m).Nodup) (mem : TipCell E → K)
    (sch : List (Action (TipCell E) K)) (hs : Sched (X.stateLoop m mem).2 sch) (av : Fin E → TipAvg K)
    (hp : ∀ e, mem (gPres e) = tipPres (X.pars e) (av e))
    (hdv : ∀ s e, (X.row m)[s]? = some e → mem (dvf m s) = tipDelta (X.pars e) (av e) (X.matAt mem (m, s))) :
    (∀ s e, (X.row m)[s]? = some e → X.matAt (execActions sch mem) (m, s) =
      X.afterEos (m, s) (tipUpdate (X.pars e) (av e) (mem (gLim e)) (X.matAt mem (m, s)))) ∧
    (∀ c, (∀ i, c ≠ tmp i) → (∀ s e, (X.row m)[s]? = some e → ¬ (Pt c ∧ Own m s e c)) →
      execActions sch mem c = mem c) := by
  obtain ⟨h1, h2⟩ := X.matLoop_exec m hnd _ mem (fun s e => X.stateThread_own m s e) sch hs
  refine ⟨fun s e hse => ?_, fun c hc hn => ?_⟩
  · rw [← X.stateThread_exec m s e mem (av e) (hp e) (hdv s e hse)]
    simp only [matAt]
    rw [h1 s e hse (vf m s) ⟨rfl, rfl⟩, h1 s e hse (pres m s) ⟨rfl, rfl⟩, h1 s e hse (den m s) ⟨rfl, rfl⟩,
      h1 s e hse (sspd m s) ⟨rfl, rfl⟩, h1 s e hse (sie m s) ⟨rfl, rfl⟩]
  · refine execActions_notin _ _ _ fun a ha' h => ?_
    obtain ⟨i, hi⟩ := (sched_mem hs a).mp ha'
    rcases X.stateThread_dst _ _ _ a hi with h' | h'
    · exact hn i ((X.row m).get i) (List.getElem?_eq_getElem i.2) (h ▸ h')
    · exact hc _ (h.symm.trans h')

theorem stateLoops_exec (X : TipMesh K E) (hd : ∀ r ∈ X.elems, r.Nodup) (ms : List ℕ) (hms : ms.Nodup)
    (mem mem' : TipCell E → K) (av : Fin E → TipAvg K)
    (hp : ∀ e, mem (gPres e) = tipPres (X.pars e) (av e))
    (hdv : ∀ m ∈ ms, ∀ s e, (X.row m)[s]? = some e →
      mem (dvf m s) = tipDelta (X.pars e) (av e) (X.matAt mem (m, s)))
    (h : RunDyn (ms.map X.stateLoop) mem mem') :
    (∀ m ∈ ms, ∀ s e, (X.row m)[s]? = some e → X.matAt mem' (m, s) =
      X.afterEos (m, s) (tipUpdate (X.pars e) (av e) (mem (gLim e)) (X.matAt mem (m, s)))) ∧
    (∀ c, (∀ i, c ≠ tmp i) → (∀ m ∈ ms, ∀ s e, (X.row m)[s]? = some e → ¬ (Pt c ∧ Own m s e c)) → mem' c = mem c) := by
  induction ms generalizing mem with
  | nil => cases h; exact ⟨by simp, fun _ _ _ => rfl⟩
  | cons m ms ih =>
    rw [List.map_cons] at h
    rw [List.nodup_cons] at hms
    cases h with
    | cons _ _ s _ _ hs hr =>
      obtain ⟨a1, a2⟩ := X.stateLoop_exec m (row_nodup hd m) mem s hs av hp (hdv m (by simp))
      have ag : ∀ e, execActions s mem (gPres e) = mem (gPres e) ∧ execActions s mem (gLim e) = mem (gLim e) :=
        fun e => ⟨a2 _ (by simp) (by simp [Pt]), a2 _ (by simp) (by simp [Pt])⟩
      have am : ∀ m' s', m' ≠ m → ∀ c, (c = vf m' s' ∨ c = dvf m' s' ∨ c = pres m' s' ∨
          c = den m' s' ∨ c = sie m' s' ∨ c = sspd m' s') → execActions s mem c = mem c := by
        intro m' s' hne c hc
        refine a2 c ?_ ?_
        · rcases hc with rfl | rfl | rfl | rfl | rfl | rfl <;> simp
        · rintro t e - ⟨-, ho⟩
          rcases hc with rfl | rfl | rfl | rfl | rfl | rfl <;> exact hne ho.1
      have am' : ∀ m' s', m' ≠ m → X.matAt (execActions s mem) (m', s') = X.matAt mem (m', s') := by
        intro m' s' hne
        simp only [matAt]
        rw [am m' s' hne (vf m' s') (by simp), am m' s' hne (pres m' s') (by simp),
          am m' s' hne (den m' s') (by simp), am m' s' hne (sspd m' s') (by simp),
          am m' s' hne (sie m' s') (by simp)]
      obtain ⟨b1, b2⟩ := ih hms.2 _ (fun e => ((ag e).1).trans (hp e)) (by
        intro m' hm' t e ht
        have hne : m' ≠ m := fun h => hms.1 (h ▸ hm')
        rw [am m' t hne _ (.inr (.inl rfl)), am' m' t hne]
        exact hdv m' (List.mem_cons_of_mem _ hm') t e ht) hr
      refine ⟨fun m' hm' t e ht => ?_, fun c hc hn => ?_⟩
      · rcases List.mem_cons.mp hm' with rfl | hm'
        · rw [← a1 t e ht]
          have : ∀ c, (c = vf m' t ∨ c = pres m' t ∨ c = den m' t ∨ c = sspd m' t ∨ c = sie m' t) →
              mem' c = execActions s mem c := by
            intro c hc
            refine b2 c ?_ ?_
            · rcases hc with rfl | rfl | rfl | rfl | rfl <;> simp
            · rintro m2 hm2 t2 e2 - ⟨-, ho⟩
              have : m' = m2 := by rcases hc with rfl | rfl | rfl | rfl | rfl <;> exact ho.1
              exact hms.1 (this ▸ hm2)
          simp only [matAt]
          rw [this (vf m' t) (by simp), this (pres m' t) (by simp), this (den m' t) (by simp),
            this (sspd m' t) (by simp), this (sie m' t) (by simp)]
        · have hne : m' ≠ m := fun h => hms.1 (h ▸ hm')
          rw [b1 m' hm' t e ht, am' m' t hne, (ag e).2]
      · rw [b2 c hc fun m' hm' => hn m' (List.mem_cons_of_mem _ hm'), a2 c hc (hn m (by simp))]

end TipMesh

end Fierro
