import Verif.Props.RegionFill
import Verif.Proofs.Memory
import Mathlib.Data.List.Induction

/-!
# C17 (whole mesh, any schedule) and C19: material index spaces
-/

set_option linter.unusedSectionVars false

namespace Fierro

section
variable {K : Type} [Field K] [LinearOrder K] [IsStrictOrderedRing K]

theorem fillLoop_ok_iff (fills : List (FillData K)) (maxMats i : ℕ) (l : List ℕ) (hl : l.Nodup)
    (st st' : ℕ → ElemFill K) :
    fillLoop fills maxMats l st i = .ok st' ↔
      (∀ e ∈ l, applyFill fills maxMats e (st e) i = .ok (st' e)) ∧ ∀ e, e ∉ l → st' e = st e := by
  induction l generalizing st with
  | nil =>
    simp only [fillLoop, List.foldlM_nil, List.not_mem_nil, not_false_eq_true, forall_const,
      false_imp_iff, true_and]
    constructor
    · intro h; cases h; simp
    · intro h; rw [show st' = st from funext h]; rfl
  | cons e l ih =>
    have hne := (List.nodup_cons.mp hl).1
    have hl' := (List.nodup_cons.mp hl).2
    unfold fillLoop at ih ⊢
    rw [List.foldlM_cons]
    cases h0 : applyFill fills maxMats e (st e) i with
    | error x =>
      constructor
      · intro h; simp [bind, Except.bind] at h
      · rintro ⟨h, -⟩
        have := h e (by simp)
        rw [h0] at this; cases this
    | ok s =>
      have : ((do let s ← (Except.ok s : Except FillError (ElemFill K))
                  pure (Function.update st e s)) : Except FillError (ℕ → ElemFill K)) =
          .ok (Function.update st e s) := rfl
      rw [this]
      simp only [bind, Except.bind] at ih ⊢
      rw [ih hl' (Function.update st e s)]
      constructor
      · rintro ⟨h1, h2⟩
        refine ⟨fun e' he' => ?_, fun e' he' => ?_⟩
        · rcases List.mem_cons.mp he' with rfl | h
          · rw [h0, h2 _ hne]; simp
          · have := h1 e' h
            rwa [Function.update_of_ne (by rintro rfl; exact hne h)] at this
        · rw [List.mem_cons, not_or] at he'
          rw [h2 e' he'.2, Function.update_of_ne he'.1]
      · rintro ⟨h1, h2⟩
        refine ⟨fun e' he' => ?_, fun e' he' => ?_⟩
        · rw [Function.update_of_ne (by rintro rfl; exact hne he')]
          exact h1 e' (by simp [he'])
        · by_cases hee : e' = e
          · subst hee
            have := h1 e' (by simp)
            rw [h0] at this
            cases this
            simp
          · rw [Function.update_of_ne hee]
            exact h2 e' (by simp [hee, he'])

/-- The mesh after the first `n` fills. -/
def meshUpTo (fills : List (FillData K)) (maxMats : ℕ) (order : ℕ → List ℕ) (n : ℕ) :
    Except FillError (ℕ → ElemFill K) :=
  (List.range n).foldlM (fun st i => fillLoop fills maxMats (order i) st i) (fun _ => ElemFill.init)

theorem meshUpTo_succ (fills : List (FillData K)) (maxMats : ℕ) (order : ℕ → List ℕ) (n : ℕ) :
    meshUpTo fills maxMats order (n + 1) = (meshUpTo fills maxMats order n).bind
      fun st => fillLoop fills maxMats (order n) st n := by
  unfold meshUpTo
  rw [List.range_succ, List.foldlM_append]
  simp only [List.foldlM_cons, List.foldlM_nil, bind_pure]
  rfl

theorem meshUpTo_ok (fills : List (FillData K)) (maxMats E : ℕ) (order : ℕ → List ℕ)
    (hord : ∀ i, (order i).Perm (List.range E)) (n : ℕ) (st : ℕ → ElemFill K) :
    meshUpTo fills maxMats order n = .ok st ↔
      (∀ e < E, fillUpTo fills maxMats e n = .ok (st e)) ∧ ∀ e, E ≤ e → st e = ElemFill.init := by
  have hmem : ∀ i e, e ∈ order i ↔ e < E := fun i e => by rw [(hord i).mem_iff, List.mem_range]
  induction n generalizing st with
  | zero =>
    simp only [meshUpTo, fillUpTo, List.range_zero, List.foldlM_nil]
    constructor
    · intro h; cases h; exact ⟨fun _ _ => rfl, fun _ _ => rfl⟩
    · rintro ⟨h1, h2⟩
      have : st = fun _ => ElemFill.init := by
        funext e
        rcases Nat.lt_or_ge e E with h | h
        · exact (Except.ok.inj (h1 e h)).symm
        · exact h2 e h
      rw [this]; rfl
  | succ n ih =>
    have hnd : (order n).Nodup := (hord n).nodup_iff.mpr List.nodup_range
    rw [meshUpTo_succ]
    constructor
    · intro h
      cases h0 : meshUpTo fills maxMats order n with
      | error x => rw [h0] at h; simp [Except.bind] at h
      | ok st₀ =>
        rw [h0] at h
        simp only [Except.bind] at h
        obtain ⟨h1, h2⟩ := (fillLoop_ok_iff fills maxMats n (order n) hnd st₀ st).mp h
        obtain ⟨h3, h4⟩ := (ih st₀).mp h0
        refine ⟨fun e he => ?_, fun e he => ?_⟩
        · rw [fillUpTo_succ, h3 e he]
          exact h1 e ((hmem n e).mpr he)
        · rw [h2 e (by rw [hmem]; omega), h4 e he]
    · rintro ⟨h1, h2⟩
      have key : ∀ e, ∃ s₀, (e < E → fillUpTo fills maxMats e n = .ok s₀ ∧
          applyFill fills maxMats e s₀ n = .ok (st e)) ∧ (E ≤ e → s₀ = ElemFill.init) := by
        intro e
        rcases Nat.lt_or_ge e E with h | h
        · obtain ⟨s₀, h3, h4⟩ := fillUpTo_ok_succ (h1 e h)
          exact ⟨s₀, fun _ => ⟨h3, h4⟩, fun h' => by omega⟩
        · exact ⟨ElemFill.init, fun h' => by omega, fun _ => rfl⟩
      choose st₀ hst using key
      have h0 := (ih st₀).mpr ⟨fun e he => ((hst e).1 he).1, fun e he => (hst e).2 he⟩
      rw [h0]
      simp only [Except.bind]
      rw [fillLoop_ok_iff fills maxMats n (order n) hnd]
      refine ⟨fun e he => ((hst e).1 ((hmem n e).mp he)).2, fun e he => ?_⟩
      rw [hmem] at he
      rw [h2 e (by omega), (hst e).2 (by omega)]

/-- Painting the whole mesh is painting each element on its own: the outcome does not depend on
the order in which the parallel loops visit the elements, and the run aborts exactly if some
element cannot be painted. -/
theorem C17_any_schedule (fills : List (FillData K)) (maxMats E : ℕ) (order : ℕ → List ℕ)
    (hord : ∀ i, (order i).Perm (List.range E)) :
    (∀ st, fillMesh fills maxMats order = .ok st → ∀ e < E, fillElem fills maxMats e = .ok (st e)) ∧
    ((∀ e < E, ∃ s, fillElem fills maxMats e = .ok s) →
      ∃ st, fillMesh fills maxMats order = .ok st) := by
  refine ⟨fun st h => ((meshUpTo_ok fills maxMats E order hord fills.length st).mp h).1, fun h => ?_⟩
  have : Nonempty (ElemFill K) := ⟨ElemFill.init⟩
  choose! s hs using h
  exact ⟨fun e => if e < E then s e else ElemFill.init,
    (meshUpTo_ok fills maxMats E order hord fills.length _).mpr
      ⟨fun e he => by rw [if_pos he]; exact hs e he, fun e he => if_neg (by omega)⟩⟩

theorem C17_schedules_agree (fills : List (FillData K)) (maxMats E : ℕ) (o₁ o₂ : ℕ → List ℕ)
    (h₁ : ∀ i, (o₁ i).Perm (List.range E)) (h₂ : ∀ i, (o₂ i).Perm (List.range E))
    (st : ℕ → ElemFill K) :
    fillMesh fills maxMats o₁ = .ok st ↔ fillMesh fills maxMats o₂ = .ok st := by
  have a := meshUpTo_ok fills maxMats E o₁ h₁ fills.length st
  have b := meshUpTo_ok fills maxMats E o₂ h₂ fills.length st
  exact a.trans b.symm

example : ∀ _ : ℕ, ([2, 0, 1] : List ℕ).Perm (List.range 3) := fun _ => by decide

end

/-! ### C19 -/

/-- Slot `a` of element `e` holds material `m`. -/
def Holds (mats : List (List ℕ)) (e a m : ℕ) : Prop := ∃ ms, mats[e]? = some ms ∧ ms[a]? = some m

theorem mem_visits {mats : List (List ℕ)} {e a m : ℕ} : (e, a, m) ∈ visits mats ↔ Holds mats e a m := by
  unfold visits Holds
  simp only [List.mem_flatMap, List.mem_map, Prod.mk.injEq, Prod.exists, List.mem_zipIdx_iff_getElem?]
  constructor
  · rintro ⟨ms, e', h1, m', a', h2, rfl, rfl, rfl⟩; exact ⟨ms, h1, h2⟩
  · rintro ⟨ms, h1, h2⟩; exact ⟨ms, e, h1, m, a, h2, rfl, rfl, rfl⟩

/-- Number of earlier visits with the same material. -/
def matCount (P : List (ℕ × ℕ × ℕ)) (m : ℕ) : ℕ := P.countP fun v => v.2.2 = m

theorem matCount_append (P Q : List (ℕ × ℕ × ℕ)) (m : ℕ) :
    matCount (P ++ Q) m = matCount P m + matCount Q m := List.countP_append

theorem visits_keys_nodup (mats : List (List ℕ)) :
    ((visits mats).map fun v => (v.1, v.2.1)).Nodup := by
  have hp : ∀ ms : List ℕ, ∀ (e k : ℕ),
      ((ms.zipIdx k).map fun u => ((e, u.2) : ℕ × ℕ)).Nodup := by
    intro ms e k
    have h := List.nodup_range' (s := k) (n := ms.length) (step := 1)
    have h2 : ((ms.zipIdx k).map fun u => ((e, u.2) : ℕ × ℕ)) =
        (List.range' k ms.length).map fun a => (e, a) := by
      rw [← List.zipIdx_map_snd, List.map_map]; rfl
    rw [h2]
    exact h.map fun a b hab => by simpa using hab
  unfold visits
  rw [List.map_flatMap]
  suffices H : ∀ k, ((mats.zipIdx k).flatMap fun w =>
      (w.1.zipIdx.map fun u => (w.2, u.2, u.1)).map fun v => ((v.1, v.2.1) : ℕ × ℕ)).Nodup ∧
      ∀ p ∈ ((mats.zipIdx k).flatMap fun w =>
      (w.1.zipIdx.map fun u => (w.2, u.2, u.1)).map fun v => ((v.1, v.2.1) : ℕ × ℕ)), k ≤ p.1 from
    (H 0).1
  induction mats with
  | nil => simp
  | cons ms mats ih =>
    intro k
    rw [List.zipIdx_cons, List.flatMap_cons]
    obtain ⟨h1, h2⟩ := ih (k + 1)
    constructor
    · rw [List.nodup_append]
      refine ⟨by simpa [Function.comp_def] using hp ms k 0, h1, ?_⟩
      rintro a ha b hb rfl
      have h3 := h2 a hb
      simp only [List.mem_map] at ha
      obtain ⟨x, ⟨u, -, rfl⟩, rfl⟩ := ha
      simp at h3
    · intro p hp'
      rcases List.mem_append.mp hp' with h | h
      · simp only [List.mem_map] at h
        obtain ⟨x, ⟨u, -, rfl⟩, rfl⟩ := h
        exact le_rfl
      · have := h2 p h; omega

/-- What the loop has recorded after the visits `P`. -/
structure MapsInv (P : List (ℕ × ℕ × ℕ)) (s : MatMaps) : Prop where
  saved : ∀ m, s.saved m = matCount P m
  elemIn : ∀ m k e, s.elemInMat (m, k) = some e ↔
    ∃ P₁ a P₂, P = P₁ ++ (e, a, m) :: P₂ ∧ k = matCount P₁ m
  elems : ∀ e a k, s.matElemsInElem (e, a) = some k ↔
    ∃ P₁ m P₂, P = P₁ ++ (e, a, m) :: P₂ ∧ k = matCount P₁ m

theorem matCount_lt {P P₁ P₂ : List (ℕ × ℕ × ℕ)} {e a m : ℕ} (h : P = P₁ ++ (e, a, m) :: P₂) :
    matCount P₁ m < matCount P m := by
  subst h
  rw [matCount_append]
  have : 0 < matCount ((e, a, m) :: P₂) m := by
    unfold matCount; rw [List.countP_cons_of_pos (by simp)]; omega
  omega

theorem split_snoc {α : Type} {P P₁ P₂ : List α} {v w : α} :
    P ++ [v] = P₁ ++ w :: P₂ ↔ (P₂ = [] ∧ P = P₁ ∧ v = w) ∨
      ∃ P₂', P₂ = P₂' ++ [v] ∧ P = P₁ ++ w :: P₂' := by
  rcases List.eq_nil_or_concat P₂ with rfl | ⟨L, b, rfl⟩
  · constructor
    · intro h
      have := List.append_inj' h rfl
      exact Or.inl ⟨rfl, this.1, by simpa using this.2⟩
    · rintro (⟨-, rfl, rfl⟩ | ⟨P₂', h, -⟩)
      · rfl
      · simp at h
  · rw [List.concat_eq_append]
    constructor
    · intro h
      have h' : P ++ [v] = (P₁ ++ w :: L) ++ [b] := by simpa using h
      have := List.append_inj' h' rfl
      exact Or.inr ⟨L, by rw [show v = b by simpa using this.2], this.1⟩
    · rintro (⟨h, -⟩ | ⟨P₂', h, rfl⟩)
      · simp at h
      · have := List.append_inj' h rfl
        rw [this.1, this.2]; simp

theorem maps_step (P : List (ℕ × ℕ × ℕ)) (v : ℕ × ℕ × ℕ) (s : MatMaps) (h : MapsInv P s)
    (hv : ∀ w ∈ P, (w.1, w.2.1) ≠ (v.1, v.2.1)) : MapsInv (P ++ [v]) (s.step v) := by
  obtain ⟨e, a, m⟩ := v
  refine ⟨fun m' => ?_, fun m' k e' => ?_, fun e' a' k => ?_⟩
  · simp only [MatMaps.step, matCount_append]
    by_cases hm : m' = m
    · subst hm
      simp [h.saved, matCount]
    · rw [Function.update_of_ne hm, h.saved]
      simp [matCount, Ne.symm hm]
  · simp only [MatMaps.step, Mem.write]
    by_cases hk : (m', k) = (m, s.saved m)
    · cases hk
      rw [Function.update_self, Option.some_inj, h.saved]
      constructor
      · rintro rfl; exact ⟨P, a, [], rfl, rfl⟩
      · rintro ⟨P₁, a', P₂, h1, h2⟩
        rcases split_snoc.mp h1 with ⟨-, -, h3⟩ | ⟨P₂', -, h3⟩
        · cases h3; rfl
        · have := matCount_lt h3; omega
    · rw [Function.update_of_ne hk, h.elemIn]
      constructor
      · rintro ⟨P₁, a', P₂, rfl, h2⟩
        exact ⟨P₁, a', P₂ ++ [(e, a, m)], by simp, h2⟩
      · rintro ⟨P₁, a', P₂, h1, h2⟩
        rcases split_snoc.mp h1 with ⟨-, h3, h4⟩ | ⟨P₂', -, h3⟩
        · cases h4; subst h3
          exact absurd (by rw [h2, h.saved]) hk
        · exact ⟨P₁, a', P₂', h3, h2⟩
  · simp only [MatMaps.step, Mem.write]
    by_cases hk : (e', a') = (e, a)
    · cases hk
      rw [Function.update_self, Option.some_inj, h.saved]
      constructor
      · rintro rfl; exact ⟨P, m, [], rfl, rfl⟩
      · rintro ⟨P₁, m', P₂, h1, h2⟩
        rcases split_snoc.mp h1 with ⟨-, h3, h4⟩ | ⟨P₂', -, h3⟩
        · cases h4; rw [h2, h3]
        · exact absurd rfl (hv (e, a, m') (by rw [h3]; simp))
    · rw [Function.update_of_ne hk, h.elems]
      constructor
      · rintro ⟨P₁, m', P₂, rfl, h2⟩
        exact ⟨P₁, m', P₂ ++ [(e, a, m)], by simp, h2⟩
      · rintro ⟨P₁, m', P₂, h1, h2⟩
        rcases split_snoc.mp h1 with ⟨-, h3, h4⟩ | ⟨P₂', -, h3⟩
        · cases h4; exact absurd rfl hk
        · exact ⟨P₁, m', P₂', h3, h2⟩

theorem maps_inv (P : List (ℕ × ℕ × ℕ)) (hP : (P.map fun v => (v.1, v.2.1)).Nodup) :
    MapsInv P (P.foldl MatMaps.step MatMaps.init) := by
  induction P using List.reverseRecOn with
  | nil =>
    refine ⟨fun m => rfl, fun m k e => ?_, fun e a k => ?_⟩ <;>
      simp [MatMaps.init, Mem.empty]
  | append_singleton P v ih =>
    rw [List.map_append, List.nodup_append] at hP
    rw [List.foldl_append]
    apply maps_step P v _ (ih hP.1)
    intro w hw
    exact hP.2.2 _ (List.mem_map.mpr ⟨w, hw, rfl⟩) _ (by simp)

theorem countMat_eq (mats : List (List ℕ)) (m : ℕ) : countMat mats m = matCount (visits mats) m := by
  have h1 : ∀ (ms : List ℕ) (c : ℕ),
      ms.foldl (fun sum a => if a = m then sum + 1 else sum) c = c + ms.countP (· = m) := by
    intro ms
    induction ms with
    | nil => simp
    | cons a ms ih =>
      intro c
      rw [List.foldl_cons, ih, List.countP_cons]
      by_cases h : a = m <;> simp [h] <;> omega
  have h2 : ∀ (ms : List ℕ) (e k : ℕ),
      matCount ((ms.zipIdx k).map fun u => (e, u.2, u.1)) m = ms.countP (· = m) := by
    intro ms e
    induction ms with
    | nil => simp [matCount]
    | cons a ms ih =>
      intro k
      rw [List.zipIdx_cons, List.map_cons, List.countP_cons]
      have := ih (k + 1)
      unfold matCount at this ⊢
      rw [List.countP_cons, this]
  unfold countMat visits
  suffices H : ∀ c k, mats.foldl (fun sum ms =>
      ms.foldl (fun sum a => if a = m then sum + 1 else sum) sum) c =
      c + matCount ((mats.zipIdx k).flatMap fun w => w.1.zipIdx.map fun u => (w.2, u.2, u.1)) m by
    simpa using H 0 0
  induction mats with
  | nil => simp [matCount]
  | cons ms mats ih =>
    intro c k
    rw [List.foldl_cons, h1, ih _ (k + 1), List.zipIdx_cons, List.flatMap_cons, matCount_append, h2]
    dsimp only
    omega

theorem materialMaps_inv (mats : List (List ℕ)) : MapsInv (visits mats) (materialMaps mats) :=
  maps_inv _ (visits_keys_nodup mats)

/-- **C19**, forward: the storage index recorded for a slot of an element lies below the number
of points counted for its material, and looking it up leads back to the element. -/
theorem C19_roundtrip (mats : List (List ℕ)) (e a m : ℕ) (h : Holds mats e a m) :
    ∃ s, (materialMaps mats).matElemsInElem (e, a) = some s ∧ s < countMat mats m ∧
      (materialMaps mats).elemInMat (m, s) = some e := by
  have hI := materialMaps_inv mats
  obtain ⟨P₁, P₂, hP⟩ := List.append_of_mem (mem_visits.mpr h)
  refine ⟨matCount P₁ m, (hI.elems e a _).mpr ⟨P₁, m, P₂, hP, rfl⟩, ?_,
    (hI.elemIn m _ e).mpr ⟨P₁, a, P₂, hP, rfl⟩⟩
  rw [countMat_eq]
  exact matCount_lt hP

theorem exists_split_of_lt (P : List (ℕ × ℕ × ℕ)) (m k : ℕ) (h : k < matCount P m) :
    ∃ P₁ e a P₂, P = P₁ ++ (e, a, m) :: P₂ ∧ k = matCount P₁ m := by
  induction P using List.reverseRecOn with
  | nil => simp [matCount] at h
  | append_singleton P v ih =>
    rw [matCount_append] at h
    rcases Nat.lt_or_ge k (matCount P m) with hlt | hge
    · obtain ⟨P₁, e, a, P₂, rfl, h2⟩ := ih hlt
      exact ⟨P₁, e, a, P₂ ++ [v], by simp, h2⟩
    · obtain ⟨e, a, m'⟩ := v
      by_cases hm : m' = m
      · subst hm
        refine ⟨P, e, a, [], rfl, ?_⟩
        simp [matCount] at h hge ⊢
        omega
      · simp [matCount, hm] at h hge
        omega

/-- **C19**, backward: every storage index below the count belongs to exactly one slot of one
element. -/
theorem C19_every_index_used_once (mats : List (List ℕ)) (m s : ℕ) (hs : s < countMat mats m) :
    ∃ e a, Holds mats e a m ∧ (materialMaps mats).elemInMat (m, s) = some e ∧
      (materialMaps mats).matElemsInElem (e, a) = some s ∧
      ∀ e' a', Holds mats e' a' m → (materialMaps mats).matElemsInElem (e', a') = some s →
        e' = e ∧ a' = a := by
  have hI := materialMaps_inv mats
  rw [countMat_eq] at hs
  obtain ⟨P₁, e, a, P₂, hP, hk⟩ := exists_split_of_lt _ _ _ hs
  refine ⟨e, a, mem_visits.mp (by rw [hP]; simp), (hI.elemIn m s e).mpr ⟨P₁, a, P₂, hP, hk⟩,
    (hI.elems e a s).mpr ⟨P₁, m, P₂, hP, hk⟩, fun e' a' hh hs' => ?_⟩
  obtain ⟨Q₁, m', Q₂, hQ, hk'⟩ := (hI.elems e' a' s).mp hs'
  have hm : m' = m := by
    have h1 : (e', a', m') ∈ visits mats := by rw [hQ]; simp
    obtain ⟨ms, h2, h3⟩ := mem_visits.mp h1
    obtain ⟨ms', h4, h5⟩ := hh
    rw [h2] at h4; cases h4; rw [h3] at h5; cases h5; rfl
  subst hm
  -- both splittings have the same number of earlier points of the material
  rw [hP] at hQ
  rcases List.append_eq_append_iff.mp hQ with ⟨L, h1, h2⟩ | ⟨L, h1, h2⟩
  · cases L with
    | nil => simp at h2; exact ⟨h2.1.1.symm, h2.1.2.symm⟩
    | cons x L =>
      simp only [List.cons_append, List.cons.injEq] at h2
      obtain ⟨rfl, -⟩ := h2
      have := matCount_lt h1
      omega
  · cases L with
    | nil => simp at h2; exact ⟨h2.1.1, h2.1.2⟩
    | cons x L =>
      simp only [List.cons_append, List.cons.injEq] at h2
      obtain ⟨rfl, -⟩ := h2
      have := matCount_lt h1
      omega

/-- **C19**, no stray writes: nothing is recorded outside the allocated ranges. -/
theorem C19_in_range (mats : List (List ℕ)) :
    (∀ m s e, (materialMaps mats).elemInMat (m, s) = some e →
      s < countMat mats m ∧ ∃ a, Holds mats e a m) ∧
    (∀ e a s, (materialMaps mats).matElemsInElem (e, a) = some s → ∃ m, Holds mats e a m) := by
  have hI := materialMaps_inv mats
  constructor
  · intro m s e h
    obtain ⟨P₁, a, P₂, hP, hk⟩ := (hI.elemIn m s e).mp h
    rw [countMat_eq, hk]
    exact ⟨matCount_lt hP, a, mem_visits.mp (by rw [hP]; simp)⟩
  · intro e a s h
    obtain ⟨P₁, m, P₂, hP, -⟩ := (hI.elems e a s).mp h
    exact ⟨m, mem_visits.mp (by rw [hP]; simp)⟩

/-- **C19**, data: with one Gauss point per element the mass stored for the material point of slot
`a` of element `e` is density times occupied volume of that slot. -/
theorem C19_mass {K : Type} [Field K] (den : ℕ → ℕ → K) (vol : ℕ → K) (vf geo : ℕ → ℕ → K)
    (mats : List (List ℕ)) (e a m : ℕ) (h : Holds mats e a m) :
    ∃ s, (materialMaps mats).matElemsInElem (e, a) = some s ∧
      Mem.writeAll (massWrites 1 den vol vf geo (materialMaps mats) mats) Mem.empty (m, s) =
        some (den e a * (vol e * vf e a * geo e a)) := by
  obtain ⟨s, hs, hlt, -⟩ := C19_roundtrip mats e a m h
  refine ⟨s, hs, ?_⟩
  have hmem : ∀ v, ((m, s), v) ∈ massWrites 1 den vol vf geo (materialMaps mats) mats →
      v = den e a * (vol e * vf e a * geo e a) := by
    intro v hv
    obtain ⟨⟨e', a', m'⟩, hv1, hv2⟩ := List.mem_flatMap.mp hv
    cases hs' : (materialMaps mats).matElemsInElem (e', a') with
    | none => rw [hs'] at hv2; simp at hv2
    | some s' =>
      rw [hs'] at hv2
      simp at hv2
      obtain ⟨⟨rfl, rfl⟩, rfl⟩ := hv2
      obtain ⟨e₀, a₀, -, -, -, huniq⟩ := C19_every_index_used_once mats m s hlt
      obtain ⟨rfl, rfl⟩ := huniq e a h hs
      obtain ⟨rfl, rfl⟩ := huniq e' a' (mem_visits.mp hv1) hs'
      rfl
  apply Mem.writeAll_of_mem _ _ _ _ _ hmem
  refine List.mem_flatMap.mpr ⟨(e, a, m), mem_visits.mpr h, ?_⟩
  rw [hs]
  simp

/-- With two Gauss points per element (storage index `mat_elem_sid + gauss_lid`) neighbouring
elements share storage: the second point of element 0 is overwritten by the first of element 1. -/
theorem C19_two_gauss_points_fails :
    Mem.writeAll (massWrites (K := ℚ) 2 (fun g _ => g) (fun _ => 1) (fun _ _ => 1) (fun _ _ => 1)
      (materialMaps [[0], [0]]) [[0], [0]]) Mem.empty (0, 1) = some 1 ∧
    Mem.writeAll (massWrites (K := ℚ) 2 (fun g _ => g) (fun _ => 1) (fun _ _ => 1) (fun _ _ => 1)
      (materialMaps [[0], [0]]) [[0], [0]]) Mem.empty (0, 3) = none := by
  decide +kernel

example : countMat [[0, 2], [], [2, 2], [1]] 2 = 3 := by decide
example : (materialMaps [[0, 2], [], [2, 2], [1]]).elemInMat (2, 1) = some 2 := by decide
example : Holds [[0, 2], [], [2, 2], [1]] 2 0 2 := ⟨[2, 2], rfl, rfl⟩

end Fierro
