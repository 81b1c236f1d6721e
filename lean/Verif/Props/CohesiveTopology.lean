/-
C84: which nodes and which faces a cohesive zone ties together.
-/
import Mathlib.Data.List.Nodup
import Verif.Model.Cohesive

namespace Fierro

open Cohesive Contact

/-! ### Specification -/

/-- Two nodes are on top of each other: all three coordinates agree up to the tolerance. -/
def OnTop (x : ℕ → Fin 3 → ℝ) (tol : ℝ) (a b : ℕ) : Prop :=
  |x a 0 - x b 0| ≤ tol ∧ |x a 1 - x b 1| ≤ tol ∧ |x a 2 - x b 2| ≤ tol

theorem overlap_iff (x : ℕ → Fin 3 → ℝ) (tol : ℝ) (a b : ℕ) : overlap x tol a b ↔ OnTop x tol a b := by
  unfold overlap OnTop
  constructor
  · intro h; exact ⟨h 0, h 1, h 2⟩
  · rintro ⟨h0, h1, h2⟩ k
    match k with
    | 0 => exact h0
    | 1 => exact h1
    | 2 => exact h2

/-! ### Pairs -/

open Classical in
theorem mem_pairs (x : ℕ → Fin 3 → ℝ) (tol : ℝ) (l : List ℕ) (a b : ℕ) :
    (a, b) ∈ pairs x tol l ↔ [a, b].Sublist l ∧ OnTop x tol a b := by
  induction l with
  | nil => simp [pairs]
  | cons c rest ih =>
    simp only [pairs, List.mem_append, List.mem_map, List.mem_filter, Prod.mk.injEq, ih]
    constructor
    · rintro (⟨d, ⟨hd, ho⟩, rfl, rfl⟩ | ⟨hs, ho⟩)
      · exact ⟨List.Sublist.cons_cons _ (List.singleton_sublist.mpr hd), (overlap_iff ..).mp (of_decide_eq_true ho)⟩
      · exact ⟨hs.cons _, ho⟩
    · rintro ⟨hs, ho⟩
      cases hs with
      | cons _ h => exact Or.inr ⟨h, ho⟩
      | cons_cons _ h =>
        exact Or.inl ⟨b, ⟨List.singleton_sublist.mp h, decide_eq_true ((overlap_iff ..).mpr ho)⟩, rfl, rfl⟩

/-- C84.  The cohesive pairs are exactly the pairs of different boundary nodes that are on top of
each other, the one that comes first in the list of boundary nodes first. -/
theorem C84_pairs_exact (x : ℕ → Fin 3 → ℝ) (tol : ℝ) (l : List ℕ) (a b : ℕ) :
    (a, b) ∈ pairs x tol l ↔ [a, b].Sublist l ∧ OnTop x tol a b :=
  mem_pairs x tol l a b

/-- C84.  When the boundary nodes are listed once each, every pair is listed once, and never in both
orders, and no node is paired with itself. -/
theorem C84_pairs_once (x : ℕ → Fin 3 → ℝ) (tol : ℝ) (l : List ℕ) (hl : l.Nodup) :
    (pairs x tol l).Nodup ∧ (∀ a b, (a, b) ∈ pairs x tol l → a ≠ b ∧ (b, a) ∉ pairs x tol l) := by
  constructor
  · induction l with
    | nil => simp [pairs]
    | cons c rest ih =>
      have hc := List.nodup_cons.mp hl
      simp only [pairs]
      refine List.Nodup.append ?_ (ih hc.2) ?_
      · refine List.Nodup.map (fun _ _ h => by simpa using h) (hc.2.filter _)
      · intro p hp hq
        obtain ⟨d, -, rfl⟩ := List.mem_map.mp hp
        exact hc.1 (((mem_pairs ..).mp hq).1.subset (by simp))
  · intro a b h
    have hs := ((mem_pairs ..).mp h).1
    have hne : a ≠ b := by
      have := hs.nodup hl
      simpa using this
    refine ⟨hne, fun h2 => ?_⟩
    have hs2 := ((mem_pairs ..).mp h2).1
    -- both orders are sublists of a list without repetition
    have key : ∀ l : List ℕ, l.Nodup → [a, b].Sublist l → ¬ [b, a].Sublist l := by
      intro l
      induction l with
      | nil => intro _ h; simp at h
      | cons c r ih =>
        intro hn h1 h2
        have hc := List.nodup_cons.mp hn
        cases h1 with
        | cons _ h1 =>
          cases h2 with
          | cons _ h2 => exact ih hc.2 h1 h2
          | cons_cons _ h2 => exact hc.1 (h1.subset (by simp))
        | cons_cons _ h1 =>
          cases h2 with
          | cons _ h2 => exact hc.1 (h2.subset (by simp))
          | cons_cons _ h2 => exact hne rfl
    exact key l hl hs hs2

/-- C84.  The table of pairs has as many rows as the filling pass writes. -/
theorem C84_pairs_fit (x : ℕ → Fin 3 → ℝ) (tol : ℝ) (l : List ℕ) :
    (pairs x tol l).length = pairCount x tol l := by
  induction l with
  | nil => rfl
  | cons c rest ih => simp [pairs, pairCount, ih, List.countP_eq_length_filter]

theorem maxElems_le_foldl (deg : ℕ → ℕ) (ps : List (ℕ × ℕ)) (m : ℕ) :
    m ≤ ps.foldl (fun m p => max m (max (deg p.1) (deg p.2))) m ∧
      ∀ p ∈ ps, max (deg p.1) (deg p.2) ≤ ps.foldl (fun m p => max m (max (deg p.1) (deg p.2))) m := by
  induction ps generalizing m with
  | nil => simp
  | cons q r ih =>
    simp only [List.foldl_cons]
    have h := ih (max m (max (deg q.1) (deg q.2)))
    refine ⟨le_trans (le_max_left _ _) h.1, fun p hp => ?_⟩
    rcases List.mem_cons.mp hp with rfl | hp
    · exact le_trans (le_max_right _ _) h.1
    · exact h.2 p hp

/-- C84.  There is a slot for every element around every node of every pair. -/
theorem C84_slots_suffice (deg : ℕ → ℕ) (ps : List (ℕ × ℕ)) (p : ℕ × ℕ) (hp : p ∈ ps) :
    deg p.1 ≤ maxElems deg ps ∧ deg p.2 ≤ maxElems deg ps := by
  have := (maxElems_le_foldl deg ps 0).2 p hp
  exact ⟨le_trans (le_max_left _ _) this, le_trans (le_max_right _ _) this⟩

/-- Three nodes on top of each other give three pairs. -/
example : pairs (fun _ _ => 0) 1 [4, 7, 9] = [(4, 7), (4, 9), (7, 9)] := by
  have h : ∀ a b, overlap (fun _ _ => (0 : ℝ)) 1 a b := by intro a b k; simp
  simp [pairs, h]

/-! ### Faces -/

/-- C84.  The faces tried for a corner are the three faces of the element that contain it. -/
theorem C84_corner_faces (k : Fin 8) (f : Fin 6) :
    f ∈ cornerFaces k ↔ ∃ j, faceNode f j = k := by
  revert k f; decide

theorem C84_corner_found (nodes : Fin 8 → ℕ) (a : ℕ) :
    (∀ k, cornerOf nodes a = some k → nodes k = a) ∧
      (cornerOf nodes a = none ↔ ∀ k, nodes k ≠ a) := by
  constructor
  · intro k h
    have := List.find?_some h
    simpa using this
  · unfold cornerOf
    rw [List.find?_eq_none]
    simp

theorem mem_facesAt (nodes : ℕ → Fin 8 → ℕ) (a e : ℕ) (f : Fin 6) (h : f ∈ facesAt nodes a e) :
    ∃ j, nodes e (faceNode f j) = a := by
  unfold facesAt at h
  cases hc : cornerOf (nodes e) a with
  | none => simp [hc] at h
  | some k =>
    simp only [hc] at h
    obtain ⟨j, hj⟩ := (C84_corner_faces k f).mp h
    exact ⟨j, by rw [hj]; exact (C84_corner_found (nodes e) a).1 k hc⟩

theorem facesAt_mem (nodes : ℕ → Fin 8 → ℕ) (a e : ℕ) (f : Fin 6) (hinj : Function.Injective (nodes e))
    (j : Fin 4) (h : nodes e (faceNode f j) = a) : f ∈ facesAt nodes a e := by
  unfold facesAt
  cases hc : cornerOf (nodes e) a with
  | none => exact absurd h ((C84_corner_found (nodes e) a).2.mp hc _)
  | some k =>
    have hk := (C84_corner_found (nodes e) a).1 k hc
    exact (C84_corner_faces k f).mpr ⟨j, hinj (h.trans hk.symm)⟩

theorem mem_candidates (nodes : ℕ → Fin 8 → ℕ) (a b : ℕ) (sideB : List ℕ) (eA : ℕ) (c : Cand) :
    c ∈ candidates nodes a b sideB eA ↔
      c.1 ∈ facesAt nodes a eA ∧ ∃ e, sideB[c.2.1]? = some e ∧ c.2.2 ∈ facesAt nodes b e := by
  obtain ⟨fA, s, fB⟩ := c
  simp only [candidates, List.mem_flatMap, List.mem_map, Prod.mk.injEq]
  constructor
  · rintro ⟨f, hf, ⟨e, i⟩, hs, g, hg, rfl, rfl, rfl⟩
    exact ⟨hf, e, List.mem_zipIdx_iff_getElem?.mp hs, hg⟩
  · rintro ⟨hf, e, he, hg⟩
    exact ⟨fA, hf, (e, s), List.mem_zipIdx_iff_getElem?.mpr he, fB, hg, rfl, rfl, rfl⟩

/-- A match of the faces `fA` of the element `eA` and `fB` of the element in slot `s` of side B that
deserves the name: both faces contain the node of their side, and they pass the geometric test. -/
def GoodMatch (nodes : ℕ → Fin 8 → ℕ) (a b : ℕ) (sideB : List ℕ)
    (good : ℕ → Fin 6 → ℕ → Fin 6 → Bool) (eA : ℕ) (fA : Fin 6) (s : ℕ) (fB : Fin 6) : Prop :=
  (∃ j, nodes eA (faceNode fA j) = a) ∧
    (∃ e, sideB[s]? = some e ∧ ∃ j, nodes e (faceNode fB j) = b) ∧ good eA fA s fB = true

theorem matchSlot_some (nodes : ℕ → Fin 8 → ℕ) (a b : ℕ) (sideB : List ℕ)
    (good : ℕ → Fin 6 → ℕ → Fin 6 → Bool) (taken : ℕ → Option (Fin 6)) (eA : ℕ) (c : Cand)
    (h : matchSlot nodes a b sideB good taken eA = some c) :
    GoodMatch nodes a b sideB good eA c.1 c.2.1 c.2.2 ∧ taken c.2.1 = none := by
  have h1 := List.find?_some h
  have h2 := (mem_candidates ..).mp (List.mem_of_find?_eq_some h)
  simp only [Bool.and_eq_true, Option.isNone_iff_eq_none] at h1
  obtain ⟨e, he, hf⟩ := h2.2
  exact ⟨⟨mem_facesAt _ _ _ _ h2.1, ⟨e, he, mem_facesAt _ _ _ _ hf⟩, h1.2⟩, h1.1⟩

theorem matchSlot_none (nodes : ℕ → Fin 8 → ℕ) (a b : ℕ) (sideB : List ℕ)
    (good : ℕ → Fin 6 → ℕ → Fin 6 → Bool) (taken : ℕ → Option (Fin 6)) (eA : ℕ)
    (hA : Function.Injective (nodes eA)) (hB : ∀ e ∈ sideB, Function.Injective (nodes e))
    (h : matchSlot nodes a b sideB good taken eA = none) (fA : Fin 6) (s : ℕ) (fB : Fin 6)
    (hg : GoodMatch nodes a b sideB good eA fA s fB) : taken s ≠ none := by
  intro hn
  obtain ⟨⟨j, hj⟩, ⟨e, he, j', hj'⟩, hgood⟩ := hg
  have := List.find?_eq_none.mp h (fA, s, fB) ((mem_candidates ..).mpr
    ⟨facesAt_mem _ _ _ _ hA j hj, e, he, facesAt_mem _ _ _ _ (hB e (List.mem_of_getElem? he)) j' hj'⟩)
  simp [hn, hgood] at this

theorem matchAll_length (nodes : ℕ → Fin 8 → ℕ) (a b : ℕ) (sideB : List ℕ)
    (good : ℕ → Fin 6 → ℕ → Fin 6 → Bool) (taken : ℕ → Option (Fin 6)) (sideA : List ℕ) :
    (matchAll nodes a b sideB good taken sideA).1.length = sideA.length := by
  induction sideA generalizing taken with
  | nil => rfl
  | cons e r ih =>
    simp only [matchAll]
    cases matchSlot nodes a b sideB good taken e with
    | none => simp [ih]
    | some c => simp [ih]

/-- What the table says after all slots, for an arbitrary start. -/
theorem matchAll_spec (nodes : ℕ → Fin 8 → ℕ) (a b : ℕ) (sideB : List ℕ)
    (good : ℕ → Fin 6 → ℕ → Fin 6 → Bool) (taken : ℕ → Option (Fin 6)) (sideA : List ℕ) :
    (∀ (i : ℕ) (c : Cand), (matchAll nodes a b sideB good taken sideA).1[i]? = some (some c) →
      (∃ e, sideA[i]? = some e ∧ GoodMatch nodes a b sideB good e c.1 c.2.1 c.2.2) ∧
        taken c.2.1 = none ∧
        (matchAll nodes a b sideB good taken sideA).2 c.2.1 = some c.2.2) ∧
    (∀ s f, taken s = some f → (matchAll nodes a b sideB good taken sideA).2 s = some f) ∧
    (∀ s f, (matchAll nodes a b sideB good taken sideA).2 s = some f → taken s = some f ∨
      ∃ (i : ℕ) (fA : Fin 6), (matchAll nodes a b sideB good taken sideA).1[i]? = some (some (fA, s, f))) ∧
    (∀ (i i' : ℕ) (c c' : Cand), (matchAll nodes a b sideB good taken sideA).1[i]? = some (some c) →
      (matchAll nodes a b sideB good taken sideA).1[i']? = some (some c') → c.2.1 = c'.2.1 → i = i') := by
  induction sideA generalizing taken with
  | nil =>
    simp only [matchAll]
    exact ⟨by simp, fun _ _ h => h, fun _ _ h => Or.inl h, by simp⟩
  | cons e r ih =>
    simp only [matchAll]
    cases hm : matchSlot nodes a b sideB good taken e with
    | none =>
      obtain ⟨h1, h2, h3, h4⟩ := ih taken
      refine ⟨?_, h2, ?_, ?_⟩
      · intro i c h
        match i with
        | 0 => simp at h
        | i + 1 => exact h1 i c (by simpa using h)
      · intro s f h
        rcases h3 s f h with h | ⟨i, fA, h⟩
        · exact Or.inl h
        · exact Or.inr ⟨i + 1, fA, by simpa using h⟩
      · intro i i' c c' h h' hc
        match i, i' with
        | 0, _ => simp at h
        | _ + 1, 0 => simp at h'
        | i + 1, i' + 1 => rw [h4 i i' c c' (by simpa using h) (by simpa using h') hc]
    | some d =>
      obtain ⟨hg, ht⟩ := matchSlot_some _ _ _ _ _ _ _ _ hm
      obtain ⟨h1, h2, h3, h4⟩ := ih (Function.update taken d.2.1 (some d.2.2))
      refine ⟨?_, ?_, ?_, ?_⟩
      · intro i c h
        match i with
        | 0 =>
          have : d = c := by simpa using h
          subst this
          exact ⟨⟨e, by simp, hg⟩, ht, h2 _ _ (by simp)⟩
        | i + 1 =>
          obtain ⟨ha, hb, hc⟩ := h1 i c (by simpa using h)
          refine ⟨by simpa using ha, ?_, hc⟩
          rcases eq_or_ne c.2.1 d.2.1 with he | he
          · rw [he] at hb; simp at hb
          · rwa [Function.update_of_ne he] at hb
      · intro s f h
        refine h2 s f ?_
        have : s ≠ d.2.1 := by rintro rfl; rw [ht] at h; exact absurd h (by simp)
        rwa [Function.update_of_ne this]
      · intro s f h
        rcases h3 s f h with h | ⟨i, fA, h⟩
        · rcases eq_or_ne s d.2.1 with he | he
          · subst he
            rw [Function.update_self] at h
            refine Or.inr ⟨0, d.1, ?_⟩
            rw [← Option.some.inj h]
            rfl
          · rw [Function.update_of_ne he] at h
            exact Or.inl h
        · exact Or.inr ⟨i + 1, fA, by simpa using h⟩
      · intro i i' c c' h h' hc
        match i, i' with
        | 0, 0 => rfl
        | 0, i' + 1 =>
          exfalso
          have hd : d = c := by simpa using h
          subst hd
          have := (h1 i' c' (by simpa using h')).2.1
          rw [← hc] at this
          simp at this
        | i + 1, 0 =>
          exfalso
          have hd : d = c' := by simpa using h'
          subst hd
          have := (h1 i c (by simpa using h)).2.1
          rw [hc] at this
          simp at this
        | i + 1, i' + 1 => rw [h4 i i' c c' (by simpa using h) (by simpa using h') hc]

/-- The table starts without faces, fracture.cpp:675. -/
def noFaces : ℕ → Option (Fin 6) := fun _ => none

/-- C84.  Every match recorded joins two faces that contain the two nodes of the pair and pass the
geometric test, and the face is the one stored for side B. -/
theorem C84_match_sound (nodes : ℕ → Fin 8 → ℕ) (a b : ℕ) (sideA sideB : List ℕ)
    (good : ℕ → Fin 6 → ℕ → Fin 6 → Bool) (i : ℕ) (c : Cand)
    (h : (matchAll nodes a b sideB good noFaces sideA).1[i]? = some (some c)) :
    (∃ e, sideA[i]? = some e ∧ GoodMatch nodes a b sideB good e c.1 c.2.1 c.2.2) ∧
      (matchAll nodes a b sideB good noFaces sideA).2 c.2.1 = some c.2.2 :=
  let r := (matchAll_spec nodes a b sideB good noFaces sideA).1 i c h
  ⟨r.1, r.2.2⟩

/-- C84.  The faces of side B are used at most once: two slots of side A never share a slot of side B,
and every face stored for side B belongs to a match. -/
theorem C84_match_once (nodes : ℕ → Fin 8 → ℕ) (a b : ℕ) (sideA sideB : List ℕ)
    (good : ℕ → Fin 6 → ℕ → Fin 6 → Bool) :
    (∀ (i i' : ℕ) (c c' : Cand), (matchAll nodes a b sideB good noFaces sideA).1[i]? = some (some c) →
      (matchAll nodes a b sideB good noFaces sideA).1[i']? = some (some c') →
      c.2.1 = c'.2.1 → i = i') ∧
    (∀ s f, (matchAll nodes a b sideB good noFaces sideA).2 s = some f →
      ∃ (i : ℕ) (fA : Fin 6), (matchAll nodes a b sideB good noFaces sideA).1[i]? = some (some (fA, s, f))) := by
  obtain ⟨-, -, h3, h4⟩ := matchAll_spec nodes a b sideB good noFaces sideA
  refine ⟨h4, fun s f h => ?_⟩
  rcases h3 s f h with h | h
  · simp [noFaces] at h
  · exact h

theorem matchAll_maximal (nodes : ℕ → Fin 8 → ℕ) (a b : ℕ) (sideB : List ℕ)
    (good : ℕ → Fin 6 → ℕ → Fin 6 → Bool) (taken : ℕ → Option (Fin 6)) (sideA : List ℕ)
    (hA : ∀ e ∈ sideA, Function.Injective (nodes e)) (hB : ∀ e ∈ sideB, Function.Injective (nodes e))
    (i e : ℕ) (he : sideA[i]? = some e)
    (h : (matchAll nodes a b sideB good taken sideA).1[i]? = some none) (fA : Fin 6) (s : ℕ)
    (fB : Fin 6) (hg : GoodMatch nodes a b sideB good e fA s fB) :
    taken s ≠ none ∨ ∃ i' < i, ∃ gA gB : Fin 6,
      (matchAll nodes a b sideB good taken sideA).1[i']? = some (some (gA, s, gB)) := by
  induction sideA generalizing taken i with
  | nil => simp at he
  | cons e0 r ih =>
    simp only [matchAll] at h ⊢
    cases hm : matchSlot nodes a b sideB good taken e0 with
    | none =>
      simp only [hm] at h ⊢
      match i with
      | 0 =>
        have : e0 = e := by simpa using he
        subst this
        exact Or.inl (matchSlot_none _ _ _ _ _ _ _ (hA e0 (by simp)) hB hm fA s fB hg)
      | i + 1 =>
        rcases ih taken (fun x hx => hA x (by simp [hx])) i (by simpa using he) (by simpa using h) with
          h | ⟨i', hi, gA, gB, h⟩
        · exact Or.inl h
        · exact Or.inr ⟨i' + 1, by omega, gA, gB, by simpa using h⟩
    | some d =>
      simp only [hm] at h ⊢
      match i with
      | 0 => simp at h
      | i + 1 =>
        rcases ih _ (fun x hx => hA x (by simp [hx])) i (by simpa using he) (by simpa using h) with
          h | ⟨i', hi, gA, gB, h⟩
        · rcases eq_or_ne s d.2.1 with hs | hs
          · exact Or.inr ⟨0, by omega, d.1, d.2.2, by subst hs; simp⟩
          · rw [Function.update_of_ne hs] at h
            exact Or.inl h
        · exact Or.inr ⟨i' + 1, by omega, gA, gB, by simpa using h⟩

/-- C84.  An element of side A stays without a face only if every element of side B it could be
matched with was given to an earlier element of side A. -/
theorem C84_match_maximal (nodes : ℕ → Fin 8 → ℕ) (a b : ℕ) (sideA sideB : List ℕ)
    (good : ℕ → Fin 6 → ℕ → Fin 6 → Bool)
    (hA : ∀ e ∈ sideA, Function.Injective (nodes e)) (hB : ∀ e ∈ sideB, Function.Injective (nodes e))
    (i e : ℕ) (he : sideA[i]? = some e)
    (h : (matchAll nodes a b sideB good noFaces sideA).1[i]? = some none) (fA : Fin 6) (s : ℕ)
    (fB : Fin 6) (hg : GoodMatch nodes a b sideB good e fA s fB) :
    ∃ i' < i, ∃ gA gB : Fin 6,
      (matchAll nodes a b sideB good noFaces sideA).1[i']? = some (some (gA, s, gB)) := by
  rcases matchAll_maximal nodes a b sideB good noFaces sideA hA hB i e he h fA s fB hg with h | h
  · exact absurd rfl h
  · exact h

/-- C84.  If every face of an element faces at most one face of the other side and every element has
at most one such face at the node (a smooth crack surface), every element of side A that faces an
element of side B is matched, with exactly that face. -/
theorem C84_match_complete (nodes : ℕ → Fin 8 → ℕ) (a b : ℕ) (sideA sideB : List ℕ)
    (good : ℕ → Fin 6 → ℕ → Fin 6 → Bool)
    (hA : ∀ e ∈ sideA, Function.Injective (nodes e)) (hB : ∀ e ∈ sideB, Function.Injective (nodes e))
    (hAB : ∀ e fA s fB fA' s' fB', GoodMatch nodes a b sideB good e fA s fB →
      GoodMatch nodes a b sideB good e fA' s' fB' → fA = fA' ∧ s = s' ∧ fB = fB')
    (hBA : ∀ (i i' e e' : ℕ) (fA : Fin 6) (s : ℕ) (fB fA' fB' : Fin 6), sideA[i]? = some e →
      sideA[i']? = some e' → GoodMatch nodes a b sideB good e fA s fB →
      GoodMatch nodes a b sideB good e' fA' s fB' → i = i')
    (i e : ℕ) (he : sideA[i]? = some e) (fA : Fin 6) (s : ℕ) (fB : Fin 6)
    (hg : GoodMatch nodes a b sideB good e fA s fB) :
    (matchAll nodes a b sideB good noFaces sideA).1[i]? = some (some (fA, s, fB)) := by
  have hl := matchAll_length nodes a b sideB good noFaces sideA
  have hi : i < (matchAll nodes a b sideB good noFaces sideA).1.length := by
    rw [hl]; exact (List.getElem?_eq_some_iff.mp he).1
  cases hc : (matchAll nodes a b sideB good noFaces sideA).1[i]? with
  | none => exact absurd (List.getElem?_eq_none_iff.mp hc) (by omega)
  | some o =>
    cases o with
    | none =>
      obtain ⟨i', hlt, gA, gB, h⟩ :=
        C84_match_maximal nodes a b sideA sideB good hA hB i e he hc fA s fB hg
      obtain ⟨⟨e', he', hg'⟩, -⟩ := C84_match_sound nodes a b sideA sideB good i' _ h
      exact absurd (hBA i i' e e' fA s fB gA gB he he' hg hg') (by omega)
    | some c =>
      obtain ⟨⟨e', he', hg'⟩, -⟩ := C84_match_sound nodes a b sideA sideB good i c hc
      rw [he] at he'
      obtain rfl := Option.some.inj he'
      obtain ⟨h1, h2, h3⟩ := hAB e _ _ _ _ _ _ hg hg'
      rw [h1, h2, h3]

/-- Two elements around node 0 (its corner 0) and two around node 100. -/
def crackNodes (e : ℕ) (k : Fin 8) : ℕ :=
  if k = 0 then (if e < 2 then 0 else 100) else 1000 * (e + 1) + k

/-- The x-faces of elements 0 and 2 face each other, and the x-faces of 1 and 3. -/
def crackGood (eA : ℕ) (fA : Fin 6) (s : ℕ) (fB : Fin 6) : Bool :=
  fA == 0 && fB == 0 && eA == s

example : (matchAll crackNodes 0 100 [2, 3] crackGood noFaces [0, 1]).1 = [some (0, 0, 0), some (0, 1, 0)] := by
  decide

/-- C84 (finding).  "Every face of side A that faces a face of side B is recorded": false.  An element
whose node is an inner corner of the crack has two faces on the crack there; only one of them is
recorded (there is one face per element and node), so the other one gets no cohesive force. -/
theorem C84_second_face_fails :
    ¬ ∀ (nodes : ℕ → Fin 8 → ℕ) (a b : ℕ) (sideA sideB : List ℕ)
      (good : ℕ → Fin 6 → ℕ → Fin 6 → Bool) (i e : ℕ) (fA : Fin 6) (s : ℕ) (fB : Fin 6),
      sideA[i]? = some e → GoodMatch nodes a b sideB good e fA s fB →
      ∃ (i' : ℕ) (gA : Fin 6), (matchAll nodes a b sideB good noFaces sideA).1[i']? = some (some (gA, s, fB)) := by
  intro h
  obtain ⟨i', gA, h⟩ := h crackNodes 0 100 [0] [2, 3]
    (fun _ fA s _ => (fA == 0 && s == 0) || (fA == 2 && s == 1)) 0 0 2 1 0 rfl
    ⟨⟨0, by decide⟩, ⟨3, rfl, 0, by decide⟩, by decide⟩
  have hv : (matchAll crackNodes 0 100 [2, 3]
    (fun _ fA s _ => (fA == 0 && s == 0) || (fA == 2 && s == 1)) noFaces [0]).1 = [some (0, 0, 0)] := by
    decide
  rw [hv] at h
  match i' with
  | 0 => simp at h
  | i' + 1 => simp at h

end Fierro
