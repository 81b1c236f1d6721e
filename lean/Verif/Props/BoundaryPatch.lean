import Verif.Model.BoundaryPatch
import Mathlib.Data.List.Induction
import Mathlib.Tactic.Linarith

/-!
# C153: boundary patches of the previous version
-/

namespace Fierro

/-! ## The order of node combinations -/

theorem sortedLess_irrefl : ∀ a, sortedLess a a = false
  | [] => rfl
  | a :: as => by simp [sortedLess, sortedLess_irrefl as]

theorem sortedLess_trans : ∀ a b c : List ℕ, a.length = b.length → b.length = c.length → sortedLess a b = true →
    sortedLess b c = true → sortedLess a c = true
  | [], _, _, _, _, h, _ => by simp [sortedLess] at h
  | a :: as, [], _, hl, _, _, _ => by simp at hl
  | a :: as, b :: bs, [], _, hl, _, _ => by simp at hl
  | a :: as, b :: bs, c :: cs, h1, h2, h3, h4 => by
    simp only [sortedLess] at h3 h4 ⊢
    by_cases hab : a < b
    · by_cases hbc : b < c
      · rw [if_pos (by omega)]
      · rw [if_neg hbc] at h4
        by_cases e : b = c
        · rw [if_pos (by omega)]
        · rw [if_neg e] at h4; cases h4
    · rw [if_neg hab] at h3
      by_cases e : a = b
      · rw [if_pos e] at h3
        subst e
        by_cases hbc : a < c
        · rw [if_pos hbc]
        · rw [if_neg hbc] at h4 ⊢
          by_cases e' : a = c
          · rw [if_pos e'] at h4 ⊢
            exact sortedLess_trans as bs cs (by simpa using h1) (by simpa using h2) h3 h4
          · rw [if_neg e'] at h4; cases h4
      · rw [if_neg e] at h3; cases h3

theorem sortedLess_total : ∀ a b : List ℕ, a.length = b.length → sortedLess a b = false → sortedLess b a = false → a = b
  | [], [], _, _, _ => rfl
  | [], _ :: _, h, _, _ => by simp at h
  | _ :: _, [], h, _, _ => by simp at h
  | a :: as, b :: bs, h, h1, h2 => by
    simp only [sortedLess] at h1 h2
    by_cases hab : a < b
    · rw [if_pos hab] at h1; cases h1
    · by_cases hba : b < a
      · rw [if_pos hba] at h2; cases h2
      · have e : a = b := by omega
        subst e
        rw [if_neg hab, if_pos rfl] at h1 h2
        rw [sortedLess_total as bs (by simpa using h) h1 h2]

theorem sort_eq_iff (a b : List ℕ) : a.insertionSort (· ≤ ·) = b.insertionSort (· ≤ ·) ↔ a.Perm b := by
  constructor
  · intro h
    exact (List.perm_insertionSort _ a).symm.trans (h ▸ List.perm_insertionSort _ b)
  · intro h
    exact List.Perm.eq_of_sortedLE List.sortedLE_insertionSort List.sortedLE_insertionSort
      ((List.perm_insertionSort _ a).trans (h.trans (List.perm_insertionSort _ b).symm))

/-- **C153.**  The order of node combinations is irreflexive and transitive, as a set needs it. -/
theorem C153_order (a b c : List ℕ) :
    ncLess a a = false ∧ (ncLess a b = true → ncLess b c = true → ncLess a c = true) := by
  constructor
  · simp [ncLess, sortedLess_irrefl]
  · unfold ncLess
    intro h1 h2
    split_ifs at h1 with h3 h4
    · split_ifs at h2 with h5 h6
      · rw [if_pos (by omega)]
      · rw [if_pos (by omega)]
    · split_ifs at h2 with h5 h6
      · rw [if_pos (by omega)]
      · rw [if_neg (by omega), if_neg (by omega)]
        exact sortedLess_trans _ _ _ (by simp only [List.length_insertionSort]; omega)
          (by simp only [List.length_insertionSort]; omega) h1 h2

/-- **C153.**  Two node combinations are the same to a set exactly if they have the same nodes, in any order and as
often. -/
theorem C153_same (a b : List ℕ) : (ncLess a b = false ∧ ncLess b a = false) ↔ a.Perm b := by
  rw [← sort_eq_iff]
  unfold ncLess
  constructor
  · rintro ⟨h1, h2⟩
    have hl : a.length = b.length := by
      by_contra hne
      rcases Nat.lt_or_gt_of_ne hne with h | h
      · rw [if_pos h] at h1; cases h1
      · rw [if_pos h] at h2; cases h2
    rw [if_neg (by omega), if_neg (by omega)] at h1 h2
    exact sortedLess_total _ _ (by simp only [List.length_insertionSort]; omega) h1 h2
  · intro h
    have hl : a.length = b.length := by
      have := congrArg List.length h
      simpa using this
    rw [if_neg (by omega), if_neg (by omega), if_neg (by omega), if_neg (by omega), h]
    exact ⟨sortedLess_irrefl _, sortedLess_irrefl _⟩

/-- **C153.**  The comparison of node combinations for equality says the same. -/
theorem C153_equal (a b : List ℕ) : ncEq a b = true ↔ a.Perm b := by
  have key : ∀ x y : List ℕ, x.length = y.length → (sortedEqual x y = true ↔ x = y) := by
    intro x
    induction x with
    | nil => intro y h; cases y <;> simp_all [sortedEqual]
    | cons u us ih =>
      intro y h
      cases y with
      | nil => simp at h
      | cons v vs =>
        simp only [sortedEqual]
        by_cases e : u = v
        · subst e
          rw [if_neg (by simp), ih vs (by simpa using h)]
          simp
        · rw [if_pos e]
          simp [e]
  rw [← sort_eq_iff]
  unfold ncEq
  by_cases hl : a.length = b.length
  · rw [if_neg (not_not.2 hl), key _ _ (by simp [hl])]
  · rw [if_pos hl]
    constructor
    · intro h; cases h
    · intro h
      have := congrArg List.length h
      simp at this
      exact absurd this hl

theorem ncSame_iff (a b : List ℕ) : ncSame a b = true ↔ a.Perm b := by
  rw [← C153_same]
  simp [ncSame]

/-! ## The flags -/

/-- Patch `i` of the list is alone: no other patch has the same nodes. -/
def Alone (ps : List (List ℕ)) (i : ℕ) (nodes : List ℕ) : Prop :=
  ∀ j other, ps[j]? = some other → j ≠ i → ¬other.Perm nodes

structure FlagInv (ps : List (List ℕ)) (st : PatchFlags) : Prop where
  entries : ∀ d ∈ st.set, ps[d.2]? = some d.1
  found : ∀ (i : ℕ) (nodes : List ℕ), ps[i]? = some nodes → ∃ d ∈ st.set, d.1.Perm nodes
  flags : ∀ (i : ℕ) (nodes : List ℕ), ps[i]? = some nodes → (st.flags i = true ↔ Alone ps i nodes)
  rest : ∀ i, ps.length ≤ i → st.flags i = true

theorem flag_step (ps : List (List ℕ)) (st : PatchFlags) (p : List ℕ) (h : FlagInv ps st) :
    FlagInv (ps ++ [p]) (addPatch st (p, ps.length)) := by
  have old : ∀ {i : ℕ} {x : List ℕ}, ps[i]? = some x → (ps ++ [p])[i]? = some x := by
    intro i x hx
    have := (List.getElem?_eq_some_iff.1 hx).1
    rw [List.getElem?_append_left this]; exact hx
  have cases' : ∀ {i : ℕ} {x : List ℕ}, (ps ++ [p])[i]? = some x → ps[i]? = some x ∨ (i = ps.length ∧ x = p) := by
    intro i x hx
    by_cases hi : i < ps.length
    · rw [List.getElem?_append_left hi] at hx; exact .inl hx
    · rw [List.getElem?_append_right (by omega)] at hx
      have := (List.getElem?_eq_some_iff.1 hx)
      obtain ⟨h1, h2⟩ := this
      simp at h1
      refine .inr ⟨by omega, ?_⟩
      have : i - ps.length = 0 := by omega
      simpa [this] using h2.symm
  have new : (ps ++ [p])[ps.length]? = some p := by simp
  have lt : ∀ {i : ℕ} {x : List ℕ}, ps[i]? = some x → i < ps.length := fun hx => (List.getElem?_eq_some_iff.1 hx).1
  unfold addPatch
  cases hf : st.set.find? fun d => ncSame d.1 p with
  | none =>
    have hno : ∀ (i : ℕ) (x : List ℕ), ps[i]? = some x → ¬x.Perm p := by
      intro i x hx hp
      obtain ⟨d, hd, hdx⟩ := h.found i x hx
      have := List.find?_eq_none.1 hf d hd
      exact this ((ncSame_iff _ _).2 (hdx.trans hp))
    refine ⟨?_, ?_, ?_, ?_⟩
    · intro d hd
      rcases List.mem_cons.1 hd with rfl | hd
      · exact new
      · exact old (h.entries d hd)
    · intro i x hx
      rcases cases' hx with hx | ⟨rfl, rfl⟩
      · obtain ⟨d, hd, hp⟩ := h.found i x hx
        exact ⟨d, by simp [hd], hp⟩
      · exact ⟨(x, ps.length), by simp, List.Perm.refl _⟩
    · intro i x hx
      rcases cases' hx with hx' | ⟨rfl, rfl⟩
      · simp only
        rw [h.flags i x hx']
        constructor
        · intro ha j y hy hj
          rcases cases' hy with hy | ⟨rfl, rfl⟩
          · exact ha j y hy hj
          · exact fun hp => hno i x hx' hp.symm
        · intro ha j y hy hj
          exact ha j y (old hy) hj
      · simp only
        rw [h.rest _ (le_refl _)]
        refine ⟨fun _ j y hy hj => ?_, fun _ => rfl⟩
        rcases cases' hy with hy | ⟨rfl, rfl⟩
        · exact hno j y hy
        · exact absurd rfl hj
    · intro i hi
      simp at hi
      exact h.rest i (by omega)
  | some d =>
    have hd := List.mem_of_find?_eq_some hf
    have hdp : d.1.Perm p := (ncSame_iff _ _).1 (by simpa using List.find?_some hf)
    have hde := h.entries d hd
    refine ⟨?_, ?_, ?_, ?_⟩
    · intro e he
      exact old (h.entries e he)
    · intro i x hx
      rcases cases' hx with hx | ⟨rfl, rfl⟩
      · exact h.found i x hx
      · exact ⟨d, hd, hdp⟩
    · intro i x hx
      simp only
      rcases cases' hx with hx | ⟨rfl, rfl⟩
      · have hil := lt hx
        by_cases e : i = d.2
        · rw [if_pos (.inr e)]
          simp only [Bool.false_eq_true, false_iff]
          intro ha
          have hxd : x = d.1 := by
            rw [e, hde] at hx
            exact (Option.some.inj hx).symm
          exact ha ps.length p new (by omega) (hxd ▸ hdp.symm)
        · rw [if_neg (by omega), h.flags i x hx]
          constructor
          · intro ha j y hy hj
            rcases cases' hy with hy | ⟨rfl, rfl⟩
            · exact ha j y hy hj
            · intro hp
              exact ha d.2 d.1 hde (fun h => e h.symm) (hdp.trans hp)
          · intro ha j y hy hj
            exact ha j y (old hy) hj
      · rw [if_pos (.inl rfl)]
        simp only [Bool.false_eq_true, false_iff]
        intro ha
        have := lt hde
        exact ha d.2 d.1 (old hde) (by omega) hdp
    · intro i hi
      simp at hi
      have := lt hde
      simp only
      rw [if_neg (by omega)]
      exact h.rest i (by omega)

theorem flag_inv (ps : List (List ℕ)) : FlagInv ps (patchFlags ps) := by
  induction ps using List.reverseRecOn with
  | nil => exact ⟨by simp [patchFlags], by simp, by simp, by simp [patchFlags]⟩
  | append_singleton ps p ih =>
    have : patchFlags (ps ++ [p]) = addPatch (patchFlags ps) (p, ps.length) := by
      simp [patchFlags, List.zipIdx_append, List.foldl_append]
    rw [this]
    exact flag_step ps _ p ih

/-! ## The properties -/

/-- **C153.**  The boundary patches of a process are exactly the patches whose nodes no other patch has, in whatever
order, and of which at least one node is its own; however often a patch is repeated, none of its copies is a boundary
patch. -/
theorem C153_boundary (isLocal : ℕ → Bool) (ps : List (List ℕ)) (i : ℕ) (nodes : List ℕ) :
    (nodes, i) ∈ boundaryPatches isLocal ps ↔
      ps[i]? = some nodes ∧ (∀ j other, ps[j]? = some other → j ≠ i → ¬other.Perm nodes) ∧
        ∃ v ∈ nodes, isLocal v = true := by
  have hm : (nodes, i) ∈ ps.zipIdx ↔ ps[i]? = some nodes := by
    rw [List.mem_zipIdx_iff_getElem?]
  have hc : (nodes.countP fun v => !isLocal v) = nodes.length ↔ ¬∃ v ∈ nodes, isLocal v = true := by
    rw [List.countP_eq_length]
    simp
  simp only [boundaryPatches, List.mem_filter, hm, Bool.and_eq_true, Bool.not_eq_true', beq_eq_false_iff_ne, ne_eq]
  constructor
  · rintro ⟨h1, h2, h3⟩
    exact ⟨h1, ((flag_inv ps).flags i nodes h1).1 h2, not_not.1 (fun h => h3 (hc.2 h))⟩
  · rintro ⟨h1, h2, h3⟩
    exact ⟨h1, ((flag_inv ps).flags i nodes h1).2 h2, fun h => hc.1 h h3⟩

/-- **C153.**  They come in the order of the elements and local surfaces, each once. -/
theorem C153_boundary_order (isLocal : ℕ → Bool) (ps : List (List ℕ)) :
    ((boundaryPatches isLocal ps).map Prod.snd).Pairwise (· < ·) := by
  have : (ps.zipIdx.map Prod.snd).Pairwise (· < ·) := by
    rw [List.zipIdx_map_snd]
    exact List.pairwise_lt_range'
  rw [List.pairwise_map] at this ⊢
  exact this.sublist List.filter_sublist

theorem ncPut_new (key : List ℕ) (v : ℕ) : ∀ m : List (List ℕ × ℕ), (∀ e ∈ m, ¬e.1.Perm key) →
    ncPut key v m = m ++ [(key, v)]
  | [], _ => rfl
  | e :: m, h => by
    have : ncSame e.1 key = false := by
      rw [← Bool.not_eq_true, ncSame_iff]
      exact h e (by simp)
    rw [ncPut, this]
    simp [ncPut_new key v m fun d hd => h d (by simp [hd])]

theorem patchIndex_eq (isLocal : ℕ → Bool) (ps : List (List ℕ)) :
    patchIndex isLocal ps = (boundaryPatches isLocal ps).zipIdx.map fun e => (e.1.1, e.2) := by
  have hp : (boundaryPatches isLocal ps).Pairwise fun a b => ¬a.1.Perm b.1 := by
    have ho := C153_boundary_order isLocal ps
    rw [List.pairwise_map] at ho
    refine ho.imp_of_mem ?_
    intro a b ha hb hab hperm
    have h1 := (C153_boundary isLocal ps a.2 a.1).1 ha
    have h2 := (C153_boundary isLocal ps b.2 b.1).1 hb
    exact h2.2.1 a.2 a.1 h1.1 (by omega) hperm
  unfold patchIndex
  generalize boundaryPatches isLocal ps = l at hp
  induction l using List.reverseRecOn with
  | nil => rfl
  | append_singleton l p ih =>
    have h' := List.pairwise_append.1 hp
    rw [List.zipIdx_append, List.foldl_append, ih h'.1, List.map_append]
    simp only [List.zipIdx_cons, List.zipIdx_nil, List.foldl_cons, List.foldl_nil, List.map_cons, List.map_nil]
    rw [ncPut_new]
    intro e he
    obtain ⟨f, hf, rfl⟩ := List.mem_map.1 he
    have : f.1 ∈ l := by
      have := List.mem_zipIdx_iff_getElem?.1 hf
      exact List.mem_of_getElem? this
    exact h'.2.2 f.1 this p (by simp)

/-- **C153.**  The index of a boundary patch is found from its nodes, in whatever order they are given. -/
theorem C153_index (isLocal : ℕ → Bool) (ps : List (List ℕ)) (k : ℕ) (nodes : List ℕ) (i : ℕ)
    (hk : (boundaryPatches isLocal ps)[k]? = some (nodes, i)) (q : List ℕ) (hq : q.Perm nodes) :
    ncGet (patchIndex isLocal ps) q = k := by
  have hmem : ∃ e, (patchIndex isLocal ps).find? (fun e => ncSame e.1 q) = some e := by
    rw [← Option.isSome_iff_exists, List.find?_isSome]
    refine ⟨(nodes, k), ?_, (ncSame_iff _ _).2 hq.symm⟩
    rw [patchIndex_eq]
    exact List.mem_map.2 ⟨((nodes, i), k), List.mem_zipIdx_iff_getElem?.2 hk, rfl⟩
  obtain ⟨e, he⟩ := hmem
  have h1 := List.mem_of_find?_eq_some he
  have h2 : e.1.Perm q := (ncSame_iff _ _).1 (by simpa using List.find?_some he)
  rw [patchIndex_eq] at h1
  obtain ⟨f, hf, rfl⟩ := List.mem_map.1 h1
  have hf' := List.mem_zipIdx_iff_getElem?.1 hf
  have b1 := (C153_boundary isLocal ps f.1.2 f.1.1).1 (List.mem_of_getElem? hf')
  have b2 := (C153_boundary isLocal ps i nodes).1 (List.mem_of_getElem? hk)
  have hi : f.1.2 = i := by
    by_contra hne
    exact b2.2.1 _ _ b1.1 hne (h2.trans hq)
  have hfk : f.2 = k := by
    have ho := C153_boundary_order isLocal ps
    have g1 : ((boundaryPatches isLocal ps).map Prod.snd)[f.2]? = some i := by simp [hf', hi]
    have g2 : ((boundaryPatches isLocal ps).map Prod.snd)[k]? = some i := by simp [hk]
    obtain ⟨u1, v1⟩ := List.getElem?_eq_some_iff.1 g1
    obtain ⟨u2, v2⟩ := List.getElem?_eq_some_iff.1 g2
    by_contra hne
    rcases Nat.lt_or_gt_of_ne hne with hlt | hlt
    · have := List.pairwise_iff_getElem.1 ho f.2 k u1 u2 hlt
      omega
    · have := List.pairwise_iff_getElem.1 ho k f.2 u2 u1 hlt
      omega
  simp [ncGet, he, hfk]

/-- The last side of two squares, found from its nodes in the other order. -/
example : ncGet (patchIndex (fun _ => true) [[3, 1], [1, 2], [2, 1], [2, 5]]) [5, 2] = 1 :=
  C153_index _ _ 1 [2, 5] 3 (by decide) _ (by decide)

/-- **C153 (a finding).**  Nodes that are those of no boundary patch are not refused: they get the index of the first
boundary patch. -/
theorem C153_unknown_patch_fails (isLocal : ℕ → Bool) (ps : List (List ℕ)) (q : List ℕ)
    (hq : ∀ b ∈ boundaryPatches isLocal ps, ¬b.1.Perm q) : ncGet (patchIndex isLocal ps) q = 0 := by
  have : (patchIndex isLocal ps).find? (fun e => ncSame e.1 q) = none := by
    rw [List.find?_eq_none, patchIndex_eq]
    intro e he hs
    obtain ⟨f, hf, rfl⟩ := List.mem_map.1 he
    exact hq f.1 (List.mem_of_getElem? (List.mem_zipIdx_iff_getElem?.1 hf)) ((ncSame_iff _ _).1 hs)
  simp [ncGet, this]

/-- Two squares with a common side, and its nodes in opposite order. -/
example : ([3, 1], 0) ∈ boundaryPatches (fun _ => true) [[3, 1], [1, 2], [2, 1], [2, 5]] ∧
    ([1, 2], 1) ∉ boundaryPatches (fun _ => true) [[3, 1], [1, 2], [2, 1], [2, 5]] := by
  constructor
  · decide
  · rw [C153_boundary]
    rintro ⟨_, h, _⟩
    exact h 2 [2, 1] rfl (by decide) (by decide)

end Fierro
