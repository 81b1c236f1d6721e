import Verif.Model.OptModules
import Mathlib.Tactic.Linarith
import Mathlib.Data.List.Basic

/-!
# C156: the optimization modules of the previous version
-/

namespace Fierro

theorem findFea_lt {fea : List FeaType} {t : FeaType} : findFea fea t < fea.length ↔ t ∈ fea := by
  unfold findFea
  rw [List.findIdx_lt_length]
  simp

theorem hasFea_iff {fea : List FeaType} {t : FeaType} : hasFea fea t = true ↔ t ∈ fea := by
  rw [← findFea_lt]
  have : findFea fea t ≤ fea.length := List.findIdx_le_length
  simp only [hasFea, bne_iff_ne, ne_eq]
  omega

/-- The module at the index is the first of the type. -/
def FirstAt (fea : List FeaType) (j : ℕ) (t : FeaType) : Prop := fea[j]? = some t ∧ ∀ i < j, fea[i]? ≠ some t

theorem findFea_first {fea : List FeaType} {t : FeaType} (h : t ∈ fea) : FirstAt fea (findFea fea t) t := by
  have hl := findFea_lt.2 h
  refine ⟨?_, ?_⟩
  · have := List.findIdx_getElem (xs := fea) (p := fun s => s == t) (w := hl)
    rw [List.getElem?_eq_getElem hl]
    exact congrArg some (eq_of_beq this)
  · intro i hi he
    obtain ⟨h1, h2⟩ := List.getElem?_eq_some_iff.1 he
    have := List.not_of_lt_findIdx (xs := fea) (p := fun s => s == t) (i := i) hi
    simp [h2] at this

theorem withInertial_mem (fea : List FeaType) : .inertial ∈ withInertial fea := by
  unfold withInertial
  split_ifs with h
  · simp
  · have : findFea fea .inertial ≤ fea.length := List.findIdx_le_length
    exact findFea_lt.1 (by omega)

/-- **C156.**  The inertial module is always there; the modules of the user keep their places. -/
theorem C156_inertial {α : Type} (fea : List FeaType) (pr : OptProcess) (o : OptObjective)
    (terms : List (OptObjective × α)) (cs : List (OptConstraint α)) (r : OptPlan α)
    (h : deriveOpt fea pr o terms cs = some r) :
    .inertial ∈ r.fea ∧ (r.fea = fea ∨ (.inertial ∉ fea ∧ r.fea = fea ++ [.inertial])) := by
  have e : r.fea = withInertial fea := by
    simp only [deriveOpt, Option.bind_eq_bind, Option.bind_eq_some_iff, Option.pure_def, Option.some.injEq] at h
    obtain ⟨es, _, ds, _, p, _, rfl⟩ := h
    rfl
  rw [e]
  refine ⟨withInertial_mem fea, ?_⟩
  unfold withInertial
  split_ifs with h1
  · right
    refine ⟨fun hm => ?_, rfl⟩
    have := findFea_lt.2 hm
    omega
  · exact .inl rfl

/-- The owner of an entry is settled by its type. -/
theorem optOwner_spec (fea : List FeaType) (m : OptModule) :
    (optOwner fea m = some none ↔ optNeeds m = []) ∧
    (optOwner fea m = none ↔ optNeeds m ≠ [] ∧ ∀ t ∈ optNeeds m, t ∉ fea) ∧
    ∀ j, optOwner fea m = some (some j) → ∃ t ∈ optNeeds m, FirstAt fea j t := by
  unfold optOwner
  cases hn : optNeeds m with
  | nil => simp
  | cons a as =>
    simp only [List.isEmpty_cons, Bool.false_eq_true, if_false]
    cases hf : (a :: as).find? (hasFea fea) with
    | none =>
      rw [List.find?_eq_none] at hf
      refine ⟨by simp, ⟨fun _ => ⟨by simp, fun t ht hm => hf t ht (hasFea_iff.2 hm)⟩, fun _ => rfl⟩, by simp⟩
    | some t =>
      have h1 := List.mem_of_find?_eq_some hf
      have h2 : t ∈ fea := hasFea_iff.1 (by simpa using List.find?_some hf)
      refine ⟨by simp, ⟨by simp, fun h => absurd h2 (h.2 t h1)⟩, ?_⟩
      intro j hj
      simp only [Option.some.injEq] at hj
      subst hj
      exact ⟨t, h1, findFea_first h2⟩

theorem mapOwners_spec {α : Type} (fea : List FeaType) : ∀ (es : List (OptEntry α)) (k : ℕ) (lists : List (List ℕ))
    (r : List ℕ × List (List ℕ)), lists.length = fea.length → mapOwners fea k es lists = some r →
    r.1.length = es.length ∧ r.2.length = fea.length ∧
    (∀ (i : ℕ) (e : OptEntry α), es[i]? = some e → ∃ w, optOwner fea e.type = some w ∧ r.1[i]? = some (w.getD 0)) ∧
    ∀ j, j < fea.length → ∃ new, r.2[j]? = (lists[j]?).map (· ++ new) ∧ new.Pairwise (· < ·) ∧ (∀ i ∈ new, k ≤ i) ∧
      ∀ i, k + i ∈ new ↔ ∃ e, es[i]? = some e ∧ optOwner fea e.type = some (some j)
  | [], k, lists, r, hl, h => by
    simp only [mapOwners, Option.some.injEq] at h
    subst h
    refine ⟨rfl, hl, by simp, fun j hj => ⟨[], by simp, by simp, by simp, by simp⟩⟩
  | e :: es, k, lists, r, hl, h => by
    rw [mapOwners] at h
    cases ho : optOwner fea e.type with
    | none => rw [ho] at h; cases h
    | some w =>
      rw [ho] at h
      cases w with
      | none =>
        simp only [Option.map_eq_some_iff] at h
        obtain ⟨s, hs, rfl⟩ := h
        obtain ⟨a, b, c, d⟩ := mapOwners_spec fea es (k + 1) lists s hl hs
        refine ⟨by simp [a], b, ?_, ?_⟩
        · intro i e' he
          cases i with
          | zero =>
            simp only [List.getElem?_cons_zero, Option.some.injEq] at he
            subst he
            exact ⟨none, ho, rfl⟩
          | succ i => simpa using c i e' (by simpa using he)
        · intro j hj
          obtain ⟨new, d1, d2, d3, d4⟩ := d j hj
          refine ⟨new, d1, d2, fun i hi => by have := d3 i hi; omega, ?_⟩
          intro i
          cases i with
          | zero =>
            simp only [List.getElem?_cons_zero, Option.some.injEq, exists_eq_left', ho]
            constructor
            · intro hi; have := d3 _ hi; omega
            · intro hi; cases hi
          | succ i =>
            rw [show k + (i + 1) = k + 1 + i by omega, d4 i]
            simp
      | some p =>
        simp only [Option.map_eq_some_iff] at h
        obtain ⟨s, hs, rfl⟩ := h
        obtain ⟨a, b, c, d⟩ := mapOwners_spec fea es (k + 1) _ s (by simpa using hl) hs
        refine ⟨by simp [a], b, ?_, ?_⟩
        · intro i e' he
          cases i with
          | zero =>
            simp only [List.getElem?_cons_zero, Option.some.injEq] at he
            subst he
            exact ⟨some p, ho, rfl⟩
          | succ i => simpa using c i e' (by simpa using he)
        · intro j hj
          obtain ⟨new, d1, d2, d3, d4⟩ := d j hj
          by_cases hjp : p = j
          · subst hjp
            refine ⟨k :: new, ?_, ?_, ?_, ?_⟩
            · simp only
              rw [d1, List.getElem?_modify_eq]
              cases lists[p]? <;> simp
            · refine List.pairwise_cons.2 ⟨fun i hi => by have := d3 i hi; omega, d2⟩
            · intro i hi
              rcases List.mem_cons.1 hi with rfl | hi
              · exact le_refl _
              · have := d3 i hi; omega
            · intro i
              cases i with
              | zero => simp [ho]
              | succ i =>
                rw [show k + (i + 1) = k + 1 + i by omega, List.mem_cons, d4 i]
                simp
                omega
          · refine ⟨new, ?_, d2, fun i hi => by have := d3 i hi; omega, ?_⟩
            · simp only
              rw [d1, List.getElem?_modify]
              simp [hjp]
            · intro i
              cases i with
              | zero =>
                simp only [List.getElem?_cons_zero, Option.some.injEq, exists_eq_left', ho]
                constructor
                · intro hi; have := d3 _ hi; omega
                · intro hi; exact absurd hi hjp
              | succ i =>
                rw [show k + (i + 1) = k + 1 + i by omega, d4 i]
                simp

theorem deriveOpt_parts {α : Type} {fea : List FeaType} {pr : OptProcess} {o : OptObjective}
    {terms : List (OptObjective × α)} {cs : List (OptConstraint α)} {r : OptPlan α}
    (h : deriveOpt fea pr o terms cs = some r) :
    ∃ es ds, objectiveEntries pr o terms = some es ∧ constraintEntries pr cs = some ds ∧ r.entries = es ++ ds ∧
      r.fea = withInertial fea ∧ mapOwners r.fea 0 r.entries (r.fea.map fun _ => []) = some (r.owner, r.lists) := by
  simp only [deriveOpt, Option.bind_eq_bind, Option.bind_eq_some_iff, Option.pure_def, Option.some.injEq] at h
  obtain ⟨es, h1, ds, h2, p, h3, rfl⟩ := h
  exact ⟨es, ds, h1, h2, rfl, rfl, h3⟩

/-- **C156.**  Every optimization module that needs modules of the physics belongs to the first module of one of the
types it needs, and is in the list of that module and of no other; the lists are ascending. -/
theorem C156_owner {α : Type} (fea : List FeaType) (pr : OptProcess) (o : OptObjective)
    (terms : List (OptObjective × α)) (cs : List (OptConstraint α)) (r : OptPlan α)
    (h : deriveOpt fea pr o terms cs = some r) :
    r.owner.length = r.entries.length ∧ r.lists.length = r.fea.length ∧
    (∀ (k : ℕ) (e : OptEntry α), r.entries[k]? = some e → optNeeds e.type ≠ [] →
      ∃ j t, r.owner[k]? = some j ∧ t ∈ optNeeds e.type ∧ FirstAt r.fea j t ∧
        ∀ (i : ℕ) (l : List ℕ), r.lists[i]? = some l → (k ∈ l ↔ i = j)) ∧
    ∀ l ∈ r.lists, l.Pairwise (· < ·) ∧ ∀ k ∈ l, k < r.entries.length := by
  obtain ⟨es, ds, -, -, -, -, hm⟩ := deriveOpt_parts h
  obtain ⟨a, b, c, d⟩ := mapOwners_spec r.fea r.entries 0 _ _ (by simp) hm
  have lists : ∀ (i : ℕ) (l : List ℕ), r.lists[i]? = some l → l.Pairwise (· < ·) ∧
      ∀ k, k ∈ l ↔ ∃ e, r.entries[k]? = some e ∧ optOwner r.fea e.type = some (some i) := by
    intro i l hl
    have hi : i < r.fea.length := by
      have := (List.getElem?_eq_some_iff.1 hl).1
      simp only at b
      omega
    obtain ⟨new, d1, d2, -, d4⟩ := d i hi
    have : l = new := by
      simp only at d1
      rw [hl, List.getElem?_map, List.getElem?_eq_getElem hi] at d1
      simpa using d1
    subst this
    exact ⟨d2, fun k => by simpa using d4 k⟩
  refine ⟨a, b, ?_, ?_⟩
  · intro k e he hne
    obtain ⟨w, h1, h2⟩ := c k e he
    cases w with
    | none => exact absurd ((optOwner_spec r.fea e.type).1.1 h1) hne
    | some j =>
      obtain ⟨t, ht, hf⟩ := (optOwner_spec r.fea e.type).2.2 j h1
      refine ⟨j, t, h2, ht, hf, fun i l hl => ?_⟩
      rw [(lists i l hl).2 k]
      constructor
      · rintro ⟨e', he', ho⟩
        rw [he] at he'
        simp only [Option.some.injEq] at he'
        subst he'
        rw [h1] at ho
        simpa using ho.symm
      · rintro rfl
        exact ⟨e, he, h1⟩
  · intro l hl
    obtain ⟨i, hi⟩ := List.getElem?_of_mem hl
    refine ⟨(lists i l hi).1, fun k hk => ?_⟩
    obtain ⟨e, he, _⟩ := ((lists i l hi).2 k).1 hk
    exact (List.getElem?_eq_some_iff.1 he).1

/-- **C156 (a finding).**  The module of several objectives needs no module of the physics, and is still recorded as
belonging to the first one, in whose list it is not. -/
theorem C156_multi_fails {α : Type} (fea : List FeaType) (pr : OptProcess) (terms : List (OptObjective × α))
    (cs : List (OptConstraint α)) (r : OptPlan α) (h : deriveOpt fea pr .multi terms cs = some r) :
    r.owner[0]? = some 0 ∧ ∀ l ∈ r.lists, 0 ∉ l := by
  obtain ⟨es, ds, h1, -, he, -, hm⟩ := deriveOpt_parts h
  obtain ⟨a, b, c, d⟩ := mapOwners_spec r.fea r.entries 0 _ _ (by simp) hm
  have first : ∃ e, r.entries[0]? = some e ∧ e.type = .multiObjective := by
    have : objectiveModule pr .multi = some .multiObjective := by cases pr <;> rfl
    simp only [objectiveEntries, this, Option.bind_eq_bind, Option.bind_some, if_true, Option.bind_eq_some_iff,
      Option.pure_def, Option.some.injEq] at h1
    obtain ⟨rest, -, rfl⟩ := h1
    exact ⟨⟨.multiObjective, .objective, none, none⟩, by simp [he], rfl⟩
  obtain ⟨e, h0, ht⟩ := first
  obtain ⟨w, hw, hw2⟩ := c 0 e h0
  rw [ht] at hw
  have hw' : optOwner r.fea .multiObjective = some none := rfl
  rw [hw'] at hw
  simp only [Option.some.injEq] at hw
  subst hw
  refine ⟨hw2, ?_⟩
  intro l hl h0l
  obtain ⟨i, hi⟩ := List.getElem?_of_mem hl
  have hi' : i < r.fea.length := by
    have := (List.getElem?_eq_some_iff.1 hi).1
    simp only at b
    omega
  obtain ⟨new, d1, -, -, d4⟩ := d i hi'
  have : l = new := by
    simp only at d1
    rw [hi, List.getElem?_map, List.getElem?_eq_getElem hi'] at d1
    simpa using d1
  subst this
  obtain ⟨e', he', ho⟩ := (d4 0).1 (by simpa using h0l)
  rw [h0] at he'
  simp only [Option.some.injEq] at he'
  subst he'
  rw [ht, hw'] at ho
  cases ho

/-- **C156 (a finding).**  A constraint of the centre of mass takes every component of a tensor: the centre in direction
`xy` is accepted as component three of a vector that has none. -/
theorem C156_component_fails : ∃ r : OptPlan ℕ,
    deriveOpt [.sgh] .topology .minKinetic [] [⟨.center, 7, some .xy⟩] = some r ∧
      ∃ e, r.entries[1]? = some e ∧ e.type = .centerTop ∧ e.component = some 3 := by
  refine ⟨_, rfl, _, rfl, rfl, rfl⟩

/-- **C156.**  The modules of an accepted input are one for the objective, one for each term if there are several
objectives, and one for each constraint, in this order, the constraints with their values. -/
theorem C156_entries {α : Type} (fea : List FeaType) (pr : OptProcess) (o : OptObjective)
    (terms : List (OptObjective × α)) (cs : List (OptConstraint α)) (r : OptPlan α)
    (h : deriveOpt fea pr o terms cs = some r) :
    r.entries.map OptEntry.fn = .objective :: ((if o = .multi then terms.map fun _ => .term else []) ++
        cs.map fun _ => .equality) ∧
      (r.entries.filterMap OptEntry.value) = cs.map OptConstraint.value := by
  obtain ⟨es, ds, h1, h2, he, -, -⟩ := deriveOpt_parts h
  have ht : ∀ (ts : List (OptObjective × α)) l, termEntries ts = some l →
      l.map OptEntry.fn = ts.map (fun _ => .term) ∧ l.filterMap OptEntry.value = [] := by
    intro ts
    induction ts with
    | nil => intro l hl; cases hl; simp
    | cons t ts ih =>
      intro l hl
      simp only [termEntries, Option.bind_eq_bind, Option.bind_eq_some_iff, Option.pure_def, Option.some.injEq] at hl
      obtain ⟨m, -, rest, hr, rfl⟩ := hl
      simp [ih rest hr]
  have hc : ∀ (ts : List (OptConstraint α)) l, constraintEntries pr ts = some l →
      l.map OptEntry.fn = ts.map (fun _ => .equality) ∧ l.filterMap OptEntry.value = ts.map OptConstraint.value := by
    intro ts
    induction ts with
    | nil => intro l hl; cases hl; simp
    | cons t ts ih =>
      intro l hl
      simp only [constraintEntries, Option.bind_eq_bind, Option.bind_eq_some_iff, Option.pure_def,
        Option.some.injEq] at hl
      obtain ⟨e, he, rest, hr, rfl⟩ := hl
      have : e.fn = .equality ∧ e.value = some t.value := by
        unfold constraintEntry at he
        cases pr <;> cases htt : t.type <;> simp only [htt] at he <;>
          first
          | (cases he; done)
          | (cases he; exact ⟨rfl, rfl⟩)
          | (rw [Option.map_eq_some_iff] at he; obtain ⟨d, -, rfl⟩ := he; exact ⟨rfl, rfl⟩)
      simp [ih rest hr, this]
  obtain ⟨c1, c2⟩ := hc cs ds h2
  rw [he]
  by_cases ho : o = .multi
  · simp only [objectiveEntries, if_pos ho, Option.bind_eq_bind, Option.bind_eq_some_iff, Option.pure_def,
      Option.some.injEq] at h1
    obtain ⟨m, -, rest, hr, rfl⟩ := h1
    obtain ⟨t1, t2⟩ := ht terms rest hr
    simp [ho, c1, c2, t1, t2]
  · simp only [objectiveEntries, if_neg ho, Option.bind_eq_bind, Option.bind_eq_some_iff, Option.pure_def,
      Option.some.injEq] at h1
    obtain ⟨m, -, rest, hr, rfl⟩ := h1
    cases hr
    simp [ho, c1, c2]

/-- **C156.**  A kinetic energy objective of a topology belongs to the first hydrodynamics module, or if there is none
to the first dynamic elasticity module; with neither the input is refused. -/
theorem C156_kinetic {α : Type} (fea : List FeaType) (o : OptObjective) (ho : o = .minKinetic ∨ o = .maxKinetic)
    (terms : List (OptObjective × α)) (cs : List (OptConstraint α)) :
    (.sgh ∉ fea → .dynamicElasticity ∉ fea → deriveOpt fea .topology o terms cs = none) ∧
    ∀ r, deriveOpt fea .topology o terms cs = some r → ∃ j, r.owner[0]? = some j ∧
      ((.sgh ∈ fea ∧ FirstAt r.fea j .sgh) ∨ (.sgh ∉ fea ∧ FirstAt r.fea j .dynamicElasticity)) := by
  have hmem : ∀ t : FeaType, t ≠ .inertial → (t ∈ withInertial fea ↔ t ∈ fea) := by
    intro t ht
    unfold withInertial
    split_ifs
    · simp [ht]
    · rfl
  have hobj : ∀ es, objectiveEntries .topology o terms = some es →
      ∃ rest, es = ⟨.kineticTop, .objective, none, none⟩ :: rest := by
    intro es hes
    rcases ho with rfl | rfl <;>
    · simp [objectiveEntries, objectiveModule] at hes
      exact ⟨[], hes.symm⟩
  have own : ∀ r, deriveOpt fea .topology o terms cs = some r → ∃ w, optOwner r.fea .kineticTop = some w ∧
      r.owner[0]? = some (w.getD 0) ∧ r.fea = withInertial fea := by
    intro r h
    obtain ⟨es, ds, h1, -, he, hf, hm⟩ := deriveOpt_parts h
    obtain ⟨rest, rfl⟩ := hobj es h1
    obtain ⟨a, b, c, d⟩ := mapOwners_spec r.fea r.entries 0 _ _ (by simp) hm
    obtain ⟨w, hw, hw2⟩ := c 0 ⟨.kineticTop, .objective, none, none⟩ (by simp [he])
    exact ⟨w, hw, hw2, hf⟩
  constructor
  · intro h1 h2
    cases hd : deriveOpt fea .topology o terms cs with
    | none => rfl
    | some r =>
      obtain ⟨w, hw, -, hf⟩ := own r hd
      have := (optOwner_spec r.fea .kineticTop).2.1.2 ⟨by simp [optNeeds], by
        intro t ht
        rw [hf]
        simp only [optNeeds, List.mem_cons, List.not_mem_nil, or_false] at ht
        rcases ht with rfl | rfl
        · rw [hmem _ (by decide)]; exact h1
        · rw [hmem _ (by decide)]; exact h2⟩
      rw [this] at hw
      cases hw
  · intro r h
    obtain ⟨w, hw, hw2, hf⟩ := own r h
    by_cases hs : .sgh ∈ fea
    · have hs' : FeaType.sgh ∈ r.fea := by rw [hf, hmem _ (by decide)]; exact hs
      have : optOwner r.fea .kineticTop = some (some (findFea r.fea .sgh)) := by
        simp [optOwner, optNeeds, List.find?, hasFea_iff.2 hs']
      rw [this] at hw
      simp only [Option.some.injEq] at hw
      subst hw
      exact ⟨_, hw2, .inl ⟨hs, findFea_first hs'⟩⟩
    · have hs' : FeaType.sgh ∉ r.fea := by rw [hf, hmem _ (by decide)]; exact hs
      cases w with
      | none =>
        have := (optOwner_spec r.fea .kineticTop).1.1 hw
        simp [optNeeds] at this
      | some j =>
        obtain ⟨t, ht, hfst⟩ := (optOwner_spec r.fea .kineticTop).2.2 j hw
        simp only [optNeeds, List.mem_cons, List.not_mem_nil, or_false] at ht
        rcases ht with rfl | rfl
        · exact absurd (List.mem_of_getElem? hfst.1) hs'
        · exact ⟨j, hw2, .inr ⟨hs, hfst⟩⟩

/-! ## What is accepted -/

/-- The modules of the physics that an objective takes, and which objectives there are. -/
def ObjectiveFits (fea : List FeaType) : OptProcess → OptObjective → Prop
  | .topology, .minCompliance | .topology, .maxCompliance => .elasticity ∈ fea
  | .topology, .minThermal | .topology, .maxThermal => .heatConduction ∈ fea
  | .topology, .minKinetic | .topology, .maxKinetic => .sgh ∈ fea ∨ .dynamicElasticity ∈ fea
  | .shape, .minKinetic | .shape, .maxKinetic => .sgh ∈ fea
  | _, .minInternal | _, .maxInternal => .sgh ∈ fea
  | _, .multi => True
  | _, _ => False

/-- The same for a term of several objectives. -/
def TermFits (fea : List FeaType) : OptObjective → Prop
  | .minCompliance => .elasticity ∈ fea
  | .minThermal => .heatConduction ∈ fea
  | _ => False

/-- The same for a constraint. -/
def ConstraintFits {α : Type} (fea : List FeaType) (pr : OptProcess) (c : OptConstraint α) : Prop :=
  match pr, c.type with
  | _, .mass => True
  | _, .inertia => c.component ≠ none
  | .topology, .center => c.component ≠ none
  | .topology, .displacement => .elasticity ∈ fea
  | .shape, _ => False

theorem mapOwners_some {α : Type} (fea : List FeaType) : ∀ (es : List (OptEntry α)) (k : ℕ) (lists : List (List ℕ)),
    (∃ r, mapOwners fea k es lists = some r) ↔ ∀ e ∈ es, optOwner fea e.type ≠ none
  | [], _, _ => by simp [mapOwners]
  | e :: es, k, lists => by
    rw [mapOwners]
    cases ho : optOwner fea e.type with
    | none => simp [ho]
    | some w =>
      cases w with
      | none =>
        have := mapOwners_some fea es (k + 1) lists
        simp only [Option.map_eq_some_iff, List.forall_mem_cons, ho, ne_eq, reduceCtorEq, not_false_eq_true, true_and]
        simp only [ne_eq] at this
        rw [← this]
        exact ⟨fun ⟨_, s, hs, _⟩ => ⟨s, hs⟩, fun ⟨s, hs⟩ => ⟨_, s, hs, rfl⟩⟩
      | some j =>
        have := mapOwners_some fea es (k + 1) (lists.modify j fun l => l ++ [k])
        simp only [Option.map_eq_some_iff, List.forall_mem_cons, ho, ne_eq, reduceCtorEq, not_false_eq_true, true_and]
        simp only [ne_eq] at this
        rw [← this]
        exact ⟨fun ⟨_, s, hs, _⟩ => ⟨s, hs⟩, fun ⟨s, hs⟩ => ⟨_, s, hs, rfl⟩⟩

theorem termEntries_fit {α : Type} (F : List FeaType) : ∀ ts : List (OptObjective × α),
    (∃ l, termEntries ts = some l ∧ ∀ e ∈ l, optOwner F e.type ≠ none) ↔
      ∀ t ∈ ts, ∃ m, termModule t.1 = some m ∧ optOwner F m ≠ none
  | [] => by simp [termEntries]
  | t :: ts => by
    rw [List.forall_mem_cons, ← termEntries_fit F ts]
    simp only [termEntries, Option.bind_eq_bind, Option.bind_eq_some_iff, Option.pure_def, Option.some.injEq]
    constructor
    · rintro ⟨l, ⟨m, hm, rest, hr, rfl⟩, h⟩
      exact ⟨⟨m, hm, h _ List.mem_cons_self⟩, rest, hr, fun e he => h e (by simp [he])⟩
    · rintro ⟨⟨m, hm, h⟩, rest, hr, h'⟩
      refine ⟨_, ⟨m, hm, rest, hr, rfl⟩, fun e he => ?_⟩
      rcases List.mem_cons.1 he with rfl | he
      · exact h
      · exact h' e he

theorem constraintEntries_fit {α : Type} (F : List FeaType) (pr : OptProcess) : ∀ cs : List (OptConstraint α),
    (∃ l, constraintEntries pr cs = some l ∧ ∀ e ∈ l, optOwner F e.type ≠ none) ↔
      ∀ c ∈ cs, ∃ e, constraintEntry pr c = some e ∧ optOwner F e.type ≠ none
  | [] => by simp [constraintEntries]
  | c :: cs => by
    rw [List.forall_mem_cons, ← constraintEntries_fit F pr cs]
    simp only [constraintEntries, Option.bind_eq_bind, Option.bind_eq_some_iff, Option.pure_def, Option.some.injEq]
    constructor
    · rintro ⟨l, ⟨m, hm, rest, hr, rfl⟩, h⟩
      exact ⟨⟨m, hm, h _ List.mem_cons_self⟩, rest, hr, fun e he => h e (by simp [he])⟩
    · rintro ⟨⟨m, hm, h⟩, rest, hr, h'⟩
      refine ⟨_, ⟨m, hm, rest, hr, rfl⟩, fun e he => ?_⟩
      rcases List.mem_cons.1 he with rfl | he
      · exact h
      · exact h' e he

theorem owner_some (fea : List FeaType) (m : OptModule) :
    optOwner (withInertial fea) m ≠ none ↔ optNeeds m = [] ∨ ∃ t ∈ optNeeds m, t = .inertial ∨ t ∈ fea := by
  have hmem : ∀ t : FeaType, t ∈ withInertial fea ↔ t = .inertial ∨ t ∈ fea := by
    intro t
    by_cases ht : t = .inertial
    · subst ht
      simp [withInertial_mem]
    · unfold withInertial
      split_ifs <;> simp [ht]
  rw [ne_eq, (optOwner_spec _ m).2.1]
  simp only [hmem]
  constructor
  · intro h
    by_contra hn
    rw [not_or] at hn
    exact h ⟨hn.1, fun t ht hm => hn.2 ⟨t, ht, hm⟩⟩
  · rintro (h | ⟨t, ht, hm⟩) ⟨h1, h2⟩
    · exact h1 h
    · exact h2 t ht hm

/-- **C156.**  An input is accepted exactly if the process has its objective, the objective, its terms if it is of several
and every constraint find a module of the physics they need among those of the user, and the constraints of moments of
inertia and centres of mass have a component. -/
theorem C156_accepted {α : Type} (fea : List FeaType) (pr : OptProcess) (o : OptObjective)
    (terms : List (OptObjective × α)) (cs : List (OptConstraint α)) :
    (∃ r, deriveOpt fea pr o terms cs = some r) ↔
      ObjectiveFits fea pr o ∧ (o = .multi → ∀ t ∈ terms, TermFits fea t.1) ∧ ∀ c ∈ cs, ConstraintFits fea pr c := by
  have ho : (∃ m, objectiveModule pr o = some m ∧ optOwner (withInertial fea) m ≠ none) ↔ ObjectiveFits fea pr o := by
    cases pr <;> cases o <;> simp only [objectiveModule, owner_some] <;> simp [optNeeds, ObjectiveFits]
  have ht : ∀ t : OptObjective, (∃ m, termModule t = some m ∧ optOwner (withInertial fea) m ≠ none) ↔
      TermFits fea t := by
    intro t
    cases t <;> simp only [termModule, owner_some] <;> simp [optNeeds, TermFits]
  have hc : ∀ c : OptConstraint α, (∃ e, constraintEntry pr c = some e ∧ optOwner (withInertial fea) e.type ≠ none) ↔
      ConstraintFits fea pr c := by
    rintro ⟨ct, v, comp⟩
    simp only [owner_some]
    cases pr <;> cases ct <;> cases comp <;> simp [constraintEntry, optNeeds, ConstraintFits]
  have e1 : (∃ r, deriveOpt fea pr o terms cs = some r) ↔
      (∃ es, objectiveEntries pr o terms = some es ∧ ∀ e ∈ es, optOwner (withInertial fea) e.type ≠ none) ∧
        ∃ ds, constraintEntries pr cs = some ds ∧ ∀ e ∈ ds, optOwner (withInertial fea) e.type ≠ none := by
    simp only [deriveOpt, Option.bind_eq_bind, Option.bind_eq_some_iff, Option.pure_def, Option.some.injEq]
    constructor
    · rintro ⟨r, es, h1, ds, h2, p, h3, -⟩
      have := (mapOwners_some _ _ _ _).1 ⟨p, h3⟩
      exact ⟨⟨es, h1, fun e he => this e (by simp [he])⟩, ds, h2, fun e he => this e (by simp [he])⟩
    · rintro ⟨⟨es, h1, g1⟩, ds, h2, g2⟩
      obtain ⟨p, hp⟩ := (mapOwners_some (withInertial fea) (es ++ ds) 0
        ((withInertial fea).map fun _ => [])).2 (fun e he => (List.mem_append.1 he).elim (g1 e) (g2 e))
      exact ⟨_, es, h1, ds, h2, p, hp, rfl⟩
  rw [e1, constraintEntries_fit]
  simp only [hc]
  rw [← and_assoc]
  refine and_congr_left fun _ => ?_
  rw [← ho]
  by_cases hm : o = .multi
  · rw [forall_prop_of_true hm]
    simp only [objectiveEntries, if_pos hm, Option.bind_eq_bind, Option.bind_eq_some_iff, Option.pure_def,
      Option.some.injEq]
    have := termEntries_fit (withInertial fea) terms
    simp only [ht] at this
    rw [← this]
    constructor
    · rintro ⟨l, ⟨m, h1, rest, hr, rfl⟩, h⟩
      exact ⟨⟨m, h1, h _ List.mem_cons_self⟩, rest, hr, fun e he => h e (by simp [he])⟩
    · rintro ⟨⟨m, h1, h⟩, rest, hr, h'⟩
      refine ⟨_, ⟨m, h1, rest, hr, rfl⟩, fun e he => ?_⟩
      rcases List.mem_cons.1 he with rfl | he
      · exact h
      · exact h' e he
  · rw [forall_prop_of_false hm, and_true]
    simp only [objectiveEntries, if_neg hm, Option.bind_eq_bind, Option.bind_eq_some_iff, Option.pure_def,
      Option.some.injEq]
    constructor
    · rintro ⟨l, ⟨m, h1, rest, rfl, rfl⟩, h⟩
      exact ⟨m, h1, h _ List.mem_cons_self⟩
    · rintro ⟨m, h1, h⟩
      refine ⟨_, ⟨m, h1, [], rfl, rfl⟩, fun e he => ?_⟩
      rw [List.mem_singleton.1 he]
      exact h

/-- An elastic and a thermal objective with a mass constraint. -/
example : ∃ r : OptPlan ℕ, deriveOpt [.heatConduction, .elasticity] .topology .multi
    [(.minCompliance, 1), (.minThermal, 2)] [⟨.mass, 3, none⟩] = some r ∧ r.owner = [0, 1, 0, 2] ∧
      r.lists = [[2], [1], [3]] := ⟨_, rfl, rfl, rfl⟩

end Fierro
