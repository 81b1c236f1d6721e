import Verif.Model.StateAlloc
import Verif.Props.InputDeck
import Verif.Props.MaterialMaps
import Mathlib.Data.List.Induction
import Mathlib.Tactic.Tauto
import Mathlib.Tactic.ClearExcept

/-!
# C128: arrays of the state during the initialisation
-/

namespace Fierro

open StateAlloc

/-! ### Specification -/

/-- The arrays a solver asks for. -/
def StateAlloc.Solver.needs : Solver → List Fld
  | .sgh3D => [.coords, .coords0, .vel, .vel0, .nodeMass, .nodeForce, .vol, .velGrad, .cornerForce, .cornerMass,
      .elemInMat, .tempGrad, .den, .pres, .stress, .stress0, .sie, .sie0, .sspd, .mass, .volfrac, .geoVolfrac,
      .deltaVolfrac, .deltaGeoVolfrac, .eroded, .shear, .matCornerForce]
  | .sghRZ => [.coords, .coords0, .vel, .vel0, .nodeMass, .vol, .velGrad, .cornerForce, .cornerMass,
      .elemInMat, .tempGrad, .den, .pres, .stress, .stress0, .sie, .sie0, .sspd, .mass, .volfrac, .geoVolfrac,
      .deltaVolfrac, .deltaGeoVolfrac, .eroded, .shear, .matCornerForce]
  | .sgtm3D => [.coords, .coords0, .vel, .vel0, .nodeMass, .temp, .temp0, .nodeHeat, .vol, .div, .cornerForce,
      .cornerMass, .cornerHeat, .elemInMat, .tempGrad, .den, .pres, .stress, .stress0, .sie, .sie0, .sspd, .mass,
      .volfrac, .geoVolfrac, .deltaVolfrac, .deltaGeoVolfrac, .eroded, .heatFlux, .conductivity, .specificHeat,
      .matCornerForce]
  | .levelSet => [.coords, .coords0, .gradLevelSet, .vel, .vel0, .levelSet, .levelSet0, .vol, .cornerNormal,
      .cornerVolume, .elemInMat, .tempGrad, .volfrac, .geoVolfrac, .deltaVolfrac, .deltaGeoVolfrac]
  | .tlqs3D => [.coords, .coords0, .vol, .cornerForce, .cornerMass,
      .elemInMat, .tempGrad, .den, .pres, .stress, .stress0, .sie, .sie0, .sspd, .mass, .volfrac, .geoVolfrac,
      .deltaVolfrac, .deltaGeoVolfrac, .eroded, .shear]

/-- The extents an array must have: nodes, elements and corners of the mesh, or one row per material with one
entry per element (or corner) holding it; tensors and moduli have three components in each direction, vectors as
many as the mesh has dimensions, except the heat flux and the temperature gradient, which have three. -/
def shapeOf (z : Sizes) (rows : List ℕ) : Fld → Extents
  | .coords | .coords0 | .vel | .vel0 | .nodeForce | .gradLevelSet => .dense [z.numNodes, z.numDims]
  | .nodeMass | .temp | .temp0 | .nodeHeat => .dense [z.numNodes]
  | .vol | .div | .levelSet | .levelSet0 => .dense [z.numElems]
  | .velGrad => .dense [z.numElems, 3, 3]
  | .cornerForce | .cornerNormal => .dense [z.numCorners, z.numDims]
  | .cornerMass | .cornerHeat | .cornerVolume => .dense [z.numCorners]
  | .stress | .stress0 => .ragged rows [3, 3]
  | .heatFlux | .tempGrad | .elastic | .shear | .poisson => .ragged rows [3]
  | .matCornerForce => .ragged (rows.map (· * z.nodesInElem)) [z.numDims]
  | .matCornerHeat => .ragged (rows.map (· * z.nodesInElem)) []
  | .elemInMat | .den | .pres | .sie | .sie0 | .sspd | .mass | .volfrac | .geoVolfrac | .deltaVolfrac
  | .deltaGeoVolfrac | .conductivity | .specificHeat | .eroded => .ragged rows []

/-- Some region names the field. -/
def StateAlloc.Deck.NamesG (d : Deck) (f : FillG) : Prop := ∃ r ∈ d.regions, f ∈ r.namesG

/-- Some region names the nodal field. -/
def StateAlloc.Deck.NamesN (d : Deck) (f : FillN) : Prop := ∃ r ∈ d.regions, f ∈ r.namesN

/-- Reading the regions from top to bottom, the extensive energy is named before any specific energy. -/
def StateAlloc.Deck.ExtensiveFirst (d : Deck) : Prop :=
  ∃ before after, (d.regions.map Region.namesG).flatten = before ++ FillG.ie :: after ∧ FillG.sie ∉ before

/-- Region `r` fills a part of some element. -/
def Fills (d : Deck) (bins : List (List ℕ)) (r : Region) : Prop :=
  ∃ b ∈ bins, ∃ i ∈ b, d.regions[i]? = some r

/-- The solvers accept the mesh and the nodal fields: the hydrodynamics and quasi-static solvers want three
dimensions and a velocity, the r-z solver two dimensions, the thermal solver a velocity and a temperature. -/
def StateAlloc.Deck.StartOk (d : Deck) (z : Sizes) : Prop :=
  (.sgh3D ∈ d.solvers ∨ .tlqs3D ∈ d.solvers → z.numDims = 3 ∧ d.NamesN .velocity) ∧
  (.sghRZ ∈ d.solvers → z.numDims = 2) ∧
  (.sgtm3D ∈ d.solvers → d.NamesN .velocity ∧ d.NamesN .temperature)

/-- The solvers accept the material fields. -/
def StateAlloc.Deck.MaterialOk (d : Deck) : Prop :=
  (.sgh3D ∈ d.solvers ∨ .sgtm3D ∈ d.solvers → d.NamesG .density ∧ (d.NamesG .sie ∨ d.NamesG .ie)) ∧
  (.sgtm3D ∈ d.solvers → d.NamesG .conductivity ∧ d.NamesG .specificHeat)

/-- Painting stays inside the arrays: a region that sets the extensive energy is used only if the extensive energy
is named first. -/
def PaintOk (d : Deck) (bins : List (List ℕ)) : Prop :=
  ∀ r, Fills d bins r → r.paints .ie = true → d.ExtensiveFirst

/-- The setup of the material points stays inside the arrays. -/
def SetupOk (d : Deck) (bins : List (List ℕ)) : Prop :=
  (∀ r, Fills d bins r → (∃ s ∈ d.solvers, s ≠ .levelSet) →
    d.NamesG .density ∧ (r.paints .sie = true ∨ d.ExtensiveFirst)) ∧
  (∀ r, Fills d bins r → .levelSet ∈ d.solvers → d.NamesG .levelSet) ∧
  (∀ r, Fills d bins r → .sgtm3D ∈ d.solvers → d.NamesG .conductivity ∧ d.NamesG .specificHeat)

/-- A deck in which a region sets only fields it names and uses an existing material. -/
structure StateAlloc.Deck.Wf (d : Deck) : Prop where
  solvers : d.solvers ≠ []
  paints : ∀ r ∈ d.regions, ∀ f, r.paints f = true → f ∈ r.namesG
  mats : ∀ r ∈ d.regions, r.material < d.numMats

/-- The regions chosen for the elements: one list per element, no longer than the number of slots, of existing
regions. -/
structure BinsOk (z : Sizes) (d : Deck) (bins : List (List ℕ)) : Prop where
  elems : bins.length = z.numElems
  slots : ∀ b ∈ bins, b.length ≤ d.maxMats
  ids : ∀ b ∈ bins, ∀ i ∈ b, i < d.regions.length

/-- Before the solvers are initialised the state holds only coordinates of the right extents. -/
def FromMesh {V : Type} (z : Sizes) (st : Store Fld V) : Prop :=
  ∀ f a, st f = some a → (f = .coords ∨ f = .coords0) ∧ a.shape = .dense [z.numNodes, z.numDims]

/-! ### Allocation -/

theorem alloc_get {N V : Type} [DecidableEq N] (fresh : V) (s : Store N V) (p : N × Extents) (f : N) :
    (s.alloc fresh p) f =
      if f = p.1 ∧ s.size f = 0 then some ⟨p.2, fun _ => fresh⟩ else s f := by
  unfold Store.alloc Store.make
  by_cases h : f = p.1
  · subst h
    by_cases h2 : s.size p.1 = 0 <;> simp [h2]
  · by_cases h2 : s.size p.1 = 0 <;> simp [h2, h]

theorem allocAll_get {N V : Type} [DecidableEq N] (fresh : V) (f : N) (sh : Extents) :
    ∀ (l : List (N × Extents)) (s : Store N V), (∀ p ∈ l, p.1 = f → p.2 = sh) →
      (s.allocAll fresh l) f =
        if f ∈ l.map Prod.fst ∧ s.size f = 0 then some ⟨sh, fun _ => fresh⟩ else s f := by
  intro l
  induction l with
  | nil => intro s _; simp [Store.allocAll]
  | cons p l ih =>
    intro s hl
    have e : s.allocAll fresh (p :: l) = (s.alloc fresh p).allocAll fresh l := rfl
    rw [e, ih _ fun q hq => hl q (List.mem_cons_of_mem _ hq)]
    have hg := alloc_get fresh s p f
    by_cases h1 : f = p.1
    · have hsh : p.2 = sh := hl p List.mem_cons_self h1.symm
      by_cases h2 : s.size f = 0
      · rw [if_pos ⟨h1, h2⟩, hsh] at hg
        rw [hg, ite_self, if_pos ⟨List.mem_map.mpr ⟨p, List.mem_cons_self, h1.symm⟩, h2⟩]
      · rw [if_neg (by tauto)] at hg
        have h3 : (s.alloc fresh p).size f = s.size f := by unfold Store.size; rw [hg]
        rw [hg, h3]
        simp [h2]
    · rw [if_neg (by tauto)] at hg
      have h3 : (s.alloc fresh p).size f = s.size f := by unfold Store.size; rw [hg]
      have h4 : f ∈ (p :: l).map Prod.fst ↔ f ∈ l.map Prod.fst := by
        rw [List.map_cons, List.mem_cons]; tauto
      rw [hg, h3]
      simp only [h4]

theorem allocAll_append {N V : Type} [DecidableEq N] (fresh : V) (s : Store N V) (l l' : List (N × Extents)) :
    s.allocAll fresh (l ++ l') = (s.allocAll fresh l).allocAll fresh l' := List.foldl_append ..

theorem initSolvers_eq {V : Type} (fresh : V) (z : Sizes) (d : Deck) (ss : List Solver) :
    ∀ st : Store Fld V,
    ss.foldlM (fun st s =>
      if s.dimsOk z.numDims && s.nodeCheck d.fillN then some (st.allocAll fresh (s.meshArrays z)) else none) st =
    if (∀ s ∈ ss, s.dimsOk z.numDims = true ∧ s.nodeCheck d.fillN = true) then
      some (st.allocAll fresh (ss.flatMap fun s => s.meshArrays z)) else none := by
  induction ss with
  | nil => intro st; simp [Store.allocAll]
  | cons s ss ih =>
    intro st
    rw [List.foldlM_cons]
    by_cases h : s.dimsOk z.numDims = true ∧ s.nodeCheck d.fillN = true
    · simp only [h.1, h.2, Bool.and_self, if_true, Option.bind_eq_bind, Option.bind_some, List.mem_cons,
        forall_eq_or_imp, true_and, List.flatMap_cons, allocAll_append]
      simpa using ih (st.allocAll fresh (s.meshArrays z))
    · have h' : (s.dimsOk z.numDims && s.nodeCheck d.fillN) = false := by
        rw [Bool.and_eq_false_iff]; rcases not_and_or.mp h with h | h <;> simp [h]
      rw [if_neg (by simp [h']), if_neg (fun hh => h (hh s List.mem_cons_self))]
      rfl

theorem initMaterials_eq {V : Type} (fresh : V) (z : Sizes) (d : Deck) (rows : List ℕ) (ss : List Solver) :
    ∀ st : Store Fld V,
    ss.foldlM (fun st s =>
      let st := st.allocAll fresh (s.matPtArrays z rows)
      if s.matCheck d.fillG then some st else none) st =
    if (∀ s ∈ ss, s.matCheck d.fillG = true) then
      some (st.allocAll fresh (ss.flatMap fun s => s.matPtArrays z rows)) else none := by
  induction ss with
  | nil => intro st; simp [Store.allocAll]
  | cons s ss ih =>
    intro st
    rw [List.foldlM_cons]
    by_cases h : s.matCheck d.fillG = true
    · simp only [h, if_true, Option.bind_eq_bind, Option.bind_some, List.mem_cons,
        forall_eq_or_imp, true_and, List.flatMap_cons, allocAll_append]
      simpa using ih (st.allocAll fresh (s.matPtArrays z rows))
    · have h' : ¬∀ x ∈ s :: ss, x.matCheck d.fillG = true := fun hh => h (hh s List.mem_cons_self)
      rw [if_neg h', if_neg h]
      rfl

theorem names_mesh_mat (s : Solver) (z : Sizes) (rows : List ℕ) (f : Fld) :
    f ∈ ((s.meshArrays z) ++ (s.matPtArrays z rows)).map Prod.fst ↔ f ∈ s.needs := by
  have e : ((s.meshArrays z) ++ (s.matPtArrays z rows)).map Prod.fst =
      ((s.meshArrays ⟨0, 0, 0, 0, 0⟩) ++ (s.matPtArrays ⟨0, 0, 0, 0, 0⟩ [])).map Prod.fst := by cases s <;> rfl
  rw [e]
  clear e
  cases s <;> cases f <;> decide

theorem shapes_mesh_mat (s : Solver) (z : Sizes) (rows : List ℕ) (h : s.dimsOk z.numDims = true) :
    ∀ p ∈ (s.meshArrays z) ++ (s.matPtArrays z rows), p.2 = shapeOf z rows p.1 := by
  cases s <;> simp only [Solver.dimsOk, beq_iff_eq] at h <;>
    simp [Solver.meshArrays, Solver.matPtArrays, Solver.nodeState, Solver.gaussState, Solver.cornerState,
      Solver.matState, Solver.matCornerState, nodeArrays, gaussArrays, cornerArrays, matArrays, matCornerArrays,
      Solver.gaussDims, Solver.matDims, Solver.cornerDims, shapeOf, h]

/-- All that the solvers ask for, in the order of the two loops. -/
def askedFor (z : Sizes) (d : Deck) (rows : List ℕ) : List (Fld × Extents) :=
  (d.solvers.flatMap fun s => s.meshArrays z) ++ d.solvers.flatMap fun s => s.matPtArrays z rows

theorem asked_get {V : Type} (fresh : V) (z : Sizes) (d : Deck) (rows : List ℕ) (st : Store Fld V)
    (h : ∀ s ∈ d.solvers, s.dimsOk z.numDims = true) (f : Fld) :
    (st.allocAll fresh (askedFor z d rows)) f =
      if (∃ s ∈ d.solvers, f ∈ s.needs) ∧ st.size f = 0 then some ⟨shapeOf z rows f, fun _ => fresh⟩
      else st f := by
  rw [allocAll_get fresh f (shapeOf z rows f)]
  · have e : f ∈ (askedFor z d rows).map Prod.fst ↔ ∃ s ∈ d.solvers, f ∈ s.needs := by
      simp only [askedFor, List.map_append, List.mem_append, List.mem_map, List.mem_flatMap]
      simp only [← names_mesh_mat _ z rows f, List.map_append, List.mem_append, List.mem_map]
      constructor
      · rintro (⟨p, ⟨s, hs, hp⟩, rfl⟩ | ⟨p, ⟨s, hs, hp⟩, rfl⟩)
        · exact ⟨s, hs, Or.inl ⟨p, hp, rfl⟩⟩
        · exact ⟨s, hs, Or.inr ⟨p, hp, rfl⟩⟩
      · rintro ⟨s, hs, ⟨p, hp, rfl⟩ | ⟨p, hp, rfl⟩⟩
        · exact Or.inl ⟨p, ⟨s, hs, hp⟩, rfl⟩
        · exact Or.inr ⟨p, ⟨s, hs, hp⟩, rfl⟩
    simp only [e]
  · intro p hp hf
    subst hf
    rcases List.mem_append.mp hp with hp | hp <;> obtain ⟨s, hs, hp⟩ := List.mem_flatMap.mp hp
    · exact shapes_mesh_mat s z rows (h s hs) p (List.mem_append_left _ hp)
    · exact shapes_mesh_mat s z rows (h s hs) p (List.mem_append_right _ hp)

/-! ### The arrays of the fills -/

/-- In the list the extensive energy comes before any specific energy. -/
def IeFirst (l : List FillG) : Prop := ∃ before after, l = before ++ FillG.ie :: after ∧ FillG.sie ∉ before

theorem ieFirst_snoc (l : List FillG) (x : FillG) :
    IeFirst (l ++ [x]) ↔ IeFirst l ∨ (x = .ie ∧ .sie ∉ l) := by
  constructor
  · rintro ⟨b, a, h, hb⟩
    rcases List.eq_nil_or_concat a with rfl | ⟨a', y, rfl⟩
    · have h' := List.append_inj' h (by simp)
      right
      refine ⟨by simpa using h'.2, h'.1 ▸ hb⟩
    · left
      have h2 : l ++ [x] = (b ++ FillG.ie :: a') ++ [y] := by simpa using h
      exact ⟨b, a', (List.append_inj' h2 (by simp)).1, hb⟩
  · rintro (⟨b, a, rfl, hb⟩ | ⟨rfl, h⟩)
    · exact ⟨b, a ++ [x], by simp, hb⟩
    · exact ⟨l, [], rfl, h⟩

theorem ieFirst_mem {l : List FillG} (h : IeFirst l) : FillG.ie ∈ l := by
  obtain ⟨b, a, rfl, _⟩ := h; simp

theorem ieFirst_of_mem {l : List FillG} (h : FillG.ie ∈ l) (h2 : FillG.sie ∉ l) : IeFirst l := by
  obtain ⟨b, a, rfl⟩ := List.append_of_mem h
  exact ⟨b, a, rfl, fun hh => h2 (by simp [hh])⟩

theorem filled_mem (l : List FillG) (f : FillG) : f ∈ l.foldl storeField [] ↔ f ∈ l := by
  rw [(filledFields_spec l [] List.nodup_nil).2]; simp

theorem ieFirst_filled (l : List FillG) : IeFirst (l.foldl storeField []) ↔ IeFirst l := by
  induction l using List.reverseRecOn with
  | nil => rfl
  | append_singleton l x ih =>
    rw [List.foldl_append, ieFirst_snoc]
    simp only [List.foldl_cons, List.foldl_nil]
    have hm := filled_mem l
    generalize l.foldl storeField [] = F at ih hm ⊢
    unfold storeField
    by_cases c : (F.any fun g => g == x) = true
    · rw [if_pos c, ih]
      simp only [List.any_eq_true, beq_iff_eq, exists_eq_right] at c
      rw [hm] at c
      constructor
      · exact Or.inl
      · rintro (h | ⟨rfl, h⟩)
        · exact h
        · exact ieFirst_of_mem c h
    · rw [if_neg c, ieFirst_snoc, ih, hm]

theorem extensiveFirst_iff (d : Deck) : d.ExtensiveFirst ↔ IeFirst d.fillG :=
  (ieFirst_filled _).symm

theorem namesG_iff (d : Deck) (f : FillG) : d.NamesG f ↔ f ∈ d.fillG := by
  unfold Deck.fillG filledFields Deck.NamesG
  rw [filled_mem]
  simp only [List.mem_flatten, List.mem_map]
  constructor
  · rintro ⟨r, hr, hf⟩; exact ⟨_, ⟨r, hr, rfl⟩, hf⟩
  · rintro ⟨_, ⟨r, hr, rfl⟩, hf⟩; exact ⟨r, hr, hf⟩

/-- Which of the arrays of one value per point and slot the list `l` of fields leads to. -/
def LeadsTo (l : List FillG) : FillA → Prop
  | .den => .density ∈ l
  | .sie => .sie ∈ l
  | .ie => IeFirst l
  | .useSie => .sie ∈ l ∨ .ie ∈ l
  | .conductivity => .conductivity ∈ l
  | .specificHeat => .specificHeat ∈ l
  | .levelSet => .levelSet ∈ l
  | _ => False

/-- The arrays of one value per point and slot. -/
def OnePerSlot : FillA → Prop
  | .stress | .elastic | .shear | .poisson => False
  | _ => True

theorem size_alloc_ne {N V : Type} [DecidableEq N] (fresh : V) (s : Store N V) (p : N × Extents) (f : N)
    (h : f ≠ p.1) : (s.alloc fresh p).size f = s.size f := by
  unfold Store.size; rw [alloc_get, if_neg (by tauto)]

theorem size_make_ne {N V : Type} [DecidableEq N] (fresh : V) (s : Store N V) (g : N) (sh : Extents) (f : N)
    (h : f ≠ g) : (s.make fresh g sh).size f = s.size f := by
  unfold Store.size Store.make; rw [Function.update_of_ne h]

theorem fillStore_get {V : Type} (fresh : V) (np mm : ℕ) (hp : 0 < np) (hm : 0 < mm) (l : List FillG) :
    ∀ a, OnePerSlot a →
      (LeadsTo l a ∧ (fillStore fresh np mm l : Store FillA V) a = some ⟨.dense [np, mm], fun _ => fresh⟩) ∨
      (¬LeadsTo l a ∧ (fillStore fresh np mm l : Store FillA V) a = none) := by
  induction l using List.reverseRecOn with
  | nil =>
    intro a ha
    right
    refine ⟨?_, rfl⟩
    cases a <;> simp [LeadsTo, IeFirst]
  | append_singleton l x ih =>
    intro a ha
    have e : (fillStore fresh np mm (l ++ [x]) : Store FillA V) =
        fillAlloc fresh np mm (fillStore fresh np mm l) x := by
      unfold fillStore; rw [List.foldl_append]; rfl
    rw [e]
    generalize (fillStore fresh np mm l : Store FillA V) = s at ih
    have hsz : ∀ b, OnePerSlot b → ((s.size b = 0 ↔ ¬LeadsTo l b)) := by
      intro b hb
      rcases ih b hb with ⟨h1, h2⟩ | ⟨h1, h2⟩
      · simp [Store.size, h2, Extents.size, h1, hp.ne', hm.ne']
      · simp [Store.size, h2, h1]
    have hz := hsz .sie trivial
    have hu := hsz .useSie trivial
    have hih := ih a ha
    have ha' := hsz a ha
    clear ih hsz e
    by_cases hx : x = .ie
    · subst hx
      simp only [fillAlloc]
      by_cases h0 : s.size .sie = 0
      · have h0' := hz.mp h0
        simp only [LeadsTo] at h0'
        rw [if_pos h0, alloc_get]
        cases a <;> simp only [OnePerSlot] at ha
        case ie =>
          left
          exact ⟨(ieFirst_snoc _ _).mpr (Or.inr ⟨rfl, h0'⟩), by simp [Store.make]⟩
        case useSie =>
          left
          refine ⟨Or.inr (by simp), ?_⟩
          rw [size_make_ne _ _ _ _ _ (by decide)]
          rcases hih with ⟨h1, h2⟩ | ⟨h1, h2⟩
          · rw [if_neg (fun hh => ha'.mp hh.2 h1)]; simpa [Store.make] using h2
          · rw [if_pos ⟨rfl, ha'.mpr h1⟩]
        all_goals
          simp only [reduceCtorEq, false_and, if_false, Store.make, ne_eq, not_false_eq_true, Function.update_of_ne,
            LeadsTo, List.mem_append, List.mem_singleton, or_false] at hih ⊢
          exact hih
      · have h0' : FillG.sie ∈ l := by
          by_contra hh; exact h0 (hz.mpr hh)
        rw [if_neg h0, alloc_get]
        cases a <;> simp only [OnePerSlot] at ha
        case ie =>
          simp only [reduceCtorEq, false_and, if_false, LeadsTo, ieFirst_snoc] at hih ⊢
          simpa [h0'] using hih
        case useSie =>
          left
          refine ⟨Or.inr (by simp), ?_⟩
          rcases hih with ⟨h1, h2⟩ | ⟨h1, h2⟩
          · rw [if_neg (fun hh => ha'.mp hh.2 h1)]; exact h2
          · rw [if_pos ⟨rfl, ha'.mpr h1⟩]
        all_goals
          simp only [reduceCtorEq, false_and, if_false,
            LeadsTo, List.mem_append, List.mem_singleton, or_false] at hih ⊢
          exact hih
    · cases x <;> cases a <;> simp only [OnePerSlot] at ha <;>
        simp only [LeadsTo, ieFirst_snoc, List.mem_append, List.mem_singleton, fillAlloc, alloc_get, reduceCtorEq,
          false_and, if_false, or_false, true_and, or_true, not_true_eq_false, ne_eq, not_false_eq_true,
          size_alloc_ne] at hx hih ha' ⊢ <;>
        first
          | exact hih
          | (rcases hih with ⟨h1, h2⟩ | ⟨h1, h2⟩
             · simp [ha', h1, h2]
             · simp [ha', h1])
          | (rcases hih with ⟨h1, h2⟩ | ⟨h1, h2⟩
             · have h3 := mt ha'.mp (not_not_intro h1)
               simp [h3, h2]
             · have h3 := ha'.mpr h1
               simp [h3])

/-! ### Acceptance -/

theorem namesN_check (d : Deck) (req : List FillN) :
    checkFill req d.fillN = true ↔ ∀ f ∈ req, d.NamesN f := by
  unfold Deck.fillN
  rw [C35_parsed_check_iff]
  simp [Deck.NamesN]

theorem namesG_check (d : Deck) (req : List FillG) :
    checkFill req d.fillG = true ↔ ∀ f ∈ req, d.NamesG f := by
  unfold Deck.fillG
  rw [C35_parsed_check_iff]
  simp [Deck.NamesG]

theorem startOk_iff (d : Deck) (z : Sizes) :
    d.StartOk z ↔ ∀ s ∈ d.solvers, s.dimsOk z.numDims = true ∧ s.nodeCheck d.fillN = true := by
  unfold Deck.StartOk
  constructor
  · rintro ⟨h1, h2, h3⟩ s hs
    cases s <;> simp only [Solver.dimsOk, Solver.nodeCheck, beq_iff_eq, namesN_check, List.mem_cons,
      List.not_mem_nil, or_false, forall_eq, forall_eq_or_imp, and_true, true_and]
    · exact h1 (Or.inl hs)
    · exact h2 hs
    · exact h3 hs
    · exact h1 (Or.inr hs)
  · intro h
    refine ⟨?_, ?_, ?_⟩
    · rintro (hs | hs) <;>
        simpa [Solver.dimsOk, Solver.nodeCheck, namesN_check] using h _ hs
    · intro hs; simpa [Solver.dimsOk, Solver.nodeCheck] using h _ hs
    · intro hs; simpa [Solver.dimsOk, Solver.nodeCheck, namesN_check] using h _ hs

theorem materialOk_iff (d : Deck) :
    d.MaterialOk ↔ ∀ s ∈ d.solvers, s.matCheck d.fillG = true := by
  unfold Deck.MaterialOk
  constructor
  · rintro ⟨h1, h2⟩ s hs
    cases s <;> simp only [Solver.matCheck, Bool.or_eq_true, namesG_check, List.mem_cons,
      List.not_mem_nil, or_false, forall_eq, forall_eq_or_imp]
    · have := h1 (Or.inl hs); tauto
    · have := h1 (Or.inr hs); have := h2 hs; tauto
  · intro h
    refine ⟨?_, ?_⟩
    · rintro (hs | hs) <;> have := h _ hs <;>
        simp only [Solver.matCheck, Bool.or_eq_true, namesG_check, List.mem_cons,
          List.not_mem_nil, or_false, forall_eq, forall_eq_or_imp] at this <;> tauto
    · intro hs
      have := h _ hs
      simp only [Solver.matCheck, Bool.or_eq_true, namesG_check, List.mem_cons,
          List.not_mem_nil, or_false, forall_eq, forall_eq_or_imp] at this
      tauto

/-! ### Accesses -/

theorem mem_used {d : Deck} {bins : List (List ℕ)} {e a : ℕ} {r : Region} :
    (e, a, r) ∈ used d bins ↔ ∃ b i, bins[e]? = some b ∧ b[a]? = some i ∧ d.regions[i]? = some r := by
  unfold used
  simp only [List.mem_filterMap, Option.map_eq_some_iff, Prod.mk.injEq, Prod.exists]
  constructor
  · rintro ⟨e', a', i, h1, r', h2, rfl, rfl, rfl⟩
    obtain ⟨b, h3, h4⟩ := mem_visits.mp h1
    exact ⟨b, i, h3, h4, h2⟩
  · rintro ⟨b, i, h1, h2, h3⟩
    exact ⟨e, a, i, mem_visits.mpr ⟨b, h1, h2⟩, r, h3, rfl, rfl, rfl⟩

theorem fills_iff (d : Deck) (bins : List (List ℕ)) (r : Region) :
    Fills d bins r ↔ ∃ e a, (e, a, r) ∈ used d bins := by
  unfold Fills
  simp only [mem_used]
  constructor
  · rintro ⟨b, hb, i, hi, hr⟩
    obtain ⟨e, he⟩ := List.mem_iff_getElem?.mp hb
    obtain ⟨a, ha⟩ := List.mem_iff_getElem?.mp hi
    exact ⟨e, a, b, i, he, ha, hr⟩
  · rintro ⟨e, a, b, i, he, ha, hr⟩
    exact ⟨b, List.mem_of_getElem? he, i, List.mem_of_getElem? ha, hr⟩

theorem used_bounds {z : Sizes} {d : Deck} {bins : List (List ℕ)} (hb : BinsOk z d bins) {e a : ℕ} {r : Region}
    (h : (e, a, r) ∈ used d bins) :
    e < z.numElems ∧ a < d.maxMats ∧ r ∈ d.regions ∧ Holds (matsIn d bins) e a r.material := by
  obtain ⟨b, i, h1, h2, h3⟩ := mem_used.mp h
  have hbm := List.mem_of_getElem? h1
  have l1 := (List.getElem?_eq_some_iff.mp h1).1
  have l2 := (List.getElem?_eq_some_iff.mp h2).1
  refine ⟨hb.elems ▸ l1, lt_of_lt_of_le l2 (hb.slots b hbm), List.mem_of_getElem? h3, ?_⟩
  refine ⟨b.map fun i => (d.regions[i]?.map Region.material).getD 0, ?_, ?_⟩
  · simp [matsIn, h1]
  · simp [h2, h3]

theorem fill_holds {V : Type} (fresh : V) {z : Sizes} {d : Deck} {e a : ℕ} (he : e < z.numElems)
    (ha : a < d.maxMats) (x : FillA) (hx : OnePerSlot x) :
    ((fillStore fresh z.numElems d.maxMats d.fillG : Store FillA V).holds x [e, a] = true ↔ LeadsTo d.fillG x) := by
  rcases fillStore_get fresh z.numElems d.maxMats (by omega) (by omega) d.fillG x hx with ⟨h1, h2⟩ | ⟨h1, h2⟩
  · simp [Store.holds, h2, Extents.has, he, ha, h1]
  · simp [Store.holds, h2, h1]

theorem paintOk_iff {V : Type} (fresh : V) {z : Sizes} {d : Deck} {bins : List (List ℕ)} (hw : d.Wf)
    (hb : BinsOk z d bins) :
    ((paintStores d bins).all fun p =>
      (fillStore fresh z.numElems d.maxMats d.fillG : Store FillA V).holds p.1 p.2) = true ↔ PaintOk d bins := by
  have key : ∀ e a r, (e, a, r) ∈ used d bins →
      ((∀ x ∈ r.paintArrays,
        (fillStore fresh z.numElems d.maxMats d.fillG : Store FillA V).holds x [e, a] = true) ↔
        (r.paints .ie = true → d.ExtensiveFirst)) := by
    intro e a r hu
    obtain ⟨he, ha, hr, _⟩ := used_bounds hb hu
    have hn : ∀ f, r.paints f = true → f ∈ d.fillG := fun f hf =>
      (namesG_iff d f).mp ⟨r, hr, hw.paints r hr f hf⟩
    rw [extensiveFirst_iff]
    constructor
    · intro h hie
      exact (fill_holds fresh he ha .ie trivial).mp (h .ie (by simp [Region.paintArrays, hie]))
    · intro h x hx
      have hsc : OnePerSlot x := by
        unfold Region.paintArrays at hx
        cases x <;> simp [OnePerSlot] at hx ⊢
      rw [fill_holds fresh he ha x hsc]
      unfold Region.paintArrays at hx
      cases x <;> simp [LeadsTo] at hx ⊢
      · exact hn _ hx
      · exact hn _ hx
      · exact h hx
      · exact Or.inl (hn _ hx)
      · exact hn _ hx
      · exact hn _ hx
      · exact hn _ hx
  simp only [List.all_eq_true, paintStores, List.mem_flatMap, List.mem_map]
  constructor
  · intro h r hf
    obtain ⟨e, a, hu⟩ := (fills_iff d bins r).mp hf
    exact (key e a r hu).mp fun x hx => h (x, [e, a]) ⟨_, hu, x, hx, rfl⟩
  · rintro h p ⟨⟨e, a, r⟩, hu, x, hx, rfl⟩
    exact (key e a r hu).mpr (h r ((fills_iff d bins r).mpr ⟨e, a, hu⟩)) x hx

/-- The state once all the solvers are served. -/
def served {V : Type} (fresh : V) (z : Sizes) (d : Deck) (bins : List (List ℕ)) (st : Store Fld V) : Store Fld V :=
  st.allocAll fresh (askedFor z d (matRows d bins))

theorem served_get {V : Type} (fresh : V) {z : Sizes} {d : Deck} (bins : List (List ℕ)) {st : Store Fld V}
    (hd : ∀ s ∈ d.solvers, s.dimsOk z.numDims = true) (hm : FromMesh z st) {f : Fld} (h1 : f ≠ .coords)
    (h2 : f ≠ .coords0) :
    ((∃ s ∈ d.solvers, f ∈ s.needs) ∧
      served fresh z d bins st f = some ⟨shapeOf z (matRows d bins) f, fun _ => fresh⟩) ∨
    (¬(∃ s ∈ d.solvers, f ∈ s.needs) ∧ served fresh z d bins st f = none) := by
  have hn : st f = none := by
    cases h : st f with
    | none => rfl
    | some a => rcases (hm f a h).1 with h | h <;> contradiction
  have hz : st.size f = 0 := by simp [Store.size, hn]
  unfold served
  rw [asked_get fresh z d _ st hd f]
  by_cases h : ∃ s ∈ d.solvers, f ∈ s.needs
  · left; exact ⟨h, by rw [if_pos ⟨h, hz⟩]⟩
  · right; exact ⟨h, by rw [if_neg (fun hh => h hh.1), hn]⟩

theorem matRows_get (d : Deck) (bins : List (List ℕ)) (m : ℕ) (h : m < d.numMats) :
    (matRows d bins)[m]? = some (countMat (matsIn d bins) m) := by
  simp [matRows, h]

theorem matRows_sum_pos {d : Deck} {bins : List (List ℕ)} {m s : ℕ} (h : m < d.numMats)
    (hs : s < countMat (matsIn d bins) m) : 0 < (matRows d bins).sum := by
  have h1 : countMat (matsIn d bins) m ∈ matRows d bins := List.mem_of_getElem? (matRows_get d bins m h)
  have := List.single_le_sum (fun x _ => Nat.zero_le x) _ h1
  omega

/-- Fields with one value per material point. -/
def scalarPt : List Fld := [.elemInMat, .den, .sie, .mass, .volfrac, .geoVolfrac, .conductivity, .specificHeat,
  .eroded]

theorem served_pt {V : Type} (fresh : V) {z : Sizes} {d : Deck} {bins : List (List ℕ)} {st : Store Fld V}
    (hd : ∀ s ∈ d.solvers, s.dimsOk z.numDims = true) (hm : FromMesh z st) {m sid : ℕ} (h1 : m < d.numMats)
    (h2 : sid < countMat (matsIn d bins) m) {f : Fld} (hf : f ∈ scalarPt) :
    ((served fresh z d bins st).holds f [m, sid] = true ↔ ∃ s ∈ d.solvers, f ∈ s.needs) ∧
    (0 < (served fresh z d bins st).size f ↔ ∃ s ∈ d.solvers, f ∈ s.needs) := by
  have hne : f ≠ .coords ∧ f ≠ .coords0 := by
    constructor <;> rintro rfl <;> simp [scalarPt] at hf
  have hsh : shapeOf z (matRows d bins) f = .ragged (matRows d bins) [] := by
    revert hf; cases f <;> simp [scalarPt, shapeOf]
  have hpos := matRows_sum_pos h1 h2
  rcases served_get fresh bins hd hm hne.1 hne.2 with ⟨h3, h4⟩ | ⟨h3, h4⟩
  · simp [Store.holds, Store.size, h4, h3, hsh, Extents.has, Extents.size, matRows_get d bins m h1, h2, hpos]
  · simp [Store.holds, Store.size, h4, h3]

theorem served_elem {V : Type} (fresh : V) {z : Sizes} {d : Deck} {bins : List (List ℕ)} {st : Store Fld V}
    (hd : ∀ s ∈ d.solvers, s.dimsOk z.numDims = true) (hm : FromMesh z st) {e : ℕ} (he : e < z.numElems) {f : Fld}
    (hf : f = .vol ∨ f = .levelSet) :
    ((served fresh z d bins st).holds f [e] = true ↔ ∃ s ∈ d.solvers, f ∈ s.needs) ∧
    (0 < (served fresh z d bins st).size f ↔ ∃ s ∈ d.solvers, f ∈ s.needs) := by
  have hne : f ≠ .coords ∧ f ≠ .coords0 := by
    rcases hf with rfl | rfl <;> exact ⟨by decide, by decide⟩
  have hsh : shapeOf z (matRows d bins) f = .dense [z.numElems] := by
    rcases hf with rfl | rfl <;> rfl
  have hpos : 0 < z.numElems := by omega
  rcases served_get fresh bins hd hm hne.1 hne.2 with ⟨h3, h4⟩ | ⟨h3, h4⟩
  · simp [Store.holds, Store.size, h4, h3, hsh, Extents.has, Extents.size, he, hpos]
  · simp [Store.holds, Store.size, h4, h3]

theorem needs_any {d : Deck} (hw : d.Wf) {f : Fld} (hf : f = .elemInMat ∨ f = .volfrac ∨ f = .geoVolfrac ∨ f = .vol) :
    ∃ s ∈ d.solvers, f ∈ s.needs := by
  obtain ⟨s, hs⟩ := List.exists_mem_of_ne_nil _ hw.solvers
  refine ⟨s, hs, ?_⟩
  rcases hf with rfl | rfl | rfl | rfl <;> cases s <;> decide

theorem needs_matter (s : Solver) {f : Fld} (hf : f = .den ∨ f = .mass ∨ f = .eroded ∨ f = .sie) :
    f ∈ s.needs ↔ s ≠ .levelSet := by
  rcases hf with rfl | rfl | rfl | rfl <;> cases s <;> decide

theorem needs_thermal (s : Solver) {f : Fld} (hf : f = .conductivity ∨ f = .specificHeat) :
    f ∈ s.needs ↔ s = .sgtm3D := by
  rcases hf with rfl | rfl <;> cases s <;> decide

theorem needs_levelSet (s : Solver) : Fld.levelSet ∈ s.needs ↔ s = .levelSet := by cases s <;> decide

theorem setupOk_iff {V : Type} (fresh : V) {z : Sizes} {d : Deck} {bins : List (List ℕ)} {st : Store Fld V}
    (hw : d.Wf) (hb : BinsOk z d bins) (hm : FromMesh z st)
    (hd : ∀ s ∈ d.solvers, s.dimsOk z.numDims = true) :
    ((setupAccesses (served fresh z d bins st).size d bins).all fun p =>
      (match p.1 with
        | .state f => (served fresh z d bins st).holds f p.2
        | .fill a => (fillStore fresh z.numElems d.maxMats d.fillG : Store FillA V).holds a p.2)) = true ↔
      SetupOk d bins := by
  have key : ∀ e a r, (e, a, r) ∈ used d bins →
      ((∀ p ∈ setupRefs (served fresh z d bins st).size e a r.material
          (((materialMaps (matsIn d bins)).matElemsInElem (e, a)).getD 0) r,
        (match p.1 with
        | .state f => (served fresh z d bins st).holds f p.2
        | .fill a => (fillStore fresh z.numElems d.maxMats d.fillG : Store FillA V).holds a p.2) = true) ↔
        (((∃ s ∈ d.solvers, s ≠ .levelSet) → d.NamesG .density ∧ (r.paints .sie = true ∨ d.ExtensiveFirst)) ∧
          (.levelSet ∈ d.solvers → d.NamesG .levelSet) ∧
          (.sgtm3D ∈ d.solvers → d.NamesG .conductivity ∧ d.NamesG .specificHeat))) := by
    classical
    intro e a r hu
    obtain ⟨he, ha, hr, hh⟩ := used_bounds hb hu
    obtain ⟨sid, h1, h2, _⟩ := C19_roundtrip _ e a r.material hh
    have hmat := hw.mats r hr
    have hps : r.paints .sie = true → FillG.sie ∈ d.fillG := fun hf =>
      (namesG_iff d _).mp ⟨r, hr, hw.paints r hr _ hf⟩
    have hfill := fun x hx => fill_holds (V := V) fresh he ha (d := d) x hx
    have pt := fun f hf => served_pt (V := V) fresh hd hm hmat h2 (f := f) hf
    have el := fun f hf => served_elem (V := V) fresh (bins := bins) hd hm he (f := f) hf
    rw [h1, Option.getD_some]
    obtain ⟨A, hA'⟩ : ∃ A : Prop, (∃ s ∈ d.solvers, s ≠ .levelSet) = A := ⟨_, rfl⟩
    rw [hA']
    have mt : ∀ f, f = Fld.den ∨ f = .mass ∨ f = .eroded ∨ f = .sie →
        ((∃ s ∈ d.solvers, f ∈ s.needs) ↔ A) := by
      intro f hf
      rw [← hA']
      simp only [needs_matter _ hf]
    have th : ∀ f, f = Fld.conductivity ∨ f = .specificHeat →
        ((∃ s ∈ d.solvers, f ∈ s.needs) ↔ .sgtm3D ∈ d.solvers) := by
      intro f hf
      simp only [needs_thermal _ hf, exists_eq_right]
    have lv : (∃ s ∈ d.solvers, Fld.levelSet ∈ s.needs) ↔ .levelSet ∈ d.solvers := by
      simp only [needs_levelSet, exists_eq_right]
    have a1 := (pt .elemInMat (by simp [scalarPt])).1.mpr (needs_any hw (by simp))
    have a2 := (pt .volfrac (by simp [scalarPt])).1.mpr (needs_any hw (by simp))
    have a3 := (pt .geoVolfrac (by simp [scalarPt])).1.mpr (needs_any hw (by simp))
    have a4 := (el .vol (by simp)).1.mpr (needs_any hw (by simp))
    obtain ⟨b1, b1'⟩ := pt .den (by simp [scalarPt])
    obtain ⟨b2, b2'⟩ := pt .mass (by simp [scalarPt])
    obtain ⟨b3, b3'⟩ := pt .eroded (by simp [scalarPt])
    obtain ⟨b4, b4'⟩ := pt .sie (by simp [scalarPt])
    rw [mt _ (by simp)] at b1 b1' b2 b2' b3 b3' b4 b4'
    obtain ⟨c1, c1'⟩ := pt .conductivity (by simp [scalarPt])
    obtain ⟨c2, c2'⟩ := pt .specificHeat (by simp [scalarPt])
    rw [th _ (by simp)] at c1 c1' c2 c2'
    obtain ⟨e1, e1'⟩ := el .levelSet (by simp)
    rw [lv] at e1 e1'
    have f1 := hfill .den trivial
    have f2 := hfill .useSie trivial
    have f3 := hfill .sie trivial
    have f4 := hfill .ie trivial
    have f5 := hfill .conductivity trivial
    have f6 := hfill .specificHeat trivial
    have f7 := hfill .levelSet trivial
    simp only [LeadsTo] at f1 f2 f3 f4 f5 f6 f7
    simp only [← namesG_iff, ← extensiveFirst_iff] at f1 f2 f3 f4 f5 f6 f7 hps
    have hie : d.ExtensiveFirst → d.NamesG .ie := fun h =>
      (namesG_iff d _).mpr (ieFirst_mem ((extensiveFirst_iff d).mp h))
    unfold setupRefs
    simp only [List.forall_mem_append, List.forall_mem_cons, List.not_mem_nil, false_implies, implies_true, and_true,
      a1, a2, a3, a4, true_and, b1', b3', b4', c1', c2', e1']
    clear hA' mt
    by_cases hA : A <;> by_cases hT : Solver.sgtm3D ∈ d.solvers <;> by_cases hL : Solver.levelSet ∈ d.solvers <;>
      by_cases hS : r.paints .sie = true <;>
      simp only [hA, hT, hL, hS, Bool.false_eq_true, if_true, if_false, List.forall_mem_append, List.forall_mem_cons,
        List.not_mem_nil, false_implies, implies_true, and_true, true_and, forall_const,
        b1, b2, b3, b4, c1, c2, e1, f1, f2, f3, f4, f5, f6, f7] <;> (clear * - hps hie hS hA; tauto)
  rw [List.all_eq_true]
  unfold setupAccesses SetupOk
  simp only [List.mem_flatMap]
  constructor
  · intro h
    refine ⟨fun r hf => ?_, fun r hf => ?_, fun r hf => ?_⟩ <;>
      obtain ⟨e, a, hu⟩ := (fills_iff d bins r).mp hf <;>
      have h' := (key e a r hu).mp fun p hp => h p ⟨_, hu, hp⟩
    · exact h'.1
    · exact h'.2.1
    · exact h'.2.2
  · rintro ⟨h1, h2, h3⟩ p ⟨⟨e, a, r⟩, hu, hp⟩
    have hf := (fills_iff d bins r).mpr ⟨e, a, hu⟩
    exact (key e a r hu).mpr ⟨h1 r hf, h2 r hf, h3 r hf⟩ p hp

/-! ### Theorems -/

theorem driverInit_eq {V : Type} (fresh : V) {z : Sizes} {d : Deck} {bins : List (List ℕ)} {st : Store Fld V}
    (hw : d.Wf) (hb : BinsOk z d bins) (hm : FromMesh z st) :
    (¬d.StartOk z ∧ driverInit fresh z d bins st = .thrown) ∨
    (d.StartOk z ∧ ¬PaintOk d bins ∧ driverInit fresh z d bins st = .outside) ∨
    (d.StartOk z ∧ PaintOk d bins ∧ ¬d.MaterialOk ∧ driverInit fresh z d bins st = .thrown) ∨
    (d.StartOk z ∧ PaintOk d bins ∧ d.MaterialOk ∧ ¬SetupOk d bins ∧ driverInit fresh z d bins st = .outside) ∨
    (d.StartOk z ∧ PaintOk d bins ∧ d.MaterialOk ∧ SetupOk d bins ∧
      driverInit fresh z d bins st = .done (served fresh z d bins st)) := by
  have e1 := initSolvers_eq fresh z d d.solvers st
  by_cases h1 : d.StartOk z
  · have h1' := (startOk_iff d z).mp h1
    rw [if_pos h1'] at e1
    replace e1 : initSolvers fresh z d st = _ := e1
    have hp := paintOk_iff (V := V) fresh hw hb
    by_cases h2 : PaintOk d bins
    · have e2 := initMaterials_eq fresh z d (matRows d bins) d.solvers
        (st.allocAll fresh (d.solvers.flatMap fun s => s.meshArrays z))
      have e3 : (st.allocAll fresh (d.solvers.flatMap fun s => s.meshArrays z)).allocAll fresh
          (d.solvers.flatMap fun s => s.matPtArrays z (matRows d bins)) = served fresh z d bins st := by
        unfold served askedFor; rw [allocAll_append]
      rw [e3] at e2
      replace e2 : initMaterials fresh z d (matRows d bins) _ = _ := e2
      by_cases h3 : d.MaterialOk
      · rw [if_pos ((materialOk_iff d).mp h3)] at e2
        have hs := setupOk_iff (V := V) fresh hw hb hm fun s hs => (h1' s hs).1
        by_cases h4 : SetupOk d bins
        · refine Or.inr (Or.inr (Or.inr (Or.inr ⟨h1, h2, h3, h4, ?_⟩)))
          unfold driverInit
          simp only [e1, hp.mpr h2, if_true, e2]
          exact if_pos (hs.mpr h4)
        · refine Or.inr (Or.inr (Or.inr (Or.inl ⟨h1, h2, h3, h4, ?_⟩)))
          unfold driverInit
          simp only [e1, hp.mpr h2, if_true, e2]
          exact if_neg (mt hs.mp h4)
      · rw [if_neg (mt (materialOk_iff d).mpr h3)] at e2
        refine Or.inr (Or.inr (Or.inl ⟨h1, h2, h3, ?_⟩))
        unfold driverInit
        simp only [e1, hp.mpr h2, if_true, e2]
    · refine Or.inr (Or.inl ⟨h1, h2, ?_⟩)
      unfold driverInit
      simp only [e1]
      exact if_neg (mt hp.mp h2)
  · left
    rw [if_neg (mt (startOk_iff d z).mpr h1)] at e1
    replace e1 : initSolvers fresh z d st = _ := e1
    refine ⟨h1, ?_⟩
    unfold driverInit
    simp only [e1]

/-- **C128 (outcome).** For every input and every choice of regions for the elements, the initialisation ends with
an exception exactly if a solver rejects the mesh or the nodal fields, or (painting having stayed inside its arrays)
a solver rejects the material fields; it reads or writes outside an array exactly if all tests passed up to a
painting or a setup that is not covered by the arrays; otherwise it ends with a state. -/
theorem C128_outcome {V : Type} (fresh : V) {z : Sizes} {d : Deck} {bins : List (List ℕ)} {st : Store Fld V}
    (hw : d.Wf) (hb : BinsOk z d bins) (hm : FromMesh z st) :
    (driverInit fresh z d bins st = .thrown ↔ ¬d.StartOk z ∨ PaintOk d bins ∧ ¬d.MaterialOk) ∧
    (driverInit fresh z d bins st = .outside ↔
      d.StartOk z ∧ (¬PaintOk d bins ∨ d.MaterialOk ∧ ¬SetupOk d bins)) ∧
    ((∃ st', driverInit fresh z d bins st = .done st') ↔
      d.StartOk z ∧ PaintOk d bins ∧ d.MaterialOk ∧ SetupOk d bins) := by
  rcases driverInit_eq fresh hw hb hm with ⟨h1, h⟩ | ⟨h1, h2, h⟩ | ⟨h1, h2, h3, h⟩ | ⟨h1, h2, h3, h4, h⟩ |
    ⟨h1, h2, h3, h4, h⟩ <;> rw [h] <;> simp_all

/-- **C128 (arrays).** If the initialisation ends with a state, then an array that held anything before is
untouched; any other array exists exactly if one of the solvers asked for it; and it then has the extents of the mesh
and of the material index spaces, whichever solver came first. -/
theorem C128_arrays {V : Type} (fresh : V) {z : Sizes} {d : Deck} {bins : List (List ℕ)} {st st' : Store Fld V}
    (hw : d.Wf) (hb : BinsOk z d bins) (hm : FromMesh z st) (h : driverInit fresh z d bins st = .done st') (f : Fld) :
    (st.size f ≠ 0 → st' f = st f) ∧
    (st f = none → (∃ s ∈ d.solvers, f ∈ s.needs) →
      st' f = some ⟨shapeOf z (matRows d bins) f, fun _ => fresh⟩) ∧
    (st f = none → (¬∃ s ∈ d.solvers, f ∈ s.needs) → st' f = none) := by
  rcases driverInit_eq fresh hw hb hm with ⟨_, h'⟩ | ⟨_, _, h'⟩ | ⟨_, _, _, h'⟩ | ⟨_, _, _, _, h'⟩ |
    ⟨h1, _, _, _, h'⟩ <;> rw [h'] at h <;> cases h
  have hd : ∀ s ∈ d.solvers, s.dimsOk z.numDims = true := fun s hs => ((startOk_iff d z).mp h1 s hs).1
  unfold served
  rw [asked_get fresh z d _ st hd f]
  refine ⟨fun hs => by rw [if_neg fun hh => hs hh.2], fun hn hx => ?_, fun _ hx => ?_⟩
  · rw [if_pos ⟨hx, by simp [Store.size, hn]⟩]
  · rw [if_neg fun hh => hx hh.1]; assumption

/-- **C128 (run).** After an initialisation that ends with a state, every array the setup and the time steps of a
requested solver touch exists with the extents of the mesh and of the material index spaces. -/
theorem C128_run {V : Type} (fresh : V) {z : Sizes} {d : Deck} {bins : List (List ℕ)} {st st' : Store Fld V}
    (hw : d.Wf) (hb : BinsOk z d bins) (hm : FromMesh z st) (h : driverInit fresh z d bins st = .done st')
    (s : Solver) (hs : s ∈ d.solvers) (f : Fld) (hf : f ∈ s.runArrays) :
    ∃ a, st' f = some a ∧ a.shape = shapeOf z (matRows d bins) f := by
  have hn : f ∈ s.needs := by
    clear h; revert hf; cases s <;> cases f <;> decide
  obtain ⟨h1, h2, _⟩ := C128_arrays fresh hw hb hm h f
  cases hst : st f with
  | none => exact ⟨_, h2 hst ⟨s, hs, hn⟩, rfl⟩
  | some a =>
    obtain ⟨h3, h4⟩ := hm f a hst
    have hsh : a.shape = shapeOf z (matRows d bins) f := by
      rw [h4]; rcases h3 with rfl | rfl <;> rfl
    by_cases hz : st.size f = 0
    · rcases driverInit_eq fresh hw hb hm with ⟨_, h'⟩ | ⟨_, _, h'⟩ | ⟨_, _, _, h'⟩ | ⟨_, _, _, _, h'⟩ |
        ⟨h5, _, _, _, h'⟩ <;> rw [h'] at h <;> cases h
      refine ⟨⟨shapeOf z (matRows d bins) f, fun _ => fresh⟩, ?_, rfl⟩
      unfold served
      rw [asked_get fresh z d _ st (fun s hs => ((startOk_iff d z).mp h5 s hs).1) f, if_pos ⟨⟨s, hs, hn⟩, hz⟩]
    · exact ⟨a, by rw [h1 hz, hst], hsh⟩

/-- **C128 (inside).** After an initialisation that ends with a state, every access of the painting of regions and of
the material setup fell inside an array that exists. -/
theorem C128_inside {V : Type} (fresh : V) {z : Sizes} {d : Deck} {bins : List (List ℕ)} {st st' : Store Fld V}
    (h : driverInit fresh z d bins st = .done st') :
    (∀ p ∈ paintStores d bins, ∃ a, (fillStore fresh z.numElems d.maxMats d.fillG : Store FillA V) p.1 = some a ∧
      a.shape.has p.2 = true) ∧
    (∀ f ix, (Ref.state f, ix) ∈ setupAccesses st'.size d bins → ∃ a, st' f = some a ∧ a.shape.has ix = true) ∧
    (∀ x ix, (Ref.fill x, ix) ∈ setupAccesses st'.size d bins →
      ∃ a, (fillStore fresh z.numElems d.maxMats d.fillG : Store FillA V) x = some a ∧ a.shape.has ix = true) := by
  have key : ∀ {N : Type} (s : Store N V) f ix, s.holds f ix = true → ∃ a, s f = some a ∧ a.shape.has ix = true := by
    intro N s f ix hh
    unfold Store.holds at hh
    cases hs : s f with
    | none => rw [hs] at hh; cases hh
    | some a => rw [hs] at hh; exact ⟨a, rfl, hh⟩
  unfold driverInit at h
  split at h
  · cases h
  · simp only at h
    split_ifs at h with h1
    split at h
    · cases h
    · split_ifs at h with h2
      cases h
      rw [List.all_eq_true] at h1 h2
      exact ⟨fun p hp => key _ _ _ (h1 p hp), fun f ix hp => key _ _ _ (h2 _ hp), fun x ix hp => key _ _ _ (h2 _ hp)⟩

/-- **C128 (idle).** Of the arrays a solver asks for, its setup and time steps leave these untouched: the temperature
gradient for the hydrodynamics solvers, six mechanical arrays for the thermal solver, five for the level set solver,
and all of them for the quasi-static solver. -/
theorem C128_idle (s : Solver) (f : Fld) : f ∈ s.needs ∧ f ∉ s.runArrays ↔ f ∈ (match s with
    | .sgh3D | .sghRZ => [Fld.tempGrad]
    | .sgtm3D => [.cornerForce, .stress0, .sie0, .deltaVolfrac, .deltaGeoVolfrac, .matCornerForce]
    | .levelSet => [.coords0, .vel0, .tempGrad, .deltaVolfrac, .deltaGeoVolfrac]
    | .tlqs3D => Solver.needs .tlqs3D) := by
  cases s <;> cases f <;> decide

/-- **C128 (order).** Listing the same solvers in another order gives the same outcome. -/
theorem C128_order {V : Type} (fresh : V) {z : Sizes} {d : Deck} {bins : List (List ℕ)} {st : Store Fld V}
    (hw : d.Wf) (hb : BinsOk z d bins) (hm : FromMesh z st) (ss : List Solver)
    (hp : ∀ s, s ∈ ss ↔ s ∈ d.solvers) :
    driverInit fresh z { d with solvers := ss } bins st = driverInit fresh z d bins st := by
  have hne : ss ≠ [] := by
    obtain ⟨s, hs⟩ := List.exists_mem_of_ne_nil _ hw.solvers
    exact List.ne_nil_of_mem ((hp s).mpr hs)
  have hw' : Deck.Wf { d with solvers := ss } := ⟨hne, hw.paints, hw.mats⟩
  have hb' : BinsOk z { d with solvers := ss } bins := ⟨hb.elems, hb.slots, hb.ids⟩
  have i1 : Deck.StartOk { d with solvers := ss } z ↔ d.StartOk z := by
    unfold Deck.StartOk; simp only [hp]; rfl
  have i2 : Deck.MaterialOk { d with solvers := ss } ↔ d.MaterialOk := by
    unfold Deck.MaterialOk; simp only [hp]; rfl
  have i3 : PaintOk { d with solvers := ss } bins ↔ PaintOk d bins := Iff.rfl
  have i4 : SetupOk { d with solvers := ss } bins ↔ SetupOk d bins := by
    unfold SetupOk; simp only [hp]; rfl
  have i5 : d.StartOk z → served fresh z { d with solvers := ss } bins st = served fresh z d bins st := by
    intro h1
    have hd := fun s hs => ((startOk_iff d z).mp h1 s hs).1
    funext f
    unfold served
    rw [asked_get fresh z _ _ st hd f, asked_get fresh z { d with solvers := ss } _ st
      (fun s hs => hd s ((hp s).mp hs)) f]
    simp only [hp]
    rfl
  rcases driverInit_eq fresh hw hb hm with ⟨h1, h⟩ | ⟨h1, h2, h⟩ | ⟨h1, h2, h3, h⟩ | ⟨h1, h2, h3, h4, h⟩ |
    ⟨h1, h2, h3, h4, h⟩ <;>
  rcases driverInit_eq fresh hw' hb' hm with ⟨g1, g⟩ | ⟨g1, g2, g⟩ | ⟨g1, g2, g3, g⟩ | ⟨g1, g2, g3, g4, g⟩ |
    ⟨g1, g2, g3, g4, g⟩ <;> first
    | exact absurd (i1.mp g1) h1
    | exact absurd (i1.mpr h1) g1
    | exact absurd (i3.mp g2) h2
    | exact absurd (i3.mpr h2) g2
    | exact absurd (i2.mp g3) h3
    | exact absurd (i2.mpr h3) g3
    | exact absurd (i4.mp g4) h4
    | exact absurd (i4.mpr h4) g4
    | (rw [g, h]; done)
    | rw [g, h, i5 h1]

/-- **C128 (hydrodynamics).** A three-dimensional hydrodynamics input with velocity, density and an energy: the
initialisation ends with a state exactly if, among the regions that fill some element, either the extensive energy is
named before any specific one, or every region sets the specific energy and none the extensive one. -/
theorem C128_hydro {V : Type} (fresh : V) {z : Sizes} {d : Deck} {bins : List (List ℕ)} {st : Store Fld V}
    (hw : d.Wf) (hb : BinsOk z d bins) (hm : FromMesh z st) (hs : d.solvers = [.sgh3D]) (hz : z.numDims = 3)
    (hv : d.NamesN .velocity) (hρ : d.NamesG .density) (he : d.NamesG .sie ∨ d.NamesG .ie) :
    (∃ st', driverInit fresh z d bins st = .done st') ↔
      d.ExtensiveFirst ∨ ∀ r, Fills d bins r → r.paints .sie = true ∧ r.paints .ie = false := by
  rw [(C128_outcome fresh hw hb hm).2.2]
  unfold Deck.StartOk Deck.MaterialOk PaintOk SetupOk
  simp only [hs, List.mem_singleton, reduceCtorEq, or_false, forall_const, false_implies, and_true,
    hz, hv, hρ, he, true_and, exists_eq_left, ne_eq, not_false_eq_true, implies_true]
  by_cases h : d.ExtensiveFirst
  · simp [h]
  · simp only [h, imp_false, or_false, false_or, Bool.not_eq_true]
    exact ⟨fun ⟨a, b⟩ r hr => ⟨b r hr, a r hr⟩, fun a => ⟨fun r hr => (a r hr).2, fun r hr => (a r hr).1⟩⟩

/-! ### Concrete inputs -/

/-- A mesh of two elements next to each other. -/
def allocMesh : Sizes := ⟨12, 2, 16, 3, 8⟩

/-- A two-dimensional mesh of two elements. -/
def allocMesh2 : Sizes := ⟨6, 2, 8, 2, 4⟩

/-- A region that names `l` and sets all of it. -/
def allocRegion (m : ℕ) (l : List FillG) : Region := ⟨m, l, [.velocity, .temperature], fun f => decide (f ∈ l)⟩

/-- Two regions with materials 0 and 1. -/
def allocDeck (ss : List Solver) (l l' : List FillG) : Deck := ⟨ss, [allocRegion 0 l, allocRegion 1 l'], 2, 1⟩

/-- The first element is filled with the first region, the second with the second. -/
def allocBins : List (List ℕ) := [[0], [1]]

theorem allocDeck_wf (ss : List Solver) (h : ss ≠ []) (l l' : List FillG) : (allocDeck ss l l').Wf := by
  refine ⟨h, ?_, ?_⟩
  · intro r hr f hf
    simp only [allocDeck, List.mem_cons, List.not_mem_nil, or_false] at hr
    rcases hr with rfl | rfl <;> simpa [allocRegion] using hf
  · intro r hr
    simp only [allocDeck, List.mem_cons, List.not_mem_nil, or_false] at hr
    rcases hr with rfl | rfl <;> simp [allocRegion, allocDeck]

theorem allocBins_ok (z : Sizes) (hz : z.numElems = 2) (ss : List Solver) (l l' : List FillG) :
    BinsOk z (allocDeck ss l l') allocBins := by
  refine ⟨by simp [allocBins, hz], ?_, ?_⟩ <;> simp [allocBins, allocDeck]

theorem fills_allocDeck (ss : List Solver) (l l' : List FillG) (r : Region) :
    Fills (allocDeck ss l l') allocBins r ↔ r = allocRegion 0 l ∨ r = allocRegion 1 l' := by
  simp [Fills, allocBins, allocDeck, eq_comm]

theorem fromMesh_none (V : Type) (z : Sizes) : FromMesh z (fun _ => none : Store Fld V) := by
  intro f a h; simp at h

theorem names_allocDeck (ss : List Solver) (l l' : List FillG) (f : FillG) :
    (allocDeck ss l l').NamesG f ↔ f ∈ l ∨ f ∈ l' := by
  simp [Deck.NamesG, allocDeck, allocRegion]

theorem namesN_allocDeck (ss : List Solver) (l l' : List FillG) (f : FillN) : (allocDeck ss l l').NamesN f := by
  cases f <;> simp [Deck.NamesN, allocDeck, allocRegion]

theorem extensiveFirst_allocDeck (ss : List Solver) (l l' : List FillG) :
    (allocDeck ss l l').ExtensiveFirst ↔ IeFirst (l ++ l') := by
  simp [Deck.ExtensiveFirst, IeFirst, allocDeck, allocRegion]

/-- Both regions with density and specific energy: the hydrodynamics solver gets its state. -/
example : ∃ st', driverInit (0 : ℚ) allocMesh (allocDeck [.sgh3D] [.density, .sie] [.density, .sie]) allocBins
    (fun _ => none) = .done st' := by
  rw [C128_hydro 0 (allocDeck_wf _ (by simp) _ _) (allocBins_ok _ rfl _ _ _) (fromMesh_none _ _) rfl rfl
    (namesN_allocDeck ..) (by simp [names_allocDeck]) (by simp [names_allocDeck])]
  right
  intro r hr
  rw [fills_allocDeck] at hr
  rcases hr with rfl | rfl <;> simp [allocRegion]

/-- The extensive energy in the first region and the specific one in the second: also fine. -/
example : ∃ st', driverInit (0 : ℚ) allocMesh (allocDeck [.sgh3D] [.density, .ie] [.density, .sie]) allocBins
    (fun _ => none) = .done st' := by
  rw [C128_hydro 0 (allocDeck_wf _ (by simp) _ _) (allocBins_ok _ rfl _ _ _) (fromMesh_none _ _) rfl rfl
    (namesN_allocDeck ..) (by simp [names_allocDeck]) (by simp [names_allocDeck])]
  left
  rw [extensiveFirst_allocDeck]
  exact ⟨[.density], [.density, .sie], rfl, by simp⟩

theorem not_ieFirst_mixed : ¬IeFirst ([.density, .sie] ++ [.density, .ie]) := by
  rintro ⟨b, a, h, hb⟩
  match b, h with
  | [], h => simp at h
  | [x], h => simp at h
  | x :: y :: b, h =>
    simp only [List.cons_append, List.cons.injEq] at h
    exact hb (by simp [← h.2.1])

/-- **C128 (mixed energies, fails).** An input whose first region gives the specific energy and whose second gives
the extensive energy is accepted by the tests, and painting the second region writes to an array that was never
allocated: the extensive energy is allocated only if the *specific* energy is not.  With the two regions exchanged
the same input works. -/
theorem C128_mixed_energy_fails {V : Type} (fresh : V) :
    (allocDeck [.sgh3D] [.density, .sie] [.density, .ie]).StartOk allocMesh ∧
    (allocDeck [.sgh3D] [.density, .sie] [.density, .ie]).MaterialOk ∧
    driverInit fresh allocMesh (allocDeck [.sgh3D] [.density, .sie] [.density, .ie]) allocBins (fun _ => none) =
      .outside ∧
    ∃ st', driverInit fresh allocMesh (allocDeck [.sgh3D] [.density, .ie] [.density, .sie]) allocBins
      (fun _ => none) = .done st' := by
  have h1 : (allocDeck [.sgh3D] [.density, .sie] [.density, .ie]).StartOk allocMesh := by
    refine ⟨fun _ => ⟨rfl, namesN_allocDeck ..⟩, ?_, ?_⟩ <;> simp [allocDeck]
  refine ⟨h1, ?_, ?_, ?_⟩
  · refine ⟨fun _ => ?_, ?_⟩
    · simp [names_allocDeck]
    · simp [allocDeck]
  · rw [(C128_outcome fresh (allocDeck_wf _ (by simp) _ _) (allocBins_ok _ rfl _ _ _) (fromMesh_none _ _)).2.1]
    refine ⟨h1, Or.inl fun hp => ?_⟩
    have := hp (allocRegion 1 [.density, .ie]) (by simp [fills_allocDeck]) (by simp [allocRegion])
    rw [extensiveFirst_allocDeck] at this
    exact not_ieFirst_mixed this
  · rw [C128_hydro fresh (allocDeck_wf _ (by simp) _ _) (allocBins_ok _ rfl _ _ _) (fromMesh_none _ _) rfl rfl
      (namesN_allocDeck ..) (by simp [names_allocDeck]) (by simp [names_allocDeck])]
    left
    rw [extensiveFirst_allocDeck]
    exact ⟨[.density], [.density, .sie], rfl, by simp⟩

/-- **C128 (region without an energy, fails).** The required fields are looked for over all regions together: a
region without any energy beside one with a specific energy is accepted, and the setup of its material points reads
the extensive energy, which was never allocated. -/
theorem C128_no_energy_fails {V : Type} (fresh : V) :
    (allocDeck [.sgh3D] [.density, .sie] [.density]).MaterialOk ∧
    driverInit fresh allocMesh (allocDeck [.sgh3D] [.density, .sie] [.density]) allocBins (fun _ => none) =
      .outside := by
  have hm : (allocDeck [.sgh3D] [.density, .sie] [.density]).MaterialOk := by
    refine ⟨fun _ => ?_, ?_⟩
    · simp [names_allocDeck]
    · simp [allocDeck]
  refine ⟨hm, ?_⟩
  rw [(C128_outcome fresh (allocDeck_wf _ (by simp) _ _) (allocBins_ok _ rfl _ _ _) (fromMesh_none _ _)).2.1]
  refine ⟨?_, Or.inr ⟨hm, ?_⟩⟩
  · refine ⟨fun _ => ⟨rfl, namesN_allocDeck ..⟩, ?_, ?_⟩ <;> simp [allocDeck]
  · intro hs
    have := (hs.1 (allocRegion 1 [.density]) (by simp [fills_allocDeck])
      ⟨.sgh3D, by simp [allocDeck], by simp⟩).2
    rw [extensiveFirst_allocDeck] at this
    rcases this with h | h
    · simp [allocRegion] at h
    · exact absurd (ieFirst_mem h) (by simp)

/-- **C128 (unchecked solvers, fails).** The r-z hydrodynamics solver does not look for a density and the level set
solver does not look for a level set field: inputs without them are accepted and the setup of the material points
reads arrays that were never allocated. -/
theorem C128_unchecked_fails {V : Type} (fresh : V) :
    driverInit fresh allocMesh2 (allocDeck [.sghRZ] [.sie] [.sie]) allocBins (fun _ => none) = .outside ∧
    driverInit fresh allocMesh (allocDeck [.levelSet] [.density] [.density]) allocBins (fun _ => none) =
      .outside := by
  constructor
  · rw [(C128_outcome fresh (allocDeck_wf _ (by simp) _ _) (allocBins_ok _ rfl _ _ _) (fromMesh_none _ _)).2.1]
    refine ⟨?_, Or.inr ⟨?_, ?_⟩⟩
    · refine ⟨?_, fun _ => rfl, ?_⟩ <;> simp [allocDeck]
    · refine ⟨?_, ?_⟩ <;> simp [allocDeck]
    · intro hs
      have := (hs.1 (allocRegion 1 [.sie]) (by simp [fills_allocDeck]) ⟨.sghRZ, by simp [allocDeck], by simp⟩).1
      simp [names_allocDeck] at this
  · rw [(C128_outcome fresh (allocDeck_wf _ (by simp) _ _) (allocBins_ok _ rfl _ _ _) (fromMesh_none _ _)).2.1]
    refine ⟨?_, Or.inr ⟨?_, ?_⟩⟩
    · refine ⟨?_, ?_, ?_⟩ <;> simp [allocDeck]
    · refine ⟨?_, ?_⟩ <;> simp [allocDeck]
    · intro hs
      have := hs.2.1 (allocRegion 1 [.density]) (by simp [fills_allocDeck]) (by simp [allocDeck])
      simp [names_allocDeck] at this

/-- **C128 (dimensions of the thermal solver, fails).** The three-dimensional thermal solver does not test the
dimensions of the mesh: on a two-dimensional mesh it is initialised, with coordinates of two components. -/
theorem C128_thermal_dims_fails {V : Type} (fresh : V) :
    ∃ st', driverInit fresh allocMesh2
        (allocDeck [.sgtm3D] [.density, .sie, .conductivity, .specificHeat]
          [.density, .sie, .conductivity, .specificHeat]) allocBins (fun _ => none) = .done st' ∧
      ∃ a, st' .coords = some a ∧ a.shape = .dense [6, 2] := by
  have hw := allocDeck_wf [.sgtm3D] (by simp) [.density, .sie, .conductivity, .specificHeat]
    [.density, .sie, .conductivity, .specificHeat]
  have hb := allocBins_ok allocMesh2 rfl [.sgtm3D] [.density, .sie, .conductivity, .specificHeat]
    [.density, .sie, .conductivity, .specificHeat]
  have hf := fromMesh_none V allocMesh2
  have h := (C128_outcome fresh hw hb hf).2.2.mpr ?_
  · obtain ⟨st', h⟩ := h
    exact ⟨st', h, C128_run fresh hw hb hf h .sgtm3D (by simp [allocDeck]) .coords (by decide)⟩
  · refine ⟨⟨?_, ?_, fun _ => ⟨namesN_allocDeck .., namesN_allocDeck ..⟩⟩, ?_, ?_, ?_, ?_, ?_⟩
    · simp [allocDeck]
    · simp [allocDeck]
    · intro r hr hi
      rw [fills_allocDeck] at hr
      rcases hr with rfl | rfl <;> simp [allocRegion] at hi
    · simp [Deck.MaterialOk, names_allocDeck]
    · intro r hr _
      rw [fills_allocDeck] at hr
      rcases hr with rfl | rfl <;> simp [names_allocDeck, allocRegion]
    · simp [allocDeck]
    · simp [names_allocDeck]

end Fierro
