import Verif.Props.ParseRegions
import Verif.Props.RegionFill
import Verif.Props.Shapes

/-!
# C114: from the regions of an input deck to the materials of the elements

Which region of the deck an element gets its material from, in terms of what is written in the deck.
-/

namespace Fierro

variable {V : Type*}

/-! ## Specification -/

/-- The number that a block gives for a word, or the default. -/
def numAt (cv : NodeConv V ℝ) (b : Block V) (w : String) (d : ℝ) : ℝ :=
  ((b.lookup w).map cv.real).getD d

/-- The origin that a block gives; the default is zero. -/
def OriginIs (cv : NodeConv V ℝ) (b : Block V) (o : ℝ × ℝ × ℝ) : Prop :=
  (∃ v, ("origin", v) ∈ b ∧ OriginText cv (cv.str v).toList o) ∨
    (∀ v, ("origin", v) ∉ b) ∧ o = (0, 0, 0)

/-- The block `b` under `volume` says that element `e` with centre `c` is inside. `objectIds` are the
part numbers of the elements in the mesh file, `voxel` tells which elements the voxel file covers. -/
inductive Inside (cv : NodeConv V ℝ) (objectIds : ℕ → ℤ) (voxel : ℕ → Bool) (b : Block V)
    (c : Fin 3 → ℝ) (e : ℕ) : Prop
  | global (t : V) : ("type", t) ∈ b → cv.str t = "global" → Inside cv objectIds voxel b c e
  | box (t : V) : ("type", t) ∈ b → cv.str t = "box" →
      c 0 ∈ Set.Icc (numAt cv b "x1" 0) (numAt cv b "x2" 0) →
      c 1 ∈ Set.Icc (numAt cv b "y1" 0) (numAt cv b "y2" 0) →
      c 2 ∈ Set.Icc (numAt cv b "z1" 0) (numAt cv b "z2" 0) → Inside cv objectIds voxel b c e
  | sphere (t : V) (o : ℝ × ℝ × ℝ) : ("type", t) ∈ b → cv.str t = "sphere" → OriginIs cv b o →
      dist (pt3 c) (pt3 ![o.1, o.2.1, o.2.2]) ∈
        Set.Icc (numAt cv b "radius1" 0) (numAt cv b "radius2" 0) → Inside cv objectIds voxel b c e
  | cylinder (t : V) (o : ℝ × ℝ × ℝ) : ("type", t) ∈ b → cv.str t = "cylinder" →
      OriginIs cv b o → dist (pt2 c) (pt2 ![o.1, o.2.1, o.2.2]) ∈
        Set.Icc (numAt cv b "radius1" 0) (numAt cv b "radius2" 0) →
      c 2 ∈ Set.Icc (numAt cv b "z1" 0) (numAt cv b "z2" 0) → Inside cv objectIds voxel b c e
  | voxel (t : V) : ("type", t) ∈ b → cv.str t = "voxel_file" → voxel e = true →
      Inside cv objectIds voxel b c e
  | part (t : V) : ("type", t) ∈ b → cv.str t = "vtu_file" →
      objectIds e = ((b.lookup "part_id").map cv.int).getD 1 → Inside cv objectIds voxel b c e

/-- Region `b` contains element `e` with centre `c`. -/
def RegionInside (cv : NodeConv V ℝ) (objectIds : ℕ → ℤ) (voxel : ℕ → Bool) (b : Block V)
    (c : Fin 3 → ℝ) (e : ℕ) : Prop :=
  ∃ v, ("volume", v) ∈ b ∧ Inside cv objectIds voxel (cv.block v) c e

/-- The volume fraction that region `b` gives to an element with centre `c`, as the code computes
it. -/
inductive FractionIs (cv : NodeConv V ℝ) (b : Block V) (c : Fin 3 → ℝ) : ℝ → Prop
  | default : (∀ v, ("volume_fraction", v) ∉ b) → FractionIs cv b c 1
  | uniform (v t : V) : ("volume_fraction", v) ∈ b → ("type", t) ∈ cv.block v →
      cv.str t = "uniform" → FractionIs cv b c (numAt cv (cv.block v) "value" 1)
  | x (v t : V) : ("volume_fraction", v) ∈ b → ("type", t) ∈ cv.block v →
      cv.str t = "x_linear" →
      FractionIs cv b c (numAt cv (cv.block v) "slope" 0 * c 0 + numAt cv (cv.block v) "value" 1)
  | y (v t : V) : ("volume_fraction", v) ∈ b → ("type", t) ∈ cv.block v →
      cv.str t = "y_linear" →
      FractionIs cv b c (numAt cv (cv.block v) "slope" 0 * c 1 + numAt cv (cv.block v) "value" 1)
  | z (v t : V) : ("volume_fraction", v) ∈ b → ("type", t) ∈ cv.block v →
      cv.str t = "z_linear" →
      FractionIs cv b c (numAt cv (cv.block v) "slope" 0 * c 2 + numAt cv (cv.block v) "value" 1)
  | radial (v t : V) : ("volume_fraction", v) ∈ b → ("type", t) ∈ cv.block v →
      cv.str t = "radial" →
      FractionIs cv b c (numAt cv (cv.block v) "slope" 0 *
        Real.sqrt (c 0 ^ 2 + c 1 ^ 2 - numAt cv (cv.block v) "value" 1))
  | spherical (v t : V) : ("volume_fraction", v) ∈ b → ("type", t) ∈ cv.block v →
      cv.str t = "spherical" →
      FractionIs cv b c (numAt cv (cv.block v) "slope" 0 *
        Real.sqrt (c 0 ^ 2 + c 1 ^ 2 + c 2 ^ 2 - numAt cv (cv.block v) "value" 1))

/-! ## Words and numbers -/

theorem lookup_mem {b : Block V} {w : String} {v : V} (h : b.lookup w = some v) : (w, v) ∈ b := by
  induction b with
  | nil => simp at h
  | cons x b ih =>
    obtain ⟨a, u⟩ := x
    rw [List.lookup_cons] at h
    by_cases hw : w == a
    · rw [hw] at h
      cases h
      rw [beq_iff_eq] at hw
      subst hw; exact List.mem_cons_self
    · simp only [Bool.not_eq_true] at hw
      rw [hw] at h
      exact List.mem_cons_of_mem _ (ih h)

theorem lookup_none {b : Block V} {w : String} (h : b.lookup w = none) (v : V) : (w, v) ∉ b := by
  induction b with
  | nil => simp
  | cons x b ih =>
    obtain ⟨a, u⟩ := x
    rw [List.lookup_cons] at h
    by_cases hw : w == a
    · rw [hw] at h; cases h
    · simp only [Bool.not_eq_true] at hw
      rw [hw] at h
      rintro hm
      rcases List.mem_cons.mp hm with e | hm
      · cases e; simp at hw
      · exact ih h hm

theorem fieldIs_lookup {T : Type} {b : Block V} {w : String} {f : V → T} {d x : T}
    (h : FieldIs b w f d x) : x = ((b.lookup w).map f).getD d := by
  cases hl : b.lookup w with
  | none => exact h.2 (lookup_none hl)
  | some v => exact h.1 v (lookup_mem hl)

theorem originText_unique {cv : NodeConv V ℝ} {t : List Char} {o o' : ℝ × ℝ × ℝ} {v : V}
    (hv : (cv.str v).toList = t) (h : OriginText cv t o) (h' : OriginText cv t o') : o = o' := by
  subst hv
  rw [← regOrigin_iff] at h h'
  rw [h] at h'
  exact Except.ok.inj h'

theorem originIs_iff {cv : NodeConv V ℝ} {b : Block V} (hb : b.Sorted) {x : VolFill ℝ}
    (hx : VolIs cv b x) (o : ℝ × ℝ × ℝ) : OriginIs cv b o ↔ o = x.origin := by
  unfold OriginIs
  constructor
  · rintro (⟨v, hv, ho⟩ | ⟨hno, rfl⟩)
    · exact originText_unique rfl ho (hx.origin v hv)
    · exact (hx.noOrigin hno).symm
  · rintro rfl
    by_cases hm : ∃ v, ("origin", v) ∈ b
    · obtain ⟨v, hv⟩ := hm
      exact Or.inl ⟨v, hv, hx.origin v hv⟩
    · push Not at hm
      exact Or.inr ⟨hm, hx.noOrigin hm⟩

/-- The selection of elements by a stored volume is that of the block it was read from. -/
theorem covers_iff {cv : NodeConv V ℝ} {b : Block V} (hb : b.Sorted) {x : VolFill ℝ}
    (hx : VolIs cv b x) (ht : ∃ t, ("type", t) ∈ b) (objectIds : ℕ → ℤ) (voxel : ℕ → Bool)
    (c : Fin 3 → ℝ) (e : ℕ) :
    regionCovers objectIds voxel x c e = true ↔ Inside cv objectIds voxel b c e := by
  obtain ⟨t, ht⟩ := ht
  have huniq : ∀ t', ("type", t') ∈ b → t' = t := fun t' h => mem_block_unique hb.nodup h ht
  have ho : (fun d : Fin 3 => if d = 0 then x.origin.1 else if d = 1 then x.origin.2.1
      else x.origin.2.2) = ![x.origin.1, x.origin.2.1, x.origin.2.2] := by
    funext d; fin_cases d <;> simp
  have hnum : ∀ {w y}, FieldIs b w cv.real 0 y → numAt cv b w 0 = y :=
    fun h => (fieldIs_lookup h).symm
  by_cases hm : ∃ tag, (cv.str t, tag) ∈ volumeTable
  swap
  · push Not at hm
    have hv := hx.noType t ht hm
    have hf : ¬ Inside cv objectIds voxel b c e := by
      simp only [volumeTable, List.mem_cons, Prod.mk.injEq, List.not_mem_nil, or_false, not_or,
        not_and] at hm
      rintro (⟨t', h1, h2⟩ | ⟨t', h1, h2⟩ | ⟨t', o, h1, h2⟩ | ⟨t', o, h1, h2⟩ | ⟨t', h1, h2⟩ |
        ⟨t', h1, h2⟩) <;> rw [huniq t' h1] at h2
      · exact (hm .global).1 h2 rfl
      · exact (hm .box).2.1 h2 rfl
      · exact (hm .sphere).2.2.1 h2 rfl
      · exact (hm .cylinder).2.2.2.1 h2 rfl
      · exact (hm .voxelFile).2.2.2.2.1 h2 rfl
      · exact (hm .vtuFile).2.2.2.2.2 h2 rfl
    simp [regionCovers, hv, VolFill.shape, fillShape, hf]
  obtain ⟨tag, htag⟩ := hm
  have hv := hx.type t ht tag htag
  simp only [volumeTable, List.mem_cons, Prod.mk.injEq, List.not_mem_nil, or_false] at htag
  rcases htag with ⟨hs, rfl⟩ | ⟨hs, rfl⟩ | ⟨hs, rfl⟩ | ⟨hs, rfl⟩ | ⟨hs, rfl⟩ | ⟨hs, rfl⟩
  · simp only [regionCovers, hv, VolFill.shape, fillShape, decide_true, true_iff]
    exact .global t ht hs
  · simp only [regionCovers, hv, VolFill.shape, fillShape, decide_eq_true_eq, ge_iff_le]
    constructor
    · rintro ⟨h1, h2, h3, h4, h5, h6⟩
      refine .box t ht hs ?_ ?_ ?_
      · rw [hnum hx.x1, hnum hx.x2]; exact ⟨h1, h2⟩
      · rw [hnum hx.y1, hnum hx.y2]; exact ⟨h3, h4⟩
      · rw [hnum hx.z1, hnum hx.z2]; exact ⟨h5, h6⟩
    · rintro (⟨t', h1, h2⟩ | ⟨t', h1, h2, h3, h4, h5⟩ | ⟨t', o, h1, h2⟩ | ⟨t', o, h1, h2⟩ |
        ⟨t', h1, h2⟩ | ⟨t', h1, h2⟩)
      pick_goal 2
      · rw [hnum hx.x1, hnum hx.x2] at h3
        rw [hnum hx.y1, hnum hx.y2] at h4
        rw [hnum hx.z1, hnum hx.z2] at h5
        exact ⟨h3.1, h3.2, h4.1, h4.2, h5.1, h5.2⟩
      all_goals rw [huniq t' h1, hs] at h2; simp at h2
  · have hsh : x.shape = .sphere ![x.origin.1, x.origin.2.1, x.origin.2.2] x.radius1 x.radius2 := by
      simp only [VolFill.shape, hv, ho]
    simp only [regionCovers, hv, decide_eq_true_eq, hsh]
    rw [C36_sphere]
    constructor
    · intro h
      refine .sphere t x.origin ht hs ((originIs_iff hb hx _).mpr rfl) ?_
      rw [hnum hx.radius1, hnum hx.radius2]; exact h
    · rintro (⟨t', h1, h2⟩ | ⟨t', h1, h2, h3, h4, h5⟩ | ⟨t', o, h1, h2, h3, h4⟩ | ⟨t', o, h1, h2⟩ |
        ⟨t', h1, h2⟩ | ⟨t', h1, h2⟩)
      pick_goal 3
      · rw [hnum hx.radius1, hnum hx.radius2] at h4
        rw [(originIs_iff hb hx _).mp h3] at h4
        exact h4
      all_goals rw [huniq t' h1, hs] at h2; simp at h2
  · have hsh : x.shape = .cylinder ![x.origin.1, x.origin.2.1, x.origin.2.2] x.radius1 x.radius2
        x.z1 x.z2 := by
      simp only [VolFill.shape, hv, ho]
    simp only [regionCovers, hv, decide_eq_true_eq, hsh]
    rw [C36_cylinder]
    constructor
    · rintro ⟨h, h'⟩
      refine .cylinder t x.origin ht hs ((originIs_iff hb hx _).mpr rfl) ?_ ?_
      · rw [hnum hx.radius1, hnum hx.radius2]; exact h
      · rw [hnum hx.z1, hnum hx.z2]; exact h'
    · rintro (⟨t', h1, h2⟩ | ⟨t', h1, h2, h3, h4, h5⟩ | ⟨t', o, h1, h2, h3, h4⟩ |
        ⟨t', o, h1, h2, h3, h4, h5⟩ | ⟨t', h1, h2⟩ | ⟨t', h1, h2⟩)
      pick_goal 4
      · rw [hnum hx.radius1, hnum hx.radius2] at h4
        rw [(originIs_iff hb hx _).mp h3] at h4
        rw [hnum hx.z1, hnum hx.z2] at h5
        exact ⟨h4, h5⟩
      all_goals rw [huniq t' h1, hs] at h2; simp at h2
  · simp only [regionCovers, hv]
    constructor
    · exact fun h => .voxel t ht hs h
    · rintro (⟨t', h1, h2⟩ | ⟨t', h1, h2, h3, h4, h5⟩ | ⟨t', o, h1, h2, h3, h4⟩ |
        ⟨t', o, h1, h2, h3, h4, h5⟩ | ⟨t', h1, h2, h3⟩ | ⟨t', h1, h2⟩)
      pick_goal 5
      · exact h3
      all_goals rw [huniq t' h1, hs] at h2; simp at h2
  · simp only [regionCovers, hv, decide_eq_true_eq]
    have hp : x.partId = ((b.lookup "part_id").map cv.int).getD 1 := fieldIs_lookup hx.part
    constructor
    · exact fun h => .part t ht hs (h.trans hp)
    · rintro (⟨t', h1, h2⟩ | ⟨t', h1, h2, h3, h4, h5⟩ | ⟨t', o, h1, h2, h3, h4⟩ |
        ⟨t', o, h1, h2, h3, h4, h5⟩ | ⟨t', h1, h2, h3⟩ | ⟨t', h1, h2, h3⟩)
      pick_goal 6
      · exact h3.trans hp.symm
      all_goals rw [huniq t' h1, hs] at h2; simp at h2

/-- The volume fraction of a stored region is the one of its block. -/
theorem fraction_iff {cv : NodeConv V ℝ} {b : Block V} {p : RegSlot ℝ} {n : ℕ}
    (hp : RegionIs cv b p) (hok : RegionOk cv n b)
    (hnv : p.volfrac.field ≠ .tgVortex) (c : Fin 3 → ℝ) :
    FractionIs cv b c ((regionScalar c p.volfrac).getD 0) := by
  by_cases hm : ∃ v, ("volume_fraction", v) ∈ b
  swap
  · push Not at hm
    rw [hp.volfrac.2 hm]
    exact .default hm
  obtain ⟨v, hv⟩ := hm
  have hx := hp.volfrac.1 v hv
  obtain ⟨t, ht⟩ := (hok.scalar "volume_fraction" true v (by simp [scalarWords]) hv).hasType
  have hval : numAt cv (cv.block v) "value" 1 = p.volfrac.value := (fieldIs_lookup hx.value).symm
  have hslo : numAt cv (cv.block v) "slope" 0 = p.volfrac.slope := (fieldIs_lookup hx.slope).symm
  have htab := hx.type t ht
  simp only [scalarTable, List.mem_cons, Prod.mk.injEq, List.not_mem_nil, or_false] at htab
  rcases htab with ⟨hs, hf⟩ | ⟨hs, hf⟩ | ⟨hs, hf⟩ | ⟨hs, hf⟩ | ⟨hs, hf⟩ | ⟨hs, hf⟩ | ⟨hs, hf⟩
  · have := FractionIs.uniform (c := c) v t hv ht hs
    simpa only [regionScalar, hf, Option.getD_some, hval] using this
  · have := FractionIs.radial (c := c) v t hv ht hs
    simpa only [regionScalar, hf, Option.getD_some, hval, hslo, sq, zero_add] using this
  · have := FractionIs.spherical (c := c) v t hv ht hs
    simpa only [regionScalar, hf, Option.getD_some, hval, hslo, sq, zero_add] using this
  · have := FractionIs.x (c := c) v t hv ht hs
    simpa only [regionScalar, hf, Option.getD_some, hval, hslo] using this
  · have := FractionIs.y (c := c) v t hv ht hs
    simpa only [regionScalar, hf, Option.getD_some, hval, hslo] using this
  · have := FractionIs.z (c := c) v t hv ht hs
    simpa only [regionScalar, hf, Option.getD_some, hval, hslo] using this
  · exact absurd hf hnv

/-- No region asks for the field `tg_vortex` as its volume fraction. -/
def NoVortexFraction (cv : NodeConv V ℝ) (bs : List (Block V)) : Prop :=
  ∀ b ∈ bs, ∀ v, ("volume_fraction", v) ∈ b → ∀ t, ("type", t) ∈ cv.block v →
    cv.str t ≠ "tg_vortex"

theorem forall₂_region {cv : NodeConv V ℝ} {bs : List (Block V)} {ps : List (RegSlot ℝ)}
    (h : List.Forall₂ (RegionIs cv) bs ps) {p : RegSlot ℝ} (hp : p ∈ ps) :
    ∃ b ∈ bs, RegionIs cv b p := by
  induction h with
  | nil => cases hp
  | cons h1 _ ih =>
    rcases List.mem_cons.mp hp with rfl | hp
    · exact ⟨_, List.mem_cons_self, h1⟩
    · obtain ⟨b, hb, hr⟩ := ih hp
      exact ⟨b, List.mem_cons_of_mem _ hb, hr⟩

theorem volfrac_set {cv : NodeConv V ℝ} {b : Block V} {p : RegSlot ℝ} {n : ℕ}
    (hp : RegionIs cv b p) (hok : RegionOk cv n b) :
    (p.volfrac.field ≠ .tgVortex ∧ p.volfrac.field ≠ .noICs) ↔
      ∀ v, ("volume_fraction", v) ∈ b → ∀ t, ("type", t) ∈ cv.block v → cv.str t ≠ "tg_vortex" := by
  by_cases hm : ∃ v, ("volume_fraction", v) ∈ b
  swap
  · push Not at hm
    rw [hp.volfrac.2 hm]
    simp [hm]
  obtain ⟨v, hv⟩ := hm
  have hx := hp.volfrac.1 v hv
  constructor
  · rintro ⟨h1, -⟩ v' hv' t' ht' hs
    have := (hp.volfrac.1 v' hv').type t' ht'
    rw [hs] at this
    simp [scalarTable] at this
    exact h1 this
  · intro h
    obtain ⟨t, ht⟩ := (hok.scalar "volume_fraction" true v (by simp [scalarWords]) hv).hasType
    have hne := h v hv t ht
    have := hx.type t ht
    simp only [scalarTable, List.mem_cons, Prod.mk.injEq, List.not_mem_nil, or_false] at this
    rcases this with ⟨hs, hf⟩ | ⟨hs, hf⟩ | ⟨hs, hf⟩ | ⟨hs, hf⟩ | ⟨hs, hf⟩ | ⟨hs, hf⟩ | ⟨hs, hf⟩
    all_goals first
      | exact absurd hs hne
      | (rw [hf]; simp)

section
variable (cv : NodeConv V ℝ) (n : ℕ) (bs : List (Block V)) (g : RegGlob) (ps : List (RegSlot ℝ))
  (hs : ∀ v, (cv.block v).Sorted) (hb : ∀ b ∈ bs, b.Sorted)
  (h : parseRegions cv n bs = .ok (g, ps)) (objectIds : ℕ → ℤ) (voxel : ℕ → ℕ → Bool)
  (centre : ℕ → Fin 3 → ℝ)

include hs hb h

/-- **C114** The filling of the elements is determined by the deck exactly if no region asks for a
volume fraction of the type `tg_vortex`. -/
theorem C114_defined_iff : (∃ fills, deckFills objectIds voxel centre ps = some fills) ↔
    NoVortexFraction cv bs := by
  have hf := C113_own_block cv n bs g ps hs hb h
  have hok := ((C113_accepts_iff cv n bs hs hb).mp ⟨_, h⟩).1
  have key : (∀ p ∈ ps, p.volfrac.field ≠ .tgVortex ∧ p.volfrac.field ≠ .noICs) ↔
      NoVortexFraction cv bs := by
    constructor
    · intro hall b hbm
      obtain ⟨k, hk⟩ := List.mem_iff_getElem?.mp hbm
      obtain ⟨p, hp, hr⟩ := regionIs_at hf hk
      exact (volfrac_set hr (hok b hbm)).mp (hall p (List.mem_of_getElem? hp))
    · intro hno p hp
      obtain ⟨b, hbm, hr⟩ := forall₂_region hf hp
      exact (volfrac_set hr (hok b hbm)).mpr (hno b hbm)
  rw [← key]
  unfold deckFills
  split_ifs with hc
  · exact iff_of_true ⟨_, rfl⟩ hc
  · exact iff_of_false (by simp) hc

/-- **C114** There is one fill instruction for each region of the deck, in its order and whatever its
solver: it selects the elements inside the volume of the region, and gives them its material and its
volume fraction. -/
theorem C114_instructions (fills : List (FillData ℝ))
    (hfill : deckFills objectIds voxel centre ps = some fills) :
    fills.length = bs.length ∧ ∀ k f b, fills[k]? = some f → bs[k]? = some b →
      (∀ e, f.covers e = true ↔ RegionInside cv objectIds (voxel k) b (centre e) e) ∧
      (∀ e, FractionIs cv b (centre e) (f.vfrac e)) ∧
      ∀ v, ("material_id", v) ∈ b → 0 ≤ cv.int v → cv.int v < 2 ^ 64 →
        (f.materialId : ℤ) = cv.int v := by
  have hf := C113_own_block cv n bs g ps hs hb h
  have hok := ((C113_accepts_iff cv n bs hs hb).mp ⟨_, h⟩).1
  unfold deckFills at hfill
  split_ifs at hfill with hc
  cases hfill
  refine ⟨by rw [List.length_map, List.length_zipIdx, hf.length_eq], fun k f b hk hbk => ?_⟩
  obtain ⟨p, hp, hr⟩ := regionIs_at hf hbk
  have hbm := List.mem_of_getElem? hbk
  rw [List.getElem?_map, List.getElem?_zipIdx, hp] at hk
  simp only [Option.map_some, zero_add, Option.some.injEq] at hk
  subst hk
  refine ⟨fun e => ?_, fun e => ?_, fun v hv h0 h1 => ?_⟩
  · obtain ⟨vv, hvv⟩ := (hok b hbm).hasVolume
    dsimp only
    rw [covers_iff (hs vv) (hr.volume vv hvv) ((hok b hbm).volume vv hvv).hasType]
    constructor
    · exact fun hi => ⟨vv, hvv, hi⟩
    · rintro ⟨v, hv, hi⟩
      rwa [mem_block_unique (hb b hbm).nodup hv hvv] at hi
  · exact fraction_iff hr (hok b hbm) (hc p (List.mem_of_getElem? hp)).1 _
  · dsimp only
    rw [hr.material v hv, sizeOfInt, Int.emod_eq_of_lt h0 h1, Int.toNat_of_nonneg h0]

/-- **C114** In a deck without volume fractions an element gets the material of the last region of the
deck that it lies in, alone and with the whole of its volume, in every case without an abort. -/
theorem C114_last_region (hno : ∀ b ∈ bs, ∀ v, ("volume_fraction", v) ∉ b) (maxMats : ℕ)
    (hm : 0 < maxMats) (e k : ℕ) (b : Block V) (hk : bs[k]? = some b)
    (hin : RegionInside cv objectIds (voxel k) b (centre e) e)
    (hlast : ∀ j b', k < j → bs[j]? = some b' →
      ¬ RegionInside cv objectIds (voxel j) b' (centre e) e) :
    ∃ fills s, deckFills objectIds voxel centre ps = some fills ∧
      fillElem fills maxMats e = .ok s ∧ s.num = 1 ∧ s.fillIds 0 = some k ∧ s.volfrac 0 = some 1 ∧
      s.geo 0 = some 1 ∧ ∀ v, ("material_id", v) ∈ b → 0 ≤ cv.int v → cv.int v < 2 ^ 64 →
        matsOf fills s = [some (cv.int v).toNat] := by
  obtain ⟨fills, hfill⟩ := (C114_defined_iff cv n bs g ps hs hb h objectIds voxel centre).mpr
    (fun b hbm v hv => absurd hv (hno b hbm v))
  obtain ⟨hlen, hinst⟩ := C114_instructions cv n bs g ps hs hb h objectIds voxel centre fills hfill
  have hbl : ∀ {j}, j < fills.length → ∃ b', bs[j]? = some b' := fun {j} hj =>
    ⟨bs[j]'(by omega), List.getElem?_eq_getElem _⟩
  have hone : ∀ {j : ℕ} {f : FillData ℝ} {b' : Block V}, fills[j]? = some f → bs[j]? = some b' → ∀ e, f.vfrac e = 1 := by
    intro j f b' hf hb' e
    have := (hinst j f b' hf hb').2.1 e
    have hn := hno b' (List.mem_of_getElem? hb')
    generalize f.vfrac e = y at this
    cases this with
    | default => rfl
    | _ v t hv => exact absurd hv (hn v)
  have hnp : ∀ i, ¬ FillsPartly fills e i := by
    rintro i ⟨f, hf, -, hv⟩
    obtain ⟨b', hb'⟩ := hbl (List.getElem?_eq_some_iff.mp hf).1
    rw [hone hf hb' e] at hv
    norm_num at hv
  have hkl : k < fills.length := by rw [hlen]; exact (List.getElem?_eq_some_iff.mp hk).1
  have hfk : fills[k]? = some fills[k] := List.getElem?_eq_getElem hkl
  have hfull : FillsFully fills e k := by
    refine ⟨_, hfk, ((hinst k _ b hfk hk).1 e).mpr hin, ?_⟩
    rw [hone hfk hk e]; norm_num
  have hl : ∀ i f, k < i → fills[i]? = some f → f.covers e = false := by
    intro i f hi hf
    obtain ⟨b', hb'⟩ := hbl (List.getElem?_eq_some_iff.mp hf).1
    rw [← Bool.not_eq_true, (hinst i f b' hf hb').1 e]
    exact hlast i b' hi hb'
  cases hres : fillElem fills maxMats e with
  | error err =>
    cases err with
    | outOfBounds => exact absurd hres (C18_in_bounds fills maxMats e hm)
    | tooManyMaterials =>
      obtain ⟨i, -, hp, -⟩ := (C18_abort_iff fills maxMats e hm
        (fun i _ hp => absurd hp (hnp i))).mp hres
      exact absurd hp (hnp i)
  | ok s =>
    obtain ⟨h1, h2, h3, h4⟩ := C17_full_fill_overwrites fills maxMats e s hres k hfull hl
    refine ⟨fills, s, hfill, hres, h1, h2, h3, h4, fun v hv h0 h5 => ?_⟩
    have hmat := (hinst k _ b hfk hk).2.2 v hv h0 h5
    have : fills[k].materialId = (cv.int v).toNat := by omega
    simp [matsOf, h1, h2, hkl, this]

/-- **C114** An element that lies in no region of the deck gets no material at all. -/
theorem C114_uncovered (fills : List (FillData ℝ))
    (hfill : deckFills objectIds voxel centre ps = some fills) (maxMats e : ℕ)
    (hout : ∀ j b, bs[j]? = some b → ¬ RegionInside cv objectIds (voxel j) b (centre e) e) :
    fillElem fills maxMats e = .ok ElemFill.init ∧ matsOf fills (ElemFill.init (K := ℝ)) = [] := by
  obtain ⟨hlen, hinst⟩ := C114_instructions cv n bs g ps hs hb h objectIds voxel centre fills hfill
  refine ⟨C17_unselected fills maxMats e fun f hf => ?_, rfl⟩
  obtain ⟨j, hj⟩ := List.mem_iff_getElem?.mp hf
  have hjl := (List.getElem?_eq_some_iff.mp hj).1
  have hbj : bs[j]? = some (bs[j]'(by omega)) := List.getElem?_eq_getElem _
  rw [← Bool.not_eq_true, (hinst j f _ hj hbj).1 e]
  exact hout j _ hbj

end

/-! ## Examples and what fails -/

theorem exReg_all (objectIds : ℕ → ℤ) (voxel : ℕ → Bool) (c : Fin 3 → ℝ) (e : ℕ) :
    RegionInside (exRegConv ℝ) objectIds voxel exRegDeck[0] c e :=
  ⟨"all", by simp [exRegDeck], .global "global" (by simp [exRegConv]) (by simp [exRegConv])⟩

theorem exReg_bal (objectIds : ℕ → ℤ) (voxel : ℕ → Bool) (c : Fin 3 → ℝ) (e : ℕ) :
    ¬ RegionInside (exRegConv ℝ) objectIds voxel exRegDeck[1] c e := by
  rintro ⟨v, hv, hi⟩
  simp [exRegDeck] at hv
  subst hv
  rcases hi with ⟨t, h1, h2⟩ | ⟨t, h1, h2⟩ | ⟨t, o, h1, h2⟩ | ⟨t, o, h1, h2⟩ | ⟨t, h1, h2⟩ |
    ⟨t, h1, h2⟩ <;>
    simp [exRegConv] at h1 h2 <;> subst h1 <;> simp at h2

/-- An element near the origin is inside the ball, the third region. -/
theorem exReg_ball (objectIds : ℕ → ℤ) (voxel : ℕ → Bool) (c : Fin 3 → ℝ) (e : ℕ) :
    RegionInside (exRegConv ℝ) objectIds voxel exRegDeck[2] c e ↔ dist (pt3 c) (pt3 0) ≤ 2 := by
  have ho : ![(0 : ℝ), 0, 0] = 0 := by funext d; fin_cases d <;> simp
  have h1 : numAt (exRegConv ℝ) ((exRegConv ℝ).block "ball") "radius1" 0 = 0 := by
    simp [numAt, exRegConv, List.lookup]
  have h2 : numAt (exRegConv ℝ) ((exRegConv ℝ).block "ball") "radius2" 0 = 2 := by
    simp [numAt, exRegConv, List.lookup]
  constructor
  · rintro ⟨v, hv, hi⟩
    simp [exRegDeck] at hv
    subst hv
    rcases hi with ⟨t, e1, e2⟩ | ⟨t, e1, e2⟩ | ⟨t, o, e1, e2, e3, e4⟩ | ⟨t, o, e1, e2⟩ |
      ⟨t, e1, e2⟩ | ⟨t, e1, e2⟩
    pick_goal 3
    · rcases e3 with ⟨v, hv, -⟩ | ⟨-, rfl⟩
      · simp [exRegConv] at hv
      · dsimp only at e4
        rw [ho, h2] at e4
        exact e4.2
    all_goals simp [exRegConv] at e1 e2; subst e1; simp at e2
  · intro hd
    refine ⟨"ball", by simp [exRegDeck], .sphere "sphere" (0, 0, 0) (by simp [exRegConv])
      (by simp [exRegConv]) (Or.inr ⟨by simp [exRegConv], rfl⟩) ?_⟩
    dsimp only
    rw [ho, h1, h2]
    exact ⟨dist_nonneg, hd⟩

theorem exReg_noFraction : ∀ b ∈ exRegDeck, ∀ v, ("volume_fraction", v) ∉ b := by
  intro b hb v
  simp only [exRegDeck, List.mem_cons, List.not_mem_nil, or_false] at hb
  rcases hb with rfl | rfl | rfl <;> simp

/-- The elements of the example deck near the origin hold the ball alone. -/
example (objectIds : ℕ → ℤ) (voxel : ℕ → ℕ → Bool) (centre : ℕ → Fin 3 → ℝ) (e : ℕ)
    (he : dist (pt3 (centre e)) (pt3 0) ≤ 2) :
    ∃ g ps fills s, parseRegions (exRegConv ℝ) 1 exRegDeck = .ok (g, ps) ∧
      deckFills objectIds voxel centre ps = some fills ∧ fillElem fills 3 e = .ok s ∧
      matsOf fills s = [some 1] := by
  obtain ⟨g, ps, h⟩ := exRegDeck_ok ℝ
  obtain ⟨fills, s, h1, h2, -, -, -, -, h3⟩ := C114_last_region (exRegConv ℝ) 1 exRegDeck g ps
    (exReg_blocks ℝ) exRegDeck_sorted h objectIds voxel centre exReg_noFraction 3 (by simp) e 2
    exRegDeck[2] rfl ((exReg_ball _ _ _ _).mpr he) (by
      intro j b' hj hb'
      have := (List.getElem?_eq_some_iff.mp hb').1
      simp [exRegDeck] at this
      omega)
  refine ⟨g, ps, fills, s, h, h1, h2, ?_⟩
  rw [h3 "1" (by simp [exRegDeck]) (by simp [exRegConv]) (by simp [exRegConv])]
  simp [exRegConv]

/-- **C114 (what fails).** A region whose volume type is misspelt fills no element, wherever it is. -/
theorem C114_misspelt_volume_fails (objectIds : ℕ → ℤ) (voxel : ℕ → Bool) (c : Fin 3 → ℝ)
    (e : ℕ) : (∃ g ps, parseRegions (exRegConv ℝ) 1 exRegDeck = .ok (g, ps)) ∧
    ¬ RegionInside (exRegConv ℝ) objectIds voxel exRegDeck[1] c e :=
  ⟨exRegDeck_ok ℝ, exReg_bal _ _ _ _⟩

/-- A deck with two solvers whose second region names the second solver, and one with a volume
fraction with an origin. -/
def exRegDeck2 : List (Block String) :=
  [[("density", "zero"), ("material_id", "0"), ("solver_id", "0"), ("volume", "all")],
   [("density", "zero"), ("material_id", "1"), ("solver_id", "1"), ("volume", "all")]]

/-- **C114 (what fails).** The solver of a region plays no role: with two solvers, a region that names solver 1
and is not in the list of solver 0 replaces the material that the region of solver 0 gave to an
element; the lists of the regions of the solvers are never read. -/
theorem C114_solver_fails (objectIds : ℕ → ℤ) (voxel : ℕ → ℕ → Bool) (centre : ℕ → Fin 3 → ℝ)
    (e : ℕ) : ∃ g ps fills s, parseRegions (exRegConv ℝ) 2 exRegDeck2 = .ok (g, ps) ∧
      g.fills 0 = [0] ∧ deckFills objectIds voxel centre ps = some fills ∧
      fillElem fills 3 e = .ok s ∧ matsOf fills s = [some 1] := by
  have hso : ∀ b ∈ exRegDeck2, b.Sorted := by
    intro b hb
    simp only [exRegDeck2, List.mem_cons, List.not_mem_nil, or_false] at hb
    rcases hb with rfl | rfl <;> unfold Block.Sorted Block.keys <;> decide
  obtain ⟨g, ps, h, hg⟩ : ∃ g ps, parseRegions (exRegConv ℝ) 2 exRegDeck2 = .ok (g, ps) ∧
      g.fills 0 = [0] := ⟨_, _, rfl, rfl⟩
  obtain ⟨fills, s, h1, h2, -, -, -, -, h3⟩ := C114_last_region (exRegConv ℝ) 2 exRegDeck2 g ps
    (exReg_blocks ℝ) hso h objectIds voxel centre (by
      intro b hb v
      simp only [exRegDeck2, List.mem_cons, List.not_mem_nil, or_false] at hb
      rcases hb with rfl | rfl <;> simp) 3 (by simp) e 1
    exRegDeck2[1] rfl ⟨"all", by simp [exRegDeck2], .global "global" (by simp [exRegConv])
      (by simp [exRegConv])⟩ (by
      intro j b' hj hb'
      have := (List.getElem?_eq_some_iff.mp hb').1
      simp [exRegDeck2] at this
      omega)
  refine ⟨g, ps, fills, s, h, hg, h1, h2, ?_⟩
  rw [h3 "1" (by simp [exRegDeck2]) (by simp [exRegConv]) (by simp [exRegConv])]
  simp [exRegConv]

/-- **C114 (what fails).** The volume fraction `tg_vortex` is accepted, but it is a variable that is never
set. -/
theorem C114_vortex_fails (objectIds : ℕ → ℤ) (voxel : ℕ → ℕ → Bool) (centre : ℕ → Fin 3 → ℝ) :
    ∃ g ps, parseRegions (exRegConv ℝ) 1
        [[("density", "zero"), ("material_id", "0"), ("volume", "all"),
          ("volume_fraction", "vortex")]] = .ok (g, ps) ∧
      deckFills objectIds voxel centre ps = none := by
  refine ⟨_, _, rfl, ?_⟩
  unfold deckFills
  rw [if_neg]
  intro hc
  exact (hc _ List.mem_cons_self).1 rfl

/-- **C114 (what fails).** The origin of a spherical volume fraction is accepted and stored, but not used: with
the origin (1, 1, 1) an element centred there gets the distance to (0, 0, 0) and not 0. -/
theorem C114_origin_fails (objectIds : ℕ → ℤ) (voxel : ℕ → ℕ → Bool) (centre : ℕ → Fin 3 → ℝ)
    (e : ℕ) (hc : centre e = ![1, 1, 1]) :
    ∃ g ps p fills f, parseRegions (exRegConv ℝ) 1
        [[("density", "zero"), ("material_id", "0"), ("volume", "all"),
          ("volume_fraction", "moved")]] = .ok (g, ps) ∧ ps[0]? = some p ∧
      p.volfrac.origin = (1, 1, 1) ∧ deckFills objectIds voxel centre ps = some fills ∧
      fills[0]? = some f ∧ f.vfrac e = Real.sqrt 3 := by
  refine ⟨_, _, _, _, _, rfl, rfl, rfl, if_pos ?_, rfl, ?_⟩
  · intro p hp
    rw [List.mem_singleton] at hp
    subst hp
    exact ⟨by decide, by decide⟩
  · show (1 : ℝ) * Real.sqrt (0 + centre e 0 * centre e 0 + centre e 1 * centre e 1 +
      centre e 2 * centre e 2 - 0) = _
    have h2 : (![1, 1, 1] : Fin 3 → ℝ) 2 = 1 := rfl
    rw [hc, h2]
    norm_num

end Fierro
