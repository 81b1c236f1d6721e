import Verif.Model.ParseRegions
import Verif.Proofs.EachWord
import Verif.Props.ParseBcs
import Verif.Props.ParseMaterials
import Verif.Props.InputDeck
import Mathlib.Tactic.Tauto

/-!
# C113: the regions of an input deck

Which regions are accepted, what is stored for each of them, which regions a solver gets, and which
fields are filled.
-/

namespace Fierro

variable {V : Type*} {K : Type} [Field K]

/-! ## Specification -/

/-- The initial fields of a scalar, by name. -/
def scalarTable : List (String × ScalarField) :=
  [("uniform", .uniform), ("radial", .radial), ("spherical", .spherical), ("x_linear", .xlinear),
   ("y_linear", .ylinear), ("z_linear", .zlinear), ("tg_vortex", .tgVortex)]

/-- The initial fields of a scalar other than the volume fraction and the level set, by name. -/
def plainTable : List (String × ScalarField) := [("uniform", .uniform), ("tg_vortex", .tgVortex)]

/-- The initial fields of the velocity, by name. -/
def vectorTable : List (String × VectorField) :=
  [("static", .stationary), ("cartesian", .cartesian), ("radial", .radial),
   ("spherical", .spherical), ("radial_linear", .radialLinear),
   ("spherical_linear", .sphericalLinear), ("tg_vortex", .tgVortex)]

/-- The volumes, by name. -/
def volumeTable : List (String × VolTag) :=
  [("global", .global), ("box", .box), ("sphere", .sphere), ("cylinder", .cylinder),
   ("voxel_file", .voxelFile), ("vtu_file", .vtuFile)]

/-- A block below a scalar that can be read; `general` is true of the volume fraction and the level
set. -/
structure ScalarOk (cv : NodeConv V K) (general : Bool) (b : Block V) : Prop where
  words : ∀ w v, (w, v) ∈ b →
    w ∈ (if general then ["type", "value", "slope", "origin"] else ["type", "value"])
  hasType : ∃ v, ("type", v) ∈ b
  type : ∀ v, ("type", v) ∈ b → ∃ f, (cv.str v, f) ∈ if general then scalarTable else plainTable
  origin : ∀ v, ("origin", v) ∈ b → ∃ o, OriginText cv (cv.str v).toList o

/-- A block below `velocity` that can be read. -/
structure VelOk (cv : NodeConv V K) (b : Block V) : Prop where
  words : ∀ w v, (w, v) ∈ b → w ∈ ["type", "u", "v", "w", "speed"]
  hasType : ∃ v, ("type", v) ∈ b
  type : ∀ v, ("type", v) ∈ b → ∃ f, (cv.str v, f) ∈ vectorTable

/-- The words below `volume`. -/
def volWords : List String :=
  ["type", "file_path", "x1", "x2", "y1", "y2", "z1", "z2", "radius1", "radius2", "scale_x",
   "scale_y", "scale_z", "origin", "part_id"]

/-- A block below `volume` that can be read: a path is given for voxel files and for nothing else. -/
structure VolOk (cv : NodeConv V K) (b : Block V) : Prop where
  words : ∀ w v, (w, v) ∈ b → w ∈ volWords
  hasType : ∃ v, ("type", v) ∈ b
  origin : ∀ v, ("origin", v) ∈ b → ∃ o, OriginText cv (cv.str v).toList o
  path : ∀ v, ("type", v) ∈ b →
    (cv.str v = "voxel_file" ↔ ∃ u, ("file_path", u) ∈ b ∧ cv.str u ≠ "")

/-- The words of a region that name a field at the Gauss points. -/
def gaussTable : List (String × RegGauss) :=
  [("density", .density), ("specific_internal_energy", .sie), ("internal_energy", .ie),
   ("specific_heat", .specificHeat), ("thermal_conductivity", .conductivity),
   ("level_set", .levelSet)]

/-- The words of a region that name a field at the nodes. -/
def nodeTable : List (String × RegNode) := [("temperature", .temperature), ("velocity", .velocity)]

/-- The words of a region with a scalar below them. -/
def scalarWords : List (String × Bool) :=
  [("density", false), ("specific_internal_energy", false), ("internal_energy", false),
   ("specific_heat", false), ("thermal_conductivity", false), ("temperature", false),
   ("volume_fraction", true), ("level_set", true)]

/-- A region that can be read, in a deck with `n` solvers. -/
structure RegionOk (cv : NodeConv V K) (n : ℕ) (b : Block V) : Prop where
  words : ∀ w v, (w, v) ∈ b →
    w ∈ ["solver_id", "material_id", "velocity", "volume"] ∨ w ∈ scalarWords.map Prod.fst
  hasMaterial : ∃ v, ("material_id", v) ∈ b
  hasVolume : ∃ v, ("volume", v) ∈ b
  solver : ∀ v, ("solver_id", v) ∈ b → 0 ≤ cv.int v ∧ cv.int v < n
  scalar : ∀ w general v, (w, general) ∈ scalarWords → (w, v) ∈ b →
    ScalarOk cv general (cv.block v)
  velocity : ∀ v, ("velocity", v) ∈ b → VelOk cv (cv.block v)
  volume : ∀ v, ("volume", v) ∈ b → VolOk cv (cv.block v)

/-- The scalar `x` is what the block `b` says; the field and the value of `d` stand for what it does
not say. -/
structure ScalarIs (cv : NodeConv V K) (b : Block V) (d x : ScalarFill K) : Prop where
  type : ∀ v, ("type", v) ∈ b → (cv.str v, x.field) ∈ scalarTable
  value : FieldIs b "value" cv.real d.value x.value
  slope : FieldIs b "slope" cv.real d.slope x.slope
  origin : ∀ v, ("origin", v) ∈ b → OriginText cv (cv.str v).toList x.origin
  noOrigin : (∀ v, ("origin", v) ∉ b) → x.origin = d.origin

/-- The velocity `x` is what the block `b` says. -/
structure VelIs (cv : NodeConv V K) (b : Block V) (x : VelFill K) : Prop where
  type : ∀ v, ("type", v) ∈ b → (cv.str v, x.field) ∈ vectorTable
  u : FieldIs b "u" cv.real 0 x.u
  v : FieldIs b "v" cv.real 0 x.v
  w : FieldIs b "w" cv.real 0 x.w
  speed : FieldIs b "speed" cv.real 0 x.speed

/-- The volume `x` is what the block `b` says. -/
structure VolIs (cv : NodeConv V K) (b : Block V) (x : VolFill K) : Prop where
  type : ∀ v, ("type", v) ∈ b → ∀ t, (cv.str v, t) ∈ volumeTable → x.volume = t
  noType : ∀ v, ("type", v) ∈ b → (∀ t, (cv.str v, t) ∉ volumeTable) → x.volume = .noVolume
  path : FieldIs b "file_path" cv.str "" x.path
  x1 : FieldIs b "x1" cv.real 0 x.x1
  x2 : FieldIs b "x2" cv.real 0 x.x2
  y1 : FieldIs b "y1" cv.real 0 x.y1
  y2 : FieldIs b "y2" cv.real 0 x.y2
  z1 : FieldIs b "z1" cv.real 0 x.z1
  z2 : FieldIs b "z2" cv.real 0 x.z2
  radius1 : FieldIs b "radius1" cv.real 0 x.radius1
  radius2 : FieldIs b "radius2" cv.real 0 x.radius2
  scaleX : FieldIs b "scale_x" cv.real 1 x.scaleX
  scaleY : FieldIs b "scale_y" cv.real 1 x.scaleY
  scaleZ : FieldIs b "scale_z" cv.real 1 x.scaleZ
  origin : ∀ v, ("origin", v) ∈ b → OriginText cv (cv.str v).toList x.origin
  noOrigin : (∀ v, ("origin", v) ∉ b) → x.origin = (0, 0, 0)
  part : FieldIs b "part_id" cv.int 1 x.partId

/-- The scalar under the word `w` of the region. -/
def FillIs (cv : NodeConv V K) (b : Block V) (w : String) (d x : ScalarFill K) : Prop :=
  (∀ v, (w, v) ∈ b → ScalarIs cv (cv.block v) d x) ∧ ((∀ v, (w, v) ∉ b) → x = d)

/-- The region `p` is what the block `b` says, with the documented defaults for what it does not
say: no initial field, and a volume fraction of one. -/
structure RegionIs (cv : NodeConv V K) (b : Block V) (p : RegSlot K) : Prop where
  material : ∀ v, ("material_id", v) ∈ b → p.materialId = cv.int v
  solver : ∀ v, ("solver_id", v) ∈ b → p.solverId = cv.int v
  volume : ∀ v, ("volume", v) ∈ b → VolIs cv (cv.block v) p.vol
  velocity : ∀ v, ("velocity", v) ∈ b → VelIs cv (cv.block v) p.vel
  noVelocity : (∀ v, ("velocity", v) ∉ b) → p.vel = ⟨.noICs, 0, 0, 0, 0⟩
  density : FillIs cv b "density" ⟨.noICs, 0, 0, 0, 0, 0⟩ p.den
  sie : FillIs cv b "specific_internal_energy" ⟨.noICs, 0, 0, 0, 0, 0⟩ p.sie
  ie : FillIs cv b "internal_energy" ⟨.noICs, 0, 0, 0, 0, 0⟩ p.ie
  heat : FillIs cv b "specific_heat" ⟨.noICs, 0, 0, 0, 0, 0⟩ p.specificHeat
  conductivity : FillIs cv b "thermal_conductivity" ⟨.noICs, 0, 0, 0, 0, 0⟩ p.conductivity
  temperature : FillIs cv b "temperature" ⟨.noICs, 0, 0, 0, 0, 0⟩ p.temperature
  levelSet : FillIs cv b "level_set" ⟨.noICs, 0, 0, 0, 0, 0⟩ p.levelSet
  volfrac : FillIs cv b "volume_fraction" ⟨.uniform, 1, 0, 0, 0, 0⟩ p.volfrac

/-! ## Names -/

theorem scalarIcsMap_iff {s : String} {f : ScalarField} :
    scalarIcsMap s = some f ↔ (s, f) ∈ scalarTable := by
  simp only [scalarTable, List.mem_cons, Prod.mk.injEq, List.not_mem_nil, or_false]
  constructor
  · intro h
    unfold scalarIcsMap at h
    split at h <;> simp at h <;> subst h <;> simp
  · rintro (⟨rfl, rfl⟩ | ⟨rfl, rfl⟩ | ⟨rfl, rfl⟩ | ⟨rfl, rfl⟩ | ⟨rfl, rfl⟩ | ⟨rfl, rfl⟩ |
      ⟨rfl, rfl⟩) <;> rfl

theorem vectorIcsMap_iff {s : String} {f : VectorField} :
    vectorIcsMap s = some f ↔ (s, f) ∈ vectorTable := by
  simp only [vectorTable, List.mem_cons, Prod.mk.injEq, List.not_mem_nil, or_false]
  constructor
  · intro h
    unfold vectorIcsMap at h
    split at h <;> simp at h <;> subst h <;> simp
  · rintro (⟨rfl, rfl⟩ | ⟨rfl, rfl⟩ | ⟨rfl, rfl⟩ | ⟨rfl, rfl⟩ | ⟨rfl, rfl⟩ | ⟨rfl, rfl⟩ |
      ⟨rfl, rfl⟩) <;> rfl

theorem regionTypeMap_iff {s : String} {f : VolTag} :
    regionTypeMap s = some f ↔ (s, f) ∈ volumeTable := by
  simp only [volumeTable, List.mem_cons, Prod.mk.injEq, List.not_mem_nil, or_false]
  constructor
  · intro h
    unfold regionTypeMap at h
    split at h <;> simp at h <;> subst h <;> simp
  · rintro (⟨rfl, rfl⟩ | ⟨rfl, rfl⟩ | ⟨rfl, rfl⟩ | ⟨rfl, rfl⟩ | ⟨rfl, rfl⟩ | ⟨rfl, rfl⟩) <;> rfl

theorem plainTable_iff {s : String} {f : ScalarField} :
    (s, f) ∈ plainTable ↔ (s, f) ∈ scalarTable ∧ (f = .uniform ∨ f = .tgVortex) := by
  simp only [plainTable, scalarTable, List.mem_cons, Prod.mk.injEq, List.not_mem_nil, or_false]
  constructor
  · rintro (⟨rfl, rfl⟩ | ⟨rfl, rfl⟩) <;> simp
  · rintro ⟨h, rfl | rfl⟩ <;> simp at h <;> simp [h]

theorem regOrigin_iff (cv : NodeConv V K) (v : V) (o : K × K × K) :
    regOrigin cv v = .ok o ↔ OriginText cv (cv.str v).toList o := by
  rw [← bcOrigin_iff]
  unfold regOrigin
  rcases bcOrigin cv v with (_ | _) | _ <;> simp

/-! ## The blocks below the words -/

/-- What a word below a scalar does. -/
structure ScalarEffect (cv : NodeConv V K) (w : String) (v : V) (p q : ScalarFill K) : Prop where
  type : (w ≠ "type" → q.field = p.field) ∧ (w = "type" → (cv.str v, q.field) ∈ scalarTable)
  value : (w ≠ "value" → q.value = p.value) ∧ (w = "value" → q.value = cv.real v)
  slope : (w ≠ "slope" → q.slope = p.slope) ∧ (w = "slope" → q.slope = cv.real v)
  origin : (w ≠ "origin" → q.origin = p.origin) ∧
    (w = "origin" → OriginText cv (cv.str v).toList q.origin)

theorem scalarWord_accepts (cv : NodeConv V K) (general : Bool) (p : ScalarFill K) (w : String)
    (v : V) : (∃ q, scalarWord cv general p w v = .ok q) ↔
      (w ∈ (if general then ["type", "value", "slope", "origin"] else ["type", "value"])) ∧
      (w = "type" → ∃ f, (cv.str v, f) ∈ if general then scalarTable else plainTable) ∧
      (w = "origin" → ∃ o, OriginText cv (cv.str v).toList o) := by
  by_cases h1 : w = "value"
  · subst h1; cases general <;> simp [scalarWord]
  by_cases h2 : w = "type"
  · subst h2
    simp only [scalarWord, String.reduceEq, if_false, if_true, false_implies, and_true, true_implies]
    cases hm : scalarIcsMap (cv.str v) with
    | none =>
      have hno : ∀ f, (cv.str v, f) ∉ scalarTable := by
        intro f hf; rw [← scalarIcsMap_iff, hm] at hf; cases hf
      cases general <;> simp [hno, plainTable_iff]
    | some f =>
      have hf := scalarIcsMap_iff.mp hm
      have huniq : ∀ g, (cv.str v, g) ∈ scalarTable ↔ g = f := by
        intro g
        rw [← scalarIcsMap_iff, hm, Option.some.injEq, eq_comm]
      cases general
      · simp only [Bool.false_eq_true, false_or, if_false, plainTable_iff, huniq]
        by_cases hk : f = .uniform ∨ f = .tgVortex
        · simp only [hk, if_true, Except.ok.injEq, exists_eq', List.mem_cons, true_or, true_and,
            true_iff]
          exact ⟨f, rfl, hk⟩
        · simp only [hk, if_false, reduceCtorEq, exists_false, false_iff, List.mem_cons, true_or,
            true_and, not_exists, not_and]
          rintro g rfl; exact hk
      · simp [huniq]
  by_cases h3 : general = true ∧ w = "slope"
  · obtain ⟨rfl, rfl⟩ := h3; simp [scalarWord]
  by_cases h4 : general = true ∧ w = "origin"
  · obtain ⟨rfl, rfl⟩ := h4
    simp only [scalarWord, String.reduceEq, if_false, if_true, and_false, and_true]
    simp only [← regOrigin_iff]
    cases regOrigin cv v <;> simp
  · have hq : scalarWord cv general p w v = .error .throws := by
      simp only [scalarWord, if_neg h1, if_neg h2, if_neg h3, if_neg h4]
    rw [hq]
    simp only [reduceCtorEq, exists_false, false_iff, not_and]
    intro hw
    cases general
    · simp [h1, h2] at hw
    · simp only [true_and] at h3 h4
      simp [h1, h2, h3, h4] at hw

theorem scalarWord_effect {cv : NodeConv V K} {general : Bool} {p q : ScalarFill K} {w : String}
    {v : V} (h : scalarWord cv general p w v = .ok q) : ScalarEffect cv w v p q := by
  unfold scalarWord at h
  split_ifs at h with h1 h2 h3 h4
  · cases h; subst h1; constructor <;> simp
  · subst h2
    cases hm : scalarIcsMap (cv.str v) with
    | none => rw [hm] at h; cases h
    | some f =>
      rw [hm] at h
      dsimp only at h
      split_ifs at h
      cases h
      have := scalarIcsMap_iff.mp hm
      constructor <;> simp [this]
  · cases h; obtain ⟨-, rfl⟩ := h3; constructor <;> simp
  · obtain ⟨-, rfl⟩ := h4
    cases hm : regOrigin cv v with
    | error => rw [hm] at h; cases h
    | ok o =>
      rw [hm] at h; cases h
      have := (regOrigin_iff _ _ _).mp hm
      constructor <;> simp [this]

theorem scalarBlock_accepts (cv : NodeConv V K) (general : Bool) (p : ScalarFill K) (v : V) :
    (∃ q, scalarBlock cv general p v = .ok q) ↔ ScalarOk cv general (cv.block v) := by
  unfold scalarBlock
  by_cases hr : hasRequired ["type"] (cv.block v) = true
  · rw [if_pos hr, eachWord_accepts (scalarWord_accepts cv general)]
    have ht := hasRequired_iff.mp hr "type" (by simp)
    exact ⟨fun h => ⟨fun w u hm => (h w u hm).1, ht, fun u hm => (h _ u hm).2.1 rfl,
      fun u hm => (h _ u hm).2.2 rfl⟩,
      fun h w u hm => ⟨h.words w u hm, fun e => h.type u (e ▸ hm), fun e => h.origin u (e ▸ hm)⟩⟩
  · rw [if_neg hr]
    refine iff_of_false (by simp) fun h => hr (hasRequired_iff.mpr ?_)
    simpa using h.hasType

/-- A field that one word sets and no other. -/
theorem fieldIs_of {P T : Type} {ε : Type} {word : P → String → V → Except ε P} {π : P → T}
    (w₀ : String) (f : V → T) {b : Block V} {p q : P} (hnd : b.keys.Nodup)
    (he : ∀ p w v p', word p w v = .ok p' →
      (w ≠ w₀ → π p' = π p) ∧ (w = w₀ → π p' = f v))
    (h : eachWord word b p = .ok q) : FieldIs b w₀ f (π p) (π q) := by
  obtain ⟨h1, h2⟩ := eachWord_field w₀ f hnd (fun p w v p' _ hw hs => (he p w v p' hs).1 hw)
    (fun p v p' hs => (he p w₀ v p' hs).2 rfl) h
  exact ⟨h1, h2⟩

/-- The same for a word whose effect is a relation. -/
theorem fieldRel_of {P T : Type} {ε : Type} {word : P → String → V → Except ε P} {π : P → T}
    (w₀ : String) (R : V → T → T → Prop) {b : Block V} {p q : P} (hnd : b.keys.Nodup)
    (he : ∀ p w v p', word p w v = .ok p' →
      (w ≠ w₀ → π p' = π p) ∧ (w = w₀ → R v (π p) (π p')))
    (h : eachWord word b p = .ok q) :
    (∀ v, (w₀, v) ∈ b → R v (π p) (π q)) ∧ ((∀ v, (w₀, v) ∉ b) → π q = π p) := by
  obtain ⟨h1, h2⟩ := eachWord_one (π := π) hnd (fun p w v p' _ hw hs => (he p w v p' hs).1 hw) h
  refine ⟨fun v hv => ?_, h2⟩
  obtain ⟨p₁, p₂, e1, e2, e3⟩ := h1 v hv
  rw [e3, ← e1]
  exact (he _ _ _ _ e2).2 rfl

theorem scalarBlock_is {cv : NodeConv V K} {general : Bool} {d x : ScalarFill K} {v : V}
    (hs : (cv.block v).Sorted) (h : scalarBlock cv general d v = .ok x) :
    ScalarIs cv (cv.block v) d x := by
  unfold scalarBlock at h
  split_ifs at h
  have he := fun p w v p' => @scalarWord_effect V K _ cv general p p' w v
  have ht := fieldRel_of (π := ScalarFill.field) "type" (fun v _ f => (cv.str v, f) ∈ scalarTable)
    hs.nodup (fun p w v p' hw => (he p w v p' hw).type) h
  have ho := fieldRel_of (π := ScalarFill.origin) "origin"
    (fun v _ o => OriginText cv (cv.str v).toList o)
    hs.nodup (fun p w v p' hw => (he p w v p' hw).origin) h
  exact ⟨ht.1, fieldIs_of "value" cv.real hs.nodup (fun p w v p' hw => (he p w v p' hw).value) h,
    fieldIs_of "slope" cv.real hs.nodup (fun p w v p' hw => (he p w v p' hw).slope) h, ho.1, ho.2⟩

/-- What a word below `velocity` does. -/
structure VelEffect (cv : NodeConv V K) (w : String) (v : V) (p q : VelFill K) : Prop where
  type : (w ≠ "type" → q.field = p.field) ∧ (w = "type" → (cv.str v, q.field) ∈ vectorTable)
  setU : (w ≠ "u" → q.u = p.u) ∧ (w = "u" → q.u = cv.real v)
  setV : (w ≠ "v" → q.v = p.v) ∧ (w = "v" → q.v = cv.real v)
  setW : (w ≠ "w" → q.w = p.w) ∧ (w = "w" → q.w = cv.real v)
  speed : (w ≠ "speed" → q.speed = p.speed) ∧ (w = "speed" → q.speed = cv.real v)

theorem velWord_accepts (cv : NodeConv V K) (p : VelFill K) (w : String) (v : V) :
    (∃ q, velWord cv p w v = .ok q) ↔ w ∈ ["type", "u", "v", "w", "speed"] ∧
      (w = "type" → ∃ f, (cv.str v, f) ∈ vectorTable) := by
  by_cases hw : w ∈ ["type", "u", "v", "w", "speed"]
  · simp only [hw, true_and]
    simp only [List.mem_cons, List.not_mem_nil, or_false] at hw
    rcases hw with rfl | rfl | rfl | rfl | rfl
    · simp only [velWord, String.reduceEq, if_false, if_true, ← vectorIcsMap_iff]
      cases vectorIcsMap (cv.str v) <;> simp
    all_goals simp [velWord]
  · simp only [hw, false_and, iff_false]
    simp only [List.mem_cons, List.not_mem_nil, or_false, not_or] at hw
    obtain ⟨h1, h2, h3, h4, h5⟩ := hw
    simp only [velWord, if_neg h1, if_neg h2, if_neg h3, if_neg h4, if_neg h5]
    simp

theorem velWord_effect {cv : NodeConv V K} {p q : VelFill K} {w : String} {v : V}
    (h : velWord cv p w v = .ok q) : VelEffect cv w v p q := by
  have hw := ((velWord_accepts cv p w v).mp ⟨q, h⟩).1
  simp only [List.mem_cons, List.not_mem_nil, or_false] at hw
  rcases hw with rfl | rfl | rfl | rfl | rfl
  · simp only [velWord, String.reduceEq, if_false, if_true] at h
    cases hm : vectorIcsMap (cv.str v) with
    | none => rw [hm] at h; cases h
    | some f =>
      rw [hm] at h; cases h
      have := vectorIcsMap_iff.mp hm
      constructor <;> simp [this]
  all_goals
    simp only [velWord, if_true, String.reduceEq, if_false, Except.ok.injEq] at h
    subst h; constructor <;> simp

theorem velBlock_accepts (cv : NodeConv V K) (p : VelFill K) (v : V) :
    (∃ q, velBlock cv p v = .ok q) ↔ VelOk cv (cv.block v) := by
  unfold velBlock
  by_cases hr : hasRequired ["type"] (cv.block v) = true
  · rw [if_pos hr, eachWord_accepts (velWord_accepts cv)]
    have ht := hasRequired_iff.mp hr "type" (by simp)
    exact ⟨fun h => ⟨fun w u hm => (h w u hm).1, ht, fun u hm => (h _ u hm).2 rfl⟩,
      fun h w u hm => ⟨h.words w u hm, fun e => h.type u (e ▸ hm)⟩⟩
  · rw [if_neg hr]
    refine iff_of_false (by simp) fun h => hr (hasRequired_iff.mpr ?_)
    simpa using h.hasType

theorem velBlock_is {cv : NodeConv V K} {x : VelFill K} {v : V}
    (hs : (cv.block v).Sorted) (h : velBlock cv VelFill.none v = .ok x) :
    VelIs cv (cv.block v) x := by
  unfold velBlock at h
  split_ifs at h
  have he := fun p w v p' => @velWord_effect V K _ cv p p' w v
  have ht := fieldRel_of (π := VelFill.field) "type" (fun v _ f => (cv.str v, f) ∈ vectorTable)
    hs.nodup (fun p w v p' hw => (he p w v p' hw).type) h
  exact ⟨ht.1, fieldIs_of (π := VelFill.u) "u" cv.real hs.nodup
      (fun p w v p' hw => (he p w v p' hw).setU) h,
    fieldIs_of (π := VelFill.v) "v" cv.real hs.nodup (fun p w v p' hw => (he p w v p' hw).setV) h,
    fieldIs_of (π := VelFill.w) "w" cv.real hs.nodup (fun p w v p' hw => (he p w v p' hw).setW) h,
    fieldIs_of (π := VelFill.speed) "speed" cv.real hs.nodup
      (fun p w v p' hw => (he p w v p' hw).speed) h⟩

/-- What a word below `volume` does. -/
structure VolEffect (cv : NodeConv V K) (w : String) (v : V) (p q : VolFill K) : Prop where
  type : (w ≠ "type" → q.volume = p.volume) ∧
    (w = "type" → q.volume = (regionTypeMap (cv.str v)).getD p.volume)
  path : (w ≠ "file_path" → q.path = p.path) ∧ (w = "file_path" → q.path = cv.str v)
  x1 : (w ≠ "x1" → q.x1 = p.x1) ∧ (w = "x1" → q.x1 = cv.real v)
  x2 : (w ≠ "x2" → q.x2 = p.x2) ∧ (w = "x2" → q.x2 = cv.real v)
  y1 : (w ≠ "y1" → q.y1 = p.y1) ∧ (w = "y1" → q.y1 = cv.real v)
  y2 : (w ≠ "y2" → q.y2 = p.y2) ∧ (w = "y2" → q.y2 = cv.real v)
  z1 : (w ≠ "z1" → q.z1 = p.z1) ∧ (w = "z1" → q.z1 = cv.real v)
  z2 : (w ≠ "z2" → q.z2 = p.z2) ∧ (w = "z2" → q.z2 = cv.real v)
  radius1 : (w ≠ "radius1" → q.radius1 = p.radius1) ∧ (w = "radius1" → q.radius1 = cv.real v)
  radius2 : (w ≠ "radius2" → q.radius2 = p.radius2) ∧ (w = "radius2" → q.radius2 = cv.real v)
  scaleX : (w ≠ "scale_x" → q.scaleX = p.scaleX) ∧ (w = "scale_x" → q.scaleX = cv.real v)
  scaleY : (w ≠ "scale_y" → q.scaleY = p.scaleY) ∧ (w = "scale_y" → q.scaleY = cv.real v)
  scaleZ : (w ≠ "scale_z" → q.scaleZ = p.scaleZ) ∧ (w = "scale_z" → q.scaleZ = cv.real v)
  origin : (w ≠ "origin" → q.origin = p.origin) ∧
    (w = "origin" → OriginText cv (cv.str v).toList q.origin)
  part : (w ≠ "part_id" → q.partId = p.partId) ∧ (w = "part_id" → q.partId = cv.int v)

theorem volWord_accepts (cv : NodeConv V K) (p : VolFill K) (w : String) (v : V) :
    (∃ q, volWord cv p w v = .ok q) ↔ w ∈ volWords ∧
      (w = "origin" → ∃ o, OriginText cv (cv.str v).toList o) := by
  by_cases hw : w ∈ volWords
  · simp only [hw, true_and]
    simp only [volWords, List.mem_cons, List.not_mem_nil, or_false] at hw
    rcases hw with rfl | rfl | rfl | rfl | rfl | rfl | rfl | rfl | rfl | rfl | rfl | rfl | rfl |
      rfl | rfl
    · simp only [volWord, String.reduceEq, if_false, if_true, false_implies, iff_true]
      cases regionTypeMap (cv.str v) <;> simp
    pick_goal 13
    · simp only [volWord, String.reduceEq, if_false, if_true, ← regOrigin_iff]
      cases regOrigin cv v <;> simp
    all_goals simp [volWord]
  · simp only [hw, false_and, iff_false]
    simp only [volWords, List.mem_cons, List.not_mem_nil, or_false, not_or] at hw
    obtain ⟨h1, h2, h3, h4, h5, h6, h7, h8, h9, h10, h11, h12, h13, h14, h15⟩ := hw
    simp only [volWord, if_neg h1, if_neg h2, if_neg h3, if_neg h4, if_neg h5, if_neg h6, if_neg h7,
      if_neg h8, if_neg h9, if_neg h10, if_neg h11, if_neg h12, if_neg h13, if_neg h14, if_neg h15]
    simp

theorem volWord_effect {cv : NodeConv V K} {p q : VolFill K} {w : String} {v : V}
    (h : volWord cv p w v = .ok q) : VolEffect cv w v p q := by
  have hw := ((volWord_accepts cv p w v).mp ⟨q, h⟩).1
  simp only [volWords, List.mem_cons, List.not_mem_nil, or_false] at hw
  rcases hw with rfl | rfl | rfl | rfl | rfl | rfl | rfl | rfl | rfl | rfl | rfl | rfl | rfl |
    rfl | rfl
  · simp only [volWord, String.reduceEq, if_false, if_true] at h
    cases hm : regionTypeMap (cv.str v) with
    | none => rw [hm] at h; cases h; constructor <;> simp [hm]
    | some f => rw [hm] at h; cases h; constructor <;> simp [hm]
  pick_goal 13
  · simp only [volWord, String.reduceEq, if_false, if_true] at h
    cases hm : regOrigin cv v with
    | error => rw [hm] at h; cases h
    | ok o =>
      rw [hm] at h; cases h
      have := (regOrigin_iff _ _ _).mp hm
      constructor <;> simp [this]
  all_goals
    simp only [volWord, if_true, String.reduceEq, if_false, Except.ok.injEq] at h
    subst h; constructor <;> simp

theorem volBlock_is {cv : NodeConv V K} {x : VolFill K} {v : V}
    (hs : (cv.block v).Sorted) (h : volBlock cv VolFill.none v = .ok x) :
    VolIs cv (cv.block v) x := by
  unfold volBlock at h
  split_ifs at h
  have he := fun p w v p' => @volWord_effect V K _ cv p p' w v
  have ht := fieldRel_of (π := VolFill.volume) "type"
    (fun v t t' => t' = (regionTypeMap (cv.str v)).getD t)
    hs.nodup (fun p w v p' hw => (he p w v p' hw).type) h
  have ho := fieldRel_of (π := VolFill.origin) "origin"
    (fun v _ o => OriginText cv (cv.str v).toList o)
    hs.nodup (fun p w v p' hw => (he p w v p' hw).origin) h
  constructor
  · intro u hu t htab
    rw [ht.1 u hu, regionTypeMap_iff.mpr htab]; rfl
  · intro u hu hno
    rw [ht.1 u hu]
    cases hm : regionTypeMap (cv.str u) with
    | none => rfl
    | some t => exact absurd (regionTypeMap_iff.mp hm) (hno t)
  · exact fieldIs_of (π := VolFill.path) _ _ hs.nodup (fun p w v p' hw => (he p w v p' hw).path) h
  · exact fieldIs_of (π := VolFill.x1) _ _ hs.nodup (fun p w v p' hw => (he p w v p' hw).x1) h
  · exact fieldIs_of (π := VolFill.x2) _ _ hs.nodup (fun p w v p' hw => (he p w v p' hw).x2) h
  · exact fieldIs_of (π := VolFill.y1) _ _ hs.nodup (fun p w v p' hw => (he p w v p' hw).y1) h
  · exact fieldIs_of (π := VolFill.y2) _ _ hs.nodup (fun p w v p' hw => (he p w v p' hw).y2) h
  · exact fieldIs_of (π := VolFill.z1) _ _ hs.nodup (fun p w v p' hw => (he p w v p' hw).z1) h
  · exact fieldIs_of (π := VolFill.z2) _ _ hs.nodup (fun p w v p' hw => (he p w v p' hw).z2) h
  · exact fieldIs_of (π := VolFill.radius1) _ _ hs.nodup
      (fun p w v p' hw => (he p w v p' hw).radius1) h
  · exact fieldIs_of (π := VolFill.radius2) _ _ hs.nodup
      (fun p w v p' hw => (he p w v p' hw).radius2) h
  · exact fieldIs_of (π := VolFill.scaleX) _ _ hs.nodup
      (fun p w v p' hw => (he p w v p' hw).scaleX) h
  · exact fieldIs_of (π := VolFill.scaleY) _ _ hs.nodup
      (fun p w v p' hw => (he p w v p' hw).scaleY) h
  · exact fieldIs_of (π := VolFill.scaleZ) _ _ hs.nodup
      (fun p w v p' hw => (he p w v p' hw).scaleZ) h
  · exact ho.1
  · exact ho.2
  · exact fieldIs_of (π := VolFill.partId) _ _ hs.nodup (fun p w v p' hw => (he p w v p' hw).part) h

/-- A block below `volume` whose words can be read. -/
def VolRead (cv : NodeConv V K) (b : Block V) : Prop :=
  (∀ w v, (w, v) ∈ b → w ∈ volWords) ∧ (∃ v, ("type", v) ∈ b) ∧
    ∀ v, ("origin", v) ∈ b → ∃ o, OriginText cv (cv.str v).toList o

theorem volBlock_accepts (cv : NodeConv V K) (p : VolFill K) (v : V) :
    (∃ q, volBlock cv p v = .ok q) ↔ VolRead cv (cv.block v) := by
  unfold volBlock
  by_cases hr : hasRequired ["type"] (cv.block v) = true
  · rw [if_pos hr, eachWord_accepts (volWord_accepts cv)]
    have ht := hasRequired_iff.mp hr "type" (by simp)
    exact ⟨fun h => ⟨fun w u hm => (h w u hm).1, ht, fun u hm => (h _ u hm).2 rfl⟩,
      fun h w u hm => ⟨h.1 w u hm, fun e => h.2.2 u (e ▸ hm)⟩⟩
  · rw [if_neg hr]
    refine iff_of_false (by simp) fun h => hr (hasRequired_iff.mpr ?_)
    simpa using h.2.1

/-- The two tests of the path, for a volume that was read. -/
theorem volIs_path {cv : NodeConv V K} {b : Block V} (hb : b.Sorted) {x : VolFill K}
    (hx : VolIs cv b x) (ht : ∃ v, ("type", v) ∈ b) :
    (¬ (x.path = "" ∧ x.volume = .voxelFile) ∧ ¬ (x.path ≠ "" ∧ x.volume ≠ .voxelFile)) ↔
      ∀ v, ("type", v) ∈ b →
        (cv.str v = "voxel_file" ↔ ∃ u, ("file_path", u) ∈ b ∧ cv.str u ≠ "") := by
  obtain ⟨v, hv⟩ := ht
  have hvox : x.volume = .voxelFile ↔ cv.str v = "voxel_file" := by
    constructor
    · intro h
      by_cases hm : ∃ t, (cv.str v, t) ∈ volumeTable
      · obtain ⟨t, htab⟩ := hm
        have := hx.type v hv t htab
        rw [h] at this
        subst this
        simpa [volumeTable] using htab
      · push Not at hm
        rw [hx.noType v hv hm] at h; cases h
    · intro h
      exact hx.type v hv _ (by rw [h]; simp [volumeTable])
  have hpath : x.path ≠ "" ↔ ∃ u, ("file_path", u) ∈ b ∧ cv.str u ≠ "" := by
    constructor
    · intro h
      by_cases hm : ∃ u, ("file_path", u) ∈ b
      · obtain ⟨u, hu⟩ := hm
        exact ⟨u, hu, by rw [← hx.path.1 u hu]; exact h⟩
      · push Not at hm
        exact absurd (hx.path.2 hm) h
    · rintro ⟨u, hu, hne⟩
      rw [hx.path.1 u hu]; exact hne
  have hall : (∀ v, ("type", v) ∈ b →
        (cv.str v = "voxel_file" ↔ ∃ u, ("file_path", u) ∈ b ∧ cv.str u ≠ "")) ↔
      (cv.str v = "voxel_file" ↔ ∃ u, ("file_path", u) ∈ b ∧ cv.str u ≠ "") :=
    ⟨fun h => h v hv, fun h u hu => by rwa [mem_block_unique hb.nodup hu hv]⟩
  rw [hall, ← hvox, ← hpath]
  tauto

/-! ## One region -/

/-- What a word of region number `i` does. -/
structure RegEffect (cv : NodeConv V K) (i : ℕ) (w : String) (v : V) (p q : RegState K) :
    Prop where
  fills : ∀ s, q.1.fills s = p.1.fills s ++ if w = "solver_id" ∧ cv.int v = s then [i] else []
  gauss : q.1.gauss = (gaussTable.lookup w).toList.foldl storeField p.1.gauss
  node : q.1.node = (nodeTable.lookup w).toList.foldl storeField p.1.node
  solver : (w ≠ "solver_id" → q.2.solverId = p.2.solverId) ∧
    (w = "solver_id" → q.2.solverId = cv.int v)
  material : (w ≠ "material_id" → q.2.materialId = p.2.materialId) ∧
    (w = "material_id" → q.2.materialId = cv.int v)
  density : (w ≠ "density" → q.2.den = p.2.den) ∧
    (w = "density" → scalarBlock cv false p.2.den v = .ok q.2.den)
  sie : (w ≠ "specific_internal_energy" → q.2.sie = p.2.sie) ∧
    (w = "specific_internal_energy" → scalarBlock cv false p.2.sie v = .ok q.2.sie)
  ie : (w ≠ "internal_energy" → q.2.ie = p.2.ie) ∧
    (w = "internal_energy" → scalarBlock cv false p.2.ie v = .ok q.2.ie)
  heat : (w ≠ "specific_heat" → q.2.specificHeat = p.2.specificHeat) ∧
    (w = "specific_heat" → scalarBlock cv false p.2.specificHeat v = .ok q.2.specificHeat)
  conductivity : (w ≠ "thermal_conductivity" → q.2.conductivity = p.2.conductivity) ∧
    (w = "thermal_conductivity" → scalarBlock cv false p.2.conductivity v = .ok q.2.conductivity)
  temperature : (w ≠ "temperature" → q.2.temperature = p.2.temperature) ∧
    (w = "temperature" → scalarBlock cv false p.2.temperature v = .ok q.2.temperature)
  levelSet : (w ≠ "level_set" → q.2.levelSet = p.2.levelSet) ∧
    (w = "level_set" → scalarBlock cv true p.2.levelSet v = .ok q.2.levelSet)
  volfrac : (w ≠ "volume_fraction" → q.2.volfrac = p.2.volfrac) ∧
    (w = "volume_fraction" → scalarBlock cv true p.2.volfrac v = .ok q.2.volfrac)
  velocity : (w ≠ "velocity" → q.2.vel = p.2.vel) ∧
    (w = "velocity" → velBlock cv p.2.vel v = .ok q.2.vel)
  volume : (w ≠ "volume" → q.2.vol = p.2.vol) ∧
    (w = "volume" → volBlock cv p.2.vol v = .ok q.2.vol)

/-- The words of a region. -/
def regWords : List String :=
  ["solver_id", "material_id", "velocity", "volume", "density", "specific_internal_energy",
   "internal_energy", "specific_heat", "thermal_conductivity", "temperature", "volume_fraction",
   "level_set"]

theorem regWord_accepts (cv : NodeConv V K) (n i : ℕ) (p : RegState K) (w : String) (v : V) :
    (∃ q, regWord cv n i p w v = .ok q) ↔ w ∈ regWords ∧
      (w = "solver_id" → 0 ≤ cv.int v ∧ cv.int v < n) ∧
      (∀ general, (w, general) ∈ scalarWords → ScalarOk cv general (cv.block v)) ∧
      (w = "velocity" → VelOk cv (cv.block v)) ∧ (w = "volume" → VolRead cv (cv.block v)) := by
  by_cases hw : w ∈ regWords
  · simp only [hw, true_and]
    simp only [regWords, List.mem_cons, List.not_mem_nil, or_false] at hw
    rcases hw with rfl | rfl | rfl | rfl | rfl | rfl | rfl | rfl | rfl | rfl | rfl | rfl
    · simp only [regWord, if_true]
      by_cases hr : 0 ≤ cv.int v ∧ cv.int v < n
      · simp [hr, scalarWords]
      · simp [hr]
    · simp [regWord, scalarWords]
    · simp only [regWord, String.reduceEq, if_false, if_true]
      rw [← velBlock_accepts cv p.2.vel v]
      cases velBlock cv p.2.vel v <;> simp [scalarWords]
    · simp only [regWord, String.reduceEq, if_false, if_true]
      rw [← volBlock_accepts cv p.2.vol v]
      cases volBlock cv p.2.vol v <;> simp [scalarWords]
    · simp only [regWord, String.reduceEq, if_false, if_true, ← scalarBlock_accepts cv _ p.2.den v]
      cases hm : scalarBlock cv false p.2.den v <;> simp [scalarWords, hm]
    · simp only [regWord, String.reduceEq, if_false, if_true, ← scalarBlock_accepts cv _ p.2.sie v]
      cases hm : scalarBlock cv false p.2.sie v <;> simp [scalarWords, hm]
    · simp only [regWord, String.reduceEq, if_false, if_true, ← scalarBlock_accepts cv _ p.2.ie v]
      cases hm : scalarBlock cv false p.2.ie v <;> simp [scalarWords, hm]
    · simp only [regWord, String.reduceEq, if_false, if_true,
        ← scalarBlock_accepts cv _ p.2.specificHeat v]
      cases hm : scalarBlock cv false p.2.specificHeat v <;> simp [scalarWords, hm]
    · simp only [regWord, String.reduceEq, if_false, if_true,
        ← scalarBlock_accepts cv _ p.2.conductivity v]
      cases hm : scalarBlock cv false p.2.conductivity v <;> simp [scalarWords, hm]
    · simp only [regWord, String.reduceEq, if_false, if_true,
        ← scalarBlock_accepts cv _ p.2.temperature v]
      cases hm : scalarBlock cv false p.2.temperature v <;> simp [scalarWords, hm]
    · simp only [regWord, String.reduceEq, if_false, if_true,
        ← scalarBlock_accepts cv _ p.2.volfrac v]
      cases hm : scalarBlock cv true p.2.volfrac v <;> simp [scalarWords, hm]
    · simp only [regWord, String.reduceEq, if_false, if_true,
        ← scalarBlock_accepts cv _ p.2.levelSet v]
      cases hm : scalarBlock cv true p.2.levelSet v <;> simp [scalarWords, hm]
  · simp only [hw, false_and, iff_false]
    simp only [regWords, List.mem_cons, List.not_mem_nil, or_false, not_or] at hw
    obtain ⟨h1, h2, h3, h4, h5, h6, h7, h8, h9, h10, h11, h12⟩ := hw
    simp only [regWord, if_neg h1, if_neg h2, if_neg h3, if_neg h4, if_neg h5, if_neg h6, if_neg h7,
      if_neg h8, if_neg h9, if_neg h10, if_neg h11, if_neg h12]
    simp

theorem regWord_effect {cv : NodeConv V K} {n i : ℕ} {p q : RegState K} {w : String} {v : V}
    (h : regWord cv n i p w v = .ok q) : RegEffect cv i w v p q := by
  have hw := ((regWord_accepts cv n i p w v).mp ⟨q, h⟩).1
  simp only [regWords, List.mem_cons, List.not_mem_nil, or_false] at hw
  rcases hw with rfl | rfl | rfl | rfl | rfl | rfl | rfl | rfl | rfl | rfl | rfl | rfl
  · simp only [regWord, if_true] at h
    split_ifs at h with hr
    cases h
    constructor
    · intro s
      simp only [true_and]
      by_cases hs : s = (cv.int v).toNat
      · subst hs
        rw [Function.update_self, if_pos (by omega)]
      · rw [Function.update_of_ne hs, if_neg (by omega), List.append_nil]
    all_goals simp [gaussTable, nodeTable, List.lookup]
  · simp only [regWord, if_true, String.reduceEq, if_false, Except.ok.injEq] at h
    subst h; constructor <;> simp [gaussTable, nodeTable, List.lookup]
  · simp only [regWord, String.reduceEq, if_false, if_true] at h
    cases hm : velBlock cv p.2.vel v with
    | error => rw [hm] at h; cases h
    | ok x => rw [hm] at h; cases h; constructor <;> simp [gaussTable, nodeTable, List.lookup, hm]
  · simp only [regWord, String.reduceEq, if_false, if_true] at h
    cases hm : volBlock cv p.2.vol v with
    | error => rw [hm] at h; cases h
    | ok x => rw [hm] at h; cases h; constructor <;> simp [gaussTable, nodeTable, List.lookup, hm]
  · simp only [regWord, String.reduceEq, if_false, if_true] at h
    cases hm : scalarBlock cv false p.2.den v with
    | error => rw [hm] at h; cases h
    | ok x => rw [hm] at h; cases h; constructor <;> simp [gaussTable, nodeTable, List.lookup, hm]
  · simp only [regWord, String.reduceEq, if_false, if_true] at h
    cases hm : scalarBlock cv false p.2.sie v with
    | error => rw [hm] at h; cases h
    | ok x => rw [hm] at h; cases h; constructor <;> simp [gaussTable, nodeTable, List.lookup, hm]
  · simp only [regWord, String.reduceEq, if_false, if_true] at h
    cases hm : scalarBlock cv false p.2.ie v with
    | error => rw [hm] at h; cases h
    | ok x => rw [hm] at h; cases h; constructor <;> simp [gaussTable, nodeTable, List.lookup, hm]
  · simp only [regWord, String.reduceEq, if_false, if_true] at h
    cases hm : scalarBlock cv false p.2.specificHeat v with
    | error => rw [hm] at h; cases h
    | ok x => rw [hm] at h; cases h; constructor <;> simp [gaussTable, nodeTable, List.lookup, hm]
  · simp only [regWord, String.reduceEq, if_false, if_true] at h
    cases hm : scalarBlock cv false p.2.conductivity v with
    | error => rw [hm] at h; cases h
    | ok x => rw [hm] at h; cases h; constructor <;> simp [gaussTable, nodeTable, List.lookup, hm]
  · simp only [regWord, String.reduceEq, if_false, if_true] at h
    cases hm : scalarBlock cv false p.2.temperature v with
    | error => rw [hm] at h; cases h
    | ok x => rw [hm] at h; cases h; constructor <;> simp [gaussTable, nodeTable, List.lookup, hm]
  · simp only [regWord, String.reduceEq, if_false, if_true] at h
    cases hm : scalarBlock cv true p.2.volfrac v with
    | error => rw [hm] at h; cases h
    | ok x => rw [hm] at h; cases h; constructor <;> simp [gaussTable, nodeTable, List.lookup, hm]
  · simp only [regWord, String.reduceEq, if_false, if_true] at h
    cases hm : scalarBlock cv true p.2.levelSet v with
    | error => rw [hm] at h; cases h
    | ok x => rw [hm] at h; cases h; constructor <;> simp [gaussTable, nodeTable, List.lookup, hm]

/-- The fields a block names. -/
def Block.fields {F : Type} (table : List (String × F)) (b : Block V) : List F :=
  b.filterMap fun x => table.lookup x.1

theorem eachWord_store {P F : Type} [DecidableEq F] {ε : Type}
    {word : P → String → V → Except ε P} {π : P → List F} {table : List (String × F)}
    (he : ∀ p w v p', word p w v = .ok p' → π p' = (table.lookup w).toList.foldl storeField (π p)) :
    ∀ {b : Block V} {p q : P}, eachWord word b p = .ok q →
      π q = (b.fields table).foldl storeField (π p) := by
  intro b
  induction b with
  | nil => intro p q h; rw [eachWord] at h; cases h; rfl
  | cons x b ih =>
    intro p q h
    rw [eachWord] at h
    cases hx : word p x.1 x.2 with
    | error e => rw [hx] at h; cases h
    | ok p' =>
      rw [hx] at h
      rw [ih h, he _ _ _ _ hx]
      unfold Block.fields
      rw [List.filterMap_cons]
      cases table.lookup x.1 <;> rfl

/-- Region `b` names solver `s`. -/
def NamesSolver (cv : NodeConv V K) (b : Block V) (s : ℕ) : Prop :=
  ∃ v, ("solver_id", v) ∈ b ∧ cv.int v = s

open Classical in
theorem eachWord_fills {cv : NodeConv V K} {n i : ℕ} (s : ℕ) :
    ∀ {b : Block V} {p q : RegState K}, b.keys.Nodup → eachWord (regWord cv n i) b p = .ok q →
      q.1.fills s = p.1.fills s ++ if NamesSolver cv b s then [i] else [] := by
  intro b
  induction b with
  | nil => intro p q _ h; rw [eachWord] at h; cases h; simp [NamesSolver]
  | cons x b ih =>
    intro p q hnd h
    rw [eachWord] at h
    cases hx : regWord cv n i p x.1 x.2 with
    | error e => rw [hx] at h; cases h
    | ok p' =>
      rw [hx] at h
      have hnd' : x.1 ∉ Block.keys b ∧ (Block.keys b).Nodup := by
        simpa [Block.keys] using hnd
      rw [ih hnd'.2 h, (regWord_effect hx).fills s]
      obtain ⟨w, u⟩ := x
      by_cases hw : w = "solver_id" ∧ cv.int u = s
      · obtain ⟨rfl, hu⟩ := hw
        have h1 : ¬ NamesSolver cv b s := by
          rintro ⟨v, hv, -⟩
          exact hnd'.1 (List.mem_map.mpr ⟨_, hv, rfl⟩)
        have h2 : NamesSolver cv (("solver_id", u) :: b) s := ⟨u, List.mem_cons_self, hu⟩
        simp [h1, h2, hu]
      · have h2 : NamesSolver cv ((w, u) :: b) s ↔ NamesSolver cv b s := by
          constructor
          · rintro ⟨v, hv, hvs⟩
            rcases List.mem_cons.mp hv with e | hv
            · cases e; exact absurd ⟨rfl, hvs⟩ hw
            · exact ⟨v, hv, hvs⟩
          · rintro ⟨v, hv, hvs⟩; exact ⟨v, List.mem_cons_of_mem _ hv, hvs⟩
        rw [if_neg hw, List.append_nil, if_congr h2 rfl rfl]

/-- Block `b` names a field of the table. -/
def NamesField {F : Type} (table : List (String × F)) (b : Block V) (f : F) : Prop :=
  ∃ w v, (w, v) ∈ b ∧ (w, f) ∈ table

theorem lookup_gauss {w : String} {f : RegGauss} :
    gaussTable.lookup w = some f ↔ (w, f) ∈ gaussTable := by
  unfold gaussTable
  by_cases hw : w ∈ ["density", "specific_internal_energy", "internal_energy", "specific_heat",
    "thermal_conductivity", "level_set"]
  · simp only [List.mem_cons, List.not_mem_nil, or_false] at hw
    rcases hw with rfl | rfl | rfl | rfl | rfl | rfl <;> simp [List.lookup, eq_comm]
  · simp only [List.mem_cons, List.not_mem_nil, or_false, not_or] at hw
    obtain ⟨h1, h2, h3, h4, h5, h6⟩ := hw
    simp [List.lookup, beq_false_of_ne, h1, h2, h3, h4, h5, h6]

theorem lookup_node {w : String} {f : RegNode} :
    nodeTable.lookup w = some f ↔ (w, f) ∈ nodeTable := by
  unfold nodeTable
  by_cases hw : w ∈ ["temperature", "velocity"]
  · simp only [List.mem_cons, List.not_mem_nil, or_false] at hw
    rcases hw with rfl | rfl <;> simp [List.lookup, eq_comm]
  · simp only [List.mem_cons, List.not_mem_nil, or_false, not_or] at hw
    obtain ⟨h1, h2⟩ := hw
    simp [List.lookup, beq_false_of_ne, h1, h2]

theorem mem_fields {F : Type} {table : List (String × F)}
    (ht : ∀ w f, table.lookup w = some f ↔ (w, f) ∈ table) {b : Block V} {f : F} :
    f ∈ b.fields table ↔ NamesField table b f := by
  unfold Block.fields NamesField
  simp only [List.mem_filterMap, ht, Prod.exists]

theorem store_ne_nil {F : Type} [DecidableEq F] (l acc : List F) (h : acc.Nodup) :
    l.foldl storeField acc = [] ↔ acc = [] ∧ l = [] := by
  have hm := (filledFields_spec l acc h).2
  simp only [List.eq_nil_iff_forall_not_mem, hm, not_or, forall_and]

/-- The tests after a region let it pass. -/
theorem regCheck_accepts (p : RegState K) : (∃ q, regCheck p = .ok q) ↔ p.1.gauss ≠ [] ∧
    ¬ (p.2.vol.path = "" ∧ p.2.vol.volume = .voxelFile) ∧
    ¬ (p.2.vol.path ≠ "" ∧ p.2.vol.volume ≠ .voxelFile) := by
  unfold regCheck
  split_ifs with h1 h2 h3 <;> simp_all

theorem regCheck_eq {p q : RegState K} (h : regCheck p = .ok q) : q = p := by
  unfold regCheck at h
  split_ifs at h
  cases h; rfl

/-- The slot of a region of which all words were read. -/
theorem eachWord_regionIs {cv : NodeConv V K} {n i : ℕ} {b : Block V} {g : RegGlob}
    {q : RegState K} (hb : b.Sorted) (hs : ∀ v, (cv.block v).Sorted)
    (h : eachWord (regWord cv n i) b (g, RegSlot.default) = .ok q) : RegionIs cv b q.2 := by
  have he := fun p w v p' => @regWord_effect V K _ cv n i p p' w v
  have scal : ∀ (w₀ : String) (general : Bool) (π : RegState K → ScalarFill K),
      (∀ p w v p', regWord cv n i p w v = .ok p' → (w ≠ w₀ → π p' = π p) ∧
        (w = w₀ → scalarBlock cv general (π p) v = .ok (π p'))) →
      FillIs cv b w₀ (π (g, RegSlot.default)) (π q) := by
    intro w₀ general π hπ
    have := fieldRel_of (π := π) w₀ (fun v x x' => scalarBlock cv general x v = .ok x') hb.nodup
      hπ h
    exact ⟨fun v hv => scalarBlock_is (hs v) (this.1 v hv), this.2⟩
  have hvel := fieldRel_of (π := fun p : RegState K => p.2.vel) "velocity"
    (fun v x x' => velBlock cv x v = .ok x') hb.nodup
    (fun p w v p' hw => (he p w v p' hw).velocity) h
  have hvol := fieldRel_of (π := fun p : RegState K => p.2.vol) "volume"
    (fun v x x' => volBlock cv x v = .ok x') hb.nodup
    (fun p w v p' hw => (he p w v p' hw).volume) h
  constructor
  · exact (fieldRel_of (π := fun p : RegState K => p.2.materialId) "material_id"
      (fun v _ x => x = cv.int v) hb.nodup (fun p w v p' hw => (he p w v p' hw).material) h).1
  · exact (fieldRel_of (π := fun p : RegState K => p.2.solverId) "solver_id"
      (fun v _ x => x = cv.int v) hb.nodup (fun p w v p' hw => (he p w v p' hw).solver) h).1
  · exact fun v hv => volBlock_is (hs v) (hvol.1 v hv)
  · exact fun v hv => velBlock_is (hs v) (hvel.1 v hv)
  · exact hvel.2
  · exact scal "density" false (fun p => p.2.den) fun p w v p' hw => (he p w v p' hw).density
  · exact scal _ false (fun p => p.2.sie) fun p w v p' hw => (he p w v p' hw).sie
  · exact scal _ false (fun p => p.2.ie) fun p w v p' hw => (he p w v p' hw).ie
  · exact scal _ false (fun p => p.2.specificHeat) fun p w v p' hw => (he p w v p' hw).heat
  · exact scal _ false (fun p => p.2.conductivity) fun p w v p' hw => (he p w v p' hw).conductivity
  · exact scal _ false (fun p => p.2.temperature) fun p w v p' hw => (he p w v p' hw).temperature
  · exact scal _ true (fun p => p.2.levelSet) fun p w v p' hw => (he p w v p' hw).levelSet
  · exact scal _ true (fun p => p.2.volfrac) fun p w v p' hw => (he p w v p' hw).volfrac

theorem regWords_iff {w : String} : w ∈ regWords ↔
    w ∈ ["solver_id", "material_id", "velocity", "volume"] ∨ w ∈ scalarWords.map Prod.fst := by
  simp only [regWords, scalarWords, List.map_cons, List.map_nil, List.mem_cons, List.not_mem_nil,
    or_false]
  tauto

/-- A region is read, after the regions that filled `g`, exactly if it is well formed and it or one
before it names a Gauss field. -/
theorem parseRegion_accepts {cv : NodeConv V K} (hs : ∀ v, (cv.block v).Sorted) (n i : ℕ)
    {b : Block V} (hb : b.Sorted) (g : RegGlob) (hg : g.gauss.Nodup) :
    (∃ q, parseRegion cv n i b g = .ok q) ↔
      RegionOk cv n b ∧ (g.gauss ≠ [] ∨ ∃ f, NamesField gaussTable b f) := by
  unfold parseRegion
  by_cases hr : hasRequired ["material_id", "volume"] b = true
  swap
  · rw [if_neg hr]
    refine iff_of_false (by simp) fun h => hr (hasRequired_iff.mpr ?_)
    simpa using ⟨h.1.hasMaterial, h.1.hasVolume⟩
  have hreq := hasRequired_iff.mp hr
  have hmat := hreq "material_id" (by simp)
  have hvol := hreq "volume" (by simp)
  rw [if_pos hr]
  have hacc := eachWord_accepts (regWord_accepts cv n i) (b := b) (p := (g, RegSlot.default))
  cases hq : eachWord (regWord cv n i) b (g, RegSlot.default) with
  | error e =>
    refine iff_of_false (by simp) fun h => ?_
    obtain ⟨q, h'⟩ := hacc.mpr fun w v hm =>
      ⟨regWords_iff.mpr (h.1.words w v hm), fun e => h.1.solver v (e ▸ hm),
        fun general hg => h.1.scalar w general v hg hm, fun e => h.1.velocity v (e ▸ hm),
        fun e => ⟨(h.1.volume v (e ▸ hm)).words, (h.1.volume v (e ▸ hm)).hasType,
          (h.1.volume v (e ▸ hm)).origin⟩⟩
    rw [hq] at h'; cases h'
  | ok q =>
    have hw := hacc.mp ⟨q, hq⟩
    have hreg := eachWord_regionIs hb hs hq
    have hgauss := eachWord_store (π := fun p : RegState K => p.1.gauss) (table := gaussTable)
      (fun p w v p' h => (regWord_effect h).gauss) hq
    dsimp only at hgauss ⊢
    rw [regCheck_accepts, hgauss, ne_eq, store_ne_nil _ _ hg]
    have hfield : b.fields gaussTable = [] ↔ ¬ ∃ f, NamesField gaussTable b f := by
      rw [List.eq_nil_iff_forall_not_mem]
      simp only [mem_fields (fun w f => lookup_gauss), not_exists]
    rw [hfield]
    obtain ⟨vv, hvv⟩ := hvol
    have hread := (hw _ _ hvv).2.2.2.2 rfl
    have hpath := volIs_path (hs vv) (hreg.volume vv hvv) hread.2.1
    rw [hpath]
    constructor
    · rintro ⟨h1, h2⟩
      refine ⟨⟨fun w v hm => regWords_iff.mp (hw w v hm).1, hmat, ⟨vv, hvv⟩,
        fun v hm => (hw _ v hm).2.1 rfl, fun w general v hg hm => (hw w v hm).2.2.1 general hg,
        fun v hm => (hw _ v hm).2.2.2.1 rfl, fun v hm => ?_⟩, by tauto⟩
      obtain rfl := mem_block_unique hb.nodup hm hvv
      exact ⟨hread.1, hread.2.1, hread.2.2, h2⟩
    · rintro ⟨h1, h2⟩
      exact ⟨by tauto, (h1.volume vv hvv).path⟩

open Classical in
/-- What a region that was read leaves behind. -/
theorem parseRegion_spec {cv : NodeConv V K} (hs : ∀ v, (cv.block v).Sorted) {n i : ℕ}
    {b : Block V} (hb : b.Sorted) {g : RegGlob} {q : RegState K}
    (h : parseRegion cv n i b g = .ok q) : RegionIs cv b q.2 ∧
      q.1.gauss = (b.fields gaussTable).foldl storeField g.gauss ∧
      q.1.node = (b.fields nodeTable).foldl storeField g.node ∧
      ∀ s, q.1.fills s = g.fills s ++ if NamesSolver cv b s then [i] else [] := by
  unfold parseRegion at h
  split_ifs at h
  cases hq : eachWord (regWord cv n i) b (g, RegSlot.default) with
  | error e => rw [hq] at h; cases h
  | ok p =>
    rw [hq] at h
    obtain rfl := regCheck_eq h
    exact ⟨eachWord_regionIs hb hs hq,
      eachWord_store (π := fun p : RegState K => p.1.gauss)
        (fun p w v p' h => (regWord_effect h).gauss) hq,
      eachWord_store (π := fun p : RegState K => p.1.node)
        (fun p w v p' h => (regWord_effect h).node) hq,
      fun s => by rw [eachWord_fills s hb.nodup hq]⟩

/-! ## All regions -/

theorem parseRegionsFrom_cons {cv : NodeConv V K} {n i : ℕ} {b : Block V} {bs : List (Block V)}
    {g g' : RegGlob} {ps : List (RegSlot K)} :
    parseRegionsFrom cv n i (b :: bs) g = .ok (g', ps) ↔
      ∃ g₁ p ps', parseRegion cv n i b g = .ok (g₁, p) ∧
        parseRegionsFrom cv n (i + 1) bs g₁ = .ok (g', ps') ∧ ps = p :: ps' := by
  rw [parseRegionsFrom]
  cases h1 : parseRegion cv n i b g with
  | error e => simp
  | ok r =>
    obtain ⟨g₁, p⟩ := r
    dsimp only
    cases h2 : parseRegionsFrom cv n (i + 1) bs g₁ with
    | error e =>
      simp only [reduceCtorEq, false_iff, not_exists, not_and]
      rintro a b c h3 h4
      cases h3; rw [h2] at h4; cases h4
    | ok r =>
      obtain ⟨g₂, ps'⟩ := r
      simp only [Except.ok.injEq, Prod.mk.injEq]
      constructor
      · rintro ⟨rfl, rfl⟩; exact ⟨g₁, p, ps', ⟨rfl, rfl⟩, h2, rfl⟩
      · rintro ⟨a, b, c, ⟨rfl, rfl⟩, h4, rfl⟩
        rw [h2] at h4; cases h4; exact ⟨rfl, rfl⟩

theorem parseRegionsFrom_accepts {cv : NodeConv V K} (hs : ∀ v, (cv.block v).Sorted) (n : ℕ)
    (bs : List (Block V)) : ∀ (i : ℕ) (g : RegGlob), (∀ b ∈ bs, b.Sorted) → g.gauss.Nodup →
      ((∃ r, parseRegionsFrom cv n i bs g = .ok r) ↔ (∀ b ∈ bs, RegionOk cv n b) ∧
        (g.gauss ≠ [] ∨ ∀ b, bs.head? = some b → ∃ f, NamesField gaussTable b f)) := by
  induction bs with
  | nil => intro i g _ _; simp [parseRegionsFrom]
  | cons b bs ih =>
    intro i g hb hg
    have hacc := parseRegion_accepts hs n i (hb b List.mem_cons_self) g hg
    simp only [List.mem_cons, forall_eq_or_imp, List.head?_cons, Option.some.injEq, forall_eq']
    have hstep : (∃ r, parseRegionsFrom cv n i (b :: bs) g = .ok r) ↔
        ∃ q, parseRegion cv n i b g = .ok q ∧
          ∃ r, parseRegionsFrom cv n (i + 1) bs q.1 = .ok r := by
      constructor
      · rintro ⟨⟨g', ps⟩, h⟩
        obtain ⟨g₁, p, ps', h1, h2, -⟩ := parseRegionsFrom_cons.mp h
        exact ⟨_, h1, _, h2⟩
      · rintro ⟨⟨g₁, p⟩, h1, ⟨g', ps'⟩, h2⟩
        exact ⟨_, parseRegionsFrom_cons.mpr ⟨g₁, p, ps', h1, h2, rfl⟩⟩
    rw [hstep]
    have hnext : ∀ q, parseRegion cv n i b g = .ok q → ((∃ r,
        parseRegionsFrom cv n (i + 1) bs q.1 = .ok r) ↔ ∀ b ∈ bs, RegionOk cv n b) := by
      intro q hq
      obtain ⟨-, hgs, -, -⟩ := parseRegion_spec hs (hb b List.mem_cons_self) hq
      have hnd : q.1.gauss.Nodup := by rw [hgs]; exact (filledFields_spec _ _ hg).1
      have hne : q.1.gauss ≠ [] := by
        have := hacc.mp ⟨q, hq⟩
        rw [hgs, ne_eq, store_ne_nil _ _ hg]
        rintro ⟨e1, e2⟩
        rcases this.2 with h | ⟨f, h⟩
        · exact h e1
        · rw [← mem_fields (fun w f => lookup_gauss), e2] at h; cases h
      rw [ih (i + 1) q.1 (fun b' h => hb b' (List.mem_cons_of_mem _ h)) hnd]
      simp [hne]
    constructor
    · rintro ⟨q, hq, hr⟩
      have := hacc.mp ⟨q, hq⟩
      exact ⟨⟨this.1, (hnext q hq).mp hr⟩, this.2⟩
    · rintro ⟨⟨h1, h2⟩, h3⟩
      obtain ⟨q, hq⟩ := hacc.mpr ⟨h1, h3⟩
      exact ⟨q, hq, (hnext q hq).mpr h2⟩

theorem parseRegionsFrom_spec {cv : NodeConv V K} (hs : ∀ v, (cv.block v).Sorted) (n : ℕ)
    (bs : List (Block V)) : ∀ (i : ℕ) (g g' : RegGlob) (ps : List (RegSlot K)),
      (∀ b ∈ bs, b.Sorted) → parseRegionsFrom cv n i bs g = .ok (g', ps) →
      List.Forall₂ (RegionIs cv) bs ps ∧
      g'.gauss = (bs.flatMap fun b => b.fields gaussTable).foldl storeField g.gauss ∧
      g'.node = (bs.flatMap fun b => b.fields nodeTable).foldl storeField g.node ∧
      ∀ s, g'.fills s = g.fills s ++ idsFrom (fun b => NamesSolver cv b s) i bs := by
  induction bs with
  | nil => intro i g g' ps _ h; rw [parseRegionsFrom] at h; cases h; simp [idsFrom]
  | cons b bs ih =>
    intro i g g' ps hb h
    obtain ⟨g₁, p, ps', h1, h2, rfl⟩ := parseRegionsFrom_cons.mp h
    obtain ⟨a1, a2, a3, a4⟩ := parseRegion_spec hs (hb b List.mem_cons_self) h1
    obtain ⟨b1, b2, b3, b4⟩ := ih _ _ _ _ (fun b' h => hb b' (List.mem_cons_of_mem _ h)) h2
    dsimp only at a2 a3 a4
    refine ⟨List.Forall₂.cons a1 b1, ?_, ?_, fun s => ?_⟩
    · rw [b2, a2, List.flatMap_cons, List.foldl_append]
    · rw [b3, a3, List.flatMap_cons, List.foldl_append]
    · rw [b4, a4, idsFrom, List.append_assoc]

/-- **C113** The list of regions is accepted exactly if every region is well formed and the first
one names a field at the Gauss points. -/
theorem C113_accepts_iff (cv : NodeConv V K) (n : ℕ) (bs : List (Block V))
    (hs : ∀ v, (cv.block v).Sorted) (hb : ∀ b ∈ bs, b.Sorted) :
    (∃ r, parseRegions cv n bs = .ok r) ↔ (∀ b ∈ bs, RegionOk cv n b) ∧
      ∀ b, bs.head? = some b → ∃ f, NamesField gaussTable b f := by
  unfold parseRegions
  rw [parseRegionsFrom_accepts hs n bs 0 _ hb (by simp [RegGlob.default])]
  simp [RegGlob.default]

/-- **C113** Each region is stored as its own block says, with the defaults for what the block does
not say: nothing leaks from one region to another. -/
theorem C113_own_block (cv : NodeConv V K) (n : ℕ) (bs : List (Block V)) (g : RegGlob)
    (ps : List (RegSlot K)) (hs : ∀ v, (cv.block v).Sorted) (hb : ∀ b ∈ bs, b.Sorted)
    (h : parseRegions cv n bs = .ok (g, ps)) : List.Forall₂ (RegionIs cv) bs ps :=
  (parseRegionsFrom_spec hs n bs 0 _ g ps hb h).1

/-- **C113** The regions listed for solver `s` are exactly those that name it, in the order of the
deck. -/
theorem C113_solvers (cv : NodeConv V K) (n : ℕ) (bs : List (Block V)) (g : RegGlob)
    (ps : List (RegSlot K)) (hs : ∀ v, (cv.block v).Sorted) (hb : ∀ b ∈ bs, b.Sorted)
    (h : parseRegions cv n bs = .ok (g, ps)) (s : ℕ) :
    (g.fills s).Pairwise (· < ·) ∧
      ∀ k, k ∈ g.fills s ↔ ∃ b, bs[k]? = some b ∧ ∃ v, ("solver_id", v) ∈ b ∧ cv.int v = s := by
  have := (parseRegionsFrom_spec hs n bs 0 _ g ps hb h).2.2.2 s
  rw [RegGlob.default, List.nil_append] at this
  rw [this]
  exact ⟨idsFrom_sorted _ _ _, fun k => mem_idsFrom_zero⟩

/-- **C113** The fields recorded as filled are exactly those that some region names, each once; the
check of a solver against them passes exactly if each required field is named by some region. -/
theorem C113_fields (cv : NodeConv V K) (n : ℕ) (bs : List (Block V)) (g : RegGlob)
    (ps : List (RegSlot K)) (hs : ∀ v, (cv.block v).Sorted) (hb : ∀ b ∈ bs, b.Sorted)
    (h : parseRegions cv n bs = .ok (g, ps)) :
    g.gauss.Nodup ∧ (∀ f, f ∈ g.gauss ↔ ∃ b ∈ bs, NamesField gaussTable b f) ∧
    g.node.Nodup ∧ (∀ f, f ∈ g.node ↔ ∃ b ∈ bs, NamesField nodeTable b f) ∧
    (∀ required, checkFill required g.gauss = true ↔
      ∀ f ∈ required, ∃ b ∈ bs, NamesField gaussTable b f) ∧
    ∀ required, checkFill required g.node = true ↔
      ∀ f ∈ required, ∃ b ∈ bs, NamesField nodeTable b f := by
  obtain ⟨-, h1, h2, -⟩ := parseRegionsFrom_spec hs n bs 0 _ g ps hb h
  have e1 := filledFields_spec (bs.flatMap fun b => b.fields gaussTable) [] List.nodup_nil
  have e2 := filledFields_spec (bs.flatMap fun b => b.fields nodeTable) [] List.nodup_nil
  have n1 : g.gauss.Nodup := by rw [h1]; exact e1.1
  have n2 : g.node.Nodup := by rw [h2]; exact e2.1
  have m1 : ∀ f, f ∈ g.gauss ↔ ∃ b ∈ bs, NamesField gaussTable b f := by
    intro f
    rw [h1]
    refine (e1.2 f).trans ?_
    simp only [List.not_mem_nil, false_or, List.mem_flatMap, mem_fields (fun w f => lookup_gauss)]
  have m2 : ∀ f, f ∈ g.node ↔ ∃ b ∈ bs, NamesField nodeTable b f := by
    intro f
    rw [h2]
    refine (e2.2 f).trans ?_
    simp only [List.not_mem_nil, false_or, List.mem_flatMap, mem_fields (fun w f => lookup_node)]
  refine ⟨n1, m1, n2, m2, fun r => ?_, fun r => ?_⟩
  · rw [C35_check_iff _ _ n1]; simp only [m1]
  · rw [C35_check_iff _ _ n2]; simp only [m2]

/-! ## Where the deck does not mean what it says -/

/-- A small deck language for the examples. -/
def exRegConv (K : Type) [Field K] : NodeConv String K where
  int s := if s = "0" then 0 else if s = "1" then 1 else -7
  real s := if s = "1" then 1 else if s = "2" then 2 else if s = "-2" then -2 else 0
  bool _ := false
  str s := s
  nat _ := 0
  block s :=
    if s = "den" then [("type", "uniform"), ("value", "-2")]
    else if s = "zero" then [("type", "uniform")]
    else if s = "ball" then [("radius2", "2"), ("type", "sphere")]
    else if s = "bal" then [("radius2", "2"), ("type", "sphear")]
    else if s = "part" then [("file_path", "m.vtu"), ("part_id", "1"), ("type", "vtu_file")]
    else if s = "vortex" then [("type", "tg_vortex")]
    else if s = "moved" then
      [("origin", "[1,1,1]"), ("slope", "1"), ("type", "spherical"), ("value", "0")]
    else [("type", "global")]
  list _ := []
  stod s := if s = ['1'] then some 1 else some 0

/-- Three regions: a background, a ball whose type is misspelt, and a ball without a density. -/
def exRegDeck : List (Block String) :=
  [[("density", "den"), ("internal_energy", "zero"), ("material_id", "0"), ("solver_id", "0"),
      ("volume", "all")],
   [("density", "zero"), ("material_id", "7"), ("volume", "bal")],
   [("material_id", "1"), ("solver_id", "0"), ("volume", "ball")]]

theorem exReg_blocks (K : Type) [Field K] (v : String) : ((exRegConv K).block v).Sorted := by
  simp only [exRegConv]
  split_ifs <;> unfold Block.Sorted Block.keys <;> decide

theorem exRegDeck_sorted : ∀ b ∈ exRegDeck, b.Sorted := by
  intro b hb
  simp only [exRegDeck, List.mem_cons, List.not_mem_nil, or_false] at hb
  rcases hb with rfl | rfl | rfl <;> unfold Block.Sorted Block.keys <;> decide

theorem exRegDeck_ok (K : Type) [Field K] :
    ∃ g ps, parseRegions (exRegConv K) 1 exRegDeck = .ok (g, ps) := ⟨_, _, rfl⟩

theorem exRegDeck_region (K : Type) [Field K] : ∀ b ∈ exRegDeck, RegionOk (exRegConv K) 1 b := by
  obtain ⟨g, ps, h⟩ := exRegDeck_ok K
  exact ((C113_accepts_iff (exRegConv K) 1 exRegDeck (exReg_blocks K) exRegDeck_sorted).mp
    ⟨_, h⟩).1

example : (∀ v, ((exRegConv ℚ).block v).Sorted) ∧ (∀ b ∈ exRegDeck, b.Sorted) ∧
    ∃ g ps, parseRegions (exRegConv ℚ) 1 exRegDeck = .ok (g, ps) :=
  ⟨exReg_blocks ℚ, exRegDeck_sorted, exRegDeck_ok ℚ⟩

/-- The slot of a region of a deck that was read. -/
theorem regionIs_at {cv : NodeConv V K} {bs : List (Block V)} {ps : List (RegSlot K)}
    (h : List.Forall₂ (RegionIs cv) bs ps) {k : ℕ} {b : Block V} (hb : bs[k]? = some b) :
    ∃ p, ps[k]? = some p ∧ RegionIs cv b p := by
  induction h generalizing k with
  | nil => simp at hb
  | cons h1 _ ih =>
    cases k with
    | zero => simp only [List.getElem?_cons_zero, Option.some.injEq] at hb ⊢; subst hb; exact ⟨_, rfl, h1⟩
    | succ k => simp only [List.getElem?_cons_succ] at hb ⊢; exact ih hb

/-- **C113 (what fails).** A negative density is accepted as it stands. -/
theorem C113_negative_density_fails : ∃ g ps p,
    parseRegions (exRegConv ℚ) 1 exRegDeck = .ok (g, ps) ∧ ps[0]? = some p ∧ p.den.value = (-2 : ℚ) := by
  obtain ⟨g, ps, h⟩ := exRegDeck_ok ℚ
  obtain ⟨p, hp, hr⟩ := regionIs_at (C113_own_block _ _ _ g ps (exReg_blocks ℚ) exRegDeck_sorted h)
    (k := 0) rfl
  refine ⟨g, ps, p, h, hp, ?_⟩
  rw [(hr.density.1 "den" (by simp)).value.1 "-2" (by simp [exRegConv])]
  simp [exRegConv]

/-- **C113 (what fails).** A density of which only the type is given is accepted, and is zero. -/
theorem C113_no_value_fails : ∃ g ps p,
    parseRegions (exRegConv ℚ) 1 exRegDeck = .ok (g, ps) ∧ ps[1]? = some p ∧
    p.den.field = .uniform ∧ p.den.value = 0 := by
  obtain ⟨g, ps, h⟩ := exRegDeck_ok ℚ
  obtain ⟨p, hp, hr⟩ := regionIs_at (C113_own_block _ _ _ g ps (exReg_blocks ℚ) exRegDeck_sorted h)
    (k := 1) rfl
  have hd := hr.density.1 "zero" (by simp)
  refine ⟨g, ps, p, h, hp, ?_, ?_⟩
  · simpa [exRegConv, scalarTable] using hd.type "uniform" (by simp [exRegConv])
  · exact hd.value.2 (by simp [exRegConv])

/-- **C113 (what fails).** A misspelt volume is accepted without a message: the region has no volume at all. -/
theorem C113_misspelt_volume_fails : ∃ g ps p,
    parseRegions (exRegConv ℚ) 1 exRegDeck = .ok (g, ps) ∧ ps[1]? = some p ∧
    p.vol.volume = .noVolume := by
  obtain ⟨g, ps, h⟩ := exRegDeck_ok ℚ
  obtain ⟨p, hp, hr⟩ := regionIs_at (C113_own_block _ _ _ g ps (exReg_blocks ℚ) exRegDeck_sorted h)
    (k := 1) rfl
  exact ⟨g, ps, p, h, hp, (hr.volume "bal" (by simp)).noType "sphear" (by simp [exRegConv])
    (by simp [exRegConv, volumeTable])⟩

/-- **C113 (what fails).** The number of the material is not checked: a negative one is accepted, and the number
of materials plays no role in the reader. -/
theorem C113_material_fails : ∃ g ps p,
    parseRegions (exRegConv ℚ) 1 exRegDeck = .ok (g, ps) ∧ ps[1]? = some p ∧
    p.materialId = -7 := by
  obtain ⟨g, ps, h⟩ := exRegDeck_ok ℚ
  obtain ⟨p, hp, hr⟩ := regionIs_at (C113_own_block _ _ _ g ps (exReg_blocks ℚ) exRegDeck_sorted h)
    (k := 1) rfl
  refine ⟨g, ps, p, h, hp, ?_⟩
  rw [hr.material "7" (by simp)]
  simp [exRegConv]

/-- **C113 (what fails).** Whether a deck is accepted depends on the order of its regions: one without a field
at the Gauss points may follow another but may not be the first, because the test looks at the
fields of all regions read so far. -/
theorem C113_order_fails : (∃ r, parseRegions (exRegConv ℚ) 1
      [exRegDeck[0], exRegDeck[2]] = .ok r) ∧
    ¬ ∃ r, parseRegions (exRegConv ℚ) 1 [exRegDeck[2], exRegDeck[0]] = .ok r := by
  have hso := exRegDeck_sorted
  have hok := exRegDeck_region ℚ
  constructor
  · refine (C113_accepts_iff _ _ _ (exReg_blocks ℚ) (fun b hb => hso b ?_)).mpr
      ⟨fun b hb => hok b ?_, ?_⟩
    · simp only [List.mem_cons, List.not_mem_nil, or_false] at hb
      rcases hb with rfl | rfl <;> exact List.getElem_mem _
    · simp only [List.mem_cons, List.not_mem_nil, or_false] at hb
      rcases hb with rfl | rfl <;> exact List.getElem_mem _
    · intro b hb
      simp only [exRegDeck, List.getElem_cons_zero, List.head?_cons, Option.some.injEq] at hb
      subst hb
      exact ⟨.density, "density", "den", by simp, by simp [gaussTable]⟩
  · rw [C113_accepts_iff _ _ _ (exReg_blocks ℚ) (fun b hb => hso b ?_)]
    · rintro ⟨-, h⟩
      obtain ⟨f, w, v, h1, h2⟩ := h _ rfl
      simp only [exRegDeck, List.getElem_cons_succ, List.getElem_cons_zero, List.mem_cons,
        Prod.mk.injEq, List.not_mem_nil, or_false] at h1
      rcases h1 with ⟨rfl, -⟩ | ⟨rfl, -⟩ | ⟨rfl, -⟩ <;> simp [gaussTable] at h2
    · simp only [List.mem_cons, List.not_mem_nil, or_false] at hb
      rcases hb with rfl | rfl <;> exact List.getElem_mem _

/-- **C113 (what fails).** The path of a file is documented for both kinds of files, but a region of the type
`vtu_file` with a path stops the program. -/
theorem C113_vtu_path_fails : parseRegions (exRegConv ℚ) 1
    [[("density", "zero"), ("material_id", "0"), ("volume", "part")]] = .error .aborts := rfl

/-- **C113 (what fails).** A solver number that is not one of the deck is not refused: the reader writes outside
the table of the regions of the solvers. -/
theorem C113_solver_range_fails : parseRegions (exRegConv ℚ) 1
    [[("density", "zero"), ("material_id", "0"), ("solver_id", "1"), ("volume", "all")]] =
      .error .undefined := rfl

end Fierro
