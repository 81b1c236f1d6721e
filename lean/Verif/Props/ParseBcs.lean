import Verif.Model.ParseBcs
import Verif.Proofs.EachWord
import Verif.Model.BoundarySets
import Verif.Props.Strings
import Mathlib.Tactic.Ring
import Mathlib.Tactic.Tauto
import Mathlib.Data.Rat.Defs

/-!
# C108: the boundary conditions of an input deck

Which decks are accepted, which boundary condition reaches which solver, and with which
parameters.
-/

namespace Fierro

variable {V K : Type*} [Zero K]

/-! ## Specification -/

/-- The velocity models of the manual, by name. -/
def velTable : List (String × BcVel) :=
  [("constant", .constant), ("time_varying", .timeVarying), ("reflected", .reflected),
   ("fixed", .zero), ("user_defined", .userDefined), ("piston", .piston)]

/-- The temperature models, by name. -/
def tempTable : List (String × BcTemp) :=
  [("constant", .constant), ("convection", .convection), ("radiation", .radiation)]

/-- The stress models, by name. -/
def stressTable : List (String × BcStress) :=
  [("constant", .constant), ("time_varying", .timeVarying), ("user_defined", .userDefined),
   ("global_contact", .globalContact), ("preload_contact", .preloadContact),
   ("fracture", .fracture)]

/-- The surfaces, by name. -/
def surfaceTable : List (String × BdyTag) :=
  [("x_plane", .xPlane), ("y_plane", .yPlane), ("z_plane", .zPlane), ("cylinder", .cylinder),
   ("sphere", .sphere), ("global", .global)]

/-- The text of an origin stands for the point `o`: a bracketed list of at least two numbers; the
third coordinate is the third number if there are exactly three. -/
def OriginText (cv : NodeConv V K) (text : List Char) (o : K × K × K) : Prop :=
  ∃ ns, exactArrayValues text [','] = some ns ∧ 2 ≤ ns.length ∧
    ns[0]?.bind cv.stod = some o.1 ∧ ns[1]?.bind cv.stod = some o.2.1 ∧
    (ns.length = 3 → ns[2]?.bind cv.stod = some o.2.2) ∧ (ns.length ≠ 3 → o.2.2 = 0)

/-- A block below `surface` that can be read. -/
def SurfaceOk (cv : NodeConv V K) (b : Block V) : Prop :=
  (∀ w v, (w, v) ∈ b → w ∈ ["type", "plane_position", "radius", "tolerance", "origin"]) ∧
  (∀ v, ("type", v) ∈ b → ∃ t, (cv.str v, t) ∈ surfaceTable) ∧
  ∀ v, ("origin", v) ∈ b → ∃ o, OriginText cv (cv.str v).toList o

/-- The words of a boundary condition. -/
def bcWords : List String :=
  ["solver_id", "surface", "location", "velocity_model", "velocity_bc_global_vars", "stress_model",
   "stress_bc_global_vars", "contact_bc_vars", "temperature_model", "temperature_bc_global_vars"]

/-- A block of a boundary condition that can be read, in a deck with `n` solvers. -/
structure BcBlockOk (cv : NodeConv V K) (n : ℕ) (b : Block V) : Prop where
  words : ∀ w v, (w, v) ∈ b → w ∈ bcWords
  hasSolver : ∃ v, ("solver_id", v) ∈ b
  hasSurface : ∃ v, ("surface", v) ∈ b
  solver : ∀ v, ("solver_id", v) ∈ b → 0 ≤ cv.int v ∧ cv.int v < n
  surface : ∀ v, ("surface", v) ∈ b → SurfaceOk cv (cv.block v)
  velocity : ∀ v, ("velocity_model", v) ∈ b → ∃ m, (cv.str v, m) ∈ velTable
  temperature : ∀ v, ("temperature_model", v) ∈ b → cv.str v ≠ "none"
  stress : ∀ v, ("stress_model", v) ∈ b → ∃ m, (cv.str v, m) ∈ stressTable
  location : ∀ v, ("location", v) ∈ b → cv.str v = "host" ∨ cv.str v = "device"
  velVars : ∀ v, ("velocity_bc_global_vars", v) ∈ b → (cv.list v).length ≤ 100
  tempVars : ∀ v, ("temperature_bc_global_vars", v) ∈ b → (cv.list v).length ≤ 100
  stressVars : ∀ v, ("stress_bc_global_vars", v) ∈ b → (cv.list v).length ≤ 100
  contact : ∀ v, ("contact_bc_vars", v) ∈ b → (cv.list v).length = 2

/-! ## The tables -/

theorem bcVelMap_iff {s : String} {m : BcVel} :
    (bcVelMap s = some m ∧ m ≠ .none) ↔ (s, m) ∈ velTable := by
  constructor
  · rintro ⟨h, hm⟩
    unfold bcVelMap at h
    split at h <;> simp at h <;> subst h <;> simp [velTable] at hm ⊢
  · intro h
    simp only [velTable, List.mem_cons, Prod.mk.injEq, List.not_mem_nil, or_false] at h
    rcases h with ⟨rfl, rfl⟩ | ⟨rfl, rfl⟩ | ⟨rfl, rfl⟩ | ⟨rfl, rfl⟩ | ⟨rfl, rfl⟩ | ⟨rfl, rfl⟩ <;>
      exact ⟨rfl, by decide⟩

theorem bcTempMap_iff {s : String} {m : BcTemp} :
    (bcTempMap s = some m ∧ m ≠ .none) ↔ (s, m) ∈ tempTable := by
  constructor
  · rintro ⟨h, hm⟩
    unfold bcTempMap at h
    split at h <;> simp at h <;> subst h <;> simp [tempTable] at hm ⊢
  · intro h
    simp only [tempTable, List.mem_cons, Prod.mk.injEq, List.not_mem_nil, or_false] at h
    rcases h with ⟨rfl, rfl⟩ | ⟨rfl, rfl⟩ | ⟨rfl, rfl⟩ <;> exact ⟨rfl, by decide⟩

theorem bcTempMap_none_iff {s : String} : bcTempMap s = some .none ↔ s = "none" := by
  constructor
  · intro h
    unfold bcTempMap at h
    split at h <;> simp at h ⊢
  · rintro rfl; rfl

theorem bcStressMap_iff {s : String} {m : BcStress} :
    (bcStressMap s = some m ∧ m ≠ .none) ↔ (s, m) ∈ stressTable := by
  constructor
  · rintro ⟨h, hm⟩
    unfold bcStressMap at h
    split at h <;> simp at h <;> subst h <;> simp [stressTable] at hm ⊢
  · intro h
    simp only [stressTable, List.mem_cons, Prod.mk.injEq, List.not_mem_nil, or_false] at h
    rcases h with ⟨rfl, rfl⟩ | ⟨rfl, rfl⟩ | ⟨rfl, rfl⟩ | ⟨rfl, rfl⟩ | ⟨rfl, rfl⟩ | ⟨rfl, rfl⟩ <;>
      exact ⟨rfl, by decide⟩

theorem bcSurfaceMap_iff {s : String} {t : BdyTag} :
    bcSurfaceMap s = some t ↔ (s, t) ∈ surfaceTable := by
  constructor
  · intro h
    unfold bcSurfaceMap at h
    split at h <;> simp at h <;> subst h <;> simp [surfaceTable]
  · intro h
    simp only [surfaceTable, List.mem_cons, Prod.mk.injEq, List.not_mem_nil, or_false] at h
    rcases h with ⟨rfl, rfl⟩ | ⟨rfl, rfl⟩ | ⟨rfl, rfl⟩ | ⟨rfl, rfl⟩ | ⟨rfl, rfl⟩ | ⟨rfl, rfl⟩ <;> rfl

theorem bcLocMap_iff {s : String} {l : BcLoc} :
    bcLocMap s = some l ↔ (s = "host" ∧ l = .host) ∨ (s = "device" ∧ l = .device) := by
  constructor
  · intro h
    unfold bcLocMap at h
    split at h <;> simp at h <;> subst h <;> simp
  · rintro (⟨rfl, rfl⟩ | ⟨rfl, rfl⟩) <;> rfl

theorem bcOrigin_iff (cv : NodeConv V K) (v : V) (o : K × K × K) :
    bcOrigin cv v = .ok o ↔ OriginText cv (cv.str v).toList o := by
  obtain ⟨a, b, c⟩ := o
  unfold bcOrigin OriginText
  cases he : exactArrayValues (cv.str v).toList [','] with
  | none => simp
  | some ns =>
    simp only [Option.some.injEq]
    rcases ns with - | ⟨x, - | ⟨y, - | ⟨z, - | ⟨t, ns⟩⟩⟩⟩
    · simp
    · simp
    · cases hx : cv.stod x <;> cases hy : cv.stod y <;> simp [hx, hy, eq_comm]
    · cases hx : cv.stod x <;> cases hy : cv.stod y <;> cases hz : cv.stod z <;>
        simp [hx, hy, hz]
    · cases hx : cv.stod x <;> cases hy : cv.stod y <;> simp [hx, hy, eq_comm]

/-! ## Which words are accepted -/

theorem bcSurface_accepts (cv : NodeConv V K) (b : Block V) (p : BcSlot K) :
    (∃ q, eachWord (bcSurfaceWord cv) b p = .ok q) ↔ SurfaceOk cv b := by
  rw [eachWord_accepts (good := fun w v =>
    w ∈ ["type", "plane_position", "radius", "tolerance", "origin"] ∧
    (w = "type" → ∃ t, (cv.str v, t) ∈ surfaceTable) ∧
    (w = "origin" → ∃ o, OriginText cv (cv.str v).toList o))]
  · unfold SurfaceOk
    constructor
    · exact fun h => ⟨fun w v hm => (h w v hm).1, fun v hm => (h _ v hm).2.1 rfl,
        fun v hm => (h _ v hm).2.2 rfl⟩
    · rintro ⟨h1, h2, h3⟩ w v hm
      exact ⟨h1 w v hm, fun e => h2 v (e ▸ hm), fun e => h3 v (e ▸ hm)⟩
  · intro p w v
    unfold bcSurfaceWord
    split_ifs with h1 h2 h3 h4 h5
    · subst h1
      cases hm : bcSurfaceMap (cv.str v) with
      | none =>
        simp only [reduceCtorEq, exists_false, false_iff, not_and]
        rintro - h
        obtain ⟨t, ht⟩ := h trivial
        rw [bcSurfaceMap_iff.mpr ht] at hm; cases hm
      | some t => simp; exact ⟨t, bcSurfaceMap_iff.mp hm⟩
    · subst h2; simp
    · subst h3; simp
    · subst h4; simp
    · subst h5
      cases hm : bcOrigin cv v with
      | error e =>
        simp only [reduceCtorEq, exists_false, false_iff, not_and]
        rintro - - h
        obtain ⟨o, ho⟩ := h trivial
        rw [(bcOrigin_iff cv v o).mpr ho] at hm; cases hm
      | ok o => simp; exact ⟨o.1, o.2.1, o.2.2, (bcOrigin_iff cv v o).mp hm⟩
    · simp [h1, h2, h3, h4, h5]

theorem bcWord_accepts (cv : NodeConv V K) (i s : ℕ) (p : BcState K) (w : String) (v : V) :
    (∃ q, bcWord cv i s p w v = .ok q) ↔
      w ∈ bcWords ∧ (w = "surface" → SurfaceOk cv (cv.block v)) ∧
      (w = "velocity_model" → ∃ m, (cv.str v, m) ∈ velTable) ∧
      (w = "temperature_model" → cv.str v ≠ "none") ∧
      (w = "stress_model" → ∃ m, (cv.str v, m) ∈ stressTable) ∧
      (w = "location" → cv.str v = "host" ∨ cv.str v = "device") ∧
      (w = "velocity_bc_global_vars" → (cv.list v).length ≤ 100) ∧
      (w = "temperature_bc_global_vars" → (cv.list v).length ≤ 100) ∧
      (w = "stress_bc_global_vars" → (cv.list v).length ≤ 100) ∧
      (w = "contact_bc_vars" → (cv.list v).length = 2) := by
  by_cases hw : w ∈ bcWords
  · simp only [bcWords, List.mem_cons, List.not_mem_nil, or_false] at hw
    rcases hw with rfl | rfl | rfl | rfl | rfl | rfl | rfl | rfl | rfl | rfl
    · simp [bcWord, bcWords]
    · simp only [bcWord, bcWords, String.reduceEq, if_false, if_true, List.mem_cons, true_or,
        or_true, true_and, false_implies, and_true, true_implies]
      rw [← bcSurface_accepts cv (cv.block v) p.2]
      cases eachWord (bcSurfaceWord cv) (cv.block v) p.2 <;> simp
    · simp only [bcWord, bcWords, String.reduceEq, if_false, if_true, List.mem_cons, true_or,
        or_true, true_and, false_implies, and_true, true_implies]
      cases hm : bcLocMap (cv.str v) with
      | none =>
        simp only [reduceCtorEq, exists_false, false_iff]
        rintro (h | h) <;> rw [h] at hm <;> cases hm
      | some l =>
        simp only [Except.ok.injEq, exists_eq', true_iff]
        rcases bcLocMap_iff.mp hm with h | h
        · exact Or.inl h.1
        · exact Or.inr h.1
    · simp only [bcWord, bcWords, String.reduceEq, if_false, if_true, List.mem_cons, true_or,
        or_true, true_and, false_implies, and_true, true_implies, bcVelWord]
      cases hm : bcVelMap (cv.str v) with
      | none =>
        simp only [reduceCtorEq, exists_false, false_iff]
        rintro ⟨m, h⟩
        rw [(bcVelMap_iff.mpr h).1] at hm; cases hm
      | some m =>
        by_cases hn : m = .none
        · subst hn
          simp only [reduceCtorEq, exists_false, false_iff]
          rintro ⟨m, h⟩
          have := bcVelMap_iff.mpr h
          rw [this.1] at hm; cases hm
          exact this.2 rfl
        · refine iff_of_true ?_ ⟨m, bcVelMap_iff.mp ⟨hm, hn⟩⟩
          cases m <;> simp at hn ⊢
    · simp only [bcWord, bcWords, String.reduceEq, if_false, if_true, List.mem_cons, true_or,
        or_true, true_and, false_implies, and_true, true_implies]
      split_ifs with hl <;> simp <;> omega
    · simp only [bcWord, bcWords, String.reduceEq, if_false, if_true, List.mem_cons, true_or,
        or_true, true_and, false_implies, and_true, true_implies, bcStressWord]
      cases hm : bcStressMap (cv.str v) with
      | none =>
        simp only [reduceCtorEq, exists_false, false_iff]
        rintro ⟨m, h⟩
        rw [(bcStressMap_iff.mpr h).1] at hm; cases hm
      | some m =>
        by_cases hn : m = .none
        · subst hn
          simp only [reduceCtorEq, exists_false, false_iff]
          rintro ⟨m, h⟩
          have := bcStressMap_iff.mpr h
          rw [this.1] at hm; cases hm
          exact this.2 rfl
        · refine iff_of_true ?_ ⟨m, bcStressMap_iff.mp ⟨hm, hn⟩⟩
          cases m <;> simp at hn ⊢
    · simp only [bcWord, bcWords, String.reduceEq, if_false, if_true, List.mem_cons, true_or,
        or_true, true_and, false_implies, and_true, true_implies]
      split_ifs with hl <;> simp <;> omega
    · simp only [bcWord, bcWords, String.reduceEq, if_false, if_true, List.mem_cons, true_or,
        or_true, true_and, false_implies, and_true, true_implies]
      rcases cv.list v with - | ⟨a, - | ⟨b, - | ⟨c, l⟩⟩⟩ <;> simp
    · simp only [bcWord, bcWords, String.reduceEq, if_false, if_true, List.mem_cons, true_or,
        or_true, true_and, false_implies, and_true, true_implies, bcTempWord]
      cases hm : bcTempMap (cv.str v) with
      | none =>
        simp only [Except.ok.injEq, exists_eq', true_iff]
        intro h; rw [h] at hm; cases hm
      | some m =>
        by_cases hn : m = .none
        · subst hn
          simp [bcTempMap_none_iff.mp hm]
        · refine iff_of_true ?_ ?_
          · cases m <;> simp at hn ⊢
          · intro h
            rw [bcTempMap_none_iff.mpr h] at hm
            cases hm; exact hn rfl
    · simp only [bcWord, bcWords, String.reduceEq, if_false, if_true, List.mem_cons, true_or,
        or_true, true_and, false_implies, and_true, true_implies]
      split_ifs with hl <;> simp <;> omega
  · refine iff_of_false ?_ fun h => hw h.1
    simp only [bcWords, List.mem_cons, List.not_mem_nil, or_false, not_or] at hw
    obtain ⟨h1, h2, h3, h4, h5, h6, h7, h8, h9, h10⟩ := hw
    simp [bcWord, h1, h2, h3, h4, h5, h6, h7, h8, h9, h10]

theorem bcSolverLoop_ok (cv : NodeConv V K) (n : ℕ) (b : Block V) (s₀ : ℤ) :
    (∃ s, bcSolverLoop cv n b s₀ = .ok s) ↔
      ∀ v, ("solver_id", v) ∈ b → 0 ≤ cv.int v ∧ cv.int v < n := by
  induction b generalizing s₀ with
  | nil => simp [bcSolverLoop]
  | cons x b ih =>
    obtain ⟨w, v⟩ := x
    rw [bcSolverLoop]
    split_ifs with h1 h2
    · subst h1
      simp only [reduceCtorEq, exists_false, false_iff]
      intro h
      have := h v List.mem_cons_self
      omega
    · subst h1
      rw [ih]
      constructor
      · intro h v' hm
        rcases List.mem_cons.mp hm with e | hm
        · cases e; omega
        · exact h v' hm
      · exact fun h v' hm => h v' (List.mem_cons_of_mem _ hm)
    · rw [ih]
      constructor
      · intro h v' hm
        rcases List.mem_cons.mp hm with e | hm
        · cases e; exact absurd rfl h1
        · exact h v' hm
      · exact fun h v' hm => h v' (List.mem_cons_of_mem _ hm)

theorem bcSolverLoop_val (cv : NodeConv V K) (n : ℕ) (b : Block V) (s₀ s : ℤ)
    (h : bcSolverLoop cv n b s₀ = .ok s) :
    (s = s₀ ∧ ∀ v, ("solver_id", v) ∉ b) ∨
      ∃ v, ("solver_id", v) ∈ b ∧ s = cv.int v ∧ 0 ≤ s ∧ s < n := by
  induction b generalizing s₀ with
  | nil => rw [bcSolverLoop] at h; cases h; simp
  | cons x b ih =>
    obtain ⟨w, v⟩ := x
    rw [bcSolverLoop] at h
    split_ifs at h with h1 h2
    · subst h1
      rcases ih _ h with ⟨h3, -⟩ | ⟨v', h3, h4⟩
      · exact Or.inr ⟨v, List.mem_cons_self, h3, by omega, by omega⟩
      · exact Or.inr ⟨v', List.mem_cons_of_mem _ h3, h4⟩
    · rcases ih _ h with ⟨h3, h4⟩ | ⟨v', h3, h4⟩
      · refine Or.inl ⟨h3, fun v' hm => ?_⟩
        rcases List.mem_cons.mp hm with e | hm
        · cases e; exact h1 rfl
        · exact h4 v' hm
      · exact Or.inr ⟨v', List.mem_cons_of_mem _ h3, h4⟩

theorem parseBc_accepts (cv : NodeConv V K) (n : ℕ) (tol : K) (i : ℕ) (b : Block V) (g : BcGlob) :
    (∃ q, parseBc cv n tol i b g = .ok q) ↔ BcBlockOk cv n b := by
  unfold parseBc
  split_ifs with hr
  · rw [hasRequired_iff] at hr
    have hs := hr "solver_id" (by simp)
    have hf := hr "surface" (by simp)
    cases hl : bcSolverLoop cv n b (-1) with
    | error e =>
      refine iff_of_false (by simp) fun h => ?_
      obtain ⟨s, hs⟩ := (bcSolverLoop_ok cv n b (-1)).mpr h.solver
      rw [hl] at hs; cases hs
    | ok s =>
      have hsol := (bcSolverLoop_ok cv n b (-1)).mp ⟨s, hl⟩
      have hpos : ¬ s < 0 := by
        rcases bcSolverLoop_val cv n b _ _ hl with ⟨-, h⟩ | ⟨v, -, -, h, -⟩
        · obtain ⟨v, hv⟩ := hs; exact absurd hv (h v)
        · omega
      simp only [hpos, if_false]
      rw [ eachWord_accepts (bcWord_accepts cv i s.toNat)]
      constructor
      · intro h
        exact
          { words := fun w v hm => (h w v hm).1
            hasSolver := hs
            hasSurface := hf
            solver := hsol
            surface := fun v hm => (h _ v hm).2.1 rfl
            velocity := fun v hm => (h _ v hm).2.2.1 rfl
            temperature := fun v hm => (h _ v hm).2.2.2.1 rfl
            stress := fun v hm => (h _ v hm).2.2.2.2.1 rfl
            location := fun v hm => (h _ v hm).2.2.2.2.2.1 rfl
            velVars := fun v hm => (h _ v hm).2.2.2.2.2.2.1 rfl
            tempVars := fun v hm => (h _ v hm).2.2.2.2.2.2.2.1 rfl
            stressVars := fun v hm => (h _ v hm).2.2.2.2.2.2.2.2.1 rfl
            contact := fun v hm => (h _ v hm).2.2.2.2.2.2.2.2.2 rfl }
      · intro h w v hm
        refine ⟨h.words w v hm, ?_, ?_, ?_, ?_, ?_, ?_, ?_, ?_, ?_⟩ <;> rintro rfl
        · exact h.surface v hm
        · exact h.velocity v hm
        · exact h.temperature v hm
        · exact h.stress v hm
        · exact h.location v hm
        · exact h.velVars v hm
        · exact h.tempVars v hm
        · exact h.stressVars v hm
        · exact h.contact v hm
  · refine iff_of_false (by simp) fun h => hr (hasRequired_iff.mpr ?_)
    intro r hm
    simp only [List.mem_cons, List.not_mem_nil, or_false] at hm
    rcases hm with rfl | rfl
    · exact h.hasSolver
    · exact h.hasSurface

theorem parseBcsFrom_accepts (cv : NodeConv V K) (n : ℕ) (tol : K) (bs : List (Block V)) (i : ℕ)
    (g : BcGlob) :
    (∃ r, parseBcsFrom cv n tol i bs g = .ok r) ↔ ∀ b ∈ bs, BcBlockOk cv n b := by
  induction bs generalizing i g with
  | nil => simp [parseBcsFrom]
  | cons b bs ih =>
    rw [parseBcsFrom]
    cases hb : parseBc cv n tol i b g with
    | error e =>
      refine iff_of_false (by simp) fun h => ?_
      obtain ⟨q, hq⟩ := (parseBc_accepts cv n tol i b g).mpr (h b List.mem_cons_self)
      rw [hb] at hq; cases hq
    | ok q =>
      obtain ⟨g', p⟩ := q
      have hok := (parseBc_accepts cv n tol i b g).mp ⟨_, hb⟩
      have := ih (i + 1) g'
      rw [List.forall_mem_cons, ← this]
      simp only [hok, true_and]
      cases parseBcsFrom cv n tol (i + 1) bs g' <;> simp

/-- **C108, which decks are accepted.** The boundary conditions of a deck are read to the end
exactly if every one of them names an existing solver, has a surface, uses only the words listed,
names a model that exists for velocity and stress, any temperature model but `none`, a known
surface, an origin of at least two numbers, at most 100 variables per model, and two contact
variables. -/
theorem C108_accepts_iff (cv : NodeConv V K) (n : ℕ) (tol : K) (bs : List (Block V)) :
    (∃ r, parseBcs cv n tol bs = .ok r) ↔ ∀ b ∈ bs, BcBlockOk cv n b :=
  parseBcsFrom_accepts cv n tol bs 0 _

/-! ## What is stored -/

/-- The mapping of a YAML node is a `std::map`: its keys are in strictly increasing order. -/
def Block.Sorted (b : Block V) : Prop := b.keys.Pairwise (· < ·)

theorem Block.Sorted.nodup {b : Block V} (h : b.Sorted) : b.keys.Nodup :=
  List.Pairwise.imp (R := fun a b : String => a < b)
    (fun {a b} (h : a < b) (e : a = b) => String.lt_irrefl b (e ▸ h)) h

/-- The surface stored for the block `sb` below `surface`. -/
structure SurfaceIs (cv : NodeConv V K) (tol : K) (sb : Block V) (p : BcSlot K) : Prop where
  type : ∀ v, ("type", v) ∈ sb → ∃ t, p.surface = some t ∧ (cv.str v, t) ∈ surfaceTable
  noType : (∀ v, ("type", v) ∉ sb) → p.surface = none
  origin : ∀ v, ("origin", v) ∈ sb → OriginText cv (cv.str v).toList p.origin
  noOrigin : (∀ v, ("origin", v) ∉ sb) → p.origin = (0, 0, 0)
  tolerance : ∀ v, ("tolerance", v) ∈ sb → p.tolerance = cv.real v
  noTolerance : (∀ v, ("tolerance", v) ∉ sb) → p.tolerance = tol
  radius : ∀ v, ("radius", v) ∈ sb → p.value = cv.real v
  plane : (∀ v, ("radius", v) ∉ sb) → ∀ v, ("plane_position", v) ∈ sb → p.value = cv.real v
  noValue : (∀ v, ("radius", v) ∉ sb) → (∀ v, ("plane_position", v) ∉ sb) → p.value = 0

/-- What is stored for the block `b` of a boundary condition. -/
structure BcSlotIs (cv : NodeConv V K) (tol : K) (b : Block V) (p : BcSlot K) : Prop where
  surface : ∀ v, ("surface", v) ∈ b → SurfaceIs cv tol (cv.block v) p
  velocity : ∀ v, ("velocity_model", v) ∈ b →
    (cv.str v, p.velModel) ∈ velTable ∧ p.velFn = some p.velModel
  noVelocity : (∀ v, ("velocity_model", v) ∉ b) → p.velModel = .none ∧ p.velFn = none
  temperature : ∀ v, ("temperature_model", v) ∈ b →
    (cv.str v, p.tempModel) ∈ tempTable ∨
      ((∀ m, (cv.str v, m) ∉ tempTable) ∧ p.tempModel = .none)
  noTemperature : (∀ v, ("temperature_model", v) ∉ b) → p.tempModel = .none
  temperatureFn : p.tempFn = if p.tempModel = .constant then some .constant else none
  stress : ∀ v m, ("stress_model", v) ∈ b → (cv.str v, m) ∈ stressTable →
    if m = .globalContact ∨ m = .preloadContact then p.stressModel = .none ∧ p.stressFn = none
    else p.stressModel = m ∧ p.stressFn = some m
  noStress : (∀ v, ("stress_model", v) ∉ b) → p.stressModel = .none ∧ p.stressFn = none
  location : ∀ v, ("location", v) ∈ b →
    (cv.str v = "host" ∧ p.location = .host) ∨ (cv.str v = "device" ∧ p.location = .device)
  noLocation : (∀ v, ("location", v) ∉ b) → p.location = .device
  velVars : ∀ v, ("velocity_bc_global_vars", v) ∈ b → p.velVars = (cv.list v).map cv.real
  noVelVars : (∀ v, ("velocity_bc_global_vars", v) ∉ b) → p.velVars = []
  tempVars : ∀ v, ("temperature_bc_global_vars", v) ∈ b → p.tempVars = (cv.list v).map cv.real
  noTempVars : (∀ v, ("temperature_bc_global_vars", v) ∉ b) → p.tempVars = []
  stressVars : ∀ v, ("stress_bc_global_vars", v) ∈ b → p.stressVars = (cv.list v).map cv.real
  noStressVars : (∀ v, ("stress_bc_global_vars", v) ∉ b) → p.stressVars = []

/-- All fields but those of the surface. -/
def BcSlot.other (p : BcSlot K) :=
  ((p.velModel, p.velFn), (p.tempModel, p.tempFn), (p.stressModel, p.stressFn), p.location,
    p.velVars, p.tempVars, p.stressVars)

/-- The fields of the surface. -/
def BcSlot.surf (p : BcSlot K) := (p.surface, p.origin, p.value, p.tolerance)

theorem bcSurfaceWord_other (cv : NodeConv V K) (p : BcSlot K) (w : String) (v : V) (q : BcSlot K)
    (h : bcSurfaceWord cv p w v = .ok q) : q.other = p.other := by
  unfold bcSurfaceWord at h
  split_ifs at h
  · cases hm : bcSurfaceMap (cv.str v) with
    | none => rw [hm] at h; cases h
    | some t => rw [hm] at h; cases h; rfl
  · cases h; rfl
  · cases h; rfl
  · cases h; rfl
  · cases hm : bcOrigin cv v with
    | error e => rw [hm] at h; cases h
    | ok o => rw [hm] at h; cases h; rfl

theorem bcSurface_other (cv : NodeConv V K) (b : Block V) (p q : BcSlot K)
    (h : eachWord (bcSurfaceWord cv) b p = .ok q) : q.other = p.other :=
  eachWord_keep (π := BcSlot.other) (fun p w v p' _ hw => bcSurfaceWord_other cv p w v p' hw) h

theorem bcSurfaceWord_frame (cv : NodeConv V K) (p : BcSlot K) (w : String) (v : V) (q : BcSlot K)
    (h : bcSurfaceWord cv p w v = .ok q) :
    (w ≠ "type" → q.surface = p.surface) ∧ (w ≠ "origin" → q.origin = p.origin) ∧
    (w ≠ "tolerance" → q.tolerance = p.tolerance) ∧
    (w ≠ "radius" → w ≠ "plane_position" → q.value = p.value) := by
  unfold bcSurfaceWord at h
  split_ifs at h with h1 h2 h3 h4 h5
  · cases hm : bcSurfaceMap (cv.str v) with
    | none => rw [hm] at h; cases h
    | some t => rw [hm] at h; cases h; simp [h1]
  · cases h; simp [h2]
  · cases h; simp [h3]
  · cases h; simp [h4]
  · cases hm : bcOrigin cv v with
    | error e => rw [hm] at h; cases h
    | ok o => rw [hm] at h; cases h; simp [h5]

theorem bcSurface_is (cv : NodeConv V K) (tol : K) (b : Block V) (hb : b.Sorted) (p q : BcSlot K)
    (hp : p.surf = (BcSlot.default tol).surf)
    (h : eachWord (bcSurfaceWord cv) b p = .ok q) : SurfaceIs cv tol b q := by
  simp only [BcSlot.surf, BcSlot.default, Prod.mk.injEq] at hp
  obtain ⟨hp1, hp2, hp3, hp4⟩ := hp
  obtain ⟨t1, t2⟩ := eachWord_one (π := BcSlot.surface) (w₀ := "type") hb.nodup
    (fun p w v q _ hne hw => (bcSurfaceWord_frame cv p w v q hw).1 hne) h
  obtain ⟨o1, o2⟩ := eachWord_one (π := BcSlot.origin) (w₀ := "origin") hb.nodup
    (fun p w v q _ hne hw => (bcSurfaceWord_frame cv p w v q hw).2.1 hne) h
  obtain ⟨l1, l2⟩ := eachWord_field (π := BcSlot.tolerance) "tolerance" cv.real hb.nodup
    (fun p w v q _ hne hw => (bcSurfaceWord_frame cv p w v q hw).2.2.1 hne)
    (fun p v q hw => by simp [bcSurfaceWord] at hw; rw [← hw]) h
  refine ⟨?_, fun hn => (t2 hn).trans hp1, ?_, fun hn => (o2 hn).trans hp2, l1,
    fun hn => (l2 hn).trans hp4, ?_, ?_, ?_⟩
  · intro v hv
    obtain ⟨p₁, p₂, -, hw, he⟩ := t1 v hv
    simp only [bcSurfaceWord, if_true] at hw
    cases hm : bcSurfaceMap (cv.str v) with
    | none => rw [hm] at hw; cases hw
    | some t => rw [hm] at hw; cases hw; exact ⟨t, he, bcSurfaceMap_iff.mp hm⟩
  · intro v hv
    obtain ⟨p₁, p₂, -, hw, he⟩ := o1 v hv
    simp only [bcSurfaceWord, if_true, if_false, String.reduceEq] at hw
    cases hm : bcOrigin cv v with
    | error t => rw [hm] at hw; cases hw
    | ok o => rw [hm] at hw; cases hw; rw [he]; exact (bcOrigin_iff cv v o).mp hm
  · intro v hv
    obtain ⟨b₁, b₂, rfl⟩ := List.append_of_mem hv
    obtain ⟨p₁, h1, h2⟩ := eachWord_append h
    rw [eachWord] at h2
    simp only [bcSurfaceWord, if_true, if_false, String.reduceEq] at h2
    have hs : ∀ x ∈ Block.keys b₂, "radius" < x := by
      unfold Block.Sorted Block.keys at hb
      rw [List.map_append, List.map_cons, List.pairwise_append] at hb
      exact (List.pairwise_cons.mp hb.2.1).1
    refine eachWord_keep (π := BcSlot.value) (fun p w v q hm hw => ?_) h2
    have hlt := hs w (List.mem_map_of_mem hm)
    refine (bcSurfaceWord_frame cv p w v q hw).2.2.2 ?_ ?_ <;> rintro rfl
    · exact String.lt_irrefl _ hlt
    · exact absurd hlt (by decide)
  · intro hn v hv
    refine (eachWord_field (π := BcSlot.value) "plane_position" cv.real hb.nodup
      (fun p w v q hm hne hw => (bcSurfaceWord_frame cv p w v q hw).2.2.2 ?_ hne)
      (fun p v q hw => by simp [bcSurfaceWord] at hw; rw [← hw]) h).1 v hv
    rintro rfl
    exact hn v hm
  · intro hn hn'
    refine (eachWord_keep (π := BcSlot.value) (fun p w v q hm hw =>
      (bcSurfaceWord_frame cv p w v q hw).2.2.2 ?_ ?_) h).trans hp3
    · rintro rfl; exact hn v hm
    · rintro rfl; exact hn' v hm

/-- What each word of a boundary condition may change. -/
theorem bcWord_frame (cv : NodeConv V K) (i s : ℕ) (p : BcState K) (w : String) (v : V)
    (q : BcState K) (h : bcWord cv i s p w v = .ok q) :
    (w ≠ "velocity_model" → (q.1.velSets, q.2.velModel, q.2.velFn) =
      (p.1.velSets, p.2.velModel, p.2.velFn)) ∧
    (w ≠ "temperature_model" → (q.1.tempSets, q.2.tempModel, q.2.tempFn) =
      (p.1.tempSets, p.2.tempModel, p.2.tempFn)) ∧
    (w ≠ "stress_model" → ((q.1.stressSets, q.1.allowContact, q.1.allowPreload, q.1.allowFracture,
      q.1.fractureId), q.2.stressModel, q.2.stressFn) =
      ((p.1.stressSets, p.1.allowContact, p.1.allowPreload, p.1.allowFracture,
      p.1.fractureId), p.2.stressModel, p.2.stressFn)) ∧
    (w ≠ "location" → q.2.location = p.2.location) ∧
    (w ≠ "surface" → q.2.surf = p.2.surf) ∧
    (w ≠ "velocity_bc_global_vars" → q.2.velVars = p.2.velVars) ∧
    (w ≠ "temperature_bc_global_vars" → q.2.tempVars = p.2.tempVars) ∧
    (w ≠ "stress_bc_global_vars" → q.2.stressVars = p.2.stressVars) ∧
    (w ≠ "contact_bc_vars" → (q.1.localIter, q.1.globalIter) = (p.1.localIter, p.1.globalIter)) := by
  have hw := ((bcWord_accepts cv i s p w v).mp ⟨q, h⟩).1
  simp only [bcWords, List.mem_cons, List.not_mem_nil, or_false] at hw
  rcases hw with rfl | rfl | rfl | rfl | rfl | rfl | rfl | rfl | rfl | rfl <;>
    simp only [bcWord, String.reduceEq, if_false, if_true] at h
  · cases h; simp
  · cases hm : eachWord (bcSurfaceWord cv) (cv.block v) p.2 with
    | error e => rw [hm] at h; cases h
    | ok r =>
      rw [hm] at h; cases h
      have := bcSurface_other cv _ _ _ hm
      simp only [BcSlot.other, Prod.mk.injEq] at this
      obtain ⟨⟨e1, e2⟩, ⟨e3, e4⟩, ⟨e5, e6⟩, e7, e8, e9, e10⟩ := this
      simp [e1, e2, e3, e4, e5, e6, e7, e8, e9, e10]
  · split at h <;> cases h
    simp [BcSlot.surf]
  · unfold bcVelWord at h
    split at h <;> cases h
    simp [BcSlot.surf]
  · split_ifs at h; cases h
    simp [BcSlot.surf]
  · unfold bcStressWord at h
    dsimp only at h
    split at h <;> cases h <;> simp [BcSlot.surf]
  · split_ifs at h; cases h
    simp [BcSlot.surf]
  · split at h <;> cases h
    simp
  · unfold bcTempWord at h
    dsimp only at h
    split at h <;> cases h <;> simp [BcSlot.surf]
  · split_ifs at h; cases h
    simp [BcSlot.surf]

theorem parseBc_slot (cv : NodeConv V K) (n : ℕ) (tol : K) (i : ℕ) (b : Block V) (g g' : BcGlob)
    (p : BcSlot K) (hb : b.Sorted) (hs : ∀ v, ("surface", v) ∈ b → (cv.block v).Sorted)
    (h : parseBc cv n tol i b g = .ok (g', p)) : BcSlotIs cv tol b p := by
  unfold parseBc at h
  split_ifs at h with hr
  cases hl : bcSolverLoop cv n b (-1) with
  | error e => rw [hl] at h; cases h
  | ok s =>
    rw [hl] at h
    dsimp only at h
    split_ifs at h with hpos
    obtain ⟨v1, v2⟩ := eachWord_one (w₀ := "velocity_model")
      (π := fun q : BcState K => (q.1.velSets, q.2.velModel, q.2.velFn)) hb.nodup
      (fun p w v q _ hne hw => (bcWord_frame cv i s.toNat p w v q hw).1 hne) h
    obtain ⟨t1, t2⟩ := eachWord_one (w₀ := "temperature_model")
      (π := fun q : BcState K => (q.1.tempSets, q.2.tempModel, q.2.tempFn)) hb.nodup
      (fun p w v q _ hne hw => (bcWord_frame cv i s.toNat p w v q hw).2.1 hne) h
    obtain ⟨s1, s2⟩ := eachWord_one (w₀ := "stress_model")
      (π := fun q : BcState K => ((q.1.stressSets, q.1.allowContact, q.1.allowPreload,
        q.1.allowFracture, q.1.fractureId), q.2.stressModel, q.2.stressFn)) hb.nodup
      (fun p w v q _ hne hw => (bcWord_frame cv i s.toNat p w v q hw).2.2.1 hne) h
    obtain ⟨l1, l2⟩ := eachWord_one (w₀ := "location")
      (π := fun q : BcState K => q.2.location) hb.nodup
      (fun p w v q _ hne hw => (bcWord_frame cv i s.toNat p w v q hw).2.2.2.1 hne) h
    obtain ⟨f1, f2⟩ := eachWord_one (w₀ := "surface")
      (π := fun q : BcState K => q.2.surf) hb.nodup
      (fun p w v q _ hne hw => (bcWord_frame cv i s.toNat p w v q hw).2.2.2.2.1 hne) h
    obtain ⟨a1, a2⟩ := eachWord_field (π := fun q : BcState K => q.2.velVars)
      "velocity_bc_global_vars" (fun v => (cv.list v).map cv.real) hb.nodup
      (fun p w v q _ hne hw => (bcWord_frame cv i s.toNat p w v q hw).2.2.2.2.2.1 hne)
      (fun p v q hw => by
        simp only [bcWord, String.reduceEq, if_false, if_true] at hw
        split_ifs at hw; cases hw; rfl) h
    obtain ⟨b1, b2⟩ := eachWord_field (π := fun q : BcState K => q.2.tempVars)
      "temperature_bc_global_vars" (fun v => (cv.list v).map cv.real) hb.nodup
      (fun p w v q _ hne hw => (bcWord_frame cv i s.toNat p w v q hw).2.2.2.2.2.2.1 hne)
      (fun p v q hw => by
        simp only [bcWord, String.reduceEq, if_false, if_true] at hw
        split_ifs at hw; cases hw; rfl) h
    obtain ⟨c1, c2⟩ := eachWord_field (π := fun q : BcState K => q.2.stressVars)
      "stress_bc_global_vars" (fun v => (cv.list v).map cv.real) hb.nodup
      (fun p w v q _ hne hw => (bcWord_frame cv i s.toNat p w v q hw).2.2.2.2.2.2.2.1 hne)
      (fun p v q hw => by
        simp only [bcWord, String.reduceEq, if_false, if_true] at hw
        split_ifs at hw; cases hw; rfl) h
    have ht : ∀ v, ("temperature_model", v) ∈ b →
        ((cv.str v, p.tempModel) ∈ tempTable ∨
          ((∀ m, (cv.str v, m) ∉ tempTable) ∧ p.tempModel = .none)) ∧
        p.tempFn = if p.tempModel = .constant then some .constant else none := by
      intro v hv
      obtain ⟨p₁, p₂, h1, hw, he⟩ := t1 v hv
      simp only [Prod.mk.injEq] at h1 he
      obtain ⟨-, h1, h1'⟩ := h1
      obtain ⟨-, h2, h2'⟩ := he
      simp only [BcSlot.default] at h1 h1'
      rw [h2, h2']
      simp only [bcWord, String.reduceEq, if_false, if_true, bcTempWord] at hw
      cases hm : bcTempMap (cv.str v) with
      | none =>
        rw [hm] at hw; cases hw
        rw [h1, h1']
        refine ⟨Or.inr ⟨fun m hm' => ?_, rfl⟩, by simp⟩
        rw [(bcTempMap_iff.mpr hm').1] at hm; cases hm
      | some m =>
        rw [hm] at hw
        cases m with
        | none => cases hw
        | constant => cases hw; exact ⟨Or.inl (bcTempMap_iff.mp ⟨hm, by simp⟩), by simp⟩
        | convection =>
          cases hw
          refine ⟨Or.inl (bcTempMap_iff.mp ⟨hm, by simp⟩), ?_⟩
          simp [h1']
        | radiation =>
          cases hw
          refine ⟨Or.inl (bcTempMap_iff.mp ⟨hm, by simp⟩), ?_⟩
          simp [h1']
    have hnt : (∀ v, ("temperature_model", v) ∉ b) → p.tempModel = .none ∧ p.tempFn = none := by
      intro hn
      have := t2 hn
      simp only [BcSlot.default, Prod.mk.injEq] at this
      exact this.2
    refine ⟨?_, ?_, ?_, fun v hv => (ht v hv).1, fun hn => (hnt hn).1, ?_, ?_, ?_, ?_, l2, a1, a2,
      b1, b2, c1, c2⟩
    · intro v hv
      obtain ⟨p₁, p₂, h1, hw, he⟩ := f1 v hv
      simp only [bcWord, String.reduceEq, if_false, if_true] at hw
      cases hm : eachWord (bcSurfaceWord cv) (cv.block v) p₁.2 with
      | error e => rw [hm] at hw; cases hw
      | ok r =>
        rw [hm] at hw; cases hw
        have := bcSurface_is cv tol _ (hs v hv) _ _ h1 hm
        simp only [BcSlot.surf, Prod.mk.injEq] at he
        obtain ⟨e1, e2, e3, e4⟩ := he
        obtain ⟨x1, x2, x3, x4, x5, x6, x7, x8, x9⟩ := this
        exact ⟨by rw [e1]; exact x1, by rw [e1]; exact x2, by rw [e2]; exact x3,
          by rw [e2]; exact x4, by rw [e4]; exact x5, by rw [e4]; exact x6, by rw [e3]; exact x7,
          by rw [e3]; exact x8, by rw [e3]; exact x9⟩
    · intro v hv
      obtain ⟨p₁, p₂, h1, hw, he⟩ := v1 v hv
      simp only [Prod.mk.injEq] at he
      obtain ⟨-, h2, h2'⟩ := he
      rw [h2, h2']
      simp only [bcWord, String.reduceEq, if_false, if_true, bcVelWord] at hw
      cases hm : bcVelMap (cv.str v) with
      | none => rw [hm] at hw; cases hw
      | some m =>
        rw [hm] at hw
        cases m with
        | none => cases hw
        | _ => cases hw; exact ⟨bcVelMap_iff.mp ⟨hm, by simp⟩, rfl⟩
    · intro hn
      have := v2 hn
      simp only [BcSlot.default, Prod.mk.injEq] at this
      exact this.2
    · by_cases hn : ∃ v, ("temperature_model", v) ∈ b
      · obtain ⟨v, hv⟩ := hn
        exact (ht v hv).2
      · have := hnt (fun v hv => hn ⟨v, hv⟩)
        rw [this.1, this.2]; simp
    · intro v m hv hm
      obtain ⟨p₁, p₂, h1, hw, he⟩ := s1 v hv
      simp only [Prod.mk.injEq] at h1 he
      obtain ⟨-, h1, h1'⟩ := h1
      obtain ⟨-, h2, h2'⟩ := he
      simp only [BcSlot.default] at h1 h1'
      rw [h2, h2']
      simp only [bcWord, String.reduceEq, if_false, if_true, bcStressWord] at hw
      obtain ⟨hm1, hm2⟩ := bcStressMap_iff.mpr hm
      rw [hm1] at hw
      cases m with
      | none => cases hw
      | _ => cases hw; simp [h1, h1']
    · intro hn
      have := s2 hn
      simp only [BcSlot.default, Prod.mk.injEq] at this
      exact this.2
    · intro v hv
      obtain ⟨p₁, p₂, h1, hw, he⟩ := l1 v hv
      simp only [bcWord, String.reduceEq, if_false, if_true] at hw
      rw [he]
      cases hm : bcLocMap (cv.str v) with
      | none => rw [hm] at hw; cases hw
      | some m => rw [hm] at hw; cases hw; exact bcLocMap_iff.mp hm

theorem parseBcsFrom_slots (cv : NodeConv V K) (n : ℕ) (tol : K) (bs : List (Block V)) (i : ℕ)
    (g g' : BcGlob) (ps : List (BcSlot K)) (hb : ∀ b ∈ bs, b.Sorted)
    (hs : ∀ b ∈ bs, ∀ v, ("surface", v) ∈ b → (cv.block v).Sorted)
    (h : parseBcsFrom cv n tol i bs g = .ok (g', ps)) :
    List.Forall₂ (BcSlotIs cv tol) bs ps := by
  induction bs generalizing i g ps with
  | nil => rw [parseBcsFrom] at h; cases h; exact .nil
  | cons b bs ih =>
    rw [parseBcsFrom] at h
    cases hq : parseBc cv n tol i b g with
    | error e => rw [hq] at h; cases h
    | ok q =>
      obtain ⟨g₁, p⟩ := q
      rw [hq] at h
      dsimp only at h
      cases hr : parseBcsFrom cv n tol (i + 1) bs g₁ with
      | error e => rw [hr] at h; cases h
      | ok r =>
        obtain ⟨g₂, ps'⟩ := r
        rw [hr] at h; cases h
        exact .cons (parseBc_slot cv n tol i b g g₁ p (hb b List.mem_cons_self)
          (hs b List.mem_cons_self) hq)
          (ih (i + 1) g₁ ps' (fun b hm => hb b (List.mem_cons_of_mem _ hm))
            (fun b hm => hs b (List.mem_cons_of_mem _ hm)) hr)

/-- **C108, parameters.** What is stored for a boundary condition is what its own block says and
the default where the block is silent: no other block has any influence on it. -/
theorem C108_own_block (cv : NodeConv V K) (n : ℕ) (tol : K) (bs : List (Block V)) (g : BcGlob)
    (ps : List (BcSlot K)) (hb : ∀ b ∈ bs, b.Sorted)
    (hs : ∀ b ∈ bs, ∀ v, ("surface", v) ∈ b → (cv.block v).Sorted)
    (h : parseBcs cv n tol bs = .ok (g, ps)) : List.Forall₂ (BcSlotIs cv tol) bs ps :=
  parseBcsFrom_slots cv n tol bs 0 _ g ps hb hs h

/-! ## Which solver gets which boundary condition -/

/-- The block names solver `t`. -/
def ForSolver (cv : NodeConv V K) (b : Block V) (t : ℕ) : Prop :=
  ∃ v, ("solver_id", v) ∈ b ∧ cv.int v = (t : ℤ)

/-- The block has the word `w`. -/
def HasWord (b : Block V) (w : String) : Prop := ∃ v, (w, v) ∈ b

/-- The block asks for the stress model called `name`. -/
def AsksStress (cv : NodeConv V K) (b : Block V) (name : String) : Prop :=
  ∃ v, ("stress_model", v) ∈ b ∧ cv.str v = name

open Classical in
theorem parseBc_glob (cv : NodeConv V K) (n : ℕ) (tol : K) (i : ℕ) (b : Block V) (g g' : BcGlob)
    (p : BcSlot K) (hb : b.Sorted) (h : parseBc cv n tol i b g = .ok (g', p)) :
    (∀ t, g'.velSets t = g.velSets t ++
      if ForSolver cv b t ∧ HasWord b "velocity_model" then [i] else []) ∧
    (∀ t, g'.tempSets t = g.tempSets t ++
      if ForSolver cv b t ∧ HasWord b "temperature_model" then [i] else []) ∧
    (∀ t, g'.stressSets t = g.stressSets t ++
      if ForSolver cv b t ∧ HasWord b "stress_model" then [i] else []) ∧
    (g'.allowContact = true ↔ g.allowContact = true ∨ AsksStress cv b "global_contact" ∨
      AsksStress cv b "preload_contact") ∧
    (g'.allowPreload = true ↔ g.allowPreload = true ∨ AsksStress cv b "preload_contact") ∧
    (g'.allowFracture = true ↔ g.allowFracture = true ∨ AsksStress cv b "fracture") ∧
    g'.fractureId = (if AsksStress cv b "fracture" then some i else g.fractureId) ∧
    (∀ v, ("contact_bc_vars", v) ∈ b →
      (cv.list v)[0]?.map cv.nat = some g'.localIter ∧
      (cv.list v)[1]?.map cv.nat = some g'.globalIter) ∧
    (¬ HasWord b "contact_bc_vars" →
      g'.localIter = g.localIter ∧ g'.globalIter = g.globalIter) := by
  unfold parseBc at h
  split_ifs at h with hr
  cases hl : bcSolverLoop cv n b (-1) with
  | error e => rw [hl] at h; cases h
  | ok s =>
    rw [hl] at h
    dsimp only at h
    split_ifs at h with hpos
    have hsol : ∀ t : ℕ, ForSolver cv b t ↔ t = s.toNat := by
      intro t
      rcases bcSolverLoop_val cv n b _ _ hl with ⟨-, h0⟩ | ⟨v, hv, hsv, h0, -⟩
      · obtain ⟨v, hv⟩ := hasRequired_iff.mp hr "solver_id" (by simp)
        exact absurd hv (h0 v)
      · constructor
        · rintro ⟨v', hv', hi⟩
          rw [mem_block_unique hb.nodup hv' hv] at hi
          omega
        · intro ht
          exact ⟨v, hv, by omega⟩
    obtain ⟨v1, v2⟩ := eachWord_one (w₀ := "velocity_model")
      (π := fun q : BcState K => (q.1.velSets, q.2.velModel, q.2.velFn)) hb.nodup
      (fun p w v q _ hne hw => (bcWord_frame cv i s.toNat p w v q hw).1 hne) h
    obtain ⟨t1, t2⟩ := eachWord_one (w₀ := "temperature_model")
      (π := fun q : BcState K => (q.1.tempSets, q.2.tempModel, q.2.tempFn)) hb.nodup
      (fun p w v q _ hne hw => (bcWord_frame cv i s.toNat p w v q hw).2.1 hne) h
    obtain ⟨s1, s2⟩ := eachWord_one (w₀ := "stress_model")
      (π := fun q : BcState K => ((q.1.stressSets, q.1.allowContact, q.1.allowPreload,
        q.1.allowFracture, q.1.fractureId), q.2.stressModel, q.2.stressFn)) hb.nodup
      (fun p w v q _ hne hw => (bcWord_frame cv i s.toNat p w v q hw).2.2.1 hne) h
    obtain ⟨c1, c2⟩ := eachWord_one (w₀ := "contact_bc_vars")
      (π := fun q : BcState K => (q.1.localIter, q.1.globalIter)) hb.nodup
      (fun p w v q _ hne hw => (bcWord_frame cv i s.toNat p w v q hw).2.2.2.2.2.2.2.2 hne) h
    have happ : ∀ (f f' : ℕ → List ℕ) (P : Prop),
        (P → f' = Function.update f s.toNat (f s.toNat ++ [i])) → (¬ P → f' = f) →
        ∀ t, f' t = f t ++ if ForSolver cv b t ∧ P then [i] else [] := by
      intro f f' P h1 h2 t
      by_cases hP : P
      · rw [h1 hP]
        by_cases ht : t = s.toNat
        · subst ht
          simp [hP, hsol]
        · simp [hsol, ht]
      · rw [h2 hP]; simp [hP]
    have hvel : (HasWord b "velocity_model" → g'.velSets =
        Function.update g.velSets s.toNat (g.velSets s.toNat ++ [i])) := by
      rintro ⟨v, hv⟩
      obtain ⟨p₁, p₂, h1, hw, he⟩ := v1 v hv
      simp only [Prod.mk.injEq] at h1 he
      simp only [bcWord, String.reduceEq, if_false, if_true, bcVelWord] at hw
      rw [he.1]
      split at hw <;> cases hw
      rw [h1.1]
    have hvel' : (¬ HasWord b "velocity_model" → g'.velSets = g.velSets) := by
      intro hn
      have := v2 fun v hv => hn ⟨v, hv⟩
      simp only [Prod.mk.injEq] at this
      exact this.1
    have htem : (HasWord b "temperature_model" → g'.tempSets =
        Function.update g.tempSets s.toNat (g.tempSets s.toNat ++ [i])) := by
      rintro ⟨v, hv⟩
      obtain ⟨p₁, p₂, h1, hw, he⟩ := t1 v hv
      simp only [Prod.mk.injEq] at h1 he
      simp only [bcWord, String.reduceEq, if_false, if_true, bcTempWord] at hw
      rw [he.1]
      split at hw <;> cases hw <;> rw [h1.1]
    have htem' : (¬ HasWord b "temperature_model" → g'.tempSets = g.tempSets) := by
      intro hn
      have := t2 fun v hv => hn ⟨v, hv⟩
      simp only [Prod.mk.injEq] at this
      exact this.1
    have hstr : (HasWord b "stress_model" → g'.stressSets =
        Function.update g.stressSets s.toNat (g.stressSets s.toNat ++ [i])) := by
      rintro ⟨v, hv⟩
      obtain ⟨p₁, p₂, h1, hw, he⟩ := s1 v hv
      simp only [Prod.mk.injEq] at h1 he
      simp only [bcWord, String.reduceEq, if_false, if_true, bcStressWord] at hw
      rw [he.1.1]
      split at hw <;> cases hw <;> simp only [h1.1.1]
    have hstr' : (¬ HasWord b "stress_model" → (g'.stressSets = g.stressSets ∧
        g'.allowContact = g.allowContact ∧ g'.allowPreload = g.allowPreload ∧
        g'.allowFracture = g.allowFracture ∧ g'.fractureId = g.fractureId)) := by
      intro hn
      have := s2 fun v hv => hn ⟨v, hv⟩
      simp only [Prod.mk.injEq] at this
      exact this.1
    have hflags : (g'.allowContact = true ↔ g.allowContact = true ∨
          AsksStress cv b "global_contact" ∨ AsksStress cv b "preload_contact") ∧
        (g'.allowPreload = true ↔ g.allowPreload = true ∨ AsksStress cv b "preload_contact") ∧
        (g'.allowFracture = true ↔ g.allowFracture = true ∨ AsksStress cv b "fracture") ∧
        g'.fractureId = (if AsksStress cv b "fracture" then some i else g.fractureId) := by
      by_cases hn : HasWord b "stress_model"
      · obtain ⟨v, hv⟩ := hn
        have hask : ∀ name, AsksStress cv b name ↔ cv.str v = name := by
          intro name
          constructor
          · rintro ⟨v', hv', he⟩
            rw [mem_block_unique hb.nodup hv' hv] at he
            exact he
          · exact fun he => ⟨v, hv, he⟩
        obtain ⟨p₁, p₂, h1, hw, he⟩ := s1 v hv
        have hgood := ((bcWord_accepts cv i s.toNat p₁ "stress_model" v).mp ⟨_, hw⟩).2.2.2.2.1 rfl
        obtain ⟨m, hm⟩ := hgood
        have hm1 := (bcStressMap_iff.mpr hm).1
        simp only [Prod.mk.injEq] at h1 he
        obtain ⟨⟨-, a1, a2, a3, a4⟩, -⟩ := h1
        obtain ⟨⟨-, e1, e2, e3, e4⟩, -⟩ := he
        simp only [bcWord, String.reduceEq, if_false, if_true, bcStressWord, hm1] at hw
        rw [hask, hask, hask, e1, e2, e3, e4, ← a1, ← a2, ← a3, ← a4]
        simp only [stressTable, List.mem_cons, Prod.mk.injEq, List.not_mem_nil, or_false] at hm
        rcases hm with ⟨hs, rfl⟩ | ⟨hs, rfl⟩ | ⟨hs, rfl⟩ | ⟨hs, rfl⟩ | ⟨hs, rfl⟩ | ⟨hs, rfl⟩ <;>
          cases hw <;> simp [hs]
      · obtain ⟨-, e1, e2, e3, e4⟩ := hstr' hn
        have hask : ∀ name, ¬ AsksStress cv b name := fun name ⟨v, hv, _⟩ => hn ⟨v, hv⟩
        rw [e1, e2, e3, e4]
        simp [hask]
    refine ⟨happ _ _ _ hvel hvel', happ _ _ _ htem htem',
      happ _ _ _ hstr (fun hn => (hstr' hn).1), hflags.1, hflags.2.1, hflags.2.2.1, hflags.2.2.2,
      ?_, ?_⟩
    · intro v hv
      obtain ⟨p₁, p₂, h1, hw, he⟩ := c1 v hv
      simp only [Prod.mk.injEq] at he
      simp only [bcWord, String.reduceEq, if_false, if_true] at hw
      rw [he.1, he.2]
      split at hw
      · rename_i a c hl
        cases hw
        rw [hl]
        simp
      · cases hw
    · intro hn
      have := c2 fun v hv => hn ⟨v, hv⟩
      simpa using this

open Classical in
/-- The numbers, from `i` on, of the blocks with property `P`. -/
noncomputable def idsFrom (P : Block V → Prop) : ℕ → List (Block V) → List ℕ
  | _, [] => []
  | i, b :: bs => (if P b then [i] else []) ++ idsFrom P (i + 1) bs

theorem mem_idsFrom {P : Block V → Prop} {i k : ℕ} {bs : List (Block V)} :
    k ∈ idsFrom P i bs ↔ ∃ j b, k = i + j ∧ bs[j]? = some b ∧ P b := by
  induction bs generalizing i with
  | nil => simp [idsFrom]
  | cons b bs ih =>
    rw [idsFrom, List.mem_append, ih]
    constructor
    · rintro (h | ⟨j, b', h1, h2, h3⟩)
      · split_ifs at h with hP
        · simp only [List.mem_singleton] at h
          exact ⟨0, b, by omega, rfl, hP⟩
        · exact absurd h List.not_mem_nil
      · exact ⟨j + 1, b', by omega, by simpa using h2, h3⟩
    · rintro ⟨j, b', h1, h2, h3⟩
      rcases j with - | j
      · simp only [List.length_cons, Nat.zero_lt_succ, getElem?_pos, List.getElem_cons_zero,
          Option.some.injEq] at h2
        subst h2
        left; simp [h3, h1]
      · right; exact ⟨j, b', by omega, by simpa using h2, h3⟩

theorem idsFrom_sorted (P : Block V → Prop) (i : ℕ) (bs : List (Block V)) :
    (idsFrom P i bs).Pairwise (· < ·) := by
  induction bs generalizing i with
  | nil => simp [idsFrom]
  | cons b bs ih =>
    rw [idsFrom, List.pairwise_append]
    refine ⟨by split_ifs <;> simp, ih _, ?_⟩
    intro x hx y hy
    obtain ⟨j, b', h1, -, -⟩ := mem_idsFrom.mp hy
    split_ifs at hx
    · simp only [List.mem_singleton] at hx; omega
    · exact absurd hx List.not_mem_nil

/-- The steps of the loop over the blocks. -/
theorem parseBcsFrom_cons {cv : NodeConv V K} {n : ℕ} {tol : K} {i : ℕ} {b : Block V}
    {bs : List (Block V)} {g g'' : BcGlob} {ps : List (BcSlot K)}
    (h : parseBcsFrom cv n tol i (b :: bs) g = .ok (g'', ps)) :
    ∃ g' p ps', parseBc cv n tol i b g = .ok (g', p) ∧
      parseBcsFrom cv n tol (i + 1) bs g' = .ok (g'', ps') ∧ ps = p :: ps' := by
  rw [parseBcsFrom] at h
  cases hq : parseBc cv n tol i b g with
  | error e => rw [hq] at h; cases h
  | ok q =>
    obtain ⟨g₁, p⟩ := q
    rw [hq] at h
    dsimp only at h
    cases hr : parseBcsFrom cv n tol (i + 1) bs g₁ with
    | error e => rw [hr] at h; cases h
    | ok r =>
      obtain ⟨g₂, ps'⟩ := r
      rw [hr] at h; cases h
      exact ⟨g₁, p, ps', rfl, hr, rfl⟩

theorem parseBcsFrom_glob (cv : NodeConv V K) (n : ℕ) (tol : K) (bs : List (Block V)) (i : ℕ)
    (g g' : BcGlob) (ps : List (BcSlot K)) (hb : ∀ b ∈ bs, b.Sorted)
    (h : parseBcsFrom cv n tol i bs g = .ok (g', ps)) :
    (∀ t, g'.velSets t = g.velSets t ++
      idsFrom (fun b => ForSolver cv b t ∧ HasWord b "velocity_model") i bs) ∧
    (∀ t, g'.tempSets t = g.tempSets t ++
      idsFrom (fun b => ForSolver cv b t ∧ HasWord b "temperature_model") i bs) ∧
    (∀ t, g'.stressSets t = g.stressSets t ++
      idsFrom (fun b => ForSolver cv b t ∧ HasWord b "stress_model") i bs) ∧
    (g'.allowContact = true ↔ g.allowContact = true ∨ ∃ b ∈ bs,
      AsksStress cv b "global_contact" ∨ AsksStress cv b "preload_contact") ∧
    (g'.allowPreload = true ↔ g.allowPreload = true ∨ ∃ b ∈ bs, AsksStress cv b "preload_contact") ∧
    (g'.allowFracture = true ↔ g.allowFracture = true ∨ ∃ b ∈ bs, AsksStress cv b "fracture") ∧
    g'.fractureId = ((idsFrom (fun b => AsksStress cv b "fracture") i bs).getLast?).or
      g.fractureId ∧
    (∀ l b r v, bs = l ++ b :: r → ("contact_bc_vars", v) ∈ b →
      (∀ c ∈ r, ¬ HasWord c "contact_bc_vars") →
      (cv.list v)[0]?.map cv.nat = some g'.localIter ∧
      (cv.list v)[1]?.map cv.nat = some g'.globalIter) ∧
    ((∀ b ∈ bs, ¬ HasWord b "contact_bc_vars") →
      g'.localIter = g.localIter ∧ g'.globalIter = g.globalIter) := by
  induction bs generalizing i g ps with
  | nil => rw [parseBcsFrom] at h; cases h; simp [idsFrom]
  | cons b bs ih =>
    obtain ⟨g₁, p, ps', h1, h2, -⟩ := parseBcsFrom_cons h
    obtain ⟨a1, a2, a3, a4, a5, a6, a7, a8, a9⟩ := ih (i + 1) g₁ ps'
      (fun b hm => hb b (List.mem_cons_of_mem _ hm)) h2
    obtain ⟨b1, b2, b3, b4, b5, b6, b7, b8, b9⟩ := parseBc_glob cv n tol i b g g₁ p
      (hb b List.mem_cons_self) h1
    refine ⟨fun t => by rw [a1, b1, idsFrom, List.append_assoc]; congr!,
      fun t => by rw [a2, b2, idsFrom, List.append_assoc]; congr!,
      fun t => by rw [a3, b3, idsFrom, List.append_assoc]; congr!,
      by rw [a4, b4, List.exists_mem_cons_iff, or_assoc],
      by rw [a5, b5, List.exists_mem_cons_iff, or_assoc],
      by rw [a6, b6, List.exists_mem_cons_iff, or_assoc], ?_, ?_, ?_⟩
    · rw [a7, b7, idsFrom, List.getLast?_append]
      cases (idsFrom (fun b => AsksStress cv b "fracture") (i + 1) bs).getLast? with
      | none => by_cases hP : AsksStress cv b "fracture" <;> simp [hP]
      | some x => simp
    · intro l c r v he hv hr
      rcases l with - | ⟨d, l⟩
      · simp only [List.nil_append, List.cons.injEq] at he
        obtain ⟨rfl, rfl⟩ := he
        obtain ⟨e1, e2⟩ := a9 hr
        rw [e1, e2]
        exact b8 v hv
      · simp only [List.cons_append, List.cons.injEq] at he
        exact a8 l c r v he.2 hv hr
    · intro hno
      obtain ⟨e1, e2⟩ := a9 fun b hm => hno b (List.mem_cons_of_mem _ hm)
      obtain ⟨f1, f2⟩ := b9 (hno b List.mem_cons_self)
      exact ⟨e1.trans f1, e2.trans f2⟩

theorem mem_idsFrom_zero {P : Block V → Prop} {k : ℕ} {bs : List (Block V)} :
    k ∈ idsFrom P 0 bs ↔ ∃ b, bs[k]? = some b ∧ P b := by
  rw [mem_idsFrom]
  constructor
  · rintro ⟨j, b, h1, h2⟩
    rw [Nat.zero_add] at h1; subst h1
    exact ⟨b, h2⟩
  · rintro ⟨b, h⟩
    exact ⟨k, b, by omega, h⟩

/-- **C108, which solver gets which boundary condition.** The velocity sets of a solver are, each
once and in the order of the deck, the blocks that name this solver and have a velocity model; the
same for temperature and stress. -/
theorem C108_sets (cv : NodeConv V K) (n : ℕ) (tol : K) (bs : List (Block V)) (g : BcGlob)
    (ps : List (BcSlot K)) (hb : ∀ b ∈ bs, b.Sorted) (h : parseBcs cv n tol bs = .ok (g, ps))
    (t : ℕ) :
    ((∀ k, k ∈ g.velSets t ↔
      ∃ b, bs[k]? = some b ∧ ForSolver cv b t ∧ HasWord b "velocity_model") ∧
      (g.velSets t).Pairwise (· < ·)) ∧
    ((∀ k, k ∈ g.tempSets t ↔
      ∃ b, bs[k]? = some b ∧ ForSolver cv b t ∧ HasWord b "temperature_model") ∧
      (g.tempSets t).Pairwise (· < ·)) ∧
    ((∀ k, k ∈ g.stressSets t ↔
      ∃ b, bs[k]? = some b ∧ ForSolver cv b t ∧ HasWord b "stress_model") ∧
      (g.stressSets t).Pairwise (· < ·)) := by
  obtain ⟨h1, h2, h3, -⟩ := parseBcsFrom_glob cv n tol bs 0 _ g ps hb h
  simp only [BcGlob.default, List.nil_append] at h1 h2 h3
  rw [h1, h2, h3]
  exact ⟨⟨fun k => mem_idsFrom_zero, idsFrom_sorted _ _ _⟩,
    ⟨fun k => mem_idsFrom_zero, idsFrom_sorted _ _ _⟩,
    ⟨fun k => mem_idsFrom_zero, idsFrom_sorted _ _ _⟩⟩

theorem idsFrom_length (P : Block V → Prop) (i : ℕ) (bs : List (Block V)) :
    (idsFrom P i bs).length ≤ bs.length := by
  induction bs generalizing i with
  | nil => simp [idsFrom]
  | cons b bs ih =>
    have := ih (i + 1)
    rw [idsFrom, List.length_append, List.length_cons]
    split_ifs <;> simp <;> omega

/-- **C108, the rows are long enough.** No solver gets more sets than its row of the tables has
columns, and a solver that does not exist gets none. -/
theorem C108_room (cv : NodeConv V K) (n : ℕ) (tol : K) (bs : List (Block V)) (g : BcGlob)
    (ps : List (BcSlot K)) (hb : ∀ b ∈ bs, b.Sorted) (h : parseBcs cv n tol bs = .ok (g, ps))
    (t : ℕ) :
    (g.velSets t).length ≤ bs.length ∧ (g.tempSets t).length ≤ bs.length ∧
    (g.stressSets t).length ≤ bs.length ∧
    (n ≤ t → g.velSets t = [] ∧ g.tempSets t = [] ∧ g.stressSets t = []) := by
  obtain ⟨h1, h2, h3, -⟩ := parseBcsFrom_glob cv n tol bs 0 _ g ps hb h
  simp only [BcGlob.default, List.nil_append] at h1 h2 h3
  have hok := (C108_accepts_iff cv n tol bs).mp ⟨_, h⟩
  refine ⟨by rw [h1]; exact idsFrom_length _ _ _, by rw [h2]; exact idsFrom_length _ _ _,
    by rw [h3]; exact idsFrom_length _ _ _, fun ht => ?_⟩
  have key : ∀ w, idsFrom (fun b => ForSolver cv b t ∧ HasWord b w) 0 bs = [] := by
    intro w
    rw [List.eq_nil_iff_forall_not_mem]
    intro k hk
    obtain ⟨b, hbk, ⟨v, hv, hi⟩, -⟩ := mem_idsFrom_zero.mp hk
    have := (hok b (List.mem_of_getElem? hbk)).solver v hv
    omega
  rw [h1, h2, h3]
  exact ⟨key _, key _, key _⟩

/-- **C108, contact and fracture.** Contact is switched on exactly if some boundary condition asks
for `global_contact` or `preload_contact`, preload exactly if one asks for `preload_contact`,
fracture exactly if one asks for `fracture`; the fracture parameters are those of the last of
them. -/
theorem C108_switches (cv : NodeConv V K) (n : ℕ) (tol : K) (bs : List (Block V)) (g : BcGlob)
    (ps : List (BcSlot K)) (hb : ∀ b ∈ bs, b.Sorted) (h : parseBcs cv n tol bs = .ok (g, ps)) :
    (g.allowContact = true ↔ ∃ b ∈ bs,
      AsksStress cv b "global_contact" ∨ AsksStress cv b "preload_contact") ∧
    (g.allowPreload = true ↔ ∃ b ∈ bs, AsksStress cv b "preload_contact") ∧
    (g.allowFracture = true ↔ ∃ b ∈ bs, AsksStress cv b "fracture") ∧
    (∀ k, g.fractureId = some k ↔ (∃ b, bs[k]? = some b ∧ AsksStress cv b "fracture") ∧
      ∀ j b, k < j → bs[j]? = some b → ¬ AsksStress cv b "fracture") := by
  obtain ⟨-, -, -, h4, h5, h6, h7, -⟩ := parseBcsFrom_glob cv n tol bs 0 _ g ps hb h
  simp only [BcGlob.default, Bool.false_eq_true, false_or, Option.or_none] at h4 h5 h6 h7
  refine ⟨h4, h5, h6, fun k => ?_⟩
  rw [h7]
  have hs := idsFrom_sorted (fun b => AsksStress cv b "fracture") 0 bs
  have hmem : ∀ k, k ∈ idsFrom (fun b => AsksStress cv b "fracture") 0 bs ↔ _ :=
    fun k => mem_idsFrom_zero
  rw [List.getLast?_eq_some_iff]
  constructor
  · rintro ⟨l, hl⟩
    refine ⟨(hmem k).mp (by rw [hl]; simp), fun j b hj hb hP => ?_⟩
    have hjm := (hmem j).mpr ⟨b, hb, hP⟩
    rw [hl] at hjm hs
    rw [List.pairwise_append] at hs
    rcases List.mem_append.mp hjm with hm | hm
    · have := hs.2.2 j hm k (by simp); omega
    · simp at hm; omega
  · rintro ⟨hk, hlast⟩
    obtain ⟨l, r, hl⟩ := List.append_of_mem ((hmem k).mpr hk)
    rcases r with - | ⟨x, r⟩
    · exact ⟨l, hl⟩
    · exfalso
      have hx := (hmem x).mp (by rw [hl]; simp)
      obtain ⟨b, hbx, hP⟩ := hx
      rw [hl, List.pairwise_append] at hs
      have := (List.pairwise_cons.mp hs.2.1).1 x (by simp)
      exact hlast x b this hbx hP

/-- **C108, contact iterations.** The limits of the contact iterations are the two numbers of the
last boundary condition that gives them, 500 and 100 if none does. -/
theorem C108_contact_limits (cv : NodeConv V K) (n : ℕ) (tol : K) (bs : List (Block V)) (g : BcGlob)
    (ps : List (BcSlot K)) (hb : ∀ b ∈ bs, b.Sorted) (h : parseBcs cv n tol bs = .ok (g, ps)) :
    (∀ l b r v, bs = l ++ b :: r → ("contact_bc_vars", v) ∈ b →
      (∀ c ∈ r, ¬ HasWord c "contact_bc_vars") →
      (cv.list v).map cv.nat = [g.localIter, g.globalIter]) ∧
    ((∀ b ∈ bs, ¬ HasWord b "contact_bc_vars") → g.localIter = 500 ∧ g.globalIter = 100) := by
  obtain ⟨-, -, -, -, -, -, -, h8, h9⟩ := parseBcsFrom_glob cv n tol bs 0 _ g ps hb h
  refine ⟨fun l b r v he hv hr => ?_, h9⟩
  have hlen := ((C108_accepts_iff cv n tol bs).mp ⟨_, h⟩ b (by rw [he]; simp)).contact v hv
  obtain ⟨h1, h2⟩ := h8 l b r v he hv hr
  rcases hl : cv.list v with - | ⟨x, - | ⟨y, - | ⟨z, w⟩⟩⟩ <;> rw [hl] at hlen h1 h2 <;> simp at hlen
  simp at h1 h2
  simp [h1, h2]

/-- **C108, velocity functions.** Every velocity set of a solver has the function of the model it
names: `boundary_velocity` never calls through a null pointer. -/
theorem C108_velocity_calls (cv : NodeConv V K) (n : ℕ) (tol : K) (bs : List (Block V)) (g : BcGlob)
    (ps : List (BcSlot K)) (hb : ∀ b ∈ bs, b.Sorted)
    (hs : ∀ b ∈ bs, ∀ v, ("surface", v) ∈ b → (cv.block v).Sorted)
    (h : parseBcs cv n tol bs = .ok (g, ps)) (t k : ℕ) (hk : k ∈ g.velSets t) :
    ∃ b v p m, bs[k]? = some b ∧ ("velocity_model", v) ∈ b ∧ ps[k]? = some p ∧
      p.velFn = some m ∧ (cv.str v, m) ∈ velTable := by
  obtain ⟨b, hbk, -, v, hv⟩ := (C108_sets cv n tol bs g ps hb h t).1.1 k |>.mp hk
  have hf := C108_own_block cv n tol bs g ps hb hs h
  obtain ⟨hk1, hk2⟩ := List.getElem?_eq_some_iff.mp hbk
  have hk3 : k < ps.length := hf.length_eq ▸ hk1
  have := (List.forall₂_iff_get.mp hf).2 k hk1 hk3
  rw [List.get_eq_getElem, List.get_eq_getElem, hk2] at this
  obtain ⟨e1, e2⟩ := this.velocity v hv
  exact ⟨b, v, ps[k], _, hbk, hv, List.getElem?_eq_getElem hk3, e2, e1⟩

theorem forall₂_slot {cv : NodeConv V K} {tol : K} {bs : List (Block V)} {ps : List (BcSlot K)}
    (hf : List.Forall₂ (BcSlotIs cv tol) bs ps) {k : ℕ} {b : Block V} (hbk : bs[k]? = some b) :
    ∃ p, ps[k]? = some p ∧ BcSlotIs cv tol b p := by
  obtain ⟨hk1, hk2⟩ := List.getElem?_eq_some_iff.mp hbk
  have hk3 : k < ps.length := hf.length_eq ▸ hk1
  have := (List.forall₂_iff_get.mp hf).2 k hk1 hk3
  rw [List.get_eq_getElem, List.get_eq_getElem, hk2] at this
  exact ⟨ps[k], List.getElem?_eq_getElem hk3, this⟩

/-- **C108, thermal boundary conditions.** The sets to which the thermal solver applies a fixed
temperature, convection or radiation are exactly the blocks with this temperature model, whatever
solver they name. -/
theorem C108_thermal (cv : NodeConv V K) (n : ℕ) (tol : K) (bs : List (Block V)) (g : BcGlob)
    (ps : List (BcSlot K)) (hb : ∀ b ∈ bs, b.Sorted)
    (hs : ∀ b ∈ bs, ∀ v, ("surface", v) ∈ b → (cv.block v).Sorted)
    (h : parseBcs cv n tol bs = .ok (g, ps)) (m : BcTemp) (hm : m ≠ .none) (k : ℕ) :
    k ∈ thermalSets m ps ↔
      ∃ b v, bs[k]? = some b ∧ ("temperature_model", v) ∈ b ∧ (cv.str v, m) ∈ tempTable := by
  have hf := C108_own_block cv n tol bs g ps hb hs h
  unfold thermalSets
  simp only [List.mem_filter, List.mem_range, beq_iff_eq, Option.map_eq_some_iff]
  constructor
  · rintro ⟨hk, p, hp, rfl⟩
    have hbk : bs[k]? = some (bs[k]'(hf.length_eq ▸ hk)) := List.getElem?_eq_getElem _
    obtain ⟨p', hp', hslot⟩ := forall₂_slot hf hbk
    rw [hp] at hp'; cases hp'
    by_cases hw : ∃ v, ("temperature_model", v) ∈ bs[k]'(hf.length_eq ▸ hk)
    · obtain ⟨v, hv⟩ := hw
      rcases hslot.temperature v hv with ht | ⟨-, ht⟩
      · exact ⟨_, v, hbk, hv, ht⟩
      · exact absurd ht hm
    · exact absurd (hslot.noTemperature fun v hv => hw ⟨v, hv⟩) hm
  · rintro ⟨b, v, hbk, hv, ht⟩
    obtain ⟨p, hp, hslot⟩ := forall₂_slot hf hbk
    refine ⟨(List.getElem?_eq_some_iff.mp hp).1, p, hp, ?_⟩
    rcases hslot.temperature v hv with ht' | ⟨hno, -⟩
    · have e1 := (bcTempMap_iff.mpr ht).1
      rw [(bcTempMap_iff.mpr ht').1] at e1
      exact Option.some.inj e1
    · exact absurd ht (hno m)

/-- **C108, stress functions.** `boundary_stress` calls only functions that exist exactly if no
contact boundary condition of this solver has a boundary patch. -/
theorem C108_stress_calls_iff (cv : NodeConv V K) (n : ℕ) (tol : K) (bs : List (Block V))
    (g : BcGlob) (ps : List (BcSlot K)) (hb : ∀ b ∈ bs, b.Sorted)
    (hs : ∀ b ∈ bs, ∀ v, ("surface", v) ∈ b → (cv.block v).Sorted)
    (h : parseBcs cv n tol bs = .ok (g, ps)) (t : ℕ) (patches : ℕ → ℕ) :
    (∃ l, stressCalls ps patches (g.stressSets t) = some l) ↔
      ∀ k b, bs[k]? = some b → ForSolver cv b t →
        (AsksStress cv b "global_contact" ∨ AsksStress cv b "preload_contact") →
        patches k = 0 := by
  have hf := C108_own_block cv n tol bs g ps hb hs h
  obtain ⟨hmem, -⟩ := (C108_sets cv n tol bs g ps hb h t).2.2
  have hok := (C108_accepts_iff cv n tol bs).mp ⟨_, h⟩
  have hcalls : ∀ is, (∃ l, stressCalls ps patches is = some l) ↔
      ∀ i ∈ is, patches i = 0 ∨ ∃ f, ps[i]?.bind (·.stressFn) = some f := by
    intro is
    induction is with
    | nil => simp [stressCalls]
    | cons i is ih =>
      rw [stressCalls, List.forall_mem_cons, ← ih]
      cases stressCalls ps patches is with
      | none => simp
      | some l =>
        simp only [Option.some.injEq, exists_eq', and_true]
        by_cases hp : patches i = 0
        · simp [hp]
        · cases ps[i]?.bind (·.stressFn) <;> simp [hp]
  rw [hcalls]
  constructor
  · rintro hall k b hbk hfor hask
    have hv : ∃ v, ("stress_model", v) ∈ b ∧ (cv.str v = "global_contact" ∨
        cv.str v = "preload_contact") := by
      rcases hask with ⟨v, hv, hn⟩ | ⟨v, hv, hn⟩
      · exact ⟨v, hv, Or.inl hn⟩
      · exact ⟨v, hv, Or.inr hn⟩
    obtain ⟨v, hv, hn⟩ := hv
    rcases hall k ((hmem k).mpr ⟨b, hbk, hfor, v, hv⟩) with hp | ⟨f, hp⟩
    · exact hp
    · exfalso
      obtain ⟨p, hpk, hslot⟩ := forall₂_slot hf hbk
      rw [hpk] at hp
      simp only [Option.bind_some] at hp
      rcases hn with hn | hn
      · have := hslot.stress v .globalContact hv (by rw [hn]; simp [stressTable])
        simp [hp] at this
      · have := hslot.stress v .preloadContact hv (by rw [hn]; simp [stressTable])
        simp [hp] at this
  · intro hall k hk
    obtain ⟨b, hbk, hfor, v, hv⟩ := (hmem k).mp hk
    obtain ⟨m, hm⟩ := (hok b (List.mem_of_getElem? hbk)).stress v hv
    obtain ⟨p, hpk, hslot⟩ := forall₂_slot hf hbk
    have := hslot.stress v m hv hm
    split_ifs at this with hc
    · left
      refine hall k b hbk hfor ?_
      simp only [stressTable, List.mem_cons, Prod.mk.injEq, List.not_mem_nil, or_false] at hm
      rcases hc with rfl | rfl
      · left; exact ⟨v, hv, by simpa using hm⟩
      · right; exact ⟨v, hv, by simpa using hm⟩
    · right
      exact ⟨m, by rw [hpk]; exact this.2⟩

/-- **C108, origins.** An origin written as a bracketed list of three (or two) numbers is read as
the point with these coordinates (third coordinate 0). -/
theorem C108_origin (cv : NodeConv V K) (x y z : List Char) (a b c : K)
    (hx : ',' ∉ x) (hy : ',' ∉ y) (hz : ',' ∉ z) (ha : cv.stod x = some a) (hb : cv.stod y = some b)
    (hc : cv.stod z = some c) (o : K × K × K) :
    (OriginText cv ('[' :: (x ++ ',' :: (y ++ ',' :: (z ++ [']'])))) o ↔ o = (a, b, c)) ∧
    (OriginText cv ('[' :: (x ++ ',' :: (y ++ [']']))) o ↔ o = (a, b, 0)) := by
  obtain ⟨o1, o2, o3⟩ := o
  have h3 := C32_array_values '[' ']' [x, y, z] (by simp) (by
    intro p hp; simp at hp; rcases hp with rfl | rfl | rfl <;> assumption)
  have h2 := C32_array_values '[' ']' [x, y] (by simp) (by
    intro p hp; simp at hp; rcases hp with rfl | rfl <;> assumption)
  simp only [List.intercalate, List.intersperse_cons_cons, List.flatten_cons, List.append_assoc,
    List.cons_append, List.nil_append, List.intersperse_singleton, List.flatten_nil,
    List.append_nil] at h3 h2
  unfold OriginText
  rw [h3, h2]
  constructor
  · simp [ha, hb, hc, eq_comm]
  · simp [ha, hb, eq_comm (a := a), eq_comm (a := b)]

/-! ## Where the deck does not mean what it says -/

/-- A small deck language for the examples. -/
def exBcConv : NodeConv String ℚ where
  int s := if s = "0" then 0 else if s = "1" then 1 else -7
  real s := if s = "0" then 0 else if s = "1" then 1 else if s = "2" then 2 else 3
  bool _ := false
  str s := s
  nat s := if s = "1" then 1 else 7
  block s :=
    if s = "plane" then [("plane_position", "2"), ("type", "x_plane")]
    else if s = "both" then [("plane_position", "2"), ("radius", "1"), ("type", "x_plane")]
    else if s = "all" then [("type", "global")]
    else [("plane_position", "2")]
  list s := if s = "u" then ["1", "0", "2"] else ["1", "0"]
  stod _ := some 0

/-- A deck with two solvers: a wall, a heater, contact, and a wall without a type. -/
def exDeck : List (Block String) :=
  [[("solver_id", "0"), ("surface", "plane"), ("velocity_bc_global_vars", "u"),
      ("velocity_model", "reflected")],
   [("solver_id", "1"), ("surface", "both"), ("temperature_bc_global_vars", "u"),
      ("temperature_model", "constant")],
   [("contact_bc_vars", "u2"), ("solver_id", "0"), ("stress_model", "global_contact"),
      ("surface", "plane")],
   [("solver_id", "0"), ("surface", "untyped"), ("temperature_model", "dirichlet")]]

theorem exDeck_ok : ∃ g ps, parseBcs exBcConv 2 (1 / 10000000) exDeck = .ok (g, ps) := by
  have hall : ∀ b ∈ exDeck, BcBlockOk exBcConv 2 b := by
    intro b hb
    simp only [exDeck, List.mem_cons, List.not_mem_nil, or_false] at hb
    rcases hb with rfl | rfl | rfl | rfl <;> constructor <;>
      simp [bcWords, exBcConv, SurfaceOk, velTable, stressTable, surfaceTable] <;> tauto
  obtain ⟨⟨g, ps⟩, h⟩ := (C108_accepts_iff exBcConv 2 (1 / 10000000) exDeck).mpr hall
  exact ⟨g, ps, h⟩

theorem exDeck_sorted : (∀ b ∈ exDeck, b.Sorted) ∧
    ∀ b ∈ exDeck, ∀ v, ("surface", v) ∈ b → (exBcConv.block v).Sorted := by
  constructor
  · intro b hb
    simp only [exDeck, List.mem_cons, List.not_mem_nil, or_false] at hb
    rcases hb with rfl | rfl | rfl | rfl <;> unfold Block.Sorted Block.keys <;> decide
  · intro b hb v hv
    simp only [exDeck, List.mem_cons, List.not_mem_nil, or_false] at hb
    rcases hb with rfl | rfl | rfl | rfl <;> simp at hv <;> subst hv <;>
      unfold Block.Sorted Block.keys <;> decide

example : (∃ g ps, parseBcs exBcConv 2 (1 / 10000000) exDeck = .ok (g, ps)) ∧
    (∀ b ∈ exDeck, b.Sorted) ∧
    ∀ b ∈ exDeck, ∀ v, ("surface", v) ∈ b → (exBcConv.block v).Sorted :=
  ⟨exDeck_ok, exDeck_sorted⟩

/-- **C108 (what fails).** `none` is offered as the name of a velocity, temperature or stress model, but
a deck that uses it is refused. -/
theorem C108_none_fails (cv : NodeConv V K) (n : ℕ) (tol : K) (bs : List (Block V)) (b : Block V)
    (hb : b ∈ bs) (v : V)
    (hv : ("velocity_model", v) ∈ b ∨ ("temperature_model", v) ∈ b ∨ ("stress_model", v) ∈ b)
    (hn : cv.str v = "none") : ¬ ∃ r, parseBcs cv n tol bs = .ok r := by
  rw [C108_accepts_iff]
  intro hall
  have hok := hall b hb
  rcases hv with hv | hv | hv
  · obtain ⟨m, hm⟩ := hok.velocity v hv
    rw [hn] at hm; simp [velTable] at hm
  · exact hok.temperature v hv hn
  · obtain ⟨m, hm⟩ := hok.stress v hv
    rw [hn] at hm; simp [stressTable] at hm

/-- **C108 (what fails).** The words `heat_flux_model` and `heat_flux_bc_global_vars` are offered as valid
words of a boundary condition, but a deck that uses one of them is refused. -/
theorem C108_heat_flux_fails (cv : NodeConv V K) (n : ℕ) (tol : K) (bs : List (Block V))
    (b : Block V) (hb : b ∈ bs) (v : V)
    (hv : ("heat_flux_model", v) ∈ b ∨ ("heat_flux_bc_global_vars", v) ∈ b) :
    ¬ ∃ r, parseBcs cv n tol bs = .ok r := by
  rw [C108_accepts_iff]
  intro hall
  rcases hv with hv | hv <;> simpa [bcWords] using (hall b hb).words _ _ hv

/-- **C108 (what fails).** A misspelt temperature model is accepted without a message: the block is counted among
the temperature sets of its solver, but no thermal boundary condition is ever applied for it. -/
theorem C108_misspelt_temperature_fails : ∃ g ps,
    parseBcs exBcConv 2 (1 / 10000000) exDeck = .ok (g, ps) ∧ 3 ∈ g.tempSets 0 ∧
    ∀ m, m ≠ .none → 3 ∉ thermalSets m ps := by
  obtain ⟨g, ps, h⟩ := exDeck_ok
  obtain ⟨hs1, hs2⟩ := exDeck_sorted
  refine ⟨g, ps, h, ?_, ?_⟩
  · refine ((C108_sets _ _ _ _ g ps hs1 h 0).2.1.1 3).mpr ⟨_, rfl, ?_, ?_⟩
    · exact ⟨"0", by simp, by simp [exBcConv]⟩
    · exact ⟨"dirichlet", by simp⟩
  · intro m hm hin
    obtain ⟨b, v, hb, hv, ht⟩ := (C108_thermal _ _ _ _ g ps hs1 hs2 h m hm 3).mp hin
    simp only [exDeck, List.getElem?_cons_succ, List.getElem?_cons_zero, Option.some.injEq] at hb
    subst hb
    simp at hv
    subst hv
    simp [exBcConv, tempTable] at ht

/-- **C108 (what fails).** A temperature boundary condition that names solver 1 is applied by the thermal solver
whatever its own number is: the table of temperature sets per solver is filled, and solver 0 has no
entry for this block, but it is never read. -/
theorem C108_thermal_solver_id_fails : ∃ g ps,
    parseBcs exBcConv 2 (1 / 10000000) exDeck = .ok (g, ps) ∧ 1 ∉ g.tempSets 0 ∧
    1 ∈ thermalSets .constant ps := by
  obtain ⟨g, ps, h⟩ := exDeck_ok
  obtain ⟨hs1, hs2⟩ := exDeck_sorted
  refine ⟨g, ps, h, ?_, ?_⟩
  · intro hin
    obtain ⟨b, hb, ⟨v, hv, hi⟩, -⟩ := ((C108_sets _ _ _ _ g ps hs1 h 0).2.1.1 1).mp hin
    simp only [exDeck, List.getElem?_cons_succ, List.getElem?_cons_zero, Option.some.injEq] at hb
    subst hb
    simp at hv
    subst hv
    simp [exBcConv] at hi
  · refine (C108_thermal _ _ _ _ g ps hs1 hs2 h _ (by simp) 1).mpr ⟨_, "constant", rfl, ?_, ?_⟩
    · simp
    · simp [exBcConv, tempTable]

/-- **C108 (what fails).** A contact condition on a plane: the deck is accepted, but as soon as a patch lies on
the plane the solver calls a stress function through a null pointer. -/
theorem C108_contact_on_plane_fails : ∃ g ps,
    parseBcs exBcConv 2 (1 / 10000000) exDeck = .ok (g, ps) ∧ (ps[2]?.bind (·.surface)) = some .xPlane ∧
    ∀ patches : ℕ → ℕ, patches 2 ≠ 0 → stressCalls ps patches (g.stressSets 0) = none := by
  obtain ⟨g, ps, h⟩ := exDeck_ok
  obtain ⟨hs1, hs2⟩ := exDeck_sorted
  refine ⟨g, ps, h, ?_, ?_⟩
  · obtain ⟨p, hp, hslot⟩ := forall₂_slot (C108_own_block _ _ _ _ g ps hs1 hs2 h) (k := 2) rfl
    obtain ⟨t, ht, ht'⟩ := (hslot.surface "plane" (by simp)).type "x_plane" (by simp [exBcConv])
    rw [hp]
    simp only [Option.bind_some, ht]
    simp [surfaceTable, exBcConv] at ht'
    rw [ht']
  · intro patches hne
    by_contra hnn
    obtain ⟨l, hl⟩ := Option.ne_none_iff_exists'.mp hnn
    have := (C108_stress_calls_iff _ _ _ _ g ps hs1 hs2 h 0 patches).mp ⟨l, hl⟩ 2 _ rfl
      ⟨"0", by simp, by simp [exBcConv]⟩ (Or.inl ⟨"global_contact", by simp, by simp [exBcConv]⟩)
    exact hne this

/-- **C108 (what fails).** A plane with a position and a radius is placed at the radius: both words are stored
in the same number. -/
theorem C108_plane_and_radius_fails : ∃ g ps p,
    parseBcs exBcConv 2 (1 / 10000000) exDeck = .ok (g, ps) ∧ ps[1]? = some p ∧
    p.surface = some .xPlane ∧ ("plane_position", "2") ∈ exBcConv.block "both" ∧
    exBcConv.real "2" = 2 ∧ p.value = 1 := by
  obtain ⟨g, ps, h⟩ := exDeck_ok
  obtain ⟨hs1, hs2⟩ := exDeck_sorted
  obtain ⟨p, hp, hslot⟩ := forall₂_slot (C108_own_block _ _ _ _ g ps hs1 hs2 h) (k := 1) rfl
  obtain ⟨t, ht, ht'⟩ := (hslot.surface "both" (by simp)).type "x_plane" (by simp [exBcConv])
  have hr := (hslot.surface "both" (by simp)).radius "1" (by simp [exBcConv])
  refine ⟨g, ps, p, h, hp, ?_, by simp [exBcConv], by simp [exBcConv], ?_⟩
  · rw [ht]
    simp [surfaceTable, exBcConv] at ht'
    rw [ht']
  · rw [hr]; simp [exBcConv]

/-- **C108 (what fails).** A surface without a type is accepted; its tag is then an uninitialised value. -/
theorem C108_untyped_surface_fails : ∃ g ps p,
    parseBcs exBcConv 2 (1 / 10000000) exDeck = .ok (g, ps) ∧ ps[3]? = some p ∧
    p.surface = none := by
  obtain ⟨g, ps, h⟩ := exDeck_ok
  obtain ⟨hs1, hs2⟩ := exDeck_sorted
  obtain ⟨p, hp, hslot⟩ := forall₂_slot (C108_own_block _ _ _ _ g ps hs1 hs2 h) (k := 3) rfl
  refine ⟨g, ps, p, h, hp, (hslot.surface "untyped" (by simp)).noType ?_⟩
  simp [exBcConv]

/-- **C108 (what fails).** The surface type `global` ("tag the full boundary") tags no patch at all, so that a
velocity or stress condition with this surface acts nowhere. -/
theorem C108_global_surface_fails (s : SurfaceSpec) (hs : s.surface = BdyTag.global.toNat) (dims : ℕ)
    (coords : ℕ → ℕ → ℝ) (nodesInPatch : ℕ → List ℕ) (patches : List ℕ)
    (hne : ∀ p ∈ patches, nodesInPatch p ≠ []) :
    tagBdys s dims coords nodesInPatch patches [] = some [] := by
  have hcount : ∀ l c, countOnSurface s dims coords l c = some c := by
    intro l
    induction l with
    | nil => intro c; rfl
    | cons a l ih =>
      intro c
      have : nodeOnSurface s dims (coords a) = some false := by
        unfold nodeOnSurface; simp [hs, BdyTag.toNat]
      rw [countOnSurface, this]
      simpa using ih c
  induction patches with
  | nil => rfl
  | cons p ps ih =>
    have hc : checkBdy s dims coords (nodesInPatch p) = some false := by
      unfold checkBdy
      rw [hcount]
      have := hne p List.mem_cons_self
      simp only [Option.map_some, Option.some.injEq, decide_eq_false_iff_not]
      intro he
      exact this (List.length_eq_zero_iff.mp he.symm)
    rw [tagBdys, hc]
    simpa using ih fun q hq => hne q (List.mem_cons_of_mem _ hq)

end Fierro
