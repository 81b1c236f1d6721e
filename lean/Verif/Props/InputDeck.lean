import Verif.Model.InputDeck
import Mathlib.Data.List.Perm.Subperm
import Mathlib.Data.List.Nodup
import Mathlib.Data.List.Range
import Mathlib.Tactic.NormNum

/-!
# Input decks: ids, validation, required fields (C33, C34, C35)
-/

namespace Fierro

variable {V P K : Type*}

/-- Specification: the id written in a block is `k`. -/
def Block.HasId (asInt : V → ℤ) (b : Block V) (k : ℕ) : Prop := ∃ v, ("id", v) ∈ b ∧ asInt v = k

/-- Specification: every required key is present. -/
def Block.HasRequired (required : List String) (b : Block V) : Prop :=
  ∀ r ∈ required, ∃ v, (r, v) ∈ b

section helpers

theorem mem_keys {b : Block V} {w : String} : w ∈ b.keys ↔ ∃ v, (w, v) ∈ b := by
  simp [Block.keys]

theorem validateInputs_eq_ok {required : List String} {b : Block V} {l : List String} :
    validateInputs required b = .ok l ↔ b.HasRequired required ∧ l = b.keys := by
  unfold validateInputs Block.HasRequired
  have : (required.all fun r => b.keys.contains r) = true ↔ ∀ r ∈ required, ∃ v, (r, v) ∈ b := by
    simp only [List.all_eq_true, List.contains_iff_mem, mem_keys]
  by_cases h : (required.all fun r => b.keys.contains r) = true
  · rw [if_pos h]
    constructor
    · intro e; exact ⟨this.mp h, (Except.ok.inj e).symm⟩
    · rintro ⟨_, rfl⟩; rfl
  · rw [if_neg h]
    constructor
    · intro e; cases e
    · rintro ⟨h', _⟩; exact absurd (this.mpr h') h

theorem idLoop_of_no_id (n : ℕ) (asInt : V → ℤ) (b : Block V) (i : ℤ) (c : ℕ → Bool)
    (h : "id" ∉ b.keys) : idLoop n asInt b i c = .ok (i, c) := by
  induction b with
  | nil => rfl
  | cons x b ih =>
    obtain ⟨w, v⟩ := x
    simp only [Block.keys, List.map_cons, List.mem_cons, not_or] at h
    rw [idLoop, if_neg (Ne.symm h.1)]
    exact ih h.2

theorem idLoop_eq_ok {n : ℕ} {asInt : V → ℤ} {b : Block V} {c : ℕ → Bool} {i : ℤ} {c' : ℕ → Bool}
    (hb : b.keys.Nodup) (hi : ¬ i < 0) :
    idLoop n asInt b (-1) c = .ok (i, c') ↔
      ∃ k : ℕ, i = k ∧ b.HasId asInt k ∧ k < n ∧ c k = false ∧ c' = Function.update c k true := by
  induction b with
  | nil =>
    simp only [idLoop, Block.HasId, List.not_mem_nil, false_and, exists_false, and_false, iff_false]
    intro h
    have := Except.ok.inj h
    simp only [Prod.mk.injEq] at this
    omega
  | cons x b ih =>
    obtain ⟨w, v⟩ := x
    simp only [Block.keys, List.map_cons, List.nodup_cons] at hb
    rw [idLoop]
    by_cases hw : w = "id"
    · subst hw
      rw [if_pos rfl]
      have hno : "id" ∉ Block.keys b := hb.1
      have hid : ∀ k : ℕ, Block.HasId asInt (("id", v) :: b) k ↔ asInt v = k := by
        intro k
        constructor
        · rintro ⟨v', hv', e⟩
          rcases List.mem_cons.mp hv' with h | h
          · cases h; exact e
          · exact absurd (mem_keys.mpr ⟨v', h⟩) hno
        · intro e; exact ⟨v, List.mem_cons_self, e⟩
      by_cases h1 : asInt v < 0 ∨ (n : ℤ) ≤ asInt v
      · rw [if_pos h1]
        constructor
        · intro h; cases h
        · rintro ⟨k, _, hk, hkn, _⟩
          have := (hid k).mp hk
          omega
      · rw [if_neg h1]
        by_cases h2 : c (asInt v).toNat
        · rw [if_pos h2]
          constructor
          · intro h; cases h
          · rintro ⟨k, _, hk, _, hck, _⟩
            have := (hid k).mp hk
            rw [this, Int.toNat_natCast, hck] at h2
            cases h2
        · rw [if_neg h2, idLoop_of_no_id _ _ _ _ _ hno]
          push Not at h1
          constructor
          · intro h
            have := Except.ok.inj h
            simp only [Prod.mk.injEq] at this
            refine ⟨(asInt v).toNat, by omega, (hid _).mpr (by omega), by omega,
              by simpa using h2, this.2.symm⟩
          · rintro ⟨k, rfl, hk, _, _, rfl⟩
            have := (hid k).mp hk
            rw [this, Int.toNat_natCast]
    · rw [if_neg hw, ih hb.2]
      have : ∀ k, Block.HasId asInt ((w, v) :: b) k ↔ Block.HasId asInt b k := by
        intro k
        unfold Block.HasId
        constructor
        · rintro ⟨v', hv', e⟩
          rcases List.mem_cons.mp hv' with h | h
          · cases h; exact absurd rfl hw
          · exact ⟨v', h, e⟩
        · rintro ⟨v', hv', e⟩; exact ⟨v', List.mem_cons_of_mem _ hv', e⟩
      simp only [this]

/-- One block. -/
theorem parseBlock_eq_ok {n : ℕ} {required : List String} {asInt : V → ℤ}
    {word : P → String → V → Except InputError P} {b : Block V} {s s' : (ℕ → Bool) × (ℕ → P)}
    (hb : b.keys.Nodup) :
    parseBlock n required asInt word b s = .ok s' ↔
      b.HasRequired required ∧ ∃ k : ℕ, b.HasId asInt k ∧ k < n ∧ s.1 k = false ∧
        ∃ p, wordLoop word b (s.2 k) = .ok p ∧
          s' = (Function.update s.1 k true, Function.update s.2 k p) := by
  unfold parseBlock
  cases hv : validateInputs required b with
  | error e =>
    simp only [reduceCtorEq, false_iff, not_and]
    intro h
    have : validateInputs required b = .ok b.keys := validateInputs_eq_ok.mpr ⟨h, rfl⟩
    rw [this] at hv; cases hv
  | ok l =>
    have hreq := (validateInputs_eq_ok.mp hv).1
    simp only [hreq, true_and]
    cases hl : idLoop n asInt b (-1) s.1 with
    | error e =>
      simp only [reduceCtorEq, false_iff, not_exists, not_and]
      intro k hk hkn hck
      have := (idLoop_eq_ok (i := (k : ℤ)) (c' := Function.update s.1 k true) hb (by omega)).mpr
        ⟨k, rfl, hk, hkn, hck, rfl⟩
      rw [this] at hl; cases hl
    | ok ic =>
      obtain ⟨i, c⟩ := ic
      dsimp only
      by_cases hi : i < 0
      · rw [if_pos hi]
        simp only [reduceCtorEq, false_iff, not_exists, not_and]
        intro k hk hkn hck
        have := (idLoop_eq_ok (i := (k : ℤ)) (c' := Function.update s.1 k true) hb (by omega)).mpr
          ⟨k, rfl, hk, hkn, hck, rfl⟩
        rw [this] at hl
        have := Except.ok.inj hl
        simp only [Prod.mk.injEq] at this
        omega
      · rw [if_neg hi]
        obtain ⟨k, rfl, hk, hkn, hck, rfl⟩ := (idLoop_eq_ok hb hi).mp hl
        rw [Int.toNat_natCast]
        have huniq : ∀ k', b.HasId asInt k' → k' < n → s.1 k' = false → k' = k := by
          intro k' h1 h2 h3
          have := (idLoop_eq_ok (i := (k' : ℤ)) (c' := Function.update s.1 k' true) hb
            (by omega)).mpr ⟨k', rfl, h1, h2, h3, rfl⟩
          rw [this] at hl
          have := Except.ok.inj hl
          simp only [Prod.mk.injEq] at this
          omega
        cases hw : wordLoop word b (s.2 k) with
        | error e =>
          simp only [reduceCtorEq, false_iff, not_exists, not_and]
          intro k' h1 h2 h3 p h4
          rw [huniq k' h1 h2 h3, hw] at h4
          cases h4
        | ok p =>
          dsimp only
          constructor
          · intro h; exact ⟨k, hk, hkn, hck, p, hw, (Except.ok.inj h).symm⟩
          · rintro ⟨k', h1, h2, h3, p', h4, rfl⟩
            obtain rfl := huniq k' h1 h2 h3
            rw [hw] at h4
            rw [Except.ok.inj h4]

/-- All blocks: success forces distinct fresh ids, and each slot is filled from its block. -/
theorem parseBlocksLoop_ok {n : ℕ} {required : List String} {asInt : V → ℤ}
    {word : P → String → V → Except InputError P} (bs : List (Block V)) :
    ∀ {s s' : (ℕ → Bool) × (ℕ → P)}, (∀ b ∈ bs, b.keys.Nodup) →
    parseBlocksLoop n required asInt word bs s = .ok s' →
      ∃ ids : List ℕ, ids.length = bs.length ∧ ids.Nodup ∧
        (∀ k ∈ ids, k < n ∧ s.1 k = false) ∧ (∀ k, k ∉ ids → s'.2 k = s.2 k) ∧
        ∀ (j : ℕ) (b : Block V) (k : ℕ), bs[j]? = some b → ids[j]? = some k →
          b.HasRequired required ∧ b.HasId asInt k ∧ wordLoop word b (s.2 k) = .ok (s'.2 k) := by
  induction bs with
  | nil =>
    intro s s' _ h
    obtain rfl := Except.ok.inj h
    exact ⟨[], rfl, List.nodup_nil, by simp, by simp, by simp⟩
  | cons b bs ih =>
    intro s s' hnd h
    rw [parseBlocksLoop] at h
    cases h1 : parseBlock n required asInt word b s with
    | error e => rw [h1] at h; cases h
    | ok s1 =>
      rw [h1] at h
      obtain ⟨hreq, k, hk, hkn, hck, p, hp, rfl⟩ :=
        (parseBlock_eq_ok (hnd b List.mem_cons_self)).mp h1
      obtain ⟨ids, hlen, hids, hfresh, hother, hall⟩ :=
        ih (fun b' hb' => hnd b' (List.mem_cons_of_mem _ hb')) h
      dsimp only at hfresh hother hall
      have hnk : k ∉ ids := by
        intro hmem
        have := (hfresh k hmem).2
        simp at this
      have hne : ∀ k' ∈ ids, k' ≠ k := fun k' h' e => hnk (e ▸ h')
      refine ⟨k :: ids, by simp [hlen], List.nodup_cons.mpr ⟨hnk, hids⟩, ?_, ?_, ?_⟩
      · intro k' hk'
        rcases List.mem_cons.mp hk' with rfl | h'
        · exact ⟨hkn, hck⟩
        · have := hfresh k' h'
          refine ⟨this.1, ?_⟩
          have h2 := this.2
          rwa [Function.update_of_ne (hne k' h')] at h2
      · intro k' hk'
        simp only [List.mem_cons, not_or] at hk'
        rw [hother k' hk'.2, Function.update_of_ne hk'.1]
      · intro j b' k' hb' hk'
        cases j with
        | zero =>
          simp only [List.getElem?_cons_zero, Option.some.injEq] at hb' hk'
          subst hb' hk'
          refine ⟨hreq, hk, ?_⟩
          rw [hother k hnk, hp, Function.update_self]
        | succ j =>
          simp only [List.getElem?_cons_succ] at hb' hk'
          obtain ⟨r1, r2, r3⟩ := hall j b' k' hb' hk'
          refine ⟨r1, r2, ?_⟩
          rw [Function.update_of_ne (hne k' (List.mem_of_getElem? hk'))] at r3
          exact r3

/-- All blocks: acceptance. -/
theorem parseBlocksLoop_of {n : ℕ} {required : List String} {asInt : V → ℤ}
    {word : P → String → V → Except InputError P} (bs : List (Block V)) :
    ∀ {s : (ℕ → Bool) × (ℕ → P)} {p₀ : P} (ids : List ℕ), (∀ b ∈ bs, b.keys.Nodup) →
      ids.length = bs.length → ids.Nodup →
      (∀ k ∈ ids, k < n ∧ s.1 k = false ∧ s.2 k = p₀) →
      (∀ (j : ℕ) (b : Block V) (k : ℕ), bs[j]? = some b → ids[j]? = some k →
          b.HasRequired required ∧ b.HasId asInt k ∧ ∃ p, wordLoop word b p₀ = .ok p) →
      ∃ s', parseBlocksLoop n required asInt word bs s = .ok s' := by
  induction bs with
  | nil => intro s p₀ ids _ _ _ _ _; exact ⟨s, rfl⟩
  | cons b bs ih =>
    intro s p₀ ids hnd hlen hids hk hall
    cases ids with
    | nil => simp at hlen
    | cons k ids =>
      obtain ⟨hreq, hid, p, hp⟩ := hall 0 b k rfl rfl
      obtain ⟨hkn, hck, hpk⟩ := hk k List.mem_cons_self
      have hstep := (parseBlock_eq_ok (n := n) (required := required) (asInt := asInt)
        (word := word) (s := s) (hnd b List.mem_cons_self)).mpr
        ⟨hreq, k, hid, hkn, hck, p, by rw [hpk]; exact hp, rfl⟩
      rw [parseBlocksLoop, hstep]
      have hnk := (List.nodup_cons.mp hids).1
      refine ih (p₀ := p₀) ids (fun b' hb' => hnd b' (List.mem_cons_of_mem _ hb')) (by simpa using hlen)
        (List.nodup_cons.mp hids).2 ?_ ?_
      · intro k' h'
        have hne : k' ≠ k := fun e => hnk (e ▸ h')
        simp only [Function.update_of_ne hne]
        exact hk k' (List.mem_cons_of_mem _ h')
      · intro j b' k' h1 h2
        exact hall (j + 1) b' k' (by simpa using h1) (by simpa using h2)

theorem perm_range_of {ids : List ℕ} {n : ℕ} (h1 : ids.length = n) (h2 : ids.Nodup)
    (h3 : ∀ k ∈ ids, k < n) : ids.Perm (List.range n) := by
  have hs : ids.Subperm (List.range n) :=
    List.subperm_of_subset h2 fun k hk => List.mem_range.mpr (h3 k hk)
  exact hs.perm_of_length_le (by simp [h1])

end helpers

/-- **C33** If reading the blocks succeeds, the ids written in the deck are exactly `0..n-1`, each
once, in whatever order; the block with id `k` alone determines slot `k`, starting from the default
value. `word` (what the parser does with one word) is arbitrary. -/
theorem C33_ids_permutation {required : List String} {asInt : V → ℤ}
    {word : P → String → V → Except InputError P} {p₀ : P} {bs : List (Block V)} {slots : ℕ → P}
    (hkeys : ∀ b ∈ bs, b.keys.Nodup)
    (h : parseBlocks required asInt word p₀ bs = .ok slots) :
    ∃ ids : List ℕ, ids.Perm (List.range bs.length) ∧
      ∀ (j : ℕ) (b : Block V) (k : ℕ), bs[j]? = some b → ids[j]? = some k →
        b.HasId asInt k ∧ wordLoop word b p₀ = .ok (slots k) := by
  unfold parseBlocks at h
  cases hl : parseBlocksLoop bs.length required asInt word bs (fun _ => false, fun _ => p₀) with
  | error e => rw [hl] at h; cases h
  | ok s =>
    rw [hl] at h
    obtain rfl := Except.ok.inj h
    obtain ⟨ids, hlen, hnd, hfresh, _, hall⟩ := parseBlocksLoop_ok bs hkeys hl
    exact ⟨ids, perm_range_of hlen hnd fun k hk => (hfresh k hk).1,
      fun j b k h1 h2 => (hall j b k h1 h2).2⟩

/-- **C33** Reading the blocks succeeds exactly when the ids are a permutation of `0..n-1`, every
block has the required keys, and every block is understood. In particular a missing, duplicate or
out-of-range id makes parsing fail. -/
theorem C33_accepts_iff {required : List String} {asInt : V → ℤ}
    {word : P → String → V → Except InputError P} {p₀ : P} {bs : List (Block V)}
    (hkeys : ∀ b ∈ bs, b.keys.Nodup) :
    (∃ slots, parseBlocks required asInt word p₀ bs = .ok slots) ↔
      (∀ b ∈ bs, b.HasRequired required ∧ ∃ p, wordLoop word b p₀ = .ok p) ∧
      ∃ ids : List ℕ, ids.Perm (List.range bs.length) ∧
        ∀ (j : ℕ) (b : Block V) (k : ℕ), bs[j]? = some b → ids[j]? = some k → b.HasId asInt k := by
  constructor
  · rintro ⟨slots, h⟩
    unfold parseBlocks at h
    cases hl : parseBlocksLoop bs.length required asInt word bs (fun _ => false, fun _ => p₀) with
    | error e => rw [hl] at h; cases h
    | ok s =>
      obtain ⟨ids, hlen, hnd, hfresh, _, hall⟩ := parseBlocksLoop_ok bs hkeys hl
      refine ⟨?_, ids, perm_range_of hlen hnd fun k hk => (hfresh k hk).1,
        fun j b k h1 h2 => (hall j b k h1 h2).2.1⟩
      intro b hb
      obtain ⟨j, hj⟩ := List.mem_iff_getElem?.mp hb
      have hjl : j < ids.length := by
        rw [hlen]; exact (List.getElem?_eq_some_iff.mp hj).1
      obtain ⟨r1, _, r3⟩ := hall j b ids[j] hj (List.getElem?_eq_getElem hjl)
      exact ⟨r1, _, r3⟩
  · rintro ⟨hb, ids, hperm, hid⟩
    have hlen : ids.length = bs.length := by simpa using hperm.length_eq
    have hnd : ids.Nodup := hperm.nodup_iff.mpr List.nodup_range
    obtain ⟨s', hs'⟩ := parseBlocksLoop_of (n := bs.length) (required := required)
      (asInt := asInt) (word := word) (s := (fun _ => false, fun _ => p₀)) (p₀ := p₀) bs ids hkeys
      hlen hnd
      (fun k hk => ⟨List.mem_range.mp (hperm.mem_iff.mp hk), rfl, rfl⟩)
      (fun j b k h1 h2 =>
        ⟨(hb b (List.mem_of_getElem? h1)).1, hid j b k h1 h2, (hb b (List.mem_of_getElem? h1)).2⟩)
    exact ⟨s'.2, by unfold parseBlocks; rw [hs']⟩

/-- **C33** Materials: the same, and a deck without materials is rejected. -/
theorem C33_materials {asInt : V → ℤ} {word : P → String → V → Except InputError P} {p₀ : P}
    {bs : List (Block V)} {slots : ℕ → P} (hkeys : ∀ b ∈ bs, b.keys.Nodup)
    (h : parseMaterials asInt word p₀ bs = .ok slots) :
    bs ≠ [] ∧ ∃ ids : List ℕ, ids.Perm (List.range bs.length) ∧
      ∀ (j : ℕ) (b : Block V) (k : ℕ), bs[j]? = some b → ids[j]? = some k →
        b.HasId asInt k ∧ wordLoop word b p₀ = .ok (slots k) := by
  unfold parseMaterials at h
  by_cases h0 : bs.length = 0
  · rw [if_pos h0] at h; cases h
  · rw [if_neg h0] at h
    exact ⟨fun e => h0 (by simp [e]), C33_ids_permutation hkeys h⟩

/-- **C33** Two decks with the same solver blocks in different order give the same solvers, if
the blocks are accepted. -/
theorem C33_order_irrelevant {required : List String} {asInt : V → ℤ}
    {word : P → String → V → Except InputError P} {p₀ : P} {bs bs' : List (Block V)}
    {slots slots' : ℕ → P} (hkeys : ∀ b ∈ bs, b.keys.Nodup) (hperm : bs.Perm bs')
    (h : parseBlocks required asInt word p₀ bs = .ok slots)
    (h' : parseBlocks required asInt word p₀ bs' = .ok slots') :
    ∀ k < bs.length, slots k = slots' k := by
  intro k hk
  have hkeys' : ∀ b ∈ bs', b.keys.Nodup := fun b hb => hkeys b (hperm.mem_iff.mpr hb)
  obtain ⟨ids, hp, hall⟩ := C33_ids_permutation hkeys h
  obtain ⟨ids', hp', hall'⟩ := C33_ids_permutation hkeys' h'
  have hlen : ids.length = bs.length := by simpa using hp.length_eq
  have hlen' : ids'.length = bs'.length := by simpa using hp'.length_eq
  have idUniq : ∀ b ∈ bs, ∀ k₁ k₂ : ℕ, b.HasId asInt k₁ → b.HasId asInt k₂ → k₁ = k₂ := by
    rintro b hb k₁ k₂ ⟨v₁, hv₁, e₁⟩ ⟨v₂, hv₂, e₂⟩
    have := List.inj_on_of_nodup_map (hkeys b hb) hv₁ hv₂ rfl
    simp only [Prod.mk.injEq, true_and] at this
    subst this
    omega
  -- the block with id `k`
  have hkm : k ∈ ids := hp.mem_iff.mpr (List.mem_range.mpr hk)
  obtain ⟨j, hj⟩ := List.mem_iff_getElem?.mp hkm
  have hjl : j < bs.length := by rw [← hlen]; exact (List.getElem?_eq_some_iff.mp hj).1
  obtain ⟨hid, hw⟩ := hall j bs[j] k (List.getElem?_eq_getElem hjl) hj
  have hbm : bs[j] ∈ bs' := hperm.mem_iff.mp (List.getElem_mem hjl)
  obtain ⟨j', hj'⟩ := List.mem_iff_getElem?.mp hbm
  have hjl' : j' < ids'.length := by rw [hlen']; exact (List.getElem?_eq_some_iff.mp hj').1
  obtain ⟨hid', hw'⟩ := hall' j' bs[j] ids'[j'] hj' (List.getElem?_eq_getElem hjl')
  have e : ids'[j'] = k := idUniq _ (List.getElem_mem hjl) _ _ hid' hid
  rw [e, hw] at hw'
  exact Except.ok.inj hw'

section example33

/-- A conversion for the examples: values are integers; odd values name no method. -/
def exConv : Conv ℤ ℤ := ⟨id, id, fun v => v == 1, fun v => if v = 0 then "dynx_FE" else "level_set"⟩

/-- Two solvers given in reverse order are accepted and stored by id. -/
example : (match parseSolverInput exConv
      [[("id", 1), ("method", 0)], [("id", 0), ("method", 2), ("time_end", 3)]] with
    | .ok s => decide ((s 0).method = .levelSet ∧ (s 0).timeEnd = 3 ∧ (s 1).method = .sgh3D)
    | .error _ => false) = true := by decide +kernel

example : ∀ b ∈ ([[("id", 1), ("method", 0)], [("id", 0), ("method", 2), ("time_end", 3)]] :
    List (Block ℤ)), b.keys.Nodup := by decide

/-- The same id twice is rejected. -/
example : (match parseSolverInput exConv [[("id", 1), ("method", 0)], [("id", 1), ("method", 2)]] with
    | .ok _ => false
    | .error e => e == .idDuplicate) = true := by decide +kernel

end example33

/-! ## C34 -/

/-- **C34** `validate_inputs` accepts exactly the blocks in which every required key is present, and
hands on exactly the keys of the block. -/
theorem C34_validate_iff {required : List String} {b : Block V} {l : List String} :
    validateInputs required b = .ok l ↔
      (∀ r ∈ required, ∃ v, (r, v) ∈ b) ∧ l = b.map Prod.fst := validateInputs_eq_ok

/-- **C34** A solver deck with a block in which a required key is missing is rejected, and so is one
with a key other than `method`, `id`, `time_end`, `use_moving_heat_source`, an unknown method, or a
negative end time. Everything else in the block is as the user wrote it. -/
theorem C34_solver {K : Type*} [Field K] [LinearOrder K] [IsStrictOrderedRing K] {cv : Conv V K}
    {bs : List (Block V)} {slots : ℕ → SolverInput K} (hkeys : ∀ b ∈ bs, b.keys.Nodup)
    (h : parseSolverInput cv bs = .ok slots) :
    ∀ b ∈ bs, ∃ k < bs.length, b.HasId cv.int k ∧
      (∃ v, ("method", v) ∈ b ∧ solverMap (cv.str v) = some (slots k).method) ∧
      (∀ v, ("time_end", v) ∈ b → 0 ≤ cv.real v ∧ (slots k).timeEnd = cv.real v) ∧
      ((∀ v, ("time_end", v) ∉ b) → (slots k).timeEnd = 0) ∧
      (∀ v, ("use_moving_heat_source", v) ∈ b → (slots k).movingHeatSource = cv.bool v) ∧
      ((∀ v, ("use_moving_heat_source", v) ∉ b) → (slots k).movingHeatSource = false) ∧
      ∀ w ∈ b.map Prod.fst, w ∈ ["method", "id", "time_end", "use_moving_heat_source"] := by
  intro b hb
  obtain ⟨hall, _⟩ := (C33_accepts_iff hkeys).mp ⟨slots, h⟩
  obtain ⟨ids, hp, hids⟩ := C33_ids_permutation hkeys h
  have hlen : ids.length = bs.length := by simpa using hp.length_eq
  obtain ⟨j, hj⟩ := List.mem_iff_getElem?.mp hb
  have hjl : j < ids.length := by rw [hlen]; exact (List.getElem?_eq_some_iff.mp hj).1
  obtain ⟨hid, hw⟩ := hids j b ids[j] hj (List.getElem?_eq_getElem hjl)
  have hreq := (hall b hb).1
  have hmem : ids[j] ∈ ids := List.getElem_mem hjl
  refine ⟨ids[j], List.mem_range.mp (hp.mem_iff.mp hmem), hid, ?_⟩
  generalize slots ids[j] = q at hw
  -- the loop over the words
  have key : ∀ (b : Block V) (p q : SolverInput K), b.keys.Nodup →
      wordLoop (solverWord cv) b p = .ok q →
      (∀ v, ("method", v) ∈ b → solverMap (cv.str v) = some q.method) ∧
      ("method" ∉ b.keys → q.method = p.method) ∧
      (∀ v, ("time_end", v) ∈ b → 0 ≤ cv.real v ∧ q.timeEnd = cv.real v) ∧
      ("time_end" ∉ b.keys → q.timeEnd = p.timeEnd) ∧
      (∀ v, ("use_moving_heat_source", v) ∈ b → q.movingHeatSource = cv.bool v) ∧
      ("use_moving_heat_source" ∉ b.keys → q.movingHeatSource = p.movingHeatSource) ∧
      ∀ w ∈ b.keys, w ∈ ["method", "id", "time_end", "use_moving_heat_source"] := by
    clear hw hreq hall hb hid hj hids
    intro b
    induction b with
    | nil =>
      intro p q _ h
      obtain rfl := Except.ok.inj h
      simp [Block.keys]
    | cons x b ih =>
      obtain ⟨w, v⟩ := x
      intro p q hnd h
      have hnd' : w ∉ Block.keys b ∧ (Block.keys b).Nodup := by simpa [Block.keys] using hnd
      rw [wordLoop] at h
      cases hsw : solverWord cv p w v with
      | error e => rw [hsw] at h; cases h
      | ok p' =>
        rw [hsw] at h
        obtain ⟨a1, a2, a3, a4, a5, a6, a7⟩ := ih p' q hnd'.2 h
        have hkc : ∀ u, u ∈ Block.keys ((w, v) :: b) ↔ u = w ∨ u ∈ Block.keys b := by
          intro u; simp [Block.keys]
        have hvk : ∀ (u : String) (v' : V), (u, v') ∈ b → u ∈ Block.keys b :=
          fun u v' hv' => mem_keys.mpr ⟨v', hv'⟩
        unfold solverWord at hsw
        by_cases c1 : w = "method"
        · subst c1
          rw [if_pos rfl] at hsw
          cases hm : solverMap (cv.str v) with
          | none => rw [hm] at hsw; cases hsw
          | some m =>
            rw [hm] at hsw
            obtain rfl := Except.ok.inj hsw
            have hq := a2 hnd'.1
            refine ⟨?_, ?_, ?_, ?_, ?_, ?_, ?_⟩
            · intro v' hv'
              rcases List.mem_cons.mp hv' with e | e
              · cases e; rw [hm, hq]
              · exact a1 v' e
            · intro h'; exact absurd ((hkc _).mpr (Or.inl rfl)) h'
            · intro v' hv'
              rcases List.mem_cons.mp hv' with e | e
              · simp at e
              · exact a3 v' e
            · intro h'; exact a4 fun h'' => h' ((hkc _).mpr (Or.inr h''))
            · intro v' hv'
              rcases List.mem_cons.mp hv' with e | e
              · simp at e
              · exact a5 v' e
            · intro h'; exact a6 fun h'' => h' ((hkc _).mpr (Or.inr h''))
            · intro u hu
              rcases (hkc u).mp hu with rfl | hu
              · simp
              · exact a7 u hu
        · rw [if_neg c1] at hsw
          have b1 : ∀ v', ("method", v') ∈ (w, v) :: b → solverMap (cv.str v') = some q.method := by
            intro v' hv'
            rcases List.mem_cons.mp hv' with e | e
            · cases e; exact absurd rfl c1
            · exact a1 v' e
          by_cases c2 : w = "id"
          · subst c2
            rw [if_pos rfl] at hsw
            obtain rfl := Except.ok.inj hsw
            refine ⟨b1, ?_, ?_, ?_, ?_, ?_, ?_⟩
            · intro h'; exact a2 fun h'' => h' ((hkc _).mpr (Or.inr h''))
            · intro v' hv'
              rcases List.mem_cons.mp hv' with e | e
              · simp at e
              · exact a3 v' e
            · intro h'; exact a4 fun h'' => h' ((hkc _).mpr (Or.inr h''))
            · intro v' hv'
              rcases List.mem_cons.mp hv' with e | e
              · simp at e
              · exact a5 v' e
            · intro h'; exact a6 fun h'' => h' ((hkc _).mpr (Or.inr h''))
            · intro u hu
              rcases (hkc u).mp hu with rfl | hu
              · simp
              · exact a7 u hu
          · rw [if_neg c2] at hsw
            by_cases c3 : w = "time_end"
            · subst c3
              rw [if_pos rfl] at hsw
              by_cases c4 : cv.real v < 0
              · rw [if_pos c4] at hsw; cases hsw
              · rw [if_neg c4] at hsw
                obtain rfl := Except.ok.inj hsw
                have hq := a4 hnd'.1
                refine ⟨b1, ?_, ?_, ?_, ?_, ?_, ?_⟩
                · intro h'; exact a2 fun h'' => h' ((hkc _).mpr (Or.inr h''))
                · intro v' hv'
                  rcases List.mem_cons.mp hv' with e | e
                  · cases e; exact ⟨not_lt.mp c4, hq⟩
                  · exact a3 v' e
                · intro h'; exact absurd ((hkc _).mpr (Or.inl rfl)) h'
                · intro v' hv'
                  rcases List.mem_cons.mp hv' with e | e
                  · simp at e
                  · exact a5 v' e
                · intro h'; exact a6 fun h'' => h' ((hkc _).mpr (Or.inr h''))
                · intro u hu
                  rcases (hkc u).mp hu with rfl | hu
                  · simp
                  · exact a7 u hu
            · rw [if_neg c3] at hsw
              by_cases c5 : w = "use_moving_heat_source"
              · subst c5
                rw [if_pos rfl] at hsw
                obtain rfl := Except.ok.inj hsw
                have hq := a6 hnd'.1
                refine ⟨b1, ?_, ?_, ?_, ?_, ?_, ?_⟩
                · intro h'; exact a2 fun h'' => h' ((hkc _).mpr (Or.inr h''))
                · intro v' hv'
                  rcases List.mem_cons.mp hv' with e | e
                  · simp at e
                  · exact a3 v' e
                · intro h'; exact a4 fun h'' => h' ((hkc _).mpr (Or.inr h''))
                · intro v' hv'
                  rcases List.mem_cons.mp hv' with e | e
                  · cases e; exact hq
                  · exact a5 v' e
                · intro h'; exact absurd ((hkc _).mpr (Or.inl rfl)) h'
                · intro u hu
                  rcases (hkc u).mp hu with rfl | hu
                  · simp
                  · exact a7 u hu
              · rw [if_neg c5] at hsw; cases hsw
  obtain ⟨a1, _, a3, a4, a5, a6, a7⟩ := key b _ q (hkeys b hb) hw
  obtain ⟨v, hv⟩ := hreq "method" (by simp)
  refine ⟨⟨v, hv, a1 v hv⟩, a3, ?_, a5, ?_, a7⟩
  · intro h'; exact a4 fun hm => by obtain ⟨v, hv⟩ := mem_keys.mp hm; exact h' v hv
  · intro h'; exact a6 fun hm => by obtain ⟨v, hv⟩ := mem_keys.mp hm; exact h' v hv

/-- Specification: the value of an option is what the user wrote under `w`, else the default. -/
def givenOr {T : Type*} (b : Block V) (w : String) (conv : V → T) (default : T) : T :=
  match b.lookup w with
  | some v => conv v
  | none => default

/-- The words that the dynamic options understand. -/
def dynamicWords : List String :=
  ["time_initial", "time_final", "dt_min", "dt_max", "dt_start", "dt_cfl", "cycle_stop", "fuzz",
    "tiny", "small", "rk_num_stages"]

/-- **C34** The time options are accepted exactly if `time_final` and `cycle_stop` are given and
every key is one of the eleven known words; then each option has the value the user wrote or, if
absent, its default. -/
theorem C34_dynamic (cv : Conv V K) (p₀ : DynamicOptions K) (b : Block V)
    (hkeys : b.keys.Nodup) (q : DynamicOptions K) :
    parseDynamicOptions cv p₀ b = .ok q ↔
      ((∃ v, ("time_final", v) ∈ b) ∧ (∃ v, ("cycle_stop", v) ∈ b) ∧
        ∀ w ∈ b.map Prod.fst, w ∈ dynamicWords) ∧
      q = { timeInitial := givenOr b "time_initial" cv.real p₀.timeInitial
            timeFinal := givenOr b "time_final" cv.real p₀.timeFinal
            dtMin := givenOr b "dt_min" cv.real p₀.dtMin
            dtMax := givenOr b "dt_max" cv.real p₀.dtMax
            dtStart := givenOr b "dt_start" cv.real p₀.dtStart
            dtCfl := givenOr b "dt_cfl" cv.real p₀.dtCfl
            cycleStop := givenOr b "cycle_stop" cv.int p₀.cycleStop
            fuzz := givenOr b "fuzz" cv.real p₀.fuzz
            tiny := givenOr b "tiny" cv.real p₀.tiny
            small := givenOr b "small" cv.real p₀.small
            rkNumStages := givenOr b "rk_num_stages" cv.int p₀.rkNumStages } := by
  have key : ∀ (b : Block V) (p₀ : DynamicOptions K), b.keys.Nodup →
      (wordLoop (dynamicWord cv) b p₀ = .ok q ↔
        (∀ w ∈ b.keys, w ∈ dynamicWords) ∧
        q = { timeInitial := givenOr b "time_initial" cv.real p₀.timeInitial
              timeFinal := givenOr b "time_final" cv.real p₀.timeFinal
              dtMin := givenOr b "dt_min" cv.real p₀.dtMin
              dtMax := givenOr b "dt_max" cv.real p₀.dtMax
              dtStart := givenOr b "dt_start" cv.real p₀.dtStart
              dtCfl := givenOr b "dt_cfl" cv.real p₀.dtCfl
              cycleStop := givenOr b "cycle_stop" cv.int p₀.cycleStop
              fuzz := givenOr b "fuzz" cv.real p₀.fuzz
              tiny := givenOr b "tiny" cv.real p₀.tiny
              small := givenOr b "small" cv.real p₀.small
              rkNumStages := givenOr b "rk_num_stages" cv.int p₀.rkNumStages }) := by
    clear hkeys
    intro b
    induction b with
    | nil =>
      intro p₀ _
      simp only [wordLoop, givenOr, List.lookup_nil, Block.keys, List.map_nil, List.not_mem_nil,
        false_implies, implies_true, true_and]
      exact ⟨fun h => (Except.ok.inj h).symm, fun h => by rw [h]⟩
    | cons x b ih =>
      obtain ⟨w, v⟩ := x
      intro p₀ hnd
      have hnd' : w ∉ Block.keys b ∧ (Block.keys b).Nodup := by simpa [Block.keys] using hnd
      have hnone : b.lookup w = none := by
        rw [List.lookup_eq_none_iff]
        intro a ha
        have : a.1 ∈ Block.keys b := List.mem_map_of_mem ha
        simp only [bne_iff_ne, ne_eq]
        rintro rfl
        exact hnd'.1 this
      have hkc : (∀ u ∈ Block.keys ((w, v) :: b), u ∈ dynamicWords) ↔
          w ∈ dynamicWords ∧ ∀ u ∈ Block.keys b, u ∈ dynamicWords := by
        simp [Block.keys]
      rw [wordLoop, hkc]
      by_cases hw : w ∈ dynamicWords
      · simp only [dynamicWords, List.mem_cons, List.not_mem_nil, or_false] at hw
        rcases hw with rfl | rfl | rfl | rfl | rfl | rfl | rfl | rfl | rfl | rfl | rfl <;>
          · simp only [dynamicWord, String.reduceEq, if_true, if_false]
            rw [ih _ hnd'.2]
            simp [givenOr, List.lookup_cons, hnone, dynamicWords]
      · have : dynamicWord cv p₀ w v = .error .notUnderstood := by
          simp only [dynamicWords, List.mem_cons, List.not_mem_nil, or_false, not_or] at hw
          obtain ⟨h1, h2, h3, h4, h5, h6, h7, h8, h9, h10, h11⟩ := hw
          simp only [dynamicWord, h1, h2, h3, h4, h5, h6, h7, h8, h9, h10, h11, if_false]
        rw [this]
        simp [hw]
  unfold parseDynamicOptions
  cases hv : validateInputs ["time_final", "cycle_stop"] b with
  | error e =>
    simp only [reduceCtorEq, false_iff, not_and]
    rintro ⟨h1, h2, _⟩
    have : validateInputs ["time_final", "cycle_stop"] b = .ok b.keys :=
      validateInputs_eq_ok.mpr ⟨by intro r hr; simp at hr; rcases hr with rfl | rfl <;> assumption,
        rfl⟩
    rw [this] at hv; cases hv
  | ok l =>
    have hreq := (validateInputs_eq_ok.mp hv).1
    dsimp only
    rw [key b p₀ hkeys]
    have h1 := hreq "time_final" (by simp)
    have h2 := hreq "cycle_stop" (by simp)
    constructor
    · rintro ⟨a, c⟩; exact ⟨⟨h1, h2, a⟩, c⟩
    · rintro ⟨⟨_, _, a⟩, c⟩; exact ⟨a, c⟩

/-- The hypotheses are met by an ordinary block. -/
example : (match parseDynamicOptions exConv ⟨2000000, 0, 1, 1, 1, 1, 1, 1, 1, 1, 2⟩
      [("cycle_stop", 7), ("dt_cfl", 3), ("time_final", 5)] with
    | .ok q => decide (q.timeFinal = 5 ∧ q.cycleStop = 7 ∧ q.dtCfl = 3 ∧ q.rkNumStages = 2)
    | .error _ => false) = true := by decide +kernel

/-- **C34** The validation alone lets unknown keys pass: it only prints. -/
theorem C34_validate_unknown_passes_fails :
    ∃ (b : Block Unit), complaints ["id"] b ≠ [] ∧ ∃ l, validateInputs ["id"] b = .ok l :=
  ⟨[("id", ()), ("idd", ())], by decide, _, rfl⟩

/-- **C34** Element output fields: unknown names are rejected, every named field is written, in
order after the earlier ones, and whenever the specific internal energy is written so is the mass. -/
theorem C34_elem_outputs {F : Type*} [DecidableEq F] (look : String → Option F) (sie mass : F)
    (old : List F) (names : List String) :
    (∀ out, elemOutputs look sie mass old names = .ok out →
      (∀ nm ∈ names, ∃ f ∈ out, look nm = some f) ∧ (sie ∈ out → mass ∈ out) ∧
      (∀ f ∈ out, f ∈ old ∨ (∃ nm ∈ names, look nm = some f) ∨ (f = mass ∧ sie ∈ out)) ∧
      old <+: out) ∧
    ((∃ nm ∈ names, look nm = none) → ∃ e, elemOutputs look sie mass old names = .error e) := by
  have hmap : ∀ (names : List String) (fs : List F), names.mapM look = some fs →
      (∀ nm ∈ names, ∃ f ∈ fs, look nm = some f) ∧ ∀ f ∈ fs, ∃ nm ∈ names, look nm = some f := by
    intro names
    induction names with
    | nil => intro fs h; simp at h; subst h; simp
    | cons a l ih =>
      intro fs h
      rw [List.mapM_cons] at h
      cases ha : look a with
      | none => simp [ha] at h
      | some f =>
        cases hl : l.mapM look with
        | none => simp [ha, hl] at h
        | some gs =>
          simp [ha, hl] at h
          subst h
          obtain ⟨i1, i2⟩ := ih gs hl
          constructor
          · intro nm hnm
            rcases List.mem_cons.mp hnm with rfl | hnm
            · exact ⟨f, List.mem_cons_self, ha⟩
            · obtain ⟨g, hg, e⟩ := i1 nm hnm
              exact ⟨g, List.mem_cons_of_mem _ hg, e⟩
          · intro g hg
            rcases List.mem_cons.mp hg with rfl | hg
            · exact ⟨a, List.mem_cons_self, ha⟩
            · obtain ⟨nm, hnm, e⟩ := i2 g hg
              exact ⟨nm, List.mem_cons_of_mem _ hnm, e⟩
  constructor
  · intro out h
    unfold elemOutputs at h
    cases hm : names.mapM look with
    | none => rw [hm] at h; cases h
    | some fs =>
      rw [hm] at h
      obtain ⟨i1, i2⟩ := hmap names fs hm
      dsimp only at h
      by_cases hc : ((old ++ fs).contains sie && !(old ++ fs).contains mass) = true
      · rw [if_pos hc] at h
        obtain rfl := Except.ok.inj h
        have hs : sie ∈ old ++ fs := by
          rw [Bool.and_eq_true] at hc
          exact List.contains_iff_mem.mp hc.1
        refine ⟨?_, fun _ => by simp, ?_, ⟨fs ++ [mass], by simp⟩⟩
        · intro nm hnm
          obtain ⟨f, hf, e⟩ := i1 nm hnm
          exact ⟨f, by simp [hf], e⟩
        · intro f hf
          simp only [List.append_assoc, List.mem_append, List.mem_singleton] at hf
          rcases hf with hf | hf | hf
          · exact Or.inl hf
          · exact Or.inr (Or.inl (i2 f hf))
          · exact Or.inr (Or.inr ⟨hf, List.mem_append_left _ hs⟩)
      · rw [if_neg hc] at h
        obtain rfl := Except.ok.inj h
        refine ⟨?_, ?_, ?_, ⟨fs, rfl⟩⟩
        · intro nm hnm
          obtain ⟨f, hf, e⟩ := i1 nm hnm
          exact ⟨f, by simp [hf], e⟩
        · intro hs
          by_contra hmass
          apply hc
          rw [Bool.and_eq_true]
          exact ⟨List.contains_iff_mem.mpr hs, by simpa using hmass⟩
        · intro f hf
          rcases List.mem_append.mp hf with hf | hf
          · exact Or.inl hf
          · exact Or.inr (Or.inl (i2 f hf))
  · rintro ⟨nm, hnm, hnone⟩
    unfold elemOutputs
    cases hm : names.mapM look with
    | none => exact ⟨_, rfl⟩
    | some fs =>
      obtain ⟨f, _, e⟩ := (hmap names fs hm).1 nm hnm
      rw [hnone] at e; cases e

/-! ## C35 -/

section C35

variable {F : Type*} [DecidableEq F]

theorem inner_count (r : F) (given : List F) (n : ℕ) :
    given.foldl (fun n g => if g = r then n + 1 else n) n = n + given.count r := by
  induction given generalizing n with
  | nil => simp
  | cons g gs ih =>
    rw [List.foldl_cons, ih, List.count_cons]
    by_cases h : g = r
    · simp [h]; omega
    · simp [h]

theorem fillCount_eq (required given : List F) :
    fillCount required given = (required.map fun r => given.count r).sum := by
  unfold fillCount
  have : ∀ n, required.foldl
      (fun n r => given.foldl (fun n g => if g = r then n + 1 else n) n) n =
      n + (required.map fun r => given.count r).sum := by
    induction required with
    | nil => simp
    | cons r rs ih =>
      intro n
      rw [List.foldl_cons, inner_count, ih, List.map_cons, List.sum_cons]
      omega
  simpa using this 0

theorem filledFields_spec (l : List F) : ∀ acc : List F, acc.Nodup →
    (l.foldl storeField acc).Nodup ∧
      ∀ f, f ∈ l.foldl storeField acc ↔ f ∈ acc ∨ f ∈ l := by
  induction l with
  | nil => intro acc h; exact ⟨h, by simp⟩
  | cons a l ih =>
    intro acc h
    rw [List.foldl_cons]
    have hs : (storeField acc a).Nodup ∧ ∀ f, f ∈ storeField acc a ↔ f ∈ acc ∨ f = a := by
      unfold storeField
      by_cases c : (acc.any fun g => g == a) = true
      · rw [if_pos c]
        simp only [List.any_eq_true, beq_iff_eq, exists_eq_right] at c
        exact ⟨h, fun f => ⟨Or.inl, by rintro (h' | rfl) <;> assumption⟩⟩
      · rw [if_neg c]
        simp only [List.any_eq_true, beq_iff_eq, exists_eq_right] at c
        refine ⟨List.nodup_append.mpr ⟨h, List.nodup_singleton a, ?_⟩, by simp⟩
        intro x hx y hy e
        simp only [List.mem_singleton] at hy
        exact c (hy ▸ e ▸ hx)
    obtain ⟨i1, i2⟩ := ih _ hs.1
    refine ⟨i1, fun f => ?_⟩
    rw [i2, hs.2, List.mem_cons]
    tauto

/-- **C35** On a list of given fields without repetitions the check accepts exactly if every
required field is given. -/
theorem C35_check_iff (required given : List F) (hg : given.Nodup) :
    checkFill required given = true ↔ ∀ r ∈ required, r ∈ given := by
  unfold checkFill
  rw [fillCount_eq, beq_iff_eq]
  have hle : ∀ l : List F, (l.map fun r => given.count r).sum ≤ l.length := by
    intro l
    induction l with
    | nil => simp
    | cons r l ih =>
      have := List.nodup_iff_count_le_one.mp hg r
      simp only [List.map_cons, List.sum_cons, List.length_cons]
      omega
  induction required with
  | nil => simp
  | cons r rs ih =>
    have h1 := List.nodup_iff_count_le_one.mp hg r
    have h2 := hle rs
    simp only [List.map_cons, List.sum_cons, List.length_cons, List.mem_cons, forall_eq_or_imp]
    have h3 := List.count_pos_iff (a := r) (l := given)
    constructor
    · intro h; exact ⟨h3.mp (by omega), ih.mp (by omega)⟩
    · rintro ⟨ha, hb⟩
      have := h3.mpr ha
      have := ih.mpr hb
      omega

/-- **C35** With the field list that the parser builds from the regions (which has no repetitions)
the check accepts exactly if every required field is named in some region. -/
theorem C35_parsed_check_iff (required : List F) (regions : List (List F)) :
    checkFill required (filledFields regions) = true ↔
      ∀ r ∈ required, ∃ reg ∈ regions, r ∈ reg := by
  obtain ⟨h1, h2⟩ := filledFields_spec regions.flatten [] List.nodup_nil
  rw [filledFields, C35_check_iff _ _ h1]
  simp only [h2, List.not_mem_nil, false_or, List.mem_flatten]

/-- **C35** The hydrodynamics solver starts exactly if some region names the density and some
region names the specific or the extensive internal energy. -/
theorem C35_sgh (regions : List (List FillField)) :
    sghMaterialCheck (filledFields regions) = true ↔
      (∃ reg ∈ regions, FillField.density ∈ reg) ∧
        ∃ reg ∈ regions, FillField.sie ∈ reg ∨ FillField.ie ∈ reg := by
  unfold sghMaterialCheck
  rw [Bool.or_eq_true, C35_parsed_check_iff, C35_parsed_check_iff]
  simp only [List.mem_cons, List.not_mem_nil, or_false, forall_eq_or_imp, forall_eq]
  constructor
  · rintro (⟨h, reg, h1, h2⟩ | ⟨h, reg, h1, h2⟩)
    · exact ⟨h, reg, h1, Or.inl h2⟩
    · exact ⟨h, reg, h1, Or.inr h2⟩
  · rintro ⟨h, reg, h1, h2 | h2⟩
    · exact Or.inl ⟨h, reg, h1, h2⟩
    · exact Or.inr ⟨h, reg, h1, h2⟩

/-- **C35** The check by itself is not correct on lists with repetitions: `{A, A}` passes for
`{A, B}`, and `{A, A, B}` is refused for `{A, B}`. -/
theorem C35_repetition_fails :
    checkFill [FillField.density, .sie] [.density, .density] = true ∧
    checkFill [FillField.density, .sie] [.density, .density, .sie] = false := by decide

/-- **C35** The check is over all regions together: a deck passes although its second region sets
no energy at all. -/
theorem C35_per_region_fails :
    ∃ regions : List (List FillField), sghMaterialCheck (filledFields regions) = true ∧
      ∃ reg ∈ regions, FillField.sie ∉ reg ∧ FillField.ie ∉ reg :=
  ⟨[[.density, .sie], [.density]], by decide, _, List.mem_cons_of_mem _ List.mem_cons_self,
    by decide, by decide⟩

end C35

/-- **C34.** The words complained about are exactly the keys of the block that are not in the list of
known words. -/
theorem C34_complaint_iff {V : Type*} (valid : List String) (b : Block V) (w : String) :
    w ∈ complaints valid b ↔ (∃ v, (w, v) ∈ b) ∧ w ∉ valid := by
  simp [complaints, Block.keys, and_comm]

/-- Specification: the words for the solvers, as documented for the input file. -/
def solverWords : List (String × SolverMethod) :=
  [("dynx_FE", .sgh3D), ("dynx_FE_rz", .sghRZ), ("thrmex_FE", .sgtm3D), ("level_set", .levelSet),
    ("qstatx_FE", .tlqs3D)]

/-- **C34.** A word names a solver exactly if the list of words has it, and then that solver. -/
theorem C34_solver_words (s : String) (m : SolverMethod) : solverMap s = some m ↔ (s, m) ∈ solverWords := by
  unfold solverMap solverWords
  split <;> simp_all [eq_comm]

example : solverMap "thrmex_FE" = some .sgtm3D := (C34_solver_words _ _).mpr (by decide)

end Fierro
