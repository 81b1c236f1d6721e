import Verif.Model.ParseBcs
import Mathlib.Tactic.Basic
import Mathlib.Data.List.Nodup

/-!
# Loops over the words of a block
-/

namespace Fierro

variable {ε V P T : Type*} {word : P → String → V → Except ε P}

/-- A block is accepted if each of its words is. -/
theorem eachWord_accepts {good : String → V → Prop}
    (h : ∀ p w v, (∃ p', word p w v = .ok p') ↔ good w v) (b : Block V) (p : P) :
    (∃ q, eachWord word b p = .ok q) ↔ ∀ w v, (w, v) ∈ b → good w v := by
  induction b generalizing p with
  | nil => simp [eachWord]
  | cons x b ih =>
    obtain ⟨w, v⟩ := x
    rw [eachWord]
    cases hw : word p w v with
    | error e =>
      have hb : ¬ good w v := fun hg => by
        obtain ⟨p', hp'⟩ := (h p w v).mpr hg
        rw [hw] at hp'; cases hp'
      refine iff_of_false (by simp) fun hall => hb (hall w v List.mem_cons_self)
    | ok p' =>
      have hg : good w v := (h p w v).mp ⟨p', hw⟩
      show (∃ q, eachWord word b p' = .ok q) ↔ _
      rw [ih]
      constructor
      · intro hall w' v' hm
        rcases List.mem_cons.mp hm with heq | hm
        · cases heq; exact hg
        · exact hall w' v' hm
      · exact fun hall w' v' hm => hall w' v' (List.mem_cons_of_mem _ hm)

/-- What no word of the block changes stays. -/
theorem eachWord_keep {π : P → T} {b : Block V} {p q : P}
    (hk : ∀ p w v p', (w, v) ∈ b → word p w v = .ok p' → π p' = π p)
    (h : eachWord word b p = .ok q) : π q = π p := by
  induction b generalizing p with
  | nil => rw [eachWord] at h; cases h; rfl
  | cons x b ih =>
    obtain ⟨w, v⟩ := x
    rw [eachWord] at h
    cases hw : word p w v with
    | error e => rw [hw] at h; cases h
    | ok p' =>
      rw [hw] at h
      rw [ih (fun p w v p' hm => hk p w v p' (List.mem_cons_of_mem _ hm)) h]
      exact hk p w v p' List.mem_cons_self hw

/-- What only word `w₀` changes is what this word makes of the initial value. -/
theorem eachWord_one {π : P → T} {w₀ : String} {b : Block V} {p q : P} (hnd : b.keys.Nodup)
    (hk : ∀ p w v p', (w, v) ∈ b → w ≠ w₀ → word p w v = .ok p' → π p' = π p)
    (h : eachWord word b p = .ok q) :
    (∀ v, (w₀, v) ∈ b → ∃ p₁ p₂, π p₁ = π p ∧ word p₁ w₀ v = .ok p₂ ∧ π q = π p₂) ∧
    ((∀ v, (w₀, v) ∉ b) → π q = π p) := by
  refine ⟨?_, fun hno => eachWord_keep (fun p w v p' hm hw => hk p w v p' hm ?_ hw) h⟩
  · induction b generalizing p with
    | nil => intro v hv; exact absurd hv (List.not_mem_nil)
    | cons x b ih =>
      obtain ⟨w, v⟩ := x
      have hnd' : w ∉ Block.keys b ∧ (Block.keys b).Nodup := by simpa [Block.keys] using hnd
      rw [eachWord] at h
      cases hw : word p w v with
      | error e => rw [hw] at h; cases h
      | ok p' =>
        rw [hw] at h
        intro v' hv'
        rcases List.mem_cons.mp hv' with heq | hm
        · cases heq
          refine ⟨p, p', rfl, hw, eachWord_keep
            (fun p w v p' hm hw => hk p w v p' (List.mem_cons_of_mem _ hm) ?_ hw) h⟩
          rintro rfl
          exact hnd'.1 (List.mem_map_of_mem hm)
        · have hne : w ≠ w₀ := by
            rintro rfl
            exact hnd'.1 (List.mem_map_of_mem hm)
          obtain ⟨p₁, p₂, h1, h2, h3⟩ := ih hnd'.2
            (fun p w v p' hm => hk p w v p' (List.mem_cons_of_mem _ hm)) h v' hm
          exact ⟨p₁, p₂, h1.trans (hk p w v p' List.mem_cons_self hne hw), h2, h3⟩
  · rintro rfl
    exact hno _ hm

/-- A field that word `w₀` sets to `f` of its value and no other word touches. -/
theorem eachWord_field {π : P → T} (w₀ : String) (f : V → T) {b : Block V} {p q : P}
    (hnd : b.keys.Nodup)
    (hk : ∀ p w v p', (w, v) ∈ b → w ≠ w₀ → word p w v = .ok p' → π p' = π p)
    (hs : ∀ p v p', word p w₀ v = .ok p' → π p' = f v)
    (h : eachWord word b p = .ok q) :
    (∀ v, (w₀, v) ∈ b → π q = f v) ∧ ((∀ v, (w₀, v) ∉ b) → π q = π p) := by
  obtain ⟨h1, h2⟩ := eachWord_one hnd hk h
  refine ⟨fun v hv => ?_, h2⟩
  obtain ⟨p₁, p₂, -, hw, he⟩ := h1 v hv
  rw [he]; exact hs p₁ v p₂ hw

theorem eachWord_append {b₁ b₂ : Block V} {p q : P}
    (h : eachWord word (b₁ ++ b₂) p = .ok q) :
    ∃ p₁, eachWord word b₁ p = .ok p₁ ∧ eachWord word b₂ p₁ = .ok q := by
  induction b₁ generalizing p with
  | nil => exact ⟨p, rfl, h⟩
  | cons x b ih =>
    obtain ⟨w, v⟩ := x
    rw [List.cons_append, eachWord] at h
    rw [eachWord]
    cases hw : word p w v with
    | error e => rw [hw] at h; cases h
    | ok p' => rw [hw] at h; exact ih h

theorem hasRequired_iff {required : List String} {b : Block V} :
    hasRequired required b = true ↔ ∀ r ∈ required, ∃ v, (r, v) ∈ b := by
  unfold hasRequired
  simp [Block.keys]

theorem mem_block_unique {b : Block V} (hnd : b.keys.Nodup) {w : String} {v v' : V}
    (h : (w, v) ∈ b) (h' : (w, v') ∈ b) : v = v' := by
  induction b with
  | nil => exact absurd h List.not_mem_nil
  | cons x b ih =>
    obtain ⟨u, y⟩ := x
    have hnd' : u ∉ Block.keys b ∧ (Block.keys b).Nodup := by simpa [Block.keys] using hnd
    rcases List.mem_cons.mp h with e | h1 <;> rcases List.mem_cons.mp h' with e' | h2
    · cases e; cases e'; rfl
    · cases e; exact absurd (List.mem_map_of_mem h2) hnd'.1
    · cases e'; exact absurd (List.mem_map_of_mem h1) hnd'.1
    · exact ih hnd'.2 h1 h2

end Fierro
