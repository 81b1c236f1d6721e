import Verif.Model.Memory
import Mathlib.Tactic.Ring
import Mathlib.Tactic.Linarith
import Mathlib.Data.List.Induction

namespace Fierro

variable {κ α : Type} [DecidableEq κ]

theorem Mem.writeAll_append (ws ws' : List (κ × α)) (m : Mem κ α) :
    Mem.writeAll (ws ++ ws') m = Mem.writeAll ws' (Mem.writeAll ws m) := by
  simp [Mem.writeAll]

/-- A cell that no assignment touches keeps its content. -/
theorem Mem.writeAll_of_notMem (ws : List (κ × α)) (m : Mem κ α) (k : κ)
    (h : ∀ v, (k, v) ∉ ws) : Mem.writeAll ws m k = m k := by
  induction ws generalizing m with
  | nil => rfl
  | cons w ws ih =>
    have h1 : k ≠ w.1 := by
      rintro rfl; exact h w.2 (by simp)
    have h2 : ∀ v, (k, v) ∉ ws := fun v hv => h v (List.mem_cons_of_mem _ hv)
    change Mem.writeAll ws (Mem.write m w) k = m k
    rw [ih _ h2, Mem.write, Function.update_of_ne h1]

/-- If all assignments to a cell assign the same value and there is one, the cell holds it. -/
theorem Mem.writeAll_of_mem (ws : List (κ × α)) (m : Mem κ α) (k : κ) (v : α)
    (hmem : (k, v) ∈ ws) (huniq : ∀ v', (k, v') ∈ ws → v' = v) :
    Mem.writeAll ws m k = some v := by
  induction ws generalizing m with
  | nil => simp at hmem
  | cons w ws ih =>
    change Mem.writeAll ws (Mem.write m w) k = some v
    by_cases hk : (k, v) ∈ ws
    · exact ih _ hk (fun v' h' => huniq v' (List.mem_cons_of_mem _ h'))
    · have hw : w = (k, v) := by
        rcases List.mem_cons.1 hmem with h | h
        · exact h.symm
        · exact absurd h hk
      rw [Mem.writeAll_of_notMem]
      · subst hw; simp [Mem.write]
      · intro v' h'
        have := huniq v' (List.mem_cons_of_mem _ h')
        subst this; exact hk h'

/-- A cell that holds a value was assigned that value (starting from an unwritten array). -/
theorem Mem.mem_of_writeAll (ws : List (κ × α)) (k : κ) (v : α)
    (h : Mem.writeAll ws Mem.empty k = some v) : (k, v) ∈ ws := by
  induction ws using List.reverseRecOn with
  | nil => simp [Mem.writeAll, Mem.empty] at h
  | append_singleton ws w ih =>
    rw [Mem.writeAll_append] at h
    change Mem.write (Mem.writeAll ws Mem.empty) w k = some v at h
    by_cases hk : k = w.1
    · subst hk
      simp [Mem.write] at h
      subst h; simp
    · rw [Mem.write, Function.update_of_ne hk] at h
      exact List.mem_append_left _ (ih h)

/-- Reading a list made of equally long blocks. -/
theorem flatMap_getElem? {β γ : Type} (l : List β) (f : β → List γ) (m : ℕ)
    (hf : ∀ x ∈ l, (f x).length = m) (a b : ℕ) (ha : a < m) :
    (l.flatMap f)[a + m * b]? = (l[b]?).bind fun x => (f x)[a]? := by
  induction l generalizing b with
  | nil => simp
  | cons x l ih =>
    rw [List.flatMap_cons]
    have hx : (f x).length = m := hf x (by simp)
    cases b with
    | zero => simp [List.getElem?_append_left, hx, ha]
    | succ b =>
      rw [List.getElem?_append_right (by rw [hx]; nlinarith)]
      have : a + m * (b + 1) - (f x).length = a + m * b := by
        rw [hx, Nat.mul_add, Nat.mul_one]; omega
      rw [this, ih (fun y hy => hf y (List.mem_cons_of_mem _ hy))]
      simp

theorem flatMap_length {β γ : Type} (l : List β) (f : β → List γ) (m : ℕ)
    (hf : ∀ x ∈ l, (f x).length = m) : (l.flatMap f).length = m * l.length := by
  induction l with
  | nil => simp
  | cons x l ih =>
    rw [List.flatMap_cons, List.length_append, hf x (by simp),
      ih (fun y hy => hf y (List.mem_cons_of_mem _ hy))]
    simp; ring

end Fierro
