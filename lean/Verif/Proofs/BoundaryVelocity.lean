import Verif.Model.BoundaryVelocity
import Mathlib.Data.List.Perm.Basic
import Mathlib.Data.List.Nodup

set_option linter.unusedSectionVars false

namespace Fierro

variable {K : Type} [Field K] {D : ℕ} {N : Type} [DecidableEq N]

theorem applySet_cons (f : Vel K D → Vel K D) (a : N) (nodes : List N) (vel : N → Vel K D) :
    applySet f (a :: nodes) vel = applySet f nodes (Function.update vel a (f (vel a))) := rfl

/-- A node outside the set keeps its velocity. -/
theorem applySet_of_notMem (f : Vel K D → Vel K D) (nodes : List N) (vel : N → Vel K D) (n : N)
    (h : n ∉ nodes) : applySet f nodes vel n = vel n := by
  induction nodes generalizing vel with
  | nil => rfl
  | cons a nodes ih =>
    rw [applySet_cons, ih _ (fun hn => h (List.mem_cons_of_mem _ hn)),
      Function.update_of_ne (fun e => h (by simp [e]))]

/-- A node of the set gets the boundary function applied once (each node is listed once). -/
theorem applySet_of_mem (f : Vel K D → Vel K D) (nodes : List N) (hnd : nodes.Nodup)
    (vel : N → Vel K D) (n : N) (h : n ∈ nodes) : applySet f nodes vel n = f (vel n) := by
  induction nodes generalizing vel with
  | nil => simp at h
  | cons a nodes ih =>
    rw [List.nodup_cons] at hnd
    rw [applySet_cons]
    by_cases ha : n = a
    · subst ha
      rw [applySet_of_notMem _ _ _ _ hnd.1, Function.update_self]
    · have : n ∈ nodes := by simpa [ha] using h
      rw [ih hnd.2 _ this, Function.update_of_ne ha]

theorem boundaryVelocity_cons (s : VelSet N K D) (sets : List (VelSet N K D)) (t : K)
    (vel : N → Vel K D) :
    boundaryVelocity (s :: sets) t vel = boundaryVelocity sets t (applySet (s.bc t) s.nodes vel) :=
  rfl

theorem boundaryVelocity_append (sets sets' : List (VelSet N K D)) (t : K) (vel : N → Vel K D) :
    boundaryVelocity (sets ++ sets') t vel
      = boundaryVelocity sets' t (boundaryVelocity sets t vel) := by
  simp [boundaryVelocity]

theorem boundaryVelocity_of_notMem (sets : List (VelSet N K D)) (t : K) (vel : N → Vel K D) (n : N)
    (h : ∀ s ∈ sets, n ∉ s.nodes) : boundaryVelocity sets t vel n = vel n := by
  induction sets generalizing vel with
  | nil => rfl
  | cons s sets ih =>
    rw [boundaryVelocity_cons, ih _ (fun s' h' => h s' (List.mem_cons_of_mem _ h')),
      applySet_of_notMem _ _ _ _ (h s (by simp))]

end Fierro
