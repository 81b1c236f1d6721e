import Verif.Model.BoundarySets
import Mathlib.Tactic.NormNum
import Mathlib.Data.List.Nodup

/-!
# C24: boundary sets
-/

namespace Fierro

/-- The surfaces of the input deck: coordinate planes, cylinders around the z axis, spheres. -/
noncomputable def OnSurface (s : SurfaceSpec) (x : ℕ → ℝ) : Prop :=
  match s.surface with
  | 0 => |x 0 - s.value| ≤ s.tolerance
  | 1 => |x 1 - s.value| ≤ s.tolerance
  | 2 => |x 2 - s.value| ≤ s.tolerance
  | 3 => |Real.sqrt ((x 0 - s.origin 0) ^ 2 + (x 1 - s.origin 1) ^ 2) - s.value| ≤ s.tolerance
  | 4 => |Real.sqrt ((x 0 - s.origin 0) ^ 2 + (x 1 - s.origin 1) ^ 2 + (x 2 - s.origin 2) ^ 2) -
      s.value| ≤ s.tolerance
  | _ => False

/-- The surfaces that make sense in `dims` dimensions. -/
def SurfaceSpec.Supported (s : SurfaceSpec) (dims : ℕ) : Prop :=
  dims = 3 ∨ dims = 2 ∧ s.surface ≠ 2 ∧ s.surface ≠ 4

theorem nodeOnSurface_eq (s : SurfaceSpec) (dims : ℕ) (h : s.Supported dims) (x : ℕ → ℝ) :
    ∃ b, nodeOnSurface s dims x = some b ∧ (b = true ↔ OnSurface s x) := by
  obtain ⟨t, v, tol, o⟩ := s
  unfold nodeOnSurface OnSurface patchCoord
  have h2 : 2 ≤ dims := by rcases h with h | h <;> omega
  have c0 : 0 < dims := by omega
  have c1 : 1 < dims := by omega
  rcases t with _ | _ | _ | _ | _ | t
  · simp [c0]
  · simp [c1]
  · have c2 : 2 < dims := by
      rcases h with h | h
      · omega
      · exact absurd rfl h.2.1
    simp [c2]
  · simp [c0, c1, pow_two]
  · have c2 : 2 < dims := by
      rcases h with h | h
      · omega
      · exact absurd rfl h.2.2
    simp [c0, c1, c2, pow_two]
  · simp

theorem countOnSurface_eq (s : SurfaceSpec) (dims : ℕ) (h : s.Supported dims)
    (coords : ℕ → ℕ → ℝ) (patch : List ℕ) (c : ℕ) :
    ∃ n, countOnSurface s dims coords patch c = some (c + n) ∧ n ≤ patch.length ∧
      (n = patch.length ↔ ∀ g ∈ patch, OnSurface s (coords g)) := by
  induction patch generalizing c with
  | nil => exact ⟨0, rfl, le_rfl, by simp⟩
  | cons g gs ih =>
    obtain ⟨b, hb, hs⟩ := nodeOnSurface_eq s dims h (coords g)
    rw [countOnSurface, hb]
    cases b with
    | true =>
      obtain ⟨n, h1, h2, h3⟩ := ih (c + 1)
      refine ⟨n + 1, ?_, by simp; omega, ?_⟩
      · simp only [if_true]; rw [h1]; congr 1; omega
      · simp only [List.length_cons, Nat.add_right_cancel_iff, h3, List.mem_cons, forall_eq_or_imp]
        exact ⟨fun q => ⟨hs.mp rfl, q⟩, fun q => q.2⟩
    | false =>
      obtain ⟨n, h1, h2, h3⟩ := ih c
      refine ⟨n, h1, by simp; omega, ?_⟩
      constructor
      · intro q; simp only [List.length_cons] at q; omega
      · intro q
        have := hs.mpr (q g List.mem_cons_self)
        simp at this

theorem checkBdy_eq (s : SurfaceSpec) (dims : ℕ) (h : s.Supported dims)
    (coords : ℕ → ℕ → ℝ) (patch : List ℕ) :
    ∃ b, checkBdy s dims coords patch = some b ∧
      (b = true ↔ ∀ g ∈ patch, OnSurface s (coords g)) := by
  obtain ⟨n, h1, -, h3⟩ := countOnSurface_eq s dims h coords patch 0
  exact ⟨decide (n = patch.length), by simp [checkBdy, h1], by simp [h3]⟩

open Classical in
/-- **C24**, patches: a boundary set holds exactly the boundary patches all of whose nodes are on
the surface within tolerance, in the order of the boundary patches. -/
theorem C24_patches (s : SurfaceSpec) (dims : ℕ) (h : s.Supported dims) (coords : ℕ → ℕ → ℝ)
    (nodesInPatch : ℕ → List ℕ) (bdyPatches : List ℕ) :
    tagBdys s dims coords nodesInPatch bdyPatches [] =
      some (bdyPatches.filter fun p => decide (∀ g ∈ nodesInPatch p, OnSurface s (coords g))) := by
  suffices H : ∀ acc, tagBdys s dims coords nodesInPatch bdyPatches acc = some (acc ++
      bdyPatches.filter fun p => decide (∀ g ∈ nodesInPatch p, OnSurface s (coords g))) by
    simpa using H []
  induction bdyPatches with
  | nil => intro acc; simp [tagBdys]
  | cons p ps ih =>
    intro acc
    obtain ⟨b, hb, hs⟩ := checkBdy_eq s dims h coords (nodesInPatch p)
    rw [tagBdys, hb]
    simp only
    rw [ih, List.filter_cons]
    cases b with
    | true => simp only [if_true, decide_eq_true (hs.mp rfl)]; simp
    | false =>
      have : ¬ ∀ g ∈ nodesInPatch p, OnSurface s (coords g) := fun q => by simpa using hs.mpr q
      simp only [Bool.false_eq_true, if_false, decide_eq_false this]

/-- **C24**, no patch twice, and never more than there is room for (each row of the temporary array
has `num_bdy_patches` entries). -/
theorem C24_patches_once (s : SurfaceSpec) (dims : ℕ) (h : s.Supported dims) (coords : ℕ → ℕ → ℝ)
    (nodesInPatch : ℕ → List ℕ) (bdyPatches : List ℕ) (hnd : bdyPatches.Nodup) (L : List ℕ)
    (hL : tagBdys s dims coords nodesInPatch bdyPatches [] = some L) :
    L.Nodup ∧ L.length ≤ bdyPatches.length := by
  classical
  rw [C24_patches s dims h] at hL
  cases hL
  exact ⟨hnd.filter _, List.length_filter_le ..⟩

/-! ### Nodes of a set -/

theorem mark_inner (gs : List ℕ) (m : ℕ → ℤ) (g : ℕ) :
    gs.foldl (fun m g => Function.update m g (-1)) m g = if g ∈ gs then -1 else m g := by
  induction gs generalizing m with
  | nil => simp
  | cons a gs ih =>
    rw [List.foldl_cons, ih]
    by_cases h1 : g ∈ gs
    · simp [h1]
    · by_cases h2 : g = a
      · subst h2; simp [h1]
      · simp [h1, h2]

theorem markNodes_eq (nodesInPatch : ℕ → List ℕ) (patches : List ℕ) (m : ℕ → ℤ) (g : ℕ) :
    (∃ p ∈ patches, g ∈ nodesInPatch p) → markNodes nodesInPatch patches m g = -1 := by
  rintro ⟨p, hp, hg⟩
  unfold markNodes
  suffices H : ∀ (ps : List ℕ) (m : ℕ → ℤ), (m g = -1 ∨ p ∈ ps) →
      (ps.foldl (fun m p => (nodesInPatch p).foldl (fun m g => Function.update m g (-1)) m) m) g = -1 from
    H patches m (Or.inr hp)
  intro ps
  induction ps with
  | nil => intro m h; simpa using h
  | cons q ps ih =>
    intro m h
    rw [List.foldl_cons]
    apply ih
    rcases h with h | h
    · left; rw [mark_inner, h]; simp
    · rcases List.mem_cons.mp h with rfl | h
      · left; rw [mark_inner, if_pos hg]
      · right; exact h

/-- The second pass walks over the nodes of all patches one after the other. -/
theorem saveNodes_flat (nodesInPatch : ℕ → List ℕ) (patches : List ℕ) (st : (ℕ → ℤ) × List ℕ) :
    saveNodes nodesInPatch patches st = (patches.flatMap nodesInPatch).foldl saveNode st := by
  unfold saveNodes
  induction patches generalizing st with
  | nil => rfl
  | cons p ps ih => rw [List.foldl_cons, ih, List.flatMap_cons, List.foldl_append]

theorem save_inv (m0 : ℕ → ℤ) (gs : List ℕ) (hm : ∀ g ∈ gs, m0 g = -1) :
    let st := gs.foldl saveNode (m0, [])
    st.2.Nodup ∧ (∀ g, g ∈ st.2 ↔ g ∈ gs) ∧ (∀ g, g ∈ gs → st.1 g = g) ∧
      (∀ g, g ∉ gs → st.1 g = m0 g) ∧ st.2.length ≤ gs.length := by
  induction gs using List.reverseRecOn with
  | nil => simp
  | append_singleton gs a ih =>
    obtain ⟨h1, h2, h3, h4, h5⟩ := ih fun g hg => hm g (List.mem_append_left _ hg)
    rw [List.foldl_append, List.foldl_cons, List.foldl_nil]
    set st := gs.foldl saveNode (m0, []) with hst
    unfold saveNode
    by_cases ha : a ∈ gs
    · have : st.1 a ≠ -1 := by rw [h3 a ha]; omega
      rw [if_neg this]
      refine ⟨h1, fun g => ?_, fun g hg => ?_, fun g hg => ?_, by simp; omega⟩
      · rw [h2]; simp; rintro rfl; exact ha
      · apply h3
        rcases List.mem_append.mp hg with h | h
        · exact h
        · rw [List.mem_singleton.mp h]; exact ha
      · exact h4 g fun h => hg (List.mem_append_left _ h)
    · have : st.1 a = -1 := by rw [h4 a ha]; exact hm a (by simp)
      rw [if_pos this]
      dsimp only
      refine ⟨?_, fun g => ?_, fun g hg => ?_, fun g hg => ?_, by simp; omega⟩
      · rw [List.nodup_append]
        refine ⟨h1, by simp, ?_⟩
        intro x hx y hy hxy
        rw [List.mem_singleton] at hy
        subst hy; subst hxy
        exact ha ((h2 _).mp hx)
      · simp [h2]
      · by_cases hga : g = a
        · subst hga; simp
        · rw [Function.update_of_ne hga]
          apply h3
          rcases List.mem_append.mp hg with h | h
          · exact h
          · exact absurd (List.mem_singleton.mp h) hga
      · have hga : g ≠ a := by rintro rfl; exact hg (by simp)
        rw [Function.update_of_ne hga]
        exact h4 g fun h => hg (List.mem_append_left _ h)

theorem bdyNodes_spec (nodesInPatch : ℕ → List ℕ) (patches : List ℕ) (mark : ℕ → ℤ) :
    (bdyNodes nodesInPatch patches mark).Nodup ∧
    (∀ g, g ∈ bdyNodes nodesInPatch patches mark ↔ ∃ p ∈ patches, g ∈ nodesInPatch p) ∧
    (bdyNodes nodesInPatch patches mark).length ≤ (patches.flatMap nodesInPatch).length := by
  have hm : ∀ g ∈ patches.flatMap nodesInPatch, markNodes nodesInPatch patches mark g = -1 := by
    intro g hg
    exact markNodes_eq _ _ _ _ (List.mem_flatMap.mp hg)
  obtain ⟨h1, h2, -, -, h5⟩ := save_inv _ _ hm
  unfold bdyNodes
  rw [saveNodes_flat]
  exact ⟨h1, fun g => by rw [h2, List.mem_flatMap], h5⟩

/-- **C24**, nodes: the node list of a set holds exactly the nodes of its patches, each once,
whatever the temporary array contained. -/
theorem C24_nodes (nodesInPatch : ℕ → List ℕ) (patches : List ℕ) (mark : ℕ → ℤ) :
    (bdyNodes nodesInPatch patches mark).Nodup ∧
    ∀ g, g ∈ bdyNodes nodesInPatch patches mark ↔ ∃ p ∈ patches, g ∈ nodesInPatch p :=
  ⟨(bdyNodes_spec _ _ _).1, (bdyNodes_spec _ _ _).2.1⟩

/-- The row of the temporary node array (`num_bdy_patches * num_nodes_in_patch` entries) is never
overrun. -/
theorem C24_nodes_in_bounds (nodesInPatch : ℕ → List ℕ) (patches : List ℕ) (mark : ℕ → ℤ)
    (k numBdyPatches : ℕ) (hk : ∀ p ∈ patches, (nodesInPatch p).length = k)
    (hp : patches.length ≤ numBdyPatches) :
    (bdyNodes nodesInPatch patches mark).length ≤ numBdyPatches * k := by
  refine (bdyNodes_spec _ _ _).2.2.trans ?_
  have : (patches.flatMap nodesInPatch).length = patches.length * k := by
    clear hp
    induction patches with
    | nil => simp
    | cons p ps ih =>
      rw [List.flatMap_cons, List.length_append, hk p List.mem_cons_self,
        ih fun q hq => hk q (List.mem_cons_of_mem _ hq), List.length_cons, Nat.succ_mul]
      omega
  rw [this]
  exact Nat.mul_le_mul_right _ hp

open Classical in
/-- **C24**, both steps: a node is in the set of a boundary condition exactly if it belongs to a
boundary patch that lies on the surface. -/
theorem C24_nodes_of_surface (s : SurfaceSpec) (dims : ℕ) (h : s.Supported dims)
    (coords : ℕ → ℕ → ℝ) (nodesInPatch : ℕ → List ℕ) (bdyPatches L : List ℕ) (mark : ℕ → ℤ)
    (hL : tagBdys s dims coords nodesInPatch bdyPatches [] = some L) (g : ℕ) :
    g ∈ bdyNodes nodesInPatch L mark ↔ ∃ p ∈ bdyPatches, g ∈ nodesInPatch p ∧
      ∀ g' ∈ nodesInPatch p, OnSurface s (coords g') := by
  rw [C24_patches s dims h] at hL
  cases hL
  rw [(C24_nodes _ _ _).2]
  simp only [List.mem_filter, decide_eq_true_eq]
  exact ⟨fun ⟨p, ⟨a, b⟩, c⟩ => ⟨p, a, c, b⟩, fun ⟨p, a, c, b⟩ => ⟨p, ⟨a, b⟩, c⟩⟩

/-- The surface `global`, documented as the full boundary, selects no patch at all. -/
theorem C24_global_surface_fails (s : SurfaceSpec) (hs : s.surface = 5) (dims : ℕ)
    (hd : dims = 2 ∨ dims = 3) (coords : ℕ → ℕ → ℝ) (nodesInPatch : ℕ → List ℕ)
    (bdyPatches : List ℕ) (hne : ∀ p ∈ bdyPatches, nodesInPatch p ≠ []) :
    tagBdys s dims coords nodesInPatch bdyPatches [] = some [] := by
  classical
  have hsup : s.Supported dims := by
    rcases hd with rfl | rfl
    · exact Or.inr ⟨rfl, by omega, by omega⟩
    · exact Or.inl rfl
  rw [C24_patches s dims hsup]
  congr 1
  rw [List.filter_eq_nil_iff]
  intro p hp hall
  have hall := of_decide_eq_true hall
  obtain ⟨g, hg⟩ := List.exists_mem_of_ne_nil _ (hne p hp)
  have := hall g hg
  simp [OnSurface, hs] at this

/-- In 2D a sphere or z-plane uses a coordinate that was never set. -/
theorem C24_2d_sphere_unset_fails (s : SurfaceSpec) (hs : s.surface = 2 ∨ s.surface = 4)
    (coords : ℕ → ℕ → ℝ) (nodesInPatch : ℕ → List ℕ) (p : ℕ) (ps : List ℕ)
    (hne : nodesInPatch p ≠ []) : tagBdys s 2 coords nodesInPatch (p :: ps) [] = none := by
  obtain ⟨g, gs, hg⟩ := List.exists_cons_of_ne_nil hne
  have : nodeOnSurface s 2 (coords g) = none := by
    unfold nodeOnSurface patchCoord
    rcases hs with hs | hs <;> simp [hs]
  simp [tagBdys, checkBdy, hg, countOnSurface, this]

/-- Non-trivial instance: two patches, one of them on the plane `x = 1`. -/
example : tagBdys ⟨0, 1, 1 / 10, 0⟩ 3 (fun g d => if d = 0 then (g : ℝ) else 0)
    (fun p => if p = 7 then [1, 1] else [1, 2]) [7, 8] [] = some [7] := by
  classical
  rw [C24_patches _ 3 (Or.inl rfl)]
  congr 1
  have h1 : (∀ g ∈ [1, 1], OnSurface ⟨0, 1, 1 / 10, 0⟩ (fun d => if d = 0 then ((g : ℕ) : ℝ) else 0)) := by
    simp [OnSurface]
  have h2 : ¬ (∀ g ∈ [1, 2], OnSurface ⟨0, 1, 1 / 10, 0⟩ (fun d => if d = 0 then ((g : ℕ) : ℝ) else 0)) := by
    simp only [OnSurface, List.mem_cons, List.not_mem_nil, or_false, forall_eq_or_imp, forall_eq]
    norm_num
  rw [List.filter_cons_of_pos ?_, List.filter_cons_of_neg ?_, List.filter_nil]
  · simpa only [show (8 : ℕ) ≠ 7 by omega, if_false, decide_eq_true_eq] using h2
  · simpa only [if_true, decide_eq_true_eq] using h1

example : bdyNodes (fun p => if p = 0 then [4, 5] else [5, 6]) [0, 1] (fun _ => 12345) = [4, 5, 6] := by
  decide +kernel

end Fierro
