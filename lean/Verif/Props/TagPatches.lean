import Verif.Model.TagPatches
import Mathlib.Tactic.Linarith
import Mathlib.Tactic.NormNum

/-!
# C157: the tagging of boundary patches in the previous version
-/

namespace Fierro

/-- The node is on the plane, and inside the limits of the two other coordinates, up to the tolerance. -/
def OnPlane (eps val : ℝ) (tag s t : ℕ) (lim : Option PatchLimits) (x : ℕ → ℝ) : Prop :=
  |x tag - val| ≤ eps ∧ ∀ l, lim = some l →
    l.sl - eps < x s ∧ x s < l.su + eps ∧ l.tl - eps < x t ∧ x t < l.tu + eps

theorem nodeOn_spec (eps val : ℝ) (tag s t : ℕ) (hst : (tag, s, t) ∈ [(0, 1, 2), (1, 0, 2), (2, 0, 1)])
    (lim : Option PatchLimits) (x : ℕ → ℝ) :
    ∃ b, nodeOn eps val 3 tag lim x = some b ∧ (b = true ↔ OnPlane eps val tag s t lim x) := by
  have h : tag < 3 ∧ s < 3 ∧ t < 3 ∧ otherDims tag = (s, t) := by
    simp only [List.mem_cons, Prod.mk.injEq, List.not_mem_nil, or_false] at hst
    rcases hst with ⟨rfl, rfl, rfl⟩ | ⟨rfl, rfl, rfl⟩ | ⟨rfl, rfl, rfl⟩ <;> simp [otherDims]
  obtain ⟨h1, h2, h3, h4⟩ := h
  simp only [nodeOn, readCoord, h4, if_pos h1, if_pos h2, if_pos h3, OnPlane]
  by_cases hp : |x tag - val| ≤ eps
  · rw [if_pos hp]
    cases lim with
    | none => exact ⟨true, rfl, by simp [hp]⟩
    | some l =>
      refine ⟨_, rfl, ?_⟩
      split_ifs with hc
      · simp only [Bool.false_eq_true, false_iff]
        rintro ⟨_, g⟩
        obtain ⟨g1, g2, g3, g4⟩ := g l rfl
        rcases hc with hc | hc | hc | hc <;> linarith
      · simp only [not_or, not_le, ge_iff_le] at hc
        refine ⟨fun _ => ⟨hp, ?_⟩, fun _ => rfl⟩
        rintro l' e
        cases e
        exact ⟨by linarith [hc.1], by linarith [hc.2.1], by linarith [hc.2.2.1], by linarith [hc.2.2.2]⟩
  · rw [if_neg hp]
    exact ⟨false, rfl, by simp [hp]⟩

theorem allOn_spec (f : ℕ → Option Bool) (P : ℕ → Prop) (h : ∀ v, ∃ b, f v = some b ∧ (b = true ↔ P v)) :
    ∀ nodes, ∃ b, allOn f nodes = some b ∧ (b = true ↔ ∀ v ∈ nodes, P v)
  | [] => ⟨true, rfl, by simp⟩
  | v :: vs => by
    obtain ⟨a, ha, ha'⟩ := h v
    obtain ⟨r, hr, hr'⟩ := allOn_spec f P h vs
    exact ⟨a && r, by simp [allOn, ha, hr], by simp [ha', hr']⟩

theorem tagPatches_spec (eps val : ℝ) (dims tag : ℕ) (lim : Option PatchLimits) (coords : ℕ → ℕ → ℝ)
    (P : List ℕ → Prop) (h : ∀ p, ∃ b, checkBoundary eps val dims tag lim coords p = some b ∧ (b = true ↔ P p)) :
    ∀ (ps : List (List ℕ)) (k : ℕ), ∃ r, tagPatches eps val dims tag lim coords k ps = some r ∧
      r.Pairwise (· < ·) ∧ (∀ i ∈ r, k ≤ i) ∧ ∀ i, k + i ∈ r ↔ ∃ p, ps[i]? = some p ∧ P p
  | [], k => ⟨[], rfl, by simp, by simp, by simp⟩
  | p :: ps, k => by
    obtain ⟨a, ha, ha'⟩ := h p
    obtain ⟨r, hr, r1, r2, r3⟩ := tagPatches_spec eps val dims tag lim coords P h ps (k + 1)
    refine ⟨if a then k :: r else r, by simp [tagPatches, ha, hr], ?_⟩
    by_cases hP : P p
    · rw [ha'.2 hP, if_pos rfl]
      refine ⟨List.pairwise_cons.2 ⟨fun i hi => by have := r2 i hi; omega, r1⟩, ?_, ?_⟩
      · intro i hi
        rcases List.mem_cons.1 hi with rfl | hi
        · exact le_refl _
        · have := r2 i hi; omega
      · intro i
        cases i with
        | zero => simp [hP]
        | succ i =>
          rw [show k + (i + 1) = k + 1 + i by omega, List.mem_cons, r3 i]
          simp
          omega
    · have : a = false := by
        cases a
        · rfl
        · exact absurd (ha'.1 rfl) hP
      subst this
      refine ⟨by simpa using r1, fun i hi => by have := r2 i (by simpa using hi); omega, ?_⟩
      intro i
      cases i with
      | zero =>
        simp only [Bool.false_eq_true, if_false, List.getElem?_cons_zero, Option.some.injEq, exists_eq_left']
        exact ⟨fun hi => by have := r2 _ hi; omega, fun hp => absurd hp hP⟩
      | succ i =>
        rw [show k + (i + 1) = k + 1 + i by omega]
        simpa using r3 i

/-- **C157.**  In three dimensions the patches tagged for a plane are exactly those of which all nodes are on it and
inside the limits of the two other coordinates, up to the tolerance; they are tagged in order, each once. -/
theorem C157_planes (eps val : ℝ) (tag s t : ℕ) (hst : (tag, s, t) ∈ [(0, 1, 2), (1, 0, 2), (2, 0, 1)])
    (lim : Option PatchLimits) (coords : ℕ → ℕ → ℝ) (ps : List (List ℕ)) :
    ∃ r, tagPatches eps val 3 tag lim coords 0 ps = some r ∧ r.Pairwise (· < ·) ∧
      ∀ i, i ∈ r ↔ ∃ p, ps[i]? = some p ∧ ∀ v ∈ p, OnPlane eps val tag s t lim (coords v) := by
  have ht : tag < 3 := by
    simp only [List.mem_cons, Prod.mk.injEq, List.not_mem_nil, or_false] at hst
    omega
  obtain ⟨r, h1, h2, -, h4⟩ := tagPatches_spec eps val 3 tag lim coords
    (fun p => ∀ v ∈ p, OnPlane eps val tag s t lim (coords v))
    (fun p => allOn_spec _ (fun v => OnPlane eps val tag s t lim (coords v))
      (fun v => by rw [if_pos ht]; exact nodeOn_spec eps val tag s t hst lim (coords v)) p) ps 0
  exact ⟨r, h1, h2, fun i => by simpa using h4 i⟩

/-- **C157 (a finding).**  The tags its comment gives to cylinders and spheres are taken by `tag_boundaries` and tag no patch,
wherever its nodes are.  (The callers in the repository refuse such surfaces first, see `C157_refused`.) -/
theorem C157_curved_fails (eps val : ℝ) (dims tag : ℕ) (ht : 3 ≤ tag) (lim : Option PatchLimits) (coords : ℕ → ℕ → ℝ)
    (ps : List (List ℕ)) (hp : ∀ p ∈ ps, p ≠ []) : tagPatches eps val dims tag lim coords 0 ps = some [] := by
  obtain ⟨r, h1, -, -, h4⟩ := tagPatches_spec eps val dims tag lim coords (fun p => ∀ v ∈ p, False)
    (fun p => allOn_spec _ (fun _ => False) (fun v => ⟨false, by rw [if_neg (by omega)], by simp⟩) p) ps 0
  rw [h1]
  cases r with
  | nil => rfl
  | cons i r =>
    obtain ⟨p, h, hf⟩ := (h4 i).1 (by simp)
    cases p with
    | nil => exact absurd rfl (hp _ (List.mem_of_getElem? h))
    | cons v vs => exact absurd (hf v (by simp)) (by simp)

/-- **C157 (a finding).**  In two dimensions limits make the first node on the plane read a third coordinate that no
node has. -/
theorem C157_two_dimensions_fails (eps val : ℝ) (tag : ℕ) (ht : tag < 2) (l : PatchLimits) (coords : ℕ → ℕ → ℝ)
    (p : List ℕ) (ps : List (List ℕ)) (v : ℕ) (hv : v ∈ p) (hon : |coords v tag - val| ≤ eps) :
    tagPatches eps val 2 tag (some l) coords 0 (p :: ps) = none := by
  have hn : nodeOn eps val 2 tag (some l) (coords v) = none := by
    have : tag = 0 ∨ tag = 1 := by omega
    rcases this with rfl | rfl <;> simp [nodeOn, readCoord, otherDims, hon]
  have ha : ∀ nodes : List ℕ, v ∈ nodes → checkBoundary eps val 2 tag (some l) coords nodes = none := by
    intro nodes hm
    unfold checkBoundary
    induction nodes with
    | nil => cases hm
    | cons w ws ih =>
      rcases List.mem_cons.1 hm with rfl | hm
      · simp [allOn, show tag < 3 by omega, hn]
      · rw [allOn, ih hm]
        split <;> simp_all
  rw [tagPatches, ha p hv]

/-- **C157.**  A boundary condition on a surface is refused exactly if the surface is not a plane of coordinates. -/
theorem C157_refused (eps scale : ℝ) (dims : ℕ) (f : Surf) (coords : ℕ → ℕ → ℝ) (ps : List (List ℕ)) :
    tagSurface eps scale dims f coords ps = none ↔ f.type = .cylinder ∨ f.type = .sphere ∨ f.type = .readFile := by
  obtain ⟨ty, pos, lim⟩ := f
  cases ty <;> simp [tagSurface, surfTag]

/-- The plane a surface of the input is on and the other two coordinates. -/
def PlaneOf : SurfType → ℕ × ℕ × ℕ → Prop
  | .xPlane, d => d = (0, 1, 2)
  | .yPlane, d => d = (1, 0, 2)
  | .zPlane, d => d = (2, 0, 1)
  | _, _ => False

/-- **C157.**  A boundary condition on a plane without limits gets, in a mesh read with a scale, exactly the patches of
which all nodes of the file are on the plane of the input, up to the tolerance over the scale. -/
theorem C157_scaled (eps scale : ℝ) (hs : 0 < scale) (f : Surf) (hl : f.limits = none) (d : ℕ × ℕ × ℕ)
    (hd : PlaneOf f.type d) (file : ℕ → ℕ → ℝ) (ps : List (List ℕ)) :
    ∃ r, tagSurface eps scale 3 f (fun v c => file v c * scale) ps = some (some r) ∧ r.Pairwise (· < ·) ∧
      ∀ i, i ∈ r ↔ ∃ p, ps[i]? = some p ∧ ∀ v ∈ p, |file v d.1 - f.position| ≤ eps / scale := by
  obtain ⟨ty, pos, lim⟩ := f
  obtain ⟨tag, s, t⟩ := d
  have h : surfTag ty = some tag ∧ (tag, s, t) ∈ [(0, 1, 2), (1, 0, 2), (2, 0, 1)] := by
    cases ty <;> simp [PlaneOf] at hd <;> obtain ⟨rfl, rfl, rfl⟩ := hd <;> simp [surfTag]
  obtain ⟨r, h1, h2, h3⟩ := C157_planes eps (pos * scale) tag s t h.2 lim (fun v c => file v c * scale) ps
  refine ⟨r, by simp [tagSurface, h.1, h1], h2, fun i => ?_⟩
  rw [h3 i]
  have : ∀ v, OnPlane eps (pos * scale) tag s t lim (fun c => file v c * scale) ↔ |file v tag - pos| ≤ eps / scale := by
    intro v
    simp only at hl
    rw [le_div_iff₀ hs, OnPlane, hl, ← sub_mul, abs_mul, abs_of_pos hs]
    simp
  simp only [this]

/-- **C157 (a finding).**  The position of a plane is scaled as the mesh is but its limits are not: a patch of the file
on the plane and inside the limits of the input is not tagged if the scale moves one of its nodes past a limit. -/
theorem C157_limits_scale_fails (eps scale : ℝ) (f : Surf) (l : PatchLimits) (hl : f.limits = some l)
    (tag s t : ℕ) (hd : PlaneOf f.type (tag, s, t)) (file : ℕ → ℕ → ℝ) (ps : List (List ℕ)) (i : ℕ) (p : List ℕ)
    (hi : ps[i]? = some p) (v : ℕ) (hv : v ∈ p) (hout : l.su + eps ≤ file v s * scale) :
    ∃ r, tagSurface eps scale 3 f (fun v c => file v c * scale) ps = some (some r) ∧ i ∉ r := by
  obtain ⟨ty, pos, lim⟩ := f
  have h : surfTag ty = some tag ∧ (tag, s, t) ∈ [(0, 1, 2), (1, 0, 2), (2, 0, 1)] := by
    cases ty <;> simp [PlaneOf] at hd <;> obtain ⟨rfl, rfl, rfl⟩ := hd <;> simp [surfTag]
  obtain ⟨r, h1, -, h3⟩ := C157_planes eps (pos * scale) tag s t h.2 lim (fun v c => file v c * scale) ps
  refine ⟨r, by simp [tagSurface, h.1, h1], fun hm => ?_⟩
  obtain ⟨q, hq, hall⟩ := (h3 i).1 hm
  rw [hi] at hq
  cases hq
  have := ((hall v hv).2 l hl).2.1
  linarith

/-- A square inside the limits of the input that a scale of 1000 moves out of them. -/
example : ∃ r, tagSurface (1 / 100) 1000 3 ⟨.xPlane, 1, some ⟨0, 1, 0, 1⟩⟩ (fun _ c => (if c = 0 then 1 else 1 / 2) * 1000)
    [[0, 1, 2, 3]] = some (some r) ∧ 0 ∉ r :=
  C157_limits_scale_fails (1 / 100) 1000 ⟨.xPlane, 1, some ⟨0, 1, 0, 1⟩⟩ ⟨0, 1, 0, 1⟩ rfl 0 1 2 rfl
    (fun _ c => if c = 0 then 1 else 1 / 2) _ 0 _ rfl 0 (by simp) (by norm_num)

/-- A square on the plane, inside limits. -/
example : ∃ r, tagPatches (1 / 100) 1 3 0 (some ⟨0, 1, 0, 1⟩) (fun v c => if c = 0 then 1 else v / 4) 0
    [[0, 1], [2, 9]] = some r ∧ 0 ∈ r ∧ 1 ∉ r := by
  obtain ⟨r, h, -, h3⟩ := C157_planes (1 / 100) 1 0 1 2 (by simp) (some ⟨0, 1, 0, 1⟩)
    (fun v c => if c = 0 then 1 else v / 4) [[0, 1], [2, 9]]
  refine ⟨r, h, (h3 0).2 ⟨_, rfl, ?_⟩, ?_⟩
  · intro v hv
    simp only [List.mem_cons, List.not_mem_nil, or_false] at hv
    rcases hv with rfl | rfl <;>
    · refine ⟨by norm_num, fun l hl => ?_⟩
      cases hl
      norm_num
  · rw [h3]
    rintro ⟨p, hp, hall⟩
    simp only [List.getElem?_cons_succ, List.getElem?_cons_zero, Option.some.injEq] at hp
    subst hp
    have := ((hall 9 (by simp)).2 _ rfl).2.1
    norm_num at this

end Fierro
