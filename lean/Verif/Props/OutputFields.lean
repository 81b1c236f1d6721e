import Verif.Proofs.OutputFields
import Mathlib.Algebra.Order.Field.Basic
import Mathlib.Algebra.Order.BigOperators.Group.Finset
import Mathlib.Algebra.BigOperators.Field
import Mathlib.Data.Fin.VecNotation
import Mathlib.Data.List.Flatten
import Mathlib.Tactic.FieldSimp
import Mathlib.Tactic.Linarith
import Mathlib.Tactic.NormNum

/-!
# C101, C102: the fields of a graphics dump
-/

namespace Fierro

section
variable {K : Type} [Field K]

/-! ### Specification -/

/-- Sum of a quantity of the material points over the points that lie in element `e`. -/
def inElem (st : OutState K) (x : ℕ → ℕ → K) (e : ℕ) : K :=
  ∑ m ∈ Finset.range st.numMats, ∑ s ∈ Finset.range (st.numMatElems m),
    if st.elem m s = e then x m s else 0

/-- A quantity weighted with the part of the volume that the material point takes. -/
def weighted (st : OutState K) (x : ℕ → ℕ → K) (m s : ℕ) : K :=
  x m s * st.volfrac m s * st.geoVolfrac m s

/-- A field: a number or a tensor for each element. -/
inductive FieldValue (K : Type) where
  | scalar (f : ℕ → K)
  | tensor (f : ℕ → ℕ → ℕ → K)

/-- Whether a field is a scalar. -/
def FieldValue.isScalar : FieldValue K → Bool
  | .scalar _ => true
  | .tensor _ => false

/-- Name and values of an element field. -/
def elemSpec (st : OutState K) : MatField → Option (String × FieldValue K)
  | .density => some ("den", .scalar (inElem st (weighted st st.den)))
  | .pressure => some ("pres", .scalar (inElem st (weighted st st.pres)))
  | .sspd => some ("sspd", .scalar (inElem st (weighted st st.sspd)))
  | .conductivity => some ("thermal_K", .scalar (inElem st (weighted st st.conductivity)))
  | .specificHeat => some ("Cp", .scalar (inElem st (weighted st st.specificHeat)))
  | .mass => some ("mass", .scalar (inElem st st.mass))
  | .sie => some ("sie", .scalar fun e =>
      inElem st (fun m s => st.mass m s * st.sie m s) e / (inElem st st.mass e + 1 / 10 ^ 20))
  | .stress => some ("stress", .tensor fun e i j =>
      inElem st (weighted st fun m s => st.stress m s i j) e)
  | .volfrac | .eroded | .unused => none

/-- Name and values of a Gauss point field. -/
def gaussSpec (st : OutState K) : GaussField → String × FieldValue K
  | .volume => ("vol", .scalar st.vol)
  | .divergence => ("div", .scalar st.div)
  | .levelSet => ("level_set", .scalar st.levelSet)
  | .velGrad => ("vel_grad", .tensor st.velGrad)

/-- Names and values of the fields of material `m`. -/
def matSpec (st : OutState K) (m : ℕ) : MatField → List (String × FieldValue K)
  | .density => [("mat_den", .scalar (st.den m))]
  | .pressure => [("mat_pres", .scalar (st.pres m))]
  | .sie => [("mat_sie", .scalar (st.sie m))]
  | .sspd => [("mat_sspd", .scalar (st.sspd m))]
  | .mass => [("mat_mass", .scalar (st.mass m))]
  | .volfrac => [("mat_volfrac", .scalar (st.volfrac m)), ("mat_geo_volfrac", .scalar (st.geoVolfrac m))]
  | .eroded => [("mat_eroded", .scalar fun s => if st.eroded m s then 1 else 0)]
  | .stress => [("mat_stress", .tensor (st.stress m))]
  | .conductivity | .specificHeat | .unused => []

/-- A field in the file: scalars one on each line, tensors all on one line, row by row. -/
def asField (prt : K → K) (n : ℕ) (f : String × FieldValue K) : VtuField K :=
  ⟨f.1, match f.2 with
    | .scalar x => (List.range n).map fun e => [.real (prt (x e))]
    | .tensor x => [(List.range n).flatMap fun e =>
        [.real (prt (x e 0 0)), .real (prt (x e 0 1)), .real (prt (x e 0 2)),
         .real (prt (x e 1 0)), .real (prt (x e 1 1)), .real (prt (x e 1 2)),
         .real (prt (x e 2 0)), .real (prt (x e 2 1)), .real (prt (x e 2 2))]]⟩

/-- The cell data: first all scalars, then all tensors, both in the order of the requests. -/
def cellData (prt : K → K) (n : ℕ) (fs : List (String × FieldValue K)) : List (VtuField K) :=
  (fs.filter fun f => f.2.isScalar).map (asField prt n) ++
    (fs.filter fun f => !f.2.isScalar).map (asField prt n)

/-! ### Proofs -/

/-- What a material point adds to a column. -/
def colAmount (st : OutState K) (c : OutCol) (m s i j : ℕ) : K :=
  match c with
  | .den => st.den m s * st.volfrac m s * st.geoVolfrac m s
  | .pres => st.pres m s * st.volfrac m s * st.geoVolfrac m s
  | .sie => st.mass m s * st.sie m s
  | .sspd => st.sspd m s * st.volfrac m s * st.geoVolfrac m s
  | .mass => st.mass m s
  | .thermalK => st.conductivity m s * st.volfrac m s * st.geoVolfrac m s
  | .cp => st.specificHeat m s * st.volfrac m s * st.geoVolfrac m s
  | .stress => st.stress m s i j * st.volfrac m s * st.geoVolfrac m s
  | _ => 0

/-- What is stored in a column of Gauss point values. -/
def gaussAmount (st : OutState K) (c : OutCol) (e i j : ℕ) : K :=
  match c with
  | .vol => st.vol e
  | .div => st.div e
  | .levelSet => st.levelSet e
  | .velGrad => st.velGrad e i j
  | _ => 0

/-- What is stored in a column of material values. -/
def matAmount (st : OutState K) (m : ℕ) (c : OutCol) (s i j : ℕ) : K :=
  match c with
  | .den => st.den m s
  | .pres => st.pres m s
  | .sie => st.sie m s
  | .sspd => st.sspd m s
  | .mass => st.mass m s
  | .volfrac => st.volfrac m s
  | .geoVolfrac => st.geoVolfrac m s
  | .eroded => if st.eroded m s then 1 else 0
  | .stress => st.stress m s i j
  | _ => 0

theorem elemFieldLoops_eq (st : OutState K) (row : OutCol → ℤ) (m : ℕ) (f : MatField) :
    elemFieldLoops st row m f = (elemCols f).flatMap fun c =>
      [addLoop (st.numMatElems m) fun s => colOps row c.1 (st.elem m s) (colAmount st c.1 m s)] := by
  cases f <;> rfl

theorem gaussFieldLoops_eq (st : OutState K) (row : OutCol → ℤ) (f : GaussField) :
    gaussFieldLoops st row f = (gaussCols f).flatMap fun c =>
      [storeLoop st.numElems fun e => colOps row c.1 e (gaussAmount st c.1 e)] := by
  cases f <;> rfl

theorem matFieldLoops_eq (st : OutState K) (row : OutCol → ℤ) (m : ℕ) (f : MatField)
    (hf : f ≠ .conductivity) (hf' : f ≠ .specificHeat) :
    matFieldLoops st row m f = (matCols f).flatMap fun c =>
      [storeLoop (st.numMatElems m) fun s => colOps row c.1 s (matAmount st m c.1 s)] := by
  cases f <;> first | rfl | (exact absurd rfl hf) | (exact absurd rfl hf')

theorem nodup_cols {F : Type} (cols : F → List (OutCol × String)) (l : List F) (hl : l.Nodup)
    (h1 : ∀ f, ((cols f).map Prod.fst).Nodup)
    (h2 : ∀ f g, f ≠ g → ∀ c ∈ (cols f).map Prod.fst, c ∉ (cols g).map Prod.fst) :
    ((l.flatMap cols).map Prod.fst).Nodup := by
  rw [List.map_flatMap, List.nodup_flatMap]
  refine ⟨fun f _ => h1 f, hl.imp ?_⟩
  intro f g hfg c hc hc'
  exact h2 f g hfg c hc hc'

theorem nodup_elem (req : List MatField) (h : req.Nodup) :
    ((req.flatMap elemCols).map Prod.fst).Nodup := by
  refine nodup_cols _ _ h (fun f => by cases f <;> decide) fun f g hfg c hc => ?_
  cases f <;> cases g <;> first | exact absurd rfl hfg | (simp [elemCols] at hc ⊢) <;> (try subst hc) <;> (try decide)

theorem nodup_gauss (req : List GaussField) (h : req.Nodup) :
    ((req.flatMap gaussCols).map Prod.fst).Nodup := by
  refine nodup_cols _ _ h (fun f => by cases f <;> decide) fun f g hfg c hc => ?_
  cases f <;> cases g <;> first | exact absurd rfl hfg | (simp [gaussCols] at hc ⊢) <;> (try subst hc) <;> (try decide)

theorem nodup_mat (req : List MatField) (h : req.Nodup) :
    ((req.flatMap matCols).map Prod.fst).Nodup := by
  refine nodup_cols _ _ h (fun f => by cases f <;> decide) fun f g hfg c hc => ?_
  cases f <;> cases g <;> first | exact absurd rfl hfg | (simp [matCols] at hc ⊢; try (rcases hc with rfl | rfl <;> decide)) <;> (try subst hc) <;> (try decide)

theorem nodup_elem_gauss (req : List MatField) (gauss : List GaussField) (h : req.Nodup) (hg : gauss.Nodup) :
    ((req.flatMap elemCols ++ gauss.flatMap gaussCols).map Prod.fst).Nodup := by
  rw [List.map_append, List.nodup_append]
  refine ⟨nodup_elem req h, nodup_gauss gauss hg, fun a ha b hb hab => ?_⟩
  rw [List.map_flatMap, List.mem_flatMap] at ha hb
  obtain ⟨f, _, hf⟩ := ha
  obtain ⟨g, _, hg⟩ := hb
  subst hab
  revert hf hg
  cases f <;> cases g <;> simp [elemCols, gaussCols] <;> rintro rfl <;> decide

theorem runLoops_exists {κ α : Type} [DecidableEq κ]
    (ls : List ((n : ℕ) × (Fin n → List (Action κ α)))) (v : κ → α) : ∃ v', RunLoops ls v v' := by
  induction ls generalizing v with
  | nil => exact ⟨v, RunLoops.nil v⟩
  | cons l ls ih =>
    have hs := sched_seq (List.finRange l.1) (List.nodup_finRange l.1) l.2 (by simp)
    obtain ⟨v', h⟩ := ih (execActions _ v)
    exact ⟨v', RunLoops.cons l ls _ v v' hs h⟩

/-- One pass over the columns. -/
theorem pass_elem (st : OutState K) (A G : List (OutCol × String)) (row : OutCol → ℤ) (m : ℕ)
    (hnd : ((A ++ G).map Prod.fst).Nodup)
    (hrow : ∀ c ∈ A ++ G, ∀ d ∈ A ++ G, c.1 ≠ d.1 → Apart row c.1 d.1)
    (hinj : ∀ s < st.numMatElems m, ∀ s' < st.numMatElems m, st.elem m s = st.elem m s' → s = s')
    (c : OutCol × String) (e i j : ℕ) (hk : OkIdx c.1 i j) :
    (c ∈ A → EffL
      ((A.flatMap fun c => [addLoop (st.numMatElems m) fun s => colOps row c.1 (st.elem m s) (colAmount st c.1 m s)])
        ++ G.flatMap fun c => [storeLoop st.numElems fun e => colOps row c.1 e (gaussAmount st c.1 e)])
      (colCell row c.1 e i j)
      (· + ∑ s ∈ Finset.range (st.numMatElems m), if st.elem m s = e then colAmount st c.1 m s i j else 0)) ∧
    (c ∈ G → e < st.numElems → EffL
      ((A.flatMap fun c => [addLoop (st.numMatElems m) fun s => colOps row c.1 (st.elem m s) (colAmount st c.1 m s)])
        ++ G.flatMap fun c => [storeLoop st.numElems fun e => colOps row c.1 e (gaussAmount st c.1 e)])
      (colCell row c.1 e i j) (fun _ => gaussAmount st c.1 e i j)) := by
  have hndA : A.Nodup := (List.nodup_append.1 (List.Nodup.of_map _ hnd)).1
  have hndG : G.Nodup := (List.nodup_append.1 (List.Nodup.of_map _ hnd)).2.1
  have hne : ∀ c ∈ A ++ G, ∀ d ∈ A ++ G, c ≠ d → c.1 ≠ d.1 := by
    intro a ha b hb hab h
    exact hab (List.inj_on_of_nodup_map hnd ha hb h)
  have hAG : ∀ a ∈ A, ∀ b ∈ G, a ≠ b := (List.nodup_append.1 (List.Nodup.of_map _ hnd)).2.2
  constructor
  · intro hc
    have hcA : c ∈ A ++ G := List.mem_append_left _ hc
    have h1 := EffL.one_of_flatMap A hndA
      (fun c => [addLoop (st.numMatElems m) fun s => colOps row c.1 (st.elem m s) (colAmount st c.1 m s)])
      (colCell row c.1 e i j) c hc _
      (addCol_hit row c.1 (st.numMatElems m) (st.elem m) hinj (colAmount st c.1 m) e i j hk)
      (fun b hb hbc => addCol_miss row c.1 b.1
        (hrow c hcA b (List.mem_append_left _ hb) (hne c hcA b (List.mem_append_left _ hb) (Ne.symm hbc)))
        _ _ _ e i j hk)
    have h2 := EffL.flatMap_id G
      (fun c => [storeLoop st.numElems fun e => colOps row c.1 e (gaussAmount st c.1 e)])
      (colCell row c.1 e i j) (fun b hb => storeCol_miss row c.1 b.1
        (hrow c hcA b (List.mem_append_right _ hb) (hne c hcA b (List.mem_append_right _ hb) (hAG c hc b hb)))
        _ _ e i j hk)
    exact h1.append h2
  · intro hc he
    have hcG : c ∈ A ++ G := List.mem_append_right _ hc
    have h2 := EffL.one_of_flatMap G hndG
      (fun c => [storeLoop st.numElems fun e => colOps row c.1 e (gaussAmount st c.1 e)])
      (colCell row c.1 e i j) c hc _
      (storeCol_hit row c.1 st.numElems (gaussAmount st c.1) e i j he hk)
      (fun b hb hbc => storeCol_miss row c.1 b.1
        (hrow c hcG b (List.mem_append_right _ hb) (hne c hcG b (List.mem_append_right _ hb) (Ne.symm hbc)))
        _ _ e i j hk)
    have h1 := EffL.flatMap_id A
      (fun c => [addLoop (st.numMatElems m) fun s => colOps row c.1 (st.elem m s) (colAmount st c.1 m s)])
      (colCell row c.1 e i j) (fun b hb => addCol_miss row c.1 b.1
        (hrow c hcG b (List.mem_append_left _ hb)
          (hne c hcG b (List.mem_append_left _ hb) (Ne.symm (hAG b hb c hc))))
        _ _ _ e i j hk)
    exact h1.append h2

theorem divideLoop_run (n : ℕ) (rs rm : ℤ) (v v' : OutCell ⊕ ℕ → K)
    (h : RunLoops [divideLoop n rs rm] v v') :
    (∀ c, (∀ e < n, c ≠ .scal rs e) → v' (Sum.inl c) = v (Sum.inl c)) ∧
    ∀ e < n, v' (Sum.inl (.scal rs e))
      = v (Sum.inl (.scal rs e)) / (v (Sum.inl (.scal rm e)) + 1 / 10 ^ 20) := by
  cases h with
  | cons _ _ s _ _ hs hr =>
  cases hr
  have hmem : ∀ (i : Fin n) a, a ∈ (divideLoop (K := K) n rs rm).2 i →
      (a.dst = Sum.inr (i : ℕ) ∨ a.dst = Sum.inl (.scal rs i)) ∧
      ∀ k, a.reads k → k = Sum.inl (.scal rs i) ∨ k = Sum.inl (.scal rm i) ∨ k = Sum.inr (i : ℕ) := by
    intro i a ha
    rcases List.mem_cons.1 ha with rfl | ha
    · exact ⟨Or.inl rfl, fun k hk => by rcases hk with h | h <;> simp [h]⟩
    · rw [List.mem_singleton] at ha
      subst ha
      exact ⟨Or.inr rfl, fun k hk => Or.inr (Or.inr hk)⟩
  have hcf : ConflictFree (divideLoop (K := K) n rs rm).2 := by
    intro i j hij a ha b hb
    have hval : (i : ℕ) ≠ (j : ℕ) := fun hv => hij (Fin.ext hv)
    obtain ⟨h1, _⟩ := hmem i a ha
    obtain ⟨h2, h3⟩ := hmem j b hb
    constructor
    · rcases h1 with h1 | h1 <;> rcases h2 with h2 | h2 <;> rw [h1, h2] <;> simp [hval]
    · intro hr
      rcases h1 with h1 | h1 <;> rcases h3 _ hr with h | h | h <;> rw [h1] at h <;> simp [hval] at h
  constructor
  · intro c hc
    refine execActions_notin s v _ fun a ha => ?_
    obtain ⟨i, hi⟩ := (sched_mem hs a).1 ha
    rcases (hmem i a hi).1 with h | h <;> rw [h]
    · simp
    · intro he
      exact hc i i.2 (Sum.inl.inj he).symm
  · intro e he
    rw [sched_own _ hcf s hs v ⟨e, he⟩]
    · simp [divideLoop, execActions, Action.run, Action.copy]
    · intro j hj a ha
      have hval : (j : ℕ) ≠ e := fun hv => hj (Fin.ext hv)
      rcases (hmem j a ha).1 with h | h <;> rw [h] <;> simp [hval]

theorem lastKinds (cols : List (OutCol × String)) :
    (outSlots cols).scalars = (kindCols true cols).map Prod.snd ∧
    (outSlots cols).others = (kindCols false cols).map Prod.snd := by
  rw [(outSlots_names cols).1, (outSlots_names cols).2]
  refine ⟨?_, ?_⟩ <;>
  · unfold kindCols
    congr 1
    apply List.filter_congr
    intro x _
    cases x.1.isScalar <;> rfl

theorem range3 {B : Type} (F : ℕ → ℕ → B) :
    ((List.range 3).flatMap fun i => (List.range 3).map fun j => F i j)
      = [F 0 0, F 0 1, F 0 2, F 1 0, F 1 1, F 1 2, F 2 0, F 2 1, F 2 2] := rfl

/-- The file in terms of the values of the columns. -/
theorem written_cols (prt : K → K) (n : ℕ) (cols : List (OutCol × String))
    (hnd : (cols.map Prod.fst).Nodup) (v' : OutCell ⊕ ℕ → K) (val : OutCol → ℕ → ℕ → ℕ → K)
    (h : ∀ c ∈ cols, ∀ e < n, ∀ i j, OkIdx c.1 i j →
      v' (Sum.inl (colCell (outSlots cols).row c.1 e i j)) = val c.1 e i j) :
    writtenScalars prt n (outSlots cols).scalars v' ++ writtenTensors prt n (outSlots cols).others v'
      = cellData prt n (cols.map fun c => (c.2,
          if c.1.isScalar then .scalar fun e => val c.1 e 0 0 else .tensor (val c.1))) := by
  unfold writtenScalars writtenTensors cellData
  rw [(lastKinds cols).1, (lastKinds cols).2]
  rw [zip_rows cols hnd true (fun nm r => (⟨nm, (List.range n).map fun e =>
    [.real (prt (v' (Sum.inl (.scal r e))))]⟩ : VtuField K))]
  rw [zip_rows cols hnd false (fun nm r => (⟨nm, [(List.range n).flatMap fun e =>
    (List.range 3).flatMap fun i => (List.range 3).map fun j =>
      .real (prt (v' (Sum.inl (.tens r e i j))))]⟩ : VtuField K))]
  rw [List.filter_map, List.filter_map, List.map_map, List.map_map]
  have hk1 : cols.filter ((fun f : String × FieldValue K => f.2.isScalar) ∘ fun c => (c.2,
      if c.1.isScalar then .scalar fun e => val c.1 e 0 0 else .tensor (val c.1))) = kindCols true cols := by
    unfold kindCols
    apply List.filter_congr
    intro c _
    cases hc : c.1.isScalar <;> simp [Function.comp, hc, FieldValue.isScalar]
  have hk2 : cols.filter ((fun f : String × FieldValue K => !f.2.isScalar) ∘ fun c => (c.2,
      if c.1.isScalar then .scalar fun e => val c.1 e 0 0 else .tensor (val c.1))) = kindCols false cols := by
    unfold kindCols
    apply List.filter_congr
    intro c _
    cases hc : c.1.isScalar <;> simp [Function.comp, hc, FieldValue.isScalar]
  rw [hk1, hk2]
  congr 1
  · apply List.map_congr_left
    intro c hc
    obtain ⟨hc, hs⟩ := List.mem_filter.1 hc
    have hs : c.1.isScalar = true := by simpa using hs
    simp only [Function.comp, asField, hs, if_true]
    congr 1
    apply List.map_congr_left
    intro e he
    have := h c hc e (List.mem_range.1 he) 0 0 (by simp [OkIdx, hs])
    rw [colCell, if_pos hs] at this
    rw [this]
  · apply List.map_congr_left
    intro c hc
    obtain ⟨hc, hs⟩ := List.mem_filter.1 hc
    have hs : c.1.isScalar = false := by simpa using hs
    simp only [Function.comp, asField, hs, Bool.false_eq_true, if_false]
    congr 2
    apply List.flatMap_congr
    intro e he
    have hv : ∀ i < 3, ∀ j < 3, v' (Sum.inl (.tens ((outSlots cols).row c.1) e i j)) = val c.1 e i j := by
      intro i hi j hj
      have := h c hc e (List.mem_range.1 he) i j (by simp [OkIdx, hs, hi, hj])
      rw [colCell, if_neg (by simp [hs])] at this
      exact this
    rw [range3]
    rw [hv 0 (by omega) 0 (by omega), hv 0 (by omega) 1 (by omega), hv 0 (by omega) 2 (by omega),
      hv 1 (by omega) 0 (by omega), hv 1 (by omega) 1 (by omega), hv 1 (by omega) 2 (by omega),
      hv 2 (by omega) 0 (by omega), hv 2 (by omega) 1 (by omega), hv 2 (by omega) 2 (by omega)]

/-- Final value of a column of the element arrays. -/
def elemColValue (st : OutState K) (c : OutCol) (e i j : ℕ) : K :=
  match c with
  | .vol | .div | .levelSet | .velGrad => gaussAmount st c e i j
  | .sie => inElem st (fun m s => colAmount st .sie m s i j) e /
      (inElem st (fun m s => colAmount st .mass m s i j) e + 1 / 10 ^ 20)
  | _ => inElem st (fun m s => colAmount st c m s i j) e

theorem elemRun_values (st : OutState K) (req : List MatField) (gauss : List GaussField)
    (hreq : req.Nodup) (hgauss : gauss.Nodup) (hm : 0 < st.numMats)
    (hsie : .sie ∈ req → .mass ∈ req)
    (hinj : ∀ m < st.numMats, ∀ s < st.numMatElems m, ∀ s' < st.numMatElems m,
      st.elem m s = st.elem m s' → s = s')
    (v v' : OutCell ⊕ ℕ → K) (hv : ∀ c, v (Sum.inl c) = 0)
    (hr : RunLoops (allElemLoops st (outSlots (req.flatMap elemCols ++ gauss.flatMap gaussCols)).row
      req gauss) v v')
    (c : OutCol × String) (hc : c ∈ req.flatMap elemCols ++ gauss.flatMap gaussCols)
    (e : ℕ) (he : e < st.numElems) (i j : ℕ) (hk : OkIdx c.1 i j) :
    v' (Sum.inl (colCell (outSlots (req.flatMap elemCols ++ gauss.flatMap gaussCols)).row c.1 e i j))
      = elemColValue st c.1 e i j := by
  have hnd := nodup_elem_gauss req gauss hreq hgauss
  obtain ⟨A, hA⟩ : ∃ A, A = req.flatMap elemCols := ⟨_, rfl⟩
  obtain ⟨G, hG⟩ : ∃ G, G = gauss.flatMap gaussCols := ⟨_, rfl⟩
  rw [← hA, ← hG] at hnd hr hc ⊢
  have hap : ∀ c ∈ A ++ G, ∀ d ∈ A ++ G, c.1 ≠ d.1 → Apart (outSlots (A ++ G)).row c.1 d.1 :=
    fun c hc d hd => outSlots_apart (A ++ G) hnd c d hc hd
  have hbd := outSlots_bounds (A ++ G) hnd
  have habs := outSlots_absent (A ++ G)
  obtain ⟨row, hrow⟩ : ∃ row, row = (outSlots (A ++ G)).row := ⟨_, rfl⟩
  rw [← hrow] at hap hbd habs hr ⊢
  -- the loops of one material
  have hpass : ∀ m, req.flatMap (elemFieldLoops st row m) ++ gauss.flatMap (gaussFieldLoops st row)
      = (A.flatMap fun c => [addLoop (st.numMatElems m) fun s =>
          colOps row c.1 (st.elem m s) (colAmount st c.1 m s)])
        ++ G.flatMap fun c => [storeLoop st.numElems fun e => colOps row c.1 e (gaussAmount st c.1 e)] := by
    intro m
    rw [hA, hG, List.flatMap_assoc, List.flatMap_assoc]
    congr 1
    · apply List.flatMap_congr; intro f _; exact elemFieldLoops_eq st row m f
    · apply List.flatMap_congr; intro f _; exact gaussFieldLoops_eq st row f
  have hadd : ∀ c ∈ A, ∀ e i j, OkIdx c.1 i j → EffL (elemLoops st row req gauss)
      (colCell row c.1 e i j) (· + inElem st (fun m s => colAmount st c.1 m s i j) e) := by
    intro c hc e i j hk
    unfold elemLoops
    refine EffL.flatMap_add st.numMats _ _ _ fun m hm => ?_
    simp only [hpass]
    exact (pass_elem st A G row m hnd hap (hinj m hm) c e i j hk).1 hc
  have hstore : ∀ c ∈ G, ∀ e < st.numElems, ∀ i j, OkIdx c.1 i j → EffL (elemLoops st row req gauss)
      (colCell row c.1 e i j) (fun _ => gaussAmount st c.1 e i j) := by
    intro c hc e he i j hk
    unfold elemLoops
    refine EffL.flatMap_const st.numMats hm _ _ _ fun m hm => ?_
    simp only [hpass]
    exact (pass_elem st A G row m hnd hap (hinj m hm) c e i j hk).2 hc he
  have hAcols : ∀ c ∈ A, c.1 ∉ [OutCol.vol, .div, .levelSet, .velGrad] := by
    intro c hc
    rw [hA, List.mem_flatMap] at hc
    obtain ⟨f, _, hf⟩ := hc
    revert hf
    cases f <;> simp [elemCols] <;> rintro rfl <;> decide
  have hGcols : ∀ c ∈ G, c.1 ∈ [OutCol.vol, .div, .levelSet, .velGrad] := by
    intro c hc
    rw [hG, List.mem_flatMap] at hc
    obtain ⟨f, _, hf⟩ := hc
    revert hf
    cases f <;> simp [gaussCols] <;> rintro rfl <;> decide
  -- before the division
  unfold allElemLoops at hr
  obtain ⟨w, hw, hdiv⟩ := runLoops_append _ _ _ _ hr
  have hwA : ∀ c ∈ A, ∀ e i j, OkIdx c.1 i j →
      w (Sum.inl (colCell row c.1 e i j)) = inElem st (fun m s => colAmount st c.1 m s i j) e := by
    intro c hc e i j hk
    rw [hadd c hc e i j hk v w hw, hv]
    exact zero_add _
  have hwG : ∀ c ∈ G, ∀ e < st.numElems, ∀ i j, OkIdx c.1 i j →
      w (Sum.inl (colCell row c.1 e i j)) = gaussAmount st c.1 e i j := fun c hc e he i j hk =>
    hstore c hc e he i j hk v w hw
  by_cases hs : MatField.sie ∈ req
  · have hsA : ((OutCol.sie, "sie") : OutCol × String) ∈ A := by
      rw [hA, List.mem_flatMap]; exact ⟨_, hs, by simp [elemCols]⟩
    have hmA : ((OutCol.mass, "mass") : OutCol × String) ∈ A := by
      rw [hA, List.mem_flatMap]; exact ⟨_, hsie hs, by simp [elemCols]⟩
    rw [if_pos (hbd _ (List.mem_append_left _ hsA)).1] at hdiv
    obtain ⟨d1, d2⟩ := divideLoop_run _ _ _ _ _ hdiv
    by_cases hcs : c.1 = .sie
    · have h0 := d2 e he
      have e1 := hwA _ hsA e 0 0 (by simp [OkIdx, OutCol.isScalar])
      have e2 := hwA _ hmA e 0 0 (by simp [OkIdx, OutCol.isScalar])
      simp only [colCell, OutCol.isScalar, if_true] at e1 e2
      rw [e1, e2] at h0
      rw [hcs] at hk ⊢
      have hij : i = 0 ∧ j = 0 := by simpa [OkIdx, OutCol.isScalar] using hk
      obtain ⟨rfl, rfl⟩ := hij
      rw [show colCell row OutCol.sie e 0 0 = .scal (row .sie) e from rfl, h0]
      rfl
    · have hne : ∀ e' < st.numElems, colCell row c.1 e i j ≠ .scal (row .sie) e' := by
        intro e' _ heq
        have h1 := colCell_eq (c' := .sie) (e' := e') (i' := 0) (j' := 0) hk
          (by simp [OkIdx, OutCol.isScalar]) heq
        exact hap c hc _ (List.mem_append_left _ hsA) hcs h1.1 h1.2.1
      rw [d1 _ hne]
      rcases List.mem_append.1 hc with hcA | hcG
      · rw [hwA c hcA e i j hk]
        have := hAcols c hcA
        revert this hcs
        generalize c.1 = d
        cases d <;> simp [elemColValue]
      · rw [hwG c hcG e he i j hk]
        have := hGcols c hcG
        revert this
        generalize c.1 = d
        cases d <;> simp [elemColValue]
  · have hneg : row .sie = -1 := by
      apply habs
      rw [List.map_append, List.mem_append]
      rintro (h | h)
      · obtain ⟨c', hc', h1⟩ := List.mem_map.1 h
        rw [hA, List.mem_flatMap] at hc'
        obtain ⟨f, hf, hf'⟩ := hc'
        revert hf hf'
        cases f <;> simp [elemCols] <;> try (rintro _ rfl; revert h1; decide)
        · exact fun h => absurd h hs
      · obtain ⟨c', hc', h1⟩ := List.mem_map.1 h
        have := hGcols c' hc'
        rw [h1] at this
        revert this
        decide
    rw [if_neg (by rw [hneg]; decide)] at hdiv
    cases hdiv
    rcases List.mem_append.1 hc with hcA | hcG
    · rw [hwA c hcA e i j hk]
      have := hAcols c hcA
      have hcs : c.1 ≠ .sie := by
        intro h
        have := (hbd c hc).1
        rw [h, hneg] at this
        revert this
        decide
      revert this hcs
      generalize c.1 = d
      cases d <;> simp [elemColValue]
    · rw [hwG c hcG e he i j hk]
      have := hGcols c hcG
      revert this
      generalize c.1 = d
      cases d <;> simp [elemColValue]

/-- **C101.** The cell data of the whole mesh, for every schedule of the parallel loops: for each
requested field, in the order of the requests and under its name, the sum over the material points of
the element (weighted with their parts of the volume), the specific internal energy as the energy of
the element by its mass, and the Gauss point values as they are. -/
theorem C101_element_fields (st : OutState K) (prt : K → K) (req : List MatField)
    (gauss : List GaussField) (hreq : req.Nodup) (hgauss : gauss.Nodup) (hm : 0 < st.numMats)
    (hsie : .sie ∈ req → .mass ∈ req)
    (hinj : ∀ m < st.numMats, ∀ s < st.numMatElems m, ∀ s' < st.numMatElems m,
      st.elem m s = st.elem m s' → s = s') (fs : List (VtuField K)) :
    ElemOutput st prt req gauss fs ↔
      fs = cellData prt st.numElems (req.filterMap (elemSpec st) ++ gauss.map (gaussSpec st)) := by
  have hnd := nodup_elem_gauss req gauss hreq hgauss
  have key : ∀ v v' : OutCell ⊕ ℕ → K, (∀ c, v (Sum.inl c) = 0) →
      RunLoops (allElemLoops st (outSlots (req.flatMap elemCols ++ gauss.flatMap gaussCols)).row
        req gauss) v v' →
      writtenScalars prt st.numElems
          (outSlots (req.flatMap elemCols ++ gauss.flatMap gaussCols)).scalars v' ++
        writtenTensors prt st.numElems
          (outSlots (req.flatMap elemCols ++ gauss.flatMap gaussCols)).others v'
      = cellData prt st.numElems (req.filterMap (elemSpec st) ++ gauss.map (gaussSpec st)) := by
    intro v v' hv hr
    rw [written_cols prt st.numElems _ hnd v' (elemColValue st) fun c hc e he i j hk =>
      elemRun_values st req gauss hreq hgauss hm hsie hinj v v' hv hr c hc e he i j hk]
    congr 1
    rw [List.map_append, List.map_flatMap, List.map_flatMap]
    congr 1
    · clear hnd hreq hsie hr
      induction req with
      | nil => rfl
      | cons f req ih =>
        rw [List.flatMap_cons, ih, List.filterMap_cons]
        cases f <;> rfl
    · clear hnd hgauss hr
      induction gauss with
      | nil => rfl
      | cons f gauss ih =>
        rw [List.flatMap_cons, ih, List.map_cons]
        cases f <;> rfl
  constructor
  · rintro ⟨v, v', hv, hr, rfl⟩
    exact key v v' hv hr
  · rintro rfl
    obtain ⟨v', hr⟩ := runLoops_exists (allElemLoops st
      (outSlots (req.flatMap elemCols ++ gauss.flatMap gaussCols)).row req gauss) (fun _ => (0 : K))
    exact ⟨_, v', fun _ => rfl, hr, (key _ v' (fun _ => rfl) hr).symm⟩

/-- Entries of the arrays with `ns` rows of scalars and `nt` rows of tensors for `n` elements. -/
def InArrays (ns nt n : ℕ) : OutCell ⊕ ℕ → Prop
  | Sum.inl (.scal r e) => 0 ≤ r ∧ r < ns ∧ e < n
  | Sum.inl (.tens r e i j) => 0 ≤ r ∧ r < nt ∧ e < n ∧ i < 3 ∧ j < 3
  | Sum.inl (.vec _ _ _) => False
  | Sum.inr _ => True

theorem colCell_inArrays (cols : List (OutCol × String)) (hnd : (cols.map Prod.fst).Nodup)
    (c : OutCol × String) (hc : c ∈ cols) (n e i j : ℕ) (he : e < n) (hk : OkIdx c.1 i j) :
    InArrays (outSlots cols).scalars.length (outSlots cols).others.length n
      (Sum.inl (colCell (outSlots cols).row c.1 e i j)) := by
  have hb := outSlots_bounds cols hnd c hc
  rw [(lastKinds cols).1, (lastKinds cols).2, List.length_map, List.length_map]
  unfold colCell
  unfold OkIdx at hk
  cases hs : c.1.isScalar with
  | true =>
    rw [hs] at hb
    exact ⟨hb.1, hb.2, he⟩
  | false =>
    rw [hs] at hb hk
    exact ⟨hb.1, hb.2, he, hk.1, hk.2⟩

theorem addLoop_cells (n : ℕ) (ops : ℕ → List (OutCell × K)) (P : OutCell ⊕ ℕ → Prop)
    (hr : ∀ i, P (Sum.inr i)) (h : ∀ i < n, ∀ o ∈ ops i, P (Sum.inl o.1)) (i : Fin n)
    (a : Action (OutCell ⊕ ℕ) K) (ha : a ∈ (addLoop n ops).2 i) : P a.dst ∧ ∀ c, a.reads c → P c := by
  obtain ⟨o, ho, hd, hrd⟩ := rmwThread_mem ha
  obtain ⟨o', ho', rfl⟩ := List.mem_map.1 ho
  constructor
  · rcases hd with hd | hd <;> rw [hd]
    · exact hr _
    · exact h i i.2 o' ho'
  · intro c hc
    rcases hrd c hc with rfl | rfl
    · exact hr _
    · exact h i i.2 o' ho'

theorem storeLoop_cells (n : ℕ) (ops : ℕ → List (OutCell × K)) (P : OutCell ⊕ ℕ → Prop)
    (h : ∀ i < n, ∀ o ∈ ops i, P (Sum.inl o.1)) (i : Fin n)
    (a : Action (OutCell ⊕ ℕ) K) (ha : a ∈ (storeLoop n ops).2 i) : P a.dst ∧ ∀ c, a.reads c → P c := by
  obtain ⟨o, ho, rfl⟩ := List.mem_map.1 ha
  obtain ⟨o', ho', rfl⟩ := List.mem_map.1 ho
  exact ⟨h i i.2 o' ho', fun c hc => hc.elim⟩

/-- **C101.** No access outside the arrays: with the numbers of rows counted before, as many names are
entered as there are rows, and every entry that a loop reads or writes exists. -/
theorem C101_in_bounds (st : OutState K) (req : List MatField)
    (gauss : List GaussField) (hreq : req.Nodup) (hgauss : gauss.Nodup)
    (hsie : .sie ∈ req → .mass ∈ req)
    (hel : ∀ m < st.numMats, ∀ s < st.numMatElems m, st.elem m s < st.numElems) :
    let slots := outSlots (req.flatMap elemCols ++ gauss.flatMap gaussCols)
    slots.scalars.length = (req.map fun f => (countElem f).1).sum + (gauss.map fun f => (countGauss f).1).sum ∧
    slots.others.length = (req.map fun f => (countElem f).2).sum + (gauss.map fun f => (countGauss f).2).sum ∧
    ∀ l ∈ allElemLoops st slots.row req gauss, ∀ i, ∀ a ∈ l.2 i,
      InArrays slots.scalars.length slots.others.length st.numElems a.dst ∧
      ∀ c, a.reads c → InArrays slots.scalars.length slots.others.length st.numElems c := by
  have hnd := nodup_elem_gauss req gauss hreq hgauss
  refine ⟨?_, ?_, ?_⟩
  · rw [(lastKinds _).1, List.length_map]
    unfold kindCols
    rw [List.filter_append, List.length_append]
    congr 1
    · clear hreq hsie hnd
      induction req with
      | nil => rfl
      | cons f req ih =>
        rw [List.flatMap_cons, List.filter_append, List.length_append, ih, List.map_cons, List.sum_cons]
        cases f <;> rfl
    · clear hgauss hnd
      induction gauss with
      | nil => rfl
      | cons f gauss ih =>
        rw [List.flatMap_cons, List.filter_append, List.length_append, ih, List.map_cons, List.sum_cons]
        cases f <;> rfl
  · rw [(lastKinds _).2, List.length_map]
    unfold kindCols
    rw [List.filter_append, List.length_append]
    congr 1
    · clear hreq hsie hnd
      induction req with
      | nil => rfl
      | cons f req ih =>
        rw [List.flatMap_cons, List.filter_append, List.length_append, ih, List.map_cons, List.sum_cons]
        cases f <;> rfl
    · clear hgauss hnd
      induction gauss with
      | nil => rfl
      | cons f gauss ih =>
        rw [List.flatMap_cons, List.filter_append, List.length_append, ih, List.map_cons, List.sum_cons]
        cases f <;> rfl
  · intro l hl i a ha
    unfold allElemLoops at hl
    rcases List.mem_append.1 hl with hl | hl
    · unfold elemLoops at hl
      obtain ⟨m, hm, hl⟩ := List.mem_flatMap.1 hl
      have hm := List.mem_range.1 hm
      rcases List.mem_append.1 hl with hl | hl
      · obtain ⟨f, hf, hl⟩ := List.mem_flatMap.1 hl
        rw [elemFieldLoops_eq] at hl
        obtain ⟨c, hc, hl⟩ := List.mem_flatMap.1 hl
        rw [List.mem_singleton] at hl
        subst hl
        refine addLoop_cells _ _ _ (fun _ => trivial) ?_ i a ha
        intro s hs o ho
        obtain ⟨i', j', hk, rfl⟩ := (mem_colOps _ _ _ _ _).1 ho
        exact colCell_inArrays _ hnd c (List.mem_append_left _ (List.mem_flatMap.2 ⟨f, hf, hc⟩)) _ _ _ _
          (hel m hm s hs) hk
      · obtain ⟨f, hf, hl⟩ := List.mem_flatMap.1 hl
        rw [gaussFieldLoops_eq] at hl
        obtain ⟨c, hc, hl⟩ := List.mem_flatMap.1 hl
        rw [List.mem_singleton] at hl
        subst hl
        refine storeLoop_cells _ _ _ ?_ i a ha
        intro s hs o ho
        obtain ⟨i', j', hk, rfl⟩ := (mem_colOps _ _ _ _ _).1 ho
        exact colCell_inArrays _ hnd c (List.mem_append_right _ (List.mem_flatMap.2 ⟨f, hf, hc⟩)) _ _ _ _
          hs hk
    · split at hl
      · rename_i hpos
        rw [List.mem_singleton] at hl
        subst hl
        have hs : MatField.sie ∈ req := by
          by_contra hs
          have hneg : (outSlots (req.flatMap elemCols ++ gauss.flatMap gaussCols)).row .sie = -1 := by
            apply outSlots_absent
            rw [List.map_append, List.mem_append, List.map_flatMap, List.map_flatMap, List.mem_flatMap,
              List.mem_flatMap]
            rintro (⟨f, hf, h⟩ | ⟨f, _, h⟩)
            · revert hf h
              cases f <;> simp [elemCols]
              exact hs
            · revert h
              cases f <;> simp [gaussCols]
          rw [hneg] at hpos
          exact absurd hpos (by decide)
        have h1 := colCell_inArrays _ hnd (.sie, "sie")
          (List.mem_append_left _ (List.mem_flatMap.2 ⟨_, hs, by simp [elemCols]⟩)) st.numElems i 0 0 i.2
          (by simp [OkIdx, OutCol.isScalar])
        have h2 := colCell_inArrays _ hnd (.mass, "mass")
          (List.mem_append_left _ (List.mem_flatMap.2 ⟨_, hsie hs, by simp [elemCols]⟩)) st.numElems i 0 0
          i.2 (by simp [OkIdx, OutCol.isScalar])
        rcases List.mem_cons.1 ha with rfl | ha
        · refine ⟨trivial, ?_⟩
          rintro c (rfl | rfl)
          · exact h1
          · exact h2
        · rw [List.mem_singleton] at ha
          subst ha
          refine ⟨h1, ?_⟩
          rintro c rfl
          trivial
      · simp at hl

theorem length_kind {F : Type} (cols : F → List (OutCol × String)) (count : F → ℕ) (b : Bool) (req : List F)
    (h : ∀ f, (kindCols b (cols f)).length = count f) :
    (kindCols b (req.flatMap cols)).length = (req.map count).sum := by
  unfold kindCols at h ⊢
  induction req with
  | nil => rfl
  | cons f req ih =>
    rw [List.flatMap_cons, List.filter_append, List.length_append, ih, List.map_cons, List.sum_cons, h]

/-- **C101.** The same for the arrays of a material, which have one column for each of its elements. -/
theorem C101_material_in_bounds (st : OutState K) (m : ℕ) (req : List MatField) (hreq : req.Nodup)
    (h1 : .conductivity ∉ req) (h2 : .specificHeat ∉ req) :
    let slots := outSlots (req.flatMap matCols)
    slots.scalars.length = (req.map fun f => (countMatRows f).1).sum ∧
    slots.others.length = (req.map fun f => (countMatRows f).2).sum ∧
    ∀ l ∈ req.flatMap (matFieldLoops st slots.row m), ∀ i, ∀ a ∈ l.2 i,
      InArrays slots.scalars.length slots.others.length (st.numMatElems m) a.dst ∧
      ∀ c, a.reads c → InArrays slots.scalars.length slots.others.length (st.numMatElems m) c := by
  have hnd := nodup_mat req hreq
  refine ⟨?_, ?_, ?_⟩
  · rw [(lastKinds _).1, List.length_map]
    exact length_kind _ _ _ _ fun f => by cases f <;> rfl
  · rw [(lastKinds _).2, List.length_map]
    exact length_kind _ _ _ _ fun f => by cases f <;> rfl
  · intro l hl i a ha
    obtain ⟨f, hf, hl⟩ := List.mem_flatMap.1 hl
    rw [matFieldLoops_eq st _ m f (fun h => h1 (h ▸ hf)) (fun h => h2 (h ▸ hf))] at hl
    obtain ⟨c, hc, hl⟩ := List.mem_flatMap.1 hl
    rw [List.mem_singleton] at hl
    subst hl
    refine storeLoop_cells _ _ _ ?_ i a ha
    intro s hs o ho
    obtain ⟨i', j', hk, rfl⟩ := (mem_colOps _ _ _ _ _).1 ho
    exact colCell_inArrays _ hnd c (List.mem_flatMap.2 ⟨f, hf, hc⟩) _ _ _ _ hs hk

/-- **C101.** The masses of the elements add up to the mass of all material points. -/
theorem C101_total_mass (st : OutState K)
    (hel : ∀ m < st.numMats, ∀ s < st.numMatElems m, st.elem m s < st.numElems) :
    elemSpec st .mass = some ("mass", .scalar (inElem st st.mass)) ∧
    ∑ e ∈ Finset.range st.numElems, inElem st st.mass e
      = ∑ m ∈ Finset.range st.numMats, ∑ s ∈ Finset.range (st.numMatElems m), st.mass m s := by
  refine ⟨rfl, ?_⟩
  unfold inElem
  rw [Finset.sum_comm]
  refine Finset.sum_congr rfl fun m hm => ?_
  rw [Finset.sum_comm]
  refine Finset.sum_congr rfl fun s hs => ?_
  rw [Finset.sum_ite_eq]
  rw [if_pos (Finset.mem_range.2 (hel m (Finset.mem_range.1 hm) s (Finset.mem_range.1 hs)))]

/-- **C101.** If the parts of the volume in an element add up to one, a quantity that has the same value in
all its material points is written with this value. -/
theorem C101_uniform (st : OutState K) (e : ℕ) (x : ℕ → ℕ → K) (x0 : K)
    (hx : ∀ m < st.numMats, ∀ s < st.numMatElems m, st.elem m s = e → x m s = x0)
    (hone : inElem st (fun m s => st.volfrac m s * st.geoVolfrac m s) e = 1) :
    inElem st (weighted st x) e = x0 := by
  have : inElem st (weighted st x) e = x0 * inElem st (fun m s => st.volfrac m s * st.geoVolfrac m s) e := by
    unfold inElem weighted
    rw [Finset.mul_sum]
    refine Finset.sum_congr rfl fun m hm => ?_
    rw [Finset.mul_sum]
    refine Finset.sum_congr rfl fun s hs => ?_
    split_ifs with h
    · rw [hx m (Finset.mem_range.1 hm) s (Finset.mem_range.1 hs) h]; ring
    · ring
  rw [this, hone, mul_one]

/-- **C101.** The specific internal energy of an element without negative masses: times the mass (and the
small number added to it) it is the internal energy in the element. -/
theorem C101_energy [LinearOrder K] [IsStrictOrderedRing K] (st : OutState K) (e : ℕ)
    (hmass : ∀ m s, 0 ≤ st.mass m s) : ∃ f, elemSpec st .sie = some ("sie", .scalar f) ∧
      f e * (inElem st st.mass e + 1 / 10 ^ 20) = inElem st (fun m s => st.mass m s * st.sie m s) e := by
  refine ⟨_, rfl, ?_⟩
  have h0 : 0 ≤ inElem st st.mass e := by
    unfold inElem
    refine Finset.sum_nonneg fun m _ => Finset.sum_nonneg fun s _ => ?_
    split_ifs
    · exact hmass m s
    · exact le_rfl
  have hpos : (0 : K) < inElem st st.mass e + 1 / 10 ^ 20 := by positivity
  exact div_mul_cancel₀ _ hpos.ne'

/-! ### Requests -/

/-- The name of a field. -/
def elemName : MatField → Option String
  | .density => some "den"
  | .pressure => some "pres"
  | .stress => some "stress"
  | .sie => some "sie"
  | .sspd => some "sspd"
  | .mass => some "mass"
  | _ => none

theorem parseRequests_some {F : Type} (map : List (String × F)) (ws : List String) (fs : List F)
    (h : parseRequests map ws = some fs) : List.Forall₂ (fun w f => map.lookup w = some f) ws fs := by
  induction ws generalizing fs with
  | nil =>
    injection h with h
    subst h
    exact .nil
  | cons w ws ih =>
    unfold parseRequests at h
    cases hl : map.lookup w with
    | none => rw [hl] at h; simp at h
    | some f =>
      rw [hl] at h
      simp only [Option.map_eq_some_iff] at h
      obtain ⟨gs, hg, rfl⟩ := h
      exact .cons hl (ih gs hg)

theorem parseRequests_none {F : Type} (map : List (String × F)) (ws : List String) :
    parseRequests map ws = none ↔ ∃ w ∈ ws, map.lookup w = none := by
  induction ws with
  | nil => simp [parseRequests]
  | cons w ws ih =>
    unfold parseRequests
    cases hl : map.lookup w with
    | none => exact ⟨fun _ => ⟨w, by simp, hl⟩, fun _ => rfl⟩
    | some f =>
      simp only [Option.map_eq_none_iff, ih, List.mem_cons]
      constructor
      · rintro ⟨a, ha, h⟩; exact ⟨a, Or.inr ha, h⟩
      · rintro ⟨a, rfl | ha, h⟩
        · rw [hl] at h; simp at h
        · exact ⟨a, ha, h⟩

theorem elemLookup (w : String) (f : MatField) (h : elemOutputsMap.lookup w = some f) :
    elemName f = some w := by
  unfold elemOutputsMap at h
  simp only [List.lookup_cons, List.lookup_nil] at h
  repeat' split at h
  all_goals first
    | (injection h with h; subst h; rename_i hw; simp only [beq_iff_eq] at hw; subst hw; rfl)
    | simp at h

/-- **C101.** The words of the deck and the names in the file: what is asked for as `w` is written as
`mat_w` for a material point field, and as `w` for an element field. -/
theorem C101_words (st : OutState K) (m : ℕ) (ws : List String) :
    (∀ fs, parseRequests matOutputsMap ws = some fs →
      List.Forall₂ (fun w f => ((matSpec st m f).map Prod.fst).head? = some ("mat_" ++ w)) ws fs) ∧
    (∀ fs, parseRequests elemOutputsMap ws = some fs →
      List.Forall₂ (fun w f => (elemSpec st f).map Prod.fst = some w) ws fs) ∧
    (∀ fs, parseRequests gaussOutputsMap ws = some fs →
      List.Forall₂ (fun w f => (gaussSpec st f).1 = if w = "volume" then "vol" else w) ws fs) := by
  refine ⟨fun fs h => (parseRequests_some _ _ _ h).imp ?_, fun fs h => (parseRequests_some _ _ _ h).imp ?_,
    fun fs h => (parseRequests_some _ _ _ h).imp ?_⟩
  · intro w f h
    unfold matOutputsMap at h
    simp only [List.lookup_cons, List.lookup_nil] at h
    repeat' split at h
    all_goals first
      | (injection h with h; subst h; rename_i hw; simp only [beq_iff_eq] at hw; subst hw; rfl)
      | simp at h
  · intro w f h
    unfold elemOutputsMap at h
    simp only [List.lookup_cons, List.lookup_nil] at h
    repeat' split at h
    all_goals first
      | (injection h with h; subst h; rename_i hw; simp only [beq_iff_eq] at hw; subst hw; rfl)
      | simp at h
  · intro w f h
    unfold gaussOutputsMap at h
    simp only [List.lookup_cons, List.lookup_nil] at h
    repeat' split at h
    all_goals first
      | (injection h with h; subst h; rename_i hw; simp only [beq_iff_eq] at hw; subst hw; simp [gaussSpec])
      | simp at h

/-- **C101.** The request of element fields in the input deck: it is refused exactly if a name is none of
the six known ones; otherwise the fields are those named, in that order, followed by the mass if the
specific internal energy was asked for without it. -/
theorem C101_requests (ws : List String) :
    (parseElemRequests ws = none ↔ ∃ w ∈ ws, w ∉ ["den", "pres", "stress", "sie", "sspd", "mass"]) ∧
    ∀ req, parseElemRequests ws = some req →
      req.map elemName = (ws ++ if "sie" ∈ ws ∧ "mass" ∉ ws then ["mass"] else []).map some := by
  constructor
  · unfold parseElemRequests
    rw [Option.map_eq_none_iff, parseRequests_none]
    refine exists_congr fun w => and_congr_right fun _ => ?_
    unfold elemOutputsMap
    simp only [List.lookup_cons, List.lookup_nil, List.mem_cons, List.not_mem_nil, or_false]
    repeat' split
    all_goals first
      | (rename_i hw; simp only [beq_iff_eq] at hw; subst hw; simp)
      | (simp_all)
  · intro req h
    unfold parseElemRequests at h
    rw [Option.map_eq_some_iff] at h
    obtain ⟨fs, hfs, rfl⟩ := h
    have hall := parseRequests_some _ _ _ hfs
    have hnames : fs.map elemName = ws.map some := by
      clear hfs
      induction hall with
      | nil => rfl
      | cons h _ ih => rw [List.map_cons, List.map_cons, ih, elemLookup _ _ h]
    have hmem : ∀ f w, elemName f = some w → (∀ g, elemName g = some w → g = f) → (f ∈ fs ↔ w ∈ ws) := by
      intro f w hf hu
      constructor
      · intro h
        have : elemName f ∈ fs.map elemName := List.mem_map.2 ⟨f, h, rfl⟩
        rw [hnames, hf] at this
        simpa using this
      · intro h
        have : some w ∈ ws.map some := List.mem_map.2 ⟨w, h, rfl⟩
        rw [← hnames] at this
        obtain ⟨g, hg, hgw⟩ := List.mem_map.1 this
        rw [← hu g hgw]
        exact hg
    have h1 := hmem .sie "sie" rfl (by intro g; cases g <;> simp [elemName])
    have h2 := hmem .mass "mass" rfl (by intro g; cases g <;> simp [elemName])
    by_cases hc : "sie" ∈ ws ∧ "mass" ∉ ws
    · rw [if_pos hc, if_pos ⟨h1.2 hc.1, fun h => hc.2 (h2.1 h)⟩, List.map_append, List.map_append, hnames]
      rfl
    · rw [if_neg hc, if_neg fun h => hc ⟨h1.1 h.1, fun h' => h.2 (h2.2 h')⟩, hnames, List.append_nil]

/-- **C101.** A request without repetitions that is accepted fulfils what the writer relies on. -/
theorem C101_requests_ready (ws : List String) (hws : ws.Nodup) (req : List MatField)
    (h : parseElemRequests ws = some req) : req.Nodup ∧ (.sie ∈ req → .mass ∈ req) := by
  have hn := (C101_requests ws).2 req h
  constructor
  · have : (req.map elemName).Nodup := by
      rw [hn]
      refine List.Nodup.map (Option.some_injective _) ?_
      split_ifs with hc
      · rw [List.nodup_append]
        refine ⟨hws, by simp, ?_⟩
        intro a ha b hb hab
        rw [List.mem_singleton] at hb
        subst hb; subst hab
        exact hc.2 ha
      · simpa using hws
    exact List.Nodup.of_map _ this
  · intro hs
    have h1 : some "sie" ∈ req.map elemName := List.mem_map.2 ⟨_, hs, rfl⟩
    rw [hn] at h1
    have h1 : "sie" ∈ ws ++ if "sie" ∈ ws ∧ "mass" ∉ ws then ["mass"] else [] := by simpa using h1
    have hsw : "sie" ∈ ws := by
      rcases List.mem_append.1 h1 with h | h
      · exact h
      · split_ifs at h <;> simp at h
    have h2 : some "mass" ∈ req.map elemName := by
      rw [hn]
      refine List.mem_map.2 ⟨"mass", ?_, rfl⟩
      by_cases hmw : "mass" ∈ ws
      · exact List.mem_append_left _ hmw
      · rw [if_pos ⟨hsw, hmw⟩]; simp
    obtain ⟨f, hf, hfm⟩ := List.mem_map.1 h2
    have : f = .mass := by revert hfm; cases f <;> simp [elemName]
    rw [← this]
    exact hf

/-- **C101 (what fails).** A name that is given twice: the array is written twice under the same name, once
with zeros and once with twice the values. -/
theorem C101_repeated_name_fails (st : OutState K) (prt : K → K) (hm : st.numMats = 1)
    (hinj : ∀ s < st.numMatElems 0, ∀ s' < st.numMatElems 0, st.elem 0 s = st.elem 0 s' → s = s')
    (fs : List (VtuField K)) :
    parseElemRequests ["den", "den"] = some [.density, .density] ∧
    (ElemOutput st prt [.density, .density] [] fs → fs = cellData prt st.numElems
      [("den", .scalar fun _ => 0), ("den", .scalar fun e => 2 * inElem st (weighted st st.den) e)]) := by
  refine ⟨rfl, ?_⟩
  rintro ⟨v, v', hv, hr, rfl⟩
  have hrow : (outSlots (List.flatMap elemCols [.density, .density] ++
      List.flatMap gaussCols [])).row = Function.update (Function.update (fun _ => -1) .den 0) .den 1 := rfl
  have hsc : (outSlots (List.flatMap elemCols [.density, .density] ++
      List.flatMap gaussCols [])).scalars = ["den", "den"] := rfl
  have hot : (outSlots (List.flatMap elemCols [.density, .density] ++
      List.flatMap gaussCols [])).others = [] := rfl
  rw [hsc, hot]
  rw [hrow] at hr
  obtain ⟨row, hrw⟩ : ∃ row, row = Function.update (Function.update (fun _ => (-1 : ℤ)) OutCol.den 0) .den 1 :=
    ⟨_, rfl⟩
  rw [← hrw] at hr
  have hd : row .den = 1 := by rw [hrw]; simp
  have hs : row .sie = -1 := by rw [hrw]; simp
  have hl : allElemLoops st row [.density, .density] [] =
      [addLoop (st.numMatElems 0) fun s => colOps row .den (st.elem 0 s) (colAmount st .den 0 s)] ++
      [addLoop (st.numMatElems 0) fun s => colOps row .den (st.elem 0 s) (colAmount st .den 0 s)] := by
    unfold allElemLoops elemLoops
    rw [hs, hm]
    rfl
  rw [hl] at hr
  have h1 : ∀ e, v' (Sum.inl (.scal 1 e)) = 2 * inElem st (weighted st st.den) e := by
    intro e
    have hhit := addCol_hit row .den (st.numMatElems 0) (st.elem 0) hinj (colAmount st .den 0) e 0 0
      (by simp [OkIdx, OutCol.isScalar])
    have := (hhit.append hhit) v v' hr
    rw [show colCell row .den e 0 0 = .scal 1 e by rw [← hd]; rfl, hv] at this
    rw [this]
    simp only [Function.comp, zero_add]
    rw [← two_mul]
    congr 1
    unfold inElem
    rw [hm, Finset.sum_range_one]
    rfl
  have h0 : ∀ e, v' (Sum.inl (.scal 0 e)) = 0 := by
    intro e
    have hmiss : EffL [addLoop (st.numMatElems 0) fun s =>
        colOps row .den (st.elem 0 s) (colAmount st .den 0 s)] (.scal 0 e) id := by
      apply addLoop_miss
      intro s _ o ho
      obtain ⟨_, _, _, rfl⟩ := (mem_colOps _ _ _ _ _).1 ho
      simp [colCell, OutCol.isScalar, hd]
    rw [(hmiss.append hmiss) v v' hr, hv]
    rfl
  simp [writtenScalars, writtenTensors, cellData, asField, FieldValue.isScalar, h0, h1]

/-- **C101.** The cell data of the file of one material: the values of its points, in the order of the
requests. (The input deck has no names for conductivity and specific heat of a material.) -/
theorem C101_material_fields (st : OutState K) (prt : K → K) (m : ℕ) (ws : List String) (hws : ws.Nodup)
    (req : List MatField) (hreq : parseRequests matOutputsMap ws = some req) (fs : List (VtuField K)) :
    MatOutput st prt m req fs ↔
      fs = cellData prt (st.numMatElems m) (req.flatMap (matSpec st m)) := by
  have hall := parseRequests_some _ _ _ hreq
  have hlk : ∀ w f, matOutputsMap.lookup w = some f →
      (f ≠ .conductivity ∧ f ≠ .specificHeat) ∧ (w, f) ∈ matOutputsMap := by
    intro w f h
    unfold matOutputsMap at h
    simp only [List.lookup_cons, List.lookup_nil] at h
    repeat' split at h
    all_goals first
      | (injection h with h; subst h; rename_i hw; simp only [beq_iff_eq] at hw; subst hw; decide)
      | simp at h
  have hne : ∀ f ∈ req, f ≠ .conductivity ∧ f ≠ .specificHeat := by
    intro f hf
    clear hreq hws
    induction hall with
    | nil => simp at hf
    | cons h _ ih =>
      rcases List.mem_cons.1 hf with rfl | hf
      · exact (hlk _ _ h).1
      · exact ih hf
  have hndr : req.Nodup := by
    clear hreq hne
    induction hall with
    | nil => simp
    | @cons w f ws' fs' h hrest ih =>
      rw [List.nodup_cons] at hws ⊢
      refine ⟨fun hf => hws.1 ?_, ih hws.2⟩
      clear ih hws
      induction hrest with
      | nil => simp at hf
      | @cons w' f' ws'' fs'' h' _ ih' =>
        rcases List.mem_cons.1 hf with hff | hf
        · subst hff
          have h1 := (hlk _ _ h).2
          have h2 := (hlk _ _ h').2
          have : w = w' := by
            unfold matOutputsMap at h1 h2
            revert h1 h2
            cases f <;> simp <;> rintro rfl rfl <;> rfl
          rw [this]; simp
        · exact List.mem_cons_of_mem _ (ih' hf)
  have hnd := nodup_mat req hndr
  obtain ⟨cols, hcols⟩ : ∃ cols, cols = req.flatMap matCols := ⟨_, rfl⟩
  have key : ∀ v v' : OutCell ⊕ ℕ → K,
      RunLoops (req.flatMap (matFieldLoops st (outSlots (req.flatMap matCols)).row m)) v v' →
      writtenScalars prt (st.numMatElems m) (outSlots (req.flatMap matCols)).scalars v' ++
        writtenTensors prt (st.numMatElems m) (outSlots (req.flatMap matCols)).others v'
      = cellData prt (st.numMatElems m) (req.flatMap (matSpec st m)) := by
    intro v v' hr
    have hl : req.flatMap (matFieldLoops st (outSlots (req.flatMap matCols)).row m)
        = cols.flatMap fun c => [storeLoop (st.numMatElems m) fun s =>
          colOps (outSlots cols).row c.1 s (matAmount st m c.1 s)] := by
      rw [hcols, List.flatMap_assoc]
      apply List.flatMap_congr
      intro f hf
      exact matFieldLoops_eq st _ m f (hne f hf).1 (hne f hf).2
    rw [hl] at hr
    rw [← hcols] at hnd ⊢
    rw [written_cols prt (st.numMatElems m) cols hnd v' (matAmount st m)]
    · congr 1
      rw [hcols, List.map_flatMap]
      apply List.flatMap_congr
      intro f hf
      have := hne f hf
      revert this
      cases f <;> simp [matCols, matSpec, OutCol.isScalar, matAmount]
      rfl
    · intro c hc e he i j hk
      exact EffL.one_of_flatMap cols (List.Nodup.of_map _ hnd) _ _ c hc _
        (storeCol_hit _ c.1 _ (matAmount st m c.1) e i j he hk)
        (fun b hb hbc => storeCol_miss _ c.1 b.1 (outSlots_apart cols hnd c b hc hb
          fun h => hbc (List.inj_on_of_nodup_map hnd hb hc h.symm)) _ _ e i j hk) v v' hr
  constructor
  · rintro ⟨v, v', hr, rfl⟩
    exact key v v' hr
  · rintro rfl
    obtain ⟨v', hr⟩ := runLoops_exists
      (req.flatMap (matFieldLoops st (outSlots (req.flatMap matCols)).row m)) (fun _ => (0 : K))
    exact ⟨_, v', hr, (key _ v' hr).symm⟩

/-! ### Nodal fields -/

/-- A nodal field: a number or three components for each node. -/
inductive NodeValue (K : Type) where
  | scalar (f : ℕ → K)
  | vector (f : ℕ → Fin 3 → K)

/-- Whether a nodal field is a scalar. -/
def NodeValue.isScalar : NodeValue K → Bool
  | .scalar _ => true
  | .vector _ => false

/-- Components of a vector in the file: the third one of a 2D vector is zero. -/
def inSpace (dims : ℕ) (x : ℕ → K) : Fin 3 → K := ![x 0, x 1, if dims = 2 then 0 else x 2]

/-- Names and values of the nodal fields. -/
def nodeSpec (st : OutState K) (dt : K) : NodeField → List (String × NodeValue K)
  | .mass => [("node_mass", .scalar st.nodeMass)]
  | .temp => [("node_temp", .scalar st.temp)]
  | .coords => [("node_coords", .vector fun g => inSpace st.dims (st.coords g))]
  | .velocity => [("node_vel", .vector fun g => inSpace st.dims (st.vel g)),
      ("node_accel", .vector fun g => inSpace st.dims fun d => (st.vel g d - st.velN0 g d) / dt)]
  | .gradLevelSet => [("node_grad_lvlset", .vector fun g => inSpace st.dims (st.gradLevelSet g))]
  | .force | .heatTransfer => []

/-- A nodal field in the file: the values of a node on a line. -/
def asNodeField (prt : K → K) (n : ℕ) (f : String × NodeValue K) : VtuField K :=
  ⟨f.1, match f.2 with
    | .scalar x => (List.range n).map fun g => [.real (prt (x g))]
    | .vector x => (List.range n).map fun g =>
        [.real (prt (x g 0)), .real (prt (x g 1)), .real (prt (x g 2))]⟩

/-- The point data: first all vectors, then all scalars, both in the order of the requests. -/
def pointData (prt : K → K) (n : ℕ) (fs : List (String × NodeValue K)) : List (VtuField K) :=
  (fs.filter fun f => !f.2.isScalar).map (asNodeField prt n) ++
    (fs.filter fun f => f.2.isScalar).map (asNodeField prt n)

/-- What is stored in a column of nodal values. -/
def nodeAmount (st : OutState K) (dt : K) (c : OutCol) (g d : ℕ) : K :=
  match c with
  | .nodeMass => st.nodeMass g
  | .nodeTemp => st.temp g
  | .nodeCoords => if st.dims = 2 ∧ d = 2 then 0 else st.coords g d
  | .nodeVel => if st.dims = 2 ∧ d = 2 then 0 else st.vel g d
  | .nodeAccel => if st.dims = 2 ∧ d = 2 then 0 else (st.vel g d - st.velN0 g d) / dt
  | .nodeGrad => if st.dims = 2 ∧ d = 2 then 0 else st.gradLevelSet g d
  | _ => 0

/-- The indices of the entries of a nodal column. -/
def NodeIdx (c : OutCol) (d : ℕ) : Prop := if c.isScalar then d = 0 else d < 3

/-- An entry of a nodal column. -/
def nodeCell (row : OutCol → ℤ) (c : OutCol) (g d : ℕ) : OutCell :=
  if c.isScalar then .scal (row c) g else .vec (row c) g d

/-- Entries and values of one nodal column. -/
def nodeOps (row : OutCol → ℤ) (c : OutCol) (g : ℕ) (x : ℕ → K) : List (OutCell × K) :=
  if c.isScalar then [(.scal (row c) g, x 0)]
  else [(.vec (row c) g 0, x 0), (.vec (row c) g 1, x 1), (.vec (row c) g 2, x 2)]

theorem mem_nodeOps (row : OutCol → ℤ) (c : OutCol) (g : ℕ) (x : ℕ → K) (o : OutCell × K) :
    o ∈ nodeOps row c g x ↔ ∃ d, NodeIdx c d ∧ o = (nodeCell row c g d, x d) := by
  unfold nodeOps NodeIdx nodeCell
  by_cases h : c.isScalar
  · simp [h]
  · simp only [h]
    constructor
    · intro ho
      simp only [Bool.false_eq_true, if_false, List.mem_cons, List.not_mem_nil, or_false] at ho
      rcases ho with rfl | rfl | rfl
      · exact ⟨0, by simp, rfl⟩
      · exact ⟨1, by simp, rfl⟩
      · exact ⟨2, by simp, rfl⟩
    · rintro ⟨d, hd, rfl⟩
      simp only [Bool.false_eq_true, if_false] at hd ⊢
      match d, hd with
      | 0, _ => simp
      | 1, _ => simp
      | 2, _ => simp

theorem nodeCell_eq {row : OutCol → ℤ} {c c' : OutCol} {g g' d d' : ℕ} (hk : NodeIdx c d)
    (hk' : NodeIdx c' d') (h : nodeCell row c g d = nodeCell row c' g' d') :
    c.isScalar = c'.isScalar ∧ row c = row c' ∧ g = g' ∧ d = d' := by
  unfold nodeCell at h
  unfold NodeIdx at hk hk'
  by_cases h1 : c.isScalar <;> by_cases h2 : c'.isScalar <;> simp only [h1, h2] at h hk hk' ⊢
  · simp only [if_true, OutCell.scal.injEq] at h
    simp only [if_true] at hk hk'
    exact ⟨trivial, h.1, h.2, by rw [hk, hk']⟩
  · simp at h
  · simp at h
  · simp only [Bool.false_eq_true, if_false, OutCell.vec.injEq] at h
    exact ⟨trivial, h.1, h.2.1, h.2.2⟩

theorem nodeFieldLoops_eq (st : OutState K) (dt : K) (row : OutCol → ℤ) (f : NodeField)
    (hf : f = .coords → st.dims = 2) (hf' : nodeCols f ≠ []) :
    nodeFieldLoops st dt row f = [storeLoop st.numNodes fun g =>
      (nodeCols f).flatMap fun c => nodeOps row c.1 g (nodeAmount st dt c.1 g)] := by
  cases f with
  | coords =>
    have := hf rfl
    simp [nodeFieldLoops, nodeCols, nodeOps, nodeAmount, OutCol.isScalar, this]
  | velocity => simp [nodeFieldLoops, nodeCols, nodeOps, nodeAmount, OutCol.isScalar, vectorOps]
  | gradLevelSet => simp [nodeFieldLoops, nodeCols, nodeOps, nodeAmount, OutCol.isScalar, vectorOps]
  | mass => rfl
  | temp => rfl
  | force => exact absurd rfl hf'
  | heatTransfer => exact absurd rfl hf'

theorem nodeCols_disj (f g : NodeField) (h : f ≠ g) : ∀ c ∈ nodeCols f, c ∉ nodeCols g := by
  revert h
  cases f <;> cases g <;> decide

theorem nodup_node (req : List NodeField) (h : req.Nodup) :
    ((req.flatMap nodeCols).map Prod.fst).Nodup := by
  refine nodup_cols _ _ h (fun f => by cases f <;> decide) fun f g hfg c hc => ?_
  revert c
  revert hfg
  cases f <;> cases g <;> decide

/-- **C102.** The point data, for every schedule of the parallel loops and whatever the new arrays contain:
each requested field of the nodes, in the order of the requests and under its name - provided that the
coordinates are not asked for in 3D. The acceleration is the change of the velocity over the last step. -/
theorem C102_node_fields (st : OutState K) (prt : K → K) (dt : K) (req : List NodeField) (hreq : req.Nodup)
    (hco : .coords ∈ req → st.dims = 2) (v : OutCell ⊕ ℕ → K) (fs : List (VtuField K)) :
    NodeOutput st prt dt req v fs ↔ fs = pointData prt st.numNodes (req.flatMap (nodeSpec st dt)) := by
  have hnd := nodup_node req hreq
  have key : ∀ v' : OutCell ⊕ ℕ → K,
      RunLoops (req.flatMap (nodeFieldLoops st dt (outSlots (req.flatMap nodeCols)).row)) v v' →
      writtenVectors prt st.numNodes (outSlots (req.flatMap nodeCols)).others v' ++
        writtenScalars prt st.numNodes (outSlots (req.flatMap nodeCols)).scalars v'
      = pointData prt st.numNodes (req.flatMap (nodeSpec st dt)) := by
    intro v' hr
    have hval : ∀ c ∈ req.flatMap nodeCols, ∀ g < st.numNodes, ∀ d, NodeIdx c.1 d →
        v' (Sum.inl (nodeCell (outSlots (req.flatMap nodeCols)).row c.1 g d)) = nodeAmount st dt c.1 g d := by
      intro c hc g hg d hk
      obtain ⟨f, hf, hcf⟩ := List.mem_flatMap.1 hc
      have hap : ∀ b ∈ req.flatMap nodeCols, b ≠ c →
          Apart (outSlots (req.flatMap nodeCols)).row c.1 b.1 := fun b hb hbc =>
        outSlots_apart _ hnd c b hc hb fun h => hbc (List.inj_on_of_nodup_map hnd hb hc h.symm)
      refine EffL.one_of_flatMap req hreq _ _ f hf (fun _ => nodeAmount st dt c.1 g d) ?_ ?_ v v' hr
      · rw [nodeFieldLoops_eq st dt _ f (fun h => hco (h ▸ hf)) (List.ne_nil_of_mem hcf)]
        apply storeLoop_hit
        · exact ⟨g, hg, List.mem_flatMap.2 ⟨c, hcf, (mem_nodeOps _ _ _ _ _).2 ⟨d, hk, rfl⟩⟩⟩
        · intro i _ o ho heq
          obtain ⟨b, hb, ho⟩ := List.mem_flatMap.1 ho
          obtain ⟨d', hk', rfl⟩ := (mem_nodeOps _ _ _ _ _).1 ho
          obtain ⟨h1, h2, rfl, rfl⟩ := nodeCell_eq hk' hk heq
          by_cases hbc : b = c
          · subst hbc; rfl
          · exact absurd h2.symm (hap b (List.mem_flatMap.2 ⟨f, hf, hb⟩) hbc h1.symm)
      · intro f' hf' hne
        by_cases hnil : nodeCols f' = []
        · have : nodeFieldLoops st dt (outSlots (req.flatMap nodeCols)).row f' = [] := by
            revert hnil
            cases f' <;> simp [nodeCols, nodeFieldLoops]
          rw [this]
          exact EffL.nil _
        · rw [nodeFieldLoops_eq st dt _ f' (fun h => hco (h ▸ hf')) hnil]
          apply storeLoop_miss
          intro i _ o ho heq
          obtain ⟨b, hb, ho⟩ := List.mem_flatMap.1 ho
          obtain ⟨d', hk', rfl⟩ := (mem_nodeOps _ _ _ _ _).1 ho
          obtain ⟨h1, h2, _⟩ := nodeCell_eq hk' hk heq
          refine hap b (List.mem_flatMap.2 ⟨f', hf', hb⟩) ?_ h1.symm h2.symm
          rintro rfl
          exact nodeCols_disj f f' (Ne.symm hne) _ hcf hb
    unfold writtenScalars writtenVectors pointData
    rw [(lastKinds _).1, (lastKinds _).2]
    rw [zip_rows _ hnd true (fun nm r => (⟨nm, (List.range st.numNodes).map fun e =>
      [.real (prt (v' (Sum.inl (.scal r e))))]⟩ : VtuField K))]
    rw [zip_rows _ hnd false (fun nm r => (⟨nm, (List.range st.numNodes).map fun g =>
      [.real (prt (v' (Sum.inl (.vec r g 0)))), .real (prt (v' (Sum.inl (.vec r g 1)))),
       .real (prt (v' (Sum.inl (.vec r g 2))))]⟩ : VtuField K))]
    have hspec : req.flatMap (nodeSpec st dt) = (req.flatMap nodeCols).map fun c => (c.2,
        if c.1.isScalar then NodeValue.scalar fun g => nodeAmount st dt c.1 g 0
        else .vector fun g d => nodeAmount st dt c.1 g d) := by
      rw [List.map_flatMap]
      apply List.flatMap_congr
      intro f _
      have hin : ∀ (x : ℕ → ℕ → K), (fun g => inSpace st.dims (x g)) =
          fun g (d : Fin 3) => if st.dims = 2 ∧ (d : ℕ) = 2 then 0 else x g d := by
        intro x
        funext g d
        match d with
        | 0 => simp [inSpace]
        | 1 => simp [inSpace]
        | 2 => simp [inSpace]
      cases f with
      | mass => rfl
      | temp => rfl
      | force => rfl
      | heatTransfer => rfl
      | coords => simp only [nodeSpec, hin]; rfl
      | velocity =>
        simp only [nodeSpec, hin]
        rfl
      | gradLevelSet => simp only [nodeSpec, hin]; rfl
    rw [hspec, List.filter_map, List.filter_map, List.map_map, List.map_map]
    have hk1 : (req.flatMap nodeCols).filter ((fun f : String × NodeValue K => f.2.isScalar) ∘ fun c => (c.2,
        if c.1.isScalar then NodeValue.scalar fun g => nodeAmount st dt c.1 g 0
        else .vector fun g d => nodeAmount st dt c.1 g d)) = kindCols true (req.flatMap nodeCols) := by
      unfold kindCols
      apply List.filter_congr
      intro c _
      cases hc : c.1.isScalar <;> simp [Function.comp, hc, NodeValue.isScalar]
    have hk2 : (req.flatMap nodeCols).filter ((fun f : String × NodeValue K => !f.2.isScalar) ∘ fun c => (c.2,
        if c.1.isScalar then NodeValue.scalar fun g => nodeAmount st dt c.1 g 0
        else .vector fun g d => nodeAmount st dt c.1 g d)) = kindCols false (req.flatMap nodeCols) := by
      unfold kindCols
      apply List.filter_congr
      intro c _
      cases hc : c.1.isScalar <;> simp [Function.comp, hc, NodeValue.isScalar]
    rw [hk1, hk2]
    congr 1
    · apply List.map_congr_left
      intro c hc
      obtain ⟨hc, hs⟩ := List.mem_filter.1 hc
      have hs : c.1.isScalar = false := by simpa using hs
      simp only [Function.comp, asNodeField, hs, Bool.false_eq_true, if_false]
      congr 1
      apply List.map_congr_left
      intro g hg
      have hv : ∀ d < 3, v' (Sum.inl (.vec ((outSlots (req.flatMap nodeCols)).row c.1) g d))
          = nodeAmount st dt c.1 g d := by
        intro d hd
        have := hval c hc g (List.mem_range.1 hg) d (by simp [NodeIdx, hs, hd])
        rw [nodeCell, if_neg (by simp [hs])] at this
        exact this
      rw [hv 0 (by omega), hv 1 (by omega), hv 2 (by omega)]
      rfl
    · apply List.map_congr_left
      intro c hc
      obtain ⟨hc, hs⟩ := List.mem_filter.1 hc
      have hs : c.1.isScalar = true := by simpa using hs
      simp only [Function.comp, asNodeField, hs, if_true]
      congr 1
      apply List.map_congr_left
      intro g hg
      have := hval c hc g (List.mem_range.1 hg) 0 (by simp [NodeIdx, hs])
      rw [nodeCell, if_pos hs] at this
      rw [this]
  constructor
  · rintro ⟨v', hr, rfl⟩
    exact key v' hr
  · rintro rfl
    obtain ⟨v', hr⟩ := runLoops_exists
      (req.flatMap (nodeFieldLoops st dt (outSlots (req.flatMap nodeCols)).row)) v
    exact ⟨v', hr, (key v' hr).symm⟩

/-- Entries of the nodal arrays with `ns` rows of scalars and `nv` rows of vectors for `n` nodes. -/
def InNodeArrays (ns nv n : ℕ) : OutCell ⊕ ℕ → Prop
  | Sum.inl (.scal r g) => 0 ≤ r ∧ r < ns ∧ g < n
  | Sum.inl (.vec r g d) => 0 ≤ r ∧ r < nv ∧ g < n ∧ d < 3
  | Sum.inl (.tens _ _ _ _) => False
  | Sum.inr _ => True

/-- **C102.** No access outside the arrays of nodes: as many names are entered as rows were counted, and
every entry that a loop reads or writes exists. -/
theorem C102_in_bounds (st : OutState K) (dt : K) (req : List NodeField) (hreq : req.Nodup)
    (hco : .coords ∈ req → st.dims = 2) :
    let slots := outSlots (req.flatMap nodeCols)
    slots.scalars.length = (req.map fun f => (countNode f).1).sum ∧
    slots.others.length = (req.map fun f => (countNode f).2).sum ∧
    ∀ l ∈ req.flatMap (nodeFieldLoops st dt slots.row), ∀ i, ∀ a ∈ l.2 i,
      InNodeArrays slots.scalars.length slots.others.length st.numNodes a.dst ∧
      ∀ c, a.reads c → InNodeArrays slots.scalars.length slots.others.length st.numNodes c := by
  have hnd := nodup_node req hreq
  refine ⟨?_, ?_, ?_⟩
  · rw [(lastKinds _).1, List.length_map]
    exact length_kind _ _ _ _ fun f => by cases f <;> rfl
  · rw [(lastKinds _).2, List.length_map]
    exact length_kind _ _ _ _ fun f => by cases f <;> rfl
  · intro l hl i a ha
    obtain ⟨f, hf, hl⟩ := List.mem_flatMap.1 hl
    by_cases hnil : nodeCols f = []
    · exfalso
      revert hnil hl
      cases f <;> simp [nodeCols, nodeFieldLoops]
    rw [nodeFieldLoops_eq st dt _ f (fun h => hco (h ▸ hf)) hnil, List.mem_singleton] at hl
    subst hl
    refine storeLoop_cells _ _ _ ?_ i a ha
    intro g hg o ho
    obtain ⟨c, hc, ho⟩ := List.mem_flatMap.1 ho
    obtain ⟨d, hk, rfl⟩ := (mem_nodeOps _ _ _ _ _).1 ho
    have hb := outSlots_bounds _ hnd c (List.mem_flatMap.2 ⟨f, hf, hc⟩)
    rw [(lastKinds _).1, (lastKinds _).2, List.length_map, List.length_map]
    unfold nodeCell
    unfold NodeIdx at hk
    cases hs : c.1.isScalar with
    | true =>
      rw [hs] at hb
      exact ⟨hb.1, hb.2, hg⟩
    | false =>
      rw [hs] at hb hk
      exact ⟨hb.1, hb.2, hg, hk⟩

/-- **C102 (what fails).** Coordinates requested in 3D: the third coordinate of every node but the first
keeps what the new array contained (zero), the first one gets the third coordinate of any node, depending
on the schedule. -/
theorem C102_coords_fails (st : OutState K) (prt : K → K) (dt : K) (h3 : st.dims = 3) (hn : 0 < st.numNodes)
    (v : OutCell ⊕ ℕ → K) (fs : List (VtuField K)) :
    NodeOutput st prt dt [.coords] v fs ↔ ∃ g0 < st.numNodes, fs = [⟨"node_coords",
      (List.range st.numNodes).map fun g => [.real (prt (st.coords g 0)), .real (prt (st.coords g 1)),
        .real (prt (if g = 0 then st.coords g0 2 else v (Sum.inl (.vec 0 g 2))))]⟩] := by
  have hrow : (outSlots (nodeCols .coords)).row .nodeCoords = 0 := by
    simp [outSlots, nodeCols, OutSlots.enter, OutCol.isScalar]
  have hl : List.flatMap (nodeFieldLoops st dt (outSlots (List.flatMap nodeCols [.coords])).row) [.coords]
      = [storeLoop st.numNodes fun g => [(.vec 0 g 0, st.coords g 0), (.vec 0 g 1, st.coords g 1),
        (.vec 0 0 2, st.coords g 2)]] := by
    simp [nodeFieldLoops, h3, hrow]
  have hx0 : ∀ g < st.numNodes, EffL [storeLoop st.numNodes fun g =>
      [(.vec 0 g 0, st.coords g 0), (.vec 0 g 1, st.coords g 1), (.vec 0 0 2, st.coords g 2)]]
      (.vec 0 g 0) fun _ => st.coords g 0 := by
    intro g hg
    apply storeLoop_hit
    · exact ⟨g, hg, by simp⟩
    · intro i _ o ho heq
      simp only [List.mem_cons, List.not_mem_nil, or_false] at ho
      rcases ho with rfl | rfl | rfl <;> simp at heq
      rw [heq]
  have hx1 : ∀ g < st.numNodes, EffL [storeLoop st.numNodes fun g =>
      [(.vec 0 g 0, st.coords g 0), (.vec 0 g 1, st.coords g 1), (.vec 0 0 2, st.coords g 2)]]
      (.vec 0 g 1) fun _ => st.coords g 1 := by
    intro g hg
    apply storeLoop_hit
    · exact ⟨g, hg, by simp⟩
    · intro i _ o ho heq
      simp only [List.mem_cons, List.not_mem_nil, or_false] at ho
      rcases ho with rfl | rfl | rfl <;> simp at heq
      rw [heq]
  have hx2 : ∀ g, g ≠ 0 → EffL [storeLoop st.numNodes fun g =>
      [(.vec 0 g 0, st.coords g 0), (.vec 0 g 1, st.coords g 1), (.vec 0 0 2, st.coords g 2)]]
      (.vec 0 g 2) id := by
    intro g hg
    apply storeLoop_miss
    intro i _ o ho heq
    simp only [List.mem_cons, List.not_mem_nil, or_false] at ho
    rcases ho with rfl | rfl | rfl <;> simp at heq
    exact hg heq.symm
  have hfile : ∀ v' g0, RunLoops [storeLoop st.numNodes fun g =>
      [(.vec 0 g 0, st.coords g 0), (.vec 0 g 1, st.coords g 1), (.vec 0 0 2, st.coords g 2)]] v v' →
      v' (Sum.inl (.vec 0 0 2)) = st.coords g0 2 →
      writtenVectors prt st.numNodes (outSlots (List.flatMap nodeCols [.coords])).others v' ++
        writtenScalars prt st.numNodes (outSlots (List.flatMap nodeCols [.coords])).scalars v'
      = [⟨"node_coords",
      (List.range st.numNodes).map fun g => [.real (prt (st.coords g 0)), .real (prt (st.coords g 1)),
        .real (prt (if g = 0 then st.coords g0 2 else v (Sum.inl (.vec 0 g 2))))]⟩] := by
    intro v' g0 hr hz
    have ho : (outSlots (List.flatMap nodeCols [.coords])).others = ["node_coords"] := rfl
    have hs : (outSlots (List.flatMap nodeCols [.coords])).scalars = [] := rfl
    rw [ho, hs]
    simp only [writtenVectors, writtenScalars, List.zipIdx_cons, List.zipIdx_nil, List.map_cons, List.map_nil,
      List.append_nil]
    congr 2
    apply List.map_congr_left
    intro g hg
    have hg := List.mem_range.1 hg
    have e0 := hx0 g hg v v' hr
    have e1 := hx1 g hg v v' hr
    simp only [Nat.cast_zero]
    rw [e0, e1]
    by_cases h0 : g = 0
    · subst h0
      rw [if_pos rfl, hz]
    · rw [if_neg h0, hx2 g h0 v v' hr]
      rfl
  unfold NodeOutput
  simp only
  rw [hl]
  constructor
  · rintro ⟨v', hr, rfl⟩
    have hz : ∃ g0 < st.numNodes, v' (Sum.inl (.vec 0 0 2)) = st.coords g0 2 := by
      cases hr with
      | cons _ _ s _ _ hs hr =>
        cases hr
        rcases assign_sched (fun i : Fin st.numNodes => ([(.vec 0 i 0, st.coords i 0),
          (.vec 0 i 1, st.coords i 1), (.vec 0 0 2, st.coords i 2)] : List (OutCell × K)).map
            fun o : OutCell × K => ((Sum.inl o.1 : OutCell ⊕ ℕ), o.2)) s hs v (Sum.inl (.vec 0 0 2)) with
          ⟨i, y, hls, he⟩ | ⟨hno, _⟩
        · refine ⟨i, i.2, ?_⟩
          rw [he]
          have := lastStore_mem _ _ _ hls
          simpa using this
        · exact absurd (by simp) (lastStore_none _ _ (hno ⟨0, hn⟩) (st.coords 0 2))
    obtain ⟨g0, hg0, hz⟩ := hz
    exact ⟨g0, hg0, hfile v' g0 hr hz⟩
  · rintro ⟨g0, hg0, rfl⟩
    obtain ⟨s, hs, hval⟩ := assign_sched_attained (fun i : Fin st.numNodes => ([(.vec 0 i 0, st.coords i 0),
      (.vec 0 i 1, st.coords i 1), (.vec 0 0 2, st.coords i 2)] : List (OutCell × K)).map
        fun o : OutCell × K => ((Sum.inl o.1 : OutCell ⊕ ℕ), o.2)) ⟨g0, hg0⟩ v
    have hr := RunLoops.cons (storeLoop st.numNodes fun g =>
      [(OutCell.vec 0 g 0, st.coords g 0), (.vec 0 g 1, st.coords g 1), (.vec 0 0 2, st.coords g 2)]) [] s v _ hs
      (RunLoops.nil _)
    exact ⟨_, hr, (hfile _ g0 hr (hval (Sum.inl (.vec 0 0 2)) (st.coords g0 2) (by simp [lastStore]))).symm⟩

/-- **C102 (what fails).** Nodal forces can be requested, but nothing is written for them. -/
theorem C102_force_fails (st : OutState K) (prt : K → K) (dt : K) (v : OutCell ⊕ ℕ → K)
    (fs : List (VtuField K)) : parseRequests nodeOutputsMap ["force"] = some [.force] ∧
      (NodeOutput st prt dt [.force] v fs → fs = []) := by
  refine ⟨rfl, fun h => ?_⟩
  rw [(C102_node_fields st prt dt [.force] (by simp) (by simp) v fs).1 h]
  rfl

end

/-! ### Cases that meet the hypotheses -/

/-- Two elements; material 0 in both, material 1 in the second one. -/
def sampleOut : OutState ℚ where
  numMats := 2
  numElems := 2
  numNodes := 3
  dims := 2
  numMatElems := fun m => if m = 0 then 2 else 1
  elem := fun m s => if m = 0 then s else 1
  den := fun m s => 2 + m + s
  pres := fun _ _ => 5
  sie := fun _ _ => 7
  sspd := fun _ _ => 1
  mass := fun m s => 1 + m + s
  volfrac := fun _ _ => 1
  geoVolfrac := fun m s => if m = 0 ∧ s = 0 then 1 else 1 / 2
  conductivity := fun _ _ => 0
  specificHeat := fun _ _ => 0
  eroded := fun _ _ => false
  stress := fun _ _ i j => i - j
  vol := fun e => 1 + e
  div := fun _ => 0
  levelSet := fun _ => 0
  velGrad := fun _ _ _ => 0
  nodeMass := fun g => g
  temp := fun g => g
  coords := fun g d => g + d
  vel := fun g _ => g
  velN0 := fun _ _ => 0
  gradLevelSet := fun _ _ => 0

example : (0 < sampleOut.numMats) ∧
    (∀ m < sampleOut.numMats, ∀ s < sampleOut.numMatElems m, ∀ s' < sampleOut.numMatElems m,
      sampleOut.elem m s = sampleOut.elem m s' → s = s') ∧
    (∀ m < sampleOut.numMats, ∀ s < sampleOut.numMatElems m, sampleOut.elem m s < sampleOut.numElems) ∧
    inElem sampleOut (fun m s => sampleOut.volfrac m s * sampleOut.geoVolfrac m s) 1 = 1 ∧
    inElem sampleOut (weighted sampleOut sampleOut.pres) 1 = 5 ∧
    inElem sampleOut sampleOut.mass 1 = 4 := by
  decide +kernel

example : [NodeField.mass, .velocity, .coords].Nodup ∧ (NodeField.coords ∈ [NodeField.mass, .velocity, .coords] →
    sampleOut.dims = 2) ∧
    ((pointData id 3 ([NodeField.mass, .velocity, .coords].flatMap (nodeSpec sampleOut 2))).map VtuField.name
      = ["node_vel", "node_accel", "node_coords", "node_mass"]) ∧
    inSpace 2 (fun d => (sampleOut.vel 2 d - sampleOut.velN0 2 d) / 2) 0 = 1 := by
  decide +kernel

example : parseElemRequests ["stress", "sie", "den"] = some [.stress, .sie, .density, .mass] ∧
    parseElemRequests ["sie", "temperature"] = none ∧
    parseRequests matOutputsMap ["volfrac", "den"] = some [.volfrac, .density] := by
  decide +kernel

end Fierro
