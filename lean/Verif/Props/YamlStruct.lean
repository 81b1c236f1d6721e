import Verif.Model.YamlStruct
import Verif.Props.YamlNode

/-!
# Loading structures from YAML (C150)

A structure is a tuple: entry `i` has the name `key i` and the type `codec i`.
-/

namespace Fierro

/-! ## Specification -/

/-- What is written is loaded as the same value, into an object that holds `d`. -/
def Codec.Returns {α : Type} (c : Codec α) (raw : Bool) (d v : α) : Prop :=
  ∃ n, c.des raw d (c.ser v .none) = .ok (v, n)

/-- The input has something in it that the strict check refuses, whatever is loaded from it. -/
def Codec.Stray {α : Type} (c : Codec α) (n : YNode) : Prop :=
  ∀ v v' n', c.des true v n = .ok (v', n') →
    validateSubset (c.ser v' .none) n' ≠ .ok () ∧ validateSubset (c.ser v' .none) n ≠ .ok ()

/-- The fields of a structure. -/
def tupleFields {m : ℕ} {α : Fin m → Type} (key : Fin m → String) (codec : ∀ i, Codec (α i)) (l : List (Fin m)) :
    List (SField (∀ i, α i)) :=
  l.map fun i => SField.of (key i) (fun v => v i) (fun v x => Function.update v i x) (codec i)

/-- A structure without base class. -/
def tupleSpec {m : ℕ} {α : Fin m → Type} (key : Fin m → String) (codec : ∀ i, Codec (α i)) (required : List String)
    (derive validate : (∀ i, α i) → Cfg (∀ i, α i)) : SSpec (∀ i, α i) where
  fields := tupleFields key codec (List.finRange m)
  required := required
  derive := derive
  validate := validate

/-! ## Nodes -/

theorem child_modify (f : YNode → YNode) (t : YNode) (k k' : String) :
    (t.modify f [.name k]).child k' = if k' = k then f (t.child k) else t.child k' := by
  unfold YNode.child
  simp only [YNode.modify, YNode.ref, YNode.initMap, smFind_smAssign]
  split_ifs <;> rfl

theorem child_touch (t : YNode) (k k' : String) : (t.touch [.name k]).child k' = t.child k' := by
  unfold YNode.touch
  rw [child_modify]
  split_ifs with h
  · rw [h]; rfl
  · rfl

/-- The node is a map. -/
def YNode.IsMapping : YNode → Prop
  | .map _ => True
  | _ => False

theorem isMapping_of_child {t : YNode} {k : String} (h : (t.child k).noValue = false) : t.IsMapping := by
  cases t with
  | map m => trivial
  | none => simp [YNode.child, YNode.ref, YNode.initMap, smFind, YNode.noValue] at h
  | scalar s => simp [YNode.child, YNode.ref, YNode.initMap, smFind, YNode.noValue] at h
  | seq s => simp [YNode.child, YNode.ref, YNode.initMap, smFind, YNode.noValue] at h

theorem isMapping_modify (f : YNode → YNode) (t : YNode) (k : String) : (t.modify f [.name k]).IsMapping := by
  simp [YNode.modify, YNode.IsMapping]

theorem noValue_iff (n : YNode) : n.noValue = true ↔ n = .none := by
  cases n <;> simp [YNode.noValue]

/-! ## Fields -/

section Fields

variable {m : ℕ} {α : Fin m → Type} (key : Fin m → String) (hkey : Function.Injective key) (codec : ∀ i, Codec (α i))

include hkey

theorem child_serFields (v : ∀ i, α i) (l : List (Fin m)) (hl : l.Nodup) (n : YNode) :
    (∀ i ∈ l, (serFields (tupleFields key codec l) v n).child (key i) = (codec i).ser (v i) (n.child (key i))) ∧
    (∀ k, (∀ i ∈ l, k ≠ key i) → (serFields (tupleFields key codec l) v n).child k = n.child k) ∧
    (n.IsMapping ∨ l ≠ [] → (serFields (tupleFields key codec l) v n).IsMapping) := by
  induction l generalizing n with
  | nil =>
    refine ⟨by simp, fun k _ => rfl, ?_⟩
    rintro (h | h)
    · exact h
    · exact absurd rfl h
  | cons j l ih =>
    obtain ⟨hj, hl⟩ := List.nodup_cons.mp hl
    have hne : ∀ i ∈ l, key j ≠ key i := fun i hi hk => hj (by rw [hkey hk]; exact hi)
    have e : serFields (tupleFields key codec (j :: l)) v n =
        serFields (tupleFields key codec l) v (n.modify ((codec j).ser (v j)) [.name (key j)]) := rfl
    rw [e]
    obtain ⟨h1, h2, h3⟩ := ih hl (n.modify ((codec j).ser (v j)) [.name (key j)])
    refine ⟨?_, ?_, fun _ => h3 (Or.inl (isMapping_modify _ _ _))⟩
    · intro i hi
      rcases List.mem_cons.mp hi with rfl | hi
      · rw [h2 _ hne, child_modify, if_pos rfl]
      · rw [h1 i hi, child_modify, if_neg (hne i hi).symm]
    · intro k hk
      rw [h2 k fun i hi => hk i (List.mem_cons_of_mem _ hi), child_modify, if_neg (hk j List.mem_cons_self)]

theorem desFields_ok (raw : Bool) (l : List (Fin m)) (hl : l.Nodup) (w w' : ∀ i, α i) (n n' : YNode)
    (h : desFields raw (tupleFields key codec l) w n = .ok (w', n')) :
    (∀ i ∉ l, w' i = w i) ∧ (∀ k, (∀ i ∈ l, k ≠ key i) → n'.child k = n.child k) ∧
    (∀ i ∈ l, if (n.child (key i)).noValue then w' i = w i ∧ n'.child (key i) = n.child (key i)
      else (codec i).des raw (w i) (n.child (key i)) = .ok (w' i, n'.child (key i))) ∧
    (n.IsMapping ∨ l ≠ [] → n'.IsMapping) := by
  induction l generalizing w n with
  | nil =>
    simp only [tupleFields, List.map_nil, desFields, Except.ok.injEq, Prod.mk.injEq] at h
    obtain ⟨rfl, rfl⟩ := h
    refine ⟨fun _ _ => rfl, fun _ _ => rfl, by simp, ?_⟩
    rintro (h | h)
    · exact h
    · exact absurd rfl h
  | cons j l ih =>
    obtain ⟨hj, hl⟩ := List.nodup_cons.mp hl
    have hne : ∀ i ∈ l, key j ≠ key i := fun i hi hk => hj (by rw [hkey hk]; exact hi)
    rw [tupleFields, List.map_cons, desFields] at h
    split_ifs at h with hn
    · obtain ⟨h1, h2, h3, h4⟩ := ih hl _ _ h
      have hn' : (n.child (key j)).noValue = true := hn
      refine ⟨fun i hi => h1 i fun hi' => hi (List.mem_cons_of_mem _ hi'), ?_, ?_,
        fun _ => h4 (Or.inl (isMapping_modify _ _ _))⟩
      · intro k hk
        rw [h2 k fun i hi => hk i (List.mem_cons_of_mem _ hi), child_touch]
      · intro i hi
        rcases List.mem_cons.mp hi with rfl | hi
        · rw [if_pos hn']
          exact ⟨h1 i hj, by rw [h2 _ hne, child_touch]⟩
        · have := h3 i hi
          rw [child_touch] at this
          exact this
    · have hn' : ¬ (n.child (key j)).noValue = true := hn
      simp only [SField.of] at h
      cases hd : (codec j).des raw (w j) (n.child (key j)) with
      | error e => rw [hd] at h; simp at h
      | ok p =>
        obtain ⟨x, c'⟩ := p
        rw [hd] at h
        obtain ⟨h1, h2, h3, h4⟩ := ih hl _ _ h
        refine ⟨?_, ?_, ?_, fun _ => h4 (Or.inl (isMapping_modify _ _ _))⟩
        · intro i hi
          rw [h1 i fun hi' => hi (List.mem_cons_of_mem _ hi'),
            Function.update_of_ne (by rintro rfl; exact hi List.mem_cons_self)]
        · intro k hk
          rw [h2 k fun i hi => hk i (List.mem_cons_of_mem _ hi), child_modify, if_neg (hk j List.mem_cons_self)]
        · intro i hi
          rcases List.mem_cons.mp hi with rfl | hi
          · rw [if_neg hn', hd, h1 i hj, Function.update_self,
              h2 _ hne, child_modify, if_pos rfl]
          · have := h3 i hi
            rw [child_modify, if_neg (hne i hi).symm,
              Function.update_of_ne fun e => hj (by rw [← e]; exact hi)] at this
            exact this

theorem desFields_error (raw : Bool) (l : List (Fin m)) (hl : l.Nodup) (w : ∀ i, α i) (n : YNode) (e : CfgErr)
    (h : desFields raw (tupleFields key codec l) w n = .error e) :
    ∃ i ∈ l, (n.child (key i)).noValue = false ∧
      ∃ e', (codec i).des raw (w i) (n.child (key i)) = .error e' ∧ e = e'.under (key i) := by
  induction l generalizing w n with
  | nil => simp [tupleFields, desFields] at h
  | cons j l ih =>
    obtain ⟨hj, hl⟩ := List.nodup_cons.mp hl
    have hne : ∀ i ∈ l, key j ≠ key i := fun i hi hk => hj (by rw [hkey hk]; exact hi)
    rw [tupleFields, List.map_cons, desFields] at h
    split_ifs at h with hn
    · obtain ⟨i, hi, h1, e', h2, h3⟩ := ih hl _ _ h
      rw [child_touch] at h1 h2
      exact ⟨i, List.mem_cons_of_mem _ hi, h1, e', h2, h3⟩
    · have hn' : ¬ (n.child (key j)).noValue = true := hn
      simp only [SField.of] at h
      cases hd : (codec j).des raw (w j) (n.child (key j)) with
      | error e' =>
        rw [hd] at h
        simp only [Except.error.injEq] at h
        exact ⟨j, List.mem_cons_self, by simpa using hn', e', hd, h.symm⟩
      | ok p =>
        obtain ⟨x, c'⟩ := p
        rw [hd] at h
        obtain ⟨i, hi, h1, e', h2, h3⟩ := ih hl _ _ h
        rw [child_modify, if_neg (hne i hi).symm] at h1 h2
        rw [Function.update_of_ne fun e => hj (by rw [← e]; exact hi)] at h2
        exact ⟨i, List.mem_cons_of_mem _ hi, h1, e', h2, h3⟩

end Fields

theorem checkRequired_child (ks : List String) (n n' : YNode) (h : checkRequired ks n = .ok n') :
    (∀ k, n'.child k = n.child k) ∧ (∀ k ∈ ks, (n.child k).noValue = false) ∧ (n.IsMapping ∨ ks ≠ [] → n'.IsMapping) := by
  induction ks generalizing n with
  | nil =>
    simp only [checkRequired, Except.ok.injEq] at h
    subst h
    refine ⟨fun _ => rfl, by simp, ?_⟩
    rintro (h | h)
    · exact h
    · exact absurd rfl h
  | cons k ks ih =>
    rw [checkRequired] at h
    split_ifs at h with hn
    obtain ⟨h1, h2, h3⟩ := ih _ h
    refine ⟨fun k' => by rw [h1, child_touch], ?_, fun _ => h3 (Or.inl (isMapping_modify _ _ _))⟩
    intro k' hk'
    rcases List.mem_cons.mp hk' with rfl | hk'
    · simpa using hn
    · have := h2 k' hk'
      rwa [child_touch] at this

theorem checkRequired_iff (ks : List String) (n : YNode) :
    (∃ n', checkRequired ks n = .ok n') ↔ ∀ k ∈ ks, (n.child k).noValue = false := by
  refine ⟨fun ⟨n', h⟩ => (checkRequired_child ks n n' h).2.1, fun h => ?_⟩
  induction ks generalizing n with
  | nil => exact ⟨n, rfl⟩
  | cons k ks ih =>
    rw [checkRequired, if_neg (by simp [h k List.mem_cons_self])]
    exact ih _ fun k' hk' => by rw [child_touch]; exact h k' (List.mem_cons_of_mem _ hk')

section Struct

variable {m : ℕ} {α : Fin m → Type} (key : Fin m → String) (hkey : Function.Injective key) (codec : ∀ i, Codec (α i))
  (required : List String) (derive validate : (∀ i, α i) → Cfg (∀ i, α i))

include hkey

/-- **C150.** Loading a structure, without its own post-processing: all required fields are given; every field named in
the input is loaded from the entry with its name, starting from the value it had; all others keep their values. -/
theorem C150_fields_loaded (w w' : ∀ i, α i) (n n' : YNode)
    (h : (structCodec (tupleSpec key codec required derive validate)).des true w n = .ok (w', n')) :
    (∀ k ∈ required, n.child k ≠ .none) ∧
    ∀ i, (n.child (key i) = .none → w' i = w i) ∧
      (n.child (key i) ≠ .none → (codec i).des true (w i) (n.child (key i)) = .ok (w' i, n'.child (key i))) := by
  simp only [structCodec, tupleSpec] at h
  cases hr : checkRequired required n with
  | error e => rw [hr] at h; simp at h
  | ok n1 =>
    rw [hr] at h
    obtain ⟨c1, c2, _⟩ := checkRequired_child _ _ _ hr
    simp only at h
    cases hf : desFields true (tupleFields key codec (List.finRange m)) w n1 with
    | error e => rw [hf] at h; simp at h
    | ok p =>
      obtain ⟨v, n2⟩ := p
      rw [hf] at h
      simp only [↓reduceIte, Except.ok.injEq, Prod.mk.injEq] at h
      obtain ⟨rfl, rfl⟩ := h
      obtain ⟨_, _, h3, _⟩ := desFields_ok key hkey codec true _ (List.nodup_finRange m) _ _ _ _ hf
      refine ⟨fun k hk e => by simpa [e, YNode.noValue] using c2 k hk, fun i => ?_⟩
      have := h3 i (List.mem_finRange i)
      rw [c1] at this
      refine ⟨fun e => ?_, fun e => ?_⟩
      · rw [if_pos ((noValue_iff _).mpr e)] at this
        exact this.1
      · rwa [if_neg fun h => e ((noValue_iff _).mp h)] at this

/-- **C150.** Loading fails for exactly these reasons: a required field is missing, and then that is said; or loading a
field that is given fails, and then the error is that one, put under the name of the field. -/
theorem C150_failures (w : ∀ i, α i) (n : YNode) (e : CfgErr)
    (h : (structCodec (tupleSpec key codec required derive validate)).des true w n = .error e) :
    (∃ k ∈ required, n.child k = .none ∧ e = ⟨"", .missing k⟩) ∨
    (∃ i, n.child (key i) ≠ .none ∧ ∃ e', (codec i).des true (w i) (n.child (key i)) = .error e' ∧
      e = e'.under (key i)) := by
  simp only [structCodec, tupleSpec] at h
  cases hr : checkRequired required n with
  | error e' =>
    rw [hr] at h
    simp only [Except.error.injEq] at h
    subst h
    left
    clear hkey
    induction required generalizing n with
    | nil => simp [checkRequired] at hr
    | cons k ks ih =>
      rw [checkRequired] at hr
      split_ifs at hr with hn
      · simp only [Except.error.injEq] at hr
        exact ⟨k, List.mem_cons_self, (noValue_iff _).mp hn, hr.symm⟩
      · obtain ⟨k', h1, h2, h3⟩ := ih _ hr
        rw [child_touch] at h2
        exact ⟨k', List.mem_cons_of_mem _ h1, h2, h3⟩
  | ok n1 =>
    rw [hr] at h
    obtain ⟨c1, c2, _⟩ := checkRequired_child _ _ _ hr
    simp only at h
    cases hf : desFields true (tupleFields key codec (List.finRange m)) w n1 with
    | ok p => rw [hf] at h; simp at h
    | error e' =>
      rw [hf] at h
      simp only [Except.error.injEq] at h
      subst h
      obtain ⟨i, _, h1, e2, h2, h3⟩ := desFields_error key hkey codec true _ (List.nodup_finRange m) _ _ _ hf
      rw [c1] at h1 h2
      exact Or.inr ⟨i, fun e => by simp [e, YNode.noValue] at h1, e2, h2, h3⟩

omit hkey in
/-- The structure as written. -/
theorem ser_struct (v : ∀ i, α i) :
    (structCodec (tupleSpec key codec required derive validate)).ser v .none =
      serFields (tupleFields key codec (List.finRange m)) v .none := rfl

/-- Loading a structure from a node with what was written for its fields. -/
theorem struct_loads (raw : Bool) (d v : ∀ i, α i) (n : YNode)
    (hch : ∀ i, n.child (key i) = (codec i).ser (v i) .none)
    (hreq : ∀ k ∈ required, ∃ i, key i = k ∧ (codec i).ser (v i) .none ≠ .none)
    (hret : ∀ i, (codec i).Returns raw (d i) (v i))
    (hnone : ∀ i, (codec i).ser (v i) .none = .none → v i = d i)
    (hpost : raw = true ∨ (derive v = .ok v ∧ validate v = .ok v)) :
    ∃ n', (structCodec (tupleSpec key codec required derive validate)).des raw d n = .ok (v, n') ∧
      ∀ k, (∀ i, k ≠ key i) → n'.child k = n.child k := by
  obtain ⟨n1, hr⟩ := (checkRequired_iff required n).mpr fun k hk => by
    obtain ⟨i, rfl, hi⟩ := hreq k hk
    rw [hch]
    cases h : (codec i).ser (v i) .none <;> simp_all [YNode.noValue]
  obtain ⟨c1, _, _⟩ := checkRequired_child _ _ _ hr
  simp only [structCodec, tupleSpec, hr]
  cases hf : desFields raw (tupleFields key codec (List.finRange m)) d n1 with
  | error e =>
    obtain ⟨i, _, _, e', h2, _⟩ := desFields_error key hkey codec raw _ (List.nodup_finRange m) _ _ _ hf
    rw [c1, hch] at h2
    obtain ⟨x, hx⟩ := hret i
    rw [hx] at h2
    simp at h2
  | ok p =>
    obtain ⟨w, n2⟩ := p
    obtain ⟨_, h2, h3, _⟩ := desFields_ok key hkey codec raw _ (List.nodup_finRange m) _ _ _ _ hf
    have hw : w = v := by
      funext i
      have := h3 i (List.mem_finRange i)
      rw [c1, hch] at this
      split_ifs at this with hn
      · rw [this.1, hnone i ((noValue_iff _).mp hn)]
      · obtain ⟨x, hx⟩ := hret i
        rw [hx] at this
        simp only [Except.ok.injEq, Prod.mk.injEq] at this
        exact this.1.symm
    subst hw
    have hk : ∀ k, (∀ i, k ≠ key i) → n2.child k = n.child k := fun k hk => by rw [h2 k fun i _ => hk i, c1]
    cases raw with
    | true => exact ⟨n2, by simp, hk⟩
    | false =>
      obtain h | ⟨h1, h2⟩ := hpost
      · simp at h
      · exact ⟨n2, by simp [h1, h2], hk⟩

/-- **C150.** A structure whose fields come back when loaded into the object `d` comes back itself; when its own
post-processing runs, it must leave the object as it is.  Fields that are written as an empty node must have the value
that `d` has. -/
theorem C150_struct_returns (raw : Bool) (d v : ∀ i, α i)
    (hreq : ∀ k ∈ required, ∃ i, key i = k ∧ (codec i).ser (v i) .none ≠ .none)
    (hret : ∀ i, (codec i).Returns raw (d i) (v i))
    (hnone : ∀ i, (codec i).ser (v i) .none = .none → v i = d i)
    (hpost : raw = true ∨ (derive v = .ok v ∧ validate v = .ok v)) :
    (structCodec (tupleSpec key codec required derive validate)).Returns raw d v := by
  unfold Codec.Returns
  rw [ser_struct]
  obtain ⟨s1, _, _⟩ := child_serFields key hkey codec v (List.finRange m) (List.nodup_finRange m) .none
  obtain ⟨n', h, _⟩ := struct_loads key hkey codec required derive validate raw d v _
    (fun i => s1 i (List.mem_finRange i)) hreq hret hnone hpost
  exact ⟨n', h⟩

end Struct

/-! ## The strict check -/

theorem subsetMap_iff (m' m : List (String × YNode)) :
    subsetMap m' m = .ok () ↔ ∀ x ∈ m, x.2 ≠ .none →
      (YNode.map m').child x.1 ≠ .none ∧ validateSubset ((YNode.map m').child x.1) x.2 = .ok () := by
  induction m with
  | nil => simp [subsetMap]
  | cons p m ih =>
    obtain ⟨k, x⟩ := p
    rw [subsetMap, List.forall_mem_cons, ← ih]
    by_cases hx : x = .none
    · subst hx
      simp [YNode.noValue]
    · rw [if_neg fun h => hx ((noValue_iff _).mp h)]
      by_cases hc : (YNode.map m').child k = .none
      · rw [if_pos ((noValue_iff _).mpr hc)]
        simp [hx, hc]
      · rw [if_neg fun h => hc ((noValue_iff _).mp h)]
        cases hv : validateSubset ((YNode.map m').child k) x with
        | error e => simp [hx]
        | ok u => simp [hx, hc]

theorem subsetSeq_iff (i : ℕ) (ys : List YNode) (s : List (ℕ × YNode)) :
    subsetSeq i ys s = .ok () ↔ s.length ≤ ys.length ∧
      ∀ (j : ℕ) (x : ℕ × YNode) (y : YNode), s[j]? = some x → ys[j]? = some y → validateSubset y x.2 = .ok () := by
  induction s generalizing i ys with
  | nil => simp [subsetSeq]
  | cons p s ih =>
    obtain ⟨q, x⟩ := p
    cases ys with
    | nil => simp [subsetSeq]
    | cons y ys =>
      rw [subsetSeq]
      cases hv : validateSubset y x with
      | error e =>
        simp only [reduceCtorEq, false_iff, not_and]
        intro _ h
        have := h 0 (q, x) y rfl rfl
        simp [hv] at this
      | ok u =>
        simp only
        rw [ih]
        simp only [List.length_cons, Nat.add_le_add_iff_right]
        refine and_congr_right fun _ => ⟨fun h j => ?_, fun h j => h (j + 1)⟩
        cases j with
        | zero =>
          intro a b ha hb
          simp only [List.getElem?_cons_zero, Option.some.injEq] at ha hb
          subst ha hb
          exact hv
        | succ j => exact h j

theorem mem_of_smFind {κ β : Type} [LinearOrder κ] {k : κ} {x : β} {m : List (κ × β)} (h : smFind k m = some x) :
    (k, x) ∈ m := by
  induction m with
  | nil => simp [smFind] at h
  | cons p m ih =>
    obtain ⟨k', x'⟩ := p
    rw [smFind] at h
    split_ifs at h with hk
    · simp only [Option.some.injEq] at h
      subst hk h
      exact List.mem_cons_self
    · exact List.mem_cons_of_mem _ (ih h)

/-- The check passes only if an entry of the input has its counterpart. -/
theorem child_of_subset {a b : YNode} (h : validateSubset a b = .ok ()) (k : String) (hk : b.child k ≠ .none) :
    a.IsMapping ∧ a.child k ≠ .none ∧ validateSubset (a.child k) (b.child k) = .ok () := by
  cases b with
  | map m =>
    cases a with
    | map m' =>
      rw [validateSubset] at h
      have e : (YNode.map m).child k = (smFind k m).getD .none := rfl
      cases hf : smFind k m with
      | none => rw [e, hf] at hk; exact absurd rfl hk
      | some x =>
        rw [e, hf] at hk ⊢
        exact ⟨trivial, (subsetMap_iff m' m).mp h (k, x) (mem_of_smFind hf) hk⟩
    | none => simp [validateSubset] at h
    | scalar s => simp [validateSubset] at h
    | seq s => simp [validateSubset] at h
  | none => exact absurd rfl hk
  | scalar s => exact absurd rfl hk
  | seq s => exact absurd rfl hk

/-- **C150.** The strict check of a part of the input against the part written for what was loaded: a map passes if the
other is a map in which every entry of the input that is not empty has an entry that is not empty and passes; a list
passes if the other is a list of at least its length whose items pass; a text and an empty node always pass. -/
theorem C150_check (a : YNode) :
    (∀ m, validateSubset a (.map m) = .ok () ↔ ∃ m', a = .map m' ∧ ∀ x ∈ m, x.2 ≠ .none →
      a.child x.1 ≠ .none ∧ validateSubset (a.child x.1) x.2 = .ok ()) ∧
    (∀ s, validateSubset a (.seq s) = .ok () ↔ ∃ s', a = .seq s' ∧ s.length ≤ s'.length ∧
      ∀ (j : ℕ) (x y : ℕ × YNode), s[j]? = some x → s'[j]? = some y → validateSubset y.2 x.2 = .ok ()) ∧
    (∀ t, validateSubset a (.scalar t) = .ok ()) ∧ validateSubset a .none = .ok () := by
  refine ⟨fun m => ?_, fun s => ?_, fun t => by cases a <;> rfl, by cases a <;> rfl⟩
  · cases a with
    | map m' =>
      rw [validateSubset, subsetMap_iff]
      exact ⟨fun h => ⟨m', rfl, h⟩, fun ⟨_, _, h⟩ => h⟩
    | none => simp [validateSubset]
    | scalar s => simp [validateSubset]
    | seq s => simp [validateSubset]
  · cases a with
    | seq s' =>
      rw [validateSubset, subsetSeq_iff, List.length_map]
      constructor
      · rintro ⟨h1, h2⟩
        exact ⟨s', rfl, h1, fun j x y hx hy => h2 j x y.2 hx (by simp [hy])⟩
      · rintro ⟨s'', e, h1, h2⟩
        simp only [YNode.seq.injEq] at e
        subst e
        refine ⟨h1, fun j x y hx hy => ?_⟩
        rw [List.getElem?_map, Option.map_eq_some_iff] at hy
        obtain ⟨z, hz, rfl⟩ := hy
        exact h2 j x z hx hz
    | none => simp [validateSubset]
    | scalar t => simp [validateSubset]
    | map m => simp [validateSubset]

/-- **C150.** When the strict check passes, every path of names that leads to something in the input leads to something in
what was loaded. -/
theorem C150_check_paths (ks : List String) (a b : YNode) (hne : ks ≠ []) (h : validateSubset a b = .ok ())
    (hb : b.ref (ks.map .name) ≠ .none) : a.ref (ks.map .name) ≠ .none := by
  induction ks generalizing a b with
  | nil => exact absurd rfl hne
  | cons k ks ih =>
    have hb' : (b.child k).ref (ks.map .name) ≠ .none := hb
    have hc : b.child k ≠ .none := by
      intro e
      rw [e, YNode.ref_none] at hb'
      exact hb' rfl
    obtain ⟨_, h1, h2⟩ := child_of_subset h k hc
    change (a.child k).ref (ks.map .name) ≠ .none
    cases ks with
    | nil => exact h1
    | cons k' ks => exact ih _ _ (by simp) h2 hb'

/-- **C150.** Input with something that the check refuses is refused by the strict functions. -/
theorem C150_strict_refuses {α : Type} (c : Codec α) (n : YNode) (h : c.Stray n) (v : α) :
    ∃ e, loadStrict c v n = .error e := by
  unfold loadStrict
  cases hd : c.des true v n with
  | error e => exact ⟨e, rfl⟩
  | ok p =>
    obtain ⟨v', n'⟩ := p
    have := (h v v' n' hd).1
    simp only
    cases hv : validateSubset (c.ser v' .none) n' with
    | error e => exact ⟨e, rfl⟩
    | ok u => exact absurd hv this

section StrayStruct

variable {m : ℕ} {α : Fin m → Type} (key : Fin m → String) (hkey : Function.Injective key) (codec : ∀ i, Codec (α i))
  (required : List String) (derive validate : (∀ i, α i) → Cfg (∀ i, α i))

include hkey

theorem struct_child (w w' : ∀ i, α i) (n n' : YNode)
    (h : (structCodec (tupleSpec key codec required derive validate)).des true w n = .ok (w', n'))
    (k : String) (hk : ∀ i, k ≠ key i) : n'.child k = n.child k := by
  simp only [structCodec, tupleSpec] at h
  cases hr : checkRequired required n with
  | error e => rw [hr] at h; simp at h
  | ok n1 =>
    rw [hr] at h
    obtain ⟨c1, c2, _⟩ := checkRequired_child _ _ _ hr
    simp only at h
    cases hf : desFields true (tupleFields key codec (List.finRange m)) w n1 with
    | error e => rw [hf] at h; simp at h
    | ok p =>
      obtain ⟨v, n2⟩ := p
      rw [hf] at h
      simp only [↓reduceIte, Except.ok.injEq, Prod.mk.injEq] at h
      obtain ⟨rfl, rfl⟩ := h
      obtain ⟨_, h2, _, _⟩ := desFields_ok key hkey codec true _ (List.nodup_finRange m) _ _ _ _ hf
      rw [h2 k fun i _ => hk i, c1]

/-- **C150.** An entry of the input that is not a field of the structure is refused, unless it is empty. -/
theorem C150_unknown_field (n : YNode) (k : String) (hk : ∀ i, k ≠ key i) (hn : n.child k ≠ .none) :
    (structCodec (tupleSpec key codec required derive validate)).Stray n := by
  intro w w' n' h
  have e := struct_child key hkey codec required derive validate w w' n n' h k hk
  have hs : ((structCodec (tupleSpec key codec required derive validate)).ser w' .none).child k = .none := by
    rw [ser_struct, (child_serFields key hkey codec w' _ (List.nodup_finRange m) .none).2.1 k fun i _ => hk i]
    rfl
  exact ⟨fun hv => (child_of_subset hv k (by rwa [e])).2.1 hs, fun hv => (child_of_subset hv k hn).2.1 hs⟩

/-- **C150.** What is refused in a field is refused in the structure, so at any depth. -/
theorem C150_unknown_nested (n : YNode) (i : Fin m) (hn : n.child (key i) ≠ .none) (hi : (codec i).Stray (n.child (key i)))
    (hshow : ∀ v v' n', (codec i).des true v (n.child (key i)) = .ok (v', n') → n' ≠ .none) :
    (structCodec (tupleSpec key codec required derive validate)).Stray n := by
  intro w w' n' h
  have hd := ((C150_fields_loaded key hkey codec required derive validate w w' n n' h).2 i).2 hn
  obtain ⟨h1, h2⟩ := hi _ _ _ hd
  have hs : ((structCodec (tupleSpec key codec required derive validate)).ser w' .none).child (key i) =
      (codec i).ser (w' i) .none := by
    rw [ser_struct]
    exact (child_serFields key hkey codec w' _ (List.nodup_finRange m) .none).1 i (List.mem_finRange i)
  refine ⟨fun hv => ?_, fun hv => ?_⟩
  · have := (child_of_subset hv (key i) (hshow _ _ _ hd)).2.2
    rw [hs] at this
    exact h1 this
  · have := (child_of_subset hv (key i) hn).2.2
    rw [hs] at this
    exact h2 this

end StrayStruct

/-- **C150.** Two structures without a common field that are written to one text both come back. -/
theorem C150_two_objects {m m' : ℕ} {α : Fin m → Type} {β : Fin m' → Type} (key : Fin m → String)
    (key' : Fin m' → String) (hkey : Function.Injective key) (hkey' : Function.Injective key')
    (hdisj : ∀ i j, key i ≠ key' j) (codec : ∀ i, Codec (α i)) (codec' : ∀ i, Codec (β i))
    (derive validate : (∀ i, α i) → Cfg (∀ i, α i)) (derive' validate' : (∀ i, β i) → Cfg (∀ i, β i)) (raw : Bool)
    (d v : ∀ i, α i) (d' v' : ∀ i, β i)
    (hret : ∀ i, (codec i).Returns raw (d i) (v i)) (hret' : ∀ i, (codec' i).Returns raw (d' i) (v' i))
    (hnone : ∀ i, (codec i).ser (v i) .none = .none → v i = d i)
    (hnone' : ∀ i, (codec' i).ser (v' i) .none = .none → v' i = d' i)
    (hpost : raw = true ∨ (derive v = .ok v ∧ validate v = .ok v))
    (hpost' : raw = true ∨ (derive' v' = .ok v' ∧ validate' v' = .ok v')) :
    (pairCodec (structCodec (tupleSpec key codec [] derive validate))
      (structCodec (tupleSpec key' codec' [] derive' validate'))).Returns raw (d, d') (v, v') := by
  obtain ⟨s1, s2, _⟩ := child_serFields key hkey codec v (List.finRange m) (List.nodup_finRange m) .none
  obtain ⟨t1, t2, _⟩ := child_serFields key' hkey' codec' v' (List.finRange m') (List.nodup_finRange m')
    (serFields (tupleFields key codec (List.finRange m)) v .none)
  obtain ⟨n1, h1, k1⟩ := struct_loads key hkey codec [] derive validate raw d v
    (serFields (tupleFields key' codec' (List.finRange m')) v'
      (serFields (tupleFields key codec (List.finRange m)) v .none))
    (fun i => by rw [t2 _ fun j _ => hdisj i j]; exact s1 i (List.mem_finRange i)) (by simp) hret hnone hpost
  obtain ⟨n2, h2, _⟩ := struct_loads key' hkey' codec' [] derive' validate' raw d' v' n1
    (fun j => by
      rw [k1 _ fun i => (hdisj i j).symm, t1 j (List.mem_finRange j), s2 _ fun i _ => (hdisj i j).symm]
      rfl) (by simp) hret' hnone' hpost'
  refine ⟨n2, ?_⟩
  have e : (pairCodec (structCodec (tupleSpec key codec [] derive validate))
      (structCodec (tupleSpec key' codec' [] derive' validate'))).ser (v, v') .none =
      serFields (tupleFields key' codec' (List.finRange m')) v'
        (serFields (tupleFields key codec (List.finRange m)) v .none) := rfl
  rw [e]
  simp only [pairCodec]
  rw [h1]
  simp only
  rw [h2]

/-! ## Base classes and post-processing -/

theorem desFields_append {σ : Type} (raw : Bool) (fs gs : List (SField σ)) (v : σ) (n : YNode) :
    desFields raw (fs ++ gs) v n = (desFields raw fs v n).bind fun p => desFields raw gs p.1 p.2 := by
  induction fs generalizing v n with
  | nil => rfl
  | cons f fs ih =>
    rw [List.cons_append, desFields, desFields]
    split_ifs
    · exact ih _ _
    · cases f.des raw v (n.child f.key) with
      | error e => rfl
      | ok p => exact ih _ _

/-- **C150.** A structure with a base class is written, and loaded before any post-processing, as the structure with the
fields of the base class before its own; the required fields of both are demanded. -/
theorem C150_base_class {σ : Type} (B S : SSpec σ) (hB : B.base = none) (hS : S.base = some (structCodec B)) :
    (∀ v n, (structCodec S).ser v n = serFields (B.fields ++ S.fields) v n) ∧
    (∀ v n p, (structCodec S).des true v n = .ok p ↔
      (∀ k ∈ S.required ++ B.required, n.child k ≠ .none) ∧
        ∃ n₁ n₂, checkRequired S.required n = .ok n₁ ∧ checkRequired B.required n₁ = .ok n₂ ∧
          desFields true (B.fields ++ S.fields) v n₂ = .ok p) := by
  constructor
  · intro v n
    simp only [structCodec, hS, hB, serFields, List.foldl_append]
  · intro v n p
    simp only [structCodec, hS, hB]
    cases h1 : checkRequired S.required n with
    | error e =>
      simp
    | ok n1 =>
      obtain ⟨c1, c2, _⟩ := checkRequired_child _ _ _ h1
      simp only
      cases h2 : checkRequired B.required n1 with
      | error e => simp [h2]
      | ok n2 =>
        obtain ⟨d1, d2, _⟩ := checkRequired_child _ _ _ h2
        have hall : ∀ k ∈ S.required ++ B.required, n.child k ≠ .none := by
          intro k hk e
          rcases List.mem_append.mp hk with hk | hk
          · simpa [e, YNode.noValue] using c2 k hk
          · have := d2 k hk
            rw [c1, e] at this
            simp [YNode.noValue] at this
        have hex : (∃ n₁ n₂, (Except.ok n1 : Cfg YNode) = .ok n₁ ∧ checkRequired B.required n₁ = .ok n₂ ∧
            desFields true (B.fields ++ S.fields) v n₂ = .ok p) ↔
            desFields true (B.fields ++ S.fields) v n2 = .ok p := by
          constructor
          · rintro ⟨a, b, h, h', h''⟩
            simp only [Except.ok.injEq] at h
            subst h
            rw [h2] at h'
            simp only [Except.ok.injEq] at h'
            subst h'
            exact h''
          · exact fun h => ⟨n1, n2, rfl, h2, h⟩
        refine Iff.trans ?_ (Iff.trans hex.symm (and_iff_right hall).symm)
        rw [desFields_append]
        simp only [h2, if_true]
        cases h3 : desFields true B.fields v n2 with
        | error e => simp [Except.bind]
        | ok q =>
          simp only [Except.bind]
          cases h4 : desFields true S.fields q.1 q.2 with
          | error e => simp
          | ok r => simp

/-- **C150.** The post-processing of a structure runs once, when all fields are loaded: first the derivation, then the
check; an exception of one of them is the result.  (For fields that have no post-processing of their own.) -/
theorem C150_post_processing {σ : Type} (S : SSpec σ) (hS : S.base = none)
    (hf : ∀ f ∈ S.fields, ∀ v n, f.des false v n = f.des true v n) (v : σ) (n : YNode) :
    loadNode (structCodec S) v n =
      ((structCodec S).des true v n).bind fun p => (S.derive p.1).bind S.validate := by
  have key : ∀ (fs : List (SField σ)), (∀ f ∈ fs, ∀ v n, f.des false v n = f.des true v n) →
      ∀ v n, desFields false fs v n = desFields true fs v n := by
    intro fs
    induction fs with
    | nil => intro _ v n; rfl
    | cons f fs ih =>
      intro h v n
      have ih' := ih fun g hg => h g (List.mem_cons_of_mem _ hg)
      rw [desFields, desFields]
      split_ifs
      · exact ih' _ _
      · rw [h f List.mem_cons_self]
        cases f.des true v (n.child f.key) with
        | error e => rfl
        | ok p => exact ih' _ _
  simp only [loadNode, structCodec, hS]
  cases checkRequired S.required n with
  | error e => rfl
  | ok n1 =>
    simp only
    rw [key _ hf]
    cases desFields true S.fields v n1 with
    | error e => rfl
    | ok p =>
      simp only [Bool.false_eq_true, if_false, if_true, Except.bind]
      cases S.derive p.1 with
      | error e => rfl
      | ok w =>
        simp only
        cases S.validate w with
        | error e => rfl
        | ok u => rfl

example : ∃ S : SSpec ℕ, S.base = none ∧ (∀ f ∈ S.fields, ∀ v n, f.des false v n = f.des true v n) ∧ S.fields ≠ [] :=
  ⟨{ fields := [SField.of "a" id (fun _ x => x) (scalarCodec (fun s => s.length) fun _ => "")] }, rfl, by
    intro f hf v n
    simp only [List.mem_singleton] at hf
    subst hf
    rfl, by simp⟩

end Fierro
