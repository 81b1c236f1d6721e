import Verif.Props.YamlTypes

/-!
# Loading structures from YAML: the strict functions load the same (C150)

The strict functions load twice, the second time into the objects and from the node that the first pass has left.
-/

namespace Fierro

/-- The value that loading ends with, or the error. -/
def Codec.value {α : Type} (c : Codec α) (raw : Bool) (v : α) (n : YNode) : Cfg α := (c.des raw v n).map Prod.fst

/-- A first pass does not change what a second pass gives. -/
def Codec.Steady {α : Type} (c : Codec α) : Prop :=
  ∀ v n v₁ n₁, c.des true v n = .ok (v₁, n₁) →
    (n.noValue = false → n₁.noValue = false) ∧ (∀ raw w, c.value raw w n₁ = c.value raw w n) ∧
      c.value false v₁ n = c.value false v n

/-- **C150.** For such types, what the strict functions give is what the others give. -/
theorem C150_strict_same {α : Type} (c : Codec α) (h : c.Steady) (v : α) (n : YNode) (r : α)
    (hr : loadStrict c v n = .ok r) : loadNode c v n = .ok r := by
  have hval : ∀ v n, loadNode c v n = c.value false v n := by
    intro v n
    unfold loadNode Codec.value
    cases c.des false v n <;> rfl
  unfold loadStrict at hr
  cases hd : c.des true v n with
  | error e => rw [hd] at hr; simp at hr
  | ok p =>
    obtain ⟨v1, n1⟩ := p
    rw [hd] at hr
    simp only at hr
    obtain ⟨_, h2, h3⟩ := h v n v1 n1 hd
    cases hv : validateSubset (c.ser v1 .none) n1 with
    | error e => rw [hv] at hr; simp at hr
    | ok u =>
      rw [hv] at hr
      simp only at hr
      rw [hval] at hr ⊢
      rw [← h3, ← h2, hr]

/-- **C150.** Numbers, strings and truth values are such types. -/
theorem C150_scalar_steady {α : Type} (rd : String → α) (wr : α → String) : (scalarCodec rd wr).Steady := by
  intro v n v1 n1 h
  simp only [scalarCodec, Except.ok.injEq, Prod.mk.injEq] at h
  obtain ⟨rfl, rfl⟩ := h
  refine ⟨id, fun _ _ => rfl, ?_⟩
  simp only [Codec.value, scalarCodec, Except.map]
  split_ifs <;> rfl

/-- **C150.** Enumerations are. -/
theorem C150_enum_steady (names : List String) : (enumCodec names).Steady := by
  intro v n v1 n1 h
  simp only [enumCodec] at h
  split_ifs at h with hn
  · simp only [Except.ok.injEq, Prod.mk.injEq] at h
    obtain ⟨rfl, rfl⟩ := h
    exact ⟨id, fun _ _ => rfl, rfl⟩
  · cases he : enumOf names n.asString with
    | error e => rw [he] at h; simp at h
    | ok x =>
      rw [he] at h
      simp only [Except.ok.injEq, Prod.mk.injEq] at h
      obtain ⟨rfl, rfl⟩ := h
      refine ⟨id, fun _ _ => rfl, ?_⟩
      simp only [Codec.value, enumCodec, if_neg hn]

/-- **C150.** Optional values of such types are. -/
theorem C150_option_steady {α : Type} (d : α) (c : Codec α) (hc : c.Steady) : (optCodec d c).Steady := by
  have hval : ∀ raw w n, n.noValue = false → (optCodec d c).value raw w n = (c.value raw d n).map some := by
    intro raw w n hn
    simp only [Codec.value, optCodec, hn, Bool.false_eq_true, if_false]
    cases c.des raw d n <;> rfl
  intro v n v1 n1 h
  by_cases hn : n.noValue = true
  · simp only [optCodec, hn, if_true, Except.ok.injEq, Prod.mk.injEq] at h
    obtain ⟨rfl, rfl⟩ := h
    exact ⟨id, fun _ _ => rfl, rfl⟩
  · have hn' : n.noValue = false := by simpa using hn
    simp only [optCodec, hn', Bool.false_eq_true, if_false] at h
    cases hd : c.des true d n with
    | error e => rw [hd] at h; simp at h
    | ok p =>
      obtain ⟨x, m⟩ := p
      rw [hd] at h
      simp only [Except.ok.injEq, Prod.mk.injEq] at h
      obtain ⟨rfl, rfl⟩ := h
      obtain ⟨h1, h2, h3⟩ := hc d n x m hd
      refine ⟨h1, fun raw w => ?_, ?_⟩
      · rw [hval _ _ _ (h1 hn'), hval _ _ _ hn', h2]
      · rw [hval _ _ _ hn', hval _ _ _ hn']

/-- **C150.** Lists, sets and arrays are, whatever their elements: they are loaded from a copy of the node. -/
theorem C150_list_steady {α : Type} [LinearOrder α] (len : ℕ) (d : α) (c : Codec α) :
    (vecCodec d c).Steady ∧ (setCodec d c).Steady ∧ (arrayCodec len d c).Steady := by
  refine ⟨?_, ?_, ?_⟩ <;> intro v n v1 n1 h
  · have e : n1 = n ∧ (n.noValue = true → v1 = v) := by
      simp only [vecCodec] at h
      split_ifs at h with hn
      · simp only [Except.ok.injEq, Prod.mk.injEq] at h
        exact ⟨h.2.symm, fun _ => h.1.symm⟩
      · refine ⟨?_, fun e => absurd e hn⟩
        cases hs : sequenceItems n with
        | error e => rw [hs] at h; simp at h
        | ok ns =>
          rw [hs] at h
          simp only at h
          cases hd : desItems d c true 0 ns with
          | error e => rw [hd] at h; simp at h
          | ok xs =>
            rw [hd] at h
            simp only [Except.ok.injEq, Prod.mk.injEq] at h
            exact h.2.symm
    obtain ⟨rfl, e⟩ := e
    refine ⟨id, fun _ _ => rfl, ?_⟩
    by_cases hn : n1.noValue = true
    · rw [e hn]
    · simp only [Codec.value, vecCodec, if_neg hn]
  · have e : n1 = n ∧ (n.noValue = true → v1 = v) := by
      simp only [setCodec] at h
      split_ifs at h with hn
      · simp only [Except.ok.injEq, Prod.mk.injEq] at h
        exact ⟨h.2.symm, fun _ => h.1.symm⟩
      · refine ⟨?_, fun e => absurd e hn⟩
        cases hs : sequenceItems n with
        | error e => rw [hs] at h; simp at h
        | ok ns =>
          rw [hs] at h
          simp only at h
          cases hd : desItems d c true 0 ns with
          | error e => rw [hd] at h; simp at h
          | ok xs =>
            rw [hd] at h
            simp only [Except.ok.injEq, Prod.mk.injEq] at h
            exact h.2.symm
    obtain ⟨rfl, e⟩ := e
    refine ⟨id, fun _ _ => rfl, ?_⟩
    by_cases hn : n1.noValue = true
    · rw [e hn]
    · simp only [Codec.value, setCodec, if_neg hn]
  · have e : n1 = n ∧ (n.noValue = true → v1 = v) := by
      simp only [arrayCodec] at h
      split_ifs at h with hn
      · simp only [Except.ok.injEq, Prod.mk.injEq] at h
        exact ⟨h.2.symm, fun _ => h.1.symm⟩
      · refine ⟨?_, fun e => absurd e hn⟩
        cases hs : sequenceItems n with
        | error e => rw [hs] at h; simp at h
        | ok ns =>
          rw [hs] at h
          simp only at h
          split_ifs at h
          cases hd : desItems d c true 0 ns with
          | error e => rw [hd] at h; simp at h
          | ok xs =>
            rw [hd] at h
            simp only [Except.ok.injEq, Prod.mk.injEq] at h
            exact h.2.symm
    obtain ⟨rfl, e⟩ := e
    refine ⟨id, fun _ _ => rfl, ?_⟩
    by_cases hn : n1.noValue = true
    · rw [e hn]
    · simp only [Codec.value, arrayCodec, if_neg hn]

theorem checkRequired_congr (ks : List String) (a b : YNode) (h : ∀ k, (a.child k).noValue = (b.child k).noValue) :
    (∃ e, checkRequired ks a = .error e ∧ checkRequired ks b = .error e) ∨
    ∃ a' b', checkRequired ks a = .ok a' ∧ checkRequired ks b = .ok b' ∧ (∀ k, a'.child k = a.child k) ∧
      ∀ k, b'.child k = b.child k := by
  induction ks generalizing a b with
  | nil => exact Or.inr ⟨a, b, rfl, rfl, fun _ => rfl, fun _ => rfl⟩
  | cons k ks ih =>
    rw [checkRequired, checkRequired, h k]
    by_cases hn : (b.child k).noValue = true
    · exact Or.inl ⟨⟨"", .missing k⟩, by rw [if_pos hn], by rw [if_pos hn]⟩
    · rw [if_neg hn, if_neg hn]
      rcases ih (a.touch [.name k]) (b.touch [.name k]) fun k' => by rw [child_touch, child_touch, h] with
        h1 | ⟨a', b', h1, h2, h3, h4⟩
      · exact Or.inl h1
      · exact Or.inr ⟨a', b', h1, h2, fun k' => by rw [h3, child_touch], fun k' => by rw [h4, child_touch]⟩

section

variable {m : ℕ} {α : Fin m → Type} (key : Fin m → String) (hkey : Function.Injective key) (codec : ∀ i, Codec (α i))

include hkey

theorem desFields_congr (raw : Bool) (l : List (Fin m)) (hl : l.Nodup) (w w' : ∀ i, α i) (a b : YNode)
    (h1 : ∀ i ∈ l, (a.child (key i)).noValue = (b.child (key i)).noValue)
    (h2 : ∀ i ∈ l, (a.child (key i)).noValue = true → w i = w' i)
    (h3 : ∀ i ∈ l, (codec i).value raw (w i) (a.child (key i)) = (codec i).value raw (w' i) (b.child (key i)))
    (h4 : ∀ i ∉ l, w i = w' i) :
    (desFields raw (tupleFields key codec l) w a).map Prod.fst =
      (desFields raw (tupleFields key codec l) w' b).map Prod.fst := by
  induction l generalizing w w' a b with
  | nil =>
    have : w = w' := funext fun i => h4 i List.not_mem_nil
    rw [this]
    rfl
  | cons j l ih =>
    obtain ⟨hj, hl⟩ := List.nodup_cons.mp hl
    have hne : ∀ i ∈ l, key i ≠ key j := fun i hi hk => hj (by rw [← hkey hk]; exact hi)
    have hij : ∀ i ∈ l, i ≠ j := fun i hi e => hj (e ▸ hi)
    have eq1 : ∀ (w : ∀ i, α i) (a : YNode), desFields raw (tupleFields key codec (j :: l)) w a =
        if (a.child (key j)).noValue then desFields raw (tupleFields key codec l) w (a.touch [.name (key j)])
        else match (codec j).des raw (w j) (a.child (key j)) with
          | .error e => .error (e.under (key j))
          | .ok (x, c) => desFields raw (tupleFields key codec l) (Function.update w j x)
              (a.modify (fun _ => c) [.name (key j)]) := by
      intro w a
      rw [tupleFields, List.map_cons, desFields]
      by_cases hn : (a.child (key j)).noValue = true
      · rw [if_pos hn]
        exact if_pos hn
      · rw [if_neg hn]
        refine (if_neg hn).trans ?_
        cases hd : (codec j).des raw (w j) (a.child (key j)) with
        | error e => simp only [SField.of, hd]
        | ok p => simp only [SField.of, hd, tupleFields]
    rw [eq1, eq1, h1 j List.mem_cons_self]
    by_cases hn : (b.child (key j)).noValue = true
    · rw [if_pos hn, if_pos hn]
      refine ih hl _ _ _ _ ?_ ?_ ?_ ?_
      · intro i hi
        rw [child_touch, child_touch]
        exact h1 i (List.mem_cons_of_mem _ hi)
      · intro i hi
        rw [child_touch]
        exact h2 i (List.mem_cons_of_mem _ hi)
      · intro i hi
        rw [child_touch, child_touch]
        exact h3 i (List.mem_cons_of_mem _ hi)
      · intro i hi
        by_cases e : i = j
        · subst e
          exact h2 i List.mem_cons_self (by rw [h1 i List.mem_cons_self]; exact hn)
        · exact h4 i (by simp [e, hi])
    · rw [if_neg hn, if_neg hn]
      have h := h3 j List.mem_cons_self
      unfold Codec.value at h
      cases ha : (codec j).des raw (w j) (a.child (key j)) with
      | error e =>
        cases hb : (codec j).des raw (w' j) (b.child (key j)) with
        | error e' =>
          rw [ha, hb] at h
          simp only [Except.map, Except.error.injEq] at h
          rw [h]
        | ok p => rw [ha, hb] at h; simp [Except.map] at h
      | ok p =>
        cases hb : (codec j).des raw (w' j) (b.child (key j)) with
        | error e' => rw [ha, hb] at h; simp [Except.map] at h
        | ok p' =>
          obtain ⟨x, c⟩ := p
          obtain ⟨x', c'⟩ := p'
          rw [ha, hb] at h
          simp only [Except.map, Except.ok.injEq] at h
          subst h
          simp only
          refine ih hl _ _ _ _ ?_ ?_ ?_ ?_
          · intro i hi
            rw [child_modify, child_modify, if_neg (hne i hi), if_neg (hne i hi)]
            exact h1 i (List.mem_cons_of_mem _ hi)
          · intro i hi
            rw [child_modify, if_neg (hne i hi), Function.update_of_ne (hij i hi), Function.update_of_ne (hij i hi)]
            exact h2 i (List.mem_cons_of_mem _ hi)
          · intro i hi
            rw [child_modify, child_modify, if_neg (hne i hi), if_neg (hne i hi), Function.update_of_ne (hij i hi),
              Function.update_of_ne (hij i hi)]
            exact h3 i (List.mem_cons_of_mem _ hi)
          · intro i hi
            by_cases e : i = j
            · subst e
              rw [Function.update_self, Function.update_self]
            · rw [Function.update_of_ne e, Function.update_of_ne e]
              exact h4 i (by simp [e, hi])

variable (required : List String) (derive validate : (∀ i, α i) → Cfg (∀ i, α i))

theorem struct_value_congr (raw : Bool) (w w' : ∀ i, α i) (a b : YNode)
    (h0 : ∀ k, (a.child k).noValue = (b.child k).noValue)
    (h2 : ∀ i, (a.child (key i)).noValue = true → w i = w' i)
    (h3 : ∀ i, (codec i).value raw (w i) (a.child (key i)) = (codec i).value raw (w' i) (b.child (key i))) :
    (structCodec (tupleSpec key codec required derive validate)).value raw w a =
      (structCodec (tupleSpec key codec required derive validate)).value raw w' b := by
  simp only [Codec.value, structCodec, tupleSpec]
  rcases checkRequired_congr required a b h0 with ⟨e, e1, e2⟩ | ⟨a', b', e1, e2, c1, c2⟩
  · rw [e1, e2]
  · rw [e1, e2]
    simp only
    have h := desFields_congr key hkey codec raw (List.finRange m) (List.nodup_finRange m) w w' a' b'
      (fun i _ => by rw [c1, c2]; exact h0 _) (fun i _ => by rw [c1]; exact h2 i)
      (fun i _ => by rw [c1, c2]; exact h3 i) (fun i hi => absurd (List.mem_finRange i) hi)
    cases hA : desFields raw (tupleFields key codec (List.finRange m)) w a' with
    | error e =>
      cases hB : desFields raw (tupleFields key codec (List.finRange m)) w' b' with
      | error e' =>
        rw [hA, hB] at h
        simp only [Except.map, Except.error.injEq] at h
        rw [h]
      | ok p => rw [hA, hB] at h; simp [Except.map] at h
    | ok p =>
      cases hB : desFields raw (tupleFields key codec (List.finRange m)) w' b' with
      | error e' => rw [hA, hB] at h; simp [Except.map] at h
      | ok p' =>
        obtain ⟨x, c⟩ := p
        obtain ⟨x', c'⟩ := p'
        rw [hA, hB] at h
        simp only [Except.map, Except.ok.injEq] at h
        subst h
        simp only
        cases raw with
        | true => rfl
        | false =>
          simp only [Bool.false_eq_true, if_false]
          cases derive x with
          | error e => rfl
          | ok y =>
            simp only
            cases validate y with
            | error e => rfl
            | ok z => rfl

/-- **C150.** Structures of such types are, whatever their post-processing, so that the strict functions give the same
object as the others, at any depth. -/
theorem C150_struct_steady (hs : ∀ i, (codec i).Steady) :
    (structCodec (tupleSpec key codec required derive validate)).Steady := by
  intro v n v1 n1 h
  have hload := (C150_fields_loaded key hkey codec required derive validate v v1 n n1 h).2
  have hother := struct_child key hkey codec required derive validate v v1 n n1 h
  have hfield : ∀ i, (n.child (key i) = .none → v1 i = v i ∧ n1.child (key i) = .none) := by
    intro i e
    refine ⟨(hload i).1 e, ?_⟩
    simp only [structCodec, tupleSpec] at h
    cases hr : checkRequired required n with
    | error e => rw [hr] at h; simp at h
    | ok n0 =>
      rw [hr] at h
      obtain ⟨c1, _, _⟩ := checkRequired_child _ _ _ hr
      simp only at h
      cases hf : desFields true (tupleFields key codec (List.finRange m)) v n0 with
      | error e => rw [hf] at h; simp at h
      | ok p =>
        obtain ⟨x, y⟩ := p
        rw [hf] at h
        simp only [↓reduceIte, Except.ok.injEq, Prod.mk.injEq] at h
        obtain ⟨rfl, rfl⟩ := h
        have := (desFields_ok key hkey codec true _ (List.nodup_finRange m) _ _ _ _ hf).2.2.1 i (List.mem_finRange i)
        rw [c1, if_pos ((noValue_iff _).mpr e)] at this
        rw [this.2, e]
  have hno : ∀ k, (n1.child k).noValue = (n.child k).noValue := by
    intro k
    by_cases hk : ∃ i, k = key i
    · obtain ⟨i, rfl⟩ := hk
      by_cases e : n.child (key i) = .none
      · rw [(hfield i e).2, e]
      · have e' : (n.child (key i)).noValue = false := by
          rw [← Bool.not_eq_true, noValue_iff]
          exact e
        rw [e', (hs i _ _ _ _ ((hload i).2 e)).1 e']
    · rw [hother k fun i e => hk ⟨i, e⟩]
  refine ⟨?_, ?_, ?_⟩
  · intro hn
    -- the node stays what it is, or becomes a map
    simp only [structCodec, tupleSpec] at h
    cases hr : checkRequired required n with
    | error e => rw [hr] at h; simp at h
    | ok n0 =>
      rw [hr] at h
      simp only at h
      cases hf : desFields true (tupleFields key codec (List.finRange m)) v n0 with
      | error e => rw [hf] at h; simp at h
      | ok p =>
        obtain ⟨x, y⟩ := p
        rw [hf] at h
        simp only [↓reduceIte, Except.ok.injEq, Prod.mk.injEq] at h
        obtain ⟨rfl, rfl⟩ := h
        have hmap : ∀ t : YNode, t.IsMapping → t.noValue = false := by
          intro t ht
          cases t <;> first | rfl | exact absurd ht (by simp [YNode.IsMapping])
        have hd := (desFields_ok key hkey codec true _ (List.nodup_finRange m) _ _ _ _ hf).2.2.2
        have hr3 := (checkRequired_child _ _ _ hr).2.2
        by_cases hl : List.finRange m = []
        · rw [hl] at hf
          simp only [tupleFields, List.map_nil, desFields, Except.ok.injEq, Prod.mk.injEq] at hf
          rw [← hf.2]
          by_cases hq : required = []
          · subst hq
            simp only [checkRequired, Except.ok.injEq] at hr
            rw [← hr]
            exact hn
          · exact hmap _ (hr3 (Or.inr hq))
        · exact hmap _ (hd (Or.inr hl))
  · intro raw w
    refine struct_value_congr key hkey codec required derive validate raw w w n1 n hno (fun _ _ => rfl) fun i => ?_
    by_cases e : n.child (key i) = .none
    · rw [(hfield i e).2, e]
    · exact (hs i _ _ _ _ ((hload i).2 e)).2.1 raw (w i)
  · refine struct_value_congr key hkey codec required derive validate false v1 v n n (fun _ => rfl) ?_ ?_
    · intro i e
      exact (hfield i ((noValue_iff _).mp e)).1
    · intro i
      by_cases e : n.child (key i) = .none
      · rw [(hfield i e).1]
      · exact (hs i _ _ _ _ ((hload i).2 e)).2.2

end

example (v r : Fin 1 → Fin 1 → String) (n : YNode) (h : loadStrict outerCodec v n = .ok r) :
    loadNode outerCodec v n = .ok r :=
  C150_strict_same _ (C150_struct_steady _ (fun i j _ => Subsingleton.elim i j) _ _ _ _ fun _ =>
    C150_struct_steady _ (fun i j _ => Subsingleton.elim i j) _ _ _ _ fun _ => C150_scalar_steady _ _) v n r h

end Fierro
