import Verif.Model.EvpLink
import Verif.Props.EvpCouple
import Verif.Props.DumpFiles
import Mathlib.Tactic.FinCases

/-!
# C136: crystal plasticity in the elements of a finite element run
-/

namespace Fierro

/-! ### Specification -/

/-- What one element sees: its unit cell and its stress at every level. -/
structure OwnView (S : Type) where
  cell : S
  stress : ℕ → T2 ℝ

/-- A call to this element: the unit cell answers to the stress of the level. -/
def OwnView.step {S : Type} (cell : LinkCell S) (globals : ℕ → ℝ) (x : OwnView S) (c : LinkCall) : OwnView S :=
  let r := cell.solve x.cell c.velGrad (x.stress c.level) c.dt c.cycle c.elem (globals c.mat)
  ⟨r.1, fun l => if l = c.level then r.2 else x.stress l⟩

/-- The calls to one element. -/
def callsTo (e : ℕ) (calls : List LinkCall) : List LinkCall := calls.filter fun c => c.elem = e

/-- The element after the calls, none of which but its own matter. -/
def OwnView.after {S : Type} (cell : LinkCell S) (globals : ℕ → ℝ) (e : ℕ) (x : OwnView S) (calls : List LinkCall) :
    OwnView S :=
  (callsTo e calls).foldl (OwnView.step cell globals) x

/-- Element `e` uses the model: its material exists and asks for it. -/
def UsesModel (mats : List LinkMat) (matOf : List ℕ) (e : ℕ) : Prop :=
  ∃ mat m, matOf[e]? = some mat ∧ mats[mat]? = some m ∧ m.model = true

/-- The unit cell of an element. -/
def LinkState.cellOf {S : Type} (st : LinkState S) (e : ℕ) : Option S :=
  (st.ptrs[e]?.join).bind fun p => st.heap[p]?.join

/-- Every element below `n` has a material. -/
def MatsOk (mats : List LinkMat) (matOf : List ℕ) (n : ℕ) : Prop :=
  ∀ e < n, ∃ mat m, matOf[e]? = some mat ∧ mats[mat]? = some m

/-! ### Memory of the tensors -/

theorem store9_farray (x : T2 ℝ) (a : ℕ → ℝ) (i j : Fin 3) : store9 farrayAt 0 x a (farrayAt i j) = x i j := by
  fin_cases i <;> fin_cases j <;> rfl

theorem store9_fmatrix (x : T2 ℝ) (a : ℕ → ℝ) (i j : Fin 3) : store9 fmatrixAt 1 x a (farrayAt i j) = x i j := by
  fin_cases i <;> fin_cases j <;> rfl

theorem store9_read (x : T2 ℝ) (a : ℕ → ℝ) :
    (fun i j : Fin 3 => store9 farrayAt 0 x a (fmatrixAt (i.val + 1) (j.val + 1))) = x := by
  funext i j
  fin_cases i <;> fin_cases j <;> rfl

/-! ### Invariant -/

/-- Elements below `k` are set up, the others below `n` not; `h0` objects are older. -/
structure LinkOk {S : Type} (uses : ℕ → Prop) (n k h0 : ℕ) (st : LinkState S) : Prop where
  len : st.ptrs.length = n
  le : h0 ≤ st.heap.length
  used : ∀ e < k, uses e → ∃ p s, st.ptrs[e]? = some (some p) ∧ h0 ≤ p ∧ st.heap[p]? = some (some s)
  free : ∀ e < n, (k ≤ e ∨ ¬ uses e) → st.ptrs[e]? = some none
  inj : ∀ e e' p : ℕ, st.ptrs[e]? = some (some p) → st.ptrs[e']? = some (some p) → e = e'
  cover : ∀ p : ℕ, h0 ≤ p → p < st.heap.length → ∃ e < k, uses e ∧ st.ptrs[e]? = some (some p)

theorem linkInitElem_ok {S : Type} (cell : LinkCell S) (mats : List LinkMat) (matOf : List ℕ) (n k h0 : ℕ)
    (hk : k < n) (hmat : MatsOk mats matOf n)
    (hdev : ∀ mat m, matOf[k]? = some mat → mats[mat]? = some m → m.model = true → m.device = false) (st : LinkState S)
    (hst : LinkOk (UsesModel mats matOf) n k h0 st) :
    ∃ st', linkInitElem cell mats matOf st k = .ok st' ∧ LinkOk (UsesModel mats matOf) n (k + 1) h0 st' ∧
      st'.stress = st.stress ∧ st'.outs = st.outs ∧ (∀ p, p < st.heap.length → st'.heap[p]? = st.heap[p]?) ∧
      (∀ e < k, st'.cellOf e = st.cellOf e) ∧
      (∀ mat m, matOf[k]? = some mat → mats[mat]? = some m → m.model = true →
        st'.cellOf k = some (cell.make (linkFile mat))) := by
  obtain ⟨mat, m, h1, h2⟩ := hmat k hk
  unfold linkInitElem
  rw [h1]
  simp only [h2]
  by_cases hm : m.model = true
  · have hu : UsesModel mats matOf k := ⟨mat, m, h1, h2, hm⟩
    have hd : m.device = false := hdev mat m h1 h2 hm
    rw [if_pos hm, hd, if_neg (by decide)]
    have hlen : k < st.ptrs.length := by rw [hst.len]; exact hk
    have hp : ∀ e p : ℕ, st.ptrs[e]? = some (some p) → p < st.heap.length := by
      intro e p he
      have hen : e < n := by
        rw [← hst.len]
        exact (List.getElem?_eq_some_iff.mp he).1
      by_cases hc : k ≤ e ∨ ¬ UsesModel mats matOf e
      · rw [hst.free e hen hc] at he
        exact absurd he (by simp)
      · rw [not_or, not_not] at hc
        obtain ⟨p', s, hp', -, hs⟩ := hst.used e (by omega) hc.2
        rw [hp'] at he
        obtain rfl : p' = p := by simpa using he
        exact (List.getElem?_eq_some_iff.mp hs).1
    refine ⟨_, rfl, ⟨?_, ?_, ?_, ?_, ?_, ?_⟩, rfl, rfl, ?_, ?_, ?_⟩
    · rw [List.length_set]; exact hst.len
    · rw [List.length_append]; exact le_trans hst.le (Nat.le_add_right _ _)
    · intro e he hue
      by_cases hek : e = k
      · subst hek
        exact ⟨st.heap.length, _, by rw [List.getElem?_set_self hlen], hst.le, List.getElem?_concat_length⟩
      · obtain ⟨p, s, hp1, hp2, hp3⟩ := hst.used e (by omega) hue
        refine ⟨p, s, ?_, hp2, ?_⟩
        · show (st.ptrs.set k _)[e]? = _
          rw [List.getElem?_set_ne (Ne.symm hek)]
          exact hp1
        · show (st.heap ++ _)[p]? = _
          rw [List.getElem?_append_left (hp e p hp1)]
          exact hp3
    · intro e he hc
      have hek : k ≠ e := by
        rintro rfl
        rcases hc with hc | hc
        · omega
        · exact hc hu
      show (st.ptrs.set k _)[e]? = _
      rw [List.getElem?_set_ne hek]
      exact hst.free e he (by rcases hc with hc | hc; exacts [.inl (by omega), .inr hc])
    · intro e e' p he he'
      change (st.ptrs.set k _)[e]? = _ at he
      change (st.ptrs.set k _)[e']? = _ at he'
      rw [List.getElem?_set] at he he'
      split_ifs at he he' with a b a' b'
      · omega
      · obtain rfl : st.heap.length = p := by simpa using he
        exact absurd (hp e' _ he') (lt_irrefl _)
      · obtain rfl : st.heap.length = p := by simpa using he'
        exact absurd (hp e _ he) (lt_irrefl _)
      · exact hst.inj e e' p he he'
    · intro p hp0 hp1
      change p < (st.heap ++ _).length at hp1
      rw [List.length_append, List.length_singleton] at hp1
      by_cases hpl : p = st.heap.length
      · subst hpl
        exact ⟨k, by omega, hu, List.getElem?_set_self hlen⟩
      · obtain ⟨e, he, hue, hpe⟩ := hst.cover p hp0 (by omega)
        refine ⟨e, by omega, hue, ?_⟩
        show (st.ptrs.set k _)[e]? = _
        rw [List.getElem?_set_ne (by omega)]
        exact hpe
    · intro p hp
      exact List.getElem?_append_left hp
    · intro e he
      show ((st.ptrs.set k _)[e]?.join).bind _ = _
      rw [List.getElem?_set_ne (by omega)]
      unfold LinkState.cellOf
      cases h : st.ptrs[e]? with
      | none => rfl
      | some o => cases o with
        | none => rfl
        | some p =>
          show ((st.heap ++ _)[p]?).join = (st.heap[p]?).join
          rw [List.getElem?_append_left (hp e p h)]
    · intro mat' m' h1' h2' _
      obtain rfl : mat = mat' := by simpa using h1'
      show ((st.ptrs.set k _)[k]?.join).bind _ = _
      rw [List.getElem?_set_self hlen]
      show ((st.heap ++ _)[st.heap.length]?).join = _
      rw [List.getElem?_concat_length]
      rfl
  · rw [if_neg hm]
    have hu : ¬ UsesModel mats matOf k := by
      rintro ⟨mat', m', a, b, c⟩
      rw [h1] at a
      obtain rfl : mat = mat' := by simpa using a
      rw [h2] at b
      obtain rfl : m = m' := by simpa using b
      exact hm c
    refine ⟨st, rfl, ⟨hst.len, hst.le, ?_, ?_, hst.inj, ?_⟩, rfl, rfl, fun _ _ => rfl, fun _ _ => rfl, ?_⟩
    · intro e he hue
      exact hst.used e (by
        have : e ≠ k := by rintro rfl; exact hu hue
        omega) hue
    · intro e he hc
      refine hst.free e he ?_
      rcases hc with hc | hc
      · exact .inl (by omega)
      · exact .inr hc
    · intro p a b
      obtain ⟨e, he, h⟩ := hst.cover p a b
      exact ⟨e, by omega, h⟩
    · intro mat' m' a b c
      exact absurd ⟨mat', m', h1.trans a, b, c⟩ hu

theorem linkInit_ok {S : Type} (cell : LinkCell S) (mats : List LinkMat) (matOf : List ℕ) (n : ℕ)
    (hmat : MatsOk mats matOf n)
    (hdev : ∀ e < n, ∀ mat m, matOf[e]? = some mat → mats[mat]? = some m → m.model = true → m.device = false)
    (st : LinkState S) :
    ∃ st', linkInit cell mats matOf n st = .ok st' ∧ LinkOk (UsesModel mats matOf) n n st.heap.length st' ∧
      st'.stress = st.stress ∧ st'.outs = st.outs ∧ (∀ p, p < st.heap.length → st'.heap[p]? = st.heap[p]?) ∧
      ∀ e < n, ∀ mat m, matOf[e]? = some mat → mats[mat]? = some m → m.model = true →
        st'.cellOf e = some (cell.make (linkFile mat)) := by
  have key : ∀ k ≤ n, ∃ st', (List.range k).foldlM (linkInitElem cell mats matOf)
        { st with ptrs := List.replicate n none } = .ok st' ∧
      LinkOk (UsesModel mats matOf) n k st.heap.length st' ∧
      st'.stress = st.stress ∧ st'.outs = st.outs ∧ (∀ p, p < st.heap.length → st'.heap[p]? = st.heap[p]?) ∧
      ∀ e < k, ∀ mat m, matOf[e]? = some mat → mats[mat]? = some m → m.model = true →
        st'.cellOf e = some (cell.make (linkFile mat)) := by
    intro k
    induction k with
    | zero =>
      intro _
      refine ⟨_, rfl, ⟨by simp, le_rfl, by simp, ?_, ?_, ?_⟩, rfl, rfl, fun _ _ => rfl, by simp⟩
      · intro e he _
        simp [he]
      · intro e e' p he
        simp [List.getElem?_replicate] at he
      · intro p a b
        exact absurd a (by simpa using b)
    | succ k ih =>
      intro hk
      obtain ⟨s1, e1, ok1, a1, b1, c1, d1⟩ := ih (by omega)
      obtain ⟨s2, e2, ok2, a2, b2, c2, d2, f2⟩ := linkInitElem_ok cell mats matOf n k _ (by omega) hmat
        (hdev k (by omega)) s1 ok1
      refine ⟨s2, ?_, ok2, a2.trans a1, b2.trans b1, ?_, ?_⟩
      · rw [List.range_succ, List.foldlM_append, e1]
        show ([k].foldlM (linkInitElem cell mats matOf) s1) = _
        rw [List.foldlM_cons, e2]
        rfl
      · intro p hp
        rw [c2 p (lt_of_lt_of_le hp ok1.le), c1 p hp]
      · intro e he mat m h1 h2 h3
        by_cases hek : e = k
        · subst hek
          exact f2 mat m h1 h2 h3
        · rw [d2 e (by omega)]
          exact d1 e (by omega) mat m h1 h2 h3
  exact key n le_rfl

/-! ### Calls -/

theorem linkCalc_ok {S : Type} (cell : LinkCell S) (globals : ℕ → ℝ) (uses : ℕ → Prop) (n h0 : ℕ) (st : LinkState S)
    (hst : LinkOk uses n n h0 st) (c : LinkCall) (hc : c.elem < n) (hu : uses c.elem) :
    ∃ st', linkCalc cell globals st c = .ok st' ∧ LinkOk uses n n h0 st' ∧
      (∀ p < h0, st'.heap[p]? = st.heap[p]?) ∧ st'.heap.length = st.heap.length ∧
      (∀ e < n, e ≠ c.elem → st'.cellOf e = st.cellOf e) ∧
      (∀ l e, e ≠ c.elem → st'.stress l e = st.stress l e) ∧
      (∀ e, e ≠ c.elem → st'.outs e = st.outs e) ∧
      ∃ s s', st.cellOf c.elem = some s ∧ st'.cellOf c.elem = some s' ∧
        OwnView.step cell globals ⟨s, fun l => st.stress l c.elem⟩ c = ⟨s', fun l => st'.stress l c.elem⟩ ∧
        ∀ k, st'.outs c.elem k = if h : k < 5 then cell.outs s' ⟨k, h⟩ else st.outs c.elem k := by
  obtain ⟨p, s, hp, hp0, hs⟩ := hst.used c.elem hc hu
  have hlt := (List.getElem?_eq_some_iff.mp hs).1
  have hcell : st.cellOf c.elem = some s := by
    unfold LinkState.cellOf
    rw [hp]
    show (st.heap[p]?).join = _
    rw [hs]
    rfl
  have hsol : cell.solveAt s (store9 farrayAt 0 c.velGrad fun _ => 0)
      (store9 farrayAt 0 (st.stress c.level c.elem) fun _ => 0) c.dt c.cycle c.elem (globals c.mat) =
      ((cell.solve s c.velGrad (st.stress c.level c.elem) c.dt c.cycle c.elem (globals c.mat)).1,
        store9 fmatrixAt 1 (cell.solve s c.velGrad (st.stress c.level c.elem) c.dt c.cycle c.elem (globals c.mat)).2
          (store9 farrayAt 0 (st.stress c.level c.elem) fun _ => 0)) := by
    unfold LinkCell.solveAt
    rw [store9_read, store9_read]
  unfold linkCalc
  rw [hp]
  simp only [hs, hsol]
  set r := cell.solve s c.velGrad (st.stress c.level c.elem) c.dt c.cycle c.elem (globals c.mat) with hr
  have hset : (st.heap.set p (some r.1))[p]? = some (some r.1) := List.getElem?_set_self hlt
  refine ⟨_, rfl, ⟨hst.len, ?_, ?_, hst.free, hst.inj, ?_⟩, ?_, ?_, ?_, ?_, ?_, s, r.1, hcell, ?_, ?_, ?_⟩
  · show h0 ≤ (st.heap.set p _).length
    rw [List.length_set]
    exact hst.le
  · intro e he hue
    obtain ⟨p', s', a, b, d⟩ := hst.used e he hue
    by_cases hpp : p = p'
    · subst hpp
      exact ⟨p, r.1, a, b, hset⟩
    · exact ⟨p', s', a, b, by
        show (st.heap.set p _)[p']? = _
        rw [List.getElem?_set_ne hpp]
        exact d⟩
  · intro p' a b
    change p' < (st.heap.set p _).length at b
    rw [List.length_set] at b
    exact hst.cover p' a b
  · intro p' hp'
    show (st.heap.set p _)[p']? = _
    rw [List.getElem?_set_ne (by omega)]
  · show (st.heap.set p _).length = _
    rw [List.length_set]
  · intro e he hne
    show (st.ptrs[e]?.join).bind (fun p' => ((st.heap.set p (some r.1))[p']?).join) = (st.ptrs[e]?.join).bind _
    cases h : st.ptrs[e]? with
    | none => rfl
    | some o => cases o with
      | none => rfl
      | some p' =>
        have hpp : p ≠ p' := by
          rintro rfl
          exact hne (hst.inj e c.elem p h hp)
        show ((st.heap.set p _)[p']?).join = (st.heap[p']?).join
        rw [List.getElem?_set_ne hpp]
  · intro l e hne
    show Function.update st.stress c.level _ l e = _
    by_cases hl : l = c.level
    · subst hl
      rw [Function.update_self, Function.update_of_ne hne]
    · rw [Function.update_of_ne hl]
  · intro e hne
    show Function.update st.outs c.elem _ e = _
    rw [Function.update_of_ne hne]
  · show (st.ptrs[c.elem]?.join).bind _ = _
    rw [hp]
    show ((st.heap.set p _)[p]?).join = _
    rw [hset]
    rfl
  · unfold OwnView.step
    refine congrArg (OwnView.mk r.1) ?_
    funext l
    show (if l = c.level then r.2 else st.stress l c.elem) = Function.update st.stress c.level _ l c.elem
    by_cases hl : l = c.level
    · subst hl
      rw [if_pos rfl, Function.update_self, Function.update_self]
      funext i j
      exact (store9_fmatrix _ _ i j).symm
    · rw [if_neg hl, Function.update_of_ne hl]
  · intro k
    show Function.update st.outs c.elem _ c.elem k = _
    rw [Function.update_self]

theorem callsTo_cons (e : ℕ) (c : LinkCall) (cs : List LinkCall) :
    callsTo e (c :: cs) = if c.elem = e then c :: callsTo e cs else callsTo e cs := by
  unfold callsTo
  rw [List.filter_cons]
  simp

theorem linkCalls_ok {S : Type} (cell : LinkCell S) (globals : ℕ → ℝ) (uses : ℕ → Prop) (n h0 : ℕ)
    (calls : List LinkCall) : ∀ (st : LinkState S), LinkOk uses n n h0 st →
    (∀ c ∈ calls, c.elem < n ∧ uses c.elem) →
    ∃ st', linkCalls cell globals calls st = .ok st' ∧ LinkOk uses n n h0 st' ∧
      (∀ p < h0, st'.heap[p]? = st.heap[p]?) ∧ st'.heap.length = st.heap.length ∧
      (∀ e < n, uses e → ∃ s s', st.cellOf e = some s ∧ st'.cellOf e = some s' ∧
        OwnView.after cell globals e ⟨s, fun l => st.stress l e⟩ calls = ⟨s', fun l => st'.stress l e⟩ ∧
        ∀ k (h : k < 5), callsTo e calls ≠ [] → st'.outs e k = cell.outs s' ⟨k, h⟩) ∧
      (∀ e, callsTo e calls = [] → (∀ l, st'.stress l e = st.stress l e) ∧ st'.outs e = st.outs e) := by
  induction calls with
  | nil =>
    intro st hst _
    refine ⟨st, rfl, hst, fun _ _ => rfl, rfl, ?_, fun e _ => ⟨fun _ => rfl, rfl⟩⟩
    intro e he hu
    obtain ⟨p, s, hp, -, hs⟩ := hst.used e he hu
    have hcell : st.cellOf e = some s := by
      unfold LinkState.cellOf
      rw [hp]
      show (st.heap[p]?).join = _
      rw [hs]
      rfl
    exact ⟨s, s, hcell, hcell, rfl, fun k h hne => absurd rfl hne⟩
  | cons c cs ih =>
    intro st hst hc
    obtain ⟨s1, e1, ok1, h1, hl1, o1, t1, u1, s, s', g1, g2, g3, g4⟩ := linkCalc_ok cell globals uses n h0 st hst c
      (hc c (by simp)).1 (hc c (by simp)).2
    obtain ⟨s2, e2, ok2, h2, hl2, k2, t2⟩ := ih s1 ok1 fun x hx => hc x (by simp [hx])
    refine ⟨s2, ?_, ok2, fun p hp => (h2 p hp).trans (h1 p hp), hl2.trans hl1, ?_, ?_⟩
    · unfold linkCalls at e2 ⊢
      rw [List.foldlM_cons, e1]
      exact e2
    · intro e he hu
      obtain ⟨a, a', b, b', d, f⟩ := k2 e he hu
      by_cases hce : c.elem = e
      · subst hce
        rw [g2] at b
        obtain rfl : s' = a := by simpa using b
        refine ⟨s, a', g1, b', ?_, ?_⟩
        · rw [OwnView.after, callsTo_cons, if_pos rfl, List.foldl_cons, g3]
          exact d
        · intro k hk _
          by_cases hn : callsTo c.elem cs = []
          · rw [(t2 _ hn).2, g4, dif_pos hk]
            rw [OwnView.after, hn] at d
            have : s' = a' := congrArg OwnView.cell d
            rw [this]
          · exact f k hk hn
      · rw [o1 e he (Ne.symm hce)] at b
        refine ⟨a, a', b, b', ?_, ?_⟩
        · rw [OwnView.after, callsTo_cons, if_neg hce, ← OwnView.after, ← d]
          congr 2
          funext l
          exact (t1 l e (Ne.symm hce)).symm
        · intro k hk hn
          rw [callsTo_cons, if_neg hce] at hn
          exact f k hk hn
    · intro e hn
      rw [callsTo_cons] at hn
      by_cases hce : c.elem = e
      · rw [if_pos hce] at hn
        exact absurd hn (by simp)
      · rw [if_neg hce] at hn
        exact ⟨fun l => ((t2 e hn).1 l).trans (t1 l e (Ne.symm hce)), ((t2 e hn).2).trans (u1 e (Ne.symm hce))⟩

/-! ### Properties -/

/-- **C136.** Once set up, every element with the model has a unit cell of its own, made from the file of its
material.  After any calls, in any order among the elements, its unit cell and its stress are what its own calls
alone make of them, and its outputs those of its unit cell; nothing is written for other elements. -/
theorem C136_run {S : Type} (cell : LinkCell S) (globals : ℕ → ℝ) (mats : List LinkMat) (matOf : List ℕ) (n : ℕ)
    (hmat : MatsOk mats matOf n)
    (hdev : ∀ e < n, ∀ mat m, matOf[e]? = some mat → mats[mat]? = some m → m.model = true → m.device = false)
    (st : LinkState S) (calls : List LinkCall) (hc : ∀ c ∈ calls, c.elem < n ∧ UsesModel mats matOf c.elem) :
    ∃ st', ((linkInit cell mats matOf n st) >>= linkCalls cell globals calls) = .ok st' ∧
      (∀ e < n, ∀ mat m, matOf[e]? = some mat → mats[mat]? = some m → m.model = true →
        let x := OwnView.after cell globals e ⟨cell.make (linkFile mat), fun l => st.stress l e⟩ calls
        st'.cellOf e = some x.cell ∧ (∀ l, st'.stress l e = x.stress l) ∧
        (callsTo e calls ≠ [] → ∀ k : Fin 5, st'.outs e k = cell.outs x.cell k)) ∧
      (∀ e, callsTo e calls = [] → (∀ l, st'.stress l e = st.stress l e) ∧ st'.outs e = st.outs e) ∧
      (∀ e < n, ¬ UsesModel mats matOf e → st'.cellOf e = none) := by
  obtain ⟨s1, e1, ok1, a1, b1, -, d1⟩ := linkInit_ok cell mats matOf n hmat hdev st
  obtain ⟨s2, e2, ok2, -, -, k2, t2⟩ := linkCalls_ok cell globals _ n _ calls s1 ok1 hc
  refine ⟨s2, ?_, ?_, ?_, ?_⟩
  · rw [e1]
    exact e2
  · intro e he mat m h1 h2 h3
    obtain ⟨s, s', c1, c2, c3, c4⟩ := k2 e he ⟨mat, m, h1, h2, h3⟩
    rw [d1 e he mat m h1 h2 h3] at c1
    obtain rfl : cell.make (linkFile mat) = s := by simpa using c1
    rw [a1] at c3
    intro x
    have hx : x = ⟨s', fun l => s2.stress l e⟩ := c3
    rw [hx]
    exact ⟨c2, fun _ => rfl, fun hn k => c4 k k.isLt hn⟩
  · intro e hn
    rw [← a1, ← b1]
    exact t2 e hn
  · intro e he hu
    unfold LinkState.cellOf
    rw [ok2.free e he (.inr hu)]
    rfl

/-- **C136.** The order of calls to different elements makes no difference: it is enough that each element gets its
own calls in the same order. -/
theorem C136_order {S : Type} (cell : LinkCell S) (globals : ℕ → ℝ) (mats : List LinkMat) (matOf : List ℕ) (n : ℕ)
    (hmat : MatsOk mats matOf n)
    (hdev : ∀ e < n, ∀ mat m, matOf[e]? = some mat → mats[mat]? = some m → m.model = true → m.device = false)
    (st : LinkState S) (calls calls' : List LinkCall) (hc : ∀ c ∈ calls, c.elem < n ∧ UsesModel mats matOf c.elem)
    (hsame : ∀ e, callsTo e calls = callsTo e calls') (a b : LinkState S)
    (ha : (linkInit cell mats matOf n st) >>= linkCalls cell globals calls = .ok a)
    (hb : (linkInit cell mats matOf n st) >>= linkCalls cell globals calls' = .ok b) :
    ∀ e < n, a.cellOf e = b.cellOf e ∧ ∀ l, a.stress l e = b.stress l e := by
  have hc' : ∀ c ∈ calls', c.elem < n ∧ UsesModel mats matOf c.elem := by
    intro c hcm
    have h1 : c ∈ callsTo c.elem calls' := List.mem_filter.mpr ⟨hcm, by simp⟩
    rw [← hsame] at h1
    exact hc c (List.mem_filter.mp h1).1
  obtain ⟨a', ea, fa, ga, na⟩ := C136_run cell globals mats matOf n hmat hdev st calls hc
  obtain ⟨b', eb, fb, gb, nb⟩ := C136_run cell globals mats matOf n hmat hdev st calls' hc'
  obtain rfl : a' = a := by rw [ha] at ea; exact (Except.ok.inj ea).symm
  obtain rfl : b' = b := by rw [hb] at eb; exact (Except.ok.inj eb).symm
  intro e he
  by_cases hu : UsesModel mats matOf e
  · obtain ⟨mat, m, h1, h2, h3⟩ := hu
    obtain ⟨p1, p2, -⟩ := fa e he mat m h1 h2 h3
    obtain ⟨q1, q2, -⟩ := fb e he mat m h1 h2 h3
    have : OwnView.after cell globals e ⟨cell.make (linkFile mat), fun l => st.stress l e⟩ calls =
        OwnView.after cell globals e ⟨cell.make (linkFile mat), fun l => st.stress l e⟩ calls' := by
      unfold OwnView.after
      rw [hsame]
    exact ⟨by rw [p1, q1, this], fun l => by rw [p2, q2, this]⟩
  · have h0 : callsTo e calls = [] := by
      rw [callsTo, List.filter_eq_nil_iff]
      intro c hcm h
      have h : c.elem = e := by simpa using h
      exact hu (h ▸ (hc c hcm).2)
    exact ⟨by rw [na e he hu, nb e he hu], fun l => by rw [(ga e h0).1, (gb e (hsame e ▸ h0)).1]⟩

/-- **C136.** Different materials read different files. -/
theorem C136_files (m m' : ℕ) (h : linkFile m = linkFile m') : m = m' := by
  unfold linkFile at h
  have := fmtNat_inj (List.append_cancel_left (List.append_cancel_right h))
  omega

/-- **C136.** The set-up stops with its message exactly when an element with the model has a material that runs on the
device. -/
theorem C136_device {S : Type} (cell : LinkCell S) (mats : List LinkMat) (matOf : List ℕ) (n : ℕ)
    (hmat : MatsOk mats matOf n) (st : LinkState S) :
    linkInit cell mats matOf n st = .error .device ↔
      ∃ e < n, ∃ mat m, matOf[e]? = some mat ∧ mats[mat]? = some m ∧ m.model = true ∧ m.device = true := by
  constructor
  · intro h
    by_contra hno
    have hdev : ∀ e < n, ∀ mat m, matOf[e]? = some mat → mats[mat]? = some m → m.model = true → m.device = false := by
      intro e he mat m h1 h2 h3
      by_contra h4
      exact hno ⟨e, he, mat, m, h1, h2, h3, by simpa using h4⟩
    obtain ⟨s1, e1, -⟩ := linkInit_ok cell mats matOf n hmat hdev st
    rw [e1] at h
    exact absurd h (by simp)
  · have key : ∀ k ≤ n, (∃ e < k, ∃ mat m, matOf[e]? = some mat ∧ mats[mat]? = some m ∧ m.model = true ∧
        m.device = true) → ∀ s0 : LinkState S,
        (List.range k).foldlM (linkInitElem cell mats matOf) s0 = .error .device := by
      intro k
      induction k with
      | zero => rintro _ ⟨e, he, -⟩; omega
      | succ k ih =>
        rintro hk ⟨e, he, mat, m, h1, h2, h3, h4⟩ s0
        rw [List.range_succ, List.foldlM_append]
        by_cases hb : ∃ e < k, ∃ mat m, matOf[e]? = some mat ∧ mats[mat]? = some m ∧ m.model = true ∧ m.device = true
        · rw [ih (by omega) hb s0]
          rfl
        · have hek : e = k := by
            by_contra hne
            exact hb ⟨e, by omega, mat, m, h1, h2, h3, h4⟩
          subst hek
          have hok : ∀ j ≤ e, ∀ s0 : LinkState S, ∃ s1, (List.range j).foldlM (linkInitElem cell mats matOf) s0 = .ok s1 := by
            intro j
            induction j with
            | zero => exact fun _ s0 => ⟨s0, rfl⟩
            | succ j ihj =>
              intro hj s0
              obtain ⟨s1, hs1⟩ := ihj (by omega) s0
              obtain ⟨mat', m', a, b⟩ := hmat j (by omega)
              have hel : ∃ s2, linkInitElem cell mats matOf s1 j = .ok s2 := by
                unfold linkInitElem
                rw [a]
                simp only [b]
                by_cases hm : m'.model = true
                · by_cases hd : m'.device = true
                  · exact absurd ⟨j, by omega, mat', m', a, b, hm, hd⟩ hb
                  · rw [if_pos hm, if_neg hd]
                    exact ⟨_, rfl⟩
                · rw [if_neg hm]
                  exact ⟨_, rfl⟩
              obtain ⟨s2, hs2⟩ := hel
              refine ⟨s2, ?_⟩
              rw [List.range_succ, List.foldlM_append, hs1]
              show ([j].foldlM (linkInitElem cell mats matOf) s1) = _
              rw [List.foldlM_cons, hs2]
              rfl
          obtain ⟨s1, hs1⟩ := hok e le_rfl s0
          rw [hs1]
          show ([e].foldlM (linkInitElem cell mats matOf) s1) = _
          have : linkInitElem cell mats matOf s1 e = .error .device := by
            unfold linkInitElem
            rw [h1]
            simp only [h2]
            rw [if_pos h3, if_pos h4]
          rw [List.foldlM_cons, this]
          rfl
    intro h
    exact key n le_rfl h _

/-- **C136.** A call for an element without the model is refused with its message, whatever happened before. -/
theorem C136_refused {S : Type} (cell : LinkCell S) (globals : ℕ → ℝ) (mats : List LinkMat) (matOf : List ℕ) (n : ℕ)
    (hmat : MatsOk mats matOf n) (st : LinkState S) (calls : List LinkCall)
    (hc : ∀ c ∈ calls, c.elem < n ∧ UsesModel mats matOf c.elem) (a : LinkState S)
    (ha : (linkInit cell mats matOf n st) >>= linkCalls cell globals calls = .ok a) (c : LinkCall) (he : c.elem < n)
    (hu : ¬ UsesModel mats matOf c.elem) : linkCalc cell globals a c = .error .notInit := by
  have hdev : ∀ e < n, ∀ mat m, matOf[e]? = some mat → mats[mat]? = some m → m.model = true → m.device = false := by
    intro e he mat m h1 h2 h3
    by_contra h4
    have := (C136_device cell mats matOf n hmat st).mpr ⟨e, he, mat, m, h1, h2, h3, by simpa using h4⟩
    rw [this] at ha
    exact absurd ha (by simp [bind, Except.bind])
  obtain ⟨s1, e1, ok1, -⟩ := linkInit_ok cell mats matOf n hmat hdev st
  obtain ⟨s2, e2, ok2, -⟩ := linkCalls_ok cell globals _ n _ calls s1 ok1 hc
  rw [e1] at ha
  have ha : linkCalls cell globals calls s1 = .ok a := ha
  obtain rfl : s2 = a := by rw [e2] at ha; exact Except.ok.inj ha
  unfold linkCalc
  rw [ok2.free c.elem he (.inr hu)]

/-! ### End of a run -/

theorem linkDestroy_ok {S : Type} (uses : ℕ → Prop) (n h0 : ℕ) (st : LinkState S) (hst : LinkOk uses n n h0 st) :
    ∃ st', linkDestroy n st = .ok st' ∧ st'.ptrs = st.ptrs ∧ st'.stress = st.stress ∧ st'.outs = st.outs ∧
      st'.heap.length = st.heap.length ∧ (∀ p < h0, st'.heap[p]? = st.heap[p]?) ∧
      ∀ p, h0 ≤ p → p < st.heap.length → st'.heap[p]? = some none := by
  have key : ∀ k ≤ n, ∃ st', (List.range k).foldlM linkDelete st = .ok st' ∧ st'.ptrs = st.ptrs ∧
      st'.stress = st.stress ∧ st'.outs = st.outs ∧ st'.heap.length = st.heap.length ∧
      (∀ p < h0, st'.heap[p]? = st.heap[p]?) ∧
      (∀ e < k, ∀ p, st.ptrs[e]? = some (some p) → st'.heap[p]? = some none) ∧
      ∀ e, k ≤ e → ∀ p, st.ptrs[e]? = some (some p) → st'.heap[p]? = st.heap[p]? := by
    intro k
    induction k with
    | zero => exact fun _ => ⟨st, rfl, rfl, rfl, rfl, rfl, fun _ _ => rfl, by simp, fun _ _ _ _ => rfl⟩
    | succ k ih =>
      intro hk
      obtain ⟨s1, e1, a1, b1, c1, d1, f1, g1, i1⟩ := ih (by omega)
      have hstep : ∃ s2, linkDelete s1 k = .ok s2 ∧ s2.ptrs = s1.ptrs ∧ s2.stress = s1.stress ∧ s2.outs = s1.outs ∧
          s2.heap.length = s1.heap.length ∧ (∀ p < h0, s2.heap[p]? = s1.heap[p]?) ∧
          (∀ p, st.ptrs[k]? = some (some p) → s2.heap[p]? = some none) ∧
          ∀ e, e ≠ k → ∀ p, st.ptrs[e]? = some (some p) → s2.heap[p]? = s1.heap[p]? := by
        unfold linkDelete
        rw [a1]
        by_cases hu : uses k
        · obtain ⟨p, s, hp, hp0, hs⟩ := hst.used k (by omega) hu
          have hs1 : s1.heap[p]? = some (some s) := (i1 k le_rfl p hp).trans hs
          rw [hp]
          simp only [hs1]
          refine ⟨_, rfl, a1.symm ▸ rfl, rfl, rfl, List.length_set, ?_, ?_, ?_⟩
          · intro p' hp'
            show (s1.heap.set p none)[p']? = _
            rw [List.getElem?_set_ne (by omega)]
          · intro p' hp'
            obtain rfl : p = p' := by simpa using hp'
            exact List.getElem?_set_self (List.getElem?_eq_some_iff.mp hs1).1
          · intro e hne p' hp'
            have : p ≠ p' := by
              rintro rfl
              exact hne (hst.inj e k p hp' hp)
            show (s1.heap.set p none)[p']? = _
            rw [List.getElem?_set_ne this]
        · rw [hst.free k (by omega) (.inr hu)]
          exact ⟨s1, rfl, a1.symm ▸ rfl, rfl, rfl, rfl, fun _ _ => rfl, by simp, fun _ _ _ _ => rfl⟩
      obtain ⟨s2, e2, a2, b2, c2, d2, f2, g2, i2⟩ := hstep
      refine ⟨s2, ?_, a2.trans a1, b2.trans b1, c2.trans c1, d2.trans d1, fun p hp => (f2 p hp).trans (f1 p hp), ?_, ?_⟩
      · rw [List.range_succ, List.foldlM_append, e1]
        show ([k].foldlM linkDelete s1) = _
        rw [List.foldlM_cons, e2]
        rfl
      · intro e he p hp
        by_cases hek : e = k
        · subst hek
          exact g2 p hp
        · rw [i2 e hek p hp]
          exact g1 e (by omega) p hp
      · intro e he p hp
        rw [i2 e (by omega) p hp]
        exact i1 e (by omega) p hp
  obtain ⟨s', e, a, b, c, d, f, g, -⟩ := key n le_rfl
  refine ⟨s', e, a, b, c, d, f, fun p h1 h2 => ?_⟩
  obtain ⟨x, hx, -, hp⟩ := hst.cover p h1 h2
  exact g x hx p hp

/-- **C136.** At the end every unit cell of the run is deleted, once, and stresses and outputs stay. -/
theorem C136_end {S : Type} (cell : LinkCell S) (globals : ℕ → ℝ) (mats : List LinkMat) (matOf : List ℕ) (n : ℕ)
    (hmat : MatsOk mats matOf n) (st : LinkState S) (calls : List LinkCall)
    (hc : ∀ c ∈ calls, c.elem < n ∧ UsesModel mats matOf c.elem) (a : LinkState S)
    (ha : (linkInit cell mats matOf n st) >>= linkCalls cell globals calls = .ok a) :
    ∃ b, linkDestroy n a = .ok b ∧ b.stress = a.stress ∧ b.outs = a.outs ∧
      (∀ p, st.heap.length ≤ p → p < b.heap.length → b.heap[p]? = some none) ∧
      ∀ p, p < st.heap.length → b.heap[p]? = st.heap[p]? := by
  have hdev : ∀ e < n, ∀ mat m, matOf[e]? = some mat → mats[mat]? = some m → m.model = true → m.device = false := by
    intro e he mat m h1 h2 h3
    by_contra h4
    have := (C136_device cell mats matOf n hmat st).mpr ⟨e, he, mat, m, h1, h2, h3, by simpa using h4⟩
    rw [this] at ha
    exact absurd ha (by simp [bind, Except.bind])
  obtain ⟨s1, e1, ok1, -, -, o1, -⟩ := linkInit_ok cell mats matOf n hmat hdev st
  obtain ⟨s2, e2, ok2, o2, -⟩ := linkCalls_ok cell globals _ n _ calls s1 ok1 hc
  rw [e1] at ha
  have ha : linkCalls cell globals calls s1 = .ok a := ha
  obtain rfl : s2 = a := by rw [e2] at ha; exact Except.ok.inj ha
  obtain ⟨b, e3, -, b3, c3, d3, f3, g3⟩ := linkDestroy_ok _ n _ s2 ok2
  exact ⟨b, e3, b3, c3, fun p h1 h2 => g3 p h1 (d3 ▸ h2), fun p hp => by rw [f3 p hp, o2 p hp, o1 p hp]⟩

/-- Finding: `destroy` leaves the pointers, so a call or a second `destroy` after it works on deleted objects and is
not refused. -/
theorem C136_after_end_fails {S : Type} (cell : LinkCell S) (globals : ℕ → ℝ) (mats : List LinkMat) (matOf : List ℕ)
    (n : ℕ) (hmat : MatsOk mats matOf n)
    (hdev : ∀ e < n, ∀ mat m, matOf[e]? = some mat → mats[mat]? = some m → m.model = true → m.device = false)
    (st : LinkState S) (c : LinkCall) (he : c.elem < n) (hu : UsesModel mats matOf c.elem) :
    ((linkInit cell mats matOf n st) >>= linkDestroy n) >>= (fun a => linkCalc cell globals a c) = .error .ub := by
  obtain ⟨s1, e1, ok1, -⟩ := linkInit_ok cell mats matOf n hmat hdev st
  obtain ⟨b, e3, a3, -, -, d3, -, g3⟩ := linkDestroy_ok _ n _ s1 ok1
  obtain ⟨p, s, hp, hp0, hs⟩ := ok1.used c.elem he hu
  rw [e1]
  show (linkDestroy n s1 >>= _) = _
  rw [e3]
  show linkCalc cell globals b c = _
  unfold linkCalc
  rw [a3, hp]
  simp only [g3 p hp0 (List.getElem?_eq_some_iff.mp hs).1]

/-- Finding: a second set-up replaces the pointers without deleting what they point to; the objects of the first one
are never deleted. -/
theorem C136_again_fails {S : Type} (cell : LinkCell S) (mats : List LinkMat) (matOf : List ℕ)
    (n : ℕ) (hmat : MatsOk mats matOf n)
    (hdev : ∀ e < n, ∀ mat m, matOf[e]? = some mat → mats[mat]? = some m → m.model = true → m.device = false)
    (st : LinkState S) (e : ℕ) (he : e < n) (hu : UsesModel mats matOf e) :
    ∃ b, ((linkInit cell mats matOf n st >>= linkInit cell mats matOf n) >>= linkDestroy n) = .ok b ∧
      ∃ p s, b.heap[p]? = some (some s) ∧ ∀ e' < n, b.ptrs[e']? ≠ some (some p) := by
  obtain ⟨s1, e1, ok1, -⟩ := linkInit_ok cell mats matOf n hmat hdev st
  obtain ⟨s2, e2, ok2, -, -, o2, -⟩ := linkInit_ok cell mats matOf n hmat hdev s1
  obtain ⟨b, e3, a3, -, -, -, f3, -⟩ := linkDestroy_ok _ n _ s2 ok2
  obtain ⟨p, s, hp, hp0, hs⟩ := ok1.used e he hu
  have hlt := (List.getElem?_eq_some_iff.mp hs).1
  refine ⟨b, ?_, p, s, ?_, ?_⟩
  · rw [e1]
    show (linkInit cell mats matOf n s1 >>= _) = _
    rw [e2]
    exact e3
  · rw [f3 p hlt, o2 p hlt, hs]
  · intro e' he' h
    rw [a3] at h
    by_cases hu' : UsesModel mats matOf e'
    · obtain ⟨p', s', hp', hp0', -⟩ := ok2.used e' he' hu'
      rw [hp'] at h
      obtain rfl : p' = p := by simpa using h
      omega
    · rw [ok2.free e' he' (.inr hu')] at h
      exact absurd h (by simp)

/-! ### Deformation of the unit cells -/

theorem couple_after (q : BasisConst ℝ) (avg : CoupleState → CoupleAvg) (sc : CoupleState → HostCall → T2 ℝ)
    (outs : CoupleState → Fin 5 → ℝ) (globals : ℕ → ℝ) (th : ℝ) (σ : ℕ → T2 ℝ) (cs : List LinkCall)
    (hth : ∀ c ∈ cs, globals c.mat = th) :
    ∃ full : List (HostCall × CoupleAvg × T2 ℝ × T2 ℝ), full.map Prod.fst = cs.map (fun c => ⟨c.velGrad, c.dt⟩) ∧
      (cs.foldl (OwnView.step (coupleCell q avg sc outs) globals) ⟨CoupleState.init, σ⟩).cell = coupleRun q th full := by
  induction cs using List.reverseRecOn with
  | nil => exact ⟨[], rfl, rfl⟩
  | append_singleton cs c ih =>
    obtain ⟨full, h1, h2⟩ := ih fun x hx => hth x (by simp [hx])
    obtain ⟨y, hy⟩ : ∃ y, y = cs.foldl (OwnView.step (coupleCell q avg sc outs) globals) ⟨CoupleState.init, σ⟩ := ⟨_, rfl⟩
    refine ⟨full ++ [(⟨c.velGrad, c.dt⟩, avg y.cell, sc y.cell ⟨c.velGrad, c.dt⟩, y.stress c.level)], ?_, ?_⟩
    · rw [List.map_append, List.map_append, h1]
      rfl
    · rw [List.foldl_append, ← hy]
      unfold coupleRun
      rw [List.foldl_append]
      show (coupleCall q (globals c.mat) _ _ y.cell _ _).1 = (coupleCall q th _ _ (coupleRun q th full) _ _).1
      rw [← h2, ← hy, hth c (by simp)]

open Classical in
/-- **C136.** With the unit cells of the crystal plasticity code, through any calls to any elements, each unit cell has
received the deformation of the calls to its own element (those of at least the smallest rate), but for what it still
holds back. -/
theorem C136_deformation (q : BasisConst ℝ) (avg : CoupleState → CoupleAvg) (sc : CoupleState → HostCall → T2 ℝ)
    (outs : CoupleState → Fin 5 → ℝ) (globals : ℕ → ℝ) (mats : List LinkMat) (matOf : List ℕ) (n : ℕ)
    (hmat : MatsOk mats matOf n)
    (hdev : ∀ e < n, ∀ mat m, matOf[e]? = some mat → mats[mat]? = some m → m.model = true → m.device = false)
    (st : LinkState CoupleState) (calls : List LinkCall)
    (hc : ∀ c ∈ calls, c.elem < n ∧ UsesModel mats matOf c.elem ∧ matOf[c.elem]? = some c.mat ∧ 0 < c.dt)
    (e : ℕ) (he : e < n) (hu : UsesModel mats matOf e) :
    ∃ st' x, ((linkInit (coupleCell q avg sc outs) mats matOf n st) >>=
        linkCalls (coupleCell q avg sc outs) globals calls) = .ok st' ∧ st'.cellOf e = some x ∧
      ∀ i j, (x.solved.map fun s => s.1 i j * s.2).sum + x.acc i j =
        (((callsTo e calls).filter fun c : LinkCall => ¬ (⟨c.velGrad, c.dt⟩ : HostCall).negligible).map
          fun c => c.velGrad i j * c.dt).sum := by
  obtain ⟨st', e1, f1, -, -⟩ := C136_run (coupleCell q avg sc outs) globals mats matOf n hmat hdev st calls
    fun c h => ⟨(hc c h).1, (hc c h).2.1⟩
  obtain ⟨mat, m, h1, h2, h3⟩ := hu
  obtain ⟨a, -, -⟩ := f1 e he mat m h1 h2 h3
  have hmem : ∀ c ∈ callsTo e calls, c ∈ calls ∧ c.elem = e := fun c h => by
    have := List.mem_filter.mp h
    exact ⟨this.1, by simpa using this.2⟩
  obtain ⟨full, g1, g2⟩ := couple_after q avg sc outs globals (globals mat) (fun l => st.stress l e) (callsTo e calls)
    fun c h => by
      obtain ⟨p1, p2⟩ := hmem c h
      have := (hc c p1).2.2.1
      rw [p2, h1] at this
      rw [Option.some.inj this]
  refine ⟨st', _, e1, a, fun i j => ?_⟩
  have hx : (OwnView.after (coupleCell q avg sc outs) globals e
      ⟨(coupleCell q avg sc outs).make (linkFile mat), fun l => st.stress l e⟩ calls).cell = coupleRun q (globals mat) full := g2
  rw [hx, C75_deformation_delivered q (globals mat) full ?_ i j]
  · unfold effective
    rw [g1, List.filter_map, List.map_map]
    rfl
  · intro x hxm
    have : x.1 ∈ full.map Prod.fst := List.mem_map_of_mem hxm
    rw [g1] at this
    obtain ⟨c, hcm, hce⟩ := List.mem_map.mp this
    rw [← hce]
    exact (hc c (hmem c hcm).1).2.2.2

/-- Finding: `calc_stress` passes the whole time increment in every stage of the time integration ("since using
rk_num_stages = 1"): with two stages the unit cell is deformed twice in one cycle. -/
theorem C136_two_stages_fails (q : BasisConst ℝ) (avg : CoupleState → CoupleAvg) (sc : CoupleState → HostCall → T2 ℝ)
    (outs : CoupleState → Fin 5 → ℝ) (globals : ℕ → ℝ) (st : LinkState CoupleState) (L : T2 ℝ) (dt : ℝ) (hdt : 0 < dt)
    (hL : ¬ (⟨L, dt⟩ : HostCall).negligible) :
    ∃ st' x, ((linkInit (coupleCell q avg sc outs) [⟨true, false⟩] [0] 1 st) >>=
        linkCalls (coupleCell q avg sc outs) globals [⟨0, 0, 1, L, dt, 0⟩, ⟨0, 0, 1, L, dt, 0⟩]) = .ok st' ∧
      st'.cellOf 0 = some x ∧ ∀ i j, (x.solved.map fun s => s.1 i j * s.2).sum + x.acc i j = 2 * (L i j * dt) := by
  have hm : MatsOk [⟨true, false⟩] [0] 1 := fun e he => by
    obtain rfl : e = 0 := by omega
    exact ⟨0, ⟨true, false⟩, rfl, rfl⟩
  have hu : UsesModel [⟨true, false⟩] [0] 0 := ⟨0, ⟨true, false⟩, rfl, rfl, rfl⟩
  obtain ⟨st', x, e1, a, b⟩ := C136_deformation q avg sc outs globals [⟨true, false⟩] [0] 1 hm (by
      intro e he mat m h1 h2 h3
      obtain rfl : e = 0 := by omega
      obtain rfl : 0 = mat := by simpa using h1
      obtain rfl : (⟨true, false⟩ : LinkMat) = m := by simpa using h2
      rfl) st [⟨0, 0, 1, L, dt, 0⟩, ⟨0, 0, 1, L, dt, 0⟩] (by
      intro c hc
      have : c = ⟨0, 0, 1, L, dt, 0⟩ := by simpa using hc
      subst this
      exact ⟨Nat.zero_lt_one, hu, rfl, hdt⟩) 0 Nat.zero_lt_one hu
  refine ⟨st', x, e1, a, fun i j => ?_⟩
  rw [b]
  have h2 : callsTo 0 [(⟨0, 0, 1, L, dt, 0⟩ : LinkCall), ⟨0, 0, 1, L, dt, 0⟩] =
    [⟨0, 0, 1, L, dt, 0⟩, ⟨0, 0, 1, L, dt, 0⟩] := rfl
  rw [h2]
  simp [hL]
  ring

/-! ### Output files -/

theorem writeAt_end (h r r' : List Char) (hl : r.length = r'.length) : writeAt (h ++ r) h.length r' = h ++ r' := by
  unfold writeAt
  rw [List.take_left' rfl, List.drop_of_length_le (by rw [List.length_append]; omega), List.append_nil]

/-- Finding: every unit cell opens the same output files for itself (unless built without output).  Of the rows of one
cycle, of equal length, only the one written last is left. -/
theorem C136_output_fails (heading : List Char) (rows : List (List Char)) (len : ℕ) (hl : ∀ r ∈ rows, r.length = len)
    (last : List Char) (hlast : last.length = len) :
    ((rows ++ [last]).zipIdx.foldl (fun f p => writeRow f p.2 p.1)
      ((List.range (rows.length + 1)).foldl (fun f _ => openCell heading f) ([], []))).1 = heading ++ last := by
  have hopen : ∀ k, (List.range (k + 1)).foldl (fun f _ => openCell heading f) ([], []) =
      (heading, List.replicate (k + 1) heading.length) := by
    intro k
    induction k with
    | zero => rfl
    | succ k ih =>
      rw [List.range_succ, List.foldl_append, ih]
      show openCell heading _ = _
      unfold openCell
      rw [List.replicate_succ' (n := k + 1)]
  have key : ∀ (rs : List (List Char)) (k : ℕ) (text : List Char) (pos : List ℕ), (∀ r ∈ rs, r.length = len) →
      (text.length = len ∨ text = []) → (∀ w, k ≤ w → w < k + rs.length → pos[w]? = some heading.length) →
      ((rs.zipIdx k).foldl (fun f p => writeRow f p.2 p.1) (heading ++ text, pos)).1 =
        heading ++ (rs.getLast?.getD text) := by
    intro rs
    induction rs with
    | nil => exact fun k text pos _ _ _ => rfl
    | cons r rs ih =>
      intro k text pos hr ht hpos
      rw [List.zipIdx_cons, List.foldl_cons]
      have h1 : writeRow (heading ++ text, pos) k r = (heading ++ r, pos.set k (heading.length + r.length)) := by
        unfold writeRow
        simp only [hpos k le_rfl (by simp)]
        congr 1
        rcases ht with ht | ht
        · exact writeAt_end _ _ _ (by rw [ht, hr r (by simp)])
        · subst ht
          unfold writeAt
          simp
      show ((rs.zipIdx (k + 1)).foldl _ (writeRow (heading ++ text, pos) k r)).1 = _
      rw [h1, ih (k + 1) r _ (fun x hx => hr x (by simp [hx])) (.inl (hr r (by simp)))]
      · cases rs with
        | nil => rfl
        | cons a as => rfl
      · intro w h2 h3
        rw [List.getElem?_set_ne (by omega)]
        exact hpos w (by omega) (by rw [List.length_cons]; omega)
  rw [hopen]
  have := key (rows ++ [last]) 0 [] (List.replicate (rows.length + 1) heading.length) (by
      intro r hr
      rcases List.mem_append.mp hr with h | h
      · exact hl r h
      · rw [List.mem_singleton.mp h, hlast]) (.inr rfl) (by
      intro w _ h
      rw [List.length_append, List.length_singleton] at h
      rw [List.getElem?_replicate, if_pos (by omega)])
  rw [List.append_nil] at this
  rw [this]
  simp

/-- Three elements, the middle one of another material: the hypotheses are met, and calls alternate between elements
0 and 2. -/
example : MatsOk [⟨true, false⟩, ⟨false, true⟩] [0, 1, 0] 3 ∧ UsesModel [⟨true, false⟩, ⟨false, true⟩] [0, 1, 0] 2 ∧
    ¬ UsesModel [⟨true, false⟩, ⟨false, true⟩] [0, 1, 0] 1 ∧
    (callsTo 2 [⟨0, 0, 1, fun _ _ => 1, 1, 0⟩, ⟨2, 0, 1, fun _ _ => 1, 1, 0⟩, ⟨0, 0, 1, fun _ _ => 2, 1, 1⟩]).length = 1 := by
  refine ⟨fun e he => ?_, ⟨0, ⟨true, false⟩, rfl, rfl, rfl⟩, ?_, by simp [callsTo]⟩
  · have : e = 0 ∨ e = 1 ∨ e = 2 := by omega
    rcases this with rfl | rfl | rfl
    · exact ⟨0, _, rfl, rfl⟩
    · exact ⟨1, _, rfl, rfl⟩
    · exact ⟨0, _, rfl, rfl⟩
  · rintro ⟨mat, m, h1, h2, h3⟩
    obtain rfl : 1 = mat := by simpa using h1
    obtain rfl : (⟨false, true⟩ : LinkMat) = m := by simpa using h2
    exact absurd h3 (by decide)

end Fierro
