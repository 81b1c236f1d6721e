import Verif.Model.AnnStrength
import Mathlib.Algebra.BigOperators.Group.List.Basic
import Mathlib.Algebra.Order.BigOperators.Group.List
import Mathlib.Data.List.Forall2
import Mathlib.Tactic.Linarith
import Mathlib.Tactic.Ring
import Mathlib.Tactic.Positivity
import Mathlib.Tactic.NormNum

/-!
# C134: the strength model with a neural network on the host
-/

namespace Fierro

/-! ## Specification -/

/-- One layer of a network with the logistic function: weighted sum of the inputs, plus the bias of the node. -/
noncomputable def netLayer (x : List ℝ) (numOut : ℕ) (w : ℕ → ℕ → ℝ) (bias : ℕ → ℝ) : List ℝ :=
  (List.range numOut).map fun j =>
    1 / (1 + Real.exp (-(((List.range x.length).map fun i => x.getD i 0 * w i j).sum + bias j)))

/-- A feed forward network: `bias l j` is the bias of node `j` of layer `l` (counted from `k`). -/
noncomputable def netOut (bias : ℕ → ℕ → ℝ) : ℕ → List AnnLayer → List ℝ → List ℝ
  | _, [], x => x
  | k, l :: ls, x => netOut bias (k + 1) ls (netLayer x l.numOut l.weights (bias k))

/-- The sizes of the layers fit together. -/
def AnnFits : ℕ → List AnnLayer → Prop
  | _, [] => True
  | n, l :: ls => l.numIn = n ∧ l.biases.length = l.numOut ∧ AnnFits l.numOut ls

/-- Each team takes every input of its layer once. -/
def AnnOrders (ords : List (ℕ → List ℕ)) (ls : List AnnLayer) : Prop :=
  List.Forall₂ (fun o (l : AnnLayer) => ∀ j, (o j).Perm (List.range l.numIn)) ords ls

/-! ## Helpers -/

theorem ann_foldl_sum (l : List ℝ) : l.foldl (· + ·) 0 = l.sum := by
  rw [List.sum_eq_foldl]

theorem ann_mapM {α β : Type} (l : List α) (f : α → Option β) (g : α → β) (h : ∀ a ∈ l, f a = some (g a)) :
    l.mapM f = some (l.map g) := by
  induction l with
  | nil => rfl
  | cons a l ih =>
    rw [List.mapM_cons, h a (by simp), ih fun b hb => h b (by simp [hb])]
    rfl

theorem ann_sum_const (l : List ℕ) (f : ℕ → ℝ) (c : ℝ) :
    (l.map fun i => f i + c).sum = (l.map f).sum + l.length * c := by
  induction l with
  | nil => simp
  | cons a l ih => simp only [List.map_cons, List.sum_cons, ih, List.length_cons]; push_cast; ring

theorem annForward_eq (ord : ℕ → List ℕ) (x : List ℝ) (n : ℕ) (w : ℕ → ℕ → ℝ) (b : List ℝ) (hb : n ≤ b.length)
    (ho : ∀ j, (ord j).Perm (List.range x.length)) :
    annForward ord x n w b = some (netLayer x n w fun j => x.length * b.getD j 0) := by
  unfold annForward netLayer
  apply ann_mapM
  intro j hj
  have hj : j < b.length := lt_of_lt_of_le (List.mem_range.1 hj) hb
  have h1 : ((ord j).mapM fun i => do
      let x ← x[i]?
      let c ← b[j]?
      pure (x * w i j + c)) = some ((ord j).map fun i => x.getD i 0 * w i j + b.getD j 0) := by
    apply ann_mapM
    intro i hi
    have hi : i < x.length := List.mem_range.1 ((ho j).mem_iff.1 hi)
    simp [hi, hj]
  rw [h1]
  simp only [Option.bind_eq_bind, Option.bind_some, annActivation, ann_foldl_sum]
  rw [ann_sum_const, (ho j).length_eq, List.length_range,
    ((ho j).map fun i => x.getD i 0 * w i j).sum_eq]
  rfl

theorem netLayer_length (x : List ℝ) (n : ℕ) (w : ℕ → ℕ → ℝ) (b : ℕ → ℝ) : (netLayer x n w b).length = n := by
  simp [netLayer]

theorem annLater_eq (b1 : List ℝ) (ords : List (ℕ → List ℕ)) (ls : List AnnLayer) (x : List ℝ) (k : ℕ)
    (sizes : ℕ → ℕ) (ho : AnnOrders ords ls) (hf : AnnFits x.length ls) (hw : ∀ l ∈ ls, l.numOut ≤ b1.length)
    (hs : ∀ i (h : i < ls.length), sizes (k + i) = (ls[i]).numIn) :
    annLater b1 (ords.zip ls) x = some (netOut (fun m j => sizes m * b1.getD j 0) k ls x) := by
  induction ho generalizing x k with
  | nil => rfl
  | @cons o l ords ls h _ ih =>
    obtain ⟨h1, _, h3⟩ := hf
    have hk : sizes k = x.length := by
      have := hs 0 (by simp)
      simpa [h1] using this
    rw [List.zip_cons_cons, annLater, annForward_eq o x l.numOut l.weights b1 (hw l (by simp)) (h1 ▸ h)]
    simp only [Option.bind_eq_bind, Option.bind_some, netOut, hk]
    refine ih _ _ (by rw [netLayer_length]; exact h3) (fun m hm => hw m (by simp [hm])) ?_
    intro i hi
    have := hs (i + 1) (by simp; omega)
    rw [show k + 1 + i = k + (i + 1) by ring]
    simpa using this

/-- **C134.**  For all sizes with no later layer wider than the first, all weights, biases, inputs and orders of the
reductions, a call computes a feed forward network with the logistic function whose biases are those of the first layer
times the number of inputs of the layer; the stress, the inputs and the layers are left alone. -/
theorem C134_network (ords : List (ℕ → List ℕ)) (s : AnnState) (l : AnnLayer) (ls : List AnnLayer)
    (hl : s.layers = l :: ls) (hf : AnnFits s.inputs.length s.layers) (ho : AnnOrders ords s.layers)
    (hw : ∀ m ∈ ls, m.numOut ≤ l.numOut) :
    annCalc ords s = some { s with outputs := netOut (fun k j =>
      ((s.layers.map AnnLayer.numIn).getD k 0 : ℕ) * l.biases.getD j 0) 0 s.layers s.inputs } := by
  rw [hl] at hf ho
  cases ho with
  | @cons o _ os _ h hos =>
    obtain ⟨h1, h2, h3⟩ := hf
    have hb : l.numOut ≤ l.biases.length := by omega
    unfold annCalc
    rw [hl]
    simp only
    rw [annForward_eq o s.inputs l.numOut l.weights l.biases hb (h1 ▸ h)]
    simp only [Option.bind_eq_bind, Option.bind_some]
    rw [annLater_eq l.biases os ls _ 1 (fun k => ((l :: ls).map AnnLayer.numIn).getD k 0) hos
      (by rw [netLayer_length]; exact h3) (fun m hm => le_trans (hw m hm) hb) ?_]
    · simp [netOut, h1]
    · intro i hi
      simp [Nat.add_comm 1 i, hi]

theorem netOut_congr (b b' : ℕ → ℕ → ℝ) (k : ℕ) (ls : List AnnLayer) (x : List ℝ)
    (h : ∀ i (hi : i < ls.length) j, j < (ls[i]).numOut → b (k + i) j = b' (k + i) j) :
    netOut b k ls x = netOut b' k ls x := by
  induction ls generalizing k x with
  | nil => rfl
  | cons l ls ih =>
    have e : netLayer x l.numOut l.weights (b k) = netLayer x l.numOut l.weights (b' k) := by
      unfold netLayer
      apply List.map_congr_left
      intro j hj
      have := h 0 (by simp) j (by simpa using hj)
      rw [Nat.add_zero] at this
      rw [this]
    rw [netOut, netOut, e]
    refine ih _ _ fun i hi j hj => ?_
    have := h (i + 1) (by simp; omega) j (by simpa using hj)
    rwa [show k + 1 + i = k + (i + 1) by ring]

/-- **C134.**  With all biases zero, as the initialisation leaves them, it is the network of the weights: the biases of each
layer are its own. -/
theorem C134_zero_bias (ords : List (ℕ → List ℕ)) (s : AnnState) (l : AnnLayer) (ls : List AnnLayer)
    (hl : s.layers = l :: ls) (hf : AnnFits s.inputs.length s.layers) (ho : AnnOrders ords s.layers)
    (hw : ∀ m ∈ ls, m.numOut ≤ l.numOut) (hz : ∀ m ∈ s.layers, ∀ c ∈ m.biases, c = 0) :
    annCalc ords s = some { s with outputs := netOut (fun k j =>
      ((s.layers.map AnnLayer.biases).getD k []).getD j 0) 0 s.layers s.inputs } := by
  rw [C134_network ords s l ls hl hf ho hw]
  congr 2
  apply netOut_congr
  intro i hi j hj
  have hz0 : ∀ (m : List ℝ), (∀ c ∈ m, c = 0) → m.getD j 0 = 0 := by
    intro m hm
    rw [List.getD_eq_getElem?_getD]
    cases h : m[j]? with
    | none => rfl
    | some c => exact hm c (List.mem_of_getElem? h)
  rw [hz0 l.biases (hz l (by rw [hl]; simp)), mul_zero]
  symm
  apply hz0
  rw [Nat.zero_add, List.getD_eq_getElem?_getD, List.getElem?_map, List.getElem?_eq_getElem hi]
  exact hz _ (List.getElem_mem hi)

theorem netLayer_range (x : List ℝ) (n : ℕ) (w : ℕ → ℕ → ℝ) (b : ℕ → ℝ) : ∀ y ∈ netLayer x n w b, 0 < y ∧ y < 1 := by
  intro y hy
  obtain ⟨j, _, rfl⟩ := List.mem_map.1 hy
  have h := Real.exp_pos (-(((List.range x.length).map fun i => x.getD i 0 * w i j).sum + b j))
  constructor
  · positivity
  · rw [div_lt_one (by positivity)]
    linarith

theorem netOut_range (b : ℕ → ℕ → ℝ) (k : ℕ) (ls : List AnnLayer) (x : List ℝ) (h : ls ≠ [] ∨ ∀ y ∈ x, 0 < y ∧ y < 1) :
    ∀ y ∈ netOut b k ls x, 0 < y ∧ y < 1 := by
  induction ls generalizing k x with
  | nil => rcases h with h | h; exact absurd rfl h; exact h
  | cons l ls ih => exact ih _ _ (Or.inr (netLayer_range _ _ _ _))

theorem netOut_length (b : ℕ → ℕ → ℝ) (k : ℕ) (l : AnnLayer) (ls : List AnnLayer) (x : List ℝ) :
    (netOut b k (l :: ls) x).length = ((l :: ls).getLast (by simp)).numOut := by
  induction ls generalizing k l x with
  | nil => simp [netOut, netLayer_length]
  | cons m ls ih => rw [netOut, ih]; simp

/-- **C134.**  The outputs are as many as the last layer has nodes and lie strictly between zero and one, for all weights and
biases. -/
theorem C134_range (ords : List (ℕ → List ℕ)) (s s' : AnnState) (l : AnnLayer) (ls : List AnnLayer)
    (hl : s.layers = l :: ls) (hf : AnnFits s.inputs.length s.layers) (ho : AnnOrders ords s.layers)
    (hw : ∀ m ∈ ls, m.numOut ≤ l.numOut) (h : annCalc ords s = some s') :
    s'.outputs.length = ((l :: ls).getLast (by simp)).numOut ∧ ∀ y ∈ s'.outputs, 0 < y ∧ y < 1 := by
  rw [C134_network ords s l ls hl hf ho hw] at h
  obtain rfl := Option.some.inj h
  refine ⟨?_, netOut_range _ _ _ _ (Or.inl (by rw [hl]; simp))⟩
  show (netOut _ 0 s.layers _).length = _
  rw [hl, netOut_length]

/-- **C134.**  The order of the reductions makes no difference. -/
theorem C134_order (o1 o2 : List (ℕ → List ℕ)) (s : AnnState) (l : AnnLayer) (ls : List AnnLayer)
    (hl : s.layers = l :: ls) (hf : AnnFits s.inputs.length s.layers) (h1 : AnnOrders o1 s.layers)
    (h2 : AnnOrders o2 s.layers) (hw : ∀ m ∈ ls, m.numOut ≤ l.numOut) : annCalc o1 s = annCalc o2 s := by
  rw [C134_network o1 s l ls hl hf h1 hw, C134_network o2 s l ls hl hf h2 hw]

theorem annInit_fits (n : ℕ) (ss : List ℕ) : AnnFits n (((n :: ss).zip ss).map fun p =>
    { numIn := p.1, numOut := p.2, weights := fun _ _ => 1, biases := List.replicate p.2 0 }) := by
  induction ss generalizing n with
  | nil => exact trivial
  | cons m ss ih => exact ⟨rfl, by simp, ih m⟩

/-- The value every node of a layer has after the initialisation: the logistic function of the number of inputs times the
value before. -/
noncomputable def annConstant : ℕ → List ℕ → ℝ → ℝ
  | _, [], v => v
  | n, m :: ss, v => annConstant m ss (1 / (1 + Real.exp (-((n : ℝ) * v))))

theorem netOut_constant (n : ℕ) (ss : List ℕ) (k : ℕ) (v : ℝ) :
    netOut (fun _ _ => 0) k (((n :: ss).zip ss).map fun p =>
      { numIn := p.1, numOut := p.2, weights := fun _ _ => 1, biases := List.replicate p.2 0 }) (List.replicate n v) =
      List.replicate ((n :: ss).getLast (by simp)) (annConstant n ss v) := by
  induction ss generalizing n k v with
  | nil => simp [netOut, annConstant]
  | cons m ss ih =>
    have e : netLayer (List.replicate n v) m (fun _ _ => 1) (fun _ => 0) =
        List.replicate m (1 / (1 + Real.exp (-((n : ℝ) * v)))) := by
      unfold netLayer
      apply List.ext_getElem
      · simp
      · intro i h1 h2
        have : ((List.range n).map fun i => (List.replicate n v).getD i 0 * 1).sum = (n : ℝ) * v := by
          rw [List.map_congr_left (g := fun _ => v)]
          · simp
          · intro a ha
            have ha := List.mem_range.1 ha
            simp [List.getD_eq_getElem?_getD, ha]
        simp only [List.getElem_map, List.getElem_replicate, List.length_replicate, this, add_zero]
    simp only [List.zip_cons_cons, List.map_cons, netOut]
    rw [e, ih]
    simp [annConstant]

/-- **C134.**  What the code computes as it stands: after the initialisation every call, for every material point, state,
stage and cycle, gives the same numbers, and the stress is what it was before. -/
theorem C134_run (n m : ℕ) (ss : List ℕ) (hw : ∀ k ∈ ss, k ≤ m) (stress : List ℝ)
    (calls : List (List (ℕ → List ℕ))) (hne : calls ≠ [])
    (ho : ∀ o ∈ calls, AnnOrders o (annInit (n :: m :: ss) stress).layers) :
    annCalls calls (annInit (n :: m :: ss) stress) =
      some { annInit (n :: m :: ss) stress with
        outputs := List.replicate ((n :: m :: ss).getLast (by simp)) (annConstant n (m :: ss) 1) } := by
  have step : ∀ o ∈ calls, ∀ out, annCalc o { annInit (n :: m :: ss) stress with outputs := out } =
      some { annInit (n :: m :: ss) stress with
        outputs := List.replicate ((n :: m :: ss).getLast (by simp)) (annConstant n (m :: ss) 1) } := by
    intro o hm out
    rw [C134_network o { annInit (n :: m :: ss) stress with outputs := out } _ _ rfl ?_ (ho o hm) ?_]
    · have hz : ∀ j, (List.replicate m (0 : ℝ)).getD j 0 = 0 := by
        intro j
        rw [List.getD_eq_getElem?_getD, List.getElem?_replicate]
        split <;> rfl
      simp only [hz, mul_zero]
      have := netOut_constant n (m :: ss) 0 1
      simp only [annInit, List.headD_cons, List.tail_cons] at this ⊢
      rw [this]
    · simp only [annInit, List.headD_cons, List.tail_cons, List.length_replicate]
      exact annInit_fits n (m :: ss)
    · intro k hk
      obtain ⟨p, hp, rfl⟩ := List.mem_map.1 hk
      exact hw _ (List.of_mem_zip hp).2
  have all : ∀ cs, (∀ o ∈ cs, o ∈ calls) → ∀ out, cs ≠ [] →
      annCalls cs { annInit (n :: m :: ss) stress with outputs := out } =
      some { annInit (n :: m :: ss) stress with
        outputs := List.replicate ((n :: m :: ss).getLast (by simp)) (annConstant n (m :: ss) 1) } := by
    intro cs
    induction cs with
    | nil => intro _ _ h; exact absurd rfl h
    | cons c cs ih =>
      intro hc out _
      unfold annCalls
      rw [List.foldlM_cons, step c (hc c (by simp)) out]
      simp only [Option.bind_eq_bind, Option.bind_some]
      cases cs with
      | nil => rfl
      | cons d ds => exact ih (fun o h => hc o (by simp [h])) _ (by simp)
  exact all calls (fun _ h => h) [] hne

/-! ## Where it does not hold -/

/-- **C134, where it fails.**  The bias is added once for every input: a layer with two inputs and the bias one does not
give the output of the network. -/
theorem C134_bias_fails : ∃ (ords : List (ℕ → List ℕ)) (s : AnnState), AnnFits s.inputs.length s.layers ∧
    AnnOrders ords s.layers ∧ ∃ s', annCalc ords s = some s' ∧
      s'.outputs ≠ netOut (fun k j => ((s.layers.map AnnLayer.biases).getD k []).getD j 0) 0 s.layers s.inputs := by
  refine ⟨[fun _ => List.range 2], ⟨[0, 0], [⟨2, 1, fun _ _ => 1, [1]⟩], [], []⟩, ⟨rfl, rfl, trivial⟩,
    .cons (fun _ => List.Perm.refl _) .nil, _, C134_network _ _ _ [] rfl ⟨rfl, rfl, trivial⟩
      (.cons (fun _ => List.Perm.refl _) .nil) (by simp), ?_⟩
  simp [netOut, netLayer, List.range_succ]

/-- **C134, where it fails.**  The later layers use the biases of the first: with one input per layer the output is not that
of the network with its own biases. -/
theorem C134_layer_bias_fails : ∃ (ords : List (ℕ → List ℕ)) (s : AnnState), AnnFits s.inputs.length s.layers ∧
    AnnOrders ords s.layers ∧ (∀ l ∈ s.layers, l.numIn = 1) ∧ ∃ s', annCalc ords s = some s' ∧
      s'.outputs ≠ netOut (fun k j => ((s.layers.map AnnLayer.biases).getD k []).getD j 0) 0 s.layers s.inputs := by
  refine ⟨[fun _ => List.range 1, fun _ => List.range 1],
    ⟨[0], [⟨1, 1, fun _ _ => 1, [0]⟩, ⟨1, 1, fun _ _ => 1, [1]⟩], [], []⟩, ⟨rfl, rfl, rfl, rfl, trivial⟩,
    .cons (fun _ => List.Perm.refl _) (.cons (fun _ => List.Perm.refl _) .nil), by simp, _,
    C134_network _ _ _ [_] rfl ⟨rfl, rfl, rfl, rfl, trivial⟩
      (.cons (fun _ => List.Perm.refl _) (.cons (fun _ => List.Perm.refl _) .nil)) (by simp), ?_⟩
  simp [netOut, netLayer, List.range_succ]

/-- **C134, where it fails.**  A layer that is wider than the first and has inputs: the biases of the first layer are read
past their end, for all weights and orders. -/
theorem C134_width_fails (o1 o2 : ℕ → List ℕ) (s : AnnState) (l m : AnnLayer) (hl : s.layers = [l, m])
    (hf : AnnFits s.inputs.length s.layers) (ho : AnnOrders [o1, o2] s.layers) (hw : l.numOut < m.numOut)
    (h0 : 0 < l.numOut) : annCalc [o1, o2] s = none := by
  rw [hl] at hf ho
  obtain ⟨h1, h2, h3, h4, -⟩ := hf
  cases ho with
  | cons p1 hos =>
    cases hos with
    | cons p2 _ =>
      unfold annCalc
      rw [hl]
      simp only
      rw [annForward_eq o1 s.inputs l.numOut l.weights l.biases (by omega) (h1 ▸ p1)]
      simp only [Option.bind_eq_bind, Option.bind_some, List.zip_cons_cons, List.zip_nil_right, annLater]
      have key : ∀ x : List ℝ, annForward o2 x m.numOut m.weights l.biases = none := by
        intro x
        unfold annForward
        have hn : ∀ (L : List ℕ) (f : ℕ → Option ℝ) (a : ℕ), a ∈ L → f a = none → L.mapM f = none := by
          intro L f a ha hfa
          induction L with
          | nil => simp at ha
          | cons b L ih =>
            rw [List.mapM_cons]
            rcases List.mem_cons.1 ha with rfl | h
            · rw [hfa]; rfl
            · cases f b with
              | none => rfl
              | some c => simp [ih h]
        apply hn _ _ l.numOut (List.mem_range.2 hw)
        have hin : 0 ∈ o2 l.numOut := (p2 l.numOut).mem_iff.2 (List.mem_range.2 (by omega))
        rw [hn _ _ 0 hin]
        · rfl
        · have : l.biases[l.numOut]? = none := List.getElem?_eq_none (by omega)
          simp [this]
      simp [key]

/-- **C134, where it fails.**  The model is to return the stress; but the stress of the material point after any number of
calls is the one before, whatever the network is. -/
theorem C134_stress_fails (calls : List (List (ℕ → List ℕ))) (s s' : AnnState) (h : annCalls calls s = some s') :
    s'.stress = s.stress ∧ s'.inputs = s.inputs := by
  induction calls generalizing s with
  | nil => simp [annCalls, List.foldlM] at h; simp [h]
  | cons c cs ih =>
    unfold annCalls at h
    rw [List.foldlM_cons] at h
    cases hc : annCalc c s with
    | none => rw [hc] at h; simp at h
    | some t =>
      rw [hc] at h
      have := ih t h
      unfold annCalc at hc
      split at hc
      · simp only [Option.bind_eq_bind, Option.bind_eq_some_iff, Option.pure_def, Option.some.injEq] at hc
        obtain ⟨_, _, _, _, rfl⟩ := hc
        exact this
      · simp at hc

/-! ## A case -/

/-- The sizes of the code: six inputs, three nodes, one output; ten calls. -/
example (stress : List ℝ) :
    annCalls (List.replicate 10 [fun _ => (List.range 6).reverse, fun _ => List.range 3]) (annInit [6, 3, 1] stress) =
      some { annInit [6, 3, 1] stress with
        outputs := [1 / (1 + Real.exp (-(3 * (1 / (1 + Real.exp (-(6 * 1)))))))] } := by
  have := C134_run 6 3 [1] (by simp) stress
    (List.replicate 10 [fun _ => (List.range 6).reverse, fun _ => List.range 3]) (by simp) (by
      intro o ho
      rw [List.eq_of_mem_replicate ho]
      exact .cons (fun _ => List.reverse_perm _) (.cons (fun _ => List.Perm.refl _) .nil))
  rw [this]
  simp [annConstant]

end Fierro
