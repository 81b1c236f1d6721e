import Verif.Model.EvpPiece
import Verif.Props.EvpTensor
import Verif.Props.EvpLinalg
import Verif.Props.EvpStep
import Verif.Proofs.Memory

/-!
# EVPFFT: the graphics files of a step (C117)

The specification is a reader: it looks up the offset of an array by name, walks that many bytes into the binary
section, reads a length there and takes that many bytes.
-/

namespace Fierro.Evp

/-! ### Specification: reading a piece -/

/-- The bytes of a list of numbers. -/
def bytes (l : List VTok) : ℕ := (l.map VTok.size).sum

/-- Skip a number of bytes; `none` past the end or in the middle of a number. -/
def dropBytes : List VTok → ℕ → Option (List VTok)
  | [], n => if n = 0 then some [] else none
  | t :: l, n => if n = 0 then some (t :: l) else if t.size ≤ n then dropBytes l (n - t.size) else none

/-- Take a number of bytes; `none` past the end or in the middle of a number. -/
def takeBytes : List VTok → ℕ → Option (List VTok)
  | [], n => if n = 0 then some [] else none
  | t :: l, n =>
    if n = 0 then some [] else if t.size ≤ n then (takeBytes l (n - t.size)).map (t :: ·) else none

/-- An array of the binary section: a length, then that many bytes. -/
def readAt (file : List VTok) (offset : ℕ) : Option (List VTok) :=
  match dropBytes file offset with
  | some (.u64 n :: rest) => takeBytes rest n
  | _ => none

/-- An array by its name. -/
def readArray (offs : List (String × ℕ)) (file : List VTok) (name : String) : Option (List VTok) :=
  (offs.lookup name).bind (readAt file)

/-- The array `name` of the piece as a reader sees it. -/
noncomputable def PieceIn.array (P : PieceIn) (name : String) : Option (List VTok) :=
  readArray (PieceIn.offsets P.header 0) P.appended name

/-- The array `name` has `m` entries for each cell, those of the cell of the point `(a,b,c)` being `f a b c`; cells
are numbered with the first direction fastest. -/
def PieceIn.CellArray (P : PieceIn) (name : String) (m : ℕ) (f : ℕ → ℕ → ℕ → List VTok) : Prop :=
  ∃ l, P.array name = some l ∧ l.length = m * (P.n1 * P.n2 * P.n3) ∧
    ∀ a < P.n1, ∀ b < P.n2, ∀ c < P.n3, ∀ r < m,
      ∃ t, l[r + m * (a + P.n1 * (b + P.n2 * c))]? = some t ∧ (f (a + 1) (b + 1) (c + 1))[r]? = some t

/-- The symmetric part of a tensor, six numbers: 11, 22, 33, 12, 23, 13. -/
noncomputable def sixOf (t : T2 ℝ) : List VTok :=
  [.f64 (t 0 0), .f64 (t 1 1), .f64 (t 2 2), .f64 ((t 0 1 + t 1 0) / 2), .f64 ((t 1 2 + t 2 1) / 2),
   .f64 ((t 0 2 + t 2 0) / 2)]

/-- The deformed place of a material point of the undeformed grid. -/
noncomputable def deformed (F : T2 ℝ) (X : Fin 3 → ℝ) : Fin 3 → ℝ := fun i => ∑ j, F i j * X j

/-- The average deformation gradient that goes with an average displacement gradient. -/
def gradOf (H : T2 ℝ) : T2 ℝ := fun i j => H i j + if i = j then 1 else 0

/-! ### Walking the bytes -/

theorem VTok.size_pos (t : VTok) : 0 < t.size := by cases t <;> simp [VTok.size]

theorem bytes_append (a b : List VTok) : bytes (a ++ b) = bytes a + bytes b := by simp [bytes]

theorem bytes_cons (t : VTok) (b : List VTok) : bytes (t :: b) = t.size + bytes b := by simp [bytes]

theorem dropBytes_append (a b : List VTok) : dropBytes (a ++ b) (bytes a) = some b := by
  induction a with
  | nil => cases b <;> simp [dropBytes, bytes]
  | cons t a ih =>
    have := t.size_pos
    rw [List.cons_append, bytes_cons, dropBytes, if_neg (by omega), if_pos (by omega), Nat.add_sub_cancel_left, ih]

theorem takeBytes_append (a b : List VTok) : takeBytes (a ++ b) (bytes a) = some a := by
  induction a with
  | nil => cases b <;> simp [takeBytes, bytes]
  | cons t a ih =>
    have := t.size_pos
    rw [List.cons_append, bytes_cons, takeBytes, if_neg (by omega), if_pos (by omega), Nat.add_sub_cancel_left, ih]
    rfl

theorem readAt_append (pre l post : List VTok) :
    readAt (pre ++ (.u64 (bytes l) :: l) ++ post) (bytes pre) = some l := by
  unfold readAt
  rw [List.append_assoc, dropBytes_append]
  simp only [List.cons_append]
  exact takeBytes_append l post

theorem readArray_spec {hs : List (String × ℕ)} {bs : List (ℕ × List VTok)}
    (h : List.Forall₂ (fun h b => h.2 = bytes b.2 + 8 ∧ b.1 = bytes b.2) hs bs) :
    (hs.map Prod.fst).Nodup → ∀ (pre : List VTok) (i : ℕ) (n : String) (s sz : ℕ) (l : List VTok),
      hs[i]? = some (n, s) → bs[i]? = some (sz, l) →
      readArray (PieceIn.offsets hs (bytes pre)) (pre ++ bs.flatMap fun b => .u64 b.1 :: b.2) n = some l := by
  induction h with
  | nil => intro _ pre i n s sz l h; simp at h
  | @cons h b hs bs hb _ ih =>
    intro hn pre i n s sz l hi hl
    obtain ⟨hn1, hn2⟩ := List.nodup_cons.mp hn
    obtain ⟨n0, s0⟩ := h
    obtain ⟨z0, l0⟩ := b
    obtain ⟨hb1, hb2⟩ := hb
    simp only at hb1 hb2
    subst hb1 hb2
    cases i with
    | zero =>
      simp only [List.getElem?_cons_zero, Option.some.injEq, Prod.mk.injEq] at hi hl
      obtain ⟨rfl, rfl⟩ := hi
      obtain ⟨rfl, rfl⟩ := hl
      have := readAt_append pre l0 (bs.flatMap fun b => .u64 b.1 :: b.2)
      simp only [readArray, PieceIn.offsets, List.lookup_cons_self, Option.bind_some, List.flatMap_cons]
      rw [← List.append_assoc]
      exact this
    | succ i =>
      simp only [List.getElem?_cons_succ] at hi hl
      have hne : n ≠ n0 := by
        rintro rfl
        refine hn1 (List.mem_map.mpr ⟨_, List.mem_of_getElem? hi, rfl⟩)
      have := ih hn2 (pre ++ (.u64 (bytes l0) :: l0)) i n s sz l hi hl
      rw [bytes_append, bytes_cons] at this
      simp only [readArray, PieceIn.offsets, List.lookup_cons, List.flatMap_cons] at this ⊢
      rw [show (n == n0) = false from by simpa using hne]
      rw [← List.append_assoc]
      convert this using 3
      simp only [VTok.size]; congr 1; ring

/-! ### The loops -/

namespace PieceIn

theorem bytes_flatMap_range (n s : ℕ) (g : ℕ → List VTok) (h : ∀ a, bytes (g a) = s) :
    bytes ((List.range n).flatMap g) = n * s := by
  have : ∀ l : List ℕ, bytes (l.flatMap g) = l.length * s := by
    intro l
    induction l with
    | nil => simp [bytes]
    | cons a l ih => rw [List.flatMap_cons, bytes_append, ih, h, List.length_cons]; ring
  rw [this, List.length_range]

theorem length_flatMap_range {α : Type} (n s : ℕ) (g : ℕ → List α) (h : ∀ a, (g a).length = s) :
    ((List.range n).flatMap g).length = n * s := by
  rw [List.length_flatMap]; simp [h]

theorem bytes_loop (n1 n2 n3 s : ℕ) (f : ℕ → ℕ → ℕ → List VTok) (h : ∀ a b c, bytes (f a b c) = s) :
    bytes (loop n1 n2 n3 f) = n1 * n2 * n3 * s := by
  unfold loop
  rw [bytes_flatMap_range _ (n2 * (n1 * s)) _ fun c => bytes_flatMap_range _ (n1 * s) _ fun b =>
    bytes_flatMap_range _ s _ fun a => h _ _ _]
  ring

theorem length_loop {α : Type} (n1 n2 n3 s : ℕ) (f : ℕ → ℕ → ℕ → List α) (h : ∀ a b c, (f a b c).length = s) :
    (loop n1 n2 n3 f).length = s * (n1 * n2 * n3) := by
  unfold loop
  rw [length_flatMap_range _ (n2 * (n1 * s)) _ fun c => length_flatMap_range _ (n1 * s) _ fun b =>
    length_flatMap_range _ s _ fun a => h _ _ _]
  ring

theorem getElem?_loop {α : Type} (n1 n2 n3 s : ℕ) (f : ℕ → ℕ → ℕ → List α) (h : ∀ a b c, (f a b c).length = s)
    {a b c r : ℕ} (ha : a < n1) (hb : b < n2) (hc : c < n3) (hr : r < s) :
    (loop n1 n2 n3 f)[r + s * (a + n1 * (b + n2 * c))]? = (f (a + 1) (b + 1) (c + 1))[r]? := by
  unfold loop
  have e : r + s * (a + n1 * (b + n2 * c)) = (r + s * (a + n1 * b)) + (n2 * (n1 * s)) * c := by ring
  have h1 : r + s * a < n1 * s := by nlinarith
  have h2 : r + s * (a + n1 * b) < n2 * (n1 * s) := by
    have := Nat.mul_le_mul_left (n1 * s) (show b + 1 ≤ n2 from hb)
    calc r + s * (a + n1 * b) = (r + s * a) + n1 * s * b := by ring
      _ < n1 * s + n1 * s * b := by omega
      _ = n1 * s * (b + 1) := by ring
      _ ≤ n1 * s * n2 := this
      _ = n2 * (n1 * s) := by ring
  rw [e, flatMap_getElem? _ _ (n2 * (n1 * s)) (fun c _ => length_flatMap_range _ (n1 * s) _ fun b =>
    length_flatMap_range _ s _ fun a => h _ _ _) _ _ h2]
  rw [List.getElem?_range hc, Option.bind_some]
  have e : r + s * (a + n1 * b) = (r + s * a) + (n1 * s) * b := by ring
  rw [e, flatMap_getElem? _ _ (n1 * s) (fun b _ => length_flatMap_range _ s _ fun a => h _ _ _) _ _ h1]
  rw [List.getElem?_range hb, Option.bind_some]
  rw [flatMap_getElem? _ _ s (fun a _ => h _ _ _) _ _ hr, List.getElem?_range ha, Option.bind_some]

theorem bytes_map_i32 (n : ℕ) (g : ℕ → ℤ) : bytes ((List.range n).map fun e => .i32 (g e)) = n * 4 := by
  simp [bytes, VTok.size, Function.comp_def]

/-- Header and binary section list the same sizes. -/
theorem sizes (P : PieceIn) :
    List.Forall₂ (fun h b => h.2 = bytes b.2 + 8 ∧ b.1 = bytes b.2) P.header P.blocks := by
  have h1 : ∀ g : ℕ → ℕ → ℕ → ℝ, bytes (loop P.n1 P.n2 P.n3 fun a b c => [.f64 (g a b c)]) = P.numCells * 8 :=
    fun g => bytes_loop _ _ _ 8 _ fun a b c => by simp [bytes, VTok.size]
  have h6 : ∀ g : ℕ → ℕ → ℕ → T2 ℝ, bytes (loop P.n1 P.n2 P.n3 fun a b c => six (g a b c)) = 6 * P.numCells * 8 :=
    fun g => (bytes_loop _ _ _ 48 _ fun a b c => by simp [bytes, VTok.size, six]).trans (by
      rw [numCells]; ring)
  have hi : ∀ g : ℕ → ℕ → ℕ → ℤ, bytes (loop P.n1 P.n2 P.n3 fun a b c => [.i32 (g a b c)]) = P.numCells * 4 :=
    fun g => bytes_loop _ _ _ 4 _ fun a b c => by simp [bytes, VTok.size]
  have hp : ∀ g : ℕ → ℕ → ℕ → Fin 3 → ℝ, bytes (loop (P.n1 + 1) (P.n2 + 1) (P.n3 + 1) fun a b c =>
      [.f64 (g a b c 0), .f64 (g a b c 1), .f64 (g a b c 2)]) = P.numPoints * 3 * 8 :=
    fun g => (bytes_loop _ _ _ 24 _ fun a b c => by simp [bytes, VTok.size]).trans (by rw [numPoints]; ring)
  have hc : bytes (loop P.n1 P.n2 P.n3 P.corners) = P.numCells * 8 * 4 :=
    (bytes_loop _ _ _ 32 _ fun a b c => by simp [bytes, VTok.size, corners]).trans (by rw [numCells]; ring)
  have hu : ∀ g : ℕ → ℕ → ℕ → Fin 3 → ℕ, bytes (loop P.n1 P.n2 P.n3 fun a b c =>
      [.u8 (g a b c 0), .u8 (g a b c 1), .u8 (g a b c 2)]) = P.numCells * 3 * 1 :=
    fun g => (bytes_loop _ _ _ 3 _ fun a b c => by simp [bytes, VTok.size]).trans (by rw [numCells]; ring)
  have ht : bytes [.f64 (P.imicro * P.tdot)] = 8 := by simp [bytes, VTok.size]
  unfold header blocks
  dsimp only
  repeat' apply List.Forall₂.cons
  all_goals first
    | exact List.Forall₂.nil
    | (dsimp only; simp only [h1, h6, hi, hp, hc, hu, ht, bytes_map_i32, and_self])

theorem header_nodup (P : PieceIn) : (P.header.map Prod.fst).Nodup := by
  simp only [header, List.map_cons, List.map_nil]
  decide

theorem array_eq (P : PieceIn) (i : ℕ) (n : String) (s sz : ℕ) (l : List VTok)
    (hi : P.header[i]? = some (n, s)) (hl : P.blocks[i]? = some (sz, l)) : P.array n = some l := by
  have := readArray_spec P.sizes P.header_nodup [] i n s sz l hi hl
  exact this

theorem cellArray_of (P : PieceIn) (n : String) (m : ℕ) (g f : ℕ → ℕ → ℕ → List VTok)
    (h : P.array n = some (loop P.n1 P.n2 P.n3 g)) (hg : ∀ a b c, (g a b c).length = m)
    (hf : ∀ a b c, g a b c = f a b c) : P.CellArray n m f := by
  refine ⟨_, h, length_loop _ _ _ m _ hg, fun a ha b hb c hc r hr => ?_⟩
  have : r < (g (a + 1) (b + 1) (c + 1)).length := by rw [hg]; exact hr
  refine ⟨_, (getElem?_loop _ _ _ m g hg ha hb hc hr).trans (List.getElem?_eq_getElem this), ?_⟩
  rw [← hf]; exact List.getElem?_eq_getElem this

theorem cellArray_const (P : PieceIn) (n : String) (g : ℕ → VTok) (f : ℕ → ℕ → ℕ → List VTok)
    (h : P.array n = some ((List.range P.numCells).map g))
    (hf : ∀ a b c, f (a + 1) (b + 1) (c + 1) = [g (a + P.n1 * (b + P.n2 * c))]) : P.CellArray n 1 f := by
  refine ⟨_, h, by simp [numCells], fun a ha b hb c hc r hr => ?_⟩
  obtain rfl : r = 0 := by omega
  have h1 : a + P.n1 * b < P.n1 * P.n2 := by nlinarith
  have hlt : a + P.n1 * (b + P.n2 * c) < P.numCells := by
    have := Nat.mul_le_mul_left (P.n1 * P.n2) (show c + 1 ≤ P.n3 from hc)
    calc a + P.n1 * (b + P.n2 * c) = (a + P.n1 * b) + P.n1 * P.n2 * c := by ring
      _ < P.n1 * P.n2 + P.n1 * P.n2 * c := by omega
      _ = P.n1 * P.n2 * (c + 1) := by ring
      _ ≤ P.numCells := this
  refine ⟨g (a + P.n1 * (b + P.n2 * c)), ?_, by rw [hf]; rfl⟩
  rw [zero_add, one_mul, List.getElem?_map, List.getElem?_range hlt]; rfl

theorem symm_diag (t : T2 ℝ) (i : Fin 3) : symm t i i = t i i := by unfold symm; ring

theorem six_symm (t : T2 ℝ) : six (symm t) = sixOf t := by
  have e : ∀ i j, symm t i j = (t i j + t j i) / 2 := fun i j => by unfold symm; ring
  simp only [six, sixOf, symm_diag, e]

theorem vmStrain_symm (t : T2 ℝ) : vmStrain (symm t) = vmStrain t := by
  have : vmDev (symm t) = vmDev t := by
    funext i j
    rw [vmDev_eq, vmDev_eq, symm_diag, symm_diag, symm_diag]
    unfold symm
    ring_nf
  unfold vmStrain
  rw [this]

end PieceIn
end Fierro.Evp

namespace Fierro
open Evp Evp.PieceIn

/-- **C117.** A reader that looks an array up by its name finds it, with the length announced, in every piece: the
time, and for the cell around each point its rank, phase, grain, the equivalent strain, stress, plastic strain rate and
elastic strain, and the symmetric tensors in the order 11, 22, 33, 12, 23, 13. -/
theorem C117_arrays (P : PieceIn) :
    P.array "TimeValue" = some [.f64 (P.imicro * P.tdot)] ∧
    P.CellArray "types" 1 (fun _ _ _ => [.i32 12]) ∧
    P.CellArray "rank" 1 (fun _ _ _ => [.i32 P.rank]) ∧
    P.CellArray "phase_id" 1 (fun a b c => [.i32 (P.jphase a b c)]) ∧
    P.CellArray "grain_id" 1 (fun a b c => [.i32 (P.jgrain a b c)]) ∧
    P.CellArray "vm-strain" 1 (fun a b c => [.f64 (vmStrain (P.disgrad a b c))]) ∧
    P.CellArray "vm-stress" 1 (fun a b c => [.f64 (vmStress (P.sg a b c))]) ∧
    P.CellArray "vm-pl-strain-rate" 1 (fun a b c => [.f64 (vmStrain (P.edotp a b c))]) ∧
    P.CellArray "vm-el-strain" 1 (fun a b c => [.f64 (vmStrain (P.eel a b c))]) ∧
    P.CellArray "strain" 6 (fun a b c => sixOf (P.disgrad a b c)) ∧
    P.CellArray "stress" 6 (fun a b c => [.f64 (P.sg a b c 0 0), .f64 (P.sg a b c 1 1), .f64 (P.sg a b c 2 2),
      .f64 (P.sg a b c 0 1), .f64 (P.sg a b c 1 2), .f64 (P.sg a b c 0 2)]) ∧
    P.CellArray "pl-strain-rate" 6 (fun a b c => sixOf (P.edotp a b c)) ∧
    P.CellArray "el-strain" 6 (fun a b c => sixOf (P.eel a b c)) ∧
    P.CellArray "IPFColor" 3 (fun a b c => (List.finRange 3).map fun d => .u8 (calcIPF (P.ag a b c) d)) := by
  refine ⟨P.array_eq 0 _ _ _ _ rfl rfl, P.cellArray_const _ _ _ (P.array_eq 4 _ _ _ _ rfl rfl) fun _ _ _ => rfl,
    P.cellArray_const _ _ _ (P.array_eq 5 _ _ _ _ rfl rfl) fun _ _ _ => rfl,
    P.cellArray_of _ _ _ _ (P.array_eq 6 _ _ _ _ rfl rfl) (fun _ _ _ => rfl) fun _ _ _ => rfl,
    P.cellArray_of _ _ _ _ (P.array_eq 7 _ _ _ _ rfl rfl) (fun _ _ _ => rfl) fun _ _ _ => rfl,
    P.cellArray_of _ _ _ _ (P.array_eq 8 _ _ _ _ rfl rfl) (fun _ _ _ => rfl) fun _ _ _ => by rw [vmStrain_symm],
    P.cellArray_of _ _ _ _ (P.array_eq 9 _ _ _ _ rfl rfl) (fun _ _ _ => rfl) fun _ _ _ => rfl,
    P.cellArray_of _ _ _ _ (P.array_eq 10 _ _ _ _ rfl rfl) (fun _ _ _ => rfl) fun _ _ _ => by rw [vmStrain_symm],
    P.cellArray_of _ _ _ _ (P.array_eq 11 _ _ _ _ rfl rfl) (fun _ _ _ => rfl) fun _ _ _ => by rw [vmStrain_symm],
    P.cellArray_of _ _ _ _ (P.array_eq 12 _ _ _ _ rfl rfl) (fun _ _ _ => rfl) fun _ _ _ => by rw [six_symm],
    P.cellArray_of _ _ _ _ (P.array_eq 13 _ _ _ _ rfl rfl) (fun _ _ _ => rfl) fun _ _ _ => rfl,
    P.cellArray_of _ _ _ _ (P.array_eq 14 _ _ _ _ rfl rfl) (fun _ _ _ => rfl) fun _ _ _ => by rw [six_symm],
    P.cellArray_of _ _ _ _ (P.array_eq 15 _ _ _ _ rfl rfl) (fun _ _ _ => rfl) fun _ _ _ => by rw [six_symm],
    P.cellArray_of _ _ _ _ (P.array_eq 16 _ _ _ _ rfl rfl) (fun _ _ _ => rfl) fun _ _ _ => rfl⟩

/-! ### Points and cells -/

namespace Evp.PieceIn

theorem pointOrder_get (P : PieceIn) {a b c : ℕ} (ha : a < P.n1 + 1) (hb : b < P.n2 + 1) (hc : c < P.n3 + 1) :
    P.pointOrder[a + (P.n1 + 1) * (b + (P.n2 + 1) * c)]? = some (a + 1, b + 1, c + 1) := by
  have := getElem?_loop (P.n1 + 1) (P.n2 + 1) (P.n3 + 1) 1 (fun a b c => [(a, b, c)]) (fun _ _ _ => rfl) ha hb hc
    (show 0 < 1 by omega)
  rw [zero_add, one_mul] at this
  exact this

theorem pointOrder_nodup (P : PieceIn) : P.pointOrder.Nodup := by
  unfold pointOrder loop
  have hr : ∀ n, (List.range n).Nodup := fun n => List.nodup_range
  refine List.nodup_flatMap.mpr ⟨fun c _ => List.nodup_flatMap.mpr ⟨fun b _ => List.nodup_flatMap.mpr
    ⟨fun a _ => by simp, ?_⟩, ?_⟩, ?_⟩
  · refine (hr _).imp fun {x y} hxy => ?_
    simp only [Function.onFun, List.disjoint_singleton, List.mem_singleton, Prod.mk.injEq]
    omega
  · refine (hr _).imp fun {x y} hxy => ?_
    intro z hz hz'
    simp only [List.mem_flatMap, List.mem_singleton] at hz hz'
    obtain ⟨_, _, rfl⟩ := hz
    obtain ⟨_, _, h⟩ := hz'
    simp only [Prod.mk.injEq] at h
    omega
  · refine (hr _).imp fun {x y} hxy => ?_
    intro z hz hz'
    simp only [List.mem_flatMap, List.mem_singleton] at hz hz'
    obtain ⟨_, _, _, _, rfl⟩ := hz
    obtain ⟨_, _, _, _, h⟩ := hz'
    simp only [Prod.mk.injEq] at h
    omega

theorem pid_eq (P : PieceIn) {a b c : ℕ} (ha : a < P.n1 + 1) (hb : b < P.n2 + 1) (hc : c < P.n3 + 1) :
    P.pid (a + 1) (b + 1) (c + 1) = a + (P.n1 + 1) * (b + (P.n2 + 1) * c) := by
  have h := P.pointOrder_get ha hb hc
  obtain ⟨hl, he⟩ := List.getElem?_eq_some_iff.mp h
  unfold pid
  rw [← he]
  exact P.pointOrder_nodup.idxOf_getElem _ hl

end Evp.PieceIn

/-- The corners of a hexahedron in the order of the file format: around the bottom, then around the top. -/
def vtkHex : Fin 8 → Fin 3 → ℕ :=
  ![![0, 0, 0], ![1, 0, 0], ![1, 1, 0], ![0, 1, 0], ![0, 0, 1], ![1, 0, 1], ![1, 1, 1], ![0, 1, 1]]

/-- **C117.** The cell of every point has eight corners: entry `8 e + r` of the connectivity names a point of the
file, and the three numbers stored for that point are the place of corner `r` of the cell, in the order of the file
format.  Entry `e` of the offsets closes the list of cell `e`. -/
theorem C117_cells (P : PieceIn) :
    ∃ conn pts offs, P.array "connectivity" = some conn ∧ P.array "Points" = some pts ∧
      P.array "offsets" = some offs ∧
      conn.length = 8 * (P.n1 * P.n2 * P.n3) ∧ pts.length = 3 * ((P.n1 + 1) * (P.n2 + 1) * (P.n3 + 1)) ∧
      offs.length = P.n1 * P.n2 * P.n3 ∧
      (∀ e < P.n1 * P.n2 * P.n3, offs[e]? = some (.i32 (8 * (e + 1)))) ∧
      ∀ a < P.n1, ∀ b < P.n2, ∀ c < P.n3, ∀ r : Fin 8, ∃ id : ℕ,
        id < (P.n1 + 1) * (P.n2 + 1) * (P.n3 + 1) ∧
        conn[(r : ℕ) + 8 * (a + P.n1 * (b + P.n2 * c))]? = some (.i32 id) ∧
        ∀ d : Fin 3, pts[(d : ℕ) + 3 * id]? =
          some (.f64 (P.xintp (a + 1 + vtkHex r 0) (b + 1 + vtkHex r 1) (c + 1 + vtkHex r 2) d)) := by
  refine ⟨_, _, _, P.array_eq 2 _ _ _ _ rfl rfl, P.array_eq 1 _ _ _ _ rfl rfl, P.array_eq 3 _ _ _ _ rfl rfl,
    length_loop _ _ _ 8 _ fun _ _ _ => rfl, length_loop _ _ _ 3 _ fun _ _ _ => rfl, by simp [numCells], ?_, ?_⟩
  · intro e he
    rw [List.getElem?_map, List.getElem?_range (show e < P.numCells from he)]
    simp only [Option.map_some, Option.some.injEq, VTok.i32.injEq]
    push_cast; ring
  · intro a ha b hb c hc r
    have hx : vtkHex r 0 ≤ 1 ∧ vtkHex r 1 ≤ 1 ∧ vtkHex r 2 ≤ 1 := by revert r; decide
    obtain ⟨hx0, hx1, hx2⟩ := hx
    have hA : a + vtkHex r 0 < P.n1 + 1 := by omega
    have hB : b + vtkHex r 1 < P.n2 + 1 := by omega
    have hC : c + vtkHex r 2 < P.n3 + 1 := by omega
    have hpid := P.pid_eq hA hB hC
    refine ⟨P.pid (a + vtkHex r 0 + 1) (b + vtkHex r 1 + 1) (c + vtkHex r 2 + 1), ?_, ?_, ?_⟩
    · have h := P.pointOrder_get hA hB hC
      obtain ⟨hl, -⟩ := List.getElem?_eq_some_iff.mp h
      rw [hpid]
      have e : P.pointOrder.length = 1 * ((P.n1 + 1) * (P.n2 + 1) * (P.n3 + 1)) :=
        length_loop _ _ _ 1 _ fun _ _ _ => rfl
      rw [e, one_mul] at hl
      exact hl
    · rw [getElem?_loop P.n1 P.n2 P.n3 8 P.corners (fun _ _ _ => rfl) ha hb hc r.2]
      fin_cases r <;> rfl
    · intro d
      rw [hpid, getElem?_loop _ _ _ 3 _ (fun _ _ _ => rfl) hA hB hC d.2]
      have e1 : a + vtkHex r 0 + 1 = a + 1 + vtkHex r 0 := by ring
      have e2 : b + vtkHex r 1 + 1 = b + 1 + vtkHex r 1 := by ring
      have e3 : c + vtkHex r 2 + 1 = c + 1 + vtkHex r 2 := by ring
      rw [e1, e2, e3]
      fin_cases d <;> rfl

/-- **C117.** Every array announced for all pieces is found in every piece, with the announced number of components
for each point or each cell. -/
theorem C117_pvtu (P : PieceIn) (n : String) (m : ℕ) (h : (n, m) ∈ pvtuArrays) :
    ∃ l, P.array n = some l ∧
      l.length = m * if n = "Points" then (P.n1 + 1) * (P.n2 + 1) * (P.n3 + 1) else P.n1 * P.n2 * P.n3 := by
  obtain ⟨-, h1, h2, h3, h4, h5, h6, h7, h8, h9, h10, h11, h12, h13⟩ := C117_arrays P
  obtain ⟨_, pts, _, -, hp, -, -, hpl, -⟩ := C117_cells P
  simp only [pvtuArrays, List.mem_cons, Prod.mk.injEq, List.not_mem_nil, or_false] at h
  rcases h with ⟨rfl, rfl⟩ | ⟨rfl, rfl⟩ | ⟨rfl, rfl⟩ | ⟨rfl, rfl⟩ | ⟨rfl, rfl⟩ | ⟨rfl, rfl⟩ | ⟨rfl, rfl⟩ |
    ⟨rfl, rfl⟩ | ⟨rfl, rfl⟩ | ⟨rfl, rfl⟩ | ⟨rfl, rfl⟩ | ⟨rfl, rfl⟩ | ⟨rfl, rfl⟩
  · exact ⟨pts, hp, by rw [if_pos rfl, hpl]⟩
  all_goals rw [if_neg (by decide)]
  · obtain ⟨l, hl, hn, -⟩ := h2; exact ⟨l, hl, hn⟩
  · obtain ⟨l, hl, hn, -⟩ := h3; exact ⟨l, hl, hn⟩
  · obtain ⟨l, hl, hn, -⟩ := h4; exact ⟨l, hl, hn⟩
  · obtain ⟨l, hl, hn, -⟩ := h5; exact ⟨l, hl, hn⟩
  · obtain ⟨l, hl, hn, -⟩ := h6; exact ⟨l, hl, hn⟩
  · obtain ⟨l, hl, hn, -⟩ := h7; exact ⟨l, hl, hn⟩
  · obtain ⟨l, hl, hn, -⟩ := h8; exact ⟨l, hl, hn⟩
  · obtain ⟨l, hl, hn, -⟩ := h9; exact ⟨l, hl, hn⟩
  · obtain ⟨l, hl, hn, -⟩ := h10; exact ⟨l, hl, hn⟩
  · obtain ⟨l, hl, hn, -⟩ := h11; exact ⟨l, hl, hn⟩
  · obtain ⟨l, hl, hn, -⟩ := h12; exact ⟨l, hl, hn⟩
  · obtain ⟨l, hl, hn, -⟩ := h13; exact ⟨l, hl, hn⟩

/-- **C117.** The pieces of the ranks fit together: a corner written by two ranks is at the same place in both, since
its place depends only on its index in the whole grid. -/
theorem C117_pieces_agree (P Q : PieceIn) (hd : P.delt = Q.delt) (hm : P.disgradmacro = Q.disgradmacro)
    (hi : P.imicro = Q.imicro) (a b c a' b' c' : ℕ) (ha : a + P.start 0 = a' + Q.start 0)
    (hb : b + P.start 1 = b' + Q.start 1) (hc : c + P.start 2 = c' + Q.start 2) :
    P.xintp a b c = Q.xintp a' b' c' := by
  have ea : (a : ℝ) + P.start 0 = a' + Q.start 0 := by exact_mod_cast ha
  have eb : (b : ℝ) + P.start 1 = b' + Q.start 1 := by exact_mod_cast hb
  have ec : (c : ℝ) + P.start 2 = c' + Q.start 2 := by exact_mod_cast hc
  unfold xintp defgradavg
  rw [hd, hm, hi, ea, eb, ec]

theorem xintp_eq (P : PieceIn) (a b c : ℕ) (i : Fin 3) :
    P.xintp a b c i = P.delt i * ((P.defgradavg i 0) * (a + P.start 0 - 1 / 2) +
      P.defgradavg i 1 * (b + P.start 1 - 1 / 2) + P.defgradavg i 2 * (c + P.start 2 - 1 / 2)) := by
  unfold xintp
  simp only [Fin.sum_univ_three, Matrix.cons_val_zero, Matrix.cons_val_one, Matrix.cons_val]
  ring

/-- **C117.** The corners are those of the grid carried along by the average deformation, when the spacing is the same
in all directions or the deformation only stretches along the axes; the dump before the first step shows the undeformed
grid. -/
theorem C117_positions (P : PieceIn) (a b c : ℕ)
    (h : P.imicro = 0 ∨ (∀ i j, P.delt i = P.delt j) ∨ ∀ i j, i ≠ j → P.disgradmacro i j = 0) :
    P.xintp a b c = deformed (gradOf (if P.imicro = 0 then 0 else P.disgradmacro))
      (fun d => P.delt d * ((![a, b, c] d : ℕ) + P.start d - 1 / 2)) := by
  funext i
  rw [xintp_eq]
  unfold deformed gradOf defgradavg
  simp only [Fin.sum_univ_three, Matrix.cons_val_zero, Matrix.cons_val_one, Matrix.cons_val]
  rcases h with h | h | h
  · simp only [h, if_true, Pi.zero_apply]
    fin_cases i <;> simp
  · by_cases h0 : P.imicro = 0
    · simp only [h0, if_true, Pi.zero_apply]
      fin_cases i <;> simp
    · simp only [h0, if_false]
      rw [h i 0, h 1 0, h 2 0]; ring
  · by_cases h0 : P.imicro = 0
    · simp only [h0, if_true, Pi.zero_apply]
      fin_cases i <;> simp
    · simp only [h0, if_false]
      have := h 0 1 (by decide); have := h 0 2 (by decide); have := h 1 0 (by decide)
      have := h 1 2 (by decide); have := h 2 0 (by decide); have := h 2 1 (by decide)
      fin_cases i <;> simp [*] <;> ring

/-- **C117.** At a point with a positive definite stiffness and a symmetric stress the elastic strain of the file is
the strain to which the stiffness of that point answers with that stress. -/
theorem C117_elastic (P : PieceIn) (hq : P.q.Exact) (i j k : ℕ) (hg : P.gas (P.jphase i j k) = false)
    (hp : PosForm (P.cg66 i j k)) (hs : T2.Sym (P.sg i j k)) :
    act4 (chgBasis3 P.q le_rfl (P.cg66 i j k)) (P.eel i j k) = P.sg i j k := by
  classical
  have ht : PosForm (fun a b => P.cg66 i j k b a) := by
    intro x hx
    have := hp x hx
    have e : ∑ a, ∑ b, x a * P.cg66 i j k a b * x b = ∑ a, ∑ b, x a * P.cg66 i j k b a * x b := by
      rw [Finset.sum_comm]
      exact Finset.sum_congr rfl fun a _ => Finset.sum_congr rfl fun b _ => by ring
    rw [← e]; exact this
  have hinv : InverseOf (P.cg66 i j k) (refCompliance (P.cg66 i j k)) :=
    C65_column_major _ (C65_positive_definite _ ht).1
  have hinv' : InverseOf (refCompliance (P.cg66 i j k)) (P.cg66 i j k) := fun a b => ⟨(hinv a b).2, (hinv a b).1⟩
  have := C66_inverse_tensor P.q hq _ _ hinv' _ hs
  have e : P.eel i j k = act4 (chgBasis3 P.q le_rfl (refCompliance (P.cg66 i j k))) (P.sg i j k) := by
    unfold PieceIn.eel
    rw [if_neg (by simp [hg])]
    funext a b
    simp only [act4]
  rw [e]; exact this

/-! ### What does not hold -/

/-- A rank of one point: spacing 1 and 2, a shear of the first direction. -/
noncomputable def shearPiece : PieceIn where
  n1 := 1
  n2 := 1
  n3 := 1
  start := fun _ => 0
  rank := 0
  imicro := 1
  tdot := 1
  delt := ![1, 2, 1]
  disgradmacro := fun i j => if i = 0 ∧ j = 1 then 1 else 0
  jphase := fun _ _ _ => 1
  jgrain := fun _ _ _ => 1
  gas := fun _ => true
  cg66 := fun _ _ _ i j => if i = j then 1 else 0
  ag := fun _ _ _ i j => if i = j then 1 else 0
  disgrad := fun _ _ _ _ _ => 0
  edotp := fun _ _ _ _ _ => 0
  sg := fun _ _ _ _ _ => 0
  q := ⟨0, 0, 0⟩

/-- **C117 (places).** *Fails in the code* for a shear when the spacing differs between directions: the spacing of the
row of the result multiplies the index of the column, so with spacings 1 and 2 and a shear of 1 the corner at (1/2, 1)
is drawn at 1 instead of 3/2 in the first direction. -/
theorem C117_positions_fails : ∃ P : PieceIn, P.xintp 1 1 1 0 = 1 ∧
    deformed (gradOf P.disgradmacro) (fun d => P.delt d * ((1 : ℕ) + P.start d - 1 / 2)) 0 = 3 / 2 ∧
    (∀ d, 0 < P.delt d) ∧ P.imicro ≠ 0 := by
  refine ⟨shearPiece, ?_, ?_, ?_, by simp [shearPiece]⟩
  · rw [xintp_eq]
    simp [shearPiece, defgradavg]
    norm_num
  · unfold deformed gradOf
    simp [shearPiece, Fin.sum_univ_three]
    norm_num
  · intro d; fin_cases d <;> simp [shearPiece]

/-- **C117 (growing spacing).** *Fails in the code* when the texture and the sample are updated: a step stretches the
spacing before the dump, and the dump multiplies it by the average deformation again, so after one step of a stretch
`e` along the first axis the grid is drawn stretched by `(1 + e)²`. -/
theorem C117_stretch_twice_fails (P : PieceIn) (h0 : P.imicro ≠ 0) (guarded : Bool) (npts : ℕ) (hn : 2 ≤ npts)
    (delt0 rate : ℝ) (hd : newSpacing guarded npts delt0 rate P.tdot = some (P.delt 0))
    (hF : ∀ i j, P.disgradmacro i j = if i = 0 ∧ j = 0 then rate * P.tdot else 0) (a b c : ℕ) :
    P.xintp a b c 0 = (1 + rate * P.tdot) ^ 2 * (delt0 * (a + P.start 0 - 1 / 2)) := by
  rw [C74_spacing guarded npts hn] at hd
  rw [xintp_eq, ← Option.some.inj hd]
  simp only [defgradavg, h0, if_false, hF]
  simp
  ring

/-- **C117 (gas).** *Fails in the code* at the points of a gas phase: their elastic strain is -100 in every component,
a mark a reader can spot, but the equivalent elastic strain computed from it is 200, which looks like a result. -/
theorem C117_gas_fails (P : PieceIn) (i j k : ℕ) (hg : P.gas (P.jphase i j k) = true) :
    P.eel i j k = (fun _ _ => -100) ∧ vmStrain (P.eel i j k) = 200 := by
  have e : P.eel i j k = fun _ _ => -100 := by
    unfold PieceIn.eel
    rw [if_pos hg]
  refine ⟨e, ?_⟩
  rw [e]
  unfold vmStrain
  simp only [vmDev_eq, Fin.sum_univ_three]
  have : (200 : ℝ) = Real.sqrt (200 ^ 2) := by rw [Real.sqrt_sq (by norm_num)]
  rw [this]
  congr 1
  have h1 : (2 : Fin 3) ≠ 0 := by decide
  have h2 : (2 : Fin 3) ≠ 1 := by decide
  norm_num [h1, h2, h1.symm, h2.symm]

/-! ### The hypotheses are met -/

example : shearPiece.CellArray "rank" 1 (fun _ _ _ => [.i32 0]) := (C117_arrays shearPiece).2.2.1

example : ∃ P : PieceIn, P.imicro ≠ 0 ∧ (∀ i j, P.delt i = P.delt j) ∧ P.disgradmacro 0 1 ≠ 0 :=
  ⟨{ shearPiece with delt := fun _ => 1 }, by simp [shearPiece], by simp, by simp [shearPiece]⟩

example : ∃ P : PieceIn, P.imicro ≠ 0 ∧ newSpacing false 4 1 (1 / 10) P.tdot = some (P.delt 0) ∧
    ∀ i j, P.disgradmacro i j = if i = 0 ∧ j = 0 then (1 / 10 : ℝ) * P.tdot else 0 := by
  refine ⟨{ shearPiece with
      delt := fun _ => 1 * (1 + 1 / 10 * 1)
      disgradmacro := fun i j => if i = 0 ∧ j = 0 then 1 / 10 * 1 else 0 }, by simp [shearPiece],
    C74_spacing false 4 (by norm_num) _ _ _, ?_⟩
  intro i j; rfl

example : ∃ P : PieceIn, P.gas (P.jphase 1 1 1) = false ∧ PosForm (P.cg66 1 1 1) ∧ T2.Sym (P.sg 1 1 1) ∧
    P.sg 1 1 1 ≠ 0 := by
  refine ⟨{ shearPiece with gas := fun _ => false, sg := fun _ _ _ _ _ => 1 }, rfl, ?_, fun _ _ => rfl, ?_⟩
  · intro x hx
    simp only [shearPiece]
    have e : ∀ i : Fin 6, ∑ j, x i * (if i = j then (1 : ℝ) else 0) * x j = x i ^ 2 := fun i => by
      simp [pow_two]
    simp only [e]
    obtain ⟨i, hi⟩ := Function.ne_iff.mp hx
    have hi : x i ≠ 0 := hi
    exact lt_of_lt_of_le (by positivity) (Finset.single_le_sum (f := fun i => x i ^ 2)
      (fun i _ => sq_nonneg _) (Finset.mem_univ i))
  · intro h
    have := congrFun (congrFun h 0) 0
    norm_num at this

end Fierro
