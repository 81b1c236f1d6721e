import Verif.Model.StlFile
import Mathlib.Tactic.Linarith
import Mathlib.Data.List.Forall2

/-!
# C151: reading a surface from a binary STL file
-/

namespace Fierro

/-! ## Specification -/

/-- A facet in a binary STL file: twelve floats of four bytes (normal, then three corners) and two bytes of attributes. -/
structure StlRecord where
  floats : List (List UInt8)
  attrs : List UInt8

/-- A record of the right size. -/
def StlRecord.Sized (r : StlRecord) : Prop :=
  r.floats.length = 12 ∧ (∀ f ∈ r.floats, f.length = 4) ∧ r.attrs.length = 2

/-- The bytes of a record in the file. -/
def StlRecord.bytes (r : StlRecord) : List UInt8 := r.floats.flatten ++ r.attrs

/-- The number `n` in four bytes, least significant first. -/
def fourBytes (n : Nat) : List UInt8 :=
  [UInt8.ofNat (n % 256), UInt8.ofNat (n / 256 % 256), UInt8.ofNat (n / 65536 % 256), UInt8.ofNat (n / 16777216 % 256)]

/-- `e` holds the twelve floats `fs`, in the order of the file: normal, first, second and third corner. -/
def StlEntry.Holds (e : StlEntry) (fs : Nat → Cells) : Prop :=
  (e.normal 0 = fs 0 ∧ e.normal 1 = fs 1 ∧ e.normal 2 = fs 2) ∧ (e.v1X = fs 3 ∧ e.v1Y = fs 4 ∧ e.v1Z = fs 5) ∧
    (e.v2X = fs 6 ∧ e.v2Y = fs 7 ∧ e.v2Z = fs 8) ∧ (e.v3X = fs 9 ∧ e.v3Y = fs 10 ∧ e.v3Z = fs 11)

/-- `e` holds the floats of the record. -/
def StlEntry.Of (e : StlEntry) (r : StlRecord) : Prop := e.Holds fun i => (r.floats.getD i []).map some

/-! ## Lemmas -/

/-- The four variables one after another. -/
def StlBuf.all (b : StlBuf) : Cells := b.normal ++ (b.v1 ++ (b.v2 ++ b.v3))

/-- All four variables have twelve bytes. -/
def StlBuf.Sized (b : StlBuf) : Prop :=
  b.normal.length = 12 ∧ b.v1.length = 12 ∧ b.v2.length = 12 ∧ b.v3.length = 12

/-- The four variables made from 48 bytes. -/
def bufOf (c : Cells) : StlBuf := ⟨c.take 12, (c.drop 12).take 12, (c.drop 24).take 12, (c.drop 36).take 12⟩

theorem fresh_sized : StlBuf.fresh.Sized := by simp [StlBuf.Sized, StlBuf.fresh]

theorem bufOf_sized {c : Cells} (h : c.length = 48) : (bufOf c).Sized := by
  simp [StlBuf.Sized, bufOf, h]

theorem readInto_length (s : InStream) (c : Cells) : (s.readInto c).2.length = c.length := by
  unfold InStream.readInto
  split
  · rfl
  · simp

/-- A read of a stream that has enough bytes. -/
theorem readInto_full (a t : List UInt8) (c : Cells) (h : a.length = c.length) :
    InStream.readInto ⟨a ++ t, false⟩ c = (⟨t, false⟩, a.map some) := by
  unfold InStream.readInto
  simp [← h]

/-- A read of a stream that has too few bytes. -/
theorem readInto_cut (a : List UInt8) (c : Cells) (h : a.length < c.length) :
    InStream.readInto ⟨a, false⟩ c = (⟨[], true⟩, a.map some ++ c.drop a.length) := by
  unfold InStream.readInto
  simp [h, List.take_of_length_le (Nat.le_of_lt h)]
  omega

theorem readInto_bad (a : List UInt8) (c : Cells) : InStream.readInto ⟨a, true⟩ c = (⟨a, true⟩, c) := by
  simp [InStream.readInto]

theorem readFacet_full (w t : List UInt8) (b : StlBuf) (hb : b.Sized) (hw : w.length = 48) :
    readFacet ⟨w ++ t, false⟩ b = (⟨t.drop 2, false⟩, bufOf (w.map some)) := by
  obtain ⟨h0, h1, h2, h3⟩ := hb
  have e : w ++ t = w.take 12 ++ ((w.drop 12).take 12 ++ ((w.drop 24).take 12 ++ ((w.drop 36).take 12 ++ t))) := by
    have a1 : w = w.take 12 ++ w.drop 12 := (List.take_append_drop 12 w).symm
    have a2 : w.drop 12 = (w.drop 12).take 12 ++ w.drop 24 := by
      have := (List.take_append_drop 12 (w.drop 12)).symm
      rwa [List.drop_drop] at this
    have a3 : w.drop 24 = (w.drop 24).take 12 ++ w.drop 36 := by
      have := (List.take_append_drop 12 (w.drop 24)).symm
      rwa [List.drop_drop] at this
    have a4 : (w.drop 36).take 12 = w.drop 36 := List.take_of_length_le (by simp [hw])
    rw [a4, ← List.append_assoc ((w.drop 24).take 12), ← a3, ← List.append_assoc ((w.drop 12).take 12), ← a2,
      ← List.append_assoc, ← a1]
  rw [e]
  simp only [readFacet]
  rw [readInto_full _ _ _ (by simp [hw, h0])]
  simp only []
  rw [readInto_full _ _ _ (by simp [hw, h1])]
  simp only []
  rw [readInto_full _ _ _ (by simp [hw, h2])]
  simp only []
  rw [readInto_full _ _ _ (by simp [hw, h3])]
  simp [InStream.skip, bufOf, List.map_take, List.map_drop]

theorem readFacet_bad (a : List UInt8) (b : StlBuf) : readFacet ⟨a, true⟩ b = (⟨a, true⟩, b) := by
  simp [readFacet, readInto_bad, InStream.skip]

theorem readFacets_bad (n : Nat) (a : List UInt8) (b : StlBuf) :
    readFacets n ⟨a, true⟩ b = List.replicate n b.entry := by
  induction n with
  | zero => rfl
  | succ n ih => simp [readFacets, readFacet_bad, ih, List.replicate_succ]

/-- What is left of a variable of bytes `c` when the bytes `a` are stored from its start. -/
def overwritten (a : List UInt8) (c : Cells) : Cells := a.map some ++ c.drop a.length

theorem readFacet_cut (a : List UInt8) (b : StlBuf) (hb : b.Sized) (ha : a.length < 48) :
    ∃ s', (readFacet ⟨a, false⟩ b).1 = ⟨s', true⟩ ∧ (readFacet ⟨a, false⟩ b).2 = bufOf (overwritten a b.all) := by
  obtain ⟨h0, h1, h2, h3⟩ := hb
  have tk : ∀ (x y : Cells), x.length = 12 → (x ++ y).take 12 = x := fun x y h => by
    rw [← h, List.take_left]
  have dk : ∀ (x y : Cells), x.length = 12 → (x ++ y).drop 12 = y := fun x y h => by
    rw [← h, List.drop_left]
  have key : ∀ (x0 x1 x2 x3 : Cells), x0.length = 12 → x1.length = 12 → x2.length = 12 → x3.length = 12 →
      bufOf (x0 ++ (x1 ++ (x2 ++ x3))) = ⟨x0, x1, x2, x3⟩ := by
    intro x0 x1 x2 x3 g0 g1 g2 g3
    have d1 := dk x0 (x1 ++ (x2 ++ x3)) g0
    have d2 : (x0 ++ (x1 ++ (x2 ++ x3))).drop 24 = x2 ++ x3 := by
      rw [show 24 = 12 + 12 from rfl, ← List.drop_drop, d1, dk _ _ g1]
    have d3 : (x0 ++ (x1 ++ (x2 ++ x3))).drop 36 = x3 := by
      rw [show 36 = 24 + 12 from rfl, ← List.drop_drop, d2, dk _ _ g2]
    rw [bufOf, tk _ _ g0, d1, tk _ _ g1, d2, tk _ _ g2, d3, List.take_of_length_le (by omega)]
  by_cases c0 : a.length < 12
  · refine ⟨[], ?_, ?_⟩
    · simp only [readFacet]
      rw [readInto_cut _ _ (by omega)]
      simp [readInto_bad, InStream.skip]
    · simp only [readFacet]
      rw [readInto_cut _ _ (by omega)]
      simp only [readInto_bad]
      rw [overwritten, StlBuf.all, List.drop_append_of_le_length (by omega), ← List.append_assoc,
        key _ _ _ _ (by simp; omega) h1 h2 h3]
  · obtain ⟨x, a1, rfl, hx⟩ : ∃ x a1, a = x ++ a1 ∧ x.length = 12 :=
      ⟨a.take 12, a.drop 12, (List.take_append_drop 12 a).symm, by simp; omega⟩
    have l1 : a1.length < 36 := by simp at ha; omega
    have o1 : overwritten (x ++ a1) b.all = x.map some ++ overwritten a1 (b.v1 ++ (b.v2 ++ b.v3)) := by
      simp only [overwritten, StlBuf.all, List.map_append, List.append_assoc, List.length_append, hx]
      rw [← List.drop_drop, dk _ _ h0]
    by_cases c1 : a1.length < 12
    · refine ⟨[], ?_, ?_⟩
      · simp only [readFacet]
        rw [readInto_full _ _ _ (by omega)]
        simp only []
        rw [readInto_cut _ _ (by omega)]
        simp [readInto_bad, InStream.skip]
      · simp only [readFacet]
        rw [readInto_full _ _ _ (by omega)]
        simp only []
        rw [readInto_cut _ _ (by omega)]
        simp only [readInto_bad]
        rw [o1, overwritten, List.drop_append_of_le_length (by omega), ← List.append_assoc (a1.map some),
          key _ _ _ _ (by simp; omega) (by simp; omega) h2 h3]
    · obtain ⟨y, a2, rfl, hy⟩ : ∃ y a2, a1 = y ++ a2 ∧ y.length = 12 :=
        ⟨a1.take 12, a1.drop 12, (List.take_append_drop 12 a1).symm, by simp; omega⟩
      have l2 : a2.length < 24 := by simp at l1; omega
      have o2 : overwritten (y ++ a2) (b.v1 ++ (b.v2 ++ b.v3)) = y.map some ++ overwritten a2 (b.v2 ++ b.v3) := by
        simp only [overwritten, List.map_append, List.append_assoc, List.length_append, hy]
        rw [← List.drop_drop, dk _ _ h1]
      by_cases c2 : a2.length < 12
      · refine ⟨[], ?_, ?_⟩
        · simp only [readFacet]
          rw [readInto_full _ _ _ (by omega)]
          simp only []
          rw [readInto_full _ _ _ (by omega)]
          simp only []
          rw [readInto_cut _ _ (by omega)]
          simp [readInto_bad, InStream.skip]
        · simp only [readFacet]
          rw [readInto_full _ _ _ (by omega)]
          simp only []
          rw [readInto_full _ _ _ (by omega)]
          simp only []
          rw [readInto_cut _ _ (by omega)]
          simp only [readInto_bad]
          rw [o1, o2, overwritten, List.drop_append_of_le_length (by omega), ← List.append_assoc (a2.map some),
            key _ _ _ _ (by simp; omega) (by simp; omega) (by simp; omega) h3]
      · obtain ⟨z, a3, rfl, hz⟩ : ∃ z a3, a2 = z ++ a3 ∧ z.length = 12 :=
          ⟨a2.take 12, a2.drop 12, (List.take_append_drop 12 a2).symm, by simp; omega⟩
        have l3 : a3.length < 12 := by simp at l2; omega
        have o3 : overwritten (z ++ a3) (b.v2 ++ b.v3) = z.map some ++ overwritten a3 b.v3 := by
          simp only [overwritten, List.map_append, List.append_assoc, List.length_append, hz]
          rw [← List.drop_drop, dk _ _ h2]
        refine ⟨[], ?_, ?_⟩
        · simp only [readFacet]
          rw [readInto_full _ _ _ (by omega)]
          simp only []
          rw [readInto_full _ _ _ (by omega)]
          simp only []
          rw [readInto_full _ _ _ (by omega)]
          simp only []
          rw [readInto_cut _ _ (by omega)]
          simp [InStream.skip]
        · simp only [readFacet]
          rw [readInto_full _ _ _ (by omega)]
          simp only []
          rw [readInto_full _ _ _ (by omega)]
          simp only []
          rw [readInto_full _ _ _ (by omega)]
          simp only []
          rw [readInto_cut _ _ (by omega)]
          rw [o1, o2, o3, overwritten,
            key _ _ _ _ (by simp; omega) (by simp; omega) (by simp; omega) (by simp; omega)]

/-- The float number `i` of 48 bytes. -/
def floatOf (c : Cells) (i : Nat) : Cells := (c.drop (4 * i)).take 4

theorem entry_holds (c : Cells) : (bufOf c).entry.Holds (floatOf c) := by
  simp [StlEntry.Holds, StlBuf.entry, bufOf, floatOf, floatAt, List.drop_take, List.take_take, List.drop_drop]

theorem flatten_four : ∀ (l : List (List UInt8)) (i : Nat), (∀ f ∈ l, f.length = 4) →
    (l.flatten.drop (4 * i)).take 4 = l.getD i []
  | [], i, _ => by simp
  | f :: l, 0, h => by
    have := h f (by simp)
    simp [List.take_append_of_le_length (Nat.le_of_eq this.symm), List.take_of_length_le (Nat.le_of_eq this)]
  | f :: l, i + 1, h => by
    have hf := h f (by simp)
    have : (f ++ l.flatten).drop (4 * (i + 1)) = l.flatten.drop (4 * i) := by
      rw [show 4 * (i + 1) = f.length + 4 * i by omega, ← List.drop_drop, List.drop_left]
    rw [List.flatten_cons, this, flatten_four l i fun g hg => h g (by simp [hg])]
    simp

theorem floats_length : ∀ l : List (List UInt8), (∀ f ∈ l, f.length = 4) → l.flatten.length = 4 * l.length
  | [], _ => rfl
  | f :: l, h => by
    have := floats_length l fun g hg => h g (by simp [hg])
    have hf := h f (by simp)
    simp only [List.flatten_cons, List.length_append, List.length_cons, this, hf]; omega

theorem record_entry (r : StlRecord) (h : r.Sized) : (bufOf (r.floats.flatten.map some)).entry.Of r := by
  have := entry_holds (r.floats.flatten.map some)
  have e : floatOf (r.floats.flatten.map some) = fun i => (r.floats.getD i []).map some := by
    funext i
    rw [floatOf, ← List.map_drop, ← List.map_take, flatten_four _ _ h.2.1]
  rw [e] at this
  exact this

theorem readFacets_full : ∀ (rs : List StlRecord) (t : List UInt8) (b : StlBuf) (m : Nat), b.Sized →
    (∀ r ∈ rs, r.Sized) → ∃ es, List.Forall₂ StlEntry.Of es rs ∧
      readFacets (rs.length + m) ⟨(rs.map StlRecord.bytes).flatten ++ t, false⟩ b =
        es ++ readFacets m ⟨t, false⟩ (((rs.getLast?).map fun r => bufOf (r.floats.flatten.map some)).getD b)
  | [], t, b, m, _, _ => ⟨[], .nil, by simp⟩
  | r :: rs, t, b, m, hb, h => by
    have hr := h r (by simp)
    have h48 : r.floats.flatten.length = 48 := by rw [floats_length _ hr.2.1, hr.1]
    obtain ⟨es, he, hes⟩ := readFacets_full rs t (bufOf (r.floats.flatten.map some)) m
      (bufOf_sized (by rw [List.length_map, h48])) fun q hq => h q (by simp [hq])
    refine ⟨(bufOf (r.floats.flatten.map some)).entry :: es, .cons (record_entry r hr) he, ?_⟩
    have e1 : ((r :: rs).map StlRecord.bytes).flatten ++ t =
        r.floats.flatten ++ (r.attrs ++ ((rs.map StlRecord.bytes).flatten ++ t)) := by
      simp [StlRecord.bytes]
    rw [show (r :: rs).length + m = rs.length + m + 1 by simp; omega, readFacets, e1, readFacet_full _ _ _ hb h48]
    simp only [List.cons_append]
    rw [show List.drop 2 (r.attrs ++ ((rs.map StlRecord.bytes).flatten ++ t)) = (rs.map StlRecord.bytes).flatten ++ t by
      rw [← hr.2.2, List.drop_left], hes]
    cases rs with
    | nil => simp
    | cons q qs =>
      rw [List.getLast?_cons_cons, List.getLast?_eq_getLast_of_ne_nil (by simp)]
      rfl

theorem cellsValue_four (a b c d : UInt8) :
    cellsValue [some a, some b, some c, some d] =
      some (a.toNat + 256 * (b.toNat + 256 * (c.toNat + 256 * d.toNat))) := by
  simp [cellsValue]

theorem fourBytes_value (n : Nat) (h : n < 2 ^ 32) : cellsValue ((fourBytes n).map some) = some n := by
  simp only [fourBytes, List.map_cons, List.map_nil, cellsValue_four, UInt8.toNat_ofNat']
  congr 1
  omega

theorem readStl_start (head t : List UInt8) (c : List UInt8) (hh : head.length = 80) (hc : c.length = 4) :
    readStl (some (head ++ (c ++ t))) =
      (cellsValue (c.map some)).map fun n => readFacets n ⟨t, false⟩ StlBuf.fresh := by
  simp only [readStl, Option.getD_some, Option.isNone_some]
  rw [readInto_full _ _ _ (by simp [hh])]
  simp only []
  rw [readInto_full _ _ _ (by simp [hc])]

/-! ## The properties -/

/-- **C151.**  A binary STL file is read back: with a heading of 80 bytes, the number of facets and the facets, the
reader gives as many facets, each with the floats of its record in their places, whatever the heading, the attributes and
the bytes after the last facet are. -/
theorem C151_read (head : List UInt8) (rs : List StlRecord) (after : List UInt8) (hh : head.length = 80)
    (hn : rs.length < 2 ^ 32) (hr : ∀ r ∈ rs, r.Sized) :
    ∃ es, readStl (some (head ++ (fourBytes rs.length ++ ((rs.map StlRecord.bytes).flatten ++ after)))) = some es ∧
      List.Forall₂ StlEntry.Of es rs := by
  obtain ⟨es, he, hes⟩ := readFacets_full rs after StlBuf.fresh 0 fresh_sized hr
  refine ⟨es, ?_, he⟩
  rw [readStl_start _ _ _ hh rfl, fourBytes_value _ hn]
  simpa [readFacets] using hes

/-- **C151.**  The last record does not need its two bytes of attributes: a file that ends with the last corner is read
like the whole file. -/
theorem C151_last_attributes (head : List UInt8) (rs : List StlRecord) (r : StlRecord) (hh : head.length = 80)
    (hn : rs.length + 1 < 2 ^ 32) (hr : ∀ q ∈ rs ++ [r], q.Sized) :
    ∃ es, readStl (some (head ++ (fourBytes (rs.length + 1) ++ ((rs.map StlRecord.bytes).flatten ++ r.floats.flatten)))) =
      some es ∧ List.Forall₂ StlEntry.Of es (rs ++ [r]) := by
  obtain ⟨es, he, hes⟩ := readFacets_full rs r.floats.flatten StlBuf.fresh 1 fresh_sized fun q hq => hr q (by simp [hq])
  have hrs := hr r (by simp)
  have h48 : r.floats.flatten.length = 48 := by rw [floats_length _ hrs.2.1, hrs.1]
  refine ⟨es ++ [(bufOf (r.floats.flatten.map some)).entry], ?_, ?_⟩
  · rw [readStl_start _ _ _ hh rfl, fourBytes_value _ hn]
    have hb : (((rs.getLast?).map fun r => bufOf (r.floats.flatten.map some)).getD StlBuf.fresh).Sized := by
      rcases hl : rs.getLast? with _ | q
      · exact fresh_sized
      · have hq := hr q (by simp [List.mem_of_getLast? hl])
        exact bufOf_sized (by rw [List.length_map, floats_length _ hq.2.1, hq.1])
    have := readFacet_full r.floats.flatten [] _ hb h48
    rw [List.append_nil] at this
    rw [Option.map_some, hes]
    simp only [readFacets, this]
  · exact List.rel_append he (.cons (record_entry r hrs) .nil)

/-- The bytes the variables of the reader hold after the complete records `rs`: those of the last one, or nothing. -/
def leftOver (rs : List StlRecord) : Cells :=
  match rs.getLast? with
  | some r => r.floats.flatten.map some
  | none => List.replicate 48 none

/-- **C151.**  A file that ends too early is not refused.  With `rs.length + m` facets announced, `rs` complete and
`tail` the bytes of the first incomplete record, all `m` missing facets are the same: the bytes of `tail`, and from
there on those of the last complete facet (values that were never stored, if there is none). -/
theorem C151_short_file (head : List UInt8) (rs : List StlRecord) (m : Nat) (tail : List UInt8)
    (hh : head.length = 80) (hn : rs.length + m < 2 ^ 32) (hr : ∀ r ∈ rs, r.Sized) (ht : tail.length < 48) :
    ∃ es e, readStl (some (head ++ (fourBytes (rs.length + m) ++ ((rs.map StlRecord.bytes).flatten ++ tail)))) =
      some (es ++ List.replicate m e) ∧ List.Forall₂ StlEntry.Of es rs ∧
      e.Holds fun i => (((tail.map some ++ (leftOver rs).drop tail.length).drop (4 * i)).take 4) := by
  obtain ⟨es, he, hes⟩ := readFacets_full rs tail StlBuf.fresh m fresh_sized hr
  have hb : (((rs.getLast?).map fun r => bufOf (r.floats.flatten.map some)).getD StlBuf.fresh).Sized ∧
      (((rs.getLast?).map fun r => bufOf (r.floats.flatten.map some)).getD StlBuf.fresh).all = leftOver rs := by
    rcases hl : rs.getLast? with _ | q
    · exact ⟨fresh_sized, by simp [leftOver, hl, StlBuf.fresh, StlBuf.all]⟩
    · have hq := hr q (List.mem_of_getLast? hl)
      have h48 : (q.floats.flatten.map some).length = 48 := by
        rw [List.length_map, floats_length _ hq.2.1, hq.1]
      refine ⟨bufOf_sized h48, ?_⟩
      simp only [leftOver, hl, Option.map_some, Option.getD_some]
      generalize q.floats.flatten.map some = c at h48 ⊢
      have a1 := List.take_append_drop 12 c
      have a2 := List.take_append_drop 12 (c.drop 12)
      have a3 := List.take_append_drop 12 (c.drop 24)
      rw [List.drop_drop] at a2 a3
      simp only [StlBuf.all, bufOf]
      rw [List.take_of_length_le (l := c.drop 36) (by simp [h48]), a3, a2, a1]
  generalize (((rs.getLast?).map fun r => bufOf (r.floats.flatten.map some)).getD StlBuf.fresh) = b at hb hes
  obtain ⟨s', h1, h2⟩ := readFacet_cut tail b hb.1 ht
  refine ⟨es, (bufOf (overwritten tail (leftOver rs))).entry, ?_, he, entry_holds _⟩
  rw [readStl_start _ _ _ hh rfl, fourBytes_value _ hn]
  simp only [Option.map_some, hes]
  cases m with
  | zero => simp [readFacets]
  | succ m => rw [readFacets, h1, h2, readFacets_bad, List.replicate_succ, hb.2]

/-- **C151 (a finding).**  A file cut after a facet gives the last facet again for every missing one, with no message:
the surface read is not the one of the file, and facets met twice change the count of crossings of a ray. -/
theorem C151_cut_file_fails (head : List UInt8) (rs : List StlRecord) (r : StlRecord) (m : Nat)
    (hh : head.length = 80) (hn : rs.length + 1 + m < 2 ^ 32) (hr : ∀ q ∈ rs ++ [r], q.Sized) :
    ∃ es, readStl (some (head ++ (fourBytes (rs.length + 1 + m) ++ ((rs ++ [r]).map StlRecord.bytes).flatten))) = some es ∧
      List.Forall₂ StlEntry.Of es (rs ++ List.replicate (m + 1) r) := by
  have hn' : (rs ++ [r]).length + m < 2 ^ 32 := by simpa using hn
  obtain ⟨es, e, h1, h2, h3⟩ := C151_short_file head (rs ++ [r]) m [] hh hn' hr (by simp)
  have hrs := hr r (by simp)
  refine ⟨_, by simpa using h1, ?_⟩
  have he : e.Of r := by
    have : (fun i => ((([] : List UInt8).map some ++ (leftOver (rs ++ [r])).drop ([] : List UInt8).length).drop
        (4 * i)).take 4) = fun i => (r.floats.getD i []).map some := by
      funext i
      simp only [List.map_nil, List.nil_append, List.length_nil, List.drop_zero, leftOver, List.getLast?_append,
        List.getLast?_singleton, Option.some_or]
      rw [← List.map_drop, ← List.map_take, flatten_four _ _ hrs.2.1]
    rw [this] at h3
    exact h3
  have : rs ++ List.replicate (m + 1) r = (rs ++ [r]) ++ List.replicate m r := by simp [List.replicate_succ]
  rw [this]
  refine List.rel_append h2 ?_
  clear this h1 h2 hn hn'
  induction m with
  | zero => exact .nil
  | succ m ih => exact .cons he ih

/-- **C151.**  The number of facets is determined exactly for files of at least 84 bytes. -/
theorem C151_determined (file : Option (List UInt8)) :
    (∃ es, readStl file = some es) ↔ ∃ bytes, file = some bytes ∧ 84 ≤ bytes.length := by
  have hv : ∀ c : Cells, (∃ v, cellsValue c = some v) ↔ none ∉ c := by
    intro c
    induction c with
    | nil => simp [cellsValue]
    | cons o c ih =>
      cases o with
      | none => simp [cellsValue]
      | some b =>
        simp only [cellsValue, Option.map_eq_some_iff, List.mem_cons, reduceCtorEq, false_or]
        rw [← ih]
        exact ⟨fun ⟨_, v, h, _⟩ => ⟨v, h⟩, fun ⟨v, h⟩ => ⟨_, v, h, rfl⟩⟩
  rcases file with _ | bytes
  · simp [readStl, InStream.readInto, List.replicate, cellsValue]
  · have hm : (∃ es, readStl (some bytes) = some es) ↔
        ∃ v, cellsValue ((InStream.readInto ⟨bytes, false⟩ (List.replicate 80 none)).1.readInto
          (List.replicate 4 none)).2 = some v := by
      simp only [readStl, Option.getD_some, Option.isNone_some, Option.map_eq_some_iff]
      exact ⟨fun ⟨_, v, h, _⟩ => ⟨v, h⟩, fun ⟨v, h⟩ => ⟨_, v, h, rfl⟩⟩
    rw [hm, hv]
    simp only [Option.some.injEq, exists_eq_left']
    by_cases h80 : bytes.length < 80
    · rw [readInto_cut _ _ (by simpa using h80), readInto_bad]
      simp [List.replicate]
      omega
    · obtain ⟨x, y, rfl, hx⟩ : ∃ x y, bytes = x ++ y ∧ x.length = 80 :=
        ⟨bytes.take 80, bytes.drop 80, (List.take_append_drop 80 bytes).symm, by simp; omega⟩
      rw [readInto_full _ _ _ (by simp [hx])]
      simp only [List.length_append, hx]
      by_cases h4 : y.length < 4
      · rw [readInto_cut _ _ (by simpa using h4)]
        simp only [List.mem_append, List.mem_map, reduceCtorEq, and_false, exists_false, false_or, List.drop_replicate,
          List.mem_replicate, and_true]
        omega
      · obtain ⟨z, w, rfl, hz⟩ : ∃ z w, y = z ++ w ∧ z.length = 4 :=
          ⟨y.take 4, y.drop 4, (List.take_append_drop 4 y).symm, by simp; omega⟩
        rw [readInto_full _ _ _ (by simp [hz])]
        simp [hz]
        omega

/-- **C151 (a finding).**  A file that cannot be opened is only reported: the reader goes on with a number of facets that
was never stored. -/
theorem C151_unopened_fails : readStl none = none := by
  rw [← Option.not_isSome_iff_eq_none, Option.isSome_iff_exists, C151_determined]
  simp

/-- **C151 (a finding).**  A text STL file is not recognised: characters where the number of facets is expected (a tab or
greater each) are taken for more than 150 million facets. -/
theorem C151_text_fails (head : List UInt8) (a b c d : UInt8) (t : List UInt8) (hh : head.length = 80) (ha : 9 ≤ a.toNat)
    (hb : 9 ≤ b.toNat) (hc : 9 ≤ c.toNat) (hd : 9 ≤ d.toNat) :
    ∃ es, readStl (some (head ++ ([a, b, c, d] ++ t))) = some es ∧ 150000000 ≤ es.length := by
  have hl : ∀ n s b, (readFacets n s b).length = n := by
    intro n
    induction n with
    | zero => intro s b; rfl
    | succ n ih => intro s b; simp [readFacets, ih]
  rw [readStl_start _ _ _ hh rfl]
  simp only [List.map_cons, List.map_nil, cellsValue_four, Option.map_some]
  refine ⟨_, rfl, ?_⟩
  rw [hl]
  omega

/-- A record whose bytes are all different. -/
def sampleRecord : StlRecord :=
  ⟨(List.range 12).map fun i => (List.range 4).map fun j => UInt8.ofNat (4 * i + j), [100, 101]⟩

/-- The hypotheses are met by a file of two facets. -/
example : ∃ es, readStl (some (List.replicate 80 32 ++ (fourBytes 2 ++
      (([sampleRecord, sampleRecord].map StlRecord.bytes).flatten ++ [])))) = some es ∧
    List.Forall₂ StlEntry.Of es [sampleRecord, sampleRecord] :=
  C151_read _ [sampleRecord, sampleRecord] [] (by simp) (by decide) (by
    intro r hr
    have : r = sampleRecord := by simpa using hr
    subst this
    refine ⟨by decide, by decide, by decide⟩)

end Fierro
