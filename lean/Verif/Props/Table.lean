import Verif.Model.Table
import Mathlib.Tactic.Ring
import Mathlib.Tactic.Linarith
import Mathlib.Tactic.FieldSimp
import Mathlib.Tactic.Positivity
import Mathlib.Tactic.NormNum

/-!
# C31: table lookup
-/

set_option linter.unusedSectionVars false

namespace Fierro

variable {K : Type} [Field K] [LinearOrder K] [IsStrictOrderedRing K]

/-- Strictly increasing independent column. -/
def Increasing (rows : List (K × K)) : Prop :=
  ∀ (i j : ℕ) (p q : K × K), i < j → rows[i]? = some p → rows[j]? = some q → p.1 < q.1

theorem tableLoop_spec (rows : List (K × K)) (x : K) (is : List ℕ)
    (h : ∀ i ∈ is, i + 1 < rows.length) :
    (tableLoop rows x is = some 0 ∧
      ∀ i ∈ is, ∀ p q, rows[i]? = some p → rows[i + 1]? = some q → ¬ (p.1 ≤ x ∧ x ≤ q.1)) ∨
    ∃ i p q, rows[i]? = some p ∧ rows[i + 1]? = some q ∧ p.1 ≤ x ∧ x ≤ q.1 ∧
      tableLoop rows x is = some (segmentValue x p q) := by
  induction is with
  | nil => left; exact ⟨rfl, by simp⟩
  | cons i is ih =>
    have hi := h i List.mem_cons_self
    have hp : rows[i]? = some rows[i] := List.getElem?_eq_getElem (by omega)
    have hq : rows[i + 1]? = some rows[i + 1] := List.getElem?_eq_getElem hi
    simp only [tableLoop, hp, hq]
    by_cases hm : rows[i].1 ≤ x ∧ x ≤ rows[i + 1].1
    · right
      exact ⟨i, _, _, hp, hq, hm.1, hm.2, by rw [if_pos hm]⟩
    · rw [if_neg hm]
      rcases ih fun j hj => h j (List.mem_cons_of_mem _ hj) with ⟨h1, h2⟩ | h1
      · left
        refine ⟨h1, fun j hj p q ep eq => ?_⟩
        rcases List.mem_cons.mp hj with rfl | hj
        · rw [hp] at ep; rw [hq] at eq; cases ep; cases eq; exact hm
        · exact h2 j hj p q ep eq
      · right; exact h1

/-- A value strictly between the first and the last entry lies on some segment. -/
theorem exists_segment (rows : List (K × K)) (x : K) (first last : K × K)
    (h0 : rows[0]? = some first) (hl : rows[rows.length - 1]? = some last)
    (h1 : first.1 ≤ x) (h2 : x < last.1) :
    ∃ i p q, i + 1 < rows.length ∧ rows[i]? = some p ∧ rows[i + 1]? = some q ∧ p.1 ≤ x ∧ x ≤ q.1 := by
  by_contra hc
  push Not at hc
  have key : ∀ (i : ℕ) (p : K × K), rows[i]? = some p → p.1 ≤ x := by
    intro i
    induction i with
    | zero => intro p hp; rw [h0] at hp; cases hp; exact h1
    | succ i ih =>
      intro p hp
      have hi := (List.getElem?_eq_some_iff.mp hp).1
      have := hc i rows[i] p hi (List.getElem?_eq_getElem (by omega)) hp
        (ih _ (List.getElem?_eq_getElem (by omega)))
      exact this.le
  exact absurd (key _ _ hl) (not_le.mpr h2)

/-- What a lookup returns: the first value, the last value, or the value on a segment that contains
the argument. -/
theorem tableLookup_cases (rows : List (K × K)) (hne : rows ≠ []) (x : K) :
    (∃ p, rows[0]? = some p ∧ x ≤ p.1 ∧ tableLookup rows x = some p.2) ∨
    (∃ p, rows[rows.length - 1]? = some p ∧ p.1 ≤ x ∧ tableLookup rows x = some p.2) ∨
    ∃ i p q, rows[i]? = some p ∧ rows[i + 1]? = some q ∧ p.1 ≤ x ∧ x ≤ q.1 ∧
      tableLookup rows x = some (segmentValue x p q) := by
  have hlen : 0 < rows.length := List.length_pos_of_ne_nil hne
  have hp : rows[0]? = some rows[0] := List.getElem?_eq_getElem hlen
  have hq : rows[rows.length - 1]? = some rows[rows.length - 1] := List.getElem?_eq_getElem (by omega)
  have e : tableLookup rows x = if x ≤ rows[0].1 then some rows[0].2
      else if rows[rows.length - 1].1 ≤ x then some rows[rows.length - 1].2
      else tableLoop rows x (List.range (rows.length - 1)) := by
    simp only [tableLookup, hp, hq]
    rw [if_neg (by omega)]
  rw [e]
  by_cases h1 : x ≤ rows[0].1
  · left; exact ⟨_, hp, h1, by rw [if_pos h1]⟩
  · by_cases h2 : rows[rows.length - 1].1 ≤ x
    · right; left; exact ⟨_, hq, h2, by rw [if_neg h1, if_pos h2]⟩
    · right; right
      rw [if_neg h1, if_neg h2]
      rcases tableLoop_spec rows x (List.range (rows.length - 1))
          (fun i hi => by have := List.mem_range.mp hi; omega) with ⟨-, h4⟩ | h4
      · obtain ⟨i, p, q, hi, e1, e2, h5, h6⟩ := exists_segment rows x _ _ hp hq
          (not_le.mp h1).le (not_le.mp h2)
        exact absurd ⟨h5, h6⟩ (h4 i (List.mem_range.mpr (by omega)) p q e1 e2)
      · exact h4

/-- **C31**: a lookup never reads outside the table, whatever the table (also unsorted). -/
theorem C31_in_range (rows : List (K × K)) (x : K) : ∃ y, tableLookup rows x = some y := by
  by_cases hne : rows = []
  · subst hne; exact ⟨0, rfl⟩
  · rcases tableLookup_cases rows hne x with ⟨p, -, -, h⟩ | ⟨p, -, -, h⟩ | ⟨i, p, q, -, -, -, -, h⟩ <;>
      exact ⟨_, h⟩

/-- **C31**, bounds: the result lies between the smallest and the largest stored value, whatever
the table; in particular the fallback value is never returned for a non-empty table. -/
theorem C31_bounded (rows : List (K × K)) (hne : rows ≠ []) (x lo hi y : K)
    (hlo : ∀ p ∈ rows, lo ≤ p.2) (hhi : ∀ p ∈ rows, p.2 ≤ hi) (h : tableLookup rows x = some y) :
    lo ≤ y ∧ y ≤ hi := by
  rcases tableLookup_cases rows hne x with ⟨p, hp, -, e⟩ | ⟨p, hp, -, e⟩ | ⟨i, p, q, hp, hq, h1, h2, e⟩
  · rw [e] at h; cases h
    exact ⟨hlo p (List.mem_of_getElem? hp), hhi p (List.mem_of_getElem? hp)⟩
  · rw [e] at h; cases h
    exact ⟨hlo p (List.mem_of_getElem? hp), hhi p (List.mem_of_getElem? hp)⟩
  · rw [e] at h; cases h
    have a1 := hlo p (List.mem_of_getElem? hp)
    have a2 := hlo q (List.mem_of_getElem? hq)
    have a3 := hhi p (List.mem_of_getElem? hp)
    have a4 := hhi q (List.mem_of_getElem? hq)
    unfold segmentValue
    split_ifs with hpq
    · exact ⟨a1, a3⟩
    · have hlt : 0 < q.1 - p.1 := by
        have : p.1 ≤ q.1 := h1.trans h2
        rcases lt_or_eq_of_le this with h | h
        · linarith
        · exact absurd h.symm hpq
      have b0 : 0 ≤ (x - p.1) / (q.1 - p.1) := div_nonneg (by linarith) hlt.le
      have b1 : (x - p.1) / (q.1 - p.1) ≤ 1 := (div_le_one hlt).mpr (by linarith)
      set a := (x - p.1) / (q.1 - p.1)
      constructor <;> nlinarith

/-- **C31**, interpolation: on a table with increasing independent column the value between two
neighbouring rows is that of the straight line through them. -/
theorem C31_linear_between (rows : List (K × K)) (hs : Increasing rows) (i : ℕ) (p q : K × K)
    (hp : rows[i]? = some p) (hq : rows[i + 1]? = some q) (x : K) (h1 : p.1 ≤ x) (h2 : x ≤ q.1) :
    tableLookup rows x = some (p.2 + (q.2 - p.2) * ((x - p.1) / (q.1 - p.1))) := by
  have hpq : p.1 < q.1 := hs i (i + 1) p q (by omega) hp hq
  have hd : q.1 - p.1 ≠ 0 := by intro h; linarith
  have hne : rows ≠ [] := by rintro rfl; simp at hp
  have hi := (List.getElem?_eq_some_iff.mp hq).1
  rcases tableLookup_cases rows hne x with ⟨r, hr, hx, e⟩ | ⟨r, hr, hx, e⟩ |
    ⟨j, r, t, hr, ht, h3, h4, e⟩
  · rw [e]
    by_cases h0 : i = 0
    · subst h0
      rw [hp] at hr; cases hr
      have : x = p.1 := le_antisymm hx h1
      rw [this]; simp
    · have := hs 0 i r p (by omega) hr hp
      linarith
  · rw [e]
    by_cases h0 : i + 1 = rows.length - 1
    · rw [← h0, hq] at hr; cases hr
      have : x = q.1 := le_antisymm h2 hx
      rw [this, div_self hd]; congr 1; ring
    · have := hs (i + 1) (rows.length - 1) q r (by omega) hq hr
      linarith
  · rw [e]
    have hrt : r.1 < t.1 := hs j (j + 1) r t (by omega) hr ht
    have hd' : t.1 - r.1 ≠ 0 := by intro h; linarith
    unfold segmentValue
    rw [if_neg (by intro h; linarith)]
    rcases Nat.lt_trichotomy i j with hij | rfl | hij
    · -- only possible if `x` is the common point
      have hqr : q.1 ≤ r.1 := by
        rcases Nat.lt_or_eq_of_le (Nat.succ_le_of_lt hij) with h | h
        · exact (hs (i + 1) j q r h hq hr).le
        · have h' : i + 1 = j := h
          rw [h'] at hq; rw [hq] at hr; cases hr; exact le_rfl
      have hxq : x = q.1 := le_antisymm h2 (by linarith)
      have hxr : x = r.1 := le_antisymm (by linarith) h3
      have hj : i + 1 = j := by
        by_contra hne'
        have := hs (i + 1) j q r (by omega) hq hr
        linarith
      rw [hj] at hq; rw [hq] at hr; cases hr
      rw [hxq, div_self hd]
      simp only [sub_self, zero_div]; congr 1; ring
    · rw [hp] at hr; rw [hq] at ht; cases hr; cases ht
      congr 1; ring
    · have htp : t.1 ≤ p.1 := by
        rcases Nat.lt_or_eq_of_le (Nat.succ_le_of_lt hij) with h | h
        · exact (hs (j + 1) i t p h ht hp).le
        · have h' : j + 1 = i := h
          rw [h'] at ht; rw [hp] at ht; cases ht; exact le_rfl
      have hxp : x = p.1 := le_antisymm (by linarith) h1
      have hxt : x = t.1 := le_antisymm h4 (by linarith)
      have hj : j + 1 = i := by
        by_contra hne'
        have := hs (j + 1) i t p (by omega) ht hp
        linarith
      rw [hj] at ht; rw [hp] at ht; cases ht
      rw [hxp, div_self hd']
      simp only [sub_self, zero_div]; congr 1; ring

/-- **C31**, stored points are returned exactly. -/
theorem C31_stored_points (rows : List (K × K)) (hs : Increasing rows) (i : ℕ) (p : K × K)
    (hp : rows[i]? = some p) : tableLookup rows p.1 = some p.2 := by
  have hi := (List.getElem?_eq_some_iff.mp hp).1
  by_cases hlast : i + 1 < rows.length
  · have hq : rows[i + 1]? = some rows[i + 1] := List.getElem?_eq_getElem hlast
    have hpq : p.1 < rows[i + 1].1 := hs i (i + 1) p _ (by omega) hp hq
    rw [C31_linear_between rows hs i p _ hp hq p.1 le_rfl hpq.le]
    simp
  · have hi' : i = rows.length - 1 := by omega
    have hne : rows ≠ [] := by rintro rfl; simp at hp
    by_cases h1 : rows.length = 1
    · obtain ⟨r, rfl⟩ := List.length_eq_one_iff.mp h1
      have : i = 0 := by simpa using hi'
      subst this
      simp at hp; subst hp
      simp [tableLookup]
    · have hr : rows[i - 1]? = some rows[i - 1] := List.getElem?_eq_getElem (by omega)
      have hp' : rows[i - 1 + 1]? = some p := by rw [show i - 1 + 1 = i by omega]; exact hp
      have hlt : rows[i - 1].1 < p.1 := hs (i - 1) i _ p (by omega) hr hp
      rw [C31_linear_between rows hs (i - 1) _ p hr hp' p.1 hlt.le le_rfl, div_self (by intro h; linarith)]
      congr 1; ring

/-- **C31**, clamping below and above. -/
theorem C31_clamped (rows : List (K × K)) (first last : K × K) (h0 : rows[0]? = some first)
    (hl : rows[rows.length - 1]? = some last) (x : K) :
    (x ≤ first.1 → tableLookup rows x = some first.2) ∧
    (first.1 < x → last.1 ≤ x → tableLookup rows x = some last.2) := by
  have hlen : 0 < rows.length := (List.getElem?_eq_some_iff.mp h0).1
  unfold tableLookup
  rw [if_neg (by omega), h0, hl]
  refine ⟨fun h => by simp [h], fun h1 h2 => ?_⟩
  simp [not_le.mpr h1, h2]

/-- **C31**, a table that increases in both columns gives an increasing function. -/
theorem C31_monotone (rows : List (K × K)) (hs : Increasing rows) (hne : rows ≠ [])
    (hy : ∀ (i j : ℕ) (p q : K × K), i ≤ j → rows[i]? = some p → rows[j]? = some q → p.2 ≤ q.2)
    (x x' y y' : K) (hx : x ≤ x') (h : tableLookup rows x = some y)
    (h' : tableLookup rows x' = some y') : y ≤ y' := by
  -- value on a segment lies between its ends
  have seg : ∀ (i : ℕ) (p q : K × K), rows[i]? = some p → rows[i + 1]? = some q → ∀ z, p.1 ≤ z → z ≤ q.1 →
      p.2 ≤ segmentValue z p q ∧ segmentValue z p q ≤ q.2 := by
    intro i p q hp hq z h1 h2
    have hpq := hs i (i + 1) p q (by omega) hp hq
    have hyy := hy i (i + 1) p q (by omega) hp hq
    unfold segmentValue
    rw [if_neg (by intro h; linarith)]
    have b0 : 0 ≤ (z - p.1) / (q.1 - p.1) := div_nonneg (by linarith) (by linarith)
    have b1 : (z - p.1) / (q.1 - p.1) ≤ 1 := (div_le_one (by linarith)).mpr (by linarith)
    set a := (z - p.1) / (q.1 - p.1)
    constructor <;> nlinarith
  have hlen : 0 < rows.length := List.length_pos_of_ne_nil hne
  have hmin : ∀ p : K × K, rows[0]? = some p → ∀ z w, tableLookup rows z = some w → p.2 ≤ w := by
    intro p hp z w hw
    refine (C31_bounded rows hne z p.2 (rows[rows.length - 1]'(by omega)).2 w ?_ ?_ hw).1
    · intro r hr
      obtain ⟨k, hk⟩ := List.getElem?_of_mem hr
      exact hy 0 k p r (by omega) hp hk
    · intro r hr
      obtain ⟨k, hk⟩ := List.getElem?_of_mem hr
      have := (List.getElem?_eq_some_iff.mp hk).1
      exact hy k (rows.length - 1) r _ (by omega) hk (List.getElem?_eq_getElem (by omega))
  have hmax : ∀ p : K × K, rows[rows.length - 1]? = some p → ∀ z w, tableLookup rows z = some w → w ≤ p.2 := by
    intro p hp z w hw
    refine (C31_bounded rows hne z (rows[0]).2 p.2 w ?_ ?_ hw).2
    · intro r hr
      obtain ⟨k, hk⟩ := List.getElem?_of_mem hr
      exact hy 0 k _ r (by omega) (List.getElem?_eq_getElem hlen) hk
    · intro r hr
      obtain ⟨k, hk⟩ := List.getElem?_of_mem hr
      have := (List.getElem?_eq_some_iff.mp hk).1
      exact hy k (rows.length - 1) r p (by omega) hk hp
  rcases tableLookup_cases rows hne x with ⟨p, hp, -, e⟩ | ⟨p, hp, hxp, e⟩ |
    ⟨i, p, q, hp, hq, h1, h2, e⟩
  · rw [e] at h; cases h
    exact hmin p hp x' y' h'
  · have : tableLookup rows x' = some p.2 := by
      by_cases hx' : x' ≤ (rows[0]).1
      · -- then all stored points coincide
        have hp0 : rows[0]? = some rows[0] := List.getElem?_eq_getElem hlen
        have h1 : rows.length = 1 := by
          by_contra hc
          have := hs 0 (rows.length - 1) _ p (by omega) hp0 hp
          linarith
        have : rows.length - 1 = 0 := by omega
        rw [this, hp0] at hp
        have := Option.some_inj.mp hp
        rw [(C31_clamped rows rows[0] rows[0] hp0 (by rw [‹rows.length - 1 = 0›]; exact hp0) x').1 hx',
          this]
      · exact (C31_clamped rows rows[0] p (List.getElem?_eq_getElem hlen) hp x').2 (not_le.mp hx')
          (hxp.trans hx)
    rw [this] at h'; rw [e] at h; cases h; cases h'; exact le_rfl
  · rw [e] at h; cases h
    rcases tableLookup_cases rows hne x' with ⟨r, hr, hx', e'⟩ | ⟨r, hr, -, e'⟩ |
      ⟨j, r, t, hr, ht, h3, h4, e'⟩
    · -- `x'` at or below the first entry, so `x = x' = p.1`
      rw [e'] at h'; cases h'
      have hi0 : i = 0 := by
        by_contra hc
        have := hs 0 i r p (by omega) hr hp
        linarith
      subst hi0
      rw [hp] at hr; cases hr
      have : x = p.1 := le_antisymm (hx.trans hx') h1
      have hpq := hs 0 1 p q (by omega) hp hq
      unfold segmentValue
      rw [if_neg (by intro h; linarith), this]; simp
    · rw [e'] at h'; cases h'
      refine hmax r hr x _ ?_
      rw [e]
    · rw [e'] at h'; cases h'
      rcases Nat.lt_trichotomy i j with hij | rfl | hij
      · have a := (seg i p q hp hq x h1 h2).2
        have b := (seg j r t hr ht x' h3 h4).1
        have c := hy (i + 1) j q r (by omega) hq hr
        linarith
      · rw [hp] at hr; rw [hq] at ht; cases hr; cases ht
        have hpq := hs i (i + 1) p q (by omega) hp hq
        have hyy := hy i (i + 1) p q (by omega) hp hq
        unfold segmentValue
        have hne' : q.1 ≠ p.1 := by intro h; linarith
        rw [if_neg hne', if_neg hne']
        have hd : 0 < q.1 - p.1 := by linarith
        have hmono : (x - p.1) / (q.1 - p.1) ≤ (x' - p.1) / (q.1 - p.1) := by
          gcongr
        nlinarith
      · -- then the segments touch in one point
        have htp : t.1 ≤ p.1 := by
          rcases Nat.lt_or_eq_of_le (Nat.succ_le_of_lt hij) with h | h
          · exact (hs (j + 1) i t p h ht hp).le
          · have h' : j + 1 = i := h
            rw [h'] at ht; rw [hp] at ht; cases ht; exact le_rfl
        have hxx : x = x' := le_antisymm hx (by linarith)
        rw [hxx] at e
        rw [e] at e'
        rw [← hxx] at e'
        have := Option.some_inj.mp e'
        rw [this, hxx]

/-- The check done on reading accepts exactly the tables whose independent column never
decreases. -/
theorem C31_verify (rows : List (K × K)) : verifySorted rows = true ↔
    ∀ (i : ℕ) (p q : K × K), rows[i]? = some p → rows[i + 1]? = some q → p.1 ≤ q.1 := by
  unfold verifySorted
  rw [List.all_eq_true]
  constructor
  · intro h i p q hp hq
    have hi := (List.getElem?_eq_some_iff.mp hq).1
    have := h i (List.mem_range.mpr (by omega))
    rw [hp, hq] at this
    exact of_decide_eq_true this
  · intro h i hi
    have hi := List.mem_range.mp hi
    have hp : rows[i]? = some rows[i] := List.getElem?_eq_getElem (by omega)
    have hq : rows[i + 1]? = some rows[i + 1] := List.getElem?_eq_getElem (by omega)
    rw [hp, hq]
    exact decide_eq_true (h i _ _ hp hq)

/-- Non-trivial instance. -/
example : tableLookup [((1 : ℚ), 10), (2, 20), (4, 0)] 3 = some 10 := by decide +kernel
example : Increasing [((1 : ℚ), (10 : ℚ)), (2, 20), (4, 0)] := by
  intro i j p q hij hp hq
  have hj := (List.getElem?_eq_some_iff.mp hq).1
  simp only [List.length_cons, List.length_nil] at hj
  rcases i with _ | _ | i <;> rcases j with _ | _ | _ | j <;> first | omega | skip
  all_goals simp at hp hq; subst hp; subst hq; norm_num

end Fierro
