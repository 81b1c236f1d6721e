import Verif.Proofs.MeshIndex
import Mathlib.Data.Set.Function

/-!
# C01, C02: structured ids and high-order point numbering are bijections
-/

namespace Fierro

/-- **C01.** On a grid of `ni × nj × nk` points the ids are exactly `0 .. ni*nj*nk - 1`,
each given to exactly one triple. -/
theorem C01_getId_bijOn (ni nj nk : ℤ) (hi : 0 ≤ ni) (hj : 0 ≤ nj) (hk : 0 ≤ nk) :
    Set.BijOn (fun p : ℤ × ℤ × ℤ => getId p.1 p.2.1 p.2.2 ni nj)
      {p | (0 ≤ p.1 ∧ p.1 < ni) ∧ (0 ≤ p.2.1 ∧ p.2.1 < nj) ∧ (0 ≤ p.2.2 ∧ p.2.2 < nk)}
      (Set.Ico 0 (ni * nj * nk)) := by
  have h := bijOn_of_inj (latticeBox ni nj nk) (ni * nj * nk)
    (fun p : ℤ × ℤ × ℤ => getId p.1 p.2.1 p.2.2 ni nj) ?_ ?_ (card_latticeBox hi hj hk)
  · convert h using 1
    ext p; simp [mem_latticeBox]
  · intro p hp
    rw [mem_latticeBox] at hp
    have := radix_lt hp.1 (radix_lt hp.2.1 hp.2.2)
    simp only [getId_eq]
    exact ⟨this.1, by rw [mul_assoc]; exact this.2⟩
  · intro p hp p' hp' h
    rw [Finset.mem_coe, mem_latticeBox] at hp hp'
    simp only [getId_eq] at h
    obtain ⟨h1, h2⟩ := radix_inj hp.1 hp'.1 h
    obtain ⟨h2, h3⟩ := radix_inj hp.2.1 hp'.2.1 h2
    exact Prod.ext h1 (Prod.ext h2 h3)

/-- The hypotheses of C01 are met by a 3×2×4 grid; its last point gets the last id. -/
example : getId 2 1 3 3 2 = 3 * 2 * 4 - 1 := by decide

/-- **C02.** For all orders (also different ones per direction) the VTK point index of the
lattice positions `0..order` is a bijection onto `0 .. (o0+1)(o1+1)(o2+1) - 1`. -/
theorem C02_pointIndex_bijOn (o0 o1 o2 : ℤ) (h0 : 1 ≤ o0) (h1 : 1 ≤ o1) (h2 : 1 ≤ o2) :
    Set.BijOn (fun p : ℤ × ℤ × ℤ => pointIndexFromIJK p.1 p.2.1 p.2.2 o0 o1 o2)
      {p | (0 ≤ p.1 ∧ p.1 ≤ o0) ∧ (0 ≤ p.2.1 ∧ p.2.1 ≤ o1) ∧ (0 ≤ p.2.2 ∧ p.2.2 ≤ o2)}
      (Set.Ico 0 ((o0 + 1) * (o1 + 1) * (o2 + 1))) := by
  obtain ⟨p, rfl⟩ : ∃ p, o0 = p + 1 := ⟨o0 - 1, by ring⟩
  obtain ⟨q, rfl⟩ : ∃ q, o1 = q + 1 := ⟨o1 - 1, by ring⟩
  obtain ⟨r, rfl⟩ : ∃ r, o2 = r + 1 := ⟨o2 - 1, by ring⟩
  have hp : 0 ≤ p := by omega
  have hq : 0 ≤ q := by omega
  have hr : 0 ≤ r := by omega
  have h := bijOn_of_inj (latticeBox (p + 2) (q + 2) (r + 2)) ((p + 2) * (q + 2) * (r + 2))
    (fun x : ℤ × ℤ × ℤ => pointIndexFromIJK x.1 x.2.1 x.2.2 (p + 1) (q + 1) (r + 1)) ?_ ?_
    (card_latticeBox (by omega) (by omega) (by omega))
  · convert h using 1
    · ext x; simp [mem_latticeBox]; omega
    · congr 1; ring
  · intro x hx
    rw [mem_latticeBox] at hx
    obtain ⟨n, t, hn, ht, he, -⟩ := pointIndex_seg (i := x.1) (j := x.2.1) (k := x.2.2) hp hq hr
      (by omega) (by omega) (by omega)
    simp only [he]
    have hm := segStart_mono hp hq hr
    have a1 := hm (Nat.zero_le n)
    have a2 := hm (Nat.succ_le_of_lt hn)
    rw [Nat.succ_eq_add_one, segStart_succ, segStart_27] at a2
    have a0 : segStart p q r 0 = 0 := by simp [segStart]
    omega
  · intro x hx x' hx' hxx
    rw [Finset.mem_coe, mem_latticeBox] at hx hx'
    obtain ⟨n, t, hn, ht, he, hd⟩ := pointIndex_seg (i := x.1) (j := x.2.1) (k := x.2.2) hp hq hr
      (by omega) (by omega) (by omega)
    obtain ⟨n', t', hn', ht', he', hd'⟩ := pointIndex_seg (i := x'.1) (j := x'.2.1) (k := x'.2.2)
      hp hq hr (by omega) (by omega) (by omega)
    simp only [he, he'] at hxx
    obtain ⟨rfl, rfl⟩ := segStart_unique hp hq hr ht ht' hxx
    have := hd.symm.trans hd'
    simpa [Prod.ext_iff] using this

/-- An order-3 hexahedron: an edge, a face and the last body point. -/
example : pointIndexFromIJK 1 0 0 3 3 3 = 8 ∧ pointIndexFromIJK 0 1 1 3 3 3 = 32 ∧
    pointIndexFromIJK 2 2 2 3 3 3 = 63 := by decide

end Fierro
