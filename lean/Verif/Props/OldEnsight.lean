import Verif.Model.OldEnsight
import Verif.Props.OldCylinder

/-!
# C148: EnSight files of the mesh builder of the previous version
-/

namespace Fierro

variable {K : Type} [Zero K] [One K]

/-- The name EnSight gives to an element of two or three dimensions. -/
def EnsName (dims : ℕ) (fmt : String) : Prop := dims = 2 ∧ fmt = "quad4" ∨ dims = 3 ∧ fmt = "hexa8"

/-- **C148.**  Exactly the linear meshes of two or three dimensions with a name of at most 89 bytes are written. -/
theorem C148_ensight_accepted (name : String) (m : EnsMesh K) :
    (∃ files, writeOldEnsight name m = .ok files) ↔
      m.order ≤ 1 ∧ (m.dims = 2 ∨ m.dims = 3) ∧ name.utf8ByteSize ≤ 89 := by
  have h1 : (name ++ ".00001.geo").utf8ByteSize = name.utf8ByteSize + 10 := by
    rw [String.utf8ByteSize_append]; rfl
  have h2 : (name ++ ".00001.var").utf8ByteSize = name.utf8ByteSize + 10 := by
    rw [String.utf8ByteSize_append]; rfl
  have h3 : (name ++ ".case").utf8ByteSize = name.utf8ByteSize + 5 := by
    rw [String.utf8ByteSize_append]; rfl
  unfold writeOldEnsight ensFormat nameFits
  rw [h1, h2, h3]
  simp only [decide_eq_false_iff_not]
  by_cases ho : 1 < m.order
  · simp only [if_pos ho, reduceCtorEq, exists_false, false_iff]; omega
  · rw [if_neg ho]
    by_cases hf : name.utf8ByteSize + 10 < 100
    · rw [if_neg (not_not.2 hf)]
      by_cases d2 : m.dims = 2
      · rw [if_pos d2]
        simp only [if_neg (not_not.2 hf), if_neg (not_not.2 (show name.utf8ByteSize + 5 < 100 by omega))]
        exact ⟨fun _ => ⟨by omega, .inl d2, by omega⟩, fun _ => ⟨_, rfl⟩⟩
      · rw [if_neg d2]
        by_cases d3 : m.dims = 3
        · rw [if_pos d3]
          simp only [if_neg (not_not.2 hf), if_neg (not_not.2 (show name.utf8ByteSize + 5 < 100 by omega))]
          exact ⟨fun _ => ⟨by omega, .inr d3, by omega⟩, fun _ => ⟨_, rfl⟩⟩
        · rw [if_neg d3]
          simp only [reduceCtorEq, exists_false, false_iff]; omega
    · simp only [if_pos hf, reduceCtorEq, exists_false, false_iff]; omega

/-- **C148 (a finding).**  A linear mesh with a name of ninety bytes or more makes the writer store behind the end of
the array for the name. -/
theorem C148_ensight_name_fails (name : String) (m : EnsMesh K) (ho : m.order ≤ 1) (hn : 90 ≤ name.utf8ByteSize) :
    writeOldEnsight name m = .error .overflow := by
  have h1 : (name ++ ".00001.geo").utf8ByteSize = name.utf8ByteSize + 10 := by
    rw [String.utf8ByteSize_append]; rfl
  unfold writeOldEnsight nameFits
  rw [h1, if_neg (by omega), if_pos (by simp; omega)]

/-- What is written: three files, with the names that the case file points to. -/
theorem writeOldEnsight_ok (name : String) (m : EnsMesh K) (files) (h : writeOldEnsight name m = .ok files) :
    ∃ fmt, EnsName m.dims fmt ∧ files = [("ensight/data/" ++ (name ++ ".00001.geo"), ensGeometry fmt m),
        ("ensight/data/" ++ (name ++ ".00001.var"), ensVariables fmt m),
        ("ensight/" ++ (name ++ ".case"), ensCase name)] := by
  unfold writeOldEnsight at h
  split at h
  · cases h
  split at h
  · cases h
  split at h
  · cases h
  · rename_i fmt hf
    split at h
    · cases h
    split at h
    · cases h
    refine ⟨fmt, ?_, by injection h with h; exact h.symm⟩
    unfold ensFormat at hf
    unfold EnsName
    split at hf
    · injection hf with hf; exact .inl ⟨by assumption, hf.symm⟩
    split at hf
    · injection hf with hf; exact .inr ⟨by assumption, hf.symm⟩
    · cases hf

theorem ensCoordinates_length (m : EnsMesh K) : (ensCoordinates m).length = 3 * m.np := by
  simp [ensCoordinates, List.range_succ]; omega

theorem ensCoordinates_get (m : EnsMesh K) {i j : ℕ} (hi : i < m.np) (hj : j < 3) :
    (ensCoordinates m)[j * m.np + i]? = some (.real (if j < m.cols then m.point i j else 0)) := by
  have e : ensCoordinates m =
      ((List.range m.np).map fun i => EnsLine.real (if 0 < m.cols then m.point i 0 else 0)) ++
      (((List.range m.np).map fun i => EnsLine.real (if 1 < m.cols then m.point i 1 else 0)) ++
      ((List.range m.np).map fun i => EnsLine.real (if 2 < m.cols then m.point i 2 else 0))) := by
    simp [ensCoordinates, List.range_succ]
  rw [e]
  obtain rfl | rfl | rfl : j = 0 ∨ j = 1 ∨ j = 2 := by omega
  · rw [List.getElem?_append_left (by simpa using hi)]
    simp [hi]
  · rw [List.getElem?_append_right (by simp), List.getElem?_append_left (by simp [hi])]
    simp [hi]
  · rw [List.getElem?_append_right (by simp; omega), List.getElem?_append_right (by simp; omega)]
    have : 2 * m.np + i - m.np - m.np = i := by omega
    simp [hi, this]

/-- **C148.**  The geometry file gives the number of points, all first coordinates, all second and all third ones (zero
where a point has none), the name of the element, the number of elements, and one line for each. -/
theorem C148_ensight_geometry (name : String) (m : EnsMesh K) (files) (h : writeOldEnsight name m = .ok files) :
    ∃ fmt lines, EnsName m.dims fmt ∧ files[0]? = some ("ensight/data/" ++ (name ++ ".00001.geo"), lines) ∧
      lines.length = 11 + 3 * m.np + m.rows.length ∧ lines[8]? = some (.int m.np) ∧
      (∀ i j, i < m.np → j < 3 →
        lines[9 + (j * m.np + i)]? = some (.real (if j < m.cols then m.point i j else 0))) ∧
      lines[9 + 3 * m.np]? = some (.text fmt) ∧ lines[10 + 3 * m.np]? = some (.int m.rows.length) ∧
      ∀ e row, m.rows[e]? = some row →
        lines[11 + 3 * m.np + e]? = some (.nodes ((writeLinear row).map (Option.map (· + 1)))) := by
  obtain ⟨fmt, hf, rfl⟩ := writeOldEnsight_ok name m files h
  have hl := ensCoordinates_length m
  refine ⟨fmt, ensGeometry fmt m, hf, rfl, ?_, by simp [ensGeometry], ?_, ?_, ?_, ?_⟩
  · simp [ensGeometry, hl]; omega
  · intro i j hi hj
    have hb : j * m.np + i < 3 * m.np := by
      have : j * m.np ≤ 2 * m.np := Nat.mul_le_mul_right _ (by omega)
      omega
    rw [ensGeometry, List.getElem?_append_right (by simp), List.getElem?_append_left (by simp [hl]; omega)]
    simpa using ensCoordinates_get m hi hj
  · rw [ensGeometry, List.getElem?_append_right (by simp), List.getElem?_append_right (by simp [hl])]
    simp [hl]
  · rw [ensGeometry, List.getElem?_append_right (by simp; omega), List.getElem?_append_right (by simp [hl]; omega)]
    have : 10 + 3 * m.np - 9 - 3 * m.np = 1 := by omega
    simp [hl, this]
  · intro e row hr
    rw [ensGeometry, List.getElem?_append_right (by simp; omega), List.getElem?_append_right (by simp [hl]; omega),
      List.getElem?_append_right (by simp [hl]; omega)]
    have : 11 + 3 * m.np + e - 9 - 3 * m.np - 2 = e := by omega
    simp [hl, this, hr]

/-- **C148.**  The line of a hexahedron with the corners `a … i` of its lattice gives their numbers from one on, around
the lower face and then around the upper one. -/
theorem C148_ensight_hexahedron (name : String) (m : EnsMesh K) (files) (h : writeOldEnsight name m = .ok files)
    (n a b c d e f g i : ℕ) (hr : m.rows[n]? = some [a, b, c, d, e, f, g, i]) :
    ∃ lines, files[0]? = some ("ensight/data/" ++ (name ++ ".00001.geo"), lines) ∧
      lines[11 + 3 * m.np + n]? = some (.nodes ([a, b, d, c, e, f, i, g].map fun v => some (v + 1))) := by
  obtain ⟨_, lines, _, h0, _, _, _, _, _, hrow⟩ := C148_ensight_geometry name m files h
  refine ⟨lines, h0, ?_⟩
  rw [hrow n _ hr]
  rfl

/-- **C148.**  The line of a quadrilateral. -/
theorem C148_ensight_quadrilateral (name : String) (m : EnsMesh K) (files) (h : writeOldEnsight name m = .ok files)
    (n a b c d : ℕ) (hr : m.rows[n]? = some [a, b, c, d]) :
    ∃ lines, files[0]? = some ("ensight/data/" ++ (name ++ ".00001.geo"), lines) ∧
      lines[11 + 3 * m.np + n]? = some (.nodes ([a, b, d, c].map fun v => some (v + 1))) := by
  obtain ⟨_, lines, _, h0, _, _, _, _, _, hrow⟩ := C148_ensight_geometry name m files h
  refine ⟨lines, h0, ?_⟩
  rw [hrow n _ hr]
  rfl

/-- **C148.**  The file of values has one value for each element, always one. -/
theorem C148_ensight_values (name : String) (m : EnsMesh K) (files) (h : writeOldEnsight name m = .ok files) :
    ∃ fmt, EnsName m.dims fmt ∧ files[1]? = some ("ensight/data/" ++ (name ++ ".00001.var"),
      [.text "Per_elem scalar values", .text "part", .int 1, .text fmt] ++
        List.replicate m.rows.length (.real 1)) := by
  obtain ⟨fmt, hf, rfl⟩ := writeOldEnsight_ok name m files h
  exact ⟨fmt, hf, by simp [ensVariables]⟩

/-- **C148.**  The case file points to the two other files: with the number of the only step, `00001`, for the stars,
the names in it are those of the files, seen from the directory of the case file. -/
theorem C148_ensight_case (name : String) (m : EnsMesh K) (files) (h : writeOldEnsight name m = .ok files) :
    ∃ lines geo var dir ext ext', files.map Prod.fst = ["ensight/" ++ geo, "ensight/" ++ var, "ensight/" ++ (name ++ ".case")] ∧
      geo = dir ++ "00001" ++ ext ∧ var = dir ++ "00001" ++ ext' ∧
      files[2]? = some ("ensight/" ++ (name ++ ".case"), lines) ∧
      lines[3]? = some (.text ("model: " ++ (dir ++ "*****" ++ ext))) ∧
      lines[5]? = some (.text ("scalar per element: mat_index " ++ (dir ++ "*****" ++ ext'))) ∧
      lines[9]? = some (.text "filename start number: 1") := by
  obtain ⟨fmt, hf, rfl⟩ := writeOldEnsight_ok name m files h
  refine ⟨ensCase name, "data/" ++ (name ++ ".00001.geo"), "data/" ++ (name ++ ".00001.var"), "data/" ++ (name ++ "."),
    ".geo", ".var", ?_, ?_, ?_, rfl, ?_, ?_, rfl⟩
  · have e : ∀ x : String, "ensight/data/" ++ x = "ensight/" ++ ("data/" ++ x) := fun x => by
      rw [← String.append_assoc]; rfl
    simp only [List.map_cons, List.map_nil, e]
  · have e : (".00001.geo" : String) = "." ++ ("00001" ++ ".geo") := by decide
    rw [e]; simp only [String.append_assoc]
  · have e : (".00001.var" : String) = "." ++ ("00001" ++ ".var") := by decide
    rw [e]; simp only [String.append_assoc]
  · have e : (".*****.geo" : String) = "." ++ ("*****" ++ ".geo") := by decide
    have e' : ("model: data/" : String) = "model: " ++ "data/" := by decide
    simp only [ensCase, List.getElem?_cons_succ, List.getElem?_cons_zero, e, e', String.append_assoc]
  · have e : (".*****.var" : String) = "." ++ ("*****" ++ ".var") := by decide
    have e' : ("scalar per element: mat_index data/" : String) = "scalar per element: mat_index " ++ "data/" := by decide
    simp only [ensCase, List.getElem?_cons_succ, List.getElem?_cons_zero, e, e', String.append_assoc]

/-- A square of one element. -/
def ensSquare : EnsMesh ℚ := ⟨2, 1, 2, 4, fun i j => if j = 0 then (i % 2 : ℕ) else (i / 2 : ℕ), [[0, 1, 2, 3]]⟩

/-- The hypotheses are met by the square. -/
example : ∃ files lines, writeOldEnsight "mesh" ensSquare = .ok files ∧
    files[0]? = some ("ensight/data/" ++ ("mesh" ++ ".00001.geo"), lines) ∧
    lines[11 + 3 * 4 + 0]? = some (.nodes [some 1, some 2, some 4, some 3]) := by
  obtain ⟨files, hf⟩ := (C148_ensight_accepted "mesh" ensSquare).2 ⟨by decide, .inl rfl, by decide⟩
  obtain ⟨lines, h1, h2⟩ := C148_ensight_quadrilateral "mesh" ensSquare files hf 0 0 1 2 3 rfl
  exact ⟨files, lines, hf, h1, h2⟩

end Fierro
