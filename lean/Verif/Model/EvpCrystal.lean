import Mathlib.Analysis.Real.Sqrt
import Mathlib.Algebra.BigOperators.Fin
import Verif.Model.EvpTensor

/-!
# EVPFFT: slip systems of a phase

Models `data_crystal.cpp` of `apps/micromechanics/EVPFFT/src` after the numbers have been read: the
vectors of a slip system, the choice of the active modes and the hardening matrix.  Reading of the file
itself, the unit conversion factors, twinning flags and the `NON_SCHMID_EFFECTS` build are left out.
-/

namespace Fierro

/-! ### Vectors of a slip system -/

/-- Plane normal and direction from three indices, data_crystal.cpp:179-185. -/
noncomputable def cubicVectors (cdim : Fin 3 → ℝ) (isn isb : Fin 3 → ℤ) : (Fin 3 → ℝ) × (Fin 3 → ℝ) :=
  (fun m => (isn m : ℝ) / cdim m, fun m => (isb m : ℝ) * cdim m)

/-- Plane normal and direction from four indices, data_crystal.cpp:171-178.  The third index of either
is read and not used. -/
noncomputable def hexVectors (covera : ℝ) (isn isb : Fin 4 → ℤ) : (Fin 3 → ℝ) × (Fin 3 → ℝ) :=
  (![(isn 0 : ℝ), ((isn 0 : ℝ) + 2 * isn 1) / Real.sqrt 3, (isn 3 : ℝ) / covera],
   ![3 / 2 * (isb 0 : ℝ), ((isb 0 : ℝ) / 2 + isb 1) * Real.sqrt 3, (isb 3 : ℝ) * covera])

/-- Length of a vector, data_crystal.cpp:190-191. -/
noncomputable def vecLen (s : Fin 3 → ℝ) : ℝ := Real.sqrt (s 0 * s 0 + s 1 * s 1 + s 2 * s 2)

/-- One normalised component with the cut-off at `1e-3`, data_crystal.cpp:194-197. -/
noncomputable def unitComp (s : Fin 3 → ℝ) (j : Fin 3) : ℝ :=
  let d := s j / vecLen s
  if |d| < 1 / 10 ^ 3 then 0 else d

/-- `dnca`, `dbca` of one system, data_crystal.cpp:187-206; `none` is the exit with "IS NOT
ORTHOGONAL".  A zero vector (division by zero in the source) also gives `none`. -/
noncomputable def slipVectors (v : (Fin 3 → ℝ) × (Fin 3 → ℝ)) : Option ((Fin 3 → ℝ) × (Fin 3 → ℝ)) :=
  if vecLen v.1 = 0 ∨ vecLen v.2 = 0 then none
  else
    let prod := 0 + unitComp v.1 0 * unitComp v.2 0 + unitComp v.1 1 * unitComp v.2 1 +
      unitComp v.1 2 * unitComp v.2 2
    if prod ≥ 1 / 10 ^ 3 then none else some (unitComp v.1, unitComp v.2)

/-- `aux33`, data_crystal.cpp:218-222. -/
noncomputable def schmidTensor (n b : Fin 3 → ℝ) : T2 ℝ := fun i j => (n i * b j + n j * b i) / 2

/-- `schca`, data_crystal.cpp:224-228. -/
noncomputable def schmidVec (q : BasisConst ℝ) (n b : Fin 3 → ℝ) : Fin 5 → ℝ :=
  chgBasis2 q (by omega : 5 ≤ 6) (schmidTensor n b)

/-! ### Active modes -/

/-- One deformation mode of the crystal file, data_crystal.cpp:64-71 and 113-124: number, self hardening
coefficient, row of latent coefficients (entry `jm`, counted from 1; entries behind the number of modes
of the file are what the array held before), slip systems. -/
structure ModeRec (σ K : Type) where
  modex : ℕ
  hself : K
  hlate : ℕ → K
  sys : List σ

/-- State of the reading loop: `kount`, the arrays `hselfx`, `hlatex`, `nsm` and the systems of the
accepted modes. -/
structure CrystalState (σ K : Type) where
  kount : ℕ
  hself : ℕ → K
  hlate : ℕ → ℕ → K
  nsm : ℕ → ℕ
  sys : List σ

section
variable {σ K : Type}

/-- In-place reordering of one row, data_crystal.cpp:105-107: `hlatex(kount,i) = hlatex(nm,mode(i))` for
`i = 1..nmodes`. -/
def reorderRow (h : ℕ → ℕ → K) (kount nm : ℕ) (mode : ℕ → ℕ) (nmodes : ℕ) : ℕ → ℕ → K :=
  (List.range nmodes).foldl (fun h i0 =>
    fun a b => if a = kount ∧ b = i0 + 1 then h nm (mode (i0 + 1)) else h a b) h

/-- Body of the reading loop for the mode record in place `nm`, data_crystal.cpp:62-257.  `mode` is the
list of wanted modes, zero behind its end. -/
def crystalStep (mode : ℕ → ℕ) (nmodes : ℕ) (st : CrystalState σ K) (rec : ℕ × ModeRec σ K) :
    CrystalState σ K :=
  let nm := rec.1
  let r := rec.2
  -- 67-70
  let hself := fun a => if a = nm then r.hself else st.hself a
  let hlate := fun a b => if a = nm then r.hlate b else st.hlate a b
  -- 82-88
  if r.modex ≠ mode st.kount then { st with hself := hself, hlate := hlate }
  else
    { kount := st.kount + 1
      hself := fun a => if a = st.kount then hself nm else hself a
      hlate := reorderRow hlate st.kount nm mode nmodes
      nsm := fun a => if a = st.kount then r.sys.length else st.nsm a
      sys := st.sys ++ r.sys }

/-- The loop over the records of the file, data_crystal.cpp:50-62; the arrays `h0`, `l0`, `n0` hold
unspecified values before it. -/
def crystalRead (mode : ℕ → ℕ) (nmodes : ℕ) (h0 : ℕ → K) (l0 : ℕ → ℕ → K) (n0 : ℕ → ℕ)
    (recs : List (ModeRec σ K)) : CrystalState σ K :=
  (recs.zipIdx 1).foldl (fun st x => crystalStep mode nmodes st (x.2, x.1))
    { kount := 1, hself := h0, hlate := l0, nsm := n0, sys := [] }

/-- Mode of every system in the loop order of data_crystal.cpp:267-268, counted from 1. -/
def modeOfSystems (nsm : ℕ → ℕ) (nmodes : ℕ) : List ℕ :=
  (List.range nmodes).flatMap fun im => List.replicate (nsm (im + 1)) (im + 1)

/-- `hard(i,j)`, data_crystal.cpp:265-279, with `i`, `j` counted from 0. -/
def hardMatrix (st : CrystalState σ K) (nmodes : ℕ) (i j : ℕ) : Option K :=
  let modes := modeOfSystems st.nsm nmodes
  match modes[i]?, modes[j]? with
  | some im, some jm => some (if i = j then st.hself im else st.hlate im jm)
  | _, _ => none

end

end Fierro
