import Mathlib.Algebra.Field.Defs
import Mathlib.Algebra.BigOperators.Group.Finset.Basic
import Mathlib.Data.Fintype.Basic
import Mathlib.Data.List.FinRange
import Mathlib.Data.Fin.VecNotation
import Verif.Model.Memory
import Verif.Model.EvpLinalg

/-!
# EVPFFT: second and fourth order tensors in vector notation

Models `chg_basis.{h,cpp}`, `voigt.cpp`, `data_crystal_elast.cpp` and the rotation of the stiffness in
`data_grain.cpp` of `apps/micromechanics/EVPFFT/src`.  Indices are counted from 0 here and from 1 in
the source.  Sums over tensor indices are written `∑` (exact arithmetic).
-/

namespace Fierro

/-- A second order tensor. -/
abbrev T2 (K : Type) := Fin 3 → Fin 3 → K

/-- A fourth order tensor. -/
abbrev T4 (K : Type) := Fin 3 → Fin 3 → Fin 3 → Fin 3 → K

/-- The constants `RSQ2_`, `RSQ3_`, `RSQ6_` of chg_basis.h:30-32. -/
structure BasisConst (K : Type) where
  r2 : K
  r3 : K
  r6 : K

section
variable {K : Type} [Field K]

/-- The six basis tensors `B_basis_(i,j,n)`, chg_basis.cpp:10-46. -/
def bBasis (q : BasisConst K) (i j : Fin 3) (n : Fin 6) : K :=
  match n with
  | 0 => if i = 0 ∧ j = 0 then -q.r2 else if i = 1 ∧ j = 1 then q.r2 else 0
  | 1 => if i = 0 ∧ j = 0 then -q.r6 else if i = 1 ∧ j = 1 then -q.r6
         else if i = 2 ∧ j = 2 then 2 * q.r6 else 0
  | 2 => if (i = 1 ∧ j = 2) ∨ (i = 2 ∧ j = 1) then q.r2 else 0
  | 3 => if (i = 0 ∧ j = 2) ∨ (i = 2 ∧ j = 0) then q.r2 else 0
  | 4 => if (i = 0 ∧ j = 1) ∨ (i = 1 ∧ j = 0) then q.r2 else 0
  | 5 => if i = j then q.r3 else 0

/-- `chg_basis_1`, chg_basis.cpp:49-67: tensor from its components.  `KDIM` is 5 or 6. -/
def chgBasis1 (q : BasisConst K) {kdim : ℕ} (hk : kdim ≤ 6) (ce : Fin kdim → K) : T2 K := fun i j =>
  ∑ n, ce n * bBasis q i j (Fin.castLE hk n)

/-- `chg_basis_2`, chg_basis.cpp:70-88: components of a tensor. -/
def chgBasis2 (q : BasisConst K) {kdim : ℕ} (hk : kdim ≤ 6) (c : T2 K) : Fin kdim → K := fun n =>
  ∑ i, ∑ j, c i j * bBasis q i j (Fin.castLE hk n)

/-- `chg_basis_3`, chg_basis.cpp:91-115: fourth order tensor from its matrix. -/
def chgBasis3 (q : BasisConst K) {kdim : ℕ} (hk : kdim ≤ 6) (ce : Fin kdim → Fin kdim → K) : T4 K :=
  fun i j k l =>
    ∑ n, ∑ m, ce n m * bBasis q i j (Fin.castLE hk n) * bBasis q k l (Fin.castLE hk m)

/-- `chg_basis_4`, chg_basis.cpp:118-142: matrix of a fourth order tensor. -/
def chgBasis4 (q : BasisConst K) {kdim : ℕ} (hk : kdim ≤ 6) (c : T4 K) : Fin kdim → Fin kdim → K :=
  fun n m =>
    ∑ i, ∑ j, ∑ k, ∑ l, c i j k l * bBasis q i j (Fin.castLE hk n) * bBasis q k l (Fin.castLE hk m)

/-- The table `ijv_` of voigt.cpp:9 and get_smacro.cpp:57 (column-major). -/
def ijv (i : Fin 6) : Fin 3 × Fin 3 :=
  (![0, 1, 2, 1, 0, 0] i, ![0, 1, 2, 2, 2, 1] i)

/-- Key of an entry of a fourth order tensor. -/
abbrev Key4 := Fin 3 × Fin 3 × Fin 3 × Fin 3

/-- The four entries written for one pair `(i,j)`, in program order, voigt.cpp:26-29. -/
def voigtKeys (i j : Fin 6) : List Key4 :=
  [((ijv i).1, (ijv i).2, (ijv j).1, (ijv j).2), ((ijv i).2, (ijv i).1, (ijv j).1, (ijv j).2),
   ((ijv i).1, (ijv i).2, (ijv j).2, (ijv j).1), ((ijv i).2, (ijv i).1, (ijv j).2, (ijv j).1)]

/-- The loop nest over `(i,j)` common to the options of `voigt`. -/
def voigtPairs : List (Fin 6 × Fin 6) :=
  (List.finRange 6).flatMap fun i => (List.finRange 6).map fun j => (i, j)

/-- `voigt` with `iopt = 1`, voigt.cpp:19-32: stiffness matrix to tensor. -/
def voigt1 (c2 : Fin 6 → Fin 6 → K) : Mem Key4 K :=
  Mem.writeAll (voigtPairs.flatMap fun p => (voigtKeys p.1 p.2).map fun k => (k, c2 p.1 p.2)) Mem.empty

/-- `voigt` with `iopt = 2`, voigt.cpp:35-45: tensor to matrix. -/
def voigt2 (c4 : T4 K) : Fin 6 → Fin 6 → K := fun i j =>
  c4 (ijv i).1 (ijv i).2 (ijv j).1 (ijv j).2

/-- The factors of `iopt = 3`, voigt.cpp:49-55. -/
def voigtFactor (i j : Fin 6) : K :=
  let f : K := if 2 < i then 1 / 2 else 1
  if 2 < j then 1 / 2 * f else f

/-- `voigt` with `iopt = 3`, voigt.cpp:48-69: compliance matrix to tensor. -/
def voigt3 (c2 : Fin 6 → Fin 6 → K) : Mem Key4 K :=
  Mem.writeAll (voigtPairs.flatMap fun p =>
    (voigtKeys p.1 p.2).map fun k => (k, voigtFactor p.1 p.2 * c2 p.1 p.2)) Mem.empty

/-- `voigt` with `iopt = 4`, voigt.cpp:72-92.  The comparison `i < 3` is on the 1-based index. -/
def voigt4 (c2 : Fin 6 → Fin 6 → K) : Mem Key4 K :=
  Mem.writeAll (voigtPairs.flatMap fun p =>
    if (p.1 : ℕ) + 1 < 3 then (voigtKeys p.1 p.2).map fun k => (k, c2 p.1 p.2)
    else (voigtKeys p.1 p.2).zipWith (fun k v => (k, v))
      [c2 p.1 p.2, -c2 p.1 p.2, c2 p.1 p.2, -c2 p.1 p.2]) Mem.empty

/-- The unit tensor `dde`, data_crystal_elast.cpp:27-32. -/
def dde (i j : Fin 3) : K := if i = j then 1 else 0

/-- The symmetric fourth order identity `xid4`, data_crystal_elast.cpp:34-42. -/
def xid4 (i j k l : Fin 3) : K := (dde i k * dde j l + dde i l * dde j k) / 2

/-- Shear modulus `tmu`, data_crystal_elast.cpp:69. -/
def isoMu (young nu : K) : K := young / (2 * (1 + nu))

/-- Lamé coefficient `tla`, data_crystal_elast.cpp:70. -/
def isoLambda (young nu : K) : K := 2 * isoMu young nu * nu / (1 - 2 * nu)

/-- Isotropic stiffness before scaling, data_crystal_elast.cpp:72-80. -/
def isoStiffness (young nu : K) : T4 K := fun i j k l =>
  isoLambda young nu * dde i j * dde k l + 2 * isoMu young nu * xid4 i j k l

/-- Stiffness of one phase, data_crystal_elast.cpp:44-94: a full matrix (`iso = 0`) or isotropic
constants, then scaled.  `none` for an entry that was never written. -/
inductive ElastInput (K : Type) where
  | full (c : Fin 6 → Fin 6 → K)
  | iso (young nu : K)

/-- data_crystal_elast.cpp:46-94. -/
def phaseStiffness (stressScale : K) : ElastInput K → Mem Key4 K
  | .full c => fun key => (voigt1 c key).map (· * stressScale)
  | .iso young nu => fun key =>
      some (isoStiffness young nu key.1 key.2.1 key.2.2.1 key.2.2.2 * stressScale)

/-- Rotation of the stiffness of a phase to the sample frame, data_grain.cpp:81-112. -/
def rotateStiffness (aa : T2 K) (cc : T4 K) : T4 K := fun i1 j1 k1 l1 =>
  ∑ i2, ∑ j2, ∑ k2, ∑ l2, aa i2 i1 * aa j2 j1 * aa k2 k1 * aa l2 l1 * cc i2 j2 k2 l2

/-- One grid point as seen by `data_grain`: gas or a crystal with its transformation matrix and the
stiffness of its phase. -/
inductive GrainPoint (K : Type) where
  | gas
  | crystal (aa : T2 K) (cc : T4 K)

/-- `cg66` of a crystal point, data_grain.cpp:81-118. -/
def pointStiffness (q : BasisConst K) (aa : T2 K) (cc : T4 K) : Fin 6 → Fin 6 → K :=
  chgBasis4 q le_rfl (rotateStiffness aa cc)

/-- Contribution of one point to `c066`, data_grain.cpp:67 and 114-119. -/
def refStep (q : BasisConst K) (wgt : K) (c : Fin 6 → Fin 6 → K) : GrainPoint K → Fin 6 → Fin 6 → K
  | .gas => c
  | .crystal aa cc => fun i j => c i j + pointStiffness q aa cc i j * wgt

/-- The accumulation of `c066` over the grid, data_grain.cpp:46-124 (one rank; the sum over ranks of
`MPI_Allreduce` continues the same sum). -/
def refStiffness (q : BasisConst K) (wgt : K) (pts : List (GrainPoint K)) : Fin 6 → Fin 6 → K :=
  pts.foldl (refStep q wgt) (fun _ _ => 0)

/-- `s066`, data_grain.cpp:148-155: the copy of `c066` handed to `invert_matrix`.  The array is stored
by columns and the routine reads it by rows, so it works on the transposed matrix. -/
def refCompliance [DecidableEq K] (c066 : Fin 6 → Fin 6 → K) : Fin 6 → Fin 6 → K := fun i j =>
  (invertMatrix (fun a b => c066 b a)).mat j i

/-- `c0`, data_grain.cpp:157. -/
def refC0 (q : BasisConst K) (c066 : Fin 6 → Fin 6 → K) : T4 K := chgBasis3 q le_rfl c066

/-- `s0`, data_grain.cpp:158. -/
def refS0 [DecidableEq K] (q : BasisConst K) (c066 : Fin 6 → Fin 6 → K) : T4 K :=
  chgBasis3 q le_rfl (refCompliance c066)

end

end Fierro
