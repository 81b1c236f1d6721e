import Verif.Model.EvpCrystal
import Verif.Model.EvpDeck

/-!
# EVPFFT: the files of a phase

Models the reading side of `data_crystal` and `data_crystal_elast` of `apps/micromechanics/EVPFFT/src` (and, for `J2`
phases, of `apps/micromechanics/LS-EVPFFT/src`): which line sets what, which lines are skipped, the conversion of
units, the stops and the properties of every slip system.  The arithmetic on what was read is that of EvpCrystal.lean
and EvpTensor.lean.  The counters `ntwmod`, `ntwsys` and the `NON_SCHMID_EFFECTS` build are left out.
-/

namespace Fierro

/-- The exits of `data_crystal`. -/
inductive CrystalStop where
  | hardening
  | symmetry
  | normality
  | twins
deriving DecidableEq

/-- A step of the reader: `error (some e)` is an exit, `error none` the use of a variable that was not set, a
subscript behind the end of an array, or a division by zero. -/
abbrev CrystalM := Except (Option CrystalStop)

/-- A variable that must have been set. -/
def need {α : Type} : Option α → CrystalM α
  | some a => .ok a
  | none => .error none

/-- A condition under which nothing is out of bounds. -/
def guardC (p : Prop) [Decidable p] : CrystalM Unit := if p then .ok () else .error none

/-- What is stored for a slip system, data_crystal.cpp:151-205. -/
structure SlipSys where
  gamd0 : ℝ
  nrs : ℤ
  twsh : ℝ
  tau : Fin 3 → ℝ
  thet : Fin 2 → ℝ
  isectw : ℤ
  n : Fin 3 → ℝ
  b : Fin 3 → ℝ

namespace CrystalFile

/-- data_crystal.cpp:34-35. -/
def titles : List (List (Kind × Var)) := [[(.word, ("prosa", []))], [(.word, ("icryst", []))]]

/-- data_crystal.cpp:36-43. -/
def sizes : List (List (Kind × Var)) :=
  [[(.real, ("cdim", [1])), (.real, ("cdim", [2])), (.real, ("cdim", [3]))],
   [(.int, ("nmodesx", []))],
   [(.int, ("nmodes", []))]]

/-- data_crystal.cpp:45-48. -/
def modes (n : ℕ) : List (List (Kind × Var)) := [(List.range n).map fun i => (.int, ("mode", [i + 1]))]

/-- data_crystal.cpp:64-71. -/
def mode (nm n : ℕ) : List (List (Kind × Var)) :=
  [[(.word, ("prosa", []))],
   [(.int, ("modex", [])), (.int, ("nsmx", [])), (.int, ("nrsx", [])), (.real, ("gamd0x", [])), (.real, ("twshx", [])),
    (.int, ("isectwx", []))],
   [(.real, ("tau0xf", [])), (.real, ("tau0xb", [])), (.real, ("tau1x", [])), (.real, ("thet0x", [])),
    (.real, ("thet1x", []))],
   (.real, ("hselfx", [nm])) :: (List.range n).map fun j => (.real, ("hlatex", [nm, j + 1]))]

/-- Lines of slip systems with `d` indices each, data_crystal.cpp:113-117 and 120-124. -/
def systems (d n : ℕ) : List (List (Kind × Var)) :=
  (List.range n).map fun j =>
    ((List.range d).map fun k => (Kind.int, (("isn", [j + 1, k + 1]) : Var))) ++
      (List.range d).map fun k => (Kind.int, (("isb", [j + 1, k + 1]) : Var))

/-- `nsmx` lines that are skipped, data_crystal.cpp:83-85. -/
def skipped (n : ℕ) : List (List (Kind × Var)) := List.replicate n []

end CrystalFile

/-- The symmetry by the first three letters, data_crystal.cpp:111-128: `true` for four indices, `false` for three. -/
def symmetryOf (w : List Char) : Option Bool :=
  if w.take 3 = ['H', 'E', 'X'] ∨ w.take 3 = ['T', 'R', 'I'] ∨ w.take 3 = ['h', 'e', 'x'] ∨ w.take 3 = ['t', 'r', 'i'] then
    some true
  else if w.take 3 = ['C', 'U', 'B'] ∨ w.take 3 = ['O', 'R', 'T'] ∨ w.take 3 = ['c', 'u', 'b'] ∨
      w.take 3 = ['o', 'r', 't'] then some false
  else none

/-- What the loop over the modes uses: sizes of the arrays, unit conversion, what the head of the file said, and the
unspecified initial values of `hlatex`. -/
structure CrystalEnv where
  nsysmx : ℕ
  nmodmx : ℕ
  stressScale : ℝ
  timeScale : ℝ
  sym : Option Bool
  cdim : Fin 3 → ℝ
  nmodesx : ℕ
  nmodes : ℕ
  mode : ℕ → ℤ
  l0 : ℕ → ℕ → ℝ

/-- `sn`, `sb` of a system from the indices read, data_crystal.cpp:171-185; the lattice constants that are divided by
must not be zero. -/
noncomputable def readVectors (hex : Bool) (cdim : Fin 3 → ℝ) (s : Reader) (j : ℕ) :
    CrystalM ((Fin 3 → ℝ) × (Fin 3 → ℝ)) :=
  if hex then do
    guardC (cdim 0 ≠ 0 ∧ cdim 2 ≠ 0)
    let isn ← need (collectFn fun k : Fin 4 => s.int ("isn", [j + 1, k.val + 1]))
    let isb ← need (collectFn fun k : Fin 4 => s.int ("isb", [j + 1, k.val + 1]))
    .ok (hexVectors (cdim 2 / cdim 0) isn isb)
  else do
    guardC (∀ m, cdim m ≠ 0)
    let isn ← need (collectFn fun k : Fin 3 => s.int ("isn", [j + 1, k.val + 1]))
    let isb ← need (collectFn fun k : Fin 3 => s.int ("isb", [j + 1, k.val + 1]))
    .ok (cubicVectors cdim isn isb)

/-- Normalised vectors or the exit of data_crystal.cpp:201-206. -/
noncomputable def readUnit (hex : Bool) (cdim : Fin 3 → ℝ) (s : Reader) (j : ℕ) :
    CrystalM ((Fin 3 → ℝ) × (Fin 3 → ℝ)) := do
  let v ← readVectors hex cdim s j
  guardC (vecLen v.1 ≠ 0 ∧ vecLen v.2 ≠ 0)
  match slipVectors v with
  | some u => .ok u
  | none => .error (some .normality)

/-- What the three lines of a mode say, with the units converted (data_crystal.cpp:64-79). -/
structure ModeHead where
  modex : ℤ
  nsmx : ℕ
  nrs : ℤ
  gamd0 : ℝ
  twsh : ℝ
  isectw : ℤ
  tau0f : ℝ
  tau0b : ℝ
  tau1 : ℝ
  thet0 : ℝ
  thet1 : ℝ
  hself : ℝ
  hlate : ℕ → ℝ

/-- data_crystal.cpp:64-79.  A loop to a negative `nsmx` does nothing.  Entries of the row behind `nmodesx` are the
initial ones: no mode read before has written row `nm`, since `kount` was below `nm`. -/
noncomputable def readModeHead (c : CrystalEnv) (nm : ℕ) (s : Reader) : CrystalM ModeHead := do
  let modex ← need (s.int ("modex", []))
  let nsmx ← need (s.int ("nsmx", []))
  let nrsx ← need (s.int ("nrsx", []))
  let gamd0x ← need (s.real ("gamd0x", []))
  let twshx ← need (s.real ("twshx", []))
  let isectwx ← need (s.int ("isectwx", []))
  let tau0xf ← need (s.real ("tau0xf", []))
  let tau0xb ← need (s.real ("tau0xb", []))
  let tau1x ← need (s.real ("tau1x", []))
  let thet0x ← need (s.real ("thet0x", []))
  let thet1x ← need (s.real ("thet1x", []))
  let hself ← need (s.real ("hselfx", [nm]))
  let hlate ← need (collectFn fun j : Fin c.nmodesx => s.real ("hlatex", [nm, j.val + 1]))
  guardC (c.timeScale ≠ 0)
  .ok {
    modex := modex
    nsmx := nsmx.toNat
    nrs := nrsx
    gamd0 := gamd0x / c.timeScale
    twsh := twshx
    isectw := isectwx
    tau0f := tau0xf * c.stressScale
    tau0b := tau0xb * c.stressScale
    tau1 := tau1x * c.stressScale
    thet0 := thet0x * c.stressScale
    thet1 := thet1x * c.stressScale
    hself := hself
    hlate := fun b => if h : 1 ≤ b ∧ b ≤ c.nmodesx then hlate ⟨b - 1, by omega⟩ else c.l0 nm b }

/-- The properties every system of a mode gets, data_crystal.cpp:95-101 and 156-167. -/
noncomputable def ModeHead.system (r : ModeHead) (u : (Fin 3 → ℝ) × (Fin 3 → ℝ)) : SlipSys where
  gamd0 := r.gamd0
  nrs := r.nrs
  twsh := r.twsh
  tau := ![r.tau0f, r.tau0b, if r.tau1 ≤ 1 / 10 ^ 6 then 1 / 10 ^ 6 else r.tau1]
  thet := ![if r.tau1 ≤ 1 / 10 ^ 6 then r.thet1 else r.thet0, r.thet1]
  isectw := r.isectw
  n := u.1
  b := u.2

/-- The systems of an accepted mode, data_crystal.cpp:111-205: the lines are read, and every system is stored. -/
noncomputable def readSystems (F : NumConv) (c : CrystalEnv) (r : ModeHead) (s : Reader) :
    CrystalM (Reader × List SlipSys) :=
  match c.sym with
  | none => .error (some .symmetry)
  | some hex => do
    guardC (r.nsmx ≤ c.nsysmx)
    let s := runIns F (linesIns (CrystalFile.systems (if hex then 4 else 3) r.nsmx)) s
    let us ← (List.range r.nsmx).mapM (readUnit hex c.cdim s)
    .ok (s, us.map r.system)

/-- Body of the loop over the modes of the file, data_crystal.cpp:62-257. -/
noncomputable def crystalMode (F : NumConv) (c : CrystalEnv) (x : Reader × CrystalState SlipSys ℝ) (nm : ℕ) :
    CrystalM (Reader × CrystalState SlipSys ℝ) := do
  let s := runIns F (linesIns (CrystalFile.mode nm c.nmodesx)) x.1
  let st := x.2
  let r ← readModeHead c nm s
  let hself := fun a => if a = nm then r.hself else st.hself a
  let hlate := fun a b => if a = nm then r.hlate b else st.hlate a b
  -- 82-88
  if r.modex ≠ c.mode st.kount then
    .ok (runIns F (linesIns (CrystalFile.skipped r.nsmx)) s, { st with hself := hself, hlate := hlate })
  -- 90-93
  else if r.thet0 < r.thet1 then .error (some .hardening)
  else do
    let y ← readSystems F c r s
    -- 130, 152
    guardC (st.kount ≤ c.nmodmx ∧ (st.sys ++ y.2).length ≤ c.nsysmx)
    .ok (y.1, {
      kount := st.kount + 1
      hself := fun a => if a = st.kount then hself nm else hself a
      hlate := reorderRow hlate st.kount nm (fun i => (c.mode i).toNat) c.nmodes
      nsm := fun a => if a = st.kount then r.nsmx else st.nsm a
      sys := st.sys ++ y.2 })

/-- Whether a slip system follows a twinning system, data_crystal.cpp:282-290. -/
noncomputable def twinsFirst (l : List SlipSys) : Bool :=
  (l.zip l.tail).any fun p => decide (p.2.twsh = 0) && decide (p.1.twsh ≠ 0)

/-- `data_crystal` behind the line with the symmetry, data_crystal.cpp:36-290; `h0`, `l0`, `n0` are the unspecified
initial values of `hselfx`, `hlatex`, `nsm`.  The arrays `mode`, `hselfx`, `hlatex` have room for ten modes.  A wanted
mode outside 1..10 counts as out of bounds at once, though the array is only read there when a mode is accepted. -/
noncomputable def readSlips (F : NumConv) (nsysmx nmodmx : ℕ) (stressScale timeScale : ℝ) (h0 : ℕ → ℝ)
    (l0 : ℕ → ℕ → ℝ) (n0 : ℕ → ℕ) (s : Reader) : CrystalM (CrystalState SlipSys ℝ × ℕ) := do
  let s := runIns F (linesIns CrystalFile.sizes) s
  let cdim ← need (collectFn fun i : Fin 3 => s.real ("cdim", [i.val + 1]))
  let nmodesx ← need (s.int ("nmodesx", []))
  let nmodes ← need (s.int ("nmodes", []))
  guardC (nmodesx ≤ 10 ∧ nmodes ≤ 10)
  let s := runIns F (linesIns (CrystalFile.modes nmodes.toNat)) s
  let mode ← need (collectFn fun i : Fin nmodes.toNat => s.int ("mode", [i.val + 1]))
  guardC (∀ i, 1 ≤ mode i ∧ mode i ≤ 10)
  let c : CrystalEnv := ⟨nsysmx, nmodmx, stressScale, timeScale, symmetryOf (s.word ("icryst", [])), cdim,
    nmodesx.toNat, nmodes.toNat, fun i => if h : i - 1 < nmodes.toNat then mode ⟨i - 1, h⟩ else 0, l0⟩
  let x ← (List.range' 1 nmodesx.toNat).foldlM (crystalMode F c)
    (s, { kount := 1, hself := h0, hlate := l0, nsm := n0, sys := [] })
  if 1 < nmodes ∧ twinsFirst x.2.sys then .error (some .twins)
  else .ok (x.2, nmodes.toNat)

/-- `data_crystal` of EVPFFT: the systems and the state the hardening matrix is made of (`hardMatrix`). -/
noncomputable def readCrystal (F : NumConv) (nsysmx nmodmx : ℕ) (stressScale timeScale : ℝ) (h0 : ℕ → ℝ)
    (l0 : ℕ → ℕ → ℝ) (n0 : ℕ → ℕ) (file : List Char) : CrystalM (CrystalState SlipSys ℝ × ℕ) :=
  readSlips F nsysmx nmodmx stressScale timeScale h0 l0 n0
    (runIns F (linesIns CrystalFile.titles) ⟨fun _ => none, ⟨file, true⟩⟩)

/-- Constants of an isotropic viscoplastic phase, LS-EVPFFT/src/data_crystal.cpp:44-49. -/
structure J2Law where
  nrs : ℤ
  edotp0 : ℝ
  sigma0 : ℝ
  sigma1 : ℝ
  thet0 : ℝ
  thet1 : ℝ

/-- LS-EVPFFT/src/data_crystal.cpp:41-42. -/
def CrystalFile.j2 : List (List (Kind × Var)) :=
  [[(.int, ("nrs_j2x", [])), (.real, ("edotp0_j2x", []))],
   [(.real, ("sigma0x", [])), (.real, ("sigma1x", [])), (.real, ("thet0_j2x", [])), (.real, ("thet1_j2x", []))]]

/-- `data_crystal` of LS-EVPFFT, LS-EVPFFT/src/data_crystal.cpp:34-310. -/
noncomputable def readCrystalLs (F : NumConv) (nsysmx nmodmx : ℕ) (stressScale timeScale : ℝ) (h0 : ℕ → ℝ)
    (l0 : ℕ → ℕ → ℝ) (n0 : ℕ → ℕ) (file : List Char) : CrystalM (J2Law ⊕ CrystalState SlipSys ℝ × ℕ) :=
  let s := runIns F (linesIns CrystalFile.titles) ⟨fun _ => none, ⟨file, true⟩⟩
  let w := (s.word ("icryst", [])).take 2
  if w = ['J', '2'] ∨ w = ['j', '2'] then do
    let s := runIns F (linesIns CrystalFile.j2) s
    let nrs ← need (s.int ("nrs_j2x", []))
    let e ← need (s.real ("edotp0_j2x", []))
    let s0 ← need (s.real ("sigma0x", []))
    let s1 ← need (s.real ("sigma1x", []))
    let t0 ← need (s.real ("thet0_j2x", []))
    let t1 ← need (s.real ("thet1_j2x", []))
    .ok (.inl ⟨nrs, e, s0, s1, t0, t1⟩)
  else (readSlips F nsysmx nmodmx stressScale timeScale h0 l0 n0 s).map .inr

/-! ### Elastic constants -/

/-- data_crystal_elast.cpp:44. -/
def CrystalFile.iso : List (List (Kind × Var)) := [[(.int, ("iso", []))]]

/-- data_crystal_elast.cpp:47-52. -/
def CrystalFile.stiff : List (List (Kind × Var)) :=
  (List.finRange 6).map fun i => (List.finRange 6).map fun j => (.real, ("cc66v", [i.val + 1, j.val + 1]))

/-- data_crystal_elast.cpp:68. -/
def CrystalFile.young : List (List (Kind × Var)) := [[(.real, ("young", [])), (.real, ("tnu", []))]]

/-- `data_crystal_elast`, data_crystal_elast.cpp:44-94; `none`: a variable not set or a division by zero. -/
noncomputable def readElast (F : NumConv) (stressScale : ℝ) (file : List Char) : Option (Mem Key4 ℝ) :=
  let s := runIns F (linesIns CrystalFile.iso) ⟨fun _ => none, ⟨file, true⟩⟩
  (s.int ("iso", [])).bind fun iso =>
  if iso = 0 then
    let s := runIns F (linesIns CrystalFile.stiff) s
    (collectFn fun i : Fin 6 => collectFn fun j : Fin 6 => s.real ("cc66v", [i.val + 1, j.val + 1])).bind fun m =>
    some (phaseStiffness stressScale (.full m))
  else
    let s := runIns F (linesIns CrystalFile.young) s
    (s.real ("young", [])).bind fun e =>
    (s.real ("tnu", [])).bind fun nu =>
    if 1 + nu = 0 ∨ 1 - 2 * nu = 0 then none else some (phaseStiffness stressScale (.iso e nu))

end Fierro
