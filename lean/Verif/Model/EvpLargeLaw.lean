import Mathlib.Analysis.SpecialFunctions.Exp
import Verif.Model.EvpLarge

/-!
# LS-EVPFFT: plastic flow and stress at a grid point

Models `update_defgradp.cpp` (the plastic velocity gradients), `update_schmid.cpp`, `evpal.cpp` and the
isotropic (J2) branch of `harden.cpp` of `apps/micromechanics/LS-EVPFFT/src`, default build (without
`NON_SCHMID_EFFECTS` and `TWO_SIGN_SLIP_SYSTEMS`).
-/

namespace Fierro.Large

open Matrix

/-! ### Plastic velocity gradients -/

/-- A slip system in crystal axes: direction `dbca` and plane normal `dnca`. -/
structure SlipDir where
  b : Fin 3 → ℝ
  n : Fin 3 → ℝ

/-- One system added to `velgradp`, update_defgradp.cpp:53-66. -/
def slipTerm (ag : M3) (acc : M3) (s : SlipDir × ℝ) : M3 :=
  Matrix.of fun i j => acc i j + (ag *ᵥ s.1.b) i * (ag *ᵥ s.1.n) j * s.2

/-- `velgradp` of a crystal, update_defgradp.cpp:45-67; systems paired with their shear rates. -/
def slipVelgrad (ag : M3) (l : List (SlipDir × ℝ)) : M3 := l.foldl (slipTerm ag) 0

/-- `velgradp` of an isotropic material, update_defgradp.cpp:71-87. -/
noncomputable def j2Velgrad (Fe edotp : M3) : M3 := inv3 Fe * edotp * Fe

/-- `aux33r`, update_schmid.cpp:53-88. -/
noncomputable def pushedSlip (Fe ag : M3) (s : SlipDir) : M3 :=
  Fe * ag * Matrix.of (fun i j => s.b i * s.n j) * inv3 (Fe * ag)

/-- `sch`, update_schmid.cpp:91-101. -/
noncomputable def schmid (q : BasisConst ℝ) (Fe ag : M3) (s : SlipDir) : Fin 5 → ℝ :=
  chgBasis2 q (by omega : 5 ≤ 6) fun i j => 1 / 2 * (pushedSlip Fe ag s i j + pushedSlip Fe ag s j i)

/-! ### Isotropic plasticity -/

/-- Data of an isotropic point: `edotp0_j2`, `nrs_j2`, `sigma0gr`. -/
structure J2 where
  edotp0 : ℝ
  nrs : ℤ
  sigma0gr : ℝ

/-- `sgvm`, evpal.cpp:220-224. -/
noncomputable def j2Norm (sg6 : Fin 6 → ℝ) : ℝ := Real.sqrt (∑ k : Fin 5, sg6 k.castSucc * sg6 k.castSucc)

namespace J2

/-- `mag`, evpal.cpp:226. -/
noncomputable def mag (d : J2) (sg6 : Fin 6 → ℝ) : ℝ :=
  1.5 * d.edotp0 / d.sigma0gr * powIntExpo (j2Norm sg6 / d.sigma0gr) (d.nrs - 1)

/-- `edotp6`, evpal.cpp:227-230. -/
noncomputable def rate6 (d : J2) (sg6 : Fin 6 → ℝ) : Fin 6 → ℝ := fun i =>
  if i.val < 5 then d.mag sg6 * sg6 i else 0

/-- `dedotp66`, evpal.cpp:232-243.  `none` stands for the quotient `0/0` formed when the deviator is
zero. -/
noncomputable def tangent66 (d : J2) (sg6 : Fin 6 → ℝ) : Option (Dense 6 ℝ) :=
  if j2Norm sg6 = 0 then none
  else some fun i j =>
    if i.val < 5 ∧ j.val < 5 then
      d.mag sg6 * ((d.nrs - 1) * sg6 i / j2Norm sg6 * sg6 j / j2Norm sg6 +
        ((((i : ℕ) + 1) / ((j : ℕ) + 1) * (((j : ℕ) + 1) / ((i : ℕ) + 1)) : ℕ) : ℝ))
    else 0

end J2

/-- `vm`, vm.cpp:4-34. -/
noncomputable def vm (d : T2 ℝ) : ℝ :=
  let trace := d 0 0 + d 1 1 + d 2 2
  Real.sqrt (2 / 3 * ∑ j : Fin 3, ∑ i : Fin 3, ((d i j + d j i) / 2 -
    ((((i : ℕ) + 1) / ((j : ℕ) + 1) * (((j : ℕ) + 1) / ((i : ℕ) + 1)) : ℕ) : ℝ) * trace / 3) ^ 2)

/-- Hardening data of an isotropic phase: `sigma0`, `sigma1`, `thet0_j2`, `thet1_j2`. -/
structure J2Harden where
  sigma0 : ℝ
  sigma1 : ℝ
  thet0 : ℝ
  thet1 : ℝ

/-- `sigma0gr` as a function of `gacumgr`, harden.cpp:104-105.  Only meaningful when `sigma1` is not zero (the
code divides by it); the theorems assume it positive. -/
noncomputable def J2Harden.flow (h : J2Harden) (g : ℝ) : ℝ :=
  h.sigma0 + (h.sigma1 + h.thet1 * g) * (1 - Real.exp (-g * |h.thet0 / h.sigma1|))

/-- Isotropic branch of `harden`, harden.cpp:96-105: new `gacumgr` and `sigma0gr`. -/
noncomputable def J2Harden.update (h : J2Harden) (tdot : ℝ) (edotp : T2 ℝ) (s : ℝ × ℝ) : ℝ × ℝ :=
  let g := s.1 + vm edotp * tdot
  (g, h.flow g)

/-- A run of `harden` at a point. -/
noncomputable def J2Harden.run (h : J2Harden) (s : ℝ × ℝ) (l : List (ℝ × T2 ℝ)) : ℝ × ℝ :=
  l.foldl (fun s a => h.update a.1 a.2 s) s

/-! ### The stress update -/

/-- Material branch `iJ2`, evpal.cpp:143 and 218. -/
inductive Flow where
  | crystal (sys : List SlipState)
  | j2 (d : J2)

/-- `edotp6`, evpal.cpp:186-192 and 227-230. -/
noncomputable def Flow.rate6 : Flow → (Fin 6 → ℝ) → Fin 6 → ℝ
  | .crystal sys, x => plasticRate6 sys x
  | .j2 d, x => d.rate6 x

/-- `dedotp66`, evpal.cpp:194-216 and 232-243. -/
noncomputable def Flow.tangent66 : Flow → (Fin 6 → ℝ) → Option (Dense 6 ℝ)
  | .crystal sys, x => some (plasticTangent66 sys x)
  | .j2 d, x => d.tangent66 x

/-- Input of `evpal` at a grid point; `gop` is `Goperr066mod`, of which the array
`c066modGoperr066mod` holds the product with `c066mod` (calc_c066mod.cpp:104-113). -/
structure EvpalIn where
  q : BasisConst ℝ
  sg : T2 ℝ
  sgt : T2 ℝ
  velgrad : T2 ℝ
  cg66 : Dense 6 ℝ
  c066mod : Dense 6 ℝ
  gop : Dense 6 ℝ
  flow : Flow
  tdot : ℝ

/-- Euclidean length of the residual, evpal.cpp:269-275. -/
noncomputable def len6 (x : Fin 6 → ℝ) : ℝ := Real.sqrt (∑ i, x i * x i)

/-- What the cutting loop leaves behind: `sg6`, the stress at which `res`, `edotp6` and `dedotp66` were
last evaluated, and `resn`. -/
structure Cut where
  cur : Fin 6 → ℝ
  at_ : Fin 6 → ℝ
  resn : ℝ

namespace EvpalIn

/-- `sg66`, evpal.cpp:91-98. -/
noncomputable def sg66 (d : EvpalIn) : Dense 6 ℝ := invertView d.cg66

/-- `xlambda6`, evpal.cpp:103 and 111. -/
noncomputable def xlambda6 (d : EvpalIn) : Fin 6 → ℝ := chgBasis2 d.q le_rfl d.sg

/-- `sgt6`, evpal.cpp:105 and 113. -/
noncomputable def sgt6 (d : EvpalIn) : Fin 6 → ℝ := chgBasis2 d.q le_rfl d.sgt

/-- `strain6`, evpal.cpp:107 and 115. -/
noncomputable def strain6 (d : EvpalIn) : Fin 6 → ℝ :=
  chgBasis2 d.q le_rfl fun i j => (d.velgrad i j + d.velgrad j i) / 2

/-- `sgnorm`, evpal.cpp:117-126. -/
noncomputable def sgnorm (d : EvpalIn) : ℝ := Real.sqrt (∑ i, ∑ j, d.sg i j * d.sg i j)

/-- `strainceq6`, evpal.cpp:248-257. -/
noncomputable def strainceq6 (d : EvpalIn) (x : Fin 6 → ℝ) : Fin 6 → ℝ := fun i =>
  d.flow.rate6 x i + ∑ j, d.sg66 i j * (x j - d.sgt6 j) / d.tdot

/-- `c066modGoperr066mod`, calc_c066mod.cpp:104-113. -/
def cg0 (d : EvpalIn) : Dense 6 ℝ := fun i j => ∑ k, d.c066mod i k * d.gop k j

/-- `res`, evpal.cpp:261-267. -/
noncomputable def residual (d : EvpalIn) (x : Fin 6 → ℝ) : Fin 6 → ℝ := fun i =>
  x i - d.xlambda6 i + ∑ j, (d.c066mod i j * (d.strainceq6 x j - d.strain6 j) -
    d.cg0 i j * (x j - d.xlambda6 j))

/-- The inner loop, evpal.cpp:140-289; `left` is `10 - icut` and `first` is `iter1 == 1`. -/
noncomputable def cut (d : EvpalIn) (first : Bool) (old : Fin 6 → ℝ) : ℕ → Cut → ℝ → Cut
  | 0, c, _ => c
  | left + 1, c, resold =>
    if c.resn > resold then
      let resn := len6 (d.residual c.cur)
      let resold' := if first then resn else resold
      let next := if resn > resold' then fun i => old i + (c.cur i - old i) * (1 / 2) else c.cur
      cut d first old left ⟨next, c.cur, resn⟩ resold'
    else c

/-- `xjacobinv` before the inversion, evpal.cpp:296-306. -/
noncomputable def jacobian (d : EvpalIn) (T : Dense 6 ℝ) : Dense 6 ℝ := fun i j =>
  ((((i : ℕ) + 1) / ((j : ℕ) + 1) * (((j : ℕ) + 1) / ((i : ℕ) + 1)) : ℕ) : ℝ) - d.cg0 i j +
    ∑ k, d.c066mod i k * (d.sg66 k j / d.tdot + T k j)

/-- The new stress, evpal.cpp:309-317: the correction is evaluated where the residual was, and added to
`sg6`. -/
noncomputable def newton (d : EvpalIn) (T : Dense 6 ℝ) (c : Cut) : Fin 6 → ℝ := fun i =>
  c.cur i + ∑ j, -invertView (d.jacobian T) i j * d.residual c.at_ j

/-- The test `erral > erroral`, evpal.cpp:129, 135 and 344; with `sgnorm = 0` the quotient is infinite, or
not a number when the step is zero as well. -/
noncomputable def goesOn (new old : Fin 6 → ℝ) (norm : ℝ) : Prop :=
  if norm = 0 then len6 (fun i => new i - old i) ≠ 0
  else len6 (fun i => new i - old i) / norm > 1 / 10 ^ 10

open Classical in
/-- The loop, evpal.cpp:135-347; `left` is `itmaxal - iter1`, `old` is `sg6old` and `c.resn` is
`resoldn`.  Returns the number of iterations, the stress and the stress of the last evaluation; `none`
when the tangent is not a number. -/
noncomputable def loop (d : EvpalIn) : ℕ → ℕ → (Fin 6 → ℝ) → Cut → Option (ℕ × (Fin 6 → ℝ) × (Fin 6 → ℝ))
  | 0, it, _, c => some (it, c.cur, c.at_)
  | left + 1, it, old, c =>
    let r := d.cut (it == 0) old 10 ⟨c.cur, c.at_, 2 * c.resn⟩ c.resn
    (d.flow.tangent66 r.at_).bind fun T =>
      let new := d.newton T r
      if goesOn new r.cur d.sgnorm then loop d left (it + 1) r.cur ⟨new, r.at_, r.resn⟩
      else some (it + 1, new, r.at_)

/-- The whole loop with its start values, evpal.cpp:112 and 128-133; `junk` is what the uninitialised
`sg6old` and `res` hold. -/
noncomputable def solve (d : EvpalIn) (junk : Fin 6 → ℝ) : Option (ℕ × (Fin 6 → ℝ) × (Fin 6 → ℝ)) :=
  d.loop 100 0 junk ⟨d.xlambda6, junk, 1⟩

/-- `evpal` at a grid point that is not gas, evpal.cpp:88-359: iterations, stress and plastic rate. -/
noncomputable def run (d : EvpalIn) (junk : Fin 6 → ℝ) : Option (ℕ × T2 ℝ × T2 ℝ) :=
  (d.solve junk).map fun r =>
    (r.1, chgBasis1 d.q le_rfl r.2.1, chgBasis1 d.q le_rfl (d.flow.rate6 r.2.2))

end EvpalIn

end Fierro.Large
