import Verif.Model.Output
import Verif.Model.Parallel
import Mathlib.Algebra.Field.Basic

/-!
# The fields of a graphics dump

What `MeshWriter::write_mesh` (common/include/mesh_io.hpp) puts into the arrays that `write_vtu` writes:
choice of the fields in the input deck, rows of the arrays and their names, the loops that fill the
arrays.  The arrays `MaterialPoints.*`, `GaussPoints.*` and `node.*` of the requested fields are taken
as allocated.  The loops of one call run one after the other, the iterations of a loop in any order.
-/

namespace Fierro

/-- `material_pt_state`, state.hpp:449-466; `unused` stands for the enumerators the writer ignores
(moduli, Poisson ratios, heat flux). -/
inductive MatField where
  | density | pressure | stress | sie | sspd | mass | volfrac | eroded | conductivity | specificHeat
  | unused
deriving DecidableEq, Repr

/-- `gauss_pt_state`, state.hpp:323-329. -/
inductive GaussField where
  | volume | divergence | levelSet | velGrad
deriving DecidableEq, Repr

/-- `node_state`, state.hpp:251-260. -/
inductive NodeField where
  | coords | velocity | mass | temp | heatTransfer | force | gradLevelSet
deriving DecidableEq, Repr

/-! ### Requests in the input deck -/

/-- `elem_outputs_map`, output_options.hpp:106-114. -/
def elemOutputsMap : List (String × MatField) :=
  [("den", .density), ("pres", .pressure), ("stress", .stress), ("sie", .sie), ("sspd", .sspd),
    ("mass", .mass)]

/-- `mat_pt_outputs_map`, output_options.hpp:93-103. -/
def matOutputsMap : List (String × MatField) :=
  [("den", .density), ("pres", .pressure), ("stress", .stress), ("sie", .sie), ("sspd", .sspd),
    ("mass", .mass), ("volfrac", .volfrac), ("eroded", .eroded)]

/-- `gauss_pt_outputs_map`, output_options.hpp:85-90. -/
def gaussOutputsMap : List (String × GaussField) :=
  [("volume", .volume), ("level_set", .levelSet), ("vel_grad", .velGrad)]

/-- `node_outputs_map`, output_options.hpp:74-82. -/
def nodeOutputsMap : List (String × NodeField) :=
  [("coords", .coords), ("vel", .velocity), ("temp", .temp), ("mass", .mass), ("force", .force),
    ("grad_level_set", .gradLevelSet)]

/-- The loop over the names of one list of requests, parse_output_options.cpp:147-161, 189-203, 210-224,
231-245; `none`: an unknown name throws. -/
def parseRequests {F : Type} (map : List (String × F)) : List String → Option (List F)
  | [] => some []
  | w :: ws => match map.lookup w with
    | none => none
    | some f => (parseRequests map ws).map (f :: ·)

/-- `elem_field_outputs`, parse_output_options.cpp:142-183: the mass is added if the specific internal
energy is requested without it. -/
def parseElemRequests (ws : List String) : Option (List MatField) :=
  (parseRequests elemOutputsMap ws).map fun fs =>
    if MatField.sie ∈ fs ∧ MatField.mass ∉ fs then fs ++ [.mass] else fs

/-! ### Rows and names -/

/-- Counting pass of the element fields, mesh_io.hpp:2118-2173: scalars and tensors per request. -/
def countElem : MatField → ℕ × ℕ
  | .density | .pressure | .sie | .sspd | .mass | .conductivity | .specificHeat => (1, 0)
  | .stress => (0, 1)
  | .volfrac | .eroded | .unused => (0, 0)

/-- Counting pass of the Gauss point fields, mesh_io.hpp:2176-2202. -/
def countGauss : GaussField → ℕ × ℕ
  | .volume | .levelSet | .divergence => (1, 0)
  | .velGrad => (0, 1)

/-- Counting pass of the material fields, mesh_io.hpp:2057-2114. -/
def countMatRows : MatField → ℕ × ℕ
  | .density | .pressure | .sie | .sspd | .mass | .eroded | .conductivity | .specificHeat => (1, 0)
  | .volfrac => (2, 0)
  | .stress => (0, 1)
  | .unused => (0, 0)

/-- Counting pass of the nodal fields, mesh_io.hpp:2442-2473: scalars and vectors. -/
def countNode : NodeField → ℕ × ℕ
  | .mass | .temp => (1, 0)
  | .coords | .gradLevelSet => (0, 1)
  | .velocity => (0, 2)
  | .force | .heatTransfer => (0, 0)

/-- The columns of all arrays, one for each of the variables `den_id`, `mat_den_id`, `node_mass_id`, ...
of `write_mesh`. -/
inductive OutCol where
  | den | pres | sie | sspd | mass | stress | thermalK | cp
  | vol | div | levelSet | velGrad
  | volfrac | geoVolfrac | eroded
  | nodeMass | nodeTemp | nodeCoords | nodeVel | nodeAccel | nodeGrad
deriving DecidableEq, Repr

/-- Whether a column goes to the array of scalars (otherwise tensors or vectors). -/
def OutCol.isScalar : OutCol → Bool
  | .stress | .velGrad | .nodeCoords | .nodeVel | .nodeAccel | .nodeGrad => false
  | _ => true

/-- Columns and names of an element request, mesh_io.hpp:2335-2398. -/
def elemCols : MatField → List (OutCol × String)
  | .density => [(.den, "den")]
  | .pressure => [(.pres, "pres")]
  | .sie => [(.sie, "sie")]
  | .sspd => [(.sspd, "sspd")]
  | .mass => [(.mass, "mass")]
  | .stress => [(.stress, "stress")]
  | .conductivity => [(.thermalK, "thermal_K")]
  | .specificHeat => [(.cp, "Cp")]
  | .volfrac | .eroded | .unused => []

/-- Columns and names of a Gauss point request, mesh_io.hpp:2408-2435. -/
def gaussCols : GaussField → List (OutCol × String)
  | .volume => [(.vol, "vol")]
  | .divergence => [(.div, "div")]
  | .levelSet => [(.levelSet, "level_set")]
  | .velGrad => [(.velGrad, "vel_grad")]

/-- Columns and names of a material request, mesh_io.hpp:2237-2312. -/
def matCols : MatField → List (OutCol × String)
  | .density => [(.den, "mat_den")]
  | .pressure => [(.pres, "mat_pres")]
  | .sie => [(.sie, "mat_sie")]
  | .sspd => [(.sspd, "mat_sspd")]
  | .mass => [(.mass, "mat_mass")]
  | .volfrac => [(.volfrac, "mat_volfrac"), (.geoVolfrac, "mat_geo_volfrac")]
  | .eroded => [(.eroded, "mat_eroded")]
  | .stress => [(.stress, "mat_stress")]
  | .conductivity => [(.thermalK, "mat_thermal_K")]
  | .specificHeat => [(.cp, "mat_Cp")]
  | .unused => []

/-- Columns and names of a nodal request, mesh_io.hpp:2492-2537. -/
def nodeCols : NodeField → List (OutCol × String)
  | .mass => [(.nodeMass, "node_mass")]
  | .temp => [(.nodeTemp, "node_temp")]
  | .coords => [(.nodeCoords, "node_coords")]
  | .velocity => [(.nodeVel, "node_vel"), (.nodeAccel, "node_accel")]
  | .gradLevelSet => [(.nodeGrad, "node_grad_lvlset")]
  | .force | .heatTransfer => []

/-- The names entered so far and the row of each column (`-1`: none). -/
structure OutSlots where
  scalars : List String
  others : List String
  row : OutCol → ℤ

/-- `names[var] = ..; id = var; var++`. (The name vectors have the counted length; that as many names are
entered is shown.) -/
def OutSlots.enter (s : OutSlots) (c : OutCol × String) : OutSlots :=
  if c.1.isScalar then
    { s with scalars := s.scalars ++ [c.2], row := Function.update s.row c.1 s.scalars.length }
  else { s with others := s.others ++ [c.2], row := Function.update s.row c.1 s.others.length }

/-- All names and rows of a list of requested columns, mesh_io.hpp:2208-2437, 2476-2537. -/
def outSlots (cols : List (OutCol × String)) : OutSlots :=
  cols.foldl OutSlots.enter ⟨[], [], fun _ => -1⟩

/-! ### Arrays and loops -/

/-- Entries of the arrays of scalar, vector and tensor fields. -/
inductive OutCell where
  | scal (row : ℤ) (e : ℕ)
  | vec (row : ℤ) (g d : ℕ)
  | tens (row : ℤ) (e i j : ℕ)
deriving DecidableEq

/-- The state that is written. `elem m s`: element of storage index `s` of material `m`
(`elem_in_mat_elem`), `numMatElems m` their number. -/
structure OutState (K : Type) where
  numMats : ℕ
  numElems : ℕ
  numNodes : ℕ
  dims : ℕ
  numMatElems : ℕ → ℕ
  elem : ℕ → ℕ → ℕ
  den : ℕ → ℕ → K
  pres : ℕ → ℕ → K
  sie : ℕ → ℕ → K
  sspd : ℕ → ℕ → K
  mass : ℕ → ℕ → K
  volfrac : ℕ → ℕ → K
  geoVolfrac : ℕ → ℕ → K
  conductivity : ℕ → ℕ → K
  specificHeat : ℕ → ℕ → K
  eroded : ℕ → ℕ → Bool
  stress : ℕ → ℕ → ℕ → ℕ → K
  vol : ℕ → K
  div : ℕ → K
  levelSet : ℕ → K
  velGrad : ℕ → ℕ → ℕ → K
  nodeMass : ℕ → K
  temp : ℕ → K
  coords : ℕ → ℕ → K
  vel : ℕ → ℕ → K
  velN0 : ℕ → ℕ → K
  gradLevelSet : ℕ → ℕ → K

section
variable {K : Type} [Field K]

/-- A parallel loop on the arrays: number of iterations and their actions (cells `inr i` are local
variables of iteration `i`). -/
abbrev OutLoop (K : Type) := (n : ℕ) × (Fin n → List (Action (OutCell ⊕ ℕ) K))

/-- `FOR_ALL(i, 0, n, { cell += x; .. })`. -/
def addLoop (n : ℕ) (ops : ℕ → List (OutCell × K)) : OutLoop K :=
  ⟨n, fun i => rmwThread i ((ops i).map fun o => (o.1, fun v => v + o.2))⟩

/-- `FOR_ALL(i, 0, n, { cell = x; .. })`. -/
def storeLoop (n : ℕ) (ops : ℕ → List (OutCell × K)) : OutLoop K :=
  ⟨n, fun i => ((ops i).map fun o => (Sum.inl o.1, o.2)).map fun o => Action.assign o.1 o.2⟩

/-- The nine entries of a tensor in the order of the loops over `i` and `j`. -/
def tensorOps (row : ℤ) (e : ℕ) (x : ℕ → ℕ → K) : List (OutCell × K) :=
  (List.range 3).flatMap fun i => (List.range 3).map fun j => (.tens row e i j, x i j)

/-- The loop of `concatenate_elem_fields` for one material and one material point field,
mesh_io.hpp:3689-3816. -/
def elemFieldLoops (st : OutState K) (row : OutCol → ℤ) (m : ℕ) : MatField → List (OutLoop K)
  | .density => [addLoop (st.numMatElems m) fun s =>
      [(.scal (row .den) (st.elem m s), st.den m s * st.volfrac m s * st.geoVolfrac m s)]]
  | .pressure => [addLoop (st.numMatElems m) fun s =>
      [(.scal (row .pres) (st.elem m s), st.pres m s * st.volfrac m s * st.geoVolfrac m s)]]
  | .sie => [addLoop (st.numMatElems m) fun s =>
      [(.scal (row .sie) (st.elem m s), st.mass m s * st.sie m s)]]
  | .sspd => [addLoop (st.numMatElems m) fun s =>
      [(.scal (row .sspd) (st.elem m s), st.sspd m s * st.volfrac m s * st.geoVolfrac m s)]]
  | .mass => [addLoop (st.numMatElems m) fun s =>
      [(.scal (row .mass) (st.elem m s), st.mass m s)]]
  | .stress => [addLoop (st.numMatElems m) fun s =>
      tensorOps (row .stress) (st.elem m s) fun i j =>
        st.stress m s i j * st.volfrac m s * st.geoVolfrac m s]
  | .conductivity => [addLoop (st.numMatElems m) fun s =>
      [(.scal (row .thermalK) (st.elem m s),
        st.conductivity m s * st.volfrac m s * st.geoVolfrac m s)]]
  | .specificHeat => [addLoop (st.numMatElems m) fun s =>
      [(.scal (row .cp) (st.elem m s),
        st.specificHeat m s * st.volfrac m s * st.geoVolfrac m s)]]
  | .volfrac | .eroded | .unused => []

/-- The loop of `concatenate_elem_fields` for one Gauss point field, mesh_io.hpp:3822-3866. -/
def gaussFieldLoops (st : OutState K) (row : OutCol → ℤ) : GaussField → List (OutLoop K)
  | .volume => [storeLoop st.numElems fun e => [(.scal (row .vol) e, st.vol e)]]
  | .divergence => [storeLoop st.numElems fun e => [(.scal (row .div) e, st.div e)]]
  | .levelSet => [storeLoop st.numElems fun e => [(.scal (row .levelSet) e, st.levelSet e)]]
  | .velGrad => [storeLoop st.numElems fun e => tensorOps (row .velGrad) e (st.velGrad e)]

/-- The loops of the calls of `concatenate_elem_fields` for all materials, mesh_io.hpp:2564-2590,
3663-3872. -/
def elemLoops (st : OutState K) (row : OutCol → ℤ) (req : List MatField) (gauss : List GaussField) :
    List (OutLoop K) :=
  (List.range st.numMats).flatMap fun m =>
    req.flatMap (elemFieldLoops st row m) ++ gauss.flatMap (gaussFieldLoops st row)

/-- Division of the internal energy by the mass, mesh_io.hpp:2593-2598. -/
def divideLoop (numElems : ℕ) (rowSie rowMass : ℤ) : OutLoop K :=
  ⟨numElems, fun e =>
    [{ dst := Sum.inr e
       reads := fun c => c = Sum.inl (.scal rowSie e) ∨ c = Sum.inl (.scal rowMass e)
       val := fun v => v (Sum.inl (.scal rowSie e)) / (v (Sum.inl (.scal rowMass e)) + 1 / 10 ^ 20)
       frame := fun v v' h => by rw [h _ (Or.inl rfl), h _ (Or.inr rfl)] },
     Action.copy (Sum.inl (.scal rowSie e)) (Sum.inr e) id]⟩

/-- All loops on the element arrays, mesh_io.hpp:2564-2598. -/
def allElemLoops (st : OutState K) (row : OutCol → ℤ) (req : List MatField)
    (gauss : List GaussField) : List (OutLoop K) :=
  elemLoops st row req gauss ++
    if 0 ≤ row .sie then [divideLoop st.numElems (row .sie) (row .mass)] else []

/-- The loops of `concatenate_mat_fields` for material `m`, mesh_io.hpp:3891-4032. -/
def matFieldLoops (st : OutState K) (row : OutCol → ℤ) (m : ℕ) : MatField → List (OutLoop K)
  | .density => [storeLoop (st.numMatElems m) fun s => [(.scal (row .den) s, st.den m s)]]
  | .pressure => [storeLoop (st.numMatElems m) fun s => [(.scal (row .pres) s, st.pres m s)]]
  | .sie => [storeLoop (st.numMatElems m) fun s => [(.scal (row .sie) s, st.sie m s)]]
  | .sspd => [storeLoop (st.numMatElems m) fun s => [(.scal (row .sspd) s, st.sspd m s)]]
  | .mass => [storeLoop (st.numMatElems m) fun s => [(.scal (row .mass) s, st.mass m s)]]
  | .volfrac => [storeLoop (st.numMatElems m) fun s => [(.scal (row .volfrac) s, st.volfrac m s)],
      storeLoop (st.numMatElems m) fun s => [(.scal (row .geoVolfrac) s, st.geoVolfrac m s)]]
  | .eroded => [storeLoop (st.numMatElems m) fun s =>
      [(.scal (row .eroded) s, if st.eroded m s then 1 else 0)]]
  | .stress => [storeLoop (st.numMatElems m) fun s => tensorOps (row .stress) s (st.stress m s)]
  | .conductivity => [addLoop (st.numMatElems m) fun s =>
      [(.scal (row .thermalK) (st.elem m s), st.conductivity m s)]]
  | .specificHeat => [addLoop (st.numMatElems m) fun s =>
      [(.scal (row .cp) (st.elem m s), st.specificHeat m s)]]
  | .unused => []

/-- The three components of a nodal vector: the third one is zero in 2D. -/
def vectorOps (dims : ℕ) (row : ℤ) (g : ℕ) (x : ℕ → K) : List (OutCell × K) :=
  [(.vec row g 0, x 0), (.vec row g 1, x 1), (.vec row g 2, if dims = 2 then 0 else x 2)]

/-- The loops of `concatenate_nodal_fields`, mesh_io.hpp:4052-4150. Line 4095 uses the row of the
coordinates as node number. -/
def nodeFieldLoops (st : OutState K) (dt : K) (row : OutCol → ℤ) : NodeField → List (OutLoop K)
  | .mass => [storeLoop st.numNodes fun g => [(.scal (row .nodeMass) g, st.nodeMass g)]]
  | .temp => [storeLoop st.numNodes fun g => [(.scal (row .nodeTemp) g, st.temp g)]]
  | .coords => [storeLoop st.numNodes fun g =>
      [(.vec (row .nodeCoords) g 0, st.coords g 0), (.vec (row .nodeCoords) g 1, st.coords g 1),
        if st.dims = 2 then (.vec (row .nodeCoords) g 2, 0)
        else (.vec (row .nodeCoords) (row .nodeCoords).toNat 2, st.coords g 2)]]
  | .velocity => [storeLoop st.numNodes fun g =>
      vectorOps st.dims (row .nodeVel) g (st.vel g) ++
        vectorOps st.dims (row .nodeAccel) g fun d => (st.vel g d - st.velN0 g d) / dt]
  | .gradLevelSet => [storeLoop st.numNodes fun g =>
      vectorOps st.dims (row .nodeGrad) g (st.gradLevelSet g)]
  | .force | .heatTransfer => []

/-! ### What is written -/

/-- The scalar arrays of `n` elements or nodes, mesh_io.hpp:4370-4376, 4393-4401: a number on each line. -/
def writtenScalars (prt : K → K) (n : ℕ) (names : List String) (v : OutCell ⊕ ℕ → K) : List (VtuField K) :=
  names.zipIdx.map fun a => ⟨a.1, (List.range n).map fun e => [.real (prt (v (Sum.inl (.scal a.2 e))))]⟩

/-- The tensor arrays, mesh_io.hpp:4405-4420: all numbers on one line, rows of the tensor one after the
other. -/
def writtenTensors (prt : K → K) (n : ℕ) (names : List String) (v : OutCell ⊕ ℕ → K) : List (VtuField K) :=
  names.zipIdx.map fun a => ⟨a.1, [(List.range n).flatMap fun e => (List.range 3).flatMap fun i =>
    (List.range 3).map fun j => .real (prt (v (Sum.inl (.tens a.2 e i j))))]⟩

/-- The vector arrays, mesh_io.hpp:4355-4366: three numbers on each line. -/
def writtenVectors (prt : K → K) (n : ℕ) (names : List String) (v : OutCell ⊕ ℕ → K) : List (VtuField K) :=
  names.zipIdx.map fun a => ⟨a.1, (List.range n).map fun g =>
    [.real (prt (v (Sum.inl (.vec a.2 g 0)))), .real (prt (v (Sum.inl (.vec a.2 g 1)))),
      .real (prt (v (Sum.inl (.vec a.2 g 2))))]⟩

/-- `ElemOutput st req gauss prt fs`: the cell data `fs` may be written for the whole mesh. The arrays are
set to zero before (mesh_io.hpp:2558-2559). -/
def ElemOutput (st : OutState K) (prt : K → K) (req : List MatField) (gauss : List GaussField)
    (fs : List (VtuField K)) : Prop :=
  let slots := outSlots (req.flatMap elemCols ++ gauss.flatMap gaussCols)
  ∃ v v', (∀ c, v (Sum.inl c) = 0) ∧ RunLoops (allElemLoops st slots.row req gauss) v v' ∧
    fs = writtenScalars prt st.numElems slots.scalars v' ++
      writtenTensors prt st.numElems slots.others v'

/-- `MatOutput st prt m req fs`: the cell data `fs` may be written for material `m`. -/
def MatOutput (st : OutState K) (prt : K → K) (m : ℕ) (req : List MatField)
    (fs : List (VtuField K)) : Prop :=
  let slots := outSlots (req.flatMap matCols)
  ∃ v v', RunLoops (req.flatMap (matFieldLoops st slots.row m)) v v' ∧
    fs = writtenScalars prt (st.numMatElems m) slots.scalars v' ++
      writtenTensors prt (st.numMatElems m) slots.others v'

/-- `NodeOutput st prt dt req v fs`: the point data `fs` may be written; `v` is the memory of the new
arrays. -/
def NodeOutput (st : OutState K) (prt : K → K) (dt : K) (req : List NodeField) (v : OutCell ⊕ ℕ → K)
    (fs : List (VtuField K)) : Prop :=
  let slots := outSlots (req.flatMap nodeCols)
  ∃ v', RunLoops (req.flatMap (nodeFieldLoops st dt slots.row)) v v' ∧
    fs = writtenVectors prt st.numNodes slots.others v' ++
      writtenScalars prt st.numNodes slots.scalars v'

end

end Fierro
