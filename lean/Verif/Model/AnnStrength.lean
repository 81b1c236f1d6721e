import Mathlib.Analysis.SpecialFunctions.Exp
import Mathlib.Data.List.Basic

/-!
# The strength model with a neural network on the host

Models `apps/multiphysics/src/material_models/strength/host_ann_strength.hpp`.  Single precision is exact arithmetic of
reals.  Arrays are lists; `none` is an access past the end.  Kernel launches follow each other, the reduction of a node is
over any order of the inputs.  Host and device copies are not told apart here (C132).
-/

namespace Fierro

/-- `ANNLayer_t`, host_ann_strength.hpp:48-54, without the outputs. -/
structure AnnLayer where
  numIn : ℕ
  numOut : ℕ
  weights : ℕ → ℕ → ℝ
  biases : List ℝ

/-- `1.0/(1.0 + exp(-sum))`, host_ann_strength.hpp:104. -/
noncomputable def annActivation (s : ℝ) : ℝ := 1 / (1 + Real.exp (-s))

/-- `forward_propagate_layer_host`, host_ann_strength.hpp:78-114: `ord j` is the order in which the team of node `j` takes the
inputs; the bias is added inside the reduction. -/
noncomputable def annForward (ord : ℕ → List ℕ) (inputs : List ℝ) (numOut : ℕ) (w : ℕ → ℕ → ℝ) (b : List ℝ) :
    Option (List ℝ) :=
  (List.range numOut).mapM fun j => do
    let terms ← (ord j).mapM fun i => do
      let x ← inputs[i]?
      let c ← b[j]?
      pure (x * w i j + c)
    pure (annActivation (terms.foldl (· + ·) 0))

/-- The loop over the layers from the second on, host_ann_strength.hpp:260-267: the biases handed over are those of the first
layer. -/
noncomputable def annLater (b1 : List ℝ) :
    List ((ℕ → List ℕ) × AnnLayer) → List ℝ → Option (List ℝ)
  | [], x => some x
  | l :: ls, x => do
      let y ← annForward l.1 x l.2.numOut l.2.weights b1
      annLater b1 ls y

/-- The state the model works on: the inputs and layers of the namespace, and the stress of the material point. -/
structure AnnState where
  inputs : List ℝ
  layers : List AnnLayer
  outputs : List ℝ
  stress : List ℝ

/-- `calc_stress`, host_ann_strength.hpp:219-270: `ords` are the orders of the reductions, one per layer.  The stress of the
material point is not written. -/
noncomputable def annCalc (ords : List (ℕ → List ℕ)) (s : AnnState) : Option AnnState :=
  match ords, s.layers with
  | o :: os, l :: ls => do
      let y ← annForward o s.inputs l.numOut l.weights l.biases
      let z ← annLater l.biases (os.zip ls) y
      pure { s with outputs := z }
  | _, _ => none

/-- `init_strength_state_vars`, host_ann_strength.hpp:156-215, for the sizes `num_nodes_in_layer`: weights one, biases zero,
inputs one. -/
noncomputable def annInit (sizes : List ℕ) (stress : List ℝ) : AnnState :=
  { inputs := List.replicate (sizes.headD 0) 1
    layers := (sizes.zip sizes.tail).map fun p =>
      { numIn := p.1, numOut := p.2, weights := fun _ _ => 1, biases := List.replicate p.2 0 }
    outputs := []
    stress := stress }

/-- Calls of the model one after the other: the material points, stages and cycles of a run. -/
noncomputable def annCalls (calls : List (List (ℕ → List ℕ))) (s : AnnState) : Option AnnState :=
  calls.foldlM (fun s o => annCalc o s) s

end Fierro
