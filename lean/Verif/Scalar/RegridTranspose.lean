import Verif.Scalar.Regrid

/-!
# Conservatively transposed weights

Model of `na.regridding.transpose_weights_conservative`.  How the package `regridding`, which is not part of `/repo`, normalises the
transposed weights for given coordinates is a parameter.  Units and the argument `weights_input` are not modelled.
-/

namespace NA
open Dict

namespace ND
variable {α K : Type}

/-- `regridding.transpose_weights_conservative`, for axes in ascending order: `normalise` gives the entries of the transposed matrix for the
entries of the matrix and the images of the coordinates.
Assumption about the package `regridding` (not part of `/repo`); other arguments are outside of the model. -/
def transposeConservative (normalise : Entries K → List (ND α) → List (ND α) → Entries K) (weights : ND (Entries K)) (sI sO : List Nat)
    (cI cO : List (ND α)) (axI axO : List Nat) : R (ND (Entries K)) :=
  if axI.length = axO.length ∧ axI.Pairwise (· < ·) ∧ axO.Pairwise (· < ·) ∧ rest axI sI = rest axO sO ∧ weights.shape = rest axI sI then
    .ok ⟨rest axI sI, fun i => normalise (weights.get i) (cI.map (fun a => a.image axI i)) (cO.map (fun a => a.image axO i))⟩
  else .error .other

end ND

namespace SA
variable {α K : Type}

/-- `na.regridding.transpose_weights_conservative(weights, coordinates_input, coordinates_output, axis_input, axis_output)` for the
components of the coordinates.
Models `/repo/named_arrays/regridding.py` lines 264-383, `/repo/named_arrays/_vectors/vector_named_array_functions.py` lines 1011-1121, and
`/repo/named_arrays/_scalars/scalar_named_array_functions.py` lines 1968-1997 for one component. -/
def transposeWeightsConservative (normalise : Entries K → List (ND α) → List (ND α) → Entries K)
    (weights : SA (Entries K) × Shape × Shape) (cI cO : List (SA α)) (axisInput axisOutput : Option (List String)) :
    R (SA (Entries K) × Shape × Shape) := do
  let shapeInput ← broadcastShapes (cI.map SA.shape)
  let shapeOutput ← broadcastShapes (cO.map SA.shape)
  let axisInput := axisInput.getD shapeInput.keys
  let axisOutput := axisOutput.getD shapeOutput.keys
  let shapeOrthogonal ← broadcastShapes [orthogonal shapeInput axisInput, orthogonal shapeOutput axisOutput, weights.1.shape]
  let shapeInput ← broadcastShapes [shapeOrthogonal, shapeInput]
  let shapeOutput ← broadcastShapes [shapeOrthogonal, shapeOutput]
  let w ← weights.1.broadcastTo shapeOrthogonal
  let cI ← cI.mapM (fun c => c.broadcastTo shapeInput)
  let cO ← cO.mapM (fun c => c.broadcastTo shapeOutput)
  if axisInput.all (· ∈ shapeInput.keys) ∧ axisOutput.all (· ∈ shapeOutput.keys) then
    let r ← ND.transposeConservative normalise w.nd shapeInput.values shapeOutput.values (cI.map SA.nd) (cO.map SA.nd)
      (axisInput.map shapeInput.keys.idxOf) (axisOutput.map shapeOutput.keys.idxOf)
    let result ← mk? r shapeOrthogonal.keys
    .ok (result, weights.2.2, weights.2.1)
  else .error .valueError

end SA
end NA
