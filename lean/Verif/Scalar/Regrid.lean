import Verif.Scalar.Histogram
import Verif.Scalar.Arith
import Mathlib.Algebra.BigOperators.Group.List.Lemmas
import Mathlib.Algebra.Ring.Defs

/-!
# Resampling

Model of `na.regridding` for scalars and for the components of vectors of coordinates.  The package `regridding`, which is not part
of `/repo`, computes a list of entries `(p, q, w)` for each index along the axes which are not resampled: the element `p` of the
flattened input contributes with the weight `w` to the element `q` of the flattened output.  Which entries it computes for given
coordinates is a parameter.  Units and the argument `weights_input` are not modelled.
-/

namespace NA
open Dict

/-- The entries of a sparse matrix. -/
abbrev Entries (K : Type) := List (Nat × Nat × K)

namespace ND
variable {α K : Type}

/-- The positions of a list of length `n` other than `axis`. -/
def others (n : Nat) (axis : List Nat) : List Nat := (List.range n).filter (· ∉ axis)

/-- The elements of a list at the other positions. -/
def rest (axis l : List Nat) : List Nat := (others l.length axis).map (l.getD · 0)

/-- The index with `ks` at the positions `axis` and `i` at the other positions. -/
def merge (n : Nat) (axis ks i : List Nat) : List Nat :=
  (List.range n).map (fun p => if p ∈ axis then ks.getD (axis.idxOf p) 0 else i.getD ((others n axis).idxOf p) 0)

/-- The image along the dimensions `axis`, at the index `i` along the others. -/
def image (axis : List Nat) (a : ND α) (i : List Nat) : ND α :=
  ⟨axis.map (a.shape.getD · 0), fun ks => a.get (merge a.shape.length axis ks i)⟩

/-- The shape with `cells` applied to the sizes of the dimensions `axis`. -/
def resized (cells : Nat → Nat) (axis s : List Nat) : List Nat :=
  (List.range s.length).map (fun p => if p ∈ axis then cells (s.getD p 0) else s.getD p 0)

/-- `regridding.weights`, for axes in ascending order: the images are flattened in this order. `matrix` gives the entries for the
images of the coordinates, and `cells` the number of values for a number of coordinates along one axis (the same for
`method='multilinear'`, one less for `method='conservative'`).
Assumption about the package `regridding` (not part of `/repo`); other arguments are outside of the model. -/
def regridWeights (matrix : List (ND α) → List (ND α) → Entries K) (cells : Nat → Nat) (sI sO : List Nat) (cI cO : List (ND α))
    (axI axO : List Nat) : R (ND (Entries K) × List Nat × List Nat) :=
  if axI.length = axO.length ∧ axI.Pairwise (· < ·) ∧ axO.Pairwise (· < ·) ∧ rest axI sI = rest axO sO then
    .ok (⟨rest axI sI, fun i => matrix (cI.map (fun a => a.image axI i)) (cO.map (fun a => a.image axO i))⟩,
      resized cells axI sI, resized cells axO sO)
  else .error .other

/-- `regridding.regrid_from_weights`, for axes in ascending order.
Assumption about the package `regridding` (not part of `/repo`); other arguments are outside of the model. -/
def regrid [Semiring K] (weights : ND (Entries K)) (sI sO : List Nat) (values : ND K) (axI axO : List Nat) : R (ND K) :=
  if axI.length = axO.length ∧ axI.Pairwise (· < ·) ∧ axO.Pairwise (· < ·) ∧ rest axI sI = rest axO sO ∧ weights.shape = rest axI sI then
    .ok ⟨sO, fun i => (((weights.get (rest axO i)).filter
      (fun t => t.2.1 = ravel (axO.map (sO.getD · 0)) (axO.map (i.getD · 0)))).map
        (fun t => t.2.2 * values.get (merge sI.length axI (unravel (axI.map (sI.getD · 0)) t.1) (rest axO i)))).sum⟩
  else .error .other

end ND

namespace SA
variable {α K : Type}

/-- `na.regridding.weights(coordinates_input, coordinates_output, axis_input, axis_output)` for the components of the coordinates.
Models `/repo/named_arrays/_vectors/vector_named_array_functions.py` lines 925-985, and
`/repo/named_arrays/_scalars/scalar_named_array_functions.py` lines 1877-1902 for one component. -/
def regridWeights (matrix : List (ND α) → List (ND α) → Entries K) (cells : Nat → Nat) (cI cO : List (SA α))
    (axisInput axisOutput : Option (List String)) : R (SA (Entries K) × Shape × Shape) := do
  let shapeInput ← broadcastShapes (cI.map SA.shape)
  let shapeOutput ← broadcastShapes (cO.map SA.shape)
  let axisInput := axisInput.getD shapeInput.keys
  let axisOutput := axisOutput.getD shapeOutput.keys
  let shapeOrthogonal ← broadcastShapes [orthogonal shapeInput axisInput, orthogonal shapeOutput axisOutput]
  let shapeInput ← broadcastShapes [shapeOrthogonal, shapeInput]
  let shapeOutput ← broadcastShapes [shapeOrthogonal, shapeOutput]
  let cI ← cI.mapM (fun c => c.broadcastTo shapeInput)
  let cO ← cO.mapM (fun c => c.broadcastTo shapeOutput)
  if axisInput.all (· ∈ shapeInput.keys) ∧ axisOutput.all (· ∈ shapeOutput.keys) then
    let r ← ND.regridWeights matrix cells shapeInput.values shapeOutput.values (cI.map SA.nd) (cO.map SA.nd)
      (axisInput.map shapeInput.keys.idxOf) (axisOutput.map shapeOutput.keys.idxOf)
    let weights ← mk? r.1 shapeOrthogonal.keys
    .ok (weights, shapeInput.keys.zip r.2.1, shapeOutput.keys.zip r.2.2)
  else .error .valueError

/-- `na.regridding.regrid_from_weights(weights, shape_input, shape_output, values_input)`.
Models `/repo/named_arrays/_scalars/scalar_named_array_functions.py` lines 1905-1953. -/
def regridFromWeights [Semiring K] (weights : SA (Entries K)) (shapeInput shapeOutput : Shape) (values : SA K) : R (SA K) := do
  let axisInput := shapeInput.keys.filter (· ∉ weights.shape.keys)
  let axisOutput := shapeOutput.keys.filter (· ∉ weights.shape.keys)
  let shapeOrthogonal := orthogonal values.shape axisInput
  let shapeOrthogonal ← broadcastShapes [shapeOrthogonal, weights.shape]
  let shapeInput ← broadcastShapes [shapeOrthogonal, shapeInput]
  let shapeOutput ← broadcastShapes [shapeOrthogonal, shapeOutput]
  let weights ← weights.broadcastTo (orthogonal shapeInput axisInput)
  let values ← values.broadcastTo shapeInput
  let result ← ND.regrid weights.nd shapeInput.values shapeOutput.values values.nd
    (axisInput.map shapeInput.keys.idxOf) (axisOutput.map shapeOutput.keys.idxOf)
  mk? result shapeOutput.keys

/-- `na.regridding.transpose_weights(weights)`: `regridding.transpose_weights` exchanges the positions of each entry.
Models `/repo/named_arrays/_scalars/scalar_named_array_functions.py` lines 1956-1965. -/
def transposeWeights (weights : SA (Entries K) × Shape × Shape) : R (SA (Entries K) × Shape × Shape) := do
  let w ← mk? ⟨weights.1.nd.shape, fun i => (weights.1.nd.get i).map (fun t => (t.2.1, t.1, t.2.2))⟩ weights.1.axes
  .ok (w, weights.2.2, weights.2.1)

/-- `na.regridding.regrid(coordinates_input, coordinates_output, values_input, axis_input, axis_output)`.
Models `/repo/named_arrays/regridding.py` lines 20-139. -/
def regrid [Semiring K] (matrix : List (ND α) → List (ND α) → Entries K) (cells : Nat → Nat) (cI cO : List (SA α)) (values : SA K)
    (axisInput axisOutput : Option (List String)) : R (SA K) := do
  let w ← regridWeights matrix cells cI cO axisInput axisOutput
  regridFromWeights w.1 w.2.1 w.2.2 values

end SA
end NA
