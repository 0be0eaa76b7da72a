import Verif.Function.Basic

/-!
# Rearranging function arrays

Model of the structural operations of `/repo/named_arrays/_functions/function_array_functions.py` and
`/repo/named_arrays/_functions/function_named_array_functions.py`, for inputs and outputs which are scalar arrays.
-/

namespace NA
open Dict

namespace FA
variable {α β : Type}

/-- `na.broadcast_to(f, shape, append)`: along an axis on vertices the inputs get one more element.
Models `/repo/named_arrays/_functions/function_named_array_functions.py` lines 106-131. -/
def broadcastTo (f : FA α β) (shape : Shape) (append : Bool := false) : R (FA α β) := do
  let v ← f.axesVertex
  let i ← f.inputs.broadcastTo (shape.map (fun p => if p.1 ∈ v then (p.1, p.2 + 1) else p)) append
  let o ← f.outputs.broadcastTo shape append
  .ok ⟨i, o⟩

/-- `np.transpose(f, axes)`.
Models `/repo/named_arrays/_functions/function_array_functions.py` lines 386-404. -/
def transpose (f : FA α β) (axes : Option (List String)) : R (FA α β) := do
  let b ← f.broadcasted
  let s ← b.shape
  let l := axes.getD s.keys.reverse
  let i ← b.inputs.transpose (some l)
  let o ← b.outputs.transpose (some l)
  .ok ⟨i, o⟩

/-- The pairs of names which concern a component: `source, destination = zip(*pairs)`, which does not unpack if
there are no pairs. -/
def unzipPairs (pairs : List (String × String)) : R (List String × List String) :=
  if pairs.isEmpty then .error .valueError else .ok (pairs.map Prod.fst, pairs.map Prod.snd)

/-- `np.moveaxis(f, source, destination)`.
Models `/repo/named_arrays/_functions/function_array_functions.py` lines 407-445. -/
def moveaxis (f : FA α β) (source destination : List String) : R (FA α β) := do
  let s ← f.shape
  if source.all (· ∈ s.keys) then
    let pairs := source.zip destination
    let pi ← unzipPairs (pairs.filter (fun p => p.1 ∈ f.inputs.shape.keys))
    let po ← unzipPairs (pairs.filter (fun p => p.1 ∈ f.outputs.shape.keys))
    let i ← f.inputs.moveaxis pi.1 pi.2
    let o ← f.outputs.moveaxis po.1 po.2
    .ok ⟨i, o⟩
  else .error .valueError

/-- `np.reshape(f, shape)`.
Models `/repo/named_arrays/_functions/function_array_functions.py` lines 448-465. -/
def reshape (f : FA α β) (shape : Shape) : R (FA α β) := do
  let v ← f.axesVertex
  if v.isEmpty then
    let b ← f.broadcasted
    let i ← b.inputs.reshape shape
    let o ← b.outputs.reshape shape
    .ok ⟨i, o⟩
  else .error .valueError

/-- `np.take_along_axis(f, indices, axis)` for a scalar array of indices.
Models `/repo/named_arrays/_functions/function_array_functions.py` lines 468-497. -/
def takeAlongAxis (f : FA α β) (indices : SA Int) (axis : String) : R (FA α β) := do
  let s ← f.shape
  match s.get? axis with
  | none => .error .valueError
  | some n =>
    let v ← f.axesVertex
    if axis ∈ v then .error .valueError
    else
      let i ← f.inputs.broadcastTo [(axis, n)] true
      let o ← f.outputs.broadcastTo [(axis, n)] true
      let i ← i.takeAlongAxis indices axis
      let o ← o.takeAlongAxis indices axis
      .ok ⟨i, o⟩

/-- `np.repeat(f, repeats, axis)`.
Models `/repo/named_arrays/_functions/function_array_functions.py` lines 599-621. -/
def repeat' (f : FA α β) (repeats : SA Nat) (axis : String) : R (FA α β) := do
  let v ← f.axesVertex
  if axis ∈ v then .error .valueError
  else
    let b ← f.broadcasted
    let i ← b.inputs.repeat' repeats axis
    let o ← b.outputs.repeat' repeats axis
    .ok ⟨i, o⟩

/-- `np.stack(fs, axis)` without `out`.
Models `/repo/named_arrays/_functions/function_array_functions.py` lines 271-341 for `np.stack`. -/
def stack (fs : List (FA α β)) (axis : String) : R (FA α β) := do
  let i ← SA.stack (fs.map FA.inputs) axis
  let o ← SA.stack (fs.map FA.outputs) axis
  .ok ⟨i, o⟩

/-- The tests and the broadcasting of one array in `np.concatenate` for functions.  The code runs each of the two
tests for all the arrays first; all the failures are `ValueError`s.
Models `/repo/named_arrays/_functions/function_array_functions.py` lines 284-306. -/
def prepared (axis : String) (f : FA α β) : R (FA α β) := do
  let s ← f.shape
  match s.get? axis with
  | none => .error .valueError
  | some n =>
    let v ← f.axesVertex
    if axis ∈ v then .error .valueError
    else f.broadcastTo [(axis, n)] true

/-- `np.concatenate(fs, axis)` without `out`.
Models `/repo/named_arrays/_functions/function_array_functions.py` lines 271-341 for `np.concatenate`. -/
def concatenate (fs : List (FA α β)) (axis : String) : R (FA α β) := do
  let bs ← fs.mapM (prepared axis)
  let i ← SA.concatenate (bs.map FA.inputs) axis
  let o ← SA.concatenate (bs.map FA.outputs) axis
  .ok ⟨i, o⟩

end FA
end NA
