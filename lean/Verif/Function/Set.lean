import Verif.Function.Reduce
import Verif.Scalar.Index

/-!
# Reading function arrays with masks, and assignment to function arrays

Model of the boolean branch of `_getitem` and of `__setitem__` of `/repo/named_arrays/_functions/functions.py`, for inputs and
outputs which are scalar arrays.  Inputs and outputs are modified in place, one after the other, so an
assignment returns the function afterwards, and the error if there is one.
-/

namespace NA
open Dict

namespace FA
variable {α β K : Type}

/-- `bool(np.all(a == b))`, for the comparison `eq` of two elements. -/
def equalAll (eq : α → α → Bool) (a b : SA α) : R Bool := do
  let d ← SA.ufunc2 eq a b
  let r ← d.reduce false (fun l => l.all id) none false none none
  .ok (r.at' (fun _ => 0))

/-- `f[mask]` for a function with boolean outputs: the inputs are replaced by the centers along all axes on vertices.
Models `/repo/named_arrays/_functions/functions.py` lines 537-562 and 606-610. -/
def getMask [Field K] (eq : K → K → Bool) (f : FA K β) (mask : FA K Bool) : R (FA K β) := do
  let same ← equalAll eq mask.inputs f.inputs
  if same then
    let c ← f.axesCenter
    let i ← f.inputs.cellCenters (some (f.inputs.axes.filter (· ∉ c))) none
    let si ← broadcastShapes [i.shape, mask.outputs.shape]
    let i ← i.broadcastTo si
    let so ← broadcastShapes [f.outputs.shape, mask.outputs.shape]
    let o ← f.outputs.broadcastTo so
    let i ← i.getMask mask.outputs
    let o ← o.getMask mask.outputs
    .ok ⟨i, o⟩
  else .error .valueError

/-- The two assignments at the end of `__setitem__`: the inputs are assigned first (if at all), and stay assigned when the
assignment of the outputs raises.
Models `/repo/named_arrays/_functions/functions.py` lines 1154-1157. -/
def assign (f : FA α β) (inputs : Option (R (SA α))) (outputs : R (SA β)) : FA α β × Option Err :=
  match inputs with
  | some (.error e) => (f, some e)
  | some (.ok i) =>
    match outputs with
    | .error e => (⟨i, f.outputs⟩, some e)
    | .ok o => (⟨i, o⟩, none)
  | none =>
    match outputs with
    | .error e => (f, some e)
    | .ok o => (⟨f.inputs, o⟩, none)

/-- `value_inputs` and `value_outputs`; the inputs of the value are not used if they have an axis which is on vertices in `f`.
Models `/repo/named_arrays/_functions/functions.py` lines 1128-1152. -/
def valueOf (f : FA α β) : Arg α β → R (Option (SA α) × SA β)
  | .plain w => if w.shape.isEmpty then .ok (none, w) else .error .valueError
  | .func g => do
    let v ← f.axesVertex
    .ok (if g.inputs.axes.any (· ∈ v) then none else some g.inputs, g.outputs)

/-- `f[item] = value` for a dictionary of integers, slices and scalar index arrays.  Returns the function afterwards, and the
error if there is one.
Models `/repo/named_arrays/_functions/functions.py` lines 1100-1157.  Unlike in `_getitem`, axes which the inputs or the
outputs do not have are not dropped from their item. -/
def setitem (f : FA α β) (item : Dict IndexVal) (value : Arg α β) : FA α β × Option Err :=
  match f.valueOf value with
  | .error e => (f, some e)
  | .ok (vi, vo) => f.assign (vi.map (fun w => f.inputs.setitem item w)) (f.outputs.setitem item vo)

/-- `f[mask] = value` for a function with boolean outputs.
Models `/repo/named_arrays/_functions/functions.py` lines 1106-1111 and 1128-1157. -/
def setMask (eq : α → α → Bool) (f : FA α β) (mask : FA α Bool) (value : Arg α β) : FA α β × Option Err :=
  match equalAll eq mask.inputs f.inputs with
  | .error e => (f, some e)
  | .ok false => (f, some .valueError)
  | .ok true =>
    match f.valueOf value with
    | .error e => (f, some e)
    | .ok (vi, vo) => f.assign (vi.map (fun w => f.inputs.setMask mask.outputs w)) (f.outputs.setMask mask.outputs vo)

end FA
end NA
