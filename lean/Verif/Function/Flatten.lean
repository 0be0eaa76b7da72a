import Verif.Function.Structure
import Verif.Scalar.Histogram

/-!
# Functions: combining axes, removing constant axes, histograms, comparisons

Model of parts of `/repo/named_arrays/_functions/functions.py`,
`/repo/named_arrays/_functions/function_named_array_functions.py` and
`/repo/named_arrays/_functions/function_array_functions.py`, for inputs and outputs which are scalar arrays.
-/

namespace NA
open Dict

namespace FA
variable {α β κ : Type}

/-- One turn of the loop which adds the missing axes to the shape of a component. -/
def withAxis (shape : Shape) (acc : Shape) (ax : String) : R Shape :=
  if ax ∈ keys acc then .ok acc
  else
    match get? shape ax with
    | some n => .ok (acc.set ax n)
    | none => .error .keyError

/-- The shape of a component with the missing axes added at the end.
Models `/repo/named_arrays/_functions/functions.py` lines 215-225. -/
def withAxes (s shape : Shape) (axes : List String) : R Shape := axes.foldlM (withAxis shape) s

/-- `f.combine_axes(axes, axis_new)`.
Models `/repo/named_arrays/_functions/functions.py` lines 197-233. -/
def combineAxes (f : FA α β) (axes : Option (List String)) (axisNew : Option String) : R (FA α β) := do
  let axes := axes.getD f.axes
  if axes.all (· ∈ f.axes) then
    let v ← f.axesVertex
    if axes.any (· ∈ v) then .error .valueError
    else
      let s ← f.shape
      let si ← withAxes f.inputs.shape s axes
      let so ← withAxes f.outputs.shape s axes
      let i ← f.inputs.broadcastTo si
      let o ← f.outputs.broadcastTo so
      let i ← i.combineAxes (some axes) axisNew
      let o ← o.combineAxes (some axes) axisNew
      .ok ⟨i, o⟩
  else .error .valueError

/-- Whether the inputs and the outputs are constant along an axis which is not empty.
Models `/repo/named_arrays/_functions/function_named_array_functions.py` lines 167-171. -/
def constantAlong [DecidableEq α] [DecidableEq β] (f : FA α β) (s : Shape) (axis : String) : R Bool :=
  if s.get? axis = some 0 then .ok false
  else do
    let c ← f.outputs.constantAlong axis
    if c = true ∧ axis ∈ f.inputs.shape.keys then f.inputs.constantAlong axis else .ok c

/-- One turn of the loop of `debroadcast`.
Models `/repo/named_arrays/_functions/function_named_array_functions.py` lines 158-173. -/
def debroadcastStep [DecidableEq α] [DecidableEq β] (f : FA α β) (s : Shape) (v : List String) (index : Dict IndexVal)
    (axis : String) : R (Dict IndexVal) := do
  if axis ∉ s.keys then .ok index
  else if axis ∈ v then .ok index
  else
    let c ← f.constantAlong s axis
    .ok (if c = true then index.set axis (.int 0) else index)

/-- `na.debroadcast(f, axes)`.
Models `/repo/named_arrays/_functions/function_named_array_functions.py` lines 134-175; `nan` is not modelled. -/
def debroadcast [DecidableEq α] [DecidableEq β] (f : FA α β) (axes : Option (List String)) : R (FA α β) := do
  let s ← f.shape
  let v ← f.axesVertex
  let index ← (axes.getD s.keys).foldlM (f.debroadcastStep s v) []
  f.getitem index

/-- The axes which a histogram sums over.
Models `/repo/named_arrays/_functions/function_named_array_functions.py` line 206. -/
def histogramAxes (f : FA α β) : Option (List String) → R (List String)
  | some l => .ok l
  | none => do
    let s ← f.shape
    .ok s.keys

/-- `na.histogram(f, bins, axis, min, max, density)`: the histogram of the inputs with the outputs as weights.
Models `/repo/named_arrays/_functions/function_named_array_functions.py` lines 191-222. -/
def histogram {K : Type} [Field K] [LinearOrder K] (f : FA K K) (bins : Bins K) (axis : Option (List String))
    (min max : Option (SA K)) (density : Bool) (garbage : List Nat → K) : R (FA K K) := do
  let l ← f.histogramAxes axis
  let v ← f.axesVertex
  if l.any (· ∈ v) then .error .valueError
  else do
    let r ← NA.histogram f.inputs bins axis min max density (some f.outputs) garbage
    .ok ⟨r.2, r.1⟩

/-- `np.array_equal(f, g)`.
Models `/repo/named_arrays/_functions/function_array_functions.py` lines 500-517. -/
def arrayEqual [DecidableEq α] [DecidableEq β] (f g : FA α β) : Bool :=
  f.inputs.arrayEqual g.inputs && f.outputs.arrayEqual g.outputs

/-- `np.array_equiv(f, g)`.
Models `/repo/named_arrays/_functions/function_array_functions.py` lines 520-534. -/
def arrayEquiv [DecidableEq α] [DecidableEq β] (f g : FA α β) : R Bool := do
  let i ← f.inputs.arrayEquiv g.inputs
  let o ← f.outputs.arrayEquiv g.outputs
  .ok (i && o)

/-- `np.clip(f, a_min, a_max)` for bounds which are scalar arrays, without `out`.
Models `/repo/named_arrays/_functions/function_array_functions.py` lines 567-596. -/
def clip (max min : β → β → β) (f : FA α β) (lo hi : Option (SA β)) : R (FA α β) := do
  let o ← f.outputs.clip max min lo hi
  .ok ⟨f.inputs, o⟩

end FA
end NA
