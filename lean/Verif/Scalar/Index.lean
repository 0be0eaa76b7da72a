import Verif.NDIndex
import Verif.Scalar.Basic

/-!
# Indexing of scalar arrays

Model of `ScalarArray._getitem` and `ScalarArray.__setitem__`.
-/

namespace NA

/-- A value in an index dictionary. -/
inductive IndexVal where
  | int (i : Int)
  | slice (s : Slice)
  | arr (b : SA Int)
  | none

namespace IndexVal
/-- Is this entry "advanced": an integer or a scalar array?
Models `/repo/named_arrays/_scalars/scalars.py` lines 446-454 (getitem) and 1090-1102 (setitem).
The code tests `np.issubdtype(type(i), np.integer)` in the first case and `isinstance(i, int)` in
the second; here integers are python integers, for which both hold. -/
def advanced? : IndexVal → Option IndexVal
  | .int i => some (.int i)
  | .arr b => some (.arr b)
  | _ => Option.none

/-- Is this entry `None`? -/
def isNone : IndexVal → Bool
  | .none => true
  | _ => false

/-- The named shape of an advanced entry: `na.shape(x)`, the empty shape for an integer. -/
def shape : IndexVal → Shape
  | .arr b => b.shape
  | _ => []

/-- The positional index entry: scalar arrays are aligned to the common axes.
Models `/repo/named_arrays/_scalars/scalars.py` lines 473-476 and 1113-1116. -/
def toAdv (axes : List String) : IndexVal → R ND.AdvIdx
  | .arr b => do .ok (.arr (← b.aligned axes))
  | .int i => .ok (.int i)
  | _ => .error .typeError

/-- The positional entry of an axis which is not advanced: the slice, or all of it. -/
def toSlice : Option IndexVal → Slice
  | some (.slice s) => s
  | _ => {}
end IndexVal

namespace SA
variable {α : Type}

/-- The positional index of `ndarray_organized`: names of the advanced axes, common axes of the
index arrays, basic axes and the two parts of the index tuple.
Models `/repo/named_arrays/_scalars/scalars.py` lines 446-477 (getitem) and 1090-1117 (setitem),
for an `item` all of whose keys are axes of the array. -/
def organize (axes : List String) (item : Dict IndexVal) :
    R (List String × Shape × List String × List ND.AdvIdx × List Slice) := do
  let advanced : Dict IndexVal := item.filterMap (fun p => p.2.advanced?.map (fun v => (p.1, v)))
  let shapeAdvanced ← broadcastShapes (advanced.values.map IndexVal.shape)
  let axesBasic := axes.filter (· ∉ advanced.keys)
  let adv ← advanced.values.mapM (IndexVal.toAdv shapeAdvanced.keys)
  .ok (advanced.keys, shapeAdvanced, axesBasic, adv,
    axesBasic.map (fun ax => IndexVal.toSlice (item.get? ax)))

/-- `a[item]` for a dictionary `item`.
Models `/repo/named_arrays/_scalars/scalars.py` lines 436-481.  Boolean arrays as values of the
dictionary are not modelled. -/
def getitem (a : SA α) (item : Dict IndexVal) : R (SA α) := do
  let item : Dict IndexVal := item.filter (fun p => p.1 ∈ a.axes)
  if item.isEmpty then .ok a
  else
    let (axesAdv, shapeAdv, axesBasic, adv, slices) ← organize a.axes item
    let nd ← a.nd.moveaxis (axesAdv.map a.axes.idxOf) (List.range axesAdv.length)
    let nd ← nd.getitem adv slices
    mk? nd (shapeAdv.keys ++ axesBasic)

/-- The name of the new axis made by a boolean mask: `item.axes_flattened` or `"boolean"`.
Models `/repo/named_arrays/_scalars/scalars.py` lines 426-429 and 1068-1071. -/
def maskAxis (mask : SA Bool) : R String :=
  if mask.axes.isEmpty then .ok "boolean" else flattenAxes mask.axes

/-- `a[mask]` for a boolean scalar array.
Models `/repo/named_arrays/_scalars/scalars.py` lines 412-434. -/
def getMask (a : SA α) (mask : SA Bool) : R (SA α) := do
  if mask.axes.all (· ∈ a.axes) then
    let value ← a.nd.moveaxis (mask.axes.map a.axes.idxOf) (List.range mask.axes.length)
    let axisNew ← maskAxis mask
    let nd ← value.getMask mask.nd
    let nd ← nd.moveaxis [0] [nd.ndim - 1]
    mk? nd (a.axes.filter (· ∉ mask.axes) ++ [axisNew])
  else .error .valueError

/-- Write-back of an array that was modified through the view `a.ndarray_aligned(axes)`, where
`axes` is a permutation of the axes of `a` (numpy's `moveaxis` returns a view, so the write is
seen in the original array). -/
def throughView (a : SA α) (axes : List String) (v : ND α) : R (SA α) := do
  .ok ⟨a.axes, ← (SA.mk axes v).aligned a.axes⟩

/-- `a[item] = value` for a dictionary `item`; returns the modified array.
Models `/repo/named_arrays/_scalars/scalars.py` lines 1082-1124.  `a.ndarray` is assumed to be a
writable numpy array (for a python scalar the code writes to a temporary copy).  A `None` value in
`item` would insert a new axis here (unlike in getitem); it is not modelled and gives
`notImplemented`. -/
def setitem (a : SA α) (item : Dict IndexVal) (value : SA α) : R (SA α) := do
  if item.values.any IndexVal.isNone then .error .notImplemented
  else if item.keys.all (· ∈ a.axes) then
    let (axesAdv, shapeAdv, axesBasic, adv, slices) ← organize a.axes item
    let w ← if value.shape.isEmpty then .ok value.nd
      else value.aligned (shapeAdv.keys ++ axesBasic)
    let v ← a.aligned (axesAdv ++ axesBasic)
    let v ← v.setitem adv slices w
    a.throughView (axesAdv ++ axesBasic) v
  else .error .valueError

/-- `a[mask] = value` for a boolean scalar array; returns the modified array.
Models `/repo/named_arrays/_scalars/scalars.py` lines 1056-1080. -/
def setMask (a : SA α) (mask : SA Bool) (value : SA α) : R (SA α) := do
  if mask.axes.all (· ∈ a.axes) then
    let axisNew ← maskAxis mask
    let axesUntouched := a.axes.filter (· ∉ mask.axes)
    let w ← value.aligned (axisNew :: axesUntouched)
    let v ← a.aligned (mask.axes ++ axesUntouched)
    let v ← v.setMask mask.nd w
    a.throughView (mask.axes ++ axesUntouched) v
  else .error .valueError

end SA
end NA
