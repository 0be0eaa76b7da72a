import Verif.NDReduce
import Verif.Scalar.Index

/-!
# Reductions and functions along an axis of scalar arrays

Model of `/repo/named_arrays/_scalars/scalar_array_functions.py`.
-/

namespace NA
namespace SA
variable {α β : Type}

/-- `tuple.index`: `ValueError` if the name is absent. -/
def pyTupleIndex (l : List String) (x : String) : R Nat :=
  if x ∈ l then .ok (l.idxOf x) else .error .valueError

/-- The aligned `where` does not enlarge the aligned array. -/
def maskFits (v : ND α) : Option (ND Bool) → Bool
  | some m => decide (ND.bshape v.shape m.shape = .ok v.shape)
  | none => true

/-- `kwargs["where"] = where.ndarray_aligned(axes_ndarray)`.
Models `/repo/named_arrays/_scalars/scalar_array_functions.py` lines 222-229. -/
def alignMask (axesNd : List String) : Option (SA Bool) → R (Option (ND Bool))
  | some w => (w.aligned axesNd).map some
  | none => .ok none

/-- The call of the numpy function in `array_function_default`, after `axes_ndarray` is known.
Models `/repo/named_arrays/_scalars/scalar_array_functions.py` lines 216-232. -/
def reduceNd (need : Bool) (f : List α → β) (a : SA α) (axisN : List String) (keepdims : Bool)
    (wh : Option (SA Bool)) (axesNd : List String) : R (ND β) := do
  let positions ← axisN.mapM (pyTupleIndex axesNd)
  let mask ← alignMask axesNd wh
  let v ← a.aligned axesNd
  if maskFits v mask then v.reduce need f positions keepdims mask
  else .error .notImplemented

/-- `array_function_default`: `np.sum`, `np.min`, `np.mean`, `np.median`, `np.all`, ...
Models `/repo/named_arrays/_scalars/scalar_array_functions.py` lines 179-242.  `dtype` and `initial`
are left out (`initial` can be seen as part of `f`).  A `where` which would enlarge `a` is outside of
numpy's documented contract and gives `notImplemented`.  `out.ndarray` is assumed to be an
`np.ndarray`; the numpy function checks its shape. -/
def reduce (need : Bool) (f : List α → β) (a : SA α) (axis : Option (List String)) (keepdims : Bool)
    (wh : Option (SA Bool)) (out : Option (SA β)) : R (SA β) := do
  let shape ← broadcastShapes (a.shape :: (wh.map SA.shape).toList)
  let axisN := axisNormalized a.axes axis
  if axis.isSome && !(axisN.all (· ∈ shape.keys)) then .error .valueError
  else
    match out with
    | none =>
      let axesNd := shape.keys
      let nd ← reduceNd need f a axisN keepdims wh axesNd
      mk? nd (if keepdims then axesNd else axesNd.filter (· ∉ axisN))
    | some o =>
      let axesNd := if keepdims then o.axes else o.axes ++ shape.keys.filter (· ∉ o.axes)
      let nd ← reduceNd need f a axisN keepdims wh axesNd
      if nd.shape = o.nd.shape then .ok ⟨o.axes, nd⟩ else .error .valueError

/-- `array_function_cumulative_reduce`: `np.cumsum`, `np.cumprod`, ...: element `k` of the new line is
`f` of the first `k + 1` elements.
Models `/repo/named_arrays/_scalars/scalar_array_functions.py` lines 245-298.  The position of the axis is
looked up in `out.axes` but `a.ndarray` is passed without being aligned to `out`; this is
reproduced here. -/
def cumulative (f : List α → α) (a : SA α) (axis : Option (List String)) (out : Option (SA α)) :
    R (SA α) := do
  match axisNormalized a.axes axis with
  | [ax] =>
    if axis.isSome ∧ ax ∉ a.axes then .error .valueError
    else
      let axesNd := match out with
        | some o => o.axes
        | none => a.shape.keys
      let p ← pyTupleIndex axesNd ax
      let nd ← a.nd.alongAxis p (a.nd.shape.getD p 0) (fun l k => f (l.take (k + 1)))
      match out with
      | none => mk? nd axesNd
      | some o => if nd.shape = o.nd.shape then .ok ⟨o.axes, nd⟩ else .error .valueError
  | _ => .error .valueError

/-- `np.unravel_index(indices, shape)`: a dictionary of index arrays, one for each axis of `shape`.
Models `/repo/named_arrays/_scalars/scalar_array_functions.py` lines 841-851.  numpy raises `ValueError`
when a flat index is out of range. -/
def unravelIndex (indices : SA Nat) (shape : Shape) : R (Dict (SA Int)) :=
  if ∀ i ∈ ndIndices indices.nd.shape, indices.nd.get i < shape.values.prod then
    .ok (shape.keys.zipIdx.map (fun p =>
      (p.1, ⟨indices.axes, indices.nd.map (fun k => ((ND.unravel shape.values k).getD p.2 0 : Nat))⟩)))
  else .error .valueError

/-- `na.ScalarArrayRange(0, n, axis=ax).explicit`: `0, 1, ..., n - 1`.
Models `/repo/named_arrays/_core.py` lines 1955-1980 for integers. -/
def arange (ax : String) (n : Nat) : SA Int := ⟨[ax], ⟨[n], fun i => (i.headD 0 : Nat)⟩⟩

/-- The rest of the result of `argmin`/`argsort`: `result[ax] = ScalarArrayRange(0, shape[ax], ax)` for the
axes which are not yet there (new keys are appended, the axes of `a` are distinct).
Models `/repo/named_arrays/_scalars/scalar_array_functions.py` lines 403-406 and 769-777. -/
def completeIndex (a : SA α) (result : Dict (SA Int)) : Dict (SA Int) :=
  result ++ (a.shape.filter (fun p => p.1 ∉ result.keys)).map (fun p => (p.1, arange p.1 p.2))

/-- `array_function_arg_reduce`: `np.argmin`, `np.argmax`, where `g` returns the position in a list.
Models `/repo/named_arrays/_scalars/scalar_array_functions.py` lines 376-413. -/
def argReduce (g : List α → Nat) (a : SA α) (axis : Option (List String)) : R (Dict (SA Int)) := do
  match axis with
  | some axes =>
    if ∀ ax ∈ axes, ax ∈ a.axes then
      let axisFlattened ← flattenAxes axes
      let flat ← a.combineAxes (some axes) (some axisFlattened)
      let p ← pyTupleIndex flat.axes axisFlattened
      let nd ← flat.nd.reduce true g [p] false none
      let indices ← mk? nd (flat.axes.filter (· ≠ axisFlattened))
      let result ← unravelIndex indices (axes.map (fun ax => (ax, (a.shape.get? ax).getD 0)))
      .ok (a.completeIndex result)
    else .error .valueError
  | none =>
    if a.shape.isEmpty then .error .valueError
    else
      let nd ← a.nd.reduce true g (List.range a.nd.ndim) false none
      let indices ← mk? nd []
      unravelIndex indices a.shape

/-- `np.sort(a, axis)`; `srt` sorts a list.
Models `/repo/named_arrays/_scalars/scalar_array_functions.py` lines 688-726. -/
def sort (srt : List α → List α) (dflt : α) (a : SA α) (axis : Option (List String)) : R (SA α) := do
  match axis with
  | some axes =>
    if axes.isEmpty then .error .valueError
    else if ∀ ax ∈ axes, ax ∈ a.axes then
      let axisNew ← flattenAxes axes
      let flat ← a.combineAxes (some axes) (some axisNew)
      let p ← pyTupleIndex flat.axes axisNew
      let nd ← flat.nd.alongAxis p (flat.nd.shape.getD p 0) (fun l k => (srt l).getD k dflt)
      mk? nd flat.axes
    else .error .valueError
  | none =>
    if a.shape.isEmpty then .ok a
    else
      let name ← flattenAxes a.axes
      mk? ⟨[a.nd.size], fun i => (srt a.nd.toList).getD (i.headD 0) dflt⟩ [name]

/-- `np.argsort(a, axis)`; `asrt` returns the sorting permutation of a list.
Models `/repo/named_arrays/_scalars/scalar_array_functions.py` lines 729-779. -/
def argsort (asrt : List α → List Nat) (a : SA α) (axis : Option (List String)) : R (Dict (SA Int)) := do
  let axes := axis.getD a.axes
  if axis.isSome ∧ (axes.isEmpty ∨ ¬ ∀ ax ∈ axes, ax ∈ a.axes) then .error .valueError
  else if axis.isNone ∧ a.shape.isEmpty then .ok []
  else
    let axisFlattened ← flattenAxes axes
    let flat ← a.combineAxes (some axes) (some axisFlattened)
    let p ← pyTupleIndex flat.axes axisFlattened
    let nd ← flat.nd.alongAxis p (flat.nd.shape.getD p 0) (fun l k => (asrt l).getD k 0)
    let indices ← mk? nd flat.axes
    let result ← unravelIndex indices (axes.map (fun ax => (ax, (a.shape.get? ax).getD 0)))
    .ok (a.completeIndex result)

/-- `np.nonzero(a)`.
Models `/repo/named_arrays/_scalars/scalar_array_functions.py` lines 911-919. -/
def nonzero (isNonzero : α → Bool) (a : SA α) : R (Dict (SA Int)) :=
  if a.shape.isEmpty then .ok []
  else do
    let name ← flattenAxes a.axes
    let idx := (a.nd.map isNonzero).trues
    .ok (a.axes.zipIdx.map (fun p =>
      (p.1, ⟨[name], ⟨[idx.length], fun i => ((idx.getD (i.headD 0) []).getD p.2 0 : Nat)⟩⟩)))

/-- Index arrays as an index dictionary. -/
def asItem (d : Dict (SA Int)) : Dict IndexVal := d.map (fun p => (p.1, .arr p.2))

end SA
end NA
