import Mathlib.Algebra.Order.Floor.Ring
import Mathlib.Data.List.Sort
import Verif.Scalar.Reduce

/-!
# Percentiles of scalar arrays

Model of `/repo/named_arrays/_scalars/scalar_array_functions.py` lines 301-373.
-/

namespace NA
open Dict

namespace ND
variable {α β κ : Type}

/-- `func(a, q, axis=positions, keepdims=keepdims)` for `func` one of `np.percentile`,
`np.quantile`, ...: numpy's rule, part of the trusted base.  The dimensions of `q` come first, followed by those of `a`
which remain.  `valid` tells which numbers are percentiles (`0 ≤ q ≤ 100`); `q` may have at most two dimensions.  Percentiles of
arrays without elements are `nan`, an empty array, or an exception, depending on the axes and on the version of numpy: `notImplemented` here. -/
def percentile (valid : κ → Bool) (pct : κ → List α → β) (a : ND α) (q : ND κ) (positions : List Nat)
    (keepdims : Bool) : R (ND β) :=
  if 2 < q.ndim then .error .valueError
  else if (ndIndices q.shape).any (fun i => !valid (q.get i)) then .error .valueError
  else
    match a.reduce false (fun l k => pct k l) positions keepdims none with
    | .error e => .error e
    | .ok r =>
      if a.shape.any (· = 0) then .error .notImplemented
      else .ok ⟨q.shape ++ r.shape, fun i => r.get (i.drop q.ndim) (q.get (i.take q.ndim))⟩

/-- The element of a sorted list at the fractional position `v`, by linear interpolation. -/
def lerpAt {K : Type} [Field K] [LinearOrder K] [FloorSemiring K] (s : List K) (v : K) : K :=
  s.getD ⌊v⌋₊ 0 + (v - (⌊v⌋₊ : K)) * (s.getD (min (⌊v⌋₊ + 1) (s.length - 1)) 0 - s.getD ⌊v⌋₊ 0)

/-- `np.percentile(l, q)` of a list of numbers with the default method, `"linear"`, in exact arithmetic: part of
the trusted base. -/
def percentileOf {K : Type} [Field K] [LinearOrder K] [FloorSemiring K] (q : K) (l : List K) : K :=
  lerpAt (l.insertionSort (· ≤ ·)) (q / 100 * ((l.length : K) - 1))

end ND

namespace SA
variable {α β κ : Type}

/-- The axes of the result.
Models `/repo/named_arrays/_scalars/scalar_array_functions.py` line 345. -/
def percentileAxes (a : SA α) (q : SA κ) (axisN : List String) (keepdims : Bool) : List String :=
  q.axes ++ (if keepdims then a.axes else a.axes.filter (· ∉ axisN))

/-- Moves the result into `out`: the numpy function has been given `out.ndarray_aligned(axes_result)` and checks its shape,
then `out.ndarray = result.ndarray_aligned(out.shape)`.
Models `/repo/named_arrays/_scalars/scalar_array_functions.py` lines 350-355, 364-373. -/
def percentileStore (axesR : List String) (nd : ND β) : Option (SA β) → R (SA β)
  | none => mk? nd axesR
  | some o => do
    let target ← o.aligned axesR
    if nd.shape = target.shape then do
      let r ← mk? nd axesR
      let v ← r.aligned o.axes
      .ok ⟨o.axes, v⟩
    else .error .valueError

/-- `array_function_percentile_like`: `np.percentile(a, q, axis, out, keepdims=)` and the like.
Models `/repo/named_arrays/_scalars/scalar_array_functions.py` lines 301-373, with `overwrite_input` left out and `method` a
part of `pct`.  The checks of `out` come after those of the other arguments here. -/
def percentileLike (valid : κ → Bool) (pct : κ → List α → β) (a : SA α) (q : SA κ) (axis : Option (List String))
    (keepdims : Bool) (out : Option (SA β)) : R (SA β) := do
  let axisN := axisNormalized a.axes axis
  if axis.isSome && !(axisN.all (· ∈ a.axes)) then .error .valueError
  else if a.axes.any (· ∈ q.axes) then .error .valueError
  else do
    let positions ← axisN.mapM (pyTupleIndex a.axes)
    let nd ← a.nd.percentile valid pct q.nd positions keepdims
    percentileStore (percentileAxes a q axisN keepdims) nd out

end SA
end NA
