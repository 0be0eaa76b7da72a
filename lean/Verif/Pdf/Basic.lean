import Mathlib.Algebra.Field.Defs
import Mathlib.Order.Defs.LinearOrder
import Verif.Scalar.Index
import Verif.Scalar.Reduce

/-!
# Percentiles and widths of probability density functions

Model of `/repo/named_arrays/pdf.py`.  Floating point numbers are modelled by the elements of an
exact ordered field.
-/

namespace NA
open Dict

/-- `np.argmax` of a list of booleans: the first position of `True`, 0 if there is none. -/
def firstTrue (l : List Bool) : Nat := if true ∈ l then l.findIdx id else 0

namespace SA
variable {α : Type}

/-- `np.cumulative_sum(a, axis=axis, include_initial=True)`: element `k` of the new line, which has one more
element, is `f` of the first `k` elements.
Models `/repo/named_arrays/_scalars/scalar_array_functions.py` lines 245-298 without `out`. -/
def cumulativeInitial (f : List α → α) (a : SA α) (axis : Option (List String)) : R (SA α) := do
  match axisNormalized a.axes axis with
  | [ax] =>
    if axis.isSome ∧ ax ∉ a.axes then .error .valueError
    else
      let p ← pyTupleIndex a.shape.keys ax
      let nd ← a.nd.alongAxis p (a.nd.shape.getD p 0 + 1) (fun l k => f (l.take k))
      mk? nd a.shape.keys
  | _ => .error .valueError

section
variable {K : Type} [Field K] [LinearOrder K]

/-- `(y - y0) / (y1 - y0) * (x1 - x0) + x0`.
Models `/repo/named_arrays/pdf.py` line 68. -/
def inverseLerp (y y0 y1 : SA K) (x0 x1 : SA Int) : R (SA K) := do
  let dy ← ufunc2 (· - ·) y y0
  let dy' ← ufunc2 (· - ·) y1 y0
  let t ← ufunc2 (· / ·) dy dy'
  let dx ← ufunc2 (· - ·) x1 x0
  let s ← ufunc2 (fun (t : K) (d : Int) => t * (d : K)) t dx
  ufunc2 (fun (s : K) (x : Int) => s + (x : K)) s x0

/-- The part of `argpercentile` after the axis is known.
Models `/repo/named_arrays/pdf.py` lines 51-70. -/
def argpercentileAlong (a q : SA K) (axis : String) : R (Dict (SA K)) := do
  let cs ← cumulativeInitial List.sum a (some [axis])
  let total ← cs.getitem [(axis, .int (-1))]
  let y ← ufunc2 (· * ·) q total
  let y ← ufunc2 (· / ·) y (scalar (100 : K))
  let above ← ufunc2 (fun c y => decide (y < c)) cs y
  let i1 ← argReduce firstTrue above (some [axis])
  match i1.get? axis with
  | none => .error .keyError
  | some x1 =>
    let x0 ← ufunc2 (· - ·) x1 (scalar (1 : Int))
    let y0 ← cs.getitem (asItem (i1.set axis x0))
    let y1 ← cs.getitem (asItem i1)
    let x ← inverseLerp y y0 y1 x0 x1
    .ok [(axis, x)]

/-- `na.pdf.argpercentile(a, q, axis)`.
Models `/repo/named_arrays/pdf.py` lines 15-70. -/
def argpercentile (a q : SA K) (axis : Option (List String)) : R (Dict (SA K)) :=
  if a.shape.isEmpty then .error .valueError
  else match axisNormalized a.axes axis with
    | [ax] => argpercentileAlong a q ax
    | _ => .error .valueError

end
end SA
end NA
