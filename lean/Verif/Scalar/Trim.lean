import Verif.Scalar.Reduce
import Mathlib.Algebra.Order.Floor.Ring
import Mathlib.Algebra.Field.Basic

/-!
# Partitions and trimmed means of scalar arrays

Model of `np.partition` and `na.mean_trimmed` for scalar arrays.
-/

namespace NA
namespace SA
variable {α β : Type}

/-- numpy's check of one `kth`: negative ones count from the end, `ValueError` if it is out of bounds. -/
def kthIndex (n : Nat) (k : Int) : R Nat :=
  if ND.ValidIndex n k then .ok (ND.pyIndex n k) else .error .valueError

/-- `np.partition(a, kth, axis)`; `part ks l` is numpy's rearrangement of a line `l`.
Models `/repo/named_arrays/_scalars/scalar_array_functions.py` lines 816-838.  numpy checks `kth` against the
size of the axis, also if the array is empty. -/
def partition (part : List Nat → List α → List α) (dflt : α) (a : SA α) (kth : List Int) (axis : String) :
    R (SA α) := do
  if axis ∉ a.axes then .error .valueError
  else
    let p := a.axes.idxOf axis
    let n := a.nd.shape.getD p 0
    let ks ← kth.mapM (kthIndex n)
    let nd ← a.nd.alongAxis p n (fun l k => (part ks l).getD k dflt)
    mk? nd a.axes

/-- python's `int(x)`: towards zero.  Floating point numbers are taken to be exact. -/
def pyInt {K : Type} [Field K] [LinearOrder K] [FloorRing K] (x : K) : Int :=
  if 0 ≤ x then ⌊x⌋ else ⌈x⌉

/-- `na.mean_trimmed(a, q, axis, out, keepdims)`, where `mean` is the mean of a list.
Models `/repo/named_arrays/_named_array_functions.py` lines 1042-1075 for scalar arrays (`dtype` is left out).
`a.shape[axis_flat]` is a `KeyError` for an unknown name, which `combine_axes` excludes. -/
def meanTrimmed {K : Type} [Field K] [LinearOrder K] [FloorRing K] (part : List Nat → List α → List α)
    (dflt : α) (mean : List α → α) (a : SA α) (q : K) (axis : Option (List String)) (keepdims : Bool)
    (out : Option (SA α)) : R (SA α) := do
  if a.shape.isEmpty then .ok a
  else
    let axis := axisNormalized a.axes axis
    let axisFlat ← flattenAxes axis
    let a ← a.combineAxes (some axis) (some axisFlat)
    let nobs ← match a.shape.get? axisFlat with
      | some n => Except.ok n
      | none => .error .keyError
    let lowercut := pyInt (q * (nobs : K))
    let uppercut := (nobs : Int) - lowercut
    if lowercut > uppercut then .error .valueError
    else
      let a ← a.partition part dflt [lowercut, uppercut - 1] axisFlat
      let b ← a.getitem [(axisFlat, .slice ⟨some lowercut, some uppercut, none⟩)]
      b.reduce false mean (some [axisFlat]) keepdims none out

end SA
end NA
