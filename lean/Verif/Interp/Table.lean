import Verif.Scalar.Loop

/-!
# Interpolation in tables

Model of `na.interp` for scalar arrays over an ordered field; units are not modelled.
-/

namespace NA
open Dict

section
variable {K : Type} [Field K] [LinearOrder K]

/-- `np.interp(x, xp, fp, left, right)` for one number `x` and non-empty lists of the same length with `xp` in order.
Assumption about numpy (not part of `/repo`): `left` (by default `fp[0]`) below `xp[0]`, `right` (by default `fp[-1]`) above
`xp[-1]`, and otherwise the straight line through the neighbours, where the lower one is the last one which is not above `x`. -/
def npInterp (left right : Option K) (xp fp : List K) (x : K) : K :=
  if x < xp.getD 0 0 then left.getD (fp.getD 0 0)
  else if xp.getD (xp.length - 1) 0 < x then right.getD (fp.getD (fp.length - 1) 0)
  else
    let j := xp.countP (fun v => decide (v ≤ x)) - 1
    if j + 1 < xp.length then
      (fp.getD (j + 1) 0 - fp.getD j 0) / (xp.getD (j + 1) 0 - xp.getD j 0) * (x - xp.getD j 0) + fp.getD j 0
    else fp.getD j 0

/-- An optional argument, broadcast to `shape`, at the index `i`, as a number.
Models `/repo/named_arrays/_scalars/scalar_named_array_functions.py` lines 254-256 and 266-268. -/
def optionAt {K : Type} (v : Option (SA K)) (shape : Shape) (i : Dict IndexVal) : R (Option K) :=
  match v with
  | none => .ok none
  | some v => do
    let b ← v.broadcastTo shape
    let s ← b.getitem i
    if s.nd.shape = [] then .ok (some (s.nd.get [])) else .error .typeError

/-- A one-dimensional array as numpy sees it.
Assumption about numpy (not part of `/repo`): `np.interp` raises `ValueError` for another number of dimensions. -/
def tableList {K : Type} (v : ND K) : R (List K) := if v.ndim = 1 then .ok v.toList else .error .valueError

/-- The body of the loop: the interpolation of one slice, where `I left right period xp fp x` is `np.interp`.
Models `/repo/named_arrays/_scalars/scalar_named_array_functions.py` lines 262-284.  Assumption about numpy: lists of different
lengths and empty lists raise `ValueError`. -/
def interpSlice (I : Option K → Option K → Option K → List K → List K → K → K) (shape : Shape) (x xp fp : SA K)
    (left right period : Option (SA K)) (i : Dict IndexVal) : R (SA K) := do
  let x ← x.getitem i
  let xp ← xp.getitem i
  let fp ← fp.getitem i
  let left ← optionAt left shape i
  let right ← optionAt right shape i
  let period ← optionAt period shape i
  let shapeIndex ← broadcastShapes [xp.shape, fp.shape]
  let xs ← xp.aligned shapeIndex.keys
  let fs ← fp.aligned shapeIndex.keys
  let xs ← tableList xs
  let fs ← tableList fs
  if xs.length = fs.length ∧ xs.length ≠ 0 then SA.mk? (x.nd.map (I left right period xs fs)) x.axes
  else .error .valueError

/-- The shapes of the optional arguments. -/
def optionShape {K : Type} (v : Option (SA K)) : List Shape := (v.map SA.shape).toList

/-- The part of `na.interp` after the axis is known; `garbage` stands for the contents of `np.empty`.
Models `/repo/named_arrays/_scalars/scalar_named_array_functions.py` lines 242-286.  Simplification: `left`, `right` and
`period` are broadcast when they are read. -/
def interpAlong (I : Option K → Option K → Option K → List K → List K → K → K) (x xp fp : SA K) (axis : String)
    (left right period : Option (SA K)) (garbage : List Nat → K) : R (SA K) := do
  let xp0 ← xp.getitem [(axis, .int 0)]
  let fp0 ← fp.getitem [(axis, .int 0)]
  let shape ← broadcastShapes ([xp0.shape, fp0.shape] ++ optionShape left ++ optionShape right ++ optionShape period)
  let x ← x.broadcastTo (← broadcastShapes [x.shape, shape])
  let xp ← xp.broadcastTo (← broadcastShapes [xp.shape, shape])
  let fp ← fp.broadcastTo (← broadcastShapes [fp.shape, shape])
  forEach shape (interpSlice I shape x xp fp left right period) ⟨x.axes, ⟨x.nd.shape, garbage⟩⟩

/-- `na.interp(x, xp, fp, axis, left, right, period)`.
Models `/repo/named_arrays/_scalars/scalar_named_array_functions.py` lines 219-286. -/
def interp (I : Option K → Option K → Option K → List K → List K → K → K) (x xp fp : SA K) (axis : Option String)
    (left right period : Option (SA K)) (garbage : List Nat → K) : R (SA K) :=
  match axis with
  | some ax => interpAlong I x xp fp ax left right period garbage
  | none => match xp.axes with
    | [ax] => interpAlong I x xp fp ax left right period garbage
    | _ => .error .valueError

end
end NA
