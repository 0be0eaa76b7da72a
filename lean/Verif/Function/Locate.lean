import Verif.Function.Basic
import Verif.Interp.Basic
import Verif.Scalar.Reduce
import Verif.Vector.Compare
import Verif.Matrix.Basic

/-!
# Locating, comparing and multiplying the values of functions

Model of the remaining operations of `/repo/named_arrays/_functions/functions.py` and
`/repo/named_arrays/_functions/function_array_functions.py`, for inputs and outputs which are scalar arrays.
-/

namespace NA
open Dict

namespace FA
variable {α β : Type}

/-- `np.argmin(f, axis)` and `np.argmax(f, axis)`: those of the outputs.
Models `/repo/named_arrays/_functions/function_array_functions.py` lines 262-268. -/
def argReduce (g : List β → Nat) (f : FA α β) (axis : Option (List String)) : R (Dict (SA Int)) :=
  SA.argReduce g f.outputs axis

/-- `np.nonzero(f)`: that of the outputs.
Models `/repo/named_arrays/_functions/function_array_functions.py` lines 563-565. -/
def nonzero (isNonzero : β → Bool) (f : FA α β) : R (Dict (SA Int)) := SA.nonzero isNonzero f.outputs

/-- `np.allclose(f, g)` of two functions: both parts are compared before the results are combined.
Models `/repo/named_arrays/_functions/function_array_functions.py` lines 537-560; the same tolerances are meant by both comparisons,
which are given separately because the types of the elements may be different. -/
def allclose (closeI : α → α → Bool) (closeO : β → β → Bool) (f g : FA α β) : R Bool := do
  let i ← SA.allclose closeI f.inputs g.inputs
  let o ← SA.allclose closeO f.outputs g.outputs
  .ok (i && o)

/-- `f.length`; `numeric` is false if the outputs are not numbers.
Models `/repo/named_arrays/_functions/functions.py` lines 185-190 and `/repo/named_arrays/_scalars/scalars.py` lines 116-120. -/
def length (numeric : Bool) (abs : β → β) (f : FA α β) : R (FA α β) :=
  if numeric then do
    let o ← SA.ufunc1 abs f.outputs
    .ok ⟨f.inputs, o⟩
  else .error .valueError

/-- `f.add_axes(axes)`: only the outputs get the new axes.
Models `/repo/named_arrays/_functions/functions.py` lines 192-196. -/
def addAxes (f : FA α β) (axes : List String) : R (FA α β) := do
  let o ← f.outputs.addAxes axes
  .ok ⟨f.inputs, o⟩

/-- `f.cell_centers(axis)`.
Models `/repo/named_arrays/_functions/functions.py` lines 422-432 for `random=False`. -/
def cellCenters {K : Type} [Field K] (f : FA K K) (axis : Option (List String)) : R (FA K K) := do
  let i ← f.inputs.cellCenters axis none
  let o ← f.outputs.cellCenters axis none
  .ok ⟨i, o⟩

/-- An operand of `np.matmul`. -/
inductive Factor (α β : Type) where
  | num (c : β)
  | array (a : SA β)
  | func (f : FA α β)

/-- The result of `np.matmul`: a function or a plain array. -/
inductive Product (α β : Type) where
  | value (a : SA β)
  | func (f : FA α β)

/-- `np.matmul(a, b)` if at least one of the operands is a function, without `out`.
A function on the left compares the inputs and multiplies the outputs; it accepts numbers, and returns `NotImplemented` for an array,
after which `__array_ufunc__` goes on as for any other operation and multiplies the outputs with the array.
An array on the left is tried first: it gives a plain `0` if one of the operands vanishes and the elementwise product otherwise.
Without any function `np.matmul` is that of the arrays, and of numbers a `ValueError` of numpy (outputs are arrays here, also those without
axes).
Models `/repo/named_arrays/_functions/functions.py` lines 654-711 and 713-803, `/repo/named_arrays/_core.py` lines 1126-1139 and
`/repo/named_arrays/_scalars/scalars.py` lines 134-156 (without units). -/
def matmul [Zero β] [Mul β] [DecidableEq β] (ne : α → α → Bool) : Factor α β → Factor α β → R (Product α β)
  | .func f, .func g => do
    let d ← differ ne f.inputs g.inputs
    if d then .error .inputValueError
    else do
      let o ← SA.matmul f.outputs g.outputs
      .ok (.func ⟨f.inputs, o⟩)
  | .func f, .num c => do
    let o ← SA.matmul f.outputs (SA.scalar c)
    .ok (.func ⟨f.inputs, o⟩)
  | .num c, .func g => do
    let o ← SA.matmul (SA.scalar c) g.outputs
    .ok (.func ⟨g.inputs, o⟩)
  | .func f, .array a => do
    let o ← SA.matmul f.outputs a
    .ok (.func ⟨f.inputs, o⟩)
  | .array a, .func g =>
    if a.allZero || g.outputs.allZero then .ok (.value (SA.scalar 0))
    else do
      let o ← SA.ufunc2 (· * ·) a g.outputs
      .ok (.func ⟨g.inputs, o⟩)
  | .array a, .array b => do
    let o ← SA.matmul a b
    .ok (.value o)
  | .array a, .num c => do
    let o ← SA.matmul a (SA.scalar c)
    .ok (.value o)
  | .num c, .array a => do
    let o ← SA.matmul (SA.scalar c) a
    .ok (.value o)
  | .num _, .num _ => .error .valueError

end FA
end NA
