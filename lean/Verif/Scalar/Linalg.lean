import Verif.Scalar.Reduce
import Verif.Scalar.Index

/-!
# Matrices along two axes of a named array

Model of `AbstractScalarArray.matrix_determinant` and `AbstractScalarArray.matrix_inverse`.  The method `matrix_multiply` (lines
697-715 of `/repo/named_arrays/_scalars/scalars.py`) is not modelled: it starts with `self.shape_broadcasted(other)`, a method which
does not exist, so that every call is an `AttributeError`.
-/

namespace NA
variable {K : Type}

namespace ND

/-- `np.linalg.inv(a)`: every matrix along the last two dimensions is inverted by `inv`; `LinAlgError` (here `other`) if they are not
square, or if one of them is singular.  Assumption about numpy (not part of `/repo`). -/
def linalgInv (inv : Nat → (Nat → Nat → K) → Option (Nat → Nat → K)) (a : ND K) : R (ND K) :=
  let k := a.shape.length - 2
  let n := a.shape.getD k 0
  if a.shape.length < 2 then .error .other
  else if a.shape.getD (k + 1) 0 ≠ n then .error .other
  else if (ndIndices (a.shape.take k)).all (fun b => (inv n (fun i j => a.get (b ++ [i, j]))).isSome) then
    .ok ⟨a.shape, fun i => ((inv n (fun p q => a.get (i.take k ++ [p, q]))).map (fun B => B (i.getD k 0) (i.getD (k + 1) 0))).getD
      (a.get i)⟩
  else .error .other

end ND

namespace SA

/-- `a.matrix_inverse(axis_rows, axis_columns)`.
Models `/repo/named_arrays/_scalars/scalars.py` lines 761-787. -/
def matrixInverse (inv : Nat → (Nat → Nat → K) → Option (Nat → Nat → K)) (a : SA K) (axisRows axisColumns : String) : R (SA K) := do
  let indexRows ← pyTupleIndex a.axes axisRows
  let indexColumns ← pyTupleIndex a.axes axisColumns
  let value ← a.nd.moveaxis [indexRows, indexColumns] [a.nd.ndim - 2, a.nd.ndim - 1]
  let axesNew ← [axisRows, axisColumns].foldlM pyRemove a.axes
  let result ← value.linalgInv inv
  mk? result (axesNew ++ [axisColumns, axisRows])

/-- `shape[axis]`: an unknown axis is a `KeyError`. -/
def sizeAt (a : SA K) (axis : String) : R Nat := match a.shape.get? axis with
  | some n => .ok n
  | none => .error .keyError

/-- `self[{axis_rows: i, axis_columns: j}]`; if both names are the same the second index counts. -/
def matrixEntry (a : SA K) (axisRows axisColumns : String) (i j : Nat) : R (SA K) :=
  a.getitem (if axisRows = axisColumns then [(axisRows, .int j)] else [(axisRows, .int i), (axisColumns, .int j)])

/-- `a.matrix_determinant(axis_rows, axis_columns)`.  If there are not two or three rows the attribute `self.axis_names` is read,
which does not exist (`AttributeError`, here `other`).
Models `/repo/named_arrays/_scalars/scalars.py` lines 717-759. -/
def matrixDeterminant [Add K] [Sub K] [Mul K] (a : SA K) (axisRows axisColumns : String) : R (SA K) := do
  let rows ← a.sizeAt axisRows
  let columns ← a.sizeAt axisColumns
  if rows ≠ columns then .error .valueError
  else if rows = 2 then do
    let x ← a.matrixEntry axisRows axisColumns 0 0
    let b ← a.matrixEntry axisRows axisColumns 0 1
    let c ← a.matrixEntry axisRows axisColumns 1 0
    let d ← a.matrixEntry axisRows axisColumns 1 1
    let xd ← ufunc2 (· * ·) x d
    let bc ← ufunc2 (· * ·) b c
    ufunc2 (· - ·) xd bc
  else if rows = 3 then do
    let x ← a.matrixEntry axisRows axisColumns 0 0
    let b ← a.matrixEntry axisRows axisColumns 0 1
    let c ← a.matrixEntry axisRows axisColumns 0 2
    let d ← a.matrixEntry axisRows axisColumns 1 0
    let e ← a.matrixEntry axisRows axisColumns 1 1
    let f ← a.matrixEntry axisRows axisColumns 1 2
    let g ← a.matrixEntry axisRows axisColumns 2 0
    let h ← a.matrixEntry axisRows axisColumns 2 1
    let i ← a.matrixEntry axisRows axisColumns 2 2
    let xei ← ufunc2 (· * ·) (← ufunc2 (· * ·) x e) i
    let bfg ← ufunc2 (· * ·) (← ufunc2 (· * ·) b f) g
    let cdh ← ufunc2 (· * ·) (← ufunc2 (· * ·) c d) h
    let ceg ← ufunc2 (· * ·) (← ufunc2 (· * ·) c e) g
    let bdi ← ufunc2 (· * ·) (← ufunc2 (· * ·) b d) i
    let xfh ← ufunc2 (· * ·) (← ufunc2 (· * ·) x f) h
    let s ← ufunc2 (· + ·) xei bfg
    let s ← ufunc2 (· + ·) s cdh
    let s ← ufunc2 (· - ·) s ceg
    let s ← ufunc2 (· - ·) s bdi
    ufunc2 (· - ·) s xfh
  else .error .other

end SA
end NA
