import Verif.Scalar.Basic

/-!
# Matrix multiplication of scalar arrays

Model of `/repo/named_arrays/_scalars/scalars.py` lines 697-715.
-/

namespace NA

variable {α : Type}

/-- `np.matmul(a, b)` of numpy for two arrays of the same number of dimensions: the last two dimensions are those of a matrix, the other ones are
broadcast.  Less than two dimensions never occur here, they are an error in this model.  (This models numpy, not `/repo`.) -/
def ND.matmul [Zero α] [Add α] [Mul α] (a b : ND α) : R (ND α) :=
  if a.ndim < 2 ∨ b.ndim < 2 then .error .valueError
  else
    let m := a.ndim - 2
    let n := b.ndim - 2
    let inner := a.shape.getD (m + 1) 0
    if inner ≠ b.shape.getD n 0 then .error .valueError
    else do
      let lead ← ND.bshape (a.shape.take m) (b.shape.take n)
      .ok ⟨lead ++ [a.shape.getD m 0, b.shape.getD (n + 1) 0], fun i =>
        let j := i.take lead.length
        let row := i.getD lead.length 0
        let column := i.getD (lead.length + 1) 0
        ((List.range inner).map (fun l =>
          a.get (ND.clipIdx (a.shape.take m) j ++ [row, l]) * b.get (ND.clipIdx (b.shape.take n) j ++ [l, column]))).sum⟩

namespace SA

/-- `shape.pop(axis)`: the size and the remaining shape. -/
def popSize (s : Shape) (axis : String) : R (Nat × Shape) :=
  match s.get? axis with
  | none => .error .keyError
  | some n => .ok (n, s.erase axis)

/-- `a.matrix_multiply(b, axis_rows, axis_columns)` for two scalar arrays.
Models `/repo/named_arrays/_scalars/scalars.py` lines 697-715. -/
def matrixMultiply [Zero α] [Add α] [Mul α] (a b : SA α) (axisRows axisColumns : String) : R (SA α) := do
  let shape ← broadcastShapes [a.shape, b.shape]
  let (shapeRows, shape) ← popSize shape axisRows
  let (shapeColumns, shape) ← popSize shape axisColumns
  let shape := (shape.set axisRows shapeRows).set axisColumns shapeColumns
  let dataSelf ← a.aligned shape.keys
  let dataOther ← b.aligned shape.keys
  mk? (← ND.matmul dataSelf dataOther) shape.keys

end SA
end NA
