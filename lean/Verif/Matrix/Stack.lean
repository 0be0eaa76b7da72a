import Verif.Matrix.Basic
import Verif.Scalar.Join
import Verif.Scalar.Linalg

/-!
# Inverses of matrices with many rows

The entries are named arrays of numbers without units, so that the factor `1 / unit` of the code is one, and is left out.
-/

namespace NA
variable {K : Type}
open Dict Comp
namespace Mat

/-- The flattened inverse of the flattened rows by `np.linalg.inv` (given by `inv`): the entries are stacked along the new axes
`"_row"` and `"_column"`, inverted together, and taken apart again.  The rows of the result are named like the components of the
first row, its columns like the rows.
Models `/repo/named_arrays/_matrices/matrices.py` lines 238-250. -/
def inverseStack (inv : Nat → (Nat → Nat → K) → Option (Nat → Nat → K)) (rows : Dict (Dict (SA K))) : R (Dict (Dict (SA K))) := do
  let stacked ← rows.mapM (fun p => SA.stack (values p.2) "_column")
  let value ← SA.stack stacked "_row"
  let inverse ← value.matrixInverse inv "_row" "_column"
  (keys ((values rows).headD [])).zipIdx.mapM (fun ci => do
    .ok (ci.1, ← (keys rows).zipIdx.mapM (fun rj => do
      .ok (rj.1, ← inverse.getitem [("_row", .int ci.2), ("_column", .int rj.2)]))))

/-- `matrix.inverse` of a matrix of named arrays with any number of rows.
Models `/repo/named_arrays/_matrices/matrices.py` lines 170-254. -/
def inverseNamed [CommRing K] [DecidableEq K] (dv : K → K → K)
    (inv : Nat → (Nat → Nat → K) → Option (Nat → Nat → K)) (sig : String → Option (List String)) (M : Mat (SA K)) : R (Mat (SA K)) :=
  M.inverseWith (fun rows => if rows.length ∈ [1, 2, 3] then inverseFlat (Ops.named dv) rows else inverseStack inv rows)
    (Ops.named dv) sig

end Mat
end NA
