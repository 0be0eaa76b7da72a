import Verif.Uncertain.Basic
import Verif.Scalar.Reduce

/-!
# Multi-indices of uncertain flat positions
-/

namespace NA.UA
open Dict

/-- `np.unravel_index(u, shape)` of an uncertain scalar of flat positions; negative positions, for which numpy raises `ValueError`, are not modelled.
Models `/repo/named_arrays/_scalars/uncertainties/uncertainties_array_functions.py` lines 784-800. -/
def unravelIndex (u : UA Nat) (shape : Shape) : R (Dict (UA Int)) :=
  if shape.isEmpty then .ok []
  else do
    let rn ← SA.unravelIndex u.nominal shape
    let rd ← SA.unravelIndex u.distribution shape
    shape.keys.mapM (fun ax =>
      match rn.get? ax, rd.get? ax with
      | some n, some d => do .ok (ax, ← mk? n d)
      | _, _ => .error .keyError)

end NA.UA
