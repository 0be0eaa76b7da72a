import Verif.Scalar.Trim
import Verif.Uncertain.Basic

/-!
# Partitions of uncertain scalars
-/

namespace NA
open Dict
namespace UA
variable {α : Type}

/-- `np.partition(u, kth, axis)`; `part` and `dflt` as in `SA.partition`.
Models `/repo/named_arrays/_scalars/uncertainties/uncertainties_array_functions.py` lines 736-781. -/
def partition (part : List Nat → List α → List α) (dflt : α) (u : UA α) (kth : List Int) (axis : String) : R (UA α) := do
  let shape ← broadcastShapes [u.nominal.shape, u.distribution.shape]
  let s ← u.shape
  if axis ∉ s.keys then .error .valueError
  else
    match shape.get? axis with
    | none => .error .keyError
    | some n =>
      let a ← u.nominal.broadcastTo (u.nominal.shape.set axis n)
      let b ← u.distribution.broadcastTo (u.distribution.shape.set axis n)
      let a ← a.partition part dflt kth axis
      let b ← b.partition part dflt kth axis
      mk? a b

end UA
end NA
