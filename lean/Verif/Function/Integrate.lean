import Verif.Function.Basic
import Verif.Interp.Basic

/-!
# Integrals of function arrays
-/

namespace NA
open Dict

namespace SA
variable {K : Type} [Field K]

/-- `a.volume_cell(axis)` of a scalar array; a single name is a one-element list.
Models `/repo/named_arrays/_scalars/scalars.py` lines 122-132. -/
def volumeCell (a : SA K) (axis : Option (List String)) : R (SA K) :=
  match axis.getD a.axes with
  | [ax] => a.diff (· - ·) ax 1 none none
  | _ => .error .valueError

end SA

namespace FA
variable {K : Type} [Field K]

/-- The outputs at the centers of the cells.
Models `/repo/named_arrays/_functions/functions.py` lines 497-502. -/
def integrand (o : SA K) (axesCenter : List String) : R (SA K) :=
  if axesCenter.isEmpty then .ok o else o.cellCenters (some axesCenter) none

/-- `f.integrate(axis)` of a function with scalar inputs and outputs, without `component`; a single name is a
one-element list; `mean` is the mean of a list of numbers.
Models `/repo/named_arrays/_functions/functions.py` lines 434-517. -/
def integrate (mean : List K → K) (f : FA K K) (axis : List String) : R (FA K K) :=
  if !(axis.all (· ∈ f.axes)) then .error .valueError
  else do
    let v ← f.axesVertex
    let o ← integrand f.outputs (axis.filter (· ∉ v))
    let m ← f.inputs.volumeCell (some axis)
    let p ← SA.ufunc2 (· * ·) o m
    let s ← p.reduce false List.sum (some axis) false none none
    let i ← f.inputs.reduce false mean (some axis) false none none
    .ok ⟨i, s⟩

end FA
end NA
