import Verif.Scalar.Convolve
import Verif.Uncertain.Structure

/-!
# Convolution of uncertain scalars
-/

namespace NA
open Dict

/-- `{ax: shape[ax] for ax in axis}`: an unknown axis is a `KeyError`. -/
def pickAxes (shape : Shape) (axis : List String) : R Shape :=
  axis.foldlM (fun d ax => match get? shape ax with
    | some n => .ok (d.set ax n)
    | none => .error .keyError) []

/-- `if axis is None: axis = tuple(shape_kernel)`. -/
def AxisArg.orElse (dflt : List String) : AxisArg → AxisArg
  | .none => .many dflt
  | a => a

namespace SA
variable {α β κ : Type}

/-- The convolution of one part of an uncertain scalar or of one component of a vector, which are broadcast along the given axes.
Models `/repo/named_arrays/_scalars/uncertainties/uncertainties_named_array_functions.py` lines 456-474 and
`/repo/named_arrays/_vectors/vector_named_array_functions.py` lines 367-386. -/
def convolvePart (conv : ND α → ND κ → ND Bool → ND β) (parallel parallelKernel : Shape) (axis : AxisArg) (array : SA α)
    (kernel : SA κ) (wh : SA Bool) : R (SA β) := do
  let a ← array.broadcastTo parallel true
  let k ← kernel.broadcastTo parallelKernel true
  let w ← wh.broadcastTo parallel true
  convolve conv a k axis w

end SA

namespace UA
variable {α β κ : Type}

/-- `na.convolve(array, kernel, axis, where)` for uncertain scalars.
Models `/repo/named_arrays/_scalars/uncertainties/uncertainties_named_array_functions.py` lines 425-499. -/
def convolve (conv : ND α → ND κ → ND Bool → ND β) (array : UArg α) (kernel : UArg κ) (axis : AxisArg) (wh : UArg Bool) : R (UA β) := do
  let array ← norm array
  let kernel ← norm kernel
  let wh ← norm wh
  let shapeKernel ← kernel.shape
  let axis := axis.orElse shapeKernel.keys
  let parallelKernel ← pickAxes shapeKernel (axis.items [])
  let sa ← array.shape
  let sw ← wh.shape
  let shape ← broadcastShapes [sa, sw]
  let parallel ← pickAxes shape (axis.items [])
  let n ← SA.convolvePart conv parallel parallelKernel axis array.nominal kernel.nominal wh.nominal
  let d ← SA.convolvePart conv parallel parallelKernel axis array.distribution kernel.distribution wh.distribution
  mk? n d

end UA
end NA
