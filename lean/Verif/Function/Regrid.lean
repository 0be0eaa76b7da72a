import Verif.Scalar.Regrid
import Verif.Vector.Basic
import Verif.Uncertain.Convolve

/-!
# Resampling functions

Model of the methods `regrid`, `weights` and `__call__` of function arrays whose inputs and outputs are scalars or (nested) vectors
of scalars.  Units are not modelled.
-/

namespace NA
open Dict

namespace Comp
variable {α γ K : Type}

/-- `na.regridding.regrid_from_weights(weights, shape_input, shape_output, values_input)` where the values are a scalar or a vector.
Models `/repo/named_arrays/_vectors/vector_named_array_functions.py` lines 987-1008. -/
def regridFromWeights [Semiring K] (weights : SA (Entries K)) (shapeInput shapeOutput : Shape) : Comp (SA K) → R (Comp (SA K))
  | .leaf a => do .ok (.leaf (← SA.regridFromWeights weights shapeInput shapeOutput a))
  | .node cls cs => do
    let nd ← (cartesianNd cs).mapM (fun p => do .ok (p.1, ← SA.regridFromWeights weights shapeInput shapeOutput p.2))
    let rs ← fromCartesianNd nd cs
    .ok (.node cls rs)

/-- `inputs.cartesian_nd.components` of a vector, and `dict(_dummy=inputs)` of a scalar.
Models `/repo/named_arrays/_functions/functions.py` lines 370-378. -/
def coordinates : Comp γ → Dict γ
  | .leaf a => [("_dummy", a)]
  | .node _ cs => cartesianNd cs

end Comp

/-- A function array whose inputs and outputs are scalars or vectors.
Models the fields at `/repo/named_arrays/_functions/functions.py` lines 1028-1032. -/
structure GridFunction (α K : Type) where
  inputs : Comp (SA α)
  outputs : Comp (SA K)

namespace GridFunction
variable {α K : Type}

/-- `d.keys() == d'.keys()`: the views are compared as sets. -/
def sameKeys {γ δ : Type} (d : Dict γ) (d' : Dict δ) : Bool := d.keys.all (· ∈ d'.keys) && d'.keys.all (· ∈ d.keys)

/-- `not set(axis).isdisjoint(a.axes)` -/
def meets (axis axes : List String) : Bool := axis.any (· ∈ axes)

/-- The loop over the components of the new inputs: pairs of new and old coordinates to be resampled.  `None` marks components which
are kept.
Models `/repo/named_arrays/_functions/functions.py` lines 390-405. -/
def resampled (axis : List String) (old : Dict (SA α)) : Dict (Option (SA α)) → R (List (SA α × SA α))
  | [] => .ok []
  | (c, some a) :: l =>
    if meets axis a.axes then
      match get? old c with
      | none => .error .keyError
      | some b => do .ok ((a, b) :: (← resampled axis old l))
    else resampled axis old l
  | (c, none) :: l =>
    match get? old c with
    | none => .error .keyError
    | some b => if meets axis b.axes then .error .valueError else resampled axis old l

/-- `axis` if it is given, otherwise the axes of the new inputs.
Models `/repo/named_arrays/_functions/functions.py` lines 380-385. -/
def axisOr (inputs : Comp (Option (SA α))) : AxisArg → R AxisArg
  | .none => do
    let s ← broadcastShapes ((inputs.coordinates.values.filterMap id).map SA.shape)
    .ok (.many s.keys)
  | axis => .ok axis

/-- A scalar or a vector. -/
def isScalar {γ : Type} : Comp γ → Bool
  | .leaf _ => true
  | .node _ _ => false

/-- `f._normalize__regrid__args(inputs, axis)`: the pairs of new and old coordinates, and the axis.  A string is iterated over its
characters where the axes are compared.  (`None` instead of scalar inputs is an `AttributeError`.)
Models `/repo/named_arrays/_functions/functions.py` lines 361-421. -/
def regridArgs (f : GridFunction α K) (inputs : Comp (Option (SA α))) (axis : AxisArg) : R (List (SA α × SA α) × AxisArg) :=
  match inputs with
  | .leaf none => .error .other
  | _ => do
    let axis ← axisOr inputs axis
    if sameKeys inputs.coordinates f.inputs.coordinates then do
      let pairs ← resampled (axis.items []) f.inputs.coordinates inputs.coordinates
      if (isScalar inputs || isScalar f.inputs) && pairs.isEmpty then .error .keyError
      else .ok (pairs, axis)
    else .error .valueError

/-- `f.weights(inputs, axis, method)`, where `matrix` and `cells` depend on the method (see `ND.regridWeights`).
Models `/repo/named_arrays/_functions/functions.py` lines 324-359. -/
def weights (matrix : List (ND α) → List (ND α) → Entries K) (cells : Nat → Nat) (f : GridFunction α K)
    (inputs : Comp (Option (SA α))) (axis : AxisArg) : R (SA (Entries K) × Shape × Shape) := do
  let args ← f.regridArgs inputs axis
  SA.regridWeights matrix cells (args.1.map (·.2)) (args.1.map (·.1)) (some (args.2.names [])) none

/-- The new coordinate, or the old one if it is `None`.
Models `/repo/named_arrays/_functions/functions.py` lines 304-308. -/
def finalCoordinate (new : Dict (Option (SA α))) (p : String × SA α) : R (String × SA α) :=
  match get? new p.1 with
  | none => .error .keyError
  | some none => .ok p
  | some (some a) => .ok (p.1, a)

/-- The inputs of the result of `regrid`. (If one of the inputs is a scalar and the other is a vector with the only component
`_dummy`, which is not reached in practice, the coordinate is a scalar in the model.)
Models `/repo/named_arrays/_functions/functions.py` lines 300-322. -/
def finalInputs (f : GridFunction α K) (inputs : Comp (Option (SA α))) (pairs : List (SA α × SA α)) : R (Comp (SA α)) :=
  match inputs, f.inputs with
  | .node _ _, .node cls cs => do
    let nd ← (Comp.cartesianNd cs).mapM (finalCoordinate inputs.coordinates)
    let rs ← Comp.fromCartesianNd nd cs
    .ok (.node cls rs)
  | _, _ =>
    match pairs with
    | [] => .error .keyError
    | p :: _ => .ok (.leaf p.1)

/-- `f.regrid(inputs, axis, method, weights)`.
Models `/repo/named_arrays/_functions/functions.py` lines 249-322. -/
def regrid [Semiring K] (matrix : List (ND α) → List (ND α) → Entries K) (cells : Nat → Nat) (f : GridFunction α K)
    (inputs : Comp (Option (SA α))) (axis : AxisArg) (weights : Option (SA (Entries K) × Shape × Shape)) :
    R (GridFunction α K) := do
  let args ← f.regridArgs inputs axis
  let w ← match weights with
    | some w => .ok w
    | none => f.weights matrix cells inputs axis
  let outputs ← f.outputs.regridFromWeights w.1 w.2.1 w.2.2
  let inputs ← f.finalInputs inputs args.1
  .ok ⟨inputs, outputs⟩

/-- `f(inputs, axis, method, weights)`.
Models `/repo/named_arrays/_functions/functions.py` lines 235-247. -/
def call [Semiring K] (matrix : List (ND α) → List (ND α) → Entries K) (cells : Nat → Nat) (f : GridFunction α K)
    (inputs : Comp (Option (SA α))) (axis : AxisArg) (weights : Option (SA (Entries K) × Shape × Shape)) :
    R (GridFunction α K) := f.regrid matrix cells inputs axis weights

end GridFunction
end NA
