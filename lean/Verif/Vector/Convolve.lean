import Verif.Uncertain.Convolve
import Verif.Vector.Basic

/-!
# Convolution of vectors whose components are scalars
-/

namespace NA
open Dict
namespace Comp
variable {α β κ γ : Type}

/-- The class and the names of the components of a vector. -/
def classNames : Comp (SA γ) → Option (String × List String)
  | .leaf _ => none
  | .node cls cs => some (cls, Dict.keys cs)

/-- A component which is a scalar; nested vectors are outside of the model. -/
def scalarPart : Comp (SA γ) → R (SA γ)
  | .leaf a => .ok a
  | .node _ _ => .error .other

/-- `_normalize`: a vector of another class is a `TypeError`, and a scalar becomes each component.
Models `/repo/named_arrays/_vectors/vectors.py` lines 47-64 and 550-564. -/
def spread (prototype : String × List String) : Comp (SA γ) → R (Dict (SA γ))
  | .leaf a => .ok (prototype.2.map (fun k => (k, a)))
  | .node cls cs =>
    if cls = prototype.1 then cs.mapM (fun p => do
      let a ← scalarPart p.2
      .ok (p.1, a))
    else .error .typeError

/-- `components[c]` -/
def componentAt (cs : Dict γ) (k : String) : R γ := match get? cs k with
  | some a => .ok a
  | none => .error .keyError

/-- `na.convolve(array, kernel, axis, where)` for vectors whose components are scalars.
Models `/repo/named_arrays/_vectors/vector_named_array_functions.py` lines 328-388. -/
def convolve (conv : ND α → ND κ → ND Bool → ND β) (array : Comp (SA α)) (kernel : Comp (SA κ)) (axis : AxisArg) (wh : Comp (SA Bool)) :
    R (Comp (SA β)) :=
  match array.classNames.or (kernel.classNames.or wh.classNames) with
  | none => .error .other
  | some prototype => do
    let array ← array.spread prototype
    let kernel ← kernel.spread prototype
    let wh ← wh.spread prototype
    let shapeKernel ← broadcastShapes (kernel.values.map SA.shape)
    let axis := axis.orElse shapeKernel.keys
    let parallelKernel ← pickAxes shapeKernel (axis.items [])
    let sa ← broadcastShapes (array.values.map SA.shape)
    let sw ← broadcastShapes (wh.values.map SA.shape)
    let shape ← broadcastShapes [sa, sw]
    let parallel ← pickAxes shape (axis.items [])
    let rs ← array.mapM (fun p => do
      let k ← componentAt kernel p.1
      let w ← componentAt wh p.1
      let r ← SA.convolvePart conv parallel parallelKernel axis p.2 k w
      .ok (p.1, Comp.leaf r))
    .ok (.node prototype.1 rs)

end Comp
end NA
