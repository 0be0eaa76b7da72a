import Verif.Vector.Structure
import Verif.Space.Basic

/-!
# Grids of vectors

Model of `np.linspace` and its relatives, and of `na.arange`, for vectors.
-/

namespace NA
open Dict
namespace Comp
variable {α β τ : Type}

/-- `array_function_sequence` for vectors: `np.linspace`, `np.logspace` and `np.geomspace`, where `op` is the function for scalars and `num` stands
for the number of points together with the other parameters.  Only `start` and `stop` are searched for vectors; a vector for `axis` or `num` next
to scalars is rejected (for `num` by numpy).  The recursion is on the nesting depth, see `naryAux`.
Models `/repo/named_arrays/_vectors/vector_array_functions.py` lines 117-153. -/
def sequenceAux (op : SA α → SA α → String → τ → R (SA β)) : Nat → Comp (SA α) → Comp (SA α) → Comp String → Comp τ → R (Comp (SA β))
  | 0, _, _, _, _ => .error .other
  | n + 1, start, stop, axis, num =>
    match prototype [start, stop] with
    | none =>
      match start, stop, axis, num with
      | .leaf a, .leaf b, .leaf x, .leaf k => do .ok (.leaf (← op a b x k))
      | _, _, _, _ => .error .typeError
    | some (cls, names) =>
      if start.isOfType cls && stop.isOfType cls && axis.isOfType cls && num.isOfType cls then do
        let rs ← names.mapM (fun k => do
          let a ← start.component k
          let b ← stop.component k
          let x ← axis.component k
          let m ← num.component k
          let r ← sequenceAux op n a b x m
          .ok (k, r))
        .ok (.node cls rs)
      else .error .typeError

/-- The largest nesting depth of the arguments. -/
def gridDepth (start stop : Comp (SA α)) (axis : Comp String) (num : Comp τ) : Nat :=
  max start.depth (max stop.depth (max axis.depth (max num.depth 1)))

/-- See `sequenceAux`. -/
def sequence (op : SA α → SA α → String → τ → R (SA β)) (start stop : Comp (SA α)) (axis : Comp String) (num : Comp τ) : R (Comp (SA β)) :=
  sequenceAux op (gridDepth start stop axis num) start stop axis num

/-- `na.arange` for vectors, where `op` is the function for scalars.  The arguments are asked in order to implement the function: if `start` is a scalar, the
implementation for scalars is called, in which a vector `stop` raises `ScalarTypeError`; it does not check the other two arguments, and what comes
of vectors there is not modelled.
Models `/repo/named_arrays/_vectors/vector_named_array_functions.py` lines 106-134, `/repo/named_arrays/_named_array_functions.py` lines 63-78 and
`/repo/named_arrays/_scalars/scalar_named_array_functions.py` lines 149-150. -/
def arangeAux (op : SA α → SA α → String → τ → R (SA β)) : Nat → Comp (SA α) → Comp (SA α) → Comp String → Comp τ → R (Comp (SA β))
  | 0, _, _, _, _ => .error .other
  | _ + 1, .leaf a, stop, axis, step =>
    match stop, axis, step with
    | .leaf b, .leaf x, .leaf s => do .ok (.leaf (← op a b x s))
    | .node _ _, _, _ => .error .typeError
    | _, _, _ => .error .notImplemented
  | n + 1, .node cls cs, stop, axis, step =>
    if stop.isOfType cls && axis.isOfType cls && step.isOfType cls then do
      let rs ← (keys cs).mapM (fun k => do
        let a ← (Comp.node cls cs).component k
        let b ← stop.component k
        let x ← axis.component k
        let s ← step.component k
        let r ← arangeAux op n a b x s
        .ok (k, r))
      .ok (.node cls rs)
    else .error .typeError

section
variable {K : Type} [Field K]

/-- `np.linspace(start, stop, axis, num, endpoint)` for vectors. -/
def linspace (endpoint : Bool) (start stop : Comp (SA K)) (axis : Comp String) (num : Comp Int) : R (Comp (SA K)) :=
  sequence (fun a b x n => SA.linspace a b x n endpoint false) start stop axis num

/-- `na.arange(start, stop, axis, step)` for vectors. -/
def arange [LinearOrder K] [FloorRing K] (start stop : Comp (SA K)) (axis : Comp String) (step : Comp K) : R (Comp (SA K)) :=
  arangeAux SA.arangeOf (gridDepth start stop axis step) start stop axis step

end
end Comp
end NA
