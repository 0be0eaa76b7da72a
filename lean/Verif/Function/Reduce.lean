import Verif.Function.Structure
import Verif.Interp.Basic

/-!
# Reducing function arrays

Model of the reductions of `/repo/named_arrays/_functions/function_array_functions.py`, for inputs and outputs which are
scalar arrays.
-/

namespace NA
open Dict

namespace FA
variable {α β γ K : Type}

/-- `np.mean` of the elements of a slab (numpy's `nan` for an empty slab is 0 here). -/
def mean [Field K] (l : List K) : K := l.sum / l.length

/-- The inputs of a reduced function: unchanged with `keepdims`, otherwise the centers along the vertex axes among the
reduced ones, averaged.
Models `/repo/named_arrays/_functions/function_array_functions.py` lines 93-108, without `out` and `where`. -/
def reduceInputs [Field K] (f : FA K β) (A : List String) (keepdims : Bool) : R (SA K) :=
  if keepdims then .ok f.inputs
  else do
    let c ← f.axesCenter
    let i ← f.inputs.cellCenters (some (A.filter (· ∉ c))) none
    i.reduce false mean (some (i.shape.keys.filter (· ∈ A))) false none none

/-- `array_function_default` for functions: `np.sum`, `np.min`, `np.mean`, ..., without `out`, `where`, `dtype` and
`initial`; `keepdims` is `True` by default in the code.
Models `/repo/named_arrays/_functions/function_array_functions.py` lines 32-125. -/
def reduce [Field K] (need : Bool) (g : List β → γ) (f : FA K β) (axis : Option (List String)) (keepdims : Bool) :
    R (FA K γ) := do
  let s ← f.shape
  let A := axis.getD s.keys
  if axis.isSome && !(A.all (· ∈ s.keys)) then .error .valueError
  else
    let i ← f.reduceInputs A keepdims
    let o ← f.outputs.reduce need g (some (f.outputs.shape.keys.filter (· ∈ A))) keepdims none none
    .ok ⟨i, o⟩

/-- `array_function_cumulative_reduce` for functions: `np.cumsum`, ..., without `out` and `dtype`.
Models `/repo/named_arrays/_functions/function_array_functions.py` lines 128-187. -/
def cumulative (g : List β → β) (f : FA α β) (axis : Option (List String)) : R (FA α β) := do
  let s ← f.shape
  match axis.getD s.keys with
  | [ax] =>
    match s.get? ax with
    | none => .error .keyError
    | some n =>
      let b ← f.outputs.broadcastTo [(ax, n)] true
      let o ← SA.cumulative g b (some [ax]) none
      .ok ⟨f.inputs, o⟩
  | _ => .error .valueError

end FA
end NA
