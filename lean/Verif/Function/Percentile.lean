import Verif.Function.Reduce
import Verif.Scalar.Percentile
import Verif.Uncertain.Basic

/-!
# Percentiles of function arrays, and copying into function arrays

Model of `/repo/named_arrays/_functions/function_array_functions.py` lines 190-259 and 351-383, for inputs and outputs which are
scalar arrays.
-/

namespace NA
open Dict

namespace FA
variable {α β γ κ K : Type}

/-- The inputs of the percentiles of a function: unchanged with `keepdims`, otherwise averaged, without taking the centers along
the vertex axes.
Models `/repo/named_arrays/_functions/function_array_functions.py` lines 228-241, without `out`. -/
def percentileInputs [Field K] (f : FA K β) (A : List String) (keepdims : Bool) : R (SA K) :=
  if keepdims then .ok f.inputs
  else f.inputs.reduce false mean (some (f.inputs.shape.keys.filter (· ∈ A))) false none none

/-- `array_function_percentile_like` for functions: `np.percentile(f, q, axis, keepdims=)` and the like, without `out` and
`overwrite_input`; `method` is a part of `pct`, see `SA.percentileLike`.
Models `/repo/named_arrays/_functions/function_array_functions.py` lines 190-259. -/
def percentile [Field K] (valid : κ → Bool) (pct : κ → List β → γ) (f : FA K β) (q : SA κ) (axis : Option (List String))
    (keepdims : Bool) : R (FA K γ) := do
  let s ← f.shape
  let A := axis.getD s.keys
  if axis.isSome && !(A.all (· ∈ s.keys)) then .error .valueError
  else
    let i ← f.percentileInputs A keepdims
    let o ← f.outputs.percentileLike valid pct q (some (f.outputs.shape.keys.filter (· ∈ A))) keepdims none
    .ok ⟨i, o⟩

/-- The `where` argument of `np.copyto` for functions: a python boolean, a function, or any other array. -/
inductive CopyWhere (α : Type) where
  | bool (b : Bool)
  | function (w : FA α Bool)
  | array

/-- `np.copyto(dst.inputs, src.inputs, where=where.inputs)`: numpy raises `TypeError` for a mask of numbers, and the whole
ndarray is replaced.  `asMask` reads the inputs as a mask, and is `none` if they are not booleans.
Models `/repo/named_arrays/_scalars/scalar_array_functions.py` lines 495-532, as called in
`/repo/named_arrays/_functions/function_array_functions.py` lines 374-377. -/
def copyInputs (allowed : Bool) (asMask : Option (α → Bool)) (dst src w : SA α) : R (SA α) :=
  match asMask with
  | some p => dst.copyto allowed src (some ⟨w.axes, w.nd.map p⟩)
  | none => do
    let _ ← src.aligned dst.shape.keys
    let _ ← w.aligned dst.shape.keys
    .ok ⟨dst.axes, src.nd⟩

/-- The two copies: if the second one raises, the inputs have been changed already.
Models `/repo/named_arrays/_functions/function_array_functions.py` lines 374-383, for inputs and outputs which are arrays (for python
numbers the `except TypeError` assigns them). -/
def copyBoth (dst : FA α β) (i : R (SA α)) (o : R (SA β)) : FA α β × Option Err :=
  match i with
  | .error e => (dst, some e)
  | .ok i' =>
    match o with
    | .error e => (⟨i', dst.outputs⟩, some e)
    | .ok o' => (⟨i', o'⟩, none)

/-- `np.copyto(dst, src, where=where)` for functions: the destination afterwards, and the error if there is one.  `allowed` is as in
`SA.copyto`, for the inputs and for the outputs; `ne` is `!=` of elements of the inputs.
Models `/repo/named_arrays/_functions/function_array_functions.py` lines 351-383. -/
def copyto (ne : α → α → Bool) (allowedI allowedO : Bool) (asMask : Option (α → Bool)) (dst src : FA α β) :
    CopyWhere α → FA α β × Option Err
  | .array => (dst, some .typeError)
  | .bool b =>
    dst.copyBoth (dst.inputs.copyto allowedI src.inputs (some (SA.scalar b)))
      (dst.outputs.copyto allowedO src.outputs (some (SA.scalar b)))
  | .function w =>
    match differ ne w.inputs src.inputs with
    | .error e => (dst, some e)
    | .ok true => (dst, some .valueError)
    | .ok false =>
      dst.copyBoth (copyInputs allowedI asMask dst.inputs src.inputs w.inputs)
        (dst.outputs.copyto allowedO src.outputs (some w.outputs))

end FA
end NA
