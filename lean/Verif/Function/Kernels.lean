import Verif.Function.Basic
import Verif.Function.Set
import Verif.Scalar.Kernels

/-!
# Functions of other packages for function arrays

Model of `na.ndfilters` and `na.despike` for functions whose inputs and outputs are scalar arrays.
-/

namespace NA
open Dict
namespace FA
variable {α β γ : Type}

/-- `bool(np.all(a != b))`, for the comparison `ne` of two elements. -/
def differAll (ne : α → α → Bool) (a b : SA α) : R Bool := equalAll ne a b

/-- The argument `where` of a filter: a python boolean or a function. -/
inductive FilterMask (α : Type) where
  | bool (b : Bool)
  | func (f : FA α Bool)

/-- `na.ndfilters.mean_filter(array, size, where)` and its relatives.
Models `/repo/named_arrays/_functions/function_named_array_functions.py` lines 255-290. -/
def ndfilter (ne : α → α → Bool) (g : List Nat → List Nat → (List Nat → β × Bool) → List Nat → γ) (array : FA α β)
    (size : Dict Nat) : FilterMask α → R (FA α γ)
  | .bool b => do
    let o ← SA.ndfilter g array.outputs size (SA.scalar b)
    .ok ⟨array.inputs, o⟩
  | .func w => do
    let different ← differAll ne w.inputs array.inputs
    if different then .error .valueError
    else
      let o ← SA.ndfilter g array.outputs size w.outputs
      .ok ⟨array.inputs, o⟩

/-- `na.despike(array, axis, where, inbkg, invar, psfk)` where at least one argument is a function.  The result is assigned to the
attribute `outputs` of a copy of `array`; if `array` is not a function, this attribute has no meaning, and the copy is returned as it
was.
Models `/repo/named_arrays/_functions/function_named_array_functions.py` lines 347-406. -/
def despikeFunction (clean : ND β → Option (ND Bool) → Option (ND β) → Option (ND β) → Option (ND β) → R (ND β))
    (array : Arg α β) (axis : List String) (wh : Option (Arg α Bool)) (inbkg invar : Option (Arg α β)) (psfk : Option (SA β)) :
    R (Arg α β) := do
  let o ← SA.despike clean array.outputs axis (wh.map Arg.outputs) (inbkg.map Arg.outputs) (invar.map Arg.outputs) psfk
  match array with
  | .plain a => .ok (.plain a)
  | .func f => .ok (.func ⟨f.inputs, o⟩)

/-- Is an optional argument a function? -/
def isFunction : Option (Arg α γ) → Bool
  | some (.func _) => true
  | _ => false

/-- `na.despike(array, axis, where, inbkg, invar, psfk)` for scalars and functions.  The implementation for scalars returns
`NotImplemented` if there is a function among its arguments, and the one for functions is called.
Models `/repo/named_arrays/_named_array_functions.py` lines 52-78 and 1538-1683 for these arguments. -/
def despike (clean : ND β → Option (ND Bool) → Option (ND β) → Option (ND β) → Option (ND β) → R (ND β))
    (array : Arg α β) (axis : List String) (wh : Option (Arg α Bool)) (inbkg invar : Option (Arg α β)) (psfk : Option (SA β)) :
    R (Arg α β) :=
  if isFunction (some array) || isFunction wh || isFunction inbkg || isFunction invar then
    despikeFunction clean array axis wh inbkg invar psfk
  else do
    let r ← SA.despike clean array.outputs axis (wh.map Arg.outputs) (inbkg.map Arg.outputs) (invar.map Arg.outputs) psfk
    .ok (.plain r)

end FA
end NA
