import Verif.Vector.Structure
import Verif.Scalar.Kernels

/-!
# Functions of other packages for vectors

Model of `na.numexpr.evaluate` and `na.ndfilters` for vectors.
-/

namespace NA
open Dict
namespace Comp
variable {α β : Type}

/-- `na.numexpr.evaluate(ex, ...)`: the expression is evaluated for the components of each name, which are not broadcast first.
Models `/repo/named_arrays/_vectors/vector_named_array_functions.py` lines 1124-1160. -/
def evaluate (ex : Dict α → β) (arrays : Dict (Comp (SA α))) : R (Comp (SA β)) :=
  nary .ok (fun as => SA.evaluate ex (arrays.keys.zip as)) arrays.values

/-- The filter for one component.  The arguments have one type of elements here (values of the array or of the mask); the value
`default` is never used. -/
def filterScalars (g : List Nat → List Nat → (List Nat → α × Bool) → List Nat → β) (default : α) (size : Dict Nat) :
    List (SA (α ⊕ Bool)) → R (SA β)
  | [a, w] => SA.ndfilter g ⟨a.axes, a.nd.map (Sum.elim id (fun _ => default))⟩ size ⟨w.axes, w.nd.map (Sum.elim (fun _ => false) id)⟩
  | _ => .error .other

/-- `na.ndfilters.mean_filter(array, size, where)` and its relatives.
Models `/repo/named_arrays/_vectors/vector_named_array_functions.py` lines 849-878. -/
def ndfilter (g : List Nat → List Nat → (List Nat → α × Bool) → List Nat → β) (default : α) (array : Comp (SA α)) (size : Dict Nat)
    (wh : Comp (SA Bool)) : R (Comp (SA β)) := do
  let a ← array.mapM (fun x => .ok (⟨x.axes, x.nd.map Sum.inl⟩ : SA (α ⊕ Bool)))
  let w ← wh.mapM (fun x => .ok (⟨x.axes, x.nd.map Sum.inr⟩ : SA (α ⊕ Bool)))
  nary broadcasted (filterScalars g default size) [a, w]

end Comp
end NA
