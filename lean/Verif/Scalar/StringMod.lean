import Verif.Scalar.StringArray

/-!
# Formatting with arrays of formats
-/

namespace NA.Str
variable {α : Type}

/-- `np.strings.mod(a, values)` of an array of formats and an array of values: both are aligned with the broadcast shape, numpy applies the operator `%` of
python to every pair of elements, and the first error is raised.  Operands which are not named arrays are arrays without axes.
Models `/repo/named_arrays/_scalars/scalar_array_functions.py` lines 1112-1134. -/
def stringsMod (render : List Char → α → List Char) (formats : SA (List Char)) (values : SA α) : R (SA (List Char)) := do
  let r ← SA.ufunc2 (fun format x => modulo render x (.text false) format) formats values
  let _ ← (ndIndices r.nd.shape).mapM (fun i => r.nd.get i)
  SA.mk? (r.nd.map (fun x => match x with
    | .ok s => s
    | .error _ => [])) r.axes

end NA.Str
