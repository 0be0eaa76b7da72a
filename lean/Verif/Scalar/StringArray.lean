import Verif.Scalar.Basic
import Verif.Vector.Basic

/-!
# Arrays of strings
-/

namespace NA.Str
open Dict
variable {α : Type}

/-- Where python is while it reads a format string: between the conversions or within one, of which the given characters have been read; the boolean
tells whether the value has been used. -/
inductive Mode where
  | text (used : Bool)
  | conversion (read : List Char) (used : Bool)

/-- Flags, width, precision and length modifiers of a conversion. -/
def isModifier (c : Char) : Bool := c ∈ ['-', '+', ' ', '#', '.', 'h', 'l', 'L'] || c.isDigit

/-- The types of conversions. -/
def isType (c : Char) : Bool := c ∈ ['d', 'i', 'o', 'u', 'x', 'X', 'e', 'E', 'f', 'F', 'g', 'G', 'c', 'r', 's', 'a']

/-- `format % value` for one value, which is not a tuple; `render` formats the value for one conversion.  An incomplete or an unknown conversion raises
`ValueError`, a second conversion or none raises `TypeError`.  Conversions with `*` or with a key in parentheses are left out.
Models the operation of python which `np.strings.mod` applies to every element, `/repo/named_arrays/_scalars/scalar_array_functions.py` lines
1125-1128. -/
def modulo (render : List Char → α → List Char) (value : α) : Mode → List Char → R (List Char)
  | .text used, [] => if used then .ok [] else .error .typeError
  | .conversion _ _, [] => .error .valueError
  | .text used, c :: cs =>
    if c = '%' then modulo render value (.conversion [] used) cs
    else do .ok (c :: (← modulo render value (.text used) cs))
  | .conversion read used, c :: cs =>
    if c = '%' then do .ok ('%' :: (← modulo render value (.text used) cs))
    else if isModifier c then modulo render value (.conversion (read ++ [c]) used) cs
    else if used then .error .typeError
    else if isType c then do .ok (render (read ++ [c]) value ++ (← modulo render value (.text true) cs))
    else .error .valueError

/-- The format string: the format of the value, and if there is a unit, `pad_unit` and the text of the unit.
Models `/repo/named_arrays/_scalars/scalars.py` lines 396-400. -/
def formatOf (formatValue pad : List Char) : Option (List Char) → List Char
  | none => formatValue
  | some unit => formatValue ++ pad ++ unit

/-- `a.to_string_array(format_value, format_unit, pad_unit)` of a scalar; the text of the unit is given.
Models `/repo/named_arrays/_scalars/scalars.py` lines 390-405 and `/repo/named_arrays/_scalars/scalar_array_functions.py` lines 1113-1134. -/
def toStringArray (render : List Char → α → List Char) (formatValue pad : List Char) (unit : Option (List Char)) (a : SA α) : R (SA (List Char)) := do
  let format := formatOf formatValue pad unit
  let _ ← (ndIndices a.nd.shape).mapM (fun i => modulo render (a.nd.get i) (.text false) format)
  SA.mk? (a.nd.map (fun x => match modulo render x (.text false) format with
    | .ok s => s
    | .error _ => [])) a.axes

/-- `v.to_string_array(format_value, format_unit, pad_unit)` of a vector of scalars with their units.
Models `/repo/named_arrays/_vectors/vectors.py` lines 259-277. -/
def vectorToStringArray (render : List Char → α → List Char) (formatValue pad : List Char) (v : Comp (Option (List Char) × SA α)) :
    R (Comp (SA (List Char))) :=
  v.mapM (fun p => toStringArray render formatValue pad p.1 p.2)

end NA.Str
