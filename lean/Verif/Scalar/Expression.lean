import Mathlib.Data.List.Sort
import Mathlib.Data.String.Basic
import Verif.Scalar.Kernels
import Verif.Uncertain.Kernels
import Verif.Vector.Kernels

/-!
# `na.numexpr.evaluate`, from the names in the string to the arrays
-/

namespace NA
open Dict

/-- An expression such as `2*a + 3*b`, after it has been parsed (the parser is a part of the package `numexpr`).
The functions of one and two numbers stand for the operators and functions of `numexpr`. -/
inductive Formula (α : Type) where
  | var (name : String)
  | const (c : α)
  | op1 (f : α → α) (x : Formula α)
  | op2 (f : α → α → α) (x y : Formula α)

namespace Formula
variable {α : Type}

/-- The occurrences of variables. -/
def vars : Formula α → List String
  | .var n => [n]
  | .const _ => []
  | .op1 _ x => x.vars
  | .op2 _ x y => x.vars ++ y.vars

/-- `numexpr.necompiler.getExprNames(ex, ...)[0]`: the names of the variables without repetition, sorted.
Models the call in `/repo/named_arrays/numexpr.py` lines 127-133. -/
def names (x : Formula α) : List String := x.vars.dedup.insertionSort (· ≤ ·)

/-- The value of an expression if its variables have the values in a `dict`.
Every variable of the expression is in the `dict` when it is called, so `dflt` is never used. -/
def eval (dflt : α) : Formula α → Dict α → α
  | .var n, d => (get? d n).getD dflt
  | .const c, _ => c
  | .op1 f x, d => f (x.eval dflt d)
  | .op2 f x y, d => f (x.eval dflt d) (y.eval dflt d)

end Formula

/-- The names which are already keywords on the way from `na.numexpr.evaluate` to the function for the type of the arrays: Python
raises `TypeError` ("multiple values for argument") if a variable has one of these names.
Models `/repo/named_arrays/numexpr.py` lines 144-153, `/repo/named_arrays/_named_array_functions.py` lines 63-71 (`func`) and
`/repo/named_arrays/_scalars/scalars.py` line 661 (`self`). -/
def callKeywords : List String := ["func", "ex", "order", "casting", "sanitize", "optimization", "truediv", "self"]

/-- The values of the variables: the local ones before the global ones.
Models `/repo/named_arrays/numexpr.py` lines 16-53 (where the `dict`s are given; the frames of Python are not modelled). -/
def getArguments {V : Type} (names : List String) (local_ global_ : Dict V) : R (List V) :=
  names.mapM (fun name =>
    match get? local_ name with
    | some a => .ok a
    | none =>
      match get? global_ name with
      | some a => .ok a
      | none => .error .keyError)

/-- `na.numexpr.evaluate(ex, local_dict, global_dict)`, where `names` are the names in the expression and `handler` is the function for
the type of the arrays, which is given the arrays under the names of the variables.
If there are no variables then no array handles the call (`_named_array_functions.py` lines 73-76).
Models `/repo/named_arrays/numexpr.py` lines 56-153. -/
def evaluateNames {V W : Type} (handler : Dict V → R W) (names : List String) (local_ global_ : Dict V) : R W := do
  let args ← getArguments names local_ global_
  let arrays := names.zip args
  if names.any (· ∈ callKeywords) then .error .typeError
  else if arrays.isEmpty then .error .typeError
  else handler arrays

variable {α : Type}

/-- `na.numexpr.evaluate` for scalars without units.
Models `/repo/named_arrays/numexpr.py` lines 56-153 with `/repo/named_arrays/_scalars/scalar_named_array_functions.py` lines 2082-2128. -/
def SA.evaluateExpression (dflt : α) (ex : Formula α) (local_ global_ : Dict (SA α)) : R (SA α) :=
  evaluateNames (SA.evaluate (ex.eval dflt)) ex.names local_ global_

/-- `na.numexpr.evaluate` if some variables are uncertain scalars.
Models `/repo/named_arrays/numexpr.py` lines 56-153 with
`/repo/named_arrays/_scalars/uncertainties/uncertainties_named_array_functions.py` lines 1316-1353. -/
def UA.evaluateExpression (dflt : α) (ex : Formula α) (local_ global_ : Dict (UArg α)) : R (UA α) :=
  evaluateNames (UA.evaluate (ex.eval dflt)) ex.names local_ global_

/-- `na.numexpr.evaluate` if some variables are vectors.
Models `/repo/named_arrays/numexpr.py` lines 56-153 with `/repo/named_arrays/_vectors/vector_named_array_functions.py` lines 1124-1160. -/
def Comp.evaluateExpression (dflt : α) (ex : Formula α) (local_ global_ : Dict (Comp (SA α))) : R (Comp (SA α)) :=
  evaluateNames (Comp.evaluate (ex.eval dflt)) ex.names local_ global_

end NA
