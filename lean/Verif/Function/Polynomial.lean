import Verif.Scalar.Join
import Mathlib.Algebra.Field.Defs

/-!
# Polynomial terms and design matrices
-/

namespace NA
open Dict

namespace Poly

/-- Combinations starting with copies of one element, followed by combinations of the rest. -/
def combinationsFrom {α : Type} (x : α) (rest : Nat → List (List α)) : Nat → List (List α)
  | 0 => [[]]
  | k + 1 => (combinationsFrom x rest k).map (x :: ·) ++ rest (k + 1)

/-- `itertools.combinations_with_replacement(components, k)`, in its order: first those which begin with the first
element. -/
def combinations {α : Type} : List α → Nat → List (List α)
  | [] => fun k => if k = 0 then [[]] else []
  | x :: xs => combinationsFrom x (combinations xs)

theorem combinations_zero {α : Type} (l : List α) : combinations l 0 = [[]] := by
  cases l <;> rfl

theorem combinations_nil {α : Type} (k : Nat) : combinations ([] : List α) (k + 1) = [] := rfl

theorem combinations_cons {α : Type} (x : α) (xs : List α) (k : Nat) :
    combinations (x :: xs) (k + 1) = (combinations (x :: xs) k).map (x :: ·) ++ combinations xs (k + 1) := rfl

/-- The names which `from_degree` generates.
Models `/repo/named_arrays/_functions/functions.py` lines 1376-1379. -/
def coefficientNames (components : List String) (degree : Nat) : List String :=
  (List.range (degree + 1)).flatMap fun i => (combinations components i).map "*".intercalate

/-- `name.split("*")` -/
def splitStar (name : String) : List String := (name.toList.splitOn '*').map String.ofList

variable {K : Type} [Field K]

/-- One factor of a term.
Models `/repo/named_arrays/_functions/functions.py` lines 1319-1326. -/
def factorStep (inputs : Dict (SA K)) (term : SA K) (k : String) : R (SA K) :=
  match get? inputs k with
  | none => .error .valueError
  | some a => SA.ufunc2 (· * ·) term a

/-- One term of the design matrix; the python number 1 is an array without axes.
Models `/repo/named_arrays/_functions/functions.py` lines 1317-1326. -/
def term (inputs : Dict (SA K)) (name : String) : R (SA K) :=
  if name = "" then .ok (SA.scalar 1) else (splitStar name).foldlM (factorStep inputs) (SA.scalar 1)

/-- `design_matrix` from the (centered and broadcasted) components of the inputs; `none` are missing
`coefficient_names`.
Models `/repo/named_arrays/_functions/functions.py` lines 1301-1305 and 1315-1331 (the subtraction of the center and the
broadcasting of the components against each other come before). -/
def designMatrix (inputs : Dict (SA K)) : Option (List String) → R (Dict (SA K))
  | none => .error .valueError
  | some names => names.foldlM (fun d name => do
      let t ← term inputs name
      .ok (d.set name t)) []

end Poly
end NA
