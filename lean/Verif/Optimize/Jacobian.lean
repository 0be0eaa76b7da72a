import Verif.Matrix.Basic

/-!
# Jacobians by finite differences

Model of `na.jacobian`: `/repo/named_arrays/_named_array_functions.py` lines 1502-1535,
`/repo/named_arrays/_scalars/scalar_named_array_functions.py` lines 1506-1526 and
`/repo/named_arrays/_vectors/vector_named_array_functions.py` lines 619-690.  Units are not modelled, the step `dx` is
given by the caller, and every class of vectors which is returned by the function has a class of matrices.
-/

namespace NA
open Dict

/-- What `na.jacobian` returns: a matrix for a vector which is a function of a vector, a scalar or vector otherwise. -/
inductive Jac (α : Type) where
  | array (v : Comp α)
  | matrix (M : Mat α)

namespace Jac
variable {α : Type}

/-- `na.asanyarray(dx, like=x)`: a scalar is given to every component of a vector.
Models `/repo/named_arrays/_named_array_functions.py` line 1525, with
`/repo/named_arrays/_vectors/vector_named_array_functions.py` lines 49-102. -/
def stepLike (dx x : Comp α) : R (Comp α) := Comp.ufunc2 (fun _ h => .ok h) x dx

/-- `type_x.from_cartesian_nd(na.CartesianNdVectorArray(d), like=x)`.
Models `/repo/named_arrays/_vectors/vector_named_array_functions.py` lines 648, 655-658 and 674-675. -/
def asVector (cls : String) (xs : List (String × Comp α)) (d : Dict α) : R (Comp α) := do
  .ok (.node cls (← Comp.fromCartesianNd d xs))

/-- The point where one of the components is moved by `h`: `components_x0 = components_x.copy()`,
`components_x0[c_x] = components_x0[c_x] + components_dx[c_x]`, and the conversion to the class of `x`.
Models `/repo/named_arrays/_vectors/vector_named_array_functions.py` lines 646-648 and 667-669. -/
def moved (o : Ops α) (cls : String) (xs : List (String × Comp α)) (p : String × α) (h : α) : R (Comp α) := do
  let v ← o.add p.2 h
  asVector cls xs ((Comp.cartesianNd xs).set p.1 v)

/-- The change of the function when one of the components is moved.
Models `/repo/named_arrays/_vectors/vector_named_array_functions.py` lines 646-650 and 667-671. -/
def change (o : Ops α) (function : Comp α → R (Comp α)) (cls : String) (xs : List (String × Comp α)) (f : Comp α)
    (p : String × α) (h : α) : R (Comp α) := do
  let x0 ← moved o cls xs p h
  let f0 ← function x0
  Comp.ufunc2 o.sub f0 f

/-- `components_result[c_f][c_x] = components_df[c_f] / components_dx[c_x]`.
Models `/repo/named_arrays/_vectors/vector_named_array_functions.py` lines 651-653. -/
def quotient (o : Ops α) (c : String) (h : α) (df : Dict α) (p : String × Dict α) : R (Dict α) :=
  match df.get? p.1 with
  | none => .error .keyError
  | some d => do .ok (p.2.set c (← o.div d h))

/-- ... for all the rows.
Models `/repo/named_arrays/_vectors/vector_named_array_functions.py` lines 651-653. -/
def column (o : Ops α) (c : String) (h : α) (df : Comp α) (rows : Dict (Dict α)) : R (Dict (Dict α)) :=
  match df with
  | .leaf _ => .error .other
  | .node _ ds => rows.mapM (fun p => do .ok (p.1, ← quotient o c h (Comp.cartesianNd ds) p))

/-- One pass of the loop over the components of `x`.
Models `/repo/named_arrays/_vectors/vector_named_array_functions.py` lines 645-653. -/
def addColumn (o : Ops α) (function : Comp α → R (Comp α)) (cls : String) (xs : List (String × Comp α))
    (steps : Dict α) (f : Comp α) (rows : Dict (Dict α)) (p : String × α) : R (Dict (Dict α)) :=
  match steps.get? p.1 with
  | none => .error .keyError
  | some h => do
    let df ← change o function cls xs f p h
    column o p.1 h df rows

/-- The Jacobian of a vector which is a function of a vector.
Models `/repo/named_arrays/_vectors/vector_named_array_functions.py` lines 639-660. -/
def ofVector (o : Ops α) (function : Comp α → R (Comp α)) (cls : String) (xs : List (String × Comp α))
    (steps : Dict α) (fcls : String) (fs : List (String × Comp α)) : R (Mat α) := do
  let rows ← (Comp.cartesianNd xs).foldlM (addColumn o function cls xs steps (.node fcls fs)) ((Comp.cartesianNd fs).map (fun p => (p.1, ([] : Dict α))))
  let rows ← rows.mapM (fun p => do .ok (p.1, ← asVector cls xs p.2))
  .ok ⟨fcls, ← Comp.fromCartesianNd rows fs⟩

/-- One pass of the loop over the components of `x` for a scalar.  (A function which returns a scalar at `x` and a vector
elsewhere is not modelled.)
Models `/repo/named_arrays/_vectors/vector_named_array_functions.py` lines 666-672. -/
def addDerivative (o : Ops α) (function : Comp α → R (Comp α)) (cls : String) (xs : List (String × Comp α))
    (steps : Dict α) (f : Comp α) (result : Dict α) (p : String × α) : R (Dict α) :=
  match steps.get? p.1 with
  | none => .error .keyError
  | some h => do
    match ← change o function cls xs f p h with
    | .leaf df => do .ok (result.set p.1 (← o.div df h))
    | .node _ _ => .error .other

/-- The gradient of a scalar which is a function of a vector.
Models `/repo/named_arrays/_vectors/vector_named_array_functions.py` lines 662-675. -/
def ofScalar (o : Ops α) (function : Comp α → R (Comp α)) (cls : String) (xs : List (String × Comp α))
    (steps : Dict α) (f : α) : R (Comp α) := do
  let result ← (Comp.cartesianNd xs).foldlM (addDerivative o function cls xs steps (.leaf f)) []
  asVector cls xs result

/-- `na.jacobian(function, x, dx)`.
Models `/repo/named_arrays/_named_array_functions.py` lines 1502-1535,
`/repo/named_arrays/_scalars/scalar_named_array_functions.py` lines 1506-1526 and
`/repo/named_arrays/_vectors/vector_named_array_functions.py` lines 619-690. -/
def jacobian (o : Ops α) (function : Comp α → R (Comp α)) (x dx : Comp α) : R (Jac α) := do
  let dx ← stepLike dx x
  let f ← function x
  match x, dx with
  | .leaf _, _ => do
    let x0 ← Comp.ufunc2 o.add x dx
    let f0 ← function x0
    let df ← Comp.ufunc2 o.sub f0 f
    .ok (.array (← Comp.ufunc2 o.div df dx))
  | .node _ _, .leaf _ => .error .other
  | .node cls xs, .node _ ds =>
    match f with
    | .leaf a => do .ok (.array (← ofScalar o function cls xs (Comp.cartesianNd ds) a))
    | .node fcls fs => do .ok (.matrix (← ofVector o function cls xs (Comp.cartesianNd ds) fcls fs))

end Jac
end NA
