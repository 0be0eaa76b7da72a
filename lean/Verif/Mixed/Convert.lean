import Verif.Uncertain.Basic

/-!
# Converting arrays to the type of another array

`na.asarray` and `na.asanyarray` with the argument `like`, `from_scalar_array`, `na.nominal`, and numpy's
`zeros_like` and `ones_like`, for arrays of every type.
-/

namespace NA
open Dict

/-- A value of any type.  A vector carries its `type_explicit` and its components.  Models the classes
`ScalarArray`, `UncertainScalarArray`, `FunctionArray` and the subclasses of `AbstractVectorArray`:
`/repo/named_arrays/_scalars/scalars.py` lines 889-900,
`/repo/named_arrays/_scalars/uncertainties/uncertainties.py` lines 605-620,
`/repo/named_arrays/_vectors/vectors.py` lines 534-614,
`/repo/named_arrays/_functions/functions.py` lines 1028-1032. -/
inductive Arr (α : Type) where
  | num (x : α)
  | sa (a : SA α)
  | ua (u : UA α)
  | vec (cls : String) (cs : List (String × Arr α))
  | func (i o : Arr α)

namespace Arr
variable {α β γ δ : Type}

mutual
/-- How deep the parts of a value are nested. -/
def depth : Arr α → Nat
  | .ua _ => 1
  | .vec _ cs => depths cs + 1
  | .func i o => max (depth i) (depth o) + 1
  | _ => 0
def depths : List (String × Arr α) → Nat
  | [] => 0
  | (_, v) :: cs => max (depth v) (depths cs)
end

/-- Which implementation of `__named_array_function__` is called.
Models `/repo/named_arrays/_scalars/scalars.py` lines 661-670,
`/repo/named_arrays/_scalars/uncertainties/uncertainties.py` lines 578-586,
`/repo/named_arrays/_vectors/vectors.py` lines 472-480 and
`/repo/named_arrays/_functions/functions.py` lines 838-846. -/
inductive Method where
  | scalar
  | uncertain
  | vector
  | function

/-- The implementation an array brings along; numbers are not arrays. -/
def method : Arr α → Option Method
  | .num _ => none
  | .sa _ => some .scalar
  | .ua _ => some .uncertain
  | .vec _ _ => some .vector
  | .func _ _ => some .function

/-- A number as a scalar without axes.
Models `/repo/named_arrays/_scalars/scalars.py` lines 65-81 and, for the argument `like`,
`/repo/named_arrays/_named_array_functions.py` lines 90-93. -/
def wrapped : Arr α → Arr α
  | .num x => .sa (SA.scalar x)
  | v => v

/-- `a_ndarray` and `a_axes`; `None` where `NotImplemented` is returned.
Models `/repo/named_arrays/_scalars/scalar_named_array_functions.py` lines 107-125. -/
def scalarPart : Arr α → Option (SA α)
  | .num x => some (SA.scalar x)
  | .sa a => some a
  | _ => none

/-- `a_nominal` and `a_distribution`; `None` where `NotImplemented` is returned.
Models `/repo/named_arrays/_scalars/uncertainties/uncertainties_named_array_functions.py` lines 58-81. -/
def uncertainParts : Arr α → Option (Arr α × Arr α)
  | .num x => some (.num x, .num x)
  | .sa a => some (.sa a, .sa a)
  | .ua u => some (.sa u.nominal, .sa u.distribution)
  | _ => none

/-- `components[c]`. -/
def lookup (cs : List (String × Arr α)) (c : String) : R (Arr α) :=
  match get? cs c with
  | some v => .ok v
  | none => .error .keyError

/-- `type_like`, the names `components_like` is iterated over, `components_a` and `components_like`; `None`
where `NotImplemented` is returned.
Models `/repo/named_arrays/_vectors/vector_named_array_functions.py` lines 58-93. -/
def vectorParts (a : Arr α) (like : Arr γ) :
    Option (String × List String × (String → R (Arr α)) × (String → R (Arr γ))) :=
  match a, like with
  | .vec cls cs, .vec cls' ds =>
    if cls = cls' then some (cls', keys ds, lookup cs, lookup ds) else none
  | .vec _ _, .func _ _ => none
  | .vec cls cs, like => some (cls, keys cs, lookup cs, fun _ => .ok like)
  | .func _ _, _ => none
  | a, .vec cls ds => some (cls, keys ds, fun _ => .ok a, lookup ds)
  | _, _ => none

/-- The components of the result, one after the other.
Models `/repo/named_arrays/_vectors/vector_named_array_functions.py` lines 95-102. -/
def convertParts (op : Arr α → Arr γ → R (Arr β)) (pa : String → R (Arr α)) (pl : String → R (Arr γ)) :
    List String → R (List (String × Arr β))
  | [] => .ok []
  | c :: names => do
    let x ← pa c
    let y ← pl c
    let r ← op x y
    let rs ← convertParts op pa pl names
    .ok ((c, r) :: rs)

/-- `a_inputs`.  Models `/repo/named_arrays/_functions/function_named_array_functions.py` lines 35-46. -/
def inputs : Arr α → Arr α
  | .func i _ => i
  | v => v

/-- `a_outputs`.  Models `/repo/named_arrays/_functions/function_named_array_functions.py` lines 35-46. -/
def outputs : Arr α → Arr α
  | .func _ o => o
  | v => v

/-- The argument of the constructor of an uncertain scalar: in this model it has to be a scalar (which
`Conversions` shows it always is). -/
def toScalar : Arr α → R (SA α)
  | .sa a => .ok a
  | _ => .error .other

/-- The implementations of `asarray` and `asanyarray`, where `g` is what the function of numpy makes of an
element (nothing for `asanyarray` without `dtype`; `asarray` strips the unit) and `op` is the same function of
this package; `none` stands for `NotImplemented`.
Models `/repo/named_arrays/_scalars/scalar_named_array_functions.py` lines 95-138,
`/repo/named_arrays/_scalars/uncertainties/uncertainties_named_array_functions.py` lines 49-96,
`/repo/named_arrays/_vectors/vector_named_array_functions.py` lines 49-102 and
`/repo/named_arrays/_functions/function_named_array_functions.py` lines 26-77. -/
def attempt (g : α → β) (op : Arr α → Arr γ → R (Arr β)) (m : Method) (a : Arr α) (like : Arr γ) :
    R (Option (Arr β)) :=
  match m with
  | .scalar =>
    match a.scalarPart, like.scalarPart with
    | some x, some _ => do
      let r ← SA.mk? (x.nd.map g) x.axes
      .ok (some (.sa r))
    | _, _ => .ok none
  | .uncertain =>
    match a.uncertainParts, like.uncertainParts with
    | some (an, ad), some (ln, ld) => do
      let n ← (← op an ln).toScalar
      let d ← (← op ad ld).toScalar
      let r ← UA.mk? n d
      .ok (some (.ua r))
    | _, _ => .ok none
  | .vector =>
    match vectorParts a like with
    | some (cls, names, pa, pl) => do
      let rs ← convertParts op pa pl names
      .ok (some (.vec cls rs))
    | none => .ok none
  | .function => do
    let i ← op a.inputs like.inputs
    let o ← op a.outputs like.outputs
    .ok (some (.func i o))

/-- The first implementation which answers, or `TypeError`.
Models `/repo/named_arrays/_named_array_functions.py` lines 70-78. -/
def dispatch (f : Method → R (Option δ)) : List Method → R δ
  | [] => .error .typeError
  | m :: ms => do
    match ← f m with
    | some r => .ok r
    | none => dispatch f ms

/-- The implementations in the order they are asked: that of `a` first, unless the class of `a` is a proper
subclass of the class of `like` (`swap` decides).
Models `/repo/named_arrays/_named_array_functions.py` lines 52-68. -/
def order (swap : Bool) (a : Arr α) (like : Arr γ) : List Method :=
  match a.method, like.method with
  | none, none => []
  | none, some l => [l]
  | some m, none => [m]
  | some m, some l => if swap then [l, m] else [m, l]

/-- `na.asarray(a, like=like)`; `n` bounds the depth of the recursion, see `asarray`.
Models `/repo/named_arrays/_named_array_functions.py` lines 81-101. -/
def asarrayAux (swap : Arr α → Arr γ → Bool) (g : α → β) : Nat → Arr α → Arr γ → R (Arr β)
  | 0, _, _ => .error .other
  | n + 1, a, like =>
    dispatch (fun m => attempt g (asarrayAux swap g n) m a like.wrapped)
      (order (swap a like.wrapped) a like.wrapped)

/-- `na.asarray(a, like=like)`. -/
def asarrayLike (swap : Arr α → Arr γ → Bool) (g : α → β) (a : Arr α) (like : Arr γ) : R (Arr β) :=
  asarrayAux swap g (a.depth + like.depth + 1) a like

/-- `na.asarray(a)`: without `like`, the reference is `na.ScalarArray(None)`.
Models `/repo/named_arrays/_named_array_functions.py` lines 90-91. -/
def asarray (swap : Arr α → Arr γ → Bool) (g : α → β) (none : γ) (a : Arr α) : R (Arr β) :=
  asarrayLike swap g a (.sa (SA.scalar none))

mutual
/-- `like.type_explicit.from_scalar_array(a, like=like)`, and `a` itself for an attribute `like` which is not
an array.  The attributes are assigned to an object made by the constructor without arguments, so that
nothing is checked.
Models `/repo/named_arrays/_scalars/scalars.py` lines 903-924,
`/repo/named_arrays/_scalars/uncertainties/uncertainties.py` lines 623-652,
`/repo/named_arrays/_vectors/vectors.py` lines 507-532 and
`/repo/named_arrays/_functions/functions.py` lines 1034-1057. -/
def fromScalarArray (a : Arr α) : Arr γ → R (Arr α)
  | .num _ => .ok a
  | .sa _ =>
    match a with
    | .num x => .ok (.sa (SA.scalar x))
    | .sa x => .ok (.sa x)
    | _ => .error .typeError
  | .ua _ =>
    match a with
    | .num x => .ok (.ua ⟨SA.scalar x, SA.scalar x⟩)
    | .sa x => .ok (.ua ⟨x, x⟩)
    | _ => .error .typeError
  | .vec cls cs => do
    let rs ← fromScalarArrays a cs
    .ok (.vec cls rs)
  | .func i o => do
    let i' ← fromScalarArray a i
    let o' ← fromScalarArray a o
    .ok (.func i' o')
/-- The components of the result. -/
def fromScalarArrays (a : Arr α) : List (String × Arr γ) → R (List (String × Arr α))
  | [] => .ok []
  | (c, v) :: cs => do
    let r ← fromScalarArray a v
    let rs ← fromScalarArrays a cs
    .ok ((c, r) :: rs)
end

mutual
/-- `na.nominal(a)`: scalars and numbers are returned as they are, since no implementation answers.
Models `/repo/named_arrays/_scalars/uncertainties/uncertainties.py` lines 117-138,
`/repo/named_arrays/_scalars/uncertainties/uncertainties_named_array_functions.py` lines 42-46,
`/repo/named_arrays/_vectors/vector_named_array_functions.py` lines 225-236 and
`/repo/named_arrays/_functions/function_named_array_functions.py` lines 180-188. -/
def nominal : Arr α → Arr α
  | .num x => .num x
  | .sa a => .sa a
  | .ua u => .sa u.nominal
  | .vec cls cs => .vec cls (nominals cs)
  | .func i o => .func (nominal i) (nominal o)
/-- The components of the result. -/
def nominals : List (String × Arr α) → List (String × Arr α)
  | [] => []
  | (c, v) :: cs => (c, nominal v) :: nominals cs
end

/-- `np.zeros_like(a, shape=shape)` of a scalar, with `z` for the zero.
Models `/repo/named_arrays/_scalars/scalar_array_functions.py` lines 117-137. -/
def scalarLike (z : β) (shape : Option Shape) (a : SA α) : R (SA β) :=
  let shape := shape.getD a.shape
  SA.mk? ⟨values shape, fun _ => z⟩ (keys shape)

mutual
/-- `np.zeros_like(a, shape=shape)`, with `z` for the zero; `np.ones_like` likewise.  A number counts as a
scalar without axes.  Numpy raises a `TypeError` for functions, which do not implement these operations.
Models `/repo/named_arrays/_scalars/scalar_array_functions.py` lines 117-137,
`/repo/named_arrays/_scalars/uncertainties/uncertainties_array_functions.py` lines 46-76,
`/repo/named_arrays/_vectors/vector_array_functions.py` lines 93-112 and
`/repo/named_arrays/_functions/functions.py` lines 805-836. -/
def createLike (z : β) (shape : Option Shape) : Arr α → R (Arr β)
  | .num x => do
    let r ← scalarLike z shape (SA.scalar x)
    .ok (.sa r)
  | .sa a => do
    let r ← scalarLike z shape a
    .ok (.sa r)
  | .ua u => do
    let shapeD ← match shape with
      | none => Except.ok none
      | some s =>
        match get? u.distribution.shape axisD with
        | some k => Except.ok (some (s.set axisD k))
        | none => Except.error Err.keyError
    let n ← scalarLike z shape u.nominal
    let d ← scalarLike z shapeD u.distribution
    let r ← UA.mk? n d
    .ok (.ua r)
  | .vec cls cs => do
    let rs ← createLikes z shape cs
    .ok (.vec cls rs)
  | .func _ _ => .error .typeError
/-- The components of the result. -/
def createLikes (z : β) (shape : Option Shape) : List (String × Arr α) → R (List (String × Arr β))
  | [] => .ok []
  | (c, v) :: cs => do
    let r ← createLike z shape v
    let rs ← createLikes z shape cs
    .ok ((c, r) :: rs)
end

end Arr
end NA
