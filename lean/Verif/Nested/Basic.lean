import Verif.Vector.Basic

/-!
# Nested structures: `na.getitem`, `na.shape`, `na.pack` and `na.unpack`

Model of `/repo/named_arrays/_core.py` lines 326-586 and `/repo/named_arrays/_named_array_functions.py` lines 539-583.
-/

namespace NA

/-- The python containers which are traversed. -/
inductive Box where
  | dict
  | list
  | tuple
  /-- a `typing.NamedTuple` -/
  | namedTuple (cls : String)
  /-- an instance of a dataclass -/
  | dataclass (cls : String)
  deriving DecidableEq

/-- A nested structure: an array leaf, a container with its elements, or any other value.  The elements carry their key or the
name of the field (nothing for lists and tuples).  All fields of a dataclass are taken to be `init` fields. -/
inductive Nest (κ L V : Type) where
  | arr (a : L)
  | node (kind : κ) (cs : List (String × Nest κ L V))
  | other (x : V)

namespace Nest
variable {κ L L' V K U : Type}

/-! ### `na.getitem` and `na.shape` -/

/-- The container which `na.getitem` builds: a `NamedTuple` becomes a `tuple`. -/
def rebuilt : Box → Box
  | .namedTuple _ => .tuple
  | b => b

mutual
/-- `na.getitem(a, item)`; the parameter is `lambda leaf: leaf[item]`.
Models `/repo/named_arrays/_core.py` lines 374-398. -/
def getitem (f : L → R L) : Nest Box L V → R (Nest Box L V)
  | .arr a => do .ok (.arr (← f a))
  | .node b cs => do .ok (.node (rebuilt b) (← getitemL f cs))
  | .other x => .ok (.other x)
/-- ... for all elements -/
def getitemL (f : L → R L) : List (String × Nest Box L V) → R (List (String × Nest Box L V))
  | [] => .ok []
  | (k, c) :: l => do
    let c' ← c.getitem f
    .ok ((k, c') :: (← getitemL f l))
end

mutual
/-- `na.shape(a)`; the parameter is the shape of an array leaf.  Other leaves are taken to be 0-dimensional (numbers, strings,
`None`): their shape is empty.
Models `/repo/named_arrays/_named_array_functions.py` lines 571-583. -/
def shape (f : L → R Shape) : Nest Box L V → R Shape
  | .arr a => f a
  | .node _ cs => do broadcastShapes (← shapes f cs)
  | .other _ => .ok []
/-- ... of all elements -/
def shapes (f : L → R Shape) : List (String × Nest Box L V) → R (List Shape)
  | [] => .ok []
  | (_, c) :: l => do
    let s ← c.shape f
    .ok (s :: (← shapes f l))
end

end Nest

/-! ### `na.pack` and `na.unpack` -/

/-- A complex number; integers, booleans and floats have imaginary part zero.  The `dtype` of an array is not modelled. -/
structure Cx (K : Type) where
  re : K
  im : K
  deriving DecidableEq

/-- A number, array or `Quantity` without axis names. -/
inductive PyKind where
  | bool
  | int
  | float
  | complex
  /-- `np.ndarray` or `Quantity`, of any dimension -/
  | array
  deriving DecidableEq

/-- The leaves which `pack` looks at. -/
inductive PLeaf (K U : Type) where
  /-- a scalar array and its unit -/
  | named (unit : Option U) (a : SA (Cx K))
  /-- a number, an `ndarray` or a `Quantity` -/
  | bare (kind : PyKind) (unit : Option U) (a : ND (Cx K))
  /-- a named array which is neither a scalar nor a vector -/
  | unsupported

/-- What `pack` traverses: python containers, and vectors (and matrices) with their components. -/
inductive PackKind where
  | box (b : Box)
  | vector (cls : String)
  deriving DecidableEq

namespace PLeaf
variable {K U : Type}

/-- The chunk of a leaf: the elements in row-major order, without unit, `.astype(float)` (which drops imaginary parts).
Models `/repo/named_arrays/_core.py` lines 452-453, 457-460, 471-472 and 475. -/
def pack : PLeaf K U → R (List K)
  | .named _ a => .ok (a.nd.toList.map Cx.re)
  | .bare _ _ a => .ok (a.toList.map Cx.re)
  | .unsupported => .error .notImplemented

/-- `np.reshape(chunk, shape)` of a one-dimensional array. -/
def reshapeList [Zero K] (chunk : List K) (shape : List Nat) : R (ND (Cx K)) :=
  if chunk.length = shape.prod then
    .ok (ND.ofList shape (chunk.map (fun x => ⟨x, 0⟩)) ⟨0, 0⟩)
  else .error .valueError

/-- `type(p)(chunk)` for python numbers; `trunc` is the conversion to `int`. -/
def restore [Zero K] [One K] [DecidableEq K] (trunc : K → K) : PyKind → K → Cx K
  | .bool, x => ⟨if x = 0 then 0 else 1, 0⟩
  | .int, x => ⟨trunc x, 0⟩
  | _, x => ⟨x, 0⟩

/-- One leaf of `unpack`: the first elements of the remaining list are used up.
Models `/repo/named_arrays/_core.py` lines 533-540, 547-550 and 564-576. -/
def unpack [Zero K] [One K] [DecidableEq K] (trunc : K → K) (flat : List K) : PLeaf K U → R (PLeaf K U × List K)
  | .named unit a => do
    let num := a.shape.values.prod
    let chunk ← reshapeList (flat.take num) a.shape.values
    .ok (.named unit (← SA.mk? chunk a.shape.keys), flat.drop num)
  | .bare kind unit a => do
    let num := a.shape.prod
    let chunk := flat.take num
    if a.shape.isEmpty then
      match chunk with
      | [] => .error .indexError
      | x :: _ => .ok (.bare kind unit (ND.scalar (restore trunc kind x)), flat.drop num)
    else .ok (.bare kind unit (← reshapeList chunk a.shape), flat.drop num)
  | .unsupported => .error .notImplemented

end PLeaf

/-- What `pack` and `unpack` work on. -/
abbrev PNest (K U V : Type) := Nest PackKind (PLeaf K U) V

namespace Nest
variable {V K U : Type}

mutual
/-- `na.pack(a).ndarray`.
Models `/repo/named_arrays/_core.py` lines 449-476. -/
def pack : PNest K U V → R (List K)
  | .arr a => a.pack
  | .node _ cs => packL cs
  | .other _ => .ok []
/-- ... of all elements -/
def packL : List (String × PNest K U V) → R (List K)
  | [] => .ok []
  | (_, c) :: l => do
    let x ← c.pack
    .ok (x ++ (← packL l))
end

/-- Can the container be built from its new elements by `type(p)(elements)`?  A `NamedTuple` cannot.  (A `NamedTuple` with a
single field would take the generator of the elements as the value of this field, so that no element of the flat array is
used; this ends with `ValueError` unless the field contains no numbers.)  The keys and the names of the fields stay.  A vector
is rebuilt from its components by name: it is taken to list its components in the order of the fields of its class.
Models `/repo/named_arrays/_core.py` lines 541-546 and 551-563. -/
def checkBuild (kind : PackKind) (n : Nat) : R Unit :=
  match kind with
  | .box (.namedTuple _) => if n = 1 then .error .valueError else .error .typeError
  | _ => .ok ()

mutual
/-- `visit(p)` of `unpack`; the list is `flat[position:]`.
Models `/repo/named_arrays/_core.py` lines 531-578. -/
def unpackFrom [Zero K] [One K] [DecidableEq K] (trunc : K → K) (flat : List K) : PNest K U V → R (PNest K U V × List K)
  | .arr a => do
    let r ← a.unpack trunc flat
    .ok (.arr r.1, r.2)
  | .node kind cs => do
    let _ ← checkBuild kind cs.length
    let r ← unpackFromL trunc flat cs
    .ok (.node kind r.1, r.2)
  | .other x => .ok (.other x, flat)
/-- ... of all elements -/
def unpackFromL [Zero K] [One K] [DecidableEq K] (trunc : K → K) (flat : List K) :
    List (String × PNest K U V) → R (List (String × PNest K U V) × List K)
  | [] => .ok ([], flat)
  | (k, c) :: l => do
    let r ← c.unpackFrom trunc flat
    let s ← unpackFromL trunc r.2 l
    .ok ((k, r.1) :: s.1, s.2)
end

/-- `na.unpack(flat, prototype)`.
Models `/repo/named_arrays/_core.py` lines 525-586. -/
def unpack [Zero K] [One K] [DecidableEq K] (trunc : K → K) (flat : List K) (prototype : PNest K U V) : R (PNest K U V) := do
  let r ← prototype.unpackFrom trunc flat
  if r.2.isEmpty then .ok r.1 else .error .valueError

end Nest
end NA
