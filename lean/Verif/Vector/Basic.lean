import Verif.Scalar.Basic
import Verif.Scalar.Index

/-!
# Vectors

Model of `/repo/named_arrays/_vectors/vectors.py` and
`/repo/named_arrays/_vectors/cartesian/vectors_cartesian.py`.

A vector is a tree: its components are scalars (leaves) or again vectors.  The leaf type is a
parameter: named arrays `SA α` in the program, plain numbers when one named index is looked at.
-/

namespace NA

/-- A vector component: a scalar, or a vector with the name of its abstract type (`type_abstract`) and
its `components` (a `dict`, in insertion order).
Models `/repo/named_arrays/_vectors/vectors.py` lines 608-614.  Explicit and implicit vectors are not
distinguished: an implicit vector is represented by its `explicit` value. -/
inductive Comp (α : Type) where
  | leaf (a : α)
  | node (cls : String) (cs : List (String × Comp α))

namespace Comp
variable {α β γ δ : Type}

/-! ### Elementwise operations -/

mutual
/-- An operation with one array argument, applied to each component.  Models
`/repo/named_arrays/_vectors/cartesian/vectors_cartesian.py` lines 88-164 for one input without `out`
and `where`. -/
def mapM (f : α → R β) : Comp α → R (Comp β)
  | .leaf a => do .ok (.leaf (← f a))
  | .node cls cs => do .ok (.node cls (← mapML f cs))
/-- The loop over the components. -/
def mapML (f : α → R β) : List (String × Comp α) → R (List (String × Comp β))
  | [] => .ok []
  | (k, c) :: l => do
    let c' ← c.mapM f
    .ok ((k, c') :: (← mapML f l))
end

mutual
/-- `AbstractCartesianVectorArray.__array_ufunc__` for two inputs: a scalar input is given to every
component, vectors must have the same abstract type (otherwise `NotImplemented`, which numpy turns into
`TypeError`), and for every component of the first vector the component of the second one is looked
up by name.
Models `/repo/named_arrays/_vectors/cartesian/vectors_cartesian.py` lines 88-164 without `out` and
`where`.  (numpy calls the method of the first vector among the inputs.) -/
def ufunc2 (f : α → β → R γ) : Comp α → Comp β → R (Comp γ)
  | .leaf a, .leaf b => do .ok (.leaf (← f a b))
  | .leaf a, .node cls cs => do .ok (.node cls (← mapML (f a) cs))
  | .node cls cs, .leaf b => do .ok (.node cls (← mapML (fun a => f a b) cs))
  | .node cls cs, .node cls' cs' =>
    if cls = cls' then do .ok (.node cls (← ufunc2L f cs cs')) else .error .typeError
/-- The loop over the components. -/
def ufunc2L (f : α → β → R γ) : List (String × Comp α) → List (String × Comp β) → R (List (String × Comp γ))
  | [], _ => .ok []
  | (k, c) :: l, l' =>
    match Dict.get? l' k with
    | none => .error .keyError
    | some c' => do
      let r ← c.ufunc2 f c'
      .ok ((k, r) :: (← ufunc2L f l l'))
end

mutual
/-- `vector.shape`: the broadcast of the shapes of the components.
Models `/repo/named_arrays/_vectors/vectors.py` lines 620-622. -/
def shape : Comp (SA α) → R Shape
  | .leaf a => .ok a.shape
  | .node _ cs => do broadcastShapes (← shapes cs)
/-- The shapes of the components. -/
def shapes : List (String × Comp (SA α)) → R (List Shape)
  | [] => .ok []
  | (_, c) :: l => do
    let s ← c.shape
    .ok (s :: (← shapes l))
end

/-- `vector[item]` for a dictionary of integers, slices, `None` and scalar arrays: each component is
indexed (a component which is a plain number is not changed; it is a 0-dimensional array here).
Models `/repo/named_arrays/_vectors/vectors.py` lines 279-347, for items which are not vectors.  The
shape of the vector is computed first (which raises if the components are incompatible). -/
def getitem (item : Dict IndexVal) (v : Comp (SA α)) : R (Comp (SA α)) := do
  let _ ← v.shape
  v.mapM (fun a => a.getitem item)

/-- `na.broadcast_to(vector, shape, append)`: each component is broadcast.
Models `/repo/named_arrays/_vectors/vector_named_array_functions.py` lines 185-202. -/
def broadcastTo (shape : Shape) (append : Bool := false) : Comp (SA α) → R (Comp (SA α)) :=
  mapM (fun a => a.broadcastTo shape append)

/-! ### Flattening -/

mutual
/-- The entries which the component `k` contributes to `cartesian_nd`. -/
def entriesOf (k : String) : Comp α → List (String × α)
  | .leaf a => [(k, a)]
  | .node _ cs => (Dict.union [] (entries cs)).map (fun p => (k ++ "." ++ p.1, p.2))
/-- The sequence of all assignments `components_new[...] = ...` of `cartesian_nd`. -/
def entries : List (String × Comp α) → List (String × α)
  | [] => []
  | (k, c) :: l => c.entriesOf k ++ entries l
end

/-- The components of `vector.cartesian_nd`: nested components are flattened and their names joined
with a dot.  Models `/repo/named_arrays/_vectors/vectors.py` lines 106-123. -/
def cartesianNd (cs : List (String × Comp α)) : Dict α := Dict.union [] (entries cs)

/-- `k.startswith(p)` -/
def startsWith (k p : String) : Bool := p.toList.isPrefixOf k.toList

/-- `{k[len(m):]: v for k, v in nd.items() if k.startswith(m)}` with `m = f"{c}."`.
Models `/repo/named_arrays/_vectors/vectors.py` lines 595-596. -/
def subDict (c : String) (nd : Dict β) : Dict β :=
  Dict.union [] ((nd.filter (fun p => startsWith p.1 (c ++ "."))).map
    (fun p => (String.ofList (p.1.toList.drop (c ++ ".").length), p.2)))

mutual
/-- One component of `from_cartesian_nd(array, like)`.  The parameter `h` says what is done with an
entry of `array` (nothing for vectors; for matrices, the entry is a row which is converted, too).
Models `/repo/named_arrays/_vectors/vectors.py` lines 591-604 and
`/repo/named_arrays/_matrices/matrices.py` lines 361-378. -/
def fromNd (h : γ → β → R δ) (k : String) : Comp γ → Dict β → R (Comp δ)
  | .leaf l, nd =>
    match Dict.get? nd k with
    | none => .error .keyError
    | some v => do .ok (.leaf (← h l v))
  | .node cls cs, nd => do .ok (.node cls (← fromNdL h cs (subDict k nd)))
/-- `from_cartesian_nd(array, like)`, on the components.
Models `/repo/named_arrays/_vectors/vectors.py` lines 566-606. -/
def fromNdL (h : γ → β → R δ) : List (String × Comp γ) → Dict β → R (List (String × Comp δ))
  | [], _ => .ok []
  | (k, c) :: l, nd => do
    let c' ← c.fromNd h k nd
    .ok ((k, c') :: (← fromNdL h l nd))
end

/-- `from_cartesian_nd(array, like)` of vectors.
Models `/repo/named_arrays/_vectors/vectors.py` lines 566-606. -/
def fromCartesianNd (nd : Dict β) (like : List (String × Comp γ)) : R (List (String × Comp β)) :=
  fromNdL (fun _ v => .ok v) like nd

/-! ### Specification vocabulary -/

mutual
/-- Every level is a genuine `dict` and no name contains a dot (component names are the names of the
fields of a python class, except for `CartesianNdVectorArray`). -/
def Named : Comp α → Prop
  | .leaf _ => True
  | .node _ cs => Dict.WF cs ∧ NamedL cs
/-- ... for all components. -/
def NamedL : List (String × Comp α) → Prop
  | [] => True
  | (k, c) :: l => '.' ∉ k.toList ∧ c.Named ∧ NamedL l
end

mutual
/-- The number of scalars in a vector. -/
def numLeaves : Comp α → Nat
  | .leaf _ => 1
  | .node _ cs => numLeavesL cs
/-- ... of all components. -/
def numLeavesL : List (String × Comp α) → Nat
  | [] => 0
  | (_, c) :: l => c.numLeaves + numLeavesL l
end

/-- The scalar at a path of component names, when there is exactly one there. -/
def leafAt : Comp α → List String → Option α
  | .leaf a, [] => some a
  | .leaf _, _ :: _ => none
  | .node _ _, [] => none
  | .node _ cs, k :: p => match Dict.get? cs k with
    | none => none
    | some c => c.leafAt p

/-- Induction over components. -/
theorem ind {P : Comp α → Prop} (h1 : ∀ a, P (.leaf a))
    (h2 : ∀ cls cs, (∀ p ∈ cs, P p.2) → P (.node cls cs)) : ∀ x, P x
  | .leaf a => h1 a
  | .node cls cs => h2 cls cs (fun p _hp => ind h1 h2 p.2)
termination_by x => sizeOf x
decreasing_by
  have := List.sizeOf_lt_of_mem _hp
  cases p
  simp at *
  omega

end Comp
end NA
