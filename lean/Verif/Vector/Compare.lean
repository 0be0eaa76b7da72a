import Verif.Vector.Reduce
import Verif.Scalar.Join
import Verif.Scalar.Reduce
import Verif.Uncertain.Basic

/-!
# Comparing vectors and uncertain scalars as a whole, nonzero elements of vectors

Model of `/repo/named_arrays/_vectors/vector_array_functions.py` lines 736-850,
`/repo/named_arrays/_scalars/scalar_array_functions.py` lines 879-908 and
`/repo/named_arrays/_scalars/uncertainties/uncertainties_array_functions.py` lines 803-886.
-/

namespace NA
open Dict

/-- `np.allclose` (numpy): `np.all(np.isclose(a, b))`; `close` stands for `isclose` with the given tolerances. -/
def ND.allclose {α : Type} (close : α → α → Bool) (a b : ND α) : R Bool := do
  let s ← ND.bshape a.shape b.shape
  .ok ((ndIndices s).all (fun i => close (a.get (clipIdx a.shape i)) (b.get (clipIdx b.shape i))))

/-- `np.allclose(a, b)` for scalars.
Models `/repo/named_arrays/_scalars/scalar_array_functions.py` lines 879-908; a number is an array without axes. -/
def SA.allclose {α : Type} (close : α → α → Bool) (a b : SA α) : R Bool := do
  let shape ← broadcastShapes [a.shape, b.shape]
  let v ← a.aligned shape.keys
  let w ← b.aligned shape.keys
  ND.allclose close v w

namespace Comp
variable {α β : Type}

mutual
/-- `np.array_equal`/`np.array_equiv` of vectors, nested to any depth; `scalars` compares two scalars.
The types are compared first, then the components of the first vector with those of the second vector of the same name, as long as
the result is true (`result and ...`).
Models `/repo/named_arrays/_vectors/vector_array_functions.py` lines 758-800.  For a vector and a scalar the types are different; for a scalar
and a vector the method of the scalar is called first, `mixed`. -/
def equal (scalars : α → β → R Bool) (mixed : α → Comp β → R Bool) : Comp α → Comp β → R Bool
  | .leaf a, .leaf b => scalars a b
  | .leaf a, .node cls cs => mixed a (.node cls cs)
  | .node _ _, .leaf _ => .ok false
  | .node cls cs, .node cls' cs' => if cls = cls' then equalL scalars mixed cs cs' else .ok false
/-- The loop over the components of the first vector. -/
def equalL (scalars : α → β → R Bool) (mixed : α → Comp β → R Bool) : List (String × Comp α) → List (String × Comp β) → R Bool
  | [], _ => .ok true
  | (k, c) :: l, l' => match get? l' k with
    | none => .error .keyError
    | some c' => do
      let r ← equal scalars mixed c c'
      if r then equalL scalars mixed l l' else .ok false
end

/-- `np.array_equal(v, w)`.  For a scalar and a vector the scalar looks for the `ndarray` of the vector, `AttributeError`.
Models `/repo/named_arrays/_vectors/vector_array_functions.py` lines 758-779 and
`/repo/named_arrays/_scalars/scalar_array_functions.py` lines 854-864. -/
def arrayEqual [DecidableEq α] : Comp (SA α) → Comp (SA α) → R Bool :=
  equal (fun a b => .ok (SA.arrayEqual a b)) (fun _ _ => .error .other)

/-- `np.array_equiv(v, w)`.  For a scalar and a vector the scalar looks for `ndarray_aligned` of the vector, `AttributeError`, if the
shapes broadcast.
Models `/repo/named_arrays/_vectors/vector_array_functions.py` lines 782-800 and
`/repo/named_arrays/_scalars/scalar_array_functions.py` lines 867-876. -/
def arrayEquiv [DecidableEq α] : Comp (SA α) → Comp (SA α) → R Bool :=
  equal SA.arrayEquiv (fun a c => do
    let s ← c.shape
    let _ ← broadcastShapes [a.shape, s]
    .error .other)

mutual
/-- `np.allclose(a, w)` for a scalar and a vector (or, in the loop over the components, a scalar): the method of the scalar broadcasts the shapes
before it returns `NotImplemented`.
Models `/repo/named_arrays/_scalars/scalar_array_functions.py` lines 879-900 and
`/repo/named_arrays/_vectors/vector_array_functions.py` lines 819-838. -/
def closeLeft (close : α → α → Bool) (a : SA α) : Comp (SA α) → R Bool
  | .leaf b => SA.allclose close a b
  | .node cls cs => do
    let s ← (Comp.node cls cs).shape
    let _ ← broadcastShapes [a.shape, s]
    closeLeftL close a cs
/-- The loop over the components: `result * np.allclose(...)`. -/
def closeLeftL (close : α → α → Bool) (a : SA α) : List (String × Comp (SA α)) → R Bool
  | [] => .ok true
  | (_, c) :: l => do
    let r ← closeLeft close a c
    let r' ← closeLeftL close a l
    .ok (r && r')
end

mutual
/-- `np.allclose(v, w)` of vectors and scalars, nested to any depth.
Models `/repo/named_arrays/_vectors/vector_array_functions.py` lines 803-838. -/
def allclose (close : α → α → Bool) : Comp (SA α) → Comp (SA α) → R Bool
  | .leaf a, .leaf b => SA.allclose close a b
  | .leaf a, .node cls cs => closeLeft close a (.node cls cs)
  | .node _ cs, .leaf b => allcloseL close cs (cs.map (fun p => (p.1, .leaf b)))
  | .node cls cs, .node cls' cs' => if cls = cls' then allcloseL close cs cs' else .error .typeError
/-- The loop over the components of the first vector: `result * np.allclose(...)`. -/
def allcloseL (close : α → α → Bool) : List (String × Comp (SA α)) → List (String × Comp (SA α)) → R Bool
  | [], _ => .ok true
  | (k, c) :: l, l' => match get? l' k with
    | none => .error .keyError
    | some c' => do
      let r ← allclose close c c'
      let r' ← allcloseL close l l'
      .ok (r && r')
end

/-- `components_accumulated = True; for c in components: components_accumulated = components_accumulated & components[c]`.
Models `/repo/named_arrays/_vectors/vector_array_functions.py` lines 846-848. -/
def accumulated (one : α) (and2 : α → α → α) (cs : List (String × Comp (SA α))) : R (Comp (SA α)) :=
  cs.foldlM (fun acc p => ufunc2 (SA.ufunc2 and2) acc p.2) (.leaf (SA.scalar one))

/-- `np.nonzero(v)` of a vector; `one` is `True`, `and2` is the operator `&`.
Models `/repo/named_arrays/_vectors/vector_array_functions.py` lines 841-850.  The accumulated array of a nested vector is again a vector; the
recursion is on the nesting depth. -/
def nonzeroAux (isNonzero : α → Bool) (one : α) (and2 : α → α → α) : Nat → Comp (SA α) → R (Dict (SA Int))
  | 0, _ => .error .other
  | _ + 1, .leaf a => a.nonzero isNonzero
  | n + 1, .node _ cs => do nonzeroAux isNonzero one and2 n (← accumulated one and2 cs)

/-- `np.nonzero(v)`; see `nonzeroAux`. -/
def nonzero (isNonzero : α → Bool) (one : α) (and2 : α → α → α) (v : Comp (SA α)) : R (Dict (SA Int)) :=
  nonzeroAux isNonzero one and2 v.depth v

/-- `np.unravel_index(v, shape)` of a vector: the dictionary of the result has the axes of the indices for keys (`result[ax][c] = ...` raises
`KeyError` for other axes).
Models `/repo/named_arrays/_vectors/vector_array_functions.py` lines 736-755.  Components which are not assigned (of axes which `shape` does
not have) have their default value; they are left out here.  The recursion is on the nesting depth. -/
def unravelIndexAux (shape : Shape) : Nat → Comp (SA Nat) → R (Dict (Comp (SA Int)))
  | 0, _ => .error .other
  | _ + 1, .leaf a => do
    let d ← a.unravelIndex shape
    .ok (d.map (fun p => (p.1, .leaf p.2)))
  | n + 1, .node cls cs => do
    let s ← (Comp.node cls cs).shape
    let ds ← cs.mapM (fun p => do
      let d ← unravelIndexAux shape n p.2
      if d.keys ⊆ s.keys then .ok (p.1, d) else .error .keyError)
    .ok (s.keys.map (fun ax => (ax, .node cls (ds.filterMap (fun p => (get? p.2 ax).map (fun r => (p.1, r)))))))

/-- `np.unravel_index(v, shape)`; see `unravelIndexAux`. -/
def unravelIndex (v : Comp (SA Nat)) (shape : Shape) : R (Dict (Comp (SA Int))) := unravelIndexAux shape v.depth v

end Comp

namespace UA
variable {α : Type}

/-- `np.array_equal(a, b)` of uncertain scalars.
Models `/repo/named_arrays/_scalars/uncertainties/uncertainties_array_functions.py` lines 803-819. -/
def arrayEqual [DecidableEq α] (a b : UA α) : Bool :=
  SA.arrayEqual a.nominal b.nominal && SA.arrayEqual a.distribution b.distribution

/-- `np.array_equiv(a, b)` of uncertain scalars.
Models `/repo/named_arrays/_scalars/uncertainties/uncertainties_array_functions.py` lines 822-835. -/
def arrayEquiv [DecidableEq α] (a b : UA α) : R Bool := do
  let n ← SA.arrayEquiv a.nominal b.nominal
  let d ← SA.arrayEquiv a.distribution b.distribution
  .ok (n && d)

/-- `np.allclose(a, b)` of scalars, at least one of them uncertain.
Models `/repo/named_arrays/_scalars/uncertainties/uncertainties_array_functions.py` lines 838-886. -/
def allclose (close : α → α → Bool) (a b : UArg α) : R Bool := do
  let n ← SA.allclose close a.nominal b.nominal
  let d ← SA.allclose close a.distribution b.distribution
  .ok (n && d)

end UA
end NA
