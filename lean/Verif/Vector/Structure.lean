import Verif.Vector.Reduce
import Verif.Scalar.Join

/-!
# Rearranging vectors

Model of the functions of `/repo/named_arrays/_vectors/vector_array_functions.py` which rearrange, join and select
components.
-/

namespace NA
open Dict
namespace Comp
variable {α β γ δ : Type}

/-- The abstract type and the names of the components of the first vector among the arguments.
Models `/repo/named_arrays/_vectors/vectors.py` lines 39-44 and
`/repo/named_arrays/_vectors/vector_array_functions.py` lines 564-567. -/
def prototype : List (Comp γ) → Option (String × List String)
  | [] => none
  | .leaf _ :: l => prototype l
  | .node cls cs :: _ => some (cls, keys cs)

/-- A scalar (which will be used for every component), or a vector of the given abstract type.
Models `/repo/named_arrays/_vectors/vectors.py` lines 47-64 and
`/repo/named_arrays/_vectors/vector_array_functions.py` lines 569-572. -/
def isOfType (cls : String) : Comp γ → Bool
  | .leaf _ => true
  | .node cls' _ => cls' = cls

/-- `a.components[k]` where scalars were converted by `from_scalar(a, like=prototype)`.
Models `/repo/named_arrays/_vectors/vectors.py` lines 550-564. -/
def component (k : String) : Comp γ → R (Comp γ)
  | .leaf a => .ok (.leaf a)
  | .node _ cs =>
    match get? cs k with
    | none => .error .keyError
    | some c => .ok c

/-- The scalars among the arguments. -/
def scalars : List (Comp γ) → List γ
  | [] => []
  | .leaf a :: l => a :: scalars l
  | .node _ _ :: l => scalars l

/-- The common scheme of functions of vectors: the vectors must have the same abstract type (otherwise
`NotImplemented`, which becomes a `TypeError`), each argument is prepared (broadcast), and the same function is called
on the components of each name, which may be vectors again.
The recursion is on the nesting depth, so that the first case is not reached from `nary`. -/
def naryAux (prep : Comp γ → R (Comp γ)) (op : List γ → R δ) : Nat → List (Comp γ) → R (Comp δ)
  | 0, _ => .error .other
  | n + 1, vs =>
    match prototype vs with
    | none => do .ok (.leaf (← op (scalars vs)))
    | some (cls, names) =>
      if vs.all (isOfType cls) then do
        let vs ← vs.mapM prep
        let rs ← names.mapM (fun k => do
          let ws ← vs.mapM (component k)
          let r ← naryAux prep op n ws
          .ok (k, r))
        .ok (.node cls rs)
      else .error .typeError

/-- The largest nesting depth of the arguments. -/
def maxDepth : List (Comp γ) → Nat
  | [] => 1
  | c :: l => max c.depth (maxDepth l)

/-- See `naryAux`. -/
def nary (prep : Comp γ → R (Comp γ)) (op : List γ → R δ) (vs : List (Comp γ)) : R (Comp δ) :=
  naryAux prep op (maxDepth vs) vs

/-- A function of one argument. -/
def single (op : γ → R δ) : List γ → R δ
  | [a] => op a
  | _ => .error .other

/-- `vector.broadcasted`: every component gets the shape of the vector.
Models `/repo/named_arrays/_core.py` lines 678-686. -/
def broadcasted (v : Comp (SA α)) : R (Comp (SA α)) := do
  let s ← v.shape
  v.broadcastTo s

/-- `na.broadcast_to(v, {axis: v.shape[axis]}, append=True)`, with the error `err` if the vector does not have this axis. -/
def alongAxis (err : Err) (axis : String) (v : Comp (SA α)) : R (Comp (SA α)) := do
  let s ← v.shape
  match s.get? axis with
  | none => .error err
  | some n => v.broadcastTo [(axis, n)] true

/-- `np.transpose(v, axes)`.
Models `/repo/named_arrays/_vectors/vector_array_functions.py` lines 507-514. -/
def transpose (v : Comp (SA α)) (axes : Option (List String)) : R (Comp (SA α)) :=
  nary broadcasted (single (fun a => a.transpose axes)) [v]

/-- `np.reshape(v, shape)`.
Models `/repo/named_arrays/_vectors/vector_array_functions.py` lines 548-551. -/
def reshape (v : Comp (SA α)) (shape : Shape) : R (Comp (SA α)) :=
  nary broadcasted (single (fun a => a.reshape shape)) [v]

/-- `np.repeat(v, repeats, axis)`.
Models `/repo/named_arrays/_vectors/vector_array_functions.py` lines 950-967. -/
def repeat' (v : Comp (SA α)) (repeats : SA Nat) (axis : String) : R (Comp (SA α)) :=
  nary broadcasted (single (fun a => a.repeat' repeats axis)) [v]

/-- `np.diff(v, axis, n)` without `prepend` and `append`.
Models `/repo/named_arrays/_vectors/vector_array_functions.py` lines 970-1001. -/
def diff (sub : α → α → α) (v : Comp (SA α)) (axis : String) (n : Nat) : R (Comp (SA α)) :=
  nary broadcasted (single (fun a => a.diff sub axis n none none)) [v]

/-- `np.cumsum(v, axis)` and `np.cumprod(v, axis)` along one axis, without `out`.
Models `/repo/named_arrays/_vectors/vector_array_functions.py` lines 216-264. -/
def cumulative (f : List α → α) (v : Comp (SA α)) (axis : String) : R (Comp (SA α)) :=
  nary (alongAxis .keyError axis) (single (fun a => a.cumulative f (some [axis]) none)) [v]

/-- `np.take_along_axis(v, indices, axis)` for a scalar array of indices.
Models `/repo/named_arrays/_vectors/vector_array_functions.py` lines 701-733. -/
def takeAlongAxis (v : Comp (SA α)) (indices : SA Int) (axis : String) : R (Comp (SA α)) :=
  nary (alongAxis .valueError axis) (single (fun a => a.takeAlongAxis indices axis)) [v]

/-- `np.stack(vs, axis)` for vectors and scalars, without `out`.
Models `/repo/named_arrays/_vectors/vector_array_functions.py` lines 554-618 for `np.stack`. -/
def stack (vs : List (Comp (SA α))) (axis : String) : R (Comp (SA α)) :=
  nary .ok (fun as => SA.stack as axis) vs

/-- `np.concatenate(vs, axis)` for vectors and scalars, without `out`.
Models `/repo/named_arrays/_vectors/vector_array_functions.py` lines 554-618 for `np.concatenate`.  The code looks for the axis
in all the arguments before it broadcasts the first one; all the failures are `ValueError`s. -/
def concatenate (vs : List (Comp (SA α))) (axis : String) : R (Comp (SA α)) :=
  nary (alongAxis .valueError axis) (fun as => SA.concatenate as axis) vs

/-- `np.where` of scalar arrays, with the condition first. -/
def whereScalars (dflt : α) : List (SA Bool ⊕ SA α) → R (SA α)
  | [.inl c, .inr x, .inr y] => SA.where' dflt c x y
  | _ => .error .other

/-- `np.where(condition, x, y)` for vectors and scalars, at least one of them a vector.
Models `/repo/named_arrays/_vectors/vector_array_functions.py` lines 853-879. -/
def where' (dflt : α) (condition : Comp (SA Bool)) (x y : Comp (SA α)) : R (Comp (SA α)) := do
  let c ← condition.mapM (fun a => .ok (.inl a))
  let x ← x.mapM (fun a => .ok (.inr a))
  let y ← y.mapM (fun a => .ok (.inr a))
  nary .ok (whereScalars dflt) [c, x, y]

mutual
/-- `np.moveaxis(v, source, destination)`: renames axes; every component gets only the axes it has.
Models `/repo/named_arrays/_vectors/vector_array_functions.py` lines 517-545. -/
def moveaxis (source destination : List String) : Comp (SA α) → R (Comp (SA α))
  | .leaf a => do .ok (.leaf (← a.moveaxis source destination))
  | .node cls cs => do
    let s ← broadcastShapes (← shapes cs)
    if source.all (· ∈ s.keys) then do .ok (.node cls (← moveaxisL source destination cs))
    else .error .valueError
/-- The loop over the components. -/
def moveaxisL (source destination : List String) : List (String × Comp (SA α)) → R (List (String × Comp (SA α)))
  | [] => .ok []
  | (k, c) :: l => do
    let shapeC ← c.shape
    let c' ← c.moveaxis (((source.zip destination).filter (fun p => p.1 ∈ shapeC.keys)).map Prod.fst)
      (((source.zip destination).filter (fun p => p.1 ∈ shapeC.keys)).map Prod.snd)
    .ok ((k, c') :: (← moveaxisL source destination l))
end

end Comp
end NA
