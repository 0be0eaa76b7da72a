import Verif.Vector.Reduce
import Verif.Scalar.Reduce

/-!
# Indexing with vectors of index arrays, and sorting permutations of vectors

Model of `/repo/named_arrays/_vectors/vectors.py` lines 279-361 (dictionaries whose values may be vectors),
`/repo/named_arrays/_core.py` lines 1052-1073 and
`/repo/named_arrays/_vectors/vector_array_functions.py` lines 660-698.
-/

namespace NA
open Dict
namespace Comp
variable {α β : Type}

/-- The type of a vector; a scalar, an integer, a slice and `None` have none. -/
def cls? : Comp β → Option String
  | .leaf _ => none
  | .node cls _ => some cls

/-- `item[ax].components[k]`, where what is not a vector is used for each component (`from_scalar`).
Models `/repo/named_arrays/_vectors/vectors.py` lines 308-325 and 335. -/
def itemPart (k : String) : Comp β → R (Comp β)
  | .leaf x => .ok (.leaf x)
  | .node _ cs => match get? cs k with
    | some c => .ok c
    | none => .error .keyError

/-- `{ax: item[ax].components[k] for ax in item}`.
Models `/repo/named_arrays/_vectors/vectors.py` line 335. -/
def itemParts (k : String) (item : Dict (Comp IndexVal)) : R (Dict (Comp IndexVal)) :=
  item.mapM (fun p => do .ok (p.1, ← itemPart k p.2))

/-- The scalar entries of an index. -/
def scalarItem (item : Dict (Comp IndexVal)) : Dict IndexVal :=
  item.filterMap (fun p => match p.2 with
    | .leaf x => some (p.1, x)
    | .node _ _ => none)

/-- The type and the names of the components of a vector. -/
def vectorNames? : Comp β → Option (String × List String)
  | .leaf _ => none
  | .node cls cs => some (cls, Dict.keys cs)

/-- The names of the components of the first vector in the index and its type, if all vectors there have this type.
Models `/repo/named_arrays/_vectors/vectors.py` lines 349-361 with the loop over the index of
`/repo/named_arrays/_core.py` lines 1060-1067: the array is put into each component of the vector (`from_scalar`), which is then indexed. -/
def spreadOver (item : Dict (Comp IndexVal)) : Option (String × List String) :=
  match item.values.findSome? vectorNames? with
  | none => none
  | some (cls, ks) => if item.values.all (fun w => w.cls? = none ∨ w.cls? = some cls) then some (cls, ks) else none

/-- `array[item]` for a scalar or a vector and a dictionary `item` with vectors.
A vector is indexed component by component if all vectors in the index have the type of the vector; a scalar (if one of its axes is indexed
with a vector) or a vector of another type is indexed with each component of the index.  Everything else is `ValueError`.
Models `/repo/named_arrays/_vectors/vectors.py` lines 279-361, `/repo/named_arrays/_scalars/scalars.py` lines 436-454 and
`/repo/named_arrays/_core.py` lines 1052-1073.  The recursion is on a bound for the nesting depths, so that the first case is not reached
from `getitemV`. -/
def getitemVAux : Nat → Comp (SA α) → Dict (Comp IndexVal) → R (Comp (SA α))
  | 0, _, _ => .error .other
  | n + 1, .leaf a, item =>
    if (item.filter (fun p => p.1 ∈ a.axes)).all (fun p => p.2.cls? = none) then do
      .ok (.leaf (← a.getitem (scalarItem (item.filter (fun p => p.1 ∈ a.axes)))))
    else match spreadOver item with
      | some (cls, ks) => do
        let rs ← ks.mapM (fun k => do
          let it ← itemParts k item
          let r ← getitemVAux n (.leaf a) it
          .ok (k, r))
        .ok (.node cls rs)
      | none => .error .valueError
  | n + 1, .node cls cs, item => do
    let _ ← (Comp.node cls cs).shape
    if item.values.all (fun w => w.cls? = none ∨ w.cls? = some cls) then do
      let rs ← cs.mapM (fun p => do
        let it ← itemParts p.1 item
        let r ← getitemVAux n p.2 it
        .ok (p.1, r))
      .ok (.node cls rs)
    else match spreadOver item with
      | some (cls', ks) => do
        let rs ← ks.mapM (fun k => do
          let it ← itemParts k item
          let r ← getitemVAux n (.node cls cs) it
          .ok (k, r))
        .ok (.node cls' rs)
      | none => .error .valueError

/-- `array[item]` for a scalar or a vector and a dictionary `item` with vectors; see `getitemVAux`. -/
def getitemV (v : Comp (SA α)) (item : Dict (Comp IndexVal)) : R (Comp (SA α)) :=
  getitemVAux (v.depth + (item.values.map Comp.depth).sum) v item

/-- `np.argsort` with a sequence of axes: for each axis of the vector, a vector of index arrays; `None` for the axes which a component
does not have, and for components which are not sorted.
Models `/repo/named_arrays/_vectors/vector_array_functions.py` lines 671-698.  The recursion is on the nesting depth, see `deepAux`. -/
def argsortAux (asrt : List α → List Nat) (A : List String) : Nat → Comp (SA α) → R (Dict (Comp IndexVal))
  | 0, _ => .error .other
  | _ + 1, .leaf a => do
    let d ← a.argsort asrt (some A)
    .ok (d.map (fun p => (p.1, .leaf (.arr p.2))))
  | n + 1, .node cls cs => do
    let shape ← (Comp.node cls cs).shape
    if A.isEmpty then .error .valueError
    else if ¬ A ⊆ shape.keys then .error .valueError
    else do
      let base := shapeBase shape A
      let rs ← cs.mapM (fun p => do
        let s ← p.2.shape
        if s.keys.any (· ∈ A) then do
          let c ← broadcastBase base p.2
          let d ← argsortAux asrt A n c
          .ok (p.1, d)
        else .ok (p.1, []))
      .ok (shape.keys.map (fun ax => (ax, .node cls (rs.map (fun q => (q.1, (get? q.2 ax).getD (.leaf .none)))))))

/-- `np.argsort(v, axis)` for a vector.
Models `/repo/named_arrays/_vectors/vector_array_functions.py` lines 660-698. -/
def argsort (asrt : List α → List Nat) (v : Comp (SA α)) : Option (List String) → R (Dict (Comp IndexVal))
  | some A => argsortAux asrt A v.depth v
  | none => do
    let shape ← v.shape
    if shape.keys.isEmpty then .ok [] else argsortAux asrt shape.keys v.depth v

/-- `np.argmin` and `np.argmax` with the axes `A` (`axis_normalized`): each component with those of the axes which it has; `None` for the axes
which a component does not have, and for components without any of the axes.
Models `/repo/named_arrays/_vectors/vector_array_functions.py` lines 319-360.  The order of the keys of the result is that of a python set, so
that it is not determined by the code; here it is that of the first occurrences.  The recursion is on the nesting depth. -/
def argReduceAux (g : List α → Nat) : Nat → Option (List String) → Comp (SA α) → R (Dict (Comp IndexVal))
  | 0, _, _ => .error .other
  | _ + 1, axis, .leaf a => do
    let d ← a.argReduce g axis
    .ok (d.map (fun p => (p.1, .leaf (.arr p.2))))
  | n + 1, axis, .node cls cs => do
    let shape ← (Comp.node cls cs).shape
    if axis.isSome ∧ ¬ axis.getD [] ⊆ shape.keys then .error .valueError
    else if axis.isNone ∧ shape.isEmpty then .error .valueError
    else do
      let A := axisNormalized shape.keys axis
      let rs ← cs.mapM (fun p => do
        let s ← p.2.shape
        if (A.filter (· ∈ s.keys)).isEmpty then .ok (p.1, [])
        else do
          let d ← argReduceAux g n (some (A.filter (· ∈ s.keys))) p.2
          .ok (p.1, d))
      .ok ((rs.flatMap (fun q => Dict.keys q.2)).dedup.map (fun ax =>
        (ax, .node cls (rs.map (fun q => (q.1, (get? q.2 ax).getD (.leaf .none)))))))

/-- `np.argmin(v, axis)`, `np.argmax(v, axis)` for a vector; see `argReduceAux`. -/
def argReduce (g : List α → Nat) (v : Comp (SA α)) (axis : Option (List String)) : R (Dict (Comp IndexVal)) :=
  argReduceAux g v.depth axis v

end Comp
end NA
