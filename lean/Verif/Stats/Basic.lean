import Mathlib.Algebra.Field.Basic
import Verif.Scalar.Join
import Verif.Scalar.Reduce
import Verif.Scalar.Index

/-!
# Ranks

Model of `/repo/named_arrays/stats.py`.  Floating point numbers which may be `nan` are modelled as
`Option`: `none` is `nan`.
-/

namespace NA
open Dict

/-- `x != y` of floating point numbers: `nan` differs from everything, also from `nan`. -/
def neFloat {α : Type} [DecidableEq α] : Option α → Option α → Bool
  | some x, some y => decide (x ≠ y)
  | _, _ => true

namespace SA

/-- `na.indices(shape)`.
Models `/repo/named_arrays/_core.py` lines 252-261. -/
def indices (shape : Shape) : Dict IndexVal := shape.map (fun p => (p.1, .arr (arange p.1 p.2)))

/-- `d[x]`, which raises `KeyError` if there is no such key. -/
def entry {β : Type} (d : Dict β) (x : String) : R β :=
  match d.get? x with
  | some v => .ok v
  | none => .error .keyError

/-- The number of the group of equal elements of every element of a sorted array, starting at 1.
Models `/repo/named_arrays/stats.py` lines 170-176. -/
def rankGroups {β : Type} (ne : β → β → Bool) (x : String) (n : Nat) (sorted : SA β) : R (SA Int) := do
  let upper ← sorted.getitem [(x, .slice ⟨some 1, some (n : Int), none⟩)]
  let lower ← sorted.getitem [(x, .slice ⟨some 0, some ((n : Int) - 1), none⟩)]
  let isNew ← SA.ufunc2 ne upper lower
  let first ← (SA.mk [x] ⟨[1], fun _ => true⟩).broadcastTo (isNew.shape.set x 1)
  let isNew ← concatenate [first, isNew] x
  let isNew ← SA.ufunc1 (fun b : Bool => if b then (1 : Int) else 0) isNew
  isNew.cumulative List.sum (some [x]) none

/-- The number of elements up to the end of each group.
Models `/repo/named_arrays/stats.py` lines 168, 182-186. -/
def rankCounts {K : Type} [Field K] {β : Type} (x : String) (n : Nat) (sorted : SA β) (group : SA Int) :
    R (SA K) := do
  let shapeCount := sorted.shape.set x (n + 1)
  let index ← SA.ufunc1 (fun i : Int => ((i + 1 : Int) : K)) (arange x n)
  let count ← SA.mk? ⟨shapeCount.values, fun _ => (0 : K)⟩ shapeCount.keys
  count.setitem ((indices shapeCount).set x (.arr group)) index

/-- The rank of every element of a sorted array.
Models `/repo/named_arrays/stats.py` lines 188-198. -/
def rankSorted {K : Type} [Field K] (method : String) (x : String) (count : SA K) (group : SA Int) : R (SA K) := do
  let leq ← count.takeAlongAxis group x
  let before ← SA.ufunc1 (fun g : Int => g - 1) group
  let less ← count.takeAlongAxis before x
  if method = "average" then SA.ufunc2 (fun u v : K => (u + v + 1) / 2) less leq
  else if method = "min" then SA.ufunc1 (fun u : K => u + 1) less
  else if method = "max" then .ok leq
  else SA.ufunc1 (fun g : Int => (g : K)) group

/-- The ranks of the elements of an array along one axis.
Models `/repo/named_arrays/stats.py` lines 162-200; `asrt` and `asrtI` are `np.argsort` for the
elements and for integers. -/
def rankAlong {K : Type} [Field K] {β : Type} (asrt : List β → List Nat) (asrtI : List Int → List Nat)
    (ne : β → β → Bool) (method : String) (a : SA β) (x : String) : R (SA K) := do
  let n ← entry a.shape x
  let sorter ← entry (← a.argsort asrt (some [x])) x
  let inverse ← entry (← sorter.argsort asrtI (some [x])) x
  let sorted ← a.takeAlongAxis sorter x
  let group ← rankGroups ne x n sorted
  let count ← rankCounts (K := K) x n sorted group
  let rank ← rankSorted method x count group
  rank.takeAlongAxis inverse x

/-- `a.combine_axes(axis, axis_flat)` unless there is exactly one axis.
Models `/repo/named_arrays/stats.py` lines 154-160. -/
def combineMany {β : Type} (a : SA β) (axis : List String) (flat : String) : R (SA β) :=
  if axis.length = 1 then .ok a else a.combineAxes (some axis) (some flat)

/-- The name of the axis along which the elements are ranked.
Models `/repo/named_arrays/stats.py` lines 154-157. -/
def rankAxis (axis : List String) : R String :=
  match axis with
  | [x] => .ok x
  | _ => flattenAxes axis

/-- `na.stats.rankdata(a, axis, method, where)`.
Models `/repo/named_arrays/stats.py` lines 102-206.  If `where` is a python `bool` it is not looked
at. -/
def rankdata {K : Type} [Field K] {α : Type} [DecidableEq α] (asrt : List (Option α) → List Nat)
    (asrtI : List Int → List Nat) (a : SA (Option α)) (axis : Option (List String)) (method : String)
    (wh : Bool ⊕ SA Bool) : R (SA (Option K)) :=
  if method ∈ ["average", "min", "max", "dense"] then
    match wh with
    | .inl _ => do
      let axes := axisNormalized a.axes axis
      let flat ← rankAxis axes
      let a ← a.combineMany axes flat
      let r ← rankAlong asrt asrtI neFloat method a flat
      SA.ufunc1 some (r : SA K)
    | .inr w => do
      let shape ← broadcastShapes [a.shape, w.shape]
      let a ← a.broadcastTo shape
      let w ← w.broadcastTo shape
      let a ← where' none w a (SA.scalar none)
      let axes := axisNormalized a.axes axis
      let flat ← rankAxis axes
      let a ← a.combineMany axes flat
      let w ← w.combineMany axes flat
      let r ← rankAlong asrt asrtI neFloat method a flat
      let r ← SA.ufunc1 some (r : SA K)
      where' none w r (SA.scalar none)
  else .error .valueError

end SA
end NA
