import Verif.NDReduce
import Verif.Scalar.Index
import Verif.Scalar.Reduce

/-!
# Joining, comparing and selecting from scalar arrays

Model of further functions of `/repo/named_arrays/_scalars/scalar_array_functions.py`, and of the numpy
functions they call.
-/

namespace NA
namespace ND
variable {α β : Type}

/-- `np.stack(arrays, axis=0)` (numpy): `ValueError` for no arrays or different shapes. -/
def stack0 : List (ND α) → R (ND α)
  | [] => .error .valueError
  | a :: l =>
    if ∀ b ∈ l, b.shape = a.shape then
      .ok ⟨(l.length + 1) :: a.shape, fun i => ((a :: l).getD (i.headD 0) a).get i.tail⟩
    else .error .valueError

/-- The segment, and the position in it, of a position in a sequence of segments of given sizes. -/
def locate : List Nat → Nat → Nat × Nat
  | [], k => (0, k)
  | n :: ns, k => if k < n then (0, k) else ((locate ns (k - n)).1 + 1, (locate ns (k - n)).2)

/-- `np.concatenate(arrays, axis=p)` (numpy): the shapes must agree except along `p`. -/
def concat (p : Nat) : List (ND α) → R (ND α)
  | [] => .error .valueError
  | a :: l =>
    if p < a.ndim ∧ ∀ b ∈ l, b.shape.set p 0 = a.shape.set p 0 then
      let sizes := (a :: l).map (fun b => b.shape.getD p 0)
      .ok ⟨a.shape.set p sizes.sum, fun i =>
        let q := locate sizes (i.getD p 0)
        ((a :: l).getD q.1 a).get (i.set p q.2)⟩
    else .error .valueError

/-- `np.take_along_axis(arr, indices, axis=0)` (numpy): `arr` and `indices` have the same number of
dimensions and broadcast against each other except along dimension 0; negative indices count from
the end and `IndexError` is raised for an index out of range. -/
def takeAlong0 (arr : ND α) (indices : ND Int) : R (ND α) :=
  match arr.shape, indices.shape with
  | n :: s, m :: t => do
    let u ← bshape s t
    if ∀ i ∈ ndIndices (m :: t), -(n : Int) ≤ indices.get i ∧ indices.get i < n then
      .ok ⟨m :: u, fun i => arr.get (pyIndex n (indices.get (i.headD 0 :: clipIdx t i.tail)) :: clipIdx s i.tail)⟩
    else .error .indexError
  | _, _ => .error .valueError

/-- `np.array_equal` (numpy). -/
def arrayEqual [DecidableEq α] (a b : ND α) : Bool :=
  decide (a.shape = b.shape) && (ndIndices a.shape).all (fun i => decide (a.get i = b.get i))

/-- `np.array_equiv` (numpy): equal after broadcasting; `False` if the shapes do not broadcast. -/
def arrayEquiv [DecidableEq α] (a b : ND α) : Bool :=
  match bshape a.shape b.shape with
  | .ok s => (ndIndices s).all (fun i => decide (a.get (clipIdx a.shape i) = b.get (clipIdx b.shape i)))
  | .error _ => false

end ND

namespace SA
variable {α β : Type}

/-- `na.stack(arrays, axis)` / `np.stack`.
Models `/repo/named_arrays/_scalars/scalar_array_functions.py` lines 588-628 without `out`. -/
def stack (arrays : List (SA α)) (axis : String) : R (SA α) := do
  let shape ← broadcastShapes (arrays.map SA.shape)
  if axis ∈ shape.keys then .error .valueError
  else
    let arrs ← arrays.mapM (fun a => a.broadcastTo shape)
    let nd ← ND.stack0 (arrs.map SA.nd)
    mk? nd (axis :: shape.keys)

/-- `na.concatenate(arrays, axis)` / `np.concatenate`.
Models `/repo/named_arrays/_scalars/scalar_array_functions.py` lines 631-685 without `out`. -/
def concatenate (arrays : List (SA α)) (axis : String) : R (SA α) := do
  if arrays.all (fun a => axis ∈ a.shape.keys) then
    let proto ← broadcastShapes (arrays.map (fun a => a.shape.set axis 1))
    let arrs ← arrays.mapM (fun a => a.broadcastTo (proto.set axis ((a.shape.get? axis).getD 0)))
    -- `tuple(shape_prototype).index(axis)`
    let p ← pyTupleIndex proto.keys axis
    let nd ← ND.concat p (arrs.map SA.nd)
    mk? nd proto.keys
  else .error .valueError

/-- `np.array_equal(a, b)`.
Models `/repo/named_arrays/_scalars/scalar_array_functions.py` lines 854-864: only the ndarrays are
compared. -/
def arrayEqual [DecidableEq α] (a b : SA α) : Bool := ND.arrayEqual a.nd b.nd

/-- `np.array_equiv(a, b)`.
Models `/repo/named_arrays/_scalars/scalar_array_functions.py` lines 867-876. -/
def arrayEquiv [DecidableEq α] (a b : SA α) : R Bool := do
  let shape ← broadcastShapes [a.shape, b.shape]
  let v ← a.aligned shape.keys
  let w ← b.aligned shape.keys
  .ok (ND.arrayEquiv v w)

/-- `np.take_along_axis(arr, indices, axis)`.
Models `/repo/named_arrays/_scalars/scalar_array_functions.py` lines 782-813. -/
def takeAlongAxis (arr : SA α) (indices : SA Int) (axis : String) : R (SA α) := do
  if axis ∉ arr.axes then .error .valueError
  else
    let shape ← broadcastShapes [arr.shape.erase axis, indices.shape.erase axis]
    let axes := axis :: shape.keys
    let v ← arr.aligned axes
    let w ← indices.aligned axes
    let nd ← ND.takeAlong0 v w
    mk? nd axes

/-- Does `array` equal its first slice along `axis` everywhere: `bool(np.all(array == other))`.
Models `/repo/named_arrays/_named_array_functions.py` lines 857-858. -/
def constantAlong [DecidableEq α] (a : SA α) (axis : String) : R Bool := do
  let other ← a.getitem [(axis, .slice ⟨some 0, some 1, none⟩)]
  let eq ← ufunc2 (fun x y => decide (x = y)) a other
  let all ← reduce false (fun l : List Bool => l.all id) eq none false none none
  .ok (all.nd.get [])

/-- The loop of `_debroadcast` which builds the index.
Models `/repo/named_arrays/_named_array_functions.py` lines 853-859. -/
def debroadcastStep [DecidableEq α] (a : SA α) (index : Dict IndexVal) (axis : String) : R (Dict IndexVal) := do
  if axis ∉ a.shape.keys then .ok index
  else
    let c ← a.constantAlong axis
    if a.shape.get? axis ≠ some 0 ∧ c = true then .ok (index.set axis (.int 0))
    else .ok index

/-- `na.debroadcast(array, axes)`.
Models `/repo/named_arrays/_named_array_functions.py` lines 831-861 (`other` is computed before the
test of the size, as in the code). -/
def debroadcast [DecidableEq α] (a : SA α) (axes : Option (List String)) : R (SA α) := do
  let axes := axes.getD a.shape.keys
  let index ← axes.foldlM (debroadcastStep a) []
  a.getitem index

/-- The values of the three arguments of `np.where` are joined in one type. -/
def wherePick (dflt : α) : List (Bool ⊕ α) → α
  | [.inl c, .inr x, .inr y] => if c then x else y
  | _ => dflt

/-- `np.where(condition, x, y)`: broadcast the shapes, align the three arrays, choose elementwise.
Models `/repo/named_arrays/_scalars/scalar_array_functions.py` lines 922-944. -/
def where' (dflt : α) (condition : SA Bool) (x y : SA α) : R (SA α) :=
  ufuncN (wherePick dflt) [⟨condition.axes, condition.nd.map .inl⟩, ⟨x.axes, x.nd.map .inr⟩, ⟨y.axes, y.nd.map .inr⟩]

/-- The counts given to `np.repeat` (numpy): one count for all positions, or one for each. -/
def repeatCounts (repeats : ND Nat) (n : Nat) : R (List Nat) :=
  match repeats.shape with
  | [] => .ok (List.replicate n (repeats.get []))
  | [m] =>
    if m = 1 then .ok (List.replicate n (repeats.get [0]))
    else if m = n then .ok ((List.range n).map (fun k => repeats.get [k]))
    else .error .valueError
  | _ => .error .valueError

/-- `np.repeat(a, repeats, axis)`.
Models `/repo/named_arrays/_scalars/scalar_array_functions.py` lines 1046-1067.  Counts are natural
numbers (numpy rejects negative ones). -/
def repeat' (a : SA α) (repeats : SA Nat) (axis : String) : R (SA α) := do
  if axis ∉ a.axes then .error .valueError
  else
    let p ← pyTupleIndex a.axes axis
    let counts ← repeatCounts repeats.nd (a.nd.shape.getD p 0)
    mk? ⟨a.nd.shape.set p counts.sum, fun i => a.nd.get (i.set p (ND.locate counts (i.getD p 0)).1)⟩ a.axes

/-- One bound of `np.clip`: `None`, or broadcast to the shape of the result.
Models `/repo/named_arrays/_scalars/scalar_array_functions.py` lines 1024-1027. -/
def clipBound (shape : Shape) : Option (SA α) → R (Option (ND α))
  | none => .ok none
  | some b => do .ok (some (← b.broadcastTo shape).nd)

/-- `np.clip` (numpy): `minimum(maximum(a, a_min), a_max)`, a bound `None` is not applied. -/
def _root_.NA.ND.clip (max min : α → α → α) (a : ND α) (lo hi : Option (ND α)) : ND α :=
  ⟨a.shape, fun i =>
    let x := match lo with
      | some l => max (a.get i) (l.get i)
      | none => a.get i
    match hi with
      | some h => min x (h.get i)
      | none => x⟩

/-- `np.clip(a, a_min, a_max)`.
Models `/repo/named_arrays/_scalars/scalar_array_functions.py` lines 999-1043 without `out`, both
bounds being given (possibly as `None`). -/
def clip (max min : α → α → α) (a : SA α) (lo hi : Option (SA α)) : R (SA α) := do
  let a' ← a.broadcastTo a.shape
  let lo ← clipBound a.shape lo
  let hi ← clipBound a.shape hi
  mk? (ND.clip max min a'.nd lo hi) a.shape.keys

/-- `np.diff(a, n=1, axis=p)` (numpy): differences of neighbours; one element fewer (none for an
empty axis). -/
def _root_.NA.ND.diff1 (sub : α → α → α) (p : Nat) (a : ND α) : R (ND α) :=
  if p < a.ndim then
    .ok ⟨a.shape.set p (a.shape.getD p 0 - 1),
      fun i => sub (a.get (i.set p (i.getD p 0 + 1))) (a.get i)⟩
  else .error .valueError

/-- The optional argument `prepend` or `append` of `np.diff`: broadcast to one element along the axis.
Models `/repo/named_arrays/_scalars/scalar_array_functions.py` lines 1092-1098. -/
def diffEnd (shapeEnds : Shape) : Option (SA α) → R (List (ND α))
  | none => .ok []
  | some x => do .ok [(← x.broadcastTo shapeEnds).nd]

/-- `np.diff(a, axis, n, prepend, append)`: the ends are concatenated, then neighbours are subtracted
`n` times.
Models `/repo/named_arrays/_scalars/scalar_array_functions.py` lines 1070-1109.  (`n` is a natural
number; numpy returns the input unchanged, without the ends, for `n = 0`.) -/
def diff (sub : α → α → α) (a : SA α) (axis : String) (n : Nat) (prepend append : Option (SA α)) :
    R (SA α) := do
  if axis ∉ a.shape.keys then .error .valueError
  else
    let shapeEnds : Shape := a.shape.map (fun q => (q.1, if q.1 = axis then 1 else q.2))
    let pre ← diffEnd shapeEnds prepend
    let app ← diffEnd shapeEnds append
    let p ← pyTupleIndex a.shape.keys axis
    if n = 0 then mk? a.nd a.shape.keys
    else
      let nd ← ND.concat p (pre ++ [a.nd] ++ app)
      let nd ← (List.range n).foldlM (fun v _ => ND.diff1 sub p v) nd
      mk? nd a.shape.keys

end SA
end NA
