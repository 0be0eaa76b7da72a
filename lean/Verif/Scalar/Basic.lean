import Verif.ND

/-!
# Scalar arrays: construction, alignment, axis manipulation, elementwise operations

Model of the core of `named_arrays/_scalars/scalars.py` and of the axis functions of
`named_arrays/_scalars/scalar_array_functions.py`.
-/

namespace NA

/-- `ScalarArray(ndarray, axes)`: an ndarray and one name for each dimension.
Models the fields at `/repo/named_arrays/_scalars/scalars.py` lines 860-887.  The `ndarray` may be
a python scalar in the code; here it is then a zero-dimensional array. -/
structure SA (α : Type) where
  axes : List String
  nd : ND α

namespace SA

variable {α β γ : Type}

/-- `ScalarArray.__post_init__`: the number of names must be the number of dimensions and the names
must be distinct.  Models `/repo/named_arrays/_scalars/scalars.py` lines 889-900 (`axes` is already
a tuple here). -/
def mk? (nd : ND α) (axes : List String) : R (SA α) :=
  if nd.ndim ≠ axes.length then .error .valueError
  else if ¬ axes.Nodup then .error .valueError
  else .ok ⟨axes, nd⟩

/-- The invariant checked by the constructor. -/
def WF (a : SA α) : Prop := a.nd.ndim = a.axes.length ∧ a.axes.Nodup

instance (a : SA α) : Decidable a.WF := inferInstanceAs (Decidable (_ ∧ _))

/-- `a.shape`: `dict(zip(axes, ndarray.shape))`.
Models `/repo/named_arrays/_scalars/scalars.py` lines 1024-1029. -/
def shape (a : SA α) : Shape := a.axes.zip a.nd.shape

/-- A python scalar, wrapped: `ScalarArray(x)`. -/
def scalar (x : α) : SA α := ⟨[], ND.scalar x⟩

/-! ### Specification vocabulary: reading by name -/

/-- The element at a named index. -/
def at' (a : SA α) (e : String → Nat) : α := a.nd.get (a.axes.map e)

/-- The element at a named index under the broadcasting convention: index 0 along axes of size 1,
axes which `a` does not have are ignored. -/
def atB (a : SA α) (e : String → Nat) : α :=
  a.at' (fun ax => if a.shape.get? ax = some 1 then 0 else e ax)

/-- A named index is in range of a shape. -/
def InRange (s : Shape) (e : String → Nat) : Prop := ∀ ax n, s.get? ax = some n → e ax < n

/-- Two arrays are the same to a user who refers to axes by name only: same size for each axis
and same element at each named index. -/
def SameByName (a b : SA α) : Prop :=
  Dict.Same a.shape b.shape ∧ ∀ e, InRange a.shape e → a.at' e = b.at' e

/-! ### Alignment -/

/-- `a.ndarray_aligned(axes)`.
Models `/repo/named_arrays/_scalars/scalars.py` lines 283-319. -/
def aligned (a : SA α) (axes : List String) : R (ND α) :=
  if axes = a.axes then .ok a.nd
  else
    let ndimMissing := axes.length - a.nd.ndim
    let value := a.nd.newaxes ndimMissing
    if a.axes.all (· ∈ axes) then
      value.moveaxis (List.range a.axes.length) (a.axes.map axes.idxOf)
    else .error .valueError

/-- `a.add_axes(axes)`: new singleton axes first.
Models `/repo/named_arrays/_scalars/scalars.py` lines 321-329. -/
def addAxes (a : SA α) (axes : List String) : R (SA α) := do
  let shapeNew : Shape := axes.foldl (fun d ax => d.set ax 1) []
  let shape := shapeNew.union a.shape
  let nd ← a.aligned shape.keys
  mk? nd shape.keys

/-- python `list.insert(i, x)` for `i ≥ 0`. -/
def pyInsert {δ : Type} (l : List δ) (i : Nat) (x : δ) : List δ := l.take i ++ x :: l.drop i

/-- `a.change_axis_index(axis, index)`.
Models `/repo/named_arrays/_scalars/scalars.py` lines 331-353, including the `+ 1`. -/
def changeAxisIndex (a : SA α) (axis : String) (index : Int) : R (SA α) := do
  let shape := a.shape
  if axis ∉ shape.keys then .error .keyError
  else
    let keys := (shape.erase axis).keys
    let index := (index % (a.shape.length : Int) + 1).toNat
    let keys := pyInsert keys index axis
    let nd ← a.aligned keys
    mk? nd keys

/-- `np.transpose(a, axes)` of numpy with its argument checks. -/
def _root_.NA.ND.transpose? (a : ND α) (order : List Nat) : R (ND α) :=
  if order.length = a.ndim ∧ order.Nodup ∧ (∀ j ∈ order, j < a.ndim) then .ok (a.transpose order)
  else .error .valueError

/-- `np.transpose(a, axes)` for a named array.
Models `/repo/named_arrays/_scalars/scalar_array_functions.py` lines 535-550. -/
def transpose (a : SA α) (axes : Option (List String)) : R (SA α) := do
  let a ← match axes with
    | some axes => a.addAxes axes
    | none => .ok a
  let axes := match axes with
    | some axes => axes
    | none => a.axes.reverse
  -- `a.axes.index(ax)` raises `ValueError` when absent
  if axes.all (· ∈ a.axes) then
    let nd ← a.nd.transpose? (axes.map a.axes.idxOf)
    mk? nd axes
  else .error .valueError

/-- `axes_new.append(axes_new.pop(axes_new.index(axis)))` -/
def popAppend (l : List String) (ax : String) : R (List String) :=
  if ax ∈ l then .ok (l.erase ax ++ [ax]) else .error .valueError

/-- `axes_new.remove(axis)` -/
def pyRemove (l : List String) (ax : String) : R (List String) :=
  if ax ∈ l then .ok (l.erase ax) else .error .valueError

/-- `arr.reshape(tuple(others) + (-1,))` of numpy: the last size is inferred; an error when the
others multiply to zero or do not divide the size. -/
def _root_.NA.ND.reshapeInfer (a : ND α) (others : List Nat) : R (ND α) :=
  if others.prod = 0 ∨ a.size % others.prod ≠ 0 then .error .valueError
  else a.reshape (others ++ [a.size / others.prod])

/-- `a.combine_axes(axes, axis_new)`.
Models `/repo/named_arrays/_scalars/scalars.py` lines 355-388.  When `axis_new` is one of the
remaining axes the code builds a tuple of names with a repetition, which the constructor rejects
(or `reshape` fails before), so the model raises `ValueError` directly. -/
def combineAxes (a : SA α) (axes : Option (List String)) (axisNew : Option String) : R (SA α) := do
  let axes := axes.getD a.axes
  let axisNew ← match axisNew with
    | some s => .ok s
    | none => flattenAxes axes
  let axesNew ← axes.foldlM popAppend a.axes
  let source := axes.map a.axes.idxOf
  let destination := axes.map axesNew.idxOf
  let rest ← axes.foldlM pyRemove axesNew
  if axisNew ∈ rest then .error .valueError
  else
    let nd ← a.nd.moveaxis source destination
    let nd ← nd.reshapeInfer (rest.map (fun ax => (a.shape.get? ax).getD 0))
    mk? nd (rest ++ [axisNew])

/-- `axes[axes.index(src)] = dest` -/
def replaceAxis (l : List String) (p : String × String) : R (List String) :=
  if p.1 ∈ l then .ok (l.set (l.idxOf p.1) p.2) else .error .valueError

/-- `np.moveaxis(a, source, destination)` for a named array: *renames* axes, one after the other.
Models `/repo/named_arrays/_scalars/scalar_array_functions.py` lines 553-577. -/
def moveaxis (a : SA α) (source destination : List String) : R (SA α) := do
  if source.all (· ∈ a.axes) then
    let axes ← (source.zip destination).foldlM replaceAxis a.axes
    mk? a.nd axes
  else .error .valueError

/-- `np.reshape(a, newshape)` for a named array.
Models `/repo/named_arrays/_scalars/scalar_array_functions.py` lines 580-585 (no `-1`). -/
def reshape (a : SA α) (newshape : Shape) : R (SA α) := do
  let nd ← a.nd.reshape newshape.values
  mk? nd newshape.keys

/-- `na.broadcast_to(array, shape, append)`.
Models `/repo/named_arrays/_scalars/scalar_named_array_functions.py` lines 193-208. -/
def broadcastTo (a : SA α) (shape : Shape) (append : Bool := false) : R (SA α) := do
  let shape ← if append then broadcastShapes [a.shape, shape] else .ok shape
  let v ← a.aligned shape.keys
  let v ← v.broadcastTo shape.values
  mk? v shape.keys

/-! ### Elementwise operations -/

/-- `ScalarArray.__array_ufunc__` without `out` and `where`, for one output: broadcast the named
shapes, align every input, apply the numpy ufunc.
Models `/repo/named_arrays/_scalars/scalars.py` lines 527-610 and
`/repo/named_arrays/_core.py` `shape_broadcasted` lines 206-216.  Inputs which are not named arrays
(python scalars) are zero-dimensional arrays without axes here. -/
def ufuncN (f : List α → β) (inputs : List (SA α)) : R (SA β) := do
  let shape ← broadcastShapes (inputs.map SA.shape)
  let nds ← inputs.mapM (fun a => a.aligned shape.keys)
  let nd ← ND.ufuncN f nds
  mk? nd shape.keys

/-- The same for two inputs of possibly different element types. -/
def ufunc2 (f : α → β → γ) (a : SA α) (b : SA β) : R (SA γ) := do
  let shape ← broadcastShapes [a.shape, b.shape]
  let v ← a.aligned shape.keys
  let w ← b.aligned shape.keys
  let nd ← ND.ufunc2 f v w
  mk? nd shape.keys

/-- The same for one input. -/
def ufunc1 (f : α → β) (a : SA α) : R (SA β) := do
  let shape ← broadcastShapes [a.shape]
  let v ← a.aligned shape.keys
  mk? (v.map f) shape.keys

end SA
end NA
