import Verif.Scalar.Join

/-!
# Uncertain scalars

Model of `/repo/named_arrays/_scalars/uncertainties/uncertainties.py` and of the functions of
`/repo/named_arrays/_scalars/uncertainties/uncertainties_array_functions.py` and
`/repo/named_arrays/_scalars/uncertainties/uncertainties_named_array_functions.py` cited below.  Units,
`dtype`, `out` and the random samples which create a distribution are left out.
-/

namespace NA
open Dict

/-- The reserved name of the axis which numbers the samples.
Models `/repo/named_arrays/_scalars/uncertainties/uncertainties.py` line 147. -/
def axisD : String := "_distribution"

/-- `UncertainScalarArray(nominal, distribution)`.
Models the fields at `/repo/named_arrays/_scalars/uncertainties/uncertainties.py` lines 609-613.  A
component which is a python number is an array without axes here. -/
structure UA (α : Type) where
  nominal : SA α
  distribution : SA α

/-- An operand of a function of uncertain scalars: a plain scalar array (or a number), which is used both as
the nominal value and as every sample, or an uncertain scalar.
Models the case distinctions at `/repo/named_arrays/_scalars/uncertainties/uncertainties.py` lines 56-69 and
438-452. -/
inductive UArg (α : Type) where
  | plain (a : SA α)
  | unc (u : UA α)

namespace UArg
variable {α : Type}

/-- `inp_nominal` at `/repo/named_arrays/_scalars/uncertainties/uncertainties.py` lines 440-450. -/
def nominal : UArg α → SA α
  | .plain a => a
  | .unc u => u.nominal

/-- `inp_distribution` at `/repo/named_arrays/_scalars/uncertainties/uncertainties.py` lines 440-450. -/
def distribution : UArg α → SA α
  | .plain a => a
  | .unc u => u.distribution

end UArg

namespace UA
variable {α β γ : Type}

/-- `UncertainScalarArray.__post_init__`: the nominal value must not have the axis of the samples.
Models `/repo/named_arrays/_scalars/uncertainties/uncertainties.py` lines 615-620. -/
def mk? (nominal distribution : SA α) : R (UA α) :=
  if axisD ∈ nominal.shape.keys then .error .valueError else .ok ⟨nominal, distribution⟩

/-- `u.shape_distribution`.
Models `/repo/named_arrays/_scalars/uncertainties/uncertainties.py` lines 178-180. -/
def shapeDistribution (u : UA α) : R Shape :=
  broadcastShapes [u.nominal.shape, u.distribution.shape]

/-- `u.shape`.  Models `/repo/named_arrays/_scalars/uncertainties/uncertainties.py` lines 662-667. -/
def shape (u : UA α) : R Shape := do
  let shape ← u.shapeDistribution
  .ok (shape.erase axisD)

/-- `u.num_distribution`: `KeyError` without samples.
Models `/repo/named_arrays/_scalars/uncertainties/uncertainties.py` lines 654-656. -/
def numDistribution (u : UA α) : R Nat :=
  match u.distribution.shape.get? axisD with
  | some n => .ok n
  | none => .error .keyError

/-- `__array_ufunc__` without `out` and `where`.
Models `/repo/named_arrays/_scalars/uncertainties/uncertainties.py` lines 424-525. -/
def ufuncN (f : List α → β) (inputs : List (UArg α)) : R (UA β) := do
  let n ← SA.ufuncN f (inputs.map UArg.nominal)
  let d ← SA.ufuncN f (inputs.map UArg.distribution)
  mk? n d

/-- `na.broadcast_to(u, shape, append)`.
Models `/repo/named_arrays/_scalars/uncertainties/uncertainties_named_array_functions.py` lines 123-144. -/
def broadcastTo (u : UA α) (shape : Shape) (append : Bool := false) : R (UA α) := do
  let sd ← u.shapeDistribution
  let shapeDistribution ← broadcastShapes [shape, sd]
  let n ← u.nominal.broadcastTo shape append
  let d ← u.distribution.broadcastTo shapeDistribution append
  mk? n d

/-- `u.broadcasted`.  Models `/repo/named_arrays/_core.py` lines 678-686. -/
def broadcasted (u : UA α) : R (UA α) := do
  let shape ← u.shape
  u.broadcastTo shape

/-- `array_function_default`: `np.sum`, `np.min`, `np.mean`, ... without `out`.
Models `/repo/named_arrays/_scalars/uncertainties/uncertainties_array_functions.py` lines 115-179. -/
def reduce (need : Bool) (f : List α → β) (u : UA α) (axis : Option (List String)) (keepdims : Bool)
    (wh : Option (UArg Bool)) : R (UA β) := do
  let u ← u.broadcasted
  let shape ← u.shape
  let axis := axis.getD shape.keys
  let n ← u.nominal.reduce need f (some axis) keepdims (wh.map UArg.nominal) none
  let d ← u.distribution.reduce need f (some axis) keepdims (wh.map UArg.distribution) none
  mk? n d

/-- A value of an index dictionary for an uncertain scalar. -/
inductive UIndex where
  | plain (v : IndexVal)
  | unc (u : UA Int)

/-- `item_nominal[ax]` at `/repo/named_arrays/_scalars/uncertainties/uncertainties.py` lines 336-347. -/
def UIndex.nominal : UIndex → IndexVal
  | .plain v => v
  | .unc u => .arr u.nominal

/-- `item_distribution[ax]` at `/repo/named_arrays/_scalars/uncertainties/uncertainties.py` lines 336-347. -/
def UIndex.distribution : UIndex → IndexVal
  | .plain v => v
  | .unc u => .arr u.distribution

/-- A `None` in the dictionary is not accepted. -/
def UIndex.isNone : UIndex → Bool
  | .plain v => v.isNone
  | .unc _ => false

/-- `u[item]` for a dictionary: each axis is dropped from the item of a component which does not have it.
Models `/repo/named_arrays/_scalars/uncertainties/uncertainties.py` lines 292-300 and 331-364; `NotImplemented`,
returned for a value which is `None`, is raised as a `ValueError` by the caller
(`/repo/named_arrays/_core.py` lines 1052-1073). -/
def getitem (u : UA α) (item : Dict UIndex) : R (UA α) := do
  let _ ← u.shapeDistribution
  if item.values.any UIndex.isNone then .error .valueError
  else
    let n ← u.nominal.getitem
      ((item.map (fun p => (p.1, p.2.nominal))).filter (fun p => p.1 ∈ u.nominal.axes))
    let d ← u.distribution.getitem
      ((item.map (fun p => (p.1, p.2.distribution))).filter (fun p => p.1 ∈ u.distribution.axes))
    mk? n d

/-- `np.transpose(u, axes)`.
Models `/repo/named_arrays/_scalars/uncertainties/uncertainties_array_functions.py` lines 523-539. -/
def transpose (u : UA α) (axes : Option (List String)) : R (UA α) := do
  let u ← u.broadcasted
  let n ← u.nominal.transpose axes
  let d ← u.distribution.transpose (axes.map (· ++ [axisD]))
  mk? n d

/-- `np.reshape(u, shape)`.  The result of `change_axis_index` is discarded by the code (it can still
raise).  `a.shape_distribution` is read after the nominal value of `a` was replaced.
Models `/repo/named_arrays/_scalars/uncertainties/uncertainties_array_functions.py` lines 586-602. -/
def reshape (u : UA α) (shape : Shape) : R (UA α) := do
  let s ← u.shape
  let n ← u.nominal.broadcastTo s
  let sd ← (UA.mk n u.distribution).shapeDistribution
  let d ← u.distribution.broadcastTo sd
  let _ ← d.changeAxisIndex axisD (-1)
  let num ← (UA.mk n d).numDistribution
  let shapeDistribution := shape.set axisD num
  let n ← n.reshape shape
  let d ← d.reshape shapeDistribution
  mk? n d

/-- `np.argsort(u, axis)`: by the means of the samples.
Models `/repo/named_arrays/_scalars/uncertainties/uncertainties_array_functions.py` lines 690-705. -/
def argsort (mean : List α → α) (asrt : List α → List Nat) (u : UA α) (axis : Option (List String)) :
    R (Dict (SA Int)) := do
  let u ← u.broadcasted
  let m ← u.distribution.reduce false mean (some [axisD]) false none none
  m.argsort asrt axis

/-- `np.sort(u, axis)`.
Models `/repo/named_arrays/_scalars/uncertainties/uncertainties_array_functions.py` lines 665-687. -/
def sort (mean : List α → α) (asrt : List α → List Nat) (u : UA α) (axis : Option (List String)) :
    R (UA α) := do
  let u ← u.broadcasted
  let d ← u.argsort mean asrt axis
  let n ← u.nominal.getitem (SA.asItem d)
  let d ← u.distribution.getitem (SA.asItem d)
  mk? n d

end UA

/-! ### `np.copyto` -/

/-- numpy's `np.copyto(dst, src, where=mask)` for arrays of the same rank, when the cast is allowed: the
source and the mask are broadcast to the destination. -/
def ND.copyto {α : Type} (dst src : ND α) (mask : ND Bool) : R (ND α) := do
  let v ← src.broadcastTo dst.shape
  let m ← mask.broadcastTo dst.shape
  .ok ⟨dst.shape, fun i => if m.get i then v.get i else dst.get i⟩

/-- `np.copyto(dst, src, where=where)` for scalar arrays; returns the modified `dst`.  `allowed` says that
numpy does not raise `TypeError`: `dst.ndarray` is an `np.ndarray` (not a python number), the cast of
`src.ndarray` is allowed by `casting`, and the mask is boolean.  Otherwise the whole ndarray of `dst` is
replaced.  `where=None` stands for a mask which numpy rejects.
Models `/repo/named_arrays/_scalars/scalar_array_functions.py` lines 495-532. -/
def SA.copyto {α : Type} (allowed : Bool) (dst src : SA α) (wh : Option (SA Bool)) : R (SA α) := do
  let v ← src.aligned dst.shape.keys
  match wh with
  | none => .ok ⟨dst.axes, src.nd⟩
  | some w =>
    let m ← w.aligned dst.shape.keys
    if allowed then .ok ⟨dst.axes, ← dst.nd.copyto v m⟩
    else .ok ⟨dst.axes, src.nd⟩

/-- `where_nominal` and `where_distribution` of the uncertain `copyto`: for an uncertain mask the code takes
the components of **`src`**; `asMask` reads an array of the element type of `src` as a mask, and is `none` if
numpy rejects it (any element type but `bool`).
Models `/repo/named_arrays/_scalars/uncertainties/uncertainties_array_functions.py` lines 498-510. -/
def UA.copyMask {α : Type} (asMask : Option (α → Bool)) (src : UArg α) :
    UArg Bool → R (Option (SA Bool) × Option (SA Bool))
  | .plain w => .ok (some w, some w)
  | .unc _ =>
    match src with
    | .plain _ => .error .typeError
    | .unc s =>
      match asMask with
      | none => .ok (none, none)
      | some p => .ok (some ⟨s.nominal.axes, s.nominal.nd.map p⟩,
          some ⟨s.distribution.axes, s.distribution.nd.map p⟩)

/-- `np.copyto(dst, src, where=where)` for an uncertain scalar; returns the modified `dst`.
Models `/repo/named_arrays/_scalars/uncertainties/uncertainties_array_functions.py` lines 474-520, for
components which are arrays (for python numbers the outer `except TypeError` assigns the component). -/
def UA.copyto {α : Type} (allowed : Bool) (asMask : Option (α → Bool)) (dst : UA α) (src : UArg α)
    (wh : UArg Bool) : R (UA α) := do
  let masks ← UA.copyMask asMask src wh
  let n ← dst.nominal.copyto allowed src.nominal masks.1
  let d ← dst.distribution.copyto allowed src.distribution masks.2
  .ok ⟨n, d⟩

end NA
