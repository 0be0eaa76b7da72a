import Verif.Scalar.Basic

/-!
# Elementwise operations with `out` and `where`

Model of `ScalarArray.__array_ufunc__` with its arguments `out` and `where`, `/repo/named_arrays/_scalars/scalars.py` lines
527-610, which is also how `a += b` works.
-/

namespace NA
open Dict

/-- The element which an output has before the operation; a new array is not initialised (this models numpy). -/
def ND.oldElem {γ : Type} (junk : List Nat → γ) : Option (ND γ) → List Nat → γ
  | some o, i => o.get i
  | none, i => junk i

/-- numpy's `ufunc(*inputs, out=outs, where=wh)`, for several outputs (this models numpy, not `/repo`).  Output `k` of the
function is `f k`.  With an output array the inputs and the mask are broadcast to its shape; otherwise all operands,
including the mask, are broadcast together.  Where the mask is false an output keeps its elements; the elements of a new
array are then not initialised (`junk`).  Overlap of inputs and outputs is not modelled: numpy reads the inputs as they
were before. -/
def ND.ufuncOut {α γ : Type} (f : Nat → List α → γ) (junk : Nat → List Nat → γ) (inputs : List (ND α)) (wh : ND Bool)
    (outs : List (Option (ND γ))) : R (List (ND γ)) := do
  let shape ← match outs.filterMap id with
    | o :: _ => .ok o.shape
    | [] => ND.bshapes (inputs.map ND.shape ++ [wh.shape])
  let vs ← inputs.mapM (fun v => v.broadcastTo shape)
  let m ← wh.broadcastTo shape
  if (outs.filterMap id).all (fun o => decide (o.shape = shape)) then
    .ok (outs.zipIdx.map (fun p => ⟨shape, fun i =>
      if m.get i then f p.2 (vs.map (fun v => v.get i)) else ND.oldElem (junk p.2) p.1 i⟩))
  else .error .valueError

namespace SA
variable {α γ : Type}

/-- An array given as `out`: its `ndarray` is a `numpy.ndarray`, or a python scalar. -/
structure Out (γ : Type) where
  array : SA γ
  isArray : Bool

/-- The shape of the result.
Models `/repo/named_arrays/_scalars/scalars.py` lines 566-574; shapes are compared as dictionaries. -/
def outShape (inputs : List (SA α)) (outs : List (Option (Out γ))) : R Shape :=
  match outs.filterMap id with
  | [] => broadcastShapes (inputs.map SA.shape)
  | o :: rest =>
    if rest.all (fun p => p.array.shape.eqv o.array.shape) then .ok o.array.shape
    else .error .valueError

/-- What numpy gets as `out`.
Models `/repo/named_arrays/_scalars/scalars.py` lines 550-562. -/
def outND (o : Option (Out γ)) : Option (ND γ) :=
  o.bind (fun o => if o.isArray then some o.array.nd else none)

/-- A result of numpy becomes a named array; an array given as `out` keeps its axes and gets the `ndarray` of the result.
Models `/repo/named_arrays/_scalars/scalars.py` lines 597-604. -/
def storeOut (axes : List String) (nd : ND γ) : Option (Out γ) → R (SA γ)
  | none => mk? nd axes
  | some o => do
    let r ← mk? nd axes
    .ok ⟨o.array.axes, r.nd⟩

/-- `ufunc(*inputs, out=outs, where=wh)`: the results, which are the arrays given as `out` afterwards.  Without `where` the mask
is the scalar `true`.
Models `/repo/named_arrays/_scalars/scalars.py` lines 546-610. -/
def ufuncOut (f : Nat → List α → γ) (junk : Nat → List Nat → γ) (inputs : List (SA α)) (wh : SA Bool)
    (outs : List (Option (Out γ))) : R (List (SA γ)) := do
  let shape ← outShape inputs outs
  let m ← wh.aligned shape.keys
  let vs ← inputs.mapM (fun a => a.aligned shape.keys)
  let nds ← ND.ufuncOut f junk vs m (outs.map outND)
  (nds.zip outs).mapM (fun p => storeOut shape.keys p.1 p.2)

/-- `a += b`, that is `np.add(a, b, out=(a,))`: `a` afterwards.  `numpy.lib.mixins.NDArrayOperatorsMixin` calls the ufunc with
`out=(self,)`. -/
def inplace (f : α → α → α) (a b : SA α) (isArray : Bool := true) : R (SA α) := do
  let d := a.at' (fun _ => 0)
  let rs ← ufuncOut (fun _ l => f (l.getD 0 d) (l.getD 1 d)) (fun _ _ => d) [a, b] (scalar true) [some ⟨a, isArray⟩]
  .ok (rs.headD a)

end SA
end NA
