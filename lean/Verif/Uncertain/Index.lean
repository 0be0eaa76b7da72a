import Verif.Uncertain.Basic

/-!
# Indexing uncertain scalars by masks, and assignment

Model of the boolean branch of `_getitem` and of `__setitem__` of
`/repo/named_arrays/_scalars/uncertainties/uncertainties.py`.
-/

namespace NA
open Dict

namespace UA
variable {α : Type}

/-- The mask which is used for both components: a plain mask, or for an uncertain mask
`item.nominal & np.all(item.distribution, axis="_distribution")`.
Models `/repo/named_arrays/_scalars/uncertainties/uncertainties.py` lines 302-310 and 697-700. -/
def maskOf : UArg Bool → R (SA Bool)
  | .plain w => .ok w
  | .unc w => do
    let d ← w.distribution.reduce false (fun l => l.all id) (some [axisD]) false none none
    SA.ufunc2 and w.nominal d

/-- `u[mask]` for a boolean array.
Models `/repo/named_arrays/_scalars/uncertainties/uncertainties.py` lines 292-329 and 356-364. -/
def getMask (u : UA α) (mask : UArg Bool) : R (UA α) := do
  let t ← u.shapeDistribution
  let w ← maskOf mask
  let shapeItem ← broadcastShapes [w.shape, w.shape]
  if ¬ shapeItem.keys.all (· ∈ t.keys) then .error .valueError
  else if ¬ shapeItem.keys.all (fun ax => shapeItem.get? ax = t.get? ax) then .error .valueError
  else
    let sn ← broadcastShapes [u.nominal.shape, w.shape]
    let sd ← broadcastShapes [u.distribution.shape, w.shape]
    let n ← u.nominal.broadcastTo sn
    let d ← u.distribution.broadcastTo sd
    let n ← n.getMask w
    let d ← d.getMask w
    mk? n d

/-- The two assignments at the end of `__setitem__`: the nominal value is assigned first, and stays assigned
when the assignment of the distribution raises.  Returns the array afterwards, and the error if there is one.
Models `/repo/named_arrays/_scalars/uncertainties/uncertainties.py` lines 755-756. -/
def assign (u : UA α) (nominal distribution : R (SA α)) : UA α × Option Err :=
  match nominal with
  | .error e => (u, some e)
  | .ok n =>
    match distribution with
    | .error e => (⟨n, u.distribution⟩, some e)
    | .ok d => (⟨n, d⟩, none)

/-- `u[item] = value` for a dictionary.  Returns the array afterwards, and the error if there is one.
Models `/repo/named_arrays/_scalars/uncertainties/uncertainties.py` lines 681-756, dictionary branch.  Note
that, unlike in `_getitem`, axes which a component does not have are not dropped from its item. -/
def setitem (u : UA α) (item : Dict UIndex) (value : UArg α) : UA α × Option Err :=
  match u.shape with
  | .error e => (u, some e)
  | .ok s =>
    if item.keys.all (· ∈ s.keys) then
      u.assign
        (u.nominal.setitem (item.map (fun p => (p.1, p.2.nominal))) value.nominal)
        (u.distribution.setitem (item.map (fun p => (p.1, p.2.distribution))) value.distribution)
    else (u, some .valueError)

/-- `mask.shape` of a plain or uncertain mask. -/
def maskShape : UArg Bool → R Shape
  | .plain w => .ok w.shape
  | .unc w => w.shape

/-- `u[mask] = value`.  Returns the array afterwards, and the error if there is one.
Models `/repo/named_arrays/_scalars/uncertainties/uncertainties.py` lines 681-756, boolean branch. -/
def setMask (u : UA α) (mask : UArg Bool) (value : UArg α) : UA α × Option Err :=
  match (do
    let s ← u.shape
    let sm ← maskShape mask
    if sm.keys.all (· ∈ s.keys) then maskOf mask else .error .valueError : R (SA Bool)) with
  | .error e => (u, some e)
  | .ok w => u.assign (u.nominal.setMask w value.nominal) (u.distribution.setMask w value.distribution)

/-- The indices of the samples for `axis=None`: the axes of `u.shape` (but not the axis of the samples) are flattened.
Models `/repo/named_arrays/_scalars/uncertainties/uncertainties_array_functions.py` lines 352-359. -/
def argAll (g : List α → Nat) (v : UA α) : R (Dict (SA Int)) := do
  let s ← v.shape
  let flat ← flattenAxes s.keys
  let c ← v.distribution.combineAxes (some s.keys) (some flat)
  let r ← SA.argReduce g c (some [flat])
  match r.get? flat with
  | none => .error .keyError
  | some b =>
    let q ← SA.unravelIndex ⟨b.axes, b.nd.map Int.toNat⟩ s
    .ok (q.union (r.erase flat))

/-- `array_function_arg_reduce`: `np.argmin`, `np.argmax`, where `g` returns the position in a list.
Models `/repo/named_arrays/_scalars/uncertainties/uncertainties_array_functions.py` lines 339-374. -/
def argReduce (g : List α → Nat) (u : UA α) (axis : Option (List String)) : R (Dict UIndex) := do
  let v ← u.broadcasted
  let rn ← SA.argReduce g v.nominal axis
  let rd ← match axis with
    | none => argAll g v
    | some A => SA.argReduce g v.distribution (some A)
  rd.mapM (fun p => do
    let b ← p.2.addAxes [axisD]
    let w ← mk? ((rn.get? p.1).getD ⟨[], ⟨[], fun _ => 0⟩⟩) b
    .ok (p.1, .unc w))

end UA
end NA
