import Verif.Vector.Structure
import Verif.Uncertain.Basic

/-!
# Combining and adding axes of uncertain scalars and vectors

Model of parts of `/repo/named_arrays/_scalars/uncertainties/uncertainties.py` and
`/repo/named_arrays/_vectors/vectors.py`.
-/

namespace NA
open Dict

/-- The sizes of the given axes, as far as the shape has them: `{ax: shape[ax] for ax in shape if ax in axes}`.
Models `/repo/named_arrays/_scalars/uncertainties/uncertainties.py` line 266 and `/repo/named_arrays/_vectors/vectors.py`
line 246. -/
def onlyAxes (s : Shape) (axes : List String) : Shape := s.filter (fun p => p.1 ∈ axes)

namespace UA
variable {α : Type}

/-- `u.add_axes(axes)`.
Models `/repo/named_arrays/_scalars/uncertainties/uncertainties.py` lines 249-253. -/
def addAxes (u : UA α) (axes : List String) : R (UA α) := do
  let n ← u.nominal.addAxes axes
  let d ← u.distribution.addAxes axes
  mk? n d

/-- `u.combine_axes(axes, axis_new)`.
Models `/repo/named_arrays/_scalars/uncertainties/uncertainties.py` lines 255-274. -/
def combineAxes (u : UA α) (axes : Option (List String)) (axisNew : Option String) : R (UA α) := do
  let s ← u.shape
  let axes := axes.getD s.keys
  let base := onlyAxes s axes
  let n ← u.nominal.broadcastTo (u.nominal.shape.union base)
  let d ← u.distribution.broadcastTo (u.distribution.shape.union base)
  let n ← n.combineAxes (some axes) axisNew
  let d ← d.combineAxes (some axes) axisNew
  mk? n d

end UA

namespace Comp
variable {α : Type}

/-- `v.add_axes(axes)`: the components get the new axes one after the other.
Models `/repo/named_arrays/_vectors/vectors.py` lines 231-233. -/
def addAxes (v : Comp (SA α)) (axes : List String) : R (Comp (SA α)) := v.mapM (fun a => a.addAxes axes)

/-- The components of a vector, each broadcast along the given axes of the vector.  (A scalar is not changed; this case is
not reached from `combineAxes`.)
Models `/repo/named_arrays/_vectors/vectors.py` lines 241-252. -/
def alongAxes (axes : List String) : Comp (SA α) → R (Comp (SA α))
  | .leaf a => .ok (.leaf a)
  | .node cls cs => do
    let s ← shape (.node cls cs)
    let cs ← cs.mapM (fun p => do
      let sc ← p.2.shape
      let c ← p.2.broadcastTo (sc.union (onlyAxes s axes))
      .ok (p.1, c))
    .ok (.node cls cs)

/-- `v.combine_axes(axes, axis_new)`; components which are vectors do the same with their own components.
Models `/repo/named_arrays/_vectors/vectors.py` lines 235-257.  The code broadcasts and combines one component after the
other; here all the components are broadcast before the first one is combined. -/
def combineAxes (v : Comp (SA α)) (axes : Option (List String)) (axisNew : Option String) : R (Comp (SA α)) := do
  let s ← v.shape
  let axes := axes.getD s.keys
  nary (alongAxes axes) (single (fun a => a.combineAxes (some axes) axisNew)) [v]

end Comp
end NA
