import Verif.Scalar.Join
import Verif.Uncertain.Roots
import Verif.Uncertain.Space
import Verif.Vector.Basic

/-!
# `na.debroadcast` of uncertain scalars and vectors
-/

namespace NA
open Dict

namespace UA
variable {α : Type}

/-- One turn of the loop of `_debroadcast`.
Models `/repo/named_arrays/_named_array_functions.py` lines 853-859. -/
def debroadcastStep [DecidableEq α] (u : UA α) (shape : Shape) (index : Dict IndexVal) (axis : String) : R (Dict IndexVal) := do
  if axis ∉ shape.keys then .ok index
  else
    let other ← u.getitem [(axis, .plain (.slice ⟨some 0, some 1, none⟩))]
    if shape.get? axis = some 0 then .ok index
    else
      let eq ← ufunc2 (fun x y => decide (x = y)) (.unc u) (.unc other)
      let all ← eq.reduce false (fun l : List Bool => l.all id) none false none
      let constant ← all.truth
      if constant then .ok (index.set axis (.int 0)) else .ok index

/-- `na.debroadcast(u, axes)` for an uncertain scalar.
Models `/repo/named_arrays/_scalars/uncertainties/uncertainties_named_array_functions.py` lines 147-152 and
`/repo/named_arrays/_named_array_functions.py` lines 831-861. -/
def debroadcast [DecidableEq α] (u : UA α) (axes : Option (List String)) : R (UA α) := do
  let shape ← u.shape
  let index ← (axes.getD shape.keys).foldlM (u.debroadcastStep shape) []
  u.getitem (index.map (fun p => (p.1, .plain p.2)))

end UA

/-- `na.debroadcast(v, axes)` for a vector: every component separately, at every depth.
Models `/repo/named_arrays/_vectors/vector_named_array_functions.py` lines 205-222. -/
def Comp.debroadcast {α : Type} [DecidableEq α] (v : Comp (SA α)) (axes : Option (List String)) : R (Comp (SA α)) :=
  v.mapM (fun a => a.debroadcast axes)

end NA
