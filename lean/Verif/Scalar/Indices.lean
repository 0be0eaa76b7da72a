import Verif.Scalar.Reduce
import Verif.Scalar.Loop
import Verif.Stats.Basic
import Verif.Uncertain.Index
import Verif.Vector.Reduce
import Verif.Vector.ArrayIndex
import Verif.Function.Basic

/-!
# The indices of an array

Model of indexing an array with its own indices (`SA.indices` models `na.indices`), and of a loop over `a.ndindex`.
-/

namespace NA
open Dict

/-- `a[a.indices]`.  Models `/repo/named_arrays/_core.py` lines 754-762 and 1052-1073. -/
def SA.getIndices (a : SA α) : R (SA α) := a.getitem (SA.indices a.shape)

/-- `a[a.indices] = value`.
Models `/repo/named_arrays/_core.py` lines 754-762 and `/repo/named_arrays/_scalars/scalars.py` lines 1047-1128. -/
def SA.setIndices (a value : SA α) : R (SA α) := a.setitem (SA.indices a.shape) value

/-- `for i in a.ndindex(axis_ignored): result[i] = a[i]`.
Models `/repo/named_arrays/_core.py` lines 764-783. -/
def SA.copySlices (a result : SA α) (axisIgnored : List String) : R (SA α) :=
  (ndindex a.shape axisIgnored).foldlM (fun h i => do
    let v ← a.getitem (ints i)
    h.setitem (ints i) v) result

/-- `u[u.indices]` for an uncertain scalar.
Models `/repo/named_arrays/_core.py` lines 754-762 and `/repo/named_arrays/_scalars/uncertainties/uncertainties.py` lines 292-364. -/
def UA.getIndices (u : UA α) : R (UA α) := do
  let s ← u.shape
  u.getitem ((SA.indices s).map (fun p => (p.1, .plain p.2)))

/-- `u[u.indices] = value` for an uncertain scalar: the array afterwards, and the error if there is one.
Models `/repo/named_arrays/_core.py` lines 754-762 and `/repo/named_arrays/_scalars/uncertainties/uncertainties.py` lines 681-756. -/
def UA.setIndices (u : UA α) (value : UArg α) : UA α × Option Err :=
  match u.shape with
  | .error e => (u, some e)
  | .ok s => u.setitem ((SA.indices s).map (fun p => (p.1, .plain p.2))) value

/-- `v[v.indices]` for a vector.
Models `/repo/named_arrays/_core.py` lines 754-762 and `/repo/named_arrays/_vectors/vectors.py` lines 279-347. -/
def Comp.getIndices (v : Comp (SA α)) : R (Comp (SA α)) := do
  let s ← v.shape
  v.getitemV ((SA.indices s).map (fun p => (p.1, .leaf p.2)))

/-- `f[f.indices]` for a function.
Models `/repo/named_arrays/_core.py` lines 754-762 and `/repo/named_arrays/_functions/functions.py` lines 537-610. -/
def FA.getIndices (f : FA α β) : R (FA α β) := do
  let s ← f.shape
  f.getitem (SA.indices s)

end NA
