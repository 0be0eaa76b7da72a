import Verif.Vector.Reduce
import Verif.Uncertain.Roots
import Verif.Scalar.Out

/-!
# Variance-to-mean ratio and root mean square

Model of `na.vmr`, `/repo/named_arrays/_named_array_functions.py` lines 960-1005, and of the methods `rms` and `vmr`,
`/repo/named_arrays/_core.py` lines 1501-1533.  The functions of the elements of one line (`var`, `mean`) and of single elements
(`div`, `sq`, `root`) are arguments; `dtype` is left out.
-/

namespace NA

namespace SA
variable {α β γ : Type}

/-- `na.vmr(a, axis, keepdims=keepdims, where=wh)` of a scalar array.
Models `/repo/named_arrays/_named_array_functions.py` lines 994-1005 without `out`. -/
def vmr (var mean : List α → β) (div : β → β → γ) (a : SA α) (axis : Option (List String)) (keepdims : Bool)
    (wh : Option (SA Bool)) : R (SA γ) := do
  let v ← a.reduce false var axis keepdims wh none
  let m ← a.reduce false mean axis keepdims wh none
  ufunc2 div v m

/-- `na.vmr(a, axis, out=out, ...)`: the variance is stored in `out`, which is then divided in place by the mean.  `out.ndarray`
is an `np.ndarray` which does not share memory with `a`.
Models `/repo/named_arrays/_named_array_functions.py` lines 994-1005. -/
def vmrOut (var mean : List α → β) (div : β → β → β) (a : SA α) (axis : Option (List String)) (keepdims : Bool)
    (wh : Option (SA Bool)) (out : SA β) : R (SA β) := do
  let v ← a.reduce false var axis keepdims wh (some out)
  let m ← a.reduce false mean axis keepdims wh none
  inplace div v m

/-- `a.rms(axis, where=wh)` of a scalar array.
Models `/repo/named_arrays/_core.py` lines 1501-1516. -/
def rms (sq : α → β) (mean : List β → β) (root : β → γ) (a : SA α) (axis : Option (List String)) (wh : Option (SA Bool)) :
    R (SA γ) := do
  let s ← ufunc1 sq a
  let m ← s.reduce false mean axis false wh none
  ufunc1 root m

end SA

namespace UA
variable {α β γ : Type}

/-- `na.vmr(u, axis, keepdims=keepdims, where=wh)` of an uncertain scalar.
Models `/repo/named_arrays/_named_array_functions.py` lines 994-1005 without `out`. -/
def vmr (var mean : List α → β) (div : β → β → γ) (u : UA α) (axis : Option (List String)) (keepdims : Bool)
    (wh : Option (UArg Bool)) : R (UA γ) := do
  let v ← u.reduce false var axis keepdims wh
  let m ← u.reduce false mean axis keepdims wh
  op2 div v m

/-- `u.rms(axis, where=wh)` of an uncertain scalar.
Models `/repo/named_arrays/_core.py` lines 1501-1516. -/
def rms (sq : α → β) (mean : List β → β) (root : β → γ) (u : UA α) (axis : Option (List String)) (wh : Option (UArg Bool)) :
    R (UA γ) := do
  let s ← op1 sq u
  let m ← s.reduce false mean axis false wh
  op1 root m

end UA

namespace Comp
variable {α β γ : Type}

/-- `na.vmr(v, axis, keepdims=keepdims)` of a vector.
Models `/repo/named_arrays/_named_array_functions.py` lines 994-1005 without `out` and `where`. -/
def vmr (var mean : List α → β) (div : β → β → γ) (v : Comp (SA α)) (axis : Option (List String)) (keepdims : Bool) :
    R (Comp (SA γ)) := do
  let s ← v.reduce false var axis keepdims
  let m ← v.reduce false mean axis keepdims
  ufunc2 (SA.ufunc2 div) s m

/-- `v.rms(axis)` of a vector.
Models `/repo/named_arrays/_core.py` lines 1501-1516 without `where`. -/
def rms (sq : α → β) (mean : List β → β) (root : β → γ) (v : Comp (SA α)) (axis : Option (List String)) :
    R (Comp (SA γ)) := do
  let s ← v.mapM (SA.ufunc1 sq)
  let m ← s.reduce false mean axis false
  m.mapM (SA.ufunc1 root)

end Comp
end NA
