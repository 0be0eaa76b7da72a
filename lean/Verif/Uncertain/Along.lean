import Verif.Uncertain.Structure
import Verif.Scalar.Percentile
import Verif.Scalar.Fourier
import Verif.Vector.Reduce

/-!
# Cumulative sums, percentiles, Fourier transforms and nonzero elements of uncertain scalars

Model of the functions of `/repo/named_arrays/_scalars/uncertainties/uncertainties_array_functions.py` cited below,
without `out`.
-/

namespace NA
open Dict

namespace UA
variable {α β κ : Type}

/-- `array_function_cumulative_reduce`: `np.cumsum`, `np.cumprod`.  `shape[_axis]` raises `KeyError` for an absent axis.
Models `/repo/named_arrays/_scalars/uncertainties/uncertainties_array_functions.py` lines 182-239. -/
def cumulative (f : List α → α) (u : UA α) (axis : Option (List String)) : R (UA α) := do
  let s ← u.shape
  match axis.getD s.keys with
  | [ax] =>
    match s.get? ax with
    | none => .error .keyError
    | some n =>
      let a ← u.nominal.broadcastTo [(ax, n)] true
      let b ← u.distribution.broadcastTo [(ax, n)] true
      let r ← a.cumulative f (some [ax]) none
      let d ← b.cumulative f (some [ax]) none
      mk? r d
  | _ => .error .valueError

/-- `na.broadcast_to(c, na.broadcast_shapes(na.shape(c), shape_base))` for one of the components.
Models `/repo/named_arrays/_scalars/uncertainties/uncertainties_array_functions.py` lines 315, 320, 394-395, 429-430. -/
def extend (base : Shape) (c : SA α) : R (SA α) := do
  let s ← broadcastShapes [c.shape, base]
  c.broadcastTo s

/-- `array_function_percentile_like`: `np.percentile(a, q, axis, keepdims=)` and the like.
Models `/repo/named_arrays/_scalars/uncertainties/uncertainties_array_functions.py` lines 242-336. -/
def percentile (valid : κ → Bool) (pct : κ → List α → β) (a : UArg α) (q : UArg κ) (axis : Option (List String))
    (keepdims : Bool) : R (UA β) := do
  let a ← norm a
  let s ← a.shape
  let axisN := axis.getD s.keys
  if axis.isSome && !(axisN.all (· ∈ s.keys)) then .error .valueError
  else
    let n ← extend (Comp.shapeBase s axisN) a.nominal
    let n ← n.percentileLike valid pct q.nominal (some axisN) keepdims none
    let d ← extend (Comp.shapeBase s axisN) a.distribution
    let d ← d.percentileLike valid pct q.distribution (some axisN) keepdims none
    mk? n d

/-- `array_function_fft_like`: `np.fft.fft(a, axis=(old, new), n=n)`, ...
Models `/repo/named_arrays/_scalars/uncertainties/uncertainties_array_functions.py` lines 377-407. -/
def fft (t : ND.Line α) (u : UA α) (axis : String × String) (n : Option Nat) : R (UA α) := do
  let s ← u.shape
  if axis.1 ∉ s.keys then .error .valueError
  else
    let a ← extend (Comp.shapeBase s [axis.1]) u.nominal
    let b ← extend (Comp.shapeBase s [axis.1]) u.distribution
    let r ← a.fftLike t axis n
    let d ← b.fftLike t axis n
    mk? r d

/-- `array_function_fftn_like`: `np.fft.fftn(a, axes={old: new, ...}, s=s)`, ...
Models `/repo/named_arrays/_scalars/uncertainties/uncertainties_array_functions.py` lines 410-442. -/
def fftn (plan : List (Nat × Nat) → R (List (ND.Step α))) (u : UA α) (axes : Dict String) (sizes : Option (Dict Nat)) :
    R (UA α) := do
  let s ← u.shape
  if ¬ axes.keys ⊆ s.keys then .error .valueError
  else
    let a ← extend (Comp.shapeBase s axes.keys) u.nominal
    let b ← extend (Comp.shapeBase s axes.keys) u.distribution
    let r ← a.fftnLike plan axes sizes
    let d ← b.fftnLike plan axes sizes
    mk? r d

/-- `np.nonzero(a)`: the nonzero elements of `a.nominal * np.prod(a.distribution, axis=a.axis_distribution)`.
Models `/repo/named_arrays/_scalars/uncertainties/uncertainties_array_functions.py` lines 889-895. -/
def nonzero (isNonzero : α → Bool) (mul : α → α → α) (prod : List α → α) (u : UA α) : R (Dict (SA Int)) := do
  let p ← u.distribution.reduce false prod (some [axisD]) false none none
  let v ← SA.ufunc2 mul u.nominal p
  v.nonzero isNonzero

end UA
end NA
