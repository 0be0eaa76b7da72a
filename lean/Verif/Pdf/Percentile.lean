import Verif.Interp.Table
import Verif.Pdf.Basic

/-!
# Percentiles of probability mass functions

Model of `/repo/named_arrays/pdf.py` lines 73-183.
-/

namespace NA
open Dict

namespace SA
variable {K : Type} [Field K] [LinearOrder K]

/-- The table of positions `na.arange(0, n, axis=axis)` as numbers. -/
def positions (K : Type) [Field K] (axis : String) (n : Nat) : SA K := ⟨[axis], ⟨[n], fun i => ((i.headD 0 : Nat) : K)⟩⟩

/-- The part of `percentile` after the axis is known; `garbage` stands for the contents of `np.empty` inside of `na.interp`.
Models `/repo/named_arrays/pdf.py` lines 104-118. -/
def percentileAlong (x f q : SA K) (axis : String) (garbage : List Nat → K) : R (SA K) := do
  let index ← argpercentile f q (some [axis])
  match index.get? axis, x.shape.get? axis with
  | some i, some n => interp (fun l r _ => npInterp l r) i (positions K axis n) x none none none none garbage
  | _, _ => .error .keyError

/-- `na.pdf.percentile(x, f, q, axis)`.
Models `/repo/named_arrays/pdf.py` lines 73-118. -/
def percentile (x f q : SA K) (axis : Option (List String)) (garbage : List Nat → K) : R (SA K) :=
  match axisNormalized f.axes axis with
  | [ax] => percentileAlong x f q ax garbage
  | _ => .error .valueError

/-- `na.pdf.median(x, f, axis)`.
Models `/repo/named_arrays/pdf.py` lines 121-144. -/
def median (x f : SA K) (axis : Option (List String)) (garbage : List Nat → K) : R (SA K) :=
  percentile x f (scalar 50) axis garbage

/-- `na.pdf.iqr(x, f, axis)`.
Models `/repo/named_arrays/pdf.py` lines 147-183. -/
def iqr (x f : SA K) (axis : Option (List String)) (garbage : List Nat → K) : R (SA K) := do
  let q1 ← percentile x f (scalar 25) axis garbage
  let q3 ← percentile x f (scalar 75) axis garbage
  ufunc2 (· - ·) q3 q1

end SA
end NA
