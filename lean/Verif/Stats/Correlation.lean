import Verif.Stats.Basic

/-!
# Correlation coefficients

Model of `/repo/named_arrays/stats.py`.  Floating point numbers are modelled by the elements of an
exact field together with `nan` (`none`); `root` is the square root.
-/

namespace NA
open Dict

section
variable {K : Type} [Field K] [DecidableEq K]

/-- `np.mean` of floating point numbers: `nan` if there is none of them or if there is a `nan` among them. -/
def floatMean (l : List (Option K)) : Option K :=
  match l.mapM id with
  | none => none
  | some v => if v.length = 0 then none else some (v.sum / v.length)

/-- `np.std` of floating point numbers, the square root of the mean of the squares of the deviations from the
mean. -/
def floatStd (root : K → K) (l : List (Option K)) : Option K :=
  (floatMean l).bind (fun m => (floatMean (l.map (Option.map (fun v => (v - m) * (v - m))))).map root)

/-- Division of floating point numbers.  Simplification: a number divided by zero is `nan`, not an infinity (`0 / 0` is
`nan`, and in `pearsonr` the numerator is zero if the denominator is). -/
def floatDiv : Option K → Option K → Option K
  | some u, some v => if v = 0 then none else some (u / v)
  | _, _ => none

/-- Subtraction of floating point numbers. -/
def floatSub : Option K → Option K → Option K
  | some u, some v => some (u - v)
  | _, _ => none

/-- Multiplication of floating point numbers. -/
def floatMul : Option K → Option K → Option K
  | some u, some v => some (u * v)
  | _, _ => none

namespace SA

/-- `na.stats.pearsonr(x, y, axis, where)`.
Models `/repo/named_arrays/stats.py` lines 19-56. -/
def pearsonr (root : K → K) (x y : SA (Option K)) (axis : Option (List String)) (wh : Option (SA Bool)) :
    R (SA (Option K)) := do
  let meanX ← SA.reduce false floatMean x axis false wh none
  let meanY ← SA.reduce false floatMean y axis false wh none
  let stdX ← SA.reduce false (floatStd root) x axis false wh none
  let stdY ← SA.reduce false (floatStd root) y axis false wh none
  let dx ← SA.ufunc2 floatSub x meanX
  let dy ← SA.ufunc2 floatSub y meanY
  let cov ← SA.ufunc2 floatMul dx dy
  let mean ← SA.reduce false floatMean cov axis false wh none
  let std ← SA.ufunc2 floatMul stdX stdY
  SA.ufunc2 floatDiv mean std

/-- `na.stats.spearmanr(x, y, axis, where)`.
Models `/repo/named_arrays/stats.py` lines 59-99. -/
def spearmanr {α : Type} [DecidableEq α] (root : K → K) (asrt : List (Option α) → List Nat)
    (asrtI : List Int → List Nat) (x y : SA (Option α)) (axis : Option (List String)) (wh : SA Bool) :
    R (SA (Option K)) := do
  let shape ← broadcastShapes [x.shape, y.shape, wh.shape]
  let x ← x.broadcastTo shape
  let y ← y.broadcastTo shape
  let wh ← wh.broadcastTo shape
  let axes := axisNormalized x.axes axis
  let flat ← flattenAxes axes
  let x ← x.combineAxes (some axes) (some flat)
  let y ← y.combineAxes (some axes) (some flat)
  let wh ← wh.combineAxes (some axes) (some flat)
  let rankX ← rankdata (K := K) asrt asrtI x (some [flat]) "average" (.inr wh)
  let rankY ← rankdata (K := K) asrt asrtI y (some [flat]) "average" (.inr wh)
  pearsonr root rankX rankY (some [flat]) (some wh)

end SA
end
end NA
