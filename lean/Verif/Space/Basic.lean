import Verif.Scalar.Basic
import Mathlib.Algebra.Order.Floor.Ring
import Mathlib.Algebra.Field.Basic
import Mathlib.Analysis.SpecialFunctions.Log.Base
import Mathlib.Analysis.SpecialFunctions.Pow.Real

/-!
# Ranges and spaces

Model of `na.linspace`, `na.step`, `na.arange`, `na.logspace`, `na.geomspace`, `na.random.uniform` and of the implicit arrays
`ScalarArrayRange`, `ScalarLinearSpace` and `ScalarStratifiedRandomSpace`, with exact arithmetic instead of floating point.
-/

namespace NA
namespace SA

/-- `array_function_sequence`: `args` are the arguments, broadcast against each other and read together; `point num endpoint x k` is
the `k`-th point of the numpy function (which raises `ValueError` for a negative number of points); the new axis is the last one.
Models `/repo/named_arrays/_scalars/scalar_array_functions.py` lines 138-176. -/
def sequence {α β : Type} (point : Nat → Bool → β → Nat → α) (args : SA β) (axis : String) (num : Int) (endpoint : Bool) :
    R (SA α) :=
  if num < 0 then .error .valueError
  else mk? ⟨args.nd.shape ++ [num.toNat], fun i => point num.toNat endpoint (args.nd.get i.dropLast) (i.getLastD 0)⟩
    (args.axes ++ [axis])

section linear
variable {K : Type} [Field K]

/-- `numpy.linspace`: the points are `arange(0, num) * (delta / div) + start`, after which the last one is overwritten by `stop`. -/
def linPoint (num : Nat) (endpoint : Bool) (x : K × K) (k : Nat) : K :=
  if endpoint && decide (1 < num) && k + 1 == num then x.2
  else
    let div : Int := if endpoint then (num : Int) - 1 else num
    if 0 < div then (k : K) * ((x.2 - x.1) / (div : K)) + x.1
    else (k : K) * (x.2 - x.1) + x.1

/-- `np.linspace` of named arrays. -/
def npLinspace (start stop : SA K) (axis : String) (num : Int) (endpoint : Bool) : R (SA K) := do
  let args ← ufunc2 Prod.mk start stop
  sequence linPoint args axis num endpoint

/-- `na.step`.  Division by zero is `ZeroDivisionError` for python numbers (for arrays numpy warns and returns infinities, which
are not modelled).
Models `/repo/named_arrays/_named_array_functions.py` lines 314-343. -/
def step (start stop : SA K) (num : Int) (endpoint centers : Bool) : R (SA K) := do
  let num := if endpoint then num - 1 else num
  let num := if centers then num + 1 else num
  let d ← ufunc2 (· - ·) stop start
  if num = 0 then .error .other
  else ufunc2 (· / ·) d (scalar (num : K))

/-- `na.linspace`, and `explicit` of `ScalarLinearSpace`.
Models `/repo/named_arrays/_named_array_functions.py` lines 346-428 and `/repo/named_arrays/_core.py` lines 1996-2019. -/
def linspace (start stop : SA K) (axis : String) (num : Int) (endpoint centers : Bool) : R (SA K) :=
  if centers then do
    let halfstep ← ufunc2 (· / ·) (← step start stop num endpoint centers) (scalar 2)
    let start ← ufunc2 (· + ·) start halfstep
    let stop ← ufunc2 (· - ·) stop halfstep
    npLinspace start stop axis num endpoint
  else npLinspace start stop axis num endpoint

end linear

section arange
variable {K : Type} [Field K] [LinearOrder K] [FloorRing K]

/-- The length of `numpy.arange(start, stop, step)`. -/
def arangeLen (start stop step : K) : Nat := ⌈(stop - start) / step⌉.toNat

/-- `na.arange`, and `explicit` of `ScalarArrayRange`; `start` and `stop` with one element but with axes are not modelled.
Models `/repo/named_arrays/_scalars/scalar_named_array_functions.py` lines 141-165 and `/repo/named_arrays/_core.py` lines
1955-1976. -/
def arangeOf (start stop : SA K) (axis : String) (step : K) : R (SA K) :=
  if 1 < start.nd.shape.prod then .error .valueError
  else if 1 < stop.nd.shape.prod then .error .valueError
  else if start.axes ≠ [] ∨ stop.axes ≠ [] then .error .notImplemented
  else if step = 0 then .error .other
  else
    let a := start.nd.get []
    let b := stop.nd.get []
    mk? ⟨[arangeLen a b step], fun i => a + (i.headD 0 : K) * step⟩ [axis]

/-- `num` of `ScalarArrayRange`.
Models `/repo/named_arrays/_core.py` lines 1978-1980. -/
def arangeNum (start stop step : K) : Int := ⌈(stop - start) / step⌉

end arange

section random
variable {K : Type} [Field K] [LinearOrder K]

/-- `na.random.uniform(low, high, shape_random, seed)` with a seed: `draw` gives the random numbers of the generator by position;
the generator raises `ValueError` if `high` is below `low`.  The arguments are paired before they are aligned (in the code after).
Models `/repo/named_arrays/_scalars/scalar_named_array_functions.py` lines 620-678 and `/repo/named_arrays/random.py` lines 33-70,
without units. -/
def uniform (draw : List Nat → K) (low high : SA K) (shapeRandom : Shape) : R (SA K) := do
  let range ← ufunc2 (fun l h => (l, h - l)) low high
  let shape ← broadcastShapes [range.shape, shapeRandom]
  let range ← range.aligned shape.keys
  if range.toList.any (fun p => p.2 < 0) then .error .valueError
  else mk? ⟨shape.values, fun i => let p := range.get (ND.clipIdx range.shape i); p.1 + p.2 * draw i⟩ shape.keys

/-- `explicit` of `ScalarStratifiedRandomSpace`: the regular space plus a random number of half a step in either direction.
Models `/repo/named_arrays/_core.py` lines 2083-2114. -/
def stratified (draw : List Nat → K) (start stop : SA K) (axis : String) (num : Int) (endpoint centers : Bool) : R (SA K) := do
  let result ← linspace start stop axis num endpoint centers
  let stepSize ← step start stop num endpoint centers
  let low ← ufunc2 (· / ·) (← ufunc1 (- ·) stepSize) (scalar 2)
  let high ← ufunc2 (· / ·) stepSize (scalar 2)
  let delta ← uniform draw low high result.shape
  ufunc2 (· + ·) result delta

end random

section exponential
open Classical

/-- `numpy.logspace`: `base ** linspace(start, stop)`, for a positive base. -/
noncomputable def logPoint (num : Nat) (endpoint : Bool) (x : ℝ × ℝ × ℝ) (k : Nat) : ℝ :=
  x.1 ^ linPoint num endpoint x.2 k

/-- `na.logspace`, and `explicit` of `ScalarLogarithmicSpace`; bases which are not positive are not modelled.
Models `/repo/named_arrays/_scalars/scalar_array_functions.py` lines 138-176 and `/repo/named_arrays/_core.py` lines 2118-2149. -/
noncomputable def logspace (start stop base : SA ℝ) (axis : String) (num : Int) (endpoint : Bool) : R (SA ℝ) := do
  let args ← ufunc2 Prod.mk start stop
  let args ← ufunc2 Prod.mk base args
  if args.nd.toList.any (fun p => p.1 ≤ 0) then .error .notImplemented
  else sequence logPoint args axis num endpoint

/-- `numpy.geomspace` for numbers of the same sign: divided by the sign of `start`, the points are `logspace(log10(start),
log10(stop))`, after which the first one is overwritten by `start` and the last one by `stop`; finally multiplied by the sign. -/
noncomputable def geomPoint (num : Nat) (endpoint : Bool) (x : ℝ × ℝ) (k : Nat) : ℝ :=
  let sign : ℝ := if x.1 < 0 then -1 else 1
  let a := x.1 / sign
  let b := x.2 / sign
  (if endpoint && decide (1 < num) && k + 1 == num then b
   else if k == 0 then a
   else (10 : ℝ) ^ linPoint num endpoint (Real.logb 10 a, Real.logb 10 b) k) * sign

/-- `na.geomspace`, and `explicit` of `ScalarGeometricSpace`: zeros raise `ValueError`; numbers of different signs (for which numpy
returns nan) are not modelled.
Models `/repo/named_arrays/_scalars/scalar_array_functions.py` lines 138-176 and `/repo/named_arrays/_core.py` lines 2152-2170. -/
noncomputable def geomspace (start stop : SA ℝ) (axis : String) (num : Int) (endpoint : Bool) : R (SA ℝ) := do
  let args ← ufunc2 Prod.mk start stop
  if num < 0 then .error .valueError
  else if args.nd.toList.any (fun p => p.1 = 0 ∨ p.2 = 0) then .error .valueError
  else if args.nd.toList.any (fun p => p.1 * p.2 < 0) then .error .notImplemented
  else sequence geomPoint args axis num endpoint

end exponential

end SA
end NA
