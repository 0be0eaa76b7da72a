import Verif.Pdf.Basic
import Verif.Scalar.Histogram

/-!
# The full width at half maximum

Model of `/repo/named_arrays/pdf.py` lines 186-262.
-/

namespace NA
open Dict

namespace SA
variable {K : Type} [Field K] [LinearOrder K]

/-- `x0 + (x1 - x0) * (h - f0) / (f1 - f0)`.
Models `/repo/named_arrays/pdf.py` lines 235-238 and 257-260. -/
def crossing (h x0 x1 f0 f1 : SA K) : R (SA K) := do
  let dx ← ufunc2 (· - ·) x1 x0
  let df ← ufunc2 (· - ·) f1 f0
  let dh ← ufunc2 (· - ·) h f0
  let s ← ufunc2 (· * ·) dx dh
  let s ← ufunc2 (· / ·) s df
  ufunc2 (· + ·) x0 s

/-- The coordinate of the first crossing of `h` along the axis.
Models `/repo/named_arrays/pdf.py` lines 221-238. -/
def leftCrossing (x f h : SA K) (axis : String) : R (SA K) := do
  let above ← ufunc2 (fun f h => decide (h ≤ f)) f h
  let upper ← argReduce firstTrue above (some [axis])
  match upper.get? axis with
  | none => .error .keyError
  | some i =>
    let j ← ufunc2 (· - ·) i (scalar (1 : Int))
    let lower := upper.set axis j
    let x0 ← x.getitem (asItem lower)
    let x1 ← x.getitem (asItem upper)
    let f1 ← f.getitem (asItem upper)
    let f0 ← f.getitem (asItem lower)
    crossing h x0 x1 f0 f1

/-- The coordinate of the last crossing of `h` along the axis, which has `n` elements.
Models `/repo/named_arrays/pdf.py` lines 240-260. -/
def rightCrossing (x f h : SA K) (axis : String) (n : Nat) : R (SA K) := do
  let reversed ← f.getitem [(axis, .slice ⟨none, none, some (-1)⟩)]
  let above ← ufunc2 (fun f h => decide (h ≤ f)) reversed h
  let index ← argReduce firstTrue above (some [axis])
  match index.get? axis with
  | none => .error .keyError
  | some k =>
    let i ← ufunc2 (· - ·) (scalar ((n : Int) - 1)) k
    let j ← ufunc2 (· + ·) i (scalar (1 : Int))
    let lower := index.set axis i
    let upper := index.set axis j
    let x1 ← x.getitem (asItem upper)
    let x0 ← x.getitem (asItem lower)
    let f1 ← f.getitem (asItem upper)
    let f0 ← f.getitem (asItem lower)
    crossing h x0 x1 f0 f1

/-- The part of `fwhm` after the axis is known.
Models `/repo/named_arrays/pdf.py` lines 217-262. -/
def fwhmAlong (x f : SA K) (axis : String) : R (SA K) := do
  let top ← reduce true listMax f (some [axis]) false none none
  let h ← ufunc2 (· / ·) top (scalar (2 : K))
  match f.shape.get? axis with
  | none => .error .keyError
  | some n =>
    let left ← leftCrossing x f h axis
    let right ← rightCrossing x f h axis n
    ufunc2 (· - ·) right left

/-- `na.pdf.fwhm(x, f, axis)`.
Models `/repo/named_arrays/pdf.py` lines 186-262. -/
def fwhm (x f : SA K) (axis : Option (List String)) : R (SA K) :=
  match axisNormalized f.axes axis with
  | [ax] => fwhmAlong x f ax
  | _ => .error .valueError

end SA
end NA
