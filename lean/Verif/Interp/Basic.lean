import Verif.Scalar.Index
import Verif.Scalar.Reduce
import Mathlib.Algebra.Order.Floor.Ring
import Mathlib.Algebra.Field.Basic

/-!
# Cell centers and linear interpolation

Model of `_lerp`, `_nlerp`, `cell_centers` and `interp_linear` of `/repo/named_arrays/_core.py` for scalar arrays with
elements in a field (exact arithmetic instead of floating point).
-/

namespace NA
namespace SA

variable {K : Type}

section centers
variable [Field K]

/-- `cls._lerp(i, a0, a1)`: `a0 * (1 - i) + a1 * i`.
Models `/repo/named_arrays/_core.py` lines 821-828. -/
def lerp (i a0 a1 : SA K) : R (SA K) := do
  let l ← ufunc2 (· * ·) a0 (← ufunc2 (· - ·) (scalar 1) i)
  let r ← ufunc2 (· * ·) a1 i
  ufunc2 (· + ·) l r

/-- `a._nlerp(i)`; the names in `i` are distinct, as in every `dict`.
Models `/repo/named_arrays/_core.py` lines 830-849. -/
def nlerp : Dict (SA K) → SA K → R (SA K)
  | [], a => .ok a
  | (axis, x) :: i, a => do
    let a0 ← a.getitem [(axis, .slice ⟨none, some (-1), none⟩)]
    let a1 ← a.getitem [(axis, .slice ⟨some 1, none, none⟩)]
    let a0 ← nlerp i a0
    let a1 ← nlerp i a1
    lerp x a0 a1

/-- The shape of the centers.
Models `/repo/named_arrays/_core.py` lines 880-884 (for axes of length at least one). -/
def centersShape (axis : List String) (shape : Shape) : Shape :=
  shape.map (fun p => (p.1, if p.1 ∈ axis then p.2 - 1 else p.2))

/-- The weights: `1/2`, or random numbers of the shape of the centers; `draw` gives the random numbers for each axis.  The
comprehension over `axis` builds a `dict`, so a repeated name occurs once.
Models `/repo/named_arrays/_core.py` lines 886-894. -/
def centerWeights (axis : List String) (shape : Shape) : Option (String → List Nat → K) → R (Dict (SA K))
  | none => .ok (axis.foldl (fun d ax => d.set ax (scalar (1 / 2))) [])
  | some draw =>
    if axis.any (fun ax => shape.get? ax == some 0) then .error .valueError
    else
      let s := centersShape axis shape
      .ok (axis.foldl (fun d ax => d.set ax ⟨s.keys, ⟨s.values, draw ax⟩⟩) [])

/-- `a.cell_centers(axis, random)`; a single name is a one-element list; for `random=True` the random numbers are given.
Models `/repo/named_arrays/_core.py` lines 851-896. -/
def cellCenters (a : SA K) (axis : Option (List String)) (random : Option (String → List Nat → K)) : R (SA K) := do
  let axis := (axis.getD a.axes).filter (· ∈ a.shape.keys)
  let i ← centerWeights axis a.shape random
  nlerp i a

end centers

section interp
variable [Field K] [LinearOrder K] [FloorRing K]

/-- The lower neighbour of the positions `x` along an axis of length `n`: for a 0-dimensional `x` a python integer, otherwise
an array, after two masked assignments (`int(x)` is the floor, because `x` is not negative there).
Models `/repo/named_arrays/_core.py` lines 1566-1581. -/
def lowerNode (n : Nat) (x : SA K) : R IndexVal :=
  if x.shape.isEmpty then
    let v := x.nd.get []
    .ok (.int (if v < 0 then 0 else if v ≥ (n : K) - 1 then (n : Int) - 2 else ⌊v⌋))
  else do
    let below ← ufunc1 (fun v => decide (v < 0)) x
    let above ← ufunc1 (fun v => decide ((n : K) - 1 ≤ v)) x
    let x0 ← ufunc1 (fun v => ⌊v⌋) x
    let x0 ← x0.setMask below (scalar 0)
    let x0 ← x0.setMask above (scalar ((n : Int) - 2))
    .ok (.arr x0)

/-- `x0 + 1` -/
def nextNode : IndexVal → R IndexVal
  | .int i => .ok (.int (i + 1))
  | .arr b => do .ok (.arr (← ufunc1 (· + 1) b))
  | _ => .error .typeError

/-- `x - x0` -/
def offset (x : SA K) : IndexVal → R (SA K)
  | .int i => ufunc2 (fun v (i : Int) => v - (i : K)) x (scalar i)
  | .arr b => ufunc2 (fun v (i : Int) => v - (i : K)) x b
  | _ => .error .typeError

/-- `y0 + t * (y1 - y0)` -/
def blend (y0 y1 t : SA K) : R (SA K) := do
  ufunc2 (· + ·) y0 (← ufunc2 (· * ·) t (← ufunc2 (· - ·) y1 y0))

/-- `a._interp_linear_recursive(item, item_base)` for positions which are scalar arrays.
Models `/repo/named_arrays/_core.py` lines 1553-1595. -/
def interpRec (a : SA K) : Dict (SA K) → Dict IndexVal → R (SA K)
  | [], _ => .error .valueError
  | (axis, x) :: item, base =>
    match a.shape.get? axis with
    | none => .error .keyError
    | some n => do
      let x0 ← lowerNode n x
      let x1 ← nextNode x0
      let base0 := base.set axis x0
      let base1 := base.set axis x1
      let y0 ← if item.isEmpty then a.getitem base0 else interpRec a item base0
      let y1 ← if item.isEmpty then a.getitem base1 else interpRec a item base1
      blend y0 y1 (← offset x x0)

/-- `a.interp_linear(item)`, `a(item)`.  The base index is `a[{ax: 0 for ax in item}].indices`.
Models `/repo/named_arrays/_core.py` lines 1597-1619 and `indices` lines 252-261. -/
def interpLinear (a : SA K) (item : Dict (SA K)) : R (SA K) :=
  if item.isEmpty then .ok a
  else do
    let rest ← a.getitem (item.map (fun p => (p.1, .int 0)))
    interpRec a item (rest.shape.map (fun p => (p.1, .arr (arange p.1 p.2))))

end interp
end SA
end NA
