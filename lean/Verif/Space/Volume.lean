import Verif.Space.Basic
import Verif.Vector.Volume

/-!
# Volumes of the cells of spaces and of random samples

A single name for `axis` is a one-element list.  Division by zero is an error, as in `SA.step`.
-/

namespace NA
open Dict

variable {K : Type} [Field K]

/-- The attributes of `ScalarLinearSpace` and of `ScalarStratifiedRandomSpace` (without its seed).
Models the fields of `/repo/named_arrays/_core.py` lines 1996-2007. -/
structure LinearSpace (K : Type) where
  start : SA K
  stop : SA K
  axis : String
  num : Int
  endpoint : Bool
  centers : Bool

namespace LinearSpace

/-- `explicit` of `ScalarLinearSpace`, and `strata` of `ScalarStratifiedRandomSpace`.
Models `/repo/named_arrays/_core.py` lines 2009-2018 and 2105-2114. -/
def explicit (s : LinearSpace K) : R (SA K) := SA.linspace s.start s.stop s.axis s.num s.endpoint s.centers

/-- `step`.  Models `/repo/named_arrays/_core.py` lines 2020-2028. -/
def step (s : LinearSpace K) : R (SA K) := SA.step s.start s.stop s.num s.endpoint s.centers

/-- `volume_cell(axis)` of a linear space whose explicit array is `explicit` (for `ScalarLinearSpace` this is `s.explicit`, for
`ScalarStratifiedRandomSpace` it has random offsets).
Models `/repo/named_arrays/_scalars/scalars.py` lines 1286-1300 and `/repo/named_arrays/_core.py` lines 282-303. -/
def volumeCell (s : LinearSpace K) (explicit : R (SA K)) (axis : Option (List String)) : R (SA K) := do
  let names ← match axis with
    | none => do
      let a ← explicit
      .ok a.axes
    | some l => .ok l
  match names with
  | [ax] =>
    if ax = s.axis then s.step
    else do
      let a ← explicit
      a.volumeCell (some [ax])
  | _ => .error .valueError

end LinearSpace

/-- `volume_cell(axis)` of `ScalarUniformRandomSample` between `start` and `stop`, whose explicit array is `explicit`.  Without
`shape_random` the membership test is a `TypeError`.
Models `/repo/named_arrays/_scalars/scalars.py` lines 1176-1190. -/
def uniformVolume (start stop : SA K) (shapeRandom : Option Shape) (explicit : R (SA K)) (axis : Option (List String)) : R (SA K) := do
  let names ← match axis with
    | none => do
      let a ← explicit
      .ok a.axes
    | some l => .ok l
  match names with
  | [ax] =>
    match shapeRandom with
    | none => .error .typeError
    | some sh =>
      match get? sh ax with
      | some n => do
        let d ← SA.ufunc2 (· - ·) stop start
        if n = 0 then .error .other else SA.ufunc2 (· / ·) d (SA.scalar (n : K))
      | none => do
        let a ← explicit
        a.volumeCell (some [ax])
  | _ => .error .valueError

/-- An attribute of a space of two-dimensional vectors: a number or scalar array, or a vector. -/
inductive Pair (α : Type) where
  | one (a : α)
  | two (x y : α)

namespace Pair

/-- The first component after `_attr_normalized`.
Models `/repo/named_arrays/_vectors/vectors.py` lines 740-757 and 550-564. -/
def x {α : Type} : Pair α → α
  | .one a => a
  | .two a _ => a

/-- The second component after `_attr_normalized`.
Models `/repo/named_arrays/_vectors/vectors.py` lines 740-757 and 550-564. -/
def y {α : Type} : Pair α → α
  | .one a => a
  | .two _ b => b

end Pair

/-- The attributes of `Cartesian2dVectorLinearSpace`; `axis` is a vector of two names. -/
structure PlaneSpace (K : Type) where
  start : Pair (SA K)
  stop : Pair (SA K)
  axisX : String
  axisY : String
  num : Pair Int
  endpoint : Bool
  centers : Bool

namespace PlaneSpace

/-- The space of the first component. -/
def partX (s : PlaneSpace K) : LinearSpace K := ⟨s.start.x, s.stop.x, s.axisX, s.num.x, s.endpoint, s.centers⟩

/-- The space of the second component. -/
def partY (s : PlaneSpace K) : LinearSpace K := ⟨s.start.y, s.stop.y, s.axisY, s.num.y, s.endpoint, s.centers⟩

/-- `explicit`: the attributes are converted to vectors, and the space is made for each component.
Models `/repo/named_arrays/_core.py` lines 2009-2018 and `/repo/named_arrays/_vectors/vector_array_functions.py` lines 117-153. -/
def explicit (s : PlaneSpace K) : R (SA K × SA K) := do
  let x ← s.partX.explicit
  let y ← s.partY.explicit
  .ok (x, y)

/-- `step`: the attributes are not converted, so that the result is a vector only if one of them is.
Models `/repo/named_arrays/_core.py` lines 2020-2028. -/
def step (s : PlaneSpace K) : R (Pair (SA K)) :=
  match s.start, s.stop, s.num with
  | .one _, .one _, .one _ => do
    let d ← s.partX.step
    .ok (.one d)
  | _, _, _ => do
    let dx ← s.partX.step
    let dy ← s.partY.step
    .ok (.two dx dy)

/-- `volume_cell(axis)` of a space whose explicit array has the components `explicit`; a step which is not a vector has no
`components`, `AttributeError`.
Models `/repo/named_arrays/_vectors/cartesian/vectors_cartesian_2d.py` lines 210-226. -/
def volumeCell (s : PlaneSpace K) (explicit : R (SA K × SA K)) (axis : Option (List String)) : R (SA K) := do
  let v ← explicit
  let names ← match axis with
    | none => do
      let sh ← broadcastShapes [v.1.shape, v.2.shape]
      .ok sh.keys
    | some l => .ok l
  if names.length ≠ 2 then .error .valueError
  else if names.all (· ∈ [s.axisX, s.axisY]) then do
    match ← s.step with
    | .one _ => .error .other
    | .two dx dy => do
      let p ← SA.ufunc2 (· * ·) (SA.scalar 1) dx
      SA.ufunc2 (· * ·) p dy
  else volumeCell2d v.1 v.2 (some names)

end PlaneSpace

/-- `volume_cell(axis)` of `Cartesian2dVectorUniformRandomSample`, whose explicit array has the components `explicit`; `size` is the
number of samples along the axes.
Models `/repo/named_arrays/_vectors/cartesian/vectors_cartesian_2d.py` lines 150-170. -/
def uniformArea (start stop : Pair (SA K)) (shapeRandom : Option Shape) (explicit : R (SA K × SA K)) (axis : Option (List String)) :
    R (SA K) := do
  let v ← explicit
  let names ← match axis with
    | none => do
      let sh ← broadcastShapes [v.1.shape, v.2.shape]
      .ok sh.keys
    | some l => .ok l
  if names.length ≠ 2 then .error .valueError
  else
    match shapeRandom with
    | none => .error .typeError
    | some sh =>
      if names.all (· ∈ sh.keys) then do
        let dx ← SA.ufunc2 (· - ·) stop.x start.x
        let dy ← SA.ufunc2 (· - ·) stop.y start.y
        let size := (names.map (fun ax => (get? sh ax).getD 1)).prod
        let p ← SA.ufunc2 (· * ·) (SA.scalar 1) dx
        let p ← SA.ufunc2 (· * ·) p dy
        if size = 0 then .error .other else SA.ufunc2 (· / ·) p (SA.scalar (size : K))
      else volumeCell2d v.1 v.2 (some names)

end NA
