import Verif.Scalar.Histogram
import Verif.Scalar.Arith
import Verif.Uncertain.Basic

/-!
# Functions of other packages along named axes

Model of `na.geometry.point_in_polygon`, `na.numexpr.evaluate`, `na.ndfilters` and `na.despike` for scalars.  What the other
packages (`regridding`, `numexpr`, `ndfilters`, `astroscrappy`) compute for one point, one element, one window or one image is
a parameter.  Units are not modelled.
-/

namespace NA
open Dict

/-- An optional argument: `f(x) if x is not None else x`. -/
def optM {γ δ : Type} (f : γ → R δ) : Option γ → R (Option δ)
  | none => .ok none
  | some x => do
    let y ← f x
    .ok (some y)

/-- `na.shape(x)` of an optional argument; `None` has no axes. -/
def optShape {γ : Type} : Option (SA γ) → Shape
  | none => []
  | some x => x.shape

namespace ND
variable {α β : Type}

/-- The flattened arrays and the loop over the points; `reshape(-1, 0)` is an error.
Models `/repo/named_arrays/geometry/_point_in_polygon.py` lines 122-149 and 184-194, for arguments whose shapes agree already
(see `SA.pointInPolygon`). -/
def pointInPolygon (inside : α → α → List α → List α → Bool) (default : α) (n : Nat) (x y vx vy : ND α) : R (ND Bool) :=
  if n = 0 then .error .valueError
  else
    let row := fun (v : ND α) (i : Nat) => (v.toList.drop (i * n)).take n
    .ok (ND.ofList x.shape ((List.range x.shape.prod).map (fun i =>
      inside (x.toList.getD i default) (y.toList.getD i default) (row vx i) (row vy i))) false)

/-- Replace the positions `axis` of an index. -/
def putAt (i : List Nat) (axis : List Nat) (ks : List Nat) : List Nat :=
  (List.range i.length).map (fun p => if p ∈ axis then ks.getD (axis.idxOf p) 0 else i.getD p 0)

/-- A filter of the package `ndfilters`, which is applied along the dimensions `axis` for each index of the other dimensions
separately: `g size shape window k` is the element `k` of the result for an image `window` of the given shape.
Assumption about the package `ndfilters` (not part of `/repo`). -/
def ndfilter (g : List Nat → List Nat → (List Nat → α × Bool) → List Nat → β) (size axis : List Nat) (a : ND α) (w : ND Bool) :
    ND β :=
  ⟨a.shape, fun i => g size (axis.map (a.shape.getD · 0)) (fun ks => (a.get (putAt i axis ks), w.get (putAt i axis ks)))
    (axis.map (i.getD · 0))⟩

end ND

namespace SA
variable {α β : Type}

/-- `na.geometry.point_in_polygon(x, y, vertices_x, vertices_y, axis)`; `inside` is
`regridding.geometry.point_is_inside_polygon`, and `default` is never used.
Models `/repo/named_arrays/_scalars/scalar_named_array_functions.py` lines 2131-2178. -/
def pointInPolygon (inside : α → α → List α → List α → Bool) (default : α) (x y vx vy : SA α) (axis : String) : R (SA Bool) := do
  let shapeVertices ← broadcastShapes [x.shape, y.shape, vx.shape, vy.shape]
  let shape := orthogonal shapeVertices [axis]
  match get? shapeVertices axis with
  | none => .error .keyError
  | some n =>
    let shapeVertices := shape.set axis n
    let x ← x.broadcastTo shape
    let y ← y.broadcastTo shape
    let vx ← vx.broadcastTo shapeVertices
    let vy ← vy.broadcastTo shapeVertices
    let result ← ND.pointInPolygon inside default n x.nd y.nd vx.nd vy.nd
    mk? result shape.keys

/-- `na.numexpr.evaluate(ex, ...)`: `ex` gives the value of the expression for the values of its variables.
Assumption about the package `numexpr` (not part of `/repo`): arrays of the same shape are combined element by element.
Models `/repo/named_arrays/_scalars/scalar_named_array_functions.py` lines 2082-2128. -/
def evaluate (ex : Dict α → β) (arrays : Dict (SA α)) : R (SA β) := do
  let shape ← broadcastShapes (arrays.values.map SA.shape)
  let arrays ← arrays.mapM (fun p => do
    let b ← p.2.broadcastTo shape
    .ok (p.1, b.nd))
  mk? ⟨shape.values, fun i => ex (arrays.map (fun p => (p.1, p.2.get i)))⟩ shape.keys

/-- `na.ndfilters.mean_filter(array, size, where)` and its relatives, see `ND.ndfilter`.
Models `/repo/named_arrays/_scalars/scalar_named_array_functions.py` lines 1839-1874. -/
def ndfilter (g : List Nat → List Nat → (List Nat → α × Bool) → List Nat → β) (array : SA α) (size : Dict Nat) (wh : SA Bool) :
    R (SA β) := do
  let shape ← broadcastShapes [array.shape, wh.shape]
  if size.keys.all (· ∈ shape.keys) then
    let array ← array.broadcastTo shape
    let wh ← wh.broadcastTo shape
    mk? (ND.ndfilter g size.values (size.keys.map shape.keys.idxOf) array.nd wh.nd) shape.keys
  else .error .valueError

/-- The result of `astroscrappy` is written to the slice, which has the same shape. -/
def slabOfNd (axes : List String) (shape : List Nat) (r : ND α) : R (SA α) :=
  if r.shape = shape then mk? r axes else .error .valueError

/-- One image of `despike`.
Models `/repo/named_arrays/_scalars/scalar_named_array_functions.py` lines 2052-2074. -/
def despikeSlab (clean : ND α → Option (ND Bool) → Option (ND α) → Option (ND α) → Option (ND α) → R (ND α))
    (array : SA α) (inmask : Option (SA Bool)) (inbkg invar psfk : Option (SA α)) (i : Dict IndexVal) : R (SA α) := do
  let c ← array.getitem i
  let m ← optM (fun a => a.getitem i) inmask
  let b ← optM (fun a => a.getitem i) inbkg
  let v ← optM (fun a => a.getitem i) invar
  let k ← optM (fun a => a.getitem i) psfk
  let r ← clean c.nd (m.map SA.nd) (b.map SA.nd) (v.map SA.nd) (k.map SA.nd)
  slabOfNd c.axes c.nd.shape r

/-- The point spread function, broadcast along the axes of the images.
Models `/repo/named_arrays/_scalars/scalar_named_array_functions.py` lines 2044-2047. -/
def despikePsf (orthogonal : Shape) (psfk : SA α) : R (SA α) := do
  let shapePsfk ← broadcastShapes [orthogonal, psfk.shape]
  psfk.broadcastTo shapePsfk

/-- `na.despike(array, axis, where, inbkg, invar, psfk)`; `clean` is `astroscrappy.detect_cosmics(...)[1]`.
Models `/repo/named_arrays/_scalars/scalar_named_array_functions.py` lines 1999-2079. -/
def despike (clean : ND α → Option (ND Bool) → Option (ND α) → Option (ND α) → Option (ND α) → R (ND α))
    (array : SA α) (axis : List String) (wh : Option (SA Bool)) (inbkg invar psfk : Option (SA α)) : R (SA α) := do
  let shape ← broadcastShapes [array.shape, optShape wh, optShape inbkg, optShape invar]
  let array ← array.broadcastTo shape
  let wh ← optM (fun a => a.broadcastTo shape) wh
  let inbkg ← optM (fun a => a.broadcastTo shape) inbkg
  let invar ← optM (fun a => a.broadcastTo shape) invar
  let psfk ← optM (despikePsf (orthogonal shape axis)) psfk
  let inmask := wh.map (fun a => (⟨a.axes, ⟨a.nd.shape, fun i => !a.nd.get i⟩⟩ : SA Bool))
  (ndindex shape axis).foldlM (fun h i => do
    let v ← despikeSlab clean array inmask inbkg invar psfk (ints i)
    h.setitem (ints i) v) array

end SA
end NA
