import Verif.Scalar.Index
import Verif.Matrix.Basic
import Verif.Function.Integrate

/-!
# Volumes of the cells of vertex grids
-/

namespace NA
open Dict

variable {K : Type} [Field K]

/-- `slice(None, ~0)` or `slice(+1, None)` -/
def sliceEnd (upper : Bool) : IndexVal := .slice (if upper then ⟨some 1, none, none⟩ else ⟨none, some (-1), none⟩)

/-- A corner of the cells: `{a1: ..., a2: ...}`. -/
def cornerItem (a1 a2 : String) (c : Bool × Bool) : Dict IndexVal :=
  (Dict.set [] a1 (sliceEnd c.1)).set a2 (sliceEnd c.2)

/-- The corners of the cells in the order of the code.
Models `slices` of `/repo/named_arrays/_vectors/cartesian/vectors_cartesian_2d.py` lines 75-80. -/
def corners : List (Bool × Bool) := [(false, false), (true, false), (true, true), (false, true)]

/-- The loop over the corners: `result + y[i] * (x[i - 1] - x[(i + 1) % n])`.
Models `/repo/named_arrays/_vectors/cartesian/vectors_cartesian_2d.py` lines 99-102. -/
def shoelaceStep (x y : List (SA K)) (result : SA K) (i : Nat) : R (SA K) := do
  let d ← SA.ufunc2 (· - ·) (x.getD ((i + 3) % 4) (SA.scalar 0)) (x.getD ((i + 1) % 4) (SA.scalar 0))
  let p ← SA.ufunc2 (· * ·) (y.getD i (SA.scalar 0)) d
  SA.ufunc2 (· + ·) result p

/-- The signed area from the broadcast components.
Models `/repo/named_arrays/_vectors/cartesian/vectors_cartesian_2d.py` lines 75-104. -/
def cellArea (a1 a2 : String) (x y : SA K) : R (SA K) := do
  let xs ← corners.mapM (fun c => x.getitem (cornerItem a1 a2 c))
  let ys ← corners.mapM (fun c => y.getitem (cornerItem a1 a2 c))
  let r ← (List.range 4).foldlM (shoelaceStep xs ys) (SA.scalar 0)
  SA.ufunc2 (· / ·) r (SA.scalar 2)

/-- `volume_cell` of a two-dimensional vector with scalar components.  Without `axis`, the vector must have two axes; an
`axis` of another length cannot be unpacked, which is also a `ValueError`.
Models `/repo/named_arrays/_vectors/cartesian/vectors_cartesian_2d.py` lines 59-104. -/
def volumeCell2d (x y : SA K) (axis : Option (List String)) : R (SA K) := do
  let s ← broadcastShapes [x.shape, y.shape]
  match axis.getD s.keys with
  | [a1, a2] =>
    if a1 ∈ s.keys ∧ a2 ∈ s.keys then do
      let x ← x.broadcastTo s
      let y ← y.broadcastTo s
      cellArea a1 a2 x y
    else .error .valueError
  | _ => .error .valueError

/-- The three components of a vector. -/
structure V3 (K : Type) where
  x : SA K
  y : SA K
  z : SA K

namespace V3

/-- `vector[item]` of the components.
Models `/repo/named_arrays/_vectors/vectors.py` lines 279-347. -/
def getitem (v : V3 K) (item : Dict IndexVal) : R (V3 K) := do
  let x ← v.x.getitem item
  let y ← v.y.getitem item
  let z ← v.z.getitem item
  .ok ⟨x, y, z⟩

/-- `a * b - c * d` -/
def minor (a b c d : SA K) : R (SA K) := do
  let p ← SA.ufunc2 (· * ·) a b
  let q ← SA.ufunc2 (· * ·) c d
  SA.ufunc2 (· - ·) p q

/-- `a.cross(b)`.
Models `/repo/named_arrays/_vectors/cartesian/vectors_cartesian_3d.py` lines 203-226. -/
def cross (a b : V3 K) : R (V3 K) := do
  let x ← minor a.y b.z a.z b.y
  let y ← minor a.x b.z a.z b.x
  let y ← SA.ufunc1 (fun t => -t) y
  let z ← minor a.x b.y a.y b.x
  .ok ⟨x, y, z⟩

/-- `result + a @ b` for scalar arrays, where `none` is the plain number `0`, both as the value of the matrix product
and of the sum.
Models `/repo/named_arrays/_scalars/scalars.py` lines 134-156 and `/repo/named_arrays/_vectors/vectors.py` line 403. -/
def addProduct [DecidableEq K] (result : Option (SA K)) (a b : SA K) : R (Option (SA K)) :=
  if a.allZero || b.allZero then .ok result
  else do
    let p ← SA.ufunc2 (· * ·) a b
    match result with
    | none => .ok (some p)
    | some r => do
      let s ← SA.ufunc2 (· + ·) r p
      .ok (some s)

/-- `a @ b`.
Models `/repo/named_arrays/_vectors/vectors.py` lines 370-405 for vectors with the components `x`, `y`, `z`; `none` is the
number `0` (a zero-dimensional numpy object), when each product has a vanishing factor. -/
def dot [DecidableEq K] (a b : V3 K) : R (Option (SA K)) := do
  let r ← addProduct none a.x b.x
  let r ← addProduct r a.y b.y
  addProduct r a.z b.z

/-- `vol[item]`; a number cannot be indexed by a dictionary. -/
def index (v : Option (SA K)) (item : Dict IndexVal) : R (SA K) :=
  match v with
  | none => .error .indexError
  | some a => a.getitem item

/-- One triangle of the faces: the tetrahedra with the origin of the lower face are subtracted and those of the upper
face are added.
Models `/repo/named_arrays/_vectors/cartesian/vectors_cartesian_3d.py` lines 105-109. -/
def triangleStep [DecidableEq K] (a3 : String) (result : SA K) (t : V3 K × V3 K × V3 K) : R (SA K) := do
  let c ← cross t.2.1 t.2.2
  let vol ← dot t.1 c
  let lo ← index vol [(a3, sliceEnd false)]
  let r ← SA.ufunc2 (· - ·) result lo
  let hi ← index vol [(a3, sliceEnd true)]
  SA.ufunc2 (· + ·) r hi

/-- One pair of opposite faces, each divided in two triangles.
Models `/repo/named_arrays/_vectors/cartesian/vectors_cartesian_3d.py` lines 93-109. -/
def faceStep [DecidableEq K] (v : V3 K) (result : SA K) (f : String × String × String) : R (SA K) := do
  let f0 ← v.getitem (cornerItem f.1 f.2.1 (false, false))
  let f1 ← v.getitem (cornerItem f.1 f.2.1 (true, false))
  let f2 ← v.getitem (cornerItem f.1 f.2.1 (true, true))
  let f3 ← v.getitem (cornerItem f.1 f.2.1 (false, true))
  let r ← triangleStep f.2.2 result (f0, f1, f2)
  triangleStep f.2.2 r (f2, f3, f0)

/-- `volume_cell` of a three-dimensional vector with scalar components.
Models `/repo/named_arrays/_vectors/cartesian/vectors_cartesian_3d.py` lines 68-113. -/
def volumeCell [DecidableEq K] (v : V3 K) (axis : Option (List String)) : R (SA K) := do
  let s ← broadcastShapes [v.x.shape, v.y.shape, v.z.shape]
  match axis.getD s.keys with
  | [ax, ay, az] =>
    if ax ∈ s.keys ∧ ay ∈ s.keys ∧ az ∈ s.keys then do
      let r ← [(ax, ay, az), (ay, az, ax), (az, ax, ay)].foldlM (faceStep v) (SA.scalar 0)
      SA.ufunc2 (· / ·) r (SA.scalar 6)
    else .error .valueError
  | _ => .error .valueError

end V3
end NA
