import Verif.Vector.Volume

/-!
# Solid angles of the cells of vertex grids
-/

namespace NA
open Dict

variable {K : Type} [Field K]

/-- The functions of numpy which are used: `np.sqrt`, `np.abs` and `np.arctan2`. -/
structure Trig (K : Type) where
  sqrt : K → K
  abs : K → K
  arctan2 : K → K → K

namespace V3

/-- The result of `a @ b` as an operand of further arithmetic: a plain number broadcasts like an array without axes. -/
def orZero (r : Option (SA K)) : SA K := r.getD (SA.scalar 0)

/-- One turn of the loop over the entries: `result + np.square(np.abs(entry))`.
Models `/repo/named_arrays/_vectors/cartesian/vectors_cartesian.py` lines 44-47. -/
def addSquare (m : Trig K) (result c : SA K) : R (SA K) := do
  let t ← SA.ufunc1 (fun t => m.abs t * m.abs t) c
  SA.ufunc2 (· + ·) result t

/-- `a.length`.
Models `/repo/named_arrays/_vectors/cartesian/vectors_cartesian.py` lines 41-49. -/
def length (m : Trig K) (a : V3 K) : R (SA K) := do
  let r ← addSquare m (SA.scalar 0) a.x
  let r ← addSquare m r a.y
  let r ← addSquare m r a.z
  SA.ufunc1 m.sqrt r

/-- `(a @ b) * c_`.
Models `/repo/named_arrays/_vectors/cartesian/vectors_cartesian_3d.py` lines 129-131. -/
def dotTimes [DecidableEq K] (a b : V3 K) (c : SA K) : R (SA K) := do
  let d ← dot a b
  SA.ufunc2 (· * ·) (orZero d) c

/-- The solid angle of a triangle.  Units are not modelled.
Models `/repo/named_arrays/_vectors/cartesian/vectors_cartesian_3d.py` lines 116-142. -/
def solidAngle [DecidableEq K] (m : Trig K) (a b c : V3 K) : R (SA K) := do
  let bc ← cross b c
  let numerator ← dot a bc
  let a' ← length m a
  let b' ← length m b
  let c' ← length m c
  let ab' ← SA.ufunc2 (· * ·) a' b'
  let d0 ← SA.ufunc2 (· * ·) ab' c'
  let d1 ← dotTimes a b c'
  let d2 ← dotTimes a c b'
  let d3 ← dotTimes b c a'
  let d ← SA.ufunc2 (· + ·) d0 d1
  let d ← SA.ufunc2 (· + ·) d d2
  let d ← SA.ufunc2 (· + ·) d d3
  SA.ufunc2 (fun y x => 2 * m.arctan2 y x) (orZero numerator) d

/-- `solid_angle_cell(axis)`.  Without `axis`, the vector must have two axes; an `axis` of another length cannot be unpacked, which is
also a `ValueError`.
Models `/repo/named_arrays/_vectors/cartesian/vectors_cartesian_3d.py` lines 144-201. -/
def solidAngleCell [DecidableEq K] (m : Trig K) (v : V3 K) (axis : Option (List String)) : R (SA K) := do
  let s ← broadcastShapes [v.x.shape, v.y.shape, v.z.shape]
  match axis.getD s.keys with
  | [ax, ay] =>
    if ax ∈ s.keys ∧ ay ∈ s.keys then do
      let a ← v.getitem (cornerItem ax ay (false, false))
      let b ← v.getitem (cornerItem ax ay (true, false))
      let c ← v.getitem (cornerItem ax ay (true, true))
      let d ← v.getitem (cornerItem ax ay (false, true))
      let r1 ← solidAngle m a b c
      let r2 ← solidAngle m c d a
      SA.ufunc2 (· + ·) r1 r2
    else .error .valueError
  | _ => .error .valueError

end V3
end NA
