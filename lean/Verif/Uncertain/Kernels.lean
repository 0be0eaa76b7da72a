import Verif.Uncertain.Structure
import Verif.Scalar.Kernels

/-!
# Functions of other packages for uncertain scalars

Model of `na.geometry.point_in_polygon`, `na.numexpr.evaluate`, `na.ndfilters` and `na.despike` for uncertain scalars.
-/

namespace NA
open Dict
namespace UA
variable {α β : Type}

/-- `na.geometry.point_in_polygon(x, y, vertices_x, vertices_y, axis)`; the parts of the arguments are not broadcast against each
other.
Models `/repo/named_arrays/_scalars/uncertainties/uncertainties_named_array_functions.py` lines 1356-1392. -/
def pointInPolygon (inside : α → α → List α → List α → Bool) (default : α) (x y vx vy : UArg α) (axis : String) : R (UA Bool) := do
  let x ← norm x
  let y ← norm y
  let vx ← norm vx
  let vy ← norm vy
  let n ← SA.pointInPolygon inside default x.nominal y.nominal vx.nominal vy.nominal axis
  let d ← SA.pointInPolygon inside default x.distribution y.distribution vx.distribution vy.distribution axis
  mk? n d

/-- `na.numexpr.evaluate(ex, ...)`.
Models `/repo/named_arrays/_scalars/uncertainties/uncertainties_named_array_functions.py` lines 1316-1353. -/
def evaluate (ex : Dict α → β) (arrays : Dict (UArg α)) : R (UA β) := do
  let arrays ← arrays.mapM (fun p => do
    let u ← norm p.2
    .ok (p.1, u))
  let n ← SA.evaluate ex (arrays.map (fun p => (p.1, p.2.nominal)))
  let d ← SA.evaluate ex (arrays.map (fun p => (p.1, p.2.distribution)))
  mk? n d

/-- `na.ndfilters.mean_filter(array, size, where)` and its relatives.
Models `/repo/named_arrays/_scalars/uncertainties/uncertainties_named_array_functions.py` lines 1209-1240. -/
def ndfilter (g : List Nat → List Nat → (List Nat → α × Bool) → List Nat → β) (array : UArg α) (size : Dict Nat)
    (wh : UArg Bool) : R (UA β) := do
  let array ← norm array
  let wh ← norm wh
  let array ← array.broadcasted
  let wh ← wh.broadcasted
  let n ← SA.ndfilter g array.nominal size wh.nominal
  let d ← SA.ndfilter g array.distribution size wh.distribution
  mk? n d

/-- `na.despike(array, axis, where, inbkg, invar, psfk)`.  The parts of the result are assigned to a copy of the array, without the
check of the constructor.
Models `/repo/named_arrays/_scalars/uncertainties/uncertainties_named_array_functions.py` lines 1243-1313. -/
def despike (clean : ND α → Option (ND Bool) → Option (ND α) → Option (ND α) → Option (ND α) → R (ND α))
    (array : UArg α) (axis : List String) (wh : Option (UArg Bool)) (inbkg invar psfk : Option (UArg α)) : R (UA α) := do
  let array ← norm array
  let wh ← normOpt wh
  let inbkg ← normOpt inbkg
  let invar ← normOpt invar
  let psfk ← normOpt psfk
  let n ← SA.despike clean array.nominal axis (wh.map UA.nominal) (inbkg.map UA.nominal) (invar.map UA.nominal)
    (psfk.map UA.nominal)
  let d ← SA.despike clean array.distribution axis (wh.map UA.distribution) (inbkg.map UA.distribution)
    (invar.map UA.distribution) (psfk.map UA.distribution)
  .ok ⟨n, d⟩

end UA
end NA
