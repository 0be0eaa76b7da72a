import Verif.Vector.SolidAngle
import Verif.Vector.Basic

/-!
# Lengths of Cartesian vectors and their normalization
-/

namespace NA.Comp
open Dict

variable {K : Type} [Field K]

/-- `vector.length`: the entries are those of `vector.cartesian_nd.entries`, that is `vector.cartesian_nd.cartesian_nd.components`.  The vector has
components `cs`; components which are `None` and units are not modelled.  Without components the result is the number `np.sqrt(0)`, an array
without axes here.
Models `/repo/named_arrays/_vectors/cartesian/vectors_cartesian.py` lines 40-49 and `/repo/named_arrays/_vectors/vectors.py` lines 134-139. -/
def vectorLength (m : Trig K) (cs : List (String × Comp (SA K))) : R (SA K) := do
  let entries := cartesianNd ((cartesianNd cs).map (fun p => (p.1, Comp.leaf p.2)))
  let result ← entries.foldlM (fun result p => V3.addSquare m result p.2) (SA.scalar 0)
  SA.ufunc1 m.sqrt result

/-- `vector.normalized`: `self / self.length`.  The division by zero, which numpy answers with `nan`, is that of the field.
Models `/repo/named_arrays/_vectors/cartesian/vectors_cartesian.py` lines 51-56. -/
def normalized (m : Trig K) (cls : String) (cs : List (String × Comp (SA K))) : R (Comp (SA K)) := do
  let length ← vectorLength m cs
  (Comp.node cls cs).ufunc2 (fun a b => SA.ufunc2 (· / ·) a b) (.leaf length)

end NA.Comp
