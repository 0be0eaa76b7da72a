import Verif.Scalar.Histogram
import Verif.Vector.Structure

/-!
# Histograms of vectors

Model of `na.histogram` for vectors whose components are scalar arrays over an ordered field, or vectors of them.
-/

namespace NA
open Dict

section
variable {K : Type} [Field K] [LinearOrder K]

/-- The bins: the numbers of bins along new axes, or the edges. -/
inductive VBins (K : Type) where
  | counts (d : Dict Int)
  | edges (v : Comp (SA K))

namespace Comp

/-- `tuple(vectors._normalize(v, prototype=a).cartesian_nd.components.values())`, where `cls` is the type and `names` are the names of the
components of `a`: a scalar becomes each of the components, and a vector of another type is a `TypeError`.
Models `/repo/named_arrays/_vectors/vectors.py` lines 47-64, 550-564 and 106-123. -/
def flatParts (cls : String) (names : List String) : Comp (SA K) → R (List (SA K))
  | .leaf b => .ok (names.map (fun _ => b))
  | .node cls' bs => if cls' = cls then .ok (cartesianNd bs).values else .error .typeError

/-- ... of an argument which may be `None`. -/
def flatOption (cls : String) (names : List String) : Option (Comp (SA K)) → R (Option (List (SA K)))
  | none => .ok none
  | some v => do .ok (some (← flatParts cls names v))

/-- ... of the bins, unless they are given by their numbers.
Models `/repo/named_arrays/_vectors/vector_named_array_functions.py` lines 297-299. -/
def flatBins (cls : String) (names : List String) : VBins K → R (Bins K)
  | .counts d => .ok (.counts d)
  | .edges v => do .ok (.edges (← flatParts cls names v))

/-- `na.histogram(a, bins, axis, min, max, density, weights)` for a vector `a` of type `cls` with the components `cs`: the edges, which
are the inputs of the resulting function, and its outputs.
Models `/repo/named_arrays/_vectors/vector_named_array_functions.py` lines 280-325. -/
def histogram (cls : String) (cs : List (String × Comp (SA K))) (bins : VBins K) (axis : Option (List String))
    (min max : Option (Comp (SA K))) (density : Bool) (weights : Option (SA K)) (garbage : List Nat → K) :
    R (Comp (SA K) × SA K) := do
  let names := keys cs
  let bs ← flatBins cls names bins
  let mins ← flatOption cls names min
  let maxs ← flatOption cls names max
  let (hist, edges) ← NA.histogramdd (cartesianNd cs).values bs axis mins maxs density weights garbage
  let rs ← fromCartesianNd ((keys (cartesianNd cs)).zip edges) cs
  .ok (.node cls rs, hist)

end Comp
end
end NA
