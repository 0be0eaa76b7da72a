import Verif.Interp.Table
import Verif.Uncertain.Structure
import Verif.Vector.Structure

/-!
# Interpolation in tables of uncertain scalars and of vectors
-/

namespace NA
open Dict

section
variable {K : Type} [Field K] [LinearOrder K]

/-- `na.interp(x, xp, fp, axis, left, right, period)` if some argument is an uncertain scalar: all arguments are normalized, and
the nominal values and the samples are interpolated by the function for scalars, **without** `axis`.
Models `/repo/named_arrays/_scalars/uncertainties/uncertainties_named_array_functions.py` lines 155-197.  `garbage` stands for the contents of
`np.empty` in the two calls. -/
def UA.interp (I : Option K → Option K → Option K → List K → List K → K → K) (x xp fp : UArg K) (_axis : Option String)
    (left right period : Option (UArg K)) (garbage : Bool → List Nat → K) : R (UA K) := do
  let x ← UA.norm x
  let xp ← UA.norm xp
  let fp ← UA.norm fp
  let left ← UA.normOpt left
  let right ← UA.normOpt right
  let period ← UA.normOpt period
  let n ← NA.interp I x.nominal xp.nominal fp.nominal none (left.map UA.nominal) (right.map UA.nominal) (period.map UA.nominal)
    (garbage false)
  let d ← NA.interp I x.distribution xp.distribution fp.distribution none (left.map UA.distribution) (right.map UA.distribution)
    (period.map UA.distribution) (garbage true)
  UA.mk? n d

namespace Comp

/-- `vectors._normalize(bound, prototype=fp).cartesian_nd.components`, where `names` are the components of `fp` and `cls` is its
type: a vector of the same type is used as it is, while `None`, a number or a scalar array becomes a component of each of the
names.
Models `/repo/named_arrays/_vectors/vectors.py` lines 47-64, 550-564 and 106-123 and
`/repo/named_arrays/_vectors/vector_named_array_functions.py` lines 248-257.  Simplification: the `NotImplemented` for a vector of another
type becomes the `TypeError` to which it leads. -/
def boundParts (cls : String) (names : List String) : Comp (Option (SA K)) → R (Dict (Option (SA K)))
  | .leaf b => .ok (names.map (fun k => (k, b)))
  | .node cls' bs => if cls' = cls then .ok (cartesianNd bs) else .error .typeError

/-- One turn of the loop over the components of `fp.cartesian_nd`.
Models `/repo/named_arrays/_vectors/vector_named_array_functions.py` lines 260-268. -/
def interpPart (I : Option K → Option K → Option K → List K → List K → K → K) (x xp : SA K) (axis : Option String)
    (lefts rights : Dict (Option (SA K))) (period : Option (SA K)) (garbage : String → List Nat → K) (p : String × SA K) :
    R (String × SA K) :=
  match get? lefts p.1 with
  | none => .error .keyError
  | some left => match get? rights p.1 with
    | none => .error .keyError
    | some right => do .ok (p.1, ← NA.interp I x xp p.2 axis left right period (garbage p.1))

/-- `na.interp(x, xp, fp, axis, left, right, period)` for a vector `fp` of type `cls` with the components `cs`, and scalar arrays `x`, `xp`
and `period`.
Models `/repo/named_arrays/_vectors/vector_named_array_functions.py` lines 239-277.  Simplification: the components of `fp` are
scalar arrays or vectors of them (not numbers or uncertain scalars). -/
def interp (I : Option K → Option K → Option K → List K → List K → K → K) (x xp : SA K) (cls : String) (cs : List (String × Comp (SA K)))
    (axis : Option String) (left right : Comp (Option (SA K))) (period : Option (SA K)) (garbage : String → List Nat → K) :
    R (Comp (SA K)) := do
  let lefts ← boundParts cls (keys cs) left
  let rights ← boundParts cls (keys cs) right
  let nd ← (cartesianNd cs).mapM (interpPart I x xp axis lefts rights period garbage)
  .ok (.node cls (← fromCartesianNd nd cs))

end Comp
end
end NA
