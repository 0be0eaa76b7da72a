import Verif.Vector.Reduce
import Verif.Vector.Structure
import Verif.Scalar.Percentile
import Verif.Scalar.Fourier
import Verif.Scalar.Join

/-!
# Percentiles, Fourier transforms, sorting and limits of vectors

Model of `/repo/named_arrays/_vectors/vector_array_functions.py` lines 267-316, 363-430, 621-657 and 912-947.
-/

namespace NA
open Dict
namespace Comp
variable {α β κ : Type}

/-- `q.components[c] if isinstance(q, na.AbstractVectorArray) else q`.
Models `/repo/named_arrays/_vectors/vector_array_functions.py` lines 293, 310. -/
def componentQ (k : String) : Comp (SA κ) → R (Comp (SA κ))
  | .leaf q => .ok (.leaf q)
  | .node _ qs => match get? qs k with
    | some q => .ok q
    | none => .error .keyError

/-- `array_function_percentile_like` for vectors, without `out`; `q` is a scalar or a vector.
Models `/repo/named_arrays/_vectors/vector_array_functions.py` lines 267-316.  A scalar component with a vector for `q` raises
`AttributeError` (`a.components`).  The recursion is on the nesting depth, see `deepAux`. -/
def percentileAux (valid : κ → Bool) (pct : κ → List α → β) (axis : Option (List String)) (keepdims : Bool) :
    Nat → Comp (SA κ) → Comp (SA α) → R (Comp (SA β))
  | 0, _, _ => .error .other
  | _ + 1, .leaf q, .leaf a => do .ok (.leaf (← a.percentileLike valid pct q axis keepdims none))
  | _ + 1, .node _ _, .leaf _ => .error .other
  | n + 1, q, .node cls cs => do
    let shape ← (Comp.node cls cs).shape
    let axes ← reduceAxes axis shape
    let base := shapeBase shape axes
    let rs ← cs.mapM (fun p => do
      let c ← broadcastBase base p.2
      let qc ← componentQ p.1 q
      let r ← percentileAux valid pct axis keepdims n qc c
      .ok (p.1, r))
    .ok (.node cls rs)

/-- `np.percentile(v, q, axis, keepdims=)` and the like; see `percentileAux`. -/
def percentile (valid : κ → Bool) (pct : κ → List α → β) (v : Comp (SA α)) (q : Comp (SA κ)) (axis : Option (List String))
    (keepdims : Bool) : R (Comp (SA β)) :=
  percentileAux valid pct axis keepdims v.depth q v

/-- The check of the axis to be transformed.
Models `/repo/named_arrays/_vectors/vector_array_functions.py` lines 375-378. -/
def fftAxes (axis : String × String) (shape : Shape) : R (List String) :=
  if axis.1 ∈ shape.keys then .ok [axis.1] else .error .valueError

/-- `array_function_fft_like` for vectors: `np.fft.fft(v, axis=(old, new), n=n)`, ...
Models `/repo/named_arrays/_vectors/vector_array_functions.py` lines 363-394. -/
def fft (t : ND.Line α) (v : Comp (SA α)) (axis : String × String) (n : Option Nat) : R (Comp (SA α)) :=
  deep (fftAxes axis) (fun a => a.fftLike t axis n) v

/-- The check of the axes to be transformed.
Models `/repo/named_arrays/_vectors/vector_array_functions.py` lines 409-412. -/
def fftnAxes (axes : Dict String) (shape : Shape) : R (List String) :=
  if axes.keys ⊆ shape.keys then .ok axes.keys else .error .valueError

/-- `array_function_fftn_like` for vectors: `np.fft.fftn(v, axes={old: new, ...}, s=s)`, ...
Models `/repo/named_arrays/_vectors/vector_array_functions.py` lines 397-430. -/
def fftn (plan : List (Nat × Nat) → R (List (ND.Step α))) (v : Comp (SA α)) (axes : Dict String) (s : Option (Dict Nat)) :
    R (Comp (SA α)) :=
  deep (fftnAxes axes) (fun a => a.fftnLike plan axes s) v

/-- `np.sort` with a sequence of axes: a component with none of the axes is left as it is.
Models `/repo/named_arrays/_vectors/vector_array_functions.py` lines 639-657.  The recursion is on the nesting depth, see `deepAux`. -/
def sortAux (srt : List α → List α) (dflt : α) (A : List String) : Nat → Comp (SA α) → R (Comp (SA α))
  | 0, _ => .error .other
  | _ + 1, .leaf a => do .ok (.leaf (← a.sort srt dflt (some A)))
  | n + 1, .node cls cs => do
    let shape ← (Comp.node cls cs).shape
    if A.isEmpty then .error .valueError
    else if ¬ A ⊆ shape.keys then .error .valueError
    else do
      let base := shapeBase shape A
      let rs ← cs.mapM (fun p => do
        let s ← p.2.shape
        if s.keys.any (· ∈ A) then do
          let c ← broadcastBase base p.2
          let r ← sortAux srt dflt A n c
          .ok (p.1, r)
        else .ok p)
      .ok (.node cls rs)

/-- `np.sort(v, axis)` for a vector.
Models `/repo/named_arrays/_vectors/vector_array_functions.py` lines 621-657. -/
def sort (srt : List α → List α) (dflt : α) (v : Comp (SA α)) : Option (List String) → R (Comp (SA α))
  | some A => sortAux srt dflt A v.depth v
  | none => do
    let shape ← v.shape
    if shape.keys.isEmpty then .ok v else sortAux srt dflt shape.keys v.depth v

/-- `np.clip` for the scalars at one path; a bound may be `None`. -/
def clipScalars (mx mn : α → α → α) : List (Option (SA α)) → R (SA α)
  | [some a, lo, hi] => SA.clip mx mn a lo hi
  | _ => .error .other

/-- `np.clip(a, a_min, a_max)` for vectors and scalars, at least one of them a vector; a bound may be `None`.
Models `/repo/named_arrays/_vectors/vector_array_functions.py` lines 912-947 without `out`. -/
def clip (mx mn : α → α → α) (a : Comp (SA α)) (lo hi : Comp (Option (SA α))) : R (Comp (SA α)) := do
  let a ← a.mapM (fun a => .ok (some a))
  nary .ok (clipScalars mx mn) [a, lo, hi]

end Comp
end NA
