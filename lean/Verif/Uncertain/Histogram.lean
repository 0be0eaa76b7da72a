import Verif.Scalar.Histogram
import Verif.Uncertain.Convolve

/-!
# Histograms of uncertain scalars

Model of `na.histogram`, `na.histogram2d` and `na.histogramdd` for uncertain scalars over an ordered field.
-/

namespace NA
open Dict

section
variable {K : Type} [Field K] [LinearOrder K]

/-- The bins: the numbers of bins along new axes, or the edges, which may be uncertain. -/
inductive UBins (K : Type) where
  | counts (d : Dict Int)
  | edges (l : List (UArg K))

namespace UA

/-- `[uncertainties._normalize(b) for b in bins] if not isinstance(bins, dict) else bins`, and the bins for the nominal value and for
the samples.
Models `/repo/named_arrays/_scalars/uncertainties/uncertainties_named_array_functions.py` lines 352, 393 and 403. -/
def binParts : UBins K → R (Bins K × Bins K)
  | .counts d => .ok (.counts d, .counts d)
  | .edges l => do
    let us ← l.mapM norm
    .ok (.edges (us.map nominal), .edges (us.map distribution))

/-- `na.shape(weights)`: an argument which is `None` has no axes. -/
def optionShape : Option (UA K) → R Shape
  | none => .ok []
  | some w => w.shape

/-- The weights, broadcast along the axes which are summed over.
Models `/repo/named_arrays/_scalars/uncertainties/uncertainties_named_array_functions.py` lines 370-373. -/
def spreadWeights (shapeHist : Shape) : Option (UA K) → R (Option (UA K))
  | none => .ok none
  | some w => do
    let s ← w.shape
    let t ← broadcastShapes [s, shapeHist]
    .ok (some (← w.broadcastTo t))

/-- The bounds: the given ones, or the smallest or largest element of each of the samples.  A single array which is given is repeated
here for each of the samples.
Models `/repo/named_arrays/_scalars/uncertainties/uncertainties_named_array_functions.py` lines 375-389. -/
def boundParts (f : List K → K) (us : List (UA K)) (axis : List String) : Option (List (UArg K)) → R (List (UA K))
  | some l => l.mapM norm
  | none => us.mapM (fun u => u.reduce true f (some axis) false none)

/-- `na.histogramdd(*samples, bins, axis, min, max, density, weights)` for uncertain scalars: the histogram and the edges.
Models `/repo/named_arrays/_scalars/uncertainties/uncertainties_named_array_functions.py` lines 339-421.  `garbage` stands for the
contents of `np.empty` for the nominal value and for the samples. -/
def histogramdd (samples : List (UArg K)) (bins : UBins K) (axis : Option (List String)) (min max : Option (List (UArg K)))
    (density : Bool) (weights : Option (UArg K)) (garbage garbageD : List Nat → K) : R (UA K × List (UA K)) := do
  let us ← samples.mapM norm
  let bs ← binParts bins
  let w ← normOpt weights
  let shapes ← us.mapM shape
  let ws ← optionShape w
  let shape ← broadcastShapes (shapes ++ [ws])
  let axis := axis.getD shape.keys
  let shapeHist ← pickAxes shape axis
  let shapeSample ← broadcastShapes shapes
  let shapeSample ← broadcastShapes [shapeSample, shapeHist]
  let us ← us.mapM (fun u => u.broadcastTo shapeSample)
  let w ← spreadWeights shapeHist w
  let mins ← boundParts listMin us axis min
  let maxs ← boundParts listMax us axis max
  let (histN, edgesN) ← NA.histogramdd (us.map nominal) bs.1 (some axis) (some (mins.map nominal)) (some (maxs.map nominal)) density
    (w.map nominal) garbage
  let (histD, edgesD) ← NA.histogramdd (us.map distribution) bs.2 (some axis) (some (mins.map distribution))
    (some (maxs.map distribution)) density (w.map distribution) garbageD
  let hist ← mk? histN histD
  let edges ← (edgesN.zip edgesD).mapM (fun p => mk? p.1 p.2)
  .ok (hist, edges)

/-- `na.histogram(a, bins, axis, min, max, density, weights)` for uncertain scalars: the outputs and the inputs of the resulting function.
Models `/repo/named_arrays/_scalars/uncertainties/uncertainties_named_array_functions.py` lines 197-225. -/
def histogram (a : UArg K) (bins : UBins K) (axis : Option (List String)) (min max : Option (UArg K)) (density : Bool)
    (weights : Option (UArg K)) (garbage garbageD : List Nat → K) : R (UA K × UA K) := do
  let (hist, edges) ← histogramdd [a] bins axis (min.map fun m => [m]) (max.map fun m => [m]) density weights garbage garbageD
  match edges with
  | [] => .error .indexError
  | e :: _ => .ok (hist, e)

/-- The two components of a bound. -/
def boundPair : Option (UArg K × UArg K) → R (Option (UA K × UA K))
  | none => .ok none
  | some m => do
    let x ← norm m.1
    let y ← norm m.2
    .ok (some (x, y))

/-- `na.histogram2d(x, y, bins, axis, min, max, density, weights)` for uncertain scalars: the histogram and the edges.  The argument
`axis` is passed on unchanged.
Models `/repo/named_arrays/_scalars/uncertainties/uncertainties_named_array_functions.py` lines 228-336.  A bound which is a scalar is
repeated for both components here. -/
def histogram2d (x y : UArg K) (bins : UBins K) (axis : Option (List String)) (min max : Option (UArg K × UArg K)) (density : Bool)
    (weights : Option (UArg K)) (garbage garbageD : List Nat → K) : R (UA K × UA K × UA K) := do
  let x ← (← norm x).broadcasted
  let y ← (← norm y).broadcasted
  let w ← normOpt weights
  let bs ← binParts bins
  let mins ← boundPair min
  let maxs ← boundPair max
  let (histN, exN, eyN) ← NA.histogram2d x.nominal y.nominal bs.1 axis (mins.map fun m => (m.1.nominal, m.2.nominal))
    (maxs.map fun m => (m.1.nominal, m.2.nominal)) density (w.map nominal) garbage
  let (histD, exD, eyD) ← NA.histogram2d x.distribution y.distribution bs.2 axis
    (mins.map fun m => (m.1.distribution, m.2.distribution)) (maxs.map fun m => (m.1.distribution, m.2.distribution)) density
    (w.map distribution) garbageD
  let ex ← mk? exN exD
  let ey ← mk? eyN eyD
  let hist ← mk? histN histD
  .ok (hist, ex, ey)

end UA
end
end NA
