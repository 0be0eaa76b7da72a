import Verif.Scalar.Loop
import Verif.Space.Basic
import Verif.Scalar.Reduce

/-!
# Histograms

Model of `na.histogram`, `na.histogram2d` and `na.histogramdd` for scalar arrays over an ordered field; units and `nan` are
not modelled.
-/

namespace NA
open Dict

section
variable {K : Type} [Field K] [LinearOrder K]

/-- The number of the bin of `x`, counted from 1: `np.searchsorted(edges, x, side="right")`, less one if `x` is equal to the
last edge.  The edges are in order wherever this is used.
Models a part of `numpy.histogramdd`, used at `/repo/named_arrays/_scalars/scalar_named_array_functions.py` lines 539-544. -/
def binNumber (edges : List K) (x : K) : Nat :=
  edges.countP (fun y => decide (y ≤ x)) - (if edges.getLast? = some x then 1 else 0)

/-- The edges are in order: `not np.any(edges[:-1] > edges[1:])`. -/
def inOrder (edges : List K) : Bool := (edges.zip edges.tail).all (fun p => decide (p.1 ≤ p.2))

/-- The sum of the weights of the samples in the bin `k`. -/
def binCount (samples : List (List K × K)) (edges : List (List K)) (k : List Nat) : K :=
  ((samples.filter (fun p => decide (List.zipWith binNumber edges p.1 = k.map (· + 1)))).map Prod.snd).sum

/-- The volume of the bin `k`. -/
def binVolume (edges : List (List K)) (k : List Nat) : K :=
  (List.zipWith (fun es i => es.getD (i + 1) 0 - es.getD i 0) edges k).prod

/-- `np.histogramdd(sample, bins, density, weights)` for lists of edges; a sample is the list of its coordinates and its weight.
Assumption about numpy (not part of `/repo`): the edges of each dimension must be in order (`ValueError`), samples outside of
the bins are dropped, and a density is the count divided by the volume of the bin and by the total count; division by zero is
division in the field here. -/
def npHistogramdd (dim : Nat) (samples : List (List K × K)) (edges : List (List K)) (density : Bool) : R (ND K) :=
  if edges.length ≠ dim then .error .valueError
  else if edges.all inOrder then
    let shape := edges.map (fun es => es.length - 1)
    let total := ((ndIndices shape).map (binCount samples edges)).sum
    .ok ⟨shape, fun k => if density then binCount samples edges k / binVolume edges k / total
      else binCount samples edges k⟩
  else .error .valueError

/-- The edges of one dimension as numpy sees them: a one-dimensional array.  A number would be the number of bins for numpy,
which is not modelled. -/
def edgeList (b : SA K) : R (List K) :=
  match b.nd.shape.length with
  | 0 => .error .notImplemented
  | 1 => .ok b.nd.toList
  | _ => .error .valueError

/-- `s[i].ndarray_aligned(axis).reshape(-1)`, for all the samples and the weights at once. -/
def sampleList {α : Type} (p : SA α) (axis : List String) (i : Dict IndexVal) : R (List α) := do
  let s ← p.getitem i
  let v ← s.aligned axis
  .ok v.toList

/-- The body of the loop: the histogram of one slice.
Models `/repo/named_arrays/_scalars/scalar_named_array_functions.py` lines 539-551 and 432-450. -/
def histSlice (p : SA (List K × K)) (axis : List String) (bins : List (SA K)) (dim : Nat) (density : Bool)
    (i : Dict IndexVal) : R (SA K) := do
  let samples ← sampleList p axis i
  let bs ← bins.mapM (fun b => b.getitem i)
  let edges ← bs.mapM edgeList
  let h ← npHistogramdd dim samples edges density
  SA.mk? h (bs.flatMap SA.axes)

/-- `{ax: shape[ax] for ax in shape if ax not in axis}`. -/
def orthogonal (shape : Shape) (axis : List String) : Shape := shape.filter (fun p => p.1 ∉ axis)

/-- The shape of the histogram: `shape_bins[ax] - 1` for the axes of the bins.  A negative size makes `np.empty` raise
`ValueError`.
Models `/repo/named_arrays/_scalars/scalar_named_array_functions.py` lines 524-532 and 419-427. -/
def histShape (ortho : Shape) (bins : List (SA K)) : R Shape := do
  let shapeBins ← broadcastShapes (bins.map SA.shape)
  let own := shapeBins.filter (fun p => p.1 ∉ keys ortho)
  if own.any (fun p => p.2 = 0) then .error .valueError
  else broadcastShapes [ortho, own.map (fun p => (p.1, p.2 - 1))]

/-- The second half of `histogramdd` and `histogram2d`: broadcast the edges against the orthogonal shape and histogram one slice
after the other.  `garbage` stands for the contents of `np.empty`.
Models `/repo/named_arrays/_scalars/scalar_named_array_functions.py` lines 517-553 and 411-451. -/
def histLoop (p : SA (List K × K)) (axis : List String) (bins : List (SA K)) (dim : Nat) (density : Bool)
    (garbage : List Nat → K) : R (SA K) := do
  let ortho := orthogonal p.shape axis
  let bs ← bins.mapM (fun b => do b.broadcastTo (← broadcastShapes [ortho, b.shape]))
  let shape ← histShape ortho bins
  forEach ortho (histSlice p axis bs dim density) ⟨shape.keys, ⟨shape.values, garbage⟩⟩

/-- The smallest element of a list. -/
def listMin : List K → K
  | [] => 0
  | x :: l => l.foldl min x

/-- The largest element of a list. -/
def listMax : List K → K
  | [] => 0
  | x :: l => l.foldl max x

/-- The samples and the weights, broadcast against each other, as one array.  Without weights each sample has weight 1.
Models `/repo/named_arrays/_scalars/scalar_named_array_functions.py` lines 470-482 and 331-343. -/
def pairUp (samples : List (SA K)) (weights : Option (SA K)) : R (SA (List K × K)) := do
  let xs ← SA.ufuncN id samples
  SA.ufunc2 Prod.mk xs (weights.getD (SA.scalar 1))

/-- The bins: the numbers of bins along new axes, or the edges. -/
inductive Bins (K : Type) where
  | counts (d : Dict Int)
  | edges (l : List (SA K))

/-- The bounds of the histogram: the given ones, or the reduction of each of the samples.  A single array which is given is
repeated here for each of the samples. -/
def boundsOf (f : List K → K) (samples : List (SA K)) (axis : List String) : Option (List (SA K)) → R (List (SA K))
  | some l => .ok l
  | none => samples.mapM (fun s => s.reduce true f (some axis) false none none)

/-- The edges of `histogramdd`.
Models `/repo/named_arrays/_scalars/scalar_named_array_functions.py` lines 484-510. -/
def edgesOf (samples : List (SA K)) (axis : List String) (bins : Bins K) (min max : Option (List (SA K))) : R (List (SA K)) :=
  match bins with
  | .edges l => .ok l
  | .counts d => do
    let mins ← boundsOf listMin samples axis min
    let maxs ← boundsOf listMax samples axis max
    if d.length ≠ samples.length then .error .valueError
    else ((mins.zip maxs).zip d).mapM (fun q => SA.linspace q.1.1 q.1.2 q.2.1 q.2.2 true false)

/-- `na.histogramdd(*samples, bins, axis, min, max, density, weights)`: the histogram and the edges.
Models `/repo/named_arrays/_scalars/scalar_named_array_functions.py` lines 459-553. -/
def histogramdd (samples : List (SA K)) (bins : Bins K) (axis : Option (List String)) (min max : Option (List (SA K)))
    (density : Bool) (weights : Option (SA K)) (garbage : List Nat → K) : R (SA K × List (SA K)) := do
  let p ← pairUp samples weights
  let samples ← samples.mapM (fun s => s.broadcastTo p.shape)
  let axis := axis.getD p.shape.keys
  let edges ← edgesOf samples axis bins min max
  let hist ← histLoop p axis edges samples.length density garbage
  .ok (hist, edges)

/-- `na.histogram(a, bins, axis, min, max, density, weights)`: the histogram and the edges, which are the outputs and the inputs
of the resulting function.
Models `/repo/named_arrays/_scalars/scalar_named_array_functions.py` lines 289-317. -/
def histogram (a : SA K) (bins : Bins K) (axis : Option (List String)) (min max : Option (SA K)) (density : Bool)
    (weights : Option (SA K)) (garbage : List Nat → K) : R (SA K × SA K) := do
  let (hist, edges) ← histogramdd [a] bins axis (min.map fun m => [m]) (max.map fun m => [m]) density weights garbage
  match edges with
  | [] => .error .indexError
  | e :: _ => .ok (hist, e)

/-- The edges of `histogram2d`: for numbers of bins there is one edge more than there are bins.
Models `/repo/named_arrays/_scalars/scalar_named_array_functions.py` lines 352-409. -/
def edges2d (x y : SA K) (axis : List String) (ortho : Shape) (bins : Bins K) (min max : Option (SA K × SA K)) :
    R (SA K × SA K) :=
  match bins with
  | .edges [bx, by'] =>
    let ax := bx.shape.keys.filter (· ∉ keys ortho)
    let ay := by'.shape.keys.filter (· ∉ keys ortho)
    if ax.length ≠ 1 then .error .valueError
    else if ay.length ≠ 1 then .error .valueError
    else if ax = ay then .error .valueError
    else .ok (bx, by')
  | .edges _ => .error .typeError
  | .counts d => do
    let mins ← boundsOf listMin [x, y] axis (min.map fun m => [m.1, m.2])
    let maxs ← boundsOf listMax [x, y] axis (max.map fun m => [m.1, m.2])
    match mins, maxs, d with
    | [min1, min2], [max1, max2], [(ax, m), (ay, n)] => do
      let ex ← SA.linspace min1 max1 ax (m + 1) true false
      let ey ← SA.linspace min2 max2 ay (n + 1) true false
      .ok (ex, ey)
    | _, _, _ => .error .valueError

/-- `na.histogram2d(x, y, bins, axis, min, max, density, weights)`: the histogram and the edges.
Models `/repo/named_arrays/_scalars/scalar_named_array_functions.py` lines 320-456. -/
def histogram2d (x y : SA K) (bins : Bins K) (axis : Option (List String)) (min max : Option (SA K × SA K)) (density : Bool)
    (weights : Option (SA K)) (garbage : List Nat → K) : R (SA K × SA K × SA K) := do
  let p ← pairUp [x, y] weights
  let x ← x.broadcastTo p.shape
  let y ← y.broadcastTo p.shape
  let axis := axis.getD p.shape.keys
  let (ex, ey) ← edges2d x y axis (orthogonal p.shape axis) bins min max
  let hist ← histLoop p axis [ex, ey] 2 density garbage
  .ok (hist, ex, ey)

end
end NA
