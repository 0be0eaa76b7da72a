import Verif.Scalar.Kernels

/-!
# Convolution

Model of `na.convolve` and `np.convolve` for scalars.  What the package `ndfilters` and numpy compute for one image and one line is
a parameter.  Units are not modelled.
-/

namespace NA
open Dict

/-- The argument `axis: None | str | Sequence[str]`. -/
inductive AxisArg where
  | none
  | one (name : String)
  | many (names : List String)

namespace AxisArg

/-- The names of the axes, if a string is one name.
Models `/repo/named_arrays/_scalars/scalar_named_array_functions.py` lines 576-579. -/
def names (dflt : List String) : AxisArg → List String
  | .none => dflt
  | .one s => [s]
  | .many l => l

/-- The elements of the argument as an iterable: a string is iterated over its characters.
Models `/repo/named_arrays/_vectors/vector_named_array_functions.py` lines 345-351 (`for ax in axis`) and
`/repo/named_arrays/_scalars/uncertainties/uncertainties_named_array_functions.py` lines 442-448. -/
def items (dflt : List String) : AxisArg → List String
  | .none => dflt
  | .one s => s.toList.map (fun c => String.ofList [c])
  | .many l => l

end AxisArg

namespace ND
variable {α β κ γ : Type}

/-- The sizes with those of the dimensions `axis` replaced by 1. -/
def withOnes (axis s : List Nat) : List Nat := (List.range s.length).map (fun p => if p ∈ axis then 1 else s.getD p 0)

/-- The image along the dimensions `axis`, at the index `i` along the others, of an array which is broadcast. -/
def imageB (axis sizes : List Nat) (a : ND γ) (i : List Nat) : ND γ :=
  ⟨sizes, fun ks => a.get (clipIdx a.shape (putAt i axis ks))⟩

/-- `ndfilters.convolve(array, kernel, axis, where)`: the arrays are broadcast along the other dimensions, and each image along the
dimensions `axis` is convolved with the kernel at the same index; `conv` is the convolution of one image.
Assumption about the package `ndfilters` (not part of `/repo`). -/
def convolve (conv : ND α → ND κ → ND Bool → ND β) (array : ND α) (kernel : ND κ) (axis : List Nat) (wh : ND Bool) : R (ND β) :=
  if axis.Nodup then do
    let s ← bshapes [array.shape, withOnes axis kernel.shape, wh.shape]
    .ok ⟨s, fun i => (conv (imageB axis (axis.map (s.getD · 0)) array i) (imageB axis (axis.map (kernel.shape.getD · 0)) kernel i)
      (imageB axis (axis.map (s.getD · 0)) wh i)).get (axis.map (i.getD · 0))⟩
  else .error .valueError

/-- `np.convolve(a, v, mode)`: one-dimensional arrays (numbers become arrays with one element); two empty arrays or
an empty array and a line are an error. `conv` gives the result for two lists. -/
def convolveLine (conv : List α → List α → List α) (a v : ND α) : R (ND α) :=
  if a.shape.length > 1 ∨ v.shape.length > 1 then .error .valueError
  else if a.toList.isEmpty ∨ v.toList.isEmpty then .error .valueError
  else
    let l := conv a.toList v.toList
    .ok ⟨[l.length], fun i => l.getD (i.getD 0 0) (a.get [])⟩

end ND

namespace SA
variable {α β κ : Type}

/-- `na.convolve(array, kernel, axis, where)`.
Models `/repo/named_arrays/_scalars/scalar_named_array_functions.py` lines 556-617. -/
def convolve (conv : ND α → ND κ → ND Bool → ND β) (array : SA α) (kernel : SA κ) (axis : AxisArg) (wh : SA Bool) : R (SA β) := do
  let axis := axis.names kernel.shape.keys
  if ¬ axis ⊆ array.shape.keys then .error .valueError
  else if ¬ axis ⊆ kernel.shape.keys then .error .valueError
  else do
    let shape ← broadcastShapes [array.shape, orthogonal kernel.shape axis, wh.shape]
    let a ← array.aligned shape.keys
    let k ← kernel.aligned shape.keys
    let w ← wh.aligned shape.keys
    let result ← ND.convolve conv a k (axis.map shape.keys.idxOf) w
    mk? result shape.keys

/-- The result of `np.convolve` as a named array; for two numbers it is the only element.
Models `/repo/named_arrays/_scalars/scalar_array_functions.py` lines 988-996. -/
def ofLine (shape : Shape) (r : ND α) : R (SA α) :=
  if shape.length = 0 then mk? ⟨[], fun _ => r.get [0]⟩ [] else mk? r shape.keys

/-- `np.convolve(a, v, mode)`.
Models `/repo/named_arrays/_scalars/scalar_array_functions.py` lines 970-996. -/
def convolveLine (conv : List α → List α → List α) (a v : SA α) : R (SA α) := do
  let shape ← broadcastShapes [a.shape, v.shape]
  if shape.length > 1 then .error .valueError
  else do
    let r ← ND.convolveLine conv a.nd v.nd
    ofLine shape r

end SA
end NA
