import Verif.Shape
import Mathlib.Data.List.Sort

/-!
# n-dimensional arrays: the numpy primitives used by the package

This file models numpy (part of the trusted base), not `/repo`.  An array is a shape together
with a function from multi-indices to elements; only the values at in-range multi-indices are
meaningful.  Memory layout, views and aliasing are not modelled.
-/

namespace NA

/-- A `numpy.ndarray` (value semantics). -/
structure ND (α : Type) where
  shape : List Nat
  get : List Nat → α

namespace ND

variable {α β γ : Type}

/-- `a.ndim` -/
def ndim (a : ND α) : Nat := a.shape.length

/-- The elements in row-major order: `a.ravel()`, `a.flat`. -/
def toList (a : ND α) : List α := (ndIndices a.shape).map a.get

/-- A multi-index is in range of a shape. -/
def InRange (shape idx : List Nat) : Prop := List.Forall₂ (· < ·) idx shape

/-- Equality of arrays as numpy users see it: same shape, same elements in range. -/
def Equiv (a b : ND α) : Prop := a.shape = b.shape ∧ ∀ i, InRange a.shape i → a.get i = b.get i

/-- `a.size` -/
def size (a : ND α) : Nat := a.shape.prod

/-- Row-major flat position of a multi-index: `np.ravel_multi_index`. -/
def ravel : List Nat → List Nat → Nat
  | _ :: s, i :: is => i * s.prod + ravel s is
  | _, _ => 0

/-- Multi-index of a row-major flat position: `np.unravel_index`. -/
def unravel : List Nat → Nat → List Nat
  | [], _ => []
  | _ :: s, k => (k / s.prod) :: unravel s (k % s.prod)

/-- A zero-dimensional array (also the model of a python scalar). -/
def scalar (x : α) : ND α := ⟨[], fun _ => x⟩

/-- An array given by its elements in row-major order (used to write concrete examples). -/
def ofList (shape : List Nat) (l : List α) (dflt : α) : ND α :=
  ⟨shape, fun i => l.getD (ravel shape i) dflt⟩

/-- `a[..., np.newaxis, ..., np.newaxis]` with `k` new axes at the end. -/
def newaxes (a : ND α) (k : Nat) : ND α :=
  ⟨a.shape ++ List.replicate k 1, fun i => a.get (i.take a.ndim)⟩

/-- `np.transpose(a, order)` for a permutation `order`: dimension `j` of the result is dimension
`order[j]` of `a`. -/
def transpose (a : ND α) (order : List Nat) : ND α :=
  ⟨order.map (fun j => a.shape.getD j 0),
   fun i => a.get ((List.range a.ndim).map (fun j => i.getD (order.idxOf j) 0))⟩

/-- The insertion loop of `np.moveaxis`:
`for dest, src in pairs: order.insert(dest, src)`. -/
def insertLoop (order : List Nat) (pairs : List (Nat × Nat)) : List Nat :=
  pairs.foldl (fun o p => o.take p.1 ++ p.2 :: o.drop p.1) order

/-- The transposition computed by `np.moveaxis(a, source, destination)`:
`order = [n for n in range(ndim) if n not in source]`, then
`for dest, src in sorted(zip(destination, source)): order.insert(dest, src)`. -/
def moveOrder (ndim : Nat) (source destination : List Nat) : List Nat :=
  insertLoop ((List.range ndim).filter (· ∉ source))
    (List.insertionSort (fun p q => p.1 ≤ q.1) (destination.zip source))

/-- `np.moveaxis(a, source, destination)` for non-negative axis numbers, with numpy's argument
checks (axis out of range, repeated axis, different lengths). -/
def moveaxis (a : ND α) (source destination : List Nat) : R (ND α) :=
  if source.Nodup ∧ destination.Nodup ∧ (∀ s ∈ source, s < a.ndim) ∧ (∀ d ∈ destination, d < a.ndim)
      ∧ source.length = destination.length then
    .ok (a.transpose (moveOrder a.ndim source destination))
  else .error .valueError

/-- Broadcasting convention: index 0 is read along dimensions of size 1. -/
def clipIdx (shape idx : List Nat) : List Nat :=
  List.zipWith (fun n i => if n = 1 then 0 else i) shape idx

/-- `np.broadcast_to(a, shape)` for a target of the same rank. -/
def broadcastTo (a : ND α) (shape : List Nat) : R (ND α) :=
  if a.shape.length = shape.length ∧
      (∀ p ∈ a.shape.zip shape, p.1 = p.2 ∨ p.1 = 1) then
    .ok ⟨shape, fun i => a.get (clipIdx a.shape i)⟩
  else .error .valueError

/-- `np.reshape(a, shape)` (row-major; no `-1` placeholder). -/
def reshape (a : ND α) (shape : List Nat) : R (ND α) :=
  if shape.prod = a.shape.prod then
    .ok ⟨shape, fun i => a.get (unravel a.shape (ravel shape i))⟩
  else .error .valueError

/-- Elementwise map (unary ufunc). -/
def map (f : α → β) (a : ND α) : ND β := ⟨a.shape, fun i => f (a.get i)⟩

/-- numpy's broadcasting rule for one dimension. -/
def bdim (m n : Nat) : R Nat :=
  if m = n then .ok m else if m = 1 then .ok n else if n = 1 then .ok m else .error .valueError

/-- numpy's broadcasting rule for two shapes of equal rank (ranks always agree in this package,
because operands are aligned first; a difference of rank is an error in this model). -/
def bshape : List Nat → List Nat → R (List Nat)
  | [], [] => .ok []
  | m :: s, n :: t => do .ok ((← bdim m n) :: (← bshape s t))
  | _, _ => .error .valueError

/-- numpy's broadcasting rule for several shapes. -/
def bshapes : List (List Nat) → R (List Nat)
  | [] => .ok []
  | s :: ss => ss.foldlM bshape s

/-- A numpy ufunc applied to several arrays: broadcast the shapes, apply elementwise. -/
def ufuncN (f : List α → β) (inputs : List (ND α)) : R (ND β) := do
  let shape ← bshapes (inputs.map ND.shape)
  .ok ⟨shape, fun i => f (inputs.map (fun a => a.get (clipIdx a.shape i)))⟩

/-- A numpy ufunc applied to two arrays of possibly different element types. -/
def ufunc2 (f : α → β → γ) (a : ND α) (b : ND β) : R (ND γ) := do
  let shape ← bshape a.shape b.shape
  .ok ⟨shape, fun i => f (a.get (clipIdx a.shape i)) (b.get (clipIdx b.shape i))⟩

end ND
end NA
