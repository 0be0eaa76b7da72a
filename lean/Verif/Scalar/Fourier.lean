import Mathlib.Algebra.Ring.Defs
import Verif.Scalar.Reduce

/-!
# Fourier transforms of scalar arrays

Model of `/repo/named_arrays/_scalars/scalar_array_functions.py` lines 416-463.
-/

namespace NA
open Dict

namespace ND
variable {α : Type}

/-- A transform of lines such as `np.fft.fft`, `np.fft.rfft` or `np.fft.irfft` (numpy, part of the trusted base): `fn n l k` is element `k` of the transform of
the line `l` with the argument `n`, `size n` is the length of the transform and `default m` is the value of `n` for a line of length `m` if it is not
given. -/
structure Line (α : Type) where
  size : Nat → Nat
  default : Nat → Nat
  fn : Nat → List α → Nat → α

/-- `np.fft.fft(a, n, axis)` and the like: `n < 1` raises `ValueError`. -/
def fft1 (t : Line α) (n : Option Nat) (p : Nat) (a : ND α) : R (ND α) :=
  let m := n.getD (t.default (a.shape.getD p 0))
  if m < 1 then .error .valueError
  else a.alongAxis p (t.size m) (t.fn m)

/-- A step of a transform along several dimensions: the dimension, the argument `n` and the transform of lines. -/
abbrev Step (α : Type) := Nat × Nat × Line α

/-- A transform along several dimensions, one after the other. -/
def steps (l : List (Step α)) (a : ND α) : R (ND α) := l.foldlM (fun v s => fft1 s.2.2 (some s.2.1) s.1 v) a

/-- The steps of `np.fft.fftn` and `np.fft.ifftn`: the last dimension first. -/
def fftnPlan {ι : Type} (t : Line α) (l : List (ι × Nat)) : R (List (ι × Nat × Line α)) := .ok (l.reverse.map (fun p => (p.1, p.2, t)))

/-- The steps of `np.fft.rfftn`: the real transform `r` along the last dimension, then `t` along the others. -/
def rfftnPlan {ι : Type} (t r : Line α) (l : List (ι × Nat)) : R (List (ι × Nat × Line α)) :=
  match l.reverse with
  | [] => .error .indexError
  | p :: rest => .ok ((p.1, p.2, r) :: rest.map (fun p => (p.1, p.2, t)))

/-- The steps of `np.fft.irfftn`: `t` along all dimensions but the last, then the real transform `r` along the last one. -/
def irfftnPlan {ι : Type} (t r : Line α) (l : List (ι × Nat)) : R (List (ι × Nat × Line α)) :=
  match l.reverse with
  | [] => .error .indexError
  | p :: rest => .ok (rest.reverse.map (fun p => (p.1, p.2, t)) ++ [(p.1, p.2, r)])

/-- Discrete transforms with coefficients `w n k j`: the line is cut at length `n` or filled with zeros. -/
def dft {K : Type} [CommRing K] (w : Nat → Nat → Nat → K) : Line K where
  size n := n
  default m := m
  fn n l k := ((List.range l.length).map (fun j => (if j < n then w n k j else 0) * l.getD j 0)).sum

end ND

namespace SA
variable {α : Type}

/-- `array_function_fft_like`: `np.fft.fft(a, axis=(old, new), n=n)`, ...
Models `/repo/named_arrays/_scalars/scalar_array_functions.py` lines 416-432; `norm` is a part of `t`. -/
def fftLike (t : ND.Line α) (a : SA α) (axis : String × String) (n : Option Nat) : R (SA α) := do
  let p ← pyTupleIndex a.axes axis.1
  let nd ← a.nd.fft1 t n p
  mk? nd (a.axes.map (fun ax => if ax = axis.1 then axis.2 else ax))

/-- `s`, or by default the sizes of the axes: `{ax: shape[ax] for ax in axes}`.
Models `/repo/named_arrays/_scalars/scalar_array_functions.py` lines 449-450. -/
def fftSizes (a : SA α) (axes : Dict String) : Option (Dict Nat) → Dict Nat
  | some s => s
  | none => axes.map (fun p => (p.1, (get? a.shape p.1).getD 0))

/-- `array_function_fftn_like`: `np.fft.fftn(a, axes={old: new, ...}, s=s)`, ... for the function with the given plan.
Models `/repo/named_arrays/_scalars/scalar_array_functions.py` lines 435-463. -/
def fftnLike (plan : List (Nat × Nat) → R (List (ND.Step α))) (a : SA α) (axes : Dict String)
    (s : Option (Dict Nat)) : R (SA α) :=
  if ¬ axes.keys ⊆ a.shape.keys then .error .valueError
  else
    let sizes := fftSizes a axes s
    if ¬ (axes.keys ⊆ sizes.keys ∧ sizes.keys ⊆ axes.keys) then .error .valueError
    else do
      let l ← plan (axes.keys.map (fun ax => (a.axes.idxOf ax, (get? sizes ax).getD 0)))
      let nd ← a.nd.steps l
      mk? nd (a.axes.map (fun ax => (get? axes ax).getD ax))

end SA
end NA
