import Verif.Scalar.Basic

/-!
# Functions with automatic domain
-/

namespace NA.Emath
variable {α β γ : Type}

/-- The array which numpy returns: real numbers or complex numbers. -/
inductive Result (β γ : Type) where
  | real (a : SA β)
  | complex (a : SA γ)

/-- All elements of a numpy array are in the domain of the real function.
Models the checks `_fix_real_lt_zero`, `_fix_int_lt_zero` and `_fix_real_abs_gt_1` of numpy: an array is converted to complex numbers if any
of its elements lies outside. -/
def inside (dom : α → Bool) (a : ND α) : Bool := (ndIndices a.shape).all (fun i => dom (a.get i))

/-- `np.emath.sqrt(a)`, `np.emath.logn(n, a)` and the like for scalar arrays: align the arguments with the broadcast shape, and apply the function of numpy,
which evaluates the real function if all elements of all arguments are in their domains, and the complex function otherwise.
The domain of each argument and both functions are parameters.
Models `/repo/named_arrays/_scalars/scalar_array_functions.py` lines 466-485. -/
def emath (doms : List (α → Bool)) (real : List α → β) (complex : List α → γ) (inputs : List (SA α)) : R (Result β γ) := do
  let shape ← broadcastShapes (inputs.map SA.shape)
  let nds ← inputs.mapM (fun a => a.aligned shape.keys)
  if (doms.zip nds).all (fun p => inside p.1 p.2) then do
    let nd ← ND.ufuncN real nds
    .ok (.real (← SA.mk? nd shape.keys))
  else do
    let nd ← ND.ufuncN complex nds
    .ok (.complex (← SA.mk? nd shape.keys))

end NA.Emath
