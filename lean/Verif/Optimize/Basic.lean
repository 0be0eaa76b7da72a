import Verif.Scalar.Reduce
import Verif.Scalar.Index
import Verif.Vector.Reduce
import Verif.Vector.Lift
import Verif.Matrix.Basic

/-!
# Root finding and minimisation

Model of the iterations in `/repo/named_arrays/_scalars/scalar_named_array_functions.py` lines 1529-1677 and
`/repo/named_arrays/_vectors/vector_named_array_functions.py` lines 693-744 and 789-843.

The numbers are the values of a type with arbitrary operations: nothing is assumed about them, so that the floating
point numbers with their rounding, infinities and `nan` are covered.  The functions given by the user take and return
named arrays or raise; they have no side effects which change the results of later calls.  Units are not modelled.
-/

namespace NA

/-- The operations of numbers which are used in the iterations. -/
structure Arith (F : Type) where
  add : F → F → F
  sub : F → F → F
  mul : F → F → F
  div : F → F → F
  abs : F → F
  lt : F → F → Bool
  eq : F → F → Bool
  zero : F
  ten : F

/-- The arguments of one call of `callback`. -/
structure Call (X Y C : Type) where
  i : Nat
  x : X
  f : Y
  converged : C

namespace Optimize
variable {F σ κ ρ : Type}

/-- `for i in range(max_iterations): ...; raise ValueError("Max iterations exceeded")`.  The part of the body
before the call of `callback` gives the arguments of this call; the rest either returns a result or gives the new
values of the variables.  All calls of `callback` are recorded.
Models `/repo/named_arrays/_scalars/scalar_named_array_functions.py` lines 1573-1593 and 1629-1677 and
`/repo/named_arrays/_vectors/vector_named_array_functions.py` lines 724-744 and 823-843. -/
def loop (head : σ → R κ) (body : σ → κ → R (ρ ⊕ σ)) : Nat → σ → List κ × R ρ
  | 0, _ => ([], .error .valueError)
  | n + 1, s =>
    match head s with
    | .error e => ([], .error e)
    | .ok c =>
      match body s c with
      | .error e => ([c], .error e)
      | .ok (.inl r) => ([c], .ok r)
      | .ok (.inr s') =>
        let rest := loop head body n s'
        (c :: rest.1, rest.2)

/-- `np.abs(f) < max_abs_error`.
Models `/repo/named_arrays/_scalars/scalar_named_array_functions.py` line 1578 and
`/repo/named_arrays/_vectors/vector_named_array_functions.py` lines 729 and 830. -/
def isSmall (o : Arith F) (f err : Comp (SA F)) : R (Comp (SA Bool)) := do
  let a ← f.mapM (SA.ufunc1 o.abs)
  Comp.ufunc2 (SA.ufunc2 o.lt) a err

/-- `if np.all(converged)`: a reduction without `axis`, and the truth value of the result, which is the
conjunction of the truth values of the components for a vector.
Models `/repo/named_arrays/_scalars/scalar_named_array_functions.py` line 1580 and
`/repo/named_arrays/_vectors/vector_named_array_functions.py` lines 731 and 832, with
`/repo/named_arrays/_vectors/vectors.py` lines 362-368. -/
def allTrue (c : Comp (SA Bool)) : R Bool := do
  let r ← c.reduce false (fun l => l.all id) none false
  .ok (r.leaves.all (fun a => a.nd.get []))

/-- `na.broadcast_to(0 * na.value(f), shape=shape).astype(bool)`.
Models `/repo/named_arrays/_scalars/scalar_named_array_functions.py` line 1569 and
`/repo/named_arrays/_vectors/vector_named_array_functions.py` lines 720 and 817. -/
def noneTrue (o : Arith F) (f : Comp (SA F)) (shape : Shape) : R (Comp (SA Bool)) := do
  let z ← Comp.ufunc2 (SA.ufunc2 o.mul) (.leaf (SA.scalar o.zero)) f
  let z ← z.broadcastTo shape
  z.mapM (SA.ufunc1 (fun v => !o.eq v o.zero))

/-- The variables of the loop of Newton's method. -/
structure NewtonState (F : Type) where
  i : Nat
  x : Comp (SA F)
  f : Comp (SA F)
  converged : Comp (SA Bool)

/-- The arguments of `callback(i, x, f, converged)`. -/
def NewtonState.call (s : NewtonState F) : Call (Comp (SA F)) (Comp (SA F)) (Comp (SA Bool)) :=
  ⟨s.i, s.x, s.f, s.converged⟩

/-- The body of the loop of Newton's method after the call of `callback`.  `correction x f` is `f / jacobian(x)`
for scalars and `jacobian(x).inverse @ f` for vectors.
Models `/repo/named_arrays/_scalars/scalar_named_array_functions.py` lines 1578-1591 and
`/repo/named_arrays/_vectors/vector_named_array_functions.py` lines 729-742. -/
def newtonBody (o : Arith F) (function : Comp (SA F) → R (Comp (SA F)))
    (correction : Comp (SA F) → Comp (SA F) → R (Comp (SA F))) (err : Comp (SA F)) (s : NewtonState F) :
    R (Comp (SA F) ⊕ NewtonState F) := do
  let conv ← isSmall o s.f err
  let all ← allTrue conv
  if all then .ok (.inl s.x)
  else
    let corr ← correction s.x s.f
    let x ← Comp.ufunc2 (SA.ufunc2 o.sub) s.x corr
    let f ← function x
    .ok (.inr ⟨s.i + 1, x, f, conv⟩)

/-- What is done before the loop of Newton's method.
Models `/repo/named_arrays/_scalars/scalar_named_array_functions.py` lines 1539-1571 and
`/repo/named_arrays/_vectors/vector_named_array_functions.py` lines 703-722 (`astype(float)` is the identity). -/
def newtonInit (o : Arith F) (function : Comp (SA F) → R (Comp (SA F))) (guess err : Comp (SA F)) :
    R (NewtonState F) := do
  let f ← function guess
  let shapeErr ← err.shape
  if !shapeErr.isEmpty then .error .valueError
  else
    let shape ← broadcastShapes [← f.shape, ← guess.shape]
    let conv ← noneTrue o f shape
    let x ← guess.broadcastTo shape
    .ok ⟨0, x, f, conv⟩

/-- `na.optimize.root_newton(function, guess, jacobian, max_abs_error, max_iterations, callback)` for scalars and
vectors: the calls of `callback` and the result.
Models `/repo/named_arrays/optimize.py` lines 57-79 (where `function(guess)` is called once more, to find the unit and
the type of `max_abs_error`), `/repo/named_arrays/_scalars/scalar_named_array_functions.py` lines 1529-1593 and
`/repo/named_arrays/_vectors/vector_named_array_functions.py` lines 693-744. -/
def rootNewton (o : Arith F) (function : Comp (SA F) → R (Comp (SA F)))
    (correction : Comp (SA F) → Comp (SA F) → R (Comp (SA F))) (guess err : Comp (SA F)) (maxIterations : Nat) :
    List (Call (Comp (SA F)) (Comp (SA F)) (Comp (SA Bool))) × R (Comp (SA F)) :=
  match newtonInit o function guess err with
  | .error e => ([], .error e)
  | .ok s => loop (fun s => .ok s.call) (fun s _ => newtonBody o function correction err s) maxIterations s

/-- `correction = f / jacobian(x)`.
Models `/repo/named_arrays/_scalars/scalar_named_array_functions.py` lines 1583-1585. -/
def scalarCorrection (o : Arith F) (jacobian : Comp (SA F) → R (Comp (SA F))) (x f : Comp (SA F)) :
    R (Comp (SA F)) := do
  let jac ← jacobian x
  Comp.ufunc2 (SA.ufunc2 o.div) f jac

/-- `correction = jacobian(x).inverse @ f`.
Models `/repo/named_arrays/_vectors/vector_named_array_functions.py` lines 734-736. -/
def vectorCorrection (o : Ops (SA F)) (sig : String → Option (List String)) (jacobian : Comp (SA F) → R (Mat (SA F)))
    (x f : Comp (SA F)) : R (Comp (SA F)) := do
  let jac ← jacobian x
  let inv ← jac.inverse o sig
  match f with
  | .leaf _ => .error .typeError
  | .node cls cs => do .ok (← inv.matVec o ⟨cls, cs⟩).toComp

/-! ### Gradient descent -/

/-- The variables of the loop of gradient descent. -/
structure DescentState (F : Type) where
  i : Nat
  x : Comp (SA F)
  f : Comp (SA F)
  converged : Comp (SA Bool)
  z : Comp (SA F)

/-- The arguments of `callback(i, x, f, converged)`. -/
def DescentState.call (s : DescentState F) : Call (Comp (SA F)) (Comp (SA F)) (Comp (SA Bool)) :=
  ⟨s.i, s.x, s.f, s.converged⟩

/-- The body of the loop after the call of `callback`.
Models `/repo/named_arrays/_vectors/vector_named_array_functions.py` lines 828-841. -/
def descentBody (o : Arith F) (function gradient : Comp (SA F) → R (Comp (SA F)))
    (stepSize momentum minGradient : Comp (SA F)) (s : DescentState F) : R (Comp (SA F) ⊕ DescentState F) := do
  let grad ← gradient s.x
  let conv ← isSmall o grad minGradient
  let all ← allTrue conv
  if all then .ok (.inl s.x)
  else
    let m ← Comp.ufunc2 (SA.ufunc2 o.mul) momentum s.z
    let z ← Comp.ufunc2 (SA.ufunc2 o.add) m grad
    let corr ← Comp.ufunc2 (SA.ufunc2 o.mul) stepSize z
    let x ← Comp.ufunc2 (SA.ufunc2 o.sub) s.x corr
    let f ← function x
    .ok (.inr ⟨s.i + 1, x, f, conv, z⟩)

/-- What is done before the loop of gradient descent.
Models `/repo/named_arrays/_vectors/vector_named_array_functions.py` lines 801-821. -/
def descentInit (o : Arith F) (function : Comp (SA F) → R (Comp (SA F))) (guess minGradient : Comp (SA F)) :
    R (DescentState F) := do
  let f ← function guess
  let shapeMin ← minGradient.shape
  if !shapeMin.isEmpty then .error .valueError
  else
    let shape ← broadcastShapes [← f.shape, ← guess.shape]
    let conv ← noneTrue o guess shape
    let x ← guess.broadcastTo shape
    .ok ⟨0, x, f, conv, .leaf (SA.scalar o.zero)⟩

/-- `na.optimize.minimum_gradient_descent(function, guess, step_size, momentum, gradient, min_gradient, max_iterations,
callback)`: the calls of `callback` and the result.  (It is implemented for vectors only.)
Models `/repo/named_arrays/_vectors/vector_named_array_functions.py` lines 789-843. -/
def minimumGradientDescent (o : Arith F) (function gradient : Comp (SA F) → R (Comp (SA F)))
    (guess stepSize momentum minGradient : Comp (SA F)) (maxIterations : Nat) :
    List (Call (Comp (SA F)) (Comp (SA F)) (Comp (SA Bool))) × R (Comp (SA F)) :=
  match descentInit o function guess minGradient with
  | .error e => ([], .error e)
  | .ok s =>
    loop (fun s => .ok s.call) (fun s _ => descentBody o function gradient stepSize momentum minGradient s)
      maxIterations s

/-! ### The secant method -/

/-- `a op= b` for scalar arrays: the ufunc is called with `out=a`, so that `b` is aligned to the axes of `a` and
must be broadcastable to the shape of `a`.
Models `/repo/named_arrays/_scalars/scalars.py` lines 527-610 with `out`. -/
def inplace2 {α β : Type} (f : α → β → α) (a : SA α) (b : SA β) : R (SA α) := do
  let w ← b.aligned a.axes
  let w ← w.broadcastTo a.nd.shape
  let nd ← ND.ufunc2 f a.nd w
  .ok ⟨a.axes, nd⟩

/-- `np.all(a)` or `np.any(a)` as a condition. -/
def truth (r : SA Bool) : Bool := r.nd.get []

/-- The variables of the loop of the secant method. -/
structure SecantState (F : Type) where
  i : Nat
  x0 : SA F
  x1 : SA F
  f0 : SA F
  converged : SA Bool

/-- `f1 = function(x1)` and the arguments of `callback(i, x1, f1, converged)`.
Models `/repo/named_arrays/_scalars/scalar_named_array_functions.py` lines 1632-1635. -/
def secantHead (function : SA F → R (SA F)) (s : SecantState F) : R (Call (SA F) (SA F) (SA Bool)) := do
  let f1 ← function s.x1
  .ok ⟨s.i, s.x1, f1, s.converged⟩

/-- `correction = f1_active / jacobian`, multiplied by the damping factor if there is one.
Models `/repo/named_arrays/_scalars/scalar_named_array_functions.py` lines 1654-1667. -/
def secantCorrection (o : Arith F) (damping : Option F) (dx f0 f1 : SA F) : R (SA F) := do
  let df ← SA.ufunc2 o.sub f1 f0
  let isZero ← SA.ufunc1 (fun v => o.eq v o.zero) df
  let any ← isZero.reduce false (fun l => l.any id) none false none none
  if truth any then .error .valueError
  else
    let jacobian ← SA.ufunc2 o.div df dx
    let correction ← SA.ufunc2 o.div f1 jacobian
    match damping with
    | none => .ok correction
    | some d => SA.ufunc2 o.mul (SA.scalar d) correction

/-- `x2 = x1.copy(); x2[active] -= correction`.
Models `/repo/named_arrays/_scalars/scalar_named_array_functions.py` lines 1669-1670. -/
def secantUpdate (o : Arith F) (x1 : SA F) (active : SA Bool) (correction : SA F) : R (SA F) := do
  let v ← x1.getMask active
  let v ← inplace2 o.sub v correction
  x1.setMask active v

/-- `converged |= np.abs(f1) < max_abs_error; dx = x1 - x0; converged |= np.abs(dx) < np.abs(min_step_size)`.
Models `/repo/named_arrays/_scalars/scalar_named_array_functions.py` lines 1637-1642. -/
def secantMark (o : Arith F) (minStep err : SA F) (s : SecantState F) (f1 : SA F) : R (SA Bool × SA F) := do
  let a ← SA.ufunc1 o.abs f1
  let c ← SA.ufunc2 o.lt a err
  let conv ← inplace2 or s.converged c
  let dx ← SA.ufunc2 o.sub s.x1 s.x0
  let a ← SA.ufunc1 o.abs dx
  let m ← SA.ufunc1 o.abs minStep
  let c ← SA.ufunc2 o.lt a m
  let conv ← inplace2 or conv c
  .ok (conv, dx)

/-- The step of the secant method for the elements which have not converged.
Models `/repo/named_arrays/_scalars/scalar_named_array_functions.py` lines 1647-1674. -/
def secantStep (o : Arith F) (damping : Option F) (s : SecantState F) (f1 : SA F) (conv : SA Bool) (dx : SA F) :
    R (SecantState F) := do
  let active ← SA.ufunc1 not conv
  let df ← SA.ufunc2 o.sub f1 s.f0
  let isZero ← SA.ufunc1 (fun v => o.eq v o.zero) df
  let any ← isZero.reduce false (fun l => l.any id) none false (some active) none
  if truth any then .error .valueError
  else
    let dxA ← dx.getMask active
    let f0A ← s.f0.getMask active
    let f1A ← f1.getMask active
    let correction ← secantCorrection o damping dxA f0A f1A
    let x2 ← secantUpdate o s.x1 active correction
    .ok ⟨s.i + 1, s.x1, x2, f1, conv⟩

/-- The body of the loop of the secant method after the call of `callback`.
Models `/repo/named_arrays/_scalars/scalar_named_array_functions.py` lines 1637-1674. -/
def secantBody (o : Arith F) (minStep err : SA F) (damping : Option F) (s : SecantState F)
    (c : Call (SA F) (SA F) (SA Bool)) : R (SA F ⊕ SecantState F) := do
  let (conv, dx) ← secantMark o minStep err s c.f
  let all ← conv.reduce false (fun l => l.all id) none false none none
  if truth all then .ok (.inl s.x1)
  else do .ok (.inr (← secantStep o damping s c.f conv dx))

/-- What is done before the loop of the secant method.
Models `/repo/named_arrays/_scalars/scalar_named_array_functions.py` lines 1606-1627. -/
def secantInit (o : Arith F) (function : SA F → R (SA F)) (guess minStep err : SA F) : R (SecantState F) := do
  let tenSteps ← SA.ufunc2 o.mul (SA.scalar o.ten) minStep
  let x0 ← SA.ufunc2 o.sub guess tenSteps
  let f0 ← function x0
  if !err.shape.isEmpty then .error .valueError
  else
    let shape ← broadcastShapes [f0.shape, guess.shape, minStep.shape]
    let z ← SA.ufunc2 o.mul (SA.scalar o.zero) f0
    let z ← z.broadcastTo shape
    let conv ← SA.ufunc1 (fun v => !o.eq v o.zero) z
    let x1 ← guess.broadcastTo shape
    .ok ⟨0, x0, x1, f0, conv⟩

/-- `na.optimize.root_secant(function, guess, min_step_size, max_abs_error, max_iterations, damping, callback)` for
scalars: the calls of `callback` and the result.  The function is assumed to return named arrays (a function which
returns plain numbers raises `TypeError` when they are indexed by the mask).
Models `/repo/named_arrays/optimize.py` lines 121-149 and
`/repo/named_arrays/_scalars/scalar_named_array_functions.py` lines 1596-1677. -/
def rootSecant (o : Arith F) (function : SA F → R (SA F)) (guess minStep err : SA F) (maxIterations : Nat)
    (damping : Option F) : List (Call (SA F) (SA F) (SA Bool)) × R (SA F) :=
  match secantInit o function guess minStep err with
  | .error e => ([], .error e)
  | .ok s => loop (secantHead function) (secantBody o minStep err damping) maxIterations s

end Optimize
end NA
