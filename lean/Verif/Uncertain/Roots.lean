import Verif.Optimize.Basic
import Verif.Uncertain.Structure

/-!
# Roots and derivatives of functions of uncertain scalars

Model of `/repo/named_arrays/_scalars/uncertainties/uncertainties_named_array_functions.py` lines 864-993.  As for the
other iterations nothing is assumed about the operations of numbers, the functions given by the user have no side
effects, and units are left out.  The functions are assumed to return uncertain scalars (the code normalizes the first
value of the function only: another value which is not an uncertain scalar raises `AttributeError`).
-/

namespace NA
open Dict

namespace UA
variable {α β γ : Type}

/-- An elementwise function of one uncertain scalar.
Models `/repo/named_arrays/_scalars/uncertainties/uncertainties.py` lines 424-525. -/
def op1 (f : α → β) (u : UA α) : R (UA β) := do
  let n ← SA.ufunc1 f u.nominal
  let d ← SA.ufunc1 f u.distribution
  mk? n d

/-- An elementwise function of two uncertain scalars.
Models `/repo/named_arrays/_scalars/uncertainties/uncertainties.py` lines 424-525. -/
def op2 (f : α → β → γ) (u : UA α) (v : UA β) : R (UA γ) := do
  let n ← SA.ufunc2 f u.nominal v.nominal
  let d ← SA.ufunc2 f u.distribution v.distribution
  mk? n d

/-- A number as an operand. -/
def number (x : α) : UA α := ⟨SA.scalar x, SA.scalar x⟩

/-- `u op= v`: both components are the `out` argument of the function of the components.
Models `/repo/named_arrays/_scalars/uncertainties/uncertainties.py` lines 424-525 with `out`. -/
def update2 (f : α → β → α) (u : UA α) (v : UA β) : R (UA α) := do
  let n ← Optimize.inplace2 f u.nominal v.nominal
  let d ← Optimize.inplace2 f u.distribution v.distribution
  mk? n d

/-- `bool(u)` for an array without axes other than that of the samples.
Models `/repo/named_arrays/_scalars/uncertainties/uncertainties.py` lines 388-395. -/
def truth (u : UA Bool) : R Bool := do
  let d ← if axisD ∈ u.distribution.shape.keys then
      u.distribution.reduce false (fun l => l.all id) (some [axisD]) false none none
    else .ok u.distribution
  .ok (Optimize.truth u.nominal && Optimize.truth d)

/-- `UncertainScalarArray(nominal=u.nominal[mask.nominal], distribution=u.distribution[mask.distribution])`.
Models `/repo/named_arrays/_scalars/uncertainties/uncertainties_named_array_functions.py` lines 958-969. -/
def select (u : UA α) (mask : UA Bool) : R (UA α) := do
  let n ← u.nominal.getMask mask.nominal
  let d ← u.distribution.getMask mask.distribution
  mk? n d

end UA

namespace Optimize
variable {F : Type}

/-! ### The secant method -/

/-- The variables of the loop. -/
structure USecantState (F : Type) where
  i : Nat
  x0 : UA F
  x1 : UA F
  f0 : UA F
  converged : UA Bool

/-- `f1 = function(x1)` and the arguments of `callback(i, x1, f1, converged)`.
Models `/repo/named_arrays/_scalars/uncertainties/uncertainties_named_array_functions.py` lines 939-942. -/
def usecantHead (function : UA F → R (UA F)) (s : USecantState F) : R (Call (UA F) (UA F) (UA Bool)) := do
  let f1 ← function s.x1
  .ok ⟨s.i, s.x1, f1, s.converged⟩

/-- `converged |= np.abs(f1) < max_abs_error; dx = x1 - x0; converged |= np.abs(dx) < np.abs(min_step_size)`.
Models `/repo/named_arrays/_scalars/uncertainties/uncertainties_named_array_functions.py` lines 944-949. -/
def usecantMark (o : Arith F) (minStep err : UA F) (s : USecantState F) (f1 : UA F) : R (UA Bool × UA F) := do
  let a ← UA.op1 o.abs f1
  let c ← UA.op2 o.lt a err
  let conv ← UA.update2 or s.converged c
  let dx ← UA.op2 o.sub s.x1 s.x0
  let a ← UA.op1 o.abs dx
  let m ← UA.op1 o.abs minStep
  let c ← UA.op2 o.lt a m
  let conv ← UA.update2 or conv c
  .ok (conv, dx)

/-- `np.any(a == 0)` for a component.
Models `/repo/named_arrays/_scalars/uncertainties/uncertainties_named_array_functions.py` line 972. -/
def anyZero (o : Arith F) (a : SA F) : R Bool := do
  let isZero ← SA.ufunc1 (fun v => o.eq v o.zero) a
  let any ← isZero.reduce false (fun l => l.any id) none false none none
  .ok (truth any)

/-- `correction = f1_active / jacobian`, multiplied by the damping factor if there is one.
Models `/repo/named_arrays/_scalars/uncertainties/uncertainties_named_array_functions.py` lines 971-979. -/
def usecantCorrection (o : Arith F) (damping : Option F) (dx f0 f1 : UA F) : R (UA F) := do
  let df ← UA.op2 o.sub f1 f0
  let zn ← anyZero o df.nominal
  let zd ← anyZero o df.distribution
  if zn || zd then .error .valueError
  else
    let jacobian ← UA.op2 o.div df dx
    let correction ← UA.op2 o.div f1 jacobian
    match damping with
    | none => .ok correction
    | some d => UA.op2 o.mul (UA.number d) correction

/-- `x2[active] = x2[active] - correction` for a component.
Models `/repo/named_arrays/_scalars/uncertainties/uncertainties_named_array_functions.py` lines 982-983. -/
def usecantUpdate (o : Arith F) (x1 : SA F) (active : SA Bool) (correction : SA F) : R (SA F) := do
  let v ← x1.getMask active
  let v ← SA.ufunc2 o.sub v correction
  x1.setMask active v

/-- The step of the secant method for the elements which have not converged.
Models `/repo/named_arrays/_scalars/uncertainties/uncertainties_named_array_functions.py` lines 954-987. -/
def usecantStep (o : Arith F) (damping : Option F) (s : USecantState F) (f1 : UA F) (conv : UA Bool) (dx : UA F) :
    R (USecantState F) := do
  let active ← UA.op1 not conv
  let dxA ← dx.select active
  let f0A ← s.f0.select active
  let f1A ← f1.select active
  let correction ← usecantCorrection o damping dxA f0A f1A
  let n ← usecantUpdate o s.x1.nominal active.nominal correction.nominal
  let d ← usecantUpdate o s.x1.distribution active.distribution correction.distribution
  .ok ⟨s.i + 1, s.x1, ⟨n, d⟩, f1, conv⟩

/-- The body of the loop of the secant method after the call of `callback`.
Models `/repo/named_arrays/_scalars/uncertainties/uncertainties_named_array_functions.py` lines 944-987. -/
def usecantBody (o : Arith F) (minStep err : UA F) (damping : Option F) (s : USecantState F)
    (c : Call (UA F) (UA F) (UA Bool)) : R (UA F ⊕ USecantState F) := do
  let (conv, dx) ← usecantMark o minStep err s c.f
  let all ← conv.reduce false (fun l => l.all id) none false none
  let all ← all.truth
  if all then .ok (.inl s.x1)
  else do .ok (.inr (← usecantStep o damping s c.f conv dx))

/-- `na.broadcast_to(u, shape)` followed by `u.distribution = na.broadcast_to(u.distribution, shape_distribution)`.
Models `/repo/named_arrays/_scalars/uncertainties/uncertainties_named_array_functions.py` lines 929-930 and 934-935. -/
def spread (u : UA F) (shape shapeDistribution : Shape) : R (UA F) := do
  let v ← u.broadcastTo shape
  let d ← v.distribution.broadcastTo shapeDistribution
  .ok ⟨v.nominal, d⟩

/-- What is done before the loop of the secant method.
Models `/repo/named_arrays/_scalars/uncertainties/uncertainties_named_array_functions.py` lines 909-935
(`astype(float)` is the identity). -/
def usecantInit (o : Arith F) (function : UA F → R (UA F)) (guess minStep err : UA F) : R (USecantState F) := do
  let tenSteps ← UA.op2 o.mul (UA.number o.ten) minStep
  let x0 ← UA.op2 o.sub guess tenSteps
  let f0 ← function x0
  let shapeErr ← err.shape
  if !shapeErr.isEmpty then .error .valueError
  else
    let shape ← broadcastShapes [← f0.shape, ← guess.shape, ← minStep.shape]
    let sd ← broadcastShapes [← f0.shapeDistribution, ← guess.shapeDistribution, ← minStep.shapeDistribution]
    let f0 ← spread f0 shape sd
    let z ← UA.op2 o.mul (UA.number o.zero) f0
    let z ← z.broadcastTo shape
    let conv ← UA.op1 (fun v => !o.eq v o.zero) z
    let x1 ← spread guess shape sd
    .ok ⟨0, x0, x1, f0, conv⟩

/-- `na.optimize.root_secant(function, guess, min_step_size, max_abs_error, max_iterations, damping, callback)` for
uncertain scalars: the calls of `callback` and the result.  (`max_abs_error` is normalized after the first call of the
function: this matters only for which of two errors is raised.)
Models `/repo/named_arrays/optimize.py` lines 121-149 and
`/repo/named_arrays/_scalars/uncertainties/uncertainties_named_array_functions.py` lines 898-993. -/
def urootSecant (o : Arith F) (function : UA F → R (UA F)) (guess minStep err : UArg F) (maxIterations : Nat)
    (damping : Option F) : List (Call (UA F) (UA F) (UA Bool)) × R (UA F) :=
  match (do
    let guess ← UA.norm guess
    let minStep ← UA.norm minStep
    let err ← UA.norm err
    let s ← usecantInit o function guess minStep err
    .ok (minStep, err, s) : R (UA F × UA F × USecantState F)) with
  | .error e => ([], .error e)
  | .ok (minStep, err, s) => loop (usecantHead function) (usecantBody o minStep err damping) maxIterations s

/-! ### Newton's method -/

/-- The variables of the loop of Newton's method. -/
structure UNewtonState (F : Type) where
  i : Nat
  x : UA F
  f : UA F
  converged : UA Bool

/-- The arguments of `callback(i, x, f, converged)`. -/
def UNewtonState.call (s : UNewtonState F) : Call (UA F) (UA F) (UA Bool) := ⟨s.i, s.x, s.f, s.converged⟩

/-- The body of the loop of Newton's method after the call of `callback`, for uncertain scalars.
Models `/repo/named_arrays/_scalars/scalar_named_array_functions.py` lines 1578-1591. -/
def unewtonBody (o : Arith F) (function jacobian : UA F → R (UA F)) (err : UA F) (s : UNewtonState F) :
    R (UA F ⊕ UNewtonState F) := do
  let a ← UA.op1 o.abs s.f
  let conv ← UA.op2 o.lt a err
  let all ← conv.reduce false (fun l => l.all id) none false none
  let all ← all.truth
  if all then .ok (.inl s.x)
  else
    let jac ← jacobian s.x
    let correction ← UA.op2 o.div s.f jac
    let x ← UA.op2 o.sub s.x correction
    let f ← function x
    .ok (.inr ⟨s.i + 1, x, f, conv⟩)

/-- What is done before the loop of Newton's method.
Models `/repo/named_arrays/_scalars/scalar_named_array_functions.py` lines 1539-1571. -/
def unewtonInit (o : Arith F) (function : UA F → R (UA F)) (guess err : UA F) : R (UNewtonState F) := do
  let f ← function guess
  let shapeErr ← err.shape
  if !shapeErr.isEmpty then .error .valueError
  else
    let shape ← broadcastShapes [← f.shape, ← guess.shape]
    let z ← UA.op2 o.mul (UA.number o.zero) f
    let z ← z.broadcastTo shape
    let conv ← UA.op1 (fun v => !o.eq v o.zero) z
    let x ← guess.broadcastTo shape
    .ok ⟨0, x, f, conv⟩

/-- `na.optimize.root_newton(function, guess, jacobian, max_abs_error, max_iterations, callback)` for uncertain
scalars: the calls of `callback` and the result.  A `max_abs_error` which is not uncertain is used for both components.
Models `/repo/named_arrays/_scalars/uncertainties/uncertainties_named_array_functions.py` lines 879-895 and
`/repo/named_arrays/_scalars/scalar_named_array_functions.py` lines 1529-1593. -/
def urootNewton (o : Arith F) (function jacobian : UA F → R (UA F)) (guess err : UA F) (maxIterations : Nat) :
    List (Call (UA F) (UA F) (UA Bool)) × R (UA F) :=
  match unewtonInit o function guess err with
  | .error e => ([], .error e)
  | .ok s => loop (fun s => .ok s.call) (fun s _ => unewtonBody o function jacobian err s) maxIterations s

/-! ### Derivatives -/

/-- `na.jacobian(function, x, dx)` for an uncertain scalar.
Models `/repo/named_arrays/_scalars/uncertainties/uncertainties_named_array_functions.py` lines 864-876 and
`/repo/named_arrays/_scalars/scalar_named_array_functions.py` lines 1506-1526. -/
def ujacobian (o : Arith F) (function : UA F → R (UA F)) (x dx : UA F) : R (UA F) := do
  let f ← function x
  let x0 ← UA.op2 o.add x dx
  let f0 ← function x0
  let df ← UA.op2 o.sub f0 f
  UA.op2 o.div df dx

end Optimize
end NA
