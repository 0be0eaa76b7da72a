import Verif.Vector.Basic
import Verif.Uncertain.Basic
import Mathlib.Algebra.Field.Defs

/-!
# Physical units

Arrays with units.  The behaviour of `astropy.units` on plain arrays (conversion factors, units of sums and products) is modelled
here by its documented rules; the code of the repository decides to which parts of an array they are applied.
-/

namespace NA
open Dict

/-- A physical unit: its size in base units and its dimension (the exponents of the base units).
(`astropy` compares units by both.) -/
structure PhysUnit (K D : Type) where
  scale : K
  dim : D
deriving DecidableEq

variable {K D : Type}

/-- An equivalency `(unit1, unit2, forward, backward)` of `astropy`. -/
structure Equivalency (K D : Type) where
  fst : PhysUnit K D
  snd : PhysUnit K D
  forward : K → K
  backward : K → K

namespace PhysUnit

/-- `u.dimensionless_unscaled` -/
def dimensionless [One K] [Zero D] : PhysUnit K D := ⟨1, 0⟩

/-- `unit * unit` -/
def times [Mul K] [Add D] (u v : PhysUnit K D) : PhysUnit K D := ⟨u.scale * v.scale, u.dim + v.dim⟩

/-- `unit / unit` -/
def over [Div K] [Sub D] (u v : PhysUnit K D) : PhysUnit K D := ⟨u.scale / v.scale, u.dim - v.dim⟩

/-- The function which converts numbers from one unit into another.  The equivalencies are only used for units of different
dimensions. -/
def converter [Field K] [DecidableEq D] (u v : PhysUnit K D) (eqs : List (Equivalency K D)) : Option (K → K) :=
  if u.dim = v.dim then some (fun x => x * (u.scale / v.scale))
  else eqs.findSome? (fun q =>
    if u.dim = q.fst.dim ∧ v.dim = q.snd.dim then
      some (fun x => q.forward (x * (u.scale / q.fst.scale)) * (q.snd.scale / v.scale))
    else if v.dim = q.fst.dim ∧ u.dim = q.snd.dim then
      some (fun x => q.backward (x * (u.scale / q.snd.scale)) * (q.fst.scale / v.scale))
    else none)

end PhysUnit

/-- A scalar array which may have a unit: the field `ndarray` is a `Quantity` or a plain array.
Models `/repo/named_arrays/_scalars/scalars.py` lines 889-900. -/
structure QA (K D : Type) where
  data : SA K
  unit : Option (PhysUnit K D)

namespace QA

/-- The same numbers after a function, with another unit. -/
def withUnit (q : QA K D) (f : K → K) (u : Option (PhysUnit K D)) : QA K D := ⟨⟨q.data.axes, q.data.nd.map f⟩, u⟩

/-- `a.value`.
Models `/repo/named_arrays/_scalars/scalars.py` lines 223-228. -/
def value (q : QA K D) : QA K D := q.withUnit id none

/-- `na.unit(a, unit_dimensionless)`.
Models `/repo/named_arrays/_scalars/scalar_named_array_functions.py` lines 168-177. -/
def unitOr (q : QA K D) (dimensionless : Option (PhysUnit K D)) : Option (PhysUnit K D) :=
  match q.unit with
  | some u => some u
  | none => dimensionless

/-- `na.unit_normalized(a)`.
Models `/repo/named_arrays/_scalars/scalar_named_array_functions.py` lines 180-190. -/
def unitNormalized [One K] [Zero D] (q : QA K D) : PhysUnit K D := q.unit.getD .dimensionless

/-- `a.to(unit, equivalencies)`; an array without unit is dimensionless.  (`UnitConversionError` is `Err.other`.)
Models `/repo/named_arrays/_scalars/scalars.py` lines 249-265. -/
def toUnit [Field K] [Zero D] [DecidableEq D] (q : QA K D) (u : PhysUnit K D) (eqs : List (Equivalency K D) := []) : R (QA K D) :=
  match q.unitNormalized.converter u eqs with
  | none => .error .other
  | some f => .ok (q.withUnit f (some u))

/-- `a.to_value(unit, equivalencies)`.
Models `/repo/named_arrays/_scalars/scalars.py` lines 267-281. -/
def toValue [Field K] [Zero D] [DecidableEq D] (q : QA K D) (u : PhysUnit K D) (eqs : List (Equivalency K D) := []) : R (QA K D) :=
  match q.unitNormalized.converter u eqs with
  | none => .error .other
  | some f => .ok (q.withUnit f none)

/-- `a * unit`: the numbers are not changed.
Models `/repo/named_arrays/_scalars/scalars.py` lines 500-507. -/
def mulUnit [Mul K] [Add D] (q : QA K D) (u : PhysUnit K D) : QA K D :=
  match q.unit with
  | none => q.withUnit id (some u)
  | some v => q.withUnit id (some (v.times u))

/-- `a / unit`.
Models `/repo/named_arrays/_scalars/scalars.py` lines 518-525. -/
def divUnit [Div K] [Sub D] [One K] [Zero D] (q : QA K D) (u : PhysUnit K D) : QA K D :=
  q.withUnit id (some (q.unitNormalized.over u))

/-- `a << unit`: a plain array gets the unit, a quantity is converted.
Models `/repo/named_arrays/_scalars/scalars.py` lines 509-516. -/
def shiftUnit [Field K] [Zero D] [DecidableEq D] (q : QA K D) (u : PhysUnit K D) : R (QA K D) :=
  match q.unit with
  | none => .ok (q.withUnit id (some u))
  | some _ => q.toUnit u

/-- Whether `astropy` accepts a plain array in the place of any quantity: all of its elements are zero. (Or infinite or `nan`.) -/
def allZero [Zero K] [DecidableEq K] (q : QA K D) : Bool := q.data.nd.toList.all (· = 0)

/-- Bring two operands to a common unit, which is returned as well: the second one is converted to the unit of the first one; a
quantity is converted to a number if the other operand has no unit. -/
def common [Field K] [DecidableEq K] [Zero D] [DecidableEq D] (a b : QA K D) : R (SA K × SA K × Option (PhysUnit K D)) :=
  match a.unit, b.unit with
  | none, none => .ok (a.data, b.data, none)
  | some u, some v =>
    match v.converter u [] with
    | none => .error .other
    | some f => .ok (a.data, (b.withUnit f none).data, some u)
  | none, some v =>
    match v.converter .dimensionless [] with
    | some f => .ok (a.data, (b.withUnit f none).data, some .dimensionless)
    | none => if a.allZero then .ok (a.data, b.data, some v) else .error .other
  | some u, none =>
    match u.converter .dimensionless [] with
    | some f => .ok ((a.withUnit f none).data, b.data, some .dimensionless)
    | none => if b.allZero then .ok (a.data, b.data, some u) else .error .other

/-- `a + b`, `a - b`, `np.maximum(a, b)` and the like: the operands are aligned by name and brought to a common unit.
Models `/repo/named_arrays/_scalars/scalars.py` lines 527-610. (The units are compared after the alignment, so that a clash of the
shapes is reported first.) -/
def sumLike [Field K] [DecidableEq K] [Zero D] [DecidableEq D] (f : K → K → K) (a b : QA K D) : R (QA K D) := do
  let _ ← broadcastShapes [a.data.shape, b.data.shape]
  let c ← common a b
  let r ← SA.ufunc2 f c.1 c.2.1
  .ok ⟨r, c.2.2⟩

/-- `a < b` and the like: as `sumLike`, but the result has no unit.
Models `/repo/named_arrays/_scalars/scalars.py` lines 527-610. -/
def compare [Field K] [DecidableEq K] [Zero D] [DecidableEq D] (f : K → K → Bool) (a b : QA K D) : R (SA Bool) := do
  let _ ← broadcastShapes [a.data.shape, b.data.shape]
  let c ← common a b
  SA.ufunc2 f c.1 c.2.1

/-- `a * b`: the units are multiplied.
Models `/repo/named_arrays/_scalars/scalars.py` lines 527-610. -/
def mul [Field K] [Zero D] [Add D] (a b : QA K D) : R (QA K D) := do
  let r ← SA.ufunc2 (· * ·) a.data b.data
  .ok ⟨r, match a.unit, b.unit with
    | none, none => none
    | _, _ => some (a.unitNormalized.times b.unitNormalized)⟩

/-- `a / b`: the units are divided.
Models `/repo/named_arrays/_scalars/scalars.py` lines 527-610. -/
def div [Field K] [Zero D] [Sub D] (a b : QA K D) : R (QA K D) := do
  let r ← SA.ufunc2 (· / ·) a.data b.data
  .ok ⟨r, match a.unit, b.unit with
    | none, none => none
    | _, _ => some (a.unitNormalized.over b.unitNormalized)⟩

end QA

/-- The argument `unit` of `to` and `to_value`: `None`, a unit, or a dictionary for the components of a vector. -/
inductive UnitSpec (K D : Type) where
  | keep
  | unit (u : PhysUnit K D)
  | dict (d : List (String × UnitSpec K D))

namespace Comp

/-- The unit for the component `k`: `unit[c]`, where one unit stands for all components.
Models `/repo/named_arrays/_vectors/vectors.py` lines 189-193. -/
def specOf (spec : UnitSpec K D) (k : String) : R (UnitSpec K D) :=
  match spec with
  | .dict d =>
    match get? d k with
    | none => .error .keyError
    | some s => .ok s
  | s => .ok s

mutual
/-- `a.to(unit)` and `a.to_value(unit)` of a scalar or a vector, where `conv` converts one scalar.  A dictionary (or `None`) is not a
unit for a scalar.
Models `/repo/named_arrays/_vectors/vectors.py` lines 183-229. -/
def convert (conv : PhysUnit K D → QA K D → R (QA K D)) (spec : UnitSpec K D) : Comp (QA K D) → R (Comp (QA K D))
  | .leaf q =>
    match spec with
    | .unit u => do .ok (.leaf (← conv u q))
    | _ => .error .typeError
  | .node cls cs => do .ok (.node cls (← convertL conv spec cs))
/-- The loop over the components. -/
def convertL (conv : PhysUnit K D → QA K D → R (QA K D)) (spec : UnitSpec K D) :
    List (String × Comp (QA K D)) → R (List (String × Comp (QA K D)))
  | [] => .ok []
  | (k, c) :: l => do
    let s ← specOf spec k
    let r ← match s with
      | .keep => .ok c
      | s => c.convert conv s
    .ok ((k, r) :: (← convertL conv spec l))
end

/-- `a.to(unit, equivalencies)`. -/
def toUnit [Field K] [Zero D] [DecidableEq D] (spec : UnitSpec K D) (eqs : List (Equivalency K D)) (v : Comp (QA K D)) :
    R (Comp (QA K D)) := v.convert (fun u q => q.toUnit u eqs) spec

/-- `a.to_value(unit, equivalencies)`. -/
def toValue [Field K] [Zero D] [DecidableEq D] (spec : UnitSpec K D) (eqs : List (Equivalency K D)) (v : Comp (QA K D)) :
    R (Comp (QA K D)) := v.convert (fun u q => q.toValue u eqs) spec

/-- `a.value` of a vector.
Models `/repo/named_arrays/_vectors/vectors.py` lines 141-145. -/
def value (v : Comp (QA K D)) : R (Comp (QA K D)) := v.mapM (fun q => .ok q.value)

/-- `a * unit` of a Cartesian vector.
Models `/repo/named_arrays/_vectors/cartesian/vectors_cartesian.py` lines 58-66. -/
def mulUnit [Mul K] [Add D] (v : Comp (QA K D)) (u : PhysUnit K D) : R (Comp (QA K D)) := v.mapM (fun q => .ok (q.mulUnit u))

/-- `a / unit` of a Cartesian vector.
Models `/repo/named_arrays/_vectors/cartesian/vectors_cartesian.py` lines 78-86. -/
def divUnit [Div K] [Sub D] [One K] [Zero D] (v : Comp (QA K D)) (u : PhysUnit K D) : R (Comp (QA K D)) :=
  v.mapM (fun q => .ok (q.divUnit u))

/-- `a << unit` of a Cartesian vector.
Models `/repo/named_arrays/_vectors/cartesian/vectors_cartesian.py` lines 68-76. -/
def shiftUnit [Field K] [Zero D] [DecidableEq D] (v : Comp (QA K D)) (u : PhysUnit K D) : R (Comp (QA K D)) :=
  v.mapM (fun q => q.shiftUnit u)

/-- `na.unit(a, squeeze=False)` of a vector: a vector of ones with the units of the components.
Models `/repo/named_arrays/_vectors/vector_named_array_functions.py` lines 138-158. -/
def unitVector [One K] (v : Comp (QA K D)) : R (Comp (QA K D)) := v.mapM (fun q => .ok ⟨SA.scalar 1, q.unit⟩)

/-- `na.unit(a)` of a vector whose components are scalars: one unit if all components have the same one, otherwise the vector of
units.  (A vector without components makes `next` fail.)
Models `/repo/named_arrays/_vectors/vector_named_array_functions.py` lines 138-158. -/
def unitSqueezed [One K] [DecidableEq K] [DecidableEq D] (cls : String) (cs : List (String × QA K D)) :
    R (Option (PhysUnit K D) ⊕ Comp (QA K D)) :=
  match cs with
  | [] => .error .other
  | p :: _ =>
    if cs.all (fun q => p.2.unit = q.2.unit) then .ok (.inl p.2.unit)
    else do .ok (.inr (← unitVector (.node cls (cs.map (fun q => (q.1, .leaf q.2))))))

end Comp

/-- An uncertain scalar array whose nominal value and samples may have units.
Models the fields at `/repo/named_arrays/_scalars/uncertainties/uncertainties.py` lines 609-613. -/
structure QU (K D : Type) where
  nominal : QA K D
  distribution : QA K D

namespace QU

/-- `a.value`.
Models `/repo/named_arrays/_scalars/uncertainties/uncertainties.py` lines 190-194. -/
def value (q : QU K D) : QU K D := ⟨q.nominal.value, q.distribution.value⟩

/-- `na.unit_normalized(a)`: the unit of the nominal value.
Models `/repo/named_arrays/_scalars/uncertainties/uncertainties_named_array_functions.py` lines 111-120. -/
def unitNormalized [One K] [Zero D] (q : QU K D) : PhysUnit K D := q.nominal.unitNormalized

/-- `a.to(unit, equivalencies)`: the equivalencies are not passed on to the samples.
Models `/repo/named_arrays/_scalars/uncertainties/uncertainties.py` lines 221-234. -/
def toUnit [Field K] [Zero D] [DecidableEq D] (q : QU K D) (u : PhysUnit K D) (eqs : List (Equivalency K D) := []) : R (QU K D) := do
  let n ← q.nominal.toUnit u eqs
  let d ← q.distribution.toUnit u
  .ok ⟨n, d⟩

/-- `a.to_value(unit, equivalencies)`.
Models `/repo/named_arrays/_scalars/uncertainties/uncertainties.py` lines 236-247. -/
def toValue [Field K] [Zero D] [DecidableEq D] (q : QU K D) (u : PhysUnit K D) (eqs : List (Equivalency K D) := []) : R (QU K D) := do
  let n ← q.nominal.toValue u eqs
  let d ← q.distribution.toValue u
  .ok ⟨n, d⟩

/-- `a * unit`.
Models `/repo/named_arrays/_scalars/uncertainties/uncertainties.py` lines 397-404. -/
def mulUnit [Mul K] [Add D] (q : QU K D) (u : PhysUnit K D) : QU K D := ⟨q.nominal.mulUnit u, q.distribution.mulUnit u⟩

/-- `a / unit`.
Models `/repo/named_arrays/_scalars/uncertainties/uncertainties.py` lines 415-422. -/
def divUnit [Div K] [Sub D] [One K] [Zero D] (q : QU K D) (u : PhysUnit K D) : QU K D :=
  ⟨q.nominal.divUnit u, q.distribution.divUnit u⟩

/-- `a << unit`.
Models `/repo/named_arrays/_scalars/uncertainties/uncertainties.py` lines 406-413. -/
def shiftUnit [Field K] [Zero D] [DecidableEq D] (q : QU K D) (u : PhysUnit K D) : R (QU K D) := do
  let n ← q.nominal.shiftUnit u
  let d ← q.distribution.shiftUnit u
  .ok ⟨n, d⟩

end QU

/-- A function array whose inputs and outputs may have units. -/
structure QFunction (K D : Type) where
  inputs : Comp (QA K D)
  outputs : Comp (QA K D)

namespace QFunction

/-- `f.value`.
Models `/repo/named_arrays/_functions/functions.py` lines 108-113. -/
def value (f : QFunction K D) : R (QFunction K D) := do .ok ⟨f.inputs, ← f.outputs.value⟩

/-- `f.to(unit, equivalencies)`.
Models `/repo/named_arrays/_functions/functions.py` lines 157-170. -/
def toUnit [Field K] [Zero D] [DecidableEq D] (f : QFunction K D) (spec : UnitSpec K D) (eqs : List (Equivalency K D)) :
    R (QFunction K D) := do .ok ⟨f.inputs, ← f.outputs.toUnit spec eqs⟩

/-- `f.to_value(unit, equivalencies)`.
Models `/repo/named_arrays/_functions/functions.py` lines 172-183. -/
def toValue [Field K] [Zero D] [DecidableEq D] (f : QFunction K D) (spec : UnitSpec K D) (eqs : List (Equivalency K D)) :
    R (QFunction K D) := do .ok ⟨f.inputs, ← f.outputs.toValue spec eqs⟩

/-- `f * unit`.
Models `/repo/named_arrays/_functions/functions.py` lines 627-634. -/
def mulUnit [Mul K] [Add D] (f : QFunction K D) (u : PhysUnit K D) : R (QFunction K D) := do
  .ok ⟨f.inputs, ← f.outputs.mulUnit u⟩

end QFunction
end NA
