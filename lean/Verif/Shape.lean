import Verif.Dict

/-!
# Named shapes

Model of the shape helpers of `named_arrays/_core.py`.
-/

namespace NA

/-- A named shape, `dict[str, int]`.  Sizes are natural numbers (the package never builds a
negative size except the `-1` placeholder of `reshape`, which is not modelled here). -/
abbrev Shape := Dict Nat

/-- The body of the inner loop of `broadcast_shapes`: one axis `(axis, shape_axis)` is merged in
`result`.  Models `/repo/named_arrays/_core.py` lines 188-201. -/
def bcAxis (result : Shape) (p : String × Nat) : R Shape :=
  match result.get? p.1 with
  | some resultAxis =>
    if resultAxis = p.2 then .ok result
    else if p.2 = 1 then .ok result
    else if resultAxis = 1 then .ok (result.set p.1 p.2)
    else .error .valueError
  | none => .ok (result.set p.1 p.2)

/-- The body of the outer loop of `broadcast_shapes`: skip a shape equal to the result so far,
otherwise merge its axes in order.  Models `/repo/named_arrays/_core.py` lines 185-201. -/
def bcShape (result shape : Shape) : R Shape :=
  if shape.eqv result then .ok result
  else shape.foldlM bcAxis result

/-- `na.broadcast_shapes(*shapes)`.  Models `/repo/named_arrays/_core.py` lines 170-202. -/
def broadcastShapes : List Shape → R Shape
  | [] => .ok []
  | s :: ss => ss.foldlM bcShape s

/-- All multi-indices of a positional shape, in row-major order: `np.ndindex(*shape)`.
(For the empty shape there is exactly one, empty, index.) -/
def ndIndices : List Nat → List (List Nat)
  | [] => [[]]
  | n :: s => (List.range n).flatMap (fun i => (ndIndices s).map (i :: ·))

/-- `na.ndindex(shape, axis_ignored)`: the list of all the dictionaries it yields.
Models `/repo/named_arrays/_core.py` lines 219-249.  `axis_ignored` is already a list here
(`None` is `[]`, a single string is a one-element list, lines 239-242). -/
def ndindex (shape : Shape) (axisIgnored : List String) : List (Dict Nat) :=
  let shape := axisIgnored.foldl (fun s ax => s.erase ax) shape
  (ndIndices shape.values).map (fun index => shape.keys.zip index)

/-- `na.flatten_axes(axes)`: join with `*`, error on an empty sequence.
Models `/repo/named_arrays/_core.py` lines 264-279. -/
def flattenAxes (axes : List String) : R String :=
  if axes.isEmpty then .error .valueError else .ok ("*".intercalate axes)

/-- `na.axis_normalized(a, axis)`, with `a.axes` given and `axis` either `None`, or a sequence
(a single string is a one-element sequence).  Models `/repo/named_arrays/_core.py` lines 282-303. -/
def axisNormalized (axes : List String) : Option (List String) → List String
  | none => axes
  | some l => l

/-- A value passed to a dispatched function, as far as dispatch is concerned: either an instance
of `AbstractArray`, with the name of its explicit type and its `__named_array_priority__`, or
anything else. -/
inductive DispatchArg where
  | named (cls : String) (priority : Nat)
  | other
  deriving DecidableEq, Repr

/-- Loop of `na.type_array(*values)` with state `(cls, priority_max)`.
Models `/repo/named_arrays/_core.py` lines 158-167.  Priorities are natural numbers
(in the code they are the positive floats 1, 10, 100, ...). -/
def typeArrayStep (st : Option String × Nat) (v : DispatchArg) : Option String × Nat :=
  match v with
  | .named cls p => if p > st.2 then (some cls, p) else st
  | .other => st

/-- `na.type_array(*values)`.  Models `/repo/named_arrays/_core.py` lines 155-167. -/
def typeArray (values : List DispatchArg) : Option String :=
  (values.foldl typeArrayStep (none, 0)).1

end NA
