import Verif.Scalar.Join

/-!
# Function arrays

Model of `/repo/named_arrays/_functions/functions.py` for inputs and outputs which are scalar arrays.
-/

namespace NA
open Dict

/-- `FunctionArray(inputs, outputs)`.
Models the fields at `/repo/named_arrays/_functions/functions.py` lines 1028-1032, for scalar inputs and
outputs; a python number is an array without axes. -/
structure FA (α β : Type) where
  inputs : SA α
  outputs : SA β

namespace FA
variable {α β γ : Type}

/-- `f.axes` from the shapes of the inputs and of the outputs.
Models `/repo/named_arrays/_functions/functions.py` lines 1059-1061. -/
def axesOf (i o : Shape) : List String := (i.union o).keys

/-- One turn of the loop of `axes_center`. -/
def centerStep (i o : Shape) (acc : List String) (ax : String) : R (List String) :=
  match i.get? ax with
  | none => .ok (acc ++ [ax])
  | some m =>
    match o.get? ax with
    | none => .ok (acc ++ [ax])
    | some n =>
      if m = n then .ok (acc ++ [ax])
      else if m = n + 1 then .ok acc
      else if n = 1 ∨ m = 1 then .ok (acc ++ [ax])
      else .error .valueError

/-- `f.axes_center` from the shapes of the inputs and of the outputs (of any type).
Models `/repo/named_arrays/_functions/functions.py` lines 52-84. -/
def axesCenterOf (i o : Shape) : R (List String) := (axesOf i o).foldlM (centerStep i o) []

/-- `f.axes_vertex` from the shapes of the inputs and of the outputs.
Models `/repo/named_arrays/_functions/functions.py` lines 86-98. -/
def axesVertexOf (i o : Shape) : R (List String) := do
  let c ← axesCenterOf i o
  .ok ((axesOf i o).filter (· ∉ c))

/-- `f.shape` from the shapes of the inputs and of the outputs.
Models `/repo/named_arrays/_functions/functions.py` lines 1063-1083. -/
def shapeOf (i o : Shape) : R Shape := do
  let c ← axesCenterOf i o
  let v ← axesVertexOf i o
  broadcastShapes [o.filter (fun p => p.1 ∈ c), o.filter (fun p => p.1 ∈ v), i.filter (fun p => p.1 ∈ c)]

def axes (f : FA α β) : List String := axesOf f.inputs.shape f.outputs.shape
def axesCenter (f : FA α β) : R (List String) := axesCenterOf f.inputs.shape f.outputs.shape
def axesVertex (f : FA α β) : R (List String) := axesVertexOf f.inputs.shape f.outputs.shape
def shape (f : FA α β) : R Shape := shapeOf f.inputs.shape f.outputs.shape

/-- `f.broadcasted`.  Models `/repo/named_arrays/_functions/functions.py` lines 115-134. -/
def broadcasted (f : FA α β) : R (FA α β) := do
  let s ← f.shape
  let v ← f.axesVertex
  let i ← f.inputs.broadcastTo
    (s.map (fun p => if p.1 ∈ v then (p.1, (f.inputs.shape.get? p.1).getD 0) else p))
  let o ← f.outputs.broadcastTo s
  .ok ⟨i, o⟩

/-! ### Elementwise operations -/

/-- `bool(np.any(a != b))`, for the comparison `ne` of two elements. -/
def differ (ne : α → α → Bool) (a b : SA α) : R Bool := do
  let d ← SA.ufunc2 ne a b
  let r ← d.reduce false (fun l => l.any id) none false none none
  .ok (r.at' (fun _ => 0))

/-- An operand of an elementwise operation: a function, or a plain array which stands for its outputs. -/
inductive Arg (α β : Type) where
  | plain (a : SA β)
  | func (f : FA α β)

/-- `inputs_outputs` at `/repo/named_arrays/_functions/functions.py` lines 727-737. -/
def Arg.outputs : Arg α β → SA β
  | .plain a => a
  | .func f => f.outputs

/-- `inputs_inputs` at `/repo/named_arrays/_functions/functions.py` lines 727-737. -/
def Arg.inputs? : Arg α β → Option (SA α)
  | .plain _ => none
  | .func f => some f.inputs

/-- The loop which compares the inputs of the operands with those of the first.
Models `/repo/named_arrays/_functions/functions.py` lines 739-741. -/
def checkInputs (ne : α → α → Bool) (first : SA α) : List (SA α) → R Unit
  | [] => .ok ()
  | i :: is => do
    let d ← differ ne i first
    if d then .error .inputValueError else checkInputs ne first is

/-- `__array_ufunc__` with one result, without `out` and `where`; `IndexError` stands for `inputs_inputs[0]`
without any function among the operands, which does not happen.
Models `/repo/named_arrays/_functions/functions.py` lines 713-800. -/
def ufuncN (ne : α → α → Bool) (g : List β → γ) (args : List (Arg α β)) : R (FA α γ) :=
  match args.filterMap Arg.inputs? with
  | [] => .error .indexError
  | first :: rest => do
    checkInputs ne first rest
    let o ← SA.ufuncN g (args.map Arg.outputs)
    .ok ⟨first, o⟩

/-! ### Indexing -/

/-- What the loop of `_getitem` adds to `item_inputs` and `item_outputs` for an axis on cell vertices;
`none` stands for `return NotImplemented`.
Models `/repo/named_arrays/_functions/functions.py` lines 589-602. -/
def vertexItem : IndexVal → Option (IndexVal × IndexVal)
  | .int i => some (.slice ⟨some i, some (i + 2), none⟩, .slice ⟨some i, some (i + 1), none⟩)
  | .slice s =>
    if s.start.isNone ∧ s.stop.isNone then some (.slice s, .slice s)
    else
      match s.stop with
      | some stop => some (.slice ⟨s.start, some (stop + 1), none⟩, .slice s)
      | none => some (.slice ⟨s.start, none, none⟩, .slice s)
  | _ => none

/-- One turn of the loop of `_getitem` over the axes of the item.
Models `/repo/named_arrays/_functions/functions.py` lines 574-602; `NotImplemented` is raised as a
`ValueError` by the caller (`/repo/named_arrays/_core.py` lines 1052-1073, where an index array along an axis on
vertices could still be handled by its own `_getitem_reversed`, which gives up for scalars). -/
def itemStep (i o : Shape) (acc : Dict IndexVal × Dict IndexVal) (p : String × IndexVal) :
    R (Dict IndexVal × Dict IndexVal) := do
  let c ← axesCenterOf i o
  if p.1 ∈ c then
    .ok (if p.1 ∈ i.keys then acc.1.set p.1 p.2 else acc.1, if p.1 ∈ o.keys then acc.2.set p.1 p.2 else acc.2)
  else
    match vertexItem p.2 with
    | some v => .ok (acc.1.set p.1 v.1, acc.2.set p.1 v.2)
    | none => .error .valueError

/-- `f[item]` for a dictionary of integers, slices and scalar index arrays.
Models `/repo/named_arrays/_functions/functions.py` lines 537-545 and 564-610. -/
def getitem (f : FA α β) (item : Dict IndexVal) : R (FA α β) := do
  let items ← (item.filter (fun p => p.1 ∈ f.axes)).foldlM (itemStep f.inputs.shape f.outputs.shape) ([], [])
  let i ← f.inputs.getitem items.1
  let o ← f.outputs.getitem items.2
  .ok ⟨i, o⟩

end FA
end NA
