import Verif.Vector.Basic
import Verif.Scalar.Reduce

/-!
# Reductions and mask indexing of vectors

Model of `/repo/named_arrays/_vectors/vector_array_functions.py` lines 156-213 and of
`/repo/named_arrays/_vectors/vectors.py` lines 279-347.
-/

namespace NA
namespace Comp
variable {α β : Type}

mutual
/-- Nesting depth of a vector. -/
def depth : Comp α → Nat
  | .leaf _ => 1
  | .node _ cs => depthL cs + 1
/-- ... of all components. -/
def depthL : List (String × Comp α) → Nat
  | [] => 0
  | (_, c) :: l => max c.depth (depthL l)
end

/-- `{ax: shape[ax] for ax in axes}` -/
def shapeBase (shape : Shape) (axes : List String) : Shape :=
  Dict.union [] (axes.map (fun ax => (ax, (shape.get? ax).getD 0)))

/-- `component.broadcast_to(na.broadcast_shapes(component.shape, shape_base))`.
Models `/repo/named_arrays/_vectors/vector_array_functions.py` lines 198-206 (where the empty shape of an
absent `where` is left out) and `/repo/named_arrays/_vectors/vectors.py` lines 293-296. -/
def broadcastBase (base : Shape) (c : Comp (SA α)) : R (Comp (SA α)) := do
  let s ← c.shape
  let shapeC ← broadcastShapes [s, base]
  c.broadcastTo shapeC

/-- The common scheme of the reductions and of mask indexing: find the axes concerned from the shape of
the vector, broadcast each component along these axes, and call the same function on each component.
The recursion is on the nesting depth (broadcasting does not change it), so that the first case is
not reached from `deep`. -/
def deepAux (axesOf : Shape → R (List String)) (op : SA α → R (SA β)) : Nat → Comp (SA α) → R (Comp (SA β))
  | 0, _ => .error .other
  | _ + 1, .leaf a => do .ok (.leaf (← op a))
  | n + 1, .node cls cs => do
    let shape ← (Comp.node cls cs).shape
    let axes ← axesOf shape
    let base := shapeBase shape axes
    let rs ← cs.mapM (fun p => do
      let c ← broadcastBase base p.2
      let r ← deepAux axesOf op n c
      .ok (p.1, r))
    .ok (.node cls rs)

/-- See `deepAux`. -/
def deep (axesOf : Shape → R (List String)) (op : SA α → R (SA β)) (c : Comp (SA α)) : R (Comp (SA β)) :=
  deepAux axesOf op c.depth c

/-- `axis_normalized` and its check in `array_function_default`.
Models `/repo/named_arrays/_vectors/vector_array_functions.py` lines 168-180. -/
def reduceAxes (axis : Option (List String)) (shape : Shape) : R (List String) :=
  let axisN := axisNormalized shape.keys axis
  if axis.isSome && !(axisN.all (· ∈ shape.keys)) then .error .valueError else .ok axisN

/-- `array_function_default` for vectors: `np.sum`, `np.min`, `np.mean`, ... without `out`, `where`,
`dtype` and `initial`.
Models `/repo/named_arrays/_vectors/vector_array_functions.py` lines 156-213. -/
def reduce (need : Bool) (f : List α → β) (c : Comp (SA α)) (axis : Option (List String)) (keepdims : Bool) :
    R (Comp (SA β)) :=
  deep (reduceAxes axis) (fun a => a.reduce need f axis keepdims none none) c

/-- `vector[mask]` for a boolean scalar array.
Models `/repo/named_arrays/_vectors/vectors.py` lines 284-308 and 340-345. -/
def getMask (mask : SA Bool) (c : Comp (SA α)) : R (Comp (SA α)) :=
  deep (fun shape => .ok (mask.shape.keys.filter (· ∈ shape.keys))) (fun a => a.getMask mask) c

end Comp
end NA
