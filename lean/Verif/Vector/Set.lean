import Verif.Vector.Reduce
import Verif.Scalar.Index

/-!
# Assignment to vectors

Model of `__setitem__` of `/repo/named_arrays/_vectors/vectors.py`, and of reading with a vector as mask.
The components are modified in place, one after the other, so an error leaves the earlier components
modified: an assignment returns the vector afterwards, and the error if there is one.
-/

namespace NA
open Dict

namespace Comp
variable {α β : Type}

/-- The item of an assignment: a dictionary whose values are integers, slices or scalar arrays (leaves), or
vectors of these; or a boolean scalar array (a leaf) or a vector of boolean arrays. -/
inductive Item where
  | dict (d : Dict (Comp IndexVal))
  | mask (m : Comp (SA Bool))

/-- The item at one scalar: a dictionary of integers, slices and scalar arrays, or a boolean array. -/
inductive ScalarItem where
  | dict (d : Dict IndexVal)
  | mask (m : SA Bool)

/-- `a[item] = w` for a scalar array. -/
def ScalarItem.assign (a : SA α) (w : SA α) : ScalarItem → R (SA α)
  | .dict d => a.setitem d w
  | .mask m => a.setMask m w

/-- What one component takes from `x`: a scalar is used for every component, and from a vector of the same
type the component with the same name.  The result is a dictionary with the names of the components.
Models `/repo/named_arrays/_vectors/vectors.py` lines 650-658 (for masks) and 707-724 (for values). -/
def componentsOf (cls : String) (names : List String) : Comp β → R (Dict (Comp β))
  | .leaf b => .ok (names.map (fun c => (c, .leaf b)))
  | .node cls' cs' => if cls' = cls then .ok cs' else .error .typeError

/-- `components_item[c][axis]` for all `c`.
Models `/repo/named_arrays/_vectors/vectors.py` lines 674-697. -/
def indexOf (cls : String) (names : List String) (x : Comp IndexVal) : R (Dict (Comp IndexVal)) := do
  let d ← componentsOf cls names x
  names.mapM (fun c => match d.get? c with
    | none => .error .keyError
    | some y => .ok (c, y))

/-- `components_item`.
Models `/repo/named_arrays/_vectors/vectors.py` lines 650-703. -/
def Item.components (cls : String) (names : List String) : Item → R (Dict Item)
  | .mask m => do
    let d ← componentsOf cls names m
    .ok (d.map (fun p => (p.1, .mask p.2)))
  | .dict d => do
    let table ← d.mapM (fun p => do
      let x ← indexOf cls names p.2
      .ok (p.1, x))
    .ok (names.map (fun c => (c, .dict (table.filterMap (fun p => (p.2.get? c).map (fun y => (p.1, y)))))))

/-- `a[item] = value` for a scalar component `a`, where `item` and `value` may be vectors.  A value which is a
vector raises `TypeError`; a vector as mask is ignored silently, since there is no `else` branch; a vector
in a dictionary raises `TypeError`, after it is checked that the axes exist.
Models `/repo/named_arrays/_scalars/scalars.py` lines 1047-1128. -/
def leafSet (a : SA α) : Item → Comp (SA α) → R (SA α)
  | _, .node _ _ => .error .typeError
  | .mask (.node _ _), .leaf _ => .ok a
  | .mask (.leaf m), .leaf w => a.setMask m w
  | .dict d, .leaf w =>
    if d.keys.all (· ∈ a.axes) then do
      let d' ← d.mapM (fun p => match p.2 with
        | .leaf i => .ok (p.1, i)
        | .node _ _ => .error .typeError)
      a.setitem d' w
    else .error .valueError

mutual
/-- `vector[item] = value`.  Returns the vector afterwards, and the error if there is one.
Models `/repo/named_arrays/_vectors/vectors.py` lines 643-728.  Components are assumed to be named arrays
which do not share memory (a plain number as component cannot be assigned to). -/
def setitem : Comp (SA α) → Item → Comp (SA α) → Comp (SA α) × Option Err
  | .leaf a, item, value =>
    match leafSet a item value with
    | .ok b => (.leaf b, none)
    | .error e => (.leaf a, some e)
  | .node cls cs, item, value =>
    match item.components cls (keys cs) with
    | .error e => (.node cls cs, some e)
    | .ok items =>
      match componentsOf cls (keys cs) value with
      | .error e => (.node cls cs, some e)
      | .ok values =>
        let r := setitemL cs items values
        (.node cls r.1, r.2)
/-- The loop over the components.
Models `/repo/named_arrays/_vectors/vectors.py` lines 726-727. -/
def setitemL : List (String × Comp (SA α)) → Dict Item → Dict (Comp (SA α)) →
    List (String × Comp (SA α)) × Option Err
  | [], _, _ => ([], none)
  | (k, c) :: l, items, values =>
    match items.get? k, values.get? k with
    | some item, some value =>
      match c.setitem item value with
      | (c', some e) => ((k, c') :: l, some e)
      | (c', none) =>
        let r := setitemL l items values
        ((k, c') :: r.1, r.2)
    | _, _ => ((k, c) :: l, some .keyError)
end

/-- `vector[mask]` for a vector as mask: an element is selected if all components of the mask are true there.
Models `/repo/named_arrays/_vectors/vectors.py` lines 288-305.  Only for masks whose components are
scalars (`notImplemented` otherwise). -/
def getMaskVector (cls' : String) (ms : List (String × Comp (SA Bool))) : Comp (SA α) → R (Comp (SA α))
  | .leaf _ => .error .typeError
  | .node cls cs =>
    if cls' = cls then do
      let m ← ms.foldlM (fun acc p => match p.2 with
        | .leaf m => SA.ufunc2 and acc m
        | .node _ _ => .error .notImplemented) (SA.scalar true)
      getMask m (.node cls cs)
    else .error .typeError

end Comp
end NA
