import Verif.Vector.Set
import Verif.Uncertain.Basic

/-!
# `np.copyto` for vectors

Model of `/repo/named_arrays/_vectors/vector_array_functions.py` lines 458-505, with
`/repo/named_arrays/_scalars/scalar_array_functions.py` lines 495-532 for the components.
-/

namespace NA
open Dict

/-- A component which is not a vector: a python number, or a scalar array. -/
inductive Slot (α : Type) where
  | number (x : α)
  | array (a : SA α)

namespace Slot
variable {α : Type}

/-- The component as a scalar array. -/
def toSA : Slot α → SA α
  | .number x => SA.scalar x
  | .array a => a

/-- `np.copyto(a, src, casting, where)` for a scalar array `a` and a scalar array or a number `src`.  `allowed` says that numpy does not raise
`TypeError` (see `SA.copyto`); otherwise the code replaces the ndarray of `a` by `src.ndarray`, which is an `AttributeError` if `src` is a
number.
Models `/repo/named_arrays/_scalars/scalar_array_functions.py` lines 495-532. -/
def copyInto (allowed : SA α → Slot α → Bool) (a : SA α) (w : SA Bool) : Slot α → R (SA α)
  | .array b => a.copyto (allowed a (.array b)) b (some w)
  | .number y =>
    if allowed a (.number y) then a.copyto true (SA.scalar y) (some w)
    else do
      let _ ← w.aligned a.shape.keys
      .error .other

end Slot

namespace Comp
variable {α : Type}

mutual
/-- `np.copyto(dst, src, where=w)` for a mask `w` which is a scalar (or a boolean); returns the destination afterwards, and the error if there is
one.  numpy raises `TypeError` if the destination is a number, if a vector is copied to a scalar, and if the vectors have different types
(`NotImplemented` of all implementations).
Models `/repo/named_arrays/_vectors/vector_array_functions.py` lines 458-505. -/
def copytoAux (allowed : SA α → Slot α → Bool) (w : SA Bool) : Comp (Slot α) → Comp (Slot α) → Comp (Slot α) × Option Err
  | .leaf (.number x), _ => (.leaf (.number x), some .typeError)
  | .leaf (.array a), .node _ _ => (.leaf (.array a), some .typeError)
  | .leaf (.array a), .leaf s =>
    match s.copyInto allowed a w with
    | .ok r => (.leaf (.array r), none)
    | .error e => (.leaf (.array a), some e)
  | .node cls cs, src =>
    match componentsOf cls (keys cs) src with
    | .error e => (.node cls cs, some e)
    | .ok srcs =>
      let r := copytoL allowed w cs srcs
      (.node cls r.1, r.2)
/-- The loop over the components.  If `TypeError` is raised for a component, the component is replaced by the one of the source.
Models `/repo/named_arrays/_vectors/vector_array_functions.py` lines 496-505. -/
def copytoL (allowed : SA α → Slot α → Bool) (w : SA Bool) : List (String × Comp (Slot α)) → Dict (Comp (Slot α)) →
    List (String × Comp (Slot α)) × Option Err
  | [], _ => ([], none)
  | (k, c) :: l, srcs =>
    match srcs.get? k with
    | none => ((k, c) :: l, some .keyError)
    | some s =>
      match copytoAux allowed w c s with
      | (c', none) =>
        let r := copytoL allowed w l srcs
        ((k, c') :: r.1, r.2)
      | (_, some .typeError) =>
        let r := copytoL allowed w l srcs
        ((k, s) :: r.1, r.2)
      | (c', some e) => ((k, c') :: l, some e)
end

/-- `np.copyto(dst, src, where=where)`.  A mask which is a vector is never accepted, since its type is compared with its abstract type
(`where.type_abstract == where.type_explicit`), which always differ.
Models `/repo/named_arrays/_vectors/vector_array_functions.py` lines 482-494. -/
def copyto (allowed : SA α → Slot α → Bool) (dst src : Comp (Slot α)) : Comp (SA Bool) → Comp (Slot α) × Option Err
  | .leaf w => copytoAux allowed w dst src
  | .node _ _ => (dst, some .typeError)

end Comp
end NA
