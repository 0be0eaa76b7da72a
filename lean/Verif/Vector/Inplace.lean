import Verif.Scalar.Out
import Verif.Vector.Set
import Verif.Uncertain.Basic

/-!
# Operations in place on uncertain scalars and vectors

Model of `__array_ufunc__` with `out` of `/repo/named_arrays/_scalars/uncertainties/uncertainties.py` and of
`/repo/named_arrays/_vectors/cartesian/vectors_cartesian.py`.  The parts of the output are modified one after the other, so
an operation returns the output afterwards, and the error if there is one.
-/

namespace NA
open Dict

namespace UA
variable {α γ : Type}

/-- What is passed as `out` for one of the two components: nothing if the component is a python number.
Models `/repo/named_arrays/_scalars/uncertainties/uncertainties.py` lines 480-486.  A component which is a named array
is assumed to contain a numpy array here. -/
def partOut (a : SA γ) (named : Bool) : List (Option (SA.Out γ)) := [if named then some ⟨a, true⟩ else none]

/-- `ufunc(*inputs, where=wh, out=o)` for one output `o`: `o` afterwards, and the error if there is one.  `namedN` and `namedD`
tell whether the nominal value and the distribution of `o` are named arrays (and not python numbers).
Models `/repo/named_arrays/_scalars/uncertainties/uncertainties.py` lines 424-525. -/
def ufuncOut (f : List α → γ) (junk : Nat → List Nat → γ) (inputs : List (UArg α)) (wh : UArg Bool) (o : UA γ)
    (namedN namedD : Bool) : UA γ × Option Err :=
  match SA.ufuncOut (fun _ => f) junk (inputs.map UArg.nominal) wh.nominal (partOut o.nominal namedN) with
  | .error e => (o, some e)
  | .ok n =>
    match SA.ufuncOut (fun _ => f) junk (inputs.map UArg.distribution) wh.distribution (partOut o.distribution namedD) with
    | .error e => (⟨if namedN then n.headD o.nominal else o.nominal, o.distribution⟩, some e)
    | .ok d =>
      match mk? (n.headD o.nominal) (d.headD o.distribution) with
      | .error e => (⟨if namedN then n.headD o.nominal else o.nominal,
          if namedD then d.headD o.distribution else o.distribution⟩, some e)
      | .ok r => (r, none)

end UA

namespace Comp
variable {α : Type}

/-- A scalar component of a vector: a python number, or a named array (containing a numpy array). -/
inductive Part (α : Type) where
  | number (x : α)
  | named (a : SA α)

/-- A component as an operand. -/
def Part.array : Part α → SA α
  | .number x => .scalar x
  | .named a => a

/-- `np.add(a, b, out=(a,))` for scalar components: a python number as `out` is a `TypeError`, from numpy if `b` is a number too,
and because of `/repo/named_arrays/_scalars/scalars.py` lines 559-560 otherwise. -/
def leafInplace (f : α → α → α) (b : Part α) : Part α → R (Part α)
  | .number _ => .error .typeError
  | .named a => do
    let r ← SA.inplace f a b.array
    .ok (.named r)

mutual
/-- `v += w`, that is `np.add(v, w, out=(v,))`: `v` afterwards, and the error if there is one.
Models `/repo/named_arrays/_vectors/cartesian/vectors_cartesian.py` lines 88-164.  A scalar array as output of an
operation with a vector is an `AttributeError` at line 132. -/
def inplace (f : α → α → α) : Comp (Part α) → Comp (Part α) → Comp (Part α) × Option Err
  | .leaf a, .leaf b =>
    match leafInplace f b a with
    | .ok r => (.leaf r, none)
    | .error e => (.leaf a, some e)
  | .leaf a, .node _ _ => (.leaf a, some .other)
  | .node cls cs, w =>
    match componentsOf cls (keys cs) w with
    | .error e => (.node cls cs, some e)
    | .ok ws =>
      let r := inplaceL f cs ws
      (.node cls r.1, r.2)
/-- The loop over the components.
Models `/repo/named_arrays/_vectors/cartesian/vectors_cartesian.py` lines 123-156. -/
def inplaceL (f : α → α → α) : List (String × Comp (Part α)) → Dict (Comp (Part α)) →
    List (String × Comp (Part α)) × Option Err
  | [], _ => ([], none)
  | (k, c) :: l, ws =>
    match ws.get? k with
    | some w =>
      match c.inplace f w with
      | (c', some e) => ((k, c') :: l, some e)
      | (c', none) =>
        let r := inplaceL f l ws
        ((k, c') :: r.1, r.2)
    | none => ((k, c) :: l, some .keyError)
end

end Comp
end NA
