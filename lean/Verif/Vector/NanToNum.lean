import Verif.Uncertain.Basic

/-!
# Replacement of the numbers which are not finite
-/

namespace NA.Clean
open Dict

/-- A floating point number: not a number, one of the infinities, or a finite number. -/
inductive Num (K : Type) where
  | nan
  | posInf
  | negInf
  | fin (k : K)
deriving DecidableEq

/-- The arguments `nan`, `posinf` and `neginf` of `np.nan_to_num`, and the largest and the smallest finite number of the type, which replace the
infinities by default.
Models `/repo/named_arrays/_scalars/scalar_array_functions.py` lines 951-953. -/
structure Options (K : Type) where
  nan : Num K
  posinf : Option (Num K)
  neginf : Option (Num K)
  largest : K
  smallest : K

variable {K : Type}

/-- What numpy stores for one element; it finds the elements of the three sorts before it replaces any of them.
Models the call of numpy in `/repo/named_arrays/_scalars/scalar_array_functions.py` line 959. -/
def Options.replace (o : Options K) : Num K → Num K
  | .nan => o.nan
  | .posInf => o.posinf.getD (.fin o.largest)
  | .negInf => o.neginf.getD (.fin o.smallest)
  | .fin k => .fin k

/-- How a scalar is stored: in a numpy array, as a number (either without `ScalarArray` around it or within one), or computed on demand (an
implicit array). -/
inductive Kind where
  | array
  | number
  | implicit
deriving DecidableEq

/-- A scalar, an uncertain scalar or a vector of them.  The booleans tell whether the object is explicit; `cls` is the name of its explicit type. -/
inductive Tree (K : Type) where
  | scalar (kind : Kind) (a : SA (Num K))
  | uncertain (explicit : Bool) (kn : Kind) (n : SA (Num K)) (kd : Kind) (d : SA (Num K))
  | vector (explicit : Bool) (cls : String) (cs : List (String × Tree K))

/-- numpy returns a number instead of an array without dimensions.
Models the call of numpy in `/repo/named_arrays/_scalars/scalar_array_functions.py` line 959. -/
def kindOf (a : SA (Num K)) : Kind := if a.axes.isEmpty then .number else .array

/-- `np.nan_to_num(a)` of a scalar.
Models `/repo/named_arrays/_scalars/scalar_array_functions.py` lines 959-965. -/
def scalarCopy (o : Options K) (a : SA (Num K)) : R (SA (Num K)) := SA.mk? (a.nd.map o.replace) a.axes

mutual
/-- `np.nan_to_num(x)` with `copy=True`.
Models `/repo/named_arrays/_scalars/scalar_array_functions.py` lines 948-967,
`/repo/named_arrays/_scalars/uncertainties/uncertainties_array_functions.py` lines 926-943 and
`/repo/named_arrays/_vectors/vector_array_functions.py` lines 882-909. -/
def nanToNum (o : Options K) : Tree K → R (Tree K)
  | .scalar _ a => do
    let r ← scalarCopy o a
    .ok (.scalar (kindOf r) r)
  | .uncertain _ _ n _ d => do
    let rn ← scalarCopy o n
    let rd ← scalarCopy o d
    let u ← UA.mk? rn rd
    .ok (.uncertain true (kindOf rn) u.nominal (kindOf rd) u.distribution)
  | .vector _ cls cs => do
    let r ← nanToNumL o cs
    .ok (.vector true cls r)
/-- The loop over the components.
Models `/repo/named_arrays/_vectors/vector_array_functions.py` lines 896-904. -/
def nanToNumL (o : Options K) : List (String × Tree K) → R (List (String × Tree K))
  | [] => .ok []
  | (k, c) :: l => do
    let c' ← nanToNum o c
    let l' ← nanToNumL o l
    .ok ((k, c') :: l')
end

/-- `np.nan_to_num(a, copy=False)` of a scalar: the scalar afterwards, and the error if there is one.  numpy converts a number to a new array, which it
then overwrites, so that the number is not changed.
Models `/repo/named_arrays/_scalars/scalar_array_functions.py` lines 955-959 and 966-967. -/
def scalarInPlace (o : Options K) (kind : Kind) (a : SA (Num K)) : SA (Num K) × Option Err :=
  match kind with
  | .array => (⟨a.axes, a.nd.map o.replace⟩, none)
  | .number => (a, none)
  | .implicit => (a, some .valueError)

mutual
/-- `np.nan_to_num(x, copy=False)`: the object afterwards, and the error if there is one.  The parts are assumed not to share memory.
Models `/repo/named_arrays/_scalars/scalar_array_functions.py` lines 948-967,
`/repo/named_arrays/_scalars/uncertainties/uncertainties_array_functions.py` lines 926-943 and
`/repo/named_arrays/_vectors/vector_array_functions.py` lines 882-909. -/
def inPlace (o : Options K) : Tree K → Tree K × Option Err
  | .scalar kind a =>
    let r := scalarInPlace o kind a
    (.scalar kind r.1, r.2)
  | .uncertain explicit kn n kd d =>
    if explicit then
      match scalarInPlace o kn n with
      | (n', some e) => (.uncertain explicit kn n' kd d, some e)
      | (n', none) =>
        let r := scalarInPlace o kd d
        (.uncertain explicit kn n' kd r.1, r.2)
    else (.uncertain explicit kn n kd d, some .typeError)
  | .vector explicit cls cs =>
    if explicit then
      let r := inPlaceL o cs
      (.vector explicit cls r.1, r.2)
    else (.vector explicit cls cs, some .valueError)
/-- The loop over the components, which ends at the first error.
Models `/repo/named_arrays/_vectors/vector_array_functions.py` lines 896-904. -/
def inPlaceL (o : Options K) : List (String × Tree K) → List (String × Tree K) × Option Err
  | [] => ([], none)
  | (k, c) :: l =>
    match inPlace o c with
    | (c', some e) => ((k, c') :: l, some e)
    | (c', none) =>
      let r := inPlaceL o l
      ((k, c') :: r.1, r.2)
end

end NA.Clean
