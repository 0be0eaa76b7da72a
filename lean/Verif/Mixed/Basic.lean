import Verif.Uncertain.Basic
import Verif.Function.Basic

/-!
# Operands of different types

An elementwise operation of numpy on two operands which may be numbers, scalars, uncertain scalars, vectors
(of scalars, of uncertain scalars or of vectors) and functions, in any combination.  Numpy asks the operands
one after the other for the result: each of the four `__array_ufunc__` methods either answers or returns
`NotImplemented`.
-/

namespace NA
open Dict

/-- An operand.  A vector carries its `type_abstract` and its components; a function carries coordinates of
an arbitrary type `ι`.  Models the classes `ScalarArray`, `UncertainScalarArray`, `FunctionArray` and the
subclasses of `AbstractCartesianVectorArray` (which include the matrices):
`/repo/named_arrays/_scalars/scalars.py` lines 889-900,
`/repo/named_arrays/_scalars/uncertainties/uncertainties.py` lines 605-620,
`/repo/named_arrays/_vectors/vectors.py` lines 534-614,
`/repo/named_arrays/_functions/functions.py` lines 1028-1032. -/
inductive Val (ι α : Type) where
  | num (x : α)
  | sa (a : SA α)
  | ua (u : UA α)
  | vec (cls : String) (cs : List (String × Val ι α))
  | func (i : ι) (o : Val ι α)

/-- What the methods of a function ask of its coordinates: their shape, and `bool(np.any(i != j))`. -/
structure Coordinates (ι : Type) where
  shape : ι → R Shape
  differ : ι → ι → R Bool

namespace Val
variable {ι α β γ : Type}

mutual
/-- `a.shape`; a number counts as an array without axes.
Models `/repo/named_arrays/_scalars/scalars.py` lines 1025-1029,
`/repo/named_arrays/_scalars/uncertainties/uncertainties.py` lines 662-667,
`/repo/named_arrays/_vectors/vectors.py` lines 620-622 and
`/repo/named_arrays/_functions/functions.py` lines 1063-1083. -/
def shape (C : Coordinates ι) : Val ι α → R Shape
  | .num _ => .ok []
  | .sa a => .ok a.shape
  | .ua u => u.shape
  | .vec _ cs => do
    let ss ← shapes C cs
    broadcastShapes ss
  | .func i o => do
    let s ← C.shape i
    let t ← shape C o
    FA.shapeOf s t
/-- The shapes of the components. -/
def shapes (C : Coordinates ι) : List (String × Val ι α) → R (List Shape)
  | [] => .ok []
  | (_, v) :: cs => do
    let s ← shape C v
    let ss ← shapes C cs
    .ok (s :: ss)
end

mutual
/-- How deep the vectors and functions are nested. -/
def depth : Val ι α → Nat
  | .vec _ cs => depths cs + 1
  | .func _ o => depth o + 1
  | _ => 0
def depths : List (String × Val ι α) → Nat
  | [] => 0
  | (_, v) :: cs => max (depth v) (depths cs)
end

/-- What numpy's search for a method looks at: which `__array_ufunc__` the operand has, and for a vector
its `type_abstract` and the names of its components. -/
inductive Head where
  | number
  | scalar
  | uncertain
  | vector (cls : String) (names : List String)
  | function

def head : Val ι α → Head
  | .num _ => .number
  | .sa _ => .scalar
  | .ua _ => .uncertain
  | .vec cls cs => .vector cls (keys cs)
  | .func _ _ => .function

/-- The operand as `ScalarArray.__array_ufunc__` uses it: `None` where it returns `NotImplemented`.
Models `/repo/named_arrays/_scalars/scalars.py` lines 582-591. -/
def asScalar : Val ι α → Option (SA α)
  | .num x => some (SA.scalar x)
  | .sa a => some a
  | _ => none

/-- The operand as `UncertainScalarArray.__array_ufunc__` uses it: a scalar is both the nominal value and
every sample.
Models `/repo/named_arrays/_scalars/uncertainties/uncertainties.py` lines 438-452. -/
def asUncertain : Val ι α → Option (UArg α)
  | .num x => some (.plain (SA.scalar x))
  | .sa a => some (.plain a)
  | .ua u => some (.unc u)
  | _ => none

/-- `components_inp` for an operand of the method of a vector whose `type_abstract` is `cls`.
Models `/repo/named_arrays/_vectors/cartesian/vectors_cartesian.py` lines 104-116 and the lookup `inp[c]` at
line 148. -/
def componentsFor (cls : String) : Val ι α → Option (String → R (Val ι α))
  | .vec cls' cs =>
    if cls' = cls then
      some (fun c => match get? cs c with
        | some v => .ok v
        | none => .error .keyError)
    else none
  | .func _ _ => none
  | v => some (fun _ => .ok v)

/-- What the method of a function uses as the outputs of an operand.
Models `/repo/named_arrays/_functions/functions.py` lines 727-737. -/
def outputs : Val ι α → Val ι α
  | .func _ o => o
  | v => v

/-- The coordinates of an operand which is a function.
Models `/repo/named_arrays/_functions/functions.py` lines 727-737. -/
def inputs? : Val ι α → Option ι
  | .func i _ => some i
  | _ => none

/-- The loop over the components of the vector whose method is called.
Models `/repo/named_arrays/_vectors/cartesian/vectors_cartesian.py` lines 125-155. -/
def combineParts (op : Val ι α → Val ι β → R (Val ι γ)) (pa : String → R (Val ι α))
    (pb : String → R (Val ι β)) : List String → R (List (String × Val ι γ))
  | [] => .ok []
  | c :: names => do
    let x ← pa c
    let y ← pb c
    let r ← op x y
    let rs ← combineParts op pa pb names
    .ok ((c, r) :: rs)

/-- The comparison of the coordinates, for the list of the coordinates of the operands which are functions.
Models `/repo/named_arrays/_functions/functions.py` lines 739-741. -/
def checkInputs (C : Coordinates ι) : Option ι → Option ι → R Unit
  | some i, some j => do
    let d ← C.differ j i
    if d then .error .inputValueError else .ok ()
  | _, _ => .ok ()

/-- The `__array_ufunc__` of one operand, without `out` and `where`; `none` stands for `NotImplemented`,
and `op` for the same operation of numpy on the parts of the operands.  Numbers have no such method.
Models `/repo/named_arrays/_scalars/scalars.py` lines 527-610,
`/repo/named_arrays/_scalars/uncertainties/uncertainties.py` lines 424-525,
`/repo/named_arrays/_vectors/cartesian/vectors_cartesian.py` lines 88-169 and
`/repo/named_arrays/_functions/functions.py` lines 713-805. -/
def attempt (C : Coordinates ι) (f : α → β → γ) (op : Val ι α → Val ι β → R (Val ι γ)) (h : Head)
    (a : Val ι α) (b : Val ι β) : R (Option (Val ι γ)) :=
  match h with
  | .number => .ok none
  | .scalar => do
    let s ← a.shape C
    let t ← b.shape C
    let _ ← broadcastShapes [s, t]
    match a.asScalar, b.asScalar with
    | some x, some y => do
      let r ← SA.ufunc2 f x y
      .ok (some (.sa r))
    | _, _ => .ok none
  | .uncertain =>
    match a.asUncertain, b.asUncertain with
    | some x, some y => do
      let n ← SA.ufunc2 f x.nominal y.nominal
      let d ← SA.ufunc2 f x.distribution y.distribution
      let r ← UA.mk? n d
      .ok (some (.ua r))
    | _, _ => .ok none
  | .vector cls names =>
    match a.componentsFor cls, b.componentsFor cls with
    | some pa, some pb => do
      let rs ← combineParts op pa pb names
      .ok (some (.vec cls rs))
    | _, _ => .ok none
  | .function => do
    checkInputs C a.inputs? b.inputs?
    match a.inputs?, b.inputs? with
    | some i, _ => do
      let o ← op a.outputs b.outputs
      .ok (some (.func i o))
    | none, some j => do
      let o ← op a.outputs b.outputs
      .ok (some (.func j o))
    | none, none => .error .indexError

/-- Numpy's search: the methods of the operands are asked in turn, and a `TypeError` is raised if none of
them answers.  The left operand is asked first, unless the class of the right one is a proper subclass of its
class: `rightFirst` decides.  Numbers on both sides are left to numpy.  `n` bounds the depth of the search, see
`ufunc2`.  The protocol is numpy's; the methods are those of `attempt`. -/
def ufunc2Aux (C : Coordinates ι) (rightFirst : Head → Head → Bool) (f : α → β → γ) :
    Nat → Val ι α → Val ι β → R (Val ι γ)
  | 0, _, _ => .error .other
  | n + 1, a, b =>
    match a, b with
    | .num x, .num y => .ok (.num (f x y))
    | a, b => do
      let first := if rightFirst a.head b.head then b.head else a.head
      let second := if rightFirst a.head b.head then a.head else b.head
      match ← attempt C f (ufunc2Aux C rightFirst f n) first a b with
      | some r => .ok r
      | none =>
        match ← attempt C f (ufunc2Aux C rightFirst f n) second a b with
        | some r => .ok r
        | none => .error .typeError

/-- `np.add(a, b)` and the like, for operands of any type. -/
def ufunc2 (C : Coordinates ι) (rightFirst : Head → Head → Bool) (f : α → β → γ) (a : Val ι α)
    (b : Val ι β) : R (Val ι γ) :=
  ufunc2Aux C rightFirst f (a.depth + b.depth + 1) a b

end Val
end NA
