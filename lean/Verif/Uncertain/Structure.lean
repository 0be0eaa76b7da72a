import Verif.Uncertain.Basic

/-!
# Joining, selecting and rearranging uncertain scalars

Model of the functions of `/repo/named_arrays/_scalars/uncertainties/uncertainties_array_functions.py` cited below,
without `out`.
-/

namespace NA
open Dict

namespace UA
variable {α : Type}

/-- `_normalize`: a plain operand becomes an uncertain scalar with itself as the nominal value and as the samples; the
constructor raises if it has the axis of the samples.
Models `/repo/named_arrays/_scalars/uncertainties/uncertainties.py` lines 56-69. -/
def norm : UArg α → R (UA α)
  | .plain a => mk? a a
  | .unc u => .ok u

/-- `_normalize` of an argument which may be `None`: both components are `None`. -/
def normOpt : Option (UArg α) → R (Option (UA α))
  | none => .ok none
  | some x => do .ok (some (← norm x))

/-- `np.where(condition, x, y)`.
Models `/repo/named_arrays/_scalars/uncertainties/uncertainties_array_functions.py` lines 898-922. -/
def where' (dflt : α) (condition : UArg Bool) (x y : UArg α) : R (UA α) := do
  let c ← norm condition
  let x ← norm x
  let y ← norm y
  let n ← SA.where' dflt c.nominal x.nominal y.nominal
  let d ← SA.where' dflt c.distribution x.distribution y.distribution
  mk? n d

/-- `np.clip(a, a_min, a_max)`.  The components of the array are not broadcast against each other or against the bounds.
Models `/repo/named_arrays/_scalars/uncertainties/uncertainties_array_functions.py` lines 955-993. -/
def clip (mx mn : α → α → α) (a : UArg α) (lo hi : Option (UArg α)) : R (UA α) := do
  let a ← norm a
  let lo ← normOpt lo
  let hi ← normOpt hi
  let n ← a.nominal.clip mx mn (lo.map UA.nominal) (hi.map UA.nominal)
  let d ← a.distribution.clip mx mn (lo.map UA.distribution) (hi.map UA.distribution)
  mk? n d

/-- `np.repeat(a, repeats, axis)`.
Models `/repo/named_arrays/_scalars/uncertainties/uncertainties_array_functions.py` lines 996-1016. -/
def repeat' (u : UA α) (repeats : SA Nat) (axis : String) : R (UA α) := do
  let u ← u.broadcasted
  let n ← u.nominal.repeat' repeats axis
  let d ← u.distribution.repeat' repeats axis
  mk? n d

/-- `np.diff(a, axis, n, prepend, append)`.
Models `/repo/named_arrays/_scalars/uncertainties/uncertainties_array_functions.py` lines 1019-1055. -/
def diff (sub : α → α → α) (a : UArg α) (axis : String) (n : Nat) (prepend append : Option (UArg α)) : R (UA α) := do
  let a ← norm a
  let prepend ← normOpt prepend
  let append ← normOpt append
  let a ← a.broadcasted
  let r ← a.nominal.diff sub axis n (prepend.map UA.nominal) (append.map UA.nominal)
  let d ← a.distribution.diff sub axis n (prepend.map UA.distribution) (append.map UA.distribution)
  mk? r d

/-- `np.take_along_axis(arr, indices, axis)`.
Models `/repo/named_arrays/_scalars/uncertainties/uncertainties_array_functions.py` lines 708-733. -/
def takeAlongAxis (arr : UArg α) (indices : UArg Int) (axis : String) : R (UA α) := do
  let arr ← norm arr
  let indices ← norm indices
  let shape ← arr.shape
  match shape.get? axis with
  | none => .error .valueError
  | some m =>
    let arr ← arr.broadcastTo [(axis, m)] true
    let n ← arr.nominal.takeAlongAxis indices.nominal axis
    let d ← arr.distribution.takeAlongAxis indices.distribution axis
    mk? n d

/-- One step of the loop of `array_function_stack_like`: the array is broadcast, a plain array (or a number) serves as both
components.
Models `/repo/named_arrays/_scalars/uncertainties/uncertainties_array_functions.py` lines 625-638. -/
def component : UArg α → R (UA α)
  | .plain a => do
    let b ← a.broadcastTo a.shape
    .ok ⟨b, b⟩
  | .unc u => u.broadcasted

/-- `array_function_stack_like`.
Models `/repo/named_arrays/_scalars/uncertainties/uncertainties_array_functions.py` lines 612-662 without `out`. -/
def stackLike (func : List (SA α) → R (SA α)) (arrays : List (UArg α)) : R (UA α) := do
  let l ← arrays.mapM component
  let n ← func (l.map UA.nominal)
  let d ← func (l.map UA.distribution)
  mk? n d

/-- `np.stack(arrays, axis)`. -/
def stack (arrays : List (UArg α)) (axis : String) : R (UA α) := stackLike (fun l => SA.stack l axis) arrays

/-- `np.concatenate(arrays, axis)`. -/
def concatenate (arrays : List (UArg α)) (axis : String) : R (UA α) :=
  stackLike (fun l => SA.concatenate l axis) arrays

/-- The names to be changed in one component: the pairs whose source the component has.
Models `/repo/named_arrays/_scalars/uncertainties/uncertainties_array_functions.py` lines 563-570. -/
def renames (a : SA α) (source destination : List String) : List (String × String) :=
  (source.zip destination).filter (fun p => p.1 ∈ a.axes)

/-- `np.moveaxis(a, source, destination)`.  `destination[i]` is read for every source.
Models `/repo/named_arrays/_scalars/uncertainties/uncertainties_array_functions.py` lines 542-583. -/
def moveaxis (u : UA α) (source destination : List String) : R (UA α) := do
  let s ← u.shape
  if ¬ source.all (· ∈ s.keys) then .error .valueError
  else if destination.length < source.length then .error .indexError
  else
    let pn := renames u.nominal source destination
    let pd := renames u.distribution source destination
    let n ← u.nominal.moveaxis (pn.map Prod.fst) (pn.map Prod.snd)
    let d ← u.distribution.moveaxis (pd.map Prod.fst) (pd.map Prod.snd)
    mk? n d

end UA
end NA
