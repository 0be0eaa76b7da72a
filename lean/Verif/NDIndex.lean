import Verif.ND

/-!
# numpy indexing

Models numpy and python slicing (part of the trusted base), not `/repo`.
-/

namespace NA

/-- A python `slice(start, stop, step)`. -/
structure Slice where
  start : Option Int := none
  stop : Option Int := none
  step : Option Int := none
  deriving DecidableEq, Repr

/-- A slice resolved against a length: positions `start + k * step` for `k < len`. -/
structure RSlice where
  start : Int
  step : Int
  len : Nat
  deriving DecidableEq, Repr

namespace RSlice
/-- The `k`-th selected position. -/
def pos (r : RSlice) (k : Nat) : Nat := (r.start + k * r.step).toNat
end RSlice

namespace Slice
/-- python's `slice.indices(n)` clamps a bound to `[lo, hi]` after counting negative ones from the
end. -/
def clampBound (n : Nat) (lo hi : Int) (b : Int) : Int :=
  let b := if b < 0 then b + n else b
  if b < lo then lo else if hi < b then hi else b

/-- python's `range(*slice.indices(n))`; a step of 0 is a `ValueError`. -/
def resolve (s : Slice) (n : Nat) : R RSlice :=
  let step := s.step.getD 1
  if step = 0 then .error .valueError
  else if 0 < step then
    let start := (s.start.map (clampBound n 0 n)).getD 0
    let stop := (s.stop.map (clampBound n 0 n)).getD n
    .ok ⟨start, step, if start < stop then ((stop - start - 1) / step + 1).toNat else 0⟩
  else
    let start := (s.start.map (clampBound n (-1) (n - 1))).getD (n - 1)
    let stop := (s.stop.map (clampBound n (-1) (n - 1))).getD (-1)
    .ok ⟨start, step, if stop < start then ((start - stop - 1) / (-step) + 1).toNat else 0⟩

end Slice

namespace ND
variable {α β γ : Type}

/-- python integer indices: negative ones count from the end. -/
def pyIndex (n : Nat) (i : Int) : Nat := if i < 0 then (i + n).toNat else i.toNat

/-- An integer index is valid for a dimension of size `n`. -/
def ValidIndex (n : Nat) (i : Int) : Prop := -(n : Int) ≤ i ∧ i < n
instance (n : Nat) (i : Int) : Decidable (ValidIndex n i) := inferInstanceAs (Decidable (_ ∧ _))

/-- An entry of an index tuple which selects positions jointly with the others: an integer or an
integer array. -/
inductive AdvIdx where
  | int (i : Int)
  | arr (v : ND Int)

namespace AdvIdx
/-- The integer used at index `i` of the broadcast index arrays. -/
def val : AdvIdx → List Nat → Int
  | .int k, _ => k
  | .arr v, i => v.get (clipIdx v.shape i)

/-- All the integers of this entry are valid for a dimension of size `n`. -/
def Valid (n : Nat) : AdvIdx → Prop
  | .int k => ValidIndex n k
  | .arr v => ∀ i ∈ ndIndices v.shape, ValidIndex n (v.get i)

instance (n : Nat) : (x : AdvIdx) → Decidable (x.Valid n)
  | .int k => inferInstanceAs (Decidable (ValidIndex n k))
  | .arr v => inferInstanceAs (Decidable (∀ i ∈ ndIndices v.shape, ValidIndex n (v.get i)))

/-- The shapes of the index arrays. -/
def shape? : AdvIdx → Option (List Nat)
  | .int _ => none
  | .arr v => some v.shape
end AdvIdx

/-- The shape and the source index of every element of `a[adv + slices]`, where the first
dimensions are indexed by integers and integer arrays (of equal rank) and the remaining ones by
slices.  Out-of-range integers raise `IndexError`; all the integers are checked even if the result
is empty. -/
def selection (shape : List Nat) (adv : List AdvIdx) (slices : List Slice) :
    R (List Nat × (List Nat → List Nat)) := do
  let bs ← bshapes (adv.filterMap AdvIdx.shape?)
  let rs ← (List.zip slices (shape.drop adv.length)).mapM (fun p => p.1.resolve p.2)
  if ∀ p ∈ shape.zip adv, p.2.Valid p.1 then
    .ok (bs ++ rs.map RSlice.len,
      fun i => List.zipWith (fun n x => pyIndex n (AdvIdx.val x (i.take bs.length))) shape adv ++
        List.zipWith RSlice.pos rs (i.drop bs.length))
  else .error .indexError

/-- `a[adv + slices]`. -/
def getitem (a : ND α) (adv : List AdvIdx) (slices : List Slice) : R (ND α) := do
  let (s, f) ← selection a.shape adv slices
  .ok ⟨s, fun i => a.get (f i)⟩

/-- Can a value of shape `s` be assigned to a selection of shape `t` (equal ranks)? -/
def fits (s t : List Nat) : Prop := s.length = t.length ∧ ∀ p ∈ s.zip t, p.1 = p.2 ∨ p.1 = 1
instance (s t : List Nat) : Decidable (fits s t) := inferInstanceAs (Decidable (_ ∧ _))

/-- Write `w i` at `f i` for all `i` in `targets`, in order: a later write wins. -/
def writeAll (a : ND α) (f : List Nat → List Nat) (w : List Nat → α) (targets : List (List Nat)) :
    ND α :=
  ⟨a.shape, fun idx => match targets.reverse.find? (fun t => f t = idx) with
    | some t => w t
    | none => a.get idx⟩

/-- `a[adv + slices] = value`, for a value of the same rank as the selection or a scalar
(`none` as shape). -/
def setitem (a : ND α) (adv : List AdvIdx) (slices : List Slice) (value : ND α) : R (ND α) := do
  let (s, f) ← selection a.shape adv slices
  if value.shape = [] then .ok (a.writeAll f (fun _ => value.get []) (ndIndices s))
  else if fits value.shape s then
    .ok (a.writeAll f (fun t => value.get (clipIdx value.shape t)) (ndIndices s))
  else .error .valueError

/-- The multi-indices at which a boolean array is true, in row-major order. -/
def trues (m : ND Bool) : List (List Nat) := (ndIndices m.shape).filter (fun i => m.get i)

/-- `a[mask]` for a boolean array: the mask indexes the first dimensions and must have exactly
their sizes. -/
def getMask (a : ND α) (m : ND Bool) : R (ND α) :=
  if a.shape.take m.ndim = m.shape then
    .ok ⟨m.trues.length :: a.shape.drop m.ndim,
      fun i => a.get (m.trues.getD (i.headD 0) [] ++ i.tail)⟩
  else .error .indexError

/-- `a[mask] = value` for a boolean array. -/
def setMask (a : ND α) (m : ND Bool) (value : ND α) : R (ND α) :=
  if a.shape.take m.ndim = m.shape then
    let s := m.trues.length :: a.shape.drop m.ndim
    if fits value.shape s then
      .ok (a.writeAll (fun i => m.trues.getD (i.headD 0) [] ++ i.tail)
        (fun t => value.get (clipIdx value.shape t)) (ndIndices s))
    else .error .valueError
  else .error .indexError

end ND
end NA
