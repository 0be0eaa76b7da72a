import Verif.Scalar.Basic

/-!
# Filters
-/

namespace NA.Filter
variable {α : Type}

/-- The element which the mode "reflect" of `scipy.ndimage` reads at a position outside of an axis of size `n`: `d c b a | a b c d | d c b a`. -/
def reflect (n : Nat) (j : Int) : Nat :=
  let r := (j % (2 * n : Nat)).toNat
  if r < n then r else 2 * n - 1 - r

/-- The positions within a window of the sizes `ks` around the index `is` of an array of shape `ns`.
Models the windows of `scipy.ndimage.median_filter`, which begin `k // 2` elements before the index. -/
def window : List Nat → List Nat → List Nat → List (List Nat)
  | k :: ks, n :: ns, i :: is =>
    (List.range k).flatMap (fun (d : Nat) => (window ks ns is).map (fun w => reflect n ((i : Int) - (k / 2 : Nat) + (d : Int)) :: w))
  | _, _, _ => [[]]

/-- The element of rank `len(l) // 2`, as in `scipy.ndimage.median_filter`. -/
def middle (le : α → α → Bool) (default : α) (l : List α) : α := (l.mergeSort le).getD (l.length / 2) default

/-- `a.filter_median(shape_kernel)` in the mode "reflect": axes of the array which are not in `shape_kernel` get windows of size one.
Models `/repo/named_arrays/_scalars/scalars.py` lines 789-811 and `scipy.ndimage.median_filter`.  Sizes of zero and units are left out. -/
def filterMedian (le : α → α → Bool) (a : SA α) (kernel : Dict Nat) : R (SA α) :=
  let sizes := a.shape.keys.map (fun ax => (kernel.get? ax).getD 1)
  SA.mk? ⟨a.nd.shape, fun i => middle le (a.nd.get i) ((window sizes a.nd.shape i).map a.nd.get)⟩ a.axes

end NA.Filter
