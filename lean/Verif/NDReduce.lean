import Verif.ND

/-!
# numpy reductions and functions along one dimension

Models numpy (part of the trusted base), not `/repo`.
-/

namespace NA
namespace ND
variable {α β γ : Type}

/-- The multi-index with `j` at the reduced dimensions `positions` and `i` at the others (`i` has
all the dimensions if `keepdims`). -/
def mergeIdx (n : Nat) (positions : List Nat) (keepdims : Bool) (i j : List Nat) : List Nat :=
  (List.range n).map (fun p =>
    if p ∈ positions then j.getD (((List.range n).filter (· ∈ positions)).idxOf p) 0
    else if keepdims then i.getD p 0
    else i.getD (((List.range n).filter (· ∉ positions)).idxOf p) 0)

/-- The value of the `where` argument at a multi-index; everything is selected without it. -/
def maskAt (mask : Option (ND Bool)) (k : List Nat) : Bool :=
  match mask with
  | none => true
  | some m => m.get (clipIdx m.shape k)

/-- `func(a, axis=positions, keepdims=keepdims, where=mask)` for a reduction `func` which maps the
list `l` of the selected elements (in row-major order) to `f l`.  Repeated or out-of-range axes are
an error.  If `need`, the function has no identity and raises `ValueError` when an element of the
result would be the reduction of an empty slab. -/
def reduce (need : Bool) (f : List α → β) (a : ND α) (positions : List Nat) (keepdims : Bool)
    (mask : Option (ND Bool)) : R (ND β) :=
  let dims := List.range a.ndim
  let red := dims.filter (· ∈ positions)
  let kept := dims.filter (· ∉ positions)
  let sizeOf := fun p => a.shape.getD p 0
  if positions.Nodup ∧ ∀ p ∈ positions, p < a.ndim then
    if need ∧ (red.map sizeOf).prod = 0 ∧ (kept.map sizeOf).prod ≠ 0 then .error .valueError
    else .ok {
      shape := if keepdims then dims.map (fun p => if p ∈ positions then 1 else sizeOf p)
        else kept.map sizeOf
      get := fun i => f ((((ndIndices (red.map sizeOf)).map (mergeIdx a.ndim positions keepdims i)).filter
        (maskAt mask)).map a.get) }
  else .error .valueError

/-- The line of `a` through the multi-index `i` along dimension `p`. -/
def line (a : ND α) (p : Nat) (i : List Nat) : List α :=
  (List.range (a.shape.getD p 0)).map (fun k => a.get (i.set p k))

/-- A function which maps each line along dimension `p` to a line of length `m`:
element `k` of the new line is `g line k`. -/
def alongAxis (a : ND α) (p : Nat) (m : Nat) (g : List α → Nat → β) : R (ND β) :=
  if p < a.ndim then .ok ⟨a.shape.set p m, fun i => g (a.line p i) (i.getD p 0)⟩
  else .error .valueError

end ND
end NA

namespace NA
namespace ND
variable {α : Type}

/-- `np.argmin` of a list, for a total order `le` (no `nan`): the first position of an element which is
at most every element. -/
def argmin (le : α → α → Bool) (l : List α) : Nat := l.findIdx (fun x => l.all (fun y => le x y))

end ND
end NA
