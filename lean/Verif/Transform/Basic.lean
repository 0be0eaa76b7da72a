import Verif.Matrix.Basic

/-!
# Transformations

Model of `/repo/named_arrays/transformations.py`.
-/

namespace NA
variable {α : Type}

namespace Vec

/-- `a + b` for two vectors.
Models `/repo/named_arrays/_vectors/cartesian/vectors_cartesian.py` lines 88-164 for `np.add`. -/
def add (o : Ops α) (a b : Vec α) : R (Vec α) := do
  match ← Comp.ufunc2 o.add a.toComp b.toComp with
  | .node cls cs => .ok ⟨cls, cs⟩
  | .leaf _ => .error .other

/-- `-a`.
Models `/repo/named_arrays/_vectors/cartesian/vectors_cartesian.py` lines 88-164 for `np.negative`. -/
def neg (o : Ops α) (a : Vec α) : R (Vec α) := do
  .ok ⟨a.cls, ← Comp.mapML o.neg a.comps⟩

end Vec

/-- The transformations which are not lists: the identity, a translation (`Translation`, `Cartesian3dTranslation`) by a
vector, a linear transformation (`LinearTransformation` and the three rotations) with a matrix, and an affine
transformation, which is a linear transformation followed by a translation.
Models the classes of `/repo/named_arrays/transformations.py` lines 192-601 by their `vector`, `matrix`,
`transformation_linear` and `translation`. -/
inductive Simple (α : Type) where
  | identity
  | translation (v : Vec α)
  | linear (M : Mat α)
  | affine (M : Mat α) (v : Vec α)

/-- A transformation: one of the above, or a `TransformationList` with its flag `intrinsic`.
Models `/repo/named_arrays/transformations.py` lines 604-678. -/
inductive Tr (α : Type) where
  | simple (s : Simple α)
  | list (intrinsic : Bool) (ts : List (Tr α))

namespace Simple

/-- `transformation(a)`.
Models `/repo/named_arrays/transformations.py` lines 203-207 (identity), 237-238 (translation), 361-362 (linear), and
532-533 (affine). -/
def call (o : Ops α) : Simple α → Vec α → R (Vec α)
  | .identity, a => .ok a
  | .translation v, a => a.add o v
  | .linear M, a => M.matVec o a
  | .affine M v, a => do (← M.matVec o a).add o v

/-- `transformation.inverse`.
Models `/repo/named_arrays/transformations.py` lines 209-211, 240-242, 364-366 and 535-542. -/
def inverse (o : Ops α) (sig : String → Option (List String)) : Simple α → R (Simple α)
  | .identity => .ok .identity
  | .translation v => do .ok (.translation (← v.neg o))
  | .linear M => do .ok (.linear (← M.inverse o sig))
  | .affine M v => do
    let N ← M.inverse o sig
    let w ← v.neg o
    .ok (.affine N (← N.matVec o w))

/-- `f @ g`.  If `f.__matmul__` returns `NotImplemented`, python calls `g.__rmatmul__`.
Models `/repo/named_arrays/transformations.py` lines 213-217 (the identity), 244-250 (translation), 368-392 (linear) and
544-583 (affine). -/
def matmul (o : Ops α) : Simple α → Simple α → R (Simple α)
  | .identity, g => .ok g
  | .translation v, .identity => .ok (.translation v)
  | .translation v, .translation w => do .ok (.translation (← v.add o w))
  | .translation v, .linear M => .ok (.affine M v)
  | .translation v, .affine M w => do .ok (.affine M (← v.add o w))
  | .linear M, .identity => .ok (.linear M)
  | .linear M, .translation w => do .ok (.affine M (← M.matVec o w))
  | .linear M, .linear N => do .ok (.linear (← M.matMat o N))
  | .linear M, .affine N w => do
    let P ← M.matMat o N
    .ok (.affine P (← M.matVec o w))
  | .affine M v, .identity => .ok (.affine M v)
  | .affine M v, .translation w => do .ok (.affine M (← (← M.matVec o w).add o v))
  | .affine M v, .linear N => do .ok (.affine (← M.matMat o N) v)
  | .affine M v, .affine N w => do
    let P ← M.matMat o N
    .ok (.affine P (← (← M.matVec o w).add o v))

end Simple

namespace Tr

mutual
/-- `transformation.composed` of a list; a transformation which is not a list is returned.
Models `/repo/named_arrays/transformations.py` lines 635-647. -/
def composed (o : Ops α) : Tr α → R (Simple α)
  | .simple s => .ok s
  | .list true ts => composeFwd o .identity ts
  | .list false ts => composeRev o ts
/-- The loop `for t in transformations: result = t @ result`, if the members are visited in order.
`t @ result` is `t.composed @ result` if `t` is a list itself.
Models `/repo/named_arrays/transformations.py` lines 643-647 and 656-657. -/
def composeFwd (o : Ops α) (result : Simple α) : List (Tr α) → R (Simple α)
  | [] => .ok result
  | t :: ts => do
    let s ← t.composed o
    composeFwd o (← s.matmul o result) ts
/-- The same loop, if the members are visited in reverse order (`reversed(self.transformations)`): the first member comes
last.
Models `/repo/named_arrays/transformations.py` lines 629-633 and 643-647. -/
def composeRev (o : Ops α) : List (Tr α) → R (Simple α)
  | [] => .ok .identity
  | t :: ts => do
    let result ← composeRev o ts
    let s ← t.composed o
    s.matmul o result
end

/-- `transformation(a)`.
Models `/repo/named_arrays/transformations.py` lines 649-650. -/
def call (o : Ops α) (t : Tr α) (a : Vec α) : R (Vec α) := do (← t.composed o).call o a

/-- `transformation.inverse`.
Models `/repo/named_arrays/transformations.py` lines 652-654. -/
def inverse (o : Ops α) (sig : String → Option (List String)) (t : Tr α) : R (Tr α) := do
  .ok (.simple (← (← t.composed o).inverse o sig))

/-- `f @ g` if `f` is not a list: the identity returns `g` itself; if `g` is a list, its `__rmatmul__` composes it.
Models `/repo/named_arrays/transformations.py` lines 213-214 and 659-660. -/
def matmulSimple (o : Ops α) : Simple α → Tr α → R (Tr α)
  | .identity, g => .ok g
  | f, g => do .ok (.simple (← f.matmul o (← g.composed o)))

/-- `f @ g`.
Models `/repo/named_arrays/transformations.py` lines 656-660. -/
def matmul (o : Ops α) (f g : Tr α) : R (Tr α) := do matmulSimple o (← f.composed o) g

/-- `compose(a, b)`, where `None` is the identity.
Models `/repo/named_arrays/transformations.py` lines 41-105. -/
def compose (o : Ops α) : Option (Tr α) → Option (Tr α) → R (Option (Tr α))
  | none, b => .ok b
  | some a, none => .ok (some a)
  | some a, some b => do .ok (some (← a.matmul o b))

end Tr

end NA
