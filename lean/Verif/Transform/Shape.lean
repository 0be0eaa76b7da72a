import Verif.Transform.Basic

/-!
# Shapes of transformations
-/

namespace NA
open Dict
variable {K : Type}

mutual
/-- The shape of a part of a matrix: of a row, or of a vector of rows.
Models `/repo/named_arrays/_vectors/vectors.py` lines 620-622, which matrices inherit. -/
def Comp.rowsShape : Comp (Comp (SA K)) → R Shape
  | .leaf row => row.shape
  | .node _ cs => do broadcastShapes (← Comp.rowsShapes cs)
/-- The shapes of the components.
Models `/repo/named_arrays/_vectors/vectors.py` lines 620-622, which matrices inherit. -/
def Comp.rowsShapes : List (String × Comp (Comp (SA K))) → R (List Shape)
  | [] => .ok []
  | (_, c) :: l => do
    let s ← c.rowsShape
    .ok (s :: (← Comp.rowsShapes l))
end

/-- `matrix.shape`.
Models `/repo/named_arrays/_vectors/vectors.py` lines 620-622, which matrices inherit. -/
def Mat.matShape (M : Mat (SA K)) : R Shape := Comp.rowsShape (.node M.cls M.rows)

/-- `transformation.shape`.
Models `/repo/named_arrays/transformations.py` lines 199-201 (identity), 233-235 (translation), 357-359 (linear) and 525-530 (affine). -/
def Simple.trShape : Simple (SA K) → R Shape
  | .identity => .ok []
  | .translation v => v.toComp.shape
  | .linear M => M.matShape
  | .affine M v => do broadcastShapes [← M.matShape, ← v.toComp.shape]

mutual
/-- `transformation.shape`.
Models `/repo/named_arrays/transformations.py` lines 625-627 for a list. -/
def Tr.trShape : Tr (SA K) → R Shape
  | .simple s => s.trShape
  | .list _ ts => do broadcastShapes (← Tr.trShapes ts)
/-- The shapes of the members.
Models `/repo/named_arrays/transformations.py` lines 625-627. -/
def Tr.trShapes : List (Tr (SA K)) → R (List Shape)
  | [] => .ok []
  | t :: ts => do
    let s ← t.trShape
    .ok (s :: (← Tr.trShapes ts))
end

end NA
