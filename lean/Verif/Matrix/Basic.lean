import Verif.Vector.Lemmas
import Mathlib.Algebra.Ring.Defs

/-!
# Matrices

Model of `/repo/named_arrays/_matrices/matrices.py` and of the matrix product of
`/repo/named_arrays/_vectors/vectors.py`.

A matrix is a vector whose components are rows (vectors) or again matrices (blocks of rows).  So a
component of a matrix is a `Comp (Comp α)`: a tree with the rows as leaves.  The arithmetic of the
entries is a parameter (`Ops`), which is given below for numbers and for named arrays.
-/

namespace NA

/-- The arithmetic operations of the entries of vectors and matrices, which may raise. -/
structure Ops (α : Type) where
  zero : α
  one : α
  add : α → α → R α
  sub : α → α → R α
  mul : α → α → R α
  div : α → α → R α
  neg : α → R α
  /-- `np.matmul` of two scalars -/
  matmul : α → α → R α

/-- An explicit vector: its abstract type and its components. -/
structure Vec (α : Type) where
  cls : String
  comps : List (String × Comp α)

/-- An explicit matrix.  The class is identified with the class of vectors with the same component names:
`type_vector` and `type_matrix` are then the identity.
Models `/repo/named_arrays/_matrices/matrices.py` lines 18-53. -/
structure Mat (α : Type) where
  cls : String
  rows : List (String × Comp (Comp α))

variable {α β : Type}

namespace Comp

/-- `row.cartesian_nd.components` of a row; a scalar has no such attribute. -/
def flatRow : Comp α → R (Dict α)
  | .leaf _ => .error .other
  | .node _ cs => .ok (cartesianNd cs)

/-- `set(d) == set(d')`, `d.keys() == d'.keys()` -/
def sameKeys (d : Dict α) (d' : Dict β) : Bool :=
  d.keys.all (· ∈ d'.keys) && d'.keys.all (· ∈ d.keys)

/-- `row` has the attribute `components` and the same names as `row0`. -/
def sameRow (row0 row : Comp α) : Bool :=
  match row0, row with
  | .node _ cs0, .node _ cs => sameKeys (cartesianNd cs) (cartesianNd cs0)
  | _, _ => false

/-- `matrix.is_consistent`: all flattened rows have the same component names.  A matrix without rows
raises `StopIteration`; rows which are scalars give `AttributeError`, which is caught, except that for
a single row nothing is looked at.
Models `/repo/named_arrays/_matrices/matrices.py` lines 55-66. -/
def isConsistent (cs : List (String × Comp (Comp α))) : R Bool :=
  match cartesianNd cs with
  | [] => .error .other
  | (_, row0) :: rest => .ok (rest.all (fun p => sameRow row0 p.2))

mutual
/-- The row prototype of a component of a matrix. -/
def rowPrototype : Comp (Comp α) → R (Comp α)
  | .leaf row => .ok row
  | .node _ cs => rowPrototypeL cs
/-- `matrix.row_prototype`: the first row, after checking the consistency (of every block met).
Models `/repo/named_arrays/_matrices/matrices.py` lines 84-100.  (When a row of an inconsistent matrix
is a number, preparing the message of the `ValueError` raises `AttributeError` instead.) -/
def rowPrototypeL : List (String × Comp (Comp α)) → R (Comp α)
  | [] => .error .other
  | (k, c) :: l => do
    if ← isConsistent ((k, c) :: l) then c.rowPrototype else .error .valueError
end

end Comp

namespace Mat
open Comp

/-- `matrix.row_prototype` -/
def rowPrototype (M : Mat α) : R (Comp α) := rowPrototypeL M.rows

/-- `matrix.column_prototype`: a vector of zeros with the structure of the columns.
Models `/repo/named_arrays/_matrices/matrices.py` lines 102-115. -/
def columnPrototype (o : Ops α) (M : Mat α) : Vec α := ⟨M.cls, mapL (fun _ => o.zero) M.rows⟩

/-- `matrix.is_square`.
Models `/repo/named_arrays/_matrices/matrices.py` lines 68-78. -/
def isSquare (M : Mat α) : R Bool := do
  if ← isConsistent M.rows then
    let rows := cartesianNd M.rows
    let flats ← rows.mapM (fun p => p.2.flatRow)
    .ok (flats.all (fun d => d.length == rows.length))
  else .ok false

/-- `from_cartesian_nd(array, like)` for matrices; `array` maps flattened row names to flattened rows.
Models `/repo/named_arrays/_matrices/matrices.py` lines 355-386.  (A `like` with scalar rows does not
occur in the calls which are modelled.) -/
def fromNdRows (nd : Dict (Dict α)) (like : List (String × Comp (Comp β))) : R (List (String × Comp (Comp α))) :=
  fromNdL (fun likeRow row => match likeRow with
    | .leaf _ => .error .other
    | .node cls cs => do .ok (.node cls (← fromCartesianNd row cs))) like nd

/-- The loop of `matrix_transpose` over the components of one row:
`result.components[c].components[r] = value`. -/
def transposeRow (r : String) (row : Dict α) (result : Dict (Dict α)) : R (Dict (Dict α)) :=
  row.foldlM (fun res p => match res.get? p.1 with
    | none => .error .keyError
    | some d => .ok (res.set p.1 (d.set r p.2))) result

/-- `matrix.matrix_transpose`.
Models `/repo/named_arrays/_matrices/matrices.py` lines 132-161. -/
def transpose (o : Ops α) (M : Mat α) : R (Mat α) := do
  if ← isConsistent M.rows then
    let newRow := M.columnPrototype o
    match ← M.rowPrototype with
    | .leaf _ => .error .other
    | .node cls cs =>
      let prototype := mapL (fun _ => Comp.node newRow.cls newRow.comps) cs
      let init : Dict (Dict α) := (cartesianNd cs).map (fun p => (p.1, cartesianNd newRow.comps))
      let result ← (cartesianNd M.rows).foldlM (fun res p => do transposeRow p.1 (← p.2.flatRow) res) init
      .ok ⟨cls, ← fromNdRows result prototype⟩
  else .error .valueError

end Mat

namespace Comp

/-- `vector @ vector` on flattened components: the sum of the products, starting from `0`.
Models `/repo/named_arrays/_vectors/vectors.py` lines 370-419 (two vectors). -/
def dotFlat (o : Ops α) (d1 d2 : Dict α) : R α :=
  if sameKeys d1 d2 then
    d1.foldlM (fun acc p => match d2.get? p.1 with
      | none => .error .keyError
      | some b => do o.add acc (← o.matmul p.2 b)) o.zero
  else .error .typeError

/-- `v @ w` for vectors.  Models `/repo/named_arrays/_vectors/vectors.py` lines 370-419. -/
def dot (o : Ops α) (v w : Comp α) : R α := do dotFlat o (← v.flatRow) (← w.flatRow)

end Comp

/-- A vector as a component. -/
def Vec.toComp (v : Vec α) : Comp α := .node v.cls v.comps

namespace Mat
open Comp

/-- `matrix @ vector`.
Models `/repo/named_arrays/_matrices/matrices.py` lines 309-318.  `NotImplemented` becomes `TypeError`
(the method of the vector does not handle matrices either). -/
def matVec (o : Ops α) (M : Mat α) (x : Vec α) : R (Vec α) := do
  match ← M.rowPrototype with
  | .leaf _ => .error .typeError
  | .node cls _ =>
    if cls = x.cls then
      let result ← (cartesianNd M.rows).mapM (fun p => do
        .ok (p.1, ← dot o p.2 x.toComp))
      .ok ⟨M.cls, ← fromCartesianNd result (M.columnPrototype o).comps⟩
    else .error .typeError

/-- `matrix @ matrix`.
Models `/repo/named_arrays/_matrices/matrices.py` lines 289-307. -/
def matMat (o : Ops α) (M N : Mat α) : R (Mat α) := do
  let protoM ← M.rowPrototype
  let flatM ← protoM.flatRow
  if sameKeys flatM (cartesianNd (N.columnPrototype o).comps) then
    let protoN ← N.rowPrototype
    let prototype := mapL (fun _ => protoN) M.rows
    let Nt ← N.transpose o
    let result ← (cartesianNd M.rows).mapM (fun p => do
      let row ← (cartesianNd Nt.rows).mapM (fun q => do
        .ok (q.1, ← dot o p.2 q.2))
      .ok (p.1, row))
    .ok ⟨M.cls, ← fromNdRows result prototype⟩
  else .error .typeError

/-- `vector @ matrix`.
Models `/repo/named_arrays/_matrices/matrices.py` lines 324-329. -/
def vecMat (o : Ops α) (x : Vec α) (M : Mat α) : R (Vec α) := do
  let Mt ← M.transpose o
  let result ← (cartesianNd Mt.rows).mapM (fun p => do
    .ok (p.1, ← dot o x.toComp p.2))
  .ok ⟨Mt.cls, ← fromCartesianNd result (Mt.columnPrototype o).comps⟩

end Mat

/-! ### Formulas -/

/-- An arithmetic expression over the entries of a matrix. -/
inductive Ex where
  | var (i : Nat)
  | one
  | add (a b : Ex)
  | sub (a b : Ex)
  | mul (a b : Ex)
  | div (a b : Ex)
  | neg (a : Ex)

namespace Ex
instance : Add Ex := ⟨add⟩
instance : Sub Ex := ⟨sub⟩
instance : Mul Ex := ⟨mul⟩
instance : Div Ex := ⟨div⟩
instance : Neg Ex := ⟨neg⟩

/-- Evaluation with the operations of the entries. -/
def eval (o : Ops α) (env : List α) : Ex → R α
  | var i => .ok (env.getD i o.zero)
  | one => .ok o.one
  | add a b => do o.add (← a.eval o env) (← b.eval o env)
  | sub a b => do o.sub (← a.eval o env) (← b.eval o env)
  | mul a b => do o.mul (← a.eval o env) (← b.eval o env)
  | div a b => do o.div (← a.eval o env) (← b.eval o env)
  | neg a => do o.neg (← a.eval o env)

/-- `xx * yy - xy * yx`.
Models `/repo/named_arrays/_matrices/cartesian/matrices_cartesian_2d.py` line 60 and
`/repo/named_arrays/_matrices/matrices.py` line 201. -/
def det2 : Ex :=
  let a := var 0; let b := var 1; let c := var 2; let d := var 3
  a * d - b * c

/-- Models `/repo/named_arrays/_matrices/cartesian/matrices_cartesian_3d.py` line 62 and
`/repo/named_arrays/_matrices/matrices.py` line 220. -/
def det3 : Ex :=
  let a := var 0; let b := var 1; let c := var 2
  let d := var 3; let e := var 4; let f := var 5
  let g := var 6; let h := var 7; let i := var 8
  (a * e * i) + (b * f * g) + (c * d * h) - (c * e * g) - (b * d * i) - (a * f * h)

/-- The entries of the inverse of a matrix with two rows, row by row.
Models `/repo/named_arrays/_matrices/matrices.py` lines 202-211. -/
def inv2 : List Ex :=
  let a := var 0; let b := var 1; let c := var 2; let d := var 3
  let det := det2
  [d / det, -b / det,
   -c / det, a / det]

/-- The entries of the inverse of a matrix with three rows, row by row.
Models `/repo/named_arrays/_matrices/matrices.py` lines 221-237. -/
def inv3 : List Ex :=
  let a := var 0; let b := var 1; let c := var 2
  let d := var 3; let e := var 4; let f := var 5
  let g := var 6; let h := var 7; let i := var 8
  let det := det3
  [(e * i - f * h) / det, -(b * i - c * h) / det, (b * f - c * e) / det,
   -(d * i - f * g) / det, (a * i - c * g) / det, -(a * f - c * d) / det,
   (d * h - e * g) / det, -(a * h - b * g) / det, (a * e - b * d) / det]

end Ex

namespace Mat
open Comp

/-- `cls.from_components(components)`, that is `cls(**components)`: names which are not fields of the class
give `TypeError`, fields which are not given have the default value `0`, and the components of the
new vector are in the order of the fields.  `sig` gives the fields of each class; `none` stands for
`CartesianNd...`, which takes any components.
Models `/repo/named_arrays/_vectors/vectors.py` lines 534-548. -/
def fromComponents (o : Ops α) (sig : String → Option (List String)) (cls : String)
    (comps : List (String × Comp (Comp α))) : R (Mat α) :=
  match sig cls with
  | none => .ok ⟨cls, comps⟩
  | some fields =>
    if (Dict.keys comps).all (· ∈ fields) then
      .ok ⟨cls, fields.map (fun f => (f, (Dict.get? comps f).getD (.leaf (.leaf o.zero))))⟩
    else .error .typeError

/-- The flattened inverse of the flattened rows (`rows.keys()`, `row.keys()` and `row.values()` are lists in the
order of the `dict`; the column names are those of the first row).
Models `/repo/named_arrays/_matrices/matrices.py` lines 183-250.  Matrices with more than three rows
are inverted by numpy, see `inverseStack`. -/
def inverseFlat (o : Ops α) (rows : Dict (Dict α)) : R (Dict (Dict α)) :=
  match rows with
  | [(r1, [(c1, a)])] => do
    .ok [(c1, [(r1, ← (Ex.one / Ex.var 0).eval o [a])])]
  | [(r1, [(c1, a), (c2, b)]), (r2, [(_, c), (_, d)])] => do
    let vs ← Ex.inv2.mapM (fun x => x.eval o [a, b, c, d])
    match vs with
    | [v1, v2, v3, v4] => .ok [(c1, [(r1, v1), (r2, v2)]), (c2, [(r1, v3), (r2, v4)])]
    | _ => .error .valueError
  | [(r1, [(c1, a), (c2, b), (c3, c)]), (r2, [(_, d), (_, e), (_, f)]), (r3, [(_, g), (_, h), (_, i)])] => do
    let vs ← Ex.inv3.mapM (fun x => x.eval o [a, b, c, d, e, f, g, h, i])
    match vs with
    | [v1, v2, v3, v4, v5, v6, v7, v8, v9] =>
      .ok [(c1, [(r1, v1), (r2, v2), (r3, v3)]), (c2, [(r1, v4), (r2, v5), (r3, v6)]),
        (c3, [(r1, v7), (r2, v8), (r3, v9)])]
    | _ => .error .valueError
  | _ => .error .notImplemented

/-- `matrix.inverse`, where `flat` inverts the flattened rows.
Models `/repo/named_arrays/_matrices/matrices.py` lines 170-254. -/
def inverseWith (flat : Dict (Dict α) → R (Dict (Dict α))) (o : Ops α) (sig : String → Option (List String)) (M : Mat α) : R (Mat α) := do
  if ← M.isSquare then
    let rows ← (cartesianNd M.rows).mapM (fun p => do .ok (p.1, ← p.2.flatRow))
    let result ← flat rows
    let like ← M.transpose o
    fromComponents o sig M.cls (← fromNdRows result like.rows)
  else .error .valueError

/-- `matrix.inverse` of matrices with at most three rows (see `inverseNamed` for more rows).
Models `/repo/named_arrays/_matrices/matrices.py` lines 170-254. -/
def inverse (o : Ops α) (sig : String → Option (List String)) (M : Mat α) : R (Mat α) := M.inverseWith (inverseFlat o) o sig

/-- `tuple(row.components.values())` for a row whose components are all scalars (nested components are
not supported by `determinant`). -/
def scalarValues : Comp (Comp α) → R (List α)
  | .leaf (.node _ cs) => cs.mapM (fun p => match p.2 with
    | .leaf a => .ok a
    | .node _ _ => .error .typeError)
  | _ => .error .other

/-- `determinant` of `Cartesian2dMatrixArray`.
Models `/repo/named_arrays/_matrices/cartesian/matrices_cartesian_2d.py` lines 54-60. -/
def determinant2 (o : Ops α) (M : Mat α) : R α := do
  if ← M.isSquare then
    match M.rows with
    | [(_, x), (_, y)] =>
      match ← scalarValues x, ← scalarValues y with
      | [xx, xy], [yx, yy] => Ex.det2.eval o [xx, xy, yx, yy]
      | _, _ => .error .valueError
    | _ => .error .other
  else .error .valueError

/-- `determinant` of `Cartesian3dMatrixArray`.
Models `/repo/named_arrays/_matrices/cartesian/matrices_cartesian_3d.py` lines 55-62. -/
def determinant3 (o : Ops α) (M : Mat α) : R α := do
  if ← M.isSquare then
    match M.rows with
    | [(_, x), (_, y), (_, z)] =>
      match ← scalarValues x, ← scalarValues y, ← scalarValues z with
      | [a, b, c], [d, e, f], [g, h, i] => Ex.det3.eval o [a, b, c, d, e, f, g, h, i]
      | _, _, _ => .error .valueError
    | _ => .error .other
  else .error .valueError

end Mat

/-! ### Particular matrices -/

namespace Mat
open Comp

/-- `Cartesian2dVectorArray(x=a, y=b)` as a row of a matrix. -/
def row2 (a b : α) : Comp (Comp α) := .leaf (.node "Cartesian2d" [("x", .leaf a), ("y", .leaf b)])

/-- `Cartesian3dVectorArray(x=a, y=b, z=c)` as a row of a matrix. -/
def row3 (a b c : α) : Comp (Comp α) := .leaf (.node "Cartesian3d" [("x", .leaf a), ("y", .leaf b), ("z", .leaf c)])

/-- `Cartesian2dMatrixArray(x=..., y=...)` -/
def mk2 (a b c d : α) : Mat α := ⟨"Cartesian2d", [("x", row2 a b), ("y", row2 c d)]⟩

/-- `Cartesian3dMatrixArray(x=..., y=..., z=...)` -/
def mk3 (a b c d e f g h i : α) : Mat α :=
  ⟨"Cartesian3d", [("x", row3 a b c), ("y", row3 d e f), ("z", row3 g h i)]⟩

/-- `Cartesian2dIdentityMatrixArray.explicit`.
Models `/repo/named_arrays/_matrices/cartesian/matrices_cartesian_2d.py` lines 119-129. -/
def identity2 (o : Ops α) : Mat α :=
  mk2 o.one o.zero
      o.zero o.one

/-- `Cartesian3dIdentityMatrixArray.explicit`.
Models `/repo/named_arrays/_matrices/cartesian/matrices_cartesian_3d.py` lines 88-100. -/
def identity3 (o : Ops α) : Mat α :=
  mk3 o.one o.zero o.zero
      o.zero o.one o.zero
      o.zero o.zero o.one

/-- The rotation matrices of the package. -/
inductive Rotation where
  | d2
  | x
  | y
  | z

/-- The `explicit` matrix of the rotation matrices; `cos` and `sin` are `np.cos` and `np.sin` of the entries.
Models `/repo/named_arrays/_matrices/cartesian/matrices_cartesian_2d.py` lines 151-163 and
`/repo/named_arrays/_matrices/cartesian/matrices_cartesian_3d.py` lines 111-157. -/
def rotation (o : Ops α) (cos sin : α → R α) (k : Rotation) (a : α) : R (Mat α) := do
  let c ← cos a
  let s ← sin a
  let m ← o.neg s
  match k with
  | .d2 => .ok (mk2 c m
                    s c)
  | .x => .ok (mk3 o.one o.zero o.zero
                   o.zero c m
                   o.zero s c)
  | .y => .ok (mk3 c o.zero s
                   o.zero o.one o.zero
                   m o.zero c)
  | .z => .ok (mk3 c m o.zero
                   s c o.zero
                   o.zero o.zero o.one)

end Mat

/-! ### The operations of numbers and of named arrays -/

/-- Numbers.  Division is a parameter because the result of dividing by zero is not a number. -/
def Ops.num {K : Type} [CommRing K] (dv : K → K → K) : Ops K where
  zero := 0
  one := 1
  add a b := .ok (a + b)
  sub a b := .ok (a - b)
  mul a b := .ok (a * b)
  div a b := .ok (dv a b)
  neg a := .ok (-a)
  matmul a b := .ok (a * b)

/-- `np.all(x == 0)` -/
def SA.allZero {K : Type} [Zero K] [DecidableEq K] (a : SA K) : Bool := a.nd.toList.all (fun x => decide (x = 0))

/-- `np.matmul` of two scalar arrays: a plain `0` when one of the arguments vanishes, the elementwise
product otherwise.
Models `/repo/named_arrays/_scalars/scalars.py` lines 134-156 (without units). -/
def SA.matmul {K : Type} [Zero K] [Mul K] [DecidableEq K] (a b : SA K) : R (SA K) :=
  if a.allZero || b.allZero then .ok (SA.scalar 0) else SA.ufunc2 (· * ·) a b

/-- Named arrays. -/
def Ops.named {K : Type} [CommRing K] [DecidableEq K] (dv : K → K → K) : Ops (SA K) where
  zero := SA.scalar 0
  one := SA.scalar 1
  add := SA.ufunc2 (· + ·)
  sub := SA.ufunc2 (· - ·)
  mul := SA.ufunc2 (· * ·)
  div := SA.ufunc2 dv
  neg := SA.ufunc1 (fun x => -x)
  matmul := SA.matmul

end NA
