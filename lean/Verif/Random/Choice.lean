import Verif.Random.Basic
import Verif.Uncertain.Structure
import Verif.Vector.Lemmas

/-!
# Choosing elements of uncertain scalars and of vectors

Model of `na.random.choice` for uncertain scalars and vectors, with a seed.  The elements and the weights have different types
here, so that the arguments of the vectors are a sum type.
-/

namespace NA
open Dict

section choice
variable {α K σ : Type} [Field K] [DecidableEq K]

/-- `p.broadcast_to(shape_ap) if p is not None else p`.
Models `/repo/named_arrays/_scalars/uncertainties/uncertainties_named_array_functions.py` line 557. -/
def UA.broadcastWeights (shape : Shape) : Option (UA K) → R (Option (UA K))
  | none => .ok none
  | some p => do
    let p ← p.broadcastTo shape
    .ok (some p)

/-- The shape of `p`, nothing for `None`.  Models `/repo/named_arrays/_core.py` lines 206-216. -/
def UA.weightsShape : Option (UA K) → R (List Shape)
  | none => .ok []
  | some p => do
    let s ← p.shape
    .ok [s]

/-- `na.random.choice(a, p, axis, replace, shape_random, seed)` for uncertain scalars: `rng seed` is the state of
`np.random.default_rng(seed)`.
Models `/repo/named_arrays/_scalars/uncertainties/uncertainties_named_array_functions.py` lines 538-584. -/
def UA.choice (pick : Option (List K) → Nat → Nat → Bool → σ → R (List Nat × σ)) (garbage : α) (rng : Int → σ)
    (a : UArg α) (p : Option (UArg K)) (axis : Option (List String)) (replace : Bool) (shapeRandom : Shape) (seed : Int) :
    R (UA α) := do
  let a ← UA.norm a
  let p ← UA.normOpt p
  let sa ← a.shape
  let sp ← UA.weightsShape p
  let shapeAp ← broadcastShapes (sa :: sp)
  let a ← a.broadcastTo shapeAp
  let p ← UA.broadcastWeights shapeAp p
  let axis := axis.getD shapeAp.keys
  let n ← SA.choice pick garbage (rng seed) a.nominal (p.map UA.nominal) (some axis) replace shapeRandom
  let d ← SA.choice pick garbage (rng (seed + 1)) a.distribution (p.map UA.distribution) (some axis) replace shapeRandom
  UA.mk? n d

/-- `choice` for the scalars of the arguments of a vector: elements, and weights if there are any.  Other lists do not arise
from `Comp.choice`.
Models `/repo/named_arrays/_vectors/vector_named_array_functions.py` lines 417-425. -/
def choiceOf (pick : Option (List K) → Nat → Nat → Bool → σ → R (List Nat × σ)) (garbage : α) (rng : Int → σ)
    (axis : Option (List String)) (replace : Bool) (shapeRandom : Shape) (seed : Option Int) (args : List (SA α ⊕ SA K)) :
    R (SA α) :=
  match seed, args with
  | some seed, [.inl a] => SA.choice pick garbage (rng seed) a none axis replace shapeRandom
  | some seed, [.inl a, .inr p] => SA.choice pick garbage (rng seed) a (some p) axis replace shapeRandom
  | _, _ => .error .other

/-- `na.random.choice(a, p, axis, replace, shape_random, seed)` for vectors: every component is chosen by itself, with a seed of
its own.  The arguments `axis`, `replace` and `p=None` are passed to every component as they are.
Models `/repo/named_arrays/_vectors/vector_named_array_functions.py` lines 391-426. -/
def Comp.choice (pick : Option (List K) → Nat → Nat → Bool → σ → R (List Nat × σ)) (garbage : α) (rng : Int → σ)
    (a : Comp (SA α)) (p : Option (Comp (SA K))) (axis : Option (List String)) (replace : Bool) (shapeRandom : Shape)
    (seed : Int) : R (Comp (SA α)) :=
  Comp.random (choiceOf pick garbage rng axis replace shapeRandom) (some seed)
    (a.map Sum.inl :: (p.map (Comp.map Sum.inr)).toList)

end choice
end NA
