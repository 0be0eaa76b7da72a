import Verif.Scalar.Histogram
import Verif.Vector.Structure
import Verif.Uncertain.Basic

/-!
# Random samples

Model of `na.random.uniform`, `normal`, `poisson`, `binomial`, `gamma` and `choice`
(`/repo/named_arrays/random.py` and the implementations for scalars, uncertain scalars and vectors).  The generator of numpy
is a parameter: a type of states `σ`, the state `default_rng(seed)`, and what one draw returns.  Units are not modelled.
-/

namespace NA
open Dict

section scalar
variable {α β σ K : Type}

namespace SA

/-- The numbers which a generator returns for a list of parameters, one after the other.
Assumption about numpy (not part of `/repo`): an array of samples is filled in row-major order. -/
def draws (step : List α → σ → β × σ) : List (List α) → σ → List β
  | [], _ => []
  | p :: ps, s => (step p s).1 :: draws step ps (step p s).2

/-- `na.random.uniform(low, high, shape_random, seed)` and its relatives, where `args` are the parameters of the distribution,
`valid` tells which parameters numpy accepts (otherwise `ValueError`), `s` is the state of the generator and `garbage` the
contents of the new array.  If one of the parameters is empty, the other ones are not checked here.
Models `/repo/named_arrays/_scalars/scalar_named_array_functions.py` lines 620-678, 681-725 and 728-775. -/
def random (valid : List α → Bool) (step : List α → σ → β × σ) (garbage : β) (s : σ) (args : List (SA α))
    (shapeRandom : Shape) : R (SA β) := do
  let base ← broadcastShapes (args.map SA.shape)
  let shape ← broadcastShapes [base, shapeRandom]
  let nds ← args.mapM (fun a => a.aligned shape.keys)
  let p ← ND.ufuncN id nds
  if p.toList.all valid then
    let params := (ndIndices shape.values).map (fun i => nds.map (fun v => v.get (ND.clipIdx v.shape i)))
    mk? (ND.ofList shape.values (draws step params s) garbage) shape.keys
  else .error .valueError

end SA

/-- `p_i / p_i.sum()`; the sum zero gives `nan`, which makes `choice` raise `ValueError`.
Models `/repo/named_arrays/_scalars/scalar_named_array_functions.py` lines 826-829. -/
def normalizedWeights [Field K] [DecidableEq K] (l : List K) : R (List K) :=
  if l.sum = 0 then .error .valueError else .ok (l.map (· / l.sum))

/-- The weights of one slice. -/
def weightsAt [Field K] [DecidableEq K] (i : Dict IndexVal) : Option (SA K) → R (Option (List K))
  | none => .ok none
  | some p => do
    let v ← p.getitem i
    let w ← normalizedWeights v.nd.toList
    .ok (some w)

/-- The body of the loop of `choice`: `pick` returns the positions of the chosen elements.
Models `/repo/named_arrays/_scalars/scalar_named_array_functions.py` lines 826-842. -/
def choiceSlice [Field K] [DecidableEq K] (pick : Option (List K) → Nat → Nat → Bool → σ → R (List Nat × σ)) (garbage : α)
    (a : SA α) (p : Option (SA K)) (replace : Bool) (shapeI : Shape) (i : Dict IndexVal) (s : σ) : R (SA α × σ) := do
  let w ← weightsAt i p
  let c ← a.getitem i
  let choices := c.nd.toList
  let q ← pick w choices.length shapeI.values.prod replace s
  let r ← SA.mk? (ND.ofList shapeI.values (q.1.map (fun k => choices.getD k garbage)) garbage) shapeI.keys
  .ok (r, q.2)

/-- `for i in indices: result[i] = body(i)`, where the body uses the generator.
Models `/repo/named_arrays/_scalars/scalar_named_array_functions.py` lines 824-843. -/
def forEachDraw (indices : List (Dict Nat)) (body : Dict IndexVal → σ → R (SA β × σ)) (result : SA β) (s : σ) :
    R (SA β × σ) :=
  indices.foldlM (fun acc i => do
    let v ← body (ints i) acc.2
    let h ← acc.1.setitem (ints i) v.1
    .ok (h, v.2)) (result, s)

/-- The probabilities, broadcast. -/
def broadcastWeights (shape : Shape) : Option (SA K) → R (Option (SA K))
  | none => .ok none
  | some p => do
    let p ← p.broadcastTo shape
    .ok (some p)

/-- `na.random.choice(a, p, axis, replace, shape_random, seed)`.  `garbage` stands for the contents of `np.empty`; the result
of the code has the element type `float`, which is not modelled.
Models `/repo/named_arrays/_scalars/scalar_named_array_functions.py` lines 778-847. -/
def SA.choice [Field K] [DecidableEq K] (pick : Option (List K) → Nat → Nat → Bool → σ → R (List Nat × σ)) (garbage : α)
    (s : σ) (a : SA α) (p : Option (SA K)) (axis : Option (List String)) (replace : Bool) (shapeRandom : Shape) :
    R (SA α) := do
  let shapeAp ← broadcastShapes (a.shape :: (p.map SA.shape).toList)
  let a ← a.broadcastTo shapeAp
  let p ← broadcastWeights shapeAp p
  let axis := axis.getD shapeAp.keys
  let ortho := orthogonal shapeAp axis
  let shapeResult ← broadcastShapes [shapeRandom, ortho]
  let shapeI := shapeRandom.filter (fun q => q.1 ∉ ortho.keys)
  let r ← forEachDraw (ndindex shapeAp axis) (choiceSlice pick garbage a p replace shapeI)
    ⟨shapeResult.keys, ⟨shapeResult.values, fun _ => garbage⟩⟩ s
  .ok r.1

end scalar

section uncertain
variable {α β : Type}

/-- `na.random.uniform` and its relatives for uncertain scalars: `draw` is the function for scalars.  Without a seed the
calls continue with the global generator of numpy; here each call is a function of its own arguments, and no theorem compares
calls without a seed.
Models `/repo/named_arrays/_scalars/uncertainties/uncertainties_named_array_functions.py` lines 502-535. -/
def UA.random (draw : Option Int → List (SA α) → R (SA β)) (seed : Option Int) (args : List (UArg α)) : R (UA β) := do
  let n ← draw seed (args.map UArg.nominal)
  let d ← draw (seed.map (· + 1)) (args.map UArg.distribution)
  UA.mk? n d

end uncertain

section vector
variable {γ δ : Type}

/-- `na.random.uniform` and its relatives for vectors: `draw` is the function for the scalars among the arguments.  For calls
without a seed see `UA.random`.  The recursion is on the nesting depth, so that the first case is not reached from `Comp.random`.
Models `/repo/named_arrays/_vectors/vector_named_array_functions.py` lines 391-426. -/
def Comp.randomAux (draw : Option Int → List γ → R δ) : Nat → Option Int → List (Comp γ) → R (Comp δ)
  | 0, _, _ => .error .other
  | n + 1, seed, vs =>
    match Comp.prototype vs with
    | none => do .ok (.leaf (← draw seed (Comp.scalars vs)))
    | some (cls, names) =>
      if vs.all (Comp.isOfType cls) then do
        let rs ← names.zipIdx.mapM (fun q => do
          let ws ← vs.mapM (Comp.component q.1)
          let r ← Comp.randomAux draw n (seed.map (· + (q.2 : Int))) ws
          .ok (q.1, r))
        .ok (.node cls rs)
      else .error .typeError

/-- See `Comp.randomAux`. -/
def Comp.random (draw : Option Int → List γ → R δ) (seed : Option Int) (vs : List (Comp γ)) : R (Comp δ) :=
  Comp.randomAux draw (Comp.maxDepth vs) seed vs

end vector
end NA
