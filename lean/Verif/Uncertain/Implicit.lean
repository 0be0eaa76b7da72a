import Verif.Random.Basic

/-!
# Values with a uniform or normal uncertainty

Model of `na.UniformUncertainScalarArray` and `na.NormalUncertainScalarArray`.  As in `Verif/Random/Basic.lean` the generator of numpy is a
parameter; `rng` is `default_rng`, which gives the state for a seed.  Units are not modelled.
-/

namespace NA
open Dict
variable {α σ : Type}

/-- `AbstractRandomMixin.__post_init__`: an array without a seed gets a random one, `secret`, when it is created, and keeps it.
Models `/repo/named_arrays/_core.py` lines 1766-1768. -/
def seedOf (secret : Nat) : Option Nat → Nat
  | none => secret
  | some s => s

namespace SA

/-- `ScalarUniformRandomSample(start, stop, shape_random, seed).explicit`.
Models `/repo/named_arrays/_core.py` lines 1856-1876. -/
def uniformSample (valid : List α → Bool) (step : List α → σ → α × σ) (garbage : α) (rng : Nat → σ) (start stop : SA α) (shapeRandom : Shape)
    (seed : Nat) : R (SA α) :=
  random valid step garbage (rng seed) [start, stop] shapeRandom

/-- `ScalarNormalRandomSample(center, width, shape_random, seed).explicit`.
Models `/repo/named_arrays/_core.py` lines 1880-1902. -/
def normalSample (valid : List α → Bool) (step : List α → σ → α × σ) (garbage : α) (rng : Nat → σ) (center width : SA α) (shapeRandom : Shape)
    (seed : Nat) : R (SA α) :=
  random valid step garbage (rng seed) [center, width] shapeRandom

end SA

namespace UA

/-- `UniformUncertainScalarArray(nominal, width, num_distribution, seed).explicit`.
Models `/repo/named_arrays/_scalars/uncertainties/uncertainties.py` lines 786-811. -/
def uniform [Add α] [Sub α] (valid : List α → Bool) (step : List α → σ → α × σ) (garbage : α) (rng : Nat → σ) (secret : Nat)
    (nominal width : SA α) (num : Nat) (seed : Option Nat) : R (UA α) := do
  let start ← SA.ufunc2 (fun x y => x - y) nominal width
  let stop ← SA.ufunc2 (fun x y => x + y) nominal width
  let d ← SA.uniformSample valid step garbage rng start stop [(axisD, num)] (seedOf secret seed)
  UA.mk? nominal d

/-- `NormalUncertainScalarArray(nominal, width, num_distribution, seed).explicit`.
Models `/repo/named_arrays/_scalars/uncertainties/uncertainties.py` lines 814-839. -/
def normal (valid : List α → Bool) (step : List α → σ → α × σ) (garbage : α) (rng : Nat → σ) (secret : Nat)
    (nominal width : SA α) (num : Nat) (seed : Option Nat) : R (UA α) := do
  let d ← SA.normalSample valid step garbage rng nominal width [(axisD, num)] (seedOf secret seed)
  UA.mk? nominal d

end UA
end NA
