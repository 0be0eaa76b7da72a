import Verif.Scalar.Basic
import Mathlib.Algebra.Field.Defs

/-!
# Doppler vectors
-/

namespace NA

/-- The components of a Doppler vector. -/
structure Doppler (K : Type) where
  wavelength : SA K
  wavelengthRest : SA K

namespace Doppler
variable {K : Type} [Field K]

/-- `DopplerVectorArray.from_velocity(velocity, wavelength_rest)`; `c` is the speed of light, and all numbers are in
consistent units.
Models `/repo/named_arrays/_vectors/vectors_doppler.py` lines 63-87. -/
def fromVelocity (c : K) (velocity wavelengthRest : SA K) : R (Doppler K) := do
  let q ← SA.ufunc2 (· / ·) velocity (SA.scalar c)
  let s ← SA.ufunc2 (· + ·) (SA.scalar 1) q
  let w ← SA.ufunc2 (· * ·) s wavelengthRest
  .ok ⟨w, wavelengthRest⟩

/-- `vector.velocity`; the conversion to km/s does not change the quantity.
Models `/repo/named_arrays/_vectors/vectors_doppler.py` lines 43-49. -/
def velocity (c : K) (v : Doppler K) : R (SA K) := do
  let q ← SA.ufunc2 (· / ·) v.wavelength v.wavelengthRest
  let d ← SA.ufunc2 (· - ·) q (SA.scalar 1)
  SA.ufunc2 (· * ·) (SA.scalar c) d

end Doppler
end NA
