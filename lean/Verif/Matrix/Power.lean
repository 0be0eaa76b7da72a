import Verif.Matrix.Basic
import Verif.Scalar.Basic
import Mathlib.Analysis.SpecialFunctions.Pow.Real
import Mathlib.LinearAlgebra.Matrix.Notation

/-!
# Powers of matrices with two rows and two columns

Model of `/repo/named_arrays/_matrices/cartesian/matrices_cartesian_2d.py` lines 62-97, for matrices with real
entries, and with real numbers in place of floating-point numbers.

A value which is not finite (`nan`, `inf`) is `none`.  As soon as one factor in the formula of the code is not finite,
all four entries of the result are `nan`: the factor in front of the identity matrix is then `nan`, and so are its
products with `1` and with `0`.
-/

namespace NA
open scoped Classical

namespace Power2

/-- `e ** z` of numpy.  If the base has a real type (`cplx` is false), the result is real too, so that a negative base with
an exponent which is not an integer gives `nan`; if it has a complex type, the result is the principal value.
A negative power of zero is not finite.
The operation of `/repo/named_arrays/_matrices/cartesian/matrices_cartesian_2d.py` lines 94-95. -/
noncomputable def pow (cplx : Bool) (e : ℂ) (z : ℝ) : Option ℂ :=
  if e = 0 then
    if z = 0 then some 1 else if 0 < z then some 0 else none
  else if cplx then some (e ^ (z : ℂ))
  else if 0 < e.re ∨ ∃ n : ℤ, z = n then some ((e.re ^ z : ℝ) : ℂ)
  else none

/-- The number whose root is the difference of an eigenvalue from the mean of the eigenvalues.
Models `/repo/named_arrays/_matrices/cartesian/matrices_cartesian_2d.py` lines 81-85. -/
noncomputable def disc (a b c d : ℝ) : ℝ :=
  let chi := a + d
  let delta := a * d - b * c
  chi ^ 2 / 4 - delta

/-- `np.emath.sqrt`: the principal square root, real if the number is not negative.
The operation of `/repo/named_arrays/_matrices/cartesian/matrices_cartesian_2d.py` line 85. -/
noncomputable def root (x : ℝ) : ℂ :=
  if 0 ≤ x then ((√x : ℝ) : ℂ) else Complex.I * ((√(-x) : ℝ) : ℂ)

/-- `x / y` of numpy: not finite if `y` is zero. -/
noncomputable def div (x y : ℂ) : Option ℂ := if y = 0 then none else some (x / y)

/-- The power of one matrix with the rows `(a, b)` and `(c, d)`; `cplx` says that the square roots have been computed as
complex numbers.
Models `/repo/named_arrays/_matrices/cartesian/matrices_cartesian_2d.py` lines 75-97. -/
noncomputable def elem (cplx : Bool) (a b c d z : ℝ) : Option (Matrix (Fin 2) (Fin 2) ℂ) := do
  let y := z - 1
  let self : Matrix (Fin 2) (Fin 2) ℂ := !![(a : ℂ), (b : ℂ); (c : ℂ), (d : ℂ)]
  let identity : Matrix (Fin 2) (Fin 2) ℂ := !![1, 0; 0, 1]
  let t1 : ℂ := ((a + d) / 2 : ℝ)
  let t2 := root (disc a b c d)
  let e1 := t1 + t2
  let e2 := t1 - t2
  let d := e1 - e2
  let p1 ← pow cplx e1 z
  let p2 ← pow cplx e2 z
  let s1 ← div (p1 - p2) d
  let q1 ← pow cplx e1 y
  let q2 ← pow cplx e2 y
  let s2 ← div (e1 * e2 * (q1 - q2)) d
  let a1 := s1 • self
  let a2 := s2 • identity
  some (a1 - a2)

/-- Whether the square roots are computed as complex numbers, for all elements of the array: whether one of the
arguments of `np.emath.sqrt` is negative.
The operation of `/repo/named_arrays/_matrices/cartesian/matrices_cartesian_2d.py` line 85. -/
noncomputable def complexRoots (x : SA ℝ) : Bool := x.nd.toList.any (fun v => decide (v < 0))

/-- One entry of the result, for all elements of the arrays. -/
noncomputable def entry (cplx : Bool) (i j : Fin 2) : List ℝ → Option ℂ
  | [a, d, b, c, z] => (elem cplx a b c d z).map (fun P => P i j)
  | _ => none

end Power2

/-- `matrix.power(exponent)` of a `Cartesian2dMatrixArray` with the rows `Cartesian2dVectorArray(a, b)` and
`Cartesian2dVectorArray(c, d)`.  The entries of the result are broadcast against each other, in the order in which the
code combines them.
Models `/repo/named_arrays/_matrices/cartesian/matrices_cartesian_2d.py` lines 62-97. -/
noncomputable def power2 (a b c d z : SA ℝ) : R (Mat (SA (Option ℂ))) := do
  let chi ← a.ufunc2 (· + ·) d
  let delta ← (← a.ufunc2 (· * ·) d).ufunc2 (· - ·) (← b.ufunc2 (· * ·) c)
  let x ← (← chi.ufunc1 (fun v => v ^ 2 / 4)).ufunc2 (· - ·) delta
  let cplx := Power2.complexRoots x
  let xx ← SA.ufuncN (Power2.entry cplx 0 0) [a, d, b, c, z]
  let xy ← SA.ufuncN (Power2.entry cplx 0 1) [a, d, b, c, z]
  let yx ← SA.ufuncN (Power2.entry cplx 1 0) [a, d, b, c, z]
  let yy ← SA.ufuncN (Power2.entry cplx 1 1) [a, d, b, c, z]
  .ok (Mat.mk2 xx xy yx yy)

end NA
