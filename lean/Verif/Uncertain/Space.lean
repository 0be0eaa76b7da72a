import Verif.Uncertain.Basic
import Verif.Space.Basic

/-!
# Linear spaces between uncertain ends

Model of `na.linspace` and `na.step` for uncertain scalars, and of `UncertainScalarLinearSpace`.
-/

namespace NA
namespace UA
variable {α β γ : Type}

/-- A ufunc of two operands of which at least one is uncertain.
Models `/repo/named_arrays/_scalars/uncertainties/uncertainties.py` lines 424-525. -/
def ufunc2 (f : α → β → γ) (x : UArg α) (y : UArg β) : R (UA γ) := do
  let n ← SA.ufunc2 f x.nominal y.nominal
  let d ← SA.ufunc2 f x.distribution y.distribution
  mk? n d

section
variable {K : Type} [Field K]

/-- `np.linspace` of operands of which at least one is uncertain.
Models `/repo/named_arrays/_scalars/uncertainties/uncertainties_array_functions.py` lines 79-112. -/
def npLinspace (start stop : UArg K) (axis : String) (num : Int) (endpoint : Bool) : R (UA K) := do
  let n ← SA.npLinspace start.nominal stop.nominal axis num endpoint
  let d ← SA.npLinspace start.distribution stop.distribution axis num endpoint
  mk? n d

/-- `na.step`, `step` of `UncertainScalarLinearSpace` and its volumes of cells along its own axis.  As in `SA.step`, division by zero is
an error (for arrays numpy returns infinities, which are not modelled).
Models `/repo/named_arrays/_named_array_functions.py` lines 314-343, `/repo/named_arrays/_core.py` lines 2021-2028 and
`/repo/named_arrays/_scalars/uncertainties/uncertainties.py` lines 937-938. -/
def step (start stop : UArg K) (num : Int) (endpoint centers : Bool) : R (UA K) := do
  let num := if endpoint then num - 1 else num
  let num := if centers then num + 1 else num
  let d ← ufunc2 (· - ·) stop start
  if num = 0 then .error .other
  else ufunc2 (· / ·) (.unc d) (.plain (SA.scalar (num : K)))

/-- `na.linspace`, and `explicit` of `UncertainScalarLinearSpace`.
Models `/repo/named_arrays/_named_array_functions.py` lines 346-428 and `/repo/named_arrays/_core.py` lines 1996-2019. -/
def linspace (start stop : UArg K) (axis : String) (num : Int) (endpoint centers : Bool) : R (UA K) :=
  if centers then do
    let w ← step start stop num endpoint centers
    let halfstep ← ufunc2 (· / ·) (.unc w) (.plain (SA.scalar (2 : K)))
    let start ← ufunc2 (· + ·) start (.unc halfstep)
    let stop ← ufunc2 (· - ·) stop (.unc halfstep)
    npLinspace (.unc start) (.unc stop) axis num endpoint
  else npLinspace start stop axis num endpoint

end
end UA
end NA
