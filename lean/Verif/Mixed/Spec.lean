import Verif.Mixed.Basic
import Verif.Props.Elementwise
import Verif.Uncertain.Lemmas

/-!
# What an operation on operands of different types means
-/

namespace NA
open Dict
namespace Val
variable {ι α β γ : Type}

/-! ### Specification -/

/-- The values below any function: well-formed scalars and uncertain scalars, and vectors whose type decides
which components they have (at least one). -/
inductive Plain (L : String → List String) : Val ι α → Prop
  | num (x : α) : Plain L (.num x)
  | sa {a : SA α} (h : a.WF) : Plain L (.sa a)
  | ua {u : UA α} (h : u.Valid) : Plain L (.ua u)
  | vec {cls : String} {cs : List (String × Val ι α)} (hn : keys cs = L cls) (hd : (L cls).Nodup)
      (h0 : L cls ≠ []) (h : ∀ c v, get? cs c = some v → Plain L v) : Plain L (.vec cls cs)

/-- `r` is `f` of `x` and `y`, element by element and axis by axis name. -/
def Elementwise (f : α → β → γ) (x : SA α) (y : SA β) (r : SA γ) : Prop :=
  r.WF ∧ broadcastShapes [x.shape, y.shape] = .ok r.shape ∧
    ∀ e, SA.InRange r.shape e → r.at' e = f (x.atB e) (y.atB e)

def isNumber : Val ι α → Prop
  | .num _ => True
  | _ => False

def isUncertain : Val ι α → Prop
  | .ua _ => True
  | _ => False

def isVector : Val ι α → Prop
  | .vec _ _ => True
  | _ => False

def isFunction : Val ι α → Prop
  | .func _ _ => True
  | _ => False

/-- What an operand contributes to each component of a vector of type `cls`: a vector its own components,
anything else itself. -/
def Parts (cls : String) (names : List String) (p : String → Val ι α) : Val ι α → Prop
  | .vec cls' cs => cls' = cls ∧ keys cs = names ∧ ∀ c ∈ names, get? cs c = some (p c)
  | .func _ _ => False
  | v => ∀ c ∈ names, p c = v

/-- What the operation means, from the outside in and without regard to which operand comes first: a function
acts on its outputs, then a vector on its components, then an uncertain scalar on its nominal value and its
samples, and two scalars are combined element by element. -/
inductive Combines (C : Coordinates ι) (f : α → β → γ) : Val ι α → Val ι β → Val ι γ → Prop
  | number (x : α) (y : β) : Combines C f (.num x) (.num y) (.num (f x y))
  | scalar {a : Val ι α} {b : Val ι β} {x : SA α} {y : SA β} {r : SA γ} (hx : a.asScalar = some x)
      (hy : b.asScalar = some y) (hn : ¬ (a.isNumber ∧ b.isNumber)) (h : Elementwise f x y r) :
      Combines C f a b (.sa r)
  | uncertain {a : Val ι α} {b : Val ι β} {x : UArg α} {y : UArg β} {r : UA γ} (hx : a.asUncertain = some x)
      (hy : b.asUncertain = some y) (hu : a.isUncertain ∨ b.isUncertain)
      (hn : Elementwise f x.nominal y.nominal r.nominal)
      (hd : Elementwise f x.distribution y.distribution r.distribution) (h : axisD ∉ r.nominal.axes) :
      Combines C f a b (.ua r)
  | vector {a : Val ι α} {b : Val ι β} {cls : String} {names : List String} {pa : String → Val ι α}
      {pb : String → Val ι β} {rs : List (String × Val ι γ)} (hx : Parts cls names pa a)
      (hy : Parts cls names pb b) (hv : a.isVector ∨ b.isVector) (hk : keys rs = names)
      (h : ∀ c v, get? rs c = some v → Combines C f (pa c) (pb c) v) : Combines C f a b (.vec cls rs)
  | functionLeft {i : ι} {o : Val ι α} {b : Val ι β} {r : Val ι γ} (hb : ¬ b.isFunction)
      (h : Combines C f o b r) : Combines C f (.func i o) b (.func i r)
  | functionRight {a : Val ι α} {j : ι} {o : Val ι β} {r : Val ι γ} (ha : ¬ a.isFunction)
      (h : Combines C f a o r) : Combines C f a (.func j o) (.func j r)
  | functions {i j : ι} {o : Val ι α} {o' : Val ι β} {r : Val ι γ} (hd : C.differ j i = .ok false)
      (h : Combines C f o o' r) : Combines C f (.func i o) (.func j o') (.func i r)

/-- The same operation with the operands exchanged, up to the coordinates of the result and the order of the
axes. -/
inductive Alike (C : Coordinates ι) : Val ι γ → Val ι γ → Prop
  | num (x : γ) : Alike C (.num x) (.num x)
  | sa {a b : SA γ} (h : a.SameByName b) : Alike C (.sa a) (.sa b)
  | ua {u v : UA γ} (hn : u.nominal.SameByName v.nominal) (hd : u.distribution.SameByName v.distribution) :
      Alike C (.ua u) (.ua v)
  | vec {cls : String} {cs ds : List (String × Val ι γ)} (hk : keys cs = keys ds)
      (h : ∀ c v w, get? cs c = some v → get? ds c = some w → Alike C v w) : Alike C (.vec cls cs) (.vec cls ds)
  | func {i j : ι} {o p : Val ι γ} (hi : i = j ∨ C.differ j i = .ok false) (h : Alike C o p) :
      Alike C (.func i o) (.func j p)

end Val
end NA
