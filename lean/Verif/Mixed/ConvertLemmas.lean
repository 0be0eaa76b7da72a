import Verif.Mixed.Convert
import Verif.Uncertain.Lemmas
import Verif.Scalar.Arith

/-!
# What a conversion means, and what the model does
-/

namespace NA
open Dict
namespace Arr
variable {α β γ δ : Type}

/-! ### Specification -/

/-- A vector of type `cls` whose components are named `names`. -/
def vector (cls : String) (names : List String) (p : String → Arr α) : Arr α :=
  .vec cls (names.map (fun c => (c, p c)))

/-- The arrays considered: scalars are well-formed and do not have the axis reserved for the samples of
uncertain scalars, and the type of a vector decides which components it has. -/
inductive Proper (L : String → List String) : Arr α → Prop
  | num (x : α) : Proper L (.num x)
  | sa {a : SA α} (h : a.WF) (hd : axisD ∉ a.axes) : Proper L (.sa a)
  | ua {u : UA α} (h : u.Valid) : Proper L (.ua u)
  | vec {cls : String} {p : String → Arr α} (hd : (L cls).Nodup) (h : ∀ c ∈ L cls, Proper L (p c)) :
      Proper L (vector cls (L cls) p)
  | func {i o : Arr α} (hi : Proper L i) (ho : Proper L o) : Proper L (.func i o)

/-- `r` is `x` with `g` applied to every element. -/
def IsMap (g : α → β) (x : SA α) (r : SA β) : Prop :=
  r.axes = x.axes ∧ r.nd.shape = x.nd.shape ∧ ∀ i, r.nd.get i = g (x.nd.get i)

def isUncertain : Arr α → Prop
  | .ua _ => True
  | _ => False

def isVector : Arr α → Prop
  | .vec _ _ => True
  | _ => False

def isFunction : Arr α → Prop
  | .func _ _ => True
  | _ => False

/-- The value as a scalar. -/
def IsScalar (x : SA α) : Arr α → Prop
  | .num v => x = SA.scalar v
  | .sa a => x = a
  | _ => False

/-- The value as an uncertain scalar: a scalar is its own nominal value and its only sample. -/
def IsPair (n d : SA α) : Arr α → Prop
  | .ua u => n = u.nominal ∧ d = u.distribution
  | v => IsScalar n v ∧ IsScalar d v

/-- What a value contributes to each component of a vector of type `cls`: a vector its own components,
anything else itself. -/
def Parts (cls : String) (names : List String) (p : String → Arr α) : Arr α → Prop
  | .vec cls' cs => cls' = cls ∧ cs = names.map (fun c => (c, p c))
  | .func _ _ => False
  | v => ∀ c, p c = v

/-- What a value contributes to the coordinates and to the values of a function: anything but a function
contributes itself to both. -/
def Halves (i o : Arr α) : Arr α → Prop
  | .func i' o' => i = i' ∧ o = o'
  | v => i = v ∧ o = v

/-- `r` has the values of `a`, transformed by `g`, and the types of both `a` and `b`: it is a function if one
of them is, otherwise a vector if one of them is, otherwise an uncertain scalar if one of them is, and so on
for the parts. -/
inductive Converts (g : α → β) : Arr α → Arr γ → Arr β → Prop
  | scalar {a : Arr α} {b : Arr γ} {x : SA α} {y : SA γ} {r : SA β} (hx : IsScalar x a) (hy : IsScalar y b)
      (h : IsMap g x r) : Converts g a b (.sa r)
  | uncertain {a : Arr α} {b : Arr γ} {n d : SA α} {n' d' : SA γ} {r : UA β} (hx : IsPair n d a)
      (hy : IsPair n' d' b) (hu : a.isUncertain ∨ b.isUncertain) (hn : IsMap g n r.nominal)
      (hd : IsMap g d r.distribution) : Converts g a b (.ua r)
  | vector {a : Arr α} {b : Arr γ} {cls : String} {names : List String} {p : String → Arr α}
      {q : String → Arr γ} {r : String → Arr β} (hx : Parts cls names p a) (hy : Parts cls names q b)
      (hv : a.isVector ∨ b.isVector) (h : ∀ c ∈ names, Converts g (p c) (q c) (r c)) :
      Converts g a b (vector cls names r)
  | function {a : Arr α} {b : Arr γ} {i o : Arr α} {i' o' : Arr γ} {ri ro : Arr β} (hx : Halves i o a)
      (hy : Halves i' o' b) (hf : a.isFunction ∨ b.isFunction) (hi : Converts g i i' ri)
      (ho : Converts g o o' ro) : Converts g a b (.func ri ro)

/-- The two values have the same type, at every level; numbers count as scalars. -/
inductive SameKind : Arr α → Arr β → Prop
  | scalar {a : Arr α} {b : Arr β} {x : SA α} {y : SA β} (hx : IsScalar x a) (hy : IsScalar y b) :
      SameKind a b
  | uncertain (u : UA α) (v : UA β) : SameKind (.ua u) (.ua v)
  | vector {cls : String} {names : List String} {p : String → Arr α} {q : String → Arr β}
      (h : ∀ c ∈ names, SameKind (p c) (q c)) : SameKind (vector cls names p) (vector cls names q)
  | function {i o : Arr α} {i' o' : Arr β} (hi : SameKind i i') (ho : SameKind o o') :
      SameKind (.func i o) (.func i' o')

/-- Every part of the value is the scalar `x`. -/
inductive Filled (x : SA α) : Arr α → Prop
  | scalar {a : Arr α} (h : IsScalar x a) : Filled x a
  | uncertain : Filled x (.ua ⟨x, x⟩)
  | vector {cls : String} {names : List String} {p : String → Arr α} (h : ∀ c ∈ names, Filled x (p c)) :
      Filled x (vector cls names p)
  | function {i o : Arr α} (hi : Filled x i) (ho : Filled x o) : Filled x (.func i o)

/-- No part of the value is an uncertain scalar. -/
inductive Certain : Arr α → Prop
  | num (x : α) : Certain (.num x)
  | sa (a : SA α) : Certain (.sa a)
  | vec {cls : String} {cs : List (String × Arr α)} (h : ∀ p ∈ cs, Certain p.2) : Certain (.vec cls cs)
  | func {i o : Arr α} (hi : Certain i) (ho : Certain o) : Certain (.func i o)

/-- A scalar of the given shape, all of whose elements are `z`. -/
def IsConst (z : β) (shape : Shape) (r : SA β) : Prop :=
  r.WF ∧ r.shape = shape ∧ ∀ e, r.at' e = z

/-- Numpy's `zeros_like(a, shape=shape)`: an array of the type of `a` all of whose elements are `z`.  Each part
has the shape asked for, or its own; the samples of an uncertain scalar keep their number. -/
inductive Created (z : β) (shape : Option Shape) : Arr α → Arr β → Prop
  | scalar {a : Arr α} {x : SA α} {r : SA β} (hx : IsScalar x a) (h : IsConst z (shape.getD x.shape) r) :
      Created z shape a (.sa r)
  | own {u : UA α} {r : UA β} (hs : shape = none) (hn : IsConst z u.nominal.shape r.nominal)
      (hd : IsConst z u.distribution.shape r.distribution) : Created z shape (.ua u) (.ua r)
  | given {u : UA α} {r : UA β} {s : Shape} {k : Nat} (hs : shape = some s)
      (hk : get? u.distribution.shape axisD = some k) (hn : IsConst z s r.nominal)
      (hd : IsConst z (s ++ [(axisD, k)]) r.distribution) : Created z shape (.ua u) (.ua r)
  | vector {cls : String} {names : List String} {p : String → Arr α} {r : String → Arr β}
      (h : ∀ c ∈ names, Created z shape (p c) (r c)) : Created z shape (vector cls names p) (vector cls names r)

/-- No part of the value is a function, and, if a shape is asked for, every uncertain scalar has its axis of
samples. -/
inductive Sampled (shape : Option Shape) : Arr α → Prop
  | num (x : α) : Sampled shape (.num x)
  | sa (a : SA α) : Sampled shape (.sa a)
  | ua {u : UA α} (h : shape = none ∨ axisD ∈ u.distribution.axes) : Sampled shape (.ua u)
  | vec {cls : String} {cs : List (String × Arr α)} (h : ∀ p ∈ cs, Sampled shape p.2) :
      Sampled shape (.vec cls cs)

/-! ### Lemmas -/

/-- The scalar with `g` applied to every element. -/
def mapSA (g : α → β) (x : SA α) : SA β := ⟨x.axes, x.nd.map g⟩

theorem isMap_mapSA (g : α → β) (x : SA α) : IsMap g x (mapSA g x) := ⟨rfl, rfl, fun _ => rfl⟩

theorem isMap_unique {g : α → β} {x : SA α} {r : SA β} (h : IsMap g x r) : r = mapSA g x := by
  obtain ⟨ax, nd⟩ := r
  obtain ⟨s, f⟩ := nd
  obtain ⟨rfl, rfl, h3⟩ := h
  simp only [mapSA, ND.map]
  congr 2
  exact funext h3

theorem wf_mapSA {g : α → β} {x : SA α} (h : x.WF) : (mapSA g x).WF := h

theorem wf_isMap {g : α → β} {x : SA α} {r : SA β} (h : x.WF) (hm : IsMap g x r) : r.WF := by
  rw [isMap_unique hm]; exact wf_mapSA h

theorem mk_mapSA {g : α → β} {x : SA α} (h : x.WF) : SA.mk? (x.nd.map g) x.axes = .ok (mapSA g x) :=
  SA.mk?_of_wf h.1 h.2

theorem get?_names {p : String → δ} {c : String} {names : List String} (h : c ∈ names) :
    get? (names.map (fun c => (c, p c))) c = some (p c) := by
  induction names with
  | nil => cases h
  | cons x xs ih =>
    rw [List.map_cons, get?_cons]
    by_cases hx : x = c
    · subst hx; simp
    · simp only [hx, if_false]
      rcases List.mem_cons.1 h with h | h
      · exact absurd h.symm hx
      · exact ih h

theorem keys_names (p : String → δ) (names : List String) :
    keys (names.map (fun c => (c, p c))) = names := by
  simp [keys, Function.comp_def]

theorem lookup_names {p : String → Arr α} {c : String} {names : List String} (h : c ∈ names) :
    lookup (names.map (fun c => (c, p c))) c = .ok (p c) := by
  simp [lookup, get?_names h]

theorem depth_names {p : String → Arr α} {c : String} {names : List String} (h : c ∈ names) :
    (p c).depth ≤ depths (names.map (fun c => (c, p c))) := by
  induction names with
  | nil => cases h
  | cons x xs ih =>
    simp only [List.map_cons, depths]
    rcases List.mem_cons.1 h with h | h
    · subst h; exact Nat.le_max_left _ _
    · exact le_trans (ih h) (Nat.le_max_right _ _)

/-- The loop over the components: all of them succeed, or the first which fails decides. -/
theorem convertParts_ok {op : Arr α → Arr γ → R (Arr β)} {pa : String → R (Arr α)} {pl : String → R (Arr γ)}
    {p : String → Arr α} {q : String → Arr γ} (names : List String) (hp : ∀ c ∈ names, pa c = .ok (p c))
    (hq : ∀ c ∈ names, pl c = .ok (q c)) :
    (∀ rs, convertParts op pa pl names = .ok rs → ∃ r : String → Arr β,
      (names.Nodup → rs = names.map (fun c => (c, r c)) ∧ ∀ c ∈ names, op (p c) (q c) = .ok (r c))) ∧
    (∀ r : String → Arr β, (∀ c ∈ names, op (p c) (q c) = .ok (r c)) →
      convertParts op pa pl names = .ok (names.map (fun c => (c, r c)))) ∧
    ∀ e, convertParts op pa pl names = .error e → ∃ c ∈ names, op (p c) (q c) = .error e := by
  induction names with
  | nil =>
    refine ⟨fun rs h => ⟨fun _ => .vec "" [], fun _ => ?_⟩, fun r _ => rfl, fun e h => ?_⟩
    · cases h; exact ⟨rfl, fun c hc => nomatch hc⟩
    · cases h
  | cons c names ih =>
    obtain ⟨i1, i2, i3⟩ := ih (fun c hc => hp c (List.mem_cons_of_mem _ hc))
      (fun c hc => hq c (List.mem_cons_of_mem _ hc))
    have h1 := hp c List.mem_cons_self
    have h2 := hq c List.mem_cons_self
    have hu : convertParts op pa pl (c :: names) =
        (do let r ← op (p c) (q c); let rs ← convertParts op pa pl names; .ok ((c, r) :: rs)) := by
      simp only [convertParts, h1, h2]; rfl
    rw [hu]
    refine ⟨fun rs h => ?_, fun r hr => ?_, fun e h => ?_⟩
    · cases ho : op (p c) (q c) with
      | error e => rw [ho] at h; cases h
      | ok v =>
        rw [ho] at h
        cases hc : convertParts op pa pl names with
        | error e => rw [hc] at h; cases h
        | ok vs =>
          rw [hc] at h
          cases h
          obtain ⟨r, hr⟩ := i1 vs hc
          refine ⟨fun x => if x = c then v else r x, fun hn => ?_⟩
          obtain ⟨hn1, hn2⟩ := List.nodup_cons.1 hn
          obtain ⟨k1, k2⟩ := hr hn2
          have hne : ∀ x ∈ names, x ≠ c := fun x hx he => hn1 (he ▸ hx)
          refine ⟨?_, fun x hx => ?_⟩
          · rw [k1]
            simp only [List.map_cons, if_true]
            congr 1
            exact List.map_congr_left (fun x hx => by simp [hne x hx])
          · rcases List.mem_cons.1 hx with rfl | hx
            · simpa using ho
            · simpa [hne x hx] using k2 x hx
    · rw [hr c List.mem_cons_self, i2 r (fun c hc => hr c (List.mem_cons_of_mem _ hc))]
      rfl
    · cases ho : op (p c) (q c) with
      | error e' => rw [ho] at h; cases h; exact ⟨c, List.mem_cons_self, ho⟩
      | ok v =>
        rw [ho] at h
        cases hc : convertParts op pa pl names with
        | error e' =>
          rw [hc] at h; cases h
          obtain ⟨x, hx, hx'⟩ := i3 _ hc
          exact ⟨x, List.mem_cons_of_mem _ hx, hx'⟩
        | ok vs => rw [hc] at h; cases h

theorem wrapped_wrapped (b : Arr γ) : b.wrapped.wrapped = b.wrapped := by cases b <;> rfl

theorem aux_wrapped (swap : Arr α → Arr γ → Bool) (g : α → β) (n : Nat) (a : Arr α) (b : Arr γ) :
    asarrayAux swap g n a b.wrapped = asarrayAux swap g n a b := by
  cases n with
  | zero => rfl
  | succ n => simp only [asarrayAux, wrapped_wrapped]

theorem parts_depth {cls : String} {names : List String} {p : String → Arr α} {a : Arr α}
    (h : Parts cls names p a) {c : String} (hc : c ∈ names) :
    (p c).depth ≤ a.depth ∧ (a.isVector → (p c).depth < a.depth) := by
  cases a with
  | vec cls' cs =>
    obtain ⟨_, rfl⟩ := h
    have := depth_names (p := p) hc
    exact ⟨by simp only [depth]; omega, fun _ => by simp only [depth]; omega⟩
  | func i o => exact h.elim
  | num x => rw [h c]; exact ⟨le_refl _, fun h => h.elim⟩
  | sa x => rw [h c]; exact ⟨le_refl _, fun h => h.elim⟩
  | ua x => rw [h c]; exact ⟨le_refl _, fun h => h.elim⟩

theorem halves_depth {i o a : Arr α} (h : Halves i o a) :
    i.depth ≤ a.depth ∧ o.depth ≤ a.depth ∧ (a.isFunction → i.depth < a.depth ∧ o.depth < a.depth) := by
  cases a with
  | func i' o' =>
    obtain ⟨rfl, rfl⟩ := h
    simp only [depth]
    have := Nat.le_max_left i.depth o.depth
    have := Nat.le_max_right i.depth o.depth
    exact ⟨by omega, by omega, fun _ => ⟨by omega, by omega⟩⟩
  | vec _ _ => obtain ⟨rfl, rfl⟩ := h; exact ⟨le_refl _, le_refl _, fun h => h.elim⟩
  | num _ => obtain ⟨rfl, rfl⟩ := h; exact ⟨le_refl _, le_refl _, fun h => h.elim⟩
  | sa _ => obtain ⟨rfl, rfl⟩ := h; exact ⟨le_refl _, le_refl _, fun h => h.elim⟩
  | ua _ => obtain ⟨rfl, rfl⟩ := h; exact ⟨le_refl _, le_refl _, fun h => h.elim⟩

theorem names_inj {names names' : List String} {p q : String → δ}
    (h : names.map (fun c => (c, p c)) = names'.map (fun c => (c, q c))) :
    names = names' ∧ ∀ c ∈ names, p c = q c := by
  have hk := congrArg keys h
  rw [keys_names, keys_names] at hk
  subst hk
  refine ⟨rfl, fun c hc => ?_⟩
  have := congrArg (fun d => get? d c) h
  simp only [get?_names hc] at this
  exact Option.some.inj this

/-- The components of a vector, and their names. -/
theorem proper_vec {L : String → List String} {cls : String} {cs : List (String × Arr α)}
    (h : Proper L (.vec cls cs)) :
    ∃ p : String → Arr α, cs = (L cls).map (fun c => (c, p c)) ∧ (L cls).Nodup ∧ ∀ c ∈ L cls, Proper L (p c) := by
  generalize hv : Arr.vec cls cs = v at h
  cases h with
  | @vec cls' p hd h =>
    unfold vector at hv
    injection hv with h1 h2
    subst h1
    exact ⟨p, h2, hd, h⟩
  | num => cases hv
  | sa => cases hv
  | ua => cases hv
  | func => cases hv

theorem proper_parts {L : String → List String} {cls : String} {names : List String} {p : String → Arr α}
    {a : Arr α} (h : Parts cls names p a) (ha : Proper L a) :
    (∀ c ∈ names, Proper L (p c)) ∧ (a.isVector → names = L cls ∧ names.Nodup) := by
  cases a with
  | vec cls' cs =>
    obtain ⟨rfl, rfl⟩ := h
    obtain ⟨p', h1, h2, h3⟩ := proper_vec ha
    obtain ⟨rfl, h5⟩ := names_inj h1
    exact ⟨fun c hc => by rw [h5 c hc]; exact h3 c hc, fun _ => ⟨rfl, h2⟩⟩
  | func i o => exact h.elim
  | num x => exact ⟨fun c _ => by rw [h c]; exact ha, fun h => h.elim⟩
  | sa x => exact ⟨fun c _ => by rw [h c]; exact ha, fun h => h.elim⟩
  | ua x => exact ⟨fun c _ => by rw [h c]; exact ha, fun h => h.elim⟩

theorem proper_func {L : String → List String} {i o : Arr α} (h : Proper L (.func i o)) :
    Proper L i ∧ Proper L o := by
  generalize hv : Arr.func i o = v at h
  cases h with
  | func hi ho => cases hv; exact ⟨hi, ho⟩
  | vec => cases hv
  | num => cases hv
  | sa => cases hv
  | ua => cases hv

theorem proper_halves {L : String → List String} {i o a : Arr α} (h : Halves i o a) (ha : Proper L a) :
    Proper L i ∧ Proper L o := by
  cases a with
  | func i' o' => obtain ⟨rfl, rfl⟩ := h; exact proper_func ha
  | vec _ _ => obtain ⟨rfl, rfl⟩ := h; exact ⟨ha, ha⟩
  | num _ => obtain ⟨rfl, rfl⟩ := h; exact ⟨ha, ha⟩
  | sa _ => obtain ⟨rfl, rfl⟩ := h; exact ⟨ha, ha⟩
  | ua _ => obtain ⟨rfl, rfl⟩ := h; exact ⟨ha, ha⟩

theorem proper_sa {L : String → List String} {a : SA α} (h : Proper L (.sa a)) : a.WF ∧ axisD ∉ a.axes := by
  generalize hv : Arr.sa a = v at h
  cases h with
  | sa h1 h2 => cases hv; exact ⟨h1, h2⟩
  | vec => cases hv
  | num => cases hv
  | func => cases hv
  | ua => cases hv

theorem proper_ua {L : String → List String} {u : UA α} (h : Proper L (.ua u)) : u.Valid := by
  generalize hv : Arr.ua u = v at h
  cases h with
  | ua h => cases hv; exact h
  | vec => cases hv
  | num => cases hv
  | func => cases hv
  | sa => cases hv

theorem proper_scalar {L : String → List String} {x : SA α} {a : Arr α} (h : IsScalar x a) (ha : Proper L a) :
    x.WF ∧ axisD ∉ x.axes := by
  cases a with
  | num v => cases h; exact ⟨(scalar_fits [] v).1, by simp [SA.scalar]⟩
  | sa v => cases h; exact proper_sa ha
  | ua _ => exact h.elim
  | vec _ _ => exact h.elim
  | func _ _ => exact h.elim

theorem proper_pair {L : String → List String} {n d : SA α} {a : Arr α} (h : IsPair n d a) (ha : Proper L a) :
    n.WF ∧ axisD ∉ n.axes ∧ d.WF := by
  cases a with
  | ua u =>
    obtain ⟨rfl, rfl⟩ := h
    obtain ⟨h1, h2, h3⟩ := proper_ua ha
    exact ⟨h1, h3, h2⟩
  | num _ => exact ⟨(proper_scalar h.1 ha).1, (proper_scalar h.1 ha).2, (proper_scalar h.2 ha).1⟩
  | sa _ => exact ⟨(proper_scalar h.1 ha).1, (proper_scalar h.1 ha).2, (proper_scalar h.2 ha).1⟩
  | vec _ _ => exact h.1.elim
  | func _ _ => exact h.1.elim

/-! ### One step of the recursion -/

theorem dispatch_eq {f : Method → R (Option δ)} {m0 : Method} {res : R δ} (h0 : f m0 = res.map some)
    {ms : List Method} (hn : ∀ m ∈ ms, m = m0 ∨ f m = .ok none) (hm : m0 ∈ ms) : dispatch f ms = res := by
  induction ms with
  | nil => cases hm
  | cons m ms ih =>
    have hhead : m = m0 → dispatch f (m :: ms) = res := by
      rintro rfl
      simp only [dispatch, h0]
      cases res <;> rfl
    rcases hn m List.mem_cons_self with h | h
    · exact hhead h
    · rcases List.mem_cons.1 hm with h' | h'
      · exact hhead h'.symm
      · simp only [dispatch, h]
        exact ih (fun m hm => hn m (List.mem_cons_of_mem _ hm)) h'

theorem mem_order {s : Bool} {a : Arr α} {b : Arr γ} {m : Method} :
    m ∈ order s a b ↔ a.method = some m ∨ b.method = some m := by
  unfold order
  cases a.method with
  | none => cases b.method <;> simp [eq_comm]
  | some k =>
    cases b.method with
    | none => simp [eq_comm]
    | some l => cases s <;> simp [eq_comm, or_comm]

/-- The result of the only implementation which answers. -/
theorem aux_eq (swap : Arr α → Arr γ → Bool) (g : α → β) (n : Nat) {a : Arr α} {b : Arr γ} (m0 : Method)
    {res : R (Arr β)} (h0 : attempt g (asarrayAux swap g n) m0 a b.wrapped = res.map some)
    (hn : ∀ m, a.method = some m ∨ b.wrapped.method = some m → m = m0 ∨
      attempt g (asarrayAux swap g n) m a b.wrapped = .ok none)
    (hm : a.method = some m0 ∨ b.wrapped.method = some m0) : asarrayAux swap g (n + 1) a b = res := by
  show dispatch _ _ = _
  exact dispatch_eq h0 (fun m h => hn m (mem_order.1 h)) (mem_order.2 hm)

variable (swap : Arr α → Arr γ → Bool) (g : α → β)

theorem scalar_wrapped {y : SA γ} {b : Arr γ} (h : IsScalar y b) : b.wrapped = .sa y := by
  cases b <;> first | (cases h; rfl) | exact h.elim

theorem scalarPart_of {y : SA γ} {b : Arr γ} (h : IsScalar y b) : b.scalarPart = some y := by
  cases b <;> first | (cases h; rfl) | exact h.elim

theorem aux_scalar {a : Arr α} {b : Arr γ} {x : SA α} {y : SA γ} (hx : IsScalar x a) (hy : IsScalar y b)
    (h : x.WF) (n : Nat) : asarrayAux swap g (n + 1) a b = .ok (.sa (mapSA g x)) := by
  have hb := scalar_wrapped hy
  refine aux_eq swap g n .scalar ?_ (fun m hm => Or.inl ?_) (Or.inr (by rw [hb]; rfl))
  · rw [hb]
    have hy' : (Arr.sa y).scalarPart = some y := rfl
    simp only [attempt, scalarPart_of hx, hy', mk_mapSA h]
    rfl
  · rw [hb] at hm
    rcases hm with hm | hm
    · cases a <;> first | exact hx.elim | (cases hm; rfl) | cases hm
    · cases hm; rfl

/-- The two halves of a scalar or an uncertain scalar. -/
theorem uncertainParts_of {n d : SA α} {a : Arr α} (h : IsPair n d a) :
    ∃ an ad, a.uncertainParts = some (an, ad) ∧ IsScalar n an ∧ IsScalar d ad := by
  cases a with
  | num v => exact ⟨_, _, rfl, h.1, h.2⟩
  | sa v => exact ⟨_, _, rfl, h.1, h.2⟩
  | ua u => exact ⟨_, _, rfl, h.1, h.2⟩
  | vec _ _ => exact h.1.elim
  | func _ _ => exact h.1.elim

theorem pair_wrapped {n d : SA γ} {b : Arr γ} (h : IsPair n d b) : IsPair n d b.wrapped := by
  cases b <;> exact h

theorem pair_method {n d : SA α} {a : Arr α} (h : IsPair n d a) {m : Method} (hm : a.method = some m) :
    m = .uncertain ∧ a.isUncertain ∨ m = .scalar ∧ ¬ a.isUncertain := by
  cases a with
  | num v => cases hm
  | sa v => cases hm; exact Or.inr ⟨rfl, fun h => h⟩
  | ua u => cases hm; exact Or.inl ⟨rfl, trivial⟩
  | vec _ _ => exact h.1.elim
  | func _ _ => exact h.1.elim

theorem method_uncertain {a : Arr α} (h : a.isUncertain) : a.method = some .uncertain := by
  cases a <;> first | exact h.elim | rfl

theorem isUncertain_wrapped {b : Arr γ} : b.wrapped.isUncertain ↔ b.isUncertain := by cases b <;> rfl

theorem scalarPart_uncertain {a : Arr α} (h : a.isUncertain) : a.scalarPart = none := by
  cases a <;> first | exact h.elim | rfl

theorem attempt_scalar_none {op : Arr α → Arr γ → R (Arr β)} {a : Arr α} {b : Arr γ}
    (h : a.scalarPart = none ∨ b.scalarPart = none) : attempt g op .scalar a b = .ok none := by
  unfold attempt
  rcases h with h | h
  · simp only [h]
  · simp only [h]; cases a.scalarPart <;> rfl

theorem aux_uncertain {a : Arr α} {b : Arr γ} {x d : SA α} {x' d' : SA γ} (hx : IsPair x d a)
    (hy : IsPair x' d' b) (hu : a.isUncertain ∨ b.isUncertain) (h1 : x.WF) (h2 : axisD ∉ x.axes) (h3 : d.WF)
    (n : Nat) : asarrayAux swap g (n + 2) a b = .ok (.ua ⟨mapSA g x, mapSA g d⟩) := by
  have hmk : UA.mk? (mapSA g x) (mapSA g d) = .ok ⟨mapSA g x, mapSA g d⟩ :=
    UA.mk?_of_valid (wf_mapSA h1) h2
  obtain ⟨an, ad, k1, k2, k3⟩ := uncertainParts_of hx
  obtain ⟨ln, ld, l1, l2, l3⟩ := uncertainParts_of (pair_wrapped hy)
  refine aux_eq swap g (n + 1) .uncertain ?_ (fun m hm => ?_) ?_
  · simp only [attempt, k1, l1, aux_scalar swap g k2 l2 h1 n, aux_scalar swap g k3 l3 h3 n]
    show (UA.mk? (mapSA g x) (mapSA g d)).bind (fun r => .ok (some (Arr.ua r))) = _
    rw [hmk]; rfl
  · have hs : m = .scalar → attempt g (asarrayAux swap g (n + 1)) m a b.wrapped = .ok none := by
      rintro rfl
      refine attempt_scalar_none g ?_
      rcases hu with hu | hu
      · exact Or.inl (scalarPart_uncertain hu)
      · exact Or.inr (scalarPart_uncertain (isUncertain_wrapped.2 hu))
    rcases hm with hm | hm
    · rcases pair_method hx hm with ⟨h, _⟩ | ⟨h, _⟩
      · exact Or.inl h
      · exact Or.inr (hs h)
    · rcases pair_method (pair_wrapped hy) hm with ⟨h, _⟩ | ⟨h, _⟩
      · exact Or.inl h
      · exact Or.inr (hs h)
  · rcases hu with hu | hu
    · exact Or.inl (method_uncertain hu)
    · exact Or.inr (method_uncertain (isUncertain_wrapped.2 hu))

/-- The methods of the parts of a vector. -/
theorem parts_method {cls : String} {names : List String} {p : String → Arr α} {a : Arr α}
    (h : Parts cls names p a) {m : Method} (hm : a.method = some m) :
    m = .vector ∨ (m = .scalar ∨ m = .uncertain) := by
  cases a with
  | num v => cases hm
  | sa v => cases hm; simp
  | ua u => cases hm; simp
  | vec _ _ => cases hm; simp
  | func _ _ => exact h.elim

theorem attempt_uncertain_none {op : Arr α → Arr γ → R (Arr β)} {a : Arr α} {b : Arr γ}
    (h : a.uncertainParts = none ∨ b.uncertainParts = none) : attempt g op .uncertain a b = .ok none := by
  unfold attempt
  rcases h with h | h
  · simp only [h]
  · simp only [h]; cases a.uncertainParts <;> rfl

theorem vector_none {a : Arr α} (h : a.isVector) :
    a.scalarPart = none ∧ a.uncertainParts = none ∧ a.method = some .vector := by
  cases a <;> first | exact h.elim | exact ⟨rfl, rfl, rfl⟩

theorem isVector_wrapped {b : Arr γ} : b.wrapped.isVector ↔ b.isVector := by cases b <;> rfl

theorem parts_wrapped {cls : String} {names : List String} {q : String → Arr γ} {b : Arr γ}
    (h : Parts cls names q b) (hb : ¬ b.isVector) (c : String) : q c = b := by
  cases b with
  | vec _ _ => exact absurd trivial hb
  | func _ _ => exact h.elim
  | num _ => exact h c
  | sa _ => exact h c
  | ua _ => exact h c

theorem vectorParts_of {cls : String} {names : List String} {p : String → Arr α} {q : String → Arr γ}
    {a : Arr α} {b : Arr γ} (hx : Parts cls names p a) (hy : Parts cls names q b)
    (hv : a.isVector ∨ b.isVector) :
    ∃ (pa : String → R (Arr α)) (pl : String → R (Arr γ)) (q' : String → Arr γ), vectorParts a b.wrapped = some (cls, names, pa, pl) ∧ (∀ c ∈ names, pa c = .ok (p c)) ∧
      (∀ c ∈ names, pl c = .ok (q' c)) ∧ ∀ c, q' c = q c ∨ q' c = (q c).wrapped := by
  cases a with
  | func _ _ => exact hx.elim
  | vec cls' cs =>
    obtain ⟨rfl, rfl⟩ := hx
    cases b with
    | func _ _ => exact hy.elim
    | vec cls'' ds =>
      obtain ⟨rfl, rfl⟩ := hy
      refine ⟨_, _, q, ?_, fun c hc => lookup_names hc, fun c hc => lookup_names hc, fun _ => Or.inl rfl⟩
      simp only [vectorParts, wrapped, if_true, keys_names]
    | num v =>
      refine ⟨_, _, fun _ => .sa (SA.scalar v), ?_, fun c hc => lookup_names hc, fun c hc => rfl,
        fun c => Or.inr (by rw [hy c]; rfl)⟩
      simp only [vectorParts, wrapped, keys_names]
    | sa v =>
      refine ⟨_, _, fun _ => .sa v, ?_, fun c hc => lookup_names hc, fun c hc => rfl,
        fun c => Or.inl (by rw [hy c])⟩
      simp only [vectorParts, wrapped, keys_names]
    | ua v =>
      refine ⟨_, _, fun _ => .ua v, ?_, fun c hc => lookup_names hc, fun c hc => rfl,
        fun c => Or.inl (by rw [hy c])⟩
      simp only [vectorParts, wrapped, keys_names]
  | num _ =>
    cases b with
    | func _ _ => exact hy.elim
    | vec cls'' ds =>
      obtain ⟨rfl, rfl⟩ := hy
      refine ⟨_, _, q, ?_, fun c hc => (congrArg Except.ok (hx c)).symm, fun c hc => lookup_names hc,
        fun _ => Or.inl rfl⟩
      simp only [vectorParts, wrapped, keys_names]
    | num v => exact (hv.elim id id).elim
    | sa v => exact (hv.elim id id).elim
    | ua v => exact (hv.elim id id).elim
  | sa _ =>
    cases b with
    | func _ _ => exact hy.elim
    | vec cls'' ds =>
      obtain ⟨rfl, rfl⟩ := hy
      refine ⟨_, _, q, ?_, fun c hc => (congrArg Except.ok (hx c)).symm, fun c hc => lookup_names hc,
        fun _ => Or.inl rfl⟩
      simp only [vectorParts, wrapped, keys_names]
    | num v => exact (hv.elim id id).elim
    | sa v => exact (hv.elim id id).elim
    | ua v => exact (hv.elim id id).elim
  | ua _ =>
    cases b with
    | func _ _ => exact hy.elim
    | vec cls'' ds =>
      obtain ⟨rfl, rfl⟩ := hy
      refine ⟨_, _, q, ?_, fun c hc => (congrArg Except.ok (hx c)).symm, fun c hc => lookup_names hc,
        fun _ => Or.inl rfl⟩
      simp only [vectorParts, wrapped, keys_names]
    | num v => exact (hv.elim id id).elim
    | sa v => exact (hv.elim id id).elim
    | ua v => exact (hv.elim id id).elim

theorem aux_vector {cls : String} {names : List String} {p : String → Arr α} {q : String → Arr γ} {a : Arr α}
    {b : Arr γ} (hx : Parts cls names p a) (hy : Parts cls names q b) (hv : a.isVector ∨ b.isVector)
    (hd : names.Nodup) (n : Nat) :
    (∀ v, asarrayAux swap g (n + 1) a b = .ok v → ∃ r : String → Arr β, v = vector cls names r ∧
      ∀ c ∈ names, asarrayAux swap g n (p c) (q c) = .ok (r c)) ∧
    (∀ r : String → Arr β, (∀ c ∈ names, asarrayAux swap g n (p c) (q c) = .ok (r c)) →
      asarrayAux swap g (n + 1) a b = .ok (vector cls names r)) ∧
    ∀ e, asarrayAux swap g (n + 1) a b = .error e →
      ∃ c ∈ names, asarrayAux swap g n (p c) (q c) = .error e := by
  obtain ⟨pa, pl, q', k1, k2, k3, k4⟩ := vectorParts_of hx hy hv
  have hq : ∀ c, asarrayAux swap g n (p c) (q' c) = asarrayAux swap g n (p c) (q c) := by
    intro c
    rcases k4 c with h | h
    · rw [h]
    · rw [h, aux_wrapped]
  have hu : asarrayAux swap g (n + 1) a b =
      (convertParts (asarrayAux swap g n) pa pl names).map (Arr.vec cls) := by
    refine aux_eq swap g n .vector ?_ (fun m hm => ?_) ?_
    · simp only [attempt, k1]
      cases convertParts (asarrayAux swap g n) pa pl names <;> rfl
    · have hs : m = .scalar ∨ m = .uncertain → attempt g (asarrayAux swap g n) m a b.wrapped = .ok none := by
        have hn : a.isVector ∨ b.wrapped.isVector := hv.imp id isVector_wrapped.2
        rintro (rfl | rfl)
        · exact attempt_scalar_none g (hn.imp (fun h => (vector_none h).1) (fun h => (vector_none h).1))
        · exact attempt_uncertain_none g (hn.imp (fun h => (vector_none h).2.1) (fun h => (vector_none h).2.1))
      have hw : ∀ {m}, b.wrapped.method = some m → m = .vector ∨ (m = .scalar ∨ m = .uncertain) := by
        intro m hm
        cases b with
        | num v => cases hm; simp
        | sa v => cases hm; simp
        | ua u => cases hm; simp
        | vec _ _ => cases hm; simp
        | func _ _ => exact hy.elim
      rcases hm with hm | hm
      · exact (parts_method hx hm).imp id hs
      · exact (hw hm).imp id hs
    · exact hv.imp (fun h => (vector_none h).2.2) (fun h => (vector_none (isVector_wrapped.2 h)).2.2)
  obtain ⟨c1, c2, c3⟩ := convertParts_ok (op := asarrayAux swap g n) names k2 k3
  rw [hu]
  refine ⟨fun v h => ?_, fun r hr => ?_, fun e h => ?_⟩
  · cases hc : convertParts (asarrayAux swap g n) pa pl names with
    | error e => rw [hc] at h; cases h
    | ok rs =>
      rw [hc] at h
      cases h
      obtain ⟨r, hr⟩ := c1 rs hc
      obtain ⟨rfl, hr'⟩ := hr hd
      exact ⟨r, rfl, fun c hc => by rw [← hq c]; exact hr' c hc⟩
  · rw [c2 r (fun c hc => by rw [hq c]; exact hr c hc)]
    rfl
  · cases hc : convertParts (asarrayAux swap g n) pa pl names with
    | error e' =>
      rw [hc] at h; cases h
      obtain ⟨c, h1, h2⟩ := c3 _ hc
      exact ⟨c, h1, by rw [← hq c]; exact h2⟩
    | ok rs => rw [hc] at h; cases h

theorem halves_of {i o a : Arr α} (h : Halves i o a) : a.inputs = i ∧ a.outputs = o := by
  cases a <;> exact ⟨h.1.symm, h.2.symm⟩

theorem isFunction_wrapped {b : Arr γ} : b.wrapped.isFunction ↔ b.isFunction := by cases b <;> rfl

theorem function_none {a : Arr α} (h : a.isFunction) :
    a.scalarPart = none ∧ a.uncertainParts = none ∧ a.method = some .function := by
  cases a <;> first | exact h.elim | exact ⟨rfl, rfl, rfl⟩

theorem vectorParts_none {a : Arr α} {b : Arr γ} (h : a.isFunction ∨ b.isFunction) :
    vectorParts a b = none := by
  cases a <;> cases b <;> first | rfl | exact (h.elim id id).elim

theorem halves_wrapped {i o b : Arr γ} (h : Halves i o b) :
    (b.wrapped.inputs = i ∨ b.wrapped.inputs = i.wrapped) ∧
      (b.wrapped.outputs = o ∨ b.wrapped.outputs = o.wrapped) := by
  cases b with
  | num _ => obtain ⟨rfl, rfl⟩ := h; exact ⟨Or.inr rfl, Or.inr rfl⟩
  | sa _ => obtain ⟨rfl, rfl⟩ := h; exact ⟨Or.inl rfl, Or.inl rfl⟩
  | ua _ => obtain ⟨rfl, rfl⟩ := h; exact ⟨Or.inl rfl, Or.inl rfl⟩
  | vec _ _ => obtain ⟨rfl, rfl⟩ := h; exact ⟨Or.inl rfl, Or.inl rfl⟩
  | func _ _ => obtain ⟨rfl, rfl⟩ := h; exact ⟨Or.inl rfl, Or.inl rfl⟩

theorem aux_function {a : Arr α} {b : Arr γ} {i o : Arr α} {i' o' : Arr γ} (hx : Halves i o a)
    (hy : Halves i' o' b) (hf : a.isFunction ∨ b.isFunction) (n : Nat) :
    asarrayAux swap g (n + 1) a b =
      (do
        let ri ← asarrayAux swap g n i i'
        let ro ← asarrayAux swap g n o o'
        .ok (.func ri ro)) := by
  have hf' : a.isFunction ∨ b.wrapped.isFunction := hf.imp id isFunction_wrapped.2
  refine aux_eq swap g n .function ?_ (fun m hm => ?_) ?_
  · obtain ⟨k1, k2⟩ := halves_of hx
    obtain ⟨l1, l2⟩ := halves_wrapped hy
    have e1 : asarrayAux swap g n i b.wrapped.inputs = asarrayAux swap g n i i' := by
      rcases l1 with h | h <;> rw [h]
      exact aux_wrapped swap g n i i'
    have e2 : asarrayAux swap g n o b.wrapped.outputs = asarrayAux swap g n o o' := by
      rcases l2 with h | h <;> rw [h]
      exact aux_wrapped swap g n o o'
    simp only [attempt, k1, k2, e1, e2]
    cases asarrayAux swap g n i i' with
    | error e => rfl
    | ok r => cases asarrayAux swap g n o o' <;> rfl
  · cases m with
    | function => exact Or.inl rfl
    | scalar => exact Or.inr (attempt_scalar_none g (hf'.imp (fun h => (function_none h).1)
        (fun h => (function_none h).1)))
    | uncertain => exact Or.inr (attempt_uncertain_none g (hf'.imp (fun h => (function_none h).2.1)
        (fun h => (function_none h).2.1)))
    | vector => exact Or.inr (by simp only [attempt, vectorParts_none hf'])
  · exact hf'.imp (fun h => (function_none h).2.2) (fun h => (function_none h).2.2)

theorem aux_clash {cls cls' : String} {cs : List (String × Arr α)} {ds : List (String × Arr γ)}
    (h : cls ≠ cls') (n : Nat) : asarrayAux swap g (n + 1) (.vec cls cs) (.vec cls' ds) = .error .typeError := by
  have hv : attempt g (asarrayAux swap g n) .vector (.vec cls cs) (.vec cls' ds) = .ok none := by
    simp only [attempt, vectorParts, if_neg h]
  show dispatch (fun m => attempt g (asarrayAux swap g n) m (.vec cls cs) (.vec cls' ds)) (order _ _ _) = _
  generalize swap (.vec cls cs) (Arr.vec cls' ds).wrapped = s
  cases s <;> simp [order, method, wrapped, dispatch, hv] <;> rfl

/-! ### All types together -/

/-- The types of two values: which constructor of the specification applies. -/
theorem classify {L : String → List String} {a : Arr α} {b : Arr γ} (ha : Proper L a) (hb : Proper L b) :
    (∃ x y, IsScalar x a ∧ IsScalar y b) ∨
    (∃ n d n' d', IsPair n d a ∧ IsPair n' d' b ∧ (a.isUncertain ∨ b.isUncertain)) ∨
    (∃ cls names p q, Parts cls names p a ∧ Parts cls names q b ∧ (a.isVector ∨ b.isVector)) ∨
    (∃ i o i' o', Halves i o a ∧ Halves i' o' b ∧ (a.isFunction ∨ b.isFunction)) ∨
    ∃ cls cls' cs ds, a = .vec cls cs ∧ b = .vec cls' ds ∧ cls ≠ cls' := by
  have hH : ∀ {δ : Type} (v : Arr δ), ∃ i o, Halves i o v := by
    intro δ v
    cases v with
    | func i o => exact ⟨i, o, rfl, rfl⟩
    | num _ => exact ⟨_, _, rfl, rfl⟩
    | sa _ => exact ⟨_, _, rfl, rfl⟩
    | ua _ => exact ⟨_, _, rfl, rfl⟩
    | vec _ _ => exact ⟨_, _, rfl, rfl⟩
  by_cases hf : a.isFunction ∨ b.isFunction
  · obtain ⟨i, o, h1⟩ := hH a
    obtain ⟨i', o', h2⟩ := hH b
    exact Or.inr (Or.inr (Or.inr (Or.inl ⟨i, o, i', o', h1, h2, hf⟩)))
  obtain ⟨hf1, hf2⟩ := not_or.1 hf
  have hV : ∀ {δ : Type} {v : Arr δ}, ¬ v.isFunction → ¬ v.isVector → ∀ cls names, Parts cls names (fun _ => v) v := by
    intro δ v h1 h2 cls names
    cases v with
    | func i o => exact absurd trivial h1
    | vec _ _ => exact absurd trivial h2
    | num _ => exact fun _ => rfl
    | sa _ => exact fun _ => rfl
    | ua _ => exact fun _ => rfl
  by_cases hv : a.isVector ∨ b.isVector
  · refine Or.inr (Or.inr ?_)
    by_cases h1 : a.isVector
    · cases a with
      | vec cls cs =>
        obtain ⟨p, rfl, hd, hp⟩ := proper_vec ha
        by_cases h2 : b.isVector
        · cases b with
          | vec cls' ds =>
            obtain ⟨q, rfl, hd', hq⟩ := proper_vec hb
            by_cases hc : cls = cls'
            · subst hc
              exact Or.inl ⟨cls, L cls, p, q, ⟨rfl, rfl⟩, ⟨rfl, rfl⟩, hv⟩
            · exact Or.inr (Or.inr ⟨_, _, _, _, rfl, rfl, hc⟩)
          | num _ => exact h2.elim
          | sa _ => exact h2.elim
          | ua _ => exact h2.elim
          | func _ _ => exact h2.elim
        · exact Or.inl ⟨cls, L cls, p, fun _ => b, ⟨rfl, rfl⟩, hV hf2 h2 _ _, hv⟩
      | num _ => exact h1.elim
      | sa _ => exact h1.elim
      | ua _ => exact h1.elim
      | func _ _ => exact h1.elim
    · have h2 := hv.resolve_left h1
      cases b with
      | vec cls' ds =>
        obtain ⟨q, rfl, hd', hq⟩ := proper_vec hb
        exact Or.inl ⟨cls', L cls', fun _ => a, q, hV hf1 h1 _ _, ⟨rfl, rfl⟩, hv⟩
      | num _ => exact h2.elim
      | sa _ => exact h2.elim
      | ua _ => exact h2.elim
      | func _ _ => exact h2.elim
  obtain ⟨hv1, hv2⟩ := not_or.1 hv
  have hP : ∀ {δ : Type} {v : Arr δ}, ¬ v.isFunction → ¬ v.isVector → ∃ n d, IsPair n d v := by
    intro δ v h1 h2
    cases v with
    | func i o => exact absurd trivial h1
    | vec _ _ => exact absurd trivial h2
    | num _ => exact ⟨_, _, rfl, rfl⟩
    | sa _ => exact ⟨_, _, rfl, rfl⟩
    | ua _ => exact ⟨_, _, rfl, rfl⟩
  by_cases hu : a.isUncertain ∨ b.isUncertain
  · obtain ⟨n, d, h1⟩ := hP hf1 hv1
    obtain ⟨n', d', h2⟩ := hP hf2 hv2
    exact Or.inr (Or.inl ⟨n, d, n', d', h1, h2, hu⟩)
  obtain ⟨hu1, hu2⟩ := not_or.1 hu
  have hS : ∀ {δ : Type} {v : Arr δ}, ¬ v.isFunction → ¬ v.isVector → ¬ v.isUncertain → ∃ x, IsScalar x v := by
    intro δ v h1 h2 h3
    cases v with
    | func i o => exact absurd trivial h1
    | vec _ _ => exact absurd trivial h2
    | num _ => exact ⟨_, rfl⟩
    | sa _ => exact ⟨_, rfl⟩
    | ua _ => exact absurd trivial h3
  obtain ⟨x, h1⟩ := hS hf1 hv1 hu1
  obtain ⟨y, h2⟩ := hS hf2 hv2 hu2
  exact Or.inl ⟨x, y, h1, h2⟩

theorem uncertain_depth {a : Arr α} (h : a.isUncertain) : a.depth = 1 := by
  cases a <;> first | exact h.elim | rfl

theorem main (L : String → List String) (n : Nat) (a : Arr α) (b : Arr γ) (ha : Proper L a) (hb : Proper L b)
    (hn : a.depth + b.depth + 1 ≤ n) :
    (∀ r, asarrayAux swap g n a b = .ok r ↔ Converts g a b r) ∧
    ∀ e, asarrayAux swap g n a b = .error e → e = .typeError := by
  induction n generalizing a b with
  | zero => omega
  | succ n ih =>
    have back : ∀ r, Converts g a b r → asarrayAux swap g (n + 1) a b = .ok r := by
      intro r hr
      cases hr with
      | scalar hx hy h =>
        rw [isMap_unique h]
        exact aux_scalar swap g hx hy (proper_scalar hx ha).1 n
      | uncertain hx hy hu h1 h2 =>
        obtain ⟨n, rfl⟩ : ∃ k, n = k + 1 := by
          refine ⟨n - 1, ?_⟩
          rcases hu with hu | hu <;> have := uncertain_depth hu <;> omega
        obtain ⟨k1, k2, k3⟩ := proper_pair hx ha
        rw [aux_uncertain swap g hx hy hu k1 k2 k3 n, ← isMap_unique h1, ← isMap_unique h2]
      | @vector _ _ cls names p q r hx hy hv h =>
        have hd : names.Nodup := hv.elim (fun h => ((proper_parts hx ha).2 h).2)
          (fun h => ((proper_parts hy hb).2 h).2)
        refine (aux_vector swap g hx hy hv hd n).2.1 r (fun c hc => ?_)
        have d1 := parts_depth hx hc
        have d2 := parts_depth hy hc
        refine ((ih (p c) (q c) ((proper_parts hx ha).1 c hc) ((proper_parts hy hb).1 c hc) ?_).1 _).2 (h c hc)
        rcases hv with hv | hv
        · have := d1.2 hv; omega
        · have := d2.2 hv; omega
      | @function _ _ i o i' o' ri ro hx hy hf hi ho =>
        have d1 := halves_depth hx
        have d2 := halves_depth hy
        have p1 := proper_halves hx ha
        have p2 := proper_halves hy hb
        rw [aux_function swap g hx hy hf n,
          ((ih i i' p1.1 p2.1 (by rcases hf with hf | hf <;> [have := d1.2.2 hf; have := d2.2.2 hf] <;> omega)).1
            _).2 hi,
          ((ih o o' p1.2 p2.2 (by rcases hf with hf | hf <;> [have := d1.2.2 hf; have := d2.2.2 hf] <;> omega)).1
            _).2 ho]
        rfl
    rcases classify ha hb with ⟨x, y, hx, hy⟩ | ⟨n1, d1, n2, d2, hx, hy, hu⟩ | ⟨cls, names, p, q, hx, hy, hv⟩ |
      ⟨i, o, i', o', hx, hy, hf⟩ | ⟨cls, cls', cs, ds, rfl, rfl, hne⟩
    · have h0 := aux_scalar swap g hx hy (proper_scalar hx ha).1 n
      refine ⟨fun r => ⟨fun h => ?_, back r⟩, fun e h => ?_⟩
      · rw [h0] at h; cases h
        exact .scalar hx hy (isMap_mapSA g x)
      · rw [h0] at h; cases h
    · obtain ⟨n, rfl⟩ : ∃ k, n = k + 1 := by
        refine ⟨n - 1, ?_⟩
        rcases hu with hu | hu <;> have := uncertain_depth hu <;> omega
      obtain ⟨k1, k2, k3⟩ := proper_pair hx ha
      have h0 := aux_uncertain swap g hx hy hu k1 k2 k3 n
      refine ⟨fun r => ⟨fun h => ?_, back r⟩, fun e h => ?_⟩
      · rw [h0] at h; cases h
        exact .uncertain hx hy hu (isMap_mapSA g _) (isMap_mapSA g _)
      · rw [h0] at h; cases h
    · have hd : names.Nodup := hv.elim (fun h => ((proper_parts hx ha).2 h).2)
        (fun h => ((proper_parts hy hb).2 h).2)
      have hi : ∀ c ∈ names, _ := fun c hc =>
        ih (p c) (q c) ((proper_parts hx ha).1 c hc) ((proper_parts hy hb).1 c hc) (by
          have d1 := parts_depth hx hc
          have d2 := parts_depth hy hc
          rcases hv with hv | hv
          · have := d1.2 hv; omega
          · have := d2.2 hv; omega)
      obtain ⟨v1, _, v3⟩ := aux_vector swap g hx hy hv hd n
      refine ⟨fun r => ⟨fun h => ?_, back r⟩, fun e h => ?_⟩
      · obtain ⟨r, rfl, hr⟩ := v1 r h
        exact .vector hx hy hv (fun c hc => ((hi c hc).1 _).1 (hr c hc))
      · obtain ⟨c, hc, he⟩ := v3 e h
        exact (hi c hc).2 e he
    · have d1 := halves_depth hx
      have d2 := halves_depth hy
      have p1 := proper_halves hx ha
      have p2 := proper_halves hy hb
      have hi := ih i i' p1.1 p2.1 (by rcases hf with hf | hf <;> [have := d1.2.2 hf; have := d2.2.2 hf] <;> omega)
      have ho := ih o o' p1.2 p2.2 (by rcases hf with hf | hf <;> [have := d1.2.2 hf; have := d2.2.2 hf] <;> omega)
      have h0 := aux_function swap g hx hy hf n
      cases e1 : asarrayAux swap g n i i' with
      | error e =>
        have h0' : asarrayAux swap g (n + 1) a b = .error e := by rw [h0, e1]; rfl
        refine ⟨fun r => ⟨fun h => ?_, back r⟩, fun e h => ?_⟩
        · rw [h0'] at h; cases h
        · rw [h0'] at h; cases h; exact hi.2 _ e1
      | ok ri =>
        cases e2 : asarrayAux swap g n o o' with
        | error e =>
          have h0' : asarrayAux swap g (n + 1) a b = .error e := by rw [h0, e1, e2]; rfl
          refine ⟨fun r => ⟨fun h => ?_, back r⟩, fun e h => ?_⟩
          · rw [h0'] at h; cases h
          · rw [h0'] at h; cases h; exact ho.2 _ e2
        | ok ro =>
          have h0' : asarrayAux swap g (n + 1) a b = .ok (.func ri ro) := by rw [h0, e1, e2]; rfl
          refine ⟨fun r => ⟨fun h => ?_, back r⟩, fun e h => ?_⟩
          · rw [h0'] at h; cases h
            exact .function hx hy hf ((hi.1 _).1 e1) ((ho.1 _).1 e2)
          · rw [h0'] at h; cases h
    · have h0 := aux_clash swap g (cs := cs) (ds := ds) hne n
      refine ⟨fun r => ⟨fun h => ?_, back r⟩, fun e h => ?_⟩
      · rw [h0] at h; cases h
      · rw [h0] at h; cases h; rfl

theorem proper_converts {g : α → β} {L : String → List String} {a : Arr α} {b : Arr γ} {r : Arr β}
    (h : Converts g a b r) (ha : Proper L a) (hb : Proper L b) : Proper L r := by
  induction h with
  | scalar hx hy h =>
    obtain ⟨h1, h2⟩ := proper_scalar hx ha
    exact .sa (wf_isMap h1 h) (by rw [h.1]; exact h2)
  | uncertain hx hy hu hn hd =>
    obtain ⟨h1, h2, h3⟩ := proper_pair hx ha
    exact .ua ⟨wf_isMap h1 hn, wf_isMap h3 hd, by rw [hn.1]; exact h2⟩
  | @vector a b cls names p q r hx hy hv h ih =>
    have hn : names = L cls ∧ names.Nodup := hv.elim (fun h => (proper_parts hx ha).2 h)
      (fun h => (proper_parts hy hb).2 h)
    obtain ⟨rfl, hd⟩ := hn
    exact .vec hd (fun c hc => ih c hc ((proper_parts hx ha).1 c hc) ((proper_parts hy hb).1 c hc))
  | function hx hy hf hi ho ih1 ih2 =>
    have p1 := proper_halves hx ha
    have p2 := proper_halves hy hb
    exact .func (ih1 p1.1 p2.1) (ih2 p1.2 p2.2)

theorem swap_converts {g : α → β} {a : Arr α} {b : Arr γ} {r : Arr β} (h : Converts g a b r) (g' : γ → δ) :
    ∃ r' : Arr δ, Converts g' b a r' ∧ SameKind r r' := by
  induction h with
  | @scalar a b x y r hx hy h =>
    exact ⟨_, .scalar hy hx (isMap_mapSA g' y), .scalar (x := r) (y := mapSA g' y) rfl rfl⟩
  | @uncertain a b n d n' d' r hx hy hu hn hd =>
    exact ⟨.ua ⟨mapSA g' n', mapSA g' d'⟩, .uncertain hy hx hu.symm (isMap_mapSA g' _) (isMap_mapSA g' _),
      .uncertain _ _⟩
  | @vector a b cls names p q r hx hy hv h ih =>
    have hw : ∀ c, ∃ r' : Arr δ, c ∈ names → Converts g' (q c) (p c) r' ∧ SameKind (r c) r' := by
      intro c
      by_cases hc : c ∈ names
      · obtain ⟨r', h'⟩ := ih c hc
        exact ⟨r', fun _ => h'⟩
      · exact ⟨.vec "" [], fun h => absurd h hc⟩
    choose r' hr' using hw
    exact ⟨vector cls names r', .vector hy hx hv.symm (fun c hc => (hr' c hc).1),
      .vector (fun c hc => (hr' c hc).2)⟩
  | @function a b i o i' o' ri ro hx hy hf hi ho ih1 ih2 =>
    obtain ⟨r1, h1, k1⟩ := ih1
    obtain ⟨r2, h2, k2⟩ := ih2
    exact ⟨.func r1 r2, .function hy hx hf.symm h1 h2, .function k1 k2⟩

theorem isMap_id (x : SA α) : IsMap id x x := ⟨rfl, rfl, fun _ => rfl⟩

theorem absorb_right {g : α → β} {a : Arr α} {b : Arr γ} {r : Arr β} (h : Converts g a b r) :
    Converts id r b r := by
  induction h with
  | scalar hx hy h => exact .scalar (x := _) rfl hy (isMap_id _)
  | uncertain hx hy hu hn hd => exact .uncertain ⟨rfl, rfl⟩ hy (Or.inl trivial) (isMap_id _) (isMap_id _)
  | vector hx hy hv h ih => exact .vector ⟨rfl, rfl⟩ hy (Or.inl trivial) ih
  | function hx hy hf hi ho ih1 ih2 => exact .function ⟨rfl, rfl⟩ hy (Or.inl trivial) ih1 ih2

theorem absorb_left {g : α → β} {a : Arr α} {b : Arr γ} {r : Arr β} (h : Converts g a b r) :
    Converts id r a r := by
  induction h with
  | scalar hx hy h => exact .scalar (x := _) rfl hx (isMap_id _)
  | uncertain hx hy hu hn hd => exact .uncertain ⟨rfl, rfl⟩ hx (Or.inl trivial) (isMap_id _) (isMap_id _)
  | vector hx hy hv h ih => exact .vector ⟨rfl, rfl⟩ hx (Or.inl trivial) ih
  | function hx hy hf hi ho ih1 ih2 => exact .function ⟨rfl, rfl⟩ hx (Or.inl trivial) ih1 ih2

/-- Every array can be converted to the type of a scalar, which changes nothing about its type. -/
theorem converts_scalar {L : String → List String} (g : α → β) {a : Arr α} (ha : Proper L a) (y : SA γ) :
    ∃ r : Arr β, Converts g a (.sa y) r ∧ SameKind r a := by
  induction ha with
  | num x => exact ⟨_, .scalar (x := SA.scalar x) (y := y) rfl rfl (isMap_mapSA g _),
      .scalar (x := mapSA g (SA.scalar x)) (y := SA.scalar x) rfl rfl⟩
  | @sa a h hd => exact ⟨_, .scalar (x := a) (y := y) rfl rfl (isMap_mapSA g _),
      .scalar (x := mapSA g a) (y := a) rfl rfl⟩
  | @ua u h => exact ⟨.ua ⟨mapSA g u.nominal, mapSA g u.distribution⟩,
      .uncertain (n' := y) (d' := y) ⟨rfl, rfl⟩ ⟨rfl, rfl⟩ (Or.inl trivial) (isMap_mapSA g _) (isMap_mapSA g _),
      .uncertain _ _⟩
  | @vec cls p hd h ih =>
    have hw : ∀ c, ∃ r' : Arr β, c ∈ L cls → Converts g (p c) (.sa y) r' ∧ SameKind r' (p c) := by
      intro c
      by_cases hc : c ∈ L cls
      · obtain ⟨r', h'⟩ := ih c hc
        exact ⟨r', fun _ => h'⟩
      · exact ⟨.vec "" [], fun h => absurd h hc⟩
    choose r' hr' using hw
    exact ⟨vector cls (L cls) r', .vector ⟨rfl, rfl⟩ (q := fun _ => .sa y) (fun _ => rfl) (Or.inl trivial)
      (fun c hc => (hr' c hc).1), .vector (fun c hc => (hr' c hc).2)⟩
  | @func i o hi ho ih1 ih2 =>
    obtain ⟨r1, h1, k1⟩ := ih1
    obtain ⟨r2, h2, k2⟩ := ih2
    exact ⟨.func r1 r2, .function ⟨rfl, rfl⟩ ⟨rfl, rfl⟩ (Or.inl trivial) h1 h2, .function k1 k2⟩

theorem nominals_names (p : String → Arr α) (names : List String) :
    nominals (names.map (fun c => (c, p c))) = names.map (fun c => (c, (p c).nominal)) := by
  induction names with
  | nil => rfl
  | cons c names ih => simp only [List.map_cons, nominals, ih]

theorem nominal_scalar {x : SA α} {a : Arr α} (h : IsScalar x a) : IsScalar x a.nominal := by
  cases a <;> first | exact h.elim | (simp only [nominal]; exact h)

theorem nominal_pair {n d : SA α} {a : Arr α} (h : IsPair n d a) : IsScalar n a.nominal := by
  cases a with
  | num _ => simp only [nominal]; exact h.1
  | sa _ => simp only [nominal]; exact h.1
  | ua u => simp only [nominal]; exact h.1
  | vec _ _ => exact h.1.elim
  | func _ _ => exact h.1.elim

theorem nominal_parts {cls : String} {names : List String} {p : String → Arr α} {a : Arr α}
    (h : Parts cls names p a) : Parts cls names (fun c => (p c).nominal) a.nominal ∧
      (a.isVector → a.nominal.isVector) := by
  cases a with
  | vec cls' cs =>
    obtain ⟨rfl, rfl⟩ := h
    simp only [nominal, nominals_names]
    exact ⟨⟨rfl, rfl⟩, fun _ => trivial⟩
  | func _ _ => exact h.elim
  | num _ =>
    refine ⟨?_, fun h => h.elim⟩
    simp only [nominal]
    exact fun c => by simp only [h c, nominal]
  | sa _ =>
    refine ⟨?_, fun h => h.elim⟩
    simp only [nominal]
    exact fun c => by simp only [h c, nominal]
  | ua _ =>
    refine ⟨?_, fun h => h.elim⟩
    simp only [nominal]
    exact fun c => by simp only [h c, nominal]

theorem nominal_halves {i o a : Arr α} (h : Halves i o a) :
    Halves i.nominal o.nominal a.nominal ∧ (a.isFunction → a.nominal.isFunction) := by
  cases a with
  | func _ _ =>
    obtain ⟨rfl, rfl⟩ := h
    simp only [nominal]
    exact ⟨⟨rfl, rfl⟩, fun _ => trivial⟩
  | num _ => obtain ⟨rfl, rfl⟩ := h; simp only [nominal]; exact ⟨⟨rfl, rfl⟩, fun h => h.elim⟩
  | sa _ => obtain ⟨rfl, rfl⟩ := h; simp only [nominal]; exact ⟨⟨rfl, rfl⟩, fun h => h.elim⟩
  | ua _ => obtain ⟨rfl, rfl⟩ := h; simp only [nominal]; exact ⟨⟨rfl, rfl⟩, fun h => h.elim⟩
  | vec _ _ => obtain ⟨rfl, rfl⟩ := h; simp only [nominal]; exact ⟨⟨rfl, rfl⟩, fun h => h.elim⟩

theorem nominal_converts {g : α → β} {a : Arr α} {b : Arr γ} {r : Arr β} (h : Converts g a b r) :
    Converts g a.nominal b.nominal r.nominal := by
  induction h with
  | scalar hx hy h =>
    simp only [nominal]
    exact .scalar (nominal_scalar hx) (nominal_scalar hy) h
  | uncertain hx hy hu hn hd =>
    simp only [nominal]
    exact .scalar (nominal_pair hx) (nominal_pair hy) hn
  | vector hx hy hv h ih =>
    simp only [vector, nominal, nominals_names]
    exact .vector (nominal_parts hx).1 (nominal_parts hy).1 (hv.imp (nominal_parts hx).2 (nominal_parts hy).2) ih
  | function hx hy hf hi ho ih1 ih2 =>
    simp only [nominal]
    exact .function (nominal_halves hx).1 (nominal_halves hy).1
      (hf.imp (nominal_halves hx).2 (nominal_halves hy).2) ih1 ih2

theorem nominal_proper {L : String → List String} {a : Arr α} (h : Proper L a) : Proper L a.nominal := by
  induction h with
  | num x => simp only [nominal]; exact .num x
  | sa h hd => simp only [nominal]; exact .sa h hd
  | ua h => simp only [nominal]; exact .sa h.1 h.2.2
  | @vec cls p hd h ih =>
    simp only [vector, nominal, nominals_names]
    exact .vec hd ih
  | func hi ho ih1 ih2 => simp only [nominal]; exact .func ih1 ih2

mutual
theorem nominal_certain : (a : Arr α) → Certain a.nominal
  | .num x => by simp only [nominal]; exact .num x
  | .sa a => by simp only [nominal]; exact .sa a
  | .ua u => by simp only [nominal]; exact .sa u.nominal
  | .vec cls cs => by simp only [nominal]; exact .vec (nominals_certain cs)
  | .func i o => by simp only [nominal]; exact .func (nominal_certain i) (nominal_certain o)
theorem nominals_certain : (cs : List (String × Arr α)) → ∀ p ∈ nominals cs, Certain p.2
  | [] => by simp [nominals]
  | (c, v) :: cs => by
    intro p hp
    simp only [nominals, List.mem_cons] at hp
    rcases hp with rfl | hp
    · exact nominal_certain v
    · exact nominals_certain cs p hp
end

mutual
theorem nominal_of_certain : (a : Arr α) → Certain a → a.nominal = a
  | .num x, _ => by simp only [nominal]
  | .sa a, _ => by simp only [nominal]
  | .ua u, h => by cases h
  | .vec cls cs, h => by
    cases h with
    | vec h => simp only [nominal, nominals_of_certain cs h]
  | .func i o, h => by
    cases h with
    | func hi ho => simp only [nominal, nominal_of_certain i hi, nominal_of_certain o ho]
theorem nominals_of_certain : (cs : List (String × Arr α)) → (∀ p ∈ cs, Certain p.2) → nominals cs = cs
  | [], _ => by simp [nominals]
  | (c, v) :: cs, h => by
    simp only [nominals]
    rw [nominal_of_certain v (h (c, v) List.mem_cons_self),
      nominals_of_certain cs (fun p hp => h p (List.mem_cons_of_mem _ hp))]
end

theorem fill_names {a : Arr α} (p : String → Arr γ) (r : String → Arr α) (names : List String)
    (h : ∀ c ∈ names, fromScalarArray a (p c) = .ok (r c)) :
    fromScalarArrays a (names.map (fun c => (c, p c))) = .ok (names.map (fun c => (c, r c))) := by
  induction names with
  | nil => rfl
  | cons c names ih =>
    simp only [List.map_cons, fromScalarArrays, h c List.mem_cons_self,
      ih (fun c hc => h c (List.mem_cons_of_mem _ hc))]
    rfl

theorem fill_main {L : String → List String} {x : SA α} {a : Arr α} (hx : IsScalar x a) {b : Arr γ}
    (hb : Proper L b) : ∃ r, fromScalarArray a b = .ok r ∧ Filled x r ∧ SameKind r b := by
  induction hb with
  | num y => exact ⟨a, by simp only [fromScalarArray], .scalar hx, .scalar (y := SA.scalar y) hx rfl⟩
  | @sa y h hd =>
    refine ⟨.sa x, ?_, .scalar rfl, .scalar (x := x) (y := y) rfl rfl⟩
    cases a <;> first | exact hx.elim | (cases hx; simp only [fromScalarArray])
  | @ua u h =>
    refine ⟨.ua ⟨x, x⟩, ?_, .uncertain, .uncertain _ _⟩
    cases a <;> first | exact hx.elim | (cases hx; simp only [fromScalarArray])
  | @vec cls p hd h ih =>
    have hw : ∀ c, ∃ r' : Arr α, c ∈ L cls → fromScalarArray a (p c) = .ok r' ∧ Filled x r' ∧
        SameKind r' (p c) := by
      intro c
      by_cases hc : c ∈ L cls
      · obtain ⟨r', h'⟩ := ih c hc
        exact ⟨r', fun _ => h'⟩
      · exact ⟨.vec "" [], fun h => absurd h hc⟩
    choose r' hr' using hw
    refine ⟨vector cls (L cls) r', ?_, .vector (fun c hc => (hr' c hc).2.1), .vector (fun c hc => (hr' c hc).2.2)⟩
    simp only [vector, fromScalarArray, fill_names p r' (L cls) (fun c hc => (hr' c hc).1)]
    rfl
  | @func i o hi ho ih1 ih2 =>
    obtain ⟨r1, h1, k1, l1⟩ := ih1
    obtain ⟨r2, h2, k2, l2⟩ := ih2
    refine ⟨.func r1 r2, ?_, .function k1 k2, .function l1 l2⟩
    simp only [fromScalarArray, h1, h2]
    rfl

theorem scalarLike_ok (z : β) (shape : Option Shape) (a : SA α) (h : WF (shape.getD a.shape)) :
    ∃ r, scalarLike z shape a = .ok r ∧ IsConst z (shape.getD a.shape) r := by
  unfold scalarLike
  have hl : (⟨values (shape.getD a.shape), fun _ => z⟩ : ND β).ndim = (keys (shape.getD a.shape)).length := by
    simp [ND.ndim, values, keys]
  refine ⟨_, SA.mk?_of_wf hl h, ⟨hl, h⟩, ?_, fun _ => rfl⟩
  exact SA.shape_of_mk h rfl

theorem create_names (z : β) (shape : Option Shape) (p : String → Arr α) (r : String → Arr β)
    (names : List String) (h : ∀ c ∈ names, createLike z shape (p c) = .ok (r c)) :
    createLikes z shape (names.map (fun c => (c, p c))) = .ok (names.map (fun c => (c, r c))) := by
  induction names with
  | nil => rfl
  | cons c names ih =>
    simp only [List.map_cons, createLikes, h c List.mem_cons_self,
      ih (fun c hc => h c (List.mem_cons_of_mem _ hc))]
    rfl

theorem sampled_names {shape : Option Shape} {cls : String} {p : String → Arr α} {names : List String}
    (h : Sampled shape (vector cls names p)) : ∀ c ∈ names, Sampled shape (p c) := by
  intro c hc
  cases h with
  | vec h => exact h (c, p c) (List.mem_map.2 ⟨c, hc, rfl⟩)

theorem create_main (z : β) (shape : Option Shape) (hw : ∀ s, shape = some s → WF s ∧ axisD ∉ keys s)
    {L : String → List String} {a : Arr α} (ha : Proper L a) (hs : Sampled shape a) :
    ∃ r, createLike z shape a = .ok r ∧ Created z shape a r ∧ SameKind r a := by
  have hwf : ∀ {x : SA α}, x.WF → WF (shape.getD x.shape) := by
    intro x hx
    cases shape with
    | none => exact SA.wf_shape hx
    | some s => exact (hw s rfl).1
  induction ha with
  | num x =>
    obtain ⟨r, h1, h2⟩ := scalarLike_ok z shape (SA.scalar x) (hwf (scalar_fits [] x).1)
    refine ⟨.sa r, ?_, .scalar rfl h2, .scalar (x := r) (y := SA.scalar x) rfl rfl⟩
    simp only [createLike, h1]; rfl
  | @sa a h hd =>
    obtain ⟨r, h1, h2⟩ := scalarLike_ok z shape a (hwf h)
    refine ⟨.sa r, ?_, .scalar rfl h2, .scalar (x := r) (y := a) rfl rfl⟩
    simp only [createLike, h1]; rfl
  | @ua u h =>
    obtain ⟨u1, u2, u3⟩ := h
    cases shape with
    | none =>
      obtain ⟨n, n1, n2⟩ := scalarLike_ok z none u.nominal (hwf u1)
      obtain ⟨d, d1, d2⟩ := scalarLike_ok z none u.distribution (hwf u2)
      have hn : axisD ∉ n.axes := by
        have : n.shape.keys = u.nominal.shape.keys := by rw [n2.2.1]; rfl
        rw [SA.keys_shape n2.1, SA.keys_shape u1] at this
        rw [this]; exact u3
      refine ⟨.ua ⟨n, d⟩, ?_, .own rfl n2 d2, .uncertain _ _⟩
      simp only [createLike, n1]
      show (scalarLike z none u.distribution).bind
        (fun d => (UA.mk? n d).bind (fun r => .ok (Arr.ua r))) = _
      rw [d1]
      show (UA.mk? n d).bind (fun r => .ok (Arr.ua r)) = _
      rw [UA.mk?_of_valid n2.1 hn]; rfl
    | some s =>
      obtain ⟨w1, w2⟩ := hw s rfl
      have hm : axisD ∈ u.distribution.axes := by
        cases hs with
        | ua h => exact h.resolve_left (by simp)
      obtain ⟨k, hk⟩ := exists_get?_of_mem (show axisD ∈ keys u.distribution.shape by
        rw [SA.keys_shape u2]; exact hm)
      have hset : Dict.set s axisD k = s ++ [(axisD, k)] := set_of_not_mem w2
      obtain ⟨n, n1, n2⟩ := scalarLike_ok z (some s) u.nominal w1
      obtain ⟨d, d1, d2⟩ := scalarLike_ok z (some (s.set axisD k)) u.distribution (wf_set w1 axisD k)
      have hn : axisD ∉ n.axes := by
        have : n.shape.keys = keys s := by rw [n2.2.1]; rfl
        rw [SA.keys_shape n2.1] at this
        rw [this]; exact w2
      refine ⟨.ua ⟨n, d⟩, ?_, .given rfl hk n2 (by rw [← hset]; exact d2), .uncertain _ _⟩
      simp only [createLike, hk, n1]
      show (scalarLike z (some (s.set axisD k)) u.distribution).bind
        (fun d => (UA.mk? n d).bind (fun r => .ok (Arr.ua r))) = _
      rw [d1]
      show (UA.mk? n d).bind (fun r => .ok (Arr.ua r)) = _
      rw [UA.mk?_of_valid n2.1 hn]; rfl
  | @vec cls p hd h ih =>
    have hsc := sampled_names hs
    have hwt : ∀ c, ∃ r' : Arr β, c ∈ L cls → createLike z shape (p c) = .ok r' ∧ Created z shape (p c) r' ∧
        SameKind r' (p c) := by
      intro c
      by_cases hc : c ∈ L cls
      · obtain ⟨r', h'⟩ := ih c hc (hsc c hc)
        exact ⟨r', fun _ => h'⟩
      · exact ⟨.vec "" [], fun h => absurd h hc⟩
    choose r' hr' using hwt
    refine ⟨vector cls (L cls) r', ?_, .vector (fun c hc => (hr' c hc).2.1), .vector (fun c hc => (hr' c hc).2.2)⟩
    simp only [vector, createLike, create_names z shape p r' (L cls) (fun c hc => (hr' c hc).1)]
    rfl
  | func hi ho => cases hs

end Arr
end NA
