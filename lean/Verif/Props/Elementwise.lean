import Verif.Scalar.Lemmas
import Verif.Props.Shapes
import Mathlib.Tactic.IntervalCases

/-!
# Properties C06–C10: well-formedness, elementwise operations, alignment

Specification vocabulary (defined in `Verif/Scalar/Basic.lean`): a *named index* is a function
`e : String → Nat`; `a.at' e` is the element of `a` at the named index `e`; `a.atB e` is the same
under the broadcasting convention (0 on singleton axes); `InRange s e` says that `e` is in range
of the shape `s`; `SameByName` compares arrays by names only.
-/

namespace NA
open Dict

namespace SA
variable {α β γ : Type}

/-! ### C06 -/

/-- **C06**. The constructor succeeds exactly for distinct names, one for each dimension, and
otherwise raises `ValueError`. -/
theorem C06_constructor (nd : ND α) (axes : List String) :
    (mk? nd axes = .ok ⟨axes, nd⟩ ∧ nd.shape.length = axes.length ∧ axes.Nodup) ∨
    (mk? nd axes = .error .valueError ∧ ¬ (nd.shape.length = axes.length ∧ axes.Nodup)) := by
  unfold mk?
  by_cases h1 : nd.ndim = axes.length
  · by_cases h2 : axes.Nodup
    · exact .inl ⟨by simp [h1, h2], h1, h2⟩
    · exact .inr ⟨by simp [h1, h2], fun h => h2 h.2⟩
  · exact .inr ⟨by simp [h1], fun h => h1 h.1⟩

example : mk? (ND.ofList [2, 1] [5, 6] 0) ["x", "y"] = .ok ⟨["x", "y"], ND.ofList [2, 1] [5, 6] 0⟩ ∧
    (mk? (ND.ofList [2, 1] [5, 6] 0) ["x", "x"]).isOk = false ∧
    (mk? (ND.ofList [2, 1] [5, 6] 0) ["x"]).isOk = false := by
  refine ⟨mk?_of_wf rfl (by decide), by decide, by decide⟩

/-- **C06** (elementwise operations of any arity return well-formed arrays). -/
theorem C06_ufunc_wf (f : List α → β) (inputs : List (SA α)) (h : ∀ a ∈ inputs, a.WF) (r : SA β)
    (hr : ufuncN f inputs = .ok r) : r.WF := (ufuncN_ok h hr).1

/-! ### C07 -/

/-- **C07** (values). -/
theorem C07_ufunc_values (f : List α → β) (inputs : List (SA α)) (h : ∀ a ∈ inputs, a.WF)
    (r : SA β) (hr : ufuncN f inputs = .ok r) :
    broadcastShapes (inputs.map SA.shape) = .ok r.shape ∧
    ∀ e, InRange r.shape e → r.at' e = f (inputs.map (fun a => a.atB e)) :=
  ⟨(ufuncN_ok h hr).2.1, fun e _ => (ufuncN_ok h hr).2.2 e⟩

/-- The named index which `atB` reads. -/
def clipEnv (s : Shape) (e : String → Nat) : String → Nat :=
  fun ax => if s.get? ax = some 1 then 0 else e ax

/-- An index in range of a broadcast shape is, after clipping, in range of each operand. -/
theorem inRange_clipEnv {ss : List Shape} (hss : ∀ s ∈ ss, Dict.WF s) {t : Shape}
    (h : broadcastShapes ss = .ok t) {s : Shape} (hs : s ∈ ss) {e : String → Nat}
    (he : InRange t e) : InRange s (clipEnv s e) := by
  intro ax m hm
  unfold clipEnv
  obtain ⟨_, h2, h3⟩ := C01_broadcast_shapes_ok ss hss t h
  have hk : ax ∈ keys t := (h2 ax).2 ⟨s, hs, mem_keys_of_get? hm⟩
  obtain ⟨n, hn⟩ := exists_get?_of_mem hk
  rcases (h3 ax n hn).2 m ⟨s, hs, hm⟩ with rfl | rfl
  · split
    · next h1 => rw [hm] at h1; cases h1; omega
    · exact he ax _ hn
  · simp [hm]

/-- **C07** (every operand is read inside its own range, so the right-hand side of
`C07_ufunc_values` consists of genuine elements). -/
theorem C07_ufunc_reads_in_range (f : List α → β) (inputs : List (SA α)) (h : ∀ a ∈ inputs, a.WF)
    (r : SA β) (hr : ufuncN f inputs = .ok r) (a : SA α) (ha : a ∈ inputs) (e : String → Nat)
    (he : InRange r.shape e) :
    a.atB e = a.at' (clipEnv a.shape e) ∧ InRange a.shape (clipEnv a.shape e) :=
  ⟨rfl, inRange_clipEnv (wf_shapes h) (ufuncN_ok h hr).2.1 (List.mem_map.2 ⟨a, ha, rfl⟩) he⟩

/-- **C07** (failure). An elementwise operation raises iff some axis has two different sizes
neither of which is 1, and then it raises `ValueError`. -/
theorem C07_ufunc_error (f : List α → β) (inputs : List (SA α)) (h : ∀ a ∈ inputs, a.WF) :
    ((∃ e, ufuncN f inputs = .error e) ↔ Clash (inputs.map SA.shape)) ∧
    ∀ e, ufuncN f inputs = .error e → e = .valueError := by
  have hss := wf_shapes h
  refine ⟨⟨?_, ?_⟩, ?_⟩
  · rintro ⟨e, he⟩
    exact (C01_broadcast_shapes_error_iff _ hss).1 ⟨e, ufuncN_error h he⟩
  · intro hc
    obtain ⟨e, he⟩ := (C01_broadcast_shapes_error_iff _ hss).2 hc
    exact ⟨e, by unfold ufuncN; rw [he]; rfl⟩
  · intro e he
    exact C01_broadcast_shapes_error_kind _ hss e (ufuncN_error h he)

/-- **C07** for two operands of different element types. -/
theorem C07_ufunc2_values (f : α → β → γ) (a : SA α) (b : SA β) (ha : a.WF) (hb : b.WF) (r : SA γ)
    (hr : ufunc2 f a b = .ok r) :
    broadcastShapes [a.shape, b.shape] = .ok r.shape ∧
    ∀ e, InRange r.shape e → r.at' e = f (a.atB e) (b.atB e) :=
  ⟨(ufunc2_ok ha hb hr).2.1, fun e _ => (ufunc2_ok ha hb hr).2.2 e⟩

/-- **C07** (one input). A unary operation keeps the axes, their order and sizes, and applies the
function to each element. -/
theorem C07_ufunc1_values (f : α → β) (a : SA α) (ha : a.WF) :
    ∃ r, ufunc1 f a = .ok r ∧ r.WF ∧ r.shape = a.shape ∧ ∀ e, r.at' e = f (a.at' e) := by
  refine ⟨_, ufunc1_eq ha f, ha, rfl, fun e => rfl⟩

/-- a 2×2 array over `x, y` -/
def exA : SA Nat := ⟨["x", "y"], ND.ofList [2, 2] [1, 2, 3, 4] 0⟩
/-- a 3×2×1 array over `z, x, w` -/
def exB : SA Nat := ⟨["z", "x", "w"], ND.ofList [3, 2, 1] [10, 20, 30, 40, 50, 60] 0⟩

example : exA.WF ∧ exB.WF := by decide
example : ((ufuncN List.sum [exA, exB]).map (fun r => (r.shape, r.nd.toList))) =
    .ok ([("x", 2), ("y", 2), ("z", 3), ("w", 1)], [11, 31, 51, 12, 32, 52, 23, 43, 63, 24, 44, 64]) := by
  decide
example : (ufuncN List.sum [exA, (⟨["x"], ND.ofList [3] [1, 2, 3] 0⟩ : SA Nat)]).isOk = false := by
  decide

/-! ### C08 -/

/-- Outcomes which a user who only uses names cannot distinguish. -/
def SameOutcomeByName : R (SA α) → R (SA α) → Prop
  | .ok r, .ok r' => SameByName r r'
  | .error e, .error e' => e = e'
  | _, _ => False

theorem atB_sameByName {a b : SA α} (h : SameByName a b) {e : String → Nat}
    (he : InRange a.shape (clipEnv a.shape e)) : a.atB e = b.atB e := by
  have h1 : a.atB e = a.at' (clipEnv a.shape e) := rfl
  have h2 : b.atB e = b.at' (clipEnv a.shape e) := by
    show b.at' _ = b.at' _
    congr 1
    funext ax
    unfold clipEnv
    rw [h.1 ax]
  rw [h1, h2]
  exact h.2 _ he

/-- **C08** (operands of any number). Replacing operands by arrays with the same values by name —
for example transposed copies — does not change the outcome by name. -/
theorem C08_axis_order_irrelevant (f : List α → β) (inputs inputs' : List (SA α))
    (h : ∀ a ∈ inputs, a.WF) (h' : ∀ a ∈ inputs', a.WF)
    (hsame : List.Forall₂ SameByName inputs inputs') :
    SameOutcomeByName (ufuncN f inputs) (ufuncN f inputs') := by
  have hsizes : ∀ ax n, HasSize (inputs.map SA.shape) ax n ↔ HasSize (inputs'.map SA.shape) ax n := by
    intro ax n
    rw [hasSize_iff, hasSize_iff]
    suffices hs : sizesOf (inputs.map SA.shape) ax = sizesOf (inputs'.map SA.shape) ax by rw [hs]
    clear h h'
    induction hsame with
    | nil => rfl
    | cons hx hl ih =>
      simp only [sizesOf, List.map_cons, List.filterMap_cons] at ih ⊢
      rw [hx.1 ax, ih]
  have hso := broadcastShapes_sameOutcome_of_sizes _ _ (wf_shapes h) (wf_shapes h') hsizes
  cases hr : ufuncN f inputs with
  | error e =>
    have hb := ufuncN_error h hr
    rw [hb] at hso
    cases hb' : broadcastShapes (inputs'.map SA.shape) with
    | ok t => rw [hb'] at hso; exact hso.elim
    | error e' =>
      rw [hb'] at hso
      have : ufuncN f inputs' = .error e' := by unfold ufuncN; rw [hb']; rfl
      rw [this]; exact hso
  | ok r =>
    obtain ⟨_, hb, hv⟩ := ufuncN_ok h hr
    rw [hb] at hso
    cases hb' : broadcastShapes (inputs'.map SA.shape) with
    | error e' => rw [hb'] at hso; exact hso.elim
    | ok t =>
      rw [hb'] at hso
      obtain ⟨r', hr'⟩ := ufuncN_isOk h' hb' f
      obtain ⟨_, hb'', hv'⟩ := ufuncN_ok h' hr'
      rw [hb'] at hb''
      injection hb'' with hb''
      subst hb''
      rw [hr']
      refine ⟨hso, fun e he => ?_⟩
      rw [hv, hv']
      congr 1
      have hmem : ∀ a ∈ inputs, InRange a.shape (clipEnv a.shape e) := fun a ha =>
        inRange_clipEnv (wf_shapes h) hb (List.mem_map.2 ⟨a, ha, rfl⟩) he
      clear hr hr' hv hv' hb hb' hsizes hso h h'
      induction hsame with
      | nil => rfl
      | cons hx hl ih =>
        simp only [List.map_cons]
        rw [atB_sameByName hx (hmem _ (by simp)), ih (fun a ha => hmem a (by simp [ha]))]

/-- **C08** (order of the two operands). `f(a, b)` and `(flip f)(b, a)` agree by name. -/
theorem C08_flip (f : α → β → γ) (a : SA α) (b : SA β) (ha : a.WF) (hb : b.WF) :
    SameOutcomeByName (ufunc2 f a b) (ufunc2 (fun y x => f x y) b a) := by
  have hso := broadcastShapes_sameOutcome_of_sizes [a.shape, b.shape] [b.shape, a.shape]
    (wf_pair ha hb) (wf_pair hb ha) (by intro ax n; simp only [HasSize, List.mem_cons]; grind)
  cases hr : ufunc2 f a b with
  | error e =>
    have hbc := ufunc2_error ha hb hr
    rw [hbc] at hso
    cases hb' : broadcastShapes [b.shape, a.shape] with
    | ok t => rw [hb'] at hso; exact hso.elim
    | error e' =>
      rw [hb'] at hso
      have : ufunc2 (fun y x => f x y) b a = .error e' := by unfold ufunc2; rw [hb']; rfl
      rw [this]; exact hso
  | ok r =>
    obtain ⟨_, hbc, hv⟩ := ufunc2_ok ha hb hr
    rw [hbc] at hso
    cases hb' : broadcastShapes [b.shape, a.shape] with
    | error e' => rw [hb'] at hso; exact hso.elim
    | ok t =>
      rw [hb'] at hso
      obtain ⟨r', hr'⟩ := ufunc2_isOk hb ha hb' (fun y x => f x y)
      obtain ⟨_, hb'', hv'⟩ := ufunc2_ok hb ha hr'
      rw [hb'] at hb''
      injection hb'' with hb''
      subst hb''
      rw [hr']
      exact ⟨hso, fun e he => by rw [hv, hv']⟩

example : SameByName exA ⟨["y", "x"], ND.ofList [2, 2] [1, 3, 2, 4] 0⟩ := by
  constructor
  · intro ax
    simp only [exA, shape, ND.ofList, List.zip_cons_cons, List.zip_nil_right, get?_cons, get?_nil]
    grind
  · intro e he
    have hx := he "x" 2 (by decide)
    have hy := he "y" 2 (by decide)
    simp only [at', exA, List.map_cons, List.map_nil, ND.ofList]
    generalize e "x" = i at *
    generalize e "y" = j at *
    interval_cases i <;> interval_cases j <;> rfl

/-! ### C09 -/

/-- **C09** (success). -/
theorem C09_aligned_values (a : SA α) (ha : a.WF) (axes : List String) (hn : axes.Nodup) (v : ND α)
    (h : a.aligned axes = .ok v) :
    v.shape = axes.map (fun ax => (get? a.shape ax).getD 1) ∧
    ∀ e, v.get (axes.map e) = a.at' e := (aligned_ok ha hn h).2

/-- **C09** (failure). -/
theorem C09_aligned_error (a : SA α) (ha : a.WF) (axes : List String) (hn : axes.Nodup) :
    ((∃ e, a.aligned axes = .error e) ↔ ∃ ax ∈ a.axes, ax ∉ axes) ∧
    ∀ e, a.aligned axes = .error e → e = .valueError := by
  refine ⟨?_, fun e he => aligned_error_kind he⟩
  rw [aligned_error_iff ha hn]
  constructor
  · intro h
    by_contra hc
    exact h (fun x hx => by by_contra h2; exact hc ⟨x, hx, h2⟩)
  · rintro ⟨ax, h1, h2⟩ h
    exact h2 (h h1)

example : ((exB.aligned ["y", "w", "x", "z"]).map (fun v => (v.shape, v.toList))) =
    .ok ([1, 1, 2, 3], [10, 30, 50, 20, 40, 60]) := by decide
example : (exB.aligned ["y", "w", "x"]).isOk = false := by decide

/-! ### C10 -/

theorem fold_set_ones (axes : List String) (d : Shape) :
    (∀ ax, get? (axes.foldl (fun d ax => d.set ax 1) d) ax =
      if ax ∈ axes then some 1 else get? d ax) ∧
    (Dict.WF d → Dict.WF (axes.foldl (fun d ax => d.set ax 1) d)) := by
  induction axes generalizing d with
  | nil => simp
  | cons a axes ih =>
    obtain ⟨h1, h2⟩ := ih (d.set a 1)
    refine ⟨fun ax => ?_, fun hd => h2 (wf_set hd _ _)⟩
    rw [List.foldl_cons, h1, get?_set]
    grind

theorem addAxes_ok (a : SA α) (ha : a.WF) (axes : List String) :
    ∃ r, a.addAxes axes = .ok r ∧ r.WF ∧
      (∀ ax, get? r.shape ax = if ax ∈ a.axes then get? a.shape ax
        else if ax ∈ axes then some 1 else none) ∧
      (∀ e, r.at' e = a.at' e) := by
  unfold addAxes
  simp only [bind, Except.bind]
  obtain ⟨h1, h2⟩ := fold_set_ones axes []
  set sn := axes.foldl (fun (d : Shape) ax => d.set ax 1) [] with hsn
  have hwn : Dict.WF sn := h2 wf_nil
  have hwu : Dict.WF (sn.union a.shape) := wf_union hwn _
  have hg : ∀ ax, get? (sn.union a.shape) ax = if ax ∈ a.axes then get? a.shape ax
        else if ax ∈ axes then some 1 else none := by
    intro ax
    rw [get?_union_of_wf _ _ (wf_shape ha)]
    by_cases hax : ax ∈ a.axes
    · rw [get?_shape_of_mem ha hax]; simp [hax]
    · rw [(get?_shape_none ha).2 hax]; simp [hax, h1]
  have hsub : a.axes ⊆ keys (sn.union a.shape) := by
    intro ax hax
    rw [← get?_isSome, hg]
    simp [hax, get?_shape_of_mem ha hax]
  obtain ⟨v, hv⟩ := aligned_isOk ha hwu hsub
  obtain ⟨_, hs, hat⟩ := aligned_ok ha hwu hv
  have hmk := mk?_of_wf (aligned_ndim ha hwu hv) hwu
  refine ⟨⟨keys (sn.union a.shape), v⟩, by rw [hv]; exact hmk, (mk?_ok hmk).2, fun ax => ?_, hat⟩
  rw [← hg]
  have hval : v.shape = values (sn.union a.shape) := by
    rw [hs, ← posShape_keys hwu]
    unfold posShape
    apply List.map_congr_left
    intro x hx
    rw [hg]
    by_cases hxa : x ∈ a.axes
    · simp [hxa]
    · rw [(get?_shape_none ha).2 hxa]
      simp only [hxa, if_false]
      split <;> rfl
  rw [shape_of_mk hwu hval]

/-- **C10** (`add_axes`). It always succeeds; the new axes have size 1; every element stays at
its named index. -/
theorem C10_add_axes (a : SA α) (ha : a.WF) (axes : List String) :
    ∃ r, a.addAxes axes = .ok r ∧ r.WF ∧
      (∀ ax, get? r.shape ax = if ax ∈ a.axes then get? a.shape ax
        else if ax ∈ axes then some 1 else none) ∧
      (∀ e, r.at' e = a.at' e) := addAxes_ok a ha axes

theorem nd_transpose?_ok {nd : ND α} {order : List Nat} {r : ND α} (h : nd.transpose? order = .ok r) :
    r = nd.transpose order ∧ order.Perm (List.range nd.ndim) := by
  unfold ND.transpose? at h
  split at h
  · next hc =>
    injection h with h
    refine ⟨h.symm, ?_⟩
    apply (List.subperm_of_subset hc.2.1 _).perm_of_length_le
    · simp [hc.1]
    · intro j hj; simpa using hc.2.2 j hj
  · cases h

theorem map_idxOf_getD {l axes : List String} (h : ∀ x ∈ axes, x ∈ l) :
    (axes.map l.idxOf).map (fun j => l.getD j "") = axes := by
  rw [List.map_map]
  conv_rhs => rw [← List.map_id axes]
  apply List.map_congr_left
  intro x hx
  simp only [Function.comp, id]
  rw [List.getD_eq_getElem _ _ (idxOf_lt (h x hx))]
  exact List.getElem_idxOf _

theorem transpose_shape_get {a : SA α} (ha : a.WF) {order : List Nat} {axes : List String}
    (ho : order = axes.map a.axes.idxOf) (hm : ∀ x ∈ axes, x ∈ a.axes) :
    (a.nd.transpose order).shape = axes.map (fun ax => (get? a.shape ax).getD 0) := by
  subst ho
  rw [ND.shape_transpose, List.map_map]
  apply List.map_congr_left
  intro x hx
  rw [get?_shape_of_mem ha (hm x hx)]
  rfl

theorem transpose_core {a : SA α} (ha : a.WF) {axes : List String} (hn : axes.Nodup)
    (hm : ∀ x ∈ axes, x ∈ a.axes) (hl : axes.length = a.axes.length) :
    a.nd.transpose? (axes.map a.axes.idxOf) = .ok (a.nd.transpose (axes.map a.axes.idxOf)) := by
  unfold ND.transpose?
  rw [if_pos]
  refine ⟨by simp [hl, ha.1], ?_, ?_⟩
  · refine List.Nodup.map_on ?_ hn
    intro x hx y hy hxy
    rw [← List.getElem_idxOf (idxOf_lt (hm x hx)), ← List.getElem_idxOf (idxOf_lt (hm y hy))]
    congr 1
  · intro j hj
    obtain ⟨x, hx, rfl⟩ := List.mem_map.1 hj
    rw [ha.1]
    exact idxOf_lt (hm x hx)

/-- transposition within the own axes -/
theorem transpose_own {a : SA α} (ha : a.WF) {axes : List String} (hn : axes.Nodup)
    (hm : ∀ x ∈ axes, x ∈ a.axes) (hl : axes.length = a.axes.length) :
    (SA.mk axes (a.nd.transpose (axes.map a.axes.idxOf))).WF ∧
    Same (SA.mk axes (a.nd.transpose (axes.map a.axes.idxOf))).shape a.shape ∧
    ∀ e, (SA.mk axes (a.nd.transpose (axes.map a.axes.idxOf))).at' e = a.at' e := by
  have hwf : (SA.mk axes (a.nd.transpose (axes.map a.axes.idxOf))).WF :=
    ⟨by simp [ND.ndim, ND.shape_transpose], hn⟩
  have hperm : axes.Perm a.axes := (List.subperm_of_subset hn hm).perm_of_length_le (by omega)
  refine ⟨hwf, fun ax => ?_, fun e => ?_⟩
  · by_cases hax : ax ∈ axes
    · obtain ⟨i, hi, rfl⟩ := List.mem_iff_getElem.1 hax
      rw [get?_shape hwf (i := i) hi]
      simp only [transpose_shape_get ha rfl hm, List.getElem_map]
      obtain ⟨n, hn'⟩ := exists_get?_of_mem (d := a.shape) (by rw [keys_shape ha]; exact hm _ hax)
      rw [hn']; rfl
    · rw [(get?_shape_none hwf).2 hax, (get?_shape_none ha).2 (fun h => hax (hperm.mem_iff.2 h))]
  · have hp := (nd_transpose?_ok (transpose_core ha hn hm hl)).2
    have := transpose_get ha.1 ha.2 hp e
    rw [map_idxOf_getD hm] at this
    exact this

/-- **C10** (`np.transpose` without `axes`): always succeeds, reverses the axes, keeps every
element at its named index. -/
theorem C10_transpose_default (a : SA α) (ha : a.WF) :
    ∃ r, a.transpose none = .ok r ∧ r.WF ∧ r.axes = a.axes.reverse ∧ SameByName r a := by
  have hm : ∀ x ∈ a.axes.reverse, x ∈ a.axes := by simp
  have hn : a.axes.reverse.Nodup := List.nodup_reverse.2 ha.2
  obtain ⟨h1, h2, h3⟩ := transpose_own ha hn hm (by simp)
  refine ⟨_, ?_, h1, rfl, h2, fun e _ => h3 e⟩
  unfold transpose
  simp only [bind, Except.bind]
  rw [if_pos (by simp), transpose_core ha hn hm (by simp)]
  exact mk?_of_wf h1.1 h1.2

/-- **C10** (`np.transpose` with `axes`): succeeds exactly when the names are distinct and include
all the axes of the array; then the axes are the given ones, names the array lacks get size 1, and
every element stays at its named index. -/
theorem C10_transpose (a : SA α) (ha : a.WF) (axes : List String) :
    (axes.Nodup ∧ (∀ x ∈ a.axes, x ∈ axes) ∧
      ∃ r, a.transpose (some axes) = .ok r ∧ r.WF ∧ r.axes = axes ∧
        (∀ ax ∈ axes, get? r.shape ax = some ((get? a.shape ax).getD 1)) ∧
        ∀ e, r.at' e = a.at' e) ∨
    (¬ (axes.Nodup ∧ ∀ x ∈ a.axes, x ∈ axes) ∧ a.transpose (some axes) = .error .valueError) := by
  obtain ⟨b, hb, hbw, hbs, hbat⟩ := addAxes_ok a ha axes
  have hmem : ∀ ax, ax ∈ b.axes ↔ ax ∈ a.axes ∨ ax ∈ axes := by
    intro ax
    rw [← keys_shape hbw, ← get?_isSome, hbs]
    by_cases h1 : ax ∈ a.axes
    · simp [h1, get?_shape_of_mem ha h1]
    · by_cases h2 : ax ∈ axes <;> simp [h1, h2]
  have hall : ∀ x ∈ axes, x ∈ b.axes := fun x hx => (hmem x).2 (.inr hx)
  unfold transpose
  simp only [bind, Except.bind, hb]
  rw [if_pos (by simpa using hall)]
  by_cases hc : axes.Nodup ∧ ∀ x ∈ a.axes, x ∈ axes
  · left
    refine ⟨hc.1, hc.2, ?_⟩
    have hl : axes.length = b.axes.length := by
      have : axes.Perm b.axes := (List.perm_ext_iff_of_nodup hc.1 hbw.2).2 (fun x => by
        rw [hmem]
        constructor
        · exact .inr
        · rintro (h | h)
          · exact hc.2 x h
          · exact h)
      exact this.length_eq
    obtain ⟨h1, h2, h3⟩ := transpose_own hbw hc.1 hall hl
    rw [transpose_core hbw hc.1 hall hl]
    refine ⟨_, mk?_of_wf h1.1 h1.2, h1, rfl, fun ax hax => ?_, fun e => by rw [h3, hbat]⟩
    rw [h2 ax, hbs]
    by_cases h4 : ax ∈ a.axes
    · simp [h4, get?_shape_of_mem ha h4]
    · simp [h4, hax, (get?_shape_none ha).2 h4]
  · right
    refine ⟨hc, ?_⟩
    have : b.nd.transpose? (axes.map b.axes.idxOf) = .error .valueError := by
      unfold ND.transpose?
      rw [if_neg]
      rintro ⟨h1, h2, _⟩
      apply hc
      have hn : axes.Nodup := List.Nodup.of_map _ h2
      refine ⟨hn, fun x hx => ?_⟩
      have hp : axes.Perm b.axes := (List.subperm_of_subset hn hall).perm_of_length_le
        (by rw [List.length_map, hbw.1] at h1; omega)
      exact hp.mem_iff.2 ((hmem x).2 (.inl hx))
    rw [this]

/-- The condition for broadcasting `a` to `shape`. -/
def FitsIn (s shape : Shape) : Prop :=
  ∀ ax m, get? s ax = some m → ∃ n, get? shape ax = some n ∧ (m = n ∨ m = 1)

theorem nd_broadcastTo_iff {v : ND α} {shape : List Nat} (h : v.shape.length = shape.length) :
    (∃ r, v.broadcastTo shape = .ok r) ↔ ∀ p ∈ v.shape.zip shape, p.1 = p.2 ∨ p.1 = 1 := by
  unfold ND.broadcastTo
  constructor
  · rintro ⟨r, hr⟩
    split at hr
    · next hc => exact hc.2
    · cases hr
  · intro hp
    rw [if_pos ⟨h, hp⟩]
    exact ⟨_, rfl⟩

theorem fitsIn_iff {a : SA α} (ha : a.WF) {shape : Shape} (hs : Dict.WF shape)
    (hsub : a.axes ⊆ keys shape) :
    FitsIn a.shape shape ↔
      ∀ p ∈ (posShape (keys shape) a.shape).zip (values shape), p.1 = p.2 ∨ p.1 = 1 := by
  have hzip : (posShape (keys shape) a.shape).zip (values shape) =
      shape.map (fun q => ((get? a.shape q.1).getD 1, q.2)) := by
    unfold posShape keys values
    rw [List.map_map, List.zip_map']
    rfl
  rw [hzip]
  constructor
  · intro h p hp
    obtain ⟨q, hq, rfl⟩ := List.mem_map.1 hp
    cases hg : get? a.shape q.1 with
    | none => right; rfl
    | some m =>
      obtain ⟨n, hn, hmn⟩ := h q.1 m hg
      have : get? shape q.1 = some q.2 := get?_of_mem hs hq
      rw [this] at hn
      injection hn with hn
      subst hn
      exact hmn
  · intro h ax m hm
    have hax : ax ∈ a.axes := by rw [← keys_shape ha]; exact mem_keys_of_get? hm
    obtain ⟨n, hn⟩ := exists_get?_of_mem (hsub hax)
    refine ⟨n, hn, ?_⟩
    have := h ((get? a.shape ax).getD 1, n) (List.mem_map.2 ⟨(ax, n), mem_of_get? hn, rfl⟩)
    rwa [hm] at this

/-- **C10** (`broadcast_to`): either the array fits in the requested shape, and the result has
exactly that shape, with every element read at its own named index (index 0 on singleton axes);
or it does not and `ValueError` is raised. -/
theorem C10_broadcast_to (a : SA α) (ha : a.WF) (shape : Shape) (hs : Dict.WF shape) :
    (FitsIn a.shape shape ∧ ∃ r, a.broadcastTo shape = .ok r ∧ r.WF ∧ r.shape = shape ∧
      ∀ e, r.at' e = a.atB e) ∨
    (¬ FitsIn a.shape shape ∧ a.broadcastTo shape = .error .valueError) := by
  unfold broadcastTo
  simp only [bind, Except.bind, Bool.false_eq_true, if_false]
  by_cases hsub : a.axes ⊆ keys shape
  · obtain ⟨v, hv⟩ := aligned_isOk ha hs hsub
    obtain ⟨_, hvs, hat⟩ := aligned_ok ha hs hv
    have hvs' : v.shape = posShape (keys shape) a.shape := hvs
    have hl : v.shape.length = (values shape).length := by rw [hvs]; simp [keys, values]
    rw [hv]
    simp only
    by_cases hf : FitsIn a.shape shape
    · left
      refine ⟨hf, ?_⟩
      rw [fitsIn_iff ha hs hsub, ← hvs'] at hf
      have : v.broadcastTo (values shape) =
          .ok ⟨values shape, fun i => v.get (ND.clipIdx v.shape i)⟩ := by
        unfold ND.broadcastTo; rw [if_pos ⟨hl, hf⟩]
      rw [this]
      simp only
      have hmk := mk?_of_wf (nd := (⟨values shape, fun i => v.get (ND.clipIdx v.shape i)⟩ : ND α))
        (axes := keys shape) (by simp [ND.ndim, keys, values]) hs
      refine ⟨_, hmk, (mk?_ok hmk).2, shape_of_mk hs rfl, fun e => ?_⟩
      exact aligned_clip ha hs hv e
    · right
      refine ⟨hf, ?_⟩
      rw [fitsIn_iff ha hs hsub, ← hvs'] at hf
      have : v.broadcastTo (values shape) = .error .valueError := by
        unfold ND.broadcastTo; rw [if_neg (fun h => hf h.2)]
      rw [this]
  · right
    obtain ⟨e, he⟩ := (aligned_error_iff ha hs).2 hsub
    refine ⟨fun hf => hsub (fun x hx => ?_), by rw [he, aligned_error_kind he]⟩
    rw [← keys_shape ha] at hx
    obtain ⟨m, hm⟩ := exists_get?_of_mem hx
    obtain ⟨n, hn, _⟩ := hf x m hm
    exact mem_keys_of_get? hn

/-- **C10** (`broadcast_to(..., append=True)`): the array is broadcast to the shape which its own shape
and the requested one broadcast to; `ValueError` if they do not. -/
theorem C10_broadcast_to_append (a : SA α) (ha : a.WF) (shape : Shape) (hs : Dict.WF shape) :
    (∃ s r, broadcastShapes [a.shape, shape] = .ok s ∧ a.broadcastTo shape true = .ok r ∧ r.WF ∧
      r.shape = s ∧ ∀ e, r.at' e = a.atB e) ∨
    (Clash [a.shape, shape] ∧ a.broadcastTo shape true = .error .valueError) := by
  have hss : ∀ t ∈ [a.shape, shape], Dict.WF t := by
    intro t ht
    simp only [List.mem_cons, List.not_mem_nil, or_false] at ht
    rcases ht with rfl | rfl
    · exact wf_shape ha
    · exact hs
  cases hb : broadcastShapes [a.shape, shape] with
  | error e =>
    right
    refine ⟨(C01_broadcast_shapes_error_iff _ hss).1 ⟨e, hb⟩, ?_⟩
    rw [C01_broadcast_shapes_error_kind _ hss e hb] at hb
    unfold broadcastTo
    rw [if_pos rfl, hb]
    rfl
  | ok s =>
    left
    obtain ⟨hsw, hmem, hsz⟩ := C01_broadcast_shapes_ok _ hss s hb
    have heq : a.broadcastTo shape true = a.broadcastTo s := by
      unfold broadcastTo
      rw [if_pos rfl, hb]
      rfl
    rcases C10_broadcast_to a ha s hsw with ⟨_, r, hr⟩ | ⟨hn, _⟩
    · exact ⟨s, r, rfl, by rw [heq]; exact hr.1, hr.2⟩
    · exfalso
      apply hn
      intro ax m hm
      obtain ⟨n, hn⟩ := exists_get?_of_mem ((hmem ax).2 ⟨a.shape, by simp, mem_keys_of_get? hm⟩)
      exact ⟨n, hn, (hsz ax n hn).2 m ⟨a.shape, by simp, hm⟩⟩

example : ((exB.transpose (some ["y", "w", "x", "z"])).map (fun r => (r.shape, r.nd.toList))) =
    .ok ([("y", 1), ("w", 1), ("x", 2), ("z", 3)], [10, 30, 50, 20, 40, 60]) := by decide
example : (exB.transpose (some ["x", "z"])).isOk = false := by decide
example : ((exB.addAxes ["q", "x"]).map (fun r => (r.shape, r.nd.toList))) =
    .ok ([("q", 1), ("x", 2), ("z", 3), ("w", 1)], [10, 30, 50, 20, 40, 60]) := by decide
example : ((exB.broadcastTo [("w", 2), ("x", 2), ("z", 3)]).map (fun r => (r.shape, r.nd.toList))) =
    .ok ([("w", 2), ("x", 2), ("z", 3)], [10, 30, 50, 20, 40, 60, 10, 30, 50, 20, 40, 60]) := by decide
example : (exB.broadcastTo [("w", 2), ("x", 3), ("z", 3)]).isOk = false := by decide
example : ((exA.broadcastTo [("q", 2), ("x", 1)] true).map (fun r => (r.shape, r.nd.toList))) =
    .ok ([("x", 2), ("y", 2), ("q", 2)], [1, 1, 2, 2, 3, 3, 4, 4]) := by decide

end SA
end NA
