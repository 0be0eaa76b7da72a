import Verif.Uncertain.Lemmas
import Verif.Props.Vectors
import Verif.Props.Axes

/-!
# Uncertain scalars: elementwise functions (C47), reshaping (C48), masked copies (C49)
-/

namespace NA
open Dict
open SA (FitsIn InRange)

namespace UA
variable {α β : Type}

/-! ### Specification -/

/-- The nominal value at a named index (with the broadcasting convention). -/
def nominalAt (u : UA α) (e : String → Nat) : α := u.nominal.atB e

/-- The `k`-th sample at a named index (with the broadcasting convention: a distribution without the axis of
the samples consists of equal samples). -/
def sampleAt (u : UA α) (k : Nat) (e : String → Nat) : α := u.distribution.atB (Function.update e axisD k)

end UA

namespace UArg
variable {α : Type}

/-- The operand is made of well-formed arrays; an uncertain operand went through the constructor. -/
def Ok : UArg α → Prop
  | .plain a => a.WF
  | .unc u => u.Valid

/-- The nominal value at a named index: a plain operand is its own nominal value. -/
def nominalAt (e : String → Nat) : UArg α → α
  | .plain a => a.atB e
  | .unc u => u.nominalAt e

/-- The `k`-th sample at a named index: a plain operand is its own sample. -/
def sampleAt (k : Nat) (e : String → Nat) : UArg α → α
  | .plain a => a.atB (Function.update e axisD k)
  | .unc u => u.sampleAt k e

/-- `x.shape` of an operand. -/
def shape : UArg α → R Shape
  | .plain a => .ok a.shape
  | .unc u => u.shape

/-- A plain operand uses the reserved axis name. -/
def Reserved : UArg α → Prop
  | .plain a => axisD ∈ a.axes
  | .unc _ => False

theorem Ok.nominal {x : UArg α} (h : x.Ok) : x.nominal.WF := by
  cases x with
  | plain a => exact h
  | unc u => exact h.1

theorem Ok.distribution {x : UArg α} (h : x.Ok) : x.distribution.WF := by
  cases x with
  | plain a => exact h
  | unc u => exact h.2.1

theorem reserved_iff {x : UArg α} (h : x.Ok) : x.Reserved ↔ axisD ∈ x.nominal.axes := by
  cases x with
  | plain a => exact Iff.rfl
  | unc u => exact ⟨False.elim, fun h' => h.2.2 h'⟩

end UArg

namespace UA
variable {α β : Type}

theorem wf_nominals {inputs : List (UArg α)} (h : ∀ x ∈ inputs, x.Ok) :
    ∀ a ∈ inputs.map UArg.nominal, a.WF := by
  intro a ha
  obtain ⟨x, hx, rfl⟩ := List.mem_map.1 ha
  exact (h x hx).nominal

theorem wf_distributions {inputs : List (UArg α)} (h : ∀ x ∈ inputs, x.Ok) :
    ∀ a ∈ inputs.map UArg.distribution, a.WF := by
  intro a ha
  obtain ⟨x, hx, rfl⟩ := List.mem_map.1 ha
  exact (h x hx).distribution

theorem ufuncN_parts {f : List α → β} {inputs : List (UArg α)} {r : UA β} (h : ∀ x ∈ inputs, x.Ok)
    (hr : ufuncN f inputs = .ok r) :
    SA.ufuncN f (inputs.map UArg.nominal) = .ok r.nominal ∧
    SA.ufuncN f (inputs.map UArg.distribution) = .ok r.distribution ∧ axisD ∉ r.nominal.axes := by
  unfold ufuncN at hr
  simp only [bind, Except.bind] at hr
  cases h1 : SA.ufuncN f (inputs.map UArg.nominal) with
  | error e => rw [h1] at hr; cases hr
  | ok n =>
    rw [h1] at hr; simp only at hr
    cases h2 : SA.ufuncN f (inputs.map UArg.distribution) with
    | error e => rw [h2] at hr; cases hr
    | ok d =>
      rw [h2] at hr; simp only at hr
      obtain ⟨rfl, h3⟩ := mk?_ok (SA.ufuncN_ok (wf_nominals h) h1).1 hr
      exact ⟨rfl, rfl, h3⟩

/-! ### C47 -/

/-- **C47** (constructor). `UncertainScalarArray(nominal, distribution)` raises `ValueError` exactly when the
nominal value has the axis of the samples. -/
theorem C47_constructor (n d : SA α) (hn : n.WF) (hd : d.WF) :
    (axisD ∉ n.axes ∧ ∃ u, mk? n d = .ok u ∧ u.nominal = n ∧ u.distribution = d ∧ u.Valid) ∨
    (axisD ∈ n.axes ∧ mk? n d = .error .valueError) := by
  by_cases h : axisD ∈ n.axes
  · right
    refine ⟨h, ?_⟩
    unfold mk?
    rw [SA.keys_shape hn, if_pos h]
  · left
    exact ⟨h, _, mk?_of_valid hn h, rfl, rfl, hn, hd, h⟩

/-- **C47** (shape). The shape never includes the axis of the samples.  It has every other axis of the nominal
value or of the distribution, with the size to which both broadcast; when they do not broadcast,
`ValueError` is raised. -/
theorem C47_shape (u : UA α) (hu : u.Valid) :
    (∃ s t, u.shape = .ok s ∧ axisD ∉ keys s ∧ Dict.WF s ∧
      broadcastShapes [u.nominal.shape, u.distribution.shape] = .ok t ∧
      ∀ ax, ax ≠ axisD → get? s ax = get? t ax) ∨
    (Clash [u.nominal.shape, u.distribution.shape] ∧ u.shape = .error .valueError) := by
  rcases shape_cases hu with ⟨h1, _, h2⟩ | ⟨_, t, s, sd, h1, h2, h3, h4, h5⟩
  · exact .inr ⟨h1, h2⟩
  · left
    refine ⟨s, t, h5.shape, h5.noD, h5.wf, h1, fun ax hne => ?_⟩
    rw [h3, get?_erase, if_neg hne.symm]

/-- **C47** (values). The nominal value of `f(u, v, ...)` is `f` of the nominal values, and its `k`-th sample is
`f` of the `k`-th samples. -/
theorem C47_ufunc (f : List α → β) (inputs : List (UArg α)) (h : ∀ x ∈ inputs, x.Ok) (r : UA β)
    (hr : ufuncN f inputs = .ok r) :
    r.Valid ∧ (∀ e, r.nominalAt e = f (inputs.map (UArg.nominalAt e))) ∧
    ∀ k e, r.sampleAt k e = f (inputs.map (UArg.sampleAt k e)) := by
  obtain ⟨h1, h2, h3⟩ := ufuncN_parts h hr
  obtain ⟨n1, _, n3⟩ := ufuncN_atB (wf_nominals h) h1
  obtain ⟨d1, _, d3⟩ := ufuncN_atB (wf_distributions h) h2
  refine ⟨⟨n1, d1, h3⟩, fun e => ?_, fun k e => ?_⟩
  · rw [nominalAt, n3, List.map_map]
    congr 1
    refine List.map_congr_left fun x _ => ?_
    cases x <;> rfl
  · rw [sampleAt, d3, List.map_map]
    congr 1
    refine List.map_congr_left fun x _ => ?_
    cases x <;> rfl

/-- **C47** (failure). An elementwise function raises exactly when the nominal values do not broadcast, the
distributions do not broadcast (for example because of different numbers of samples), or a plain operand uses
the reserved axis name; and then it raises `ValueError`. -/
theorem C47_ufunc_error (f : List α → β) (inputs : List (UArg α)) (h : ∀ x ∈ inputs, x.Ok) :
    ((∃ e, ufuncN f inputs = .error e) ↔
      Clash (inputs.map (fun x => x.nominal.shape)) ∨ Clash (inputs.map (fun x => x.distribution.shape)) ∨
      ∃ x ∈ inputs, x.Reserved) ∧
    ∀ e, ufuncN f inputs = .error e → e = .valueError := by
  have en := SA.C07_ufunc_error f _ (wf_nominals h)
  have ed := SA.C07_ufunc_error f _ (wf_distributions h)
  have m1 : (inputs.map UArg.nominal).map SA.shape = inputs.map (fun x => x.nominal.shape) := by simp
  have m2 : (inputs.map UArg.distribution).map SA.shape = inputs.map (fun x => x.distribution.shape) := by simp
  rw [m1] at en
  rw [m2] at ed
  have hu : ufuncN f inputs = (do
      let n ← SA.ufuncN f (inputs.map UArg.nominal)
      let d ← SA.ufuncN f (inputs.map UArg.distribution)
      mk? n d) := rfl
  rw [hu]
  simp only [bind, Except.bind]
  cases h1 : SA.ufuncN f (inputs.map UArg.nominal) with
  | error e =>
    have := en.2 e h1
    subst this
    simp only [Except.error.injEq, exists_eq', true_iff]
    exact ⟨.inl (en.1.1 ⟨_, h1⟩), fun e he => he.symm⟩
  | ok n =>
    have hn1 : ¬ Clash (inputs.map (fun x => x.nominal.shape)) := by
      intro hc
      obtain ⟨e, he⟩ := en.1.2 hc
      rw [h1] at he; cases he
    simp only [hn1, false_or]
    cases h2 : SA.ufuncN f (inputs.map UArg.distribution) with
    | error e =>
      have := ed.2 e h2
      subst this
      simp only [Except.error.injEq, exists_eq', true_iff]
      exact ⟨.inl (ed.1.1 ⟨_, h2⟩), fun e he => he.symm⟩
    | ok d =>
      have hd1 : ¬ Clash (inputs.map (fun x => x.distribution.shape)) := by
        intro hc
        obtain ⟨e, he⟩ := ed.1.2 hc
        rw [h2] at he; cases he
      simp only [hd1, false_or]
      obtain ⟨n1, n2, _⟩ := SA.ufuncN_ok (wf_nominals h) h1
      have hres : axisD ∈ n.axes ↔ ∃ x ∈ inputs, x.Reserved := by
        rw [m1] at n2
        obtain ⟨_, g, _⟩ := C01_broadcast_shapes_ok _ (by
          intro s hs
          obtain ⟨x, hx, rfl⟩ := List.mem_map.1 hs
          exact SA.wf_shape (h x hx).nominal) _ n2
        rw [← SA.keys_shape n1, g]
        constructor
        · rintro ⟨s, hs, hk⟩
          obtain ⟨x, hx, rfl⟩ := List.mem_map.1 hs
          rw [SA.keys_shape (h x hx).nominal] at hk
          exact ⟨x, hx, (UArg.reserved_iff (h x hx)).2 hk⟩
        · rintro ⟨x, hx, hk⟩
          refine ⟨_, List.mem_map.2 ⟨x, hx, rfl⟩, ?_⟩
          rw [SA.keys_shape (h x hx).nominal]
          exact (UArg.reserved_iff (h x hx)).1 hk
      rw [← hres]
      by_cases hD : axisD ∈ n.axes
      · have : mk? n d = .error .valueError := by unfold mk?; rw [SA.keys_shape n1, if_pos hD]
        simp only [this, hD]
        exact ⟨by simp, fun e he => by injection he with he; exact he.symm⟩
      · have : mk? n d = .ok ⟨n, d⟩ := mk?_of_valid n1 hD
        simp only [this, hD]
        exact ⟨by simp, fun e he => by cases he⟩

/-- Dropping the axis of the samples before or after broadcasting. -/
theorem erase_outcome {ss : List Shape} (hss : ∀ s ∈ ss, WF s) {t : Shape} (h : broadcastShapes ss = .ok t) :
    ∃ t', broadcastShapes (ss.map (·.erase axisD)) = .ok t' ∧ Same (t.erase axisD) t' ∧ WF (t.erase axisD) := by
  have hw : ∀ s : Shape, WF s → WF (s.erase axisD) := by
    intro s hs
    unfold Dict.WF at hs ⊢
    exact hs.sublist (by unfold Dict.erase Dict.keys; exact (List.filter_sublist).map _)
  have hss' : ∀ s ∈ ss.map (·.erase axisD), WF s := by
    intro s hs
    obtain ⟨s', h', rfl⟩ := List.mem_map.1 hs
    exact hw s' (hss s' h')
  have hsz : ∀ ax, sizesOf (ss.map (·.erase axisD)) ax = if ax = axisD then [] else sizesOf ss ax := by
    intro ax
    unfold sizesOf
    rw [List.filterMap_map]
    split
    · next hx =>
      subst hx
      rw [List.filterMap_eq_nil_iff]
      intro s _
      simp [get?_erase]
    · next hx =>
      refine List.filterMap_congr fun s _ => ?_
      simp only [Function.comp_apply, get?_erase, if_neg (Ne.symm hx)]
  obtain ⟨j1, j2⟩ := broadcastShapes_joinOf hss h
  cases hb : broadcastShapes (ss.map (·.erase axisD)) with
  | error e =>
    exfalso
    obtain ⟨_, x, m, n, hm, hn, h1, h2, h3⟩ := broadcastShapes_error hss' hb
    rw [hsz] at hm hn
    split at hm
    · cases hm
    · next hx =>
      rw [if_neg hx] at hn
      exact not_joinOf_of_conflict hm hn h1 h2 h3 _ (j2 x)
  | ok t' =>
    refine ⟨t', rfl, ?_, hw t j1⟩
    obtain ⟨_, k2⟩ := broadcastShapes_joinOf hss' hb
    intro ax
    have hk := k2 ax
    rw [hsz] at hk
    rw [get?_erase]
    by_cases hx : ax = axisD
    · subst hx
      simp only [if_true] at hk ⊢
      cases hg : get? t' axisD with
      | none => rfl
      | some n => rw [hg] at hk; cases hk.1
    · rw [if_neg hx] at hk
      rw [if_neg (Ne.symm hx)]
      exact joinOf_unique (fun _ => Iff.rfl) (j2 ax) hk

theorem erase_noD {s : Shape} (h : axisD ∉ keys s) : s.erase axisD = s := by
  unfold Dict.erase
  rw [List.filter_eq_self]
  intro p hp
  simp only [ne_eq, decide_eq_true_eq]
  intro hx
  exact h (by rw [← hx]; exact List.mem_map.2 ⟨p, hp, rfl⟩)

/-- the shapes which make up the shape of an operand -/
def parts (x : UArg α) : List Shape := [x.nominal.shape, x.distribution.shape.erase axisD]

theorem parts_wf {x : UArg α} (h : x.Ok) : ∀ s ∈ parts x, WF s := by
  intro s hs
  simp only [parts, List.mem_cons, List.not_mem_nil, or_false] at hs
  rcases hs with rfl | rfl
  · exact SA.wf_shape h.nominal
  · exact Dict.wf_erase (SA.wf_shape h.distribution) _

theorem shape_parts {x : UArg α} (h : x.Ok) (hres : ¬ x.Reserved) :
    (∃ s, x.shape = .ok s ∧ ∃ s', broadcastShapes (parts x) = .ok s' ∧ Same s s' ∧ WF s) ∨
    (x.shape = .error .valueError ∧ Clash (parts x)) := by
  cases x with
  | plain a =>
    left
    have ha : a.WF := h
    have hD : axisD ∉ keys a.shape := by rw [SA.keys_shape ha]; exact hres
    refine ⟨a.shape, rfl, ?_⟩
    simp only [parts, UArg.nominal, UArg.distribution, erase_noD hD]
    have := C02_order_and_repetition [a.shape] [a.shape, a.shape] (by simpa using SA.wf_shape ha)
      (by intro s; simp)
    obtain ⟨r, hr, hs⟩ := Comp.broadcast_single (SA.wf_shape ha)
    rw [hr] at this
    cases hb : broadcastShapes [a.shape, a.shape] with
    | error e => rw [hb] at this; simp [SameOutcome] at this
    | ok s' =>
      rw [hb] at this
      refine ⟨s', rfl, ?_, SA.wf_shape ha⟩
      have h2 : Same r s' := this
      intro ax
      rw [← h2 ax]
      exact hs ax
  | unc u =>
    have hu : u.Valid := h
    have hw : ∀ s ∈ [u.nominal.shape, u.distribution.shape], WF s := by
      intro s hs
      simp only [List.mem_cons, List.not_mem_nil, or_false] at hs
      rcases hs with rfl | rfl
      · exact SA.wf_shape hu.1
      · exact SA.wf_shape hu.2.1
    have hnD : axisD ∉ keys u.nominal.shape := by rw [SA.keys_shape hu.1]; exact hu.2.2
    rcases shape_cases hu with ⟨h1, _, h2⟩ | ⟨_, t, s, sd, h1, h2, h3, h4, h5⟩
    · right
      refine ⟨h2, ?_⟩
      obtain ⟨ax, m, n, hm, hn, hne⟩ := h1
      have hax : ax ≠ axisD := by
        rintro rfl
        have : ∀ m, HasSize [u.nominal.shape, u.distribution.shape] axisD m →
            get? u.distribution.shape axisD = some m := by
          rintro m ⟨s, hs, hg⟩
          simp only [List.mem_cons, List.not_mem_nil, or_false] at hs
          rcases hs with rfl | rfl
          · exact absurd (mem_keys_of_get? hg) hnD
          · exact hg
        have e1 := this m hm
        rw [this n hn] at e1
        cases e1
        exact hne.1 rfl
      have tr : ∀ m, HasSize [u.nominal.shape, u.distribution.shape] ax m → HasSize (parts (.unc u)) ax m := by
        rintro m ⟨s, hs, hg⟩
        simp only [List.mem_cons, List.not_mem_nil, or_false] at hs
        rcases hs with rfl | rfl
        · exact ⟨u.nominal.shape, by simp [parts, UArg.nominal], hg⟩
        · exact ⟨u.distribution.shape.erase axisD, by simp [parts, UArg.distribution],
            by rw [get?_erase, if_neg hax.symm]; exact hg⟩
      exact ⟨ax, m, n, tr m hm, tr n hn, hne⟩
    · left
      refine ⟨s, h5.shape, ?_⟩
      obtain ⟨t', k1, k2, k3⟩ := erase_outcome hw h1
      simp only [List.map_cons, List.map_nil, erase_noD hnD] at k1
      rw [h3]
      exact ⟨t', k1, k2, k3⟩

/-- **C47** (shape of the result). The shape of `f(u, v, ...)` is the broadcast of the shapes of the
operands, which do not include the axis of the samples.  (If the operands do not broadcast but their nominal
values and their distributions do, the error is raised when the shape of the result is asked for.) -/
theorem C47_ufunc_shape (f : List α → β) (inputs : List (UArg α)) (h : ∀ x ∈ inputs, x.Ok) (r : UA β)
    (hr : ufuncN f inputs = .ok r) :
    SameOutcome r.shape (do let ss ← inputs.mapM UArg.shape; broadcastShapes ss) := by
  obtain ⟨h1, h2, h3⟩ := ufuncN_parts h hr
  obtain ⟨n1, n2, _⟩ := SA.ufuncN_ok (wf_nominals h) h1
  obtain ⟨d1, d2, _⟩ := SA.ufuncN_ok (wf_distributions h) h2
  rw [List.map_map] at n2 d2
  have hnw : ∀ s ∈ inputs.map (SA.shape ∘ UArg.nominal), WF s := by
    intro s hs
    obtain ⟨x, hx, rfl⟩ := List.mem_map.1 hs
    exact SA.wf_shape (h x hx).nominal
  have hdw : ∀ s ∈ inputs.map (SA.shape ∘ UArg.distribution), WF s := by
    intro s hs
    obtain ⟨x, hx, rfl⟩ := List.mem_map.1 hs
    exact SA.wf_shape (h x hx).distribution
  have hres : ∀ x ∈ inputs, ¬ x.Reserved := by
    intro x hx hR
    obtain ⟨e, he⟩ := (C47_ufunc_error f inputs h).1.2 (.inr (.inr ⟨x, hx, hR⟩))
    rw [hr] at he; cases he
  obtain ⟨t', k1, k2, k3⟩ := erase_outcome hdw d2
  -- all the parts of the shapes
  have hall : ∀ s ∈ (inputs.map parts).flatten, WF s := by
    intro s hs
    obtain ⟨l, hl, hs⟩ := List.mem_flatten.1 hs
    obtain ⟨x, hx, rfl⟩ := List.mem_map.1 hl
    exact parts_wf (h x hx) s hs
  have hmem : ∀ s, s ∈ (inputs.map parts).flatten ↔
      s ∈ [inputs.map (SA.shape ∘ UArg.nominal), (inputs.map (SA.shape ∘ UArg.distribution)).map (·.erase axisD)].flatten := by
    intro s
    simp only [List.mem_flatten, List.mem_map, List.mem_cons, List.not_mem_nil, or_false, parts]
    constructor
    · rintro ⟨l, ⟨x, hx, rfl⟩, hs⟩
      simp only [List.mem_cons, List.not_mem_nil, or_false] at hs
      rcases hs with rfl | rfl
      · exact ⟨_, .inl rfl, List.mem_map.2 ⟨x, hx, rfl⟩⟩
      · exact ⟨_, .inr rfl, List.mem_map.2 ⟨_, List.mem_map.2 ⟨x, hx, rfl⟩, rfl⟩⟩
    · rintro ⟨l, hl | hl, hs⟩
      · subst hl
        obtain ⟨x, hx, rfl⟩ := List.mem_map.1 hs
        exact ⟨_, ⟨x, hx, rfl⟩, by simp⟩
      · subst hl
        obtain ⟨_, hs', rfl⟩ := List.mem_map.1 hs
        obtain ⟨x, hx, rfl⟩ := List.mem_map.1 hs'
        exact ⟨_, ⟨x, hx, rfl⟩, by simp⟩
  -- left side
  have hrU : UArg.Ok (.unc r) := ⟨n1, d1, h3⟩
  have hleft : SameOutcome r.shape (broadcastShapes (inputs.map parts).flatten) := by
    have hg := Comp.broadcast_groups
      (gs := [inputs.map (SA.shape ∘ UArg.nominal), (inputs.map (SA.shape ∘ UArg.distribution)).map (·.erase axisD)])
      (ss := parts (.unc r))
      (.cons ⟨_, n2, fun _ => rfl, SA.wf_shape n1⟩ (.cons ⟨t', k1, k2, k3⟩ .nil)) (by
        intro g hg s hs
        simp only [List.mem_cons, List.not_mem_nil, or_false] at hg
        rcases hg with rfl | rfl
        · exact hnw s hs
        · obtain ⟨s', hs', rfl⟩ := List.mem_map.1 hs
          exact Dict.wf_erase (hdw s' hs') _) [] (by simp)
    simp only [List.nil_append] at hg
    have hg2 := Comp.sameOutcome_trans hg (Comp.sameOutcome_symm (C02_order_and_repetition _ _ hall hmem))
    rcases shape_parts hrU id with ⟨s, g1, s', g2, g3, _⟩ | ⟨g1, g2⟩
    · have g1' : r.shape = .ok s := g1
      rw [g1']
      rw [g2] at hg2
      exact Comp.sameOutcome_trans (r2 := .ok s') g3 hg2
    · have g1' : r.shape = .error .valueError := g1
      rw [g1']
      obtain ⟨e, he⟩ := (C01_broadcast_shapes_error_iff _ (parts_wf hrU)).2 g2
      have := C01_broadcast_shapes_error_kind _ (parts_wf hrU) e he
      subst this
      rw [he] at hg2
      exact hg2
  refine Comp.sameOutcome_trans hleft ?_
  -- right side
  by_cases hc : ∃ x ∈ inputs, Clash (parts x)
  · obtain ⟨x, hx, hcx⟩ := hc
    have hm : inputs.mapM UArg.shape = .error .valueError := by
      refine SA.mapM_error ?_ hx ?_
      · intro y hy e' he'
        rcases shape_parts (h y hy) (hres y hy) with ⟨s, g1, _⟩ | ⟨g1, _⟩
        · rw [g1] at he'; cases he'
        · rw [g1] at he'; cases he'; rfl
      · rcases shape_parts (h x hx) (hres x hx) with ⟨s, _, s', g2, _⟩ | ⟨g1, _⟩
        · obtain ⟨e, he⟩ := (C01_broadcast_shapes_error_iff _ (parts_wf (h x hx))).2 hcx
          rw [g2] at he; cases he
        · exact g1
    rw [hm]
    have hcl : Clash (inputs.map parts).flatten := by
      obtain ⟨ax, m, n, ⟨s, hs, hm⟩, ⟨s', hs', hn⟩, hne⟩ := hcx
      exact ⟨ax, m, n, ⟨s, List.mem_flatten.2 ⟨_, List.mem_map.2 ⟨x, hx, rfl⟩, hs⟩, hm⟩,
        ⟨s', List.mem_flatten.2 ⟨_, List.mem_map.2 ⟨x, hx, rfl⟩, hs'⟩, hn⟩, hne⟩
    obtain ⟨e, he⟩ := (C01_broadcast_shapes_error_iff _ hall).2 hcl
    have := C01_broadcast_shapes_error_kind _ hall e he
    subst this
    rw [he]
    rfl
  · have hok : ∀ x ∈ inputs, ∃ s, x.shape = .ok s ∧ ∃ s', broadcastShapes (parts x) = .ok s' ∧ Same s s' ∧ WF s := by
      intro x hx
      rcases shape_parts (h x hx) (hres x hx) with g | ⟨_, g⟩
      · exact g
      · exact absurd ⟨x, hx, g⟩ hc
    obtain ⟨ss, hss⟩ : ∃ ss, inputs.mapM UArg.shape = .ok ss ∧
        List.Forall₂ (fun g s => ∃ s', broadcastShapes g = .ok s' ∧ Same s s' ∧ WF s) (inputs.map parts) ss := by
      clear * - hok
      induction inputs with
      | nil => exact ⟨[], rfl, .nil⟩
      | cons x l ih =>
        obtain ⟨s, g1, g2⟩ := hok x (by simp)
        obtain ⟨ss, g3, g4⟩ := ih (fun y hy => hok y (by simp [hy]))
        refine ⟨s :: ss, ?_, .cons g2 g4⟩
        rw [List.mapM_cons, g1, g3]
        rfl
    rw [hss.1]
    have hg := Comp.broadcast_groups hss.2 (by
      intro g hg s hs
      obtain ⟨x, hx, rfl⟩ := List.mem_map.1 hg
      exact parts_wf (h x hx) s hs) [] (by simp)
    simp only [List.nil_append] at hg
    exact Comp.sameOutcome_symm hg

/-- nominal 5, samples 4, 5, 6 -/
def exU : UA Int := ⟨SA.scalar 5, ⟨[axisD], ND.ofList [3] [4, 5, 6] 0⟩⟩
/-- nominal `(1, 2)` along `x`, samples `(0, 10, 20)` which do not depend on `x` -/
def exV : UA Int := ⟨⟨["x"], ND.ofList [2] [1, 2] 0⟩, ⟨[axisD], ND.ofList [3] [0, 10, 20] 0⟩⟩

example : UArg.Ok (.unc exU) ∧ UArg.Ok (.unc exV) ∧ UArg.Ok (.plain (SA.scalar (7 : Int))) := by
  refine ⟨⟨by decide, by decide, by decide⟩, ⟨by decide, by decide, by decide⟩, (by decide : (SA.scalar (7 : Int)).WF)⟩
example : (ufuncN List.sum [.unc exU, .unc exV, .plain (SA.scalar 100)]).map
      (fun r => (r.nominal.axes, r.nominal.nd.toList, r.distribution.axes, r.distribution.nd.toList)) =
    .ok (["x"], [106, 107], [axisD], [104, 115, 126]) := by decide +kernel
example : ((ufuncN List.sum [.unc exU, .unc exV, .plain (SA.scalar 100)]).bind UA.shape).map
    (fun s => (s.keys, s.values)) = .ok (["x"], [2]) := by decide +kernel
example : (ufuncN List.sum [.unc exU, .plain (⟨[axisD], ND.ofList [3] [1, 2, 3] 0⟩ : SA Int)]).isOk = false := by
  decide +kernel

end UA
end NA
