import Verif.Interp.Composite
import Verif.Props.Tables
import Verif.Props.LiftedKernels
import Verif.Matrix.Lemmas

/-!
# Interpolation in tables of uncertain scalars and of vectors (C102)
-/

namespace NA
open Dict
open SA (InRange)

variable {K : Type} [Field K] [LinearOrder K]

/-- The arguments of an interpolation fit: the tables `xp` and `fp` have `N` elements along the axis `ax`, their other axes and the
axes of the optional arguments broadcast to `O`, and `x` broadcasts against `O` to `X`, where it is not the only one which is
longer than one along an axis of `O`. -/
structure TableFits (x xp fp : SA K) (left right period : Option (SA K)) (ax : String) (N : Nat) (O X : Shape) : Prop where
  wx : x.WF
  wxp : xp.WF
  wfp : fp.WF
  wopt : ∀ v, v = left ∨ v = right ∨ v = period → ∀ w, v = some w → w.WF
  pos : N ≠ 0
  lxp : get? xp.shape ax = some N
  lfp : get? fp.shape ax = some N
  others : broadcastShapes ([xp.shape.erase ax, fp.shape.erase ax] ++ optionShape left ++ optionShape right ++ optionShape period) = .ok O
  fresh : ax ∉ keys O
  all : broadcastShapes [x.shape, O] = .ok X
  full : ∀ y n, get? O y = some n → get? X y = some n

/-- The array `r` has the shape `X` and holds the interpolations of the elements of `x` in the lines of `xp` and `fp` at the same named
indices. -/
structure IsInterp (I : Option K → Option K → Option K → List K → List K → K → K) (x xp fp : SA K) (left right period : Option (SA K))
    (ax : String) (N : Nat) (X : Shape) (r : SA K) : Prop where
  wf : r.WF
  shape : Same r.shape X
  elem : ∀ e, InRange X e → r.at' e = I (left.map (fun v => v.atB e)) (right.map (fun v => v.atB e)) (period.map (fun v => v.atB e))
    (lineOf xp.atB ax N e) (lineOf fp.atB ax N e) (x.atB e)

theorem interp_of_fits (I : Option K → Option K → Option K → List K → List K → K → K) {x xp fp : SA K} {left right period : Option (SA K)}
    {ax : String} {N : Nat} {O X : Shape} (h : TableFits x xp fp left right period ax N O X) {axis : Option String}
    (haxis : axis = some ax ∨ axis = none ∧ xp.axes = [ax]) (garbage : List Nat → K) :
    ∃ r, interp I x xp fp axis left right period garbage = .ok r ∧ IsInterp I x xp fp left right period ax N X r := by
  obtain ⟨r, h1, h2, h3, h4⟩ := C71_interp_partial I x xp fp h.wx h.wxp h.wfp left right period h.wopt ax axis haxis N h.pos h.lxp h.lfp
    O h.others h.fresh X h.all h.full garbage
  exact ⟨r, h1, h2, h3, h4⟩

/-! ### Uncertain scalars -/
namespace UA

/-- The arguments as given, if they are normal. -/
theorem interp_eq (I : Option K → Option K → Option K → List K → List K → K → K) {x xp fp : UArg K} (hx : Fit x) (hxp : Fit xp) (hfp : Fit fp)
    (axis : Option String) {left right period : Option (UArg K)} (hl : ∀ a, left = some a → Fit a) (hr : ∀ a, right = some a → Fit a)
    (hp : ∀ a, period = some a → Fit a) (garbage : Bool → List Nat → K) :
    UA.interp I x xp fp axis left right period garbage = (do
      let n ← NA.interp I x.nominal xp.nominal fp.nominal none (left.map UArg.nominal) (right.map UArg.nominal) (period.map UArg.nominal)
        (garbage false)
      let d ← NA.interp I x.distribution xp.distribution fp.distribution none (left.map UArg.distribution) (right.map UArg.distribution)
        (period.map UArg.distribution) (garbage true)
      UA.mk? n d) := by
  obtain ⟨l, l1, l2, l3⟩ := normOpt_fit hl
  obtain ⟨r, r1, r2, r3⟩ := normOpt_fit hr
  obtain ⟨p, p1, p2, p3⟩ := normOpt_fit hp
  unfold UA.interp
  simp only [bind, Except.bind, (norm_ok hx.1 hx.2).1, (norm_ok hxp.1 hxp.2).1, (norm_ok hfp.1 hfp.2).1, l1, r1, p1, l2, l3, r2, r3, p2, p3]

/-- No argument has the axis of the samples in its nominal value. -/
theorem noD_fit {x : UArg K} (h : Fit x) : axisD ∉ x.nominal.axes := noD_nominal h.1 h.2

theorem noD_erase {s : Shape} {ax : String} (h : axisD ∉ keys s) : axisD ∉ keys (s.erase ax) := by
  rw [keys_erase]
  exact fun hm => h (List.mem_filter.1 hm).1

/-- **C102** (uncertain scalars). If the table of positions has one axis, then the nominal value of the result is the interpolation of
the nominal values and the samples of the result are the interpolations of the samples, whatever the argument `axis` is.
Full claim: for every table of positions with an `axis` of its own; this is false, see `C102_axis_refuted` and `C102_samples_refuted`. -/
theorem C102_uncertain_partial (I : Option K → Option K → Option K → List K → List K → K → K) (x xp fp : UArg K) (hx : Fit x) (hxp : Fit xp)
    (hfp : Fit fp) (axis : Option String) (left right period : Option (UArg K)) (hl : ∀ a, left = some a → Fit a)
    (hr : ∀ a, right = some a → Fit a) (hp : ∀ a, period = some a → Fit a) (ax : String) (h1 : xp.nominal.axes = [ax])
    (h2 : xp.distribution.axes = [ax]) (N M : Nat) (O X P Y : Shape)
    (hn : TableFits x.nominal xp.nominal fp.nominal (left.map UArg.nominal) (right.map UArg.nominal) (period.map UArg.nominal) ax N O X)
    (hd : TableFits x.distribution xp.distribution fp.distribution (left.map UArg.distribution) (right.map UArg.distribution)
      (period.map UArg.distribution) ax M P Y) (garbage : Bool → List Nat → K) :
    ∃ r, UA.interp I x xp fp axis left right period garbage = .ok r ∧ Valid r ∧
      IsInterp I x.nominal xp.nominal fp.nominal (left.map UArg.nominal) (right.map UArg.nominal) (period.map UArg.nominal) ax N X r.nominal ∧
      IsInterp I x.distribution xp.distribution fp.distribution (left.map UArg.distribution) (right.map UArg.distribution)
        (period.map UArg.distribution) ax M Y r.distribution := by
  obtain ⟨n, n1, n2⟩ := interp_of_fits I hn (axis := none) (.inr ⟨rfl, h1⟩) (garbage false)
  obtain ⟨d, d1, d2⟩ := interp_of_fits I hd (axis := none) (.inr ⟨rfl, h2⟩) (garbage true)
  have hopt : ∀ v : Option (UArg K), (∀ a, v = some a → Fit a) → ∀ s ∈ optionShape (v.map UArg.nominal), Dict.WF s ∧ axisD ∉ keys s := by
    intro v hv s hs
    cases v with
    | none => simp [optionShape] at hs
    | some w =>
      simp only [optionShape, Option.map_some, Option.toList_some, List.mem_singleton] at hs
      rw [hs]
      have hw := (norm_ok (hv w rfl).1 (hv w rfl).2).2.1
      exact ⟨SA.wf_shape hw, by rw [SA.keys_shape hw]; exact noD_fit (hv w rfl)⟩
  have hall : ∀ s ∈ [xp.nominal.shape.erase ax, fp.nominal.shape.erase ax] ++ optionShape (left.map UArg.nominal) ++
      optionShape (right.map UArg.nominal) ++ optionShape (period.map UArg.nominal), Dict.WF s ∧ axisD ∉ keys s := by
    intro s hs
    simp only [List.mem_append, List.mem_cons, List.not_mem_nil, or_false] at hs
    rcases hs with (((rfl | rfl) | h) | h) | h
    · exact ⟨Dict.wf_erase (SA.wf_shape hn.wxp) ax, noD_erase (by rw [SA.keys_shape hn.wxp]; exact noD_fit hxp)⟩
    · exact ⟨Dict.wf_erase (SA.wf_shape hn.wfp) ax, noD_erase (by rw [SA.keys_shape hn.wfp]; exact noD_fit hfp)⟩
    · exact hopt left hl s h
    · exact hopt right hr s h
    · exact hopt period hp s h
  have hO := C01_broadcast_shapes_ok _ (fun s hs => (hall s hs).1) O hn.others
  have hOD : axisD ∉ keys O := by
    intro h
    obtain ⟨s, hs, hm⟩ := (hO.2.1 axisD).1 h
    exact (hall s hs).2 hm
  have hXD : axisD ∉ keys X := by
    intro h
    obtain ⟨s, hs, hm⟩ := ((C01_broadcast_shapes_ok _ (by
      intro s hs
      simp only [List.mem_cons, List.not_mem_nil, or_false] at hs
      rcases hs with rfl | rfl
      · exact SA.wf_shape hn.wx
      · exact hO.1) X hn.all).2.1 axisD).1 h
    simp only [List.mem_cons, List.not_mem_nil, or_false] at hs
    rcases hs with rfl | rfl
    · rw [SA.keys_shape hn.wx] at hm; exact noD_fit hx hm
    · exact hOD hm
  have hD : axisD ∉ n.axes := by
    rw [← SA.keys_shape n2.wf, ← get?_eq_none, n2.shape, get?_eq_none]
    exact hXD
  refine ⟨⟨n, d⟩, ?_, ⟨n2.wf, d2.wf, hD⟩, n2, d2⟩
  rw [interp_eq I hx hxp hfp axis hl hr hp]
  simp only [bind, Except.bind, n1, d1]
  exact mk?_of_valid n2.wf hD

/-- **C102** Refuted (tables with several axes): if the nominal table of positions does not have exactly one axis, then the call raises
`ValueError` for every `axis`. -/
theorem C102_axis_refuted (I : Option K → Option K → Option K → List K → List K → K → K) (x xp fp : UArg K) (hx : Fit x) (hxp : Fit xp)
    (hfp : Fit fp) (axis : Option String) (left right period : Option (UArg K)) (hl : ∀ a, left = some a → Fit a)
    (hr : ∀ a, right = some a → Fit a) (hp : ∀ a, period = some a → Fit a) (h : xp.nominal.axes.length ≠ 1) (garbage : Bool → List Nat → K) :
    UA.interp I x xp fp axis left right period garbage = .error .valueError := by
  rw [interp_eq I hx hxp hfp axis hl hr hp, C71_no_axis _ _ _ _ _ _ _ _ h]
  rfl

/-- **C102** Refuted (uncertain tables): if the samples of the positions have an axis of their own besides the axis of the table, then
there is no result, for every `axis`. -/
theorem C102_samples_refuted (I : Option K → Option K → Option K → List K → List K → K → K) (x xp fp : UArg K) (hx : Fit x) (hxp : Fit xp)
    (hfp : Fit fp) (axis : Option String) (left right period : Option (UArg K)) (hl : ∀ a, left = some a → Fit a)
    (hr : ∀ a, right = some a → Fit a) (hp : ∀ a, period = some a → Fit a) (ax : String) (h : ax ∈ xp.distribution.axes) (hax : ax ≠ axisD)
    (hD : axisD ∈ xp.distribution.axes) (garbage : Bool → List Nat → K) (r : UA K) :
    UA.interp I x xp fp axis left right period garbage ≠ .ok r := by
  have hlen : xp.distribution.axes.length ≠ 1 := by
    intro h1
    obtain ⟨y, hy⟩ := List.length_eq_one_iff.1 h1
    rw [hy, List.mem_singleton] at h hD
    exact hax (h.trans hD.symm)
  rw [interp_eq I hx hxp hfp axis hl hr hp, C71_no_axis I x.distribution _ _ _ _ _ _ hlen]
  intro hc
  revert hc
  cases NA.interp I x.nominal xp.nominal fp.nominal none (left.map UArg.nominal) (right.map UArg.nominal) (period.map UArg.nominal)
    (garbage false) with
  | error _ => exact fun hc => nomatch hc
  | ok _ => exact fun hc => nomatch hc

/-- **C102** Plain arguments may not have the axis of the samples. -/
theorem C102_reserved (I : Option K → Option K → Option K → List K → List K → K → K) (x xp fp : UArg K) (hx : x.Ok) (hr : x.Reserved)
    (axis : Option String) (left right period : Option (UArg K)) (garbage : Bool → List Nat → K) :
    UA.interp I x xp fp axis left right period garbage = .error .valueError := by
  unfold UA.interp
  rw [norm_error hx hr]
  rfl

end UA

/-! ### Vectors -/
namespace Comp

/-- All components are scalars. -/
def FlatL {γ : Type} (cs : List (String × Comp γ)) : Prop := ∀ p ∈ cs, ∃ a, p.2 = .leaf a

/-- What a bound means for each component of a vector of type `cls`: `None`, a number or a scalar array is meant for every component of a
vector which has no vectors as components, and a vector of the same type has a component of each name. -/
inductive BoundFor {γ : Type} (cls : String) (cs : List (String × Comp γ)) : Comp (Option (SA K)) → (String → Option (SA K)) → Prop
  | scalar (v : Option (SA K)) (h : FlatL cs) : BoundFor cls cs (.leaf v) (fun _ => v)
  | vector (bs : List (String × Comp (Option (SA K)))) (b : String → Option (SA K))
    (h : ∀ q ∈ keys (cartesianNd cs), (node cls bs).coef q = some (b q)) : BoundFor cls cs (.node cls bs) b

theorem entries_flat {γ : Type} : ∀ {cs : List (String × Comp γ)}, FlatL cs → keys (entries cs) = keys cs
  | [], _ => rfl
  | (k, c) :: l, h => by
    obtain ⟨a, ha⟩ := h (k, c) (by simp)
    have hc : c = .leaf a := ha
    rw [entries, hc, entriesOf]
    have := entries_flat (cs := l) (fun p hp => h p (by simp [hp]))
    unfold keys at this ⊢
    simp [this]

omit [Field K] [LinearOrder K] in
theorem boundParts_ok {γ : Type} {cls : String} {cs : List (String × Comp γ)} (hw : WF cs) (hn : NamedL cs)
    {v : Comp (Option (SA K))} {b : String → Option (SA K)} (h : BoundFor cls cs v b) :
    ∃ d, boundParts cls (keys cs) v = .ok d ∧ ∀ q ∈ keys (cartesianNd cs), get? d q = some (b q) := by
  cases h with
  | scalar v h =>
    refine ⟨_, rfl, fun q hq => ?_⟩
    rw [cartesianNd_eq hw hn, entries_flat h] at hq
    rw [SA.get?_map_list (fun _ => v), if_pos hq]
  | vector bs b h => exact ⟨cartesianNd bs, if_pos rfl, h⟩

/-- **C102** (vectors). Each component of the result, at any depth, is the interpolation of the same component of the table `fp` with the
same component of the bounds.
Full claim: for bounds which are `None`, numbers or scalar arrays also if `fp` has components which are vectors; this is false, see
`C102_nested_refuted`. -/
theorem C102_vector_partial (I : Option K → Option K → Option K → List K → List K → K → K) (x xp : SA K) (cls : String)
    (cs : List (String × Comp (SA K))) (hw : Dict.WF cs) (hn : NamedL cs) (axis : Option String) (left right : Comp (Option (SA K)))
    (period : Option (SA K)) (lb rb : String → Option (SA K)) (hl : BoundFor cls cs left lb) (hr : BoundFor cls cs right rb)
    (ax : String) (haxis : axis = some ax ∨ axis = none ∧ xp.axes = [ax]) (N : Nat) (O X : String → Shape)
    (hf : ∀ q f, (node cls cs).coef q = some f → TableFits x xp f (lb q) (rb q) period ax N (O q) (X q)) (garbage : String → List Nat → K) :
    ∃ r, Comp.interp I x xp cls cs axis left right period garbage = .ok r ∧ r.Named ∧ r.skel = (node cls cs).skel ∧
      ∀ q f, (node cls cs).coef q = some f → ∃ g, r.coef q = some g ∧ IsInterp I x xp f (lb q) (rb q) period ax N (X q) g := by
  obtain ⟨L, l1, l2⟩ := boundParts_ok hw hn hl
  obtain ⟨R, r1, r2⟩ := boundParts_ok hw hn hr
  have hwn := wf_cartesianNd cs
  have hcoef : ∀ q, (node cls cs).coef q = get? (cartesianNd cs) q := fun _ => rfl
  simp only [hcoef] at hf ⊢
  have hstep : ∀ p ∈ cartesianNd cs, ∃ g, interpPart I x xp axis L R period garbage p = .ok (p.1, g) ∧
      IsInterp I x xp p.2 (lb p.1) (rb p.1) period ax N (X p.1) g := by
    intro p hp
    have hk : p.1 ∈ keys (cartesianNd cs) := List.mem_map.2 ⟨p, hp, rfl⟩
    obtain ⟨g, g1, g2⟩ := interp_of_fits I (hf p.1 p.2 (get?_of_mem hwn hp)) haxis (garbage p.1)
    refine ⟨g, ?_, g2⟩
    unfold interpPart
    rw [l2 _ hk, r2 _ hk]
    simp only [g1]
    rfl
  obtain ⟨nd, n1, n2⟩ : ∃ nd, (cartesianNd cs).mapM (interpPart I x xp axis L R period garbage) = .ok nd ∧
      List.Forall₂ (fun p q => q.1 = p.1 ∧ IsInterp I x xp p.2 (lb p.1) (rb p.1) period ax N (X p.1) q.2) (cartesianNd cs) nd := by
    clear hwn hf hcoef l2 r2
    generalize cartesianNd cs = l at hstep
    induction l with
    | nil => exact ⟨[], rfl, .nil⟩
    | cons p l ih =>
      obtain ⟨g, g1, g2⟩ := hstep p (by simp)
      obtain ⟨nd, n1, n2⟩ := ih (fun p hp => hstep p (by simp [hp]))
      refine ⟨(p.1, g) :: nd, ?_, .cons ⟨rfl, g2⟩ n2⟩
      rw [List.mapM_cons, g1, n1]
      rfl
  have hkeys : keys nd = keys (cartesianNd cs) := by
    clear * - n2
    generalize cartesianNd cs = l at n2
    induction n2 with
    | nil => rfl
    | cons h _ ih =>
      show _ :: _ = _ :: _
      rw [h.1]
      exact congrArg _ ih
  have hndw : Dict.WF nd := by unfold Dict.WF; rw [hkeys]; exact hwn
  obtain ⟨r, q1, q2, q3, q4, q5, q6⟩ := fromNdL_ok (h := fun (_ : SA K) (v : SA K) => (.ok v : NA.R (SA K))) hw hn hndw
    (fun q hq => by rw [hkeys]; exact hq) (fun _ _ v _ _ => ⟨v, rfl⟩)
  refine ⟨.node cls r, ?_, ⟨q2, q3⟩, by rw [skel_node, skel_node, q4], fun q f hq => ?_⟩
  · unfold Comp.interp
    simp only [bind, Except.bind, l1, r1, n1]
    rw [show fromCartesianNd nd cs = .ok r from q1]
  · obtain ⟨v, a, h1, h2, h3⟩ := q6 q f hq
    cases h3
    refine ⟨v, h2, ?_⟩
    have : ∀ l : Dict (SA K), List.Forall₂ (fun p q => q.1 = p.1 ∧ IsInterp I x xp p.2 (lb p.1) (rb p.1) period ax N (X p.1) q.2) l nd →
        get? l q = some f → get? nd q = some v → IsInterp I x xp f (lb q) (rb q) period ax N (X q) v := by
      clear * -
      intro l h
      induction h with
      | nil => intro h; cases h
      | cons h _ ih =>
        rw [get?_cons, get?_cons, h.1]
        split
        · rename_i heq
          intro h1 h2
          cases h1; cases h2
          rw [← heq]
          exact h.2
        · exact ih
    exact this _ n2 hq h1

/-- **C102** Refuted (vectors of vectors): if the table has a component which is a vector, and one of the bounds is `None` (which is the
default), a number or a scalar array, then there is no result. -/
theorem C102_nested_refuted (I : Option K → Option K → Option K → List K → List K → K → K) (x xp : SA K) (cls : String)
    (cs : List (String × Comp (SA K))) (axis : Option String) (left right : Comp (Option (SA K)))
    (period : Option (SA K)) (hb : (∃ v, left = .leaf v) ∨ ∃ v, right = .leaf v)
    (q : String) (hq : q ∈ keys (cartesianNd cs)) (hnq : q ∉ keys cs) (garbage : String → List Nat → K) (r : Comp (SA K)) :
    Comp.interp I x xp cls cs axis left right period garbage ≠ .ok r := by
  intro hc
  unfold Comp.interp at hc
  simp only [bind, Except.bind] at hc
  cases hl : boundParts cls (keys cs) left with
  | error e => rw [hl] at hc; cases hc
  | ok L =>
    cases hr : boundParts cls (keys cs) right with
    | error e => rw [hl, hr] at hc; cases hc
    | ok R =>
      rw [hl, hr] at hc
      simp only at hc
      have hbad : get? L q = none ∨ get? R q = none := by
        rcases hb with ⟨v, rfl⟩ | ⟨v, rfl⟩
        · cases hl
          left
          rw [SA.get?_map_list (fun _ => v), if_neg hnq]
        · cases hr
          right
          rw [SA.get?_map_list (fun _ => v), if_neg hnq]
      obtain ⟨f, hf⟩ := exists_get?_of_mem hq
      have hm := mem_of_get? hf
      cases hmap : (cartesianNd cs).mapM (interpPart I x xp axis L R period garbage) with
      | error e => rw [hmap] at hc; cases hc
      | ok nd =>
        have : ∃ y, interpPart I x xp axis L R period garbage (q, f) = .ok y := by
          clear * - hm hmap
          generalize cartesianNd cs = l at hm hmap
          induction l generalizing nd with
          | nil => cases hm
          | cons p l ih =>
            rw [List.mapM_cons] at hmap
            cases hp : interpPart I x xp axis L R period garbage p with
            | error e => rw [hp] at hmap; cases hmap
            | ok y =>
              rw [hp] at hmap
              cases hl : l.mapM (interpPart I x xp axis L R period garbage) with
              | error e => rw [hl] at hmap; cases hmap
              | ok ys =>
                rcases List.mem_cons.1 hm with h | h
                · exact ⟨y, by rw [h]; exact hp⟩
                · exact ih ys h hl
        obtain ⟨y, hy⟩ := this
        unfold interpPart at hy
        rcases hbad with h | h
        · rw [h] at hy; cases hy
        · simp only [h] at hy
          split at hy <;> cases hy

/-- **C102** A bound which is a vector of another type raises `TypeError`. -/
theorem C102_bound_type (I : Option K → Option K → Option K → List K → List K → K → K) (x xp : SA K) (cls : String)
    (cs : List (String × Comp (SA K))) (axis : Option String) (cls' : String) (h : cls' ≠ cls) (bs : List (String × Comp (Option (SA K))))
    (other : Comp (Option (SA K))) (ho : ∀ c bs', other = .node c bs' → c = cls) (period : Option (SA K)) (garbage : String → List Nat → K) :
    Comp.interp I x xp cls cs axis (.node cls' bs) other period garbage = .error .typeError ∧
    Comp.interp I x xp cls cs axis other (.node cls' bs) period garbage = .error .typeError := by
  have hb : boundParts (K := K) cls (keys cs) (.node cls' bs) = .error .typeError := if_neg h
  have hoth : ∃ d, boundParts cls (keys cs) other = .ok d := by
    cases other with
    | leaf v => exact ⟨_, rfl⟩
    | node c bs' => exact ⟨_, if_pos (ho c bs' rfl)⟩
  obtain ⟨d, hd⟩ := hoth
  unfold Comp.interp
  constructor
  · simp only [bind, Except.bind, hb]
  · simp only [bind, Except.bind, hb, hd]

end Comp

/-! ### Examples -/
section Examples

/-- `[0, 3/2, 4, 5]` along `t` -/
def exTq : SA ℚ := ⟨["t"], ND.vec [0, 3/2, 4, 5]⟩

/-- `[10, 20, 40]` with the samples `[[10, 20, 40], [0, 1, 0]]` -/
def exTu : UArg ℚ := .unc ⟨⟨["x"], ND.vec [10, 20, 40]⟩, ⟨[axisD, "x"], exTf.nd⟩⟩

def exTuRun (xp fp : UArg ℚ) (axis : Option String) : Option (List ℚ × List String × List ℚ) :=
  (UA.interp (fun l r _ => npInterp l r) (.plain exTq) xp fp axis (some (.plain (SA.scalar (-1)))) none none (fun _ _ => 77)).toOption.map
    (fun r => (r.nominal.nd.toList, r.distribution.axes, r.distribution.nd.toList))

example : exTuRun (.plain exTx) exTu (some "x") = some ([-1, 15, 40, 40], ["t", axisD], [-1, -1, 15, 1/2, 40, 0, 40, 0]) := by decide +kernel

/-- the hypotheses of `C102_uncertain_partial` -/
example : UA.Fit exTu ∧ UA.Fit (.plain exTx) ∧ UA.Fit (.plain exTq) :=
  ⟨⟨⟨⟨rfl, by decide⟩, ⟨rfl, by decide⟩, by decide⟩, fun h => h⟩,
   ⟨⟨rfl, by decide⟩, (by decide : axisD ∉ exTx.axes)⟩, ⟨⟨rfl, by decide⟩, (by decide : axisD ∉ exTq.axes)⟩⟩

example : TableFits exTq exTx exTu.distribution none none none "x" 3 [(axisD, 2)] [("t", 4), (axisD, 2)] where
  wx := ⟨rfl, by decide⟩
  wxp := ⟨rfl, by decide⟩
  wfp := ⟨rfl, by decide⟩
  wopt := by rintro v (rfl | rfl | rfl) w h <;> cases h
  pos := by decide
  lxp := by decide
  lfp := by decide
  others := by decide
  fresh := by decide
  all := by decide
  full := by
    intro y n h
    rw [get?_cons, get?_nil] at h
    split at h
    · rename_i hy
      rw [← hy]
      cases h
      decide
    · cases h

/-- positions with samples, and positions with two axes -/
example : exTuRun (.unc ⟨exTx, ⟨[axisD, "x"], exTf.nd⟩⟩) exTu (some "x") = none ∧ exTuRun (.plain exTf) exTu (some "x") = none := by
  decide +kernel

/-- `Cartesian2dVectorArray(x=[10, 20, 40], y=[[10, 20, 40], [0, 1, 0]])` -/
def exTv : List (String × Comp (SA ℚ)) := [("x", .leaf ⟨["x"], ND.vec [10, 20, 40]⟩), ("y", .leaf exTf)]

def exTvRun (cs : List (String × Comp (SA ℚ))) (left right : Comp (Option (SA ℚ))) : R (Dict (List ℚ)) :=
  (Comp.interp (fun l r _ => npInterp l r) exTq exTx "v" cs none left right none (fun _ _ => 77)).map
    (fun r => match r with | .leaf _ => [] | .node _ rs => (Comp.cartesianNd rs).map (fun p => (p.1, p.2.nd.toList)))

example : exTvRun exTv (.node "v" [("x", .leaf (some (SA.scalar (-1)))), ("y", .leaf none)]) (.leaf none) =
    .ok [("x", [-1, 15, 40, 40]), ("y", [10, 0, 15, 1/2, 40, 0, 40, 0])] := by decide +kernel

example : Comp.BoundFor "v" exTv (.leaf none) (fun _ => (none : Option (SA ℚ))) := by
  refine .scalar _ (fun p hp => ?_)
  simp only [exTv, List.mem_cons, List.not_mem_nil, or_false] at hp
  rcases hp with rfl | rfl
  · exact ⟨_, rfl⟩
  · exact ⟨_, rfl⟩

/-- a vector with the vector as a component -/
def exTn : List (String × Comp (SA ℚ)) := [("w", .leaf ⟨["x"], ND.vec [10, 20, 40]⟩), ("p", .node "v" exTv)]

/-- **C102** Refuted (vectors of vectors, witness): the defaults raise `KeyError`; there is a result if both bounds are vectors of vectors. -/
theorem C102_nested_default_refuted :
    exTvRun exTn (.leaf none) (.leaf none) = .error .keyError ∧
    exTvRun exTn (.node "v" [("w", .leaf none), ("p", .node "v" [("x", .leaf none), ("y", .leaf none)])])
      (.node "v" [("w", .leaf none), ("p", .node "v" [("x", .leaf none), ("y", .leaf none)])]) =
    .ok [("w", [10, 15, 40, 40]), ("p.x", [10, 15, 40, 40]), ("p.y", [10, 0, 15, 1/2, 40, 0, 40, 0])] := by decide +kernel

example : Dict.WF exTn ∧ "p.x" ∈ keys (Comp.cartesianNd exTn) ∧ "p.x" ∉ keys exTn := by
  refine ⟨?_, by decide, by decide⟩
  unfold Dict.WF
  decide

example : Comp.NamedL exTn := by
  simp only [exTn, exTv, Comp.NamedL, Comp.Named, Dict.WF]
  decide

end Examples
end NA
