import Verif.Props.GradientDescent
import Verif.Props.Indexing

/-!
# The secant method: helper lemmas
-/

namespace NA
namespace Optimize
open Dict Comp
open SA (FitsIn InRange)
variable {F : Type}

theorem aligned_self {α : Type} {a : SA α} {axes : List String} (h : axes = a.axes) : a.aligned axes = .ok a.nd := by
  subst h
  unfold SA.aligned
  simp

theorem bshape_self : ∀ s : List Nat, ND.bshape s s = .ok s
  | [] => rfl
  | n :: s => by simp [ND.bshape, bshape_self s, ND.bdim, bind, Except.bind]

theorem clipIdx_inRange : ∀ {s i : List Nat}, ND.InRange s i → ND.clipIdx s i = i
  | [], [], _ => rfl
  | n :: s, k :: i, h => by
    have h' : k < n ∧ ND.InRange s i := by simpa [ND.InRange] using h
    have := clipIdx_inRange h'.2
    simp only [ND.clipIdx, List.zipWith_cons_cons] at this ⊢
    rw [this]
    congr 1
    split <;> omega
  | [], _ :: _, h => by simp [ND.InRange] at h
  | _ :: _, [], h => by simp [ND.InRange] at h

/-- `a op= b`: the result has the axes and the shape of `a`, `b` must fit. -/
theorem inplace2_ok {α β : Type} {f : α → β → α} {a r : SA α} {b : SA β} (ha : a.WF) (hb : b.WF)
    (h : inplace2 f a b = .ok r) :
    r.WF ∧ r.axes = a.axes ∧ r.shape = a.shape ∧ FitsIn b.shape a.shape ∧
      ∀ e, InRange a.shape e → r.at' e = f (a.at' e) (b.atB e) := by
  have hk : keys a.shape = a.axes := SA.keys_shape ha
  have hv : values a.shape = a.nd.shape := SA.values_shape ha
  simp only [inplace2, bind, Except.bind] at h
  cases h6 : b.aligned a.axes with
  | error e => rw [h6] at h; cases h
  | ok w =>
    rw [h6] at h
    simp only at h
    cases h7 : w.broadcastTo a.nd.shape with
    | error e => rw [h7] at h; cases h
    | ok w' =>
      rw [h7] at h
      simp only at h
      have hbt : b.broadcastTo a.shape = .ok ⟨a.axes, w'⟩ := by
        have hw' : w'.shape = a.nd.shape := by
          unfold ND.broadcastTo at h7
          split at h7
          · cases h7; rfl
          · cases h7
        unfold SA.broadcastTo
        simp only [bind, Except.bind, Bool.false_eq_true, if_false, hk, hv, h6, h7]
        exact SA.mk?_of_wf (by rw [← ha.1]; simp [ND.ndim, hw']) ha.2
      rcases SA.C10_broadcast_to b hb a.shape (SA.wf_shape ha) with ⟨h1, b', h2, h3, h4, h5⟩ | ⟨h1, h2⟩
      · rw [hbt] at h2
        simp only [Except.ok.injEq] at h2
        subst h2
        have hw' : w'.shape = a.nd.shape := by rw [← hv, ← h4]; exact (SA.values_shape h3).symm
        simp only [ND.ufunc2, hw', bshape_self, bind, Except.bind, Except.ok.injEq] at h
        subst h
        refine ⟨ha, rfl, rfl, h1, fun e he => ?_⟩
        have hc := clipIdx_inRange ((SA.inRange_nd ha).1 he)
        have := h5 e
        simp only [SA.at'] at this ⊢
        rw [hc, this]
      · rw [hbt] at h2; cases h2

theorem inplace2_isOk {α β : Type} (f : α → β → α) {a : SA α} {b : SA β} (ha : a.WF) (hb : b.WF)
    (h : FitsIn b.shape a.shape) : ∃ r, inplace2 f a b = .ok r := by
  have hk : keys a.shape = a.axes := SA.keys_shape ha
  have hv : values a.shape = a.nd.shape := SA.values_shape ha
  rcases SA.C10_broadcast_to b hb a.shape (SA.wf_shape ha) with ⟨_, b', h2, h3, h4, h5⟩ | ⟨h1, _⟩
  · have hb' : b'.nd.shape = a.nd.shape := by rw [← hv, ← h4]; exact (SA.values_shape h3).symm
    simp only [SA.broadcastTo, bind, Except.bind, Bool.false_eq_true, if_false, hk, hv] at h2
    simp only [inplace2, bind, Except.bind]
    cases h6 : b.aligned a.axes with
    | error e => rw [h6] at h2; cases h2
    | ok w =>
      rw [h6] at h2
      simp only at h2 ⊢
      cases h7 : w.broadcastTo a.nd.shape with
      | error e => rw [h7] at h2; cases h2
      | ok w' =>
        rw [h7] at h2
        simp only at h2 ⊢
        have := (SA.mk?_ok h2).1
        subst this
        simp only at hb'
        simp only [ND.ufunc2, hb', bshape_self, bind, Except.bind, Except.ok.injEq, exists_eq']
  · exact absurd h h1

theorem reduce_all_axes {α β : Type} {a : SA α} (ha : a.WF) {wh : Option (SA Bool)} (hw : SA.WhereOk a wh)
    (f : List α → β) :
    ∃ r, SA.reduce false f a none false wh none = .ok r ∧ ∃ l : List (String → Nat), (∀ e : String → Nat, InRange a.shape e →
      ∃ e' ∈ l, ∀ ax ∈ a.axes, e' ax = e ax) ∧ (∀ e' ∈ l, InRange a.shape e') ∧
      r.nd.get [] = f ((l.filter (SA.selected wh)).map a.at') := by
  rw [SA.C17_axis_none a ha wh hw]
  obtain ⟨r, h1, h2, h3, h4, h5⟩ := SA.C17_reduce a ha wh hw a.axes ha.2 (List.Subset.refl _) false f false (by simp)
  obtain ⟨l, h6, h7⟩ := h5 (fun _ => 0)
  simp only [Bool.false_eq_true, if_false] at h3
  have h8 : r.axes = [] := by rw [h3]; simp
  refine ⟨r, h1, l, ?_, ?_, ?_⟩
  · intro e he
    refine ⟨fun ax => if ax ∈ a.axes then e ax else 0, (h6.2 _).2 ⟨?_, ?_⟩, ?_⟩
    · intro ax hax
      rw [← SA.keys_shape ha] at hax
      obtain ⟨n, hn⟩ := exists_get?_of_mem hax
      rw [SA.keys_shape ha] at hax
      exact ⟨n, hn, by simp only [hax, if_true]; exact he ax n hn⟩
    · intro ax hax; simp [hax]
    · intro ax hax; simp [hax]
  · intro e' he' ax n hn
    obtain ⟨m, hm, hlt⟩ := ((h6.2 _).1 he').1 ax (by rw [← SA.keys_shape ha]; exact mem_keys_of_get? hn)
    rw [hn] at hm
    cases hm
    exact hlt
  · rw [← h7]
    simp [SA.at', h8]

theorem truth_all {a : SA Bool} (ha : a.WF) :
    ∃ r, SA.reduce false (fun l => l.all id) a none false none none = .ok r ∧
      (truth r = true ↔ ∀ e, InRange a.shape e → a.at' e = true) := by
  obtain ⟨r, h1, l, h2, h3, h4⟩ := reduce_all_axes ha (wh := none) (fun w hw => by cases hw) (fun l => l.all id)
  refine ⟨r, h1, ?_⟩
  unfold truth
  rw [h4]
  simp only [List.all_eq_true, List.mem_map, List.mem_filter, SA.selected, and_true, id_eq]
  constructor
  · intro h e he
    obtain ⟨e', h5, h6⟩ := h2 e he
    rw [← SA.at'_congr h6]
    exact h _ ⟨e', h5, rfl⟩
  · rintro h x ⟨e', h5, rfl⟩
    exact h e' (h3 e' h5)

theorem truth_any {a : SA Bool} (ha : a.WF) {wh : Option (SA Bool)} (hw : SA.WhereOk a wh) :
    ∃ r, SA.reduce false (fun l => l.any id) a none false wh none = .ok r ∧
      (truth r = true ↔ ∃ e, InRange a.shape e ∧ SA.selected wh e = true ∧ a.at' e = true) := by
  obtain ⟨r, h1, l, h2, h3, h4⟩ := reduce_all_axes ha hw (fun l => l.any id)
  refine ⟨r, h1, ?_⟩
  unfold truth
  rw [h4]
  simp only [List.any_eq_true, List.mem_map, List.mem_filter, id_eq]
  constructor
  · rintro ⟨x, ⟨e', ⟨h5, h6⟩, rfl⟩, h7⟩
    exact ⟨e', h3 e' h5, h6, h7⟩
  · rintro ⟨e, h5, h6, h7⟩
    obtain ⟨e', h8, h9⟩ := h2 e h5
    refine ⟨_, ⟨e', ⟨h8, ?_⟩, rfl⟩, ?_⟩
    · cases wh with
      | none => rfl
      | some w =>
        simp only [SA.selected] at h6 ⊢
        rw [← h6]
        refine SA.atB_congr (fun ax hax => h9 ax ?_)
        obtain ⟨hww, hwf⟩ := hw w rfl
        rw [← SA.keys_shape hww] at hax
        obtain ⟨m, hm⟩ := exists_get?_of_mem hax
        obtain ⟨n, hn, _⟩ := hwf ax m hm
        rw [← SA.keys_shape ha]
        exact mem_keys_of_get? hn
    · rw [SA.at'_congr h9]
      exact h7

/-- Reading the selected elements of an array of the shape of the mask. -/
theorem getMask_full {α : Type} {S : Shape} {a : SA α} (ha : Full S a) {mask : SA Bool} (hm : Full S mask) {s : String}
    (hs : SA.maskAxis mask = .ok s) :
    ∃ r, a.getMask mask = .ok r ∧ Full [(s, mask.nd.trues.length)] r ∧
      ∀ e, e s < mask.nd.trues.length → r.at' e = a.at' (SA.trueEnv mask (e s)) := by
  have hax : ∀ ax, ax ∈ a.axes ↔ ax ∈ mask.axes := by
    intro ax
    rw [← SA.keys_shape ha.1, ← SA.keys_shape hm.1, ← get?_isSome, ← get?_isSome, ha.2 ax, hm.2 ax]
  have hfil : a.axes.filter (· ∉ mask.axes) = [] := by
    simp only [List.filter_eq_nil_iff, decide_eq_true_eq, not_not]
    exact fun ax h => (hax ax).1 h
  obtain ⟨s', h1, _, h3⟩ := ((SA.getMask_main ha.1 hm.1).2 (fun ax h => (hax ax).2 h)).2
    (fun ax _ => by rw [ha.2 ax, hm.2 ax])
  rw [hs] at h1
  cases h1
  obtain ⟨r, h4, h5, h6, h7, h8, h9⟩ := h3 (by rw [hfil]; simp)
  rw [hfil, List.nil_append] at h6
  refine ⟨r, h4, ⟨h5, ?_⟩, ?_⟩
  · intro ax
    by_cases hx : ax = s
    · subst hx; rw [h8]; simp [get?_cons]
    · have : get? r.shape ax = none := by
        rw [get?_eq_none, SA.keys_shape h5, h6]
        simpa using hx
      rw [this]
      simp [get?_cons, Ne.symm hx]
  · intro e he
    rw [h9 e he]
    refine SA.at'_congr (fun ax h => ?_)
    simp [SA.maskIdx, (hax ax).1 h]

theorem _root_.NA.Full.inRange {α : Type} {S : Shape} {a : SA α} (h : Full S a) {e : String → Nat} :
    InRange a.shape e ↔ InRange S e := by
  have h2 : ∀ ax, get? a.shape ax = get? S ax := h.2
  unfold SA.InRange
  simp only [h2]

/-- The correction of one element. -/
def correctionOf (o : Arith F) (damping : Option F) (dx f0 f1 : F) : F :=
  match damping with
  | none => o.div f1 (o.div (o.sub f1 f0) dx)
  | some d => o.mul d (o.div f1 (o.div (o.sub f1 f0) dx))

theorem secantCorrection_main (o : Arith F) (damping : Option F) {S : Shape} {dx f0 f1 : SA F} (hx : Full S dx)
    (h0 : Full S f0) (h1 : Full S f1) :
    ((∃ e, InRange S e ∧ o.eq (o.sub (f1.at' e) (f0.at' e)) o.zero = true) ∧
      secantCorrection o damping dx f0 f1 = .error .valueError) ∨
    ((¬ ∃ e, InRange S e ∧ o.eq (o.sub (f1.at' e) (f0.at' e)) o.zero = true) ∧
      ∃ c, secantCorrection o damping dx f0 f1 = .ok c ∧ Full S c ∧
        ∀ e, InRange S e → c.at' e = correctionOf o damping (dx.at' e) (f0.at' e) (f1.at' e)) := by
  obtain ⟨df, a1, a2, a3⟩ := ufunc2_full o.sub h1 h0.fits
  obtain ⟨z, b1, b2, b3⟩ := ufunc1_full (fun v => o.eq v o.zero) a2
  obtain ⟨r, c1, c2⟩ := truth_any b2.1 (wh := none) (fun w hw => by cases hw)
  obtain ⟨j, d1, d2, d3⟩ := ufunc2_full o.div a2 hx.fits
  obtain ⟨q, g1, g2, g3⟩ := ufunc2_full o.div h1 d2.fits
  have hr : ∀ e, InRange z.shape e ↔ InRange S e := by
    intro e
    exact b2.inRange
  have hz : truth r = true ↔ ∃ e, InRange S e ∧ o.eq (o.sub (f1.at' e) (f0.at' e)) o.zero = true := by
    rw [c2]
    refine exists_congr fun e => ?_
    rw [hr]
    refine and_congr_right fun he => ?_
    rw [← b2.atB he, b3, a3, h1.atB he, h0.atB he]
    simp [SA.selected]
  rw [← hz]
  cases ht : truth r with
  | true =>
    left
    refine ⟨rfl, ?_⟩
    simp only [secantCorrection, bind, Except.bind, a1, b1, c1, ht, if_true]
  | false =>
    right
    refine ⟨by simp, ?_⟩
    have hq : ∀ e, InRange S e → q.at' e = o.div (f1.at' e) (o.div (o.sub (f1.at' e) (f0.at' e)) (dx.at' e)) := by
      intro e he
      rw [← g2.atB he, g3, d3, a3, h1.atB he, h0.atB he, hx.atB he]
    cases damping with
    | none =>
      refine ⟨q, ?_, g2, hq⟩
      simp only [secantCorrection, bind, Except.bind, a1, b1, c1, ht, d1, g1, Bool.false_eq_true, if_false]
    | some d =>
      obtain ⟨u, u1, u2, u3⟩ := ufunc2_full' o.mul (fits_scalar S d) g2
      refine ⟨u, ?_, u2, fun e he => ?_⟩
      · simp only [secantCorrection, bind, Except.bind, a1, b1, c1, ht, d1, g1, Bool.false_eq_true, if_false]
        exact u1
      · rw [← u2.atB he, u3, g2.atB he, hq e he]
        rfl

theorem secantUpdate_main (o : Arith F) {S : Shape} {x1 : SA F} {active : SA Bool} {correction : SA F} (hx : Full S x1)
    (ha : Full S active) {s : String} (hs : SA.maskAxis active = .ok s)
    (hc : Full [(s, active.nd.trues.length)] correction) :
    ∃ x2, secantUpdate o x1 active correction = .ok x2 ∧ x2.WF ∧ x2.axes = x1.axes ∧ x2.shape = x1.shape ∧
      (∀ e, InRange S e → active.at' e = false → x2.at' e = x1.at' e) ∧
      ∀ k, k < active.nd.trues.length → x2.at' (SA.trueEnv active k) =
        o.sub (x1.at' (SA.trueEnv active k)) (correction.at' (fun _ => k)) := by
  obtain ⟨v, a1, a2, a3⟩ := getMask_full hx ha hs
  have hfit : FitsIn correction.shape v.shape := by
    intro ax m hm
    exact ⟨m, by rw [a2.2 ax, ← hc.2 ax]; exact hm, .inl rfl⟩
  obtain ⟨w, b1⟩ := inplace2_isOk o.sub a2.1 hc.1 hfit
  obtain ⟨b2, b3, b4, _, b5⟩ := inplace2_ok a2.1 hc.1 b1
  have hw : Full [(s, active.nd.trues.length)] w := ⟨b2, fun ax => by rw [b4, a2.2 ax]⟩
  have hax : ∀ ax, ax ∈ x1.axes ↔ ax ∈ active.axes := by
    intro ax
    rw [← SA.keys_shape hx.1, ← SA.keys_shape ha.1, ← get?_isSome, ← get?_isSome, hx.2 ax, ha.2 ax]
  have hfil : x1.axes.filter (· ∉ active.axes) = [] := by
    simp only [List.filter_eq_nil_iff, decide_eq_true_eq, not_not]
    exact fun ax h => (hax ax).1 h
  have hwax : ∀ ax ∈ w.axes, ax = s := by
    intro ax h
    rw [← SA.keys_shape b2, ← get?_isSome, hw.2 ax] at h
    by_contra hne
    simp [get?_cons, Ne.symm hne] at h
  obtain ⟨s', c1, c2⟩ := (SA.setMask_main hx.1 b2 ha.1).2 (fun ax h => (hax ax).2 h)
  rw [hs] at c1
  cases c1
  rw [hfil] at c2
  obtain ⟨_, c4⟩ := (((c2 (by simp)).2 (fun ax h => by simp [hwax ax h])).2 (fun ax _ => by rw [hx.2 ax, ha.2 ax]))
  obtain ⟨x2, d1, d2, d3, d4, d5, d6⟩ := c4 (fun m hm => by
      rw [hw.2 s] at hm
      simp only [get?_cons, if_true, Option.some.injEq] at hm
      exact .inl hm.symm) (fun ax m h1 h2 _ => absurd ((hax ax).1 h1) h2)
  refine ⟨x2, ?_, d2, d3, d4, fun e he => d5 e (hx.inRange.2 he), fun k hk => ?_⟩
  · simp only [secantUpdate, bind, Except.bind, a1, b1, d1]
  · have hin : InRange v.shape (fun _ => k) := by
      rw [a2.inRange]
      intro ax n hn
      simp only [get?_cons, get?_nil] at hn
      split at hn
      · cases hn; exact hk
      · cases hn
    have h1 := d6 (fun _ => k) (fun ax n h2 h3 => absurd ((hax ax).1 (by
      rw [← SA.keys_shape hx.1]; exact mem_keys_of_get? h3)) h2) hk
    rw [show x2.at' (SA.maskIdx active s (fun _ => k)) = x2.at' (SA.trueEnv active k) from
      SA.at'_congr (fun ax h => by
        rw [d3] at h
        simp [SA.maskIdx, (hax ax).1 h])] at h1
    rw [h1, hw.atB (a2.inRange.1 hin), b5 _ hin, a3 _ hk, hc.atB (a2.inRange.1 hin)]

theorem getMask_ok_full {α : Type} {S : Shape} {a r : SA α} (ha : Fits S a) {mask : SA Bool} (hm : Full S mask)
    (h : a.getMask mask = .ok r) : Full S a := by
  refine ⟨ha.1, fun ax => ?_⟩
  by_cases h1 : mask.axes ⊆ a.axes
  · by_cases h2 : ∃ ax ∈ mask.axes, get? mask.shape ax ≠ get? a.shape ax
    · rw [((SA.getMask_main ha.1 hm.1).2 h1).1 h2] at h
      cases h
    · push Not at h2
      by_cases hx : ax ∈ mask.axes
      · rw [← h2 ax hx, hm.2 ax]
      · have hS : get? S ax = none := by
          rw [← hm.2 ax, get?_eq_none, SA.keys_shape hm.1]
          exact hx
        cases hg : get? a.shape ax with
        | none => exact hS.symm
        | some m =>
          obtain ⟨n, hn, _⟩ := ha.2 ax m hg
          rw [hS] at hn
          cases hn
  · rw [(SA.getMask_main ha.1 hm.1).1 h1] at h
    cases h

/-- Everything about one step, for values of full shape. -/
theorem secantStep_main (o : Arith F) (damping : Option F) {S : Shape} (s : SecantState F) {f1 : SA F} {conv : SA Bool}
    {dx : SA F} (hx1 : Full S s.x1) (hf0 : Full S s.f0) (hf1 : Full S f1) (hc : Full S conv) (hdx : Full S dx) :
    ((∃ e, InRange S e ∧ conv.at' e = false ∧ o.eq (o.sub (f1.at' e) (s.f0.at' e)) o.zero = true) ∧
      secantStep o damping s f1 conv dx = .error .valueError) ∨
    ((¬ ∃ e, InRange S e ∧ conv.at' e = false ∧ o.eq (o.sub (f1.at' e) (s.f0.at' e)) o.zero = true) ∧
      ∃ x2, secantStep o damping s f1 conv dx = .ok ⟨s.i + 1, s.x1, x2, f1, conv⟩ ∧ x2.WF ∧ x2.shape = s.x1.shape ∧
        ∀ e, InRange S e → x2.at' e = if conv.at' e = true then s.x1.at' e
          else o.sub (s.x1.at' e) (correctionOf o damping (dx.at' e) (s.f0.at' e) (f1.at' e))) := by
  obtain ⟨active, a1, a2, a3⟩ := ufunc1_full not hc
  obtain ⟨df, b1, b2, b3⟩ := ufunc2_full o.sub hf1 hf0.fits
  obtain ⟨z, c1, c2, c3⟩ := ufunc1_full (fun v => o.eq v o.zero) b2
  have hwh : SA.WhereOk z (some active) := by
    rintro w hw
    cases hw
    exact ⟨a2.1, fun ax m hm => ⟨m, by rw [c2.2 ax, ← a2.2 ax]; exact hm, .inl rfl⟩⟩
  obtain ⟨r, d1, d2⟩ := truth_any c2.1 hwh
  have hact : ∀ e, InRange S e → active.at' e = !conv.at' e := by
    intro e he
    rw [← a2.atB he, a3, hc.atB he]
  have hz : truth r = true ↔
      ∃ e, InRange S e ∧ conv.at' e = false ∧ o.eq (o.sub (f1.at' e) (s.f0.at' e)) o.zero = true := by
    rw [d2]
    refine exists_congr fun e => ?_
    rw [c2.inRange]
    refine and_congr_right fun he => ?_
    rw [← c2.atB he, c3, b3, hf1.atB he, hf0.atB he]
    simp [SA.selected, a2.atB he, hact e he]
  rw [← hz]
  cases ht : truth r with
  | true =>
    left
    refine ⟨rfl, ?_⟩
    simp only [secantStep, bind, Except.bind, a1, b1, c1, d1, ht, if_true]
  | false =>
    right
    refine ⟨by simp, ?_⟩
    obtain ⟨m, hm⟩ : ∃ m, SA.maskAxis active = .ok m := ⟨_, SA.maskAxis_ok active⟩
    obtain ⟨dxA, e1, e2, e3⟩ := getMask_full hdx a2 hm
    obtain ⟨f0A, g1, g2, g3⟩ := getMask_full hf0 a2 hm
    obtain ⟨f1A, i1, i2, i3⟩ := getMask_full hf1 a2 hm
    obtain ⟨t1, _, t3⟩ := SA.trues_spec a2.1
    have hlt : ∀ e, InRange [(m, active.nd.trues.length)] e → e m < active.nd.trues.length := by
      intro e he
      exact he m _ (by simp [get?_cons])
    rcases secantCorrection_main o damping e2 g2 i2 with ⟨⟨e, k1, k2⟩, _⟩ | ⟨_, corr, k1, k2, k3⟩
    · exfalso
      have hk := hlt e k1
      rw [g3 e hk, i3 e hk] at k2
      obtain ⟨u1, u2⟩ := t1 _ hk
      have u3 := a2.inRange.1 u1
      rw [hact _ u3] at u2
      have := hz.2 ⟨_, u3, by simpa using u2, k2⟩
      rw [ht] at this
      cases this
    · obtain ⟨x2, l1, l2, l3, l4, l5, l6⟩ := secantUpdate_main o hx1 a2 hm k2
      refine ⟨x2, ?_, l2, l4, fun e he => ?_⟩
      · simp only [secantStep, bind, Except.bind, a1, b1, c1, d1, ht, Bool.false_eq_true, if_false, e1, g1, i1, k1, l1]
      · by_cases hce : conv.at' e = true
        · rw [if_pos hce]
          exact l5 e he (by rw [hact e he, hce]; rfl)
        · rw [if_neg hce]
          obtain ⟨k, hk, hek⟩ := t3 e (a2.inRange.2 he) (by rw [hact e he]; simpa using hce)
          have hin : InRange [(m, active.nd.trues.length)] (fun _ => k) := by
            intro ax n hn
            simp only [get?_cons, get?_nil] at hn
            split at hn
            · cases hn; exact hk
            · cases hn
          have hsame : ∀ {α : Type} {a : SA α}, Full S a → a.at' (SA.trueEnv active k) = a.at' e := by
            intro α a ha
            refine SA.at'_congr (fun ax hax => hek ax ?_)
            rw [← SA.keys_shape ha.1, ← get?_isSome, ha.2 ax, ← a2.2 ax, get?_isSome, SA.keys_shape a2.1] at hax
            exact hax
          have hx2 : Full S x2 := ⟨l2, fun ax => by rw [l4, hx1.2 ax]⟩
          rw [← hsame hx2, l6 k hk, k3 _ hin, e3 _ hk, g3 _ hk, i3 _ hk, hsame hx1, hsame hdx, hsame hf0, hsame hf1]

/-- A successful step uses values of full shape. -/
theorem secantStep_full {o : Arith F} {damping : Option F} {S : Shape} {s s' : SecantState F} {f1 : SA F} {conv : SA Bool}
    {dx : SA F} (hf0 : Fits S s.f0) (hf1 : Fits S f1) (hc : Full S conv)
    (h : secantStep o damping s f1 conv dx = .ok s') : Full S s.f0 ∧ Full S f1 := by
  obtain ⟨active, a1, a2, a3⟩ := ufunc1_full not hc
  simp only [secantStep, bind, Except.bind, a1] at h
  cases h1 : SA.ufunc2 o.sub f1 s.f0 with
  | error e => rw [h1] at h; cases h
  | ok df =>
    rw [h1] at h
    simp only at h
    cases h2 : SA.ufunc1 (fun v => o.eq v o.zero) df with
    | error e => rw [h2] at h; cases h
    | ok z =>
      rw [h2] at h
      simp only at h
      cases h3 : SA.reduce false (fun l => l.any id) z none false (some active) none with
      | error e => rw [h3] at h; cases h
      | ok r =>
        rw [h3] at h
        simp only at h
        split at h
        · cases h
        · cases h4 : dx.getMask active with
          | error e => rw [h4] at h; cases h
          | ok dxA =>
            rw [h4] at h
            simp only at h
            cases h5 : s.f0.getMask active with
            | error e => rw [h5] at h; cases h
            | ok f0A =>
              rw [h5] at h
              simp only at h
              cases h6 : f1.getMask active with
              | error e => rw [h6] at h; cases h
              | ok f1A => exact ⟨getMask_ok_full hf0 a2 h5, getMask_ok_full hf1 a2 h6⟩

/-- Everything about the marking of the converged elements. -/
theorem secantMark_ok {o : Arith F} {minStep err f1 : SA F} {s : SecantState F} {conv : SA Bool} {dx : SA F} {S : Shape}
    (hx1 : Full S s.x1) (hx0 : s.x0.WF) (hc : s.converged.WF) (hcs : s.converged.shape = S) (hm : minStep.WF)
    (he : err.WF) (hf1 : f1.WF) (h : secantMark o minStep err s f1 = .ok (conv, dx)) :
    conv.WF ∧ conv.shape = S ∧ Full S dx ∧ Fits S f1 ∧
      (∀ e, InRange S e → dx.at' e = o.sub (s.x1.at' e) (s.x0.atB e)) ∧
      ∀ e, InRange S e → conv.at' e = (s.converged.at' e || o.lt (o.abs (f1.atB e)) (err.atB e) ||
        o.lt (o.abs (o.sub (s.x1.at' e) (s.x0.atB e))) (o.abs (minStep.atB e))) := by
  obtain ⟨a, a1, a2, a3⟩ := SA.C07_ufunc1_values o.abs f1 hf1
  obtain ⟨m, b1, b2, b3⟩ := SA.C07_ufunc1_values o.abs minStep hm
  have up : ∀ {α β : Type} {g : α → β} {y : SA α} {y' : SA β}, y'.shape = y.shape → (∀ e, y'.at' e = g (y.at' e)) →
      ∀ e, y'.atB e = g (y.atB e) := by
    intro α β g y y' h1 h2 e
    unfold SA.atB
    rw [h2, h1]
  simp only [secantMark, bind, Except.bind, a1, b1] at h
  cases h1 : SA.ufunc2 o.lt a err with
  | error e => rw [h1] at h; cases h
  | ok c =>
    rw [h1] at h
    simp only at h
    cases h2 : inplace2 or s.converged c with
    | error e => rw [h2] at h; cases h
    | ok conv1 =>
      rw [h2] at h
      simp only at h
      cases h3 : SA.ufunc2 o.sub s.x1 s.x0 with
      | error e => rw [h3] at h; cases h
      | ok dx' =>
        rw [h3] at h
        simp only at h
        have hd := SA.ufunc2_ok hx1.1 hx0 h3
        have hd' := ufunc2_atB hx1.1 hx0 h3
        obtain ⟨d, d1, d2, d3⟩ := SA.C07_ufunc1_values o.abs dx' hd.1
        rw [d1] at h
        simp only at h
        cases h4 : SA.ufunc2 o.lt d m with
        | error e => rw [h4] at h; cases h
        | ok c' =>
          rw [h4] at h
          simp only at h
          cases h5 : inplace2 or conv1 c' with
          | error e => rw [h5] at h; cases h
          | ok conv2 =>
            rw [h5] at h
            simp only [Except.ok.injEq, Prod.mk.injEq] at h
            obtain ⟨rfl, rfl⟩ := h
            have hc1 := SA.ufunc2_ok a2 he h1
            have hc1' := ufunc2_atB a2 he h1
            have hc2 := SA.ufunc2_ok d2 b2 h4
            have hc2' := ufunc2_atB d2 b2 h4
            obtain ⟨p1, _, p3, p4, p5⟩ := inplace2_ok hc hc1.1 h2
            obtain ⟨q1, _, q3, q4, q5⟩ := inplace2_ok p1 hc2.1 h5
            have two : ∀ {u v : Shape}, Dict.WF u → Dict.WF v → ∀ t ∈ [u, v], Dict.WF t := by
              intro u v hu hv t ht
              simp only [List.mem_cons, List.not_mem_nil, or_false] at ht
              rcases ht with rfl | rfl <;> assumption
            have fa : FitsIn f1.shape S := by
              have := SA.fitsIn_of_broadcastShapes (two (SA.wf_shape a2) (SA.wf_shape he)) hc1.2.1 (s := a.shape) (by simp)
              rw [a3.1] at this
              rw [hcs] at p4
              exact fitsIn_trans this p4
            have fd : FitsIn dx'.shape S := by
              have := SA.fitsIn_of_broadcastShapes (two (SA.wf_shape d2) (SA.wf_shape b2)) hc2.2.1 (s := d.shape) (by simp)
              rw [d3.1] at this
              rw [p3, hcs] at q4
              exact fitsIn_trans this q4
            have f0 : FitsIn s.x0.shape S :=
              fitsIn_trans (SA.fitsIn_of_broadcastShapes (two (SA.wf_shape hx1.1) (SA.wf_shape hx0)) hd.2.1 (by simp)) fd
            have hdx : Full S dx' := ⟨hd.1, same_of_fits hx1.2 f0 (SA.wf_shape hx1.1) (SA.wf_shape hx0) hd.2.1⟩
            have hdv : ∀ e, InRange S e → dx'.at' e = o.sub (s.x1.at' e) (s.x0.atB e) := by
              intro e he
              rw [← hdx.atB he, hd'.2, hx1.atB he]
            refine ⟨q1, by rw [q3, p3, hcs], hdx, ⟨hf1, fa⟩, hdv, fun e he => ?_⟩
            rw [q5 e (by rw [p3, hcs]; exact he), p5 e (by rw [hcs]; exact he), hc1'.2, hc2'.2, up a3.1 a3.2, up b3.1 b3.2,
              up d3.1 d3.2, hdx.atB he, hdv e he]

end Optimize
end NA
