import Verif.Uncertain.Compress
import Verif.Uncertain.RootsLemmas
import Verif.Props.Comparing
import Verif.Props.UncertainIndex
import Verif.Props.VectorStructure

/-!
# Removing constant axes of uncertain scalars and vectors (C119)
-/

namespace NA
open Dict
open SA (FitsIn InRange IntAt selLen selIdx)
variable {α : Type}

namespace SA

/-- The slice of one element along an axis (which the array may lack). -/
theorem first_slice {c : SA α} (hc : c.WF) (ax : String) :
    ∃ x, c.getitem ([(ax, IndexVal.slice ⟨some 0, some 1, none⟩)].filter (fun p => p.1 ∈ c.axes)) = .ok x ∧ x.WF ∧
      (∀ y, y ∈ x.axes ↔ y ∈ c.axes) ∧
      (∀ y, get? x.shape y = if y = ax then (get? c.shape ax).map (min 1) else get? c.shape y) ∧ ∀ e, x.at' e = c.at' e := by
  have hk := keys_shape hc
  by_cases hax : ax ∈ c.axes
  · obtain ⟨n, hn⟩ := exists_get?_of_mem (d := c.shape) (by rw [hk]; exact hax)
    obtain ⟨x, hx, hxw, hxa, hxs, hxe⟩ := getitem_slice1 hc (sl := ⟨some 0, some 1, none⟩) hn (by simp)
    refine ⟨x, ?_, hxw, fun y => by rw [hxa], fun y => ?_, fun e => ?_⟩
    · rw [List.filter_cons_of_pos (by simpa using hax)]; exact hx
    · rw [hxs, (slice01 n).1, hn]; rfl
    · rw [hxe, (slice01 n).2, Function.update_eq_self]
  · rw [List.filter_cons_of_neg (by simpa using hax)]
    obtain ⟨x, x1, x2, x3, _, x5, x6⟩ := C13_getitem_basic c hc [] ⟨wf_nil, fun y b h => by cases h⟩
      (fun y _ sl h => by cases h) (fun y n _ => ⟨fun i h => (by cases h), fun b h => (by cases h)⟩)
    have hm : ∀ y, y ∈ x.axes ↔ y ∈ c.axes := fun y => by rw [x3]; simp [IntAt]
    refine ⟨x, x1, x2, hm, fun y => ?_, fun e => ?_⟩
    · by_cases hy : y ∈ c.axes
      · rw [if_neg (by rintro rfl; exact hax hy), x5 y ((hm y).2 hy)]
        obtain ⟨n, hn⟩ := exists_get?_of_mem (d := c.shape) (by rw [hk]; exact hy)
        rw [hn]; simp [selLen, hn]
      · have h1 : get? c.shape y = none := get?_eq_none.2 (by rw [hk]; exact hy)
        have h2 : get? x.shape y = none := get?_eq_none.2 (by rw [keys_shape x2, hm]; exact hy)
        rw [h2]
        split
        · next h => subst h; rw [h1]; rfl
        · exact h1.symm
    · rw [x6]
      exact at'_congr (fun y _ => by simp [selIdx])

/-- Comparing an array with its first slice along an axis. -/
theorem equal_slice [DecidableEq α] {c x : SA α} (hc : c.WF) (hx : x.WF) (ax : String)
    (hs : ∀ y, get? x.shape y = if y = ax then (get? c.shape ax).map (min 1) else get? c.shape y) (he : ∀ e, x.at' e = c.at' e) :
    ∃ q, ufunc2 (fun p q => decide (p = q)) c x = .ok q ∧ q.WF ∧ q.shape = c.shape ∧
      (get? c.shape ax ≠ some 0 → ∀ e, q.atB e = decide (c.atB e = c.atB (Function.update e ax 0))) := by
  have hfit : broadcastShapes [c.shape, x.shape] = .ok c.shape := by
    apply broadcastShapes_fits_all
    intro t ht
    simp only [List.mem_singleton] at ht
    subst ht
    refine ⟨wf_shape hx, fun y m hm => ?_⟩
    rw [hs] at hm
    split at hm
    · next h =>
      subst h
      obtain ⟨n, hn, rfl⟩ := Option.map_eq_some_iff.1 hm
      exact ⟨n, hn, by omega⟩
    · exact ⟨m, hm, .inl rfl⟩
  obtain ⟨q, hq⟩ := ufunc2_isOk hc hx hfit (fun p q => decide (p = q))
  obtain ⟨q1, q2, q3⟩ := ufunc2_ok hc hx hq
  have hqs : q.shape = c.shape := by rw [hfit] at q2; injection q2 with q2; exact q2.symm
  refine ⟨q, hq, q1, hqs, fun hne e => ?_⟩
  rw [atB, q3, hqs]
  have h1 : c.atB (fun y => if get? c.shape y = some 1 then 0 else e y) = c.atB e := by
    unfold atB
    exact at'_congr (fun y _ => by dsimp only; split <;> rfl)
  have h2 : x.atB (fun y => if get? c.shape y = some 1 then 0 else e y) = c.atB (Function.update e ax 0) := by
    unfold atB
    rw [he]
    apply at'_congr
    intro y hy
    dsimp only
    rw [hs, Function.update_apply]
    by_cases h : y = ax
    · subst h
      obtain ⟨n, hn⟩ := exists_get?_of_mem (d := c.shape) (by rw [keys_shape hc]; exact hy)
      rw [hn] at hne ⊢
      have : n ≠ 0 := by rintro rfl; exact hne rfl
      have : min 1 n = 1 := by omega
      simp [this]
    · simp only [if_neg h]
      split <;> rfl
  rw [h1, h2]

end SA

namespace UA

/-- Specification: the indices of the samples, where `s` is the shape of the uncertain scalar; `e axisD` is the number of the sample. -/
def withSamples (u : UA α) (s : Shape) (e : String → Nat) : Prop :=
  InRange s e ∧ ∀ k, get? u.distribution.shape axisD = some k → e axisD < k

/-- Specification: the axes which `na.debroadcast` removes: those of the given ones (all by default) which are not empty and along
which both the nominal value and every sample are constant. -/
def Removed (u : UA α) (s : Shape) (axes : Option (List String)) (ax : String) : Prop :=
  (∀ l, axes = some l → ax ∈ l) ∧ ax ∈ keys s ∧ get? s ax ≠ some 0 ∧
    (∀ e, InRange s e → ∀ k n, get? s ax = some n → k < n → u.nominal.atB (Function.update e ax k) = u.nominal.atB e) ∧
    ∀ e, u.withSamples s e → ∀ k n, get? s ax = some n → k < n →
      u.distribution.atB (Function.update e ax k) = u.distribution.atB e

theorem shape_of_shapes {β : Type} {u : UA α} {v : UA β} (h1 : v.nominal.shape = u.nominal.shape)
    (h2 : v.distribution.shape = u.distribution.shape) : v.shape = u.shape := by
  unfold shape shapeDistribution
  rw [h1, h2]

/-- A component which is broadcast to `s` is not empty along an axis which is not empty. -/
theorem nonempty_of_fits {c : SA α} {s : Shape} (h : FitsIn c.shape s) {ax : String} (hs : get? s ax ≠ some 0) :
    get? c.shape ax ≠ some 0 := by
  intro h0
  obtain ⟨n, hn, h'⟩ := h ax 0 h0
  rcases h' with h' | h'
  · subst h'; exact hs hn
  · cases h'

theorem getitem_slice {u : UA α} (hu : u.Valid) {t : Shape} (ht : u.shapeDistribution = .ok t) (ax : String) :
    ∃ x, u.getitem [(ax, .plain (.slice ⟨some 0, some 1, none⟩))] = .ok x ∧ x.Valid ∧
      ((∀ y, get? x.nominal.shape y = if y = ax then (get? u.nominal.shape ax).map (min 1) else get? u.nominal.shape y) ∧
        ∀ e, x.nominal.at' e = u.nominal.at' e) ∧
      (∀ y, get? x.distribution.shape y =
        if y = ax then (get? u.distribution.shape ax).map (min 1) else get? u.distribution.shape y) ∧
        ∀ e, x.distribution.at' e = u.distribution.at' e := by
  obtain ⟨n, n1, n2, n3, n4, n5⟩ := SA.first_slice hu.1 ax
  obtain ⟨d, d1, d2, d3, d4, d5⟩ := SA.first_slice hu.2.1 ax
  have hD : axisD ∉ n.axes := by rw [n3]; exact hu.2.2
  refine ⟨⟨n, d⟩, ?_, ⟨n2, d2, hD⟩, ⟨n4, n5⟩, d4, d5⟩
  unfold getitem
  have e1 : (values [(ax, UIndex.plain (.slice ⟨some 0, some 1, none⟩))]).any UIndex.isNone = false := rfl
  simp only [ht, bind, Except.bind, e1, Bool.false_eq_true, if_false]
  have en : (([(ax, UIndex.plain (.slice ⟨some 0, some 1, none⟩))] : Dict UIndex).map (fun p => (p.1, p.2.nominal))) =
    [(ax, IndexVal.slice ⟨some 0, some 1, none⟩)] := rfl
  have ed : (([(ax, UIndex.plain (.slice ⟨some 0, some 1, none⟩))] : Dict UIndex).map (fun p => (p.1, p.2.distribution))) =
    [(ax, IndexVal.slice ⟨some 0, some 1, none⟩)] := rfl
  rw [en, ed, n1, d1]
  exact mk?_of_valid n2 hD

/-- Equality with the element at 0 along the axis is equality with all of them. -/
theorem same_iff {c : SA α} {P : (String → Nat) → Prop} {ax : String} {n : Nat} (hn : n ≠ 0)
    (hP : ∀ e k, P e → k < n → P (Function.update e ax k)) :
    (∀ e, P e → c.atB e = c.atB (Function.update e ax 0)) ↔ ∀ e, P e → ∀ k, k < n → c.atB (Function.update e ax k) = c.atB e := by
  constructor
  · intro h e he k hk
    have h1 := h e he
    have h2 := h _ (hP e k he hk)
    rw [h2, Function.update_idem, ← h1]
  · intro h e he
    exact (h e he 0 (by omega)).symm

open Classical in
theorem step_main [DecidableEq α] {u : UA α} (hu : u.Valid) {s : Shape} (hs : u.shape = .ok s) (d : Dict IndexVal) (hd : WF d)
    (x : String) : ∃ d1, u.debroadcastStep s d x = .ok d1 ∧ WF d1 ∧ ∀ ax, get? d1 ax =
        if ax = x ∧ u.Removed s none ax then some (.int 0) else get? d ax := by
  unfold debroadcastStep
  by_cases hx : x ∈ s.keys
  swap
  · rw [if_pos hx]
    refine ⟨d, rfl, hd, fun ax => ?_⟩
    rw [if_neg]
    rintro ⟨rfl, _, h', _⟩
    exact hx h'
  rw [if_neg (not_not.2 hx)]
  rcases shape_cases hu with ⟨_, _, h⟩ | ⟨_, t, s', sd, h1, h2, h3, h4, hS⟩
  · rw [h] at hs; cases hs
  have : s' = s := by rw [hS.shape] at hs; cases hs; rfl
  subst this
  obtain ⟨o, o1, o2, ⟨o3, o4⟩, o5, o6⟩ := getitem_slice hu h1 x
  simp only [bind, Except.bind, o1]
  by_cases h0 : get? s' x = some 0
  · rw [if_pos h0]
    refine ⟨d, rfl, hd, fun ax => ?_⟩
    rw [if_neg]
    rintro ⟨rfl, _, _, h', _⟩
    exact h' h0
  rw [if_neg h0]
  obtain ⟨qn, n1, n2, n3, n4⟩ := SA.equal_slice hu.1 o2.1 x o3 o4
  obtain ⟨qd, d1, d2, d3, d4⟩ := SA.equal_slice hu.2.1 o2.2.1 x o5 o6
  have hD : axisD ∉ qn.axes := by rw [← SA.keys_shape n2, n3, SA.keys_shape hu.1]; exact hu.2.2
  have hq : ufunc2 (fun x y => decide (x = y)) (.unc u) (.unc o) = .ok ⟨qn, qd⟩ := by
    unfold ufunc2
    simp only [UArg.nominal, UArg.distribution, bind, Except.bind, n1, d1]
    exact mk?_of_valid n2 hD
  have hqs : (⟨qn, qd⟩ : UA Bool).shape = .ok s' := by rw [← hs]; exact shape_of_shapes n3 d3
  obtain ⟨r, b, r1, r2, r3⟩ := all_truth (u := ⟨qn, qd⟩) ⟨n2, d2, hD⟩ hqs
  rw [hq]
  simp only [r1, r2]
  obtain ⟨n, hn⟩ := exists_get?_of_mem hx
  have hn0 : n ≠ 0 := by rintro rfl; exact h0 hn
  have hxD : x ≠ axisD := by rintro rfl; exact hS.noD hx
  have f1 := n4 (nonempty_of_fits hS.nom h0)
  have f2 := d4 (nonempty_of_fits hS.dist (by rw [hS.get, if_neg hxD]; exact h0))
  have hb : b = true ↔ u.Removed s' none x := by
    rw [r3]
    have e1 : (∀ e, InRange s' e → qn.atB e = true) ↔
        ∀ e, InRange s' e → ∀ k, k < n → u.nominal.atB (Function.update e x k) = u.nominal.atB e := by
      rw [← same_iff (P := InRange s') hn0 (fun e k he hk => SA.inRange_update he (fun m hm => by rw [hn] at hm; cases hm; exact hk))]
      simp only [f1, decide_eq_true_eq]
    have e2 : (∀ e, InRange s' e → (∀ k, get? qd.shape axisD = some k → e axisD < k) → qd.atB e = true) ↔
        ∀ e, u.withSamples s' e → ∀ k, k < n → u.distribution.atB (Function.update e x k) = u.distribution.atB e := by
      rw [← same_iff (P := u.withSamples s') hn0 (fun e k he hk =>
        ⟨SA.inRange_update he.1 (fun m hm => by rw [hn] at hm; cases hm; exact hk), fun m hm => by
          rw [Function.update_of_ne (Ne.symm hxD)]; exact he.2 m hm⟩)]
      simp only [f2, decide_eq_true_eq, d3, withSamples, and_imp]
    rw [e1, e2]
    unfold Removed
    simp only [hn, Option.some.injEq]
    constructor
    · rintro ⟨g1, g2⟩
      exact ⟨by simp, hx, by simpa using hn0, fun e he k m hm hk => g1 e he k (hm ▸ hk), fun e he k m hm hk => g2 e he k (hm ▸ hk)⟩
    · rintro ⟨_, _, _, g1, g2⟩
      exact ⟨fun e he k hk => g1 e he k n rfl hk, fun e he k hk => g2 e he k n rfl hk⟩
  by_cases h : b = true
  · rw [if_pos h]
    refine ⟨_, rfl, wf_set hd _ _, fun ax => ?_⟩
    rw [get?_set]
    by_cases hax : ax = x
    · subst hax
      rw [if_pos rfl, if_pos ⟨rfl, hb.1 h⟩]
    · rw [if_neg (fun h => hax h.symm), if_neg (fun h => hax h.1)]
  · rw [if_neg h]
    refine ⟨_, rfl, hd, fun ax => ?_⟩
    rw [if_neg]
    rintro ⟨rfl, h'⟩
    exact h (hb.2 h')

open Classical in
theorem fold_main [DecidableEq α] {u : UA α} (hu : u.Valid) {s : Shape} (hs : u.shape = .ok s) (l : List String) (d : Dict IndexVal)
    (hd : WF d) : ∃ d', l.foldlM (u.debroadcastStep s) d = .ok d' ∧ WF d' ∧
      ∀ ax, get? d' ax = if ax ∈ l ∧ u.Removed s none ax then some (.int 0) else get? d ax := by
  induction l generalizing d with
  | nil => exact ⟨d, rfl, hd, fun ax => by simp⟩
  | cons x l ih =>
    obtain ⟨d1, h1, h2, h3⟩ := step_main hu hs d hd x
    obtain ⟨d', h4, h5, h6⟩ := ih d1 h2
    refine ⟨d', by rw [List.foldlM_cons, h1]; exact h4, h5, fun ax => ?_⟩
    rw [h6, h3]
    by_cases hP : u.Removed s none ax
    · by_cases hx : ax = x
      · rw [if_pos (c := ax = x ∧ _) ⟨hx, hP⟩, ite_self, if_pos ⟨by simp [hx], hP⟩]
      · by_cases hl : ax ∈ l
        · rw [if_pos ⟨hl, hP⟩, if_pos ⟨by simp [hl], hP⟩]
        · rw [if_neg (fun h => hl h.1), if_neg (fun h => hx h.1), if_neg]
          rintro ⟨h, _⟩
          exact (List.mem_cons.1 h).elim hx hl
    · rw [if_neg (fun h => hP h.2), if_neg (fun h => hP h.2), if_neg (fun h => hP h.2)]

/-- Setting the indices of removed axes to 0 changes nothing. -/
theorem zero_same {c : SA α} {P : (String → Nat) → Prop} (l : List String)
    (hl : ∀ ax ∈ l, ∀ e, P e → P (Function.update e ax 0) ∧ c.atB (Function.update e ax 0) = c.atB e)
    (e : String → Nat) (he : P e) :
    P (fun ax => if ax ∈ l then 0 else e ax) ∧ c.atB (fun ax => if ax ∈ l then 0 else e ax) = c.atB e := by
  induction l with
  | nil => exact ⟨by simpa using he, by simp⟩
  | cons x l ih =>
    obtain ⟨h1, h2⟩ := ih (fun ax h => hl ax (by simp [h]))
    have heq : (fun ax => if ax ∈ x :: l then 0 else e ax) =
        Function.update (fun ax => if ax ∈ l then 0 else e ax) x 0 := by
      funext ax
      rw [Function.update_apply]
      by_cases hx : ax = x
      · simp [hx]
      · simp [hx]
    rw [heq]
    obtain ⟨h3, h4⟩ := hl x (by simp) _ h1
    exact ⟨h3, by rw [h4, h2]⟩

open Classical in
/-- What the index does to one component. -/
theorem index_component {c : SA α} (hc : c.WF) {R : String → Prop} {d : Dict IndexVal} (hd : WF d)
    (hget : ∀ ax, get? d ax = if R ax then some (.int 0) else none) (hne : ∀ ax, R ax → get? c.shape ax ≠ some 0) :
    ∃ r, c.getitem (d.filter (fun p => p.1 ∈ c.axes)) = .ok r ∧ r.WF ∧ List.Sublist r.axes c.axes ∧
      (∀ ax, get? r.shape ax = if R ax then none else get? c.shape ax) ∧
      ∀ e, r.atB e = c.atB (fun ax => if R ax then 0 else e ax) := by
  have hk := SA.keys_shape hc
  rw [SA.C13_getitem_ignores_absent c _ d (by rw [List.filter_filter]; simp)]
  obtain ⟨r, r1, r2, r3, r4, r5, r6⟩ := SA.C13_getitem_basic c hc d
    ⟨hd, fun ax b h => by rw [hget] at h; split at h <;> simp at h⟩
    (by intro ax _ sl h; rw [hget] at h; split at h <;> simp at h)
    (by
      intro ax n hn
      refine ⟨fun i h => ?_, fun b h => ?_⟩
      · rw [hget] at h
        split at h
        · next hR =>
          injection h with h
          injection h with h
          subst h
          have := hne ax hR
          rw [hn] at this
          unfold ND.ValidIndex
          have : n ≠ 0 := by rintro rfl; exact this rfl
          omega
        · cases h
      · rw [hget] at h
        split at h <;> simp at h)
  have hint : ∀ ax, IntAt d ax ↔ R ax := by
    intro ax
    unfold IntAt
    rw [hget]
    split
    · next h => simp [h]
    · next h => simp [h]
  have hsh : ∀ ax, get? r.shape ax = if R ax then none else get? c.shape ax := by
    intro ax
    by_cases hR : R ax
    · rw [if_pos hR, get?_eq_none, SA.keys_shape r2, r3, hint]
      exact fun h => h.2 hR
    · rw [if_neg hR]
      by_cases hax : ax ∈ c.axes
      · rw [r5 ax ((r3 ax).2 ⟨hax, by rw [hint]; exact hR⟩), selLen, hget, if_neg hR]
        obtain ⟨n, hn⟩ := exists_get?_of_mem (d := c.shape) (by rw [hk]; exact hax)
        rw [hn]; rfl
      · rw [get?_eq_none.2 (show ax ∉ keys c.shape by rw [hk]; exact hax),
          get?_eq_none.2 (show ax ∉ keys r.shape by rw [SA.keys_shape r2, r3]; exact fun h => hax h.1)]
  refine ⟨r, r1, r2, r4, hsh, fun e => ?_⟩
  unfold SA.atB
  rw [r6]
  apply SA.at'_congr
  intro ax hax
  rw [selIdx, hget]
  by_cases hR : R ax
  · rw [if_pos hR]
    simp only [hR, if_true, ite_self]
    exact SA.pyIndex_nat _ 0
  · simp only [if_neg hR, hsh]

theorem removed_none {u : UA α} {s : Shape} {axes : Option (List String)} {ax : String} :
    (ax ∈ axes.getD (keys s) ∧ u.Removed s none ax) ↔ u.Removed s axes ax := by
  unfold Removed
  cases axes with
  | none =>
    simp only [Option.getD_none, reduceCtorEq, false_implies, implies_true, true_and]
    exact ⟨fun h => h.2, fun h => ⟨h.1, h⟩⟩
  | some l => simp

open Classical in
/-- **C119** (uncertain scalars). `na.debroadcast(u, axes)` removes from both components exactly those of the given axes (all by
default) which are not empty and along which the nominal value and every sample are constant; the other axes keep their order and
their lengths, the axis of the samples is kept, and nothing is lost: at every named index of `u` the nominal value and the samples are
those of `u`. -/
theorem C119_uncertain [DecidableEq α] (u : UA α) (hu : u.Valid) (s : Shape) (hs : u.shape = .ok s) (axes : Option (List String)) :
    ∃ r, u.debroadcast axes = .ok r ∧ r.Valid ∧
      List.Sublist r.nominal.axes u.nominal.axes ∧ List.Sublist r.distribution.axes u.distribution.axes ∧
      (∀ ax, get? r.nominal.shape ax = if u.Removed s axes ax then none else get? u.nominal.shape ax) ∧
      (∀ ax, get? r.distribution.shape ax = if u.Removed s axes ax then none else get? u.distribution.shape ax) ∧
      (∀ e, InRange s e → r.nominal.atB e = u.nominal.atB e) ∧
      ∀ e, u.withSamples s e → r.distribution.atB e = u.distribution.atB e := by
  rcases shape_cases hu with ⟨_, _, h⟩ | ⟨_, t, s', sd, h1, h2, h3, h4, hS⟩
  · rw [h] at hs; cases hs
  have : s' = s := by rw [hS.shape] at hs; cases hs; rfl
  subst this
  obtain ⟨d, d1, d2, d3⟩ := fold_main hu hs (axes.getD (keys s')) [] wf_nil
  have d3' : ∀ ax, get? d ax = if u.Removed s' axes ax then some (.int 0) else none := by
    intro ax
    rw [d3, get?_nil]
    simp only [removed_none]
  have hRD : ∀ ax, u.Removed s' axes ax → ax ≠ axisD := by
    rintro ax hR rfl
    exact hS.noD hR.2.1
  obtain ⟨n, n1, n2, n3, n4, n5⟩ := index_component hu.1 d2 d3' (fun ax hR => nonempty_of_fits hS.nom hR.2.2.1)
  obtain ⟨q, q1, q2, q3, q4, q5⟩ := index_component hu.2.1 d2 d3' (fun ax hR => nonempty_of_fits hS.dist (by
    rw [hS.get, if_neg (hRD ax hR)]; exact hR.2.2.1))
  have hD : axisD ∉ n.axes := fun h => hu.2.2 (n3.subset h)
  refine ⟨⟨n, q⟩, ?_, ⟨n2, q2, hD⟩, n3, q3, n4, q4, fun e he => ?_, fun e he => ?_⟩
  · unfold debroadcast
    simp only [hs, bind, Except.bind, d1]
    unfold getitem
    have e1 : (values (d.map (fun p => (p.1, UIndex.plain p.2)))).any UIndex.isNone = false := by
      rw [List.any_eq_false]
      intro x hx
      unfold Dict.values at hx
      rw [List.map_map] at hx
      obtain ⟨p, hp, rfl⟩ := List.mem_map.1 hx
      have hg : get? d p.1 = some p.2 := get?_of_mem d2 hp
      rw [d3'] at hg
      split at hg
      · injection hg with hg
        simp [UIndex.isNone, IndexVal.isNone, ← hg]
      · cases hg
    have e2 : (d.map (fun p => (p.1, UIndex.plain p.2))).map (fun p => (p.1, p.2.nominal)) = d := by
      rw [List.map_map]
      conv_rhs => rw [← List.map_id d]
      exact List.map_congr_left fun p _ => rfl
    have e3 : (d.map (fun p => (p.1, UIndex.plain p.2))).map (fun p => (p.1, p.2.distribution)) = d := by
      rw [List.map_map]
      conv_rhs => rw [← List.map_id d]
      exact List.map_congr_left fun p _ => rfl
    simp only [h1, bind, Except.bind, e1, Bool.false_eq_true, if_false]
    rw [e2, e3, n1, q1]
    exact mk?_of_valid n2 hD
  · have hz := zero_same (c := u.nominal) (P := InRange s') ((keys s').filter (fun ax => u.Removed s' axes ax)) (by
      intro ax hax e he
      rw [List.mem_filter, decide_eq_true_eq] at hax
      obtain ⟨m, hm⟩ := exists_get?_of_mem hax.1
      have : 0 < m := by
        rcases Nat.eq_zero_or_pos m with h | h
        · subst h; exact absurd hm hax.2.2.2.1
        · exact h
      exact ⟨SA.inRange_update he (fun k hk => by rw [hm] at hk; cases hk; exact this), hax.2.2.2.2.1 e he 0 m hm this⟩) e he
    rw [n5, ← hz.2]
    congr 1
    funext ax
    by_cases hR : u.Removed s' axes ax
    · rw [if_pos hR, if_pos (List.mem_filter.2 ⟨hR.2.1, by simpa using hR⟩)]
    · rw [if_neg hR, if_neg (fun h => hR (by simpa using (List.mem_filter.1 h).2))]
  · have hz := zero_same (c := u.distribution) (P := u.withSamples s') ((keys s').filter (fun ax => u.Removed s' axes ax)) (by
      intro ax hax e he
      rw [List.mem_filter, decide_eq_true_eq] at hax
      obtain ⟨m, hm⟩ := exists_get?_of_mem hax.1
      have : 0 < m := by
        rcases Nat.eq_zero_or_pos m with h | h
        · subst h; exact absurd hm hax.2.2.2.1
        · exact h
      exact ⟨⟨SA.inRange_update he.1 (fun k hk => by rw [hm] at hk; cases hk; exact this), fun k hk => by
        rw [Function.update_of_ne (Ne.symm (hRD ax hax.2))]; exact he.2 k hk⟩, hax.2.2.2.2.2 e he 0 m hm this⟩) e he
    rw [q5, ← hz.2]
    congr 1
    funext ax
    by_cases hR : u.Removed s' axes ax
    · rw [if_pos hR, if_pos (List.mem_filter.2 ⟨hR.2.1, by simpa using hR⟩)]
    · rw [if_neg hR, if_neg (fun h => hR (by simpa using (List.mem_filter.1 h).2))]

/-- **C119** (errors). Only components which do not broadcast raise an error. -/
theorem C119_error [DecidableEq α] (u : UA α) (hu : u.Valid) (h : Clash [u.nominal.shape, u.distribution.shape])
    (axes : Option (List String)) : u.debroadcast axes = .error .valueError := by
  rcases shape_cases hu with ⟨_, _, h'⟩ | ⟨h', _⟩
  · unfold debroadcast
    rw [h']
    rfl
  · exact absurd h h'

theorem broadcast_get {a b c d t t' : Shape} (ha : WF a) (hb : WF b) (hc : WF c) (hd : WF d)
    (h : broadcastShapes [a, b] = .ok t) (h' : broadcastShapes [c, d] = .ok t') {ax : String}
    (h1 : get? c ax = get? a ax) (h2 : get? d ax = get? b ax) : get? t' ax = get? t ax := by
  have w1 : ∀ u ∈ [a, b], WF u := by
    intro u hu
    simp only [List.mem_cons, List.not_mem_nil, or_false] at hu
    rcases hu with rfl | rfl <;> assumption
  have w2 : ∀ u ∈ [c, d], WF u := by
    intro u hu
    simp only [List.mem_cons, List.not_mem_nil, or_false] at hu
    rcases hu with rfl | rfl <;> assumption
  have hS : ∀ n, HasSize [c, d] ax n ↔ HasSize [a, b] ax n := fun n => by simp [HasSize, h1, h2]
  obtain ⟨_, k1, k2⟩ := C01_broadcast_shapes_ok _ w1 t h
  obtain ⟨_, l1, l2⟩ := C01_broadcast_shapes_ok _ w2 t' h'
  have hks : (∃ n, HasSize [a, b] ax n) → ∃ n, get? t ax = some n := by
    rintro ⟨n, u, hu, hn⟩
    exact exists_get?_of_mem ((k1 ax).2 ⟨u, hu, mem_keys_of_get? hn⟩)
  have hls : (∃ n, HasSize [a, b] ax n) → ∃ n, get? t' ax = some n := by
    rintro ⟨n, hn⟩
    obtain ⟨u, hu, hn⟩ := (hS n).2 hn
    exact exists_get?_of_mem ((l1 ax).2 ⟨u, hu, mem_keys_of_get? hn⟩)
  cases ht : get? t ax with
  | none =>
    cases ht' : get? t' ax with
    | none => rfl
    | some n =>
      obtain ⟨m, hm⟩ := hks ⟨n, (hS n).1 (l2 ax n ht').1⟩
      rw [ht] at hm
      cases hm
  | some n =>
    obtain ⟨m, hm⟩ := hls ⟨n, (k2 ax n ht).1⟩
    have g1 := (k2 ax n ht).2 m ((hS m).1 (l2 ax m hm).1)
    have g2 := (l2 ax m hm).2 n ((hS n).2 (k2 ax n ht).1)
    rw [hm]
    congr 1
    omega

open Classical in
/-- **C119** (smallest). The result has the shape of `u` without the removed axes, and none of the given axes can be removed from it
again: `na.debroadcast` of the result removes nothing. -/
theorem C119_smallest [DecidableEq α] (u : UA α) (hu : u.Valid) (s : Shape) (hs : u.shape = .ok s) (axes : Option (List String))
    (r : UA α) (hr : u.debroadcast axes = .ok r) :
    ∃ s', r.shape = .ok s' ∧ (∀ ax, get? s' ax = if u.Removed s axes ax then none else get? s ax) ∧
      ∀ ax, ¬ r.Removed s' axes ax := by
  obtain ⟨r', r0, r1, r2, r3, r4, r5, r6, r7⟩ := C119_uncertain u hu s hs axes
  rw [hr] at r0
  cases r0
  rcases shape_cases hu with ⟨_, _, h⟩ | ⟨hnc, t, s1, sd, h1, h2, h3, h4, hS⟩
  · rw [h] at hs; cases hs
  have : s1 = s := by rw [hS.shape] at hs; cases hs; rfl
  subst this
  have hRD : ∀ ax, u.Removed s1 axes ax → ax ≠ axisD := by
    rintro ax hR rfl
    exact hS.noD hR.2.1
  rcases shape_cases r1 with ⟨hc, _, _⟩ | ⟨_, t', s', sd', g1, g2, g3, g4, gS⟩
  · exfalso
    obtain ⟨ax, m, n, ⟨a, ha, q1⟩, ⟨b, hb, q2⟩, q3⟩ := hc
    have key : ∀ a ∈ [r.nominal.shape, r.distribution.shape], ∀ k, get? a ax = some k →
        HasSize [u.nominal.shape, u.distribution.shape] ax k := by
      intro a ha k hk
      simp only [List.mem_cons, List.not_mem_nil, or_false] at ha
      rcases ha with rfl | rfl
      · rw [r4] at hk
        split at hk
        · cases hk
        · exact ⟨_, by simp, hk⟩
      · rw [r5] at hk
        split at hk
        · cases hk
        · exact ⟨_, by simp, hk⟩
    exact hnc ⟨ax, m, n, key a ha m q1, key b hb n q2, q3⟩
  have hget : ∀ ax, get? s' ax = if u.Removed s1 axes ax then none else get? s1 ax := by
    intro ax
    have hs1 : get? s1 ax = if axisD = ax then none else get? t ax := by rw [h3, get?_erase]
    rw [g3, get?_erase, hs1]
    by_cases hR : u.Removed s1 axes ax
    · rw [if_pos hR]
      split
      · rfl
      · rw [get?_eq_none]
        intro hm
        have hw : ∀ v ∈ [r.nominal.shape, r.distribution.shape], WF v := by
          intro v hv
          simp only [List.mem_cons, List.not_mem_nil, or_false] at hv
          rcases hv with rfl | rfl
          · exact SA.wf_shape r1.1
          · exact SA.wf_shape r1.2.1
        obtain ⟨v, hv, hx⟩ := ((C01_broadcast_shapes_ok _ hw t' g1).2.1 ax).1 hm
        obtain ⟨k, hk⟩ := exists_get?_of_mem hx
        simp only [List.mem_cons, List.not_mem_nil, or_false] at hv
        rcases hv with rfl | rfl
        · rw [r4, if_pos hR] at hk; cases hk
        · rw [r5, if_pos hR] at hk; cases hk
    · rw [if_neg hR, broadcast_get (SA.wf_shape hu.1) (SA.wf_shape hu.2.1) (SA.wf_shape r1.1) (SA.wf_shape r1.2.1) h1 g1
        (by rw [r4, if_neg hR]) (by rw [r5, if_neg hR])]
  refine ⟨s', gS.shape, hget, ?_⟩
  rintro ax ⟨p1, p2, p3, p4, p5⟩
  obtain ⟨n, hn⟩ := exists_get?_of_mem p2
  have hR : ¬ u.Removed s1 axes ax := fun hR => by rw [hget, if_pos hR] at hn; cases hn
  have hn1 : get? s1 ax = some n := by rw [hget, if_neg hR] at hn; exact hn
  have hin : ∀ e, InRange s1 e → InRange s' e := by
    intro e he y m hm
    rw [hget] at hm
    split at hm
    · cases hm
    · exact he y m hm
  have hwD : ∀ e, u.withSamples s1 e → r.withSamples s' e := by
    rintro e ⟨he, hk⟩
    refine ⟨hin e he, fun k h => hk k ?_⟩
    rw [r5] at h
    split at h
    · cases h
    · exact h
  have hxD : ax ≠ axisD := by rintro rfl; exact gS.noD p2
  have hup : ∀ e k, InRange s1 e → k < n → InRange s1 (Function.update e ax k) := fun e k he hk =>
    SA.inRange_update he (fun m hm => by rw [hn1] at hm; cases hm; exact hk)
  refine hR ⟨p1, mem_keys_of_get? hn1, by rw [hn1, ← hn]; exact p3, fun e he k m hm hk => ?_, fun e he k m hm hk => ?_⟩
  · rw [hn1] at hm
    cases hm
    rw [← r6 e he, ← r6 _ (hup e k he hk)]
    exact p4 e (hin e he) k n hn hk
  · rw [hn1] at hm
    cases hm
    rw [← r7 e he, ← r7 _ ⟨hup e k he.1 hk, fun j hj => by rw [Function.update_of_ne (Ne.symm hxD)]; exact he.2 j hj⟩]
    exact p5 e (hwD e he) k n hn hk

/-- Constant along `y` and `z` (a repeated measurement), where the nominal value is not repeated; not constant along `x`. -/
def exRepeated : UA Int := ⟨⟨["x"], ND.vec [5, 6, 7]⟩, ⟨["x", "y", axisD], ND.ofList [3, 2, 2] [4, 6, 4, 6, 5, 7, 5, 7, 6, 8, 6, 8] 0⟩⟩
/-- The nominal value is constant along `x`, the samples are not. -/
def exNoise : UA Int := ⟨⟨["x"], ND.vec [5, 5]⟩, ⟨["x", axisD], ND.ofList [2, 2] [4, 6, 4, 7] 0⟩⟩
theorem valid_exRepeated : exRepeated.Valid := ⟨by decide, by decide, by decide⟩

example : ((exRepeated.debroadcast none).map (fun r => (r.nominal.shape, r.nominal.nd.toList, r.distribution.shape,
    r.distribution.nd.toList))) = .ok ([("x", 3)], [5, 6, 7], [("x", 3), (axisD, 2)], [4, 6, 5, 7, 6, 8]) := by decide +kernel
example : ((exNoise.debroadcast none).map (fun r => (r.nominal.shape, r.distribution.shape))) =
    .ok ([("x", 2)], [("x", 2), (axisD, 2)]) := by decide +kernel

example : ∃ r, exRepeated.debroadcast none = .ok r ∧ r.Valid ∧
    (∀ e, InRange [("x", 3), ("y", 2)] e → r.nominal.atB e = exRepeated.nominal.atB e) ∧
    ∀ e, exRepeated.withSamples [("x", 3), ("y", 2)] e → r.distribution.atB e = exRepeated.distribution.atB e := by
  obtain ⟨r, h1, h2, _, _, _, _, h3, h4⟩ := C119_uncertain exRepeated valid_exRepeated [("x", 3), ("y", 2)] rfl none
  exact ⟨r, h1, h2, h3, h4⟩

example (r : UA Int) (hr : exRepeated.debroadcast none = .ok r) : ∃ s', r.shape = .ok s' ∧ ∀ ax, ¬ r.Removed s' none ax := by
  obtain ⟨s', h1, _, h2⟩ := C119_smallest exRepeated valid_exRepeated [("x", 3), ("y", 2)] rfl none r hr
  exact ⟨s', h1, h2⟩

example : (⟨⟨["x"], ND.vec [1, 2]⟩, ⟨["x"], ND.vec [1, 2, 3]⟩⟩ : UA Int).debroadcast none = .error .valueError :=
  C119_error _ ⟨by decide, by decide, by decide⟩ ⟨"x", 2, 3, ⟨[("x", 2)], by decide, rfl⟩, ⟨[("x", 3)], by decide, rfl⟩, by decide, by decide,
    by decide⟩ none

end UA

namespace Comp

/-- **C119** (vectors). `na.debroadcast(v, axes)` keeps the structure of the vector and removes from each component, at every depth,
exactly those of the given axes (all by default) along which this component is constant and not empty; no element of any component is lost.
-/
theorem C119_vectors [DecidableEq α] (v : Comp (SA α)) (hv : v.WFLeaves) (axes : Option (List String)) :
    ∃ r, v.debroadcast axes = .ok r ∧ v.Similar r ∧ r.WFLeaves ∧ ∀ p a, v.leafAt p = some a → ∃ b, r.leafAt p = some b ∧
      List.Sublist b.axes a.axes ∧ (∀ ax, ax ∈ b.axes ↔ ax ∈ a.axes ∧ ¬ SA.Removed a axes ax) ∧
      (∀ ax ∈ b.axes, get? b.shape ax = get? a.shape ax) ∧ ∀ e, InRange a.shape e → b.at' e = a.at' e := by
  obtain ⟨r, hr⟩ := mapM_isOk' (fun a : SA α => a.debroadcast axes) v (fun a ha => by
    obtain ⟨b, hb, _⟩ := SA.C26_debroadcast a (hv a ha) axes
    exact ⟨b, hb⟩)
  have hl := (mapM_lift _ v r).1 hr
  refine ⟨r, hr, similar_lift (similar_refl _) hl, ?_, fun p a ha => ?_⟩
  · intro b hb
    obtain ⟨a, ha, h⟩ := lift_mem_leaves hl hb
    obtain ⟨b', h1, h2, _⟩ := SA.C26_debroadcast a (hv a ha) axes
    rw [h] at h1
    cases h1
    exact h2
  · obtain ⟨b, hb, h⟩ := (lift_leafAt hl p).1 a ha
    have hw := hv a (leafAt_mem_leaves ha)
    obtain ⟨b', h1, h2, h3, h4, h5, _⟩ := SA.C26_debroadcast a hw axes
    rw [h] at h1
    cases h1
    exact ⟨b, hb, h3, h4, h5, fun e he => SA.debroadcast_at hw h he⟩

/-- The first component varies along `x` and is repeated along `y`; the second one, inside another vector, varies along `y` only. -/
def exPartly : Comp (SA Int) := .node "V" [("a", .leaf ⟨["y", "x"], ND.ofList [2, 3] [1, 2, 3, 1, 2, 3] 0⟩),
  ("b", .node "W" [("c", .leaf ⟨["x", "y"], ND.ofList [2, 2] [7, 8, 7, 8] 0⟩)])]

example : ∃ r, exPartly.debroadcast none = .ok r ∧ exPartly.Similar r ∧ r.WFLeaves := by
  obtain ⟨r, h1, h2, h3, _⟩ := C119_vectors exPartly (by
    intro a ha
    simp only [exPartly, leaves, leavesL, List.append_nil, List.cons_append, List.nil_append, List.mem_cons, List.not_mem_nil, or_false] at ha
    rcases ha with rfl | rfl <;> decide) none
  exact ⟨r, h1, h2, h3⟩

example : (exPartly.debroadcast none).map (fun r => r.leaves.map (fun a => (a.shape, a.nd.toList))) =
    .ok [([("x", 3)], [1, 2, 3]), ([("y", 2)], [7, 8])] := by decide +kernel

end Comp
end NA
