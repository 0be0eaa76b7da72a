import Verif.Function.Flatten
import Verif.Props.FunctionStructure
import Verif.Props.FunctionIndex
import Verif.Props.Comparing
import Verif.Props.Ordering
import Verif.Props.HistogramBins

/-!
# Functions: combining axes, removing constant axes, histograms, comparisons (C91)
-/

namespace NA
open Dict
open SA (FitsIn InRange splitIndex ConstantAlong BasicItem IntAt selLen selIdx)
open NA.Comp (SlabOf)

namespace FA
variable {α β γ : Type}

/-! ### Specification -/

/-- The axes which `debroadcast` removes: those of the given axes (all by default) which are not on vertices, not empty, and
along which both the inputs and the outputs are constant. -/
def Removed (f : FA α β) (s : Shape) (axes : Option (List String)) (ax : String) : Prop :=
  (∀ l, axes = some l → ax ∈ l) ∧ ax ∈ keys s ∧ ¬ f.Vertex ax ∧ get? s ax ≠ some 0 ∧ ConstantAlong f.outputs ax ∧
    ConstantAlong f.inputs ax

/-! ### Helpers -/

theorem withAxes_ok {s : Shape} {axes : List String} (hsub : ∀ ax ∈ axes, ax ∈ keys s) :
    ∀ t : Shape, WF t → ∃ r, withAxes t s axes = .ok r ∧ WF r ∧
      ∀ ax, get? r ax = if ax ∈ keys t then get? t ax else if ax ∈ axes then get? s ax else none := by
  induction axes with
  | nil =>
    intro t ht
    refine ⟨t, rfl, ht, fun ax => ?_⟩
    split
    · rfl
    · next h => simpa using get?_eq_none.2 h
  | cons x l ih =>
    intro t ht
    obtain ⟨n, hn⟩ := exists_get?_of_mem (hsub x (by simp))
    have ih' := ih (fun ax h => hsub ax (by simp [h]))
    by_cases hx : x ∈ keys t
    · obtain ⟨r, r1, r2, r3⟩ := ih' t ht
      refine ⟨r, ?_, r2, fun ax => ?_⟩
      · unfold withAxes
        rw [List.foldlM_cons]
        have : withAxis s t x = .ok t := by unfold withAxis; rw [if_pos hx]
        rw [this]
        exact r1
      · rw [r3]
        by_cases h : ax ∈ keys t
        · rw [if_pos h, if_pos h]
        · have : ax ≠ x := by rintro rfl; exact h hx
          simp [h, this]
    · obtain ⟨r, r1, r2, r3⟩ := ih' (t.set x n) (wf_set ht _ _)
      refine ⟨r, ?_, r2, fun ax => ?_⟩
      · unfold withAxes
        rw [List.foldlM_cons]
        have : withAxis s t x = .ok (t.set x n) := by unfold withAxis; rw [if_neg hx, hn]
        rw [this]
        exact r1
      · rw [r3, get?_set]
        have hk : ax ∈ keys (t.set x n) ↔ ax = x ∨ ax ∈ keys t := by
          rw [← not_iff_not, ← get?_eq_none, get?_set, not_or, ← get?_eq_none (x := ax) (d := t)]
          by_cases h : x = ax
          · subst h; simp
          · rw [if_neg h]; exact ⟨fun h' => ⟨fun h2 => h h2.symm, h'⟩, fun h' => h'.2⟩
        by_cases h : x = ax
        · subst h
          rw [if_pos (hk.2 (.inl rfl)), if_pos rfl, if_neg hx, if_pos (by simp), hn]
        · have h' : ax ≠ x := fun h2 => h h2.symm
          rw [if_neg h]
          simp only [hk, h', false_or, List.mem_cons]

/-- what combining axes does to one component -/
theorem combine_component {c : SA γ} (hc : c.WF) {s : Shape} {axes : List String} (hn : axes.Nodup)
    (hsub : ∀ ax ∈ axes, ax ∈ keys s) {axisNew : String} (hnew : axisNew ∉ c.axes.filter (· ∉ axes))
    (hpos : ∀ ax ∈ c.axes, ax ∉ axes → get? c.shape ax ≠ some 0)
    (hfull : ∀ ax ∈ axes, ax ∈ c.axes → get? c.shape ax = get? s ax) :
    ∃ t b r, withAxes c.shape s axes = .ok t ∧ c.broadcastTo t = .ok b ∧ b.combineAxes (some axes) (some axisNew) = .ok r ∧
      r.WF ∧ (∀ ax, get? r.shape ax = if ax = axisNew then some (axes.map (fun ax => (get? s ax).getD 0)).prod
        else if ax ∈ axes then none else get? c.shape ax) ∧
      ∀ e, InRange r.shape e → r.at' e = c.atB (splitIndex axes (axes.map (fun ax => (get? s ax).getD 0)) axisNew e) := by
  obtain ⟨t, t1, t2, t3⟩ := withAxes_ok hsub c.shape (SA.wf_shape hc)
  have hck := SA.keys_shape hc
  have hfit : FitsIn c.shape t := fun ax m hm =>
    ⟨m, by rw [t3, if_pos (mem_keys_of_get? hm), hm], .inl rfl⟩
  obtain ⟨_, b, b1, b2, b3, b4⟩ := (SA.C10_broadcast_to c hc t t2).resolve_right (fun h => h.1 hfit)
  have hbt : ∀ ax ∈ axes, get? b.shape ax = get? s ax := by
    intro ax hax
    rw [b3, t3]
    by_cases h : ax ∈ keys c.shape
    · rw [if_pos h]; exact hfull ax hax (by rw [← hck]; exact h)
    · rw [if_neg h, if_pos hax]
  have hbr : ∀ ax, ax ∉ axes → get? b.shape ax = get? c.shape ax := by
    intro ax hax
    rw [b3, t3]
    by_cases h : ax ∈ keys c.shape
    · rw [if_pos h]
    · rw [if_neg h, if_neg hax, get?_eq_none.2 h]
  have hmem : ∀ ax, ax ∉ axes → (ax ∈ b.axes ↔ ax ∈ c.axes) := by
    intro ax hax
    rw [← SA.keys_shape b2, ← hck, ← not_iff_not, ← get?_eq_none, ← get?_eq_none, hbr ax hax]
  obtain ⟨r, r1, r2, r3, r4, r5, r6⟩ := SA.C11_combine_axes_partial b b2 axes hn
    (fun ax hax => by
      obtain ⟨n, hn⟩ := exists_get?_of_mem (hsub ax hax)
      rw [← SA.keys_shape b2]
      exact mem_keys_of_get? ((hbt ax hax).trans hn))
    axisNew
    (by
      intro h
      rw [List.mem_filter, decide_eq_true_eq] at h
      exact hnew (List.mem_filter.2 ⟨(hmem _ h.2).1 h.1, by simpa using h.2⟩))
    (fun ax h1 h2 => by rw [hbr ax h2]; exact hpos ax ((hmem ax h2).1 h1) h2)
  have hsz : axes.map (fun ax => (get? b.shape ax).getD 0) = axes.map (fun ax => (get? s ax).getD 0) :=
    List.map_congr_left fun ax hax => by rw [hbt ax hax]
  rw [hsz] at r4 r6
  refine ⟨t, b, r, t1, b1, r1, r2, fun ax => ?_, fun e he => ?_⟩
  · by_cases h : ax = axisNew
    · subst h
      rw [if_pos rfl, r4]
    · rw [if_neg h]
      by_cases hax : ax ∈ axes
      · rw [if_pos hax, get?_eq_none, SA.keys_shape r2, r3]
        simp [hax, h]
      · rw [if_neg hax, ← hbr ax hax]
        by_cases hb : ax ∈ b.axes
        · exact r5 ax hb hax
        · rw [get?_eq_none.2 (by rw [SA.keys_shape r2, r3]; simp [hb, h]), get?_eq_none.2 (by rw [SA.keys_shape b2]; exact hb)]
  · rw [r6 e he, b4]

/-! ### Combining axes -/

/-- **C91** (partial, combining axes). If the axes are distinct axes of the function, none of them is on vertices, every component
which has one of them has its full size along it (what is missing, see `C91_combine_refuted`), the new name is free, and the
other axes are not empty: the inputs and the outputs are flattened in the same order, so that every output keeps its input. -/
theorem C91_combine_partial (f : FA α β) (hf : f.Fine) (s : Shape) (hs : f.shape = .ok s) (axes : List String) (hn : axes.Nodup)
    (hsub : ∀ ax ∈ axes, ax ∈ keys s) (hV : ∀ ax ∈ axes, ¬ f.Vertex ax) (axisNew : String)
    (hnew : axisNew ∈ keys s → axisNew ∈ axes)
    (hpos : ∀ ax, ax ∉ axes → get? f.inputs.shape ax ≠ some 0 ∧ get? f.outputs.shape ax ≠ some 0)
    (hfull : ∀ ax ∈ axes, (ax ∈ f.inputs.axes → get? f.inputs.shape ax = get? s ax) ∧
      (ax ∈ f.outputs.axes → get? f.outputs.shape ax = get? s ax)) :
    ∃ g, f.combineAxes (some axes) (some axisNew) = .ok g ∧ g.Fine ∧
      (∀ ax, g.Vertex ax ↔ ax ∉ axes ∧ f.Vertex ax) ∧
      (∃ s', g.shape = .ok s' ∧ ∀ ax, get? s' ax =
        if ax = axisNew then some (axes.map (fun ax => (get? s ax).getD 0)).prod else if ax ∈ axes then none else get? s ax) ∧
      f.Moves g (splitIndex axes (axes.map (fun ax => (get? s ax).getD 0)) axisNew) := by
  obtain ⟨s0, v, hs0, hv, hsw, hvm, hk, hVs, hC⟩ := shape_main hf
  rw [hs] at hs0
  injection hs0 with hs0
  subst hs0
  obtain ⟨⟨hi, ho⟩, hm⟩ := hf
  have hfree : ∀ {δ : Type} (c : SA δ), (∀ ax ∈ c.axes, ax ∈ keys s) → axisNew ∉ c.axes.filter (· ∉ axes) := by
    intro δ c hc h
    rw [List.mem_filter, decide_eq_true_eq] at h
    exact h.2 (hnew (hc _ h.1))
  obtain ⟨ti, bi, ri, i1, i2, i3, i4, i5, i6⟩ := combine_component hi hn hsub
    (hfree f.inputs fun ax h => (hk ax).2 (.inl h)) (fun ax _ h => (hpos ax h).1) (fun ax h => (hfull ax h).1)
  obtain ⟨tu, bo, ro, o1, o2, o3, o4, o5, o6⟩ := combine_component ho hn hsub
    (hfree f.outputs fun ax h => (hk ax).2 (.inr h)) (fun ax _ h => (hpos ax h).2) (fun ax h => (hfull ax h).2)
  have hall : axes.all (· ∈ f.axes) = true := by
    rw [List.all_eq_true]
    intro ax hax
    rw [decide_eq_true_eq]
    unfold FA.axes
    rw [mem_axesOf (SA.wf_shape ho), SA.keys_shape hi, SA.keys_shape ho]
    exact (hk ax).1 (hsub ax hax)
  have hany : ¬ axes.any (· ∈ v) = true := by
    rw [List.any_eq_true]
    rintro ⟨ax, h1, h2⟩
    rw [decide_eq_true_eq] at h2
    exact hV ax h1 ((hvm ax).1 h2)
  have hVg : ∀ ax, (⟨ri, ro⟩ : FA α β).Vertex ax ↔ ax ∉ axes ∧ f.Vertex ax := by
    intro ax
    unfold Vertex IsVertex
    simp only [i5, o5]
    by_cases h : ax = axisNew
    · subst h
      simp only [if_true]
      constructor
      · rintro ⟨n, h1, h2⟩
        rw [h2] at h1; injection h1 with h1; omega
      · rintro ⟨h1, n, h2, h3⟩
        exact absurd (hnew ((hk ax).2 (.inr (by rw [← SA.keys_shape ho]; exact mem_keys_of_get? h3)))) h1
    · simp only [if_neg h]
      by_cases hax : ax ∈ axes
      · simp [hax]
      · simp [hax]
  have hg : (⟨ri, ro⟩ : FA α β).Fine := by
    refine ⟨⟨i4, o4⟩, fun ax => ?_⟩
    rintro ⟨m, n, h1, h2, h3, h4, h5, h6⟩
    simp only [i5, o5] at h1 h2
    by_cases h : ax = axisNew
    · rw [if_pos h] at h1 h2; rw [h1] at h2; injection h2 with h2; exact h3 h2
    · rw [if_neg h] at h1 h2
      by_cases hax : ax ∈ axes
      · rw [if_pos hax] at h1; cases h1
      · rw [if_neg hax] at h1 h2
        exact hm ax ⟨m, n, h1, h2, h3, h4, h5, h6⟩
  refine ⟨⟨ri, ro⟩, ?_, hg, hVg, ?_, i6, o6⟩
  · unfold combineAxes
    simp only [Option.getD_some]
    rw [if_pos hall, hv]
    simp only [bind, Except.bind]
    rw [if_neg hany, hs]
    simp only [i1, o1, i2, o2, i3, o3]
  · obtain ⟨s', v', g1, g2, g3, g4, g5, g6, g7⟩ := shape_main hg
    refine ⟨s', g1, fun ax => ?_⟩
    have hkg : ax ∈ keys s' ↔ get? ri.shape ax ≠ none ∨ get? ro.shape ax ≠ none := by
      rw [g5, ← SA.keys_shape i4, ← SA.keys_shape o4, ne_eq, ne_eq, get?_eq_none, get?_eq_none, not_not, not_not]
    by_cases h : ax = axisNew
    · subst h
      rw [if_pos rfl]
      obtain ⟨n, hn'⟩ := exists_get?_of_mem (hkg.2 (.inl (by rw [i5, if_pos rfl]; simp)))
      have hnv : ¬ (⟨ri, ro⟩ : FA α β).Vertex ax := by
        rw [hVg]
        rintro ⟨h1, n, h2, h3⟩
        exact h1 (hnew ((hk ax).2 (.inr (by rw [← SA.keys_shape ho]; exact mem_keys_of_get? h3))))
      rcases (g7 ax n hnv hn').1 with h | h
      · have h' : get? ri.shape ax = some n := h
        rw [hn', ← h', i5, if_pos rfl]
      · have h' : get? ro.shape ax = some n := h
        rw [hn', ← h', o5, if_pos rfl]
    · rw [if_neg h]
      by_cases hax : ax ∈ axes
      · rw [if_pos hax, get?_eq_none, hkg, i5, o5, if_neg h, if_pos hax, if_neg h, if_pos hax]; simp
      · rw [if_neg hax]
        have e1 : get? ri.shape ax = get? f.inputs.shape ax := by rw [i5, if_neg h, if_neg hax]
        have e2 : get? ro.shape ax = get? f.outputs.shape ax := by rw [o5, if_neg h, if_neg hax]
        by_cases hfv : f.Vertex ax
        · obtain ⟨n, a1, a2, a3⟩ := hVs ax hfv
          obtain ⟨n', b1, b2, b3⟩ := g6 ax ((hVg ax).2 ⟨hax, hfv⟩)
          have b2' : get? ro.shape ax = some n' := b2
          rw [e2, a2] at b2'
          rw [b1, a1, b2']
        · cases hs' : get? s ax with
          | none =>
            rw [get?_eq_none, hk, not_or, ← SA.keys_shape hi, ← SA.keys_shape ho] at hs'
            rw [get?_eq_none, hkg, e1, e2, get?_eq_none.2 hs'.1, get?_eq_none.2 hs'.2]; simp
          | some n =>
            obtain ⟨c1, c2, c3⟩ := hC ax n hfv hs'
            obtain ⟨n', hn'⟩ := exists_get?_of_mem (hkg.2 (by
              rw [e1, e2]
              rcases c1 with h | h
              · left; rw [h]; simp
              · right; rw [h]; simp))
            obtain ⟨d1, d2, d3⟩ := g7 ax n' (fun h => hfv ((hVg ax).1 h).2) hn'
            have d1' : get? ri.shape ax = some n' ∨ get? ro.shape ax = some n' := d1
            have d2' : ∀ m, get? ri.shape ax = some m → m = n' ∨ m = 1 := d2
            have d3' : ∀ m, get? ro.shape ax = some m → m = n' ∨ m = 1 := d3
            rw [e1] at d1' d2'
            rw [e2] at d1' d3'
            rw [hn']
            congr 1
            have k1 : n = n' ∨ n = 1 := by
              rcases c1 with h | h
              · exact d2' n h
              · exact d3' n h
            have k2 : n' = n ∨ n' = 1 := by
              rcases d1' with h | h
              · exact c2 n' h
              · exact c3 n' h
            omega

/-- **C91** (combining axes, errors). An axis which the function does not have, or which is on vertices, raises `ValueError`. -/
theorem C91_combine_error (f : FA α β) (hf : f.Valid) (axes : List String) (axisNew : Option String) (ax : String)
    (hax : ax ∈ axes) (h : (ax ∉ f.inputs.axes ∧ ax ∉ f.outputs.axes) ∨ f.Vertex ax) :
    f.combineAxes (some axes) axisNew = .error .valueError := by
  unfold combineAxes
  simp only [Option.getD_some]
  split
  · next hall =>
    rw [List.all_eq_true] at hall
    have := hall ax hax
    rw [decide_eq_true_eq] at this
    unfold FA.axes at this
    rw [mem_axesOf (SA.wf_shape hf.2), SA.keys_shape hf.1, SA.keys_shape hf.2] at this
    by_cases hfine : f.Fine
    · obtain ⟨s, v, hs, hv, _, hvm, _⟩ := shape_main hfine
      simp only [bind, Except.bind, hv]
      rw [if_pos]
      rw [List.any_eq_true]
      refine ⟨ax, hax, ?_⟩
      rw [decide_eq_true_eq, hvm]
      rcases h with h | h
      · exact absurd this (not_or.2 h)
      · exact h
    · simp only [bind, Except.bind, (shape_error hf hfine).2.1]
  · rfl

/-- **C91** (combining axes, default arguments): all the axes, named by joining with `*`. -/
theorem C91_combine_default (f : FA α β) (h : f.axes ≠ []) :
    f.combineAxes none none = f.combineAxes (some f.axes) (some ("*".intercalate f.axes)) := by
  have hc : ∀ {δ : Type} (c : SA δ), c.combineAxes (some f.axes) none =
      c.combineAxes (some f.axes) (some ("*".intercalate f.axes)) := by
    intro δ c
    unfold SA.combineAxes
    simp only [Option.getD_some, SA.flattenAxes_ok h]
  unfold combineAxes
  simp only [Option.getD_some, Option.getD_none, hc]

/-! ### Removing constant axes -/

/-- an array is constant along an axis which it does not have -/
theorem constantAlong_absent [DecidableEq γ] {a : SA γ} (ha : a.WF) {ax : String} (hax : ax ∉ a.axes) :
    SA.constantAlong a ax = .ok true := by
  have hg : ∀ y ∈ a.axes, get? [(ax, IndexVal.slice ⟨some 0, some 1, none⟩)] y = none := by
    intro y hy
    rw [get?_cons, if_neg (by rintro rfl; exact hax hy), get?_nil]
  have hk := SA.keys_shape ha
  obtain ⟨x, x1, x2, x3, x4, x5, x6⟩ := SA.C13_getitem_basic a ha [(ax, .slice ⟨some 0, some 1, none⟩)]
    (by
      refine ⟨by unfold WF keys; simp, fun y b h => ?_⟩
      rw [get?_cons, get?_nil] at h
      split at h <;> simp at h)
    (by
      intro y hy sl h
      rw [hk] at hy
      rw [hg y hy] at h
      cases h)
    (by
      intro y n hn
      have hy : y ∈ a.axes := by rw [← hk]; exact mem_keys_of_get? hn
      rw [hg y hy]
      simp)
  have hint : ∀ y ∈ a.axes, ¬ IntAt [(ax, IndexVal.slice ⟨some 0, some 1, none⟩)] y := by
    intro y hy
    unfold IntAt
    rw [hg y hy]
    simp
  have hmem : ∀ y, y ∈ x.axes ↔ y ∈ a.axes := fun y => by
    rw [x3]
    exact ⟨fun h => h.1, fun h => ⟨h, hint y h⟩⟩
  have hget : ∀ y, get? x.shape y = get? a.shape y := by
    intro y
    by_cases hy : y ∈ a.axes
    · rw [x5 y ((hmem y).2 hy), selLen, hg y hy]
      obtain ⟨n, hn⟩ := exists_get?_of_mem (d := a.shape) (by rw [hk]; exact hy)
      rw [hn]; rfl
    · rw [get?_eq_none.2 (show y ∉ keys a.shape by rw [hk]; exact hy),
        get?_eq_none.2 (show y ∉ keys x.shape by rw [SA.keys_shape x2, hmem]; exact hy)]
  have hxe : ∀ e, x.at' e = a.at' e := by
    intro e
    rw [x6]
    refine SA.at'_congr fun y hy => ?_
    rw [selIdx, hg y hy]
  have hfit : broadcastShapes [a.shape, x.shape] = .ok a.shape := by
    apply broadcastShapes_fits_all
    intro t ht
    simp only [List.mem_singleton] at ht
    subst ht
    exact ⟨SA.wf_shape x2, fun y m hm => ⟨m, by rw [← hget, hm], .inl rfl⟩⟩
  obtain ⟨q, hq⟩ := SA.ufunc2_isOk ha x2 hfit (fun p q => decide (p = q))
  obtain ⟨hqw, _, hqe⟩ := SA.ufunc2_ok ha x2 hq
  have hwn : SA.WhereOk q none := by intro w h; cases h
  obtain ⟨r, hr, _, hra, _, hre⟩ := SA.C17_reduce q hqw none hwn q.axes hqw.2 (fun _ h => h) false
    (fun l : List Bool => l.all id) false (by simp)
  have hra' : r.axes = [] := by
    rw [hra]
    simp
  have hget0 : r.nd.get [] = r.at' (fun _ => 0) := by rw [SA.at', hra']; rfl
  have htrue : r.nd.get [] = true := by
    obtain ⟨l, hl, hv⟩ := hre (fun _ => 0)
    rw [hget0, hv, List.all_eq_true]
    intro b hb
    obtain ⟨e, _, rfl⟩ := List.mem_map.1 hb
    rw [hqe e]
    have : x.atB e = a.atB e := by
      unfold SA.atB
      rw [hxe]
      simp only [hget]
    simp [this]
  unfold SA.constantAlong
  simp only [bind, Except.bind, x1, hq, SA.C17_axis_none q hqw none hwn, hr, htrue]

theorem constantAlong_any [DecidableEq γ] {a : SA γ} (ha : a.WF) (ax : String) :
    ∃ c, SA.constantAlong a ax = .ok c ∧ (c = true ↔ ConstantAlong a ax) := by
  by_cases h : ax ∈ a.axes
  · exact SA.constantAlong_main ha h
  · refine ⟨true, constantAlong_absent ha h, ?_⟩
    refine ⟨fun _ e he k n hn => ?_, fun _ => rfl⟩
    exact absurd (mem_keys_of_get? hn) (by rw [SA.keys_shape ha]; exact h)

theorem constantAlong_both [DecidableEq α] [DecidableEq β] {f : FA α β} (hf : f.Valid) (s : Shape) (ax : String) :
    ∃ c, f.constantAlong s ax = .ok c ∧
      (c = true ↔ get? s ax ≠ some 0 ∧ ConstantAlong f.outputs ax ∧ ConstantAlong f.inputs ax) := by
  obtain ⟨co, o1, o2⟩ := constantAlong_any hf.2 ax
  obtain ⟨ci, i1, i2⟩ := constantAlong_any hf.1 ax
  unfold constantAlong
  by_cases h0 : get? s ax = some 0
  · rw [if_pos h0]
    exact ⟨false, rfl, by simp [h0]⟩
  · rw [if_neg h0]
    simp only [bind, Except.bind, o1]
    by_cases h : co = true ∧ ax ∈ f.inputs.shape.keys
    · rw [if_pos h]
      exact ⟨ci, i1, by rw [i2, ← o2]; simp [h0, h.1]⟩
    · rw [if_neg h]
      refine ⟨co, rfl, ?_⟩
      rw [o2]
      constructor
      · intro hc
        refine ⟨h0, hc, ?_⟩
        rw [← i2]
        have hx : ax ∉ f.inputs.axes := by
          rw [← SA.keys_shape hf.1]
          exact fun hx => h ⟨o2.2 hc, hx⟩
        rw [constantAlong_absent hf.1 hx] at i1
        injection i1 with i1
        exact i1.symm
      · exact fun hc => hc.2.1

open Classical in
theorem debroadcast_fold [DecidableEq α] [DecidableEq β] {f : FA α β} (hf : f.Valid) {s : Shape} {v : List String}
    (hv : ∀ ax, ax ∈ v ↔ f.Vertex ax) (l : List String) (d : Dict IndexVal) (hd : WF d) :
    ∃ d', l.foldlM (f.debroadcastStep s v) d = .ok d' ∧ WF d' ∧
      ∀ ax, get? d' ax = if ax ∈ l ∧ f.Removed s none ax then some (.int 0) else get? d ax := by
  induction l generalizing d with
  | nil => exact ⟨d, rfl, hd, fun ax => by simp⟩
  | cons x l ih =>
    have hstep : ∃ d1, f.debroadcastStep s v d x = .ok d1 ∧ WF d1 ∧ ∀ ax, get? d1 ax =
        if ax = x ∧ f.Removed s none ax then some (.int 0) else get? d ax := by
      unfold debroadcastStep
      by_cases hx : x ∈ s.keys
      · rw [if_neg (not_not.2 hx)]
        by_cases hxv : x ∈ v
        · rw [if_pos hxv]
          refine ⟨d, rfl, hd, fun ax => ?_⟩
          rw [if_neg]
          rintro ⟨rfl, hR⟩
          exact hR.2.2.1 ((hv ax).1 hxv)
        · rw [if_neg hxv]
          obtain ⟨c, hc, hcc⟩ := constantAlong_both hf s x
          simp only [bind, Except.bind, hc]
          by_cases h : c = true
          · rw [if_pos h]
            refine ⟨_, rfl, wf_set hd _ _, fun ax => ?_⟩
            rw [get?_set]
            by_cases hax : ax = x
            · subst hax
              rw [if_pos rfl, if_pos ⟨rfl, by simp, hx, fun h' => hxv ((hv ax).2 h'), (hcc.1 h).1, (hcc.1 h).2⟩]
            · rw [if_neg (fun h => hax h.symm), if_neg (fun h => hax h.1)]
          · rw [if_neg h]
            refine ⟨_, rfl, hd, fun ax => ?_⟩
            rw [if_neg]
            rintro ⟨rfl, _, _, _, h'⟩
            exact h (hcc.2 h')
      · rw [if_pos hx]
        refine ⟨d, rfl, hd, fun ax => ?_⟩
        rw [if_neg]
        rintro ⟨rfl, _, h', _⟩
        exact hx h'
    obtain ⟨d1, h1, h2, h3⟩ := hstep
    obtain ⟨d', h4, h5, h6⟩ := ih d1 h2
    refine ⟨d', by rw [List.foldlM_cons, h1]; exact h4, h5, fun ax => ?_⟩
    rw [h6, h3]
    by_cases hP : f.Removed s none ax
    · by_cases hx : ax = x
      · rw [if_pos (c := ax = x ∧ _) ⟨hx, hP⟩, ite_self, if_pos ⟨by simp [hx], hP⟩]
      · by_cases hl : ax ∈ l
        · rw [if_pos ⟨hl, hP⟩, if_pos ⟨by simp [hl], hP⟩]
        · rw [if_neg (fun h => hl h.1), if_neg (fun h => hx h.1), if_neg]
          rintro ⟨h, _⟩
          exact (List.mem_cons.1 h).elim hx hl
    · rw [if_neg (fun h => hP h.2), if_neg (fun h => hP h.2), if_neg (fun h => hP h.2)]

open Classical in
/-- what the index does to one component -/
theorem debroadcast_component {c : SA γ} (hc : c.WF) {R : String → Prop} {d : Dict IndexVal} (hd : WF d)
    (hget : ∀ ax, get? d ax = if R ax ∧ ax ∈ c.axes then some (.int 0) else none)
    (hne : ∀ ax, R ax → get? c.shape ax ≠ some 0) (hcon : ∀ ax, R ax → ConstantAlong c ax) :
    ∃ r, c.getitem d = .ok r ∧ r.WF ∧ List.Sublist r.axes c.axes ∧
      (∀ ax, get? r.shape ax = if R ax then none else get? c.shape ax) ∧
      ∀ e, InRange c.shape e → r.at' e = c.at' e := by
  have hk := SA.keys_shape hc
  obtain ⟨r, r1, r2, r3, r4, r5, r6⟩ := SA.C13_getitem_basic c hc d
    ⟨hd, fun ax b h => by rw [hget] at h; split at h <;> simp at h⟩
    (by intro ax _ sl h; rw [hget] at h; split at h <;> simp at h)
    (by
      intro ax n hn
      refine ⟨fun i h => ?_, fun b h => ?_⟩
      · rw [hget] at h
        split at h
        · next hR =>
          injection h with h
          injection h with h
          subst h
          have := hne ax hR.1
          rw [hn] at this
          unfold ND.ValidIndex
          have : n ≠ 0 := by rintro rfl; exact this rfl
          omega
        · cases h
      · rw [hget] at h
        split at h <;> simp at h)
  have hint : ∀ ax, IntAt d ax ↔ R ax ∧ ax ∈ c.axes := by
    intro ax
    unfold IntAt
    rw [hget]
    split
    · next h => simp [h]
    · next h => simp [h]
  refine ⟨r, r1, r2, r4, fun ax => ?_, fun e he => ?_⟩
  · by_cases hR : R ax
    · rw [if_pos hR, get?_eq_none, SA.keys_shape r2, r3, hint]
      rintro ⟨h1, h2⟩
      exact h2 ⟨hR, h1⟩
    · rw [if_neg hR]
      by_cases hax : ax ∈ c.axes
      · rw [r5 ax ((r3 ax).2 ⟨hax, by rw [hint]; exact fun h => hR h.1⟩), selLen, hget, if_neg (fun h => hR h.1)]
        obtain ⟨n, hn⟩ := exists_get?_of_mem (d := c.shape) (by rw [hk]; exact hax)
        rw [hn]; rfl
      · rw [get?_eq_none.2 (show ax ∉ keys c.shape by rw [hk]; exact hax),
          get?_eq_none.2 (show ax ∉ keys r.shape by rw [SA.keys_shape r2, r3]; exact fun h => hax h.1)]
  · rw [r6]
    have := SA.constant_zero (a := c) (c.axes.filter (fun ax => R ax)) (by
      intro ax hax
      rw [List.mem_filter, decide_eq_true_eq] at hax
      exact ⟨hne ax hax.2, by rw [hk]; exact hax.1, hcon ax hax.2⟩) e he
    rw [← this.2]
    apply SA.at'_congr
    intro ax hax
    rw [selIdx, hget]
    by_cases hR : R ax
    · rw [if_pos ⟨hR, hax⟩]
      simp only [List.mem_filter, hax, hR, decide_true, and_self, if_true]
      exact SA.pyIndex_nat _ 0
    · rw [if_neg (fun h => hR h.1)]
      simp [hR]

/-- **C91** (removing constant axes). `na.debroadcast(f, axes)` removes exactly those of the given axes (all by default) which are
not on vertices, not empty, and along which both the inputs and the outputs are constant; all other axes keep their sizes, and no
input and no output is lost: at each named index of the original function, both components still have the same element. -/
theorem C91_debroadcast [DecidableEq α] [DecidableEq β] (f : FA α β) (hf : f.Fine) (s : Shape) (hs : f.shape = .ok s)
    (axes : Option (List String)) :
    ∃ g, f.debroadcast axes = .ok g ∧ g.Fine ∧ (∀ ax, g.Vertex ax ↔ f.Vertex ax) ∧
      List.Sublist g.inputs.axes f.inputs.axes ∧ List.Sublist g.outputs.axes f.outputs.axes ∧
      (∀ ax, f.Removed s axes ax → get? g.inputs.shape ax = none ∧ get? g.outputs.shape ax = none) ∧
      (∀ ax, ¬ f.Removed s axes ax → get? g.inputs.shape ax = get? f.inputs.shape ax ∧
        get? g.outputs.shape ax = get? f.outputs.shape ax) ∧
      (∀ e, InRange f.inputs.shape e → g.inputs.at' e = f.inputs.at' e) ∧
      ∀ e, InRange f.outputs.shape e → g.outputs.at' e = f.outputs.at' e := by
  classical
  obtain ⟨s0, v, hs0, hv, hsw, hvm, hk, hVs, hC⟩ := shape_main hf
  rw [hs] at hs0
  injection hs0 with hs0
  subst hs0
  have hfine := hf
  obtain ⟨⟨hi, ho⟩, hm⟩ := hf
  obtain ⟨d, d1, d2, d3⟩ := debroadcast_fold ⟨hi, ho⟩ (s := s) hvm (axes.getD s.keys) [] wf_nil
  have d3' : ∀ ax, get? d ax = if f.Removed s axes ax then some (.int 0) else none := by
    intro ax
    rw [d3, get?_nil]
    have : (ax ∈ axes.getD s.keys ∧ f.Removed s none ax) ↔ f.Removed s axes ax := by
      unfold Removed
      cases axes with
      | none =>
        simp only [Option.getD_none, reduceCtorEq, false_implies, implies_true, true_and]
        exact ⟨fun h => h.2, fun h => ⟨h.1, h⟩⟩
      | some l => simp
    simp only [this]
  obtain ⟨c, v', s', c1, c2, c3, c4, c5, c6, c7, c8, c9, c10⟩ :=
    C52_axes f.inputs.shape f.outputs.shape (SA.wf_shape hi) (SA.wf_shape ho) hm
  have hcen : ∀ ax, f.Removed s axes ax → ax ∈ c := by
    intro ax hR
    have h1 := (c5 ax).2 ((c8 ax).1 (by
      have : s' = s := by
        have h := hs
        unfold FA.shape at h
        rw [c3] at h
        injection h
      rw [this]; exact hR.2.1))
    rcases List.mem_append.1 h1 with h | h
    · exact h
    · exact absurd ((c6 ax).1 h) hR.2.2.1
  have hfil : d.filter (fun p => p.1 ∈ f.axes) = d := by
    rw [List.filter_eq_self]
    intro p hp
    rw [decide_eq_true_eq]
    unfold FA.axes
    rw [mem_axesOf (SA.wf_shape ho), SA.keys_shape hi, SA.keys_shape ho, ← hk]
    have hg := get?_of_mem d2 hp
    rw [d3'] at hg
    by_cases hR : f.Removed s axes p.1
    · exact hR.2.1
    · rw [if_neg hR] at hg; cases hg
  obtain ⟨A, a1, a2, a3, a4, a5⟩ := fold_items f.inputs.shape f.outputs.shape c c1 d ([], []) d2 wf_nil wf_nil (by
    intro ax w hw hc
    rw [d3'] at hw
    by_cases hR : f.Removed s axes ax
    · exact absurd (hcen ax hR) hc
    · rw [if_neg hR] at hw; cases hw)
  have hA : ∀ {δ : Type} {x : SA δ} (hx : x.WF) {D : Dict IndexVal} {pick : IndexVal × IndexVal → IndexVal},
      (∀ ax, get? D ax = ((get? d ax).bind (entryAt c x.shape pick ax)).or (get? [] ax)) →
      ∀ ax, get? D ax = if f.Removed s axes ax ∧ ax ∈ x.axes then some (.int 0) else none := by
    intro δ x hx D pick hD ax
    rw [hD, d3', get?_nil, Option.or_none, ← SA.keys_shape hx]
    by_cases hR : f.Removed s axes ax
    · rw [if_pos hR, Option.bind_some]
      unfold entryAt
      rw [if_pos (hcen ax hR)]
      simp only [hR, true_and]
    · rw [if_neg hR, if_neg (fun h => hR h.1), Option.bind_none]
  have hne : ∀ ax, f.Removed s axes ax → get? f.inputs.shape ax ≠ some 0 ∧ get? f.outputs.shape ax ≠ some 0 := by
    intro ax hR
    obtain ⟨n, hn⟩ := exists_get?_of_mem hR.2.1
    have h0 : n ≠ 0 := by rintro rfl; exact hR.2.2.2.1 hn
    obtain ⟨_, h1, h2⟩ := hC ax n hR.2.2.1 hn
    refine ⟨fun h => ?_, fun h => ?_⟩
    · have := h1 0 h; omega
    · have := h2 0 h; omega
  obtain ⟨ri, i1, i2, i3, i4, i5⟩ := debroadcast_component hi a2 (hA hi a4) (fun ax h => (hne ax h).1)
    (fun ax h => h.2.2.2.2.2)
  obtain ⟨ro, o1, o2, o3, o4, o5⟩ := debroadcast_component ho a3 (hA ho a5) (fun ax h => (hne ax h).2)
    (fun ax h => h.2.2.2.2.1)
  refine ⟨⟨ri, ro⟩, ?_, ⟨⟨i2, o2⟩, fun ax => ?_⟩, fun ax => ?_, i3, o3, fun ax hR => ?_, fun ax hR => ?_, i5, o5⟩
  · unfold debroadcast
    rw [hs, hv]
    simp only [bind, Except.bind, d1]
    unfold getitem
    rw [hfil, a1]
    simp only [bind, Except.bind, i1, o1]
  · rintro ⟨m, n, h1, h2, h3⟩
    simp only [i4, o4] at h1 h2
    by_cases hR : f.Removed s axes ax
    · rw [if_pos hR] at h1; cases h1
    · rw [if_neg hR] at h1 h2
      exact hm ax ⟨m, n, h1, h2, h3⟩
  · unfold Vertex IsVertex
    simp only [i4, o4]
    by_cases hR : f.Removed s axes ax
    · simp only [if_pos hR]
      constructor
      · rintro ⟨n, h, _⟩; cases h
      · exact fun h => absurd h hR.2.2.1
    · simp only [if_neg hR]
  · exact ⟨by rw [i4, if_pos hR], by rw [o4, if_pos hR]⟩
  · exact ⟨by rw [i4, if_neg hR], by rw [o4, if_neg hR]⟩

/-- **C91** (removing constant axes, errors). A function without a shape raises `ValueError`. -/
theorem C91_debroadcast_error [DecidableEq α] [DecidableEq β] (f : FA α β) (hv : f.Valid) (hf : ¬ f.Fine)
    (axes : Option (List String)) : f.debroadcast axes = .error .valueError := by
  unfold debroadcast
  rw [(shape_error hv hf).1]
  rfl

theorem atB_compressed {a r : SA γ} (hr : r.WF) (hs : ∀ ax m, get? r.shape ax = some m → get? a.shape ax = some m)
    (hat : ∀ e, InRange a.shape e → r.at' e = a.at' e) {e : String → Nat}
    (he : ∀ ax m, get? a.shape ax = some m → m = 1 ∨ e ax < m) : r.atB e = a.atB e := by
  unfold SA.atB
  rw [← hat]
  · refine SA.at'_congr fun ax hax => ?_
    obtain ⟨m, hm⟩ := exists_get?_of_mem (d := r.shape) (by rw [SA.keys_shape hr]; exact hax)
    rw [hm, hs ax m hm]
  · intro ax m hm
    show (if get? a.shape ax = some 1 then 0 else e ax) < m
    split
    · next h => rw [hm] at h; injection h with h; omega
    · next h =>
      rcases he ax m hm with rfl | h'
      · exact absurd hm h
      · exact h'

/-- **C91** (removing constant axes, nothing is lost). Broadcasting the result to the shape of the original function gives the
original function back, broadcast to its shape. -/
theorem C91_debroadcast_lossless [DecidableEq α] [DecidableEq β] (f : FA α β) (hf : f.Fine) (s : Shape) (hs : f.shape = .ok s)
    (axes : Option (List String)) :
    ∃ g h, f.debroadcast axes = .ok g ∧ g.broadcastTo s = .ok h ∧ h.Fine ∧ h.Occupies s f.Vertex ∧ f.Moves h id := by
  obtain ⟨g, g1, g2, g3, _, _, g6, g7, g8, g9⟩ := C91_debroadcast f hf s hs axes
  obtain ⟨s0, v, hs0, hv, hsw, hvm, hk, hVs, hC⟩ := shape_main hf
  rw [hs] at hs0
  injection hs0 with hs0
  subst hs0
  have hsi : ∀ ax m, get? g.inputs.shape ax = some m → get? f.inputs.shape ax = some m := by
    intro ax m hm
    by_cases hR : f.Removed s axes ax
    · rw [(g6 ax hR).1] at hm; cases hm
    · rw [← (g7 ax hR).1, hm]
  have hso : ∀ ax m, get? g.outputs.shape ax = some m → get? f.outputs.shape ax = some m := by
    intro ax m hm
    by_cases hR : f.Removed s axes ax
    · rw [(g6 ax hR).2] at hm; cases hm
    · rw [← (g7 ax hR).2, hm]
  have hmem : ∀ ax, (∃ m, get? f.inputs.shape ax = some m ∨ get? f.outputs.shape ax = some m) → ∃ n, get? s ax = some n := by
    rintro ax ⟨m, h | h⟩
    · exact exists_get?_of_mem ((hk ax).2 (.inl (by rw [← SA.keys_shape hf.1.1]; exact mem_keys_of_get? h)))
    · exact exists_get?_of_mem ((hk ax).2 (.inr (by rw [← SA.keys_shape hf.1.2]; exact mem_keys_of_get? h)))
  have hfo : FitsIn f.outputs.shape s := by
    intro ax m hm
    obtain ⟨n, hn⟩ := hmem ax ⟨m, .inr hm⟩
    refine ⟨n, hn, ?_⟩
    by_cases hV : f.Vertex ax
    · obtain ⟨n', q1, q2, _⟩ := hVs ax hV
      rw [q2] at hm; injection hm with hm
      rw [q1] at hn; injection hn with hn
      omega
    · exact (hC ax n hV hn).2.2 m hm
  have hfi : ∀ ax m, get? f.inputs.shape ax = some m → ∃ n, get? s ax = some n ∧
      ((f.Vertex ax ∧ m = n + 1) ∨ (¬ f.Vertex ax ∧ m = n) ∨ m = 1) := by
    intro ax m hm
    obtain ⟨n, hn⟩ := hmem ax ⟨m, .inl hm⟩
    refine ⟨n, hn, ?_⟩
    by_cases hV : f.Vertex ax
    · obtain ⟨n', q1, _, q3⟩ := hVs ax hV
      rw [q3] at hm; injection hm with hm
      rw [q1] at hn; injection hn with hn
      exact .inl ⟨hV, by omega⟩
    · rcases (hC ax n hV hn).2.1 m hm with h | h
      · exact .inr (.inl ⟨hV, h⟩)
      · exact .inr (.inr h)
  rcases C74_broadcast_to g g2 s hsw with ⟨_, _, h, h1, h2, h3, h4, h5⟩ | ⟨hno, _⟩
  · have hocc : h.Occupies s f.Vertex := by
      intro ax
      obtain ⟨q1, q2, q3⟩ := h3 ax
      exact ⟨q1, fun hV => q2 ((g3 ax).2 hV), fun hV => q3 (fun h => hV ((g3 ax).1 h))⟩
    refine ⟨g, h, g1, h1, h2, hocc, fun e he => ?_, fun e he => ?_⟩
    · rw [h5.1 e he]
      refine atB_compressed g2.1.1 hsi g8 fun ax m hm => ?_
      obtain ⟨n, hn, hcase⟩ := hfi ax m hm
      obtain ⟨_, q2, q3⟩ := hocc ax
      show m = 1 ∨ e ax < m
      rcases hcase with ⟨hV, rfl⟩ | ⟨hV, rfl⟩ | h'
      · exact .inr (he ax (n + 1) (by rw [q2 hV, hn]; rfl))
      · exact .inr (he ax m (by rw [q3 hV, hn]))
      · exact .inl h'
    · rw [h5.2 e he]
      refine atB_compressed g2.1.2 hso g9 fun ax m hm => ?_
      obtain ⟨n, hn, hcase⟩ := hfo ax m hm
      rcases hcase with rfl | h'
      · exact .inr (he ax m (by rw [(hocc ax).1, hn]))
      · exact .inl h'
  · exfalso
    apply hno
    refine ⟨fun ax m hm => hfo ax m (hso ax m hm), fun ax m hm => ?_⟩
    obtain ⟨n, hn, hcase⟩ := hfi ax m (hsi ax m hm)
    exact ⟨n, hn, by rw [g3]; exact hcase⟩

/-! ### Histograms -/

/-- the shape of a function without vertices is the broadcast shape of its components -/
theorem shape_centers {f : FA α β} (hf : f.Fine) (hV : ∀ ax, ¬ f.Vertex ax) {s : Shape} (hs : f.shape = .ok s) :
    ∃ S, broadcastShapes [f.inputs.shape, f.outputs.shape] = .ok S ∧ ∀ ax, get? S ax = get? s ax := by
  obtain ⟨s0, v, hs0, hv, hsw, hvm, hk, hVs, hC⟩ := shape_main hf
  rw [hs] at hs0
  injection hs0 with hs0
  subst hs0
  obtain ⟨⟨hi, ho⟩, hm⟩ := hf
  have hfi : FitsIn f.inputs.shape s := by
    intro ax m hm'
    obtain ⟨n, hn⟩ := exists_get?_of_mem ((hk ax).2 (.inl (by rw [← SA.keys_shape hi]; exact mem_keys_of_get? hm')))
    exact ⟨n, hn, (hC ax n (hV ax) hn).2.1 m hm'⟩
  have hfo : FitsIn f.outputs.shape s := by
    intro ax m hm'
    obtain ⟨n, hn⟩ := exists_get?_of_mem ((hk ax).2 (.inr (by rw [← SA.keys_shape ho]; exact mem_keys_of_get? hm')))
    exact ⟨n, hn, (hC ax n (hV ax) hn).2.2 m hm'⟩
  obtain ⟨S, h1, h2⟩ := broadcast_of_fits (SA.wf_shape hi) (SA.wf_shape ho) hfi hfo
  refine ⟨S, h1, fun ax => ?_⟩
  have hw := SA.wf_pair hi ho
  cases hn : get? s ax with
  | none =>
    rw [get?_eq_none]
    intro h
    obtain ⟨m, hm'⟩ := exists_get?_of_mem h
    obtain ⟨n, hn', _⟩ := h2 ax m hm'
    rw [hn] at hn'
    cases hn'
  | some n =>
    have : ∃ t, get? S ax = some t ∧ (n = t ∨ n = 1) := by
      rcases (hC ax n (hV ax) hn).1 with h | h
      · exact SA.fitsIn_of_broadcastShapes hw h1 (s := f.inputs.shape) (by simp) ax n h
      · exact SA.fitsIn_of_broadcastShapes hw h1 (s := f.outputs.shape) (by simp) ax n h
    obtain ⟨t, ht, h3⟩ := this
    obtain ⟨n', hn', h4⟩ := h2 ax t ht
    rw [hn] at hn'
    injection hn' with hn'
    rw [ht]
    congr 1
    omega

section
variable {K : Type} [Field K] [LinearOrder K] [IsStrictOrderedRing K]

omit [LinearOrder K] [IsStrictOrderedRing K] in
/-- the samples of the histogram of a function -/
theorem goodSamples {f : FA K K} (hf : f.Fine) (hV : ∀ ax, ¬ f.Vertex ax) {s : Shape} (hs : f.shape = .ok s)
    {A : List String} (hA : A.Nodup) (hsub : ∀ ax ∈ A, ax ∈ keys s) {axis : Option (List String)}
    (hax : axis = some A ∨ axis = none ∧ ∀ x ∈ keys s, x ∈ A) :
    ∃ S, (∀ ax, get? S ax = get? s ax) ∧ GoodSamples [f.inputs] (some f.outputs) axis S A := by
  obtain ⟨S, h1, h2⟩ := shape_centers hf hV hs
  have hk : ∀ ax, ax ∈ keys S ↔ ax ∈ keys s := by
    intro ax
    rw [← not_iff_not, ← get?_eq_none, ← get?_eq_none, h2]
  refine ⟨S, h2, ?_, hf.1.2, h1, hA, fun ax h => (hk ax).2 (hsub ax h), ?_⟩
  · intro a ha
    rw [List.mem_singleton] at ha
    subst ha
    exact hf.1.1
  · rcases hax with h | ⟨h, h'⟩
    · exact .inl h
    · exact .inr ⟨h, fun x hx => h' x ((hk x).1 hx)⟩

omit [IsStrictOrderedRing K] in
/-- without an axis on vertices, the histogram is the one of the inputs with the outputs as weights -/
theorem histogram_run {f : FA K K} (hf : f.Fine) (hV : ∀ ax, ¬ f.Vertex ax) (bins : Bins K) (axis : Option (List String))
    (min max : Option (SA K)) (density : Bool) (garbage : List Nat → K) {hist edges : SA K}
    (h : NA.histogram f.inputs bins axis min max density (some f.outputs) garbage = .ok (hist, edges)) :
    f.histogram bins axis min max density garbage = .ok ⟨edges, hist⟩ := by
  obtain ⟨s, v, hs, hv, _, hvm, _⟩ := shape_main hf
  have hl : ∃ l, f.histogramAxes axis = .ok l := by
    cases axis with
    | some l => exact ⟨l, rfl⟩
    | none => exact ⟨s.keys, by unfold histogramAxes; rw [hs]; rfl⟩
  obtain ⟨l, hl⟩ := hl
  unfold histogram
  rw [hl, hv]
  simp only [bind, Except.bind]
  rw [if_neg, h]
  rw [List.any_eq_true]
  rintro ⟨ax, _, hx⟩
  rw [decide_eq_true_eq] at hx
  exact hV ax ((hvm ax).1 hx)

omit [IsStrictOrderedRing K] in
/-- **C91** (partial, histograms with given edges). For a function without axes on vertices (what is missing, see
`C91_histogram_refuted`): the inputs of the histogram are the edges, and each output is the sum of those outputs of the function
along the summed axes whose inputs are in the bin. -/
theorem C91_histogram_edges_partial (f : FA K K) (hf : f.Fine) (hV : ∀ ax, ¬ f.Vertex ax) (s : Shape) (hs : f.shape = .ok s)
    (A : List String) (hA : A.Nodup) (hsub : ∀ ax ∈ A, ax ∈ keys s) (axis : Option (List String))
    (hax : axis = some A ∨ axis = none ∧ ∀ x ∈ keys s, x ∈ A) (D : Dim K) (hD : GoodDims s A [D]) (min max : Option (SA K))
    (garbage : List Nat → K) :
    ∃ g, f.histogram (.edges [D.edges]) axis min max false garbage = .ok g ∧ g.inputs = D.edges ∧ g.outputs.WF ∧
      HistShape s A [D] g.outputs.shape ∧
      ∀ e, InRange g.outputs.shape e → ∃ l, SlabOf s A e l ∧ g.outputs.at' e =
        ((l.filter (fun e' => decide (D.InBin e (f.inputs.atB e')))).map f.outputs.atB).sum := by
  obtain ⟨S, h1, h2⟩ := goodSamples hf hV hs hA hsub hax
  obtain ⟨hist, c1, c2, c3, c4⟩ := C58_counts [f.inputs] (some f.outputs) axis S A h2 [D] (hD.congr h1) rfl
    (min.map fun m => [m]) (max.map fun m => [m]) garbage
  refine ⟨⟨D.edges, hist⟩, histogram_run hf hV _ _ _ _ _ _ ?_, rfl, c2, fun x n => by rw [c3 x n, h1], fun e he => ?_⟩
  · unfold NA.histogram
    simp only [List.map_cons, List.map_nil] at c1
    rw [c1]
    rfl
  · obtain ⟨l, l1, l2⟩ := c4 e he
    refine ⟨l, ⟨l1.1, fun e' => by rw [l1.2]; simp only [h1]⟩, l2.trans ?_⟩
    have : ∀ e', decide (Sampled [D] e (List.map (fun s : SA K => s.atB e') [f.inputs])) = decide (D.InBin e (f.inputs.atB e')) := by
      intro e'
      rw [decide_eq_decide]
      unfold Sampled
      simp
    simp only [this]
    rfl

/-- **C91** (partial, histograms with a given number of edges). For a function without axes on vertices, `bins={ax: n + 1}` gives
`n` bins between equidistant edges from `min` to `max`; each output is the sum of those outputs of the function whose inputs are
in the bin, and if there is a bin, the outputs add up to the sum of those outputs of the function whose inputs are in
`[min, max]`. -/
theorem C91_histogram_bins_partial (f : FA K K) (hf : f.Fine) (hV : ∀ ax, ¬ f.Vertex ax) (s : Shape) (hs : f.shape = .ok s)
    (A : List String) (hA : A.Nodup) (hsub : ∀ ax ∈ A, ax ∈ keys s) (axis : Option (List String))
    (hax : axis = some A ∨ axis = none ∧ ∀ x ∈ keys s, x ∈ A) (ax : String) (hnew : ax ∈ keys s → ax ∈ A)
    (lo hi : SA K) (hb : Bounds s A lo hi) (n : Nat) (garbage : List Nat → K) :
    ∃ g, f.histogram (.counts [(ax, ((n + 1 : Nat) : Int))]) axis (some lo) (some hi) false garbage = .ok g ∧ g.Valid ∧
      (∀ x, get? g.outputs.shape x = if x = ax then some n else if x ∈ A then none else get? s x) ∧ g.Vertex ax ∧
      (∀ e, OutsideRange s A e → ∀ k ≤ n,
        g.inputs.atB (Function.update e ax k) = lo.atB e + (k : K) * ((hi.atB e - lo.atB e) / (n : K))) ∧
      (∀ e, InRange g.outputs.shape e → ∃ l, SlabOf s A e l ∧ g.outputs.at' e =
        ((l.filter (fun e' => decide (Dim.InBin ⟨g.inputs, ax, n⟩ e (f.inputs.atB e')))).map f.outputs.atB).sum) ∧
      (0 < n → ∀ e, OutsideRange s A e → ∃ l, SlabOf s A e l ∧
        ((List.range n).map (fun k => g.outputs.at' (Function.update e ax k))).sum =
          ((l.filter (fun e' => decide (lo.atB e ≤ f.inputs.atB e' ∧ f.inputs.atB e' ≤ hi.atB e))).map f.outputs.atB).sum) := by
  obtain ⟨S, h1, h2⟩ := goodSamples hf hV hs hA hsub hax
  have hk : ∀ x, x ∈ keys S ↔ x ∈ keys s := by
    intro x
    rw [← not_iff_not, ← get?_eq_none, ← get?_eq_none, h1]
  have hout : ∀ e, OutsideRange S A e ↔ OutsideRange s A e := by
    intro e
    unfold OutsideRange
    simp only [h1]
  have hbd : Bounds S A lo hi :=
    ⟨⟨hb.lower.1, fun x m hm => by rw [h1]; exact hb.lower.2 x m hm⟩,
      ⟨hb.upper.1, fun x m hm => by rw [h1]; exact hb.upper.2 x m hm⟩, fun e he => hb.le e ((hout e).1 he)⟩
  have hsl : ∀ {e l}, SlabOf S A e l → SlabOf s A e l := fun h => ⟨h.1, fun e' => by rw [h.2]; simp only [h1]⟩
  obtain ⟨hist, edges, c1, c2, c3, c4, c5, c6, c7, c8⟩ := C58_histogram_partial f.inputs (some f.outputs) axis S A h2 ax
    (fun h => hnew ((hk ax).1 h)) lo hi hbd n garbage
  refine ⟨⟨edges, hist⟩, histogram_run hf hV _ _ _ _ _ _ c1, ⟨c3, c2⟩, fun x => by rw [c6, h1], ⟨n, c4, by rw [c6, if_pos rfl]⟩,
    fun e he => c5 e ((hout e).2 he), fun e he => ?_, fun hn e he => ?_⟩
  · obtain ⟨l, l1, l2⟩ := c7 e he
    exact ⟨l, hsl l1, l2⟩
  · obtain ⟨l, l1, l2⟩ := c8 hn e ((hout e).2 he)
    exact ⟨l, hsl l1, l2⟩

omit [IsStrictOrderedRing K] in
/-- **C91** (histograms, errors). Summing over an axis on vertices, or another axis on vertices with at least two cells, raises
`ValueError`. -/
theorem C91_histogram_error (f : FA K K) (hf : f.Fine) (bins : Bins K) (axis : Option (List String)) (min max : Option (SA K))
    (density : Bool) (garbage : List Nat → K) (ax : String) (hV : f.Vertex ax)
    (h : (∀ l, axis = some l → ax ∈ l) ∨ ∃ n, 2 ≤ n ∧ get? f.outputs.shape ax = some n) :
    f.histogram bins axis min max density garbage = .error .valueError := by
  obtain ⟨s, v, hs, hv, _, hvm, hk, hVs, _⟩ := shape_main hf
  have hl : ∃ l, f.histogramAxes axis = .ok l ∧ ((∀ l, axis = some l → ax ∈ l) → ax ∈ l) := by
    cases axis with
    | some l => exact ⟨l, rfl, fun h => h l rfl⟩
    | none =>
      refine ⟨s.keys, by unfold histogramAxes; rw [hs]; rfl, fun _ => ?_⟩
      obtain ⟨n, hn, _⟩ := hVs ax hV
      exact mem_keys_of_get? hn
  obtain ⟨l, hl, hl'⟩ := hl
  unfold histogram
  rw [hl, hv]
  simp only [bind, Except.bind]
  by_cases hany : l.any (· ∈ v) = true
  · rw [if_pos hany]
  · rw [if_neg hany]
    rcases h with h | ⟨n, hn2, hn⟩
    · exfalso
      apply hany
      rw [List.any_eq_true]
      exact ⟨ax, hl' h, by rw [decide_eq_true_eq]; exact (hvm ax).2 hV⟩
    · have hi := hf.1.1
      have ho := hf.1.2
      obtain ⟨xs, hxs⟩ := SA.ufuncN_isOk (inputs := [f.inputs]) (by simpa using hi) (s := f.inputs.shape) rfl id
      obtain ⟨x1, x2, _⟩ := SA.ufuncN_ok (by simpa using hi) hxs
      have hsh : xs.shape = f.inputs.shape := by
        have : broadcastShapes [f.inputs.shape] = .ok f.inputs.shape := rfl
        simp only [List.map_cons, List.map_nil] at x2
        rw [this] at x2
        injection x2 with x2
        exact x2.symm
      obtain ⟨n', _, q2, q3⟩ := hVs ax hV
      rw [hn] at q2
      injection q2 with q2
      subst q2
      have hclash : Clash [xs.shape, f.outputs.shape] := by
        refine ⟨ax, n + 1, n, ⟨xs.shape, by simp, by rw [hsh]; exact q3⟩, ⟨f.outputs.shape, by simp, hn⟩, ?_⟩
        omega
      obtain ⟨e, he⟩ := (C01_broadcast_shapes_error_iff _ (SA.wf_pair x1 ho)).2 hclash
      have hk := C01_broadcast_shapes_error_kind _ (SA.wf_pair x1 ho) e he
      have hu : SA.ufunc2 Prod.mk xs f.outputs = .error .valueError := by
        unfold SA.ufunc2
        rw [he, hk]
        rfl
      have : pairUp [f.inputs] (some f.outputs) = .error .valueError := by
        unfold pairUp
        rw [hxs]
        simp only [bind, Except.bind, Option.getD_some]
        rw [hu]
      unfold NA.histogram histogramdd
      rw [this]
      rfl

end

/-! ### Comparisons -/

/-- **C91** (`np.array_equiv`). Two functions whose inputs broadcast against each other and whose outputs do too are equivalent if
and only if both the inputs and the outputs are equal at every index of their common shapes. -/
theorem C91_array_equiv [DecidableEq α] [DecidableEq β] (f g : FA α β) (hf : f.Valid) (hg : g.Valid) (si so : Shape)
    (hi : broadcastShapes [f.inputs.shape, g.inputs.shape] = .ok si)
    (ho : broadcastShapes [f.outputs.shape, g.outputs.shape] = .ok so) :
    ∃ c, f.arrayEquiv g = .ok c ∧ (c = true ↔ (∀ e, InRange si e → f.inputs.atB e = g.inputs.atB e) ∧
      ∀ e, InRange so e → f.outputs.atB e = g.outputs.atB e) := by
  obtain ⟨c, c1, c2⟩ := SA.C27_array_equiv f.inputs g.inputs hf.1 hg.1 si hi
  obtain ⟨d, d1, d2⟩ := SA.C27_array_equiv f.outputs g.outputs hf.2 hg.2 so ho
  refine ⟨c && d, ?_, by rw [Bool.and_eq_true, c2, d2]⟩
  unfold arrayEquiv
  rw [c1, d1]
  rfl

/-- **C91** (`np.array_equiv`, errors). If the inputs or the outputs do not broadcast, `ValueError` is raised. -/
theorem C91_array_equiv_error [DecidableEq α] [DecidableEq β] (f g : FA α β) (hf : f.Valid) (hg : g.Valid)
    (h : Clash [f.inputs.shape, g.inputs.shape] ∨ Clash [f.outputs.shape, g.outputs.shape]) :
    f.arrayEquiv g = .error .valueError := by
  unfold arrayEquiv
  by_cases hi : Clash [f.inputs.shape, g.inputs.shape]
  · rw [SA.C27_array_equiv_clash f.inputs g.inputs hf.1 hg.1 hi]
    rfl
  · have ho := h.resolve_left hi
    have hok : ∃ si, broadcastShapes [f.inputs.shape, g.inputs.shape] = .ok si := by
      cases hb : broadcastShapes [f.inputs.shape, g.inputs.shape] with
      | ok si => exact ⟨si, rfl⟩
      | error e => exact absurd ((C01_broadcast_shapes_error_iff _ (SA.wf_pair hf.1 hg.1)).1 ⟨e, hb⟩) hi
    obtain ⟨si, hsi⟩ := hok
    obtain ⟨c, c1, _⟩ := SA.C27_array_equiv f.inputs g.inputs hf.1 hg.1 si hsi
    rw [c1, SA.C27_array_equiv_clash f.outputs g.outputs hf.2 hg.2 ho]
    rfl

/-- **C91** (partial, `np.array_equal`). For functions whose components have the same axes in the same order, the result is true if
and only if both components are equal by name (the names are not compared, see `C27_array_equal_refuted`). -/
theorem C91_array_equal_partial [DecidableEq α] [DecidableEq β] (f g : FA α β) (hf : f.Valid) (hg : g.Valid)
    (hi : f.inputs.axes = g.inputs.axes) (ho : f.outputs.axes = g.outputs.axes) :
    f.arrayEqual g = true ↔ SA.SameByName f.inputs g.inputs ∧ SA.SameByName f.outputs g.outputs := by
  unfold arrayEqual
  rw [Bool.and_eq_true, SA.C27_array_equal_partial _ _ hf.1 hg.1 hi, SA.C27_array_equal_partial _ _ hf.2 hg.2 ho]

/-- **C91** (`np.clip`). The outputs are limited elementwise, and the inputs are unchanged. -/
theorem C91_clip (mx mn : β → β → β) (f : FA α β) (hf : f.Fine) (lo hi : Option (SA β))
    (hlo : ∀ x, lo = some x → x.WF ∧ FitsIn x.shape f.outputs.shape)
    (hhi : ∀ x, hi = some x → x.WF ∧ FitsIn x.shape f.outputs.shape) :
    ∃ g, f.clip mx mn lo hi = .ok g ∧ g.Fine ∧ g.inputs = f.inputs ∧ g.outputs.shape = f.outputs.shape ∧
      ∀ e, InRange f.outputs.shape e → ∃ y,
        (lo = none ∧ y = f.outputs.at' e ∨ ∃ l, lo = some l ∧ y = mx (f.outputs.at' e) (l.atB e)) ∧
        (hi = none ∧ g.outputs.at' e = y ∨ ∃ h, hi = some h ∧ g.outputs.at' e = mn y (h.atB e)) := by
  obtain ⟨r, r1, r2, r3, r4⟩ := SA.C57_clip mx mn f.outputs hf.1.2 lo hi hlo hhi
  refine ⟨⟨f.inputs, r⟩, ?_, ⟨⟨hf.1.1, r2⟩, fun ax h => ?_⟩, rfl, r3, r4⟩
  · unfold clip
    rw [r1]
    rfl
  · simp only [r3] at h
    exact hf.2 ax h

/-- **C91** (`np.clip`, errors). -/
theorem C91_clip_error (mx mn : β → β → β) (f : FA α β) (hf : f.Valid) (lo hi : Option (SA β))
    (hlo : ∀ x, lo = some x → x.WF) (hhi : ∀ x, hi = some x → x.WF)
    (h : (∃ x, lo = some x ∧ ¬ FitsIn x.shape f.outputs.shape) ∨ ∃ x, hi = some x ∧ ¬ FitsIn x.shape f.outputs.shape) :
    f.clip mx mn lo hi = .error .valueError := by
  unfold clip
  rw [SA.C57_clip_error mx mn f.outputs hf.2 lo hi hlo hhi h]
  rfl

/-! ### Examples and limits -/

/-- inputs along `x`, `y`, outputs along `y`, `x`, `z`, where `z` is on vertices of the inputs -/
def exBlock : FA Nat Nat :=
  ⟨⟨["x", "y", "z"], ND.ofList [2, 2, 3] [0, 1, 2, 3, 4, 5, 6, 7, 8, 9, 10, 11] 0⟩,
    ⟨["y", "z", "x"], ND.ofList [2, 2, 2] [10, 20, 30, 40, 50, 60, 70, 80] 0⟩⟩

theorem fine_of_axes {f : FA α β} (hv : f.Valid) (h : ∀ ax ∈ f.inputs.axes, ∀ m ∈ get? f.inputs.shape ax, ∀ n ∈ get? f.outputs.shape ax,
    m = n ∨ m = n + 1 ∨ m = 1 ∨ n = 1) : f.Fine := by
  refine ⟨hv, ?_⟩
  rintro ax ⟨m, n, h1, h2, h3, h4, h5, h6⟩
  rcases h ax (by rw [← SA.keys_shape hv.1]; exact mem_keys_of_get? h1) m h1 n h2 with h | h | h | h
  · exact h3 h
  · exact h4 h
  · exact h5 h
  · exact h6 h

theorem fine_exBlock : exBlock.Fine := fine_of_axes ⟨by decide, by decide⟩ (by decide)

theorem vertex_iff {f : FA α β} (hi : f.inputs.WF) (ax : String) : f.Vertex ax ↔
    ax ∈ f.inputs.axes ∧ get? f.inputs.shape ax = (get? f.outputs.shape ax).map (· + 1) := by
  unfold Vertex IsVertex
  constructor
  · rintro ⟨n, h1, h2⟩
    exact ⟨by rw [← SA.keys_shape hi]; exact mem_keys_of_get? h1, by rw [h1, h2]; rfl⟩
  · rintro ⟨h1, h2⟩
    rw [← SA.keys_shape hi] at h1
    obtain ⟨m, hm⟩ := exists_get?_of_mem h1
    rw [hm] at h2
    cases ho : get? f.outputs.shape ax with
    | none => rw [ho] at h2; cases h2
    | some n =>
      rw [ho] at h2
      injection h2 with h2
      exact ⟨n, by rw [hm, h2], rfl⟩

/-- the inputs and outputs are flattened in the same order, whatever the order of their axes -/
example : ((exBlock.combineAxes (some ["y", "x"]) (some "p")).map
    (fun g => (g.inputs.shape, g.inputs.nd.toList, g.outputs.shape, g.outputs.nd.toList))) =
    .ok ([("z", 3), ("p", 4)], [0, 6, 3, 9, 1, 7, 4, 10, 2, 8, 5, 11],
      [("z", 2), ("p", 4)], [10, 20, 50, 60, 30, 40, 70, 80]) := by decide +kernel

example : exBlock.Fine ∧ exBlock.shape = .ok [("y", 2), ("x", 2), ("z", 2)] ∧ (∀ ax ∈ ["y", "x"], ¬ exBlock.Vertex ax) ∧
    exBlock.Vertex "z" ∧ ("p" ∈ keys [("y", 2), ("x", 2), ("z", 2)] → "p" ∈ ["y", "x"]) ∧
    (∀ ax ∈ ["y", "x"], (ax ∈ exBlock.inputs.axes → get? exBlock.inputs.shape ax = get? [("y", 2), ("x", 2), ("z", 2)] ax) ∧
      (ax ∈ exBlock.outputs.axes → get? exBlock.outputs.shape ax = get? [("y", 2), ("x", 2), ("z", 2)] ax)) := by
  refine ⟨fine_exBlock, by decide +kernel, fun ax hax => ?_, (vertex_iff fine_exBlock.1.1 _).2 (by decide), by decide, by decide⟩
  rw [vertex_iff fine_exBlock.1.1]
  revert ax
  decide

example : exBlock.combineAxes (some ["y", "z"]) (some "p") = .error .valueError :=
  C91_combine_error exBlock fine_exBlock.1 _ _ "z" (by simp) (.inr ((vertex_iff fine_exBlock.1.1 _).2 (by decide)))

/-- **C91** (refuted, combining axes). An axis along which one component has size 1 is not broadcast before the axes are combined.
Six points become two cells between three vertices, without an error. -/
theorem C91_combine_refuted : ∃ (f g : FA Nat Nat), f.Fine ∧ (∀ ax ∈ ["x", "y"], ¬ f.Vertex ax) ∧
    f.shape = .ok [("x", 3), ("y", 2)] ∧
    f.combineAxes (some ["x", "y"]) (some "p") = .ok g ∧ g.Fine ∧ g.Vertex "p" ∧ g.shape = .ok [("p", 2)] := by
  have hi : (⟨["x", "y"], ND.ofList [3, 1] [1, 2, 3] 0⟩ : SA Nat).WF := by decide
  have ho : (⟨["x", "y"], ND.ofList [1, 2] [10, 20] 0⟩ : SA Nat).WF := by decide
  have hr : ((⟨⟨["x", "y"], ND.ofList [3, 1] [1, 2, 3] 0⟩, ⟨["x", "y"], ND.ofList [1, 2] [10, 20] 0⟩⟩ : FA Nat Nat).combineAxes
      (some ["x", "y"]) (some "p")).map (fun g => (g.inputs.axes, g.inputs.nd.shape, g.outputs.axes, g.outputs.nd.shape)) =
      .ok (["p"], [3], ["p"], [2]) := by decide +kernel
  cases hg : (⟨⟨["x", "y"], ND.ofList [3, 1] [1, 2, 3] 0⟩, ⟨["x", "y"], ND.ofList [1, 2] [10, 20] 0⟩⟩ : FA Nat Nat).combineAxes
      (some ["x", "y"]) (some "p") with
  | error e => rw [hg] at hr; cases hr
  | ok g =>
    rw [hg] at hr
    simp only [Except.map, Except.ok.injEq, Prod.mk.injEq] at hr
    obtain ⟨h1, h2, h3, h4⟩ := hr
    have e1 : g.inputs.shape = [("p", 3)] := by unfold SA.shape; rw [h1, h2]; rfl
    have e2 : g.outputs.shape = [("p", 2)] := by unfold SA.shape; rw [h3, h4]; rfl
    have w1 : g.inputs.WF := ⟨by unfold ND.ndim; rw [h1, h2]; rfl, by rw [h1]; simp⟩
    have w2 : g.outputs.WF := ⟨by unfold ND.ndim; rw [h3, h4]; rfl, by rw [h3]; simp⟩
    refine ⟨_, g, fine_of_axes ⟨hi, ho⟩ (by decide), fun ax hax => ?_, by decide +kernel, hg,
      fine_of_axes ⟨w1, w2⟩ ?_, (vertex_iff w1 _).2 ?_, ?_⟩
    · rw [vertex_iff hi]
      revert ax
      decide
    · rw [h1, e1, e2]; decide
    · rw [h1, e1, e2]; decide
    · unfold FA.shape; rw [e1, e2]; decide +kernel

/-- constant along `y` and `z`; not along `x`, since the inputs are different; `v` is on vertices -/
def exFlatY : FA Nat Nat :=
  ⟨⟨["x", "y", "v"], ND.ofList [2, 2, 2] [1, 1, 1, 1, 2, 2, 2, 2] 0⟩, ⟨["y", "z", "v"], ND.ofList [1, 2, 1] [7, 7] 0⟩⟩

theorem fine_exFlatY : exFlatY.Fine := fine_of_axes ⟨by decide, by decide⟩ (by decide)

/-- the axis `y` has two points in the inputs and one output: it is on vertices, too -/
example : ((exFlatY.debroadcast none).map (fun g => (g.inputs.shape, g.inputs.nd.toList, g.outputs.shape, g.outputs.nd.toList))) =
    .ok ([("x", 2), ("y", 2), ("v", 2)], [1, 1, 1, 1, 2, 2, 2, 2], [("y", 1), ("v", 1)], [7]) := by decide +kernel

/-- constant along `y`, not along `x` -/
def exFlatZ : FA Nat Nat :=
  ⟨⟨["x", "y", "v"], ND.ofList [2, 1, 2] [1, 1, 2, 2] 0⟩, ⟨["y", "z", "v"], ND.ofList [3, 2, 1] [7, 8, 7, 8, 7, 8] 0⟩⟩

theorem fine_exFlatZ : exFlatZ.Fine := fine_of_axes ⟨by decide, by decide⟩ (by decide)

example : exFlatZ.shape = .ok [("y", 3), ("z", 2), ("v", 1), ("x", 2)] := by decide +kernel

example : ((exFlatZ.debroadcast none).map (fun g => (g.inputs.shape, g.inputs.nd.toList, g.outputs.shape, g.outputs.nd.toList))) =
    .ok ([("x", 2), ("v", 2)], [1, 1, 2, 2], [("z", 2), ("v", 1)], [7, 8]) := by decide +kernel

example : ((exFlatZ.debroadcast (some ["x", "w"])).map (fun g => (g.inputs.shape, g.outputs.shape))) =
    .ok ([("x", 2), ("y", 1), ("v", 2)], [("y", 3), ("z", 2), ("v", 1)]) := by decide +kernel

/-- two channels of four samples each, with weights along one of the axes -/
def exCounts : FA ℚ ℚ :=
  ⟨⟨["c", "t"], ND.ofList [2, 4] [0, 1, 2, 3, 3, 3, 1, 5] 0⟩, ⟨["t"], ND.ofList [4] [1, 10, 100, 1000] 0⟩⟩

theorem fine_exCounts : exCounts.Fine := fine_of_axes ⟨by decide, by decide⟩ (by decide)

theorem center_exCounts (ax : String) : ¬ exCounts.Vertex ax := by
  rw [vertex_iff fine_exCounts.1.1]
  rintro ⟨h1, h2⟩
  revert ax
  decide

/-- the outputs are the weights -/
example : ((exCounts.histogram (.edges [⟨["b"], ND.ofList [3] [0, 2, 3] 0⟩]) (some ["t"]) none none false (fun _ => 77)).map
    (fun g => (g.inputs.shape, g.outputs.shape, g.outputs.nd.toList))) =
    .ok ([("b", 3)], [("c", 2), ("b", 2)], [11, 1100, 100, 11]) := by decide +kernel

example : ((exCounts.histogram (.counts [("b", 3)]) (some ["t"]) (some (SA.scalar 0)) (some (SA.scalar 4)) false (fun _ => 77)).map
    (fun g => (g.inputs.shape, g.outputs.shape, g.outputs.nd.toList))) =
    .ok ([("b", 3)], [("c", 2), ("b", 2)], [11, 1100, 100, 11]) := by decide +kernel

/-- the theorem for given edges applies to this function -/
example : GoodDims [("t", 4), ("c", 2)] ["t"] [(⟨⟨["b"], ND.ofList [3] [0, 2, 3] 0⟩, "b", 2⟩ : Dim ℚ)] := by
  have hsh : (⟨["b"], ND.ofList [3] [0, 2, 3] 0⟩ : SA ℚ).shape = [("b", 3)] := rfl
  refine ⟨by simp, ?_, ?_, ?_, ?_, ?_⟩
  · intro D hD; rw [List.mem_singleton] at hD; subst hD; decide
  · intro D hD; rw [List.mem_singleton] at hD; subst hD; decide
  · intro D hD; rw [List.mem_singleton] at hD; subst hD; decide
  · intro D hD x n hx hn; rw [List.mem_singleton] at hD; subst hD
    simp only [hsh] at hn hx
    rw [get?_cons, if_neg (fun h => hx h.symm), get?_nil] at hn
    cases hn
  · intro D hD e _ k hk; rw [List.mem_singleton] at hD; subst hD
    have hk' : k < 2 := hk
    have he : ∀ j, Dim.edge (⟨⟨["b"], ND.ofList [3] [0, 2, 3] 0⟩, "b", 2⟩ : Dim ℚ) e j = (ND.ofList [3] [(0 : ℚ), 2, 3] 0).get [j] := by
      intro j
      unfold Dim.edge SA.atB SA.at'
      simp only [hsh, List.map_cons, List.map_nil, get?_cons, if_true]
      simp
    rw [he, he]
    interval_cases k <;> decide +kernel

example : exCounts.shape = .ok [("t", 4), ("c", 2)] := by decide +kernel

/-- **C91** (refuted, histograms). An axis on vertices with a single cell, which is not summed over, is broadcast against the two
vertices: each output is counted twice, without an error. -/
theorem C91_histogram_refuted : ∃ (f g : FA ℚ ℚ) (E : SA ℚ), f.Fine ∧ f.Vertex "c" ∧ get? f.outputs.shape "c" = some 1 ∧
    f.histogram (.edges [E]) (some ["t"]) none none false (fun _ => 0) = .ok g ∧
    (∀ x ∈ f.inputs.nd.toList, E.at' (fun _ => 0) ≤ x ∧ x ≤ E.at' (fun _ => 1)) ∧
    f.outputs.nd.toList.sum = 111 ∧ g.outputs.nd.toList.sum = 222 := by
  have hr : ((⟨⟨["c"], ND.ofList [2] [5, 6] 0⟩, ⟨["c", "t"], ND.ofList [1, 3] [1, 10, 100] 0⟩⟩ : FA ℚ ℚ).histogram
      (.edges [⟨["b"], ND.ofList [2] [0, 10] 0⟩]) (some ["t"]) none none false (fun _ => 0)).map (fun g => g.outputs.nd.toList.sum) =
      .ok 222 := by decide +kernel
  have hi : (⟨["c"], ND.ofList [2] [5, 6] 0⟩ : SA ℚ).WF := by decide
  cases hg : (⟨⟨["c"], ND.ofList [2] [5, 6] 0⟩, ⟨["c", "t"], ND.ofList [1, 3] [1, 10, 100] 0⟩⟩ : FA ℚ ℚ).histogram
      (.edges [⟨["b"], ND.ofList [2] [0, 10] 0⟩]) (some ["t"]) none none false (fun _ => 0) with
  | error e => rw [hg] at hr; cases hr
  | ok g =>
    rw [hg] at hr
    simp only [Except.map, Except.ok.injEq] at hr
    refine ⟨_, g, _, fine_of_axes ⟨hi, by decide⟩ (by decide), (vertex_iff hi _).2 (by decide), by decide, hg, by decide +kernel,
      by decide +kernel, hr⟩

/-- **C91** (refuted, `np.array_equiv`). A function with one cell between two vertices and a function with two points are
equivalent. -/
theorem C91_array_equiv_refuted : ∃ (f g : FA Nat Nat), f.Fine ∧ g.Fine ∧ f.shape = .ok [("x", 1)] ∧ f.Vertex "x" ∧
    g.shape = .ok [("x", 2)] ∧ (∀ ax, ¬ g.Vertex ax) ∧ f.arrayEquiv g = .ok true := by
  have hi : (⟨["x"], ND.ofList [2] [1, 2] 0⟩ : SA Nat).WF := by decide
  refine ⟨⟨⟨["x"], ND.ofList [2] [1, 2] 0⟩, ⟨["x"], ND.ofList [1] [7] 0⟩⟩, ⟨⟨["x"], ND.ofList [2] [1, 2] 0⟩, ⟨[], ND.ofList [] [7] 0⟩⟩,
    fine_of_axes ⟨hi, by decide⟩ (by decide), fine_of_axes ⟨hi, by decide⟩ (by decide), by decide +kernel, (vertex_iff hi _).2 (by decide),
    by decide +kernel, fun ax => ?_, by decide +kernel⟩
  rw [vertex_iff hi]
  rintro ⟨h1, h2⟩
  revert ax
  decide

example : exBlock.arrayEquiv exBlock = .ok true := by decide +kernel
example : exBlock.arrayEqual exBlock = true := by decide +kernel
example : ((exBlock.clip max min (some (SA.scalar 25)) (some ⟨["y"], ND.ofList [2] [30, 60] 0⟩)).map
    (fun g => (g.inputs.nd.toList, g.outputs.shape, g.outputs.nd.toList))) =
    .ok ([0, 1, 2, 3, 4, 5, 6, 7, 8, 9, 10, 11], [("y", 2), ("z", 2), ("x", 2)], [25, 25, 30, 30, 50, 60, 60, 60]) := by decide +kernel

end FA
end NA
