import Verif.Props.UncertainReshape

/-!
# Transposing and broadcasting uncertain scalars (C66)
-/

namespace NA
open Dict
open SA (FitsIn InRange)

namespace UA
variable {α : Type}

/-- **C66** (`np.transpose` with `axes`). Succeeds exactly when the names are distinct, include all the axes of the array and
not the axis of the samples; then the axes are the given ones, followed by the axis of the samples, and every element of the
nominal value and of each sample stays at its named index. -/
theorem C66_transpose (u : UA α) (hu : u.Valid) (s : Shape) (hs : u.shape = .ok s) (axes : List String) :
    (axes.Nodup ∧ (∀ x ∈ keys s, x ∈ axes) ∧ axisD ∉ axes ∧
      ∃ r, u.transpose (some axes) = .ok r ∧ r.Valid ∧ r.nominal.axes = axes ∧ r.distribution.axes = axes ++ [axisD] ∧
        (∀ ax ∈ axes, get? r.nominal.shape ax = some ((get? s ax).getD 1) ∧
          get? r.distribution.shape ax = some ((get? s ax).getD 1)) ∧
        get? r.distribution.shape axisD = some ((get? u.distribution.shape axisD).getD 1) ∧
        (∀ e, r.nominal.at' e = u.nominal.atB e) ∧ ∀ e, r.distribution.at' e = u.distribution.atB e) ∨
    (¬ (axes.Nodup ∧ (∀ x ∈ keys s, x ∈ axes) ∧ axisD ∉ axes) ∧ u.transpose (some axes) = .error .valueError) := by
  obtain ⟨sd, v, h, v1, v2, v3, v4, v5, v6, v7⟩ := broadcasted_main hu hs
  have hax : v.nominal.axes = keys s := by rw [← SA.keys_shape v2.1, v3]
  have hdx : ∀ x, x ∈ v.distribution.axes → x ∈ keys s ∨ x = axisD := by
    intro x hx
    rw [← SA.keys_shape v2.2.1, v4, h.last] at hx
    rcases List.mem_append.1 hx with hx | hx
    · exact .inl hx
    · split at hx
      · exact .inr (List.mem_singleton.1 hx)
      · cases hx
  have hrun : u.transpose (some axes) = (do
      let n ← v.nominal.transpose (some axes)
      let d ← v.distribution.transpose (some (axes ++ [axisD]))
      mk? n d) := by
    unfold transpose
    rw [v1]
    rfl
  rcases SA.C10_transpose v.nominal v2.1 axes with ⟨n1, n2, n, n3, n4, n5, n6, n7⟩ | ⟨n1, n2⟩
  · rw [hax] at n2
    rcases SA.C10_transpose v.distribution v2.2.1 (axes ++ [axisD]) with ⟨d1, d2, d, d3, d4, d5, d6, d7⟩ | ⟨d1, d2⟩
    · have hD : axisD ∉ axes := by
        rw [List.nodup_append] at d1
        exact fun hx => d1.2.2 axisD hx axisD (by simp) rfl
      refine .inl ⟨n1, n2, hD, ⟨n, d⟩, ?_, ⟨n4, d4, by rw [n5]; exact hD⟩, n5, d5, fun ax hx => ⟨?_, ?_⟩, ?_, ?_, ?_⟩
      · rw [hrun, n3]
        simp only [bind, Except.bind, d3]
        exact mk?_of_valid n4 (by rw [n5]; exact hD)
      · rw [n6 ax hx, v3]
      · show get? d.shape ax = _
        rw [d6 ax (by simp [hx]), v4, h.get, if_neg (fun hh : ax = axisD => hD (hh ▸ hx))]
      · show get? d.shape axisD = _
        rw [d6 axisD (by simp), v4, h.get, if_pos rfl]
      · intro e
        show n.at' e = _
        rw [n7, v6]
      · intro e
        show d.at' e = _
        rw [d7, v7]
    · refine .inr ⟨?_, ?_⟩
      · rintro ⟨_, _, hD⟩
        refine d1 ⟨?_, ?_⟩
        · rw [List.nodup_append]
          exact ⟨n1, by simp, fun x hx y hy hxy => hD (by rw [List.mem_singleton] at hy; rw [← hy, ← hxy]; exact hx)⟩
        · intro x hx
          rcases hdx x hx with hx | rfl
          · simp [n2 x hx]
          · simp
      · rw [hrun, n3]
        simp only [bind, Except.bind, d2]
  · refine .inr ⟨fun hh => n1 ⟨hh.1, by rw [hax]; exact hh.2.1⟩, ?_⟩
    rw [hrun, n2]
    rfl

/-- **C66** (`np.transpose` without `axes`). The axes are reversed, and every element stays at its named index. -/
theorem C66_transpose_default (u : UA α) (hu : u.Valid) (s : Shape) (hs : u.shape = .ok s) :
    ∃ r, u.transpose none = .ok r ∧ r.Valid ∧ r.nominal.axes = (keys s).reverse ∧
      (∀ ax ∈ keys s, get? r.nominal.shape ax = get? s ax ∧ get? r.distribution.shape ax = get? s ax) ∧
      get? r.distribution.shape axisD = get? u.distribution.shape axisD ∧
      r.distribution.axes = (if axisD ∈ u.distribution.axes then [axisD] else []) ++ (keys s).reverse ∧
      (∀ e, InRange r.nominal.shape e → r.nominal.at' e = u.nominal.atB e) ∧
      ∀ e, InRange r.distribution.shape e → r.distribution.at' e = u.distribution.atB e := by
  obtain ⟨sd, v, h, v1, v2, v3, v4, v5, v6, v7⟩ := broadcasted_main hu hs
  have hax : v.nominal.axes = keys s := by rw [← SA.keys_shape v2.1, v3]
  have hdx : v.distribution.axes = keys s ++ if axisD ∈ u.distribution.axes then [axisD] else [] := by
    rw [← SA.keys_shape v2.2.1, v4, h.last]
  obtain ⟨n, n1, n2, n3, n4, n5⟩ := SA.C10_transpose_default v.nominal v2.1
  obtain ⟨d, d1, d2, d3, d4, d5⟩ := SA.C10_transpose_default v.distribution v2.2.1
  have hD : axisD ∉ n.axes := by rw [n3, hax]; simpa using h.noD
  refine ⟨⟨n, d⟩, ?_, ⟨n2, d2, hD⟩, by rw [n3, hax], fun ax hx => ⟨?_, ?_⟩, ?_, ?_, fun e he => ?_, fun e he => ?_⟩
  · unfold transpose
    rw [v1]
    simp only [bind, Except.bind, n1, Option.map_none, d1]
    exact mk?_of_valid n2 hD
  · show get? n.shape ax = _
    rw [n4, v3]
  · show get? d.shape ax = _
    rw [d4, v4, h.get, if_neg (fun hh : ax = axisD => h.noD (hh ▸ hx))]
  · show get? d.shape axisD = _
    rw [d4, v4, h.get, if_pos rfl]
  · show d.axes = _
    rw [d3, hdx, List.reverse_append]
    split <;> rfl
  · show n.at' e = _
    rw [n5 e he, v6]
  · show d.at' e = _
    rw [d5 e he, v7]

/-- the size of the axis of the samples in the broadcast shape -/
theorem shapeDistribution_D {u : UA α} (hu : u.Valid) {t : Shape} (ht : u.shapeDistribution = .ok t) :
    get? t axisD = get? u.distribution.shape axisD := by
  have hw : ∀ q ∈ [u.nominal.shape, u.distribution.shape], WF q := by
    intro q hq
    simp only [List.mem_cons, List.not_mem_nil, or_false] at hq
    rcases hq with rfl | rfl
    · exact SA.wf_shape hu.1
    · exact SA.wf_shape hu.2.1
  obtain ⟨g1, g2, g3⟩ := C01_broadcast_shapes_ok _ hw t ht
  have hnomD : get? u.nominal.shape axisD = none := by
    rw [get?_eq_none, SA.keys_shape hu.1]; exact hu.2.2
  cases hd : get? u.distribution.shape axisD with
  | none =>
    rw [get?_eq_none]
    intro hk
    obtain ⟨s, hs, hsk⟩ := (g2 axisD).1 hk
    simp only [List.mem_cons, List.not_mem_nil, or_false] at hs
    rcases hs with rfl | rfl
    · exact get?_eq_none.1 hnomD hsk
    · exact get?_eq_none.1 hd hsk
  | some k =>
    have hk : axisD ∈ keys t := (g2 axisD).2 ⟨_, by simp, mem_keys_of_get? hd⟩
    obtain ⟨m, hm⟩ := exists_get?_of_mem hk
    obtain ⟨⟨s, hs, hsm⟩, _⟩ := g3 axisD m hm
    simp only [List.mem_cons, List.not_mem_nil, or_false] at hs
    rcases hs with rfl | rfl
    · rw [hnomD] at hsm; cases hsm
    · rw [hm, ← hsm, hd]

/-- The two components of `na.broadcast_to`. -/
theorem broadcastTo_eq {u : UA α} {t : Shape} (h1 : u.shapeDistribution = .ok t) (shape : Shape) (append : Bool) :
    u.broadcastTo shape append = (do
      let sd ← broadcastShapes [shape, t]
      let n ← u.nominal.broadcastTo shape append
      let d ← u.distribution.broadcastTo sd append
      mk? n d) := by
  unfold broadcastTo
  rw [h1]
  rfl

theorem erase_axisD {s : Shape} (h : axisD ∉ keys s) (l : Shape) (hl : ∀ p ∈ l, p.1 = axisD) :
    Dict.erase (s ++ l) axisD = s := by
  unfold Dict.erase
  rw [List.filter_append]
  have e1 : s.filter (fun p => p.1 ≠ axisD) = s := by
    rw [List.filter_eq_self]
    intro p hp
    simp only [ne_eq, decide_eq_true_eq]
    exact fun hh => h (hh ▸ List.mem_map.2 ⟨p, hp, rfl⟩)
  have e2 : l.filter (fun p => p.1 ≠ axisD) = [] := by
    rw [List.filter_eq_nil_iff]
    intro p hp
    simp [hl p hp]
  rw [e1, e2, List.append_nil]

/-- **C66** (`na.broadcast_to`). If the shape of the array fits into the given shape, which does not have the axis of the
samples, then the nominal value and every sample of the result have the given shape, and their elements are repeated along the
new axes.  If the nominal value does not fit, if the samples contradict the given shape, or if it has the axis of the samples,
`ValueError` is raised.  (What is missing: samples with an axis which the given shape does not have, refuted below.) -/
theorem C66_broadcast_to_partial (u : UA α) (hu : u.Valid) (s : Shape) (hs : u.shape = .ok s) (shape : Shape)
    (hw : WF shape) :
    (FitsIn s shape → axisD ∉ keys shape → ∃ r, u.broadcastTo shape = .ok r ∧ r.Valid ∧ r.nominal.shape = shape ∧
      (∀ ax, get? r.distribution.shape ax = if ax = axisD then get? u.distribution.shape axisD else get? shape ax) ∧
      r.shape = .ok shape ∧
      (∀ e, r.nominal.at' e = u.nominal.atB e) ∧ ∀ e, r.distribution.at' e = u.distribution.atB e) ∧
    (¬ FitsIn u.nominal.shape shape ∨ Clash [shape, s] ∨ axisD ∈ keys shape →
      u.broadcastTo shape = .error .valueError) := by
  rcases shape_cases hu with ⟨_, _, h⟩ | ⟨_, t, s', sd', h1, h2, h3, h4, h5⟩
  · rw [h] at hs; cases hs
  have : s' = s := by rw [h5.shape] at hs; cases hs; rfl
  subst this
  have hst : ∀ ax, ax ≠ axisD → get? s' ax = get? t ax := by
    intro ax hne
    rw [h3, get?_erase, if_neg hne.symm]
  have htD := shapeDistribution_D hu h1
  have hwt : ∀ q ∈ [shape, t], WF q := by
    intro q hq
    simp only [List.mem_cons, List.not_mem_nil, or_false] at hq
    rcases hq with rfl | rfl <;> assumption
  have hwnd : ∀ q ∈ [u.nominal.shape, u.distribution.shape], WF q := by
    intro q hq
    simp only [List.mem_cons, List.not_mem_nil, or_false] at hq
    rcases hq with rfl | rfl
    · exact SA.wf_shape hu.1
    · exact SA.wf_shape hu.2.1
  have hunfold := broadcastTo_eq h1 shape false
  have hdt : FitsIn u.distribution.shape t := SA.fitsIn_of_broadcastShapes hwnd h1 (by simp)
  have hdsd : ∀ sd, broadcastShapes [shape, t] = .ok sd → WF sd ∧ ∃ d, u.distribution.broadcastTo sd = .ok d ∧ d.WF ∧
      d.shape = sd ∧ ∀ e, d.at' e = u.distribution.atB e := by
    intro sd hb
    have hwsd := (C01_broadcast_shapes_ok _ hwt sd hb).1
    have htsd : FitsIn t sd := SA.fitsIn_of_broadcastShapes hwt hb (by simp)
    have hdsd : FitsIn u.distribution.shape sd := by
      intro ax m hm
      obtain ⟨n, hn, hmn⟩ := hdt ax m hm
      obtain ⟨k, hk, hnk⟩ := htsd ax n hn
      exact ⟨k, hk, by omega⟩
    obtain ⟨_, d, d1, d2, d3, d4⟩ | ⟨hc, _⟩ := SA.C10_broadcast_to u.distribution hu.2.1 sd hwsd
    · exact ⟨hwsd, d, d1, d2, d3, d4⟩
    · exact absurd hdsd hc
  constructor
  · intro hfs hD
    have habs := bs_absorb hD h2 (fun ax m hne hg => hfs ax m (by rw [hst ax hne]; exact hg))
    have hb : ∃ sd, broadcastShapes [shape, t] = .ok sd := by
      by_cases hDt : axisD ∈ keys t
      · obtain ⟨k, hk⟩ := exists_get?_of_mem hDt
        exact ⟨_, habs.2 k hk⟩
      · exact ⟨_, habs.1 hDt⟩
    obtain ⟨sd, hb⟩ := hb
    obtain ⟨_, d, d1, d2, d3, d4⟩ := hdsd sd hb
    obtain ⟨_, n, n1, n2, n3, n4⟩ | ⟨hc, _⟩ := SA.C10_broadcast_to u.nominal hu.1 shape hw
    case inr =>
      refine absurd (fun ax m hm => ?_) hc
      obtain ⟨k, hk, hmk⟩ := h5.nom ax m hm
      obtain ⟨j, hj, hkj⟩ := hfs ax k hk
      exact ⟨j, hj, by omega⟩
    have hnD : axisD ∉ n.axes := by rw [← SA.keys_shape n2, n3]; exact hD
    have hget : ∀ ax, get? d.shape ax = if ax = axisD then get? u.distribution.shape axisD else get? shape ax := by
      intro ax
      rw [d3]
      by_cases hDt : axisD ∈ keys t
      · obtain ⟨k, hk⟩ := exists_get?_of_mem hDt
        have := habs.2 k hk
        rw [hb] at this
        injection this with this
        rw [this, ← set_of_not_mem hD, get?_set, ← htD, hk]
        simp only [eq_comm]
      · have := habs.1 hDt
        rw [hb] at this
        injection this with this
        rw [this]
        split
        · next h => rw [h, ← htD, get?_eq_none.2 hDt, get?_eq_none.2 hD]
        · rfl
    refine ⟨⟨n, d⟩, ?_, ⟨n2, d2, hnD⟩, n3, hget, ?_, n4, d4⟩
    · rw [hunfold, hb]
      simp only [bind, Except.bind, n1, d1]
      exact mk?_of_valid n2 hnD
    · have hab := bs_absorb (d := d.shape) hD (SA.wf_shape d2) (fun ax m hne hg =>
        ⟨m, by rw [hget, if_neg hne] at hg; exact hg, .inl rfl⟩)
      unfold UA.shape UA.shapeDistribution
      show (do let t ← broadcastShapes [n.shape, d.shape]; pure (t.erase axisD)) = _
      rw [n3]
      by_cases hDd : axisD ∈ keys d.shape
      · obtain ⟨k, hk⟩ := exists_get?_of_mem hDd
        rw [hab.2 k hk]
        exact congrArg Except.ok (erase_axisD hD _ (by simp))
      · rw [hab.1 hDd]
        have := erase_axisD hD [] (by simp)
        rw [List.append_nil] at this
        exact congrArg Except.ok this
  · intro hor
    rw [hunfold]
    cases hb : broadcastShapes [shape, t] with
    | error e =>
      rw [C01_broadcast_shapes_error_kind _ hwt e hb]
      rfl
    | ok sd =>
      obtain ⟨_, d, d1, d2, d3, d4⟩ := hdsd sd hb
      rcases SA.C10_broadcast_to u.nominal hu.1 shape hw with ⟨hf, n, n1, n2, n3, n4⟩ | ⟨hnf, n1⟩
      · rcases hor with h | h | h
        · exact absurd hf h
        · exfalso
          have hnc : ¬ Clash [shape, t] := by
            intro hc
            obtain ⟨e, he⟩ := (C01_broadcast_shapes_error_iff _ hwt).2 hc
            rw [hb] at he; cases he
          obtain ⟨ax, m, k, ⟨p, hp, hm⟩, ⟨q, hq, hk⟩, hne⟩ := h
          have key : ∀ p ∈ [shape, s'], ∀ m, get? p ax = some m → HasSize [shape, t] ax m := by
            intro p hp m hm
            simp only [List.mem_cons, List.not_mem_nil, or_false] at hp
            rcases hp with rfl | rfl
            · exact ⟨p, by simp, hm⟩
            · have hxD : ax ≠ axisD := by
                rintro rfl
                exact h5.noD (mem_keys_of_get? hm)
              exact ⟨t, by simp, by rw [← hst ax hxD]; exact hm⟩
          exact hnc ⟨ax, m, k, key p hp m hm, key q hq k hk, hne⟩
        · simp only [bind, Except.bind, n1, d1]
          unfold mk?
          rw [if_pos (by rw [n3]; exact h)]
      · simp only [bind, Except.bind, n1]

/-- nominal value without axes, samples along `x` -/
def exWide : UA Int := ⟨⟨[], ND.ofList [] [5] 0⟩, ⟨["x", axisD], ND.ofList [3, 2] [1, 2, 3, 4, 5, 6] 0⟩⟩

/-- **C66** (refuted). If only the samples have the axis `x`, broadcasting to a shape without `x` does not raise: the result
does not have the given shape. -/
theorem C66_broadcast_to_refuted : exWide.Valid ∧ exWide.shape = .ok [("x", 3)] ∧
    ∃ r, exWide.broadcastTo [("y", 2)] = .ok r ∧ r.shape = .ok [("y", 2), ("x", 3)] := by
  refine ⟨⟨by decide, by decide, by decide⟩, rfl, ?_⟩
  have h : (exWide.broadcastTo [("y", 2)]).map (fun r => (r.shape : R (Dict Nat))) = .ok (.ok [("y", 2), ("x", 3)]) := by
    decide +kernel
  cases hr : exWide.broadcastTo [("y", 2)] with
  | error e => rw [hr] at h; cases h
  | ok r =>
    rw [hr] at h
    injection h with h
    exact ⟨r, rfl, h⟩

theorem sameOutcome_ok {x y : R Shape} {s : Shape} (h : SameOutcome x y) (hy : y = .ok s) :
    ∃ r, x = .ok r ∧ Same r s := by
  subst hy
  cases x with
  | error e => exact h.elim
  | ok r => exact ⟨r, rfl, h⟩

theorem sameOutcome_error {x y : R Shape} {e : Err} (h : SameOutcome x y) (hy : y = .error e) : x = .error e := by
  subst hy
  cases x with
  | error e' => exact congrArg Except.error h
  | ok r => exact h.elim

/-- **C66** (`na.broadcast_to` with `append=True`). The axes of the given shape which the array does not have are added: the
nominal value takes the shape which it has together with the given one, and every sample the shape which both components have
together with the given one; all elements are repeated along the new axes.  Contradicting sizes raise `ValueError`. -/
theorem C66_broadcast_to_append (u : UA α) (hu : u.Valid) (shape : Shape) (hw : WF shape) (hD : axisD ∉ keys shape) :
    (∃ n d r, broadcastShapes [u.nominal.shape, shape] = .ok n ∧
      broadcastShapes [u.nominal.shape, u.distribution.shape, shape] = .ok d ∧
      u.broadcastTo shape true = .ok r ∧ r.Valid ∧ r.nominal.shape = n ∧
      (∀ ax, get? r.distribution.shape ax = get? d ax) ∧
      (∀ e, r.nominal.at' e = u.nominal.atB e) ∧ ∀ e, r.distribution.at' e = u.distribution.atB e) ∨
    (Clash [u.nominal.shape, u.distribution.shape, shape] ∧ u.broadcastTo shape true = .error .valueError) := by
  have hwn := SA.wf_shape hu.1
  have hwd := SA.wf_shape hu.2.1
  have hw3 : ∀ q ∈ [u.nominal.shape, u.distribution.shape, shape], WF q := by
    intro q hq
    simp only [List.mem_cons, List.not_mem_nil, or_false] at hq
    rcases hq with rfl | rfl | rfl <;> assumption
  have hw4 : ∀ q ∈ [u.distribution.shape, shape] ++ [u.nominal.shape, u.distribution.shape] ++ [], WF q := by
    intro q hq
    simp only [List.mem_append, List.mem_cons, List.not_mem_nil, or_false] at hq
    rcases hq with (rfl | rfl) | rfl | rfl <;> assumption
  have hwnd : ∀ q ∈ [u.nominal.shape, u.distribution.shape], WF q := by
    intro q hq
    simp only [List.mem_cons, List.not_mem_nil, or_false] at hq
    rcases hq with rfl | rfl <;> assumption
  have hns : ∀ q ∈ [u.nominal.shape, shape], WF q := by
    intro q hq
    simp only [List.mem_cons, List.not_mem_nil, or_false] at hq
    rcases hq with rfl | rfl <;> assumption
  have horder : SameOutcome
      (broadcastShapes ([u.distribution.shape, shape] ++ [u.nominal.shape, u.distribution.shape] ++ []))
      (broadcastShapes [u.nominal.shape, u.distribution.shape, shape]) :=
    C02_order_and_repetition _ _ hw4 (by intro q; simp; tauto)
  have hg1 := C02_grouping [u.distribution.shape, shape] [u.nominal.shape, u.distribution.shape] [] hw4
  cases hd : broadcastShapes [u.nominal.shape, u.distribution.shape, shape] with
  | ok d =>
    left
    obtain ⟨d1, hd1, hs1⟩ := sameOutcome_ok horder hd
    obtain ⟨d2, hd2, hs2⟩ := sameOutcome_ok hg1 hd1
    cases ht : broadcastShapes [u.nominal.shape, u.distribution.shape] with
    | error e => rw [ht] at hd2; cases hd2
    | ok t =>
      rw [ht] at hd2
      have hd2' : broadcastShapes ([u.distribution.shape, shape] ++ [t] ++ []) = .ok d2 := hd2
      have hwt := (C01_broadcast_shapes_ok _ hwnd t ht).1
      have hw3' : ∀ q ∈ [u.distribution.shape] ++ [shape, t] ++ [], WF q := by
        intro q hq
        simp only [List.mem_append, List.mem_cons, List.not_mem_nil, or_false] at hq
        rcases hq with rfl | rfl | rfl <;> assumption
      have hg2 := C02_grouping [u.distribution.shape] [shape, t] [] hw3'
      obtain ⟨d3, hd3, hs3⟩ := sameOutcome_ok hg2 hd2'
      cases hsd : broadcastShapes [shape, t] with
      | error e => rw [hsd] at hd3; cases hd3
      | ok sd =>
        rw [hsd] at hd3
        have hd3' : broadcastShapes [u.distribution.shape, sd] = .ok d3 := hd3
        have hwst : ∀ q ∈ [shape, t], WF q := by
          intro q hq
          simp only [List.mem_cons, List.not_mem_nil, or_false] at hq
          rcases hq with rfl | rfl <;> assumption
        have hwsd := (C01_broadcast_shapes_ok _ hwst sd hsd).1
        have hwds : ∀ q ∈ [u.distribution.shape, sd], WF q := by
          intro q hq
          simp only [List.mem_cons, List.not_mem_nil, or_false] at hq
          rcases hq with rfl | rfl <;> assumption
        obtain ⟨n, a, n1, n2, n3, n4, n5⟩ | ⟨hc, _⟩ := SA.C10_broadcast_to_append u.nominal hu.1 shape hw
        case inr =>
          obtain ⟨ax, m, k, ⟨p, hp, hm⟩, ⟨q, hq, hk⟩, hne⟩ := hc
          have : Clash [u.nominal.shape, u.distribution.shape, shape] :=
            ⟨ax, m, k, ⟨p, by simp at hp ⊢; tauto, hm⟩, ⟨q, by simp at hq ⊢; tauto, hk⟩, hne⟩
          obtain ⟨e, he⟩ := (C01_broadcast_shapes_error_iff _ hw3).2 this
          rw [hd] at he; cases he
        obtain ⟨d4, b, b1, b2, b3, b4, b5⟩ | ⟨hc, _⟩ := SA.C10_broadcast_to_append u.distribution hu.2.1 sd hwsd
        case inr =>
          obtain ⟨e, he⟩ := (C01_broadcast_shapes_error_iff _ hwds).2 hc
          rw [hd3'] at he; cases he
        rw [hd3'] at b1
        injection b1 with b1
        have hnD : axisD ∉ a.axes := by
          rw [← SA.keys_shape n3, n4]
          intro hx
          obtain ⟨q, hq, hx⟩ := ((C01_broadcast_shapes_ok _ hns n n1).2.1 axisD).1 hx
          simp only [List.mem_cons, List.not_mem_nil, or_false] at hq
          rcases hq with rfl | rfl
          · rw [SA.keys_shape hu.1] at hx; exact hu.2.2 hx
          · exact hD hx
        refine ⟨n, d, ⟨a, b⟩, n1, rfl, ?_, ⟨n3, b3, hnD⟩, n4, fun ax => ?_, n5, b5⟩
        · rw [broadcastTo_eq ht, hsd]
          simp only [bind, Except.bind, n2, b2]
          exact mk?_of_valid n3 hnD
        · show get? b.shape ax = _
          rw [b4, ← b1, hs3 ax, hs2 ax, hs1 ax]
  | error e =>
    right
    have hk := C01_broadcast_shapes_error_kind _ hw3 e hd
    subst hk
    refine ⟨(C01_broadcast_shapes_error_iff _ hw3).1 ⟨_, hd⟩, ?_⟩
    have hd1 := sameOutcome_error horder hd
    have hd2 := sameOutcome_error hg1 hd1
    cases ht : broadcastShapes [u.nominal.shape, u.distribution.shape] with
    | error e =>
      have hk := C01_broadcast_shapes_error_kind _ hwnd e ht
      subst hk
      unfold broadcastTo shapeDistribution
      rw [ht]
      rfl
    | ok t =>
      rw [ht] at hd2
      have hd2' : broadcastShapes ([u.distribution.shape, shape] ++ [t] ++ []) = .error .valueError := hd2
      have hwt := (C01_broadcast_shapes_ok _ hwnd t ht).1
      have hw3' : ∀ q ∈ [u.distribution.shape] ++ [shape, t] ++ [], WF q := by
        intro q hq
        simp only [List.mem_append, List.mem_cons, List.not_mem_nil, or_false] at hq
        rcases hq with rfl | rfl | rfl <;> assumption
      have hg2 := C02_grouping [u.distribution.shape] [shape, t] [] hw3'
      have hd3 := sameOutcome_error hg2 hd2'
      rw [broadcastTo_eq ht]
      cases hsd : broadcastShapes [shape, t] with
      | error e =>
        rw [hsd] at hd3
        have hd3' : (Except.error e : R Shape) = .error .valueError := hd3
        injection hd3' with hd3'
        rw [hd3']
        rfl
      | ok sd =>
        rw [hsd] at hd3
        have hd3' : broadcastShapes [u.distribution.shape, sd] = .error .valueError := hd3
        have hwst : ∀ q ∈ [shape, t], WF q := by
          intro q hq
          simp only [List.mem_cons, List.not_mem_nil, or_false] at hq
          rcases hq with rfl | rfl <;> assumption
        have hwsd := (C01_broadcast_shapes_ok _ hwst sd hsd).1
        obtain ⟨n, a, n1, n2, n3, n4, n5⟩ | ⟨_, hc⟩ := SA.C10_broadcast_to_append u.nominal hu.1 shape hw
        case inr => simp only [bind, Except.bind, hc]
        obtain ⟨d4, b, b1, _⟩ | ⟨_, hc⟩ := SA.C10_broadcast_to_append u.distribution hu.2.1 sd hwsd
        · rw [hd3'] at b1; cases b1
        · simp only [bind, Except.bind, n2, hc]

example : (do let r ← exWide.broadcastTo [("y", 2)] true; pure (r.nominal.axes, r.distribution.axes, r.distribution.nd.toList))
    = .ok (["y"], ["x", axisD, "y"], [1, 1, 2, 2, 3, 3, 4, 4, 5, 5, 6, 6]) := by decide +kernel

example : (do let r ← exWide.broadcastTo [("x", 3)]; pure (r.nominal.nd.toList, r.distribution.nd.toList))
    = .ok ([5, 5, 5], [1, 2, 3, 4, 5, 6]) := by decide +kernel

example : (do let r ← exWide.transpose (some ["y", "x"]); pure (r.nominal.axes, r.distribution.axes, r.distribution.nd.toList))
    = .ok (["y", "x"], ["y", "x", axisD], [1, 2, 3, 4, 5, 6]) := by decide +kernel

example : (do let r ← exWide.transpose none; pure (r.nominal.axes, r.distribution.axes, r.distribution.nd.toList))
    = .ok (["x"], [axisD, "x"], [1, 3, 5, 2, 4, 6]) := by decide +kernel

end UA
end NA
