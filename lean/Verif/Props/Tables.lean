import Mathlib.Data.Rat.Floor
import Mathlib.Tactic.FieldSimp
import Mathlib.Tactic.Linarith
import Mathlib.Tactic.Ring
import Verif.Interp.Table
import Verif.Pdf.Lemmas

/-!
# C71: interpolation in tables
-/

namespace NA
open Dict
open SA (FitsIn InRange)

/-- a shape which has every size and which everything fits is the broadcast shape -/
theorem bs_join {T : Shape} {ss : List Shape} (hw : ∀ s ∈ ss, WF s) (hf : ∀ s ∈ ss, FitsIn s T)
    (hT : ∀ ax n, get? T ax = some n → HasSize ss ax n) : ∃ r, broadcastShapes ss = .ok r ∧ WF r ∧ Same r T := by
  cases hs : broadcastShapes ss with
  | error e =>
    exfalso
    obtain ⟨ax, m1, m2, ⟨s1, hs1, g1⟩, ⟨s2, hs2, g2⟩, hne, h3, h4⟩ := (C01_broadcast_shapes_error_iff _ hw).1 ⟨e, hs⟩
    obtain ⟨n1, e1, q1⟩ := hf s1 hs1 ax m1 g1
    obtain ⟨n2, e2, q2⟩ := hf s2 hs2 ax m2 g2
    rw [e1] at e2
    injection e2 with e2
    omega
  | ok r =>
    obtain ⟨h1, h2, h3⟩ := C01_broadcast_shapes_ok _ hw r hs
    refine ⟨r, rfl, h1, fun ax => ?_⟩
    cases hr : get? r ax with
    | none =>
      cases ht : get? T ax with
      | none => rfl
      | some n =>
        obtain ⟨s, hs, hn⟩ := hT ax n ht
        exact absurd ((h2 ax).2 ⟨s, hs, mem_keys_of_get? hn⟩) (get?_eq_none.1 hr)
    | some m =>
      obtain ⟨⟨s, hs, hm⟩, h5⟩ := h3 ax m hr
      obtain ⟨n, hn, hmn⟩ := hf s hs ax m hm
      have := h5 n (hT ax n hn)
      rw [hn]
      congr 1
      omega

section
variable {K : Type}

/-- the element of a fully indexed array -/
theorem optionAt_ok {O : Shape} (hO : WF O) {v : Option (SA K)} (hv : ∀ w, v = some w → w.WF ∧ FitsIn w.shape O)
    {e : String → Nat} (he : InRange O e) : optionAt v O (itemAt (keys O) e) = .ok (v.map (fun w => w.atB e)) := by
  cases v with
  | none => rfl
  | some w =>
    obtain ⟨hw, hf⟩ := hv w rfl
    unfold optionAt
    obtain ⟨_, b, b1, b2, b3, b4⟩ | ⟨h, _⟩ := SA.C10_broadcast_to w hw O hO
    · obtain ⟨s, s1, s2, s3, s4, s5⟩ := SA.getitem_itemAt b b2 hO (e := e) (by
        intro ax _ n hn; rw [b3] at hn; exact he ax n hn)
      have hax : s.axes = [] := by
        rw [s3, List.filter_eq_nil_iff]
        intro ax h
        rw [← SA.keys_shape b2, b3] at h
        simpa using h
      have hsh : s.nd.shape = [] := by
        have := s2.1
        rw [hax] at this
        exact List.length_eq_zero_iff.1 this
      simp only [b1, s1, bind, Except.bind]
      rw [if_pos hsh]
      have h5 := s5 e
      have : s.at' e = s.nd.get [] := by unfold SA.at'; rw [hax]; rfl
      rw [← this, h5]
      simp only [ite_self, Option.map_some]
      rw [b4]
    · exact absurd hf h

theorem range_toList (v : ND K) {n : Nat} (h : v.shape = [n]) : v.toList = (List.range n).map (fun k => v.get [k]) := by
  apply List.ext_getElem?
  intro i
  by_cases hi : i < n
  · rw [ND.toList_getElem? (by simpa [h] using hi)]
    simp [hi, h, ND.unravel, Nat.mod_eq_of_lt hi]
  · rw [List.getElem?_eq_none (by rw [ND.length_toList, h]; simpa using hi), List.getElem?_eq_none (by simpa using hi)]

/-- a slice of the broadcast table is one line of the table -/
theorem table_slice {O : Shape} (hO : WF O) {axis : String} (hax : axis ∉ keys O) {N : Nat} {t : SA K} (ht : t.WF)
    (htx : get? t.shape axis = some N) (hfit : FitsIn (t.shape.erase axis) O) :
    ∃ P b, broadcastShapes [t.shape, O] = .ok P ∧ t.broadcastTo P = .ok b ∧
      ∀ e, InRange O e → ∃ s, b.getitem (itemAt (keys O) e) = .ok s ∧ s.WF ∧ s.axes = [axis] ∧ s.nd.shape = [N] ∧
        s.nd.toList = lineOf t.atB axis N e := by
  have hw : ∀ s ∈ [t.shape, O], WF s := by
    intro s hs
    simp only [List.mem_cons, List.not_mem_nil, or_false] at hs
    rcases hs with rfl | rfl
    · exact SA.wf_shape ht
    · exact hO
  have hOn : get? O axis = none := get?_eq_none.2 hax
  set T := O ++ [(axis, N)] with hT
  have hTg : ∀ ax, get? T ax = if ax = axis then some N else get? O ax := by
    intro ax
    rw [hT, SA.get?_append]
    by_cases h : ax = axis
    · subst h; rw [hOn, if_pos rfl]; simp [get?]
    · rw [if_neg h]
      cases get? O ax with
      | none => simp [get?, Ne.symm h]
      | some m => rfl
  have hfitT : FitsIn t.shape T := by
    intro ax m hm
    rw [hTg]
    by_cases h : ax = axis
    · subst h; rw [htx] at hm; injection hm with hm; exact ⟨N, by rw [if_pos rfl], .inl hm.symm⟩
    · rw [if_neg h]
      exact hfit ax m (by rw [get?_erase, if_neg (Ne.symm h)]; exact hm)
  obtain ⟨P, hP, hPw, hPT⟩ := bs_join (T := T) hw (by
      intro s hs
      simp only [List.mem_cons, List.not_mem_nil, or_false] at hs
      rcases hs with rfl | rfl
      · exact hfitT
      · intro ax m hm
        exact ⟨m, by rw [hTg, if_neg (by rintro rfl; rw [hOn] at hm; cases hm)]; exact hm, .inl rfl⟩) (by
      intro ax n hn
      rw [hTg] at hn
      split at hn <;> rename_i h
      · subst h; injection hn with hn; subst hn; exact ⟨t.shape, by simp, htx⟩
      · exact ⟨O, by simp, hn⟩)
  obtain ⟨_, b, b1, b2, b3, b4⟩ | ⟨h, _⟩ := SA.C10_broadcast_to t ht P hPw
  · refine ⟨P, b, hP, b1, fun e he => ?_⟩
    have hbg : ∀ ax, get? b.shape ax = if ax = axis then some N else get? O ax := fun ax => by rw [b3, hPT, hTg]
    obtain ⟨s, s1, s2, s3, s4, s5⟩ := SA.getitem_itemAt b b2 hO (e := e) (by
      intro ax hm n hn
      rw [hbg, if_neg (by rintro rfl; exact hax hm)] at hn
      exact he ax n hn)
    have hmem : ∀ ax, ax ∈ s.axes ↔ ax = axis := by
      intro ax
      rw [← SA.keys_shape s2, ← not_iff_not, ← get?_eq_none, s4]
      by_cases h : ax = axis
      · subst h; rw [if_neg hax, hbg, if_pos rfl]; simp
      · by_cases hk : ax ∈ keys O
        · rw [if_pos hk]; simp [h]
        · rw [if_neg hk, hbg, if_neg h]; simp [h, get?_eq_none.2 hk]
    have haxes : s.axes = [axis] := by
      have h1 := (List.perm_ext_iff_of_nodup s2.2 (List.nodup_singleton axis)).2 (by intro ax; rw [hmem]; simp)
      exact List.perm_singleton.1 h1
    have hsh : s.nd.shape = [N] := by
      rw [SA.shape_eq_map s2, haxes]
      simp [SA.sizeOf', s4, hax, hbg]
    refine ⟨s, s1, s2, haxes, hsh, ?_⟩
    rw [range_toList _ hsh]
    unfold lineOf
    apply List.map_congr_left
    intro k _
    have h5 := s5 (Function.update e axis k)
    have : s.at' (Function.update e axis k) = s.nd.get [k] := by
      unfold SA.at'; rw [haxes]; simp
    rw [← this, h5, b4]
    congr 1
    funext ax
    split
    · rename_i h
      rw [Function.update_of_ne (by rintro rfl; exact hax h)]
    · rfl
  · exact absurd (SA.fitsIn_of_broadcastShapes hw hP (by simp)) h


end

variable {K : Type} [Field K] [LinearOrder K]

/-- the part of the table at one end -/
theorem getitem_first {t : SA K} (ht : t.WF) {axis : String} {N : Nat} (htx : get? t.shape axis = some N) (hN : N ≠ 0) :
    ∃ r, t.getitem [(axis, .int 0)] = .ok r ∧ r.shape = t.shape.erase axis := by
  have h0 : ([(axis, .int 0)] : Dict IndexVal) = itemAt [axis] (fun _ => 0) := rfl
  rw [h0]
  obtain ⟨r, r1, r2, r3, r4, -⟩ := SA.getitem_itemAt t ht (O := [axis]) (by simp) (e := fun _ => 0) (by
    intro ax hm n hn
    rw [List.mem_singleton.1 hm, htx] at hn
    injection hn with hn
    show 0 < n
    omega)
  refine ⟨r, r1, dict_ext (SA.wf_shape r2) ?_ fun ax => ?_⟩
  · rw [SA.keys_shape r2, r3, keys_erase, SA.keys_shape ht]
    apply List.filter_congr
    intro y _
    simp
  rw [r4, get?_erase]
  by_cases h : ax = axis
  · rw [if_pos (by simp [h]), if_pos h.symm]
  · rw [if_neg (by simp [h]), if_neg (Ne.symm h)]

/-- **C71** `interp(x, xp, fp, axis, left, right, period)`: if the tables `xp` and `fp` have the same length along the axis, their
other axes (and those of `left`, `right` and `period`) broadcast to `O`, and `x` broadcasts against `O` to `X`, then the
result has the shape `X` and its element at a named index is the interpolation of the element of `x` in the lines of `xp`
and `fp` at the same named index.
Full claim: for every `x` which broadcasts against `O`; if `O` has an axis of length one along which `x` is longer, the claim
is false, see `C71_length_one_refuted`. -/
theorem C71_interp_partial (I : Option K → Option K → Option K → List K → List K → K → K) (x xp fp : SA K)
    (hx : x.WF) (hxp : xp.WF) (hfp : fp.WF) (left right period : Option (SA K))
    (hopt : ∀ v, v = left ∨ v = right ∨ v = period → ∀ w, v = some w → w.WF) (ax : String) (axis : Option String)
    (haxis : axis = some ax ∨ axis = none ∧ xp.axes = [ax]) (N : Nat) (hN : N ≠ 0)
    (h1 : get? xp.shape ax = some N) (h2 : get? fp.shape ax = some N) (O : Shape)
    (hO : broadcastShapes ([xp.shape.erase ax, fp.shape.erase ax] ++ optionShape left ++ optionShape right ++ optionShape period) =
      .ok O) (hax : ax ∉ keys O) (X : Shape) (hX : broadcastShapes [x.shape, O] = .ok X)
    (hfull : ∀ y n, get? O y = some n → get? X y = some n) (garbage : List Nat → K) :
    ∃ r, interp I x xp fp axis left right period garbage = .ok r ∧ r.WF ∧ Same r.shape X ∧
      ∀ e, InRange X e → r.at' e = I (left.map (fun v => v.atB e)) (right.map (fun v => v.atB e)) (period.map (fun v => v.atB e))
        (lineOf xp.atB ax N e) (lineOf fp.atB ax N e) (x.atB e) := by
  have hos : ∀ v, v = left ∨ v = right ∨ v = period → ∀ s ∈ optionShape v, WF s := by
    intro v hv s hs
    cases v with
    | none => simp [optionShape] at hs
    | some w =>
      simp only [optionShape, Option.map_some, Option.toList_some, List.mem_singleton] at hs
      rw [hs]; exact SA.wf_shape (hopt _ hv w rfl)
  have hws : ∀ s ∈ [xp.shape.erase ax, fp.shape.erase ax] ++ optionShape left ++ optionShape right ++ optionShape period, WF s := by
    intro s hs
    simp only [List.mem_append, List.mem_cons, List.not_mem_nil, or_false] at hs
    rcases hs with (((rfl | rfl) | h) | h) | h
    · exact Dict.wf_erase (SA.wf_shape hxp) ax
    · exact Dict.wf_erase (SA.wf_shape hfp) ax
    · exact hos left (by simp) s h
    · exact hos right (by simp) s h
    · exact hos period (by simp) s h
  have hOw := (C01_broadcast_shapes_ok _ hws O hO).1
  have hxw : ∀ s ∈ [x.shape, O], WF s := by
    intro s hs
    simp only [List.mem_cons, List.not_mem_nil, or_false] at hs
    rcases hs with rfl | rfl
    · exact SA.wf_shape hx
    · exact hOw
  have hXw := (C01_broadcast_shapes_ok _ hxw X hX).1
  obtain ⟨p0, p01, p02⟩ := getitem_first hxp h1 hN
  obtain ⟨f0, f01, f02⟩ := getitem_first hfp h2 hN
  have hfits : ∀ s ∈ [xp.shape.erase ax, fp.shape.erase ax] ++ optionShape left ++ optionShape right ++ optionShape period,
      FitsIn s O := fun s hs => SA.fitsIn_of_broadcastShapes hws hO hs
  have hof : ∀ v, v = left ∨ v = right ∨ v = period → ∀ w, v = some w → w.WF ∧ FitsIn w.shape O := by
    intro v hv w hw
    refine ⟨hopt v hv w hw, hfits _ ?_⟩
    have hm : w.shape ∈ optionShape v := by rw [hw]; simp [optionShape]
    rcases hv with rfl | rfl | rfl <;> simp [hm]
  obtain ⟨P, xp', P1, P2, P3⟩ := table_slice hOw hax hxp h1 (hfits _ (by simp))
  obtain ⟨F, fp', F1, F2, F3⟩ := table_slice hOw hax hfp h2 (hfits _ (by simp))
  obtain ⟨_, x', x1, x2, x3, x4⟩ | ⟨h, _⟩ := SA.C10_broadcast_to x hx X hXw
  swap
  · exact absurd (SA.fitsIn_of_broadcastShapes hxw hX (by simp)) h
  have hOX : ∀ e, InRange X e → InRange O e := fun e he y n hn => he y n (hfull y n hn)
  have hbody : ∀ e, InRange O e → ∃ v, interpSlice I O x' xp' fp' left right period (itemAt (keys O) e) = .ok v ∧ v.WF ∧
      (∀ y, get? v.shape y = if y ∈ keys O then none else get? X y) ∧
      ∀ f, v.at' f = I (left.map (fun v => v.atB e)) (right.map (fun v => v.atB e)) (period.map (fun v => v.atB e))
        (lineOf xp.atB ax N e) (lineOf fp.atB ax N e) (x.atB (fun y => if y ∈ keys O then e y else f y)) := by
    intro e he
    obtain ⟨sp, p1, p2, p3, p4, p5⟩ := P3 e he
    obtain ⟨sf, q1, q2, q3, q4, q5⟩ := F3 e he
    obtain ⟨sx, s1, s2, s3, s4, s5⟩ := SA.getitem_itemAt x' x2 hOw (e := e) (by
      intro y hy n hn
      obtain ⟨m, hm⟩ := exists_get?_of_mem hy
      have := hfull y m hm
      rw [x3, this] at hn
      injection hn with hn
      rw [← hn]
      exact he y m hm)
    have hsps : sp.shape = [(ax, N)] := by unfold SA.shape; rw [p3, p4]; rfl
    have hsfs : sf.shape = [(ax, N)] := by unfold SA.shape; rw [q3, q4]; rfl
    have hbs : broadcastShapes [sp.shape, sf.shape] = .ok [(ax, N)] := by
      rw [hsps, hsfs]
      obtain ⟨r, r1, r2, r3⟩ := bs_join (T := [(ax, N)]) (ss := [[(ax, N)], [(ax, N)]]) (by
        intro s hs
        simp at hs
        rw [hs]; unfold WF keys; simp) (by
        intro s hs
        simp at hs
        rw [hs]; exact fun y m hm => ⟨m, hm, .inl rfl⟩) (fun y m hm => ⟨_, by simp, hm⟩)
      rw [r1]
      congr 1
      apply dict_ext r2 _ r3
      have hk : ∀ y, y ∈ keys r ↔ y ∈ [ax] := by
        intro y
        rw [← not_iff_not, ← get?_eq_none, r3, get?_cons, get?_nil]
        by_cases h : ax = y
        · simp [h]
        · simp [h, Ne.symm h]
      exact List.perm_singleton.1 ((List.perm_ext_iff_of_nodup r2 (List.nodup_singleton ax)).2 hk)
    have hal : ∀ t : SA K, t.axes = [ax] → t.aligned (keys [(ax, N)]) = .ok t.nd := by
      intro t ht
      unfold SA.aligned
      rw [if_pos (by rw [ht]; rfl)]
    have htl : ∀ t : SA K, t.nd.shape = [N] → tableList t.nd = .ok t.nd.toList := by
      intro t ht
      unfold tableList
      rw [if_pos (by unfold ND.ndim; rw [ht]; rfl)]
    have hlen : ∀ g : (String → Nat) → K, (lineOf g ax N e).length = N := fun g => by simp [lineOf]
    refine ⟨⟨sx.axes, sx.nd.map (I (left.map (fun v => v.atB e)) (right.map (fun v => v.atB e)) (period.map (fun v => v.atB e))
        (lineOf xp.atB ax N e) (lineOf fp.atB ax N e))⟩, ?_, ⟨s2.1, s2.2⟩, ?_, ?_⟩
    · unfold interpSlice
      simp only [bind, Except.bind, s1, p1, q1, optionAt_ok hOw (hof left (by simp)) he, optionAt_ok hOw (hof right (by simp)) he,
        optionAt_ok hOw (hof period (by simp)) he, hbs, hal sp p3, hal sf q3, htl sp p4, htl sf q4, p5, q5, hlen]
      rw [if_pos ⟨trivial, hN⟩]
      exact SA.mk?_of_wf s2.1 s2.2
    · intro y
      rw [← x3, ← s4]
      rfl
    · intro f
      have : (⟨sx.axes, sx.nd.map (I (left.map (fun v => v.atB e)) (right.map (fun v => v.atB e)) (period.map (fun v => v.atB e))
        (lineOf xp.atB ax N e) (lineOf fp.atB ax N e))⟩ : SA K).at' f = I (left.map (fun v => v.atB e)) (right.map (fun v => v.atB e)) (period.map (fun v => v.atB e))
        (lineOf xp.atB ax N e) (lineOf fp.atB ax N e) (sx.at' f) := rfl
      rw [this, s5, x4]
  have hg0 : (⟨x'.axes, ⟨x'.nd.shape, garbage⟩⟩ : SA K).shape = X := by rw [← x3]; rfl
  obtain ⟨r, r1, r2, r3, r4, r5⟩ := SA.forEach_ok O hOw (interpSlice I O x' xp' fp' left right period)
    ⟨x'.axes, ⟨x'.nd.shape, garbage⟩⟩ ⟨x2.1, x2.2⟩ (by rw [hg0]; exact hfull) (by
      intro e he
      obtain ⟨v, v1, v2, v3, -⟩ := hbody e he
      refine ⟨v, v1, v2, fun y m hm => ?_⟩
      rw [v3] at hm
      split at hm <;> rename_i h
      · cases hm
      · rw [hg0]; exact ⟨h, m, hm, .inl rfl⟩)
  have hrun : interpAlong I x xp fp ax left right period garbage = .ok r := by
    unfold interpAlong
    simp only [bind, Except.bind, p01, f01]
    rw [p02, f02, hO]
    simp only [hX, x1, P1, P2, F1, F2]
    exact r1
  refine ⟨r, ?_, r2, fun y => by rw [r4, hg0], fun e he => ?_⟩
  · unfold interp
    rcases haxis with rfl | ⟨rfl, h⟩
    · exact hrun
    · simp only [h]; exact hrun
  · obtain ⟨v, v1, v2, v3, v4⟩ := hbody e (hOX e he)
    rw [r5 e (by rw [hg0]; exact he) v v1, SA.atB_eq_at' v2, v4]
    · congr 2
      funext y
      simp
    · intro y n hn
      rw [v3] at hn
      split at hn
      · cases hn
      · exact he y n hn

/-! ### One line of a table -/

/-- the number of nodes up to `v`, if the nodes are in order -/
theorem count_nodes (xp : List K) (hxp : xp.Pairwise (· < ·)) {j : Nat} (hj : j < xp.length) {v : K} (h1 : xp.getD j 0 ≤ v)
    (h2 : ∀ h : j + 1 < xp.length, v < xp[j + 1]) : xp.countP (fun u => decide (u ≤ v)) = j + 1 := by
  have hsplit : xp = xp.take (j + 1) ++ xp.drop (j + 1) := (List.take_append_drop _ _).symm
  rw [hsplit, List.countP_append]
  have e1 : (xp.take (j + 1)).countP (fun u => decide (u ≤ v)) = j + 1 := by
    rw [List.countP_eq_length.2, List.length_take, Nat.min_eq_left (by omega)]
    intro u hu
    obtain ⟨i, hi, rfl⟩ := List.getElem_of_mem hu
    rw [List.length_take] at hi
    rw [List.getElem_take]
    simp only [decide_eq_true_eq]
    rw [List.getD_eq_getElem _ _ hj] at h1
    rcases Nat.lt_or_ge i j with h | h
    · exact le_trans (List.pairwise_iff_getElem.1 hxp i j (by omega) hj h).le h1
    · have : i = j := by omega
      subst this; exact h1
  have e2 : (xp.drop (j + 1)).countP (fun u => decide (u ≤ v)) = 0 := by
    rw [List.countP_eq_zero]
    intro u hu
    obtain ⟨i, hi, rfl⟩ := List.getElem_of_mem hu
    rw [List.length_drop] at hi
    rw [List.getElem_drop]
    simp only [decide_eq_true_eq, not_le]
    have h3 := h2 (by omega)
    rcases Nat.eq_zero_or_pos i with h | h
    · subst h; exact h3
    · exact lt_trans h3 (List.pairwise_iff_getElem.1 hxp (j + 1) (j + 1 + i) (by omega) (by omega) (by omega))
  rw [e1, e2]

/-- **C71** Between two neighbouring nodes the interpolation follows the straight line through them. -/
theorem C71_segment (left right : Option K) (xp fp : List K) (hxp : xp.Pairwise (· < ·)) (j : Nat)
    (hj : j + 1 < xp.length) (v : K) (h1 : xp.getD j 0 ≤ v) (h2 : v ≤ xp.getD (j + 1) 0) :
    npInterp left right xp fp v = fp.getD j 0 + (fp.getD (j + 1) 0 - fp.getD j 0) * ((v - xp.getD j 0) / (xp.getD (j + 1) 0 - xp.getD j 0)) := by
  have hlt : ∀ i k (hi : i < k) (hk : k < xp.length), xp.getD i 0 < xp.getD k 0 := by
    intro i k hi hk
    rw [List.getD_eq_getElem _ _ (by omega), List.getD_eq_getElem _ _ hk]
    exact List.pairwise_iff_getElem.1 hxp i k (by omega) hk hi
  have hle : ∀ i k (hi : i ≤ k) (hk : k < xp.length), xp.getD i 0 ≤ xp.getD k 0 := by
    intro i k hi hk
    rcases Nat.eq_or_lt_of_le hi with h | h
    · rw [h]
    · exact (hlt i k h hk).le
  unfold npInterp
  rw [if_neg (not_lt.2 ((hle 0 j (by omega) (by omega)).trans h1)),
    if_neg (not_lt.2 (h2.trans (hle (j + 1) (xp.length - 1) (by omega) (by omega))))]
  have hd := sub_ne_zero.2 (hlt j (j + 1) (by omega) hj).ne'
  rcases eq_or_lt_of_le h2 with h | h
  · by_cases hj2 : j + 2 < xp.length
    · rw [count_nodes xp hxp (j := j + 1) hj h.ge (by
        intro h'
        have := hlt (j + 1) (j + 2) (by omega) hj2
        rw [List.getD_eq_getElem _ _ hj2] at this
        rw [h]; exact this)]
      simp only [Nat.add_sub_cancel]
      rw [if_pos hj2, h, sub_self, mul_zero, zero_add, div_self hd]
      ring
    · rw [count_nodes xp hxp (j := j + 1) hj h.ge (by intro h'; omega)]
      simp only [Nat.add_sub_cancel]
      rw [if_neg hj2, h, div_self hd]
      ring
  · rw [count_nodes xp hxp (j := j) (by omega) h1 (by
      intro h'; rw [List.getD_eq_getElem _ _ hj] at h; exact h)]
    simp only [Nat.add_sub_cancel]
    rw [if_pos hj]
    field_simp
    ring

/-- **C71** The interpolation reproduces the nodes. -/
theorem C71_node (left right : Option K) (xp fp : List K) (hxp : xp.Pairwise (· < ·)) (j : Nat) (hj : j < xp.length) :
    npInterp left right xp fp (xp.getD j 0) = fp.getD j 0 := by
  have hle : ∀ i k (hi : i ≤ k) (hk : k < xp.length), xp.getD i 0 ≤ xp.getD k 0 := by
    intro i k hi hk
    rw [List.getD_eq_getElem _ _ (by omega), List.getD_eq_getElem _ _ hk]
    rcases Nat.eq_or_lt_of_le hi with h | h
    · subst h; exact le_rfl
    · exact (List.pairwise_iff_getElem.1 hxp i k (by omega) hk h).le
  unfold npInterp
  rw [if_neg (not_lt.2 (hle 0 j (by omega) hj)), if_neg (not_lt.2 (hle j (xp.length - 1) (by omega) (by omega))),
    count_nodes xp hxp hj le_rfl (by
      intro h
      rw [List.getD_eq_getElem _ _ hj]
      exact List.pairwise_iff_getElem.1 hxp j (j + 1) hj h (by omega))]
  simp only [Nat.add_sub_cancel, sub_self, mul_zero, zero_add, ite_self]

/-- **C71** Outside of the table the given values are used, or else those at the ends. -/
theorem C71_outside (left right : Option K) (xp fp : List K) (hxp : xp.Pairwise (· < ·)) (h0 : xp ≠ []) (v : K) :
    (v < xp.getD 0 0 → npInterp left right xp fp v = left.getD (fp.getD 0 0)) ∧
    (xp.getD (xp.length - 1) 0 < v → npInterp left right xp fp v = right.getD (fp.getD (fp.length - 1) 0)) := by
  constructor
  · intro h
    unfold npInterp
    rw [if_pos h]
  · intro h
    unfold npInterp
    have hl : xp.length ≠ 0 := by simpa using h0
    have hle : xp.getD 0 0 ≤ xp.getD (xp.length - 1) 0 := by
      rw [List.getD_eq_getElem _ _ (by omega), List.getD_eq_getElem _ _ (by omega)]
      rcases Nat.eq_zero_or_pos (xp.length - 1) with h | h
      · simp [h]
      · exact (List.pairwise_iff_getElem.1 hxp 0 (xp.length - 1) (by omega) (by omega) h).le
    rw [if_neg (not_lt.2 (hle.trans h.le)), if_pos h]

/-- **C71** Without `axis` the table `xp` must have exactly one axis. -/
theorem C71_no_axis (I : Option K → Option K → Option K → List K → List K → K → K) (x xp fp : SA K)
    (left right period : Option (SA K)) (garbage : List Nat → K) (h : xp.axes.length ≠ 1) :
    interp I x xp fp none left right period garbage = .error .valueError := by
  unfold interp
  simp only
  split
  · rename_i ax hax; rw [hax] at h; simp at h
  · rfl

/-! ### Examples -/

/-- `[1, 2, 4]` along `x` -/
def exTx : SA ℚ := ⟨["x"], ND.vec [1, 2, 4]⟩

/-- `[[10, 20, 40], [0, 1, 0]]` -/
def exTf : SA ℚ := ⟨["w", "x"], ⟨[2, 3], fun i => ([10, 20, 40, 0, 1, 0] : List ℚ).getD (i.getD 0 0 * 3 + i.getD 1 0) 0⟩⟩

def exTRun (x f : SA ℚ) : Option (List String × List ℚ) :=
  (interp (fun l r _ => npInterp l r) x exTx f none (some (SA.scalar (-1))) none none (fun _ => 77)).toOption.map (fun r => (r.axes, r.nd.toList))

example : exTRun ⟨["t"], ND.vec [0, 3/2, 4, 5]⟩ exTf =
    some (["t", "w"], [-1, -1, 15, 1/2, 40, 0, 40, 0]) := by decide +kernel

example : broadcastShapes [exTx.shape.erase "x", exTf.shape.erase "x"] = .ok [("w", 2)] ∧
    broadcastShapes [[("t", 4)], [("w", 2)]] = .ok [("t", 4), ("w", 2)] ∧ ([1, 2, 4] : List ℚ).Pairwise (· < ·) := by
  refine ⟨by decide, by decide, by decide +kernel⟩

/-- **C71** Refuted: if the table has an axis of length one and `x` has three elements along this axis, only the first of them
is interpolated, and the others are whatever was in memory before (here 77). -/
theorem C71_length_one_refuted :
    exTRun ⟨["w"], ND.vec [1, 2, 4]⟩ ⟨["w", "x"], ⟨[1, 3], fun i => ([10, 20, 40] : List ℚ).getD (i.getD 1 0) 0⟩⟩ =
      some (["w"], [10, 77, 77]) ∧
    exTRun ⟨["w"], ND.vec [1, 2, 4]⟩ ⟨["x"], ⟨[3], fun i => ([10, 20, 40] : List ℚ).getD (i.getD 0 0) 0⟩⟩ =
      some (["w"], [10, 20, 40]) := by decide +kernel

end NA
