import Verif.Props.Joining

/-!
# C26, C27: removing constant axes, comparing arrays
-/

namespace NA
open Dict

namespace SA
variable {α β γ : Type}

/-- Specification: the array does not change along an axis. -/
def ConstantAlong (a : SA α) (ax : String) : Prop :=
  ∀ e, InRange a.shape e → ∀ k n, get? a.shape ax = some n → k < n →
    a.at' (Function.update e ax k) = a.at' e

theorem slice01 (n : Nat) :
    sliceLen n ⟨some 0, some 1, none⟩ = min 1 n ∧ ∀ k, slicePos n ⟨some 0, some 1, none⟩ k = k := by
  by_cases h : 1 ≤ n
  · obtain ⟨h1, h2⟩ := sliceLen_range (o := 0) (t := 1) (n := n) (by omega) h
    refine ⟨?_, fun k => ?_⟩
    · have : min 1 n = 1 - 0 := by omega
      rw [this]; exact h1
    · have := h2 k
      rw [Nat.zero_add] at this
      exact this
  · have : n = 0 := by omega
    subst this
    refine ⟨by decide, fun k => ?_⟩
    have : Slice.resolve ⟨some 0, some 1, none⟩ 0 = .ok ⟨0, 1, 0⟩ := by decide
    unfold slicePos
    rw [this]
    simp [RSlice.pos]

theorem inRange_update {s : Shape} {e : String → Nat} (he : InRange s e) {ax : String} {k : Nat}
    (hk : ∀ n, get? s ax = some n → k < n) : InRange s (Function.update e ax k) := by
  intro x n hn
  rw [Function.update_apply]
  split
  · next h => subst h; exact hk n hn
  · exact he x n hn

theorem constantAlong_main [DecidableEq α] {a : SA α} (ha : a.WF) {ax : String} (hax : ax ∈ a.axes) :
    ∃ c, constantAlong a ax = .ok c ∧ (c = true ↔ ConstantAlong a ax) := by
  rw [← keys_shape ha] at hax
  obtain ⟨n, hn⟩ := exists_get?_of_mem hax
  obtain ⟨x, hx, hxw, hxa, hxs, hxe⟩ := getitem_slice1 ha (sl := ⟨some 0, some 1, none⟩) hn (by simp)
  rw [(slice01 n).1] at hxs
  have hx0 : ∀ e, x.at' e = a.at' e := by
    intro e
    rw [hxe, (slice01 n).2, Function.update_eq_self]
  have hfit : broadcastShapes [a.shape, x.shape] = .ok a.shape := by
    apply broadcastShapes_fits_all
    intro t ht
    simp only [List.mem_singleton] at ht
    subst ht
    refine ⟨wf_shape hxw, fun y m hm => ?_⟩
    rw [hxs] at hm
    split at hm
    · next h =>
      subst h
      injection hm with hm
      exact ⟨n, hn, by omega⟩
    · exact ⟨m, hm, .inl rfl⟩
  obtain ⟨q, hq⟩ := ufunc2_isOk ha hxw hfit (fun p q => decide (p = q))
  obtain ⟨hqw, hs', hqe⟩ := ufunc2_ok ha hxw hq
  have hqs : q.shape = a.shape := by
    rw [hfit] at hs'
    injection hs' with hs'
    exact hs'.symm
  have hqax : q.axes = a.axes := by rw [← keys_shape hqw, hqs, keys_shape ha]
  have hwn : WhereOk q none := by intro w h; cases h
  obtain ⟨r, hr, hrw, hra, _, hre⟩ := C17_reduce q hqw none hwn q.axes hqw.2 (fun _ h => h) false
    (fun l : List Bool => l.all id) false (by simp)
  have hra' : r.axes = [] := by
    rw [hra]
    simp
  refine ⟨r.nd.get [], ?_, ?_⟩
  · unfold constantAlong
    simp only [bind, Except.bind, hx, hq, C17_axis_none q hqw none hwn, hr]
  · have hget : r.nd.get [] = r.at' (fun _ => 0) := by rw [at', hra']; rfl
    obtain ⟨l, hl, hv⟩ := hre (fun _ => 0)
    rw [hget, hv]
    simp only [selected, List.all_eq_true, List.mem_map, List.mem_filter, and_true, id,
      forall_exists_index, and_imp, forall_apply_eq_imp_iff₂]
    have hqa : ∀ e, InRange a.shape e → (q.at' e = true ↔ a.at' e = a.at' (Function.update e ax 0)) := by
      intro e he
      rw [hqe e, decide_eq_true_eq, atB_eq_at' ha he]
      have : x.atB e = a.at' (Function.update e ax 0) := by
        rw [atB, hx0]
        apply at'_congr
        intro y hy
        rw [hxs, Function.update_apply]
        by_cases hyx : y = ax
        · subst hyx
          rw [if_pos rfl, if_pos rfl]
          have := he y n hn
          rw [if_pos (by congr 1; omega)]
        · rw [if_neg hyx, if_neg hyx]
          split
          · next h1 => have := he y 1 h1; omega
          · rfl
      rw [this]
    constructor
    · intro h e he k m hm hk
      rw [hn] at hm
      injection hm with hm
      subst hm
      have key : ∀ e', InRange a.shape e' → a.at' e' = a.at' (Function.update e' ax 0) := by
        intro e' he'
        rw [← hqa e' he']
        have hmem : (fun y => if y ∈ q.axes then e' y else 0) ∈ l := by
          rw [hl.2]
          refine ⟨fun y hy => ?_, fun y hy => by rw [if_neg hy]⟩
          rw [hqax, ← keys_shape ha] at hy
          obtain ⟨m, hm⟩ := exists_get?_of_mem hy
          refine ⟨m, by rw [hqs]; exact hm, ?_⟩
          rw [keys_shape ha, ← hqax] at hy
          rw [if_pos hy]
          exact he' y m hm
        have := h _ hmem
        rw [← this]
        apply at'_congr
        intro y hy
        rw [if_pos hy]
      have h1 := key e he
      have h2 := key (Function.update e ax k) (inRange_update he (by
        intro m hm; rw [hn] at hm; injection hm with hm; omega))
      rw [h2, Function.update_idem, ← h1]
    · intro h e' he'
      have her : InRange a.shape e' := by
        intro y m hm
        obtain ⟨m', hm', hlt⟩ := ((hl.2 e').1 he').1 y (by
          rw [hqax, ← keys_shape ha]; exact mem_keys_of_get? hm)
        rw [hqs, hm] at hm'
        injection hm' with hm'
        omega
      rw [hqa e' her]
      exact (h e' her 0 n hn (by have := her ax n hn; omega)).symm

/-- Specification: the axes which `debroadcast` removes. -/
def Removed (a : SA α) (axes : Option (List String)) (ax : String) : Prop :=
  (∀ l, axes = some l → ax ∈ l) ∧ ax ∈ a.axes ∧ get? a.shape ax ≠ some 0 ∧ ConstantAlong a ax

open Classical in
theorem debroadcast_index [DecidableEq α] {a : SA α} (ha : a.WF) (l : List String) (d : Dict IndexVal)
    (hd : Dict.WF d) :
    ∃ d', l.foldlM (debroadcastStep a) d = .ok d' ∧ Dict.WF d' ∧
      ∀ ax, get? d' ax = if ax ∈ l ∧ ax ∈ a.axes ∧ get? a.shape ax ≠ some 0 ∧ ConstantAlong a ax then
        some (.int 0) else get? d ax := by
  induction l generalizing d with
  | nil => exact ⟨d, rfl, hd, fun ax => by simp⟩
  | cons x l ih =>
    have hstep : ∃ d1, debroadcastStep a d x = .ok d1 ∧ Dict.WF d1 ∧ ∀ ax, get? d1 ax =
        if ax = x ∧ ax ∈ a.axes ∧ get? a.shape ax ≠ some 0 ∧ ConstantAlong a ax then
          some (.int 0) else get? d ax := by
      unfold debroadcastStep
      by_cases hx : x ∈ a.axes
      · rw [if_neg (by rw [keys_shape ha]; simpa using hx)]
        obtain ⟨c, hc, hcc⟩ := constantAlong_main ha hx
        simp only [bind, Except.bind, hc]
        simp only [hcc]
        by_cases h : get? a.shape x ≠ some 0 ∧ ConstantAlong a x
        · rw [if_pos h]
          refine ⟨_, rfl, wf_set hd _ _, fun ax => ?_⟩
          rw [get?_set]
          by_cases hax : ax = x
          · subst hax
            rw [if_pos rfl, if_pos ⟨rfl, hx, h⟩]
          · rw [if_neg (fun h => hax h.symm), if_neg (fun h => hax h.1)]
        · rw [if_neg h]
          refine ⟨_, rfl, hd, fun ax => ?_⟩
          rw [if_neg]
          rintro ⟨rfl, _, h'⟩
          exact h h'
      · rw [if_pos (by rw [keys_shape ha]; simpa using hx)]
        refine ⟨d, rfl, hd, fun ax => ?_⟩
        rw [if_neg]
        rintro ⟨rfl, h', _⟩
        exact hx h'
    obtain ⟨d1, h1, h2, h3⟩ := hstep
    obtain ⟨d', h4, h5, h6⟩ := ih d1 h2
    refine ⟨d', by rw [List.foldlM_cons, h1]; exact h4, h5, fun ax => ?_⟩
    rw [h6, h3]
    by_cases hP : ax ∈ a.axes ∧ get? a.shape ax ≠ some 0 ∧ ConstantAlong a ax
    · by_cases hx : ax = x
      · rw [if_pos (c := ax = x ∧ _) ⟨hx, hP⟩, ite_self, if_pos ⟨by simp [hx], hP⟩]
      · by_cases hl : ax ∈ l
        · rw [if_pos ⟨hl, hP⟩, if_pos ⟨by simp [hl], hP⟩]
        · rw [if_neg (fun h => hl h.1), if_neg (fun h => hx h.1), if_neg]
          rintro ⟨h, _⟩
          exact (List.mem_cons.1 h).elim hx hl
    · rw [if_neg (fun h => hP h.2), if_neg (fun h => hP h.2), if_neg (fun h => hP h.2)]

open Classical in
/-- **C26**. `na.debroadcast(a, axes)` succeeds; it removes exactly those of the given axes (all by
default) along which the array is constant and not empty; the other axes keep their order and
sizes; and the elements are those at index 0 along the removed axes. -/
theorem C26_debroadcast [DecidableEq α] (a : SA α) (ha : a.WF) (axes : Option (List String)) :
    ∃ r, debroadcast a axes = .ok r ∧ r.WF ∧ List.Sublist r.axes a.axes ∧
      (∀ ax, ax ∈ r.axes ↔ ax ∈ a.axes ∧ ¬ Removed a axes ax) ∧
      (∀ ax ∈ r.axes, get? r.shape ax = get? a.shape ax) ∧
      ∀ e, r.at' e = a.at' (fun ax => if Removed a axes ax then 0 else e ax) := by
  obtain ⟨d, h1, h2, h3⟩ := debroadcast_index ha (axes.getD a.shape.keys) [] wf_nil
  have h3' : ∀ ax, get? d ax = if Removed a axes ax then some (.int 0) else none := by
    intro ax
    rw [h3, get?_nil]
    have : (ax ∈ axes.getD a.shape.keys ∧ ax ∈ a.axes ∧ get? a.shape ax ≠ some 0 ∧ ConstantAlong a ax)
        ↔ Removed a axes ax := by
      unfold Removed
      cases axes with
      | none =>
        simp only [Option.getD_none, keys_shape ha, reduceCtorEq, false_implies, implies_true, true_and]
        exact ⟨fun h => h.2, fun h => ⟨h.1, h⟩⟩
      | some l => simp
    simp only [this]
  have hbi : BasicItem d := by
    refine ⟨h2, fun ax b h => ?_⟩
    rw [h3'] at h
    split at h <;> simp at h
  obtain ⟨r, hr, hrw, hra, hsub, hrs, hre⟩ := C13_getitem_basic a ha d hbi
    (by
      intro ax _ sl h
      rw [h3'] at h
      split at h <;> simp at h)
    (by
      intro ax n hn
      refine ⟨fun i h => ?_, fun b h => ?_⟩
      · rw [h3'] at h
        split at h
        · next hR =>
          injection h with h
          injection h with h
          subst h
          have := hR.2.2.1
          rw [hn] at this
          unfold ND.ValidIndex
          have : n ≠ 0 := by rintro rfl; exact this rfl
          omega
        · cases h
      · rw [h3'] at h
        split at h <;> simp at h)
  have hint : ∀ ax, IntAt d ax ↔ Removed a axes ax := by
    intro ax
    unfold IntAt
    rw [h3']
    split
    · next h => simp [h]
    · next h => simp [h]
  refine ⟨r, ?_, hrw, hsub, fun ax => by rw [hra, hint], fun ax hax => ?_, fun e => ?_⟩
  · unfold debroadcast
    simp only [bind, Except.bind, h1]
    exact hr
  · rw [hrs ax hax]
    have hm := (hra ax).1 hax
    rw [hint] at hm
    rw [selLen, h3', if_neg hm.2]
    have := hm.1
    rw [← keys_shape ha] at this
    obtain ⟨m, hm'⟩ := exists_get?_of_mem this
    rw [hm']
    rfl
  · rw [hre]
    congr 1
    funext ax
    unfold selIdx
    rw [h3']
    split
    · next h =>
      split at h
      · next hR =>
        injection h with h
        injection h with h
        subst h
        rw [if_pos hR]
        rfl
      · cases h
    · next h => split at h <;> simp at h
    · next h => split at h <;> simp at h
    · next h1 h2 h3 =>
      rw [if_neg]
      intro hR
      rw [if_pos hR] at h1
      exact h1 0 rfl

/-- Setting some of the indices to 0 along axes on which the array is constant changes nothing. -/
theorem constant_zero {a : SA α} (l : List String)
    (hl : ∀ ax ∈ l, get? a.shape ax ≠ some 0 ∧ ax ∈ keys a.shape ∧ ConstantAlong a ax)
    (e : String → Nat) (he : InRange a.shape e) :
    InRange a.shape (fun ax => if ax ∈ l then 0 else e ax) ∧
      a.at' (fun ax => if ax ∈ l then 0 else e ax) = a.at' e := by
  induction l with
  | nil => exact ⟨by simpa using he, by simp⟩
  | cons x l ih =>
    obtain ⟨h1, h2⟩ := ih (fun ax h => hl ax (by simp [h]))
    have hxx := hl x (by simp)
    obtain ⟨n, hn⟩ := exists_get?_of_mem hxx.2.1
    have hn0 : 0 < n := by
      rcases Nat.eq_zero_or_pos n with h | h
      · subst h; exact absurd hn hxx.1
      · exact h
    have heq : (fun ax => if ax ∈ x :: l then 0 else e ax) =
        Function.update (fun ax => if ax ∈ l then 0 else e ax) x 0 := by
      funext ax
      rw [Function.update_apply]
      by_cases hx : ax = x
      · simp [hx]
      · simp [hx]
    rw [heq]
    refine ⟨inRange_update h1 (by intro m hm; rw [hn] at hm; injection hm with hm; omega), ?_⟩
    rw [hxx.2.2 _ h1 0 n hn hn0, h2]

/-- Nothing is lost by removing the axes: at every in-range named index, the compressed array has the
element of the original one. -/
theorem debroadcast_at [DecidableEq α] {a : SA α} (ha : a.WF) {axes : Option (List String)} {r : SA α}
    (hr : debroadcast a axes = .ok r) {e : String → Nat} (he : InRange a.shape e) :
    r.at' e = a.at' e := by
  classical
  obtain ⟨r', hr', _, _, _, _, hat⟩ := C26_debroadcast a ha axes
  rw [hr] at hr'
  cases hr'
  rw [hat]
  have := constant_zero (a := a) (a.axes.filter (fun ax => Removed a axes ax)) (by
    intro ax hax
    rw [List.mem_filter, decide_eq_true_eq] at hax
    exact ⟨hax.2.2.2.1, by rw [keys_shape ha]; exact hax.1, hax.2.2.2.2⟩) e he
  rw [← this.2]
  apply at'_congr
  intro ax hax
  simp [hax]

/-- **C26** (lossless). Broadcasting the result back to the shape of the original array gives the
original array, for every array (also empty ones). -/
theorem C26_debroadcast_lossless [DecidableEq α] (a : SA α) (ha : a.WF) (axes : Option (List String))
    (r : SA α) (hr : debroadcast a axes = .ok r) :
    ∃ b, r.broadcastTo a.shape = .ok b ∧ b.WF ∧ b.shape = a.shape ∧
      ∀ e, InRange a.shape e → b.at' e = a.at' e := by
  obtain ⟨r', hr', hrw, _, hra, hrs, _⟩ := C26_debroadcast a ha axes
  rw [hr] at hr'
  cases hr'
  have hsz : ∀ ax m, get? r.shape ax = some m → get? a.shape ax = some m := by
    intro ax m hm
    rw [← hrs ax (by rw [← keys_shape hrw]; exact mem_keys_of_get? hm), hm]
  rcases C10_broadcast_to r hrw a.shape (wf_shape ha) with ⟨_, b, hb, hbw, hbs, hbe⟩ | ⟨h, _⟩
  · refine ⟨b, hb, hbw, hbs, fun e he => ?_⟩
    rw [hbe, atB_eq_at' hrw (fun ax m hm => he ax m (hsz ax m hm)), debroadcast_at ha hr he]
  · exfalso
    apply h
    intro ax m hm
    exact ⟨m, hsz ax m hm, .inl rfl⟩

/-- **C26** (idempotent). Applying `debroadcast` again changes nothing. -/
theorem C26_debroadcast_idempotent [DecidableEq α] (a : SA α) (ha : a.WF) (axes : Option (List String))
    (r : SA α) (hr : debroadcast a axes = .ok r) :
    ∃ r', debroadcast r axes = .ok r' ∧ r'.axes = r.axes ∧ r'.shape = r.shape ∧
      ∀ e, r'.at' e = r.at' e := by
  classical
  obtain ⟨r0, hr0, hrw, _, hra, hrs, hat0⟩ := C26_debroadcast a ha axes
  rw [hr] at hr0
  cases hr0
  have hno : ∀ ax, ¬ Removed r axes ax := by
    rintro ax ⟨h1, h2, h3, h4⟩
    have hm := (hra ax).1 h2
    apply hm.2
    refine ⟨h1, hm.1, by rw [← hrs ax h2]; exact h3, ?_⟩
    intro e he k n hn hk
    have her : InRange r.shape e := by
      intro y m hm
      refine he y m ?_
      rw [← hrs y (by rw [← keys_shape hrw]; exact mem_keys_of_get? hm), hm]
    rw [← debroadcast_at ha hr he, ← debroadcast_at ha hr (inRange_update he (by
      intro m hm; rw [hn] at hm; injection hm with hm; omega))]
    exact h4 e her k n (by rw [hrs ax h2]; exact hn) hk
  obtain ⟨r', hr', hrw', hsub, hra', hrs', hat'⟩ := C26_debroadcast r hrw axes
  have hax : r'.axes = r.axes := by
    refine hsub.eq_of_length_le ?_
    exact (List.subperm_of_subset hrw.2 (fun y hy => (hra' y).2 ⟨hy, hno y⟩)).length_le
  refine ⟨r', hr', hax, ?_, fun e => ?_⟩
  · have h1 := shape_eq_map hrw
    have h2 := shape_eq_map hrw'
    unfold shape
    rw [hax, h1, h2, hax]
    congr 1
    apply List.map_congr_left
    intro ax hm
    unfold sizeOf'
    rw [hrs' ax (by rw [hax]; exact hm)]
  · rw [hat']
    congr 1
    funext ax
    rw [if_neg (hno ax)]

/-- constant along `y` and of size 1 along `z`, not constant along `x` -/
def exD : SA Nat := ⟨["z", "y", "x"], ND.ofList [1, 2, 3] [4, 5, 6, 4, 5, 6] 0⟩
example : exD.WF := by decide
example : ((debroadcast exD none).map (fun r => (r.shape, r.nd.toList))) = .ok ([("x", 3)], [4, 5, 6]) := by decide
example : ((debroadcast exD (some ["y", "w"])).map (fun r => (r.shape, r.nd.toList))) =
    .ok ([("z", 1), ("x", 3)], [4, 5, 6]) := by decide
/-- an array without elements: only its non-empty axes are removed -/
def exD0 : SA Nat := ⟨["y", "x"], ND.ofList [2, 0] [] 0⟩
example : ((debroadcast exD0 none).map (fun r => (r.shape, r.nd.toList))) = .ok ([("x", 0)], []) := by decide

/-! ### array_equal, array_equiv -/

/-- **C27** (refuted). `np.array_equal` can be true for two arrays with different axes: it compares
positions and ignores the names. -/
theorem C27_array_equal_refuted :
    ∃ a b : SA Nat, a.WF ∧ b.WF ∧ arrayEqual a b = true ∧ ¬ SameByName a b ∧
      ∃ c d : SA Nat, c.WF ∧ d.WF ∧ SameByName c d ∧ arrayEqual c d = false := by
  refine ⟨⟨["x"], ND.ofList [2] [1, 2] 0⟩, ⟨["y"], ND.ofList [2] [1, 2] 0⟩, by decide, by decide,
    by decide, ?_, ⟨["x", "y"], ND.ofList [1, 2] [1, 2] 0⟩, ⟨["y", "x"], ND.ofList [2, 1] [1, 2] 0⟩,
    by decide, by decide, ?_, by decide⟩
  · intro h
    have := h.1 "x"
    revert this
    decide
  · refine ⟨?_, ?_⟩
    · intro x
      simp only [shape, ND.ofList, List.zip_cons_cons, List.zip_nil_right, get?_cons, get?_nil]
      grind
    · intro e he
      have h1 := he "x" 1 (by decide)
      have h2 := he "y" 2 (by decide)
      have h1' : e "x" = 0 := by omega
      have h2' : e "y" = 0 ∨ e "y" = 1 := by omega
      simp only [at', List.map_cons, List.map_nil, h1']
      rcases h2' with h | h <;> rw [h] <;> decide

/-- **C27** (partial). For two arrays with the same names in the same order, `np.array_equal` is true
exactly when they have the same sizes and the same element at every named index.  Missing: arrays
whose axes differ, where the property fails (see `C27_array_equal_refuted`). -/
theorem C27_array_equal_partial [DecidableEq α] (a b : SA α) (ha : a.WF) (hb : b.WF)
    (h : a.axes = b.axes) : arrayEqual a b = true ↔ SameByName a b := by
  have hk : ∀ hs : Dict.Same a.shape b.shape, a.nd.shape = b.nd.shape := by
    intro hs
    rw [shape_eq_map ha, shape_eq_map hb, ← h]
    apply List.map_congr_left
    intro ax _
    unfold sizeOf'
    rw [hs ax]
  unfold arrayEqual ND.arrayEqual
  rw [Bool.and_eq_true, decide_eq_true_eq, List.all_eq_true]
  simp only [decide_eq_true_eq]
  constructor
  · rintro ⟨h1, h2⟩
    have hs : a.shape = b.shape := by unfold shape; rw [h, h1]
    refine ⟨by rw [hs]; exact fun _ => rfl, fun e he => ?_⟩
    unfold at'
    rw [← h]
    exact h2 _ (ND.mem_ndIndices_iff.2 ((inRange_nd ha).1 he))
  · intro hs
    refine ⟨hk hs.1, fun i hi => ?_⟩
    rw [ND.mem_ndIndices_iff] at hi
    have hl : i.length = a.axes.length := by rw [ND.inRange_length hi]; exact ha.1
    have he : (a.axes.map (envOf a.axes i)) = i := map_envOf ha.2 hl
    have := hs.2 (envOf a.axes i) ((inRange_nd ha).2 (by rw [he]; exact hi))
    unfold at' at this
    rwa [← h, he] at this

/-- **C27** (`array_equiv`). If the named shapes broadcast, `np.array_equiv` is true exactly when the
two arrays, broadcast against each other by name, have the same element at every named index. -/
theorem C27_array_equiv [DecidableEq α] (a b : SA α) (ha : a.WF) (hb : b.WF) (s : Shape)
    (hs : broadcastShapes [a.shape, b.shape] = .ok s) :
    ∃ c, arrayEquiv a b = .ok c ∧ (c = true ↔ ∀ e, InRange s e → a.atB e = b.atB e) := by
  obtain ⟨hsw, hmem, _⟩ := C01_broadcast_shapes_ok _ (wf_pair ha hb) s hs
  have hsub := mem_of_mem_pair ha hb hs
  obtain ⟨v, hv⟩ := aligned_isOk ha hsw hsub.1
  obtain ⟨w, hw⟩ := aligned_isOk hb hsw hsub.2
  have hbs := bshape_pair ha hb hs hv hw
  refine ⟨_, by unfold arrayEquiv; simp only [bind, Except.bind, hs, hv, hw]; rfl, ?_⟩
  unfold ND.arrayEquiv
  rw [hbs]
  simp only [List.all_eq_true, decide_eq_true_eq]
  constructor
  · intro h e he
    have := h _ (ND.mem_ndIndices_iff.2 ((inRange_iff_nd hsw).1 he))
    rwa [aligned_clip ha hsw hv, aligned_clip hb hsw hw] at this
  · intro h i hi
    rw [ND.mem_ndIndices_iff] at hi
    have hl : i.length = (keys s).length := by rw [ND.inRange_length hi]; simp
    have he : (keys s).map (envOf (keys s) i) = i := map_envOf hsw hl
    have := h (envOf (keys s) i) ((inRange_iff_nd hsw).2 (by rw [he]; exact hi))
    rwa [← aligned_clip ha hsw hv, ← aligned_clip hb hsw hw, he] at this

/-- **C27** (`array_equiv` of arrays whose shapes do not broadcast). It raises `ValueError`, unlike
numpy's, which is `False`. -/
theorem C27_array_equiv_clash [DecidableEq α] (a b : SA α) (ha : a.WF) (hb : b.WF)
    (hc : Clash [a.shape, b.shape]) : arrayEquiv a b = .error .valueError := by
  obtain ⟨e, he⟩ := (C01_broadcast_shapes_error_iff _ (wf_pair ha hb)).2 hc
  unfold arrayEquiv
  rw [he, C01_broadcast_shapes_error_kind _ (wf_pair ha hb) e he]
  rfl

example : arrayEquiv exP ⟨["y", "x"], ND.ofList [2, 2] [1, 2, 1, 2] 0⟩ = .ok true := by decide
example : arrayEquiv exP ⟨["x", "y"], ND.ofList [2, 2] [1, 2, 1, 2] 0⟩ = .ok false := by decide

end SA
end NA
