import Verif.Scalar.Join
import Verif.Props.Indexing
import Verif.Props.Reductions
import Verif.Scalar.ArgLemmas

/-!
# C23, C24: stacking and concatenating
-/

namespace NA
open Dict

namespace SA
variable {α β γ : Type}

/-- Broadcasting each array to the shape chosen for it. -/
theorem mapM_broadcastTo {arrays : List (SA α)} {sh : SA α → Shape} (hw : ∀ a ∈ arrays, a.WF)
    (hs : ∀ a ∈ arrays, Dict.WF (sh a)) (hf : ∀ a ∈ arrays, FitsIn a.shape (sh a)) :
    ∃ arrs, arrays.mapM (fun a => a.broadcastTo (sh a)) = .ok arrs ∧
      List.Forall₂ (fun a b => b.WF ∧ b.shape = sh a ∧ ∀ e, b.at' e = a.atB e) arrays arrs := by
  induction arrays with
  | nil => exact ⟨[], rfl, .nil⟩
  | cons a l ih =>
    obtain ⟨l', h1, h2⟩ := ih (fun b hb => hw b (by simp [hb])) (fun b hb => hs b (by simp [hb]))
      (fun b hb => hf b (by simp [hb]))
    rcases C10_broadcast_to a (hw a (by simp)) (sh a) (hs a (by simp)) with ⟨_, r, hr, h⟩ | ⟨h, _⟩
    · exact ⟨r :: l', by rw [List.mapM_cons, hr, h1]; rfl, .cons h h2⟩
    · exact absurd (hf a (by simp)) h

theorem fitsIn_of_broadcastShapes {ss : List Shape} (hss : ∀ s ∈ ss, Dict.WF s) {r : Shape}
    (h : broadcastShapes ss = .ok r) {s : Shape} (hs : s ∈ ss) : FitsIn s r := by
  obtain ⟨_, h2, h3⟩ := C01_broadcast_shapes_ok ss hss r h
  intro ax m hm
  obtain ⟨n, hn⟩ := exists_get?_of_mem ((h2 ax).2 ⟨s, hs, mem_keys_of_get? hm⟩)
  exact ⟨n, hn, (h3 ax n hn).2 m ⟨s, hs, hm⟩⟩

theorem map_update_set {axes : List String} {δ : Type} (hn : axes.Nodup) {ax : String} (e : String → δ)
    (k : δ) : (axes.map e).set (axes.idxOf ax) k = axes.map (Function.update e ax k) := by
  apply List.ext_getElem
  · simp
  · intro i h1 h2
    rw [List.getElem_set]
    simp only [List.getElem_map, Function.update_apply]
    simp only [List.length_map] at h2
    split
    · next h =>
      subst h
      rw [if_pos (List.getElem_idxOf _)]
    · next h =>
      rw [if_neg]
      intro h'
      exact h (by rw [← h']; exact hn.idxOf_getElem _ _)

theorem axes_nd_shape {b : SA α} (hb : b.WF) {s : Shape} (h : b.shape = s) :
    b.axes = keys s ∧ b.nd.shape = values s := by
  subst h
  exact ⟨(keys_shape hb).symm, (values_shape hb).symm⟩

/-- **C23**. `na.stack(arrays, axis)` of arrays whose named shapes broadcast to `s`, along a new
axis: the result has the new axis first, with one position for each array, and then the axes of `s`;
position `i` along the new axis is the `i`-th array, broadcast by name. -/
theorem C23_stack (arrays : List (SA α)) (hw : ∀ a ∈ arrays, a.WF) (hne : arrays ≠ []) (axis : String)
    (s : Shape) (hs : broadcastShapes (arrays.map SA.shape) = .ok s)
    (hax : ∀ a ∈ arrays, axis ∉ a.axes) :
    ∃ r, stack arrays axis = .ok r ∧ r.WF ∧ r.shape = (axis, arrays.length) :: s ∧
      ∀ e, ∀ h : e axis < arrays.length, r.at' e = arrays[e axis].atB e := by
  have hss := wf_shapes hw
  obtain ⟨hsw, hmem, _⟩ := C01_broadcast_shapes_ok _ hss s hs
  have hnot : axis ∉ keys s := by
    intro h
    obtain ⟨t, ht, hx⟩ := (hmem axis).1 h
    obtain ⟨a, ha, rfl⟩ := List.mem_map.1 ht
    rw [keys_shape (hw a ha)] at hx
    exact hax a ha hx
  obtain ⟨arrs, h1, h2⟩ := mapM_broadcastTo (sh := fun _ => s) hw (fun _ _ => hsw)
    (fun a ha => fitsIn_of_broadcastShapes hss hs (List.mem_map_of_mem ha))
  have hlen := h2.length_eq
  obtain ⟨b, l, rfl⟩ : ∃ b l, arrs = b :: l := by
    cases arrs with
    | nil => simp at hlen; exact absurd hlen hne
    | cons b l => exact ⟨b, l, rfl⟩
  have hget := (List.forall₂_iff_get.1 h2).2
  have hall : ∀ c ∈ b :: l, c.WF ∧ c.shape = s := by
    intro c hc
    obtain ⟨i, hi, rfl⟩ := List.getElem_of_mem hc
    have := hget i (by rw [hlen]; exact hi) hi
    exact ⟨this.1, this.2.1⟩
  have hbs := (axes_nd_shape (hall b (by simp)).1 (hall b (by simp)).2)
  have hst : ND.stack0 ((b :: l).map SA.nd) = .ok ⟨(l.length + 1) :: values s, fun i =>
      (((b :: l).map SA.nd).getD (i.headD 0) b.nd).get i.tail⟩ := by
    rw [List.map_cons, ND.stack0, if_pos, hbs.2, List.length_map]
    intro c hc
    obtain ⟨d, hd, rfl⟩ := List.mem_map.1 hc
    rw [hbs.2, (axes_nd_shape (hall d (by simp [hd])).1 (hall d (by simp [hd])).2).2]
  have hW : Dict.WF ((axis, arrays.length) :: s) := wf_cons.2 ⟨hnot, hsw⟩
  have hmk := mk?_of_wf (nd := (⟨(l.length + 1) :: values s, fun i =>
      (((b :: l).map SA.nd).getD (i.headD 0) b.nd).get i.tail⟩ : ND α)) (axes := axis :: keys s)
    (by simp [ND.ndim]) hW
  refine ⟨_, ?_, (mk?_ok hmk).2, ?_, ?_⟩
  · unfold stack
    simp only [bind, Except.bind, hs, if_neg hnot, h1, hst]
    exact hmk
  · have := shape_of_mk (α := α) hW (nd := ⟨(l.length + 1) :: values s, fun i =>
      (((b :: l).map SA.nd).getD (i.headD 0) b.nd).get i.tail⟩) (by simp [hlen])
    exact this
  · intro e h
    have h' : e axis < (b :: l).length := by rw [← hlen]; exact h
    have hb' := hget (e axis) h h'
    have := hb'.2.2 e
    simp only [List.get_eq_getElem] at this hb'
    rw [← this]
    simp only [at', List.map_cons, List.headD_cons, List.tail_cons]
    rw [(axes_nd_shape hb'.1 hb'.2.1).1]
    rw [show b.nd :: List.map SA.nd l = (b :: l).map SA.nd from rfl]
    rw [List.getD_eq_getElem _ _ (by simpa using h'), List.getElem_map]

/-- **C23** (errors). Stacking nothing, along an axis which some array already has, or arrays whose
shapes do not broadcast, raises `ValueError`. -/
theorem C23_stack_error (arrays : List (SA α)) (hw : ∀ a ∈ arrays, a.WF) (axis : String)
    (h : arrays = [] ∨ (∃ a ∈ arrays, axis ∈ a.axes) ∨ Clash (arrays.map SA.shape)) :
    stack arrays axis = .error .valueError := by
  have hss := wf_shapes hw
  unfold stack
  cases hs : broadcastShapes (arrays.map SA.shape) with
  | error e =>
    rw [C01_broadcast_shapes_error_kind _ hss e hs]
    rfl
  | ok s =>
    simp only [bind, Except.bind]
    rcases h with rfl | ⟨a, ha, hx⟩ | hc
    · split
      · rfl
      · rfl
    · rw [if_pos]
      obtain ⟨_, hmem, _⟩ := C01_broadcast_shapes_ok _ hss s hs
      exact (hmem axis).2 ⟨a.shape, List.mem_map_of_mem ha, by rwa [keys_shape (hw a ha)]⟩
    · obtain ⟨e, he⟩ := (C01_broadcast_shapes_error_iff _ hss).2 hc
      rw [hs] at he
      cases he

theorem basicItem_single (axis : String) (v : IndexVal) (hv : ∀ b, v ≠ .arr b) :
    BasicItem [(axis, v)] := by
  refine ⟨by simp [Dict.WF, keys], fun ax b => ?_⟩
  rw [get?_cons]
  split
  · intro h; injection h with h; exact hv b h
  · simp

/-- **C23** (reading back). Indexing the stacked array with an integer along the new axis gives the
corresponding array, broadcast to the common shape. -/
theorem C23_stack_index (arrays : List (SA α)) (hw : ∀ a ∈ arrays, a.WF) (axis : String)
    (r : SA α) (hr : stack arrays axis = .ok r) (i : Nat) (hi : i < arrays.length) :
    ∃ s x y, broadcastShapes (arrays.map SA.shape) = .ok s ∧
      r.getitem [(axis, .int i)] = .ok x ∧ arrays[i].broadcastTo s = .ok y ∧ SameByName x y := by
  have hne : arrays ≠ [] := by rintro rfl; simp at hi
  have hnoerr : ¬ (arrays = [] ∨ (∃ a ∈ arrays, axis ∈ a.axes) ∨ Clash (arrays.map SA.shape)) := by
    intro h
    rw [C23_stack_error arrays hw axis h] at hr
    cases hr
  push Not at hnoerr
  have hss := wf_shapes hw
  obtain ⟨s, hs⟩ : ∃ s, broadcastShapes (arrays.map SA.shape) = .ok s := by
    cases hs : broadcastShapes (arrays.map SA.shape) with
    | ok s => exact ⟨s, rfl⟩
    | error e => exact absurd ((C01_broadcast_shapes_error_iff _ hss).1 ⟨e, hs⟩) hnoerr.2.2
  obtain ⟨r', hr', hrw, hrs, hat⟩ := C23_stack arrays hw hne axis s hs hnoerr.2.1
  rw [hr] at hr'
  cases hr'
  obtain ⟨hsw, _, _⟩ := C01_broadcast_shapes_ok _ hss s hs
  have hwr : Dict.WF ((axis, arrays.length) :: s) := hrs ▸ wf_shape hrw
  have hnot : axis ∉ keys s := (wf_cons.1 hwr).1
  have hbi := basicItem_single axis (.int i) (by simp)
  obtain ⟨x, hx, hxw, hxa, _, hxs, hxe⟩ := C13_getitem_basic r hrw [(axis, .int i)] hbi
    (by
      intro ax _ sl h
      rw [get?_cons] at h
      split at h <;> simp at h)
    (by
      intro ax n hn
      refine ⟨fun j h => ?_, fun b h => ?_⟩
      · rw [get?_cons] at h
        split at h
        · next hax =>
          dsimp only at hax
          subst hax
          injection h with h
          injection h with h
          subst h
          rw [hrs, get?_cons, if_pos rfl] at hn
          injection hn with hn
          subst hn
          unfold ND.ValidIndex
          omega
        · simp at h
      · rw [get?_cons] at h
        split at h <;> simp at h)
  rcases C10_broadcast_to arrays[i] (hw _ (List.getElem_mem hi)) s hsw with ⟨_, y, hy, hyw, hys, hye⟩ | ⟨h, _⟩
  swap
  · exact absurd (fitsIn_of_broadcastShapes hss hs (List.mem_map_of_mem (List.getElem_mem hi))) h
  refine ⟨s, x, y, hs, hx, hy, ?_, ?_⟩
  · intro ax
    rw [hys]
    by_cases hm : ax ∈ x.axes
    · rw [hxs ax hm]
      obtain ⟨h1, h2⟩ := (hxa ax).1 hm
      have hne' : ax ≠ axis := by
        rintro rfl
        exact h2 ⟨i, by rw [get?_cons, if_pos rfl]⟩
      rw [← keys_shape hrw, hrs, keys_cons] at h1
      rcases List.mem_cons.1 h1 with h1 | h1
      · exact absurd h1 hne'
      · obtain ⟨n, hn⟩ := exists_get?_of_mem h1
        rw [hn, selLen, get?_cons, if_neg (fun h => hne' h.symm), get?_nil, hrs, get?_cons,
          if_neg (fun h => hne' h.symm), hn]
        rfl
    · have hk : ax ∉ keys s := by
        intro hk
        have hne' : ax ≠ axis := by rintro rfl; exact hnot hk
        apply hm
        rw [hxa ax, ← keys_shape hrw, hrs]
        refine ⟨by simp [hk], ?_⟩
        rintro ⟨j, hj⟩
        rw [get?_cons, if_neg (fun h => hne' h.symm)] at hj
        cases hj
      rw [get?_eq_none.2 hk, get?_shape_none hxw]
      exact hm
  · intro e he
    rw [hxe, hye]
    have hsel : selIdx r.shape [(axis, .int i)] e axis = i := by
      unfold selIdx
      rw [get?_cons, if_pos rfl]
      simp only [hrs, get?_cons, if_true, Option.getD_some]
      unfold ND.pyIndex
      split <;> omega
    rw [hat _ (by rw [hsel]; exact hi)]
    simp only [hsel]
    apply atB_congr
    intro ax hax
    have hne' : ax ≠ axis := by
      rintro rfl
      exact hnoerr.2.1 _ (List.getElem_mem hi) hax
    unfold selIdx
    rw [get?_cons, if_neg (fun h => hne' h.symm), get?_nil]

/-- two arrays with different axes, for the examples -/
def exP : SA Nat := ⟨["x"], ND.ofList [2] [1, 2] 0⟩
/-- see `exP` -/
def exQ : SA Nat := ⟨["y", "x"], ND.ofList [3, 1] [10, 20, 30] 0⟩

example : exP.WF ∧ exQ.WF := by decide
example : ((stack [exP, exQ] "t").map (fun r => (r.shape, r.nd.toList))) =
    .ok ([("t", 2), ("x", 2), ("y", 3)], [1, 1, 1, 2, 2, 2, 10, 20, 30, 10, 20, 30]) := by decide
example : (stack [exP, exQ] "x").isOk = false := by decide

/-! ### concatenate -/

theorem locate_offset {sizes : List Nat} {i k : Nat} (hi : i < sizes.length) (hk : k < sizes[i]) :
    ND.locate sizes ((sizes.take i).sum + k) = (i, k) := by
  induction sizes generalizing i with
  | nil => simp at hi
  | cons n ns ih =>
    cases i with
    | zero =>
      simp only [List.getElem_cons_zero] at hk
      simp [ND.locate, hk]
    | succ i =>
      simp only [List.getElem_cons_succ, List.length_cons] at hk hi
      rw [List.take_succ_cons, List.sum_cons, ND.locate, if_neg (by omega)]
      rw [show n + (List.take i ns).sum + k - n = (List.take i ns).sum + k by omega,
        ih (by omega) hk]

/-- Every position below the sum lies in one segment. -/
theorem locate_lt {sizes : List Nat} {p : Nat} (h : p < sizes.sum) :
    ∃ i, ∃ hi : i < sizes.length, ∃ k, k < sizes[i] ∧ p = (sizes.take i).sum + k := by
  induction sizes generalizing p with
  | nil => simp at h
  | cons n ns ih =>
    by_cases hp : p < n
    · exact ⟨0, by simp, p, by simpa using hp, by simp⟩
    · rw [List.sum_cons] at h
      obtain ⟨i, hi, k, hk, he⟩ := ih (p := p - n) (by omega)
      exact ⟨i + 1, by simpa using hi, k, by simpa using hk, by simp; omega⟩

theorem values_set {s : Shape} {k : String} (h : k ∈ keys s) (v : Nat) :
    values (Dict.set s k v) = (values s).set ((keys s).idxOf k) v := by
  induction s with
  | nil => simp at h
  | cons p s ih =>
    rw [Dict.set]
    by_cases hp : p.1 = k
    · rw [if_pos hp, keys_cons, List.idxOf_cons, beq_iff_eq.2 hp]
      simp
    · rw [if_neg hp, keys_cons, List.idxOf_cons, beq_eq_false_iff_ne.2 hp]
      simp only [cond_false]
      rw [keys_cons, List.mem_cons] at h
      rw [values_cons, values_cons, List.set_cons_succ, ih (h.resolve_left (fun h => hp h.symm))]

/-- the sizes of the arrays along the axis of concatenation -/
def sizesAlong (arrays : List (SA α)) (axis : String) : List Nat :=
  arrays.map (fun a => (get? a.shape axis).getD 0)

/-- **C24**. `na.concatenate(arrays, axis)` of arrays which all have the axis and whose other axes
broadcast by name to `s`: the size along the axis is the sum of the sizes; the other axes are those
of `s`; and the `k`-th position of the `i`-th array is found at `k` plus the sizes of the arrays
before it. -/
theorem C24_concatenate (arrays : List (SA α)) (hw : ∀ a ∈ arrays, a.WF) (hne : arrays ≠ [])
    (axis : String) (hax : ∀ a ∈ arrays, axis ∈ a.axes) (s : Shape)
    (hs : broadcastShapes (arrays.map (fun a => a.shape.set axis 1)) = .ok s) :
    ∃ r, concatenate arrays axis = .ok r ∧ r.WF ∧
      r.shape = s.set axis (sizesAlong arrays axis).sum ∧
      ∀ (i : Nat) (hi : i < arrays.length) (k : Nat), k < (get? arrays[i].shape axis).getD 0 →
        ∀ e, e axis = ((sizesAlong arrays axis).take i).sum + k →
          r.at' e = arrays[i].atB (Function.update e axis k) := by
  have hss : ∀ t ∈ arrays.map (fun a => a.shape.set axis 1), Dict.WF t := by
    intro t ht
    obtain ⟨a, ha, rfl⟩ := List.mem_map.1 ht
    exact wf_set (wf_shape (hw a ha)) _ _
  obtain ⟨hsw, hmem, hsz⟩ := C01_broadcast_shapes_ok _ hss s hs
  have hk : axis ∈ keys s := by
    obtain ⟨a, ha⟩ := List.exists_mem_of_ne_nil _ hne
    refine (hmem axis).2 ⟨_, List.mem_map_of_mem ha, ?_⟩
    rw [keys_set]
    rw [if_pos (by rw [keys_shape (hw a ha)]; exact hax a ha), keys_shape (hw a ha)]
    exact hax a ha
  have hkeys : ∀ n, keys (s.set axis n) = keys s := by intro n; rw [keys_set, if_pos hk]
  have hfit : ∀ a ∈ arrays, FitsIn a.shape (s.set axis ((get? a.shape axis).getD 0)) := by
    intro a ha ax m hm
    rw [get?_set]
    by_cases hx : axis = ax
    · subst hx
      rw [if_pos rfl, hm]
      exact ⟨m, rfl, .inl rfl⟩
    · rw [if_neg hx]
      refine fitsIn_of_broadcastShapes hss hs (List.mem_map_of_mem ha) ax m ?_
      rw [get?_set, if_neg hx, hm]
  obtain ⟨arrs, h1, h2⟩ := mapM_broadcastTo (sh := fun a => s.set axis ((get? a.shape axis).getD 0)) hw
    (fun a _ => wf_set hsw _ _) hfit
  have hlen := h2.length_eq
  obtain ⟨b, l, rfl⟩ : ∃ b l, arrs = b :: l := by
    cases arrs with
    | nil => simp at hlen; exact absurd hlen hne
    | cons b l => exact ⟨b, l, rfl⟩
  have hget : ∀ (i : Nat) (h : i < arrays.length) (h' : i < (b :: l).length),
      ((b :: l)[i]).WF ∧ ((b :: l)[i]).shape = s.set axis ((get? arrays[i].shape axis).getD 0) ∧
      ∀ e, ((b :: l)[i]).at' e = arrays[i].atB e := (List.forall₂_iff_get.1 h2).2
  have hnd : ∀ (i : Nat) (h : i < arrays.length) (h' : i < (b :: l).length),
      ((b :: l)[i]).axes = keys s ∧ ((b :: l)[i]).nd.shape =
        (values s).set ((keys s).idxOf axis) ((get? arrays[i].shape axis).getD 0) := by
    intro i h h'
    have := hget i h h'
    have h3 := axes_nd_shape this.1 this.2.1
    rw [hkeys, values_set hk] at h3
    exact h3
  set p := (keys s).idxOf axis with hp
  have hpl : p < (values s).length := by
    rw [length_values, ← length_keys]; exact List.idxOf_lt_length_of_mem hk
  have hsizes : ((b :: l).map SA.nd).map (fun v => v.shape.getD p 0) = sizesAlong arrays axis := by
    apply List.ext_getElem
    · simp [sizesAlong, hlen]
    · intro i h1 h2
      simp only [sizesAlong, List.length_map] at h1 h2
      simp only [sizesAlong, List.getElem_map]
      rw [(hnd i h2 h1).2, List.getD_eq_getElem _ _ (by simpa using hpl)]
      simp
  have h0 : 0 < arrays.length := List.length_pos_iff.2 hne
  have hb0 := hnd 0 h0 (by simp)
  simp only [List.getElem_cons_zero] at hb0
  have hcat : ND.concat p ((b :: l).map SA.nd) = .ok ⟨(values s).set p (sizesAlong arrays axis).sum, fun i =>
      (((b :: l).map SA.nd).getD (ND.locate (sizesAlong arrays axis) (i.getD p 0)).1 b.nd).get
        (i.set p (ND.locate (sizesAlong arrays axis) (i.getD p 0)).2)⟩ := by
    rw [List.map_cons, ND.concat, if_pos]
    · rw [← List.map_cons (f := SA.nd), hsizes, hb0.2]
      dsimp only
      rw [List.set_set]
    · refine ⟨by rw [ND.ndim, hb0.2]; simpa using hpl, ?_⟩
      intro c hc
      obtain ⟨d, hd, rfl⟩ := List.mem_map.1 hc
      obtain ⟨i, hi, rfl⟩ := List.getElem_of_mem hd
      have := (hnd (i + 1) (by rw [hlen]; simpa using hi) (by simpa using hi)).2
      simp only [List.getElem_cons_succ] at this
      rw [this, hb0.2, List.set_set, List.set_set]
  set nd : ND α := ⟨(values s).set p (sizesAlong arrays axis).sum, fun i =>
      (((b :: l).map SA.nd).getD (ND.locate (sizesAlong arrays axis) (i.getD p 0)).1 b.nd).get
        (i.set p (ND.locate (sizesAlong arrays axis) (i.getD p 0)).2)⟩ with hnddef
  have hmk := mk?_of_wf (nd := nd) (axes := keys s) (by simp [ND.ndim, hnddef]) hsw
  have hall : (arrays.all (fun a => decide (axis ∈ a.shape.keys))) = true := by
    rw [List.all_eq_true]
    intro a ha
    rw [decide_eq_true_eq, keys_shape (hw a ha)]
    exact hax a ha
  refine ⟨_, ?_, (mk?_ok hmk).2, ?_, ?_⟩
  · unfold concatenate
    rw [if_pos hall]
    simp only [bind, Except.bind, hs, h1, pyTupleIndex, if_pos hk]
    rw [← hp, hcat]
    exact hmk
  · have := shape_of_mk (wf_set hsw axis (sizesAlong arrays axis).sum) (nd := nd) (by
      rw [values_set hk, hnddef])
    rwa [hkeys] at this
  · intro i hi k hk' e he
    have hi' : i < (b :: l).length := by rw [← hlen]; exact hi
    have hil : i < (sizesAlong arrays axis).length := by simpa [sizesAlong] using hi
    have hb' := hget i hi hi'
    rw [← hb'.2.2]
    have hloc : ND.locate (sizesAlong arrays axis) (((keys s).map e).getD p 0) = (i, k) := by
      rw [hp, getD_map_idxOf e hk, he]
      exact locate_offset hil (by simpa [sizesAlong] using hk')
    simp only [at', hnddef]
    rw [hloc]
    simp only
    rw [List.getD_eq_getElem _ _ (by simpa using hi'), List.getElem_map, (hnd i hi hi').1, hp,
      map_update_set hsw]

/-- **C24** (errors). `ValueError` when there is no array, when one of them lacks the axis, or when
the other axes do not broadcast. -/
theorem C24_concatenate_error (arrays : List (SA α)) (hw : ∀ a ∈ arrays, a.WF) (axis : String)
    (h : arrays = [] ∨ (∃ a ∈ arrays, axis ∉ a.axes) ∨
      Clash (arrays.map (fun a => a.shape.set axis 1))) :
    concatenate arrays axis = .error .valueError := by
  unfold concatenate
  split
  · next hall =>
    rw [List.all_eq_true] at hall
    rcases h with rfl | ⟨a, ha, hx⟩ | hc
    · rfl
    · have := hall a ha
      rw [decide_eq_true_eq, keys_shape (hw a ha)] at this
      exact absurd this hx
    · have hss : ∀ t ∈ arrays.map (fun a => a.shape.set axis 1), Dict.WF t := by
        intro t ht
        obtain ⟨a, ha, rfl⟩ := List.mem_map.1 ht
        exact wf_set (wf_shape (hw a ha)) _ _
      obtain ⟨e, he⟩ := (C01_broadcast_shapes_error_iff _ hss).2 hc
      rw [he, C01_broadcast_shapes_error_kind _ hss e he]
      rfl
  · rfl

/-- The elements are all accounted for: every position along the axis belongs to one of the arrays. -/
theorem C24_concatenate_covers (arrays : List (SA α)) (axis : String) (p : Nat)
    (h : p < (sizesAlong arrays axis).sum) :
    ∃ i, ∃ hi : i < arrays.length, ∃ k, k < (get? arrays[i].shape axis).getD 0 ∧
      p = ((sizesAlong arrays axis).take i).sum + k := by
  obtain ⟨i, hi, k, hk, hp⟩ := locate_lt h
  simp only [sizesAlong, List.length_map] at hi
  refine ⟨i, hi, k, by simpa [sizesAlong] using hk, hp⟩

theorem sliceLen_range {o t n : Nat} (h1 : o ≤ t) (h2 : t ≤ n) :
    sliceLen n ⟨some o, some t, none⟩ = t - o ∧ ∀ k, slicePos n ⟨some o, some t, none⟩ k = o + k := by
  have hc : ∀ b : Nat, b ≤ n → Slice.clampBound n 0 n b = b := by
    intro b hb
    unfold Slice.clampBound
    dsimp only
    split <;> split <;> (try split) <;> omega
  have hr : Slice.resolve ⟨some o, some t, none⟩ n = .ok ⟨o, 1, t - o⟩ := by
    unfold Slice.resolve
    simp only [Option.getD_none, one_ne_zero, if_false, zero_lt_one, if_true, Option.map_some,
      Option.getD_some, hc o (by omega), hc t h2]
    congr 2
    split <;> omega
  unfold sliceLen slicePos
  rw [hr]
  refine ⟨rfl, fun k => ?_⟩
  simp only [RSlice.pos]
  omega

/-- Slicing along one axis. -/
theorem getitem_slice1 {a : SA α} (ha : a.WF) {axis : String} {n : Nat} {sl : Slice}
    (hn : get? a.shape axis = some n) (hstep : sl.step ≠ some 0) :
    ∃ x, a.getitem [(axis, .slice sl)] = .ok x ∧ x.WF ∧ x.axes = a.axes ∧
      (∀ ax, get? x.shape ax = if ax = axis then some (sliceLen n sl) else get? a.shape ax) ∧
      ∀ e, x.at' e = a.at' (Function.update e axis (slicePos n sl (e axis))) := by
  have hbi := basicItem_single axis (.slice sl) (by simp)
  obtain ⟨x, hx, hxw, hxa, hsub, hxs, hxe⟩ := C13_getitem_basic a ha _ hbi
    (by
      intro ax _ sl' h
      rw [get?_cons] at h
      split at h
      · injection h with h; injection h with h; subst h; exact hstep
      · simp at h)
    (by
      intro ax n hn
      refine ⟨fun j h => ?_, fun b h => ?_⟩
      · rw [get?_cons] at h
        split at h <;> simp at h
      · rw [get?_cons] at h
        split at h <;> simp at h)
  have hmem : ∀ ax, ax ∈ x.axes ↔ ax ∈ a.axes := by
    intro ax
    rw [hxa]
    refine ⟨fun h => h.1, fun h => ⟨h, ?_⟩⟩
    rintro ⟨i, hi⟩
    rw [get?_cons] at hi
    split at hi <;> simp at hi
  have hax : x.axes = a.axes := by
    refine hsub.eq_of_length_le ?_
    exact (List.subperm_of_subset ha.2 (fun y hy => (hmem y).2 hy)).length_le
  refine ⟨x, hx, hxw, hax, ?_, ?_⟩
  · intro ax
    by_cases hm : ax ∈ x.axes
    · rw [hxs ax hm, selLen, get?_cons]
      by_cases hx' : ax = axis
      · subst hx'
        rw [if_pos rfl, if_pos rfl, hn]
        simp only [Option.getD_some]
      · rw [if_neg (fun h => hx' h.symm), if_neg hx', get?_nil]
        simp only
        have := (hmem ax).1 hm
        rw [← keys_shape ha] at this
        obtain ⟨m, hm'⟩ := exists_get?_of_mem this
        rw [hm']
        rfl
    · have hm' : ax ∉ a.axes := fun h => hm ((hmem ax).2 h)
      rw [(get?_shape_none hxw).2 hm, (get?_shape_none ha).2 hm', if_neg]
      rintro rfl
      rw [(get?_shape_none ha).2 hm'] at hn
      cases hn
  · intro e
    rw [hxe]
    apply at'_congr
    intro ax _
    unfold selIdx
    rw [get?_cons, Function.update_apply]
    by_cases hx' : ax = axis
    · subst hx'
      rw [if_pos rfl, if_pos rfl, hn]
      rfl
    · rw [if_neg (fun h => hx' h.symm), if_neg hx', get?_nil]

/-- Reading a contiguous block along one axis. -/
theorem getitem_block {a : SA α} (ha : a.WF) {axis : String} {n o t : Nat}
    (hn : get? a.shape axis = some n) (h1 : o ≤ t) (h2 : t ≤ n) :
    ∃ x, a.getitem [(axis, .slice ⟨some o, some t, none⟩)] = .ok x ∧ x.WF ∧ x.axes = a.axes ∧
      (∀ ax, get? x.shape ax = if ax = axis then some (t - o) else get? a.shape ax) ∧
      ∀ e, x.at' e = a.at' (Function.update e axis (o + e axis)) := by
  obtain ⟨x, hx, hxw, hxa, hxs, hxe⟩ := getitem_slice1 ha (sl := ⟨some o, some t, none⟩) hn (by simp)
  refine ⟨x, hx, hxw, hxa, ?_, ?_⟩
  · intro ax; rw [hxs, (sliceLen_range h1 h2).1]
  · intro e; rw [hxe, (sliceLen_range h1 h2).2]

theorem sum_take_le (l : List Nat) (i : Nat) (hi : i < l.length) : (l.take i).sum + l[i] ≤ l.sum := by
  induction l generalizing i with
  | nil => simp at hi
  | cons n l ih =>
    cases i with
    | zero => simp
    | succ i =>
      have := ih i (by simpa using hi)
      simp only [List.take_succ_cons, List.sum_cons, List.getElem_cons_succ]
      omega

/-- **C24** (reading back). The slice of the concatenated array, from the total size of the arrays
before the `i`-th to the same plus its own size, is the `i`-th array broadcast by name. -/
theorem C24_concatenate_slice (arrays : List (SA α)) (hw : ∀ a ∈ arrays, a.WF) (axis : String)
    (r : SA α) (hr : concatenate arrays axis = .ok r) (i : Nat) (hi : i < arrays.length) (n o : Nat)
    (hn : get? arrays[i].shape axis = some n) (ho : o = ((sizesAlong arrays axis).take i).sum) :
    ∃ s x y, broadcastShapes (arrays.map (fun a => a.shape.set axis 1)) = .ok s ∧
      r.getitem [(axis, .slice ⟨some o, some (o + n : Nat), none⟩)] = .ok x ∧
      arrays[i].broadcastTo (s.set axis n) = .ok y ∧ SameByName x y := by
  have hne : arrays ≠ [] := by rintro rfl; simp at hi
  have hnoerr : ¬ (arrays = [] ∨ (∃ a ∈ arrays, axis ∉ a.axes) ∨
      Clash (arrays.map (fun a => a.shape.set axis 1))) := by
    intro h
    rw [C24_concatenate_error arrays hw axis h] at hr
    cases hr
  push Not at hnoerr
  have hss : ∀ t ∈ arrays.map (fun a => a.shape.set axis 1), Dict.WF t := by
    intro t ht
    obtain ⟨a, ha, rfl⟩ := List.mem_map.1 ht
    exact wf_set (wf_shape (hw a ha)) _ _
  obtain ⟨s, hs⟩ : ∃ s, broadcastShapes (arrays.map (fun a => a.shape.set axis 1)) = .ok s := by
    cases hs : broadcastShapes (arrays.map (fun a => a.shape.set axis 1)) with
    | ok s => exact ⟨s, rfl⟩
    | error e => exact absurd ((C01_broadcast_shapes_error_iff _ hss).1 ⟨e, hs⟩) hnoerr.2.2
  obtain ⟨r', hr', hrw, hrs, hat⟩ := C24_concatenate arrays hw hne axis hnoerr.2.1 s hs
  rw [hr] at hr'
  cases hr'
  obtain ⟨hsw, _, _⟩ := C01_broadcast_shapes_ok _ hss s hs
  have hle : o + n ≤ (sizesAlong arrays axis).sum := by
    have := sum_take_le (sizesAlong arrays axis) i (by simpa [sizesAlong] using hi)
    rw [← ho] at this
    simp only [sizesAlong, List.getElem_map, hn, Option.getD_some] at this
    exact this
  obtain ⟨x, hx, hxw, hxa, hxs, hxe⟩ := getitem_block hrw (axis := axis) (n := (sizesAlong arrays axis).sum)
    (o := o) (t := o + n) (by rw [hrs, get?_set, if_pos rfl]) (by omega) hle
  rcases C10_broadcast_to arrays[i] (hw _ (List.getElem_mem hi)) (s.set axis n) (wf_set hsw _ _) with
    ⟨_, y, hy, hyw, hys, hye⟩ | ⟨h, _⟩
  swap
  · exfalso
    apply h
    intro ax m hm
    rw [get?_set]
    by_cases hx' : axis = ax
    · subst hx'
      rw [hn] at hm
      rw [if_pos rfl]
      exact ⟨n, rfl, .inl (by injection hm with hm; exact hm.symm)⟩
    · rw [if_neg hx']
      refine fitsIn_of_broadcastShapes hss hs (List.mem_map_of_mem (List.getElem_mem hi)) ax m ?_
      rw [get?_set, if_neg hx', hm]
  refine ⟨s, x, y, hs, hx, hy, ?_, ?_⟩
  · intro ax
    rw [hxs, hys, get?_set, hrs, get?_set]
    by_cases hx' : ax = axis
    · subst hx'
      simp
    · rw [if_neg hx', if_neg (fun h => hx' h.symm), if_neg (fun h => hx' h.symm)]
  · intro e he
    have hlt : e axis < n := by
      refine he axis n ?_
      rw [hxs, if_pos rfl]
      congr 1
      omega
    rw [hxe, hye, hat i hi (e axis) (by rw [hn]; exact hlt) _ (by rw [Function.update_self, ho])]
    rw [Function.update_idem, Function.update_eq_self]

/-- a third array, for the examples -/
def exQ' : SA Nat := ⟨["x", "z"], ND.ofList [3, 1] [7, 8, 9] 0⟩

example : ((concatenate [exP, exQ', exP] "x").map (fun r => (r.shape, r.nd.toList))) =
    .ok ([("x", 7), ("z", 1)], [1, 2, 7, 8, 9, 1, 2]) := by decide
example : ((concatenate [exP, exQ] "x").map (fun r => (r.shape, r.nd.toList))) =
    .ok ([("x", 3), ("y", 3)], [1, 1, 1, 2, 2, 2, 10, 20, 30]) := by decide
example : (concatenate [exP, exQ] "y").isOk = false := by decide

end SA
end NA
