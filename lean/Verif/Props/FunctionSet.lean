import Verif.Function.Set
import Verif.Props.FunctionReductions
import Verif.Props.VectorSet

/-!
# C78: reading function arrays with masks, and assignment to function arrays
-/

namespace NA
open Dict
open SA (FitsIn InRange)
open Comp (Writable)

namespace FA
variable {α β γ K : Type}

/-! ### Specification -/

/-- `b` is `a` with exactly the elements addressed by `i` replaced by the elements of `w`. -/
def Replaced (a : SA γ) (i : Dict IndexVal) (w b : SA γ) : Prop :=
  b.WF ∧ b.shape = a.shape ∧
  (∀ e, (¬ ∃ f, SA.Addresses a i [] f e) → b.at' e = a.at' e) ∧
  (∀ f, InRange (SA.addressed a i []) f → b.at' (SA.selIdx a.shape i f) = w.atB f)

/-- `b` is `a` with exactly the elements where the mask is true replaced by `w`. -/
def Filled (a : SA γ) (m : SA Bool) (w : γ) (b : SA γ) : Prop :=
  b.WF ∧ b.shape = a.shape ∧ ∀ e, InRange a.shape e → b.at' e = if m.at' e = true then w else a.at' e

/-- The arrays broadcast to a common shape and all corresponding elements are equal. -/
def Equal (eq : α → α → Bool) (a b : SA α) : Prop :=
  ∃ S, broadcastShapes [a.shape, b.shape] = .ok S ∧ ∀ e, InRange S e → eq (a.atB e) (b.atB e) = true

/-! ### Helpers -/

theorem replaced_of_writable {a w : SA γ} {i : Dict IndexVal} (h : Writable a i w) :
    ∃ b, a.setitem i w = .ok b ∧ Replaced a i w b := by
  obtain ⟨b, h1, h2, _, h4, h5, h6⟩ := SA.C16_setitem_basic a w h.wf h.wfValue i h.basic h.noNone h.axes h.steps h.valid
    h.fits
  exact ⟨b, h1, h2, h4, h5, h6⟩

theorem reduce_all (d : SA Bool) (hd : d.WF) :
    ∃ r, d.reduce false (fun l => l.all id) none false none none = .ok r ∧
      (r.at' (fun _ => 0) = true ↔ ∀ e, InRange d.shape e → d.at' e = true) := by
  have hwo : SA.WhereOk d none := by intro w h; cases h
  rw [SA.C17_axis_none d hd none hwo]
  obtain ⟨r, r1, _, _, _, r5⟩ := SA.C17_reduce d hd none hwo d.axes hd.2 (fun _ h => h) false
    (fun l : List Bool => l.all id) false (by simp)
  refine ⟨r, r1, ?_⟩
  obtain ⟨l, ⟨_, hl⟩, h⟩ := r5 (fun _ => 0)
  rw [h, filter_none, List.all_eq_true]
  simp only [List.mem_map, id_eq]
  constructor
  · intro hall e he
    have := hall (d.at' (fun ax => if ax ∈ d.axes then e ax else 0)) ⟨fun ax => if ax ∈ d.axes then e ax else 0,
      (hl _).2 ⟨?_, ?_⟩, rfl⟩
    · rw [← this]
      exact SA.at'_congr fun ax hax => by simp only [if_pos hax]
    · intro ax hax
      rw [← SA.keys_shape hd] at hax
      obtain ⟨n, hn⟩ := exists_get?_of_mem hax
      rw [SA.keys_shape hd] at hax
      exact ⟨n, hn, by simp only [if_pos hax]; exact he ax n hn⟩
    · intro ax hax
      simp only [if_neg hax]
  · rintro hall x ⟨e, he, rfl⟩
    apply hall
    intro ax n hn
    obtain ⟨m, h1, h2⟩ := ((hl e).1 he).1 ax (by rw [← SA.keys_shape hd]; exact mem_keys_of_get? hn)
    rw [hn] at h1
    injection h1 with h1
    omega

theorem equalAll_main (eq : α → α → Bool) (a b : SA α) (ha : a.WF) (hb : b.WF) :
    (Equal eq a b ∧ equalAll eq a b = .ok true) ∨
    (¬ Equal eq a b ∧ (equalAll eq a b = .ok false ∨ equalAll eq a b = .error .valueError)) := by
  cases hd : SA.ufunc2 eq a b with
  | error e =>
    right
    have h := SA.ufunc2_error ha hb hd
    have hww : ∀ s ∈ [a.shape, b.shape], WF s := by
      intro s hs
      simp only [List.mem_cons, List.not_mem_nil, or_false] at hs
      rcases hs with rfl | rfl
      · exact SA.wf_shape ha
      · exact SA.wf_shape hb
    refine ⟨?_, Or.inr ?_⟩
    · rintro ⟨S, hS, _⟩
      rw [hS] at h
      cases h
    · unfold equalAll
      rw [hd, C01_broadcast_shapes_error_kind _ hww e h]
      rfl
  | ok d =>
    obtain ⟨d1, d2, d3⟩ := SA.ufunc2_ok ha hb hd
    obtain ⟨r, r1, r2⟩ := reduce_all d d1
    have hrun : equalAll eq a b = .ok (r.at' (fun _ => 0)) := by
      unfold equalAll
      simp only [hd, r1, bind, Except.bind]
    have hex : (∀ e, InRange d.shape e → d.at' e = true) ↔ Equal eq a b := by
      constructor
      · intro h
        exact ⟨_, d2, fun e he => by rw [← d3]; exact h e he⟩
      · rintro ⟨S, hS, h⟩ e he
        rw [d2] at hS
        injection hS with hS
        rw [d3]
        exact h e (by rw [← hS]; exact he)
    rw [hex] at r2
    by_cases hE : Equal eq a b
    · exact .inl ⟨hE, by rw [hrun, r2.2 hE]⟩
    · refine .inr ⟨hE, .inl ?_⟩
      rw [hrun]
      cases hx : r.at' (fun _ => 0) with
      | false => rfl
      | true => exact absurd (r2.1 hx) hE

/-- Broadcasting an array along the axes of a mask, and selecting. -/
theorem masked_main {a : SA γ} (ha : a.WF) {m : SA Bool} (hm : m.WF)
    (hsz : ∀ ax k n, get? a.shape ax = some k → get? m.shape ax = some n → k = n ∨ k = 1)
    (s : String) (hs : SA.maskAxis m = .ok s) (hnew : ∀ ax ∈ a.axes, ax ∉ m.axes → ax ≠ s) :
    ∃ S b r, broadcastShapes [a.shape, m.shape] = .ok S ∧ a.broadcastTo S = .ok b ∧ b.getMask m = .ok r ∧ r.WF ∧
      get? r.shape s = some m.nd.trues.length ∧
      (∀ ax, ax ≠ s → get? r.shape ax = if ax ∈ m.axes then none else get? a.shape ax) ∧
      ∀ e, InRange r.shape e → r.at' e = a.atB (fun ax => if ax ∈ m.axes then SA.trueEnv m (e s) ax else e ax) := by
  have hww : ∀ t ∈ [a.shape, m.shape], WF t := by
    intro t ht
    simp only [List.mem_cons, List.not_mem_nil, or_false] at ht
    rcases ht with rfl | rfl
    · exact SA.wf_shape ha
    · exact SA.wf_shape hm
  -- an axis of the mask has the size of the mask
  have hsize : ∀ S, broadcastShapes [a.shape, m.shape] = .ok S → ∀ ax, get? S ax =
      if ax ∈ m.axes then get? m.shape ax else get? a.shape ax := by
    intro S hS ax
    obtain ⟨h1, h2, h3⟩ := C01_broadcast_shapes_ok _ hww S hS
    by_cases hx : ax ∈ m.axes
    · rw [if_pos hx]
      obtain ⟨n, hn⟩ := exists_get?_of_mem (show ax ∈ keys m.shape by rw [SA.keys_shape hm]; exact hx)
      obtain ⟨k, hk⟩ := exists_get?_of_mem ((h2 ax).2 ⟨m.shape, by simp, mem_keys_of_get? hn⟩)
      rw [hk, hn]
      obtain ⟨⟨t, ht, hget⟩, h5⟩ := h3 ax k hk
      have := h5 n ⟨m.shape, by simp, hn⟩
      simp only [List.mem_cons, List.not_mem_nil, or_false] at ht
      rcases ht with rfl | rfl
      · rcases hsz ax k n hget hn with h | h
        · rw [h]
        · rcases this with h' | h' <;> rw [h, h'] <;> try rw [h]
      · rw [hget] at hn; rw [hn]
    · rw [if_neg hx]
      have hmn : get? m.shape ax = none := (SA.get?_shape_none hm).2 hx
      cases hk : get? a.shape ax with
      | none =>
        rw [get?_eq_none, h2]
        rintro ⟨t, ht, hmem⟩
        simp only [List.mem_cons, List.not_mem_nil, or_false] at ht
        rcases ht with rfl | rfl
        · exact (get?_eq_none.1 hk) hmem
        · exact (get?_eq_none.1 hmn) hmem
      | some k =>
        obtain ⟨k', hk'⟩ := exists_get?_of_mem ((h2 ax).2 ⟨a.shape, by simp, mem_keys_of_get? hk⟩)
        rw [hk']
        obtain ⟨⟨t, ht, hget⟩, _⟩ := h3 ax k' hk'
        simp only [List.mem_cons, List.not_mem_nil, or_false] at ht
        rcases ht with rfl | rfl
        · rw [← hget, hk]
        · rw [hget] at hmn; cases hmn
  cases hS : broadcastShapes [a.shape, m.shape] with
  | error e =>
    exfalso
    obtain ⟨ax, k, n, ⟨t, ht, hk⟩, ⟨t', ht', hn⟩, hne, h1, h2⟩ := (C01_broadcast_shapes_error_iff _ hww).1 ⟨e, hS⟩
    simp only [List.mem_cons, List.not_mem_nil, or_false] at ht ht'
    rcases ht with rfl | rfl <;> rcases ht' with rfl | rfl
    · rw [hk] at hn; cases hn; exact hne rfl
    · rcases hsz ax k n hk hn with h | h
      · exact hne h
      · exact h1 h
    · rcases hsz ax n k hn hk with h | h
      · exact hne h.symm
      · exact h2 h
    · rw [hk] at hn; cases hn; exact hne rfl
  | ok S =>
    obtain ⟨hSw, h2, h3⟩ := C01_broadcast_shapes_ok _ hww S hS
    have hget := hsize S hS
    have hfit : FitsIn a.shape S := by
      intro ax k hk
      obtain ⟨n, hn⟩ := exists_get?_of_mem ((h2 ax).2 ⟨a.shape, by simp, mem_keys_of_get? hk⟩)
      exact ⟨n, hn, (h3 ax n hn).2 k ⟨a.shape, by simp, hk⟩⟩
    rcases SA.C10_broadcast_to a ha S hSw with ⟨_, b, hb, hbw, hbs, hbe⟩ | ⟨hno, _⟩
    swap
    · exact absurd hfit hno
    have hsub : m.axes ⊆ b.axes := by
      intro ax hax
      rw [← SA.keys_shape hbw, hbs, h2]
      exact ⟨m.shape, by simp, by rw [SA.keys_shape hm]; exact hax⟩
    obtain ⟨s', hs', _, h5⟩ := ((SA.getMask_main hbw hm).2 hsub).2 (fun ax hax => by
      rw [hbs, hget, if_pos hax])
    rw [hs] at hs'
    cases hs'
    obtain ⟨r, hr, hrw, hax, hszr, hszs, hel⟩ := h5 (by
      intro h
      simp only [List.mem_filter, decide_eq_true_eq] at h
      rw [← SA.keys_shape hbw, hbs, h2] at h
      obtain ⟨⟨t, ht, hmem⟩, hn⟩ := h
      simp only [List.mem_cons, List.not_mem_nil, or_false] at ht
      rcases ht with rfl | rfl
      · rw [SA.keys_shape ha] at hmem
        exact hnew s hmem hn rfl
      · rw [SA.keys_shape hm] at hmem
        exact hn hmem)
    refine ⟨S, b, r, rfl, hb, hr, hrw, hszs, fun ax hne => ?_, fun e he => ?_⟩
    · by_cases hx : ax ∈ m.axes
      · rw [if_pos hx]
        rw [SA.get?_shape_none hrw, hax]
        simp [hx, hne]
      · rw [if_neg hx]
        by_cases hxb : ax ∈ b.axes
        · rw [hszr ax hxb hx, hbs, hget, if_neg hx]
        · have h6 : get? b.shape ax = none := (SA.get?_shape_none hbw).2 hxb
          rw [hbs, hget, if_neg hx] at h6
          rw [h6, SA.get?_shape_none hrw, hax]
          simp [hxb, hne]
    · rw [hel e (he s _ hszs), hbe]
      rfl

/-! ### C78: assignment by integers and slices -/

/-- **C78** (a single value). `f[item] = w` for a number or an array without axes: exactly the addressed outputs are replaced
and the inputs stay. -/
theorem C78_set_outputs (f : FA α β) (item : Dict IndexVal) (w : SA β) (hw : w.shape = [])
    (h : Writable f.outputs item w) :
    ∃ o, f.setitem item (.plain w) = (⟨f.inputs, o⟩, none) ∧ Replaced f.outputs item w o := by
  obtain ⟨o, h1, h2⟩ := replaced_of_writable h
  refine ⟨o, ?_, h2⟩
  simp [setitem, valueOf, hw, assign, h1]

/-- **C78** (a function on the same points). `f[item] = g` for a function `g` whose inputs have no axis which is on vertices in
`f`: exactly the addressed inputs and outputs are replaced by those of `g`. -/
theorem C78_set_function (f g : FA α β) (hf : f.Fine) (item : Dict IndexVal) (hg : ∀ ax ∈ g.inputs.axes, ¬ f.Vertex ax)
    (hi : Writable f.inputs item g.inputs) (ho : Writable f.outputs item g.outputs) :
    ∃ r, f.setitem item (.func g) = (r, none) ∧ Replaced f.inputs item g.inputs r.inputs ∧
      Replaced f.outputs item g.outputs r.outputs := by
  obtain ⟨i, h1, h2⟩ := replaced_of_writable hi
  obtain ⟨o, h3, h4⟩ := replaced_of_writable ho
  obtain ⟨s, v, _, hv, _, hvm, _⟩ := shape_main hf
  have hany : g.inputs.axes.any (· ∈ v) = false := by
    rw [List.any_eq_false]
    intro ax hax
    simp only [decide_eq_true_eq, hvm]
    exact hg ax hax
  exact ⟨⟨i, o⟩, by simp [setitem, valueOf, hv, bind, Except.bind, hany, assign, h1, h3], h2, h4⟩

/-- **C78** (a function on vertices). `f[item] = g` for a function `g` whose inputs have an axis which is on vertices in `f`:
exactly the addressed outputs are replaced, and the inputs stay. -/
theorem C78_set_vertices (f g : FA α β) (hf : f.Fine) (item : Dict IndexVal) (hg : ∃ ax ∈ g.inputs.axes, f.Vertex ax)
    (ho : Writable f.outputs item g.outputs) :
    ∃ o, f.setitem item (.func g) = (⟨f.inputs, o⟩, none) ∧ Replaced f.outputs item g.outputs o := by
  obtain ⟨o, h3, h4⟩ := replaced_of_writable ho
  obtain ⟨s, v, _, hv, _, hvm, _⟩ := shape_main hf
  have hany : g.inputs.axes.any (· ∈ v) = true := by
    obtain ⟨ax, h1, h2⟩ := hg
    rw [List.any_eq_true]
    exact ⟨ax, h1, by simpa [hvm] using h2⟩
  exact ⟨o, by simp [setitem, valueOf, hv, bind, Except.bind, hany, assign, h3], h4⟩

/-- **C78** (errors). A value with axes which is not a function is a `ValueError` and changes nothing; an axis which the outputs
lack is a `ValueError`, which changes nothing if the value is a number. -/
theorem C78_set_error (f : FA α β) (item : Dict IndexVal) (w : SA β) :
    (w.shape ≠ [] → f.setitem item (.plain w) = (f, some .valueError)) ∧
    (w.shape = [] → f.outputs.WF → w.WF → SA.ItemWF item → (∀ v ∈ values item, v.isNone = false) →
      ¬ keys item ⊆ f.outputs.axes → f.setitem item (.plain w) = (f, some .valueError)) := by
  refine ⟨fun h => ?_, fun h ho hw hi hn hsub => ?_⟩
  · have : w.shape.isEmpty = false := by
      cases hw : w.shape with
      | nil => exact absurd hw h
      | cons _ _ => rfl
    simp [setitem, valueOf, this]
  · have := (SA.C16_setitem_error f.outputs w ho hw item hi hn).1 hsub
    simp [setitem, valueOf, h, assign, this]

/-- **C78** (errors of the inputs). If the inputs of `f` lack an indexed axis, the assignment of a function on the same points is
a `ValueError` which changes nothing. -/
theorem C78_set_inputs_error (f g : FA α β) (hf : f.Fine) (item : Dict IndexVal) (hg : ∀ ax ∈ g.inputs.axes, ¬ f.Vertex ax)
    (hgw : g.inputs.WF) (hfi : f.inputs.WF) (hi : SA.ItemWF item) (hn : ∀ v ∈ values item, v.isNone = false)
    (hsub : ¬ keys item ⊆ f.inputs.axes) : f.setitem item (.func g) = (f, some .valueError) := by
  obtain ⟨s, v, _, hv, _, hvm, _⟩ := shape_main hf
  have hany : g.inputs.axes.any (· ∈ v) = false := by
    rw [List.any_eq_false]
    intro ax hax
    simp only [decide_eq_true_eq, hvm]
    exact hg ax hax
  have := (SA.C16_setitem_error f.inputs g.inputs hfi hgw item hi hn).1 hsub
  simp [setitem, valueOf, hv, bind, Except.bind, hany, assign, this]

/-! ### C78: masks -/

/-- **C78** (reading with a mask). `f[mask]` for a function `mask` on the same inputs with boolean outputs, whose axes are axes of
the function with its sizes: the true elements of the mask are enumerated, and at each number both the output of `f` and the
center of the cell (the input itself along the axes which are not on vertices) at the selected position are found, so that
inputs and outputs stay paired. -/
theorem C78_read_mask [Field K] [NeZero (2 : K)] (eq : K → K → Bool) (f : FA K β) (hf : f.Fine) (mask : FA K Bool)
    (hmv : mask.Valid) (heq : Equal eq mask.inputs f.inputs) (S : Shape) (hS : f.shape = .ok S)
    (hsize : ∀ ax ∈ mask.outputs.axes, get? mask.outputs.shape ax = get? S ax)
    (s : String) (hs : SA.maskAxis mask.outputs = .ok s) (hnew : ∀ ax ∈ keys S, ax ∉ mask.outputs.axes → ax ≠ s)
    (L : Finset String) (hL : ∀ ax, ax ∈ L ↔ f.Vertex ax) :
    ∃ (r : FA K β) (c : SA K) (n : Nat) (sel : Nat → String → Nat), f.getMask eq mask = .ok r ∧ r.Valid ∧
      IsCenters f.inputs L c ∧
      get? r.inputs.shape s = some n ∧ get? r.outputs.shape s = some n ∧
      (∀ k < n, InRange mask.outputs.shape (sel k) ∧ mask.outputs.at' (sel k) = true) ∧
      (∀ k k', k < k' → k' < n →
        List.Lex (· < ·) (mask.outputs.axes.map (sel k)) (mask.outputs.axes.map (sel k'))) ∧
      (∀ e, InRange mask.outputs.shape e → mask.outputs.at' e = true →
        ∃ k < n, ∀ ax ∈ mask.outputs.axes, sel k ax = e ax) ∧
      (∀ e, InRange r.inputs.shape e → r.inputs.at' e =
        c.atB (fun ax => if ax ∈ mask.outputs.axes then sel (e s) ax else e ax)) ∧
      (∀ e, InRange r.outputs.shape e → r.outputs.at' e =
        f.outputs.atB (fun ax => if ax ∈ mask.outputs.axes then sel (e s) ax else e ax)) := by
  obtain ⟨cs, hcs, hcm⟩ := axesCenter_main hf
  obtain ⟨S', v, hS', _, hSw, _, hk, hV, hC⟩ := shape_main hf
  rw [hS] at hS'
  cases hS'
  obtain ⟨c, c1, c2, c3, c4⟩ := C32_cell_centers f.inputs hf.1.1 (some (f.inputs.axes.filter (· ∉ cs)))
  have hLc : centerAxes f.inputs (some (f.inputs.axes.filter (· ∉ cs))) = L := by
    ext ax
    rw [hL]
    have : ax ∈ centerAxes f.inputs (some (f.inputs.axes.filter (· ∉ cs))) ↔ ax ∈ f.inputs.axes ∧ ax ∉ cs := by
      simp only [centerAxes, Finset.mem_inter, List.mem_toFinset, List.mem_filter, decide_eq_true_eq]
      tauto
    rw [this, hcm]
    constructor
    · rintro ⟨h1, h2⟩
      by_contra hV'
      exact h2 ⟨Or.inl h1, hV'⟩
    · intro hv
      obtain ⟨n, _, _, h3⟩ := hV ax hv
      exact ⟨by rw [← SA.keys_shape hf.1.1]; exact mem_keys_of_get? h3, fun h => h.2 hv⟩
  rw [hLc] at c3 c4
  have hmS : ∀ ax n, get? mask.outputs.shape ax = some n → get? S ax = some n := by
    intro ax n hn
    rw [← hsize ax (by rw [← SA.keys_shape hmv.2]; exact mem_keys_of_get? hn)]
    exact hn
  have hcax : ∀ ax, ax ∈ c.axes → ax ∈ keys S := by
    intro ax hax
    rw [← SA.keys_shape c2] at hax
    obtain ⟨n, hn⟩ := exists_get?_of_mem hax
    rw [c3 ax] at hn
    rw [hk]
    left
    rw [← SA.keys_shape hf.1.1]
    cases hg : get? f.inputs.shape ax with
    | none => rw [hg] at hn; simp at hn
    | some m => exact mem_keys_of_get? hg
  have hcsz : ∀ ax k n, get? c.shape ax = some k → get? S ax = some n → k = n ∨ k = 1 := by
    intro ax k n hk' hn
    rw [c3 ax] at hk'
    by_cases hx : f.Vertex ax
    · obtain ⟨n', h1, _, h3⟩ := hV ax hx
      rw [h3] at hk'
      simp [(hL ax).2 hx] at hk'
      rw [hn] at h1
      cases h1
      omega
    · cases hg : get? f.inputs.shape ax with
      | none => rw [hg] at hk'; simp at hk'
      | some m =>
        rw [hg] at hk'
        have hxL : ax ∉ L := fun h => hx ((hL ax).1 h)
        simp only [Option.map_some, hxL, if_false, Option.some.injEq] at hk'
        subst hk'
        exact (hC ax n hx hn).2.1 m hg
  have hosz : ∀ ax k n, get? f.outputs.shape ax = some k → get? S ax = some n → k = n ∨ k = 1 := by
    intro ax k n hk' hn
    by_cases hx : f.Vertex ax
    · obtain ⟨n', h1, h2, _⟩ := hV ax hx
      rw [h1] at hn; rw [h2] at hk'
      cases hn; cases hk'
      exact .inl rfl
    · exact (hC ax n hx hn).2.2 k hk'
  obtain ⟨Si, bi, ri, i1, i2, i3, i4, i5, _, i6⟩ := masked_main c2 hmv.2
    (fun ax k n h1 h2 => hcsz ax k n h1 (hmS ax n h2)) s hs (fun ax hax => hnew ax (hcax ax hax))
  obtain ⟨So, bo, ro, o1, o2, o3, o4, o5, _, o6⟩ := masked_main hf.1.2 hmv.2
    (fun ax k n h1 h2 => hosz ax k n h1 (hmS ax n h2)) s hs (fun ax hax => hnew ax ((hk ax).2 (Or.inr hax)))
  have hall : equalAll eq mask.inputs f.inputs = .ok true := by
    rcases equalAll_main eq mask.inputs f.inputs hmv.1 hf.1.1 with ⟨_, h⟩ | ⟨h, _⟩
    · exact h
    · exact absurd heq h
  obtain ⟨t1, t2, t3⟩ := SA.trues_spec hmv.2
  refine ⟨⟨ri, ro⟩, c, _, SA.trueEnv mask.outputs, ?_, ⟨i4, o4⟩, ⟨c2, c3, c4⟩, i5, o5, t1, t2, t3, i6, o6⟩
  unfold getMask
  simp only [bind, Except.bind, hall, if_true, hcs, c1, i1, i2, o1, o2, i3, o3]

/-- **C78** (filling with a mask). `f[mask] = w` for a number or an array without axes: exactly the outputs where the mask is true
are replaced and the inputs stay. -/
theorem C78_set_mask (eq : α → α → Bool) (f : FA α β) (hf : f.inputs.WF) (mask : FA α Bool) (hmi : mask.inputs.WF)
    (heq : Equal eq mask.inputs f.inputs) (w : SA β) (s : String) (h : Comp.MaskWritable f.outputs mask.outputs w s) :
    ∃ o, f.setMask eq mask (.plain w) = (⟨f.inputs, o⟩, none) ∧
      Filled f.outputs mask.outputs (w.atB (fun _ => 0)) o := by
  obtain ⟨o, h1, h2⟩ := Comp.mask_fill h
  have hall : equalAll eq mask.inputs f.inputs = .ok true := by
    rcases equalAll_main eq mask.inputs f.inputs hmi hf with ⟨_, h⟩ | ⟨h, _⟩
    · exact h
    · exact absurd heq h
  refine ⟨o, ?_, h2⟩
  simp [setMask, hall, valueOf, h.scalar, assign, h1]

/-- **C78** (filling with a pair). `f[mask] = g` for a function `g` without axes, one input and one output: where the mask is true
the inputs are replaced by the input of `g` and the outputs by its output; nothing else changes. -/
theorem C78_set_mask_function (eq : α → α → Bool) (f g : FA α β) (hf : f.Fine) (mask : FA α Bool) (hmi : mask.inputs.WF)
    (heq : Equal eq mask.inputs f.inputs) (s : String) (hi : Comp.MaskWritable f.inputs mask.outputs g.inputs s)
    (ho : Comp.MaskWritable f.outputs mask.outputs g.outputs s) :
    ∃ r, f.setMask eq mask (.func g) = (r, none) ∧
      Filled f.inputs mask.outputs (g.inputs.atB (fun _ => 0)) r.inputs ∧
      Filled f.outputs mask.outputs (g.outputs.atB (fun _ => 0)) r.outputs := by
  obtain ⟨i, h1, h2⟩ := Comp.mask_fill hi
  obtain ⟨o, h3, h4⟩ := Comp.mask_fill ho
  have hall : equalAll eq mask.inputs f.inputs = .ok true := by
    rcases equalAll_main eq mask.inputs f.inputs hmi hi.wf with ⟨_, h⟩ | ⟨h, _⟩
    · exact h
    · exact absurd heq h
  obtain ⟨S, v, _, hv, _⟩ := shape_main hf
  have hax : g.inputs.axes = [] := by rw [← SA.keys_shape hi.wfValue, hi.scalar]; rfl
  exact ⟨⟨i, o⟩, by simp [setMask, hall, valueOf, hv, bind, Except.bind, hax, assign, h1, h3], h2, h4⟩

/-- **C78** (other inputs). A mask on other inputs is a `ValueError`, for reading and for writing, and nothing is changed. -/
theorem C78_other_inputs [Field K] (eq : K → K → Bool) (f : FA K β) (hf : f.inputs.WF) (mask : FA K Bool)
    (hmi : mask.inputs.WF) (hne : ¬ Equal eq mask.inputs f.inputs) (value : Arg K β) :
    f.getMask eq mask = .error .valueError ∧ f.setMask eq mask value = (f, some .valueError) := by
  rcases equalAll_main eq mask.inputs f.inputs hmi hf with ⟨h, _⟩ | ⟨_, h | h⟩
  · exact absurd h hne
  · refine ⟨?_, by simp [setMask, h]⟩
    unfold getMask
    simp [bind, Except.bind, h]
  · refine ⟨?_, by simp [setMask, h]⟩
    unfold getMask
    simp [bind, Except.bind, h]

/-! ### C78: where the code does not do what is claimed -/

/-- A histogram with two bins. -/
def exBins : FA Rat Rat := ⟨⟨["x"], ND.vec [0, 1, 2]⟩, ⟨["x"], ND.vec [10, 20]⟩⟩

/-- A function which is constant along `x`. -/
def exFlatX : FA Rat Rat := ⟨⟨["x"], ND.vec [0, 1, 2]⟩, SA.scalar 5⟩

/-- A histogram with bins along `y` and an index `x`. -/
def exBinsY : FA Rat Rat := ⟨⟨["y"], ND.vec [0, 1, 2]⟩, ⟨["x", "y"], ⟨[2, 2], fun i => 2 * i.getD 0 0 + i.getD 1 0⟩⟩⟩

/-- the axes and elements of inputs and outputs -/
def contents (f : FA α β) : (List String × List α) × List String × List β :=
  ((f.inputs.axes, f.inputs.nd.toList), f.outputs.axes, f.outputs.nd.toList)

/-- **C78 is false of the code** along an axis on vertices: a bin which was read by its number cannot be written back. -/
theorem C78_write_back_refuted : (match exBins.getitem [("x", .int 0)] with
    | .ok g => some (contents g, (exBins.setitem [("x", .int 0)] (.func g)).2)
    | .error _ => none) =
      some (((["x"], [0, 1]), ["x"], [10]), some .valueError) := by decide +kernel

/-- **C78 is false of the code** as an all-or-nothing claim: if the outputs lack the axis, the item can be read, but the assignment
of a function raises `ValueError`, and the inputs are modified nevertheless. -/
theorem C78_atomic_refuted :
    (match exFlatX.getitem [("x", .int 0)] with
      | .ok g => some (contents g)
      | .error _ => none) = some (([], [0]), [], [5]) ∧
    (exFlatX.setitem [("x", .int 0)] (.func ⟨SA.scalar 9, SA.scalar 8⟩)).2 = some .valueError ∧
    contents (exFlatX.setitem [("x", .int 0)] (.func ⟨SA.scalar 9, SA.scalar 8⟩)).1 =
      ((["x"], [9, 1, 2]), [], [5]) := by
  refine ⟨by decide +kernel, by decide +kernel, by decide +kernel⟩

/-- **C78 is false of the code** for axes which the mask lacks: selecting along `x` replaces the edges of the bins along `y` by
their centers, although `y` is not selected. -/
theorem C78_other_axes_refuted : (match exBinsY.getMask (fun a b => a == b) ⟨exBinsY.inputs, ⟨["x"], ND.vec [true, true]⟩⟩ with
    | .ok g => some (contents g)
    | .error _ => none) =
      some ((["y", "x"], [1/2, 1/2, 3/2, 3/2]), ["y", "x"], [0, 2, 1, 3]) := by decide +kernel

/-! ### Non-vacuity -/

example : exBins.Fine := by
  refine ⟨⟨by constructor <;> decide, by constructor <;> decide⟩, ?_⟩
  rintro ax ⟨m, n, h1, h2, h3⟩
  by_cases hx : ax = "x"
  · subst hx
    simp only [exBins, SA.shape, ND.vec] at h1 h2
    have e1 : m = 3 := by injection (h1.symm.trans (show _ = some 3 from rfl))
    have e2 : n = 2 := by injection (h2.symm.trans (show _ = some 2 from rfl))
    omega
  · have : get? exBins.inputs.shape ax = none := by
      rw [get?_eq_none, SA.keys_shape (by constructor <;> decide)]; simpa [exBins] using hx
    rw [this] at h1; cases h1
/-- the second bin is filled -/
example : contents (exBins.setitem [("x", .int 1)] (.plain (SA.scalar 7))).1 = ((["x"], [0, 1, 2]), ["x"], [10, 7]) := by
  decide +kernel
/-- the centers and outputs of the bins above 15 -/
example : (match exBins.getMask (fun a b => a == b) ⟨exBins.inputs, ⟨["x"], ND.vec [false, true]⟩⟩ with
    | .ok g => some (contents g)
    | .error _ => none) = some ((["x"], [3/2]), ["x"], [20]) := by decide +kernel
example : contents (exBins.setMask (fun a b => a == b) ⟨exBins.inputs, ⟨["x"], ND.vec [false, true]⟩⟩ (.plain (SA.scalar 0))).1 =
    ((["x"], [0, 1, 2]), ["x"], [10, 0]) := by decide +kernel
/-- slices of a function on vertices: the edges stay -/
example : (fun r => (contents r.1, r.2)) (exBins.setitem [("x", .slice ⟨some 1, none, none⟩)]
    (.func ⟨⟨["x"], ND.vec [7, 8]⟩, ⟨["x"], ND.vec [9]⟩⟩)) = (((["x"], [0, 1, 2]), ["x"], [10, 9]), none) := by decide +kernel
/-- a pair of input and output -/
example : (fun r => (contents r.1, r.2)) ((⟨⟨["x"], ND.vec [1, 2]⟩, ⟨["x"], ND.vec [10, 20]⟩⟩ : FA Rat Rat).setMask
    (fun a b => a == b) ⟨⟨["x"], ND.vec [1, 2]⟩, ⟨["x"], ND.vec [false, true]⟩⟩ (.func ⟨SA.scalar 5, SA.scalar 50⟩)) =
    (((["x"], [1, 5]), ["x"], [10, 50]), none) := by decide +kernel

end FA
end NA
