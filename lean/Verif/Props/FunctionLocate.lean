import Verif.Function.Locate
import Verif.Props.FunctionIndex
import Verif.Props.FunctionStructure
import Verif.Props.Ordering
import Verif.Props.Sorting
import Verif.Props.VectorComparing
import Verif.Props.CellCenters

/-!
# Locating, comparing and multiplying the values of functions (C105)
-/

namespace NA
open Dict
open SA (InRange selIdx ValidItem StepsOk ItemWF IntAt slabList asItem arange known arrayShapes)

/-! ### Indexing an array with a dictionary of index arrays -/

/-- Index arrays for some axes of `a` (and maybe for others, which are ignored) whose sizes are those of `T`: the element at `e` is the one of
`a` at the position `pos`. -/
theorem SA.pick_ok {α : Type} {a : SA α} (ha : a.WF) {d : Dict (SA Int)} (hd : Dict.WF d) {T : Shape} (pos : String → (String → Nat) → Nat)
    (hb : ∀ ax b, ax ∈ a.axes → get? d ax = some b → b.WF ∧ (∀ x m, get? b.shape x = some m → get? T x = some m) ∧
      ∀ e, InRange b.shape e → b.at' e = (pos ax e : Int) ∧ ∀ n, get? a.shape ax = some n → pos ax e < n)
    (hdisj : ∀ ax ∈ a.axes, ax ∈ keys T → ax ∈ keys d) :
    ∃ r, a.getitem (asItem d) = .ok r ∧ r.WF ∧
      (∀ x, x ∈ r.axes ↔ (x ∈ a.axes ∧ x ∉ keys d) ∨ ∃ ax ∈ a.axes, ∃ b, get? d ax = some b ∧ x ∈ b.axes) ∧
      (∀ x n, get? r.shape x = some n → get? T x = some n ∨ (x ∉ keys d ∧ get? a.shape x = some n)) ∧
      ∀ e, InRange T e → r.at' e = a.at' (fun ax => if ax ∈ keys d then pos ax e else e ax) := by
  -- only the known entries matter
  have hkn : a.getitem (asItem d) = a.getitem (asItem (d.filter (fun p => p.1 ∈ a.axes))) := by
    apply C13_getitem_ignores_absent
    unfold asItem
    rw [List.filter_map, List.filter_map, List.filter_filter]
    congr 1
    apply List.filter_congr
    intro p _
    simp
  set D := d.filter (fun p => p.1 ∈ a.axes) with hD
  have hDw : Dict.WF D := hd.sublist (List.filter_sublist.map _)
  have hDg : ∀ x, get? D x = if x ∈ a.axes then get? d x else none := fun x => SA.get?_filter d (fun x => x ∈ a.axes) x
  have hDb : ∀ ax b, get? D ax = some b → ax ∈ a.axes ∧ get? d ax = some b := by
    intro ax b h
    rw [hDg] at h
    split at h
    · next hx => exact ⟨hx, h⟩
    · cases h
  have hIW : ItemWF (asItem D) := by
    refine ⟨by unfold Dict.WF; rw [SA.keys_asItem]; exact hDw, ?_⟩
    intro ax b hm
    have := get?_of_mem (by unfold Dict.WF; rw [SA.keys_asItem]; exact hDw) hm
    rw [SA.get?_asItem] at this
    cases h : get? D ax with
    | none => rw [h] at this; cases this
    | some b' =>
      rw [h] at this
      cases this
      obtain ⟨h1, h2⟩ := hDb ax b h
      exact (hb ax b h1 h2).1
  have hmemS : ∀ s, s ∈ arrayShapes (known a.axes (asItem D)) ↔ ∃ ax ∈ a.axes, ∃ b, get? d ax = some b ∧ s = b.shape := by
    intro s
    unfold arrayShapes known
    rw [List.mem_filterMap]
    constructor
    · rintro ⟨⟨ax, v⟩, hp, hv⟩
      have hp' : (ax, v) ∈ asItem D := List.mem_of_mem_filter hp
      have := get?_of_mem hIW.1 hp'
      rw [SA.get?_asItem] at this
      cases h : get? D ax with
      | none => rw [h] at this; cases this
      | some b =>
        rw [h] at this
        cases this
        obtain ⟨h1, h2⟩ := hDb ax b h
        exact ⟨ax, h1, b, h2, by simpa using hv.symm⟩
    · rintro ⟨ax, hax, b, hb', rfl⟩
      have : get? (asItem D) ax = some (.arr b) := by rw [SA.get?_asItem, hDg, if_pos hax, hb']; rfl
      exact ⟨(ax, .arr b), List.mem_filter.2 ⟨mem_of_get? this, by simpa using hax⟩, rfl⟩
  have hww : ∀ s ∈ arrayShapes (known a.axes (asItem D)), Dict.WF s := by
    intro s hs
    obtain ⟨ax, hax, b, hb', rfl⟩ := (hmemS s).1 hs
    exact SA.wf_shape (hb ax b hax hb').1
  have hsz : ∀ x m, HasSize (arrayShapes (known a.axes (asItem D))) x m → get? T x = some m := by
    rintro x m ⟨s, hs, hm⟩
    obtain ⟨ax, hax, b, hb', rfl⟩ := (hmemS s).1 hs
    exact (hb ax b hax hb').2.1 x m hm
  cases hS : broadcastShapes (arrayShapes (known a.axes (asItem D))) with
  | error e =>
    obtain ⟨x, m, n, h1, h2, h3, _⟩ := (C01_broadcast_shapes_error_iff _ hww).1 ⟨e, hS⟩
    have h4 := hsz x m h1
    rw [hsz x n h2] at h4
    exact absurd (Option.some.inj h4).symm h3
  | ok S =>
    obtain ⟨s1, s2, s3⟩ := C01_broadcast_shapes_ok _ hww S hS
    have hST : ∀ x n, get? S x = some n → get? T x = some n := fun x n h => hsz x n (s3 x n h).1
    have hsteps : StepsOk a.shape (asItem D) := by
      intro ax _ sl h
      rw [SA.get?_asItem] at h
      cases h' : get? D ax <;> rw [h'] at h <;> cases h
    have hvalid : ValidItem a.shape (asItem D) := by
      intro ax n hn
      refine ⟨fun i h => ?_, fun b h e he => ?_⟩
      · rw [SA.get?_asItem] at h
        cases h' : get? D ax <;> rw [h'] at h <;> cases h
      · rw [SA.get?_asItem] at h
        cases h' : get? D ax with
        | none => rw [h'] at h; cases h
        | some b' =>
          rw [h'] at h
          cases h
          obtain ⟨h1, h2⟩ := hDb ax b h'
          obtain ⟨q1, q2⟩ := (hb ax b h1 h2).2.2 e he
          have := q2 n hn
          unfold ND.ValidIndex
          rw [q1]
          omega
    have hdisj' : ∀ ax ∈ keys S, ax ∈ a.axes → IntAt (asItem D) ax ∨ ∃ b, get? (asItem D) ax = some (.arr b) := by
      intro ax hx hax
      obtain ⟨n, hn⟩ := exists_get?_of_mem hx
      obtain ⟨b, hb'⟩ := exists_get?_of_mem (hdisj ax hax (mem_keys_of_get? (hST ax n hn)))
      exact Or.inr ⟨b, by rw [SA.get?_asItem, hDg, if_pos hax, hb']; rfl⟩
    obtain ⟨r, rest, r1, r2, r3, r4, r5, r6, r7, r8⟩ := SA.C14_getitem_arrays a ha (asItem D) hIW S hS hsteps hvalid hdisj'
    have hrest : ∀ x, x ∈ rest ↔ x ∈ a.axes ∧ x ∉ keys d := by
      intro x
      rw [r5]
      constructor
      · rintro ⟨h1, _, h3⟩
        refine ⟨h1, fun hx => ?_⟩
        obtain ⟨b, hb'⟩ := exists_get?_of_mem hx
        exact h3 b (by rw [SA.get?_asItem, hDg, if_pos h1, hb']; rfl)
      · rintro ⟨h1, h2⟩
        refine ⟨h1, ?_, ?_⟩
        · rintro ⟨i, h⟩
          rw [SA.get?_asItem] at h
          cases h' : get? D x <;> rw [h'] at h <;> cases h
        · intro b h
          rw [SA.get?_asItem] at h
          cases h' : get? D x with
          | none => rw [h'] at h; cases h
          | some b' => exact h2 (mem_keys_of_get? (hDb x b' h').2)
    refine ⟨r, hkn.trans r1, r2, ?_, ?_, ?_⟩
    · intro x
      rw [r3, List.mem_append, hrest, s2, or_comm]
      apply or_congr Iff.rfl
      constructor
      · rintro ⟨s, hs, hx⟩
        obtain ⟨ax, hax, b, hb', rfl⟩ := (hmemS s).1 hs
        exact ⟨ax, hax, b, hb', by rw [← SA.keys_shape (hb ax b hax hb').1]; exact hx⟩
      · rintro ⟨ax, hax, b, hb', hx⟩
        exact ⟨b.shape, (hmemS _).2 ⟨ax, hax, b, hb', rfl⟩, by rw [SA.keys_shape (hb ax b hax hb').1]; exact hx⟩
    · intro x n hn
      have hx : x ∈ r.axes := by rw [← SA.keys_shape r2]; exact mem_keys_of_get? hn
      rw [r3, List.mem_append] at hx
      rcases hx with hx | hx
      · left
        rw [r6 x hx] at hn
        exact hST x n hn
      · right
        refine ⟨((hrest x).1 hx).2, ?_⟩
        rw [r7 x hx] at hn
        obtain ⟨m, hm⟩ := exists_get?_of_mem (d := a.shape) (by rw [SA.keys_shape ha]; exact ((hrest x).1 hx).1)
        have hnone : get? (asItem D) x = none := by
          rw [SA.get?_asItem, hDg, if_pos ((hrest x).1 hx).1, get?_eq_none.2 ((hrest x).1 hx).2]; rfl
        unfold SA.selLen at hn
        rw [hnone, hm] at hn
        rw [hm]
        simpa using hn
    · intro e he
      rw [r8 e]
      apply SA.at'_congr
      intro ax hax
      unfold selIdx
      rw [SA.get?_asItem, hDg, if_pos hax]
      by_cases hk : ax ∈ keys d
      · obtain ⟨b, hb'⟩ := exists_get?_of_mem hk
        obtain ⟨b1, b2, b3⟩ := hb ax b hax hb'
        have hin : InRange b.shape e := fun x m h => he x m (b2 x m h)
        simp only [hb', Option.map_some, if_pos hk]
        rw [SA.atB_eq_at' b1 hin, (b3 e hin).1]
        unfold ND.pyIndex
        simp
      · simp only [get?_eq_none.2 hk, Option.map_none, if_neg hk]

theorem SA.argReduce_wf {α : Type} {a : SA α} (ha : a.WF) {A : List String} (hA : A.Nodup) {g : List α → Nat} {d : Dict (SA Int)}
    (h : SA.argReduce g a (some A) = .ok d) : Dict.WF d := by
  unfold SA.argReduce at h
  simp only [bind, Except.bind] at h
  split at h
  · cases h1 : flattenAxes A with
    | error e => rw [h1] at h; cases h
    | ok new =>
      rw [h1] at h
      simp only at h
      cases h2 : a.combineAxes (some A) (some new) with
      | error e => rw [h2] at h; cases h
      | ok flat =>
        rw [h2] at h
        simp only at h
        cases h3 : pyTupleIndex flat.axes new with
        | error e => rw [h3] at h; cases h
        | ok p =>
          rw [h3] at h
          simp only at h
          cases h4 : flat.nd.reduce true g [p] false none with
          | error e => rw [h4] at h; cases h
          | ok nd =>
            rw [h4] at h
            simp only at h
            cases h5 : SA.mk? nd (flat.axes.filter (· ≠ new)) with
            | error e => rw [h5] at h; cases h
            | ok indices =>
              rw [h5] at h
              simp only at h
              cases h6 : SA.unravelIndex indices (A.map (fun ax => (ax, (a.shape.get? ax).getD 0))) with
              | error e => rw [h6] at h; cases h
              | ok res =>
                rw [h6] at h
                simp only [Except.ok.injEq] at h
                subst h
                have hres : keys res = A := by
                  unfold SA.unravelIndex at h6
                  split at h6
                  · simp only [Except.ok.injEq] at h6
                    rw [← h6]
                    unfold keys
                    rw [List.map_map]
                    show List.map Prod.fst (List.zipIdx _) = A
                    rw [List.zipIdx_map_fst, List.map_map]
                    simp [Function.comp_def]
                  · cases h6
                unfold SA.completeIndex Dict.WF
                rw [keys, List.map_append, List.nodup_append]
                refine ⟨by have := hres; unfold keys at this; rw [this]; exact hA, ?_, ?_⟩
                · rw [List.map_map]
                  exact (SA.wf_shape ha).sublist (List.filter_sublist.map _)
                · intro x hx y hy hxy
                  subst hxy
                  rw [List.map_map] at hy
                  obtain ⟨q, hq, rfl⟩ := List.mem_map.1 hy
                  have := (List.mem_filter.1 hq).2
                  simp only [decide_eq_true_eq] at this
                  exact this hx
  · cases h

namespace FA
variable {α β : Type}

theorem fold_centers (i o : Shape) (c : List String) (hc : axesCenterOf i o = .ok c) :
    ∀ (l : Dict IndexVal) (acc : Dict IndexVal × Dict IndexVal), WF l → (∀ p ∈ l, p.1 ∈ c) →
      (∀ p ∈ l, p.1 ∉ keys acc.1 ∧ p.1 ∉ keys acc.2) →
      l.foldlM (itemStep i o) acc = .ok (acc.1 ++ l.filter (fun p => p.1 ∈ keys i), acc.2 ++ l.filter (fun p => p.1 ∈ keys o)) := by
  intro l
  induction l with
  | nil => intro acc _ _ _; simp; rfl
  | cons p l ih =>
    intro acc hw hcs hk
    rw [List.foldlM_cons]
    have hstep : itemStep i o acc p = .ok (acc.1 ++ [p].filter (fun p => p.1 ∈ keys i), acc.2 ++ [p].filter (fun p => p.1 ∈ keys o)) := by
      unfold itemStep
      simp only [hc, bind, Except.bind, if_pos (hcs p (by simp))]
      obtain ⟨h1, h2⟩ := hk p (by simp)
      rw [set_of_not_mem h1, set_of_not_mem h2]
      by_cases q1 : p.1 ∈ keys i <;> by_cases q2 : p.1 ∈ keys o <;> simp [q1, q2]
    rw [hstep]
    show List.foldlM (itemStep i o) _ l = _
    have hw' : p.1 ∉ keys l ∧ WF l := by
      unfold WF keys at hw
      rw [List.map_cons, List.nodup_cons] at hw
      exact hw
    rw [ih _ hw'.2 (fun q hq => hcs q (by simp [hq])) (fun q hq => ?_)]
    · simp only [List.append_assoc]
      rw [← List.filter_append, ← List.filter_append]
      rfl
    · have hne : q.1 ≠ p.1 := fun h => hw'.1 (h ▸ List.mem_map_of_mem hq)
      obtain ⟨h1, h2⟩ := hk q (by simp [hq])
      constructor
      · unfold keys at h1 ⊢
        rw [List.map_append, List.mem_append]
        rintro (h | h)
        · exact h1 h
        · obtain ⟨q', hq', he⟩ := List.mem_map.1 h
          have : q' = p := by simpa using List.mem_of_mem_filter hq'
          exact hne (by rw [← he, this])
      · unfold keys at h2 ⊢
        rw [List.map_append, List.mem_append]
        rintro (h | h)
        · exact h2 h
        · obtain ⟨q', hq', he⟩ := List.mem_map.1 h
          have : q' = p := by simpa using List.mem_of_mem_filter hq'
          exact hne (by rw [← he, this])

/-- Without an axis on vertices among its keys, the item is applied to the inputs and to the outputs alike. -/
theorem getitem_centers {f : FA α β} (hf : f.Fine) {item : Dict IndexVal} (hi : WF item) (hv : ∀ ax ∈ keys item, ¬ f.Vertex ax) :
    f.getitem item = (do
      let i ← f.inputs.getitem item
      let o ← f.outputs.getitem item
      .ok ⟨i, o⟩) := by
  obtain ⟨c, v, s, h1, _, _, h4, h5, h6, _⟩ := C52_axes f.inputs.shape f.outputs.shape (SA.wf_shape hf.1.1) (SA.wf_shape hf.1.2) hf.2
  unfold getitem
  rw [fold_centers _ _ c h1 _ ([], []) (hi.sublist (List.filter_sublist.map _)) ?_ (by simp [keys])]
  · have e1 : f.inputs.getitem ([] ++ (item.filter (fun p => p.1 ∈ f.axes)).filter (fun p => p.1 ∈ keys f.inputs.shape)) =
        f.inputs.getitem item := by
      apply SA.C13_getitem_ignores_absent
      rw [List.nil_append, List.filter_filter, List.filter_filter]
      apply List.filter_congr
      intro p _
      rw [SA.keys_shape hf.1.1]
      by_cases h : p.1 ∈ f.inputs.axes
      · have : p.1 ∈ f.axes := by unfold FA.axes; rw [mem_axesOf (SA.wf_shape hf.1.2), SA.keys_shape hf.1.1]; exact Or.inl h
        simp [h, this]
      · simp [h]
    have e2 : f.outputs.getitem ([] ++ (item.filter (fun p => p.1 ∈ f.axes)).filter (fun p => p.1 ∈ keys f.outputs.shape)) =
        f.outputs.getitem item := by
      apply SA.C13_getitem_ignores_absent
      rw [List.nil_append, List.filter_filter, List.filter_filter]
      apply List.filter_congr
      intro p _
      rw [SA.keys_shape hf.1.2]
      by_cases h : p.1 ∈ f.outputs.axes
      · have : p.1 ∈ f.axes := by unfold FA.axes; rw [mem_axesOf (SA.wf_shape hf.1.2), SA.keys_shape hf.1.2]; exact Or.inr h
        simp [h, this]
      · simp [h]
    simp only [bind, Except.bind]
    rw [e1, e2]
  · intro p hp
    have hax : p.1 ∈ f.axes := by simpa using (List.mem_filter.1 hp).2
    have := (h5 p.1).2 ((mem_axesOf (SA.wf_shape hf.1.2) p.1).1 hax)
    rcases List.mem_append.1 this with h | h
    · exact h
    · exact absurd ((h6 p.1).1 h) (hv p.1 (List.mem_map_of_mem (List.mem_of_mem_filter hp)))

/-- The inputs and the outputs have the same sizes along the axes which they share: nothing is on vertices and nothing is broadcast. -/
def Pointwise (f : FA α β) : Prop :=
  f.Valid ∧ ∀ ax m n, get? f.inputs.shape ax = some m → get? f.outputs.shape ax = some n → m = n

theorem Pointwise.fine {f : FA α β} (h : f.Pointwise) : f.Fine :=
  ⟨h.1, fun ax ⟨m, n, h1, h2, h3, _⟩ => h3 (h.2 ax m n h1 h2)⟩

theorem Pointwise.not_vertex {f : FA α β} (h : f.Pointwise) (ax : String) : ¬ f.Vertex ax := by
  rintro ⟨n, h1, h2⟩
  have := h.2 ax _ _ h1 h2
  omega

/-! ### Positions of the smallest and the largest outputs -/

/-- **C105** (`np.argmin`/`np.argmax` of a function). The positions are those of the outputs; a function whose inputs and outputs have the
same sizes can be indexed with them.  Each element of the result is an input of `f` together with the output there: both are read at the
position `σ e` which `g` selects from the outputs over the axes `A`, listed in row-major order.
Missing for the full property: functions on vertices, for which it is false (`C105_vertex_refuted`). -/
theorem C105_arg_indexing_partial (f : FA α β) (hf : f.Pointwise) (A : List String) (hA : A.Nodup) (hAne : A ≠ [])
    (hAs : A ⊆ f.outputs.axes) (hcoll : ∀ ax ∈ f.outputs.axes, ax ∉ A → ax ≠ "*".intercalate A)
    (hne : ∀ ax, get? f.outputs.shape ax ≠ some 0) (g : List β → Nat) (hg : ∀ l, l ≠ [] → g l < l.length) :
    ∃ (d : Dict (SA Int)) (r : FA α β) (σ : (String → Nat) → String → Nat), f.argReduce g (some A) = .ok d ∧ f.getitem (asItem d) = .ok r ∧ r.Pointwise ∧
      r.outputs.axes = f.outputs.axes.filter (· ∉ A) ∧
      (∀ x, get? r.outputs.shape x = if x ∈ A then none else get? f.outputs.shape x) ∧
      (∀ x, x ∈ r.inputs.axes ↔ x ∉ A ∧ (x ∈ f.inputs.axes ∨ (x ∈ f.outputs.axes ∧ ∃ ax ∈ A, ax ∈ f.inputs.axes))) ∧
      (∀ x n, get? r.inputs.shape x = some n → get? f.inputs.shape x = some n ∨ get? f.outputs.shape x = some n) ∧
      ∀ e, InRange r.outputs.shape e → (∀ ax, ax ∉ A → σ e ax = e ax) ∧ (∀ ax ∈ A, ∀ n, get? f.outputs.shape ax = some n → σ e ax < n) ∧
        (slabEnvs A f.outputs.sizeOf' e)[g (slabList f.outputs A e)]? = some (σ e) ∧
        r.outputs.at' e = f.outputs.at' (σ e) ∧ r.inputs.at' e = f.inputs.at' (σ e) := by
  obtain ⟨d, d1, d2, d3, d4, o, o1, o2, o3, o4, o5⟩ := SA.argReduce_main hf.1.2 hA hAne hAs hcoll hne g hg
  let σ : (String → Nat) → String → Nat := fun e =>
    slabEnv A (ND.unravel (A.map f.outputs.sizeOf') (g (slabList f.outputs A e))) e
  have hsel : ∀ e, (slabEnvs A f.outputs.sizeOf' e)[g (slabList f.outputs A e)]? = some (σ e) := by
    intro e
    have hlt : g (slabList f.outputs A e) < (A.map f.outputs.sizeOf').prod := by
      rw [← SA.length_slabList f.outputs A e]
      exact hg _ (SA.slabList_ne_nil hf.1.2 hAs hne e)
    unfold slabEnvs
    rw [ND.ndIndices_eq_map_unravel, List.map_map, List.getElem?_map, List.getElem?_range hlt]
    rfl
  have hσ : ∀ e, (∀ ax, ax ∉ A → σ e ax = e ax) ∧ ∀ ax ∈ A, ∀ n, get? f.outputs.shape ax = some n → σ e ax < n := by
    intro e
    have := (mem_slabEnvs hA).1 (List.mem_of_getElem? (hsel e))
    refine ⟨this.2, fun ax hax n hn => ?_⟩
    have h := this.1 ax hax
    simpa [SA.sizeOf', hn] using h
  have hdw : WF d := SA.argReduce_wf hf.1.2 hA d1
  have hk : keys (asItem d) = keys d := SA.keys_asItem d
  have hkey : ∀ ax b, get? d ax = some b → b.WF ∧
      (∀ x m, get? b.shape x = some m → get? o.shape x = some m) ∧
      (∀ x, x ∈ b.axes ↔ x ∉ A ∧ x ∈ f.outputs.axes ∧ (ax ∈ A ∨ x = ax)) ∧
      ∀ e, InRange b.shape e → b.at' e = (σ e ax : Int) ∧ ∀ n, get? f.outputs.shape ax = some n → σ e ax < n := by
    intro ax b hb
    have hax : ax ∈ f.outputs.axes := (d2 ax).1 (mem_keys_of_get? hb)
    by_cases hA' : ax ∈ A
    · obtain ⟨b', b1, b2, b3, b4, b5⟩ := d3 ax hA'
      rw [hb] at b1
      cases b1
      refine ⟨b2, fun x m h => by rw [o4, ← b4]; exact h, fun x => ?_, fun e he => ⟨?_, (hσ e).2 ax hA'⟩⟩
      · rw [b3]
        simp only [List.mem_filter, decide_eq_true_eq]
        constructor
        · rintro ⟨h1, h2⟩; exact ⟨h2, h1, Or.inl hA'⟩
        · rintro ⟨h1, h2, _⟩; exact ⟨h2, h1⟩
      · rw [b5 e he]
        show _ = ((slabEnv A _ e ax : Nat) : Int)
        rw [slabEnv, if_pos hA']
    · have hb' := d4 ax hax hA'
      rw [hb] at hb'
      cases hb'
      obtain ⟨n, hn⟩ := exists_get?_of_mem (d := f.outputs.shape) (by rw [SA.keys_shape hf.1.2]; exact hax)
      have hsz : f.outputs.sizeOf' ax = n := by simp [SA.sizeOf', hn]
      refine ⟨⟨rfl, by simp [arange]⟩, fun x m h => ?_, fun x => ?_, fun e he => ?_⟩
      · have : get? [(ax, f.outputs.sizeOf' ax)] x = some m := h
        rw [get?_cons, get?_nil] at this
        split at this
        · next hx =>
          have hx' : ax = x := hx
          subst hx'
          rw [o4, if_neg hA', hn, ← hsz]
          exact this
        · cases this
      · constructor
        · intro h
          have : x = ax := by simpa [arange] using h
          subst this
          exact ⟨hA', hax, Or.inr rfl⟩
        · rintro ⟨_, _, h | h⟩
          · exact absurd h hA'
          · simp [arange, h]
      · have hr : e ax < n := by
          have := he ax (f.outputs.sizeOf' ax) (by
            show get? [(ax, f.outputs.sizeOf' ax)] ax = _
            rw [get?_cons, if_pos rfl])
          omega
        rw [(hσ e).1 ax hA']
        refine ⟨rfl, fun m hm => ?_⟩
        rw [hn] at hm
        cases hm
        exact hr
  obtain ⟨i, i1, i2, i3, i4, i5⟩ := SA.pick_ok hf.1.1 hdw (T := o.shape) (fun ax e => σ e ax)
    (by
      intro ax b hax hb
      obtain ⟨k1, k2, _, k4⟩ := hkey ax b hb
      refine ⟨k1, k2, fun e he => ⟨(k4 e he).1, fun n hn => ?_⟩⟩
      obtain ⟨m, hm⟩ := exists_get?_of_mem (d := f.outputs.shape)
        (by rw [SA.keys_shape hf.1.2]; exact (d2 ax).1 (mem_keys_of_get? hb))
      rw [hf.2 ax n m hn hm]
      exact (k4 e he).2 m hm)
    (by
      intro ax _ hT
      obtain ⟨n, hn⟩ := exists_get?_of_mem hT
      rw [o4] at hn
      split at hn
      · cases hn
      · rw [d2, ← SA.keys_shape hf.1.2]; exact mem_keys_of_get? hn)
  have hget : f.getitem (asItem d) = .ok ⟨i, o⟩ := by
    rw [getitem_centers hf.fine (by unfold WF; rw [hk]; exact hdw) (fun ax _ => hf.not_vertex ax)]
    simp only [bind, Except.bind, i1, o1]
  have hsizes : ∀ x n, get? i.shape x = some n → (get? f.inputs.shape x = some n ∧ x ∉ keys d) ∨ get? o.shape x = some n := by
    intro x n hn
    rcases i4 x n hn with h | h
    · exact Or.inr h
    · exact Or.inl ⟨h.2, h.1⟩
  refine ⟨d, ⟨i, o⟩, σ, d1, hget, ⟨⟨i2, o2⟩, ?_⟩, o3, o4, ?_, ?_, ?_⟩
  · intro x m n hm hn
    rcases hsizes x m hm with ⟨h, h'⟩ | h
    · have hn' : get? o.shape x = some n := hn
      rw [o4] at hn'
      split at hn'
      · cases hn'
      · exact hf.2 x m n h hn'
    · have hn' : get? o.shape x = some n := hn
      rw [h] at hn'
      exact Option.some.inj hn'
  · intro x
    rw [i3 x]
    constructor
    · rintro (⟨h1, h2⟩ | ⟨ax, hax, b, hb, hx⟩)
      · exact ⟨fun h => h2 ((d2 x).2 (hAs h)), Or.inl h1⟩
      · obtain ⟨q1, q2, q3 | rfl⟩ := ((hkey ax b hb).2.2.1 x).1 hx
        · exact ⟨q1, Or.inr ⟨q2, ax, q3, hax⟩⟩
        · exact ⟨q1, Or.inl hax⟩
    · rintro ⟨h1, h2 | ⟨h2, ax, h3, h4⟩⟩
      · by_cases hx : x ∈ keys d
        · obtain ⟨b, hb⟩ := exists_get?_of_mem hx
          exact Or.inr ⟨x, h2, b, hb, ((hkey x b hb).2.2.1 x).2 ⟨h1, (d2 x).1 hx, Or.inr rfl⟩⟩
        · exact Or.inl ⟨h2, hx⟩
      · obtain ⟨b, hb⟩ := exists_get?_of_mem ((d2 ax).2 (hAs h3))
        exact Or.inr ⟨ax, h4, b, hb, ((hkey ax b hb).2.2.1 x).2 ⟨h1, h2, Or.inl h3⟩⟩
  · intro x n hn
    rcases hsizes x n hn with h | h
    · exact Or.inl h.1
    · rw [o4] at h
      split at h
      · cases h
      · exact Or.inr h
  · intro e he
    refine ⟨(hσ e).1, (hσ e).2, hsel e, o5 e he, ?_⟩
    rw [i5 e he]
    apply SA.at'_congr
    intro ax _
    by_cases hx : ax ∈ keys d
    · simp only [if_pos hx]
    · simp only [if_neg hx]
      exact ((hσ e).1 ax (fun h => hx ((d2 ax).2 (hAs h)))).symm

theorem slabList_of {a : SA β} {A : List String} {e e' : String → Nat} {k : Nat} (h : (slabEnvs A a.sizeOf' e)[k]? = some e') :
    (slabList a A e)[k]? = some (a.at' e') := by
  unfold slabList; rw [List.getElem?_map, h]; rfl

/-- **C105** `f[np.argmax(f, axis=A)]`: an input of `f` at which the output is the largest along `A`, together with this output. -/
theorem C105_argmax_partial [LinearOrder β] (f : FA α β) (hf : f.Pointwise) (A : List String) (hA : A.Nodup) (hAne : A ≠ [])
    (hAs : A ⊆ f.outputs.axes) (hcoll : ∀ ax ∈ f.outputs.axes, ax ∉ A → ax ≠ "*".intercalate A)
    (hne : ∀ ax, get? f.outputs.shape ax ≠ some 0) (dflt : β) :
    ∃ d r, f.argReduce (ND.argmin (fun x y => decide (y ≤ x))) (some A) = .ok d ∧ f.getitem (asItem d) = .ok r ∧ r.Pointwise ∧
      ∀ e, InRange r.outputs.shape e → ∃ e', (∀ ax, ax ∉ A → e' ax = e ax) ∧
        (∀ ax ∈ A, ∀ n, get? f.outputs.shape ax = some n → e' ax < n) ∧
        r.inputs.at' e = f.inputs.at' e' ∧ r.outputs.at' e = f.outputs.at' e' ∧
        ∀ e'', (∀ ax, ax ∉ A → e'' ax = e ax) → (∀ ax ∈ A, ∀ n, get? f.outputs.shape ax = some n → e'' ax < n) →
          f.outputs.at' e'' ≤ f.outputs.at' e' := by
  have hspec := SA.argmin_spec (α := β) max dflt (fun x y => decide (y ≤ x))
    (by simpa using fun x y z h1 h2 => le_trans h2 h1) (by simpa using fun x y h1 h2 => le_antisymm h2 h1)
    (by simp) (fun x y => max_choice x y) (by simp) (by simp)
  obtain ⟨d, r, σ, h1, h2, h3, _, _, _, _, h8⟩ := C105_arg_indexing_partial f hf A hA hAne hAs hcoll hne
    (ND.argmin (fun x y => decide (y ≤ x))) (fun l hl => (hspec l hl).1)
  refine ⟨d, r, h1, h2, h3, fun e he => ?_⟩
  obtain ⟨q1, q2, q3, q4, q5⟩ := h8 e he
  refine ⟨σ e, q1, q2, q5, q4, fun e'' g1 g2 => ?_⟩
  obtain ⟨w1, w2, _⟩ := (SA.C20_argmax dflt f.outputs hf.1.2 A hA hAne hAs hcoll hne).2 e
  have hm : e'' ∈ slabEnvs A f.outputs.sizeOf' e := by
    rw [mem_slabEnvs hA]
    refine ⟨fun ax hax => ?_, g1⟩
    obtain ⟨n, hn⟩ := exists_get?_of_mem (d := f.outputs.shape) (by rw [SA.keys_shape hf.1.2]; exact hAs hax)
    have := g2 ax hax n hn
    simpa [SA.sizeOf', hn] using this
  have := w2 (f.outputs.at' e'') (List.mem_map_of_mem hm)
  exact le_trans this (le_of_eq ((List.getElem_eq_iff w1).2 (slabList_of q3)))

/-- **C105** The same for `np.argmin` and the smallest output. -/
theorem C105_argmin_partial [LinearOrder β] (f : FA α β) (hf : f.Pointwise) (A : List String) (hA : A.Nodup) (hAne : A ≠ [])
    (hAs : A ⊆ f.outputs.axes) (hcoll : ∀ ax ∈ f.outputs.axes, ax ∉ A → ax ≠ "*".intercalate A)
    (hne : ∀ ax, get? f.outputs.shape ax ≠ some 0) (dflt : β) :
    ∃ d r, f.argReduce (ND.argmin (fun x y => decide (x ≤ y))) (some A) = .ok d ∧ f.getitem (asItem d) = .ok r ∧ r.Pointwise ∧
      ∀ e, InRange r.outputs.shape e → ∃ e', (∀ ax, ax ∉ A → e' ax = e ax) ∧
        (∀ ax ∈ A, ∀ n, get? f.outputs.shape ax = some n → e' ax < n) ∧
        r.inputs.at' e = f.inputs.at' e' ∧ r.outputs.at' e = f.outputs.at' e' ∧
        ∀ e'', (∀ ax, ax ∉ A → e'' ax = e ax) → (∀ ax ∈ A, ∀ n, get? f.outputs.shape ax = some n → e'' ax < n) →
          f.outputs.at' e' ≤ f.outputs.at' e'' := by
  have hspec := SA.argmin_spec (α := β) min dflt (fun x y => decide (x ≤ y))
    (by simpa using fun x y z => le_trans) (by simpa using fun x y => le_antisymm) (by simp)
    (fun x y => min_choice x y) (by simp) (by simp)
  obtain ⟨d, r, σ, h1, h2, h3, _, _, _, _, h8⟩ := C105_arg_indexing_partial f hf A hA hAne hAs hcoll hne
    (ND.argmin (fun x y => decide (x ≤ y))) (fun l hl => (hspec l hl).1)
  refine ⟨d, r, h1, h2, h3, fun e he => ?_⟩
  obtain ⟨q1, q2, q3, q4, q5⟩ := h8 e he
  refine ⟨σ e, q1, q2, q5, q4, fun e'' g1 g2 => ?_⟩
  obtain ⟨w1, w2, _⟩ := (SA.C20_argmin dflt f.outputs hf.1.2 A hA hAne hAs hcoll hne).2 e
  have hm : e'' ∈ slabEnvs A f.outputs.sizeOf' e := by
    rw [mem_slabEnvs hA]
    refine ⟨fun ax hax => ?_, g1⟩
    obtain ⟨n, hn⟩ := exists_get?_of_mem (d := f.outputs.shape) (by rw [SA.keys_shape hf.1.2]; exact hAs hax)
    have := g2 ax hax n hn
    simpa [SA.sizeOf', hn] using this
  have := w2 (f.outputs.at' e'') (List.mem_map_of_mem hm)
  exact le_trans (le_of_eq ((List.getElem_eq_iff w1).2 (slabList_of q3)).symm) this

/-- The loop fails at the first index array along an axis on vertices. -/
theorem fold_vertex (i o : Shape) (c : List String) (hc : axesCenterOf i o = .ok c) :
    ∀ (l : Dict IndexVal) (acc : Dict IndexVal × Dict IndexVal), (∃ p ∈ l, p.1 ∉ c ∧ ∃ b, p.2 = .arr b) →
      l.foldlM (itemStep i o) acc = .error .valueError := by
  intro l
  induction l with
  | nil => rintro _ ⟨p, hp, _⟩; cases hp
  | cons q l ih =>
    rintro acc ⟨p, hp, h1, b, h2⟩
    rw [List.foldlM_cons]
    cases hs : itemStep i o acc q with
    | error e =>
      show Except.error e = _
      unfold itemStep at hs
      simp only [hc, bind, Except.bind] at hs
      split at hs
      · cases hs
      · split at hs
        · cases hs
        · cases hs; rfl
    | ok acc' =>
      show List.foldlM (itemStep i o) acc' l = _
      apply ih
      rcases List.mem_cons.1 hp with rfl | hp
      · unfold itemStep at hs
        simp only [hc, bind, Except.bind, if_neg h1, h2, vertexItem] at hs
        cases hs
      · exact ⟨p, hp, h1, b, h2⟩

/-- **C105** (refuted for functions on vertices, such as histograms). If the inputs are on the vertices along an axis of the outputs, a function
cannot be indexed with the positions of its largest outputs: an index array along this axis raises `ValueError`. -/
theorem C105_vertex_refuted (f : FA α β) (hf : f.Fine) (ax : String) (hv : f.Vertex ax) (A : List String) (hA : A.Nodup) (hAne : A ≠ [])
    (hAs : A ⊆ f.outputs.axes) (hcoll : ∀ ax ∈ f.outputs.axes, ax ∉ A → ax ≠ "*".intercalate A)
    (hne : ∀ ax, get? f.outputs.shape ax ≠ some 0) (g : List β → Nat) (hg : ∀ l, l ≠ [] → g l < l.length) :
    ∃ d, f.argReduce g (some A) = .ok d ∧ f.getitem (asItem d) = .error .valueError := by
  obtain ⟨d, d1, d2, _⟩ := SA.C20_arg f.outputs hf.1.2 A hA hAne hAs hcoll hne g hg
  refine ⟨d, d1, ?_⟩
  obtain ⟨c, v, s, h1, _, _, h4, h5, h6, _⟩ := C52_axes f.inputs.shape f.outputs.shape (SA.wf_shape hf.1.1) (SA.wf_shape hf.1.2) hf.2
  obtain ⟨n, hn1, hn2⟩ := hv
  have hout : ax ∈ keys f.outputs.shape := mem_keys_of_get? hn2
  have hdk : ax ∈ keys d := by rw [d2, ← SA.keys_shape hf.1.2]; exact hout
  obtain ⟨b, hb⟩ := exists_get?_of_mem hdk
  unfold getitem
  rw [fold_vertex _ _ c h1]
  · rfl
  · refine ⟨(ax, .arr b), List.mem_filter.2 ⟨mem_of_get? (by rw [SA.get?_asItem, hb]; rfl), ?_⟩, ?_, b, rfl⟩
    · have : ax ∈ f.axes := (mem_axesOf (SA.wf_shape hf.1.2) ax).2 (Or.inr hout)
      simpa using this
    · intro hc
      exact (List.nodup_append.1 h4).2.2 ax hc ax ((h6 ax).2 ⟨n, hn1, hn2⟩) rfl

/-! ### Positions of the nonzero outputs -/

/-- **C105** (`np.nonzero`). `f[np.nonzero(f)]` has a single axis, along which it lists the inputs at which the output is nonzero, together
with these outputs: all of them, each once, in row-major order.
Missing for the full property: functions on vertices, and inputs with another axis of the new name (`C105_nonzero_name_refuted`). -/
theorem C105_nonzero_partial (f : FA α β) (hf : f.Pointwise) (hax : f.outputs.axes ≠ []) (p : β → Bool)
    (hname : "*".intercalate f.outputs.axes ∈ f.inputs.axes → "*".intercalate f.outputs.axes ∈ f.outputs.axes) :
    ∃ (d : Dict (SA Int)) (r : FA α β) (n : Nat) (sel : Nat → String → Nat), f.nonzero p = .ok d ∧ f.getitem (asItem d) = .ok r ∧
      r.Pointwise ∧ (∀ x, get? r.outputs.shape x = if x = "*".intercalate f.outputs.axes then some n else none) ∧
      (∀ x ∈ r.inputs.axes, x = "*".intercalate f.outputs.axes ∨ (x ∈ f.inputs.axes ∧ x ∉ f.outputs.axes)) ∧
      (∀ k < n, InRange f.outputs.shape (sel k) ∧ p (f.outputs.at' (sel k)) = true) ∧
      (∀ k k', k < k' → k' < n → List.Lex (· < ·) (f.outputs.axes.map (sel k)) (f.outputs.axes.map (sel k'))) ∧
      (∀ e, InRange f.outputs.shape e → p (f.outputs.at' e) = true → ∃ k < n, ∀ ax ∈ f.outputs.axes, sel k ax = e ax) ∧
      ∀ e, e ("*".intercalate f.outputs.axes) < n →
        r.outputs.at' e = f.outputs.at' (sel (e ("*".intercalate f.outputs.axes))) ∧
        r.inputs.at' e = f.inputs.at' (fun ax => if ax ∈ f.outputs.axes then sel (e ("*".intercalate f.outputs.axes)) ax else e ax) := by
  obtain ⟨d, n, sel, d1, d2, d3, d4, d5, d6⟩ := SA.C22_nonzero_partial f.outputs hf.1.2 hax p
  set name := "*".intercalate f.outputs.axes with hnm
  have hdw : WF d := by unfold WF; rw [d2]; exact hf.1.2.2
  have hT : ∀ x m, get? [(name, n)] x = some m ↔ x = name ∧ n = m := by
    intro x m
    rw [get?_cons, get?_nil]
    constructor
    · intro h
      split at h
      · next hx => exact ⟨hx.symm, Option.some.inj h⟩
      · cases h
    · rintro ⟨rfl, rfl⟩; rw [if_pos rfl]
  have hkey : ∀ ax b, get? d ax = some b → ax ∈ f.outputs.axes ∧ b.WF ∧ b.shape = [(name, n)] ∧
      ∀ e, InRange b.shape e → b.at' e = (sel (e name) ax : Int) ∧ ∀ m, get? f.outputs.shape ax = some m → sel (e name) ax < m := by
    intro ax b hb
    have hmem : ax ∈ f.outputs.axes := by rw [← d2]; exact mem_keys_of_get? hb
    obtain ⟨b', b1, b2, b3, b4⟩ := d3 ax hmem
    rw [hb] at b1
    cases b1
    refine ⟨hmem, b2, b3, fun e he => ?_⟩
    have hlt : e name < n := he name n (by rw [b3]; exact (hT name n).2 ⟨rfl, rfl⟩)
    exact ⟨b4 e hlt, fun m hm => (d4 _ hlt).1 ax m hm⟩
  have hpick : ∀ {γ : Type} (a : SA γ), a.WF → (∀ ax m, ax ∈ f.outputs.axes → get? a.shape ax = some m → get? f.outputs.shape ax = some m) →
      (name ∈ a.axes → name ∈ f.outputs.axes) → ∃ r, a.getitem (asItem d) = .ok r ∧ r.WF ∧
      (∀ x, x ∈ r.axes ↔ (x ∈ a.axes ∧ x ∉ keys d) ∨ ∃ ax ∈ a.axes, ∃ b, get? d ax = some b ∧ x ∈ b.axes) ∧
      (∀ x m, get? r.shape x = some m → get? [(name, n)] x = some m ∨ (x ∉ keys d ∧ get? a.shape x = some m)) ∧
      ∀ e, InRange [(name, n)] e → r.at' e = a.at' (fun ax => if ax ∈ keys d then sel (e name) ax else e ax) := by
    intro γ a ha h1 h2
    refine SA.pick_ok ha hdw (T := [(name, n)]) (fun ax e => sel (e name) ax) ?_ ?_
    · intro ax b hax' hb
      obtain ⟨k1, k2, k3, k4⟩ := hkey ax b hb
      exact ⟨k2, fun x m h => by rw [← k3]; exact h, fun e he => ⟨(k4 e he).1, fun m hm => (k4 e he).2 m (h1 ax m k1 hm)⟩⟩
    · intro ax hax' hk
      have : ax = name := by simpa [keys] using hk
      subst this
      rw [d2]
      exact h2 hax'
  obtain ⟨i, i1, i2, i3, i4, i5⟩ := hpick f.inputs hf.1.1 (fun ax m hax' hm => by
    obtain ⟨q, hq⟩ := exists_get?_of_mem (d := f.outputs.shape) (by rw [SA.keys_shape hf.1.2]; exact hax')
    rw [hf.2 ax m q hm hq]; exact hq) hname
  obtain ⟨o, o1, o2, o3, o4, o5⟩ := hpick f.outputs hf.1.2 (fun _ _ _ h => h) id
  have hget : f.getitem (asItem d) = .ok ⟨i, o⟩ := by
    rw [getitem_centers hf.fine (by unfold WF; rw [SA.keys_asItem]; exact hdw) (fun ax _ => hf.not_vertex ax)]
    simp only [bind, Except.bind, i1, o1]
  have hbax : ∀ ax b, get? d ax = some b → b.axes = [name] := by
    intro ax b hb
    obtain ⟨_, k2, k3, _⟩ := hkey ax b hb
    rw [← SA.keys_shape k2, k3]; rfl
  have hosh : ∀ x, get? o.shape x = if x = name then some n else none := by
    intro x
    have hmem : x ∈ o.axes ↔ x = name := by
      rw [o3 x]
      constructor
      · rintro (⟨h1, h2⟩ | ⟨ax, _, b, hb, hx⟩)
        · rw [d2] at h2; exact absurd h1 h2
        · rw [hbax ax b hb] at hx; simpa using hx
      · intro h
        right
        obtain ⟨ax, hm⟩ := List.exists_mem_of_ne_nil _ hax
        obtain ⟨b, hb⟩ := exists_get?_of_mem (d := d) (by rw [d2]; exact hm)
        exact ⟨ax, hm, b, hb, by rw [hbax ax b hb]; simp [h]⟩
    by_cases hx : x = name
    · rw [if_pos hx]
      obtain ⟨m, hm⟩ := exists_get?_of_mem (d := o.shape) (by rw [SA.keys_shape o2]; exact hmem.2 hx)
      rcases o4 x m hm with h | ⟨h1, h2⟩
      · rw [hm, ((hT x m).1 h).2]
      · exact absurd (by rw [d2, ← SA.keys_shape hf.1.2]; exact mem_keys_of_get? h2) h1
    · rw [if_neg hx, SA.get?_shape_none o2]
      exact fun h => hx (hmem.1 h)
  refine ⟨d, ⟨i, o⟩, n, sel, d1, hget, ⟨⟨i2, o2⟩, ?_⟩, hosh, ?_, d4, d5, d6, ?_⟩
  · intro x m q hm hq
    have hq' : get? o.shape x = some q := hq
    rw [hosh] at hq'
    split at hq'
    · next hx =>
      rcases i4 x m hm with h | ⟨h1, h2⟩
      · rw [← ((hT x m).1 h).2]; exact Option.some.inj hq'
      · exfalso
        apply h1
        rw [d2, hx]
        apply hname
        rw [← hx, ← SA.keys_shape hf.1.1]
        exact mem_keys_of_get? h2
    · cases hq'
  · intro x hx
    rcases (i3 x).1 hx with ⟨h1, h2⟩ | ⟨ax, _, b, hb, hx'⟩
    · exact Or.inr ⟨h1, by rw [← d2]; exact h2⟩
    · rw [hbax ax b hb] at hx'
      exact Or.inl (by simpa using hx')
  · intro e he
    have hr : InRange [(name, n)] e := by
      intro x m h
      obtain ⟨rfl, rfl⟩ := (hT x m).1 h
      exact he
    refine ⟨?_, ?_⟩
    · rw [o5 e hr]
      apply SA.at'_congr
      intro ax hm
      simp only [d2, if_pos hm]
    · rw [i5 e hr]
      simp only [d2]

/-! ### Comparing -/

/-- **C105** (`np.allclose`). If the inputs broadcast against each other and the outputs do, the result is true exactly when the inputs and the
outputs are close at every named index; otherwise `ValueError` is raised. -/
theorem C105_allclose (closeI : α → α → Bool) (closeO : β → β → Bool) (f g : FA α β) (hf : f.Valid) (hg : g.Valid) :
    (¬ Clash [f.inputs.shape, g.inputs.shape] → ¬ Clash [f.outputs.shape, g.outputs.shape] → ∃ c, f.allclose closeI closeO g = .ok c ∧
      (c = true ↔ SA.CloseByName closeI f.inputs g.inputs ∧ SA.CloseByName closeO f.outputs g.outputs)) ∧
    (Clash [f.inputs.shape, g.inputs.shape] ∨ Clash [f.outputs.shape, g.outputs.shape] →
      f.allclose closeI closeO g = .error .valueError) := by
  obtain ⟨i1, i2⟩ := SA.C86_allclose_scalars closeI f.inputs g.inputs hf.1 hg.1
  obtain ⟨o1, o2⟩ := SA.C86_allclose_scalars closeO f.outputs g.outputs hf.2 hg.2
  constructor
  · intro h1 h2
    obtain ⟨a, ha, ha'⟩ := i1 h1
    obtain ⟨b, hb, hb'⟩ := o1 h2
    refine ⟨a && b, by unfold allclose; simp only [ha, hb, bind, Except.bind], ?_⟩
    rw [Bool.and_eq_true, ha', hb']
  · intro h
    by_cases h1 : Clash [f.inputs.shape, g.inputs.shape]
    · unfold allclose; simp only [i2 h1, bind, Except.bind]
    · rcases h with h | h
      · exact absurd h h1
      · obtain ⟨a, ha, _⟩ := i1 h1
        unfold allclose; simp only [ha, o2 h, bind, Except.bind]

/-! ### Lengths and new axes -/

/-- **C105** (`f.length`). The inputs stay; the outputs become their absolute values (`abs`), or `ValueError` is raised if they are not numbers. -/
theorem C105_length (abs : β → β) (f : FA α β) (hf : f.Valid) :
    (∃ r, f.length true abs = .ok r ∧ r.Valid ∧ r.inputs = f.inputs ∧ r.outputs.shape = f.outputs.shape ∧
      ∀ e, r.outputs.at' e = abs (f.outputs.at' e)) ∧
    f.length false abs = .error .valueError := by
  refine ⟨⟨⟨f.inputs, ⟨f.outputs.axes, f.outputs.nd.map abs⟩⟩, ?_, ⟨hf.1, hf.2.1, hf.2.2⟩, rfl, rfl, fun e => rfl⟩, rfl⟩
  unfold length
  rw [if_pos rfl, SA.ufunc1_eq hf.2]
  rfl

/-- **C105** (`f.add_axes`). The inputs stay; the outputs have the new axes, of size one, and the same elements.  If the inputs do not have the
new axes, these are singleton axes of the function, and the other axes are what they were. -/
theorem C105_add_axes_partial (f : FA α β) (hf : f.Fine) (axes : List String) (hnew : ∀ ax ∈ axes, ax ∉ f.inputs.axes) :
    ∃ r s t, f.addAxes axes = .ok r ∧ r.Fine ∧ r.inputs = f.inputs ∧
      (∀ ax, get? r.outputs.shape ax = if ax ∈ f.outputs.axes then get? f.outputs.shape ax else if ax ∈ axes then some 1 else none) ∧
      (∀ e, r.outputs.at' e = f.outputs.at' e) ∧ f.shape = .ok s ∧ r.shape = .ok t ∧
      (∀ ax, r.Vertex ax ↔ f.Vertex ax) ∧
      ∀ ax, ax ∈ keys t ↔ ax ∈ keys s ∨ ax ∈ axes := by
  obtain ⟨o, h1, h2, h3, h4⟩ := SA.addAxes_ok f.outputs hf.1.2 axes
  have hcase : ∀ ax m, get? f.inputs.shape ax = some m → get? o.shape ax = get? f.outputs.shape ax := by
    intro ax m hm
    have hin : ax ∈ f.inputs.axes := by rw [← SA.keys_shape hf.1.1]; exact mem_keys_of_get? hm
    rw [h3]
    split
    · rfl
    · next hx =>
      rw [if_neg (fun h => hnew ax h hin), (SA.get?_shape_none hf.1.2).2 hx]
  have hfine : (⟨f.inputs, o⟩ : FA α β).Fine := by
    refine ⟨⟨hf.1.1, h2⟩, ?_⟩
    rintro ax ⟨m, n, g1, g2, g3⟩
    have g2' : get? o.shape ax = some n := g2
    rw [hcase ax m g1] at g2'
    exact hf.2 ax ⟨m, n, g1, g2', g3⟩
  obtain ⟨_, _, s, _, _, hs, _, _, _, _, ks, _⟩ := C52_axes f.inputs.shape f.outputs.shape (SA.wf_shape hf.1.1) (SA.wf_shape hf.1.2) hf.2
  obtain ⟨_, _, t, _, _, ht, _, _, _, _, kt, _⟩ := C52_axes f.inputs.shape o.shape (SA.wf_shape hf.1.1) (SA.wf_shape h2) hfine.2
  refine ⟨⟨f.inputs, o⟩, s, t, ?_, hfine, rfl, h3, h4, hs, ht, ?_, ?_⟩
  · unfold addAxes; simp only [h1, bind, Except.bind]
  · intro ax
    constructor
    · rintro ⟨n, g1, g2⟩
      have g2' : get? o.shape ax = some n := g2
      rw [hcase ax _ g1] at g2'
      exact ⟨n, g1, g2'⟩
    · rintro ⟨n, g1, g2⟩
      refine ⟨n, g1, ?_⟩
      show get? o.shape ax = some n
      rw [hcase ax _ g1]
      exact g2
  · intro ax
    have hko : ax ∈ keys o.shape ↔ ax ∈ keys f.outputs.shape ∨ ax ∈ axes := by
      rw [SA.keys_shape hf.1.2]
      constructor
      · intro h
        obtain ⟨n, hn⟩ := exists_get?_of_mem h
        rw [h3] at hn
        split at hn
        · next hx => exact Or.inl hx
        · split at hn
          · next hx => exact Or.inr hx
          · cases hn
      · intro h
        by_cases hx : ax ∈ f.outputs.axes
        · obtain ⟨n, hn⟩ := exists_get?_of_mem (d := f.outputs.shape) (by rw [SA.keys_shape hf.1.2]; exact hx)
          exact mem_keys_of_get? (v := n) (by rw [h3, if_pos hx]; exact hn)
        · exact mem_keys_of_get? (v := 1) (by rw [h3, if_neg hx, if_pos (h.resolve_left hx)])
    rw [kt, ks, hko, or_assoc]

/-! ### Cell centers -/

section centers
variable {K : Type} [Field K]

/-- **C105** (`f.cell_centers`). The inputs and the outputs are averaged separately, each over those of the axes which it has: both have one
element fewer along these axes, and each element is the mean of the surrounding ones. -/
theorem C105_cell_centers [NeZero (2 : K)] (f : FA K K) (hf : f.Valid) (axis : Option (List String)) :
    ∃ r, f.cellCenters axis = .ok r ∧ r.Valid ∧ CentersOf f.inputs.shape (centerAxes f.inputs axis) r.inputs.shape ∧
      CentersOf f.outputs.shape (centerAxes f.outputs axis) r.outputs.shape ∧
      (∀ e, InRange r.inputs.shape e → r.inputs.at' e =
        (∑ T ∈ (centerAxes f.inputs axis).powerset, f.inputs.at' (corner T e)) / 2 ^ (centerAxes f.inputs axis).card) ∧
      ∀ e, InRange r.outputs.shape e → r.outputs.at' e =
        (∑ T ∈ (centerAxes f.outputs axis).powerset, f.outputs.at' (corner T e)) / 2 ^ (centerAxes f.outputs axis).card := by
  obtain ⟨i, i1, i2, i3, i4⟩ := C32_cell_centers f.inputs hf.1 axis
  obtain ⟨o, o1, o2, o3, o4⟩ := C32_cell_centers f.outputs hf.2 axis
  exact ⟨⟨i, o⟩, by unfold cellCenters; simp only [i1, o1, bind, Except.bind], ⟨i2, o2⟩, i3, o3, i4, o4⟩

/-- **C105** (points on a line). If the inputs and the outputs have the same shape and the outputs are an affine function of the inputs, then the
centers are again points of the same line. -/
theorem C105_centers_affine [NeZero (2 : K)] (f : FA K K) (hf : f.Valid) (hsame : Same f.inputs.shape f.outputs.shape)
    (axis : Option (List String)) (slope offset : K)
    (hline : ∀ e, InRange f.inputs.shape e → f.outputs.at' e = slope * f.inputs.at' e + offset) (r : FA K K)
    (hr : f.cellCenters axis = .ok r) :
    Same r.inputs.shape r.outputs.shape ∧ ∀ e, InRange r.inputs.shape e → r.outputs.at' e = slope * r.inputs.at' e + offset := by
  obtain ⟨r', h1, h2, h3, h4, h5, h6⟩ := C105_cell_centers f hf axis
  rw [hr] at h1
  cases h1
  have hmem : ∀ x, x ∈ f.inputs.axes ↔ x ∈ f.outputs.axes := by
    intro x
    rw [← SA.keys_shape hf.1, ← SA.keys_shape hf.2, ← get?_isSome, ← get?_isSome, hsame x]
  have hc : centerAxes f.outputs axis = centerAxes f.inputs axis := by
    ext x
    cases axis with
    | none => simp [centerAxes, hmem x]
    | some l => simp [centerAxes, hmem x]
  have hs : Same r.inputs.shape r.outputs.shape := fun ax => by rw [h3 ax, h4 ax, hc, hsame ax]
  refine ⟨hs, fun e he => ?_⟩
  rw [h6 e (fun ax n hn => he ax n (by rw [hs ax]; exact hn)), h5 e he, hc]
  have h2' : (2 : K) ≠ 0 := NeZero.ne 2
  have hp : (2 : K) ^ (centerAxes f.inputs axis).card ≠ 0 := pow_ne_zero _ h2'
  have hsum : ∑ T ∈ (centerAxes f.inputs axis).powerset, f.outputs.at' (corner T e) =
      slope * ∑ T ∈ (centerAxes f.inputs axis).powerset, f.inputs.at' (corner T e) +
        2 ^ (centerAxes f.inputs axis).card * offset := by
    rw [Finset.mul_sum]
    have : (2 : K) ^ (centerAxes f.inputs axis).card * offset =
        ∑ _T ∈ (centerAxes f.inputs axis).powerset, offset := by
      rw [Finset.sum_const, Finset.card_powerset, nsmul_eq_mul]
      push_cast
      rfl
    rw [this, ← Finset.sum_add_distrib]
    apply Finset.sum_congr rfl
    intro T hT
    exact hline _ (corner_inRange h3 (Finset.mem_powerset.1 hT) he)
  rw [hsum, add_div, mul_div_assoc, mul_div_cancel_left₀ _ hp]

/-- **C105** (cells). A function on vertices stays a function on vertices, unless it has no cells. -/
theorem C105_centers_vertex [NeZero (2 : K)] (f : FA K K) (hf : f.Valid) (axis : Option (List String)) (r : FA K K)
    (hr : f.cellCenters axis = .ok r) (ax : String) (hv : f.Vertex ax) (hne : get? f.outputs.shape ax ≠ some 0) : r.Vertex ax := by
  obtain ⟨r', h1, h2, h3, h4, _⟩ := C105_cell_centers f hf axis
  rw [hr] at h1
  cases h1
  obtain ⟨n, hn1, hn2⟩ := hv
  have hi : ax ∈ f.inputs.axes := by rw [← SA.keys_shape hf.1]; exact mem_keys_of_get? hn1
  have ho : ax ∈ f.outputs.axes := by rw [← SA.keys_shape hf.2]; exact mem_keys_of_get? hn2
  have hiff : ax ∈ centerAxes f.inputs axis ↔ ax ∈ centerAxes f.outputs axis := by
    cases axis with
    | none => simp [centerAxes, hi, ho]
    | some l => simp [centerAxes, hi, ho]
  by_cases hc : ax ∈ centerAxes f.inputs axis
  · refine ⟨n - 1, ?_, ?_⟩
    · rw [h3 ax, if_pos hc, hn1]
      have : n ≠ 0 := fun h => hne (by rw [hn2, h])
      simp only [Option.map_some, Option.some.injEq]
      omega
    · rw [h4 ax, if_pos (hiff.1 hc), hn2]; rfl
  · exact ⟨n, by rw [h3 ax, if_neg hc, hn1], by rw [h4 ax, if_neg (fun h => hc (hiff.2 h)), hn2]⟩

end centers

/-! ### Products -/

section products
variable [MulZeroClass β] [DecidableEq β]

theorem not_allZero {a : SA β} (ha : a.WF) (h : ∃ e, InRange a.shape e ∧ a.at' e ≠ 0) : a.allZero = false := by
  rw [Bool.eq_false_iff]
  intro hz
  obtain ⟨e, he, hne⟩ := h
  unfold SA.allZero at hz
  rw [List.all_eq_true] at hz
  have hm : a.at' e ∈ a.nd.toList := by
    unfold ND.toList
    exact List.mem_map.2 ⟨a.axes.map e, ND.mem_ndIndices_iff.2 ((SA.inRange_nd ha).1 he), rfl⟩
  simpa using (hne (by simpa using hz _ hm))

/-- The product of two arrays of which none vanishes. -/
theorem matmul_nonzero {a b : SA β} (ha : a.WF) (hb : b.WF) (hna : ∃ e, InRange a.shape e ∧ a.at' e ≠ 0)
    (hnb : ∃ e, InRange b.shape e ∧ b.at' e ≠ 0) :
    (Clash [a.shape, b.shape] ∧ SA.matmul a b = .error .valueError) ∨
    ∃ o, SA.matmul a b = .ok o ∧ o.WF ∧ broadcastShapes [a.shape, b.shape] = .ok o.shape ∧ ∀ e, o.at' e = a.atB e * b.atB e := by
  unfold SA.matmul
  rw [not_allZero ha hna, not_allZero hb hnb]
  simp only [Bool.or_self, Bool.false_eq_true, if_false]
  cases h : SA.ufunc2 (· * ·) a b with
  | error e =>
    left
    have := SA.ufunc2_error ha hb h
    refine ⟨(C01_broadcast_shapes_error_iff _ (SA.wf_pair ha hb)).1 ⟨e, this⟩, ?_⟩
    rw [C01_broadcast_shapes_error_kind _ (SA.wf_pair ha hb) e this]
  | ok o => exact Or.inr ⟨o, rfl, SA.ufunc2_ok ha hb h⟩

/-- **C105** (`np.matmul` of two functions). If the inputs agree and none of the outputs vanishes identically, the result has the inputs of the
first function and the product of the outputs at each named index; outputs which do not broadcast raise `ValueError`.
Missing for the full property: vanishing outputs, for which it is false (`C105_matmul_zero_refuted`). -/
theorem C105_matmul_partial (ne : α → α → Bool) (f g : FA α β) (hf : f.Valid) (hg : g.Valid) (heq : Agree ne f.inputs g.inputs)
    (hnf : ∃ e, InRange f.outputs.shape e ∧ f.outputs.at' e ≠ 0) (hng : ∃ e, InRange g.outputs.shape e ∧ g.outputs.at' e ≠ 0) :
    (Clash [f.outputs.shape, g.outputs.shape] ∧ matmul ne (.func f) (.func g) = .error .valueError) ∨
    ∃ r, matmul ne (.func f) (.func g) = .ok (.func r) ∧ r.Valid ∧ r.inputs = f.inputs ∧
      broadcastShapes [f.outputs.shape, g.outputs.shape] = .ok r.outputs.shape ∧
      ∀ e, r.outputs.at' e = f.outputs.atB e * g.outputs.atB e := by
  have hd : differ ne f.inputs g.inputs = .ok false := by
    rcases differ_main ne f.inputs g.inputs hf.1 hg.1 with ⟨h, _⟩ | ⟨_, h, _⟩ | ⟨_, _, h⟩
    · obtain ⟨S, hS, _⟩ := heq
      exact absurd ((C01_broadcast_shapes_error_iff _ (SA.wf_pair hf.1 hg.1)).2 h) (by rw [hS]; rintro ⟨e, h⟩; cases h)
    · exact absurd heq h
    · exact h
  rcases matmul_nonzero hf.2 hg.2 hnf hng with ⟨h1, h2⟩ | ⟨o, h1, h2, h3, h4⟩
  · left
    refine ⟨h1, ?_⟩
    simp only [matmul, hd, bind, Except.bind, Bool.false_eq_true, if_false, h2]
  · right
    refine ⟨⟨f.inputs, o⟩, ?_, ⟨hf.1, h2⟩, rfl, h3, h4⟩
    simp only [matmul, hd, bind, Except.bind, Bool.false_eq_true, if_false, h1]

/-- **C105** (different inputs). If some corresponding inputs differ, `InputValueError` is raised; if the inputs do not even broadcast,
`ValueError`. -/
theorem C105_matmul_inputs (ne : α → α → Bool) (f g : FA α β) (hf : f.Valid) (hg : g.Valid) :
    (Differ ne f.inputs g.inputs → matmul ne (.func f) (.func g) = .error .inputValueError) ∧
    (Clash [f.inputs.shape, g.inputs.shape] → matmul ne (.func f) (.func g) = .error .valueError) := by
  have hex : ∀ S, broadcastShapes [f.inputs.shape, g.inputs.shape] = .ok S → ¬ Clash [f.inputs.shape, g.inputs.shape] := by
    intro S hS h
    obtain ⟨e, he⟩ := (C01_broadcast_shapes_error_iff _ (SA.wf_pair hf.1 hg.1)).2 h
    rw [hS] at he
    cases he
  rcases differ_main ne f.inputs g.inputs hf.1 hg.1 with ⟨h, h'⟩ | ⟨h, _, h'⟩ | ⟨h, h'', h'⟩
  · refine ⟨fun ⟨S, hS, _⟩ => absurd h (hex S hS), fun _ => ?_⟩
    simp only [matmul, h', bind, Except.bind]
  · refine ⟨fun _ => ?_, fun hc => ?_⟩
    · simp only [matmul, h', bind, Except.bind, if_true]
    · obtain ⟨S, hS, _⟩ := h
      exact absurd hc (hex S hS)
  · refine ⟨fun hd => absurd hd h'', fun hc => ?_⟩
    obtain ⟨S, hS, _⟩ := h
    exact absurd hc (hex S hS)

/-- **C105** (a function and an array). On either side of an array, none of them vanishing, the product has the inputs of the function and the
products with the elements of the array. -/
theorem C105_matmul_array_partial (ne : α → α → Bool) (f : FA α β) (hf : f.Valid) (a : SA β) (ha : a.WF)
    (hnf : ∃ e, InRange f.outputs.shape e ∧ f.outputs.at' e ≠ 0) (hna : ∃ e, InRange a.shape e ∧ a.at' e ≠ 0)
    (S : Shape) (hS : broadcastShapes [f.outputs.shape, a.shape] = .ok S) :
    ∃ r r', matmul ne (.func f) (.array a) = .ok (.func r) ∧ matmul ne (.array a) (.func f) = .ok (.func r') ∧ r.Valid ∧ r'.Valid ∧
      r.inputs = f.inputs ∧ r'.inputs = f.inputs ∧ Same r.outputs.shape S ∧ Same r'.outputs.shape S ∧
      ∀ e, r.outputs.at' e = f.outputs.atB e * a.atB e ∧ r'.outputs.at' e = a.atB e * f.outputs.atB e := by
  have hnc : ¬ Clash [f.outputs.shape, a.shape] := by
    intro h
    obtain ⟨e, he⟩ := (C01_broadcast_shapes_error_iff _ (SA.wf_pair hf.2 ha)).2 h
    rw [hS] at he
    cases he
  have hsw : ∀ x, HasSize [a.shape, f.outputs.shape] x = HasSize [f.outputs.shape, a.shape] x := by
    intro x; funext n; unfold HasSize; simp [or_comm]
  have hnc' : ¬ Clash [a.shape, f.outputs.shape] := by
    intro h
    apply hnc
    unfold Clash at h ⊢
    simpa only [hsw] using h
  rcases matmul_nonzero hf.2 ha hnf hna with ⟨h1, _⟩ | ⟨o, h1, h2, h3, h4⟩
  · exact absurd h1 hnc
  rcases matmul_nonzero ha hf.2 hna hnf with ⟨h1', _⟩ | ⟨o', h1', h2', h3', h4'⟩
  · exact absurd h1' hnc'
  have hu : SA.ufunc2 (· * ·) a f.outputs = .ok o' := by
    unfold SA.matmul at h1'
    rw [not_allZero hf.2 hnf, not_allZero ha hna] at h1'
    simpa using h1'
  refine ⟨⟨f.inputs, o⟩, ⟨f.inputs, o'⟩, ?_, ?_, ⟨hf.1, h2⟩, ⟨hf.1, h2'⟩, rfl, rfl, ?_, ?_, fun e => ⟨h4 e, h4' e⟩⟩
  · simp only [matmul, h1, bind, Except.bind]
  · simp only [matmul, not_allZero hf.2 hnf, not_allZero ha hna, hu, bind, Except.bind, Bool.or_self, Bool.false_eq_true, if_false]
  · rw [h3] at hS
    cases hS
    exact fun _ => rfl
  · intro x
    have j1 := (broadcastShapes_joinOf (SA.wf_pair hf.2 ha) hS).2 x
    have j2 := (broadcastShapes_joinOf (SA.wf_pair ha hf.2) h3').2 x
    refine joinOf_unique (fun n => ?_) j2 j1
    unfold sizesOf
    simp [or_comm]

/-- **C105** (refuted for vanishing outputs). If the outputs of one of the functions vanish, the outputs of the product are a single `0` without
axes, even if the outputs do not broadcast; with an array on the left the product is not a function at all. -/
theorem C105_matmul_zero_refuted (ne : α → α → Bool) (f g : FA α β) (a : SA β) (hf : f.Valid) (hg : g.Valid)
    (heq : Agree ne f.inputs g.inputs) (hz : ∀ e, InRange f.outputs.shape e → f.outputs.at' e = 0) :
    matmul ne (.func f) (.func g) = .ok (.func ⟨f.inputs, SA.scalar 0⟩) ∧
    matmul ne (.func f) (.array a) = .ok (.func ⟨f.inputs, SA.scalar 0⟩) ∧
    matmul ne (.array a) (.func f) = .ok (.value (SA.scalar 0)) := by
  have hd : differ ne f.inputs g.inputs = .ok false := by
    rcases differ_main ne f.inputs g.inputs hf.1 hg.1 with ⟨h, _⟩ | ⟨_, h, _⟩ | ⟨_, _, h⟩
    · obtain ⟨S, hS, _⟩ := heq
      exact absurd ((C01_broadcast_shapes_error_iff _ (SA.wf_pair hf.1 hg.1)).2 h) (by rw [hS]; rintro ⟨e, h⟩; cases h)
    · exact absurd heq h
    · exact h
  have hall : f.outputs.allZero = true := by
    unfold SA.allZero
    rw [List.all_eq_true]
    unfold ND.toList
    intro x hx
    obtain ⟨i, hi, rfl⟩ := List.mem_map.1 hx
    rw [ND.mem_ndIndices_iff, SA.shape_eq_map hf.2] at hi
    obtain ⟨e, rfl, he⟩ := SA.exists_env hf.2.2 hi
    have : InRange f.outputs.shape e := by
      rw [SA.inRange_nd hf.2, SA.shape_eq_map hf.2, SA.inRange_map]
      exact he
    exact decide_eq_true (hz e this)
  refine ⟨?_, ?_, ?_⟩
  · simp only [matmul, SA.matmul, hd, hall, bind, Except.bind, Bool.true_or, Bool.false_eq_true, if_false, if_true]
  · simp only [matmul, SA.matmul, hall, bind, Except.bind, Bool.true_or, if_true]
  · simp only [matmul, hall, Bool.or_true, if_true]

end products

/-! ### Examples -/

/-- A function on points: the inputs `0, 10, 20` and the outputs `5, 7, 6`. -/
def exPeak : FA Int Int := ⟨⟨["x"], ND.vec [0, 10, 20]⟩, ⟨["x"], ND.vec [5, 7, 6]⟩⟩

/-- A histogram: the vertices `0, 10, 20, 30` and the counts `5, 7, 6`. -/
def exBars : FA Int Int := ⟨⟨["x"], ND.vec [0, 10, 20, 30]⟩, ⟨["x"], ND.vec [5, 7, 6]⟩⟩

theorem exPeak_pointwise : exPeak.Pointwise := by
  refine ⟨⟨⟨rfl, by decide⟩, ⟨rfl, by decide⟩⟩, ?_⟩
  intro ax m n h1 h2
  have e1 : exPeak.inputs.shape = [("x", 3)] := rfl
  have e2 : exPeak.outputs.shape = [("x", 3)] := rfl
  rw [e1] at h1
  rw [e2, h1] at h2
  exact Option.some.inj h2

example : ∃ d r, exPeak.argReduce (ND.argmin (fun x y => decide (y ≤ x))) (some ["x"]) = .ok d ∧ exPeak.getitem (asItem d) = .ok r ∧
    r.Pointwise := by
  obtain ⟨d, r, h1, h2, h3, _⟩ := C105_argmax_partial exPeak exPeak_pointwise ["x"] (by decide) (by decide) (by decide)
    (by decide) (by
      intro ax h
      have e2 : exPeak.outputs.shape = [("x", 3)] := rfl
      rw [e2, get?_cons, get?_nil] at h
      split at h <;> simp at h) 0
  exact ⟨d, r, h1, h2, h3⟩

example : ((exPeak.argReduce (ND.argmin (fun x y => decide (y ≤ x))) (some ["x"])).toOption.bind
    (fun d => (exPeak.getitem (asItem d)).toOption)).map (fun r => (r.inputs.nd.toList, r.outputs.nd.toList)) = some ([10], [7]) := by
  decide +kernel

/-- The vertices: `ValueError`. -/
example : ((exBars.argReduce (ND.argmin (fun x y => decide (y ≤ x))) (some ["x"])).toOption.map
    (fun d => (exBars.getitem (asItem d)).toOption.isSome)) = some false := by decide +kernel

example : ((exPeak.nonzero (fun x => x != 7)).toOption.bind (fun d => (exPeak.getitem (asItem d)).toOption)).map
    (fun r => (r.inputs.nd.toList, r.outputs.nd.toList)) = some ([0, 20], [5, 6]) := by decide +kernel

/-- The assumptions of the theorems are met. -/
example : ∃ (d : Dict (SA Int)) (r : FA Int Int) (n : Nat), exPeak.nonzero (fun x => x != 7) = .ok d ∧ exPeak.getitem (asItem d) = .ok r ∧
    r.Pointwise ∧ ∀ x, get? r.outputs.shape x = if x = "x" then some n else none := by
  obtain ⟨d, r, n, _, h1, h2, h3, h4, _⟩ := C105_nonzero_partial exPeak exPeak_pointwise (by decide) (fun x => x != 7) (by decide)
  exact ⟨d, r, n, h1, h2, h3, h4⟩

theorem exPeak_nonzero : ∃ e, InRange exPeak.outputs.shape e ∧ exPeak.outputs.at' e ≠ 0 := by
  refine ⟨fun _ => 0, ?_, by decide +kernel⟩
  intro ax n h
  have e2 : exPeak.outputs.shape = [("x", 3)] := rfl
  rw [e2, get?_cons, get?_nil] at h
  split at h
  · cases h; exact Nat.succ_pos _
  · cases h

example : ∃ r : FA Int Int, matmul (· != ·) (.func exPeak) (.func exPeak) = .ok (.func r) ∧ r.inputs = exPeak.inputs := by
  have hag : Agree (· != ·) exPeak.inputs exPeak.inputs := ⟨[("x", 3)], rfl, fun e _ => by simp⟩
  rcases C105_matmul_partial (· != ·) exPeak exPeak exPeak_pointwise.1 exPeak_pointwise.1 hag exPeak_nonzero exPeak_nonzero with
    ⟨h, _⟩ | ⟨r, h1, _, h3, _⟩
  · obtain ⟨e, he⟩ := (C01_broadcast_shapes_error_iff _ (SA.wf_pair exPeak_pointwise.1.2 exPeak_pointwise.1.2)).2 h
    cases he
  · exact ⟨r, h1, h3⟩

example (r : FA Rat Rat)
    (hr : (⟨⟨["x"], ⟨[3], fun i => i.headD 0⟩⟩, ⟨["x"], ⟨[3], fun i => 2 * i.headD 0 + 1⟩⟩⟩ : FA Rat Rat).cellCenters none = .ok r) :
    ∀ e, InRange r.inputs.shape e → r.outputs.at' e = 2 * r.inputs.at' e + 1 :=
  (C105_centers_affine _ ⟨⟨rfl, by decide⟩, ⟨rfl, by decide⟩⟩ (fun _ => rfl) none 2 1 (fun _ _ => rfl) r hr).2

/-- **C105** (refuted). If the inputs have another axis with the new name, the positions of the nonzero outputs cannot be used. -/
theorem C105_nonzero_name_refuted :
    (((⟨⟨["x", "y", "x*y"], ⟨[1, 1, 2], fun _ => 0⟩⟩, ⟨["x", "y"], ⟨[1, 1], fun _ => 1⟩⟩⟩ : FA Int Int).nonzero (fun x => x != 0)).toOption.map
      (fun d => ((⟨⟨["x", "y", "x*y"], ⟨[1, 1, 2], fun _ => 0⟩⟩, ⟨["x", "y"], ⟨[1, 1], fun _ => 1⟩⟩⟩ : FA Int Int).getitem (asItem d)).toOption.isSome)) =
      some false := by decide +kernel

/-- **C105** (refuted). New axes which the inputs already have: with two inputs along the new axis, these become the vertices of a single cell, and
the function changes its shape from two elements to one. -/
theorem C105_add_axes_refuted :
    let f : FA Int Int := ⟨⟨["x"], ND.vec [0, 10]⟩, SA.scalar 3⟩
    f.shape.toOption = some [("x", 2)] ∧ ((f.addAxes ["x"]).toOption.bind (fun r => r.shape.toOption)) = some [("x", 1)] := by
  constructor <;> decide +kernel

/-- **C105** (refuted). Outputs which are broadcast along an axis: the centers are not a function any more, their shape raises `ValueError`. -/
theorem C105_centers_refuted :
    let f : FA Rat Rat := ⟨⟨["x"], ND.vec [0, 10, 20, 30]⟩, ⟨["x"], ND.vec [3]⟩⟩
    f.shape.toOption = some [("x", 4)] ∧ (f.cellCenters none).toOption.isSome ∧
      ((f.cellCenters none).toOption.bind (fun r => r.shape.toOption)) = none := by
  refine ⟨by decide +kernel, by decide +kernel, by decide +kernel⟩

example : ((⟨⟨["x"], ND.vec [0, 10, 20]⟩, ⟨["x"], ND.vec [1, 21, 41]⟩⟩ : FA Rat Rat).cellCenters none).toOption.map
    (fun r => (r.inputs.nd.toList, r.outputs.nd.toList)) = some ([5, 15], [11, 31]) := by decide +kernel

example : (exPeak.allclose (· == ·) (· == ·) exPeak).toOption = some true ∧
    (exPeak.allclose (· == ·) (· == ·) ⟨⟨["x"], ND.vec [0, 10, 21]⟩, exPeak.outputs⟩).toOption = some false ∧
    (exPeak.allclose (· == ·) (· == ·) ⟨exPeak.inputs, ⟨["x"], ND.vec [5, 7, 8]⟩⟩).toOption = some false := by
  refine ⟨by decide +kernel, by decide +kernel, by decide +kernel⟩

example : (exPeak.length true (fun x => |x|)).toOption.map (fun r => (r.inputs.nd.toList, r.outputs.nd.toList)) =
    some ([0, 10, 20], [5, 7, 6]) := by decide +kernel

example : (exBars.addAxes ["y"]).toOption.bind (fun r => r.shape.toOption) = some [("y", 1), ("x", 3)] := by decide +kernel

/-- The outputs of a product, and whether it is a function. -/
def Product.view : Product Int Int → Bool × List String × List Int
  | .value a => (false, a.axes, a.nd.toList)
  | .func f => (true, f.outputs.axes, f.outputs.nd.toList)

example : (matmul (· != ·) (.func exPeak) (.func exPeak)).toOption.map Product.view = some (true, ["x"], [25, 49, 36]) ∧
    (matmul (· != ·) (.num 2) (.func exPeak)).toOption.map Product.view = some (true, ["x"], [10, 14, 12]) ∧
    (matmul (· != ·) (.array ⟨["x"], ND.vec [0, 0, 0]⟩) (.func exPeak)).toOption.map Product.view = some (false, [], [0]) ∧
    (matmul (· != ·) (.func exPeak) (.array ⟨["x"], ND.vec [0, 0, 0]⟩)).toOption.map Product.view = some (true, [], [0]) ∧
    (matmul (· != ·) (.func exPeak) (.func ⟨⟨["x"], ND.vec [0, 10, 21]⟩, exPeak.outputs⟩)).toOption.map Product.view = none := by
  refine ⟨by decide +kernel, by decide +kernel, by decide +kernel, by decide +kernel, by decide +kernel⟩

end FA
end NA
