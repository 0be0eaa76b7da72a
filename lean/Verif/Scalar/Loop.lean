import Verif.Props.Indexing

/-!
# Loops over the indices of the other axes

Several functions of `/repo/named_arrays/_scalars/scalar_named_array_functions.py` apply a numpy function to one slice of
an array after the other: `for i in na.ndindex(shape_orthogonal): result[i] = f(a[i])`.
-/

namespace NA
open Dict

/-- `{ax: i for ax, i in index.items()}` as an item of integers. -/
def ints (index : Dict Nat) : Dict IndexVal := index.map (fun p => (p.1, .int (p.2 : Int)))

/-- `for i in na.ndindex(shape): result[i] = body(i)`.
Models `/repo/named_arrays/_scalars/scalar_named_array_functions.py` lines 538-551, with the body of the loop as a
parameter. -/
def forEach {β : Type} (shape : Shape) (body : Dict IndexVal → R (SA β)) (result : SA β) : R (SA β) :=
  (ndindex shape []).foldlM (fun h i => do
    let v ← body (ints i)
    h.setitem (ints i) v) result

/-- the item of integers which fixes the axes `O` at the named index `e` -/
def itemAt (O : List String) (e : String → Nat) : Dict IndexVal := O.map (fun ax => (ax, .int (e ax : Int)))

theorem get?_map_axes {β : Type} (l : List String) (g : String → β) (x : String) :
    get? (l.map (fun ax => (ax, g ax))) x = if x ∈ l then some (g x) else none := by
  induction l with
  | nil => simp [get?_nil]
  | cons o l ih =>
    rw [List.map_cons, get?_cons, ih]
    by_cases h : o = x
    · subst h; simp
    · simp [h, Ne.symm h]

theorem get?_itemAt {O : List String} (e : String → Nat) (x : String) :
    get? (itemAt O e) x = if x ∈ O then some (.int (e x : Int)) else none := by
  unfold itemAt
  induction O with
  | nil => simp [get?_nil]
  | cons o O ih =>
    rw [List.map_cons, get?_cons, ih]
    by_cases h : o = x
    · subst h; simp
    · simp [h, Ne.symm h]

theorem keys_itemAt (O : List String) (e : String → Nat) : keys (itemAt O e) = O := by
  simp [itemAt, keys, Function.comp_def]

theorem itemAt_congr {O : List String} {e e' : String → Nat} (h : ∀ ax ∈ O, e ax = e' ax) : itemAt O e = itemAt O e' :=
  List.map_congr_left fun ax hax => by rw [h ax hax]

namespace SA
variable {α β : Type}

theorem itemAt_basic {O : List String} (hO : O.Nodup) (e : String → Nat) : BasicItem (itemAt O e) := by
  refine ⟨by unfold Dict.WF; rw [keys_itemAt]; exact hO, fun ax b h => ?_⟩
  rw [get?_itemAt] at h
  split at h
  · injection h with h; cases h
  · cases h

theorem itemAt_steps {O : List String} (s : Shape) (e : String → Nat) : StepsOk s (itemAt O e) := by
  intro ax _ sl h
  rw [get?_itemAt] at h
  split at h
  · injection h with h; cases h
  · cases h

theorem itemAt_valid {O : List String} {s : Shape} {e : String → Nat}
    (h : ∀ ax ∈ O, ∀ n, get? s ax = some n → e ax < n) : ValidItem s (itemAt O e) := by
  intro ax n hn
  rw [get?_itemAt]
  refine ⟨fun i hi => ?_, fun b hb => ?_⟩
  · split at hi
    · next hm =>
      injection hi with hi
      injection hi with hi
      subst hi
      have := h ax hm n hn
      unfold ND.ValidIndex
      omega
    · cases hi
  · split at hb
    · injection hb with hb; cases hb
    · cases hb

theorem selIdx_itemAt {O : List String} {s : Shape} {e : String → Nat}
    (f : String → Nat) {x : String} :
    selIdx s (itemAt O e) f x = if x ∈ O then e x else f x := by
  unfold selIdx
  rw [get?_itemAt]
  by_cases h : x ∈ O
  · rw [if_pos h, if_pos h]
    show ND.pyIndex _ _ = _
    unfold ND.pyIndex
    split <;> omega
  · rw [if_neg h, if_neg h]

theorem intAt_itemAt {O : List String} (e : String → Nat) (x : String) : IntAt (itemAt O e) x ↔ x ∈ O := by
  unfold IntAt
  rw [get?_itemAt]
  by_cases h : x ∈ O <;> simp [h]

theorem sublist_eq_filter {l l' : List String} (h : l.Sublist l') (hn : l'.Nodup) (p : String → Prop) [DecidablePred p]
    (hm : ∀ x, x ∈ l ↔ x ∈ l' ∧ p x) : l = l'.filter p := by
  have h1 : l.filter p = l := List.filter_eq_self.2 fun x hx => by simpa using ((hm x).1 hx).2
  have h2 : (l.filter p).Sublist (l'.filter p) := h.filter _
  rw [h1] at h2
  refine h2.eq_of_length_le ?_
  refine List.Subperm.length_le (List.subperm_of_subset (hn.filter _) fun x hx => ?_)
  rw [List.mem_filter] at hx
  exact (hm x).2 ⟨hx.1, by simpa using hx.2⟩

/-- One slice of an array. -/
theorem getitem_itemAt (b : SA α) (hb : b.WF) {O : List String} (hO : O.Nodup) {e : String → Nat}
    (h : ∀ ax ∈ O, ∀ n, get? b.shape ax = some n → e ax < n) :
    ∃ r, b.getitem (itemAt O e) = .ok r ∧ r.WF ∧ r.axes = b.axes.filter (· ∉ O) ∧
      (∀ x, get? r.shape x = if x ∈ O then none else get? b.shape x) ∧
      ∀ f, r.at' f = b.at' (fun x => if x ∈ O then e x else f x) := by
  obtain ⟨r, r1, r2, r3, r4, r5, r6⟩ := C13_getitem_basic b hb _ (itemAt_basic hO e) (itemAt_steps _ e) (itemAt_valid h)
  have hax : r.axes = b.axes.filter (· ∉ O) := sublist_eq_filter r4 hb.2 _ fun x => by
    rw [r3, intAt_itemAt]
  refine ⟨r, r1, r2, hax, fun x => ?_, fun f => ?_⟩
  · by_cases hx : x ∈ O
    · rw [if_pos hx, get?_eq_none, keys_shape r2, hax]
      simp [hx]
    · rw [if_neg hx]
      by_cases hk : x ∈ b.axes
      · rw [r5 x (by rw [hax]; simp [hx, hk])]
        unfold selLen
        rw [get?_itemAt, if_neg hx]
        obtain ⟨n, hn⟩ := exists_get?_of_mem (d := b.shape) (by rw [keys_shape hb]; exact hk)
        simp [hn]
      · rw [get?_eq_none.2 (by rw [keys_shape r2, hax]; simp [hk]), get?_eq_none.2 (by rw [keys_shape hb]; exact hk)]
  · rw [r6]
    exact at'_congr fun x _ => selIdx_itemAt f

/-- Assignment of one slice of an array. -/
theorem setitem_itemAt (b : SA α) (hb : b.WF) {O : List String} (hO : O.Nodup) (hs : O ⊆ b.axes) {e : String → Nat}
    (h : ∀ ax ∈ O, ∀ n, get? b.shape ax = some n → e ax < n) (v : SA α) (hv : v.WF)
    (hfit : ∀ x m, get? v.shape x = some m → x ∉ O ∧ ∃ n, get? b.shape x = some n ∧ (m = n ∨ m = 1)) :
    ∃ r, b.setitem (itemAt O e) v = .ok r ∧ r.WF ∧ r.axes = b.axes ∧ r.shape = b.shape ∧
      ∀ f, InRange b.shape f → r.at' f = if ∀ ax ∈ O, f ax = e ax then v.atB f else b.at' f := by
  have hadd : ∀ x n, get? (addressed b (itemAt O e) []) x = some n ↔ x ∉ O ∧ get? b.shape x = some n := by
    intro x n
    unfold addressed selShape
    simp only [List.nil_append]
    rw [get?_map_axes]
    have hmem : x ∈ basicAxes b.axes (itemAt O e) ↔ x ∈ b.axes ∧ x ∉ O := by
      have hk : advAxes (itemAt O e) = O := by
        unfold advAxes advItem
        unfold itemAt
        clear hO hs h hfit
        induction O with
        | nil => rfl
        | cons o O ih =>
          exact congrArg (o :: ·) ih
      unfold basicAxes
      rw [hk, List.mem_filter]
      simp
    by_cases hx : x ∈ basicAxes b.axes (itemAt O e)
    · rw [if_pos hx]
      obtain ⟨h1, h2⟩ := hmem.1 hx
      obtain ⟨k, hk⟩ := exists_get?_of_mem (d := b.shape) (by rw [keys_shape hb]; exact h1)
      unfold selLen
      rw [get?_itemAt, if_neg h2, hk]
      simp [h2]
    · rw [if_neg hx]
      constructor
      · intro h; cases h
      · rintro ⟨h1, h2⟩
        exact absurd (hmem.2 ⟨by rw [← keys_shape hb]; exact mem_keys_of_get? h2, h1⟩) hx
  obtain ⟨r, r1, r2, r3, r4, r5, r6⟩ := C16_setitem_basic b v hb hv (itemAt O e) (itemAt_basic hO e)
    (by
      intro w hw
      unfold itemAt values at hw
      simp only [List.map_map, List.mem_map, Function.comp_apply] at hw
      obtain ⟨ax, _, rfl⟩ := hw
      rfl)
    (by rw [keys_itemAt]; exact hs) (itemAt_steps _ e) (itemAt_valid h)
    (by
      intro x m hm
      obtain ⟨h1, n, h2, h3⟩ := hfit x m hm
      exact ⟨n, (hadd x n).2 ⟨h1, h2⟩, h3⟩)
  refine ⟨r, r1, r2, r3, r4, fun f hf => ?_⟩
  have hf' : InRange (addressed b (itemAt O e) []) f := fun x n hn => hf x n ((hadd x n).1 hn).2
  by_cases hc : ∀ ax ∈ O, f ax = e ax
  · rw [if_pos hc, ← r6 f hf']
    apply at'_congr
    intro x _
    rw [selIdx_itemAt]
    split
    · next hx => exact hc x hx
    · rfl
  · rw [if_neg hc]
    refine r5 f ?_
    rintro ⟨g, hg, hgf⟩
    refine hc fun ax hax => ?_
    have := hgf ax (hs hax)
    rw [selIdx_itemAt, if_pos hax] at this
    exact this.symm

/-- The indices over which the loop runs, as named indices. -/
theorem ndindex_envs {O : Shape} (hO : Dict.WF O) : ∃ E : List (String → Nat),
    (ndindex O []).map ints = E.map (itemAt (keys O)) ∧ (∀ e ∈ E, InRange O e) ∧
      ∀ e, InRange O e → ∃ e' ∈ E, ∀ ax ∈ keys O, e' ax = e ax := by
  have hv : values O = (keys O).map (fun ax => (get? O ax).getD 0) := by
    unfold values keys
    rw [List.map_map]
    apply List.map_congr_left
    rintro ⟨k, n⟩ hp
    simp [get?_of_mem hO hp]
  refine ⟨(ndIndices (values O)).map (envOf (keys O)), ?_, ?_, ?_⟩
  · unfold ndindex
    simp only [List.foldl_nil, List.map_map]
    apply List.map_congr_left
    intro i hi
    have hl : i.length = (keys O).length := by
      have := ND.inRange_length (ND.mem_ndIndices_iff.1 hi)
      rw [this]; simp [values, keys]
    simp only [Function.comp_apply]
    conv_lhs => rw [← map_envOf hO hl]
    unfold ints itemAt
    generalize envOf (keys O) i = e
    generalize keys O = K
    induction K with
    | nil => rfl
    | cons k K ih => simp only [List.map_cons, List.zip_cons_cons, ih]
  · intro e he
    obtain ⟨i, hi, rfl⟩ := List.mem_map.1 he
    intro ax n hn
    have hir := ND.mem_ndIndices_iff.1 hi
    have hl : i.length = (keys O).length := by
      have := ND.inRange_length hir
      rw [this]; simp [values, keys]
    rw [← map_envOf hO hl, hv, SA.inRange_map] at hir
    have := hir ax (mem_keys_of_get? hn)
    rw [hn] at this
    exact this
  · intro e he
    refine ⟨envOf (keys O) ((keys O).map e), List.mem_map_of_mem ?_, ?_⟩
    · rw [ND.mem_ndIndices_iff, hv, SA.inRange_map]
      intro ax hax
      obtain ⟨n, hn⟩ := exists_get?_of_mem hax
      rw [hn]
      exact he ax n hn
    · have := map_envOf hO (idx := (keys O).map e) (by simp)
      rw [List.map_inj_left] at this
      exact this

/-- The loop writes to each slice the result of the body. -/
theorem forEach_ok (O : Shape) (hO : Dict.WF O) (body : Dict IndexVal → R (SA β)) (h0 : SA β) (hw : h0.WF)
    (hs : ∀ ax n, get? O ax = some n → get? h0.shape ax = some n)
    (hb : ∀ e, InRange O e → ∃ v, body (itemAt (keys O) e) = .ok v ∧ v.WF ∧
      ∀ x m, get? v.shape x = some m → x ∉ keys O ∧ ∃ n, get? h0.shape x = some n ∧ (m = n ∨ m = 1)) :
    ∃ r, forEach O body h0 = .ok r ∧ r.WF ∧ r.axes = h0.axes ∧ r.shape = h0.shape ∧
      ∀ f, InRange h0.shape f → ∀ v, body (itemAt (keys O) f) = .ok v → r.at' f = v.atB f := by
  obtain ⟨E, h1, h2, h3⟩ := ndindex_envs hO
  have hsub : keys O ⊆ h0.axes := by
    intro ax hax
    obtain ⟨n, hn⟩ := exists_get?_of_mem hax
    rw [← keys_shape hw]
    exact mem_keys_of_get? (hs ax n hn)
  have hfold : forEach O body h0 =
      E.foldlM (fun h e => do let v ← body (itemAt (keys O) e); h.setitem (itemAt (keys O) e) v) h0 := by
    unfold forEach
    have : ∀ (L : List (Dict Nat)) (E : List (String → Nat)), L.map ints = E.map (itemAt (keys O)) → ∀ h : SA β,
        L.foldlM (fun h i => do let v ← body (ints i); h.setitem (ints i) v) h =
        E.foldlM (fun h e => do let v ← body (itemAt (keys O) e); h.setitem (itemAt (keys O) e) v) h := by
      intro L
      induction L with
      | nil => intro E hE h; cases E with
        | nil => rfl
        | cons e E => simp at hE
      | cons i L ih => intro E hE h; cases E with
        | nil => simp at hE
        | cons e E =>
          simp only [List.map_cons, List.cons.injEq] at hE
          rw [List.foldlM_cons, List.foldlM_cons, hE.1]
          congr 1
          funext h'
          exact ih E hE.2 h'
    exact this _ _ h1 h0
  have main : ∀ (E : List (String → Nat)), (∀ e ∈ E, InRange O e) → ∀ h : SA β, h.WF → h.axes = h0.axes → h.shape = h0.shape →
      ∃ r, E.foldlM (fun h e => do let v ← body (itemAt (keys O) e); h.setitem (itemAt (keys O) e) v) h = .ok r ∧ r.WF ∧
        r.axes = h0.axes ∧ r.shape = h0.shape ∧
        ∀ f, InRange h0.shape f → ((∃ e ∈ E, ∀ ax ∈ keys O, e ax = f ax) →
          ∀ v, body (itemAt (keys O) f) = .ok v → r.at' f = v.atB f) ∧
          ((¬ ∃ e ∈ E, ∀ ax ∈ keys O, e ax = f ax) → r.at' f = h.at' f) := by
    intro E
    induction E with
    | nil =>
      intro _ h hhw hha hhs
      exact ⟨h, rfl, hhw, hha, hhs, fun f hf => ⟨fun ⟨e, he, _⟩ => by simp at he, fun _ => rfl⟩⟩
    | cons e E ih =>
      intro hE h hhw hha hhs
      obtain ⟨v, v1, v2, v3⟩ := hb e (hE e (by simp))
      obtain ⟨g, g1, g2, g3, g4, g5⟩ := setitem_itemAt h hhw hO (by rw [hha]; exact hsub) (e := e)
        (by
          intro ax hax n hn
          obtain ⟨m, hm⟩ := exists_get?_of_mem hax
          have := hs ax m hm
          rw [hhs, this] at hn
          injection hn with hn
          rw [← hn]
          exact hE e (by simp) ax m hm) v v2 (by rw [hhs]; exact v3)
      obtain ⟨r, r1, r2, r3, r4, r5⟩ := ih (fun e he => hE e (by simp [he])) g g2 (by rw [g3, hha]) (by rw [g4, hhs])
      refine ⟨r, ?_, r2, r3, r4, fun f hf => ?_⟩
      · rw [List.foldlM_cons]
        simp only [bind, Except.bind, v1, g1]
        exact r1
      · by_cases hc : ∃ e ∈ E, ∀ ax ∈ keys O, e ax = f ax
        · refine ⟨fun _ => (r5 f hf).1 hc, fun hn => ?_⟩
          obtain ⟨e', he', hh⟩ := hc
          exact absurd ⟨e', by simp [he'], hh⟩ hn
        · have hr := (r5 f hf).2 hc
          have hg := g5 f (by rw [hhs]; exact hf)
          by_cases hd : ∀ ax ∈ keys O, e ax = f ax
          · refine ⟨fun _ w hw => ?_, fun hn => absurd ⟨e, by simp, hd⟩ hn⟩
            rw [hr, hg, if_pos (fun ax hax => (hd ax hax).symm)]
            rw [← itemAt_congr hd, v1] at hw
            injection hw with hw
            rw [hw]
          · refine ⟨fun ⟨e', he', hh⟩ => ?_, fun _ => ?_⟩
            · rw [List.mem_cons] at he'
              rcases he' with rfl | he'
              · exact absurd hh hd
              · exact absurd ⟨e', he', hh⟩ hc
            · rw [hr, hg, if_neg (fun h => hd fun ax hax => (h ax hax).symm)]
  obtain ⟨r, r1, r2, r3, r4, r5⟩ := main E h2 h0 hw rfl rfl
  refine ⟨r, by rw [hfold]; exact r1, r2, r3, r4, fun f hf v hv => (r5 f hf).1 (h3 f fun ax n hn => ?_) v hv⟩
  exact hf ax n (hs ax n hn)

/-- If the body raises for one of the indices, the loop raises. -/
theorem forEach_error (O : Shape) (hO : Dict.WF O) (body : Dict IndexVal → R (SA β)) (h0 : SA β) (e : String → Nat)
    (he : InRange O e) (err : Err) (hb : body (itemAt (keys O) e) = .error err) : ∃ err', forEach O body h0 = .error err' := by
  obtain ⟨E, h1, h2, h3⟩ := ndindex_envs hO
  obtain ⟨e', he', hag⟩ := h3 e he
  rw [← itemAt_congr hag] at hb
  have hm : itemAt (keys O) e' ∈ (ndindex O []).map ints := by rw [h1]; exact List.mem_map_of_mem he'
  obtain ⟨i, hi, hie⟩ := List.mem_map.1 hm
  rw [← hie] at hb
  unfold forEach
  generalize ndindex O [] = L at hi
  clear h1 hm
  induction L generalizing h0 with
  | nil => simp at hi
  | cons j L ih =>
    rw [List.foldlM_cons]
    rw [List.mem_cons] at hi
    rcases hi with rfl | hi
    · simp [bind, Except.bind, hb]
    · simp only [bind, Except.bind]
      split
      · exact ⟨_, rfl⟩
      · exact ih _ hi

end SA
end NA
