import Verif.Scalar.IndexLemmas

/-!
# Specification of named indexing and the main lemma about `organize` and `selection`
-/

namespace NA
open Dict

/-- number of positions selected by a slice along a dimension of size `n` -/
def sliceLen (n : Nat) (s : Slice) : Nat :=
  match s.resolve n with
  | .ok r => r.len
  | .error _ => 0

/-- the `k`-th position selected by a slice along a dimension of size `n` -/
def slicePos (n : Nat) (s : Slice) (k : Nat) : Nat :=
  match s.resolve n with
  | .ok r => r.pos k
  | .error _ => 0

namespace SA
variable {α : Type}

/-- Specification: the named index of the array (of shape `s`) which is read at the named index `e`
of the result of indexing by `item`. -/
def selIdx (s : Shape) (item : Dict IndexVal) (e : String → Nat) : String → Nat := fun ax =>
  match get? item ax with
  | some (.int i) => ND.pyIndex ((get? s ax).getD 0) i
  | some (.arr b) => ND.pyIndex ((get? s ax).getD 0) (b.atB e)
  | some (.slice sl) => slicePos ((get? s ax).getD 0) sl (e ax)
  | _ => e ax

/-- Specification: size of a remaining axis after indexing. -/
def selLen (s : Shape) (item : Dict IndexVal) (ax : String) : Nat :=
  match get? item ax with
  | some (.slice sl) => sliceLen ((get? s ax).getD 0) sl
  | _ => (get? s ax).getD 0

/-- Specification: all integers of the item are in range of the axis which they index. -/
def ValidItem (s : Shape) (item : Dict IndexVal) : Prop :=
  ∀ ax n, get? s ax = some n →
    (∀ i, get? item ax = some (.int i) → ND.ValidIndex n i) ∧
    (∀ b, get? item ax = some (.arr b) → ∀ e, InRange b.shape e → ND.ValidIndex n (b.at' e))

/-- Specification: no slice (along an axis of the array) has step zero. -/
def StepsOk (s : Shape) (item : Dict IndexVal) : Prop :=
  ∀ ax ∈ keys s, ∀ sl, get? item ax = some (.slice sl) → sl.step ≠ some 0

/-- The axes which are dropped by the item: indexed by an integer or an index array. -/
def advAxes (item : Dict IndexVal) : List String := keys (advItem item)

/-- The axes which remain. -/
def basicAxes (axes : List String) (item : Dict IndexVal) : List String :=
  axes.filter (· ∉ advAxes item)

theorem mapM_map_ok {δ ε : Type} {f : δ → R ε} {g : δ → ε} {l : List δ}
    (h : ∀ x ∈ l, f x = .ok (g x)) : l.mapM f = .ok (l.map g) := by
  induction l with
  | nil => rfl
  | cons x l ih =>
    rw [List.mapM_cons, h x (by simp), ih (fun y hy => h y (by simp [hy]))]
    rfl

theorem mapM_error {δ ε : Type} {f : δ → R ε} {l : List δ} {e : Err}
    (h : ∀ x ∈ l, ∀ e', f x = .error e' → e' = e) {x : δ} (hx : x ∈ l) (hfx : f x = .error e) :
    l.mapM f = .error e := by
  induction l with
  | nil => cases hx
  | cons y l ih =>
    rw [List.mapM_cons]
    cases hy : f y with
    | error e' => rw [h y (by simp) e' hy]; rfl
    | ok z =>
      rcases List.mem_cons.1 hx with rfl | hx
      · rw [hfx] at hy; cases hy
      · rw [ih (fun y hy => h y (by simp [hy])) hx]; rfl

theorem organize_eq {axes : List String} {item : Dict IndexVal} (h : ItemWF item) {S : Shape}
    (hS : broadcastShapes (arrayShapes item) = .ok S) :
    ∃ adv, (advItem item).values.mapM (IndexVal.toAdv (keys S)) = .ok adv ∧
      organize axes item = .ok (advAxes item, S, basicAxes axes item, adv,
        (basicAxes axes item).map (fun ax => IndexVal.toSlice (get? item ax))) := by
  obtain ⟨adv, hadv⟩ := toAdv_isOk h hS
  refine ⟨adv, hadv, ?_⟩
  have hb := broadcast_advShapes h
  rw [hS] at hb
  unfold organize
  change (do
    let shapeAdvanced ← broadcastShapes ((advItem item).values.map IndexVal.shape)
    let adv ← (advItem item).values.mapM (IndexVal.toAdv (keys shapeAdvanced))
    Except.ok (keys (advItem item), shapeAdvanced, axes.filter (· ∉ keys (advItem item)), adv, 
      (axes.filter (· ∉ keys (advItem item))).map (fun ax => IndexVal.toSlice (get? item ax)))) = _
  rw [hb]
  simp only [bind, Except.bind]
  rw [hadv]
  rfl

theorem organize_error {axes : List String} {item : Dict IndexVal} (h : ItemWF item) {e : Err}
    (hS : broadcastShapes (arrayShapes item) = .error e) : organize axes item = .error e := by
  have hb := broadcast_advShapes h
  rw [hS] at hb
  unfold organize
  change (do
    let shapeAdvanced ← broadcastShapes ((advItem item).values.map IndexVal.shape)
    let adv ← (advItem item).values.mapM (IndexVal.toAdv (keys shapeAdvanced))
    Except.ok (keys (advItem item), shapeAdvanced, axes.filter (· ∉ keys (advItem item)), adv, 
      (axes.filter (· ∉ keys (advItem item))).map (fun ax => IndexVal.toSlice (get? item ax)))) = _
  rw [hb]
  rfl

/-- the shapes of the aligned index arrays -/
theorem adv_shapes {l : Dict IndexVal} {axes : List String} (hn : axes.Nodup)
    (hb : ∀ ax b, (ax, IndexVal.arr b) ∈ l → b.WF) {adv : List ND.AdvIdx}
    (h : List.Forall₂ (fun v x => IndexVal.toAdv axes v = .ok x) (values l) adv) :
    adv.filterMap ND.AdvIdx.shape? = (arrayShapes l).map (posShape axes) := by
  induction l generalizing adv with
  | nil => cases h; rfl
  | cons p l ih =>
    obtain ⟨ax, v⟩ := p
    rw [values_cons] at h
    cases h with
    | @cons _ x _ adv hx hl =>
      have ih := ih (fun ax b hm => hb ax b (by simp [hm])) hl
      unfold arrayShapes at ih ⊢
      rw [List.filterMap_cons, List.filterMap_cons]
      cases v with
      | int i => cases hx; simpa [ND.AdvIdx.shape?] using ih
      | arr b =>
        simp only [IndexVal.toAdv] at hx
        cases ha : b.aligned axes with
        | error e => rw [ha] at hx; cases hx
        | ok w =>
          rw [ha] at hx
          cases hx
          have := (aligned_ok (hb ax b (by simp)) hn ha).2.1
          simp only [ND.AdvIdx.shape?, List.map_cons, this]
          rw [ih]
          rfl
      | slice s => cases hx
      | none => cases hx

theorem arrayShapes_advItem (item : Dict IndexVal) : arrayShapes (advItem item) = arrayShapes item := by
  unfold arrayShapes advItem
  rw [List.filterMap_filterMap]
  apply List.filterMap_congr
  intro p _
  obtain ⟨ax, v⟩ := p
  cases v <;> rfl

/-- `toAdv` of an entry is valid iff the entry is. -/
theorem toAdv_valid {S : Shape} (hS : Dict.WF S) {v : IndexVal} {x : ND.AdvIdx}
    (hb : ∀ b, v = .arr b → b.WF) (h : v.toAdv (keys S) = .ok x) (n : Nat) :
    x.Valid n ↔ (∀ i, v = .int i → ND.ValidIndex n i) ∧
      (∀ b, v = .arr b → ∀ e, InRange b.shape e → ND.ValidIndex n (b.at' e)) := by
  cases v with
  | int i =>
    cases h
    simp [ND.AdvIdx.Valid]
  | arr b =>
    simp only [IndexVal.toAdv] at h
    cases ha : b.aligned (keys S) with
    | error e => rw [ha] at h; cases h
    | ok w =>
      rw [ha] at h
      cases h
      simp only [ND.AdvIdx.Valid]
      rw [aligned_forall (hb b rfl) hS ha (ND.ValidIndex n)]
      simp
  | slice s => cases h
  | none => cases h

/-- The main lemma: what the positional index of an item selects. -/
theorem selection_organized {a : SA α} (ha : a.WF) {item : Dict IndexVal} (hi : ItemWF item)
    (hsub : keys item ⊆ a.axes) {S : Shape} (hS : broadcastShapes (arrayShapes item) = .ok S)
    {adv : List ND.AdvIdx} (hadv : (advItem item).values.mapM (IndexVal.toAdv (keys S)) = .ok adv) :
    let sel := ND.selection ((advAxes item ++ basicAxes a.axes item).map a.sizeOf') adv
      ((basicAxes a.axes item).map (fun ax => IndexVal.toSlice (get? item ax)))
    (¬ StepsOk a.shape item → sel = .error .valueError) ∧
    (StepsOk a.shape item → ¬ ValidItem a.shape item → sel = .error .indexError) ∧
    (StepsOk a.shape item → ValidItem a.shape item → ∃ f,
      sel = .ok (values S ++ (basicAxes a.axes item).map (selLen a.shape item), f) ∧
      ∀ e, f ((keys S ++ basicAxes a.axes item).map e) =
        (advAxes item ++ basicAxes a.axes item).map (selIdx a.shape item e)) := by
  intro sel
  have hSw := (broadcastShapes_joinOf (arrayShapes_wf hi) hS).1
  have hF := mapM_ok hadv
  have hbs : ND.bshapes (adv.filterMap ND.AdvIdx.shape?) = .ok (values S) := by
    rw [adv_shapes hSw (fun ax b hm => hi.2 ax b (mem_advItem hm).1) hF, arrayShapes_advItem]
    exact bshapes_posShape (arrayShapes_wf hi) hS
  have hlen : adv.length = (advAxes item).length := by
    rw [← hF.length_eq]; simp [advAxes, keys, values]
  set B := basicAxes a.axes item with hB
  have hBsub : ∀ ax ∈ B, ax ∈ a.axes ∧ ax ∉ advAxes item := by
    intro ax hax; simpa [hB, basicAxes] using hax
  have hKsub : ∀ ax ∈ advAxes item, ax ∈ a.axes := fun ax hax => hsub (keys_advItem_sub item hax)
  have hzip : (B.map (fun ax => IndexVal.toSlice (get? item ax))).zip
      (((advAxes item ++ B).map a.sizeOf').drop adv.length) =
      B.map (fun ax => (IndexVal.toSlice (get? item ax), a.sizeOf' ax)) := by
    rw [hlen, List.map_append, List.drop_left' (by simp), List.zip_map']
  -- slices along the basic axes
  have hslice : ∀ ax ∈ B, (∃ sl, get? item ax = some (.slice sl)) ∨
      IndexVal.toSlice (get? item ax) = {} ∧ ∀ sl, get? item ax ≠ some (.slice sl) := by
    intro ax _
    cases hg : get? item ax with
    | none => right; simp [IndexVal.toSlice]
    | some v => cases v <;> simp [IndexVal.toSlice]
  -- validity of the advanced entries
  have hvalid : (∀ p ∈ ((advAxes item ++ B).map a.sizeOf').zip adv, p.2.Valid p.1) ↔
      ValidItem a.shape item := by
    have hz : ((advAxes item ++ B).map a.sizeOf').zip adv = ((advAxes item).map a.sizeOf').zip adv := by
      rw [List.map_append]
      have h0 : adv = adv ++ [] := by simp
      conv_lhs => rw [h0]
      rw [List.zip_append (by simp [hlen])]
      simp
    rw [hz]
    have hpair : ∀ j (hj : j < (advItem item).length) (hj' : j < adv.length),
        (adv[j].Valid (a.sizeOf' (advItem item)[j].1) ↔
        ((∀ i, (advItem item)[j].2 = .int i → ND.ValidIndex (a.sizeOf' (advItem item)[j].1) i) ∧
        (∀ b, (advItem item)[j].2 = .arr b → ∀ e, InRange b.shape e →
          ND.ValidIndex (a.sizeOf' (advItem item)[j].1) (b.at' e)))) := by
      intro j hj hj'
      have hx : IndexVal.toAdv (keys S) (advItem item)[j].2 = .ok adv[j] := by
        have := List.Forall₂.get hF (i := j) (by simpa [values] using hj) hj'
        simpa [values] using this
      exact toAdv_valid hSw (fun b hb => hi.2 (advItem item)[j].1 b
        (hb ▸ (mem_advItem (List.getElem_mem hj)).1)) hx _
    constructor
    · intro h ax n hn
      have hax : ax ∈ a.axes := by rw [← keys_shape ha]; exact mem_keys_of_get? hn
      have hsz : a.sizeOf' ax = n := by simp [sizeOf', hn]
      have key : ∀ v, get? item ax = some v → v.advanced? = some v →
          ((∀ i, v = .int i → ND.ValidIndex n i) ∧
          (∀ b, v = .arr b → ∀ e, InRange b.shape e → ND.ValidIndex n (b.at' e))) := by
        intro v hv hadvv
        have hg : get? (advItem item) ax = some v := by rw [get?_advItem hi.1, hv]; exact hadvv
        obtain ⟨j, hj, hjv⟩ := List.mem_iff_getElem.1 (mem_of_get? hg)
        have hj' : j < adv.length := by rw [hlen]; simpa [advAxes, keys] using hj
        have := h (a.sizeOf' (advItem item)[j].1, adv[j]) (by
          rw [List.mem_iff_getElem]
          refine ⟨j, by simp [advAxes, keys]; omega, ?_⟩
          simp [advAxes, keys])
        rw [hpair j hj hj'] at this
        simpa [hjv, hsz] using this
      exact ⟨fun i hgi => (key _ hgi rfl).1 i rfl, fun b hgb => (key _ hgb rfl).2 b rfl⟩
    · intro h p hp
      obtain ⟨j, hj, rfl⟩ := List.mem_iff_getElem.1 hp
      simp only [List.length_zip, List.length_map] at hj
      have hj1 : j < (advItem item).length := by simp [advAxes, keys] at hj; omega
      have hj2 : j < adv.length := by omega
      simp only [List.getElem_zip, List.getElem_map]
      have hK : (advAxes item)[j]'(by omega) = (advItem item)[j].1 := by simp [advAxes, keys]
      rw [hK, hpair j hj1 hj2]
      have hmem := (mem_advItem (List.getElem_mem hj1)).1
      have hgi : get? item (advItem item)[j].1 = some (advItem item)[j].2 := get?_of_mem hi.1 hmem
      have hax : (advItem item)[j].1 ∈ a.axes := hsub (mem_keys_of_get? hgi)
      obtain ⟨n, hn⟩ := exists_get?_of_mem (d := a.shape) (by rw [keys_shape ha]; exact hax)
      have hsz : a.sizeOf' (advItem item)[j].1 = n := by simp [sizeOf', hn]
      rw [hsz]
      obtain ⟨h1, h2⟩ := h _ n hn
      exact ⟨fun i hi' => h1 i (by rw [hgi, hi']), fun b hb' => h2 b (by rw [hgi, hb'])⟩
  refine ⟨?_, ?_, ?_⟩
  · -- a zero step
    intro hst
    simp only [StepsOk, not_forall] at hst
    obtain ⟨ax, hax, sl, hsl, h0⟩ := hst
    rw [keys_shape ha] at hax
    have hnotK : ax ∉ advAxes item := by
      intro hk
      rcases (mem_keys_advItem hi.1).1 hk with ⟨i, h⟩ | ⟨b, h⟩ <;> rw [hsl] at h <;> cases h
    have hmB : ax ∈ B := by simp [hB, basicAxes, hax, hnotK]
    obtain ⟨e, he⟩ := (resolve_error_iff (s := sl) (n := a.sizeOf' ax)).2 (not_not.1 h0)
    have he' := resolve_error_kind he
    subst he'
    have hm : (B.map (fun ax => (IndexVal.toSlice (get? item ax), a.sizeOf' ax))).mapM
        (fun p => p.1.resolve p.2) = .error .valueError := by
      refine mapM_error (fun p _ e' h => resolve_error_kind h)
        (x := (IndexVal.toSlice (get? item ax), a.sizeOf' ax)) (List.mem_map.2 ⟨ax, hmB, rfl⟩) ?_
      simp only [hsl, IndexVal.toSlice]
      exact he
    show ND.selection ((advAxes item ++ B).map a.sizeOf') adv
      (B.map (fun ax => IndexVal.toSlice (get? item ax))) = _
    unfold ND.selection
    simp only [hbs, bind, Except.bind, hzip]
    rw [hm]
  all_goals
    intro hst
    have hres : ∀ ax ∈ B, ∃ r, (IndexVal.toSlice (get? item ax)).resolve (a.sizeOf' ax) = .ok r := by
      intro ax hax
      cases hr : (IndexVal.toSlice (get? item ax)).resolve (a.sizeOf' ax) with
      | ok r => exact ⟨r, rfl⟩
      | error e =>
        exfalso
        have h0 := resolve_error_iff.1 ⟨e, hr⟩
        rcases hslice ax hax with ⟨sl, hsl⟩ | ⟨hd, _⟩
        · rw [hsl] at h0
          exact hst ax (by rw [keys_shape ha]; exact (hBsub ax hax).1) sl hsl h0
        · rw [hd] at h0; cases h0
    let g : String → RSlice := fun ax =>
      match (IndexVal.toSlice (get? item ax)).resolve (a.sizeOf' ax) with
      | .ok r => r
      | .error _ => ⟨0, 1, 0⟩
    have hm : (B.map (fun ax => (IndexVal.toSlice (get? item ax), a.sizeOf' ax))).mapM
        (fun p => p.1.resolve p.2) = .ok (B.map g) := by
      rw [List.mapM_map]
      refine mapM_map_ok (fun ax hax => ?_)
      obtain ⟨r, hr⟩ := hres ax hax
      simp only [g, hr]
      exact hr
  · intro hnv
    show ND.selection ((advAxes item ++ B).map a.sizeOf') adv
      (B.map (fun ax => IndexVal.toSlice (get? item ax))) = _
    unfold ND.selection
    simp only [hbs, bind, Except.bind, hzip]
    rw [hm]
    simp only
    rw [if_neg (fun h => hnv (hvalid.1 h))]
  · intro hv
    have hsel : sel = .ok (values S ++ (B.map g).map RSlice.len,
      fun i => List.zipWith (fun n x => ND.pyIndex n (ND.AdvIdx.val x (i.take (values S).length)))
          ((advAxes item ++ B).map a.sizeOf') adv ++
        List.zipWith RSlice.pos (B.map g) (i.drop (values S).length)) := by
      show ND.selection ((advAxes item ++ B).map a.sizeOf') adv
        (B.map (fun ax => IndexVal.toSlice (get? item ax))) = _
      unfold ND.selection
      simp only [hbs, bind, Except.bind, hzip]
      rw [hm]
      simp only
      rw [if_pos (hvalid.2 hv)]
    have hl : (B.map g).map RSlice.len = B.map (selLen a.shape item) := by
      rw [List.map_map]
      apply List.map_congr_left
      intro ax hax
      obtain ⟨r, hr⟩ := hres ax hax
      simp only [Function.comp, g, hr]
      unfold selLen
      rcases hslice ax hax with ⟨sl, hsl⟩ | ⟨hd, hno⟩
      · rw [hsl] at hr ⊢
        simp only [IndexVal.toSlice, sizeOf'] at hr
        simp only [sliceLen, hr]
      · rw [hd, resolve_full] at hr
        injection hr with hr
        subst hr
        split
        · next sl h => exact absurd h (hno sl)
        · rfl
    rw [hl] at hsel
    refine ⟨_, hsel, ?_⟩
    · intro e
      have hlS : (values S).length = ((keys S).map e).length := by simp [keys, values]
      simp only [List.map_append]
      rw [hlS, List.take_left, List.drop_left]
      congr 1
      · apply List.ext_getElem
        · simp [hlen]
        · intro j h1 h2
          simp only [List.length_map] at h2
          have hj1 : j < (advItem item).length := by simpa [advAxes, keys] using h2
          have hj2 : j < adv.length := by omega
          rw [List.getElem_zipWith]
          simp only [List.getElem_append_left, List.length_map, h2, List.getElem_map]
          have hK : (advAxes item)[j]'(by omega) = (advItem item)[j].1 := by simp [advAxes, keys]
          have hmem := (mem_advItem (List.getElem_mem hj1)).1
          have hgi : get? item (advItem item)[j].1 = some (advItem item)[j].2 := get?_of_mem hi.1 hmem
          have hx : IndexVal.toAdv (keys S) (advItem item)[j].2 = .ok adv[j] := by
            have := List.Forall₂.get hF (i := j) (by simpa [values] using hj1) hj2
            simpa [values] using this
          rw [hK]
          unfold selIdx
          rcases toAdv_val hSw (fun b hb => hi.2 (advItem item)[j].1 b (hb ▸ hmem)) hx e with
            ⟨i, hi', hval⟩ | ⟨b, hb', hval⟩
          · rw [hgi, hi', hval]; rfl
          · rw [hgi, hb', hval]; rfl
      · apply List.ext_getElem
        · simp
        · intro j h1 h2
          simp only [List.length_map] at h2
          rw [List.getElem_zipWith]
          simp only [List.getElem_map]
          have hax : B[j] ∈ B := List.getElem_mem _
          obtain ⟨r, hr⟩ := hres _ hax
          simp only [g, hr]
          unfold selIdx
          rcases hslice _ hax with ⟨sl, hsl⟩ | ⟨hd, hno⟩
          · rw [hsl] at hr ⊢
            simp only [IndexVal.toSlice, sizeOf'] at hr
            simp only [slicePos, hr]
          · have hnK := (hBsub _ hax).2
            rw [hd, resolve_full] at hr
            injection hr with hr
            subst hr
            have hpos : RSlice.pos ⟨0, 1, a.sizeOf' B[j]⟩ (e B[j]) = e B[j] := by simp [RSlice.pos]
            rw [hpos]
            split
            · next i h => exact absurd ((mem_keys_advItem hi.1).2 (.inl ⟨i, h⟩)) hnK
            · next b h => exact absurd ((mem_keys_advItem hi.1).2 (.inr ⟨b, h⟩)) hnK
            · next sl h => exact absurd h (hno sl)
            · rfl

/-- An array given by names and a size for each name. -/
theorem mk_map {axes : List String} (hn : axes.Nodup) {nd : ND α} {sz : String → Nat}
    (h : nd.shape = axes.map sz) : (SA.mk axes nd).WF ∧
      ∀ ax, get? (SA.mk axes nd).shape ax = if ax ∈ axes then some (sz ax) else none := by
  have hwf : (SA.mk axes nd).WF := ⟨by simp [ND.ndim, h], hn⟩
  refine ⟨hwf, fun ax => ?_⟩
  split
  · next hax =>
    obtain ⟨i, hi, rfl⟩ := List.mem_iff_getElem.1 hax
    rw [get?_shape hwf hi]
    simp [h]
  · next hax => exact (get?_shape_none hwf).2 hax

/-- the entries of an item for axes which the array has -/
def known (axes : List String) (item : Dict IndexVal) : Dict IndexVal :=
  item.filter (fun p => p.1 ∈ axes)

theorem get?_filter {β : Type} (d : Dict β) (q : String → Prop) [DecidablePred q] (x : String) :
    get? (d.filter (fun p => q p.1)) x = if q x then get? d x else none := by
  induction d with
  | nil => simp [get?]
  | cons p d ih =>
    rw [List.filter_cons]
    by_cases hp : q p.1
    · simp only [hp, decide_true, if_true]
      rw [get?_cons, get?_cons, ih]
      by_cases hx : p.1 = x
      · subst hx; simp [hp]
      · simp [hx]
    · simp only [hp, decide_false]
      rw [if_neg (by simp), ih, get?_cons]
      by_cases hx : p.1 = x
      · subst hx; simp [hp]
      · simp [hx]

theorem get?_known (axes : List String) (item : Dict IndexVal) (x : String) :
    get? (known axes item) x = if x ∈ axes then get? item x else none :=
  get?_filter item (· ∈ axes) x

theorem itemWF_known {axes : List String} {item : Dict IndexVal} (h : ItemWF item) :
    ItemWF (known axes item) := by
  refine ⟨?_, fun ax b hb => h.2 ax b (List.mem_of_mem_filter hb)⟩
  unfold known Dict.WF keys
  exact h.1.sublist (List.filter_sublist.map _)

theorem keys_known_sub {axes : List String} {item : Dict IndexVal} : keys (known axes item) ⊆ axes := by
  intro x hx
  obtain ⟨v, hv⟩ := exists_get?_of_mem hx
  rw [get?_known] at hv
  by_contra h
  simp [h] at hv

theorem nodup_advAxes {item : Dict IndexVal} (h : Dict.WF item) : (advAxes item).Nodup := wf_advItem h

/-- Everything about `getitem` except for what happens with colliding names. -/
theorem getitem_main {a : SA α} (ha : a.WF) {item : Dict IndexVal} (hi : ItemWF item) :
    let it := known a.axes item
    match broadcastShapes (arrayShapes it) with
    | .error e => a.getitem item = .error e
    | .ok S =>
      (¬ StepsOk a.shape it → a.getitem item = .error .valueError) ∧
      (StepsOk a.shape it → ¬ ValidItem a.shape it → a.getitem item = .error .indexError) ∧
      (StepsOk a.shape it → ValidItem a.shape it →
        (¬ (keys S ++ basicAxes a.axes it).Nodup → a.getitem item = .error .valueError) ∧
        ((keys S ++ basicAxes a.axes it).Nodup →
          ∃ r, a.getitem item = .ok r ∧ r.WF ∧ r.axes = keys S ++ basicAxes a.axes it ∧
            (∀ ax, get? r.shape ax = if ax ∈ basicAxes a.axes it then some (selLen a.shape it ax)
              else get? S ax) ∧
            ∀ e, r.at' e = a.at' (selIdx a.shape it e))) := by
  intro it
  have hiw : ItemWF it := itemWF_known hi
  have hsub : keys it ⊆ a.axes := keys_known_sub
  have hK : (advAxes it).Nodup := nodup_advAxes hiw.1
  have hKsub : advAxes it ⊆ a.axes := fun x hx => hsub (keys_advItem_sub it hx)
  have hgi : a.getitem item = if it.isEmpty then .ok a else (do
    let (axesAdv, shapeAdv, axesBasic, adv, slices) ← organize a.axes it
    let nd ← a.nd.moveaxis (axesAdv.map a.axes.idxOf) (List.range axesAdv.length)
    let nd ← nd.getitem adv slices
    mk? nd (shapeAdv.keys ++ axesBasic)) := rfl
  cases hS : broadcastShapes (arrayShapes it) with
  | error e =>
    show a.getitem item = .error e
    rw [hgi, organize_error hiw hS]
    split
    · next h =>
      rw [List.isEmpty_iff] at h
      rw [h] at hS
      cases hS
    · rfl
  | ok S =>
    have hSw := (broadcastShapes_joinOf (arrayShapes_wf hiw) hS).1
    dsimp only
    by_cases hemp : it.isEmpty
    · -- nothing to index
      rw [hgi, if_pos hemp]
      rw [List.isEmpty_iff] at hemp
      rw [hemp] at hS ⊢
      have : S = [] := by cases hS; rfl
      subst this
      have hb : basicAxes a.axes [] = a.axes := by
        unfold basicAxes advAxes
        rw [List.filter_eq_self]
        intro x _
        simp [advItem, keys]
      have hst : StepsOk a.shape [] := by intro ax _ sl h; cases h
      have hva : ValidItem a.shape [] := by
        intro ax n _; exact ⟨fun i h => (by cases h), fun b h => (by cases h)⟩
      refine ⟨fun h => absurd hst h, fun _ h => absurd hva h, fun _ _ => ⟨?_, ?_⟩⟩
      · intro h; exact absurd (by rw [hb]; simpa [keys] using ha.2) h
      · intro _
        refine ⟨a, rfl, ha, by simp [hb, keys], fun ax => ?_, fun e => ?_⟩
        · rw [hb]
          split
          · next hax =>
            obtain ⟨n, hn⟩ := exists_get?_of_mem (d := a.shape) (by rw [keys_shape ha]; exact hax)
            simp [selLen, hn, get?]
          · next hax => rw [(get?_shape_none ha).2 hax]; rfl
        · exact at'_congr (fun ax _ => by simp [selIdx, get?])
    · obtain ⟨adv, hadv, horg⟩ := organize_eq (axes := a.axes) hiw hS
      obtain ⟨v, hv, hvs, hvg⟩ := moveaxis_block ha hK hKsub (k := 0) (by omega)
      simp only [List.take_zero, List.nil_append, List.drop_zero] at hvs hvg
      rw [← List.range_eq_range'] at hv
      obtain ⟨h1, h2, h3⟩ := selection_organized ha hiw hsub hS hadv
      have hgi' : a.getitem item = (do
          let nd ← v.getitem adv
            ((basicAxes a.axes it).map (fun ax => IndexVal.toSlice (get? it ax)))
          mk? nd (keys S ++ basicAxes a.axes it)) := by
        rw [hgi, if_neg hemp, horg]
        simp only [bind, Except.bind]
        rw [hv]
      rw [hgi']
      unfold ND.getitem
      rw [hvs]
      refine ⟨fun hst => ?_, fun hst hva => ?_, fun hst hva => ?_⟩
      · have := h1 hst
        simp only [basicAxes] at this ⊢
        rw [this]; rfl
      · have := h2 hst hva
        simp only [basicAxes] at this ⊢
        rw [this]; rfl
      · obtain ⟨f, hf, hfe⟩ := h3 hst hva
        have hsel : (do
          let nd ← (do
            let (s, f) ← ND.selection ((advAxes it ++ a.axes.filter (· ∉ advAxes it)).map a.sizeOf') adv
              ((basicAxes a.axes it).map (fun ax => IndexVal.toSlice (get? it ax)))
            (.ok ⟨s, fun i => v.get (f i)⟩ : R (ND α)))
          mk? nd (keys S ++ basicAxes a.axes it)) =
            mk? (⟨values S ++ (basicAxes a.axes it).map (selLen a.shape it), fun i => v.get (f i)⟩ : ND α)
              (keys S ++ basicAxes a.axes it) := by
          simp only [basicAxes] at hf ⊢
          rw [hf]; rfl
        rw [hsel]
        refine ⟨fun hnn => ?_, fun hnn => ?_⟩
        · unfold mk?
          split
          · rfl
          · rfl
        · have hndim : (⟨values S ++ (basicAxes a.axes it).map (selLen a.shape it),
              fun i => v.get (f i)⟩ : ND α).ndim = (keys S ++ basicAxes a.axes it).length := by
            simp [ND.ndim, keys, values]
          have hdis : ∀ ax ∈ keys S, ax ∉ basicAxes a.axes it := by
            intro ax h1 h2
            exact (List.nodup_append.1 hnn).2.2 ax h1 ax h2 rfl
          have hshape : values S ++ (basicAxes a.axes it).map (selLen a.shape it) =
              (keys S ++ basicAxes a.axes it).map (fun ax => if ax ∈ basicAxes a.axes it then
                selLen a.shape it ax else (get? S ax).getD 1) := by
            rw [List.map_append]
            congr 1
            · rw [← posShape_keys hSw]
              unfold posShape
              apply List.map_congr_left
              intro ax hax
              rw [if_neg (hdis ax hax)]
            · apply List.map_congr_left
              intro ax hax
              rw [if_pos hax]
          obtain ⟨hwf, hsz⟩ := mk_map hnn (nd := ⟨values S ++ (basicAxes a.axes it).map
            (selLen a.shape it), fun i => v.get (f i)⟩) hshape
          refine ⟨_, mk?_of_wf hndim hnn, hwf, rfl, fun ax => ?_, fun e => ?_⟩
          · rw [hsz]
            by_cases hb : ax ∈ basicAxes a.axes it
            · simp [hb]
            · by_cases hk : ax ∈ keys S
              · obtain ⟨n, hn⟩ := exists_get?_of_mem hk
                simp [hb, hk, hn]
              · simp [hb, hk, get?_eq_none.2 hk]
          · show v.get (f ((keys S ++ basicAxes a.axes it).map e)) = _
            rw [hfe, ← hvg]
            rfl

end SA
end NA
