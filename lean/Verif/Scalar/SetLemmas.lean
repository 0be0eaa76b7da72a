import Verif.Scalar.IndexSpec

/-! Helper lemmas about assignment by index. -/

namespace NA
open Dict

namespace ND
variable {α : Type}

theorem writeAll_untouched {a : ND α} {f : List Nat → List Nat} {w : List Nat → α}
    {ts : List (List Nat)} {idx : List Nat} (h : ∀ t ∈ ts, f t ≠ idx) :
    (a.writeAll f w ts).get idx = a.get idx := by
  have : ts.reverse.find? (fun t => f t = idx) = none := by
    rw [List.find?_eq_none]
    intro t ht
    simpa using h t (by simpa using ht)
  simp only [writeAll, this]

theorem writeAll_touched {a : ND α} {f : List Nat → List Nat} {w : List Nat → α}
    {ts : List (List Nat)} {idx : List Nat} (h : ∃ t ∈ ts, f t = idx) :
    ∃ t ∈ ts, f t = idx ∧ (a.writeAll f w ts).get idx = w t := by
  cases hf : ts.reverse.find? (fun t => f t = idx) with
  | none =>
    exfalso
    rw [List.find?_eq_none] at hf
    obtain ⟨t, ht, hft⟩ := h
    exact hf t (by simpa using ht) (by simpa using hft)
  | some t =>
    refine ⟨t, by simpa using List.mem_of_find?_eq_some hf, ?_, ?_⟩
    · have := List.find?_some hf
      simpa using this
    · simp only [writeAll, hf]

/-- The last of the writes to the same place is the one which remains. -/
theorem writeAll_last {a : ND α} {f : List Nat → List Nat} {w : List Nat → α}
    {ts : List (List Nat)} {Q : List Nat → List Nat → Prop} (hts : ts.Pairwise Q) {idx : List Nat}
    (h : ∃ t ∈ ts, f t = idx) :
    ∃ t ∈ ts, f t = idx ∧ (a.writeAll f w ts).get idx = w t ∧
      ∀ t' ∈ ts, f t' = idx → t' = t ∨ Q t' t := by
  cases hf : ts.reverse.find? (fun t => f t = idx) with
  | none =>
    exfalso
    rw [List.find?_eq_none] at hf
    obtain ⟨t, ht, hft⟩ := h
    exact hf t (by simpa using ht) (by simpa using hft)
  | some t =>
    obtain ⟨hft, as, bs, hab, hno⟩ := List.find?_eq_some_iff_append.1 hf
    have hts' : ts = bs.reverse ++ [t] ++ as.reverse := by
      have := congrArg List.reverse hab
      simpa using this
    refine ⟨t, by rw [hts']; simp, by simpa using hft, by simp only [writeAll, hf], ?_⟩
    intro t' ht' hf'
    rw [hts'] at ht' hts
    rcases List.mem_append.1 ht' with h1 | h1
    · rcases List.mem_append.1 h1 with h2 | h2
      · right
        rw [List.append_assoc, List.pairwise_append] at hts
        exact hts.2.2 t' h2 t (by simp)
      · left; simpa using h2
    · have := hno t' (by simpa using h1)
      simp [hf'] at this

theorem mem_ndIndices_iff {s i : List Nat} : i ∈ ndIndices s ↔ InRange s i := mem_ndIndices.trans Iff.rfl

end ND

namespace SA
variable {α : Type}

/-- Write-back through the view: by name it is the identity. -/
theorem throughView_ok {a : SA α} (ha : a.WF) {axes : List String} (hn : axes.Nodup)
    (h1 : axes ⊆ a.axes) (h2 : a.axes ⊆ axes) {v : ND α} (hv : v.shape = axes.map a.sizeOf') :
    ∃ r, a.throughView axes v = .ok r ∧ r.WF ∧ r.axes = a.axes ∧ r.shape = a.shape ∧
      ∀ e, r.at' e = v.get (axes.map e) := by
  obtain ⟨hwf, hsz⟩ := mk_map hn hv
  obtain ⟨u, hu⟩ := aligned_isOk hwf ha.2 h1
  obtain ⟨_, hus, hug⟩ := aligned_ok hwf ha.2 hu
  have hus' : u.shape = a.nd.shape := by
    rw [hus, shape_eq_map ha]
    apply List.map_congr_left
    intro ax hax
    rw [hsz, if_pos (h2 hax)]
    rfl
  refine ⟨⟨a.axes, u⟩, ?_, ⟨by rw [ND.ndim, hus']; exact ha.1, ha.2⟩, rfl, ?_, ?_⟩
  · unfold throughView; rw [hu]; rfl
  · unfold shape; rw [hus']
  · intro e; exact hug e

/-- `fits`, by name. -/
theorem fits_map {axes : List String} {f g : String → Nat} :
    ND.fits (axes.map f) (axes.map g) ↔ ∀ ax ∈ axes, f ax = g ax ∨ f ax = 1 := by
  unfold ND.fits
  rw [List.zip_map']
  simp

/-- a positional index in range of the mapped sizes comes from a named index -/
theorem exists_env {axes : List String} (hn : axes.Nodup) {sz : String → Nat} {i : List Nat}
    (h : ND.InRange (axes.map sz) i) : ∃ e : String → Nat, axes.map e = i ∧ ∀ ax ∈ axes, e ax < sz ax := by
  have hl : i.length = axes.length := by simpa using ND.inRange_length h
  refine ⟨envOf axes i, map_envOf hn hl, ?_⟩
  intro ax hax
  obtain ⟨j, hj, rfl⟩ := List.mem_iff_getElem.1 hax
  rw [ND.inRange_iff] at h
  have h2 := h.2 j (by omega) (by simpa using hj)
  have h3 : (axes.map (envOf axes i))[j]'(by simpa using hj) = i[j]'(by omega) := by
    simp only [map_envOf hn hl]
  simp only [List.getElem_map] at h2 h3
  rw [h3]; exact h2

theorem inRange_map {axes : List String} {sz e : String → Nat} :
    ND.InRange (axes.map sz) (axes.map e) ↔ ∀ ax ∈ axes, e ax < sz ax := by
  rw [ND.inRange_iff]
  constructor
  · intro h ax hax
    obtain ⟨j, hj, rfl⟩ := List.mem_iff_getElem.1 hax
    have := h.2 j (by simpa using hj) (by simpa using hj)
    simpa only [List.getElem_map] using this
  · intro h
    refine ⟨by simp, fun j h1 h2 => ?_⟩
    simp only [List.getElem_map]
    exact h _ (List.getElem_mem _)

/-- the shape (as a dictionary) of the selection -/
def selShape (a : SA α) (item : Dict IndexVal) (S : Shape) : Shape :=
  S ++ (basicAxes a.axes item).map (fun ax => (ax, selLen a.shape item ax))

theorem get?_append {β : Type} (d d' : Dict β) (x : String) :
    get? (d ++ d') x = (get? d x).or (get? d' x) := by
  induction d with
  | nil => simp [get?]
  | cons p d ih =>
    rw [List.cons_append, get?_cons, get?_cons, ih]
    split <;> simp

theorem get?_map_self {l : List String} {f : String → Nat} {x : String} :
    get? (l.map (fun ax => (ax, f ax))) x = if x ∈ l then some (f x) else none := by
  induction l with
  | nil => rfl
  | cons y l ih =>
    rw [List.map_cons, get?_cons, ih]
    by_cases h : y = x
    · subst h; simp
    · have : ¬ x = y := fun h' => h h'.symm
      simp [h, this]

theorem keys_selShape (a : SA α) (item : Dict IndexVal) (S : Shape) :
    keys (selShape a item S) = keys S ++ basicAxes a.axes item := by
  simp [selShape, keys, Function.comp_def]

theorem values_selShape (a : SA α) (item : Dict IndexVal) (S : Shape) :
    values (selShape a item S) = values S ++ (basicAxes a.axes item).map (selLen a.shape item) := by
  simp [selShape, values, Function.comp_def]

/-- Everything about `setitem` for an item whose keys are axes of the array. -/
theorem setitem_main {a value : SA α} (ha : a.WF) (hval : value.WF) {item : Dict IndexVal}
    (hi : ItemWF item) (hnone : ∀ v ∈ values item, v.isNone = false) (hsub : keys item ⊆ a.axes) :
    match broadcastShapes (arrayShapes item) with
    | .error e => a.setitem item value = .error e
    | .ok S =>
      (keys S ++ basicAxes a.axes item).Nodup →
      (¬ value.axes ⊆ keys S ++ basicAxes a.axes item → a.setitem item value = .error .valueError) ∧
      (value.axes ⊆ keys S ++ basicAxes a.axes item →
      (¬ StepsOk a.shape item → a.setitem item value = .error .valueError) ∧
      (StepsOk a.shape item → ¬ ValidItem a.shape item → a.setitem item value = .error .indexError) ∧
      (StepsOk a.shape item → ValidItem a.shape item →
        ((∃ ax m n, get? value.shape ax = some m ∧ get? (selShape a item S) ax = some n ∧ m ≠ n ∧ m ≠ 1) →
          a.setitem item value = .error .valueError) ∧
        ((∀ ax m n, get? value.shape ax = some m → get? (selShape a item S) ax = some n → m = n ∨ m = 1) →
          ∃ r, a.setitem item value = .ok r ∧ r.WF ∧ r.axes = a.axes ∧ r.shape = a.shape ∧
            ∀ e, ((∀ f, InRange (selShape a item S) f → ∃ ax ∈ a.axes, selIdx a.shape item f ax ≠ e ax) →
                r.at' e = a.at' e) ∧
              ((∃ f, InRange (selShape a item S) f ∧ ∀ ax ∈ a.axes, selIdx a.shape item f ax = e ax) →
                ∃ f, InRange (selShape a item S) f ∧ (∀ ax ∈ a.axes, selIdx a.shape item f ax = e ax) ∧
                  r.at' e = value.atB f ∧
                  ∀ f', InRange (selShape a item S) f' → (∀ ax ∈ a.axes, selIdx a.shape item f' ax = e ax) →
                    (keys (selShape a item S)).map f' = (keys (selShape a item S)).map f ∨
                    List.Lex (· < ·) ((keys (selShape a item S)).map f') ((keys (selShape a item S)).map f))))) := by
  have hK : (advAxes item).Nodup := nodup_advAxes hi.1
  have hKsub : advAxes item ⊆ a.axes := fun x hx => hsub (keys_advItem_sub item hx)
  set B := basicAxes a.axes item with hB
  have hBsub : ∀ ax ∈ B, ax ∈ a.axes ∧ ax ∉ advAxes item := by
    intro ax hax; simpa [hB, basicAxes] using hax
  have hKB : (advAxes item ++ B).Nodup := by
    rw [List.nodup_append]
    exact ⟨hK, ha.2.filter _, fun x hx y hy hxy => (hBsub y hy).2 (hxy ▸ hx)⟩
  have hperm1 : advAxes item ++ B ⊆ a.axes := by
    intro x hx
    rcases List.mem_append.1 hx with h | h
    · exact hKsub h
    · exact (hBsub x h).1
  have hperm2 : a.axes ⊆ advAxes item ++ B := by
    intro x hx
    by_cases h : x ∈ advAxes item
    · simp [h]
    · simp [hB, basicAxes, h, hx]
  have hnone' : item.values.any IndexVal.isNone = false := by
    rw [List.any_eq_false]
    intro v hv
    simp [hnone v hv]
  have hall : item.keys.all (· ∈ a.axes) = true := by
    rw [List.all_eq_true]; intro x hx; simpa using hsub hx
  have hset : a.setitem item value = (do
    let (axesAdv, shapeAdv, axesBasic, adv, slices) ← organize a.axes item
    let w ← if value.shape.isEmpty then .ok value.nd
      else value.aligned (shapeAdv.keys ++ axesBasic)
    let v ← a.aligned (axesAdv ++ axesBasic)
    let v ← v.setitem adv slices w
    a.throughView (axesAdv ++ axesBasic) v) := by
    unfold setitem
    rw [if_neg (by simp [hnone']), if_pos hall]
  cases hS : broadcastShapes (arrayShapes item) with
  | error e =>
    show a.setitem item value = .error e
    rw [hset, organize_error hi hS]; rfl
  | ok S =>
    have hSw := (broadcastShapes_joinOf (arrayShapes_wf hi) hS).1
    dsimp only
    intro hT
    obtain ⟨adv, hadv, horg⟩ := organize_eq (axes := a.axes) hi hS
    obtain ⟨v, hv⟩ := aligned_isOk ha hKB hperm2
    obtain ⟨_, hvs, hvg⟩ := aligned_ok ha hKB hv
    have hvs' : v.shape = (advAxes item ++ B).map a.sizeOf' := by
      rw [hvs]
      apply List.map_congr_left
      intro ax hax
      obtain ⟨n, hn⟩ := exists_get?_of_mem (d := a.shape) (by rw [keys_shape ha]; exact hperm1 hax)
      simp [sizeOf', hn]
    rw [horg] at hset
    simp only [bind, Except.bind] at hset
    rw [← hB, hv] at hset
    simp only at hset
    have hsw : Dict.WF (selShape a item S) := by
      unfold Dict.WF; rw [keys_selShape]; exact hT
    have hemp : value.shape.isEmpty → value.axes = [] := by
      intro h
      rw [List.isEmpty_iff] at h
      rw [← keys_shape hval, h]; rfl
    constructor
    · intro hvsub
      rw [hset, if_neg]
      · cases hw : value.aligned (keys S ++ B) with
        | ok w => exact absurd (aligned_ok hval hT hw).1 hvsub
        | error e =>
          have := aligned_error_kind hw
          subst this; rfl
      · intro h
        rw [hemp h] at hvsub
        exact hvsub (List.nil_subset _)
    · intro hvsub
      obtain ⟨h1, h2, h3⟩ := selection_organized ha hi hsub hS hadv
      rw [← hB] at h1 h2 h3
      rw [← hvs'] at h1 h2 h3
      -- the value as a numpy array
      obtain ⟨w, hw, hwsh⟩ : ∃ w, (if value.shape.isEmpty then Except.ok value.nd
          else value.aligned (keys S ++ B)) = .ok w ∧
          ((w.shape = [] ∧ value.axes = [] ∧ ∀ e, w.get [] = value.atB e) ∨
          (w.shape = (keys S ++ B).map (fun ax => (get? value.shape ax).getD 1) ∧ (w.shape = [] → value.axes = []) ∧
            ∀ e, w.get (ND.clipIdx w.shape ((keys S ++ B).map e)) = value.atB e)) := by
        by_cases hve : value.shape.isEmpty
        · rw [if_pos hve]
          have hnil := hemp hve
          refine ⟨_, rfl, .inl ⟨?_, hnil, fun e => ?_⟩⟩
          · have := hval.1
            rw [hnil] at this
            exact List.length_eq_zero_iff.1 this
          · unfold atB at'; rw [hnil]; rfl
        · rw [if_neg hve]
          obtain ⟨w, hw⟩ := aligned_isOk hval hT hvsub
          refine ⟨w, hw, .inr ⟨(aligned_ok hval hT hw).2.1, ?_, fun e => aligned_clip hval hT hw e⟩⟩
          intro h0
          rw [(aligned_ok hval hT hw).2.1, List.map_eq_nil_iff] at h0
          rw [h0] at hvsub
          exact List.eq_nil_of_subset_nil hvsub
      have hset' : a.setitem item value = (do
          let u ← v.setitem adv (B.map (fun ax => IndexVal.toSlice (get? item ax))) w
          a.throughView (advAxes item ++ B) u) := by
        rw [hset]
        by_cases hve : value.shape.isEmpty
        · rw [if_pos hve] at hw ⊢
          injection hw with hw
          rw [hw]; rfl
        · rw [if_neg hve] at hw ⊢
          rw [hw]; rfl
      refine ⟨fun hst => ?_, fun hst hva => ?_, fun hst hva => ?_⟩
      · rw [hset']; unfold ND.setitem; rw [h1 hst]; rfl
      · rw [hset']; unfold ND.setitem; rw [h2 hst hva]; rfl
      · obtain ⟨f, hf, hfe⟩ := h3 hst hva
        have hsv : values S ++ B.map (selLen a.shape item) =
            (keys S ++ B).map (fun ax => (get? (selShape a item S) ax).getD 1) := by
          have := posShape_keys hsw
          rw [keys_selShape, values_selShape] at this
          exact this.symm
        constructor
        · rintro ⟨ax, m, n, hm, hn, hmn, hm1⟩
          rw [hset']
          unfold ND.setitem
          rw [hf]
          simp only [bind, Except.bind]
          have hax : ax ∈ value.axes := by rw [← keys_shape hval]; exact mem_keys_of_get? hm
          rcases hwsh with ⟨_, hnil, _⟩ | ⟨hws, hwn, _⟩
          · rw [hnil] at hax; cases hax
          · rw [if_neg (fun h => by rw [hwn h] at hax; cases hax)]
            rw [if_neg]
            rw [hws, hsv, fits_map]
            intro h
            have := h ax (hvsub hax)
            rw [hm, hn] at this
            simp only [Option.getD_some] at this
            tauto
        · intro hfit
          -- the write function
          obtain ⟨g, hg, hgv⟩ : ∃ g, v.setitem adv (B.map (fun ax => IndexVal.toSlice (get? item ax))) w =
              .ok (v.writeAll f g (ndIndices (values S ++ B.map (selLen a.shape item)))) ∧
              ∀ e, g ((keys S ++ B).map e) = value.atB e := by
            rcases hwsh with ⟨hws, hnil, hwv⟩ | ⟨hws, hwn, hwv⟩
            · refine ⟨fun _ => w.get [], ?_, hwv⟩
              unfold ND.setitem
              rw [hf]
              simp only [bind, Except.bind]
              rw [if_pos hws]
            · by_cases h0 : w.shape = []
              · refine ⟨fun _ => w.get [], ?_, ?_⟩
                · unfold ND.setitem
                  rw [hf]
                  simp only [bind, Except.bind]
                  rw [if_pos h0]
                · intro e
                  rw [← hwv e, h0]; simp [ND.clipIdx]
              · refine ⟨fun t => w.get (ND.clipIdx w.shape t), ?_, hwv⟩
                unfold ND.setitem
                rw [hf]
                simp only [bind, Except.bind]
                rw [if_neg h0, if_pos]
                rw [hws, hsv, fits_map]
                intro ax hax
                obtain ⟨n, hn⟩ := exists_get?_of_mem (d := selShape a item S) (by rw [keys_selShape]; exact hax)
                rw [hn]
                cases hm : get? value.shape ax with
                | none => simp
                | some m => simpa using hfit ax m n hm hn
          rw [hset', hg]
          simp only [bind, Except.bind]
          obtain ⟨r, hr, hrw, hra, hrs, hre⟩ := throughView_ok ha hKB hperm1 hperm2
            (v := v.writeAll f g (ndIndices (values S ++ B.map (selLen a.shape item)))) hvs'
          refine ⟨r, hr, hrw, hra, hrs, fun e => ⟨?_, ?_⟩⟩
          · intro hun
            rw [hre, ND.writeAll_untouched, hvg]
            intro t ht hft
            rw [ND.mem_ndIndices_iff, hsv] at ht
            obtain ⟨e', rfl, he'⟩ := exists_env hT ht
            rw [hfe] at hft
            obtain ⟨ax, hax, hne⟩ := hun e' (by
              intro ax n hn
              have := he' ax (by rw [← keys_selShape]; exact mem_keys_of_get? hn)
              simpa [hn] using this)
            rw [List.map_inj_left] at hft
            exact hne (hft ax (hperm2 hax))
          · rintro ⟨e', he', hsel⟩
            have htgt : ∀ e', InRange (selShape a item S) e' →
                (∀ ax ∈ a.axes, selIdx a.shape item e' ax = e ax) →
                (keys S ++ B).map e' ∈ ndIndices (values S ++ B.map (selLen a.shape item)) ∧
                f ((keys S ++ B).map e') = (advAxes item ++ B).map e := by
              intro e' he' hsel
              refine ⟨?_, ?_⟩
              · rw [ND.mem_ndIndices_iff, hsv, inRange_map]
                intro ax hax
                obtain ⟨n, hn⟩ := exists_get?_of_mem (d := selShape a item S) (by rw [keys_selShape]; exact hax)
                rw [hn]; exact he' ax n hn
              · rw [hfe]
                apply List.map_congr_left
                intro ax hax
                exact hsel ax (hperm1 hax)
            obtain ⟨t, ht, hft, hval', hlast⟩ := ND.writeAll_last (a := v) (w := g) (sorted_ndIndices _)
              ⟨_, (htgt e' he' hsel).1, (htgt e' he' hsel).2⟩
            rw [ND.mem_ndIndices_iff, hsv] at ht
            obtain ⟨e'', rfl, he''⟩ := exists_env hT ht
            refine ⟨e'', ?_, ?_, ?_, ?_⟩
            · intro ax n hn
              have := he'' ax (by rw [← keys_selShape]; exact mem_keys_of_get? hn)
              simpa [hn] using this
            · rw [hfe, List.map_inj_left] at hft
              intro ax hax
              exact hft ax (hperm2 hax)
            · rw [hre, hval', hgv]
            · intro f' hf' hsel'
              rw [keys_selShape, ← hB]
              exact hlast _ (htgt f' hf' hsel').1 (htgt f' hf' hsel').2

end SA
end NA
