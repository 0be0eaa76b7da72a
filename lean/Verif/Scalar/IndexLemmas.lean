import Verif.Scalar.Index
import Verif.Scalar.Lemmas
import Mathlib.Tactic.Linarith

/-! Helper lemmas about indexing. -/

namespace NA
open Dict

/-! ### Slices -/

theorem clampBound_bounds {n : Nat} {lo hi b : Int} (h : lo ≤ hi) :
    lo ≤ Slice.clampBound n lo hi b ∧ Slice.clampBound n lo hi b ≤ hi := by
  unfold Slice.clampBound
  dsimp only
  split <;> split <;> (try split) <;> omega

theorem getD_clamp {n : Nat} {lo hi d : Int} (h : lo ≤ hi) (hd : lo ≤ d ∧ d ≤ hi) (o : Option Int) :
    lo ≤ (o.map (Slice.clampBound n lo hi)).getD d ∧ (o.map (Slice.clampBound n lo hi)).getD d ≤ hi := by
  cases o with
  | none => exact hd
  | some b => exact clampBound_bounds h

/-- The positions selected by a slice are in range, and are strictly monotone in `k`. -/
theorem resolve_ok {s : Slice} {n : Nat} {r : RSlice} (h : s.resolve n = .ok r) :
    r.step = s.step.getD 1 ∧ r.step ≠ 0 ∧
    ∀ k < r.len, 0 ≤ r.start + k * r.step ∧ r.start + k * r.step < n := by
  unfold Slice.resolve at h
  dsimp only at h
  split at h
  · cases h
  · next h0 =>
    split at h
    · next hpos =>
      injection h with h
      subst h
      refine ⟨rfl, h0, ?_⟩
      dsimp only
      have hs := getD_clamp (n := n) (lo := 0) (hi := n) (d := 0) (by omega) (by omega) s.start
      have ht := getD_clamp (n := n) (lo := 0) (hi := n) (d := n) (by omega) (by omega) s.stop
      generalize (s.start.map (Slice.clampBound n 0 n)).getD 0 = a at *
      generalize (s.stop.map (Slice.clampBound n 0 n)).getD (n : Int) = b at *
      generalize s.step.getD 1 = c at *
      intro k hk
      split at hk
      · next hab =>
        have hk' : (k : Int) ≤ (b - a - 1) / c := by
          have : 0 ≤ (b - a - 1) / c := Int.ediv_nonneg (by omega) (by omega)
          omega
        have hm : (k : Int) * c ≤ b - a - 1 := (Int.le_ediv_iff_mul_le hpos).1 hk'
        have hk0 : 0 ≤ (k : Int) * c := by positivity
        constructor <;> omega
      · omega
    · next hneg =>
      injection h with h
      subst h
      refine ⟨rfl, h0, ?_⟩
      dsimp only
      have hs := getD_clamp (n := n) (lo := -1) (hi := n - 1) (d := n - 1) (by omega) (by omega) s.start
      have ht := getD_clamp (n := n) (lo := -1) (hi := n - 1) (d := -1) (by omega) (by omega) s.stop
      generalize (s.start.map (Slice.clampBound n (-1) (n - 1))).getD (n - 1 : Int) = a at *
      generalize (s.stop.map (Slice.clampBound n (-1) (n - 1))).getD (-1) = b at *
      generalize s.step.getD 1 = c at *
      intro k hk
      split at hk
      · next hab =>
        have hc : 0 < -c := by omega
        have hk' : (k : Int) ≤ (a - b - 1) / (-c) := by
          have : 0 ≤ (a - b - 1) / (-c) := Int.ediv_nonneg (by omega) (by omega)
          omega
        have hm : (k : Int) * (-c) ≤ a - b - 1 := (Int.le_ediv_iff_mul_le hc).1 hk'
        have hk0 : 0 ≤ (k : Int) * (-c) := by positivity
        have : (k : Int) * (-c) = - (k * c) := by ring
        constructor <;> omega
      · omega

theorem resolve_pos_lt {s : Slice} {n : Nat} {r : RSlice} (h : s.resolve n = .ok r) {k : Nat}
    (hk : k < r.len) : r.pos k < n := by
  have := (resolve_ok h).2.2 k hk
  unfold RSlice.pos
  omega

theorem resolve_pos_inj {s : Slice} {n : Nat} {r : RSlice} (h : s.resolve n = .ok r) {j k : Nat}
    (hj : j < r.len) (hk : k < r.len) (hp : r.pos j = r.pos k) : j = k := by
  obtain ⟨_, h0, hb⟩ := resolve_ok h
  have h1 := hb j hj
  have h2 := hb k hk
  unfold RSlice.pos at hp
  have h3 : (j : Int) * r.step = k * r.step := by omega
  have := Int.eq_of_mul_eq_mul_right h0 h3
  omega

theorem resolve_error_iff {s : Slice} {n : Nat} :
    (∃ e, s.resolve n = .error e) ↔ s.step = some 0 := by
  unfold Slice.resolve
  dsimp only
  cases hs : s.step with
  | none => simp
  | some c =>
    simp only [Option.getD_some, Option.some.injEq]
    split
    · next h => simp [h]
    · next h => split <;> simp [h]

theorem resolve_error_kind {s : Slice} {n : Nat} {e : Err} (h : s.resolve n = .error e) :
    e = .valueError := by
  unfold Slice.resolve at h
  dsimp only at h
  split at h
  · cases h; rfl
  · split at h <;> cases h

/-- the full slice -/
theorem resolve_full (n : Nat) : Slice.resolve {} n = .ok ⟨0, 1, n⟩ := by
  unfold Slice.resolve
  simp
  intro h; omega

theorem pyIndex_lt {n : Nat} {i : Int} (h : ND.ValidIndex n i) : ND.pyIndex n i < n := by
  unfold ND.ValidIndex at h
  unfold ND.pyIndex
  split <;> omega

/-! ### Neutral empty shapes -/

theorem dict_ext {β : Type} {d d' : Dict β} (hd : Dict.WF d) (hk : keys d = keys d')
    (h : ∀ x, get? d x = get? d' x) : d = d' := by
  induction d generalizing d' with
  | nil => cases d' with
    | nil => rfl
    | cons p d' => simp [keys] at hk
  | cons p d ih =>
    cases d' with
    | nil => simp [keys] at hk
    | cons q d' =>
      simp only [keys_cons, List.cons.injEq] at hk
      rw [wf_cons] at hd
      have h1 := h p.1
      rw [get?_cons, get?_cons] at h1
      simp only [hk.1, if_true] at h1
      have hpq : p = q := by
        refine Prod.ext hk.1 ?_
        simpa using h1
      subst hpq
      rw [ih (d' := d') hd.2 hk.2]
      intro x
      have hx := h x
      rw [get?_cons, get?_cons] at hx
      by_cases hp : p.1 = x
      · subst hp
        rw [get?_eq_none.2 hd.1, get?_eq_none.2 (hk.2 ▸ hd.1)]
      · simpa [hp] using hx

theorem bcShape_nil_left {s : Shape} (hs : Dict.WF s) : bcShape [] s = .ok s := by
  cases hb : bcShape [] s with
  | error e =>
    exfalso
    have hbc : broadcastShapes [[], s] = .error e := by
      simp only [broadcastShapes, List.foldlM_cons, hb]; rfl
    obtain ⟨_, x, m, n, hm, hn, hmn, _⟩ := broadcastShapes_error (by
      intro t ht; simp at ht; rcases ht with rfl | rfl
      · exact wf_nil
      · exact hs) hbc
    simp only [sizesOf, List.filterMap_cons, get?_nil, List.filterMap_nil] at hm hn
    cases hg : get? s x with
    | none => simp [hg] at hm
    | some k => simp [hg] at hm hn; omega
  | ok r =>
    obtain ⟨h1, h2, h3⟩ := bcShape_ok wf_nil hs hb
    congr 1
    refine dict_ext h2 (by simpa using h3) (fun x => ?_)
    have := h1 x
    simp only [get?_nil, joinOpt_none_left, Option.some.injEq] at this
    exact this.symm

theorem bcShape_nil_right (r : Shape) : bcShape r [] = .ok r := by
  unfold bcShape
  split
  · rfl
  · rfl

theorem foldlM_bcShape_filter (r : Shape) (ss : List Shape) :
    ss.foldlM bcShape r = (ss.filter (fun s => !s.isEmpty)).foldlM bcShape r := by
  induction ss generalizing r with
  | nil => rfl
  | cons s ss ih =>
    cases s with
    | nil =>
      simp only [List.foldlM_cons, List.filter_cons, List.isEmpty_nil, Bool.not_true,
        Bool.false_eq_true, if_false, bcShape_nil_right]
      exact ih r
    | cons p s =>
      simp only [List.foldlM_cons, List.filter_cons, List.isEmpty_cons, Bool.not_false, if_true]
      cases bcShape r (p :: s) with
      | error e => rfl
      | ok r' => exact ih r'

/-- Empty shapes can be dropped anywhere. -/
theorem broadcastShapes_filter_nil {ss : List Shape} (h : ∀ s ∈ ss, Dict.WF s) :
    broadcastShapes ss = broadcastShapes (ss.filter (fun s => !s.isEmpty)) := by
  induction ss with
  | nil => rfl
  | cons s ss ih =>
    cases s with
    | nil =>
      have hrest : ∀ s ∈ ss, Dict.WF s := fun s hs => h s (by simp [hs])
      simp only [List.filter_cons, List.isEmpty_nil, Bool.not_true, Bool.false_eq_true, if_false]
      rw [← ih hrest]
      cases ss with
      | nil => rfl
      | cons t ss =>
        simp only [broadcastShapes, List.foldlM_cons, bcShape_nil_left (hrest t (by simp))]
        rfl
    | cons p s =>
      simp only [List.filter_cons, List.isEmpty_cons, Bool.not_false, if_true, broadcastShapes]
      exact foldlM_bcShape_filter _ _

namespace SA
variable {α : Type}

/-! ### The parts of `organize` -/

/-- the entries of an item which are advanced -/
def advItem (item : Dict IndexVal) : Dict IndexVal :=
  item.filterMap (fun p => p.2.advanced?.map (fun v => (p.1, v)))

/-- the shapes of the index arrays of an item -/
def arrayShapes (item : Dict IndexVal) : List Shape :=
  item.filterMap (fun p => match p.2 with
    | .arr b => some b.shape
    | _ => none)

/-- the index arrays of the item are well formed -/
def ItemWF (item : Dict IndexVal) : Prop :=
  Dict.WF item ∧ ∀ ax b, (ax, IndexVal.arr b) ∈ item → b.WF

theorem keys_advItem_sub (item : Dict IndexVal) : keys (advItem item) ⊆ keys item := by
  intro x hx
  unfold keys advItem at *
  obtain ⟨p, hp, rfl⟩ := List.mem_map.1 hx
  obtain ⟨q, hq, hqp⟩ := List.mem_filterMap.1 hp
  cases hv : q.2.advanced? with
  | none => simp [hv] at hqp
  | some v =>
    simp [hv] at hqp
    exact List.mem_map.2 ⟨q, hq, by rw [← hqp]⟩

theorem wf_advItem {item : Dict IndexVal} (h : Dict.WF item) : Dict.WF (advItem item) := by
  induction item with
  | nil => exact wf_nil
  | cons p item ih =>
    rw [wf_cons] at h
    unfold advItem
    rw [List.filterMap_cons]
    cases hv : p.2.advanced? with
    | none => simp only [Option.map_none]; exact ih h.2
    | some v =>
      simp only [Option.map_some]
      rw [wf_cons]
      exact ⟨fun hx => h.1 (keys_advItem_sub item hx), ih h.2⟩

theorem get?_advItem {item : Dict IndexVal} (h : Dict.WF item) (x : String) :
    get? (advItem item) x = (get? item x).bind IndexVal.advanced? := by
  induction item with
  | nil => rfl
  | cons p item ih =>
    rw [wf_cons] at h
    have ih := ih h.2
    rw [get?_cons]
    unfold advItem at ih ⊢
    rw [List.filterMap_cons]
    cases hv : p.2.advanced? with
    | none =>
      simp only [Option.map_none]
      rw [ih]
      split
      · next hx =>
        subst hx
        rw [get?_eq_none.2 h.1]
        simp [hv]
      · rfl
    | some v =>
      simp only [Option.map_some, get?_cons]
      split
      · simp [hv]
      · exact ih

theorem mem_keys_advItem {item : Dict IndexVal} (h : Dict.WF item) {x : String} :
    x ∈ keys (advItem item) ↔ (∃ i, get? item x = some (.int i)) ∨ ∃ b, get? item x = some (.arr b) := by
  rw [← get?_isSome, get?_advItem h]
  cases hg : get? item x with
  | none => simp
  | some v => cases v <;> simp [IndexVal.advanced?]

theorem arrayShapes_wf {item : Dict IndexVal} (h : ItemWF item) : ∀ s ∈ arrayShapes item, Dict.WF s := by
  intro s hs
  obtain ⟨p, hp, hps⟩ := List.mem_filterMap.1 hs
  obtain ⟨ax, v⟩ := p
  cases v with
  | arr b =>
    simp at hps
    subst hps
    exact wf_shape (h.2 ax b hp)
  | _ => simp at hps

theorem advShapes_eq {item : Dict IndexVal} :
    ((advItem item).values.map IndexVal.shape).filter (fun s => !s.isEmpty) =
      (arrayShapes item).filter (fun s => !s.isEmpty) := by
  induction item with
  | nil => rfl
  | cons p item ih =>
    obtain ⟨ax, v⟩ := p
    unfold advItem arrayShapes values at ih ⊢
    rw [List.filterMap_cons, List.filterMap_cons]
    cases v with
    | int i => simpa [IndexVal.advanced?, IndexVal.shape] using ih
    | arr b =>
      have h1 : (IndexVal.arr b).advanced? = some (.arr b) := rfl
      have h2 : (IndexVal.arr b).shape = b.shape := rfl
      simp only [h1, Option.map_some, List.map_cons, h2, List.filter_cons]
      rw [ih]
    | slice s => simpa [IndexVal.advanced?] using ih
    | none => simpa [IndexVal.advanced?] using ih

theorem advShapes_wf {item : Dict IndexVal} (h : ItemWF item) :
    ∀ s ∈ (advItem item).values.map IndexVal.shape, Dict.WF s := by
  intro s hs
  obtain ⟨v, hv, rfl⟩ := List.mem_map.1 hs
  cases v with
  | arr b =>
    obtain ⟨p, hp, hpv⟩ := List.mem_map.1 hv
    obtain ⟨q, hq, hqp⟩ := List.mem_filterMap.1 hp
    obtain ⟨ax, w⟩ := q
    cases w with
    | arr c =>
      simp [IndexVal.advanced?] at hqp
      subst hqp
      simp at hpv
      subst hpv
      exact wf_shape (h.2 ax c hq)
    | int i => simp [IndexVal.advanced?] at hqp; subst hqp; simp at hpv
    | slice s => simp [IndexVal.advanced?] at hqp
    | none => simp [IndexVal.advanced?] at hqp
  | _ => exact wf_nil

theorem broadcast_advShapes {item : Dict IndexVal} (h : ItemWF item) :
    broadcastShapes ((advItem item).values.map IndexVal.shape) = broadcastShapes (arrayShapes item) := by
  rw [broadcastShapes_filter_nil (advShapes_wf h), broadcastShapes_filter_nil (arrayShapes_wf h),
    advShapes_eq]

/-- an advanced entry of an item is an int or a (well-formed) array of the item -/
theorem mem_advItem {item : Dict IndexVal} {ax : String} {v : IndexVal} (h : (ax, v) ∈ advItem item) :
    (ax, v) ∈ item ∧ ((∃ i, v = .int i) ∨ ∃ b, v = .arr b) := by
  obtain ⟨q, hq, hqp⟩ := List.mem_filterMap.1 h
  obtain ⟨ax', w⟩ := q
  cases w with
  | arr c => simp [IndexVal.advanced?] at hqp; obtain ⟨rfl, rfl⟩ := hqp; exact ⟨hq, .inr ⟨_, rfl⟩⟩
  | int i => simp [IndexVal.advanced?] at hqp; obtain ⟨rfl, rfl⟩ := hqp; exact ⟨hq, .inl ⟨_, rfl⟩⟩
  | slice s => simp [IndexVal.advanced?] at hqp
  | none => simp [IndexVal.advanced?] at hqp

/-- positional entry of an advanced entry -/
theorem toAdv_isOk {item : Dict IndexVal} (h : ItemWF item) {S : Shape}
    (hS : broadcastShapes (arrayShapes item) = .ok S) :
    ∃ adv, (advItem item).values.mapM (IndexVal.toAdv (keys S)) = .ok adv := by
  have hSw := (broadcastShapes_joinOf (arrayShapes_wf h) hS).1
  apply mapM_isOk
  intro v hv
  obtain ⟨p, hp, rfl⟩ := List.mem_map.1 hv
  obtain ⟨hm, ⟨i, hi⟩ | ⟨b, hb⟩⟩ := mem_advItem hp
  · rw [hi]; exact ⟨_, rfl⟩
  · rw [hb] at hm ⊢
    have hbw := h.2 _ _ hm
    have hmem : b.shape ∈ arrayShapes item := List.mem_filterMap.2 ⟨_, hm, rfl⟩
    have hsub : b.axes ⊆ keys S := by
      intro x hx
      rw [← keys_shape hbw] at hx
      obtain ⟨n, hn⟩ := exists_get?_of_mem hx
      have hj := (broadcastShapes_joinOf (arrayShapes_wf h) hS).2 x
      have hms : n ∈ sizesOf (arrayShapes item) x := List.mem_filterMap.2 ⟨_, hmem, hn⟩
      cases hg : get? S x with
      | none => rw [hg] at hj; simp only [JoinOf] at hj; rw [hj] at hms; simp at hms
      | some m => exact mem_keys_of_get? hg
    obtain ⟨w, hw⟩ := aligned_isOk hbw hSw hsub
    refine ⟨.arr w, ?_⟩
    simp only [IndexVal.toAdv, hw]
    rfl

theorem toAdv_val {S : Shape} (hS : Dict.WF S) {v : IndexVal} {x : ND.AdvIdx}
    (hb : ∀ b, v = .arr b → b.WF) (h : v.toAdv (keys S) = .ok x) (e : String → Nat) :
    (∃ i, v = .int i ∧ x.val ((keys S).map e) = i) ∨
    (∃ b, v = .arr b ∧ x.val ((keys S).map e) = b.atB e) := by
  cases v with
  | int i => cases h; exact .inl ⟨i, rfl, rfl⟩
  | arr b =>
    right
    simp only [IndexVal.toAdv] at h
    cases ha : b.aligned (keys S) with
    | error e => rw [ha] at h; cases h
    | ok w =>
      rw [ha] at h
      cases h
      exact ⟨b, rfl, aligned_clip (hb b rfl) hS ha e⟩
  | slice s => cases h
  | none => cases h

/-- Quantifying over an aligned array is quantifying over named indices. -/
theorem aligned_forall {b : SA α} (hb : b.WF) {axes : List String} (hn : axes.Nodup) {w : ND α}
    (h : b.aligned axes = .ok w) (P : α → Prop) :
    (∀ i ∈ ndIndices w.shape, P (w.get i)) ↔ ∀ e, InRange b.shape e → P (b.at' e) := by
  obtain ⟨hsub, hs, hg⟩ := aligned_ok hb hn h
  constructor
  · intro hp e he
    have h1 : ND.InRange w.shape (axes.map (fun ax => if ax ∈ b.axes then e ax else 0)) := by
      rw [ND.inRange_iff, hs]
      refine ⟨by simp, fun k h1 h2 => ?_⟩
      simp only [List.getElem_map]
      split
      · next hm =>
        obtain ⟨n, hn'⟩ := exists_get?_of_mem (d := b.shape) (by rw [keys_shape hb]; exact hm)
        rw [hn']
        exact he _ _ hn'
      · next hm => rw [(get?_shape_none hb).2 hm]; simp
    have := hp _ (mem_ndIndices.2 h1)
    rw [hg] at this
    rwa [at'_congr (e' := e) (by intro ax hax; simp [hax])] at this
  · intro hp i hi
    have hi' : ND.InRange w.shape i := mem_ndIndices.1 hi
    have hl : i.length = axes.length := by rw [ND.inRange_length hi', hs]; simp
    rw [← map_envOf hn hl, hg]
    apply hp
    intro ax n hax
    have hm : ax ∈ axes := hsub (by rw [← keys_shape hb]; exact mem_keys_of_get? hax)
    rw [ND.inRange_iff] at hi'
    have := hi'.2 (axes.idxOf ax) (by rw [hl]; exact idxOf_lt hm) (by rw [hs]; simpa using idxOf_lt hm)
    simp only [hs, List.getElem_map, List.getElem_idxOf, hax, Option.getD_some] at this
    unfold envOf
    rwa [List.getD_eq_getElem _ _ (by rw [hl]; exact idxOf_lt hm)]

end SA
end NA
