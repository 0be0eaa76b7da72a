import Mathlib.Algebra.Order.Field.Basic
import Mathlib.Data.List.Sort
import Mathlib.Algebra.BigOperators.Group.List.Basic
import Mathlib.Data.Rat.Defs
import Mathlib.Tactic.Linarith
import Mathlib.Tactic.FieldSimp
import Mathlib.Tactic.Ring
import Verif.Stats.Combined

/-!
# C67: ranks

`rankOf method l v` is the rank of the value `v` among the values `l`, `slabEnvs A sz e` lists the
named indices which differ from `e` along the axes `A` only, `combined S A` is the shape after the
axes `A` have been flattened and `original S A e` the index of the element which is found at the
index `e` after flattening.
-/

namespace NA
open Dict
open SA (FitsIn InRange)

variable {α : Type} [LinearOrder α]

theorem unravel_inRange {S : Shape} {A : List String} (hA : A.Nodup) {e : String → Nat}
    (he : e ("*".intercalate A) < (A.map (sizeIn S)).prod) :
    ∀ ax ∈ A, original S A e ax < sizeIn S ax := by
  intro ax hax
  have h3 := ND.inRange_unravel he
  have h4 : A.map (original S A e) = ND.unravel (A.map (sizeIn S)) (e ("*".intercalate A)) :=
    map_slabEnv hA (i := ND.unravel (A.map (sizeIn S)) (e ("*".intercalate A))) (by simp [ND.length_unravel]) e
  rw [← h4] at h3
  exact (SA.inRange_map (axes := A) (e := original S A e) (sz := sizeIn S)).1 h3 ax hax

/-- the line along the combined axis -/
theorem lineOf_original {β : Type} {S : Shape} {A : List String} {f : (String → Nat) → β}
    (hcoll : ∀ ax ∈ keys S, ax ∉ A → ax ≠ "*".intercalate A)
    (hf : ∀ e e', (∀ ax ∈ keys S, e ax = e' ax) → f e = f e') (e : String → Nat) :
    lineOf (fun e => f (original S A e)) ("*".intercalate A) (A.map (sizeIn S)).prod e =
      (slabEnvs A (sizeIn S) (original S A e)).map f := by
  unfold lineOf slabEnvs
  rw [ND.ndIndices_eq_map_unravel, List.map_map, List.map_map]
  apply List.map_congr_left
  intro k _
  apply hf
  intro ax hax
  simp only [original, SA.splitIndex, slabEnv, Function.update_self]
  by_cases h : ax ∈ A
  · simp [h]
  · simp [h, Function.update_of_ne (hcoll ax hax h)]

theorem rankAxis_ok {A : List String} (hA : A ≠ []) : SA.rankAxis A = .ok ("*".intercalate A) := by
  match A, hA with
  | [x], _ => rfl
  | x :: y :: l, _ => exact SA.flattenAxes_ok (by simp)

/-- the ranks along several axes -/
theorem is_rank {K : Type} [Field K] {S : Shape} {a : SA (Option α)} {f : (String → Nat) → Option α} (ha : Is S a f)
    (hf : ∀ e e', (∀ ax ∈ keys S, e ax = e' ax) → f e = f e') {A : List String}
    (hA : A.Nodup) (hAne : A ≠ []) (hAs : ∀ ax ∈ A, ax ∈ keys S)
    (hcoll : ∀ ax ∈ keys S, ax ∉ A → ax ≠ "*".intercalate A) (hpos : ∀ ax n, get? S ax = some n → n ≠ 0)
    {asrt : List (Option α) → List Nat} {asrtI : List Int → List Nat}
    (h1 : Argsorts leFloat asrt) (h2 : Argsorts (· ≤ ·) asrtI) (method : String) :
    ∃ b r h, a.combineMany A ("*".intercalate A) = .ok b ∧
      SA.rankAlong (K := K) asrt asrtI neFloat method b ("*".intercalate A) = .ok r ∧ Is (combined S A) r h ∧
      ∀ e, InRange (combined S A) e → ∀ v, f (original S A e) = some v →
        h e = rankOf method ((slabEnvs A (sizeIn S) (original S A e)).filterMap f) v := by
  obtain ⟨b, b1, b2⟩ := is_combineMany ha hA hAne hAs hcoll hpos
  have hprod : (A.map (sizeIn S)).prod ≠ 0 := by
    intro h
    rw [List.prod_eq_zero_iff] at h
    obtain ⟨ax, hax, h0⟩ := List.mem_map.1 h
    obtain ⟨n, hn⟩ := exists_get?_of_mem (hAs ax hax)
    rw [sizeIn, hn] at h0
    exact hpos ax n hn h0
  have hx : get? (combined S A) ("*".intercalate A) = some (A.map (sizeIn S)).prod := by
    rw [get?_combined hcoll, if_pos rfl]
  obtain ⟨r, h, r1, r2, r3⟩ := is_rankAlong (K := K) hx (by omega) b2 (by
    intro ax m hax hm
    rw [get?_combined hcoll, if_neg hax] at hm
    split at hm
    · cases hm
    · exact hpos ax m hm) h1 h2 method
  refine ⟨b, r, h, b1, r1, r2, fun e he v hv => ?_⟩
  rw [r3 e he v hv, lineOf_original hcoll hf, List.filterMap_map]
  rfl

/-- **C67** `rankdata(a, axis, method)`: the axes `A` are flattened, and every element is given its rank among
the elements which differ from it along these axes only. -/
theorem C67_rankdata_partial {K : Type} [Field K] (a : SA (Option α)) (ha : a.WF) (axis : Option (List String)) (A : List String)
    (hax : A = axis.getD a.axes) (hA : A.Nodup) (hAne : A ≠ []) (hAs : A ⊆ a.axes)
    (hcoll : ∀ ax ∈ a.axes, ax ∉ A → ax ≠ "*".intercalate A) (hpos : ∀ ax n, get? a.shape ax = some n → n ≠ 0)
    (asrt : List (Option α) → List Nat) (asrtI : List Int → List Nat)
    (h1 : Argsorts leFloat asrt) (h2 : Argsorts (· ≤ ·) asrtI) (method : String)
    (hm : method ∈ ["average", "min", "max", "dense"]) :
    ∃ r : SA (Option K), SA.rankdata asrt asrtI a axis method (.inl true) = .ok r ∧ r.WF ∧
      Same r.shape (combined a.shape A) ∧
      ∀ e, InRange r.shape e → ∀ v, a.at' (original a.shape A e) = some v →
        r.at' e = some (rankOf method ((slabEnvs A (sizeIn a.shape) (original a.shape A e)).filterMap a.at') v) := by
  have hk := SA.keys_shape ha
  obtain ⟨b, r, h, b1, r1, r2, r3⟩ := is_rank (K := K) (Is.self ha)
    (fun e e' hee => SA.at'_congr (by rw [← hk]; exact hee)) hA hAne (by rw [hk]; exact fun ax h => hAs h)
    (by rw [hk]; exact hcoll) hpos h1 h2 method
  obtain ⟨c, c1, c2⟩ := is_ufunc1 (some : K → Option K) r2
  have hn : axisNormalized a.axes axis = A := by rw [hax]; cases axis <;> rfl
  refine ⟨c, ?_, c2.wf, c2.shape, fun e he v hv => ?_⟩
  · unfold SA.rankdata
    rw [if_pos hm]
    simp only [bind, Except.bind, hn, rankAxis_ok hAne, b1, r1, c1]
  · have he' := inRange_same c2.shape he
    rw [c2.elem e he', r3 e he' v hv]

/-- **C67** `rankdata(a, axis, method, where)` with an array as `where`: only the elements at which it is true are
ranked, the others are `nan`. -/
theorem C67_rankdata_mask_partial {K : Type} [Field K] (a : SA (Option α)) (ha : a.WF) (w : SA Bool) (hw : w.WF) (S : Shape)
    (hS : broadcastShapes [a.shape, w.shape] = .ok S) (axis : Option (List String)) (A : List String)
    (hax : A = axis.getD (keys S)) (hA : A.Nodup) (hAne : A ≠ []) (hAs : A ⊆ keys S)
    (hcoll : ∀ ax ∈ keys S, ax ∉ A → ax ≠ "*".intercalate A) (hpos : ∀ ax n, get? S ax = some n → n ≠ 0)
    (asrt : List (Option α) → List Nat) (asrtI : List Int → List Nat)
    (h1 : Argsorts leFloat asrt) (h2 : Argsorts (· ≤ ·) asrtI) (method : String)
    (hm : method ∈ ["average", "min", "max", "dense"]) :
    ∃ r : SA (Option K), SA.rankdata asrt asrtI a axis method (.inr w) = .ok r ∧ r.WF ∧
      Same r.shape (combined S A) ∧
      ∀ e, InRange r.shape e →
        (w.atB (original S A e) = false → r.at' e = none) ∧
        (w.atB (original S A e) = true → ∀ v, a.atB (original S A e) = some v →
          r.at' e = some (rankOf method ((slabEnvs A (sizeIn S) (original S A e)).filterMap
            (fun i => if w.atB i = true then a.atB i else none)) v)) := by
  have hss : ∀ s ∈ [a.shape, w.shape], Dict.WF s := by
    intro s hs
    simp only [List.mem_cons, List.not_mem_nil, or_false] at hs
    rcases hs with rfl | rfl
    · exact SA.wf_shape ha
    · exact SA.wf_shape hw
  obtain ⟨hSw, hSk, _⟩ := C01_broadcast_shapes_ok _ hss S hS
  obtain ⟨_, a', a1, a2, a3, a4⟩ | ⟨h, _⟩ := SA.C10_broadcast_to a ha S hSw
  swap
  · exact absurd (SA.fitsIn_of_broadcastShapes hss hS (by simp)) h
  obtain ⟨_, w', w1, w2, w3, w4⟩ | ⟨h, _⟩ := SA.C10_broadcast_to w hw S hSw
  swap
  · exact absurd (SA.fitsIn_of_broadcastShapes hss hS (by simp)) h
  have hsc : (SA.scalar (none : Option α)).WF := by constructor <;> simp [SA.scalar, ND.ndim, ND.scalar]
  have hsck : (SA.scalar (none : Option K)).WF := by constructor <;> simp [SA.scalar, ND.ndim, ND.scalar]
  have ia : Is S a' a.atB := ⟨a2, fun ax => by rw [a3], fun e _ => a4 e⟩
  have iw : Is S w' w.atB := ⟨w2, fun ax => by rw [w3], fun e _ => w4 e⟩
  have hwh : ∀ {γ : Type} {T : Shape} {c : SA Bool} {x : SA (Option γ)} {p : (String → Nat) → Bool}
      {f : (String → Nat) → Option γ} (hc : Is T c p) (hx : Is T x f),
      ∃ r, SA.where' none c x (SA.scalar none) = .ok r ∧ Is T r (fun e => if p e = true then f e else none) ∧
        (c.shape = x.shape → r.shape = c.shape) := by
    intro γ T c x p f hc hx
    have hscg : (SA.scalar (none : Option γ)).WF := by constructor <;> simp [SA.scalar, ND.ndim, ND.scalar]
    have hw3 : ∀ s ∈ [c.shape, x.shape, (SA.scalar (none : Option γ)).shape], Dict.WF s := by
      intro s hs
      simp only [List.mem_cons, List.not_mem_nil, or_false] at hs
      rcases hs with rfl | rfl | rfl
      · exact SA.wf_shape hc.wf
      · exact SA.wf_shape hx.wf
      · exact SA.wf_shape hscg
    have hsz : ∀ ax m, HasSize [c.shape, x.shape, (SA.scalar (none : Option γ)).shape] ax m → get? T ax = some m := by
      rintro ax m ⟨s, hs, hm⟩
      simp only [List.mem_cons, List.not_mem_nil, or_false] at hs
      rcases hs with rfl | rfl | rfl
      · rw [← hc.shape]; exact hm
      · rw [← hx.shape]; exact hm
      · simp [SA.scalar, SA.shape, ND.scalar] at hm
    obtain ⟨s, r, s1, r1, r2, r3, r4⟩ | ⟨⟨ax, m, n, hm, hn, hmn, _⟩, _⟩ := SA.C57_where none c x (SA.scalar none) hc.wf hx.wf hscg
    · refine ⟨r, r1, ⟨r2, ?_, ?_⟩, ?_⟩
      · obtain ⟨_, hk3, hv3⟩ := C01_broadcast_shapes_ok _ hw3 s s1
        intro ax
        rw [r3]
        cases hg : get? T ax with
        | none =>
          rw [get?_eq_none]
          intro hmem
          obtain ⟨t, ht, hkt⟩ := (hk3 ax).1 hmem
          obtain ⟨m, hm⟩ := exists_get?_of_mem hkt
          have := hsz ax m ⟨t, ht, hm⟩
          rw [hg] at this; cases this
        | some m =>
          have hcm : get? c.shape ax = some m := (hc.shape ax).trans hg
          obtain ⟨n, hn⟩ := exists_get?_of_mem ((hk3 ax).2 ⟨c.shape, by simp, mem_keys_of_get? hcm⟩)
          have h5 := hv3 ax n hn
          rw [hn, ← hg, hsz ax n h5.1]
      · intro e he
        rw [r4, hc.atB he, hx.atB he]
        rfl
      · intro hcx
        rw [← hcx] at s1
        have : broadcastShapes [c.shape, c.shape, (SA.scalar (none : Option γ)).shape] = .ok c.shape := by
          have h6 : eqv c.shape c.shape = true :=
            (eqv_iff (SA.wf_shape hc.wf) (SA.wf_shape hc.wf)).2 (fun _ => rfl)
          have h7 : (SA.scalar (none : Option γ)).shape = [] := rfl
          rw [h7]
          simp only [broadcastShapes, List.foldlM_cons, List.foldlM_nil, bcShape, h6, if_true, bind, Except.bind]
          have h8 : ∀ b : Bool, (if b = true then Except.ok c.shape else pure c.shape : R Shape) = .ok c.shape := by
            intro b; cases b <;> rfl
          rw [h8]
          rfl
        rw [this] at s1
        cases s1
        exact r3
    · have h3 := hsz ax m hm
      rw [hsz ax n hn] at h3
      cases h3
      exact absurd rfl hmn
  obtain ⟨x, x1, x2, x3⟩ := hwh iw ia
  have hxs : x.shape = S := (x3 (by rw [w3, a3])).trans w3
  have hk : x.axes = keys S := by rw [← SA.keys_shape x2.wf, hxs]
  have hn : axisNormalized x.axes axis = A := by rw [hax, hk]; cases axis <;> rfl
  have haxS : ∀ ax ∈ a.axes, ax ∈ keys S := fun ax h => (hSk ax).2 ⟨a.shape, by simp, by rw [SA.keys_shape ha]; exact h⟩
  have hwxS : ∀ ax ∈ w.axes, ax ∈ keys S := fun ax h => (hSk ax).2 ⟨w.shape, by simp, by rw [SA.keys_shape hw]; exact h⟩
  obtain ⟨b, r, h, b1, r1, r2, r3⟩ := is_rank (K := K) x2
    (fun e e' hee => by
      rw [SA.atB_congr (a := a) (fun ax h => hee ax (haxS ax h)), SA.atB_congr (a := w) (fun ax h => hee ax (hwxS ax h))])
    hA hAne (fun ax h => hAs h) hcoll hpos h1 h2 method
  obtain ⟨w'', v1, v2⟩ := is_combineMany iw hA hAne (fun ax h => hAs h) hcoll hpos
  obtain ⟨c, c1, c2⟩ := is_ufunc1 (some : K → Option K) r2
  obtain ⟨d, d1, d2, -⟩ := hwh v2 c2
  refine ⟨d, ?_, d2.wf, d2.shape, fun e he => ?_⟩
  · unfold SA.rankdata
    rw [if_pos hm]
    simp only [bind, Except.bind, hS, a1, w1, x1, hn, rankAxis_ok hAne, b1, v1, r1, c1, d1]
  · have he' := inRange_same d2.shape he
    rw [d2.elem e he']
    refine ⟨fun hf => by rw [if_neg (by rw [hf]; simp)], fun ht v hv => ?_⟩
    rw [if_pos ht, r3 e he' v (by rw [if_pos ht]; exact hv)]

/-- **C67** An unknown method is rejected. -/
theorem C67_method {K : Type} [Field K] (a : SA (Option α)) (axis : Option (List String)) (wh : Bool ⊕ SA Bool)
    (asrt : List (Option α) → List Nat) (asrtI : List Int → List Nat) (method : String)
    (hm : method ∉ ["average", "min", "max", "dense"]) :
    SA.rankdata (K := K) asrt asrtI a axis method wh = .error .valueError := by
  unfold SA.rankdata; rw [if_neg hm]

/-- **C67** A mask which cannot be broadcast against the array is rejected. -/
theorem C67_mask_error {K : Type} [Field K] (a : SA (Option α)) (ha : a.WF) (w : SA Bool) (hw : w.WF)
    (hc : Clash [a.shape, w.shape]) (axis : Option (List String))
    (asrt : List (Option α) → List Nat) (asrtI : List Int → List Nat) (method : String) :
    SA.rankdata (K := K) asrt asrtI a axis method (.inr w) = .error .valueError := by
  have hss : ∀ s ∈ [a.shape, w.shape], Dict.WF s := by
    intro s hs
    simp only [List.mem_cons, List.not_mem_nil, or_false] at hs
    rcases hs with rfl | rfl
    · exact SA.wf_shape ha
    · exact SA.wf_shape hw
  obtain ⟨e, he⟩ := (C01_broadcast_shapes_error_iff _ hss).2 hc
  have h2 := C01_broadcast_shapes_error_kind _ hss e he
  unfold SA.rankdata
  simp only [bind, Except.bind, he, h2]
  split <;> rfl

/-! The ranks themselves. -/

section
variable {K : Type} [Field K] [LinearOrder K] [IsStrictOrderedRing K]

theorem countP_lt_le (l : List α) (v : α) : l.countP (fun y => decide (y < v)) ≤ l.countP (fun y => decide (y ≤ v)) :=
  List.countP_mono_left (fun x _ h => by simp at h ⊢; exact h.le)

theorem countP_le_lt (l : List α) {u v : α} (h : u < v) :
    l.countP (fun y => decide (y ≤ u)) ≤ l.countP (fun y => decide (y < v)) :=
  List.countP_mono_left (fun x _ h' => by simp at h' ⊢; exact lt_of_le_of_lt h' h)

theorem countP_lt_self (l : List α) {v : α} (h : v ∈ l) :
    l.countP (fun y => decide (y < v)) < l.countP (fun y => decide (y ≤ v)) := by
  induction l with
  | nil => simp at h
  | cons x l ih =>
    rw [List.countP_cons, List.countP_cons]
    have h3 := countP_lt_le l v
    by_cases hx : x = v
    · subst hx; simp; omega
    · have h4 := ih ((List.mem_cons.1 h).resolve_left (fun h => hx h.symm))
      have : (x < v) ↔ (x ≤ v) := by rw [lt_iff_le_and_ne]; simp [hx]
      simp only [this]; omega

/-- **C67** A smaller element has a smaller rank, whatever the method. -/
theorem C67_order (method : String) (l : List α) (u v : α) (hu : u ∈ l) (hv : v ∈ l) (h : u < v) :
    (rankOf method l u : K) < rankOf method l v := by
  have h1 := countP_lt_self l hu
  have h2 := countP_lt_self l hv
  have h3 := countP_le_lt l h
  unfold rankOf
  simp only
  split
  · have h1' : (l.countP (fun y => decide (y < u)) : K) < l.countP (fun y => decide (y ≤ u)) := by exact_mod_cast h1
    have h2' : (l.countP (fun y => decide (y < v)) : K) < l.countP (fun y => decide (y ≤ v)) := by exact_mod_cast h2
    have h3' : (l.countP (fun y => decide (y ≤ u)) : K) ≤ l.countP (fun y => decide (y < v)) := by exact_mod_cast h3
    linarith
  · split
    · have h4 : (l.countP (fun y => decide (y < u)) : K) < l.countP (fun y => decide (y < v)) := by
        exact_mod_cast (show _ from by omega : l.countP (fun y => decide (y < u)) < l.countP (fun y => decide (y < v)))
      linarith
    · split
      · exact_mod_cast (show _ from by omega : l.countP (fun y => decide (y ≤ u)) < l.countP (fun y => decide (y ≤ v)))
      · have : l.toFinset.filter (fun y => y ≤ u) ⊂ l.toFinset.filter (fun y => y ≤ v) := by
          rw [Finset.ssubset_iff_of_subset]
          · exact ⟨v, by simp [hv], by simp [h]⟩
          · intro x hx
            simp only [Finset.mem_filter, List.mem_toFinset] at hx ⊢
            exact ⟨hx.1, hx.2.trans h.le⟩
        exact_mod_cast Finset.card_lt_card this

/-- **C67** A rank is at least one and at most the number of elements. -/
theorem C67_bounds (method : String) (l : List α) (v : α) (hv : v ∈ l) :
    (1 : K) ≤ rankOf method l v ∧ (rankOf method l v : K) ≤ l.length := by
  have h1 := countP_lt_self l hv
  have h2 : l.countP (fun y => decide (y ≤ v)) ≤ l.length := List.countP_le_length
  have h2' : (l.countP (fun y => decide (y ≤ v)) : K) ≤ l.length := by exact_mod_cast h2
  have h1' : (l.countP (fun y => decide (y < v)) : K) + 1 ≤ l.countP (fun y => decide (y ≤ v)) := by exact_mod_cast h1
  have h0 : (0 : K) ≤ l.countP (fun y => decide (y < v)) := by exact_mod_cast Nat.zero_le _
  unfold rankOf
  simp only
  split
  · constructor <;> linarith
  · split
    · constructor <;> linarith
    · split
      · constructor <;> linarith
      · constructor
        · have : 0 < (l.toFinset.filter (fun y => y ≤ v)).card := Finset.card_pos.2 ⟨v, by simp [hv]⟩
          exact_mod_cast this
        · have : (l.toFinset.filter (fun y => y ≤ v)).card ≤ l.length :=
            (Finset.card_filter_le _ _).trans (List.toFinset_card_le l)
          exact_mod_cast this

omit [LinearOrder K] [IsStrictOrderedRing K] in
/-- **C67** The ranks depend on the order of the elements only: a strictly increasing function does not change
them. -/
theorem C67_increasing {γ : Type} [LinearOrder γ] (g : α → γ) (hg : StrictMono g) (method : String) (l : List α) (v : α) :
    (rankOf method (l.map g) (g v) : K) = rankOf method l v := by
  unfold rankOf
  simp only [List.countP_map]
  have h1 : ((fun y : γ => decide (y < g v)) ∘ g) = fun y => decide (y < v) := by
    funext y; simp [hg.lt_iff_lt]
  have h2 : ((fun y : γ => decide (y ≤ g v)) ∘ g) = fun y => decide (y ≤ v) := by
    funext y; simp [hg.le_iff_le]
  have h3 : (l.map g).toFinset.filter (fun y => y ≤ g v) = (l.toFinset.filter (fun y => y ≤ v)).image g := by
    ext y
    simp only [Finset.mem_filter, List.mem_toFinset, List.mem_map, Finset.mem_image]
    constructor
    · rintro ⟨⟨x, hx, rfl⟩, h⟩
      exact ⟨x, ⟨hx, hg.le_iff_le.1 h⟩, rfl⟩
    · rintro ⟨x, ⟨hx, h⟩, rfl⟩
      exact ⟨⟨x, hx, rfl⟩, hg.le_iff_le.2 h⟩
  rw [h1, h2, h3, Finset.card_image_of_injective _ hg.injective]

omit [LinearOrder K] [IsStrictOrderedRing K] [LinearOrder α] in
theorem sum_countP (p : α → α → Bool) (l m : List α) :
    (l.map (fun v => m.countP (fun y => p y v))).sum = (m.map (fun y => l.countP (fun v => p y v))).sum := by
  induction l with
  | nil => simp
  | cons x l ih =>
    have : (m.map (fun y => (x :: l).countP (fun v => p y v))).sum =
        m.countP (fun y => p y x) + (m.map (fun y => l.countP (fun v => p y v))).sum := by
      clear ih
      induction m with
      | nil => simp
      | cons y m ih2 =>
        rw [List.map_cons, List.sum_cons, ih2, List.map_cons, List.sum_cons, List.countP_cons, List.countP_cons]
        omega
    rw [this, List.map_cons, List.sum_cons, ih]

/-- **C67** The averaged ranks of `n` elements add up to `n * (n + 1) / 2`. -/
theorem C67_total (l : List α) : (l.map (fun v => (rankOf "average" l v : K))).sum = (l.length : K) * (l.length + 1) / 2 := by
  have h1 : (l.map (fun v => l.countP (fun y => decide (y < v)))).sum + (l.map (fun v => l.countP (fun y => decide (y ≤ v)))).sum =
      l.length * l.length := by
    rw [sum_countP (fun y v => decide (y ≤ v))]
    have : ∀ m : List α, (m.map (fun v => l.countP (fun y => decide (y < v)))).sum + (m.map (fun v => l.countP (fun y => decide (v ≤ y)))).sum =
        m.length * l.length := by
      intro m
      induction m with
      | nil => simp
      | cons v m ih =>
        have h2 : l.countP (fun y => decide (y < v)) + l.countP (fun y => decide (v ≤ y)) = l.length := by
          clear ih
          induction l with
          | nil => rfl
          | cons y l ih =>
            simp only [List.countP_cons, List.length_cons]
            rcases lt_or_ge y v with h | h
            · simp [h, not_le.2 h]; omega
            · simp [h, not_lt.2 h]; omega
        simp only [List.map_cons, List.sum_cons, List.length_cons, Nat.succ_mul]
        omega
    exact this l
  have h2 : ∀ m : List α, (m.map (fun v => (rankOf "average" l v : K))).sum =
      (((m.map (fun v => l.countP (fun y => decide (y < v)))).sum : Nat) + ((m.map (fun v => l.countP (fun y => decide (y ≤ v)))).sum : Nat) + (m.length : K)) / 2 := by
    intro m
    induction m with
    | nil => simp
    | cons v m ih =>
      simp only [List.map_cons, List.sum_cons, ih, List.length_cons]
      unfold rankOf
      simp only [if_true]
      push_cast
      ring
  rw [h2, ← Nat.cast_add, h1]
  push_cast
  ring

end

/-! Examples. -/

/-- sorting the positions by insertion -/
def exRank {β : Type} (d : β) (le : β → β → Bool) (l : List β) : List Nat :=
  (List.range l.length).insertionSort (fun i j => le (l.getD i d) (l.getD j d) = true)

theorem exRank_argsorts {β : Type} (d : β) (le : β → β → Bool) (ht : ∀ x y, le x y = true ∨ le y x = true)
    (htr : ∀ x y z, le x y = true → le y z = true → le x z = true) :
    Argsorts (fun x y => le x y = true) (exRank d le) := by
  intro l
  refine ⟨List.perm_insertionSort _ _, ?_⟩
  have h1 : Std.Total (fun i j : Nat => le (l.getD i d) (l.getD j d) = true) := ⟨fun i j => ht _ _⟩
  have h2 : IsTrans Nat (fun i j => le (l.getD i d) (l.getD j d) = true) := ⟨fun i j k => htr _ _ _⟩
  refine List.Pairwise.imp ?_ (List.pairwise_insertionSort (fun i j => le (l.getD i d) (l.getD j d) = true) (List.range l.length))
  intro i j h x y hx hy
  rw [List.getD_eq_getElem?_getD, List.getD_eq_getElem?_getD, hx, hy] at h
  exact h

/-- `nan` last -/
def exLe : Option Int → Option Int → Bool
  | some x, some y => decide (x ≤ y)
  | none, some _ => false
  | _, none => true

theorem exLe_iff (x y : Option Int) : exLe x y = true ↔ leFloat x y := by
  cases x <;> cases y <;> simp [exLe, leFloat]

theorem exFloat_argsorts : Argsorts leFloat (exRank none exLe) := by
  have := exRank_argsorts none exLe
    (by intro x y; cases x <;> cases y <;> simp [exLe]; omega)
    (by intro x y z; cases x <;> cases y <;> cases z <;> simp [exLe]; omega)
  have h : (fun x y => exLe x y = true) = leFloat := by
    funext x y; exact propext (exLe_iff x y)
  rwa [h] at this

theorem exInt_argsorts : Argsorts (· ≤ ·) (exRank (0 : Int) (fun x y => decide (x ≤ y))) := by
  have := exRank_argsorts (0 : Int) (fun x y => decide (x ≤ y))
    (by intro x y; simp; omega) (by intro x y z; simp; omega)
  simpa using this

/-- `[[30, 10, 20], [10, nan, 10]]` -/
def exR : SA (Option Int) := ⟨["x", "y"], ⟨[2, 3], fun i =>
  ([some 30, some 10, some 20, some 10, none, some 10] : List (Option Int)).getD (i.getD 0 0 * 3 + i.getD 1 0) none⟩⟩

/-- `[True, True, False]` along `y` -/
def exW : SA Bool := ⟨["y"], ND.vec [true, true, false]⟩

def exRun (axis : Option (List String)) (method : String) (wh : Bool ⊕ SA Bool) : Option (List String × List (Option ℚ)) :=
  (SA.rankdata (exRank none exLe) (exRank (0 : Int) (fun x y => decide (x ≤ y))) exR axis method wh).toOption.map
    (fun r => (r.axes, r.nd.toList))

example : exRun (some ["y"]) "average" (.inl true) =
    some (["y", "x"], [some 3, some (3/2), some 1, some 3, some 2, some (3/2)]) := by decide +kernel
example : exRun none "min" (.inl true) =
    some (["x*y"], [some 5, some 1, some 4, some 1, some 6, some 1]) := by decide +kernel
example : exRun none "dense" (.inr exW) =
    some (["x*y"], [some 2, some 1, none, some 1, some 4, none]) := by decide +kernel

example : exR.WF ∧ "*".intercalate ["x", "y"] = "x*y" ∧ combined exR.shape ["x", "y"] = [("x*y", 6)] := by
  refine ⟨?_, rfl, by decide⟩
  constructor <;> simp [exR, ND.ndim]

/-- **C67** Refuted: with the python value `False` as `where` nothing is selected, and still everything is ranked. -/
theorem C67_where_false_refuted :
    exRun (some ["y"]) "min" (.inl false) = some (["y", "x"], [some 3, some 1, some 1, some 3, some 2, some 1]) ∧
    exRun (some ["y"]) "min" (.inr (SA.scalar false)) = some (["x", "y"], [none, none, none, none, none, none]) := by
  decide +kernel

/-- **C67** Limit: the ranks of an empty array are not empty, but an error. -/
theorem C67_empty_limit :
    (SA.rankdata (K := ℚ) (exRank none exLe) (exRank (0 : Int) (fun x y => decide (x ≤ y)))
      ⟨["x"], ⟨[0], fun _ => (none : Option Int)⟩⟩ none "min" (.inl true)).toOption.map (fun r => r.axes) = none := by
  decide +kernel

end NA
