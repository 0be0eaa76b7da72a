import Verif.Stats.Named
import Verif.Stats.RankLemmas

/-! Helper lemmas about the steps of `rankdata`. -/

namespace NA
open Dict
open SA (FitsIn InRange)

variable {α : Type} [LinearOrder α]

/-- two arrays joined along an axis -/
theorem is_concat2 {β : Type} {S : Shape} {a b : SA β} {f g : (String → Nat) → β} {x : String} {m n : Nat}
    (hx : get? S x = some k) (ha : Is (set S x m) a f) (hb : Is (set S x n) b g) :
    ∃ c, SA.concatenate [a, b] x = .ok c ∧ Is (set S x (m + n)) c
      (fun e => if e x < m then f e else g (Function.update e x (e x - m))) := by
  have hw : ∀ c ∈ [a, b], c.WF := by
    intro c hc
    simp only [List.mem_cons, List.not_mem_nil, or_false] at hc
    rcases hc with rfl | rfl
    · exact ha.wf
    · exact hb.wf
  have hax : ∀ c ∈ [a, b], x ∈ c.axes := by
    intro c hc
    simp only [List.mem_cons, List.not_mem_nil, or_false] at hc
    rcases hc with rfl | rfl
    · exact ha.mem_axes (n := m) (by rw [get?_set, if_pos rfl])
    · exact hb.mem_axes (n := n) (by rw [get?_set, if_pos rfl])
  have h1 : Same (set a.shape x 1) (set S x 1) := by
    intro ax; rw [get?_set, get?_set, ha.shape, get?_set]; split <;> rfl
  have h2 : Same (set b.shape x 1) (set S x 1) := by
    intro ax; rw [get?_set, get?_set, hb.shape, get?_set]; split <;> rfl
  have hw2 : ∀ s ∈ [set a.shape x 1, set b.shape x 1], Dict.WF s := by
    intro s hs
    simp only [List.mem_cons, List.not_mem_nil, or_false] at hs
    rcases hs with rfl | rfl
    · exact Dict.wf_set (SA.wf_shape ha.wf) _ _
    · exact Dict.wf_set (SA.wf_shape hb.wf) _ _
  cases hs : broadcastShapes [set a.shape x 1, set b.shape x 1] with
  | error e =>
    exfalso
    obtain ⟨ax, m1, m2, ⟨s1, hs1, g1⟩, ⟨s2, hs2, g2⟩, hne, -⟩ := (C01_broadcast_shapes_error_iff _ hw2).1 ⟨e, hs⟩
    have key : ∀ s ∈ [set a.shape x 1, set b.shape x 1], get? s ax = get? (set S x 1) ax := by
      intro s hs
      simp only [List.mem_cons, List.not_mem_nil, or_false] at hs
      rcases hs with rfl | rfl
      · exact h1 ax
      · exact h2 ax
    rw [key s1 hs1] at g1
    rw [key s2 hs2, g1] at g2
    exact hne (Option.some.inj g2)
  | ok s =>
    have hss : Same s (set S x 1) :=
      same_of_fits h1 (fun ax m hm => ⟨m, by rw [← h2 ax]; exact hm, .inl rfl⟩) (hw2 _ (by simp)) (hw2 _ (by simp)) hs
    obtain ⟨r, r1, r2, r3, r4⟩ := SA.C24_concatenate [a, b] hw (by simp) x hax s hs
    have hsz : SA.sizesAlong [a, b] x = [m, n] := by
      simp only [SA.sizesAlong, List.map_cons, List.map_nil, ha.shape x, hb.shape x, get?_set, if_pos, Option.getD_some]
    have hsame : Same r.shape (set S x (m + n)) := by
      intro ax
      rw [r3, hsz, get?_set, get?_set]
      split
      · simp
      · rename_i h
        rw [hss ax, get?_set, if_neg h]
    refine ⟨r, r1, r2, hsame, fun e he => ?_⟩
    obtain ⟨he1, he2⟩ := inRange_set.1 he
    by_cases hlt : e x < m
    · have := r4 0 (by simp) (e x) (by simp [ha.shape x, get?_set, hlt]) e (by simp)
      simp only [List.getElem_cons_zero, Function.update_eq_self] at this
      rw [this, if_pos hlt]
      exact ha.atB (inRange_set.2 ⟨hlt, he2⟩)
    · have := r4 1 (by simp) (e x - m) (by
        simp only [List.getElem_cons_succ, List.getElem_cons_zero, hb.shape x, get?_set, if_pos, Option.getD_some]
        omega) e (by rw [hsz]; simp; omega)
      simp only [List.getElem_cons_succ, List.getElem_cons_zero] at this
      rw [this, if_neg hlt]
      refine hb.atB (inRange_set.2 ⟨?_, ?_⟩)
      · rw [Function.update_self]; omega
      · intro ax k hne hk
        rw [Function.update_of_ne hne]
        exact he2 ax k hne hk

theorem sum_groups (s : Nat → Option α) (i : Nat) :
    ((List.range (i + 1)).map (fun k => if k = 0 ∨ neFloat (s k) (s (k - 1)) = true then (1 : Int) else 0)).sum =
      (groupOf s i : Int) := by
  induction i with
  | zero => simp [groupOf]
  | succ i ih =>
    rw [List.range_succ, List.map_append, List.sum_append, ih, groupOf]
    simp only [Nat.add_eq_zero_iff, one_ne_zero, and_false, Nat.add_one_sub_one, false_or, List.map_cons, List.map_nil,
      List.sum_cons, List.sum_nil, add_zero, Nat.cast_add]
    split <;> simp

theorem is_rankGroups {S : Shape} {a : SA (Option α)} {f : (String → Nat) → Option α} {x : String} {n : Nat}
    (hx : get? S x = some n) (hn : 0 < n) (ha : Is S a f) :
    ∃ g, SA.rankGroups neFloat x n a = .ok g ∧
      Is S g (fun e => (groupOf (fun k => f (Function.update e x k)) (e x) : Int)) := by
  obtain ⟨l1, p1⟩ := SA.sliceLen_range (o := 1) (t := n) (n := n) (by omega) (le_refl _)
  obtain ⟨l0, p0⟩ := SA.sliceLen_range (o := 0) (t := n - 1) (n := n) (by omega) (by omega)
  have hc : ((n - 1 : Nat) : Int) = (n : Int) - 1 := by omega
  rw [hc] at l0 p0
  obtain ⟨u, u1, u2⟩ := is_slice hx ha ⟨some 1, some n, none⟩ 1 (n - 1) l1 (fun k _ => p1 k) (by omega) (by simp)
  obtain ⟨l, q1, q2⟩ := is_slice hx ha ⟨some 0, some ((n : Int) - 1), none⟩ 0 (n - 1) l0 (fun k _ => p0 k) (by omega) (by simp)
  obtain ⟨c, c1, c2⟩ := is_ufunc2 neFloat u2 q2
  have hfw : (SA.mk [x] ⟨[1], fun _ => true⟩ : SA Bool).WF := by constructor <;> simp [ND.ndim]
  have hfs : (SA.mk [x] ⟨[1], fun _ => true⟩ : SA Bool).shape = [(x, 1)] := rfl
  have hts : Same (set c.shape x 1) (set S x 1) := by
    intro ax; rw [get?_set, get?_set, c2.shape, get?_set]; split <;> rfl
  obtain ⟨-, b, b1, b2, b3, b4⟩ | ⟨hno, -⟩ := SA.C10_broadcast_to _ hfw (set c.shape x 1)
    (Dict.wf_set (SA.wf_shape c2.wf) _ _)
  · have hb : Is (set S x 1) b (fun _ => true) := ⟨b2, fun ax => by rw [b3]; exact hts ax, fun e _ => by rw [b4]; rfl⟩
    obtain ⟨d, d1, d2⟩ := is_concat2 hx hb c2
    obtain ⟨h, h1, h2⟩ := is_ufunc1 (fun b : Bool => if b then (1 : Int) else 0) d2
    have hn' : 1 + (n - 1) = n := by omega
    rw [hn'] at h2
    obtain ⟨r, r1, r2⟩ := is_cumulative (n := n) (by rw [get?_set, if_pos rfl]) h2 List.sum
    refine ⟨r, ?_, (r2.same (set_self hx)).congr ?_⟩
    · unfold SA.rankGroups
      simp only [bind, Except.bind, u1, q1, c1, b1, d1, h1, r1]
    · intro e he
      rw [← sum_groups]
      congr 1
      apply List.map_congr_left
      intro k hk
      simp only [Function.update_self, Function.update_idem]
      by_cases hk0 : k = 0
      · simp [hk0]
      · have h3 : ¬ k < 1 := by omega
        have h4 : 1 + (k - 1) = k := by omega
        simp only [h3, if_false, hk0, false_or, h4, Nat.zero_add]
  · exfalso
    apply hno
    intro ax m hm
    rw [hfs, get?_cons] at hm
    split at hm
    · rename_i h
      simp only at h
      subst h
      cases hm
      exact ⟨1, by rw [get?_set, if_pos rfl], .inl rfl⟩
    · cases hm

/-- Shapes which fit in `S`, one of them being `S`, broadcast to `S`. -/
theorem bs_full {S t : Shape} {ss : List Shape} (hw : ∀ s ∈ ss, WF s) (hf : ∀ s ∈ ss, FitsIn s S) (ht : t ∈ ss)
    (hts : Same t S) : ∃ r, broadcastShapes ss = .ok r ∧ WF r ∧ Same r S := by
  cases hs : broadcastShapes ss with
  | error e =>
    exfalso
    obtain ⟨ax, m1, m2, ⟨s1, hs1, g1⟩, ⟨s2, hs2, g2⟩, hne, h3, h4⟩ := (C01_broadcast_shapes_error_iff _ hw).1 ⟨e, hs⟩
    obtain ⟨n1, e1, q1⟩ := hf s1 hs1 ax m1 g1
    obtain ⟨n2, e2, q2⟩ := hf s2 hs2 ax m2 g2
    rw [e1] at e2
    cases e2
    rcases q1 with rfl | rfl
    · rcases q2 with rfl | rfl
      · exact hne rfl
      · exact h4 rfl
    · exact h3 rfl
  | ok r =>
    obtain ⟨hrw, hk, hsz⟩ := C01_broadcast_shapes_ok _ hw r hs
    refine ⟨r, rfl, hrw, fun ax => ?_⟩
    cases hg : get? r ax with
    | none =>
      symm
      rw [← hts ax, get?_eq_none]
      intro hx
      rw [get?_eq_none] at hg
      exact hg ((hk ax).2 ⟨t, ht, hx⟩)
    | some n =>
      obtain ⟨⟨u, hu, hm⟩, h5⟩ := hsz ax n hg
      obtain ⟨k, hk', h7⟩ := hf u hu ax n hm
      rw [hk']
      have h6 := h5 k ⟨t, ht, by rw [hts ax]; exact hk'⟩
      rcases h7 with rfl | rfl
      · rfl
      · rcases h6 with rfl | rfl <;> rfl

theorem lex_update {l : List String} {e e' : String → Nat} {x : String} (hne : ∀ y ∈ l, y ≠ x → e y = e' y)
    (h : List.Lex (· < ·) (l.map e) (l.map e')) : e x < e' x := by
  induction l with
  | nil => cases h
  | cons y l ih =>
    rw [List.map_cons, List.map_cons] at h
    generalize hp : e y = p at h
    generalize hq : e' y = q at h
    cases h with
    | rel h =>
      by_cases hy : y = x
      · subst hy; omega
      · have := hne y (by simp) hy; omega
    | cons h => exact ih (fun z hz => hne z (by simp [hz])) h

/-- Writing `k + 1` at the position `g` of every element `k`: the last element of each position counts. -/
theorem is_rankCounts {K : Type} [Field K] {β : Type} {S : Shape} {a : SA β} {f : (String → Nat) → β} {b : SA Int}
    {g : (String → Nat) → Nat} {x : String} {n : Nat} (hx : get? S x = some n) (ha : Is S a f)
    (hb : Is S b (fun e => (g e : Int))) (hg : ∀ e, InRange S e → g e ≤ n) :
    ∃ c h, SA.rankCounts (K := K) x n a b = .ok c ∧ Is (set S x (n + 1)) c h ∧
      ∀ e, InRange (set S x (n + 1)) e →
        ((∀ k < n, g (Function.update e x k) ≠ e x) → h e = 0) ∧
        ∀ L < n, g (Function.update e x L) = e x → (∀ k < n, g (Function.update e x k) = e x → k ≤ L) →
          h e = ((L + 1 : Nat) : K) := by
  set T := set a.shape x (n + 1) with hT
  have hTS : Same T (set S x (n + 1)) := ha.wf_set x (n + 1)
  have hTw : Dict.WF T := Dict.wf_set (SA.wf_shape ha.wf) _ _
  obtain ⟨v, v1, v2, v3, v4⟩ := SA.C07_ufunc1_values (fun i : Int => ((i + 1 : Int) : K)) (SA.arange x n) (SA.wf_arange _ _)
  have hmk : SA.mk? ⟨values T, fun _ => (0 : K)⟩ (keys T) = .ok ⟨keys T, ⟨values T, fun _ => 0⟩⟩ :=
    SA.mk?_of_wf (by simp [ND.ndim, keys, values]) hTw
  set z : SA K := ⟨keys T, ⟨values T, fun _ => 0⟩⟩ with hz
  have hzw : z.WF := ⟨by simp [hz, ND.ndim, keys, values], hTw⟩
  have hzs : z.shape = T := by
    unfold SA.shape
    simp only [hz, keys, values]
    exact (List.zip_of_prod rfl rfl).symm
  set D := set (SA.indices T) x (.arr b) with hD
  have hxT : get? T x = some (n + 1) := by rw [hTS, get?_set, if_pos rfl]
  have hxk : x ∈ keys (SA.indices T) := by
    have : keys (SA.indices T) = keys T := by simp [SA.indices, keys, Function.comp_def]
    rw [this]; exact mem_keys_of_get? hxT
  have hkD : keys D = keys T := by
    rw [hD, keys_set, if_pos hxk]
    simp [SA.indices, keys, Function.comp_def]
  have hDw : Dict.WF D := by unfold Dict.WF; rw [hkD]; exact hTw
  have hgx : get? D x = some (.arr b) := by rw [hD, get?_set, if_pos rfl]
  have hgo : ∀ ax, ax ≠ x → get? D ax = (get? T ax).map (fun m => .arr (SA.arange ax m)) := by
    intro ax hax
    rw [hD, get?_set, if_neg (fun h => hax h.symm)]
    exact SA.get?_map_pair T (fun (ax : String) (m : Nat) => IndexVal.arr (SA.arange ax m)) ax
  have hTo : ∀ ax, ax ≠ x → get? T ax = get? S ax := by
    intro ax hax
    rw [hTS, get?_set, if_neg (fun h => hax h.symm)]
  have harr : ∀ ax v, get? D ax = some v → ∃ c, v = .arr c ∧ c.WF ∧ FitsIn c.shape S := by
    intro ax v hv
    by_cases hax : ax = x
    · subst hax
      rw [hgx] at hv
      injection hv with hv
      exact ⟨b, hv.symm, hb.wf, hb.full.fits.2⟩
    · rw [hgo ax hax] at hv
      cases hm : get? T ax with
      | none => rw [hm] at hv; cases hv
      | some m =>
        rw [hm] at hv
        injection hv with hv
        refine ⟨_, hv.symm, SA.wf_arange _ _, ?_⟩
        intro ax' k hk
        rw [SA.shape_arange, get?_cons, get?_nil] at hk
        split at hk
        · rename_i h
          subst h
          cases hk
          exact ⟨m, by rw [← hTo _ hax]; exact hm, .inl rfl⟩
        · cases hk
  have hi : SA.ItemWF D := by
    refine ⟨hDw, fun ax c hc => ?_⟩
    obtain ⟨c', h1, h2, -⟩ := harr ax _ (get?_of_mem hDw hc)
    injection h1 with h1
    rw [h1]; exact h2
  have hmemS : ∀ s ∈ SA.arrayShapes D, Dict.WF s ∧ FitsIn s S := by
    intro s hs
    unfold SA.arrayShapes at hs
    obtain ⟨p, hp, hps⟩ := List.mem_filterMap.1 hs
    obtain ⟨c, h1, h2, h3⟩ := harr p.1 p.2 (get?_of_mem hDw hp)
    rw [h1] at hps
    injection hps with hps
    rw [← hps]
    exact ⟨SA.wf_shape h2, h3⟩
  obtain ⟨S', hS', hS'w, hS'S⟩ := bs_full (S := S) (t := b.shape) (fun s hs => (hmemS s hs).1) (fun s hs => (hmemS s hs).2) (by
    unfold SA.arrayShapes
    exact List.mem_filterMap.2 ⟨(x, .arr b), mem_of_get? hgx, rfl⟩) hb.shape
  have hbas : SA.basicAxes z.axes D = [] := by
    unfold SA.basicAxes
    rw [List.filter_eq_nil_iff]
    intro ax hax
    have hax' : ax ∈ keys D := by rw [hkD]; exact hax
    obtain ⟨v, hv⟩ := exists_get?_of_mem hax'
    obtain ⟨c, h1, -⟩ := harr ax v hv
    rw [h1] at hv
    have : ax ∈ SA.advAxes D := (SA.mem_keys_advItem hi.1).2 (.inr ⟨c, hv⟩)
    simp [this]
  have hadd : SA.addressed z D S' = S' := by
    unfold SA.addressed SA.selShape
    rw [hbas]; simp
  have hsel : ∀ e, InRange S' e → ∀ ax, ax ∈ z.axes → SA.selIdx z.shape D e ax = if ax = x then g e else e ax := by
    intro e he ax hax
    have he' := inRange_same hS'S he
    unfold SA.selIdx
    by_cases h : ax = x
    · subst h
      rw [hgx, if_pos rfl]
      simp only
      rw [hb.atB he', SA.pyIndex_nat]
    · rw [hgo ax h, if_neg h]
      obtain ⟨m, hm⟩ := exists_get?_of_mem (show ax ∈ keys T from hax)
      rw [hm, Option.map_some]
      simp only
      rw [SA.atB_eq_at' (SA.wf_arange _ _)]
      · have : (SA.arange ax m).at' e = ((e ax : Nat) : Int) := rfl
        rw [this, SA.pyIndex_nat]
      · intro ax' k hk
        rw [SA.shape_arange, get?_cons, get?_nil] at hk
        split at hk
        · rename_i h'
          subst h'
          cases hk
          exact he' ax m (by rw [← hTo ax h]; exact hm)
        · cases hk
  obtain ⟨r, r1, r2, r3, r4, r5, r6⟩ := SA.C16_setitem z v hzw v2 D hi (by
      intro w hw
      obtain ⟨p, hp, rfl⟩ := List.mem_map.1 hw
      obtain ⟨c, h1, -⟩ := harr p.1 p.2 (get?_of_mem hDw hp)
      rw [h1]; rfl) (by rw [hkD]; exact List.Subset.refl _) S' hS' (by rw [hadd]; exact hS'w) (by
      intro ax _ sl hsl
      obtain ⟨c, h1, -⟩ := harr ax _ hsl
      cases h1) (by
      intro ax m hm
      rw [hzs] at hm
      refine ⟨fun i hi' => ?_, fun c hc e he => ?_⟩
      · obtain ⟨c, h1, -⟩ := harr ax _ hi'
        cases h1
      · by_cases h : ax = x
        · subst h
          rw [hxT] at hm
          cases hm
          rw [hgx] at hc
          injection hc with hc
          injection hc with hc
          subst hc
          have he' := inRange_same hb.shape he
          rw [hb.elem e he']
          have := hg e he'
          simp only [ND.ValidIndex]
          omega
        · rw [hgo ax h, hm, Option.map_some] at hc
          injection hc with hc
          injection hc with hc
          subst hc
          have h1 := he ax m (by rw [SA.shape_arange, get?_cons, if_pos rfl])
          have : (SA.arange ax m).at' e = ((e ax : Nat) : Int) := rfl
          rw [this]
          simp only [ND.ValidIndex]
          omega) (by
      rw [hadd, v3, SA.shape_arange]
      intro ax m hm
      rw [get?_cons, get?_nil] at hm
      split at hm
      · rename_i h
        subst h
        cases hm
        exact ⟨n, by rw [hS'S, hx], .inl rfl⟩
      · cases hm)
  rw [hadd] at r6
  have hAd : ∀ e f, SA.Addresses z D S' f e → InRange S f ∧ (∀ ax, ax ∈ keys S' → ax ≠ x → f ax = e ax) ∧ g f = e x := by
    rintro e f ⟨h1, h2⟩
    rw [hadd] at h1
    refine ⟨inRange_same hS'S h1, fun ax hax hne => ?_, ?_⟩
    · have hz' : ax ∈ z.axes := by
        obtain ⟨m, hm⟩ := exists_get?_of_mem hax
        rw [hS'S, ← hTo ax hne] at hm
        exact mem_keys_of_get? hm
      have := h2 ax hz'
      rwa [hsel f h1 ax hz', if_neg hne] at this
    · have hz' : x ∈ z.axes := mem_keys_of_get? hxT
      have := h2 x hz'
      rwa [hsel f h1 x hz', if_pos rfl] at this
  have hgc : ∀ f f', InRange S f → InRange S f' → (∀ ax ∈ keys S', f ax = f' ax) → g f = g f' := by
    intro f f' hf hf' hff
    have h1 := hb.elem f hf
    have h2 := hb.elem f' hf'
    rw [SA.at'_congr (e' := f') (fun ax hax => hff ax ?_), h2] at h1
    · exact (Int.ofNat_inj.1 h1).symm
    · obtain ⟨m, hm⟩ := exists_get?_of_mem (d := b.shape) (by rw [SA.keys_shape hb.wf]; exact hax)
      rw [hb.shape, ← hS'S] at hm
      exact mem_keys_of_get? hm
  have hupd : ∀ e f, InRange (set S x (n + 1)) e → SA.Addresses z D S' f e →
      f x < n ∧ g (Function.update e x (f x)) = e x := by
    intro e f he hf
    obtain ⟨h1, h2, h3⟩ := hAd e f hf
    have hlt := h1 x n hx
    refine ⟨hlt, ?_⟩
    rw [← h3]
    refine (hgc _ _ h1 (inRange_update hx (inRange_set.1 he).2 hlt) (fun ax hax => ?_)).symm
    by_cases h : ax = x
    · subst h; rw [Function.update_self]
    · rw [Function.update_of_ne h]; exact h2 ax hax h
  refine ⟨r, r.at', ?_, ⟨r2, fun ax => by rw [r4, hzs]; exact hTS ax, fun _ _ => rfl⟩, fun e he => ⟨?_, ?_⟩⟩
  · unfold SA.rankCounts
    simp only [bind, Except.bind, v1]
    have h2 : SA.mk? ⟨values (set a.shape x (n + 1)), fun _ => (0 : K)⟩ (keys (set a.shape x (n + 1))) = .ok z := hmk
    rw [h2]
    exact r1
  · intro hno
    rw [r5]
    · rfl
    · rintro ⟨f, hf⟩
      obtain ⟨h1, h2⟩ := hupd e f he hf
      exact hno _ h1 h2
  · intro L hL hgL hlast
    have he2 := (inRange_set.1 he).2
    have hf0 : InRange S (Function.update e x L) := inRange_update hx he2 hL
    have hA0 : SA.Addresses z D S' (Function.update e x L) e := by
      refine ⟨by rw [hadd]; exact inRange_same (same_symm hS'S) hf0, fun ax hax => ?_⟩
      rw [hsel _ (inRange_same (same_symm hS'S) hf0) ax hax]
      by_cases h : ax = x
      · subst h; rw [if_pos rfl]; exact hgL
      · rw [if_neg h, Function.update_of_ne h]
    obtain ⟨f, hf, hval, hl⟩ := r6 e ⟨_, hA0⟩
    obtain ⟨h1, h2⟩ := hupd e f he hf
    have hle := hlast _ h1 h2
    have hge : L ≤ f x := by
      rcases hl _ hA0 with h | h
      · have := List.map_inj_left.1 h x (mem_keys_of_get? ((hS'S x).trans hx))
        rw [Function.update_self] at this
        omega
      · have := lex_update (x := x) (fun y hy hne => by
          rw [Function.update_of_ne hne]
          exact ((hAd e f hf).2.1 y hy hne).symm) h
        rw [Function.update_self] at this
        omega
    have heq : f x = L := by omega
    rw [hval, SA.atB_eq_at' v2 (by
      rw [v3, SA.shape_arange]
      intro ax m hm
      rw [get?_cons, get?_nil] at hm
      split at hm
      · rename_i h'
        subst h'
        cases hm
        exact h1
      · cases hm), v4]
    have : (SA.arange x n).at' f = ((f x : Nat) : Int) := rfl
    rw [this, heq]
    push_cast
    rfl

end NA
