import Verif.Props.Ranks
import Verif.Props.Correlations

/-!
# C69: rank correlation

`spearman root l` is the correlation coefficient of the ranks of the pairs `l`.
-/

namespace NA
open Dict
open SA (FitsIn InRange)

variable {K : Type} [Field K] [LinearOrder K] [IsStrictOrderedRing K] {α : Type} [LinearOrder α]

/-- The rank correlation coefficient of a list of pairs. -/
def spearman (root : K → K) (l : List (α × α)) : Option K :=
  pearson root (l.map (fun p => (rankOf "average" (l.map Prod.fst) p.1, rankOf "average" (l.map Prod.snd) p.2)))

theorem original_single {T : Shape} {x : String} {N : Nat} (hx : get? T x = some N) (e : String → Nat) :
    original T [x] e = e := by
  funext ax
  unfold original SA.splitIndex
  have hic : "*".intercalate [x] = x := rfl
  rw [hic]
  split
  · rename_i h
    have h2 := List.mem_singleton.1 h
    subst h2
    simp [ND.unravel]
  · rfl

theorem slabEnvs_line {T : Shape} {x : String} {N : Nat} (hx : get? T x = some N) (e : String → Nat) :
    slabEnvs [x] (sizeIn T) e = (List.range N).map (fun k => Function.update e x k) := by
  rw [SA.slabEnvs_singleton, sizeIn, hx]; rfl

theorem mapM_pairs {β γ δ κ : Type} {g : β → γ} {h : δ → γ} {F : β → Option κ} {G : δ → κ} : ∀ {ks : List β} {l : List δ},
    ks.map g = l.map h → (∀ k ∈ ks, ∀ p ∈ l, g k = h p → F k = some (G p)) → ks.mapM F = some (l.map G)
  | [], [], _, _ => rfl
  | [], _ :: _, hm, _ => by simp at hm
  | _ :: _, [], hm, _ => by simp at hm
  | k :: ks, p :: l, hm, hF => by
    simp only [List.map_cons, List.cons.injEq] at hm
    rw [List.mapM_cons, hF k (by simp) p (by simp) hm.1,
      mapM_pairs hm.2 (fun k' hk p' hp => hF k' (List.mem_cons_of_mem _ hk) p' (List.mem_cons_of_mem _ hp))]
    rfl

/-- ranks along one axis with a mask -/
theorem is_rankdata {T : Shape} {a : SA (Option α)} {w : SA Bool} {f : (String → Nat) → Option α} {p : (String → Nat) → Bool}
    (ha : Is T a f) (hw : Is T w p) {x : String} {N : Nat} (hx : get? T x = some N) (hpos : ∀ ax n, get? T ax = some n → n ≠ 0)
    {asrt : List (Option α) → List Nat} {asrtI : List Int → List Nat}
    (h1 : Argsorts leFloat asrt) (h2 : Argsorts (· ≤ ·) asrtI) :
    ∃ r h, SA.rankdata (K := K) asrt asrtI a (some [x]) "average" (.inr w) = .ok r ∧ Is T r h ∧
      ∀ e, InRange T e → (p e = false → h e = none) ∧ (p e = true → ∀ v, f e = some v →
        h e = some (rankOf "average" ((lineOf (fun i => if p i = true then f i else none) x N e).filterMap id) v)) := by
  have hss : ∀ s ∈ [a.shape, w.shape], Dict.WF s := by
    intro s hs
    simp only [List.mem_cons, List.not_mem_nil, or_false] at hs
    rcases hs with rfl | rfl
    · exact SA.wf_shape ha.wf
    · exact SA.wf_shape hw.wf
  obtain ⟨S, hS, hSw, hST⟩ := bs_full (S := T) (t := a.shape) hss (by
    intro s hs
    simp only [List.mem_cons, List.not_mem_nil, or_false] at hs
    rcases hs with rfl | rfl
    · exact ha.full.fits.2
    · exact hw.full.fits.2) (by simp) ha.shape
  have hxS : get? S x = some N := (hST x).trans hx
  have hic : "*".intercalate [x] = x := rfl
  obtain ⟨r, r1, r2, r3, r4⟩ := C67_rankdata_mask_partial (K := K) a ha.wf w hw.wf S hS (some [x]) [x] rfl (by simp) (by simp)
    (by intro ax h; rw [List.mem_singleton.1 h]; exact mem_keys_of_get? hxS)
    (by intro ax _ h; rw [hic]; simpa using h) (fun ax n h => hpos ax n ((hST ax).symm.trans h)) asrt asrtI h1 h2 "average" (by simp)
  have hcomb : Same (combined S [x]) T := by
    intro ax
    rw [get?_combined (by intro ax _ h; rw [hic]; simpa using h), hic]
    by_cases hax : ax = x
    · subst hax; simp [sizeIn, hxS, hx]
    · simp [hax, hST ax]
  have hrT : Same r.shape T := fun ax => (r3 ax).trans (hcomb ax)
  refine ⟨r, r.at', r1, ⟨r2, hrT, fun _ _ => rfl⟩, fun e he => ?_⟩
  obtain ⟨q1, q2⟩ := r4 e (inRange_same (same_symm hrT) he)
  rw [original_single hxS] at q1 q2
  rw [hw.atB he, ha.atB he] at q2
  rw [hw.atB he] at q1
  refine ⟨q1, fun ht v hv => ?_⟩
  rw [q2 ht v hv, slabEnvs_line hxS]
  unfold lineOf
  congr 2
  rw [List.filterMap_map, List.filterMap_map]
  apply List.filterMap_congr
  intro k hk
  have hin : InRange T (Function.update e x k) :=
    inRange_update hx (fun ax m _ hm => he ax m hm) (by simpa using hk)
  simp only [Function.comp_apply, hw.atB hin, ha.atB hin]
  rfl

/-- **C69** `spearmanr(x, y, axis, where)`: the element at an index of the remaining axes is the rank correlation
coefficient of the selected pairs of elements of `x` and `y` which agree with that index (if none of them is `nan`). -/
theorem C69_spearmanr (root : K → K) (hr : IsRoot root) (x y : SA (Option α)) (hx : x.WF) (hy : y.WF) (w : SA Bool)
    (hw : w.WF) (S : Shape) (hS : broadcastShapes [x.shape, y.shape, w.shape] = .ok S)
    (axis : Option (List String)) (A : List String) (hax : A = axis.getD (keys S)) (hA : A.Nodup) (hAne : A ≠ [])
    (hAs : A ⊆ keys S) (hcoll : ∀ ax ∈ keys S, ax ∉ A → ax ≠ "*".intercalate A)
    (hpos : ∀ ax n, get? S ax = some n → n ≠ 0)
    (asrt : List (Option α) → List Nat) (asrtI : List Int → List Nat)
    (h1 : Argsorts leFloat asrt) (h2 : Argsorts (· ≤ ·) asrtI) :
    ∃ r, SA.spearmanr root asrt asrtI x y axis w = .ok r ∧ r.WF ∧ Same r.shape (without S A) ∧
      ∀ e, InRange r.shape e → ∀ l : List (α × α),
        (reduced S A (some w) e).map (fun i => (x.atB i, y.atB i)) = l.map (fun p => (some p.1, some p.2)) →
        r.at' e = spearman root l := by
  set flat := "*".intercalate A with hflat
  have hss : ∀ s ∈ [x.shape, y.shape, w.shape], Dict.WF s := by
    intro s hs
    simp only [List.mem_cons, List.not_mem_nil, or_false] at hs
    rcases hs with rfl | rfl | rfl
    · exact SA.wf_shape hx
    · exact SA.wf_shape hy
    · exact SA.wf_shape hw
  obtain ⟨hSw, hSk, _⟩ := C01_broadcast_shapes_ok _ hss S hS
  have hb : ∀ {γ : Type} (a : SA γ), a.WF → a.shape ∈ [x.shape, y.shape, w.shape] →
      ∃ b, a.broadcastTo S = .ok b ∧ b.shape = S ∧ Is S b a.atB ∧ ∀ e e', (∀ ax ∈ keys S, e ax = e' ax) → a.atB e = a.atB e' := by
    intro γ a ha hmem
    obtain ⟨_, b, b1, b2, b3, b4⟩ | ⟨h, _⟩ := SA.C10_broadcast_to a ha S hSw
    · refine ⟨b, b1, b3, ⟨b2, fun ax => by rw [b3], fun e _ => b4 e⟩, fun e e' hee => SA.atB_congr fun ax h => hee ax ?_⟩
      exact (hSk ax).2 ⟨a.shape, hmem, by rw [SA.keys_shape ha]; exact h⟩
    · exact absurd (SA.fitsIn_of_broadcastShapes hss hS hmem) h
  obtain ⟨x', x1, x2, x3, x4⟩ := hb x hx (by simp)
  obtain ⟨y', y1, y2, y3, y4⟩ := hb y hy (by simp)
  obtain ⟨w', w1, w2, w3, w4⟩ := hb w hw (by simp)
  have hn : axisNormalized x'.axes axis = A := by
    rw [hax, ← SA.keys_shape x3.wf, x2]; cases axis <;> rfl
  obtain ⟨xc, xc1, xc2⟩ := is_combineAxes x3 hA (fun ax h => hAs h) hcoll hpos
  obtain ⟨yc, yc1, yc2⟩ := is_combineAxes y3 hA (fun ax h => hAs h) hcoll hpos
  obtain ⟨wc, wc1, wc2⟩ := is_combineAxes w3 hA (fun ax h => hAs h) hcoll hpos
  set T := combined S A with hT
  set N := (A.map (sizeIn S)).prod with hN
  have hTx : get? T flat = some N := by rw [hT, get?_combined hcoll, if_pos rfl]
  have hTpos : ∀ ax n, get? T ax = some n → n ≠ 0 := by
    intro ax n h
    rw [hT, get?_combined hcoll] at h
    split at h
    · injection h with h
      rw [← h]
      intro h0
      rw [List.prod_eq_zero_iff] at h0
      obtain ⟨b, hb, hb0⟩ := List.mem_map.1 h0
      obtain ⟨m, hm⟩ := exists_get?_of_mem (hAs hb)
      rw [sizeIn, hm] at hb0
      exact hpos b m hm hb0
    · split at h
      · cases h
      · exact hpos ax n h
  obtain ⟨rx, fx, rx1, rx2, rx3⟩ := is_rankdata (K := K) xc2 wc2 hTx hTpos h1 h2
  obtain ⟨ry, fy, ry1, ry2, ry3⟩ := is_rankdata (K := K) yc2 wc2 hTx hTpos h1 h2
  have hrs : ∀ s ∈ [rx.shape, ry.shape], Dict.WF s := by
    intro s hs
    simp only [List.mem_cons, List.not_mem_nil, or_false] at hs
    rcases hs with rfl | rfl
    · exact SA.wf_shape rx2.wf
    · exact SA.wf_shape ry2.wf
  obtain ⟨T', hT', hTw, hTT⟩ := bs_full (S := T) (t := rx.shape) hrs (by
    intro s hs
    simp only [List.mem_cons, List.not_mem_nil, or_false] at hs
    rcases hs with rfl | rfl
    · exact rx2.full.fits.2
    · exact ry2.full.fits.2) (by simp) rx2.shape
  have hwok : ∀ q : SA (Option K), Same q.shape T → SA.WhereOk q (some wc) := by
    intro q hq v hv
    cases hv
    exact ⟨wc2.wf, fun ax m hm => ⟨m, (hq ax).trans ((wc2.shape ax).symm.trans hm), .inl rfl⟩⟩
  obtain ⟨r, r1, r2, r3, r4⟩ := C68_pearsonr root hr rx ry rx2.wf ry2.wf T' hT' (some wc) (hwok rx rx2.shape) (hwok ry ry2.shape)
    (some [flat]) [flat] (by simp) rfl rfl (by
      intro ax h
      rw [List.mem_singleton.1 h, rx2.shape, ry2.shape, hTx]
      exact ⟨rfl, by simp⟩)
  have hwo : Same (without T' [flat]) (without S A) := by
    intro ax
    rw [get?_without, get?_without, hTT, hT, get?_combined hcoll]
    by_cases h : ax = flat
    · rw [if_pos (by simp [h])]
      by_cases hm : ax ∈ A
      · rw [if_pos hm]
      · rw [if_neg hm]
        symm
        rw [get?_eq_none]
        intro hk
        exact hcoll ax hk hm h
    · rw [if_neg (by simp [h]), if_neg h]
  refine ⟨r, ?_, r2, fun ax => (r3 ax).trans (hwo ax), fun e he l hl => ?_⟩
  · unfold SA.spearmanr
    simp only [bind, Except.bind, hS, x1, y1, w1, hn, SA.flattenAxes_ok hAne]
    rw [xc1]
    simp only [yc1, wc1]
    rw [rx1]
    dsimp only
    rw [← hflat, ry1]
    exact r1
  · rw [r4 e he]
    have heS : InRange (without S A) e := inRange_same hwo (inRange_same r3 he)
    -- the combined line
    have hin : ∀ k < N, InRange T (Function.update e flat k) := by
      intro k hk
      apply inRange_update hTx _ hk
      intro ax m hax' hm
      rw [hT, get?_combined hcoll, if_neg hax'] at hm
      split at hm
      · cases hm
      · rename_i hmA
        exact heS ax m (by rw [get?_without, if_neg hmA]; exact hm)
    have hxT' : get? T' flat = some N := (hTT flat).trans hTx
    have hred : reduced T' [flat] (some wc) e =
        ((List.range N).filter (fun k => w.atB (original S A (Function.update e flat k)))).map (fun k => Function.update e flat k) := by
      unfold reduced
      rw [slabEnvs_line hxT', List.filter_map]
      congr 1
      apply List.filter_congr
      intro k hk
      exact wc2.atB (hin k (by simpa using hk))
    set ks := (List.range N).filter (fun k => w.atB (original S A (Function.update e flat k))) with hks
    have hks' : ∀ k ∈ ks, k < N ∧ w.atB (original S A (Function.update e flat k)) = true := by
      intro k hk
      rw [hks, List.mem_filter] at hk
      exact ⟨by simpa using hk.1, hk.2⟩
    -- the elements of the slab
    have hslab : ∀ {γ : Type} (f : (String → Nat) → γ), (∀ e e', (∀ ax ∈ keys S, e ax = e' ax) → f e = f e') →
        (List.range N).map (fun k => f (original S A (Function.update e flat k))) = (slabEnvs A (sizeIn S) e).map f := by
      intro γ f hf
      have := lineOf_original (S := S) (A := A) hcoll hf e
      unfold lineOf at this
      rw [← hflat, ← hN] at this
      rw [this]
      congr 1
      apply slabEnvs_congr (fun _ _ => rfl)
      intro ax hax'
      unfold original SA.splitIndex
      rw [if_neg hax']
    have hpairs : ks.map (fun k => (x.atB (original S A (Function.update e flat k)), y.atB (original S A (Function.update e flat k)))) =
        l.map (fun p => (some p.1, some p.2)) := by
      rw [← hl]
      have h3 := hslab (fun i => (w.atB i, x.atB i, y.atB i)) (fun e e' hee => by rw [x4 e e' hee, y4 e e' hee, w4 e e' hee])
      have h4 := congrArg (fun m => (m.filter (fun t : Bool × Option α × Option α => t.1)).map (fun t => t.2)) h3
      simp only [List.filter_map, List.map_map] at h4
      exact h4
    -- the pairs of the list
    have hlen : ks.length = l.length := by simpa using congrArg List.length hpairs
    have hkx : ks.map (fun k => x.atB (original S A (Function.update e flat k))) = (l.map Prod.fst).map some := by
      have := congrArg (List.map Prod.fst) hpairs
      simpa [List.map_map, Function.comp_def] using this
    have hky : ks.map (fun k => y.atB (original S A (Function.update e flat k))) = (l.map Prod.snd).map some := by
      have := congrArg (List.map Prod.snd) hpairs
      simpa [List.map_map, Function.comp_def] using this
    have hline : ∀ (f : (String → Nat) → Option α) (m : List α),
        ks.map (fun k => f (original S A (Function.update e flat k))) = m.map some → ∀ k,
        (lineOf (fun i => if w.atB (original S A i) = true then f (original S A i) else none) flat N (Function.update e flat k)).filterMap id = m := by
      intro f m hm k
      rw [lineOf_update]
      unfold lineOf
      rw [List.filterMap_map]
      have h5 : (List.range N).filterMap (id ∘ fun k => if w.atB (original S A (Function.update e flat k)) = true then
          f (original S A (Function.update e flat k)) else none) =
          (ks.map (fun k => f (original S A (Function.update e flat k)))).filterMap id := by
        rw [hks, List.filterMap_map, ← List.filterMap_eq_filter, List.filterMap_filterMap]
        apply List.filterMap_congr
        intro k _
        simp only [Function.comp_apply, id]
        cases hwk : w.atB (original S A (Function.update e flat k)) <;> simp [hwk, Option.guard]
      rw [h5, hm, List.filterMap_map]
      simp
    have hboth : (reduced T' [flat] (some wc) e).mapM (fun i => both (rx.atB i) (ry.atB i)) =
        some (l.map (fun p => (rankOf "average" (l.map Prod.fst) p.1, rankOf "average" (l.map Prod.snd) p.2))) := by
      rw [hred, List.mapM_map]
      apply mapM_pairs hpairs
      intro k hk p hp hkp
      obtain ⟨hkN, hwk⟩ := hks' k hk
      simp only [Prod.mk.injEq] at hkp
      simp only [Function.comp_apply]
      rw [rx2.atB (hin k hkN), ry2.atB (hin k hkN), (rx3 _ (hin k hkN)).2 hwk p.1 hkp.1, (ry3 _ (hin k hkN)).2 hwk p.2 hkp.2,
        hline _ _ hkx k, hline _ _ hky k]
      rfl
    rw [hboth]
    rfl

/-- **C69** The rank correlation is symmetric. -/
theorem C69_symmetric (root : K → K) (l : List (α × α)) : spearman root (l.map Prod.swap) = spearman root l := by
  unfold spearman
  rw [← C68_symmetric root (l.map (fun p => (rankOf "average" (l.map Prod.fst) p.1, rankOf "average" (l.map Prod.snd) p.2)))]
  simp only [List.map_map]
  rfl

/-- **C69** The rank correlation lies between -1 and 1. -/
theorem C69_bounded (root : K → K) (hr : IsRoot root) (l : List (α × α)) (r : K) (h : spearman root l = some r) :
    -1 ≤ r ∧ r ≤ 1 := C68_bounded root hr _ r h

/-- **C69** Only the order of the elements matters: strictly increasing functions of the two sequences have the same rank
correlation. -/
theorem C69_increasing {γ : Type} [LinearOrder γ] (root : K → K) (g h : α → γ) (hg : StrictMono g) (hh : StrictMono h)
    (l : List (α × α)) : spearman root (l.map (fun p => (g p.1, h p.2))) = spearman root l := by
  unfold spearman
  congr 1
  have h1 : (l.map (fun p => (g p.1, h p.2))).map Prod.fst = (l.map Prod.fst).map g := by simp
  have h2 : (l.map (fun p => (g p.1, h p.2))).map Prod.snd = (l.map Prod.snd).map h := by simp
  rw [h1, h2, List.map_map]
  apply List.map_congr_left
  intro p _
  simp only [Function.comp_apply]
  rw [C67_increasing g hg, C67_increasing h hh]

theorem rankOf_ne {l : List α} (h : ∃ x ∈ l, ∃ y ∈ l, x ≠ y) :
    ∃ x ∈ l.map (rankOf (K := K) "average" l), ∃ y ∈ l.map (rankOf (K := K) "average" l), x ≠ y := by
  obtain ⟨x, hx, y, hy, hxy⟩ := h
  refine ⟨_, List.mem_map_of_mem hx, _, List.mem_map_of_mem hy, ?_⟩
  rcases lt_or_gt_of_ne hxy with h | h
  · exact (C67_order "average" l x y hx hy h).ne
  · exact (C67_order "average" l y x hy hx h).ne'

/-- **C69** If one sequence is a strictly increasing function of the other, the coefficient is 1. -/
theorem C69_increasing_function (root : K → K) (hr : IsRoot root) (g : α → α) (hg : StrictMono g) (l : List α)
    (h : ∃ x ∈ l, ∃ y ∈ l, x ≠ y) : spearman root (l.map (fun x => (x, g x))) = some 1 := by
  rw [← C68_self root hr _ (rankOf_ne (K := K) h)]
  unfold spearman
  have h1 : (l.map (fun x => (x, g x))).map Prod.fst = l := by rw [List.map_map]; exact List.map_id l
  have h2 : (l.map (fun x => (x, g x))).map Prod.snd = l.map g := by simp
  rw [h1, h2, List.map_map, List.map_map]
  congr 1
  apply List.map_congr_left
  intro x _
  simp only [Function.comp_apply]
  rw [C67_increasing g hg]

/-- the ranks of a decreasing function are the ranks from the other end -/
theorem rankOf_anti {γ : Type} [LinearOrder γ] (g : α → γ) (hg : StrictAnti g) (l : List α) (v : α) :
    (rankOf "average" (l.map g) (g v) : K) = -1 * rankOf "average" l v + (l.length + 1) := by
  have h1 : (l.map g).countP (fun y => decide (y < g v)) + l.countP (fun y => decide (y ≤ v)) = l.length := by
    rw [List.countP_map, List.length_eq_countP_add_countP (fun y => decide (y ≤ v)), add_comm]
    congr 1
    apply List.countP_congr
    intro y _
    simp [hg.lt_iff_gt]
  have h2 : (l.map g).countP (fun y => decide (y ≤ g v)) + l.countP (fun y => decide (y < v)) = l.length := by
    rw [List.countP_map, List.length_eq_countP_add_countP (fun y => decide (y < v)), add_comm]
    congr 1
    apply List.countP_congr
    intro y _
    simp [hg.le_iff_ge]
  have h1' : ((l.map g).countP (fun y => decide (y < g v)) : K) + l.countP (fun y => decide (y ≤ v)) = l.length := by
    exact_mod_cast h1
  have h2' : ((l.map g).countP (fun y => decide (y ≤ g v)) : K) + l.countP (fun y => decide (y < v)) = l.length := by
    exact_mod_cast h2
  unfold rankOf
  simp only [if_true]
  linear_combination (1/2) * h1' + (1/2) * h2'

/-- **C69** If one sequence is a strictly decreasing function of the other, the coefficient is -1. -/
theorem C69_decreasing_function (root : K → K) (hr : IsRoot root) (g : α → α) (hg : StrictAnti g) (l : List α)
    (h : ∃ x ∈ l, ∃ y ∈ l, x ≠ y) : spearman root (l.map (fun x => (x, g x))) = some (-1) := by
  have h0 := C68_affine root hr ((l.map (rankOf (K := K) "average" l)).map (fun x => (x, x))) 1 0 (-1) (l.length + 1)
    (by simp) (by simp)
  rw [C68_self root hr _ (rankOf_ne (K := K) h)] at h0
  unfold spearman
  have h1 : (l.map (fun x => (x, g x))).map Prod.fst = l := by rw [List.map_map]; exact List.map_id l
  have h2 : (l.map (fun x => (x, g x))).map Prod.snd = l.map g := by simp
  rw [h1, h2, List.map_map]
  rw [List.map_map, List.map_map] at h0
  refine Eq.trans ?_ (h0.trans ?_)
  · congr 1
    apply List.map_congr_left
    intro x _
    simp only [Function.comp_apply]
    rw [rankOf_anti g hg, one_mul, add_zero]
  · simp

/-! ### Examples -/

/-- `[[7, 7, 9, 9, 0], [5, 4, 4, 5, 0]]` -/
def exSx : SA (Option Int) := ⟨["x", "y"], ⟨[2, 5], fun i =>
  ([some 7, some 7, some 9, some 9, some 0, some 5, some 4, some 4, some 5, some 0] : List (Option Int)).getD
    (i.getD 0 0 * 5 + i.getD 1 0) none⟩⟩

/-- `[30, -1, -1, 30, 50]` -/
def exSy : SA (Option Int) := ⟨["y"], ND.vec [some 30, some (-1), some (-1), some 30, some 50]⟩

/-- `[True, True, True, True, False]` -/
def exSw : SA Bool := ⟨["y"], ND.vec [true, true, true, true, false]⟩

example : (SA.spearmanr exRoot (exRank none exLe) (exRank (0 : Int) (fun x y => decide (x ≤ y))) exSx exSy (some ["y"]) exSw).toOption.map
    (fun r => (r.axes, r.nd.toList)) = some (["x"], [some 0, some 1]) := by decide +kernel

example : broadcastShapes [exSx.shape, exSy.shape, exSw.shape] = .ok [("x", 2), ("y", 5)] ∧
    (∀ ax ∈ ["x", "y"], ax ∉ ["y"] → ax ≠ "*".intercalate ["y"]) ∧
    (reduced [("x", 2), ("y", 5)] ["y"] (some exSw) (fun _ => 0)).map (fun i => (exSx.atB i, exSy.atB i)) =
      ([(7, 30), (7, -1), (9, -1), (9, 30)] : List (Int × Int)).map (fun p => (some p.1, some p.2)) := by
  refine ⟨by decide, by decide, by decide +kernel⟩

end NA
