import Mathlib.Tactic.Linarith
import Mathlib.Tactic.Ring
import Mathlib.Tactic.FieldSimp
import Mathlib.Data.Rat.Floor
import Verif.Scalar.Percentile
import Verif.Props.Reductions

/-!
# Percentiles of scalar arrays

**C81** `np.percentile(a, q, axis)` has the axes of `q` followed by the remaining axes of `a`; its element is the percentile of a slab of
`a`, whatever the order of the axes; percentiles interpolate the order statistics, so they increase with `q` and lie between the minimum and the
maximum.
-/

namespace NA
open Dict

namespace SA
variable {α β κ : Type}

/-- `q` is a valid argument for `a`: it shares no axis with `a`, has at most two axes and its elements are percentiles. -/
structure GoodQ (valid : κ → Bool) (a : SA α) (q : SA κ) : Prop where
  wf : q.WF
  few : q.axes.length ≤ 2
  apart : ∀ ax ∈ a.axes, ax ∉ q.axes
  good : ∀ e, InRange q.shape e → valid (q.at' e) = true

theorem size_getD {a : SA α} (ha : a.WF) : a.nd.shape = a.axes.map a.size1 := by
  have h1 : a.nd.shape.length = a.axes.length := ha.1
  apply List.ext_getElem
  · simp [h1]
  · intro i h2 h3
    have h4 : i < a.axes.length := by omega
    have := get?_shape ha h4
    simp [size1, this]

theorem percentile_nd {valid : κ → Bool} {a : SA α} (ha : a.WF) {q : SA κ} (hq : GoodQ valid a q) {A : List String}
    (hA : A.Nodup) (hAs : A ⊆ a.axes) (hne : ∀ ax ∈ a.axes, get? a.shape ax ≠ some 0) (pct : κ → List α → β) (kd : Bool) :
    ∃ nd, a.nd.percentile valid pct q.nd (A.map a.axes.idxOf) kd = .ok nd ∧
      nd.shape = (percentileAxes a q A kd).map
        (fun ax => if ax ∈ A then 1 else if ax ∈ a.axes then a.size1 ax else q.size1 ax) ∧
      ∀ e, nd.get ((percentileAxes a q A kd).map e) =
        pct (q.at' e) ((slabEnvs (a.axes.filter (· ∈ A)) a.size1 e).map a.at') := by
  rcases ND.reduce_named ha.2 (sz := a.size1) (size_getD ha) hA hAs false (fun l k => pct k l) kd none with
    h | ⟨_, r, h2, h3, h4⟩
  · exact absurd h.1 (by simp)
  have hval : (ndIndices q.nd.shape).any (fun i => !valid (q.nd.get i)) = false := by
    rw [Bool.eq_false_iff]
    intro hh
    rw [List.any_eq_true] at hh
    obtain ⟨i, hi, hv⟩ := hh
    rw [ND.mem_ndIndices_iff] at hi
    have hl : i.length = q.axes.length := by
      have := List.Forall₂.length_eq hi
      rw [this]; exact hq.wf.1
    have h5 := hq.good (envOf q.axes i) (by
      rw [inRange_iff_nd (wf_shape hq.wf), keys_shape hq.wf, values_shape hq.wf, map_envOf hq.wf.2 hl]
      exact hi)
    unfold at' at h5
    rw [map_envOf hq.wf.2 hl] at h5
    simp [h5] at hv
  have hzero : a.nd.shape.any (· = 0) = false := by
    rw [Bool.eq_false_iff]
    intro hh
    rw [List.any_eq_true] at hh
    obtain ⟨n, hn, hz⟩ := hh
    rw [decide_eq_true_eq] at hz
    subst hz
    rw [← values_shape ha] at hn
    obtain ⟨p, hp, hp0⟩ := List.mem_map.1 hn
    have hk : p.1 ∈ a.axes := by rw [← keys_shape ha]; exact List.mem_map_of_mem hp
    refine hne p.1 hk ?_
    rw [← hp0]
    exact get?_of_mem (wf_shape ha) hp
  have hnd : q.nd.ndim = q.axes.length := hq.wf.1
  refine ⟨⟨q.nd.shape ++ r.shape, fun i => r.get (i.drop q.nd.ndim) (q.nd.get (i.take q.nd.ndim))⟩, ?_, ?_, ?_⟩
  · unfold ND.percentile
    rw [if_neg (by rw [hnd]; have := hq.few; omega), hval, h2]
    simp only [hzero, Bool.false_eq_true, if_false]
  · unfold percentileAxes
    rw [List.map_append]
    refine congrArg₂ (· ++ ·) ?_ ?_
    · rw [size_getD hq.wf]
      apply List.map_congr_left
      intro ax hax
      have h6 : ax ∉ a.axes := fun h => hq.apart ax h hax
      rw [if_neg (fun h => h6 (hAs h)), if_neg h6]
    · rw [h3]
      apply List.map_congr_left
      intro ax hax
      have h6 : ax ∈ a.axes := by
        split at hax
        · exact hax
        · exact List.mem_of_mem_filter hax
      rw [if_pos h6]
  · intro e
    unfold percentileAxes
    rw [List.map_append]
    have h7 : (q.axes.map e).length = q.nd.ndim := by rw [hnd, List.length_map]
    dsimp only
    rw [List.drop_left' h7, List.take_left' h7, h4]
    simp only [ND.maskAt, List.filter_true]
    rfl

theorem percentileAxes_nodup {valid : κ → Bool} {a : SA α} (ha : a.WF) {q : SA κ} (hq : GoodQ valid a q) (A : List String)
    (kd : Bool) : (percentileAxes a q A kd).Nodup := by
  unfold percentileAxes
  rw [List.nodup_append]
  refine ⟨hq.wf.2, ?_, ?_⟩
  · split
    · exact ha.2
    · exact ha.2.filter _
  · intro x hx y hy hxy
    subst hxy
    refine hq.apart x ?_ hx
    split at hy
    · exact hy
    · exact List.mem_of_mem_filter hy

theorem percentileLike_eq {valid : κ → Bool} {a : SA α} {q : SA κ} (hq : GoodQ valid a q) {axis : Option (List String)}
    (hAs : axis.getD a.axes ⊆ a.axes) (pct : κ → List α → β) (kd : Bool) (out : Option (SA β)) :
    percentileLike valid pct a q axis kd out =
      (a.nd.percentile valid pct q.nd ((axis.getD a.axes).map a.axes.idxOf) kd >>= fun nd =>
        percentileStore (percentileAxes a q (axis.getD a.axes) kd) nd out) := by
  have hN : axisNormalized a.axes axis = axis.getD a.axes := by cases axis <;> rfl
  unfold percentileLike
  rw [hN]
  have h1 : ((axis.getD a.axes).all (· ∈ a.axes)) = true := by
    rw [List.all_eq_true]
    intro x hx
    simpa using hAs hx
  have h2 : (a.axes.any (· ∈ q.axes)) = false := by
    rw [Bool.eq_false_iff]
    intro hh
    rw [List.any_eq_true] at hh
    obtain ⟨x, hx, hx'⟩ := hh
    exact hq.apart x hx (by simpa using hx')
  dsimp only
  rw [h1, h2, pyTupleIndex_mapM hAs]
  simp only [Bool.not_true, Bool.and_false, Bool.false_eq_true, if_false]
  rfl

/-- **C81** The result has the axes of `q` followed by the axes of `a` which are not reduced (all of them with `keepdims`, the reduced ones with size
1).  The element at a named index is the percentile, for the element of `q` at that index, of the elements of `a` which agree with the index on the
remaining axes. -/
theorem C81_percentile (valid : κ → Bool) (pct : κ → List α → β) (a : SA α) (ha : a.WF) (q : SA κ) (hq : GoodQ valid a q)
    (axis : Option (List String)) (A : List String) (hax : A = axis.getD a.axes) (hA : A.Nodup) (hAs : A ⊆ a.axes)
    (hne : ∀ ax ∈ a.axes, get? a.shape ax ≠ some 0) (kd : Bool) :
    ∃ r, percentileLike valid pct a q axis kd none = .ok r ∧ r.WF ∧
      r.axes = q.axes ++ (if kd then a.axes else a.axes.filter (· ∉ A)) ∧
      (∀ ax, get? r.shape ax =
        if ax ∈ A then (if kd then some 1 else none) else if ax ∈ a.axes then get? a.shape ax else get? q.shape ax) ∧
      ∀ e, ∃ l, IsSlab a A e l ∧ r.at' e = pct (q.at' e) (l.map a.at') := by
  obtain ⟨nd, h1, h2, h3⟩ := percentile_nd ha hq hA hAs hne pct kd
  have hnod := percentileAxes_nodup ha hq A kd
  have hdim : nd.ndim = (percentileAxes a q A kd).length := by rw [ND.ndim, h2, List.length_map]
  refine ⟨⟨percentileAxes a q A kd, nd⟩, ?_, ⟨hdim, hnod⟩, rfl, ?_, ?_⟩
  · rw [percentileLike_eq hq (by rw [← hax]; exact hAs), ← hax, h1]
    exact mk?_of_wf hdim hnod
  · intro ax
    have hw : (SA.mk (percentileAxes a q A kd) nd).WF := ⟨hdim, hnod⟩
    by_cases hm : ax ∈ percentileAxes a q A kd
    · rw [get?_shape_of_mem hw hm]
      dsimp only
      rw [h2, getD_map_idxOf _ hm]
      unfold percentileAxes at hm
      rw [List.mem_append] at hm
      by_cases h4 : ax ∈ A
      · rw [if_pos h4, if_pos h4]
        rcases hm with hm | hm
        · exact absurd hm (hq.apart ax (hAs h4))
        · cases kd with
          | true => rfl
          | false => simp [h4] at hm
      · rw [if_neg h4, if_neg h4]
        by_cases h5 : ax ∈ a.axes
        · rw [if_pos h5, if_pos h5]
          unfold size1
          obtain ⟨n, hn⟩ := exists_get?_of_mem (by rw [keys_shape ha]; exact h5 : ax ∈ keys a.shape)
          simp [hn]
        · rw [if_neg h5, if_neg h5]
          have h6 : ax ∈ q.axes := by
            rcases hm with hm | hm
            · exact hm
            · exfalso
              split at hm
              · exact h5 hm
              · exact h5 (List.mem_of_mem_filter hm)
          unfold size1
          obtain ⟨n, hn⟩ := exists_get?_of_mem (by rw [keys_shape hq.wf]; exact h6 : ax ∈ keys q.shape)
          simp [hn]
    · rw [(get?_shape_none hw).2 hm]
      unfold percentileAxes at hm
      rw [List.mem_append, not_or] at hm
      by_cases h4 : ax ∈ A
      · rw [if_pos h4]
        cases kd with
        | true => exact absurd (hAs h4) hm.2
        | false => rfl
      · rw [if_neg h4]
        have h5 : ax ∉ a.axes := by
          intro h
          cases kd with
          | true => exact hm.2 h
          | false => exact hm.2 (by simp [h, h4])
        rw [if_neg h5, (get?_shape_none hq.wf).2 hm.1]
  · intro e
    refine ⟨_, isSlab_slabEnvs ha (ha.2.filter _) (by simp) (by
      intro ax
      simp only [List.mem_filter, decide_eq_true_eq, and_iff_right_iff_imp]
      exact fun h => hAs h) e, h3 e⟩

/-- **C81** For an order-insensitive function, any enumeration of the slab will do. -/
theorem C81_orderless (valid : κ → Bool) (pct : κ → List α → β) (hp : ∀ k, Orderless (pct k)) (a : SA α) (ha : a.WF) (q : SA κ)
    (hq : GoodQ valid a q) (axis : Option (List String)) (A : List String) (hax : A = axis.getD a.axes) (hA : A.Nodup)
    (hAs : A ⊆ a.axes) (hne : ∀ ax ∈ a.axes, get? a.shape ax ≠ some 0) (kd : Bool) (r : SA β)
    (hr : percentileLike valid pct a q axis kd none = .ok r) (e : String → Nat) (l : List (String → Nat)) (hl : IsSlab a A e l) :
    r.at' e = pct (q.at' e) (l.map a.at') := by
  obtain ⟨r', h1, _, _, _, h5⟩ := C81_percentile valid pct a ha q hq axis A hax hA hAs hne kd
  rw [h1] at hr
  injection hr with hr
  subst hr
  obtain ⟨l', hl', h6⟩ := h5 e
  rw [h6]
  exact hp _ _ _ ((hl'.perm hl).map _)

/-- **C81** An axis which `a` lacks, an axis named twice, an axis shared by `a` and `q`, more than two axes of `q` and an element of `q` which is not a
percentile all raise `ValueError`. -/
theorem C81_error (valid : κ → Bool) (pct : κ → List α → β) (a : SA α) (q : SA κ) (hq : q.WF)
    (A : List String) (kd : Bool) (out : Option (SA β))
    (h : ¬ A ⊆ a.axes ∨ ¬ A.Nodup ∨ (∃ ax ∈ a.axes, ax ∈ q.axes) ∨ 2 < q.axes.length ∨
      ∃ e, InRange q.shape e ∧ valid (q.at' e) = false) :
    percentileLike valid pct a q (some A) kd out = .error .valueError := by
  unfold percentileLike
  by_cases hAs : A ⊆ a.axes
  · have h1 : (A.all (· ∈ a.axes)) = true := by
      rw [List.all_eq_true]
      intro x hx
      simpa using hAs hx
    by_cases hsh : a.axes.any (· ∈ q.axes) = true
    · simp only [axisNormalized, h1, hsh, Option.isSome_some, Bool.not_true, Bool.and_false, Bool.false_eq_true, if_false, if_true]
    · have h2 : (a.axes.any (· ∈ q.axes)) = false := by rw [Bool.eq_false_iff]; exact hsh
      have h3 : a.nd.percentile valid pct q.nd (A.map a.axes.idxOf) kd = .error .valueError := by
        unfold ND.percentile
        by_cases hfew : 2 < q.nd.ndim
        · rw [if_pos hfew]
        rw [if_neg hfew]
        by_cases hv : (ndIndices q.nd.shape).any (fun i => !valid (q.nd.get i)) = true
        · rw [if_pos hv]
        rw [if_neg hv]
        have hA : ¬ A.Nodup := by
          rcases h with h | h | ⟨ax, g1, g2⟩ | h | ⟨e, g1, g2⟩
          · exact absurd hAs h
          · exact h
          · exact absurd (List.any_eq_true.2 ⟨ax, g1, by simpa using g2⟩) hsh
          · have := hq.1; omega
          · refine absurd (List.any_eq_true.2 ⟨q.axes.map e, ?_, ?_⟩) hv
            · rw [ND.mem_ndIndices_iff]
              rw [inRange_iff_nd (wf_shape hq), keys_shape hq, values_shape hq] at g1
              exact g1
            · unfold at' at g2
              simp [g2]
        have hdup : ¬ (A.map a.axes.idxOf).Nodup := fun h => hA (List.Nodup.of_map _ h)
        unfold ND.reduce
        dsimp only
        rw [if_neg (fun h => hdup h.1)]
      simp only [axisNormalized, h1, h2, Option.isSome_some, Bool.not_true, Bool.and_false, Bool.false_eq_true, if_false]
      rw [pyTupleIndex_mapM hAs]
      simp only [bind, Except.bind]
      rw [h3]
  · have h1 : (A.all (· ∈ a.axes)) = false := by
      rw [Bool.eq_false_iff]
      intro hh
      rw [List.all_eq_true] at hh
      exact hAs (fun x hx => by simpa using hh x hx)
    simp only [axisNormalized, h1, Option.isSome_some, Bool.not_false, Bool.and_true, if_true]

/-- **C81** With an `out` array which has the axes of the result in any order, the result has the axes of `out` in its order and the same elements by
name. -/
theorem C81_out (valid : κ → Bool) (pct : κ → List α → β) (a : SA α) (ha : a.WF) (q : SA κ) (hq : GoodQ valid a q)
    (axis : Option (List String)) (A : List String) (hax : A = axis.getD a.axes) (hA : A.Nodup) (hAs : A ⊆ a.axes)
    (hne : ∀ ax ∈ a.axes, get? a.shape ax ≠ some 0) (kd : Bool) (r : SA β) (hr : percentileLike valid pct a q axis kd none = .ok r)
    (out : SA β) (ho : out.WF) (hos : ∀ ax, get? out.shape ax = get? r.shape ax) :
    ∃ r', percentileLike valid pct a q axis kd (some out) = .ok r' ∧ r'.axes = out.axes ∧ r'.WF ∧ SameByName r r' := by
  obtain ⟨nd, h1, h2, h3⟩ := percentile_nd ha hq hA hAs hne pct kd
  have hnod := percentileAxes_nodup ha hq A kd
  have hdim : nd.ndim = (percentileAxes a q A kd).length := by rw [ND.ndim, h2, List.length_map]
  have hw : (SA.mk (percentileAxes a q A kd) nd).WF := ⟨hdim, hnod⟩
  have hmk : mk? nd (percentileAxes a q A kd) = .ok ⟨percentileAxes a q A kd, nd⟩ := mk?_of_wf hdim hnod
  rw [percentileLike_eq hq (by rw [← hax]; exact hAs), ← hax, h1] at hr
  have hr' : (SA.mk (percentileAxes a q A kd) nd) = r := by
    have h4 : mk? nd (percentileAxes a q A kd) = .ok r := hr
    rw [hmk] at h4
    injection h4
  rw [percentileLike_eq hq (by rw [← hax]; exact hAs), ← hax, h1]
  have hmem : ∀ ax, ax ∈ out.axes ↔ ax ∈ percentileAxes a q A kd := by
    intro ax
    have h5 := hos ax
    rw [← hr'] at h5
    rw [← not_iff_not, ← get?_shape_none ho, h5, get?_shape_none hw]
  obtain ⟨v, hv⟩ := aligned_isOk ho hnod (fun x hx => (hmem x).1 hx)
  obtain ⟨_, hvs, _⟩ := aligned_ok ho hnod hv
  obtain ⟨w, hww⟩ := aligned_isOk hw ho.2 (fun x hx => (hmem x).2 hx)
  obtain ⟨_, hws, hwg⟩ := aligned_ok hw ho.2 hww
  have hsh : nd.shape = v.shape := by
    rw [hvs]
    have h6 := size_getD hw
    dsimp only at h6
    rw [h6]
    apply List.map_congr_left
    intro ax _
    unfold size1
    rw [hos, ← hr']
  have hw' : (SA.mk out.axes w).WF := ⟨by rw [ND.ndim, hws, List.length_map], ho.2⟩
  refine ⟨⟨out.axes, w⟩, ?_, rfl, hw', ?_, ?_⟩
  · show percentileStore _ nd (some out) = _
    unfold percentileStore
    simp only [bind, Except.bind, hv]
    rw [if_pos hsh, hmk]
    dsimp only
    rw [hww]
  · intro ax
    rw [← hr']
    by_cases hm : ax ∈ out.axes
    · rw [get?_shape_of_mem hw' hm]
      dsimp only
      rw [hws, getD_map_idxOf _ hm]
      obtain ⟨n, hn⟩ := exists_get?_of_mem (by rw [keys_shape hw]; exact (hmem ax).1 hm :
        ax ∈ keys (SA.mk (percentileAxes a q A kd) nd).shape)
      rw [hn]; rfl
    · rw [(get?_shape_none hw').2 hm, (get?_shape_none hw).2 (fun h => hm ((hmem ax).2 h))]
  · intro e _
    rw [← hr']
    exact (hwg e).symm

end SA

namespace ND
variable {K : Type} [Field K] [LinearOrder K] [IsStrictOrderedRing K] [FloorSemiring K]

theorem sort_eq {l s : List K} (hs : s.Pairwise (· ≤ ·)) (hp : s.Perm l) : l.insertionSort (· ≤ ·) = s :=
  ((List.perm_insertionSort _ l).trans hp.symm).eq_of_pairwise (fun _ _ _ _ h h' => le_antisymm h h')
    (List.pairwise_insertionSort _ l) hs

theorem lerpAt_add {s : List K} {k : Nat} (hk : k + 1 < s.length) {t : K} (h0 : 0 ≤ t) (h1 : t ≤ 1) :
    lerpAt s (k + t) = s.getD k 0 + t * (s.getD (k + 1) 0 - s.getD k 0) := by
  rcases lt_or_eq_of_le h1 with h | h
  · have hf : ⌊(k : K) + t⌋₊ = k := by
      rw [Nat.floor_eq_iff (by positivity)]
      constructor <;> linarith
    unfold lerpAt
    rw [hf, min_eq_left (by omega)]
    ring
  · subst h
    have hf : ⌊(k : K) + 1⌋₊ = k + 1 := by
      rw [Nat.floor_eq_iff (by positivity)]
      push_cast
      constructor <;> linarith
    unfold lerpAt
    rw [hf]
    push_cast
    ring

/-- Each position between the first and the last is between two neighbours. -/
theorem split_position {n : Nat} (hn : 2 ≤ n) {v : K} (h0 : 0 ≤ v) (h1 : v ≤ (n : K) - 1) :
    ∃ (k : Nat) (t : K), k + 1 < n ∧ 0 ≤ t ∧ t ≤ 1 ∧ v = k + t := by
  by_cases h : ⌊v⌋₊ + 1 < n
  · refine ⟨⌊v⌋₊, v - ⌊v⌋₊, h, ?_, ?_, by ring⟩
    · have := Nat.floor_le h0; linarith
    · have := Nat.lt_floor_add_one v; linarith
  · have hv : ((n - 1 : Nat) : K) ≤ v := by
      refine le_trans ?_ (Nat.floor_le h0)
      exact_mod_cast (by omega : n - 1 ≤ ⌊v⌋₊)
    have hc : ((n - 1 : Nat) : K) = (n : K) - 1 := by
      rw [Nat.cast_sub (by omega)]; norm_num
    have hc2 : ((n - 2 : Nat) : K) = (n : K) - 2 := by
      rw [Nat.cast_sub (by omega)]; norm_num
    refine ⟨n - 2, 1, by omega, by norm_num, le_refl _, ?_⟩
    rw [hc2]
    rw [hc] at hv
    linarith

theorem position_range {n : Nat} (hn : 1 ≤ n) {q : K} (h0 : 0 ≤ q) (h1 : q ≤ 100) :
    0 ≤ q / 100 * ((n : K) - 1) ∧ q / 100 * ((n : K) - 1) ≤ (n : K) - 1 := by
  have hn' : (1 : K) ≤ n := by exact_mod_cast hn
  have h2 : 0 ≤ q / 100 := by positivity
  have h3 : q / 100 ≤ 1 := by rw [div_le_one (by norm_num)]; exact h1
  constructor
  · exact mul_nonneg h2 (by linarith)
  · nlinarith

/-- **C81** The percentile interpolates linearly between the order statistics: if `s` lists the elements in increasing order, the percentile at `k + t` of
the `n - 1` steps is `s[k]` plus the fraction `t` of the step to `s[k + 1]`. -/
theorem C81_interpolates (l s : List K) (hs : s.Pairwise (· ≤ ·)) (hp : s.Perm l) (k : Nat) (hk : k + 1 < s.length) (t : K)
    (h0 : 0 ≤ t) (h1 : t ≤ 1) :
    percentileOf (100 * ((k : K) + t) / ((l.length : K) - 1)) l = s[k] + t * (s[k + 1] - s[k]) := by
  have hl : l.length = s.length := hp.length_eq.symm
  have hn : ((l.length : K) - 1) ≠ 0 := by
    have : (1 : K) < (l.length : K) := by rw [hl]; exact_mod_cast (by omega : 1 < s.length)
    linarith
  unfold percentileOf
  rw [sort_eq hs hp]
  have : 100 * ((k : K) + t) / ((l.length : K) - 1) / 100 * ((l.length : K) - 1) = k + t := by
    field_simp
  rw [this, lerpAt_add hk h0 h1, List.getD_eq_getElem _ _ (by omega), List.getD_eq_getElem _ _ hk]

/-- **C81** The percentiles of a single number are that number. -/
theorem C81_single (x q : K) : percentileOf q [x] = x := by
  simp [percentileOf, lerpAt]

/-- Every percentile is one of those in `C81_interpolates`. -/
theorem percentile_cases {l : List K} (hl : 2 ≤ l.length) {q : K} (h0 : 0 ≤ q) (h1 : q ≤ 100) :
    ∃ (k : Nat) (t : K), k + 1 < l.length ∧ 0 ≤ t ∧ t ≤ 1 ∧ q = 100 * ((k : K) + t) / ((l.length : K) - 1) := by
  obtain ⟨g0, g1⟩ := position_range (n := l.length) (by omega) h0 h1
  obtain ⟨k, t, hk, ht0, ht1, hv⟩ := split_position hl g0 g1
  refine ⟨k, t, hk, ht0, ht1, ?_⟩
  have hn : ((l.length : K) - 1) ≠ 0 := by
    have : (1 : K) < (l.length : K) := by exact_mod_cast (by omega : 1 < l.length)
    linarith
  rw [← hv]
  field_simp

/-- **C81** The percentile does not depend on the order of the elements. -/
theorem C81_order (q : K) : SA.Orderless (percentileOf q) := by
  intro l l' h
  unfold percentileOf
  rw [sort_eq (List.pairwise_insertionSort _ l') ((List.perm_insertionSort _ l').trans h.symm), h.length_eq]

/-- **C81** Percentiles increase with `q`. -/
theorem C81_monotone (l : List K) (hl : l ≠ []) (q q' : K) (h0 : 0 ≤ q) (hqq : q ≤ q') (h1 : q' ≤ 100) :
    percentileOf q l ≤ percentileOf q' l := by
  rcases Nat.lt_or_ge l.length 2 with h | h
  · match l, hl, h with
    | [x], _, _ => rw [C81_single, C81_single]
  obtain ⟨k, t, hk, ht0, ht1, rfl⟩ := percentile_cases h h0 (hqq.trans h1)
  obtain ⟨k', t', hk', ht0', ht1', rfl⟩ := percentile_cases h (h0.trans hqq) h1
  set s := l.insertionSort (· ≤ ·) with hsdef
  have hs : s.Pairwise (· ≤ ·) := List.pairwise_insertionSort _ l
  have hp : s.Perm l := List.perm_insertionSort _ l
  have hlen : s.length = l.length := hp.length_eq
  rw [C81_interpolates l s hs hp k (by omega) t ht0 ht1, C81_interpolates l s hs hp k' (by omega) t' ht0' ht1']
  have hn : (0 : K) < ((l.length : K) - 1) := by
    have : (1 : K) < (l.length : K) := by exact_mod_cast (by omega : 1 < l.length)
    linarith
  have hv : (k : K) + t ≤ k' + t' := by
    rw [div_le_div_iff_of_pos_right hn] at hqq
    linarith
  have hmono : ∀ i j (hi : i < s.length) (hj : j < s.length), i ≤ j → s[i] ≤ s[j] := by
    intro i j hi hj hij
    rcases Nat.lt_or_eq_of_le hij with h' | h'
    · exact List.pairwise_iff_getElem.1 hs i j hi hj h'
    · subst h'; exact le_refl _
  have hstep := hmono k (k + 1) (by omega) (by omega) (by omega)
  have hstep' := hmono k' (k' + 1) (by omega) (by omega) (by omega)
  rcases Nat.lt_trichotomy k k' with hlt | heq | hgt
  · have h2 := hmono (k + 1) k' (by omega) (by omega) (by omega)
    nlinarith
  · subst heq
    have : t ≤ t' := by linarith
    nlinarith
  · have hkk : (k' : K) + 1 ≤ k := by exact_mod_cast hgt
    have e1 : t' = 1 := by linarith
    have e2 : t = 0 := by linarith
    have e3 : k = k' + 1 := by
      have : (k : K) = ((k' + 1 : Nat) : K) := by push_cast; linarith
      exact_mod_cast this
    subst e3 e1 e2
    linarith

/-- **C81** The 0th percentile is the minimum, the 100th is the maximum. -/
theorem C81_extremes (l : List K) (hl : l ≠ []) :
    (percentileOf 0 l ∈ l ∧ ∀ x ∈ l, percentileOf 0 l ≤ x) ∧ (percentileOf 100 l ∈ l ∧ ∀ x ∈ l, x ≤ percentileOf 100 l) := by
  rcases Nat.lt_or_ge l.length 2 with h | h
  · match l, hl, h with
    | [x], _, _ => simp [C81_single]
  set s := l.insertionSort (· ≤ ·) with hsdef
  have hs : s.Pairwise (· ≤ ·) := List.pairwise_insertionSort _ l
  have hp : s.Perm l := List.perm_insertionSort _ l
  have hlen : s.length = l.length := hp.length_eq
  have hn : ((l.length : K) - 1) ≠ 0 := by
    have : (1 : K) < (l.length : K) := by exact_mod_cast (by omega : 1 < l.length)
    linarith
  have e0 : percentileOf 0 l = s[0]'(by omega) := by
    have := C81_interpolates l s hs hp 0 (by omega) 0 (le_refl _) (by norm_num)
    simpa using this
  have e1 : percentileOf 100 l = s[l.length - 1]'(by omega) := by
    have := C81_interpolates l s hs hp (l.length - 2) (by omega) 1 (by norm_num) (le_refl _)
    have hc2 : ((l.length - 2 : Nat) : K) = (l.length : K) - 2 := by
      rw [Nat.cast_sub (by omega)]; norm_num
    rw [hc2] at this
    have e3 : 100 * ((l.length : K) - 2 + 1) / ((l.length : K) - 1) = 100 := by field_simp; ring
    rw [e3] at this
    rw [this]
    have e4 : l.length - 2 + 1 = l.length - 1 := by omega
    simp only [e4]
    ring
  refine ⟨⟨?_, ?_⟩, ?_, ?_⟩
  · rw [e0]; exact hp.mem_iff.1 (List.getElem_mem _)
  · intro x hx
    rw [e0]
    obtain ⟨i, hi, rfl⟩ := List.getElem_of_mem (hp.mem_iff.2 hx)
    rcases Nat.eq_zero_or_pos i with h' | h'
    · subst h'; exact le_refl _
    · exact List.pairwise_iff_getElem.1 hs 0 i (by omega) hi h'
  · rw [e1]; exact hp.mem_iff.1 (List.getElem_mem _)
  · intro x hx
    rw [e1]
    obtain ⟨i, hi, rfl⟩ := List.getElem_of_mem (hp.mem_iff.2 hx)
    rcases Nat.lt_or_ge i (l.length - 1) with h' | h'
    · exact List.pairwise_iff_getElem.1 hs i _ hi (by omega) h'
    · have : i = l.length - 1 := by omega
      subst this; exact le_refl _

/-- **C81** Scaling by a positive number and shifting the elements scales and shifts the percentiles; changing the sign of the elements exchanges `q`
and `100 - q`. -/
theorem C81_affine (l : List K) (hl : l ≠ []) (q : K) (h0 : 0 ≤ q) (h1 : q ≤ 100) (c d : K) (hc : 0 ≤ c) :
    percentileOf q (l.map (fun x => c * x + d)) = c * percentileOf q l + d ∧
    percentileOf (100 - q) (l.map (fun x => -x)) = - percentileOf q l := by
  rcases Nat.lt_or_ge l.length 2 with h | h
  · match l, hl, h with
    | [x], _, _ => simp [C81_single]
  obtain ⟨k, t, hk, ht0, ht1, rfl⟩ := percentile_cases h h0 h1
  set s := l.insertionSort (· ≤ ·) with hsdef
  have hs : s.Pairwise (· ≤ ·) := List.pairwise_insertionSort _ l
  have hp : s.Perm l := List.perm_insertionSort _ l
  have hlen : s.length = l.length := hp.length_eq
  have hn : ((l.length : K) - 1) ≠ 0 := by
    have : (1 : K) < (l.length : K) := by exact_mod_cast (by omega : 1 < l.length)
    linarith
  rw [C81_interpolates l s hs hp k (by omega) t ht0 ht1]
  constructor
  · have hs' : (s.map (fun x => c * x + d)).Pairwise (· ≤ ·) := by
      rw [List.pairwise_map]
      exact hs.imp (fun {x y} hxy => by nlinarith)
    have := C81_interpolates (l.map (fun x => c * x + d)) _ hs' (hp.map _) k (by rw [List.length_map]; omega) t ht0 ht1
    rw [List.length_map] at this
    rw [this]
    simp only [List.getElem_map]
    ring
  · have hs' : (s.reverse.map (fun x => -x)).Pairwise (· ≤ ·) := by
      rw [List.pairwise_map, List.pairwise_reverse]
      exact hs.imp (fun {x y} hxy => by linarith)
    have := C81_interpolates (l.map (fun x => -x)) _ hs' (((List.reverse_perm _).trans hp).map _) (l.length - 2 - k)
      (by rw [List.length_map, List.length_reverse]; omega) (1 - t) (by linarith) (by linarith)
    rw [List.length_map] at this
    have hc2 : ((l.length - 2 - k : Nat) : K) = (l.length : K) - 2 - k := by
      rw [Nat.cast_sub (by omega), Nat.cast_sub (by omega)]; norm_num
    have e3 : 100 * (((l.length - 2 - k : Nat) : K) + (1 - t)) / ((l.length : K) - 1) =
        100 - 100 * ((k : K) + t) / ((l.length : K) - 1) := by
      rw [hc2]; field_simp; ring
    rw [e3] at this
    rw [this]
    simp only [List.getElem_map, List.getElem_reverse]
    have e4 : s.length - 1 - (l.length - 2 - k) = k + 1 := by omega
    have e5 : s.length - 1 - (l.length - 2 - k + 1) = k := by omega
    simp only [e4, e5]
    ring

end ND

namespace SA

/-- Two percentiles of a table with three rows along `y`. -/
def exTable81 : SA ℚ := ⟨["x", "y"], ⟨[2, 3], fun i => if i.getD 0 0 = 0 then [5, 1, 3].getD (i.getD 1 0) 0 else [2, 2, 8].getD (i.getD 1 0) 0⟩⟩

/-- Two percentiles. -/
def exQ81 : SA ℚ := ⟨["p"], ⟨[2], fun i => if i.getD 0 0 = 0 then 50 else 75⟩⟩

def validQ (q : ℚ) : Bool := decide (0 ≤ q ∧ q ≤ 100)

example : GoodQ validQ exTable81 exQ81 := by
  refine ⟨⟨rfl, by decide⟩, by decide, by decide, ?_⟩
  intro e _
  simp only [at', exQ81]
  split <;> decide +kernel

example : exTable81.WF ∧ ["y"].Nodup ∧ ["y"] ⊆ exTable81.axes ∧ ∀ ax ∈ exTable81.axes, get? exTable81.shape ax ≠ some 0 :=
  ⟨⟨rfl, by decide⟩, by decide, by decide, by decide⟩

example : (percentileLike validQ ND.percentileOf exTable81 exQ81 (some ["y"]) false none).map
    (fun r => (r.axes, r.nd.shape, r.nd.toList)) = .ok (["p", "x"], [2, 2], [3, 2, 4, 5]) := by decide +kernel

example : (percentileLike validQ ND.percentileOf exTable81 exQ81 (some ["y"]) false
    (some ⟨["x", "p"], ⟨[2, 2], fun _ => 0⟩⟩)).map (fun r => (r.axes, r.nd.shape, r.nd.toList)) =
    .ok (["x", "p"], [2, 2], [3, 4, 2, 5]) := by decide +kernel

example : (percentileLike validQ ND.percentileOf exTable81 ⟨["x"], ⟨[1], fun _ => 50⟩⟩ (some ["y"]) false none).map
    (fun r => r.axes) = .error .valueError := by decide +kernel

end SA
end NA
