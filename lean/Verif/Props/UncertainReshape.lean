import Verif.Props.Uncertain
import Verif.Props.Joining
import Mathlib.Tactic.Ring

/-!
# Reshaping uncertain scalars (C48)
-/

namespace NA
open Dict
open SA (FitsIn InRange)

namespace UA
variable {α β : Type}

theorem ravel_snoc : ∀ (T i : List Nat) (K k : Nat), T.length = i.length →
    ND.ravel (T ++ [K]) (i ++ [k]) = ND.ravel T i * K + k := by
  intro T
  induction T with
  | nil =>
    intro i K k h
    cases i with
    | nil => simp [ND.ravel]
    | cons _ _ => simp at h
  | cons n T ih =>
    intro i K k h
    cases i with
    | nil => simp at h
    | cons j i =>
      simp only [List.cons_append, ND.ravel]
      rw [ih i K k (by simpa using h), List.prod_append]
      simp only [List.prod_cons, List.prod_nil, mul_one]
      ring

theorem unravel_snoc (S : List Nat) (K k m : Nat) (hk : k < K) (hm : m < S.prod) :
    ND.unravel (S ++ [K]) (m * K + k) = ND.unravel S m ++ [k] := by
  have h1 : ND.InRange S (ND.unravel S m) := ND.inRange_unravel hm
  have h2 : ND.ravel S (ND.unravel S m) = m := ND.ravel_unravel hm
  have hl : S.length = (ND.unravel S m).length := (List.Forall₂.length_eq h1).symm
  have h3 := ravel_snoc S (ND.unravel S m) K k hl
  rw [h2] at h3
  rw [← h3]
  refine ND.unravel_ravel ?_
  exact List.rel_append h1 (.cons hk .nil)

/-- The `k`-th sample of a distribution whose last axis is the axis of the samples. -/
theorem sample_last {d : SA α} (hd : d.WF) {s : Shape} (hs : WF s) (hD : axisD ∉ keys s) {K : Nat}
    (hsh : d.shape = s ++ [(axisD, K)]) {k : Nat} (hk : k < K) :
    ∃ x, d.getitem [(axisD, .int k)] = .ok x ∧ x.WF ∧ x.shape = s ∧
      ∀ m, m < s.values.prod → x.nd.toList[m]? = d.nd.toList[m * K + k]? := by
  have hax : d.axes = keys s ++ [axisD] := by rw [← SA.keys_shape hd, hsh]; simp
  have hnd : d.nd.shape = s.values ++ [K] := by rw [← SA.values_shape hd, hsh]; simp [Dict.values]
  have hgD : get? d.shape axisD = some K := by
    rw [hsh, ← set_of_not_mem hD, get?_set]; simp
  have hi : SA.BasicItem [(axisD, .int k)] := SA.basicItem_single _ _ (by intro b h; cases h)
  obtain ⟨x, x1, x2, x3, x4, x5, x6⟩ := SA.C13_getitem_basic d hd [(axisD, .int k)] hi (by
      intro ax _ sl h
      rw [get?_cons] at h
      split at h
      · cases h
      · cases h) (by
      intro ax n hn
      constructor
      · intro i h
        rw [get?_cons] at h
        split at h
        · next hx =>
          cases h
          rw [← hx, hgD] at hn
          cases hn
          unfold ND.ValidIndex
          omega
        · cases h
      · intro b h
        rw [get?_cons] at h
        split at h <;> cases h)
  have hint : ∀ ax, SA.IntAt [(axisD, .int (k : Int))] ax ↔ ax = axisD := by
    intro ax
    unfold SA.IntAt
    simp only [get?_cons, get?_nil]
    constructor
    · rintro ⟨i, h⟩
      split at h
      · next hx => exact hx.symm
      · cases h
    · rintro rfl
      exact ⟨k, by simp⟩
  have hxa : x.axes = keys s := by
    have h1 : x.axes = x.axes.filter (· ≠ axisD) := by
      symm
      rw [List.filter_eq_self]
      intro ax h
      simpa using fun h' => ((x3 ax).1 h).2 ((hint ax).2 h')
    have h2 : List.Sublist x.axes (keys s) := by
      have := x4.filter (· ≠ axisD)
      rw [← h1, hax, List.filter_append] at this
      simp only [ne_eq, not_true_eq_false, decide_false, Bool.false_eq_true, not_false_eq_true,
        List.filter_cons_of_neg, List.filter_nil, List.append_nil] at this
      exact this.trans List.filter_sublist
    refine h2.eq_of_length_le ?_
    refine (List.Nodup.subperm hs ?_).length_le
    intro ax h
    refine (x3 ax).2 ⟨by rw [hax]; simp [h], fun h' => hD ?_⟩
    rw [← (hint ax).1 h']
    exact h
  have hxs : x.shape = s := by
    refine dict_ext (SA.wf_shape x2) (by rw [SA.keys_shape x2, hxa]) ?_
    intro ax
    by_cases h : ax ∈ x.axes
    · rw [x5 ax h]
      have hne : ax ≠ axisD := fun h' => hD (by rw [← h', ← hxa]; exact h)
      unfold SA.selLen
      rw [get?_cons, if_neg (Ne.symm hne), get?_nil]
      have : get? d.shape ax = get? s ax := by
        rw [hsh, ← set_of_not_mem hD, get?_set, if_neg (Ne.symm hne)]
      simp only [this]
      obtain ⟨n, hn⟩ := exists_get?_of_mem (d := s) (x := ax) (by rw [← hxa]; exact h)
      rw [hn]
      rfl
    · rw [get?_eq_none.2 (by rw [SA.keys_shape x2]; exact h), get?_eq_none.2 (by rw [← hxa]; exact h)]
  refine ⟨x, x1, x2, hxs, fun m hm => ?_⟩
  have hxnd : x.nd.shape = s.values := by rw [← SA.values_shape x2, hxs]
  rw [ND.toList_getElem? (by rw [hxnd]; exact hm), ND.toList_getElem? (a := d.nd) (by
    rw [hnd, List.prod_append]
    simp only [List.prod_cons, List.prod_nil, mul_one]
    have h1 : (m + 1) * K ≤ s.values.prod * K := Nat.mul_le_mul_right K hm
    have h2 : (m + 1) * K = m * K + K := by ring
    omega)]
  rw [hnd, unravel_snoc _ _ _ _ hk hm, hxnd]
  have hr : ND.InRange (x.axes.map x.sizeOf') (ND.unravel s.values m) := by
    rw [← SA.shape_eq_map x2, hxnd]
    exact ND.inRange_unravel hm
  obtain ⟨e, he, _⟩ := SA.exists_env x2.2 hr
  have := x6 e
  unfold SA.at' at this
  rw [he] at this
  rw [this, hax, List.map_append, List.map_singleton]
  congr 3
  · rw [← he, hxa]
    refine List.map_congr_left fun ax h => ?_
    unfold SA.selIdx
    rw [get?_cons, if_neg (by rintro rfl; exact hD h), get?_nil]

theorem list_eq_of_getElem? {l l' : List α} {n : Nat} (h : l.length = n) (h' : l'.length = n)
    (he : ∀ m, m < n → l[m]? = l'[m]?) : l = l' := by
  apply List.ext_getElem?
  intro m
  by_cases hm : m < n
  · exact he m hm
  · rw [List.getElem?_eq_none (by omega), List.getElem?_eq_none (by omega)]

/-- **C48**. Reshaping an uncertain scalar reshapes the nominal value and each sample.  `b` is the array with
its components broadcast against each other; `b.distribution[axisD = k]` is its `k`-th sample.  The elements of
the reshaped nominal value, in row-major order, are those of the nominal value; and for every `k` the elements
of the `k`-th reshaped sample are those of the `k`-th sample.  A shape of another size is a `ValueError`. -/
theorem C48_reshape (u : UA α) (hu : u.Valid) (s : Shape) (hs : u.shape = .ok s) (K : Nat)
    (hK : get? u.distribution.shape axisD = some K) (shape : Shape) (hw : WF shape) (hD : axisD ∉ keys shape) :
    (shape.values.prod = s.values.prod ∧ ∃ b r, u.broadcasted = .ok b ∧ b.nominal.shape = s ∧
      u.reshape shape = .ok r ∧ r.Valid ∧ r.shape = .ok shape ∧ r.nominal.shape = shape ∧
      r.nominal.nd.toList = b.nominal.nd.toList ∧ get? r.distribution.shape axisD = some K ∧
      ∀ k < K, ∃ x y, b.distribution.getitem [(axisD, .int k)] = .ok x ∧ x.shape = s ∧
        r.distribution.getitem [(axisD, .int k)] = .ok y ∧ y.shape = shape ∧ y.nd.toList = x.nd.toList) ∨
    (shape.values.prod ≠ s.values.prod ∧ u.reshape shape = .error .valueError) := by
  obtain ⟨sd, v, hS, hb, hv, v1, v2, v3, v4, v5⟩ := broadcasted_main hu hs
  have hab := (bs_absorb hS.noD (SA.wf_shape hu.2.1) (fun ax m hne hg' => by
            obtain ⟨k, hk, hk'⟩ := hS.dist ax m hg'
            exact ⟨k, by rw [hS.get ax, if_neg hne] at hk; exact hk, hk'⟩)).2 K hK
  rw [hS.absorb] at hab
  have hsd : sd = s ++ [(axisD, K)] := by injection hab
  -- the pieces of the code
  rcases SA.C10_broadcast_to u.nominal hu.1 s hS.wf with ⟨_, n, n1, n2, n3, n4⟩ | ⟨hn, _⟩
  swap
  · exact absurd hS.nom hn
  rcases SA.C10_broadcast_to u.distribution hu.2.1 sd hS.wfd with ⟨_, d, d1, d2, d3, d4⟩ | ⟨hd, _⟩
  swap
  · exact absurd hS.dist hd
  have hvv : v = ⟨n, d⟩ := by
    have : u.broadcasted = .ok ⟨n, d⟩ := by
      rcases shape_cases hu with ⟨_, _, h⟩ | ⟨_, t, s', sd', h1, h2, h3, h4, h5⟩
      · rw [h] at hs; cases hs
      have e1 : s' = s := by rw [h5.shape] at hs; cases hs; rfl
      subst e1
      have e2 : sd' = sd := by
        have := h5.absorb; rw [hS.absorb] at this; cases this; rfl
      subst e2
      unfold broadcasted broadcastTo
      rw [hs, h1]
      simp only [bind, Except.bind, h4, n1, d1]
      exact mk?_of_valid n2 (by rw [← SA.keys_shape n2, n3]; exact hS.noD)
    rw [hb] at this; cases this; rfl
  subst hvv
  have hDd : axisD ∈ d.axes := by rw [← SA.keys_shape d2, d3, hsd]; simp
  obtain ⟨c, c1, _⟩ := SA.C28_change_axis_index_partial d d2 axisD hDd (-1)
  have hnum : numDistribution (⟨n, d⟩ : UA α) = .ok K := by
    unfold numDistribution
    have : get? d.shape axisD = some K := by
      rw [d3, hsd, ← set_of_not_mem hS.noD, get?_set]; simp
    simp only [this]
  have hset : shape.set axisD K = shape ++ [(axisD, K)] := set_of_not_mem hD
  have hrun : u.reshape shape = (do
      let n' ← n.reshape shape
      let d' ← d.reshape (shape ++ [(axisD, K)])
      mk? n' d') := by
    unfold reshape
    simp only [hs, n1, bind, Except.bind]
    have : shapeDistribution (⟨n, u.distribution⟩ : UA α) = .ok sd := by
      unfold shapeDistribution
      simp only [n3]
      exact hS.absorb
    simp only [this, d1, c1, hnum, hset]
  have hw' : WF (shape ++ [(axisD, K)]) := by rw [← hset]; exact wf_set hw _ _
  rcases SA.C12_reshape n n2 shape hw with ⟨p1, n', q1, q2, q3, q4⟩ | ⟨p1, q1⟩
  · left
    rw [n3] at p1
    refine ⟨p1, ⟨n, d⟩, ?_⟩
    rcases SA.C12_reshape d d2 (shape ++ [(axisD, K)]) hw' with ⟨_, d', r1, r2, r3, r4⟩ | ⟨p2, _⟩
    swap
    · exfalso
      apply p2
      rw [d3, hsd]
      simp only [Dict.values, List.map_append, List.prod_append] at p1 ⊢
      rw [p1]
    have hnD : axisD ∉ n'.axes := by rw [← SA.keys_shape q2, q3]; exact hD
    refine ⟨⟨n', d'⟩, hb, n3, ?_, ⟨q2, r2, hnD⟩, ?_, q3, q4, ?_, ?_⟩
    · rw [hrun]
      simp only [q1, r1, bind, Except.bind]
      exact mk?_of_valid q2 hnD
    · have := (bs_absorb hD hw' (d := shape ++ [(axisD, K)]) (fun ax m hne hg' => by
        rw [← hset, get?_set, if_neg (Ne.symm hne)] at hg'
        exact ⟨m, hg', .inl rfl⟩)).2 K (by rw [← hset, get?_set]; simp)
      unfold UA.shape shapeDistribution
      simp only [q3, r3, this]
      show Except.ok (Dict.erase _ axisD) = _
      congr 1
      unfold Dict.erase
      rw [List.filter_append, List.filter_eq_self.2]
      · simp
      · intro p hp
        simp only [ne_eq, decide_eq_true_eq]
        rintro h
        exact hD (by rw [← h]; exact List.mem_map.2 ⟨p, hp, rfl⟩)
    · show get? d'.shape axisD = some K
      rw [r3, ← hset, get?_set]; simp
    · intro k hk
      obtain ⟨x, x1, x2, x3, x4⟩ := sample_last d2 hS.wf hS.noD (by rw [d3, hsd]) hk
      obtain ⟨y, y1, y2, y3, y4⟩ := sample_last r2 hw hD r3 hk
      refine ⟨x, y, x1, x3, y1, y3, ?_⟩
      refine list_eq_of_getElem? (n := s.values.prod) ?_ ?_ ?_
      · rw [ND.length_toList, ← SA.values_shape y2, y3, p1]
      · rw [ND.length_toList, ← SA.values_shape x2, x3]
      · intro m hm
        rw [y4 m (by rw [p1]; exact hm), x4 m hm, r4]
  · right
    rw [n3] at p1
    refine ⟨p1, ?_⟩
    rw [hrun, q1]
    rfl

/-- **C48** (no samples). Without the axis of the samples, `np.reshape` raises `KeyError`. -/
theorem C48_no_samples (u : UA α) (hu : u.Valid) (s : Shape) (hs : u.shape = .ok s)
    (hK : axisD ∉ u.distribution.axes) (shape : Shape) : u.reshape shape = .error .keyError := by
  obtain ⟨sd, v, hS, _⟩ := broadcasted_main hu hs
  rcases SA.C10_broadcast_to u.nominal hu.1 s hS.wf with ⟨_, n, n1, n2, n3, n4⟩ | ⟨hn, _⟩
  swap
  · exact absurd hS.nom hn
  rcases SA.C10_broadcast_to u.distribution hu.2.1 sd hS.wfd with ⟨_, d, d1, d2, d3, d4⟩ | ⟨hd, _⟩
  swap
  · exact absurd hS.dist hd
  have h1 : shapeDistribution (⟨n, u.distribution⟩ : UA α) = .ok sd := by
    unfold shapeDistribution
    simp only [n3]
    exact hS.absorb
  have h2 := SA.C28_change_axis_index_absent d d2 axisD (by
    rw [← SA.keys_shape d2, d3, hS.last, if_neg hK]
    simpa using hS.noD) (-1)
  unfold reshape
  simp only [hs, n1, bind, Except.bind, h1, d1, h2]

/-- **C48** (reserved name). A new shape with the axis of the samples is a `ValueError`. -/
theorem C48_reserved (u : UA α) (hu : u.Valid) (s : Shape) (hs : u.shape = .ok s) (K : Nat)
    (hK : get? u.distribution.shape axisD = some K) (shape : Shape) (hw : WF shape) (hD : axisD ∈ keys shape) :
    u.reshape shape = .error .valueError := by
  obtain ⟨sd, v, hS, _⟩ := broadcasted_main hu hs
  rcases SA.C10_broadcast_to u.nominal hu.1 s hS.wf with ⟨_, n, n1, n2, n3, n4⟩ | ⟨hn, _⟩
  swap
  · exact absurd hS.nom hn
  rcases SA.C10_broadcast_to u.distribution hu.2.1 sd hS.wfd with ⟨_, d, d1, d2, d3, d4⟩ | ⟨hd, _⟩
  swap
  · exact absurd hS.dist hd
  have h1 : shapeDistribution (⟨n, u.distribution⟩ : UA α) = .ok sd := by
    unfold shapeDistribution
    simp only [n3]
    exact hS.absorb
  have hgd : get? d.shape axisD = some K := by rw [d3, hS.get, if_pos rfl, hK]
  have hDd : axisD ∈ d.axes := by rw [← SA.keys_shape d2]; exact mem_keys_of_get? hgd
  obtain ⟨c, c1, _⟩ := SA.C28_change_axis_index_partial d d2 axisD hDd (-1)
  have hnum : numDistribution (⟨n, d⟩ : UA α) = .ok K := by
    unfold numDistribution
    simp only [hgd]
  unfold reshape
  simp only [hs, n1, bind, Except.bind, h1, d1, c1, hnum]
  rcases SA.C12_reshape n n2 shape hw with ⟨_, n', q1, q2, q3, q4⟩ | ⟨p1, q1⟩
  · simp only [q1]
    rcases SA.C12_reshape d d2 (shape.set axisD K) (wf_set hw _ _) with ⟨_, d', r1, r2, r3, r4⟩ | ⟨_, r1⟩
    · simp only [r1]
      unfold mk?
      rw [q3, if_pos hD]
    · simp only [r1]
  · simp only [q1]

/-- nominal value along `x` and `y`, samples along the samples and `y` only -/
def exW : UA Int := ⟨⟨["x", "y"], ND.ofList [2, 2] [1, 2, 3, 4] 0⟩,
  ⟨[axisD, "y"], ND.ofList [3, 2] [10, 11, 20, 21, 30, 31] 0⟩⟩

example : exW.Valid := ⟨by decide, by decide, by decide⟩
example : exW.shape.map (fun s => (s.keys, s.values)) = .ok (["x", "y"], [2, 2]) := by decide +kernel
example : get? exW.distribution.shape axisD = some 3 := by decide +kernel
example : (exW.reshape [("z", 4)]).map
    (fun r => (r.nominal.axes, r.nominal.nd.toList, r.distribution.axes, r.distribution.nd.toList)) =
    .ok (["z"], [1, 2, 3, 4], ["z", axisD], [10, 20, 30, 11, 21, 31, 10, 20, 30, 11, 21, 31]) := by decide +kernel
example : (exW.reshape [("z", 3)]).isOk = false := by decide +kernel
example : (UA.reshape (⟨SA.scalar 1, SA.scalar (2 : Int)⟩ : UA Int) [("z", 1)]).isOk = false := by decide +kernel

end UA
end NA
