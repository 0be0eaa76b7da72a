import Verif.Uncertain.Index
import Verif.Props.Uncertain
import Verif.Props.Indexing
import Verif.Props.Reductions

/-!
# Indexing uncertain scalars by masks (C60)
-/

namespace NA
open Dict
open SA (FitsIn InRange)

namespace UA
variable {α : Type}

/-- **C60** (uncertain masks). An uncertain mask counts as true where its nominal value and all of its `K`
samples are true. -/
theorem C60_mask_value (m : UA Bool) (hm : m.Valid) (K : Nat) (hK : get? m.distribution.shape axisD = some K) :
    (m.shape = .error .valueError ∧ maskOf (.unc m) = .error .valueError) ∨
    ∃ s w, m.shape = .ok s ∧ maskOf (.unc m) = .ok w ∧ w.WF ∧ axisD ∉ w.axes ∧
      (∀ ax, get? w.shape ax = get? s ax) ∧
      ∀ e, w.at' e = true ↔ m.nominalAt e = true ∧ ∀ k < K, m.sampleAt k e = true := by
  obtain ⟨h1, h2, h3⟩ := hm
  have hDd : axisD ∈ m.distribution.axes := by rw [← SA.keys_shape h2]; exact mem_keys_of_get? hK
  have hwo : SA.WhereOk m.distribution none := by intro w h; cases h
  have hor : SA.Orderless (fun l : List Bool => l.all id) := by
    intro l l' h
    rw [Bool.eq_iff_iff, List.all_eq_true, List.all_eq_true]
    exact forall_congr' fun x => by rw [h.mem_iff]
  obtain ⟨d, d1, d2, d3, d4, _⟩ := SA.C17_reduce m.distribution h2 none hwo [axisD] (by simp)
    (by intro ax h; simp at h; rw [h]; exact hDd) false (fun l : List Bool => l.all id) false (by simp)
  have hdv : ∀ e, d.at' e = true ↔ ∀ k < K, m.distribution.at' (Function.update e axisD k) = true := by
    intro e
    rw [SA.C17_reduce_orderless m.distribution h2 none hwo [axisD] (by simp)
      (by intro ax h; simp at h; rw [h]; exact hDd) false _ hor false d d1 e
      ((List.range K).map (fun k => Function.update e axisD k)) ⟨?_, ?_⟩]
    · have : ∀ l : List (String → Nat), l.filter (SA.selected none) = l := fun l =>
        List.filter_eq_self.2 fun _ _ => rfl
      rw [this, List.all_eq_true]
      simp
    · refine List.Nodup.map_on ?_ List.nodup_range
      intro i _ j _ hij
      have := congrFun hij axisD
      simpa using this
    · intro e'
      simp only [List.mem_map, List.mem_range, List.mem_singleton, forall_eq, hK]
      constructor
      · rintro ⟨k, hk, rfl⟩
        exact ⟨⟨K, rfl, by simpa using hk⟩, fun ax h => by simp [h]⟩
      · rintro ⟨⟨n, hn, h⟩, h'⟩
        cases hn
        refine ⟨e' axisD, h, ?_⟩
        funext ax
        by_cases hx : ax = axisD
        · subst hx; simp
        · simp [hx, h' ax hx]
  have hds : ∀ ax, get? d.shape ax = if ax = axisD then none else get? m.distribution.shape ax := by
    intro ax; rw [d4]; simp
  have hdB : ∀ e, d.atB e = true ↔ ∀ k < K, m.sampleAt k e = true := by
    intro e
    unfold SA.atB
    rw [hdv]
    refine forall₂_congr fun k hk => ?_
    unfold sampleAt SA.atB
    rw [SA.at'_congr (a := m.distribution)]
    intro ax hax
    by_cases hx : ax = axisD
    · subst hx
      simp only [Function.update_self, hK]
      split
      · next h => injection h with h; omega
      · rfl
    · simp [hx, hds]
  have hwn : ∀ s ∈ [m.nominal.shape, d.shape], WF s := by
    intro s hs
    simp only [List.mem_cons, List.not_mem_nil, or_false] at hs
    rcases hs with rfl | rfl
    · exact SA.wf_shape h1
    · exact SA.wf_shape d2
  have hwn' : ∀ s ∈ [m.nominal.shape, m.distribution.shape], WF s := by
    intro s hs
    simp only [List.mem_cons, List.not_mem_nil, or_false] at hs
    rcases hs with rfl | rfl
    · exact SA.wf_shape h1
    · exact SA.wf_shape h2
  have hsize : ∀ ax n, HasSize [m.nominal.shape, d.shape] ax n ↔
      ax ≠ axisD ∧ HasSize [m.nominal.shape, m.distribution.shape] ax n := by
    intro ax n
    simp only [HasSize, List.mem_cons, List.not_mem_nil, or_false, exists_eq_or_imp, exists_eq_left, hds]
    by_cases hx : ax = axisD
    · subst hx
      simp [get?_eq_none.2 (show axisD ∉ keys m.nominal.shape by rw [SA.keys_shape h1]; exact h3)]
    · simp [hx]
  rcases shape_cases (u := m) ⟨h1, h2, h3⟩ with ⟨c1, _, c3⟩ | ⟨c1, t, s, sd, ht, htw, rfl, _, hS⟩
  · left
    refine ⟨c3, ?_⟩
    unfold maskOf
    simp only [d1, bind, Except.bind]
    obtain ⟨ax, p, q, k1, k2, k3, k4, k5⟩ := c1
    have hx : ax ≠ axisD := by
      rintro rfl
      simp only [HasSize, List.mem_cons, List.not_mem_nil, or_false, exists_eq_or_imp, exists_eq_left,
        get?_eq_none.2 (show axisD ∉ keys m.nominal.shape by rw [SA.keys_shape h1]; exact h3)] at k1 k2
      simp only [reduceCtorEq, false_or] at k1 k2
      rw [k1] at k2
      injection k2 with k2
      exact k3 k2
    have hcl : Clash [m.nominal.shape, d.shape] :=
      ⟨ax, p, q, (hsize ax p).2 ⟨hx, k1⟩, (hsize ax q).2 ⟨hx, k2⟩, k3, k4, k5⟩
    obtain ⟨e, he⟩ := (C01_broadcast_shapes_error_iff _ hwn).2 hcl
    have := C01_broadcast_shapes_error_kind _ hwn e he
    subst this
    unfold SA.ufunc2
    rw [he]
    rfl
  · right
    have hncl : ¬ Clash [m.nominal.shape, d.shape] := by
      rintro ⟨ax, p, q, k1, k2, k3⟩
      exact c1 ⟨ax, p, q, ((hsize ax p).1 k1).2, ((hsize ax q).1 k2).2, k3⟩
    obtain ⟨T, hT⟩ : ∃ T, broadcastShapes [m.nominal.shape, d.shape] = .ok T := by
      cases hb : broadcastShapes [m.nominal.shape, d.shape] with
      | ok T => exact ⟨T, rfl⟩
      | error e => exact absurd ((C01_broadcast_shapes_error_iff _ hwn).1 ⟨e, hb⟩) hncl
    obtain ⟨w, hw⟩ := SA.ufunc2_isOk h1 d2 (f := and) hT
    obtain ⟨w1, w2, w3⟩ := SA.ufunc2_ok h1 d2 hw
    rw [hT] at w2
    injection w2 with w2
    subst w2
    obtain ⟨_, t1, t2⟩ := C01_broadcast_shapes_ok _ hwn _ hT
    obtain ⟨_, t3, t4⟩ := C01_broadcast_shapes_ok _ hwn' _ ht
    have hwD : axisD ∉ w.axes := by
      rw [← SA.keys_shape w1]
      intro h
      obtain ⟨n, hn⟩ := exists_get?_of_mem h
      exact ((hsize _ _).1 (t2 _ _ hn).1).1 rfl
    refine ⟨_, w, hS.shape, ?_, w1, hwD, fun ax => ?_, fun e => ?_⟩
    · unfold maskOf
      simp only [d1, bind, Except.bind]
      exact hw
    · rw [get?_erase]
      by_cases hx : axisD = ax
      · rw [if_pos hx, get?_eq_none, SA.keys_shape w1, ← hx]
        exact hwD
      · rw [if_neg hx]
        have hx' : ax ≠ axisD := Ne.symm hx
        cases hg : get? w.shape ax with
        | none =>
          symm
          rw [get?_eq_none] at hg ⊢
          rw [t1] at hg
          rw [t3]
          rintro ⟨s', hs', hk⟩
          obtain ⟨n, hn⟩ := exists_get?_of_mem hk
          obtain ⟨s'', q1, q2⟩ := (hsize ax n).2 ⟨hx', s', hs', hn⟩
          exact hg ⟨s'', q1, mem_keys_of_get? q2⟩
        | some n =>
          obtain ⟨q1, q2⟩ := t2 ax n hg
          have q1' := ((hsize ax n).1 q1).2
          obtain ⟨s', hs', hk⟩ := q1'
          obtain ⟨n', hn'⟩ := exists_get?_of_mem ((t3 ax).2 ⟨s', hs', mem_keys_of_get? hk⟩)
          rw [hn']
          obtain ⟨p1, p2⟩ := t4 ax n' hn'
          have a1 := p2 n ⟨s', hs', hk⟩
          have a2 := q2 n' ((hsize ax n').2 ⟨hx', p1⟩)
          congr 1
          omega
    · rw [w3, Bool.and_eq_true, hdB]
      rfl

/-- broadcasting a component along the axes of the mask, and the selection -/
theorem getMask_comp {c : SA α} (hc : c.WF) {w : SA Bool} (hw : w.WF) {t : Shape} (hfit : FitsIn c.shape t)
    (hsz : ∀ ax ∈ w.axes, get? w.shape ax = get? t ax) {s : String} (hs : SA.maskAxis w = .ok s)
    (hcoll : ∀ ax ∈ c.axes, ax ∉ w.axes → ax ≠ s) :
    ∃ S b r, broadcastShapes [c.shape, w.shape] = .ok S ∧ c.broadcastTo S = .ok b ∧ b.getMask w = .ok r ∧ r.WF ∧
      (∀ ax, get? r.shape ax = if ax = s then some w.nd.trues.length else
        if ax ∈ w.axes then none else get? c.shape ax) ∧
      ∀ e, e s < w.nd.trues.length → r.at' e = c.atB (SA.maskIdx w s e) := by
  have hww : ∀ s ∈ [c.shape, w.shape], WF s := by
    intro s hs
    simp only [List.mem_cons, List.not_mem_nil, or_false] at hs
    rcases hs with rfl | rfl
    · exact SA.wf_shape hc
    · exact SA.wf_shape hw
  have hncl : ¬ Clash [c.shape, w.shape] := by
    have key : ∀ ax n, HasSize [c.shape, w.shape] ax n → ∃ k, get? t ax = some k ∧ (n = k ∨ n = 1) := by
      intro ax n h
      simp only [HasSize, List.mem_cons, List.not_mem_nil, or_false, exists_eq_or_imp, exists_eq_left] at h
      rcases h with h | h
      · exact hfit ax n h
      · exact ⟨n, by rw [← hsz ax (by rw [← SA.keys_shape hw]; exact mem_keys_of_get? h), h], Or.inl rfl⟩
    rintro ⟨ax, p, q, k1, k2, k3, k4, k5⟩
    obtain ⟨k, g1, g2⟩ := key ax p k1
    obtain ⟨k', g3, g4⟩ := key ax q k2
    rw [g1] at g3
    injection g3 with g3
    omega
  obtain ⟨S, hS⟩ : ∃ S, broadcastShapes [c.shape, w.shape] = .ok S := by
    cases hb : broadcastShapes [c.shape, w.shape] with
    | ok T => exact ⟨T, rfl⟩
    | error e => exact absurd ((C01_broadcast_shapes_error_iff _ hww).1 ⟨e, hb⟩) hncl
  obtain ⟨s1, s2, s3⟩ := C01_broadcast_shapes_ok _ hww _ hS
  have hSmem : ∀ ax, ax ∈ keys S ↔ ax ∈ c.axes ∨ ax ∈ w.axes := by
    intro ax
    rw [s2]
    simp [SA.keys_shape hc, SA.keys_shape hw]
  have hSw : ∀ ax ∈ w.axes, get? w.shape ax = get? S ax := by
    intro ax hax
    obtain ⟨n, hn⟩ := exists_get?_of_mem ((hSmem ax).2 (Or.inr hax))
    obtain ⟨m, hm⟩ := exists_get?_of_mem (d := w.shape) (by rw [SA.keys_shape hw]; exact hax)
    rw [hn, hm]
    obtain ⟨a1, a2⟩ := s3 ax n hn
    have a3 := a2 m ⟨w.shape, by simp, hm⟩
    have ht : get? t ax = some m := by rw [← hsz ax hax, hm]
    simp only [HasSize, List.mem_cons, List.not_mem_nil, or_false, exists_eq_or_imp, exists_eq_left] at a1
    rcases a1 with a1 | a1
    · obtain ⟨k, k1, k2⟩ := hfit ax n a1
      rw [ht] at k1
      injection k1 with k1
      congr 1
      omega
    · rw [hm] at a1; exact a1
  have hSc : ∀ ax, ax ∉ w.axes → get? S ax = get? c.shape ax := by
    intro ax hax
    by_cases hx : ax ∈ c.axes
    · obtain ⟨n, hn⟩ := exists_get?_of_mem ((hSmem ax).2 (Or.inl hx))
      rw [hn]
      obtain ⟨a1, _⟩ := s3 ax n hn
      simp only [HasSize, List.mem_cons, List.not_mem_nil, or_false, exists_eq_or_imp, exists_eq_left] at a1
      rcases a1 with a1 | a1
      · exact a1.symm
      · exact absurd (by rw [← SA.keys_shape hw]; exact mem_keys_of_get? a1) hax
    · rw [get?_eq_none.2, get?_eq_none.2]
      · rw [SA.keys_shape hc]; exact hx
      · rw [hSmem]; simp [hx, hax]
  rcases SA.C10_broadcast_to c hc S s1 with ⟨_, b, b1, b2, b3, b4⟩ | ⟨h, _⟩
  · have hbm : ∀ ax, ax ∈ b.axes ↔ ax ∈ c.axes ∨ ax ∈ w.axes := by
      intro ax; rw [← SA.keys_shape b2, b3, hSmem]
    have hsub : w.axes ⊆ b.axes := fun ax h => (hbm ax).2 (Or.inr h)
    obtain ⟨s', hs', _, h⟩ := ((SA.getMask_main b2 hw).2 hsub).2 (by rw [b3]; exact hSw)
    rw [hs] at hs'
    injection hs' with hs'
    subst hs'
    obtain ⟨r, r1, r2, r3, r4, r5, r6⟩ := h (by
      intro h
      simp only [List.mem_filter, decide_eq_true_eq] at h
      rcases (hbm s).1 h.1 with h' | h'
      · exact hcoll s h' h.2 rfl
      · exact h.2 h')
    refine ⟨S, b, r, hS, b1, r1, r2, fun ax => ?_, fun e he => ?_⟩
    · by_cases hx : ax = s
      · rw [if_pos hx, hx, r5]
      · rw [if_neg hx]
        by_cases hw' : ax ∈ w.axes
        · rw [if_pos hw', get?_eq_none, SA.keys_shape r2, r3]
          simp [hx, hw']
        · rw [if_neg hw']
          by_cases hc' : ax ∈ c.axes
          · rw [r4 ax ((hbm ax).2 (Or.inl hc')) hw', b3, hSc ax hw']
          · rw [get?_eq_none.2, get?_eq_none.2]
            · rw [SA.keys_shape hc]; exact hc'
            · rw [SA.keys_shape r2, r3]
              simp only [List.mem_append, List.mem_filter, hbm, List.mem_singleton, hx, or_false]
              rintro ⟨h | h, _⟩
              · exact hc' h
              · exact hw' h
    · rw [r6 e he, b4]
  · exact absurd (SA.fitsIn_of_broadcastShapes hww hS (by simp)) h

/-- **C60** (masks). Indexing by a mask `w` (for an uncertain mask see `C60_mask_value`) takes the nominal value
and every sample at one and the same position: the new axis numbers the `n` true elements `pos 0, pos 1, …` of
the mask in the order of the mask, and the other axes are kept. -/
theorem C60_mask (u : UA α) (hu : u.Valid) (t : Shape) (ht : u.shapeDistribution = .ok t) (mask : UArg Bool)
    (w : SA Bool) (hmask : maskOf mask = .ok w) (hw : w.WF) (hwD : axisD ∉ w.axes)
    (hsz : ∀ ax ∈ w.axes, get? w.shape ax = get? t ax) (new : String)
    (hnew : new = if w.axes = [] then "boolean" else "*".intercalate w.axes)
    (hcoll : ∀ ax ∈ keys t, ax ∉ w.axes → ax ≠ new) :
    ∃ (r : UA α) (n : Nat) (pos : Nat → String → Nat), u.getMask mask = .ok r ∧ r.Valid ∧
      -- the shape
      (∀ ax, get? r.nominal.shape ax = if ax = new then some n else
        if ax ∈ w.axes then none else get? u.nominal.shape ax) ∧
      (∀ ax, get? r.distribution.shape ax = if ax = new then some n else
        if ax ∈ w.axes then none else get? u.distribution.shape ax) ∧
      -- the true elements of the mask, in order
      (∀ k < n, InRange w.shape (pos k) ∧ w.at' (pos k) = true) ∧
      (∀ k k', k < k' → k' < n → List.Lex (· < ·) (w.axes.map (pos k)) (w.axes.map (pos k'))) ∧
      (∀ e, InRange w.shape e → w.at' e = true → ∃ k < n, ∀ ax ∈ w.axes, pos k ax = e ax) ∧
      -- the elements
      ∀ e, e new < n →
        r.nominal.at' e = u.nominal.atB (fun ax => if ax ∈ w.axes then pos (e new) ax else e ax) ∧
        r.distribution.at' e = u.distribution.atB (fun ax => if ax ∈ w.axes then pos (e new) ax else e ax) := by
  have hww : ∀ s ∈ [u.nominal.shape, u.distribution.shape], WF s := by
    intro s hs
    simp only [List.mem_cons, List.not_mem_nil, or_false] at hs
    rcases hs with rfl | rfl
    · exact SA.wf_shape hu.1
    · exact SA.wf_shape hu.2.1
  have ht' : broadcastShapes [u.nominal.shape, u.distribution.shape] = .ok t := ht
  have hmem := (C01_broadcast_shapes_ok _ hww _ ht').2.1
  have hax : SA.maskAxis w = .ok new := by rw [SA.maskAxis_ok, hnew]
  obtain ⟨sn, nb, n, n1, n2, n3, n4, n5, n6⟩ := getMask_comp hu.1 hw
    (SA.fitsIn_of_broadcastShapes hww ht' (by simp)) hsz hax
    (fun ax h => hcoll ax ((hmem ax).2 ⟨u.nominal.shape, by simp, by rw [SA.keys_shape hu.1]; exact h⟩))
  obtain ⟨sd, db, d, d1, d2, d3, d4, d5, d6⟩ := getMask_comp hu.2.1 hw
    (SA.fitsIn_of_broadcastShapes hww ht' (by simp)) hsz hax
    (fun ax h => hcoll ax ((hmem ax).2 ⟨u.distribution.shape, by simp, by rw [SA.keys_shape hu.2.1]; exact h⟩))
  have hnewD : axisD ≠ new := by
    rw [hnew]
    split
    · decide
    · exact (flat_ne_axisD hwD).symm
  have hnD : axisD ∉ n.axes := by
    rw [← SA.keys_shape n4, ← get?_eq_none, n5, if_neg hnewD, if_neg hwD, get?_eq_none, SA.keys_shape hu.1]
    exact hu.2.2
  obtain ⟨t1, t2, t3⟩ := SA.trues_spec hw
  refine ⟨⟨n, d⟩, _, SA.trueEnv w, ?_, ⟨n4, d4, hnD⟩, n5, d5, t1, t2, t3,
    fun e he => ⟨n6 e he, d6 e he⟩⟩
  have hself : broadcastShapes [w.shape, w.shape] = .ok w.shape :=
    broadcastShapes_fits (fun ax m h => ⟨m, h, Or.inl rfl⟩) (SA.wf_shape hw)
  have hsub : ∀ ax ∈ w.axes, ax ∈ keys t := by
    intro ax h
    obtain ⟨m, hm⟩ := exists_get?_of_mem (d := w.shape) (by rw [SA.keys_shape hw]; exact h)
    rw [hsz ax h] at hm
    exact mem_keys_of_get? hm
  unfold getMask
  simp only [ht, hmask, hself, bind, Except.bind, SA.keys_shape hw]
  rw [if_neg (by simpa using hsub), if_neg (by simpa using hsz)]
  simp only [n1, n2, n3, d1, d2, d3]
  exact mk?_of_valid n4 hnD

/-- **C60** (masks, failure). A mask with an axis the array lacks, or of another size, raises `ValueError`. -/
theorem C60_mask_error (u : UA α) (t : Shape) (ht : u.shapeDistribution = .ok t) (mask : UArg Bool)
    (w : SA Bool) (hmask : maskOf mask = .ok w) (hw : w.WF)
    (h : ∃ ax ∈ w.axes, get? w.shape ax ≠ get? t ax) : u.getMask mask = .error .valueError := by
  have hself : broadcastShapes [w.shape, w.shape] = .ok w.shape :=
    broadcastShapes_fits (fun ax m h => ⟨m, h, Or.inl rfl⟩) (SA.wf_shape hw)
  obtain ⟨ax, h1, h2⟩ := h
  unfold getMask
  simp only [ht, hmask, hself, bind, Except.bind, SA.keys_shape hw]
  by_cases hk : ¬ (w.axes.all (· ∈ keys t)) = true
  · rw [if_pos hk]
  · rw [if_neg hk, if_pos]
    rw [List.all_eq_true]
    intro h
    simpa using h2 (by simpa using h ax h1)

/-- nominal value along `x` only, samples along `y` -/
def exM : UA Int := ⟨⟨["x"], ND.ofList [2] [1, 2] 0⟩, ⟨[axisD, "y"], ND.ofList [2, 3] [1, 2, 3, 10, 20, 30] 0⟩⟩

example : exM.Valid ∧ exM.shapeDistribution.map (fun t => (t.keys, t.values)) = .ok (["x", axisD, "y"], [2, 2, 3]) :=
  ⟨⟨by decide, by decide, by decide⟩, by decide +kernel⟩
example : (exM.getMask (.plain ⟨["y", "x"], ND.ofList [3, 2] [true, false, false, true, false, false] false⟩)).map
    (fun r => (r.nominal.axes, r.nominal.nd.toList, r.distribution.axes, r.distribution.nd.toList)) =
    .ok (["y*x"], [1, 2], [axisD, "y*x"], [1, 2, 10, 20]) := by decide +kernel
example : (exM.getMask (.unc ⟨⟨["y"], ND.ofList [3] [true, false, true] false⟩,
      ⟨[axisD, "y"], ND.ofList [2, 3] [true, true, true, false, true, true] false⟩⟩)).map
    (fun r => (r.nominal.axes, r.nominal.nd.toList, r.distribution.axes, r.distribution.nd.toList)) =
    .ok (["x", "y"], [1, 2], [axisD, "y"], [3, 30]) := by decide +kernel

end UA
end NA
