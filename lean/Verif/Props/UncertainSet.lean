import Verif.Props.UncertainIndex

/-!
# Assigning to uncertain scalars (C63)
-/

namespace NA
open Dict
open SA (FitsIn InRange selIdx selLen ValidItem StepsOk BasicItem ItemWF IntAt addressed Addresses)

namespace UA
variable {α : Type}

theorem validItem_full {c : SA α} (hc : c.WF) {t : Shape} {item : Dict IndexVal} (h : FullAlong c t item)
    (hvalid : ValidItem t item) : ValidItem c.shape item := by
  intro ax n hn
  by_cases hk : ax ∈ keys item
  · have hax : ax ∈ c.axes := by rw [← SA.keys_shape hc]; exact mem_keys_of_get? hn
    rw [h ax hk hax] at hn
    exact hvalid ax n hn
  · refine ⟨fun i hi' => ?_, fun b hb => ?_⟩
    · rw [get?_eq_none.2 hk] at hi'; cases hi'
    · rw [get?_eq_none.2 hk] at hb; cases hb

theorem plainItem_nominal (item : Dict IndexVal) :
    (plainItem item).map (fun p => (p.1, p.2.nominal)) = item := by
  unfold plainItem
  rw [List.map_map]
  conv_rhs => rw [← List.map_id item]
  exact List.map_congr_left fun p _ => rfl

theorem plainItem_distribution (item : Dict IndexVal) :
    (plainItem item).map (fun p => (p.1, p.2.distribution)) = item := by
  unfold plainItem
  rw [List.map_map]
  conv_rhs => rw [← List.map_id item]
  exact List.map_congr_left fun p _ => rfl

/-- **C63** (integers and slices). If both components have the indexed axes with the full size, and the
components of the value broadcast to the addressed elements, then the assignment succeeds, the shapes are
unchanged, each component of the value is written to the addressed elements of the same component, and the other
elements are unchanged.  (What is missing: items with an axis which only one component has, refuted below.) -/
theorem C63_setitem_partial (u : UA α) (hu : u.Valid) (s t : Shape) (hs : u.shape = .ok s)
    (ht : u.shapeDistribution = .ok t)
    (item : Dict IndexVal) (hi : BasicItem item) (hnone : ∀ v ∈ values item, v.isNone = false)
    (hkn : keys item ⊆ u.nominal.axes) (hkd : keys item ⊆ u.distribution.axes)
    (hn : FullAlong u.nominal t item) (hd : FullAlong u.distribution t item)
    (hsteps : StepsOk t item) (hvalid : ValidItem t item)
    (value : UArg α) (hv : value.Ok)
    (hvn : FitsIn value.nominal.shape (addressed u.nominal item []))
    (hvd : FitsIn value.distribution.shape (addressed u.distribution item [])) :
    ∃ r, u.setitem (plainItem item) value = (r, none) ∧ r.Valid ∧
      r.nominal.shape = u.nominal.shape ∧ r.distribution.shape = u.distribution.shape ∧
      (∀ f, InRange (addressed u.nominal item []) f →
        r.nominal.at' (selIdx t item f) = value.nominal.atB f) ∧
      (∀ f, InRange (addressed u.distribution item []) f →
        r.distribution.at' (selIdx t item f) = value.distribution.atB f) ∧
      (∀ e, (¬ ∃ f, Addresses u.nominal item [] f e) → r.nominal.at' e = u.nominal.at' e) ∧
      ∀ e, (¬ ∃ f, Addresses u.distribution item [] f e) → r.distribution.at' e = u.distribution.at' e := by
  have hw : ∀ s ∈ [u.nominal.shape, u.distribution.shape], WF s := by
    intro s hs
    simp only [List.mem_cons, List.not_mem_nil, or_false] at hs
    rcases hs with rfl | rfl
    · exact SA.wf_shape hu.1
    · exact SA.wf_shape hu.2.1
  have ht' : broadcastShapes [u.nominal.shape, u.distribution.shape] = .ok t := ht
  have hmem := (C01_broadcast_shapes_ok _ hw _ ht').2.1
  obtain ⟨n, n1, n2, n3, n4, n5, n6⟩ := SA.C16_setitem_basic u.nominal value.nominal hu.1 hv.nominal item hi hnone
    hkn (fun ax hax sl h => hsteps ax ((hmem ax).2 ⟨_, by simp, hax⟩) sl h) (validItem_full hu.1 hn hvalid) hvn
  obtain ⟨d, d1, d2, d3, d4, d5, d6⟩ := SA.C16_setitem_basic u.distribution value.distribution hu.2.1
    hv.distribution item hi hnone hkd
    (fun ax hax sl h => hsteps ax ((hmem ax).2 ⟨u.distribution.shape, by simp, hax⟩) sl h)
    (validItem_full hu.2.1 hd hvalid) hvd
  refine ⟨⟨n, d⟩, ?_, ⟨n2, d2, by rw [n3]; exact hu.2.2⟩, n4, d4, fun f hf => ?_, fun f hf => ?_, n5, d5⟩
  · have hst : s = t.erase axisD := by
      unfold UA.shape at hs
      simp only [ht, bind, Except.bind] at hs
      injection hs with hs
      exact hs.symm
    unfold setitem
    simp only [hs]
    rw [if_pos]
    · rw [plainItem_nominal, plainItem_distribution, n1, d1]
      rfl
    · have hpk : keys (plainItem item) = keys item := by
        unfold plainItem keys; rw [List.map_map]; rfl
      rw [hpk, List.all_eq_true]
      intro ax hax
      have h1 : ax ∈ keys t := (hmem ax).2 ⟨u.nominal.shape, by simp, by rw [SA.keys_shape hu.1]; exact hkn hax⟩
      obtain ⟨m, hm⟩ := exists_get?_of_mem h1
      have hne : axisD ≠ ax := by rintro rfl; exact hu.2.2 (hkn hax)
      have h2 : get? s ax = some m := by rw [hst, get?_erase, if_neg hne, hm]
      simpa using mem_keys_of_get? h2
  · rw [← n6 f hf]
    exact SA.at'_congr fun ax hax => (selIdx_full hu.1 hn f ax (by rw [← n3]; exact hax)).symm
  · rw [← d6 f hf]
    exact SA.at'_congr fun ax hax => (selIdx_full hu.2.1 hd f ax (by rw [← d3]; exact hax)).symm

/-- **C63** (failure). An axis which the array does not have raises `ValueError`, and the array is unchanged. -/
theorem C63_unknown_axis (u : UA α) (s : Shape) (hs : u.shape = .ok s) (item : Dict UIndex) (value : UArg α)
    (ax : String) (hk : ax ∈ keys item) (hax : ax ∉ keys s) :
    u.setitem item value = (u, some .valueError) := by
  unfold setitem
  simp only [hs]
  rw [if_neg]
  rw [List.all_eq_true]
  intro h
  exact hax (by simpa using h ax hk)

/-- **C63** (unknown axes of a mask). A mask along an axis which the array does not have raises `ValueError`, and the array is
unchanged. -/
theorem C63_mask_unknown_axis (u : UA α) (s : Shape) (hs : u.shape = .ok s) (mask : UArg Bool) (value : UArg α)
    (sm : Shape) (hsm : maskShape mask = .ok sm) (ax : String) (hk : ax ∈ keys sm) (hax : ax ∉ keys s) :
    u.setMask mask value = (u, some .valueError) := by
  unfold setMask
  have : (sm.keys.all (· ∈ s.keys)) = false := by
    rw [List.all_eq_false]
    exact ⟨ax, hk, by simpa using hax⟩
  simp only [hs, hsm, bind, Except.bind, this, Bool.false_eq_true, if_false]

/-- a mask along `y` for an array along `x` -/
example : (maskShape (.plain ⟨["y"], ND.vec [true]⟩ : UArg Bool)) = .ok [("y", 1)] ∧ exLarge.shape = .ok [("x", 3)] :=
  ⟨by decide +kernel, by decide +kernel⟩

/-- **C63** (failure). Whenever an assignment raises, the samples are unchanged; and if the assignment to the
nominal value raises then nothing is changed. -/
theorem C63_failure (u : UA α) (item : Dict UIndex) (value : UArg α) (r : UA α) (e : Err)
    (h : u.setitem item value = (r, some e)) :
    r.distribution = u.distribution ∧
    ((∃ e', u.nominal.setitem (item.map (fun p => (p.1, p.2.nominal))) value.nominal = .error e') → r = u) := by
  unfold setitem at h
  cases hs : u.shape with
  | error e' =>
    rw [hs] at h
    injection h with h1 h2
    rw [← h1]
    exact ⟨rfl, fun _ => rfl⟩
  | ok s =>
    rw [hs] at h
    dsimp only at h
    split at h
    · unfold assign at h
      cases hn : u.nominal.setitem (item.map (fun p => (p.1, p.2.nominal))) value.nominal with
      | error e' =>
        rw [hn] at h
        injection h with h1 h2
        rw [← h1]
        exact ⟨rfl, fun _ => rfl⟩
      | ok n =>
        rw [hn] at h
        dsimp only at h
        cases hd : u.distribution.setitem (item.map (fun p => (p.1, p.2.distribution))) value.distribution with
        | error e' =>
          rw [hd] at h
          injection h with h1 h2
          rw [← h1]
          refine ⟨rfl, ?_⟩
          rintro ⟨e'', he⟩
          cases he
        | ok d =>
          rw [hd] at h
          injection h with h1 h2
          cases h2
    · injection h with h1 h2
      rw [← h1]
      exact ⟨rfl, fun _ => rfl⟩

/-- nominal value along `x`, samples which do not depend on `x` -/
def exPartial : UA Int := ⟨⟨["x"], ND.ofList [3] [5, 6, 7] 0⟩, ⟨[axisD], ND.ofList [2] [1, 2] 0⟩⟩

/-- samples along `x`, nominal value which does not depend on `x` -/
def exPartial' : UA Int := ⟨⟨[], ND.ofList [] [5] 0⟩, ⟨["x", axisD], ND.ofList [2, 2] [1, 2, 3, 4] 0⟩⟩

/-- **C63** (refuted: not atomic). Along an axis which the samples do not have the assignment raises
`ValueError`, but the nominal value has been written by then. -/
theorem C63_atomic_refuted : exPartial.Valid ∧ ∃ r,
    exPartial.setitem [("x", .plain (.int 0))] (.plain ⟨[], ND.ofList [] [9] 0⟩) = (r, some .valueError) ∧
    r.nominal.nd.toList = [9, 6, 7] ∧ exPartial.nominal.nd.toList = [5, 6, 7] := by
  refine ⟨⟨by decide, by decide, by decide⟩, _, Prod.ext rfl ?_, ?_, ?_⟩ <;> decide +kernel

/-- **C63** (refuted). Along an axis which the nominal value does not have, but which is an axis of the array,
the assignment raises `ValueError`, although reading the same item succeeds. -/
theorem C63_missing_axis_refuted : exPartial'.Valid ∧ exPartial'.shape = .ok [("x", 2)] ∧
    (exPartial'.getitem [("x", .plain (.int 0))]).isOk = true ∧
    (exPartial'.setitem [("x", .plain (.int 0))] (.plain ⟨[], ND.ofList [] [9] 0⟩)).2 = some .valueError := by
  refine ⟨⟨by decide, by decide, by decide⟩, rfl, ?_, ?_⟩ <;> decide +kernel

/-- both components along `x`: the value and all of the samples at position 2 and 0 are written -/
example : (fun r : UA Int × Option Err => (r.1.nominal.nd.toList, r.1.distribution.nd.toList, r.2))
    (exLarge.setitem [("x", .plain (.slice ⟨none, none, some (-2)⟩))]
      (.unc ⟨⟨["x"], ND.ofList [2] [10, 20] 0⟩, ⟨[axisD], ND.ofList [2] [30, 40] 0⟩⟩)) =
    ([20, 6, 10], [30, 40, 3, 4, 30, 40], none) := by decide +kernel
example : exLarge.Valid ∧ FullAlong exLarge.nominal [("x", 3), (axisD, 2)] [("x", .slice ⟨none, none, some (-2)⟩)] ∧
    FullAlong exLarge.distribution [("x", 3), (axisD, 2)] [("x", .slice ⟨none, none, some (-2)⟩)] :=
  ⟨⟨by decide, by decide, by decide⟩, by unfold FullAlong; decide +kernel, by unfold FullAlong; decide +kernel⟩

/-- **C63** (masks). A mask (for an uncertain one see `C60_mask_value`) over axes which both components have with
the full size: the shapes are unchanged, the `k`-th true element of the mask receives the value at `k` along the
new axis, in the nominal value and in every sample, and the elements where the mask is false are unchanged. -/
theorem C63_mask_partial (u : UA α) (hu : u.Valid) (s : Shape) (hs : u.shape = .ok s)
    (mask : UArg Bool) (sm : Shape) (hsm : maskShape mask = .ok sm) (hsub : keys sm ⊆ keys s)
    (w : SA Bool) (hmask : maskOf mask = .ok w) (hw : w.WF)
    (hnx : w.axes ⊆ u.nominal.axes) (hdx : w.axes ⊆ u.distribution.axes)
    (hnz : ∀ ax ∈ w.axes, get? w.shape ax = get? u.nominal.shape ax)
    (hdz : ∀ ax ∈ w.axes, get? w.shape ax = get? u.distribution.shape ax)
    (new : String) (hnew : new = if w.axes = [] then "boolean" else "*".intercalate w.axes)
    (hnc : ∀ ax ∈ u.nominal.axes, ax ∉ w.axes → ax ≠ new)
    (hdc : ∀ ax ∈ u.distribution.axes, ax ∉ w.axes → ax ≠ new)
    (value : UArg α) (hv : value.Ok) (n : Nat) (hn : n = w.nd.trues.length)
    (hvn : ∀ ax m, get? value.nominal.shape ax = some m →
      (ax = new ∧ (m = n ∨ m = 1)) ∨ (ax ∉ w.axes ∧ ∃ k, get? u.nominal.shape ax = some k ∧ (m = k ∨ m = 1)))
    (hvd : ∀ ax m, get? value.distribution.shape ax = some m →
      (ax = new ∧ (m = n ∨ m = 1)) ∨ (ax ∉ w.axes ∧ ∃ k, get? u.distribution.shape ax = some k ∧ (m = k ∨ m = 1))) :
    ∃ (r : UA α) (pos : Nat → String → Nat), u.setMask mask value = (r, none) ∧ r.Valid ∧
      r.nominal.shape = u.nominal.shape ∧ r.distribution.shape = u.distribution.shape ∧
      (∀ k < n, InRange w.shape (pos k) ∧ w.at' (pos k) = true) ∧
      (∀ k k', k < k' → k' < n → List.Lex (· < ·) (w.axes.map (pos k)) (w.axes.map (pos k'))) ∧
      (∀ e, InRange w.shape e → w.at' e = true → ∃ k < n, ∀ ax ∈ w.axes, pos k ax = e ax) ∧
      (∀ e, InRange u.nominal.shape e → w.at' e = false → r.nominal.at' e = u.nominal.at' e) ∧
      (∀ e, InRange u.distribution.shape e → w.at' e = false → r.distribution.at' e = u.distribution.at' e) ∧
      (∀ e, (∀ ax k, ax ∉ w.axes → get? u.nominal.shape ax = some k → e ax < k) → e new < n →
        r.nominal.at' (fun ax => if ax ∈ w.axes then pos (e new) ax else e ax) = value.nominal.atB e) ∧
      (∀ e, (∀ ax k, ax ∉ w.axes → get? u.distribution.shape ax = some k → e ax < k) → e new < n →
        r.distribution.at' (fun ax => if ax ∈ w.axes then pos (e new) ax else e ax) = value.distribution.atB e) := by
  subst hn
  have hax : SA.maskAxis w = .ok new := by rw [SA.maskAxis_ok, hnew]
  have hfits : ∀ (c v : SA α), c.WF → v.WF → w.axes ⊆ c.axes → (∀ ax ∈ w.axes, get? w.shape ax = get? c.shape ax) →
      (∀ ax ∈ c.axes, ax ∉ w.axes → ax ≠ new) →
      (∀ ax m, get? v.shape ax = some m → (ax = new ∧ (m = w.nd.trues.length ∨ m = 1)) ∨
        (ax ∉ w.axes ∧ ∃ k, get? c.shape ax = some k ∧ (m = k ∨ m = 1))) →
      ∃ r : SA α, c.setMask w v = .ok r ∧ r.WF ∧ r.axes = c.axes ∧ r.shape = c.shape ∧
        (∀ e, InRange c.shape e → w.at' e = false → r.at' e = c.at' e) ∧
        (∀ e, (∀ ax n, ax ∉ w.axes → get? c.shape ax = some n → e ax < n) → e new < w.nd.trues.length →
          r.at' (SA.maskIdx w new e) = v.atB e) := by
    intro c v hc hv hsub' hz hcoll hfit
    obtain ⟨s', hs', h⟩ := (SA.setMask_main hc hv hw).2 hsub'
    rw [hax] at hs'
    cases hs'
    obtain ⟨_, h2⟩ := h (by
      intro h
      simp only [List.mem_filter, decide_eq_true_eq] at h
      exact hcoll _ h.1 h.2 rfl)
    refine ((h2 ?_).2 hz).2 ?_ ?_
    · intro ax hax'
      obtain ⟨m, hm⟩ := exists_get?_of_mem (d := v.shape) (by rw [SA.keys_shape hv]; exact hax')
      simp only [List.mem_cons, List.mem_filter, decide_eq_true_eq]
      rcases hfit ax m hm with h | ⟨h, k, hk, _⟩
      · exact Or.inl h.1
      · exact Or.inr ⟨by rw [← SA.keys_shape hc]; exact mem_keys_of_get? hk, h⟩
    · intro m hm
      rcases hfit new m hm with h | ⟨h, k, hk, _⟩
      · exact h.2
      · exact absurd rfl (hcoll new (by rw [← SA.keys_shape hc]; exact mem_keys_of_get? hk) h)
    · intro ax m h1 h3 hm
      rcases hfit ax m hm with h | ⟨h, k, hk, h4⟩
      · exact absurd h.1 (hcoll ax h1 h3)
      · rcases h4 with rfl | h4
        · exact Or.inl hk
        · exact Or.inr h4
  obtain ⟨n, n1, n2, n3, n4, n5, n6⟩ := hfits _ _ hu.1 hv.nominal hnx hnz hnc hvn
  obtain ⟨d, d1, d2, d3, d4, d5, d6⟩ := hfits _ _ hu.2.1 hv.distribution hdx hdz hdc hvd
  obtain ⟨t1, t2, t3⟩ := SA.trues_spec hw
  refine ⟨⟨n, d⟩, SA.trueEnv w, ?_, ⟨n2, d2, by rw [n3]; exact hu.2.2⟩, n4, d4, t1, t2, t3, n5, d5, n6, d6⟩
  have hall : (keys sm).all (· ∈ keys s) = true := by
    rw [List.all_eq_true]
    intro ax h
    simpa using hsub h
  unfold setMask
  simp only [hs, hsm, bind, Except.bind, hall, if_true, hmask, n1, d1]
  rfl

/-- the second element of the mask -/
example : (fun r : UA Int × Option Err => (r.1.nominal.nd.toList, r.1.distribution.nd.toList, r.2))
    (exLarge.setMask (.plain ⟨["x"], ND.ofList [3] [true, false, true] false⟩)
      (.unc ⟨⟨["x"], ND.ofList [2] [10, 20] 0⟩, ⟨[axisD], ND.ofList [2] [30, 40] 0⟩⟩)) =
    ([10, 6, 20], [30, 40, 3, 4, 30, 40], none) := by decide +kernel

end UA
end NA
