import Verif.Props.UncertainIndex

/-!
# Index arrays for uncertain scalars (C60)
-/

namespace NA
open Dict
open SA (FitsIn InRange selIdx selLen ValidItem StepsOk ItemWF IntAt known arrayShapes)

namespace UA
variable {α : Type}

/-- The item for the nominal value. -/
def nominalItem (item : Dict UIndex) : Dict IndexVal := item.map (fun p => (p.1, p.2.nominal))

/-- The item for the samples. -/
def samplesItem (item : Dict UIndex) : Dict IndexVal := item.map (fun p => (p.1, p.2.distribution))

/-- What is required of a component `c` of an array of shape `t` for the item `i`, whose index arrays have the common shape
`S`: along the indexed axes the component has the full size, the item is valid for the shape, and no axis of the index arrays is
also a remaining axis of the component. -/
structure Selects (c : SA α) (t : Shape) (i : Dict IndexVal) (S : Shape) : Prop where
  wf : ItemWF i
  full : FullAlong c t i
  arrays : broadcastShapes (arrayShapes (known c.axes i)) = .ok S
  steps : StepsOk t i
  valid : ValidItem t i
  disj : ∀ ax ∈ keys S, ax ∈ c.axes → IntAt i ax ∨ ∃ b, get? i ax = some (.arr b)

/-- `r` has been taken from `c`: its axes are those of the index arrays, followed by the remaining ones in their order, with the
sizes of the slices, and each element is the one at the selected position. -/
structure Taken (c r : SA α) (t : Shape) (i : Dict IndexVal) (S : Shape) : Prop where
  wf : r.WF
  axes : ∃ rest, r.axes = keys S ++ rest ∧ List.Sublist rest c.axes ∧
    ∀ ax, ax ∈ rest ↔ ax ∈ c.axes ∧ ¬ IntAt i ax ∧ ∀ b, get? i ax ≠ some (.arr b)
  new : ∀ ax ∈ keys S, get? r.shape ax = get? S ax
  old : ∀ ax ∈ r.axes, ax ∉ keys S →
    get? r.shape ax = if ax ∈ keys i then some (selLen t i ax) else get? c.shape ax
  values : ∀ e, r.at' e = c.at' (selIdx t i e)

theorem taken_of_selects {c : SA α} (hc : c.WF) {t : Shape} {i : Dict IndexVal} {S : Shape} (h : Selects c t i S)
    (hfit : FitsIn c.shape t) : ∃ r, c.getitem (i.filter (fun p => p.1 ∈ c.axes)) = .ok r ∧ Taken c r t i S := by
  have hmem : ∀ ax ∈ keys c.shape, ax ∈ keys t := by
    intro ax hax
    obtain ⟨m, hm⟩ := exists_get?_of_mem hax
    obtain ⟨n, hn, _⟩ := hfit ax m hm
    exact mem_keys_of_get? hn
  rw [SA.C13_getitem_ignores_absent c _ i (by rw [List.filter_filter]; simp)]
  obtain ⟨r, rest, r1, r2, r3, r4, r5, r6, r7, r8⟩ := SA.C14_getitem_arrays c hc i h.wf S h.arrays
    (fun ax hax sl hs => h.steps ax (hmem ax hax) sl hs) (by
      intro ax n hn
      by_cases hk : ax ∈ keys i
      · have hax : ax ∈ c.axes := by rw [← SA.keys_shape hc]; exact mem_keys_of_get? hn
        rw [h.full ax hk hax] at hn
        exact h.valid ax n hn
      · refine ⟨fun i hi' => ?_, fun b hb => ?_⟩
        · rw [get?_eq_none.2 hk] at hi'; cases hi'
        · rw [get?_eq_none.2 hk] at hb; cases hb) h.disj
  refine ⟨r, r1, r2, ⟨rest, r3, r4, r5⟩, r6, fun ax hax hnk => ?_, fun e => ?_⟩
  · have hr : ax ∈ rest := by
      rw [r3, List.mem_append] at hax
      exact hax.resolve_left hnk
    have hca := ((r5 ax).1 hr).1
    rw [r7 ax hr]
    split
    · next hk =>
      unfold selLen
      rw [h.full ax hk hca]
    · next hk =>
      unfold selLen
      rw [get?_eq_none.2 hk]
      obtain ⟨n, hn⟩ := exists_get?_of_mem (d := c.shape) (by rw [SA.keys_shape hc]; exact hca)
      simp [hn]
  · rw [r8]
    exact SA.at'_congr (selIdx_full hc h.full e)

/-- **C60** (index arrays). An item of integers, slices and index arrays, which may be uncertain: the nominal value of the result
is taken from the nominal value at the nominal indices, and its samples are taken from the samples at the samples of the indices.
(What is missing: components which do not have the full size along an indexed axis, refuted by `C60_integer_refuted`.) -/
theorem C60_arrays_partial (u : UA α) (hu : u.Valid) (t : Shape) (ht : u.shapeDistribution = .ok t)
    (item : Dict UIndex) (hnone : ∀ v ∈ values item, v.isNone = false) (Sn Sd : Shape)
    (hn : Selects u.nominal t (nominalItem item) Sn) (hd : Selects u.distribution t (samplesItem item) Sd)
    (hD : axisD ∉ keys Sn) :
    ∃ r, u.getitem item = .ok r ∧ r.Valid ∧ Taken u.nominal r.nominal t (nominalItem item) Sn ∧
      Taken u.distribution r.distribution t (samplesItem item) Sd := by
  have hw : ∀ s ∈ [u.nominal.shape, u.distribution.shape], WF s := by
    intro s hs
    simp only [List.mem_cons, List.not_mem_nil, or_false] at hs
    rcases hs with rfl | rfl
    · exact SA.wf_shape hu.1
    · exact SA.wf_shape hu.2.1
  have ht' : broadcastShapes [u.nominal.shape, u.distribution.shape] = .ok t := ht
  obtain ⟨n, n1, n2⟩ := taken_of_selects hu.1 hn (SA.fitsIn_of_broadcastShapes hw ht' (by simp))
  obtain ⟨d, d1, d2⟩ := taken_of_selects hu.2.1 hd (SA.fitsIn_of_broadcastShapes hw ht' (by simp))
  have hnD : axisD ∉ n.axes := by
    obtain ⟨rest, h1, h2, h3⟩ := n2.axes
    rw [h1, List.mem_append]
    rintro (h | h)
    · exact hD h
    · exact hu.2.2 ((h3 axisD).1 h).1
  refine ⟨⟨n, d⟩, ?_, ⟨n2.wf, d2.wf, hnD⟩, n2, d2⟩
  have e1 : item.values.any UIndex.isNone = false := by
    rw [List.any_eq_false]
    intro x hx
    simpa using hnone x hx
  unfold getitem
  unfold nominalItem at n1
  unfold samplesItem at d1
  simp only [ht, bind, Except.bind, e1, Bool.false_eq_true, if_false, n1, d1]
  exact mk?_of_valid n2.wf hnD

/-- nominal position 1, samples at positions 0 and 2 -/
def exIndex : UA Int := ⟨⟨[], ND.ofList [] [1] 0⟩, ⟨[axisD], ND.ofList [2] [0, 2] 0⟩⟩

/-- one position for each sample, together with the number of the sample -/
example : (do let r ← exLarge.getitem [("x", .unc exIndex), (axisD, .plain (.arr ⟨[axisD], ND.ofList [2] [0, 1] 0⟩))]
              pure (r.nominal.nd.toList, r.distribution.axes, r.distribution.nd.toList)) =
    .ok ([6], [axisD], [1, 6]) := by decide +kernel

example : Selects exLarge.nominal [("x", 3), (axisD, 2)]
    (nominalItem [("x", .unc exIndex), (axisD, .plain (.arr ⟨[axisD], ND.ofList [2] [0, 1] 0⟩))]) [] := by
  refine ⟨⟨by decide, ?_⟩, ?_, by decide +kernel, ?_, ?_, by simp [keys]⟩
  · intro ax b hb
    simp only [nominalItem, List.map_cons, List.map_nil, List.mem_cons, Prod.mk.injEq, List.not_mem_nil, or_false] at hb
    rcases hb with ⟨_, h⟩ | ⟨_, h⟩ <;> (injection h with h; rw [h]; decide)
  · unfold FullAlong; decide +kernel
  · intro ax _ sl h
    have := mem_of_get? h
    simp [nominalItem, UIndex.nominal] at this
  · intro ax n hn
    refine ⟨fun i hi => ?_, fun b hb => ?_⟩
    · have := mem_of_get? hi
      simp [nominalItem, UIndex.nominal] at this
    · have h1 := mem_of_get? hb
      have h2 := mem_of_get? hn
      simp only [List.mem_cons, Prod.mk.injEq, List.not_mem_nil, or_false] at h2
      simp only [nominalItem, List.map_cons, List.map_nil, List.mem_cons, Prod.mk.injEq, List.not_mem_nil, or_false] at h1
      rcases h1 with ⟨rfl, h1⟩ | ⟨rfl, h1⟩
      · injection h1 with h1
        subst h1
        rcases h2 with ⟨_, rfl⟩ | ⟨h2, _⟩
        · intro e _
          show ND.ValidIndex 3 1
          decide
        · exact absurd h2 (by decide)
      · injection h1 with h1
        subst h1
        rcases h2 with ⟨h2, _⟩ | ⟨_, rfl⟩
        · exact absurd h2 (by decide)
        · intro e he
          have : e axisD < 2 := he axisD 2 (by decide +kernel)
          have h01 : e axisD = 0 ∨ e axisD = 1 := by omega
          show ND.ValidIndex 2 ((ND.ofList [2] [0, 1] 0 : ND Int).get [e axisD])
          rcases h01 with h | h <;> (rw [h]; decide)

/-- **C60** (refuted). With an uncertain index array alone, `ValueError` is raised: the axis of its samples is also the
remaining axis of the samples of the array. -/
theorem C60_uncertain_index_refuted : exLarge.Valid ∧ exIndex.Valid ∧ exLarge.shape = .ok [("x", 3)] ∧
    exLarge.getitem [("x", .unc exIndex)] = .error .valueError := by
  refine ⟨⟨by decide, by decide, by decide⟩, ⟨by decide, by decide, by decide⟩, rfl, ?_⟩
  have h : (exLarge.getitem [("x", .unc exIndex)]).map (fun _ => ()) = .error .valueError := by decide +kernel
  cases hr : exLarge.getitem [("x", .unc exIndex)] with
  | error e => rw [hr] at h; injection h with h; rw [h]
  | ok r => rw [hr] at h; cases h

end UA
end NA
