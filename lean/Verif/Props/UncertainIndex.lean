import Verif.Uncertain.Index
import Verif.Props.Uncertain
import Verif.Props.Indexing
import Verif.Props.Reductions

/-!
# Indexing uncertain scalars (C60) and assigning to them (C63)
-/

namespace NA
open Dict
open SA (FitsIn InRange selIdx selLen ValidItem StepsOk BasicItem ItemWF IntAt)

namespace UA
variable {α β : Type}

/-! ### C60 -/

/-- An item of plain integers, slices and index arrays. -/
def plainItem (item : Dict IndexVal) : Dict UIndex := item.map (fun p => (p.1, .plain p.2))

/-- A component, unless it does not have the axis, has the full size along the axes of the item. -/
def FullAlong (c : SA α) (t : Shape) (item : Dict IndexVal) : Prop :=
  ∀ ax ∈ keys item, ax ∈ c.axes → get? c.shape ax = get? t ax

theorem selIdx_full {c : SA α} (hc : c.WF) {t : Shape} {item : Dict IndexVal} (h : FullAlong c t item)
    (e : String → Nat) : ∀ ax ∈ c.axes, selIdx c.shape item e ax = selIdx t item e ax := by
  intro ax hax
  unfold selIdx
  by_cases hk : ax ∈ keys item
  · rw [h ax hk hax]
  · rw [get?_eq_none.2 hk]

theorem getitem_full_comp {c : SA α} (hc : c.WF) {t : Shape} {item : Dict IndexVal} (hi : BasicItem item)
    (h : FullAlong c t item) (hfit : FitsIn c.shape t) (hsteps : StepsOk t item) (hvalid : ValidItem t item) :
    ∃ r, c.getitem (item.filter (fun p => p.1 ∈ c.axes)) = .ok r ∧ r.WF ∧
      (∀ ax, ax ∈ r.axes ↔ ax ∈ c.axes ∧ ¬ IntAt item ax) ∧
      (∀ ax ∈ r.axes, get? r.shape ax = if ax ∈ keys item then some (selLen t item ax) else get? c.shape ax) ∧
      ∀ e, r.at' e = c.at' (selIdx t item e) := by
  have hmem : ∀ ax ∈ keys c.shape, ax ∈ keys t := by
    intro ax hax
    obtain ⟨m, hm⟩ := exists_get?_of_mem hax
    obtain ⟨n, hn, _⟩ := hfit ax m hm
    exact mem_keys_of_get? hn
  rw [SA.C13_getitem_ignores_absent c _ item (by rw [List.filter_filter]; simp)]
  obtain ⟨r, r1, r2, r3, _, r4, r5⟩ := SA.C13_getitem_basic c hc item hi
    (fun ax hax sl hs => hsteps ax (hmem ax hax) sl hs) (by
      intro ax n hn
      by_cases hk : ax ∈ keys item
      · have hax : ax ∈ c.axes := by rw [← SA.keys_shape hc]; exact mem_keys_of_get? hn
        rw [h ax hk hax] at hn
        exact hvalid ax n hn
      · refine ⟨fun i hi' => ?_, fun b hb => ?_⟩
        · rw [get?_eq_none.2 hk] at hi'; cases hi'
        · rw [get?_eq_none.2 hk] at hb; cases hb)
  refine ⟨r, r1, r2, r3, fun ax hax => ?_, fun e => ?_⟩
  · have hca := ((r3 ax).1 hax).1
    rw [r4 ax hax]
    split
    · next hk =>
      unfold selLen
      rw [h ax hk hca]
    · next hk =>
      unfold selLen
      rw [get?_eq_none.2 hk]
      obtain ⟨n, hn⟩ := exists_get?_of_mem (d := c.shape) (by rw [SA.keys_shape hc]; exact hca)
      simp [hn]
  · rw [r5]
    exact SA.at'_congr (selIdx_full hc h e)

/-- **C60** (integers and slices). If each component either does not have an indexed axis or has it with the full
size, then indexing takes the same elements of the nominal value and of every sample: those at the positions
which the item selects in the shape of the array.  (What is missing: a component of size 1 along an indexed
axis of a larger size, refuted below.) -/
theorem C60_getitem_partial (u : UA α) (hu : u.Valid) (t : Shape) (ht : u.shapeDistribution = .ok t)
    (item : Dict IndexVal) (hi : BasicItem item) (hnone : ∀ v ∈ values item, v.isNone = false)
    (hn : FullAlong u.nominal t item) (hd : FullAlong u.distribution t item)
    (hsteps : StepsOk t item) (hvalid : ValidItem t item) :
    ∃ r, u.getitem (plainItem item) = .ok r ∧ r.Valid ∧
      (∀ ax, ax ∈ r.nominal.axes ↔ ax ∈ u.nominal.axes ∧ ¬ IntAt item ax) ∧
      (∀ ax ∈ r.nominal.axes, get? r.nominal.shape ax =
        if ax ∈ keys item then some (selLen t item ax) else get? u.nominal.shape ax) ∧
      (∀ ax, ax ∈ r.distribution.axes ↔ ax ∈ u.distribution.axes ∧ ¬ IntAt item ax) ∧
      (∀ ax ∈ r.distribution.axes, get? r.distribution.shape ax =
        if ax ∈ keys item then some (selLen t item ax) else get? u.distribution.shape ax) ∧
      (∀ e, r.nominal.at' e = u.nominal.at' (selIdx t item e)) ∧
      ∀ e, r.distribution.at' e = u.distribution.at' (selIdx t item e) := by
  have hw : ∀ s ∈ [u.nominal.shape, u.distribution.shape], WF s := by
    intro s hs
    simp only [List.mem_cons, List.not_mem_nil, or_false] at hs
    rcases hs with rfl | rfl
    · exact SA.wf_shape hu.1
    · exact SA.wf_shape hu.2.1
  have ht' : broadcastShapes [u.nominal.shape, u.distribution.shape] = .ok t := ht
  obtain ⟨n, n1, n2, n3, n4, n5⟩ := getitem_full_comp hu.1 hi hn
    (SA.fitsIn_of_broadcastShapes hw ht' (by simp)) hsteps hvalid
  obtain ⟨d, d1, d2, d3, d4, d5⟩ := getitem_full_comp hu.2.1 hi hd
    (SA.fitsIn_of_broadcastShapes hw ht' (by simp)) hsteps hvalid
  have hnD : axisD ∉ n.axes := fun h => hu.2.2 ((n3 axisD).1 h).1
  refine ⟨⟨n, d⟩, ?_, ⟨n2, d2, hnD⟩, n3, n4, d3, d4, n5, d5⟩
  have e1 : (plainItem item).values.any UIndex.isNone = false := by
    rw [List.any_eq_false]
    intro x hx
    unfold plainItem Dict.values at hx
    rw [List.map_map] at hx
    obtain ⟨p, hp, rfl⟩ := List.mem_map.1 hx
    have := hnone p.2 (List.mem_map.2 ⟨p, hp, rfl⟩)
    simpa [UIndex.isNone] using this
  have e2 : (plainItem item).map (fun p => (p.1, p.2.nominal)) = item := by
    unfold plainItem
    rw [List.map_map]
    conv_rhs => rw [← List.map_id item]
    exact List.map_congr_left fun p _ => rfl
  have e3 : (plainItem item).map (fun p => (p.1, p.2.distribution)) = item := by
    unfold plainItem
    rw [List.map_map]
    conv_rhs => rw [← List.map_id item]
    exact List.map_congr_left fun p _ => rfl
  unfold getitem
  simp only [ht, bind, Except.bind, e1, Bool.false_eq_true, if_false, e2, e3, n1, d1]
  exact mk?_of_valid n2 hnD

/-- nominal value of size 1 along `x`, samples of size 3 -/
def exSmall : UA Int := ⟨⟨["x"], ND.ofList [1] [5] 0⟩, ⟨["x", axisD], ND.ofList [3, 2] [1, 2, 3, 4, 5, 6] 0⟩⟩

/-- nominal value along `x`, samples along `x` -/
def exLarge : UA Int := ⟨⟨["x"], ND.ofList [3] [5, 6, 7] 0⟩, ⟨["x", axisD], ND.ofList [3, 2] [1, 2, 3, 4, 5, 6] 0⟩⟩

/-- **C60** (refuted). If the nominal value has size 1 along an axis along which the samples have size 3, an
integer which is valid for the shape raises `IndexError`. -/
theorem C60_integer_refuted : exSmall.Valid ∧ exSmall.shape = .ok [("x", 3)] ∧
    exSmall.getitem [("x", .plain (.int 2))] = .error .indexError := by
  refine ⟨⟨by decide, by decide, by decide⟩, rfl, ?_⟩
  rfl

/-- **C60** (refuted). A slice makes the nominal value empty, and the result has no shape. -/
theorem C60_slice_refuted : ∃ r, exSmall.getitem [("x", .plain (.slice ⟨some 1, none, none⟩))] = .ok r ∧
    r.shape = .error .valueError := by
  have h : (exSmall.getitem [("x", .plain (.slice ⟨some 1, none, none⟩))]).map
    (fun r => r.shape.map (fun _ => ())) = .ok (.error .valueError) := by decide +kernel
  cases hr : exSmall.getitem [("x", .plain (.slice ⟨some 1, none, none⟩))] with
  | error e => rw [hr] at h; cases h
  | ok r =>
    rw [hr] at h
    injection h with h
    refine ⟨r, rfl, ?_⟩
    have h' : r.shape.map (fun _ => ()) = .error .valueError := h
    cases hs : r.shape with
    | ok s => rw [hs] at h'; cases h'
    | error e => rw [hs] at h'; injection h' with h'; rw [h']

example : exLarge.Valid ∧ exLarge.shapeDistribution = .ok [("x", 3), (axisD, 2)] := by
  refine ⟨⟨by decide, by decide, by decide⟩, rfl⟩

end UA
end NA
