import Verif.Props.Uncertain
import Verif.Props.VectorReduce

/-!
# Reductions of uncertain scalars (C61)
-/

namespace NA
open Dict
open SA (FitsIn InRange)

namespace UA
variable {α β : Type}

/-- The axis argument of a reduction of an uncertain scalar of shape `s`. -/
def reducedAxes (s : Shape) (axis : Option (List String)) : List String := axis.getD (keys s)

/-- `where` (if given) is well-formed, and both of its components broadcast to the array: the nominal mask to
the shape, the mask of the samples to the shape with the `K` samples. -/
def MaskFits (s : Shape) (u : UA α) (wh : Option (UArg Bool)) : Prop :=
  ∀ w, wh = some w → w.Ok ∧ FitsIn w.nominal.shape s ∧
    ∀ ax m, get? w.distribution.shape ax = some m →
      ∃ n, (if ax = axisD then get? u.distribution.shape axisD else get? s ax) = some n ∧ (m = n ∨ m = 1)

/-- An axis of `A` is empty, and no other axis of the shape. -/
def EmptyIn (s : Shape) (A : List String) : Prop :=
  (∃ ax ∈ A, get? s ax = some 0) ∧ ∀ ax, ax ∉ A → get? s ax ≠ some 0

theorem maskFits_nominal {s : Shape} {u v : UA α} {wh : Option (UArg Bool)} (h : MaskFits s u wh)
    (hv : v.nominal.shape = s) : SA.WhereOk v.nominal (wh.map UArg.nominal) := by
  intro w hw
  rw [Option.map_eq_some_iff] at hw
  obtain ⟨w', h1, rfl⟩ := hw
  obtain ⟨g1, g2, _⟩ := h w' h1
  rw [hv]
  exact ⟨g1.nominal, g2⟩

theorem maskFits_distribution {s sd : Shape} {u v : UA α} {wh : Option (UArg Bool)} (h : MaskFits s u wh)
    (hS : Shapes u s sd) (hv : v.distribution.shape = sd) :
    SA.WhereOk v.distribution (wh.map UArg.distribution) := by
  intro w hw
  rw [Option.map_eq_some_iff] at hw
  obtain ⟨w', h1, rfl⟩ := hw
  obtain ⟨g1, _, g2⟩ := h w' h1
  rw [hv]
  refine ⟨g1.distribution, fun ax m hm => ?_⟩
  rw [hS.get]
  exact g2 ax m hm

/-- **C61**. A reduction of an uncertain scalar over the axes `A` (all axes of the shape by default) reduces the
nominal value and every sample, each over the whole slab of the shape to which the two components broadcast,
restricted to the mask.  `e axisD` is the number of the sample; the axis of the samples is never reduced. -/
theorem C61_reduce (u : UA α) (hu : u.Valid) (s : Shape) (hs : u.shape = .ok s) (axis : Option (List String))
    (hA : (reducedAxes s axis).Nodup) (hAs : reducedAxes s axis ⊆ keys s) (wh : Option (UArg Bool))
    (hw : MaskFits s u wh) (need : Bool) (f : List α → β) (kd : Bool)
    (hne : ¬ (need = true ∧ EmptyIn s (reducedAxes s axis))) :
    ∃ r, u.reduce need f axis kd wh = .ok r ∧ r.Valid ∧
      (∀ ax, get? r.nominal.shape ax =
        if ax ∈ reducedAxes s axis then (if kd then some 1 else none) else get? s ax) ∧
      (∀ ax, get? r.distribution.shape ax =
        if ax = axisD then get? u.distribution.shape axisD
        else if ax ∈ reducedAxes s axis then (if kd then some 1 else none) else get? s ax) ∧
      (∀ e, ∃ l, Comp.SlabOf s (reducedAxes s axis) e l ∧
        r.nominal.at' e = f ((l.filter (SA.selected (wh.map UArg.nominal))).map u.nominal.atB)) ∧
      ∀ e, ∃ l, Comp.SlabOf s (reducedAxes s axis) e l ∧
        r.distribution.at' e = f ((l.filter (SA.selected (wh.map UArg.distribution))).map u.distribution.atB) := by
  obtain ⟨sd, v, hS, hb, hv, v1, v2, v3, v4, v5⟩ := broadcasted_main hu hs
  generalize hAA : reducedAxes s axis = A at *
  have hDA : axisD ∉ A := fun h => hS.noD (hAs h)
  have hAn : A ⊆ v.nominal.axes := by rw [← SA.keys_shape hv.1, v1]; exact hAs
  have hAd : A ⊆ v.distribution.axes := by
    rw [← SA.keys_shape hv.2.1, v2, hS.last]
    intro ax h
    simp [hAs h]
  have hgA : ∀ ax ∈ A, get? sd ax = get? s ax := by
    intro ax h
    rw [hS.get, if_neg (by rintro rfl; exact hDA h)]
  obtain ⟨n, n1, n2, _, n3, n4⟩ := SA.C17_reduce v.nominal hv.1 _ (maskFits_nominal hw v1) A hA hAn need f kd (by
    unfold SA.EmptySlab
    rw [v1]
    exact hne)
  obtain ⟨d, d1, d2, _, d3, d4⟩ := SA.C17_reduce v.distribution hv.2.1 _ (maskFits_distribution hw hS v2) A hA hAd
    need f kd (by
      rintro ⟨h1, ⟨ax, h2, h3⟩, h4⟩
      rw [v2] at h3 h4
      refine hne ⟨h1, ⟨ax, h2, by rw [← hgA ax h2]; exact h3⟩, fun ax' hx hg => h4 ax' hx ?_⟩
      rw [hS.get, if_neg (by rintro rfl; exact hS.noD (mem_keys_of_get? hg))]
      exact hg)
  rw [v1] at n3
  rw [v2] at d3
  have hnD : axisD ∉ n.axes := by
    rw [← SA.keys_shape n2, ← get?_eq_none, n3, if_neg hDA]
    exact get?_eq_none.2 hS.noD
  refine ⟨⟨n, d⟩, ?_, ⟨n2, d2, hnD⟩, n3, fun ax => ?_, fun e => ?_, fun e => ?_⟩
  · unfold reduce
    simp only [hb, v3, bind, Except.bind]
    have : axis.getD (keys s) = A := hAA
    rw [this]
    simp only [n1, d1]
    exact mk?_of_valid n2 hnD
  · show get? d.shape ax = _
    rw [d3, hS.get]
    by_cases h : ax = axisD
    · subst h; simp [hDA]
    · simp [h]
  · obtain ⟨l, h1, h2⟩ := n4 e
    refine ⟨l, ?_, ?_⟩
    · unfold SA.IsSlab at h1
      rw [v1] at h1
      exact h1
    · rw [h2]
      congr 1
      exact List.map_congr_left fun e' _ => v4 e'
  · obtain ⟨l, h1, h2⟩ := d4 e
    refine ⟨l, ⟨h1.1, fun e' => ?_⟩, ?_⟩
    · rw [h1.2 e', v2]
      have : (∀ ax ∈ A, ∃ n, get? sd ax = some n ∧ e' ax < n) ↔ ∀ ax ∈ A, ∃ n, get? s ax = some n ∧ e' ax < n := by
        refine forall₂_congr fun ax h => ?_
        rw [hgA ax h]
      rw [this]
    · rw [h2]
      congr 1
      exact List.map_congr_left fun e' _ => v5 e'

/-- **C61** (failure). A reduction raises `ValueError` if the components do not broadcast; if an axis is not an
axis of the shape (in particular if it is the axis of the samples) or is repeated; and if a function without
identity is applied to no element. -/
theorem C61_error (u : UA α) (hu : u.Valid) (axis : Option (List String)) (wh : Option (UArg Bool))
    (need : Bool) (f : List α → β) (kd : Bool)
    (h : u.shape = .error .valueError ∨ ∃ s, u.shape = .ok s ∧ MaskFits s u wh ∧
      (¬ reducedAxes s axis ⊆ keys s ∨ ¬ (reducedAxes s axis).Nodup ∨
        (need = true ∧ EmptyIn s (reducedAxes s axis)))) :
    u.reduce need f axis kd wh = .error .valueError := by
  rcases h with h | ⟨s, hs, hw, h⟩
  · unfold reduce broadcasted
    simp only [h, bind, Except.bind]
  · obtain ⟨sd, v, hS, hb, hv, v1, v2, v3, v4, v5⟩ := broadcasted_main hu hs
    generalize hAA : reducedAxes s axis = A at *
    have := SA.C17_error v.nominal hv.1 _ (maskFits_nominal hw v1) A need f kd (by
      rw [← SA.keys_shape hv.1]
      unfold SA.EmptySlab
      rw [v1]
      exact h)
    unfold reduce
    simp only [hb, v3, bind, Except.bind]
    have h' : axis.getD (keys s) = A := hAA
    rw [h']
    simp only [this]

/-- nominal value along `x` only, samples along `y` and the samples -/
def exR : UA Int := ⟨⟨["x"], ND.ofList [2] [1, 2] 0⟩, ⟨[axisD, "y"], ND.ofList [2, 3] [1, 2, 3, 10, 20, 30] 0⟩⟩

example : exR.Valid ∧ exR.shape.map (fun s => (s.keys, s.values)) = .ok (["x", "y"], [2, 3]) :=
  ⟨⟨by decide, by decide, by decide⟩, by decide +kernel⟩
/-- the nominal value, which does not depend on `y`, counts three times -/
example : (exR.reduce false List.sum none false none).map
    (fun r => (r.nominal.nd.toList, r.distribution.axes, r.distribution.nd.toList)) =
    .ok ([9], [axisD], [12, 120]) := by decide +kernel
example : (exR.reduce false List.sum (some ["y"]) false (some (.plain ⟨["x"], ND.ofList [2] [true, false] false⟩))).map
    (fun r => (r.nominal.nd.toList, r.distribution.axes, r.distribution.nd.toList)) =
    .ok ([3, 0], ["x", axisD], [6, 60, 0, 0]) := by decide +kernel
example : (exR.reduce false List.sum (some [axisD]) false none).isOk = false := by decide +kernel

end UA
end NA
