import Verif.Interp.Centers

/-!
# C32: cell centers

`corner T e` is the index `e` moved up by one along the axes in `T`; the `2 ^ k` corners of the cell at `e` along the axes `L` are
`corner T e` for the subsets `T` of `L` (see `Verif/Interp/Spec.lean`, which also defines multilinear interpolation).
-/

namespace NA
open Dict
open SA (FitsIn InRange)

variable {K : Type} [Field K]

/-- The axes over which the cells are averaged: those which are named and which the array has; all if none is named. -/
def centerAxes (a : SA K) (axis : Option (List String)) : Finset String :=
  match axis with
  | none => a.axes.toFinset
  | some l => l.toFinset ∩ a.axes.toFinset

theorem centerAxes_eq (a : SA K) (ha : a.WF) (axis : Option (List String)) :
    ((axis.getD a.axes).filter (· ∈ a.shape.keys)).toFinset = centerAxes a axis := by
  rw [SA.keys_shape ha]
  cases axis with
  | none => ext x; simp [centerAxes]
  | some l => ext x; simp [centerAxes]

/-- The shape of the centers: one element fewer along the axes `L`. -/
def CentersOf (s : Shape) (L : Finset String) (r : Shape) : Prop :=
  ∀ ax, get? r ax = if ax ∈ L then (get? s ax).map (· - 1) else get? s ax

theorem centers_weights (a : SA K) (ha : a.WF) (axis : Option (List String)) (w : String → SA K) (S : Shape)
    (hS : CentersOf a.shape (centerAxes a axis) S) (hw : ∀ ax ∈ centerAxes a axis, Fits S (w ax)) :
    ∃ r, SA.nlerp (((axis.getD a.axes).filter (· ∈ a.shape.keys)).foldl (fun d ax => d.set ax (w ax)) []) a = .ok r ∧
      Full S r ∧ ∀ e, InRange S e →
        r.at' e = multilerp (centerAxes a axis) (fun ax => (w ax).atB e) a.at' e := by
  have hL := centerAxes_eq a ha axis
  set l := (axis.getD a.axes).filter (· ∈ a.shape.keys) with hl
  obtain ⟨h1, h2⟩ := foldl_set w l [] wf_nil
  have hk : (keys (l.foldl (fun d ax => d.set ax (w ax)) [])).toFinset = centerAxes a axis := by
    rw [← hL]
    ext x
    rw [List.mem_toFinset, List.mem_toFinset, ← get?_isSome, h2]
    by_cases hx : x ∈ l <;> simp [hx, get?]
  have hk' : ∀ ax, ax ∈ keys (l.foldl (fun d ax => d.set ax (w ax)) []) ↔ ax ∈ centerAxes a axis := by
    intro ax; rw [← List.mem_toFinset, hk]
  obtain ⟨r, hr1, hr2, hr3⟩ := nlerp_ok (S := S) _ a ha h1
    (by
      intro p hp
      have hpk : p.1 ∈ l := by
        rw [← List.mem_toFinset, hL, ← hk']
        exact List.mem_map.2 ⟨p, hp, rfl⟩
      have := get?_of_mem h1 hp
      rw [h2, if_pos hpk] at this
      injection this with this
      rw [← this]
      exact hw p.1 (by rw [← hL, List.mem_toFinset]; exact hpk))
    (by
      intro ax hax
      rw [hk', ← hL, List.mem_toFinset, hl, List.mem_filter] at hax
      rw [← SA.keys_shape ha]
      simpa using hax.2)
    (by
      intro ax
      rw [hS ax]
      simp only [hk'])
  refine ⟨r, hr1, hr2, fun e he => ?_⟩
  rw [hr3 e he, hk]
  apply multilerp_congr
  · intro ax hax
    have : ax ∈ l := by rw [← List.mem_toFinset, hL]; exact hax
    rw [h2, if_pos this]
    rfl
  · intros; rfl

theorem centersShape_spec (a : SA K) (ha : a.WF) (axis : Option (List String)) :
    CentersOf a.shape (centerAxes a axis)
      (SA.centersShape ((axis.getD a.axes).filter (· ∈ a.shape.keys)) a.shape) := by
  intro ax
  rw [← centerAxes_eq a ha axis]
  generalize (axis.getD a.axes).filter (· ∈ a.shape.keys) = l
  unfold SA.centersShape
  simp only [List.mem_toFinset]
  induction a.shape with
  | nil => simp [get?]
  | cons p s ih =>
    rw [List.map_cons, get?_cons, get?_cons]
    simp only
    by_cases h : p.1 = ax
    · subst h; simp
      split <;> rfl
    · rw [if_neg h, if_neg h]; exact ih

/-- **C32** `a.cell_centers(axis)` never fails, has one element fewer along each of the given axes (which `a` has) and the
same length along the other axes, and each element is the mean of the `2 ^ k` surrounding vertices. -/
theorem C32_cell_centers [NeZero (2 : K)] (a : SA K) (ha : a.WF) (axis : Option (List String)) :
    ∃ r, a.cellCenters axis none = .ok r ∧ r.WF ∧ CentersOf a.shape (centerAxes a axis) r.shape ∧
      ∀ e, InRange r.shape e →
        r.at' e = (∑ T ∈ (centerAxes a axis).powerset, a.at' (corner T e)) / 2 ^ (centerAxes a axis).card := by
  have hS := centersShape_spec a ha axis
  obtain ⟨r, h1, h2, h3⟩ := centers_weights a ha axis (fun _ => SA.scalar (1 / 2)) _ hS (fun _ _ => fits_scalar _ _)
  refine ⟨r, ?_, h2.1, fun ax => (h2.2 ax).trans (hS ax), fun e he => ?_⟩
  · simp only [SA.cellCenters, SA.centerWeights, bind, Except.bind]
    exact h1
  · rw [h3 e (fun ax n hn => he ax n (by rw [h2.2 ax]; exact hn))]
    exact multilerp_half _ _ _ _ (NeZero.ne 2) (fun _ _ => rfl)

/-- The vertices which are read are in range. -/
theorem corner_inRange {s r : Shape} {L T : Finset String} (hr : CentersOf s L r) (hT : T ⊆ L) {e : String → Nat}
    (he : InRange r e) : InRange s (corner T e) := by
  intro ax n hn
  have := hr ax
  rw [hn] at this
  unfold corner
  by_cases h : ax ∈ L
  · have := he ax (n - 1) (by rw [this, if_pos h]; rfl)
    split <;> omega
  · have h' : ax ∉ T := fun hx => h (hT hx)
    have := he ax n (by rw [this, if_neg h])
    rw [if_neg h']
    exact this

/-- **C32** The order (and repetition) of the axes does not matter. -/
theorem C32_order [NeZero (2 : K)] (a : SA K) (ha : a.WF) (l l' : List String) (h : ∀ ax, ax ∈ l ↔ ax ∈ l') (r r' : SA K)
    (hr : a.cellCenters (some l) none = .ok r) (hr' : a.cellCenters (some l') none = .ok r') : r.SameByName r' := by
  have hL : centerAxes a (some l) = centerAxes a (some l') := by ext x; simp [centerAxes, h x]
  obtain ⟨s, h1, h2, h3, h4⟩ := C32_cell_centers a ha (some l)
  obtain ⟨s', h1', h2', h3', h4'⟩ := C32_cell_centers a ha (some l')
  rw [hr] at h1; cases h1
  rw [hr'] at h1'; cases h1'
  have hs : Same r.shape r'.shape := fun ax => by rw [h3 ax, h3' ax, hL]
  refine ⟨hs, fun e he => ?_⟩
  rw [h4 e he, h4' e (fun ax n hn => he ax n (by rw [hs ax]; exact hn)), hL]

/-- **C32** If the array is an affine function of the indices along the given axes (with an intercept and slopes which may
depend on the other indices), the centers are this function at the mid-points of the cells. -/
theorem C32_linear [NeZero (2 : K)] (a : SA K) (ha : a.WF) (axis : Option (List String)) (c : (String → Nat) → K)
    (g : String → (String → Nat) → K)
    (hlin : ∀ e, InRange a.shape e → a.at' e = c (offAxes (centerAxes a axis) e) +
      ∑ ax ∈ centerAxes a axis, g ax (offAxes (centerAxes a axis) e) * (e ax : K)) (r : SA K)
    (hr : a.cellCenters axis none = .ok r) (e : String → Nat) (he : InRange r.shape e) :
    r.at' e = c (offAxes (centerAxes a axis) e) +
      ∑ ax ∈ centerAxes a axis, g ax (offAxes (centerAxes a axis) e) * ((e ax : K) + 1 / 2) := by
  obtain ⟨s, h1, h2, h3, h4⟩ := C32_cell_centers a ha axis
  rw [hr] at h1; cases h1
  rw [h4 e he, ← multilerp_half (centerAxes a axis) (fun _ => 1 / 2) _ _ (NeZero.ne 2) (fun _ _ => rfl),
    ← multilerp_affine (centerAxes a axis) (fun _ => 1 / 2)]
  apply multilerp_congr (fun _ _ => rfl)
  intro T hT
  rw [hlin _ (corner_inRange h3 hT he), offAxes_corner hT]

/-- **C32** (random points). With random numbers in `[0, 1]` every element lies between any two bounds of the surrounding
vertices. -/
theorem C32_random [LinearOrder K] [IsStrictOrderedRing K] (a : SA K) (ha : a.WF) (axis : Option (List String))
    (draw : String → List Nat → K) (hd : ∀ ax i, 0 ≤ draw ax i ∧ draw ax i ≤ 1)
    (hne : ∀ ax ∈ centerAxes a axis, get? a.shape ax ≠ some 0) :
    ∃ r, a.cellCenters axis (some draw) = .ok r ∧ r.WF ∧ CentersOf a.shape (centerAxes a axis) r.shape ∧
      ∀ e, InRange r.shape e → ∀ lo hi,
        (∀ T ⊆ centerAxes a axis, lo ≤ a.at' (corner T e) ∧ a.at' (corner T e) ≤ hi) → lo ≤ r.at' e ∧ r.at' e ≤ hi := by
  have hS := centersShape_spec a ha axis
  have hL := centerAxes_eq a ha axis
  set l := (axis.getD a.axes).filter (· ∈ a.shape.keys) with hl
  have hkeys : keys (SA.centersShape l a.shape) = keys a.shape := by
    unfold SA.centersShape keys
    rw [List.map_map]
    rfl
  have hwS : WF (SA.centersShape l a.shape) := by
    unfold WF
    rw [hkeys]
    exact SA.wf_shape ha
  have hfull : ∀ ax, Fits (SA.centersShape l a.shape)
      (⟨keys (SA.centersShape l a.shape), ⟨values (SA.centersShape l a.shape), draw ax⟩⟩ : SA K) := by
    intro ax
    refine Full.fits ⟨⟨by simp [ND.ndim, keys, values], hwS⟩, fun x => ?_⟩
    congr 1
    unfold SA.shape keys values
    simp only
    rw [List.zip_map']
    simp
  obtain ⟨r, h1, h2, h3⟩ := centers_weights a ha axis
    (fun ax => ⟨keys (SA.centersShape l a.shape), ⟨values (SA.centersShape l a.shape), draw ax⟩⟩) _ hS (fun ax _ => hfull ax)
  refine ⟨r, ?_, h2.1, fun ax => (h2.2 ax).trans (hS ax), fun e he lo hi hb => ?_⟩
  · simp only [SA.cellCenters, SA.centerWeights, bind, Except.bind]
    rw [if_neg]
    · exact h1
    · intro h
      rw [List.any_eq_true] at h
      obtain ⟨ax, hax, h0⟩ := h
      exact hne ax (by rw [← hL, List.mem_toFinset]; exact hax) (by simpa using h0)
  · rw [h3 e (fun ax n hn => he ax n (by rw [h2.2 ax]; exact hn))]
    exact multilerp_mem_Icc _ _ _ _ (fun ax _ => hd ax _) lo hi hb

/-! ### Non-vacuity -/

/-- vertices `0, 1, 4, 9` along `x` times `1, 2` along `y` -/
def cellEx : SA Rat := ⟨["x", "y"], ⟨[4, 2], fun i => (i.getD 0 0 : Rat) ^ 2 * (i.getD 1 0 + 1)⟩⟩

example : cellEx.WF := by decide
example : ((cellEx.cellCenters (some ["x"]) none).toOption.map (fun r => (r.axes, r.nd.toList))) =
    some (["x", "y"], [1 / 2, 1, 5 / 2, 5, 13 / 2, 13]) := by decide +kernel
example : ((cellEx.cellCenters none none).toOption.map (fun r => (r.nd.shape, r.nd.toList))) =
    some ([3, 1], [3 / 4, 15 / 4, 39 / 4]) := by decide +kernel

end NA
