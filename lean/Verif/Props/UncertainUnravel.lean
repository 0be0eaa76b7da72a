import Verif.Uncertain.Unravel
import Verif.Uncertain.Lemmas
import Verif.Props.Sorting

/-!
# C122: multi-indices of uncertain flat positions
-/

namespace NA
open Dict
open SA (InRange)

/-- The coordinates are those of the element number `k` of an array of shape `s` in row-major order. -/
def Position (s : Shape) (k : Nat) (x : String → Nat) : Prop := InRange s x ∧ ND.ravel (values s) ((keys s).map x) = k

/-- Every number below the number of elements has coordinates. -/
theorem exists_position {s : Shape} (hs : WF s) {k : Nat} (h : k < (values s).prod) : ∃ x, Position s k x := by
  have hr := ND.inRange_unravel h
  refine ⟨envOf (keys s) (ND.unravel (values s) k), ?_, ?_⟩
  · rw [SA.inRange_iff_nd hs, map_envOf hs]
    · exact hr
    · have := hr.length_eq; simp only [values, keys, List.length_map] at *; omega
  · rw [map_envOf hs]
    · exact ND.ravel_unravel h
    · have := hr.length_eq; simp only [values, keys, List.length_map] at *; omega

/-- ... and only one. -/
theorem position_unique {s : Shape} (hs : WF s) {k : Nat} {x y : String → Nat} (hx : Position s k x) (hy : Position s k y) :
    ∀ ax ∈ keys s, x ax = y ax := by
  have h1 := ND.unravel_ravel ((SA.inRange_iff_nd hs).1 hx.1)
  have h2 := ND.unravel_ravel ((SA.inRange_iff_nd hs).1 hy.1)
  rw [hx.2] at h1
  rw [hy.2, h1] at h2
  intro ax hax
  exact (List.map_inj_left.1 h2) ax hax

/-- All positions which the array holds belong to an array of shape `s`. -/
def AllBelow (a : SA Nat) (s : Shape) : Prop := ∀ e, InRange a.shape e → a.at' e < (values s).prod

/-- The coordinates which `np.unravel_index` gives. -/
theorem SA.unravel_positions {a : SA Nat} (ha : a.WF) {s : Shape} (hs : Dict.WF s) (h : AllBelow a s) :
    ∃ d, SA.unravelIndex a s = .ok d ∧ ∀ ax ∈ keys s, ∃ b, get? d ax = some b ∧ b.WF ∧ b.axes = a.axes ∧ b.shape = a.shape ∧
      ∀ e x, InRange a.shape e → Position s (a.at' e) x → b.at' e = (x ax : Int) := by
  classical
  let E : (String → Nat) → String → Nat := fun e => if he : InRange a.shape e then (exists_position hs (h e he)).choose else e
  have hE : ∀ e, InRange a.shape e → Position s (a.at' e) (E e) := by
    intro e he
    simp only [E, dif_pos he]
    exact (exists_position hs (h e he)).choose_spec
  obtain ⟨d, h1, _, h3⟩ := SA.C22_unravel_index a ha s hs E (fun e he => ⟨(hE e he).1, (hE e he).2.symm⟩)
  refine ⟨d, h1, fun ax hax => ?_⟩
  obtain ⟨b, b1, b2, b3, b4⟩ := h3 ax hax
  refine ⟨b, b1, b2, ?_, b3, fun e x he hx => ?_⟩
  · rw [← SA.keys_shape b2, b3, SA.keys_shape ha]
  · rw [b4 e he, position_unique hs (hE e he) hx ax hax]

namespace UA

/-- **C122** (coordinates). If the nominal value and the samples of `u` are all smaller than the number of elements of an array of shape `s`, which has at
least one axis, then the result has one uncertain scalar for every axis of `s`, in the same order; its nominal value and its samples have the axes
of those of `u`, and they are, at every index, the coordinate along this axis of the element with that number.
Missing for the full property: positions which are too large raise `ValueError` (`C122_error`), but not if `s` has no axes
(`C122_no_axes_refuted`). -/
theorem C122_coordinates_partial {u : UA Nat} (hu : u.Valid) {s : Shape} (hs : WF s) (hne : s ≠ []) (hn : AllBelow u.nominal s)
    (hd : AllBelow u.distribution s) :
    ∃ r, u.unravelIndex s = .ok r ∧ keys r = keys s ∧ ∀ ax ∈ keys s, ∃ w, get? r ax = some w ∧ w.Valid ∧
      w.nominal.shape = u.nominal.shape ∧ w.distribution.shape = u.distribution.shape ∧
      (∀ e x, InRange u.nominal.shape e → Position s (u.nominal.at' e) x → w.nominal.at' e = (x ax : Int)) ∧
      ∀ e x, InRange u.distribution.shape e → Position s (u.distribution.at' e) x → w.distribution.at' e = (x ax : Int) := by
  obtain ⟨rn, n1, n2⟩ := SA.unravel_positions hu.1 hs hn
  obtain ⟨rd, d1, d2⟩ := SA.unravel_positions hu.2.1 hs hd
  have hempty : s.isEmpty = false := by cases s with
    | nil => exact absurd rfl hne
    | cons _ _ => rfl
  let W : String → UA Int := fun ax => ⟨(get? rn ax).getD ⟨[], ND.scalar 0⟩, (get? rd ax).getD ⟨[], ND.scalar 0⟩⟩
  have hmap : s.keys.mapM (fun ax =>
      match rn.get? ax, rd.get? ax with
      | some n, some d => (do .ok (ax, ← mk? n d) : R (String × UA Int))
      | _, _ => .error .keyError) = .ok (s.keys.map (fun ax => (ax, W ax))) := by
    have : ∀ l : List String, l ⊆ keys s → l.mapM (fun ax =>
      match rn.get? ax, rd.get? ax with
      | some n, some d => (do .ok (ax, ← mk? n d) : R (String × UA Int))
      | _, _ => .error .keyError) = .ok (l.map (fun ax => (ax, W ax))) := by
      intro l hl
      induction l with
      | nil => rfl
      | cons ax l ih =>
        obtain ⟨b, b1, b2, b3, _⟩ := n2 ax (hl (by simp))
        obtain ⟨c, c1, _⟩ := d2 ax (hl (by simp))
        rw [List.mapM_cons, ih (fun x hx => hl (by simp [hx])), b1, c1]
        simp only [mk?_of_valid b2 (d := c) (by rw [b3]; exact hu.2.2), bind, Except.bind, pure, Except.pure, List.map_cons, W, b1, c1, Option.getD_some]
    exact this _ (fun _ h => h)
  refine ⟨s.keys.map (fun ax => (ax, W ax)), ?_, ?_, ?_⟩
  · unfold unravelIndex
    rw [hempty]
    simp only [Bool.false_eq_true, if_false, n1, d1, bind, Except.bind]
    exact hmap
  · simp [keys]
  · intro ax hax
    obtain ⟨b, b1, b2, b3, b4, b5⟩ := n2 ax hax
    obtain ⟨c, c1, c2, c3, c4, c5⟩ := d2 ax hax
    have hW : W ax = ⟨b, c⟩ := by simp only [W, b1, c1, Option.getD_some]
    refine ⟨⟨b, c⟩, by rw [SA.get?_map_list, if_pos hax, hW], ⟨b2, c2, by rw [b3]; exact hu.2.2⟩, b4, c4, b5, c5⟩

/-- **C122** (errors). A nominal value or a single sample which is too large raises `ValueError`, if `s` has an axis. -/
theorem C122_error {u : UA Nat} (hu : u.Valid) {s : Shape} (hne : s ≠ []) (h : ¬ AllBelow u.nominal s ∨ ¬ AllBelow u.distribution s) :
    u.unravelIndex s = .error .valueError := by
  have hempty : s.isEmpty = false := by cases s with
    | nil => exact absurd rfl hne
    | cons _ _ => rfl
  have key : ∀ a : SA Nat, a.WF → ¬ AllBelow a s → SA.unravelIndex a s = .error .valueError := by
    intro a ha hb
    unfold AllBelow at hb
    push Not at hb
    obtain ⟨e, he, h2⟩ := hb
    exact SA.C22_unravel_index_error a ha s e he h2
  unfold unravelIndex
  rw [hempty]
  simp only [Bool.false_eq_true, if_false]
  rcases h with h | h
  · rw [key _ hu.1 h]; rfl
  · cases h1 : SA.unravelIndex u.nominal s with
    | error x =>
      unfold SA.unravelIndex at h1
      split at h1
      · cases h1
      · cases h1; rfl
    | ok d => rw [key _ hu.2.1 h]; rfl

/-- the positions 4 and 1, with two samples each -/
def exPositions : UA Nat := ⟨⟨["k"], ND.ofList [2] [4, 1] 0⟩, ⟨["k", axisD], ND.ofList [2, 2] [5, 3, 0, 2] 0⟩⟩

theorem valid_exPositions : exPositions.Valid := ⟨⟨rfl, by decide⟩, ⟨rfl, by decide⟩, by decide⟩

def exUnravelled : R (Dict (UA Int)) → List (String × List Int × List Int)
  | .ok d => d.map (fun p => (p.1, p.2.nominal.nd.toList, p.2.distribution.nd.toList))
  | .error _ => []

example : exUnravelled (exPositions.unravelIndex [("x", 2), ("y", 3)]) = [("x", [1, 0], [1, 1, 0, 0]), ("y", [1, 1], [2, 0, 0, 2])] := by
  decide +kernel
theorem below_nominal : AllBelow exPositions.nominal [("x", 2), ("y", 3)] := by
  intro e he
  have hk : e "k" < 2 := he "k" 2 rfl
  have : exPositions.nominal.at' e = [4, 1].getD (ND.ravel [2] [e "k"]) 0 := rfl
  rw [this]
  generalize e "k" = i at hk
  obtain rfl | rfl : i = 0 ∨ i = 1 := by omega
  · decide
  · decide
theorem below_distribution : AllBelow exPositions.distribution [("x", 2), ("y", 3)] := by
  intro e he
  have hk : e "k" < 2 := he "k" 2 rfl
  have hd : e axisD < 2 := he axisD 2 rfl
  have : exPositions.distribution.at' e = [5, 3, 0, 2].getD (ND.ravel [2, 2] [e "k", e axisD]) 0 := rfl
  rw [this]
  generalize e "k" = i at hk
  generalize e axisD = j at hd
  obtain rfl | rfl : i = 0 ∨ i = 1 := by omega
  · obtain rfl | rfl : j = 0 ∨ j = 1 := by omega
    · decide
    · decide
  · obtain rfl | rfl : j = 0 ∨ j = 1 := by omega
    · decide
    · decide
example : ∃ r, exPositions.unravelIndex [("x", 2), ("y", 3)] = .ok r ∧ keys r = ["x", "y"] := by
  obtain ⟨r, h1, h2, _⟩ := C122_coordinates_partial valid_exPositions (by decide) (by simp) below_nominal below_distribution
  exact ⟨r, h1, h2⟩
-- one sample is 5, too large for 5 elements
example : exPositions.unravelIndex [("x", 5)] = .error .valueError := by
  refine C122_error valid_exPositions (by simp) (.inr fun h => ?_)
  have := h (fun _ => 0) (fun ax n hn => by
    change get? [("k", 2), (axisD, 2)] ax = some n at hn
    simp only [get?] at hn
    split at hn
    · cases hn; show 0 < 2; omega
    · split at hn
      · cases hn; show 0 < 2; omega
      · cases hn)
  exact absurd this (by decide)

/-- **C122** is false without axes: the position 4 does not belong to an array of one element, and `np.unravel_index` of the nominal value alone raises
`ValueError`, but that of the uncertain scalar returns an empty dictionary. -/
theorem C122_no_axes_refuted : exPositions.Valid ∧ ¬ AllBelow exPositions.nominal [] ∧ SA.unravelIndex exPositions.nominal [] = .error .valueError ∧
    exPositions.unravelIndex [] = .ok [] := by
  have hb : ¬ AllBelow exPositions.nominal [] := by
    intro h
    have := h (fun _ => 0) (fun ax n hn => by
      change get? [("k", 2)] ax = some n at hn
      simp only [get?] at hn
      split at hn
      · cases hn; show 0 < 2; omega
      · cases hn)
    exact absurd this (by decide)
  refine ⟨valid_exPositions, hb, ?_, rfl⟩
  refine SA.C22_unravel_index_error _ valid_exPositions.1 [] (fun _ => 0) (fun ax n hn => ?_) (by decide)
  change get? [("k", 2)] ax = some n at hn
  simp only [get?] at hn
  split at hn
  · cases hn; show 0 < 2; omega
  · cases hn

end UA
end NA
