import Verif.Vector.Lift
import Verif.Props.Joining
import Verif.Props.VectorReduce
import Verif.Props.Lengths
import Verif.Props.VectorStructure

/-!
# C125: broadcasting of vectors to a shape
-/

namespace NA.Comp
open Dict
open SA (FitsIn)
variable {α : Type}

/-- The first error is that of a scalar, if all errors are of one kind. -/
theorem mapM_outcome_tree {β : Type} (f : α → R β) (e : Err) : ∀ x : Comp α, (∀ a ∈ x.leaves, (∃ b, f a = .ok b) ∨ f a = .error e) →
    (∃ a ∈ x.leaves, f a = .error e) → x.mapM f = .error e := by
  refine ind ?_ ?_
  · rintro a h ⟨b, hb, h1⟩
    simp only [leaves, List.mem_singleton] at hb
    subst hb
    simp only [mapM, h1, bind, Except.bind]
  · intro cls cs ih h hex
    have key : mapML f cs = .error e := by
      simp only [leaves] at h hex
      induction cs with
      | nil => obtain ⟨a, ha, _⟩ := hex; simp [leavesL] at ha
      | cons p l ihl =>
        obtain ⟨k, c⟩ := p
        simp only [leavesL, List.mem_append] at h hex
        by_cases hc : ∃ a ∈ c.leaves, f a = .error e
        · have := ih (k, c) (by simp) (fun a ha => h a (.inl ha)) hc
          simp only [mapML, bind, Except.bind]
          simp only at this
          rw [this]
        · obtain ⟨c', hc'⟩ := mapM_isOk' f c (fun a ha => by
            rcases h a (.inl ha) with h1 | h1
            · exact h1
            · exact absurd ⟨a, ha, h1⟩ hc)
          have hl := ihl (fun p hp => ih p (by simp [hp])) (fun a ha => h a (.inr ha)) (by
            obtain ⟨a, ha, h1⟩ := hex
            rcases ha with ha | ha
            · exact absurd ⟨a, ha, h1⟩ hc
            · exact ⟨a, ha, h1⟩)
          simp only [mapML, bind, Except.bind, hc', hl]
    simp only [mapM, key, bind, Except.bind]

/-- The scalars fit in a shape exactly if the shape of the vector does. -/
theorem fits_iff_leaves {v : Comp (SA α)} (hv : v.WFLeaves) {s shape : Shape} (hs : v.shape = .ok s) :
    FitsIn s shape ↔ ∀ a ∈ v.leaves, FitsIn a.shape shape := by
  have h := shape_leaves v hv
  rw [hs] at h
  cases hb : broadcastShapes (v.leaves.map SA.shape) with
  | error e => rw [hb] at h; exact absurd h id
  | ok s' =>
    rw [hb] at h
    have hsame : Same s s' := h
    obtain ⟨_, _, h3⟩ := C01_broadcast_shapes_ok _ hv.shapes s' hb
    constructor
    · intro hf a ha
      refine fitsIn_trans (SA.fitsIn_of_broadcastShapes hv.shapes hb (List.mem_map_of_mem ha)) (fun ax m hm => hf ax m ?_)
      rw [hsame ax]; exact hm
    · intro hf ax m hm
      rw [hsame ax] at hm
      obtain ⟨⟨t, ht, htm⟩, _⟩ := h3 ax m hm
      obtain ⟨a, ha, rfl⟩ := List.mem_map.1 ht
      exact hf a ha ax m htm

theorem shape_of_all_fit {v : Comp (SA α)} (hv : v.WFLeaves) {shape : Shape} (h : ∀ a ∈ v.leaves, FitsIn a.shape shape) : ∃ s, v.shape = .ok s := by
  have h1 := shape_leaves v hv
  cases hs : v.shape with
  | ok s => exact ⟨s, rfl⟩
  | error e =>
    rw [hs] at h1
    cases hb : broadcastShapes (v.leaves.map SA.shape) with
    | ok s' => rw [hb] at h1; exact absurd h1 id
    | error e' =>
      obtain ⟨ax, m, n, ⟨s, hs, hm⟩, ⟨s', hs', hn⟩, h1, h2, h3⟩ := (C01_broadcast_shapes_error_iff _ hv.shapes).1 ⟨e', hb⟩
      obtain ⟨a, ha, rfl⟩ := List.mem_map.1 hs
      obtain ⟨b, hb, rfl⟩ := List.mem_map.1 hs'
      obtain ⟨k, hk, hmk⟩ := h a ha ax m hm
      obtain ⟨k', hk', hnk⟩ := h b hb ax n hn
      rw [hk] at hk'; cases hk'
      omega

/-- **C125** (`broadcast_to`). Either the vector has a shape, which fits in the requested one, and then the result has the same structure and names,
every scalar has exactly the requested shape, and its elements are those of the given scalar at the same named index; or else `ValueError` is
raised. -/
theorem C125_broadcast_to {v : Comp (SA α)} (hv : v.WFLeaves) {shape : Shape} (hw : WF shape) :
    (∃ s r, v.shape = .ok s ∧ FitsIn s shape ∧ v.broadcastTo shape = .ok r ∧
      v.Lift (fun a b => b.WF ∧ b.shape = shape ∧ ∀ e, b.at' e = a.atB e) r) ∨
    ((∀ s, v.shape = .ok s → ¬ FitsIn s shape) ∧ v.broadcastTo shape = .error .valueError) := by
  by_cases h : ∀ a ∈ v.leaves, FitsIn a.shape shape
  · left
    obtain ⟨s, hs⟩ := shape_of_all_fit hv h
    obtain ⟨r, hr⟩ := mapM_isOk' (fun a => a.broadcastTo shape false) v (fun a ha => by
      rcases SA.C10_broadcast_to a (hv a ha) shape hw with ⟨_, r, h1, _⟩ | ⟨h1, _⟩
      · exact ⟨r, h1⟩
      · exact absurd (h a ha) h1)
    refine ⟨s, r, hs, (fits_iff_leaves hv hs).2 h, hr, ?_⟩
    refine lift_mono_leaves _ _ (fun a ha b hb => ?_) ((mapM_lift _ _ _).1 hr)
    rcases SA.C10_broadcast_to a (hv a ha) shape hw with ⟨_, r', h1, h2⟩ | ⟨h1, _⟩
    · rw [h1] at hb; cases hb; exact h2
    · exact absurd (h a ha) h1
  · right
    refine ⟨fun s hs hf => h ((fits_iff_leaves hv hs).1 hf), mapM_outcome_tree _ _ v (fun a ha => ?_) ?_⟩
    · rcases SA.C10_broadcast_to a (hv a ha) shape hw with ⟨_, r, h1, _⟩ | ⟨_, h1⟩
      · exact .inl ⟨r, h1⟩
      · exact .inr h1
    · push Not at h
      obtain ⟨a, ha, hn⟩ := h
      rcases SA.C10_broadcast_to a (hv a ha) shape hw with ⟨h1, _⟩ | ⟨_, h1⟩
      · exact absurd h1 hn
      · exact ⟨a, ha, h1⟩

/-- **C125** (`append=True`). For a vector of shape `s` with at least one scalar: either `s` and the requested shape broadcast to `S`, and then the
result has the same structure and names and the shape `S`, every scalar has the shape to which its own shape and the requested one broadcast, and its
elements are those of the given scalar at the same named index; or else they clash and `ValueError` is raised.
Missing for the full property: that every scalar has the shape `S` (`C125_append_refuted`). -/
theorem C125_append_partial {v : Comp (SA α)} (hv : v.WFLeaves) (hne : v.leaves ≠ []) {s : Shape} (hs : v.shape = .ok s) {shape : Shape} (hw : WF shape) :
    (∃ S r s', broadcastShapes [s, shape] = .ok S ∧ v.broadcastTo shape true = .ok r ∧ r.shape = .ok s' ∧ Same s' S ∧
      v.Lift (fun a b => b.WF ∧ broadcastShapes [a.shape, shape] = .ok b.shape ∧ ∀ e, b.at' e = a.atB e) r) ∨
    (Clash [s, shape] ∧ v.broadcastTo shape true = .error .valueError) := by
  have hsw : WF s := shape_wf v hv s hs
  have hss : ∀ t : Shape, WF t → ∀ u ∈ [t, shape], WF u := by
    intro t ht u hu
    simp only [List.mem_cons, List.not_mem_nil, or_false] at hu
    rcases hu with rfl | rfl
    · exact ht
    · exact hw
  have hself : FitsIn s s := fun ax m hm => ⟨m, hm, .inl rfl⟩
  have has := (fits_iff_leaves hv hs).1 hself
  cases hb : broadcastShapes [s, shape] with
  | ok S =>
    left
    have h1 : FitsIn s S := SA.fitsIn_of_broadcastShapes (hss s hsw) hb (by simp)
    have h2 : FitsIn shape S := SA.fitsIn_of_broadcastShapes (hss s hsw) hb (by simp)
    have hleaf : ∀ a ∈ v.leaves, ∃ b, a.broadcastTo shape true = .ok b ∧ b.WF ∧ broadcastShapes [a.shape, shape] = .ok b.shape ∧
        (∀ e, b.at' e = a.atB e) ∧ FitsIn b.shape S := by
      intro a ha
      obtain ⟨t, t1, t2⟩ := broadcast_of_fits (SA.wf_shape (hv a ha)) hw (fitsIn_trans (has a ha) h1) h2
      rcases SA.C10_broadcast_to_append a (hv a ha) shape hw with ⟨t', r, r1, r2, r3, r4, r5⟩ | ⟨hc, _⟩
      · rw [t1] at r1; cases r1
        subst r4
        exact ⟨r, r2, r3, t1, r5, t2⟩
      · obtain ⟨e, he⟩ := (C01_broadcast_shapes_error_iff _ (hss _ (SA.wf_shape (hv a ha)))).2 hc
        rw [t1] at he; cases he
    obtain ⟨r, hr⟩ := mapM_isOk' (fun a => a.broadcastTo shape true) v (fun a ha => by
      obtain ⟨b, b1, _⟩ := hleaf a ha
      exact ⟨b, b1⟩)
    have hl : v.Lift (fun a b => (b.WF ∧ broadcastShapes [a.shape, shape] = .ok b.shape ∧ ∀ e, b.at' e = a.atB e) ∧ FitsIn b.shape S) r := by
      refine lift_mono_leaves _ _ (fun a ha b hb => ?_) ((mapM_lift _ _ _).1 hr)
      obtain ⟨b', b1, b2, b3, b4, b5⟩ := hleaf a ha
      rw [b1] at hb; cases hb
      exact ⟨⟨b2, b3, b4⟩, b5⟩
    have hrw : r.WFLeaves := by
      intro b hb
      obtain ⟨a, _, h⟩ := lift_mem_leaves hl hb
      exact h.1.1
    have hrS : ∀ b ∈ r.leaves, FitsIn b.shape S := by
      intro b hb
      obtain ⟨a, _, h⟩ := lift_mem_leaves hl hb
      exact h.2
    obtain ⟨s', hs'⟩ := shape_of_all_fit hrw hrS
    have hbs' := (fits_iff_leaves hrw hs').1 (fun ax m hm => ⟨m, hm, .inl rfl⟩)
    have hpair : ∀ a ∈ v.leaves, FitsIn a.shape s' ∧ FitsIn shape s' := by
      intro a ha
      obtain ⟨i, hi, rfl⟩ := List.mem_iff_getElem.1 ha
      have hf := lift_leaves _ _ hl
      have hj : i < r.leaves.length := by rw [← hf.length_eq]; exact hi
      have hp := (List.forall₂_iff_get.1 hf).2 i hi hj
      simp only [List.get_eq_getElem] at hp
      have hb' := hbs' _ (List.getElem_mem hj)
      have hwa := hss _ (SA.wf_shape (hv _ ha))
      exact ⟨fitsIn_trans (SA.fitsIn_of_broadcastShapes hwa hp.1.2.1 (by simp)) hb',
        fitsIn_trans (SA.fitsIn_of_broadcastShapes hwa hp.1.2.1 (by simp)) hb'⟩
    have k1 : FitsIn s s' := (fits_iff_leaves hv hs).2 (fun a ha => (hpair a ha).1)
    have k2 : FitsIn shape s' := by
      obtain ⟨a, ha⟩ := List.exists_mem_of_ne_nil _ hne
      exact (hpair a ha).2
    obtain ⟨S', q1, q2⟩ := broadcast_of_fits hsw hw k1 k2
    rw [hb] at q1; cases q1
    exact ⟨S, r, s', rfl, hr, hs', same_of_fitsIn ((fits_iff_leaves hrw hs').2 hrS) q2, lift_mono (fun a b h => h.1) _ _ hl⟩
  | error e =>
    right
    have hc := (C01_broadcast_shapes_error_iff _ (hss s hsw)).1 ⟨e, hb⟩
    refine ⟨hc, mapM_outcome_tree _ _ v (fun a ha => ?_) ?_⟩
    · rcases SA.C10_broadcast_to_append a (hv a ha) shape hw with ⟨_, r, _, h1, _⟩ | ⟨_, h1⟩
      · exact .inl ⟨r, h1⟩
      · exact .inr h1
    · by_contra hno
      push Not at hno
      -- if no scalar raises, all fit together with the requested shape
      have hok : ∀ a ∈ v.leaves, ¬ Clash [a.shape, shape] := by
        intro a ha hcl
        rcases SA.C10_broadcast_to_append a (hv a ha) shape hw with ⟨t, _, h1, _⟩ | ⟨_, h1⟩
        · obtain ⟨e, he⟩ := (C01_broadcast_shapes_error_iff _ (hss _ (SA.wf_shape (hv a ha)))).2 hcl
          rw [h1] at he; cases he
        · exact hno a ha h1
      obtain ⟨ax, m, n, hm, hn, h1, h2, h3⟩ := hc
      have hsize : ∀ k, k ≠ 1 → HasSize [s, shape] ax k → get? shape ax = some k ∨ ∃ a ∈ v.leaves, get? a.shape ax = some k := by
        rintro k hk1 ⟨t, ht, hk⟩
        simp only [List.mem_cons, List.not_mem_nil, or_false] at ht
        rcases ht with rfl | rfl
        · right
          have hsl := shape_leaves v hv
          rw [hs] at hsl
          cases hb' : broadcastShapes (v.leaves.map SA.shape) with
          | error e => rw [hb'] at hsl; exact absurd hsl id
          | ok s2 =>
            rw [hb'] at hsl
            have hsame : Same t s2 := hsl
            rw [hsame ax] at hk
            obtain ⟨⟨u, hu, hk'⟩, _⟩ := (C01_broadcast_shapes_ok _ hv.shapes s2 hb').2.2 ax k hk
            obtain ⟨a, ha, rfl⟩ := List.mem_map.1 hu
            exact ⟨a, ha, hk'⟩
        · exact .inl hk
      have hcl : ∀ a ∈ v.leaves, ∀ k l, get? a.shape ax = some k → get? shape ax = some l → k ≠ l → k ≠ 1 → l ≠ 1 → False := by
        intro a ha k l hk hl e1 e2 e3
        exact hok a ha ⟨ax, k, l, ⟨a.shape, by simp, hk⟩, ⟨shape, by simp, hl⟩, e1, e2, e3⟩
      rcases hsize m h2 hm with g1 | ⟨a, ha, g1⟩
      · rcases hsize n h3 hn with g2 | ⟨b, hb, g2⟩
        · rw [g1] at g2; cases g2; exact h1 rfl
        · exact hcl b hb n m g2 g1 (Ne.symm h1) h3 h2
      · rcases hsize n h3 hn with g2 | ⟨b, hb, g2⟩
        · exact hcl a ha m n g1 g2 h1 h2 h3
        · obtain ⟨p, p1, p2⟩ := has a ha ax m g1
          obtain ⟨q, q1, q2⟩ := has b hb ax n g2
          rw [p1] at q1; cases q1
          omega

/-! ### Examples -/

/-- a vector with components along different axes -/
def exSpreadOut : Comp (SA Nat) := .node "V" [("x", .leaf ⟨["a"], ND.ofList [2] [1, 2] 0⟩), ("y", .node "W" [("z", .leaf ⟨[], ND.scalar 7⟩)])]

theorem leaves_exSpreadOut : exSpreadOut.leaves = [⟨["a"], ND.ofList [2] [1, 2] 0⟩, ⟨[], ND.scalar 7⟩] := by simp [exSpreadOut, leaves, leavesL]
theorem wf_exSpreadOut : exSpreadOut.WFLeaves := by
  intro a ha
  rw [leaves_exSpreadOut] at ha
  simp only [List.mem_cons, List.not_mem_nil, or_false] at ha
  rcases ha with rfl | rfl
  · exact ⟨rfl, (by decide : ["a"].Nodup)⟩
  · exact ⟨rfl, List.nodup_nil⟩
theorem shape_exSpreadOut : exSpreadOut.shape = .ok [("a", 2)] := by
  simp only [exSpreadOut, shape, shapes, bind, Except.bind]
  rfl

example : ∃ r, exSpreadOut.broadcastTo [("b", 3), ("a", 2)] = .ok r := by
  rcases C125_broadcast_to wf_exSpreadOut (shape := [("b", 3), ("a", 2)]) (by decide) with ⟨_, r, _, _, h, _⟩ | ⟨h, _⟩
  · exact ⟨r, h⟩
  · refine absurd ?_ (h _ shape_exSpreadOut)
    intro ax m hm
    simp only [get?] at hm
    split at hm
    · next h => subst h; cases hm; exact ⟨2, rfl, .inl rfl⟩
    · cases hm
example : exSpreadOut.broadcastTo [("b", 3)] = .error .valueError := by
  rcases C125_broadcast_to wf_exSpreadOut (shape := [("b", 3)]) (by decide) with ⟨s, r, h1, h2, _⟩ | ⟨_, h⟩
  · rw [shape_exSpreadOut] at h1; cases h1
    obtain ⟨n, hn, _⟩ := h2 "a" 2 rfl
    cases hn
  · exact h
example : exSpreadOut.broadcastTo [("a", 3)] true = .error .valueError := by
  rcases C125_append_partial wf_exSpreadOut (by rw [leaves_exSpreadOut]; simp) shape_exSpreadOut (shape := [("a", 3)]) (by decide) with ⟨S, _, _, h, _⟩ | ⟨_, h⟩
  · rw [show broadcastShapes [[("a", 2)], [("a", 3)]] = .error .valueError by decide] at h; cases h
  · exact h

/-- **C125** is false of the scalars with `append=True`: the documentation promises the shape `na.broadcast_shapes(array.shape, shape)`, here
`{a: 2, b: 3}`, but the component `y.z` has the shape `{b: 3}`. -/
theorem C125_append_refuted : exSpreadOut.WFLeaves ∧ exSpreadOut.shape = .ok [("a", 2)] ∧ broadcastShapes [[("a", 2)], [("b", 3)]] = .ok [("a", 2), ("b", 3)] ∧
    ∃ r, exSpreadOut.broadcastTo [("b", 3)] true = .ok r ∧ r.leaves.map SA.shape = [[("a", 2), ("b", 3)], [("b", 3)]] := by
  refine ⟨wf_exSpreadOut, shape_exSpreadOut, by decide, ?_⟩
  rcases C125_append_partial wf_exSpreadOut (by rw [leaves_exSpreadOut]; simp) shape_exSpreadOut (shape := [("b", 3)]) (by decide) with
    ⟨S, r, s', _, h, _, _, hl⟩ | ⟨hc, _⟩
  · refine ⟨r, h, ?_⟩
    have hf := lift_leaves _ _ hl
    rw [leaves_exSpreadOut] at hf
    generalize r.leaves = l at hf
    cases hf with
    | cons h1 hf =>
      cases hf with
      | cons h2 hf =>
        cases hf
        have e1 := h1.2.1
        have e2 := h2.2.1
        have f1 : broadcastShapes [[("a", 2)], [("b", 3)]] = .ok [("a", 2), ("b", 3)] := by decide
        have f2 : broadcastShapes [[], [("b", 3)]] = .ok [("b", 3)] := by decide
        rw [show SA.shape (⟨["a"], ND.ofList [2] [1, 2] 0⟩ : SA Nat) = [("a", 2)] from rfl, f1] at e1
        rw [show SA.shape (⟨[], ND.scalar 7⟩ : SA Nat) = [] from rfl, f2] at e2
        injection e1 with e1
        injection e2 with e2
        simp only [List.map_cons, List.map_nil, ← e1, ← e2]
  · obtain ⟨e, he⟩ := (C01_broadcast_shapes_error_iff _ (by decide)).2 hc
    rw [show broadcastShapes [[("a", 2)], [("b", 3)]] = .ok [("a", 2), ("b", 3)] by decide] at he; cases he

end NA.Comp
