import Verif.Props.Comparing
import Verif.Props.VectorAlong
import Verif.Vector.Compare

/-!
# C86: comparing vectors and uncertain scalars as a whole, nonzero elements of vectors
-/

namespace NA
open Dict
open SA (FitsIn InRange SameByName)

/-! ### Scalars -/

/-- Specification: the arrays, broadcast against each other by name, are close at every named index. -/
def SA.CloseByName {α : Type} (close : α → α → Bool) (a b : SA α) : Prop :=
  ∀ s, broadcastShapes [a.shape, b.shape] = .ok s → ∀ e, InRange s e → close (a.atB e) (b.atB e) = true

/-- **C86** (scalars). If the named shapes broadcast, `np.allclose` is true exactly when the two arrays, broadcast against each other by name,
are close at every named index; otherwise it raises `ValueError`. -/
theorem SA.C86_allclose_scalars {α : Type} (close : α → α → Bool) (a b : SA α) (ha : a.WF) (hb : b.WF) :
    (¬ Clash [a.shape, b.shape] → ∃ c, SA.allclose close a b = .ok c ∧ (c = true ↔ SA.CloseByName close a b)) ∧
    (Clash [a.shape, b.shape] → SA.allclose close a b = .error .valueError) := by
  have hw : ∀ s ∈ [a.shape, b.shape], Dict.WF s := SA.wf_pair ha hb
  refine ⟨fun hc => ?_, fun hc => ?_⟩
  · cases hs : broadcastShapes [a.shape, b.shape] with
    | error e => exact absurd ((C01_broadcast_shapes_error_iff _ hw).1 ⟨e, hs⟩) hc
    | ok s =>
      obtain ⟨hsw, hmem, _⟩ := C01_broadcast_shapes_ok _ hw s hs
      have hsub := SA.mem_of_mem_pair ha hb hs
      obtain ⟨v, hv⟩ := SA.aligned_isOk ha hsw hsub.1
      obtain ⟨w, hw'⟩ := SA.aligned_isOk hb hsw hsub.2
      have hbs := SA.bshape_pair ha hb hs hv hw'
      refine ⟨_, by unfold SA.allclose ND.allclose; simp only [bind, Except.bind, hs, hv, hw', hbs]; rfl, ?_⟩
      rw [List.all_eq_true]
      constructor
      · intro h s' hs' e he
        rw [hs] at hs'
        cases hs'
        have := h _ (ND.mem_ndIndices_iff.2 ((SA.inRange_iff_nd hsw).1 he))
        rwa [SA.aligned_clip ha hsw hv, SA.aligned_clip hb hsw hw'] at this
      · intro h i hi
        rw [ND.mem_ndIndices_iff] at hi
        have hl : i.length = (keys s).length := by rw [ND.inRange_length hi]; simp
        have he : (keys s).map (envOf (keys s) i) = i := map_envOf hsw hl
        have := h s hs (envOf (keys s) i) ((SA.inRange_iff_nd hsw).2 (by rw [he]; exact hi))
        rwa [← SA.aligned_clip ha hsw hv, ← SA.aligned_clip hb hsw hw', he] at this
  · obtain ⟨e, he⟩ := (C01_broadcast_shapes_error_iff _ hw).2 hc
    unfold SA.allclose
    rw [he, C01_broadcast_shapes_error_kind _ hw e he]
    rfl

namespace Comp
variable {α β γ : Type}

/-! ### Specification -/

mutual
/-- Specification: the vectors have the same type and the same component names at every level, and their scalars correspond. -/
def SameTree (P : α → β → Prop) : Comp α → Comp β → Prop
  | .leaf a, .leaf b => P a b
  | .leaf _, .node _ _ => False
  | .node _ _, .leaf _ => False
  | .node cls cs, .node cls' cs' => cls = cls' ∧ keys cs' ⊆ keys cs ∧ SameTreeL P cs cs'
/-- ... for all components of the first vector. -/
def SameTreeL (P : α → β → Prop) : List (String × Comp α) → List (String × Comp β) → Prop
  | [], _ => True
  | (k, c) :: l, l' => (∃ c', get? l' k = some c' ∧ c.SameTree P c') ∧ SameTreeL P l l'
end

mutual
/-- What is asked of the operands: where both have a vector of the same type, it has the same component names, where the first one has a scalar, so
has the second, and `C` holds for the scalars. -/
def Comparable (C : α → β → Prop) : Comp α → Comp β → Prop
  | .leaf a, .leaf b => C a b
  | .leaf _, .node _ _ => False
  | .node _ _, .leaf _ => True
  | .node cls cs, .node cls' cs' => cls = cls' → keys cs' ⊆ keys cs ∧ ComparableL C cs cs'
/-- ... for all components of the first vector. -/
def ComparableL (C : α → β → Prop) : List (String × Comp α) → List (String × Comp β) → Prop
  | [], _ => True
  | (k, c) :: l, l' => (∃ c', get? l' k = some c' ∧ c.Comparable C c') ∧ ComparableL C l l'
end

/-! ### array_equal, array_equiv -/

theorem equal_main {scalars : α → β → R Bool} {mixed : α → Comp β → R Bool} {C P : α → β → Prop}
    (h : ∀ a b, C a b → ∃ r, scalars a b = .ok r ∧ (r = true ↔ P a b)) :
    ∀ (x : Comp α) (y : Comp β), x.Comparable C y → ∃ r, equal scalars mixed x y = .ok r ∧ (r = true ↔ x.SameTree P y) := by
  refine ind ?_ ?_
  · rintro a (b | ⟨cls, cs⟩) hc
    · simpa only [equal, SameTree] using h a b hc
    · exact hc.elim
  · rintro cls cs ih (b | ⟨cls', cs'⟩) hc
    · exact ⟨false, rfl, by simp [SameTree]⟩
    · simp only [Comparable] at hc
      by_cases hcl : cls = cls'
      · obtain ⟨hk, hl⟩ := hc hcl
        have key : ∃ r, equalL scalars mixed cs cs' = .ok r ∧ (r = true ↔ SameTreeL P cs cs') := by
          clear hc hk
          induction cs with
          | nil => exact ⟨true, by simp [equalL], by simp [SameTreeL]⟩
          | cons p l ihl =>
            obtain ⟨k, c⟩ := p
            simp only [ComparableL] at hl
            obtain ⟨⟨c', hc', hcc⟩, hl⟩ := hl
            obtain ⟨r, hr, hrP⟩ := ih (k, c) (by simp) c' hcc
            obtain ⟨r', hr', hrP'⟩ := ihl (fun p hp => ih p (by simp [hp])) hl
            simp only [equalL, hc', hr, bind, Except.bind, SameTreeL, Option.some.injEq, exists_eq_left']
            cases r with
            | false =>
              refine ⟨false, by simp, ?_⟩
              simp only [Bool.false_eq_true, false_iff, not_and]
              intro h1
              exact absurd (hrP.2 h1) (by simp)
            | true =>
              refine ⟨r', by simp [hr'], ?_⟩
              rw [hrP']
              exact ⟨fun h1 => ⟨hrP.1 rfl, h1⟩, fun h1 => h1.2⟩
        obtain ⟨r, hr, hrP⟩ := key
        refine ⟨r, by simp only [equal, if_pos hcl, hr], ?_⟩
        rw [hrP]
        simp only [SameTree]
        exact ⟨fun h1 => ⟨hcl, hk, h1⟩, fun h1 => h1.2.2⟩
      · exact ⟨false, by simp only [equal, if_neg hcl], by simp [SameTree, hcl]⟩

theorem equal_true {scalars : α → β → R Bool} {mixed : α → Comp β → R Bool} (hm : ∀ a c, mixed a c ≠ .ok true) :
    ∀ (x : Comp α) (y : Comp β), equal scalars mixed x y = .ok true → ∀ p a, x.leafAt p = some a →
      ∃ b, y.leafAt p = some b ∧ scalars a b = .ok true := by
  refine ind ?_ ?_
  · rintro a (b | ⟨cls, cs⟩) h p a' hp
    · cases p with
      | nil =>
        simp only [leafAt, Option.some.injEq] at hp
        subst hp
        exact ⟨b, rfl, h⟩
      | cons k p => simp [leafAt] at hp
    · exact absurd h (hm a _)
  · rintro cls cs ih (b | ⟨cls', cs'⟩) h p a hp
    · simp [equal] at h
    · simp only [equal] at h
      split at h
      · cases p with
        | nil => simp [leafAt] at hp
        | cons k p =>
          simp only [leafAt] at hp ⊢
          clear * - ih h hp
          induction cs with
          | nil => simp [get?_nil] at hp
          | cons q l ihl =>
            obtain ⟨k', c⟩ := q
            simp only [equalL] at h
            cases hc' : get? cs' k' with
            | none => rw [hc'] at h; simp at h
            | some c' =>
              rw [hc'] at h
              simp only [bind, Except.bind] at h
              cases hr : equal scalars mixed c c' with
              | error e => rw [hr] at h; simp at h
              | ok r =>
                rw [hr] at h
                cases r with
                | false => simp at h
                | true =>
                  simp only [if_true] at h
                  rw [get?_cons] at hp
                  by_cases hk : k' = k
                  · subst hk
                    simp only [if_true] at hp
                    rw [hc']
                    exact ih (k', c) (by simp) c' hr p a hp
                  · rw [if_neg hk] at hp
                    exact ihl (fun q hq => ih q (by simp [hq])) h hp
      · simp at h

/-- **C86** (`np.array_equal`, part which holds). For vectors, nested to any depth, which have the same component names where they have the same type,
and whose scalars have the same axes in the same order, `np.array_equal` is true exactly when the vectors have the same type and the same components at
every level, with the same shape and the same elements.  (What is missing: vectors of the same type with other component names, a scalar and
a vector, see `C86_array_equal_refuted`, and other orders of the axes, see `C27_array_equal_refuted`.) -/
theorem C86_array_equal_partial [DecidableEq α] (x y : Comp (SA α))
    (h : x.Comparable (fun a b => a.WF ∧ b.WF ∧ a.axes = b.axes) y) :
    ∃ r, arrayEqual x y = .ok r ∧ (r = true ↔ x.SameTree SameByName y) :=
  equal_main (fun a b hab => ⟨_, rfl, SA.C27_array_equal_partial a b hab.1 hab.2.1 hab.2.2⟩) x y h

/-- **C86** (`np.array_equiv`, part which holds). For vectors, nested to any depth, which have the same component names where they have the same type,
and whose scalars broadcast, `np.array_equiv` is true exactly when the vectors have the same type and the same components at
every level, with the same elements after broadcasting.  (What is missing: see `C86_array_equal_refuted`.) -/
theorem C86_array_equiv_partial [DecidableEq α] (x y : Comp (SA α))
    (h : x.Comparable (fun a b => a.WF ∧ b.WF ∧ ∃ s, broadcastShapes [a.shape, b.shape] = .ok s) y) :
    ∃ r, arrayEquiv x y = .ok r ∧ (r = true ↔ x.SameTree (fun a b => ∀ s, broadcastShapes [a.shape, b.shape] = .ok s →
      ∀ e, InRange s e → a.atB e = b.atB e) y) := by
  refine equal_main (fun a b hab => ?_) x y h
  obtain ⟨h1, h2, s, h3⟩ := hab
  obtain ⟨c, h4, h5⟩ := SA.C27_array_equiv a b h1 h2 s h3
  refine ⟨c, h4, h5.trans ⟨fun h s' hs' => ?_, fun h => h s h3⟩⟩
  rw [h3] at hs'
  cases hs'
  exact h

/-- **C86** (soundness, without any condition on the vectors). If `np.array_equal(x, y)` is true, every scalar of `x` has a counterpart in `y` with an equal
ndarray; if `np.array_equiv(x, y)` is true, the counterpart broadcasts against it and agrees with it at every named index. -/
theorem C86_equal_sound [DecidableEq α] (x y : Comp (SA α)) :
    (arrayEqual x y = .ok true → ∀ p a, x.leafAt p = some a → ∃ b, y.leafAt p = some b ∧ SA.arrayEqual a b = true) ∧
    (arrayEquiv x y = .ok true → ∀ p a, x.leafAt p = some a → a.WF → ∃ b, y.leafAt p = some b ∧ (b.WF →
      ∃ s, broadcastShapes [a.shape, b.shape] = .ok s ∧ ∀ e, InRange s e → a.atB e = b.atB e)) := by
  refine ⟨fun h p a hp => ?_, fun h p a hp ha => ?_⟩
  · obtain ⟨b, h1, h2⟩ := equal_true (by simp) x y h p a hp
    exact ⟨b, h1, by simpa using h2⟩
  · obtain ⟨b, h1, h2⟩ := equal_true (by
      intro a c
      cases c.shape with
      | error e => simp [bind, Except.bind]
      | ok s =>
        simp only [bind, Except.bind]
        cases broadcastShapes [a.shape, s] <;> simp) x y h p a hp
    refine ⟨b, h1, fun hb => ?_⟩
    cases hs : broadcastShapes [a.shape, b.shape] with
    | error e =>
      have := SA.C27_array_equiv_clash a b ha hb ((C01_broadcast_shapes_error_iff _ (SA.wf_pair ha hb)).1 ⟨e, hs⟩)
      rw [this] at h2
      cases h2
    | ok s =>
      obtain ⟨c, h4, h5⟩ := SA.C27_array_equiv a b ha hb s hs
      rw [h4] at h2
      cases h2
      exact ⟨s, rfl, h5.1 rfl⟩

/-- **C86** (refuted). A vector with the components `a` is equal to a vector of the same type with the components `a` and `b`, in the other order `KeyError` is
raised; a vector is different from a scalar, in the other order an `AttributeError` is raised. -/
theorem C86_array_equal_refuted :
    ∃ x y z : Comp (SA Nat), x.WFLeaves ∧ y.WFLeaves ∧ z.WFLeaves ∧ x.Dicts ∧ y.Dicts ∧ y.leafAt ["b"] ≠ none ∧ x.leafAt ["b"] = none ∧
      arrayEqual x y = .ok true ∧ arrayEquiv x y = .ok true ∧ allclose (· == ·) x y = .ok true ∧
      arrayEqual y x = .error .keyError ∧ arrayEquiv y x = .error .keyError ∧ allclose (· == ·) y x = .error .keyError ∧
      arrayEqual x z = .ok false ∧ arrayEqual z x = .error .other ∧ arrayEquiv z x = .error .other := by
  have hw : (SA.scalar 1).WF := by constructor <;> decide
  have hw' : (SA.scalar 5).WF := by constructor <;> decide
  refine ⟨.node "CartesianNd" [("a", .leaf (SA.scalar 1))],
    .node "CartesianNd" [("a", .leaf (SA.scalar 1)), ("b", .leaf (SA.scalar 5))], .leaf (SA.scalar 1), ?_, ?_, ?_, ?_, ?_,
    by simp [leafAt, get?_cons], by simp [leafAt, get?_cons, get?_nil], by decide +kernel, by decide +kernel, by decide +kernel, by decide +kernel,
    by decide +kernel, by decide +kernel, by decide +kernel, by decide +kernel, by decide +kernel⟩
  · intro a ha
    simp only [leaves, leavesL, List.append_nil, List.mem_singleton] at ha
    subst ha
    exact hw
  · intro a ha
    simp only [leaves, leavesL, List.append_nil, List.singleton_append, List.mem_cons, List.not_mem_nil, or_false] at ha
    rcases ha with rfl | rfl
    · exact hw
    · exact hw'
  · intro a ha
    simp only [leaves, List.mem_singleton] at ha
    subst ha
    exact hw
  · exact ⟨by decide, trivial, trivial⟩
  · exact ⟨by decide, trivial, trivial, trivial⟩

/-! ### allclose -/

theorem closeLeft_ok {close : α → α → Bool} {a : SA α} : ∀ (y : Comp (SA α)) (r : Bool), closeLeft close a y = .ok r →
    ∃ t, y.mapM (SA.allclose close a) = .ok t ∧ r = t.leaves.all id := by
  refine ind ?_ ?_
  · intro b r h
    simp only [closeLeft] at h
    exact ⟨.leaf r, by simp [mapM, h, bind, Except.bind], by simp [leaves]⟩
  · intro cls cs ih r h
    simp only [closeLeft, bind, Except.bind] at h
    cases h1 : (Comp.node cls cs).shape with
    | error e => rw [h1] at h; cases h
    | ok s =>
      rw [h1] at h
      dsimp only at h
      cases h2 : broadcastShapes [a.shape, s] with
      | error e => rw [h2] at h; cases h
      | ok s' =>
        rw [h2] at h
        dsimp only at h
        have key : ∃ ts, mapML (SA.allclose close a) cs = .ok ts ∧ r = (leavesL ts).all id := by
          clear h1 h2
          induction cs generalizing r with
          | nil =>
            simp only [closeLeftL, Except.ok.injEq] at h
            exact ⟨[], rfl, by simp [leavesL, ← h]⟩
          | cons p l ihl =>
            obtain ⟨k, c⟩ := p
            simp only [closeLeftL, bind, Except.bind] at h
            cases h3 : closeLeft close a c with
            | error e => rw [h3] at h; cases h
            | ok r1 =>
              rw [h3] at h
              dsimp only at h
              cases h4 : closeLeftL close a l with
              | error e => rw [h4] at h; cases h
              | ok r2 =>
                rw [h4] at h
                cases h
                obtain ⟨t, g1, g2⟩ := ih (k, c) (by simp) r1 h3
                obtain ⟨ts, g3, g4⟩ := ihl (fun p hp => ih p (by simp [hp])) r2 h4
                exact ⟨(k, t) :: ts, by simp [mapML, g1, g3, bind, Except.bind], by
                  simp only [leavesL, List.all_append, g2, g4]⟩
        obtain ⟨ts, g1, g2⟩ := key
        exact ⟨.node cls ts, by simp [mapM, g1, bind, Except.bind], by simpa only [leaves] using g2⟩

theorem allclose_ok {close : α → α → Bool} : ∀ (x y : Comp (SA α)), y.Dicts → ∀ r, allclose close x y = .ok r →
    ∃ t, ufunc2 (SA.allclose close) x y = .ok t ∧ r = t.leaves.all id := by
  refine ind ?_ ?_
  · rintro a (b | ⟨cls, cs⟩) _ r h
    · simp only [allclose] at h
      exact ⟨.leaf r, by simp [ufunc2, h, bind, Except.bind], by simp [leaves]⟩
    · simp only [allclose] at h
      exact closeLeft_ok _ r h
  · intro cls cs ih
    have key : ∀ (l : List (String × Comp (SA α))), (∀ p ∈ l, p ∈ cs) → ∀ cs', DictsL cs' → ∀ r, allcloseL close l cs' = .ok r →
        ∃ ts, ufunc2L (SA.allclose close) l cs' = .ok ts ∧ r = (leavesL ts).all id := by
      intro l hl cs' hd
      induction l with
      | nil =>
        intro r h
        simp only [allcloseL, Except.ok.injEq] at h
        exact ⟨[], rfl, by simp [leavesL, ← h]⟩
      | cons p l ihl =>
        intro r h
        obtain ⟨k, c⟩ := p
        simp only [allcloseL, bind, Except.bind] at h
        cases hc' : get? cs' k with
        | none => rw [hc'] at h; cases h
        | some c' =>
          rw [hc'] at h
          dsimp only at h
          cases h3 : allclose close c c' with
          | error e => rw [h3] at h; cases h
          | ok r1 =>
            rw [h3] at h
            dsimp only at h
            cases h4 : allcloseL close l cs' with
            | error e => rw [h4] at h; cases h
            | ok r2 =>
              rw [h4] at h
              cases h
              obtain ⟨t, g1, g2⟩ := ih (k, c) (hl _ (by simp)) c' (dicts_of_mem hd _ (mem_of_get? hc')) r1 h3
              obtain ⟨ts, g3, g4⟩ := ihl (fun p hp => hl p (by simp [hp])) r2 h4
              exact ⟨(k, t) :: ts, by simp [ufunc2L, hc', g1, g3, bind, Except.bind], by
                simp only [leavesL, List.all_append, g2, g4]⟩
    rintro (b | ⟨cls', cs'⟩) hd r h
    · simp only [allclose] at h
      have hd' : DictsL (cs.map (fun p => (p.1, Comp.leaf b))) := by
        clear * -
        induction cs with
        | nil => trivial
        | cons p l ihl => exact ⟨trivial, ihl⟩
      obtain ⟨ts, g1, g2⟩ := key cs (fun p hp => hp) _ hd' r h
      refine ⟨.node cls ts, ?_, by simpa only [leaves] using g2⟩
      have : ∀ l : List (String × Comp (SA α)), (∀ p ∈ l, p ∈ cs) → ∀ ts,
          ufunc2L (SA.allclose close) l (cs.map (fun p => (p.1, Comp.leaf b))) = .ok ts →
          mapML (fun a => SA.allclose close a b) l = .ok ts := by
        intro l hl
        induction l with
        | nil => intro ts h; simpa [ufunc2L, mapML] using h
        | cons p l ihl =>
          intro ts h
          obtain ⟨k, c⟩ := p
          have hk : get? (cs.map (fun p => (p.1, (Comp.leaf b : Comp (SA α))))) k = some (.leaf b) := by
            have hmem : k ∈ keys (cs.map (fun p => (p.1, (Comp.leaf b : Comp (SA α))))) := by
              unfold keys
              rw [List.map_map]
              exact List.mem_map.2 ⟨_, hl (k, c) (by simp), rfl⟩
            obtain ⟨v, hv⟩ := exists_get?_of_mem hmem
            obtain ⟨q, _, hq⟩ := List.mem_map.1 (mem_of_get? hv)
            injection hq with _ hq
            rw [hv, ← hq]
          simp only [ufunc2L, hk, bind, Except.bind] at h
          have hu : ufunc2 (SA.allclose close) c (.leaf b) = c.mapM (fun a => SA.allclose close a b) := by
            cases c <;> simp [ufunc2, mapM]
          rw [hu] at h
          cases h3 : c.mapM (fun a => SA.allclose close a b) with
          | error e => rw [h3] at h; cases h
          | ok v =>
            rw [h3] at h
            dsimp only at h
            cases h4 : ufunc2L (SA.allclose close) l (cs.map (fun p => (p.1, (Comp.leaf b : Comp (SA α))))) with
            | error e => rw [h4] at h; cases h
            | ok vs =>
              rw [h4] at h
              cases h
              simp [mapML, h3, ihl (fun p hp => hl p (by simp [hp])) vs h4, bind, Except.bind]
      simp only [ufunc2, this cs (fun p hp => hp) ts g1, bind, Except.bind]
    · simp only [allclose] at h
      split at h
      · next hcl =>
        obtain ⟨ts, g1, g2⟩ := key cs (fun p hp => hp) _ hd.2 r h
        exact ⟨.node cls ts, by simp [ufunc2, hcl, g1, bind, Except.bind], by simpa only [leaves] using g2⟩
      · cases h

theorem shape_outcome {c : Comp (SA α)} (hw : c.WFLeaves) :
    ((∃ s, c.shape = .ok s) ∨ c.shape = .error .valueError) ∧
    ∀ S : Shape, (∀ a ∈ c.leaves, FitsIn a.shape S) → ∃ s, c.shape = .ok s ∧ FitsIn s S := by
  have h := shape_leaves c hw
  have hws := hw.shapes
  refine ⟨?_, fun S hS => ?_⟩
  · cases hs : c.shape with
    | ok s => exact .inl ⟨s, rfl⟩
    | error e =>
      rw [hs] at h
      cases hb : broadcastShapes (c.leaves.map SA.shape) with
      | ok r => rw [hb] at h; exact h.elim
      | error e' =>
        rw [hb] at h
        rw [C01_broadcast_shapes_error_kind _ hws e' hb] at h
        exact .inr (by rw [show e = Err.valueError from h])
  · cases hb : broadcastShapes (c.leaves.map SA.shape) with
    | error e =>
      exfalso
      obtain ⟨ax, m1, m2, ⟨s1, hs1, g1⟩, ⟨s2, hs2, g2⟩, hne, h3, h4⟩ := (C01_broadcast_shapes_error_iff _ hws).1 ⟨e, hb⟩
      obtain ⟨a1, ha1, rfl⟩ := List.mem_map.1 hs1
      obtain ⟨a2, ha2, rfl⟩ := List.mem_map.1 hs2
      obtain ⟨n1, e1, q1⟩ := hS a1 ha1 ax m1 g1
      obtain ⟨n2, e2, q2⟩ := hS a2 ha2 ax m2 g2
      rw [e1] at e2
      cases e2
      omega
    | ok r =>
      rw [hb] at h
      cases hs : c.shape with
      | error e => rw [hs] at h; exact h.elim
      | ok s =>
        rw [hs] at h
        refine ⟨s, rfl, fun ax m hm => ?_⟩
        have hm' : get? r ax = some m := by rw [← h ax]; exact hm
        obtain ⟨⟨t, ht, htm⟩, _⟩ := (C01_broadcast_shapes_ok _ hws r hb).2.2 ax m hm'
        obtain ⟨a, ha, rfl⟩ := List.mem_map.1 ht
        exact hS a ha ax m htm

theorem pair_outcome {close : α → α → Bool} {a b : SA α} (ha : a.WF) (hb : b.WF) :
    ((∃ r, SA.allclose close a b = .ok r) ∨ SA.allclose close a b = .error .valueError) ∧
    ∀ S : Shape, FitsIn a.shape S → FitsIn b.shape S → ∃ r, SA.allclose close a b = .ok r := by
  obtain ⟨h1, h2⟩ := SA.C86_allclose_scalars close a b ha hb
  refine ⟨?_, fun S hS hS' => ?_⟩
  · by_cases hc : Clash [a.shape, b.shape]
    · exact .inr (h2 hc)
    · obtain ⟨c, h, _⟩ := h1 hc
      exact .inl ⟨c, h⟩
  · obtain ⟨r, hr, _⟩ := broadcast_of_fits (SA.wf_shape ha) (SA.wf_shape hb) hS hS'
    obtain ⟨c, h, _⟩ := h1 (fun hc => by
      obtain ⟨e, he⟩ := (C01_broadcast_shapes_error_iff _ (SA.wf_pair ha hb)).2 hc
      rw [hr] at he
      cases he)
    exact ⟨c, h⟩

theorem closeLeft_outcome {close : α → α → Bool} {a : SA α} (ha : a.WF) : ∀ (y : Comp (SA α)), y.WFLeaves →
    ((∃ r, closeLeft close a y = .ok r) ∨ closeLeft close a y = .error .valueError) ∧
    ∀ S : Shape, WF S → FitsIn a.shape S → (∀ b ∈ y.leaves, FitsIn b.shape S) → ∃ r, closeLeft close a y = .ok r := by
  refine ind ?_ ?_
  · intro b hw
    simp only [closeLeft]
    obtain ⟨h1, h2⟩ := pair_outcome (close := close) ha (hw b (by simp [leaves]))
    exact ⟨h1, fun S _ hS h => h2 S hS (h b (by simp [leaves]))⟩
  · intro cls cs ih hw
    have hl : ∀ l : List (String × Comp (SA α)), (∀ p ∈ l, p ∈ cs) →
        ((∃ r, closeLeftL close a l = .ok r) ∨ closeLeftL close a l = .error .valueError) ∧
        ∀ S : Shape, WF S → FitsIn a.shape S → (∀ b ∈ leavesL l, FitsIn b.shape S) → ∃ r, closeLeftL close a l = .ok r := by
      intro l hl
      induction l with
      | nil => exact ⟨.inl ⟨true, rfl⟩, fun _ _ _ _ => ⟨true, rfl⟩⟩
      | cons p l ihl =>
        obtain ⟨k, c⟩ := p
        have hcw : c.WFLeaves := fun b hb => hw b (by simp only [leaves]; exact mem_leavesL.2 ⟨_, hl (k, c) (by simp), hb⟩)
        obtain ⟨g1, g2⟩ := ih (k, c) (hl _ (by simp)) hcw
        obtain ⟨g3, g4⟩ := ihl (fun p hp => hl p (by simp [hp]))
        simp only [closeLeftL, bind, Except.bind]
        refine ⟨?_, fun S hSw hS h => ?_⟩
        · rcases g1 with ⟨r, g1⟩ | g1
          · rcases g3 with ⟨r', g3⟩ | g3
            · exact .inl ⟨r && r', by simp only [g1, g3]⟩
            · exact .inr (by simp only [g1, g3])
          · exact .inr (by simp only [g1])
        · obtain ⟨r, g⟩ := g2 S hSw hS (fun b hb => h b (by simp only [leavesL, List.mem_append]; exact .inl hb))
          obtain ⟨r', g'⟩ := g4 S hSw hS (fun b hb => h b (by simp only [leavesL, List.mem_append]; exact .inr hb))
          exact ⟨r && r', by simp only [g, g']⟩
    obtain ⟨h1, h2⟩ := shape_outcome hw
    obtain ⟨h3, h4⟩ := hl cs (fun p hp => hp)
    simp only [closeLeft, bind, Except.bind]
    refine ⟨?_, fun S hSw hS h => ?_⟩
    · rcases h1 with ⟨s, h1⟩ | h1
      · rw [h1]
        have hsw := shape_wf _ hw s h1
        dsimp only
        cases hb : broadcastShapes [a.shape, s] with
        | error e =>
          have := C01_broadcast_shapes_error_kind [a.shape, s] (by
            intro t ht
            simp only [List.mem_cons, List.not_mem_nil, or_false] at ht
            rcases ht with rfl | rfl
            · exact SA.wf_shape ha
            · exact hsw) e hb
          exact .inr (by rw [this])
        | ok r => exact h3
      · rw [h1]
        exact .inr rfl
    · obtain ⟨s, hs, hf⟩ := h2 S h
      obtain ⟨r, hr, _⟩ := broadcast_of_fits (SA.wf_shape ha) (shape_wf _ hw s hs) hS hf
      simp only [hs, hr]
      exact h4 S hSw hS h

theorem allclose_outcome {close : α → α → Bool} : ∀ (x y : Comp (SA α)), x.WFLeaves → y.WFLeaves → y.Dicts → (x.Conform y ∨ ∃ b, y = .leaf b) →
    ((∃ r, allclose close x y = .ok r) ∨ allclose close x y = .error .valueError) ∧
    ∀ S : Shape, WF S → (∀ a ∈ x.leaves, FitsIn a.shape S) → (∀ b ∈ y.leaves, FitsIn b.shape S) → ∃ r, allclose close x y = .ok r := by
  refine ind ?_ ?_
  · rintro a (b | ⟨cls, cs⟩) hx hy _ _
    · simp only [allclose]
      obtain ⟨h1, h2⟩ := pair_outcome (close := close) (hx a (by simp [leaves])) (hy b (by simp [leaves]))
      exact ⟨h1, fun S _ hS h => h2 S (hS a (by simp [leaves])) (h b (by simp [leaves]))⟩
    · simp only [allclose]
      obtain ⟨h1, h2⟩ := closeLeft_outcome (close := close) (hx a (by simp [leaves])) _ hy
      exact ⟨h1, fun S hSw hS h => h2 S hSw (hS a (by simp [leaves])) h⟩
  · intro cls cs ih
    have key : ∀ (l : List (String × Comp (SA α))), (∀ p ∈ l, p ∈ cs) → (∀ a ∈ leavesL l, a.WF) →
        ∀ cs', (∀ p ∈ cs', p.2.WFLeaves) → DictsL cs' →
        (∀ p ∈ l, ∃ c', get? cs' p.1 = some c' ∧ (p.2.Conform c' ∨ ∃ b, c' = .leaf b)) →
        ((∃ r, allcloseL close l cs' = .ok r) ∨ allcloseL close l cs' = .error .valueError) ∧
        ∀ S : Shape, WF S → (∀ a ∈ leavesL l, FitsIn a.shape S) → (∀ p ∈ cs', ∀ b ∈ p.2.leaves, FitsIn b.shape S) →
          ∃ r, allcloseL close l cs' = .ok r := by
      intro l hl hlw cs' hw' hd hc
      induction l with
      | nil => exact ⟨.inl ⟨true, rfl⟩, fun _ _ _ _ => ⟨true, rfl⟩⟩
      | cons p l ihl =>
        obtain ⟨k, c⟩ := p
        obtain ⟨c', hc', hcc⟩ := hc (k, c) (by simp)
        have hmem := mem_of_get? hc'
        obtain ⟨g1, g2⟩ := ih (k, c) (hl _ (by simp)) c'
          (fun a ha => hlw a (by simp only [leavesL, List.mem_append]; exact .inl ha)) (hw' _ hmem) (dicts_of_mem hd _ hmem) hcc
        obtain ⟨g3, g4⟩ := ihl (fun p hp => hl p (by simp [hp]))
          (fun a ha => hlw a (by simp only [leavesL, List.mem_append]; exact .inr ha)) (fun p hp => hc p (by simp [hp]))
        simp only at hc'
        simp only [allcloseL, hc', bind, Except.bind]
        refine ⟨?_, fun S hSw hS h => ?_⟩
        · rcases g1 with ⟨r, g1⟩ | g1
          · rcases g3 with ⟨r', g3⟩ | g3
            · exact .inl ⟨r && r', by simp only [g1, g3]⟩
            · exact .inr (by simp only [g1, g3])
          · exact .inr (by simp only [g1])
        · obtain ⟨r, g⟩ := g2 S hSw (fun b hb => hS b (by simp only [leavesL, List.mem_append]; exact .inl hb)) (h _ hmem)
          obtain ⟨r', g'⟩ := g4 S hSw (fun b hb => hS b (by simp only [leavesL, List.mem_append]; exact .inr hb)) h
          simp only at g
          exact ⟨r && r', by simp only [g, g']⟩
    rintro (b | ⟨cls', cs'⟩) hx hy hd hc
    · simp only [allclose]
      have hval : ∀ q ∈ cs.map (fun p => (p.1, (Comp.leaf b : Comp (SA α)))), q.2 = .leaf b := by
        intro q hq
        obtain ⟨p, _, rfl⟩ := List.mem_map.1 hq
        rfl
      obtain ⟨h1, h2⟩ := key cs (fun p hp => hp) hx (cs.map (fun p => (p.1, (Comp.leaf b : Comp (SA α)))))
        (fun q hq => by rw [hval q hq]; exact hy)
        (by
          clear * -
          induction cs with
          | nil => trivial
          | cons p l ihl => exact ⟨trivial, ihl⟩)
        (fun p hp => by
          have hmem : p.1 ∈ keys (cs.map (fun p => (p.1, (Comp.leaf b : Comp (SA α))))) := by
            unfold keys
            rw [List.map_map]
            exact List.mem_map.2 ⟨_, hp, rfl⟩
          obtain ⟨v, hv⟩ := exists_get?_of_mem hmem
          exact ⟨v, hv, .inr ⟨b, hval _ (mem_of_get? hv)⟩⟩)
      refine ⟨h1, fun S hSw hS h => h2 S hSw hS (fun q hq => ?_)⟩
      rw [hval q hq]
      exact h
    · rcases hc with hc | ⟨b, hb⟩
      · simp only [Conform, conformL_iff] at hc
        obtain ⟨hcl, hk, hcl'⟩ := hc
        simp only [allclose, if_pos hcl]
        obtain ⟨h1, h2⟩ := key cs (fun p hp => hp) hx cs'
          (fun q hq b hb => hy b (by simp only [leaves]; exact mem_leavesL.2 ⟨q, hq, hb⟩)) hd.2
          (fun p hp => by
            obtain ⟨c', g1, g2⟩ := hcl' p hp
            exact ⟨c', g1, .inl g2⟩)
        refine ⟨h1, fun S hSw hS h => h2 S hSw hS (fun q hq b hb => h b ?_)⟩
        simp only [leaves]
        exact mem_leavesL.2 ⟨q, hq, hb⟩
      · cases hb

theorem path_of_leaf : ∀ (u : Comp γ), u.Dicts → ∀ v ∈ u.leaves, ∃ p, u.leafAt p = some v := by
  refine ind ?_ ?_
  · intro a _ v hv
    simp only [leaves, List.mem_singleton] at hv
    subst hv
    exact ⟨[], rfl⟩
  · intro cls cs ih hd v hv
    simp only [leaves] at hv
    obtain ⟨q, hq, hv⟩ := mem_leavesL.1 hv
    obtain ⟨p, hp⟩ := ih q hq (dicts_of_mem hd.2 q hq) v hv
    exact ⟨q.1 :: p, by simp only [leafAt, get?_of_mem hd.1 hq]; exact hp⟩

theorem ufunc2_dicts {f : α → β → R γ} : ∀ (x : Comp α) (y : Comp β) (u : Comp γ), x.Dicts → y.Dicts → ufunc2 f x y = .ok u → u.Dicts := by
  refine ind ?_ ?_
  · rintro a (b | ⟨cls, cs⟩) u _ hy h
    · simp only [ufunc2, bind, Except.bind] at h
      cases hf : f a b with
      | error e => rw [hf] at h; cases h
      | ok w => rw [hf] at h; cases h; trivial
    · exact lift_dicts _ _ ((C36_scalar_left f a cls cs u).1 h) hy
  · rintro cls cs ih (b | ⟨cls', cs'⟩) u hx hy h
    · exact lift_dicts _ _ ((C36_scalar f b cls cs u).1 h) hx
    · by_cases hcl : cls = cls'
      · subst hcl
        obtain ⟨rs, rfl, hk, hr⟩ := C36_components f cls cs cs' u h
        have hw : WF rs := by
          have := hx.1
          unfold WF at this ⊢
          rw [hk]
          exact this
        refine ⟨hw, dictsL_iff.2 (fun q hq => ?_)⟩
        have hq' := get?_of_mem hw hq
        have hm : q.1 ∈ keys cs := by rw [← hk]; exact mem_keys_of_get? hq'
        obtain ⟨c, hc⟩ := exists_get?_of_mem hm
        obtain ⟨c', v, h1, h2, h3⟩ := hr q.1 c hc
        rw [hq'] at h2
        cases h2
        exact ih (q.1, c) (mem_of_get? hc) c' q.2 (dicts_of_mem hx.2 _ (mem_of_get? hc)) (dicts_of_mem hy.2 _ (mem_of_get? h1)) h3
      · simp [ufunc2, hcl] at h

/-- **C86** (`np.allclose`, part which holds). For vectors of the same type with the same component names, nested to any depth, and scalars, which stand for a vector
whose components are all equal, `np.allclose` is true exactly when the scalars at every path of component names, broadcast
against each other by name, are close at every named index.  (What is missing: vectors of the same type with other component names, see
`C86_array_equal_refuted`.) -/
theorem C86_allclose_partial (close : α → α → Bool) (x y : Comp (SA α)) (hx : x.WFLeaves) (hy : y.WFLeaves) (hd : x.Dicts) (hd' : y.Dicts)
    (hc : x.Conform y) (s t S : Shape) (hs : x.shape = .ok s) (ht : y.shape = .ok t) (hS : broadcastShapes [s, t] = .ok S) :
    ∃ r, allclose close x y = .ok r ∧ (r = true ↔ ∀ p a b, x.leafB p = some a → y.leafB p = some b →
      (x.leafAt p = some a ∨ y.leafAt p = some b) → SA.CloseByName close a b) := by
  have hws : ∀ u ∈ [s, t], WF u := by
    intro u hu
    simp only [List.mem_cons, List.not_mem_nil, or_false] at hu
    rcases hu with rfl | rfl
    · exact shape_wf _ hx _ hs
    · exact shape_wf _ hy _ ht
  have hSw := (C01_broadcast_shapes_ok _ hws S hS).1
  have f1 := SA.fitsIn_of_broadcastShapes hws hS (s := s) (by simp)
  have f2 := SA.fitsIn_of_broadcastShapes hws hS (s := t) (by simp)
  have fx : ∀ a ∈ x.leaves, FitsIn a.shape S := fun a ha => fitsIn_trans (leaf_fits hx hs ha) f1
  have fy : ∀ a ∈ y.leaves, FitsIn a.shape S := fun a ha => fitsIn_trans (leaf_fits hy ht ha) f2
  obtain ⟨r, hr⟩ := (allclose_outcome (close := close) x y hx hy hd' (.inl hc)).2 S hSw fx fy
  obtain ⟨u, hu, hru⟩ := allclose_ok x y hd' r hr
  refine ⟨r, hr, ?_⟩
  rw [hru, List.all_eq_true]
  have hpair : ∀ a ∈ x.leaves, ∀ b ∈ y.leaves, ∃ c, SA.allclose close a b = .ok c ∧ (c = true ↔ SA.CloseByName close a b) := by
    intro a ha b hb
    refine (SA.C86_allclose_scalars close a b (hx a ha) (hy b hb)).1 (fun hcl => ?_)
    obtain ⟨e, he⟩ := (C01_broadcast_shapes_error_iff _ (SA.wf_pair (hx a ha) (hy b hb))).2 hcl
    obtain ⟨q, hq, _⟩ := broadcast_of_fits (SA.wf_shape (hx a ha)) (SA.wf_shape (hy b hb)) (fx a ha) (fy b hb)
    rw [hq] at he
    cases he
  constructor
  · intro h p a b ha hb hab
    obtain ⟨c, hc1, hc2⟩ := hpair a (leafB_mem_leaves _ _ _ ha) b (leafB_mem_leaves _ _ _ hb)
    have := (C36_at_path _ x y u hu p c).2 ⟨a, b, ha, hb, hab, hc1⟩
    exact hc2.1 (h c (leafAt_mem_leaves this))
  · intro h v hv
    obtain ⟨p, hp⟩ := path_of_leaf u (ufunc2_dicts x y u hd hd' hu) v hv
    obtain ⟨a, b, ha, hb, hab, hf⟩ := (C36_at_path _ x y u hu p v).1 hp
    obtain ⟨c, hc1, hc2⟩ := hpair a (leafB_mem_leaves _ _ _ ha) b (leafB_mem_leaves _ _ _ hb)
    rw [hf] at hc1
    cases hc1
    exact hc2.2 (h p a b ha hb hab)

theorem ufunc2_pair_ok {f : α → β → R γ} : ∀ (p : List String) (x : Comp α) (y : Comp β) (u : Comp γ), ufunc2 f x y = .ok u → ∀ {a b},
    x.leafB p = some a → y.leafB p = some b → (x.leafAt p = some a ∨ y.leafAt p = some b) → ∃ v, f a b = .ok v := by
  intro p
  induction p with
  | nil =>
    rintro (a | ⟨cls, cs⟩) (b | ⟨cls', cs'⟩) u h a' b' ha hb _
    · cases ha
      cases hb
      simp only [ufunc2, bind, Except.bind] at h
      cases hf : f a b with
      | error e => rw [hf] at h; cases h
      | ok w => exact ⟨w, rfl⟩
    · cases hb
    · cases ha
    · cases ha
  | cons k p ih =>
    rintro (a | ⟨cls, cs⟩) (b | ⟨cls', cs'⟩) u h a' b' ha hb hab
    · simp [leafAt] at hab
    · rw [leafB_leaf] at ha
      cases ha
      have hb' : (Comp.node cls' cs').leafAt (k :: p) = some b' := by
        rcases hab with hab | hab
        · simp [leafAt] at hab
        · exact hab
      obtain ⟨v, _, hv⟩ := (lift_leafAt ((C36_scalar_left f a cls' cs' u).1 h) (k :: p)).1 b' hb'
      exact ⟨v, hv⟩
    · rw [leafB_leaf] at hb
      cases hb
      have ha' : (Comp.node cls cs).leafAt (k :: p) = some a' := by
        rcases hab with hab | hab
        · exact hab
        · simp [leafAt] at hab
      obtain ⟨v, _, hv⟩ := (lift_leafAt ((C36_scalar f b cls cs u).1 h) (k :: p)).1 a' ha'
      exact ⟨v, hv⟩
    · by_cases hcl : cls = cls'
      · subst hcl
        obtain ⟨rs, rfl, hk, hr⟩ := C36_components f cls cs cs' u h
        simp only [leafB, leafAt] at ha hb hab
        cases hc : get? cs k with
        | none => rw [hc] at ha; cases ha
        | some c =>
          obtain ⟨c', v, h1, h2, h3⟩ := hr k c hc
          rw [hc] at ha hab
          rw [h1] at hb hab
          exact ih c c' v h3 ha hb hab
      · simp [ufunc2, hcl] at h

/-- **C86** (`np.allclose` of components which do not broadcast). It raises `ValueError`. -/
theorem C86_allclose_clash (close : α → α → Bool) (x y : Comp (SA α)) (hx : x.WFLeaves) (hy : y.WFLeaves) (hd' : y.Dicts)
    (hc : x.Conform y) (p : List String) (a b : SA α) (ha : x.leafB p = some a) (hb : y.leafB p = some b)
    (hab : x.leafAt p = some a ∨ y.leafAt p = some b) (h : Clash [a.shape, b.shape]) : allclose close x y = .error .valueError := by
  rcases (allclose_outcome (close := close) x y hx hy hd' (.inl hc)).1 with ⟨r, hr⟩ | hr
  · obtain ⟨u, hu, hru⟩ := allclose_ok x y hd' r hr
    have he := (SA.C86_allclose_scalars close a b (hx a (leafB_mem_leaves _ _ _ ha)) (hy b (leafB_mem_leaves _ _ _ hb))).2 h
    obtain ⟨v, hv⟩ := ufunc2_pair_ok p x y u hu ha hb hab
    rw [he] at hv
    cases hv
  · exact hr

/-! ### nonzero -/

theorem accumulated_ok {isNonzero : α → Bool} {one : α} {and2 : α → α → α} (h1 : isNonzero one = true)
    (h2 : ∀ a b, isNonzero (and2 a b) = (isNonzero a && isNonzero b)) {S : Shape} :
    ∀ (as : List (String × SA α)), (∀ p ∈ as, p.2.WF ∧ FitsIn p.2.shape S) →
    ∃ A : SA α, accumulated one and2 (as.map (fun p => (p.1, .leaf p.2))) = .ok (.leaf A) ∧ A.WF ∧ FitsIn A.shape S ∧
      (∀ p ∈ as, FitsIn p.2.shape A.shape) ∧ ∀ e, isNonzero (A.atB e) = true ↔ ∀ p ∈ as, isNonzero (p.2.atB e) = true := by
  have key : ∀ (as : List (String × SA α)), (∀ p ∈ as, p.2.WF ∧ FitsIn p.2.shape S) → ∀ B : SA α, B.WF → FitsIn B.shape S →
      ∃ A : SA α, (as.map (fun p => (p.1, (Comp.leaf p.2 : Comp (SA α))))).foldlM
        (fun acc p => ufunc2 (SA.ufunc2 and2) acc p.2) (Comp.leaf B) = .ok (.leaf A) ∧ A.WF ∧ FitsIn A.shape S ∧ FitsIn B.shape A.shape ∧
        (∀ p ∈ as, FitsIn p.2.shape A.shape) ∧
        ∀ e, isNonzero (A.atB e) = true ↔ isNonzero (B.atB e) = true ∧ ∀ p ∈ as, isNonzero (p.2.atB e) = true := by
    intro as
    induction as with
    | nil => intro _ B hB hBS; exact ⟨B, rfl, hB, hBS, fitsIn_refl _, by simp, by simp⟩
    | cons p l ih =>
      intro h B hB hBS
      obtain ⟨C, g1, g2, g3⟩ := ufunc2_fits and2 hB (h p (by simp)).1 hBS (h p (by simp)).2
      obtain ⟨A, a1, a2, a3, a4, a5, a6⟩ := ih (fun q hq => h q (by simp [hq])) C g2.1 g2.2
      have hbs := (SA.ufunc2_ok hB (h p (by simp)).1 g1).2.1
      have hw : ∀ s ∈ [B.shape, p.2.shape], WF s := SA.wf_pair hB (h p (by simp)).1
      have f1 := SA.fitsIn_of_broadcastShapes hw hbs (s := B.shape) (by simp)
      have f2 := SA.fitsIn_of_broadcastShapes hw hbs (s := p.2.shape) (by simp)
      refine ⟨A, ?_, a2, a3, fitsIn_trans f1 a4, ?_, fun e => ?_⟩
      · rw [List.map_cons, List.foldlM_cons]
        simp only [ufunc2, g1, bind, Except.bind]
        exact a1
      · intro q hq
        rcases List.mem_cons.1 hq with rfl | hq
        · exact fitsIn_trans f2 a4
        · exact a5 q hq
      · rw [a6 e, g3 e, h2, Bool.and_eq_true, List.forall_mem_cons, and_assoc]
  intro as h
  obtain ⟨A, a1, a2, a3, _, a5, a6⟩ := key as h (SA.scalar one) (scalar_fits S one).1 (scalar_fits S one).2
  refine ⟨A, a1, a2, a3, a5, fun e => ?_⟩
  rw [a6 e]
  have : isNonzero ((SA.scalar one).atB e) = true := h1
  simp [this]

/-- **C86** (`np.nonzero`, part which holds). For a vector of scalars of any shapes which broadcast, whose elements are such that `&` is nonzero exactly if both
operands are (booleans), the result enumerates, each once, the named indices at which all components are nonzero.  (What is missing: numbers, see
`C86_nonzero_refuted`, and vectors of vectors.) -/
theorem C86_nonzero_partial (isNonzero : α → Bool) (one : α) (and2 : α → α → α) (h1 : isNonzero one = true)
    (h2 : ∀ a b, isNonzero (and2 a b) = (isNonzero a && isNonzero b)) (cls : String) (as : List (String × SA α)) (hw : ∀ p ∈ as, p.2.WF)
    (S : Shape) (hS : (Comp.node cls (as.map (fun p => (p.1, .leaf p.2)))).shape = .ok S) (hne : S ≠ []) :
    ∃ (d : Dict (SA Int)) (name : String) (n : Nat) (sel : Nat → String → Nat),
      nonzero isNonzero one and2 (.node cls (as.map (fun p => (p.1, .leaf p.2)))) = .ok d ∧
      (∀ ax, ax ∈ keys d ↔ ax ∈ keys S) ∧
      (∀ ax ∈ keys S, ∃ b, get? d ax = some b ∧ b.WF ∧ b.shape = [(name, n)] ∧ ∀ e, e name < n → b.at' e = (sel (e name) ax : Int)) ∧
      (∀ k < n, InRange S (sel k) ∧ ∀ p ∈ as, isNonzero (p.2.atB (sel k)) = true) ∧
      (∀ k < n, ∀ k' < n, (∀ ax ∈ keys S, sel k ax = sel k' ax) → k = k') ∧
      (∀ e, InRange S e → (∀ p ∈ as, isNonzero (p.2.atB e) = true) → ∃ k < n, ∀ ax ∈ keys S, sel k ax = e ax) := by
  set v : Comp (SA α) := .node cls (as.map (fun p => (p.1, .leaf p.2))) with hv
  have hvl : ∀ a, a ∈ v.leaves ↔ ∃ p ∈ as, p.2 = a := by
    intro a
    simp only [hv, leaves, mem_leavesL, List.mem_map]
    constructor
    · rintro ⟨_, ⟨p, hp, rfl⟩, ha⟩
      simp only [leaves, List.mem_singleton] at ha
      exact ⟨p, hp, ha.symm⟩
    · rintro ⟨p, hp, rfl⟩
      exact ⟨_, ⟨p, hp, rfl⟩, by simp [leaves]⟩
  have hvw : v.WFLeaves := by
    intro a ha
    obtain ⟨p, hp, rfl⟩ := (hvl a).1 ha
    exact hw p hp
  obtain ⟨A, a1, a2, a3, a4, a5⟩ := accumulated_ok (S := S) h1 h2 as
    (fun p hp => ⟨hw p hp, leaf_fits hvw hS ((hvl _).2 ⟨p, hp, rfl⟩)⟩)
  have hsame : Same A.shape S := by
    have hl := shape_leaves v hvw
    rw [hS] at hl
    cases hb : broadcastShapes (v.leaves.map SA.shape) with
    | error e => rw [hb] at hl; exact hl.elim
    | ok r =>
      rw [hb] at hl
      intro ax
      cases hSa : get? S ax with
      | none =>
        cases hAa : get? A.shape ax with
        | none => rfl
        | some m =>
          obtain ⟨n, hn, _⟩ := a3 ax m hAa
          rw [hn] at hSa
          cases hSa
      | some n =>
        have hr : get? r ax = some n := by rw [← hl ax]; exact hSa
        obtain ⟨⟨t, ht, htm⟩, _⟩ := (C01_broadcast_shapes_ok _ hvw.shapes r hb).2.2 ax n hr
        obtain ⟨a, ha, rfl⟩ := List.mem_map.1 ht
        obtain ⟨p, hp, rfl⟩ := (hvl a).1 ha
        obtain ⟨m, hm, hm'⟩ := a4 p hp ax n htm
        obtain ⟨n', hn', hn''⟩ := a3 ax m hm
        rw [hSa] at hn'
        cases hn'
        rw [hm]
        congr 1
        omega
  have hmem : ∀ ax, ax ∈ A.axes ↔ ax ∈ keys S := by
    intro ax
    rw [← SA.keys_shape a2]
    constructor
    · intro h
      obtain ⟨m, hm⟩ := exists_get?_of_mem h
      exact mem_keys_of_get? ((hsame ax).symm.trans hm)
    · intro h
      obtain ⟨m, hm⟩ := exists_get?_of_mem h
      exact mem_keys_of_get? ((hsame ax).trans hm)
  have hax : A.axes ≠ [] := by
    intro h
    cases S with
    | nil => exact hne rfl
    | cons q l =>
      have := (hmem q.1).2 (by simp [keys])
      rw [h] at this
      cases this
  have hin : ∀ e, InRange A.shape e ↔ InRange S e := fun e =>
    ⟨fun h ax n hn => h ax n ((hsame ax).trans hn), fun h ax n hn => h ax n ((hsame ax).symm.trans hn)⟩
  have hnz : ∀ e, InRange S e → (isNonzero (A.at' e) = true ↔ ∀ p ∈ as, isNonzero (p.2.atB e) = true) := by
    intro e he
    rw [← SA.atB_eq_at' a2 ((hin e).2 he)]
    exact a5 e
  obtain ⟨d, n, sel, d1, d2, d3, d4, d5, d6⟩ := SA.C22_nonzero_partial A a2 hax isNonzero
  refine ⟨d, "*".intercalate A.axes, n, sel, ?_, ?_, ?_, ?_, ?_, ?_⟩
  · have hdep : ∃ m, v.depth = m + 1 + 1 := by
      cases as with
      | nil =>
        simp [hv, shape, shapes, bind, Except.bind, broadcastShapes] at hS
        exact absurd hS hne
      | cons p l =>
        refine ⟨depthL (p :: l |>.map (fun p => (p.1, (Comp.leaf p.2 : Comp (SA α))))) - 1, ?_⟩
        simp only [hv, depth, List.map_cons, depthL]
        omega
    obtain ⟨m, hm⟩ := hdep
    unfold nonzero
    rw [hm]
    simp only [hv, nonzeroAux, a1, bind, Except.bind]
    exact d1
  · intro ax
    rw [d2, hmem]
  · intro ax hax'
    exact d3 ax ((hmem ax).2 hax')
  · intro k hk
    obtain ⟨g1, g2⟩ := d4 k hk
    exact ⟨(hin _).1 g1, (hnz _ ((hin _).1 g1)).1 g2⟩
  · intro k hk k' hk' h
    by_contra hne'
    have hmap : A.axes.map (sel k) = A.axes.map (sel k') := List.map_congr_left (fun ax hax' => h ax ((hmem ax).1 hax'))
    rcases Nat.lt_or_gt_of_ne hne' with hlt | hlt
    · have := d5 k k' hlt hk'
      rw [hmap] at this
      exact UA.lex_irrefl _ this
    · have := d5 k' k hlt hk
      rw [hmap] at this
      exact UA.lex_irrefl _ this
  · intro e he h
    obtain ⟨k, hk, g⟩ := d6 e ((hin e).2 he) ((hnz e he).2 h)
    exact ⟨k, hk, fun ax hax' => g ax ((hmem ax).2 hax')⟩

/-- **C86** (`np.nonzero`, refuted for numbers). The number 2 is nonzero, but `True & 2` is zero: `np.nonzero` of a vector whose components are 2 everywhere
is empty. -/
theorem C86_nonzero_refuted :
    ∃ cs : List (String × Comp (SA Nat)), (Comp.node "Cartesian2d" cs).WFLeaves ∧
      (∀ p a e, (Comp.node "Cartesian2d" cs).leafAt p = some a → a.shape = [("t", 3)] ∧ a.at' e = 2) ∧
      (nonzero (· != 0) 1 Nat.land (.node "Cartesian2d" cs)).map (fun d => d.map (fun p => (p.1, p.2.shape))) = .ok [("t", [("t", 0)])] := by
  let two : SA Nat := ⟨["t"], ⟨[3], fun _ => 2⟩⟩
  refine ⟨[("x", .leaf two), ("y", .leaf two)], ?_, ?_, by decide +kernel⟩
  · intro a ha
    simp only [leaves, leavesL, List.append_nil, List.singleton_append, List.mem_cons, List.not_mem_nil, or_false, or_self] at ha
    subst ha
    exact ⟨rfl, by decide⟩
  · intro p a e h
    have := leafAt_mem_leaves h
    simp only [leaves, leavesL, List.append_nil, List.singleton_append, List.mem_cons, List.not_mem_nil, or_false, or_self] at this
    subst this
    exact ⟨rfl, rfl⟩

/-! ### unravel_index -/

theorem depth_flat (cls : String) {as : List (String × SA α)} (hne : as ≠ []) :
    ∃ m, (Comp.node cls (as.map (fun p => (p.1, .leaf p.2)))).depth = m + 1 + 1 := by
  cases as with
  | nil => exact absurd rfl hne
  | cons p l =>
    refine ⟨depthL (p :: l |>.map (fun p => (p.1, (Comp.leaf p.2 : Comp (SA α))))) - 1, ?_⟩
    simp only [depth, List.map_cons, depthL]
    omega

/-- **C86** (`np.unravel_index`, part which holds). If all the axes of `shape` are axes of the vector of flat indices, the result has an entry for each of them:
a vector of the same type and components, each of them the coordinates along the axis of the positions in that component.
(What is missing: shapes with other axes, see `C86_unravel_index_refuted`, and vectors of vectors.) -/
theorem C86_unravel_index_partial (cls : String) (as : List (String × SA Nat)) (hw : ∀ p ∈ as, p.2.WF) (s S : Shape) (hs : WF s)
    (hd : Dict.WF as) (hne : as ≠ [])
    (hS : (Comp.node cls (as.map (fun p => (p.1, .leaf p.2)))).shape = .ok S) (hsub : keys s ⊆ keys S)
    (E : String → (String → Nat) → String → Nat)
    (hE : ∀ p ∈ as, ∀ e, InRange p.2.shape e → InRange s (E p.1 e) ∧ p.2.at' e = ND.ravel s.values (s.keys.map (E p.1 e))) :
    ∃ d, unravelIndex (.node cls (as.map (fun p => (p.1, .leaf p.2)))) s = .ok d ∧ keys d = keys S ∧
      ∀ ax ∈ keys s, ∃ rs, get? d ax = some (.node cls rs) ∧ keys rs = keys as ∧
        ∀ k a, get? as k = some a → ∃ r, get? rs k = some (.leaf r) ∧ r.WF ∧ r.shape = a.shape ∧
          ∀ e, InRange a.shape e → r.at' e = (E k e ax : Int) := by
  have hF : ∀ p : String × SA Nat, ∃ d : Dict (SA Int), p ∈ as → p.2.unravelIndex s = .ok d ∧ keys d = keys s ∧
      ∀ ax ∈ keys s, ∃ b, get? d ax = some b ∧ b.WF ∧ b.shape = p.2.shape ∧ ∀ e, InRange p.2.shape e → b.at' e = (E p.1 e ax : Int) := by
    intro p
    by_cases hp : p ∈ as
    · obtain ⟨d, h⟩ := SA.C22_unravel_index p.2 (hw p hp) s hs (E p.1) (hE p hp)
      exact ⟨d, fun _ => h⟩
    · exact ⟨[], fun h => absurd h hp⟩
  choose F hF using hF
  have hdep := depth_flat cls hne
  obtain ⟨m, hm⟩ := hdep
  let ds : List (String × Dict (Comp (SA Int))) := as.map (fun p => (p.1, (F p).map (fun q => (q.1, Comp.leaf q.2))))
  have hkey : ∀ d : Dict (SA Int), keys (d.map (fun q => (q.1, (Comp.leaf q.2 : Comp (SA Int))))) = keys d := by
    intro d
    unfold keys
    rw [List.map_map]
    rfl
  have hrun : (as.map (fun p => (p.1, (Comp.leaf p.2 : Comp (SA Nat))))).mapM (fun p => do
      let d ← unravelIndexAux s (m + 1) p.2
      if d.keys ⊆ S.keys then Except.ok (p.1, d) else Except.error Err.keyError) = .ok ds := by
    apply mapM_of_forall₂
    rw [List.forall₂_map_left_iff, List.forall₂_map_right_iff, List.forall₂_same]
    intro p hp
    obtain ⟨h1, h2, _⟩ := hF p hp
    simp only [unravelIndexAux, h1, bind, Except.bind]
    exact if_pos (by rw [hkey, h2]; exact hsub)
  refine ⟨_, by
    unfold unravelIndex
    rw [hm]
    simp only [unravelIndexAux, hS, bind, Except.bind] at hrun ⊢
    rw [hrun], ?_, ?_⟩
  · unfold keys
    rw [List.map_map]
    simp [Function.comp_def]
  · intro ax hax
    have hG : ∀ p : String × SA Nat, ∃ b : SA Int, p ∈ as → get? (F p) ax = some b ∧ b.WF ∧ b.shape = p.2.shape ∧
        ∀ e, InRange p.2.shape e → b.at' e = (E p.1 e ax : Int) := by
      intro p
      by_cases hp : p ∈ as
      · obtain ⟨b, h⟩ := (hF p hp).2.2 ax hax
        exact ⟨b, fun _ => h⟩
      · exact ⟨SA.scalar 0, fun h => absurd h hp⟩
    choose G hG using hG
    have hrs : ds.filterMap (fun p => (get? p.2 ax).map (fun r => (p.1, r))) = as.map (fun p => (p.1, Comp.leaf (G p))) := by
      have : ∀ l : List (String × SA Nat), (∀ p ∈ l, p ∈ as) →
          (l.map (fun p => (p.1, (F p).map (fun q => (q.1, (Comp.leaf q.2 : Comp (SA Int))))))).filterMap
            (fun p => (get? p.2 ax).map (fun r => (p.1, r))) = l.map (fun p => (p.1, Comp.leaf (G p))) := by
        intro l hl
        induction l with
        | nil => rfl
        | cons p l ih =>
          have h1 : get? ((F p).map (fun q => (q.1, (Comp.leaf q.2 : Comp (SA Int))))) ax = some (.leaf (G p)) := by
            rw [SA.get?_map_pair (F p) (fun _ (b : SA Int) => (Comp.leaf b : Comp (SA Int))), (hG p (hl p (by simp))).1]
            rfl
          rw [List.map_cons, List.filterMap_cons_some (b := (p.1, .leaf (G p))) (by rw [h1]; rfl), ih (fun q hq => hl q (by simp [hq])), List.map_cons]
      exact this as (fun p hp => hp)
    refine ⟨as.map (fun p => (p.1, Comp.leaf (G p))), ?_, ?_, ?_⟩
    · rw [SA.get?_map_list, if_pos (hsub hax), hrs]
    · unfold keys
      rw [List.map_map]
      rfl
    · intro k a hk
      have hp := mem_of_get? hk
      refine ⟨G (k, a), ?_, (hG (k, a) hp).2⟩
      have hwf : WF (as.map (fun p => (p.1, (Comp.leaf (G p) : Comp (SA Int))))) := by
        unfold WF keys
        rw [List.map_map]
        exact hd
      exact get?_of_mem hwf (List.mem_map.2 ⟨(k, a), hp, rfl⟩)

/-- **C86** (`np.unravel_index`, refuted). An axis of `shape` which is not an axis of the vector of flat indices raises `KeyError`, although the scalars of the
vector are unravelled without error. -/
theorem C86_unravel_index_refuted (cls : String) (as : List (String × SA Nat)) (s S : Shape) (hne : as ≠ [])
    (hS : (Comp.node cls (as.map (fun p => (p.1, .leaf p.2)))).shape = .ok S) (ax : String) (hax : ax ∈ keys s) (hax' : ax ∉ keys S)
    (hok : ∀ p ∈ as, ∃ d, p.2.unravelIndex s = .ok d) :
    unravelIndex (.node cls (as.map (fun p => (p.1, .leaf p.2)))) s = .error .keyError := by
  obtain ⟨m, hm⟩ := depth_flat cls hne
  cases as with
  | nil => exact absurd rfl hne
  | cons p l =>
    obtain ⟨d, hd⟩ := hok p (by simp)
    have hk := SA.keys_unravelIndex hd
    have hkey : keys (d.map (fun q => (q.1, (Comp.leaf q.2 : Comp (SA Int))))) = keys s := by
      rw [← hk]
      unfold keys
      rw [List.map_map]
      rfl
    unfold unravelIndex
    rw [hm]
    rw [List.map_cons] at hS ⊢
    simp only [unravelIndexAux, hS, bind, Except.bind, List.mapM_cons, hd]
    rw [if_neg]
    intro h
    rw [hkey] at h
    exact hax' (h hax)

/-! ### Examples -/

/-- A nested vector and an equal one with the components in another order. -/
def exTwin : Comp (SA Nat) := .node "Spectral"
  [("w", .leaf ⟨["w"], ⟨[2], fun i => i.getD 0 0⟩⟩),
   ("p", .node "CartesianNd" [("a", .leaf ⟨["t"], ⟨[3], fun i => i.getD 0 0⟩⟩), ("b", .leaf ⟨[], ⟨[], fun _ => 4⟩⟩)])]
def exTwin' (b : Nat) : Comp (SA Nat) := .node "Spectral"
  [("w", .leaf ⟨["w"], ⟨[2], fun i => i.getD 0 0⟩⟩),
   ("p", .node "CartesianNd" [("b", .leaf ⟨[], ⟨[], fun _ => b⟩⟩), ("a", .leaf ⟨["t"], ⟨[3], fun i => i.getD 0 0⟩⟩)])]

theorem exTwin_comparable (b : Nat) : exTwin.Comparable (fun a b => a.WF ∧ b.WF ∧ a.axes = b.axes) (exTwin' b) := by
  have h1 : (⟨["w"], ⟨[2], fun i => i.getD 0 0⟩⟩ : SA Nat).WF := ⟨rfl, by decide⟩
  have h2 : (⟨["t"], ⟨[3], fun i => i.getD 0 0⟩⟩ : SA Nat).WF := ⟨rfl, by decide⟩
  have h3 : ∀ c, (⟨[], ⟨[], fun _ => c⟩⟩ : SA Nat).WF := fun c => ⟨rfl, by simp⟩
  refine fun _ => ⟨fun k hk => hk, ⟨_, rfl, h1, h1, rfl⟩, ⟨_, rfl, fun _ => ⟨fun k hk => by simpa [keys, or_comm] using hk, ⟨_, rfl, h2, h2, rfl⟩, ⟨_, rfl, h3 _, h3 _, rfl⟩, trivial⟩⟩, trivial⟩

example : ∃ r, arrayEqual exTwin (exTwin' 4) = .ok r ∧ (r = true ↔ exTwin.SameTree SameByName (exTwin' 4)) :=
  C86_array_equal_partial _ _ (exTwin_comparable 4)
example : arrayEqual exTwin (exTwin' 4) = .ok true ∧ arrayEqual exTwin (exTwin' 5) = .ok false := by
  constructor <;> decide +kernel
example : arrayEquiv exTwin (exTwin' 4) = .ok true ∧ arrayEquiv exTwin (exTwin' 5) = .ok false := by
  constructor <;> decide +kernel
example : allclose (fun a b => a ≤ b + 1 && b ≤ a + 1) exTwin (exTwin' 5) = .ok true ∧
    allclose (fun a b => a ≤ b + 1 && b ≤ a + 1) exTwin (exTwin' 6) = .ok false ∧
    allclose (fun a b => a ≤ b + 5 && b ≤ a + 5) (.leaf (SA.scalar 2)) exTwin = .ok true ∧
    allclose (fun a b => a ≤ b + 1 && b ≤ a + 1) exTwin (.leaf (SA.scalar 2)) = .ok false := by
  refine ⟨?_, ?_, ?_, ?_⟩ <;> decide +kernel
/-- a nested vector against one with a scalar in the place of the inner vector -/
example : ∃ r, allclose (fun a b => a ≤ b + 1 && b ≤ a + 1) exX exY = .ok r ∧
    (r = true ↔ ∀ p a b, exX.leafB p = some a → exY.leafB p = some b → (exX.leafAt p = some a ∨ exY.leafAt p = some b) →
      SA.CloseByName (fun a b => a ≤ b + 1 && b ≤ a + 1) a b) := by
  refine C86_allclose_partial _ exX exY ?_ ?_ ?_ ?_ ?_ [("w", 2), ("t", 3)] [("t", 3)] [("w", 2), ("t", 3)] rfl rfl rfl
  · intro a ha
    simp only [exX, leaves, leavesL, List.append_nil, List.singleton_append, List.mem_cons, List.not_mem_nil, or_false] at ha
    rcases ha with rfl | rfl | rfl <;> exact ⟨rfl, by decide⟩
  · intro a ha
    simp only [exY, leaves, leavesL, List.append_nil, List.singleton_append, List.mem_cons, List.not_mem_nil, or_false] at ha
    rcases ha with rfl | rfl <;> exact ⟨rfl, by decide⟩
  · exact ⟨by decide, trivial, ⟨by decide, trivial, trivial, trivial⟩, trivial⟩
  · exact ⟨by decide, trivial, trivial, trivial⟩
  · exact ⟨rfl, by decide, ⟨_, rfl, trivial⟩, ⟨_, rfl, by simp [Conform, numLeavesL, numLeaves]⟩, trivial⟩
example : (nonzero id true (· && ·) (.node "Cartesian2d" [("x", .leaf ⟨["t"], ND.ofList [3] [true, false, true] false⟩),
    ("y", .leaf ⟨["u"], ND.ofList [2] [false, true] false⟩)])).map (fun d => d.map (fun p => (p.1, p.2.nd.toList))) =
    .ok [("t", [0, 2]), ("u", [1, 1])] := by decide +kernel
example : (unravelIndex (.node "Cartesian2d" [("x", .leaf ⟨["x"], ND.ofList [2] [1, 5] 0⟩), ("y", .leaf ⟨["y"], ND.ofList [2] [0, 3] 0⟩)])
    [("x", 2), ("y", 3)]).map (fun d => d.map (fun p => (p.1, p.2.leaves.map (fun a => a.nd.toList)))) =
    .ok [("x", [[0, 1], [0, 1]]), ("y", [[1, 2], [0, 0]])] := by decide +kernel

end Comp

/-! ### Uncertain scalars -/

namespace UA
variable {α : Type}

/-- **C86** (uncertain scalars, `np.array_equal`, part which holds). If the components have the same axes in the same order, `np.array_equal` is true exactly when the
nominal values are the same and the samples are the same.  (What is missing: see `C27_array_equal_refuted`.) -/
theorem C86_uncertain_array_equal_partial [DecidableEq α] (a b : UA α) (ha : a.Valid) (hb : b.Valid) (h : a.nominal.axes = b.nominal.axes)
    (h' : a.distribution.axes = b.distribution.axes) :
    a.arrayEqual b = true ↔ SameByName a.nominal b.nominal ∧ SameByName a.distribution b.distribution := by
  unfold arrayEqual
  rw [Bool.and_eq_true, SA.C27_array_equal_partial _ _ ha.1 hb.1 h, SA.C27_array_equal_partial _ _ ha.2.1 hb.2.1 h']

/-- **C86** (uncertain scalars, `np.array_equiv`). If the components broadcast, `np.array_equiv` is true exactly when the nominal values and all samples, broadcast by
name, are equal at every named index; otherwise it raises `ValueError`. -/
theorem C86_uncertain_array_equiv [DecidableEq α] (a b : UA α) (ha : a.Valid) (hb : b.Valid) :
    (∀ s t, broadcastShapes [a.nominal.shape, b.nominal.shape] = .ok s → broadcastShapes [a.distribution.shape, b.distribution.shape] = .ok t →
      ∃ c, a.arrayEquiv b = .ok c ∧ (c = true ↔ (∀ e, InRange s e → a.nominal.atB e = b.nominal.atB e) ∧
        ∀ e, InRange t e → a.distribution.atB e = b.distribution.atB e)) ∧
    (Clash [a.nominal.shape, b.nominal.shape] ∨ Clash [a.distribution.shape, b.distribution.shape] → a.arrayEquiv b = .error .valueError) := by
  refine ⟨fun s t hs ht => ?_, fun h => ?_⟩
  · obtain ⟨c, h1, h2⟩ := SA.C27_array_equiv _ _ ha.1 hb.1 s hs
    obtain ⟨c', h3, h4⟩ := SA.C27_array_equiv _ _ ha.2.1 hb.2.1 t ht
    exact ⟨c && c', by simp only [arrayEquiv, h1, h3, bind, Except.bind], by rw [Bool.and_eq_true, h2, h4]⟩
  · unfold arrayEquiv
    by_cases hn : Clash [a.nominal.shape, b.nominal.shape]
    · rw [SA.C27_array_equiv_clash _ _ ha.1 hb.1 hn]
      rfl
    · have hd := h.resolve_left hn
      cases hs : broadcastShapes [a.nominal.shape, b.nominal.shape] with
      | error e => exact absurd ((C01_broadcast_shapes_error_iff _ (SA.wf_pair ha.1 hb.1)).1 ⟨e, hs⟩) hn
      | ok s =>
        obtain ⟨c, h1, _⟩ := SA.C27_array_equiv _ _ ha.1 hb.1 s hs
        rw [h1, SA.C27_array_equiv_clash _ _ ha.2.1 hb.2.1 hd]
        rfl

/-- **C86** (uncertain scalars, `np.allclose`). If the components broadcast, `np.allclose` of plain and uncertain scalars is true exactly when the nominal values are close
and the samples are close, where a plain scalar stands for the nominal value and for every sample; otherwise it raises `ValueError`. -/
theorem C86_uncertain_allclose (close : α → α → Bool) (a b : UArg α) (ha : a.Ok) (hb : b.Ok) :
    (¬ Clash [a.nominal.shape, b.nominal.shape] → ¬ Clash [a.distribution.shape, b.distribution.shape] →
      ∃ c, UA.allclose close a b = .ok c ∧
        (c = true ↔ SA.CloseByName close a.nominal b.nominal ∧ SA.CloseByName close a.distribution b.distribution)) ∧
    (Clash [a.nominal.shape, b.nominal.shape] ∨ Clash [a.distribution.shape, b.distribution.shape] → UA.allclose close a b = .error .valueError) := by
  obtain ⟨h1, h2⟩ := SA.C86_allclose_scalars close _ _ ha.nominal hb.nominal
  obtain ⟨h3, h4⟩ := SA.C86_allclose_scalars close _ _ ha.distribution hb.distribution
  refine ⟨fun g1 g2 => ?_, fun h => ?_⟩
  · obtain ⟨c, k1, k2⟩ := h1 g1
    obtain ⟨c', k3, k4⟩ := h3 g2
    exact ⟨c && c', by simp only [allclose, k1, k3, bind, Except.bind], by rw [Bool.and_eq_true, k2, k4]⟩
  · unfold allclose
    by_cases hn : Clash [a.nominal.shape, b.nominal.shape]
    · rw [h2 hn]
      rfl
    · obtain ⟨c, k1, _⟩ := h1 hn
      rw [k1, h4 (h.resolve_left hn)]
      rfl

example : exAcross.arrayEqual exAcross = true ∧ exAcross.arrayEqual ⟨exAcross.nominal, exAcross.nominal⟩ = false := by
  constructor <;> decide +kernel
example : UA.allclose (fun a b => a ≤ b + 1 && b ≤ a + 1) (.unc exAcross) (.plain (SA.scalar 1)) = .ok false ∧
    UA.allclose (fun a b => a ≤ b + 5 && b ≤ a + 5) (.unc exAcross) (.plain (SA.scalar 1)) = .ok true := by
  constructor <;> decide +kernel
example := C86_uncertain_array_equiv exAcross exAcross exAcross_valid exAcross_valid

end UA
end NA
