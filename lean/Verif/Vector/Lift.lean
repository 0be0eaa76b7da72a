import Verif.Vector.Lemmas
import Verif.Props.Elementwise

/-! Relations between vectors with the same structure. -/

namespace NA
open Dict
namespace Comp
variable {α β γ δ : Type}

mutual
/-- Specification: the two vectors have the same classes and the same component names, in the same
order, at every level, and scalars at the same place are related by `P`. -/
def Lift (P : α → β → Prop) : Comp α → Comp β → Prop
  | .leaf a, .leaf b => P a b
  | .node cls cs, .node cls' cs' => cls = cls' ∧ LiftL P cs cs'
  | .leaf _, .node _ _ => False
  | .node _ _, .leaf _ => False
/-- ... for all components. -/
def LiftL (P : α → β → Prop) : List (String × Comp α) → List (String × Comp β) → Prop
  | [], [] => True
  | (k, c) :: l, (k', c') :: l' => k = k' ∧ c.Lift P c' ∧ LiftL P l l'
  | [], _ :: _ => False
  | _ :: _, [] => False
end

theorem liftL_iff {P : α → β → Prop} {cs : List (String × Comp α)} {cs' : List (String × Comp β)} :
    LiftL P cs cs' ↔ List.Forall₂ (fun p p' => p.1 = p'.1 ∧ p.2.Lift P p'.2) cs cs' := by
  induction cs generalizing cs' with
  | nil => cases cs' <;> simp [LiftL]
  | cons p cs ih => cases cs' <;> simp [LiftL, ih, and_assoc]

theorem lift_trans {P : α → β → Prop} {Q : β → γ → Prop} : ∀ (x : Comp α) (y : Comp β) (z : Comp γ),
    x.Lift P y → y.Lift Q z → x.Lift (fun a c => ∃ b, P a b ∧ Q b c) z := by
  refine ind ?_ ?_
  · rintro a (b | _) (c | _) h1 h2 <;> simp only [Lift] at *
    exact ⟨b, h1, h2⟩
  · rintro cls cs ih (_ | ⟨cls', cs'⟩) (_ | ⟨cls'', cs''⟩) h1 h2 <;> simp only [Lift] at *
    refine ⟨h1.1.trans h2.1, ?_⟩
    have h1' := h1.2
    have h2' := h2.2
    clear h1 h2
    induction cs generalizing cs' cs'' with
    | nil => cases cs' <;> cases cs'' <;> simp_all [LiftL]
    | cons p cs ihl =>
      cases cs' with
      | nil => simp [LiftL] at h1'
      | cons p' cs' =>
        cases cs'' with
        | nil => simp [LiftL] at h2'
        | cons p'' cs'' =>
          simp only [LiftL] at *
          exact ⟨h1'.1.trans h2'.1, ih _ (by simp) _ _ h1'.2.1 h2'.2.1,
            ihl (fun q hq => ih q (by simp [hq])) _ _ h1'.2.2 h2'.2.2⟩

theorem lift_mono {P Q : α → β → Prop} (h : ∀ a b, P a b → Q a b) : ∀ (x : Comp α) (y : Comp β),
    x.Lift P y → x.Lift Q y := by
  refine ind ?_ ?_
  · rintro a (b | _) h1 <;> simp only [Lift] at *
    exact h _ _ h1
  · rintro cls cs ih (_ | ⟨cls', cs'⟩) h1 <;> simp only [Lift] at *
    refine ⟨h1.1, ?_⟩
    have h1' := h1.2
    clear h1
    induction cs generalizing cs' with
    | nil => cases cs' <;> simp_all [LiftL]
    | cons p cs ihl =>
      cases cs' with
      | nil => simp [LiftL] at h1'
      | cons p' cs' =>
        simp only [LiftL] at *
        exact ⟨h1'.1, ih _ (by simp) _ h1'.2.1, ihl (fun q hq => ih q (by simp [hq])) _ h1'.2.2⟩

/-! ### Scalars of a vector -/

mutual
/-- The scalars of a vector. -/
def leaves : Comp α → List α
  | .leaf a => [a]
  | .node _ cs => leavesL cs
/-- ... of all components. -/
def leavesL : List (String × Comp α) → List α
  | [] => []
  | (_, c) :: l => c.leaves ++ leavesL l
end

theorem leavesL_eq (cs : List (String × Comp α)) : leavesL cs = cs.flatMap (fun p => p.2.leaves) := by
  induction cs with
  | nil => rfl
  | cons p cs ih => simp [leavesL, ih]

theorem mem_leavesL {cs : List (String × Comp α)} {a : α} :
    a ∈ leavesL cs ↔ ∃ p ∈ cs, a ∈ p.2.leaves := by simp [leavesL_eq]

/-- Relating the scalars of related vectors. -/
theorem lift_leaves {P : α → β → Prop} : ∀ (x : Comp α) (y : Comp β), x.Lift P y →
    List.Forall₂ P x.leaves y.leaves := by
  refine ind ?_ ?_
  · rintro a (b | _) h1 <;> simp only [Lift] at *
    simpa [leaves] using h1
  · rintro cls cs ih (_ | ⟨cls', cs'⟩) h1 <;> simp only [Lift] at *
    have h1' := h1.2
    clear h1
    simp only [leaves]
    induction cs generalizing cs' with
    | nil => cases cs' <;> simp_all [LiftL, leavesL]
    | cons p cs ihl =>
      cases cs' with
      | nil => simp [LiftL] at h1'
      | cons p' cs' =>
        simp only [LiftL, leavesL] at *
        exact List.rel_append (ih _ (by simp) _ h1'.2.1) (ihl (fun q hq => ih q (by simp [hq])) _ h1'.2.2)

theorem lift_with {P : α → β → Prop} {Q : α → Prop} : ∀ (x : Comp α) (y : Comp β), (∀ a ∈ x.leaves, Q a) →
    x.Lift P y → x.Lift (fun a b => Q a ∧ P a b) y := by
  refine ind ?_ ?_
  · rintro a (b | _) hq h1 <;> simp only [Lift] at *
    exact ⟨hq a (by simp [leaves]), h1⟩
  · rintro cls cs ih (_ | ⟨cls', cs'⟩) hq h1 <;> simp only [Lift] at *
    refine ⟨h1.1, ?_⟩
    have h1' := h1.2
    clear h1
    simp only [leaves] at hq
    induction cs generalizing cs' with
    | nil => cases cs' <;> simp_all [LiftL]
    | cons p cs ihl =>
      cases cs' with
      | nil => simp [LiftL] at h1'
      | cons p' cs' =>
        simp only [LiftL, leavesL] at *
        exact ⟨h1'.1, ih _ (by simp) _ (fun a ha => hq a (by simp [ha])) h1'.2.1,
          ihl (fun q hq => ih q (by simp [hq])) _ (fun a ha => hq a (by simp [ha])) h1'.2.2⟩

/-- A scalar at a path. -/
theorem lift_leafAt {P : α → β → Prop} {x : Comp α} {y : Comp β} (h : x.Lift P y) (p : List String) :
    (∀ a, x.leafAt p = some a → ∃ b, y.leafAt p = some b ∧ P a b) ∧
    (x.leafAt p = none → y.leafAt p = none) := by
  induction p generalizing x y with
  | nil =>
    cases x <;> cases y <;> simp_all [Lift, leafAt]
  | cons k p ih =>
    cases x with
    | leaf a => cases y <;> simp_all [Lift, leafAt]
    | node cls cs =>
      cases y with
      | leaf b => simp [Lift] at h
      | node cls' cs' =>
        simp only [Lift, liftL_iff] at h
        have h2 := h.2
        clear h
        induction h2 with
        | nil => simp [leafAt, get?]
        | @cons q q' l l' hq hl ih2 =>
          obtain ⟨k1, c1⟩ := q
          obtain ⟨k2, c2⟩ := q'
          obtain ⟨hk, hc⟩ := hq
          simp only at hk hc
          subst hk
          simp only [leafAt, get?_cons] at ih2 ⊢
          by_cases hkk : k1 = k
          · simp only [hkk, if_true]
            exact ih hc
          · simp only [hkk, if_false]
            exact ih2

theorem leafAt_mem_leaves {c : Comp α} {p : List String} {a : α} (h : c.leafAt p = some a) :
    a ∈ c.leaves := by
  induction p generalizing c with
  | nil => cases c <;> simp_all [leafAt, leaves]
  | cons k p ih =>
    cases c with
    | leaf b => simp [leafAt] at h
    | node cls cs =>
      simp only [leafAt] at h
      cases hg : get? cs k with
      | none => rw [hg] at h; simp at h
      | some c' =>
        rw [hg] at h
        simp only [leaves]
        exact mem_leavesL.2 ⟨_, mem_of_get? hg, ih h⟩

/-! ### Operations with one argument -/

theorem mapM_lift (f : α → R β) : ∀ (x : Comp α) (y : Comp β),
    x.mapM f = .ok y ↔ x.Lift (fun a b => f a = .ok b) y := by
  refine ind ?_ ?_
  · rintro a (b | _) <;> simp only [mapM, Lift, bind, Except.bind] <;> cases f a <;> simp
  · rintro cls cs ih y
    have key : ∀ cs', mapML f cs = .ok cs' ↔ LiftL (fun a b => f a = .ok b) cs cs' := by
      clear y
      induction cs with
      | nil => intro cs'; cases cs' <;> simp [mapML, LiftL]
      | cons p cs ihl =>
        intro cs'
        obtain ⟨k, c⟩ := p
        have ihl' := ihl (fun q hq => ih q (by simp [hq]))
        have ihc := ih (k, c) (by simp)
        simp only [mapML, bind, Except.bind]
        cases hc : c.mapM f with
        | error e =>
          cases cs' with
          | nil => simp [LiftL]
          | cons p' cs' =>
            simp only [LiftL]
            constructor
            · intro h; cases h
            · intro h; rw [← ihc, hc] at h; cases h.2.1
        | ok c' =>
          simp only
          cases hl : mapML f cs with
          | error e =>
            cases cs' with
            | nil => simp [LiftL]
            | cons p' cs' =>
              simp only [LiftL]
              constructor
              · intro h; cases h
              · intro h; rw [← ihl', hl] at h; cases h.2.2
          | ok l' =>
            cases cs' with
            | nil => simp [LiftL]
            | cons p' cs' =>
              obtain ⟨k', c''⟩ := p'
              simp only [LiftL, ← ihl', ← ihc, hc, hl, Except.ok.injEq, List.cons.injEq, Prod.mk.injEq]
              tauto
    simp only [mapM, bind, Except.bind]
    cases hl : mapML f cs with
    | error e =>
      cases y with
      | leaf b => simp [Lift]
      | node cls' cs' =>
        simp only [Lift, ← key, hl]
        simp
    | ok l' =>
      cases y with
      | leaf b => simp [Lift]
      | node cls' cs' =>
        simp only [Lift, ← key, hl]
        simp

theorem mapM_isOk' (f : α → R β) : ∀ (x : Comp α), (∀ a ∈ x.leaves, ∃ b, f a = .ok b) →
    ∃ y, x.mapM f = .ok y := by
  refine ind ?_ ?_
  · intro a h
    obtain ⟨b, hb⟩ := h a (by simp [leaves])
    exact ⟨.leaf b, by simp [mapM, hb, bind, Except.bind]⟩
  · intro cls cs ih h
    have key : ∃ l, mapML f cs = .ok l := by
      induction cs with
      | nil => exact ⟨[], rfl⟩
      | cons p cs ihl =>
        obtain ⟨k, c⟩ := p
        obtain ⟨l, hl⟩ := ihl (fun q hq => ih q (by simp [hq]))
          (fun a ha => h a (by simp only [leaves, leavesL] at ha ⊢; simp [ha]))
        obtain ⟨c', hc⟩ := ih (k, c) (by simp) (fun a ha => h a (by
          simp only [leaves, leavesL] at ha ⊢; simp [ha]))
        exact ⟨(k, c') :: l, by simp [mapML, hc, hl, bind, Except.bind]⟩
    obtain ⟨l, hl⟩ := key
    exact ⟨.node cls l, by simp [mapM, hl, bind, Except.bind]⟩

/-! ### Shapes -/

theorem shapes_ok {cs : List (String × Comp (SA α))} {ss : List Shape} :
    shapes cs = .ok ss ↔ List.Forall₂ (fun p s => p.2.shape = .ok s) cs ss := by
  induction cs generalizing ss with
  | nil => cases ss <;> simp [shapes]
  | cons p cs ih =>
    obtain ⟨k, c⟩ := p
    simp only [shapes, bind, Except.bind]
    cases hc : c.shape with
    | error e => cases ss <;> simp [hc]
    | ok s =>
      simp only
      cases hl : shapes cs with
      | error e =>
        cases ss with
        | nil => simp
        | cons s' ss =>
          simp only [List.forall₂_cons, ← ih, hl]
          simp
      | ok l =>
        cases ss with
        | nil => simp
        | cons s' ss =>
          simp only [List.forall₂_cons, ← ih, hl, hc, Except.ok.injEq, List.cons.injEq]

theorem sameOutcome_trans {r1 r2 r3 : R Shape} (h : SameOutcome r1 r2) (h' : SameOutcome r2 r3) :
    SameOutcome r1 r3 := by
  cases r1 <;> cases r2 <;> cases r3 <;> simp only [SameOutcome] at *
  · exact h.trans h'
  · exact fun x => (h x).trans (h' x)

theorem sameOutcome_symm {r1 r2 : R Shape} (h : SameOutcome r1 r2) : SameOutcome r2 r1 := by
  cases r1 <;> cases r2 <;> simp only [SameOutcome] at *
  · exact h.symm
  · exact fun x => (h x).symm

/-- The outcome of broadcasting a list of shapes does not change when groups of them are broadcast first. -/
theorem broadcast_groups {gs : List (List Shape)} {ss : List Shape}
    (h : List.Forall₂ (fun g s => ∃ s', broadcastShapes g = .ok s' ∧ Same s s' ∧ WF s) gs ss)
    (hw : ∀ g ∈ gs, ∀ s ∈ g, WF s) :
    ∀ pre : List Shape, (∀ s ∈ pre, WF s) →
      SameOutcome (broadcastShapes (pre ++ ss)) (broadcastShapes (pre ++ gs.flatten)) := by
  induction h with
  | nil => intro pre hp; simpa using C02_order_and_repetition _ _ hp (fun _ => Iff.rfl)
  | @cons g s gs ss hg hrest ih =>
    intro pre hp
    obtain ⟨s', hg1, hg2, hsw⟩ := hg
    have hgw : ∀ t ∈ g, WF t := hw g (by simp)
    have hs'w : WF s' := (broadcastShapes_joinOf hgw hg1).1
    have hw' : ∀ g' ∈ gs, ∀ t ∈ g', WF t := fun g' hg' => hw g' (by simp [hg'])
    have hpw : ∀ t ∈ pre ++ g, WF t := by
      intro t ht
      rcases List.mem_append.1 ht with h | h
      · exact hp t h
      · exact hgw t h
    have h1 := ih hw' (pre ++ g) hpw
    have hssw : ∀ t ∈ ss, WF t := by
      intro t ht
      obtain ⟨i, hi, rfl⟩ := List.mem_iff_getElem.1 ht
      have hl := hrest.length_eq
      obtain ⟨_, _, _, h3⟩ := hrest.get (i := i) (by omega) hi
      exact h3
    have h2 := C02_grouping pre g ss (by
      intro t ht
      rcases List.mem_append.1 ht with h | h
      · exact hpw t h
      · exact hssw t h)
    rw [hg1] at h2
    have h3 : SameOutcome (broadcastShapes (pre ++ s :: ss)) (broadcastShapes (pre ++ [s'] ++ ss)) := by
      refine broadcastShapes_sameOutcome_of_sizes _ _ ?_ ?_ ?_
      · intro t ht
        simp only [List.mem_append, List.mem_cons] at ht
        rcases ht with h | rfl | h
        · exact hp t h
        · exact hsw
        · exact hssw t h
      · intro t ht
        simp only [List.mem_append, List.mem_cons, List.not_mem_nil, or_false] at ht
        rcases ht with (h | rfl) | h
        · exact hp t h
        · exact hs'w
        · exact hssw t h
      · intro ax n
        have := hg2 ax
        simp only [HasSize, List.mem_append, List.mem_cons, List.not_mem_nil, or_false, or_and_right,
          exists_or, exists_eq_left, this, or_assoc]
    rw [List.flatten_cons, ← List.append_assoc]
    exact sameOutcome_trans (sameOutcome_trans h3 h2) h1

/-- Every scalar of the vector is a genuine array. -/
def WFLeaves (c : Comp (SA α)) : Prop := ∀ a ∈ c.leaves, a.WF

theorem WFLeaves.shapes {c : Comp (SA α)} (h : c.WFLeaves) : ∀ s ∈ c.leaves.map SA.shape, WF s := by
  intro s hs
  obtain ⟨a, ha, rfl⟩ := List.mem_map.1 hs
  exact SA.wf_shape (h a ha)

theorem shape_wf : ∀ (c : Comp (SA α)), c.WFLeaves → ∀ s, c.shape = .ok s → WF s := by
  refine ind ?_ ?_
  · intro a h s hs
    simp only [shape, Except.ok.injEq] at hs
    rw [← hs]
    exact SA.wf_shape (h a (by simp [leaves]))
  · intro cls cs ih h s hs
    simp only [shape, bind, Except.bind] at hs
    cases hsh : Comp.shapes cs with
    | error e => rw [hsh] at hs; simp at hs
    | ok ss =>
      rw [hsh] at hs
      simp only at hs
      refine (broadcastShapes_joinOf ?_ hs).1
      intro t ht
      rw [shapes_ok] at hsh
      obtain ⟨i, hi, rfl⟩ := List.mem_iff_getElem.1 ht
      have hl := hsh.length_eq
      have h3 := hsh.get (i := i) (by omega) hi
      refine ih _ (List.getElem_mem (by omega)) ?_ _ h3
      intro a ha
      exact h a (by simp only [leaves]; exact mem_leavesL.2 ⟨_, List.getElem_mem (by omega), ha⟩)

theorem shapes_error {cs : List (String × Comp (SA α))} {e : Err} (h : shapes cs = .error e) :
    ∃ p ∈ cs, p.2.shape = .error e := by
  induction cs with
  | nil => simp [shapes] at h
  | cons p cs ih =>
    obtain ⟨k, c⟩ := p
    simp only [shapes, bind, Except.bind] at h
    cases hc : c.shape with
    | error e' =>
      rw [hc] at h
      exact ⟨(k, c), by simp, by simpa [hc] using h⟩
    | ok s =>
      rw [hc] at h
      simp only at h
      cases hl : shapes cs with
      | error e' =>
        rw [hl] at h
        obtain ⟨p, hp, he⟩ := ih (by rw [hl]; simpa using h)
        exact ⟨p, by simp [hp], he⟩
      | ok l => rw [hl] at h; simp at h

theorem broadcast_single {s : Shape} (hw : WF s) : ∃ r, broadcastShapes [s] = .ok r ∧ Same s r := by
  cases hb : broadcastShapes [s] with
  | error e =>
    obtain ⟨ax, m, n, ⟨s1, hs, hm⟩, ⟨s', hs', hn⟩, hne, _⟩ :=
      (C01_broadcast_shapes_error_iff [s] (by simpa using hw)).1 ⟨e, hb⟩
    simp only [List.mem_cons, List.not_mem_nil, or_false] at hs hs'
    subst hs hs'
    rw [hm] at hn
    cases hn
    exact absurd rfl hne
  | ok r =>
    refine ⟨r, rfl, fun ax => ?_⟩
    obtain ⟨_, h1, h2⟩ := C01_broadcast_shapes_ok [s] (by simpa using hw) r hb
    cases hg : get? r ax with
    | none =>
      rw [get?_eq_none] at hg ⊢
      intro hx
      exact hg ((h1 ax).2 ⟨s, by simp, hx⟩)
    | some n =>
      obtain ⟨⟨s1, hs, hm⟩, _⟩ := h2 ax n hg
      simp only [List.mem_cons, List.not_mem_nil, or_false] at hs
      rw [← hs, hm]

/-- The shape of a (nested) vector is the broadcast of the shapes of its scalars. -/
theorem shape_leaves : ∀ (c : Comp (SA α)), c.WFLeaves →
    SameOutcome c.shape (broadcastShapes (c.leaves.map SA.shape)) := by
  refine ind ?_ ?_
  · intro a h
    simp only [shape, leaves, List.map_cons, List.map_nil]
    have hw := SA.wf_shape (h a (by simp [leaves]))
    obtain ⟨r, hr, hs⟩ := broadcast_single hw
    rw [hr]
    exact hs
  · intro cls cs ih h
    have hL : ∀ p ∈ cs, p.2.WFLeaves := fun p hp a ha => h a (by
      simp only [leaves]; exact mem_leavesL.2 ⟨p, hp, ha⟩)
    simp only [shape, bind, Except.bind]
    cases hsh : Comp.shapes cs with
    | error e =>
      obtain ⟨p, hp, he⟩ := shapes_error hsh
      have h1 := ih p hp (hL p hp)
      rw [he] at h1
      cases hb : broadcastShapes (p.2.leaves.map SA.shape) with
      | ok s => rw [hb] at h1; simp [SameOutcome] at h1
      | error e' =>
        rw [hb] at h1
        simp only [SameOutcome] at h1
        subst h1
        have hk := C01_broadcast_shapes_error_kind _ (hL p hp).shapes _ hb
        obtain ⟨ax, m, n, ⟨s, hs, hm⟩, ⟨s', hs', hn⟩, hne⟩ :=
          (C01_broadcast_shapes_error_iff _ (hL p hp).shapes).1 ⟨_, hb⟩
        have hsub : ∀ t ∈ p.2.leaves.map SA.shape, t ∈ (Comp.node cls cs).leaves.map SA.shape := by
          intro t ht
          obtain ⟨a, ha, rfl⟩ := List.mem_map.1 ht
          exact List.mem_map.2 ⟨a, by simp only [leaves]; exact mem_leavesL.2 ⟨p, hp, ha⟩, rfl⟩
        obtain ⟨e', he'⟩ := (C01_broadcast_shapes_error_iff _ h.shapes).2
          ⟨ax, m, n, ⟨s, hsub s hs, hm⟩, ⟨s', hsub s' hs', hn⟩, hne⟩
        rw [he', C01_broadcast_shapes_error_kind _ h.shapes _ he', hk]
        simp [SameOutcome]
    | ok ss =>
      simp only
      rw [shapes_ok] at hsh
      have := broadcast_groups (gs := cs.map (fun p => p.2.leaves.map SA.shape)) (ss := ss) ?_ ?_ [] (by simp)
      · have hfl : (cs.map (fun p => p.2.leaves.map SA.shape)).flatten = (Comp.node cls cs).leaves.map SA.shape := by
          simp only [leaves, leavesL_eq, List.flatMap, List.map_flatten, List.map_map]
          rfl
        rw [hfl] at this
        simpa using this
      · rw [List.forall₂_map_left_iff]
        refine (List.forall₂_iff_get.2 ⟨hsh.length_eq, fun i hi hi' => ?_⟩)
        have h3 := hsh.get (i := i) hi hi'
        have hm : cs.get ⟨i, hi⟩ ∈ cs := List.get_mem _ _
        have h1 := ih _ hm (hL _ hm)
        rw [h3] at h1
        cases hb : broadcastShapes ((cs.get ⟨i, hi⟩).2.leaves.map SA.shape) with
        | error e => rw [hb] at h1; simp [SameOutcome] at h1
        | ok s' =>
          rw [hb] at h1
          exact ⟨s', rfl, h1, shape_wf _ (hL _ hm) _ h3⟩
      · intro g hg t ht
        obtain ⟨p, hp, rfl⟩ := List.mem_map.1 hg
        exact (hL p hp).shapes t ht

end Comp
end NA
