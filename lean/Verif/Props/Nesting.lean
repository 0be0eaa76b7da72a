import Verif.Props.Packing
import Verif.Props.Vectors

/-!
# C30: `na.getitem` and `na.shape` of nested structures

Specification: the leaves of a structure in the order in which they are met, and a relation between structures with the same
keys, the same other values and the same containers (except that a `NamedTuple` comes back as a `tuple`, as the documentation
of `na.getitem` says).
-/

namespace NA
open Dict Comp

variable {κ L V α : Type}

/-! ### Specification vocabulary -/

mutual
/-- The arrays of a structure. -/
def Nest.arrays : Nest κ L V → List L
  | .arr a => [a]
  | .node _ cs => Nest.arraysL cs
  | .other _ => []
/-- ... of the elements -/
def Nest.arraysL : List (String × Nest κ L V) → List L
  | [] => []
  | (_, c) :: l => c.arrays ++ Nest.arraysL l
end

/-- The container `b'` which is built from the container `b`: the same, or a tuple for a `NamedTuple`. -/
def Box.Rebuilt (b b' : Box) : Prop :=
  (∃ cls, b = .namedTuple cls ∧ b' = .tuple) ∨ ((∀ cls, b ≠ .namedTuple cls) ∧ b' = b)

mutual
/-- Structures with the same nesting, keys and other values, and related arrays at the same places. -/
def Nest.Indexed (r : L → L → Prop) : Nest Box L V → Nest Box L V → Prop
  | .arr a, .arr b => r a b
  | .node k cs, .node k' cs' => k.Rebuilt k' ∧ Nest.IndexedL r cs cs'
  | .other x, .other y => x = y
  | _, _ => False
/-- ... for the elements -/
def Nest.IndexedL (r : L → L → Prop) : List (String × Nest Box L V) → List (String × Nest Box L V) → Prop
  | [], [] => True
  | (k, c) :: l, (k', c') :: l' => k = k' ∧ c.Indexed r c' ∧ Nest.IndexedL r l l'
  | _, _ => False
end

/-! ### Helper lemmas -/

theorem Nest.rebuilt_iff (b b' : Box) : b.Rebuilt b' ↔ b' = Nest.rebuilt b := by
  cases b <;> simp [Box.Rebuilt, Nest.rebuilt]

mutual
theorem Nest.getitem_iff (f : L → R L) : ∀ (v w : Nest Box L V),
    v.getitem f = .ok w ↔ v.Indexed (fun a b => f a = .ok b) w
  | .arr a, w => by
    cases h : f a <;> cases w <;> simp [Nest.getitem, Nest.Indexed, h, bind, Except.bind]
  | .other x, w => by
    cases w <;> simp [Nest.getitem, Nest.Indexed]
  | .node b cs, w => by
    cases w with
    | arr a => cases h : Nest.getitemL f cs <;> simp [Nest.getitem, Nest.Indexed, h, bind, Except.bind]
    | other a => cases h : Nest.getitemL f cs <;> simp [Nest.getitem, Nest.Indexed, h, bind, Except.bind]
    | node b' cs' =>
      have ih := Nest.getitemL_iff f cs cs'
      simp only [Nest.Indexed, Nest.rebuilt_iff, ← ih, Nest.getitem, bind, Except.bind]
      cases h : Nest.getitemL f cs
      · simp
      · simp [eq_comm]
theorem Nest.getitemL_iff (f : L → R L) : ∀ (cs ds : List (String × Nest Box L V)),
    Nest.getitemL f cs = .ok ds ↔ Nest.IndexedL (fun a b => f a = .ok b) cs ds
  | [], ds => by cases ds <;> simp [Nest.getitemL, Nest.IndexedL]
  | (k, c) :: l, ds => by
    cases ds with
    | nil =>
      cases h : c.getitem f <;> cases h' : Nest.getitemL f l <;>
        simp [Nest.getitemL, Nest.IndexedL, bind, Except.bind, h, h']
    | cons d ds =>
      obtain ⟨k', c'⟩ := d
      have ih := Nest.getitem_iff f c c'
      have ih' := Nest.getitemL_iff f l ds
      simp only [Nest.IndexedL, ← ih, ← ih', Nest.getitemL, bind, Except.bind]
      cases h : c.getitem f <;> cases h' : Nest.getitemL f l <;> simp [and_assoc]
end

mutual
theorem Nest.getitem_error_iff (f : L → R L) (e : Err) : ∀ v : Nest Box L V,
    v.getitem f = .error e ↔ ∃ l1 a l2, v.arrays = l1 ++ a :: l2 ∧ (∀ b ∈ l1, ∃ c, f b = .ok c) ∧ f a = .error e
  | .arr a => by
    constructor
    · intro h
      refine ⟨[], a, [], rfl, by simp, ?_⟩
      cases h' : f a <;> simp [Nest.getitem, bind, Except.bind, h'] at h ⊢
      exact h
    · rintro ⟨l1, a', l2, h1, h2, h3⟩
      cases l1 with
      | nil => simp only [Nest.arrays, List.nil_append, List.cons.injEq] at h1
               obtain ⟨rfl, _⟩ := h1
               simp [Nest.getitem, bind, Except.bind, h3]
      | cons x l1 => simp [Nest.arrays] at h1
  | .other x => by simp [Nest.getitem, Nest.arrays]
  | .node b cs => by
    have ih := Nest.getitemL_error_iff f e cs
    simp only [Nest.arrays, ← ih, Nest.getitem, bind, Except.bind]
    cases h : Nest.getitemL f cs <;> simp
theorem Nest.getitemL_error_iff (f : L → R L) (e : Err) : ∀ cs : List (String × Nest Box L V),
    Nest.getitemL f cs = .error e ↔
      ∃ l1 a l2, Nest.arraysL cs = l1 ++ a :: l2 ∧ (∀ b ∈ l1, ∃ c, f b = .ok c) ∧ f a = .error e
  | [] => by simp [Nest.getitemL, Nest.arraysL]
  | (k, c) :: l => by
    have ih := Nest.getitem_error_iff f e c
    have ih' := Nest.getitemL_error_iff f e l
    have key : ∀ w, c.getitem f = .ok w → ∀ b ∈ c.arrays, ∃ d, f b = .ok d := by
      intro w hw b hb
      cases hfb : f b with
      | ok d => exact ⟨d, rfl⟩
      | error e' =>
        exfalso
        have : ∃ e'' l1 a l2, c.arrays = l1 ++ a :: l2 ∧ (∀ b ∈ l1, ∃ c, f b = .ok c) ∧ f a = .error e'' := by
          generalize c.arrays = as at hb
          clear * - hb hfb
          induction as with
          | nil => simp at hb
          | cons x xs ihx =>
            cases hx : f x with
            | error e2 => exact ⟨e2, [], x, xs, rfl, by simp, hx⟩
            | ok y =>
              simp only [List.mem_cons] at hb
              rcases hb with rfl | hb
              · rw [hfb] at hx; cases hx
              · obtain ⟨e2, l1, a, l2, h1, h2, h3⟩ := ihx hb
                refine ⟨e2, x :: l1, a, l2, by simp [h1], ?_, h3⟩
                intro b hb
                simp only [List.mem_cons] at hb
                rcases hb with rfl | hb
                · exact ⟨y, hx⟩
                · exact h2 b hb
        obtain ⟨e'', h⟩ := this
        rw [← Nest.getitem_error_iff f e'' c, hw] at h
        cases h
    simp only [Nest.getitemL, Nest.arraysL, bind, Except.bind]
    constructor
    · intro h
      cases hc : c.getitem f with
      | error e' =>
        rw [hc] at h
        simp only [Except.error.injEq] at h
        subst h
        obtain ⟨l1, a, l2, h1, h2, h3⟩ := ih.1 hc
        exact ⟨l1, a, l2 ++ Nest.arraysL l, by simp [h1], h2, h3⟩
      | ok w =>
        rw [hc] at h
        have hl : Nest.getitemL f l = .error e := by
          cases hl : Nest.getitemL f l <;> rw [hl] at h <;> simp at h
          rw [h]
        obtain ⟨l1, a, l2, h1, h2, h3⟩ := ih'.1 hl
        refine ⟨c.arrays ++ l1, a, l2, by simp [h1], ?_, h3⟩
        intro b hb
        rcases List.mem_append.1 hb with hb | hb
        · exact key w hc b hb
        · exact h2 b hb
    · rintro ⟨l1, a, l2, h1, h2, h3⟩
      rcases List.append_eq_append_iff.1 h1 with ⟨m, hm1, hm2⟩ | ⟨m, hm1, hm2⟩
      · -- the failing array is in the rest
        have hc : ∃ w, c.getitem f = .ok w := by
          cases hc : c.getitem f with
          | ok w => exact ⟨w, rfl⟩
          | error e' =>
            obtain ⟨l1', a', l2', h1', h2', h3'⟩ := (Nest.getitem_error_iff f e' c).1 hc
            obtain ⟨d, hd⟩ := h2 a' (by rw [hm1, h1']; simp)
            rw [hd] at h3'
            cases h3'
        obtain ⟨w, hw⟩ := hc
        rw [hw]
        have : Nest.getitemL f l = .error e :=
          ih'.2 ⟨m, a, l2, hm2, fun b hb => h2 b (by rw [hm1]; simp [hb]), h3⟩
        simp [this]
      · cases m with
        | nil =>
          simp only [List.nil_append] at hm2
          have hc : ∃ w, c.getitem f = .ok w := by
            cases hc : c.getitem f with
            | ok w => exact ⟨w, rfl⟩
            | error e' =>
              obtain ⟨l1', a', l2', h1', h2', h3'⟩ := (Nest.getitem_error_iff f e' c).1 hc
              obtain ⟨d, hd⟩ := h2 a' (by simp at hm1; rw [← hm1, h1']; simp)
              rw [hd] at h3'
              cases h3'
          obtain ⟨w, hw⟩ := hc
          rw [hw]
          have : Nest.getitemL f l = .error e := ih'.2 ⟨[], a, l2, by simp [← hm2], by simp, h3⟩
          simp [this]
        | cons x m =>
          simp only [List.cons_append, List.cons.injEq] at hm2
          obtain ⟨rfl, hm2⟩ := hm2
          rw [ih.2 ⟨l1, a, m, hm1, h2, h3⟩]
end

/-- `na.getitem(value, item)` succeeds exactly if `item` can be applied to every array of the structure; then the result is
the same structure (same nesting, same keys, same other values) with every array replaced by the indexed array.  It raises
the exception of the first array which cannot be indexed.  For all finite nestings. -/
theorem C30_getitem (item : Dict IndexVal) (v : Nest Box (Comp (SA α)) V) :
    (∀ w, v.getitem (Comp.getitem item) = .ok w ↔ v.Indexed (fun a b => a.getitem item = .ok b) w) ∧
    (∀ e, v.getitem (Comp.getitem item) = .error e ↔
      ∃ l1 a l2, v.arrays = l1 ++ a :: l2 ∧ (∀ b ∈ l1, ∃ c, b.getitem item = .ok c) ∧ a.getitem item = .error e) :=
  ⟨fun w => Nest.getitem_iff _ v w, fun e => Nest.getitem_error_iff _ e v⟩

/-! ### `na.shape` -/

/-- The shapes of all scalars which occur in a structure. -/
def Nest.scalarShapes (v : Nest Box (Comp (SA α)) V) : List Shape :=
  (v.arrays.flatMap Comp.leaves).map SA.shape

theorem Nest.mem_arraysL {cs : List (String × Nest κ L V)} {a : L} :
    a ∈ Nest.arraysL cs ↔ ∃ p ∈ cs, a ∈ p.2.arrays := by
  induction cs with
  | nil => simp [Nest.arraysL]
  | cons p cs ih => obtain ⟨k, c⟩ := p; simp [Nest.arraysL, ih]

/-- Every scalar in the structure is a genuine array. -/
def Nest.WF (v : Nest Box (Comp (SA α)) V) : Prop := ∀ c ∈ v.arrays, c.WFLeaves

theorem Nest.WF.shapes {v : Nest Box (Comp (SA α)) V} (h : v.WF) : ∀ s ∈ v.scalarShapes, Dict.WF s := by
  intro s hs
  obtain ⟨a, ha, rfl⟩ := List.mem_map.1 hs
  obtain ⟨c, hc, ha⟩ := List.mem_flatMap.1 ha
  exact SA.wf_shape (h c hc a ha)

theorem Nest.arraysL_eq (cs : List (String × Nest κ L V)) :
    Nest.arraysL cs = (cs.map (fun p => p.2.arrays)).flatten := by
  induction cs with
  | nil => rfl
  | cons p cs ih => obtain ⟨k, c⟩ := p; simp [Nest.arraysL, ih]

mutual
theorem Nest.shape_spec : ∀ v : Nest Box (Comp (SA α)) V, v.WF →
    SameOutcome (v.shape Comp.shape) (broadcastShapes v.scalarShapes) ∧
      ∀ s, v.shape Comp.shape = .ok s → Dict.WF s
  | .arr c, h => by
    have hc : c.WFLeaves := h c (by simp [Nest.arrays])
    refine ⟨?_, fun s hs => Comp.shape_wf c hc s hs⟩
    simpa [Nest.scalarShapes, Nest.arrays, Nest.shape] using Comp.shape_leaves c hc
  | .other x, h => by
    refine ⟨?_, ?_⟩
    · have := C02_order_and_repetition [] [] (by simp) (fun _ => Iff.rfl)
      simp only [Nest.scalarShapes, Nest.arrays, Nest.shape, List.flatMap_nil, List.map_nil]
      have h2 : broadcastShapes [] = .ok [] := by rfl
      rw [h2]
      exact fun _ => rfl
    · intro s hs
      simp only [Nest.shape, Except.ok.injEq] at hs
      subst hs
      exact List.nodup_nil
  | .node b cs, h => by
    have hL : ∀ p ∈ cs, p.2.WF := fun p hp c hc => h c (by
      simp only [Nest.arrays]; exact Nest.mem_arraysL.2 ⟨p, hp, hc⟩)
    have ih := Nest.shapes_spec cs hL
    have hfl : (cs.map (fun p => p.2.scalarShapes)).flatten = (Nest.node b cs).scalarShapes := by
      simp only [Nest.scalarShapes, Nest.arrays, Nest.arraysL_eq, List.flatMap, List.map_flatten, List.map_map,
        List.flatten_flatten]
      simp [Function.comp_def, List.map_flatten]
    have hw : ∀ g ∈ cs.map (fun p => p.2.scalarShapes), ∀ s ∈ g, Dict.WF s := by
      intro g hg t ht
      obtain ⟨p, hp, rfl⟩ := List.mem_map.1 hg
      exact (hL p hp).shapes t ht
    cases hsh : Nest.shapes Comp.shape cs with
    | error e =>
      rw [hsh] at ih
      have hv : (Nest.node b cs).shape Comp.shape = .error e := by
        simp only [Nest.shape, bind, Except.bind, hsh]
      rw [hv, ← hfl, ih]
      exact ⟨by simp [SameOutcome], by simp⟩
    | ok ss =>
      rw [hsh] at ih
      have hv : (Nest.node b cs).shape Comp.shape = broadcastShapes ss := by
        simp only [Nest.shape, bind, Except.bind, hsh]
      have hg := broadcast_groups ih hw [] (by simp)
      rw [hv, ← hfl]
      refine ⟨by simpa using hg, fun s hs => ?_⟩
      have hss : ∀ t ∈ ss, Dict.WF t := by
        generalize cs.map (fun p => p.2.scalarShapes) = gs at ih
        clear * - ih
        induction ih with
        | nil => simp
        | cons hh _ ih =>
          intro t ht
          rcases List.mem_cons.1 ht with rfl | ht
          · exact hh.choose_spec.2.2
          · exact ih t ht
      exact (broadcastShapes_joinOf hss hs).1
theorem Nest.shapes_spec : ∀ cs : List (String × Nest Box (Comp (SA α)) V), (∀ p ∈ cs, p.2.WF) →
    match Nest.shapes Comp.shape cs with
    | .ok ss => List.Forall₂ (fun g s => ∃ s', broadcastShapes g = .ok s' ∧ Same s s' ∧ Dict.WF s)
        (cs.map (fun p => p.2.scalarShapes)) ss
    | .error e => broadcastShapes (cs.map (fun p => p.2.scalarShapes)).flatten = .error e
  | [], _ => by simp [Nest.shapes]
  | (k, c) :: l, h => by
    have hc : c.WF := h (k, c) (by simp)
    have hl : ∀ p ∈ l, p.2.WF := fun p hp => h p (by simp [hp])
    have ih := Nest.shape_spec c hc
    have ih' := Nest.shapes_spec l hl
    have hw : ∀ s ∈ (((k, c) :: l).map (fun p => p.2.scalarShapes)).flatten, Dict.WF s := by
      intro s hs
      obtain ⟨g, hg, hs⟩ := List.mem_flatten.1 hs
      obtain ⟨p, hp, rfl⟩ := List.mem_map.1 hg
      exact (h p hp).shapes s hs
    have hwl : ∀ s ∈ (l.map (fun p => p.2.scalarShapes)).flatten, Dict.WF s := by
      intro s hs
      exact hw s (by simp only [List.map_cons, List.flatten_cons, List.mem_append]; exact .inr hs)
    simp only [Nest.shapes, bind, Except.bind]
    cases hs : c.shape Comp.shape with
    | error e =>
      rw [hs] at ih
      cases hb : broadcastShapes c.scalarShapes with
      | ok s => rw [hb] at ih; simp [SameOutcome] at ih
      | error e' =>
        rw [hb] at ih
        have := ih.1
        simp only [SameOutcome] at this
        subst this
        exact error_append hc.shapes hw (fun s hs => by simp [hs]) hb
    | ok s =>
      rw [hs] at ih
      cases hb : broadcastShapes c.scalarShapes with
      | error e => rw [hb] at ih; simp [SameOutcome] at ih
      | ok s' =>
        rw [hb] at ih
        cases hss : Nest.shapes Comp.shape l with
        | error e =>
          rw [hss] at ih'
          exact error_append hwl hw (fun s hs => by
            simp only [List.map_cons, List.flatten_cons, List.mem_append]; exact .inr hs) ih'
        | ok ss =>
          rw [hss] at ih'
          exact .cons ⟨s', hb, ih.1, ih.2 s rfl⟩ ih'
end

/-- `na.shape(value)` is the broadcast of the shapes of all scalars which occur in the structure, at any depth: the same axes
with the same lengths, and it raises the same exception exactly if these shapes cannot be broadcast.  For all finite nestings. -/
theorem C30_shape (v : Nest Box (Comp (SA α)) V) (hv : v.WF) :
    SameOutcome (v.shape Comp.shape) (broadcastShapes v.scalarShapes) :=
  (Nest.shape_spec v hv).1

/-! ### Non-vacuity -/

namespace NestEx

/-- A dictionary with an array along `x`, a list with a vector along `y` and a number. -/
def value : Nest Box (Comp (SA Int)) String :=
  .node .dict [
    ("a", .arr (.leaf ⟨["x"], ⟨[3], fun i => i.headD 0⟩⟩)),
    ("b", .node (.namedTuple "Pair") [
      ("", .arr (.node "Cartesian2d" [
        ("x", .leaf ⟨["y"], ⟨[2], fun i => 10 * i.headD 0⟩⟩),
        ("y", .leaf ⟨[], ⟨[], fun _ => 7⟩⟩)])),
      ("", .other "text")])]

example : value.WF := by
  intro c hc a ha
  simp only [value, Nest.arrays, Nest.arraysL, List.append_nil, List.cons_append, List.nil_append, List.mem_cons,
    List.not_mem_nil, or_false] at hc
  rcases hc with rfl | rfl <;> simp [Comp.leaves, Comp.leavesL] at ha
  · subst ha; exact ⟨rfl, by decide⟩
  · rcases ha with rfl | rfl <;> exact ⟨rfl, by decide⟩

example : (value.shape Comp.shape).toOption = some [("x", 3), ("y", 2)] := by decide

example : (value.getitem (Comp.getitem [("x", .int 1)])).toOption.isSome = true := by decide

example : (match value.getitem (Comp.getitem [("x", .int 5)]) with | .error e => e == .indexError | _ => false) = true := by
  decide

end NestEx
end NA
