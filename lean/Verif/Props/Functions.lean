import Verif.Function.Basic
import Verif.Props.Elementwise
import Verif.Props.Reductions

/-!
# Axes of function arrays (C52) and their elementwise operations (C51)
-/

namespace NA
open Dict
open SA (FitsIn InRange)

namespace FA
variable {α β γ : Type}

/-! ### C52 -/

/-- The inputs are the vertices of the cells of the outputs along this axis: one more than cells. -/
def IsVertex (i o : Shape) (ax : String) : Prop := ∃ n, get? i ax = some (n + 1) ∧ get? o ax = some n

/-- The sizes neither match, nor broadcast, nor are those of vertices and cells. -/
def Mismatch (i o : Shape) (ax : String) : Prop :=
  ∃ m n, get? i ax = some m ∧ get? o ax = some n ∧ m ≠ n ∧ m ≠ n + 1 ∧ m ≠ 1 ∧ n ≠ 1

theorem mem_axesOf {i o : Shape} (ho : WF o) (ax : String) : ax ∈ axesOf i o ↔ ax ∈ keys i ∨ ax ∈ keys o := by
  unfold axesOf
  rw [keys_union _ _ ho]
  simp only [List.mem_append, List.mem_filter, decide_eq_true_eq]
  by_cases h : ax ∈ keys i <;> simp [h]

theorem nodup_axesOf {i o : Shape} (hi : WF i) : (axesOf i o).Nodup := wf_union hi o

theorem centerStep_main (i o : Shape) (acc : List String) (ax : String) :
    (Mismatch i o ax ∧ ¬ IsVertex i o ax ∧ centerStep i o acc ax = .error .valueError) ∨
    (¬ Mismatch i o ax ∧ IsVertex i o ax ∧ centerStep i o acc ax = .ok acc) ∨
    (¬ Mismatch i o ax ∧ ¬ IsVertex i o ax ∧ centerStep i o acc ax = .ok (acc ++ [ax])) := by
  unfold centerStep Mismatch IsVertex
  cases hi : get? i ax with
  | none => simp
  | some m =>
    cases ho : get? o ax with
    | none => simp
    | some n =>
      simp only [Option.some.injEq]
      by_cases h1 : m = n
      · right; right
        refine ⟨?_, ?_, by simp [h1]⟩
        · rintro ⟨m', n', rfl, rfl, h, _⟩; exact h h1
        · rintro ⟨k, rfl, rfl⟩; omega
      · by_cases h2 : m = n + 1
        · right; left
          refine ⟨?_, ⟨n, h2, rfl⟩, by simp [h2]⟩
          rintro ⟨m', n', rfl, rfl, _, h, _⟩; exact h h2
        · by_cases h3 : n = 1 ∨ m = 1
          · right; right
            refine ⟨?_, ?_, by simp [h1, h2, h3]⟩
            · rintro ⟨m', n', rfl, rfl, _, _, h4, h5⟩; rcases h3 with h | h <;> contradiction
            · rintro ⟨k, rfl, rfl⟩; exact h2 rfl
          · left
            refine ⟨⟨m, n, rfl, rfl, h1, h2, fun h => h3 (Or.inr h), fun h => h3 (Or.inl h)⟩, ?_, by simp [h1, h2, h3]⟩
            rintro ⟨k, rfl, rfl⟩; exact h2 rfl

theorem center_fold (i o : Shape) : ∀ (l acc : List String),
    ((∃ ax ∈ l, Mismatch i o ax) ∧ l.foldlM (centerStep i o) acc = .error .valueError) ∨
    ((∀ ax ∈ l, ¬ Mismatch i o ax) ∧ ∃ c, l.foldlM (centerStep i o) acc = .ok (acc ++ c) ∧
      List.Sublist c l ∧ ∀ ax, ax ∈ c ↔ ax ∈ l ∧ ¬ IsVertex i o ax) := by
  intro l
  induction l with
  | nil =>
    intro acc
    right
    exact ⟨by simp, [], by simp [List.foldlM, pure, Except.pure], List.Sublist.refl _, by simp⟩
  | cons x l ih =>
    intro acc
    rw [List.foldlM_cons]
    rcases centerStep_main i o acc x with ⟨h1, h2, h3⟩ | ⟨h1, h2, h3⟩ | ⟨h1, h2, h3⟩
    · left
      exact ⟨⟨x, by simp, h1⟩, by rw [h3]; rfl⟩
    · rw [h3]
      rcases ih acc with ⟨⟨y, g1, g2⟩, g3⟩ | ⟨g1, c, g2, g3, g4⟩
      · left; exact ⟨⟨y, by simp [g1], g2⟩, g3⟩
      · right
        refine ⟨?_, c, g2, g3.cons _, fun ax => ?_⟩
        · intro ax hax
          rcases List.mem_cons.1 hax with rfl | hax
          · exact h1
          · exact g1 ax hax
        · rw [g4, List.mem_cons]
          constructor
          · rintro ⟨a, b⟩; exact ⟨Or.inr a, b⟩
          · rintro ⟨rfl | a, b⟩
            · exact absurd h2 b
            · exact ⟨a, b⟩
    · rw [h3]
      rcases ih (acc ++ [x]) with ⟨⟨y, g1, g2⟩, g3⟩ | ⟨g1, c, g2, g3, g4⟩
      · left; exact ⟨⟨y, by simp [g1], g2⟩, g3⟩
      · right
        refine ⟨?_, x :: c, by rw [show acc ++ x :: c = acc ++ [x] ++ c by simp]; exact g2, g3.cons_cons _, fun ax => ?_⟩
        · intro ax hax
          rcases List.mem_cons.1 hax with rfl | hax
          · exact h1
          · exact g1 ax hax
        · rw [List.mem_cons, g4, List.mem_cons]
          constructor
          · rintro (rfl | ⟨a, b⟩)
            · exact ⟨Or.inl rfl, h2⟩
            · exact ⟨Or.inr a, b⟩
          · rintro ⟨rfl | a, b⟩
            · exact Or.inl rfl
            · exact Or.inr ⟨a, b⟩

/-- **C52** (failure). If along some axis the sizes of the inputs and outputs neither agree, nor broadcast, nor
differ by one as those of vertices and cells do, then the axes and the shape raise `ValueError`. -/
theorem C52_mismatch (i o : Shape) (ho : WF o) (ax : String) (h : Mismatch i o ax) :
    axesCenterOf i o = .error .valueError ∧ axesVertexOf i o = .error .valueError ∧
      shapeOf i o = .error .valueError := by
  have hc : axesCenterOf i o = .error .valueError := by
    unfold axesCenterOf
    rcases center_fold i o (axesOf i o) [] with ⟨_, h'⟩ | ⟨h', _⟩
    · exact h'
    · obtain ⟨m, n, h1, _⟩ := h
      exact absurd ⟨m, n, h1, by assumption⟩ (h' ax ((mem_axesOf ho ax).2 (Or.inl (mem_keys_of_get? h1))))
  refine ⟨hc, ?_, ?_⟩
  · unfold axesVertexOf; simp only [hc, bind, Except.bind]
  · unfold shapeOf; simp only [hc, bind, Except.bind]

/-- **C52**. Otherwise the axes of the function (those of the inputs or the outputs) are partitioned into the axes
on centers and the axes on vertices; an axis is on vertices exactly if the inputs have one more element than the
outputs; and the shape has exactly the axes of the function, with the size of the outputs along an axis on
vertices, and the size to which the inputs and outputs broadcast along an axis on centers. -/
theorem C52_axes (i o : Shape) (hi : WF i) (ho : WF o) (h : ∀ ax, ¬ Mismatch i o ax) :
    ∃ c v s, axesCenterOf i o = .ok c ∧ axesVertexOf i o = .ok v ∧ shapeOf i o = .ok s ∧
      (c ++ v).Nodup ∧ (∀ ax, ax ∈ c ++ v ↔ ax ∈ keys i ∨ ax ∈ keys o) ∧
      (∀ ax, ax ∈ v ↔ IsVertex i o ax) ∧
      WF s ∧ (∀ ax, ax ∈ keys s ↔ ax ∈ keys i ∨ ax ∈ keys o) ∧
      (∀ ax, IsVertex i o ax → get? s ax = get? o ax) ∧
      ∀ ax, ¬ IsVertex i o ax → ∀ n, get? s ax = some n →
        HasSize [i, o] ax n ∧ ∀ m, HasSize [i, o] ax m → m = n ∨ m = 1 := by
  obtain ⟨c, hc, hsub, hmem⟩ : ∃ c, axesCenterOf i o = .ok c ∧ List.Sublist c (axesOf i o) ∧
      ∀ ax, ax ∈ c ↔ ax ∈ axesOf i o ∧ ¬ IsVertex i o ax := by
    rcases center_fold i o (axesOf i o) [] with ⟨⟨ax, _, h'⟩, _⟩ | ⟨_, c, h1, h2, h3⟩
    · exact absurd h' (h ax)
    · exact ⟨c, by unfold axesCenterOf; rw [h1]; rfl, h2, h3⟩
  have hv : axesVertexOf i o = .ok ((axesOf i o).filter (· ∉ c)) := by
    unfold axesVertexOf; simp only [hc, bind, Except.bind]
  have hvm : ∀ ax, ax ∈ (axesOf i o).filter (· ∉ c) ↔ IsVertex i o ax := by
    intro ax
    simp only [List.mem_filter, decide_eq_true_eq, hmem]
    constructor
    · rintro ⟨h1, h2⟩
      by_contra h3
      exact h2 ⟨h1, h3⟩
    · rintro hV
      obtain ⟨n, h1, h2⟩ := hV
      exact ⟨(mem_axesOf ho ax).2 (Or.inl (mem_keys_of_get? h1)), fun h3 => h3.2 ⟨n, h1, h2⟩⟩
  have hg : ∀ (d : Shape) (hd : WF d) (l : List String) ax,
      get? (d.filter (fun p => p.1 ∈ l)) ax = if ax ∈ l then get? d ax else none := by
    intro d hd l ax
    rw [SA.get?_filter]
  have hww : ∀ s ∈ [o.filter (fun p => p.1 ∈ c), o.filter (fun p => p.1 ∈ (axesOf i o).filter (· ∉ c)),
      i.filter (fun p => p.1 ∈ c)], WF s := by
    have hf : ∀ (d : Shape) (l : List String), WF d → WF (d.filter (fun p => p.1 ∈ l)) := by
      intro d l hd
      unfold WF keys
      exact (List.Sublist.map _ List.filter_sublist).nodup hd
    intro s hs
    simp only [List.mem_cons, List.not_mem_nil, or_false] at hs
    rcases hs with rfl | rfl | rfl
    · exact hf _ _ ho
    · exact hf _ _ ho
    · exact hf _ _ hi
  have hmemo : ∀ ax n, get? o ax = some n → ax ∈ axesOf i o :=
    fun ax n h => (mem_axesOf ho ax).2 (Or.inr (mem_keys_of_get? h))
  have hmemi : ∀ ax n, get? i ax = some n → ax ∈ axesOf i o :=
    fun ax n h => (mem_axesOf ho ax).2 (Or.inl (mem_keys_of_get? h))
  have hsize : ∀ ax n, HasSize [o.filter (fun p => p.1 ∈ c), o.filter (fun p => p.1 ∈ (axesOf i o).filter (· ∉ c)),
      i.filter (fun p => p.1 ∈ c)] ax n ↔ get? o ax = some n ∨ (¬ IsVertex i o ax ∧ get? i ax = some n) := by
    intro ax n
    simp only [HasSize, List.mem_cons, List.not_mem_nil, or_false, exists_eq_or_imp, exists_eq_left]
    rw [hg o ho, hg o ho, hg i hi]
    by_cases hV : IsVertex i o ax
    · have h1 := (hvm ax).2 hV
      have h2 : ax ∉ c := fun h => ((hmem ax).1 h).2 hV
      rw [if_neg h2, if_pos h1, if_neg h2]
      simp [hV]
    · have h1 := fun h => hV ((hvm ax).1 h)
      rw [if_neg h1]
      by_cases hm : ax ∈ axesOf i o
      · have h2 : ax ∈ c := (hmem ax).2 ⟨hm, hV⟩
        rw [if_pos h2, if_pos h2]
        simp [hV]
      · have h2 : ax ∉ c := fun h => hm ((hmem ax).1 h).1
        rw [if_neg h2, if_neg h2]
        simp only [reduceCtorEq, false_or, false_iff, not_or, hV, not_false_eq_true, true_and]
        exact ⟨fun h => hm (hmemo ax n h), fun h => hm (hmemi ax n h)⟩
  have hncl : ¬ Clash [o.filter (fun p => p.1 ∈ c), o.filter (fun p => p.1 ∈ (axesOf i o).filter (· ∉ c)),
      i.filter (fun p => p.1 ∈ c)] := by
    rintro ⟨ax, m, n, h1, h2, h3, h4, h5⟩
    rw [hsize] at h1 h2
    have hV : ∀ p q, get? i ax = some p → get? o ax = some q → p ≠ q → p ≠ 1 → q ≠ 1 → IsVertex i o ax := by
      intro p q a b d e f
      by_contra hV
      by_cases hq : p = q + 1
      · exact hV ⟨q, by rw [a, hq], b⟩
      · exact h ax ⟨p, q, a, b, d, hq, e, f⟩
    rcases h1 with h1 | ⟨v1, h1⟩ <;> rcases h2 with h2 | ⟨v2, h2⟩
    · rw [h1] at h2; injection h2 with h2; exact h3 h2
    · exact v2 (hV n m h2 h1 (Ne.symm h3) h5 h4)
    · exact v1 (hV m n h1 h2 h3 h4 h5)
    · rw [h1] at h2; injection h2 with h2; exact h3 h2
  obtain ⟨s, hs⟩ : ∃ s, shapeOf i o = .ok s := by
    unfold shapeOf
    simp only [hc, hv, bind, Except.bind]
    cases hb : broadcastShapes [o.filter (fun p => p.1 ∈ c), o.filter (fun p => p.1 ∈ (axesOf i o).filter (· ∉ c)),
      i.filter (fun p => p.1 ∈ c)] with
    | ok s => exact ⟨s, rfl⟩
    | error e => exact absurd ((C01_broadcast_shapes_error_iff _ hww).1 ⟨e, hb⟩) hncl
  have hs' := hs
  unfold shapeOf at hs'
  simp only [hc, hv, bind, Except.bind] at hs'
  obtain ⟨s1, s2, s3⟩ := C01_broadcast_shapes_ok _ hww _ hs'
  have hks : ∀ ax, ax ∈ keys s ↔ ax ∈ keys i ∨ ax ∈ keys o := by
    intro ax
    rw [s2]
    constructor
    · rintro ⟨d, hd, hk⟩
      obtain ⟨n, hn⟩ := exists_get?_of_mem hk
      rcases (hsize ax n).1 ⟨d, hd, hn⟩ with h | ⟨_, h⟩
      · exact Or.inr (mem_keys_of_get? h)
      · exact Or.inl (mem_keys_of_get? h)
    · have key : ∀ n, get? o ax = some n ∨ (¬ IsVertex i o ax ∧ get? i ax = some n) →
          ∃ d ∈ [o.filter (fun p => p.1 ∈ c), o.filter (fun p => p.1 ∈ (axesOf i o).filter (· ∉ c)),
            i.filter (fun p => p.1 ∈ c)], ax ∈ keys d := by
        intro n hn
        obtain ⟨d, hd, hk⟩ := (hsize ax n).2 hn
        exact ⟨d, hd, mem_keys_of_get? hk⟩
      rintro (hk | hk)
      · obtain ⟨n, hn⟩ := exists_get?_of_mem hk
        by_cases hV : IsVertex i o ax
        · obtain ⟨k, _, h2⟩ := hV
          exact key k (Or.inl h2)
        · exact key n (Or.inr ⟨hV, hn⟩)
      · obtain ⟨n, hn⟩ := exists_get?_of_mem hk
        exact key n (Or.inl hn)
  refine ⟨c, _, s, hc, hv, hs, ?_, fun ax => ?_, hvm, s1, hks, fun ax hV => ?_, fun ax hV n hn => ?_⟩
  · rw [List.nodup_append]
    refine ⟨hsub.nodup (nodup_axesOf hi), (nodup_axesOf hi).filter _, ?_⟩
    rintro a ha b hb rfl
    simp only [List.mem_filter, decide_eq_true_eq] at hb
    exact hb.2 ha
  · rw [List.mem_append, hvm, hmem, ← mem_axesOf ho]
    constructor
    · rintro (h' | ⟨n, h1, _⟩)
      · exact h'.1
      · exact hmemi ax _ h1
    · intro h'
      by_cases hV : IsVertex i o ax
      · exact Or.inr hV
      · exact Or.inl ⟨h', hV⟩
  · obtain ⟨n, hn⟩ := exists_get?_of_mem ((hks ax).2 (by obtain ⟨k, h1, _⟩ := hV; exact Or.inl (mem_keys_of_get? h1)))
    rw [hn]
    rcases (hsize ax n).1 (s3 ax n hn).1 with h' | h'
    · exact h'.symm
    · exact absurd hV h'.1
  · have hiff : ∀ m, HasSize [i, o] ax m ↔ HasSize [o.filter (fun p => p.1 ∈ c),
        o.filter (fun p => p.1 ∈ (axesOf i o).filter (· ∉ c)), i.filter (fun p => p.1 ∈ c)] ax m := by
      intro m
      rw [hsize]
      simp only [HasSize, List.mem_cons, List.not_mem_nil, or_false, exists_eq_or_imp, exists_eq_left]
      constructor
      · rintro (h | h)
        · exact Or.inr ⟨hV, h⟩
        · exact Or.inl h
      · rintro (h | h)
        · exact Or.inr h
        · exact Or.inl h.2
    obtain ⟨h1, h2⟩ := s3 ax n hn
    exact ⟨(hiff n).2 h1, fun m hm => h2 m ((hiff m).1 hm)⟩

/-- vertices along `x`, centers along `y`, and an axis which only the inputs have -/
example : axesCenterOf [("x", 4), ("y", 2), ("t", 5)] [("y", 2), ("x", 3)] = .ok ["y", "t"] ∧
    axesVertexOf [("x", 4), ("y", 2), ("t", 5)] [("y", 2), ("x", 3)] = .ok ["x"] ∧
    shapeOf [("x", 4), ("y", 2), ("t", 5)] [("y", 2), ("x", 3)] = .ok [("y", 2), ("x", 3), ("t", 5)] := by
  refine ⟨rfl, rfl, rfl⟩
example : axesCenterOf [("x", 3)] [("x", 4)] = .error .valueError := rfl
/-- two vertices and one cell, although the sizes would also broadcast -/
example : axesVertexOf [("x", 2)] [("x", 1)] = .ok ["x"] := rfl

/-! ### C51 -/

/-- The arrays broadcast to a common shape and no two corresponding elements differ. -/
def Agree (ne : α → α → Bool) (a b : SA α) : Prop :=
  ∃ S, broadcastShapes [a.shape, b.shape] = .ok S ∧ ∀ e, InRange S e → ne (a.atB e) (b.atB e) = false

/-- The arrays broadcast to a common shape and some corresponding elements differ. -/
def Differ (ne : α → α → Bool) (a b : SA α) : Prop :=
  ∃ S, broadcastShapes [a.shape, b.shape] = .ok S ∧ ∃ e, InRange S e ∧ ne (a.atB e) (b.atB e) = true

theorem reduce_any (d : SA Bool) (hd : d.WF) :
    ∃ r, d.reduce false (fun l => l.any id) none false none none = .ok r ∧
      (r.at' (fun _ => 0) = true ↔ ∃ e, InRange d.shape e ∧ d.at' e = true) := by
  have hwo : SA.WhereOk d none := by intro w h; cases h
  rw [SA.C17_axis_none d hd none hwo]
  obtain ⟨r, r1, _, _, _, r5⟩ := SA.C17_reduce d hd none hwo d.axes hd.2 (fun _ h => h) false
    (fun l : List Bool => l.any id) false (by simp)
  refine ⟨r, r1, ?_⟩
  obtain ⟨l, ⟨_, hl⟩, h⟩ := r5 (fun _ => 0)
  rw [h]
  have : ∀ l : List (String → Nat), l.filter (SA.selected none) = l := fun l =>
    List.filter_eq_self.2 fun _ _ => rfl
  rw [this, List.any_eq_true]
  simp only [List.mem_map, id_eq]
  constructor
  · rintro ⟨x, ⟨e, he, rfl⟩, hx⟩
    refine ⟨e, ?_, hx⟩
    intro ax n hn
    obtain ⟨m, h1, h2⟩ := ((hl e).1 he).1 ax (by rw [← SA.keys_shape hd]; exact mem_keys_of_get? hn)
    rw [hn] at h1
    injection h1 with h1
    omega
  · rintro ⟨e, he, hx⟩
    refine ⟨_, ⟨fun ax => if ax ∈ d.axes then e ax else 0, (hl _).2 ⟨?_, ?_⟩, rfl⟩, ?_⟩
    · intro ax hax
      rw [← SA.keys_shape hd] at hax
      obtain ⟨n, hn⟩ := exists_get?_of_mem hax
      rw [SA.keys_shape hd] at hax
      exact ⟨n, hn, by simp only [if_pos hax]; exact he ax n hn⟩
    · intro ax hax
      simp only [if_neg hax]
    · rw [← hx]
      exact SA.at'_congr fun ax hax => by simp only [if_pos hax]

theorem differ_main (ne : α → α → Bool) (a b : SA α) (ha : a.WF) (hb : b.WF) :
    (Clash [a.shape, b.shape] ∧ differ ne a b = .error .valueError) ∨
    (Differ ne a b ∧ ¬ Agree ne a b ∧ differ ne a b = .ok true) ∨
    (Agree ne a b ∧ ¬ Differ ne a b ∧ differ ne a b = .ok false) := by
  cases hd : SA.ufunc2 ne a b with
  | error e =>
    left
    have h := SA.ufunc2_error ha hb hd
    have hww : ∀ s ∈ [a.shape, b.shape], WF s := by
      intro s hs
      simp only [List.mem_cons, List.not_mem_nil, or_false] at hs
      rcases hs with rfl | rfl
      · exact SA.wf_shape ha
      · exact SA.wf_shape hb
    refine ⟨(C01_broadcast_shapes_error_iff _ hww).1 ⟨e, h⟩, ?_⟩
    unfold differ
    rw [hd, C01_broadcast_shapes_error_kind _ hww e h]
    rfl
  | ok d =>
    right
    obtain ⟨d1, d2, d3⟩ := SA.ufunc2_ok ha hb hd
    obtain ⟨r, r1, r2⟩ := reduce_any d d1
    have hrun : differ ne a b = .ok (r.at' (fun _ => 0)) := by
      unfold differ
      simp only [hd, r1, bind, Except.bind]
    have hex : (∃ e, InRange d.shape e ∧ d.at' e = true) ↔ Differ ne a b := by
      constructor
      · rintro ⟨e, he, h⟩
        exact ⟨_, d2, e, he, by rw [← d3]; exact h⟩
      · rintro ⟨S, hS, e, he, h⟩
        rw [d2] at hS
        injection hS with hS
        exact ⟨e, by rw [hS]; exact he, by rw [d3]; exact h⟩
    have hag : Agree ne a b ↔ ¬ Differ ne a b := by
      constructor
      · rintro ⟨S, hS, h⟩ ⟨S', hS', e, he, h'⟩
        rw [hS] at hS'
        injection hS' with hS'
        rw [h e (by rw [hS']; exact he)] at h'
        cases h'
      · intro h
        refine ⟨_, d2, fun e he => ?_⟩
        by_contra h'
        exact h ⟨_, d2, e, he, by simpa using h'⟩
    rw [hex] at r2
    by_cases hD : Differ ne a b
    · left; exact ⟨hD, fun h => hag.1 h hD, by rw [hrun, r2.2 hD]⟩
    · right
      refine ⟨hag.2 hD, hD, ?_⟩
      rw [hrun]
      congr 1
      rw [Bool.eq_false_iff]
      exact fun h => hD (r2.1 h)

theorem checkInputs_ok (ne : α → α → Bool) (first : SA α) (hf : first.WF) : ∀ is : List (SA α),
    (∀ i ∈ is, i.WF) → (∀ i ∈ is, Agree ne i first) → checkInputs ne first is = .ok () := by
  intro is
  induction is with
  | nil => intros; rfl
  | cons i is ih =>
    intro hw ha
    unfold checkInputs
    rcases differ_main ne i first (hw i (by simp)) hf with ⟨h, _⟩ | ⟨_, h, _⟩ | ⟨_, _, h⟩
    · obtain ⟨S, hS, _⟩ := ha i (by simp)
      exact absurd ((C01_broadcast_shapes_error_iff [i.shape, first.shape] (by
        intro s hs
        simp only [List.mem_cons, List.not_mem_nil, or_false] at hs
        rcases hs with rfl | rfl
        · exact SA.wf_shape (hw i (by simp))
        · exact SA.wf_shape hf)).2 h) (by rw [hS]; rintro ⟨e, h⟩; cases h)
    · exact absurd (ha i (by simp)) h
    · simp only [h, bind, Except.bind, Bool.false_eq_true, if_false]
      exact ih (fun i hi => hw i (by simp [hi])) (fun i hi => ha i (by simp [hi]))

theorem checkInputs_bad (ne : α → α → Bool) (first : SA α) (hf : first.WF) : ∀ is : List (SA α),
    (∀ i ∈ is, i.WF) → (∃ i ∈ is, ¬ Agree ne i first) →
    (checkInputs ne first is = .error .valueError ∧ ∃ i ∈ is, Clash [i.shape, first.shape]) ∨
    (checkInputs ne first is = .error .inputValueError ∧ ∃ i ∈ is, Differ ne i first) := by
  intro is
  induction is with
  | nil => rintro _ ⟨i, hi, _⟩; simp at hi
  | cons i is ih =>
    rintro hw ⟨j, hj, hja⟩
    unfold checkInputs
    rcases differ_main ne i first (hw i (by simp)) hf with ⟨h, h'⟩ | ⟨h, _, h'⟩ | ⟨h, _, h'⟩
    · left
      simp only [h', bind, Except.bind]
      exact ⟨trivial, i, by simp, h⟩
    · right
      simp only [h', bind, Except.bind, if_true]
      exact ⟨trivial, i, by simp, h⟩
    · simp only [h', bind, Except.bind, Bool.false_eq_true, if_false]
      have hj' : j ∈ is := by
        rcases List.mem_cons.1 hj with rfl | h''
        · exact absurd h hja
        · exact h''
      rcases ih (fun i hi => hw i (by simp [hi])) ⟨j, hj', hja⟩ with ⟨g, k, k1, k2⟩ | ⟨g, k, k1, k2⟩
      · exact Or.inl ⟨g, k, by simp [k1], k2⟩
      · exact Or.inr ⟨g, k, by simp [k1], k2⟩

/-- The operands are well-formed. -/
def Arg.Ok : Arg α β → Prop
  | .plain a => a.WF
  | .func f => f.inputs.WF ∧ f.outputs.WF

/-- **C51** (equal inputs). If the inputs of all the functions among the operands agree with those of the first
function, the result has the inputs of the first function, and its outputs are the elementwise result of the
outputs of the functions and the plain operands (`Arg.outputs`): broadcast against each other, they have the
common shape and at each index the function of the elements there.  If the outputs do not broadcast,
`ValueError` is raised. -/
theorem C51_values (ne : α → α → Bool) (g : List β → γ) (args : List (Arg α β)) (hargs : ∀ a ∈ args, a.Ok)
    (f : FA α β) (rest : List (SA α)) (hfirst : args.filterMap Arg.inputs? = f.inputs :: rest)
    (heq : ∀ i ∈ rest, Agree ne i f.inputs) :
    (Clash (args.map (fun a => a.outputs.shape)) ∧ ufuncN ne g args = .error .valueError) ∨
    ∃ r, ufuncN ne g args = .ok r ∧ r.inputs = f.inputs ∧ r.outputs.WF ∧
      broadcastShapes (args.map (fun a => a.outputs.shape)) = .ok r.outputs.shape ∧
      ∀ e, r.outputs.at' e = g (args.map (fun a => a.outputs.atB e)) := by
  have hin : ∀ i ∈ f.inputs :: rest, i.WF := by
    intro i hi
    rw [← hfirst, List.mem_filterMap] at hi
    obtain ⟨a, ha, h⟩ := hi
    have := hargs a ha
    cases a with
    | plain a => cases h
    | func f => injection h with h; rw [← h]; exact this.1
  have hout : ∀ a ∈ args.map Arg.outputs, a.WF := by
    intro o ho
    rw [List.mem_map] at ho
    obtain ⟨a, ha, rfl⟩ := ho
    have := hargs a ha
    cases a with
    | plain a => exact this
    | func f => exact this.2
  have hck := checkInputs_ok ne f.inputs (hin _ (by simp)) rest (fun i hi => hin i (by simp [hi])) heq
  have hrun : ufuncN ne g args = (do let o ← SA.ufuncN g (args.map Arg.outputs); .ok ⟨f.inputs, o⟩) := by
    unfold ufuncN
    rw [hfirst]
    simp only [hck, bind, Except.bind]
  rw [hrun]
  cases ho : SA.ufuncN g (args.map Arg.outputs) with
  | error e =>
    left
    have h := SA.C07_ufunc_error g (args.map Arg.outputs) hout
    refine ⟨?_, by rw [h.2 e ho]; rfl⟩
    have := h.1.1 ⟨e, ho⟩
    rw [List.map_map] at this
    exact this
  | ok o =>
    right
    obtain ⟨o1, o2, o3⟩ := SA.ufuncN_ok hout ho
    refine ⟨⟨f.inputs, o⟩, rfl, rfl, o1, ?_, fun e => ?_⟩
    · rw [List.map_map] at o2; exact o2
    · rw [o3 e, List.map_map]; rfl

/-- **C51** (unequal inputs). If the inputs of some function do not agree with those of the first, the operation
raises: `InputValueError` because some inputs differ, or `ValueError` because the shapes of some inputs do not
broadcast.  In particular, if all inputs broadcast, it raises `InputValueError`. -/
theorem C51_input_error_partial (ne : α → α → Bool) (g : List β → γ) (args : List (Arg α β)) (hargs : ∀ a ∈ args, a.Ok)
    (f : FA α β) (rest : List (SA α)) (hfirst : args.filterMap Arg.inputs? = f.inputs :: rest)
    (hne : ∃ i ∈ rest, ¬ Agree ne i f.inputs) :
    (ufuncN ne g args = .error .inputValueError ∧ ∃ i ∈ rest, Differ ne i f.inputs) ∨
    (ufuncN ne g args = .error .valueError ∧ ∃ i ∈ rest, Clash [i.shape, f.inputs.shape]) := by
  have hin : ∀ i ∈ f.inputs :: rest, i.WF := by
    intro i hi
    rw [← hfirst, List.mem_filterMap] at hi
    obtain ⟨a, ha, h⟩ := hi
    have := hargs a ha
    cases a with
    | plain a => cases h
    | func f => injection h with h; rw [← h]; exact this.1
  unfold ufuncN
  rw [hfirst]
  rcases checkInputs_bad ne f.inputs (hin _ (by simp)) rest (fun i hi => hin i (by simp [hi])) hne with
    ⟨h, h'⟩ | ⟨h, h'⟩
  · right; simp only [h, bind, Except.bind]; exact ⟨trivial, h'⟩
  · left; simp only [h, bind, Except.bind]; exact ⟨trivial, h'⟩

/-- **C51** (refuted). Inputs whose shapes do not broadcast raise a plain `ValueError`, not an `InputValueError`. -/
theorem C51_input_error_refuted : ufuncN (fun a b : Nat => a != b) List.sum
    [.func ⟨⟨["x"], ND.ofList [2] [0, 1] 0⟩, ⟨[], ND.ofList [] [5] 0⟩⟩,
      .func ⟨⟨["x"], ND.ofList [3] [0, 1, 2] 0⟩, ⟨[], ND.ofList [] [5] 0⟩⟩] = .error .valueError := rfl

/-- **C51** (nan). An element which differs from itself, as nan does, makes even `f + f` raise. -/
theorem C51_nan (ne : α → α → Bool) (g : List β → γ) (f : FA α β) (hf : f.inputs.WF ∧ f.outputs.WF)
    (e : String → Nat) (he : InRange f.inputs.shape e) (hnan : ne (f.inputs.at' e) (f.inputs.at' e) = true) :
    ufuncN ne g [.func f, .func f] = .error .inputValueError := by
  have hself : broadcastShapes [f.inputs.shape, f.inputs.shape] = .ok f.inputs.shape :=
    broadcastShapes_fits (fun ax m h => ⟨m, h, Or.inl rfl⟩) (SA.wf_shape hf.1)
  have hat : f.inputs.atB e = f.inputs.at' e := by
    unfold SA.atB
    refine SA.at'_congr fun ax hax => ?_
    by_cases h : get? f.inputs.shape ax = some 1
    · simp only [h, if_true]; have := he ax 1 h; omega
    · simp only [h, if_false]
  have hD : Differ ne f.inputs f.inputs := ⟨_, hself, e, he, by rw [hat]; exact hnan⟩
  have hA : ¬ Agree ne f.inputs f.inputs := by
    rintro ⟨S, hS, h⟩
    rw [hself] at hS
    injection hS with hS
    have := h e (by rw [← hS]; exact he)
    rw [hat, hnan] at this
    cases this
  rcases C51_input_error_partial ne g [.func f, .func f] (by simp [Arg.Ok, hf]) f [f.inputs] rfl ⟨f.inputs, by simp, hA⟩ with
    ⟨h, _⟩ | ⟨_, i, hi, hc⟩
  · exact h
  · simp only [List.mem_singleton] at hi
    subst hi
    obtain ⟨E, hE⟩ := (C01_broadcast_shapes_error_iff _ (by
        intro s hs
        simp only [List.mem_cons, List.not_mem_nil, or_false, or_self] at hs
        rw [hs]; exact SA.wf_shape hf.1)).2 hc
    rw [hself] at hE
    cases hE

/-- three cells and their four vertices -/
def exF : FA Nat Nat := ⟨⟨["x"], ND.ofList [4] [0, 1, 3, 7] 0⟩, ⟨["x"], ND.ofList [3] [5, 6, 7] 0⟩⟩
/-- the same vertices, other outputs -/
def exG : FA Nat Nat := ⟨⟨["x"], ND.ofList [4] [0, 1, 3, 7] 0⟩, ⟨["y"], ND.ofList [2] [10, 20] 0⟩⟩

example : (Arg.func exF).Ok ∧ (Arg.func exG).Ok := ⟨(by decide : exF.inputs.WF ∧ exF.outputs.WF), (by decide : exG.inputs.WF ∧ exG.outputs.WF)⟩
example : (ufuncN (fun a b => a != b) List.sum [.func exF, .plain (SA.mk [] (ND.ofList [] [100] 0)), .func exG]).map
    (fun r => (r.inputs.nd.toList, r.outputs.axes, r.outputs.nd.toList)) =
    .ok ([0, 1, 3, 7], ["x", "y"], [115, 125, 116, 126, 117, 127]) := by decide +kernel
example : (ufuncN (fun a b => a != b) List.sum [.func exF,
    .func ⟨⟨["x"], ND.ofList [4] [0, 1, 2, 7] 0⟩, exF.outputs⟩]).map (fun r => r.outputs.nd.toList) =
    .error .inputValueError := by decide +kernel
/-- The kind of an axis need not survive: one cell between two vertices, plus two numbers, is a function sampled
at the two vertices. -/
example : axesVertexOf [("x", 2)] [("x", 1)] = .ok ["x"] ∧
    (ufuncN (fun a b => a != b) List.sum [.func ⟨⟨["x"], ND.ofList [2] [0, 1] 0⟩, ⟨["x"], ND.ofList [1] [5] 0⟩⟩,
      .plain (SA.mk ["x"] (ND.ofList [2] [10, 20] 0))]).map
    (fun r => (r.inputs.nd.toList, r.outputs.nd.toList)) = .ok ([0, 1], [15, 25]) ∧
    axesVertexOf [("x", 2)] [("x", 2)] = .ok [] := by
  refine ⟨rfl, ?_, rfl⟩
  decide +kernel

end FA
end NA
