import Verif.Props.VectorAlong
import Verif.Props.VectorSet
import Verif.Props.Sorting
import Verif.Props.Ordering
import Verif.Vector.ArrayIndex
import Verif.Props.UncertainArg

/-!
# C87: indexing with vectors of index arrays, sorting permutations and positions of extrema of vectors
-/

namespace NA
open Dict Comp
open SA (FitsIn InRange)
variable {α β : Type}

/-! ### Indexing a scalar with index arrays of matching sizes -/

/-- Index arrays for all axes of `a`, whose sizes agree (exactly) with those of `sh`; `I ax e` is the index at `e`. -/
theorem SA.getitem_exact {a : SA α} (ha : a.WF) {item : Dict IndexVal} (hi : SA.ItemWF item) (sh : Shape)
    (I : String → (String → Nat) → Nat)
    (h : ∀ ax ∈ a.axes, ∃ b : SA Int, get? item ax = some (.arr b) ∧ b.WF ∧ (∀ x m, get? b.shape x = some m → get? sh x = some m) ∧
      ∀ e, InRange b.shape e → b.at' e = (I ax e : Int) ∧ I ax e < a.sizeOf' ax) :
    ∃ r, a.getitem item = .ok r ∧ r.WF ∧
      (∀ x m, get? r.shape x = some m ↔ ∃ ax ∈ a.axes, ∃ b, get? item ax = some (.arr b) ∧ get? b.shape x = some m) ∧
      ∀ e, InRange r.shape e → r.at' e = a.at' (fun ax => I ax e) := by
  have hmem : ∀ s, s ∈ SA.arrayShapes (SA.known a.axes item) ↔ ∃ ax ∈ a.axes, ∃ b : SA Int, get? item ax = some (.arr b) ∧ s = b.shape := by
    intro s
    unfold SA.arrayShapes SA.known
    rw [List.mem_filterMap]
    constructor
    · rintro ⟨⟨ax, x⟩, hm, hx⟩
      rw [List.mem_filter] at hm
      have hax : ax ∈ a.axes := by simpa using hm.2
      cases x with
      | arr b =>
        simp only [Option.some.injEq] at hx
        exact ⟨ax, hax, b, get?_of_mem hi.1 hm.1, hx.symm⟩
      | int _ => simp at hx
      | slice _ => simp at hx
      | none => simp at hx
    · rintro ⟨ax, hax, b, hb, rfl⟩
      exact ⟨(ax, .arr b), List.mem_filter.2 ⟨mem_of_get? hb, by simpa using hax⟩, rfl⟩
  have hwf : ∀ s ∈ SA.arrayShapes (SA.known a.axes item), Dict.WF s := SA.arrayShapes_wf (SA.itemWF_known hi)
  have hsize : ∀ x m, HasSize (SA.arrayShapes (SA.known a.axes item)) x m ↔
      ∃ ax ∈ a.axes, ∃ b, get? item ax = some (.arr b) ∧ get? b.shape x = some m := by
    intro x m
    constructor
    · rintro ⟨s, hs, hm⟩
      obtain ⟨ax, hax, b, hb, rfl⟩ := (hmem s).1 hs
      exact ⟨ax, hax, b, hb, hm⟩
    · rintro ⟨ax, hax, b, hb, hm⟩
      exact ⟨b.shape, (hmem _).2 ⟨ax, hax, b, hb, rfl⟩, hm⟩
  have hsh : ∀ x m, HasSize (SA.arrayShapes (SA.known a.axes item)) x m → get? sh x = some m := by
    intro x m hm
    obtain ⟨ax, hax, b, hb, hm⟩ := (hsize x m).1 hm
    obtain ⟨b', hb', _, hsub, _⟩ := h ax hax
    rw [hb] at hb'
    cases hb'
    exact hsub x m hm
  obtain ⟨S, hS⟩ : ∃ S, broadcastShapes (SA.arrayShapes (SA.known a.axes item)) = .ok S := by
    cases hS : broadcastShapes (SA.arrayShapes (SA.known a.axes item)) with
    | ok S => exact ⟨S, rfl⟩
    | error err =>
      obtain ⟨x, m, n, h1, h2, hne, _⟩ := (C01_broadcast_shapes_error_iff _ hwf).1 ⟨err, hS⟩
      have h1 := hsh x m h1
      have h2 := hsh x n h2
      rw [h1] at h2
      cases h2
      exact absurd rfl hne
  obtain ⟨hSw, hSk, hSn⟩ := C01_broadcast_shapes_ok _ hwf S hS
  have hSiff : ∀ x m, get? S x = some m ↔ ∃ ax ∈ a.axes, ∃ b, get? item ax = some (.arr b) ∧ get? b.shape x = some m := by
    intro x m
    rw [← hsize]
    constructor
    · intro hm; exact (hSn x m hm).1
    · intro hm
      obtain ⟨n, hn⟩ := exists_get?_of_mem ((hSk x).2 (by
        obtain ⟨s, hs, hm⟩ := hm
        exact ⟨s, hs, mem_keys_of_get? hm⟩))
      have h1 := hsh x n (hSn x n hn).1
      have h2 := hsh x m hm
      rw [h1] at h2
      cases h2
      exact hn
  obtain ⟨r, rest, r1, r2, r3, r4, r5, r6, r7, r8⟩ := SA.C14_getitem_arrays a ha item hi S hS
    (by
      intro ax hax sl hsl
      rw [SA.keys_shape ha] at hax
      obtain ⟨b, hb, _⟩ := h ax hax
      rw [hb] at hsl
      cases hsl)
    (by
      intro ax n hn
      have hax : ax ∈ a.axes := by rw [← SA.keys_shape ha]; exact mem_keys_of_get? hn
      obtain ⟨b, hb, _, _, hv⟩ := h ax hax
      refine ⟨fun i hi' => ?_, fun b' hb' e he => ?_⟩
      · rw [hb] at hi'; cases hi'
      · rw [hb] at hb'
        cases hb'
        obtain ⟨h1, h2⟩ := hv e he
        have hsz : a.sizeOf' ax = n := by unfold SA.sizeOf'; rw [hn]; rfl
        rw [h1]
        unfold ND.ValidIndex
        omega)
    (by
      intro ax _ hax
      obtain ⟨b, hb, _⟩ := h ax hax
      exact .inr ⟨b, hb⟩)
  have hrest : rest = [] := by
    rw [List.eq_nil_iff_forall_not_mem]
    intro ax hax
    obtain ⟨h1, _, h2⟩ := (r5 ax).1 hax
    obtain ⟨b, hb, _⟩ := h ax h1
    exact h2 b hb
  subst hrest
  have hrS : ∀ x, get? r.shape x = get? S x := by
    intro x
    by_cases hx : x ∈ keys S
    · exact r6 x hx
    · rw [get?_eq_none.2 hx]
      exact (SA.get?_shape_none r2).2 (by rw [r3]; simpa using hx)
  refine ⟨r, r1, r2, ?_, ?_⟩
  · intro x m
    rw [hrS, hSiff]
  · intro e he
    rw [r8]
    apply SA.at'_congr
    intro ax hax
    obtain ⟨b, hb, hbw, _, hv⟩ := h ax hax
    have hbe : InRange b.shape e := by
      intro x m hm
      exact he x m (by rw [hrS]; exact (hSiff x m).2 ⟨ax, hax, b, hb, hm⟩)
    obtain ⟨h1, h2⟩ := hv e hbe
    have hsz : (get? a.shape ax).getD 0 = a.sizeOf' ax := rfl
    simp only [SA.selIdx, hb, hsz]
    rw [SA.atB_eq_at' hbw hbe, h1, SA.pyIndex_nat]

/-- Only `None` for the axes of `a`: nothing is changed. -/
theorem SA.getitem_none {a : SA α} (ha : a.WF) {item : Dict IndexVal} (hi : SA.ItemWF item)
    (h : ∀ ax ∈ a.axes, ∀ x, get? item ax = some x → x = .none) :
    ∃ r, a.getitem item = .ok r ∧ r.WF ∧ (∀ x, get? r.shape x = get? a.shape x) ∧ ∀ e, r.at' e = a.at' e := by
  have hS : broadcastShapes (SA.arrayShapes (SA.known a.axes item)) = .ok [] := by
    have : SA.arrayShapes (SA.known a.axes item) = [] := by
      unfold SA.arrayShapes SA.known
      rw [List.filterMap_eq_nil_iff]
      rintro ⟨ax, x⟩ hm
      rw [List.mem_filter] at hm
      have := h ax (by simpa using hm.2) x (get?_of_mem hi.1 hm.1)
      subst this
      rfl
    rw [this]
    rfl
  have hkey : ∀ ax ∈ a.axes, get? item ax = some .none ∨ get? item ax = none := by
    intro ax hax
    cases hg : get? item ax with
    | none => exact .inr rfl
    | some x => rw [h ax hax x hg]; exact .inl rfl
  obtain ⟨r, rest, r1, r2, r3, r4, r5, r6, r7, r8⟩ := SA.C14_getitem_arrays a ha item hi [] hS
    (by
      intro ax hax sl hsl
      rw [SA.keys_shape ha] at hax
      rcases hkey ax hax with h1 | h1 <;> rw [h1] at hsl <;> cases hsl)
    (by
      intro ax n hn
      have hax : ax ∈ a.axes := by rw [← SA.keys_shape ha]; exact mem_keys_of_get? hn
      rcases hkey ax hax with h1 | h1 <;> rw [h1] <;>
        exact ⟨fun _ h' => (by cases h'), fun _ h' => (by cases h')⟩)
    (by intro ax hax; simp [keys] at hax)
  have hrest : ∀ ax, ax ∈ rest ↔ ax ∈ a.axes := by
    intro ax
    rw [r5]
    refine ⟨fun h => h.1, fun hax => ⟨hax, ?_, ?_⟩⟩
    · rintro ⟨i, h1⟩
      rcases hkey ax hax with h2 | h2 <;> rw [h2] at h1 <;> cases h1
    · intro b h1
      rcases hkey ax hax with h2 | h2 <;> rw [h2] at h1 <;> cases h1
  have hra : ∀ ax, ax ∈ r.axes ↔ ax ∈ a.axes := by
    intro ax; rw [r3]; simpa [keys] using hrest ax
  refine ⟨r, r1, r2, ?_, ?_⟩
  · intro x
    by_cases hx : x ∈ a.axes
    · rw [r7 x ((hrest x).2 hx)]
      obtain ⟨m, hm⟩ := exists_get?_of_mem (d := a.shape) (by rw [SA.keys_shape ha]; exact hx)
      unfold SA.selLen
      rcases hkey x hx with h2 | h2 <;> rw [h2, hm] <;> rfl
    · rw [(SA.get?_shape_none ha).2 hx, (SA.get?_shape_none r2).2 (fun h => hx ((hra x).1 h))]
  · intro e
    rw [r8]
    apply SA.at'_congr
    intro ax hax
    unfold SA.selIdx
    rcases hkey ax hax with h2 | h2 <;> rw [h2]

/-! ### Sorting permutations of scalars -/

/-- The index arrays which `np.argsort` returns for a scalar. -/
theorem SA.argsort_parts {a : SA α} (ha : a.WF) {A : List String} (hA : A.Nodup) (hAne : A ≠ [])
    (hAs : A ⊆ a.axes) (hcoll : ∀ ax ∈ a.axes, ax ∉ A → ax ≠ "*".intercalate A)
    (hpos : ∀ ax ∈ a.axes, ax ∉ A → get? a.shape ax ≠ some 0) (srt : List α → List α)
    (asrt : List α → List Nat) (has : SA.IsArgSort asrt srt) (hlen : ∀ l, (srt l).length = l.length) (dflt : α) :
    ∃ d s, SA.argsort asrt a (some A) = .ok d ∧ SA.sort srt dflt a (some A) = .ok s ∧ Dict.WF d ∧ s.WF ∧
      (∀ ax, ax ∈ keys d ↔ ax ∈ a.axes) ∧
      s.axes = a.axes.filter (· ∉ A) ++ ["*".intercalate A] ∧
      (∀ ax ∈ a.axes, ax ∉ A → get? s.shape ax = get? a.shape ax) ∧
      ∃ I : String → (String → Nat) → Nat,
        (∀ ax ∈ A, ∃ b, get? d ax = some b ∧ b.WF ∧ (∀ x, get? b.shape x = get? s.shape x) ∧
          ∀ e, InRange b.shape e → b.at' e = (I ax e : Int) ∧ I ax e < a.sizeOf' ax) ∧
        (∀ ax ∈ a.axes, ax ∉ A → get? d ax = some (SA.arange ax (a.sizeOf' ax)) ∧ ∀ e, I ax e = e ax) ∧
        ∀ e, InRange s.shape e → s.at' e = a.at' (fun ax => I ax e) := by
  have hnewr : "*".intercalate A ∉ a.axes.filter (· ∉ A) := by
    intro h
    simp only [List.mem_filter, decide_eq_true_eq] at h
    exact hcoll _ h.1 h.2 rfl
  obtain ⟨flat, nd, h1, h2, h3, h4, h5, h6, h7, h8⟩ := SA.along_combined ha hA hAs hnewr hpos
    (fun l k => (asrt l).getD k 0)
  set indices : SA Nat := ⟨flat.axes, nd⟩ with hind
  have hrange : ∀ e, InRange indices.shape e → (∀ ax ∈ a.axes, ax ∉ A → e ax < a.sizeOf' ax) := by
    intro e he ax hax hx
    obtain ⟨n, hn⟩ := exists_get?_of_mem (d := a.shape) (by rw [SA.keys_shape ha]; exact hax)
    have := he ax n (by rw [h7 ax hax hx, hn])
    simpa [SA.sizeOf', hn] using this
  have hal : ∀ l, (asrt l).length = l.length := by
    intro l
    have := congrArg List.length (has l).2
    simpa [hlen] using this
  have hlt : ∀ e, InRange indices.shape e →
      ∃ h : e ("*".intercalate A) < (asrt (SA.slabList a A e)).length,
        indices.at' e = (asrt (SA.slabList a A e))[e ("*".intercalate A)] := by
    intro e he
    have h : e ("*".intercalate A) < (asrt (SA.slabList a A e)).length := by
      rw [hal, SA.length_slabList]
      exact he _ _ h6
    exact ⟨h, by rw [h8 e (hrange e he), List.getD_eq_getElem _ _ h]⟩
  have hval : ∀ e, InRange indices.shape e → indices.at' e < (A.map a.sizeOf').prod := by
    intro e he
    obtain ⟨h, heq⟩ := hlt e he
    rw [heq, ← SA.length_slabList a A e]
    exact (has _).1 _ (List.getElem_mem _)
  obtain ⟨d, k1, k2, k3, k4, kw, k5, r, k6, k7, k8, k9, k10⟩ := SA.getitem_unravel' ha hA hAne hAs h5 h7 hval
  have hargs : SA.argsort asrt a (some A) = .ok (a.completeIndex d) := by
    unfold SA.argsort
    simp only [bind, Except.bind, Option.getD_some, Option.isSome_some, true_and]
    rw [if_neg (by
      rintro (h | h)
      · cases A <;> simp_all
      · exact h (fun ax hax => hAs hax))]
    simp only [Option.isNone_some, Bool.false_eq_true, false_and, if_false]
    rw [SA.flattenAxes_ok hAne]
    have hmk : SA.mk? nd flat.axes = .ok indices := SA.mk?_of_wf h5.1 h5.2
    simp only [h1, SA.pyTupleIndex, if_pos h3, h4, hmk]
    have : A.map (fun ax => (ax, (get? a.shape ax).getD 0)) = A.map (fun ax => (ax, a.sizeOf' ax)) := rfl
    rw [this, k1]
  obtain ⟨d', r', d1, d2, d3, d4, d5, d6, d7, d8⟩ := SA.argsort_main ha hA hAne hAs hcoll hpos srt asrt has hlen dflt
  rw [hargs] at d1
  cases d1
  rw [k6] at d3
  cases d3
  obtain ⟨s, s1, s2, s3, s4, s5, s6⟩ := SA.sort_main ha hA hAne hAs hcoll hpos srt dflt
  have hsi : ∀ x, get? s.shape x = get? indices.shape x := by
    intro ax
    by_cases hn : ax = "*".intercalate A
    · subst hn; rw [h6, s4]
    · by_cases hm : ax ∈ a.axes ∧ ax ∉ A
      · rw [h7 ax hm.1 hm.2, s5 ax hm.1 hm.2]
      · have : ax ∉ a.axes.filter (· ∉ A) ++ ["*".intercalate A] := by
          simp only [List.mem_append, List.mem_filter, decide_eq_true_eq, List.mem_singleton, not_or]
          exact ⟨hm, hn⟩
        rw [(SA.get?_shape_none s2).2 (by rw [s3]; exact this), (SA.get?_shape_none h5).2 (by show ax ∉ flat.axes; rw [h2]; exact this)]
  refine ⟨_, s, hargs, s1, kw, s2, k2, s3, s5,
    fun ax e => slabEnv A (ND.unravel (A.map a.sizeOf') (indices.at' e)) e ax, ?_, ?_, ?_⟩
  · intro ax hax
    obtain ⟨b, b1, b2, b3, b4, b5⟩ := k3 ax hax
    refine ⟨b, b1, b2, fun x => by rw [hsi, b4], ?_⟩
    intro e he
    rw [b4] at he
    rw [b5]
    have hmem : slabEnv A (ND.unravel (A.map a.sizeOf') (indices.at' e)) e ∈ slabEnvs A a.sizeOf' e := by
      unfold slabEnvs
      exact List.mem_map.2 ⟨_, (ND.mem_ndIndices_iff).2 (ND.inRange_unravel (hval e he)), rfl⟩
    rw [mem_slabEnvs hA] at hmem
    refine ⟨?_, hmem.1 ax hax⟩
    simp only [slabEnv, if_pos hax]
  · intro ax hax hx
    exact ⟨k4 ax hax hx, fun e => by simp only [slabEnv, if_neg hx]⟩
  · intro e he
    have he' : InRange indices.shape e := fun x m hm => he x m (by rw [hsi]; exact hm)
    have he2 : InRange r.shape e := by rw [k9]; exact he'
    rw [← k10 e he', d8 e he2]
    exact s6 e (hrange e he')

/-! ### Indexing vectors with vectors -/

namespace Comp

/-- Specification: `it` is what the index `item` has for the component at the path `p`. -/
def IndexAt (item : Dict (Comp IndexVal)) (p : List String) (it : Dict IndexVal) : Prop :=
  List.Forall₂ (fun q q' => q'.1 = q.1 ∧ q.2.leafB p = some q'.2) item it

theorem accepts_leafB : ∀ (c : Comp α) (w : Comp β), c.Accepts w → ∀ p a, c.leafAt p = some a → ∃ x, w.leafB p = some x := by
  refine ind ?_ ?_
  · rintro a (x | _) h p b hb
    · exact ⟨x, by cases p <;> rfl⟩
    · simp [Accepts] at h
  · rintro cls cs ih (x | ⟨cls', cs'⟩) h p b hb
    · exact ⟨x, by cases p <;> rfl⟩
    · simp only [Accepts, acceptsL_iff] at h
      cases p with
      | nil => simp [leafAt] at hb
      | cons k p =>
        simp only [leafAt] at hb
        cases hg : get? cs k with
        | none => rw [hg] at hb; simp at hb
        | some c =>
          rw [hg] at hb
          obtain ⟨c', h1, h2⟩ := h.2 _ (mem_of_get? hg)
          simp only at h1 h2
          obtain ⟨x, hx⟩ := ih _ (mem_of_get? hg) c' h2 p b hb
          exact ⟨x, by simp only [leafB, h1]; exact hx⟩

theorem exists_indexAt {item : Dict (Comp IndexVal)} {c : Comp α} (hacc : ∀ q ∈ item, c.Accepts q.2) {p : List String} {a : α}
    (ha : c.leafAt p = some a) : ∃ it, IndexAt item p it :=
  exists_forall₂ (fun q hq => by
    obtain ⟨x, hx⟩ := accepts_leafB c q.2 (hacc q hq) p a ha
    exact ⟨(q.1, x), rfl, hx⟩)

theorem indexAt_unique {item : Dict (Comp IndexVal)} {p : List String} {it it' : Dict IndexVal} (h : IndexAt item p it)
    (h' : IndexAt item p it') : it = it' := by
  unfold IndexAt at h h'
  induction h generalizing it' with
  | nil => cases h'; rfl
  | @cons q q' l l' h1 _ ih =>
    cases h' with
    | @cons _ q'' _ l'' h2 h3 =>
      rw [ih h3]
      obtain ⟨h4, h5⟩ := h1
      obtain ⟨h6, h7⟩ := h2
      rw [h5] at h7
      injection h7 with h7
      congr 1
      exact Prod.ext (h4.trans h6.symm) h7

theorem indexAt_keys {item : Dict (Comp IndexVal)} {p : List String} {it : Dict IndexVal} (h : IndexAt item p it) :
    keys it = keys item := by
  unfold IndexAt at h
  induction h with
  | nil => rfl
  | cons h1 _ ih =>
    unfold keys at ih ⊢
    rw [List.map_cons, List.map_cons, ih, h1.1]

theorem indexAt_get? {item : Dict (Comp IndexVal)} {p : List String} {it : Dict IndexVal} (h : IndexAt item p it) (ax : String) :
    (get? item ax = none ∧ get? it ax = none) ∨ ∃ w x, get? item ax = some w ∧ get? it ax = some x ∧ w.leafB p = some x := by
  exact get?_of_forall₂ (P := fun _ w x => w.leafB p = some x) (h.imp (fun _ _ h => ⟨h.1.symm, h.2⟩)) ax

/-- the index at a leaf -/
theorem indexAt_leaf {item : Dict (Comp IndexVal)} {it : Dict IndexVal} (h : IndexAt item [] it) : scalarItem item = it := by
  unfold IndexAt at h
  induction h with
  | nil => rfl
  | @cons q q' l l' h1 _ ih =>
    obtain ⟨k, w⟩ := q
    obtain ⟨k', x⟩ := q'
    obtain ⟨h2, h3⟩ := h1
    cases w with
    | node _ _ => simp [leafB] at h3
    | leaf y =>
      simp only [leafB, Option.some.injEq] at h3 h2
      subst h2 h3
      unfold scalarItem at ih ⊢
      rw [List.filterMap_cons]
      simp only [ih]

theorem scalarItem_filter (item : Dict (Comp IndexVal)) (q : String → Bool) :
    scalarItem (item.filter (fun p => q p.1)) = (scalarItem item).filter (fun p => q p.1) := by
  unfold scalarItem
  induction item with
  | nil => rfl
  | cons p l ih =>
    obtain ⟨k, w⟩ := p
    by_cases h : q k = true
    · rw [List.filter_cons_of_pos (by exact h), List.filterMap_cons, List.filterMap_cons]
      cases w with
      | leaf x => simp only; rw [List.filter_cons_of_pos (by exact h), ih]
      | node _ _ => simp only; rw [ih]
    · rw [List.filter_cons_of_neg (by exact h), List.filterMap_cons]
      cases w with
      | leaf x => simp only; rw [List.filter_cons_of_neg (by exact h), ih]
      | node _ _ => simp only; rw [ih]

theorem itemPart_ok {cls : String} {cs : List (String × Comp α)} {w : Comp β} (h : (Comp.node cls cs).Accepts w)
    {q : String × Comp α} (hq : q ∈ cs) :
    ∃ w', itemPart q.1 w = .ok w' ∧ q.2.Accepts w' ∧ ∀ p, w.leafB (q.1 :: p) = w'.leafB p := by
  cases w with
  | leaf x =>
    refine ⟨.leaf x, rfl, by cases q.2 <;> simp [Accepts], fun p => by cases p <;> rfl⟩
  | node cls' cs' =>
    simp only [Accepts, acceptsL_iff] at h
    obtain ⟨c', h1, h2⟩ := h.2 q hq
    exact ⟨c', by simp only [itemPart, h1], h2, fun p => by simp only [leafB, h1]⟩

theorem itemParts_ok {cls : String} {cs : List (String × Comp α)} {item : Dict (Comp IndexVal)}
    (h : ∀ q ∈ item, (Comp.node cls cs).Accepts q.2) {q : String × Comp α} (hq : q ∈ cs) :
    ∃ it, itemParts q.1 item = .ok it ∧ (∀ q' ∈ it, q.2.Accepts q'.2) ∧
      ∀ p i, IndexAt it p i ↔ IndexAt item (q.1 :: p) i := by
  obtain ⟨it, hit⟩ := exists_forall₂ (P := fun (x y : String × Comp IndexVal) => (do .ok (x.1, ← itemPart q.1 x.2) : R _) = .ok y ∧
      y.1 = x.1 ∧ q.2.Accepts y.2 ∧ ∀ p, x.2.leafB (q.1 :: p) = y.2.leafB p) (l := item) (fun x hx => by
    obtain ⟨w', h1, h2, h3⟩ := itemPart_ok (h x hx) hq
    exact ⟨(x.1, w'), by simp [h1, bind, Except.bind], rfl, h2, h3⟩)
  refine ⟨it, mapM_of_forall₂ (hit.imp (fun _ _ h => h.1)), ?_, ?_⟩
  · intro y hy
    clear h hq
    induction hit with
    | nil => simp at hy
    | cons h1 _ ih =>
      rcases List.mem_cons.1 hy with rfl | hy
      · exact h1.2.2.1
      · exact ih hy
  · intro p i
    unfold IndexAt
    clear h hq
    induction hit generalizing i with
    | nil => cases i <;> simp
    | @cons x y l l' h1 _ ih =>
      cases i with
      | nil => simp
      | cons z i =>
        rw [List.forall₂_cons, List.forall₂_cons, ih, h1.2.1, h1.2.2.2]

theorem accepts_cls {cls : String} {cs : List (String × Comp α)} {w : Comp β} (h : (Comp.node cls cs).Accepts w) :
    w.cls? = none ∨ w.cls? = some cls := by
  cases w with
  | leaf x => exact .inl rfl
  | node cls' cs' => simp only [Accepts] at h; exact .inr (by simp only [cls?, h.1])

/-- A vector whose components accept the index. -/
theorem getitemVAux_ok (n : Nat) (c : Comp (SA α)) (hn : c.depth ≤ n) (hw : c.WFLeaves) (hf : c.Full) (hD : c.Dicts) (T : Shape)
    (hT : c.shape = .ok T) (item : Dict (Comp IndexVal)) (hacc : ∀ q ∈ item, c.Accepts q.2) (Q : List String → SA α → SA α → Prop)
    (hop : ∀ p a it, c.leafAt p = some a → IndexAt item p it → ∃ ra, a.getitem it = .ok ra ∧ Q p a ra) :
    ∃ r, getitemVAux n c item = .ok r ∧ c.Similar r ∧ ∀ p a, c.leafAt p = some a → ∃ ra, r.leafAt p = some ra ∧ Q p a ra := by
  induction n generalizing c T item Q with
  | zero => have := depth_pos c; omega
  | succ n ih =>
    cases c with
    | leaf a =>
      obtain ⟨it, hit⟩ := exists_indexAt hacc (show (Comp.leaf a).leafAt [] = some a from rfl)
      obtain ⟨ra, h1, h2⟩ := hop [] a it rfl hit
      refine ⟨.leaf ra, ?_, by simp [Similar, Lift], ?_⟩
      · simp only [getitemVAux]
        rw [if_pos (by
          rw [List.all_eq_true]
          intro p hp
          have := hacc p (List.mem_filter.1 hp).1
          cases hp2 : p.2 with
          | leaf x => simp [cls?]
          | node _ _ => rw [hp2] at this; simp [Accepts] at this)]
        rw [scalarItem_filter item (fun k => decide (k ∈ a.axes)), indexAt_leaf hit]
        have : a.getitem (it.filter (fun p => decide (p.1 ∈ a.axes))) = a.getitem it :=
          SA.C13_getitem_ignores_absent a _ _ (by simp)
        rw [this, h1]
        rfl
      · intro p b hb
        cases p with
        | nil =>
          simp only [leafAt, Option.some.injEq] at hb
          subst hb
          exact ⟨ra, rfl, h2⟩
        | cons _ _ => simp [leafAt] at hb
    | node cls cs =>
      simp only [Dicts, dictsL_iff] at hD
      have key : ∀ q ∈ cs, ∃ q' : String × Comp (SA α), (do
            let it ← itemParts q.1 item
            let r ← getitemVAux n q.2 it
            Except.ok (q.1, r) : R (String × Comp (SA α))) = .ok q' ∧ q.1 = q'.1 ∧ q.2.Similar q'.2 ∧
            ∀ p a, q.2.leafAt p = some a → ∃ ra, q'.2.leafAt p = some ra ∧ Q (q.1 :: p) a ra := by
        intro q hq
        obtain ⟨_, hqw, hqf, Sc, hSc, _⟩ := node_part hw hf hT hq
        obtain ⟨it, i1, i2, i3⟩ := itemParts_ok hacc hq
        have hget : get? cs q.1 = some q.2 := get?_of_mem hD.1 hq
        obtain ⟨r, r1, r2, r3⟩ := ih q.2 (by have := depth_le_of_mem hq; simp only [depth] at hn; omega) hqw hqf (hD.2 q hq) Sc hSc it i2 (fun p => Q (q.1 :: p)) (by
          intro p a i ha hi
          exact hop (q.1 :: p) a i (by simp only [leafAt, hget]; exact ha) ((i3 p i).1 hi))
        exact ⟨(q.1, r), by simp only [i1, r1, bind, Except.bind], rfl, r2, r3⟩
      obtain ⟨rs, hrs⟩ := exists_forall₂ key
      have hm := mapM_of_forall₂ (hrs.imp (fun _ _ h => h.1))
      refine ⟨.node cls rs, ?_, ?_, ?_⟩
      · simp only [getitemVAux, hT, bind, Except.bind] at hm ⊢
        rw [if_pos (by
          rw [List.all_eq_true]
          intro w hw'
          unfold values at hw'
          obtain ⟨q, hq, rfl⟩ := List.mem_map.1 hw'
          simpa using accepts_cls (hacc q hq)), hm]
      · simp only [Similar, Lift, liftL_iff, true_and]
        exact hrs.imp (fun _ _ h => ⟨h.2.1, h.2.2.1⟩)
      · intro p a ha
        cases p with
        | nil => simp [leafAt] at ha
        | cons k p =>
          simp only [leafAt] at ha ⊢
          rcases get?_of_forall₂ (P := fun k (c c' : Comp (SA α)) => ∀ p a, c.leafAt p = some a → ∃ ra, c'.leafAt p = some ra ∧ Q (k :: p) a ra)
              (hrs.imp (fun _ _ h => ⟨h.2.1, h.2.2.2⟩)) k with ⟨h1, _⟩ | ⟨c, c', h1, h2, h3⟩
          · rw [h1] at ha; simp at ha
          · rw [h1] at ha
            rw [h2]
            exact h3 p a ha

/-- **C87** (indexing). If the vectors in the index have the type and the components of `v`, each component of `v` is indexed with the
components of the same name (and with everything in the index which is not a vector). -/
theorem C87_getitem (v : Comp (SA α)) (hw : v.WFLeaves) (hf : v.Full) (hD : v.Dicts) (S : Shape) (hS : v.shape = .ok S)
    (item : Dict (Comp IndexVal)) (hacc : ∀ q ∈ item, v.Accepts q.2)
    (hok : ∀ p a it, v.leafAt p = some a → IndexAt item p it → ∃ ra, a.getitem it = .ok ra) :
    ∃ r, v.getitemV item = .ok r ∧ v.Similar r ∧
      ∀ p a, v.leafAt p = some a → ∃ it ra, IndexAt item p it ∧ r.leafAt p = some ra ∧ a.getitem it = .ok ra := by
  obtain ⟨r, h1, h2, h3⟩ := getitemVAux_ok _ v (Nat.le_add_right _ _) hw hf hD S hS item hacc
    (fun p a ra => ∃ it, IndexAt item p it ∧ a.getitem it = .ok ra) (by
      intro p a it ha hit
      obtain ⟨ra, h⟩ := hok p a it ha hit
      exact ⟨ra, h, it, hit, h⟩)
  refine ⟨r, h1, h2, ?_⟩
  intro p a ha
  obtain ⟨ra, h4, it, h5, h6⟩ := h3 p a ha
  exact ⟨it, ra, h5, h4, h6⟩

/-! ### Vectors of index arrays -/

/-- what an index has for an axis -/
def indexEntry (D : Dict (Comp IndexVal)) (ax : String) : Comp IndexVal := (get? D ax).getD (.leaf .none)

/-- the indices of the components, as one index -/
def gathered (cls : String) (rs : List (String × Dict (Comp IndexVal))) (axs : List String) : Dict (Comp IndexVal) :=
  axs.map (fun ax => (ax, .node cls (rs.map (fun q => (q.1, (get? q.2 ax).getD (.leaf .none))))))

theorem leafB_of_leaf (x : β) (p : List String) : (Comp.leaf x).leafB p = some x := by cases p <;> rfl

theorem indexEntry_gathered {cls : String} {rs : List (String × Dict (Comp IndexVal))} {axs : List String} {k : String}
    {D : Dict (Comp IndexVal)} (hk : get? rs k = some D) (hD : keys D ⊆ axs) (ax : String) (p : List String) :
    (indexEntry (gathered cls rs axs) ax).leafB (k :: p) = (indexEntry D ax).leafB p := by
  unfold indexEntry gathered
  rw [SA.get?_map_list (fun ax => Comp.node cls (rs.map (fun q => (q.1, (get? q.2 ax).getD (.leaf .none)))))]
  by_cases h : ax ∈ axs
  · rw [if_pos h]
    simp only [Option.getD_some, leafB]
    rw [SA.get?_map_pair rs (fun _ d => (get? d ax).getD (.leaf .none)), hk]
    rfl
  · rw [if_neg h, get?_eq_none.2 (fun h' => h (hD h'))]
    simp only [Option.getD_none, leafB_of_leaf]

theorem accepts_leaf (c : Comp α) (x : β) : c.Accepts (.leaf x) := by cases c <;> simp [Accepts]

theorem accepts_gathered {cls : String} {cs : List (String × Comp α)} (hcs : Dict.WF cs) {rs : List (String × Dict (Comp IndexVal))}
    {axs : List String} (h : List.Forall₂ (fun q r => q.1 = r.1 ∧ ∀ x ∈ r.2, q.2.Accepts x.2) cs rs) :
    ∀ x ∈ gathered cls rs axs, (Comp.node cls cs).Accepts x.2 := by
  intro x hx
  unfold gathered at hx
  obtain ⟨ax, _, rfl⟩ := List.mem_map.1 hx
  simp only [Accepts, acceptsL_iff, true_and]
  intro q hq
  rcases get?_of_forall₂ (P := fun _ (c : Comp α) (d : Dict (Comp IndexVal)) => ∀ x ∈ d, c.Accepts x.2) h q.1 with ⟨h1, _⟩ | ⟨c, d, h1, h2, h3⟩
  · rw [get?_of_mem hcs hq] at h1; simp at h1
  · rw [get?_of_mem hcs hq] at h1
    injection h1 with h1
    subst h1
    refine ⟨(get? d ax).getD (.leaf .none), ?_, ?_⟩
    · rw [SA.get?_map_pair rs (fun _ d => (get? d ax).getD (.leaf .none)), h2]; rfl
    · cases hg : get? d ax with
      | none => exact accepts_leaf _ _
      | some w => exact h3 _ (mem_of_get? hg)

theorem accepts_similar : ∀ (c : Comp α) (c' : Comp γ) (w : Comp β), c.Similar c' → c'.Accepts w → c.Accepts w := by
  refine ind ?_ ?_
  · rintro a (a' | _) w h hw
    · cases w <;> simp_all [Accepts]
    · simp [Similar, Lift] at h
  · rintro cls cs ih (a' | ⟨cls', cs'⟩) w h hw
    · simp [Similar, Lift] at h
    · cases w with
      | leaf x => simp [Accepts]
      | node cls'' ws =>
        simp only [Similar, Lift, liftL_iff] at h
        simp only [Accepts, acceptsL_iff] at hw ⊢
        obtain ⟨rfl, h⟩ := h
        refine ⟨hw.1, ?_⟩
        have hall : ∀ q ∈ cs, ∃ q' ∈ cs', q.1 = q'.1 ∧ q.2.Similar q'.2 := by
          intro q hq
          clear ih hw
          induction h with
          | nil => simp at hq
          | @cons x y l l' h1 _ ih' =>
            rcases List.mem_cons.1 hq with rfl | hq
            · exact ⟨y, List.mem_cons_self, h1.1, h1.2⟩
            · obtain ⟨q', h2, h3⟩ := ih' hq
              exact ⟨q', List.mem_cons_of_mem _ h2, h3⟩
        intro q hq
        obtain ⟨q', h1, h2, h3⟩ := hall q hq
        obtain ⟨c', h4, h5⟩ := hw.2 q' h1
        exact ⟨c', by rw [h2]; exact h4, ih q hq q'.2 c' h3 h5⟩

/-! ### Sorting permutations -/

/-- At a path: the indices of the sorting permutation, and the sorted scalar. -/
def PickedLeaf (asrt : List α → List Nat) (srt : List α → List α) (dflt : α) (S : Shape) (A : List String) (f : String → IndexVal)
    (a ra : SA α) : Prop :=
  ((∀ ax, f ax = .none) ∧ (ra.WF ∧ (∀ e, ra.atB e = a.atB e) ∧ FitsIn a.shape ra.shape ∧ FitsIn ra.shape S ∧ ∀ ax ∈ A, ax ∉ ra.axes)) ∨
    ∃ a' d, BroadcastAlong S A a a' ∧ a'.argsort asrt (some A) = .ok d ∧ a'.sort srt dflt (some A) = .ok ra ∧
      ∀ ax, f ax = (get? d ax).elim .none .arr

theorem argsortAux_ok (asrt : List α → List Nat) (srt : List α → List α) (dflt : α) (S : Shape) (A : List String) (hA : A ⊆ keys S)
    (hAne : A ≠ [])
    (hop : ∀ a a' : SA α, BroadcastAlong S A a a' → ∃ d ra, a'.argsort asrt (some A) = .ok d ∧ Dict.WF d ∧ (∀ ax, ax ∈ keys d ↔ ax ∈ a'.axes) ∧
      a'.sort srt dflt (some A) = .ok ra)
    (n : Nat) (c : Comp (SA α)) (hn : c.depth ≤ n) (hw : c.WFLeaves) (hf : c.Full) (hD : c.Dicts) (T : Shape)
    (hT : c.shape = .ok T) (hTS : FitsIn T S) (hTA : ∀ ax ∈ A, get? T ax = get? S ax) :
    ∃ D r, argsortAux asrt A n c = .ok D ∧ sortAux srt dflt A n c = .ok r ∧ Dict.WF D ∧ (∀ ax, ax ∈ keys D ↔ ax ∈ keys T) ∧
      (∀ q ∈ D, c.Accepts q.2) ∧ c.Similar r ∧
      ∀ p a, c.leafAt p = some a → ∃ f ra, (∀ ax, (indexEntry D ax).leafB p = some (f ax)) ∧ r.leafAt p = some ra ∧
        PickedLeaf asrt srt dflt S A f a ra := by
  induction n generalizing c T with
  | zero => have := depth_pos c; omega
  | succ n ih =>
    cases c with
    | leaf a =>
      simp only [shape, Except.ok.injEq] at hT
      have haw := hw a (by simp [leaves])
      have hb : BroadcastAlong S A a a :=
        ⟨haw, fun _ => rfl, by rw [hT]; exact hTS, fitsIn_refl _, by rw [hT]; exact hTA⟩
      obtain ⟨d, ra, h1, h2, h3, h4⟩ := hop a a hb
      refine ⟨d.map (fun p => (p.1, .leaf (.arr p.2))), .leaf ra, by simp [argsortAux, h1, bind, Except.bind],
        by simp [sortAux, h4, bind, Except.bind], ?_, ?_, ?_, by simp [Similar, Lift], ?_⟩
      · unfold Dict.WF keys at h2 ⊢
        rw [List.map_map]
        exact h2
      · intro ax
        rw [← hT, SA.keys_shape haw, ← h3]
        unfold keys
        rw [List.map_map]
        rfl
      · intro q hq
        obtain ⟨x, _, rfl⟩ := List.mem_map.1 hq
        exact accepts_leaf _ _
      · intro p b hb'
        cases p with
        | cons _ _ => simp [leafAt] at hb'
        | nil =>
          simp only [leafAt, Option.some.injEq] at hb'
          subst hb'
          refine ⟨fun ax => (get? d ax).elim .none .arr, ra, ?_, rfl, .inr ⟨a, d, hb, h1, h4, fun _ => rfl⟩⟩
          intro ax
          unfold indexEntry
          rw [SA.get?_map_pair d (fun _ b => Comp.leaf (IndexVal.arr b))]
          cases hg : get? d ax <;> simp [leafB, hg]
    | node cls cs =>
      have hTw := shape_wf _ hw T hT
      have hAT : A ⊆ keys T := by
        intro ax h
        obtain ⟨k, hk⟩ := exists_get?_of_mem (hA h)
        exact mem_keys_of_get? ((hTA ax h).trans hk)
      have hD0 := hD
      simp only [Dicts, dictsL_iff] at hD
      have key : ∀ p ∈ cs, ∃ q : (String × Dict (Comp IndexVal)) × (String × Comp (SA α)),
          ((do let s ← p.2.shape
               if s.keys.any (· ∈ A) then do
                 let c ← broadcastBase (shapeBase T A) p.2
                 let d ← argsortAux asrt A n c
                 Except.ok (p.1, d)
               else Except.ok (p.1, []) : R (String × Dict (Comp IndexVal))) = .ok q.1 ∧
          (do let s ← p.2.shape
              if s.keys.any (· ∈ A) then do
                let c ← broadcastBase (shapeBase T A) p.2
                let r ← sortAux srt dflt A n c
                Except.ok (p.1, r)
              else Except.ok p : R (String × Comp (SA α))) = .ok q.2) ∧ p.1 = q.1.1 ∧ p.1 = q.2.1 ∧
          keys q.1.2 ⊆ keys T ∧ (∀ x ∈ q.1.2, p.2.Accepts x.2) ∧ p.2.Similar q.2.2 ∧
          ∀ path a, p.2.leafAt path = some a → ∃ f ra, (∀ ax, (indexEntry q.1.2 ax).leafB path = some (f ax)) ∧ q.2.2.leafAt path = some ra ∧
            PickedLeaf asrt srt dflt S A f a ra := by
        intro p hp
        obtain ⟨hpl, hpw, hpf, Sc, hSc, hScT⟩ := node_part hw hf hT hp
        by_cases hany : Sc.keys.any (· ∈ A) = true
        · obtain ⟨c', T', h1, h2, h3, h4, h5, h6, h7, h8⟩ := part_ok hA hw hf hT hTS hTA (fun _ => Iff.rfl) hn hp
          obtain ⟨c'', T'', h1', _, _, _, h5', h6', _, _⟩ := part_ok hAT hw hf hT (fitsIn_refl T) (fun _ _ => rfl) (fun _ => Iff.rfl) hn hp
          rw [h1] at h1'
          injection h1' with h1'
          subst h1'
          rw [h5] at h5'
          injection h5' with h5'
          subst h5'
          obtain ⟨D, r, g1, g2, g3, g4, g5, g6, g7⟩ := ih c' h2 h3 h4 (lift_dicts _ _ h8 (hD.2 p hp)) T' h5 h6 h7
          refine ⟨((p.1, D), (p.1, r)), ⟨by simp [hSc, hany, h1, g1, bind, Except.bind], by simp [hSc, hany, h1, g2, bind, Except.bind]⟩,
            rfl, rfl, ?_, ?_, ?_, ?_⟩
          · intro ax hax
            obtain ⟨m, hm⟩ := exists_get?_of_mem ((g4 ax).1 hax)
            obtain ⟨k, hk, _⟩ := h6' ax m hm
            exact mem_keys_of_get? hk
          · intro x hx
            exact accepts_similar _ _ _ (lift_mono (fun _ _ _ => trivial) _ _ h8) (g5 x hx)
          · exact lift_mono (fun _ _ _ => trivial) _ _ (lift_trans _ _ _ h8 g6)
          · intro path a ha
            obtain ⟨b, hb, hab⟩ := (lift_leafAt h8 path).1 a ha
            obtain ⟨f, ra, f1, f2, f3⟩ := g7 path b hb
            refine ⟨f, ra, f1, f2, ?_⟩
            rcases f3 with ⟨f3, h⟩ | ⟨a', d, h9, h10⟩
            · exact .inl ⟨f3, h.1, fun e => (h.2.1 e).trans (hab.2.2.2 e), fitsIn_trans hab.2.2.1 h.2.2.1, h.2.2.2⟩
            · exact .inr ⟨a', d, broadcastAlong_trans hab h9, h10⟩
        · refine ⟨((p.1, []), p), ⟨by simp [hSc, hany, bind, Except.bind], by simp [hSc, hany, bind, Except.bind]⟩, rfl, rfl, by simp [keys],
            by simp, similar_refl _, ?_⟩
          intro path a ha
          have ham := leafAt_mem_leaves ha
          have hfit := leaf_fits hpw hSc ham
          refine ⟨fun _ => .none, a, fun ax => leafB_of_leaf _ _, ha, .inl ⟨fun _ => rfl, hpw a ham, fun _ => rfl, fitsIn_refl _,
            fitsIn_trans hfit (fitsIn_trans hScT hTS), ?_⟩⟩
          intro ax hax hax'
          rw [← SA.keys_shape (hpw a ham)] at hax'
          obtain ⟨m, hm⟩ := exists_get?_of_mem hax'
          obtain ⟨k, hk, _⟩ := hfit ax m hm
          apply hany
          rw [List.any_eq_true]
          exact ⟨ax, mem_keys_of_get? hk, by simpa using hax⟩
      obtain ⟨qs, hqs⟩ := exists_forall₂ key
      have hqs1 := List.forall₂_map_right_iff (f := Prod.fst) (R := fun (p : String × Comp (SA α)) (q : String × Dict (Comp IndexVal)) =>
          (do let s ← p.2.shape
              if s.keys.any (· ∈ A) then do
                let c ← broadcastBase (shapeBase T A) p.2
                let d ← argsortAux asrt A n c
                Except.ok (p.1, d)
              else Except.ok (p.1, []) : R (String × Dict (Comp IndexVal))) = .ok q) |>.2 (hqs.imp (fun _ _ h => h.1.1))
      have hqs2 := List.forall₂_map_right_iff (f := Prod.snd) (R := fun (p : String × Comp (SA α)) (q : String × Comp (SA α)) =>
          (do let s ← p.2.shape
              if s.keys.any (· ∈ A) then do
                let c ← broadcastBase (shapeBase T A) p.2
                let r ← sortAux srt dflt A n c
                Except.ok (p.1, r)
              else Except.ok p : R (String × Comp (SA α))) = .ok q) |>.2 (hqs.imp (fun _ _ h => h.1.2))
      have hm1 := mapM_of_forall₂ hqs1
      have hm2 := mapM_of_forall₂ hqs2
      have he : A.isEmpty = false := by cases A <;> simp_all
      refine ⟨gathered cls (qs.map Prod.fst) (keys T), .node cls (qs.map Prod.snd), ?_, ?_, ?_, ?_, ?_, ?_, ?_⟩
      · simp only [argsortAux, hT, he, bind, Except.bind] at hm1 ⊢
        rw [if_neg (by simp), if_neg (not_not.2 hAT), hm1]
        rfl
      · simp only [sortAux, hT, he, bind, Except.bind] at hm2 ⊢
        rw [if_neg (by simp), if_neg (not_not.2 hAT), hm2]
      · unfold gathered Dict.WF keys
        rw [List.map_map]
        unfold Dict.WF keys at hTw
        simpa [Function.comp_def] using hTw
      · intro ax
        unfold gathered keys
        rw [List.map_map]
        simp [Function.comp_def]
      · apply accepts_gathered hD.1
        rw [List.forall₂_map_right_iff]
        exact hqs.imp (fun _ _ h => ⟨h.2.1, h.2.2.2.2.1⟩)
      · simp only [Similar, Lift, liftL_iff, true_and]
        rw [List.forall₂_map_right_iff]
        exact hqs.imp (fun _ _ h => ⟨h.2.2.1, h.2.2.2.2.2.1⟩)
      · intro path a ha
        cases path with
        | nil => simp [leafAt] at ha
        | cons k path =>
          simp only [leafAt] at ha ⊢
          have hboth : ∃ c D r, get? cs k = some c ∧ get? (qs.map Prod.fst) k = some D ∧ get? (qs.map Prod.snd) k = some r ∧
              c.leafAt path = some a ∧ keys D ⊆ keys T ∧
              ∀ path a, c.leafAt path = some a → ∃ f ra, (∀ ax, (indexEntry D ax).leafB path = some (f ax)) ∧ r.leafAt path = some ra ∧
                PickedLeaf asrt srt dflt S A f a ra := by
            clear hqs1 hqs2 hm1 hm2 key hD0 hD hT hf hw hn
            induction hqs with
            | nil => simp [get?_nil] at ha
            | @cons x y l l' h1 _ ih' =>
              rw [List.map_cons, List.map_cons]
              rw [get?_cons] at ha
              by_cases hx : x.1 = k
              · rw [if_pos hx] at ha
                refine ⟨x.2, y.1.2, y.2.2, by rw [get?_cons, if_pos hx], by rw [get?_cons, if_pos (h1.2.1 ▸ hx)],
                  by rw [get?_cons, if_pos (h1.2.2.1 ▸ hx)], ha, h1.2.2.2.1, h1.2.2.2.2.2.2⟩
              · rw [if_neg hx] at ha
                obtain ⟨c, D, r, g1, g2, g3, g4⟩ := ih' ha
                exact ⟨c, D, r, by rw [get?_cons, if_neg hx]; exact g1, by rw [get?_cons, if_neg (h1.2.1 ▸ hx)]; exact g2,
                  by rw [get?_cons, if_neg (h1.2.2.1 ▸ hx)]; exact g3, g4⟩
          obtain ⟨c, D, r, g1, g2, g3, g4, g5, g6⟩ := hboth
          obtain ⟨f, ra, f1, f2, f3⟩ := g6 path a g4
          refine ⟨f, ra, ?_, ?_, f3⟩
          · intro ax
            rw [indexEntry_gathered g2 g5]
            exact f1 ax
          · rw [g3]
            exact f2

theorem itemWF_of_indexAt {D : Dict (Comp IndexVal)} (hD : Dict.WF D) {p : List String} {it : Dict IndexVal} (hit : IndexAt D p it)
    {f : String → IndexVal} (hf : ∀ ax, (indexEntry D ax).leafB p = some (f ax)) (hb : ∀ ax b, f ax = .arr b → b.WF) :
    SA.ItemWF it ∧ ∀ ax ∈ keys D, get? it ax = some (f ax) := by
  have hwf : Dict.WF it := by
    unfold Dict.WF at hD ⊢
    rw [indexAt_keys hit]
    exact hD
  have hget : ∀ ax ∈ keys D, get? it ax = some (f ax) := by
    intro ax hax
    rcases indexAt_get? hit ax with ⟨h1, _⟩ | ⟨w, x, h1, h2, h3⟩
    · exact absurd hax (get?_eq_none.1 h1)
    · have := hf ax
      unfold indexEntry at this
      rw [h1] at this
      simp only [Option.getD_some] at this
      rw [h3] at this
      rw [h2, this]
  refine ⟨⟨hwf, ?_⟩, hget⟩
  intro ax b hm
  have h1 := get?_of_mem hwf hm
  have hax : ax ∈ keys D := by rw [← indexAt_keys hit]; exact mem_keys_of_get? h1
  rw [hget ax hax] at h1
  injection h1 with h1
  exact hb ax b h1

theorem argsort_hop {S : Shape} {A : List String} (hAn : A.Nodup) (hAne : A ≠ []) (hA : A ⊆ keys S)
    (hcoll : ∀ ax ∈ keys S, ax ∉ A → ax ≠ "*".intercalate A) (hpos : ∀ ax ∈ keys S, ax ∉ A → get? S ax ≠ some 0)
    {srt : List α → List α} {asrt : List α → List Nat} (has : SA.IsArgSort asrt srt) (hlen : ∀ l, (srt l).length = l.length) (dflt : α)
    {a a' : SA α} (hb : BroadcastAlong S A a a') :
    ∃ d s, SA.argsort asrt a' (some A) = .ok d ∧ SA.sort srt dflt a' (some A) = .ok s ∧ Dict.WF d ∧ s.WF ∧
      (∀ ax, ax ∈ keys d ↔ ax ∈ a'.axes) ∧
      s.axes = a'.axes.filter (· ∉ A) ++ ["*".intercalate A] ∧
      (∀ ax ∈ a'.axes, ax ∉ A → get? s.shape ax = get? a'.shape ax) ∧
      ∃ I : String → (String → Nat) → Nat,
        (∀ ax ∈ A, ∃ b, get? d ax = some b ∧ b.WF ∧ (∀ x, get? b.shape x = get? s.shape x) ∧
          ∀ e, InRange b.shape e → b.at' e = (I ax e : Int) ∧ I ax e < a'.sizeOf' ax) ∧
        (∀ ax ∈ a'.axes, ax ∉ A → get? d ax = some (SA.arange ax (a'.sizeOf' ax)) ∧ ∀ e, I ax e = e ax) ∧
        ∀ e, InRange s.shape e → s.at' e = a'.at' (fun ax => I ax e) := by
  obtain ⟨x1, x2, _⟩ := axes_broadcast hA hb
  refine SA.argsort_parts hb.1 hAn hAne x1 (fun ax h h' => hcoll ax (x2 h) h') ?_ srt asrt has hlen dflt
  intro ax h h' h0
  obtain ⟨k, hk, h1⟩ := hb.2.2.1 ax 0 h0
  have hk0 : k = 0 := by omega
  exact hpos ax (x2 h) h' (hk0 ▸ hk)

/-- **C87** (`np.argsort`). If no component is stretched (each has, along each of its axes, the size of the vector), indexing a vector with the
result of `np.argsort` has the elements of `np.sort`: each component of `v[np.argsort(v, axis)]` has only axes and sizes of the same component of
`np.sort(v, axis)`, all of them if the component has one of the sorted axes, and the same element at every named index. -/
theorem C87_argsort_partial (v : Comp (SA α)) (hw : v.WFLeaves) (hf : v.Full) (hD : v.Dicts) (S : Shape) (hS : v.shape = .ok S)
    (axis : Option (List String)) (A : List String) (hax : A = axis.getD (keys S)) (hAn : A.Nodup) (hAne : A ≠ []) (hA : A ⊆ keys S)
    (hcoll : ∀ ax ∈ keys S, ax ∉ A → ax ≠ "*".intercalate A) (hpos : ∀ ax ∈ keys S, ax ∉ A → get? S ax ≠ some 0)
    (hexact : ∀ a ∈ v.leaves, ∀ ax m, get? a.shape ax = some m → get? S ax = some m)
    (le : α → α → Prop) (srt : List α → List α) (hsrt : SA.IsSort le srt) (asrt : List α → List Nat) (has : SA.IsArgSort asrt srt) (dflt : α) :
    ∃ D s r, v.argsort asrt axis = .ok D ∧ v.sort srt dflt axis = .ok s ∧ v.getitemV D = .ok r ∧
      Dict.WF D ∧ (∀ ax, ax ∈ keys D ↔ ax ∈ keys S) ∧ v.Similar s ∧ v.Similar r ∧
      ∀ p a, v.leafAt p = some a → ∃ sa ra, s.leafAt p = some sa ∧ r.leafAt p = some ra ∧ ra.WF ∧
        (∀ x m, get? ra.shape x = some m → get? sa.shape x = some m) ∧
        ((∃ ax ∈ A, ax ∈ a.axes) → ∀ x, get? ra.shape x = get? sa.shape x) ∧
        ∀ e, InRange sa.shape e → ra.at' e = sa.at' e := by
  have hlen : ∀ l, (srt l).length = l.length := fun l => (hsrt l).1.length_eq
  obtain ⟨D, s, h1, h2, h3, h4, h5, h6, h7⟩ := argsortAux_ok asrt srt dflt S A hA hAne (fun a a' hb => by
    obtain ⟨d, ra, g1, g2, g3, g4, g5, _⟩ := argsort_hop hAn hAne hA hcoll hpos has hlen dflt hb
    exact ⟨d, ra, g1, g3, g5, g2⟩) v.depth v le_rfl hw hf hD S hS (fitsIn_refl S) (fun _ _ => rfl)
  obtain ⟨r, r1, r2, r3⟩ := getitemVAux_ok _ v (Nat.le_add_right _ _) hw hf hD S hS D h5
    (fun p a ra => ∃ sa, s.leafAt p = some sa ∧ ra.WF ∧ (∀ x m, get? ra.shape x = some m → get? sa.shape x = some m) ∧
        ((∃ ax ∈ A, ax ∈ a.axes) → ∀ x, get? ra.shape x = get? sa.shape x) ∧
        ∀ e, InRange sa.shape e → ra.at' e = sa.at' e) (by
    intro p a it ha hit
    obtain ⟨f, sa, f1, f2, f3⟩ := h7 p a ha
    have ham := leafAt_mem_leaves ha
    have haw := hw a ham
    have hfit := leaf_fits hw hS ham
    have hkeys : ∀ ax ∈ a.axes, ax ∈ keys D := by
      intro ax hax'
      rw [← SA.keys_shape haw] at hax'
      obtain ⟨m, hm⟩ := exists_get?_of_mem hax'
      exact (h4 ax).2 (mem_keys_of_get? (hexact a ham ax m hm))
    rcases f3 with ⟨f3, g1, g2, g3, g4, g5⟩ | ⟨a', d, hb, hd, hs, hf'⟩
    · -- not sorted
      obtain ⟨hi, hget⟩ := itemWF_of_indexAt h3 hit f1 (by intro ax b h; rw [f3] at h; simp at h)
      obtain ⟨ra, e1, e2, e3, e4⟩ := SA.getitem_none haw hi (by
        intro ax hax' x hx
        rw [hget ax (hkeys ax hax'), f3] at hx
        injection hx with hx
        exact hx.symm)
      have hsub : ∀ x m, get? a.shape x = some m → get? sa.shape x = some m := by
        intro x m hm
        obtain ⟨k, hk, hmk⟩ := g3 x m hm
        obtain ⟨n, hn, hkn⟩ := g4 x k hk
        have := hexact a ham x m hm
        rw [hn] at this
        injection this with this
        have : k = m := by omega
        rw [hk, this]
      refine ⟨ra, e1, sa, f2, e2, ?_, ?_, ?_⟩
      · intro x m hm
        rw [e3] at hm
        exact hsub x m hm
      · rintro ⟨ax, hax', hax''⟩
        rw [← SA.keys_shape haw] at hax''
        obtain ⟨m, hm⟩ := exists_get?_of_mem hax''
        exact absurd (by rw [← SA.keys_shape g1]; exact mem_keys_of_get? (hsub ax m hm)) (g5 ax hax')
      · intro e he
        rw [e4, ← SA.atB_eq_at' g1 he, g2, SA.atB_eq_at' haw (fun x m hm => he x m (hsub x m hm))]
    · obtain ⟨d', s', g1, g2, g3, g4, g5, g6, g7, I, g8, g9, g10⟩ := argsort_hop hAn hAne hA hcoll hpos has hlen dflt hb
      rw [hd] at g1
      injection g1 with g1
      subst g1
      rw [hs] at g2
      injection g2 with g2
      subst g2
      obtain ⟨x1, x2, x3⟩ := axes_broadcast hA hb
      have hsame : ∀ x m, get? a.shape x = some m → get? a'.shape x = some m := by
        intro x m hm
        obtain ⟨k, hk, hmk⟩ := hb.2.2.2.1 x m hm
        obtain ⟨n, hn, hkn⟩ := hb.2.2.1 x k hk
        have := hexact a ham x m hm
        rw [hn] at this
        injection this with this
        have : k = m := by omega
        rw [hk, this]
      have hsize : ∀ ax ∈ a.axes, ax ∈ a'.axes ∧ a'.sizeOf' ax = a.sizeOf' ax ∧ get? a.shape ax = some (a.sizeOf' ax) ∧
          get? a'.shape ax = some (a.sizeOf' ax) := by
        intro ax hax'
        rw [← SA.keys_shape haw] at hax'
        obtain ⟨m, hm⟩ := exists_get?_of_mem hax'
        refine ⟨x3 ax m hm, ?_, ?_, ?_⟩ <;> simp [SA.sizeOf', hm, hsame ax m hm]
      -- the index arrays
      have harr : ∀ ax ∈ a.axes, ∃ b : SA Int, get? d ax = some b ∧ b.WF ∧ (∀ x m, get? b.shape x = some m → get? sa.shape x = some m) ∧
          (∀ e, InRange b.shape e → b.at' e = (I ax e : Int) ∧ I ax e < a.sizeOf' ax) ∧
          (ax ∈ A → ∀ x, get? b.shape x = get? sa.shape x) := by
        intro ax hax'
        obtain ⟨y1, y2, y3, y4⟩ := hsize ax hax'
        by_cases hA' : ax ∈ A
        · obtain ⟨b, b1, b2, b3, b4⟩ := g8 ax hA'
          exact ⟨b, b1, b2, fun x m hm => by rw [← b3]; exact hm, fun e he => by rw [← y2]; exact b4 e he, fun _ => b3⟩
        · obtain ⟨z1, z2⟩ := g9 ax y1 hA'
          rw [y2] at z1
          refine ⟨_, z1, SA.wf_arange _ _, ?_, ?_, fun h => absurd h hA'⟩
          · intro x m hm
            rw [SA.shape_arange, get?_cons] at hm
            by_cases hx : ax = x
            · subst hx
              rw [if_pos rfl] at hm
              injection hm with hm
              rw [g7 ax y1 hA', y4, ← hm]
            · rw [if_neg hx] at hm
              simp [get?_nil] at hm
          · intro e he
            rw [z2]
            refine ⟨rfl, he ax _ (by rw [SA.shape_arange, get?_cons, if_pos rfl])⟩
      have hfarr : ∀ ax b, get? d ax = some b → f ax = .arr b := by
        intro ax b h
        rw [hf', h]
        rfl
      obtain ⟨hi, hget⟩ := itemWF_of_indexAt h3 hit f1 (by
        intro ax b h
        rw [hf'] at h
        cases hg : get? d ax with
        | none => rw [hg] at h; simp at h
        | some b' =>
          rw [hg] at h
          simp only [Option.elim_some, IndexVal.arr.injEq] at h
          subst h
          have hax' : ax ∈ a'.axes := (g5 ax).1 (mem_keys_of_get? hg)
          by_cases hA' : ax ∈ A
          · obtain ⟨b, b1, b2, _⟩ := g8 ax hA'
            rw [hg] at b1
            injection b1 with b1
            exact b1 ▸ b2
          · obtain ⟨z1, _⟩ := g9 ax hax' hA'
            rw [hg] at z1
            injection z1 with z1
            exact z1 ▸ SA.wf_arange _ _)
      obtain ⟨ra, e1, e2, e3, e4⟩ := SA.getitem_exact haw hi sa.shape I (by
        intro ax hax'
        obtain ⟨b, b1, b2, b3, b4, _⟩ := harr ax hax'
        exact ⟨b, by rw [hget ax (hkeys ax hax'), hfarr ax b b1], b2, b3, b4⟩)
      have hsub : ∀ x m, get? ra.shape x = some m → get? sa.shape x = some m := by
        intro x m hm
        obtain ⟨ax, hax', b, b1, b2⟩ := (e3 x m).1 hm
        obtain ⟨b', c1, _, c3, _⟩ := harr ax hax'
        rw [hget ax (hkeys ax hax'), hfarr ax b' c1] at b1
        injection b1 with b1
        injection b1 with b1
        subst b1
        exact c3 x m b2
      refine ⟨ra, e1, sa, f2, e2, hsub, ?_, ?_⟩
      · rintro ⟨ax, hax', hax''⟩ x
        obtain ⟨b, b1, b2, b3, b4, b5⟩ := harr ax hax''
        cases hx : get? sa.shape x with
        | some m =>
          rw [e3]
          exact ⟨ax, hax'', b, by rw [hget ax (hkeys ax hax''), hfarr ax b b1], by rw [b5 hax', hx]⟩
        | none =>
          cases hx' : get? ra.shape x with
          | none => rfl
          | some m => rw [hsub x m hx'] at hx; simp at hx
      · intro e he
        rw [e4 e (fun x m hm => he x m (hsub x m hm)), g10 e he]
        have hin : InRange a'.shape (fun ax => I ax e) := by
          intro x m hm
          have hx' : x ∈ a'.axes := by rw [← SA.keys_shape hb.1]; exact mem_keys_of_get? hm
          have hsz : a'.sizeOf' x = m := by simp [SA.sizeOf', hm]
          by_cases hA' : x ∈ A
          · obtain ⟨b, _, _, b3, b4⟩ := g8 x hA'
            rw [← hsz]
            exact (b4 e (fun y k hk => he y k (by rw [← b3]; exact hk))).2
          · obtain ⟨_, z2⟩ := g9 x hx' hA'
            show I x e < m
            rw [z2]
            exact he x m (by rw [g7 x hx' hA', hm])
        rw [← SA.atB_eq_at' hb.1 hin, hb.2.1, SA.atB_eq_at' haw (fun x m hm => hin x m (hsame x m hm))])
  refine ⟨D, s, r, ?_, ?_, r1, h3, h4, h6, r2, ?_⟩
  · cases axis with
    | some B =>
      have e1 : A = B := hax
      subst e1
      exact h1
    | none =>
      have e1 : A = keys S := hax
      subst e1
      have he : (keys S).isEmpty = false := by
        rw [Bool.eq_false_iff]
        intro h
        exact hAne (List.isEmpty_iff.1 h)
      simp only [argsort, hS, bind, Except.bind, he, Bool.false_eq_true, if_false]
      exact h1
  · cases axis with
    | some B =>
      have e1 : A = B := hax
      subst e1
      exact h2
    | none =>
      have e1 : A = keys S := hax
      subst e1
      have he : (keys S).isEmpty = false := by
        rw [Bool.eq_false_iff]
        intro h
        exact hAne (List.isEmpty_iff.1 h)
      simp only [sort, hS, bind, Except.bind, he, Bool.false_eq_true, if_false]
      exact h2
  · intro p a ha
    obtain ⟨ra, e1, sa, e2, e3⟩ := r3 p a ha
    exact ⟨sa, ra, e2, e1, e3⟩

/-! ### Positions of the least elements -/

theorem _root_.NA.SA.argReduce_parts {a : SA α} (ha : a.WF) {A : List String} (hA : A.Nodup) (hAne : A ≠ [])
    (hAs : A ⊆ a.axes) (hcoll : ∀ ax ∈ a.axes, ax ∉ A → ax ≠ "*".intercalate A)
    (hne : ∀ ax, get? a.shape ax ≠ some 0) (g : List α → Nat) (hg : ∀ l, l ≠ [] → g l < l.length) :
    ∃ (d : Dict (SA Int)) (J : (String → Nat) → String → Nat), SA.argReduce g a (some A) = .ok d ∧ Dict.WF d ∧
      (∀ ax, ax ∈ keys d ↔ ax ∈ a.axes) ∧
      (∀ ax ∈ A, ∃ b, get? d ax = some b ∧ b.WF ∧
        (∀ x, get? b.shape x = if x ∈ A then none else get? a.shape x) ∧
        ∀ e, InRange b.shape e → b.at' e = (J e ax : Int)) ∧
      (∀ ax ∈ a.axes, ax ∉ A → get? d ax = some (SA.arange ax (a.sizeOf' ax))) ∧
      ∀ e, J e ∈ slabEnvs A a.sizeOf' e ∧ ∃ h : g (SA.slabList a A e) < (SA.slabList a A e).length,
        a.at' (J e) = (SA.slabList a A e)[g (SA.slabList a A e)] := by
  obtain ⟨d, h1, h2, h3, h4, _⟩ := SA.argReduce_main ha hA hAne hAs hcoll hne g hg
  refine ⟨d, fun e => slabEnv A (ND.unravel (A.map a.sizeOf') (g (SA.slabList a A e))) e, h1, UA.wf_argReduce ha hA h1, h2, ?_, h4, ?_⟩
  · intro ax hax
    obtain ⟨b, b1, b2, b3, b4, b5⟩ := h3 ax hax
    refine ⟨b, b1, b2, b4, fun e he => ?_⟩
    rw [b5 e he]
    simp only [slabEnv, if_pos hax]
  · intro e
    have hlt := hg _ (SA.slabList_ne_nil ha hAs hne e)
    refine ⟨?_, hlt, (SA.slabList_getElem hlt).symm⟩
    rw [SA.length_slabList a A e] at hlt
    unfold slabEnvs
    rw [ND.ndIndices_eq_map_unravel, List.map_map, List.mem_map]
    exact ⟨_, List.mem_range.2 hlt, rfl⟩

theorem argReduceAux_ok (g : List α → Nat) (n : Nat) (c : Comp (SA α)) (hn : c.depth ≤ n) (hw : c.WFLeaves) (hf : c.Full) (hD : c.Dicts)
    (T : Shape) (hT : c.shape = .ok T) (axis : Option (List String)) (hnone : axis = none → ∃ cls cs, c = .node cls cs)
    (A : List String) (hax : A = axis.getD (keys T)) (hAne : A ≠ []) (hA : A ⊆ keys T)
    (hop : ∀ a ∈ c.leaves, A.filter (· ∈ a.axes) ≠ [] → ∃ d, a.argReduce g (some (A.filter (· ∈ a.axes))) = .ok d ∧ Dict.WF d ∧
      ∀ ax, ax ∈ keys d ↔ ax ∈ a.axes) :
    ∃ D, argReduceAux g n axis c = .ok D ∧ Dict.WF D ∧ keys D ⊆ keys T ∧ (∀ q ∈ D, c.Accepts q.2) ∧
      ∀ p a, c.leafAt p = some a → ∃ f : String → IndexVal, (∀ ax, (indexEntry D ax).leafB p = some (f ax)) ∧
        ((A.filter (· ∈ a.axes) = [] ∧ ∀ ax, f ax = .none) ∨
          (A.filter (· ∈ a.axes) ≠ [] ∧ ∃ d, a.argReduce g (some (A.filter (· ∈ a.axes))) = .ok d ∧ ∀ ax, f ax = (get? d ax).elim .none .arr)) := by
  induction n generalizing c T axis A with
  | zero => have := depth_pos c; omega
  | succ n ih =>
    cases c with
    | leaf a =>
      cases axis with
      | none => obtain ⟨_, _, h⟩ := hnone rfl; simp at h
      | some B =>
        have hB : A = B := hax
        subst hB
        simp only [shape, Except.ok.injEq] at hT
        have haw := hw a (by simp [leaves])
        have hAa : A ⊆ a.axes := by rw [← SA.keys_shape haw, hT]; exact hA
        have hfil : A.filter (· ∈ a.axes) = A := List.filter_eq_self.2 (fun x hx => by simpa using hAa hx)
        obtain ⟨d, h1, h2, h3⟩ := hop a (by simp [leaves]) (by rw [hfil]; exact hAne)
        refine ⟨d.map (fun p => (p.1, .leaf (.arr p.2))), by rw [hfil] at h1; simp [argReduceAux, h1, bind, Except.bind], ?_, ?_, ?_, ?_⟩
        · unfold Dict.WF keys at h2 ⊢
          rw [List.map_map]
          exact h2
        · intro ax hax'
          rw [← hT, SA.keys_shape haw, ← h3]
          unfold keys at hax' ⊢
          rw [List.map_map] at hax'
          exact hax'
        · intro q hq
          obtain ⟨x, _, rfl⟩ := List.mem_map.1 hq
          exact accepts_leaf _ _
        · intro p b hb
          cases p with
          | cons _ _ => simp [leafAt] at hb
          | nil =>
            simp only [leafAt, Option.some.injEq] at hb
            subst hb
            refine ⟨fun ax => (get? d ax).elim .none .arr, ?_, .inr ⟨by rw [hfil]; exact hAne, d, h1, fun _ => rfl⟩⟩
            intro ax
            unfold indexEntry
            rw [SA.get?_map_pair d (fun _ b => Comp.leaf (IndexVal.arr b))]
            cases hg : get? d ax <;> simp [leafB, hg]
    | node cls cs =>
      simp only [Dicts, dictsL_iff] at hD
      have key : ∀ p ∈ cs, ∃ q : String × Dict (Comp IndexVal),
          (do let s ← p.2.shape
              if (A.filter (· ∈ s.keys)).isEmpty then Except.ok (p.1, [])
              else do
                let d ← argReduceAux g n (some (A.filter (· ∈ s.keys))) p.2
                Except.ok (p.1, d) : R (String × Dict (Comp IndexVal))) = .ok q ∧ p.1 = q.1 ∧
          keys q.2 ⊆ keys T ∧ (∀ x ∈ q.2, p.2.Accepts x.2) ∧
          ∀ path a, p.2.leafAt path = some a → ∃ f : String → IndexVal, (∀ ax, (indexEntry q.2 ax).leafB path = some (f ax)) ∧
            ((A.filter (· ∈ a.axes) = [] ∧ ∀ ax, f ax = .none) ∨
              (A.filter (· ∈ a.axes) ≠ [] ∧ ∃ d, a.argReduce g (some (A.filter (· ∈ a.axes))) = .ok d ∧
                ∀ ax, f ax = (get? d ax).elim .none .arr)) := by
        intro p hp
        obtain ⟨hpl, hpw, hpf, Sc, hSc, hScT⟩ := node_part hw hf hT hp
        have hsub : ∀ a ∈ p.2.leaves, ∀ ax ∈ a.axes, ax ∈ keys Sc := by
          intro a ha ax hax'
          rw [← SA.keys_shape (hpw a ha)] at hax'
          obtain ⟨m, hm⟩ := exists_get?_of_mem hax'
          obtain ⟨k, hk, _⟩ := leaf_fits hpw hSc ha ax m hm
          exact mem_keys_of_get? hk
        have hff : ∀ a ∈ p.2.leaves, (A.filter (· ∈ keys Sc)).filter (· ∈ a.axes) = A.filter (· ∈ a.axes) := by
          intro a ha
          rw [List.filter_filter]
          apply List.filter_congr
          intro x _
          by_cases hx : x ∈ a.axes
          · simp [hx, hsub a ha x hx]
          · simp [hx]
        by_cases hemp : (A.filter (· ∈ keys Sc)).isEmpty = true
        · refine ⟨(p.1, []), by simp only [hSc, bind, Except.bind]; rw [if_pos hemp], rfl, by simp [keys], by simp, ?_⟩
          intro path a ha
          refine ⟨fun _ => .none, fun ax => leafB_of_leaf _ _, .inl ⟨?_, fun _ => rfl⟩⟩
          rw [← hff a (leafAt_mem_leaves ha), List.isEmpty_iff.1 hemp]
          rfl
        · obtain ⟨D, g1, g2, g3, g4, g5⟩ := ih p.2 (by have := depth_le_of_mem hp; simp only [depth] at hn; omega) hpw hpf (hD.2 p hp) Sc hSc
            (some (A.filter (· ∈ keys Sc))) (by simp) (A.filter (· ∈ keys Sc)) rfl (fun h => hemp (by rw [h]; rfl))
            (fun x hx => by simpa using (List.mem_filter.1 hx).2) (by
              intro a ha h
              rw [hff a ha] at h ⊢
              exact hop a (hpl a ha) h)
          refine ⟨(p.1, D), by simp only [hSc, bind, Except.bind]; rw [if_neg hemp, g1], rfl, ?_, g4, ?_⟩
          · intro ax hax'
            obtain ⟨m, hm⟩ := exists_get?_of_mem (g3 hax')
            obtain ⟨k, hk, _⟩ := hScT ax m hm
            exact mem_keys_of_get? hk
          · intro path a ha
            have := g5 path a ha
            rw [hff a (leafAt_mem_leaves ha)] at this
            exact this
      obtain ⟨qs, hqs⟩ := exists_forall₂ key
      have hm := mapM_of_forall₂ (hqs.imp (fun _ _ h => h.1))
      set axs := (qs.flatMap (fun q => Dict.keys q.2)).dedup with haxs
      refine ⟨gathered cls qs axs, ?_, ?_, ?_, ?_, ?_⟩
      · have hA' : axisNormalized (keys T) axis = A := by
          cases axis with
          | none => exact hax.symm
          | some B => exact hax.symm
        simp only [argReduceAux, hT, bind, Except.bind, hA'] at hm ⊢
        rw [if_neg (by
            rintro ⟨h1, h2⟩
            cases axis with
            | none => simp at h1
            | some B =>
              have hB : A = B := hax
              subst hB
              exact h2 hA), if_neg (by
            rintro ⟨h1, h2⟩
            rw [List.isEmpty_iff] at h2
            subst h2
            exact hAne (List.eq_nil_iff_forall_not_mem.2 (fun x hx => by have := hA hx; simp [keys] at this)))]
        rw [hm]
        rfl
      · unfold gathered Dict.WF keys
        rw [List.map_map]
        simpa [Function.comp_def] using List.nodup_dedup _
      · intro ax hax'
        unfold gathered keys at hax'
        rw [List.map_map] at hax'
        have hax'' : ax ∈ axs := by simpa [Function.comp_def] using hax'
        rw [haxs, List.mem_dedup, List.mem_flatMap] at hax''
        obtain ⟨q, hq, hk⟩ := hax''
        clear hm haxs hax'
        clear_value axs
        clear key hn hf hw hD hT hnone hax hop ih
        induction hqs with
        | nil => simp at hq
        | cons h1 _ ih' =>
          rcases List.mem_cons.1 hq with rfl | hq
          · exact h1.2.2.1 hk
          · exact ih' hq
      · apply accepts_gathered hD.1
        exact hqs.imp (fun _ _ h => ⟨h.2.1, h.2.2.2.1⟩)
      · intro path a ha
        cases path with
        | nil => simp [leafAt] at ha
        | cons k path =>
          simp only [leafAt] at ha
          rcases get?_of_forall₂ (P := fun _ (c : Comp (SA α)) (D : Dict (Comp IndexVal)) =>
            ∀ path a, c.leafAt path = some a → ∃ f : String → IndexVal, (∀ ax, (indexEntry D ax).leafB path = some (f ax)) ∧
            ((A.filter (· ∈ a.axes) = [] ∧ ∀ ax, f ax = .none) ∨
              (A.filter (· ∈ a.axes) ≠ [] ∧ ∃ d, a.argReduce g (some (A.filter (· ∈ a.axes))) = .ok d ∧
                ∀ ax, f ax = (get? d ax).elim .none .arr))) (hqs.imp (fun _ _ h => ⟨h.2.1, h.2.2.2.2⟩)) k with ⟨h1, _⟩ | ⟨c, D, h1, h2, h3⟩
          · rw [h1] at ha; simp at ha
          · rw [h1] at ha
            obtain ⟨f, f1, f2⟩ := h3 path a ha
            refine ⟨f, ?_, f2⟩
            intro ax
            rw [indexEntry_gathered h2]
            · exact f1 ax
            · intro x hx
              rw [haxs, List.mem_dedup, List.mem_flatMap]
              exact ⟨(k, D), mem_of_get? h2, hx⟩

theorem get?_of_perm {d d' : Dict β} (h : d'.Perm d) (hw : Dict.WF d) : Dict.WF d' ∧ ∀ x, get? d' x = get? d x := by
  have hw' : Dict.WF d' := (h.map Prod.fst).nodup_iff.2 hw
  refine ⟨hw', fun x => ?_⟩
  cases hx : get? d x with
  | some y => exact get?_of_mem hw' (h.mem_iff.2 (mem_of_get? hx))
  | none =>
    rw [get?_eq_none] at hx ⊢
    intro h'
    exact hx ((h.map Prod.fst).mem_iff.1 h')

/-- **C87** (`np.argmin`, `np.argmax`). Let `g` give the position of a least element of a list in the sense of `le`.  Indexing a vector with the
result of `np.argmin` (in any order of its keys) reduces each component along those of the axes which it has, and each element is the least one
among the elements of the component which agree in the other axes. -/
theorem C87_argmin (cls : String) (cs : List (String × Comp (SA α))) (hw : (Comp.node cls cs).WFLeaves) (hf : (Comp.node cls cs).Full)
    (hD : (Comp.node cls cs).Dicts) (S : Shape) (hS : (Comp.node cls cs).shape = .ok S)
    (axis : Option (List String)) (A : List String) (hax : A = axis.getD (keys S)) (hAn : A.Nodup) (hAne : A ≠ []) (hA : A ⊆ keys S)
    (hcoll : ∀ a ∈ (Comp.node cls cs).leaves, ∀ ax ∈ a.axes, ax ∉ A → ax ≠ "*".intercalate (A.filter (· ∈ a.axes)))
    (hpos : ∀ ax, get? S ax ≠ some 0)
    (le : α → α → Prop) (hle : ∀ x, le x x) (g : List α → Nat) (hg : ∀ l, l ≠ [] → ∃ h : g l < l.length, ∀ x ∈ l, le l[g l] x) :
    ∃ D, (Comp.node cls cs).argReduce g axis = .ok D ∧ ∀ D', D'.Perm D → ∃ r, (Comp.node cls cs).getitemV D' = .ok r ∧
      (Comp.node cls cs).Similar r ∧
      ∀ p a, (Comp.node cls cs).leafAt p = some a → ∃ ra, r.leafAt p = some ra ∧ ra.WF ∧
        (∀ x, get? ra.shape x = if x ∈ A then none else get? a.shape x) ∧
        ∀ e, InRange ra.shape e →
          (∃ e', (∀ ax, ax ∉ A → e' ax = e ax) ∧ InRange a.shape e' ∧ ra.at' e = a.at' e') ∧
          ∀ e', (∀ ax, ax ∉ A → e' ax = e ax) → InRange a.shape e' → le (ra.at' e) (a.at' e') := by
  have hsz : ∀ a ∈ (Comp.node cls cs).leaves, ∀ ax, get? a.shape ax ≠ some 0 := by
    intro a ha ax h0
    obtain ⟨k, hk, h1⟩ := leaf_fits hw hS ha ax 0 h0
    have hk0 : k = 0 := by omega
    exact hpos ax (hk0 ▸ hk)
  have hparts := fun a (ha : a ∈ (Comp.node cls cs).leaves) (h : A.filter (· ∈ a.axes) ≠ []) =>
    SA.argReduce_parts (hw a ha) (hAn.filter _) h (fun x hx => by simpa using (List.mem_filter.1 hx).2)
      (fun ax hax' hx => hcoll a ha ax hax' (fun h' => hx (List.mem_filter.2 ⟨h', by simpa using hax'⟩))) (hsz a ha) g
      (fun l hl => (hg l hl).1)
  obtain ⟨D, h1, h2, h3, h4, h5⟩ := argReduceAux_ok g (Comp.node cls cs).depth (Comp.node cls cs) le_rfl hw hf hD S hS axis
    (fun _ => ⟨cls, cs, rfl⟩) A hax hAne hA (by
      intro a ha h
      obtain ⟨d, J, j1, j2, j3, _⟩ := hparts a ha h
      exact ⟨d, j1, j2, j3⟩)
  refine ⟨D, h1, ?_⟩
  intro D' hperm
  obtain ⟨hw', hget'⟩ := get?_of_perm hperm h2
  refine getitemVAux_ok _ _ (Nat.le_add_right _ _) hw hf hD S hS D' (fun q hq => h4 q (hperm.mem_iff.1 hq)) _ ?_
  intro p a it ha hit
  obtain ⟨f, f1, f2⟩ := h5 p a ha
  have ham := leafAt_mem_leaves ha
  have haw := hw a ham
  have f1' : ∀ ax, (indexEntry D' ax).leafB p = some (f ax) := by
    intro ax
    unfold indexEntry
    rw [hget']
    exact f1 ax
  rcases f2 with ⟨hemp, f2⟩ | ⟨hne, d, hd, f2⟩
  · obtain ⟨hi, hget⟩ := itemWF_of_indexAt hw' hit f1' (by intro ax b h; rw [f2] at h; simp at h)
    obtain ⟨ra, e1, e2, e3, e4⟩ := SA.getitem_none haw hi (by
      intro ax _ x hx
      have hk : ax ∈ keys D' := by rw [← indexAt_keys hit]; exact mem_keys_of_get? hx
      rw [hget ax hk, f2] at hx
      injection hx with hx
      exact hx.symm)
    have hno : ∀ ax ∈ A, ax ∉ a.axes := by
      intro ax h h'
      have : ax ∈ A.filter (· ∈ a.axes) := List.mem_filter.2 ⟨h, by simpa using h'⟩
      rw [hemp] at this
      simp at this
    refine ⟨ra, e1, e2, ?_, ?_⟩
    · intro x
      rw [e3]
      by_cases hx : x ∈ A
      · rw [if_pos hx, get?_eq_none, SA.keys_shape haw]
        exact hno x hx
      · rw [if_neg hx]
    · intro e he
      have he' : InRange a.shape e := fun x m hm => he x m (by rw [e3]; exact hm)
      refine ⟨⟨e, fun _ _ => rfl, he', e4 e⟩, ?_⟩
      intro e' h6 _
      rw [e4, SA.at'_congr (e' := e') (fun ax hax' => (h6 ax (fun h => hno ax h hax')).symm)]
      exact hle _
  · obtain ⟨d', J, j1, j2, j3, j4, j5, j6⟩ := hparts a ham hne
    rw [hd] at j1
    injection j1 with j1
    subst j1
    have hmemA : ∀ ax ∈ a.axes, ax ∈ A.filter (· ∈ a.axes) ↔ ax ∈ A := by
      intro ax hax'
      rw [List.mem_filter]
      simp [hax']
    have harr : ∀ ax ∈ a.axes, ∃ b : SA Int, get? d ax = some b ∧ b.WF ∧
        (∀ x m, get? b.shape x = some m ↔ x ∉ A ∧ get? a.shape x = some m ∧ (ax ∈ A ∨ x = ax)) ∧
        ∀ e, InRange b.shape e → b.at' e = (J e ax : Int) ∧ J e ax < a.sizeOf' ax := by
      intro ax hax'
      by_cases hA' : ax ∈ A
      · obtain ⟨b, b1, b2, b3, b4⟩ := j4 ax ((hmemA ax hax').2 hA')
        refine ⟨b, b1, b2, ?_, ?_⟩
        · intro x m
          rw [b3]
          by_cases hx : x ∈ A.filter (· ∈ a.axes)
          · rw [if_pos hx]
            simp [(List.mem_filter.1 hx).1]
          · rw [if_neg hx]
            constructor
            · intro h
              refine ⟨fun hxA => hx (List.mem_filter.2 ⟨hxA, ?_⟩), h, .inl hA'⟩
              simpa [SA.keys_shape haw] using mem_keys_of_get? h
            · exact fun h => h.2.1
        · intro e he
          refine ⟨b4 e he, ?_⟩
          obtain ⟨k1, _⟩ := j6 e
          rw [mem_slabEnvs (hAn.filter _)] at k1
          exact k1.1 ax ((hmemA ax hax').2 hA')
      · have hn' : ax ∉ A.filter (· ∈ a.axes) := fun h => hA' ((hmemA ax hax').1 h)
        obtain ⟨m, hm⟩ := exists_get?_of_mem (d := a.shape) (by rw [SA.keys_shape haw]; exact hax')
        have hms : a.sizeOf' ax = m := by simp [SA.sizeOf', hm]
        refine ⟨_, j5 ax hax' hn', SA.wf_arange _ _, ?_, ?_⟩
        · intro x k
          rw [SA.shape_arange, get?_cons]
          by_cases hx : ax = x
          · subst hx
            simp [hA', hms, hm]
          · rw [if_neg hx]
            simp [get?_nil, hA', Ne.symm hx]
        · intro e he
          obtain ⟨k1, _⟩ := j6 e
          rw [mem_slabEnvs (hAn.filter _)] at k1
          rw [k1.2 ax hn']
          exact ⟨rfl, he ax _ (by rw [SA.shape_arange, get?_cons, if_pos rfl])⟩
    have hkeys : ∀ ax ∈ a.axes, ax ∈ keys D' := by
      intro ax hax'
      by_contra hno
      have h6 := f1' ax
      unfold indexEntry at h6
      rw [get?_eq_none.2 hno, Option.getD_none, leafB_of_leaf] at h6
      obtain ⟨b, b1, _⟩ := harr ax hax'
      rw [f2, b1] at h6
      simp at h6
    obtain ⟨hi, hget⟩ := itemWF_of_indexAt hw' hit f1' (by
      intro ax b h
      rw [f2] at h
      cases hg' : get? d ax with
      | none => rw [hg'] at h; simp at h
      | some b' =>
        rw [hg'] at h
        simp only [Option.elim_some, IndexVal.arr.injEq] at h
        subst h
        obtain ⟨b, b1, b2, _⟩ := harr ax ((j3 ax).1 (mem_keys_of_get? hg'))
        rw [hg'] at b1
        injection b1 with b1
        exact b1 ▸ b2)
    have hitem : ∀ ax ∈ a.axes, ∀ b, get? d ax = some b → get? it ax = some (.arr b) := by
      intro ax hax' b hb
      rw [hget ax (hkeys ax hax'), f2, hb]
      rfl
    obtain ⟨ra, e1, e2, e3, e4⟩ := SA.getitem_exact haw hi a.shape (fun ax e => J e ax) (by
      intro ax hax'
      obtain ⟨b, b1, b2, b3, b4⟩ := harr ax hax'
      exact ⟨b, hitem ax hax' b b1, b2, fun x m hm => ((b3 x m).1 hm).2.1, b4⟩)
    have hsh : ∀ x m, get? ra.shape x = some m ↔ x ∉ A ∧ get? a.shape x = some m := by
      intro x m
      rw [e3]
      constructor
      · rintro ⟨ax, hax', b, b1, b2⟩
        obtain ⟨b', c1, _, c3, _⟩ := harr ax hax'
        rw [hitem ax hax' b' c1] at b1
        injection b1 with b1
        injection b1 with b1
        subst b1
        have := (c3 x m).1 b2
        exact ⟨this.1, this.2.1⟩
      · rintro ⟨hx, hm⟩
        have hxa : x ∈ a.axes := by rw [← SA.keys_shape haw]; exact mem_keys_of_get? hm
        obtain ⟨b, b1, _, b3, _⟩ := harr x hxa
        exact ⟨x, hxa, b, hitem x hxa b b1, (b3 x m).2 ⟨hx, hm, .inr rfl⟩⟩
    refine ⟨ra, e1, e2, ?_, ?_⟩
    · intro x
      by_cases hx : x ∈ A
      · rw [if_pos hx]
        cases hm : get? ra.shape x with
        | none => rfl
        | some m => exact absurd hx ((hsh x m).1 hm).1
      · rw [if_neg hx]
        cases hm : get? a.shape x with
        | some m => exact (hsh x m).2 ⟨hx, hm⟩
        | none =>
          cases hm' : get? ra.shape x with
          | none => rfl
          | some m => rw [((hsh x m).1 hm').2] at hm; simp at hm
    · intro e he
      obtain ⟨k1, hlt, k2⟩ := j6 e
      rw [mem_slabEnvs (hAn.filter _)] at k1
      have hval : ra.at' e = a.at' (J e) := e4 e he
      refine ⟨⟨J e, ?_, ?_, hval⟩, ?_⟩
      · intro ax hx
        exact k1.2 ax (fun h => hx (List.mem_filter.1 h).1)
      · intro x m hm
        have hxa : x ∈ a.axes := by rw [← SA.keys_shape haw]; exact mem_keys_of_get? hm
        by_cases hx : x ∈ A
        · have := k1.1 x ((hmemA x hxa).2 hx)
          simpa [SA.sizeOf', hm] using this
        · rw [k1.2 x (fun h => hx (List.mem_filter.1 h).1)]
          exact he x m ((hsh x m).2 ⟨hx, hm⟩)
      · intro e' h6 h7
        rw [hval, k2]
        refine (hg _ (by intro h; rw [h] at hlt; simp at hlt)).2 _ ?_
        have hslab : (fun x => if x ∈ a.axes then e' x else e x) ∈ slabEnvs (A.filter (· ∈ a.axes)) a.sizeOf' e := by
          rw [mem_slabEnvs (hAn.filter _)]
          constructor
          · intro x hx
            have hxa : x ∈ a.axes := by simpa using (List.mem_filter.1 hx).2
            rw [if_pos hxa]
            obtain ⟨m, hm⟩ := exists_get?_of_mem (d := a.shape) (by rw [SA.keys_shape haw]; exact hxa)
            have := h7 x m hm
            simpa [SA.sizeOf', hm] using this
          · intro x hx
            split
            · rename_i hxa
              exact h6 x (fun h => hx ((hmemA x hxa).2 h))
            · rfl
        unfold SA.slabList
        rw [SA.at'_congr (e' := fun x => if x ∈ a.axes then e' x else e x) (fun x hx => by rw [if_pos hx])]
        exact List.mem_map.2 ⟨_, hslab, rfl⟩

/-! ### Errors, scalars indexed with vectors -/

/-- **C87** (`np.argsort`, errors). No axes, and an axis which no component has, raise `ValueError`. -/
theorem C87_argsort_error (cls : String) (cs : List (String × Comp (SA α))) (S : Shape) (hS : (Comp.node cls cs).shape = .ok S)
    (A : List String) (h : A = [] ∨ ¬ A ⊆ keys S) (asrt : List α → List Nat) :
    (Comp.node cls cs).argsort asrt (some A) = .error .valueError := by
  simp only [argsort, depth, argsortAux, hS, bind, Except.bind]
  by_cases he : A.isEmpty = true
  · rw [if_pos he]
  · rw [if_neg he, if_pos]
    rcases h with rfl | h
    · simp at he
    · exact h

/-- **C87** (`np.argsort`, no axes). The permutation of a vector without axes is the empty index. -/
theorem C87_argsort_zero_dim (v : Comp (SA α)) (S : Shape) (hS : v.shape = .ok S) (h : keys S = []) (asrt : List α → List Nat) :
    v.argsort asrt none = .ok [] := by
  simp [argsort, hS, h, bind, Except.bind]

/-- **C87** (`np.argmin`, errors). An axis which no component has, and a vector without axes if no axis is given, raise `ValueError`. -/
theorem C87_argmin_error (cls : String) (cs : List (String × Comp (SA α))) (S : Shape) (hS : (Comp.node cls cs).shape = .ok S)
    (axis : Option (List String)) (h : (∃ A, axis = some A ∧ ¬ A ⊆ keys S) ∨ (axis = none ∧ keys S = [])) (g : List α → Nat) :
    (Comp.node cls cs).argReduce g axis = .error .valueError := by
  simp only [argReduce, depth, argReduceAux, hS, bind, Except.bind]
  rcases h with ⟨A, rfl, h⟩ | ⟨rfl, h⟩
  · rw [if_pos ⟨rfl, h⟩]
  · rw [if_neg (by simp), if_pos]
    refine ⟨rfl, ?_⟩
    cases S with
    | nil => rfl
    | cons _ _ => simp [keys] at h

/-- **C87** (types). Vectors of two different types in an index raise `ValueError`. -/
theorem C87_type_error (cls : String) (cs : List (String × Comp (SA α))) (S : Shape) (hS : (Comp.node cls cs).shape = .ok S)
    (item : Dict (Comp IndexVal)) (ax ax' cls₁ cls₂ : String) (cs₁ cs₂ : List (String × Comp IndexVal)) (h₁ : (ax, .node cls₁ cs₁) ∈ item)
    (h₂ : (ax', .node cls₂ cs₂) ∈ item) (hne : cls₁ ≠ cls₂) :
    (Comp.node cls cs).getitemV item = .error .valueError := by
  have hno : ∀ k, item.values.all (fun w => decide (w.cls? = none ∨ w.cls? = some k)) = false := by
    intro k
    rw [Bool.eq_false_iff]
    intro h
    rw [List.all_eq_true] at h
    have e1 := h (.node cls₁ cs₁) (List.mem_map.2 ⟨_, h₁, rfl⟩)
    have e2 := h (.node cls₂ cs₂) (List.mem_map.2 ⟨_, h₂, rfl⟩)
    simp only [cls?, Option.some.injEq, reduceCtorEq, false_or, decide_eq_true_eq] at e1 e2
    exact hne (e1.trans e2.symm)
  have hsp : spreadOver item = none := by
    unfold spreadOver
    split
    · rfl
    · rw [hno]; simp
  unfold getitemV
  have hd : ∃ n, (Comp.node cls cs).depth + (item.values.map Comp.depth).sum = n + 1 := by
    have := depth_pos (Comp.node cls cs)
    exact ⟨(Comp.node cls cs).depth + (item.values.map Comp.depth).sum - 1, by omega⟩
  obtain ⟨n, hn⟩ := hd
  rw [hn]
  simp only [getitemVAux, hS, bind, Except.bind, hno, hsp, Bool.false_eq_true, if_false]

theorem ok_of_mem {δ ε : Type} {f : δ → R ε} {l : List δ} {l' : List ε} (h : l.mapM f = .ok l') {x : δ} (hx : x ∈ l) :
    ∃ y, f x = .ok y := by
  have h1 := SA.mapM_ok h
  clear h
  induction h1 with
  | nil => cases hx
  | cons h _ ih =>
    rcases List.mem_cons.1 hx with rfl | hx
    · exact ⟨_, h⟩
    · exact ih hx

/-- **C87** (missing components). If a vector in the index lacks a component of the indexed vector, which has the same type, indexing raises. -/
theorem C87_missing (cls : String) (cs : List (String × Comp (SA α))) (item : Dict (Comp IndexVal)) (ax k : String)
    (ws : List (String × Comp IndexVal)) (hall : ∀ q ∈ item, q.2.cls? = none ∨ q.2.cls? = some cls) (hq : (ax, .node cls ws) ∈ item)
    (hk : k ∈ Dict.keys cs) (hmiss : k ∉ Dict.keys ws) : ∃ x, (Comp.node cls cs).getitemV item = .error x := by
  cases hr : (Comp.node cls cs).getitemV item with
  | error x => exact ⟨x, rfl⟩
  | ok r =>
    exfalso
    unfold getitemV at hr
    have hd : ∃ n, (Comp.node cls cs).depth + (item.values.map Comp.depth).sum = n + 1 := by
      have := depth_pos (Comp.node cls cs)
      exact ⟨(Comp.node cls cs).depth + (item.values.map Comp.depth).sum - 1, by omega⟩
    obtain ⟨n, hn⟩ := hd
    rw [hn, getitemVAux.eq_def] at hr
    simp only [bind, Except.bind] at hr
    split at hr
    · cases hr
    · rw [if_pos (by
        rw [List.all_eq_true]
        intro w hw
        obtain ⟨q, hq, rfl⟩ := List.mem_map.1 hw
        simpa using hall q hq)] at hr
      split at hr
      · cases hr
      · rename_i rs hrs
        obtain ⟨p, hp, rfl⟩ := List.mem_map.1 hk
        obtain ⟨y, hy⟩ := ok_of_mem hrs hp
        cases hi : itemParts p.1 item with
        | error e => simp only [hi] at hy; cases hy
        | ok it =>
          unfold itemParts at hi
          obtain ⟨z, hz⟩ := ok_of_mem hi hq
          simp only [itemPart, get?_eq_none.2 hmiss, bind, Except.bind] at hz
          cases hz

/-- **C87** (scalars). A scalar which is indexed along one of its axes with a vector gives a vector of the type and with the components of the
index; each component is the scalar indexed with the components of the same name (and with everything in the index which is not a
vector). -/
theorem C87_scalar (a : SA α) (item : Dict (Comp IndexVal)) (cls : String) (ks : List String)
    (hitem : ∀ q ∈ item, (∃ x, q.2 = .leaf x) ∨ ∃ xs : List (String × IndexVal), q.2 = .node cls (xs.map (fun p => (p.1, .leaf p.2))) ∧ xs.map Prod.fst = ks)
    (hvec : ∃ q ∈ item, q.1 ∈ a.axes ∧ q.2.cls? = some cls)
    (hok : ∀ k ∈ ks, ∀ it, IndexAt item [k] it → ∃ ra, a.getitem it = .ok ra) :
    ∃ rs, (Comp.leaf a).getitemV item = .ok (.node cls rs) ∧
      List.Forall₂ (fun k q => q.1 = k ∧ ∃ it ra, IndexAt item [k] it ∧ a.getitem it = .ok ra ∧ q.2 = .leaf ra) ks rs := by
  obtain ⟨q0, hq0, hq1, hq2⟩ := hvec
  have hsp : spreadOver item = some (cls, ks) := by
    have hall : item.values.all (fun w => decide (w.cls? = none ∨ w.cls? = some cls)) = true := by
      rw [List.all_eq_true]
      intro w hw
      obtain ⟨q, hq, rfl⟩ := List.mem_map.1 hw
      rcases hitem q hq with ⟨x, hx⟩ | ⟨xs, hx, _⟩ <;> rw [hx] <;> simp [cls?]
    have hfind : item.values.findSome? vectorNames? = some (cls, ks) := by
      clear hall hok hq1
      induction item with
      | nil => simp at hq0
      | cons q l ih =>
        unfold values
        rw [List.map_cons, List.findSome?_cons]
        rcases hitem q List.mem_cons_self with ⟨x, hx⟩ | ⟨xs, hx, hxs⟩
        · rw [hx]
          simp only [vectorNames?]
          rcases List.mem_cons.1 hq0 with rfl | h
          · rw [hx] at hq2; simp [cls?] at hq2
          · exact ih (fun q hq => hitem q (List.mem_cons_of_mem _ hq)) h
        · rw [hx]
          simp only [vectorNames?, keys, List.map_map]
          rw [← hxs]
          rfl
    unfold spreadOver
    rw [hfind]
    simp only
    rw [if_pos hall]
  have hparts : ∀ k ∈ ks, ∃ it : Dict IndexVal, itemParts k item = .ok (it.map (fun p => (p.1, .leaf p.2))) ∧ IndexAt item [k] it := by
    intro k hk
    obtain ⟨it, hit⟩ := exists_forall₂ (P := fun (q : String × Comp IndexVal) (q' : String × IndexVal) =>
        (do .ok (q.1, ← itemPart k q.2) : R _) = .ok (q'.1, .leaf q'.2) ∧ q'.1 = q.1 ∧ q.2.leafB [k] = some q'.2) (l := item) (by
      intro q hq
      rcases hitem q hq with ⟨x, hx⟩ | ⟨xs, hx, hxs⟩
      · exact ⟨(q.1, x), by rw [hx]; rfl, rfl, by rw [hx]; rfl⟩
      · obtain ⟨x, hx'⟩ := exists_get?_of_mem (d := xs) (x := k) (by unfold keys; rw [hxs]; exact hk)
        have hg : get? (xs.map (fun p => (p.1, Comp.leaf p.2))) k = some (.leaf x) := by
          rw [SA.get?_map_pair xs (fun _ y => Comp.leaf y), hx']
          rfl
        exact ⟨(q.1, x), by rw [hx]; simp [itemPart, hg, bind, Except.bind], rfl, by rw [hx]; simp [leafB, hg]⟩)
    refine ⟨it, ?_, hit.imp (fun _ _ h => h.2)⟩
    apply mapM_of_forall₂
    rw [List.forall₂_map_right_iff]
    exact hit.imp (fun _ _ h => h.1)
  have hfuel : ∃ n, (Comp.leaf a).depth + (item.values.map Comp.depth).sum = n + 1 + 1 := by
    have h1 : q0.2.depth ≤ (item.values.map Comp.depth).sum :=
      List.le_sum_of_mem (List.mem_map.2 ⟨_, List.mem_map.2 ⟨q0, hq0, rfl⟩, rfl⟩)
    have h2 := depth_pos q0.2
    have h3 := depth_pos (Comp.leaf a)
    exact ⟨(Comp.leaf a).depth + (item.values.map Comp.depth).sum - 2, by omega⟩
  obtain ⟨n, hn⟩ := hfuel
  obtain ⟨rs, hrs⟩ := exists_forall₂ (P := fun k (q : String × Comp (SA α)) => (do
      let it ← itemParts k item
      let r ← getitemVAux (n + 1) (.leaf a) it
      .ok (k, r) : R _) = .ok q ∧ q.1 = k ∧ ∃ it ra, IndexAt item [k] it ∧ a.getitem it = .ok ra ∧ q.2 = .leaf ra) (l := ks) (by
    intro k hk
    obtain ⟨it, h1, h2⟩ := hparts k hk
    obtain ⟨ra, h3⟩ := hok k hk it h2
    refine ⟨(k, .leaf ra), ?_, rfl, it, ra, h2, h3, rfl⟩
    have hall : ∀ l : Dict IndexVal, ((l.map (fun p => (p.1, Comp.leaf p.2))).filter (fun p => decide (p.1 ∈ a.axes))).all
        (fun p => decide (p.2.cls? = none)) = true := by
      intro l
      rw [List.all_eq_true]
      intro p hp
      obtain ⟨x, _, rfl⟩ := List.mem_map.1 (List.mem_filter.1 hp).1
      simp [cls?]
    have hsc : ∀ l : Dict IndexVal, scalarItem (l.map (fun p => (p.1, Comp.leaf p.2))) = l := by
      intro l
      unfold scalarItem
      induction l with
      | nil => rfl
      | cons x l ih => simp only [List.map_cons, List.filterMap_cons, ih]
    simp only [h1, bind, Except.bind, getitemVAux]
    rw [if_pos (hall it), scalarItem_filter _ (fun k => decide (k ∈ a.axes)), hsc]
    have : a.getitem (it.filter (fun p => decide (p.1 ∈ a.axes))) = a.getitem it :=
      SA.C13_getitem_ignores_absent a _ _ (by simp)
    rw [this, h3])
  refine ⟨rs, ?_, hrs.imp (fun _ _ h => h.2)⟩
  unfold getitemV
  rw [hn]
  have hm := mapM_of_forall₂ (hrs.imp (fun _ _ h => h.1))
  have hnot : ¬ (item.filter (fun p => decide (p.1 ∈ a.axes))).all (fun p => decide (p.2.cls? = none)) = true := by
    intro h
    rw [List.all_eq_true] at h
    have := h q0 (List.mem_filter.2 ⟨hq0, by simpa using hq1⟩)
    rw [hq2] at this
    simp at this
  rw [getitemVAux, if_neg hnot, hsp]
  simp only [bind, Except.bind] at hm ⊢
  rw [hm]

/-! ### Examples -/

/-- A component with the axes `r` and `s` and one with `s` only, inside a vector with one without axes. -/
def exSortable : Comp (SA Nat) :=
  .node "C" [("p", .node "C" [("x", .leaf ⟨["r", "s"], ⟨[2, 2], fun i => [4, 3, 1, 2].getD (2 * i.getD 0 0 + i.getD 1 0) 0⟩⟩), ("y", .leaf ⟨["s"], ⟨[2], fun i => 7 - 2 * i.getD 0 0⟩⟩)]),
    ("q", .leaf (SA.scalar 9))]

theorem exSortable_ok : exSortable.WFLeaves ∧ exSortable.Full ∧ exSortable.Dicts ∧ exSortable.shape = .ok [("r", 2), ("s", 2)] := by
  refine ⟨?_, ?_, ?_, ?_⟩
  · intro a ha
    simp only [exSortable, leaves, leavesL, List.append_nil, List.cons_append, List.nil_append, List.mem_cons, List.not_mem_nil, or_false] at ha
    rcases ha with rfl | rfl | rfl <;> exact ⟨by decide, by decide⟩
  · simp [exSortable, Full, FullL]
  · simp only [exSortable, Dicts, DictsL]
    decide
  · decide +kernel

theorem exSortable_exact : ∀ a ∈ exSortable.leaves, ∀ ax m, get? a.shape ax = some m → get? [("r", 2), ("s", 2)] ax = some m := by
  intro a ha ax m hm
  simp only [exSortable, leaves, leavesL, List.append_nil, List.cons_append, List.nil_append, List.mem_cons, List.not_mem_nil, or_false] at ha
  rcases ha with rfl | rfl | rfl
  · exact hm
  · change get? [("s", 2)] ax = some m at hm
    rw [get?_cons] at hm
    split at hm
    · rename_i h
      cases h
      exact hm
    · simp [get?_nil] at hm
  · change get? [] ax = some m at hm
    simp [get?_nil] at hm

example : ∃ D s r, exSortable.argsort SA.exArgsort (some ["s"]) = .ok D ∧ exSortable.sort SA.exSort 0 (some ["s"]) = .ok s ∧
    exSortable.getitemV D = .ok r ∧ Dict.WF D ∧ (∀ ax, ax ∈ keys D ↔ ax ∈ keys [("r", 2), ("s", 2)]) ∧ exSortable.Similar s ∧
    exSortable.Similar r ∧
    ∀ p a, exSortable.leafAt p = some a → ∃ sa ra, s.leafAt p = some sa ∧ r.leafAt p = some ra ∧ ra.WF ∧
      (∀ x m, get? ra.shape x = some m → get? sa.shape x = some m) ∧
      ((∃ ax ∈ ["s"], ax ∈ a.axes) → ∀ x, get? ra.shape x = get? sa.shape x) ∧
      ∀ e, InRange sa.shape e → ra.at' e = sa.at' e :=
  C87_argsort_partial exSortable exSortable_ok.1 exSortable_ok.2.1 exSortable_ok.2.2.1 _ exSortable_ok.2.2.2 (some ["s"]) ["s"] rfl (by decide)
    (by decide) (by decide) (by decide +kernel) (by decide) exSortable_exact (· ≤ ·) SA.exSort SA.exSort_isSort SA.exArgsort
    SA.exArgsort_isArgSort 0

example : valuesAt ((exSortable.argsort SA.exArgsort (some ["s"])).bind exSortable.getitemV) ["p", "x"] = some (["r", "s"], [3, 4, 1, 2]) := by
  decide +kernel
example : valuesAt ((exSortable.argsort SA.exArgsort (some ["s"])).bind exSortable.getitemV) ["p", "y"] = some (["r", "s"], [5, 7, 5, 7]) := by
  decide +kernel
example : valuesAt ((exSortable.argsort SA.exArgsort (some ["s"])).bind exSortable.getitemV) ["q"] = some ([], [9]) := by
  decide +kernel

/-- **C87** is violated for components of size 1 along the sorted axis: `np.sort(v, axis)` and `np.argsort(v, axis)` succeed, but
`v[np.argsort(v, axis)]` raises `IndexError`, since the indices of such a component are those of the stretched component. -/
theorem C87_argsort_refuted :
    exS.shape = .ok [("t", 3)] ∧ (exS.sort SA.exSort 0 (some ["t"])).isOk = true ∧ (exS.argsort SA.exArgsort (some ["t"])).isOk = true ∧
    ∀ D, exS.argsort SA.exArgsort (some ["t"]) = .ok D → (exS.getitemV D).map (fun _ => ()) = .error .indexError := by
  refine ⟨by decide +kernel, by decide +kernel, by decide +kernel, ?_⟩
  intro D hD
  have h : ((exS.argsort SA.exArgsort (some ["t"])).bind (fun D => exS.getitemV D)).map (fun _ => ()) = .error .indexError := by decide +kernel
  rw [hD] at h
  exact h

/-- the position of the first least element -/
def exFirst (l : List Nat) : Nat := ND.argmin (fun x y => decide (x ≤ y)) l

theorem exFirst_ok (l : List Nat) (hl : l ≠ []) : ∃ h : exFirst l < l.length, ∀ x ∈ l, l[exFirst l] ≤ x := by
  have hspec := SA.argmin_spec (α := Nat) min 0 (fun x y => decide (x ≤ y))
    (by simpa using fun x y z => le_trans) (by simpa using fun x y => le_antisymm) (by simpa using fun x y => Nat.le_total x y)
    (fun x y => min_choice x y) (by simp) (by simp)
  have hle := SA.fold1_le (α := Nat) min 0 (fun x y => decide (x ≤ y))
    (by simpa using fun x y z => le_trans) (by simp) (by simp) (by simp)
  obtain ⟨h1, h2, _⟩ := hspec l hl
  refine ⟨h1, fun x hx => ?_⟩
  have := hle l x hx
  simp only [decide_eq_true_eq] at this
  unfold exFirst
  rw [h2]
  exact this

example : ∃ D, exSortable.argReduce exFirst (some ["s"]) = .ok D ∧ ∀ D', D'.Perm D → ∃ r, exSortable.getitemV D' = .ok r ∧
    exSortable.Similar r ∧
    ∀ p a, exSortable.leafAt p = some a → ∃ ra, r.leafAt p = some ra ∧ ra.WF ∧
      (∀ x, get? ra.shape x = if x ∈ ["s"] then none else get? a.shape x) ∧
      ∀ e, InRange ra.shape e →
        (∃ e', (∀ ax, ax ∉ ["s"] → e' ax = e ax) ∧ InRange a.shape e' ∧ ra.at' e = a.at' e') ∧
        ∀ e', (∀ ax, ax ∉ ["s"] → e' ax = e ax) → InRange a.shape e' → ra.at' e ≤ a.at' e' :=
  C87_argmin "C" _ exSortable_ok.1 exSortable_ok.2.1 exSortable_ok.2.2.1 _ exSortable_ok.2.2.2 (some ["s"]) ["s"] rfl (by decide) (by decide)
    (by decide) (by decide +kernel) (by
      intro ax h
      rw [get?_cons, get?_cons, get?_nil] at h
      split at h
      · simp at h
      · split at h <;> simp at h) (· ≤ ·) le_refl exFirst exFirst_ok

example : valuesAt ((exSortable.argReduce exFirst (some ["s"])).bind exSortable.getitemV) ["p", "x"] = some (["r"], [3, 1]) := by
  decide +kernel
example : valuesAt ((exSortable.argReduce exFirst (some ["s"])).bind exSortable.getitemV) ["p", "y"] = some ([], [5]) := by
  decide +kernel
-- components of size 1 are no problem here
example : valuesAt ((exS.argReduce exFirst (some ["t"])).bind exS.getitemV) ["x"] = some ([], [7]) := by decide +kernel

/-- An index with a vector for one axis. -/
def exVectorIndex : Dict (Comp IndexVal) :=
  [("r", .node "C" [("x", .leaf (.int 1)), ("y", .leaf (.arr ⟨["t"], ⟨[3], fun i => (i.getD 0 0 : Int) / 2⟩⟩))]), ("s", .leaf (.int 0))]

/-- A scalar. -/
def exIndexed : SA Nat := ⟨["r", "s"], ⟨[2, 2], fun i => [4, 3, 1, 2].getD (2 * i.getD 0 0 + i.getD 1 0) 0⟩⟩

example : ∃ rs, (Comp.leaf exIndexed).getitemV exVectorIndex = .ok (.node "C" rs) ∧
    List.Forall₂ (fun k q => q.1 = k ∧ ∃ it ra, IndexAt exVectorIndex [k] it ∧ exIndexed.getitem it = .ok ra ∧ q.2 = .leaf ra) ["x", "y"] rs := by
  refine C87_scalar exIndexed exVectorIndex "C" ["x", "y"] ?_ ⟨_, List.mem_cons_self, by decide, rfl⟩ ?_
  · intro q hq
    simp only [exVectorIndex, List.mem_cons, List.not_mem_nil, or_false] at hq
    rcases hq with rfl | rfl
    · exact .inr ⟨[("x", .int 1), ("y", .arr ⟨["t"], ⟨[3], fun i => (i.getD 0 0 : Int) / 2⟩⟩)], rfl, rfl⟩
    · exact .inl ⟨_, rfl⟩
  · intro k hk it hit
    have hkey : ∀ it', IndexAt exVectorIndex [k] it' → (exIndexed.getitem it').isOk = true → ∃ ra, exIndexed.getitem it = .ok ra := by
      intro it' h h'
      rw [indexAt_unique hit h]
      cases hr : exIndexed.getitem it' with
      | ok r => exact ⟨r, rfl⟩
      | error e => rw [hr] at h'; simp [Except.isOk, Except.toBool] at h'
    simp only [List.mem_cons, List.not_mem_nil, or_false] at hk
    rcases hk with rfl | rfl
    · exact hkey [("r", .int 1), ("s", .int 0)] (.cons ⟨rfl, rfl⟩ (.cons ⟨rfl, rfl⟩ .nil)) (by decide +kernel)
    · exact hkey [("r", .arr ⟨["t"], ⟨[3], fun i => (i.getD 0 0 : Int) / 2⟩⟩), ("s", .int 0)] (.cons ⟨rfl, rfl⟩ (.cons ⟨rfl, rfl⟩ .nil))
        (by decide +kernel)

example : valuesAt ((Comp.leaf exIndexed).getitemV exVectorIndex) ["x"] = some ([], [1]) := by decide +kernel
example : valuesAt ((Comp.leaf exIndexed).getitemV exVectorIndex) ["y"] = some (["t"], [4, 4, 1]) := by decide +kernel

example : exS.getitemV [("t", .node "C" []), ("u", .node "D" [])] = .error .valueError :=
  C87_type_error "Cartesian2d" _ [("t", 3)] (by decide +kernel) _ "t" "u" "C" "D" [] [] (by simp) (by simp) (by decide)

example : ∃ x, exS.getitemV [("t", .node "Cartesian2d" [("x", .leaf (.int 0))])] = .error x :=
  C87_missing "Cartesian2d" _ _ "t" "y" _ (by intro q hq; simp at hq; subst hq; exact .inr rfl) List.mem_cons_self (by decide) (by decide)

end Comp
end NA
