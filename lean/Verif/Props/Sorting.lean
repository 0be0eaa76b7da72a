import Verif.Props.Ordering

/-!
# argmin over all axes (C20), sort/argsort (C21), nonzero/unravel_index (C22)
-/

namespace NA
open Dict
namespace SA
variable {α β : Type}

/-! ### Helpers -/

/-- A function along the axis made by combining `A`. -/
theorem along_combined {a : SA α} (ha : a.WF) {A : List String} (hA : A.Nodup) (hAs : A ⊆ a.axes)
    {new : String} (hnew : new ∉ a.axes.filter (· ∉ A))
    (hpos : ∀ ax ∈ a.axes, ax ∉ A → get? a.shape ax ≠ some 0) (g : List α → Nat → β) :
    ∃ flat nd, a.combineAxes (some A) (some new) = .ok flat ∧ flat.axes = a.axes.filter (· ∉ A) ++ [new] ∧
      new ∈ flat.axes ∧
      flat.nd.alongAxis (flat.axes.idxOf new) (flat.nd.shape.getD (flat.axes.idxOf new) 0) g = .ok nd ∧
      (SA.mk flat.axes nd).WF ∧
      get? (SA.mk flat.axes nd).shape new = some (A.map a.sizeOf').prod ∧
      (∀ ax ∈ a.axes, ax ∉ A → get? (SA.mk flat.axes nd).shape ax = get? a.shape ax) ∧
      ∀ e, (∀ ax ∈ a.axes, ax ∉ A → e ax < a.sizeOf' ax) →
        (SA.mk flat.axes nd).at' e = g (slabList a A e) (e new) := by
  obtain ⟨flat, h1, h2, h3, h4, h5, h6⟩ := combined_line ha hA hAs hnew hpos
  have hmem : new ∈ flat.axes := by rw [h3]; simp
  have hg : flat.nd.shape.getD (flat.axes.idxOf new) 0 = flat.sizeOf' new := by
    rw [shape_eq_map h2, getD_map_idxOf _ hmem]
  obtain ⟨nd, n1, n2, n3⟩ := ND.alongAxis_named h2.2 (shape_eq_map h2) hmem (flat.sizeOf' new) g
  obtain ⟨w1, w2⟩ := mk_map h2.2 n2
  refine ⟨flat, nd, h1, h3, hmem, by rw [hg]; exact n1, w1, ?_, ?_, ?_⟩
  · rw [w2, if_pos hmem, if_pos rfl, h4]
  · intro ax hax hx
    have hne : ax ≠ new := by
      rintro rfl
      exact hnew (by simp [hax, hx])
    rw [w2, if_pos (by rw [h3]; simp [hax, hx]), if_neg hne]
    obtain ⟨n, hn⟩ := exists_get?_of_mem (d := a.shape) (by rw [keys_shape ha]; exact hax)
    simp [sizeOf', h5 ax hax hx, hn]
  · intro e he
    have : (SA.mk flat.axes nd).at' e = nd.get (flat.axes.map e) := rfl
    rw [this, n3, ← h6 e he]
    rfl

theorem inRange_sizeOf {a b : SA α} (ha : a.WF) {A : List String}
    (h : ∀ ax ∈ a.axes, ax ∉ A → get? b.shape ax = get? a.shape ax) {e : String → Nat}
    (he : InRange b.shape e) : ∀ ax ∈ a.axes, ax ∉ A → e ax < a.sizeOf' ax := by
  intro ax hax hx
  obtain ⟨n, hn⟩ := exists_get?_of_mem (d := a.shape) (by rw [keys_shape ha]; exact hax)
  have := he ax n (by rw [h ax hax hx, hn])
  simpa [sizeOf', hn] using this

theorem toList_eq_slabList {a : SA α} (ha : a.WF) (e : String → Nat) :
    a.nd.toList = slabList a a.axes e := by
  unfold ND.toList slabList slabEnvs
  rw [List.map_map, shape_eq_map ha]
  apply List.map_congr_left
  intro i hi
  rw [ND.mem_ndIndices_iff] at hi
  have hl : i.length = a.axes.length := by simpa using ND.inRange_length hi
  simp only [Function.comp_apply, at']
  rw [map_slabEnv ha.2 hl]

/-! ### C21 -/

/-- `np.sort` of a list: a non-decreasing rearrangement. -/
def IsSort (le : α → α → Prop) (srt : List α → List α) : Prop :=
  ∀ l, (srt l).Perm l ∧ (srt l).Pairwise le

/-- `np.argsort` of a list: positions in the list which sort it as `srt` does. -/
def IsArgSort (asrt : List α → List Nat) (srt : List α → List α) : Prop :=
  ∀ l, (∀ i ∈ asrt l, i < l.length) ∧ (asrt l).map (fun i => l[i]?) = (srt l).map some

theorem sort_main {a : SA α} (ha : a.WF) {A : List String} (hA : A.Nodup) (hAne : A ≠ [])
    (hAs : A ⊆ a.axes) (hcoll : ∀ ax ∈ a.axes, ax ∉ A → ax ≠ "*".intercalate A)
    (hpos : ∀ ax ∈ a.axes, ax ∉ A → get? a.shape ax ≠ some 0) (srt : List α → List α) (dflt : α) :
    ∃ r, sort srt dflt a (some A) = .ok r ∧ r.WF ∧
      r.axes = a.axes.filter (· ∉ A) ++ ["*".intercalate A] ∧
      get? r.shape ("*".intercalate A) = some (A.map a.sizeOf').prod ∧
      (∀ ax ∈ a.axes, ax ∉ A → get? r.shape ax = get? a.shape ax) ∧
      ∀ e, (∀ ax ∈ a.axes, ax ∉ A → e ax < a.sizeOf' ax) →
        r.at' e = (srt (slabList a A e)).getD (e ("*".intercalate A)) dflt := by
  have hnewr : "*".intercalate A ∉ a.axes.filter (· ∉ A) := by
    intro h
    simp only [List.mem_filter, decide_eq_true_eq] at h
    exact hcoll _ h.1 h.2 rfl
  obtain ⟨flat, nd, h1, h2, h3, h4, h5, h6, h7, h8⟩ := along_combined ha hA hAs hnewr hpos
    (fun l k => (srt l).getD k dflt)
  refine ⟨⟨flat.axes, nd⟩, ?_, h5, h2, h6, h7, h8⟩
  unfold sort
  have hne : A.isEmpty = false := by cases A <;> simp_all
  simp only [bind, Except.bind, hne, Bool.false_eq_true, if_false]
  rw [if_pos (fun ax hax => hAs hax), flattenAxes_ok hAne]
  simp only [h1, pyTupleIndex, if_pos h3, h4]
  exact mk?_of_wf h5.1 h5.2

/-- **C21** `np.sort(a, axis=A)`: the axes in `A` are combined into one, the last, along which each line
is a non-decreasing rearrangement of the elements of the corresponding slab of `a`.  For a single
axis `x` the combined axis is `x` itself (`"*".join(["x"]) = "x"`). -/
theorem C21_sort (a : SA α) (ha : a.WF) (A : List String) (hA : A.Nodup) (hAne : A ≠ [])
    (hAs : A ⊆ a.axes) (hcoll : ∀ ax ∈ a.axes, ax ∉ A → ax ≠ "*".intercalate A)
    (hpos : ∀ ax ∈ a.axes, ax ∉ A → get? a.shape ax ≠ some 0)
    (le : α → α → Prop) (srt : List α → List α) (hsrt : IsSort le srt) (dflt : α) :
    ∃ r n, sort srt dflt a (some A) = .ok r ∧ r.WF ∧
      r.axes = a.axes.filter (· ∉ A) ++ ["*".intercalate A] ∧
      get? r.shape ("*".intercalate A) = some n ∧
      (∀ ax ∈ a.axes, ax ∉ A → get? r.shape ax = get? a.shape ax) ∧
      ∀ e, (∀ ax m, ax ∉ A → get? a.shape ax = some m → e ax < m) →
        let line := (List.range n).map (fun k => r.at' (Function.update e ("*".intercalate A) k))
        line.Perm (slabList a A e) ∧ line.Pairwise le := by
  obtain ⟨r, h1, h2, h3, h4, h5, h6⟩ := sort_main ha hA hAne hAs hcoll hpos srt dflt
  refine ⟨r, _, h1, h2, h3, h4, h5, ?_⟩
  intro e he
  have he' := slab_in_range ha he
  have hline : (List.range (A.map a.sizeOf').prod).map
      (fun k => r.at' (Function.update e ("*".intercalate A) k)) = srt (slabList a A e) := by
    have hlen : (srt (slabList a A e)).length = (A.map a.sizeOf').prod := by
      rw [(hsrt _).1.length_eq, length_slabList]
    have hne : ∀ ax ∈ a.axes, ax ∉ A → ∀ k, Function.update e ("*".intercalate A) k ax = e ax := by
      intro ax hax hx k
      exact Function.update_of_ne (hcoll ax hax hx) _ _
    apply List.ext_getElem
    · simp [hlen]
    · intro i i1 i2
      simp only [List.getElem_map, List.getElem_range]
      rw [h6 _ (fun ax hax hx => by rw [hne ax hax hx]; exact he' ax hax hx), Function.update_self,
        slabList_congr (hne · · · i), List.getD_eq_getElem _ _ i2]
  simp only [hline]
  exact hsrt _

theorem argsort_main {a : SA α} (ha : a.WF) {A : List String} (hA : A.Nodup) (hAne : A ≠ [])
    (hAs : A ⊆ a.axes) (hcoll : ∀ ax ∈ a.axes, ax ∉ A → ax ≠ "*".intercalate A)
    (hpos : ∀ ax ∈ a.axes, ax ∉ A → get? a.shape ax ≠ some 0) (srt : List α → List α)
    (asrt : List α → List Nat) (has : IsArgSort asrt srt) (hlen : ∀ l, (srt l).length = l.length) (dflt : α) :
    ∃ d r, argsort asrt a (some A) = .ok d ∧ (∀ ax, ax ∈ keys d ↔ ax ∈ a.axes) ∧
      a.getitem (asItem d) = .ok r ∧ r.WF ∧
      r.axes = a.axes.filter (· ∉ A) ++ ["*".intercalate A] ∧
      get? r.shape ("*".intercalate A) = some (A.map a.sizeOf').prod ∧
      (∀ ax ∈ a.axes, ax ∉ A → get? r.shape ax = get? a.shape ax) ∧
      ∀ e, InRange r.shape e →
        r.at' e = (srt (slabList a A e)).getD (e ("*".intercalate A)) dflt := by
  have hnewr : "*".intercalate A ∉ a.axes.filter (· ∉ A) := by
    intro h
    simp only [List.mem_filter, decide_eq_true_eq] at h
    exact hcoll _ h.1 h.2 rfl
  obtain ⟨flat, nd, h1, h2, h3, h4, h5, h6, h7, h8⟩ := along_combined ha hA hAs hnewr hpos
    (fun l k => (asrt l).getD k 0)
  set indices : SA Nat := ⟨flat.axes, nd⟩ with hind
  have hrange : ∀ e, InRange indices.shape e → (∀ ax ∈ a.axes, ax ∉ A → e ax < a.sizeOf' ax) := by
    intro e he ax hax hx
    obtain ⟨n, hn⟩ := exists_get?_of_mem (d := a.shape) (by rw [keys_shape ha]; exact hax)
    have := he ax n (by rw [h7 ax hax hx, hn])
    simpa [sizeOf', hn] using this
  have hal : ∀ l, (asrt l).length = l.length := by
    intro l
    have := congrArg List.length (has l).2
    simpa [hlen] using this
  have hlt : ∀ e, InRange indices.shape e →
      ∃ h : e ("*".intercalate A) < (asrt (slabList a A e)).length,
        indices.at' e = (asrt (slabList a A e))[e ("*".intercalate A)] := by
    intro e he
    have h : e ("*".intercalate A) < (asrt (slabList a A e)).length := by
      rw [hal, length_slabList]
      exact he _ _ h6
    exact ⟨h, by rw [h8 e (hrange e he), List.getD_eq_getElem _ _ h]⟩
  obtain ⟨d, k1, k2, k3, k4, r, k5, k6, k7, k8, k9⟩ := getitem_unravel ha hA hAne hAs h5 h7 (by
    intro e he
    obtain ⟨h, heq⟩ := hlt e he
    rw [heq, ← length_slabList a A e]
    exact (has _).1 _ (List.getElem_mem _))
  have hargs : argsort asrt a (some A) = .ok (a.completeIndex d) := by
    unfold argsort
    simp only [bind, Except.bind, Option.getD_some, Option.isSome_some, true_and]
    rw [if_neg (by
      rintro (h | h)
      · cases A <;> simp_all
      · exact h (fun ax hax => hAs hax))]
    simp only [Option.isNone_some, Bool.false_eq_true, false_and, if_false]
    rw [flattenAxes_ok hAne]
    have hmk : mk? nd flat.axes = .ok indices := mk?_of_wf h5.1 h5.2
    simp only [h1, pyTupleIndex, if_pos h3, h4, hmk]
    have : A.map (fun ax => (ax, (get? a.shape ax).getD 0)) = A.map (fun ax => (ax, a.sizeOf' ax)) := rfl
    rw [this, k1]
  refine ⟨_, r, hargs, k2, k5, k6, by rw [k7]; exact h2, by rw [k8]; exact h6,
    fun ax hax hx => by rw [k8]; exact h7 ax hax hx, ?_⟩
  intro e he
  rw [k8] at he
  rw [k9 e he]
  obtain ⟨h, heq⟩ := hlt e he
  have hlt' : (asrt (slabList a A e))[e ("*".intercalate A)] < (slabList a A e).length :=
    (has _).1 _ (List.getElem_mem _)
  rw [heq, ← slabList_getElem hlt']
  have hs : e ("*".intercalate A) < (srt (slabList a A e)).length := by rw [hlen, ← hal]; exact h
  rw [List.getD_eq_getElem _ _ hs]
  have h9 := (has (slabList a A e)).2
  have h10 := congrArg (fun l => l[e ("*".intercalate A)]?) h9
  simp only [List.getElem?_map, List.getElem?_eq_getElem h, List.getElem?_eq_getElem hs, Option.map_some,
    List.getElem?_eq_getElem hlt', Option.some.injEq] at h10
  exact h10

/-- **C21** `a[np.argsort(a, axis=A)]` and `np.sort(a, axis=A)` have the same axes and the same elements by
name. -/
theorem C21_argsort (a : SA α) (ha : a.WF) (A : List String) (hA : A.Nodup) (hAne : A ≠ [])
    (hAs : A ⊆ a.axes) (hcoll : ∀ ax ∈ a.axes, ax ∉ A → ax ≠ "*".intercalate A)
    (hpos : ∀ ax ∈ a.axes, ax ∉ A → get? a.shape ax ≠ some 0)
    (le : α → α → Prop) (srt : List α → List α) (hsrt : IsSort le srt) (asrt : List α → List Nat)
    (has : IsArgSort asrt srt) (dflt : α) :
    ∃ d r s, argsort asrt a (some A) = .ok d ∧ (∀ ax, ax ∈ keys d ↔ ax ∈ a.axes) ∧
      a.getitem (asItem d) = .ok r ∧ sort srt dflt a (some A) = .ok s ∧ r.WF ∧ r.axes = s.axes ∧
      SameByName r s := by
  obtain ⟨d, r, d1, d2, d3, d4, d5, d6, d7, d8⟩ := argsort_main ha hA hAne hAs hcoll hpos srt asrt has
    (fun l => (hsrt l).1.length_eq) dflt
  obtain ⟨s, s1, s2, s3, s4, s5, s6⟩ := sort_main ha hA hAne hAs hcoll hpos srt dflt
  refine ⟨d, r, s, d1, d2, d3, s1, d4, by rw [d5, s3], ?_, ?_⟩
  · intro ax
    by_cases hn : ax = "*".intercalate A
    · subst hn; rw [d6, s4]
    · by_cases hm : ax ∈ a.axes ∧ ax ∉ A
      · rw [d7 ax hm.1 hm.2, s5 ax hm.1 hm.2]
      · have : ax ∉ a.axes.filter (· ∉ A) ++ ["*".intercalate A] := by
          simp only [List.mem_append, List.mem_filter, decide_eq_true_eq, List.mem_singleton, not_or]
          exact ⟨hm, hn⟩
        rw [(get?_shape_none d4).2 (by rw [d5]; exact this), (get?_shape_none s2).2 (by rw [s3]; exact this)]
  · intro e he
    rw [d8 e he, s6 e (inRange_sizeOf ha d7 he)]

/-- **C21** Without an axis, `np.argsort` behaves as with all axes. -/
theorem C21_argsort_none (a : SA α) (ha : a.WF) (hne : a.axes ≠ []) (asrt : List α → List Nat) :
    argsort asrt a none = argsort asrt a (some a.axes) := by
  have h1 : a.shape.isEmpty = false := by
    have := keys_shape ha
    cases h : a.shape with
    | nil => rw [h] at this; exact absurd this.symm hne
    | cons _ _ => rfl
  have h2 : a.axes.isEmpty = false := by cases h : a.axes <;> simp_all
  unfold argsort
  simp [h1, h2]

/-- **C21** Without an axis, `np.sort` gives the one-dimensional array of all elements, the same as with
all axes. -/
theorem C21_sort_none (a : SA α) (ha : a.WF) (hne : a.axes ≠ []) (srt : List α → List α) (dflt : α) :
    ∃ r s, sort srt dflt a none = .ok r ∧ sort srt dflt a (some a.axes) = .ok s ∧ r.WF ∧
      r.axes = s.axes ∧ SameByName r s := by
  have h1 : a.shape.isEmpty = false := by
    have := keys_shape ha
    cases h : a.shape with
    | nil => rw [h] at this; exact absurd this.symm hne
    | cons _ _ => rfl
  obtain ⟨s, s1, s2, s3, s4, s5, s6⟩ := sort_main ha ha.2 hne (fun _ h => h)
    (fun ax h h' => absurd h h') (fun ax h h' => absurd h h') srt dflt
  have hf : a.axes.filter (· ∉ a.axes) = [] := by
    rw [List.filter_eq_nil_iff]
    intro x hx; simpa using hx
  rw [hf, List.nil_append] at s3
  have hr : sort srt dflt a none = .ok ⟨["*".intercalate a.axes], ⟨[a.nd.size],
      fun i => (srt a.nd.toList).getD (i.headD 0) dflt⟩⟩ := by
    unfold sort
    simp only [bind, Except.bind, h1, Bool.false_eq_true, if_false, flattenAxes_ok hne]
    exact mk?_of_wf rfl (by simp)
  refine ⟨_, s, hr, s1, ⟨rfl, by simp⟩, s3.symm, ?_, ?_⟩
  · intro ax
    by_cases hn : ax = "*".intercalate a.axes
    · subst hn
      rw [s4, ← shape_eq_map ha]
      simp [shape, get?_cons, ND.size]
    · rw [(get?_shape_none s2).2 (by rw [s3]; simpa using hn)]
      simp only [shape, List.zip_cons_cons, List.zip_nil_right, get?_cons, get?_nil]
      rw [if_neg (fun h => hn h.symm)]
  · intro e _
    rw [s6 e (fun ax h h' => absurd h h'), ← toList_eq_slabList ha e]
    rfl

/-- **C21** (no axes) An array without axes is its own sort, and its `argsort` is the empty dictionary,
which selects the array itself. -/
theorem C21_zero_dim (a : SA α) (h : a.axes = []) (srt : List α → List α) (dflt : α)
    (asrt : List α → List Nat) :
    sort srt dflt a none = .ok a ∧ argsort asrt a none = .ok [] ∧ a.getitem (asItem []) = .ok a := by
  have h1 : a.shape.isEmpty = true := by simp [shape, h]
  refine ⟨?_, ?_, ?_⟩
  · unfold sort; simp [h1]
  · unfold argsort; simp [h1]
  · unfold getitem asItem; simp

/-- **C21** (errors) An empty sequence of axes and an axis which the array lacks raise `ValueError`. -/
theorem C21_error (a : SA α) (A : List String) (h : A = [] ∨ ¬ A ⊆ a.axes) (srt : List α → List α)
    (dflt : α) (asrt : List α → List Nat) :
    sort srt dflt a (some A) = .error .valueError ∧ argsort asrt a (some A) = .error .valueError := by
  constructor
  · unfold sort
    rcases h with rfl | h
    · rfl
    · simp only
      split
      · rfl
      · rw [if_neg (fun hh => h (fun x hx => hh x hx))]
  · unfold argsort
    rw [if_pos]
    refine ⟨rfl, ?_⟩
    rcases h with rfl | h
    · left; rfl
    · right; exact fun hh => h (fun x hx => hh x hx)

/-! ### C20 without an axis -/

theorem keys_unravelIndex {indices : SA Nat} {s : Shape} {d : Dict (SA Int)}
    (h : unravelIndex indices s = .ok d) : keys d = keys s := by
  unfold unravelIndex at h
  split at h
  · injection h with h
    subst h
    unfold keys
    rw [List.map_map]
    simp [Function.comp_def, List.zipIdx_map_fst]
  · cases h

/-- **C20** Without an axis: `a[np.argmin(a)]` is the minimum of all elements. -/
theorem C20_axis_none (a : SA α) (ha : a.WF) (hax : a.axes ≠ [])
    (hne : ∀ ax, get? a.shape ax ≠ some 0) (g : List α → Nat) (f : List α → α) (hgf : IsArgOf g f) :
    ∃ d r m, argReduce g a none = .ok d ∧ keys d = a.axes ∧ a.getitem (asItem d) = .ok r ∧
      reduce true f a none false none none = .ok m ∧ r.axes = [] ∧ r.axes = m.axes ∧
      SameByName r m ∧ ∀ e, r.at' e = f a.nd.toList := by
  have hw : WhereOk a none := by intro w h; cases h
  have h1 : a.shape.isEmpty = false := by
    have := keys_shape ha
    cases h : a.shape with
    | nil => rw [h] at this; exact absurd this.symm hax
    | cons _ _ => rfl
  have hf : a.axes.filter (· ∉ a.axes) = [] := by
    rw [List.filter_eq_nil_iff]
    intro x hx; simpa using hx
  have hf' : a.axes.filter (· ∈ a.axes) = a.axes := by
    rw [List.filter_eq_self]
    intro x hx; simpa using hx
  have hpos : a.axes.map a.axes.idxOf = List.range a.nd.ndim := by
    rw [ha.1]
    apply List.ext_getElem
    · simp
    · intro i i1 i2
      simp [ha.2.idxOf_getElem]
  have hes : ∀ e, slabList a a.axes e ≠ [] := slabList_ne_nil ha (fun _ h => h) hne
  have hP : (a.axes.map a.sizeOf').prod ≠ 0 := by
    have := hes (fun _ => 0)
    rwa [Ne, ← List.length_eq_zero_iff, length_slabList] at this
  obtain ⟨nd, hnd, hnds, hndg⟩ : ∃ nd, a.nd.reduce true g (List.range a.nd.ndim) false none = .ok nd ∧
      nd.shape = [] ∧ nd.get [] = g a.nd.toList := by
    have hr := ND.reduce_named ha.2 (shape_eq_map ha) ha.2 (fun _ h => h) true g false none
    simp only [hf, hf', hpos, Bool.false_eq_true, if_false, List.map_nil] at hr
    rcases hr with ⟨_, hz, _⟩ | ⟨_, nd, q1, q2, q3⟩
    · exact absurd hz hP
    · refine ⟨nd, q1, q2, ?_⟩
      rw [q3 (fun _ => 0)]
      have : ∀ l : List (String → Nat), l.filter (fun e' => ND.maskAt none (a.axes.map e')) = l := by
        intro l; rw [List.filter_eq_self]; intro _ _; rfl
      rw [this, toList_eq_slabList ha (fun _ => 0)]
      rfl
  have hiw : (SA.mk [] nd).WF := ⟨by simp [ND.ndim, hnds], by simp⟩
  have hat : ∀ e, (SA.mk [] nd).at' e = g a.nd.toList := fun e => hndg
  have hlt : g a.nd.toList < (a.axes.map a.sizeOf').prod := by
    rw [← length_slabList a a.axes (fun _ => 0), toList_eq_slabList ha (fun _ => 0)]
    exact (hgf _ (hes _)).1
  obtain ⟨d, k1, k2, k3, k4, r, k5, k6, k7, k8, k9⟩ := getitem_unravel ha ha.2 hax (fun _ h => h) hiw
    (fun ax h h' => absurd h h') (fun e _ => by rw [hat]; exact hlt)
  have hshape : a.axes.map (fun ax => (ax, a.sizeOf' ax)) = a.shape := by
    unfold shape
    rw [shape_eq_map ha, List.zip_map_right]
    apply List.ext_getElem
    · simp
    · intro i i1 i2; simp
  rw [hshape] at k1
  have hkd : keys d = a.axes := by rw [keys_unravelIndex k1, keys_shape ha]
  have hcd : a.completeIndex d = d := by
    unfold completeIndex
    have : a.shape.filter (fun p => p.1 ∉ keys d) = [] := by
      rw [List.filter_eq_nil_iff]
      intro p hp
      have : p.1 ∈ keys a.shape := List.mem_map.2 ⟨p, hp, rfl⟩
      rw [keys_shape ha] at this
      simpa [hkd] using this
    rw [this]; simp
  rw [hcd] at k5
  have harg : argReduce g a none = .ok d := by
    unfold argReduce
    simp only [bind, Except.bind, h1, Bool.false_eq_true, if_false, hnd, mk?_of_wf hiw.1 hiw.2]
    exact k1
  have hval : ∀ e, r.at' e = f a.nd.toList := by
    intro e
    have he : InRange (SA.mk [] nd).shape e := by
      intro ax n hn; simp [shape] at hn
    rw [k9 e he, hat, toList_eq_slabList ha e]
    obtain ⟨hl, heq⟩ := hgf _ (hes e)
    rw [← heq]
    exact (slabList_getElem hl).symm
  have hes' : ¬ (true = true ∧ EmptySlab a a.axes) := by
    rintro ⟨_, ⟨ax, _, h0⟩, _⟩
    exact hne ax h0
  rcases reduce_main ha hw ha.2 (fun _ h => h) true f false with ⟨_, he, _⟩ | ⟨_, m, m1, m2, m3, m4, m5⟩
  · exact absurd ⟨rfl, he⟩ hes'
  simp only [Bool.false_eq_true, if_false, hf] at m3
  refine ⟨d, r, m, harg, hkd, k5, by rw [C17_axis_none a ha none hw]; exact m1, k7, by rw [k7, m3], ?_, hval⟩
  refine ⟨?_, ?_⟩
  · intro ax
    rw [(get?_shape_none k6).2 (by rw [k7]; simp), (get?_shape_none m2).2 (by rw [m3]; simp)]
  · intro e _
    rw [hval, m5, hf', toList_eq_slabList ha e]
    have hfil : ∀ l : List (String → Nat), l.filter (selected none) = l := by
      intro l; rw [List.filter_eq_self]; intro _ _; rfl
    rw [hfil]
    unfold slabList slabEnvs
    have : a.axes.map a.size1 = a.axes.map a.sizeOf' :=
      List.map_congr_left (fun ax h => size1_eq ha h)
    rw [this]

/-- **C20** (errors) An axis which the array lacks, an empty sequence of axes, and an array without axes
when no axis is given raise `ValueError`. -/
theorem C20_error (a : SA α) (g : List α → Nat) :
    (∀ A, A = [] ∨ ¬ A ⊆ a.axes → argReduce g a (some A) = .error .valueError) ∧
    (a.axes = [] → argReduce g a none = .error .valueError) := by
  constructor
  · intro A h
    unfold argReduce
    rcases h with rfl | h
    · simp [flattenAxes, bind, Except.bind]
    · simp only
      rw [if_neg (fun hh => h (fun x hx => hh x hx))]
  · intro h
    unfold argReduce
    simp [shape, h]

/-! ### C22 -/

/-- **C22** `np.nonzero(a)` holds, for each axis of `a`, a one-dimensional array with the coordinates of
an enumeration `sel` of the named indices with a nonzero element: each is in range and nonzero,
they are in strictly increasing row-major order (so each occurs once), and every one occurs. -/
theorem C22_nonzero_partial (a : SA α) (ha : a.WF) (hax : a.axes ≠ []) (p : α → Bool) :
    ∃ (d : Dict (SA Int)) (n : Nat) (sel : Nat → String → Nat), nonzero p a = .ok d ∧ keys d = a.axes ∧
      (∀ ax ∈ a.axes, ∃ b, get? d ax = some b ∧ b.WF ∧ b.shape = [("*".intercalate a.axes, n)] ∧
        ∀ e, e ("*".intercalate a.axes) < n → b.at' e = (sel (e ("*".intercalate a.axes)) ax : Int)) ∧
      (∀ k < n, InRange a.shape (sel k) ∧ p (a.at' (sel k)) = true) ∧
      (∀ k k', k < k' → k' < n → List.Lex (· < ·) (a.axes.map (sel k)) (a.axes.map (sel k'))) ∧
      (∀ e, InRange a.shape e → p (a.at' e) = true → ∃ k < n, ∀ ax ∈ a.axes, sel k ax = e ax) := by
  have h1 : a.shape.isEmpty = false := by
    have := keys_shape ha
    cases h : a.shape with
    | nil => rw [h] at this; exact absurd this.symm hax
    | cons _ _ => rfl
  set mask : SA Bool := ⟨a.axes, a.nd.map p⟩ with hmask
  have hm : mask.WF := ⟨ha.1, ha.2⟩
  obtain ⟨t1, t2, t3⟩ := trues_spec hm
  let B : String → SA Int := fun ax => ⟨["*".intercalate a.axes], ⟨[mask.nd.trues.length],
    fun i => (((mask.nd.trues.getD (i.headD 0) []).getD (a.axes.idxOf ax) 0 : Nat) : Int)⟩⟩
  have hd : nonzero p a = .ok (a.axes.map (fun ax => (ax, B ax))) := by
    unfold nonzero
    simp only [h1, Bool.false_eq_true, if_false, bind, Except.bind, flattenAxes_ok hax]
    rw [zipIdx_map_eq ha.2 (fun _ j => (⟨["*".intercalate a.axes], ⟨[(a.nd.map p).trues.length],
      fun i => ((((a.nd.map p).trues.getD (i.headD 0) []).getD j 0 : Nat) : Int)⟩⟩ : SA Int))]
  refine ⟨_, mask.nd.trues.length, trueEnv mask, hd, ?_, ?_, t1, t2, t3⟩
  · unfold keys; rw [List.map_map]; simp [Function.comp_def]
  · intro ax hmem
    exact ⟨B ax, by rw [get?_map_list, if_pos hmem], ⟨rfl, by simp [B]⟩, rfl, fun e _ => rfl⟩

/-- **C22** `a[np.nonzero(a)]` equals `a[a != 0]`. -/
theorem C22_nonzero_indexing_partial (a : SA α) (ha : a.WF) (hax : a.axes ≠ []) (p : α → Bool) :
    ∃ d r s, nonzero p a = .ok d ∧ a.getitem (asItem d) = .ok r ∧
      a.getMask ⟨a.axes, a.nd.map p⟩ = .ok s ∧ r.WF ∧ r.axes = s.axes ∧ SameByName r s := by
  set mask : SA Bool := ⟨a.axes, a.nd.map p⟩ with hmask
  have hm : mask.WF := ⟨ha.1, ha.2⟩
  set name := "*".intercalate a.axes with hname
  obtain ⟨t1, t2, t3⟩ := trues_spec hm
  let B : String → SA Int := fun ax => ⟨[name], ⟨[mask.nd.trues.length],
    fun i => (((mask.nd.trues.getD (i.headD 0) []).getD (a.axes.idxOf ax) 0 : Nat) : Int)⟩⟩
  have h1 : a.shape.isEmpty = false := by
    have := keys_shape ha
    cases h : a.shape with
    | nil => rw [h] at this; exact absurd this.symm hax
    | cons _ _ => rfl
  have hd : nonzero p a = .ok (a.axes.map (fun ax => (ax, B ax))) := by
    unfold nonzero
    simp only [h1, Bool.false_eq_true, if_false, bind, Except.bind, flattenAxes_ok hax]
    rw [zipIdx_map_eq ha.2 (fun _ j => (⟨[name], ⟨[(a.nd.map p).trues.length],
      fun i => ((((a.nd.map p).trues.getD (i.headD 0) []).getD j 0 : Nat) : Int)⟩⟩ : SA Int))]
  set d : Dict (SA Int) := a.axes.map (fun ax => (ax, B ax)) with hdd
  have hkd : keys d = a.axes := by rw [hdd]; unfold keys; rw [List.map_map]; simp [Function.comp_def]
  have hB : ∀ ax, (B ax).WF ∧ (B ax).shape = [(name, mask.nd.trues.length)] := fun ax => ⟨⟨rfl, by simp [B]⟩, rfl⟩
  have hget : ∀ ax b, get? d ax = some b → b = B ax ∧ ax ∈ a.axes := by
    intro ax b hb
    rw [hdd, get?_map_list] at hb
    split at hb
    · next h => injection hb with hb; exact ⟨hb.symm, h⟩
    · cases hb
  have hvals : d.values.map SA.shape = a.axes.map (fun _ => [(name, mask.nd.trues.length)]) := by
    rw [hdd]; unfold values; rw [List.map_map, List.map_map]; rfl
  have hS : broadcastShapes (d.values.map SA.shape) = .ok [(name, mask.nd.trues.length)] := by
    rw [hvals]
    cases hc : a.axes with
    | nil => exact absurd hc hax
    | cons x l =>
      rw [List.map_cons]
      apply broadcastShapes_fits_all
      intro t ht
      obtain ⟨_, _, rfl⟩ := List.mem_map.1 ht
      exact ⟨by simp [Dict.WF, keys], fun ax m h => ⟨m, h, .inl rfl⟩⟩
  have hbat : ∀ ax e, (B ax).at' e = ((trueEnv mask (e name) ax : Nat) : Int) := fun _ _ => rfl
  have hin : ∀ e : String → Nat, e name < mask.nd.trues.length → ∀ ax ∈ a.axes, trueEnv mask (e name) ax < a.sizeOf' ax := by
    intro e he ax hm'
    obtain ⟨n, hn⟩ := exists_get?_of_mem (d := a.shape) (by rw [keys_shape ha]; exact hm')
    have := (t1 _ he).1 ax n hn
    simpa [sizeOf', hn] using this
  have hrange : ∀ (b : SA Int) (e : String → Nat), b.shape = [(name, mask.nd.trues.length)] →
      (InRange b.shape e ↔ e name < mask.nd.trues.length) := by
    intro b e hb
    rw [hb]
    constructor
    · intro h; exact h name _ (by rw [get?_cons, if_pos rfl])
    · intro h ax n hn
      rw [get?_cons, get?_nil] at hn
      split at hn
      · next hh => subst hh; injection hn with hn; rw [← hn]; exact h
      · cases hn
  obtain ⟨r, r1, r2, r3, r4, r5⟩ := getitem_full ha (d := d) (by unfold Dict.WF; rw [hkd]; exact ha.2)
    (by intro ax; rw [hkd])
    (by
      intro b hb
      obtain ⟨q, hq, rfl⟩ := List.mem_map.1 hb
      rw [hdd] at hq
      obtain ⟨ax, _, rfl⟩ := List.mem_map.1 hq
      exact (hB ax).1)
    hS (fun ax e => trueEnv mask (e name) ax)
    (by
      intro ax b hb e he
      obtain ⟨rfl, hm'⟩ := hget ax b hb
      exact ⟨hbat ax e, hin e ((hrange _ e (hB ax).2).1 he) ax hm'⟩)
  obtain ⟨s', hs', _, h3⟩ := ((getMask_main ha hm).2 (fun _ h => h)).2 (fun ax _ => rfl)
  have hs'' : s' = name := by
    rw [maskAxis_ok, if_neg hax] at hs'
    injection hs' with hs'
    exact hs'.symm
  subst hs''
  have hf : a.axes.filter (· ∉ mask.axes) = [] := by
    rw [List.filter_eq_nil_iff]
    intro x hx; simpa using hx
  obtain ⟨s, s1, s2, s3, s4, s5, s6⟩ := h3 (by rw [hf]; simp)
  rw [hf, List.nil_append] at s3
  refine ⟨d, r, s, hd, r1, s1, r2, by rw [r3, s3]; rfl, ?_, ?_⟩
  · intro ax
    rw [r4]
    by_cases hn : ax = name
    · subst hn; rw [s5, get?_cons, if_pos rfl]
    · rw [(get?_shape_none s2).2 (by rw [s3]; simpa using hn), get?_cons, if_neg (fun h => hn h.symm), get?_nil]
  · intro e he
    have he' : e name < mask.nd.trues.length := by
      rw [r4] at he
      exact he name _ (by rw [get?_cons, if_pos rfl])
    rw [r5, s6 e he']
    apply at'_congr
    intro ax hm'
    have hgx : get? d ax = some (B ax) := by rw [hdd, get?_map_list, if_pos hm']
    rw [hgx, Option.getD_some, atB_eq_at' (hB ax).1 ((hrange _ e (hB ax).2).2 he'), hbat, pyIndex_nat]
    unfold maskIdx
    rw [if_pos hm']

/-- **C22** `np.unravel_index(indices, shape)` inverts row-major numbering: where `indices` holds the flat
position of a named index `E e` of `shape`, the arrays of the result hold the coordinates of `E e`. -/
theorem C22_unravel_index (indices : SA Nat) (hi : indices.WF) (s : Shape) (hs : Dict.WF s)
    (E : (String → Nat) → String → Nat)
    (hE : ∀ e, InRange indices.shape e → InRange s (E e) ∧
      indices.at' e = ND.ravel s.values (s.keys.map (E e))) :
    ∃ d, unravelIndex indices s = .ok d ∧ keys d = keys s ∧
      ∀ ax ∈ keys s, ∃ b, get? d ax = some b ∧ b.WF ∧ b.shape = indices.shape ∧
        ∀ e, InRange indices.shape e → b.at' e = (E e ax : Int) := by
  have hr : ∀ e, InRange indices.shape e → ND.InRange s.values (s.keys.map (E e)) := by
    intro e he
    rw [← inRange_iff_nd hs]
    exact (hE e he).1
  have hcond : ∀ i ∈ ndIndices indices.nd.shape, indices.nd.get i < s.values.prod := by
    intro i hmem
    rw [ND.mem_ndIndices_iff, shape_eq_map hi] at hmem
    obtain ⟨e, rfl, he⟩ := exists_env hi.2 hmem
    have he' : InRange indices.shape e := by
      rw [inRange_nd hi, shape_eq_map hi, inRange_map]; exact he
    have := (hE e he').2
    unfold at' at this
    rw [this]
    exact ND.ravel_lt (hr e he')
  have hd : unravelIndex indices s = .ok (s.keys.map (fun ax => (ax, (⟨indices.axes, indices.nd.map
      (fun k => (((ND.unravel s.values k).getD (s.keys.idxOf ax) 0 : Nat) : Int))⟩ : SA Int)))) := by
    unfold unravelIndex
    rw [if_pos hcond, zipIdx_map_eq hs (fun _ i => (⟨indices.axes, indices.nd.map
      (fun k => (((ND.unravel s.values k).getD i 0 : Nat) : Int))⟩ : SA Int))]
  refine ⟨_, hd, keys_unravelIndex hd, ?_⟩
  intro ax hax
  refine ⟨_, by rw [get?_map_list, if_pos hax], ⟨hi.1, hi.2⟩, rfl, ?_⟩
  intro e he
  show (((ND.unravel s.values (indices.at' e)).getD (s.keys.idxOf ax) 0 : Nat) : Int) = _
  rw [(hE e he).2, ND.unravel_ravel (hr e he), getD_map_idxOf _ hax]

/-- **C22** (errors) A flat position which is too large raises `ValueError`. -/
theorem C22_unravel_index_error (indices : SA Nat) (hi : indices.WF) (s : Shape) (e : String → Nat)
    (he : InRange indices.shape e) (h : s.values.prod ≤ indices.at' e) :
    unravelIndex indices s = .error .valueError := by
  unfold unravelIndex
  rw [if_neg]
  intro hh
  have := hh (indices.axes.map e) (by rw [ND.mem_ndIndices_iff]; exact (inRange_nd hi).1 he)
  unfold at' at h
  omega

/-- **C22** (limit) For an array without axes, `np.nonzero` returns the empty dictionary, so that
`a[np.nonzero(a)]` is `a` even if its element is zero, although `a[a != 0]` is then empty. -/
theorem C22_zero_dim_limit : ∃ a : SA Nat, a.WF ∧ a.axes = [] ∧ a.nd.get [] = 0 ∧
    (nonzero (· != 0) a).toOption.map keys = some [] ∧
    (a.getitem (asItem [])).toOption.map (fun r => r.nd.toList) = some [0] ∧
    (a.getMask ⟨a.axes, a.nd.map (· != 0)⟩).toOption.map (fun r => r.nd.toList) = some [] :=
  ⟨⟨[], ⟨[], fun _ => 0⟩⟩, by decide⟩

/-! ### Concrete cases -/

/-- a 2×3 array -/
def exS : SA Nat := ⟨["x", "y"], ⟨[2, 3], fun i => (5 * i.getD 0 0 + 3 * i.getD 1 0) % 7⟩⟩
example : exS.nd.toList = [0, 3, 6, 5, 1, 4] := by decide

-- hypotheses of C20/C21 and the values they give
example : exS.WF ∧ ["y"] ⊆ exS.axes ∧ (∀ ax ∈ exS.axes, ax ∉ ["y"] → ax ≠ "*".intercalate ["y"]) := by decide
example : ∀ ax, get? exS.shape ax ≠ some 0 := by
  intro ax h
  have hm := mem_keys_of_get? h
  have : ax = "x" ∨ ax = "y" := by simpa [exS, shape, keys] using hm
  rcases this with rfl | rfl <;> revert h <;> decide
example : ((argReduce (ND.argmin (fun x y => decide (x ≤ y))) exS (some ["y"])).bind
    (fun d => exS.getitem (asItem d))).toOption.map (fun r => (r.axes, r.nd.toList)) =
    some (["x"], [0, 1]) := by decide
example : ((argReduce (ND.argmin (fun x y => decide (y ≤ x))) exS (some ["y", "x"])).bind
    (fun d => exS.getitem (asItem d))).toOption.map (fun r => (r.axes, r.nd.toList)) =
    some ([], [6]) := by decide

/-- a sort by insertion for the examples -/
def exSort (l : List Nat) : List Nat := l.insertionSort (· ≤ ·)

theorem exSort_isSort : IsSort (· ≤ ·) exSort :=
  fun l => ⟨List.perm_insertionSort _ l, List.pairwise_insertionSort _ l⟩

/-- the positions sorted by their elements -/
def exArgsort (l : List Nat) : List Nat :=
  (List.range l.length).insertionSort (fun i j => l.getD i 0 ≤ l.getD j 0)

theorem exArgsort_isArgSort : IsArgSort exArgsort exSort := by
  intro l
  have hlt : ∀ i ∈ exArgsort l, i < l.length := by
    intro i hi
    have := (List.perm_insertionSort _ _).mem_iff.1 hi
    simpa using this
  refine ⟨hlt, ?_⟩
  have h1 : (exArgsort l).map (fun i => l[i]?) = ((exArgsort l).map (fun i => l.getD i 0)).map some := by
    rw [List.map_map]
    apply List.map_congr_left
    intro i hi
    have := hlt i hi
    simp [this]
  rw [h1]
  congr 1
  have h2 : (exArgsort l).map (fun i => l.getD i 0) =
      ((List.range l.length).map (fun i => l.getD i 0)).insertionSort (· ≤ ·) :=
    List.map_insertionSort _ _ _ _ (fun a _ b _ => Iff.rfl)
  rw [h2]
  unfold exSort
  congr 1
  apply List.ext_getElem
  · simp
  · intro i h1 h2
    simp [h2]

example : ((argsort exArgsort exS (some ["x"])).bind (fun d => exS.getitem (asItem d))).toOption.map
    (fun r => (r.axes, r.nd.toList)) = some (["y", "x"], [0, 5, 1, 3, 4, 6]) := by decide
example : (sort exSort 0 exS (some ["x"])).toOption.map (fun r => (r.axes, r.nd.toList)) =
    some (["y", "x"], [0, 5, 1, 3, 4, 6]) := by decide
example : (sort exSort 0 exS (some ["y", "x"])).toOption.map (fun r => (r.axes, r.nd.toList)) =
    some (["y*x"], [0, 1, 3, 4, 5, 6]) := by decide
example : (nonzero (· != 0) exS).toOption.map (fun d => d.map (fun q => (q.1, q.2.axes, q.2.nd.toList))) =
    some [("x", ["x*y"], [0, 0, 1, 1, 1]), ("y", ["x*y"], [1, 2, 0, 1, 2])] := by decide
example : (unravelIndex ⟨["k"], ND.vec [4, 0, 5]⟩ exS.shape).toOption.map
    (fun d => d.map (fun q => (q.1, q.2.axes, q.2.nd.toList))) =
    some [("x", ["k"], [1, 0, 1]), ("y", ["k"], [1, 0, 2])] := by decide

end SA
end NA
