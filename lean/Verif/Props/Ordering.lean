import Verif.Scalar.ArgLemmas

/-!
# argmin/argmax (C20), sort/argsort (C21), nonzero/unravel_index (C22)
-/

namespace NA
open Dict
namespace SA
variable {α β : Type}

/-! ### Helpers -/

theorem slabEnvs_singleton (ax : String) (sz e : String → Nat) :
    slabEnvs [ax] sz e = (List.range (sz ax)).map (fun k => Function.update e ax k) := by
  unfold slabEnvs
  simp only [List.map_cons, List.map_nil, ndIndices, List.map_flatMap]
  rw [List.map_eq_flatMap]
  congr 1
  funext k
  congr 1
  funext x
  simp only [slabEnv, List.mem_singleton, Function.update_apply]
  split
  · next h => subst h; simp
  · rfl

theorem filter_mem_append_singleton {rest : List String} {new : String} (h : new ∉ rest) :
    (rest ++ [new]).filter (· ∈ [new]) = [new] ∧ (rest ++ [new]).filter (· ∉ [new]) = rest := by
  constructor
  · rw [List.filter_append]
    have : rest.filter (· ∈ [new]) = [] := by
      rw [List.filter_eq_nil_iff]
      intro x hx hxn
      simp at hxn
      exact h (hxn ▸ hx)
    rw [this]
    simp
  · rw [List.filter_append]
    have : rest.filter (· ∉ [new]) = rest := by
      rw [List.filter_eq_self]
      intro x hx
      simp
      intro hh
      exact h (hh ▸ hx)
    rw [this]
    simp

theorem flattenAxes_ok {A : List String} (h : A ≠ []) : flattenAxes A = .ok ("*".intercalate A) := by
  unfold flattenAxes
  simp [h]

theorem slab_in_range {a : SA α} (ha : a.WF) {A : List String} {e : String → Nat}
    (h : ∀ ax n, ax ∉ A → get? a.shape ax = some n → e ax < n) :
    ∀ ax ∈ a.axes, ax ∉ A → e ax < a.sizeOf' ax := by
  intro ax hax hx
  obtain ⟨n, hn⟩ := exists_get?_of_mem (d := a.shape) (by rw [keys_shape ha]; exact hax)
  have := h ax n hx hn
  simpa [sizeOf', hn] using this

/-- the named shape of the remaining axes -/
theorem inRange_rest {a b : SA α} {A : List String} {e : String → Nat}
    (hsh : ∀ ax, get? b.shape ax = if ax ∈ A then none else get? a.shape ax) (h : InRange b.shape e) :
    ∀ ax n, ax ∉ A → get? a.shape ax = some n → e ax < n := by
  intro ax n hx hn
  exact h ax n (by rw [hsh, if_neg hx, hn])

theorem slabList_ne_nil {a : SA α} (ha : a.WF) {A : List String} (hAs : A ⊆ a.axes)
    (hne : ∀ ax, get? a.shape ax ≠ some 0) (e : String → Nat) : slabList a A e ≠ [] := by
  rw [Ne, ← List.length_eq_zero_iff, length_slabList, List.prod_eq_zero_iff]
  intro h
  obtain ⟨ax, hax, h0⟩ := List.mem_map.1 h
  obtain ⟨n, hn⟩ := exists_get?_of_mem (d := a.shape) (by rw [keys_shape ha]; exact hAs hax)
  have : n = 0 := by simpa [sizeOf', hn] using h0
  exact hne ax (by rw [hn, this])

theorem argReduce_main {a : SA α} (ha : a.WF) {A : List String} (hA : A.Nodup) (hAne : A ≠ [])
    (hAs : A ⊆ a.axes) (hcoll : ∀ ax ∈ a.axes, ax ∉ A → ax ≠ "*".intercalate A)
    (hne : ∀ ax, get? a.shape ax ≠ some 0) (g : List α → Nat) (hg : ∀ l, l ≠ [] → g l < l.length) :
    ∃ (d : Dict (SA Int)), argReduce g a (some A) = .ok d ∧
      (∀ ax, ax ∈ keys d ↔ ax ∈ a.axes) ∧
      (∀ ax ∈ A, ∃ b, get? d ax = some b ∧ b.WF ∧ b.axes = a.axes.filter (· ∉ A) ∧
        (∀ x, get? b.shape x = if x ∈ A then none else get? a.shape x) ∧
        ∀ e, InRange b.shape e → b.at' e =
          ((ND.unravel (A.map a.sizeOf') (g (slabList a A e))).getD (A.idxOf ax) 0 : Nat)) ∧
      (∀ ax ∈ a.axes, ax ∉ A → get? d ax = some (arange ax (a.sizeOf' ax))) ∧
      ∃ r, a.getitem (asItem d) = .ok r ∧ r.WF ∧ r.axes = a.axes.filter (· ∉ A) ∧
        (∀ x, get? r.shape x = if x ∈ A then none else get? a.shape x) ∧
        ∀ e, InRange r.shape e →
          r.at' e = a.at' (slabEnv A (ND.unravel (A.map a.sizeOf') (g (slabList a A e))) e) := by
  set new := "*".intercalate A with hnew
  have hnewr : new ∉ a.axes.filter (· ∉ A) := by
    intro h
    simp only [List.mem_filter, decide_eq_true_eq] at h
    exact hcoll new h.1 h.2 rfl
  obtain ⟨flat, h1, h2, h3, h4, h5, h6⟩ := combined_line ha hA hAs hnewr (fun ax _ _ => hne ax)
  obtain ⟨hf1, hf2⟩ := filter_mem_append_singleton hnewr
  have hmem : new ∈ flat.axes := by rw [h3]; simp
  have hszpos : ∀ ax ∈ a.axes, a.sizeOf' ax ≠ 0 := by
    intro ax hax h0
    obtain ⟨n, hn⟩ := exists_get?_of_mem (d := a.shape) (by rw [keys_shape ha]; exact hax)
    have : n = 0 := by simpa [sizeOf', hn] using h0
    exact hne ax (by rw [hn, this])
  have hP : (A.map a.sizeOf').prod ≠ 0 := by
    rw [Ne, List.prod_eq_zero_iff]
    intro h
    obtain ⟨ax, hax, h0⟩ := List.mem_map.1 h
    exact hszpos ax (hAs hax) h0
  obtain ⟨nd, hnd, hnds, hndg⟩ : ∃ nd, flat.nd.reduce true g [flat.axes.idxOf new] false none = .ok nd ∧
      nd.shape = (a.axes.filter (· ∉ A)).map flat.sizeOf' ∧
      ∀ e, nd.get ((a.axes.filter (· ∉ A)).map e) =
        g ((slabEnvs [new] flat.sizeOf' e).map flat.at') := by
    have hr := ND.reduce_named h2.2 (shape_eq_map h2) (A := [new]) (by simp) (by simpa using hmem) true g false none
    simp only [h3, hf1, hf2, Bool.false_eq_true, if_false] at hr
    rcases hr with ⟨_, hz, _⟩ | ⟨_, nd, q1, q2, q3⟩
    · simp only [List.map_cons, List.map_nil, List.prod_cons, List.prod_nil, Nat.mul_one, h4] at hz
      exact absurd hz hP
    · refine ⟨nd, ?_, ?_, ?_⟩
      · rw [h3]; exact q1
      · rw [q2]
        apply List.map_congr_left
        intro ax hax
        rw [if_neg]
        intro hh
        simp at hh
        exact hnewr (hh ▸ hax)
      · intro e
        rw [q3]
        congr 1
        have : ∀ l : List (String → Nat), l.filter (fun e' => ND.maskAt none ((a.axes.filter (· ∉ A) ++ [new]).map e')) = l := by
          intro l; rw [List.filter_eq_self]; intro _ _; rfl
        rw [this]
        apply List.map_congr_left
        intro e' _
        unfold at'
        rw [h3]
  have hrn : (a.axes.filter (· ∉ A)).Nodup := ha.2.filter _
  obtain ⟨hiw, hish⟩ := mk_map hrn hnds
  set indices : SA Nat := ⟨a.axes.filter (· ∉ A), nd⟩ with hind
  have hsh : ∀ ax, get? indices.shape ax = if ax ∈ A then none else get? a.shape ax := by
    intro ax
    rw [hish]
    by_cases hx : ax ∈ A
    · simp [hx]
    · by_cases hm : ax ∈ a.axes
      · rw [if_pos (by simp [hm, hx]), if_neg hx, ← h5 ax hm hx]
        obtain ⟨n, hn⟩ := exists_get?_of_mem (d := a.shape) (by rw [keys_shape ha]; exact hm)
        simp [sizeOf', h5 ax hm hx, hn]
      · rw [if_neg (by simp [hm]), if_neg hx, (get?_shape_none ha).2 hm]
  have hrange : ∀ e, InRange indices.shape e → ∀ ax n, ax ∉ A → get? a.shape ax = some n → e ax < n := by
    intro e he ax n hx hn
    exact he ax n (by rw [hsh, if_neg hx, hn])
  have hat : ∀ e, InRange indices.shape e → indices.at' e = g (slabList a A e) := by
    intro e he
    have : indices.at' e = nd.get ((a.axes.filter (· ∉ A)).map e) := rfl
    rw [this, hndg, slabEnvs_singleton, List.map_map, ← h6 e (slab_in_range ha (hrange e he))]
    rfl
  have hlt : ∀ e, InRange indices.shape e → indices.at' e < (A.map a.sizeOf').prod := by
    intro e he
    rw [hat e he, ← length_slabList a A e]
    apply hg
    rw [Ne, ← List.length_eq_zero_iff, length_slabList]
    exact hP
  obtain ⟨d, k1, k2, k3, k4, r, k5, k6, k7, k8, k9⟩ := getitem_unravel ha hA hAne hAs hiw
    (fun ax hax hx => by rw [hsh, if_neg hx]) hlt
  have harg : argReduce g a (some A) = .ok (a.completeIndex d) := by
    unfold argReduce
    simp only [bind, Except.bind]
    rw [if_pos (fun ax hax => hAs hax), flattenAxes_ok hAne]
    simp only
    rw [← hnew, h1]
    simp only [pyTupleIndex, if_pos hmem]
    rw [hnd]
    simp only
    have hfe : flat.axes.filter (· ≠ new) = a.axes.filter (· ∉ A) := by
      rw [← hf2, h3]
      apply List.filter_congr
      intro x _
      simp
    rw [hfe, mk?_of_wf hiw.1 hiw.2]
    simp only
    have : A.map (fun ax => (ax, (get? a.shape ax).getD 0)) = A.map (fun ax => (ax, a.sizeOf' ax)) := rfl
    rw [this, k1]
  refine ⟨_, harg, k2, ?_, k4, r, k5, k6, k7, ?_, ?_⟩
  · intro ax hax
    obtain ⟨b, b1, b2, b3, b4, b5⟩ := k3 ax hax
    refine ⟨b, b1, b2, b3, by rw [b4]; exact hsh, ?_⟩
    intro e he
    rw [b5, hat e (by rw [← b4]; exact he)]
  · rw [k8]; exact hsh
  · intro e he
    rw [k8] at he
    rw [k9 e he, hat e he]

/-! ### C20 -/

/-- `g` returns a position where the list has the value `f` of the list (for instance `f` the minimum
and `g` the position of a minimum). -/
def IsArgOf (g : List α → Nat) (f : List α → α) : Prop :=
  ∀ l, l ≠ [] → ∃ h : g l < l.length, l[g l] = f l

/-- **C20** For a non-empty array, `np.argmin(a, axis=A)` is a dictionary with one index array for each
axis of `a`: those of the axes in `A` have the other axes and hold the coordinates of the element
selected by `g` from the slab (listed in row-major order with respect to `A`); the others enumerate
their axis. -/
theorem C20_arg (a : SA α) (ha : a.WF) (A : List String) (hA : A.Nodup) (hAne : A ≠ [])
    (hAs : A ⊆ a.axes) (hcoll : ∀ ax ∈ a.axes, ax ∉ A → ax ≠ "*".intercalate A)
    (hne : ∀ ax, get? a.shape ax ≠ some 0) (g : List α → Nat) (hg : ∀ l, l ≠ [] → g l < l.length) :
    ∃ (d : Dict (SA Int)), argReduce g a (some A) = .ok d ∧
      (∀ ax, ax ∈ keys d ↔ ax ∈ a.axes) ∧
      (∀ ax ∈ A, ∃ b, get? d ax = some b ∧ b.WF ∧ b.axes = a.axes.filter (· ∉ A) ∧
        ∀ e, InRange b.shape e → ∃ e', (slabEnvs A a.sizeOf' e)[g (slabList a A e)]? = some e' ∧
          b.at' e = (e' ax : Int)) ∧
      (∀ ax ∈ a.axes, ax ∉ A → get? d ax = some (arange ax (a.sizeOf' ax))) := by
  obtain ⟨d, h1, h2, h3, h4, _⟩ := argReduce_main ha hA hAne hAs hcoll hne g hg
  refine ⟨d, h1, h2, ?_, h4⟩
  intro ax hax
  obtain ⟨b, b1, b2, b3, b4, b5⟩ := h3 ax hax
  refine ⟨b, b1, b2, b3, fun e he =>
    ⟨slabEnv A (ND.unravel (A.map a.sizeOf') (g (slabList a A e))) e, ?_, ?_⟩⟩
  · have hlt : g (slabList a A e) < (A.map a.sizeOf').prod := by
      rw [← length_slabList a A e]
      exact hg _ (slabList_ne_nil ha hAs hne e)
    unfold slabEnvs
    rw [ND.ndIndices_eq_map_unravel, List.map_map, List.getElem?_map, List.getElem?_range hlt]
    rfl
  · rw [b5 e he, slabEnv, if_pos hax]

/-- **C20** Indexing with the result of `argmin` gives the minimum: `a[np.argmin(a, axis=A)]` and
`np.min(a, axis=A)` have the same axes and the same elements by name. -/
theorem C20_indexing (a : SA α) (ha : a.WF) (A : List String) (hA : A.Nodup) (hAne : A ≠ [])
    (hAs : A ⊆ a.axes) (hcoll : ∀ ax ∈ a.axes, ax ∉ A → ax ≠ "*".intercalate A)
    (hne : ∀ ax, get? a.shape ax ≠ some 0) (g : List α → Nat) (f : List α → α) (hf : Orderless f)
    (hgf : IsArgOf g f) :
    ∃ d r m, argReduce g a (some A) = .ok d ∧ a.getitem (asItem d) = .ok r ∧
      reduce true f a (some A) false none none = .ok m ∧ r.axes = m.axes ∧ SameByName r m := by
  have hg : ∀ l, l ≠ [] → g l < l.length := fun l hl => (hgf l hl).1
  obtain ⟨d, h1, h2, h3, h4, r, h5, h6, h7, h8, h9⟩ := argReduce_main ha hA hAne hAs hcoll hne g hg
  have hw : WhereOk a none := by intro w h; cases h
  have hes : ¬ (true = true ∧ EmptySlab a A) := by
    rintro ⟨_, ⟨ax, _, h0⟩, _⟩
    exact hne ax h0
  obtain ⟨m, m1, m2, m3, m4, _⟩ := C17_reduce a ha none hw A hA hAs true f false hes
  simp only [Bool.false_eq_true, if_false] at m3 m4
  refine ⟨d, r, m, h1, h5, m1, by rw [h7, m3], ?_, ?_⟩
  · intro ax; rw [h8, m4]
  · intro e he
    rw [h9 e he]
    obtain ⟨hlt, heq⟩ := hgf _ (slabList_ne_nil ha hAs hne e)
    have := slabList_getElem hlt
    rw [← this, heq]
    rw [C17_reduce_orderless a ha none hw A hA hAs true f hf false m m1 e _ (isSlab_slabEnvs ha hA hAs (fun _ => Iff.rfl) e)]
    have hfil : ∀ l : List (String → Nat), l.filter (selected none) = l := by
      intro l; rw [List.filter_eq_self]; intro _ _; rfl
    rw [hfil]
    unfold slabList
    apply hf
    apply List.Perm.map
    exact slabEnvs_perm hA hA (fun _ => Iff.rfl) (fun ax hax => (size1_eq ha (hAs hax)).symm) e

theorem fold1_mem (op : α → α → α) (dflt : α) (hop : ∀ x y, op x y = x ∨ op x y = y) (l : List α)
    (hl : l ≠ []) : fold1 op dflt l ∈ l := by
  cases l with
  | nil => exact absurd rfl hl
  | cons x l =>
    simp only [fold1]
    clear hl
    induction l with
    | nil => simp
    | cons y l ih =>
      simp only [List.foldr_cons]
      rcases hop y (List.foldr op x l) with h | h
      · rw [h]; simp
      · rw [h]
        rcases List.mem_cons.1 ih with h' | h'
        · rw [h']; simp
        · simp [h']

theorem fold1_le (op : α → α → α) (dflt : α) (le : α → α → Bool) (htrans : ∀ x y z, le x y → le y z → le x z)
    (hl : ∀ x y, le (op x y) x) (hr : ∀ x y, le (op x y) y) (hrefl : ∀ x, le x x) (l : List α) :
    ∀ y ∈ l, le (fold1 op dflt l) y := by
  cases l with
  | nil => simp
  | cons x l =>
    simp only [fold1]
    induction l with
    | nil => simp [hrefl]
    | cons z l ih =>
      simp only [List.foldr_cons]
      intro y hy
      rcases List.mem_cons.1 hy with rfl | hy
      · exact htrans _ _ _ (hr _ _) (ih _ (by simp))
      · rcases List.mem_cons.1 hy with rfl | hy
        · exact hl _ _
        · exact htrans _ _ _ (hr _ _) (ih _ (by simp [hy]))

/-- The position found by `np.argmin` in a list: it is in range, its element is the minimum, and no
earlier element is. -/
theorem argmin_spec (op : α → α → α) (dflt : α) (le : α → α → Bool)
    (htrans : ∀ x y z, le x y → le y z → le x z) (hanti : ∀ x y, le x y → le y x → x = y)
    (hrefl : ∀ x, le x x) (hop : ∀ x y, op x y = x ∨ op x y = y)
    (hl : ∀ x y, le (op x y) x) (hr : ∀ x y, le (op x y) y) (l : List α) (hne : l ≠ []) :
    ∃ h : ND.argmin le l < l.length, l[ND.argmin le l] = fold1 op dflt l ∧
      ∀ k (hk : k < ND.argmin le l), l[k] ≠ fold1 op dflt l := by
  have hm := fold1_mem op dflt hop l hne
  have hle := fold1_le op dflt le htrans hl hr hrefl l
  have hex : ∃ x ∈ l, (fun x => l.all (fun y => le x y)) x = true :=
    ⟨_, hm, by simp only [List.all_eq_true]; exact fun y hy => hle y hy⟩
  have hlt : ND.argmin le l < l.length := List.findIdx_lt_length_of_exists hex
  refine ⟨hlt, ?_, ?_⟩
  · have := List.findIdx_getElem (w := hlt)
    simp only [List.all_eq_true] at this
    exact hanti _ _ (this _ hm) (hle _ (List.getElem_mem _))
  · intro k hk heq
    have := List.not_of_lt_findIdx hk
    simp only [List.all_eq_false] at this
    obtain ⟨y, hy, hny⟩ := this
    apply hny
    rw [heq]
    exact hle y hy

/-- **C20** For a linear order, `a[np.argmin(a, axis=A)]` is the minimum over `A` by name, and the
position which `np.argmin` selects in each slab (in row-major order) is the first one of a
minimum. -/
theorem C20_argmin [LinearOrder α] (dflt : α) (a : SA α) (ha : a.WF) (A : List String) (hA : A.Nodup)
    (hAne : A ≠ []) (hAs : A ⊆ a.axes) (hcoll : ∀ ax ∈ a.axes, ax ∉ A → ax ≠ "*".intercalate A)
    (hne : ∀ ax, get? a.shape ax ≠ some 0) :
    (∃ d r m, argReduce (ND.argmin (fun x y => decide (x ≤ y))) a (some A) = .ok d ∧
      a.getitem (asItem d) = .ok r ∧ reduce true (fold1 min dflt) a (some A) false none none = .ok m ∧
      r.axes = m.axes ∧ SameByName r m) ∧
    ∀ e, ∃ h : ND.argmin (fun x y => decide (x ≤ y)) (slabList a A e) < (slabList a A e).length,
      (∀ x ∈ slabList a A e, (slabList a A e)[ND.argmin (fun x y => decide (x ≤ y)) (slabList a A e)] ≤ x) ∧
      ∀ k (hk : k < ND.argmin (fun x y => decide (x ≤ y)) (slabList a A e)),
        (slabList a A e)[ND.argmin (fun x y => decide (x ≤ y)) (slabList a A e)] < (slabList a A e)[k] := by
  have hspec := argmin_spec (α := α) min dflt (fun x y => decide (x ≤ y))
    (by simpa using fun x y z => le_trans) (by simpa using fun x y => le_antisymm) (by simp)
    (fun x y => min_choice x y) (by simp) (by simp)
  have hle := fold1_le (α := α) min dflt (fun x y => decide (x ≤ y))
    (by simpa using fun x y z => le_trans) (by simp) (by simp) (by simp)
  constructor
  · exact C20_indexing a ha A hA hAne hAs hcoll hne _ _
      (nestable_semigroup min dflt min_assoc min_comm).1 (fun l hl => by
        obtain ⟨h1, h2, _⟩ := hspec l hl
        exact ⟨h1, h2⟩)
  · intro e
    obtain ⟨h1, h2, h3⟩ := hspec _ (slabList_ne_nil ha hAs hne e)
    refine ⟨h1, ?_, ?_⟩
    · intro x hx
      rw [h2]
      simpa using hle _ x hx
    · intro k hk
      rw [h2]
      refine lt_of_le_of_ne ?_ (h3 k hk).symm
      simpa using hle _ _ (List.getElem_mem _)

/-- **C20** The same for `np.argmax` and the maximum. -/
theorem C20_argmax [LinearOrder α] (dflt : α) (a : SA α) (ha : a.WF) (A : List String) (hA : A.Nodup)
    (hAne : A ≠ []) (hAs : A ⊆ a.axes) (hcoll : ∀ ax ∈ a.axes, ax ∉ A → ax ≠ "*".intercalate A)
    (hne : ∀ ax, get? a.shape ax ≠ some 0) :
    (∃ d r m, argReduce (ND.argmin (fun x y => decide (y ≤ x))) a (some A) = .ok d ∧
      a.getitem (asItem d) = .ok r ∧ reduce true (fold1 max dflt) a (some A) false none none = .ok m ∧
      r.axes = m.axes ∧ SameByName r m) ∧
    ∀ e, ∃ h : ND.argmin (fun x y => decide (y ≤ x)) (slabList a A e) < (slabList a A e).length,
      (∀ x ∈ slabList a A e, x ≤ (slabList a A e)[ND.argmin (fun x y => decide (y ≤ x)) (slabList a A e)]) ∧
      ∀ k (hk : k < ND.argmin (fun x y => decide (y ≤ x)) (slabList a A e)),
        (slabList a A e)[k] < (slabList a A e)[ND.argmin (fun x y => decide (y ≤ x)) (slabList a A e)] := by
  have hspec := argmin_spec (α := α) max dflt (fun x y => decide (y ≤ x))
    (by simpa using fun x y z h1 h2 => le_trans h2 h1) (by simpa using fun x y h1 h2 => le_antisymm h2 h1)
    (by simp) (fun x y => max_choice x y) (by simp) (by simp)
  have hle := fold1_le (α := α) max dflt (fun x y => decide (y ≤ x))
    (by simpa using fun x y z h1 h2 => le_trans h2 h1) (by simp) (by simp) (by simp)
  constructor
  · exact C20_indexing a ha A hA hAne hAs hcoll hne _ _
      (nestable_semigroup max dflt max_assoc max_comm).1 (fun l hl => by
        obtain ⟨h1, h2, _⟩ := hspec l hl
        exact ⟨h1, h2⟩)
  · intro e
    obtain ⟨h1, h2, h3⟩ := hspec _ (slabList_ne_nil ha hAs hne e)
    refine ⟨h1, ?_, ?_⟩
    · intro x hx
      rw [h2]
      simpa using hle _ x hx
    · intro k hk
      rw [h2]
      refine lt_of_le_of_ne ?_ (h3 k hk)
      simpa using hle _ _ (List.getElem_mem _)

end SA
end NA
