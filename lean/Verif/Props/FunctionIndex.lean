import Verif.Props.Functions
import Verif.Props.Indexing

/-!
# Indexing function arrays (C50)
-/

namespace NA
open Dict
open SA (FitsIn InRange selIdx selLen ValidItem StepsOk BasicItem ItemWF IntAt)

namespace FA
variable {α β γ : Type}

/-! ### The items of the inputs and of the outputs -/

/-- The entry of one component (the `pick`ed one for an axis on vertices). -/
def entryAt (c : List String) (s : Shape) (pick : IndexVal × IndexVal → IndexVal) (ax : String) (v : IndexVal) :
    Option IndexVal :=
  if ax ∈ c then (if ax ∈ keys s then some v else none) else (vertexItem v).map pick

theorem fold_items (i o : Shape) (c : List String) (hc : axesCenterOf i o = .ok c) :
    ∀ (l : Dict IndexVal) (acc : Dict IndexVal × Dict IndexVal), WF l → WF acc.1 → WF acc.2 →
      (∀ ax v, get? l ax = some v → ax ∉ c → (vertexItem v).isSome) →
      ∃ A, l.foldlM (itemStep i o) acc = .ok A ∧ WF A.1 ∧ WF A.2 ∧
        (∀ ax, get? A.1 ax = ((get? l ax).bind (entryAt c i Prod.fst ax)).or (get? acc.1 ax)) ∧
        ∀ ax, get? A.2 ax = ((get? l ax).bind (entryAt c o Prod.snd ax)).or (get? acc.2 ax) := by
  intro l
  induction l with
  | nil =>
    intro acc _ h1 h2 _
    exact ⟨acc, rfl, h1, h2, by simp [get?_nil], by simp [get?_nil]⟩
  | cons p l ih =>
    intro acc hl h1 h2 hv
    obtain ⟨k, v⟩ := p
    rw [wf_cons] at hl
    obtain ⟨hk, hl⟩ := hl
    have hlk : get? l k = none := get?_eq_none.2 hk
    have hv' : ∀ ax v, get? l ax = some v → ax ∉ c → (vertexItem v).isSome := by
      intro ax w hw
      refine hv ax w ?_
      rw [get?_cons]
      have : k ≠ ax := by rintro rfl; rw [hlk] at hw; cases hw
      rw [if_neg this]; exact hw
    obtain ⟨B, hB, w1, w2, g1, g2⟩ : ∃ B, itemStep i o acc (k, v) = .ok B ∧ WF B.1 ∧ WF B.2 ∧
        (∀ ax, get? B.1 ax = if k = ax then (entryAt c i Prod.fst ax v).or (get? acc.1 ax) else get? acc.1 ax) ∧
        ∀ ax, get? B.2 ax = if k = ax then (entryAt c o Prod.snd ax v).or (get? acc.2 ax) else get? acc.2 ax := by
      have hrun : itemStep i o acc (k, v) =
        if k ∈ c then .ok (if k ∈ i.keys then acc.1.set k v else acc.1, if k ∈ o.keys then acc.2.set k v else acc.2)
        else match vertexItem v with
          | some w => .ok (acc.1.set k w.1, acc.2.set k w.2)
          | none => .error .valueError := by
        unfold itemStep
        rw [hc]
        rfl
      rw [hrun]
      by_cases hkc : k ∈ c
      · rw [if_pos hkc]
        refine ⟨_, rfl, ?_, ?_, fun ax => ?_, fun ax => ?_⟩
        · split
          · exact wf_set h1 _ _
          · exact h1
        · show WF (if k ∈ o.keys then acc.2.set k v else acc.2)
          split
          · exact wf_set h2 _ _
          · exact h2
        · by_cases hx : k = ax
          · subst hx
            simp only [if_true, entryAt, if_pos hkc]
            split <;> simp [get?_set]
          · simp only [if_neg hx]
            split <;> simp [get?_set, hx]
        · by_cases hx : k = ax
          · subst hx
            simp only [if_true, entryAt, if_pos hkc]
            split <;> simp [get?_set]
          · simp only [if_neg hx]
            split <;> simp [get?_set, hx]
      · rw [if_neg hkc]
        have hsome := hv k v (by rw [get?_cons]; simp) hkc
        obtain ⟨w, hw⟩ := Option.isSome_iff_exists.1 hsome
        rw [hw]
        refine ⟨_, rfl, wf_set h1 _ _, wf_set h2 _ _, fun ax => ?_, fun ax => ?_⟩
        · by_cases hx : k = ax
          · subst hx; simp [entryAt, hkc, hw, get?_set]
          · simp [get?_set, hx]
        · by_cases hx : k = ax
          · subst hx; simp [entryAt, hkc, hw, get?_set]
          · simp [get?_set, hx]
    obtain ⟨A, hA, a1, a2, a3, a4⟩ := ih B hl w1 w2 hv'
    refine ⟨A, by rw [List.foldlM_cons, hB]; exact hA, a1, a2, fun ax => ?_, fun ax => ?_⟩
    · rw [a3, get?_cons, g1]
      by_cases hx : k = ax
      · subst hx; simp [hlk]
      · simp [hx]
    · rw [a4, get?_cons, g2]
      by_cases hx : k = ax
      · subst hx; simp [hlk]
      · simp [hx]

/-! ### Slices with nonnegative bounds -/

/-- A slice with step 1 and nonnegative bounds selects the positions `lo`, `lo + 1`, …, `hi - 1`. -/
theorem slice_unit (n : Nat) (s : Slice) (hstep : s.step = none ∨ s.step = some 1) (lo hi : Nat)
    (hlo : (s.start = none ∧ lo = 0) ∨ s.start = some (lo : Int)) (hln : lo ≤ n)
    (hhi : (s.stop = none ∧ hi = n) ∨ ∃ q : Nat, s.stop = some (q : Int) ∧ hi = min q n) :
    sliceLen n s = hi - lo ∧ ∀ k, slicePos n s k = lo + k := by
  have hst : s.step.getD 1 = 1 := by rcases hstep with h | h <;> simp [h]
  have h1 : (s.start.map (Slice.clampBound n 0 n)).getD 0 = (lo : Int) := by
    rcases hlo with ⟨h, h'⟩ | h
    · simp [h, h']
    · rw [h]
      simp only [Option.map_some, Option.getD_some, Slice.clampBound]
      split <;> split <;> (try split) <;> omega
  have h2 : (s.stop.map (Slice.clampBound n 0 n)).getD n = (hi : Int) := by
    rcases hhi with ⟨h, h'⟩ | ⟨q, h, h'⟩
    · simp [h, h']
    · rw [h, h']
      simp only [Option.map_some, Option.getD_some, Slice.clampBound]
      split <;> split <;> (try split) <;> omega
  have hr : s.resolve n = .ok ⟨lo, 1, hi - lo⟩ := by
    unfold Slice.resolve
    simp only [hst, h1, h2]
    norm_num
    omega
  unfold sliceLen slicePos
  rw [hr]
  refine ⟨rfl, fun k => ?_⟩
  simp only [RSlice.pos]
  omega

/-! ### C50 -/

/-- An entry for an axis with `n` cells, which selects the `len` cells starting at cell `lo`: a nonnegative integer
in range, or a slice without step (or with step 1) whose bounds are nonnegative and in order. -/
def CellRange (n : Nat) (v : IndexVal) (lo len : Nat) : Prop :=
  (v = .int lo ∧ lo < n ∧ len = 1) ∨
  ∃ s, v = .slice s ∧ (s.step = none ∨ s.step = some 1) ∧
    ((s.start = none ∧ lo = 0) ∨ s.start = some (lo : Int)) ∧ lo ≤ n ∧
    ((s.stop = none ∧ lo + len = n) ∨ ∃ q : Nat, s.stop = some (q : Int) ∧ lo ≤ q ∧ lo + len = min q n)

theorem cellRange_item {n lo len : Nat} {v : IndexVal} (h : CellRange n v lo len) :
    ∃ si so, vertexItem v = some (.slice si, .slice so) ∧ si.step ≠ some 0 ∧ so.step ≠ some 0 ∧
      sliceLen (n + 1) si = len + 1 ∧ (∀ k, slicePos (n + 1) si k = lo + k) ∧
      sliceLen n so = len ∧ ∀ k, slicePos n so k = lo + k := by
  rcases h with ⟨rfl, h1, rfl⟩ | ⟨s, rfl, h1, h2, h3, h4⟩
  · refine ⟨_, _, rfl, by simp, by simp, ?_⟩
    obtain ⟨a, b⟩ := slice_unit (n + 1) ⟨some (lo : Int), some ((lo : Int) + 2), none⟩ (Or.inl rfl) lo (lo + 2) (Or.inr rfl)
      (by omega) (Or.inr ⟨lo + 2, by simp, by omega⟩)
    obtain ⟨a', b'⟩ := slice_unit n ⟨some (lo : Int), some ((lo : Int) + 1), none⟩ (Or.inl rfl) lo (lo + 1) (Or.inr rfl)
      (by omega) (Or.inr ⟨lo + 1, by simp, by omega⟩)
    exact ⟨by rw [a]; omega, b, by rw [a']; omega, b'⟩
  · have hs0 : s.step ≠ some 0 := by rcases h1 with h | h <;> simp [h]
    obtain ⟨a', b'⟩ := slice_unit n s h1 lo (lo + len) h2 h3 (by
      rcases h4 with ⟨h, h'⟩ | ⟨q, h, _, h'⟩
      · exact Or.inl ⟨h, h'⟩
      · exact Or.inr ⟨q, h, h'⟩)
    by_cases hnn : s.start.isNone ∧ s.stop.isNone
    · have hst : s.start = none := by simpa using hnn.1
      have hsp : s.stop = none := by simpa using hnn.2
      obtain ⟨a, b⟩ := slice_unit (n + 1) s h1 lo (n + 1) h2 (by omega) (Or.inl ⟨hsp, rfl⟩)
      have hlo : lo = 0 := by
        rcases h2 with h | h
        · exact h.2
        · rw [hst] at h; cases h
      have hlen : lo + len = n := by
        rcases h4 with h | ⟨q, h, _⟩
        · exact h.2
        · rw [hsp] at h; cases h
      refine ⟨s, s, by simp only [vertexItem, if_pos hnn], hs0, hs0, ?_, b, ?_, b'⟩
      · rw [a]; omega
      · rw [a']; omega
    · rcases h4 with ⟨h, h'⟩ | ⟨q, h, hq, h'⟩
      · obtain ⟨a, b⟩ := slice_unit (n + 1) ⟨s.start, none, none⟩ (Or.inl rfl) lo (n + 1) h2 (by omega) (Or.inl ⟨rfl, rfl⟩)
        refine ⟨⟨s.start, none, none⟩, s, by simp only [vertexItem]; rw [if_neg hnn]; simp only [h], by simp, hs0, ?_, b, ?_, b'⟩
        · rw [a]; omega
        · rw [a']; omega
      · obtain ⟨a, b⟩ := slice_unit (n + 1) ⟨s.start, some ((q : Int) + 1), none⟩ (Or.inl rfl) lo (min (q + 1) (n + 1)) h2
          (by omega) (Or.inr ⟨q + 1, by simp, rfl⟩)
        refine ⟨⟨s.start, some ((q : Int) + 1), none⟩, s, by simp only [vertexItem]; rw [if_neg hnn]; simp only [h], by simp, hs0, ?_, b, ?_, b'⟩
        · rw [a]; omega
        · rw [a']; omega

/-- What indexing does to one component, given its own item. -/
theorem comp_getitem {a : SA α} (ha : a.WF) {i o s : Shape} {item A : Dict IndexVal} (hi : BasicItem item) (hA : WF A)
    (c : List String) (pick : IndexVal × IndexVal → IndexVal) (lo cnt : String → Nat)
    (hget : ∀ ax ∈ a.axes, get? A ax = (get? item ax).bind (entryAt c a.shape pick ax))
    (hget' : ∀ ax, ax ∉ a.axes → ∀ b, get? A ax ≠ some (.arr b))
    (hvert : ∀ ax v, get? item ax = some v → ax ∉ c → ∃ w sl, vertexItem v = some w ∧ pick w = .slice sl ∧
      sl.step ≠ some 0 ∧ ax ∈ a.axes ∧ sliceLen ((get? a.shape ax).getD 0) sl = cnt ax ∧
      ∀ k, slicePos ((get? a.shape ax).getD 0) sl k = lo ax + k)
    (hfull : ∀ ax ∈ keys item, ax ∈ c → ax ∈ a.axes → get? a.shape ax = get? s ax)
    (hsteps : StepsOk s item) (hvalid : ValidItem s item) :
    ∃ r, a.getitem A = .ok r ∧ r.WF ∧
      (∀ ax, ax ∈ r.axes ↔ ax ∈ a.axes ∧ ¬ (ax ∈ c ∧ IntAt item ax)) ∧
      (∀ ax ∈ r.axes, get? r.shape ax =
        if ax ∉ keys item then get? a.shape ax else if ax ∈ c then some (selLen s item ax) else some (cnt ax)) ∧
      ∀ e, r.at' e = a.at' (fun ax => if ax ∈ keys item ∧ ax ∉ c then lo ax + e ax else selIdx s item e ax) := by
  have hcase : ∀ ax ∈ a.axes, (ax ∉ keys item ∧ get? item ax = none ∧ get? A ax = none) ∨
      (∃ v, get? item ax = some v ∧ ax ∈ c ∧ get? A ax = some v ∧ get? a.shape ax = get? s ax) ∨
      (∃ v sl, get? item ax = some v ∧ ax ∉ c ∧ get? A ax = some (.slice sl) ∧ sl.step ≠ some 0 ∧
        sliceLen ((get? a.shape ax).getD 0) sl = cnt ax ∧ ∀ k, slicePos ((get? a.shape ax).getD 0) sl k = lo ax + k) := by
    intro ax hax
    rw [hget ax hax]
    cases hv : get? item ax with
    | none => left; exact ⟨get?_eq_none.1 hv, rfl, rfl⟩
    | some v =>
      right
      by_cases hc : ax ∈ c
      · left
        refine ⟨v, rfl, hc, ?_, hfull ax (mem_keys_of_get? hv) hc hax⟩
        have : ax ∈ keys a.shape := by rw [SA.keys_shape ha]; exact hax
        simp [entryAt, hc, this]
      · right
        obtain ⟨w, sl, h1, h2, h3, h4, h5, h6⟩ := hvert ax v hv hc
        exact ⟨v, sl, rfl, hc, by simp [entryAt, hc, h1, h2], h3, h5, h6⟩
  have hbA : BasicItem A := by
    refine ⟨hA, fun ax b => ?_⟩
    by_cases hax : ax ∈ a.axes
    · rcases hcase ax hax with ⟨_, _, h⟩ | ⟨v, hv, _, h, _⟩ | ⟨v, sl, _, _, h, _⟩
      · rw [h]; simp
      · rw [h]; rw [← hv]; exact hi.2 ax b
      · rw [h]; simp
    · exact hget' ax hax b
  obtain ⟨r, r1, r2, r3, _, r4, r5⟩ := SA.C13_getitem_basic a ha A hbA (by
      intro ax hax sl hsl
      rw [SA.keys_shape ha] at hax
      rcases hcase ax hax with ⟨_, _, h⟩ | ⟨v, hv, _, h, hs⟩ | ⟨v, sl', _, _, h, h', _⟩
      · rw [h] at hsl; cases hsl
      · rw [h] at hsl; injection hsl with hsl; subst hsl
        obtain ⟨m, hm⟩ := exists_get?_of_mem (d := a.shape) (by rw [SA.keys_shape ha]; exact hax)
        exact hsteps ax (by rw [hs] at hm; exact mem_keys_of_get? hm) sl hv
      · rw [h] at hsl; injection hsl with hsl; injection hsl with hsl; rw [← hsl]; exact h') (by
      intro ax n hn
      have hax : ax ∈ a.axes := by rw [← SA.keys_shape ha]; exact mem_keys_of_get? hn
      refine ⟨fun k hk => ?_, fun b hb => absurd hb (hbA.2 ax b)⟩
      rcases hcase ax hax with ⟨_, _, h⟩ | ⟨v, hv, _, h, hs⟩ | ⟨v, sl', _, _, h, h', _⟩
      · rw [h] at hk; cases hk
      · rw [h] at hk; injection hk with hk; subst hk
        exact (hvalid ax n (by rw [← hs]; exact hn)).1 k hv
      · rw [h] at hk; cases hk)
  refine ⟨r, r1, r2, fun ax => ?_, fun ax hax => ?_, fun e => ?_⟩
  · rw [r3]
    refine and_congr_right fun hax => not_congr ?_
    unfold IntAt
    rcases hcase ax hax with ⟨_, h0, h⟩ | ⟨v, hv, hc, h, hs⟩ | ⟨v, sl', _, hc, h, h', _⟩
    · rw [h, h0]; simp
    · rw [h, hv]; simp [hc]
    · rw [h]; simp [hc]
  · rw [r4 ax hax]
    have hax' := ((r3 ax).1 hax).1
    obtain ⟨m, hm⟩ := exists_get?_of_mem (d := a.shape) (by rw [SA.keys_shape ha]; exact hax')
    unfold selLen
    rcases hcase ax hax' with ⟨hk, h0, h⟩ | ⟨v, hv, hc, h, hs⟩ | ⟨v, sl', hv, hc, h, h', h5, _⟩
    · rw [if_pos hk, h, hm]; rfl
    · rw [if_neg (not_not.2 (mem_keys_of_get? hv)), if_pos hc, h, hv, hs]
    · rw [if_neg (not_not.2 (mem_keys_of_get? hv)), if_neg hc, h]
      exact congrArg some h5
  · rw [r5]
    refine SA.at'_congr fun ax hax => ?_
    unfold selIdx
    rcases hcase ax hax with ⟨hk, h0, h⟩ | ⟨v, hv, hc, h, hs⟩ | ⟨v, sl', hv, hc, h, h', _, h6⟩
    · rw [if_neg (fun hh => hk hh.1), h, h0]
    · rw [if_neg (fun hh => hh.2 hc), h, hv, hs]
    · rw [if_pos ⟨mem_keys_of_get? hv, hc⟩, h]
      exact h6 _

/-- **C50**. Indexing a function by integers and slices, such that the entry of an axis on vertices selects the
`len ax` cells starting at cell `lo ax` (and, for an axis on centers, the entry is valid and the inputs and outputs, if
they have this axis, have it with the full size): along such an axis the result has `len ax` outputs and
`len ax + 1` inputs, the axis is kept even by an integer, and inputs and outputs are read at one and the same map of
indices, which shifts by `lo ax`: output cell `k` is cell `lo ax + k`, and its bounding inputs `k` and `k + 1` are the vertices
`lo ax + k` and `lo ax + k + 1`, which bound this cell.  Along an axis on centers the result is what the item selects (`selIdx`).
(What is missing: negative integers and bounds, other steps, and bounds out of order, refuted below.) -/
theorem C50_getitem_partial (f : FA α β) (hfi : f.inputs.WF) (hfo : f.outputs.WF) (s : Shape) (hs : f.shape = .ok s)
    (item : Dict IndexVal) (hi : BasicItem item) (lo len : String → Nat)
    (hcells : ∀ ax v n, get? item ax = some v → get? f.inputs.shape ax = some (n + 1) → get? f.outputs.shape ax = some n →
      CellRange n v (lo ax) (len ax))
    (hfull : ∀ ax ∈ keys item, ¬ IsVertex f.inputs.shape f.outputs.shape ax →
      (ax ∈ f.inputs.axes → get? f.inputs.shape ax = get? s ax) ∧
      (ax ∈ f.outputs.axes → get? f.outputs.shape ax = get? s ax))
    (hsteps : StepsOk s item) (hvalid : ValidItem s item) :
    ∃ r, f.getitem item = .ok r ∧ r.inputs.WF ∧ r.outputs.WF ∧
      -- axes on vertices
      (∀ ax ∈ keys item, IsVertex f.inputs.shape f.outputs.shape ax →
        get? r.outputs.shape ax = some (len ax) ∧ get? r.inputs.shape ax = some (len ax + 1)) ∧
      -- axes on centers
      (∀ ax ∈ keys item, ¬ IsVertex f.inputs.shape f.outputs.shape ax →
        ((ax ∈ r.inputs.axes ↔ ax ∈ f.inputs.axes ∧ ¬ IntAt item ax) ∧
          (ax ∈ r.inputs.axes → get? r.inputs.shape ax = some (selLen s item ax))) ∧
        (ax ∈ r.outputs.axes ↔ ax ∈ f.outputs.axes ∧ ¬ IntAt item ax) ∧
          (ax ∈ r.outputs.axes → get? r.outputs.shape ax = some (selLen s item ax))) ∧
      -- other axes
      (∀ ax, ax ∉ keys item → get? r.inputs.shape ax = get? f.inputs.shape ax ∧
        get? r.outputs.shape ax = get? f.outputs.shape ax) ∧
      -- elements
      ∃ σ : (String → Nat) → String → Nat,
        (∀ e, r.inputs.at' e = f.inputs.at' (σ e)) ∧ (∀ e, r.outputs.at' e = f.outputs.at' (σ e)) ∧
        (∀ e, ∀ ax ∈ keys item, IsVertex f.inputs.shape f.outputs.shape ax → σ e ax = lo ax + e ax) ∧
        ∀ e ax, (ax ∉ keys item ∨ ¬ IsVertex f.inputs.shape f.outputs.shape ax) → σ e ax = selIdx s item e ax := by
  have hwi := SA.wf_shape hfi
  have hwo := SA.wf_shape hfo
  have hmm : ∀ ax, ¬ Mismatch f.inputs.shape f.outputs.shape ax := by
    intro ax h
    have := (C52_mismatch _ _ hwo ax h).2.2
    unfold shape at hs
    rw [this] at hs
    cases hs
  obtain ⟨c, v, s', hc, hv, hs', hnd, hmem, hvm, _, hks, _, _⟩ := C52_axes _ _ hwi hwo hmm
  have hmemc : ∀ ax, (ax ∈ f.inputs.axes ∨ ax ∈ f.outputs.axes) →
      (ax ∉ c ↔ IsVertex f.inputs.shape f.outputs.shape ax) := by
    intro ax hax
    rw [← hvm]
    rw [← SA.keys_shape hfi, ← SA.keys_shape hfo, ← hmem, List.mem_append] at hax
    constructor
    · intro h; exact hax.resolve_left h
    · intro h h'
      exact (List.nodup_append.1 hnd).2.2 ax h' ax h rfl
  have hVax : ∀ ax, IsVertex f.inputs.shape f.outputs.shape ax → ax ∈ f.inputs.axes ∧ ax ∈ f.outputs.axes := by
    rintro ax ⟨n, h1, h2⟩
    exact ⟨by rw [← SA.keys_shape hfi]; exact mem_keys_of_get? h1, by rw [← SA.keys_shape hfo]; exact mem_keys_of_get? h2⟩
  have hgf : ∀ ax, get? (item.filter (fun p => p.1 ∈ f.axes)) ax = if ax ∈ f.axes then get? item ax else none :=
    fun ax => SA.get?_filter item (· ∈ f.axes) ax
  have hfax : ∀ ax, ax ∈ f.axes ↔ ax ∈ f.inputs.axes ∨ ax ∈ f.outputs.axes := by
    intro ax
    unfold axes
    rw [mem_axesOf hwo, SA.keys_shape hfi, SA.keys_shape hfo]
  have hwf : WF (item.filter (fun p => p.1 ∈ f.axes)) := by
    have := hi.1
    unfold WF keys at this ⊢
    exact (List.Sublist.map _ List.filter_sublist).nodup this
  -- the cells of a vertex axis
  have hcell : ∀ ax v, get? item ax = some v → ax ∈ f.axes → ax ∉ c → ∃ n, get? f.inputs.shape ax = some (n + 1) ∧
      get? f.outputs.shape ax = some n ∧ CellRange n v (lo ax) (len ax) := by
    intro ax v hv hax hc
    obtain ⟨n, h1, h2⟩ := (hmemc ax ((hfax ax).1 hax)).1 hc
    exact ⟨n, h1, h2, hcells ax v n hv h1 h2⟩
  obtain ⟨A, hA, a1, a2, a3, a4⟩ := fold_items _ _ c hc _ ([], []) hwf wf_nil wf_nil (by
    intro ax v hv hnc
    rw [hgf] at hv
    by_cases hax : ax ∈ f.axes
    · rw [if_pos hax] at hv
      obtain ⟨n, _, _, h⟩ := hcell ax v hv hax hnc
      obtain ⟨si, so, h', _⟩ := cellRange_item h
      rw [h']; rfl
    · rw [if_neg hax] at hv; cases hv)
  have hnarr : ∀ (pick : IndexVal × IndexVal → IndexVal) (t : Shape), (pick = Prod.fst ∨ pick = Prod.snd) →
      ∀ ax b, ((get? (item.filter (fun p => p.1 ∈ f.axes)) ax).bind (entryAt c t pick ax)) ≠ some (.arr b) := by
    intro pick t hp ax b h
    rw [hgf] at h
    by_cases hax : ax ∈ f.axes
    · rw [if_pos hax] at h
      cases hv : get? item ax with
      | none => rw [hv] at h; cases h
      | some v =>
        rw [hv] at h
        simp only [Option.bind_some, entryAt] at h
        by_cases hcc : ax ∈ c
        · rw [if_pos hcc] at h
          split at h
          · exact hi.2 ax b (by rw [hv]; exact h)
          · cases h
        · rw [if_neg hcc] at h
          obtain ⟨n, _, _, h'⟩ := hcell ax v hv hax hcc
          obtain ⟨si, so, h'', _⟩ := cellRange_item h'
          rw [h''] at h
          rcases hp with rfl | rfl <;> cases h
    · rw [if_neg hax] at h; cases h
  obtain ⟨ri, i1, i2, i3, i4, i5⟩ := comp_getitem (s := s) (i := f.inputs.shape) (o := f.outputs.shape) hfi hi a1
    (c ++ (keys item).filter (· ∉ f.axes)) Prod.fst lo (fun ax => len ax + 1)
    (by
      intro ax hax
      rw [a3, hgf, if_pos ((hfax ax).2 (Or.inl hax))]
      have : ax ∉ (keys item).filter (· ∉ f.axes) := by
        simp only [List.mem_filter, decide_eq_true_eq]; exact fun h => h.2 ((hfax ax).2 (Or.inl hax))
      simp only [get?_nil, Option.or_none]
      congr 1
      funext v
      simp only [entryAt, List.mem_append, this, or_false])
    (by
      intro ax _ b
      rw [a3]
      simp only [get?_nil, Option.or_none]
      exact hnarr _ _ (Or.inl rfl) ax b)
    (by
      intro ax v hv hnc
      simp only [List.mem_append, not_or, List.mem_filter, decide_eq_true_eq, not_and, not_not] at hnc
      have hax := hnc.2 (mem_keys_of_get? hv)
      obtain ⟨n, h1, h2, h3⟩ := hcell ax v hv hax hnc.1
      obtain ⟨si, so, g1, g2, g3, g4, g5, g6, g7⟩ := cellRange_item h3
      refine ⟨_, si, g1, rfl, g2, ?_, ?_, ?_⟩
      · rw [← SA.keys_shape hfi]; exact mem_keys_of_get? h1
      · rw [h1]; exact g4
      · rw [h1]; exact g5)
    (by
      intro ax hk hcc hax
      simp only [List.mem_append, List.mem_filter, decide_eq_true_eq] at hcc
      have hcc' : ax ∈ c := hcc.resolve_right (fun h => h.2 ((hfax ax).2 (Or.inl hax)))
      exact (hfull ax hk (fun h => ((hmemc ax (Or.inl hax)).2 h) hcc')).1 hax)
    hsteps hvalid
  obtain ⟨ro, o1, o2, o3, o4, o5⟩ := comp_getitem (s := s) (i := f.inputs.shape) (o := f.outputs.shape) hfo hi a2
    (c ++ (keys item).filter (· ∉ f.axes)) Prod.snd lo len
    (by
      intro ax hax
      rw [a4, hgf, if_pos ((hfax ax).2 (Or.inr hax))]
      have : ax ∉ (keys item).filter (· ∉ f.axes) := by
        simp only [List.mem_filter, decide_eq_true_eq]; exact fun h => h.2 ((hfax ax).2 (Or.inr hax))
      simp only [get?_nil, Option.or_none]
      congr 1
      funext v
      simp only [entryAt, List.mem_append, this, or_false])
    (by
      intro ax _ b
      rw [a4]
      simp only [get?_nil, Option.or_none]
      exact hnarr _ _ (Or.inr rfl) ax b)
    (by
      intro ax v hv hnc
      simp only [List.mem_append, not_or, List.mem_filter, decide_eq_true_eq, not_and, not_not] at hnc
      have hax := hnc.2 (mem_keys_of_get? hv)
      obtain ⟨n, h1, h2, h3⟩ := hcell ax v hv hax hnc.1
      obtain ⟨si, so, g1, g2, g3, g4, g5, g6, g7⟩ := cellRange_item h3
      refine ⟨_, so, g1, rfl, g3, ?_, ?_, ?_⟩
      · rw [← SA.keys_shape hfo]; exact mem_keys_of_get? h2
      · rw [h2]; exact g6
      · rw [h2]; exact g7)
    (by
      intro ax hk hcc hax
      simp only [List.mem_append, List.mem_filter, decide_eq_true_eq] at hcc
      have hcc' : ax ∈ c := hcc.resolve_right (fun h => h.2 ((hfax ax).2 (Or.inr hax)))
      exact (hfull ax hk (fun h => ((hmemc ax (Or.inr hax)).2 h) hcc')).2 hax)
    hsteps hvalid
  have hC : ∀ ax ∈ keys item, (ax ∉ c ++ (keys item).filter (· ∉ f.axes)) ↔ IsVertex f.inputs.shape f.outputs.shape ax := by
    intro ax hk
    simp only [List.mem_append, not_or, List.mem_filter, decide_eq_true_eq, not_and, not_not]
    constructor
    · rintro ⟨h1, h2⟩
      exact (hmemc ax ((hfax ax).1 (h2 hk))).1 h1
    · intro h
      exact ⟨(hmemc ax (Or.inl (hVax ax h).1)).2 h, fun _ => (hfax ax).2 (Or.inl (hVax ax h).1)⟩
  have hnone : ∀ {δ : Type} (a : SA δ) (ha : a.WF) ax, ax ∉ a.axes → get? a.shape ax = none := by
    intro δ a ha ax h
    rw [get?_eq_none, SA.keys_shape ha]; exact h
  refine ⟨⟨ri, ro⟩, ?_, i2, o2, fun ax hk hV => ?_, fun ax hk hV => ?_, fun ax hk => ?_,
    fun e ax => if ax ∈ keys item ∧ ax ∉ c ++ (keys item).filter (· ∉ f.axes) then lo ax + e ax else selIdx s item e ax,
    i5, o5, fun e ax hk hV => ?_, fun e ax h => ?_⟩
  · unfold getitem
    simp only [hA, i1, o1, bind, Except.bind]
  · have hn := (hC ax hk).2 hV
    obtain ⟨h1, h2⟩ := hVax ax hV
    constructor
    · rw [o4 ax ((o3 ax).2 ⟨h2, fun h => hn h.1⟩), if_neg (not_not.2 hk), if_neg hn]
    · rw [i4 ax ((i3 ax).2 ⟨h1, fun h => hn h.1⟩), if_neg (not_not.2 hk), if_neg hn]
  · have hn : ax ∈ c ++ (keys item).filter (· ∉ f.axes) := by
      by_contra h; exact hV ((hC ax hk).1 h)
    refine ⟨⟨?_, fun hx => ?_⟩, ?_, fun hx => ?_⟩
    · rw [i3]; simp only [hn, true_and]
    · rw [i4 ax hx, if_neg (not_not.2 hk), if_pos hn]
    · rw [o3]; simp only [hn, true_and]
    · rw [o4 ax hx, if_neg (not_not.2 hk), if_pos hn]
  · have hni : ¬ IntAt item ax := fun ⟨k, h⟩ => hk (mem_keys_of_get? h)
    constructor
    · by_cases hx : ax ∈ f.inputs.axes
      · rw [i4 ax ((i3 ax).2 ⟨hx, fun h => hni h.2⟩), if_pos hk]
      · rw [hnone _ hfi _ hx, hnone _ i2 _ (fun h => hx ((i3 ax).1 h).1)]
    · by_cases hx : ax ∈ f.outputs.axes
      · rw [o4 ax ((o3 ax).2 ⟨hx, fun h => hni h.2⟩), if_pos hk]
      · rw [hnone _ hfo _ hx, hnone _ o2 _ (fun h => hx ((o3 ax).1 h).1)]
  · exact if_pos ⟨hk, (hC ax hk).2 hV⟩
  · refine if_neg fun hh => ?_
    rcases h with h | h
    · exact h hh.1
    · exact h ((hC ax hh.1).1 hh.2)

/-- four cells, their five vertices, and two channels -/
def exH : FA Nat Nat := ⟨⟨["x"], ND.ofList [5] [0, 1, 3, 7, 15] 0⟩,
  ⟨["x", "y"], ND.ofList [4, 2] [10, 11, 20, 21, 30, 31, 40, 41] 0⟩⟩

/-- The inputs and outputs of a result, or the exception. -/
def view (r : R (FA Nat Nat)) : R (List Nat × List Nat) := r.map (fun g => (g.inputs.nd.toList, g.outputs.nd.toList))

example : exH.inputs.WF ∧ exH.outputs.WF := by decide
example : exH.shape = .ok [("y", 2), ("x", 4)] := rfl
/-- The theorem applies to an integer and a slice. -/
example : CellRange 4 (.int 2) 2 1 ∧ CellRange 4 (.slice ⟨some 1, some 3, none⟩) 1 2 ∧
    CellRange 4 (.slice ⟨none, some 9, some 1⟩) 0 4 ∧ CellRange 4 (.slice ⟨some 4, none, none⟩) 4 0 := by
  refine ⟨Or.inl ⟨rfl, by omega, rfl⟩, Or.inr ⟨_, rfl, Or.inl rfl, Or.inr rfl, by omega, Or.inr ⟨3, rfl, by omega, by omega⟩⟩,
    Or.inr ⟨_, rfl, Or.inr rfl, Or.inl ⟨rfl, rfl⟩, by omega, Or.inr ⟨9, rfl, by omega, by omega⟩⟩,
    Or.inr ⟨_, rfl, Or.inl rfl, Or.inr rfl, by omega, Or.inl ⟨rfl, rfl⟩⟩⟩
example : view (exH.getitem [("x", .slice ⟨some 1, some 3, none⟩), ("y", .int 1), ("q", .int 7)]) =
    .ok ([1, 3, 7], [21, 31]) := by decide +kernel
example : view (exH.getitem [("x", .int 2)]) = .ok ([3, 7], [30, 31]) := by decide +kernel

/-- **C50** (refuted). A negative integer selects other vertices than those which bound the cell: -3 is cell 1
(between the vertices 1 and 3), but the vertices 3 and 7 are returned. -/
theorem C50_negative_integer_refuted : view (exH.getitem [("x", .int (-3))]) = .ok ([3, 7], [20, 21]) := by
  decide +kernel

/-- **C50** (refuted). The last cell, -1, is empty and has no vertices. -/
theorem C50_last_refuted : view (exH.getitem [("x", .int (-1))]) = .ok ([], []) := by decide +kernel

/-- **C50** (refuted). A negative start of a slice selects as many vertices as cells. -/
theorem C50_negative_start_refuted : view (exH.getitem [("x", .slice ⟨some (-2), none, none⟩)]) =
    .ok ([7, 15], [30, 31, 40, 41]) := by decide +kernel

/-- **C50** (refuted). A negative stop of a slice: without the last cell, there are no vertices. -/
theorem C50_negative_stop_refuted : view (exH.getitem [("x", .slice ⟨none, some (-1), none⟩)]) =
    .ok ([], [10, 11, 20, 21, 30, 31]) := by decide +kernel

/-- **C50** (refuted). A step is applied to the cells only, unless there are no bounds, and then to the vertices as
well: neither keeps one more vertex than cells. -/
theorem C50_step_refuted :
    view (exH.getitem [("x", .slice ⟨some 0, some 4, some 2⟩)]) = .ok ([0, 1, 3, 7, 15], [10, 11, 30, 31]) ∧
    view (exF.getitem [("x", .slice ⟨none, none, some 2⟩)]) = .ok ([0, 3], [5, 7]) := by
  constructor <;> decide +kernel

/-- **C50** (refuted). An empty range of cells whose start exceeds its stop has no vertices, not one. -/
theorem C50_empty_refuted : view (exH.getitem [("x", .slice ⟨some 3, some 1, none⟩)]) = .ok ([], []) := by
  decide +kernel

/-- An integer out of range does not raise. -/
example : view (exH.getitem [("x", .int 4)]) = .ok ([15], []) := by decide +kernel

end FA
end NA
