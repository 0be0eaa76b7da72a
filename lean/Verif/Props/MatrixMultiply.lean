import Verif.Scalar.MatrixMultiply
import Verif.Scalar.Lemmas
import Verif.Props.Shapes
import Mathlib.Algebra.BigOperators.Ring.Finset
import Mathlib.Algebra.BigOperators.Group.Finset.Sigma

/-!
# C120: matrix multiplication of scalar arrays
-/

namespace NA.SA
open Dict

variable {α : Type}

/-- The number of elements along an axis as an operand of a product: an axis which the array does not have counts as one of size 1. -/
def extent (a : SA α) (ax : String) : Nat := (get? a.shape ax).getD 1

/-- The index `e` with another value along one axis. -/
def indexWith (e : String → Nat) (ax : String) (l : Nat) : String → Nat := fun x => if x = ax then l else e x

/-- The sizes of the product of `a` and `b`: the rows of `a`, the columns of `b`, and along every other axis the broadcast size `s`. -/
def productSize (a b : SA α) (s : Shape) (rows columns : String) (ax : String) : Option Nat :=
  if ax = rows then some (a.extent rows) else if ax = columns then some (b.extent columns) else get? s ax

theorem list_sum_range [AddCommMonoid α] (n : Nat) (f : Nat → α) : ((List.range n).map f).sum = ∑ l ∈ Finset.range n, f l := by
  induction n with
  | zero => rfl
  | succ n ih => rw [List.range_succ, List.map_append, List.sum_append, ih, Finset.sum_range_succ]; simp

theorem get?_zip_map (axes : List String) (g : String → Nat) (ax : String) :
    get? (axes.zip (axes.map g)) ax = if ax ∈ axes then some (g ax) else none := by
  induction axes with
  | nil => rfl
  | cons x axes ih =>
    simp only [List.map_cons, List.zip_cons_cons, get?_cons, ih, List.mem_cons]
    by_cases h : x = ax
    · subst h; simp
    · have : ¬ ax = x := fun h' => h h'.symm
      simp [h, this]

theorem take_map_two (L : List String) (x y : String) (g : String → Nat) : ((L ++ [x, y]).map g).take L.length = L.map g := by
  rw [List.map_append]; simp

theorem getD_map_two (L : List String) (x y : String) (g : String → Nat) : ((L ++ [x, y]).map g).getD L.length 0 = g x ∧
    ((L ++ [x, y]).map g).getD (L.length + 1) 0 = g y := by
  simp [List.getD]

section
variable [NonUnitalNonAssocSemiring α]

/-- The core: what happens once the shapes are known to broadcast and the axes to exist. -/
theorem multiply_core {a b : SA α} (ha : a.WF) (hb : b.WF) {s : Shape} (hs : broadcastShapes [a.shape, b.shape] = .ok s) {rows columns : String}
    (hr : rows ∈ keys s) (hc : columns ∈ keys s) (hne : rows ≠ columns) :
    (a.extent columns ≠ b.extent rows → matrixMultiply a b rows columns = .error .valueError) ∧
    (a.extent columns = b.extent rows → ∃ o, matrixMultiply a b rows columns = .ok o ∧ o.WF ∧
      (∀ ax, get? o.shape ax = productSize a b s rows columns ax) ∧
      ∀ e, InRange o.shape e → o.at' e =
        ∑ l ∈ Finset.range (a.extent columns), a.atB (indexWith e columns l) * b.atB (indexWith e rows l)) := by
  have hwf := (broadcastShapes_joinOf (wf_pair ha hb) hs).1
  obtain ⟨hsa, hsb⟩ := mem_of_mem_pair ha hb hs
  obtain ⟨nr, hnr⟩ := exists_get?_of_mem hr
  obtain ⟨nc, hnc⟩ := exists_get?_of_mem hc
  have hnc' : get? (erase s rows) columns = some nc := by rw [get?_erase, if_neg hne, hnc]
  -- the leading axes
  generalize hL : keys (erase (erase s rows) columns) = L
  have hmemL : ∀ x, x ∈ L ↔ x ∈ keys s ∧ x ≠ rows ∧ x ≠ columns := by
    intro x
    rw [← hL, keys_erase, keys_erase]
    simp only [List.mem_filter, decide_eq_true_eq, ne_eq]
    tauto
  have hkeys : keys (set (set (erase (erase s rows) columns) rows nr) columns nc) = L ++ [rows, columns] := by
    have h1 : rows ∉ keys (erase (erase s rows) columns) := by rw [hL, hmemL]; simp
    have h2 : columns ∉ keys (set (erase (erase s rows) columns) rows nr) := by
      rw [keys_set, if_neg h1, hL]
      simp [hmemL, Ne.symm hne]
    rw [keys_set, if_neg h2, keys_set, if_neg h1, hL]
    simp
  have hLn : L.Nodup := by
    rw [← hL]; exact wf_erase (wf_erase hwf _) _
  have hnd : (L ++ [rows, columns]).Nodup := by
    rw [← hkeys]; exact wf_set (wf_set (wf_erase (wf_erase hwf _) _) _ _) _ _
  have hsub : ∀ x, x ∈ keys s → x ∈ L ++ [rows, columns] := by
    intro x hx
    by_cases h1 : x = rows
    · simp [h1]
    · by_cases h2 : x = columns
      · simp [h2]
      · simp [hmemL, hx, h1, h2]
  obtain ⟨v, hv⟩ := aligned_isOk ha hnd (fun x hx => hsub x (hsa hx))
  obtain ⟨w, hw⟩ := aligned_isOk hb hnd (fun x hx => hsub x (hsb hx))
  obtain ⟨_, v2, v3⟩ := aligned_ok ha hnd hv
  obtain ⟨_, w2, w3⟩ := aligned_ok hb hnd hw
  have hvn : v.ndim = L.length + 2 := by simp [ND.ndim, v2]
  have hwn : w.ndim = L.length + 2 := by simp [ND.ndim, w2]
  have v4 : v.shape.take L.length = posShape L a.shape := by rw [v2]; exact take_map_two _ _ _ _
  have w4 : w.shape.take L.length = posShape L b.shape := by rw [w2]; exact take_map_two _ _ _ _
  have v5 : v.shape.getD L.length 0 = a.extent rows ∧ v.shape.getD (L.length + 1) 0 = a.extent columns := by
    rw [v2]; exact getD_map_two _ _ _ _
  have w5 : w.shape.getD L.length 0 = b.extent rows ∧ w.shape.getD (L.length + 1) 0 = b.extent columns := by
    rw [w2]; exact getD_map_two _ _ _ _
  have hlead : ND.bshape (posShape L a.shape) (posShape L b.shape) = .ok (posShape L s) := by
    have h := hs
    unfold broadcastShapes at h
    change List.foldlM bcShape a.shape [b.shape] = _ at h
    have := foldlM_bshape (wf_shape ha) (ss := [b.shape]) (by simpa using wf_shape hb) h L
    simp only [List.map_cons, List.map_nil, List.foldlM_cons, List.foldlM_nil] at this
    cases hq : ND.bshape (posShape L a.shape) (posShape L b.shape) with
    | error e => rw [hq] at this; cases this
    | ok q => rw [hq] at this; cases this; rfl
  have hstart : matrixMultiply a b rows columns = (ND.matmul v w >>= fun nd => mk? nd (L ++ [rows, columns])) := by
    unfold matrixMultiply
    simp only [hs, popSize, hnr, hnc', bind, Except.bind, hkeys, hv, hw]
  rw [hstart]
  unfold ND.matmul
  simp only [hvn, hwn, Nat.add_sub_cancel, v5.1, v5.2, w5.1, w5.2, v4, w4, hlead]
  rw [if_neg (by omega)]
  refine ⟨fun h => by rw [if_pos h]; rfl, fun h => ?_⟩
  rw [if_neg (by simpa using h)]
  simp only [bind, Except.bind]
  have hlen : (posShape L s).length = L.length := by simp [posShape]
  generalize hnd0 : (fun i : List Nat => ((List.range (a.extent columns)).map (fun l =>
    v.get (ND.clipIdx (posShape L a.shape) (i.take (posShape L s).length) ++ [i.getD (posShape L s).length 0, l]) *
      w.get (ND.clipIdx (posShape L b.shape) (i.take (posShape L s).length) ++ [l, i.getD ((posShape L s).length + 1) 0]))).sum) = get0
  have hshape : ∀ ax, get? (SA.shape ⟨L ++ [rows, columns], ⟨posShape L s ++ [a.extent rows, b.extent columns], get0⟩⟩) ax =
      productSize a b s rows columns ax := by
    intro ax
    have hsh : posShape L s ++ [a.extent rows, b.extent columns] =
        (L ++ [rows, columns]).map (fun x => (productSize a b s rows columns x).getD 1) := by
      rw [List.map_append]
      congr 1
      · refine List.map_congr_left (fun x hx => ?_)
        have := (hmemL x).1 hx
        simp [productSize, this.2.1, this.2.2]
      · simp [productSize, Ne.symm hne]
    simp only [shape]
    rw [hsh, get?_zip_map]
    unfold productSize
    by_cases h1 : ax = rows
    · simp [h1]
    · by_cases h2 : ax = columns
      · simp [h2, Ne.symm hne]
      · simp only [h1, h2, List.mem_append, List.mem_cons, List.not_mem_nil, or_false, if_false, hmemL, ne_eq, not_false_eq_true, and_true]
        by_cases h3 : ax ∈ keys s
        · obtain ⟨n, hn⟩ := exists_get?_of_mem h3
          simp [h3, hn]
        · simp [h3, get?_eq_none.2 h3]
  refine ⟨_, mk?_of_wf (by simp [ND.ndim, posShape]) hnd, ⟨by simp [ND.ndim, posShape], hnd⟩, hshape, ?_⟩
  subst hnd0
  · intro e he
    have hclip : ∀ (t : SA α), ND.clipIdx (posShape L t.shape) (L.map e) = L.map (fun ax => if t.extent ax = 1 then 0 else e ax) := by
      intro t
      unfold ND.clipIdx posShape
      rw [List.zipWith_map]
      simp [extent]
      intros
      congr
    have hnot : ∀ x ∈ L, x ≠ rows ∧ x ≠ columns := fun x hx => ((hmemL x).1 hx).2
    have hgr : e rows < a.extent rows := by
      refine he rows _ ?_
      rw [hshape]; simp [productSize]
    have hgc : e columns < b.extent columns := by
      refine he columns _ ?_
      rw [hshape]; simp [productSize, Ne.symm hne]
    simp only [at', hlen, take_map_two, (getD_map_two L rows columns e).1, (getD_map_two L rows columns e).2]
    rw [list_sum_range]
    refine Finset.sum_congr rfl (fun l hl => ?_)
    have hl := Finset.mem_range.1 hl
    congr 1
    · rw [hclip a]
      have : L.map (fun ax => if a.extent ax = 1 then 0 else e ax) ++ [e rows, l] =
          (L ++ [rows, columns]).map (fun ax => if a.extent ax = 1 then 0 else indexWith e columns l ax) := by
        rw [List.map_append]
        congr 1
        · refine List.map_congr_left (fun x hx => ?_)
          simp [indexWith, (hnot x hx).2]
        · simp only [List.map_cons, List.map_nil, indexWith, if_neg hne, if_true]
          congr 1
          · split <;> omega
          · congr 1
            split <;> omega
      rw [this, v3]
      exact at'_congr (fun x hx => by
        obtain ⟨n, hn⟩ := exists_get?_of_mem ((keys_shape ha).symm ▸ hx)
        simp [extent, hn])
    · rw [hclip b]
      have : L.map (fun ax => if b.extent ax = 1 then 0 else e ax) ++ [l, e columns] =
          (L ++ [rows, columns]).map (fun ax => if b.extent ax = 1 then 0 else indexWith e rows l ax) := by
        rw [List.map_append]
        congr 1
        · refine List.map_congr_left (fun x hx => ?_)
          simp [indexWith, (hnot x hx).1]
        · simp only [List.map_cons, List.map_nil, indexWith, if_neg (Ne.symm hne), if_true]
          congr 1
          · split <;> omega
          · congr 1
            split <;> omega
      rw [this, w3]
      exact at'_congr (fun x hx => by
        obtain ⟨n, hn⟩ := exists_get?_of_mem ((keys_shape hb).symm ▸ hx)
        simp [extent, hn])

omit [NonUnitalNonAssocSemiring α] in
theorem broadcast_ok {a b : SA α} (ha : a.WF) (hb : b.WF) (h : ¬ Clash [a.shape, b.shape]) :
    ∃ s, broadcastShapes [a.shape, b.shape] = .ok s ∧ ∀ ax, ax ∈ keys s ↔ ax ∈ a.axes ∨ ax ∈ b.axes := by
  cases hs : broadcastShapes [a.shape, b.shape] with
  | error e => exact absurd ((C01_broadcast_shapes_error_iff _ (wf_pair ha hb)).1 ⟨e, hs⟩) h
  | ok s =>
    refine ⟨s, rfl, fun ax => ?_⟩
    rw [(C01_broadcast_shapes_ok _ (wf_pair ha hb) s hs).2.1 ax]
    simp [keys_shape ha, keys_shape hb]

/-- **C120** (the elements). If the sizes of the operands do not contradict each other, both axes occur, they are different and `a` has as many
columns as `b` has rows, then the element of the product in a row and a column is the sum of the products of the elements of that row of `a` with
the elements of that column of `b`; the product has the rows of `a`, the columns of `b`, and every other axis is broadcast.
Missing for the full property: operands with a number of rows different from their number of columns, for which it is false
(`C120_rectangular_refuted`). -/
theorem C120_product_partial {a b : SA α} (ha : a.WF) (hb : b.WF) (h : ¬ Clash [a.shape, b.shape]) {rows columns : String}
    (hr : rows ∈ a.axes ∨ rows ∈ b.axes) (hc : columns ∈ a.axes ∨ columns ∈ b.axes) (hne : rows ≠ columns)
    (hk : a.extent columns = b.extent rows) :
    ∃ s o, broadcastShapes [a.shape, b.shape] = .ok s ∧ matrixMultiply a b rows columns = .ok o ∧ o.WF ∧
      get? o.shape rows = some (a.extent rows) ∧ get? o.shape columns = some (b.extent columns) ∧
      (∀ ax, ax ≠ rows → ax ≠ columns → get? o.shape ax = get? s ax) ∧
      ∀ e, InRange o.shape e → o.at' e =
        ∑ l ∈ Finset.range (a.extent columns), a.atB (indexWith e columns l) * b.atB (indexWith e rows l) := by
  obtain ⟨s, hs, hm⟩ := broadcast_ok ha hb h
  obtain ⟨o, h1, h2, h3, h4⟩ := (multiply_core ha hb hs ((hm _).2 hr) ((hm _).2 hc) hne).2 hk
  exact ⟨s, o, hs, h1, h2, by simp [h3, productSize], by simp [h3, productSize, Ne.symm hne],
    fun ax hx hy => by simp [h3, productSize, hx, hy], h4⟩

/-- **C120** (the errors). Operands whose sizes contradict each other raise `ValueError`; otherwise an axis which neither of them has, or the same
axis twice, raises `KeyError`; otherwise a number of columns of `a` which is not the number of rows of `b` raises `ValueError`. -/
theorem C120_errors {a b : SA α} (ha : a.WF) (hb : b.WF) (rows columns : String) :
    (Clash [a.shape, b.shape] → matrixMultiply a b rows columns = .error .valueError) ∧
    (¬ Clash [a.shape, b.shape] → (rows ∉ a.axes ∧ rows ∉ b.axes) ∨ (columns ∉ a.axes ∧ columns ∉ b.axes) ∨ rows = columns →
      matrixMultiply a b rows columns = .error .keyError) ∧
    (¬ Clash [a.shape, b.shape] → (rows ∈ a.axes ∨ rows ∈ b.axes) → (columns ∈ a.axes ∨ columns ∈ b.axes) → rows ≠ columns →
      a.extent columns ≠ b.extent rows → matrixMultiply a b rows columns = .error .valueError) := by
  refine ⟨fun h => ?_, fun h h' => ?_, fun h hr hc hne hk => ?_⟩
  · obtain ⟨e, he⟩ := (C01_broadcast_shapes_error_iff _ (wf_pair ha hb)).2 h
    have := C01_broadcast_shapes_error_kind _ (wf_pair ha hb) e he
    subst this
    simp only [matrixMultiply, he, bind, Except.bind]
  · obtain ⟨s, hs, hm⟩ := broadcast_ok ha hb h
    simp only [matrixMultiply, hs, popSize, bind, Except.bind]
    cases h1 : get? s rows with
    | none => rfl
    | some n =>
      have hr := (hm rows).1 (mem_keys_of_get? h1)
      have h2 : get? (erase s rows) columns = none := by
        rw [get?_erase]
        split
        · rfl
        · next hne =>
          rcases h' with h' | h' | h'
          · exact absurd hr (by tauto)
          · exact get?_eq_none.2 (fun hx => absurd ((hm columns).1 hx) (by tauto))
          · exact absurd h' hne
      simp only [h2]
  · obtain ⟨s, hs, hm⟩ := broadcast_ok ha hb h
    exact (multiply_core ha hb hs ((hm _).2 hr) ((hm _).2 hc) hne).1 hk

/-- **C120** (rectangular matrices). Two matrices with at least two rows and two columns each can only be multiplied if all these numbers agree:
otherwise `ValueError` is raised, although `a` may have as many columns as `b` has rows. -/
theorem C120_rectangular {a b : SA α} (ha : a.WF) (hb : b.WF) {rows columns : String} {m k p : Nat}
    (har : get? a.shape rows = some m) (hac : get? a.shape columns = some k) (hbr : get? b.shape rows = some k)
    (hbc : get? b.shape columns = some p) (hm : 2 ≤ m) (hk : 2 ≤ k) (hp : 2 ≤ p) :
    ¬ (m = k ∧ k = p) → matrixMultiply a b rows columns = .error .valueError := by
  intro h
  refine (C120_errors ha hb rows columns).1 ?_
  by_cases hx : m = k
  · exact ⟨columns, k, p, ⟨_, by simp, hac⟩, ⟨_, by simp, hbc⟩, fun h' => h ⟨hx, h'⟩, by omega, by omega⟩
  · exact ⟨rows, m, k, ⟨_, by simp, har⟩, ⟨_, by simp, hbr⟩, hx, by omega, by omega⟩

/-! ### Square matrices -/

/-- The array has the shape `S` (in any order). -/
def Shaped (a : SA α) (S : Shape) : Prop := a.WF ∧ Dict.Same a.shape S

omit [NonUnitalNonAssocSemiring α] in
theorem atB_shaped {a : SA α} {S : Shape} (ha : a.Shaped S) {e : String → Nat} (he : InRange S e) : a.atB e = a.at' e :=
  atB_eq_at' ha.1 (fun ax n h => he ax n ((ha.2 ax).symm.trans h))

/-- The product of two arrays of square matrices of the same shape. -/
theorem C120_square {a b : SA α} {S : Shape} (ha : a.Shaped S) (hb : b.Shaped S) {rows columns : String} (hne : rows ≠ columns) {n : Nat}
    (hr : get? S rows = some n) (hc : get? S columns = some n) :
    ∃ o, matrixMultiply a b rows columns = .ok o ∧ o.Shaped S ∧ ∀ e, InRange S e →
      o.at' e = ∑ l ∈ Finset.range n, a.at' (indexWith e columns l) * b.at' (indexWith e rows l) := by
  have hcl : ¬ Clash [a.shape, b.shape] := by
    rintro ⟨ax, p, q, ⟨s, hs, h1⟩, ⟨t, ht, h2⟩, h3, _⟩
    have hs' : get? S ax = some p := by
      simp only [List.mem_cons, List.not_mem_nil, or_false] at hs
      rcases hs with rfl | rfl
      · exact (ha.2 ax).symm.trans h1
      · exact (hb.2 ax).symm.trans h1
    have ht' : get? S ax = some q := by
      simp only [List.mem_cons, List.not_mem_nil, or_false] at ht
      rcases ht with rfl | rfl
      · exact (ha.2 ax).symm.trans h2
      · exact (hb.2 ax).symm.trans h2
    rw [hs'] at ht'
    exact h3 (Option.some.inj ht')
  have mem : ∀ ax m, get? S ax = some m → ax ∈ a.axes := fun ax m h => by
    rw [← keys_shape ha.1]; exact mem_keys_of_get? ((ha.2 ax).trans h)
  have ear : a.extent rows = n := by simp [extent, ha.2 rows, hr]
  have eac : a.extent columns = n := by simp [extent, ha.2 columns, hc]
  have ebr : b.extent rows = n := by simp [extent, hb.2 rows, hr]
  have ebc : b.extent columns = n := by simp [extent, hb.2 columns, hc]
  obtain ⟨s, o, h1, h2, h3, h4, h5, h6, h7⟩ := C120_product_partial ha.1 hb.1 hcl (Or.inl (mem _ _ hr)) (Or.inl (mem _ _ hc)) hne
    (eac.trans ebr.symm)
  have hsame : ∀ ax, get? s ax = get? S ax := by
    intro ax
    obtain ⟨_, c2, c3⟩ := C01_broadcast_shapes_ok _ (wf_pair ha.1 hb.1) s h1
    cases hs : get? s ax with
    | none =>
      by_contra hx
      obtain ⟨m, hm⟩ := Option.ne_none_iff_exists'.1 (fun h => hx h.symm)
      exact get?_eq_none.1 hs ((c2 ax).2 ⟨a.shape, by simp, mem_keys_of_get? ((ha.2 ax).trans hm)⟩)
    | some m =>
      obtain ⟨⟨t, ht, h⟩, _⟩ := c3 ax m hs
      simp only [List.mem_cons, List.not_mem_nil, or_false] at ht
      rcases ht with rfl | rfl
      · exact h.symm.trans (ha.2 ax)
      · exact h.symm.trans (hb.2 ax)
  have hshape : Dict.Same o.shape S := by
    intro ax
    by_cases hx : ax = rows
    · rw [hx, h4, ear, hr]
    · by_cases hy : ax = columns
      · rw [hy, h5, ebc, hc]
      · rw [h6 ax hx hy, hsame]
  refine ⟨o, h2, ⟨h3, hshape⟩, fun e he => ?_⟩
  rw [h7 e (fun ax m h => he ax m ((hshape ax).symm.trans h)), eac]
  refine Finset.sum_congr rfl (fun l hl => ?_)
  have hl := Finset.mem_range.1 hl
  rw [atB_shaped ha, atB_shaped hb]
  · intro ax m h
    unfold indexWith
    split
    · next hx => subst hx; rw [hr] at h; cases h; exact hl
    · exact he ax m h
  · intro ax m h
    unfold indexWith
    split
    · next hx => subst hx; rw [hc] at h; cases h; exact hl
    · exact he ax m h

omit [NonUnitalNonAssocSemiring α] in
theorem inRange_indexWith {S : Shape} {e : String → Nat} (he : InRange S e) {ax : String} {n l : Nat} (h : get? S ax = some n) (hl : l < n) :
    InRange S (indexWith e ax l) := by
  intro x m hm
  unfold indexWith
  split
  · next hx => subst hx; rw [h] at hm; cases hm; exact hl
  · exact he x m hm

end

/-- **C120** (associativity). For arrays of square matrices of one shape `(a b) c = a (b c)`. -/
theorem C120_associative [NonUnitalSemiring α] {a b c : SA α} {S : Shape} (ha : a.Shaped S) (hb : b.Shaped S) (hc : c.Shaped S)
    {rows columns : String} (hne : rows ≠ columns) {n : Nat} (hr : get? S rows = some n) (hcol : get? S columns = some n) :
    ∃ ab bc l r, matrixMultiply a b rows columns = .ok ab ∧ matrixMultiply b c rows columns = .ok bc ∧
      matrixMultiply ab c rows columns = .ok l ∧ matrixMultiply a bc rows columns = .ok r ∧ SameByName l r := by
  obtain ⟨ab, h1, s1, v1⟩ := C120_square ha hb hne hr hcol
  obtain ⟨bc, h2, s2, v2⟩ := C120_square hb hc hne hr hcol
  obtain ⟨l, h3, s3, v3⟩ := C120_square s1 hc hne hr hcol
  obtain ⟨r, h4, s4, v4⟩ := C120_square ha s2 hne hr hcol
  refine ⟨ab, bc, l, r, h1, h2, h3, h4, fun ax => (s3.2 ax).trans (s4.2 ax).symm, fun e he => ?_⟩
  have he : InRange S e := fun ax m h => he ax m ((s3.2 ax).trans h)
  rw [v3 e he, v4 e he]
  have e1 : ∀ p q, indexWith (indexWith e columns p) rows q = indexWith (indexWith e rows q) columns p := by
    intro p q
    funext x
    unfold indexWith
    by_cases hx : x = rows
    · simp [hx, hne]
    · simp [hx]
  have e2 : ∀ p q, indexWith (indexWith e columns p) columns q = indexWith e columns q := by
    intro p q
    funext x
    unfold indexWith
    split <;> rfl
  have e3 : ∀ p q, indexWith (indexWith e rows p) rows q = indexWith e rows q := by
    intro p q
    funext x
    unfold indexWith
    split <;> rfl
  have hL : ∀ q ∈ Finset.range n, ab.at' (indexWith e columns q) * c.at' (indexWith e rows q) =
      ∑ p ∈ Finset.range n, a.at' (indexWith e columns p) * (b.at' (indexWith (indexWith e columns q) rows p) * c.at' (indexWith e rows q)) := by
    intro q hq
    rw [v1 _ (inRange_indexWith he hcol (Finset.mem_range.1 hq)), Finset.sum_mul]
    exact Finset.sum_congr rfl (fun p _ => by rw [e2, mul_assoc])
  have hR : ∀ p ∈ Finset.range n, a.at' (indexWith e columns p) * bc.at' (indexWith e rows p) =
      ∑ q ∈ Finset.range n, a.at' (indexWith e columns p) * (b.at' (indexWith (indexWith e columns q) rows p) * c.at' (indexWith e rows q)) := by
    intro p hp
    rw [v2 _ (inRange_indexWith he hr (Finset.mem_range.1 hp)), Finset.mul_sum]
    exact Finset.sum_congr rfl (fun q _ => by rw [e3, e1])
  rw [Finset.sum_congr rfl hL, Finset.sum_congr rfl hR, Finset.sum_comm]

/-- **C120** (the identity). Multiplying by an array of identity matrices, from either side, changes nothing. -/
theorem C120_identity [NonAssocSemiring α] {a u : SA α} {S : Shape} (ha : a.Shaped S) (hu : u.Shaped S) {rows columns : String}
    (hne : rows ≠ columns) {n : Nat} (hr : get? S rows = some n) (hc : get? S columns = some n)
    (hone : ∀ e, InRange S e → u.at' e = if e rows = e columns then 1 else 0) :
    ∃ l r, matrixMultiply u a rows columns = .ok l ∧ matrixMultiply a u rows columns = .ok r ∧ SameByName l a ∧ SameByName r a := by
  obtain ⟨l, h1, s1, v1⟩ := C120_square hu ha hne hr hc
  obtain ⟨r, h2, s2, v2⟩ := C120_square ha hu hne hr hc
  refine ⟨l, r, h1, h2, ⟨fun ax => (s1.2 ax).trans (ha.2 ax).symm, fun e he => ?_⟩, ⟨fun ax => (s2.2 ax).trans (ha.2 ax).symm, fun e he => ?_⟩⟩
  · have he : InRange S e := fun ax m h => he ax m ((s1.2 ax).trans h)
    rw [v1 e he, Finset.sum_eq_single (e rows)]
    · rw [hone _ (inRange_indexWith he hc (he rows n hr))]
      have : indexWith e rows (e rows) = e := by funext x; unfold indexWith; split <;> simp_all
      simp [this, indexWith, hne]
    · intro q hq hx
      rw [hone _ (inRange_indexWith he hc (Finset.mem_range.1 hq))]
      simp [indexWith, hne, Ne.symm hx]
    · intro h; exact absurd (Finset.mem_range.2 (he rows n hr)) h
  · have he : InRange S e := fun ax m h => he ax m ((s2.2 ax).trans h)
    rw [v2 e he, Finset.sum_eq_single (e columns)]
    · rw [hone _ (inRange_indexWith he hr (he columns n hc))]
      have : indexWith e columns (e columns) = e := by funext x; unfold indexWith; split <;> simp_all
      simp [this, indexWith, Ne.symm hne]
    · intro q hq hx
      rw [hone _ (inRange_indexWith he hr (Finset.mem_range.1 hq))]
      simp [indexWith, Ne.symm hne, hx]
    · intro h; exact absurd (Finset.mem_range.2 (he columns n hc)) h

/-! ### Examples -/

/-- two matrices, along the axis `t` -/
def exFactorA : SA Int := ⟨["i", "t", "j"], ND.ofList [2, 2, 2] [1, 2, 3, 4, 5, 6, 7, 8] 0⟩
/-- one matrix -/
def exFactorB : SA Int := ⟨["j", "i"], ND.ofList [2, 2] [1, 0, 2, -1] 0⟩
/-- one column -/
def exColumn : SA Int := ⟨["i"], ND.ofList [2] [10, 1] 0⟩
/-- two rows and three columns -/
def exTwoByThree : SA Int := ⟨["i", "j"], ND.ofList [2, 3] [1, 2, 3, 4, 5, 6] 0⟩
/-- three rows and two columns -/
def exThreeByTwo : SA Int := ⟨["i", "j"], ND.ofList [3, 2] [1, 2, 3, 4, 5, 6] 0⟩
/-- the identity matrix -/
def exIdentityMatrix : SA Int := ⟨["i", "j"], ND.ofList [2, 2] [1, 0, 0, 1] 0⟩

/-- the names, the shape and the elements of a result -/
def exProduct : R (SA Int) → Option (List String × List Nat × List Int)
  | .ok o => some (o.axes, o.nd.shape, o.nd.toList)
  | .error _ => none

-- t = 0: [[1, 2], [5, 6]] [[1, 2], [0, -1]]; t = 1: [[3, 4], [7, 8]] [[1, 2], [0, -1]]
example : exProduct (matrixMultiply exFactorA exFactorB "i" "j") = some (["t", "i", "j"], [2, 2, 2], [1, 0, 5, 4, 3, 2, 7, 6]) := by decide +kernel
example : exProduct (matrixMultiply exFactorA exColumn "i" "j") = some (["t", "i", "j"], [2, 2, 1], [12, 56, 34, 78]) := by decide +kernel
example : ∃ s o, broadcastShapes [exFactorA.shape, exFactorB.shape] = .ok s ∧ matrixMultiply exFactorA exFactorB "i" "j" = .ok o ∧ o.WF ∧
    get? o.shape "i" = some (exFactorA.extent "i") ∧ get? o.shape "j" = some (exFactorB.extent "j") ∧
    (∀ ax, ax ≠ "i" → ax ≠ "j" → get? o.shape ax = get? s ax) ∧
    ∀ e, InRange o.shape e → o.at' e =
      ∑ l ∈ Finset.range (exFactorA.extent "j"), exFactorA.atB (indexWith e "j" l) * exFactorB.atB (indexWith e "i" l) := by
  refine C120_product_partial ⟨rfl, by decide⟩ ⟨rfl, by decide⟩ ?_ (by decide) (by decide) (by decide) rfl
  intro h
  obtain ⟨e, he⟩ := (C01_broadcast_shapes_error_iff _ (wf_pair ⟨rfl, by decide⟩ ⟨rfl, by decide⟩)).2 h
  have : (broadcastShapes [exFactorA.shape, exFactorB.shape]).isOk = true := by decide +kernel
  rw [he] at this
  cases this

/-- **C120** is false of rectangular matrices: `a` has two rows and three columns, `b` has three rows and two columns, and `ValueError` is raised. -/
theorem C120_rectangular_refuted : exTwoByThree.WF ∧ exThreeByTwo.WF ∧ exTwoByThree.axes = ["i", "j"] ∧ exThreeByTwo.axes = ["i", "j"] ∧
    exTwoByThree.extent "j" = exThreeByTwo.extent "i" ∧ matrixMultiply exTwoByThree exThreeByTwo "i" "j" = .error .valueError :=
  ⟨⟨rfl, by decide⟩, ⟨rfl, by decide⟩, rfl, rfl, rfl, (C120_errors ⟨rfl, by decide⟩ ⟨rfl, by decide⟩ "i" "j").1
    ⟨"i", 2, 3, ⟨exTwoByThree.shape, by simp, rfl⟩, ⟨exThreeByTwo.shape, by simp, rfl⟩, by decide⟩⟩

example : matrixMultiply exFactorB exFactorB "i" "k" = .error .keyError := by
  refine (C120_errors ⟨rfl, by decide⟩ ⟨rfl, by decide⟩ "i" "k").2.1 ?_ (Or.inr (Or.inl (by decide)))
  intro h
  obtain ⟨e, he⟩ := (C01_broadcast_shapes_error_iff _ (wf_pair ⟨rfl, by decide⟩ ⟨rfl, by decide⟩)).2 h
  have : (broadcastShapes [exFactorB.shape, exFactorB.shape]).isOk = true := by decide +kernel
  rw [he] at this
  cases this
example : matrixMultiply exThreeByTwo exTwoByThree "i" "j" = .error .valueError :=
  C120_rectangular (m := 3) (k := 2) (p := 3) ⟨rfl, by decide⟩ ⟨rfl, by decide⟩ rfl rfl rfl rfl (by decide) (by decide) (by decide) (by decide)
example : exProduct (matrixMultiply exColumn exFactorB "i" "j") = none := by decide +kernel
example : exProduct (matrixMultiply exFactorB exFactorB "i" "i") = none := by decide +kernel

theorem shaped_exFactorB : exFactorB.Shaped exFactorB.shape := ⟨⟨rfl, by decide⟩, fun _ => rfl⟩
theorem shaped_exIdentity : exIdentityMatrix.Shaped exFactorB.shape := by
  refine ⟨⟨rfl, by decide⟩, fun ax => ?_⟩
  change get? [("i", 2), ("j", 2)] ax = get? [("j", 2), ("i", 2)] ax
  simp only [get?]
  by_cases h : "i" = ax
  · subst h; simp
  · simp [h]

example : ∃ ab bc l r, matrixMultiply exFactorB exIdentityMatrix "i" "j" = .ok ab ∧ matrixMultiply exIdentityMatrix exFactorB "i" "j" = .ok bc ∧
    matrixMultiply ab exFactorB "i" "j" = .ok l ∧ matrixMultiply exFactorB bc "i" "j" = .ok r ∧ SameByName l r :=
  C120_associative shaped_exFactorB shaped_exIdentity shaped_exFactorB (by decide) (n := 2) rfl rfl

example : ∃ l r, matrixMultiply exIdentityMatrix exFactorB "i" "j" = .ok l ∧ matrixMultiply exFactorB exIdentityMatrix "i" "j" = .ok r ∧
    SameByName l exFactorB ∧ SameByName r exFactorB := by
  refine C120_identity shaped_exFactorB shaped_exIdentity (by decide) (n := 2) rfl rfl (fun e he => ?_)
  have hi : e "i" < 2 := he "i" 2 rfl
  have hj : e "j" < 2 := he "j" 2 rfl
  have : exIdentityMatrix.at' e = [1, 0, 0, 1].getD (ND.ravel [2, 2] [e "i", e "j"]) 0 := rfl
  rw [this]
  generalize e "i" = i at *
  generalize e "j" = j at *
  obtain rfl | rfl : i = 0 ∨ i = 1 := by omega
  · obtain rfl | rfl : j = 0 ∨ j = 1 := by omega
    · rfl
    · rfl
  · obtain rfl | rfl : j = 0 ∨ j = 1 := by omega
    · rfl
    · rfl

end NA.SA
