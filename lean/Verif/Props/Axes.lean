import Verif.Props.Elementwise
import Mathlib.Algebra.BigOperators.Group.List.Lemmas
import Mathlib.Algebra.BigOperators.Ring.List

/-!
# Properties C11, C12, C25, C28: combining, reshaping, renaming and moving axes
-/

namespace NA
open Dict

namespace SA
variable {α β γ : Type}

/-! ### C11: combine_axes -/

/-- The named index of `a` which corresponds to the index `e` of the combined array: the axes in
`axes` get the digits of `e axisNew` in row-major order (last axis fastest), the others are kept. -/
def splitIndex (axes : List String) (sizes : List Nat) (axisNew : String) (e : String → Nat) :
    String → Nat :=
  fun ax => if ax ∈ axes then (ND.unravel sizes (e axisNew)).getD (axes.idxOf ax) 0 else e ax

/-- **C11**. For distinct axes of `a`, a new name which is not one of the remaining axes, and
remaining axes which are not empty: the result keeps the other axes in order and appends the new
one, whose size is the product of the combined sizes; the element at index `k` along the new axis
is the element of `a` at the `k`-th multi-index (row-major, last given axis fastest). -/
theorem C11_combine_axes_partial (a : SA α) (ha : a.WF) (axes : List String) (hn : axes.Nodup)
    (hsub : axes ⊆ a.axes) (axisNew : String) (hnew : axisNew ∉ a.axes.filter (· ∉ axes))
    (hpos : ∀ ax ∈ a.axes, ax ∉ axes → get? a.shape ax ≠ some 0) :
    ∃ r, a.combineAxes (some axes) (some axisNew) = .ok r ∧ r.WF ∧
      r.axes = a.axes.filter (· ∉ axes) ++ [axisNew] ∧
      get? r.shape axisNew = some (axes.map (fun ax => (get? a.shape ax).getD 0)).prod ∧
      (∀ ax, ax ∈ a.axes → ax ∉ axes → get? r.shape ax = get? a.shape ax) ∧
      ∀ e, InRange r.shape e → r.at' e =
        a.at' (splitIndex axes (axes.map (fun ax => (get? a.shape ax).getD 0)) axisNew e) := by
  set rest := a.axes.filter (· ∉ axes) with hrest
  have hrn : rest.Nodup := ha.2.filter _
  have hdisj : ∀ x ∈ axes, x ∉ rest := by intro x hx; simp [hrest, hx]
  have hwfn : (rest ++ axes).Nodup := by
    rw [List.nodup_append]
    exact ⟨hrn, hn, fun x hx y hy hxy => hdisj y hy (hxy ▸ hx)⟩
  obtain ⟨v, hv, hvs, hvg⟩ := moveaxis_block ha hn hsub (k := rest.length) (le_refl _)
  simp only [← hrest, List.take_length, List.drop_length, List.append_nil] at hvs hvg
  set P := (axes.map a.sizeOf').prod with hP
  set Q := (rest.map a.sizeOf').prod with hQ
  have hQpos : Q ≠ 0 := by
    rw [hQ]
    intro h0
    rw [List.prod_eq_zero_iff] at h0
    obtain ⟨ax, hax, h0⟩ := List.mem_map.1 h0
    simp only [hrest, List.mem_filter, decide_eq_true_eq] at hax
    obtain ⟨n, hn'⟩ := exists_get?_of_mem (d := a.shape) (by rw [keys_shape ha]; exact hax.1)
    simp [sizeOf', hn'] at h0
    exact hpos ax hax.1 hax.2 (by rw [hn', h0])
  have hvsize : v.size = Q * P := by
    unfold ND.size; rw [hvs, List.map_append, List.prod_append]
  have hdiv : v.size / Q = P := by rw [hvsize]; exact Nat.mul_div_cancel_left P (by omega)
  have hmod : v.size % Q = 0 := by rw [hvsize]; exact Nat.mul_mod_right Q P
  have hre : v.reshapeInfer (rest.map a.sizeOf') =
      .ok ⟨rest.map a.sizeOf' ++ [P],
        fun i => v.get (ND.unravel v.shape (ND.ravel (rest.map a.sizeOf' ++ [P]) i))⟩ := by
    unfold ND.reshapeInfer
    rw [← hQ, if_neg (by simp [hQpos, hmod]), hdiv]
    unfold ND.reshape
    rw [if_pos]
    rw [List.prod_append, ← hQ]
    simp only [List.prod_singleton]
    exact hvsize.symm
  have hnd : (rest ++ [axisNew]).Nodup := by
    rw [List.nodup_append]
    refine ⟨hrn, by simp, ?_⟩
    intro x hx y hy hxy
    simp at hy
    subst hy; subst hxy
    exact hnew hx
  set nd : ND α := ⟨rest.map a.sizeOf' ++ [P],
        fun i => v.get (ND.unravel v.shape (ND.ravel (rest.map a.sizeOf' ++ [P]) i))⟩ with hnd_def
  have hmk := mk?_of_wf (nd := nd) (axes := rest ++ [axisNew]) (by simp [hnd_def, ND.ndim]) hnd
  have hwf := (mk?_ok hmk).2
  have hlast : get? (SA.mk (rest ++ [axisNew]) nd).shape axisNew = some P := by
    have := get?_shape hwf (i := rest.length) (by simp)
    simpa [hnd_def] using this
  have hother : ∀ ax, ax ∈ rest → get? (SA.mk (rest ++ [axisNew]) nd).shape ax = some (a.sizeOf' ax) := by
    intro ax hax
    obtain ⟨i, hi, rfl⟩ := List.mem_iff_getElem.1 hax
    have := get?_shape hwf (i := i) (by simp; omega)
    simp only [List.getElem_append_left hi] at this
    rw [this]
    simp [hnd_def, List.getElem_append_left, hi]
  refine ⟨⟨rest ++ [axisNew], nd⟩, ?_, hwf, rfl, hlast, ?_, ?_⟩
  · unfold combineAxes
    simp only [bind, Except.bind, Option.getD_some]
    rw [foldlM_popAppend ha.2 hn hsub]
    simp only [← hrest]
    rw [foldlM_pyRemove hwfn hn (by intro x hx; simp [hx])]
    simp only [List.filter_append]
    have h1 : rest.filter (fun x => decide (x ∉ axes)) = rest := by
      rw [List.filter_eq_self]
      intro x hx
      simp [hrest] at hx
      simp [hx.2]
    have h2 : axes.filter (fun x => decide (x ∉ axes)) = [] := by
      rw [List.filter_eq_nil_iff]; intro x hx; simp [hx]
    rw [h1, h2, List.append_nil, if_neg hnew, map_idxOf_append hn hdisj, hv]
    simp only
    have h3 : rest.map (fun ax => (get? a.shape ax).getD 0) = rest.map a.sizeOf' := rfl
    rw [h3, hre]
    exact hmk
  · intro ax hax hax2
    rw [hother ax (by simp [hrest, hax, hax2])]
    obtain ⟨n, hn'⟩ := exists_get?_of_mem (d := a.shape) (by rw [keys_shape ha]; exact hax)
    simp [sizeOf', hn']
  · intro e he
    have hk : e axisNew < P := he _ _ hlast
    have hri : ND.InRange (rest.map a.sizeOf') (rest.map e) := by
      rw [ND.inRange_iff]
      refine ⟨by simp, fun i h1 h2 => ?_⟩
      simp only [List.length_map] at h1
      simp only [List.getElem_map]
      exact he _ _ (hother _ (List.getElem_mem _))
    show v.get (ND.unravel v.shape (ND.ravel (rest.map a.sizeOf' ++ [P]) ((rest ++ [axisNew]).map e))) = _
    rw [hvs, List.map_append, List.map_append, List.map_cons, List.map_nil, hP,
      ND.unravel_combined hri hk, ← hvg]
    congr 1
    rw [List.map_append]
    congr 1
    · apply List.map_congr_left
      intro x hx
      have : x ∉ axes := fun h => hdisj x h hx
      simp [splitIndex, this]
    · apply List.ext_getElem
      · simp [ND.length_unravel]
      · intro i h1 h2
        simp only [List.length_map] at h2
        simp only [List.getElem_map, splitIndex, List.getElem_mem, if_true]
        rw [hn.idxOf_getElem, List.getD_eq_getElem _ _ (by simpa [ND.length_unravel] using h2)]
        rfl

/-- **C11** (default arguments): all the axes, named by joining with `*`. -/
theorem C11_combine_axes_default (a : SA α) (s : String) (h : flattenAxes a.axes = .ok s) :
    a.combineAxes none none = a.combineAxes (some a.axes) (some s) := by
  simp [combineAxes, h, bind, Except.bind]

/-- **C11** (limit of the property): `ValueError` when a remaining axis is empty, although the
combination is well defined, because the size of the new axis is left to numpy as `-1`. -/
theorem C11_combine_axes_empty_rest (a : SA α) (ha : a.WF) (axes : List String) (hn : axes.Nodup)
    (hsub : axes ⊆ a.axes) (axisNew : String)
    (ax : String) (hax : ax ∈ a.axes) (hax2 : ax ∉ axes) (h0 : get? a.shape ax = some 0) :
    a.combineAxes (some axes) (some axisNew) = .error .valueError := by
  set rest := a.axes.filter (· ∉ axes) with hrest
  have hrn : rest.Nodup := ha.2.filter _
  have hdisj : ∀ x ∈ axes, x ∉ rest := by intro x hx; simp [hrest, hx]
  have hwfn : (rest ++ axes).Nodup := by
    rw [List.nodup_append]
    exact ⟨hrn, hn, fun x hx y hy hxy => hdisj y hy (hxy ▸ hx)⟩
  obtain ⟨v, hv, hvs, hvg⟩ := moveaxis_block ha hn hsub (k := rest.length) (le_refl _)
  unfold combineAxes
  simp only [bind, Except.bind, Option.getD_some]
  rw [foldlM_popAppend ha.2 hn hsub]
  simp only [← hrest]
  rw [foldlM_pyRemove hwfn hn (by intro x hx; simp [hx])]
  simp only [List.filter_append]
  have h1 : rest.filter (fun x => decide (x ∉ axes)) = rest := by
    rw [List.filter_eq_self]
    intro x hx
    simp [hrest] at hx
    simp [hx.2]
  have h2 : axes.filter (fun x => decide (x ∉ axes)) = [] := by
    rw [List.filter_eq_nil_iff]; intro x hx; simp [hx]
  rw [h1, h2, List.append_nil]
  split
  · rfl
  · rw [map_idxOf_append hn hdisj, hv]
    simp only
    have hz : (rest.map (fun ax => (get? a.shape ax).getD 0)).prod = 0 := by
      rw [List.prod_eq_zero_iff]
      exact List.mem_map.2 ⟨ax, by simp [hrest, hax, hax2], by simp [h0]⟩
    unfold ND.reshapeInfer
    rw [hz]
    simp

/-- a 2×3×2 array -/
def exC : SA Nat := ⟨["x", "y", "z"], ND.ofList [2, 3, 2] [0, 1, 2, 3, 4, 5, 6, 7, 8, 9, 10, 11] 0⟩

example : ((exC.combineAxes (some ["z", "x"]) (some "w")).map (fun r => (r.shape, r.nd.toList))) =
    .ok ([("y", 3), ("w", 4)], [0, 6, 1, 7, 2, 8, 3, 9, 4, 10, 5, 11]) := by decide
example : exC.WF ∧ ["z", "x"].Nodup ∧ "w" ∉ exC.axes.filter (· ∉ ["z", "x"]) := by decide

/-! ### C12: reshape -/

/-- **C12**. `np.reshape` succeeds exactly when the sizes multiply to the size of the array, and
otherwise raises `ValueError`; the requested shape is obtained and the row-major sequence of
elements is unchanged. -/
theorem C12_reshape (a : SA α) (ha : a.WF) (s : Shape) (hs : Dict.WF s) :
    (s.values.prod = a.shape.values.prod ∧
      ∃ r, a.reshape s = .ok r ∧ r.WF ∧ r.shape = s ∧ r.nd.toList = a.nd.toList) ∨
    (s.values.prod ≠ a.shape.values.prod ∧ a.reshape s = .error .valueError) := by
  rw [values_shape ha]
  unfold reshape
  by_cases hp : s.values.prod = a.nd.shape.prod
  · left
    refine ⟨hp, ?_⟩
    have h1 : a.nd.reshape s.values = .ok ⟨s.values, fun i => a.nd.get (ND.unravel a.nd.shape (ND.ravel s.values i))⟩ := by
      unfold ND.reshape; rw [if_pos hp]
    obtain ⟨_, h2, h3, _⟩ := ND.reshape_ok h1
    have hmk := mk?_of_wf (nd := (⟨s.values, fun i => a.nd.get (ND.unravel a.nd.shape (ND.ravel s.values i))⟩ : ND α))
      (axes := s.keys) (by simp [ND.ndim, keys, values]) hs
    rw [h1]
    exact ⟨_, hmk, (mk?_ok hmk).2, shape_of_mk hs rfl, h3⟩
  · right
    refine ⟨hp, ?_⟩
    unfold ND.reshape; rw [if_neg hp]; rfl

/-- Same names, sizes and order of axes, and same elements. -/
def SameArray (a b : SA α) : Prop := a.axes = b.axes ∧ ND.Equiv a.nd b.nd

/-- **C12** (identity): reshaping to the own shape returns the same array. -/
theorem C12_reshape_self (a : SA α) (ha : a.WF) :
    ∃ r, a.reshape a.shape = .ok r ∧ SameArray r a := by
  rcases C12_reshape a ha a.shape (wf_shape ha) with ⟨_, r, h1, h2, h3, h4⟩ | ⟨h, _⟩
  · refine ⟨r, h1, ?_, ?_⟩
    · rw [← keys_shape h2, h3, keys_shape ha]
    · rw [ND.equiv_iff_toList]
      exact ⟨by rw [← values_shape h2, h3, values_shape ha], h4⟩
  · exact absurd rfl h

/-- **C12** (round trip): reshaping there and back restores the array. -/
theorem C12_reshape_round_trip (a : SA α) (ha : a.WF) (s : Shape) (hs : Dict.WF s) (r : SA α)
    (h : a.reshape s = .ok r) : ∃ b, r.reshape a.shape = .ok b ∧ SameArray b a := by
  rcases C12_reshape a ha s hs with ⟨hp, r', h1, h2, h3, h4⟩ | ⟨_, h'⟩
  · rw [h] at h1
    injection h1 with h1
    subst h1
    rcases C12_reshape r h2 a.shape (wf_shape ha) with ⟨_, b, h5, h6, h7, h8⟩ | ⟨hne, _⟩
    · refine ⟨b, h5, ?_, ?_⟩
      · rw [← keys_shape h6, h7, keys_shape ha]
      · rw [ND.equiv_iff_toList]
        exact ⟨by rw [← values_shape h6, h7, values_shape ha], h8.trans h4⟩
    · rw [h3] at hne; exact absurd hp.symm hne
  · rw [h] at h'; cases h'

example : ((exC.reshape [("w", 4), ("v", 3)]).map (fun r => (r.shape, r.nd.toList))) =
    .ok ([("w", 4), ("v", 3)], [0, 1, 2, 3, 4, 5, 6, 7, 8, 9, 10, 11]) := by decide
example : (exC.reshape [("w", 4), ("v", 2)]).isOk = false := by decide

/-! ### C25: moveaxis -/

/-- Simultaneous renaming. -/
def rename (ps : List (String × String)) (ax : String) : String :=
  match ps.find? (fun p => p.1 = ax) with
  | some p => p.2
  | none => ax

/-- **C25 is false of the code**: swapping two axes by `np.moveaxis(a, ("x", "y"), ("y", "x"))`
returns the array unchanged instead of the array with swapped names, because the names are
replaced one after the other. -/
theorem C25_moveaxis_swap_refuted :
    ∃ a : SA Nat, a.WF ∧ ∃ r, a.moveaxis ["x", "y"] ["y", "x"] = .ok r ∧ r.WF ∧
      r.axes ≠ a.axes.map (rename [("x", "y"), ("y", "x")]) ∧
      (a.axes.map (rename [("x", "y"), ("y", "x")])).Nodup ∧ r.axes = a.axes := by
  refine ⟨⟨["x", "y"], ND.ofList [2, 3] [0, 1, 2, 3, 4, 5] 0⟩, by decide,
    ⟨["x", "y"], ND.ofList [2, 3] [0, 1, 2, 3, 4, 5] 0⟩, ?_, by decide, by decide, by decide, rfl⟩
  have : (["x", "y"].zip ["y", "x"]).foldlM replaceAxis ["x", "y"] = .ok ["x", "y"] := by decide
  unfold moveaxis
  rw [if_pos (by decide), this]
  exact mk?_of_wf (nd := ND.ofList [2, 3] [0, 1, 2, 3, 4, 5] 0) (axes := ["x", "y"]) rfl (by decide)

theorem replaceAxis_image {l : List String} {f : String → String} {x y : String} (hl : l.Nodup)
    (hx : x ∈ l) (hfx : f x = x) (hinj : ∀ z ∈ l, f z = x → z = x) :
    replaceAxis (l.map f) (x, y) = .ok (l.map (fun z => if z = x then y else f z)) := by
  unfold replaceAxis
  have hm : x ∈ l.map f := List.mem_map.2 ⟨x, hx, hfx⟩
  simp only [if_pos hm]
  congr 1
  have hidx : (l.map f).idxOf x = l.idxOf x := by
    clear hx hm
    induction l with
    | nil => rfl
    | cons z l ih =>
      rw [List.nodup_cons] at hl
      rw [List.map_cons, List.idxOf_cons, List.idxOf_cons, ih hl.2 (fun w hw => hinj w (by simp [hw]))]
      have : (f z == x) = (z == x) := by
        rw [Bool.eq_iff_iff]
        simp only [beq_iff_eq]
        constructor
        · exact hinj z (by simp)
        · rintro rfl; exact hfx
      rw [this]
  rw [hidx]
  apply List.ext_getElem
  · simp
  · intro i h1 h2
    simp only [List.length_map] at h2
    rw [List.getElem_set]
    simp only [List.getElem_map]
    by_cases h : l[i] = x
    · have : l.idxOf x = i := by subst h; exact hl.idxOf_getElem _ _
      simp [this, h]
    · have : l.idxOf x ≠ i := by
        rintro rfl
        exact h (List.getElem_idxOf _)
      simp [this, h]

theorem foldlM_replaceAxis {l : List String} (hl : l.Nodup) (ps done : List (String × String))
    (hsrc : ((done ++ ps).map Prod.fst).Nodup) (hmem : ∀ p ∈ ps, p.1 ∈ l)
    (hpw : (done ++ ps).Pairwise (fun p q => p.2 ≠ q.1)) :
    ps.foldlM replaceAxis (l.map (rename done)) = .ok (l.map (rename (done ++ ps))) := by
  induction ps generalizing done with
  | nil => simp [pure, Except.pure]
  | cons p ps ih =>
    rw [List.foldlM_cons]
    have hnot : ∀ q ∈ done, q.1 ≠ p.1 := by
      intro q hq
      rw [List.map_append, List.nodup_append] at hsrc
      exact hsrc.2.2 _ (List.mem_map.2 ⟨q, hq, rfl⟩) _ (by simp)
    have hnone : done.find? (fun q => q.1 = p.1) = none := by
      rw [List.find?_eq_none]
      intro q hq
      simpa using hnot q hq
    have hfx : rename done p.1 = p.1 := by simp [rename, hnone]
    have hinj : ∀ z ∈ l, rename done z = p.1 → z = p.1 := by
      intro z _ hz
      unfold rename at hz
      cases hf : done.find? (fun q => q.1 = z) with
      | none => rw [hf] at hz; exact hz
      | some q =>
        rw [hf] at hz
        have hq := List.mem_of_find?_eq_some hf
        rw [List.pairwise_append] at hpw
        exact absurd hz (hpw.2.2 q hq p (by simp))
    have hstep := replaceAxis_image (y := p.2) hl (hmem p (by simp)) hfx hinj
    have hren : l.map (fun z => if z = p.1 then p.2 else rename done z) = l.map (rename (done ++ [p])) := by
      apply List.map_congr_left
      intro z _
      unfold rename
      rw [List.find?_append]
      by_cases hz : z = p.1
      · subst hz
        simp [hnone]
      · cases hf : done.find? (fun q => q.1 = z) with
        | none => simp [hz, Ne.symm hz]
        | some q => simp [hz]
    rw [hstep, hren]
    have := ih (done ++ [p]) (by simpa using hsrc) (fun q hq => hmem q (by simp [hq])) (by simpa using hpw)
    simpa [bind, Except.bind] using this

/-- **C25** (part which holds). If no new name is one of the *later* source names — in particular if
the destination names are all new — then `np.moveaxis` renames simultaneously: axis `source[i]` is
called `destination[i]`, the other axes keep their names, sizes, positions and elements are
unchanged; a repetition among the resulting names raises `ValueError`.
Missing with respect to C25: destinations which are also later sources (swaps), for which
`C25_moveaxis_swap_refuted` shows that the code is wrong. -/
theorem C25_moveaxis_partial (a : SA α) (ha : a.WF) (source destination : List String)
    (hl : source.length = destination.length) (hsn : source.Nodup) (hsub : ∀ x ∈ source, x ∈ a.axes)
    (hpw : (source.zip destination).Pairwise (fun p q => p.2 ≠ q.1)) :
    ((a.axes.map (rename (source.zip destination))).Nodup →
      ∃ r, a.moveaxis source destination = .ok r ∧ r.WF ∧
        r.axes = a.axes.map (rename (source.zip destination)) ∧ r.nd = a.nd ∧
        ∀ e, r.at' e = a.at' (e ∘ rename (source.zip destination))) ∧
    (¬ (a.axes.map (rename (source.zip destination))).Nodup →
      a.moveaxis source destination = .error .valueError) := by
  have hfold := foldlM_replaceAxis ha.2 (source.zip destination) []
    (by rw [List.nil_append, List.map_fst_zip (by omega)]; exact hsn)
    (fun p hp => hsub p.1 (List.of_mem_zip hp).1) (by simpa using hpw)
  have hid : a.axes.map (rename []) = a.axes := by
    conv_rhs => rw [← List.map_id a.axes]
    apply List.map_congr_left
    intro x _; rfl
  rw [hid, List.nil_append] at hfold
  unfold moveaxis
  rw [if_pos (by simpa using hsub), hfold]
  simp only [bind, Except.bind]
  constructor
  · intro hnod
    have hmk := mk?_of_wf (nd := a.nd) (axes := a.axes.map (rename (source.zip destination)))
      (by simpa using ha.1) hnod
    refine ⟨_, hmk, (mk?_ok hmk).2, rfl, rfl, fun e => ?_⟩
    simp [at', List.map_map]
  · intro hnod
    unfold mk?
    rw [if_neg (by simpa using ha.1), if_pos hnod]

/-- **C25** (absent axis). -/
theorem C25_moveaxis_absent (a : SA α) (source destination : List String) (x : String)
    (hx : x ∈ source) (hxa : x ∉ a.axes) : a.moveaxis source destination = .error .valueError := by
  unfold moveaxis
  rw [if_neg]
  simp only [List.all_eq_true, decide_eq_true_eq]
  exact fun h => hxa (h x hx)

example : ((exC.moveaxis ["z", "x"] ["w", "v"]).map (fun r => (r.shape, r.nd.toList))) =
    .ok ([("v", 2), ("y", 3), ("w", 2)], [0, 1, 2, 3, 4, 5, 6, 7, 8, 9, 10, 11]) := by decide
example : ((exC.moveaxis ["y", "x"] ["w", "y"]).map (fun r => (r.shape, r.nd.toList))) =
    .ok ([("y", 2), ("w", 3), ("z", 2)], [0, 1, 2, 3, 4, 5, 6, 7, 8, 9, 10, 11]) := by decide
example : ["y", "x"].Nodup ∧ (["y", "x"].zip ["w", "y"]).Pairwise (fun p q => p.2 ≠ q.1) ∧
    (exC.axes.map (rename (["y", "x"].zip ["w", "y"]))).Nodup := by decide
example : (exC.moveaxis ["x"] ["y"]).isOk = false := by decide

/-! ### C28: change_axis_index -/

/-- **C28 is false of the code**: moving the last of three axes to index 0 puts it at position 1. -/
theorem C28_change_axis_index_refuted :
    ∃ (a : SA Nat) (r : SA Nat), a.WF ∧ a.changeAxisIndex "z" 0 = .ok r ∧ r.axes.idxOf "z" = 1 := by
  have hsome : ∃ r, exC.changeAxisIndex "z" 0 = .ok r ∧ r.axes = ["x", "z", "y"] := by
    have h : (exC.changeAxisIndex "z" 0).map SA.axes = .ok ["x", "z", "y"] := by decide
    cases hr : exC.changeAxisIndex "z" 0 with
    | error e => rw [hr] at h; cases h
    | ok r => rw [hr] at h; injection h with h; exact ⟨r, rfl, h⟩
  obtain ⟨r, h1, h2⟩ := hsome
  exact ⟨exC, r, by decide, h1, by rw [h2]; decide⟩

theorem pyInsert_perm {δ : Type} (l : List δ) (i : Nat) (x : δ) : (pyInsert l i x).Perm (x :: l) := by
  unfold pyInsert
  refine List.perm_middle.trans ?_
  rw [List.take_append_drop]

theorem idxOf_pyInsert {l : List String} (i : Nat) {x : String} (hx : x ∉ l) :
    (pyInsert l i x).idxOf x = min i l.length := by
  unfold pyInsert
  rw [List.idxOf_append_of_notMem (fun h => hx (List.mem_of_mem_take h))]
  simp

theorem erase_pyInsert {l : List String} (i : Nat) {x : String} (hx : x ∉ l) :
    (pyInsert l i x).erase x = l := by
  unfold pyInsert
  rw [List.erase_append_right _ (fun h => hx (List.mem_of_mem_take h))]
  simp

theorem keys_erase_eq (s : Shape) (x : String) : keys (s.erase x) = (keys s).filter (· ≠ x) := by
  unfold Dict.erase keys
  induction s with
  | nil => rfl
  | cons p s ih =>
    simp only [List.filter_cons, List.map_cons]
    by_cases h : p.1 = x <;> simp_all

/-- **C28** (part which holds). The result has the same elements by name and the other axes keep
their relative order.  The axis ends at position `min (index % ndim + 1) (ndim - 1)`, which is the
requested position `index % ndim` if and only if this is the last position.
Missing with respect to C28: every other index, for which the code is wrong. -/
theorem C28_change_axis_index_partial (a : SA α) (ha : a.WF) (axis : String) (hax : axis ∈ a.axes)
    (index : Int) :
    ∃ r, a.changeAxisIndex axis index = .ok r ∧ r.WF ∧ SameByName r a ∧
      r.axes.erase axis = a.axes.erase axis ∧
      (r.axes.idxOf axis : Int) = min (index % (a.axes.length : Int) + 1) ((a.axes.length : Int) - 1) ∧
      ((r.axes.idxOf axis : Int) = index % (a.axes.length : Int) ↔
        index % (a.axes.length : Int) = (a.axes.length : Int) - 1) := by
  have hlen : a.shape.length = a.axes.length := by
    rw [← keys_shape ha]; simp [keys]
  have hpos : 0 < a.axes.length := List.length_pos_of_mem hax
  have hmod1 : 0 ≤ index % (a.axes.length : Int) := Int.emod_nonneg _ (by omega)
  have hmod2 : index % (a.axes.length : Int) < a.axes.length := Int.emod_lt_of_pos _ (by omega)
  have hke : keys (a.shape.erase axis) = a.axes.erase axis := by
    rw [keys_erase_eq, keys_shape ha, erase_filter ha.2]
  set i := (index % (a.axes.length : Int) + 1).toNat with hi
  have hnot : axis ∉ a.axes.erase axis := ha.2.not_mem_erase
  have hperm : (pyInsert (a.axes.erase axis) i axis).Perm a.axes :=
    (pyInsert_perm _ _ _).trans (List.perm_cons_erase hax).symm
  have hnod : (pyInsert (a.axes.erase axis) i axis).Nodup := hperm.nodup_iff.2 ha.2
  obtain ⟨v, hv⟩ := aligned_isOk ha hnod (fun x hx => hperm.mem_iff.2 hx)
  obtain ⟨_, hvs, hvg⟩ := aligned_ok ha hnod hv
  have hmk := mk?_of_wf (aligned_ndim ha hnod hv) hnod
  have hwf := (mk?_ok hmk).2
  have hidx := idxOf_pyInsert (l := a.axes.erase axis) i hnot
  have hel : (a.axes.erase axis).length = a.axes.length - 1 := List.length_erase_of_mem hax
  refine ⟨⟨pyInsert (a.axes.erase axis) i axis, v⟩, ?_, hwf, ⟨fun ax => ?_, fun e _ => hvg e⟩,
    erase_pyInsert i hnot, ?_, ?_⟩
  · unfold changeAxisIndex
    rw [if_neg (by rw [keys_shape ha]; simpa using hax)]
    simp only [hke, hlen, ← hi, bind, Except.bind, hv]
    exact hmk
  · by_cases h : ax ∈ a.axes
    · have h' : ax ∈ pyInsert (a.axes.erase axis) i axis := hperm.mem_iff.2 h
      obtain ⟨j, hj, rfl⟩ := List.mem_iff_getElem.1 h'
      rw [get?_shape hwf (i := j) hj]
      simp only [hvs, List.getElem_map]
      obtain ⟨n, hn⟩ := exists_get?_of_mem (d := a.shape) (by rw [keys_shape ha]; exact h)
      simp [hn]
    · rw [(get?_shape_none ha).2 h, (get?_shape_none hwf).2 (fun h' => h (hperm.mem_iff.1 h'))]
  · simp only [hidx, hel]
    omega
  · simp only [hidx, hel]
    omega

/-- **C28** (absent axis). -/
theorem C28_change_axis_index_absent (a : SA α) (ha : a.WF) (axis : String) (hax : axis ∉ a.axes)
    (index : Int) : a.changeAxisIndex axis index = .error .keyError := by
  unfold changeAxisIndex
  rw [if_pos (by rw [keys_shape ha]; exact hax)]

end SA
end NA
