import Verif.Scalar.Indices
import Verif.Props.UncertainSet
import Verif.Props.VectorArgsort
import Verif.Props.FunctionLocate
import Verif.Props.RandomSamples
import Verif.Props.Kernels
import Verif.Props.UncertainArg
import Verif.Props.FunctionFlatten

/-!
# The indices of an array address each of its elements exactly once (C112)
-/

namespace NA
open Dict
open SA (InRange FitsIn)

namespace SA
variable {α : Type}

/-! ### Facts about the ranges -/

theorem keys_indices (t : Shape) : keys (indices t) = keys t := by
  simp [indices, keys, Function.comp_def]

theorem get?_indices (t : Shape) (ax : String) :
    get? (indices t) ax = (get? t ax).map (fun n => IndexVal.arr (arange ax n)) := by
  induction t with
  | nil => rfl
  | cons p t ih =>
    unfold indices at ih ⊢
    rw [List.map_cons, get?_cons, get?_cons, ih]
    by_cases h : p.1 = ax
    · subst h; simp
    · simp [h]

theorem itemWF_indices {t : Shape} (ht : Dict.WF t) : ItemWF (indices t) := by
  refine ⟨by unfold Dict.WF; rw [keys_indices]; exact ht, ?_⟩
  intro ax b hb
  obtain ⟨p, _, h⟩ := List.mem_map.1 hb
  cases h
  exact wf_arange _ _

theorem arrayShapes_indices (t : Shape) : arrayShapes (indices t) = t.map (fun p => [p]) := by
  induction t with
  | nil => rfl
  | cons p t ih =>
    unfold arrayShapes indices at ih ⊢
    rw [List.map_cons, List.map_cons, List.filterMap_cons]
    simp only [shape_arange]
    rw [ih]

theorem known_indices (t : Shape) (A : List String) : known A (indices t) = indices (t.filter (fun p => p.1 ∈ A)) := by
  unfold known indices
  rw [List.filter_map]
  rfl

/-- The ranges along distinct axes always broadcast, to the shape which they were made from. -/
theorem broadcast_ranges {t : Shape} (ht : Dict.WF t) :
    ∃ S, broadcastShapes (t.map (fun p => [p])) = .ok S ∧ Dict.WF S ∧ Same S t := by
  have hw : ∀ s ∈ t.map (fun p => [p]), Dict.WF s := by
    intro s hs
    obtain ⟨p, _, rfl⟩ := List.mem_map.1 hs
    simp [Dict.WF, keys]
  have hsz : ∀ ax n, HasSize (t.map (fun p => [p])) ax n ↔ get? t ax = some n := by
    intro ax n
    constructor
    · rintro ⟨s, hs, h⟩
      obtain ⟨p, hp, rfl⟩ := List.mem_map.1 hs
      rw [get?_cons] at h
      by_cases hpa : p.1 = ax
      · rw [if_pos hpa] at h
        subst hpa
        cases h
        exact get?_of_mem ht hp
      · rw [if_neg hpa] at h; cases h
    · intro h
      exact ⟨[(ax, n)], List.mem_map.2 ⟨(ax, n), mem_of_get? h, rfl⟩, by simp [get?_cons]⟩
  cases hb : broadcastShapes (t.map (fun p => [p])) with
  | error e =>
    obtain ⟨ax, m, n, h1, h2, h3, _⟩ := (C01_broadcast_shapes_error_iff _ hw).1 ⟨e, hb⟩
    rw [hsz] at h1 h2
    rw [h1] at h2
    exact absurd (Option.some.inj h2) h3
  | ok S =>
    obtain ⟨k1, k2, k3⟩ := C01_broadcast_shapes_ok _ hw S hb
    refine ⟨S, rfl, k1, fun ax => ?_⟩
    cases hS : get? S ax with
    | some n => exact ((hsz ax n).1 (k3 ax n hS).1).symm
    | none =>
      symm
      rw [get?_eq_none] at hS ⊢
      intro hk
      obtain ⟨n, hn⟩ := exists_get?_of_mem hk
      obtain ⟨s, hs, h⟩ := (hsz ax n).2 hn
      exact hS ((k2 ax).2 ⟨s, hs, mem_keys_of_get? h⟩)

theorem at'_arange (ax : String) (n : Nat) (e : String → Nat) : (arange ax n).at' e = (e ax : Int) := rfl

theorem atB_arange {ax : String} {n : Nat} {e : String → Nat} (h : e ax < n) : (arange ax n).atB e = (e ax : Int) := by
  unfold atB
  rw [at'_arange, shape_arange, get?_cons]
  by_cases hn : n = 1
  · subst hn
    have : e ax = 0 := by omega
    simp [this]
  · simp [hn]

theorem validItem_indices {c : SA α} {t : Shape} (hle : ∀ ax m n, get? c.shape ax = some m → get? t ax = some n → n ≤ m) :
    ValidItem c.shape (indices t) := by
  intro ax m hm
  rw [get?_indices]
  cases ht : get? t ax with
  | none => exact ⟨fun i h => (by cases h), fun b h => (by cases h)⟩
  | some n =>
    refine ⟨fun i h => (by cases h), fun b h e he => ?_⟩
    cases h
    have h1 : e ax < n := he ax n (by rw [shape_arange, get?_cons, if_pos rfl])
    have := hle ax m n hm ht
    rw [at'_arange]
    unfold ND.ValidIndex
    omega

theorem stepsOk_indices (s t : Shape) : StepsOk s (indices t) := by
  intro ax _ sl h
  rw [get?_indices] at h
  cases ht : get? t ax with
  | none => rw [ht] at h; cases h
  | some n => rw [ht] at h; cases h

/-- Indexing with the indices of a shape: the axes which are in it are cut to its sizes, and nothing is moved. -/
theorem getitem_indices (c : SA α) (hc : c.WF) (t : Shape) (ht : Dict.WF t)
    (hle : ∀ ax m n, get? c.shape ax = some m → get? t ax = some n → n ≤ m) :
    ∃ r, c.getitem (indices t) = .ok r ∧ r.WF ∧
      (∀ ax, get? r.shape ax = if ax ∈ c.axes then (get? t ax).or (get? c.shape ax) else none) ∧
      ∀ e, InRange r.shape e → r.at' e = c.at' e := by
  have htw : Dict.WF (t.filter (fun p => p.1 ∈ c.axes)) := wf_filter ht _
  obtain ⟨S, hS, hSw, hSs⟩ := broadcast_ranges htw
  have hSg : ∀ ax, get? S ax = if ax ∈ c.axes then get? t ax else none := by
    intro ax
    rw [hSs ax]
    exact get?_filter t (fun k => k ∈ c.axes) ax
  have hSk : ∀ ax ∈ keys S, ax ∈ c.axes ∧ ∃ n, get? t ax = some n ∧ get? S ax = some n := by
    intro ax hax
    obtain ⟨n, hn⟩ := exists_get?_of_mem hax
    have h := hSg ax
    rw [hn] at h
    by_cases hm : ax ∈ c.axes
    · rw [if_pos hm] at h
      exact ⟨hm, n, h.symm, hn⟩
    · rw [if_neg hm] at h; cases h
  obtain ⟨r, rest, h1, h2, h3, h4, h5, h6, h7, h8⟩ := C14_getitem_arrays c hc (indices t) (itemWF_indices ht) S
    (by rw [known_indices, arrayShapes_indices]; exact hS) (stepsOk_indices _ _) (validItem_indices hle)
    (fun ax hax _ => by
      obtain ⟨_, n, hn, _⟩ := hSk ax hax
      exact Or.inr ⟨arange ax n, by rw [get?_indices, hn]; rfl⟩)
  have hrest : ∀ ax, ax ∈ rest ↔ ax ∈ c.axes ∧ get? t ax = none := by
    intro ax
    rw [h5 ax]
    constructor
    · rintro ⟨q1, q2, q3⟩
      refine ⟨q1, ?_⟩
      cases hta : get? t ax with
      | none => rfl
      | some n => exact absurd (by rw [get?_indices, hta]; rfl) (q3 (arange ax n))
    · rintro ⟨q1, q2⟩
      refine ⟨q1, ?_, fun b hb => ?_⟩
      · rintro ⟨i, hi⟩
        rw [get?_indices, q2] at hi; cases hi
      · rw [get?_indices, q2] at hb; cases hb
  have hshape : ∀ ax, get? r.shape ax = if ax ∈ c.axes then (get? t ax).or (get? c.shape ax) else none := by
    intro ax
    by_cases hm : ax ∈ c.axes
    · rw [if_pos hm]
      cases hta : get? t ax with
      | some n =>
        have hs : get? S ax = some n := by rw [hSg ax, if_pos hm, hta]
        rw [h6 ax (mem_keys_of_get? hs), hs]
        rfl
      | none =>
        rw [h7 ax ((hrest ax).2 ⟨hm, hta⟩)]
        unfold selLen
        rw [get?_indices, hta]
        obtain ⟨m, hm'⟩ := exists_get?_of_mem (d := c.shape) (by rw [keys_shape hc]; exact hm)
        rw [hm']
        rfl
    · rw [if_neg hm, get?_eq_none, keys_shape h2, h3, List.mem_append]
      rintro (h | h)
      · exact hm (hSk ax h).1
      · exact hm ((hrest ax).1 h).1
  refine ⟨r, h1, h2, hshape, fun e he => ?_⟩
  rw [h8 e]
  apply at'_congr
  intro ax hax
  unfold selIdx
  rw [get?_indices]
  cases hta : get? t ax with
  | none => rfl
  | some n =>
    have hlt : e ax < n := he ax n (by rw [hshape ax, if_pos hax, hta]; rfl)
    show ND.pyIndex _ ((arange ax n).atB e) = e ax
    rw [atB_arange hlt, pyIndex_nat]

/-- Indices beyond the end of an axis raise `IndexError`. -/
theorem getitem_indices_error (c : SA α) (hc : c.WF) (t : Shape) (ht : Dict.WF t) (hpos : ∀ ax, get? t ax ≠ some 0)
    (ax : String) (m n : Nat) (hm : get? c.shape ax = some m) (hn : get? t ax = some n) (h : m < n) :
    c.getitem (indices t) = .error .indexError := by
  obtain ⟨S, hS, _, _⟩ := broadcast_ranges (wf_filter (S := t) ht (fun p => p.1 ∈ c.axes))
  refine ((C14_getitem_arrays_error c hc (indices t) (itemWF_indices ht)).2 S
    (by rw [known_indices, arrayShapes_indices]; exact hS)).2.1 (stepsOk_indices _ _) ?_
  intro hv
  have := (hv ax m hm).2 (arange ax n) (by rw [get?_indices, hn]; rfl) (fun _ => n - 1) (fun x k hk => by
    rw [shape_arange, get?_cons] at hk
    by_cases hx : ax = x
    · rw [if_pos hx] at hk; cases hk; show n - 1 < n; omega
    · rw [if_neg hx] at hk; cases hk)
  rw [at'_arange] at this
  have := this.2
  omega

/-- Indexing with the indices of a shape which agrees with that of the array. -/
theorem getitem_own (c : SA α) (hc : c.WF) (t : Shape) (ht : Dict.WF t)
    (heq : ∀ ax ∈ c.axes, ∀ n, get? t ax = some n → get? c.shape ax = some n) :
    ∃ r, c.getitem (indices t) = .ok r ∧ r.WF ∧ Same r.shape c.shape ∧ ∀ e, InRange c.shape e → r.at' e = c.at' e := by
  obtain ⟨r, h1, h2, h3, h4⟩ := getitem_indices c hc t ht (fun ax m n h h' => by
    have hm : ax ∈ c.axes := by rw [← keys_shape hc]; exact mem_keys_of_get? h
    rw [heq ax hm n h'] at h
    cases h
    exact le_refl _)
  have hs : Same r.shape c.shape := by
    intro ax
    rw [h3 ax]
    by_cases hm : ax ∈ c.axes
    · rw [if_pos hm]
      cases hta : get? t ax with
      | none => rfl
      | some n => exact (heq ax hm n hta).symm
    · rw [if_neg hm]
      exact (get?_eq_none.2 (by rw [keys_shape hc]; exact hm)).symm
  exact ⟨r, h1, h2, hs, fun e he => h4 e (fun ax n hn => he ax n (by rw [← hs ax]; exact hn))⟩

theorem mem_advAxes_indices (t : Shape) (ax : String) : ax ∈ advAxes (indices t) ↔ ax ∈ keys t := by
  unfold advAxes
  constructor
  · intro h
    rw [← keys_indices]
    exact keys_advItem_sub _ h
  · intro h
    obtain ⟨m, hm⟩ := exists_get?_of_mem h
    unfold advItem keys
    refine List.mem_map.2 ⟨(ax, .arr (arange ax m)), ?_, rfl⟩
    exact List.mem_filterMap.2 ⟨(ax, .arr (arange ax m)), mem_of_get? (by rw [get?_indices, hm]; rfl), rfl⟩

/-- Assigning by the indices of a shape which agrees with that of the array writes every element once. -/
theorem setitem_indices (a value : SA α) (ha : a.WF) (hv : value.WF) (t : Shape) (ht : Dict.WF t)
    (heq : ∀ ax n, get? t ax = some n → get? a.shape ax = some n) (hfit : FitsIn value.shape a.shape) :
    ∃ r, a.setitem (indices t) value = .ok r ∧ r.WF ∧ r.axes = a.axes ∧ r.shape = a.shape ∧
      ∀ e, InRange a.shape e → r.at' e = value.atB e := by
  obtain ⟨S, hS, hSw, hSs⟩ := broadcast_ranges ht
  have hmemS : ∀ ax, ax ∈ keys S ↔ ax ∈ keys t := by
    intro ax
    have h := hSs ax
    constructor
    · intro hk
      obtain ⟨n, hn⟩ := exists_get?_of_mem hk
      rw [hn] at h
      exact mem_keys_of_get? h.symm
    · intro hk
      obtain ⟨n, hn⟩ := exists_get?_of_mem hk
      rw [hn] at h
      exact mem_keys_of_get? h
  have hbasic : ∀ ax, ax ∈ basicAxes a.axes (indices t) ↔ ax ∈ a.axes ∧ ax ∉ keys t := by
    intro ax
    unfold basicAxes
    rw [List.mem_filter, decide_eq_true_iff, mem_advAxes_indices]
  have haddr : Same (addressed a (indices t) S) a.shape := by
    intro ax
    unfold addressed selShape
    rw [get?_append, get?_map_axes]
    by_cases hk : ax ∈ keys t
    · obtain ⟨n, hn⟩ := exists_get?_of_mem hk
      rw [hSs ax, hn, heq ax n hn]
      rfl
    · rw [hSs ax, get?_eq_none.2 hk]
      by_cases hm : ax ∈ a.axes
      · rw [if_pos ((hbasic ax).2 ⟨hm, hk⟩)]
        unfold selLen
        rw [get?_indices, get?_eq_none.2 hk]
        obtain ⟨m, hm'⟩ := exists_get?_of_mem (d := a.shape) (by rw [keys_shape ha]; exact hm)
        rw [hm']
        rfl
      · rw [if_neg (fun h => hm ((hbasic ax).1 h).1), get?_eq_none.2 (by rw [keys_shape ha]; exact hm)]
        rfl
  obtain ⟨r, h1, h2, h3, h4, h5, h6⟩ := C16_setitem a value ha hv (indices t) (itemWF_indices ht)
    (by
      intro v hv
      unfold indices values at hv
      rw [List.map_map] at hv
      obtain ⟨p, _, rfl⟩ := List.mem_map.1 hv
      rfl)
    (by
      rw [keys_indices]
      intro ax hax
      obtain ⟨n, hn⟩ := exists_get?_of_mem hax
      rw [← keys_shape ha]
      exact mem_keys_of_get? (heq ax n hn)) S (by rw [arrayShapes_indices]; exact hS)
    (by
      unfold addressed
      rw [keys_selShape, List.nodup_append]
      refine ⟨hSw, ha.2.filter _, fun x hx y hy hxy => ?_⟩
      subst hxy
      exact ((hbasic x).1 hy).2 ((hmemS x).1 hx)) (stepsOk_indices _ _)
    (validItem_indices (fun ax m n h h' => by rw [heq ax n h'] at h; cases h; exact le_refl _))
    (by
      intro ax m hm
      obtain ⟨n, hn, h⟩ := hfit ax m hm
      exact ⟨n, by rw [haddr ax]; exact hn, h⟩)
  refine ⟨r, h1, h2, h3, h4, fun e he => ?_⟩
  have hsel : ∀ f, InRange (addressed a (indices t) S) f → ∀ ax ∈ a.axes, selIdx a.shape (indices t) f ax = f ax := by
    intro f hf ax hax
    unfold selIdx
    rw [get?_indices]
    cases hta : get? t ax with
    | none => rfl
    | some m =>
      show ND.pyIndex _ ((arange ax m).atB f) = f ax
      rw [atB_arange (hf ax m (by rw [haddr ax]; exact heq ax m hta)), pyIndex_nat]
  have heS : InRange (addressed a (indices t) S) e := fun ax n hn => he ax n (by rw [← haddr ax]; exact hn)
  obtain ⟨f, ⟨hf1, hf2⟩, hf3, _⟩ := h6 e ⟨e, heS, hsel e heS⟩
  rw [hf3]
  apply atB_congr
  intro ax hax
  have hin : ax ∈ a.axes := by
    obtain ⟨m, hm⟩ := exists_get?_of_mem (d := value.shape) (by rw [keys_shape hv]; exact hax)
    obtain ⟨n, hn, _⟩ := hfit ax m hm
    rw [← keys_shape ha]
    exact mem_keys_of_get? hn
  rw [← hf2 ax hin, hsel f hf1 ax hin]

/-! ### Arrays -/

/-- **C112** (reading). `a[a.indices]` is `a`: same axes, same sizes, same elements. -/
theorem C112_read (a : SA α) (ha : a.WF) : ∃ r, a.getIndices = .ok r ∧ r.WF ∧ Same r.shape a.shape ∧
    ∀ e, InRange a.shape e → r.at' e = a.at' e :=
  getitem_own a ha a.shape (wf_shape ha) (fun _ _ _ h => h)

/-- **C112** (indices of another shape). The indices of a shape `t` select the first `t[ax]` elements along each axis `ax` of `a` which
`t` has; an axis of `t` with more elements than `a` raises `IndexError`. -/
theorem C112_crop (a : SA α) (ha : a.WF) (t : Shape) (ht : Dict.WF t) :
    ((∀ ax m n, get? a.shape ax = some m → get? t ax = some n → n ≤ m) →
      ∃ r, a.getitem (indices t) = .ok r ∧ r.WF ∧
        (∀ ax, get? r.shape ax = if ax ∈ a.axes then (get? t ax).or (get? a.shape ax) else none) ∧
        ∀ e, InRange r.shape e → r.at' e = a.at' e) ∧
    ((∀ ax, get? t ax ≠ some 0) → (∃ ax m n, get? a.shape ax = some m ∧ get? t ax = some n ∧ m < n) →
      a.getitem (indices t) = .error .indexError) :=
  ⟨getitem_indices a ha t ht, fun hpos ⟨ax, m, n, h1, h2, h3⟩ => getitem_indices_error a ha t ht hpos ax m n h1 h2 h3⟩

/-- **C112** (writing). `a[a.indices] = value` writes every element once: afterwards `a` holds the value, broadcast to its shape. -/
theorem C112_write (a value : SA α) (ha : a.WF) (hv : value.WF) (hfit : FitsIn value.shape a.shape) :
    ∃ r, a.setIndices value = .ok r ∧ r.WF ∧ r.axes = a.axes ∧ r.shape = a.shape ∧
      ∀ e, InRange a.shape e → r.at' e = value.atB e :=
  setitem_indices a value ha hv a.shape (wf_shape ha) (fun _ _ h => h) hfit

/-- **C112** (loops). `for i in a.ndindex(axis_ignored): result[i] = a[i]` copies all of `a`, whichever axes are left out of the loop. -/
theorem C112_loop (a result : SA α) (ha : a.WF) (hr : result.WF) (hs : Same result.shape a.shape) (axisIgnored : List String) :
    ∃ r, a.copySlices result axisIgnored = .ok r ∧ r.WF ∧ r.axes = result.axes ∧ Same r.shape a.shape ∧
      ∀ e, InRange a.shape e → r.at' e = a.at' e := by
  have hO := wf_orthogonal (wf_shape ha) axisIgnored
  have hget := get?_orthogonal (wf_shape ha) axisIgnored
  have hbody : ∀ e, InRange (orthogonal a.shape axisIgnored) e →
      ∃ v, a.getitem (itemAt (keys (orthogonal a.shape axisIgnored)) e) = .ok v ∧ v.WF ∧
        v.axes = a.axes.filter (· ∉ keys (orthogonal a.shape axisIgnored)) ∧
        (∀ x, get? v.shape x = if x ∈ keys (orthogonal a.shape axisIgnored) then none else get? a.shape x) ∧
        ∀ f, v.at' f = a.at' (fun x => if x ∈ keys (orthogonal a.shape axisIgnored) then e x else f x) := by
    intro e he
    apply getitem_itemAt a ha hO
    intro ax hax n hn
    obtain ⟨m, hm⟩ := exists_get?_of_mem hax
    have h := he ax m hm
    rw [hget ax] at hm
    split at hm
    · cases hm
    · rw [hn] at hm; cases hm; exact h
  obtain ⟨r, h1, h2, h3, h4, h5⟩ := forEach_ok (orthogonal a.shape axisIgnored) hO a.getitem result hr
    (fun ax n hn => by
      rw [hs ax]
      rw [hget ax] at hn
      split at hn
      · cases hn
      · exact hn)
    (fun e he => by
      obtain ⟨v, v1, v2, _, v4, _⟩ := hbody e he
      refine ⟨v, v1, v2, fun x m hm => ?_⟩
      rw [v4 x] at hm
      by_cases hx : x ∈ keys (orthogonal a.shape axisIgnored)
      · rw [if_pos hx] at hm; cases hm
      · rw [if_neg hx] at hm
        exact ⟨hx, m, by rw [hs x]; exact hm, Or.inl rfl⟩)
  refine ⟨r, ?_, h2, h3, fun ax => by rw [h4]; exact hs ax, fun e he => ?_⟩
  · rw [← h1]
    unfold copySlices forEach
    rw [ndindex_ignored (wf_shape ha)]
  · have he' : InRange (orthogonal a.shape axisIgnored) e := fun ax n hn => by
      rw [hget ax] at hn
      split at hn
      · cases hn
      · exact he ax n hn
    obtain ⟨v, v1, v2, _, v4, v5⟩ := hbody e he'
    rw [h5 e (fun ax n hn => he ax n (by rw [← hs ax]; exact hn)) v v1]
    rw [atB_eq_at' v2 (fun x m hm => by
      rw [v4 x] at hm
      split at hm
      · cases hm
      · exact he x m hm), v5]
    apply at'_congr
    intro ax _
    simp

end SA
end NA

/-! ### Uncertain scalars -/

namespace NA
open Dict
open SA (InRange FitsIn)

namespace UA
variable {α : Type}

theorem getitem_plain_indices (u : UA α) (s t : Shape) (ht : u.shapeDistribution = .ok t) :
    u.getitem ((SA.indices s).map (fun p => (p.1, .plain p.2))) = (do
      let n ← u.nominal.getitem (SA.indices s)
      let d ← u.distribution.getitem (SA.indices s)
      mk? n d) := by
  have hnone : (values ((SA.indices s).map (fun p => (p.1, UIndex.plain p.2)))).any UIndex.isNone = false := by
    rw [List.any_eq_false]
    intro v hv
    unfold SA.indices values at hv
    rw [List.map_map, List.map_map] at hv
    obtain ⟨p, _, rfl⟩ := List.mem_map.1 hv
    simp [UIndex.isNone, IndexVal.isNone]
  have h1 := plainItem_nominal (SA.indices s)
  have h2 := plainItem_distribution (SA.indices s)
  unfold plainItem at h1 h2
  unfold getitem
  rw [ht, hnone, h1, h2]
  simp only [bind, Except.bind, Bool.false_eq_true, if_false]
  rw [SA.C13_getitem_ignores_absent u.nominal ((SA.indices s).filter (fun p => p.1 ∈ u.nominal.axes)) (SA.indices s)
      (by rw [List.filter_filter]; simp),
    SA.C13_getitem_ignores_absent u.distribution ((SA.indices s).filter (fun p => p.1 ∈ u.distribution.axes)) (SA.indices s)
      (by rw [List.filter_filter]; simp)]

theorem FullSizes.eq {u : UA α} {s : Shape} (hD : axisD ∉ keys s) (h : u.FullSizes s) :
    (∀ ax ∈ u.nominal.axes, ∀ n, get? s ax = some n → get? u.nominal.shape ax = some n) ∧
    ∀ ax ∈ u.distribution.axes, ∀ n, get? s ax = some n → get? u.distribution.shape ax = some n := by
  refine ⟨fun ax hax n hn => by rw [h.1 ax hax]; exact hn, fun ax hax n hn => ?_⟩
  rw [h.2 ax hax (fun hx => hD (hx ▸ mem_keys_of_get? hn))]
  exact hn

/-- **C112** (uncertain scalars, reading). If each component has the full size along each axis which it has, `u[u.indices]` is `u`, nominal
value and samples.
Missing for the full property: components of size 1 along an axis of the other component (`C112_uncertain_refuted`). -/
theorem C112_read_partial (u : UA α) (hu : u.Valid) (s : Shape) (hs : u.shape = .ok s) (hfull : u.FullSizes s) :
    ∃ r, u.getIndices = .ok r ∧ r.Valid ∧ Same r.nominal.shape u.nominal.shape ∧ Same r.distribution.shape u.distribution.shape ∧
      (∀ e, InRange u.nominal.shape e → r.nominal.at' e = u.nominal.at' e) ∧
      ∀ e, InRange u.distribution.shape e → r.distribution.at' e = u.distribution.at' e := by
  rcases shape_cases hu with ⟨_, _, h⟩ | ⟨_, t, s', sd, ht, _, _, _, hS⟩
  · rw [hs] at h; cases h
  have hss : s' = s := by
    have h := hS.shape
    rw [hs] at h
    exact (Except.ok.inj h).symm
  subst hss
  obtain ⟨e1, e2⟩ := FullSizes.eq hS.noD hfull
  obtain ⟨n, n1, n2, n3, n4⟩ := SA.getitem_own u.nominal hu.1 s' hS.wf e1
  obtain ⟨d, d1, d2, d3, d4⟩ := SA.getitem_own u.distribution hu.2.1 s' hS.wf e2
  have hnD : axisD ∉ n.axes := by
    rw [← SA.keys_shape n2]
    intro hk
    obtain ⟨m, hm⟩ := exists_get?_of_mem hk
    rw [n3 axisD] at hm
    have := mem_keys_of_get? hm
    rw [SA.keys_shape hu.1] at this
    exact hu.2.2 this
  refine ⟨⟨n, d⟩, ?_, ⟨n2, d2, hnD⟩, n3, d3, n4, d4⟩
  unfold getIndices
  rw [hs]
  simp only [bind, Except.bind]
  rw [getitem_plain_indices u s' t ht, n1, d1]
  exact mk?_of_valid n2 hnD

/-- **C112** (uncertain scalars, errors). If a component has size 1 along an axis along which the array has more elements, then
`u[u.indices]` raises `IndexError`. -/
theorem C112_read_error (u : UA α) (hu : u.Valid) (s : Shape) (hs : u.shape = .ok s) (hpos : ∀ ax, get? s ax ≠ some 0)
    (ax : String) (n : Nat) (hn : get? s ax = some n) (h1 : 1 < n)
    (hc : get? u.nominal.shape ax = some 1 ∨ get? u.distribution.shape ax = some 1) :
    u.getIndices = .error .indexError := by
  rcases shape_cases hu with ⟨_, _, h⟩ | ⟨_, t, s', sd, ht, _, _, _, hS⟩
  · rw [hs] at h; cases h
  have hss : s' = s := by
    have h := hS.shape
    rw [hs] at h
    exact (Except.ok.inj h).symm
  subst hss
  unfold getIndices
  rw [hs]
  simp only [bind, Except.bind]
  rw [getitem_plain_indices u s' t ht]
  by_cases hN : ∃ ax m n, get? u.nominal.shape ax = some m ∧ get? s' ax = some n ∧ m < n
  · rw [(SA.C112_crop u.nominal hu.1 s' hS.wf).2 hpos hN]
    rfl
  · obtain ⟨r, hr, _⟩ := (SA.C112_crop u.nominal hu.1 s' hS.wf).1 (fun x m k hm hk => by
      by_contra hlt
      exact hN ⟨x, m, k, hm, hk, by omega⟩)
    rw [hr]
    have hd : get? u.distribution.shape ax = some 1 := hc.resolve_left (fun h => hN ⟨ax, 1, n, h, hn, h1⟩)
    simp only [bind, Except.bind]
    rw [(SA.C112_crop u.distribution hu.2.1 s' hS.wf).2 hpos ⟨ax, 1, n, hd, hn, h1⟩]

/-- **C112** (refuted for uncertain scalars). The nominal value has size 1, the samples have size 3: the indices of the array are not
indices of its nominal value. -/
theorem C112_uncertain_refuted : exSmall.Valid ∧ exSmall.shape = .ok [("x", 3)] ∧ exSmall.getIndices = .error .indexError := by
  refine ⟨⟨by decide, by decide, by decide⟩, rfl, ?_⟩
  exact C112_read_error exSmall ⟨by decide, by decide, by decide⟩ [("x", 3)] rfl
    (fun ax => by rw [get?_cons]; by_cases h : "x" = ax <;> simp [h]) "x" 3 rfl (by decide) (Or.inl rfl)

/-- **C112** (uncertain scalars, writing). If both components have all the axes of `u` with the full size, `u[u.indices] = value` replaces
each element by that of the value, nominal value and samples.
Missing for the full property: components which lack an axis (`C112_uncertain_write_refuted`). -/
theorem C112_write_partial (u : UA α) (hu : u.Valid) (s : Shape) (hs : u.shape = .ok s)
    (hN : ∀ ax n, get? s ax = some n → get? u.nominal.shape ax = some n)
    (hD : ∀ ax n, get? s ax = some n → get? u.distribution.shape ax = some n) (value : UArg α) (hv : value.Ok)
    (hvn : FitsIn value.nominal.shape u.nominal.shape) (hvd : FitsIn value.distribution.shape u.distribution.shape) :
    ∃ r, u.setIndices value = (r, none) ∧ r.Valid ∧ r.nominal.shape = u.nominal.shape ∧ r.distribution.shape = u.distribution.shape ∧
      (∀ e, InRange u.nominal.shape e → r.nominal.at' e = value.nominal.atB e) ∧
      ∀ e, InRange u.distribution.shape e → r.distribution.at' e = value.distribution.atB e := by
  rcases shape_cases hu with ⟨_, _, h⟩ | ⟨_, t, s', sd, ht, _, _, _, hS⟩
  · rw [hs] at h; cases h
  have hss : s' = s := by
    have h := hS.shape
    rw [hs] at h
    exact (Except.ok.inj h).symm
  subst hss
  obtain ⟨n, n1, n2, n3, n4, n5⟩ := SA.setitem_indices u.nominal value.nominal hu.1 hv.nominal s' hS.wf hN hvn
  obtain ⟨d, d1, d2, d3, d4, d5⟩ := SA.setitem_indices u.distribution value.distribution hu.2.1 hv.distribution s' hS.wf hD hvd
  refine ⟨⟨n, d⟩, ?_, ⟨n2, d2, by show axisD ∉ n.axes; rw [n3]; exact hu.2.2⟩, n4, d4, n5, d5⟩
  have h1 := plainItem_nominal (SA.indices s')
  have h2 := plainItem_distribution (SA.indices s')
  unfold plainItem at h1 h2
  unfold setIndices
  rw [hs]
  simp only
  unfold setitem
  rw [hs]
  simp only
  rw [if_pos, h1, h2, n1, d1]
  · rfl
  · rw [List.all_eq_true]
    intro ax hax
    have : ax ∈ keys (SA.indices s') := by
      unfold keys at hax ⊢
      rw [List.map_map] at hax
      exact hax
    rw [SA.keys_indices] at this
    simpa using this

/-- **C112** (refuted for assigning to uncertain scalars). The samples do not depend on `x`: the array can be indexed with its indices, but
not assigned to. -/
theorem C112_uncertain_write_refuted : exPartial'.Valid ∧ (exPartial'.getIndices).isOk = true ∧
    (exPartial'.setIndices (.plain (SA.scalar 7))).2.isSome = true := by
  refine ⟨⟨by decide, by decide, by decide⟩, by decide +kernel, by decide +kernel⟩

end UA

/-! ### Vectors -/

namespace Comp
variable {α : Type}

theorem indexAt_leaves (item : Dict IndexVal) (p : List String) {it : Dict IndexVal}
    (h : IndexAt (item.map (fun q => (q.1, .leaf q.2))) p it) : it = item := by
  unfold IndexAt at h
  rw [List.forall₂_map_left_iff] at h
  induction h with
  | nil => rfl
  | @cons q q' l l' hq _ ih =>
    rw [ih]
    obtain ⟨h1, h2⟩ := hq
    have h3 : q.2 = q'.2 := by
      have : (Comp.leaf q.2).leafB p = some q.2 := by cases p <;> rfl
      rw [this] at h2
      exact Option.some.inj h2
    rw [← Prod.ext h1.symm h3]

/-- **C112** (vectors). If each component has the full size along each axis which it has, `v[v.indices]` is `v`: a vector of the same type
with the same components.
Missing for the full property: components of size 1 along an axis of another component (`C112_vector_refuted`). -/
theorem C112_vector_partial (v : Comp (SA α)) (hw : v.WFLeaves) (hf : v.Full) (hD : v.Dicts) (S : Shape) (hS : v.shape = .ok S)
    (hfull : ∀ p a, v.leafAt p = some a → ∀ ax ∈ a.axes, get? a.shape ax = get? S ax) :
    ∃ r, v.getIndices = .ok r ∧ v.Similar r ∧ ∀ p a, v.leafAt p = some a → ∃ ra, r.leafAt p = some ra ∧ ra.WF ∧
      Same ra.shape a.shape ∧ ∀ e, InRange a.shape e → ra.at' e = a.at' e := by
  have hSw := shape_wf v hw S hS
  have hown : ∀ p a, v.leafAt p = some a → ∃ ra, a.getitem (SA.indices S) = .ok ra ∧ ra.WF ∧ Same ra.shape a.shape ∧
      ∀ e, InRange a.shape e → ra.at' e = a.at' e := fun p a ha =>
    SA.getitem_own a (hw a (leafAt_mem_leaves ha)) S hSw (fun ax hax n hn => by rw [hfull p a ha ax hax]; exact hn)
  obtain ⟨r, h1, h2, h3⟩ := C87_getitem v hw hf hD S hS ((SA.indices S).map (fun q => (q.1, .leaf q.2)))
    (by
      intro q hq
      obtain ⟨q', _, rfl⟩ := List.mem_map.1 hq
      cases v <;> simp [Accepts])
    (by
      intro p a it ha hit
      rw [indexAt_leaves _ p hit]
      obtain ⟨ra, h, _⟩ := hown p a ha
      exact ⟨ra, h⟩)
  refine ⟨r, ?_, h2, fun p a ha => ?_⟩
  · unfold getIndices
    rw [hS]
    exact h1
  · obtain ⟨it, ra, q1, q2, q3⟩ := h3 p a ha
    rw [indexAt_leaves _ p q1] at q3
    obtain ⟨ra', k1, k2⟩ := hown p a ha
    rw [q3] at k1
    cases k1
    exact ⟨ra, q2, k2⟩

/-- **C112** (refuted for vectors). Component `x` has size 1 along `t`, component `y` has size 3: the indices of the vector are not indices of
its component `x`. -/
theorem C112_vector_refuted : exS.shape = .ok [("t", 3)] ∧ (exS.getIndices).isOk = false := by
  refine ⟨by decide, by decide +kernel⟩

end Comp

/-! ### Functions -/

namespace FA
variable {α β : Type}

/-- **C112** (functions on centers). If the inputs and the outputs have the same sizes along the axes which they share, `f[f.indices]` is `f`,
inputs and outputs.
Missing for the full property: functions on vertices (`C112_vertex_refuted`). -/
theorem C112_function_partial (f : FA α β) (hf : f.Pointwise) :
    ∃ r, f.getIndices = .ok r ∧ r.Pointwise ∧ Same r.inputs.shape f.inputs.shape ∧ Same r.outputs.shape f.outputs.shape ∧
      (∀ e, InRange f.inputs.shape e → r.inputs.at' e = f.inputs.at' e) ∧
      ∀ e, InRange f.outputs.shape e → r.outputs.at' e = f.outputs.at' e := by
  obtain ⟨c, v, s, h1, h2, h3, h4, h5, h6, h7, h8, h9, h10⟩ :=
    C52_axes f.inputs.shape f.outputs.shape (SA.wf_shape hf.1.1) (SA.wf_shape hf.1.2) hf.fine.2
  have hsize : ∀ ax n, get? s ax = some n → (∀ m, get? f.inputs.shape ax = some m → m = n) ∧
      ∀ m, get? f.outputs.shape ax = some m → m = n := by
    intro ax n hn
    obtain ⟨⟨q, hq, hqn⟩, _⟩ := h10 ax (hf.not_vertex ax) n hn
    simp only [List.mem_cons, List.not_mem_nil, or_false] at hq
    rcases hq with rfl | rfl
    · exact ⟨fun m hm => by rw [hm] at hqn; exact Option.some.inj hqn, fun m hm => (hf.2 ax n m hqn hm).symm⟩
    · exact ⟨fun m hm => hf.2 ax m n hm hqn, fun m hm => by rw [hm] at hqn; exact Option.some.inj hqn⟩
  obtain ⟨i, i1, i2, i3, i4⟩ := SA.getitem_own f.inputs hf.1.1 s h7 (fun ax hax n hn => by
    obtain ⟨m, hm⟩ := exists_get?_of_mem (d := f.inputs.shape) (by rw [SA.keys_shape hf.1.1]; exact hax)
    rw [hm, (hsize ax n hn).1 m hm])
  obtain ⟨o, o1, o2, o3, o4⟩ := SA.getitem_own f.outputs hf.1.2 s h7 (fun ax hax n hn => by
    obtain ⟨m, hm⟩ := exists_get?_of_mem (d := f.outputs.shape) (by rw [SA.keys_shape hf.1.2]; exact hax)
    rw [hm, (hsize ax n hn).2 m hm])
  refine ⟨⟨i, o⟩, ?_, ⟨⟨i2, o2⟩, fun ax m n hm hn => ?_⟩, i3, o3, i4, o4⟩
  · unfold getIndices
    have : f.shape = .ok s := h3
    rw [this]
    simp only [bind, Except.bind]
    rw [getitem_centers hf.fine (SA.itemWF_indices h7).1 (fun ax _ => hf.not_vertex ax), i1, o1]
    rfl
  · exact hf.2 ax m n (by rw [← i3 ax]; exact hm) (by rw [← o3 ax]; exact hn)

/-- **C112** (refuted for functions on vertices, such as histograms). A function whose inputs are on the vertices along some axis cannot be
indexed with its indices: `ValueError`. -/
theorem C112_vertex_refuted (f : FA α β) (hf : f.Fine) (ax : String) (hv : f.Vertex ax) : f.getIndices = .error .valueError := by
  obtain ⟨c, v, s, h1, _, h3, h4, h5, h6, h7, h8, _⟩ :=
    C52_axes f.inputs.shape f.outputs.shape (SA.wf_shape hf.1.1) (SA.wf_shape hf.1.2) hf.2
  obtain ⟨n, hn1, hn2⟩ := hv
  have hout : ax ∈ keys f.outputs.shape := mem_keys_of_get? hn2
  obtain ⟨m, hm⟩ := exists_get?_of_mem ((h8 ax).2 (Or.inr hout))
  unfold getIndices
  have : f.shape = .ok s := h3
  rw [this]
  simp only [bind, Except.bind]
  unfold getitem
  rw [fold_vertex _ _ c h1]
  · rfl
  · refine ⟨(ax, .arr (SA.arange ax m)), List.mem_filter.2 ⟨mem_of_get? (by rw [SA.get?_indices, hm]; rfl), ?_⟩, ?_, _, rfl⟩
    · have : ax ∈ f.axes := (mem_axesOf (SA.wf_shape hf.1.2) ax).2 (Or.inr hout)
      simpa using this
    · intro hc
      exact (List.nodup_append.1 h4).2.2 ax hc ax ((h6 ax).2 ⟨n, hn1, hn2⟩) rfl

end FA
end NA

/-! ### Examples -/

namespace NA
open Dict
open SA (InRange FitsIn)

/-- two rows of three columns -/
def exOwnGrid : SA Int := ⟨["x", "y"], ND.ofList [2, 3] [1, 2, 3, 4, 5, 6] 0⟩

theorem wf_exOwnGrid : exOwnGrid.WF := by decide

example : (exOwnGrid.getIndices).map (fun r => (r.axes, r.nd.shape, r.nd.toList)) = .ok (["x", "y"], [2, 3], [1, 2, 3, 4, 5, 6]) := by
  decide +kernel
example : ∃ r, exOwnGrid.getIndices = .ok r ∧ r.at' (fun ax => if ax = "y" then 2 else 1) = 6 := by
  obtain ⟨r, h1, _, _, h4⟩ := SA.C112_read exOwnGrid wf_exOwnGrid
  refine ⟨r, h1, ?_⟩
  rw [h4 _ (by
    intro ax n h
    have : get? [("x", 2), ("y", 3)] ax = some n := h
    rw [get?_cons, get?_cons] at this
    by_cases hx : "x" = ax
    · subst hx; simp at this; subst this; decide
    · by_cases hy : "y" = ax
      · subst hy; simp at this; subst this; decide
      · simp [hx, hy, get?_nil] at this)]
  decide +kernel
/-- the indices of a smaller shape, with an axis which the array does not have -/
example : (exOwnGrid.getitem (SA.indices [("z", 9), ("y", 2)])).map (fun r => (r.axes, r.nd.toList)) = .ok (["y", "x"], [1, 4, 2, 5]) := by
  decide +kernel
example : exOwnGrid.getitem (SA.indices [("y", 4)]) = .error .indexError :=
  (SA.C112_crop exOwnGrid wf_exOwnGrid [("y", 4)] (by decide)).2
    (fun ax => by rw [get?_cons]; by_cases h : "y" = ax <;> simp [h]) ⟨"y", 3, 4, rfl, rfl, by decide⟩
/-- writing a column -/
example : (exOwnGrid.setIndices ⟨["x"], ND.ofList [2] [10, 20] 0⟩).map (fun r => r.nd.toList) = .ok [10, 10, 10, 20, 20, 20] := by
  decide +kernel
/-- loops over the rows, the columns, and both -/
example : (exOwnGrid.copySlices ⟨["y", "x"], ND.ofList [3, 2] [0, 0, 0, 0, 0, 0] 0⟩ ["y"]).map (fun r => r.nd.toList) =
    .ok [1, 4, 2, 5, 3, 6] := by decide +kernel
example : ∃ r, exOwnGrid.copySlices ⟨["y", "x"], ND.ofList [3, 2] [0, 0, 0, 0, 0, 0] 0⟩ ["x", "z"] = .ok r ∧
    ∀ e, InRange exOwnGrid.shape e → r.at' e = exOwnGrid.at' e := by
  obtain ⟨r, h1, _, _, _, h5⟩ := SA.C112_loop exOwnGrid ⟨["y", "x"], ND.ofList [3, 2] [0, 0, 0, 0, 0, 0] 0⟩ wf_exOwnGrid (by decide)
    (fun ax => by
      show get? [("y", 3), ("x", 2)] ax = get? [("x", 2), ("y", 3)] ax
      rw [get?_cons, get?_cons, get?_cons, get?_cons]
      by_cases hx : "x" = ax
      · subst hx; rfl
      · by_cases hy : "y" = ax <;> simp [hx, hy]) ["x", "z"]
  exact ⟨r, h1, h5⟩

namespace UA

example : ∃ r, exLarge.getIndices = .ok r ∧ ∀ e, InRange exLarge.distribution.shape e → r.distribution.at' e = exLarge.distribution.at' e := by
  obtain ⟨r, h1, _, _, _, _, h6⟩ := C112_read_partial exLarge ⟨by decide, by decide, by decide⟩ [("x", 3)] rfl
    ⟨by decide +kernel, by decide +kernel⟩
  exact ⟨r, h1, h6⟩
example : (exLarge.setIndices (.plain ⟨["x"], ND.ofList [3] [7, 8, 9] 0⟩)).1.distribution.nd.toList = [7, 7, 8, 8, 9, 9] := by
  decide +kernel

end UA

namespace Comp

/-- a vector, one of whose components does not depend on `t` -/
def exOwn : Comp (SA Nat) := .node "Cartesian2d" [("x", .leaf (SA.scalar 7)), ("y", .leaf ⟨["t"], ND.ofList [3] [1, 2, 3] 0⟩)]

theorem full_exOwn (p : List String) (a : SA Nat) (h : exOwn.leafAt p = some a) : ∀ ax ∈ a.axes, get? a.shape ax = get? [("t", 3)] ax := by
  have hm := leafAt_mem_leaves h
  have : exOwn.leaves = [SA.scalar 7, ⟨["t"], ND.ofList [3] [1, 2, 3] 0⟩] := rfl
  rw [this] at hm
  simp only [List.mem_cons, List.not_mem_nil, or_false] at hm
  rcases hm with rfl | rfl <;> decide +kernel

example : ∃ r, exOwn.getIndices = .ok r ∧ exOwn.Similar r := by
  obtain ⟨r, h1, h2, _⟩ := C112_vector_partial exOwn
    (by
      intro a ha
      have : exOwn.leaves = [SA.scalar 7, ⟨["t"], ND.ofList [3] [1, 2, 3] 0⟩] := rfl
      rw [this] at ha
      simp only [List.mem_cons, List.not_mem_nil, or_false] at ha
      rcases ha with rfl | rfl <;> decide)
    (by simp [exOwn, Full, FullL]) (by simp [exOwn, Dicts, DictsL, Dict.WF, keys]) [("t", 3)] (by decide) full_exOwn
  exact ⟨r, h1, h2⟩
example : (exOwn.getIndices).map (fun r => r.leaves.map (fun a => a.nd.toList)) = .ok [[7], [1, 2, 3]] := by decide +kernel

end Comp

namespace FA

/-- a function of `x`, tabulated for two values of `z` -/
def exOwnFunction : FA Int Int := ⟨⟨["x"], ND.ofList [3] [10, 20, 30] 0⟩, ⟨["x", "z"], ND.ofList [3, 2] [1, 2, 3, 4, 5, 6] 0⟩⟩

theorem pointwise_exOwnFunction : exOwnFunction.Pointwise := by
  refine ⟨⟨by decide, by decide⟩, fun ax m n h1 h2 => ?_⟩
  have h1 : get? [("x", 3)] ax = some m := h1
  have h2 : get? [("x", 3), ("z", 2)] ax = some n := h2
  rw [get?_cons] at h1 h2
  by_cases hx : "x" = ax
  · simp [hx] at h1 h2; omega
  · simp [hx, get?_nil] at h1

example : ∃ r, exOwnFunction.getIndices = .ok r ∧ r.Pointwise := by
  obtain ⟨r, h1, h2, _⟩ := C112_function_partial exOwnFunction pointwise_exOwnFunction
  exact ⟨r, h1, h2⟩
example : (exOwnFunction.getIndices).map (fun r => (r.inputs.nd.toList, r.outputs.nd.toList)) =
    .ok ([10, 20, 30], [1, 2, 3, 4, 5, 6]) := by decide +kernel
/-- three bins -/
example : exF.getIndices = .error .valueError :=
  C112_vertex_refuted exF (fine_of_axes ⟨by decide, by decide⟩ (by decide)) "x" ⟨3, rfl, rfl⟩

end FA
end NA
