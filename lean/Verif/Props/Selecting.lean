import Verif.Props.Comparing
import Mathlib.Algebra.BigOperators.Group.List.Basic

/-!
# C57: where, clip, repeat, diff, take_along_axis
-/

namespace NA
open Dict

namespace SA
variable {α β γ : Type}

/-! ### where -/

/-- **C57** (`np.where`). The result has the broadcast named shape of the condition and both choices;
at each named index it is the element of `x` if the condition holds there and of `y` otherwise. -/
theorem C57_where (dflt : α) (c : SA Bool) (x y : SA α) (hc : c.WF) (hx : x.WF) (hy : y.WF) :
    (∃ s r, broadcastShapes [c.shape, x.shape, y.shape] = .ok s ∧ where' dflt c x y = .ok r ∧ r.WF ∧
      r.shape = s ∧ ∀ e, r.at' e = if c.atB e = true then x.atB e else y.atB e) ∨
    (Clash [c.shape, x.shape, y.shape] ∧ where' dflt c x y = .error .valueError) := by
  have hw : ∀ a ∈ [(⟨c.axes, c.nd.map .inl⟩ : SA (Bool ⊕ α)), ⟨x.axes, x.nd.map .inr⟩,
      ⟨y.axes, y.nd.map .inr⟩], a.WF := by
    intro a ha
    simp only [List.mem_cons, List.not_mem_nil, or_false] at ha
    rcases ha with rfl | rfl | rfl
    · exact hc
    · exact hx
    · exact hy
  have hss := wf_shapes hw
  cases hb : broadcastShapes [c.shape, x.shape, y.shape] with
  | error e =>
    right
    have hcl : Clash [c.shape, x.shape, y.shape] := (C01_broadcast_shapes_error_iff _ hss).1 ⟨e, hb⟩
    obtain ⟨e', he'⟩ := (C07_ufunc_error (wherePick dflt) _ hw).1.2 hcl
    refine ⟨hcl, ?_⟩
    unfold where'
    rw [he', (C07_ufunc_error (wherePick dflt) _ hw).2 e' he']
  | ok s =>
    left
    obtain ⟨r, hr⟩ := ufuncN_isOk hw (s := s) hb (wherePick dflt)
    obtain ⟨h1, h2, h3⟩ := ufuncN_ok hw hr
    refine ⟨s, r, rfl, hr, h1, ?_, fun e => ?_⟩
    · have h2' : broadcastShapes [c.shape, x.shape, y.shape] = .ok r.shape := h2
      rw [hb] at h2'
      injection h2' with h2'
      exact h2'.symm
    · rw [h3]
      rfl

example : ((where' 0 ⟨["x"], ND.ofList [2] [true, false] false⟩ exQ exP).map
    (fun r => (r.shape, r.nd.toList))) = .ok ([("x", 2), ("y", 3)], [10, 20, 30, 2, 2, 2]) := by decide

/-! ### clip -/

theorem clipBound_ok {s : Shape} (hs : Dict.WF s) {b : Option (SA α)} (hb : ∀ x, b = some x → x.WF)
    (hf : ∀ x, b = some x → FitsIn x.shape s) :
    ∃ o, clipBound s b = .ok o ∧
      ((b = none ∧ o = none) ∨ ∃ x v, b = some x ∧ o = some v ∧ ∀ e, v.get ((keys s).map e) = x.atB e) := by
  cases b with
  | none => exact ⟨none, rfl, .inl ⟨rfl, rfl⟩⟩
  | some x =>
    rcases C10_broadcast_to x (hb x rfl) s hs with ⟨_, r, hr, hrw, hrs, hre⟩ | ⟨h, _⟩
    · refine ⟨some r.nd, by unfold clipBound; simp only [bind, Except.bind, hr], .inr ⟨x, r.nd, rfl, rfl, fun e => ?_⟩⟩
      rw [← hre, at', (axes_nd_shape hrw hrs).1]
    · exact absurd (hf x rfl) h

/-- **C57** (`np.clip`). If the bounds can be broadcast to the array by name, the result has the shape
of the array, and each element is limited by the bounds at the same named index. -/
theorem C57_clip (mx mn : α → α → α) (a : SA α) (ha : a.WF) (lo hi : Option (SA α))
    (hlo : ∀ x, lo = some x → x.WF ∧ FitsIn x.shape a.shape)
    (hhi : ∀ x, hi = some x → x.WF ∧ FitsIn x.shape a.shape) :
    ∃ r, clip mx mn a lo hi = .ok r ∧ r.WF ∧ r.shape = a.shape ∧
      ∀ e, InRange a.shape e → ∃ y,
        (lo = none ∧ y = a.at' e ∨ ∃ l, lo = some l ∧ y = mx (a.at' e) (l.atB e)) ∧
        (hi = none ∧ r.at' e = y ∨ ∃ h, hi = some h ∧ r.at' e = mn y (h.atB e)) := by
  have hs := wf_shape ha
  rcases C10_broadcast_to a ha a.shape hs with ⟨_, v, hv, hvw, hvs, hve⟩ | ⟨h, _⟩
  swap
  · exact absurd (fun ax m hm => ⟨m, hm, .inl rfl⟩) h
  obtain ⟨l, hl, hl'⟩ := clipBound_ok hs (fun x hx => (hlo x hx).1) (fun x hx => (hlo x hx).2)
  obtain ⟨h, hh, hh'⟩ := clipBound_ok hs (fun x hx => (hhi x hx).1) (fun x hx => (hhi x hx).2)
  have hvn := axes_nd_shape hvw hvs
  have hmk := mk?_of_wf (nd := ND.clip mx mn v.nd l h) (axes := keys a.shape)
    (by simp [ND.ndim, ND.clip, hvn.2]) hs
  refine ⟨_, ?_, (mk?_ok hmk).2, shape_of_mk hs hvn.2, fun e he => ?_⟩
  · unfold clip
    simp only [bind, Except.bind, hv, hl, hh]
    exact hmk
  · have hva : v.nd.get ((keys a.shape).map e) = a.at' e := by
      rw [← atB_eq_at' ha he, ← hve, at', hvn.1]
    simp only [at'] at hva ⊢
    unfold ND.clip
    simp only [hva]
    rcases hl' with ⟨rfl, rfl⟩ | ⟨x, w, rfl, rfl, hx⟩
    · refine ⟨_, .inl ⟨rfl, rfl⟩, ?_⟩
      rcases hh' with ⟨rfl, rfl⟩ | ⟨x, w, rfl, rfl, hx⟩
      · exact .inl ⟨rfl, rfl⟩
      · exact .inr ⟨x, rfl, by simp only [hx]⟩
    · refine ⟨_, .inr ⟨x, rfl, rfl⟩, ?_⟩
      rcases hh' with ⟨rfl, rfl⟩ | ⟨y, w', rfl, rfl, hy⟩
      · exact .inl ⟨rfl, by simp only [hx]⟩
      · exact .inr ⟨y, rfl, by simp only [hx, hy]⟩

/-- **C57** (`np.clip`, error). A bound with an axis or a size which the array lacks raises
`ValueError`: the bounds never enlarge the result. -/
theorem C57_clip_error (mx mn : α → α → α) (a : SA α) (ha : a.WF) (lo hi : Option (SA α))
    (hlo : ∀ x, lo = some x → x.WF) (hhi : ∀ x, hi = some x → x.WF)
    (h : (∃ x, lo = some x ∧ ¬ FitsIn x.shape a.shape) ∨ ∃ x, hi = some x ∧ ¬ FitsIn x.shape a.shape) :
    clip mx mn a lo hi = .error .valueError := by
  have hs := wf_shape ha
  have hbad : ∀ x : SA α, x.WF → ¬ FitsIn x.shape a.shape →
      clipBound a.shape (some x) = .error .valueError := by
    intro x hx hf
    rcases C10_broadcast_to x hx a.shape hs with ⟨h, _⟩ | ⟨_, h⟩
    · exact absurd h hf
    · unfold clipBound; simp only [bind, Except.bind, h]
  rcases C10_broadcast_to a ha a.shape hs with ⟨_, v, hv, hvw, hvs, hve⟩ | ⟨h, _⟩
  swap
  · exact absurd (fun ax m hm => ⟨m, hm, .inl rfl⟩) h
  unfold clip
  simp only [bind, Except.bind, hv]
  by_cases hl : ∃ x, lo = some x ∧ ¬ FitsIn x.shape a.shape
  · obtain ⟨x, rfl, hx⟩ := hl
    rw [hbad x (hlo x rfl) hx]
  · obtain ⟨l, hl', _⟩ := clipBound_ok hs hlo (fun x hx => by
      by_contra hc; exact hl ⟨x, hx, hc⟩)
    rw [hl']
    obtain ⟨x, rfl, hx⟩ := h.resolve_left hl
    simp only
    rw [hbad x (hhi x rfl) hx]

example : ((clip max min exQ' (some ⟨["x"], ND.ofList [3] [8, 0, 0] 0⟩) (some (scalar 8))).map
    (fun r => (r.shape, r.nd.toList))) = .ok ([("x", 3), ("z", 1)], [8, 8, 8]) := by decide

/-! ### repeat -/

/-- Specification: the number of times each of the `n` positions is repeated. -/
def Counts (repeats : SA Nat) (n : Nat) (counts : List Nat) : Prop :=
  (repeats.axes = [] ∧ counts = List.replicate n (repeats.at' (fun _ => 0))) ∨
  (∃ ax, repeats.axes = [ax] ∧ repeats.shape = [(ax, 1)] ∧
    counts = List.replicate n (repeats.at' (fun _ => 0))) ∨
  (∃ ax, repeats.axes = [ax] ∧ repeats.shape = [(ax, n)] ∧
    counts = (List.range n).map (fun k => repeats.at' (fun _ => k)))

theorem repeatCounts_ok {repeats : SA Nat} (hr : repeats.WF) {n : Nat} {counts : List Nat}
    (h : repeatCounts repeats.nd n = .ok counts) : Counts repeats n counts := by
  obtain ⟨axes, nd⟩ := repeats
  have hl : nd.shape.length = axes.length := hr.1
  unfold repeatCounts at h
  simp only at h
  split at h
  · next hs =>
    injection h with h
    rw [hs] at hl
    left
    have : axes = [] := List.length_eq_zero_iff.1 hl.symm
    subst this
    exact ⟨rfl, h.symm⟩
  · next m hs =>
    rw [hs] at hl
    obtain ⟨ax, rfl⟩ := List.length_eq_one_iff.1 hl.symm
    split at h
    · next hm =>
      subst hm
      injection h with h
      right; left
      exact ⟨ax, rfl, by simp [shape, hs], h.symm⟩
    · split at h
      · next hm =>
        subst hm
        injection h with h
        right; right
        exact ⟨ax, rfl, by simp [shape, hs], h.symm⟩
      · cases h
  · cases h

theorem counts_length {repeats : SA Nat} {n : Nat} {counts : List Nat} (h : Counts repeats n counts) :
    counts.length = n := by
  rcases h with ⟨_, rfl⟩ | ⟨_, _, _, rfl⟩ | ⟨_, _, _, rfl⟩ <;> simp

/-- **C57** (`np.repeat`). The axes are unchanged; the size along the named axis is the total of the
counts, and the copies of position `i` are the block of `counts[i]` positions which follows the
copies of the positions before it. -/
theorem C57_repeat (a : SA α) (ha : a.WF) (repeats : SA Nat) (hr : repeats.WF) (axis : String) (n : Nat)
    (hn : get? a.shape axis = some n) (r : SA α) (h : repeat' a repeats axis = .ok r) :
    ∃ counts, Counts repeats n counts ∧ counts.length = n ∧ r.WF ∧ r.axes = a.axes ∧
      (∀ ax, get? r.shape ax = if ax = axis then some counts.sum else get? a.shape ax) ∧
      ∀ (i : Nat) (hi : i < counts.length) (k : Nat), k < counts[i] →
        ∀ e, e axis = (counts.take i).sum + k → r.at' e = a.at' (Function.update e axis i) := by
  have hax : axis ∈ a.axes := by rw [← keys_shape ha]; exact mem_keys_of_get? hn
  unfold repeat' at h
  rw [if_neg (by simpa using hax)] at h
  simp only [bind, Except.bind, pyTupleIndex, if_pos hax] at h
  have hnp : a.nd.shape.getD (a.axes.idxOf axis) 0 = n := by
    have := get?_shape_of_mem ha hax
    rw [hn] at this
    rw [shape_eq_map ha, getD_map_idxOf _ hax, sizeOf', hn]
    rfl
  rw [hnp] at h
  cases hc : repeatCounts repeats.nd n with
  | error e => rw [hc] at h; cases h
  | ok counts =>
    rw [hc] at h
    simp only at h
    obtain ⟨rfl, hrw⟩ := mk?_ok h
    have hcc := repeatCounts_ok hr hc
    refine ⟨counts, hcc, counts_length hcc, hrw, rfl, ?_, ?_⟩
    · intro ax
      by_cases hm : ax ∈ a.axes
      · rw [get?_shape_of_mem hrw hm]
        rw [shape_eq_map ha, map_update_set ha.2, getD_map_idxOf _ hm, Function.update_apply]
        by_cases hx : ax = axis
        · rw [if_pos hx, if_pos hx]
        · rw [if_neg hx, if_neg hx, sizeOf']
          rw [← keys_shape ha] at hm
          obtain ⟨m, hm'⟩ := exists_get?_of_mem hm
          rw [hm']
          rfl
      · rw [(get?_shape_none hrw).2 hm, (get?_shape_none ha).2 hm, if_neg]
        rintro rfl
        exact hm hax
    · intro i hi k hk e he
      simp only [at']
      rw [getD_map_idxOf e hax, he, locate_offset hi hk, map_update_set ha.2]

theorem counts_repeatCounts {repeats : SA Nat} (hr : repeats.WF) {n : Nat} {counts : List Nat}
    (h : Counts repeats n counts) : repeatCounts repeats.nd n = .ok counts := by
  obtain ⟨axes, nd⟩ := repeats
  have hl : nd.shape.length = axes.length := hr.1
  have hsz : ∀ ax m, axes = [ax] → (SA.mk axes nd).shape = [(ax, m)] → nd.shape = [m] := by
    rintro ax m rfl h2
    obtain ⟨k, hk⟩ := List.length_eq_one_iff.1 hl
    simp only [shape, hk, List.zip_cons_cons, List.zip_nil_right, List.cons.injEq, Prod.mk.injEq, true_and,
      and_true] at h2
    rw [hk, h2]
  unfold repeatCounts
  rcases h with ⟨h1, rfl⟩ | ⟨ax, h1, h2, rfl⟩ | ⟨ax, h1, h2, rfl⟩
  · have h1' : axes = [] := h1
    subst h1'
    have : nd.shape = [] := List.length_eq_zero_iff.1 hl
    simp only [this]
    rfl
  · have h1' : axes = [ax] := h1
    have hs := hsz ax 1 h1' h2
    subst h1'
    simp only [hs, if_pos]
    rfl
  · have h1' : axes = [ax] := h1
    have hs := hsz ax n h1' h2
    subst h1'
    simp only [hs]
    split
    · next hn => subst hn; rfl
    · rw [if_pos trivial]; rfl

/-- **C57** (`np.repeat`, when it succeeds). Along an axis of the array, `np.repeat` succeeds exactly if the counts
are one number, or one number for each position; otherwise it raises `ValueError`. -/
theorem C57_repeat_succeeds (a : SA α) (ha : a.WF) (repeats : SA Nat) (hr : repeats.WF) (axis : String) (n : Nat)
    (hn : get? a.shape axis = some n) :
    ((∃ counts, Counts repeats n counts) → ∃ r, repeat' a repeats axis = .ok r) ∧
    ((¬ ∃ counts, Counts repeats n counts) → repeat' a repeats axis = .error .valueError) := by
  have hax : axis ∈ a.axes := by rw [← keys_shape ha]; exact mem_keys_of_get? hn
  have hnp : a.nd.shape.getD (a.axes.idxOf axis) 0 = n := by
    rw [shape_eq_map ha, getD_map_idxOf _ hax, sizeOf', hn]
    rfl
  have hrep : repeat' a repeats axis = (do
      let counts ← repeatCounts repeats.nd n
      mk? ⟨a.nd.shape.set (a.axes.idxOf axis) counts.sum,
        fun i => a.nd.get (i.set (a.axes.idxOf axis) (ND.locate counts (i.getD (a.axes.idxOf axis) 0)).1)⟩ a.axes) := by
    unfold repeat'
    rw [if_neg (by simpa using hax)]
    simp only [bind, Except.bind, pyTupleIndex, if_pos hax]
    rw [hnp]
  rw [hrep]
  constructor
  · rintro ⟨counts, hc⟩
    rw [counts_repeatCounts hr hc]
    exact ⟨_, mk?_of_wf (by simpa [ND.ndim] using ha.1) ha.2⟩
  · intro hc
    cases h : repeatCounts repeats.nd n with
    | ok counts => exact absurd ⟨counts, repeatCounts_ok hr h⟩ hc
    | error e =>
      have : e = .valueError := by
        unfold repeatCounts at h
        split at h
        · cases h
        · split at h
          · cases h
          · split at h
            · cases h
            · cases h; rfl
        · cases h; rfl
      rw [this]
      rfl

/-- `repeat` by one count `m` sends position `k` to `k / m`. -/
theorem C57_repeat_uniform (a : SA α) (ha : a.WF) (m : Nat) (hm : 0 < m) (axis : String) (n : Nat)
    (hn : get? a.shape axis = some n) :
    ∃ r, repeat' a (scalar m) axis = .ok r ∧ r.WF ∧ r.axes = a.axes ∧
      (∀ ax, get? r.shape ax = if ax = axis then some (n * m) else get? a.shape ax) ∧
      ∀ e, e axis < n * m → r.at' e = a.at' (Function.update e axis (e axis / m)) := by
  have hax : axis ∈ a.axes := by rw [← keys_shape ha]; exact mem_keys_of_get? hn
  obtain ⟨r, hr⟩ : ∃ r, repeat' a (scalar m) axis = .ok r := by
    unfold repeat'
    rw [if_neg (by simpa using hax)]
    simp only [bind, Except.bind, pyTupleIndex, if_pos hax, repeatCounts, scalar, ND.scalar]
    exact ⟨_, mk?_of_wf (by simpa [ND.ndim] using ha.1) ha.2⟩
  obtain ⟨counts, hc, hl, hrw, hra, hrs, hre⟩ := C57_repeat a ha (scalar m) ⟨rfl, List.nodup_nil⟩ axis n hn r hr
  have hcr : counts = List.replicate n m := by
    rcases hc with ⟨_, h⟩ | ⟨_, h, _⟩ | ⟨_, h, _⟩
    · exact h
    · cases h
    · cases h
  subst hcr
  refine ⟨r, hr, hrw, hra, ?_, ?_⟩
  · intro ax; rw [hrs]; simp
  · intro e he
    have hi : e axis / m < n := by rw [Nat.div_lt_iff_lt_mul hm]; exact he
    refine hre (e axis / m) (by simpa using hi) (e axis % m) (by simpa using Nat.mod_lt _ hm) e ?_
    rw [List.take_replicate, List.sum_replicate, Nat.min_eq_left (by omega)]
    rw [show (e axis / m) • m = m * (e axis / m) from Nat.mul_comm _ _]
    exact (Nat.div_add_mod _ _).symm

/-- **C57** (`np.repeat`, errors). -/
theorem C57_repeat_error (a : SA α) (repeats : SA Nat) (axis : String) (h : axis ∉ a.axes) :
    repeat' a repeats axis = .error .valueError := by
  unfold repeat'
  rw [if_pos h]

example : ((repeat' exQ' ⟨["r"], ND.ofList [3] [2, 0, 1] 0⟩ "x").map (fun r => (r.shape, r.nd.toList))) =
    .ok ([("x", 3), ("z", 1)], [7, 7, 9]) := by decide

/-! ### diff -/

/-- Specification: the elements along an axis through a named index. -/
def line (a : SA α) (ax : String) (e : String → Nat) : List α :=
  (List.range (a.sizeOf' ax)).map (fun k => a.at' (Function.update e ax k))

/-- Specification: differences of neighbours. -/
def diffList (sub : α → α → α) (l : List α) : List α := List.zipWith sub l.tail l

theorem range_locate {δ : Type} (sz : δ → Nat) (g : δ → Nat → β) (d : δ) (arrs : List δ) :
    (List.range (arrs.map sz).sum).map (fun k =>
      g (arrs.getD (ND.locate (arrs.map sz) k).1 d) (ND.locate (arrs.map sz) k).2) =
    (arrs.map (fun b => (List.range (sz b)).map (g b))).flatten := by
  induction arrs with
  | nil => rfl
  | cons b l ih =>
    rw [List.map_cons, List.sum_cons, List.range_add, List.map_append, List.map_cons, List.flatten_cons]
    congr 1
    · apply List.map_congr_left
      intro k hk
      rw [List.mem_range] at hk
      rw [ND.locate, if_pos hk]
      rfl
    · rw [List.map_map, ← ih]
      apply List.map_congr_left
      intro k _
      simp only [Function.comp]
      rw [ND.locate, if_neg (by omega)]
      rw [show sz b + k - sz b = k by omega]
      simp

theorem getD_shape {a : SA α} (ha : a.WF) {ax : String} (hax : ax ∈ a.axes) :
    a.nd.shape.getD (a.axes.idxOf ax) 0 = a.sizeOf' ax := by
  rw [shape_eq_map ha, getD_map_idxOf _ hax]

theorem sizeOf'_mk {axes : List String} (hn : axes.Nodup) {sz : String → Nat} {nd : ND α}
    (hs : nd.shape = axes.map sz) {ax : String} (hax : ax ∈ axes) :
    sizeOf' (⟨axes, nd⟩ : SA α) ax = sz ax := by
  have hw : (⟨axes, nd⟩ : SA α).WF := ⟨by simp [ND.ndim, hs], hn⟩
  rw [← getD_shape hw hax]
  simp only
  rw [hs, getD_map_idxOf _ hax]

/-- Concatenation of arrays with the same axes. -/
theorem concat_line {axes : List String} (hn : axes.Nodup) {ax : String} (hax : ax ∈ axes)
    {sz : String → Nat} {arrs : List (SA α)} (hne : arrs ≠ []) (hw : ∀ b ∈ arrs, b.WF)
    (hbx : ∀ b ∈ arrs, b.axes = axes) (hsz : ∀ b ∈ arrs, ∀ x ∈ axes, x ≠ ax → b.sizeOf' x = sz x) :
    ∃ nd, ND.concat (axes.idxOf ax) (arrs.map SA.nd) = .ok nd ∧
      nd.shape = axes.map (Function.update sz ax (arrs.map (fun b => b.sizeOf' ax)).sum) ∧
      ∀ e, line ⟨axes, nd⟩ ax e = (arrs.map (fun b => line b ax e)).flatten := by
  obtain ⟨b, l, rfl⟩ : ∃ b l, arrs = b :: l := by
    cases arrs with
    | nil => exact absurd rfl hne
    | cons b l => exact ⟨b, l, rfl⟩
  have hsh : ∀ c ∈ b :: l, c.nd.shape = axes.map (Function.update sz ax (c.sizeOf' ax)) := by
    intro c hc
    rw [shape_eq_map (hw c hc), hbx c hc]
    apply List.map_congr_left
    intro x hx
    rw [Function.update_apply]
    by_cases hxx : x = ax
    · rw [if_pos hxx, hxx]
    · rw [if_neg hxx, hsz c hc x hx hxx]
  have hsizes : ((b :: l).map SA.nd).map (fun v => v.shape.getD (axes.idxOf ax) 0) =
      (b :: l).map (fun c => c.sizeOf' ax) := by
    rw [List.map_map]
    apply List.map_congr_left
    intro c hc
    simp only [Function.comp]
    rw [← hbx c hc]
    exact getD_shape (hw c hc) (by rw [hbx c hc]; exact hax)
  set sizes := (b :: l).map (fun c => c.sizeOf' ax) with hsd
  have hcat : ND.concat (axes.idxOf ax) ((b :: l).map SA.nd) =
      .ok ⟨axes.map (Function.update sz ax sizes.sum), fun i =>
        (((b :: l).map SA.nd).getD (ND.locate sizes (i.getD (axes.idxOf ax) 0)).1 b.nd).get
          (i.set (axes.idxOf ax) (ND.locate sizes (i.getD (axes.idxOf ax) 0)).2)⟩ := by
    rw [List.map_cons, ND.concat, if_pos]
    · rw [← List.map_cons (f := SA.nd), hsizes, hsh b (by simp)]
      dsimp only
      rw [map_update_set hn, Function.update_idem]
    · refine ⟨by rw [ND.ndim, hsh b (by simp), List.length_map]; exact List.idxOf_lt_length_of_mem hax, ?_⟩
      intro c hc
      obtain ⟨d, hd, rfl⟩ := List.mem_map.1 hc
      rw [hsh b (by simp), hsh d (by simp [hd]), map_update_set hn, map_update_set hn,
        Function.update_idem, Function.update_idem]
  refine ⟨_, hcat, rfl, fun e => ?_⟩
  unfold line
  rw [sizeOf'_mk hn rfl hax, Function.update_self]
  rw [← range_locate (fun c : SA α => c.sizeOf' ax) (fun c k => c.at' (Function.update e ax k)) b (b :: l)]
  rw [← hsd]
  apply List.map_congr_left
  intro k hk
  rw [List.mem_range] at hk
  simp only [at']
  rw [getD_map_idxOf _ hax, Function.update_self]
  obtain ⟨i, hi, k', hk', rfl⟩ := locate_lt hk
  rw [locate_offset hi hk']
  have hi' : i < (b :: l).length := by simpa [hsd] using hi
  simp only
  rw [map_update_set hn, Function.update_idem, List.getD_eq_getElem _ _ (by simpa using hi'),
    List.getD_eq_getElem _ _ hi', List.getElem_map, hbx _ (List.getElem_mem hi')]

theorem diff1_line {axes : List String} (hn : axes.Nodup) {ax : String} (hax : ax ∈ axes)
    {sz : String → Nat} {v : ND α} (hs : v.shape = axes.map sz) (sub : α → α → α) :
    ∃ w, ND.diff1 sub (axes.idxOf ax) v = .ok w ∧
      w.shape = axes.map (Function.update sz ax (sz ax - 1)) ∧
      ∀ e, line ⟨axes, w⟩ ax e = diffList sub (line ⟨axes, v⟩ ax e) := by
  unfold ND.diff1
  rw [if_pos (by rw [ND.ndim, hs, List.length_map]; exact List.idxOf_lt_length_of_mem hax)]
  have hsh : v.shape.set (axes.idxOf ax) (v.shape.getD (axes.idxOf ax) 0 - 1) =
      axes.map (Function.update sz ax (sz ax - 1)) := by
    rw [hs, getD_map_idxOf _ hax, map_update_set hn]
  refine ⟨_, rfl, hsh, fun e => ?_⟩
  unfold line diffList
  rw [sizeOf'_mk hn hsh hax, sizeOf'_mk hn hs hax, Function.update_self]
  apply List.ext_getElem
  · simp
  · intro i h1 h2
    simp only [List.length_map, List.length_range] at h1
    rw [List.getElem_zipWith, List.getElem_tail, List.getElem_map, List.getElem_map, List.getElem_map,
      List.getElem_range, List.getElem_range]
    simp only [at']
    rw [getD_map_idxOf _ hax, Function.update_self, map_update_set hn, Function.update_idem]
    simp

theorem diffN_line {axes : List String} (hn : axes.Nodup) {ax : String} (hax : ax ∈ axes)
    (sub : α → α → α) (n : Nat) {sz : String → Nat} {v : ND α} (hs : v.shape = axes.map sz) :
    ∃ w, (List.range n).foldlM (fun v _ => ND.diff1 sub (axes.idxOf ax) v) v = .ok w ∧
      w.shape = axes.map (Function.update sz ax (sz ax - n)) ∧
      ∀ e, line ⟨axes, w⟩ ax e = (diffList sub)^[n] (line ⟨axes, v⟩ ax e) := by
  induction n with
  | zero =>
    refine ⟨v, rfl, ?_, fun e => rfl⟩
    rw [Nat.sub_zero, Function.update_eq_self]
    exact hs
  | succ n ih =>
    obtain ⟨w, h1, h2, h3⟩ := ih
    obtain ⟨w', h4, h5, h6⟩ := diff1_line hn hax h2 sub
    refine ⟨w', ?_, ?_, fun e => ?_⟩
    · rw [List.range_succ, List.foldlM_append, h1]
      simp only [bind, Except.bind, List.foldlM_cons, List.foldlM_nil, h4]
      rfl
    · rw [h5, Function.update_idem, Function.update_self]
      rfl
    · rw [h6, h3, Function.iterate_succ_apply']

/-- the optional end of `np.diff`, as a line: nothing or one element -/
def endLine (b : Option (SA α)) (e : String → Nat) (ax : String) : List α :=
  match b with
  | none => []
  | some x => [x.atB (Function.update e ax 0)]

theorem diffEnd_ok {s : Shape} (hs : Dict.WF s) {ax : String} (hax : get? s ax = some 1)
    {b : Option (SA α)} (hb : ∀ x, b = some x → x.WF ∧ FitsIn x.shape s) :
    ∃ l : List (SA α), diffEnd s b = .ok (l.map SA.nd) ∧
      (∀ c ∈ l, c.WF ∧ c.shape = s) ∧
      ∀ e, (l.map (fun c => line c ax e)).flatten = endLine b e ax := by
  cases b with
  | none => exact ⟨[], rfl, by simp, fun e => rfl⟩
  | some x =>
    rcases C10_broadcast_to x (hb x rfl).1 s hs with ⟨_, r, hr, hrw, hrs, hre⟩ | ⟨h, _⟩
    · refine ⟨[r], by unfold diffEnd; simp only [bind, Except.bind, hr]; rfl, ?_, fun e => ?_⟩
      · intro c hc
        rw [List.mem_singleton] at hc
        subst hc
        exact ⟨hrw, hrs⟩
      · simp only [List.map_cons, List.map_nil, List.flatten_cons, List.flatten_nil, List.append_nil]
        unfold line endLine sizeOf'
        rw [hrs, hax]
        simp [hre]
    · exact absurd (hb x rfl).2 h

/-- the shape to which the ends are broadcast: the shape of the array with one position along the axis -/
def endsShape (a : SA α) (ax : String) : Shape :=
  a.shape.map (fun q => (q.1, if q.1 = ax then 1 else q.2))

theorem get?_endsShape (a : SA α) (ax x : String) :
    get? (endsShape a ax) x = (get? a.shape x).map (fun n => if x = ax then 1 else n) := by
  unfold endsShape
  generalize a.shape = s
  induction s with
  | nil => rfl
  | cons p s ih =>
    rw [List.map_cons, get?_cons, get?_cons]
    simp only
    split
    · next h => subst h; rfl
    · exact ih

theorem keys_endsShape (a : SA α) (ax : String) : keys (endsShape a ax) = keys a.shape := by
  unfold endsShape keys
  rw [List.map_map]
  rfl

/-- **C57** (`np.diff`). With `n ≥ 1`, and ends which can be broadcast by name to one position along
the axis: the axes and the other sizes are unchanged, and along the axis, through every named index,
the line is the `n`-fold difference of the line of the array with the ends attached. -/
theorem C57_diff (sub : α → α → α) (a : SA α) (ha : a.WF) (axis : String) (m : Nat)
    (hm : get? a.shape axis = some m) (n : Nat) (hn : n ≠ 0) (prepend append : Option (SA α))
    (hp : ∀ x, prepend = some x → x.WF ∧ FitsIn x.shape (endsShape a axis))
    (hq : ∀ x, append = some x → x.WF ∧ FitsIn x.shape (endsShape a axis)) :
    ∃ r, diff sub a axis n prepend append = .ok r ∧ r.WF ∧ r.axes = a.axes ∧
      (∀ ax, get? r.shape ax = if ax = axis then
        some (prepend.toList.length + m + append.toList.length - n) else get? a.shape ax) ∧
      ∀ e, line r axis e =
        (diffList sub)^[n] (endLine prepend e axis ++ line a axis e ++ endLine append e axis) := by
  have hax : axis ∈ a.axes := by rw [← keys_shape ha]; exact mem_keys_of_get? hm
  have hes : Dict.WF (endsShape a axis) := by
    unfold Dict.WF; rw [keys_endsShape]; exact wf_shape ha
  have he1 : get? (endsShape a axis) axis = some 1 := by rw [get?_endsShape, hm]; simp
  obtain ⟨l1, h1, h1', h1''⟩ := diffEnd_ok hes he1 hp
  obtain ⟨l2, h2, h2', h2''⟩ := diffEnd_ok hes he1 hq
  have hprops : ∀ b ∈ l1 ++ [a] ++ l2, b.WF ∧ b.axes = a.axes ∧
      ∀ x ∈ a.axes, x ≠ axis → b.sizeOf' x = a.sizeOf' x := by
    intro b hb
    have hend : b.WF ∧ b.shape = endsShape a axis → b.WF ∧ b.axes = a.axes ∧
        ∀ x ∈ a.axes, x ≠ axis → b.sizeOf' x = a.sizeOf' x := by
      rintro ⟨hbw, hbs⟩
      refine ⟨hbw, by rw [← keys_shape hbw, hbs, keys_endsShape, keys_shape ha], fun x hx hne => ?_⟩
      unfold sizeOf'
      rw [hbs, get?_endsShape]
      cases get? a.shape x with
      | none => rfl
      | some k => simp [hne]
    rcases List.mem_append.1 hb with hb | hb
    · rcases List.mem_append.1 hb with hb | hb
      · exact hend (h1' b hb)
      · rw [List.mem_singleton] at hb
        subst hb
        exact ⟨ha, rfl, fun _ _ _ => rfl⟩
    · exact hend (h2' b hb)
  obtain ⟨v, hv, hvs, hvl⟩ := concat_line ha.2 hax (sz := a.sizeOf') (arrs := l1 ++ [a] ++ l2) (by simp)
    (fun b hb => (hprops b hb).1) (fun b hb => (hprops b hb).2.1) (fun b hb => (hprops b hb).2.2)
  obtain ⟨w, hw, hws, hwl⟩ := diffN_line ha.2 hax sub n hvs
  have hmk := mk?_of_wf (nd := w) (axes := a.axes) (by rw [ND.ndim, hws, List.length_map]) ha.2
  have hlens : ∀ (b : Option (SA α)) (l : List (SA α)),
      (∀ c ∈ l, c.WF ∧ c.shape = endsShape a axis) → diffEnd (endsShape a axis) b = .ok (l.map SA.nd) →
      (l.map (fun c => c.sizeOf' axis)).sum = b.toList.length := by
    intro b l hl hd
    have hone : l.map (fun c => c.sizeOf' axis) = List.replicate l.length 1 := by
      apply List.ext_getElem
      · simp
      · intro i hi1 hi2
        rw [List.length_map] at hi1
        rw [List.getElem_map, List.getElem_replicate, sizeOf', (hl _ (List.getElem_mem hi1)).2, he1]
        rfl
    rw [hone, List.sum_replicate]
    cases b with
    | none =>
      simp only [diffEnd] at hd
      injection hd with hd
      have : l = [] := by cases l with
        | nil => rfl
        | cons c l => simp at hd
      subst this
      rfl
    | some x =>
      simp only [diffEnd, bind, Except.bind] at hd
      cases hb : x.broadcastTo (endsShape a axis) with
      | error e => rw [hb] at hd; cases hd
      | ok r =>
        rw [hb] at hd
        injection hd with hd
        have := congrArg List.length hd
        simp at this
        simp [← this]
  refine ⟨⟨a.axes, w⟩, ?_, (mk?_ok hmk).2, rfl, ?_, ?_⟩
  · unfold diff
    rw [if_neg (by rw [keys_shape ha]; simpa using hax)]
    simp only [bind, Except.bind]
    rw [show (List.map (fun q => (q.1, if q.1 = axis then 1 else q.2)) a.shape) = endsShape a axis from rfl]
    rw [h1, h2]
    simp only [keys_shape ha, pyTupleIndex, if_pos hax, if_neg hn]
    rw [show l1.map SA.nd ++ [a.nd] ++ l2.map SA.nd = (l1 ++ [a] ++ l2).map SA.nd by simp, hv]
    simp only [hw]
    exact hmk
  · intro ax
    have hWF : (⟨a.axes, w⟩ : SA α).WF := (mk?_ok hmk).2
    by_cases hmx : ax ∈ a.axes
    · rw [← keys_shape ha] at hmx
      obtain ⟨k, hk⟩ := exists_get?_of_mem hmx
      rw [keys_shape ha] at hmx
      have hsome : get? (shape (⟨a.axes, w⟩ : SA α)) ax = some (sizeOf' (⟨a.axes, w⟩ : SA α) ax) := by
        have : ax ∈ keys (shape (⟨a.axes, w⟩ : SA α)) := by rw [keys_shape hWF]; exact hmx
        obtain ⟨j, hj⟩ := exists_get?_of_mem this
        unfold sizeOf'
        rw [hj]
        rfl
      rw [hsome, sizeOf'_mk ha.2 hws hmx, Function.update_apply]
      by_cases hx : ax = axis
      · rw [if_pos hx, if_pos hx, Function.update_self]
        congr 2
        rw [List.map_append, List.map_append, List.sum_append, List.sum_append,
          hlens prepend l1 h1' h1, hlens append l2 h2' h2]
        simp only [List.map_cons, List.map_nil, List.sum_cons, List.sum_nil, Nat.add_zero]
        rw [sizeOf', hm]
        rfl
      · rw [if_neg hx, if_neg hx, Function.update_of_ne hx, sizeOf', hk]
        rfl
    · rw [(get?_shape_none hWF).2 hmx, (get?_shape_none ha).2 hmx, if_neg]
      rintro rfl
      exact hmx hax
  · intro e
    rw [hwl, hvl, List.map_append, List.map_append, List.flatten_append, List.flatten_append, h1'', h2'']
    simp

/-- **C57** (`np.diff`, errors). `ValueError` if the array lacks the axis. -/
theorem C57_diff_error (sub : α → α → α) (a : SA α) (ha : a.WF) (axis : String) (n : Nat)
    (prepend append : Option (SA α)) (h : axis ∉ a.axes) :
    diff sub a axis n prepend append = .error .valueError := by
  unfold diff
  rw [if_pos (by rw [keys_shape ha]; exact h)]

/-- With `n = 0` and no ends nothing changes. -/
theorem C57_diff_zero (sub : α → α → α) (a : SA α) (ha : a.WF) (axis : String) (h : axis ∈ a.axes) :
    diff sub a axis 0 none none = .ok a := by
  unfold diff
  rw [if_neg (by rw [keys_shape ha]; simpa using h)]
  simp only [bind, Except.bind, diffEnd, keys_shape ha, pyTupleIndex, if_pos h, if_true]
  exact mk?_of_wf ha.1 ha.2

example : ((diff (· - ·) (⟨["z", "x"], ND.ofList [2, 3] [1, 4, 9, 0, 5, 7] 0⟩ : SA Int) "x" 1
    (some (scalar 0)) none).map (fun r => (r.shape, r.nd.toList))) =
    .ok ([("z", 2), ("x", 3)], [1, 3, 5, 0, 5, 2]) := by decide
example : ((diff (· - ·) (⟨["z", "x"], ND.ofList [2, 3] [1, 4, 9, 0, 5, 7] 0⟩ : SA Int) "x" 2
    none none).map (fun r => (r.shape, r.nd.toList))) = .ok ([("z", 2), ("x", 1)], [2, -3]) := by decide

/-- Differences of running totals. -/
theorem diffList_prefix_sums {G : Type} [AddCommGroup G] (l : List G) :
    diffList (· - ·) ((List.range l.length).map (fun k => (l.take (k + 1)).sum)) = l.tail := by
  unfold diffList
  apply List.ext_getElem
  · simp
  · intro i h1 h2
    rw [List.length_tail] at h2
    rw [List.getElem_zipWith, List.getElem_tail, List.getElem_tail, List.getElem_map, List.getElem_map,
      List.getElem_range, List.getElem_range, List.sum_take_succ l (i + 1) (by omega)]
    rw [add_sub_cancel_left]

/-- **C57** (`np.diff` after `np.cumsum`). The differences of the running totals along an axis are the
elements of the array without the first, through every in-range named index. -/
theorem C57_diff_cumsum {G : Type} [AddCommGroup G] (a : SA G) (ha : a.WF) (axis : String) (m : Nat)
    (hm : get? a.shape axis = some m) :
    ∃ c r, cumulative List.sum a (some [axis]) none = .ok c ∧
      diff (· - ·) c axis 1 none none = .ok r ∧ r.axes = a.axes ∧
      ∀ e, line r axis e = (line a axis e).tail := by
  obtain ⟨c, hc, hcw, hca, hcs, hce⟩ := C19_cumulative_partial a ha List.sum axis m hm none (by simp)
  obtain ⟨r, hr, hrw, hra, hrs, hre⟩ := C57_diff (· - ·) c hcw axis m (by rw [hcs]; exact hm) 1 (by simp)
    none none (by simp) (by simp)
  refine ⟨c, r, hc, hr, by rw [hra, hca], fun e => ?_⟩
  rw [hre]
  simp only [endLine, List.nil_append, List.append_nil, Function.iterate_one]
  rw [← diffList_prefix_sums]
  congr 1
  have hla : (line a axis e).length = m := by simp [line, sizeOf', hm]
  rw [hla]
  unfold line
  rw [show c.sizeOf' axis = m by unfold sizeOf'; rw [hcs, hm]; rfl,
    show a.sizeOf' axis = m by unfold sizeOf'; rw [hm]; rfl]
  apply List.map_congr_left
  intro k hk
  rw [List.mem_range] at hk
  rw [hce _ (by rw [Function.update_self]; exact hk), Function.update_self, ← List.map_take, List.take_range,
    Nat.min_eq_left (by omega)]
  simp only [Function.update_idem]

/-! ### take_along_axis -/

/-- **C57** (`np.take_along_axis`). If the array has the axis (of size `n`), the other axes broadcast by
name to `s` and all the indices are in range, then the result has the named axis first, with as many
positions as the index array (one if it lacks the axis), and then the axes of `s`; each element is
read at the position given by the index array at the same named index, negative ones counting from
the end. -/
theorem C57_take_along_axis (arr : SA α) (indices : SA Int) (ha : arr.WF) (hi : indices.WF)
    (axis : String) (n : Nat) (hn : get? arr.shape axis = some n) (s : Shape)
    (hs : broadcastShapes [arr.shape.erase axis, indices.shape.erase axis] = .ok s) :
    (∀ e, InRange indices.shape e → ND.ValidIndex n (indices.at' e)) ∧
      (∃ r, takeAlongAxis arr indices axis = .ok r ∧ r.WF ∧
        r.shape = (axis, (get? indices.shape axis).getD 1) :: s ∧
        ∀ e, InRange r.shape e →
          r.at' e = arr.atB (Function.update e axis (ND.pyIndex n (indices.atB e)))) ∨
    ¬ (∀ e, InRange indices.shape e → ND.ValidIndex n (indices.at' e)) ∧
      takeAlongAxis arr indices axis = .error .indexError := by
  have hax : axis ∈ arr.axes := by rw [← keys_shape ha]; exact mem_keys_of_get? hn
  have hss : ∀ t ∈ [arr.shape.erase axis, indices.shape.erase axis], Dict.WF t := by
    intro t ht
    simp only [List.mem_cons, List.not_mem_nil, or_false] at ht
    rcases ht with rfl | rfl
    · exact wf_erase (wf_shape ha) _
    · exact wf_erase (wf_shape hi) _
  obtain ⟨hsw, hmem, hsz⟩ := C01_broadcast_shapes_ok _ hss s hs
  have hmem' : ∀ x, x ∈ keys s ↔ x ≠ axis ∧ (x ∈ arr.axes ∨ x ∈ indices.axes) := by
    intro x
    rw [hmem x]
    simp only [List.mem_cons, List.not_mem_nil, or_false, exists_eq_or_imp, exists_eq_left, keys_erase,
      List.mem_filter, decide_eq_true_eq, keys_shape ha, keys_shape hi]
    tauto
  have hnot : axis ∉ keys s := fun h => ((hmem' axis).1 h).1 rfl
  have hnd : (axis :: keys s).Nodup := List.nodup_cons.2 ⟨hnot, hsw⟩
  have hsub1 : arr.axes ⊆ axis :: keys s := by
    intro x hx
    by_cases h : x = axis
    · simp [h]
    · exact List.mem_cons_of_mem _ ((hmem' x).2 ⟨h, .inl hx⟩)
  have hsub2 : indices.axes ⊆ axis :: keys s := by
    intro x hx
    by_cases h : x = axis
    · simp [h]
    · exact List.mem_cons_of_mem _ ((hmem' x).2 ⟨h, .inr hx⟩)
  obtain ⟨v, hv⟩ := aligned_isOk ha hnd hsub1
  obtain ⟨w, hw⟩ := aligned_isOk hi hnd hsub2
  obtain ⟨_, hvs, hve⟩ := aligned_ok ha hnd hv
  obtain ⟨_, hws, hwe⟩ := aligned_ok hi hnd hw
  rw [List.map_cons, hn] at hvs
  rw [List.map_cons] at hws
  simp only [Option.getD_some] at hvs
  set m := (get? indices.shape axis).getD 1 with hm
  set vs := (keys s).map (fun ax => (get? arr.shape ax).getD 1) with hvsd
  set ws := (keys s).map (fun ax => (get? indices.shape ax).getD 1) with hwsd
  have hbs : ND.bshape vs ws = .ok (values s) := by
    have := bshapes_posShape hss hs
    simp only [ND.bshapes, List.map_cons, List.map_nil, List.foldlM_cons, List.foldlM_nil] at this
    have e1 : posShape (keys s) (arr.shape.erase axis) = vs := by
      unfold posShape
      rw [hvsd]
      apply List.map_congr_left
      intro x hx
      rw [get?_erase, if_neg (by rintro rfl; exact hnot hx)]
    have e2 : posShape (keys s) (indices.shape.erase axis) = ws := by
      unfold posShape
      rw [hwsd]
      apply List.map_congr_left
      intro x hx
      rw [get?_erase, if_neg (by rintro rfl; exact hnot hx)]
    rw [e1, e2] at this
    cases hq : ND.bshape vs ws with
    | error e => rw [hq] at this; cases this
    | ok q => rw [hq] at this; cases this; rfl
  have hcond : (∀ i ∈ ndIndices (m :: ws), -(n : Int) ≤ w.get i ∧ w.get i < n) ↔
      ∀ e, InRange indices.shape e → ND.ValidIndex n (indices.at' e) := by
    have hone : ∀ x, x ∉ indices.axes → (get? indices.shape x).getD 1 = 1 := by
      intro x hx
      rw [(get?_shape_none hi).2 hx]
      rfl
    constructor
    · intro h e he
      let e' : String → Nat := fun x => if x ∈ indices.axes then e x else 0
      have h1 : indices.at' e = w.get ((axis :: keys s).map e') := by
        rw [hwe]
        apply at'_congr
        intro x hx
        simp [e', hx]
      unfold ND.ValidIndex
      rw [h1]
      apply h
      rw [ND.mem_ndIndices_iff, hm, hwsd, ← List.map_cons (f := fun ax => (get? indices.shape ax).getD 1)]
      unfold ND.InRange
      rw [List.forall₂_map_left_iff, List.forall₂_map_right_iff, List.forall₂_same]
      intro x _
      by_cases hx : x ∈ indices.axes
      · have := hx
        rw [← keys_shape hi] at this
        obtain ⟨k, hk⟩ := exists_get?_of_mem this
        simp only [e', if_pos hx, hk, Option.getD_some]
        exact he x k hk
      · simp only [e', if_neg hx, hone x hx]
        omega
    · intro h i hi'
      rw [ND.mem_ndIndices_iff] at hi'
      have hl : i.length = (axis :: keys s).length := by
        rw [ND.inRange_length hi', hwsd]; simp
      have he : (axis :: keys s).map (envOf (axis :: keys s) i) = i := map_envOf hnd hl
      have hr : InRange indices.shape (envOf (axis :: keys s) i) := by
        intro x k hk
        have hx : x ∈ indices.axes := by rw [← keys_shape hi]; exact mem_keys_of_get? hk
        rw [← he, hm, hwsd, ← List.map_cons (f := fun ax => (get? indices.shape ax).getD 1)] at hi'
        unfold ND.InRange at hi'
        rw [List.forall₂_map_left_iff, List.forall₂_map_right_iff, List.forall₂_same] at hi'
        have := hi' x (hsub2 hx)
        rw [hk] at this
        exact this
      have := h _ hr
      rw [← hwe, he] at this
      exact this
  have htake : takeAlongAxis arr indices axis =
      (do let nd ← ND.takeAlong0 v w; mk? nd (axis :: keys s)) := by
    unfold takeAlongAxis
    rw [if_neg (by simpa using hax)]
    simp only [bind, Except.bind, hs, hv, hw]
  rw [htake]
  unfold ND.takeAlong0
  rw [hvs, hws]
  simp only [bind, Except.bind, hbs]
  by_cases hc : ∀ e, InRange indices.shape e → ND.ValidIndex n (indices.at' e)
  · left
    refine ⟨hc, ?_⟩
    rw [if_pos (hcond.2 hc)]
    simp only
    have hW : Dict.WF ((axis, m) :: s) := wf_cons.2 ⟨hnot, hsw⟩
    have hmk := mk?_of_wf (nd := (⟨m :: values s, fun i => v.get (ND.pyIndex n (w.get (i.headD 0 ::
      ND.clipIdx ws i.tail)) :: ND.clipIdx vs i.tail)⟩ : ND α)) (axes := axis :: keys s)
      (by simp [ND.ndim]) hnd
    refine ⟨_, hmk, (mk?_ok hmk).2, shape_of_mk hW (by simp), fun e he => ?_⟩
    replace he : InRange ((axis, m) :: s) e := by
      have h1 := shape_of_mk (α := α) hW (nd := ⟨m :: values s, fun i => v.get (ND.pyIndex n (w.get (i.headD 0 ::
        ND.clipIdx ws i.tail)) :: ND.clipIdx vs i.tail)⟩) (by simp)
      rw [← h1]
      exact he
    have hem : e axis < m := he axis m (by rw [get?_cons, if_pos rfl])
    have hidx : w.get (e axis :: ND.clipIdx ws ((keys s).map e)) = indices.atB e := by
      have h1 : e axis :: ND.clipIdx ws ((keys s).map e) = (axis :: keys s).map (fun x =>
          if x = axis then e axis else if (get? indices.shape x).getD 1 = 1 then 0 else e x) := by
        rw [List.map_cons, if_pos rfl]
        congr 1
        rw [hwsd]
        unfold ND.clipIdx
        rw [List.zipWith_map]
        simp only [List.zipWith_self]
        apply List.map_congr_left
        intro x hx
        rw [if_neg (c := x = axis) (by rintro rfl; exact hnot hx)]
      rw [h1, hwe]
      unfold atB
      apply at'_congr
      intro x hx
      rw [← keys_shape hi] at hx
      obtain ⟨k, hk⟩ := exists_get?_of_mem hx
      by_cases hxa : x = axis
      · subst hxa
        rw [if_pos rfl, hk]
        split
        · next h1 =>
          injection h1 with h1
          rw [hm, hk, h1] at hem
          simp at hem
          omega
        · rfl
      · rw [if_neg hxa, hk]
        simp
    have hvalid : ND.ValidIndex n (indices.atB e) := by
      unfold atB
      apply hc
      intro x k hk
      simp only
      rw [hk]
      split
      · next h1 => injection h1 with h1; omega
      · next h1 =>
        by_cases hxa : x = axis
        · subst hxa
          rw [hm, hk] at hem
          exact hem
        · have hxk : x ∈ keys s := (hmem' x).2 ⟨hxa, .inr (by rw [← keys_shape hi]; exact mem_keys_of_get? hk)⟩
          obtain ⟨q, hq⟩ := exists_get?_of_mem hxk
          have h2 := (hsz x q hq).2 k ⟨indices.shape.erase axis, by simp, by
            rw [get?_erase, if_neg (fun h => hxa h.symm)]; exact hk⟩
          have h3 := he x q (by rw [get?_cons, if_neg (fun h => hxa h.symm)]; exact hq)
          rcases h2 with h2 | h2
          · omega
          · exact absurd (by rw [h2]) h1
    have hlt := pyIndex_lt hvalid
    unfold atB at hlt
    simp only [at', List.map_cons, List.headD_cons, List.tail_cons]
    rw [hidx]
    have h1 : ND.pyIndex n (indices.atB e) :: ND.clipIdx vs ((keys s).map e) = (axis :: keys s).map (fun x =>
        if x = axis then ND.pyIndex n (indices.atB e) else if (get? arr.shape x).getD 1 = 1 then 0 else e x) := by
      rw [List.map_cons, if_pos rfl]
      congr 1
      rw [hvsd]
      unfold ND.clipIdx
      rw [List.zipWith_map]
      simp only [List.zipWith_self]
      apply List.map_congr_left
      intro x hx
      rw [if_neg (c := x = axis) (by rintro rfl; exact hnot hx)]
    rw [h1, hve]
    unfold atB
    apply at'_congr
    intro x hx
    rw [← keys_shape ha] at hx
    obtain ⟨k, hk⟩ := exists_get?_of_mem hx
    rw [Function.update_apply]
    by_cases hxa : x = axis
    · subst hxa
      rw [if_pos rfl, if_pos rfl, hn]
      split
      · next h => injection h with h; omega
      · rfl
    · rw [if_neg hxa, if_neg hxa, hk]
      simp
  · right
    refine ⟨hc, ?_⟩
    rw [if_neg (fun h => hc (hcond.1 h))]

/-- **C57** (`np.take_along_axis`, other errors). -/
theorem C57_take_along_axis_error (arr : SA α) (indices : SA Int) (ha : arr.WF) (hi : indices.WF)
    (axis : String) (h : axis ∉ arr.axes ∨ Clash [arr.shape.erase axis, indices.shape.erase axis]) :
    takeAlongAxis arr indices axis = .error .valueError := by
  unfold takeAlongAxis
  split
  · rfl
  · next hax =>
    have hss : ∀ t ∈ [arr.shape.erase axis, indices.shape.erase axis], Dict.WF t := by
      intro t ht
      simp only [List.mem_cons, List.not_mem_nil, or_false] at ht
      rcases ht with rfl | rfl
      · exact wf_erase (wf_shape ha) _
      · exact wf_erase (wf_shape hi) _
    obtain ⟨e, he⟩ := (C01_broadcast_shapes_error_iff _ hss).2 (h.resolve_left hax)
    rw [he, C01_broadcast_shapes_error_kind _ hss e he]
    rfl

example : ((takeAlongAxis (⟨["z", "x"], ND.ofList [2, 3] [1, 4, 9, 0, 5, 7] 0⟩ : SA Nat)
    ⟨["x", "y"], ND.ofList [1, 2] [-1, 0] 0⟩ "x").map (fun r => (r.shape, r.nd.toList))) =
    .ok ([("x", 1), ("z", 2), ("y", 2)], [9, 1, 7, 0]) := by decide
example : (takeAlongAxis (⟨["z", "x"], ND.ofList [2, 3] [1, 4, 9, 0, 5, 7] 0⟩ : SA Nat)
    ⟨["x", "y"], ND.ofList [1, 2] [-1, 3] 0⟩ "x").isOk = false := by decide

end SA
end NA
