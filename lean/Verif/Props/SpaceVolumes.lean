import Verif.Space.Volume
import Verif.Props.Spaces
import Verif.Props.CellAreas
import Mathlib.Tactic.LinearCombination

/-!
# C104: cell volumes of spaces and of random samples

`volume_cell` of an implicit array does not use its elements if the axis is the one of the space: it returns the step, an array
without that axis, instead of the differences of the elements.
-/

namespace NA
open Dict
open SA (FitsIn InRange)

variable {K : Type} [Field K] [LinearOrder K] [IsStrictOrderedRing K]

/-- A linear space of `n` points which can be made, along an axis which `start` and `stop` (with the broadcast shape `S`) do not
have; and its step is not a division by zero. -/
structure LinearSpace.Fine (s : LinearSpace K) (S : Shape) (n : Nat) : Prop where
  start : s.start.WF
  stop : s.stop.WF
  shape : broadcastShapes [s.start.shape, s.stop.shape] = .ok S
  axis : s.axis ∉ keys S
  num : s.num = n
  step : cells n s.endpoint s.centers ≠ 0

/-! ### Helpers -/

theorem join_pair {s t r : Shape} (hs : WF s) (ht : WF t) (h : broadcastShapes [s, t] = .ok r) :
    WF r ∧ ∀ x, joinOpt (get? s x) (get? t x) = some (get? r x) := by
  have h' : bcShape s t = .ok r := by
    have h : ([t].foldlM bcShape s : R Shape) = .ok r := h
    rw [List.foldlM_cons] at h
    cases hb : bcShape s t with
    | error e => rw [hb] at h; cases h
    | ok u => rw [hb] at h; cases h; rfl
  obtain ⟨h1, h2, _⟩ := bcShape_ok hs ht h'
  exact ⟨h2, h1⟩

theorem LinearSpace.Fine.step_eq {s : LinearSpace K} {S : Shape} {n : Nat} (h : s.Fine S n) :
    ∃ w, s.step = .ok w ∧ Full S w ∧
      ∀ e, w.atB e = spacing n s.endpoint s.centers (s.start.atB e) (s.stop.atB e) := by
  obtain ⟨w, w1, w2, w3⟩ := step_ok h.start h.stop h.shape h.step
  exact ⟨w, by unfold LinearSpace.step; rw [h.num]; exact w1, w2, w3⟩

theorem LinearSpace.Fine.fits {s : LinearSpace K} {S : Shape} {n : Nat} (h : s.Fine S n) :
    Fits S s.start ∧ Fits S s.stop := fits_pair h.start h.stop h.shape

theorem LinearSpace.Fine.wf {s : LinearSpace K} {S : Shape} {n : Nat} (h : s.Fine S n) : WF S :=
  (join_pair (SA.wf_shape h.start) (SA.wf_shape h.stop) h.shape).1

/-- The elements of the explicit array, read as in a broadcast. -/
theorem LinearSpace.Fine.explicit_eq {s : LinearSpace K} {S : Shape} {n : Nat} (h : s.Fine S n) :
    ∃ r, s.explicit = .ok r ∧ r.WF ∧ (∀ ax, get? r.shape ax = if ax = s.axis then some n else get? S ax) ∧
      ∀ T e, FitsIn r.shape T → InRange T e → e s.axis < n →
        r.atB e = s.start.atB e + (if s.centers then spacing n s.endpoint s.centers (s.start.atB e) (s.stop.atB e) / 2 else 0) +
          (e s.axis : K) * spacing n s.endpoint s.centers (s.start.atB e) (s.stop.atB e) := by
  obtain ⟨r, r1, r2, r3, r4⟩ := C33_linspace s.start s.stop h.start h.stop S h.shape s.axis h.axis n s.endpoint s.centers
    (fun _ => h.step)
  refine ⟨r, by unfold LinearSpace.explicit; rw [h.num]; exact r1, r2, r3, fun T e hT he hn => ?_⟩
  have hsub : ∀ a : SA K, Fits S a → FitsIn a.shape r.shape := by
    intro a ha ax m hm
    obtain ⟨k, hk, hmk⟩ := ha.2 ax m hm
    refine ⟨k, ?_, hmk⟩
    rw [r3, if_neg]
    · exact hk
    · rintro rfl; exact h.axis (mem_keys_of_get? hk)
  have hc : ∀ a : SA K, Fits S a → a.atB (fun ax => if get? r.shape ax = some 1 then 0 else e ax) = a.atB e :=
    fun a ha => atB_clip ha.1 (hsub a ha) e
  have hax : (fun ax => if get? r.shape ax = some 1 then 0 else e ax) s.axis = e s.axis := by
    simp only [r3, if_true]
    split
    · next h1 => cases h1; omega
    · rfl
  have hin : InRange r.shape (fun ax => if get? r.shape ax = some 1 then 0 else e ax) := by
    intro ax m hm
    simp only [hm]
    split
    · next h1 => cases h1; omega
    · next h1 =>
      obtain ⟨k, hk, hmk⟩ := hT ax m hm
      have := he ax k hk
      rcases hmk with rfl | rfl
      · exact this
      · exact absurd rfl h1
  have := r4 _ hin
  simp only [hc _ h.fits.1, hc _ h.fits.2] at this
  have hr : r.atB e = r.at' (fun ax => if get? r.shape ax = some 1 then 0 else e ax) := rfl
  rw [hr, this]
  simp only at hax
  rw [hax]

/-! ### Spaces of numbers -/

/-- **C104** (linear spaces). Along its axis, the cell volume of a linear space is an array without that axis, and every difference
of neighbouring elements of the explicit array is equal to it; so many cells as there are intervals cover the distance from `start`
to `stop`. -/
theorem C104_linear_space (s : LinearSpace K) (S : Shape) (n : Nat) (h : s.Fine S n) :
    ∃ w r d, s.volumeCell s.explicit (some [s.axis]) = .ok w ∧ s.explicit = .ok r ∧ r.volumeCell (some [s.axis]) = .ok d ∧
      w.WF ∧ Same w.shape S ∧ d.WF ∧ (∀ ax, get? d.shape ax = if ax = s.axis then some (n - 1) else get? S ax) ∧
      (∀ e, InRange d.shape e → d.at' e = w.at' e) ∧
      ∀ e, InRange S e → (cells n s.endpoint s.centers : K) * w.at' e = s.stop.atB e - s.start.atB e := by
  obtain ⟨w, w1, w2, w3⟩ := h.step_eq
  obtain ⟨r, r1, r2, r3, r4⟩ := h.explicit_eq
  have hr : get? r.shape s.axis = some n := by rw [r3, if_pos rfl]
  obtain ⟨d, d1, d2, _, d4, d5⟩ := FA.diff_at r r2 s.axis n hr
  refine ⟨w, r, d, ?_, r1, d1, w2.1, w2.2, d2, fun ax => ?_, fun e he => ?_, fun e he => ?_⟩
  · simp only [LinearSpace.volumeCell, bind, Except.bind, if_true]
    exact w1
  · rw [d4, r3]
    split <;> rfl
  · have hk : e s.axis < n - 1 := he s.axis (n - 1) (by rw [d4, if_pos rfl])
    have hS : InRange S e := by
      intro ax m hm
      apply he ax m
      have : ax ≠ s.axis := by rintro rfl; exact h.axis (mem_keys_of_get? hm)
      rw [d4, if_neg this, r3, if_neg this, hm]
    have hup : ∀ k, k < n → InRange r.shape (Function.update e s.axis k) := by
      intro k hk ax m hm
      by_cases hx : ax = s.axis
      · subst hx; rw [hr] at hm; cases hm; simpa using hk
      · rw [Function.update_of_ne hx]
        exact he ax m (by rw [d4, if_neg hx]; exact hm)
    have hself : FitsIn r.shape r.shape := fun ax m hm => ⟨m, hm, .inl rfl⟩
    have hout : ∀ (a : SA K), Fits S a → ∀ k, a.atB (Function.update e s.axis k) = a.atB e := by
      intro a hf k
      apply SA.atB_congr
      intro ax hax
      rw [Function.update_of_ne]
      rintro rfl
      rw [← SA.keys_shape hf.1] at hax
      obtain ⟨m, hm⟩ := exists_get?_of_mem hax
      obtain ⟨m', hm', _⟩ := hf.2 _ m hm
      exact h.axis (mem_keys_of_get? hm')
    have hd := d5 e (e s.axis) hk
    simp only [FA.along, Function.update_eq_self] at hd
    rw [SA.atB_eq_at' d2 he] at hd
    rw [hd, r4 r.shape _ hself (hup _ (by omega)) (by simp; omega)]
    have := r4 r.shape e hself (by simpa using hup (e s.axis) (by omega)) (by omega)
    rw [this, ← w2.atB hS, w3]
    simp only [hout _ h.fits.1, hout _ h.fits.2, Function.update_self]
    push_cast
    ring
  · rw [← w2.atB he, w3, spacing, mul_div_cancel₀]
    exact_mod_cast h.step

/-- **C104** (axes). Without an axis a one-dimensional space uses its axis, and a space with further axes raises `ValueError`, as does
any other number of axes; along another axis the cell volume is that of the explicit array. -/
theorem C104_linear_axes (s : LinearSpace K) (S : Shape) (n : Nat) (h : s.Fine S n) :
    (S = [] → s.volumeCell s.explicit none = s.volumeCell s.explicit (some [s.axis])) ∧
    (S ≠ [] → s.volumeCell s.explicit none = .error .valueError) ∧
    (∀ axis : List String, axis.length ≠ 1 → s.volumeCell s.explicit (some axis) = .error .valueError) ∧
    ∃ r, s.explicit = .ok r ∧ ∀ ax, ax ≠ s.axis → s.volumeCell s.explicit (some [ax]) = r.volumeCell (some [ax]) := by
  obtain ⟨r, r1, r2, r3, r4⟩ := h.explicit_eq
  have hmem : ∀ ax, ax ∈ r.axes ↔ ax = s.axis ∨ ax ∈ keys S := by
    intro ax
    rw [← SA.keys_shape r2, ← get?_isSome, r3, ← get?_isSome]
    by_cases hx : ax = s.axis <;> simp [hx]
  refine ⟨fun hS => ?_, fun hS => ?_, fun axis hax => ?_, r, r1, fun ax hax => ?_⟩
  · have hax : r.axes = [s.axis] := by
      have hm : ∀ ax, ax ∈ r.axes ↔ ax = s.axis := by intro ax; rw [hmem, hS]; simp [keys]
      have hnd := r2.2
      revert hm hnd
      clear * -
      intro hm hnd
      rcases hl : r.axes with _ | ⟨a, _ | ⟨b, l⟩⟩
      · have := (hm s.axis).2 rfl
        rw [hl] at this
        simp at this
      · rw [(hm a).1 (by simp [hl])]
      · rw [hl] at hnd
        have h1 := (hm a).1 (by simp [hl])
        have h2 := (hm b).1 (by simp [hl])
        simp [h1, h2] at hnd
    simp only [LinearSpace.volumeCell, bind, Except.bind, r1, hax]
  · simp only [LinearSpace.volumeCell, bind, Except.bind, r1]
    split
    · next ax hl =>
      exfalso
      rcases S with _ | ⟨p, S⟩
      · exact hS rfl
      · have h1 := (hmem s.axis).2 (.inl rfl)
        have h2 := (hmem p.1).2 (.inr (by simp [keys]))
        rw [hl, List.mem_singleton] at h1 h2
        exact h.axis (by rw [h1, ← h2]; simp [keys])
    · rfl
  · simp only [LinearSpace.volumeCell, bind, Except.bind]
    split
    · next hl => simp at hax
    · rfl
  · simp only [LinearSpace.volumeCell, bind, Except.bind, if_neg hax, r1]

/-- **C104** (a single point) is false: a space of one point has no cells, which the explicit array says, but the space raises
`ZeroDivisionError`. -/
theorem C104_single_refuted :
    let s : LinearSpace Rat := ⟨SA.scalar 0, SA.scalar 1, "x", 1, true, false⟩
    s.volumeCell s.explicit (some ["x"]) = .error .other ∧
    (s.explicit >>= fun r => r.volumeCell (some ["x"])).toOption.map (fun d => d.shape) = some [("x", 0)] := by
  exact ⟨rfl, by decide +kernel⟩

/-- **C104** (stratified spaces) is false: the cell volume of a stratified random space is the step, not the distance between its
(random) elements. -/
theorem C104_stratified_refuted :
    let s : LinearSpace Rat := ⟨SA.scalar 0, SA.scalar 1, "x", 2, true, true⟩
    let e := SA.stratified (fun i => if i = [0] then 1 / 4 else 3 / 4) s.start s.stop s.axis s.num s.endpoint s.centers
    (s.volumeCell e (some ["x"])).toOption.map (fun w => w.nd.toList) = some [1 / 2] ∧
    (e >>= fun r => r.volumeCell (some ["x"])).toOption.map (fun d => d.nd.toList) = some [3 / 4] := by
  exact ⟨by decide +kernel, by decide +kernel⟩

/-! ### Uniform samples of numbers -/

/-- **C104** (uniform samples). Along an axis of the random shape, the cell volume is the distance of `start` and `stop` divided by the
number of samples; along another axis it is that of the explicit array; any other number of axes raises `ValueError`. -/
theorem C104_uniform_partial (start stop : SA K) (ha : start.WF) (hb : stop.WF) (S : Shape)
    (hS : broadcastShapes [start.shape, stop.shape] = .ok S) (sh : Shape) (r : SA K) :
    (∀ ax n, get? sh ax = some n → n ≠ 0 →
      ∃ w, uniformVolume start stop (some sh) (.ok r) (some [ax]) = .ok w ∧ w.WF ∧ Same w.shape S ∧
        ∀ e, InRange S e → (n : K) * w.at' e = stop.atB e - start.atB e) ∧
    (∀ ax, ax ∉ keys sh → uniformVolume start stop (some sh) (.ok r) (some [ax]) = r.volumeCell (some [ax])) ∧
    (∀ axis : List String, axis.length ≠ 1 → uniformVolume start stop (some sh) (.ok r) (some axis) = .error .valueError) ∧
    (∀ ax, r.axes = [ax] →
      uniformVolume start stop (some sh) (.ok r) none = uniformVolume start stop (some sh) (.ok r) (some [ax])) ∧
    (r.axes.length ≠ 1 → uniformVolume start stop (some sh) (.ok r) none = .error .valueError) := by
  refine ⟨fun ax n hn h0 => ?_, fun ax hax => ?_, fun axis hax => ?_, fun ax hax => ?_, fun hax => ?_⟩
  · obtain ⟨hfa, hfb⟩ := fits_pair ha hb hS
    obtain ⟨d, d1, d2, d3⟩ := ufunc2_fits' (· - ·) hfb hfa
    have hfull : Full S d := by
      have hwa := SA.wf_shape ha
      have hwb := SA.wf_shape hb
      obtain ⟨_, j1⟩ := join_pair hwa hwb hS
      obtain ⟨_, j2⟩ := join_pair hwb hwa (SA.ufunc2_ok hb ha d1).2.1
      refine ⟨d2.1, fun x => ?_⟩
      have e1 := j1 x
      have e2 := j2 x
      revert e1 e2
      generalize get? start.shape x = u
      generalize get? stop.shape x = v
      generalize get? d.shape x = p
      generalize get? S x = q
      clear * -
      intro e1 e2
      cases u <;> cases v <;> simp [joinOpt] at e1 e2
      · rw [← e1, ← e2]
      · rw [← e1, ← e2]
      · rw [← e1, ← e2]
      · grind
    obtain ⟨w, w1, w2, w3⟩ := ufunc2_full (· / ·) hfull (fits_scalar S (n : K))
    refine ⟨w, ?_, w2.1, w2.2, fun e he => ?_⟩
    · simp only [uniformVolume, bind, Except.bind, hn, d1, if_neg h0]
      exact w1
    · have hs : (SA.scalar (n : K)).atB e = n := rfl
      rw [← w2.atB he, w3, d3, hs, mul_div_cancel₀]
      exact_mod_cast h0
  · simp only [uniformVolume, bind, Except.bind, get?_eq_none.2 hax]
  · simp only [uniformVolume, bind, Except.bind]
    split
    · simp at hax
    · rfl
  · simp only [uniformVolume, bind, Except.bind, hax]
  · simp only [uniformVolume, bind, Except.bind]
    split
    · next h => rw [h] at hax; simp at hax
    · rfl

/-- **C104** (uniform samples) is false of the default `shape_random=None`: every single axis raises `TypeError`, although the explicit
array has cell volumes. -/
theorem C104_default_shape_refuted :
    let a : SA Rat := ⟨["x"], ⟨[2], fun i => if i = [0] then 0 else 1⟩⟩
    (∀ e : R (SA Rat), ∀ ax, uniformVolume a a none e (some [ax]) = .error .typeError) ∧
    uniformVolume a a none (.ok a) none = .error .typeError ∧
    (a.volumeCell (some ["x"])).toOption.map (fun d => d.nd.toList) = some [1] := by
  exact ⟨fun _ _ => rfl, rfl, by decide +kernel⟩

/-! ### Spaces of two-dimensional vectors -/

/-- `start`, `stop` or `num` is a vector. -/
def PlaneSpace.HasVector (s : PlaneSpace K) : Prop :=
  (∃ a b, s.start = .two a b) ∨ (∃ a b, s.stop = .two a b) ∨ ∃ a b, s.num = .two a b

omit [LinearOrder K] [IsStrictOrderedRing K] in
theorem PlaneSpace.step_two {s : PlaneSpace K} (h : s.HasVector) {dx dy : SA K} (hx : s.partX.step = .ok dx)
    (hy : s.partY.step = .ok dy) : s.step = .ok (.two dx dy) := by
  unfold PlaneSpace.step
  split
  · next h1 h2 h3 =>
    rcases h with ⟨_, _, h⟩ | ⟨_, _, h⟩ | ⟨_, _, h⟩
    · rw [h1] at h; cases h
    · rw [h2] at h; cases h
    · rw [h3] at h; cases h
  · simp only [hx, hy, bind, Except.bind]

omit [LinearOrder K] [IsStrictOrderedRing K] in
theorem gridArea_swap (a1 a2 : String) (P : (String → Nat) → K × K) (e : String → Nat) :
    gridArea a2 a1 P e = - gridArea a1 a2 P e := by
  unfold gridArea
  rw [Finset.pair_comm a2 a1]
  unfold quadArea wedge
  ring

/-- **C104** (areas of grids). A linear space of vectors, of which an attribute is a vector, with different axes for the two components,
which `start` and `stop` do not have: the cell area for the axes of the two components in this order is the product of the steps, an
array without these axes, and the area of every cell of the explicit grid is equal to it.  With the axes in the other order the space
gives the same areas, but those of the explicit grid have the opposite sign. -/
theorem C104_plane_partial (s : PlaneSpace K) (hv : s.HasVector) (Sx Sy S : Shape) (n m : Nat) (hX : s.partX.Fine Sx n)
    (hY : s.partY.Fine Sy m) (hne : s.axisX ≠ s.axisY) (hxy : s.axisY ∉ keys Sx) (hyx : s.axisX ∉ keys Sy)
    (hS : broadcastShapes [Sx, Sy] = .ok S) :
    ∃ w x y r r', s.volumeCell s.explicit (some [s.axisX, s.axisY]) = .ok w ∧
      s.volumeCell s.explicit (some [s.axisY, s.axisX]) = .ok w ∧ s.explicit = .ok (x, y) ∧
      volumeCell2d x y (some [s.axisX, s.axisY]) = .ok r ∧ volumeCell2d x y (some [s.axisY, s.axisX]) = .ok r' ∧
      w.WF ∧ Same w.shape S ∧ r.WF ∧
      (∀ ax, get? r.shape ax = if ax = s.axisX then some (n - 1) else if ax = s.axisY then some (m - 1) else get? S ax) ∧
      (∀ e, InRange r.shape e → r.at' e = w.at' e) ∧ (∀ e, InRange r'.shape e → r'.at' e = - w.at' e) ∧
      ∀ e, InRange S e → (cells n s.endpoint s.centers : K) * (cells m s.endpoint s.centers : K) * w.at' e =
        (s.stop.x.atB e - s.start.x.atB e) * (s.stop.y.atB e - s.start.y.atB e) := by
  obtain ⟨dx, dx1, dx2, dx3⟩ := hX.step_eq
  obtain ⟨dy, dy1, dy2, dy3⟩ := hY.step_eq
  obtain ⟨x, x1, x2, x3, x4⟩ := hX.explicit_eq
  obtain ⟨y, y1, y2, y3, y4⟩ := hY.explicit_eq
  obtain ⟨hSw, jS⟩ := join_pair hX.wf hY.wf hS
  change ∀ ax, get? x.shape ax = if ax = s.axisX then some n else get? Sx ax at x3
  change ∀ ax, get? y.shape ax = if ax = s.axisY then some m else get? Sy ax at y3
  have hss : ∀ u ∈ [Sx, Sy], WF u := by
    intro u hu
    simp only [List.mem_cons, List.not_mem_nil, or_false] at hu
    rcases hu with rfl | rfl
    · exact hX.wf
    · exact hY.wf
  have fX : FitsIn Sx S := SA.fitsIn_of_broadcastShapes hss hS (by simp)
  have fY : FitsIn Sy S := SA.fitsIn_of_broadcastShapes hss hS (by simp)
  have hXx : s.axisX ∉ keys Sx := hX.axis
  have hYy : s.axisY ∉ keys Sy := hY.axis
  have hXS : get? S s.axisX = none := by
    have := jS s.axisX
    rw [get?_eq_none.2 hXx, get?_eq_none.2 hyx] at this
    simpa [joinOpt] using this.symm
  have hYS : get? S s.axisY = none := by
    have := jS s.axisY
    rw [get?_eq_none.2 hxy, get?_eq_none.2 hYy] at this
    simpa [joinOpt] using this.symm
  -- the product of the steps
  have full_trans : ∀ {A : Shape} {a : SA K}, Full A a → FitsIn A S → Fits S a := fun ha hA =>
    ⟨ha.1, fun ax k hk => hA ax k (by rw [← ha.2 ax]; exact hk)⟩
  obtain ⟨p, p1, p2, p3⟩ := ufunc2_full' (· * ·) (fits_scalar Sx (1 : K)) dx2
  obtain ⟨w, w1, w2, w3⟩ := ufunc2_fits' (· * ·) (full_trans p2 fX) (full_trans dy2 fY)
  have hw : Full S w := by
    refine ⟨w2.1, fun ax => ?_⟩
    have h1 := (join_pair (SA.wf_shape p2.1) (SA.wf_shape dy2.1) (SA.ufunc2_ok p2.1 dy2.1 w1).2.1).2 ax
    rw [p2.2 ax, dy2.2 ax, jS ax] at h1
    exact (Option.some.inj h1).symm
  have hexp : s.explicit = .ok (x, y) := by
    unfold PlaneSpace.explicit
    simp only [x1, y1, bind, Except.bind]
  have hvol : ∀ l : List String, l.length = 2 → (∀ ax ∈ l, ax = s.axisX ∨ ax = s.axisY) →
      s.volumeCell s.explicit (some l) = .ok w := by
    intro l h2 hl
    have hall : l.all (· ∈ [s.axisX, s.axisY]) = true := by
      rw [List.all_eq_true]
      intro ax hax
      simpa using hl ax hax
    unfold PlaneSpace.volumeCell
    simp only [hexp, bind, Except.bind, h2, ne_eq, not_true_eq_false, if_false, hall, if_true, PlaneSpace.step_two hv dx1 dy1, p1, w1]
  -- the shape of the grid
  have fitT : FitsIn x.shape ((S ++ [(s.axisX, n)]) ++ [(s.axisY, m)]) ∧ FitsIn y.shape ((S ++ [(s.axisX, n)]) ++ [(s.axisY, m)]) := by
    have hT : ∀ ax, get? ((S ++ [(s.axisX, n)]) ++ [(s.axisY, m)]) ax =
        if ax = s.axisX then some n else if ax = s.axisY then some m else get? S ax := by
      intro ax
      rw [get?_append_single, get?_append_single]
      by_cases h1 : ax = s.axisX
      · subst h1; simp [hXS]
      · by_cases h2 : ax = s.axisY
        · subst h2; simp [hYS, hne, h1]
        · have h1' : ¬ s.axisX = ax := fun h => h1 h.symm
          have h2' : ¬ s.axisY = ax := fun h => h2 h.symm
          cases get? S ax <;> simp [h1, h2, h1', h2']
    constructor
    · intro ax k hk
      rw [x3] at hk
      rw [hT]
      by_cases h1 : ax = s.axisX
      · rw [if_pos h1] at hk ⊢; exact ⟨k, hk, .inl rfl⟩
      · rw [if_neg h1] at hk ⊢
        rw [if_neg (by rintro rfl; exact hxy (mem_keys_of_get? hk))]
        exact fX ax k hk
    · intro ax k hk
      rw [y3] at hk
      rw [hT]
      by_cases h2 : ax = s.axisY
      · rw [if_pos h2] at hk
        rw [if_neg (by rintro rfl; exact hne h2), if_pos h2]; exact ⟨k, hk, .inl rfl⟩
      · rw [if_neg h2] at hk
        rw [if_neg (by rintro rfl; exact hyx (mem_keys_of_get? hk)), if_neg h2]
        exact fY ax k hk
  obtain ⟨S', hS', _⟩ := broadcast_of_fits (SA.wf_shape x2) (SA.wf_shape y2) fitT.1 fitT.2
  have hget : ∀ ax, get? S' ax = if ax = s.axisX then some n else if ax = s.axisY then some m else get? S ax := by
    intro ax
    have hj := (join_pair (SA.wf_shape x2) (SA.wf_shape y2) hS').2 ax
    rw [x3, y3] at hj
    by_cases h1 : ax = s.axisX
    · subst h1
      rw [if_pos rfl, if_neg hne, get?_eq_none.2 hyx, joinOpt_none_right] at hj
      rw [if_pos rfl]; exact (Option.some.inj hj).symm
    · by_cases h2 : ax = s.axisY
      · subst h2
        rw [if_pos rfl, if_neg h1, get?_eq_none.2 hxy, joinOpt_none_left] at hj
        rw [if_neg h1, if_pos rfl]; exact (Option.some.inj hj).symm
      · rw [if_neg h1, if_neg h2, jS ax] at hj
        rw [if_neg h1, if_neg h2]; exact (Option.some.inj hj).symm
  have hss' : ∀ u ∈ [x.shape, y.shape], WF u := by
    intro u hu
    simp only [List.mem_cons, List.not_mem_nil, or_false] at hu
    rcases hu with rfl | rfl
    · exact SA.wf_shape x2
    · exact SA.wf_shape y2
  have gx : FitsIn x.shape S' := SA.fitsIn_of_broadcastShapes hss' hS' (by simp)
  have gy : FitsIn y.shape S' := SA.fitsIn_of_broadcastShapes hss' hS' (by simp)
  have hkX : s.axisX ∈ keys S' := mem_keys_of_get? (v := n) (by rw [hget, if_pos rfl])
  have hkY : s.axisY ∈ keys S' := mem_keys_of_get? (v := m) (by rw [hget, if_neg hne.symm, if_pos rfl])
  obtain ⟨r, r1, r2, r3, r4⟩ := C56_area x y x2 y2 S' hS' s.axisX s.axisY hne hkX hkY
  obtain ⟨r', q1, q2, q3, q4⟩ := C56_area x y x2 y2 S' hS' s.axisY s.axisX hne.symm hkY hkX
  rw [Finset.pair_comm] at q3
  -- the area of a cell
  have harea : ∀ {R : Shape} {e : String → Nat}, CentersOf S' {s.axisX, s.axisY} R → InRange R e →
      gridArea s.axisX s.axisY (vertex x y) e = w.at' e := by
    intro R e hR he
    have heS : InRange S e := by
      intro ax k hk
      have h1 : ax ≠ s.axisX := by rintro rfl; rw [hXS] at hk; cases hk
      have h2 : ax ≠ s.axisY := by rintro rfl; rw [hYS] at hk; cases hk
      apply he ax k
      rw [hR, if_neg (by simp [h1, h2]), hget, if_neg h1, if_neg h2, hk]
    have hout : ∀ {A : Shape} {a : SA K}, Fits A a → s.axisX ∉ keys A → s.axisY ∉ keys A → ∀ T ⊆ ({s.axisX, s.axisY} : Finset String),
        a.atB (corner T e) = a.atB e := by
      intro A a ha h1 h2 T hT
      apply SA.atB_congr
      intro ax hax
      rw [← SA.keys_shape ha.1] at hax
      obtain ⟨k, hk⟩ := exists_get?_of_mem hax
      obtain ⟨k', hk', _⟩ := ha.2 _ k hk
      have hkA := mem_keys_of_get? hk'
      unfold corner
      rw [if_neg]
      intro hT'
      have := hT hT'
      simp only [Finset.mem_insert, Finset.mem_singleton] at this
      rcases this with rfl | rfl
      · exact h1 hkA
      · exact h2 hkA
    have hx : ∀ T ⊆ ({s.axisX, s.axisY} : Finset String), x.atB (corner T e) = s.start.x.atB e +
        (if s.centers then dx.atB e / 2 else 0) + (corner T e s.axisX : K) * dx.atB e := by
      intro T hT
      have hin := corner_inRange hR hT he
      rw [x4 S' _ gx hin (hin s.axisX n (by rw [hget, if_pos rfl])), hout hX.fits.1 hXx hxy T hT, hout hX.fits.2 hXx hxy T hT, dx3]
      rfl
    have hy : ∀ T ⊆ ({s.axisX, s.axisY} : Finset String), y.atB (corner T e) = s.start.y.atB e +
        (if s.centers then dy.atB e / 2 else 0) + (corner T e s.axisY : K) * dy.atB e := by
      intro T hT
      have hin := corner_inRange hR hT he
      rw [y4 S' _ gy hin (hin s.axisY m (by rw [hget, if_neg hne.symm, if_pos rfl])), hout hY.fits.1 hyx hYy T hT,
        hout hY.fits.2 hyx hYy T hT, dy3]
      rfl
    have h1 : (SA.scalar (1 : K)).atB e = 1 := rfl
    rw [← hw.atB heS, w3, p3, h1]
    have s0 : (∅ : Finset String) ⊆ {s.axisX, s.axisY} := by simp
    have s1 : ({s.axisX} : Finset String) ⊆ {s.axisX, s.axisY} := by simp
    have s2 : ({s.axisY} : Finset String) ⊆ {s.axisX, s.axisY} := by simp
    have s3 : ({s.axisX, s.axisY} : Finset String) ⊆ {s.axisX, s.axisY} := subset_rfl
    simp only [gridArea, quadArea, wedge, vertex, hx _ s0, hx _ s1, hx _ s2, hx _ s3, hy _ s0, hy _ s1, hy _ s2, hy _ s3]
    have c : ∀ (T : Finset String) (ax : String), ((corner T e ax : Nat) : K) = (e ax : K) + if ax ∈ T then 1 else 0 := by
      intro T ax
      unfold corner
      split <;> simp
    simp only [c, Finset.notMem_empty, if_false, Finset.mem_singleton, if_true, hne, hne.symm, Finset.mem_insert, true_or, or_true]
    ring
  refine ⟨w, x, y, r, r', hvol _ rfl (by simp), hvol _ rfl (by simp), hexp, r1, q1, hw.1, hw.2, r2, fun ax => ?_, fun e he => ?_,
    fun e he => ?_, fun e he => ?_⟩
  · rw [r3, hget]
    by_cases h1 : ax = s.axisX
    · simp [h1]
    · by_cases h2 : ax = s.axisY
      · simp [h2, hne.symm]
      · simp [h1, h2]
  · rw [r4 e he, harea r3 he]
  · rw [q4 e he, gridArea_swap, harea q3 he]
  · have h1 : (SA.scalar (1 : K)).atB e = 1 := rfl
    rw [← hw.atB he, w3, p3, h1, dx3, dy3]
    have c1 : ((cells n s.endpoint s.centers : Int) : K) ≠ 0 := by exact_mod_cast hX.step
    have c2 : ((cells m s.endpoint s.centers : Int) : K) ≠ 0 := by exact_mod_cast hY.step
    simp only [spacing]
    have e1 : s.partX.endpoint = s.endpoint := rfl
    have e2 : s.partX.centers = s.centers := rfl
    have e3 : s.partY.endpoint = s.endpoint := rfl
    have e4 : s.partY.centers = s.centers := rfl
    rw [e1, e2, e3, e4]
    field_simp
    rfl

/-- **C104** (other axes). Any other number of axes than two raises `ValueError`; with an axis which is not one of the space, the cell
areas are those of the explicit grid; without axes, all the axes of the explicit grid are used. -/
theorem C104_plane_axes (s : PlaneSpace K) (x y : SA K) (he : s.explicit = .ok (x, y)) :
    (∀ l : List String, l.length ≠ 2 → s.volumeCell s.explicit (some l) = .error .valueError) ∧
    (∀ a b : String, (a ∉ [s.axisX, s.axisY] ∨ b ∉ [s.axisX, s.axisY]) →
      s.volumeCell s.explicit (some [a, b]) = volumeCell2d x y (some [a, b])) ∧
    ∀ S, broadcastShapes [x.shape, y.shape] = .ok S → s.volumeCell s.explicit none = s.volumeCell s.explicit (some (keys S)) := by
  refine ⟨fun l hl => ?_, fun a b hab => ?_, fun S hS => ?_⟩
  · unfold PlaneSpace.volumeCell
    simp only [he, bind, Except.bind, ne_eq, hl, not_false_eq_true, if_true]
  · have hall : ([a, b].all (· ∈ [s.axisX, s.axisY])) = false := by
      rw [Bool.eq_false_iff]
      intro h
      rw [List.all_eq_true] at h
      have h1 := h a (by simp)
      have h2 := h b (by simp)
      rw [decide_eq_true_eq] at h1 h2
      rcases hab with h | h
      · exact h h1
      · exact h h2
    unfold PlaneSpace.volumeCell
    simp only [he, bind, Except.bind, hall]
    rfl
  · unfold PlaneSpace.volumeCell
    simp only [he, bind, Except.bind, hS]

/-- **C104** (order of the axes) is false: with the two axes exchanged, the explicit grid has the areas of opposite sign, the space does
not. -/
theorem C104_exchange_refuted :
    let s : PlaneSpace Rat := ⟨.two (SA.scalar 0) (SA.scalar 0), .one (SA.scalar 4), "x", "y", .one 2, true, false⟩
    (s.volumeCell s.explicit (some ["y", "x"])).toOption.map (fun w => w.nd.toList) = some [16] ∧
    (s.explicit >>= fun v => volumeCell2d v.1 v.2 (some ["y", "x"])).toOption.map (fun w => w.nd.toList) = some [-16] ∧
    (s.explicit >>= fun v => volumeCell2d v.1 v.2 (some ["x", "y"])).toOption.map (fun w => w.nd.toList) = some [16] := by
  exact ⟨by decide +kernel, by decide +kernel, by decide +kernel⟩

/-- **C104** (numbers) is false: with numbers for `start`, `stop` and `num`, as in the documentation of the class, every pair of axes of
the space raises `AttributeError`, although the explicit grid has cell areas. -/
theorem C104_numbers_refuted :
    let s : PlaneSpace Rat := ⟨.one (SA.scalar 0), .one (SA.scalar 4), "x", "y", .one 2, true, false⟩
    s.volumeCell s.explicit none = .error .other ∧
    (s.explicit >>= fun v => volumeCell2d v.1 v.2 none).toOption.map (fun w => w.nd.toList) = some [16] := by
  exact ⟨rfl, by decide +kernel⟩

/-- **C104** (axes of `start` and `stop`) is false of a grid whose `start` and `stop` for one component vary along the axis of the
other: here the upper edge of the trapezoid has half the length of the lower one; the space returns the areas of rectangles, with an
element for each vertex along this axis. -/
theorem C104_trapezoid_refuted :
    let s : PlaneSpace Rat := ⟨.two (SA.scalar 0) (SA.scalar 0), .two ⟨["y"], ⟨[2], fun i => if i = [0] then 4 else 2⟩⟩ (SA.scalar 1),
      "x", "y", .one 2, true, false⟩
    (s.volumeCell s.explicit (some ["x", "y"])).toOption.map (fun w => (w.shape, w.nd.toList)) = some ([("y", 2)], [4, 2]) ∧
    (s.explicit >>= fun v => volumeCell2d v.1 v.2 (some ["x", "y"])).toOption.map (fun w => (w.shape.get? "y", w.nd.toList)) =
      some (some 1, [3]) := by
  exact ⟨by decide +kernel, by decide +kernel⟩

/-! ### Uniform samples of two-dimensional vectors -/

/-- **C104** (uniform samples of vectors). For two axes of the random shape, the cell area is the signed area of the rectangle between
`start` and `stop` divided by the number of samples along these axes; with another axis it is that of the explicit array; any other
number of axes raises `ValueError`. -/
theorem C104_uniform_area_partial (start stop : Pair (SA K)) (ha : start.x.WF) (hb : stop.x.WF) (hc : start.y.WF) (hd : stop.y.WF)
    (T : Shape) (fa : FitsIn start.x.shape T) (fb : FitsIn stop.x.shape T) (fc : FitsIn start.y.shape T) (fd : FitsIn stop.y.shape T)
    (sh : Shape) (x y : SA K) :
    (∀ a b n m, get? sh a = some n → get? sh b = some m → n ≠ 0 → m ≠ 0 →
      ∃ w, uniformArea start stop (some sh) (.ok (x, y)) (some [a, b]) = .ok w ∧ w.WF ∧ FitsIn w.shape T ∧
        ∀ e, (n : K) * (m : K) * w.atB e = (stop.x.atB e - start.x.atB e) * (stop.y.atB e - start.y.atB e)) ∧
    (∀ a b, (a ∉ keys sh ∨ b ∉ keys sh) →
      uniformArea start stop (some sh) (.ok (x, y)) (some [a, b]) = volumeCell2d x y (some [a, b])) ∧
    (∀ l : List String, l.length ≠ 2 → uniformArea start stop (some sh) (.ok (x, y)) (some l) = .error .valueError) ∧
    ∀ S, broadcastShapes [x.shape, y.shape] = .ok S →
      uniformArea start stop (some sh) (.ok (x, y)) none = uniformArea start stop (some sh) (.ok (x, y)) (some (keys S)) := by
  refine ⟨fun a b n m hn hm n0 m0 => ?_, fun a b hab => ?_, fun l hl => ?_, fun S hS => ?_⟩
  · obtain ⟨dx, x1, x2, x3⟩ := ufunc2_fits' (· - ·) (S := T) ⟨hb, fb⟩ ⟨ha, fa⟩
    obtain ⟨dy, y1, y2, y3⟩ := ufunc2_fits' (· - ·) (S := T) ⟨hd, fd⟩ ⟨hc, fc⟩
    obtain ⟨p, p1, p2, p3⟩ := ufunc2_fits' (· * ·) (fits_scalar T (1 : K)) x2
    obtain ⟨q, q1, q2, q3⟩ := ufunc2_fits' (· * ·) p2 y2
    obtain ⟨w, w1, w2, w3⟩ := ufunc2_fits' (· / ·) q2 (fits_scalar T ((n * m : Nat) : K))
    have hall : ([a, b].all (· ∈ sh.keys)) = true := by
      simp [mem_keys_of_get? hn, mem_keys_of_get? hm]
    have hsize : ([a, b].map (fun ax => (get? sh ax).getD 1)).prod = n * m := by
      simp [hn, hm]
    have h0 : n * m ≠ 0 := Nat.mul_ne_zero n0 m0
    refine ⟨w, ?_, w2.1, w2.2, fun e => ?_⟩
    · unfold uniformArea
      simp only [bind, Except.bind, hall, if_true, x1, y1, p1, q1, hsize, if_neg h0]
      rw [if_neg (by simp)]
      exact w1
    · have h1 : (SA.scalar (1 : K)).atB e = 1 := rfl
      have h2 : (SA.scalar ((n * m : Nat) : K)).atB e = (n : K) * (m : K) := by
        show ((n * m : Nat) : K) = _
        push_cast; rfl
      rw [w3, q3, p3, x3, y3, h1, h2]
      have : (n : K) ≠ 0 := by exact_mod_cast n0
      have : (m : K) ≠ 0 := by exact_mod_cast m0
      field_simp
  · have hall : ([a, b].all (· ∈ sh.keys)) = false := by
      rw [Bool.eq_false_iff]
      intro h
      rw [List.all_eq_true] at h
      have h1 := h a (by simp)
      have h2 := h b (by simp)
      rw [decide_eq_true_eq] at h1 h2
      rcases hab with h | h
      · exact h h1
      · exact h h2
    unfold uniformArea
    simp only [bind, Except.bind, hall]
    rfl
  · unfold uniformArea
    simp only [bind, Except.bind, ne_eq, hl, not_false_eq_true, if_true]
  · unfold uniformArea
    simp only [bind, Except.bind, hS]

/-- **C104** (order of the axes). The cell area of uniform samples does not depend on the order of the axes of the random shape. -/
theorem C104_uniform_order (start stop : Pair (SA K)) (sh : Option Shape) (e : R (SA K × SA K)) (a b : String)
    (hsh : ∀ s, sh = some s → a ∈ keys s ∧ b ∈ keys s) :
    uniformArea start stop sh e (some [a, b]) = uniformArea start stop sh e (some [b, a]) := by
  unfold uniformArea
  cases e with
  | error e => rfl
  | ok v =>
    cases sh with
    | none => rfl
    | some s =>
      obtain ⟨h1, h2⟩ := hsh s rfl
      simp only [bind, Except.bind, List.length_cons, List.length_nil, List.all_cons, List.all_nil, h1, h2, List.map_cons, List.map_nil, List.prod_cons,
        List.prod_nil, mul_one, Nat.mul_comm]
      rfl

/-! ### Examples -/

/-- A space with a further axis: from 0 to 6 and from 1 to 4, in three steps. -/
def exLineSpace : LinearSpace Rat :=
  ⟨⟨["t"], ⟨[2], fun i => if i = [0] then 0 else 1⟩⟩, ⟨["t"], ⟨[2], fun i => if i = [0] then 6 else 4⟩⟩, "x", 4, true, false⟩

example : exLineSpace.Fine [("t", 2)] 4 :=
  ⟨⟨rfl, by decide⟩, ⟨rfl, by decide⟩, rfl, by decide, rfl, by decide⟩

example : (exLineSpace.volumeCell exLineSpace.explicit (some ["x"])).toOption.map (fun w => (w.shape, w.nd.toList)) =
    some ([("t", 2)], [2, 1]) := by decide +kernel

/-- A grid of 3 × 2 vertices. -/
def exPlaneSpace : PlaneSpace Rat :=
  ⟨.one (SA.scalar 0), .two ⟨["t"], ⟨[2], fun i => if i = [0] then 6 else 4⟩⟩ (SA.scalar 5), "x", "y", .two 3 2, true, false⟩

example : exPlaneSpace.HasVector ∧ exPlaneSpace.partX.Fine [("t", 2)] 3 ∧ exPlaneSpace.partY.Fine [] 2 ∧
    broadcastShapes [[("t", 2)], []] = .ok [("t", 2)] :=
  ⟨.inr (.inl ⟨_, _, rfl⟩), ⟨⟨rfl, by decide⟩, ⟨rfl, by decide⟩, rfl, by decide, rfl, by decide⟩,
    ⟨⟨rfl, by decide⟩, ⟨rfl, by decide⟩, rfl, by decide, rfl, by decide⟩, rfl⟩

example : (exPlaneSpace.volumeCell exPlaneSpace.explicit (some ["x", "y"])).toOption.map (fun w => (w.shape, w.nd.toList)) =
    some ([("t", 2)], [15, 10]) := by decide +kernel

example : (uniformVolume exLineSpace.start exLineSpace.stop (some [("x", 3)]) (.ok exLineSpace.start) (some ["x"])).toOption.map
    (fun w => (w.shape, w.nd.toList)) = some ([("t", 2)], [2, 1]) := by decide +kernel

example : (uniformArea exPlaneSpace.start exPlaneSpace.stop (some [("x", 3), ("y", 2)]) (.ok (exLineSpace.start, exLineSpace.start))
    (some ["x", "y"])).toOption.map (fun w => (w.shape, w.nd.toList)) = some ([("t", 2)], [5, 10 / 3]) := by decide +kernel

end NA
