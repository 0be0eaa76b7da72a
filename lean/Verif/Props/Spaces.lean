import Verif.Space.Lemmas
import Mathlib.Data.Rat.Floor
import Mathlib.Tactic.NormNum

/-!
# C33: linear, logarithmic and geometric spaces, and ranges

`cells n endpoint centers` is the number of intervals into which `stop - start` is divided: `n - 1` with the endpoint, `n` without it,
and one more for cell centers; `spacing` is the length of such an interval.
-/

namespace NA
open Dict
open SA (FitsIn InRange)

section linear
variable {K : Type} [Field K] [LinearOrder K] [IsStrictOrderedRing K]

theorem npLinspace_ok {start stop : SA K} (ha : start.WF) (hb : stop.WF) {S : Shape}
    (hS : broadcastShapes [start.shape, stop.shape] = .ok S) {axis : String} (hax : axis ∉ keys S) (n : Nat) (endpoint : Bool) :
    ∃ r, SA.npLinspace start stop axis n endpoint = .ok r ∧ r.WF ∧ r.shape = S ++ [(axis, n)] ∧
      ∀ e, InRange r.shape e → r.at' e = start.atB e + (e axis : K) * spacing n endpoint false (start.atB e) (stop.atB e) := by
  obtain ⟨p, p1, p2, p3, p4⟩ := pair_ok ha hb hS
  obtain ⟨r, r1, r2, r3, r4, r5⟩ := sequence_ok SA.linPoint p2 (axis := axis)
    (by rw [← SA.keys_shape p2, p3]; exact hax) n endpoint
  rw [p3] at r4
  refine ⟨r, ?_, r2, r4, fun e he => ?_⟩
  · simp only [SA.npLinspace, bind, Except.bind, p1]
    exact r1
  · have he1 : e axis < n := he axis n (by
      rw [r4, get?_append_single, get?_eq_none.2 hax]; simp)
    have he2 : InRange p.shape e := by
      intro ax m hm
      rw [p3] at hm
      exact he ax m (by rw [r4, get?_append_single, hm])
    rw [r5, linPoint_eq he1, ← SA.atB_eq_at' p2 he2, p4]

/-- **C33** `na.linspace(start, stop, axis, num, endpoint, centers)` has the broadcast shape of `start` and `stop` and `num` points along
the new axis; the `k`-th point is `start + k * spacing`, moved by half a spacing for cell centers. -/
theorem C33_linspace (start stop : SA K) (ha : start.WF) (hb : stop.WF) (S : Shape)
    (hS : broadcastShapes [start.shape, stop.shape] = .ok S) (axis : String) (hax : axis ∉ keys S) (n : Nat)
    (endpoint centers : Bool) (hc : centers = true → cells n endpoint centers ≠ 0) :
    ∃ r, SA.linspace start stop axis n endpoint centers = .ok r ∧ r.WF ∧
      (∀ ax, get? r.shape ax = if ax = axis then some n else get? S ax) ∧
      ∀ e, InRange r.shape e →
        let w := spacing n endpoint centers (start.atB e) (stop.atB e)
        r.at' e = start.atB e + (if centers then w / 2 else 0) + (e axis : K) * w := by
  have hget : ∀ (S' : Shape), Same S' S → ∀ ax, get? (S' ++ [(axis, n)]) ax = if ax = axis then some n else get? S ax := by
    intro S' hS' ax
    rw [get?_append_single, hS' ax]
    by_cases h : ax = axis
    · subst h
      rw [get?_eq_none.2 hax]
    · rw [if_neg h]
      have h' : ¬ axis = ax := fun h' => h h'.symm
      cases get? S ax <;> simp [h']
  unfold SA.linspace
  cases hcen : centers with
  | false =>
    obtain ⟨r, r1, r2, r3, r4⟩ := npLinspace_ok ha hb hS hax n endpoint
    refine ⟨r, by simpa using r1, r2, by rw [r3]; exact hget S (fun _ => rfl), fun e he => ?_⟩
    rw [r4 e he]
    simp
  | true =>
    obtain ⟨hfa, hfb⟩ := fits_pair ha hb hS
    have hc' := hc hcen
    rw [hcen] at hc'
    obtain ⟨w, w1, w2, w3⟩ := step_ok ha hb hS hc'
    obtain ⟨h, h1, h2, h3⟩ := ufunc2_full (· / ·) w2 (fits_scalar S (2 : K))
    obtain ⟨a', a1, a2, a3⟩ := ufunc2_full' (· + ·) hfa h2
    obtain ⟨b', b1, b2, b3⟩ := ufunc2_full' (· - ·) hfb h2
    obtain ⟨S', hS', _⟩ := broadcast_of_fits (SA.wf_shape a2.1) (SA.wf_shape b2.1) a2.fits.2 b2.fits.2
    have hSS := same_of_fits a2.2 b2.fits.2 (SA.wf_shape a2.1) (SA.wf_shape b2.1) hS'
    have hax' : axis ∉ keys S' := by
      rw [← get?_isSome, hSS axis, get?_isSome]
      exact hax
    obtain ⟨r, r1, r2, r3, r4⟩ := npLinspace_ok a2.1 b2.1 hS' hax' n endpoint
    refine ⟨r, ?_, r2, by rw [r3]; exact hget S' hSS, fun e he => ?_⟩
    · simp only [if_true, bind, Except.bind, w1, h1, a1, b1]
      exact r1
    · have he1 : e axis < n := he axis n (by
        rw [r3, get?_append_single, get?_eq_none.2 hax']; simp)
      rw [r4 e he, a3, b3, h3, w3]
      have h2v : (SA.scalar (2 : K)).atB e = 2 := rfl
      rw [h2v]
      simp only [if_true]
      unfold spacing
      have hcc := cells_centers n endpoint
      have hC : ((cells n endpoint true : Int) : K) = (cells n endpoint false : K) + 1 := by rw [hcc]; push_cast; ring
      have hC1 : ((cells n endpoint true : Int) : K) ≠ 0 := by exact_mod_cast hc'
      by_cases h0 : cells n endpoint false = 0
      · have hk : e axis = 0 := by
          unfold cells at h0
          cases endpoint <;> simp at h0 <;> omega
        rw [hk]
        simp
      · have hC0 : ((cells n endpoint false : Int) : K) ≠ 0 := by exact_mod_cast h0
        rw [hC] at hC1 ⊢
        field_simp
        ring

/-- **C33** An axis which `start` or `stop` already has raises `ValueError`. -/
theorem C33_linspace_axis (start stop : SA K) (ha : start.WF) (hb : stop.WF) (S : Shape)
    (hS : broadcastShapes [start.shape, stop.shape] = .ok S) (axis : String) (hax : axis ∈ keys S) (num : Int) (endpoint : Bool) :
    SA.linspace start stop axis num endpoint false = .error .valueError := by
  obtain ⟨p, p1, p2, p3, p4⟩ := pair_ok ha hb hS
  simp only [SA.linspace, Bool.false_eq_true, if_false, SA.npLinspace, bind, Except.bind, p1]
  exact sequence_dup _ (by rw [← SA.keys_shape p2, p3]; exact hax) _ _

/-- **C33** The step of a linear space is the spacing of its points. -/
theorem C33_step (start stop : SA K) (ha : start.WF) (hb : stop.WF) (S : Shape)
    (hS : broadcastShapes [start.shape, stop.shape] = .ok S) (axis : String) (hax : axis ∉ keys S) (n : Nat)
    (endpoint centers : Bool) (hc : cells n endpoint centers ≠ 0) :
    ∃ w r, SA.step start stop n endpoint centers = .ok w ∧ SA.linspace start stop axis n endpoint centers = .ok r ∧ w.WF ∧
      Same w.shape S ∧
      (∀ e, InRange S e → w.at' e = (stop.atB e - start.atB e) / (cells n endpoint centers : K)) ∧
      ∀ e, InRange r.shape e → e axis + 1 < n → r.at' (Function.update e axis (e axis + 1)) - r.at' e = w.at' e := by
  obtain ⟨w, w1, w2, w3⟩ := step_ok ha hb hS hc
  obtain ⟨r, r1, r2, r3, r4⟩ := C33_linspace start stop ha hb S hS axis hax n endpoint centers (fun _ => hc)
  obtain ⟨hfa, hfb⟩ := fits_pair ha hb hS
  have hout : ∀ (a : SA K), Fits S a → ∀ e k, a.atB (Function.update e axis k) = a.atB e := by
    intro a hf e k
    apply SA.atB_congr
    intro ax h
    rw [Function.update_of_ne]
    rintro rfl
    rw [← SA.keys_shape hf.1] at h
    obtain ⟨m, hm⟩ := exists_get?_of_mem h
    obtain ⟨m', hm', _⟩ := hf.2 ax m hm
    exact hax (mem_keys_of_get? hm')
  refine ⟨w, r, w1, r1, w2.1, w2.2, ?_, ?_⟩
  · intro e he
    rw [← w2.atB he, w3]
    rfl
  · intro e he hlt
    have he' : InRange r.shape (Function.update e axis (e axis + 1)) := by
      intro ax m hm
      by_cases h : ax = axis
      · subst h
        rw [r3, if_pos rfl] at hm
        cases hm
        simpa using hlt
      · rw [Function.update_of_ne h]
        exact he ax m hm
    have heS : InRange S e := by
      intro ax m hm
      apply he ax m
      rw [r3, if_neg]
      · exact hm
      · rintro rfl
        exact hax (mem_keys_of_get? hm)
    rw [r4 _ he', r4 e he, ← w2.atB heS, w3]
    simp only [hout _ hfa, hout _ hfb, Function.update_self]
    push_cast
    ring

/-- **C33** (endpoints). Without cell centers the first point is `start`; with the endpoint, and at least two points, the last one is
`stop`. -/
theorem C33_endpoints_partial (start stop : SA K) (ha : start.WF) (hb : stop.WF) (S : Shape)
    (hS : broadcastShapes [start.shape, stop.shape] = .ok S) (axis : String) (hax : axis ∉ keys S) (n : Nat)
    (endpoint : Bool) (r : SA K) (hr : SA.linspace start stop axis n endpoint false = .ok r) (e : String → Nat)
    (he : InRange r.shape e) :
    (e axis = 0 → r.at' e = start.atB e) ∧ (endpoint = true → 2 ≤ n → e axis = n - 1 → r.at' e = stop.atB e) := by
  obtain ⟨r', r1, _, _, r4⟩ := C33_linspace start stop ha hb S hS axis hax n endpoint false (by simp)
  rw [hr] at r1
  cases r1
  rw [r4 e he]
  constructor
  · intro h
    simp [h]
  · intro h1 h2 h3
    subst h1
    have hne : ((n : K) - 1) ≠ 0 := by
      have : (2 : K) ≤ n := by exact_mod_cast h2
      linarith
    have : ((n - 1 : Nat) : K) = (n : K) - 1 := by push_cast [show 1 ≤ n by omega]; rfl
    rw [h3, this]
    simp only [Bool.false_eq_true, if_false, spacing, cells, if_true]
    push_cast
    rw [add_zero, add_zero, mul_div_cancel₀ _ hne]
    ring

/-- **C33** (open end). Without the endpoint all points are strictly before `stop`, and none before `start`. -/
theorem C33_open (start stop : SA K) (ha : start.WF) (hb : stop.WF) (S : Shape)
    (hS : broadcastShapes [start.shape, stop.shape] = .ok S) (axis : String) (hax : axis ∉ keys S) (n : Nat) (hn : 1 ≤ n)
    (centers : Bool) (r : SA K) (hr : SA.linspace start stop axis n false centers = .ok r) (e : String → Nat)
    (he : InRange r.shape e) (hlt : start.atB e < stop.atB e) : start.atB e ≤ r.at' e ∧ r.at' e < stop.atB e := by
  obtain ⟨r', r1, _, r3, r4⟩ := C33_linspace start stop ha hb S hS axis hax n false centers
    (by intro h; subst h; simp [cells]; omega)
  rw [hr] at r1
  cases r1
  have hk : e axis < n := he axis n (by rw [r3]; simp)
  rw [r4 e he]
  have hkK : (e axis : K) + 1 ≤ (n : K) := by exact_mod_cast hk
  have hk0 : (0 : K) ≤ (e axis : K) := Nat.cast_nonneg _
  have hd : 0 < stop.atB e - start.atB e := by linarith
  cases centers with
  | false =>
    simp only [Bool.false_eq_true, if_false, add_zero, spacing, cells, sub_zero]
    push_cast
    have hnp : (0 : K) < n := by linarith
    have h1 : (e axis : K) * ((stop.atB e - start.atB e) / n) = ((e axis : K) / n) * (stop.atB e - start.atB e) := by ring
    have h2 : (e axis : K) / n < 1 := by rw [div_lt_one hnp]; linarith
    have h3 : 0 ≤ (e axis : K) / n := div_nonneg hk0 hnp.le
    rw [h1]
    constructor <;> nlinarith
  | true =>
    simp only [if_true, Bool.false_eq_true, if_false, spacing, cells, sub_zero]
    push_cast
    have hnp : (0 : K) < (n : K) + 1 := by linarith
    have h1 : (stop.atB e - start.atB e) / ((n : K) + 1) / 2 + (e axis : K) * ((stop.atB e - start.atB e) / ((n : K) + 1)) =
      (((e axis : K) + 1 / 2) / ((n : K) + 1)) * (stop.atB e - start.atB e) := by field_simp; ring
    have h2 : ((e axis : K) + 1 / 2) / ((n : K) + 1) < 1 := by rw [div_lt_one hnp]; linarith
    have h3 : 0 ≤ ((e axis : K) + 1 / 2) / ((n : K) + 1) := div_nonneg (by linarith) hnp.le
    rw [add_assoc, h1]
    constructor <;> nlinarith

/-- **C33** (cell centers). With the endpoint, the points are the mid-points of `n` equal cells between `start` and `stop`. -/
theorem C33_centers_partial (start stop : SA K) (ha : start.WF) (hb : stop.WF) (S : Shape)
    (hS : broadcastShapes [start.shape, stop.shape] = .ok S) (axis : String) (hax : axis ∉ keys S) (n : Nat) (hn : 1 ≤ n) :
    ∃ r, SA.linspace start stop axis n true true = .ok r ∧ r.WF ∧ ∀ e, InRange r.shape e →
      let edge : Nat → K := fun k => start.atB e + (k : K) / n * (stop.atB e - start.atB e)
      edge 0 = start.atB e ∧ edge n = stop.atB e ∧ r.at' e = (edge (e axis) + edge (e axis + 1)) / 2 := by
  obtain ⟨r, r1, r2, r3, r4⟩ := C33_linspace start stop ha hb S hS axis hax n true true
    (by intro _; simp [cells]; omega)
  refine ⟨r, r1, r2, fun e he => ?_⟩
  have hn0 : (n : K) ≠ 0 := by
    have : (1 : K) ≤ n := by exact_mod_cast hn
    linarith
  refine ⟨by simp, ?_, ?_⟩
  · simp only
    field_simp
    ring
  · rw [r4 e he]
    simp only [if_true, spacing, cells]
    push_cast
    rw [sub_add_cancel]
    field_simp
    ring

end linear

/-! ### Where the code differs from the description -/

/-- **C33** (limits). With the endpoint and a single point the space does not end at `stop` and `step` fails, and without the endpoint
the cell centers are not the mid-points of `num` equal cells (those would be `1/4` and `3/4`). -/
theorem C33_limit :
    ((SA.linspace (SA.scalar (0 : Rat)) (SA.scalar 1) "x" 1 true false).toOption.map (fun r => r.nd.toList)) = some [0] ∧
    (SA.step (SA.scalar (0 : Rat)) (SA.scalar 1) 1 true false).toOption.map (fun r => r.nd.toList) = none ∧
    ((SA.linspace (SA.scalar (0 : Rat)) (SA.scalar 1) "x" 2 false true).toOption.map (fun r => r.nd.toList)) =
      some [1 / 6, 1 / 2] := by
  refine ⟨?_, ?_, ?_⟩ <;> decide +kernel

/-! ### Ranges -/

section arange
variable {K : Type} [Field K] [LinearOrder K] [IsStrictOrderedRing K] [FloorRing K]

/-- **C33** `na.arange(start, stop, axis, step)` for numbers: the points are `start + k * step`, they lie in `[start, stop)` (for a
negative step in `(stop, start]`), and the next point would not. -/
theorem C33_arange (start stop step : K) (axis : String) (hs : step ≠ 0) :
    ∃ r n, SA.arangeOf (SA.scalar start) (SA.scalar stop) axis step = .ok r ∧ r.WF ∧ r.shape = [(axis, n)] ∧
      (∀ e, r.at' e = start + (e axis : K) * step) ∧
      (∀ e, e axis < n → (0 < step → start ≤ r.at' e ∧ r.at' e < stop) ∧ (step < 0 → r.at' e ≤ start ∧ stop < r.at' e)) ∧
      ((0 < step → stop ≤ start + (n : K) * step) ∧ (step < 0 → start + (n : K) * step ≤ stop)) := by
  have hlt : ∀ k : Nat, k < SA.arangeLen start stop step ↔ (k : K) < (stop - start) / step := by
    intro k
    unfold SA.arangeLen
    rw [Int.lt_toNat, Int.lt_ceil]
    simp
  refine ⟨⟨[axis], ⟨[SA.arangeLen start stop step], fun i => start + (i.headD 0 : K) * step⟩⟩, SA.arangeLen start stop step,
    ?_, ?_, rfl, ?_, ?_, ?_⟩
  · unfold SA.arangeOf
    rw [if_neg (by simp [SA.scalar, ND.scalar]), if_neg (by simp [SA.scalar, ND.scalar]), if_neg (by simp [SA.scalar]), if_neg hs]
    simp only [SA.mk?, ND.ndim, SA.scalar, ND.scalar]
    simp
  · simp [SA.WF, ND.ndim]
  · intro e
    simp [SA.at']
  · intro e he
    have h1 := (hlt (e axis)).1 he
    have hk0 : (0 : K) ≤ (e axis : K) := Nat.cast_nonneg _
    simp only [SA.at', List.map_cons, List.headD_cons]
    constructor
    · intro hp
      rw [lt_div_iff₀ hp] at h1
      constructor <;> nlinarith
    · intro hp
      rw [lt_div_iff_of_neg hp] at h1
      constructor <;> nlinarith
  · have h1 := (hlt (SA.arangeLen start stop step)).not.1 (lt_irrefl _)
    rw [not_lt] at h1
    constructor
    · intro hp
      rw [div_le_iff₀ hp] at h1
      linarith
    · intro hp
      rw [div_le_iff_of_neg hp] at h1
      linarith

/-- **C33** `start` and `stop` with more than one element raise `ValueError`. -/
theorem C33_arange_error (start stop : SA K) (axis : String) (step : K)
    (h : 1 < start.nd.shape.prod ∨ 1 < stop.nd.shape.prod) : SA.arangeOf start stop axis step = .error .valueError := by
  unfold SA.arangeOf
  split
  · rfl
  · next h1 =>
    rw [if_pos (h.resolve_left h1)]

/-- **C33** `num` of a range is its length if the range is not reversed. -/
theorem C33_arange_num_partial (start stop step : K) (h : 0 ≤ (stop - start) / step) :
    SA.arangeNum start stop step = SA.arangeLen start stop step := by
  unfold SA.arangeNum SA.arangeLen
  have := Int.ceil_nonneg h
  omega

/-- **C33** (limit). For a reversed range `num` is negative, although the range is empty. -/
theorem C33_arange_num_limit : SA.arangeNum (5 : Rat) 0 1 = -5 ∧ SA.arangeLen (5 : Rat) 0 1 = 0 := by
  constructor <;> decide +kernel

end arange

/-! ### Logarithmic and geometric spaces -/

theorem any_toList_false {α : Type} {a : SA α} (ha : a.WF) {q : α → Bool} (h : ∀ e, InRange a.shape e → q (a.at' e) = false) :
    a.nd.toList.any q = false := by
  rw [List.any_eq_false]
  intro x hx
  unfold ND.toList at hx
  obtain ⟨i, hi, rfl⟩ := List.mem_map.1 hx
  rw [ND.mem_ndIndices_iff] at hi
  obtain ⟨e, rfl, he⟩ := SA.exists_env ha.2 (sz := a.sizeOf') (i := i) (by rw [← SA.shape_eq_map ha]; exact hi)
  have := h e (by
    intro ax n hn
    have := he ax (by rw [← SA.keys_shape ha]; exact mem_keys_of_get? hn)
    simpa [SA.sizeOf', hn] using this)
  unfold SA.at' at this
  rw [this]
  simp

/-- **C33** `na.logspace(start, stop, axis, num, endpoint, base)`: the `k`-th point is `base ** (start + k * spacing)`. -/
theorem C33_logspace (start stop base : SA ℝ) (ha : start.WF) (hb : stop.WF) (hbase : base.WF) (S T : Shape)
    (hS : broadcastShapes [start.shape, stop.shape] = .ok S) (hT : broadcastShapes [base.shape, S] = .ok T) (axis : String)
    (hax : axis ∉ keys T) (n : Nat) (endpoint : Bool) (hpos : ∀ e, InRange T e → 0 < base.atB e) :
    ∃ r, SA.logspace start stop base axis n endpoint = .ok r ∧ r.WF ∧ r.shape = T ++ [(axis, n)] ∧
      ∀ e, InRange r.shape e →
        r.at' e = (base.atB e) ^ (start.atB e + (e axis : ℝ) * spacing n endpoint false (start.atB e) (stop.atB e)) := by
  obtain ⟨p, p1, p2, p3, p4⟩ := pair_ok ha hb hS
  rw [← p3] at hT
  obtain ⟨q, q1, q2, q3, q4⟩ := pair_ok hbase p2 hT
  obtain ⟨r, r1, r2, r3, r4, r5⟩ := sequence_ok SA.logPoint q2 (axis := axis)
    (by rw [← SA.keys_shape q2, q3]; exact hax) n endpoint
  rw [q3] at r4
  refine ⟨r, ?_, r2, r4, fun e he => ?_⟩
  · simp only [SA.logspace, bind, Except.bind, p1, q1]
    rw [if_neg]
    · exact r1
    · rw [any_toList_false q2]
      · simp
      · intro e he
        rw [← SA.atB_eq_at' q2 he, q4]
        have := hpos e (by rw [← q3]; exact he)
        simp only [decide_eq_false_iff_not, not_le]
        exact this
  · have he1 : e axis < n := he axis n (by
      rw [r4, get?_append_single, get?_eq_none.2 hax]; simp)
    have he2 : InRange q.shape e := by
      intro ax m hm
      rw [q3] at hm
      exact he ax m (by rw [r4, get?_append_single, hm])
    rw [r5, ← SA.atB_eq_at' q2 he2, q4, SA.logPoint]
    simp only
    rw [linPoint_eq he1, p4]

/-- Closed form of the points of `numpy.geomspace`. -/
theorem geomPoint_eq {n : Nat} {endpoint : Bool} {x : ℝ × ℝ} {k : Nat} (hk : k < n) (h : 0 < x.1 * x.2) :
    SA.geomPoint n endpoint x k = x.1 * (x.2 / x.1) ^ ((k : ℝ) / (cells n endpoint false : ℝ)) := by
  have h1 : x.1 ≠ 0 := left_ne_zero_of_mul h.ne'
  have h2 : x.2 ≠ 0 := right_ne_zero_of_mul h.ne'
  have hq : 0 < x.2 / x.1 := by
    rw [div_pos_iff]
    rcases mul_pos_iff.1 h with h | h
    · exact .inl ⟨h.2, h.1⟩
    · exact .inr ⟨h.2, h.1⟩
  unfold SA.geomPoint
  simp only
  set s : ℝ := if x.1 < 0 then -1 else 1 with hs
  have hss : s * s = 1 := by rw [hs]; split <;> norm_num
  have hs0 : s ≠ 0 := by intro h; rw [h] at hss; simp at hss
  have ha : 0 < x.1 / s := by
    rw [hs]
    split
    · next h => rw [div_neg, div_one]; linarith
    · next h => rw [div_one]; exact lt_of_le_of_ne (not_lt.1 h) (Ne.symm h1)
  have hb : 0 < x.2 / s := by
    have : x.2 / s = (x.2 / x.1) * (x.1 / s) := by field_simp
    rw [this]
    exact mul_pos hq ha
  have hqq : (x.2 / s) / (x.1 / s) = x.2 / x.1 := by field_simp
  by_cases hl : (endpoint && decide (1 < n) && k + 1 == n) = true
  · rw [if_pos hl]
    simp only [Bool.and_eq_true, decide_eq_true_eq, beq_iff_eq] at hl
    have hc : ((cells n endpoint false : Int) : ℝ) = k := by
      unfold cells
      rw [hl.1.1]
      simp only [if_true, Bool.false_eq_true, if_false]
      push_cast
      rw [← hl.2]
      push_cast
      ring
    have hk0 : (k : ℝ) ≠ 0 := by
      have : 0 < k := by omega
      exact_mod_cast this.ne'
    rw [hc, div_self hk0, Real.rpow_one]
    field_simp
  · rw [if_neg hl]
    by_cases hk0 : k = 0
    · subst hk0
      simp
      field_simp
    · rw [if_neg (by simpa using hk0), linPoint_eq hk]
      simp only [spacing]
      rw [Real.rpow_add (by norm_num), Real.rpow_logb (by norm_num) (by norm_num) ha, mul_comm (k : ℝ), Real.rpow_mul (by norm_num)]
      have h5 : (10 : ℝ) ^ ((Real.logb 10 (x.2 / s) - Real.logb 10 (x.1 / s)) / ((cells n endpoint false : Int) : ℝ)) =
          (x.2 / x.1) ^ (1 / ((cells n endpoint false : Int) : ℝ)) := by
        rw [← Real.logb_div hb.ne' ha.ne', hqq, div_eq_mul_one_div, Real.rpow_mul (by norm_num),
          Real.rpow_logb (by norm_num) (by norm_num) hq]
      rw [h5, ← Real.rpow_mul hq.le]
      have : 1 / ((cells n endpoint false : Int) : ℝ) * (k : ℝ) = (k : ℝ) / ((cells n endpoint false : Int) : ℝ) := by ring
      rw [this]
      field_simp

/-- **C33** `na.geomspace(start, stop, axis, num, endpoint)` for numbers of the same sign: consecutive points have the constant ratio
`(stop / start) ** (1 / cells)`: the `k`-th point is `start * (stop / start) ** (k / cells)`. -/
theorem C33_geomspace (start stop : SA ℝ) (ha : start.WF) (hb : stop.WF) (S : Shape)
    (hS : broadcastShapes [start.shape, stop.shape] = .ok S) (axis : String) (hax : axis ∉ keys S) (n : Nat) (endpoint : Bool)
    (hpos : ∀ e, InRange S e → 0 < start.atB e * stop.atB e) :
    ∃ r, SA.geomspace start stop axis n endpoint = .ok r ∧ r.WF ∧ r.shape = S ++ [(axis, n)] ∧
      ∀ e, InRange r.shape e →
        r.at' e = start.atB e * (stop.atB e / start.atB e) ^ ((e axis : ℝ) / (cells n endpoint false : ℝ)) := by
  obtain ⟨p, p1, p2, p3, p4⟩ := pair_ok ha hb hS
  obtain ⟨r, r1, r2, r3, r4, r5⟩ := sequence_ok SA.geomPoint p2 (axis := axis)
    (by rw [← SA.keys_shape p2, p3]; exact hax) n endpoint
  rw [p3] at r4
  have hp : ∀ e, InRange p.shape e → 0 < (p.at' e).1 * (p.at' e).2 := by
    intro e he
    rw [← SA.atB_eq_at' p2 he, p4]
    exact hpos e (by rw [← p3]; exact he)
  refine ⟨r, ?_, r2, r4, fun e he => ?_⟩
  · simp only [SA.geomspace, bind, Except.bind, p1]
    rw [if_neg (by omega), if_neg, if_neg]
    · exact r1
    · rw [any_toList_false p2]
      · simp
      · intro e he
        have := hp e he
        simp only [decide_eq_false_iff_not, not_lt]
        exact this.le
    · rw [any_toList_false p2]
      · simp
      · intro e he
        have := hp e he
        simp only [decide_eq_false_iff_not, not_or]
        exact ⟨left_ne_zero_of_mul this.ne', right_ne_zero_of_mul this.ne'⟩
  · have he1 : e axis < n := he axis n (by
      rw [r4, get?_append_single, get?_eq_none.2 hax]; simp)
    have he2 : InRange p.shape e := by
      intro ax m hm
      rw [p3] at hm
      exact he ax m (by rw [r4, get?_append_single, hm])
    rw [r5, geomPoint_eq he1 (hp e he2), ← SA.atB_eq_at' p2 he2, p4]

/-- **C33** Zeros raise `ValueError` in geometric spaces. -/
theorem C33_geomspace_zero (start stop : ℝ) (axis : String) (n : Nat) (endpoint : Bool) (h : start = 0 ∨ stop = 0) :
    SA.geomspace (SA.scalar start) (SA.scalar stop) axis n endpoint = .error .valueError := by
  obtain ⟨p, p1, p2, p3, p4⟩ := pair_ok (fits_scalar [] start).1 (fits_scalar [] stop).1 (S := []) rfl
  simp only [SA.geomspace, bind, Except.bind, p1]
  rw [if_neg (by omega), if_pos]
  have hv : p.at' (fun _ => 0) = (start, stop) := by
    rw [← SA.atB_eq_at' p2 (by rw [p3]; intro ax n hn; simp [get?] at hn), p4]
    rfl
  rw [List.any_eq_true]
  refine ⟨p.at' (fun _ => 0), ?_, by rw [hv]; simpa using h⟩
  unfold ND.toList
  refine List.mem_map.2 ⟨p.axes.map (fun _ => 0), ?_, rfl⟩
  have hx : p.axes = [] := by rw [← SA.keys_shape p2, p3]; rfl
  have hl : p.nd.shape = [] := by
    have := p2.1
    rw [hx] at this
    exact List.length_eq_zero_iff.1 this
  rw [hx, hl]
  simp [ndIndices]

/-! ### Non-vacuity -/

example : ((SA.linspace (⟨["y"], ND.vec [0, 10]⟩ : SA Rat) (SA.scalar 1) "x" 3 true false).toOption.map
    (fun r => (r.axes, r.nd.toList))) = some (["y", "x"], [0, 1 / 2, 1, 10, 11 / 2, 1]) := by decide +kernel
example : ((SA.linspace (SA.scalar (0 : Rat)) (SA.scalar 1) "x" 4 false false).toOption.map (fun r => r.nd.toList)) =
    some [0, 1 / 4, 1 / 2, 3 / 4] := by decide +kernel
example : ((SA.linspace (SA.scalar (0 : Rat)) (SA.scalar 1) "x" 2 true true).toOption.map (fun r => r.nd.toList)) =
    some [1 / 4, 3 / 4] := by decide +kernel
example : ((SA.arangeOf (SA.scalar (0 : Rat)) (SA.scalar 1) "x" (2 / 5)).toOption.map (fun r => r.nd.toList)) =
    some [0, 2 / 5, 4 / 5] := by decide +kernel
example : (0 : ℝ) < 2 * 8 ∧ broadcastShapes [(SA.scalar (2 : ℝ)).shape, (SA.scalar (8 : ℝ)).shape] = .ok [] := ⟨by norm_num, rfl⟩

end NA
