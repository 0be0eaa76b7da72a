import Verif.Space.Basic
import Verif.Scalar.Arith
import Mathlib.Tactic.FieldSimp
import Mathlib.Tactic.Linarith
import Mathlib.Tactic.Positivity

/-! Lemmas about ranges and spaces. -/

namespace NA
open Dict
open SA (FitsIn InRange)

theorem get?_append_single (s : Shape) (axis : String) (n : Nat) (ax : String) :
    get? (s ++ [(axis, n)]) ax = match get? s ax with
      | some m => some m
      | none => if axis = ax then some n else none := by
  induction s with
  | nil => simp only [List.nil_append]; rw [get?_cons]; simp [get?]
  | cons p s ih =>
    rw [List.cons_append, get?_cons, get?_cons, ih]
    by_cases h : p.1 = ax <;> simp [h]

theorem sequence_ok {α β : Type} (point : Nat → Bool → β → Nat → α) {p : SA β} (hp : p.WF) {axis : String} (hax : axis ∉ p.axes)
    (n : Nat) (endpoint : Bool) :
    ∃ r, SA.sequence point p axis n endpoint = .ok r ∧ r.WF ∧ r.axes = p.axes ++ [axis] ∧ r.shape = p.shape ++ [(axis, n)] ∧
      ∀ e, r.at' e = point n endpoint (p.at' e) (e axis) := by
  have hl : p.nd.shape.length = p.axes.length := hp.1
  have hnd : (p.axes ++ [axis]).Nodup := by
    rw [List.nodup_append]
    refine ⟨hp.2, by simp, ?_⟩
    intro x hx y hy h
    rw [List.mem_singleton] at hy
    subst hy; subst h
    exact hax hx
  refine ⟨⟨p.axes ++ [axis], ⟨p.nd.shape ++ [n], fun i => point n endpoint (p.nd.get i.dropLast) (i.getLastD 0)⟩⟩,
    ?_, ⟨?_, hnd⟩, rfl, ?_, ?_⟩
  · unfold SA.sequence SA.mk?
    rw [if_neg (by omega), if_neg, if_neg (not_not.2 hnd)]
    · rfl
    · simp [ND.ndim, hl]
  · simp [ND.ndim, hl]
  · unfold SA.shape
    rw [List.zip_append hl.symm]
    rfl
  · intro e
    simp [SA.at']

theorem sequence_dup {α β : Type} (point : Nat → Bool → β → Nat → α) {p : SA β} {axis : String} (hax : axis ∈ p.axes)
    (num : Int) (endpoint : Bool) : SA.sequence point p axis num endpoint = .error .valueError := by
  unfold SA.sequence
  split
  · rfl
  · unfold SA.mk?
    split
    · rfl
    · rw [if_pos]
      intro h
      rw [List.nodup_append] at h
      exact h.2.2 axis hax axis (by simp) rfl

section
variable {K : Type} [Field K] [LinearOrder K] [IsStrictOrderedRing K]

/-- The number of intervals between the points, or of cells. -/
def cells (n : Nat) (endpoint centers : Bool) : Int :=
  (n : Int) - (if endpoint then 1 else 0) + (if centers then 1 else 0)

/-- The spacing of the points. -/
def spacing (n : Nat) (endpoint centers : Bool) (start stop : K) : K := (stop - start) / (cells n endpoint centers : K)

/-- Closed form of the points of `numpy.linspace`. -/
theorem linPoint_eq {n : Nat} {endpoint : Bool} {x : K × K} {k : Nat} (hk : k < n) :
    SA.linPoint n endpoint x k = x.1 + (k : K) * spacing n endpoint false x.1 x.2 := by
  unfold SA.linPoint spacing cells
  cases endpoint with
  | false =>
    have : 0 < n := by omega
    simp [this]
    ring
  | true =>
    simp only [Bool.true_and, if_true, Bool.false_eq_true, if_false, add_zero]
    by_cases h1 : 1 < n
    · have hpos : (0 : Int) < (n : Int) - 1 := by omega
      have hne : ((n : K) - 1) ≠ 0 := by
        have : (1 : K) < n := by exact_mod_cast h1
        linarith
      simp only [h1, decide_true, Bool.true_and, beq_iff_eq, hpos, if_true]
      push_cast
      split
      · next h =>
        have hk' : (k : K) = (n : K) - 1 := by rw [← h]; push_cast; ring
        rw [hk']
        field_simp
        ring
      · ring
    · have hn : n = 1 := by omega
      have hk0 : k = 0 := by omega
      subst hn; subst hk0
      simp

/-- Two arrays which broadcast to `S`, read together. -/
theorem pair_ok {α β : Type} {a : SA α} {b : SA β} (ha : a.WF) (hb : b.WF) {S : Shape}
    (hS : broadcastShapes [a.shape, b.shape] = .ok S) :
    ∃ p, SA.ufunc2 Prod.mk a b = .ok p ∧ p.WF ∧ p.shape = S ∧ ∀ e, p.atB e = (a.atB e, b.atB e) := by
  obtain ⟨c, hc⟩ := SA.ufunc2_isOk ha hb hS Prod.mk
  obtain ⟨h3, h4, h5⟩ := SA.ufunc2_ok ha hb hc
  have hss : ∀ u ∈ [a.shape, b.shape], WF u := by
    intro u hu
    simp only [List.mem_cons, List.not_mem_nil, or_false] at hu
    rcases hu with rfl | rfl
    · exact SA.wf_shape ha
    · exact SA.wf_shape hb
  rw [hS] at h4
  injection h4 with h4
  have h1 := fun s hs => SA.fitsIn_of_broadcastShapes hss (hS.trans (by rw [h4])) (s := s) hs
  refine ⟨c, hc, h3, h4.symm, fun e => ?_⟩
  rw [SA.atB, h5, atB_clip ha (h1 _ (by simp)), atB_clip hb (h1 _ (by simp))]

theorem fits_pair {α β : Type} {a : SA α} {b : SA β} (ha : a.WF) (hb : b.WF) {S : Shape}
    (hS : broadcastShapes [a.shape, b.shape] = .ok S) : Fits S a ∧ Fits S b := by
  have hss : ∀ u ∈ [a.shape, b.shape], WF u := by
    intro u hu
    simp only [List.mem_cons, List.not_mem_nil, or_false] at hu
    rcases hu with rfl | rfl
    · exact SA.wf_shape ha
    · exact SA.wf_shape hb
  exact ⟨⟨ha, SA.fitsIn_of_broadcastShapes hss hS (by simp)⟩, ⟨hb, SA.fitsIn_of_broadcastShapes hss hS (by simp)⟩⟩

/-- `step` in closed form. -/
theorem step_ok {start stop : SA K} (ha : start.WF) (hb : stop.WF) {S : Shape}
    (hS : broadcastShapes [start.shape, stop.shape] = .ok S) {n : Nat} {endpoint centers : Bool} (hc : cells n endpoint centers ≠ 0) :
    ∃ w, SA.step start stop n endpoint centers = .ok w ∧ Full S w ∧
      ∀ e, w.atB e = spacing n endpoint centers (start.atB e) (stop.atB e) := by
  obtain ⟨hfa, hfb⟩ := fits_pair ha hb hS
  obtain ⟨d, d1, d2, d3⟩ := ufunc2_fits' (· - ·) hfb hfa
  have hfull : Full S d := by
    refine ⟨d2.1, ?_⟩
    obtain ⟨_, h4, _⟩ := SA.ufunc2_ok hb ha d1
    have h5 := C02_order_and_repetition [stop.shape, start.shape] [start.shape, stop.shape] (by
      intro u hu
      simp only [List.mem_cons, List.not_mem_nil, or_false] at hu
      rcases hu with rfl | rfl
      · exact SA.wf_shape hb
      · exact SA.wf_shape ha) (by intro s; simp [or_comm])
    rw [h4, hS] at h5
    exact h5
  obtain ⟨w, w1, w2, w3⟩ := ufunc2_full (· / ·) hfull (fits_scalar S (cells n endpoint centers : K))
  refine ⟨w, ?_, w2, fun e => ?_⟩
  · unfold SA.step
    simp only [bind, Except.bind, d1]
    have : (if centers = true then (if endpoint = true then (n : Int) - 1 else n) + 1 else if endpoint = true then (n : Int) - 1 else n)
        = cells n endpoint centers := by
      unfold cells
      cases endpoint <;> cases centers <;> simp
    rw [this, if_neg hc]
    exact w1
  · rw [w3, d3]
    rfl

theorem cells_centers (n : Nat) (endpoint : Bool) : cells n endpoint true = cells n endpoint false + 1 := by
  unfold cells; cases endpoint <;> simp

end
end NA
