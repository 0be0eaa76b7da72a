import Verif.Optimize.Secant

/-!
# The secant method (C46)
-/

namespace NA
namespace Optimize
open Dict Comp
open SA (FitsIn InRange)
variable {F : Type}

/-! ### Specification -/

/-- The points at which the function is evaluated: `guess - 10 * min_step_size` and the arguments of `callback`. -/
def points (x0 : SA F) (calls : List (Call (SA F) (SA F) (SA Bool))) : List (SA F) := x0 :: calls.map Call.x

/-- The values of the function at these points. -/
def pointValues (f0 : SA F) (calls : List (Call (SA F) (SA F) (SA Bool))) : List (SA F) := f0 :: calls.map Call.f

/-- At iteration `j` the element at the named index `e` has a value below `max_abs_error`, or the step which led to
this iterate is below `min_step_size` in magnitude. -/
def Small (o : Arith F) (minStep err : SA F) (xs fs : List (SA F)) (j : Nat) (e : String → Nat) : Prop :=
  ∃ x x' f', xs[j]? = some x ∧ xs[j + 1]? = some x' ∧ fs[j + 1]? = some f' ∧
    (o.lt (o.abs (f'.atB e)) (err.atB e) = true ∨
      o.lt (o.abs (o.sub (x'.atB e) (x.atB e))) (o.abs (minStep.atB e)) = true)

/-- The zero of the secant through the points `(x0, f0)` and `(x1, f1)`, or a fraction of the way there from `x1`. -/
def secantMove (o : Arith F) (damping : Option F) (x0 x1 f0 f1 : F) : F :=
  let step := o.div f1 (o.div (o.sub f1 f0) (o.sub x1 x0))
  match damping with
  | none => o.sub x1 step
  | some d => o.sub x1 (o.mul d step)

/-! ### Helpers -/

/-- The shapes of the variables of the loop. -/
structure SecantInv (S : Shape) (s : SecantState F) : Prop where
  x0 : s.x0.WF
  f0 : Fits S s.f0
  x1 : s.x1.WF
  x1s : s.x1.shape = S
  c : s.converged.WF
  cs : s.converged.shape = S

theorem full_of_shape {α : Type} {S : Shape} {a : SA α} (h : a.WF) (hs : a.shape = S) : Full S a :=
  ⟨h, fun ax => by rw [hs]⟩

theorem secantInit_ok {o : Arith F} {function : SA F → R (SA F)} {guess minStep err : SA F} (hg : guess.WF)
    (hm : minStep.WF) (hfun : ∀ x y, x.WF → function x = .ok y → y.WF) {s : SecantState F}
    (h : secantInit o function guess minStep err = .ok s) :
    err.shape = [] ∧ s.i = 0 ∧ function s.x0 = .ok s.f0 ∧
      (∀ e, s.x0.atB e = o.sub (guess.atB e) (o.mul o.ten (minStep.atB e))) ∧
      ∃ S, broadcastShapes [s.f0.shape, guess.shape, minStep.shape] = .ok S ∧ SecantInv S s ∧
        (∀ e, s.x1.at' e = guess.atB e) ∧
        ∀ e, InRange S e → s.converged.at' e = !o.eq (o.mul o.zero (s.f0.atB e)) o.zero := by
  simp only [secantInit, bind, Except.bind] at h
  cases h1 : SA.ufunc2 o.mul (SA.scalar o.ten) minStep with
  | error e => rw [h1] at h; cases h
  | ok tenSteps =>
    rw [h1] at h
    simp only at h
    have t1 := ufunc2_atB (fits_scalar [] o.ten).1 hm h1
    cases h2 : SA.ufunc2 o.sub guess tenSteps with
    | error e => rw [h2] at h; cases h
    | ok x0 =>
      rw [h2] at h
      simp only at h
      have t2 := ufunc2_atB hg t1.1 h2
      cases h3 : function x0 with
      | error e => rw [h3] at h; cases h
      | ok f0 =>
        rw [h3] at h
        simp only at h
        have hf0 := hfun _ _ t2.1 h3
        cases hes : err.shape with
        | cons p t => rw [hes] at h; simp at h
        | nil =>
          rw [hes] at h
          simp only [List.isEmpty_nil, Bool.not_true, Bool.false_eq_true, if_false] at h
          cases h4 : broadcastShapes [f0.shape, guess.shape, minStep.shape] with
          | error e => rw [h4] at h; cases h
          | ok S =>
            rw [h4] at h
            simp only at h
            have hw : ∀ t ∈ [f0.shape, guess.shape, minStep.shape], Dict.WF t := by
              intro t ht
              simp only [List.mem_cons, List.not_mem_nil, or_false] at ht
              rcases ht with rfl | rfl | rfl
              · exact SA.wf_shape hf0
              · exact SA.wf_shape hg
              · exact SA.wf_shape hm
            have hS := (C01_broadcast_shapes_ok _ hw _ h4).1
            cases h5 : SA.ufunc2 o.mul (SA.scalar o.zero) f0 with
            | error e => rw [h5] at h; cases h
            | ok z =>
              rw [h5] at h
              simp only at h
              have t3 := ufunc2_atB (fits_scalar [] o.zero).1 hf0 h5
              cases h6 : z.broadcastTo S with
              | error e => rw [h6] at h; cases h
              | ok z' =>
                rw [h6] at h
                simp only at h
                rcases SA.C10_broadcast_to z t3.1 S hS with ⟨_, r, b1, b2, b3, b4⟩ | ⟨_, b1⟩
                · rw [h6] at b1
                  cases b1
                  obtain ⟨conv, c1, c2, c3, c4⟩ := SA.C07_ufunc1_values (fun v => !o.eq v o.zero) z' b2
                  rw [c1] at h
                  simp only at h
                  cases h7 : guess.broadcastTo S with
                  | error e => rw [h7] at h; cases h
                  | ok x1 =>
                    rw [h7] at h
                    simp only [Except.ok.injEq] at h
                    subst h
                    rcases SA.C10_broadcast_to guess hg S hS with ⟨_, r, d1, d2, d3, d4⟩ | ⟨_, d1⟩
                    · rw [h7] at d1
                      cases d1
                      refine ⟨rfl, rfl, h3, fun e => ?_, S, h4, ⟨t2.1, ⟨hf0, ?_⟩, d2, d3, c2, by rw [c3, b3]⟩, d4, ?_⟩
                      · rw [t2.2, t1.2]; rfl
                      · exact SA.fitsIn_of_broadcastShapes hw h4 (by simp)
                      · intro e he
                        simp only [c4, b4, t3.2]
                        rfl
                    · rw [h7] at d1; cases d1
                · rw [h6] at b1; cases b1

/-- Everything about the body of the loop. -/
theorem secantBody_main {o : Arith F} {minStep err : SA F} {damping : Option F} {S : Shape} {s : SecantState F}
    (hs : SecantInv S s) (hm : minStep.WF) (he : err.WF) {f1 : SA F} (hf1 : f1.WF) {r : SA F ⊕ SecantState F}
    (h : secantBody o minStep err damping s ⟨s.i, s.x1, f1, s.converged⟩ = .ok r) :
    Fits S f1 ∧ ∃ conv : SA Bool, conv.WF ∧ conv.shape = S ∧
      (∀ e, InRange S e → conv.at' e = (s.converged.at' e || o.lt (o.abs (f1.atB e)) (err.atB e) ||
        o.lt (o.abs (o.sub (s.x1.atB e) (s.x0.atB e))) (o.abs (minStep.atB e)))) ∧
      ((r = .inl s.x1 ∧ ∀ e, InRange S e → conv.at' e = true) ∨
        ((∃ e, InRange S e ∧ conv.at' e = false) ∧ ∃ x2, r = .inr ⟨s.i + 1, s.x1, x2, f1, conv⟩ ∧ x2.WF ∧ x2.shape = S ∧
          (∀ e, InRange S e → conv.at' e = false → o.eq (o.sub (f1.atB e) (s.f0.atB e)) o.zero = false) ∧
          ∀ e, InRange S e → x2.at' e = if conv.at' e = true then s.x1.at' e else o.sub (s.x1.at' e)
            (correctionOf o damping (o.sub (s.x1.at' e) (s.x0.atB e)) (s.f0.atB e) (f1.atB e)))) := by
  have hx1 := full_of_shape hs.x1 hs.x1s
  simp only [secantBody, bind, Except.bind] at h
  cases h1 : secantMark o minStep err s f1 with
  | error e => rw [h1] at h; cases h
  | ok p =>
    obtain ⟨conv, dx⟩ := p
    rw [h1] at h
    simp only at h
    obtain ⟨a1, a2, a3, a4, a5, a6⟩ := secantMark_ok hx1 hs.x0 hs.c hs.cs hm he hf1 h1
    have hc := full_of_shape a1 a2
    obtain ⟨t, b1, b2⟩ := truth_all a1
    rw [b1] at h
    simp only at h
    refine ⟨a4, conv, a1, a2, fun e he => by rw [hx1.atB he]; exact a6 e he, ?_⟩
    rw [a2] at b2
    cases ht : truth t with
    | true =>
      rw [ht] at h
      simp only [if_true, Except.ok.injEq] at h
      exact .inl ⟨h.symm, b2.1 ht⟩
    | false =>
      rw [ht] at h
      simp only [Bool.false_eq_true, if_false] at h
      right
      constructor
      · by_contra hne
        push Not at hne
        have := b2.2 (fun e he => by simpa using hne e he)
        rw [ht] at this
        cases this
      · cases h2 : secantStep o damping s f1 conv dx with
        | error e => rw [h2] at h; cases h
        | ok s' =>
          rw [h2] at h
          simp only [Except.ok.injEq] at h
          obtain ⟨c1, c2⟩ := secantStep_full hs.f0 a4 hc h2
          rcases secantStep_main o damping s hx1 c1 c2 hc a3 with ⟨_, d⟩ | ⟨d0, x2, d1, d2, d3, d4⟩
          · rw [h2] at d; cases d
          · rw [h2] at d1
            simp only [Except.ok.injEq] at d1
            subst d1
            refine ⟨x2, h.symm, d2, by rw [d3, hs.x1s], fun e he hce => ?_, fun e he => ?_⟩
            · rw [c2.atB he, c1.atB he]
              by_contra hne
              exact d0 ⟨e, he, hce, by simpa using hne⟩
            · rw [d4 e he, a5 e he, c1.atB he, c2.atB he]

/-- Everything about a run. -/
theorem secant_run (o : Arith F) (function : SA F → R (SA F)) (guess minStep err : SA F) (n : Nat) (damping : Option F)
    (hg : guess.WF) (hm : minStep.WF) (he : err.WF) (hfun : ∀ x y, x.WF → function x = .ok y → y.WF)
    {s : SecantState F} (hi : secantInit o function guess minStep err = .ok s)
    (calls : List (Call (SA F) (SA F) (SA Bool))) (result : R (SA F))
    (hrun : rootSecant o function guess minStep err n damping = (calls, result)) :
    ∃ S, broadcastShapes [s.f0.shape, guess.shape, minStep.shape] = .ok S ∧ calls.length ≤ n ∧
    ∃ st : Nat → SecantState F, st 0 = s ∧
      (∀ k, k < calls.length → SecantInv S (st k) ∧ (st k).i = k ∧
        ∃ f, function (st k).x1 = .ok f ∧ calls[k]? = some ⟨k, (st k).x1, f, (st k).converged⟩ ∧
        (points s.x0 calls)[k]? = some (st k).x0 ∧ (pointValues s.f0 calls)[k]? = some (st k).f0 ∧
        ∀ e, InRange S e → ((st k).converged.at' e = true ↔
          o.eq (o.mul o.zero (s.f0.atB e)) o.zero = false ∨ ∃ j < k, Small o minStep err (points s.x0 calls) (pointValues s.f0 calls) j e)) ∧
      (∀ k c, k + 1 < calls.length → calls[k]? = some c →
        secantBody o minStep err damping (st k) c = .ok (.inr (st (k + 1)))) ∧
      (∀ r, result = .ok r → ∃ k c, calls.length = k + 1 ∧ calls[k]? = some c ∧
        secantBody o minStep err damping (st k) c = .ok (.inl r)) ∧
      (∀ x, result = .error x →
        (x = .valueError ∧ calls.length = n) ∨
        (∃ k c s', calls.length = k + 1 ∧ k + 1 < n ∧ calls[k]? = some c ∧ 
          secantBody o minStep err damping (st k) c = .ok (.inr s') ∧ function s'.x1 = .error x) ∨
        (calls = [] ∧ 0 < n ∧ function s.x1 = .error x) ∨
        (∃ k c, calls.length = k + 1 ∧ calls[k]? = some c ∧ secantBody o minStep err damping (st k) c = .error x)) := by
  obtain ⟨i1, i2, i3, i4, S, i5, i6, i7, i8⟩ := secantInit_ok hg hm hfun hi
  refine ⟨S, i5, ?_⟩
  unfold rootSecant at hrun
  rw [hi] at hrun
  simp only at hrun
  obtain ⟨st, h0, h1, h2, h3, h4, h5⟩ := loop_main (secantHead function) (secantBody o minStep err damping) n s
  rw [hrun] at h1 h2 h3 h4 h5
  simp only at h1 h2 h3 h4 h5
  have head : ∀ k c, calls[k]? = some c → ∃ f, function (st k).x1 = .ok f ∧ c = ⟨(st k).i, (st k).x1, f, (st k).converged⟩ := by
    intro k c hc
    have := h2 k c hc
    simp only [secantHead, bind, Except.bind] at this
    cases hf : function (st k).x1 with
    | error e => rw [hf] at this; cases this
    | ok f =>
      rw [hf] at this
      simp only [Except.ok.injEq] at this
      exact ⟨f, rfl, this.symm⟩
  refine ⟨h1, st, h0, ?_, h3, h4, ?_⟩
  · intro k
    induction k with
    | zero =>
      intro hk
      have hc : calls[0]? = some calls[0] := List.getElem?_eq_getElem hk
      obtain ⟨f, f1, f2⟩ := head 0 _ hc
      rw [f2] at hc
      rw [h0] at f1 hc ⊢
      rw [i2] at hc
      refine ⟨i6, i2, f, f1, hc, rfl, rfl, fun e he => ?_⟩
      rw [i8 e he]
      simp
    | succ k ih =>
      intro hk
      obtain ⟨v1, v2, f, v3, v4, v5, v6, v7⟩ := ih (by omega)
      have hc : calls[k + 1]? = some calls[k + 1] := List.getElem?_eq_getElem hk
      obtain ⟨f', g1, g2⟩ := head (k + 1) _ hc
      rw [g2] at hc
      have hb : secantBody o minStep err damping (st k) ⟨(st k).i, (st k).x1, f, (st k).converged⟩ =
          .ok (.inr (st (k + 1))) := by
        rw [v2]
        exact h3 k _ hk v4
      obtain ⟨w0, conv, w1, w2, w3, w4⟩ := secantBody_main v1 hm he (hfun _ _ v1.x1 v3) hb
      rcases w4 with ⟨w4, _⟩ | ⟨_, x2, w4, w5, w6, _, w7⟩
      · cases w4
      simp only [Sum.inr.injEq] at w4
      rw [v2] at w4
      rw [w4] at g1 hc ⊢
      simp only at g1 hc ⊢
      have p1 : (points s.x0 calls)[k + 1]? = some (st k).x1 := by simp [points, v4]
      have p2 : (pointValues s.f0 calls)[k + 1]? = some f := by simp [pointValues, v4]
      refine ⟨⟨v1.x1, w0, w5, w6, w1, w2⟩, by trivial, f', g1, hc, p1, p2, fun e he => ?_⟩
      rw [w3 e he, Bool.or_eq_true, Bool.or_eq_true, v7 e he]
      constructor
      · rintro (((h | ⟨j, hj, h⟩) | h) | h)
        · exact .inl h
        · exact .inr ⟨j, by omega, h⟩
        · exact .inr ⟨k, by omega, _, _, _, v5, p1, p2, .inl h⟩
        · exact .inr ⟨k, by omega, _, _, _, v5, p1, p2, .inr h⟩
      · rintro (h | ⟨j, hj, h⟩)
        · exact .inl (.inl (.inl h))
        · by_cases hjk : j < k
          · exact .inl (.inl (.inr ⟨j, hjk, h⟩))
          · have : j = k := by omega
            subst this
            obtain ⟨x, x', y', q1, q2, q3, q4⟩ := h
            rw [v5] at q1
            rw [p1] at q2
            rw [p2] at q3
            cases q1; cases q2; cases q3
            rcases q4 with q4 | q4
            · exact .inl (.inr q4)
            · exact .inr q4
  · intro x hx
    rcases h5 x hx with ⟨h6, h7, _⟩ | ⟨h6, h7, h8⟩ | ⟨k, c, h6, h7, h8⟩
    · exact .inl ⟨h6, h7⟩
    · have hf : function (st calls.length).x1 = .error x := by
        simp only [secantHead, bind, Except.bind] at h6
        cases hf : function (st calls.length).x1 with
        | error e => rw [hf] at h6; simpa using h6
        | ok f => rw [hf] at h6; cases h6
      cases hl : calls.length with
      | zero =>
        rw [hl, h0] at hf
        exact .inr (.inr (.inl ⟨List.length_eq_zero_iff.1 hl, by omega, hf⟩))
      | succ k =>
        have hc : calls[k]? = some calls[k] := List.getElem?_eq_getElem (by omega)
        rw [hl] at hf
        exact .inr (.inl ⟨k, _, st (k + 1), rfl, by omega, hc, h8 k _ hc, hf⟩)
    · exact .inr (.inr (.inr ⟨k, c, h6, h7, h8⟩))

/-- The statement of the step between two consecutive calls. -/
theorem secant_next {o : Arith F} {function : SA F → R (SA F)} {guess minStep err : SA F} {n : Nat} {damping : Option F}
    (hg : guess.WF) (hm : minStep.WF) (he : err.WF) (hfun : ∀ x y, x.WF → function x = .ok y → y.WF)
    {s : SecantState F} (hi : secantInit o function guess minStep err = .ok s)
    {calls : List (Call (SA F) (SA F) (SA Bool))} {result : R (SA F)}
    (hrun : rootSecant o function guess minStep err n damping = (calls, result)) {S : Shape}
    (hS : broadcastShapes [s.f0.shape, guess.shape, minStep.shape] = .ok S) {k : Nat}
    {c c' : Call (SA F) (SA F) (SA Bool)} (hc : calls[k]? = some c) (hc' : calls[k + 1]? = some c') {e : String → Nat}
    (her : InRange S e) :
    ((o.eq (o.mul o.zero (s.f0.atB e)) o.zero = false ∨
        ∃ j < k + 1, Small o minStep err (points s.x0 calls) (pointValues s.f0 calls) j e) ∧ c'.x.at' e = c.x.at' e) ∨
    (¬ (o.eq (o.mul o.zero (s.f0.atB e)) o.zero = false ∨
        ∃ j < k + 1, Small o minStep err (points s.x0 calls) (pointValues s.f0 calls) j e) ∧
      ∃ x f, (points s.x0 calls)[k]? = some x ∧ (pointValues s.f0 calls)[k]? = some f ∧
        o.eq (o.sub (c.f.atB e) (f.atB e)) o.zero = false ∧
        c'.x.at' e = o.sub (c.x.at' e) (correctionOf o damping (o.sub (c.x.at' e) (x.atB e)) (f.atB e) (c.f.atB e))) := by
  obtain ⟨S', h1, h2, st, h3, h4, h5, _⟩ := secant_run o function guess minStep err n damping hg hm he hfun hi calls result hrun
  rw [hS] at h1
  cases h1
  have hk := (List.getElem?_eq_some_iff.1 hc').1
  obtain ⟨v1, v2, f, v3, v4, v5, v6, v7⟩ := h4 k (by omega)
  obtain ⟨u1, u2, f', u3, u4, u5, u6, u7⟩ := h4 (k + 1) hk
  rw [hc] at v4
  rw [hc'] at u4
  cases v4
  cases u4
  have hb : secantBody o minStep err damping (st k) ⟨(st k).i, (st k).x1, f, (st k).converged⟩ = .ok (.inr (st (k + 1))) := by
    rw [v2]
    exact h5 k _ hk hc
  obtain ⟨w0, conv, w1, w2, w3, w4⟩ := secantBody_main v1 hm he (hfun _ _ v1.x1 v3) hb
  rcases w4 with ⟨w4, _⟩ | ⟨_, x2, w4, w5, w6, w7, w8⟩
  · cases w4
  simp only [Sum.inr.injEq] at w4
  rw [← u7 e her]
  rw [w4]
  simp only
  have := w8 e her
  cases hce : conv.at' e with
  | true =>
    rw [if_pos hce] at this
    exact .inl ⟨rfl, this⟩
  | false =>
    rw [if_neg (by simp [hce])] at this
    exact .inr ⟨by simp, _, _, v5, v6, w7 e her hce, this⟩

/-! ### C46 -/

/-- **C46** (what is returned). If `root_secant` returns `x`, then `x` is the argument of the last of at most `max_iterations`
calls of `callback`, and for each element there is an iteration at which its value was below `max_abs_error` or its last step
was below `min_step_size`, from which on the element was not changed.

The elements at which `0 * function(guess - 10 * min_step_size)` is not zero (it is `nan` where the value is `nan` or
infinite) are excluded: they are taken to be converged before the first iteration, and the guess is returned, see
`C46_nan_refuted`. -/
theorem C46_secant_partial (o : Arith F) (function : SA F → R (SA F)) (guess minStep err : SA F) (n : Nat)
    (damping : Option F) (hg : guess.WF) (hm : minStep.WF) (he : err.WF) (hfun : ∀ x y, x.WF → function x = .ok y → y.WF)
    (calls : List (Call (SA F) (SA F) (SA Bool))) (r : SA F)
    (hrun : rootSecant o function guess minStep err n damping = (calls, .ok r)) :
    ∃ x0 f0, function x0 = .ok f0 ∧ (∀ e, x0.atB e = o.sub (guess.atB e) (o.mul o.ten (minStep.atB e))) ∧
      (∃ (k : Nat) (c : Call (SA F) (SA F) (SA Bool)), calls.length = k + 1 ∧ k < n ∧ calls[k]? = some c ∧ c.x = r) ∧
      broadcastShapes [f0.shape, guess.shape, minStep.shape] = .ok r.shape ∧
      ∀ e, InRange r.shape e → o.eq (o.mul o.zero (f0.atB e)) o.zero = true →
        ∃ j < calls.length, Small o minStep err (points x0 calls) (pointValues f0 calls) j e ∧
          ∀ (i : Nat) (c : Call (SA F) (SA F) (SA Bool)), j ≤ i → calls[i]? = some c → c.x.at' e = r.at' e := by
  cases hi : secantInit o function guess minStep err with
  | error x =>
    unfold rootSecant at hrun
    rw [hi] at hrun
    cases hrun
  | ok s =>
    obtain ⟨i1, i2, i3, i4, _⟩ := secantInit_ok hg hm hfun hi
    obtain ⟨S, h1, h2, st, h3, h4, h5, h6, _⟩ := secant_run o function guess minStep err n damping hg hm he hfun hi calls _ hrun
    obtain ⟨k, c, g1, g2, g3⟩ := h6 r rfl
    obtain ⟨v1, v2, f, v3, v4, v5, v6, v7⟩ := h4 k (by omega)
    have g2' := g2
    rw [v4] at g2
    cases g2
    have hb : secantBody o minStep err damping (st k) ⟨(st k).i, (st k).x1, f, (st k).converged⟩ = .ok (.inl r) := by
      rw [v2]
      exact g3
    obtain ⟨w0, conv, w1, w2, w3, w4⟩ := secantBody_main v1 hm he (hfun _ _ v1.x1 v3) hb
    rcases w4 with ⟨w4, w5⟩ | ⟨_, x2, w4, _⟩
    · simp only [Sum.inl.injEq] at w4
      subst w4
      refine ⟨s.x0, s.f0, i3, i4, ⟨k, _, g1, by omega, v4, rfl⟩, by rw [v1.x1s]; exact h1, fun e her h0 => ?_⟩
      rw [v1.x1s] at her
      have p1 : (points s.x0 calls)[k + 1]? = some (st k).x1 := by simp [points, v4]
      have p2 : (pointValues s.f0 calls)[k + 1]? = some f := by simp [pointValues, v4]
      have hsm : ∃ j < k + 1, Small o minStep err (points s.x0 calls) (pointValues s.f0 calls) j e := by
        have := w5 e her
        rw [w3 e her, Bool.or_eq_true, Bool.or_eq_true, v7 e her, h0] at this
        simp only [Bool.true_eq_false, false_or] at this
        rcases this with (⟨j, hj, h⟩ | h) | h
        · exact ⟨j, by omega, h⟩
        · exact ⟨k, by omega, _, _, _, v5, p1, p2, .inl h⟩
        · exact ⟨k, by omega, _, _, _, v5, p1, p2, .inr h⟩
      obtain ⟨j, hj, hsj⟩ := hsm
      refine ⟨j, by omega, hsj, fun i c' hij hci => ?_⟩
      have hik : i ≤ k := by
        have := (List.getElem?_eq_some_iff.1 hci).1
        omega
      have key : ∀ d i c', d = k - i → j ≤ i → i ≤ k → calls[i]? = some c' → c'.x.at' e = (st k).x1.at' e := by
        intro d
        induction d with
        | zero =>
          intro i c' hd _ hik hci
          have : i = k := by omega
          subst this
          rw [v4] at hci
          cases hci
          rfl
        | succ d ih =>
          intro i c' hd hij hik hci
          have hnext : calls[i + 1]? = some calls[i + 1] := List.getElem?_eq_getElem (by omega)
          rw [← ih (i + 1) _ (by omega) (by omega) (by omega) hnext]
          rcases secant_next hg hm he hfun hi hrun h1 hci hnext her with ⟨_, h⟩ | ⟨h, _⟩
          · exact h.symm
          · exact absurd (.inr ⟨j, by omega, hsj⟩) h
      exact key _ i c' rfl hij hik hci
    · cases w4

/-- **C46** (the calls). The calls of `callback` are numbered from zero, at most `max_iterations` are made, each is given the
value of the function, and the first is given the guess broadcast to the common shape. -/
theorem C46_calls (o : Arith F) (function : SA F → R (SA F)) (guess minStep err : SA F) (n : Nat)
    (damping : Option F) (hg : guess.WF) (hm : minStep.WF) (he : err.WF) (hfun : ∀ x y, x.WF → function x = .ok y → y.WF)
    (calls : List (Call (SA F) (SA F) (SA Bool))) (result : R (SA F))
    (hrun : rootSecant o function guess minStep err n damping = (calls, result)) :
    calls.length ≤ n ∧ (∀ (k : Nat) (c : Call (SA F) (SA F) (SA Bool)), calls[k]? = some c → c.i = k ∧ function c.x = .ok c.f ∧ c.x.WF ∧ c.converged.WF ∧
        c.converged.shape = c.x.shape) ∧
      ∀ c : Call (SA F) (SA F) (SA Bool), calls[0]? = some c → ∀ e, c.x.at' e = guess.atB e := by
  cases hi : secantInit o function guess minStep err with
  | error x =>
    unfold rootSecant at hrun
    rw [hi] at hrun
    cases hrun
    simp
  | ok s =>
    obtain ⟨i1, i2, i3, i4, S', _, _, i7, _⟩ := secantInit_ok hg hm hfun hi
    obtain ⟨S, h1, h2, st, h3, h4, _⟩ := secant_run o function guess minStep err n damping hg hm he hfun hi calls _ hrun
    refine ⟨h2, fun k c hc => ?_, fun c hc e => ?_⟩
    · obtain ⟨v1, v2, f, v3, v4, _⟩ := h4 k (List.getElem?_eq_some_iff.1 hc).1
      rw [hc] at v4
      cases v4
      exact ⟨rfl, v3, v1.x1, v1.c, by rw [v1.cs, v1.x1s]⟩
    · obtain ⟨v1, v2, f, v3, v4, _⟩ := h4 0 (List.getElem?_eq_some_iff.1 hc).1
      rw [hc] at v4
      cases v4
      rw [h3]
      exact i7 e

/-- **C46** (the step). Between two iterations an element is kept if it is converged at this or an earlier iteration;
otherwise the values at the last two points differ there and the element moves to the zero of the secant through them
(or a fraction `damping` of the way).  Elements do not influence each other. -/
theorem C46_step (o : Arith F) (function : SA F → R (SA F)) (guess minStep err : SA F) (n : Nat)
    (damping : Option F) (hg : guess.WF) (hm : minStep.WF) (he : err.WF) (hfun : ∀ x y, x.WF → function x = .ok y → y.WF)
    (calls : List (Call (SA F) (SA F) (SA Bool))) (result : R (SA F))
    (hrun : rootSecant o function guess minStep err n damping = (calls, result)) :
    calls = [] ∨ ∃ x0 f0 S, function x0 = .ok f0 ∧ (∀ e, x0.atB e = o.sub (guess.atB e) (o.mul o.ten (minStep.atB e))) ∧
      broadcastShapes [f0.shape, guess.shape, minStep.shape] = .ok S ∧
      ∀ (k : Nat) (c c' : Call (SA F) (SA F) (SA Bool)) e, calls[k]? = some c → calls[k + 1]? = some c' → InRange S e →
        o.eq (o.mul o.zero (f0.atB e)) o.zero = true → c.x.shape = S ∧
        ((∃ j ≤ k, Small o minStep err (points x0 calls) (pointValues f0 calls) j e) → c'.x.at' e = c.x.at' e) ∧
        ((¬ ∃ j ≤ k, Small o minStep err (points x0 calls) (pointValues f0 calls) j e) →
          ∃ x f, (points x0 calls)[k]? = some x ∧ (pointValues f0 calls)[k]? = some f ∧
            o.eq (o.sub (c.f.atB e) (f.atB e)) o.zero = false ∧
            c'.x.at' e = secantMove o damping (x.atB e) (c.x.at' e) (f.atB e) (c.f.atB e)) := by
  cases hi : secantInit o function guess minStep err with
  | error x =>
    unfold rootSecant at hrun
    rw [hi] at hrun
    cases hrun
    exact .inl rfl
  | ok s =>
    right
    obtain ⟨i1, i2, i3, i4, _⟩ := secantInit_ok hg hm hfun hi
    obtain ⟨S, h1, h2, st, h3, h4, _⟩ := secant_run o function guess minStep err n damping hg hm he hfun hi calls _ hrun
    refine ⟨s.x0, s.f0, S, i3, i4, h1, fun k c c' e hc hc' her h0 => ⟨?_, fun hsm => ?_, fun hsm => ?_⟩⟩
    · obtain ⟨v1, v2, f, v3, v4, _⟩ := h4 k (List.getElem?_eq_some_iff.1 hc).1
      rw [hc] at v4
      cases v4
      exact v1.x1s
    · obtain ⟨j, hj, hsj⟩ := hsm
      rcases secant_next hg hm he hfun hi hrun h1 hc hc' her with ⟨_, h⟩ | ⟨h, _⟩
      · exact h
      · exact absurd (.inr ⟨j, by omega, hsj⟩) h
    · rcases secant_next hg hm he hfun hi hrun h1 hc hc' her with ⟨h, _⟩ | ⟨_, x, f, q1, q2, q3, q4⟩
      · rcases h with h | ⟨j, hj, h⟩
        · rw [h0] at h; cases h
        · exact absurd ⟨j, by omega, h⟩ hsm
      · refine ⟨x, f, q1, q2, q3, ?_⟩
        rw [q4]
        cases damping <;> rfl

/-- **C46** (giving up). If no result is returned, then `max_iterations` iterations were made and a `ValueError` is raised, or the
exception was raised before the loop, by the function at an iterate, or by the computations of the last iteration. -/
theorem C46_gives_up (o : Arith F) (function : SA F → R (SA F)) (guess minStep err : SA F) (n : Nat)
    (damping : Option F) (hg : guess.WF) (hm : minStep.WF) (he : err.WF) (hfun : ∀ x y, x.WF → function x = .ok y → y.WF)
    (calls : List (Call (SA F) (SA F) (SA Bool))) (x : Err)
    (hrun : rootSecant o function guess minStep err n damping = (calls, .error x)) :
    (x = .valueError ∧ calls.length = n) ∨ secantInit o function guess minStep err = .error x ∨
      (∃ a : SA F, a.WF ∧ function a = .error x) ∨
      ∃ (x0 f0 : SA F) (k : Nat) (c : Call (SA F) (SA F) (SA Bool)) (a b : SA F), function x0 = .ok f0 ∧
        (∀ e, x0.atB e = o.sub (guess.atB e) (o.mul o.ten (minStep.atB e))) ∧ calls.length = k + 1 ∧
        calls[k]? = some c ∧ (points x0 calls)[k]? = some a ∧ (pointValues f0 calls)[k]? = some b ∧
        secantBody o minStep err damping ⟨k, a, c.x, b, c.converged⟩ c = .error x := by
  cases hi : secantInit o function guess minStep err with
  | error y =>
    unfold rootSecant at hrun
    rw [hi] at hrun
    cases hrun
    exact .inr (.inl rfl)
  | ok s =>
    obtain ⟨i1, i2, i3, i4, _, _, i6, _⟩ := secantInit_ok hg hm hfun hi
    obtain ⟨S, h1, h2, st, h3, h4, h5, _, h7⟩ := secant_run o function guess minStep err n damping hg hm he hfun hi calls _ hrun
    rcases h7 x rfl with h | ⟨k, c, s', g1, g2, g3, g4, g5⟩ | ⟨_, _, g⟩ | ⟨k, c, g1, g2, g3⟩
    · exact .inl h
    · obtain ⟨v1, v2, f, v3, v4, _⟩ := h4 k (by omega)
      rw [g3] at v4
      cases v4
      have hb : secantBody o minStep err damping (st k) ⟨(st k).i, (st k).x1, f, (st k).converged⟩ = .ok (.inr s') := by
        rw [v2]
        exact g4
      obtain ⟨w0, conv, w1, w2, w3, w4⟩ := secantBody_main v1 hm he (hfun _ _ v1.x1 v3) hb
      rcases w4 with ⟨w4, _⟩ | ⟨_, x2, w4, w5, _⟩
      · cases w4
      · simp only [Sum.inr.injEq] at w4
        subst w4
        exact .inr (.inr (.inl ⟨_, w5, g5⟩))
    · exact .inr (.inr (.inl ⟨_, i6.x1, g⟩))
    · obtain ⟨v1, v2, f, v3, v4, v5, v6, _⟩ := h4 k (by omega)
      rw [g2] at v4
      cases v4
      refine .inr (.inr (.inr ⟨s.x0, s.f0, k, _, (st k).x0, (st k).f0, i3, i4, g1, g2, v5, v6, ?_⟩))
      rw [← g3]
      congr 1
      cases hst : st k
      rw [hst] at v2
      simp only at v2
      simp [v2]

theorem fits_of_same {α : Type} {S S' : Shape} (h : Same S S') {a : SA α} (ha : Fits S a) : Fits S' a :=
  ⟨ha.1, fun ax m hm => by obtain ⟨n, hn, h2⟩ := ha.2 ax m hm; exact ⟨n, by rw [← h ax]; exact hn, h2⟩⟩

theorem full_of_same {α : Type} {S S' : Shape} (h : Same S S') {a : SA α} (ha : Full S a) : Full S' a :=
  ⟨ha.1, fun ax => by rw [ha.2 ax, h ax]⟩

theorem fits_of_nil {α : Type} {S : Shape} {a : SA α} (ha : a.WF) (h : a.shape = []) : Fits S a :=
  ⟨ha, fun ax m hm => by rw [h] at hm; cases hm⟩

theorem secantMark_isOk (o : Arith F) {S : Shape} {s : SecantState F} (hs : SecantInv S s) (hx0 : Fits S s.x0) {minStep err f1 : SA F}
    (hm : Fits S minStep) (he : Fits S err) (hf1 : Fits S f1) : ∃ p, secantMark o minStep err s f1 = .ok p := by
  obtain ⟨a, a1, a2, _⟩ := ufunc1_fits' o.abs hf1
  obtain ⟨c, b1, b2, _⟩ := ufunc2_fits' o.lt a2 he
  obtain ⟨conv, c1⟩ := inplace2_isOk or hs.c b2.1 (by rw [hs.cs]; exact b2.2)
  obtain ⟨c2, _, c3, _⟩ := inplace2_ok hs.c b2.1 c1
  obtain ⟨dx, d1, d2, _⟩ := ufunc2_fits' o.sub (full_of_shape hs.x1 hs.x1s).fits hx0
  obtain ⟨ad, e1, e2, _⟩ := ufunc1_fits' o.abs d2
  obtain ⟨am, f1, f2, _⟩ := ufunc1_fits' o.abs hm
  obtain ⟨c', g1, g2, _⟩ := ufunc2_fits' o.lt e2 f2
  obtain ⟨conv', h1⟩ := inplace2_isOk or c2 g2.1 (by rw [c3, hs.cs]; exact g2.2)
  exact ⟨(conv', dx), by simp only [secantMark, bind, Except.bind, a1, b1, c1, d1, e1, f1, g1, h1]⟩

/-- The body of the loop fails only at stationary points. -/
theorem secantBody_total (o : Arith F) (damping : Option F) {S : Shape} {s : SecantState F} (hs : SecantInv S s)
    (hx0 : Fits S s.x0) (hf0 : Full S s.f0) {minStep err f1 : SA F} (hm : Fits S minStep) (he : Fits S err) (hf1 : Full S f1)
    {x : Err} (h : secantBody o minStep err damping s ⟨s.i, s.x1, f1, s.converged⟩ = .error x) :
    x = .valueError ∧ ∃ e, InRange S e ∧ (s.converged.at' e || o.lt (o.abs (f1.atB e)) (err.atB e) ||
        o.lt (o.abs (o.sub (s.x1.atB e) (s.x0.atB e))) (o.abs (minStep.atB e))) = false ∧
      o.eq (o.sub (f1.atB e) (s.f0.atB e)) o.zero = true := by
  have hx1 := full_of_shape hs.x1 hs.x1s
  obtain ⟨⟨conv, dx⟩, h1⟩ := secantMark_isOk o hs hx0 hm he hf1.fits
  obtain ⟨a1, a2, a3, a4, a5, a6⟩ := secantMark_ok hx1 hs.x0 hs.c hs.cs hm.1 he.1 hf1.1 h1
  obtain ⟨t, b1, b2⟩ := truth_all a1
  simp only [secantBody, bind, Except.bind, h1, b1] at h
  split at h
  · cases h
  · rcases secantStep_main o damping s hx1 hf0 hf1 (full_of_shape a1 a2) a3 with ⟨⟨e, d1, d2, d3⟩, d⟩ | ⟨_, x2, d, _⟩
    · rw [d] at h
      simp only [Except.error.injEq] at h
      refine ⟨h.symm, e, d1, ?_, ?_⟩
      · rw [hx1.atB d1, ← a6 e d1]; exact d2
      · rw [hf1.atB d1, hf0.atB d1]; exact d3
    · rw [d] at h
      cases h

/-- **C46** (no other failures). If the function returns an array of the shape of its argument and `min_step_size` and
`max_abs_error` are broadcastable to it, then `root_secant` raises nothing but `ValueError`, and this only after `max_iterations`
iterations or at a stationary point: at an element which has not converged the values at the last two points are
equal. -/
theorem C46_failures (o : Arith F) (function : SA F → R (SA F)) (guess minStep err : SA F) (n : Nat)
    (damping : Option F) (S : Shape) (hg : Full S guess) (hm : Fits S minStep) (he : err.WF) (hes : err.shape = [])
    (hfun : ∀ x y, x.WF → function x = .ok y → y.WF) (hfull : ∀ x, Full S x → ∃ y, function x = .ok y ∧ Full S y)
    (calls : List (Call (SA F) (SA F) (SA Bool))) (x : Err)
    (hrun : rootSecant o function guess minStep err n damping = (calls, .error x)) :
    x = .valueError ∧ (calls.length = n ∨ ∃ (x0 f0 : SA F) (k : Nat) (c : Call (SA F) (SA F) (SA Bool)) (f : SA F) (e : String → Nat),
      function x0 = .ok f0 ∧ (∀ e, x0.atB e = o.sub (guess.atB e) (o.mul o.ten (minStep.atB e))) ∧
      calls.length = k + 1 ∧ calls[k]? = some c ∧ (pointValues f0 calls)[k]? = some f ∧ InRange S e ∧
      (¬ ∃ j ≤ k, Small o minStep err (points x0 calls) (pointValues f0 calls) j e) ∧
      o.eq (o.sub (c.f.atB e) (f.atB e)) o.zero = true) := by
  have hinit : ∃ s, secantInit o function guess minStep err = .ok s ∧ Fits S s.x0 ∧ Full S s.f0 := by
    obtain ⟨t, a1, a2, _⟩ := ufunc2_fits' o.mul (fits_scalar S o.ten) hm
    obtain ⟨x0, b1, b2, _⟩ := ufunc2_full o.sub hg a2
    obtain ⟨f0, c1, c2⟩ := hfull x0 b2
    have hsame : Same S f0.shape := fun ax => (c2.2 ax).symm
    have hbs : broadcastShapes [f0.shape, guess.shape, minStep.shape] = .ok f0.shape := by
      refine broadcastShapes_fits_all (fun t ht => ?_)
      simp only [List.mem_cons, List.not_mem_nil, or_false] at ht
      rcases ht with rfl | rfl
      · exact ⟨SA.wf_shape hg.1, (fits_of_same hsame hg.fits).2⟩
      · exact ⟨SA.wf_shape hm.1, (fits_of_same hsame hm).2⟩
    obtain ⟨z, d1, d2, _⟩ := ufunc2_fits' o.mul (fits_scalar f0.shape o.zero) (fits_of_same hsame c2.fits)
    rcases SA.C10_broadcast_to z d2.1 f0.shape (SA.wf_shape c2.1) with ⟨_, z', e1, e2, e3, _⟩ | ⟨h, _⟩
    · obtain ⟨conv, g1, _⟩ := SA.C07_ufunc1_values (fun v => !o.eq v o.zero) z' e2
      rcases SA.C10_broadcast_to guess hg.1 f0.shape (SA.wf_shape c2.1) with ⟨_, x1, i1, _⟩ | ⟨h, _⟩
      · refine ⟨⟨0, x0, x1, f0, conv⟩, ?_, b2.fits, c2⟩
        simp only [secantInit, bind, Except.bind, a1, b1, c1, hes, List.isEmpty_nil, Bool.not_true, Bool.false_eq_true,
          if_false, hbs, d1, e1, g1, i1]
      · exact absurd (fits_of_same hsame hg.fits).2 h
    · exact absurd d2.2 h
  obtain ⟨s, hi, hsx0, hsf0⟩ := hinit
  obtain ⟨i1, i2, i3, i4, S1, i5, i6, _, i8⟩ := secantInit_ok hg.1 hm.1 hfun hi
  obtain ⟨S'', h1, h2, st, h3, h4, h5, h6, h7⟩ :=
    secant_run o function guess minStep err n damping hg.1 hm.1 he hfun hi calls _ hrun
  have hS1 : S'' = S1 := by
    rw [h1] at i5
    exact Except.ok.inj i5
  subst hS1
  have hSS : Same S S'' := by
    have hbs : broadcastShapes [s.f0.shape, guess.shape, minStep.shape] = .ok s.f0.shape := by
      have hsame : Same S s.f0.shape := fun ax => (hsf0.2 ax).symm
      refine broadcastShapes_fits_all (fun t ht => ?_)
      simp only [List.mem_cons, List.not_mem_nil, or_false] at ht
      rcases ht with rfl | rfl
      · exact ⟨SA.wf_shape hg.1, (fits_of_same hsame hg.fits).2⟩
      · exact ⟨SA.wf_shape hm.1, (fits_of_same hsame hm).2⟩
    rw [h1] at hbs
    cases hbs
    exact fun ax => (hsf0.2 ax).symm
  have hSS' : Same S'' S := fun ax => (hSS ax).symm
  have hok : ∀ {a : SA F}, a.WF → a.shape = S'' → ∃ y, function a = .ok y ∧ Full S'' y := by
    intro a ha has
    obtain ⟨y, y1, y2⟩ := hfull a (full_of_same hSS' (full_of_shape ha has))
    exact ⟨y, y1, full_of_same hSS y2⟩
  have hprev : ∀ k, k < calls.length → Fits S'' (st k).x0 ∧ Full S'' (st k).f0 := by
    intro k
    cases k with
    | zero => intro _; rw [h3]; exact ⟨fits_of_same hSS hsx0, full_of_same hSS hsf0⟩
    | succ k =>
      intro hk
      obtain ⟨v1, v2, f, v3, v4, _⟩ := h4 k (by omega)
      have hb : secantBody o minStep err damping (st k) ⟨(st k).i, (st k).x1, f, (st k).converged⟩ =
          .ok (.inr (st (k + 1))) := by
        rw [v2]
        exact h5 k _ hk v4
      obtain ⟨_, conv, _, _, _, w4⟩ := secantBody_main v1 hm.1 he (hfun _ _ v1.x1 v3) hb
      rcases w4 with ⟨w4, _⟩ | ⟨_, x2, w4, _⟩
      · cases w4
      · simp only [Sum.inr.injEq] at w4
        rw [w4]
        obtain ⟨y, y1, y2⟩ := hok v1.x1 v1.x1s
        rw [v3] at y1
        cases y1
        exact ⟨(full_of_shape v1.x1 v1.x1s).fits, y2⟩
  rcases h7 x rfl with ⟨g1, g2⟩ | ⟨k, c, s', g1, g2, g3, g4, g5⟩ | ⟨_, _, g⟩ | ⟨k, c, g1, g2, g3⟩
  · exact ⟨g1, .inl g2⟩
  · obtain ⟨v1, v2, f, v3, v4, _⟩ := h4 k (by omega)
    rw [g3] at v4
    cases v4
    have hb : secantBody o minStep err damping (st k) ⟨(st k).i, (st k).x1, f, (st k).converged⟩ = .ok (.inr s') := by
      rw [v2]
      exact g4
    obtain ⟨w0, conv, w1, w2, w3, w4⟩ := secantBody_main v1 hm.1 he (hfun _ _ v1.x1 v3) hb
    rcases w4 with ⟨w4, _⟩ | ⟨_, x2, w4, w5, w6, _⟩
    · cases w4
    · simp only [Sum.inr.injEq] at w4
      subst w4
      obtain ⟨y, y1, _⟩ := hok w5 w6
      simp only [y1] at g5
      cases g5
  · obtain ⟨y, y1, _⟩ := hok i6.x1 i6.x1s
    rw [y1] at g
    cases g
  · obtain ⟨v1, v2, f, v3, v4, v5, v6, v7⟩ := h4 k (by omega)
    rw [g2] at v4
    cases v4
    have hb : secantBody o minStep err damping (st k) ⟨(st k).i, (st k).x1, f, (st k).converged⟩ = .error x := by
      rw [v2]
      exact g3
    obtain ⟨y, y1, y2⟩ := hok v1.x1 v1.x1s
    rw [v3] at y1
    cases y1
    obtain ⟨p1, p2⟩ := hprev k (by omega)
    obtain ⟨q1, e, q2, q3, q4⟩ := secantBody_total o damping v1 p1 p2 (fits_of_same hSS hm) (fits_of_nil he hes) y2 hb
    refine ⟨q1, .inr ⟨s.x0, s.f0, k, _, _, e, i3, i4, g1, g2, v6, ?_, ?_, q4⟩⟩
    · exact fun ax m hm => q2 ax m (by rw [← hSS ax]; exact hm)
    · rintro ⟨j, hj, hsj⟩
      simp only [Bool.or_eq_false_iff] at q3
      obtain ⟨⟨q5, q6⟩, q7⟩ := q3
      by_cases hjk : j < k
      · have := (v7 e q2).2 (.inr ⟨j, hjk, hsj⟩)
        rw [q5] at this
        cases this
      · have : j = k := by omega
        subst this
        obtain ⟨x, x', y', r1, r2, r3, r4⟩ := hsj
        have t1 : (points s.x0 calls)[j + 1]? = some (st j).x1 := by simp [points, g2]
        have t2 : (pointValues s.f0 calls)[j + 1]? = some f := by simp [pointValues, g2]
        rw [v5] at r1
        rw [t1] at r2
        rw [t2] at r3
        cases r1; cases r2; cases r3
        rcases r4 with r4 | r4
        · rw [q6] at r4; cases r4
        · rw [q7] at r4; cases r4

/-! ### Examples -/

/-- numbers with a `nan`: it is different from everything, and operations on it give it -/
def nanArith : Arith (Option Int) where
  add a b := do some ((← a) + (← b))
  sub a b := do some ((← a) - (← b))
  mul a b := do some ((← a) * (← b))
  div a b := do if (← b) = 0 then none else some ((← a) / (← b))
  abs a := a.map (fun v => v.natAbs)
  lt a b := match a, b with
    | some a, some b => decide (a < b)
    | _, _ => false
  eq a b := match a, b with
    | some a, some b => decide (a = b)
    | _, _ => false
  zero := some 0
  ten := some 10

/-- a function which is `2 * x - 12` for positive numbers and `nan` for negative ones -/
def exPositive (x : SA (Option Int)) : R (SA (Option Int)) :=
  SA.ufunc1 (fun v => v.bind (fun v => if 0 ≤ v then some (2 * v - 12) else none)) x

/-- the guesses `[20, 2]`; the second starts from `2 - 10 * 1 < 0` -/
def exGuesses : SA (Option Int) := ⟨["y"], ND.vec [some 20, some 2]⟩

def exSecant (guess : SA (Option Int)) : List (Call (SA (Option Int)) (SA (Option Int)) (SA Bool)) × R (SA (Option Int)) :=
  rootSecant nanArith exPositive guess (SA.scalar (some 1)) (SA.scalar (some 1)) 5 none

def exSecantCheck : Bool :=
  match exSecant exGuesses with
  | (calls, .ok x) => decide (calls.length = 2 ∧ x.axes = ["y"] ∧ x.nd.toList = [some 6, some 2]) &&
    (match exPositive x with
      | .ok f => decide (f.nd.toList = [some 0, some (-8)])
      | .error _ => false)
  | _ => false

/-- **C46** fails where `function(guess - 10 * min_step_size)` is `nan`: for the guesses `20` and `2` of the root `6` of a function
which is `nan` for negative numbers, `2` is returned as the second root although the function is `-8` there and no
step was made. -/
theorem C46_nan_refuted : ∃ (calls : List (Call (SA (Option Int)) (SA (Option Int)) (SA Bool))) (x f : SA (Option Int)),
    exSecant exGuesses = (calls, .ok x) ∧ exPositive x = .ok f ∧ calls.length = 2 ∧
    x.nd.toList = [some 6, some 2] ∧ f.nd.toList = [some 0, some (-8)] := by
  have h : exSecantCheck = true := by decide +kernel
  unfold exSecantCheck at h
  split at h
  · next calls x hx =>
    simp only [Bool.and_eq_true, decide_eq_true_eq] at h
    obtain ⟨⟨h1, h2, h3⟩, h4⟩ := h
    split at h4
    · next f hf =>
      simp only [decide_eq_true_eq] at h4
      exact ⟨calls, x, f, hx, hf, h1, h3, h4⟩
    · cases h4
  · cases h

/-- the values of a result -/
def exSecantValues : R (SA (Option Int)) → Option (List String × List (Option Int))
  | .ok a => some (a.axes, a.nd.toList)
  | _ => none

-- without `nan` both roots are found
example : (exSecant ⟨["y"], ND.vec [some 20, some 16]⟩).1.length = 2 ∧
    exSecantValues (exSecant ⟨["y"], ND.vec [some 20, some 16]⟩).2 = some (["y"], [some 6, some 6]) := by decide +kernel

-- the hypotheses of `C46_secant_partial` and of `C46_failures` hold
example : exGuesses.WF ∧ (SA.scalar (some (1 : Int))).WF ∧ (∀ x y, x.WF → exPositive x = .ok y → y.WF) ∧
    Full [("y", 2)] exGuesses ∧ (∀ x, Full [("y", 2)] x → ∃ y, exPositive x = .ok y ∧ Full [("y", 2)] y) := by
  refine ⟨⟨by decide, by decide⟩, (fits_scalar [] _).1, fun x y hx h => ?_, full_of_shape ⟨by decide, by decide⟩ (by decide),
    fun x hx => ?_⟩
  · obtain ⟨r, h1, h2, _⟩ := SA.C07_ufunc1_values
      (fun v : Option Int => v.bind (fun v => if 0 ≤ v then some (2 * v - 12) else none)) x hx
    unfold exPositive at h
    rw [h1] at h
    cases h
    exact h2
  · obtain ⟨c, h1, h2, _⟩ := ufunc1_full
      (fun v : Option Int => v.bind (fun v => if 0 ≤ v then some (2 * v - 12) else none)) hx
    exact ⟨c, h1, h2⟩

end Optimize
end NA
