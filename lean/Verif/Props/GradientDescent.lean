import Verif.Props.Newton

/-!
# Gradient descent (C59)
-/

namespace NA
namespace Optimize
open Dict Comp
open SA (FitsIn InRange)
variable {F : Type}

/-! ### Helpers -/

theorem descentInit_ok {o : Arith F} {function : Comp (SA F) → R (Comp (SA F))} {guess minGradient : Comp (SA F)}
    {s : DescentState F} (h : descentInit o function guess minGradient = .ok s) :
    function guess = .ok s.f ∧ minGradient.shape = .ok [] ∧ s.i = 0 ∧ s.z = .leaf (SA.scalar o.zero) ∧
      ∃ sf sg shape, s.f.shape = .ok sf ∧ guess.shape = .ok sg ∧ broadcastShapes [sf, sg] = .ok shape ∧
        guess.broadcastTo shape = .ok s.x := by
  simp only [descentInit, bind, Except.bind] at h
  cases h1 : function guess with
  | error e => rw [h1] at h; cases h
  | ok f =>
    rw [h1] at h
    cases h2 : minGradient.shape with
    | error e => rw [h2] at h; cases h
    | ok t =>
      rw [h2] at h
      cases t with
      | cons p t => simp at h
      | nil =>
        simp only [List.isEmpty_nil, Bool.not_true, Bool.false_eq_true, if_false] at h
        cases h3 : f.shape with
        | error e => rw [h3] at h; cases h
        | ok sf =>
          rw [h3] at h
          simp only at h
          cases h4 : guess.shape with
          | error e => rw [h4] at h; cases h
          | ok sg =>
            rw [h4] at h
            simp only at h
            cases h5 : broadcastShapes [sf, sg] with
            | error e => rw [h5] at h; cases h
            | ok shape =>
              rw [h5] at h
              simp only at h
              cases h6 : noneTrue o guess shape with
              | error e => rw [h6] at h; cases h
              | ok conv =>
                rw [h6] at h
                simp only at h
                cases h7 : guess.broadcastTo shape with
                | error e => rw [h7] at h; cases h
                | ok x =>
                  rw [h7] at h
                  simp only [Except.ok.injEq] at h
                  subst h
                  exact ⟨rfl, rfl, rfl, rfl, sf, sg, shape, h3, rfl, h5, h7⟩

/-- Everything about the body of the loop. -/
theorem descentBody_ok {o : Arith F} {function gradient : Comp (SA F) → R (Comp (SA F))}
    {stepSize momentum minGradient : Comp (SA F)} {s : DescentState F} {r : Comp (SA F) ⊕ DescentState F}
    (h : descentBody o function gradient stepSize momentum minGradient s = .ok r) :
    ∃ grad conv, gradient s.x = .ok grad ∧ isSmall o grad minGradient = .ok conv ∧
      ((allTrue conv = .ok true ∧ r = .inl s.x) ∨
        allTrue conv = .ok false ∧ ∃ m z corr x f, Comp.ufunc2 (SA.ufunc2 o.mul) momentum s.z = .ok m ∧
          Comp.ufunc2 (SA.ufunc2 o.add) m grad = .ok z ∧ Comp.ufunc2 (SA.ufunc2 o.mul) stepSize z = .ok corr ∧
          Comp.ufunc2 (SA.ufunc2 o.sub) s.x corr = .ok x ∧ function x = .ok f ∧
          r = .inr ⟨s.i + 1, x, f, conv, z⟩) := by
  simp only [descentBody, bind, Except.bind] at h
  cases h0 : gradient s.x with
  | error e => rw [h0] at h; cases h
  | ok grad =>
    rw [h0] at h
    simp only at h
    cases h1 : isSmall o grad minGradient with
    | error e => rw [h1] at h; cases h
    | ok conv =>
      rw [h1] at h
      simp only at h
      refine ⟨grad, conv, rfl, h1, ?_⟩
      cases h2 : allTrue conv with
      | error e => rw [h2] at h; cases h
      | ok b =>
        rw [h2] at h
        cases b with
        | true =>
          simp only [if_true, Except.ok.injEq] at h
          exact .inl ⟨rfl, h.symm⟩
        | false =>
          simp only [Bool.false_eq_true, if_false] at h
          cases h3 : Comp.ufunc2 (SA.ufunc2 o.mul) momentum s.z with
          | error e => rw [h3] at h; cases h
          | ok m =>
            rw [h3] at h
            simp only at h
            cases h4 : Comp.ufunc2 (SA.ufunc2 o.add) m grad with
            | error e => rw [h4] at h; cases h
            | ok z =>
              rw [h4] at h
              simp only at h
              cases h5 : Comp.ufunc2 (SA.ufunc2 o.mul) stepSize z with
              | error e => rw [h5] at h; cases h
              | ok corr =>
                rw [h5] at h
                simp only at h
                cases h6 : Comp.ufunc2 (SA.ufunc2 o.sub) s.x corr with
                | error e => rw [h6] at h; cases h
                | ok x =>
                  rw [h6] at h
                  simp only at h
                  cases h7 : function x with
                  | error e => rw [h7] at h; cases h
                  | ok f =>
                    rw [h7] at h
                    simp only [Except.ok.injEq] at h
                    exact .inr ⟨rfl, m, z, corr, x, f, rfl, h4, h5, h6, h7, h.symm⟩

/-- An operation on named arrays, at any named index. -/
theorem ufunc2_atB {α β γ : Type} {f : α → β → γ} {a : SA α} {b : SA β} {r : SA γ} (ha : a.WF) (hb : b.WF)
    (h : SA.ufunc2 f a b = .ok r) : r.WF ∧ ∀ e, r.atB e = f (a.atB e) (b.atB e) := by
  obtain ⟨h1, h2, h3⟩ := SA.ufunc2_ok ha hb h
  have hw : ∀ s ∈ [a.shape, b.shape], Dict.WF s := by
    intro s hs
    simp only [List.mem_cons, List.not_mem_nil, or_false] at hs
    rcases hs with rfl | rfl
    · exact SA.wf_shape ha
    · exact SA.wf_shape hb
  refine ⟨h1, fun e => ?_⟩
  rw [show r.atB e = r.at' (fun ax => if get? r.shape ax = some 1 then 0 else e ax) from rfl, h3,
    atB_clip ha (SA.fitsIn_of_broadcastShapes hw h2 (by simp)) e,
    atB_clip hb (SA.fitsIn_of_broadcastShapes hw h2 (by simp)) e]

theorem leafB_append {α : Type} {c : Comp α} {p : List String} {a : α} (h : c.leafB p = some a) (q : List String) :
    c.leafB (p ++ q) = some a := by
  induction p generalizing c with
  | nil => cases c <;> simp_all [leafB]
  | cons k p ih =>
    cases c with
    | leaf b => simpa [leafB] using h
    | node cls cs =>
      simp only [leafB, List.cons_append] at h ⊢
      cases hg : get? cs k with
      | none => rw [hg] at h; simp at h
      | some c => rw [hg] at h; exact ih h

theorem leafB_prefix {α : Type} {c : Comp α} {p : List String} {a : α} (h : c.leafB p = some a) :
    ∃ q t, p = q ++ t ∧ c.leafAt q = some a := by
  induction p generalizing c with
  | nil => cases c <;> simp_all [leafB, leafAt]
  | cons k p ih =>
    cases c with
    | leaf b => exact ⟨[], k :: p, rfl, by simpa [leafB, leafAt] using h⟩
    | node cls cs =>
      simp only [leafB] at h
      cases hg : get? cs k with
      | none => rw [hg] at h; simp at h
      | some c =>
        rw [hg] at h
        obtain ⟨q, t, rfl, h2⟩ := ih h
        exact ⟨k :: q, t, rfl, by simp [leafAt, hg, h2]⟩

theorem ufunc2_leafB {α β γ : Type} {f : α → β → R γ} {x : Comp α} {y : Comp β} {r : Comp γ}
    (h : Comp.ufunc2 f x y = .ok r) {p : List String} {v : γ} (hv : r.leafB p = some v) :
    ∃ a b, x.leafB p = some a ∧ y.leafB p = some b ∧ f a b = .ok v := by
  obtain ⟨q, t, rfl, h2⟩ := leafB_prefix hv
  obtain ⟨a, b, h3, h4, _, h5⟩ := (C36_at_path f x y r h q v).1 h2
  exact ⟨a, b, leafB_append h3 t, leafB_append h4 t, h5⟩

theorem ufunc2_wfLeaves {α β γ : Type} {f : α → β → γ} {x : Comp (SA α)} {y : Comp (SA β)} {r : Comp (SA γ)}
    (hx : x.WFLeaves) (hy : y.WFLeaves) (h : Comp.ufunc2 (SA.ufunc2 f) x y = .ok r) : r.WFLeaves := by
  intro v hv
  obtain ⟨a, ha, b, hb, h2⟩ := ufunc2_leaves _ x y r h v hv
  exact (ufunc2_atB (hx a ha) (hy b hb) h2).1

/-- An operation on vectors, for one component at any named index. -/
theorem ufunc2_leafB_atB {α β γ : Type} {f : α → β → γ} {x : Comp (SA α)} {y : Comp (SA β)} {r : Comp (SA γ)}
    (hx : x.WFLeaves) (hy : y.WFLeaves) (h : Comp.ufunc2 (SA.ufunc2 f) x y = .ok r) {p : List String} {v : SA γ}
    (hv : r.leafB p = some v) : ∃ a b, x.leafB p = some a ∧ y.leafB p = some b ∧ ∀ e, v.atB e = f (a.atB e) (b.atB e) := by
  obtain ⟨a, b, h1, h2, h3⟩ := ufunc2_leafB h hv
  exact ⟨a, b, h1, h2, (ufunc2_atB (hx a (leafB_mem h1)) (hy b (leafB_mem h2)) h3).2⟩

/-! ### C59 -/

/-- **C59** If `minimum_gradient_descent` returns `x`, then the magnitude of the gradient at `x` is below `min_gradient` at
every element, and `x` is the argument of the last of at most `max_iterations` calls of `callback`. -/
theorem C59_descent (o : Arith F) (function gradient : Comp (SA F) → R (Comp (SA F)))
    (guess stepSize momentum minGradient : Comp (SA F)) (n : Nat)
    (hgrad : ∀ x g, gradient x = .ok g → IsArray g) (hmin : IsArray minGradient) (x : Comp (SA F))
    (h : (minimumGradientDescent o function gradient guess stepSize momentum minGradient n).2 = .ok x) :
    (∃ g, gradient x = .ok g ∧ Below o g minGradient) ∧
    ∃ k c, (minimumGradientDescent o function gradient guess stepSize momentum minGradient n).1.length = k + 1 ∧ k < n ∧
      (minimumGradientDescent o function gradient guess stepSize momentum minGradient n).1[k]? = some c ∧ c.x = x := by
  unfold minimumGradientDescent at h ⊢
  cases hi : descentInit o function guess minGradient with
  | error e => rw [hi] at h; cases h
  | ok s =>
    rw [hi] at h
    simp only at h ⊢
    obtain ⟨st, h0, h1, h2, h3, h4, _⟩ := loop_main (fun s : DescentState F => (.ok s.call : R _))
      (fun s _ => descentBody o function gradient stepSize momentum minGradient s) n s
    obtain ⟨k, c, h5, h6, h7⟩ := h4 x h
    obtain ⟨grad, conv, g1, g2, g3⟩ := descentBody_ok h7
    rcases g3 with ⟨g3, g4⟩ | ⟨_, m, z, corr, x', f, _, _, _, _, _, g4⟩
    · simp only [Sum.inl.injEq] at g4
      subst g4
      obtain ⟨a1, a2, S, a3⟩ := hgrad _ _ g1
      constructor
      · refine ⟨grad, g1, S, a3, fun e he p a b ha hb => ?_⟩
        exact small_main a1 a2 a3 hmin.1 hmin.2.1 (descentInit_ok hi).2.1 g2 g3 he ha hb
      · refine ⟨k, c, h5, by omega, h6, ?_⟩
        have := h2 k c h6
        simp only [Except.ok.injEq] at this
        rw [← this]
        rfl
    · cases g4

/-- **C59** (the iterates). There are velocities `z k`, with `z 0 = 0`, such that each update is
`z (k + 1) = momentum * z k + gradient(x k)` and `x (k + 1) = x k - step_size * z (k + 1)`, and such that the gradient is not yet
small when an update is made. -/
theorem C59_updates (o : Arith F) (function gradient : Comp (SA F) → R (Comp (SA F)))
    (guess stepSize momentum minGradient : Comp (SA F)) (n : Nat) :
    ∃ z : Nat → Comp (SA F), z 0 = .leaf (SA.scalar o.zero) ∧
      (∀ c, (minimumGradientDescent o function gradient guess stepSize momentum minGradient n).1[0]? = some c →
        c.i = 0 ∧ function guess = .ok c.f ∧ ∃ S, guess.broadcastTo S = .ok c.x) ∧
      ∀ k c c', (minimumGradientDescent o function gradient guess stepSize momentum minGradient n).1[k]? = some c →
        (minimumGradientDescent o function gradient guess stepSize momentum minGradient n).1[k + 1]? = some c' →
        c'.i = c.i + 1 ∧ function c'.x = .ok c'.f ∧ ∃ grad m corr, gradient c.x = .ok grad ∧
          isSmall o grad minGradient = .ok c'.converged ∧ allTrue c'.converged = .ok false ∧
          Comp.ufunc2 (SA.ufunc2 o.mul) momentum (z k) = .ok m ∧ Comp.ufunc2 (SA.ufunc2 o.add) m grad = .ok (z (k + 1)) ∧
          Comp.ufunc2 (SA.ufunc2 o.mul) stepSize (z (k + 1)) = .ok corr ∧
          Comp.ufunc2 (SA.ufunc2 o.sub) c.x corr = .ok c'.x := by
  unfold minimumGradientDescent
  cases hi : descentInit o function guess minGradient with
  | error e => exact ⟨fun _ => .leaf (SA.scalar o.zero), rfl, by simp, by simp⟩
  | ok s =>
    simp only
    obtain ⟨st, h0, h1, h2, h3, h4, _⟩ := loop_main (fun s : DescentState F => (.ok s.call : R _))
      (fun s _ => descentBody o function gradient stepSize momentum minGradient s) n s
    obtain ⟨i1, _, i3, i4, sf, sg, shape, _, _, _, i8⟩ := descentInit_ok hi
    refine ⟨fun k => (st k).z, by show (st 0).z = _; rw [h0]; exact i4, ?_, ?_⟩
    · intro c hc
      have := h2 0 c hc
      simp only [Except.ok.injEq] at this
      subst this
      rw [h0]
      exact ⟨i3, i1, shape, i8⟩
    · intro k c c' hc hc'
      have e1 := h2 k c hc
      have e2 := h2 (k + 1) c' hc'
      simp only [Except.ok.injEq] at e1 e2
      subst e1 e2
      obtain ⟨grad, conv, g1, g2, g3⟩ := descentBody_ok (h3 k _ (List.getElem?_eq_some_iff.1 hc').1 hc)
      rcases g3 with ⟨_, g4⟩ | ⟨g3, m, z, corr, x', f, g5, g6, g7, g8, g9, g4⟩
      · cases g4
      · simp only [Sum.inr.injEq] at g4
        simp only [g4]
        exact ⟨rfl, g9, grad, m, corr, g1, g2, g3, g5, g6, g7, g8⟩

/-- The first iterate is well formed. -/
theorem C59_first (o : Arith F) (function gradient : Comp (SA F) → R (Comp (SA F)))
    (guess stepSize momentum minGradient : Comp (SA F)) (n : Nat) (hguess : guess.WFLeaves)
    (hfg : ∀ y, function guess = .ok y → y.WFLeaves) :
    ∀ c, (minimumGradientDescent o function gradient guess stepSize momentum minGradient n).1[0]? = some c → c.x.WFLeaves := by
  unfold minimumGradientDescent
  cases hi : descentInit o function guess minGradient with
  | error e => simp
  | ok s =>
    simp only
    obtain ⟨st, h0, h1, h2, _⟩ := loop_main (fun s : DescentState F => (.ok s.call : R _))
      (fun s _ => descentBody o function gradient stepSize momentum minGradient s) n s
    obtain ⟨i1, _, i3, i4, sf, sg, shape, i5, i6, i7, i8⟩ := descentInit_ok hi
    intro c hc
    have := h2 0 c hc
    simp only [Except.ok.injEq] at this
    subst this
    rw [h0]
    have hw : ∀ s ∈ [sf, sg], Dict.WF s := by
      intro s hs
      simp only [List.mem_cons, List.not_mem_nil, or_false] at hs
      rcases hs with rfl | rfl
      · exact shape_wf _ (hfg _ i1) _ i5
      · exact shape_wf _ hguess _ i6
    have hb := broadcastTo_broadcasts hguess (C01_broadcast_shapes_ok _ hw _ i7).1 i8
    intro a ha
    obtain ⟨j, hj, rfl⟩ := List.mem_iff_getElem.1 ha
    have hl := lift_leaves _ _ hb
    exact (hl.get (i := j) (by rw [hl.length_eq]; exact hj) hj).1

/-- **C59** (zero momentum).  If zero times a number is zero and zero plus a number is this number, then without momentum each
update is `x - step_size * gradient(x)`, for each component at each named index (a scalar step is used for all the
components). -/
theorem C59_zero_momentum (o : Arith F) (hmul : ∀ v, o.mul o.zero v = o.zero) (hadd : ∀ v, o.add o.zero v = v)
    (function gradient : Comp (SA F) → R (Comp (SA F))) (hgrad : ∀ x g, gradient x = .ok g → g.WFLeaves)
    (guess step minGradient : Comp (SA F)) (hguess : guess.WFLeaves) (hfg : ∀ y, function guess = .ok y → y.WFLeaves)
    (hstep : step.WFLeaves) (n : Nat)
    (calls : List (Call (Comp (SA F)) (Comp (SA F)) (Comp (SA Bool)))) (result : R (Comp (SA F)))
    (hrun : minimumGradientDescent o function gradient guess step (.leaf (SA.scalar o.zero)) minGradient n = (calls, result))
    (k : Nat) (c c' : Call (Comp (SA F)) (Comp (SA F)) (Comp (SA Bool))) (hc : calls[k]? = some c)
    (hc' : calls[k + 1]? = some c') :
    ∃ grad, gradient c.x = .ok grad ∧ ∀ p a', c'.x.leafAt p = some a' → ∃ a t g, c.x.leafB p = some a ∧
      step.leafB p = some t ∧ grad.leafB p = some g ∧
      ∀ e, a'.atB e = o.sub (a.atB e) (o.mul (t.atB e) (g.atB e)) := by
  obtain ⟨z, hz0, hfirst, h⟩ := C59_updates o function gradient guess step (.leaf (SA.scalar o.zero)) minGradient n
  have hone := C59_first o function gradient guess step (.leaf (SA.scalar o.zero)) minGradient n hguess hfg
  rw [hrun] at h hone
  simp only at h hone
  have hzero : (Comp.leaf (SA.scalar o.zero)).WFLeaves := by
    intro a ha
    simp only [leaves, List.mem_singleton] at ha
    subst ha
    exact (fits_scalar [] _).1
  have hwf : ∀ j d, calls[j]? = some d → d.x.WFLeaves ∧ (z j).WFLeaves := by
    intro j
    induction j with
    | zero => intro d hd; exact ⟨hone d hd, by rw [hz0]; exact hzero⟩
    | succ j ih =>
      intro d hd
      have hlt := (List.getElem?_eq_some_iff.1 hd).1
      have hd0 : calls[j]? = some calls[j] := List.getElem?_eq_getElem (by omega)
      obtain ⟨w1, w2⟩ := ih _ hd0
      obtain ⟨_, _, grad, m, corr, h1, _, _, h4, h5, h6, h7⟩ := h j _ d hd0 hd
      have w3 := ufunc2_wfLeaves (ufunc2_wfLeaves hzero w2 h4) (hgrad _ _ h1) h5
      exact ⟨ufunc2_wfLeaves w1 (ufunc2_wfLeaves hstep w3 h6) h7, w3⟩
  obtain ⟨w1, w2⟩ := hwf k c hc
  obtain ⟨_, _, grad, m, corr, h1, _, _, h4, h5, h6, h7⟩ := h k c c' hc hc'
  refine ⟨grad, h1, fun p a' ha' => ?_⟩
  have wm := ufunc2_wfLeaves hzero w2 h4
  have wg := hgrad _ _ h1
  have wz := ufunc2_wfLeaves wm wg h5
  obtain ⟨a, q, ha, hq, e1⟩ := ufunc2_leafB_atB w1 (ufunc2_wfLeaves hstep wz h6) h7 (leafB_of_leafAt ha')
  obtain ⟨t, u, ht, hu, e2⟩ := ufunc2_leafB_atB hstep wz h6 hq
  obtain ⟨m', g, hm', hg, e3⟩ := ufunc2_leafB_atB wm wg h5 hu
  obtain ⟨v0, v1, hv0, hv1, e4⟩ := ufunc2_leafB_atB hzero w2 h4 hm'
  simp only [leafB, Option.some.injEq] at hv0
  subst hv0
  refine ⟨a, t, g, ha, ht, hg, fun e => ?_⟩
  rw [e1, e2, e3, e4, show (SA.scalar o.zero).atB e = o.zero from rfl, hmul, hadd]

/-- **C59** (giving up).  If no result is returned, then either `max_iterations` updates have been made, at no iterate is the
gradient below `min_gradient` at every element, and a `ValueError` is raised; or the exception was raised before the loop
(by `function(guess)`, by a `min_gradient` with axes or by broadcasting), or by a computation at the last iterate. -/
theorem C59_gives_up (o : Arith F) (function gradient : Comp (SA F) → R (Comp (SA F)))
    (guess stepSize momentum minGradient : Comp (SA F)) (n : Nat) (e : Err)
    (calls : List (Call (Comp (SA F)) (Comp (SA F)) (Comp (SA Bool))))
    (hrun : minimumGradientDescent o function gradient guess stepSize momentum minGradient n = (calls, .error e)) :
    (e = .valueError ∧ calls.length = n ∧ ∀ (k : Nat) (c : Call _ _ _), calls[k]? = some c → ∃ grad conv, gradient c.x = .ok grad ∧
      isSmall o grad minGradient = .ok conv ∧ allTrue conv = .ok false) ∨
    (calls = [] ∧ descentInit o function guess minGradient = .error e) ∨
    (∃ (k : Nat) (c : Call _ _ _) (z : Comp (SA F)), calls.length = k + 1 ∧ calls[k]? = some c ∧
      descentBody o function gradient stepSize momentum minGradient ⟨c.i, c.x, c.f, c.converged, z⟩ = .error e) := by
  unfold minimumGradientDescent at hrun
  cases hi : descentInit o function guess minGradient with
  | error e' =>
    rw [hi] at hrun
    simp only [Prod.mk.injEq, Except.error.injEq] at hrun
    obtain ⟨h1, h2⟩ := hrun
    subst h1 h2
    exact .inr (.inl ⟨rfl, rfl⟩)
  | ok s =>
    rw [hi] at hrun
    simp only at hrun
    obtain ⟨st, h0, h1, h2, h3, h4, h5⟩ := loop_main (fun s : DescentState F => (.ok s.call : R _))
      (fun s _ => descentBody o function gradient stepSize momentum minGradient s) n s
    rw [hrun] at h1 h2 h3 h4 h5
    simp only at h1 h2 h3 h4 h5
    rcases h5 e rfl with ⟨h6, h7, h8⟩ | ⟨h6, _⟩ | ⟨k, c, h6, h7, h8⟩
    · refine .inl ⟨h6, h7, fun k c hc => ?_⟩
      have hk := (List.getElem?_eq_some_iff.1 hc).1
      have hh := h2 k c hc
      simp only [Except.ok.injEq] at hh
      subst hh
      obtain ⟨grad, conv, g1, g2, g3⟩ := descentBody_ok (h8 k _ (by omega) hc)
      rcases g3 with ⟨_, g4⟩ | ⟨g3, _⟩
      · cases g4
      · exact ⟨grad, conv, g1, g2, g3⟩
    · cases h6
    · have hh := h2 k c h7
      simp only [Except.ok.injEq] at hh
      subst hh
      exact .inr (.inr ⟨k, _, (st k).z, h6, h7, h8⟩)

/-! ### Examples -/

/-- `abs(x) + abs(y)` for a two-dimensional vector -/
def exObjective : Comp (SA Int) → R (Comp (SA Int))
  | .node _ cs => match get? cs "x", get? cs "y" with
    | some (.leaf x), some (.leaf y) => do
      let ax ← SA.ufunc1 exArith.abs x
      let ay ← SA.ufunc1 exArith.abs y
      .ok (.leaf (← SA.ufunc2 (· + ·) ax ay))
    | _, _ => .error .typeError
  | _ => .error .typeError

/-- its gradient -/
def exGradient (x : Comp (SA Int)) : R (Comp (SA Int)) := x.mapM (SA.ufunc1 Int.sign)

/-- a guess with one component along an axis -/
def exStart : Comp (SA Int) := .node "Cartesian2dVectorArray"
  [("x", .leaf ⟨["t"], ND.vec [3, -3]⟩), ("y", .leaf (SA.scalar 3))]

def exDescent (m : Int) (n : Nat) : List (Call (Comp (SA Int)) (Comp (SA Int)) (Comp (SA Bool))) × R (Comp (SA Int)) :=
  minimumGradientDescent exArith exObjective exGradient exStart (.leaf (SA.scalar 1)) (.leaf (SA.scalar m))
    (.leaf (SA.scalar 1)) n

/-- the values of the components of a result -/
def exLeaves : R (Comp (SA Int)) → Option (List (List String × List Int))
  | .ok c => some (c.leaves.map (fun a => (a.axes, a.nd.toList)))
  | _ => none

-- without momentum the minimum is found after three updates
example : (exDescent 0 5).1.length = 4 ∧ exLeaves (exDescent 0 5).2 = some [(["t"], [0, 0]), (["t"], [0, 0])] := by
  decide +kernel

-- with momentum the second update is twice as long
example : (exDescent 1 5).1.length = 3 ∧ exLeaves (exDescent 1 5).2 = some [(["t"], [0, 0]), (["t"], [0, 0])] := by
  decide +kernel

-- two iterations are not enough
example : (exDescent 0 2).1.length = 2 ∧ exLeaves (exDescent 0 2).2 = none := by decide +kernel

-- the hypotheses of `C59_zero_momentum` hold
example : (∀ v, exArith.mul exArith.zero v = exArith.zero) ∧ (∀ v, exArith.add exArith.zero v = v) ∧
    exStart.WFLeaves ∧ (Comp.leaf (SA.scalar (1 : Int))).WFLeaves := by
  refine ⟨fun v => Int.zero_mul v, fun v => Int.zero_add v, ?_, ?_⟩
  · intro a ha
    simp only [exStart, leaves, leavesL, List.append_nil, List.mem_append, List.mem_singleton] at ha
    rcases ha with rfl | rfl
    · exact ⟨by decide, by decide⟩
    · exact (fits_scalar [] _).1
  · intro a ha
    simp only [leaves, List.mem_singleton] at ha
    subst ha
    exact (fits_scalar [] _).1

end Optimize
end NA
