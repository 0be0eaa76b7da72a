import Verif.Optimize.Lemmas

/-!
# Newton's method (C45)

Scalars and vectors are treated together: a scalar array is a `leaf`, a vector is a `node`.
-/

namespace NA
namespace Optimize
open Dict Comp
open SA (FitsIn InRange)
variable {F : Type}

/-! ### Specification -/

/-- Specification: a named array (a scalar array, or a vector of them): every scalar is well formed, every vector has
components, and their shapes can be broadcast against each other. -/
def IsArray (v : Comp (SA F)) : Prop := v.WFLeaves ∧ v.Full ∧ ∃ S, v.shape = .ok S

/-- Specification: the magnitude of `f` is below `err` at every named index, for every component for which there is a
tolerance (all of them, if `err` is a scalar or has the components of `f`). -/
def Below (o : Arith F) (f err : Comp (SA F)) : Prop :=
  ∃ S, f.shape = .ok S ∧ ∀ e, InRange S e → ∀ p a b, f.leafAt p = some a → err.leafB p = some b →
    o.lt (o.abs (a.atB e)) (b.atB e) = true

/-- Specification: `v'` has the values of `v`, possibly repeated along further axes. -/
def Broadcasts (v v' : Comp (SA F)) : Prop :=
  v.Lift (fun a a' => a'.WF ∧ FitsIn a.shape a'.shape ∧ ∀ e, a'.atB e = a.atB e) v'

/-- Specification: repeating the guess along further axes only repeats the value of the function there. -/
def RespectsBroadcasting (function : Comp (SA F) → R (Comp (SA F))) (guess : Comp (SA F)) : Prop :=
  ∀ x f, Broadcasts guess x → function guess = .ok f → ∃ f', function x = .ok f' ∧ Broadcasts f f'

/-! ### Helpers -/

theorem newtonInit_ok {o : Arith F} {function : Comp (SA F) → R (Comp (SA F))} {guess err : Comp (SA F)}
    {s : NewtonState F} (h : newtonInit o function guess err = .ok s) :
    function guess = .ok s.f ∧ err.shape = .ok [] ∧ s.i = 0 ∧
      ∃ sf sg shape, s.f.shape = .ok sf ∧ guess.shape = .ok sg ∧ broadcastShapes [sf, sg] = .ok shape ∧
        guess.broadcastTo shape = .ok s.x := by
  simp only [newtonInit, bind, Except.bind] at h
  cases h1 : function guess with
  | error e => rw [h1] at h; cases h
  | ok f =>
    rw [h1] at h
    cases h2 : err.shape with
    | error e => rw [h2] at h; cases h
    | ok t =>
      rw [h2] at h
      cases t with
      | cons p t => simp at h
      | nil =>
        simp only [List.isEmpty_nil, Bool.not_true, Bool.false_eq_true, if_false] at h
        cases h3 : f.shape with
        | error e => rw [h3] at h; cases h
        | ok sf =>
          rw [h3] at h
          simp only at h
          cases h4 : guess.shape with
          | error e => rw [h4] at h; cases h
          | ok sg =>
            rw [h4] at h
            simp only at h
            cases h5 : broadcastShapes [sf, sg] with
            | error e => rw [h5] at h; cases h
            | ok shape =>
              rw [h5] at h
              simp only at h
              cases h6 : noneTrue o f shape with
              | error e => rw [h6] at h; cases h
              | ok conv =>
                rw [h6] at h
                simp only at h
                cases h7 : guess.broadcastTo shape with
                | error e => rw [h7] at h; cases h
                | ok x =>
                  rw [h7] at h
                  simp only [Except.ok.injEq] at h
                  subst h
                  exact ⟨rfl, rfl, rfl, sf, sg, shape, h3, rfl, h5, h7⟩

theorem newtonBody_inl {o : Arith F} {function : Comp (SA F) → R (Comp (SA F))}
    {correction : Comp (SA F) → Comp (SA F) → R (Comp (SA F))} {err : Comp (SA F)} {s : NewtonState F}
    {x : Comp (SA F)} (h : newtonBody o function correction err s = .ok (.inl x)) :
    x = s.x ∧ ∃ conv, isSmall o s.f err = .ok conv ∧ allTrue conv = .ok true := by
  simp only [newtonBody, bind, Except.bind] at h
  cases h1 : isSmall o s.f err with
  | error e => rw [h1] at h; cases h
  | ok conv =>
    rw [h1] at h
    simp only at h
    cases h2 : allTrue conv with
    | error e => rw [h2] at h; cases h
    | ok b =>
      rw [h2] at h
      cases b with
      | true =>
        simp only [if_true, Except.ok.injEq, Sum.inl.injEq] at h
        exact ⟨h.symm, conv, rfl, h2⟩
      | false =>
        simp only [Bool.false_eq_true, if_false] at h
        cases h3 : correction s.x s.f with
        | error e => rw [h3] at h; cases h
        | ok corr =>
          rw [h3] at h
          simp only at h
          cases h4 : Comp.ufunc2 (SA.ufunc2 o.sub) s.x corr with
          | error e => rw [h4] at h; cases h
          | ok x' =>
            rw [h4] at h
            simp only at h
            cases h5 : function x' with
            | error e => rw [h5] at h; cases h
            | ok f => rw [h5] at h; cases h

theorem newtonBody_inr {o : Arith F} {function : Comp (SA F) → R (Comp (SA F))}
    {correction : Comp (SA F) → Comp (SA F) → R (Comp (SA F))} {err : Comp (SA F)} {s s' : NewtonState F}
    (h : newtonBody o function correction err s = .ok (.inr s')) :
    s'.i = s.i + 1 ∧ isSmall o s.f err = .ok s'.converged ∧ allTrue s'.converged = .ok false ∧
      function s'.x = .ok s'.f ∧ ∃ corr, correction s.x s.f = .ok corr ∧
        Comp.ufunc2 (SA.ufunc2 o.sub) s.x corr = .ok s'.x := by
  simp only [newtonBody, bind, Except.bind] at h
  cases h1 : isSmall o s.f err with
  | error e => rw [h1] at h; cases h
  | ok conv =>
    rw [h1] at h
    simp only at h
    cases h2 : allTrue conv with
    | error e => rw [h2] at h; cases h
    | ok b =>
      rw [h2] at h
      cases b with
      | true => simp at h
      | false =>
        simp only [Bool.false_eq_true, if_false] at h
        cases h3 : correction s.x s.f with
        | error e => rw [h3] at h; cases h
        | ok corr =>
          rw [h3] at h
          simp only at h
          cases h4 : Comp.ufunc2 (SA.ufunc2 o.sub) s.x corr with
          | error e => rw [h4] at h; cases h
          | ok x' =>
            rw [h4] at h
            simp only at h
            cases h5 : function x' with
            | error e => rw [h5] at h; cases h
            | ok f =>
              rw [h5] at h
              simp only [Except.ok.injEq, Sum.inr.injEq] at h
              subst h
              exact ⟨rfl, rfl, h2, h5, corr, rfl, h4⟩

theorem broadcastTo_broadcasts {v v' : Comp (SA F)} (hw : v.WFLeaves) {shape : Shape} (hs : Dict.WF shape)
    (h : v.broadcastTo shape = .ok v') : Broadcasts v v' := by
  have h1 := lift_with _ _ hw ((mapM_lift _ _ _).1 h)
  refine lift_mono ?_ _ _ h1
  rintro a a' ⟨h2, h3⟩
  rcases SA.C10_broadcast_to a h2 shape hs with ⟨h4, r, h5, h6, h7, h8⟩ | ⟨_, h5⟩
  · rw [h3] at h5
    cases h5
    refine ⟨h6, by rw [h7]; exact h4, fun e => ?_⟩
    unfold SA.atB
    rw [h8]
    exact atB_clip h2 (by rw [h7]; exact h4) e
  · rw [h3] at h5; cases h5

theorem broadcasts_shape {v v' : Comp (SA F)} (h : Broadcasts v v') (hw : v.WFLeaves) {S S' : Shape}
    (hS : v.shape = .ok S) (hS' : v'.shape = .ok S') : v'.WFLeaves ∧ FitsIn S S' := by
  have h1 := lift_leaves _ _ h
  have hlen := h1.length_eq
  have hw' : v'.WFLeaves := by
    intro a ha
    obtain ⟨i, hi, rfl⟩ := List.mem_iff_getElem.1 ha
    exact ((List.forall₂_iff_get.1 h1).2 i (by omega) hi).1
  refine ⟨hw', fun ax n hn => ?_⟩
  have h2 := shape_leaves v hw
  rw [hS] at h2
  cases hb : broadcastShapes (v.leaves.map SA.shape) with
  | error e => rw [hb] at h2; exact h2.elim
  | ok T =>
    rw [hb] at h2
    obtain ⟨_, _, h3⟩ := C01_broadcast_shapes_ok _ hw.shapes T hb
    obtain ⟨⟨s, hs, hsn⟩, _⟩ := h3 ax n (by rw [← h2 ax]; exact hn)
    obtain ⟨a, ha, rfl⟩ := List.mem_map.1 hs
    obtain ⟨i, hi, rfl⟩ := List.mem_iff_getElem.1 ha
    obtain ⟨m, hm, hnm⟩ := ((List.forall₂_iff_get.1 h1).2 i hi (by omega)).2.1 ax n hsn
    obtain ⟨k, hk, hmk⟩ := Comp.leaf_fits hw' hS' (List.getElem_mem (by omega)) ax m hm
    exact ⟨k, hk, by omega⟩

theorem below_broadcasts {o : Arith F} {f f' err : Comp (SA F)} (h : Below o f err) (hb : Broadcasts f f')
    (hw : f.WFLeaves) {S' : Shape} (hS' : f'.shape = .ok S') (he : err.WFLeaves) (hes : err.shape = .ok []) :
    Below o f' err := by
  obtain ⟨S, hS, h1⟩ := h
  obtain ⟨hw', hfit⟩ := broadcasts_shape hb hw hS hS'
  refine ⟨S', hS', fun e hr p a b ha hbb => ?_⟩
  cases ha0 : f.leafAt p with
  | none => rw [(lift_leafAt hb p).2 ha0] at ha; cases ha
  | some a0 =>
    obtain ⟨a', ha', _, h3, h4⟩ := (lift_leafAt hb p).1 a0 ha0
    rw [ha] at ha'
    cases ha'
    rw [h4]
    have h5 := h1 (fun ax => if get? S ax = some 1 then 0 else e ax) (by
      intro ax n hn
      simp only [hn, Option.some.injEq]
      obtain ⟨k, hk, hnk⟩ := hfit ax n hn
      have := hr ax k hk
      split <;> omega) p a0 b ha0 hbb
    have hb0 : ∀ e e', b.atB e = b.atB e' := by
      intro e e'
      unfold SA.atB SA.at'
      rw [axes_nil he hes (leafB_mem hbb)]
      rfl
    rw [hb0 e (fun ax => if get? S ax = some 1 then 0 else e ax)]
    rw [← h5]
    congr 2
    unfold SA.atB
    apply SA.at'_congr
    intro ax hax
    have ha0m := leafAt_mem_leaves ha0
    by_cases h1 : get? a0.shape ax = some 1
    · simp [h1]
    · simp only [h1, if_false]
      split
      · next h2 =>
        obtain ⟨m, hm⟩ := exists_get?_of_mem (show ax ∈ keys a0.shape by
          rw [SA.keys_shape (hw a0 ha0m)]; exact hax)
        obtain ⟨n, hn, hmn⟩ := Comp.leaf_fits hw hS ha0m ax m hm
        rw [h2] at hn
        cases hn
        rcases hmn with rfl | rfl <;> exact absurd hm h1
      · rfl

/-! ### C45 -/

/-- **C45** (what is checked). If `root_newton` returns `x`, then `x` is the argument of the last call of `callback`
and the function value given to this call is below the tolerance at every element; it is the value of the function
at `x`, or at the guess if no update was made. -/
theorem C45_newton (o : Arith F) (function : Comp (SA F) → R (Comp (SA F)))
    (correction : Comp (SA F) → Comp (SA F) → R (Comp (SA F))) (guess err : Comp (SA F)) (n : Nat)
    (hfun : ∀ x f, function x = .ok f → IsArray f) (herr : IsArray err) (x : Comp (SA F))
    (h : (rootNewton o function correction guess err n).2 = .ok x) :
    ∃ k c, (rootNewton o function correction guess err n).1.length = k + 1 ∧ k < n ∧
      (rootNewton o function correction guess err n).1[k]? = some c ∧ c.x = x ∧ c.i = k ∧ Below o c.f err ∧
      (k ≠ 0 → function x = .ok c.f) ∧
      (k = 0 → function guess = .ok c.f ∧ ∃ S, guess.broadcastTo S = .ok x) := by
  unfold rootNewton at h ⊢
  cases hi : newtonInit o function guess err with
  | error e => rw [hi] at h; cases h
  | ok s =>
    rw [hi] at h
    simp only at h ⊢
    obtain ⟨st, h0, h1, h2, h3, h4, _⟩ :=
      loop_main (fun s : NewtonState F => (.ok s.call : R _)) (fun s _ => newtonBody o function correction err s) n s
    obtain ⟨k, c, h5, h6, h7⟩ := h4 x h
    obtain ⟨rfl, conv, h8, h9⟩ := newtonBody_inl h7
    have hc : c = (st k).call := by
      have := h2 k c h6
      simpa using this.symm
    subst hc
    obtain ⟨i1, i2, i3, sf, sg, shape, _, _, _, i7⟩ := newtonInit_ok hi
    have hst : ∀ j, j < k → newtonBody o function correction err (st j) = .ok (.inr (st (j + 1))) := by
      intro j hj
      obtain ⟨c', hc'⟩ : ∃ c', (loop (fun s : NewtonState F => (.ok s.call : R _))
          (fun s _ => newtonBody o function correction err s) n s).1[j]? = some c' :=
        ⟨_, List.getElem?_eq_getElem (by omega)⟩
      exact h3 j c' (by omega) hc'
    have hidx : ∀ j, j ≤ k → (st j).i = j := by
      intro j
      induction j with
      | zero => intro _; rw [h0]; exact i3
      | succ j ih => intro hj; rw [(newtonBody_inr (hst j (by omega))).1, ih (by omega)]
    have hf : (k ≠ 0 → function (st k).x = .ok (st k).f) ∧ (k = 0 → function guess = .ok (st k).f ∧
        ∃ S, guess.broadcastTo S = .ok (st k).x) := by
      constructor
      · intro hk
        obtain ⟨j, rfl⟩ := Nat.exists_eq_succ_of_ne_zero hk
        exact (newtonBody_inr (hst j (by omega))).2.2.2.1
      · rintro rfl
        rw [h0]
        exact ⟨i1, shape, i7⟩
    have harr : IsArray (st k).f := by
      by_cases hk : k = 0
      · exact hfun _ _ (hf.2 hk).1
      · exact hfun _ _ (hf.1 hk)
    obtain ⟨a1, a2, S, a3⟩ := harr
    refine ⟨k, _, h5, by omega, h6, rfl, hidx k (Nat.le_refl _), ⟨S, a3, ?_⟩, hf.1, hf.2⟩
    intro e he p a b ha hb
    exact small_main a1 a2 a3 herr.1 herr.2.1 i2 h8 h9 he ha hb

/-- **C45** The value of the function at the returned array is below the tolerance at every element.  This is proved for
functions whose value for a repeated guess is the repeated value (see `C45_first_iterate_refuted` for another one). -/
theorem C45_root_partial (o : Arith F) (function : Comp (SA F) → R (Comp (SA F)))
    (correction : Comp (SA F) → Comp (SA F) → R (Comp (SA F))) (guess err : Comp (SA F)) (n : Nat)
    (hfun : ∀ x f, function x = .ok f → IsArray f) (herr : IsArray err) (hg : guess.WFLeaves)
    (hres : RespectsBroadcasting function guess) (x : Comp (SA F))
    (h : (rootNewton o function correction guess err n).2 = .ok x) :
    ∃ f, function x = .ok f ∧ Below o f err := by
  obtain ⟨k, c, hlen, _, hget, rfl, _, hb, hk, h0⟩ := C45_newton o function correction guess err n hfun herr x h
  by_cases hk0 : k = 0
  · obtain ⟨hf, _⟩ := h0 hk0
    have hinit : ∃ s, newtonInit o function guess err = .ok s := by
      unfold rootNewton at h
      cases hi : newtonInit o function guess err with
      | error e => rw [hi] at h; cases h
      | ok s => exact ⟨s, rfl⟩
    obtain ⟨s, hi⟩ := hinit
    obtain ⟨i1, i2, _, sf, sg, shape, j1, j2, j3, j4⟩ := newtonInit_ok hi
    have hx : c.x = s.x := by
      subst hk0
      have : (rootNewton o function correction guess err n).1[0]? = some s.call := by
        unfold rootNewton
        rw [hi]
        obtain ⟨st, g0, _, g2, _⟩ := loop_main (fun s : NewtonState F => (.ok s.call : R _))
          (fun s _ => newtonBody o function correction err s) n s
        have := g2 0 c (by unfold rootNewton at hget; rw [hi] at hget; exact hget)
        rw [g0] at this
        simp only [Except.ok.injEq] at this
        rw [this]
        unfold rootNewton at hget
        rw [hi] at hget
        exact hget
      rw [hget] at this
      simp only [Option.some.injEq] at this
      rw [this]
      rfl
    have hbc : Broadcasts guess c.x := by
      rw [hx]
      refine broadcastTo_broadcasts hg ?_ j4
      have hw1 := shape_wf _ (hfun _ _ i1).1 _ j1
      have hw2 := shape_wf _ hg _ j2
      refine (C01_broadcast_shapes_ok [sf, sg] ?_ _ j3).1
      intro u hu
      simp only [List.mem_cons, List.not_mem_nil, or_false] at hu
      rcases hu with rfl | rfl <;> assumption
    obtain ⟨f', hf', hbf⟩ := hres c.x c.f hbc hf
    obtain ⟨_, _, S', hS'⟩ := hfun _ _ hf'
    exact ⟨f', hf', below_broadcasts hb hbf (hfun _ _ hf).1 hS' herr.1 i2⟩
  · exact ⟨c.f, hk hk0, hb⟩

/-- **C45** (the iterates). `callback` is called with the iteration number, an iterate and the value of the function
there; the next iterate is obtained from an iterate which has not converged by one subtraction of the correction. -/
theorem C45_iterates (o : Arith F) (function : Comp (SA F) → R (Comp (SA F)))
    (correction : Comp (SA F) → Comp (SA F) → R (Comp (SA F))) (guess err : Comp (SA F)) (n : Nat) :
    (rootNewton o function correction guess err n).1.length ≤ n ∧
    (∀ c, (rootNewton o function correction guess err n).1[0]? = some c → c.i = 0 ∧ function guess = .ok c.f ∧
      ∃ S, guess.broadcastTo S = .ok c.x) ∧
    ∀ k c c', (rootNewton o function correction guess err n).1[k]? = some c →
      (rootNewton o function correction guess err n).1[k + 1]? = some c' →
      c'.i = c.i + 1 ∧ function c'.x = .ok c'.f ∧ isSmall o c.f err = .ok c'.converged ∧
      allTrue c'.converged = .ok false ∧
      ∃ corr, correction c.x c.f = .ok corr ∧ Comp.ufunc2 (SA.ufunc2 o.sub) c.x corr = .ok c'.x := by
  unfold rootNewton
  cases hi : newtonInit o function guess err with
  | error e => exact ⟨Nat.zero_le _, by simp, by simp⟩
  | ok s =>
    simp only
    obtain ⟨st, h0, h1, h2, h3, _, _⟩ :=
      loop_main (fun s : NewtonState F => (.ok s.call : R _)) (fun s _ => newtonBody o function correction err s) n s
    refine ⟨h1, ?_, ?_⟩
    · intro c hc
      have := h2 0 c hc
      simp only [Except.ok.injEq] at this
      subst this
      obtain ⟨i1, _, i3, sf, sg, shape, _, _, _, i7⟩ := newtonInit_ok hi
      rw [h0]
      exact ⟨i3, i1, shape, i7⟩
    · intro k c c' hc hc'
      have e1 := h2 k c hc
      have e2 := h2 (k + 1) c' hc'
      simp only [Except.ok.injEq] at e1 e2
      subst e1 e2
      have hlt : k + 1 < (loop (fun s : NewtonState F => (.ok s.call : R _))
          (fun s _ => newtonBody o function correction err s) n s).1.length := (List.getElem?_eq_some_iff.1 hc').1
      obtain ⟨b1, b2, b3, b4, corr, b5, b6⟩ := newtonBody_inr (h3 k _ hlt hc)
      exact ⟨b1, b4, b2, b3, corr, b5, b6⟩

/-- **C45** (giving up). An error is raised because the functions or the arithmetic raise (in the preparation or after the
last call of `callback`), or it is the `ValueError` after `max_iterations` updates. -/
theorem C45_gives_up (o : Arith F) (function : Comp (SA F) → R (Comp (SA F)))
    (correction : Comp (SA F) → Comp (SA F) → R (Comp (SA F))) (guess err : Comp (SA F)) (n : Nat) (e : Err)
    (h : (rootNewton o function correction guess err n).2 = .error e) :
    (e = .valueError ∧ (rootNewton o function correction guess err n).1.length = n) ∨
    newtonInit o function guess err = .error e ∨
    ∃ k c, (rootNewton o function correction guess err n).1.length = k + 1 ∧
      (rootNewton o function correction guess err n).1[k]? = some c ∧
      (isSmall o c.f err = .error e ∨ (∃ conv, isSmall o c.f err = .ok conv ∧ allTrue conv = .error e) ∨
        correction c.x c.f = .error e ∨ ∃ corr, correction c.x c.f = .ok corr ∧
          (Comp.ufunc2 (SA.ufunc2 o.sub) c.x corr = .error e ∨
            ∃ x, Comp.ufunc2 (SA.ufunc2 o.sub) c.x corr = .ok x ∧ function x = .error e)) := by
  unfold rootNewton at h ⊢
  cases hi : newtonInit o function guess err with
  | error e' =>
    rw [hi] at h
    simp only [Except.error.injEq] at h
    subst h
    exact .inr (.inl rfl)
  | ok s =>
    rw [hi] at h
    simp only at h ⊢
    obtain ⟨st, h0, h1, h2, h3, _, h5⟩ :=
      loop_main (fun s : NewtonState F => (.ok s.call : R _)) (fun s _ => newtonBody o function correction err s) n s
    rcases h5 e h with ⟨h6, h7, _⟩ | ⟨h6, _⟩ | ⟨k, c, h6, h7, h8⟩
    · exact .inl ⟨h6, h7⟩
    · cases h6
    · refine .inr (.inr ⟨k, c, h6, h7, ?_⟩)
      have := h2 k c h7
      simp only [Except.ok.injEq] at this
      subst this
      show isSmall o (st k).f err = .error e ∨ (∃ conv, isSmall o (st k).f err = .ok conv ∧ allTrue conv = .error e) ∨
        correction (st k).x (st k).f = .error e ∨ ∃ corr, correction (st k).x (st k).f = .ok corr ∧
          (Comp.ufunc2 (SA.ufunc2 o.sub) (st k).x corr = .error e ∨
            ∃ x, Comp.ufunc2 (SA.ufunc2 o.sub) (st k).x corr = .ok x ∧ function x = .error e)
      simp only [newtonBody, bind, Except.bind] at h8
      cases h1 : isSmall o (st k).f err with
      | error e => rw [h1] at h8; simp only [Except.error.injEq] at h8; exact .inl (by rw [h8])
      | ok conv =>
        rw [h1] at h8
        simp only at h8
        cases h2 : allTrue conv with
        | error e => rw [h2] at h8; simp only [Except.error.injEq] at h8; exact .inr (.inl ⟨_, rfl, by rw [h2, h8]⟩)
        | ok b =>
          rw [h2] at h8
          cases b with
          | true => simp at h8
          | false =>
            simp only [Bool.false_eq_true, if_false] at h8
            cases h3 : correction (st k).x (st k).f with
            | error e => rw [h3] at h8; simp only [Except.error.injEq] at h8; exact .inr (.inr (.inl (by rw [h8])))
            | ok corr =>
              rw [h3] at h8
              simp only at h8
              cases h4 : Comp.ufunc2 (SA.ufunc2 o.sub) (st k).x corr with
              | error e =>
                rw [h4] at h8; simp only [Except.error.injEq] at h8
                exact .inr (.inr (.inr ⟨corr, rfl, .inl (by rw [h4, h8])⟩))
              | ok x' =>
                rw [h4] at h8
                simp only at h8
                cases h5 : function x' with
                | error e =>
                  rw [h5] at h8; simp only [Except.error.injEq] at h8
                  exact .inr (.inr (.inr ⟨corr, rfl, .inr ⟨x', h4, by rw [h5, h8]⟩⟩))
                | ok f => rw [h5] at h8; cases h8

/-! ### Scalars -/

/-- the decision for scalars -/
theorem small_scalar (o : Arith F) {f err : SA F} (hf : f.WF) (he : err.WF) (hes : err.axes = []) :
    ∃ conv b, isSmall o (.leaf f) (.leaf err) = .ok conv ∧ allTrue conv = .ok b ∧
      (b = true ↔ ∀ e, InRange f.shape e → o.lt (o.abs (f.at' e)) (err.at' e) = true) := by
  obtain ⟨g, h1, h2, h3, h4⟩ := SA.C07_ufunc1_values o.abs f hf
  have hes' : err.shape = [] := by
    have := SA.keys_shape he
    rw [hes] at this
    cases hs : err.shape with
    | nil => rfl
    | cons p s => rw [hs] at this; simp at this
  have hgat : ∀ e, g.atB e = o.abs (f.atB e) := by
    intro e; unfold SA.atB; rw [h4, h3]
  obtain ⟨v, h5, ⟨h6, h6'⟩, h7⟩ := ufunc2_full (S := f.shape) o.lt (a := g) (b := err)
    ⟨h2, by rw [h3]; exact fun _ => rfl⟩ ⟨he, by rw [hes']; intro ax m hm; simp at hm⟩
  have hc : isSmall o (.leaf f) (.leaf err) = .ok (.leaf v) := by
    simp [isSmall, Comp.mapM, Comp.ufunc2, h1, h5, bind, Except.bind]
  obtain ⟨r, h8, h9⟩ := C37_reduce_none (.leaf v) (by intro a ha; simp [leaves] at ha; subst ha; exact h6)
    (by simp [Comp.Full]) v.shape rfl false (fun l => l.all id) false (by simp)
  cases r with
  | node cls cs => simp [Lift] at h9
  | leaf r =>
    simp only [Lift] at h9
    obtain ⟨h10, h11, h12⟩ := h9
    refine ⟨_, r.nd.get [], hc, by simp [allTrue, h8, bind, Except.bind, leaves], ?_⟩
    obtain ⟨l, h13, h14⟩ := h12 (fun _ => 0)
    have h15 : r.atB (fun _ => 0) = r.nd.get [] := by
      unfold SA.atB SA.at'
      rw [h11 trivial]
      rfl
    rw [← h15, h14, List.all_eq_true]
    have herr : ∀ e e', err.atB e = err.at' e' := by
      intro e e'
      unfold SA.atB SA.at'
      rw [hes]
      rfl
    have hval : ∀ e, InRange f.shape e → v.atB e = o.lt (o.abs (f.at' e)) (err.at' e) := by
      intro e he'
      rw [h7, hgat, herr e e, SA.atB_eq_at' hf he']
    constructor
    · intro h e he'
      rw [← hval e he']
      have hcl : v.atB (fun ax => if ax ∈ keys v.shape then e ax else 0) = true := by
        refine h _ (List.mem_map.2 ⟨fun ax => if ax ∈ keys v.shape then e ax else 0, ?_, rfl⟩)
        rw [h13.2]
        refine ⟨fun ax hax => ?_, fun ax hax => by simp [hax]⟩
        obtain ⟨n, hn⟩ := exists_get?_of_mem hax
        refine ⟨n, hn, ?_⟩
        simp only [hax, if_true]
        exact he' ax n (by rw [← h6' ax]; exact hn)
      rw [← hcl]
      unfold SA.atB
      apply SA.at'_congr
      intro ax hax
      simp [SA.keys_shape h6, hax]
    · intro h x hx
      obtain ⟨e, he', rfl⟩ := List.mem_map.1 hx
      rw [h13.2] at he'
      have hin : InRange f.shape e := by
        intro ax n hn
        rw [← h6' ax] at hn
        obtain ⟨m, hm, hlt⟩ := he'.1 ax (mem_keys_of_get? hn)
        rw [hn] at hm
        cases hm
        exact hlt
      rw [id, hval e hin]
      exact h e hin

/-- a function of scalar arrays, as a function of arrays -/
def onScalars (function : SA F → R (SA F)) : Comp (SA F) → R (Comp (SA F))
  | .leaf a => do .ok (.leaf (← function a))
  | .node _ _ => .error .typeError

theorem init_scalar (o : Arith F) {function : SA F → R (SA F)} {S : Shape} {guess f err : SA F} (hg : Fits S guess)
    (hf : function guess = .ok f) (hff : Fits S f) (hes : err.shape = []) :
    ∃ x conv, newtonInit o (onScalars function) (.leaf guess) (.leaf err) = .ok ⟨0, .leaf x, .leaf f, conv⟩ ∧ Fits S x ∧
      ∀ e, x.atB e = guess.atB e := by
  obtain ⟨r, h1, h2⟩ := broadcast_of_fits (SA.wf_shape hff.1) (SA.wf_shape hg.1) hff.2 hg.2
  have hss : ∀ u ∈ [f.shape, guess.shape], Dict.WF u := by
    intro u hu
    simp only [List.mem_cons, List.not_mem_nil, or_false] at hu
    rcases hu with rfl | rfl
    · exact SA.wf_shape hff.1
    · exact SA.wf_shape hg.1
  have hrw := (C01_broadcast_shapes_ok _ hss r h1).1
  have e1 := SA.fitsIn_of_broadcastShapes hss h1 (List.mem_cons_self ..)
  have e2 := SA.fitsIn_of_broadcastShapes hss h1 (List.mem_cons_of_mem _ (List.mem_cons_self ..))
  obtain ⟨z, h3, h4, h5⟩ := ufunc2_fits' (S := r) o.mul (fits_scalar r o.zero) (show Fits r f from ⟨hff.1, e1⟩)
  rcases SA.C10_broadcast_to z h4.1 r hrw with ⟨_, z', h6, h7, h8, _⟩ | ⟨h6, _⟩
  · obtain ⟨c, h9, _⟩ := SA.C07_ufunc1_values (fun v => !o.eq v o.zero) z' h7
    rcases SA.C10_broadcast_to guess hg.1 r hrw with ⟨_, x, h10, h11, h12, h13⟩ | ⟨h10, _⟩
    · refine ⟨x, .leaf c, ?_, ⟨h11, by rw [h12]; exact h2⟩, atB_of_broadcast hg.1 (by rw [h12]; exact e2) h13⟩
      simp [newtonInit, onScalars, hf, bind, Except.bind, Comp.shape, hes, h1, noneTrue, Comp.ufunc2, h3, Comp.broadcastTo,
        Comp.mapM, h6, h9, h10]
    · exact absurd e2 h10
  · exact absurd h4.2 h6

theorem body_scalar (o : Arith F) {function jacobian : SA F → R (SA F)} {S : Shape}
    (hfun : ∀ a, Fits S a → ∃ f, function a = .ok f ∧ Fits S f)
    (hjac : ∀ a, Fits S a → ∃ f, jacobian a = .ok f ∧ Fits S f) {err : SA F} (he : err.WF) (hes : err.axes = [])
    {s : NewtonState F} {a f : SA F} (hx : s.x = .leaf a) (hf : s.f = .leaf f) (hxf : Fits S a) (hff : Fits S f) :
    ((∀ e, InRange f.shape e → o.lt (o.abs (f.at' e)) (err.at' e) = true) ∧
      newtonBody o (onScalars function) (scalarCorrection o (onScalars jacobian)) (.leaf err) s = .ok (.inl s.x)) ∨
    (∃ e, InRange f.shape e ∧ o.lt (o.abs (f.at' e)) (err.at' e) = false) ∧
      ∃ s' j a' f', newtonBody o (onScalars function) (scalarCorrection o (onScalars jacobian)) (.leaf err) s =
          .ok (.inr s') ∧ jacobian a = .ok j ∧ s'.x = .leaf a' ∧ s'.f = .leaf f' ∧ Fits S a' ∧ Fits S f' ∧
          ∀ e, a'.atB e = o.sub (a.atB e) (o.div (f.atB e) (j.atB e)) := by
  obtain ⟨conv, b, h1, h2, h3⟩ := small_scalar o hff.1 he hes
  cases b with
  | true =>
    left
    exact ⟨h3.1 rfl, by simp [newtonBody, hf, h1, h2, bind, Except.bind]⟩
  | false =>
    right
    constructor
    · by_contra hcon
      have : false = true := h3.2 (fun e he' => by
        by_contra hne
        exact hcon ⟨e, he', by simpa using hne⟩)
      cases this
    · obtain ⟨j, h4, h5⟩ := hjac a hxf
      obtain ⟨c, h6, h7, h8⟩ := ufunc2_fits' o.div hff h5
      obtain ⟨a', h9, h10, h11⟩ := ufunc2_fits' o.sub hxf h7
      obtain ⟨f', h12, h13⟩ := hfun a' h10
      refine ⟨⟨s.i + 1, .leaf a', .leaf f', conv⟩, j, a', f', ?_, h4, rfl, rfl, h10, h13, fun e => by rw [h11, h8]⟩
      simp [newtonBody, hf, hx, h1, h2, bind, Except.bind, scalarCorrection, onScalars, h4, Comp.ufunc2, h6, h9, h12]

/-- **C45** (scalars).  Suppose that the function and its derivative map arrays which fit into a shape `S` to such
arrays.  Then the iterates are those of Newton's method at every named index, and the method fails only with
`ValueError` after `max_iterations` iterates, each of which has an element where the tolerance is not reached. -/
theorem C45_scalar (o : Arith F) (function jacobian : SA F → R (SA F)) (S : Shape)
    (hfun : ∀ a, Fits S a → ∃ f, function a = .ok f ∧ Fits S f)
    (hjac : ∀ a, Fits S a → ∃ f, jacobian a = .ok f ∧ Fits S f) (guess err : SA F) (hg : Fits S guess) (he : err.WF)
    (hes : err.axes = []) (n : Nat)
    (calls : List (Call (Comp (SA F)) (Comp (SA F)) (Comp (SA Bool)))) (result : R (Comp (SA F)))
    (hrun : rootNewton o (onScalars function) (scalarCorrection o (onScalars jacobian)) (.leaf guess) (.leaf err) n =
      (calls, result)) :
    (∀ k c c', calls[k]? = some c → calls[k + 1]? = some c' → ∃ a f j a', c.x = .leaf a ∧ c.f = .leaf f ∧
      jacobian a = .ok j ∧ c'.x = .leaf a' ∧ ∀ e, a'.atB e = o.sub (a.atB e) (o.div (f.atB e) (j.atB e))) ∧
    (∀ x, result = .ok x → ∃ a, x = .leaf a ∧ Fits S a) ∧
    (∀ e, result = .error e → e = .valueError ∧ calls.length = n ∧ ∀ c ∈ calls, ∃ f e, c.f = .leaf f ∧
      InRange f.shape e ∧ o.lt (o.abs (f.at' e)) (err.at' e) = false) := by
  have hes' : err.shape = [] := by
    have := SA.keys_shape he
    rw [hes] at this
    cases hs : err.shape with
    | nil => rfl
    | cons p s => rw [hs] at this; simp at this
  obtain ⟨f0, g1, g2⟩ := hfun guess hg
  obtain ⟨x0, conv0, hi, hx0, _⟩ := init_scalar o hg g1 g2 hes'
  unfold rootNewton at hrun
  rw [hi] at hrun
  obtain ⟨st, h0, h1, h2, h3, h4, h5⟩ := loop_main (fun s : NewtonState F => (.ok s.call : R _))
    (fun s _ => newtonBody o (onScalars function) (scalarCorrection o (onScalars jacobian)) (.leaf err) s) n
    ⟨0, .leaf x0, .leaf f0, conv0⟩
  simp only at hrun
  rw [hrun] at h1 h2 h3 h4 h5
  simp only at h1 h2 h3 h4 h5
  have key : ∀ k, k < calls.length → ∃ a f, (st k).x = .leaf a ∧ (st k).f = .leaf f ∧ Fits S a ∧ Fits S f := by
    intro k
    induction k with
    | zero => intro _; rw [h0]; exact ⟨x0, f0, rfl, rfl, hx0, g2⟩
    | succ k ih =>
      intro hk
      obtain ⟨a, f, hx, hf, hxf, hff⟩ := ih (by omega)
      have hb := h3 k _ hk (List.getElem?_eq_getElem (by omega))
      rcases body_scalar o hfun hjac he hes hx hf hxf hff with ⟨_, hb'⟩ | ⟨_, s', j, a', f', hb', _, e1, e2, e3, e4, _⟩
      · rw [hb] at hb'; cases hb'
      · rw [hb] at hb'
        cases hb'
        exact ⟨a', f', e1, e2, e3, e4⟩
  refine ⟨?_, ?_, ?_⟩
  · intro k c c' hc hc'
    have hlt := (List.getElem?_eq_some_iff.1 hc').1
    have e1 := h2 k c hc
    have e2 := h2 (k + 1) c' hc'
    simp only [Except.ok.injEq] at e1 e2
    subst e1 e2
    obtain ⟨a, f, hx, hf, hxf, hff⟩ := key k (by omega)
    have hb := h3 k _ hlt hc
    rcases body_scalar o hfun hjac he hes hx hf hxf hff with ⟨_, hb'⟩ | ⟨_, s', j, a', f', hb', e0, e1, e2, e3, e4, e5⟩
    · rw [hb] at hb'; cases hb'
    · rw [hb] at hb'
      cases hb'
      exact ⟨a, f, j, a', hx, hf, e0, e1, e5⟩
  · intro x hx
    obtain ⟨k, c, h6, h7, h8⟩ := h4 x hx
    obtain ⟨a, f, hxa, hf, hxf, hff⟩ := key k (by omega)
    obtain ⟨rfl, _⟩ := newtonBody_inl h8
    exact ⟨a, hxa, hxf⟩
  · intro e he'
    have notDone : ∀ k c, calls[k]? = some c → newtonBody o (onScalars function)
        (scalarCorrection o (onScalars jacobian)) (.leaf err) (st k) = .ok (.inr (st (k + 1))) →
        ∃ f e, c.f = .leaf f ∧ InRange f.shape e ∧ o.lt (o.abs (f.at' e)) (err.at' e) = false := by
      intro k c hc hb
      have e1 := h2 k c hc
      simp only [Except.ok.injEq] at e1
      subst e1
      obtain ⟨a, f, hx, hf, hxf, hff⟩ := key k (List.getElem?_eq_some_iff.1 hc).1
      rcases body_scalar o hfun hjac he hes hx hf hxf hff with ⟨_, hb'⟩ | ⟨⟨e, h6, h7⟩, _⟩
      · rw [hb] at hb'; cases hb'
      · exact ⟨f, e, hf, h6, h7⟩
    rcases h5 e he' with ⟨h6, h7, h8⟩ | ⟨h6, _⟩ | ⟨k, c, h6, h7, h8⟩
    · refine ⟨h6, h7, fun c hc => ?_⟩
      obtain ⟨k, hk, rfl⟩ := List.mem_iff_getElem.1 hc
      exact notDone k _ (List.getElem?_eq_getElem hk) (h8 k _ (by omega) (List.getElem?_eq_getElem hk))
    · cases h6
    · obtain ⟨a, f, hx, hf, hxf, hff⟩ := key k (by omega)
      rcases body_scalar o hfun hjac he hes hx hf hxf hff with ⟨_, hb'⟩ | ⟨_, s', j, a', f', hb', _⟩
      · rw [h8] at hb'; cases hb'
      · rw [h8] at hb'; cases hb'

/-! ### Limits and examples -/

/-- exact arithmetic of integers (with the division which rounds down) -/
def exArith : Arith Int := ⟨(· + ·), (· - ·), (· * ·), (· / ·), fun a => a.natAbs, fun a b => decide (a < b),
  fun a b => decide (a = b), 0, 10⟩

/-- `x.sum() - c` with `c = [1, 1]` along `y` -/
def exSum (x : SA Int) : R (SA Int) := do
  let s ← x.reduce false (fun l => l.sum) none false none none
  SA.ufunc2 (· - ·) s ⟨["y"], ND.vec [1, 1]⟩

/-- the run from the guess `1` -/
def exSumRun : R (Comp (SA Int)) :=
  (rootNewton exArith (onScalars exSum) (fun _ f => .ok f) (.leaf (SA.scalar 1)) (.leaf (SA.scalar 1)) 5).2

def exSumCheck : Bool :=
  match exSumRun with
  | .ok (.leaf x) => match exSum x with
    | .ok f => decide (f.shape = [("y", 2)]) && decide (f.at' (fun _ => 0) = 1 ∧ f.at' (fun _ => 1) = 1)
    | .error _ => false
  | _ => false

/-- **C45** fails for functions which do not respect broadcasting: the value at the guess is checked, but the guess is
returned broadcast to the shape of this value.  Here the guess is `1`, the function is `x.sum() - [1, 1]`, and
the array `[1, 1]` is returned although the function has the value `1` there. -/
theorem C45_first_iterate_refuted :
    ∃ (function : SA Int → R (SA Int)) (guess err x f : SA Int),
      (rootNewton exArith (onScalars function) (fun _ f => .ok f) (.leaf guess) (.leaf err) 5).2 = .ok (.leaf x) ∧
      function x = .ok f ∧ err = SA.scalar 1 ∧ f.shape = [("y", 2)] ∧ (f.at' (fun _ => 0) = 1 ∧ f.at' (fun _ => 1) = 1) ∧
      ¬ Below exArith (.leaf f) (.leaf err) := by
  have h : exSumCheck = true := by decide +kernel
  unfold exSumCheck at h
  split at h
  · next x hx =>
    split at h
    · next f hf =>
      simp only [Bool.and_eq_true, decide_eq_true_eq] at h
      refine ⟨exSum, SA.scalar 1, SA.scalar 1, x, f, hx, hf, rfl, h.1, h.2, ?_⟩
      rintro ⟨S, hS, hb⟩
      have hS' : S = [("y", 2)] := by
        simp only [Comp.shape, Except.ok.injEq] at hS
        rw [← hS, h.1]
      subst hS'
      have hr : InRange [("y", 2)] (fun _ => 0) := by
        intro ax n hn
        simp only [get?_cons] at hn
        split at hn
        · cases hn; exact Nat.zero_lt_two
        · cases hn
      have h1 := hb (fun _ => 0) hr [] f (SA.scalar 1) rfl rfl
      have h2 : f.atB (fun _ => 0) = 1 := by
        rw [← h.2.1]
        unfold SA.atB
        congr 1
        funext ax
        split <;> rfl
      rw [h2] at h1
      exact absurd h1 (by decide)
    · cases h
  · cases h

/-- `2 x - 4`, elementwise -/
def exLinear (x : SA Int) : R (SA Int) := SA.ufunc1 (fun v => 2 * v - 4) x

/-- its derivative -/
def exTwo (_ : SA Int) : R (SA Int) := .ok (SA.scalar 2)

/-- the guesses `[0, 5]` and a run from there -/
def exGuess : SA Int := ⟨["y"], ND.vec [0, 5]⟩

def exRun : List (Call (Comp (SA Int)) (Comp (SA Int)) (Comp (SA Bool))) × R (Comp (SA Int)) :=
  rootNewton exArith (onScalars exLinear) (scalarCorrection exArith (onScalars exTwo)) (.leaf exGuess)
    (.leaf (SA.scalar 1)) 5

/-- the values of a scalar result -/
def exValues : R (Comp (SA Int)) → Option (List String × List Int)
  | .ok (.leaf a) => some (a.axes, a.nd.toList)
  | _ => none

-- two calls of `callback`; the roots are found by one update
example : exRun.1.length = 2 ∧ exValues exRun.2 = some (["y"], [2, 2]) := by decide +kernel

-- the hypotheses of `C45_scalar` hold
example : (∀ a, Fits [("y", 2)] a → ∃ f, exLinear a = .ok f ∧ Fits [("y", 2)] f) ∧
    (∀ a, Fits [("y", 2)] a → ∃ f, exTwo a = .ok f ∧ Fits [("y", 2)] f) ∧ Fits [("y", 2)] exGuess := by
  refine ⟨fun a ha => ?_, fun a _ => ⟨_, rfl, fits_scalar _ _⟩, ⟨by decide, by decide⟩, fun ax m hm => ⟨m, hm, .inl rfl⟩⟩
  obtain ⟨c, h1, h2, _⟩ := ufunc1_fits' (fun v : Int => 2 * v - 4) ha
  exact ⟨c, h1, h2⟩

/-- Functions which are computed elementwise respect broadcasting (the hypothesis of `C45_root_partial`), for
every guess. -/
theorem C45_elementwise (g : F → F) (guess : Comp (SA F)) (hg : guess.WFLeaves) :
    RespectsBroadcasting (fun x => x.mapM (SA.ufunc1 g)) guess := by
  intro x f hx hf
  have hxw : x.WFLeaves := by
    have h1 := lift_leaves _ _ hx
    have hlen := h1.length_eq
    intro a ha
    obtain ⟨i, hi, rfl⟩ := List.mem_iff_getElem.1 ha
    exact ((List.forall₂_iff_get.1 h1).2 i (by omega) hi).1
  obtain ⟨f', hf'⟩ := mapM_isOk' (SA.ufunc1 g) x (fun a ha => by
    obtain ⟨c, h1, _⟩ := SA.C07_ufunc1_values g a (hxw a ha)
    exact ⟨c, h1⟩)
  refine ⟨f', hf', ?_⟩
  have h1 := (mapM_lift _ _ _).1 hf
  have h2 := lift_trans _ _ _ hx ((mapM_lift _ _ _).1 hf')
  have h4 := lift_trans _ _ _ (lift_symm _ _ (lift_with _ _ hg h1)) h2
  refine lift_mono ?_ _ _ h4
  rintro c c' ⟨a, ⟨h5, h6⟩, a', ⟨h7, h8, h9⟩, h10⟩
  obtain ⟨d, e1, e2, e3, e4⟩ := SA.C07_ufunc1_values g a h5
  obtain ⟨d', e1', e2', e3', e4'⟩ := SA.C07_ufunc1_values g a' h7
  rw [h6] at e1
  cases e1
  rw [h10] at e1'
  cases e1'
  refine ⟨e2', by rw [e3, e3']; exact h8, fun e => ?_⟩
  have := h9 e
  unfold SA.atB at this ⊢
  rw [e4, e4', e3, e3', this]

end Optimize
end NA
