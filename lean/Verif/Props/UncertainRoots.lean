import Verif.Uncertain.RootsLemmas
import Verif.Props.Jacobians

/-!
# Roots and derivatives of functions of uncertain scalars (C107)
-/

namespace NA
open Dict
open SA (FitsIn InRange)

/-- A component of an operand: a plain scalar is used as the nominal value and as the samples. -/
def UArg.side {α : Type} (x : UArg α) : Side → SA α
  | .nominal => x.nominal
  | .samples => x.distribution

namespace Optimize
open UA
variable {F : Type}

/-! ### Specification -/

/-- The calls of `callback`. -/
abbrev UCalls (F : Type) := List (Call (UA F) (UA F) (UA Bool))

/-- A component of the points at which the function is evaluated: `guess - 10 * min_step_size` and the arguments of
`callback`. -/
def sidePoints (x0 : UA F) (calls : UCalls F) (p : Side) : List (SA F) := (x0 :: calls.map Call.x).map (·.side p)

/-- The same component of the values of the function at these points. -/
def sideValues (f0 : UA F) (calls : UCalls F) (p : Side) : List (SA F) := (f0 :: calls.map Call.f).map (·.side p)

/-- At iteration `j` the element at the named index `e` of the component `p` has a value below `max_abs_error`, or the
step which led to this iterate is below `min_step_size` in magnitude. -/
def SmallAt (o : Arith F) (minStep err : UArg F) (x0 f0 : UA F) (calls : UCalls F) (p : Side) (j : Nat)
    (e : String → Nat) : Prop :=
  Small o (minStep.side p) (err.side p) (sidePoints x0 calls p) (sideValues f0 calls p) j e

/-! ### Helpers -/

/-- An operand as an uncertain scalar. -/
def ofArg (x : UArg F) : UA F := ⟨x.nominal, x.distribution⟩

theorem side_ofArg (x : UArg F) (p : Side) : (ofArg x).side p = x.side p := by cases p <;> rfl

theorem valid_ofArg {x : UArg F} (hx : x.Ok) (hr : ¬ x.Reserved) : (ofArg x).Valid :=
  ⟨hx.nominal, hx.distribution, noD_nominal hx hr⟩

theorem norm_ofArg {x : UArg F} (hx : x.Ok) (hr : ¬ x.Reserved) : UA.norm x = .ok (ofArg x) := by
  cases x with
  | plain a =>
    have := noD_nominal hx hr
    exact mk?_of_valid hx this
  | unc u => rfl

/-- The invariant of the loop. -/
structure USInv (T : Side → Shape) (s : USecantState F) : Prop where
  x0 : s.x0.Valid
  f0 : FitsU T s.f0
  x1 : FullU T s.x1
  c : FullU T s.converged

theorem inRange_iff_same {S S' : Shape} (h : Same S S') {e : String → Nat} : InRange S e ↔ InRange S' e := by
  unfold SA.InRange
  simp only [show ∀ ax, get? S ax = get? S' ax from h]

theorem usecantMark_ok {o : Arith F} {minStep err f1 : UA F} {s : USecantState F} {conv : UA Bool} {dx : UA F}
    {T : Side → Shape} (hT : Paired T) (hs : USInv T s) (hm : minStep.Valid) (he : err.Valid) (hf1 : f1.Valid)
    (h : usecantMark o minStep err s f1 = .ok (conv, dx)) :
    FullU T conv ∧ FullU T dx ∧ FitsU T f1 ∧
      (∀ p e, InRange (T p) e → (dx.side p).at' e = o.sub ((s.x1.side p).at' e) ((s.x0.side p).atB e)) ∧
      ∀ p e, InRange (T p) e → (conv.side p).at' e = ((s.converged.side p).at' e ||
        o.lt (o.abs ((f1.side p).atB e)) ((err.side p).atB e) ||
        o.lt (o.abs (o.sub ((s.x1.side p).at' e) ((s.x0.side p).atB e))) (o.abs ((minStep.side p).atB e))) := by
  obtain ⟨h1, h2, h3⟩ := usecantMark_side hm he hf1 hs.x0 (valid_of_fits hT.noD hs.x1.fits)
    (valid_of_fits hT.noD hs.c.fits) h
  have hc : ∀ p, Same (T p) (s.converged.side p).shape := fun p ax => ((hs.c p).2 ax).symm
  have hc' : ∀ p, Same (s.converged.side p).shape (T p) := fun p => (hs.c p).2
  have key := fun p => secantMark_ok (S := (s.converged.side p).shape) (s := s.side p) (full_of_same (hc p) (hs.x1 p))
    (hs.x0.side p) (hs.c p).1 rfl (hm.side p) (he.side p) (hf1.side p) (h3 p)
  refine ⟨fun p => ?_, fun p => ?_, fun p => ?_, fun p e hr => ?_, fun p e hr => ?_⟩
  · exact full_of_same (hc' p) (full_of_shape (key p).1 (key p).2.1)
  · exact full_of_same (hc' p) (key p).2.2.1
  · exact fits_of_same (hc' p) (key p).2.2.2.1
  · exact (key p).2.2.2.2.1 e ((inRange_iff_same (hc p)).1 hr)
  · exact (key p).2.2.2.2.2 e ((inRange_iff_same (hc p)).1 hr)

/-- Everything about the body of the loop. -/
theorem usecantBody_main {o : Arith F} {minStep err : UA F} {damping : Option F} {T : Side → Shape} (hT : Paired T)
    {s : USecantState F} (hs : USInv T s) (hm : minStep.Valid) (he : err.Valid) {f1 : UA F} (hf1 : f1.Valid)
    {r : UA F ⊕ USecantState F} (h : usecantBody o minStep err damping s ⟨s.i, s.x1, f1, s.converged⟩ = .ok r) :
    FitsU T f1 ∧ ∃ conv : UA Bool, FullU T conv ∧
      (∀ p e, InRange (T p) e → (conv.side p).at' e = ((s.converged.side p).at' e ||
        o.lt (o.abs ((f1.side p).atB e)) ((err.side p).atB e) ||
        o.lt (o.abs (o.sub ((s.x1.side p).atB e) ((s.x0.side p).atB e))) (o.abs ((minStep.side p).atB e)))) ∧
      ((r = .inl s.x1 ∧ ∀ p e, InRange (T p) e → (conv.side p).at' e = true) ∨
        ((∃ p e, InRange (T p) e ∧ (conv.side p).at' e = false) ∧ ∃ x2, r = .inr ⟨s.i + 1, s.x1, x2, f1, conv⟩ ∧
          FullU T x2 ∧
          (∀ p e, InRange (T p) e → (conv.side p).at' e = false →
            o.eq (o.sub ((f1.side p).atB e) ((s.f0.side p).atB e)) o.zero = false) ∧
          ∀ p e, InRange (T p) e → (x2.side p).at' e = if (conv.side p).at' e = true then (s.x1.side p).at' e
            else o.sub ((s.x1.side p).at' e) (correctionOf o damping
              (o.sub ((s.x1.side p).at' e) ((s.x0.side p).atB e)) ((s.f0.side p).atB e) ((f1.side p).atB e)))) := by
  simp only [usecantBody, bind, Except.bind] at h
  cases h1 : usecantMark o minStep err s f1 with
  | error e => rw [h1] at h; cases h
  | ok q =>
    obtain ⟨conv, dx⟩ := q
    rw [h1] at h
    simp only at h
    obtain ⟨a1, a2, a3, a4, a5⟩ := usecantMark_ok hT hs hm he hf1 h1
    obtain ⟨t, b, b1, b2, b3⟩ := all_full hT a1
    simp only [b1, b2] at h
    refine ⟨a3, conv, a1, fun p e her => by rw [(hs.x1 p).atB her]; exact a5 p e her, ?_⟩
    cases b with
    | true =>
      simp only [if_true, Except.ok.injEq] at h
      exact .inl ⟨h.symm, b3.1 rfl⟩
    | false =>
      simp only [Bool.false_eq_true, if_false] at h
      right
      constructor
      · by_contra hne
        push Not at hne
        exact absurd (b3.2 (fun p e her => by simpa using hne p e her)) (by simp)
      · cases h2 : usecantStep o damping s f1 conv dx with
        | error e => rw [h2] at h; cases h
        | ok s' =>
          rw [h2] at h
          simp only [Except.ok.injEq] at h
          obtain ⟨c1, c2⟩ := usecantStep_full hT hs.f0 a3 a1 h2
          rcases usecantStep_main o damping hT s hs.x1 c1 c2 a1 a2 with ⟨_, d⟩ | ⟨d0, x2, d1, d2, d3⟩
          · rw [h2] at d; cases d
          · rw [h2] at d1
            simp only [Except.ok.injEq] at d1
            subst d1
            refine ⟨x2, h.symm, d2, fun p e her hce => ?_, fun p e her => ?_⟩
            · rw [(c2 p).atB her, (c1 p).atB her]
              by_contra hne
              exact d0 ⟨p, e, her, hce, by simpa using hne⟩
            · rw [d3 p e her, a4 p e her, (c1 p).atB her, (c2 p).atB her]

/-- What `broadcast_to` does to the components. -/
theorem broadcastTo_ok {α : Type} {u v : UA α} {S : Shape} (hu : u.Valid) (hS : Dict.WF S)
    (h : u.broadcastTo S = .ok v) :
    v.Valid ∧ v.nominal.shape = S ∧ FitsIn u.distribution.shape v.distribution.shape ∧
      (∃ t, u.shapeDistribution = .ok t ∧ Dict.WF t ∧ broadcastShapes [S, t] = .ok v.distribution.shape) ∧
      ∀ p e, (v.side p).at' e = (u.side p).atB e := by
  simp only [UA.broadcastTo, bind, Except.bind] at h
  cases h1 : u.shapeDistribution with
  | error x => rw [h1] at h; cases h
  | ok t =>
    rw [h1] at h
    simp only at h
    cases h2 : broadcastShapes [S, t] with
    | error x => rw [h2] at h; cases h
    | ok X =>
      rw [h2] at h
      simp only at h
      have hw : ∀ s ∈ [u.nominal.shape, u.distribution.shape], Dict.WF s := by
        intro s hs
        simp only [List.mem_cons, List.not_mem_nil, or_false] at hs
        rcases hs with rfl | rfl
        · exact SA.wf_shape hu.1
        · exact SA.wf_shape hu.2.1
      have ht : Dict.WF t := (broadcastShapes_joinOf hw h1).1
      have hX : Dict.WF X := (broadcastShapes_joinOf (ss := [S, t]) (by
        intro s hs
        simp only [List.mem_cons, List.not_mem_nil, or_false] at hs
        rcases hs with rfl | rfl <;> assumption) h2).1
      rcases SA.C10_broadcast_to u.nominal hu.1 S hS with ⟨_, n, n1, n2, n3, n4⟩ | ⟨_, n1⟩
      swap
      · rw [n1] at h; cases h
      rw [n1] at h
      simp only at h
      rcases SA.C10_broadcast_to u.distribution hu.2.1 X hX with ⟨d0, d, d1, d2, d3, d4⟩ | ⟨_, d1⟩
      swap
      · rw [d1] at h; cases h
      rw [d1] at h
      simp only at h
      obtain ⟨rfl, h4⟩ := mk?_ok n2 h
      refine ⟨⟨n2, d2, h4⟩, n3, by rw [d3]; exact d0, ⟨t, rfl, ht, by rw [d3]; exact h2⟩, fun p e => ?_⟩
      cases p with
      | nominal => exact n4 e
      | samples => exact d4 e

/-- `spread` broadcasts the components. -/
theorem spread_ok {u v : UA F} {S D : Shape} (hu : u.Valid) (hS : Dict.WF S) (hD : Dict.WF D)
    (h : spread u S D = .ok v) :
    v.nominal.WF ∧ v.nominal.shape = S ∧ v.distribution.WF ∧ v.distribution.shape = D ∧ axisD ∉ v.nominal.axes ∧
      ∀ p e, (v.side p).at' e = (u.side p).atB e := by
  simp only [spread, bind, Except.bind] at h
  cases h1 : u.broadcastTo S with
  | error x => rw [h1] at h; cases h
  | ok w =>
    rw [h1] at h
    simp only at h
    obtain ⟨a1, a2, a3, _, a4⟩ := broadcastTo_ok hu hS h1
    rcases SA.C10_broadcast_to w.distribution a1.2.1 D hD with ⟨_, d', g1, g2, g3, g4⟩ | ⟨_, g1⟩
    swap
    · rw [g1] at h; cases h
    rw [g1] at h
    simp only [Except.ok.injEq] at h
    subst h
    refine ⟨a1.1, a2, g2, g3, a1.2.2, fun p e => ?_⟩
    cases p with
    | nominal => exact a4 .nominal e
    | samples =>
      show d'.at' e = _
      rw [g4]
      exact Comp.atB_of_broadcast hu.2.1 a3 (a4 .samples) e

theorem same_of_fits' {s t S : Shape} (h1 : FitsIn s S) (h2 : Same t S) (hs : Dict.WF s) (ht : Dict.WF t) {r : Shape}
    (h : broadcastShapes [s, t] = .ok r) : Same r S := by
  have hf : FitsIn t S := fun ax m hm => ⟨m, by rw [← h2 ax]; exact hm, .inl rfl⟩
  obtain ⟨r', b1, b2⟩ := broadcast_of_fits hs ht h1 hf
  rw [h] at b1
  cases b1
  have hw : ∀ u ∈ [s, t], Dict.WF u := by
    intro u hu
    simp only [List.mem_cons, List.not_mem_nil, or_false] at hu
    rcases hu with rfl | rfl <;> assumption
  have b3 : FitsIn t r := SA.fitsIn_of_broadcastShapes hw h (by simp)
  intro ax
  cases hg : get? S ax with
  | none =>
    cases hr : get? r ax with
    | none => rfl
    | some n =>
      obtain ⟨m, hm, _⟩ := b2 ax n hr
      rw [hg] at hm
      cases hm
  | some m =>
    obtain ⟨n, hn, h3⟩ := b3 ax m (by rw [h2 ax]; exact hg)
    obtain ⟨m', hm', h4⟩ := b2 ax n hn
    rw [hg] at hm'
    cases hm'
    rw [hn]
    rcases h3 with h3 | h3
    · rw [h3]
    · rcases h4 with h4 | h4
      · rw [h4]
      · rw [h3, h4]

/-- Broadcasting an array of full shape to its shape. -/
theorem broadcastTo_full {α : Type} {T : Side → Shape} (hT : Paired T) {u v : UA α} (h : FullU T u)
    (hb : u.broadcastTo (T .nominal) = .ok v) :
    FullU T v ∧ ∀ p e, (v.side p).at' e = (u.side p).atB e := by
  obtain ⟨a1, a2, a3, ⟨t, b1, b2, b3⟩, a4⟩ := broadcastTo_ok (valid_of_fits hT.noD h.fits) hT.wfn hb
  refine ⟨fun p => ?_, a4⟩
  have hTn : FitsIn (T .nominal) (T .samples) := by
    intro ax m hm
    refine ⟨m, ?_, .inl rfl⟩
    rw [hT.same ax (by rintro rfl; exact hT.noD (mem_keys_of_get? hm)), hm]
  cases p with
  | nominal => exact full_of_shape a1.1 a2
  | samples =>
    have hun : FitsIn u.nominal.shape (T .samples) := by
      intro ax m hm
      exact hTn ax m (by rw [← (h .nominal).2 ax]; exact hm)
    have ht : Same t (T .samples) :=
      same_of_fits' hun (h .samples).2 (SA.wf_shape (h .nominal).1) (SA.wf_shape (h .samples).1) b1
    exact ⟨a1.2.1, same_of_fits' hTn ht hT.wfn b2 b3⟩

/-- The shapes of the components to which the arrays `us` are broadcast. -/
def Common (us : List (UA F)) (T : Side → Shape) : Prop :=
  (∃ ss, us.mapM UA.shape = .ok ss ∧ broadcastShapes ss = .ok (T .nominal)) ∧
    ∃ ss, us.mapM UA.shapeDistribution = .ok ss ∧ broadcastShapes ss = .ok (T .samples)

theorem shape_erase {u : UA F} {t : Shape} (h : u.shapeDistribution = .ok t) : u.shape = .ok (t.erase axisD) := by
  unfold UA.shape
  rw [h]
  rfl

theorem wf_shapeDistribution {u : UA F} (hu : u.Valid) {t : Shape} (h : u.shapeDistribution = .ok t) : Dict.WF t := by
  refine (broadcastShapes_joinOf (ss := [u.nominal.shape, u.distribution.shape]) ?_ h).1
  intro s hs
  simp only [List.mem_cons, List.not_mem_nil, or_false] at hs
  rcases hs with rfl | rfl
  · exact SA.wf_shape hu.1
  · exact SA.wf_shape hu.2.1

/-- The common shapes. -/
def pairOf (S D : Shape) : Side → Shape
  | .nominal => S
  | .samples => D

theorem paired_pairOf {ss : List Shape} (hss : ∀ s ∈ ss, Dict.WF s) {S D : Shape} (hD : broadcastShapes ss = .ok D)
    (hS : broadcastShapes (ss.map (·.erase axisD)) = .ok S) : Paired (pairOf S D) ∧ Dict.WF D := by
  obtain ⟨t', h1, h2, h3⟩ := UA.erase_outcome hss hD
  rw [hS] at h1
  cases h1
  refine ⟨⟨?_, ?_, fun ax hx => ?_⟩, (broadcastShapes_joinOf hss hD).1⟩
  · refine (broadcastShapes_joinOf ?_ hS).1
    intro s hs
    obtain ⟨t, ht, rfl⟩ := List.mem_map.1 hs
    exact Dict.wf_erase (hss t ht) _
  · show axisD ∉ keys S
    rw [← get?_eq_none, ← h2 axisD, get?_erase_self]
  · show get? D ax = get? S ax
    rw [← h2 ax, get?_erase_ne hx]

theorem usecantInit_ok {o : Arith F} {function : UA F → R (UA F)} {guess minStep err : UA F} (hg : guess.Valid)
    (hm : minStep.Valid) (hfun : ∀ x y, x.Valid → function x = .ok y → y.Valid) {s : USecantState F}
    (h : usecantInit o function guess minStep err = .ok s) :
    err.shape = .ok [] ∧ s.i = 0 ∧
      (∀ p e, (s.x0.side p).atB e = o.sub ((guess.side p).atB e) (o.mul o.ten ((minStep.side p).atB e))) ∧
      ∃ f0 T, function s.x0 = .ok f0 ∧ Common [f0, guess, minStep] T ∧ Paired T ∧ (USInv T s ∧ FullU T s.f0) ∧
        (∀ p e, InRange (T p) e → (s.f0.side p).atB e = (f0.side p).atB e) ∧
        (∀ p e, (s.x1.side p).at' e = (guess.side p).atB e) ∧
        ∀ p e, InRange (T p) e →
          (s.converged.side p).at' e = !o.eq (o.mul o.zero ((f0.side p).atB e)) o.zero := by
  simp only [usecantInit, bind, Except.bind] at h
  cases h1 : UA.op2 o.mul (UA.number o.ten) minStep with
  | error e => rw [h1] at h; cases h
  | ok tenSteps =>
    rw [h1] at h
    simp only at h
    have t1 := op2_ok (valid_of_fits (T := fun _ => []) (by simp [keys]) (number_fits _ o.ten)) hm h1
    cases h2 : UA.op2 o.sub guess tenSteps with
    | error e => rw [h2] at h; cases h
    | ok x0 =>
      rw [h2] at h
      simp only at h
      have t2 := op2_ok hg t1.1 h2
      cases h3 : function x0 with
      | error e => rw [h3] at h; cases h
      | ok f0 =>
        rw [h3] at h
        simp only at h
        have hf0 := hfun _ _ t2.1 h3
        cases hes : err.shape with
        | error e => rw [hes] at h; cases h
        | ok se =>
        cases se with
        | cons p t => rw [hes] at h; simp at h
        | nil =>
          rw [hes] at h
          simp only [List.isEmpty_nil, Bool.not_true, Bool.false_eq_true, if_false] at h
          cases d1 : f0.shapeDistribution with
          | error e => simp only [UA.shape, d1, bind, Except.bind] at h; cases h
          | ok sf =>
          rw [shape_erase d1] at h
          cases d2 : guess.shapeDistribution with
          | error e => simp only [UA.shape, d2, bind, Except.bind] at h; cases h
          | ok sg =>
          rw [shape_erase d2] at h
          cases d3 : minStep.shapeDistribution with
          | error e => simp only [UA.shape, d3, bind, Except.bind] at h; cases h
          | ok sm =>
          rw [shape_erase d3] at h
          simp only [d1, d2, d3] at h
          cases h4 : broadcastShapes [sf.erase axisD, sg.erase axisD, sm.erase axisD] with
          | error e => rw [h4] at h; cases h
          | ok S =>
            rw [h4] at h
            simp only at h
            cases h5 : broadcastShapes [sf, sg, sm] with
            | error e => rw [h5] at h; cases h
            | ok D =>
              rw [h5] at h
              simp only at h
              have hw : ∀ t ∈ [sf, sg, sm], Dict.WF t := by
                intro t ht
                simp only [List.mem_cons, List.not_mem_nil, or_false] at ht
                rcases ht with rfl | rfl | rfl
                · exact wf_shapeDistribution hf0 d1
                · exact wf_shapeDistribution hg d2
                · exact wf_shapeDistribution hm d3
              obtain ⟨hT, hD⟩ := paired_pairOf hw h5 h4
              have hS : Dict.WF S := hT.wfn
              cases h6 : spread f0 S D with
              | error e => rw [h6] at h; cases h
              | ok f0' =>
                rw [h6] at h
                simp only at h
                obtain ⟨a1, a2, a3, a4, a5, a6⟩ := spread_ok hf0 hS hD h6
                have hf : FullU (pairOf S D) f0' := fun p => by
                  cases p with
                  | nominal => exact full_of_shape a1 a2
                  | samples => exact full_of_shape a3 a4
                obtain ⟨z, z1, z2, z3⟩ := op2_full' hT.noD o.mul (number_fits _ o.zero) hf
                rw [z1] at h
                simp only at h
                cases h7 : z.broadcastTo S with
                | error e => rw [h7] at h; cases h
                | ok z' =>
                  rw [h7] at h
                  simp only at h
                  obtain ⟨b1, b2⟩ := broadcastTo_full hT z2 h7
                  obtain ⟨conv, c1, c2, c3⟩ := op1_full hT.noD (fun v => !o.eq v o.zero) b1
                  rw [c1] at h
                  simp only at h
                  cases h8 : spread guess S D with
                  | error e => rw [h8] at h; cases h
                  | ok x1 =>
                    rw [h8] at h
                    simp only [Except.ok.injEq] at h
                    subst h
                    obtain ⟨g1, g2, g3, g4, g5, g6⟩ := spread_ok hg hS hD h8
                    have hx : FullU (pairOf S D) x1 := fun p => by
                      cases p with
                      | nominal => exact full_of_shape g1 g2
                      | samples => exact full_of_shape g3 g4
                    have hfv : ∀ p e, InRange (pairOf S D p) e → (f0'.side p).atB e = (f0.side p).atB e := by
                      intro p e he
                      rw [(hf p).atB he, a6]
                    refine ⟨rfl, rfl, fun p e => ?_, f0, pairOf S D, h3, ⟨⟨_, ?_, h4⟩, ⟨_, ?_, h5⟩⟩, hT,
                      ⟨⟨t2.1, hf.fits, hx, c2⟩, hf⟩, hfv, g6, fun p e he => ?_⟩
                    · rw [t2.2.2 p e, t1.2.2 p e, number_at]
                    · rw [List.mapM_cons, List.mapM_cons, List.mapM_cons, shape_erase d1, shape_erase d2, shape_erase d3]
                      rfl
                    · rw [List.mapM_cons, List.mapM_cons, List.mapM_cons, d1, d2, d3]
                      rfl
                    · rw [← (c2 p).atB he, c3, (b1 p).atB he, b2 p e, z3, number_at, hfv p e he]

/-- The run after the initialization. -/
theorem urootSecant_eq (o : Arith F) (function : UA F → R (UA F)) {guess minStep err : UArg F} (n : Nat)
    (damping : Option F) (hg : guess.Ok ∧ ¬ guess.Reserved) (hm : minStep.Ok ∧ ¬ minStep.Reserved)
    (he : err.Ok ∧ ¬ err.Reserved) :
    urootSecant o function guess minStep err n damping =
      match usecantInit o function (ofArg guess) (ofArg minStep) (ofArg err) with
      | .error e => ([], .error e)
      | .ok s => loop (usecantHead function) (usecantBody o (ofArg minStep) (ofArg err) damping) n s := by
  unfold urootSecant
  simp only [norm_ofArg hg.1 hg.2, norm_ofArg hm.1 hm.2, norm_ofArg he.1 he.2, bind, Except.bind]
  cases usecantInit o function (ofArg guess) (ofArg minStep) (ofArg err) <;> rfl

theorem sidePoints_succ {x0 : UA F} {calls : UCalls F} {k : Nat} {c : Call (UA F) (UA F) (UA Bool)}
    (h : calls[k]? = some c) (p : Side) : (sidePoints x0 calls p)[k + 1]? = some (c.x.side p) := by
  simp [sidePoints, h]

theorem sideValues_succ {f0 : UA F} {calls : UCalls F} {k : Nat} {c : Call (UA F) (UA F) (UA Bool)}
    (h : calls[k]? = some c) (p : Side) : (sideValues f0 calls p)[k + 1]? = some (c.f.side p) := by
  simp [sideValues, h]

/-- Everything about a run. -/
theorem usecant_run (o : Arith F) (function : UA F → R (UA F)) (guess minStep err : UArg F) (n : Nat)
    (damping : Option F) (hg : guess.Ok ∧ ¬ guess.Reserved) (hm : minStep.Ok ∧ ¬ minStep.Reserved)
    (he : err.Ok ∧ ¬ err.Reserved) (hfun : ∀ x y, x.Valid → function x = .ok y → y.Valid)
    {s : USecantState F} (hi : usecantInit o function (ofArg guess) (ofArg minStep) (ofArg err) = .ok s)
    (calls : UCalls F) (result : R (UA F))
    (hrun : urootSecant o function guess minStep err n damping = (calls, result))
    {T : Side → Shape} {f0 : UA F} (hT : Paired T) (hinv : USInv T s) (hs0 : s.i = 0)
    (hf0 : ∀ p e, InRange (T p) e → (s.f0.side p).atB e = (f0.side p).atB e)
    (hconv : ∀ p e, InRange (T p) e →
          (s.converged.side p).at' e = !o.eq (o.mul o.zero ((f0.side p).atB e)) o.zero) :
    calls.length ≤ n ∧
    ∃ st : Nat → USecantState F, st 0 = s ∧
      (∀ k, k < calls.length → USInv T (st k) ∧ (st k).i = k ∧
        ∃ f, function (st k).x1 = .ok f ∧ calls[k]? = some ⟨k, (st k).x1, f, (st k).converged⟩ ∧
        (∀ p, (sidePoints s.x0 calls p)[k]? = some ((st k).x0.side p)) ∧
        (∀ p, ∃ g, (sideValues f0 calls p)[k]? = some g ∧
          ∀ e, InRange (T p) e → ((st k).f0.side p).atB e = g.atB e) ∧
        ∀ p e, InRange (T p) e → (((st k).converged.side p).at' e = true ↔
          o.eq (o.mul o.zero ((f0.side p).atB e)) o.zero = false ∨
            ∃ j < k, SmallAt o minStep err s.x0 f0 calls p j e)) ∧
      (∀ k c, k + 1 < calls.length → calls[k]? = some c →
        usecantBody o (ofArg minStep) (ofArg err) damping (st k) c = .ok (.inr (st (k + 1)))) ∧
      (∀ r, result = .ok r → ∃ k c, calls.length = k + 1 ∧ calls[k]? = some c ∧
        usecantBody o (ofArg minStep) (ofArg err) damping (st k) c = .ok (.inl r)) ∧
      (∀ x, result = .error x →
        (x = .valueError ∧ calls.length = n) ∨
        (∃ k c s', calls.length = k + 1 ∧ k + 1 < n ∧ calls[k]? = some c ∧
          usecantBody o (ofArg minStep) (ofArg err) damping (st k) c = .ok (.inr s') ∧ function s'.x1 = .error x) ∨
        (calls = [] ∧ 0 < n ∧ function s.x1 = .error x) ∨
        (∃ k c, calls.length = k + 1 ∧ calls[k]? = some c ∧
          usecantBody o (ofArg minStep) (ofArg err) damping (st k) c = .error x)) := by
  rw [urootSecant_eq o function n damping hg hm he, hi] at hrun
  simp only at hrun
  obtain ⟨st, h0, h1, h2, h3, h4, h5⟩ :=
    loop_main (usecantHead function) (usecantBody o (ofArg minStep) (ofArg err) damping) n s
  rw [hrun] at h1 h2 h3 h4 h5
  simp only at h1 h2 h3 h4 h5
  have hmv := valid_ofArg hm.1 hm.2
  have hev := valid_ofArg he.1 he.2
  have head : ∀ k c, calls[k]? = some c →
      ∃ f, function (st k).x1 = .ok f ∧ c = ⟨(st k).i, (st k).x1, f, (st k).converged⟩ := by
    intro k c hc
    have := h2 k c hc
    simp only [usecantHead, bind, Except.bind] at this
    cases hf : function (st k).x1 with
    | error e => rw [hf] at this; cases this
    | ok f =>
      rw [hf] at this
      simp only [Except.ok.injEq] at this
      exact ⟨f, rfl, this.symm⟩
  refine ⟨h1, st, h0, ?_, h3, h4, ?_⟩
  · intro k
    induction k with
    | zero =>
      intro hk
      have hc : calls[0]? = some calls[0] := List.getElem?_eq_getElem hk
      obtain ⟨f, f1, f2⟩ := head 0 _ hc
      rw [f2] at hc
      rw [h0] at f1 hc ⊢
      rw [hs0] at hc
      refine ⟨hinv, hs0, f, f1, hc, fun p => rfl, fun p => ⟨f0.side p, rfl, hf0 p⟩, fun p e her => ?_⟩
      rw [hconv p e her]
      simp
    | succ k ih =>
      intro hk
      obtain ⟨v1, v2, f, v3, v4, v5, v6, v7⟩ := ih (by omega)
      have hc : calls[k + 1]? = some calls[k + 1] := List.getElem?_eq_getElem hk
      obtain ⟨f', g1, g2⟩ := head (k + 1) _ hc
      rw [g2] at hc
      have hb : usecantBody o (ofArg minStep) (ofArg err) damping (st k)
          ⟨(st k).i, (st k).x1, f, (st k).converged⟩ = .ok (.inr (st (k + 1))) := by
        rw [v2]
        exact h3 k _ hk v4
      obtain ⟨w0, conv, w1, w3, w4⟩ :=
        usecantBody_main hT v1 hmv hev (hfun _ _ (valid_of_fits hT.noD v1.x1.fits) v3) hb
      rcases w4 with ⟨w4, _⟩ | ⟨_, x2, w4, w5, _, w7⟩
      · cases w4
      simp only [Sum.inr.injEq] at w4
      rw [v2] at w4
      rw [w4] at g1 hc ⊢
      simp only at g1 hc ⊢
      have p1 := fun p => sidePoints_succ (x0 := s.x0) v4 p
      have p2 := fun p => sideValues_succ (f0 := f0) v4 p
      refine ⟨⟨valid_of_fits hT.noD v1.x1.fits, w0, w5, w1⟩, by trivial, f', g1, hc, p1,
        fun p => ⟨_, p2 p, fun e _ => rfl⟩, fun p e her => ?_⟩
      rw [w3 p e her, Bool.or_eq_true, Bool.or_eq_true, v7 p e her, side_ofArg, side_ofArg]
      constructor
      · rintro (((h | ⟨j, hj, h⟩) | h) | h)
        · exact .inl h
        · exact .inr ⟨j, by omega, h⟩
        · exact .inr ⟨k, by omega, _, _, _, v5 p, p1 p, p2 p, .inl h⟩
        · exact .inr ⟨k, by omega, _, _, _, v5 p, p1 p, p2 p, .inr h⟩
      · rintro (h | ⟨j, hj, h⟩)
        · exact .inl (.inl (.inl h))
        · by_cases hjk : j < k
          · exact .inl (.inl (.inr ⟨j, hjk, h⟩))
          · have : j = k := by omega
            subst this
            obtain ⟨x, x', y', q1, q2, q3, q4⟩ := h
            rw [v5 p] at q1
            rw [p1 p] at q2
            rw [p2 p] at q3
            cases q1; cases q2; cases q3
            rcases q4 with q4 | q4
            · exact .inl (.inr q4)
            · exact .inr q4
  · intro x hx
    rcases h5 x hx with ⟨h6, h7, _⟩ | ⟨h6, h7, h8⟩ | ⟨k, c, h6, h7, h8⟩
    · exact .inl ⟨h6, h7⟩
    · have hf : function (st calls.length).x1 = .error x := by
        simp only [usecantHead, bind, Except.bind] at h6
        cases hf : function (st calls.length).x1 with
        | error e => rw [hf] at h6; simpa using h6
        | ok f => rw [hf] at h6; cases h6
      cases hl : calls.length with
      | zero =>
        rw [hl, h0] at hf
        exact .inr (.inr (.inl ⟨List.length_eq_zero_iff.1 hl, by omega, hf⟩))
      | succ k =>
        have hc : calls[k]? = some calls[k] := List.getElem?_eq_getElem (by omega)
        rw [hl] at hf
        exact .inr (.inl ⟨k, _, st (k + 1), rfl, by omega, hc, h8 k _ hc, hf⟩)
    · exact .inr (.inr (.inr ⟨k, c, h6, h7, h8⟩))

/-- The statement of the step between two consecutive calls. -/
theorem usecant_next {o : Arith F} {function : UA F → R (UA F)} {guess minStep err : UArg F} {n : Nat}
    {damping : Option F} (hg : guess.Ok ∧ ¬ guess.Reserved) (hm : minStep.Ok ∧ ¬ minStep.Reserved)
    (he : err.Ok ∧ ¬ err.Reserved) (hfun : ∀ x y, x.Valid → function x = .ok y → y.Valid)
    {s : USecantState F} (hi : usecantInit o function (ofArg guess) (ofArg minStep) (ofArg err) = .ok s)
    {calls : UCalls F} {result : R (UA F)}
    (hrun : urootSecant o function guess minStep err n damping = (calls, result))
    {T : Side → Shape} {f0 : UA F} (hT : Paired T) (hinv : USInv T s) (hs0 : s.i = 0)
    (hf0 : ∀ p e, InRange (T p) e → (s.f0.side p).atB e = (f0.side p).atB e)
    (hconv : ∀ p e, InRange (T p) e →
          (s.converged.side p).at' e = !o.eq (o.mul o.zero ((f0.side p).atB e)) o.zero)
    {k : Nat} {c c' : Call (UA F) (UA F) (UA Bool)} (hc : calls[k]? = some c) (hc' : calls[k + 1]? = some c')
    {p : Side} {e : String → Nat} (her : InRange (T p) e) :
    ((o.eq (o.mul o.zero ((f0.side p).atB e)) o.zero = false ∨
        ∃ j < k + 1, SmallAt o minStep err s.x0 f0 calls p j e) ∧ (c'.x.side p).at' e = (c.x.side p).at' e) ∨
    (¬ (o.eq (o.mul o.zero ((f0.side p).atB e)) o.zero = false ∨
        ∃ j < k + 1, SmallAt o minStep err s.x0 f0 calls p j e) ∧
      ∃ x f, (sidePoints s.x0 calls p)[k]? = some x ∧ (sideValues f0 calls p)[k]? = some f ∧
        o.eq (o.sub ((c.f.side p).atB e) (f.atB e)) o.zero = false ∧
        (c'.x.side p).at' e = o.sub ((c.x.side p).at' e)
          (correctionOf o damping (o.sub ((c.x.side p).at' e) (x.atB e)) (f.atB e) ((c.f.side p).atB e))) := by
  obtain ⟨h2, st, h3, h4, h5, _⟩ :=
    usecant_run o function guess minStep err n damping hg hm he hfun hi calls result hrun hT hinv hs0 hf0 hconv
  have hk := (List.getElem?_eq_some_iff.1 hc').1
  obtain ⟨v1, v2, f, v3, v4, v5, v6, v7⟩ := h4 k (by omega)
  obtain ⟨u1, u2, f', u3, u4, u5, u6, u7⟩ := h4 (k + 1) hk
  rw [hc] at v4
  rw [hc'] at u4
  cases v4
  cases u4
  have hb : usecantBody o (ofArg minStep) (ofArg err) damping (st k)
      ⟨(st k).i, (st k).x1, f, (st k).converged⟩ = .ok (.inr (st (k + 1))) := by
    rw [v2]
    exact h5 k _ hk hc
  obtain ⟨w0, conv, w1, w3, w4⟩ := usecantBody_main hT v1 (valid_ofArg hm.1 hm.2) (valid_ofArg he.1 he.2)
    (hfun _ _ (valid_of_fits hT.noD v1.x1.fits) v3) hb
  rcases w4 with ⟨w4, _⟩ | ⟨_, x2, w4, w5, w7, w8⟩
  · cases w4
  simp only [Sum.inr.injEq] at w4
  rw [← u7 p e her]
  rw [w4]
  simp only
  have := w8 p e her
  obtain ⟨g, g1, g2⟩ := v6 p
  cases hce : (conv.side p).at' e with
  | true =>
    rw [if_pos hce] at this
    exact .inl ⟨rfl, this⟩
  | false =>
    rw [if_neg (by simp [hce])] at this
    refine .inr ⟨by simp, _, g, v5 p, g1, ?_, ?_⟩
    · rw [← g2 e her]; exact w7 p e her hce
    · rw [← g2 e her]; exact this

/-! ### C107 -/

/-- **C107** (the calls of `root_secant`). For uncertain scalars the calls of `callback` are numbered from zero, at most
`max_iterations` are made, each is given the value of the function, and the nominal value and the samples of the first
are those of the guess. -/
theorem C107_calls (o : Arith F) (function : UA F → R (UA F)) (guess minStep err : UArg F) (n : Nat)
    (damping : Option F) (hg : guess.Ok ∧ ¬ guess.Reserved) (hm : minStep.Ok ∧ ¬ minStep.Reserved)
    (he : err.Ok ∧ ¬ err.Reserved) (hfun : ∀ x y, x.Valid → function x = .ok y → y.Valid)
    (calls : UCalls F) (result : R (UA F))
    (hrun : urootSecant o function guess minStep err n damping = (calls, result)) :
    calls.length ≤ n ∧
      (∀ (k : Nat) (c : Call (UA F) (UA F) (UA Bool)), calls[k]? = some c →
        c.i = k ∧ function c.x = .ok c.f ∧ c.x.Valid ∧ c.converged.Valid ∧
        ∀ p, Same (c.converged.side p).shape (c.x.side p).shape) ∧
      ∀ c : Call (UA F) (UA F) (UA Bool), calls[0]? = some c →
        ∀ p e, (c.x.side p).at' e = (guess.side p).atB e := by
  cases hi : usecantInit o function (ofArg guess) (ofArg minStep) (ofArg err) with
  | error x =>
    rw [urootSecant_eq o function n damping hg hm he, hi] at hrun
    cases hrun
    simp
  | ok s =>
    obtain ⟨i1, i2, i3, f0, T, i4, i5, hT, ⟨i6, _⟩, i7, i8, i9⟩ :=
      usecantInit_ok (valid_ofArg hg.1 hg.2) (valid_ofArg hm.1 hm.2) hfun hi
    obtain ⟨h2, st, h3, h4, _⟩ :=
      usecant_run o function guess minStep err n damping hg hm he hfun hi calls result hrun hT i6 i2 i7 i9
    refine ⟨h2, fun k c hc => ?_, fun c hc p e => ?_⟩
    · obtain ⟨v1, v2, f, v3, v4, _⟩ := h4 k (List.getElem?_eq_some_iff.1 hc).1
      rw [hc] at v4
      cases v4
      exact ⟨rfl, v3, valid_of_fits hT.noD v1.x1.fits, valid_of_fits hT.noD v1.c.fits,
        fun p ax => by rw [(v1.c p).2 ax, (v1.x1 p).2 ax]⟩
    · obtain ⟨v1, v2, f, v3, v4, _⟩ := h4 0 (List.getElem?_eq_some_iff.1 hc).1
      rw [hc] at v4
      cases v4
      rw [h3]
      simp only
      rw [i8 p e, side_ofArg]

/-- **C107** (the step of `root_secant`). The nominal value and the samples are iterated independently of each other, and
element by element: between two iterations an element of a component is kept if it is converged at this or an earlier
iteration; otherwise the values at the last two points differ there and the element moves to the zero of the secant
through them (or a fraction `damping` of the way). -/
theorem C107_step (o : Arith F) (function : UA F → R (UA F)) (guess minStep err : UArg F) (n : Nat)
    (damping : Option F) (hg : guess.Ok ∧ ¬ guess.Reserved) (hm : minStep.Ok ∧ ¬ minStep.Reserved)
    (he : err.Ok ∧ ¬ err.Reserved) (hfun : ∀ x y, x.Valid → function x = .ok y → y.Valid)
    (calls : UCalls F) (result : R (UA F))
    (hrun : urootSecant o function guess minStep err n damping = (calls, result)) :
    calls = [] ∨ ∃ x0 f0 T, function x0 = .ok f0 ∧
      (∀ p e, (x0.side p).atB e = o.sub ((guess.side p).atB e) (o.mul o.ten ((minStep.side p).atB e))) ∧
      Common [f0, ⟨guess.nominal, guess.distribution⟩, ⟨minStep.nominal, minStep.distribution⟩] T ∧
      ∀ (k : Nat) (c c' : Call (UA F) (UA F) (UA Bool)) p e, calls[k]? = some c → calls[k + 1]? = some c' →
        InRange (T p) e → o.eq (o.mul o.zero ((f0.side p).atB e)) o.zero = true → Same (c.x.side p).shape (T p) ∧
        ((∃ j ≤ k, SmallAt o minStep err x0 f0 calls p j e) → (c'.x.side p).at' e = (c.x.side p).at' e) ∧
        ((¬ ∃ j ≤ k, SmallAt o minStep err x0 f0 calls p j e) →
          ∃ x f, (sidePoints x0 calls p)[k]? = some x ∧ (sideValues f0 calls p)[k]? = some f ∧
            o.eq (o.sub ((c.f.side p).atB e) (f.atB e)) o.zero = false ∧
            (c'.x.side p).at' e =
              secantMove o damping (x.atB e) ((c.x.side p).at' e) (f.atB e) ((c.f.side p).atB e)) := by
  cases hi : usecantInit o function (ofArg guess) (ofArg minStep) (ofArg err) with
  | error x =>
    rw [urootSecant_eq o function n damping hg hm he, hi] at hrun
    cases hrun
    exact .inl rfl
  | ok s =>
    right
    obtain ⟨i1, i2, i3, f0, T, i4, i5, hT, ⟨i6, _⟩, i7, i8, i9⟩ :=
      usecantInit_ok (valid_ofArg hg.1 hg.2) (valid_ofArg hm.1 hm.2) hfun hi
    obtain ⟨h2, st, h3, h4, _⟩ :=
      usecant_run o function guess minStep err n damping hg hm he hfun hi calls result hrun hT i6 i2 i7 i9
    refine ⟨s.x0, f0, T, i4, fun p e => by rw [i3 p e, side_ofArg, side_ofArg], i5,
      fun k c c' p e hc hc' her h0 => ⟨?_, fun hsm => ?_, fun hsm => ?_⟩⟩
    · obtain ⟨v1, v2, f, v3, v4, _⟩ := h4 k (List.getElem?_eq_some_iff.1 hc).1
      rw [hc] at v4
      cases v4
      exact (v1.x1 p).2
    · obtain ⟨j, hj, hsj⟩ := hsm
      rcases usecant_next hg hm he hfun hi hrun hT i6 i2 i7 i9 hc hc' her with ⟨_, h⟩ | ⟨h, _⟩
      · exact h
      · exact absurd (.inr ⟨j, by omega, hsj⟩) h
    · rcases usecant_next hg hm he hfun hi hrun hT i6 i2 i7 i9 hc hc' her with ⟨h, _⟩ | ⟨_, x, f, q1, q2, q3, q4⟩
      · rcases h with h | ⟨j, hj, h⟩
        · rw [h0] at h; cases h
        · exact absurd ⟨j, by omega, h⟩ hsm
      · refine ⟨x, f, q1, q2, q3, ?_⟩
        rw [q4]
        cases damping <;> rfl

/-- **C107** (what `root_secant` returns). If it returns `x`, then `x` is the argument of the last of at most
`max_iterations` calls of `callback`, and for each element of the nominal value and of the samples there is an iteration
at which its value was below `max_abs_error` or its last step was below `min_step_size`, from which on the element was
not changed.

The elements at which `0 * function(guess - 10 * min_step_size)` is not zero (it is `nan` where the value is `nan` or
infinite) are excluded: they are taken to be converged before the first iteration, see `C107_nan_refuted`. -/
theorem C107_secant_partial (o : Arith F) (function : UA F → R (UA F)) (guess minStep err : UArg F) (n : Nat)
    (damping : Option F) (hg : guess.Ok ∧ ¬ guess.Reserved) (hm : minStep.Ok ∧ ¬ minStep.Reserved)
    (he : err.Ok ∧ ¬ err.Reserved) (hfun : ∀ x y, x.Valid → function x = .ok y → y.Valid)
    (calls : UCalls F) (r : UA F) (hrun : urootSecant o function guess minStep err n damping = (calls, .ok r)) :
    ∃ x0 f0 T, function x0 = .ok f0 ∧
      (∀ p e, (x0.side p).atB e = o.sub ((guess.side p).atB e) (o.mul o.ten ((minStep.side p).atB e))) ∧
      Common [f0, ⟨guess.nominal, guess.distribution⟩, ⟨minStep.nominal, minStep.distribution⟩] T ∧
      (∃ (k : Nat) (c : Call (UA F) (UA F) (UA Bool)), calls.length = k + 1 ∧ k < n ∧ calls[k]? = some c ∧ c.x = r) ∧
      r.Valid ∧ (∀ p, Same (r.side p).shape (T p)) ∧
      ∀ p e, InRange (T p) e → o.eq (o.mul o.zero ((f0.side p).atB e)) o.zero = true →
        ∃ j < calls.length, SmallAt o minStep err x0 f0 calls p j e ∧
          ∀ (i : Nat) (c : Call (UA F) (UA F) (UA Bool)), j ≤ i → calls[i]? = some c →
            (c.x.side p).at' e = (r.side p).at' e := by
  cases hi : usecantInit o function (ofArg guess) (ofArg minStep) (ofArg err) with
  | error x =>
    rw [urootSecant_eq o function n damping hg hm he, hi] at hrun
    cases hrun
  | ok s =>
    obtain ⟨i1, i2, i3, f0, T, i4, i5, hT, ⟨i6, _⟩, i7, i8, i9⟩ :=
      usecantInit_ok (valid_ofArg hg.1 hg.2) (valid_ofArg hm.1 hm.2) hfun hi
    obtain ⟨h2, st, h3, h4, h5, h6, _⟩ :=
      usecant_run o function guess minStep err n damping hg hm he hfun hi calls _ hrun hT i6 i2 i7 i9
    obtain ⟨k, c, g1, g2, g3⟩ := h6 r rfl
    obtain ⟨v1, v2, f, v3, v4, v5, v6, v7⟩ := h4 k (by omega)
    rw [v4] at g2
    cases g2
    have hb : usecantBody o (ofArg minStep) (ofArg err) damping (st k)
        ⟨(st k).i, (st k).x1, f, (st k).converged⟩ = .ok (.inl r) := by
      rw [v2]
      exact g3
    obtain ⟨w0, conv, w1, w3, w4⟩ := usecantBody_main hT v1 (valid_ofArg hm.1 hm.2) (valid_ofArg he.1 he.2)
      (hfun _ _ (valid_of_fits hT.noD v1.x1.fits) v3) hb
    rcases w4 with ⟨w4, w5⟩ | ⟨_, x2, w4, _⟩
    · simp only [Sum.inl.injEq] at w4
      subst w4
      refine ⟨s.x0, f0, T, i4, fun p e => by rw [i3 p e, side_ofArg, side_ofArg], i5,
        ⟨k, _, g1, by omega, v4, rfl⟩, valid_of_fits hT.noD v1.x1.fits, fun p => (v1.x1 p).2, fun p e her h0 => ?_⟩
      have p1 := sidePoints_succ (x0 := s.x0) v4 p
      have p2 := sideValues_succ (f0 := f0) v4 p
      have hsm : ∃ j < k + 1, SmallAt o minStep err s.x0 f0 calls p j e := by
        have := w5 p e her
        rw [w3 p e her, Bool.or_eq_true, Bool.or_eq_true, v7 p e her, h0, side_ofArg, side_ofArg] at this
        simp only [Bool.true_eq_false, false_or] at this
        rcases this with (⟨j, hj, h⟩ | h) | h
        · exact ⟨j, by omega, h⟩
        · exact ⟨k, by omega, _, _, _, v5 p, p1, p2, .inl h⟩
        · exact ⟨k, by omega, _, _, _, v5 p, p1, p2, .inr h⟩
      obtain ⟨j, hj, hsj⟩ := hsm
      refine ⟨j, by omega, hsj, fun i c' hij hci => ?_⟩
      have hik : i ≤ k := by
        have := (List.getElem?_eq_some_iff.1 hci).1
        omega
      have key : ∀ d i c', d = k - i → j ≤ i → i ≤ k → calls[i]? = some c' →
          (c'.x.side p).at' e = ((st k).x1.side p).at' e := by
        intro d
        induction d with
        | zero =>
          intro i c' hd _ hik hci
          have : i = k := by omega
          subst this
          rw [v4] at hci
          cases hci
          rfl
        | succ d ih =>
          intro i c' hd hij hik hci
          have hnext : calls[i + 1]? = some calls[i + 1] := List.getElem?_eq_getElem (by omega)
          rw [← ih (i + 1) _ (by omega) (by omega) (by omega) hnext]
          rcases usecant_next hg hm he hfun hi hrun hT i6 i2 i7 i9 hci hnext her with ⟨_, h⟩ | ⟨h, _⟩
          · exact h.symm
          · exact absurd (.inr ⟨j, by omega, hsj⟩) h
      exact key _ i c' rfl hij hik hci
    · cases w4

/-! ### No other failures -/

theorem usecantMark_isOk (o : Arith F) {T : Side → Shape} (hT : Paired T) {s : USecantState F} (hs : USInv T s)
    (hx0 : FitsU T s.x0) {minStep err f1 : UA F} (hm : FitsU T minStep) (he : FitsU T err) (hf1 : FitsU T f1) :
    ∃ q, usecantMark o minStep err s f1 = .ok q := by
  obtain ⟨a, a1, a2, _⟩ := op1_fits hT.noD o.abs hf1
  obtain ⟨c, b1, b2, _⟩ := op2_fits hT.noD o.lt a2 he
  have hcv := valid_of_fits hT.noD hs.c.fits
  obtain ⟨conv, c1⟩ := update2_isOk or hcv (valid_of_fits hT.noD b2)
    (fun p ax m hm => by rw [(hs.c p).2 ax]; exact (b2 p).2 ax m hm)
  obtain ⟨c2, c3⟩ := update2_ok hcv (valid_of_fits hT.noD b2) c1
  obtain ⟨dx, d1, d2, _⟩ := op2_fits hT.noD o.sub hs.x1.fits hx0
  obtain ⟨ad, e1, e2, _⟩ := op1_fits hT.noD o.abs d2
  obtain ⟨am, f1, f2, _⟩ := op1_fits hT.noD o.abs hm
  obtain ⟨c', g1, g2, _⟩ := op2_fits hT.noD o.lt e2 f2
  obtain ⟨conv', h1⟩ := update2_isOk or c2 (valid_of_fits hT.noD g2)
    (fun p ax m hm => by
      rw [(inplace2_ok (hs.c p).1 (b2 p).1 (c3 p)).2.2.1, (hs.c p).2 ax]
      exact (g2 p).2 ax m hm)
  exact ⟨(conv', dx), by simp only [usecantMark, bind, Except.bind, a1, b1, c1, d1, e1, f1, g1, h1]⟩

/-- The body of the loop fails only at stationary points. -/
theorem usecantBody_total (o : Arith F) (damping : Option F) {T : Side → Shape} (hT : Paired T) {s : USecantState F}
    (hs : USInv T s) (hx0 : FitsU T s.x0) (hf0 : FullU T s.f0) {minStep err f1 : UA F} (hm : FitsU T minStep)
    (he : FitsU T err) (hf1 : FullU T f1) {x : Err}
    (h : usecantBody o minStep err damping s ⟨s.i, s.x1, f1, s.converged⟩ = .error x) :
    x = .valueError ∧ ∃ p e, InRange (T p) e ∧
      ((s.converged.side p).at' e || o.lt (o.abs ((f1.side p).atB e)) ((err.side p).atB e) ||
        o.lt (o.abs (o.sub ((s.x1.side p).atB e) ((s.x0.side p).atB e))) (o.abs ((minStep.side p).atB e))) = false ∧
      o.eq (o.sub ((f1.side p).atB e) ((s.f0.side p).atB e)) o.zero = true := by
  obtain ⟨⟨conv, dx⟩, h1⟩ := usecantMark_isOk o hT hs hx0 hm he hf1.fits
  obtain ⟨a1, a2, a3, a4, a5⟩ := usecantMark_ok hT hs (valid_of_fits hT.noD hm) (valid_of_fits hT.noD he)
    (valid_of_fits hT.noD hf1.fits) h1
  obtain ⟨t, b, b1, b2, b3⟩ := all_full hT a1
  simp only [usecantBody, bind, Except.bind, h1, b1, b2] at h
  split at h
  · cases h
  · rcases usecantStep_main o damping hT s hs.x1 hf0 hf1 a1 a2 with ⟨⟨p, e, d1, d2, d3⟩, d⟩ | ⟨_, x2, d, _⟩
    · rw [d] at h
      simp only [Except.error.injEq] at h
      refine ⟨h.symm, p, e, d1, ?_, ?_⟩
      · rw [(hs.x1 p).atB d1, ← a5 p e d1]; exact d2
      · rw [(hf1 p).atB d1, (hf0 p).atB d1]; exact d3
    · rw [d] at h
      cases h

theorem bs_of_fits {ss : List Shape} (hss : ∀ s ∈ ss, Dict.WF s) {S : Shape} (h : ∀ s ∈ ss, FitsIn s S) :
    ∃ r, broadcastShapes ss = .ok r ∧ FitsIn r S := by
  have hsz : ∀ ax m, HasSize ss ax m → ∃ n, get? S ax = some n ∧ (m = n ∨ m = 1) := by
    rintro ax m ⟨u, hu, hm⟩
    exact h u hu ax m hm
  cases hb : broadcastShapes ss with
  | error e =>
    exfalso
    obtain ⟨ax, m, n, hm, hn, h3, h4, h5⟩ := (C01_broadcast_shapes_error_iff _ hss).1 ⟨e, hb⟩
    obtain ⟨k, hk, h6⟩ := hsz ax m hm
    obtain ⟨k', hk', h7⟩ := hsz ax n hn
    rw [hk] at hk'
    cases hk'
    omega
  | ok r =>
    refine ⟨r, rfl, ?_⟩
    obtain ⟨_, _, h3⟩ := C01_broadcast_shapes_ok _ hss r hb
    intro ax m hm
    exact hsz ax m (h3 ax m hm).1

/-- Broadcasting shapes one of which is the largest. -/
theorem bs_same {ss : List Shape} (hss : ∀ s ∈ ss, Dict.WF s) {S : Shape} (h : ∀ s ∈ ss, FitsIn s S) {t : Shape}
    (ht : t ∈ ss) (hS : Same t S) : ∃ r, broadcastShapes ss = .ok r ∧ Same r S := by
  obtain ⟨r, h1, h2⟩ := bs_of_fits hss h
  refine ⟨r, h1, fun ax => ?_⟩
  have b3 : FitsIn t r := SA.fitsIn_of_broadcastShapes hss h1 ht
  cases hg : get? S ax with
  | none =>
    cases hr : get? r ax with
    | none => rfl
    | some n =>
      obtain ⟨m, hm, _⟩ := h2 ax n hr
      rw [hg] at hm
      cases hm
  | some m =>
    obtain ⟨n, hn, h3⟩ := b3 ax m (by rw [hS ax]; exact hg)
    obtain ⟨m', hm', h4⟩ := h2 ax n hn
    rw [hg] at hm'
    cases hm'
    rw [hn]
    rcases h3 with h3 | h3
    · rw [h3]
    · rcases h4 with h4 | h4
      · rw [h4]
      · rw [h3, h4]

theorem nominal_fits {T : Side → Shape} (hT : Paired T) : FitsIn (T .nominal) (T .samples) := by
  intro ax m hm
  refine ⟨m, ?_, .inl rfl⟩
  rw [hT.same ax (by rintro rfl; exact hT.noD (mem_keys_of_get? hm)), hm]

/-- The shape of an array whose components fit. -/
theorem shapeDistribution_fits {T : Side → Shape} (hT : Paired T) {u : UA F} (hu : FitsU T u) :
    ∃ t, u.shapeDistribution = .ok t ∧ Dict.WF t ∧ FitsIn t (T .samples) ∧ FitsIn u.distribution.shape t ∧
      FitsIn (t.erase axisD) (T .nominal) ∧
      (FullU T u → Same t (T .samples) ∧ Same (t.erase axisD) (T .nominal)) := by
  have hn := hu .nominal
  have hd := hu .samples
  have hn' : FitsIn u.nominal.shape (T .samples) := Comp.fitsIn_trans hn.2 (nominal_fits hT)
  have hw : ∀ s ∈ [u.nominal.shape, u.distribution.shape], Dict.WF s := by
    intro s hs
    simp only [List.mem_cons, List.not_mem_nil, or_false] at hs
    rcases hs with rfl | rfl
    · exact SA.wf_shape hn.1
    · exact SA.wf_shape hd.1
  have hf : ∀ s ∈ [u.nominal.shape, u.distribution.shape], FitsIn s (T .samples) := by
    intro s hs
    simp only [List.mem_cons, List.not_mem_nil, or_false] at hs
    rcases hs with rfl | rfl
    · exact hn'
    · exact hd.2
  obtain ⟨t, h1, h2⟩ := bs_of_fits hw hf
  refine ⟨t, h1, (broadcastShapes_joinOf hw h1).1, h2, SA.fitsIn_of_broadcastShapes hw h1 (by simp), ?_, fun h => ?_⟩
  · intro ax m hm
    by_cases hx : ax = axisD
    · rw [hx, get?_erase_self] at hm; cases hm
    · rw [get?_erase_ne hx] at hm
      obtain ⟨n, hn, h3⟩ := h2 ax m hm
      exact ⟨n, by rw [← hT.same ax hx]; exact hn, h3⟩
  · obtain ⟨r, r1, r2⟩ := bs_same hw hf (t := u.distribution.shape) (by simp) (h .samples).2
    rw [h1] at r1
    cases r1
    refine ⟨r2, fun ax => ?_⟩
    by_cases hx : ax = axisD
    · rw [hx, get?_erase_self, get?_eq_none.2 hT.noD]
    · rw [get?_erase_ne hx, r2 ax, hT.same ax hx]

theorem fitsU_of_same {α : Type} {T T' : Side → Shape} (h : ∀ p, Same (T p) (T' p)) {u : UA α} (hu : FitsU T u) :
    FitsU T' u := fun p => fits_of_same (h p) (hu p)

theorem fullU_of_same {α : Type} {T T' : Side → Shape} (h : ∀ p, Same (T p) (T' p)) {u : UA α} (hu : FullU T u) :
    FullU T' u := fun p => full_of_same (h p) (hu p)

theorem broadcastTo_isOk {u : UA F} {T : Side → Shape} (hT : Paired T) (hu : FitsU T u) :
    ∃ v, u.broadcastTo (T .nominal) = .ok v ∧ FitsIn v.distribution.shape (T .samples) := by
  obtain ⟨t, t1, t2, t3, t4, _⟩ := shapeDistribution_fits hT hu
  obtain ⟨X, x1, x2⟩ := broadcast_of_fits hT.wfn t2 (nominal_fits hT) t3
  have hw : ∀ s ∈ [T .nominal, t], Dict.WF s := by
    intro s hs
    simp only [List.mem_cons, List.not_mem_nil, or_false] at hs
    rcases hs with rfl | rfl
    · exact hT.wfn
    · exact t2
  have hX : Dict.WF X := (broadcastShapes_joinOf hw x1).1
  have htX : FitsIn t X := SA.fitsIn_of_broadcastShapes hw x1 (by simp)
  rcases SA.C10_broadcast_to u.nominal (hu .nominal).1 (T .nominal) hT.wfn with ⟨_, n, n1, n2, n3, _⟩ | ⟨h, _⟩
  swap
  · exact absurd (hu .nominal).2 h
  rcases SA.C10_broadcast_to u.distribution (hu .samples).1 X hX with ⟨_, d, d1, d2, d3, _⟩ | ⟨h, _⟩
  swap
  · exact absurd (Comp.fitsIn_trans t4 htX) h
  refine ⟨⟨n, d⟩, ?_, by rw [d3]; exact x2⟩
  simp only [UA.broadcastTo, bind, Except.bind, t1, x1, n1, d1]
  refine mk?_of_valid n2 ?_
  rw [← SA.keys_shape n2, n3]
  exact hT.noD

theorem spread_isOk {u : UA F} {T : Side → Shape} (hT : Paired T) (hD : Dict.WF (T .samples)) (hu : FitsU T u) :
    ∃ v, spread u (T .nominal) (T .samples) = .ok v := by
  obtain ⟨v, v1, v2⟩ := broadcastTo_isOk hT hu
  have hv := broadcastTo_ok (valid_of_fits hT.noD hu) hT.wfn v1
  rcases SA.C10_broadcast_to v.distribution hv.1.2.1 (T .samples) hD with ⟨_, d, d1, _⟩ | ⟨h, _⟩
  · exact ⟨⟨v.nominal, d⟩, by simp only [spread, bind, Except.bind, v1, d1]⟩
  · exact absurd v2 h

/-- The initialization succeeds. -/
theorem usecantInit_isOk (o : Arith F) {function : UA F → R (UA F)} {guess minStep err : UA F} {T : Side → Shape}
    (hT : Paired T) (hg : FitsU T guess) (hm : FitsU T minStep) (hes : err.shape = .ok [])
    (hstart : ∀ x, FitsU T x → ∃ y, function x = .ok y ∧ FitsU T y ∧ (FullU T guess ∨ FullU T y)) :
    ∃ s, usecantInit o function guess minStep err = .ok s ∧ FitsU T s.x0 ∧
      ∀ f0 T', function s.x0 = .ok f0 → Common [f0, guess, minStep] T' → ∀ p, Same (T p) (T' p) := by
  obtain ⟨t, a1, a2, _⟩ := op2_fits hT.noD o.mul (number_fits T o.ten) hm
  obtain ⟨x0, b1, b2, _⟩ := op2_fits hT.noD o.sub hg a2
  obtain ⟨f0, c1, c2, c3⟩ := hstart x0 b2
  obtain ⟨sf, f1, f2, f3, f4, f5, f6⟩ := shapeDistribution_fits hT c2
  obtain ⟨sg, g1, g2, g3, g4, g5, g6⟩ := shapeDistribution_fits hT hg
  obtain ⟨sm, m1, m2, m3, m4, m5, m6⟩ := shapeDistribution_fits hT hm
  have hw : ∀ t ∈ [sf, sg, sm], Dict.WF t := by
    intro t ht
    simp only [List.mem_cons, List.not_mem_nil, or_false] at ht
    rcases ht with rfl | rfl | rfl <;> assumption
  have hw' : ∀ t ∈ [sf.erase axisD, sg.erase axisD, sm.erase axisD], Dict.WF t := by
    intro t ht
    simp only [List.mem_cons, List.not_mem_nil, or_false] at ht
    rcases ht with rfl | rfl | rfl <;> exact Dict.wf_erase (by assumption) _
  have hF : ∀ t ∈ [sf, sg, sm], FitsIn t (T .samples) := by
    intro t ht
    simp only [List.mem_cons, List.not_mem_nil, or_false] at ht
    rcases ht with rfl | rfl | rfl <;> assumption
  have hF' : ∀ t ∈ [sf.erase axisD, sg.erase axisD, sm.erase axisD], FitsIn t (T .nominal) := by
    intro t ht
    simp only [List.mem_cons, List.not_mem_nil, or_false] at ht
    rcases ht with rfl | rfl | rfl <;> assumption
  obtain ⟨D, d1, d2⟩ : ∃ D, broadcastShapes [sf, sg, sm] = .ok D ∧ Same D (T .samples) := by
    rcases c3 with h | h
    · exact bs_same hw hF (t := sg) (by simp) (g6 h).1
    · exact bs_same hw hF (t := sf) (by simp) (f6 h).1
  obtain ⟨S, s1, s2⟩ : ∃ S, broadcastShapes [sf.erase axisD, sg.erase axisD, sm.erase axisD] = .ok S ∧
      Same S (T .nominal) := by
    rcases c3 with h | h
    · exact bs_same hw' hF' (t := sg.erase axisD) (by simp) (g6 h).2
    · exact bs_same hw' hF' (t := sf.erase axisD) (by simp) (f6 h).2
  obtain ⟨hP, hD⟩ := paired_pairOf hw d1 s1
  have hsame : ∀ p, Same (T p) (pairOf S D p) := by
    intro p
    cases p with
    | nominal => exact fun ax => (s2 ax).symm
    | samples => exact fun ax => (d2 ax).symm
  obtain ⟨f0', i1⟩ : ∃ v, spread f0 S D = .ok v := spread_isOk hP hD (fitsU_of_same hsame c2)
  obtain ⟨x1, j1⟩ : ∃ v, spread guess S D = .ok v := spread_isOk hP hD (fitsU_of_same hsame hg)
  obtain ⟨k1, k2, k3, k4, k5, k6⟩ := spread_ok (valid_of_fits hT.noD c2) hP.wfn hD i1
  have hf : FullU (pairOf S D) f0' := fun p => by
    cases p with
    | nominal => exact full_of_shape k1 k2
    | samples => exact full_of_shape k3 k4
  obtain ⟨z, z1, z2, z3⟩ := op2_full' hP.noD o.mul (number_fits _ o.zero) hf
  obtain ⟨z', l1, _⟩ := broadcastTo_isOk hP z2.fits
  have l1' : z.broadcastTo S = .ok z' := l1
  obtain ⟨l2, _⟩ := broadcastTo_full hP z2 l1
  obtain ⟨conv, n1, _⟩ := op1_full hP.noD (fun v => !o.eq v o.zero) l2
  refine ⟨⟨0, x0, x1, f0', conv⟩, ?_, b2, fun h T' h1 h2 => ?_⟩
  · simp only [usecantInit, bind, Except.bind, a1, b1, c1, hes, List.isEmpty_nil, Bool.not_true, Bool.false_eq_true,
      if_false, shape_erase f1, shape_erase g1, shape_erase m1, f1, g1, m1, s1, d1, i1, j1, z1, l1', n1]
  · simp only at h1
    rw [c1] at h1
    cases h1
    obtain ⟨⟨ss, q1, q2⟩, ⟨ds, r1, r2⟩⟩ := h2
    rw [List.mapM_cons, List.mapM_cons, List.mapM_cons, shape_erase f1, shape_erase g1, shape_erase m1] at q1
    rw [List.mapM_cons, List.mapM_cons, List.mapM_cons, f1, g1, m1] at r1
    cases q1
    cases r1
    have q2' : broadcastShapes [sf.erase axisD, sg.erase axisD, sm.erase axisD] = .ok (T' .nominal) := q2
    have r2' : broadcastShapes [sf, sg, sm] = .ok (T' .samples) := r2
    rw [s1] at q2'
    rw [d1] at r2'
    intro p
    cases p with
    | nominal => rw [← Except.ok.inj q2']; exact hsame .nominal
    | samples => rw [← Except.ok.inj r2']; exact hsame .samples

/-- **C107** (no other failures of `root_secant`). If the operands and the values of the function are broadcastable to
the shapes `T`, the guess or the values of the function have these shapes and the function is defined for arrays of
these shapes, then `root_secant` raises nothing but `ValueError`, and this only after `max_iterations` iterations or at
a stationary point: at an element of the nominal value or of the samples which has not converged the values at the last
two points are equal. -/
theorem C107_failures (o : Arith F) (function : UA F → R (UA F)) (guess minStep err : UArg F) (n : Nat)
    (damping : Option F) (hg : guess.Ok ∧ ¬ guess.Reserved) (hm : minStep.Ok ∧ ¬ minStep.Reserved)
    (he : err.Ok ∧ ¬ err.Reserved) (T : Side → Shape) (hT : Paired T)
    (hgT : ∀ p, Fits (T p) (guess.side p)) (hmT : ∀ p, Fits (T p) (minStep.side p))
    (heT : ∀ p, Fits (T p) (err.side p)) (hes : (UA.mk err.nominal err.distribution).shape = .ok [])
    (hfun : ∀ x y, x.Valid → function x = .ok y → y.Valid)
    (hstart : ∀ x, FitsU T x → ∃ y, function x = .ok y ∧ FitsU T y ∧ ((∀ p, Full (T p) (guess.side p)) ∨ FullU T y))
    (hfull : ∀ x, FullU T x → ∃ y, function x = .ok y ∧ FullU T y)
    (calls : UCalls F) (x : Err)
    (hrun : urootSecant o function guess minStep err n damping = (calls, .error x)) :
    x = .valueError ∧ (calls.length = n ∨
      ∃ (x0 f0 : UA F) (k : Nat) (c : Call (UA F) (UA F) (UA Bool)) (p : Side) (f : SA F) (e : String → Nat),
      function x0 = .ok f0 ∧
      (∀ p e, (x0.side p).atB e = o.sub ((guess.side p).atB e) (o.mul o.ten ((minStep.side p).atB e))) ∧
      calls.length = k + 1 ∧ calls[k]? = some c ∧ (sideValues f0 calls p)[k]? = some f ∧ InRange (T p) e ∧
      (¬ ∃ j ≤ k, SmallAt o minStep err x0 f0 calls p j e) ∧
      o.eq (o.sub ((c.f.side p).atB e) (f.atB e)) o.zero = true) := by
  have hgT' : FitsU T (ofArg guess) := fun p => by rw [side_ofArg]; exact hgT p
  have hmT' : FitsU T (ofArg minStep) := fun p => by rw [side_ofArg]; exact hmT p
  have heT' : FitsU T (ofArg err) := fun p => by rw [side_ofArg]; exact heT p
  obtain ⟨s, hi, hsx0, hsame⟩ := usecantInit_isOk o (function := function) (guess := ofArg guess)
    (minStep := ofArg minStep) (err := ofArg err) hT hgT' hmT' hes (fun x hx => by
      obtain ⟨y, y1, y2, y3⟩ := hstart x hx
      refine ⟨y, y1, y2, y3.imp (fun h p => ?_) id⟩
      rw [side_ofArg]
      exact h p)
  obtain ⟨i1, i2, i3, f0, T', i4, i5, hT', ⟨i6, i6'⟩, i7, i8, i9⟩ :=
    usecantInit_ok (valid_ofArg hg.1 hg.2) (valid_ofArg hm.1 hm.2) hfun hi
  have hS := hsame f0 T' i4 i5
  have hS' : ∀ p, Same (T' p) (T p) := fun p ax => (hS p ax).symm
  obtain ⟨h2, st, h3, h4, h5, h6, h7⟩ :=
    usecant_run o function guess minStep err n damping hg hm he hfun hi calls _ hrun hT' i6 i2 i7 i9
  have hmv := valid_ofArg hm.1 hm.2
  have hev := valid_ofArg he.1 he.2
  have hok : ∀ {a : UA F}, FullU T' a → ∃ y, function a = .ok y ∧ FullU T' y := by
    intro a ha
    obtain ⟨y, y1, y2⟩ := hfull a (fullU_of_same hS' ha)
    exact ⟨y, y1, fullU_of_same hS y2⟩
  have hprev : ∀ k, k < calls.length → FitsU T' (st k).x0 ∧ FullU T' (st k).f0 := by
    intro k
    cases k with
    | zero => intro _; rw [h3]; exact ⟨fitsU_of_same hS hsx0, i6'⟩
    | succ k =>
      intro hk
      obtain ⟨v1, v2, f, v3, v4, _⟩ := h4 k (by omega)
      have hb : usecantBody o (ofArg minStep) (ofArg err) damping (st k)
          ⟨(st k).i, (st k).x1, f, (st k).converged⟩ = .ok (.inr (st (k + 1))) := by
        rw [v2]
        exact h5 k _ hk v4
      obtain ⟨_, conv, _, _, w4⟩ :=
        usecantBody_main hT' v1 hmv hev (hfun _ _ (valid_of_fits hT'.noD v1.x1.fits) v3) hb
      rcases w4 with ⟨w4, _⟩ | ⟨_, x2, w4, _⟩
      · cases w4
      · simp only [Sum.inr.injEq] at w4
        rw [w4]
        obtain ⟨y, y1, y2⟩ := hok v1.x1
        rw [v3] at y1
        cases y1
        exact ⟨v1.x1.fits, y2⟩
  rcases h7 x rfl with ⟨g1, g2⟩ | ⟨k, c, s', g1, g2, g3, g4, g5⟩ | ⟨_, _, g⟩ | ⟨k, c, g1, g2, g3⟩
  · exact ⟨g1, .inl g2⟩
  · obtain ⟨v1, v2, f, v3, v4, _⟩ := h4 k (by omega)
    rw [g3] at v4
    cases v4
    have hb : usecantBody o (ofArg minStep) (ofArg err) damping (st k)
        ⟨(st k).i, (st k).x1, f, (st k).converged⟩ = .ok (.inr s') := by
      rw [v2]
      exact g4
    obtain ⟨w0, conv, w1, w3, w4⟩ :=
      usecantBody_main hT' v1 hmv hev (hfun _ _ (valid_of_fits hT'.noD v1.x1.fits) v3) hb
    rcases w4 with ⟨w4, _⟩ | ⟨_, x2, w4, w5, _⟩
    · cases w4
    · simp only [Sum.inr.injEq] at w4
      subst w4
      obtain ⟨y, y1, _⟩ := hok w5
      simp only [y1] at g5
      cases g5
  · obtain ⟨y, y1, _⟩ := hok i6.x1
    rw [y1] at g
    cases g
  · obtain ⟨v1, v2, f, v3, v4, v5, v6, v7⟩ := h4 k (by omega)
    rw [g2] at v4
    cases v4
    have hb : usecantBody o (ofArg minStep) (ofArg err) damping (st k)
        ⟨(st k).i, (st k).x1, f, (st k).converged⟩ = .error x := by
      rw [v2]
      exact g3
    obtain ⟨y, y1, y2⟩ := hok v1.x1
    rw [v3] at y1
    cases y1
    obtain ⟨p1, p2⟩ := hprev k (by omega)
    obtain ⟨q1, p, e, q2, q3, q4⟩ := usecantBody_total o damping hT' v1 p1 p2 (fitsU_of_same hS hmT')
      (fitsU_of_same hS heT') y2 hb
    obtain ⟨g, u1, u2⟩ := v6 p
    refine ⟨q1, .inr ⟨s.x0, f0, k, _, p, g, e, i4, fun p e => by rw [i3 p e, side_ofArg, side_ofArg], g1, g2, u1,
      (inRange_iff_same (hS' p)).1 q2, ?_, by rw [← u2 e q2]; exact q4⟩⟩
    rintro ⟨j, hj, hsj⟩
    simp only [Bool.or_eq_false_iff, side_ofArg] at q3
    obtain ⟨⟨q5, q6⟩, q7⟩ := q3
    by_cases hjk : j < k
    · have := (v7 p e q2).2 (.inr ⟨j, hjk, hsj⟩)
      rw [q5] at this
      cases this
    · have : j = k := by omega
      subst this
      obtain ⟨x, x', y', r1, r2, r3, r4⟩ := hsj
      rw [v5 p] at r1
      rw [sidePoints_succ g2 p] at r2
      rw [sideValues_succ g2 p] at r3
      cases r1; cases r2; cases r3
      rcases r4 with r4 | r4
      · rw [q6] at r4; cases r4
      · rw [q7] at r4; cases r4

/-! ### Newton's method -/

/-- Specification: the magnitude of every element of the nominal value and of the samples of `f` is below the same
component of `err`. -/
def BelowU (o : Arith F) (f err : UA F) : Prop :=
  ∃ s D, f.shape = .ok s ∧ broadcastShapes [f.distribution.shape, err.distribution.shape] = .ok D ∧
    (∀ e, InRange s e → o.lt (o.abs (f.nominal.atB e)) (err.nominal.atB e) = true) ∧
    ∀ e, InRange s e → (∀ k, get? D axisD = some k → e axisD < k) →
      o.lt (o.abs (f.distribution.atB e)) (err.distribution.atB e) = true

theorem bs_one (s : Shape) : broadcastShapes [s] = .ok s := by
  simp [broadcastShapes]
  rfl

theorem hasSize_pair {s t : Shape} {ax : String} {n : Nat} :
    HasSize [s, t] ax n ↔ get? s ax = some n ∨ get? t ax = some n := by
  simp [HasSize]

/-- A test which is passed at all elements. -/
theorem below_of_all {o : Arith F} {f err : UA F} (hf : f.Valid) (he : err.Valid) (hes : err.shape = .ok [])
    {conv : UA Bool} (h : (do UA.op2 o.lt (← UA.op1 o.abs f) err) = .ok conv) {r : UA Bool}
    (hr : conv.reduce false (fun l => l.all id) none false none = .ok r) {b : Bool} (hb : r.truth = .ok b) :
    b = true ↔ BelowU o f err := by
  obtain ⟨a, a1, a2, a3, a4, a5⟩ := op1_ok o.abs hf
  simp only [bind, Except.bind, a1] at h
  obtain ⟨c1, c2, c3⟩ := op2_ok a2 he h
  have hw2 : ∀ {s t : Shape}, Dict.WF s → Dict.WF t → ∀ q ∈ [s, t], Dict.WF q := by
    intro s t hs ht q hq
    simp only [List.mem_cons, List.not_mem_nil, or_false] at hq
    rcases hq with rfl | rfl <;> assumption
  have hsh : ∀ p, broadcastShapes [(f.side p).shape, (err.side p).shape] = .ok (conv.side p).shape := by
    intro p
    rw [← a4 p]
    exact (SA.ufunc2_ok (a2.side p) (he.side p) (c2 p)).2.1
  -- the tolerance has no axes other than that of the samples
  have hee : ∀ p ax, ax ≠ axisD → get? (err.side p).shape ax = none := by
    intro p ax hx
    rcases UA.shape_cases he with ⟨_, _, g⟩ | ⟨_, t, s, sd, g1, _, g2, _, g3⟩
    · rw [hes] at g; cases g
    · have hs0 : s = [] := by
        have := g3.shape
        rw [hes] at this
        cases this
        rfl
      have ht : get? t ax = none := by rw [← get?_erase_ne hx, ← g2, hs0]; rfl
      have hj := fun s (hs : s ∈ [err.nominal.shape, err.distribution.shape]) => SA.fitsIn_of_broadcastShapes
        (hw2 (SA.wf_shape he.1) (SA.wf_shape he.2.1)) g1 hs
      cases hg : get? (err.side p).shape ax with
      | none => rfl
      | some m =>
        obtain ⟨n, hn, _⟩ := hj (err.side p).shape (by cases p <;> simp [UA.side]) ax m hg
        rw [ht] at hn
        cases hn
  have hget : ∀ p ax, ax ≠ axisD → get? (conv.side p).shape ax = get? (f.side p).shape ax := by
    intro p ax hx
    refine get?_bs_unique (hw2 (SA.wf_shape (hf.side p)) (SA.wf_shape (he.side p)))
      (T := [(f.side p).shape]) (by simpa using SA.wf_shape (hf.side p)) (hsh p) (bs_one _) (fun n => ?_)
    rw [hasSize_pair, hee p ax hx]
    simp [HasSize]
  have hgn : ∀ ax, ax ≠ axisD → get? conv.nominal.shape ax = get? f.nominal.shape ax := hget .nominal
  have hgd : ∀ ax, ax ≠ axisD → get? conv.distribution.shape ax = get? f.distribution.shape ax := hget .samples
  have hno : ∀ {u : UA Bool}, u.Valid → get? u.nominal.shape axisD = none := fun {u} h => by
    rw [get?_eq_none, SA.keys_shape h.1]
    exact h.2.2
  have hno' : get? f.nominal.shape axisD = none := by
    rw [get?_eq_none, SA.keys_shape hf.1]
    exact hf.2.2
  -- the shape of the array
  have hcs : ∃ s, conv.shape = .ok s := by
    cases hcs : conv.shape with
    | ok s => exact ⟨s, rfl⟩
    | error x =>
      simp only [UA.reduce, UA.broadcasted, bind, Except.bind, hcs] at hr
      cases hr
  obtain ⟨s', hs'⟩ := hcs
  obtain ⟨tc, htc, htc'⟩ : ∃ t, conv.shapeDistribution = .ok t ∧ s' = t.erase axisD := by
    unfold UA.shape at hs'
    cases hd : conv.shapeDistribution with
    | error x => rw [hd] at hs'; cases hs'
    | ok t => rw [hd] at hs'; exact ⟨t, rfl, (Except.ok.inj hs').symm⟩
  have hfs : ∃ t, f.shapeDistribution = .ok t := by
    cases ht : f.shapeDistribution with
    | ok t => exact ⟨t, rfl⟩
    | error x =>
      exfalso
      obtain ⟨ax, m, n, q1, q2, q3, q4, q5⟩ := (C01_broadcast_shapes_error_iff _
        (hw2 (SA.wf_shape hf.1) (SA.wf_shape hf.2.1))).1 ⟨x, ht⟩
      have hx : ax ≠ axisD := by
        rintro rfl
        rw [hasSize_pair, hno'] at q1 q2
        simp only [reduceCtorEq, false_or] at q1 q2
        rw [q1] at q2
        exact q3 (Option.some.inj q2)
      obtain ⟨y, hy⟩ := (C01_broadcast_shapes_error_iff [conv.nominal.shape, conv.distribution.shape]
        (hw2 (SA.wf_shape c1.1) (SA.wf_shape c1.2.1))).2 ⟨ax, m, n, by
          rw [hasSize_pair, hgn ax hx, hgd ax hx]; exact hasSize_pair.1 q1, by
          rw [hasSize_pair, hgn ax hx, hgd ax hx]; exact hasSize_pair.1 q2, q3, q4, q5⟩
      have htc2 : broadcastShapes [conv.nominal.shape, conv.distribution.shape] = .ok tc := htc
      rw [htc2] at hy
      cases hy
  obtain ⟨tf, htf⟩ := hfs
  have hss : Same s' (tf.erase axisD) := by
    intro ax
    rw [htc']
    by_cases hx : ax = axisD
    · rw [hx, get?_erase_self, get?_erase_self]
    · rw [get?_erase_ne hx, get?_erase_ne hx]
      refine get?_bs_unique (hw2 (SA.wf_shape c1.1) (SA.wf_shape c1.2.1))
        (hw2 (SA.wf_shape hf.1) (SA.wf_shape hf.2.1)) htc htf (fun n => ?_)
      rw [hasSize_pair, hasSize_pair, hgn ax hx, hgd ax hx]
  obtain ⟨r', b', g1, g2, g3⟩ := all_truth c1 hs'
  rw [hr] at g1
  cases g1
  rw [hb] at g2
  cases g2
  rw [g3]
  have hval : ∀ p e, (conv.side p).atB e = o.lt (o.abs ((f.side p).atB e)) ((err.side p).atB e) := by
    intro p e
    rw [c3, a5]
  constructor
  · rintro ⟨k1, k2⟩
    refine ⟨_, _, shape_erase htf, hsh .samples, fun e he' => ?_, fun e he' hD => ?_⟩
    · exact (hval .nominal e).symm.trans (k1 e ((inRange_iff_same hss).2 he'))
    · exact (hval .samples e).symm.trans (k2 e ((inRange_iff_same hss).2 he') hD)
  · rintro ⟨s, D, k1, k2, k3, k4⟩
    rw [shape_erase htf] at k1
    cases k1
    have hD : D = conv.distribution.shape := by
      have := hsh .samples
      simp only [UA.side] at this
      rw [k2] at this
      exact Except.ok.inj this
    subst hD
    refine ⟨fun e he' => ?_, fun e he' hk => ?_⟩
    · exact (hval .nominal e).trans (k3 e ((inRange_iff_same hss).1 he'))
    · exact (hval .samples e).trans (k4 e ((inRange_iff_same hss).1 he') hk)

theorem unewtonInit_ok {o : Arith F} {function : UA F → R (UA F)} {guess err : UA F} (hg : guess.Valid)
    (hfun : ∀ x y, x.Valid → function x = .ok y → y.Valid) {s : UNewtonState F}
    (h : unewtonInit o function guess err = .ok s) :
    err.shape = .ok [] ∧ s.i = 0 ∧ function guess = .ok s.f ∧ s.f.Valid ∧ s.x.Valid ∧
      ∀ p e, (s.x.side p).at' e = (guess.side p).atB e := by
  simp only [unewtonInit, bind, Except.bind] at h
  cases h1 : function guess with
  | error x => rw [h1] at h; cases h
  | ok f =>
    rw [h1] at h
    simp only at h
    have hf := hfun _ _ hg h1
    cases hes : err.shape with
    | error x => rw [hes] at h; cases h
    | ok se =>
      cases se with
      | cons p t => rw [hes] at h; simp at h
      | nil =>
        rw [hes] at h
        simp only [List.isEmpty_nil, Bool.not_true, Bool.false_eq_true, if_false] at h
        cases d1 : f.shapeDistribution with
        | error e => simp only [UA.shape, d1, bind, Except.bind] at h; cases h
        | ok sf =>
        rw [shape_erase d1] at h
        cases d2 : guess.shapeDistribution with
        | error e => simp only [UA.shape, d2, bind, Except.bind] at h; cases h
        | ok sg =>
        rw [shape_erase d2] at h
        simp only at h
        cases h4 : broadcastShapes [sf.erase axisD, sg.erase axisD] with
        | error e => rw [h4] at h; cases h
        | ok S =>
          rw [h4] at h
          simp only at h
          have hS : Dict.WF S := (broadcastShapes_joinOf (ss := [sf.erase axisD, sg.erase axisD]) (by
            intro q hq
            simp only [List.mem_cons, List.not_mem_nil, or_false] at hq
            rcases hq with rfl | rfl
            · exact Dict.wf_erase (wf_shapeDistribution hf d1) _
            · exact Dict.wf_erase (wf_shapeDistribution hg d2) _) h4).1
          cases h5 : UA.op2 o.mul (UA.number o.zero) f with
          | error e => rw [h5] at h; cases h
          | ok z =>
            rw [h5] at h
            simp only at h
            cases h6 : z.broadcastTo S with
            | error e => rw [h6] at h; cases h
            | ok z' =>
              rw [h6] at h
              simp only at h
              cases h7 : UA.op1 (fun v => !o.eq v o.zero) z' with
              | error e => rw [h7] at h; cases h
              | ok conv =>
                rw [h7] at h
                simp only at h
                cases h8 : guess.broadcastTo S with
                | error e => rw [h8] at h; cases h
                | ok x =>
                  rw [h8] at h
                  simp only [Except.ok.injEq] at h
                  subst h
                  obtain ⟨b1, _, _, _, b2⟩ := broadcastTo_ok hg hS h8
                  exact ⟨rfl, rfl, rfl, hf, b1, b2⟩

/-- What one iteration of Newton's method does. -/
theorem unewtonBody_ok {o : Arith F} {function jacobian : UA F → R (UA F)} {err : UA F} {s : UNewtonState F}
    (hx : s.x.Valid) (hf : s.f.Valid) (he : err.Valid) (hes : err.shape = .ok [])
    (hfun : ∀ x y, x.Valid → function x = .ok y → y.Valid) (hjac : ∀ x y, x.Valid → jacobian x = .ok y → y.Valid)
    {r : UA F ⊕ UNewtonState F} (h : unewtonBody o function jacobian err s = .ok r) :
    (r = .inl s.x ∧ BelowU o s.f err) ∨
    (¬ BelowU o s.f err ∧ ∃ J s', r = .inr s' ∧ jacobian s.x = .ok J ∧ s'.i = s.i + 1 ∧ function s'.x = .ok s'.f ∧
      s'.x.Valid ∧ s'.f.Valid ∧
      ∀ p e, (s'.x.side p).atB e = o.sub ((s.x.side p).atB e) (o.div ((s.f.side p).atB e) ((J.side p).atB e))) := by
  simp only [unewtonBody, bind, Except.bind] at h
  cases h1 : UA.op1 o.abs s.f with
  | error x => rw [h1] at h; cases h
  | ok a =>
    rw [h1] at h
    simp only at h
    cases h2 : UA.op2 o.lt a err with
    | error x => rw [h2] at h; cases h
    | ok conv =>
      rw [h2] at h
      simp only at h
      cases h3 : conv.reduce false (fun l => l.all id) none false none with
      | error x => rw [h3] at h; cases h
      | ok t =>
        rw [h3] at h
        simp only at h
        cases h4 : t.truth with
        | error x => rw [h4] at h; cases h
        | ok b =>
          rw [h4] at h
          simp only at h
          have hb := below_of_all hf he hes (o := o) (conv := conv)
            (by simp only [bind, Except.bind, h1, h2]) h3 h4
          cases b with
          | true =>
            simp only [if_true, Except.ok.injEq] at h
            exact .inl ⟨h.symm, hb.1 rfl⟩
          | false =>
            simp only [Bool.false_eq_true, if_false] at h
            refine .inr ⟨fun hh => Bool.noConfusion (hb.2 hh), ?_⟩
            cases h5 : jacobian s.x with
            | error x => rw [h5] at h; cases h
            | ok J =>
              rw [h5] at h
              simp only at h
              cases h6 : UA.op2 o.div s.f J with
              | error x => rw [h6] at h; cases h
              | ok q =>
                rw [h6] at h
                simp only at h
                cases h7 : UA.op2 o.sub s.x q with
                | error x => rw [h7] at h; cases h
                | ok x =>
                  rw [h7] at h
                  simp only at h
                  cases h8 : function x with
                  | error y => rw [h8] at h; cases h
                  | ok f =>
                    rw [h8] at h
                    simp only [Except.ok.injEq] at h
                    obtain ⟨q1, _, q2⟩ := op2_ok hf (hjac _ _ hx h5) h6
                    obtain ⟨x1, _, x2⟩ := op2_ok hx q1 h7
                    refine ⟨J, _, h.symm, rfl, rfl, h8, x1, hfun _ _ x1 h8, fun p e => ?_⟩
                    rw [x2, q2]

/-- **C107** (Newton's method). For uncertain scalars the calls of `callback` of `root_newton` are numbered from zero, at
most `max_iterations` are made, the first is given the guess and the value of the function there, and the iterates of
the nominal value and of the samples are those of Newton's method, independently of each other.  The result is the
argument of the last call, at which the values of both are below `max_abs_error`; all earlier calls have an element of
one of the two which is not. -/
theorem C107_newton (o : Arith F) (function jacobian : UA F → R (UA F)) (guess err : UA F) (n : Nat)
    (hg : guess.Valid) (he : err.Valid) (hfun : ∀ x y, x.Valid → function x = .ok y → y.Valid)
    (hjac : ∀ x y, x.Valid → jacobian x = .ok y → y.Valid) (calls : UCalls F) (result : R (UA F))
    (hrun : urootNewton o function jacobian guess err n = (calls, result)) :
    calls.length ≤ n ∧
      (∀ (k : Nat) (c : Call (UA F) (UA F) (UA Bool)), calls[k]? = some c →
        c.i = k ∧ c.x.Valid ∧ c.f.Valid ∧ (k ≠ 0 → function c.x = .ok c.f)) ∧
      (∀ c : Call (UA F) (UA F) (UA Bool), calls[0]? = some c →
        function guess = .ok c.f ∧ ∀ p e, (c.x.side p).at' e = (guess.side p).atB e) ∧
      (∀ (k : Nat) (c c' : Call (UA F) (UA F) (UA Bool)), calls[k]? = some c → calls[k + 1]? = some c' →
        ¬ BelowU o c.f err ∧ ∃ J, jacobian c.x = .ok J ∧ ∀ p e, (c'.x.side p).atB e =
          o.sub ((c.x.side p).atB e) (o.div ((c.f.side p).atB e) ((J.side p).atB e))) ∧
      (∀ r, result = .ok r → ∃ (k : Nat) (c : Call (UA F) (UA F) (UA Bool)), calls.length = k + 1 ∧
        calls[k]? = some c ∧ c.x = r ∧ BelowU o c.f err) ∧
      (∀ x, result = .error x → unewtonInit o function guess err = .error x ∨ (x = .valueError ∧ calls.length = n) ∨
        ∃ (k : Nat) (c : Call (UA F) (UA F) (UA Bool)), calls.length = k + 1 ∧ calls[k]? = some c ∧
          unewtonBody o function jacobian err ⟨c.i, c.x, c.f, c.converged⟩ = .error x) := by
  unfold urootNewton at hrun
  cases hi : unewtonInit o function guess err with
  | error x =>
    rw [hi] at hrun
    cases hrun
    refine ⟨Nat.zero_le _, by simp, by simp, by simp, by simp, fun y hy => .inl ?_⟩
    rw [Except.error.inj hy]
  | ok s =>
    rw [hi] at hrun
    simp only at hrun
    obtain ⟨i1, i2, i3, i4, i5, i6⟩ := unewtonInit_ok hg hfun hi
    obtain ⟨st, h0, h1, h2, h3, h4, h5⟩ := loop_main (fun s : UNewtonState F => (.ok s.call : R _))
      (fun s _ => unewtonBody o function jacobian err s) n s
    rw [hrun] at h1 h2 h3 h4 h5
    simp only at h1 h2 h3 h4 h5
    have main : ∀ k, k < calls.length → (st k).i = k ∧ (st k).x.Valid ∧ (st k).f.Valid ∧
        (k ≠ 0 → function (st k).x = .ok (st k).f) := by
      intro k
      induction k with
      | zero => intro _; rw [h0]; exact ⟨i2, i5, i4, fun h => absurd rfl h⟩
      | succ k ih =>
        intro hk
        obtain ⟨v1, v2, v3, _⟩ := ih (by omega)
        have hb := h3 k _ hk (List.getElem?_eq_getElem (by omega))
        rcases unewtonBody_ok v2 v3 he i1 hfun hjac hb with ⟨w, _⟩ | ⟨_, J, s', w1, w2, w3, w4, w5, w6, w7⟩
        · cases w
        · cases w1
          exact ⟨by rw [w3, v1], w5, w6, fun _ => w4⟩
    have call : ∀ k c, calls[k]? = some c → c = (st k).call := fun k c hc => (Except.ok.inj (h2 k c hc)).symm
    refine ⟨h1, fun k c hc => ?_, fun c hc => ?_, fun k c c' hc hc' => ?_, fun r hr => ?_, fun x hr => .inr ?_⟩
    · rw [call k c hc]
      exact main k (List.getElem?_eq_some_iff.1 hc).1
    · rw [call 0 c hc, h0]
      exact ⟨i3, i6⟩
    · have hk := (List.getElem?_eq_some_iff.1 hc').1
      obtain ⟨v1, v2, v3, _⟩ := main k (by omega)
      rw [call k c hc, call (k + 1) c' hc']
      rcases unewtonBody_ok v2 v3 he i1 hfun hjac (h3 k _ hk hc) with ⟨w, _⟩ | ⟨w0, J, s', w1, w2, w3, w4, w5, w6, w7⟩
      · cases w
      · cases w1
        exact ⟨w0, J, w2, w7⟩
    · obtain ⟨k, c, g1, g2, g3⟩ := h4 r hr
      obtain ⟨v1, v2, v3, _⟩ := main k (by omega)
      refine ⟨k, c, g1, g2, ?_⟩
      rw [call k c g2]
      rcases unewtonBody_ok v2 v3 he i1 hfun hjac g3 with ⟨w, w'⟩ | ⟨_, J, s', w1, _⟩
      · cases w
        exact ⟨rfl, w'⟩
      · cases w1
    · rcases h5 x hr with ⟨h6, h7, _⟩ | ⟨h6, _⟩ | ⟨k, c, h6, h7, h8⟩
      · exact .inl ⟨h6, h7⟩
      · cases h6
      · refine .inr ⟨k, c, h6, h7, ?_⟩
        rw [call k c h7]
        exact h8

/-! ### Derivatives -/

/-- **C107** (derivatives). The nominal value and the samples of `na.jacobian(function, x, dx)` are, element by element,
the difference quotients of the nominal values and of the samples of the function at `x` and `x + dx`. -/
theorem C107_jacobian (o : Arith F) (function : UA F → R (UA F)) (x dx r : UA F) (hx : x.Valid) (hdx : dx.Valid)
    (hfun : ∀ x y, x.Valid → function x = .ok y → y.Valid) (h : ujacobian o function x dx = .ok r) :
    r.Valid ∧ ∃ f x0 f0, function x = .ok f ∧ function x0 = .ok f0 ∧ x0.Valid ∧
      (∀ p e, (x0.side p).atB e = o.add ((x.side p).atB e) ((dx.side p).atB e)) ∧
      ∀ p e, (r.side p).atB e = o.div (o.sub ((f0.side p).atB e) ((f.side p).atB e)) ((dx.side p).atB e) := by
  simp only [ujacobian, bind, Except.bind] at h
  cases h1 : function x with
  | error y => rw [h1] at h; cases h
  | ok f =>
    rw [h1] at h
    simp only at h
    cases h2 : UA.op2 o.add x dx with
    | error y => rw [h2] at h; cases h
    | ok x0 =>
      rw [h2] at h
      simp only at h
      obtain ⟨a1, _, a2⟩ := op2_ok hx hdx h2
      cases h3 : function x0 with
      | error y => rw [h3] at h; cases h
      | ok f0 =>
        rw [h3] at h
        simp only at h
        cases h4 : UA.op2 o.sub f0 f with
        | error y => rw [h4] at h; cases h
        | ok df =>
          rw [h4] at h
          simp only at h
          obtain ⟨b1, _, b2⟩ := op2_ok (hfun _ _ a1 h3) (hfun _ _ hx h1) h4
          obtain ⟨c1, _, c2⟩ := op2_ok b1 hdx h
          refine ⟨c1, f, x0, f0, rfl, h3, a1, a2, fun p e => ?_⟩
          rw [c2, b2]

/-- **C107** (linear functions). The derivative of `a * x + b` with uncertain `a` and `b` is `a`: the nominal value is
that of `a`, and sample for sample it is the sample of `a`. -/
theorem C107_affine {K : Type} [Field K] [LinearOrder K] (function : UA K → R (UA K)) (x dx r a b : UA K)
    (hx : x.Valid) (hdx : dx.Valid) (hfun : ∀ x y, x.Valid → function x = .ok y → y.Valid)
    (haff : ∀ x y, x.Valid → function x = .ok y →
      ∀ p e, (y.side p).atB e = (a.side p).atB e * (x.side p).atB e + (b.side p).atB e)
    (h : ujacobian (fieldArith K) function x dx = .ok r) (p : Side) (e : String → Nat)
    (h0 : (dx.side p).atB e ≠ 0) : (r.side p).atB e = (a.side p).atB e := by
  obtain ⟨_, f, x0, f0, h1, h2, h3, h4, h5⟩ := C107_jacobian (fieldArith K) function x dx r hx hdx hfun h
  rw [h5, haff _ _ h3 h2, haff _ _ hx h1, h4]
  simp only [fieldArith]
  rw [div_eq_iff h0]
  ring

/-- **C107** (one step of Newton's method for a linear function). With the exact slope an element of the nominal value or
of the samples at which the slope is not zero is at the zero of `a * x + b` after one step. -/
theorem C107_newton_affine {K : Type} [Field K] [LinearOrder K] (function jacobian : UA K → R (UA K))
    (guess err a b : UA K) (n : Nat) (hg : guess.Valid) (he : err.Valid)
    (hfun : ∀ x y, x.Valid → function x = .ok y → y.Valid) (hjac : ∀ x y, x.Valid → jacobian x = .ok y → y.Valid)
    (haff : ∀ x y, x.Valid → function x = .ok y →
      ∀ p e, (y.side p).atB e = (a.side p).atB e * (x.side p).atB e + (b.side p).atB e)
    (hslope : ∀ x y, x.Valid → jacobian x = .ok y → ∀ p e, (y.side p).atB e = (a.side p).atB e)
    (calls : UCalls K) (result : R (UA K))
    (hrun : urootNewton (fieldArith K) function jacobian guess err n = (calls, result))
    (k : Nat) (hk : k ≠ 0) (c c' : Call (UA K) (UA K) (UA Bool)) (hc : calls[k]? = some c)
    (hc' : calls[k + 1]? = some c') (p : Side) (e : String → Nat) (h0 : (a.side p).atB e ≠ 0) :
    (a.side p).atB e * (c'.x.side p).atB e + (b.side p).atB e = 0 := by
  obtain ⟨_, h2, _, h4, _⟩ := C107_newton (fieldArith K) function jacobian guess err n hg he hfun hjac calls result hrun
  obtain ⟨_, g1, _, g2⟩ := h2 k c hc
  obtain ⟨_, J, j1, j2⟩ := h4 k c c' hc hc'
  rw [j2, hslope _ _ g1 j1, haff _ _ g1 (g2 hk)]
  simp only [fieldArith]
  field_simp
  ring

/-! ### Examples -/

/-- `2 * x - 12`, and `nan` for negative numbers -/
def exPositiveU (x : UA (Option Int)) : R (UA (Option Int)) :=
  UA.op1 (fun v => v.bind (fun v => if 0 ≤ v then some (2 * v - 12) else none)) x

/-- the guess `20` with the samples `20`, `2`; the second starts from `2 - 10 * 1 < 0` -/
def exGuessU : UArg (Option Int) := .unc ⟨SA.scalar (some 20), ⟨[axisD], ND.vec [some 20, some 2]⟩⟩

/-- the guess `20` with the samples `20`, `16` -/
def exGuessU' : UArg (Option Int) := .unc ⟨SA.scalar (some 20), ⟨[axisD], ND.vec [some 20, some 16]⟩⟩

def exSecantU (guess : UArg (Option Int)) : UCalls (Option Int) × R (UA (Option Int)) :=
  urootSecant nanArith exPositiveU guess (.plain (SA.scalar (some 1))) (.plain (SA.scalar (some 1))) 5 none

/-- the values of a result -/
def exValuesU : R (UA (Option Int)) → Option (List (Option Int) × List String × List (Option Int))
  | .ok u => some (u.nominal.nd.toList, u.distribution.axes, u.distribution.nd.toList)
  | _ => none

def exSecantCheckU : Bool :=
  match exSecantU exGuessU with
  | (calls, .ok x) => decide (calls.length = 2 ∧ x.nominal.nd.toList = [some 6] ∧
      x.distribution.nd.toList = [some 6, some 2]) &&
    (match exPositiveU x with
      | .ok f => decide (f.distribution.nd.toList = [some 0, some (-8)])
      | .error _ => false)
  | _ => false

/-- **C107** fails for samples at which `function(guess - 10 * min_step_size)` is `nan`: for the samples `20` and `2` of
the guess, `2` is returned as the second sample of the root although the function is `-8` there and no step was
made. -/
theorem C107_nan_refuted : ∃ (calls : UCalls (Option Int)) (x f : UA (Option Int)),
    exSecantU exGuessU = (calls, .ok x) ∧ exPositiveU x = .ok f ∧ calls.length = 2 ∧
    x.nominal.nd.toList = [some 6] ∧ x.distribution.nd.toList = [some 6, some 2] ∧
    f.distribution.nd.toList = [some 0, some (-8)] := by
  have h : exSecantCheckU = true := by decide +kernel
  unfold exSecantCheckU at h
  split at h
  · next calls x hx =>
    simp only [Bool.and_eq_true, decide_eq_true_eq] at h
    obtain ⟨⟨h1, h2, h3⟩, h4⟩ := h
    split at h4
    · next f hf =>
      simp only [decide_eq_true_eq] at h4
      exact ⟨calls, x, f, hx, hf, h1, h2, h3, h4⟩
    · cases h4
  · cases h

-- without `nan` both samples of the root are found
example : (exSecantU exGuessU').1.length = 2 ∧
    exValuesU (exSecantU exGuessU').2 = some ([some 6], [axisD], [some 6, some 6]) :=
  ⟨by decide +kernel, by decide +kernel⟩

/-- the shapes of the example -/
def exShapesU : Side → Shape := pairOf [] [(axisD, 2)]

-- the hypotheses of `C107_secant_partial` and of `C107_failures` hold
example : (exGuessU.Ok ∧ ¬ exGuessU.Reserved) ∧ Paired exShapesU ∧ (∀ p, Full (exShapesU p) (exGuessU.side p)) ∧
    (∀ p, Fits (exShapesU p) ((UArg.plain (SA.scalar (some (1 : Int)))).side p)) ∧
    (UA.mk (SA.scalar (some (1 : Int))) (SA.scalar (some 1))).shape = .ok [] ∧
    (∀ x y, x.Valid → exPositiveU x = .ok y → y.Valid) ∧
    (∀ x, FitsU exShapesU x → ∃ y, exPositiveU x = .ok y ∧ FitsU exShapesU y) ∧
    ∀ x, FullU exShapesU x → ∃ y, exPositiveU x = .ok y ∧ FullU exShapesU y := by
  have hP : Paired exShapesU := ⟨by decide, by decide, fun ax hx => by
    show get? [(axisD, 2)] ax = get? [] ax
    rw [get?_cons, if_neg (fun h => hx h.symm)]⟩
  refine ⟨⟨⟨⟨by decide, by decide⟩, ⟨by decide, by decide⟩, by decide⟩, id⟩, hP, fun p => ?_, fun p => ?_, rfl,
    fun x y hx h => ?_, fun x hx => ?_, fun x hx => ?_⟩
  · cases p with
    | nominal => exact full_of_shape (fits_scalar [] _).1 rfl
    | samples => exact full_of_shape ⟨by decide, by decide⟩ (by decide)
  · cases p <;> exact fits_scalar _ _
  · obtain ⟨r, h1, h2, _⟩ := op1_ok
      (fun v : Option Int => v.bind (fun v => if 0 ≤ v then some (2 * v - 12) else none)) hx
    unfold exPositiveU at h
    rw [h1] at h
    cases h
    exact h2
  · obtain ⟨r, h1, h2, _⟩ := op1_fits hP.noD
      (fun v : Option Int => v.bind (fun v => if 0 ≤ v then some (2 * v - 12) else none)) hx
    exact ⟨r, h1, h2⟩
  · obtain ⟨r, h1, h2, _⟩ := op1_full hP.noD
      (fun v : Option Int => v.bind (fun v => if 0 ≤ v then some (2 * v - 12) else none)) hx
    exact ⟨r, h1, h2⟩

/-- `2 * x - 4` with the samples `2 * x - 4`, `3 * x - 12` -/
def exLinearU (x : UA Int) : R (UA Int) := do
  let y ← UA.op2 (· * ·) ⟨SA.scalar 2, ⟨[axisD], ND.vec [2, 3]⟩⟩ x
  UA.op2 (· - ·) y ⟨SA.scalar 4, ⟨[axisD], ND.vec [4, 12]⟩⟩

/-- the slopes -/
def exSlopeU (_ : UA Int) : R (UA Int) := .ok ⟨SA.scalar 2, ⟨[axisD], ND.vec [2, 3]⟩⟩

def exNewtonU : UCalls Int × R (UA Int) :=
  urootNewton exArith exLinearU exSlopeU (UA.number 10) (UA.number 1) 5

-- the roots are found
example : exNewtonU.1.length = 2 ∧
    exNewtonU.2.toOption.map (fun u => (u.nominal.nd.toList, u.distribution.nd.toList)) = some ([2], [2, 4]) :=
  ⟨by decide +kernel, by decide +kernel⟩

-- the hypotheses of `C107_newton`, and the derivative of the function
example : (UA.number (10 : Int)).Valid ∧ (∀ x y, x.Valid → exLinearU x = .ok y → y.Valid) ∧
    (∀ x y, x.Valid → exSlopeU x = .ok y → y.Valid) ∧
    (ujacobian exArith exLinearU (UA.number 10) (UA.number 1)).toOption.map
      (fun u => (u.nominal.nd.toList, u.distribution.nd.toList)) = some ([2], [2, 3]) := by
  have hv : ∀ a : Int, (UA.number a).Valid := fun a => ⟨(fits_scalar [] a).1, (fits_scalar [] a).1, by simp [UA.number, SA.scalar]⟩
  have hu : ∀ (a : Int) (l : List Int), (UA.mk (SA.scalar a) ⟨[axisD], ND.vec l⟩).Valid := fun a l =>
    ⟨(fits_scalar [] a).1, ⟨rfl, by simp⟩, by simp [SA.scalar]⟩
  refine ⟨hv 10, fun x y hx h => ?_, fun x y _ h => ?_, by decide +kernel⟩
  · simp only [exLinearU, bind, Except.bind] at h
    cases h1 : UA.op2 (· * ·) ⟨SA.scalar 2, ⟨[axisD], ND.vec [2, 3]⟩⟩ x with
    | error e => rw [h1] at h; cases h
    | ok z =>
      rw [h1] at h
      exact (op2_ok (op2_ok (hu 2 [2, 3]) hx h1).1 (hu 4 [4, 12]) h).1
  · cases h
    exact hu 2 [2, 3]

end Optimize
end NA
