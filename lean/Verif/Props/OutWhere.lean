import Verif.Scalar.Out
import Verif.Props.UncertainCopy
import Verif.Props.Joining

/-!
# Elementwise operations with `out` and `where` (C79)
-/

namespace NA
open Dict

namespace SA
variable {α β γ : Type}

/-! ### Operands -/

/-- an operand, aligned and broadcast by numpy to a named shape -/
theorem operand_main {b : SA β} (hb : b.WF) {T : Shape} (hT : Dict.WF T) :
    (FitsIn b.shape T ∧ ∃ v w, b.aligned T.keys = .ok v ∧ v.broadcastTo T.values = .ok w ∧
      ∀ e, w.get (T.keys.map e) = b.atB e) ∨
    (¬ FitsIn b.shape T ∧ (b.aligned T.keys = .error .valueError ∨
      ∃ v, b.aligned T.keys = .ok v ∧ v.broadcastTo T.values = .error .valueError)) := by
  let dst : SA Unit := ⟨T.keys, ⟨T.values, fun _ => ()⟩⟩
  have hd : dst.WF := ⟨by simp [dst, ND.ndim, keys, values], hT⟩
  have hs : dst.shape = T := shape_of_mk hT rfl
  have := aligned_broadcast (a := dst) (b := b) hb hd
  rw [hs] at this
  exact this

theorem operands_ok {inputs : List (SA α)} (h : ∀ a ∈ inputs, a.WF) {T : Shape} (hT : Dict.WF T)
    (hfit : ∀ a ∈ inputs, FitsIn a.shape T) :
    ∃ vs ws, inputs.mapM (fun a => a.aligned T.keys) = .ok vs ∧ vs.mapM (fun v => v.broadcastTo T.values) = .ok ws ∧
      ∀ e, ws.map (fun w => w.get (T.keys.map e)) = inputs.map (fun a => a.atB e) := by
  induction inputs with
  | nil => exact ⟨[], [], rfl, rfl, fun e => rfl⟩
  | cons a l ih =>
    obtain ⟨vs, ws, h1, h2, h3⟩ := ih (fun b hb => h b (by simp [hb])) (fun b hb => hfit b (by simp [hb]))
    rcases operand_main (h a (by simp)) hT with ⟨_, v, w, g1, g2, g3⟩ | ⟨hn, _⟩
    · refine ⟨v :: vs, w :: ws, ?_, ?_, fun e => ?_⟩
      · rw [List.mapM_cons, g1, h1]; rfl
      · rw [List.mapM_cons, g2, h2]; rfl
      · simp only [List.map_cons, g3, h3]
    · exact absurd (hfit a (by simp)) hn

theorem operands_error {inputs : List (SA α)} (h : ∀ a ∈ inputs, a.WF) {T : Shape} (hT : Dict.WF T)
    (hfit : ¬ ∀ a ∈ inputs, FitsIn a.shape T) :
    inputs.mapM (fun a => a.aligned T.keys) = .error .valueError ∨
    ∃ vs, inputs.mapM (fun a => a.aligned T.keys) = .ok vs ∧
      vs.mapM (fun v => v.broadcastTo T.values) = .error .valueError := by
  induction inputs with
  | nil => exact absurd (by simp) hfit
  | cons a l ih =>
    have hcase : (l.mapM (fun a => a.aligned T.keys) = .error .valueError) ∨
        ∃ vs, l.mapM (fun a => a.aligned T.keys) = .ok vs ∧
          ((∀ b ∈ l, FitsIn b.shape T) ∨ vs.mapM (fun v => v.broadcastTo T.values) = .error .valueError) := by
      by_cases hl : ∀ b ∈ l, FitsIn b.shape T
      · obtain ⟨vs, ws, h1, _⟩ := operands_ok (fun b hb => h b (by simp [hb])) hT hl
        exact .inr ⟨vs, h1, .inl hl⟩
      · rcases ih (fun b hb => h b (by simp [hb])) hl with h1 | ⟨vs, h1, h2⟩
        · exact .inl h1
        · exact .inr ⟨vs, h1, .inr h2⟩
    rcases operand_main (h a (by simp)) hT with ⟨g0, v, w, g1, g2, _⟩ | ⟨hn, g1 | ⟨v, g1, g2⟩⟩
    · rcases hcase with h1 | ⟨vs, h1, hl | h2⟩
      · left; rw [List.mapM_cons, g1, h1]; rfl
      · exact absurd (by intro b hb; rcases List.mem_cons.1 hb with rfl | hb; exacts [g0, hl b hb]) hfit
      · right
        refine ⟨v :: vs, by rw [List.mapM_cons, g1, h1]; rfl, ?_⟩
        rw [List.mapM_cons, g2, h2]; rfl
    · left; rw [List.mapM_cons, g1]; rfl
    · rcases hcase with h1 | ⟨vs, h1, _⟩
      · left; rw [List.mapM_cons, g1, h1]; rfl
      · right
        refine ⟨v :: vs, by rw [List.mapM_cons, g1, h1]; rfl, ?_⟩
        rw [List.mapM_cons, g2]; rfl

/-! ### Arrays given as `out` -/

/-- the elements which an output had before the operation -/
def before (junk : Nat → List Nat → γ) (k : Nat) (axes : List String) (o : Option (Out γ)) (e : String → Nat) : γ :=
  ND.oldElem (junk k) (outND o) (axes.map e)

/-- the result number `k` -/
def Result (f : Nat → List α → γ) (junk : Nat → List Nat → γ) (inputs : List (SA α)) (wh : SA Bool) (T : Shape)
    (k : Nat) (o : Option (Out γ)) (r : SA γ) : Prop :=
  r.axes = ((o.map (fun o => o.array.axes)).getD T.keys) ∧ r.nd.shape = T.values ∧
    ∀ e, r.nd.get (T.keys.map e) =
      if wh.atB e then f k (inputs.map (fun a => a.atB e)) else before junk k T.keys o e

theorem ufuncOut_ok {f : Nat → List α → γ} {junk : Nat → List Nat → γ} {inputs : List (SA α)} {wh : SA Bool}
    {outs : List (Option (Out γ))} (hi : ∀ a ∈ inputs, a.WF) (hwh : wh.WF) {S T : Shape} (hT : Dict.WF T)
    (hkeys : S.keys = T.keys) (hS : outShape inputs outs = .ok S)
    (hfit : ∀ a ∈ inputs, FitsIn a.shape T) (hfitw : FitsIn wh.shape T)
    (hshape : ∀ o ∈ (outs.map outND).filterMap id, o.shape = T.values)
    (hnone : (outs.map outND).filterMap id = [] → ∀ vs m, inputs.mapM (fun a => a.aligned T.keys) = .ok vs →
      wh.aligned T.keys = .ok m → ND.bshapes (vs.map ND.shape ++ [m.shape]) = .ok T.values) :
    ∃ rs, ufuncOut f junk inputs wh outs = .ok rs ∧ rs.length = outs.length ∧
      ∀ k o r, outs[k]? = some o → rs[k]? = some r → Result f junk inputs wh T k o r := by
  obtain ⟨vs, ws, h1, h2, h3⟩ := operands_ok hi hT hfit
  rcases operand_main hwh hT with ⟨_, m, m', g1, g2, g3⟩ | ⟨hn, _⟩
  swap
  · exact absurd hfitw hn
  set nds : List (ND γ) := (outs.map outND).zipIdx.map (fun p => ⟨T.values, fun i =>
      if m'.get i then f p.2 (ws.map (fun v => v.get i)) else ND.oldElem (junk p.2) p.1 i⟩) with hnds
  have hnd : ND.ufuncOut f junk vs m (outs.map outND) = .ok nds := by
    unfold ND.ufuncOut
    have hall : ((outs.map outND).filterMap id).all (fun o => decide (o.shape = T.values)) = true := by
      rw [List.all_eq_true]
      intro o ho
      exact decide_eq_true (hshape o ho)
    cases hc : (outs.map outND).filterMap id with
    | nil =>
      simp only [bind, Except.bind, hnone hc vs m h1 g1, h2, g2]
      rw [hc] at hall
      simp [hnds]
    | cons o l =>
      have ho : o.shape = T.values := hshape o (by rw [hc]; simp)
      simp only [bind, Except.bind, ho, h2, g2]
      rw [hc] at hall
      rw [if_pos hall]
  have hmk : ∀ p : ND γ × Option (Out γ), p.1.shape = T.values →
      storeOut T.keys p.1 p.2 = .ok ⟨(p.2.map (fun o => o.array.axes)).getD T.keys, p.1⟩ := by
    intro p hp
    cases p.2 <;>
    · unfold storeOut
      rw [mk?_of_wf (by simp [ND.ndim, hp, keys, values]) hT]
      rfl
  have hzip : ∀ p ∈ nds.zip outs, p.1.shape = T.values := by
    intro p hp
    have := (List.of_mem_zip hp).1
    rw [hnds] at this
    obtain ⟨q, _, hq⟩ := List.mem_map.1 this
    rw [← hq]
  have hrun : ufuncOut f junk inputs wh outs =
      .ok ((nds.zip outs).map (fun p => ⟨(p.2.map (fun o => o.array.axes)).getD T.keys, p.1⟩)) := by
    unfold ufuncOut
    rw [hS]
    simp only [bind, Except.bind, hkeys, g1, h1, hnd]
    generalize nds.zip outs = l at hzip
    induction l with
    | nil => rfl
    | cons p l ih =>
      rw [List.mapM_cons, List.map_cons, ih (fun q hq => hzip q (by simp [hq]))]
      rw [hmk p (hzip p (by simp))]
      rfl
  refine ⟨_, hrun, by simp [hnds], ?_⟩
  intro k o r ho hr
  have hz : (nds.zip outs)[k]? = some (⟨T.values, fun i =>
      if m'.get i then f k (ws.map (fun v => v.get i)) else ND.oldElem (junk k) (outND o) i⟩, o) := by
    rw [List.getElem?_zip_eq_some]
    exact ⟨by simp [hnds, ho, List.getElem?_zipIdx], ho⟩
  rw [List.getElem?_map, hz] at hr
  simp only [Option.map_some, Option.some.injEq] at hr
  subst hr
  refine ⟨rfl, rfl, fun e => ?_⟩
  show (if m'.get (T.keys.map e) = true then f k (ws.map (fun v => v.get (T.keys.map e))) else _) = _
  rw [g3, h3]
  rfl

theorem ufuncOut_error {f : Nat → List α → γ} {junk : Nat → List Nat → γ} {inputs : List (SA α)} {wh : SA Bool}
    {outs : List (Option (Out γ))} (hi : ∀ a ∈ inputs, a.WF) (hwh : wh.WF) {T : Shape} (hT : Dict.WF T)
    (hS : outShape inputs outs = .ok T) {nd : ND γ} {l : List (ND γ)} (hfirst : (outs.map outND).filterMap id = nd :: l)
    (hnd : nd.shape = T.values) (hfit : ¬ ((∀ a ∈ inputs, FitsIn a.shape T) ∧ FitsIn wh.shape T)) :
    ufuncOut f junk inputs wh outs = .error .valueError := by
  unfold ufuncOut
  rw [hS]
  simp only [bind, Except.bind]
  rcases operand_main hwh hT with ⟨hfitw, m, m', g1, g2, g3⟩ | ⟨hn, g1 | ⟨m, g1, g2⟩⟩
  · rcases operands_error hi hT (fun h => hfit ⟨h, hfitw⟩) with h1 | ⟨vs, h1, h2⟩
    · rw [g1]; dsimp only; rw [h1]
    · rw [g1]; dsimp only; rw [h1]; dsimp only
      unfold ND.ufuncOut
      simp only [hfirst, bind, Except.bind, hnd, h2]
  · rw [g1]
  · rw [g1]; dsimp only
    by_cases hall : ∀ a ∈ inputs, FitsIn a.shape T
    · obtain ⟨vs, ws, h1, h2, _⟩ := operands_ok hi hT hall
      rw [h1]; dsimp only
      unfold ND.ufuncOut
      simp only [hfirst, bind, Except.bind, hnd, h2, g2]
    · rcases operands_error hi hT hall with h1 | ⟨vs, h1, h2⟩
      · rw [h1]
      · rw [h1]; dsimp only
        unfold ND.ufuncOut
        simp only [hfirst, bind, Except.bind, hnd, h2]

/-- **C79** (arrays given as `out`). The inputs and the mask must broadcast to the shape of the arrays given as `out`,
otherwise there is a `ValueError`.  The results have that shape; where the mask is true they are the outputs of the
function at the elements of the inputs of the same names, and elsewhere an array given as `out` keeps its elements. -/
theorem C79_out_partial (f : Nat → List α → γ) (junk : Nat → List Nat → γ) (inputs : List (SA α)) (wh : SA Bool)
    (outs : List (Option (SA γ))) (hi : ∀ a ∈ inputs, a.WF) (hwh : wh.WF) (S : Shape)
    (hS : ∀ o, some o ∈ outs → o.WF ∧ o.shape = S) (hsome : ∃ o, some o ∈ outs) :
    (((∀ a ∈ inputs, FitsIn a.shape S) ∧ FitsIn wh.shape S) ∧
      ∃ rs, ufuncOut f junk inputs wh (outs.map (Option.map (fun o => ⟨o, true⟩))) = .ok rs ∧ rs.length = outs.length ∧
        ∀ k r, rs[k]? = some r → r.WF ∧ r.shape = S ∧ ∀ e,
          (wh.atB e = true → r.at' e = f k (inputs.map (fun a => a.atB e))) ∧
          (wh.atB e = false → ∀ o, outs[k]? = some (some o) → r.at' e = o.at' e)) ∨
    (¬ ((∀ a ∈ inputs, FitsIn a.shape S) ∧ FitsIn wh.shape S) ∧
      ufuncOut f junk inputs wh (outs.map (Option.map (fun o => ⟨o, true⟩))) = .error .valueError) := by
  have hSwf : Dict.WF S := by
    obtain ⟨o, ho⟩ := hsome
    rw [← (hS o ho).2]
    exact wf_shape (hS o ho).1
  have hax : ∀ o, some o ∈ outs → o.axes = S.keys := by
    intro o ho
    rw [← (hS o ho).2, keys_shape (hS o ho).1]
  have hval : ∀ o, some o ∈ outs → o.nd.shape = S.values := by
    intro o ho
    rw [← (hS o ho).2, values_shape (hS o ho).1]
  have hfm : ((outs.map (Option.map (fun o => (⟨o, true⟩ : Out γ)))).filterMap id) =
      (outs.filterMap id).map (fun o => ⟨o, true⟩) := by
    clear hS hsome hax hval
    induction outs with
    | nil => rfl
    | cons o l ih =>
      cases o with
      | none => exact ih
      | some o => exact congrArg (fun l => (⟨o, true⟩ : Out γ) :: l) ih
  have hmem : ∀ o, o ∈ outs.filterMap id ↔ some o ∈ outs := by
    intro o; simp
  have hnds : ((outs.map (Option.map (fun o => (⟨o, true⟩ : Out γ)))).map outND).filterMap id =
      (outs.filterMap id).map SA.nd := by
    clear hS hsome hax hval hfm hmem
    induction outs with
    | nil => rfl
    | cons o l ih =>
      cases o with
      | none => exact ih
      | some o => exact congrArg (fun l => o.nd :: l) ih
  have hOut : outShape inputs (outs.map (Option.map (fun o => (⟨o, true⟩ : Out γ)))) = .ok S := by
    unfold outShape
    rw [hfm]
    cases hc : outs.filterMap id with
    | nil =>
      obtain ⟨o, ho⟩ := hsome
      rw [← hmem, hc] at ho
      simp at ho
    | cons o l =>
      have ho := hS o ((hmem o).1 (by rw [hc]; simp))
      simp only [List.map_cons]
      rw [if_pos, ho.2]
      rw [List.all_eq_true]
      intro p hp
      obtain ⟨q, hq, rfl⟩ := List.mem_map.1 hp
      have hq' := hS q ((hmem q).1 (by rw [hc]; simp [hq]))
      show q.shape.eqv o.shape = true
      rw [ho.2, hq'.2, eqv_iff hSwf hSwf]
      exact fun x => rfl
  by_cases hfit : (∀ a ∈ inputs, FitsIn a.shape S) ∧ FitsIn wh.shape S
  · left
    obtain ⟨rs, h1, h2, h3⟩ := ufuncOut_ok (f := f) (junk := junk) hi hwh hSwf rfl hOut hfit.1 hfit.2
      (by
        rw [hnds]
        intro o ho
        obtain ⟨p, hp, rfl⟩ := List.mem_map.1 ho
        exact hval p ((hmem p).1 hp))
      (by
        rw [hnds]
        intro hn
        obtain ⟨o, ho⟩ := hsome
        rw [← hmem] at ho
        rw [List.map_eq_nil_iff] at hn
        rw [hn] at ho
        simp at ho)
    refine ⟨hfit, rs, h1, by simpa using h2, ?_⟩
    intro k r hr
    have hk : k < outs.length := by
      have := (List.getElem?_eq_some_iff.1 hr).1
      rw [h2] at this
      simpa using this
    obtain ⟨r1, r2, r3⟩ := h3 k ((outs[k]).map (fun o => ⟨o, true⟩)) r (by simp [hk]) hr
    have r1' : r.axes = S.keys := by
      rw [r1]
      cases ho : outs[k] with
      | none => rfl
      | some o => exact hax o (by rw [← ho]; exact List.getElem_mem _)
    have hr' : r = ⟨S.keys, r.nd⟩ := by rw [← r1']
    refine ⟨⟨by rw [r1']; simp [ND.ndim, r2, keys, values], by rw [r1']; exact hSwf⟩, ?_, fun e => ?_⟩
    · rw [hr']; exact shape_of_mk hSwf r2
    · have he : r.at' e = r.nd.get (S.keys.map e) := by rw [hr']; rfl
      refine ⟨fun hw => by rw [he, r3 e, if_pos hw], fun hw o ho => ?_⟩
      rw [he, r3 e, if_neg (by simp [hw])]
      have ho' : outs[k] = some o := by
        rw [List.getElem?_eq_getElem hk] at ho
        injection ho
      rw [ho']
      show o.nd.get (S.keys.map e) = _
      rw [← hax o (by rw [← ho']; exact List.getElem_mem _)]
      rfl
  · right
    refine ⟨hfit, ?_⟩
    obtain ⟨o, ho⟩ := hsome
    cases hc : outs.filterMap id with
    | nil => rw [← hmem, hc] at ho; simp at ho
    | cons o' l =>
      exact ufuncOut_error hi hwh hSwf hOut (nd := o'.nd) (l := l.map SA.nd) (by rw [hnds, hc]; rfl)
        (hval o' ((hmem o').1 (by rw [hc]; simp))) hfit

/-- **C79** (one output). `ufunc(*inputs, out=o, where=wh)` needs inputs and a mask which broadcast to `o`, and is a
`ValueError` otherwise.  `o` keeps its axes, their order, and its shape; its elements are replaced where the mask is true. -/
theorem C79_out (f : List α → γ) (junk : Nat → List Nat → γ) (inputs : List (SA α)) (wh : SA Bool) (o : SA γ)
    (hi : ∀ a ∈ inputs, a.WF) (hwh : wh.WF) (ho : o.WF) :
    (((∀ a ∈ inputs, FitsIn a.shape o.shape) ∧ FitsIn wh.shape o.shape) ∧
      ∃ r, ufuncOut (fun _ => f) junk inputs wh [some ⟨o, true⟩] = .ok [r] ∧ r.WF ∧ r.axes = o.axes ∧ r.shape = o.shape ∧
        ∀ e, r.at' e = if wh.atB e then f (inputs.map (fun a => a.atB e)) else o.at' e) ∨
    (¬ ((∀ a ∈ inputs, FitsIn a.shape o.shape) ∧ FitsIn wh.shape o.shape) ∧
      ufuncOut (fun _ => f) junk inputs wh [some ⟨o, true⟩] = .error .valueError) := by
  rcases C79_out_partial (fun _ => f) junk inputs wh [some o] hi hwh o.shape
    (by intro p hp; simp only [List.mem_singleton, Option.some.injEq] at hp; subst hp; exact ⟨ho, rfl⟩) ⟨o, by simp⟩ with
    ⟨hfit, rs, h1, h2, h3⟩ | h
  · left
    match rs, h2 with
    | [r], _ =>
      obtain ⟨r1, r2, r3⟩ := h3 0 r rfl
      refine ⟨hfit, r, h1, r1, ?_, r2, fun e => ?_⟩
      · rw [← keys_shape r1, r2, keys_shape ho]
      · cases hw : wh.atB e with
        | true => rw [if_pos rfl]; exact (r3 e).1 hw
        | false => rw [if_neg (by simp)]; exact (r3 e).2 hw o rfl
  · exact .inr h

/-- **C79** (in place). `a += b` needs `b` to broadcast to the shape of `a`, otherwise it is a `ValueError`; `a` keeps its axes
and its shape, and every element is combined with the element of `b` of the same names. -/
theorem C79_in_place (f : α → α → α) (a b : SA α) (ha : a.WF) (hb : b.WF) :
    (FitsIn b.shape a.shape ∧ ∃ r, inplace f a b = .ok r ∧ r.WF ∧ r.axes = a.axes ∧ r.shape = a.shape ∧
      ∀ e, InRange a.shape e → r.at' e = f (a.at' e) (b.atB e)) ∨
    (¬ FitsIn b.shape a.shape ∧ inplace f a b = .error .valueError) := by
  have hrefl : FitsIn a.shape a.shape := fun ax m h => ⟨m, h, .inl rfl⟩
  have hwh : (scalar true).WF := by constructor <;> decide
  have hs : FitsIn (scalar true).shape a.shape := by intro ax m h; exact absurd h (by simp [shape, scalar])
  rcases C79_out (fun l => f (l.getD 0 (a.at' (fun _ => 0))) (l.getD 1 (a.at' (fun _ => 0))))
    (fun _ _ => a.at' (fun _ => 0)) [a, b] (scalar true) a
    (by intro c hc; simp only [List.mem_cons, List.not_mem_nil, or_false] at hc; rcases hc with rfl | rfl <;> assumption)
    hwh ha with ⟨hfit, r, h1, h2, h3, h4, h5⟩ | ⟨hfit, h1⟩
  · left
    refine ⟨hfit.1 b (by simp), r, ?_, h2, h3, h4, fun e he => ?_⟩
    · unfold inplace
      simp only [bind, Except.bind, h1]
      rfl
    · rw [h5 e]
      show f (a.atB e) (b.atB e) = _
      rw [atB_eq_at' ha he]
  · right
    refine ⟨fun h => hfit ⟨?_, hs⟩, ?_⟩
    · intro c hc
      simp only [List.mem_cons, List.not_mem_nil, or_false] at hc
      rcases hc with rfl | rfl
      exacts [hrefl, h]
    · unfold inplace
      simp only [bind, Except.bind, h1]

/-- **C79** (different shapes). Arrays given as `out` with different shapes are a `ValueError`. -/
theorem C79_shapes (f : Nat → List α → γ) (junk : Nat → List Nat → γ) (inputs : List (SA α)) (wh : SA Bool)
    (outs : List (Option (Out γ))) (o p : Out γ) (ho : some o ∈ outs) (hp : some p ∈ outs)
    (hwf : ∀ q, some q ∈ outs → q.array.WF) (h : ¬ Same o.array.shape p.array.shape) :
    ufuncOut f junk inputs wh outs = .error .valueError := by
  have hmem : ∀ q, q ∈ outs.filterMap id ↔ some q ∈ outs := by intro q; simp
  have hS : outShape inputs outs = .error .valueError := by
    unfold outShape
    rw [← hmem] at ho hp
    have hwf' : ∀ q ∈ outs.filterMap id, Dict.WF q.array.shape := fun q hq => wf_shape (hwf q ((hmem q).1 hq))
    cases hc : outs.filterMap id with
    | nil => rw [hc] at ho; simp at ho
    | cons q l =>
      rw [hc] at ho hp hwf'
      dsimp only
      rw [if_neg]
      intro hall
      rw [List.all_eq_true] at hall
      have key : ∀ x ∈ q :: l, Same x.array.shape q.array.shape := by
        intro x hx
        rcases List.mem_cons.1 hx with rfl | hx'
        · exact fun _ => rfl
        · exact (eqv_iff (hwf' x hx) (hwf' q (by simp))).1 (hall x hx')
      exact h (fun x => (key o ho x).trans (key p hp x).symm)
  unfold ufuncOut
  rw [hS]
  rfl

/-! ### A mask without `out` -/

theorem bdim_error {r s : Option Nat} (h : joinOpt r s = none) :
    ND.bdim (r.getD 1) (s.getD 1) = .error .valueError := by
  cases r with
  | none => cases s <;> simp at h
  | some m => cases s with
    | none => simp at h
    | some n =>
      simp only [joinOpt] at h
      simp only [ND.bdim, Option.getD_some]
      grind

theorem bdim_kind {m n : Nat} {e : Err} (h : ND.bdim m n = .error e) : e = .valueError := by
  unfold ND.bdim at h
  split at h
  · cases h
  · split at h
    · cases h
    · split at h
      · cases h
      · cases h; rfl

theorem bshape_error {s w : Shape} {axes : List String} {ax : String} (hax : ax ∈ axes)
    (h : joinOpt (get? s ax) (get? w ax) = none) :
    ND.bshape (posShape axes s) (posShape axes w) = .error .valueError := by
  induction axes with
  | nil => simp at hax
  | cons x axes ih =>
    simp only [posShape, List.map_cons, ND.bshape] at ih ⊢
    cases hb : ND.bdim ((get? s x).getD 1) ((get? w x).getD 1) with
    | error e => rw [bdim_kind hb]; rfl
    | ok n =>
      have hne : ax ≠ x := by
        rintro rfl
        rw [bdim_error h] at hb
        cases hb
      rw [ih ((List.mem_cons.1 hax).resolve_left hne)]
      rfl

theorem bcShape_append {L : List Shape} (hL : L ≠ []) {S : Shape} (hS : broadcastShapes L = .ok S) (w : Shape) :
    broadcastShapes (L ++ [w]) = bcShape S w := by
  cases L with
  | nil => exact absurd rfl hL
  | cons s l =>
    simp only [broadcastShapes] at hS
    simp only [broadcastShapes, List.cons_append, List.foldlM_append, hS]
    show (bcShape S w >>= fun x => pure x) = _
    cases bcShape S w <;> rfl

theorem bshapes_append {L : List (List Nat)} (hL : L ≠ []) {S : List Nat} (hS : ND.bshapes L = .ok S) (w : List Nat) :
    ND.bshapes (L ++ [w]) = ND.bshape S w := by
  cases L with
  | nil => exact absurd rfl hL
  | cons s l =>
    simp only [ND.bshapes] at hS
    simp only [ND.bshapes, List.cons_append, List.foldlM_append, hS]
    show (ND.bshape S w >>= fun x => pure x) = _
    cases ND.bshape S w <;> rfl

theorem bcShape_error_axis {S w : Shape} (hS : Dict.WF S) (hw : Dict.WF w) {e : Err} (h : bcShape S w = .error e) :
    e = .valueError ∧ ∃ ax ∈ S.keys, joinOpt (get? S ax) (get? w ax) = none := by
  have hb : broadcastShapes [S, w] = .error e := by
    show (bcShape S w >>= fun x => pure x) = _
    rw [h]
    rfl
  have hss : ∀ t ∈ [S, w], Dict.WF t := by
    intro t ht
    simp only [List.mem_cons, List.not_mem_nil, or_false] at ht
    rcases ht with rfl | rfl <;> assumption
  obtain ⟨h1, x, m, n, hm, hn, h2⟩ := broadcastShapes_error hss hb
  refine ⟨h1, x, ?_⟩
  simp only [sizesOf, List.filterMap_cons, List.filterMap_nil] at hm hn
  cases hx : get? S x with
  | none => cases hy : get? w x <;> simp_all
  | some a =>
    refine ⟨mem_keys_of_get? hx, ?_⟩
    cases hy : get? w x with
    | none => simp_all
    | some b => simp_all [joinOpt]; grind

/-- **C79** (mask without `out`). `ufunc(*inputs, where=wh)` needs a mask whose axes are axes of the inputs and which
broadcasts against them; the result has their common shape, and its elements where the mask is true are those of the
operation without a mask. -/
theorem C79_where (f : List α → γ) (junk : Nat → List Nat → γ) (inputs : List (SA α)) (hne : inputs ≠ []) (wh : SA Bool)
    (hi : ∀ a ∈ inputs, a.WF) (hwh : wh.WF) (S : Shape) (hS : broadcastShapes (inputs.map SA.shape) = .ok S) :
    (wh.axes ⊆ S.keys ∧ ∃ r, broadcastShapes (inputs.map SA.shape ++ [wh.shape]) = .ok r.shape ∧
      ufuncOut (fun _ => f) junk inputs wh [none] = .ok [r] ∧ r.WF ∧
        ∀ e, wh.atB e = true → r.at' e = f (inputs.map (fun a => a.atB e))) ∨
    ((¬ wh.axes ⊆ S.keys ∨ broadcastShapes (inputs.map SA.shape ++ [wh.shape]) = .error .valueError) ∧
      ufuncOut (fun _ => f) junk inputs wh [none] = .error .valueError) := by
  have hSwf := (broadcastShapes_joinOf (wf_shapes hi) hS).1
  have hout : outShape inputs ([none] : List (Option (Out γ))) = .ok S := hS
  have hbc := bcShape_append (by simpa using hne) hS wh.shape
  have hbs := bshapes_posShape (wf_shapes hi) hS
  have hali : ∀ vs m, inputs.mapM (fun a => a.aligned S.keys) = .ok vs → wh.aligned S.keys = .ok m →
      ND.bshapes (vs.map ND.shape ++ [m.shape]) = ND.bshape (posShape S.keys S) (posShape S.keys wh.shape) := by
    intro vs m hvs hm
    rw [mapM_aligned_shapes hi hSwf (mapM_ok hvs), (aligned_ok hwh hSwf hm).2.1,
      bshapes_append (by simpa using hne) hbs, posShape_keys hSwf]
    rfl
  by_cases hsub : wh.axes ⊆ S.keys
  · cases hT : bcShape S wh.shape with
    | ok T =>
      left
      obtain ⟨j1, j2, j3⟩ := bcShape_ok hSwf (wf_shape hwh) hT
      have hk : S.keys = T.keys := by
        rw [j3, keys_shape hwh]
        have : wh.axes.filter (· ∉ S.keys) = [] := by
          rw [List.filter_eq_nil_iff]
          intro x hx
          simp [hsub hx]
        rw [this, List.append_nil]
      rw [hT] at hbc
      have hfits : ∀ t ∈ inputs.map SA.shape ++ [wh.shape], FitsIn t T := fun t ht => fitsIn_of_broadcastShapes (by
        clear ht t
        intro t ht
        rcases List.mem_append.1 ht with ht | ht
        · exact wf_shapes hi t ht
        · simp only [List.mem_singleton] at ht; subst ht; exact wf_shape hwh) hbc ht
      obtain ⟨rs, h1, h2, h3⟩ := ufuncOut_ok (f := fun _ => f) (junk := junk) (outs := [none]) hi hwh j2 hk hout
        (fun a ha => hfits _ (by simp only [List.mem_append, List.mem_map]; exact .inl ⟨a, ha, rfl⟩))
        (hfits _ (by simp)) (by simp [outND])
        (by
          intro _ vs m hvs hm
          rw [← hk] at hvs hm
          rw [hali vs m hvs hm, bshape_of_join j1, hk, posShape_keys j2])
      match rs, h2 with
      | [r], _ =>
        obtain ⟨r1, r2, r3⟩ := h3 0 none r rfl rfl
        have r1' : r.axes = T.keys := r1
        have hr' : r = ⟨T.keys, r.nd⟩ := by rw [← r1']
        have hrs : r.shape = T := by rw [hr']; exact shape_of_mk j2 r2
        refine ⟨hsub, r, by rw [hbc, hrs], h1, ⟨by rw [r1']; simp [ND.ndim, r2, keys, values], by rw [r1']; exact j2⟩,
          fun e hw => ?_⟩
        have he : r.at' e = r.nd.get (T.keys.map e) := by rw [hr']; rfl
        rw [he, r3 e, if_pos hw]
    | error e =>
      right
      obtain ⟨rfl, ax, hax, hj⟩ := bcShape_error_axis hSwf (wf_shape hwh) hT
      refine ⟨.inr (by rw [hbc, hT]), ?_⟩
      obtain ⟨m, hm⟩ := aligned_isOk hwh hSwf hsub
      obtain ⟨vs, hvs⟩ := mapM_isOk (l := inputs) (f := fun a => a.aligned S.keys)
        (fun a ha => aligned_isOk (hi a ha) hSwf (mem_of_mem_input hi hS ha))
      unfold ufuncOut
      rw [hout]
      simp only [bind, Except.bind, hm, hvs]
      have : ND.bshapes (vs.map ND.shape ++ [m.shape]) = .error .valueError := by
        rw [hali vs m hvs hm, bshape_error hax hj]
      unfold ND.ufuncOut
      simp only [List.map_cons, List.map_nil, outND, Option.bind_none, List.filterMap_cons, id, List.filterMap_nil,
        bind, Except.bind, this]
  · right
    refine ⟨.inl hsub, ?_⟩
    obtain ⟨e, he⟩ := (aligned_error_iff hwh hSwf).2 hsub
    have he' := aligned_error_kind he
    subst he'
    unfold ufuncOut
    rw [hout]
    simp only [bind, Except.bind, he]

/-- **C79** (inputs which do not broadcast). `ValueError`, whatever the mask. -/
theorem C79_inputs_error (f : Nat → List α → γ) (junk : Nat → List Nat → γ) (inputs : List (SA α)) (wh : SA Bool)
    (outs : List (Option (Out γ))) (hi : ∀ a ∈ inputs, a.WF) (hclash : Clash (inputs.map SA.shape))
    (hnone : ∀ o ∈ outs, o = none) :
    ufuncOut f junk inputs wh outs = .error .valueError := by
  obtain ⟨e, he⟩ := (C01_broadcast_shapes_error_iff _ (wf_shapes hi)).2 hclash
  have := C01_broadcast_shapes_error_kind _ (wf_shapes hi) e he
  subst this
  have : outs.filterMap id = [] := by
    rw [List.filterMap_eq_nil_iff]
    intro o ho
    rw [hnone o ho]
    rfl
  unfold ufuncOut outShape
  rw [this]
  simp only [bind, Except.bind, he]

/-! ### What does not hold -/

/-- A two-dimensional array `axes x, y` of size `2 × 2`. -/
def exOutQ : SA Int := ⟨["x", "y"], ND.ofList [2, 2] [0, 0, 0, 0] 0⟩

/-- The same with the axes in the other order. -/
def exOutR : SA Int := ⟨["y", "x"], ND.ofList [2, 2] [0, 0, 0, 0] 0⟩

/-- The input, `[[1, 2], [3, 4]]` along `x, y`. -/
def exOutA : SA Int := ⟨["x", "y"], ND.ofList [2, 2] [1, 2, 3, 4] 0⟩

/-- **C79** (two outputs, negation). Two arrays given as `out` with the same named shape pass the check, but if their axes are in
different orders the second one gets the elements of the transposed result: the element `x = 0, y = 1` of the second
output should be `2`, and is `3`. -/
theorem C79_order_refuted :
    Same exOutQ.shape exOutR.shape ∧
    ∃ q r, ufuncOut (fun _ l => l.getD 0 (0 : Int)) (fun _ _ => 0) [exOutA] (scalar true)
      [some ⟨exOutQ, true⟩, some ⟨exOutR, true⟩] = .ok [q, r] ∧ r.axes = ["y", "x"] ∧
      q.at' (fun ax => if ax = "x" then 0 else 1) = 2 ∧ exOutA.at' (fun ax => if ax = "x" then 0 else 1) = 2 ∧
      r.at' (fun ax => if ax = "x" then 0 else 1) = 3 := by
  refine ⟨(eqv_iff (by decide) (by decide)).1 (by decide), _, _, rfl, rfl, by decide, by decide, by decide⟩

/-- **C79** (python scalars, negation). If the `ndarray` of the array given as `out` is a python scalar, it does not keep its
element where the mask is false: the element is whatever numpy's new array contains. -/
theorem C79_scalar_out_refuted (junk : Int) :
    ∃ r, ufuncOut (fun _ l => l.getD 0 (0 : Int)) (fun _ _ => junk) [scalar 1] (scalar false) [some ⟨scalar 5, false⟩] =
      .ok [r] ∧ r.at' (fun _ => 0) = junk := ⟨_, rfl, rfl⟩

/-! ### Concrete cases -/

/-- `[10, 20]` along `y`. -/
def exOutB : SA Int := ⟨["y"], ND.ofList [2] [10, 20] 0⟩

/-- a mask along `x` -/
def exOutM : SA Bool := ⟨["x"], ND.ofList [2] [true, false] false⟩

example : (inplace (· + ·) exOutA exOutB).map (fun r => (r.axes, r.nd.toList)) =
    .ok (["x", "y"], [11, 22, 13, 24]) := by decide

example : (inplace (· + ·) exOutB exOutA).map (fun r => r.axes) = .error .valueError := by decide

example : (ufuncOut (fun _ l => l.sum) (fun _ _ => 0) [exOutA, exOutB] exOutM [some ⟨exOutR, true⟩]).map
    (fun l => l.map (fun r => (r.axes, r.nd.toList))) = .ok [(["y", "x"], [11, 0, 22, 0])] := by decide

example : (ufuncOut (fun _ l => l.sum) (fun _ _ => -1) [exOutA, exOutB] exOutM [none]).map
    (fun l => l.map (fun r => (r.axes, r.nd.toList))) = .ok [(["x", "y"], [11, 22, -1, -1])] := by decide

example : (ufuncOut (fun _ l => l.sum) (fun _ _ => -1) [exOutB] exOutM [none]).map (fun l => l.map (fun r => r.axes)) =
    .error .valueError := by decide

example : exOutA.WF ∧ exOutB.WF ∧ exOutM.WF ∧ exOutR.WF := by decide

end SA
end NA
