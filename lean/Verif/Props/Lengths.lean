import Verif.Vector.Length
import Verif.Scalar.Arith
import Verif.Matrix.Lemmas
import Verif.Props.VectorReduce
import Verif.Props.SolidAngles

/-!
# C121: lengths of vectors and their normalization
-/

namespace NA.Comp
open Dict
open SA (FitsIn InRange)

variable {K : Type} [Field K]

/-- The sum of the squares of the elements of some arrays at a named index (the arrays are broadcast). -/
def squares (m : Trig K) (l : List (SA K)) (e : String → Nat) : K := (l.map (fun a => m.abs (a.atB e) * m.abs (a.atB e))).sum

theorem same_of_fitsIn {s t : Shape} (h1 : FitsIn s t) (h2 : FitsIn t s) : Same s t := by
  intro ax
  cases hs : get? s ax with
  | none =>
    cases ht : get? t ax with
    | none => rfl
    | some n => obtain ⟨m, hm, _⟩ := h2 ax n ht; rw [hs] at hm; cases hm
  | some m =>
    obtain ⟨n, hn, h⟩ := h1 ax m hs
    obtain ⟨m', hm', h'⟩ := h2 ax n hn
    rw [hs] at hm'
    cases hm'
    rw [hn]
    rcases h with rfl | rfl
    · rfl
    · rcases h' with rfl | rfl <;> rfl

/-- One turn of the loop. -/
theorem addSquare_main (m : Trig K) {r a : SA K} (hr : r.WF) (ha : a.WF) :
    (∃ t, V3.addSquare m r a = .ok t ∧ t.WF ∧ FitsIn r.shape t.shape ∧ FitsIn a.shape t.shape ∧
      (∀ S, FitsIn r.shape S → FitsIn a.shape S → FitsIn t.shape S) ∧ ∀ e, t.atB e = r.atB e + m.abs (a.atB e) * m.abs (a.atB e)) ∨
    (V3.addSquare m r a = .error .valueError ∧ ∀ S, ¬ (FitsIn r.shape S ∧ FitsIn a.shape S)) := by
  obtain ⟨q, q1, q2, q3, q4⟩ := SA.C07_ufunc1_values (fun t => m.abs t * m.abs t) a ha
  have q5 : ∀ e, q.atB e = m.abs (a.atB e) * m.abs (a.atB e) := by
    intro e
    unfold SA.atB
    rw [q4, q3]
  have hunfold : V3.addSquare m r a = SA.ufunc2 (· + ·) r q := by
    unfold V3.addSquare
    simp only [q1, bind, Except.bind]
  rw [hunfold]
  cases hs : broadcastShapes [r.shape, q.shape] with
  | error e =>
    right
    constructor
    · cases hu : SA.ufunc2 (fun x y : K => x + y) r q with
      | error e' => 
        have := SA.ufunc2_error hr q2 hu
        rw [C01_broadcast_shapes_error_kind _ (SA.wf_pair hr q2) e' this]
      | ok t =>
        have := (SA.ufunc2_ok hr q2 hu).2.1
        rw [hs] at this
        cases this
    · rintro S ⟨h1, h2⟩
      obtain ⟨t, ht, _⟩ := broadcast_of_fits (SA.wf_shape hr) (SA.wf_shape q2) h1 (q3 ▸ h2)
      rw [hs] at ht
      cases ht
  | ok s =>
    left
    have f1 := SA.fitsIn_of_broadcastShapes (SA.wf_pair hr q2) hs (s := r.shape) (by simp)
    have f2 := SA.fitsIn_of_broadcastShapes (SA.wf_pair hr q2) hs (s := q.shape) (by simp)
    obtain ⟨t, t1, ⟨t2, _⟩, t4⟩ := ufunc2_fits (fun x y : K => x + y) hr q2 f1 f2
    have t5 := (SA.ufunc2_ok hr q2 t1).2.1
    have hst : s = t.shape := by rw [hs] at t5; injection t5
    subst hst
    refine ⟨t, t1, t2, f1, q3 ▸ f2, fun S h1 h2 => ?_, fun e => by rw [t4, q5]⟩
    obtain ⟨u, hu, hf⟩ := broadcast_of_fits (SA.wf_shape hr) (SA.wf_shape q2) h1 (q3 ▸ h2)
    rw [hs] at hu
    injection hu with hu
    rw [hu]
    exact hf

theorem foldl_squares (m : Trig K) (l : List (SA K)) (hl : ∀ a ∈ l, a.WF) (r : SA K) (hr : r.WF) :
    (∃ t, l.foldlM (V3.addSquare m) r = .ok t ∧ t.WF ∧ FitsIn r.shape t.shape ∧ (∀ a ∈ l, FitsIn a.shape t.shape) ∧
      (∀ S, FitsIn r.shape S → (∀ a ∈ l, FitsIn a.shape S) → FitsIn t.shape S) ∧ ∀ e, t.atB e = r.atB e + squares m l e) ∨
    (l.foldlM (V3.addSquare m) r = .error .valueError ∧ ∀ S, ¬ (FitsIn r.shape S ∧ ∀ a ∈ l, FitsIn a.shape S)) := by
  induction l generalizing r with
  | nil =>
    left
    exact ⟨r, rfl, hr, fun ax n h => ⟨n, h, .inl rfl⟩, by simp, fun S h _ => h, fun e => by simp [squares]⟩
  | cons a l ih =>
    rcases addSquare_main m hr (hl a (by simp)) with ⟨t, h1, h2, h3, h4, h5, h6⟩ | ⟨h1, h2⟩
    · rcases ih (fun b hb => hl b (by simp [hb])) t h2 with ⟨u, u1, u2, u3, u4, u5, u6⟩ | ⟨u1, u2⟩
      · left
        refine ⟨u, by rw [List.foldlM_cons, h1]; exact u1, u2, fitsIn_trans h3 u3, ?_, fun S s1 s2 => ?_, fun e => ?_⟩
        · intro b hb
          rcases List.mem_cons.1 hb with rfl | hb
          · exact fitsIn_trans h4 u3
          · exact u4 b hb
        · exact u5 S (h5 S s1 (s2 a (by simp))) (fun b hb => s2 b (by simp [hb]))
        · rw [u6, h6]
          simp [squares, add_assoc]
      · right
        refine ⟨by rw [List.foldlM_cons, h1]; exact u1, fun S hS => u2 S ⟨h5 S hS.1 (hS.2 a (by simp)), fun b hb => hS.2 b (by simp [hb])⟩⟩
    · right
      exact ⟨by rw [List.foldlM_cons, h1]; rfl, fun S hS => h2 S ⟨hS.1, hS.2 a (by simp)⟩⟩

theorem flat_again {α : Type} {d : Dict α} (hd : WF d) : cartesianNd (d.map (fun p => (p.1, Comp.leaf p.2))) = d := by
  unfold cartesianNd
  have : entries (d.map (fun p => (p.1, Comp.leaf p.2))) = d := by
    clear hd
    induction d with
    | nil => rfl
    | cons p d ih => simp only [List.map_cons, entries, ih]; rfl
  rw [this, union_nil_of_wf hd]

theorem length_fold (m : Trig K) {cls : String} {cs : List (String × Comp (SA K))} (hn : (Comp.node cls cs).Named) :
    vectorLength m cs = ((Comp.node cls cs).leaves.foldlM (V3.addSquare m) (SA.scalar 0) >>= fun r => SA.ufunc1 m.sqrt r) := by
  unfold vectorLength
  rw [flat_again (wf_cartesianNd cs)]
  have hv : values (cartesianNd cs) = (Comp.node cls cs).leaves := values_cartesianNd hn.1 hn.2
  rw [← hv, values, List.foldlM_map]

/-- **C121** (length). The length of a vector, at every named index of the vector, is the root of the sum of the squares of all its scalars, however
deep they are nested; it has the shape of the vector.
Missing for the full property: component names which contain a dot, for which it is false (`C121_dotted_refuted`). -/
theorem C121_length_partial (m : Trig K) {cls : String} {cs : List (String × Comp (SA K))} (hn : (Comp.node cls cs).Named)
    (hw : (Comp.node cls cs).WFLeaves) {S : Shape} (hS : (Comp.node cls cs).shape = .ok S) :
    ∃ l, vectorLength m cs = .ok l ∧ NA.Full S l ∧ ∀ e, InRange S e → l.at' e = m.sqrt (squares m (Comp.node cls cs).leaves e) := by
  rw [length_fold m hn]
  have hfit : ∀ a ∈ (Comp.node cls cs).leaves, FitsIn a.shape S := fun a ha => leaf_fits hw hS ha
  have h0 := fits_scalar S (0 : K)
  rcases foldl_squares m _ hw (SA.scalar 0) h0.1 with ⟨t, h1, h2, h3, h4, h5, h6⟩ | ⟨_, h2⟩
  · have hts := h5 S h0.2 hfit
    have hst : FitsIn S t.shape := by
      intro ax n hax
      have h := shape_leaves _ hw
      rw [hS] at h
      cases hb : broadcastShapes ((Comp.node cls cs).leaves.map SA.shape) with
      | error e => rw [hb] at h; exact h.elim
      | ok r =>
        rw [hb] at h
        have hr : get? r ax = some n := by rw [← h ax]; exact hax
        obtain ⟨⟨u, hu, hun⟩, _⟩ := (C01_broadcast_shapes_ok _ hw.shapes r hb).2.2 ax n hr
        obtain ⟨a, ha, rfl⟩ := List.mem_map.1 hu
        exact h4 a ha ax n hun
    have hfull : NA.Full S t := ⟨h2, same_of_fitsIn hts hst⟩
    obtain ⟨l, l1, l2, l3⟩ := ufunc1_full m.sqrt hfull
    refine ⟨l, by rw [h1]; exact l1, l2, fun e he => ?_⟩
    rw [← l2.atB he, l3, h6]
    congr 1
    simp [SA.atB, SA.at', SA.scalar, ND.scalar]
  · exact absurd ⟨h0.2, hfit⟩ (h2 S)

/-- **C121** (errors). If the components do not broadcast against each other, `length` and `normalized` raise `ValueError`. -/
theorem C121_error (m : Trig K) {cls : String} {cs : List (String × Comp (SA K))} (hn : (Comp.node cls cs).Named)
    (hw : (Comp.node cls cs).WFLeaves) {x : Err} (hS : (Comp.node cls cs).shape = .error x) :
    vectorLength m cs = .error .valueError ∧ normalized m cls cs = .error .valueError := by
  have key : vectorLength m cs = .error .valueError := by
    rw [length_fold m hn]
    rcases foldl_squares m _ hw (SA.scalar 0) (fits_scalar [] (0 : K)).1 with ⟨t, h1, h2, h3, h4, h5, h6⟩ | ⟨h1, _⟩
    · exfalso
      have h := shape_leaves _ hw
      rw [hS] at h
      cases hb : broadcastShapes ((Comp.node cls cs).leaves.map SA.shape) with
      | ok r => rw [hb] at h; exact h.elim
      | error e =>
        obtain ⟨ax, p, q, ⟨u, hu, hup⟩, ⟨v, hv, hvq⟩, h7, h8, h9⟩ := (C01_broadcast_shapes_error_iff _ hw.shapes).1 ⟨e, hb⟩
        obtain ⟨a, ha, rfl⟩ := List.mem_map.1 hu
        obtain ⟨b, hb, rfl⟩ := List.mem_map.1 hv
        obtain ⟨n, hn1, hn2⟩ := h4 a ha ax p hup
        obtain ⟨n', hn1', hn2'⟩ := h4 b hb ax q hvq
        rw [hn1] at hn1'
        cases hn1'
        omega
    · rw [h1]; rfl
  exact ⟨key, by unfold normalized; rw [key]; rfl⟩

theorem lift_mono_leaves {α β : Type} {P Q : α → β → Prop} : ∀ (x : Comp α) (y : Comp β), (∀ a ∈ x.leaves, ∀ b, P a b → Q a b) → x.Lift P y → x.Lift Q y := by
  refine ind ?_ ?_
  · rintro a (b | _) h h1
    · exact h a (by simp [leaves]) b h1
    · exact h1.elim
  · rintro cls cs ih (_ | ⟨cls', cs'⟩) h h1
    · simp [Lift] at h1
    · simp only [Lift] at h1 ⊢
      refine ⟨h1.1, ?_⟩
      replace h1 := h1.2
      simp only [leaves] at h
      induction cs generalizing cs' with
      | nil => cases cs' with
        | nil => trivial
        | cons _ _ => simp [LiftL] at h1
      | cons p cs ihl => cases cs' with
        | nil => simp [LiftL] at h1
        | cons q cs' =>
          obtain ⟨k, c⟩ := p
          obtain ⟨k', c'⟩ := q
          simp only [LiftL] at h1 ⊢
          simp only [leavesL, List.mem_append] at h
          exact ⟨h1.1, ih (k, c) (by simp) c' (fun a ha => h a (.inl ha)) h1.2.1,
            ihl (fun p hp => ih p (by simp [hp])) cs' (fun a ha => h a (.inr ha)) h1.2.2⟩

theorem lift_named {α β : Type} {P : α → β → Prop} : ∀ (x : Comp α) (y : Comp β), x.Lift P y → x.Named → y.Named := by
  refine ind ?_ ?_
  · rintro a (b | _) h _ <;> simp_all [Lift, Named]
  · rintro cls cs ih (_ | ⟨cls', cs'⟩) h hn
    · simp [Lift] at h
    · simp only [Lift] at h
      replace h := h.2
      have hk : keys cs' = keys cs := by
        have h0 := liftL_iff.1 h
        clear ih hn h
        induction h0 with
        | nil => rfl
        | cons h1 _ ih => simp only [keys, List.map_cons] at *; rw [ih, h1.1]
      refine ⟨by unfold Dict.WF; rw [hk]; exact hn.1, ?_⟩
      replace hn := hn.2
      clear hk
      induction cs generalizing cs' with
      | nil => cases cs' with
        | nil => trivial
        | cons _ _ => simp [LiftL] at h
      | cons p cs ihl => cases cs' with
        | nil => simp [LiftL] at h
        | cons q cs' =>
          obtain ⟨k, c⟩ := p
          obtain ⟨k', c'⟩ := q
          simp only [LiftL] at h
          simp only [NamedL] at hn ⊢
          exact ⟨h.1 ▸ hn.1, ih (k, c) (by simp) c' h.2.1 hn.2.1, ihl (fun p hp => ih p (by simp [hp])) cs' h.2.2 hn.2.2⟩

/-- **C121** (components of the normalized vector). Every scalar of the vector, at every depth, is divided by the length of the vector at the same
named index; all have the shape of the vector. -/
theorem C121_components_partial (m : Trig K) {cls : String} {cs : List (String × Comp (SA K))} (hn : (Comp.node cls cs).Named)
    (hw : (Comp.node cls cs).WFLeaves) {S : Shape} (hS : (Comp.node cls cs).shape = .ok S) :
    ∃ v, normalized m cls cs = .ok v ∧ (Comp.node cls cs).Lift (fun a b => NA.Full S b ∧
      ∀ e, InRange S e → b.at' e = a.atB e / m.sqrt (squares m (Comp.node cls cs).leaves e)) v := by
  obtain ⟨l, h1, h2, h3⟩ := C121_length_partial m hn hw hS
  have hun : normalized m cls cs = (Comp.node cls cs).mapM (fun a => SA.ufunc2 (· / ·) a l) := by
    unfold normalized
    rw [h1]
    rfl
  rw [hun]
  have hleaf : ∀ a ∈ (Comp.node cls cs).leaves, ∃ b, SA.ufunc2 (fun x y : K => x / y) a l = .ok b ∧ NA.Full S b ∧
      ∀ e, b.atB e = a.atB e / l.atB e := fun a ha => ufunc2_full' _ ⟨hw a ha, leaf_fits hw hS ha⟩ h2
  obtain ⟨v, hv⟩ := mapM_isOk' (fun a => SA.ufunc2 (fun x y : K => x / y) a l) (Comp.node cls cs)
    (fun a ha => let ⟨b, hb, _⟩ := hleaf a ha; ⟨b, hb⟩)
  refine ⟨v, hv, ?_⟩
  have hl := (mapM_lift _ _ _).1 hv
  refine lift_mono_leaves _ _ (fun a ha b hab => ?_) hl
  obtain ⟨b', hb', f1, f2⟩ := hleaf a ha
  rw [hab] at hb'
  injection hb' with hb'
  subst hb'
  exact ⟨f1, fun e he => by rw [← f1.atB he, f2, h2.atB he, h3 e he]⟩

section Real

theorem squares_real (l : List (SA ℝ)) (e : String → Nat) : squares realTrig l e = (l.map (fun a => a.atB e * a.atB e)).sum := by
  simp only [squares, realTrig, abs_mul_abs_self]

theorem squares_nonneg (l : List (SA ℝ)) (e : String → Nat) : 0 ≤ squares realTrig l e := by
  rw [squares_real]
  refine List.sum_nonneg (fun x hx => ?_)
  obtain ⟨a, _, rfl⟩ := List.mem_map.1 hx
  exact mul_self_nonneg _

theorem squares_pos {l : List (SA ℝ)} {e : String → Nat} (h : ∃ a ∈ l, a.atB e ≠ 0) : 0 < squares realTrig l e := by
  rw [squares_real]
  obtain ⟨a, ha, hne⟩ := h
  have h1 : a.atB e * a.atB e ≤ (l.map (fun a => a.atB e * a.atB e)).sum := by
    refine List.single_le_sum (fun x hx => ?_) _ (List.mem_map.2 ⟨a, ha, rfl⟩)
    obtain ⟨b, _, rfl⟩ := List.mem_map.1 hx
    exact mul_self_nonneg _
  exact lt_of_lt_of_le (mul_self_pos.2 hne) h1

/-- **C121** (normalized vectors have length 1). If the components of a real vector broadcast to the shape `S`, then `v.normalized` is a vector of the same
structure, and `v.normalized.length` is 1 at every named index where not all the scalars of `v` vanish. -/
theorem C121_normalized_partial {cls : String} {cs : List (String × Comp (SA ℝ))} (hn : (Comp.node cls cs).Named)
    (hw : (Comp.node cls cs).WFLeaves) (hne : (Comp.node cls cs).leaves ≠ []) {S : Shape} (hS : (Comp.node cls cs).shape = .ok S) :
    ∃ cs' l, normalized realTrig cls cs = .ok (.node cls cs') ∧ vectorLength realTrig cs' = .ok l ∧ NA.Full S l ∧
      ∀ e, InRange S e → (∃ a ∈ (Comp.node cls cs).leaves, a.atB e ≠ 0) → l.at' e = 1 := by
  obtain ⟨v, h1, h2⟩ := C121_components_partial realTrig hn hw hS
  cases v with
  | leaf a => exact h2.elim
  | node cls' cs' =>
    have hcls : cls = cls' := by simp only [Lift] at h2; exact h2.1
    subst hcls
    have hl := lift_leaves _ _ h2
    have hn' := lift_named _ _ h2 hn
    have hfull : ∀ b ∈ (Comp.node cls cs').leaves, NA.Full S b := by
      intro b hb
      obtain ⟨i, hi, rfl⟩ := List.getElem_of_mem hb
      exact (List.forall₂_iff_get.1 hl).2 i (by rw [hl.length_eq]; exact hi) hi |>.1
    have hw' : (Comp.node cls cs').WFLeaves := fun b hb => (hfull b hb).1
    have hne' : (Comp.node cls cs').leaves ≠ [] := by
      intro h
      rw [h] at hl
      exact hne (List.forall₂_nil_right_iff.1 hl)
    obtain ⟨S', hS', hsame⟩ : ∃ S', (Comp.node cls cs').shape = .ok S' ∧ Same S' S := by
      have h := shape_leaves _ hw'
      cases hb : broadcastShapes ((Comp.node cls cs').leaves.map SA.shape) with
      | error x =>
        exfalso
        obtain ⟨ax, p, q, ⟨u, hu, hup⟩, ⟨w, hv, hvq⟩, h7, h8, h9⟩ := (C01_broadcast_shapes_error_iff _ hw'.shapes).1 ⟨x, hb⟩
        obtain ⟨a, ha, rfl⟩ := List.mem_map.1 hu
        obtain ⟨b, hb, rfl⟩ := List.mem_map.1 hv
        rw [(hfull a ha).2 ax] at hup
        rw [(hfull b hb).2 ax, hup] at hvq
        cases hvq
        exact h7 rfl
      | ok r =>
        rw [hb] at h
        cases hs : (Comp.node cls cs').shape with
        | error x => rw [hs] at h; exact h.elim
        | ok S' =>
          rw [hs] at h
          refine ⟨S', rfl, fun ax => (h ax).trans ?_⟩
          obtain ⟨_, c2, c3⟩ := C01_broadcast_shapes_ok _ hw'.shapes r hb
          cases hr : get? r ax with
          | none =>
            obtain ⟨b, hb⟩ := List.exists_mem_of_ne_nil _ hne'
            rw [← (hfull b hb).2 ax]
            refine (get?_eq_none.2 (fun hx => get?_eq_none.1 hr ((c2 ax).2 ⟨b.shape, List.mem_map.2 ⟨b, hb, rfl⟩, hx⟩))).symm
          | some n =>
            obtain ⟨⟨u, hu, hun⟩, _⟩ := c3 ax n hr
            obtain ⟨b, hb, rfl⟩ := List.mem_map.1 hu
            rw [← (hfull b hb).2 ax, hun]
    obtain ⟨l, l1, l2, l3⟩ := C121_length_partial realTrig hn' hw' hS'
    refine ⟨cs', l, h1, l1, ⟨l2.1, fun ax => (l2.2 ax).trans (hsame ax)⟩, fun e he hx => ?_⟩
    have he' : InRange S' e := fun ax n h => he ax n ((hsame ax).symm.trans h)
    rw [l3 e he']
    have hpos := squares_pos hx
    generalize hQ : squares realTrig (Comp.node cls cs).leaves e = Q at hpos
    have hsum : squares realTrig (Comp.node cls cs').leaves e = squares realTrig (Comp.node cls cs).leaves e / Q := by
      rw [squares_real, squares_real]
      have hQ' : Real.sqrt Q * Real.sqrt Q = Q := Real.mul_self_sqrt hpos.le
      have key : ∀ (la lb : List (SA ℝ)), List.Forall₂ (fun a b => NA.Full S b ∧
          ∀ e, InRange S e → b.at' e = a.atB e / realTrig.sqrt (squares realTrig (Comp.node cls cs).leaves e)) la lb →
          (lb.map (fun a => a.atB e * a.atB e)).sum = (la.map (fun a => a.atB e * a.atB e)).sum / Q := by
        intro la lb h
        induction h with
        | nil => simp
        | cons hab _ ih =>
          have hv := hab.2 e he
          rw [← hab.1.atB he, hQ] at hv
          change _ = _ / Real.sqrt Q at hv
          rw [List.map_cons, List.sum_cons, List.map_cons, List.sum_cons, ih, hv, add_div, div_mul_div_comm, hQ']
      exact key _ _ hl
    rw [hsum, hQ, div_self hpos.ne']
    exact Real.sqrt_one

end Real

/-! ### Examples -/

/-- a nested vector: `p` has the axis `t`, `q.r` has the axes `s` and `t` -/
def exNested {K : Type} [Field K] : List (String × Comp (SA K)) :=
  [("p", .leaf ⟨["t"], ND.ofList [2] [3, 0] 0⟩),
   ("q", .node "inner" [("r", .leaf ⟨["s", "t"], ND.ofList [1, 2] [4, 5] 0⟩), ("w", .leaf (SA.scalar 12))])]

theorem named_exNested {K : Type} [Field K] : (Comp.node "outer" (exNested (K := K))).Named := by
  refine ⟨by unfold Dict.WF; exact (by decide : ["p", "q"].Nodup), by decide, trivial, by decide, ⟨?_, by decide, trivial, by decide, trivial, trivial⟩, trivial⟩
  unfold Dict.WF; exact (by decide : ["r", "w"].Nodup)

theorem wf_exNested {K : Type} [Field K] : (Comp.node "outer" (exNested (K := K))).WFLeaves := by
  intro a ha
  simp only [exNested, leaves, leavesL, List.append_nil, List.mem_append, List.mem_cons, List.not_mem_nil, or_false] at ha
  rcases ha with rfl | rfl | rfl
  · exact ⟨rfl, (by decide : ["t"].Nodup)⟩
  · exact ⟨rfl, (by decide : ["s", "t"].Nodup)⟩
  · exact ⟨rfl, List.nodup_nil⟩

/-- rational numbers; the squares of lengths -/
def exSquared : Trig ℚ := ⟨id, fun x => |x|, fun _ y => y⟩

def exElements : R (SA ℚ) → Option (List String × List Nat × List ℚ)
  | .ok o => some (o.axes, o.nd.shape, o.nd.toList)
  | .error _ => none

-- 9 + 16 + 144 and 0 + 25 + 144
example : exElements (vectorLength exSquared exNested) = some (["t", "s"], [2, 1], [169, 169]) := by decide +kernel
example : (Comp.node "outer" (exNested (K := ℝ))).shape = .ok [("t", 2), ("s", 1)] := rfl
example : ∃ cs' l, normalized realTrig "outer" exNested = .ok (.node "outer" cs') ∧ vectorLength realTrig cs' = .ok l ∧
    NA.Full [("t", 2), ("s", 1)] l ∧ ∀ e, InRange [("t", 2), ("s", 1)] e →
      (∃ a ∈ (Comp.node "outer" (exNested (K := ℝ))).leaves, a.atB e ≠ 0) → l.at' e = 1 :=
  C121_normalized_partial named_exNested wf_exNested (by simp [exNested, leaves, leavesL]) rfl
-- the last component never vanishes
example (e : String → Nat) : ∃ a ∈ (Comp.node "outer" (exNested (K := ℝ))).leaves, a.atB e ≠ 0 :=
  ⟨SA.scalar 12, by simp [exNested, leaves, leavesL], by simp [SA.atB, SA.at', SA.scalar, ND.scalar]⟩
/-- components which do not fit each other -/
def exUnequal : List (String × Comp (SA ℚ)) := [("p", .leaf ⟨["t"], ND.ofList [2] [3, 0] 0⟩), ("q", .leaf ⟨["t"], ND.ofList [3] [3, 0, 1] 0⟩)]

example : vectorLength exSquared exUnequal = .error .valueError := by
  refine (C121_error (cls := "v") (x := .valueError) exSquared ?_ ?_ rfl).1
  · exact ⟨by unfold Dict.WF; exact (by decide : ["p", "q"].Nodup), by decide, trivial, by decide, trivial, trivial⟩
  · intro a ha
    simp only [exUnequal, leaves, leavesL, List.append_nil, List.mem_append, List.mem_cons, List.not_mem_nil, or_false] at ha
    rcases ha with rfl | rfl
    · exact ⟨rfl, (by decide : ["t"].Nodup)⟩
    · exact ⟨rfl, (by decide : ["t"].Nodup)⟩

/-- a vector with a component `x.y` and a component `x` which has a component `y` -/
def exDotted : List (String × Comp (SA ℚ)) := [("x.y", .leaf (SA.scalar 3)), ("x", .node "inner" [("y", .leaf (SA.scalar 4))])]

/-- **C121** is false if a component name contains a dot: the scalars 3 and 4 give the square of the length 16, since the second one replaces the
first one when the vector is flattened. -/
theorem C121_dotted_refuted : (Comp.node "CartesianNdVectorArray" exDotted).leaves.map (fun a => a.nd.toList) = [[3], [4]] ∧
    exElements (vectorLength exSquared exDotted) = some ([], [], [16]) := by decide +kernel

end NA.Comp
