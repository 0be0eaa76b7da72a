import Verif.Vector.Reduce
import Verif.Props.Vectors
import Verif.Props.Reductions

/-!
# C37: indexing and reducing vectors
-/

namespace NA
open Dict
open SA (FitsIn InRange)
namespace Comp
variable {α β γ : Type}

mutual
/-- Specification: every vector in the tree has at least one component. -/
def Full : Comp α → Prop
  | .leaf _ => True
  | .node _ cs => cs ≠ [] ∧ FullL cs
/-- ... for all components. -/
def FullL : List (String × Comp α) → Prop
  | [] => True
  | (_, c) :: l => c.Full ∧ FullL l
end

/-- Specification: `a'` is the scalar `a` broadcast so that it has the axes `A` of the shape `S`. -/
def BroadcastAlong (S : Shape) (A : List String) (a a' : SA α) : Prop :=
  a'.WF ∧ (∀ e, a'.atB e = a.atB e) ∧ FitsIn a'.shape S ∧ FitsIn a.shape a'.shape ∧
    ∀ ax ∈ A, get? a'.shape ax = get? S ax

theorem fullL_iff {cs : List (String × Comp α)} : FullL cs ↔ ∀ p ∈ cs, p.2.Full := by
  induction cs with
  | nil => simp [FullL]
  | cons p cs ih => simp [FullL, ih]

theorem lift_full {P : α → β → Prop} : ∀ (x : Comp α) (y : Comp β), x.Lift P y → x.Full → y.Full := by
  refine ind ?_ ?_
  · rintro a (b | _) h _ <;> simp_all [Lift, Full]
  · rintro cls cs ih (_ | ⟨cls', cs'⟩) h hf
    · simp [Lift] at h
    · simp only [Lift, liftL_iff] at h
      obtain ⟨_, h2⟩ := h
      simp only [Full, fullL_iff] at hf ⊢
      refine ⟨fun h0 => ?_, ?_⟩
      · subst h0; cases h2; exact hf.1 rfl
      · intro q hq
        obtain ⟨i, hi, rfl⟩ := List.mem_iff_getElem.1 hq
        have hl := h2.length_eq
        have h3 := h2.get (i := i) (by omega) hi
        exact ih _ (List.get_mem _ _) _ h3.2 (hf.2 _ (List.get_mem _ _))

theorem lift_depth {P : α → β → Prop} : ∀ (x : Comp α) (y : Comp β), x.Lift P y → x.depth = y.depth := by
  refine ind ?_ ?_
  · rintro a (b | _) h <;> simp_all [Lift, depth]
  · rintro cls cs ih (_ | ⟨cls', cs'⟩) h
    · simp [Lift] at h
    · simp only [Lift] at h
      have h2 := h.2
      clear h
      simp only [depth]
      congr 1
      induction cs generalizing cs' with
      | nil => cases cs' <;> simp_all [LiftL, depthL]
      | cons p cs ihl =>
        cases cs' with
        | nil => simp [LiftL] at h2
        | cons p' cs' =>
          simp only [LiftL, depthL] at *
          rw [ih p (by simp) _ h2.2.1, ihl (fun q hq => ih q (by simp [hq])) _ h2.2.2]

theorem depth_le_of_mem {cs : List (String × Comp α)} {p : String × Comp α} (h : p ∈ cs) :
    p.2.depth ≤ depthL cs := by
  induction cs with
  | nil => simp at h
  | cons q cs ih =>
    simp only [depthL]
    rcases List.mem_cons.1 h with rfl | h
    · omega
    · have := ih h; omega

theorem depth_pos (c : Comp α) : 0 < c.depth := by cases c <;> simp [depth]

theorem full_leaves : ∀ (c : Comp α), c.Full → c.leaves ≠ [] := by
  refine ind ?_ ?_
  · intro a _; simp [leaves]
  · intro cls cs ih hf
    simp only [Full, fullL_iff] at hf
    obtain ⟨p, hp⟩ := List.exists_mem_of_ne_nil _ hf.1
    simp only [leaves, leavesL_eq]
    intro h0
    rw [List.flatMap_eq_nil_iff] at h0
    exact ih p hp (hf.2 p hp) (h0 p hp)

/-- broadcasting a list of equal shapes -/
theorem broadcast_const {s : Shape} (hw : WF s) {l : List Shape} (hne : l ≠ []) (hl : ∀ t ∈ l, t = s) :
    ∃ r, broadcastShapes l = .ok r ∧ Same s r := by
  obtain ⟨r, hr, hs⟩ := broadcast_single hw
  have h := C02_order_and_repetition [s] l (by simpa using hw) (by
    intro t
    simp only [List.mem_singleton]
    constructor
    · rintro rfl
      obtain ⟨t', ht'⟩ := List.exists_mem_of_ne_nil _ hne
      rw [← hl t' ht']
      exact ht'
    · exact hl t)
  rw [hr] at h
  cases hb : broadcastShapes l with
  | error e => rw [hb] at h; simp [SameOutcome] at h
  | ok r' =>
    rw [hb] at h
    exact ⟨r', rfl, fun ax => (hs ax).trans (h ax)⟩

theorem leaf_fits {c : Comp (SA α)} (hw : c.WFLeaves) {S : Shape} (hS : c.shape = .ok S) {a : SA α}
    (ha : a ∈ c.leaves) : FitsIn a.shape S := by
  have h := shape_leaves c hw
  rw [hS] at h
  cases hb : broadcastShapes (c.leaves.map SA.shape) with
  | error e => rw [hb] at h; simp [SameOutcome] at h
  | ok r =>
    rw [hb] at h
    intro ax m hm
    obtain ⟨_, h1, h2⟩ := C01_broadcast_shapes_ok _ hw.shapes r hb
    have hk : ax ∈ keys r := (h1 ax).2 ⟨_, List.mem_map.2 ⟨a, ha, rfl⟩, mem_keys_of_get? hm⟩
    obtain ⟨n, hn⟩ := exists_get?_of_mem hk
    refine ⟨n, (h ax).trans hn, (h2 ax n hn).2 m ⟨_, List.mem_map.2 ⟨a, ha, rfl⟩, hm⟩⟩

theorem fitsIn_trans {s t u : Shape} (h1 : FitsIn s t) (h2 : FitsIn t u) : FitsIn s u := by
  intro ax m hm
  obtain ⟨n, hn, hmn⟩ := h1 ax m hm
  obtain ⟨k, hk, hnk⟩ := h2 ax n hn
  refine ⟨k, hk, ?_⟩
  rcases hmn with rfl | rfl
  · exact hnk
  · exact .inr rfl

theorem fitsIn_refl (s : Shape) : FitsIn s s := fun _ m hm => ⟨m, hm, .inl rfl⟩

/-- Reading a broadcast array with broadcasting is reading the original. -/
theorem atB_of_broadcast {a a' : SA α} (ha : a.WF) (h : FitsIn a.shape a'.shape)
    (hv : ∀ e, a'.at' e = a.atB e) (e : String → Nat) : a'.atB e = a.atB e := by
  unfold SA.atB at *
  rw [hv]
  apply SA.at'_congr
  intro ax hax
  by_cases h1 : get? a.shape ax = some 1
  · simp [h1]
  · simp only [h1, if_false]
    split
    · next h2 =>
      obtain ⟨m, hm⟩ := exists_get?_of_mem (show ax ∈ keys a.shape by rw [SA.keys_shape ha]; exact hax)
      obtain ⟨n, hn, hmn⟩ := h ax m hm
      rw [h2] at hn
      cases hn
      rcases hmn with rfl | rfl <;> exact absurd hm h1
    · rfl

theorem get?_foldl_set (g : String → Nat) (A : List String) (d : Shape) (ax : String) :
    get? ((A.map (fun a => (a, g a))).foldl (fun acc p => set acc p.1 p.2) d) ax =
      if ax ∈ A then some (g ax) else get? d ax := by
  induction A generalizing d with
  | nil => simp
  | cons a A ih =>
    simp only [List.map_cons, List.foldl_cons, ih, get?_set, List.mem_cons]
    by_cases h1 : ax ∈ A
    · simp [h1]
    · by_cases h2 : ax = a
      · subst h2; simp
      · have h3 : ¬ a = ax := fun h => h2 h.symm
        simp [h1, h2, h3]

theorem get?_shapeBase (S : Shape) (A : List String) (ax : String) (hA : A ⊆ keys S) :
    get? (shapeBase S A) ax = if ax ∈ A then get? S ax else none := by
  unfold shapeBase union
  rw [get?_foldl_set]
  split
  · next h =>
    obtain ⟨n, hn⟩ := exists_get?_of_mem (hA h)
    simp [hn]
  · rfl

/-- One broadcast of `broadcastBase`. -/
theorem broadcastBase_ok {c : Comp (SA α)} (hw : c.WFLeaves) (hf : c.Full) {S Sc : Shape} (hSw : WF S)
    (hc : c.shape = .ok Sc) (hfit : FitsIn Sc S) {A : List String} (hA : A ⊆ keys S) :
    ∃ c' T, broadcastBase (shapeBase S A) c = .ok c' ∧ c'.WFLeaves ∧ c'.Full ∧ c'.shape = .ok T ∧ WF T ∧
      FitsIn T S ∧ (∀ ax ∈ A, get? T ax = get? S ax) ∧
      c.Lift (fun a a' => a.WF ∧ a'.WF ∧ FitsIn a.shape a'.shape ∧ ∀ e, a'.atB e = a.atB e) c' := by
  have hbw : WF (shapeBase S A) := wf_union wf_nil _
  have hcw : WF Sc := shape_wf c hw Sc hc
  have hpw : ∀ s ∈ [Sc, shapeBase S A], WF s := by simp [hcw, hbw]
  have hbS : ∀ ax n, get? (shapeBase S A) ax = some n → get? S ax = some n := by
    intro ax n h
    rw [get?_shapeBase S A ax hA] at h
    split at h
    · exact h
    · cases h
  obtain ⟨T0, hT0⟩ : ∃ T0, broadcastShapes [Sc, shapeBase S A] = .ok T0 := by
    cases hb : broadcastShapes [Sc, shapeBase S A] with
    | ok r => exact ⟨r, rfl⟩
    | error e =>
      obtain ⟨ax, m, n, ⟨s1, hs1, hm⟩, ⟨s2, hs2, hn⟩, hne, hm1, hn1⟩ :=
        (C01_broadcast_shapes_error_iff _ hpw).1 ⟨e, hb⟩
      have key : ∀ s ∈ [Sc, shapeBase S A], ∀ k, get? s ax = some k → k ≠ 1 → get? S ax = some k := by
        intro s hs k hk hk1
        simp only [List.mem_cons, List.not_mem_nil, or_false] at hs
        rcases hs with rfl | rfl
        · obtain ⟨k', hk', hkk⟩ := hfit ax k hk
          rcases hkk with rfl | rfl
          · exact hk'
          · exact absurd rfl hk1
        · exact hbS ax k hk
      have h1 := key s1 hs1 m hm hm1
      have h2 := key s2 hs2 n hn hn1
      rw [h1] at h2
      cases h2
      exact absurd rfl hne
  obtain ⟨hT0w, hT1, hT2⟩ := C01_broadcast_shapes_ok _ hpw T0 hT0
  have hfitT : ∀ s ∈ [Sc, shapeBase S A], FitsIn s T0 := by
    intro s hs ax m hm
    obtain ⟨n, hn⟩ := exists_get?_of_mem ((hT1 ax).2 ⟨s, hs, mem_keys_of_get? hm⟩)
    exact ⟨n, hn, (hT2 ax n hn).2 m ⟨s, hs, hm⟩⟩
  have hT0S : FitsIn T0 S := by
    intro ax n hn
    obtain ⟨⟨s, hs, hsn⟩, _⟩ := hT2 ax n hn
    simp only [List.mem_cons, List.not_mem_nil, or_false] at hs
    rcases hs with rfl | rfl
    · exact hfit ax n hsn
    · exact ⟨n, hbS ax n hsn, .inl rfl⟩
  have hT0A : ∀ ax ∈ A, get? T0 ax = get? S ax := by
    intro ax hax
    obtain ⟨n, hn⟩ := exists_get?_of_mem (hA hax)
    have hb : get? (shapeBase S A) ax = some n := by rw [get?_shapeBase S A ax hA, if_pos hax, hn]
    obtain ⟨k, hk, hnk⟩ := hfitT _ (by simp) ax n hb
    obtain ⟨n', hn', hkn⟩ := hT0S ax k hk
    rw [hn] at hn'
    cases hn'
    rw [hk, hn]
    rcases hnk with rfl | rfl
    · rfl
    · rcases hkn with rfl | rfl <;> rfl
  have hleaf : ∀ a ∈ c.leaves, ∃ r, a.broadcastTo T0 = .ok r ∧ r.WF ∧ r.shape = T0 ∧ ∀ e, r.at' e = a.atB e := by
    intro a ha
    rcases SA.C10_broadcast_to a (hw a ha) T0 hT0w with ⟨_, h⟩ | ⟨h, _⟩
    · exact h
    · exact absurd (fitsIn_trans (leaf_fits hw hc ha) (hfitT _ (by simp))) h
  obtain ⟨c', hc'⟩ := mapM_isOk' (fun a : SA α => a.broadcastTo T0) c (fun a ha => (hleaf a ha).imp (fun r h => h.1))
  have hlift := lift_with c c' (Q := fun a => a ∈ c.leaves) (fun a ha => ha) ((mapM_lift _ c c').1 hc')
  have hlift2 : c.Lift (fun a a' => a.WF ∧ a'.WF ∧ a'.shape = T0 ∧ FitsIn a.shape a'.shape ∧
      ∀ e, a'.atB e = a.atB e) c' := by
    refine lift_mono ?_ c c' hlift
    rintro a a' ⟨ha, hb⟩
    obtain ⟨r, hr, h1, h2, h3⟩ := hleaf a ha
    rw [hr] at hb
    cases hb
    have h4 : FitsIn a.shape a'.shape := by
      rw [h2]; exact fitsIn_trans (leaf_fits hw hc ha) (hfitT _ (by simp))
    exact ⟨hw a ha, h1, h2, h4, atB_of_broadcast (hw a ha) h4 h3⟩
  have hfor := lift_leaves c c' hlift2
  have hlen := hfor.length_eq
  have hall : ∀ a' ∈ c'.leaves, a'.WF ∧ a'.shape = T0 := by
    intro a' ha'
    obtain ⟨i, hi, rfl⟩ := List.mem_iff_getElem.1 ha'
    have := hfor.get (i := i) (by omega) hi
    exact ⟨this.2.1, this.2.2.1⟩
  have hw' : c'.WFLeaves := fun a' ha' => (hall a' ha').1
  have hf' : c'.Full := lift_full c c' hlift2 hf
  obtain ⟨T, hT, hTs⟩ : ∃ T, c'.shape = .ok T ∧ Same T0 T := by
    obtain ⟨r, hr, hs⟩ := broadcast_const hT0w (l := c'.leaves.map SA.shape) (by
      simpa using full_leaves c' hf') (by
      intro t ht
      obtain ⟨a', ha', rfl⟩ := List.mem_map.1 ht
      exact (hall a' ha').2)
    have h := shape_leaves c' hw'
    rw [hr] at h
    cases hb : c'.shape with
    | error e => rw [hb] at h; simp [SameOutcome] at h
    | ok r' =>
      rw [hb] at h
      exact ⟨r', rfl, fun ax => (hs ax).trans (h ax).symm⟩
  refine ⟨c', T, ?_, hw', hf', hT, shape_wf c' hw' T hT, ?_, ?_, ?_⟩
  · unfold broadcastBase broadcastTo
    simp only [hc, hT0, bind, Except.bind]
    exact hc'
  · intro ax m hm
    rw [← hTs ax] at hm
    exact hT0S ax m hm
  · intro ax hax
    rw [← hTs ax]
    exact hT0A ax hax
  · exact lift_mono (fun a a' h => ⟨h.1, h.2.1, h.2.2.2⟩) c c' hlift2

/-- The common scheme: every scalar is broadcast along the axes concerned, then the function for scalars
is called. -/
theorem deepAux_ok (axesOf : Shape → R (List String)) (op : SA α → R (SA β)) (S : Shape) (hSw : WF S)
    (A : List String) (hA : A ⊆ keys S)
    (hax : ∀ T, WF T → FitsIn T S → (∀ ax ∈ A, get? T ax = get? S ax) →
      ∃ A', axesOf T = .ok A' ∧ ∀ ax, ax ∈ A' ↔ ax ∈ A)
    (n : Nat) (c : Comp (SA α)) (hn : c.depth ≤ n) (hw : c.WFLeaves) (hf : c.Full) (T : Shape)
    (hT : c.shape = .ok T) (hTS : FitsIn T S) (hTA : ∀ ax ∈ A, get? T ax = get? S ax)
    (hop : ∀ a ∈ c.leaves, ∀ a', BroadcastAlong S A a a' → ∃ ra, op a' = .ok ra) :
    ∃ r, deepAux axesOf op n c = .ok r ∧
      c.Lift (fun a ra => ∃ a', BroadcastAlong S A a a' ∧ op a' = .ok ra) r := by
  induction n generalizing c T with
  | zero => have := depth_pos c; omega
  | succ n ih =>
    cases c with
    | leaf a =>
      simp only [shape, Except.ok.injEq] at hT
      have haw := hw a (by simp [leaves])
      have hb : BroadcastAlong S A a a :=
        ⟨haw, fun _ => rfl, by rw [hT]; exact hTS, fitsIn_refl _, by rw [hT]; exact hTA⟩
      obtain ⟨ra, hra⟩ := hop a (by simp [leaves]) a hb
      exact ⟨.leaf ra, by simp [deepAux, hra, bind, Except.bind], by simp only [Lift]; exact ⟨a, hb, hra⟩⟩
    | node cls cs =>
      have hTw := shape_wf _ hw T hT
      obtain ⟨A', hA', hAA⟩ := hax T hTw hTS hTA
      have hA'T : A' ⊆ keys T := by
        intro ax h
        have h1 := (hAA ax).1 h
        obtain ⟨k, hk⟩ := exists_get?_of_mem (hA h1)
        have := hTA ax h1
        rw [hk] at this
        exact mem_keys_of_get? this
      simp only [Full, fullL_iff] at hf
      have key : ∀ p ∈ cs, ∃ q : String × Comp (SA β),
          (do let c ← broadcastBase (shapeBase T A') p.2
              let r ← deepAux axesOf op n c
              Except.ok (p.1, r) : R (String × Comp (SA β))) = .ok q ∧ p.1 = q.1 ∧
            p.2.Lift (fun a ra => ∃ a', BroadcastAlong S A a a' ∧ op a' = .ok ra) q.2 := by
        intro p hp
        have hpl : ∀ a ∈ p.2.leaves, a ∈ (Comp.node cls cs).leaves := fun a ha => by
          simp only [leaves]; exact mem_leavesL.2 ⟨p, hp, ha⟩
        have hpw : p.2.WFLeaves := fun a ha => hw a (hpl a ha)
        obtain ⟨Sc, hSc⟩ : ∃ Sc, p.2.shape = .ok Sc := by
          simp only [shape, bind, Except.bind] at hT
          cases hsh : Comp.shapes cs with
          | error e => rw [hsh] at hT; simp at hT
          | ok ss =>
            rw [shapes_ok] at hsh
            obtain ⟨i, hi, rfl⟩ := List.mem_iff_getElem.1 hp
            have hl := hsh.length_eq
            exact ⟨_, hsh.get (i := i) hi (by omega)⟩
        have hScT : FitsIn Sc T := by
          simp only [shape, bind, Except.bind] at hT
          cases hsh : Comp.shapes cs with
          | error e => rw [hsh] at hT; simp at hT
          | ok ss =>
            rw [hsh] at hT
            simp only at hT
            rw [shapes_ok] at hsh
            obtain ⟨i, hi, rfl⟩ := List.mem_iff_getElem.1 hp
            have hl := hsh.length_eq
            have h1 := hsh.get (i := i) hi (by omega)
            simp only [List.get_eq_getElem, hSc, Except.ok.injEq] at h1
            have hssw : ∀ s ∈ ss, WF s := by
              intro s hs
              obtain ⟨j, hj, rfl⟩ := List.mem_iff_getElem.1 hs
              refine shape_wf _ ?_ _ (hsh.get (i := j) (by omega) hj)
              intro a ha
              exact hw a (by simp only [leaves]; exact mem_leavesL.2 ⟨_, List.get_mem _ _, ha⟩)
            obtain ⟨_, h2, h3⟩ := C01_broadcast_shapes_ok ss hssw T hT
            intro ax m hm
            have hin : Sc ∈ ss := by rw [h1]; exact List.getElem_mem _
            obtain ⟨k, hk⟩ := exists_get?_of_mem ((h2 ax).2 ⟨Sc, hin, mem_keys_of_get? hm⟩)
            exact ⟨k, hk, (h3 ax k hk).2 m ⟨Sc, hin, hm⟩⟩
        obtain ⟨c', T', hb, hw', hf', hT', hT'w, hT'T, hT'A, hl'⟩ :=
          broadcastBase_ok hpw (hf.2 p hp) hTw hSc hScT hA'T
        have hdep : c'.depth ≤ n := by
          rw [← lift_depth _ _ hl']
          simp only [depth] at hn
          have := depth_le_of_mem hp
          omega
        have hfor := lift_leaves _ _ hl'
        have hTA' : ∀ ax ∈ A, get? T' ax = get? S ax := fun ax h => by
          rw [hT'A ax ((hAA ax).2 h), hTA ax h]
        have hBA : ∀ a b a' : SA α, (a.WF ∧ b.WF ∧ FitsIn a.shape b.shape ∧ ∀ e, b.atB e = a.atB e) →
            BroadcastAlong S A b a' → BroadcastAlong S A a a' := by
          rintro a b a' ⟨_, _, h1, h2⟩ ⟨h3, h4, h5, h6, h7⟩
          exact ⟨h3, fun e => (h4 e).trans (h2 e), h5, fitsIn_trans h1 h6, h7⟩
        obtain ⟨r, hr, hlr⟩ := ih c' hdep hw' hf' T' hT' (fitsIn_trans hT'T hTS) hTA' (by
          intro b hb' a' ha'
          obtain ⟨i, hi, rfl⟩ := List.mem_iff_getElem.1 hb'
          have hlen := hfor.length_eq
          have h1 := hfor.get (i := i) (by omega) hi
          exact hop _ (hpl _ (List.get_mem _ ⟨i, by omega⟩)) a' (hBA _ _ _ h1 ha'))
        refine ⟨(p.1, r), by simp [hb, hr, bind, Except.bind], rfl, ?_⟩
        refine lift_mono ?_ _ _ (lift_trans _ _ _ hl' hlr)
        rintro a ra ⟨b, h1, a', h2, h3⟩
        exact ⟨a', hBA _ _ _ h1 h2, h3⟩
      obtain ⟨qs, hqs⟩ := exists_forall₂ key
      have hm : cs.mapM (fun p => do
          let c ← broadcastBase (shapeBase T A') p.2
          let r ← deepAux axesOf op n c
          Except.ok (p.1, r) : _ → R (String × Comp (SA β))) = .ok qs := by
        clear * - hqs
        induction hqs with
        | nil => rfl
        | cons h1 _ ihq =>
          rw [List.mapM_cons, h1.1, ihq]
          rfl
      refine ⟨.node cls qs, ?_, ?_⟩
      · simp only [deepAux, hT, hA', bind, Except.bind] at hm ⊢
        rw [hm]
      · simp only [Lift, liftL_iff, true_and]
        exact hqs.imp (fun _ _ h => h.2)

/-! ### C37: reductions -/

/-- Specification: an enumeration of the named indices which agree with `e` outside of `A` and which are
in range of the shape `S` along the axes `A`. -/
def SlabOf (S : Shape) (A : List String) (e : String → Nat) (l : List (String → Nat)) : Prop :=
  l.Nodup ∧ ∀ e', e' ∈ l ↔ (∀ ax ∈ A, ∃ n, get? S ax = some n ∧ e' ax < n) ∧ ∀ ax, ax ∉ A → e' ax = e ax

/-- the reduction of a broadcast scalar, in terms of the original one -/
theorem reduce_broadcast {S : Shape} {A : List String} (hAn : A.Nodup) (hA : A ⊆ keys S) {need : Bool} {f : List α → β}
    {kd : Bool} (hne : need = true → ∀ ax ∈ A, get? S ax ≠ some 0) {a a' : SA α}
    (hb : BroadcastAlong S A a a') :
    ∃ ra, a'.reduce need f (some A) kd none none = .ok ra ∧ ra.WF ∧
      (∀ ax ∈ A, get? ra.shape ax = if kd then some 1 else none) ∧
      (∀ ax m, ax ∉ A → get? ra.shape ax = some m → ∃ n, get? S ax = some n ∧ (m = n ∨ m = 1)) ∧
      ∀ e, ∃ l, SlabOf S A e l ∧ ra.atB e = f (l.map a.atB) := by
  obtain ⟨hw, hat, hfS, _, hAS⟩ := hb
  have hsub : A ⊆ a'.axes := by
    intro ax h
    rw [← SA.keys_shape hw]
    obtain ⟨n, hn⟩ := exists_get?_of_mem (hA h)
    exact mem_keys_of_get? ((hAS ax h).trans hn)
  obtain ⟨ra, h1, h2, h3, h4, h5⟩ := SA.C17_reduce a' hw none (by intro w h; cases h) A hAn hsub need f kd (by
    rintro ⟨hn, ⟨ax, hax, h0⟩, _⟩
    exact hne hn ax hax ((hAS ax hax).symm.trans h0))
  refine ⟨ra, h1, h2, fun ax hax => by rw [h4, if_pos hax], ?_, ?_⟩
  · intro ax m hax hm
    rw [h4, if_neg hax] at hm
    exact hfS ax m hm
  · intro e
    obtain ⟨l, ⟨hl1, hl2⟩, hl3⟩ := h5 (fun ax => if get? ra.shape ax = some 1 then 0 else e ax)
    let m : (String → Nat) → String → Nat := fun e' ax => if ax ∈ A then e' ax else e ax
    have hval : ∀ e' ∈ l, a'.at' e' = a.atB (m e') := by
      intro e' he'
      obtain ⟨h6, h7⟩ := (hl2 e').1 he'
      rw [← hat]
      unfold SA.atB
      apply SA.at'_congr
      intro ax hax
      by_cases hA' : ax ∈ A
      · obtain ⟨n, hn, hlt⟩ := h6 ax hA'
        simp only [m, if_pos hA', hn, Option.some.injEq]
        split
        · omega
        · rfl
      · rw [h7 ax hA']
        simp only [m, if_neg hA', h4 ax]
    refine ⟨l.map m, ⟨?_, ?_⟩, ?_⟩
    · refine (List.nodup_map_iff_inj_on hl1).2 ?_
      intro e1 he1 e2 he2 h
      funext ax
      by_cases hA' : ax ∈ A
      · have := congrFun h ax
        simpa [m, hA'] using this
      · rw [((hl2 e1).1 he1).2 ax hA', ((hl2 e2).1 he2).2 ax hA']
    · intro e'
      rw [List.mem_map]
      constructor
      · rintro ⟨e1, he1, rfl⟩
        obtain ⟨h6, h7⟩ := (hl2 e1).1 he1
        refine ⟨fun ax hax => ?_, fun ax hax => by simp [m, hax]⟩
        obtain ⟨n, hn, hlt⟩ := h6 ax hax
        exact ⟨n, (hAS ax hax).symm.trans hn, by simpa [m, hax] using hlt⟩
      · rintro ⟨h6, h7⟩
        refine ⟨fun ax => if ax ∈ A then e' ax else if get? ra.shape ax = some 1 then 0 else e ax, ?_, ?_⟩
        · rw [hl2]
          refine ⟨fun ax hax => ?_, fun ax hax => by simp [hax]⟩
          obtain ⟨n, hn, hlt⟩ := h6 ax hax
          exact ⟨n, (hAS ax hax).trans hn, by simpa [hax] using hlt⟩
        · funext ax
          by_cases hA' : ax ∈ A
          · simp [m, hA']
          · simp [m, hA', h7 ax hA']
    · show ra.at' _ = _
      rw [hl3, List.map_map]
      congr 1
      have : l.filter (SA.selected none) = l := by
        rw [List.filter_eq_self]; intro _ _; rfl
      rw [this]
      exact List.map_congr_left hval

/-- **C37** (reductions). Reducing a vector of shape `S` over the axes `A` reduces each scalar component
after broadcasting it along `A`: its element at a named index is the reduction of the elements (read
with broadcasting) of this component over all positions of `S` along `A`, so that a component
which lacks one of the axes counts as constant along it. -/
theorem C37_reduce (v : Comp (SA α)) (hw : v.WFLeaves) (hf : v.Full) (S : Shape) (hS : v.shape = .ok S)
    (A : List String) (hAn : A.Nodup) (hA : A ⊆ keys S) (need : Bool) (f : List α → β) (kd : Bool)
    (hne : need = true → ∀ ax ∈ A, get? S ax ≠ some 0) :
    ∃ r, v.reduce need f (some A) kd = .ok r ∧
      v.Lift (fun a ra => ra.WF ∧
        (∃ a', BroadcastAlong S A a a' ∧ a'.reduce need f (some A) kd none none = .ok ra) ∧
        (∀ ax ∈ A, get? ra.shape ax = if kd then some 1 else none) ∧
        (∀ ax m, ax ∉ A → get? ra.shape ax = some m → ∃ n, get? S ax = some n ∧ (m = n ∨ m = 1)) ∧
        ∀ e, ∃ l, SlabOf S A e l ∧ ra.atB e = f (l.map a.atB)) r := by
  obtain ⟨r, hr, hl⟩ := deepAux_ok (reduceAxes (some A)) (fun a => a.reduce need f (some A) kd none none) S
    (shape_wf v hw S hS) A hA (by
      intro T hT hTS hTA
      refine ⟨A, ?_, fun _ => Iff.rfl⟩
      have : A.all (· ∈ keys T) = true := by
        simp only [List.all_eq_true, decide_eq_true_eq]
        intro ax hax
        obtain ⟨n, hn⟩ := exists_get?_of_mem (hA hax)
        exact mem_keys_of_get? ((hTA ax hax).trans hn)
      simp only [reduceAxes, axisNormalized, this]
      rfl) v.depth v le_rfl hw hf S hS (fitsIn_refl S) (fun _ _ => rfl)
    (fun a _ a' hb => (reduce_broadcast hAn hA hne hb).imp (fun _ h => h.1))
  refine ⟨r, hr, lift_mono ?_ v r hl⟩
  rintro a ra ⟨a', hb, hra⟩
  obtain ⟨ra', h1, h2, h3, h4, h5⟩ := reduce_broadcast (need := need) (f := f) (kd := kd) hAn hA hne hb
  rw [hra] at h1
  cases h1
  exact ⟨h2, ⟨a', hb, hra⟩, h3, h4, h5⟩

/-- **C37** (`axis=None`). All the axes of the vector are reduced, also for components which lack some
of them. -/
theorem C37_reduce_none (v : Comp (SA α)) (hw : v.WFLeaves) (hf : v.Full) (S : Shape) (hS : v.shape = .ok S)
    (need : Bool) (f : List α → β) (kd : Bool) (hne : need = true → ∀ ax, get? S ax ≠ some 0) :
    ∃ r, v.reduce need f none kd = .ok r ∧
      v.Lift (fun a ra => ra.WF ∧ (kd = false → ra.axes = []) ∧
        ∀ e, ∃ l, SlabOf S (keys S) e l ∧ ra.atB e = f (l.map a.atB)) r := by
  have hSw := shape_wf v hw S hS
  have hleaf : ∀ a a' : SA α, BroadcastAlong S (keys S) a a' → ∃ ra, a'.reduce need f none kd none none = .ok ra ∧
      ra.WF ∧ (kd = false → ra.axes = []) ∧ ∀ e, ∃ l, SlabOf S (keys S) e l ∧ ra.atB e = f (l.map a.atB) := by
    intro a a' hb
    have hmem : ∀ ax, ax ∈ a'.axes ↔ ax ∈ keys S := by
      intro ax
      rw [← SA.keys_shape hb.1]
      constructor
      · intro h
        obtain ⟨m, hm⟩ := exists_get?_of_mem h
        obtain ⟨n, hn, _⟩ := hb.2.2.1 ax m hm
        exact mem_keys_of_get? hn
      · intro h
        obtain ⟨n, hn⟩ := exists_get?_of_mem h
        exact mem_keys_of_get? ((hb.2.2.2.2 ax h).trans hn)
    have hb' : BroadcastAlong S a'.axes a a' :=
      ⟨hb.1, hb.2.1, hb.2.2.1, hb.2.2.2.1, fun ax h => hb.2.2.2.2 ax ((hmem ax).1 h)⟩
    obtain ⟨ra, h1, h2, h3, h4, h5⟩ := reduce_broadcast (need := need) (f := f) (kd := kd) hb.1.2
      (fun ax h => (hmem ax).1 h) (fun h ax _ => hne h ax) hb'
    refine ⟨ra, by rw [SA.C17_axis_none a' hb.1 none (by intro w h; cases h)]; exact h1, h2, ?_, fun e => ?_⟩
    · intro hk
      subst hk
      rw [← SA.keys_shape h2]
      rw [List.eq_nil_iff_forall_not_mem]
      intro ax hax
      obtain ⟨m, hm⟩ := exists_get?_of_mem hax
      by_cases hA' : ax ∈ a'.axes
      · rw [h3 ax hA'] at hm; simp at hm
      · obtain ⟨n, hn, _⟩ := h4 ax m hA' hm
        exact hA' ((hmem ax).2 (mem_keys_of_get? hn))
    · obtain ⟨l, hl, hv⟩ := h5 e
      refine ⟨l, ⟨hl.1, fun e' => ?_⟩, hv⟩
      rw [hl.2]
      simp only [hmem]
  obtain ⟨r, hr, hl⟩ := deepAux_ok (reduceAxes none) (fun a => a.reduce need f none kd none none) S
    hSw (keys S) (fun _ h => h) (by
      intro T hT hTS hTA
      refine ⟨keys T, by simp [reduceAxes, axisNormalized], fun ax => ⟨fun h => ?_, fun h => ?_⟩⟩
      · obtain ⟨m, hm⟩ := exists_get?_of_mem h
        obtain ⟨n, hn, _⟩ := hTS ax m hm
        exact mem_keys_of_get? hn
      · obtain ⟨n, hn⟩ := exists_get?_of_mem h
        exact mem_keys_of_get? ((hTA ax h).trans hn)) v.depth v le_rfl hw hf S hS (fitsIn_refl S) (fun _ _ => rfl)
    (fun a _ a' hb => (hleaf a a' hb).imp (fun _ h => h.1))
  refine ⟨r, hr, lift_mono ?_ v r hl⟩
  rintro a ra ⟨a', hb, hra⟩
  obtain ⟨ra', h1, h2⟩ := hleaf a a' hb
  rw [hra] at h1
  cases h1
  exact h2

/-- **C37** (errors). An axis which no component has raises `ValueError`. -/
theorem C37_reduce_error (cls : String) (cs : List (String × Comp (SA α))) (S : Shape)
    (hS : (Comp.node cls cs).shape = .ok S) (A : List String) (hA : ¬ A ⊆ keys S) (need : Bool)
    (f : List α → β) (kd : Bool) : (Comp.node cls cs).reduce need f (some A) kd = .error .valueError := by
  have : A.all (· ∈ keys S) = false := by
    rw [← Bool.not_eq_true, List.all_eq_true]
    intro h
    apply hA
    intro x hx
    simpa using h x hx
  simp only [reduce, deep, depth, deepAux, hS, reduceAxes, axisNormalized, this, bind, Except.bind]
  rfl

/-! ### C37: masks -/

/-- **C37** (boolean masks). `v[mask]` for a mask along axes of the vector (with its sizes): the true
elements of the mask are enumerated once for the whole vector, and each component of the result is
read from the component of `v` at the selected position, also when this component lacks axes of
the mask. -/
theorem C37_mask (v : Comp (SA α)) (hw : v.WFLeaves) (hf : v.Full) (S : Shape) (hS : v.shape = .ok S)
    (mask : SA Bool) (hm : mask.WF) (hsize : ∀ ax ∈ mask.axes, get? mask.shape ax = get? S ax)
    (s : String) (hs : SA.maskAxis mask = .ok s) (hnew : ∀ ax ∈ keys S, ax ∉ mask.axes → ax ≠ s) :
    ∃ (r : Comp (SA α)) (n : Nat) (sel : Nat → String → Nat), v.getMask mask = .ok r ∧
      (∀ k < n, InRange mask.shape (sel k) ∧ mask.at' (sel k) = true) ∧
      (∀ k k', k < k' → k' < n → List.Lex (· < ·) (mask.axes.map (sel k)) (mask.axes.map (sel k'))) ∧
      (∀ e, InRange mask.shape e → mask.at' e = true → ∃ k < n, ∀ ax ∈ mask.axes, sel k ax = e ax) ∧
      v.Lift (fun a ra => ra.WF ∧ get? ra.shape s = some n ∧
        ∀ e, e s < n → ra.atB e = a.atB (fun ax => if ax ∈ mask.axes then sel (e s) ax else e ax)) r := by
  have hSw := shape_wf v hw S hS
  have hA : mask.axes ⊆ keys S := by
    intro ax hax
    rw [← SA.keys_shape hm] at hax
    obtain ⟨n, hn⟩ := exists_get?_of_mem hax
    have := hsize ax (by rw [← SA.keys_shape hm]; exact hax)
    exact mem_keys_of_get? (this.symm.trans hn)
  have hleaf : ∀ a a' : SA α, BroadcastAlong S mask.axes a a' → ∃ ra, a'.getMask mask = .ok ra ∧ ra.WF ∧
      get? ra.shape s = some mask.nd.trues.length ∧
      ∀ e, e s < mask.nd.trues.length →
        ra.atB e = a.atB (fun ax => if ax ∈ mask.axes then SA.trueEnv mask (e s) ax else e ax) := by
    intro a a' hb
    obtain ⟨hw', hat, hfS, _, hAS⟩ := hb
    have hsub : mask.axes ⊆ a'.axes := by
      intro ax h
      rw [← SA.keys_shape hw']
      obtain ⟨n, hn⟩ := exists_get?_of_mem (hA h)
      exact mem_keys_of_get? ((hAS ax h).trans hn)
    obtain ⟨s', hs', _, h2⟩ := ((SA.getMask_main hw' hm).2 hsub).2
      (fun ax hax => (hsize ax hax).trans (hAS ax hax).symm)
    rw [hs] at hs'
    cases hs'
    have hns : s ∉ a'.axes.filter (· ∉ mask.axes) := by
      intro h
      simp only [List.mem_filter, decide_eq_true_eq] at h
      rw [← SA.keys_shape hw'] at h
      obtain ⟨m, hm'⟩ := exists_get?_of_mem h.1
      obtain ⟨n, hn, _⟩ := hfS s m hm'
      exact hnew s (mem_keys_of_get? hn) h.2 rfl
    obtain ⟨ra, hra, hrw, hax, hsz, hszs, hel⟩ := h2 hns
    refine ⟨ra, hra, hrw, hszs, fun e he => ?_⟩
    rw [← hat]
    unfold SA.atB
    have hes : (if get? ra.shape s = some 1 then 0 else e s) = e s := by
      rw [hszs]
      split
      · next h => simp only [Option.some.injEq] at h; omega
      · rfl
    rw [hel _ (by simp only [hes]; exact he)]
    apply SA.at'_congr
    intro ax hax'
    unfold SA.maskIdx
    simp only [hes]
    by_cases hmx : ax ∈ mask.axes
    · simp only [if_pos hmx]
      obtain ⟨n, hn⟩ := exists_get?_of_mem (show ax ∈ keys mask.shape by rw [SA.keys_shape hm]; exact hmx)
      have hlt := ((SA.trues_spec hm).1 (e s) he).1 ax n hn
      rw [hAS ax hmx, ← hsize ax hmx, hn]
      split
      · next h => simp only [Option.some.injEq] at h; omega
      · rfl
    · simp only [if_neg hmx]
      rw [hsz ax hax' hmx]
  obtain ⟨r, hr, hl⟩ := deepAux_ok (fun shape => .ok (mask.shape.keys.filter (· ∈ shape.keys)))
    (fun a => a.getMask mask) S hSw mask.axes hA (by
      intro T hT hTS hTA
      refine ⟨_, rfl, fun ax => ?_⟩
      simp only [List.mem_filter, decide_eq_true_eq, SA.keys_shape hm, and_iff_left_iff_imp]
      intro h
      obtain ⟨n, hn⟩ := exists_get?_of_mem (hA h)
      exact mem_keys_of_get? ((hTA ax h).trans hn)) v.depth v le_rfl hw hf S hS (fitsIn_refl S) (fun _ _ => rfl)
    (fun a _ a' hb => (hleaf a a' hb).imp (fun _ h => h.1))
  obtain ⟨t1, t2, t3⟩ := SA.trues_spec hm
  refine ⟨r, _, SA.trueEnv mask, hr, t1, t2, t3, lift_mono ?_ v r hl⟩
  rintro a ra ⟨a', hb, hra⟩
  obtain ⟨ra', h1, h2⟩ := hleaf a a' hb
  rw [hra] at h1
  cases h1
  exact h2

/-! ### C37: integers and slices -/

/-- Specification: along the indexed axes, no component is broadcast: each component which has an indexed
axis has it with the size of the vector. -/
def Agrees (v : Comp (SA α)) (S : Shape) (item : Dict IndexVal) : Prop :=
  ∀ a ∈ v.leaves, ∀ ax ∈ keys item, ∀ m, get? a.shape ax = some m → get? S ax = some m

/-- **C37** (integers and slices). If no component has size 1 along an indexed axis where the vector has
another size, `v[item]` succeeds whenever the item is valid for the shape of the vector; the
component at a named index of the result is the component of `v` at the substituted index, and the
shape of the result is the shape of the vector with the indexed axes dropped or shortened. -/
theorem C37_getitem_partial (v : Comp (SA α)) (hw : v.WFLeaves) (S : Shape) (hS : v.shape = .ok S)
    (item : Dict IndexVal) (hi : SA.BasicItem item) (hsteps : SA.StepsOk S item) (hvalid : SA.ValidItem S item)
    (hagree : Agrees v S item) :
    ∃ r S', v.getitem item = .ok r ∧ r.WFLeaves ∧ r.shape = .ok S' ∧
      (∀ ax n, get? S' ax = some n ↔ ax ∈ keys S ∧ ¬ SA.IntAt item ax ∧ n = SA.selLen S item ax) ∧
      v.Lift (fun a ra => a.getitem item = .ok ra ∧
        ∀ e, InRange S' e → ra.atB e = a.atB (SA.selIdx S item e)) r := by
  -- sizes
  have hfit : ∀ a ∈ v.leaves, FitsIn a.shape S := fun a ha => leaf_fits hw hS ha
  have hkey : ∀ ax x, get? item ax = some x → ax ∈ keys item := fun ax x h => mem_keys_of_get? h
  have hst : ∀ a ∈ v.leaves, SA.StepsOk a.shape item := by
    intro a ha ax hax sl hsl
    obtain ⟨m, hm⟩ := exists_get?_of_mem hax
    obtain ⟨n, hn, _⟩ := hfit a ha ax m hm
    exact hsteps ax (mem_keys_of_get? hn) sl hsl
  have hva : ∀ a ∈ v.leaves, SA.ValidItem a.shape item := by
    intro a ha ax n hn
    refine ⟨fun i h => (hvalid ax n (hagree a ha ax (hkey _ _ h) n hn)).1 i h, fun b h => absurd h (hi.2 ax b)⟩
  have hsel : ∀ a ∈ v.leaves, ∀ ax m, get? a.shape ax = some m →
      (SA.selLen a.shape item ax = SA.selLen S item ax ∨ SA.selLen a.shape item ax = 1) ∧
      (get? S ax = some m → SA.selLen a.shape item ax = SA.selLen S item ax) := by
    intro a ha ax m hm
    have h2 : get? S ax = some m → SA.selLen a.shape item ax = SA.selLen S item ax := by
      intro h
      unfold SA.selLen
      rw [h, hm]
    refine ⟨?_, h2⟩
    by_cases hk : ax ∈ keys item
    · exact .inl (h2 (hagree a ha ax hk m hm))
    · obtain ⟨n, hn, hmn⟩ := hfit a ha ax m hm
      rcases hmn with rfl | rfl
      · exact .inl (h2 hn)
      · right
        unfold SA.selLen
        rw [get?_eq_none.2 hk, hm]
        rfl
  -- the components
  have hleaf := fun a ha => SA.C13_getitem_basic a (hw a ha) item hi (hst a ha) (hva a ha)
  obtain ⟨r, hr⟩ := mapM_isOk' (fun a : SA α => a.getitem item) v (fun a ha => (hleaf a ha).imp (fun _ h => h.1))
  have hlift := lift_with v r (Q := fun a => a ∈ v.leaves) (fun a ha => ha) ((mapM_lift _ v r).1 hr)
  have hfor := lift_leaves v r hlift
  have hlen := hfor.length_eq
  have hback : ∀ ra ∈ r.leaves, ∃ a ∈ v.leaves, a.getitem item = .ok ra := by
    intro ra h
    obtain ⟨i, hi', rfl⟩ := List.mem_iff_getElem.1 h
    exact ⟨_, List.get_mem _ ⟨i, by omega⟩, (hfor.get (i := i) (by omega) hi').2⟩
  have hforth : ∀ a ∈ v.leaves, ∃ ra ∈ r.leaves, a.getitem item = .ok ra := by
    intro a h
    obtain ⟨i, hi', rfl⟩ := List.mem_iff_getElem.1 h
    exact ⟨_, List.get_mem _ ⟨i, by omega⟩, (hfor.get (i := i) hi' (by omega)).2⟩
  have hspec : ∀ a ∈ v.leaves, ∀ ra, a.getitem item = .ok ra → ra.WF ∧
      (∀ ax, ax ∈ keys ra.shape ↔ ax ∈ keys a.shape ∧ ¬ SA.IntAt item ax) ∧
      (∀ ax m, get? ra.shape ax = some m → m = SA.selLen a.shape item ax) ∧
      ∀ e, ra.at' e = a.at' (SA.selIdx a.shape item e) := by
    intro a ha ra hra
    obtain ⟨ra', h1, h2, h3, _, h5, h6⟩ := hleaf a ha
    rw [hra] at h1
    cases h1
    refine ⟨h2, ?_, ?_, h6⟩
    · intro ax
      rw [SA.keys_shape h2, SA.keys_shape (hw a ha)]
      exact h3 ax
    · intro ax m hm
      have := h5 ax (by rw [← SA.keys_shape h2]; exact mem_keys_of_get? hm)
      rw [hm] at this
      cases this
      rfl
  have hrw : r.WFLeaves := by
    intro ra h
    obtain ⟨a, ha, hra⟩ := hback ra h
    exact (hspec a ha ra hra).1
  -- sizes of the leaves of the result
  have hsizes : ∀ ax m, HasSize (r.leaves.map SA.shape) ax m → (m = SA.selLen S item ax ∨ m = 1) ∧
      ax ∈ keys S ∧ ¬ SA.IntAt item ax := by
    rintro ax m ⟨s, hs, hm⟩
    obtain ⟨ra, hra, rfl⟩ := List.mem_map.1 hs
    obtain ⟨a, ha, hg⟩ := hback ra hra
    obtain ⟨_, h1, h2, _⟩ := hspec a ha ra hg
    have h3 := (h1 ax).1 (mem_keys_of_get? hm)
    obtain ⟨n, hn⟩ := exists_get?_of_mem h3.1
    obtain ⟨n', hn', _⟩ := hfit a ha ax n hn
    have h4 := (hsel a ha ax n hn).1
    rw [← h2 ax m hm] at h4
    exact ⟨h4, mem_keys_of_get? hn', h3.2⟩
  have hattain : ∀ ax, ax ∈ keys S → ¬ SA.IntAt item ax →
      HasSize (r.leaves.map SA.shape) ax (SA.selLen S item ax) := by
    intro ax hax hint
    obtain ⟨n, hn⟩ := exists_get?_of_mem hax
    have hsl := shape_leaves v hw
    rw [hS] at hsl
    cases hb : broadcastShapes (v.leaves.map SA.shape) with
    | error e => rw [hb] at hsl; simp [SameOutcome] at hsl
    | ok T =>
      rw [hb] at hsl
      obtain ⟨_, _, h2⟩ := C01_broadcast_shapes_ok _ hw.shapes T hb
      obtain ⟨⟨s, hs, hsn⟩, _⟩ := h2 ax n ((hsl ax).symm.trans hn)
      obtain ⟨a, ha, rfl⟩ := List.mem_map.1 hs
      obtain ⟨ra, hra, hg⟩ := hforth a ha
      obtain ⟨_, h1, h3, _⟩ := hspec a ha ra hg
      obtain ⟨m, hm⟩ := exists_get?_of_mem ((h1 ax).2 ⟨mem_keys_of_get? hsn, hint⟩)
      have h4 := (hsel a ha ax n hsn).2 hn
      rw [← h3 ax m hm] at h4
      exact ⟨_, List.mem_map.2 ⟨ra, hra, rfl⟩, by rw [hm, h4]⟩
  obtain ⟨S', hS', hS'2⟩ : ∃ S', r.shape = .ok S' ∧
      ∀ ax n, get? S' ax = some n ↔ ax ∈ keys S ∧ ¬ SA.IntAt item ax ∧ n = SA.selLen S item ax := by
    have hsl := shape_leaves r hrw
    cases hb : broadcastShapes (r.leaves.map SA.shape) with
    | error e =>
      obtain ⟨ax, m, n, hm, hn, hne, hm1, hn1⟩ := (C01_broadcast_shapes_error_iff _ hrw.shapes).1 ⟨e, hb⟩
      have h1 := (hsizes ax m hm).1.resolve_right hm1
      have h2 := (hsizes ax n hn).1.resolve_right hn1
      exact absurd (h1.trans h2.symm) hne
    | ok T =>
      rw [hb] at hsl
      cases hrs : r.shape with
      | error e => rw [hrs] at hsl; simp [SameOutcome] at hsl
      | ok S' =>
        rw [hrs] at hsl
        refine ⟨S', rfl, fun ax k => ?_⟩
        rw [hsl ax]
        obtain ⟨_, h1, h2⟩ := C01_broadcast_shapes_ok _ hrw.shapes T hb
        have hval : ∀ k, get? T ax = some k → ax ∈ keys S ∧ ¬ SA.IntAt item ax ∧ k = SA.selLen S item ax := by
          intro k hk
          obtain ⟨h3, h4⟩ := h2 ax k hk
          obtain ⟨h5, h6, h7⟩ := hsizes ax k h3
          refine ⟨h6, h7, ?_⟩
          rcases h5 with h5 | h5
          · exact h5
          · rcases h4 _ (hattain ax h6 h7) with h8 | h8
            · exact h8.symm
            · rw [h5, h8]
        refine ⟨hval k, ?_⟩
        rintro ⟨h3, h4, rfl⟩
        obtain ⟨s, hs, hsn⟩ := hattain ax h3 h4
        obtain ⟨k, hk⟩ := exists_get?_of_mem ((h1 ax).2 ⟨s, hs, mem_keys_of_get? hsn⟩)
        rw [hk, (hval k hk).2.2]
  refine ⟨r, S', ?_, hrw, hS', hS'2, ?_⟩
  · unfold getitem
    simp only [hS, bind, Except.bind]
    exact hr
  · refine lift_mono ?_ v r hlift
    rintro a ra ⟨ha, hra⟩
    refine ⟨hra, fun e he => ?_⟩
    obtain ⟨hraw, h1, h2, h3⟩ := hspec a ha ra hra
    have hfitr : FitsIn ra.shape S' := leaf_fits hrw hS' (by
      obtain ⟨ra', hra', hg⟩ := hforth a ha
      rw [hra] at hg
      cases hg
      exact hra')
    have hrange : InRange ra.shape (fun ax => if get? ra.shape ax = some 1 then 0 else e ax) := by
      intro ax m hm
      simp only [hm, Option.some.injEq]
      split
      · omega
      · obtain ⟨n, hn, hmn⟩ := hfitr ax m hm
        have := he ax n hn
        rcases hmn with rfl | rfl
        · exact this
        · omega
    have hreads := SA.C13_reads_in_range a (hw a ha) item hi (hst a ha) (hva a ha) ra hra _ hrange
    unfold SA.atB
    rw [h3]
    apply SA.at'_congr
    intro ax hax
    rw [← SA.keys_shape (hw a ha)] at hax
    obtain ⟨m, hm⟩ := exists_get?_of_mem hax
    have hlt := hreads ax m hm
    by_cases hm1 : m = 1
    · subst hm1
      rw [if_pos hm]
      omega
    · rw [if_neg (by rw [hm]; simpa using hm1)]
      unfold SA.selIdx
      cases hit : get? item ax with
      | none =>
        simp only
        have hk : ax ∈ keys ra.shape := (h1 ax).2 ⟨hax, by rintro ⟨i, h⟩; rw [hit] at h; cases h⟩
        obtain ⟨k, hk'⟩ := exists_get?_of_mem hk
        have h4 := h2 ax k hk'
        unfold SA.selLen at h4
        rw [hit, hm] at h4
        simp only [Option.getD_some] at h4
        rw [if_neg (by rw [hk', h4]; simpa using hm1)]
      | some x =>
        have hSm := hagree a ha ax (hkey _ _ hit) m hm
        cases x with
        | int i => simp only [hm, hSm]
        | arr b => exact absurd hit (hi.2 ax b)
        | none =>
          simp only
          have hk : ax ∈ keys ra.shape := (h1 ax).2 ⟨hax, by rintro ⟨i, h⟩; rw [hit] at h; cases h⟩
          obtain ⟨k, hk'⟩ := exists_get?_of_mem hk
          have h4 := h2 ax k hk'
          unfold SA.selLen at h4
          rw [hit, hm] at h4
          simp only [Option.getD_some] at h4
          rw [if_neg (by rw [hk', h4]; simpa using hm1)]
        | slice sl =>
          simp only [hm, hSm, Option.getD_some]
          have hk : ax ∈ keys ra.shape := (h1 ax).2 ⟨hax, by rintro ⟨i, h⟩; rw [hit] at h; cases h⟩
          have hres : get? S' ax = some (SA.selLen S item ax) := by
            exact (hS'2 ax _).2 ⟨mem_keys_of_get? hSm, ((h1 ax).1 hk).2, rfl⟩
          obtain ⟨k, hk'⟩ := exists_get?_of_mem hk
          have h4 := h2 ax k hk'
          have h5 := (hsel a ha ax m hm).2 hSm
          have h6 := he ax _ hres
          rw [← h5, ← h4] at h6
          congr 1
          split
          · next h => rw [hk'] at h; simp only [Option.some.injEq] at h; omega
          · rfl

/-! ### Limits and examples -/

/-- component `x` has size 1 along `t`, component `y` has size 3 -/
def exS : Comp (SA Nat) := .node "Cartesian2d"
  [("x", .leaf ⟨["t"], ⟨[1], fun _ => 7⟩⟩), ("y", .leaf ⟨["t"], ⟨[3], fun i => i.getD 0 0⟩⟩)]

/-- **C37** is violated for components of size 1: the item is valid for the shape of the vector, but the
integer index raises `IndexError`, and the slice gives a vector whose components do not have a common
shape. -/
theorem C37_getitem_singleton_refuted :
    exS.shape = .ok [("t", 3)] ∧
    (SA.ValidItem [("t", 3)] [("t", .int 2)] ∧ (exS.getitem [("t", .int 2)]).isOk = false) ∧
    ∃ r, exS.getitem [("t", .slice ⟨some 1, none, none⟩)] = .ok r ∧ r.shape = .error .valueError := by
  refine ⟨by decide, ⟨?_, by decide⟩, ?_⟩
  · intro ax n h
    refine ⟨fun i hi => ?_, fun b hb => ?_⟩
    · simp only [get?_cons] at h hi
      split at h
      · next h' =>
        simp only [h', if_true] at hi
        cases hi; cases h; decide
      · simp [get?] at h
    · simp only [get?_cons] at hb
      split at hb
      · cases hb
      · simp [get?] at hb
  · refine ⟨_, rfl, by decide⟩

/-- a vector whose first component lacks the axis `t`, with a nested component -/
def exT : Comp (SA Nat) := .node "Spectral"
  [("w", .leaf ⟨["w"], ⟨[2], fun i => 5 * i.getD 0 0⟩⟩),
   ("p", .node "Cartesian2d" [("x", .leaf ⟨[], ⟨[], fun _ => 7⟩⟩),
     ("y", .leaf ⟨["t"], ⟨[3], fun i => i.getD 0 0⟩⟩)])]

example : exT.shape = .ok [("w", 2), ("t", 3)] := by decide
example : exT.Full ∧ (∀ a ∈ exT.leaves, a.axes.length = a.nd.ndim ∧ a.axes.Nodup) := by
  refine ⟨by simp [exT, Full, FullL], by decide⟩
/-- the values (row-major) at a path -/
def valuesAt (r : R (Comp (SA Nat))) (p : List String) : Option (List String × List Nat) :=
  match r with
  | .error _ => none
  | .ok r => (r.leafAt p).map (fun a => (a.axes, a.nd.toList))
example : valuesAt (exT.reduce false List.sum (some ["t"]) false) ["w"] = some (["w"], [0, 15]) := by decide
example : valuesAt (exT.reduce false List.sum (some ["t"]) false) ["p", "x"] = some ([], [21]) := by decide
example : valuesAt (exT.reduce false List.sum (some ["t"]) false) ["p", "y"] = some ([], [3]) := by decide
example : valuesAt (exT.reduce false List.sum none false) ["p", "y"] = some ([], [6]) := by decide
example : valuesAt (exT.getMask ⟨["t"], ND.vec [true, false, true]⟩) ["w"] = some (["w", "t"], [0, 0, 5, 5]) := by decide
example : valuesAt (exT.getMask ⟨["t"], ND.vec [true, false, true]⟩) ["p", "y"] = some (["t"], [0, 2]) := by decide
example : valuesAt (exT.getitem [("t", .slice ⟨some 1, none, none⟩), ("w", .int (-1))]) ["p", "y"] = some (["t"], [1, 2]) := by
  decide
example : valuesAt (exT.getitem [("t", .slice ⟨some 1, none, none⟩), ("w", .int (-1))]) ["w"] = some ([], [5]) := by decide
example : Agrees exT [("w", 2), ("t", 3)] [("t", .slice ⟨some 1, none, none⟩), ("w", .int (-1))] := by
  simp only [Agrees, exT, leaves, leavesL, List.cons_append, List.nil_append, List.append_nil, List.mem_cons,
    List.not_mem_nil, or_false, keys, List.map_cons, List.map_nil, forall_eq_or_imp, forall_eq]
  refine ⟨⟨?_, ?_⟩, ⟨?_, ?_⟩, ⟨?_, ?_⟩⟩ <;> intro m h <;> simp_all [SA.shape, get?]

end Comp
end NA
