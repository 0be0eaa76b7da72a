import Verif.Vector.Nary
import Verif.Props.FunctionStructure

/-!
# Rearranging vectors (C76)
-/

namespace NA
open Dict Comp
open SA (FitsIn InRange)

namespace Comp
variable {α β γ δ ρ : Type}

/-! ### Specification -/

/-- A vector of well-formed scalars, without empty vectors or repeated names inside, whose components broadcast to the shape
`S`. -/
structure Fine (v : Comp (SA α)) (S : Shape) : Prop where
  wf : v.WFLeaves
  full : v.Full
  dicts : v.Dicts
  shape : v.shape = .ok S

/-! ### Preparing the arguments -/

theorem bs_const {s : Shape} (hw : WF s) {l : List Shape} (hne : l ≠ []) (hl : ∀ t ∈ l, t = s) :
    broadcastShapes l = .ok s := by
  obtain ⟨r, hr, hs⟩ := broadcast_const hw hne hl
  have hlw : ∀ t ∈ l, WF t := fun t ht => by rw [hl t ht]; exact hw
  have hk := C03_axis_order l hlw r hr
  obtain ⟨t, l', rfl⟩ := List.exists_cons_of_ne_nil hne
  obtain rfl := hl t (by simp)
  have hp := C03_first_argument_prefix t l' hlw r hr
  have hrw := (C01_broadcast_shapes_ok _ hlw r hr).1
  rw [hr]
  congr 1
  obtain ⟨u, hu⟩ := hp
  have hnil : u = [] := by
    cases u with
    | nil => rfl
    | cons x u =>
      exfalso
      have hx : x ∈ keys r := by rw [← hu]; simp
      have hxt : x ∈ keys t := by
        rw [← get?_isSome] at hx ⊢
        rw [hs x]; exact hx
      have hnd : (keys r).Nodup := hrw
      rw [← hu] at hnd
      exact (List.disjoint_of_nodup_append hnd) hxt (by simp)
  subst hnil
  exact dict_ext hrw (by rw [← hu, List.append_nil]) (fun x => (hs x).symm)

theorem shape_const {s : Shape} (hw : WF s) : ∀ (c : Comp (SA α)), c.Full → (∀ a ∈ c.leaves, a.shape = s) →
    c.shape = .ok s := by
  refine ind ?_ ?_
  · intro a _ h
    simp only [shape]
    rw [h a (by simp [leaves])]
  · intro cls cs ih hf h
    simp only [Full, fullL_iff] at hf
    simp only [leaves, mem_leavesL] at h
    have h1 : ∀ p ∈ cs, p.2.shape = .ok s := fun p hp => ih p hp (hf.2 p hp) (fun a ha => h a ⟨p, hp, ha⟩)
    have h2 : shapes cs = .ok (cs.map (fun _ => s)) := by
      rw [shapes_ok]
      clear hf h ih
      induction cs with
      | nil => exact .nil
      | cons p cs ihl => exact .cons (h1 p (by simp)) (ihl (fun q hq => h1 q (by simp [hq])))
    simp only [shape, bind, Except.bind, h2]
    refine bs_const hw (by simpa using hf.1) ?_
    simp

theorem parts_leaves {c q : Comp α} (hq : q ∈ c.parts) : ∀ a ∈ q.leaves, a ∈ c.leaves := by
  cases c with
  | leaf a =>
    simp only [parts, List.mem_singleton] at hq
    subst hq
    exact fun _ h => h
  | node cls cs =>
    simp only [parts, List.mem_map] at hq
    obtain ⟨p, hp, rfl⟩ := hq
    intro a ha
    simp only [leaves, mem_leavesL]
    exact ⟨p, hp, ha⟩

theorem parts_full {c q : Comp α} (hq : q ∈ c.parts) (h : c.Full) : q.Full := by
  cases c with
  | leaf a =>
    simp only [parts, List.mem_singleton] at hq
    subst hq
    exact h
  | node cls cs =>
    simp only [parts, List.mem_map] at hq
    obtain ⟨p, hp, rfl⟩ := hq
    simp only [Full, fullL_iff] at h
    exact h.2 p hp

theorem lift_mem_leaves {P : α → β → Prop} {x : Comp α} {y : Comp β} (h : x.Lift P y) {b : β} (hb : b ∈ y.leaves) :
    ∃ a ∈ x.leaves, P a b := by
  have hl := lift_leaves _ _ h
  obtain ⟨i, hi, rfl⟩ := List.mem_iff_getElem.1 hb
  have hlen := hl.length_eq
  have := hl.get (i := i) (by omega) hi
  exact ⟨_, List.getElem_mem _, this⟩

/-- What `broadcasted` needs. -/
def InvS (S : Shape) (c : Comp (SA α)) : Prop := c.WFLeaves ∧ c.Full ∧ c.shape = .ok S
/-- What `broadcasted` does with each scalar. -/
def RelS (S : Shape) (a b : SA α) : Prop := b.WF ∧ b.shape = S ∧ ∀ e, b.atB e = a.atB e

theorem relS_refl {S : Shape} (a : SA α) (h : InvS S (.leaf a)) : RelS S a a := by
  obtain ⟨h1, _, h3⟩ := h
  simp only [shape, Except.ok.injEq] at h3
  exact ⟨h1 a (by simp [leaves]), h3, fun _ => rfl⟩

theorem relS_trans {S : Shape} (a b c : SA α) (h : RelS S a b) (h' : RelS S b c) : RelS S a c :=
  ⟨h'.1, h'.2.1, fun e => (h'.2.2 e).trans (h.2.2 e)⟩

theorem broadcasted_ok {S : Shape} (c : Comp (SA α)) (h : InvS S c) :
    ∃ c', c.broadcasted = .ok c' ∧ c.Lift (RelS S) c' ∧ ∀ q ∈ c'.parts, InvS S q := by
  obtain ⟨hw, hf, hs⟩ := h
  have hSw := shape_wf c hw S hs
  have hb : ∀ a ∈ c.leaves, ∃ b, a.broadcastTo S = .ok b ∧ RelS S a b := by
    intro a ha
    rcases SA.C10_broadcast_to a (hw a ha) S hSw with ⟨hfit, r, h1, h2, h3, h4⟩ | ⟨hn, _⟩
    · exact ⟨r, h1, h2, h3, fun e => atB_of_broadcast (hw a ha) (by rw [h3]; exact hfit) h4 e⟩
    · exact absurd (leaf_fits hw hs ha) hn
  obtain ⟨c', hc'⟩ := mapM_isOk' (fun a => a.broadcastTo S) c (fun a ha => by
    obtain ⟨b, hb, _⟩ := hb a ha
    exact ⟨b, hb⟩)
  have hl := (mapM_lift (fun a : SA α => a.broadcastTo S) c c').1 hc'
  have hl' : c.Lift (RelS S) c' := lift_mono (fun a b h => by
    obtain ⟨b', h1, h2⟩ := hb a h.1
    have h3 : a.broadcastTo S = .ok b := h.2
    rw [h1] at h3
    injection h3 with h3
    exact h3 ▸ h2) _ _ (lift_with c c' (fun a ha => ha) hl)
  refine ⟨c', ?_, hl', fun q hq => ?_⟩
  · unfold broadcasted
    rw [hs]
    exact hc'
  · have hq1 : ∀ b ∈ q.leaves, b.WF ∧ b.shape = S := by
      intro b hb
      obtain ⟨a, _, h1⟩ := lift_mem_leaves hl' (parts_leaves hq b hb)
      exact ⟨h1.1, h1.2.1⟩
    have hq2 := parts_full hq (lift_full _ _ hl' hf)
    exact ⟨fun b hb => (hq1 b hb).1, hq2, shape_const hSw q hq2 (fun b hb => (hq1 b hb).2)⟩

/-- What is needed to extend a vector along an axis. -/
def InvA (axis : String) (n : Nat) (c : Comp (SA α)) : Prop :=
  c.WFLeaves ∧ c.Full ∧ ∃ T, c.shape = .ok T ∧ get? T axis = some n
/-- What the extension along an axis does with each scalar. -/
def RelA (axis : String) (n : Nat) (a b : SA α) : Prop :=
  a.WF ∧ b.WF ∧ b.shape = a.shape.set axis n ∧ (∀ m, get? a.shape axis = some m → m = n ∨ m = 1) ∧ ∀ e, b.atB e = a.atB e

theorem relA_refl {axis : String} {n : Nat} (a : SA α) (h : InvA axis n (.leaf a)) : RelA axis n a a := by
  obtain ⟨h1, _, T, h3, h4⟩ := h
  simp only [shape, Except.ok.injEq] at h3
  subst h3
  have hw := h1 a (by simp [leaves])
  refine ⟨hw, hw, (set_of_get? h4).symm, fun m hm => ?_, fun _ => rfl⟩
  rw [h4] at hm
  injection hm with hm
  exact Or.inl hm.symm

theorem relA_trans {axis : String} {n : Nat} (a b c : SA α) (h : RelA axis n a b) (h' : RelA axis n b c) : RelA axis n a c :=
  ⟨h.1, h'.2.1, by rw [h'.2.2.1, h.2.2.1, FA.set_set (SA.wf_shape h.1)], h.2.2.2.1, fun e => (h'.2.2.2.2 e).trans (h.2.2.2.2 e)⟩

theorem alongAxis_ok {err : Err} {axis : String} {n : Nat} (c : Comp (SA α)) (h : InvA axis n c) :
    ∃ c', c.alongAxis err axis = .ok c' ∧ c.Lift (RelA axis n) c' ∧ ∀ q ∈ c'.parts, InvA axis n q := by
  obtain ⟨hw, hf, T, hs, hn⟩ := h
  have hTw := shape_wf c hw T hs
  have hb : ∀ a ∈ c.leaves, ∃ b, a.broadcastTo [(axis, n)] true = .ok b ∧ RelA axis n a b := by
    intro a ha
    have hc : ∀ m, get? a.shape axis = some m → m = n ∨ m = 1 := by
      intro m hm
      obtain ⟨n', h1, h2⟩ := leaf_fits hw hs ha axis m hm
      rw [hn] at h1
      injection h1 with h1
      subst h1
      exact h2
    obtain ⟨r, h1, h2, h3, h4⟩ := FA.broadcastTo_single a (hw a ha) hc
    exact ⟨r, h1, hw a ha, h2, h3, hc, fun e => FA.atB_broadcast (hw a ha) h3 h4 hc e⟩
  obtain ⟨c', hc'⟩ := mapM_isOk' (fun a => a.broadcastTo [(axis, n)] true) c (fun a ha => by
    obtain ⟨b, hb, _⟩ := hb a ha
    exact ⟨b, hb⟩)
  have hl := (mapM_lift (fun a : SA α => a.broadcastTo [(axis, n)] true) c c').1 hc'
  have hl' : c.Lift (fun a b => a ∈ c.leaves ∧ RelA axis n a b) c' := lift_mono (fun a b h => by
    obtain ⟨b', h1, h2⟩ := hb a h.1
    have h3 : a.broadcastTo [(axis, n)] true = .ok b := h.2
    rw [h1] at h3
    injection h3 with h3
    exact h3 ▸ ⟨h.1, h2⟩) _ _ (lift_with c c' (fun a ha => ha) hl)
  refine ⟨c', ?_, lift_mono (fun _ _ h => h.2) _ _ hl', fun q hq => ?_⟩
  · unfold alongAxis
    rw [hs]
    simp only [bind, Except.bind, hn]
    exact hc'
  · have hq1 : ∀ b ∈ q.leaves, b.WF ∧ get? b.shape axis = some n ∧ FitsIn b.shape T := by
      intro b hb
      obtain ⟨a, _, ha, h1⟩ := lift_mem_leaves hl' (parts_leaves hq b hb)
      refine ⟨h1.2.1, by rw [h1.2.2.1, get?_set, if_pos rfl], fun ax m hm => ?_⟩
      rw [h1.2.2.1, get?_set] at hm
      split at hm
      · next hx =>
        injection hm with hm
        exact ⟨n, by rw [← hx]; exact hn, Or.inl hm.symm⟩
      · exact leaf_fits hw hs ha ax m hm
    have hq2 := parts_full hq (lift_full _ _ hl' hf)
    have hqw : q.WFLeaves := fun b hb => (hq1 b hb).1
    refine ⟨hqw, hq2, ?_⟩
    have hsl := shape_leaves q hqw
    cases hb : broadcastShapes (q.leaves.map SA.shape) with
    | error e =>
      exfalso
      obtain ⟨ax, m1, m2, ⟨s1, hs1, hm1⟩, ⟨s2, hs2, hm2⟩, hne⟩ :=
        (C01_broadcast_shapes_error_iff _ hqw.shapes).1 ⟨e, hb⟩
      obtain ⟨b1, hb1, rfl⟩ := List.mem_map.1 hs1
      obtain ⟨b2, hb2, rfl⟩ := List.mem_map.1 hs2
      obtain ⟨k1, hk1, h1⟩ := (hq1 b1 hb1).2.2 ax m1 hm1
      obtain ⟨k2, hk2, h2⟩ := (hq1 b2 hb2).2.2 ax m2 hm2
      rw [hk1] at hk2
      injection hk2 with hk2
      subst hk2
      omega
    | ok R =>
      rw [hb] at hsl
      cases hqs : q.shape with
      | error e => rw [hqs] at hsl; simp [SameOutcome] at hsl
      | ok R' =>
        rw [hqs] at hsl
        refine ⟨R', rfl, ?_⟩
        obtain ⟨_, hR2, hR3⟩ := C01_broadcast_shapes_ok _ hqw.shapes R hb
        obtain ⟨b, hbm⟩ := List.exists_mem_of_ne_nil _ (full_leaves q hq2)
        obtain ⟨m, hm⟩ := exists_get?_of_mem ((hR2 axis).2 ⟨_, List.mem_map_of_mem hbm, mem_keys_of_get? (hq1 b hbm).2.1⟩)
        obtain ⟨⟨s, hsm, hsn⟩, _⟩ := hR3 axis m hm
        obtain ⟨b', hb', rfl⟩ := List.mem_map.1 hsm
        rw [(hq1 b' hb').2.1] at hsn
        injection hsn with hsn
        have : Same R' R := hsl
        rw [this axis, hm, hsn]

theorem Fine.invS {v : Comp (SA α)} {S : Shape} (h : v.Fine S) : InvS S v := ⟨h.wf, h.full, h.shape⟩
theorem Fine.invA {v : Comp (SA α)} {S : Shape} (h : v.Fine S) {axis : String} {n : Nat} (hn : get? S axis = some n) :
    InvA axis n v := ⟨h.wf, h.full, S, h.shape, hn⟩

theorem Fine.path {v : Comp (SA α)} {S : Shape} (h : v.Fine S) : ∃ p a, v.leafAt p = some a := by
  have key : ∀ (v : Comp (SA α)), v.Full → ∃ p a, v.leafAt p = some a := by
    refine ind ?_ ?_
    · intro a _; exact ⟨[], a, rfl⟩
    · intro cls cs ih hf
      simp only [Full, fullL_iff] at hf
      obtain ⟨q, cs, rfl⟩ := List.exists_cons_of_ne_nil hf.1
      obtain ⟨p, a, ha⟩ := ih q (by simp) (hf.2 q (by simp))
      exact ⟨q.1 :: p, a, by simp only [leafAt, get?_cons, if_true]; exact ha⟩
  exact key v h.full

theorem RelS.at' {S : Shape} {a b : SA α} (h : RelS S a b) {e : String → Nat} (he : InRange S e) : b.at' e = a.atB e := by
  rw [← h.2.2 e, SA.atB_eq_at' h.1]
  rw [h.2.1]; exact he

theorem inRange_rowMajor {s : Shape} (hs : WF s) {e : String → Nat} (he : e ∈ FA.rowMajor s) : InRange s e := by
  unfold FA.rowMajor at he
  obtain ⟨i, hi, rfl⟩ := List.mem_map.1 he
  rw [ND.mem_ndIndices_iff] at hi
  rw [SA.inRange_iff_nd hs, map_envOf hs]
  · exact hi
  · rw [((ND.inRange_iff).1 hi).1]
    simp [keys, values]

/-! ### transpose and reshape -/

/-- **C76** (`np.transpose` with `axes`). It succeeds exactly if the names are distinct and include all the axes of the vector.
Every component then has exactly these axes, with the sizes of the vector, and every element stays at its named index. -/
theorem C76_transpose (v : Comp (SA α)) (S : Shape) (hv : v.Fine S) (axes : List String) :
    (axes.Nodup ∧ (∀ x ∈ keys S, x ∈ axes) ∧ ∃ r, v.transpose (some axes) = .ok r ∧
      v.Lift (fun a b => b.WF ∧ b.axes = axes ∧ (∀ ax ∈ axes, get? b.shape ax = some ((get? S ax).getD 1)) ∧
        ∀ e, InRange S e → b.at' e = a.atB e) r) ∨
    (¬ (axes.Nodup ∧ ∀ x ∈ keys S, x ∈ axes) ∧ v.transpose (some axes) = .error .valueError) := by
  obtain ⟨h1, h2⟩ := nary_single (op := fun a : SA α => a.transpose (some axes)) relS_refl relS_trans broadcasted_ok v
    hv.dicts hv.invS
  by_cases hc : axes.Nodup ∧ ∀ x ∈ keys S, x ∈ axes
  · left
    have key : ∀ a a' : SA α, RelS S a a' → ∃ b, a'.transpose (some axes) = .ok b ∧ b.WF ∧ b.axes = axes ∧
        (∀ ax ∈ axes, get? b.shape ax = some ((get? S ax).getD 1)) ∧ ∀ e, InRange S e → b.at' e = a.atB e := by
      intro a a' hr
      rcases SA.C10_transpose a' hr.1 axes with ⟨_, _, b, g1, g2, g3, g4, g5⟩ | ⟨hn, _⟩
      · exact ⟨b, g1, g2, g3, by rw [hr.2.1] at g4; exact g4, fun e he => by rw [g5]; exact hr.at' he⟩
      · exfalso
        apply hn
        rw [← SA.keys_shape hr.1, hr.2.1]
        exact hc
    obtain ⟨r, g1, g2⟩ := h1 (fun a _ a' hr => by obtain ⟨b, hb, _⟩ := key a a' hr; exact ⟨b, hb⟩)
    refine ⟨hc.1, hc.2, r, g1, lift_mono (fun a b h => ?_) _ _ g2⟩
    obtain ⟨a', hr, hb⟩ := h
    obtain ⟨b', hb', h⟩ := key a a' hr
    rw [hb] at hb'
    injection hb' with hb'
    exact hb' ▸ h
  · right
    refine ⟨hc, ?_⟩
    have key : ∀ a a' : SA α, RelS S a a' → a'.transpose (some axes) = .error .valueError := by
      intro a a' hr
      rcases SA.C10_transpose a' hr.1 axes with ⟨g1, g2, _⟩ | ⟨_, h⟩
      · exfalso
        rw [← SA.keys_shape hr.1, hr.2.1] at g2
        exact hc ⟨g1, g2⟩
      · exact h
    obtain ⟨p, a, ha⟩ := hv.path
    exact h2 .valueError (fun a _ a' hr => Or.inr (key a a' hr)) ⟨p, a, ha, fun a' hr => key a a' hr⟩

/-- **C76** (`np.transpose` without `axes`): the axes of the vector are reversed. -/
theorem C76_transpose_default (v : Comp (SA α)) (S : Shape) (hv : v.Fine S) :
    ∃ r, v.transpose none = .ok r ∧
      v.Lift (fun a b => b.WF ∧ b.axes = (keys S).reverse ∧ Same b.shape S ∧ ∀ e, InRange S e → b.at' e = a.atB e) r := by
  obtain ⟨h1, _⟩ := nary_single (op := fun a : SA α => a.transpose none) relS_refl relS_trans broadcasted_ok v
    hv.dicts hv.invS
  have key : ∀ a a' : SA α, RelS S a a' → ∃ b, a'.transpose none = .ok b ∧ b.WF ∧ b.axes = (keys S).reverse ∧
      Same b.shape S ∧ ∀ e, InRange S e → b.at' e = a.atB e := by
    intro a a' hr
    obtain ⟨b, g1, g2, g3, g4, g5⟩ := SA.C10_transpose_default a' hr.1
    have hsame : Same b.shape S := fun ax => by rw [← hr.2.1]; exact g4 ax
    refine ⟨b, g1, g2, by rw [g3, ← SA.keys_shape hr.1, hr.2.1], hsame, fun e he => ?_⟩
    rw [g5 e (by intro ax n hn; rw [hsame] at hn; exact he ax n hn)]
    exact hr.at' he
  obtain ⟨r, g1, g2⟩ := h1 (fun a _ a' hr => by obtain ⟨b, hb, _⟩ := key a a' hr; exact ⟨b, hb⟩)
  refine ⟨r, g1, lift_mono (fun a b h => ?_) _ _ g2⟩
  obtain ⟨a', hr, hb⟩ := h
  obtain ⟨b', hb', h⟩ := key a a' hr
  rw [hb] at hb'
  injection hb' with hb'
  exact hb' ▸ h

/-- **C76** (`np.reshape`). It succeeds exactly if the new shape has as many elements as the shape of the vector; the elements
of every component, broadcast to the shape of the vector, are enumerated in row-major order. -/
theorem C76_reshape (v : Comp (SA α)) (S : Shape) (hv : v.Fine S) (t : Shape) (ht : WF t) :
    (t.values.prod = S.values.prod ∧ ∃ r, v.reshape t = .ok r ∧
      v.Lift (fun a b => b.WF ∧ b.shape = t ∧ b.nd.toList = (FA.rowMajor S).map a.atB) r) ∨
    (t.values.prod ≠ S.values.prod ∧ v.reshape t = .error .valueError) := by
  obtain ⟨h1, h2⟩ := nary_single (op := fun a : SA α => a.reshape t) relS_refl relS_trans broadcasted_ok v
    hv.dicts hv.invS
  have hSw := shape_wf v hv.wf S hv.shape
  by_cases hc : t.values.prod = S.values.prod
  · left
    have key : ∀ a a' : SA α, RelS S a a' → ∃ b, a'.reshape t = .ok b ∧ b.WF ∧ b.shape = t ∧
        b.nd.toList = (FA.rowMajor S).map a.atB := by
      intro a a' hr
      rcases SA.C12_reshape a' hr.1 t ht with ⟨_, b, g1, g2, g3, g4⟩ | ⟨hn, _⟩
      · refine ⟨b, g1, g2, g3, ?_⟩
        rw [g4, FA.toList_rowMajor hr.1, hr.2.1]
        exact List.map_congr_left (fun e he => hr.at' (inRange_rowMajor hSw he))
      · rw [hr.2.1] at hn
        exact absurd hc hn
    obtain ⟨r, g1, g2⟩ := h1 (fun a _ a' hr => by obtain ⟨b, hb, _⟩ := key a a' hr; exact ⟨b, hb⟩)
    refine ⟨hc, r, g1, lift_mono (fun a b h => ?_) _ _ g2⟩
    obtain ⟨a', hr, hb⟩ := h
    obtain ⟨b', hb', h⟩ := key a a' hr
    rw [hb] at hb'
    injection hb' with hb'
    exact hb' ▸ h
  · right
    refine ⟨hc, ?_⟩
    have key : ∀ a a' : SA α, RelS S a a' → a'.reshape t = .error .valueError := by
      intro a a' hr
      rcases SA.C12_reshape a' hr.1 t ht with ⟨g1, _⟩ | ⟨_, h⟩
      · rw [hr.2.1] at g1
        exact absurd g1 hc
      · exact h
    obtain ⟨p, a, ha⟩ := hv.path
    exact h2 .valueError (fun a _ a' hr => Or.inr (key a a' hr)) ⟨p, a, ha, fun a' hr => key a a' hr⟩

/-! ### repeat and diff -/

/-- **C76** (`np.repeat`). Along an axis of the vector with `n` elements it succeeds exactly if there are counts for the `n`
elements; then the `i`-th element of every component appears as often as its count, in order. -/
theorem C76_repeat (v : Comp (SA α)) (S : Shape) (hv : v.Fine S) (repeats : SA Nat) (hrep : repeats.WF) (axis : String)
    (n : Nat) (hn : get? S axis = some n) :
    (∃ counts, SA.Counts repeats n counts ∧ counts.length = n ∧ ∃ r, v.repeat' repeats axis = .ok r ∧
      v.Lift (fun a b => b.WF ∧ b.axes = keys S ∧
        (∀ ax, get? b.shape ax = if ax = axis then some counts.sum else get? S ax) ∧
        ∀ (i : Nat) (hi : i < counts.length) (k : Nat), k < counts[i] → ∀ e, InRange b.shape e →
          e axis = (counts.take i).sum + k → b.at' e = a.atB (Function.update e axis i)) r) ∨
    ((¬ ∃ counts, SA.Counts repeats n counts) ∧ v.repeat' repeats axis = .error .valueError) := by
  obtain ⟨h1, h2⟩ := nary_single (op := fun a : SA α => a.repeat' repeats axis) relS_refl relS_trans broadcasted_ok v
    hv.dicts hv.invS
  by_cases hc : ∃ counts, SA.Counts repeats n counts
  · left
    obtain ⟨counts, hc⟩ := hc
    have key : ∀ a a' : SA α, RelS S a a' → ∃ b, a'.repeat' repeats axis = .ok b ∧ counts.length = n ∧ b.WF ∧ b.axes = keys S ∧
        (∀ ax, get? b.shape ax = if ax = axis then some counts.sum else get? S ax) ∧
        ∀ (i : Nat) (hi : i < counts.length) (k : Nat), k < counts[i] → ∀ e, InRange b.shape e →
          e axis = (counts.take i).sum + k → b.at' e = a.atB (Function.update e axis i) := by
      intro a a' hr
      have hn' : get? a'.shape axis = some n := by rw [hr.2.1]; exact hn
      obtain ⟨b, hb⟩ := (SA.C57_repeat_succeeds a' hr.1 repeats hrep axis n hn').1 ⟨counts, hc⟩
      obtain ⟨c', g1, g2, g3, g4, g5, g6⟩ := SA.C57_repeat a' hr.1 repeats hrep axis n hn' b hb
      have hcc : c' = counts := by
        have e1 := SA.counts_repeatCounts hrep hc
        have e2 := SA.counts_repeatCounts hrep g1
        rw [e1] at e2
        injection e2 with e2
        exact e2.symm
      subst hcc
      rw [hr.2.1] at g5
      refine ⟨b, hb, g2, g3, by rw [g4, ← SA.keys_shape hr.1, hr.2.1], g5, fun i hi k hk e he hek => ?_⟩
      rw [g6 i hi k hk e hek]
      apply hr.at'
      intro ax m hm
      by_cases hx : ax = axis
      · subst hx
        rw [hn] at hm
        injection hm with hm
        rw [Function.update_self]
        omega
      · rw [Function.update_of_ne hx]
        exact he ax m (by rw [g5, if_neg hx]; exact hm)
    obtain ⟨r, g1, g2⟩ := h1 (fun a _ a' hr => by obtain ⟨b, hb, _⟩ := key a a' hr; exact ⟨b, hb⟩)
    refine ⟨counts, hc, SA.counts_length hc, r, g1, lift_mono (fun a b h => ?_) _ _ g2⟩
    obtain ⟨a', hr, hb⟩ := h
    obtain ⟨b', hb', _, h⟩ := key a a' hr
    rw [hb] at hb'
    injection hb' with hb'
    exact hb' ▸ h
  · right
    refine ⟨hc, ?_⟩
    have key : ∀ a a' : SA α, RelS S a a' → a'.repeat' repeats axis = .error .valueError := fun a a' hr =>
      (SA.C57_repeat_succeeds a' hr.1 repeats hrep axis n (by rw [hr.2.1]; exact hn)).2 hc
    obtain ⟨p, a, ha⟩ := hv.path
    exact h2 .valueError (fun a _ a' hr => Or.inr (key a a' hr)) ⟨p, a, ha, fun a' hr => key a a' hr⟩

/-- **C76** (`np.diff`). Along an axis of the vector with `m` elements: the lines of every component along the axis are
replaced by their `n`-th differences; a component which lacks the axis is constant along it. -/
theorem C76_diff (sub : α → α → α) (v : Comp (SA α)) (S : Shape) (hv : v.Fine S) (axis : String) (m : Nat)
    (hm : get? S axis = some m) (n : Nat) (hn : n ≠ 0) :
    ∃ r, v.diff sub axis n = .ok r ∧
      v.Lift (fun a b => b.WF ∧ b.axes = keys S ∧
        (∀ ax, get? b.shape ax = if ax = axis then some (m - n) else get? S ax) ∧
        ∀ e, InRange (S.erase axis) e → SA.line b axis e =
          (SA.diffList sub)^[n] ((List.range m).map (fun k => a.atB (Function.update e axis k)))) r := by
  obtain ⟨h1, _⟩ := nary_single (op := fun a : SA α => a.diff sub axis n none none) relS_refl relS_trans broadcasted_ok v
    hv.dicts hv.invS
  have key : ∀ a a' : SA α, RelS S a a' → ∃ b, a'.diff sub axis n none none = .ok b ∧ b.WF ∧ b.axes = keys S ∧
      (∀ ax, get? b.shape ax = if ax = axis then some (m - n) else get? S ax) ∧
      ∀ e, InRange (S.erase axis) e → SA.line b axis e =
        (SA.diffList sub)^[n] ((List.range m).map (fun k => a.atB (Function.update e axis k))) := by
    intro a a' hr
    obtain ⟨b, g1, g2, g3, g4, g5⟩ := SA.C57_diff sub a' hr.1 axis m (by rw [hr.2.1]; exact hm) n hn none none (by simp) (by simp)
    simp only [Option.toList_none, List.length_nil, Nat.zero_add, Nat.add_zero, hr.2.1] at g4
    refine ⟨b, g1, g2, by rw [g3, ← SA.keys_shape hr.1, hr.2.1], g4, fun e he => ?_⟩
    rw [g5]
    simp only [SA.endLine, List.nil_append, List.append_nil]
    congr 1
    unfold SA.line
    rw [show a'.sizeOf' axis = m by unfold SA.sizeOf'; rw [hr.2.1, hm]; rfl]
    apply List.map_congr_left
    intro k hk
    apply hr.at'
    intro ax j hj
    by_cases hx : ax = axis
    · subst hx
      rw [hm] at hj
      injection hj with hj
      rw [Function.update_self, ← hj]
      simpa using hk
    · rw [Function.update_of_ne hx]
      refine he ax j ?_
      rw [get?_erase, if_neg (by first | exact hx | exact Ne.symm hx)]
      exact hj
  obtain ⟨r, g1, g2⟩ := h1 (fun a _ a' hr => by obtain ⟨b, hb, _⟩ := key a a' hr; exact ⟨b, hb⟩)
  refine ⟨r, g1, lift_mono (fun a b h => ?_) _ _ g2⟩
  obtain ⟨a', hr, hb⟩ := h
  obtain ⟨b', hb', h⟩ := key a a' hr
  rw [hb] at hb'
  injection hb' with hb'
  exact hb' ▸ h

/-! ### cumulative functions and take_along_axis -/

/-- **C76** (`np.cumsum`, `np.cumprod`). Along an axis of the vector with `n` elements, every component is accumulated along this
axis; a component which lacks the axis is accumulated as if it were constant along it. -/
theorem C76_cumulative (f : List α → α) (v : Comp (SA α)) (S : Shape) (hv : v.Fine S) (axis : String) (n : Nat)
    (hn : get? S axis = some n) :
    ∃ r, v.cumulative f axis = .ok r ∧
      v.Lift (fun a b => b.WF ∧ b.shape = a.shape.set axis n ∧
        ∀ e, InRange b.shape e → b.at' e =
          f ((List.range (e axis + 1)).map (fun k => a.atB (Function.update e axis k)))) r := by
  obtain ⟨h1, _⟩ := nary_single (op := fun a : SA α => a.cumulative f (some [axis]) none) relA_refl relA_trans
    (alongAxis_ok (err := .keyError)) v hv.dicts (hv.invA hn)
  have key : ∀ a a' : SA α, RelA axis n a a' → ∃ b, a'.cumulative f (some [axis]) none = .ok b ∧ b.WF ∧
      b.shape = a.shape.set axis n ∧ ∀ e, InRange b.shape e → b.at' e =
        f ((List.range (e axis + 1)).map (fun k => a.atB (Function.update e axis k))) := by
    intro a a' hr
    have hn' : get? a'.shape axis = some n := by rw [hr.2.2.1, get?_set, if_pos rfl]
    obtain ⟨b, g1, g2, g3, g4, g5⟩ := SA.C19_cumulative_partial a' hr.2.1 f axis n hn' none (by simp)
    refine ⟨b, g1, g2, by rw [g4, hr.2.2.1], fun e he => ?_⟩
    have hen : e axis < n := he axis n (by rw [g4]; exact hn')
    rw [g5 e hen]
    congr 1
    apply List.map_congr_left
    intro k hk
    have hk' : k < e axis + 1 := by simpa using hk
    rw [← hr.2.2.2.2, SA.atB_eq_at' hr.2.1]
    intro ax j hj
    by_cases hx : ax = axis
    · subst hx
      rw [hn'] at hj
      injection hj with hj
      rw [Function.update_self]
      omega
    · rw [Function.update_of_ne hx]
      exact he ax j (by rw [g4]; exact hj)
  obtain ⟨r, g1, g2⟩ := h1 (fun a _ a' hr => by obtain ⟨b, hb, _⟩ := key a a' hr; exact ⟨b, hb⟩)
  refine ⟨r, g1, lift_mono (fun a b h => ?_) _ _ g2⟩
  obtain ⟨a', hr, hb⟩ := h
  obtain ⟨b', hb', h⟩ := key a a' hr
  rw [hb] at hb'
  injection hb' with hb'
  exact hb' ▸ h

/-- **C76** (`np.take_along_axis`). Along an axis of the vector with `n` elements, with indices whose other axes broadcast with
those of every component: it succeeds exactly if all the indices are valid, and every element of every component is then taken
at the position given by the index. -/
theorem C76_take_along_axis (v : Comp (SA α)) (S : Shape) (hv : v.Fine S) (indices : SA Int) (hi : indices.WF)
    (axis : String) (n : Nat) (hn : get? S axis = some n)
    (hc : ∀ a ∈ v.leaves, ¬ Clash [a.shape.erase axis, indices.shape.erase axis]) :
    ((∀ e, InRange indices.shape e → ND.ValidIndex n (indices.at' e)) ∧ ∃ r, v.takeAlongAxis indices axis = .ok r ∧
      v.Lift (fun a b => ∃ s, broadcastShapes [a.shape.erase axis, indices.shape.erase axis] = .ok s ∧ b.WF ∧
        b.shape = (axis, (get? indices.shape axis).getD 1) :: s ∧
        ∀ e, InRange b.shape e → b.at' e = a.atB (Function.update e axis (ND.pyIndex n (indices.atB e)))) r) ∨
    (¬ (∀ e, InRange indices.shape e → ND.ValidIndex n (indices.at' e)) ∧
      v.takeAlongAxis indices axis = .error .indexError) := by
  obtain ⟨h1, h2⟩ := nary_single (op := fun a : SA α => a.takeAlongAxis indices axis) relA_refl relA_trans
    (alongAxis_ok (err := .valueError)) v hv.dicts (hv.invA hn)
  have key : ∀ a ∈ v.leaves, ∀ a' : SA α, RelA axis n a a' → ∃ s,
      broadcastShapes [a.shape.erase axis, indices.shape.erase axis] = .ok s ∧
      ((∀ e, InRange indices.shape e → ND.ValidIndex n (indices.at' e)) ∧
      (∃ r, a'.takeAlongAxis indices axis = .ok r ∧ r.WF ∧
        r.shape = (axis, (get? indices.shape axis).getD 1) :: s ∧
        ∀ e, InRange r.shape e → r.at' e = a.atB (Function.update e axis (ND.pyIndex n (indices.atB e)))) ∨
      ¬ (∀ e, InRange indices.shape e → ND.ValidIndex n (indices.at' e)) ∧
      a'.takeAlongAxis indices axis = .error .indexError) := by
    intro a ha a' hr
    have hws : ∀ t ∈ [a.shape.erase axis, indices.shape.erase axis], WF t := by
      intro t ht
      simp only [List.mem_cons, List.not_mem_nil, or_false] at ht
      rcases ht with rfl | rfl
      · exact Dict.wf_erase (SA.wf_shape hr.1) _
      · exact Dict.wf_erase (SA.wf_shape hi) _
    obtain ⟨s, hs⟩ : ∃ s, broadcastShapes [a.shape.erase axis, indices.shape.erase axis] = .ok s := by
      cases hb : broadcastShapes [a.shape.erase axis, indices.shape.erase axis] with
      | ok s => exact ⟨s, rfl⟩
      | error e => exact absurd ((C01_broadcast_shapes_error_iff _ hws).1 ⟨e, hb⟩) (hc a ha)
    refine ⟨s, hs, ?_⟩
    have hn' : get? a'.shape axis = some n := by rw [hr.2.2.1, get?_set, if_pos rfl]
    rcases SA.C57_take_along_axis a' indices hr.2.1 hi axis n hn' s
      (by rw [hr.2.2.1, FA.erase_set (SA.wf_shape hr.1)]; exact hs) with ⟨g1, r, g2, g3, g4, g5⟩ | h
    · left
      exact ⟨g1, r, g2, g3, g4, fun e he => by rw [g5 e he]; exact hr.2.2.2.2 _⟩
    · exact Or.inr h
  by_cases hval : ∀ e, InRange indices.shape e → ND.ValidIndex n (indices.at' e)
  · left
    refine ⟨hval, ?_⟩
    obtain ⟨r, g1, g2⟩ := h1 (fun a ha a' hr => by
      obtain ⟨s, _, ⟨_, b, hb, _⟩ | ⟨hb, _⟩⟩ := key a ha a' hr
      · exact ⟨b, hb⟩
      · exact absurd hval hb)
    refine ⟨r, g1, lift_mono (fun a b h => ?_) _ _ (lift_with v r (fun a ha => ha) g2)⟩
    obtain ⟨ha, a', hr, hb⟩ := h
    obtain ⟨s, hs, ⟨_, b', hb', h⟩ | ⟨hb', _⟩⟩ := key a ha a' hr
    · rw [hb] at hb'
      injection hb' with hb'
      exact ⟨s, hs, hb' ▸ h⟩
    · exact absurd hval hb'
  · right
    refine ⟨hval, ?_⟩
    have key' : ∀ a ∈ v.leaves, ∀ a' : SA α, RelA axis n a a' → a'.takeAlongAxis indices axis = .error .indexError := by
      intro a ha a' hr
      obtain ⟨s, _, ⟨h, _⟩ | ⟨_, h⟩⟩ := key a ha a' hr
      · exact absurd h hval
      · exact h
    obtain ⟨p, a, ha⟩ := hv.path
    exact h2 .indexError (fun a ha a' hr => Or.inr (key' a ha a' hr))
      ⟨p, a, ha, fun a' hr => key' a (leafAt_mem_leaves ha) a' hr⟩

/-! ### stack, concatenate and where -/

theorem similar_depth {P : Comp ρ} {v : Comp γ} (h : P.Similar v) : P.depth = v.depth := lift_depth _ _ h

/-- The scalars which the arguments contribute at a path. -/
def At (vs : List (Comp γ)) (p : List String) (as : List γ) : Prop := List.Forall₂ (fun v a => v.leafB p = some a) vs as

theorem At.mem {vs : List (Comp γ)} {p : List String} {as : List γ} (h : At vs p as) {a : γ} (ha : a ∈ as) :
    ∃ v ∈ vs, v.leafB p = some a := by
  induction h with
  | nil => cases ha
  | @cons v b vs bs h1 _ ih =>
    rcases List.mem_cons.1 ha with rfl | ha
    · exact ⟨v, by simp, h1⟩
    · obtain ⟨w, hw, h2⟩ := ih ha
      exact ⟨w, by simp [hw], h2⟩

theorem leafB_mem_leaves : ∀ (v : Comp γ) (p : List String) (a : γ), v.leafB p = some a → a ∈ v.leaves := by
  refine ind ?_ ?_
  · intro b p a h
    rw [leafB_leaf] at h
    injection h with h
    simp [leaves, h]
  · intro cls cs ih p a h
    cases p with
    | nil => simp [leafB] at h
    | cons k p =>
      simp only [leafB] at h
      cases hg : get? cs k with
      | none => rw [hg] at h; cases h
      | some c =>
        rw [hg] at h
        simp only [leaves, mem_leavesL]
        exact ⟨(k, c), mem_of_get? hg, ih (k, c) (mem_of_get? hg) p a h⟩

/-- Without preparation: the function for scalars is called at every path of the vectors. -/
theorem nary_plain {op : List γ → R δ} (P : Comp ρ) (hD : P.Dicts) (vs : List (Comp γ)) (hA : ∀ v ∈ vs, P.Along v)
    (hex : ∃ v ∈ vs, P.Similar v) :
    ((∀ p as, (P.leafAt p).isSome → At vs p as → ∃ b, op as = .ok b) →
      ∃ r, nary .ok op vs = .ok r ∧ P.Similar r ∧ ∀ p, (P.leafAt p).isSome →
        ∃ b as, r.leafAt p = some b ∧ At vs p as ∧ op as = .ok b) ∧
    ∀ err, (∀ p as, (P.leafAt p).isSome → At vs p as → (∃ b, op as = .ok b) ∨ op as = .error err) →
      (∃ p, (P.leafAt p).isSome ∧ ∀ as, At vs p as → op as = .error err) → nary .ok op vs = .error err := by
  have hmap : (vs.map (fun v => ((), v))).map Prod.snd = vs := by rw [List.map_map]; exact List.map_id vs
  have hd : P.depth ≤ maxDepth vs := by
    obtain ⟨v, hv, hs⟩ := hex
    rw [similar_depth hs]
    exact maxDepth_ge hv
  have key : ∀ p (qs : List (γ × γ)), List.Forall₂ (fun (x : Unit × Comp γ) (q : γ × γ) =>
      x.2.leafB p = some q.1 ∧ q.1 = q.2) (vs.map (fun v => ((), v))) qs → At vs p (qs.map Prod.snd) := by
    intro p qs
    clear hmap hd hA hex
    induction vs generalizing qs with
    | nil => intro h; cases h; exact .nil
    | cons v vs ih =>
      intro h
      cases h with
      | @cons _ q _ qs h1 h2 => exact .cons (by rw [← h1.2]; exact h1.1) (ih qs h2)
  have hprep : ∀ (_ : Unit) (c : Comp γ), True → ∃ c', (Except.ok c : R (Comp γ)) = .ok c' ∧ c.Lift (fun a b => a = b) c' ∧
      ∀ q ∈ c'.parts, True := by
    intro _ c _
    refine ⟨c, rfl, ?_, fun _ _ => trivial⟩
    have : ∀ c : Comp γ, c.Lift (fun a b => a = b) c := by
      refine ind ?_ ?_
      · intro a; rfl
      · intro cls cs ih
        simp only [Lift, liftL_iff]
        refine ⟨trivial, ?_⟩
        induction cs with
        | nil => exact .nil
        | cons q cs ihl => exact .cons ⟨rfl, ih q (by simp)⟩ (ihl (fun q hq => ih q (by simp [hq])))
    exact this c
  have hA' : ∀ x ∈ vs.map (fun v => ((), v)), P.Along x.2 := by simpa using hA
  have hex' : ∃ x ∈ vs.map (fun v => ((), v)), P.Similar x.2 := by simpa using hex
  refine ⟨fun hop => ?_, fun err hop hbad => ?_⟩
  · obtain ⟨r, h1, h2, h3⟩ := naryAux_ok (ι := Unit) .ok op (fun _ _ => True) (fun _ a b => a = b) (fun _ _ _ => rfl)
      (fun _ _ _ _ h h' => h.trans h') hprep (maxDepth vs) P hd hD (vs.map (fun v => ((), v))) (fun _ _ => trivial)
      hA' hex' (fun p qs hp hqs => hop p _ hp (key p qs hqs))
    rw [hmap] at h1
    refine ⟨r, h1, h2, fun p hp => ?_⟩
    obtain ⟨b, qs, h4, h5, h6⟩ := h3 p hp
    exact ⟨b, _, h4, key p qs h5, h6⟩
  · have h := (naryAux_outcome (ι := Unit) .ok op (fun _ _ => True) (fun _ a b => a = b) (fun _ _ _ => rfl)
      (fun _ _ _ _ h h' => h.trans h') hprep err (maxDepth vs) P hd hD (vs.map (fun v => ((), v))) (fun _ _ => trivial)
      hA' hex' (fun p qs hp hqs => hop p _ hp (key p qs hqs))).2 (by
        obtain ⟨p, hp, h⟩ := hbad
        exact ⟨p, hp, fun qs hqs => h _ (key p qs hqs)⟩)
    rw [hmap] at h
    exact h

/-- Every argument contributes a scalar at every path of the vectors. -/
theorem along_leafB : ∀ (P : Comp ρ) (v : Comp γ), P.Along v → ∀ p, (P.leafAt p).isSome → ∃ a, v.leafB p = some a := by
  refine ind ?_ ?_
  · rintro z (a | _) h p hp
    · exact ⟨a, leafB_leaf a p⟩
    · simp [Along] at h
  · rintro cls cs ih (a | ⟨cls', cs'⟩) h p hp
    · exact ⟨a, leafB_leaf a p⟩
    · cases p with
      | nil => simp [leafAt] at hp
      | cons k p =>
        simp only [leafAt] at hp
        cases hg : get? cs k with
        | none => rw [hg] at hp; simp at hp
        | some c =>
          rw [hg] at hp
          simp only [Along, alongL_iff] at h
          have : ∃ c', get? cs' k = some c' ∧ c.Along c' := by
            have h2 := h.2
            clear ih h hp
            induction h2 with
            | nil => cases hg
            | @cons q q' l l' h1 _ ihl =>
              obtain ⟨k1, c1⟩ := q
              obtain ⟨k2, c2⟩ := q'
              obtain ⟨e1, e2⟩ := h1
              have e1 : k2 = k1 := e1
              subst e1
              rw [get?_cons] at hg ⊢
              split at hg
              · next hk =>
                injection hg with hg
                subst hg
                exact ⟨c2, by rw [if_pos hk], e2⟩
              · next hk =>
                obtain ⟨c', h3, h4⟩ := ihl hg
                exact ⟨c', by rw [if_neg hk]; exact h3, h4⟩
          obtain ⟨c', h3, h4⟩ := this
          simp only [leafB, h3]
          exact ih (k, c) (mem_of_get? hg) c' h4 p hp

theorem at_exists {P : Comp ρ} {vs : List (Comp γ)} (hA : ∀ v ∈ vs, P.Along v) {p : List String} (hp : (P.leafAt p).isSome) :
    ∃ as, At vs p as := exists_forall₂ (fun v hv => along_leafB P v (hA v hv) p hp)

theorem At.unique {vs : List (Comp γ)} {p : List String} {as bs : List γ} (h : At vs p as) (h' : At vs p bs) : as = bs := by
  induction h generalizing bs with
  | nil => cases h'; rfl
  | cons h1 _ ih =>
    cases h' with
    | cons h2 h3 =>
      rw [h1] at h2
      injection h2 with h2
      rw [h2, ih h3]

theorem At.wf {vs : List (Comp (SA α))} {p : List String} {as : List (SA α)} (h : At vs p as) (hw : ∀ v ∈ vs, v.WFLeaves) :
    ∀ a ∈ as, a.WF := by
  intro a ha
  obtain ⟨v, hv, hl⟩ := h.mem ha
  exact hw v hv a (leafB_mem_leaves v p a hl)

/-- **C76** (`np.stack`). The arguments are vectors which are structured like `P`, or scalars standing for all the components
inside; at least one of them is a vector like `P`. The call succeeds exactly if, at every path, the scalars do not have the new
axis and broadcast; then the result is structured like `P` and its component at every path is the stack of the components: the
`i`-th element along the new axis is the one of the `i`-th argument. -/
theorem C76_stack (P : Comp ρ) (hD : P.Dicts) (vs : List (Comp (SA α))) (hw : ∀ v ∈ vs, v.WFLeaves)
    (hA : ∀ v ∈ vs, P.Along v) (hex : ∃ v ∈ vs, P.Similar v) (axis : String) :
    ((∀ p as, (P.leafAt p).isSome → At vs p as → (∀ a ∈ as, axis ∉ a.axes) ∧ ¬ Clash (as.map SA.shape)) ∧
      ∃ r, stack vs axis = .ok r ∧ P.Similar r ∧ ∀ p, (P.leafAt p).isSome → ∃ b as s, r.leafAt p = some b ∧ At vs p as ∧
        broadcastShapes (as.map SA.shape) = .ok s ∧ b.WF ∧ b.shape = (axis, vs.length) :: s ∧
        ∀ e, ∀ h : e axis < as.length, b.at' e = as[e axis].atB e) ∨
    (¬ (∀ p as, (P.leafAt p).isSome → At vs p as → (∀ a ∈ as, axis ∉ a.axes) ∧ ¬ Clash (as.map SA.shape)) ∧
      stack vs axis = .error .valueError) := by
  obtain ⟨h1, h2⟩ := nary_plain (op := fun as : List (SA α) => SA.stack as axis) P hD vs hA hex
  have hne : vs ≠ [] := by obtain ⟨v, hv, _⟩ := hex; exact List.ne_nil_of_mem hv
  have good : ∀ p as, At vs p as → ((∀ a ∈ as, axis ∉ a.axes) ∧ ¬ Clash (as.map SA.shape)) →
      ∃ b s, SA.stack as axis = .ok b ∧ broadcastShapes (as.map SA.shape) = .ok s ∧ b.WF ∧
        b.shape = (axis, vs.length) :: s ∧ ∀ e, ∀ h : e axis < as.length, b.at' e = as[e axis].atB e := by
    intro p as hat hc
    have haw := hat.wf hw
    have hss := SA.wf_shapes haw
    have hlen : vs.length = as.length := List.Forall₂.length_eq hat
    have hne' : as ≠ [] := by
      rintro rfl
      apply hne
      exact List.length_eq_zero_iff.1 hlen
    cases hb : broadcastShapes (as.map SA.shape) with
    | error e => exact absurd ((C01_broadcast_shapes_error_iff _ hss).1 ⟨e, hb⟩) hc.2
    | ok s =>
      obtain ⟨r, g1, g2, g3, g4⟩ := SA.C23_stack as haw hne' axis s hb hc.1
      exact ⟨r, s, g1, rfl, g2, by rw [hlen]; exact g3, g4⟩
  have bad : ∀ p as, At vs p as → ¬ ((∀ a ∈ as, axis ∉ a.axes) ∧ ¬ Clash (as.map SA.shape)) →
      SA.stack as axis = .error .valueError := by
    intro p as hat hc
    refine SA.C23_stack_error as (hat.wf hw) axis ?_
    by_cases hx : ∃ a ∈ as, axis ∈ a.axes
    · exact Or.inr (Or.inl hx)
    · push Not at hx
      by_cases hcl : Clash (as.map SA.shape)
      · exact Or.inr (Or.inr hcl)
      · exact absurd ⟨hx, hcl⟩ hc
  by_cases hc : ∀ p as, (P.leafAt p).isSome → At vs p as → (∀ a ∈ as, axis ∉ a.axes) ∧ ¬ Clash (as.map SA.shape)
  · left
    refine ⟨hc, ?_⟩
    obtain ⟨r, g1, g2, g3⟩ := h1 (fun p as hp hat => by
      obtain ⟨b, _, hb, _⟩ := good p as hat (hc p as hp hat)
      exact ⟨b, hb⟩)
    refine ⟨r, g1, g2, fun p hp => ?_⟩
    obtain ⟨b, as, g4, g5, g6⟩ := g3 p hp
    obtain ⟨b', s, g7, g8⟩ := good p as g5 (hc p as hp g5)
    have g6' : SA.stack as axis = .ok b := g6
    rw [g6'] at g7
    injection g7 with g7
    subst g7
    exact ⟨b, as, s, g4, g5, g8⟩
  · right
    refine ⟨hc, ?_⟩
    push Not at hc
    obtain ⟨p, as, hp, hat, hbad⟩ := hc
    refine h2 .valueError (fun p as hp hat => ?_) ⟨p, hp, fun as' hat' => ?_⟩
    · by_cases h : (∀ a ∈ as, axis ∉ a.axes) ∧ ¬ Clash (as.map SA.shape)
      · obtain ⟨b, _, hb, _⟩ := good p as hat h
        exact Or.inl ⟨b, hb⟩
      · exact Or.inr (bad p as hat h)
    · rw [← At.unique hat hat']
      exact bad p as hat (fun h => h.2 (hbad h.1))

/-- **C76** (`np.where`). The condition and the two choices are vectors which are structured like `P`, or scalars standing for
all the components inside. The result is structured like `P`; its component at every path is chosen elementwise. If the scalars
at some path do not broadcast, a `ValueError` is raised. -/
theorem C76_where (dflt : α) (P : Comp ρ) (hD : P.Dicts) (c : Comp (SA Bool)) (x y : Comp (SA α))
    (hc : c.WFLeaves) (hx : x.WFLeaves) (hy : y.WFLeaves) (hcA : P.Along c) (hxA : P.Along x) (hyA : P.Along y)
    (hex : P.Similar c ∨ P.Similar x ∨ P.Similar y) :
    (∃ r, where' dflt c x y = .ok r ∧ P.Similar r ∧ ∀ p, (P.leafAt p).isSome → ∃ b c' x' y' s, r.leafAt p = some b ∧
        c.leafB p = some c' ∧ x.leafB p = some x' ∧ y.leafB p = some y' ∧
        broadcastShapes [c'.shape, x'.shape, y'.shape] = .ok s ∧ b.WF ∧ b.shape = s ∧
        ∀ e, b.at' e = if c'.atB e = true then x'.atB e else y'.atB e) ∨
    ((∃ p c' x' y', (P.leafAt p).isSome ∧ c.leafB p = some c' ∧ x.leafB p = some x' ∧ y.leafB p = some y' ∧
        Clash [c'.shape, x'.shape, y'.shape]) ∧ where' dflt c x y = .error .valueError) := by
  have hm : ∀ {γ : Type} (f : γ → SA Bool ⊕ SA α) (v : Comp γ), ∃ v', v.mapM (fun a => .ok (f a)) = .ok v' ∧
      v.Lift (fun a b => b = f a) v' := by
    intro γ f v
    obtain ⟨v', hv'⟩ := mapM_isOk' (fun a => (.ok (f a) : R _)) v (fun a _ => ⟨_, rfl⟩)
    refine ⟨v', hv', lift_mono (fun a b h => ?_) _ _ ((mapM_lift _ v v').1 hv')⟩
    injection h with h
    exact h.symm
  obtain ⟨c2, hc2, hcl⟩ := hm (Sum.inl : SA Bool → SA Bool ⊕ SA α) c
  obtain ⟨x2, hx2, hxl⟩ := hm (Sum.inr : SA α → SA Bool ⊕ SA α) x
  obtain ⟨y2, hy2, hyl⟩ := hm (Sum.inr : SA α → SA Bool ⊕ SA α) y
  have hrun : where' dflt c x y = nary .ok (whereScalars dflt) [c2, x2, y2] := by
    unfold where'
    rw [hc2]
    simp only [bind, Except.bind]
    rw [hx2]
    simp only
    rw [hy2]
  have hA : ∀ v ∈ [c2, x2, y2], P.Along v := by
    intro v hv
    simp only [List.mem_cons, List.not_mem_nil, or_false] at hv
    rcases hv with rfl | rfl | rfl
    · exact along_lift P c _ hcA hcl
    · exact along_lift P x _ hxA hxl
    · exact along_lift P y _ hyA hyl
  have hex' : ∃ v ∈ [c2, x2, y2], P.Similar v := by
    rcases hex with h | h | h
    · exact ⟨c2, by simp, similar_lift h hcl⟩
    · exact ⟨x2, by simp, similar_lift h hxl⟩
    · exact ⟨y2, by simp, similar_lift h hyl⟩
  obtain ⟨h1, h2⟩ := nary_plain (op := whereScalars dflt) P hD [c2, x2, y2] hA hex'
  have hat : ∀ p as, At [c2, x2, y2] p as → ∃ c' x' y', as = [.inl c', .inr x', .inr y'] ∧
      c.leafB p = some c' ∧ x.leafB p = some x' ∧ y.leafB p = some y' := by
    intro p as h
    cases h with
    | cons g1 h =>
      cases h with
      | cons g2 h =>
        cases h with
        | cons g3 h =>
          cases h
          obtain ⟨c', e1, e2⟩ := lift_leafB hcl p _ g1
          obtain ⟨x', e3, e4⟩ := lift_leafB hxl p _ g2
          obtain ⟨y', e5, e6⟩ := lift_leafB hyl p _ g3
          exact ⟨c', x', y', by rw [e2, e4, e6], e1, e3, e5⟩
  have hop : ∀ p as, At [c2, x2, y2] p as → ∃ c' x' y', c.leafB p = some c' ∧ x.leafB p = some x' ∧ y.leafB p = some y' ∧
      ((∃ s b, broadcastShapes [c'.shape, x'.shape, y'.shape] = .ok s ∧ whereScalars dflt as = .ok b ∧ b.WF ∧
        b.shape = s ∧ ∀ e, b.at' e = if c'.atB e = true then x'.atB e else y'.atB e) ∨
      (Clash [c'.shape, x'.shape, y'.shape] ∧ whereScalars dflt as = .error .valueError)) := by
    intro p as h
    obtain ⟨c', x', y', rfl, e1, e2, e3⟩ := hat p as h
    exact ⟨c', x', y', e1, e2, e3, SA.C57_where dflt c' x' y' (hc c' (leafB_mem_leaves c p c' e1))
      (hx x' (leafB_mem_leaves x p x' e2)) (hy y' (leafB_mem_leaves y p y' e3))⟩
  rw [hrun]
  by_cases hcl : ∃ p c' x' y', (P.leafAt p).isSome ∧ c.leafB p = some c' ∧ x.leafB p = some x' ∧ y.leafB p = some y' ∧
        Clash [c'.shape, x'.shape, y'.shape]
  · right
    refine ⟨hcl, ?_⟩
    obtain ⟨p, c', x', y', hp, e1, e2, e3, hcl⟩ := hcl
    refine h2 .valueError (fun p as hp h => ?_) ⟨p, hp, fun as h => ?_⟩
    · obtain ⟨_, _, _, _, _, _, ⟨_, b, _, hb, _⟩ | ⟨_, hb⟩⟩ := hop p as h
      · exact Or.inl ⟨b, hb⟩
      · exact Or.inr hb
    · obtain ⟨c1, x1, y1, f1, f2, f3, ⟨s, b, hs, _⟩ | ⟨_, hb⟩⟩ := hop p as h
      · exfalso
        rw [e1] at f1; rw [e2] at f2; rw [e3] at f3
        injection f1 with f1; injection f2 with f2; injection f3 with f3
        subst f1 f2 f3
        have hws : ∀ t ∈ [c'.shape, x'.shape, y'.shape], WF t := by
          intro t ht
          simp only [List.mem_cons, List.not_mem_nil, or_false] at ht
          rcases ht with rfl | rfl | rfl
          · exact SA.wf_shape (hc c' (leafB_mem_leaves c p c' e1))
          · exact SA.wf_shape (hx x' (leafB_mem_leaves x p x' e2))
          · exact SA.wf_shape (hy y' (leafB_mem_leaves y p y' e3))
        obtain ⟨e, he⟩ := (C01_broadcast_shapes_error_iff _ hws).2 hcl
        rw [hs] at he
        cases he
      · exact hb
  · left
    obtain ⟨r, g1, g2, g3⟩ := h1 (fun p as hp h => by
      obtain ⟨c', x', y', e1, e2, e3, ⟨_, b, _, hb, _⟩ | ⟨h, _⟩⟩ := hop p as h
      · exact ⟨b, hb⟩
      · exact absurd ⟨p, c', x', y', hp, e1, e2, e3, h⟩ hcl)
    refine ⟨r, g1, g2, fun p hp => ?_⟩
    obtain ⟨b, as, g4, g5, g6⟩ := g3 p hp
    obtain ⟨c', x', y', e1, e2, e3, ⟨s, b', hs, hb, h⟩ | ⟨h, _⟩⟩ := hop p as g5
    · rw [g6] at hb
      injection hb with hb
      subst hb
      exact ⟨b, c', x', y', s, g4, e1, e2, e3, hs, h⟩
    · exact absurd ⟨p, c', x', y', hp, e1, e2, e3, h⟩ hcl

/-- **C76** (`np.concatenate`). The arguments, given with their sizes along the axis, are vectors which are structured like `P`,
or scalars standing for all the components inside; all of them have the axis. The call succeeds exactly if, at every path, the
other axes broadcast; then the `k`-th position of the `i`-th argument is found, in every component, at `k` plus the sizes of the
arguments before it, even if this component of the argument lacks the axis. -/
theorem C76_concatenate (P : Comp ρ) (hD : P.Dicts) (xs : List (Nat × Comp (SA α))) (axis : String)
    (hx : ∀ x ∈ xs, ∃ S, x.2.Fine S ∧ get? S axis = some x.1) (hA : ∀ x ∈ xs, P.Along x.2) (hex : ∃ x ∈ xs, P.Similar x.2) :
    ((∀ p as, (P.leafAt p).isSome → At (xs.map Prod.snd) p as → ¬ Clash (as.map (fun a => a.shape.set axis 1))) ∧
      ∃ r, concatenate (xs.map Prod.snd) axis = .ok r ∧ P.Similar r ∧ ∀ p, (P.leafAt p).isSome → ∃ b as s,
        r.leafAt p = some b ∧ At (xs.map Prod.snd) p as ∧
        broadcastShapes (as.map (fun a => a.shape.set axis 1)) = .ok s ∧ b.WF ∧
        b.shape = s.set axis (xs.map Prod.fst).sum ∧
        ∀ (i : Nat) (hi : i < as.length) (hi' : i < (xs.map Prod.fst).length) (k : Nat), k < (xs.map Prod.fst)[i] →
          ∀ e, e axis = ((xs.map Prod.fst).take i).sum + k → b.at' e = as[i].atB (Function.update e axis k)) ∨
    (¬ (∀ p as, (P.leafAt p).isSome → At (xs.map Prod.snd) p as → ¬ Clash (as.map (fun a => a.shape.set axis 1))) ∧
      concatenate (xs.map Prod.snd) axis = .error .valueError) := by
  have hd : P.depth ≤ maxDepth (xs.map Prod.snd) := by
    obtain ⟨x, hx, hs⟩ := hex
    rw [similar_depth hs]
    exact maxDepth_ge (List.mem_map_of_mem hx)
  have hI : ∀ x ∈ xs, InvA axis x.1 x.2 := fun x hxm => by
    obtain ⟨S, h1, h2⟩ := hx x hxm
    exact h1.invA h2
  have hne : xs ≠ [] := by obtain ⟨v, hv, _⟩ := hex; exact List.ne_nil_of_mem hv
  have hat : ∀ p (qs : List (SA α × SA α)), List.Forall₂ (fun (x : Nat × Comp (SA α)) (q : SA α × SA α) =>
      x.2.leafB p = some q.1 ∧ RelA axis x.1 q.1 q.2) xs qs → At (xs.map Prod.snd) p (qs.map Prod.fst) ∧
      (qs.map Prod.snd).map (fun a => a.shape.set axis 1) = (qs.map Prod.fst).map (fun a => a.shape.set axis 1) ∧
      SA.sizesAlong (qs.map Prod.snd) axis = xs.map Prod.fst ∧ (∀ q ∈ qs, q.1.WF ∧ q.2.WF ∧ axis ∈ q.2.axes ∧
        ∀ e, q.2.atB e = q.1.atB e) := by
    intro p qs h
    clear hd hI hne hex hA hx
    induction h with
    | nil => exact ⟨.nil, rfl, rfl, by simp⟩
    | @cons x q xs qs h1 _ ih =>
      obtain ⟨i1, i2, i3, i4⟩ := ih
      obtain ⟨h1, h2⟩ := h1
      have hg : get? q.2.shape axis = some x.1 := by rw [h2.2.2.1, get?_set, if_pos rfl]
      refine ⟨.cons h1 i1, ?_, ?_, ?_⟩
      · simp only [List.map_cons, i2]
        rw [h2.2.2.1, FA.set_set (SA.wf_shape h2.1)]
      · unfold SA.sizesAlong at i3 ⊢
        simp only [List.map_cons, i3, hg, Option.getD_some]
      · intro r hr
        rcases List.mem_cons.1 hr with rfl | hr
        · refine ⟨h2.1, h2.2.1, ?_, h2.2.2.2.2⟩
          rw [← SA.keys_shape h2.2.1]
          exact mem_keys_of_get? hg
        · exact i4 r hr
  have good : ∀ p (qs : List (SA α × SA α)), List.Forall₂ (fun (x : Nat × Comp (SA α)) (q : SA α × SA α) =>
      x.2.leafB p = some q.1 ∧ RelA axis x.1 q.1 q.2) xs qs →
      ¬ Clash ((qs.map Prod.fst).map (fun a => a.shape.set axis 1)) → ∃ b s, SA.concatenate (qs.map Prod.snd) axis = .ok b ∧
        broadcastShapes ((qs.map Prod.fst).map (fun a => a.shape.set axis 1)) = .ok s ∧ b.WF ∧
        b.shape = s.set axis (xs.map Prod.fst).sum ∧
        ∀ (i : Nat) (hi : i < (qs.map Prod.fst).length) (hi' : i < (xs.map Prod.fst).length) (k : Nat),
          k < (xs.map Prod.fst)[i] → ∀ e, e axis = ((xs.map Prod.fst).take i).sum + k →
            b.at' e = (qs.map Prod.fst)[i].atB (Function.update e axis k) := by
    intro p qs h hc
    obtain ⟨h1, h2, h3, h4⟩ := hat p qs h
    have hlen := h.length_eq
    have hws : ∀ t ∈ (qs.map Prod.fst).map (fun a : SA α => a.shape.set axis 1), WF t := by
      intro t ht
      obtain ⟨a, ha, rfl⟩ := List.mem_map.1 ht
      obtain ⟨q, hq, rfl⟩ := List.mem_map.1 ha
      exact wf_set (SA.wf_shape (h4 q hq).1) _ _
    cases hb : broadcastShapes ((qs.map Prod.fst).map (fun a : SA α => a.shape.set axis 1)) with
    | error e => exact absurd ((C01_broadcast_shapes_error_iff _ hws).1 ⟨e, hb⟩) hc
    | ok s =>
      obtain ⟨r, g1, g2, g3, g4⟩ := SA.C24_concatenate (qs.map Prod.snd)
        (fun a ha => by obtain ⟨q, hq, rfl⟩ := List.mem_map.1 ha; exact (h4 q hq).2.1)
        (by
          intro h0
          rw [List.map_eq_nil_iff] at h0
          subst h0
          exact hne (List.length_eq_zero_iff.1 hlen)) axis
        (fun a ha => by obtain ⟨q, hq, rfl⟩ := List.mem_map.1 ha; exact (h4 q hq).2.2.1) s (by rw [h2]; exact hb)
      rw [h3] at g3 g4
      refine ⟨r, s, g1, rfl, g2, g3, fun i hi hi' k hk e he => ?_⟩
      have hiq : i < qs.length := by simpa using hi
      have hk' : (get? ((qs.map Prod.snd)[i]'(by simpa using hiq)).shape axis).getD 0 = (xs.map Prod.fst)[i] := by
        have : (SA.sizesAlong (qs.map Prod.snd) axis)[i]'(by simpa [SA.sizesAlong] using hiq) = (xs.map Prod.fst)[i] := by
          simp only [h3]
        rw [← this]
        simp [SA.sizesAlong]
      rw [g4 i (by simpa using hiq) k (by rw [hk']; exact hk) e he]
      simp only [List.getElem_map]
      exact (h4 qs[i] (List.getElem_mem _)).2.2.2 _
  have bad : ∀ p (qs : List (SA α × SA α)), List.Forall₂ (fun (x : Nat × Comp (SA α)) (q : SA α × SA α) =>
      x.2.leafB p = some q.1 ∧ RelA axis x.1 q.1 q.2) xs qs →
      Clash ((qs.map Prod.fst).map (fun a => a.shape.set axis 1)) →
      SA.concatenate (qs.map Prod.snd) axis = .error .valueError := by
    intro p qs h hc
    obtain ⟨h1, h2, h3, h4⟩ := hat p qs h
    refine SA.C24_concatenate_error _ (fun a ha => ?_) axis (Or.inr (Or.inr (by rw [h2]; exact hc)))
    obtain ⟨q, hq, rfl⟩ := List.mem_map.1 ha
    exact (h4 q hq).2.1
  by_cases hc : ∀ p as, (P.leafAt p).isSome → At (xs.map Prod.snd) p as → ¬ Clash (as.map (fun a => a.shape.set axis 1))
  · left
    refine ⟨hc, ?_⟩
    obtain ⟨r, g1, g2, g3⟩ := naryAux_ok (alongAxis .valueError axis) (fun as : List (SA α) => SA.concatenate as axis)
      (fun n => InvA axis n) (fun n => RelA axis n) (fun _ => relA_refl) (fun _ => relA_trans) (fun _ => alongAxis_ok)
      _ P hd hD xs hI hA hex (fun p qs hp h => by
        obtain ⟨b, _, hb, _⟩ := good p qs h (hc p _ hp (hat p qs h).1)
        exact ⟨b, hb⟩)
    refine ⟨r, g1, g2, fun p hp => ?_⟩
    obtain ⟨b, qs, g4, g5, g6⟩ := g3 p hp
    obtain ⟨b', s, g7, g8⟩ := good p qs g5 (hc p _ hp (hat p qs g5).1)
    have g6' : SA.concatenate (qs.map Prod.snd) axis = .ok b := g6
    rw [g6'] at g7
    injection g7 with g7
    subst g7
    exact ⟨b, _, s, g4, (hat p qs g5).1, g8⟩
  · right
    refine ⟨hc, ?_⟩
    push Not at hc
    obtain ⟨p, as, hp, hat', hbad⟩ := hc
    refine (naryAux_outcome (alongAxis .valueError axis) (fun as : List (SA α) => SA.concatenate as axis)
      (fun n => InvA axis n) (fun n => RelA axis n) (fun _ => relA_refl) (fun _ => relA_trans) (fun _ => alongAxis_ok)
      .valueError _ P hd hD xs hI hA hex (fun p qs hp h => ?_)).2 ⟨p, hp, fun qs h => ?_⟩
    · by_cases h' : Clash ((qs.map Prod.fst).map (fun a => a.shape.set axis 1))
      · exact Or.inr (bad p qs h h')
      · obtain ⟨b, _, hb, _⟩ := good p qs h h'
        exact Or.inl ⟨b, hb⟩
    · refine bad p qs h ?_
      rw [At.unique (hat p qs h).1 hat']
      exact hbad

/-! ### moveaxis -/

theorem rename_filter {ps : List (String × String)} {q : String → Bool} {ax : String} (h : q ax = true) :
    SA.rename (ps.filter (fun p => q p.1)) ax = SA.rename ps ax := by
  unfold SA.rename
  have : (ps.filter (fun p => q p.1)).find? (fun p => decide (p.1 = ax)) = ps.find? (fun p => decide (p.1 = ax)) := by
    induction ps with
    | nil => rfl
    | cons p ps ih =>
      by_cases hq : q p.1 = true
      · rw [List.filter_cons_of_pos (p := fun p : String × String => q p.1) hq, List.find?_cons, List.find?_cons, ih]
      · rw [List.filter_cons_of_neg (p := fun p : String × String => q p.1) hq, ih, List.find?_cons]
        have hne : p.1 ≠ ax := by rintro rfl; exact hq h
        simp [hne]
  rw [this]

theorem leaf_axes {c : Comp (SA α)} (hw : c.WFLeaves) {S : Shape} (hS : c.shape = .ok S) {a : SA α} (ha : a ∈ c.leaves) :
    ∀ x ∈ a.axes, x ∈ keys S := by
  intro x hx
  rw [← SA.keys_shape (hw a ha)] at hx
  obtain ⟨m, hm⟩ := exists_get?_of_mem hx
  obtain ⟨n, hn, _⟩ := leaf_fits hw hS ha x m hm
  exact mem_keys_of_get? hn

theorem zip_fst_snd (ps : List (String × String)) : (ps.map Prod.fst).zip (ps.map Prod.snd) = ps := by
  induction ps with
  | nil => rfl
  | cons p ps ih => simp [ih]

theorem moveaxis_main : ∀ (c : Comp (SA α)) (ps : List (String × String)) (S : Shape), c.WFLeaves → c.shape = .ok S →
    (ps.map Prod.fst).Nodup → ps.Pairwise (fun p q => p.2 ≠ q.1) → (∀ p ∈ ps, p.1 ∈ keys S) →
    (∀ a ∈ c.leaves, (a.axes.map (SA.rename ps)).Nodup) →
    ∃ r, c.moveaxis (ps.map Prod.fst) (ps.map Prod.snd) = .ok r ∧
      c.Lift (fun a b => b.WF ∧ b.axes = a.axes.map (SA.rename ps) ∧ b.nd = a.nd) r := by
  refine ind ?_ ?_
  · intro a ps S hw hs h1 h2 h3 h4
    simp only [shape, Except.ok.injEq] at hs
    subst hs
    have haw := hw a (by simp [leaves])
    have := (SA.C25_moveaxis_partial a haw (ps.map Prod.fst) (ps.map Prod.snd) (by simp) h1 (by
      intro x hx
      obtain ⟨p, hp, rfl⟩ := List.mem_map.1 hx
      rw [← SA.keys_shape haw]
      exact h3 p hp) (by rw [zip_fst_snd]; exact h2)).1
    rw [zip_fst_snd] at this
    obtain ⟨r, g1, g2, g3, g4, _⟩ := this (h4 a (by simp [leaves]))
    exact ⟨.leaf r, by simp [moveaxis, g1, bind, Except.bind], g2, g3, g4⟩
  · intro cls cs ih ps S hw hs h1 h2 h3 h4
    have hwL : ∀ q ∈ cs, q.2.WFLeaves := by
      intro q hq a ha
      exact hw a (by simp only [leaves, mem_leavesL]; exact ⟨q, hq, ha⟩)
    have h4' : ∀ q ∈ cs, ∀ a ∈ q.2.leaves, (a.axes.map (SA.rename ps)).Nodup := by
      intro q hq a ha
      exact h4 a (by simp only [leaves, mem_leavesL]; exact ⟨q, hq, ha⟩)
    simp only [shape, bind, Except.bind] at hs
    cases hss : shapes cs with
    | error e => rw [hss] at hs; cases hs
    | ok ss =>
      rw [hss] at hs
      have hss' := shapes_ok.1 hss
      have hL : ∃ rs, moveaxisL (ps.map Prod.fst) (ps.map Prod.snd) cs = .ok rs ∧
          LiftL (fun a b => b.WF ∧ b.axes = a.axes.map (SA.rename ps) ∧ b.nd = a.nd) cs rs := by
        clear hs hss h4 hw h3
        induction hss' with
        | nil => exact ⟨[], rfl, trivial⟩
        | @cons q s cs ss g1 _ ihl =>
          obtain ⟨rs, g2, g3⟩ := ihl (fun q hq => ih q (by simp [hq])) (fun q hq => hwL q (by simp [hq]))
            (fun q hq => h4' q (by simp [hq]))
          obtain ⟨k, c⟩ := q
          have hren : ∀ a ∈ c.leaves, a.axes.map (SA.rename (ps.filter (fun p => decide (p.1 ∈ keys s)))) =
              a.axes.map (SA.rename ps) := by
            intro a ha
            apply List.map_congr_left
            intro x hx
            exact rename_filter (q := fun x => decide (x ∈ keys s))
              (decide_eq_true (leaf_axes (hwL (k, c) (by simp)) g1 ha x hx))
          obtain ⟨r, g4, g5⟩ := ih (k, c) (by simp) (ps.filter (fun p => decide (p.1 ∈ keys s))) s (hwL (k, c) (by simp)) g1
            (h1.sublist (List.Sublist.map _ List.filter_sublist)) (h2.sublist List.filter_sublist)
            (fun p hp => by simpa using (List.mem_filter.1 hp).2)
            (fun a ha => by rw [hren a ha]; exact h4' (k, c) (by simp) a ha)
          refine ⟨(k, r) :: rs, ?_, rfl, ?_, g3⟩
          · have g1' : c.shape = .ok s := g1
            simp only [moveaxisL, bind, Except.bind, g1', zip_fst_snd]
            rw [g4]
            simp only [g2]
          · refine lift_mono (fun a b h => ?_) _ _ (lift_with c r (fun a ha => ha) g5)
            rw [← hren a h.1]
            exact h.2
      obtain ⟨rs, g1, g2⟩ := hL
      refine ⟨.node cls rs, ?_, rfl, g2⟩
      have hs' : broadcastShapes ss = .ok S := hs
      simp only [moveaxis, bind, Except.bind, hss, hs']
      rw [if_pos, g1]
      rw [List.all_eq_true]
      intro x hx
      obtain ⟨p, hp, rfl⟩ := List.mem_map.1 hx
      simpa using h3 p hp

/-- **C76** (`np.moveaxis`, the part which holds). If no new name is one of the later source names and the new names of the axes
of the vector are distinct, every component has its axes renamed, and nothing else changes.
Missing: swaps (see C25), and new names which are axes of other components (see `C76_moveaxis_refuted`). -/
theorem C76_moveaxis_partial (v : Comp (SA α)) (S : Shape) (hv : v.Fine S) (source destination : List String)
    (hl : source.length = destination.length) (hsn : source.Nodup) (hsub : ∀ x ∈ source, x ∈ keys S)
    (hpw : (source.zip destination).Pairwise (fun p q => p.2 ≠ q.1))
    (hn : ((keys S).map (SA.rename (source.zip destination))).Nodup) :
    ∃ r, v.moveaxis source destination = .ok r ∧
      v.Lift (fun a b => b.WF ∧ b.axes = a.axes.map (SA.rename (source.zip destination)) ∧ b.nd = a.nd ∧
        ∀ e, b.at' e = a.at' (e ∘ SA.rename (source.zip destination))) r := by
  have h1 : (source.zip destination).map Prod.fst = source := List.map_fst_zip (by omega)
  have h2 : (source.zip destination).map Prod.snd = destination := List.map_snd_zip (by omega)
  obtain ⟨r, g1, g2⟩ := moveaxis_main v (source.zip destination) S hv.wf hv.shape (by rw [h1]; exact hsn) hpw
    (fun p hp => hsub p.1 (List.of_mem_zip hp).1) (fun a ha => by
      have hsub' := leaf_axes hv.wf hv.shape ha
      have hinj := List.inj_on_of_nodup_map hn
      exact List.Nodup.map_on (fun x hx y hy h => hinj (hsub' x hx) (hsub' y hy) h) (hv.wf a ha).2)
  rw [h1, h2] at g1
  refine ⟨r, g1, lift_mono (fun a b h => ⟨h.1, h.2.1, h.2.2, fun e => ?_⟩) _ _ g2⟩
  unfold SA.at'
  rw [h.2.1, h.2.2, List.map_map]

/-- an axis for each component -/
def exGrid : Comp (SA Nat) := .node "Cartesian2d"
  [("x", .leaf ⟨["t"], ⟨[2], fun i => i.getD 0 0⟩⟩), ("y", .leaf ⟨["w"], ⟨[2], fun i => 5 * i.getD 0 0⟩⟩)]

/-- **C76 is false of the code** for new names which are axes of other components. For a scalar, `np.moveaxis` to the name of
another axis is a `ValueError`; for a vector on a grid `t` × `w` whose components depend on one axis each, the call succeeds and
silently returns a vector with one axis. -/
theorem C76_moveaxis_refuted : exGrid.shape = .ok [("t", 2), ("w", 2)] ∧
    (∃ r, exGrid.moveaxis ["t"] ["w"] = .ok r ∧ r.shape = .ok [("w", 2)]) ∧
    (∃ b, exGrid.broadcasted = .ok b ∧ b.moveaxis ["t"] ["w"] = .error .valueError) := by
  refine ⟨by decide, ⟨_, rfl, by decide⟩, ⟨_, rfl, rfl⟩⟩

/-! ### Errors -/

/-- **C76** (mixed classes). Vectors of different classes cannot be combined. -/
theorem C76_type_error (vs : List (Comp (SA α))) (cls cls' : String) (cs cs' : List (String × Comp (SA α)))
    (h : .node cls cs ∈ vs) (h' : .node cls' cs' ∈ vs) (hne : cls ≠ cls') (axis : String) :
    stack vs axis = .error .typeError ∧ concatenate vs axis = .error .typeError := by
  have key : ∀ {δ : Type} (prep : Comp (SA α) → R (Comp (SA α))) (op : List (SA α) → R δ), nary prep op vs = .error .typeError := by
    intro δ prep op
    have hp : ∃ cls0 names, prototype vs = some (cls0, names) := by
      clear h' hne
      induction vs with
      | nil => cases h
      | cons v vs ih =>
        cases v with
        | leaf a => exact ih (by simpa using h)
        | node cls0 cs0 => exact ⟨_, _, rfl⟩
    obtain ⟨cls0, names, hp⟩ := hp
    unfold nary
    have hd : ∃ n, maxDepth vs = n + 1 := ⟨maxDepth vs - 1, by
      have := maxDepth_ge h
      have := depth_pos (Comp.node cls cs)
      omega⟩
    obtain ⟨n, hd⟩ := hd
    rw [hd]
    simp only [naryAux, hp]
    rw [if_neg]
    intro hall
    rw [List.all_eq_true] at hall
    have h1 := hall _ h
    have h2 := hall _ h'
    simp only [isOfType, decide_eq_true_eq] at h1 h2
    exact hne (h1.trans h2.symm)
  exact ⟨key _ _, key _ _⟩

/-- **C76** (missing component). A vector which lacks the first component of the first vector cannot be stacked with it:
`KeyError`. -/
theorem C76_missing_component (cls k axis : String) (c : Comp (SA α)) (cs cs' : List (String × Comp (SA α)))
    (vs : List (Comp (SA α))) (h : k ∉ keys cs') :
    stack (.node cls ((k, c) :: cs) :: .node cls cs' :: (vs.map (fun v => match v with
      | .leaf a => .leaf a
      | .node _ l => .node cls l))) axis = .error .keyError := by
  unfold stack nary
  generalize hvs : Comp.node cls ((k, c) :: cs) :: .node cls cs' :: (vs.map (fun v => match v with
      | .leaf a => .leaf a
      | .node _ l => .node cls l)) = ws
  have hd : ∃ n, maxDepth ws = n + 1 := ⟨maxDepth ws - 1, by
    have := maxDepth_ge (v := .node cls ((k, c) :: cs)) (vs := ws) (by rw [← hvs]; simp)
    have := depth_pos (Comp.node cls ((k, c) :: cs))
    omega⟩
  obtain ⟨n, hd⟩ := hd
  rw [hd]
  have hp : prototype ws = some (cls, k :: keys cs) := by rw [← hvs]; rfl
  have hall : ws.all (isOfType cls) = true := by
    rw [← hvs, List.all_eq_true]
    intro v hv
    simp only [List.mem_cons, List.mem_map] at hv
    rcases hv with rfl | rfl | ⟨w, _, rfl⟩
    · simp [isOfType]
    · simp [isOfType]
    · cases w <;> simp [isOfType]
  have hprep : ws.mapM (fun v => (.ok v : R (Comp (SA α)))) = .ok ws := by
    clear * -
    induction ws with
    | nil => rfl
    | cons w ws ih => rw [List.mapM_cons, ih]; rfl
  have hk : ws.mapM (component k) = (.error .keyError : R _) := by
    rw [← hvs, List.mapM_cons, List.mapM_cons]
    simp [component, get?_cons, (get?_eq_none).2 h, bind, Except.bind]
  simp only [naryAux, hp, hall, if_true]
  rw [show ws.mapM Except.ok = (.ok ws : R _) from hprep]
  simp only [bind, Except.bind, List.mapM_cons, hk]

theorem nary_prep_error {prep : Comp γ → R (Comp γ)} {op : List γ → R δ} {cls : String} {cs : List (String × Comp γ)} {err : Err}
    (h : prep (.node cls cs) = .error err) : nary prep op [.node cls cs] = .error err := by
  unfold nary
  obtain ⟨n, hd⟩ : ∃ n, maxDepth [Comp.node cls cs] = n + 1 := ⟨maxDepth [Comp.node cls cs] - 1, by
    have := maxDepth_ge (vs := [Comp.node cls cs]) (v := .node cls cs) (by simp)
    have := depth_pos (Comp.node cls cs)
    omega⟩
  rw [hd]
  simp only [naryAux, prototype]
  rw [if_pos (by simp [isOfType])]
  simp only [List.mapM_cons, List.mapM_nil, h, bind, Except.bind]

/-- **C76** (an axis which the vector lacks). The rearranging functions raise an error; they do not return the vector unchanged. -/
theorem C76_missing_axis (cls : String) (cs : List (String × Comp (SA α))) (S : Shape) (hv : (Comp.node cls cs).Fine S)
    (axis : String) (hax : axis ∉ keys S) :
    (∀ repeats, (Comp.node cls cs).repeat' repeats axis = .error .valueError) ∧
    (∀ sub n, (Comp.node cls cs).diff sub axis n = .error .valueError) ∧
    (∀ f, (Comp.node cls cs).cumulative f axis = .error .keyError) ∧
    (∀ indices, (Comp.node cls cs).takeAlongAxis indices axis = .error .valueError) ∧
    ∀ source destination, axis ∈ source → (Comp.node cls cs).moveaxis source destination = .error .valueError := by
  have hg : get? S axis = none := get?_eq_none.2 hax
  have hal : ∀ err, (Comp.node cls cs).alongAxis err axis = .error err := by
    intro err
    unfold alongAxis
    rw [hv.shape]
    simp only [bind, Except.bind, hg]
  refine ⟨fun repeats => ?_, fun sub n => ?_, fun f => nary_prep_error (hal _), fun i => nary_prep_error (hal _),
    fun source destination hm => ?_⟩
  · obtain ⟨p, a, ha⟩ := hv.path
    have key : ∀ a a' : SA α, RelS S a a' → a'.repeat' repeats axis = .error .valueError := fun a a' hr =>
      SA.C57_repeat_error a' repeats axis (by rw [← SA.keys_shape hr.1, hr.2.1]; exact hax)
    exact (nary_single (op := fun a : SA α => a.repeat' repeats axis) relS_refl relS_trans broadcasted_ok _ hv.dicts hv.invS).2
      .valueError (fun a _ a' hr => Or.inr (key a a' hr)) ⟨p, a, ha, fun a' hr => key a a' hr⟩
  · obtain ⟨p, a, ha⟩ := hv.path
    have key : ∀ a a' : SA α, RelS S a a' → a'.diff sub axis n none none = .error .valueError := fun a a' hr =>
      SA.C57_diff_error sub a' hr.1 axis n none none (by rw [← SA.keys_shape hr.1, hr.2.1]; exact hax)
    exact (nary_single (op := fun a : SA α => a.diff sub axis n none none) relS_refl relS_trans broadcasted_ok _ hv.dicts
      hv.invS).2 .valueError (fun a _ a' hr => Or.inr (key a a' hr)) ⟨p, a, ha, fun a' hr => key a a' hr⟩
  · have hs := hv.shape
    simp only [shape] at hs
    cases hss : shapes cs with
    | error e => rw [hss] at hs; cases hs
    | ok ss =>
      rw [hss] at hs
      have hs' : broadcastShapes ss = .ok S := hs
      simp only [moveaxis, bind, Except.bind, hss, hs']
      rw [if_neg]
      rw [List.all_eq_true]
      intro h
      exact hax (by simpa using h axis hm)

/-! ### Examples -/

theorem exT_fine : exT.Fine [("w", 2), ("t", 3)] where
  wf := by
    intro a ha
    simp only [exT, leaves, leavesL, List.cons_append, List.nil_append, List.append_nil, List.mem_cons,
      List.not_mem_nil, or_false] at ha
    rcases ha with rfl | rfl | rfl <;> exact ⟨by decide, by decide⟩
  full := by simp [exT, Full, FullL]
  dicts := by simp [exT, Dicts, DictsL, WF, keys]
  shape := by decide

example : valuesAt (exT.transpose (some ["t", "z", "w"])) ["p", "y"] = some (["t", "z", "w"], [0, 0, 1, 1, 2, 2]) := by decide +kernel
example : valuesAt (exT.transpose none) ["w"] = some (["t", "w"], [0, 5, 0, 5, 0, 5]) := by decide +kernel
example : valuesAt (exT.reshape [("q", 6)]) ["w"] = some (["q"], [0, 0, 0, 5, 5, 5]) := by decide +kernel
example : valuesAt (exT.repeat' (SA.scalar 2) "w") ["p", "x"] = some (["w", "t"], [7, 7, 7, 7, 7, 7, 7, 7, 7, 7, 7, 7]) := by
  decide +kernel
example : valuesAt (exT.diff (· - ·) "t" 1) ["p", "y"] = some (["w", "t"], [1, 1, 1, 1]) := by decide +kernel
example : valuesAt (exT.cumulative List.sum "t") ["p", "x"] = some (["t"], [7, 14, 21]) := by decide +kernel
example : valuesAt (exT.takeAlongAxis ⟨["t"], ND.vec [-1, 0]⟩ "t") ["p", "y"] = some (["t"], [2, 0]) := by decide +kernel
example : valuesAt (exT.takeAlongAxis ⟨["t"], ND.vec [-1, 0]⟩ "t") ["w"] = some (["t", "w"], [0, 5, 0, 5]) := by decide +kernel
example : valuesAt (stack [exT, .leaf (SA.scalar 9)] "s") ["p", "y"] = some (["s", "t"], [0, 1, 2, 9, 9, 9]) := by decide +kernel
example : valuesAt (concatenate [exT, exT] "t") ["p", "x"] = some (["t"], [7, 7, 7, 7, 7, 7]) := by decide +kernel
example : valuesAt (where' 0 (.leaf ⟨["t"], ND.vec [true, false, true]⟩) exT (.leaf (SA.scalar 9))) ["p", "y"] =
    some (["t"], [0, 9, 2]) := by decide +kernel
example : valuesAt (exT.moveaxis ["t"] ["u"]) ["p", "y"] = some (["u"], [0, 1, 2]) := by decide +kernel
example : exT.Along (.leaf (SA.scalar 9)) ∧ exT.Similar exT := ⟨along_leaf _ _, similar_refl _⟩

end Comp
end NA
