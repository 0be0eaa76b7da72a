import Verif.Optimize.Basic
import Verif.Props.VectorReduce
import Verif.Scalar.Arith

/-! Lemmas about the iterations. -/

namespace NA
namespace Optimize
open Dict
open SA (FitsIn InRange)
variable {F σ κ ρ : Type}

/-- Everything about the loop: the variables `st k` at the beginning of the `k`-th round. -/
theorem loop_main (head : σ → R κ) (body : σ → κ → R (ρ ⊕ σ)) (n : Nat) (s : σ) :
    ∃ st : Nat → σ, st 0 = s ∧ (loop head body n s).1.length ≤ n ∧
      (∀ k c, (loop head body n s).1[k]? = some c → head (st k) = .ok c) ∧
      (∀ k c, k + 1 < (loop head body n s).1.length → (loop head body n s).1[k]? = some c →
        body (st k) c = .ok (.inr (st (k + 1)))) ∧
      (∀ r, (loop head body n s).2 = .ok r → ∃ k c, (loop head body n s).1.length = k + 1 ∧
        (loop head body n s).1[k]? = some c ∧ body (st k) c = .ok (.inl r)) ∧
      (∀ e, (loop head body n s).2 = .error e →
        (e = .valueError ∧ (loop head body n s).1.length = n ∧
          ∀ k c, k < n → (loop head body n s).1[k]? = some c → body (st k) c = .ok (.inr (st (k + 1)))) ∨
        (head (st (loop head body n s).1.length) = .error e ∧ (loop head body n s).1.length < n ∧
          ∀ k c, (loop head body n s).1[k]? = some c → body (st k) c = .ok (.inr (st (k + 1)))) ∨
        (∃ k c, (loop head body n s).1.length = k + 1 ∧ (loop head body n s).1[k]? = some c ∧
          body (st k) c = .error e)) := by
  induction n generalizing s with
  | zero =>
    refine ⟨fun _ => s, rfl, Nat.le_refl _, ?_, ?_, ?_, ?_⟩
    · intro k c h; simp [loop] at h
    · intro k c h; simp [loop] at h
    · intro r h; simp [loop] at h
    · intro e h
      simp [loop] at h
      left
      exact ⟨h.symm, rfl, fun k c h => absurd h (by omega)⟩
  | succ n ih =>
    cases hh : head s with
    | error e =>
      rw [show loop head body (n + 1) s = ([], .error e) by simp [loop, hh]]
      refine ⟨fun _ => s, rfl, by simp, ?_, ?_, ?_, ?_⟩
      · intro k c h; simp at h
      · intro k c h; simp at h
      · intro r h; simp at h
      · intro e' h
        simp only [Except.error.injEq] at h
        subst h
        right; left
        exact ⟨hh, by simp, fun k c h => by simp at h⟩
    | ok c =>
      cases hb : body s c with
      | error e =>
        rw [show loop head body (n + 1) s = ([c], .error e) by simp [loop, hh, hb]]
        refine ⟨fun _ => s, rfl, by simp, ?_, ?_, ?_, ?_⟩
        · intro k c' h
          cases k with
          | zero => simp at h; subst h; exact hh
          | succ k => simp at h
        · intro k c' h; simp at h
        · intro r h; simp at h
        · intro e' h
          simp only [Except.error.injEq] at h
          subst h
          right; right
          exact ⟨0, c, rfl, rfl, hb⟩
      | ok v =>
        cases v with
        | inl r =>
          rw [show loop head body (n + 1) s = ([c], .ok r) by simp [loop, hh, hb]]
          refine ⟨fun _ => s, rfl, by simp, ?_, ?_, ?_, ?_⟩
          · intro k c' h
            cases k with
            | zero => simp at h; subst h; exact hh
            | succ k => simp at h
          · intro k c' h; simp at h
          · intro r' h
            simp only [Except.ok.injEq] at h
            subst h
            exact ⟨0, c, rfl, rfl, hb⟩
          · intro e h; simp at h
        | inr s' =>
          rw [show loop head body (n + 1) s = (c :: (loop head body n s').1, (loop head body n s').2) by
            simp [loop, hh, hb]]
          obtain ⟨st, h0, h1, h2, h3, h4, h5⟩ := ih s'
          refine ⟨fun k => Nat.casesOn k s st, rfl, ?_, ?_, ?_, ?_, ?_⟩
          · simp; omega
          · intro k c' h
            cases k with
            | zero => simp at h; subst h; exact hh
            | succ k => simp at h; exact h2 k c' h
          · intro k c' h h'
            cases k with
            | zero => simp at h'; subst h'; simp only [h0]; exact hb
            | succ k => simp at h h'; exact h3 k c' h h'
          · intro r h
            obtain ⟨k, c', h6, h7, h8⟩ := h4 r h
            exact ⟨k + 1, c', by simp [h6], by simpa using h7, h8⟩
          · intro e h
            rcases h5 e h with ⟨h6, h7, h8⟩ | ⟨h6, h7, h8⟩ | ⟨k, c', h6, h7, h8⟩
            · left
              refine ⟨h6, by simp [h7], ?_⟩
              intro k c' hk h'
              cases k with
              | zero => simp at h'; subst h'; simp only [h0]; exact hb
              | succ k => simp at h'; exact h8 k c' (by omega) h'
            · right; left
              refine ⟨h6, by simpa using h7, ?_⟩
              intro k c' h'
              cases k with
              | zero => simp at h'; subst h'; simp only [h0]; exact hb
              | succ k => simp at h'; exact h8 k c' h'
            · right; right
              exact ⟨k + 1, c', by simp [h6], by simpa using h7, h8⟩


open Comp

theorem lift_full {α β : Type} {P : α → β → Prop} : ∀ (x : Comp α) (y : Comp β), x.Lift P y → x.Full → y.Full := by
  refine ind ?_ ?_
  · rintro a (b | _) h1 _ <;> simp_all [Lift, Comp.Full]
  · rintro cls cs ih (_ | ⟨cls', cs'⟩) h1 h2
    · simp [Lift] at h1
    · simp only [Lift, liftL_iff] at h1
      simp only [Comp.Full, fullL_iff] at h2 ⊢
      obtain ⟨_, h1⟩ := h1
      refine ⟨?_, ?_⟩
      · rintro rfl
        cases h1
        exact h2.1 rfl
      · intro p' hp'
        obtain ⟨i, hi, rfl⟩ := List.mem_iff_getElem.1 hp'
        have hl := h1.length_eq
        have h3 := List.forall₂_iff_get.1 h1
        have h4 := h3.2 i (by omega) hi
        exact ih _ (List.getElem_mem _) _ h4.2 (h2.2 _ (List.getElem_mem _))

theorem lift_symm {α β : Type} {P : α → β → Prop} : ∀ (x : Comp α) (y : Comp β), x.Lift P y → y.Lift (fun b a => P a b) x := by
  refine ind ?_ ?_
  · rintro a (b | _) h1 <;> simp_all [Lift]
  · rintro cls cs ih (_ | ⟨cls', cs'⟩) h1
    · simp [Lift] at h1
    · simp only [Lift, liftL_iff] at h1 ⊢
      refine ⟨h1.1.symm, ?_⟩
      obtain ⟨_, h1⟩ := h1
      rw [List.forall₂_iff_get] at h1 ⊢
      refine ⟨h1.1.symm, fun i h h' => ?_⟩
      obtain ⟨h2, h3⟩ := h1.2 i h' h
      exact ⟨h2.symm, ih _ (List.getElem_mem _) _ h3⟩

theorem ufunc2_compFull {α β γ : Type} (f : α → β → R γ) : ∀ (x : Comp α) (y : Comp β) (r : Comp γ), x.Full → y.Full →
    Comp.ufunc2 f x y = .ok r → r.Full := by
  refine ind ?_ ?_
  · rintro a (b | ⟨cls', cs'⟩) r _ h2 h
    · simp only [Comp.ufunc2, bind, Except.bind] at h
      split at h
      · cases h
      · cases h; simp [Comp.Full]
    · exact lift_full _ _ ((C36_scalar_left f a cls' cs' r).1 h) h2
  · rintro cls cs ih (b | ⟨cls', cs'⟩) r h1 h2 h
    · exact lift_full _ _ ((C36_scalar f b cls cs r).1 h) h1
    · have hcls : cls = cls' := by
        by_contra hne
        rw [C36_type_mismatch f cls cls' cs cs' hne] at h
        cases h
      subst hcls
      simp only [Comp.ufunc2, if_true, bind, Except.bind] at h
      cases hl : ufunc2L f cs cs' with
      | error e => rw [hl] at h; simp at h
      | ok rs =>
        rw [hl] at h
        simp only [Except.ok.injEq] at h
        subst h
        simp only [Comp.Full, fullL_iff] at h1 h2 ⊢
        rw [ufunc2L_ok] at hl
        refine ⟨?_, ?_⟩
        · rintro rfl
          cases hl
          exact h1.1 rfl
        · intro p' hp'
          obtain ⟨i, hi, rfl⟩ := List.mem_iff_getElem.1 hp'
          have hlen := hl.length_eq
          have h3 := (List.forall₂_iff_get.1 hl).2 i (by omega) hi
          obtain ⟨_, c', h4, h5⟩ := h3
          exact ih _ (List.getElem_mem _) c' _ (h1.2 _ (List.getElem_mem _)) (h2.2 _ (mem_of_get? h4)) h5


theorem leaf_fits {α : Type} {c : Comp (SA α)} (hc : c.WFLeaves) {S : Shape} (hS : c.shape = .ok S) {a : SA α}
    (ha : a ∈ c.leaves) : FitsIn a.shape S := by
  have h := shape_leaves c hc
  rw [hS] at h
  cases hb : broadcastShapes (c.leaves.map SA.shape) with
  | error e => rw [hb] at h; exact h.elim
  | ok r =>
    rw [hb] at h
    have h2 := SA.fitsIn_of_broadcastShapes hc.shapes hb (List.mem_map_of_mem ha)
    intro ax m hm
    obtain ⟨n, hn, hmn⟩ := h2 ax m hm
    exact ⟨n, by rw [h ax]; exact hn, hmn⟩

theorem leafB_mem {α : Type} {c : Comp α} {p : List String} {a : α} (h : c.leafB p = some a) : a ∈ c.leaves := by
  induction p generalizing c with
  | nil => cases c <;> simp_all [leafB, leaves]
  | cons k p ih =>
    cases c with
    | leaf b => simp_all [leafB, leaves]
    | node cls cs =>
      simp only [leafB] at h
      cases hg : get? cs k with
      | none => simp [hg] at h
      | some c =>
        simp only [hg] at h
        simp only [leaves, mem_leavesL]
        exact ⟨_, mem_of_get? hg, ih h⟩

theorem axes_nil {α : Type} {c : Comp (SA α)} (hc : c.WFLeaves) (hS : c.shape = .ok []) {a : SA α}
    (ha : a ∈ c.leaves) : a.axes = [] := by
  have h := leaf_fits hc hS ha
  rw [← SA.keys_shape (hc a ha)]
  cases hs : a.shape with
  | nil => rfl
  | cons p s =>
    obtain ⟨n, hn, _⟩ := h p.1 p.2 (by rw [hs]; simp [get?_cons])
    simp at hn

theorem reduce_shape {α β : Type} {c : Comp (SA α)} {need : Bool} {f : List α → β} {r : Comp (SA β)}
    (h : c.reduce need f none false = .ok r) : ∃ S, c.shape = .ok S := by
  cases c with
  | leaf a => exact ⟨_, rfl⟩
  | node cls cs =>
    cases hs : (Comp.node cls cs).shape with
    | ok S => exact ⟨S, rfl⟩
    | error e =>
      simp only [Comp.reduce, deep, depth, deepAux, hs, bind, Except.bind] at h
      cases h

theorem allTrue_main {c : Comp (SA Bool)} (hc : c.WFLeaves) (hf : c.Full) (h : allTrue c = .ok true)
    {p : List String} {a : SA Bool} (ha : c.leafAt p = some a) {S : Shape} (hS : c.shape = .ok S)
    {e : String → Nat} (he : InRange S (fun ax => if get? S ax = some 1 then 0 else e ax)) : a.atB e = true := by
  obtain ⟨r, h1, h2⟩ := C37_reduce_none c hc hf S hS false (fun l => l.all id) false (by simp)
  simp only [allTrue, h1, bind, Except.bind, Except.ok.injEq, List.all_eq_true] at h
  obtain ⟨ra, h3, h4, h5, h6⟩ := (lift_leafAt h2 p).1 a ha
  have h7 := h ra (leafAt_mem_leaves h3)
  obtain ⟨l, h8, h9⟩ := h6 (fun ax => if get? S ax = some 1 then 0 else e ax)
  have h10 : ra.atB (fun ax => if get? S ax = some 1 then 0 else e ax) = true := by
    unfold SA.atB SA.at'
    rw [h5 rfl]
    exact h7
  rw [h10] at h9
  have h11 : a.atB (fun ax => if get? S ax = some 1 then 0 else e ax) = true := by
    have h12 := List.all_eq_true.1 h9.symm
    apply h12
    refine List.mem_map.2 ⟨_, ?_, rfl⟩
    rw [h8.2]
    refine ⟨fun ax hax => ?_, fun _ _ => rfl⟩
    obtain ⟨n, hn⟩ := exists_get?_of_mem hax
    exact ⟨n, hn, he ax n hn⟩
  rw [← h11]
  unfold SA.atB
  have h13 := leaf_fits hc hS (leafAt_mem_leaves ha)
  apply SA.at'_congr
  intro ax hax
  by_cases h1 : get? a.shape ax = some 1
  · simp [h1]
  · simp only [h1, if_false]
    split
    · next h2 =>
      obtain ⟨m, hm⟩ := exists_get?_of_mem (show ax ∈ keys a.shape by
        rw [SA.keys_shape (hc a (leafAt_mem_leaves ha))]; exact hax)
      obtain ⟨n, hn, hmn⟩ := h13 ax m hm
      rw [h2] at hn
      cases hn
      rcases hmn with rfl | rfl <;> exact absurd hm h1
    · rfl

theorem small_main {o : Arith F} {f err : Comp (SA F)} (hf : f.WFLeaves) (hff : f.Full) {S : Shape}
    (hS : f.shape = .ok S) (he : err.WFLeaves) (hef : err.Full) (hes : err.shape = .ok []) {conv : Comp (SA Bool)}
    (h : isSmall o f err = .ok conv) (ht : allTrue conv = .ok true) {e : String → Nat} (hr : InRange S e)
    {p : List String} {a b : SA F} (ha : f.leafAt p = some a) (hb : err.leafB p = some b) :
    o.lt (o.abs (a.atB e)) (b.atB e) = true := by
  simp only [isSmall, bind, Except.bind] at h
  cases hm : f.mapM (SA.ufunc1 o.abs) with
  | error e => rw [hm] at h; cases h
  | ok g =>
    rw [hm] at h
    simp only at h
    have hl := lift_with _ _ hf ((mapM_lift _ _ _).1 hm)
    have hl' : f.Lift (fun a g => g.WF ∧ g.shape = a.shape ∧ ∀ e, g.atB e = o.abs (a.atB e)) g := by
      refine lift_mono ?_ _ _ hl
      rintro a g ⟨h1, h2⟩
      obtain ⟨g', h3, h4, h5, h6⟩ := SA.C07_ufunc1_values o.abs a h1
      rw [h2] at h3
      cases h3
      refine ⟨h4, h5, fun e => ?_⟩
      unfold SA.atB
      rw [h6, h5]
    have hgw : g.WFLeaves ∧ ∀ v ∈ g.leaves, ∃ a ∈ f.leaves, v.shape = a.shape := by
      have h3 := lift_leaves _ _ hl'
      constructor
      · intro v hv
        obtain ⟨i, hi, rfl⟩ := List.mem_iff_getElem.1 hv
        have hlen := h3.length_eq
        exact ((List.forall₂_iff_get.1 h3).2 i (by omega) hi).1
      · intro v hv
        obtain ⟨i, hi, rfl⟩ := List.mem_iff_getElem.1 hv
        have hlen := h3.length_eq
        exact ⟨_, List.getElem_mem (by omega), ((List.forall₂_iff_get.1 h3).2 i (by omega) hi).2.1⟩
    have hgf := lift_full _ _ hl' hff
    have hcf := ufunc2_compFull _ _ _ _ hgf hef h
    have hback := ufunc2_leaves _ _ _ _ h
    have hcw : conv.WFLeaves := by
      intro v hv
      obtain ⟨a, ha, b, hb, hab⟩ := hback v hv
      exact (SA.ufunc2_ok (hgw.1 a ha) (he b hb) hab).1
    have hz : ∀ b ∈ err.leaves, ∀ T, FitsIn b.shape T := by
      intro b hb T ax m hm
      have h1 := mem_keys_of_get? hm
      rw [SA.keys_shape (he b hb), axes_nil he hes hb] at h1
      simp at h1
    obtain ⟨g0, h1, h2, h3, h4⟩ := (lift_leafAt hl' p).1 a ha
    have hg0 := leafAt_mem_leaves h1
    obtain ⟨v, hv, ⟨hvw, hvf⟩, hvat⟩ := ufunc2_fits' (S := g0.shape) o.lt
      (show Fits g0.shape g0 from ⟨h2, fun ax m hm => ⟨m, hm, .inl rfl⟩⟩)
      (show Fits g0.shape b from ⟨he b (leafB_mem hb), hz b (leafB_mem hb) _⟩)
    have hcv : conv.leafAt p = some v :=
      (C36_at_path _ _ _ _ h p v).2 ⟨g0, b, leafB_of_leafAt h1, hb, .inl h1, hv⟩
    rw [← h4, ← hvat]
    have hsc : ∃ Sc, conv.shape = .ok Sc := by
      simp only [allTrue, bind, Except.bind] at ht
      cases hred : conv.reduce false (fun l => l.all id) none false with
      | error e => rw [hred] at ht; cases ht
      | ok r => exact reduce_shape hred
    obtain ⟨Sc, hsc⟩ := hsc
    refine allTrue_main hcw hcf ht hcv hsc ?_
    intro ax n hn
    simp only [hn, Option.some.injEq]
    have hout := shape_leaves conv hcw
    rw [hsc] at hout
    cases hbs : broadcastShapes (conv.leaves.map SA.shape) with
    | error e => rw [hbs] at hout; exact hout.elim
    | ok T =>
      rw [hbs] at hout
      obtain ⟨_, _, h5⟩ := C01_broadcast_shapes_ok _ hcw.shapes T hbs
      obtain ⟨⟨s, hs, hsn⟩, _⟩ := h5 ax n (by rw [← hout ax]; exact hn)
      obtain ⟨w, hw, rfl⟩ := List.mem_map.1 hs
      obtain ⟨g1, hg1, b1, hb1, hgb⟩ := hback w hw
      obtain ⟨a1, ha1, hsh⟩ := hgw.2 g1 hg1
      obtain ⟨_, h6, _⟩ := SA.ufunc2_ok (hgw.1 g1 hg1) (he b1 hb1) hgb
      have h7 := same_of_fits (S := g1.shape) (fun _ => rfl) (hz b1 hb1 _) (SA.wf_shape (hgw.1 g1 hg1))
        (SA.wf_shape (he b1 hb1)) h6
      rw [h7 ax, hsh] at hsn
      obtain ⟨m, hm, hnm⟩ := leaf_fits hf hS ha1 ax n hsn
      have := hr ax m hm
      split <;> omega

end Optimize
end NA
