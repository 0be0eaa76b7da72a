import Verif.Interp.Basic
import Verif.Interp.Spec
import Verif.Scalar.Arith
import Verif.Props.Indexing

/-! Lemmas about `_nlerp`. -/

namespace NA
open Dict
open SA (FitsIn InRange)

variable {α K : Type}

theorem sliceLen_init (n : Nat) : sliceLen n ⟨none, some (-1), none⟩ = n - 1 := by
  unfold sliceLen Slice.resolve Slice.clampBound
  simp
  split_ifs <;> omega

theorem slicePos_init (n k : Nat) : slicePos n ⟨none, some (-1), none⟩ k = k := by
  unfold slicePos Slice.resolve Slice.clampBound
  simp [RSlice.pos]

theorem sliceLen_tail (n : Nat) : sliceLen n ⟨some 1, none, none⟩ = n - 1 := by
  unfold sliceLen Slice.resolve Slice.clampBound
  simp
  split_ifs <;> omega

theorem slicePos_tail (n k : Nat) (h : 0 < n) : slicePos n ⟨some 1, none, none⟩ k = k + 1 := by
  unfold slicePos Slice.resolve Slice.clampBound
  simp [RSlice.pos]
  split_ifs <;> omega

/-- Indexing by one slice. -/
theorem SA.getitem_slice {a : SA α} (ha : a.WF) (axis : String) (sl : Slice) (hs : sl.step ≠ some 0) :
    ∃ r, a.getitem [(axis, .slice sl)] = .ok r ∧ r.WF ∧ r.axes = a.axes ∧
      (∀ ax, get? r.shape ax = if ax = axis then (get? a.shape ax).map (fun n => sliceLen n sl) else get? a.shape ax) ∧
      ∀ e, r.at' e = a.at' (fun ax => if ax = axis then slicePos ((get? a.shape ax).getD 0) sl (e ax) else e ax) := by
  have hget : ∀ ax, get? ([(axis, .slice sl)] : Dict IndexVal) ax = if axis = ax then some (.slice sl) else none := by
    intro ax; simp [get?]
  have hi : SA.BasicItem [(axis, .slice sl)] := by
    refine ⟨by unfold Dict.WF keys; simp, fun ax b h => ?_⟩
    rw [hget] at h
    split at h <;> cases h
  have hns : ∀ ax, ¬ SA.IntAt [(axis, .slice sl)] ax := by
    rintro ax ⟨i, h⟩
    rw [hget] at h
    split at h <;> cases h
  obtain ⟨r, h1, h2, h3, h4, h5, h6⟩ := SA.C13_getitem_basic a ha [(axis, .slice sl)] hi
    (by
      intro ax _ s' h
      rw [hget] at h
      split at h <;> cases h
      exact hs)
    (by
      intro ax n hn
      refine ⟨fun i h => ?_, fun b h => ?_⟩ <;> rw [hget] at h <;> split at h <;> cases h)
  have hax : r.axes = a.axes := h4.eq_of_length_le (by
    have := (List.subperm_of_subset ha.2 (l₂ := r.axes) (fun x hx => (h3 x).2 ⟨hx, hns x⟩)).length_le
    exact this)
  refine ⟨r, h1, h2, hax, fun ax => ?_, fun e => ?_⟩
  · by_cases hm : ax ∈ a.axes
    · obtain ⟨n, hn⟩ := exists_get?_of_mem (show ax ∈ keys a.shape by rw [SA.keys_shape ha]; exact hm)
      rw [h5 ax (by rw [hax]; exact hm), hn]
      unfold SA.selLen
      rw [hget, hn]
      by_cases he : axis = ax
      · subst he; simp
      · rw [if_neg he, if_neg (fun h => he h.symm)]; simp
    · have e1 : get? a.shape ax = none := by
        rw [get?_eq_none, SA.keys_shape ha]; exact hm
      have e2 : get? r.shape ax = none := by
        rw [get?_eq_none, SA.keys_shape h2, hax]; exact hm
      rw [e1, e2]; simp
  · rw [h6]
    apply SA.at'_congr
    intro ax _
    unfold SA.selIdx
    rw [hget]
    by_cases he : axis = ax
    · subst he; simp
    · rw [if_neg he, if_neg (fun h => he h.symm)]

section
variable [Field K]

theorem lerp_ok {S : Shape} {x a0 a1 : SA K} (hx : Fits S x) (h0 : Full S a0) (h1 : Full S a1) :
    ∃ r, SA.lerp x a0 a1 = .ok r ∧ Full S r ∧
      ∀ e, r.atB e = a0.atB e * (1 - x.atB e) + a1.atB e * x.atB e := by
  obtain ⟨w, hw1, hw2, hw3⟩ := ufunc2_fits' (· - ·) (fits_scalar S (1 : K)) hx
  obtain ⟨l, hl1, hl2, hl3⟩ := ufunc2_full (· * ·) h0 hw2
  obtain ⟨r, hr1, hr2, hr3⟩ := ufunc2_full (· * ·) h1 hx
  obtain ⟨s, hs1, hs2, hs3⟩ := ufunc2_full (· + ·) hl2 hr2.fits
  refine ⟨s, ?_, hs2, fun e => ?_⟩
  · simp only [SA.lerp, bind, Except.bind, hw1, hl1, hr1, hs1]
  · rw [hs3, hl3, hr3, hw3]
    rfl

theorem nlerp_ok {S : Shape} : ∀ (i : Dict (SA K)) (a : SA K), a.WF → Dict.WF i → (∀ p ∈ i, Fits S p.2) →
    (∀ ax ∈ keys i, ax ∈ a.axes) →
    (∀ ax, get? S ax = if ax ∈ keys i then (get? a.shape ax).map (· - 1) else get? a.shape ax) →
    ∃ r, SA.nlerp i a = .ok r ∧ Full S r ∧ ∀ e, InRange S e →
      r.at' e = multilerp (keys i).toFinset (fun ax => ((get? i ax).map (fun x => x.atB e)).getD 0) a.at' e
  | [], a, ha, _, _, _, hS => by
    refine ⟨a, rfl, ⟨ha, fun ax => ?_⟩, fun e _ => ?_⟩
    · rw [hS ax]; simp [keys]
    · simp [keys, multilerp_empty]
  | (axis, x) :: i, a, ha, hi, hf, hk, hS => by
    have hax : axis ∈ a.axes := hk axis (by simp [keys])
    rw [wf_cons] at hi
    obtain ⟨n, hn⟩ := exists_get?_of_mem (show axis ∈ keys a.shape by rw [SA.keys_shape ha]; exact hax)
    obtain ⟨a0, h01, h02, h03, h04, h05⟩ := SA.getitem_slice ha axis ⟨none, some (-1), none⟩ (by simp)
    obtain ⟨a1, h11, h12, h13, h14, h15⟩ := SA.getitem_slice ha axis ⟨some 1, none, none⟩ (by simp)
    simp only [sliceLen_init, sliceLen_tail] at h04 h14
    have hS' : ∀ (b : SA K), (∀ ax, get? b.shape ax =
        if ax = axis then (get? a.shape ax).map (fun n => n - 1) else get? a.shape ax) →
        ∀ ax, get? S ax = if ax ∈ keys i then (get? b.shape ax).map (· - 1) else get? b.shape ax := by
      intro b hb ax
      rw [hS ax, hb ax]
      by_cases he : ax = axis
      · subst he
        have : ax ∉ keys i := hi.1
        rw [if_pos (by simp [keys]), if_neg this, if_pos rfl]
      · have : (ax ∈ keys ((axis, x) :: i)) ↔ ax ∈ keys i := by simp [keys, he]
        simp only [this, if_neg he]
    obtain ⟨r0, hr01, hr02, hr03⟩ := nlerp_ok (S := S) i a0 h02 hi.2 (fun p hp => hf p (by simp [hp]))
      (fun ax h => by rw [h03]; exact hk ax (by simp only [keys, List.map_cons, List.mem_cons]; exact .inr h)) (hS' a0 h04)
    obtain ⟨r1, hr11, hr12, hr13⟩ := nlerp_ok (S := S) i a1 h12 hi.2 (fun p hp => hf p (by simp [hp]))
      (fun ax h => by rw [h13]; exact hk ax (by simp only [keys, List.map_cons, List.mem_cons]; exact .inr h)) (hS' a1 h14)
    obtain ⟨r, hr1, hr2, hr3⟩ := lerp_ok (hf (axis, x) (by simp)) hr02 hr12
    refine ⟨r, ?_, hr2, fun e he => ?_⟩
    · simp only [SA.nlerp, bind, Except.bind, h01, h11, hr01, hr11, hr1]
    · have hn0 : 0 < n := by
        have := he axis (n - 1) (by rw [hS axis, hn]; simp [keys])
        omega
      rw [← hr2.atB he, hr3, hr02.atB he, hr12.atB he, hr03 e he, hr13 e he]
      have hins : (keys ((axis, x) :: i)).toFinset = insert axis (keys i).toFinset := by simp [keys]
      have hnot : axis ∉ (keys i).toFinset := by rw [List.mem_toFinset]; exact hi.1
      rw [hins, multilerp_insert hnot]
      have hu : ∀ ax ∈ (keys i).toFinset, ((get? i ax).map (fun x => x.atB e)).getD 0 =
          ((get? ((axis, x) :: i) ax).map (fun x => x.atB e)).getD 0 := by
        intro ax hax
        rw [get?_cons, if_neg]
        rintro rfl
        exact hnot hax
      have hx : ((get? ((axis, x) :: i) axis).map (fun x => x.atB e)).getD 0 = x.atB e := by
        rw [get?_cons]; simp
      rw [hx]
      congr 2
      · apply multilerp_congr hu
        intro T _
        rw [h05]
        apply SA.at'_congr
        intro ax _
        split
        · rw [slicePos_init]
        · rfl
      · unfold multilerp
        apply Finset.sum_congr rfl
        intro T hT
        rw [Finset.mem_powerset] at hT
        have hT' : axis ∉ T := fun h => hnot (hT h)
        have h1 : ∏ ax ∈ T, ((get? i ax).map (fun x => x.atB e)).getD 0 =
            ∏ ax ∈ T, ((get? ((axis, x) :: i) ax).map (fun x => x.atB e)).getD 0 :=
          Finset.prod_congr rfl (fun ax hax => hu ax (hT hax))
        have h2 : ∏ ax ∈ (keys i).toFinset \ T, (1 - ((get? i ax).map (fun x => x.atB e)).getD 0) =
            ∏ ax ∈ (keys i).toFinset \ T, (1 - ((get? ((axis, x) :: i) ax).map (fun x => x.atB e)).getD 0) :=
          Finset.prod_congr rfl (fun ax hax => by rw [hu ax (Finset.mem_sdiff.1 hax).1])
        rw [h1, h2, h15]
        congr 1
        apply SA.at'_congr
        intro ax _
        unfold corner
        by_cases hx : ax = axis
        · subst hx
          rw [if_pos rfl, hn, Option.getD_some, slicePos_tail _ _ hn0]
          simp [hT']
        · simp [hx]

end

theorem foldl_set {β : Type} (w : String → β) (l : List String) (d : Dict β) (hd : Dict.WF d) :
    Dict.WF (l.foldl (fun d ax => d.set ax (w ax)) d) ∧
      ∀ ax, get? (l.foldl (fun d ax => d.set ax (w ax)) d) ax = if ax ∈ l then some (w ax) else get? d ax := by
  induction l generalizing d with
  | nil => simp [hd]
  | cons x l ih =>
    obtain ⟨h1, h2⟩ := ih (d.set x (w x)) (wf_set hd _ _)
    refine ⟨h1, fun ax => ?_⟩
    rw [List.foldl_cons, h2 ax, get?_set]
    by_cases h : ax ∈ l
    · simp [h]
    · by_cases hx : ax = x
      · subst hx; simp [h]
      · simp [h, hx, Ne.symm hx]

end NA
