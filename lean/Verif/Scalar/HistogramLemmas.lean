import Verif.Scalar.Histogram
import Verif.Scalar.ReduceLemmas
import Verif.Props.Shapes
import Verif.Props.Elementwise
import Verif.Scalar.Rep

/-!
# Lemmas about histograms
-/

namespace NA
open Dict
open SA (FitsIn InRange)

/-! ### Broadcasting to a known shape -/

theorem broadcast_exact {ss : List Shape} (hw : ∀ s ∈ ss, WF s) {T : Shape} (hfit : ∀ s ∈ ss, FitsIn s T)
    (hex : ∀ ax n, get? T ax = some n → ∃ s ∈ ss, get? s ax = some n) :
    ∃ r, broadcastShapes ss = .ok r ∧ WF r ∧ ∀ ax, get? r ax = get? T ax := by
  cases h : broadcastShapes ss with
  | error e =>
    obtain ⟨ax, m, n, ⟨s, hs, hm⟩, ⟨t, ht, hn⟩, h1, h2, h3⟩ := (C01_broadcast_shapes_error_iff ss hw).1 ⟨e, h⟩
    obtain ⟨k, hk, hmk⟩ := hfit s hs ax m hm
    obtain ⟨k', hk', hnk⟩ := hfit t ht ax n hn
    rw [hk] at hk'
    injection hk' with hk'
    omega
  | ok r =>
    obtain ⟨r1, r2, r3⟩ := C01_broadcast_shapes_ok ss hw r h
    refine ⟨r, rfl, r1, fun ax => ?_⟩
    cases hT : get? T ax with
    | none =>
      rw [get?_eq_none, r2]
      rintro ⟨s, hs, hk⟩
      obtain ⟨m, hm⟩ := exists_get?_of_mem hk
      obtain ⟨n, hn, _⟩ := hfit s hs ax m hm
      rw [hT] at hn; cases hn
    | some n =>
      obtain ⟨s, hs, hsn⟩ := hex ax n hT
      obtain ⟨k, hk⟩ := exists_get?_of_mem ((r2 ax).2 ⟨s, hs, mem_keys_of_get? hsn⟩)
      obtain ⟨⟨t, ht, htk⟩, h2⟩ := r3 ax k hk
      obtain ⟨n', hn', h3⟩ := hfit t ht ax k htk
      rw [hT] at hn'
      injection hn' with hn'
      have := h2 n ⟨s, hs, hsn⟩
      rw [hk]
      congr 1
      omega

section
variable {K : Type} [Field K] [LinearOrder K]

/-! ### The number of a bin -/

theorem inOrder_iff (es : List K) : inOrder es = true ↔ ∀ i (h : i + 1 < es.length), es[i] ≤ es[i + 1] := by
  unfold inOrder
  rw [List.all_eq_true]
  constructor
  · intro h i hi
    have hm : (es[i], es[i + 1]) ∈ es.zip es.tail := by
      rw [List.mem_iff_getElem]
      refine ⟨i, by simp; omega, ?_⟩
      simp
    simpa using h _ hm
  · intro h p hp
    obtain ⟨i, hi, rfl⟩ := List.mem_iff_getElem.1 hp
    simp only [List.length_zip, List.length_tail] at hi
    simpa using h i (by omega)

theorem inOrder_mono {es : List K} (h : inOrder es = true) {i j : Nat} (hij : i ≤ j) (hj : j < es.length) :
    es[i] ≤ es[j] := by
  rw [inOrder_iff] at h
  induction j with
  | zero =>
    have : i = 0 := by omega
    subst this; exact le_refl _
  | succ j ih =>
    by_cases hi : i = j + 1
    · subst hi; exact le_refl _
    · exact le_trans (ih (by omega) (by omega)) (h j hj)

theorem countP_iff {es : List K} (h : inOrder es = true) (x : K) (i : Nat) (hi : i < es.length) :
    es[i] ≤ x ↔ i < es.countP (fun y => decide (y ≤ x)) := by
  have hm : ∀ i j (_ : i ≤ j) (hj : j < es.length), es[i] ≤ es[j] := fun i j hij hj => inOrder_mono h hij hj
  clear h
  induction es generalizing i with
  | nil => simp at hi
  | cons y es ih =>
    have hm' : ∀ i j (_ : i ≤ j) (hj : j < es.length), es[i] ≤ es[j] := by
      intro i j hij hj
      have := hm (i + 1) (j + 1) (by omega) (by simpa using hj)
      simpa using this
    by_cases hy : y ≤ x
    · rw [List.countP_cons_of_pos (by simpa using hy)]
      cases i with
      | zero => simpa using hy
      | succ i =>
        have hlt : i < es.length := by simpa using hi
        have := ih i hlt hm'
        simp only [List.getElem_cons_succ]
        exact this.trans (by omega)
    · rw [List.countP_cons_of_neg (by simpa using hy)]
      have hall : ∀ j (hj : j < (y :: es).length), ¬ (y :: es)[j] ≤ x := by
        intro j hj hle
        exact hy (le_trans (hm 0 j (by omega) hj) hle)
      have : es.countP (fun y => decide (y ≤ x)) = 0 := by
        rw [List.countP_eq_zero]
        intro z hz
        obtain ⟨j, hj, rfl⟩ := List.mem_iff_getElem.1 hz
        have := hall (j + 1) (by simpa using hj)
        simpa using this
      rw [this]
      simp only [not_lt_zero, iff_false]
      exact hall i hi

theorem binNumber_eq {es : List K} (h : inOrder es = true) (m : Nat) (hm : es.length = m + 1) (x : K) :
    binNumber es x = if es[m]'(by omega) = x then m else es.countP (fun y => decide (y ≤ x)) := by
  unfold binNumber
  have hlast : es.getLast? = some (es[m]'(by omega)) := by
    rw [List.getLast?_eq_getElem?, List.getElem?_eq_getElem (by omega)]
    simp [hm]
  rw [hlast]
  by_cases hx : es[m]'(by omega) = x
  · have h1 := (countP_iff h x m (by omega)).1 (le_of_eq hx)
    have h2 : es.countP (fun y => decide (y ≤ x)) ≤ es.length := List.countP_le_length
    rw [if_pos hx, if_pos (by rw [hx])]
    omega
  · rw [if_neg hx, if_neg (by simpa using hx)]
    rfl

theorem binNumber_iff {es : List K} (h : inOrder es = true) (m : Nat) (hm : es.length = m + 1) (x : K) (k : Nat) (hk : k < m) :
    binNumber es x = k + 1 ↔ es[k]'(by omega) ≤ x ∧
      (x < es[k + 1]'(by omega) ∨ (k + 1 = m ∧ x = es[m]'(by omega))) := by
  rw [binNumber_eq h m hm x]
  by_cases hx : es[m]'(by omega) = x
  · rw [if_pos hx]
    constructor
    · intro hkm
      exact ⟨by rw [← hx]; exact inOrder_mono h (by omega) (by omega), .inr ⟨hkm.symm, hx.symm⟩⟩
    · rintro ⟨_, h2 | ⟨h2, _⟩⟩
      · rw [← hx] at h2
        exact absurd (inOrder_mono h (by omega) (by omega)) (not_le.2 h2)
      · exact h2.symm
  · rw [if_neg hx]
    have h1 := countP_iff h x k (by omega)
    have h2 := countP_iff h x (k + 1) (by omega)
    constructor
    · intro hc
      refine ⟨h1.2 (by omega), .inl (not_le.1 fun hle => ?_)⟩
      have := h2.1 hle
      omega
    · rintro ⟨h3, h4 | ⟨_, h4⟩⟩
      · have h5 := h1.1 h3
        have h6 : ¬ (k + 1 < es.countP (fun y => decide (y ≤ x))) := fun hlt => absurd (h2.2 hlt) (not_le.2 h4)
        omega
      · exact absurd h4.symm hx

theorem binNumber_range {es : List K} (h : inOrder es = true) (m : Nat) (hm : es.length = m + 1) (h0 : 0 < m) (x : K) :
    (1 ≤ binNumber es x ∧ binNumber es x ≤ m) ↔ es[0]'(by omega) ≤ x ∧ x ≤ es[m]'(by omega) := by
  rw [binNumber_eq h m hm x]
  by_cases hx : es[m]'(by omega) = x
  · rw [if_pos hx]
    have := inOrder_mono h (i := 0) (j := m) (by omega) (by omega)
    constructor
    · intro _
      exact ⟨by rw [← hx]; exact this, le_of_eq hx.symm⟩
    · intro _
      exact ⟨h0, le_refl _⟩
  · rw [if_neg hx]
    have h1 := countP_iff h x 0 (by omega)
    have h2 := countP_iff h x m (by omega)
    constructor
    · rintro ⟨h3, h4⟩
      refine ⟨h1.2 (by omega), le_of_not_ge fun hge => ?_⟩
      have := h2.1 hge
      omega
    · rintro ⟨h3, h4⟩
      have h5 := h1.1 h3
      have h6 : ¬ (m < es.countP (fun y => decide (y ≤ x))) := fun hlt => hx (le_antisymm (h2.2 hlt) h4)
      omega

/-! ### The slices -/

theorem mem_orthogonal {S : Shape} {A : List String} {x : String} : x ∈ keys (orthogonal S A) ↔ x ∈ keys S ∧ x ∉ A := by
  unfold orthogonal keys
  simp only [List.mem_map, List.mem_filter, decide_eq_true_eq]
  constructor
  · rintro ⟨q, ⟨h1, h2⟩, rfl⟩; exact ⟨⟨q, h1, rfl⟩, h2⟩
  · rintro ⟨⟨q, h1, rfl⟩, h2⟩; exact ⟨q, ⟨h1, h2⟩, rfl⟩

theorem get?_orthogonal (S : Shape) (A : List String) (x : String) :
    get? (orthogonal S A) x = if x ∉ A then get? S x else none := SA.get?_filter S (· ∉ A) x

theorem wf_orthogonal {S : Shape} (hS : WF S) (A : List String) : WF (orthogonal S A) := by
  unfold WF orthogonal keys
  exact List.Nodup.sublist (List.filter_sublist.map _) hS

theorem sampleList_ok {α : Type} (p : SA α) (hp : p.WF) {A : List String} (hA : A.Nodup) (hAs : A ⊆ p.axes)
    {e : String → Nat} (he : InRange (orthogonal p.shape A) e) :
    sampleList p A (itemAt (keys (orthogonal p.shape A)) e) = .ok ((slabEnvs A p.size1 e).map p.at') := by
  have hO : (keys (orthogonal p.shape A)).Nodup := wf_orthogonal (SA.wf_shape hp) A
  obtain ⟨s, s1, s2, s3, s4, s5⟩ := SA.getitem_itemAt p hp hO (e := e) (by
    intro ax hax n hn
    refine he ax n ?_
    rw [get?_orthogonal, if_pos (mem_orthogonal.1 hax).2, hn])
  obtain ⟨v, hv⟩ := SA.aligned_isOk s2 hA (by
    intro x hx
    rw [s3, List.mem_filter, decide_eq_true_eq, mem_orthogonal, SA.keys_shape hp] at hx
    by_contra h
    exact hx.2 ⟨hx.1, h⟩)
  obtain ⟨_, v2, v3⟩ := SA.aligned_ok s2 hA hv
  unfold sampleList
  simp only [bind, Except.bind, s1, hv]
  congr 1
  unfold ND.toList slabEnvs
  have hsh : v.shape = A.map p.size1 := by
    rw [v2]
    apply List.map_congr_left
    intro ax hax
    rw [s4, if_neg (fun h => (mem_orthogonal.1 h).2 hax)]
    obtain ⟨n, hn⟩ := exists_get?_of_mem (d := p.shape) (by rw [SA.keys_shape hp]; exact hAs hax)
    simp [SA.size1, hn]
  rw [hsh, List.map_map]
  apply List.map_congr_left
  intro i hi
  have hl : i.length = A.length := by simpa using ND.inRange_length (ND.mem_ndIndices_iff.1 hi)
  simp only [Function.comp_apply]
  rw [← map_slabEnv hA hl e, v3, s5, map_slabEnv hA hl e]
  apply SA.at'_congr
  intro x hx
  by_cases h : x ∈ A
  · rw [if_neg (fun h' => (mem_orthogonal.1 h').2 h)]
  · rw [if_pos (mem_orthogonal.2 ⟨by rw [SA.keys_shape hp]; exact hx, h⟩)]
    simp [slabEnv, h]

theorem edgeList_ok {b : SA K} (hb : b.WF) {ax : String} (hax : b.axes = [ax]) {n : Nat} (hn : get? b.shape ax = some n) :
    edgeList b = .ok ((List.range n).map (fun k => b.at' (fun _ => k))) := by
  have hsh : b.nd.shape = [n] := by
    rw [SA.shape_eq_map hb, hax]
    simp [SA.sizeOf', hn]
  unfold edgeList
  rw [hsh]
  show Except.ok _ = _
  congr 1
  unfold ND.toList
  rw [hsh]
  have : ndIndices [n] = (List.range n).map (fun k => [k]) := by
    simp only [ndIndices, List.map_cons, List.map_nil]
    exact (List.map_eq_flatMap ..).symm
  rw [this, List.map_map]
  apply List.map_congr_left
  intro k _
  unfold SA.at'
  rw [hax]
  rfl

end
end NA
