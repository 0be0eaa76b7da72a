import Mathlib.Order.Basic
import Mathlib.Data.Finset.Card
import Mathlib.Data.Finset.Range
import Mathlib.Data.Finset.Image
import Verif.Stats.Basic

/-! Helper lemmas about groups of equal elements in a sorted sequence. -/

namespace NA
open Dict

variable {α : Type} [LinearOrder α]

/-- The order of floating point numbers used for sorting: `nan` comes last. -/
def leFloat : Option α → Option α → Prop
  | _, none => True
  | none, some _ => False
  | some x, some y => x ≤ y

theorem leFloat_refl (x : Option α) : leFloat x x := by cases x <;> simp [leFloat]

theorem leFloat_trans {x y z : Option α} (h : leFloat x y) (h' : leFloat y z) : leFloat x z := by
  cases x <;> cases y <;> cases z <;> simp_all [leFloat]
  exact le_trans h h'

theorem leFloat_antisymm {x y : Option α} (h : leFloat x y) (h' : leFloat y x) : x = y := by
  cases x <;> cases y <;> simp_all [leFloat]
  exact le_antisymm h h'

theorem neFloat_false {x y : Option α} : neFloat x y = false ↔ x = y ∧ x.isSome := by
  cases x <;> cases y <;> simp [neFloat]

/-- the number of the group of the `i`-th element -/
def groupOf (s : Nat → Option α) : Nat → Nat
  | 0 => 1
  | i + 1 => groupOf s i + if neFloat (s (i + 1)) (s i) then 1 else 0

theorem groupOf_pos (s : Nat → Option α) (i : Nat) : 1 ≤ groupOf s i := by
  induction i with
  | zero => exact le_refl _
  | succ i ih => rw [groupOf]; omega

theorem groupOf_le (s : Nat → Option α) (i : Nat) : groupOf s i ≤ i + 1 := by
  induction i with
  | zero => exact le_refl _
  | succ i ih => rw [groupOf]; split <;> omega

theorem groupOf_mono (s : Nat → Option α) {i j : Nat} (h : i ≤ j) : groupOf s i ≤ groupOf s j := by
  induction j, h using Nat.le_induction with
  | base => exact le_refl _
  | succ j _ ih => rw [groupOf]; omega

/-- elements of one group are equal -/
theorem eq_of_group (s : Nat → Option α) {i j : Nat} (h : i ≤ j) (hg : groupOf s i = groupOf s j) : s i = s j := by
  induction j, h using Nat.le_induction with
  | base => rfl
  | succ j hij ih =>
    have h1 := groupOf_mono s hij
    rw [groupOf] at hg
    cases hn : neFloat (s (j + 1)) (s j) with
    | true => rw [hn] at hg; simp at hg; omega
    | false =>
      rw [hn] at hg
      rw [ih (by simpa using hg), (neFloat_false.1 hn).1]

/-- equal elements which are not `nan` are in one group -/
theorem group_of_eq {s : Nat → Option α} {n : Nat} (hs : ∀ i j, i ≤ j → j < n → leFloat (s i) (s j)) {i j : Nat}
    (h : i ≤ j) (hj : j < n) {v : α} (hi : s i = some v) (hv : s j = some v) : groupOf s i = groupOf s j := by
  induction j, h using Nat.le_induction with
  | base => rfl
  | succ j hij ih =>
    have h1 := hs i j hij (by omega)
    have h2 := hs j (j + 1) (by omega) hj
    rw [hi] at h1
    rw [hv] at h2
    have h3 : s j = some v := (leFloat_antisymm h1 h2).symm
    have hn : neFloat (s (j + 1)) (s j) = false := neFloat_false.2 ⟨by rw [hv, h3], by rw [hv]; rfl⟩
    rw [groupOf, hn]
    simpa using ih (by omega) h3

theorem countP_range_lt (n k : Nat) (hk : k ≤ n) (p : Nat → Bool) (hp : ∀ j < n, p j = true ↔ j < k) :
    (List.range n).countP p = k := by
  obtain ⟨m, rfl⟩ : ∃ m, n = k + m := ⟨n - k, by omega⟩
  rw [List.range_add, List.countP_append]
  have h1 : (List.range k).countP p = k := by
    have := List.countP_eq_length (p := p) (l := List.range k)
    rw [List.length_range] at this
    exact this.2 (fun j hj => (hp j (by have := List.mem_range.1 hj; omega)).2 (List.mem_range.1 hj))
  have h2 : ((List.range m).map (k + ·)).countP p = 0 := by
    rw [List.countP_eq_zero]
    intro j hj
    rw [List.mem_map] at hj
    obtain ⟨i, hi, rfl⟩ := hj
    have := List.mem_range.1 hi
    have h3 := hp (k + i) (by omega)
    intro h
    have := h3.1 h
    omega
  rw [h1, h2]; rfl

/-- a number which is at most `v` -/
def leqTo (v : α) (x : Option α) : Bool := x.any (fun y => decide (y ≤ v))

/-- a number which is less than `v` -/
def lessThan (v : α) (x : Option α) : Bool := x.any (fun y => decide (y < v))

/-- If `L` is the last element of the group of `i` then `L + 1` elements are at most the `i`-th one. -/
theorem count_leq {s : Nat → Option α} {n : Nat} (hs : ∀ i j, i ≤ j → j < n → leFloat (s i) (s j)) {i L : Nat}
    (hL : L < n) (hgL : groupOf s L = groupOf s i) (hlast : ∀ j < n, groupOf s j = groupOf s i → j ≤ L)
    (hi : i < n) {v : α} (hv : s i = some v) :
    (List.range n).countP (fun j => leqTo v (s j)) = L + 1 := by
  have hiL : i ≤ L := hlast i hi rfl
  have hsL : s L = some v := by rw [← hv]; exact (eq_of_group s hiL hgL.symm).symm
  apply countP_range_lt _ _ (by omega)
  intro j hj
  constructor
  · intro h
    by_contra hc
    have h1 := hs L j (by omega) hj
    rw [hsL] at h1
    cases hsj : s j with
    | none => simp [leqTo, hsj] at h
    | some y =>
      rw [hsj] at h1
      simp only [leqTo, hsj, Option.any_some, decide_eq_true_eq] at h
      have : y = v := le_antisymm h h1
      subst this
      have := hlast j hj (by rw [← group_of_eq hs (i := L) (by omega) hj hsL hsj, hgL])
      omega
  · intro h
    have h1 := hs j L (by omega) hL
    rw [hsL] at h1
    cases hsj : s j with
    | none => rw [hsj] at h1; simp [leFloat] at h1
    | some y => rw [hsj] at h1; simpa [leqTo, leFloat] using h1

/-- Nothing is less than an element of the first group. -/
theorem count_less_first {s : Nat → Option α} {n : Nat} (hs : ∀ i j, i ≤ j → j < n → leFloat (s i) (s j)) {i : Nat}
    (hi : i < n) (hg : groupOf s i = 1) {v : α} (hv : s i = some v) :
    (List.range n).countP (fun j => lessThan v (s j)) = 0 := by
  rw [List.countP_eq_zero]
  intro j hj h
  have h0 : s 0 = some v := by rw [← hv]; exact eq_of_group s (by omega) (by rw [hg]; rfl)
  have h1 := hs 0 j (by omega) (List.mem_range.1 hj)
  rw [h0] at h1
  cases hsj : s j with
  | none => simp [lessThan, hsj] at h
  | some y =>
    rw [hsj] at h1
    simp only [lessThan, hsj, Option.any_some, decide_eq_true_eq] at h
    exact absurd h (not_lt.2 h1)

/-- If `L` is the last element of the group before the group of `i` then `L + 1` elements are less than the
`i`-th one. -/
theorem count_less {s : Nat → Option α} {n : Nat} (hs : ∀ i j, i ≤ j → j < n → leFloat (s i) (s j)) {i L : Nat}
    (hL : L < n) (hgL : groupOf s L + 1 = groupOf s i) (hlast : ∀ j < n, groupOf s j = groupOf s L → j ≤ L)
    (hi : i < n) {v : α} (hv : s i = some v) :
    (List.range n).countP (fun j => lessThan v (s j)) = L + 1 := by
  have hiL : L < i := by
    by_contra hc
    have := groupOf_mono s (show i ≤ L by omega)
    omega
  have hgs : groupOf s (L + 1) = groupOf s i := by
    have h1 : groupOf s (L + 1) ≠ groupOf s L := fun h => by
      have := hlast (L + 1) (by omega) h; omega
    have h2 := groupOf_mono s (show L + 1 ≤ i by omega)
    have h3 : groupOf s (L + 1) ≤ groupOf s L + 1 := by rw [groupOf]; split <;> omega
    have h4 := groupOf_mono s (show L ≤ L + 1 by omega)
    omega
  have hsL : s (L + 1) = some v := by rw [← hv]; exact eq_of_group s (by omega) hgs
  apply countP_range_lt _ _ (by omega)
  intro j hj
  constructor
  · intro h
    by_contra hc
    have h1 := hs (L + 1) j (by omega) hj
    rw [hsL] at h1
    cases hsj : s j with
    | none => simp [lessThan, hsj] at h
    | some y =>
      rw [hsj] at h1
      simp only [lessThan, hsj, Option.any_some, decide_eq_true_eq] at h
      exact absurd h (not_lt.2 h1)
  · intro h
    have h1 := hs j (L + 1) (by omega) (by omega)
    rw [hsL] at h1
    cases hsj : s j with
    | none => rw [hsj] at h1; simp [leFloat] at h1
    | some y =>
      rw [hsj] at h1
      simp only [lessThan, Option.any_some, decide_eq_true_eq]
      refine lt_of_le_of_ne h1 ?_
      rintro rfl
      have h5 := group_of_eq hs (i := j) (j := i) (by omega) hi hsj hv
      have h6 := groupOf_mono s (show j ≤ L by omega)
      omega

/-- every number up to the group of `i` is the group of some element -/
theorem group_surj (s : Nat → Option α) {i g : Nat} (h1 : 1 ≤ g) (h2 : g ≤ groupOf s i) : ∃ j ≤ i, groupOf s j = g := by
  induction i with
  | zero => exact ⟨0, le_refl _, by rw [groupOf] at *; omega⟩
  | succ i ih =>
    by_cases h : g ≤ groupOf s i
    · obtain ⟨j, hj, hg⟩ := ih h
      exact ⟨j, by omega, hg⟩
    · refine ⟨i + 1, le_refl _, ?_⟩
      rw [groupOf] at h2 ⊢
      split at h2 <;> rename_i hc
      · rw [if_pos hc]; omega
      · omega

/-- the last element of a group -/
theorem exists_last (s : Nat → Option α) {n i : Nat} (hi : i < n) :
    ∃ L < n, groupOf s L = groupOf s i ∧ ∀ j < n, groupOf s j = groupOf s i → j ≤ L := by
  induction n with
  | zero => omega
  | succ n ih =>
    by_cases hn : groupOf s n = groupOf s i
    · exact ⟨n, by omega, hn, fun j hj _ => by omega⟩
    · have hin : i < n := by
        rcases Nat.lt_succ_iff_lt_or_eq.1 hi with h | h
        · exact h
        · subst h; exact absurd rfl hn
      obtain ⟨L, hL, hg, hl⟩ := ih hin
      refine ⟨L, by omega, hg, fun j hj hgj => ?_⟩
      rcases Nat.lt_succ_iff_lt_or_eq.1 hj with h | h
      · exact hl j h hgj
      · subst h; exact absurd hgj hn

/-- the number of the group is the number of different values up to it -/
theorem group_distinct {s : Nat → Option α} {n : Nat} (hs : ∀ i j, i ≤ j → j < n → leFloat (s i) (s j)) {i : Nat}
    (hi : i < n) {v : α} (hv : s i = some v) : ((Finset.range (i + 1)).image s).card = groupOf s i := by
  induction i generalizing v with
  | zero => simp [groupOf]
  | succ i ih =>
    obtain ⟨w, hw⟩ : ∃ w, s i = some w := by
      have := hs i (i + 1) (by omega) hi
      rw [hv] at this
      cases h : s i with
      | none => rw [h] at this; simp [leFloat] at this
      | some w => exact ⟨w, rfl⟩
    rw [Finset.range_add_one, Finset.image_insert, groupOf]
    cases hn : neFloat (s (i + 1)) (s i) with
    | false =>
      rw [Finset.insert_eq_of_mem]
      · simpa using ih (by omega) hw
      · rw [(neFloat_false.1 hn).1]
        exact Finset.mem_image_of_mem _ (by simp)
    | true =>
      rw [Finset.card_insert_of_notMem, ih (by omega) hw]
      · simp
      · intro hmem
        rw [Finset.mem_image] at hmem
        obtain ⟨k, hk, hke⟩ := hmem
        have hk' : k ≤ i := by have := Finset.mem_range.1 hk; omega
        have h1 := hs k i hk' (by omega)
        have h2 := hs i (i + 1) (by omega) hi
        rw [hke] at h1
        have h3 := leFloat_antisymm h1 h2
        have : neFloat (s (i + 1)) (s i) = false := neFloat_false.2 ⟨h3, by rw [hv]; rfl⟩
        rw [hn] at this
        cases this

end NA
