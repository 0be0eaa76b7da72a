import Mathlib.Algebra.Order.Field.Basic
import Mathlib.Algebra.BigOperators.Group.List.Basic
import Mathlib.Algebra.Order.BigOperators.Group.List
import Mathlib.Data.List.GetD
import Mathlib.Tactic.FieldSimp
import Mathlib.Tactic.Linarith
import Mathlib.Tactic.Ring
import Verif.Pdf.Basic

/-! Percentiles of a list. -/

namespace NA

variable {K : Type} [Field K] [LinearOrder K] [IsStrictOrderedRing K]

/-- The part of the total of `l` which lies below the position `x`, if element `i` is spread evenly over the interval
from `i` to `i + 1`. -/
def mass (l : List K) (x : K) : K :=
  ((List.range l.length).map (fun i => l.getD i 0 * max 0 (min 1 (x - i)))).sum

theorem firstTrue_lt {l : List Bool} (h : l ≠ []) : firstTrue l < l.length := by
  unfold firstTrue
  split
  · rename_i h'
    rw [List.findIdx_lt_length]
    exact ⟨true, h', rfl⟩
  · exact List.length_pos_iff.2 h

/-- the first `True` of a list which starts with `False` -/
theorem firstTrue_range {N : Nat} {p : Nat → Bool} (h0 : p 0 = false) (h1 : ∃ k < N, p k = true) :
    ∃ k, firstTrue ((List.range N).map p) = k + 1 ∧ k + 1 < N ∧ p k = false ∧ p (k + 1) = true := by
  obtain ⟨m, hm, hpm⟩ := h1
  have hmem : true ∈ (List.range N).map p := List.mem_map.2 ⟨m, List.mem_range.2 hm, hpm⟩
  unfold firstTrue
  rw [if_pos hmem]
  have hlt : ((List.range N).map p).findIdx id < ((List.range N).map p).length := by
    rw [List.findIdx_lt_length]; exact ⟨true, hmem, rfl⟩
  have hget := List.findIdx_getElem (w := hlt)
  have hnot := fun j (hj : j < ((List.range N).map p).findIdx id) => List.not_of_lt_findIdx hj
  simp only [List.getElem_map, List.getElem_range, id] at hget hnot
  rw [List.length_map, List.length_range] at hlt
  cases hf : ((List.range N).map p).findIdx id with
  | zero => rw [hf, h0] at hget; cases hget
  | succ k =>
    rw [hf] at hlt hget
    refine ⟨k, rfl, hlt, ?_, hget⟩
    have := hnot k (by rw [hf]; exact Nat.lt_succ_self k)
    simpa using this

omit [LinearOrder K] [IsStrictOrderedRing K] in
theorem sum_take_succ' (l : List K) {k : Nat} (hk : k < l.length) : (l.take (k + 1)).sum = (l.take k).sum + l.getD k 0 := by
  rw [List.take_succ, List.sum_append, List.getElem?_eq_getElem hk, List.getD_eq_getElem _ _ hk]
  simp

theorem mass_piece (l : List K) {k : Nat} (hk : k < l.length) {x : K} (h1 : (k : K) ≤ x) (h2 : x ≤ k + 1) :
    mass l x = (l.take k).sum + l.getD k 0 * (x - k) := by
  unfold mass
  have hsplit : List.range l.length = List.range k ++ ([k] ++ (List.range (l.length - (k + 1))).map (fun i => k + 1 + i)) := by
    rw [← List.append_assoc, ← List.range_succ, ← List.range_add]
    congr 1; omega
  rw [hsplit, List.map_append, List.map_append, List.sum_append, List.sum_append]
  have e1 : ((List.range k).map (fun i => l.getD i 0 * max 0 (min 1 (x - i)))).sum = (l.take k).sum := by
    congr 1
    apply List.ext_getElem
    · simp; omega
    · intro i g1 g2
      have hi : i < k := by simpa using g1
      have hil : i < l.length := by omega
      simp only [List.getElem_map, List.getElem_range, List.getElem_take]
      have : (i : K) + 1 ≤ k := by exact_mod_cast hi
      rw [List.getD_eq_getElem _ _ hil, min_eq_left (by linarith), max_eq_right zero_le_one, mul_one]
  have e2 : (((List.range (l.length - (k + 1))).map (fun i => k + 1 + i)).map (fun i => l.getD i 0 * max 0 (min 1 (x - i)))).sum = 0 := by
    apply List.sum_eq_zero
    intro y hy
    obtain ⟨i, hi, rfl⟩ := List.mem_map.1 hy
    obtain ⟨j, _, rfl⟩ := List.mem_map.1 hi
    have hj : (0 : K) ≤ j := Nat.cast_nonneg j
    rw [max_eq_left, mul_zero]
    apply (min_le_right _ _).trans
    push_cast
    linarith
  rw [e1, e2]
  simp only [List.map_cons, List.map_nil, List.sum_cons, List.sum_nil, add_zero]
  rw [min_eq_right (by linarith), max_eq_right (by linarith)]

/-- the position below which the part `y` of the total lies -/
theorem percentile_line (l : List K) {y : K} (hy : 0 ≤ y) (hy' : y < l.sum) :
    ∃ k, firstTrue ((List.range (l.length + 1)).map (fun k => decide (y < (l.take k).sum))) = k + 1 ∧ k < l.length ∧
      (l.take k).sum ≤ y ∧ y < (l.take (k + 1)).sum ∧
      ∀ x, x = (y - (l.take k).sum) / ((l.take (k + 1)).sum - (l.take k).sum) * 1 + k →
        (k : K) ≤ x ∧ x < k + 1 ∧ mass l x = y := by
  obtain ⟨k, h1, h2, h3, h4⟩ := firstTrue_range (N := l.length + 1) (p := fun k => decide (y < (l.take k).sum))
    (by show decide (y < (l.take 0).sum) = false; rw [decide_eq_false_iff_not]; simpa using hy) ⟨l.length, by omega, by simpa using hy'⟩
  have hk : k < l.length := by omega
  have h3' : (l.take k).sum ≤ y := by simpa using h3
  have h4' : y < (l.take (k + 1)).sum := by simpa using h4
  refine ⟨k, h1, hk, h3', h4', fun x hx => ?_⟩
  have hpos : 0 < (l.take (k + 1)).sum - (l.take k).sum := by linarith
  have hstep := sum_take_succ' l hk
  have g1 : 0 ≤ (y - (l.take k).sum) / ((l.take (k + 1)).sum - (l.take k).sum) := div_nonneg (by linarith) hpos.le
  have g2 : (y - (l.take k).sum) / ((l.take (k + 1)).sum - (l.take k).sum) < 1 := by rw [div_lt_one hpos]; linarith
  rw [mul_one] at hx
  refine ⟨by linarith, by linarith, ?_⟩
  rw [mass_piece l hk (by linarith) (by linarith)]
  have : x - k = (y - (l.take k).sum) / ((l.take (k + 1)).sum - (l.take k).sum) := by rw [hx]; ring
  rw [this, show l.getD k 0 = (l.take (k + 1)).sum - (l.take k).sum by rw [hstep]; ring, mul_div_cancel₀ _ hpos.ne']
  ring

theorem mass_mono (l : List K) (hl : ∀ v ∈ l, 0 ≤ v) {x x' : K} (h : x ≤ x') : mass l x ≤ mass l x' := by
  unfold mass
  apply List.sum_le_sum
  intro i hi
  have hi' : i < l.length := List.mem_range.1 hi
  rw [List.getD_eq_getElem _ _ hi']
  apply mul_le_mul_of_nonneg_left _ (hl _ (List.getElem_mem hi'))
  exact max_le_max le_rfl (min_le_min le_rfl (by linarith))

end NA
