import Mathlib.Data.Rat.Floor
import Verif.Pdf.Line
import Verif.Pdf.Lemmas

/-!
# C70: fractional positions of percentiles

`mass l x` is the part of the total of the list `l` which lies below the position `x`, if element
`i` is spread evenly over the interval from `i` to `i + 1`.
-/

namespace NA
open Dict
open SA (FitsIn InRange)

variable {K : Type} [Field K] [LinearOrder K] [IsStrictOrderedRing K]

/-- **C70** `argpercentile(a, q, axis)` (`axis` may be left out if `a` has one axis only): the result has one entry, for
the given axis; its axes are the other axes of `a` and those of `q`, and its element at an index is the position along the
axis below which `q` percent of the total of `a` along the axis lie.
Full claim: for `0 ≤ q ≤ 100`; for `q = 100` the claim is false, see `C70_all_refuted`. -/
theorem C70_argpercentile_partial (a q : SA K) (ha : a.WF) (hq : q.WF) (x : String) (n : Nat) (hx : get? a.shape x = some n)
    (axis : Option (List String)) (haxis : axisNormalized a.axes axis = [x])
    (hqx : x ∉ q.axes) (U : Shape) (hU : broadcastShapes [a.shape.erase x, q.shape] = .ok U)
    (hfull : ∀ ax m, ax ≠ x → get? a.shape ax = some m → get? U ax = some m) (hpos : ∀ ax, get? U ax ≠ some 0)
    (hq0 : ∀ e, InRange U e → 0 ≤ q.atB e) (hq1 : ∀ e, InRange U e → q.atB e < 100)
    (htot : ∀ e, InRange U e → 0 < (lineOf a.at' x n e).sum) :
    ∃ r, SA.argpercentile a q axis = .ok [(x, r)] ∧ r.WF ∧ Same r.shape U ∧
      ∀ e, InRange U e → 0 ≤ r.at' e ∧ r.at' e < n ∧
        mass (lineOf a.at' x n e) (r.at' e) = q.atB e * (lineOf a.at' x n e).sum / 100 := by
  have hss : ∀ s ∈ [a.shape.erase x, q.shape], WF s := by
    intro s hs
    simp only [List.mem_cons, List.not_mem_nil, or_false] at hs
    rcases hs with rfl | rfl
    · exact Dict.wf_erase (SA.wf_shape ha) x
    · exact SA.wf_shape hq
  obtain ⟨hUw, hUk, hUsz⟩ := C01_broadcast_shapes_ok _ hss U hU
  have hxU : get? U x = none := by
    rw [get?_eq_none, hUk]
    rintro ⟨s, hs, hk⟩
    simp only [List.mem_cons, List.not_mem_nil, or_false] at hs
    rcases hs with rfl | rfl
    · obtain ⟨m, hm⟩ := exists_get?_of_mem hk
      rw [get?_erase, if_pos rfl] at hm; cases hm
    · rw [SA.keys_shape hq] at hk; exact hqx hk
  -- cumulative sums
  set C := set a.shape x (n + 1) with hC
  set T := U ++ [(x, n + 1)] with hT
  have hTg : ∀ ax, get? T ax = if ax = x then some (n + 1) else get? U ax := by
    intro ax
    rw [hT, SA.get?_append]
    by_cases h : ax = x
    · subst h; rw [hxU, if_pos rfl]; simp [get?]
    · rw [if_neg h]
      cases get? U ax with
      | none => simp [get?, Ne.symm h]
      | some m => rfl
  have hCg : ∀ ax, get? C ax = if ax = x then some (n + 1) else get? a.shape ax := by
    intro ax
    rw [hC, get?_set]
    by_cases h : ax = x
    · rw [if_pos h, if_pos h.symm]
    · rw [if_neg h, if_neg (Ne.symm h)]
  have hCT : ∀ ax m, get? C ax = some m → get? T ax = some m := by
    intro ax m hm
    rw [hCg] at hm
    rw [hTg]
    split at hm <;> rename_i h
    · rw [if_pos h]; exact hm
    · rw [if_neg h]; exact hfull ax m h hm
  have hUT : ∀ ax m, get? U ax = some m → get? T ax = some m := by
    intro ax m hm
    rw [hTg, if_neg (by rintro rfl; rw [hxU] at hm; cases hm)]
    exact hm
  have hTU : Same (without T [x]) U := by
    intro ax
    rw [get?_without, hTg]
    by_cases h : ax = x
    · rw [if_pos (by simp [h]), h, hxU]
    · rw [if_neg (by simp [h]), if_neg h]
  obtain ⟨cs, cs1, cs2⟩ := is_cumulativeInitial hx (Is.self ha) List.sum
  rw [← hC] at cs2
  obtain ⟨tot, tot1, tot2⟩ := is_last (n := n) (by rw [hCg, if_pos rfl]) cs2
  have hCU : ∀ ax m, get? (without C [x]) ax = some m → get? U ax = some m := by
    intro ax m hm
    rw [get?_without, hCg] at hm
    split at hm <;> rename_i h
    · cases hm
    · rw [if_neg (by simpa using h)] at hm
      exact hfull ax m (by simpa using h) hm
  have hqr : Rep U (fun ax => ax ∉ a.axes) q q.atB := by
    refine ⟨hq, SA.fitsIn_of_broadcastShapes hss hU (by simp), fun ax hax => ?_, fun _ _ => rfl⟩
    cases hg : get? U ax with
    | none =>
      rw [get?_eq_none]
      intro hk
      exact (get?_eq_none.1 hg) ((hUk ax).2 ⟨q.shape, by simp, hk⟩)
    | some m =>
      obtain ⟨⟨s, hs, hsm⟩, _⟩ := hUsz ax m hg
      simp only [List.mem_cons, List.not_mem_nil, or_false] at hs
      rcases hs with rfl | rfl
      · rw [get?_erase] at hsm
        split at hsm
        · cases hsm
        · rw [(SA.get?_shape_none ha).2 hax] at hsm; cases hsm
      · exact hsm
  obtain ⟨y', y1, y2⟩ := hqr.ufunc2 (· * ·) (tot2.rep hCU)
  obtain ⟨y, y3, y4⟩ := y2.ufunc2 (· / ·) (Rep.scalar U (100 : K))
  have hyI : Is U y (fun e => q.atB e * (lineOf a.at' x n e).sum / 100) := by
    have := Rep.is y4 (by
      intro ax hax
      refine .inl ?_
      by_cases h : ax ∈ a.axes
      · refine .inr ?_
        have hne : ax ≠ x := by rintro rfl; exact (get?_eq_none.1 hxU) hax
        obtain ⟨m, hm⟩ := exists_get?_of_mem (d := a.shape) (by rw [SA.keys_shape ha]; exact h)
        apply mem_keys_of_get? (v := m)
        rw [get?_without, if_neg (by simpa using hne), hCg, if_neg hne]
        exact hm
      · exact .inl h)
    apply this.congr
    intro e he
    simp only [Function.update_self]
    congr 3
    unfold lineOf
    simp [Function.update_idem]
  obtain ⟨ab, ab1, ab2⟩ := (cs2.rep hCT).ufunc2 (fun c y => decide (y < c)) (hyI.rep hUT)
  have habI := Rep.is ab2 (by
    intro ax hax
    by_cases h : ax = x
    · subst h
      exact .inl (mem_keys_of_get? (v := n + 1) (by rw [hCg, if_pos rfl]))
    · refine .inr ?_
      obtain ⟨m, hm⟩ := exists_get?_of_mem hax
      rw [hTg, if_neg h] at hm
      exact mem_keys_of_get? hm)
  have hTpos : ∀ ax, get? T ax ≠ some 0 := by
    intro ax
    rw [hTg]
    split
    · simp
    · exact hpos ax
  have hTx : get? T x = some (n + 1) := by rw [hTg, if_pos rfl]
  obtain ⟨d, J, d1, d2, d3, d4, d5, d6⟩ := is_argReduce hTx habI hTpos (g := firstTrue) (fun l h => firstTrue_lt h)
  have hJI := d4.same hTU
  -- each line
  have hline : ∀ e, InRange U e → ∃ k, firstTrue (lineOf (fun e => decide (q.atB e * (lineOf a.at' x n e).sum / 100 < (lineOf a.at' x (e x) e).sum)) x (n + 1) e) = k + 1 ∧
      k < n ∧ ∀ v, v = (q.atB e * (lineOf a.at' x n e).sum / 100 - (lineOf a.at' x k e).sum) /
          ((lineOf a.at' x (k + 1) e).sum - (lineOf a.at' x k e).sum) * 1 + k →
        (k : K) ≤ v ∧ v < k + 1 ∧ mass (lineOf a.at' x n e) v = q.atB e * (lineOf a.at' x n e).sum / 100 := by
    intro e he
    have ht := htot e he
    have hlen : (lineOf a.at' x n e).length = n := by simp [lineOf]
    have htake : ∀ k, k ≤ n → (lineOf a.at' x n e).take k = lineOf a.at' x k e := by
      intro k hk
      unfold lineOf
      rw [← List.map_take, List.take_range, Nat.min_eq_left hk]
    obtain ⟨k, k1, k2, -, -, k5⟩ := percentile_line (lineOf a.at' x n e) (y := q.atB e * (lineOf a.at' x n e).sum / 100)
      (by have := mul_nonneg (hq0 e he) ht.le; positivity)
      (by
        rw [div_lt_iff₀ (by norm_num)]
        nlinarith [hq1 e he])
    rw [hlen] at k1 k2
    refine ⟨k, ?_, k2, ?_⟩
    · rw [← k1]
      congr 1
      unfold lineOf
      apply List.map_congr_left
      intro j hj
      have hj' : j ≤ n := by have := List.mem_range.1 hj; omega
      have hqu : q.atB (Function.update e x j) = q.atB e :=
        SA.atB_congr fun ax hax => Function.update_of_ne (by rintro rfl; exact hqx hax) _ _
      simp only [Function.update_self, Function.update_idem, hqu]
      have := htake j hj'
      unfold lineOf at this
      rw [this]
    · rwa [htake k (by omega), htake (k + 1) (by omega)] at k5
  set G := fun e => firstTrue (lineOf (fun e => decide (q.atB e * (lineOf a.at' x n e).sum / 100 < (lineOf a.at' x (e x) e).sum)) x (n + 1) e) with hG
  have hJ1 : Is U J (fun e => ((G e : Nat) : Int)) := hJI
  have hGlt : ∀ e, InRange U e → G e < n + 1 := by
    intro e he
    obtain ⟨k, k1, k2, _⟩ := hline e he
    show firstTrue _ < _
    omega
  obtain ⟨X0, x01, x02⟩ := ufunc2_is_scalar (· - ·) hJ1 (1 : Int)
  have hX0 : Is U X0 (fun e => ((G e - 1 : Nat) : Int)) := x02.congr (by
    intro e he
    obtain ⟨k, k1, k2, _⟩ := hline e he
    have : G e = k + 1 := k1
    rw [this]
    simp)
  have hCx : get? C x = some (n + 1) := by rw [hCg, if_pos rfl]
  have hCU' : ∀ ax m, ax ≠ x → get? C ax = some m → get? U ax = some m := by
    intro ax m hne hm
    rw [hCg, if_neg hne] at hm
    exact hfull ax m hne hm
  have hdr : ∀ ax m, ax ≠ x → get? C ax = some m → get? d ax = some (SA.arange ax m) :=
    fun ax m hne hm => d5 ax m hne (hCT ax m hm)
  obtain ⟨Y1, y11, y12⟩ := is_gather cs2 hCx hxU hCU' d2 d6 d3 hJ1 hGlt hdr
  obtain ⟨Y0, y01, y02⟩ := is_gather (d := d.set x X0) cs2 hCx hxU hCU' (wf_set d2 _ _) (by
      intro ax v hv
      rw [get?_set] at hv
      split at hv
      · injection hv with hv; rw [← hv]; exact x02.wf
      · exact d6 ax v hv) (by rw [get?_set, if_pos rfl]) hX0 (fun e he => by have := hGlt e he; omega) (by
      intro ax m hne hm
      rw [get?_set, if_neg (Ne.symm hne)]
      exact hdr ax m hne hm)
  obtain ⟨z1, z11, z12⟩ := is_ufunc2 (· - ·) hyI y02
  obtain ⟨z2, z21, z22⟩ := is_ufunc2 (· - ·) y12 y02
  obtain ⟨z3, z31, z32⟩ := is_ufunc2 (· / ·) z12 z22
  obtain ⟨z4, z41, z42⟩ := is_ufunc2 (· - ·) hJ1 hX0
  obtain ⟨z5, z51, z52⟩ := is_ufunc2 (fun (t : K) (d : Int) => t * (d : K)) z32 z42
  obtain ⟨r, r1, r2⟩ := is_ufunc2 (fun (s : K) (x : Int) => s + (x : K)) z52 hX0
  refine ⟨r, ?_, r2.wf, r2.shape, fun e he => ?_⟩
  · unfold SA.argpercentile
    have hne : a.shape.isEmpty = false := by
      cases h : a.shape with
      | nil => rw [h] at hx; cases hx
      | cons _ _ => rfl
    rw [hne, haxis]
    simp only [Bool.false_eq_true, if_false]
    unfold SA.argpercentileAlong
    simp only [bind, Except.bind, cs1, tot1, y1, y3, ab1, d1, d3, x01, y01, y11]
    unfold SA.inverseLerp
    simp only [bind, Except.bind, z11, z21, z31, z41, z51, r1]
  · obtain ⟨k, k1, k2, k3⟩ := hline e he
    have hGe : G e = k + 1 := k1
    have hval := k3 (r.at' e) (by
      rw [r2.elem e he]
      simp only [hGe, Nat.add_sub_cancel, Function.update_self]
      have hl : ∀ m j, lineOf a.at' x m (Function.update e x j) = lineOf a.at' x m e := fun m j => by rw [lineOf_update]
      rw [hl, hl]
      push_cast
      ring)
    have hk0 : (0 : K) ≤ k := Nat.cast_nonneg k
    have hkn : (k : K) + 1 ≤ n := by exact_mod_cast k2
    exact ⟨by linarith [hval.1], by linarith [hval.2.1], hval.2.2⟩

/-- **C70** The position grows with the percentage: of two positions below which `y < y'` lie, the first one is smaller
(if no element is negative). -/
theorem C70_increasing (l : List K) (hl : ∀ v ∈ l, 0 ≤ v) (x x' : K) (h : mass l x < mass l x') : x < x' := by
  by_contra hn
  exact absurd (mass_mono l hl (not_lt.1 hn)) (not_le.2 h)

/-- **C70** Nothing lies below the first position, and everything below the last one. -/
theorem C70_ends (l : List K) : mass l 0 = 0 ∧ mass l l.length = l.sum := by
  constructor
  · cases l with
    | nil => rfl
    | cons v l =>
      rw [mass_piece (v :: l) (k := 0) (by simp) (by simp) (by simp)]
      simp
  · cases hl : l.length with
    | zero => rw [List.length_eq_zero_iff.1 hl]; rfl
    | succ k =>
      rw [mass_piece l (k := k) (by omega) (by push_cast; linarith) (by push_cast; linarith)]
      have h1 := sum_take_succ' l (k := k) (by omega)
      rw [List.take_of_length_le (by omega)] at h1
      rw [h1]
      push_cast
      ring

/-- **C70** An array without axes, or another number of axes than one, raises `ValueError`. -/
theorem C70_error (a q : SA K) (axis : Option (List String))
    (h : a.axes = [] ∨ (axisNormalized a.axes axis).length ≠ 1) : SA.argpercentile a q axis = .error .valueError := by
  unfold SA.argpercentile
  split
  · rfl
  · rename_i h0
    split
    · rename_i ax hax
      rcases h with h | h
      · exfalso; apply h0; unfold SA.shape; rw [h]; rfl
      · rw [hax] at h; simp at h
    · rfl

/-! ### Examples -/

/-- `[[1, 3, 4], [0, 2, 2]]` -/
def exP : SA ℚ := ⟨["w", "x"], ⟨[2, 3], fun i => ([1, 3, 4, 0, 2, 2] : List ℚ).getD (i.getD 0 0 * 3 + i.getD 1 0) 0⟩⟩

/-- `[0, 25, 75]` -/
def exQ : SA ℚ := ⟨["q"], ND.vec [0, 25, 75]⟩

def exPRun (q : SA ℚ) : Option (List (String × List String × List ℚ)) :=
  (SA.argpercentile exP q (some ["x"])).toOption.map (fun d => d.map (fun p => (p.1, p.2.axes, p.2.nd.toList)))

example : exPRun exQ = some [("x", ["q", "w"], [0, 1, 4/3, 3/2, 5/2, 5/2])] := by decide +kernel

example : exP.WF ∧ exQ.WF ∧ get? exP.shape "x" = some 3 ∧ "x" ∉ exQ.axes ∧
    broadcastShapes [exP.shape.erase "x", exQ.shape] = .ok [("w", 2), ("q", 3)] := by
  refine ⟨?_, ?_, by decide, by decide, by decide⟩ <;> constructor <;> simp [exP, exQ, ND.ndim, ND.vec, ND.ofList]

/-- **C70** Refuted: for 100 percent the position is not the end of the axis, 3, but -1. -/
theorem C70_all_refuted : exPRun (SA.scalar 100) = some [("x", ["w"], [-1, -1])] := by decide +kernel

/-- **C70** Limit: an axis of length one of the array is not broadcast against the percentages. -/
theorem C70_length_one_limit :
    (SA.argpercentile (⟨["w", "x"], ⟨[1, 3], fun _ => (1 : ℚ)⟩⟩ : SA ℚ) ⟨["w"], ND.vec [25, 75]⟩ (some ["x"])).toOption.map
      (fun d => d.map (fun p => p.1)) = none ∧
    (broadcastShapes [[("w", 1)], [("w", 2)]]).toOption = some [("w", 2)] := by decide +kernel

end NA
