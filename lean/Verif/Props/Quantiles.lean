import Verif.Pdf.Percentile
import Verif.Props.Percentiles
import Verif.Props.Tables

/-!
# C72: percentiles, medians and interquartile ranges of probability mass functions
-/

namespace NA
open Dict
open SA (FitsIn InRange)

section
variable {K : Type} [Field K] [LinearOrder K] [IsStrictOrderedRing K]

/-- The part of the total of `l` which lies below the coordinate `v`, if element `i` is spread evenly over the interval from
edge `i` to edge `i + 1`. -/
def massBelow (edges l : List K) (v : K) : K :=
  ((List.range l.length).map (fun i =>
    l.getD i 0 * max 0 (min 1 ((v - edges.getD i 0) / (edges.getD (i + 1) 0 - edges.getD i 0))))).sum

/-- the cell of a position -/
theorem exists_cell {n : Nat} {r : K} (h0 : 0 ≤ r) (hn : r < n) : ∃ k < n, (k : K) ≤ r ∧ r < k + 1 := by
  induction n with
  | zero => exact absurd h0 (not_le.2 (by simpa using hn))
  | succ n ih =>
    rcases lt_or_ge r (n : K) with h | h
    · obtain ⟨k, hk, h1⟩ := ih h
      exact ⟨k, by omega, h1⟩
    · exact ⟨n, by omega, h, by simpa using hn⟩

/-- the mass below a coordinate is the mass below its position -/
theorem massBelow_eq (E l : List K) (hE : E.Pairwise (· < ·)) (hlen : E.length = l.length + 1) {k : Nat} (hk : k < l.length)
    {r : K} (h1 : (k : K) ≤ r) (h2 : r < k + 1) :
    massBelow E l (E.getD k 0 + (E.getD (k + 1) 0 - E.getD k 0) * (r - k)) = mass l r := by
  have hlt : ∀ i j (_ : i < j) (_ : j < E.length), E.getD i 0 < E.getD j 0 := by
    intro i j hi hj
    rw [List.getD_eq_getElem _ _ (by omega), List.getD_eq_getElem _ _ hj]
    exact List.pairwise_iff_getElem.1 hE i j (by omega) hj hi
  have hle : ∀ i j (_ : i ≤ j) (_ : j < E.length), E.getD i 0 ≤ E.getD j 0 := by
    intro i j hi hj
    rcases Nat.eq_or_lt_of_le hi with h | h
    · rw [h]
    · exact (hlt i j h hj).le
  have hd := sub_pos.2 (hlt k (k + 1) (by omega) (by omega))
  have hv1 : E.getD k 0 ≤ E.getD k 0 + (E.getD (k + 1) 0 - E.getD k 0) * (r - k) := by
    have := mul_nonneg hd.le (sub_nonneg.2 h1)
    linarith
  have hv2 : E.getD k 0 + (E.getD (k + 1) 0 - E.getD k 0) * (r - k) ≤ E.getD (k + 1) 0 := by
    have : (E.getD (k + 1) 0 - E.getD k 0) * (r - k) ≤ (E.getD (k + 1) 0 - E.getD k 0) * 1 :=
      mul_le_mul_of_nonneg_left (by linarith) hd.le
    linarith
  unfold massBelow mass
  congr 1
  apply List.map_congr_left
  intro i hi
  rw [List.mem_range] at hi
  congr 1
  have hdi := sub_pos.2 (hlt i (i + 1) (by omega) (by omega))
  rcases Nat.lt_trichotomy i k with h | h | h
  · have e1 : (1 : K) ≤ r - i := by
      have : ((i + 1 : Nat) : K) ≤ k := Nat.cast_le.2 h
      push_cast at this; linarith
    have e2 : 1 ≤ (E.getD k 0 + (E.getD (k + 1) 0 - E.getD k 0) * (r - k) - E.getD i 0) / (E.getD (i + 1) 0 - E.getD i 0) := by
      rw [le_div_iff₀ hdi]
      have := hle (i + 1) k (by omega) (by omega)
      linarith
    rw [min_eq_left e1, min_eq_left e2]
  · subst h
    congr 2
    rw [div_eq_iff hdi.ne']
    ring
  · have e1 : r - i ≤ 0 := by
      have : ((k + 1 : Nat) : K) ≤ i := Nat.cast_le.2 h
      push_cast at this; linarith
    have e2 : (E.getD k 0 + (E.getD (k + 1) 0 - E.getD k 0) * (r - k) - E.getD i 0) / (E.getD (i + 1) 0 - E.getD i 0) ≤ 0 := by
      rw [div_le_iff₀ hdi, zero_mul]
      have := hle (k + 1) i (by omega) (by omega)
      linarith
    rw [max_eq_left ((min_le_right _ _).trans e1), max_eq_left ((min_le_right _ _).trans e2)]

/-- the table of positions along its axis -/
theorem lineOf_positions (ax : String) (N : Nat) (e : String → Nat) :
    lineOf (SA.positions K ax N).atB ax N e = (List.range N).map (fun k : Nat => (k : K)) := by
  unfold lineOf
  apply List.map_congr_left
  intro k hk
  rw [List.mem_range] at hk
  have : (SA.positions K ax N).atB (Function.update e ax k) = (((min k (N - 1) : Nat)) : K) ∨
      (SA.positions K ax N).atB (Function.update e ax k) = ((k : Nat) : K) := by
    right
    rw [SA.atB_eq_at' (by constructor <;> simp [SA.positions, ND.ndim])]
    · simp [SA.at', SA.positions]
    · intro y m hm
      simp only [SA.positions, SA.shape, List.zip_cons_cons, List.zip_nil_right, get?_cons, get?_nil] at hm
      split at hm
      · rename_i h
        injection hm with hm
        subst h
        simp; omega
      · cases hm
  rcases this with h | h
  · rw [h]; congr 1; omega
  · exact h

theorem wf_positions (ax : String) (N : Nat) : (SA.positions K ax N).WF := by
  constructor <;> simp [SA.positions, ND.ndim]

/-- the position of one element in a line of edges -/
theorem interp_positions (E : List K) {n : Nat} {r : K} {k : Nat} (hk : k < n)
    (h1 : (k : K) ≤ r) (h2 : r < k + 1) :
    npInterp none none ((List.range (n + 1)).map (fun k : Nat => (k : K))) E r =
      E.getD k 0 + (E.getD (k + 1) 0 - E.getD k 0) * (r - k) := by
  have hg : ∀ j, j < n + 1 → ((List.range (n + 1)).map (fun k : Nat => (k : K))).getD j 0 = j := by
    intro j hj
    rw [List.getD_eq_getElem _ _ (by simpa using hj)]
    simp
  rw [C71_segment none none _ E _ k (by simpa using hk) r (by rw [hg k (by omega)]; exact h1)
    (by rw [hg (k + 1) (by omega)]; push_cast; exact h2.le), hg k (by omega), hg (k + 1) (by omega)]
  · congr 2
    push_cast
    rw [add_sub_cancel_left, div_one]
  · rw [List.pairwise_map]
    exact (List.pairwise_lt_range).imp (fun h => Nat.cast_lt.2 h)

end

section
variable {K : Type} [Field K] [LinearOrder K] [IsStrictOrderedRing K]

/-- **C72** `pdf.percentile(x, f, q, axis)`, where `x` holds the edges of the bins and `f` their masses: the result has the
broadcast shape of `f` without the axis, `q`, and `x` without the axis.  Each element lies in a bin with the edges
`x_k` and `x_{k+1}`, and if the edges increase, the mass below it (every mass is spread evenly over its bin) is `q` percent
of the total.
Full claim: for `0 ≤ q ≤ 100`; for `q = 100` the claim is false, see `C72_all_refuted`; axes of length one: see C70 and C71. -/
theorem C72_percentile_partial (x f q : SA K) (hx : x.WF) (hf : f.WF) (hq : q.WF) (ax : String) (n : Nat)
    (hfn : get? f.shape ax = some n) (hxn : get? x.shape ax = some (n + 1))
    (axis : Option (List String)) (haxis : axisNormalized f.axes axis = [ax])
    (hqx : ax ∉ q.axes) (U : Shape) (hU : broadcastShapes [f.shape.erase ax, q.shape] = .ok U)
    (hfull : ∀ y m, y ≠ ax → get? f.shape y = some m → get? U y = some m) (hpos : ∀ y, get? U y ≠ some 0)
    (X : Shape) (hX : broadcastShapes [U, x.shape.erase ax] = .ok X)
    (hfullX : ∀ y m, y ≠ ax → get? x.shape y = some m → get? X y = some m)
    (hq0 : ∀ e, InRange U e → 0 ≤ q.atB e) (hq1 : ∀ e, InRange U e → q.atB e < 100)
    (htot : ∀ e, InRange U e → 0 < (lineOf f.atB ax n e).sum) (garbage : List Nat → K) :
    ∃ r, SA.percentile x f q axis garbage = .ok r ∧ r.WF ∧ Same r.shape X ∧
      ∀ e, InRange X e →
        (∃ k < n, ∃ t, 0 ≤ t ∧ t < 1 ∧
          r.at' e = (lineOf x.atB ax (n + 1) e).getD k 0 +
            ((lineOf x.atB ax (n + 1) e).getD (k + 1) 0 - (lineOf x.atB ax (n + 1) e).getD k 0) * t ∧
          mass (lineOf f.atB ax n e) (k + t) = q.atB e * (lineOf f.atB ax n e).sum / 100) ∧
        ((lineOf x.atB ax (n + 1) e).Pairwise (· < ·) →
          massBelow (lineOf x.atB ax (n + 1) e) (lineOf f.atB ax n e) (r.at' e) = q.atB e * (lineOf f.atB ax n e).sum / 100) := by
  have hss : ∀ s ∈ [f.shape.erase ax, q.shape], WF s := by
    intro s hs
    simp only [List.mem_cons, List.not_mem_nil, or_false] at hs
    rcases hs with rfl | rfl
    · exact Dict.wf_erase (SA.wf_shape hf) ax
    · exact SA.wf_shape hq
  have hUw := (C01_broadcast_shapes_ok _ hss U hU).1
  have hsX : ∀ s ∈ [U, x.shape.erase ax], WF s := by
    intro s hs
    simp only [List.mem_cons, List.not_mem_nil, or_false] at hs
    rcases hs with rfl | rfl
    · exact hUw
    · exact Dict.wf_erase (SA.wf_shape hx) ax
  obtain ⟨hXw, hX2, hX3⟩ := C01_broadcast_shapes_ok _ hsX X hX
  have hline : ∀ e e' : String → Nat, (∀ y, y ≠ ax → y ∈ f.axes → e y = if get? f.shape y = some 1 then 0 else e' y) →
      lineOf f.at' ax n e = lineOf f.atB ax n e' := by
    intro e e' h
    unfold lineOf
    apply List.map_congr_left
    intro k hk
    rw [List.mem_range] at hk
    unfold SA.atB
    apply SA.at'_congr
    intro y hy
    by_cases hya : y = ax
    · subst hya
      rw [hfn]
      simp only [Function.update_self, Option.some.injEq]
      split <;> omega
    · rw [Function.update_of_ne hya, Function.update_of_ne hya]
      exact h y hya hy
  have hlineU : ∀ e, InRange U e → lineOf f.at' ax n e = lineOf f.atB ax n e := by
    intro e he
    apply hline
    intro y hya hy
    split
    · rename_i h1
      have := he y 1 (hfull y 1 hya h1)
      omega
    · rfl
  obtain ⟨i, i1, i2, i3, i4⟩ := C70_argpercentile_partial f q hf hq ax n hfn (some [ax]) (by rfl) hqx U hU hfull hpos hq0 hq1
    (fun e he => by rw [hlineU e he]; exact htot e he)
  obtain ⟨O, O1, O2, O3⟩ := bs_join (T := x.shape.erase ax)
    (ss := [(SA.positions K ax (n + 1)).shape.erase ax, x.shape.erase ax] ++ optionShape (none : Option (SA K)) ++
      optionShape (none : Option (SA K)) ++ optionShape (none : Option (SA K))) (by
      intro s hs
      simp only [optionShape, Option.map_none, Option.toList_none, List.append_nil, List.mem_cons, List.not_mem_nil, or_false] at hs
      rcases hs with rfl | rfl
      · exact Dict.wf_erase (SA.wf_shape (wf_positions _ _)) ax
      · exact Dict.wf_erase (SA.wf_shape hx) ax) (by
      intro s hs
      simp only [optionShape, Option.map_none, Option.toList_none, List.append_nil, List.mem_cons, List.not_mem_nil, or_false] at hs
      rcases hs with rfl | rfl
      · intro y m hm
        rw [get?_erase] at hm
        split at hm
        · cases hm
        · rename_i h
          simp only [SA.positions, SA.shape, List.zip_cons_cons, List.zip_nil_right, get?_cons, get?_nil] at hm
          split at hm
          · rename_i h'; exact absurd h'.symm (by first | exact h | exact Ne.symm h)
          · cases hm
      · exact fun y m hm => ⟨m, hm, .inl rfl⟩) (fun y m hm => ⟨_, by simp, hm⟩)
  have hOax : ax ∉ keys O := by
    rw [← get?_eq_none, O3, get?_erase]; simp
  have hOx : ∀ y m, get? O y = some m → y ≠ ax ∧ get? x.shape y = some m := by
    intro y m hm
    have hy : y ≠ ax := by rintro rfl; exact hOax (mem_keys_of_get? hm)
    rw [O3, get?_erase] at hm
    split at hm
    · cases hm
    · exact ⟨hy, hm⟩
  obtain ⟨X', X1, X2, X3⟩ := bs_join (T := X) (ss := [i.shape, O]) (by
      intro s hs
      simp only [List.mem_cons, List.not_mem_nil, or_false] at hs
      rcases hs with rfl | rfl
      · exact SA.wf_shape i2
      · exact O2) (by
      intro s hs y m hm
      simp only [List.mem_cons, List.not_mem_nil, or_false] at hs
      rcases hs with rfl | rfl
      · rw [i3] at hm
        exact SA.fitsIn_of_broadcastShapes hsX hX (by simp) y m hm
      · rw [O3] at hm
        exact SA.fitsIn_of_broadcastShapes hsX hX (s := x.shape.erase ax) (by simp) y m hm) (by
      intro y m hm
      obtain ⟨⟨s, hs, hsm⟩, -⟩ := hX3 y m hm
      simp only [List.mem_cons, List.not_mem_nil, or_false] at hs
      rcases hs with rfl | rfl
      · exact ⟨i.shape, by simp, by rw [i3]; exact hsm⟩
      · exact ⟨O, by simp, by rw [O3]; exact hsm⟩)
  obtain ⟨r, r1, r2, r3, r4⟩ := C71_interp_partial (fun l r _ => npInterp l r) i (SA.positions K ax (n + 1)) x i2
    (wf_positions _ _) hx none none none (by intro v hv w hw; rcases hv with h | h | h <;> rw [h] at hw <;> cases hw) ax none
    (.inr ⟨rfl, rfl⟩) (n + 1) (Nat.succ_ne_zero n) (by simp [SA.positions, SA.shape, get?_cons]) hxn O O1 hOax X' X1
    (fun y m hm => by rw [X3]; exact hfullX y m (hOx y m hm).1 (hOx y m hm).2) garbage
  refine ⟨r, ?_, r2, fun y => (r3 y).trans (X3 y), fun e he => ?_⟩
  · unfold SA.percentile
    rw [haxis]
    simp only
    unfold SA.percentileAlong
    rw [i1]
    simp only [bind, Except.bind, hxn, get?_cons, if_pos]
    exact r1
  · have heX : InRange X' e := fun y m hm => he y m (by rw [← X3]; exact hm)
    have hcl := SA.inRange_clipEnv hsX hX (s := U) (by simp) he
    obtain ⟨p1, p2, p3⟩ := i4 _ hcl
    have hi : i.atB e = i.at' (SA.clipEnv U e) := by
      unfold SA.atB
      congr 1
      funext y
      rw [i3]; rfl
    have hqe : q.atB (SA.clipEnv U e) = q.atB e := by
      have := atB_clip (a := q) (r := i) hq (by
        intro y m hm
        rw [i3]
        exact SA.fitsIn_of_broadcastShapes hss hU (s := q.shape) (by simp) y m hm) e
      rw [← this]
      congr 1
      funext y
      rw [i3]; rfl
    have hle : lineOf f.at' ax n (SA.clipEnv U e) = lineOf f.atB ax n e := by
      apply hline
      intro y hya hy
      obtain ⟨m, hm⟩ := exists_get?_of_mem (d := f.shape) (x := y) (by rw [SA.keys_shape hf]; exact hy)
      unfold SA.clipEnv
      rw [hm, hfull y m hya hm]
    rw [hle, hqe] at p3
    rw [r4 e heX, lineOf_positions, Option.map_none, hi]
    obtain ⟨k, hk, k1, k2⟩ := exists_cell p1 p2
    rw [interp_positions _ hk k1 k2]
    refine ⟨⟨k, hk, _, sub_nonneg.2 k1, by linarith, rfl, ?_⟩, fun hE => ?_⟩
    · rw [add_sub_cancel]; exact p3
    · rw [massBelow_eq _ _ hE (by rw [length_lineOf, length_lineOf]) (by rw [length_lineOf]; exact hk) k1 k2]
      exact p3

/-- **C72** One percentage for all elements. -/
theorem percentile_constant (x f : SA K) (hx : x.WF) (hf : f.WF) (ax : String) (n : Nat)
    (hfn : get? f.shape ax = some n) (hxn : get? x.shape ax = some (n + 1))
    (axis : Option (List String)) (haxis : axisNormalized f.axes axis = [ax])
    (X : Shape) (hX : broadcastShapes [f.shape.erase ax, x.shape.erase ax] = .ok X)
    (hpos : ∀ y, y ≠ ax → get? f.shape y ≠ some 0)
    (hfullX : ∀ y m, y ≠ ax → get? x.shape y = some m → get? X y = some m)
    (htot : ∀ e, (∀ y m, y ≠ ax → get? f.shape y = some m → e y < m) → 0 < (lineOf f.atB ax n e).sum)
    (c : K) (h0 : 0 ≤ c) (h1 : c < 100) (garbage : List Nat → K) :
    ∃ r, SA.percentile x f (SA.scalar c) axis garbage = .ok r ∧ r.WF ∧ Same r.shape X ∧
      ∀ e, InRange X e → (lineOf x.atB ax (n + 1) e).Pairwise (· < ·) →
          massBelow (lineOf x.atB ax (n + 1) e) (lineOf f.atB ax n e) (r.at' e) = c * (lineOf f.atB ax n e).sum / 100 := by
  have hwf := Dict.wf_erase (SA.wf_shape hf) ax
  have hwx := Dict.wf_erase (SA.wf_shape hx) ax
  obtain ⟨U, U1, U2, U3⟩ := bs_join (T := f.shape.erase ax) (ss := [f.shape.erase ax, (SA.scalar c).shape]) (by
      intro s hs
      simp only [List.mem_cons, List.not_mem_nil, or_false] at hs
      rcases hs with rfl | rfl
      · exact hwf
      · exact wf_nil) (by
      intro s hs
      simp only [List.mem_cons, List.not_mem_nil, or_false] at hs
      rcases hs with rfl | rfl
      · exact fun y m hm => ⟨m, hm, .inl rfl⟩
      · intro y m hm; cases hm) (fun y m hm => ⟨_, by simp, hm⟩)
  have hsX : ∀ s ∈ [f.shape.erase ax, x.shape.erase ax], WF s := by
    intro s hs
    simp only [List.mem_cons, List.not_mem_nil, or_false] at hs
    rcases hs with rfl | rfl
    · exact hwf
    · exact hwx
  obtain ⟨hXw, hX2, hX3⟩ := C01_broadcast_shapes_ok _ hsX X hX
  obtain ⟨X', X1, X2, X3⟩ := bs_join (T := X) (ss := [U, x.shape.erase ax]) (by
      intro s hs
      simp only [List.mem_cons, List.not_mem_nil, or_false] at hs
      rcases hs with rfl | rfl
      · exact U2
      · exact hwx) (by
      intro s hs y m hm
      simp only [List.mem_cons, List.not_mem_nil, or_false] at hs
      rcases hs with rfl | rfl
      · rw [U3] at hm
        exact SA.fitsIn_of_broadcastShapes hsX hX (by simp) y m hm
      · exact SA.fitsIn_of_broadcastShapes hsX hX (s := x.shape.erase ax) (by simp) y m hm) (by
      intro y m hm
      obtain ⟨⟨s, hs, hsm⟩, -⟩ := hX3 y m hm
      simp only [List.mem_cons, List.not_mem_nil, or_false] at hs
      rcases hs with rfl | rfl
      · exact ⟨U, by simp, by rw [U3]; exact hsm⟩
      · exact ⟨x.shape.erase ax, by simp, hsm⟩)
  have hUf : ∀ y m, y ≠ ax → get? f.shape y = some m → get? U y = some m := by
    intro y m hy hm
    rw [U3, get?_erase, if_neg (by first | exact hy | exact hy.symm)]; exact hm
  obtain ⟨r, r1, r2, r3, r4⟩ := C72_percentile_partial x f (SA.scalar c) hx hf (by constructor <;> simp [SA.scalar, ND.scalar, ND.ndim])
    ax n hfn hxn axis haxis (by simp [SA.scalar]) U U1 hUf (by
      intro y hy
      rw [U3, get?_erase] at hy
      split at hy
      · cases hy
      · rename_i h; exact hpos y (by first | exact h | exact Ne.symm h) hy) X' X1 (by
      intro y m hy hm
      rw [X3]; exact hfullX y m hy hm) (fun e he => h0) (fun e he => h1)
    (fun e he => htot e (fun y m hy hm => he y m (hUf y m hy hm))) garbage
  exact ⟨r, r1, r2, fun y => (r3 y).trans (X3 y), fun e he hE => (r4 e (fun y m hm => he y m (by rw [← X3]; exact hm))).2 hE⟩

/-- the mass below a coordinate grows with it -/
theorem massBelow_mono (E l : List K) (hE : E.Pairwise (· < ·)) (hlen : E.length = l.length + 1) (hl : ∀ v ∈ l, 0 ≤ v)
    {u v : K} (h : u ≤ v) : massBelow E l u ≤ massBelow E l v := by
  unfold massBelow
  apply List.sum_le_sum
  intro i hi
  rw [List.mem_range] at hi
  apply mul_le_mul_of_nonneg_left
  · apply max_le_max le_rfl
    apply min_le_min le_rfl
    apply div_le_div_of_nonneg_right (by linarith)
    apply sub_nonneg.2
    rw [List.getD_eq_getElem _ _ (by omega), List.getD_eq_getElem _ _ (by omega)]
    exact (List.pairwise_iff_getElem.1 hE i (i + 1) (by omega) (by omega) (by omega)).le
  · rw [List.getD_eq_getElem _ _ hi]
    exact hl _ (List.getElem_mem _)

/-- **C72** A larger share of the mass lies below a larger coordinate, so percentiles increase with the percentage. -/
theorem C72_increasing (E l : List K) (hE : E.Pairwise (· < ·)) (hlen : E.length = l.length + 1) (hl : ∀ v ∈ l, 0 ≤ v)
    (u v : K) (h : massBelow E l u < massBelow E l v) : u < v := by
  by_contra hn
  exact absurd (massBelow_mono E l hE hlen hl (not_lt.1 hn)) (not_le.2 h)

/-- **C72** Half of the total lies below the median. -/
theorem C72_median (x f : SA K) (hx : x.WF) (hf : f.WF) (ax : String) (n : Nat)
    (hfn : get? f.shape ax = some n) (hxn : get? x.shape ax = some (n + 1))
    (axis : Option (List String)) (haxis : axisNormalized f.axes axis = [ax])
    (X : Shape) (hX : broadcastShapes [f.shape.erase ax, x.shape.erase ax] = .ok X)
    (hpos : ∀ y, y ≠ ax → get? f.shape y ≠ some 0)
    (hfullX : ∀ y m, y ≠ ax → get? x.shape y = some m → get? X y = some m)
    (htot : ∀ e, (∀ y m, y ≠ ax → get? f.shape y = some m → e y < m) → 0 < (lineOf f.atB ax n e).sum) (garbage : List Nat → K) :
    ∃ r, SA.median x f axis garbage = .ok r ∧ r.WF ∧ Same r.shape X ∧
      ∀ e, InRange X e → (lineOf x.atB ax (n + 1) e).Pairwise (· < ·) →
        massBelow (lineOf x.atB ax (n + 1) e) (lineOf f.atB ax n e) (r.at' e) = (lineOf f.atB ax n e).sum / 2 := by
  obtain ⟨r, r1, r2, r3, r4⟩ := percentile_constant x f hx hf ax n hfn hxn axis haxis X hX hpos hfullX htot 50 (by norm_num)
    (by norm_num) garbage
  refine ⟨r, r1, r2, r3, fun e he hE => ?_⟩
  rw [r4 e he hE]
  ring

/-- **C72** The interquartile range is the distance between the two coordinates below which one quarter and three quarters
of the total lie; it is positive if no mass is negative. -/
theorem C72_iqr (x f : SA K) (hx : x.WF) (hf : f.WF) (ax : String) (n : Nat)
    (hfn : get? f.shape ax = some n) (hxn : get? x.shape ax = some (n + 1))
    (axis : Option (List String)) (haxis : axisNormalized f.axes axis = [ax])
    (X : Shape) (hX : broadcastShapes [f.shape.erase ax, x.shape.erase ax] = .ok X)
    (hpos : ∀ y, y ≠ ax → get? f.shape y ≠ some 0)
    (hfullX : ∀ y m, y ≠ ax → get? x.shape y = some m → get? X y = some m)
    (htot : ∀ e, (∀ y m, y ≠ ax → get? f.shape y = some m → e y < m) → 0 < (lineOf f.atB ax n e).sum) (garbage : List Nat → K) :
    ∃ r, SA.iqr x f axis garbage = .ok r ∧ r.WF ∧ Same r.shape X ∧
      ∀ e, InRange X e → (lineOf x.atB ax (n + 1) e).Pairwise (· < ·) → ∃ q1 q3, r.at' e = q3 - q1 ∧
        massBelow (lineOf x.atB ax (n + 1) e) (lineOf f.atB ax n e) q1 = (lineOf f.atB ax n e).sum / 4 ∧
        massBelow (lineOf x.atB ax (n + 1) e) (lineOf f.atB ax n e) q3 = 3 * (lineOf f.atB ax n e).sum / 4 ∧
        ((∀ v ∈ lineOf f.atB ax n e, 0 ≤ v) → 0 < r.at' e) := by
  obtain ⟨a, a1, a2, a3, a4⟩ := percentile_constant x f hx hf ax n hfn hxn axis haxis X hX hpos hfullX htot 25 (by norm_num)
    (by norm_num) garbage
  obtain ⟨b, b1, b2, b3, b4⟩ := percentile_constant x f hx hf ax n hfn hxn axis haxis X hX hpos hfullX htot 75 (by norm_num)
    (by norm_num) garbage
  have hsX : ∀ s ∈ [f.shape.erase ax, x.shape.erase ax], WF s := by
    intro s hs
    simp only [List.mem_cons, List.not_mem_nil, or_false] at hs
    rcases hs with rfl | rfl
    · exact Dict.wf_erase (SA.wf_shape hf) ax
    · exact Dict.wf_erase (SA.wf_shape hx) ax
  obtain ⟨hXw, hX2, hX3⟩ := C01_broadcast_shapes_ok _ hsX X hX
  have hia : Is X a a.at' := (Is.self a2).same a3
  have hib : Is X b b.at' := (Is.self b2).same b3
  obtain ⟨r, r1, r2⟩ := is_ufunc2 (· - ·) hib hia
  refine ⟨r, ?_, r2.wf, r2.shape, fun e he hE => ⟨a.at' e, b.at' e, r2.elem e he, ?_, ?_, fun hl => ?_⟩⟩
  · unfold SA.iqr
    rw [a1, b1]
    exact r1
  · rw [a4 e he hE]; ring
  · rw [b4 e he hE]; ring
  · rw [r2.elem e he]
    have he' : ∀ y m, y ≠ ax → get? f.shape y = some m → (if get? f.shape y = some 1 then 0 else e y) < m := by
      intro y m hy hm
      have hm' : get? (f.shape.erase ax) y = some m := by
        rw [get?_erase, if_neg (by first | exact hy | exact hy.symm)]; exact hm
      have := SA.inRange_clipEnv hsX hX (s := f.shape.erase ax) (by simp) he y m hm'
      unfold SA.clipEnv at this
      rw [hm'] at this
      rw [hm]; exact this
    have hsum := htot _ he'
    have hll : lineOf f.atB ax n (fun y => if get? f.shape y = some 1 then 0 else e y) = lineOf f.atB ax n e := by
      unfold lineOf
      apply List.map_congr_left
      intro k hk
      unfold SA.atB
      apply SA.at'_congr
      intro y hy
      by_cases h1 : get? f.shape y = some 1
      · simp [h1]
      · simp only [h1, if_false]
        by_cases hya : y = ax
        · subst hya; simp
        · simp [Function.update_of_ne hya, h1]
    rw [hll] at hsum
    apply sub_pos.2
    apply C72_increasing _ _ hE (by rw [length_lineOf, length_lineOf]) hl
    rw [a4 e he hE, b4 e he hE]
    linarith

end

/-! ### Examples -/

/-- edges `[0, 1, 3, 4]` along `x` -/
def exQx : SA ℚ := ⟨["x"], ND.vec [0, 1, 3, 4]⟩

/-- masses `[[1, 2, 1], [4, 0, 4]]` -/
def exQf : SA ℚ := ⟨["w", "x"], ⟨[2, 3], fun i => ([1, 2, 1, 4, 0, 4] : List ℚ).getD (i.getD 0 0 * 3 + i.getD 1 0) 0⟩⟩

def exQRun (r : R (SA ℚ)) : Option (List String × List ℚ) := r.toOption.map (fun r => (r.axes, r.nd.toList))

example : exQRun (SA.percentile exQx exQf ⟨["q"], ND.vec [0, 25, 50, 75]⟩ (some ["x"]) (fun _ => 77)) =
    some (["q", "w"], [0, 0, 1, 1/2, 2, 3, 3, 7/2]) := by decide +kernel

/-- the hypotheses of `C72_percentile_partial` are met -/
example : get? exQf.shape "x" = some 3 ∧ get? exQx.shape "x" = some 4 ∧
    broadcastShapes [exQf.shape.erase "x", [("q", 4)]] = .ok [("w", 2), ("q", 4)] ∧
    broadcastShapes [[("w", 2), ("q", 4)], exQx.shape.erase "x"] = .ok [("w", 2), ("q", 4)] ∧
    (lineOf exQx.atB "x" 4 (fun _ => 0)).Pairwise (· < ·) ∧
    massBelow (lineOf exQx.atB "x" 4 (fun _ => 0)) (lineOf exQf.atB "x" 3 (fun _ => 0)) 2 = 2 := by
  refine ⟨by decide, by decide, by decide, by decide, by decide +kernel, by decide +kernel⟩

example : exQRun (SA.median exQx exQf (some ["x"]) (fun _ => 77)) = some (["w"], [2, 3]) := by decide +kernel

example : exQRun (SA.iqr exQx exQf (some ["x"]) (fun _ => 77)) = some (["w"], [2, 3]) := by decide +kernel

/-- **C72** Refuted: below the 100th percentile there is all of the mass; the code returns the first edge. -/
theorem C72_all_refuted : exQRun (SA.percentile exQx exQf (SA.scalar 100) (some ["x"]) (fun _ => 77)) = some (["w"], [0, 0]) := by
  decide +kernel

end NA
