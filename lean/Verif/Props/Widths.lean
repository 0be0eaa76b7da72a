import Verif.Pdf.Width
import Verif.Props.HistogramBins
import Verif.Props.Percentiles
import Verif.Props.Tables

/-!
# C73: the full width at half maximum
-/

namespace NA
open Dict
open SA (FitsIn InRange)

section
variable {K : Type} [Field K] [LinearOrder K] [IsStrictOrderedRing K]

/-- `w` is the full width at half maximum of the values `l` at the coordinates `X`: the straight lines through the points reach
half of the largest value at `a` and at `b = a + w`, and they are below it everywhere outside. -/
def IsWidth (X l : List K) (w : K) : Prop :=
  ∃ M a b, M ∈ l ∧ (∀ v ∈ l, v ≤ M) ∧ w = b - a ∧ a < b ∧
    npInterp none none X l a = M / 2 ∧ npInterp none none X l b = M / 2 ∧
    ∀ v, v < a ∨ b < v → npInterp none none X l v < M / 2

theorem nodes_lt {X : List K} (hX : X.Pairwise (· < ·)) {i j : Nat} (h : i < j) (hj : j < X.length) : X.getD i 0 < X.getD j 0 := by
  rw [List.getD_eq_getElem _ _ (by omega), List.getD_eq_getElem _ _ hj]
  exact List.pairwise_iff_getElem.1 hX i j (by omega) hj h

theorem nodes_le {X : List K} (hX : X.Pairwise (· < ·)) {i j : Nat} (h : i ≤ j) (hj : j < X.length) : X.getD i 0 ≤ X.getD j 0 := by
  rcases Nat.eq_or_lt_of_le h with h | h
  · rw [h]
  · exact (nodes_lt hX h hj).le

omit [Field K] [IsStrictOrderedRing K] in
theorem cell_left (g : Nat → K) (v : K) (h0 : g 0 ≤ v) (i : Nat) (h1 : v < g (i + 1)) : ∃ j ≤ i, g j ≤ v ∧ v < g (j + 1) := by
  induction i with
  | zero => exact ⟨0, le_rfl, h0, h1⟩
  | succ i ih =>
    rcases lt_or_ge v (g (i + 1)) with h | h
    · obtain ⟨j, hj, h2⟩ := ih h
      exact ⟨j, by omega, h2⟩
    · exact ⟨i + 1, le_rfl, h, h1⟩

omit [Field K] [IsStrictOrderedRing K] in
theorem cell_right (g : Nat → K) (v : K) (k d : Nat) (h0 : g k < v) (h1 : v ≤ g (k + d)) :
    ∃ j, k ≤ j ∧ j < k + d ∧ g j < v ∧ v ≤ g (j + 1) := by
  induction d with
  | zero => exact absurd h1 (not_le.2 h0)
  | succ d ih =>
    rcases le_or_gt v (g (k + d)) with h | h
    · obtain ⟨j, h2, h3, h4⟩ := ih h
      exact ⟨j, h2, by omega, h4⟩
    · exact ⟨k + d, by omega, by omega, h, h1⟩

/-- a point on a line between two values below `h` -/
theorem lerp_lt {a b t h : K} (ha : a < h) (hb : b < h) (h0 : 0 ≤ t) (h1 : t ≤ 1) : a + (b - a) * t < h := by
  rcases le_total a b with hab | hab
  · have := mul_le_mul_of_nonneg_left h1 (sub_nonneg.2 hab)
    linarith
  · have := mul_nonneg (sub_nonneg.2 hab) h0
    nlinarith

/-- the first crossing -/
theorem left_crossing (X l : List K) (hX : X.Pairwise (· < ·)) {i : Nat} (hi : i + 1 < X.length) {h : K}
    (hlow : ∀ j ≤ i, l.getD j 0 < h) (hup : h ≤ l.getD (i + 1) 0) {a : K}
    (ha : a = X.getD i 0 + (X.getD (i + 1) 0 - X.getD i 0) * (h - l.getD i 0) / (l.getD (i + 1) 0 - l.getD i 0)) :
    npInterp none none X l a = h ∧ (∀ v, v < a → npInterp none none X l v < h) := by
  have hd := sub_pos.2 (nodes_lt hX (Nat.lt_succ_self i) hi)
  have hf : 0 < l.getD (i + 1) 0 - l.getD i 0 := by have := hlow i le_rfl; linarith
  have hh := hlow i le_rfl
  have ht0 : 0 ≤ (h - l.getD i 0) / (l.getD (i + 1) 0 - l.getD i 0) := div_nonneg (by linarith) hf.le
  have ht1 : (h - l.getD i 0) / (l.getD (i + 1) 0 - l.getD i 0) ≤ 1 := by rw [div_le_one hf]; linarith
  have ha' : a = X.getD i 0 + (X.getD (i + 1) 0 - X.getD i 0) * ((h - l.getD i 0) / (l.getD (i + 1) 0 - l.getD i 0)) := by
    rw [ha, mul_div_assoc]
  have ha1 : X.getD i 0 ≤ a := by rw [ha']; have := mul_nonneg hd.le ht0; linarith
  have ha2 : a ≤ X.getD (i + 1) 0 := by
    rw [ha']; have := mul_le_mul_of_nonneg_left ht1 hd.le; linarith
  constructor
  · rw [C71_segment none none X l hX i hi a ha1 ha2, ha', add_sub_cancel_left, mul_div_assoc]
    field_simp
    ring
  · intro v hv
    rcases lt_or_ge v (X.getD 0 0) with h0 | h0
    · rw [(C71_outside none none X l hX (by rintro rfl; simp at hi) v).1 h0]
      exact hlow 0 (Nat.zero_le i)
    · obtain ⟨j, hj, j1, j2⟩ := cell_left (fun j => X.getD j 0) v h0 i (lt_of_lt_of_le hv ha2)
      have hdj := sub_pos.2 (nodes_lt hX (Nat.lt_succ_self j) (by omega))
      rw [C71_segment none none X l hX j (by omega) v j1 j2.le]
      have t0 : 0 ≤ (v - X.getD j 0) / (X.getD (j + 1) 0 - X.getD j 0) := div_nonneg (by have : X.getD j 0 ≤ v := j1; linarith) hdj.le
      have t1 : (v - X.getD j 0) / (X.getD (j + 1) 0 - X.getD j 0) ≤ 1 := by
        rw [div_le_one hdj]; have : v < X.getD (j + 1) 0 := j2; linarith
      rcases Nat.eq_or_lt_of_le hj with rfl | hlt
      · have hlt : (v - X.getD j 0) / (X.getD (j + 1) 0 - X.getD j 0) < (h - l.getD j 0) / (l.getD (j + 1) 0 - l.getD j 0) := by
          rw [div_lt_iff₀ hdj]
          rw [ha'] at hv
          linarith
        have := mul_lt_mul_of_pos_left hlt hf
        rw [mul_div_cancel₀ _ hf.ne'] at this
        linarith
      · exact lerp_lt (hlow j (by omega)) (hlow (j + 1) (by omega)) t0 t1

/-- the last crossing -/
theorem right_crossing (X l : List K) (hX : X.Pairwise (· < ·)) (hXl : X.length = l.length) {k : Nat} (hk : k + 1 < X.length) {h : K}
    (hlow : ∀ j, k < j → j < X.length → l.getD j 0 < h) (hup : h ≤ l.getD k 0) {b : K}
    (hb : b = X.getD k 0 + (X.getD (k + 1) 0 - X.getD k 0) * (h - l.getD k 0) / (l.getD (k + 1) 0 - l.getD k 0)) :
    npInterp none none X l b = h ∧ (∀ v, b < v → npInterp none none X l v < h) := by
  have hd := sub_pos.2 (nodes_lt hX (Nat.lt_succ_self k) hk)
  have hh := hlow (k + 1) (by omega) hk
  have hf : l.getD (k + 1) 0 - l.getD k 0 < 0 := by linarith
  have ht0 : 0 ≤ (h - l.getD k 0) / (l.getD (k + 1) 0 - l.getD k 0) := div_nonneg_of_nonpos (by linarith) hf.le
  have ht1 : (h - l.getD k 0) / (l.getD (k + 1) 0 - l.getD k 0) ≤ 1 := by rw [div_le_one_of_neg hf]; linarith
  have hb' : b = X.getD k 0 + (X.getD (k + 1) 0 - X.getD k 0) * ((h - l.getD k 0) / (l.getD (k + 1) 0 - l.getD k 0)) := by
    rw [hb, mul_div_assoc]
  have hb1 : X.getD k 0 ≤ b := by rw [hb']; have := mul_nonneg hd.le ht0; linarith
  have hb2 : b ≤ X.getD (k + 1) 0 := by
    rw [hb']; have := mul_le_mul_of_nonneg_left ht1 hd.le; linarith
  constructor
  · rw [C71_segment none none X l hX k hk b hb1 hb2, hb', add_sub_cancel_left, mul_div_assoc]
    have := hf.ne
    field_simp
    ring
  · intro v hv
    rcases lt_or_ge (X.getD (X.length - 1) 0) v with h0 | h0
    · rw [(C71_outside none none X l hX (by rintro rfl; simp at hk) v).2 h0]
      rw [← hXl]
      exact hlow _ (by omega) (by omega)
    · obtain ⟨j, hj, jn, j1, j2⟩ := cell_right (fun j => X.getD j 0) v k (X.length - 1 - k) (lt_of_le_of_lt hb1 hv) (by
        show v ≤ X.getD (k + (X.length - 1 - k)) 0
        rw [show k + (X.length - 1 - k) = X.length - 1 by omega]; exact h0)
      have j1' : X.getD j 0 < v := j1
      have j2' : v ≤ X.getD (j + 1) 0 := j2
      have hdj := sub_pos.2 (nodes_lt hX (Nat.lt_succ_self j) (by omega))
      rw [C71_segment none none X l hX j (by omega) v j1'.le j2']
      have t0 : 0 ≤ (v - X.getD j 0) / (X.getD (j + 1) 0 - X.getD j 0) := div_nonneg (by linarith) hdj.le
      have t1 : (v - X.getD j 0) / (X.getD (j + 1) 0 - X.getD j 0) ≤ 1 := by
        rw [div_le_one hdj]; linarith
      rcases Nat.eq_or_lt_of_le hj with rfl | hlt
      · have hlt : (h - l.getD k 0) / (l.getD (k + 1) 0 - l.getD k 0) < (v - X.getD k 0) / (X.getD (k + 1) 0 - X.getD k 0) := by
          rw [lt_div_iff₀ hdj]
          rw [hb'] at hv
          linarith
        have := mul_lt_mul_of_neg_left hlt hf
        rw [mul_div_cancel₀ _ hf.ne] at this
        linarith
      · exact lerp_lt (hlow j (by omega) (by omega)) (hlow (j + 1) (by omega) (by omega)) t0 t1

end

/-- before the first `True` -/
theorem firstTrue_before {N : Nat} {p : Nat → Bool} {j : Nat} (h : j < firstTrue ((List.range N).map p)) : p j = false := by
  unfold firstTrue at h
  split at h
  · have h' := List.not_of_lt_findIdx h
    simp only [List.getElem_map, List.getElem_range, id] at h'
    simpa using h'
  · omega

section
variable {α : Type}

theorem sliceLen_reverse (n : Nat) : sliceLen n ⟨none, none, some (-1)⟩ = n := by
  unfold sliceLen Slice.resolve Slice.clampBound
  simp
  omega

theorem slicePos_reverse (n k : Nat) (h : k < n) : slicePos n ⟨none, none, some (-1)⟩ k = n - 1 - k := by
  unfold slicePos Slice.resolve Slice.clampBound
  simp [RSlice.pos]
  omega

/-- reversing an axis -/
theorem is_reverse {S : Shape} {a : SA α} {f : (String → Nat) → α} {x : String} {n : Nat} (hx : get? S x = some n)
    (ha : Is S a f) :
    ∃ r, a.getitem [(x, .slice ⟨none, none, some (-1)⟩)] = .ok r ∧ Is S r (fun e => f (Function.update e x (n - 1 - e x))) := by
  obtain ⟨r, h1, h2, h3, h4, h5⟩ := SA.getitem_slice ha.wf x ⟨none, none, some (-1)⟩ (by simp)
  have hax : get? a.shape x = some n := (ha.shape x).trans hx
  refine ⟨r, h1, h2, fun ax => ?_, fun e he => ?_⟩
  · rw [h4]
    by_cases h : ax = x
    · subst h; rw [if_pos rfl, hax, Option.map_some, sliceLen_reverse, hx]
    · rw [if_neg h, ha.shape]
  · have hex := he x n hx
    have hfun : (fun ax => if ax = x then slicePos ((get? a.shape ax).getD 0) ⟨none, none, some (-1)⟩ (e ax) else e ax) =
        Function.update e x (n - 1 - e x) := by
      funext ax
      by_cases h : ax = x
      · subst h; rw [if_pos rfl, hax, Option.getD_some, slicePos_reverse _ _ hex, Function.update_self]
      · rw [if_neg h, Function.update_of_ne h]
    rw [h5, hfun]
    exact ha.elem _ (inRange_update hx (fun ax m _ hm => he ax m hm) (by omega))

end

section
variable {K : Type} [Field K] [LinearOrder K] [IsStrictOrderedRing K]

omit [LinearOrder K] [IsStrictOrderedRing K] in
theorem is_crossing {V : Shape} {h x0 x1 f0 f1 : SA K} {H X0 X1 F0 F1 : (String → Nat) → K} (hh : Is V h H) (hx0 : Is V x0 X0)
    (hx1 : Is V x1 X1) (hf0 : Is V f0 F0) (hf1 : Is V f1 F1) :
    ∃ r, SA.crossing h x0 x1 f0 f1 = .ok r ∧
      Is V r (fun e => X0 e + (X1 e - X0 e) * (H e - F0 e) / (F1 e - F0 e)) := by
  obtain ⟨z1, a1, b1⟩ := is_ufunc2 (· - ·) hx1 hx0
  obtain ⟨z2, a2, b2⟩ := is_ufunc2 (· - ·) hf1 hf0
  obtain ⟨z3, a3, b3⟩ := is_ufunc2 (· - ·) hh hf0
  obtain ⟨z4, a4, b4⟩ := is_ufunc2 (· * ·) b1 b3
  obtain ⟨z5, a5, b5⟩ := is_ufunc2 (· / ·) b4 b2
  obtain ⟨z6, a6, b6⟩ := is_ufunc2 (· + ·) hx0 b5
  refine ⟨z6, ?_, b6⟩
  unfold SA.crossing
  simp only [bind, Except.bind, a1, a2, a3, a4, a5, a6]

variable {x f h : SA K} {ax : String} {n : Nat}

/-- where an array with the axis is compared with one without it -/
theorem is_above {S : Shape} {g : SA K} {G : (String → Nat) → K} (hg : Is S g G) (hx : get? S ax = some n) (hh : h.WF)
    (hhs : Same h.shape (without S [ax])) :
    ∃ c, SA.ufunc2 (fun f h => decide (h ≤ f)) g h = .ok c ∧ Is S c (fun e => decide (h.at' e ≤ G e)) := by
  have hhI : Is (without S [ax]) h h.at' := (Is.self hh).same hhs
  obtain ⟨c, c1, c2⟩ := (hg.rep (fun _ _ h => h)).ufunc2 (fun f h => decide (h ≤ f)) (hhI.rep (T := S) (by
    intro y m hm
    rw [get?_without] at hm
    split at hm
    · cases hm
    · exact hm))
  exact ⟨c, c1, c2.is (fun y hy => .inl hy)⟩

theorem left_array (hx : x.WF) (hf : f.WF) (hh : h.WF) (hfn : get? f.shape ax = some n) (hxn : get? x.shape ax = some n)
    (hsub : ∀ y m, get? x.shape y = some m → get? f.shape y = some m) (hpos : ∀ y, get? f.shape y ≠ some 0)
    (hhs : Same h.shape (without f.shape [ax]))
    (hlow : ∀ e, InRange (without f.shape [ax]) e → (lineOf f.at' ax n e).getD 0 0 < h.at' e)
    (hex : ∀ e, InRange (without f.shape [ax]) e → ∃ k < n, h.at' e ≤ (lineOf f.at' ax n e).getD k 0) :
    ∃ r, SA.leftCrossing x f h ax = .ok r ∧ r.WF ∧ Same r.shape (without f.shape [ax]) ∧
      ∀ e, InRange (without f.shape [ax]) e → ∃ i, i + 1 < n ∧ (∀ j ≤ i, (lineOf f.at' ax n e).getD j 0 < h.at' e) ∧
        h.at' e ≤ (lineOf f.at' ax n e).getD (i + 1) 0 ∧
        r.at' e = (lineOf x.at' ax n e).getD i 0 + ((lineOf x.at' ax n e).getD (i + 1) 0 - (lineOf x.at' ax n e).getD i 0) *
          (h.at' e - (lineOf f.at' ax n e).getD i 0) / ((lineOf f.at' ax n e).getD (i + 1) 0 - (lineOf f.at' ax n e).getD i 0) := by
  have hget : ∀ (g : (String → Nat) → K) e k, k < n → (lineOf g ax n e).getD k 0 = g (Function.update e ax k) := by
    intro g e k hk
    rw [List.getD_eq_getElem _ _ (by rw [length_lineOf]; exact hk)]
    simp [lineOf]
  have hax : ax ∉ h.axes := by
    rw [← SA.keys_shape hh, ← get?_eq_none, hhs, get?_without, if_pos (by simp)]
  have hhu : ∀ e k, h.at' (Function.update e ax k) = h.at' e := fun e k =>
    SA.at'_congr fun y hy => Function.update_of_ne (by rintro rfl; exact hax hy) _ _
  have hn : 0 < n := by
    have := hpos ax; rw [hfn] at this
    rcases Nat.eq_zero_or_pos n with h | h
    · subst h; exact absurd rfl this
    · exact h
  obtain ⟨ab, ab1, ab2⟩ := is_above (Is.self hf) hfn hh hhs
  obtain ⟨d, J, d1, d2, d3, d4, d5, d6⟩ := is_argReduce hfn ab2 hpos (g := firstTrue) (fun l h => firstTrue_lt h)
  set G := fun e => firstTrue (lineOf (fun e => decide (h.at' e ≤ f.at' e)) ax n e) with hG
  have hline : ∀ e, lineOf (fun e => decide (h.at' e ≤ f.at' e)) ax n e =
      (List.range n).map (fun k => decide (h.at' e ≤ f.at' (Function.update e ax k))) := by
    intro e
    unfold lineOf
    simp only [hhu]
  have hk : ∀ e, InRange (without f.shape [ax]) e → ∃ k, G e = k + 1 ∧ k + 1 < n ∧
      (∀ j ≤ k, (lineOf f.at' ax n e).getD j 0 < h.at' e) ∧ h.at' e ≤ (lineOf f.at' ax n e).getD (k + 1) 0 := by
    intro e he
    obtain ⟨k, k1, k2, k3, k4⟩ := firstTrue_range (N := n) (p := fun k => decide (h.at' e ≤ f.at' (Function.update e ax k)))
      (by
        show decide (_ ≤ _) = false
        rw [decide_eq_false_iff_not, not_le, ← hget f.at' e 0 hn]
        exact hlow e he) (by
        obtain ⟨k, hk, h1⟩ := hex e he
        refine ⟨k, hk, ?_⟩
        show decide (_ ≤ _) = true
        rw [decide_eq_true_iff, ← hget f.at' e k hk]
        exact h1)
    refine ⟨k, by rw [← k1, ← hline], k2, fun j hj => ?_, ?_⟩
    · have hb := firstTrue_before (N := n) (p := fun k => decide (h.at' e ≤ f.at' (Function.update e ax k))) (j := j) (by omega)
      have hb' : decide (h.at' e ≤ f.at' (Function.update e ax j)) = false := hb
      rw [decide_eq_false_iff_not, not_le] at hb'
      rw [hget _ e j (by omega)]
      exact hb'
    · have hb' : decide (h.at' e ≤ f.at' (Function.update e ax (k + 1))) = true := k4
      rw [decide_eq_true_iff] at hb'
      rw [hget _ e _ k2]
      exact hb'
  have hJ1 : Is (without f.shape [ax]) J (fun e => ((G e : Nat) : Int)) := d4
  obtain ⟨X0, x01, x02⟩ := ufunc2_is_scalar (· - ·) hJ1 (1 : Int)
  have hX0 : Is (without f.shape [ax]) X0 (fun e => ((G e - 1 : Nat) : Int)) := x02.congr (by
    intro e he
    obtain ⟨k, k1, _⟩ := hk e he
    rw [k1]; simp)
  have hGlt : ∀ e, InRange (without f.shape [ax]) e → G e < n := by
    intro e he
    obtain ⟨k, k1, k2, _⟩ := hk e he
    omega
  have hVx : get? (without f.shape [ax]) ax = none := by rw [get?_without, if_pos (by simp)]
  have hCU : ∀ y m, y ≠ ax → get? f.shape y = some m → get? (without f.shape [ax]) y = some m := by
    intro y m hy hm
    rw [get?_without, if_neg (by simpa using hy)]; exact hm
  have hCUx : ∀ y m, y ≠ ax → get? x.shape y = some m → get? (without f.shape [ax]) y = some m :=
    fun y m hy hm => hCU y m hy (hsub y m hm)
  have hdw : ∀ y v, get? (d.set ax X0) y = some v → v.WF := by
    intro y v hv
    rw [get?_set] at hv
    split at hv
    · injection hv with hv; rw [← hv]; exact x02.wf
    · exact d6 y v hv
  have hds : ∀ y m, y ≠ ax → get? f.shape y = some m → get? (d.set ax X0) y = some (SA.arange y m) := by
    intro y m hy hm
    rw [get?_set, if_neg (Ne.symm hy)]
    exact d5 y m hy hm
  obtain ⟨F1, f11, f12⟩ := is_gather (Is.self hf) hfn hVx hCU d2 d6 d3 hJ1 hGlt d5
  obtain ⟨F0, f01, f02⟩ := is_gather (d := d.set ax X0) (Is.self hf) hfn hVx hCU (wf_set d2 _ _) hdw (by rw [get?_set, if_pos rfl]) hX0
    (fun e he => by have := hGlt e he; omega) hds
  obtain ⟨P1, p11, p12⟩ := is_gather (Is.self hx) hxn hVx hCUx d2 d6 d3 hJ1 hGlt (fun y m hy hm => d5 y m hy (hsub y m hm))
  obtain ⟨P0, p01, p02⟩ := is_gather (d := d.set ax X0) (Is.self hx) hxn hVx hCUx (wf_set d2 _ _) hdw (by rw [get?_set, if_pos rfl])
    hX0 (fun e he => by have := hGlt e he; omega) (fun y m hy hm => hds y m hy (hsub y m hm))
  obtain ⟨r, r1, r2⟩ := is_crossing ((Is.self hh).same hhs) p02 p12 f02 f12
  refine ⟨r, ?_, r2.wf, r2.shape, fun e he => ?_⟩
  · unfold SA.leftCrossing
    simp only [bind, Except.bind, ab1, d1, d3, x01, p01, p11, f11, f01, r1]
  · obtain ⟨k, k1, k2, k3, k4⟩ := hk e he
    refine ⟨k, k2, k3, k4, ?_⟩
    rw [r2.elem e he]
    simp only [k1, Nat.add_sub_cancel]
    rw [hget _ e k (by omega), hget _ e k (by omega), hget _ e _ k2, hget _ e _ k2]

theorem right_array (hx : x.WF) (hf : f.WF) (hh : h.WF) (hfn : get? f.shape ax = some n) (hxn : get? x.shape ax = some n)
    (hsub : ∀ y m, get? x.shape y = some m → get? f.shape y = some m) (hpos : ∀ y, get? f.shape y ≠ some 0)
    (hhs : Same h.shape (without f.shape [ax]))
    (hlow : ∀ e, InRange (without f.shape [ax]) e → (lineOf f.at' ax n e).getD (n - 1) 0 < h.at' e)
    (hex : ∀ e, InRange (without f.shape [ax]) e → ∃ k < n, h.at' e ≤ (lineOf f.at' ax n e).getD k 0) :
    ∃ r, SA.rightCrossing x f h ax n = .ok r ∧ r.WF ∧ Same r.shape (without f.shape [ax]) ∧
      ∀ e, InRange (without f.shape [ax]) e → ∃ i, i + 1 < n ∧
        (∀ j, i < j → j < n → (lineOf f.at' ax n e).getD j 0 < h.at' e) ∧
        h.at' e ≤ (lineOf f.at' ax n e).getD i 0 ∧
        r.at' e = (lineOf x.at' ax n e).getD i 0 + ((lineOf x.at' ax n e).getD (i + 1) 0 - (lineOf x.at' ax n e).getD i 0) *
          (h.at' e - (lineOf f.at' ax n e).getD i 0) / ((lineOf f.at' ax n e).getD (i + 1) 0 - (lineOf f.at' ax n e).getD i 0) := by
  have hget : ∀ (g : (String → Nat) → K) e k, k < n → (lineOf g ax n e).getD k 0 = g (Function.update e ax k) := by
    intro g e k hk
    rw [List.getD_eq_getElem _ _ (by rw [length_lineOf]; exact hk)]
    simp [lineOf]
  have hax : ax ∉ h.axes := by
    rw [← SA.keys_shape hh, ← get?_eq_none, hhs, get?_without, if_pos (by simp)]
  have hhu : ∀ e k, h.at' (Function.update e ax k) = h.at' e := fun e k =>
    SA.at'_congr fun y hy => Function.update_of_ne (by rintro rfl; exact hax hy) _ _
  have hn : 0 < n := by
    have := hpos ax; rw [hfn] at this
    rcases Nat.eq_zero_or_pos n with h | h
    · subst h; exact absurd rfl this
    · exact h
  obtain ⟨rv, rv1, rv2⟩ := is_reverse hfn (Is.self hf)
  obtain ⟨ab, ab1, ab2⟩ := is_above rv2 hfn hh hhs
  obtain ⟨d, J, d1, d2, d3, d4, d5, d6⟩ := is_argReduce hfn ab2 hpos (g := firstTrue) (fun l h => firstTrue_lt h)
  set G := fun e => firstTrue (lineOf (fun e => decide (h.at' e ≤ f.at' (Function.update e ax (n - 1 - e ax)))) ax n e) with hG
  have hline : ∀ e, lineOf (fun e => decide (h.at' e ≤ f.at' (Function.update e ax (n - 1 - e ax)))) ax n e =
      (List.range n).map (fun k => decide (h.at' e ≤ f.at' (Function.update e ax (n - 1 - k)))) := by
    intro e
    unfold lineOf
    simp only [hhu, Function.update_self, Function.update_idem]
  have hk : ∀ e, InRange (without f.shape [ax]) e → ∃ k, G e = k + 1 ∧ k + 1 < n ∧
      (∀ j ≤ k, (lineOf f.at' ax n e).getD (n - 1 - j) 0 < h.at' e) ∧ h.at' e ≤ (lineOf f.at' ax n e).getD (n - 1 - (k + 1)) 0 := by
    intro e he
    obtain ⟨k, k1, k2, k3, k4⟩ := firstTrue_range (N := n) (p := fun k => decide (h.at' e ≤ f.at' (Function.update e ax (n - 1 - k))))
      (by
        show decide (_ ≤ _) = false
        rw [decide_eq_false_iff_not, not_le, ← hget f.at' e _ (by omega)]
        exact hlow e he) (by
        obtain ⟨k, hk, h1⟩ := hex e he
        refine ⟨n - 1 - k, by omega, ?_⟩
        show decide (_ ≤ _) = true
        rw [decide_eq_true_iff, ← hget f.at' e _ (by omega), show n - 1 - (n - 1 - k) = k by omega]
        exact h1)
    refine ⟨k, by rw [← k1, ← hline], k2, fun j hj => ?_, ?_⟩
    · have hb := firstTrue_before (N := n) (p := fun k => decide (h.at' e ≤ f.at' (Function.update e ax (n - 1 - k)))) (j := j) (by omega)
      have hb' : decide (h.at' e ≤ f.at' (Function.update e ax (n - 1 - j))) = false := hb
      rw [decide_eq_false_iff_not, not_le] at hb'
      rw [hget _ e _ (by omega)]
      exact hb'
    · have hb' : decide (h.at' e ≤ f.at' (Function.update e ax (n - 1 - (k + 1)))) = true := k4
      rw [decide_eq_true_iff] at hb'
      rw [hget _ e _ (by omega)]
      exact hb'
  have hJ1 : Is (without f.shape [ax]) J (fun e => ((G e : Nat) : Int)) := d4
  obtain ⟨I, i1, i2⟩ := (Rep.scalar (without f.shape [ax]) ((n : Int) - 1)).ufunc2 (· - ·) (hJ1.rep (fun _ _ h => h))
  have hI : Is (without f.shape [ax]) I (fun e => ((n - 1 - G e : Nat) : Int)) := (i2.is (fun y hy => .inr hy)).congr (by
    intro e he
    obtain ⟨k, k1, k2, _⟩ := hk e he
    rw [k1]; push_cast; omega)
  obtain ⟨J', j1, j2⟩ := ufunc2_is_scalar (· + ·) hI (1 : Int)
  have hJ' : Is (without f.shape [ax]) J' (fun e => ((n - 1 - G e + 1 : Nat) : Int)) := j2.congr (by
    intro e he
    push_cast; rfl)
  have hlt0 : ∀ e, InRange (without f.shape [ax]) e → n - 1 - G e < n := fun e he => by omega
  have hlt1 : ∀ e, InRange (without f.shape [ax]) e → n - 1 - G e + 1 < n := by
    intro e he
    obtain ⟨k, k1, k2, _⟩ := hk e he
    omega
  have hVx : get? (without f.shape [ax]) ax = none := by rw [get?_without, if_pos (by simp)]
  have hCU : ∀ y m, y ≠ ax → get? f.shape y = some m → get? (without f.shape [ax]) y = some m := by
    intro y m hy hm
    rw [get?_without, if_neg (by simpa using hy)]; exact hm
  have hCUx : ∀ y m, y ≠ ax → get? x.shape y = some m → get? (without f.shape [ax]) y = some m :=
    fun y m hy hm => hCU y m hy (hsub y m hm)
  have hdw : ∀ Z : SA Int, Z.WF → ∀ y v, get? (d.set ax Z) y = some v → v.WF := by
    intro Z hZ y v hv
    rw [get?_set] at hv
    split at hv
    · injection hv with hv; rw [← hv]; exact hZ
    · exact d6 y v hv
  have hds : ∀ Z : SA Int, ∀ y m, y ≠ ax → get? f.shape y = some m → get? (d.set ax Z) y = some (SA.arange y m) := by
    intro Z y m hy hm
    rw [get?_set, if_neg (Ne.symm hy)]
    exact d5 y m hy hm
  obtain ⟨F1, f11, f12⟩ := is_gather (d := d.set ax J') (Is.self hf) hfn hVx hCU (wf_set d2 _ _) (hdw J' hJ'.wf)
    (by rw [get?_set, if_pos rfl]) hJ' hlt1 (hds J')
  obtain ⟨F0, f01, f02⟩ := is_gather (d := d.set ax I) (Is.self hf) hfn hVx hCU (wf_set d2 _ _) (hdw I hI.wf)
    (by rw [get?_set, if_pos rfl]) hI hlt0 (hds I)
  obtain ⟨P1, p11, p12⟩ := is_gather (d := d.set ax J') (Is.self hx) hxn hVx hCUx (wf_set d2 _ _) (hdw J' hJ'.wf)
    (by rw [get?_set, if_pos rfl]) hJ' hlt1 (fun y m hy hm => hds J' y m hy (hsub y m hm))
  obtain ⟨P0, p01, p02⟩ := is_gather (d := d.set ax I) (Is.self hx) hxn hVx hCUx (wf_set d2 _ _) (hdw I hI.wf)
    (by rw [get?_set, if_pos rfl]) hI hlt0 (fun y m hy hm => hds I y m hy (hsub y m hm))
  obtain ⟨r, r1, r2⟩ := is_crossing ((Is.self hh).same hhs) p02 p12 f02 f12
  refine ⟨r, ?_, r2.wf, r2.shape, fun e he => ?_⟩
  · unfold SA.rightCrossing
    simp only [bind, Except.bind, rv1, ab1, d1, d3, i1, j1, p01, p11, f11, f01, r1]
  · obtain ⟨k, k1, k2, k3, k4⟩ := hk e he
    refine ⟨n - 1 - (k + 1), by omega, fun j hj hjn => ?_, k4, ?_⟩
    · have := k3 (n - 1 - j) (by omega)
      rwa [show n - 1 - (n - 1 - j) = j by omega] at this
    · rw [r2.elem e he]
      simp only [k1]
      rw [hget _ e _ (by omega), hget _ e _ (by omega), hget _ e _ (by omega), hget _ e _ (by omega)]

/-- **C73** `pdf.fwhm(x, f, axis)` drops the axis of `f`; if along the axis the coordinates increase and both ends of `f` are
below half of a positive value of `f`, its element at an index of the other axes is the full width at half maximum of the
line of `f` at that index over the line of `x`. -/
theorem C73_fwhm (x f : SA K) (hx : x.WF) (hf : f.WF) (ax : String) (n : Nat) (axis : Option (List String))
    (haxis : axisNormalized f.axes axis = [ax]) (hfn : get? f.shape ax = some n) (hxn : get? x.shape ax = some n)
    (hsub : ∀ y m, get? x.shape y = some m → get? f.shape y = some m) (hpos : ∀ y, get? f.shape y ≠ some 0)
    (hinc : ∀ e, InRange (without f.shape [ax]) e → (lineOf x.at' ax n e).Pairwise (· < ·))
    (hpeak : ∀ e, InRange (without f.shape [ax]) e → ∃ v ∈ lineOf f.at' ax n e, 0 < v ∧
      (lineOf f.at' ax n e).getD 0 0 < v / 2 ∧ (lineOf f.at' ax n e).getD (n - 1) 0 < v / 2) :
    ∃ r, SA.fwhm x f axis = .ok r ∧ r.WF ∧ Same r.shape (without f.shape [ax]) ∧
      ∀ e, InRange (without f.shape [ax]) e → IsWidth (lineOf x.at' ax n e) (lineOf f.at' ax n e) (r.at' e) := by
  have hget : ∀ (g : (String → Nat) → K) e k, k < n → (lineOf g ax n e).getD k 0 = g (Function.update e ax k) := by
    intro g e k hk
    rw [List.getD_eq_getElem _ _ (by rw [length_lineOf]; exact hk)]
    simp [lineOf]
  have haf : ax ∈ f.axes := by rw [← SA.keys_shape hf]; exact mem_keys_of_get? hfn
  obtain ⟨top, t1, t2, -, t4, t5⟩ := SA.C17_reduce f hf none (by intro w hw; cases hw) [ax] (by simp) (by simpa using haf) true
    listMax false (by
      rintro ⟨-, ⟨y, hy, h0⟩, -⟩
      exact hpos y h0)
  have htS : Same top.shape (without f.shape [ax]) := by
    intro y
    rw [t4, get?_without]; rfl
  have hM : ∀ e, InRange (without f.shape [ax]) e → top.at' e ∈ lineOf f.at' ax n e ∧ ∀ v ∈ lineOf f.at' ax n e, v ≤ top.at' e := by
    intro e he
    obtain ⟨l, hl, hl2⟩ := t5 e
    have hmem : ∀ v, v ∈ (l.filter (SA.selected none)).map f.at' ↔ v ∈ lineOf f.at' ax n e := by
      intro v
      have hfl : l.filter (SA.selected none) = l := List.filter_eq_self.2 (fun _ _ => rfl)
      rw [hfl, List.mem_map]
      unfold lineOf
      rw [List.mem_map]
      constructor
      · rintro ⟨e', he', rfl⟩
        obtain ⟨h1, h2⟩ := (hl.2 e').1 he'
        obtain ⟨m, hm, hlt⟩ := h1 ax (by simp)
        rw [hfn] at hm
        injection hm with hm
        subst hm
        refine ⟨e' ax, List.mem_range.2 hlt, ?_⟩
        congr 1
        funext y
        by_cases hy : y = ax
        · subst hy; rw [Function.update_self]
        · rw [Function.update_of_ne hy, h2 y (by simpa using hy)]
      · rintro ⟨k, hk, rfl⟩
        refine ⟨Function.update e ax k, (hl.2 _).2 ⟨?_, ?_⟩, rfl⟩
        · intro y hy
          have hy : y = ax := by simpa using hy
          subst hy
          exact ⟨n, hfn, by rw [Function.update_self]; exact List.mem_range.1 hk⟩
        · intro y hy
          exact Function.update_of_ne (by simpa using hy) _ _
    have hne : (l.filter (SA.selected none)).map f.at' ≠ [] := by
      obtain ⟨v, hv, _⟩ := hpeak e he
      exact List.ne_nil_of_mem ((hmem v).2 hv)
    have := listMax_spec hne
    rw [← hl2] at this
    exact ⟨(hmem _).1 this.1, fun v hv => this.2 v ((hmem v).2 hv)⟩
  obtain ⟨h, h1, h2⟩ := ufunc2_is_scalar (· / ·) ((Is.self t2).same htS) (2 : K)
  have hhs := h2.shape
  have hhe := h2.elem
  have hends : ∀ e, InRange (without f.shape [ax]) e → 0 < top.at' e ∧ (lineOf f.at' ax n e).getD 0 0 < h.at' e ∧
      (lineOf f.at' ax n e).getD (n - 1) 0 < h.at' e := by
    intro e he
    obtain ⟨v, hv, v1, v2, v3⟩ := hpeak e he
    have := (hM e he).2 v hv
    rw [hhe e he]
    refine ⟨by linarith, lt_of_lt_of_le v2 ?_, lt_of_lt_of_le v3 ?_⟩ <;> linarith
  have hex : ∀ e, InRange (without f.shape [ax]) e → ∃ k < n, top.at' e = (lineOf f.at' ax n e).getD k 0 := by
    intro e he
    obtain ⟨k, hk, hk2⟩ := List.getElem_of_mem (hM e he).1
    rw [length_lineOf] at hk
    refine ⟨k, hk, ?_⟩
    rw [← hk2, List.getD_eq_getElem]
  have hex' : ∀ e, InRange (without f.shape [ax]) e → ∃ k < n, h.at' e ≤ (lineOf f.at' ax n e).getD k 0 := by
    intro e he
    obtain ⟨k, hk, hk2⟩ := hex e he
    refine ⟨k, hk, ?_⟩
    rw [← hk2, hhe e he]
    have := (hends e he).1
    linarith
  obtain ⟨a, a1, a2, a3, a4⟩ := left_array hx hf h2.wf hfn hxn hsub hpos hhs (fun e he => (hends e he).2.1) hex'
  obtain ⟨b, b1, b2, b3, b4⟩ := right_array hx hf h2.wf hfn hxn hsub hpos hhs (fun e he => (hends e he).2.2) hex'
  obtain ⟨r, r1, r2⟩ := is_ufunc2 (· - ·) ((Is.self b2).same b3) ((Is.self a2).same a3)
  refine ⟨r, ?_, r2.wf, r2.shape, fun e he => ?_⟩
  · unfold SA.fwhm
    rw [haxis]
    simp only
    unfold SA.fwhmAlong
    simp only [bind, Except.bind, t1, h1, hfn, a1, b1, r1]
  · obtain ⟨i, i1, i2, i3, i4⟩ := a4 e he
    obtain ⟨k, k1, k2, k3, k4⟩ := b4 e he
    have hX := hinc e he
    have hlen : ∀ g : (String → Nat) → K, (lineOf g ax n e).length = n := fun g => length_lineOf g ax n e
    obtain ⟨l1, l2⟩ := left_crossing _ _ hX (by rw [hlen]; exact i1) i2 i3 i4
    obtain ⟨m1, m2⟩ := right_crossing _ _ hX (by rw [hlen, hlen]) (by rw [hlen]; exact k1) (by rw [hlen]; exact k2) k3 k4
    obtain ⟨p, hp, hp2⟩ := hex e he
    have hnode := C71_node none none (lineOf x.at' ax n e) (lineOf f.at' ax n e) hX p (by rw [hlen]; exact hp)
    rw [← hp2] at hnode
    have h0 := (hends e he).1
    have hh2 := hhe e he
    have hgt : h.at' e < npInterp none none (lineOf x.at' ax n e) (lineOf f.at' ax n e) ((lineOf x.at' ax n e).getD p 0) := by
      rw [hnode, hh2]; linarith
    have hab : a.at' e < b.at' e := by
      have q1 : a.at' e < (lineOf x.at' ax n e).getD p 0 := by
        rcases lt_trichotomy ((lineOf x.at' ax n e).getD p 0) (a.at' e) with hlt | heq | hlt
        · exact absurd (l2 _ hlt) (not_lt.2 hgt.le)
        · rw [heq, l1] at hgt; exact absurd hgt (lt_irrefl _)
        · exact hlt
      have q2 : (lineOf x.at' ax n e).getD p 0 < b.at' e := by
        rcases lt_trichotomy ((lineOf x.at' ax n e).getD p 0) (b.at' e) with hlt | heq | hlt
        · exact hlt
        · rw [heq, m1] at hgt; exact absurd hgt (lt_irrefl _)
        · exact absurd (m2 _ hlt) (not_lt.2 hgt.le)
      exact lt_trans q1 q2
    refine ⟨top.at' e, a.at' e, b.at' e, (hM e he).1, (hM e he).2, r2.elem e he, hab, ?_, ?_, ?_⟩
    · rw [l1, hh2]
    · rw [m1, hh2]
    · rintro v (hv | hv)
      · rw [← hh2]; exact l2 v hv
      · rw [← hh2]; exact m2 v hv

/-- **C73** There is only one such width. -/
theorem C73_unique (X l : List K) (w w' : K) (h : IsWidth X l w) (h' : IsWidth X l w') : w = w' := by
  obtain ⟨M, a, b, h1, h2, h3, h4, h5, h6, h7⟩ := h
  obtain ⟨M', a', b', h1', h2', h3', h4', h5', h6', h7'⟩ := h'
  have hM : M = M' := le_antisymm (h2' M h1) (h2 M' h1')
  subst hM
  have ha : a = a' := by
    rcases lt_trichotomy a a' with h | h | h
    · exact absurd (h7' a (.inl h)) (by rw [h5]; exact lt_irrefl _)
    · exact h
    · exact absurd (h7 a' (.inl h)) (by rw [h5']; exact lt_irrefl _)
  have hb : b = b' := by
    rcases lt_trichotomy b b' with h | h | h
    · exact absurd (h7 b' (.inr h)) (by rw [h6']; exact lt_irrefl _)
    · exact h
    · exact absurd (h7' b (.inr h)) (by rw [h6]; exact lt_irrefl _)
  rw [h3, h3', ha, hb]

omit [IsStrictOrderedRing K] in
/-- **C73** Without a single axis. -/
theorem C73_error (x f : SA K) (axis : Option (List String)) (h : (axisNormalized f.axes axis).length ≠ 1) :
    SA.fwhm x f axis = .error .valueError := by
  unfold SA.fwhm
  split
  · rename_i ax hax; rw [hax] at h; simp at h
  · rfl

end

/-! ### Examples -/

/-- coordinates `[0, 1, 2, 4, 5]` along `x` -/
def exWx : SA ℚ := ⟨["x"], ND.vec [0, 1, 2, 4, 5]⟩

/-- values `[[0, 1, 4, 3, 1], [0, 0, 8, 0, 0]]` -/
def exWf : SA ℚ := ⟨["w", "x"], ⟨[2, 5], fun i => ([0, 1, 4, 3, 1, 0, 0, 8, 0, 0] : List ℚ).getD (i.getD 0 0 * 5 + i.getD 1 0) 0⟩⟩

def exWRun (r : R (SA ℚ)) : Option (List String × List ℚ) := r.toOption.map (fun r => (r.axes, r.nd.toList))

example : exWRun (SA.fwhm exWx exWf (some ["x"])) = some (["w"], [9/2 - 4/3, 3 - 3/2]) := by decide +kernel

/-- the hypotheses of `C73_fwhm` are met -/
example : get? exWf.shape "x" = some 5 ∧ get? exWx.shape "x" = some 5 ∧
    (lineOf exWx.at' "x" 5 (fun _ => 0)).Pairwise (· < ·) ∧
    (4 ∈ lineOf exWf.at' "x" 5 (fun _ => 0) ∧ (lineOf exWf.at' "x" 5 (fun _ => 0)).getD 0 0 < 4 / 2 ∧
      (lineOf exWf.at' "x" 5 (fun _ => 0)).getD 4 0 < 4 / 2) := by
  refine ⟨by decide, by decide, by decide +kernel, by decide +kernel, by decide +kernel, by decide +kernel⟩

/-- **C73** Limit: if the first value is already above half of the maximum, the line through the first and the last point is
used (the index -1 is the last one): for the values `4, 4, 0` at `0, 1, 2` the width is `3/2 - 1`. -/
theorem C73_edge_limit :
    exWRun (SA.fwhm ⟨["x"], ND.vec [0, 1, 2]⟩ ⟨["x"], ND.vec [4, 4, 0]⟩ none) = some ([], [3/2 - 1]) ∧
    exWRun (SA.fwhm ⟨["x"], ND.vec [0, 1, 2]⟩ ⟨["x"], ND.vec [0, 4, 4]⟩ none) = none := by decide +kernel

end NA
