import Verif.Scalar.Trim
import Verif.Props.Sorting
import Verif.Interp.Centers
import Mathlib.Data.List.Sort
import Mathlib.Data.Rat.Floor
import Mathlib.Tactic.Linarith
import Mathlib.Tactic.FieldSimp

/-!
# C35: trimmed means
-/

namespace NA
open Dict
namespace SA

variable {K : Type} [Field K] [LinearOrder K] [IsStrictOrderedRing K] [FloorRing K]

/-! ### Specification -/

/-- The contract of numpy's partition of a line: a rearrangement which has at each position `k` of `ks` an
element which is not below those before it and not above those after it. -/
def IsPartition (part : List Nat → List K → List K) : Prop :=
  ∀ ks l, (∀ k ∈ ks, k < l.length) → (part ks l).Perm l ∧
    ∀ k ∈ ks, ∀ x, (part ks l)[k]? = some x →
      (∀ y ∈ (part ks l).take k, y ≤ x) ∧ ∀ y ∈ (part ks l).drop k, x ≤ y

/-- The arithmetic mean of a list. -/
def meanOf (l : List K) : K := l.sum / l.length

/-- The elements which are left of a sorted list `s` when `m` of them are dropped at each end. -/
def middle (m : Nat) (s : List K) : List K := (s.drop m).take (s.length - 2 * m)

/-! ### Helpers -/

/-- The middle part of a partition is a rearrangement of the middle part of the sorted list. -/
theorem partition_middle {part : List Nat → List K → List K} (hp : IsPartition part) {l s : List K} {m : Nat}
    (hm : 2 * m < l.length) (hs : s.Perm l) (hso : s.Pairwise (· ≤ ·)) :
    (((part [m, l.length - m - 1] l).drop m).take (l.length - 2 * m)).Perm (middle m s) := by
  obtain ⟨h1, h2⟩ := hp [m, l.length - m - 1] l (by
    intro k hk
    simp only [List.mem_cons, List.not_mem_nil, or_false] at hk
    omega)
  set p := part [m, l.length - m - 1] l with hpd
  have hl : p.length = l.length := h1.length_eq
  set n := l.length with hn
  have ha : p[m]? = some p[m] := List.getElem?_eq_getElem _
  have hb : p[n - m - 1]? = some p[n - m - 1] := List.getElem?_eq_getElem _
  obtain ⟨a1, a2⟩ := h2 m (by simp) _ ha
  obtain ⟨b1, b2⟩ := h2 (n - m - 1) (by simp) _ hb
  set A := p.take m
  set B := (p.drop m).take (n - 2 * m)
  set C := p.drop (n - m)
  have hABC : p = A ++ (B ++ C) := by
    have h3 : (p.drop m).drop (n - 2 * m) = C := by
      rw [List.drop_drop]; congr 1; omega
    rw [← h3, List.take_append_drop, List.take_append_drop]
  have hBtake : B = (p.take (n - m)).drop m := by
    simp only [B]
    rw [List.drop_take]; congr 1; omega
  have hBmem : ∀ y ∈ B, p[m] ≤ y ∧ y ≤ p[n - m - 1] := by
    intro y hy
    refine ⟨a2 y (List.mem_of_mem_take hy), ?_⟩
    rw [hBtake] at hy
    have hy := List.mem_of_mem_drop hy
    have h4 : n - m = (n - m - 1) + 1 := by omega
    rw [h4, List.take_succ_eq_append_getElem (by omega)] at hy
    rcases List.mem_append.1 hy with h | h
    · exact b1 y h
    · simp only [List.mem_singleton] at h
      exact h.le
  have hCmem : ∀ y ∈ C, p[n - m - 1] ≤ y := by
    intro y hy
    apply b2
    have h4 : n - m = (n - m - 1) + 1 := by omega
    have : C = (p.drop (n - m - 1)).drop 1 := by
      simp only [C]; rw [List.drop_drop]; congr 1
    rw [this] at hy
    exact List.mem_of_mem_drop hy
  have hab : p[m] ≤ p[n - m - 1] := by
    apply a2
    have : n - m - 1 = m + (n - m - 1 - m) := by omega
    rw [List.mem_iff_getElem]
    exact ⟨n - m - 1 - m, by simp; omega, by simp [List.getElem_drop]; congr 1; omega⟩
  let srt : List K → List K := fun t => t.mergeSort (fun a b => decide (a ≤ b))
  have hsrtp : ∀ t, (srt t).Perm t := fun t => List.mergeSort_perm _ _
  have hsrts : ∀ t, (srt t).Pairwise (· ≤ ·) := by
    intro t
    have := List.pairwise_mergeSort (le := fun a b : K => decide (a ≤ b))
      (by intro a b c; simpa using le_trans) (by intro a b; simpa using le_total a b) t
    simpa using this
  have hs' : s = srt A ++ (srt B ++ srt C) := by
    refine List.Perm.eq_of_pairwise (fun a b _ _ => le_antisymm) hso ?_ ?_
    · refine List.pairwise_append.2 ⟨hsrts _, List.pairwise_append.2 ⟨hsrts _, hsrts _, ?_⟩, ?_⟩
      · intro x hx y hy
        exact ((hBmem x ((hsrtp _).mem_iff.1 hx)).2).trans (hCmem y ((hsrtp _).mem_iff.1 hy))
      · intro x hx y hy
        have hx := a1 x ((hsrtp _).mem_iff.1 hx)
        rcases List.mem_append.1 hy with h | h
        · exact hx.trans (hBmem y ((hsrtp _).mem_iff.1 h)).1
        · exact hx.trans (hab.trans (hCmem y ((hsrtp _).mem_iff.1 h)))
    · refine hs.trans (h1.symm.trans ?_)
      rw [hABC]
      exact ((hsrtp _).append ((hsrtp _).append (hsrtp _))).symm
  have hAl : (srt A).length = m := by rw [(hsrtp _).length_eq]; simp [A]; omega
  have hBl : (srt B).length = n - 2 * m := by rw [(hsrtp _).length_eq]; simp [B]; omega
  have hsl : s.length = n := hs.length_eq
  unfold middle
  rw [hsl, hs', List.drop_left' hAl, List.take_left' hBl]
  exact (hsrtp _).symm

theorem pyInt_cut {q : K} (h0 : 0 ≤ q) (h1 : q < 1 / 2) {n : Nat} (hn : 0 < n) :
    ∃ m : Nat, pyInt (q * (n : K)) = m ∧ ⌊q * (n : K)⌋ = m ∧ 2 * m < n := by
  have hx : 0 ≤ q * (n : K) := mul_nonneg h0 (Nat.cast_nonneg n)
  have hf : 0 ≤ ⌊q * (n : K)⌋ := Int.floor_nonneg.2 hx
  obtain ⟨m, hm⟩ := Int.eq_ofNat_of_zero_le hf
  refine ⟨m, by unfold pyInt; rw [if_pos hx]; exact hm, hm, ?_⟩
  have hle : ((m : Int) : K) ≤ q * n := by
    have := Int.floor_le (q * (n : K))
    rw [hm] at this
    exact this
  have hn' : (0 : K) < n := by exact_mod_cast hn
  have : (2 * m : K) < n := by
    push_cast at hle
    nlinarith
  exact_mod_cast this

/-- numpy's partition along an axis, by name. -/
theorem partition_ok {part : List Nat → List K → List K} {dflt : K} {a : SA K} (ha : a.WF) {axis : String}
    (hax : axis ∈ a.axes) {lo hi : Nat} (h1 : lo < a.sizeOf' axis) (h2 : hi < a.sizeOf' axis) :
    ∃ r, a.partition part dflt [(lo : Int), (hi : Int)] axis = .ok r ∧ r.WF ∧ r.axes = a.axes ∧
      (∀ ax, get? r.shape ax = get? a.shape ax) ∧
      ∀ e, r.at' e = (part [lo, hi] ((List.range (a.sizeOf' axis)).map
        (fun k => a.at' (Function.update e axis k)))).getD (e axis) dflt := by
  have hg : a.nd.shape.getD (a.axes.idxOf axis) 0 = a.sizeOf' axis := by
    rw [shape_eq_map ha, getD_map_idxOf _ hax]
  obtain ⟨nd, n1, n2, n3⟩ := ND.alongAxis_named ha.2 (shape_eq_map ha) hax (a.sizeOf' axis)
    (fun l k => (part [lo, hi] l).getD k dflt)
  obtain ⟨w1, w2⟩ := mk_map ha.2 n2
  have hk : ∀ k : Nat, k < a.sizeOf' axis → kthIndex (a.sizeOf' axis) (k : Int) = .ok k := by
    intro k hk
    unfold kthIndex
    rw [if_pos ⟨by omega, by exact_mod_cast hk⟩]
    unfold ND.pyIndex
    rw [if_neg (by omega)]
    rfl
  refine ⟨⟨a.axes, nd⟩, ?_, w1, rfl, ?_, fun e => ?_⟩
  · unfold partition
    rw [if_neg (not_not.2 hax)]
    simp only [hg, List.mapM_cons, List.mapM_nil, hk _ h1, hk _ h2, bind, Except.bind, pure, Except.pure, n1]
    exact mk?_of_wf w1.1 w1.2
  · intro ax
    rw [w2]
    by_cases h : ax ∈ a.axes
    · obtain ⟨n, hn⟩ := exists_get?_of_mem (d := a.shape) (by rw [keys_shape ha]; exact h)
      have : (if ax = axis then a.sizeOf' axis else a.sizeOf' ax) = a.sizeOf' ax := by split_ifs with h' <;> simp [*]
      rw [if_pos h, this, hn]
      simp [sizeOf', hn]
    · rw [if_neg h, get?_eq_none.2]
      rw [keys_shape ha]; exact h
  · exact n3 e

theorem trimmed_main {part : List Nat → List K → List K} (hp : IsPartition part) {a : SA K} (ha : a.WF)
    {axis : Option (List String)} (hA : (axis.getD a.axes).Nodup) (hAne : axis.getD a.axes ≠ [])
    (hAs : axis.getD a.axes ⊆ a.axes)
    (hcoll : ∀ ax ∈ a.axes, ax ∉ axis.getD a.axes → ax ≠ "*".intercalate (axis.getD a.axes))
    (hpos : ∀ ax, get? a.shape ax ≠ some 0) {q : K} (h0 : 0 ≤ q) (h1 : q < 1 / 2)
    (dflt : K) (mean : List K → K) (hmean : Orderless mean) (kd : Bool) :
    ∃ r, meanTrimmed part dflt mean a q axis kd none = .ok r ∧ r.WF ∧
      r.axes = a.axes.filter (· ∉ axis.getD a.axes) ++ (if kd then ["*".intercalate (axis.getD a.axes)] else []) ∧
      (∀ ax ∈ a.axes, ax ∉ axis.getD a.axes → get? r.shape ax = get? a.shape ax) ∧
      (kd = true → get? r.shape ("*".intercalate (axis.getD a.axes)) = some 1) ∧
      ∀ e, (∀ ax n, ax ∉ axis.getD a.axes → get? a.shape ax = some n → e ax < n) →
        ∀ s, s.Perm (slabList a (axis.getD a.axes) e) → s.Pairwise (· ≤ ·) →
          r.at' e = mean (middle ⌊q * (s.length : K)⌋.toNat s) := by
  have hnorm : axisNormalized a.axes axis = axis.getD a.axes := by cases axis <;> rfl
  generalize hAd : axis.getD a.axes = A at *
  set F := "*".intercalate A with hF
  have hnewr : F ∉ a.axes.filter (· ∉ A) := by
    intro h
    simp only [List.mem_filter, decide_eq_true_eq] at h
    exact hcoll _ h.1 h.2 rfl
  obtain ⟨flat, f1, f2, f3, f4, f5, f6⟩ := combined_line ha hA hAs hnewr (fun ax _ _ => hpos ax)
  have hFm : F ∈ flat.axes := by rw [f3]; simp
  obtain ⟨n, hn⟩ := exists_get?_of_mem (d := flat.shape) (by rw [keys_shape f2]; exact hFm)
  have hnF : flat.sizeOf' F = n := by simp [sizeOf', hn]
  have hn0 : 0 < n := by
    rw [← hnF, f4]
    apply Nat.pos_of_ne_zero
    rw [Ne, List.prod_eq_zero_iff]
    intro h
    obtain ⟨ax, hax, h⟩ := List.mem_map.1 h
    obtain ⟨k, hk⟩ := exists_get?_of_mem (d := a.shape) (by rw [keys_shape ha]; exact hAs hax)
    simp only [sizeOf', hk, Option.getD_some] at h
    subst h
    exact hpos ax hk
  obtain ⟨m, m1, m2, m3⟩ := pyInt_cut h0 h1 hn0
  obtain ⟨p, p1, p2, p3, p4, p5⟩ := partition_ok (part := part) (dflt := dflt) f2 hFm (lo := m) (hi := n - m - 1)
    (by rw [hnF]; omega) (by rw [hnF]; omega)
  obtain ⟨b, b1, b2, b3, b4, b5⟩ := SA.getitem_slice p2 F ⟨some (m : Int), some ((n - m : Nat) : Int), none⟩ (by simp)
  have hbF : get? b.shape F = some (n - 2 * m) := by
    rw [b4, if_pos rfl, p4, hn, Option.map_some, (sliceLen_range (o := m) (t := n - m) (by omega) (by omega)).1]
    congr 1; omega
  have hFb : F ∈ b.axes := by rw [b3, p3]; exact hFm
  rcases reduce_main b2 (wh := none) (fun _ h => by cases h) (A := [F]) (by simp) (by simpa using hFb) false mean kd with
    ⟨h, _⟩ | ⟨_, r, r1, r2, r3, r4, r5⟩
  · cases h
  have hbax : b.axes = a.axes.filter (· ∉ A) ++ [F] := by rw [b3, p3, f3]
  have hne : a.shape.isEmpty = false := by
    obtain ⟨x, hx⟩ : ∃ x, x ∈ A := List.exists_mem_of_ne_nil A hAne
    have := hAs hx
    rw [← keys_shape ha] at this
    cases h : a.shape with
    | nil => rw [h] at this; simp [keys] at this
    | cons _ _ => rfl
  refine ⟨r, ?_, r2, ?_, ?_, ?_, ?_⟩
  · unfold meanTrimmed
    simp only [hne, Bool.false_eq_true, if_false, hnorm, flattenAxes_ok hAne, bind, Except.bind, ← hF, f1, hn, m1]
    rw [if_neg (by omega)]
    have e1 : (n : Int) - (m : Int) - 1 = ((n - m - 1 : Nat) : Int) := by omega
    have e2 : (n : Int) - (m : Int) = ((n - m : Nat) : Int) := by omega
    rw [e1, p1]
    simp only [e2, b1]
    exact r1
  · rw [r3]
    cases kd
    · simp only [Bool.false_eq_true, if_false, hbax, List.append_nil]
      rw [List.filter_append]
      have h2 : [F].filter (fun x => decide (x ∉ [F])) = [] := by simp
      rw [h2, List.append_nil, List.filter_eq_self.2]
      intro x hx
      simp only [List.mem_singleton, decide_eq_true_eq]
      rintro rfl
      exact hnewr hx
    · simp only [if_true, hbax]
  · intro ax hax hx
    rw [r4, if_neg (by simpa using hcoll ax hax hx), b4, if_neg (hcoll ax hax hx), p4, f5 ax hax hx]
  · rintro rfl
    rw [r4]; simp
  · intro e he s hs hso
    have hl : (slabList a A e).length = n := by rw [length_slabList, ← f4, hnF]
    have hsl : s.length = n := by rw [hs.length_eq, hl]
    have he' := slab_in_range ha he
    rw [hsl, m2, Int.toNat_natCast, r5]
    apply hmean
    have hfil : b.axes.filter (· ∈ [F]) = [F] := by
      rw [hbax, List.filter_append]
      have h2 : [F].filter (fun x => decide (x ∈ [F])) = [F] := by simp
      have h3 : (a.axes.filter (· ∉ A)).filter (fun x => decide (x ∈ [F])) = [] := by
        rw [List.filter_eq_nil_iff]
        intro x hx
        simp only [List.mem_singleton, decide_eq_true_eq]
        rintro rfl
        exact hnewr hx
      rw [h2, h3, List.nil_append]
    have hsel : ∀ l : List (String → Nat), l.filter (selected none) = l := by
      intro l; apply List.filter_eq_self.2; intro _ _; rfl
    rw [hfil, hsel, slabEnvs_singleton]
    have hb1 : b.size1 F = n - 2 * m := by simp [size1, hbF]
    rw [hb1, List.map_map]
    have hmid := partition_middle hp (l := slabList a A e) (s := s) (m := m) (by rw [hl]; exact m3) hs hso
    rw [hl] at hmid
    refine List.Perm.trans (List.Perm.of_eq ?_) hmid
    apply List.ext_getElem
    · have : (part [m, n - m - 1] (slabList a A e)).length = n := by
        rw [(hp _ _ (by
          intro k hk
          simp only [List.mem_cons, List.not_mem_nil, or_false] at hk
          rw [hl]; omega)).1.length_eq, hl]
      simp [this]; omega
    · intro i i1 i2
      simp only [List.length_map, List.length_range] at i1
      simp only [List.getElem_map, List.getElem_range, Function.comp_apply, List.getElem_take, List.getElem_drop]
      rw [b5, p5]
      simp only [if_true, p4, hn, Option.getD_some, Function.update_self]
      rw [(sliceLen_range (o := m) (t := n - m) (by omega) (by omega)).2]
      have hline : (List.range (flat.sizeOf' F)).map (fun k => flat.at' (Function.update
          (fun ax => if ax = F then m + i else Function.update e F i ax) F k)) = slabList a A e := by
        rw [← f6 e he']
        apply List.map_congr_left
        intro k _
        congr 1
        funext ax
        by_cases h : ax = F
        · subst h; simp
        · simp [h]
      rw [← List.getD_eq_getElem _ dflt]
      convert rfl using 2
      rw [← hline]
      congr 1
      apply List.map_congr_left
      intro k _
      congr 1
      funext ax
      by_cases h : ax = F
      · subst h; simp
      · simp [h]

/-! ### C35 -/

theorem slabList_perm {a : SA K} (ha : a.WF) {A : List String} (hA : A.Nodup) (hAs : A ⊆ a.axes)
    {e : String → Nat} {idx : List (String → Nat)} (h : IsSlab a A e idx) :
    (idx.map a.at').Perm (slabList a A e) := by
  unfold slabList
  have h1 : IsSlab a A e (slabEnvs A a.size1 e) := isSlab_slabEnvs ha hA hAs (fun _ => Iff.rfl) e
  have h2 : slabEnvs A a.size1 e = slabEnvs A a.sizeOf' e := by
    unfold slabEnvs
    congr 2
    apply List.map_congr_left
    intro ax hax
    obtain ⟨n, hn⟩ := exists_get?_of_mem (d := a.shape) (by rw [keys_shape ha]; exact hAs hax)
    simp [size1, sizeOf', hn]
  rw [← h2]
  exact (h.perm h1).map _

theorem orderless_meanOf : Orderless (meanOf (K := K)) := by
  intro l l' h
  unfold meanOf
  rw [h.sum_eq, h.length_eq]

/-- **C35** `na.mean_trimmed(a, q, axis)`, for an array without empty axes and `q` in `[0, 1/2)`: the element at
an index of the remaining axes is the mean of the sorted elements of `a` which agree with that index, without
the first and the last `⌊q n⌋` of them.  `axis=None` means all axes.  With `keepdims` one axis of size 1
is kept, which is called `"*".join(axis)`.

Missing: arrays with an empty axis, see `C35_empty` and `C35_empty_rest`. -/
theorem C35_mean_trimmed_partial (part : List Nat → List K → List K) (hp : IsPartition part) (a : SA K) (ha : a.WF)
    (axis : Option (List String)) (A : List String) (hAd : axis.getD a.axes = A)
    (hA : A.Nodup) (hAne : A ≠ []) (hAs : A ⊆ a.axes) (hcoll : ∀ ax ∈ a.axes, ax ∉ A → ax ≠ "*".intercalate A)
    (hpos : ∀ ax, get? a.shape ax ≠ some 0) (q : K) (h0 : 0 ≤ q) (h1 : q < 1 / 2) (dflt : K) (kd : Bool) :
    ∃ r, meanTrimmed part dflt meanOf a q axis kd none = .ok r ∧ r.WF ∧
      r.axes = a.axes.filter (· ∉ A) ++ (if kd then ["*".intercalate A] else []) ∧
      (∀ ax ∈ a.axes, ax ∉ A → get? r.shape ax = get? a.shape ax) ∧
      (kd = true → get? r.shape ("*".intercalate A) = some 1) ∧
      ∀ e, (∀ ax n, ax ∉ A → get? a.shape ax = some n → e ax < n) →
        ∀ idx, IsSlab a A e idx → ∀ s, s.Perm (idx.map a.at') → s.Pairwise (· ≤ ·) →
          middle ⌊q * (s.length : K)⌋.toNat s ≠ [] ∧
          r.at' e = meanOf (middle ⌊q * (s.length : K)⌋.toNat s) := by
  subst hAd
  obtain ⟨r, r1, r2, r3, r4, r5, r6⟩ :=
    trimmed_main hp ha hA hAne hAs hcoll hpos h0 h1 dflt meanOf orderless_meanOf kd
  refine ⟨r, r1, r2, r3, r4, r5, fun e he idx hidx s hs hso => ⟨?_, ?_⟩⟩
  · have hl : 0 < s.length := by
      rw [(hs.trans (slabList_perm ha hA hAs hidx)).length_eq, length_slabList]
      apply Nat.pos_of_ne_zero
      rw [Ne, List.prod_eq_zero_iff]
      intro h
      obtain ⟨ax, hax, h⟩ := List.mem_map.1 h
      obtain ⟨k, hk⟩ := exists_get?_of_mem (d := a.shape) (by rw [keys_shape ha]; exact hAs hax)
      simp only [sizeOf', hk, Option.getD_some] at h
      subst h
      exact hpos ax hk
    obtain ⟨m, _, m2, m3⟩ := pyInt_cut h0 h1 hl
    rw [m2, Int.toNat_natCast]
    intro h
    have := congrArg List.length h
    simp [middle] at this
    omega
  · exact r6 e he s (hs.trans (slabList_perm ha hA hAs hidx)) hso

/-- **C35** The trimmed mean lies between any lower and any upper bound of the elements. -/
theorem C35_bounds (part : List Nat → List K → List K) (hp : IsPartition part) (a : SA K) (ha : a.WF)
    (axis : Option (List String)) (A : List String) (hAd : axis.getD a.axes = A)
    (hA : A.Nodup) (hAne : A ≠ []) (hAs : A ⊆ a.axes) (hcoll : ∀ ax ∈ a.axes, ax ∉ A → ax ≠ "*".intercalate A)
    (hpos : ∀ ax, get? a.shape ax ≠ some 0) (q : K) (h0 : 0 ≤ q) (h1 : q < 1 / 2) (dflt : K) (kd : Bool) (r : SA K)
    (hr : meanTrimmed part dflt meanOf a q axis kd none = .ok r) (e : String → Nat)
    (he : ∀ ax n, ax ∉ A → get? a.shape ax = some n → e ax < n) (idx : List (String → Nat)) (hidx : IsSlab a A e idx)
    (lo hi : K) (hb : ∀ e' ∈ idx, lo ≤ a.at' e' ∧ a.at' e' ≤ hi) : lo ≤ r.at' e ∧ r.at' e ≤ hi := by
  obtain ⟨r', r1, _, _, _, _, r6⟩ :=
    C35_mean_trimmed_partial part hp a ha axis A hAd hA hAne hAs hcoll hpos q h0 h1 dflt kd
  rw [hr] at r1
  injection r1 with r1
  subst r1
  set s := (idx.map a.at').mergeSort (fun a b => decide (a ≤ b)) with hs
  have hsp : s.Perm (idx.map a.at') := List.mergeSort_perm _ _
  have hss : s.Pairwise (· ≤ ·) := by
    have := List.pairwise_mergeSort (le := fun a b : K => decide (a ≤ b))
      (by intro a b c; simpa using le_trans) (by intro a b; simpa using le_total a b) (idx.map a.at')
    simpa using this
  obtain ⟨hne, hval⟩ := r6 e he idx hidx s hsp hss
  rw [hval]
  set t := middle ⌊q * (s.length : K)⌋.toNat s with ht
  have hmem : ∀ x ∈ t, lo ≤ x ∧ x ≤ hi := by
    intro x hx
    have := List.mem_of_mem_drop (List.mem_of_mem_take hx)
    obtain ⟨e', he', rfl⟩ := List.mem_map.1 (hsp.mem_iff.1 this)
    exact hb e' he'
  have hlen : (0 : K) < t.length := by
    have := List.length_pos_iff.2 hne
    exact_mod_cast this
  unfold meanOf
  rw [le_div_iff₀ hlen, div_le_iff₀ hlen]
  clear_value t
  clear hval hne ht hlen
  induction t with
  | nil => simp
  | cons x t ih =>
    obtain ⟨i1, i2⟩ := ih (fun y hy => hmem y (by simp [hy]))
    obtain ⟨j1, j2⟩ := hmem x (by simp)
    simp only [List.sum_cons, List.length_cons]
    push_cast
    constructor <;> nlinarith

/-- **C35** The trimmed mean does not depend on the order of the elements: two arrays (of possibly different
shapes) whose elements at the given indices are rearrangements of each other have the same trimmed mean
there. -/
theorem C35_order (part part' : List Nat → List K → List K) (hp : IsPartition part) (hp' : IsPartition part')
    (a b : SA K) (ha : a.WF) (hb : b.WF)
    (axis axis' : Option (List String)) (A B : List String) (hAd : axis.getD a.axes = A) (hBd : axis'.getD b.axes = B)
    (hA : A.Nodup) (hAne : A ≠ []) (hAs : A ⊆ a.axes) (hcoll : ∀ ax ∈ a.axes, ax ∉ A → ax ≠ "*".intercalate A)
    (hpos : ∀ ax, get? a.shape ax ≠ some 0)
    (hB : B.Nodup) (hBne : B ≠ []) (hBs : B ⊆ b.axes) (hcoll' : ∀ ax ∈ b.axes, ax ∉ B → ax ≠ "*".intercalate B)
    (hpos' : ∀ ax, get? b.shape ax ≠ some 0) (q : K) (h0 : 0 ≤ q) (h1 : q < 1 / 2) (dflt dflt' : K) (kd kd' : Bool)
    (r r' : SA K) (hr : meanTrimmed part dflt meanOf a q axis kd none = .ok r)
    (hr' : meanTrimmed part' dflt' meanOf b q axis' kd' none = .ok r') (e e' : String → Nat)
    (he : ∀ ax n, ax ∉ A → get? a.shape ax = some n → e ax < n)
    (he' : ∀ ax n, ax ∉ B → get? b.shape ax = some n → e' ax < n)
    (idx idx' : List (String → Nat)) (hidx : IsSlab a A e idx) (hidx' : IsSlab b B e' idx')
    (h : (idx.map a.at').Perm (idx'.map b.at')) : r.at' e = r'.at' e' := by
  obtain ⟨_, r1, _, _, _, _, r6⟩ :=
    C35_mean_trimmed_partial part hp a ha axis A hAd hA hAne hAs hcoll hpos q h0 h1 dflt kd
  obtain ⟨_, r1', _, _, _, _, r6'⟩ :=
    C35_mean_trimmed_partial part' hp' b hb axis' B hBd hB hBne hBs hcoll' hpos' q h0 h1 dflt' kd'
  rw [hr] at r1
  rw [hr'] at r1'
  injection r1 with r1
  injection r1' with r1'
  subst r1 r1'
  set s := (idx.map a.at').mergeSort (fun a b => decide (a ≤ b)) with hs
  have hsp : s.Perm (idx.map a.at') := List.mergeSort_perm _ _
  have hss : s.Pairwise (· ≤ ·) := by
    have := List.pairwise_mergeSort (le := fun a b : K => decide (a ≤ b))
      (by intro a b c; simpa using le_trans) (by intro a b; simpa using le_total a b) (idx.map a.at')
    simpa using this
  rw [(r6 e he idx hidx s hsp hss).2, (r6' e' he' idx' hidx' s (hsp.trans h) hss).2]

/-- **C35** An array without axes is its own trimmed mean. -/
theorem C35_zero_dim (part : List Nat → List K → List K) (a : SA K) (h : a.shape = []) (q : K)
    (axis : Option (List String)) (dflt : K) (mean : List K → K) (kd : Bool) (out : Option (SA K)) :
    meanTrimmed part dflt mean a q axis kd out = .ok a := by
  unfold meanTrimmed
  simp [h]

/-- **C35** (limit) `ValueError` if there is no element to take the mean of. -/
theorem C35_empty (part : List Nat → List K → List K) (a : SA K) (ha : a.WF)
    (A : List String) (hA : A.Nodup) (hAne : A ≠ []) (hAs : A ⊆ a.axes)
    (hcoll : ∀ ax ∈ a.axes, ax ∉ A → ax ≠ "*".intercalate A)
    (hpos : ∀ ax, ax ∉ A → get? a.shape ax ≠ some 0) (ax : String) (hax : ax ∈ A) (hz : get? a.shape ax = some 0)
    (q : K) (dflt : K) (mean : List K → K) (kd : Bool) (out : Option (SA K)) :
    meanTrimmed part dflt mean a q (some A) kd out = .error .valueError := by
  have hnewr : "*".intercalate A ∉ a.axes.filter (· ∉ A) := by
    intro h
    simp only [List.mem_filter, decide_eq_true_eq] at h
    exact hcoll _ h.1 h.2 rfl
  obtain ⟨flat, f1, f2, f3, f4, f5, f6⟩ := combined_line ha hA hAs hnewr (fun ax _ h => hpos ax h)
  have hFm : "*".intercalate A ∈ flat.axes := by rw [f3]; simp
  obtain ⟨n, hn⟩ := exists_get?_of_mem (d := flat.shape) (by rw [keys_shape f2]; exact hFm)
  have hnF : flat.sizeOf' ("*".intercalate A) = n := by simp [sizeOf', hn]
  have hn0 : n = 0 := by
    rw [← hnF, f4, List.prod_eq_zero_iff, List.mem_map]
    exact ⟨ax, hax, by simp [sizeOf', hz]⟩
  subst hn0
  have hne : a.shape.isEmpty = false := by
    have := hAs hax
    rw [← keys_shape ha] at this
    cases h : a.shape with
    | nil => rw [h] at this; simp [keys] at this
    | cons _ _ => rfl
  have hg : flat.nd.shape.getD (flat.axes.idxOf ("*".intercalate A)) 0 = 0 := by
    rw [shape_eq_map f2, getD_map_idxOf _ hFm, hnF]
  have h0 : pyInt (q * ((0 : Nat) : K)) = 0 := by simp [pyInt]
  unfold meanTrimmed
  simp only [hne, Bool.false_eq_true, if_false, axisNormalized, flattenAxes_ok hAne, bind, Except.bind, f1, hn, h0]
  rw [if_neg (by omega)]
  unfold partition
  rw [if_neg (not_not.2 hFm)]
  simp only [hg]
  rfl

/-- **C35** (limit) `ValueError` if a remaining axis is empty, although the result could be an empty array. -/
theorem C35_empty_rest (part : List Nat → List K → List K) (a : SA K) (ha : a.WF)
    (A : List String) (hA : A.Nodup) (hAne : A ≠ []) (hAs : A ⊆ a.axes)
    (ax : String) (hax : ax ∈ a.axes) (hax2 : ax ∉ A) (hz : get? a.shape ax = some 0)
    (q : K) (dflt : K) (mean : List K → K) (kd : Bool) (out : Option (SA K)) :
    meanTrimmed part dflt mean a q (some A) kd out = .error .valueError := by
  have hne : a.shape.isEmpty = false := by
    cases h : a.shape with
    | nil => rw [h] at hz; simp [get?] at hz
    | cons _ _ => rfl
  unfold meanTrimmed
  simp only [hne, Bool.false_eq_true, if_false, axisNormalized, flattenAxes_ok hAne, bind, Except.bind,
    C11_combine_axes_empty_rest a ha A hA hAs _ ax hax hax2 hz]

/-! ### Non-vacuity -/

/-- A partition: sort the line. -/
theorem isPartition_sort : IsPartition (fun _ (l : List K) => l.mergeSort (fun a b => decide (a ≤ b))) := by
  intro ks l _
  refine ⟨List.mergeSort_perm _ _, fun k _ x hx => ?_⟩
  have hs : (l.mergeSort (fun a b => decide (a ≤ b))).Pairwise (· ≤ ·) := by
    have := List.pairwise_mergeSort (le := fun a b : K => decide (a ≤ b))
      (by intro a b c; simpa using le_trans) (by intro a b; simpa using le_total a b) l
    simpa using this
  set p := l.mergeSort (fun a b => decide (a ≤ b))
  obtain ⟨hk, rfl⟩ := List.getElem?_eq_some_iff.1 hx
  have hsplit : p.drop k = p[k] :: p.drop (k + 1) := List.drop_eq_getElem_cons hk
  rw [← List.take_append_drop k p, List.pairwise_append, hsplit] at hs
  obtain ⟨_, h2, h3⟩ := hs
  refine ⟨fun y hy => h3 y hy _ (List.mem_cons_self ..), fun y hy => ?_⟩
  change y ∈ p.drop k at hy
  rw [hsplit] at hy
  rcases List.mem_cons.1 hy with h | h
  · exact h.ge
  · exact (List.pairwise_cons.1 h2).1 y h

/-- insertion sort, which evaluates -/
example : (meanTrimmed (fun _ l => l.insertionSort (· ≤ ·)) (0 : Rat) meanOf
    ⟨["x", "y"], ⟨[2, 3], fun i => match i with
      | [0, j] => [10, 1, 2].getD j 0
      | [_, j] => [4, 100, 3].getD j 0
      | _ => 0⟩⟩ (1 / 3 : Rat) (some ["y"]) false none).toOption.map (fun r => (r.axes, r.nd.toList)) =
    some (["x"], [2, 4]) := by decide +kernel

/-- **C35** (limit) For `q = 1/2`, which the documentation admits, no element is left if their number is even: the mean is taken of
the empty list. -/
theorem C35_half : (meanTrimmed (fun _ l => l.insertionSort (· ≤ ·)) (0 : Rat) (fun l => if l.isEmpty then -1 else meanOf l)
    ⟨["x"], ⟨[2], fun i => (i.headD 0 : Rat)⟩⟩ (1 / 2 : Rat) none false none).toOption.map (fun r => r.nd.toList) =
    some [-1] := by decide +kernel

end SA
end NA
