import Mathlib.Algebra.Order.Field.Basic
import Mathlib.Analysis.SpecialFunctions.Pow.Real
import Mathlib.Algebra.Order.BigOperators.Group.List
import Mathlib.Tactic.Linarith
import Mathlib.Tactic.FieldSimp
import Mathlib.Tactic.Ring
import Mathlib.Tactic.LinearCombination
import Verif.Scalar.RepReduce
import Verif.Stats.Correlation

/-!
# C68: correlation coefficients

`pearson root l` is the correlation coefficient of the pairs `l`: the sum of the products of the
deviations from the means, divided by the square roots of the sums of their squares.  It is `none`
if one of the two sequences is constant (0 / 0).  `reduced S A wh e` lists the named indices which
differ from `e` along `A` only and which are selected by `where`.
-/

namespace NA
open Dict
open SA (FitsIn InRange)

variable {K : Type} [Field K] [LinearOrder K] [IsStrictOrderedRing K]

/-- The arithmetic mean. -/
def avg (l : List K) : K := l.sum / l.length

/-- The sum of the products of the deviations from the means. -/
def codev (l : List (K × K)) : K :=
  (l.map (fun p => (p.1 - avg (l.map Prod.fst)) * (p.2 - avg (l.map Prod.snd)))).sum

/-- The sum of the squares of the deviations from the mean. -/
def dev (l : List K) : K := (l.map (fun x => (x - avg l) * (x - avg l))).sum

/-- The correlation coefficient of a list of pairs. -/
def pearson (root : K → K) (l : List (K × K)) : Option K :=
  if dev (l.map Prod.fst) = 0 ∨ dev (l.map Prod.snd) = 0 then none
  else some (codev l / (root (dev (l.map Prod.fst)) * root (dev (l.map Prod.snd))))

/-- The contract of the square root. -/
def IsRoot (root : K → K) : Prop := ∀ y, 0 ≤ y → 0 ≤ root y ∧ root y * root y = y

/-- Two floating point numbers, if neither of them is `nan`. -/
def both : Option K → Option K → Option (K × K)
  | some u, some v => some (u, v)
  | _, _ => none

/-! ### Helpers -/

omit [LinearOrder K] [IsStrictOrderedRing K] in
theorem sequence_some (v : List K) : (v.map some).mapM id = some v := by
  induction v with
  | nil => rfl
  | cons x v ih => simp [ih]

omit [Field K] [LinearOrder K] [IsStrictOrderedRing K] in
theorem sequence_none {l : List (Option K)} (h : none ∈ l) : l.mapM id = none := by
  induction l with
  | nil => simp at h
  | cons x l ih =>
    cases x with
    | none => simp
    | some x =>
      have := ih (by simpa using h)
      simp [this]

omit [LinearOrder K] [IsStrictOrderedRing K] in
theorem floatMean_some (v : List K) : floatMean (v.map some) = if v.length = 0 then none else some (avg v) := by
  unfold floatMean
  rw [sequence_some]
  rfl

omit [LinearOrder K] [IsStrictOrderedRing K] in
theorem floatMean_none {l : List (Option K)} (h : none ∈ l) : floatMean l = none := by
  unfold floatMean
  rw [sequence_none h]

omit [LinearOrder K] [IsStrictOrderedRing K] in
theorem orderless_floatMean : SA.Orderless (floatMean (K := K)) := by
  intro l l' h
  by_cases hn : none ∈ l
  · rw [floatMean_none hn, floatMean_none (h.mem_iff.1 hn)]
  · have hs : ∀ m : List (Option K), none ∉ m → ∃ v : List K, m = v.map some := by
      intro m
      induction m with
      | nil => exact fun _ => ⟨[], rfl⟩
      | cons x m ih =>
        intro hx
        obtain ⟨v, hv⟩ := ih (fun h => hx (by simp [h]))
        cases x with
        | none => simp at hx
        | some x => exact ⟨x :: v, by rw [hv]; rfl⟩
    obtain ⟨v, rfl⟩ := hs l hn
    obtain ⟨v', rfl⟩ := hs l' (fun h' => hn (h.mem_iff.2 h'))
    have hp : v.Perm v' := by
      have := h.filterMap id
      simpa [List.filterMap_map] using this
    rw [floatMean_some, floatMean_some, hp.length_eq]
    unfold avg
    rw [hp.sum_eq, hp.length_eq]

omit [LinearOrder K] [IsStrictOrderedRing K] in
theorem orderless_floatStd (root : K → K) : SA.Orderless (floatStd root) := by
  intro l l' h
  unfold floatStd
  rw [orderless_floatMean _ _ h]
  congr 1
  funext m
  rw [orderless_floatMean _ _ (h.map _)]

theorem dev_nonneg (l : List K) : 0 ≤ dev l := by
  apply List.sum_nonneg
  intro x hx
  obtain ⟨y, _, rfl⟩ := List.mem_map.1 hx
  exact mul_self_nonneg _

omit [LinearOrder K] [IsStrictOrderedRing K] in
theorem floatStd_some (root : K → K) (v : List K) :
    floatStd root (v.map some) = if v.length = 0 then none else some (root (dev v / v.length)) := by
  unfold floatStd
  rw [floatMean_some]
  split
  · rfl
  · rename_i h
    have h2 : (v.map some).map (Option.map (fun x => (x - avg v) * (x - avg v))) =
        (v.map (fun x => (x - avg v) * (x - avg v))).map some := by
      rw [List.map_map, List.map_map]; rfl
    rw [Option.bind_some, h2, floatMean_some, List.length_map, if_neg h]
    unfold avg dev
    rw [List.length_map]
    rfl

theorem root_eq_zero {root : K → K} (hr : IsRoot root) {y : K} (hy : 0 ≤ y) : root y = 0 ↔ y = 0 := by
  obtain ⟨h1, h2⟩ := hr y hy
  constructor
  · intro h; rw [h] at h2; simpa using h2.symm
  · intro h; rw [h] at h2 ⊢; exact mul_self_eq_zero.1 h2

theorem root_unique {root : K → K} (hr : IsRoot root) {y z : K} (hz : 0 ≤ z) (h : z * z = y) : root y = z := by
  have hy : 0 ≤ y := h ▸ mul_self_nonneg z
  obtain ⟨h1, h2⟩ := hr y hy
  have : root y * root y = z * z := h2.trans h.symm
  exact (mul_self_inj h1 hz).1 this

omit [LinearOrder K] [IsStrictOrderedRing K] in
theorem avg_map {I : Type} (h : I → K) (l : List I) : avg (l.map h) = (l.map h).sum / l.length := by
  unfold avg; rw [List.length_map]

theorem mapM_opt_some {I J : Type} (l : List I) (h : I → Option J) (h' : I → J) (hh : ∀ i ∈ l, h i = some (h' i)) :
    l.mapM h = some (l.map h') := by
  induction l with
  | nil => rfl
  | cons x l ih =>
    rw [List.mapM_cons, hh x (by simp), ih (fun i hi => hh i (by simp [hi]))]
    rfl

theorem mapM_opt_none {I J : Type} (l : List I) (h : I → Option J) (hh : ∃ i ∈ l, h i = none) : l.mapM h = none := by
  induction l with
  | nil => simp at hh
  | cons x l ih =>
    rw [List.mapM_cons]
    cases hx : h x with
    | none => rfl
    | some y =>
      obtain ⟨i, hi, hn⟩ := hh
      rcases List.mem_cons.1 hi with rfl | hi
      · rw [hx] at hn; cases hn
      · rw [ih ⟨i, hi, hn⟩]; rfl

omit [LinearOrder K] [IsStrictOrderedRing K] in
theorem floatStd_none (root : K → K) {l : List (Option K)} (h : none ∈ l) : floatStd root l = none := by
  unfold floatStd
  rw [floatMean_none h]
  rfl

omit [IsStrictOrderedRing K] in
theorem floatDiv_none (u : Option K) : floatDiv u none = none := by cases u <;> rfl

omit [LinearOrder K] [IsStrictOrderedRing K] in
theorem floatMul_none (u : Option K) : floatMul u none = none := by cases u <;> rfl

/-- the quotient of `pearsonr` -/
theorem pearson_line {I : Type} {root : K → K} (hr : IsRoot root) (l : List I) (f g : I → Option K) :
    floatDiv (floatMean (l.map (fun i => floatMul (floatSub (f i) (floatMean (l.map f))) (floatSub (g i) (floatMean (l.map g))))))
      (floatMul (floatStd root (l.map f)) (floatStd root (l.map g))) =
    (l.mapM (fun i => both (f i) (g i))).bind (pearson root) := by
  by_cases hf : ∃ i ∈ l, f i = none
  · obtain ⟨i, hi, hn⟩ := hf
    rw [floatStd_none root (List.mem_map.2 ⟨i, hi, hn⟩), mapM_opt_none l _ ⟨i, hi, by rw [hn]; rfl⟩]
    exact floatDiv_none _
  by_cases hg : ∃ i ∈ l, g i = none
  · obtain ⟨i, hi, hn⟩ := hg
    rw [floatStd_none root (l := l.map g) (List.mem_map.2 ⟨i, hi, hn⟩),
      mapM_opt_none l _ ⟨i, hi, by rw [hn]; cases f i <;> rfl⟩, floatMul_none]
    exact floatDiv_none _
  have hex : ∀ h : I → Option K, (¬ ∃ i ∈ l, h i = none) → ∃ u : I → K, ∀ i ∈ l, h i = some (u i) := by
    intro h hh
    refine ⟨fun i => (h i).getD 0, fun i hi => ?_⟩
    cases h' : h i with
    | none => exact absurd ⟨i, hi, h'⟩ hh
    | some u => simp [h']
  obtain ⟨u, hf2⟩ := hex f hf
  obtain ⟨v, hg2⟩ := hex g hg
  have hlf : l.map f = (l.map u).map some := by
    rw [List.map_map]; exact List.map_congr_left hf2
  have hlg : l.map g = (l.map v).map some := by
    rw [List.map_map]; exact List.map_congr_left hg2
  rw [mapM_opt_some l _ (fun i => (u i, v i)) (fun i hi => by rw [hf2 i hi, hg2 i hi]; rfl), Option.bind_some,
    hlf, hlg, floatStd_some, floatStd_some, floatMean_some, floatMean_some, List.length_map, List.length_map]
  have hp1 : (l.map (fun i => (u i, v i))).map Prod.fst = l.map u := by rw [List.map_map]; rfl
  have hp2 : (l.map (fun i => (u i, v i))).map Prod.snd = l.map v := by rw [List.map_map]; rfl
  unfold pearson
  rw [hp1, hp2]
  by_cases hn : l.length = 0
  · have : l = [] := List.length_eq_zero_iff.1 hn
    subst this
    simp [dev, floatMul]
    exact floatDiv_none _
  · rw [if_neg hn, if_neg hn, if_neg hn, if_neg hn]
    have hcov : l.map (fun i => floatMul (floatSub (f i) (some (avg (l.map u)))) (floatSub (g i) (some (avg (l.map v))))) =
        (l.map (fun i => (u i - avg (l.map u)) * (v i - avg (l.map v)))).map some := by
      rw [List.map_map]
      apply List.map_congr_left
      intro i hi
      rw [hf2 i hi, hg2 i hi]
      rfl
    rw [hcov, floatMean_some, List.length_map, if_neg hn]
    have hc : avg (l.map (fun i => (u i - avg (l.map u)) * (v i - avg (l.map v)))) =
        codev (l.map (fun i => (u i, v i))) / l.length := by
      unfold codev
      rw [hp1, hp2, List.map_map]
      rw [avg_map]
      rfl
    rw [hc]
    have hN : (0 : K) < l.length := by exact_mod_cast Nat.pos_of_ne_zero hn
    have d1 := dev_nonneg (l.map u)
    have d2 := dev_nonneg (l.map v)
    have e1 : 0 ≤ dev (l.map u) / l.length := div_nonneg d1 hN.le
    have e2 : 0 ≤ dev (l.map v) / l.length := div_nonneg d2 hN.le
    show (if root (dev (l.map u) / l.length) * root (dev (l.map v) / l.length) = 0 then none else
      some (codev (l.map (fun i => (u i, v i))) / l.length / (root (dev (l.map u) / l.length) * root (dev (l.map v) / l.length)))) = _
    have hz : (root (dev (l.map u) / l.length) * root (dev (l.map v) / l.length) = 0) ↔
        (dev (l.map u) = 0 ∨ dev (l.map v) = 0) := by
      rw [mul_eq_zero, root_eq_zero hr e1, root_eq_zero hr e2, div_eq_zero_iff, div_eq_zero_iff]
      simp [hn]
    by_cases h0 : dev (l.map u) = 0 ∨ dev (l.map v) = 0
    · rw [if_pos (hz.2 h0), if_pos h0]
    · rw [if_neg (fun h => h0 (hz.1 h)), if_neg h0]
      congr 1
      have hprod : root (dev (l.map u) / l.length) * root (dev (l.map v) / l.length) =
          root (dev (l.map u)) * root (dev (l.map v)) / l.length := by
        apply (mul_self_inj (mul_nonneg (hr _ e1).1 (hr _ e2).1)
          (div_nonneg (mul_nonneg (hr _ d1).1 (hr _ d2).1) hN.le)).1
        have a1 := (hr _ e1).2
        have a2 := (hr _ e2).2
        have a3 := (hr _ d1).2
        have a4 := (hr _ d2).2
        calc _ = (root (dev (l.map u) / l.length) * root (dev (l.map u) / l.length)) *
              (root (dev (l.map v) / l.length) * root (dev (l.map v) / l.length)) := by ring
          _ = (dev (l.map u) / l.length) * (dev (l.map v) / l.length) := by rw [a1, a2]
          _ = (root (dev (l.map u)) * root (dev (l.map u)) / l.length) * (root (dev (l.map v)) * root (dev (l.map v)) / l.length) := by
            rw [a3, a4]
          _ = _ := by ring
      rw [hprod]
      have hne1 : root (dev (l.map u)) ≠ 0 := fun h => h0 (.inl ((root_eq_zero hr d1).1 h))
      have hne2 : root (dev (l.map v)) ≠ 0 := fun h => h0 (.inr ((root_eq_zero hr d2).1 h))
      field_simp

/-! ### The arrays -/

/-- **C68** `pearsonr(x, y, axis, where)`: the element at an index of the remaining axes is the correlation coefficient of
the selected pairs of elements of `x` and `y` which agree with that index. -/
theorem C68_pearsonr (root : K → K) (hr : IsRoot root) (x y : SA (Option K)) (hx : x.WF) (hy : y.WF) (S : Shape)
    (hS : broadcastShapes [x.shape, y.shape] = .ok S) (wh : Option (SA Bool)) (hwx : SA.WhereOk x wh) (hwy : SA.WhereOk y wh)
    (axis : Option (List String)) (A : List String) (hA : A.Nodup)
    (hax : Reduces axis x.axes A) (hay : Reduces axis y.axes A)
    (hAS : ∀ ax ∈ A, get? x.shape ax = get? y.shape ax ∧ get? x.shape ax ≠ none) :
    ∃ r, SA.pearsonr root x y axis wh = .ok r ∧ r.WF ∧ Same r.shape (without S A) ∧
      ∀ e, InRange r.shape e →
        r.at' e = ((reduced S A wh e).mapM (fun i => both (x.atB i) (y.atB i))).bind (pearson root) := by
  have hss : ∀ s ∈ [x.shape, y.shape], Dict.WF s := by
    intro s hs
    simp only [List.mem_cons, List.not_mem_nil, or_false] at hs
    rcases hs with rfl | rfl
    · exact SA.wf_shape hx
    · exact SA.wf_shape hy
  obtain ⟨hSw, hSk, hSv⟩ := C01_broadcast_shapes_ok _ hss S hS
  have fx := SA.fitsIn_of_broadcastShapes hss hS (s := x.shape) (by simp)
  have fy := SA.fitsIn_of_broadcastShapes hss hS (s := y.shape) (by simp)
  have rx : Rep S (fun ax => get? x.shape ax = get? S ax) x x.atB := ⟨hx, fx, fun _ h => h, fun _ _ => rfl⟩
  have ry : Rep S (fun ax => get? y.shape ax = get? S ax) y y.atB := ⟨hy, fy, fun _ h => h, fun _ _ => rfl⟩
  have hcover : ∀ ax, get? x.shape ax = get? S ax ∨ get? y.shape ax = get? S ax := by
    intro ax
    cases hg : get? S ax with
    | none =>
      left
      cases hgx : get? x.shape ax with
      | none => rfl
      | some m =>
        obtain ⟨n, hn, _⟩ := fx ax m hgx
        rw [hg] at hn; cases hn
    | some n =>
      obtain ⟨⟨s, hs, hsn⟩, _⟩ := hSv ax n hg
      simp only [List.mem_cons, List.not_mem_nil, or_false] at hs
      rcases hs with rfl | rfl
      · exact .inl hsn
      · exact .inr hsn
  have hAx : ∀ ax ∈ A, get? x.shape ax = get? S ax := fun ax h => (hcover ax).elim id (fun h' => (hAS ax h).1.trans h')
  have hAy : ∀ ax ∈ A, get? y.shape ax = get? S ax := fun ax h => (hAS ax h).1.symm.trans (hAx ax h)
  have hAk : ∀ ax ∈ A, ax ∈ keys S := by
    intro ax h
    by_contra hk
    rw [← get?_eq_none] at hk
    exact (hAS ax h).2 ((hAx ax h).trans hk)
  obtain ⟨mx, mx1, mx2⟩ := rep_reduce rx hA hAx hAk hwx hax orderless_floatMean
  obtain ⟨my, my1, my2⟩ := rep_reduce ry hA hAy hAk hwy hay orderless_floatMean
  obtain ⟨sx, sx1, sx2⟩ := rep_reduce rx hA hAx hAk hwx hax (orderless_floatStd root)
  obtain ⟨sy, sy1, sy2⟩ := rep_reduce ry hA hAy hAk hwy hay (orderless_floatStd root)
  obtain ⟨dx, dx1, dx2⟩ := Rep.ufunc2 floatSub rx mx2.extend
  obtain ⟨dy, dy1, dy2⟩ := Rep.ufunc2 floatSub ry my2.extend
  obtain ⟨cov, c1, c2⟩ := Rep.ufunc2 floatMul dx2 dy2
  have hcs : Full S cov := c2.to_full (fun ax _ => (hcover ax).elim (fun h => .inl (.inl h)) (fun h => .inr (.inl h)))
  have hwc : SA.WhereOk cov wh := by
    intro w hw
    obtain ⟨w1, w2⟩ := hwx w hw
    refine ⟨w1, fun ax m hm => ?_⟩
    obtain ⟨n, hn, hmn⟩ := w2 ax m hm
    obtain ⟨n', hn', hnn⟩ := fx ax n hn
    exact ⟨n', (hcs.2 ax).trans hn', by omega⟩
  have hac : Reduces axis cov.axes A := by
    cases axis with
    | some A' => exact hax
    | none =>
      intro ax
      rw [← SA.keys_shape hcs.1]
      constructor
      · intro h
        obtain ⟨n, hn⟩ := exists_get?_of_mem (hAk ax h)
        exact mem_keys_of_get? ((hcs.2 ax).trans hn)
      · intro h
        obtain ⟨n, hn⟩ := exists_get?_of_mem h
        rw [hcs.2 ax] at hn
        obtain ⟨s, hs, hsk⟩ := (hSk ax).1 (mem_keys_of_get? hn)
        simp only [List.mem_cons, List.not_mem_nil, or_false] at hs
        rcases hs with rfl | rfl
        · exact (hax ax).2 (by rw [← SA.keys_shape hx]; exact hsk)
        · exact (hay ax).2 (by rw [← SA.keys_shape hy]; exact hsk)
  obtain ⟨m, m1, m2⟩ := rep_reduce c2 hA (fun ax h => .inl (.inl (hAx ax h))) hAk hwc hac orderless_floatMean
  obtain ⟨s, s1, s2⟩ := Rep.ufunc2 floatMul sx2 sy2
  obtain ⟨r, r1, r2⟩ := Rep.ufunc2 floatDiv m2 s2
  have hrs : Full (without S A) r := by
    apply r2.to_full
    intro ax hk
    obtain ⟨n, hn⟩ := exists_get?_of_mem hk
    rw [get?_without] at hn
    left
    split at hn
    · cases hn
    · rename_i hAn
      exact ⟨(hcover ax).elim (fun h => .inl (.inl h)) (fun h => .inr (.inl h)), hAn⟩
  refine ⟨r, ?_, hrs.1, hrs.2, fun e he => ?_⟩
  · unfold SA.pearsonr
    simp only [bind, Except.bind, mx1, my1, sx1, sy1, dx1, dy1, c1, m1, s1, r1]
  · have he' : InRange (without S A) e := fun ax n hn => he ax n ((hrs.2 ax).trans hn)
    rw [← hrs.atB he', r2.val e he', ← pearson_line hr]
    congr 2
    apply List.map_congr_left
    intro i hi
    have hmem := (mem_slabEnvs hA).1 (List.mem_of_mem_filter hi)
    rw [reduced_congr (e' := e) (fun ax h => hmem.2 ax h)]

/-- **C68** An axis which one of the arrays lacks is rejected. -/
theorem C68_missing_axis (root : K → K) (x y : SA (Option K)) (hx : x.WF) (hy : y.WF) (wh : Option (SA Bool))
    (hwx : SA.WhereOk x wh) (hwy : SA.WhereOk y wh) (A : List String) (h : ¬ A ⊆ x.axes ∨ ¬ A ⊆ y.axes) :
    SA.pearsonr root x y (some A) wh = .error .valueError := by
  unfold SA.pearsonr
  by_cases h1 : A ⊆ x.axes
  · have h2 : ¬ A ⊆ y.axes := h.resolve_left (fun h' => h' h1)
    rw [SA.C17_error y hy wh hwy A false floatMean false (.inl h2)]
    by_cases hA : A.Nodup
    · obtain ⟨r, r1, _⟩ := SA.C17_reduce x hx wh hwx A hA h1 false floatMean false (by simp)
      rw [r1]; rfl
    · rw [SA.C17_error x hx wh hwx A false floatMean false (.inr (.inl hA))]; rfl
  · rw [SA.C17_error x hx wh hwx A false floatMean false (.inl h1)]; rfl

/-! ### The coefficient -/

omit [LinearOrder K] [IsStrictOrderedRing K] in
theorem codev_swap (l : List (K × K)) : codev (l.map Prod.swap) = codev l := by
  unfold codev
  simp only [List.map_map]
  congr 1
  apply List.map_congr_left
  intro p _
  simp only [Function.comp_apply, Prod.fst_swap, Prod.snd_swap]
  rw [show ((Prod.fst : K × K → K) ∘ Prod.swap) = Prod.snd from rfl, show ((Prod.snd : K × K → K) ∘ Prod.swap) = Prod.fst from rfl]
  ring

omit [IsStrictOrderedRing K] in
/-- **C68** The correlation is symmetric. -/
theorem C68_symmetric (root : K → K) (l : List (K × K)) : pearson root (l.map Prod.swap) = pearson root l := by
  unfold pearson
  rw [codev_swap, List.map_map, List.map_map, show ((Prod.fst : K × K → K) ∘ Prod.swap) = Prod.snd from rfl,
    show ((Prod.snd : K × K → K) ∘ Prod.swap) = Prod.fst from rfl, mul_comm (root _) (root _)]
  simp only [or_comm]

omit [LinearOrder K] [IsStrictOrderedRing K] in
theorem sum_square {I : Type} (l : List I) (a b : I → K) (p q : K) :
    (l.map (fun i => (p * a i + q * b i) * (p * a i + q * b i))).sum =
      p * p * (l.map (fun i => a i * a i)).sum + 2 * p * q * (l.map (fun i => a i * b i)).sum +
        q * q * (l.map (fun i => b i * b i)).sum := by
  induction l with
  | nil => simp
  | cons x l ih => simp only [List.map_cons, List.sum_cons, ih]; ring

theorem cauchy_schwarz {I : Type} (l : List I) (a b : I → K) :
    (l.map (fun i => a i * b i)).sum * (l.map (fun i => a i * b i)).sum ≤
      (l.map (fun i => a i * a i)).sum * (l.map (fun i => b i * b i)).sum := by
  set A := (l.map (fun i => a i * a i)).sum with hA
  set B := (l.map (fun i => b i * b i)).sum with hB
  set C := (l.map (fun i => a i * b i)).sum with hC
  have hpos : ∀ p q : K, 0 ≤ p * p * A + 2 * p * q * C + q * q * B := by
    intro p q
    rw [hA, hB, hC, ← sum_square]
    apply List.sum_nonneg
    intro x hx
    obtain ⟨y, _, rfl⟩ := List.mem_map.1 hx
    exact mul_self_nonneg _
  have hA0 : 0 ≤ A := by have := hpos 1 0; linarith
  rcases hA0.eq_or_lt with h | h
  · -- all of `a` vanishes
    have h1 := hpos (-(B + 1) * C) (C * C)
    have h2 := hpos 0 1
    rw [← h] at h1 ⊢
    have hB0 : 0 ≤ B := by linarith
    by_contra hc
    push_neg at hc
    have h3 : 0 < C * C := by linarith
    have h4 : 0 < C * C * (C * C) * (B + 2) := mul_pos (mul_pos h3 h3) (by linarith)
    have h5 : -(B + 1) * C * (-(B + 1) * C) * 0 + 2 * (-(B + 1) * C) * (C * C) * C + C * C * (C * C) * B =
        -(C * C * (C * C) * (B + 2)) := by ring
    rw [h5] at h1
    linarith
  · have h1 := hpos (-C) A
    have h2 : 0 ≤ A * (A * B - C * C) := by nlinarith
    have h3 := nonneg_of_mul_nonneg_right h2 h
    linarith

omit [LinearOrder K] [IsStrictOrderedRing K] in
theorem dev_fst (l : List (K × K)) : dev (l.map Prod.fst) =
    (l.map (fun p => (p.1 - avg (l.map Prod.fst)) * (p.1 - avg (l.map Prod.fst)))).sum := by
  unfold dev; rw [List.map_map]; rfl

omit [LinearOrder K] [IsStrictOrderedRing K] in
theorem dev_snd (l : List (K × K)) : dev (l.map Prod.snd) =
    (l.map (fun p => (p.2 - avg (l.map Prod.snd)) * (p.2 - avg (l.map Prod.snd)))).sum := by
  unfold dev; rw [List.map_map]; rfl

/-- **C68** A correlation lies between `-1` and `1`. -/
theorem C68_bounded (root : K → K) (hr : IsRoot root) (l : List (K × K)) (r : K) (h : pearson root l = some r) :
    -1 ≤ r ∧ r ≤ 1 := by
  unfold pearson at h
  split at h
  · cases h
  · rename_i h0
    push_neg at h0
    injection h with h
    have hcs := cauchy_schwarz l (fun p => p.1 - avg (l.map Prod.fst)) (fun p => p.2 - avg (l.map Prod.snd))
    rw [← dev_fst, ← dev_snd] at hcs
    change codev l * codev l ≤ _ at hcs
    obtain ⟨a1, a2⟩ := hr _ (dev_nonneg (l.map Prod.fst))
    obtain ⟨b1, b2⟩ := hr _ (dev_nonneg (l.map Prod.snd))
    have ha : root (dev (l.map Prod.fst)) ≠ 0 := fun h' => h0.1 ((root_eq_zero hr (dev_nonneg _)).1 h')
    have hb : root (dev (l.map Prod.snd)) ≠ 0 := fun h' => h0.2 ((root_eq_zero hr (dev_nonneg _)).1 h')
    have hpos : 0 < root (dev (l.map Prod.fst)) * root (dev (l.map Prod.snd)) :=
      mul_pos (lt_of_le_of_ne a1 ha.symm) (lt_of_le_of_ne b1 hb.symm)
    have hsq : codev l * codev l ≤ (root (dev (l.map Prod.fst)) * root (dev (l.map Prod.snd))) *
        (root (dev (l.map Prod.fst)) * root (dev (l.map Prod.snd))) := by
      calc _ ≤ _ := hcs
        _ = _ := by
          conv_lhs => rw [← a2, ← b2]
          ring
    have habs := abs_le_iff_mul_self_le.2 hsq
    rw [abs_of_pos hpos] at habs
    have habs := abs_le.1 habs
    rw [← h]
    constructor
    · rw [le_div_iff₀ hpos]; linarith [habs.1]
    · rw [div_le_iff₀ hpos]; linarith [habs.2]

theorem avg_affine (l : List K) (hl : l ≠ []) (a b : K) : avg (l.map (fun x => a * x + b)) = a * avg l + b := by
  have hs : ∀ m : List K, (m.map (fun x => a * x + b)).sum = a * m.sum + m.length * b := by
    intro m
    induction m with
    | nil => simp
    | cons x m ih => simp only [List.map_cons, List.sum_cons, ih, List.length_cons]; push_cast; ring
  have hn : (l.length : K) ≠ 0 := by
    have := List.length_pos_of_ne_nil hl
    exact_mod_cast this.ne'
  unfold avg
  rw [hs, List.length_map]
  field_simp

theorem dev_affine (l : List K) (a b : K) : dev (l.map (fun x => a * x + b)) = a * a * dev l := by
  by_cases hl : l = []
  · subst hl; simp [dev]
  unfold dev
  rw [avg_affine l hl, List.map_map]
  have hs : ∀ (m : List K) (c : K), (m.map ((fun x => (x - (a * c + b)) * (x - (a * c + b))) ∘ fun x => a * x + b)).sum =
      a * a * (m.map (fun x => (x - c) * (x - c))).sum := by
    intro m c
    induction m with
    | nil => simp
    | cons x m ih => simp only [List.map_cons, List.sum_cons, ih, Function.comp_apply]; ring
  exact hs l _

theorem codev_affine (l : List (K × K)) (a b c d : K) :
    codev (l.map (fun p => (a * p.1 + b, c * p.2 + d))) = a * c * codev l := by
  by_cases hl : l = []
  · subst hl; simp [codev]
  have h1 : (l.map (fun p => (a * p.1 + b, c * p.2 + d))).map Prod.fst = (l.map Prod.fst).map (fun x => a * x + b) := by
    rw [List.map_map, List.map_map]; rfl
  have h2 : (l.map (fun p => (a * p.1 + b, c * p.2 + d))).map Prod.snd = (l.map Prod.snd).map (fun x => c * x + d) := by
    rw [List.map_map, List.map_map]; rfl
  unfold codev
  rw [h1, h2, avg_affine _ (by simpa using hl), avg_affine _ (by simpa using hl), List.map_map]
  have hs : ∀ (m : List (K × K)) (u v : K), (m.map ((fun p : K × K => (p.1 - (a * u + b)) * (p.2 - (c * v + d))) ∘
      fun p => (a * p.1 + b, c * p.2 + d))).sum = a * c * (m.map (fun p => (p.1 - u) * (p.2 - v))).sum := by
    intro m u v
    induction m with
    | nil => simp
    | cons x m ih => simp only [List.map_cons, List.sum_cons, ih, Function.comp_apply]; ring
  exact hs l _ _

/-- **C68** A change of units or of the origin of one of the sequences does not change the correlation, apart from the
sign if it reverses the direction. -/
theorem C68_affine (root : K → K) (hr : IsRoot root) (l : List (K × K)) (a b c d : K) (ha : a ≠ 0) (hc : c ≠ 0) :
    pearson root (l.map (fun p => (a * p.1 + b, c * p.2 + d))) =
      (pearson root l).map (fun r => if 0 < a * c then r else -r) := by
  have h1 : (l.map (fun p => (a * p.1 + b, c * p.2 + d))).map Prod.fst = (l.map Prod.fst).map (fun x => a * x + b) := by
    rw [List.map_map, List.map_map]; rfl
  have h2 : (l.map (fun p => (a * p.1 + b, c * p.2 + d))).map Prod.snd = (l.map Prod.snd).map (fun x => c * x + d) := by
    rw [List.map_map, List.map_map]; rfl
  unfold pearson
  rw [h1, h2, dev_affine, dev_affine, codev_affine]
  have hroot : ∀ t y : K, 0 ≤ y → root (t * t * y) = |t| * root y := by
    intro t y hy
    apply root_unique hr (mul_nonneg (abs_nonneg t) (hr y hy).1)
    calc |t| * root y * (|t| * root y) = |t| * |t| * (root y * root y) := by ring
      _ = t * t * y := by rw [(hr y hy).2, abs_mul_abs_self]
  have hz : ∀ t y : K, t ≠ 0 → (t * t * y = 0 ↔ y = 0) := by
    intro t y ht; simp [ht]
  by_cases h0 : dev (l.map Prod.fst) = 0 ∨ dev (l.map Prod.snd) = 0
  · rw [if_pos h0, if_pos (by rw [hz a _ ha, hz c _ hc]; exact h0)]; rfl
  · rw [if_neg h0, if_neg (by rw [hz a _ ha, hz c _ hc]; exact h0), hroot a _ (dev_nonneg _), hroot c _ (dev_nonneg _), Option.map_some]
    congr 1
    have e1 : root (dev (l.map Prod.fst)) ≠ 0 := fun h' => h0 (.inl ((root_eq_zero hr (dev_nonneg _)).1 h'))
    have e2 : root (dev (l.map Prod.snd)) ≠ 0 := fun h' => h0 (.inr ((root_eq_zero hr (dev_nonneg _)).1 h'))
    have habs : |a| * |c| = |a * c| := (abs_mul a c).symm
    have hac : a * c ≠ 0 := mul_ne_zero ha hc
    have hre : |a| * root (dev (l.map Prod.fst)) * (|c| * root (dev (l.map Prod.snd))) =
        |a * c| * (root (dev (l.map Prod.fst)) * root (dev (l.map Prod.snd))) := by rw [← habs]; ring
    rw [hre]
    split
    · rename_i hp
      rw [abs_of_pos hp]
      field_simp
    · rename_i hp
      have hneg : a * c < 0 := lt_of_le_of_ne (not_lt.1 hp) hac
      rw [abs_of_neg hneg]
      field_simp

/-- the deviations vanish exactly if the sequence is constant -/
theorem dev_eq_zero (l : List K) : dev l = 0 ↔ ∀ x ∈ l, ∀ y ∈ l, x = y := by
  constructor
  · intro h0
    have hs : ∀ (m : List K) (c : K), (m.map (fun x => (x - c) * (x - c))).sum = 0 → ∀ x ∈ m, x = c := by
      intro m c hm
      induction m with
      | nil => simp
      | cons x m ih =>
        simp only [List.map_cons, List.sum_cons] at hm
        have g1 := mul_self_nonneg (x - c)
        have g2 : 0 ≤ (m.map (fun x => (x - c) * (x - c))).sum := by
          apply List.sum_nonneg
          intro y hy
          obtain ⟨z, _, rfl⟩ := List.mem_map.1 hy
          exact mul_self_nonneg _
        have g3 : (x - c) * (x - c) = 0 := by linarith
        intro y hy
        rcases List.mem_cons.1 hy with rfl | hy
        · exact sub_eq_zero.1 (mul_self_eq_zero.1 g3)
        · exact ih (by linarith) y hy
    have hall := hs l _ h0
    exact fun x hx y hy => (hall x hx).trans (hall y hy).symm
  · intro h
    cases l with
    | nil => rfl
    | cons x l =>
      have h1 : x :: l = List.replicate (l.length + 1) x := by
        rw [List.eq_replicate_iff]
        exact ⟨by simp, fun y hy => h y hy x (by simp)⟩
      have h2 : avg (x :: l) = x := by
        unfold avg
        rw [h1, List.sum_replicate, List.length_replicate, nsmul_eq_mul]
        have : ((l.length + 1 : ℕ) : K) ≠ 0 := Nat.cast_ne_zero.2 (Nat.succ_ne_zero l.length)
        field_simp
      unfold dev
      rw [h2]
      apply List.sum_eq_zero
      intro y hy
      obtain ⟨z, hz, rfl⟩ := List.mem_map.1 hy
      rw [h z hz x (by simp), sub_self, mul_zero]

/-- **C68** The coefficient is undefined exactly if one of the two sequences is constant. -/
theorem C68_undefined (root : K → K) (l : List (K × K)) :
    pearson root l = none ↔ (∀ p ∈ l, ∀ q ∈ l, p.1 = q.1) ∨ (∀ p ∈ l, ∀ q ∈ l, p.2 = q.2) := by
  have h1 : dev (l.map Prod.fst) = 0 ↔ ∀ p ∈ l, ∀ q ∈ l, p.1 = q.1 := by
    rw [dev_eq_zero]; simp only [List.forall_mem_map]
  have h2 : dev (l.map Prod.snd) = 0 ↔ ∀ p ∈ l, ∀ q ∈ l, p.2 = q.2 := by
    rw [dev_eq_zero]; simp only [List.forall_mem_map]
  unfold pearson
  rw [← h1, ← h2]
  split
  · rename_i h; exact ⟨fun _ => h, fun _ => rfl⟩
  · rename_i h; exact ⟨fun h' => (Option.some_ne_none _ h').elim, fun h' => absurd h' h⟩

/-- **C68** The correlation of a sequence with itself is 1, unless the sequence is constant. -/
theorem C68_self (root : K → K) (hr : IsRoot root) (l : List K) (h : ∃ x ∈ l, ∃ y ∈ l, x ≠ y) :
    pearson root (l.map (fun x => (x, x))) = some 1 := by
  have h1 : (l.map (fun x => (x, x))).map Prod.fst = l := by rw [List.map_map]; exact List.map_id l
  have h2 : (l.map (fun x => (x, x))).map Prod.snd = l := by rw [List.map_map]; exact List.map_id l
  have h3 : codev (l.map (fun x => (x, x))) = dev l := by
    unfold codev dev
    rw [h1, h2, List.map_map]
    rfl
  have h4 : dev l ≠ 0 := by
    rw [Ne, dev_eq_zero]
    intro h0
    obtain ⟨x, hx, y, hy, hxy⟩ := h
    exact hxy (h0 x hx y hy)
  unfold pearson
  rw [h1, h2, h3, if_neg (by simp [h4]), (hr _ (dev_nonneg l)).2, div_self h4]

/-! ### Examples -/

example : IsRoot Real.sqrt := fun y hy => ⟨Real.sqrt_nonneg y, Real.mul_self_sqrt hy⟩

/-- the square root of some squares -/
def exRoot (q : ℚ) : ℚ := if q = 1 then 1 else if q = 4 then 2 else if q = 1/4 then 1/2 else 0

/-- `[[0, 0, 2, 2], [0, 1, 1, 0]]` -/
def exCx : SA (Option ℚ) := ⟨["x", "y"], ⟨[2, 4], fun i =>
  ([some 0, some 0, some 2, some 2, some 0, some 1, some 1, some 0] : List (Option ℚ)).getD (i.getD 0 0 * 4 + i.getD 1 0) none⟩⟩

/-- `[3, 1, 1, 3]` -/
def exCy : SA (Option ℚ) := ⟨["y"], ND.vec [some 3, some 1, some 1, some 3]⟩

example : (SA.pearsonr exRoot exCx exCy (some ["y"]) none).toOption.map (fun r => (r.axes, r.nd.toList)) =
    some (["x"], [some 0, some (-1)]) := by decide +kernel

example : exCx.WF ∧ exCy.WF ∧ broadcastShapes [exCx.shape, exCy.shape] = .ok [("x", 2), ("y", 4)] ∧
    Reduces (some ["y"]) exCx.axes ["y"] ∧ (∀ ax ∈ ["y"], get? exCx.shape ax = get? exCy.shape ax ∧ get? exCx.shape ax ≠ none) := by
  refine ⟨?_, ?_, by decide, rfl, by decide⟩ <;> constructor <;> simp [exCx, exCy, ND.ndim, ND.vec, ND.ofList]

end NA
