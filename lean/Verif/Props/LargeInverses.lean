import Verif.Matrix.Stack
import Verif.Props.Inverses
import Verif.Props.Joining
import Verif.Scalar.Loop
import Verif.Stats.Named
import Verif.Props.RandomSamples
import Verif.Scalar.SetLemmas

/-!
# Matrices along named axes, and inverses of matrices with four or more rows (C96)
-/

namespace NA
open Dict NA.Comp
open SA (FitsIn InRange)
variable {K : Type}

/-- The assumption about `np.linalg.inv` for one square matrix with `n` rows: what it returns is an inverse, and it returns
something if the determinant is not zero. -/
structure Inverter [Field K] (inv : Nat → (Nat → Nat → K) → Option (Nat → Nat → K)) : Prop where
  right : ∀ n A B, inv n A = some B →
    (Matrix.of fun i j : Fin n => A i j) * (Matrix.of fun i j : Fin n => B i j) = 1
  total : ∀ n A, (Matrix.of fun i j : Fin n => A i j).det ≠ 0 → (inv n A).isSome

namespace SA

/-- The named index `e` with the position `i` along `axisRows`, and `j` along `axisColumns`. -/
def atPair (axisRows axisColumns : String) (e : String → Nat) (i j : Nat) : String → Nat :=
  fun x => if x = axisRows then i else if x = axisColumns then j else e x

/-- The matrix along two axes of an array, at the named index `e` of the other axes. -/
def matrixAt (a : SA K) (axisRows axisColumns : String) (n : Nat) (e : String → Nat) : Matrix (Fin n) (Fin n) K :=
  Matrix.of fun i j => a.at' (atPair axisRows axisColumns e i j)

/-- `e` is an index of the axes other than `axisRows` and `axisColumns`. -/
def InOthers (S : Shape) (axisRows axisColumns : String) (e : String → Nat) : Prop :=
  ∀ x m, x ≠ axisRows → x ≠ axisColumns → get? S x = some m → e x < m

theorem zip_map_self {β : Type} (l : List String) (f : String → β) : l.zip (l.map f) = l.map (fun x => (x, f x)) := by
  induction l with
  | nil => rfl
  | cons x l ih => rw [List.map_cons, List.zip_cons_cons, ih]; rfl

theorem matrixAt_congr {a : SA K} {r c : String} {n : Nat} {e e' : String → Nat} (h : ∀ x ∈ a.axes, x ≠ r → x ≠ c → e x = e' x) :
    a.matrixAt r c n e = a.matrixAt r c n e' := by
  ext i j
  simp only [matrixAt, Matrix.of_apply]
  apply at'_congr
  intro x hx
  unfold atPair
  split_ifs with h1 h2
  · rfl
  · rfl
  · exact h x hx h1 h2

section moved
variable {a : SA K} (ha : a.WF) {r c : String} (hr : r ∈ a.axes) (hc : c ∈ a.axes) (hrc : r ≠ c)
include ha hr hc hrc

theorem moved_main :
    ∃ v, a.nd.moveaxis [a.axes.idxOf r, a.axes.idxOf c] [a.nd.ndim - 2, a.nd.ndim - 1] = .ok v ∧
      v.shape = (a.axes.filter (· ∉ [r, c])).map a.sizeOf' ++ [a.sizeOf' r, a.sizeOf' c] ∧
      (∀ e i j, v.get ((a.axes.filter (· ∉ [r, c])).map e ++ [i, j]) = a.at' (atPair r c e i j)) := by
  have hn : [r, c].Nodup := by simp [hrc]
  have hsub : [r, c] ⊆ a.axes := by
    intro x hx
    rcases List.mem_cons.1 hx with rfl | hx
    · exact hr
    · rcases List.mem_cons.1 hx with rfl | hx
      · exact hc
      · cases hx
  obtain ⟨v, h1, h2, h3⟩ := moveaxis_block ha hn hsub (k := (a.axes.filter (· ∉ [r, c])).length) le_rfl
  simp only [List.take_length, List.drop_length, List.append_nil] at h2 h3
  have hperm : a.nd.ndim = (a.axes.filter (· ∉ [r, c])).length + 2 := by
    have hp : ((a.axes.filter (· ∉ [r, c])) ++ [r, c]).Perm a.axes := by
      rw [List.perm_ext_iff_of_nodup _ ha.2]
      · intro x
        simp only [List.mem_append, List.mem_filter, decide_eq_true_eq]
        constructor
        · rintro (h | h)
          · exact h.1
          · exact hsub h
        · intro h
          by_cases hx : x ∈ [r, c]
          · exact .inr hx
          · exact .inl ⟨h, hx⟩
      · rw [List.nodup_append]
        refine ⟨ha.2.filter _, hn, ?_⟩
        rintro x hx y hy rfl
        have := (List.mem_filter.1 hx).2
        simp only [decide_eq_true_eq] at this
        exact this hy
    rw [ha.1, ← hp.length_eq]
    simp
  refine ⟨v, ?_, ?_, ?_⟩
  · rw [hperm]
    exact h1
  · rw [h2]; simp
  · intro e i j
    rw [← h3]
    congr 1
    rw [List.map_append]
    congr 1
    · apply List.map_congr_left
      intro x hx
      have := (List.mem_filter.1 hx).2
      simp only [List.mem_cons, List.not_mem_nil, or_false, not_or, decide_eq_true_eq] at this
      simp [atPair, this.1, this.2]
    · simp [atPair, Ne.symm hrc]

/-- **C96**: along two named axes of the same length, the inverse of an array is the array of the inverses: the product of the two
arrays, contracted over the axis `c`, is the identity, at every named index of the other axes.  It is defined if none of the
determinants is zero. -/
theorem C96_matrix_inverse [Field K] {inv : Nat → (Nat → Nat → K) → Option (Nat → Nat → K)} (hinv : Inverter inv) {n : Nat}
    (hrn : get? a.shape r = some n) (hcn : get? a.shape c = some n)
    (hdet : ∀ e, InOthers a.shape r c e → (a.matrixAt r c n e).det ≠ 0) :
    ∃ b, a.matrixInverse inv r c = .ok b ∧ b.WF ∧ b.axes = a.axes.filter (· ∉ [r, c]) ++ [c, r] ∧
      (∀ x, get? b.shape x = get? a.shape x) ∧
      ∀ e, InOthers a.shape r c e → a.matrixAt r c n e * b.matrixAt c r n e = 1 ∧ b.matrixAt c r n e * a.matrixAt r c n e = 1 := by
  obtain ⟨v, h1, h2, h3⟩ := moved_main ha hr hc hrc
  have hfold := foldlM_pyRemove (l := a.axes) (S := [r, c]) ha.2 (by simp [hrc]) (by simp [hr, hc])
  obtain ⟨O, hO⟩ : ∃ O, O = a.axes.filter (· ∉ [r, c]) := ⟨_, rfl⟩
  rw [← hO] at h2 h3 hfold
  have hOn : O.Nodup := hO ▸ ha.2.filter _
  have hmemO : ∀ x, x ∈ O ↔ x ∈ a.axes ∧ x ≠ r ∧ x ≠ c := by
    intro x
    rw [hO]
    simp
  have hsr : a.sizeOf' r = n := by simp [sizeOf', hrn]
  have hsc : a.sizeOf' c = n := by simp [sizeOf', hcn]
  rw [hsr, hsc] at h2
  have hlen : v.shape.length = O.length + 2 := by rw [h2]; simp
  have hk : v.shape.length - 2 = O.length := by omega
  have hO1 : (O.map a.sizeOf').length = O.length := List.length_map ..
  have hget0 : v.shape.getD O.length 0 = n := by
    rw [h2]; simp
  have hget1 : v.shape.getD (O.length + 1) 0 = n := by
    rw [h2]; simp
  have htake : v.shape.take O.length = O.map a.sizeOf' := by
    rw [h2, ← hO1, List.take_left]
  have hall : (ndIndices (v.shape.take O.length)).all (fun b => (inv n (fun i j => v.get (b ++ [i, j]))).isSome) = true := by
    rw [List.all_eq_true]
    intro b hb
    rw [htake, ND.mem_ndIndices_iff] at hb
    obtain ⟨e, rfl, he⟩ := exists_env hOn hb
    apply hinv.total
    have := hdet e (fun x m h1 h2 h3 => by
      have hx : x ∈ O := (hmemO x).2 ⟨by rw [← keys_shape ha]; exact mem_keys_of_get? h3, h1, h2⟩
      have := he x hx
      simpa [sizeOf', h3] using this)
    simpa only [h3, matrixAt] using this
  have hinvok : v.linalgInv inv = .ok ⟨v.shape, fun i => ((inv n (fun p q => v.get (i.take O.length ++ [p, q]))).map
      (fun B => B (i.getD O.length 0) (i.getD (O.length + 1) 0))).getD (v.get i)⟩ := by
    unfold ND.linalgInv
    simp only [hk, hget0, hget1]
    rw [if_neg (by omega), if_neg (by simp), if_pos hall]
  have hnd : (O ++ [c, r]).Nodup := by
    rw [List.nodup_append]
    refine ⟨hOn, by simp [Ne.symm hrc], ?_⟩
    rintro x hx y hy rfl
    have := (hmemO x).1 hx
    simp [this.2.1, this.2.2] at hy
  obtain ⟨w, hw⟩ : ∃ w : ND K, w = ⟨v.shape, fun i => ((inv n (fun p q => v.get (i.take O.length ++ [p, q]))).map
      (fun B => B (i.getD O.length 0) (i.getD (O.length + 1) 0))).getD (v.get i)⟩ := ⟨_, rfl⟩
  rw [← hw] at hinvok
  have hws : w.shape = v.shape := by rw [hw]
  have hwn : w.ndim = (O ++ [c, r]).length := by
    show w.shape.length = _
    rw [hws, hlen]; simp
  have hb : (⟨O ++ [c, r], w⟩ : SA K).WF := ⟨hwn, hnd⟩
  refine ⟨⟨O ++ [c, r], w⟩, ?_, hb, by rw [hO], ?_, ?_⟩
  · unfold matrixInverse pyTupleIndex
    rw [if_pos hr, if_pos hc]
    simp only [bind, Except.bind, h1, hfold, hinvok]
    exact mk?_of_wf hwn hnd
  · intro x
    have hshape : (⟨O ++ [c, r], w⟩ : SA K).shape = (O ++ [c, r]).map (fun x => (x, a.sizeOf' x)) := by
      unfold shape
      simp only [hws, h2]
      have : O.map a.sizeOf' ++ [n, n] = (O ++ [c, r]).map a.sizeOf' := by simp [hsr, hsc]
      rw [this]
      exact zip_map_self _ _
    rw [hshape, get?_map_list a.sizeOf' x]
    have hmem : x ∈ O ++ [c, r] ↔ x ∈ a.axes := by
      rw [List.mem_append, hmemO]
      simp only [List.mem_cons, List.not_mem_nil, or_false]
      constructor
      · rintro (h | rfl | rfl)
        exacts [h.1, hc, hr]
      · intro h
        by_cases e1 : x = c
        · exact .inr (.inl e1)
        · by_cases e2 : x = r
          · exact .inr (.inr e2)
          · exact .inl ⟨h, e2, e1⟩
    by_cases hx : x ∈ a.axes
    · rw [if_pos (hmem.2 hx)]
      rw [← keys_shape ha] at hx
      obtain ⟨m, hm⟩ := exists_get?_of_mem hx
      simp [sizeOf', hm]
    · rw [if_neg (fun h => hx (hmem.1 h))]
      rw [← keys_shape ha] at hx
      exact (get?_eq_none.2 hx).symm
  · intro e he
    have hsome : (inv n (fun i j => v.get (O.map e ++ [i, j]))).isSome := by
      apply hinv.total
      simpa only [h3, matrixAt] using hdet e he
    obtain ⟨B, hB⟩ := Option.isSome_iff_exists.1 hsome
    have hbat : (⟨O ++ [c, r], w⟩ : SA K).matrixAt c r n e = Matrix.of fun i j : Fin n => B i j := by
      ext i j
      simp only [matrixAt, Matrix.of_apply]
      have hmap : (O ++ [c, r]).map (atPair c r e i j) = O.map e ++ [(i : Nat), (j : Nat)] := by
        rw [List.map_append]
        congr 1
        · apply List.map_congr_left
          intro x hx
          have := (hmemO x).1 hx
          simp [atPair, this.2.1, this.2.2]
        · simp [atPair, hrc]
      show w.get ((O ++ [c, r]).map (atPair c r e i j)) = _
      rw [hmap, hw]
      have ht : (O.map e ++ [(i : Nat), (j : Nat)]).take O.length = O.map e := by
        rw [List.take_append_of_le_length (by simp), List.take_of_length_le (by simp)]
      simp only [ht, hB]
      simp
    have hmul := hinv.right _ _ _ hB
    simp only [h3] at hmul
    have h1 : a.matrixAt r c n e * (⟨O ++ [c, r], w⟩ : SA K).matrixAt c r n e = 1 := by
      rw [hbat]
      exact hmul
    exact ⟨h1, mul_eq_one_comm.1 h1⟩

/-- **C96**: matrices which are not square, and arrays of matrices one of which is singular, have no inverse: an error of numpy. -/
theorem C96_matrix_inverse_error [Field K] {inv : Nat → (Nat → Nat → K) → Option (Nat → Nat → K)} (hinv : Inverter inv) {n m : Nat}
    (hrn : get? a.shape r = some n) (hcn : get? a.shape c = some m)
    (h : n ≠ m ∨ ∃ e, InOthers a.shape r c e ∧ (a.matrixAt r c n e).det = 0) :
    a.matrixInverse inv r c = .error .other := by
  obtain ⟨v, h1, h2, h3⟩ := moved_main ha hr hc hrc
  have hfold := foldlM_pyRemove (l := a.axes) (S := [r, c]) ha.2 (by simp [hrc]) (by simp [hr, hc])
  obtain ⟨O, hO⟩ : ∃ O, O = a.axes.filter (· ∉ [r, c]) := ⟨_, rfl⟩
  rw [← hO] at h2 h3 hfold
  have hmemO : ∀ x, x ∈ O ↔ x ∈ a.axes ∧ x ≠ r ∧ x ≠ c := by
    intro x
    rw [hO]
    simp
  have hsr : a.sizeOf' r = n := by simp [sizeOf', hrn]
  have hsc : a.sizeOf' c = m := by simp [sizeOf', hcn]
  rw [hsr, hsc] at h2
  have hlen : v.shape.length = O.length + 2 := by rw [h2]; simp
  have hk : v.shape.length - 2 = O.length := by omega
  have hO1 : (O.map a.sizeOf').length = O.length := List.length_map ..
  have hget0 : v.shape.getD O.length 0 = n := by
    rw [h2]; simp
  have hget1 : v.shape.getD (O.length + 1) 0 = m := by
    rw [h2]; simp
  have htake : v.shape.take O.length = O.map a.sizeOf' := by
    rw [h2, ← hO1, List.take_left]
  have hbad : v.linalgInv inv = .error .other := by
    unfold ND.linalgInv
    simp only [hk, hget0, hget1]
    rw [if_neg (by omega)]
    by_cases hnm : m = n
    · rw [if_neg (by simp [hnm])]
      rcases h with h | ⟨e, he, hd⟩
      · exact absurd hnm.symm h
      · rw [if_neg]
        intro hall
        rw [List.all_eq_true] at hall
        have := hall (O.map e) (by
          rw [htake, ND.mem_ndIndices_iff, ND.inRange_iff]
          refine ⟨by simp, ?_⟩
          intro k hk1 hk2
          simp only [List.length_map] at hk1
          have hx := (hmemO _).1 (List.getElem_mem hk1)
          obtain ⟨q, hq⟩ := exists_get?_of_mem (d := a.shape) (by rw [keys_shape ha]; exact hx.1)
          have := he _ q hx.2.1 hx.2.2 hq
          simpa [sizeOf', hq] using this)
        obtain ⟨B, hB⟩ := Option.isSome_iff_exists.1 this
        have hmul := hinv.right _ _ _ hB
        simp only [h3] at hmul
        have := congrArg Matrix.det hmul
        rw [Matrix.det_mul, Matrix.det_one] at this
        have hd' : (Matrix.of fun i j : Fin n => a.at' (atPair r c e i j)).det = 0 := hd
        rw [hd', zero_mul] at this
        exact zero_ne_one this
    · rw [if_pos hnm]
  unfold matrixInverse pyTupleIndex
  rw [if_pos hr, if_pos hc]
  simp only [bind, Except.bind, h1, hfold, hbad]

end moved

/-- **C96**: the two axes must be axes of the array, and different. -/
theorem C96_matrix_inverse_axes (inv : Nat → (Nat → Nat → K) → Option (Nat → Nat → K)) (a : SA K) (r c : String)
    (h : r ∉ a.axes ∨ c ∉ a.axes ∨ r = c) : a.matrixInverse inv r c = .error .valueError := by
  unfold matrixInverse pyTupleIndex
  by_cases hr : r ∈ a.axes
  · by_cases hc : c ∈ a.axes
    · have hrc : r = c := by
        rcases h with h | h | h
        exacts [absurd hr h, absurd hc h, h]
      subst hrc
      rw [if_pos hr]
      have : a.nd.moveaxis [a.axes.idxOf r, a.axes.idxOf r] [a.nd.ndim - 2, a.nd.ndim - 1] = .error .valueError := by
        unfold ND.moveaxis
        rw [if_neg]
        intro h
        have := h.1
        simp at this
      simp only [bind, Except.bind, this]
    · rw [if_pos hr, if_neg hc]
      rfl
  · rw [if_neg hr]
    rfl

section determinant
variable {a : SA K} (ha : a.WF) {r c : String} (hrc : r ≠ c)
include ha hrc

theorem matrixEntry_main {S : Shape} (hS : ∀ x, get? S x = if x ∈ [r, c] then none else get? a.shape x) {n : Nat}
    (hrn : get? a.shape r = some n) (hcn : get? a.shape c = some n) {i j : Nat} (hi : i < n) (hj : j < n) :
    ∃ x, a.matrixEntry r c i j = .ok x ∧ Is S x (fun e => a.at' (atPair r c e i j)) := by
  have hO : [r, c].Nodup := by simp [hrc]
  obtain ⟨x, h1, h2, h3, h4, h5⟩ := getitem_itemAt a ha hO (e := atPair r c (fun _ => 0) i j) (by
    intro ax hax m hm
    rcases List.mem_cons.1 hax with rfl | hax
    · rw [hrn] at hm
      cases hm
      simpa [atPair] using hi
    · rcases List.mem_cons.1 hax with rfl | hax
      · rw [hcn] at hm
        cases hm
        simpa [atPair, Ne.symm hrc] using hj
      · cases hax)
  refine ⟨x, ?_, h2, fun y => by rw [h4, hS], fun e _ => ?_⟩
  · unfold matrixEntry
    rw [if_neg hrc, ← h1]
    simp [itemAt, atPair, Ne.symm hrc]
  · rw [h5]
    congr 1
    funext y
    by_cases e1 : y = r
    · simp [atPair, e1]
    · by_cases e2 : y = c
      · simp [atPair, e2, Ne.symm hrc]
      · simp [atPair, e1, e2]

/-- **C96**: the determinant along two named axes of length two or three is the determinant, at every named index of the other axes. -/
theorem C96_determinant_partial [CommRing K] {n : Nat} (hn : n = 2 ∨ n = 3)
    (hrn : get? a.shape r = some n) (hcn : get? a.shape c = some n) :
    ∃ d, a.matrixDeterminant r c = .ok d ∧ d.WF ∧ (∀ x, get? d.shape x = if x ∈ [r, c] then none else get? a.shape x) ∧
      ∀ e, InOthers a.shape r c e → d.at' e = (a.matrixAt r c n e).det := by
  obtain ⟨S, hS'⟩ : ∃ S, S = a.shape.filter (fun p => p.1 ∉ [r, c]) := ⟨_, rfl⟩
  have hS : ∀ x, get? S x = if x ∈ [r, c] then none else get? a.shape x := by
    intro x
    rw [hS']
    have := get?_filter_key (wf_shape ha) (fun x => x ∉ [r, c]) x
    rw [this]
    by_cases hx : x ∈ [r, c]
    · rw [if_neg (fun h => h hx), if_pos hx]
    · rw [if_pos hx, if_neg hx]
  have hin : ∀ e, InOthers a.shape r c e → InRange S e := by
    intro e he x m hm
    rw [hS] at hm
    by_cases hx : x ∈ [r, c]
    · rw [if_pos hx] at hm; cases hm
    · rw [if_neg hx] at hm
      simp only [List.mem_cons, List.not_mem_nil, or_false, not_or] at hx
      exact he x m hx.1 hx.2 hm
  have hen := fun i j hi hj => matrixEntry_main ha hrc hS hrn hcn (i := i) (j := j) hi hj
  have hsr : a.sizeAt r = .ok n := by simp [sizeAt, hrn]
  have hsc : a.sizeAt c = .ok n := by simp [sizeAt, hcn]
  rcases hn with rfl | rfl
  · obtain ⟨x, x1, x2⟩ := hen 0 0 (by omega) (by omega)
    obtain ⟨b, b1, b2⟩ := hen 0 1 (by omega) (by omega)
    obtain ⟨y, y1, y2⟩ := hen 1 0 (by omega) (by omega)
    obtain ⟨d, d1, d2⟩ := hen 1 1 (by omega) (by omega)
    obtain ⟨p, p1, p2⟩ := is_ufunc2 (· * ·) x2 d2
    obtain ⟨q, q1, q2⟩ := is_ufunc2 (· * ·) b2 y2
    obtain ⟨s, s1, s2⟩ := is_ufunc2 (· - ·) p2 q2
    refine ⟨s, ?_, s2.wf, fun z => by rw [s2.shape, hS], fun e he => ?_⟩
    · unfold matrixDeterminant
      simp only [hsr, hsc, bind, Except.bind, ne_eq, not_true_eq_false, if_false, if_true, x1, b1, y1, d1, p1, q1, s1]
    · rw [s2.elem e (hin e he), Matrix.det_fin_two]
      simp [matrixAt]
  · obtain ⟨x, x1, x2⟩ := hen 0 0 (by omega) (by omega)
    obtain ⟨b, b1, b2⟩ := hen 0 1 (by omega) (by omega)
    obtain ⟨y, y1, y2⟩ := hen 0 2 (by omega) (by omega)
    obtain ⟨d, d1, d2⟩ := hen 1 0 (by omega) (by omega)
    obtain ⟨f, f1, f2⟩ := hen 1 1 (by omega) (by omega)
    obtain ⟨g, g1, g2⟩ := hen 1 2 (by omega) (by omega)
    obtain ⟨h, h1, h2⟩ := hen 2 0 (by omega) (by omega)
    obtain ⟨k, k1, k2⟩ := hen 2 1 (by omega) (by omega)
    obtain ⟨l, l1, l2⟩ := hen 2 2 (by omega) (by omega)
    have mul3 : ∀ {u v w : SA K} {fu fv fw : (String → Nat) → K}, Is S u fu → Is S v fv → Is S w fw →
        ∃ t z, ufunc2 (· * ·) u v = .ok t ∧ ufunc2 (· * ·) t w = .ok z ∧ Is S z (fun e => fu e * fv e * fw e) := by
      intro u v w fu fv fw hu hv hw
      obtain ⟨t, t1, t2⟩ := is_ufunc2 (· * ·) hu hv
      obtain ⟨z, z1, z2⟩ := is_ufunc2 (· * ·) t2 hw
      exact ⟨t, z, t1, z1, z2⟩
    obtain ⟨ta, za, ta1, za1, za2⟩ := mul3 x2 f2 l2
    obtain ⟨tb, zb, tb1, zb1, zb2⟩ := mul3 b2 g2 h2
    obtain ⟨tc, zc, tc1, zc1, zc2⟩ := mul3 y2 d2 k2
    obtain ⟨td, zd, td1, zd1, zd2⟩ := mul3 y2 f2 h2
    obtain ⟨te, ze, te1, ze1, ze2⟩ := mul3 b2 d2 l2
    obtain ⟨tf, zf, tf1, zf1, zf2⟩ := mul3 x2 g2 k2
    obtain ⟨s1, u1, v1⟩ := is_ufunc2 (· + ·) za2 zb2
    obtain ⟨s2, u2, v2⟩ := is_ufunc2 (· + ·) v1 zc2
    obtain ⟨s3, u3, v3⟩ := is_ufunc2 (· - ·) v2 zd2
    obtain ⟨s4, u4, v4⟩ := is_ufunc2 (· - ·) v3 ze2
    obtain ⟨s5, u5, v5⟩ := is_ufunc2 (· - ·) v4 zf2
    refine ⟨s5, ?_, v5.wf, fun z => by rw [v5.shape, hS], fun e he => ?_⟩
    · unfold matrixDeterminant
      simp only [hsr, hsc, bind, Except.bind, ne_eq, not_true_eq_false, if_false, if_true, x1, b1, y1, d1, f1, g1, h1, k1, l1,
        ta1, tb1, tc1, td1, te1, tf1, za1, zb1, zc1, zd1, ze1, zf1, u1, u2, u3, u4, u5,
        (by decide : (3 : Nat) ≠ 2)]
    · rw [v5.elem e (hin e he), Matrix.det_fin_three]
      simp only [matrixAt, Matrix.of_apply, Fin.coe_ofNat_eq_mod]
      ring

omit ha hrc in
/-- **C96**: unknown axes are a `KeyError`, matrices which are not square a `ValueError`. -/
theorem C96_determinant_error [Add K] [Sub K] [Mul K] (a : SA K) (r c : String) :
    (get? a.shape r = none ∨ get? a.shape c = none → a.matrixDeterminant r c = .error .keyError) ∧
    ∀ m n, get? a.shape r = some m → get? a.shape c = some n → m ≠ n → a.matrixDeterminant r c = .error .valueError := by
  refine ⟨fun h => ?_, fun m n hm hn hmn => ?_⟩
  · unfold matrixDeterminant sizeAt
    cases hr : get? a.shape r with
    | none => rfl
    | some m =>
      have hc : get? a.shape c = none := by
        rcases h with h | h
        · rw [h] at hr; cases hr
        · exact h
      rw [hc]
      rfl
  · unfold matrixDeterminant sizeAt
    rw [hm, hn]
    simp only [bind, Except.bind]
    rw [if_pos hmn]

omit ha hrc in
/-- **C96** does not hold for other sizes: every call fails, for a single number as for four rows and more. -/
theorem C96_determinant_refuted [Add K] [Sub K] [Mul K] (a : SA K) (r c : String) {n : Nat} (h2 : n ≠ 2) (h3 : n ≠ 3)
    (hrn : get? a.shape r = some n) (hcn : get? a.shape c = some n) : a.matrixDeterminant r c = .error .other := by
  unfold matrixDeterminant sizeAt
  rw [hrn, hcn]
  simp only [bind, Except.bind]
  rw [if_neg (by simp), if_neg h2, if_neg h3]

end determinant

/-- Stacking arrays which fit in a shape. -/
theorem stack_fits {S : Shape} {arrays : List (SA K)} (hw : ∀ a ∈ arrays, inShape S a) (hne : arrays ≠ []) {axis : String}
    (hax : axis ∉ keys S) :
    ∃ r, stack arrays axis = .ok r ∧ inShape ((axis, arrays.length) :: S) r ∧ get? r.shape axis = some arrays.length ∧
      (∀ x m, x ≠ axis → (∀ a ∈ arrays, get? a.shape x = some m) → get? r.shape x = some m) ∧
      (∀ a ∈ arrays, FitsIn a.shape r.shape) ∧ ∀ e, ∀ h : e axis < arrays.length, r.atB e = arrays[e axis].atB e := by
  have hwf : ∀ a ∈ arrays, a.WF := fun a h => (hw a h).1
  have hss := wf_shapes hwf
  obtain ⟨s, hs⟩ : ∃ s, broadcastShapes (arrays.map SA.shape) = .ok s := by
    cases hs : broadcastShapes (arrays.map SA.shape) with
    | ok s => exact ⟨s, rfl⟩
    | error e =>
      exfalso
      obtain ⟨x, m, n, ⟨t, ht, hm⟩, ⟨u, hu, hn⟩, h1, h2, h3⟩ := (C01_broadcast_shapes_error_iff _ hss).1 ⟨e, hs⟩
      obtain ⟨a, ha, rfl⟩ := List.mem_map.1 ht
      obtain ⟨b, hb, rfl⟩ := List.mem_map.1 hu
      obtain ⟨k, hk, hmk⟩ := (hw a ha).2 x m hm
      obtain ⟨k', hk', hnk⟩ := (hw b hb).2 x n hn
      rw [hk] at hk'
      cases hk'
      omega
  have hax' : ∀ a ∈ arrays, axis ∉ a.axes := by
    intro a ha h
    rw [← keys_shape (hwf a ha)] at h
    obtain ⟨m, hm⟩ := exists_get?_of_mem h
    obtain ⟨k, hk, -⟩ := (hw a ha).2 axis m hm
    exact hax (mem_keys_of_get? hk)
  obtain ⟨-, hmem, hsize⟩ := C01_broadcast_shapes_ok _ hss s hs
  obtain ⟨r, h1, h2, h3, h4⟩ := C23_stack arrays hwf hne axis s hs hax'
  have hfit : ∀ a ∈ arrays, FitsIn a.shape r.shape := by
    intro a ha x m hm
    obtain ⟨k, hk, hmk⟩ := fitsIn_of_broadcastShapes hss hs (List.mem_map_of_mem ha) x m hm
    refine ⟨k, ?_, hmk⟩
    rw [h3, get?_cons, if_neg, hk]
    rintro rfl
    exact hax' a ha (by rw [← keys_shape (hwf a ha)]; exact mem_keys_of_get? hm)
  have hself : get? r.shape axis = some arrays.length := by rw [h3, get?_cons, if_pos rfl]
  refine ⟨r, h1, ⟨h2, ?_⟩, hself, ?_, hfit, ?_⟩
  · intro x m hm
    rw [h3, get?_cons] at hm
    rw [get?_cons]
    by_cases hx : axis = x
    · rw [if_pos hx] at hm ⊢
      exact ⟨m, hm, .inl rfl⟩
    · rw [if_neg hx] at hm ⊢
      obtain ⟨⟨t, ht, htm⟩, -⟩ := hsize x m hm
      obtain ⟨a, ha, rfl⟩ := List.mem_map.1 ht
      exact (hw a ha).2 x m htm
  · intro x m hx hall
    rw [h3, get?_cons, if_neg (Ne.symm hx)]
    obtain ⟨a, ha⟩ := List.exists_mem_of_ne_nil arrays hne
    obtain ⟨k, hk⟩ := exists_get?_of_mem ((hmem x).2 ⟨a.shape, List.mem_map_of_mem ha, mem_keys_of_get? (hall a ha)⟩)
    obtain ⟨⟨t, ht, htk⟩, -⟩ := hsize x k hk
    obtain ⟨b, hb, rfl⟩ := List.mem_map.1 ht
    rw [hall b hb] at htk
    cases htk
    exact hk
  · intro e he
    have hmem' : arrays[e axis] ∈ arrays := List.getElem_mem he
    rw [show r.atB e = r.at' (fun ax => if get? r.shape ax = some 1 then 0 else e ax) from rfl]
    have hpos : (if get? r.shape axis = some 1 then 0 else e axis) = e axis := by
      split
      · next h =>
        rw [hself] at h
        injection h with h
        omega
      · rfl
    rw [h4 _ (by simp only [hpos]; exact he)]
    simp only [hpos]
    exact atB_clip (hwf _ hmem') (hfit _ hmem') e

end SA

/-! ### Matrices with many rows -/

theorem mapM_ofFn {α β : Type} {n : Nat} {f : α → R β} {g : Fin n → α} {h : Fin n → β} (hf : ∀ i, f (g i) = .ok (h i)) :
    (List.ofFn g).mapM f = .ok (List.ofFn h) := by
  induction n with
  | zero => simp [pure, Except.pure]
  | succ n ih =>
    rw [List.ofFn_succ, List.ofFn_succ, List.mapM_cons, hf 0, ih (h := fun i => h i.succ) (fun i => hf i.succ)]
    rfl

theorem zipIdx_ofFn {α : Type} {n : Nat} (g : Fin n → α) : (List.ofFn g).zipIdx = List.ofFn fun i => (g i, (i : Nat)) := by
  apply List.ext_getElem
  · simp
  · intro i h1 h2
    simp

theorem get?_ofFn {β : Type} {n : Nat} {cs : Fin n → String} (hcs : Function.Injective cs) (f : Fin n → β) (i : Fin n) :
    get? (List.ofFn fun j => (cs j, f j)) (cs i) = some (f i) := by
  refine get?_of_mem ?_ (List.mem_ofFn.2 ⟨i, rfl⟩)
  unfold Dict.WF keys
  rw [List.map_ofFn]
  exact List.nodup_ofFn.2 hcs

theorem eq_ofFn {β : Type} {n : Nat} {cs : Fin n → String} {d : Dict β} (h : keys d = List.ofFn cs) :
    ∃ f : Fin n → β, d = List.ofFn fun j => (cs j, f j) := by
  have hlen : d.length = n := by
    have := congrArg List.length h
    simpa [keys] using this
  refine ⟨fun j => (d[j.1]'(by omega)).2, ?_⟩
  apply List.ext_getElem
  · simp [hlen]
  · intro i h1 h2
    have hk : (keys d)[i]'(by simp [keys]; exact h1) = (List.ofFn cs)[i]'(by simp; omega) := by
      congr 1
    simp only [keys, List.getElem_map, List.getElem_ofFn] at hk ⊢
    rw [← hk]

/-- Every index of a shape which fits in `S` is, for arrays of this shape, an index of `S`. -/
theorem exists_inRange {S T : Shape} (hS : ∃ e, InRange S e) (hT : FitsIn T S) {e : String → Nat} (he : InRange T e) :
    ∃ e', InRange S e' ∧ ∀ a : SA K, a.WF → FitsIn a.shape T → a.atB e' = a.atB e := by
  obtain ⟨e0, he0⟩ := hS
  refine ⟨fun x => if (∃ m, get? T x = some m ∧ m ≠ 1) then e x else e0 x, ?_, ?_⟩
  · intro x n hn
    dsimp only
    split
    · next h =>
      obtain ⟨m, hm, hm1⟩ := h
      obtain ⟨k, hk, hmk⟩ := hT x m hm
      rw [hn] at hk
      cases hk
      have := he x m hm
      omega
    · exact he0 x n hn
  · intro a ha hf
    unfold SA.atB
    apply SA.at'_congr
    intro x hx
    rw [← SA.keys_shape ha] at hx
    obtain ⟨m, hm⟩ := exists_get?_of_mem hx
    rw [hm]
    by_cases h1 : m = 1
    · simp [h1]
    · obtain ⟨k, hk, hmk⟩ := hf x m hm
      have hk' : k = m := by omega
      subst hk'
      rw [if_neg (by simpa using h1), if_neg (by simpa using h1)]
      exact if_pos ⟨k, hk, h1⟩

theorem inverseStack_main [Field K] {inv : Nat → (Nat → Nat → K) → Option (Nat → Nat → K)} (hinv : Inverter inv) {S : Shape}
    (hS : ∃ e, InRange S e) (hrow : "_row" ∉ keys S) (hcol : "_column" ∉ keys S) {n : Nat} (hn : 1 ≤ n) (rs cs : Fin n → String)
    (ent : Fin n → Fin n → SA K) (hent : ∀ i j, inShape S (ent i j))
    (hdet : ∀ e, InRange S e → (Matrix.of fun i j => (ent i j).atB e).det ≠ 0) :
    ∃ X : Fin n → Fin n → SA K,
      Mat.inverseStack inv (List.ofFn fun i => (rs i, List.ofFn fun j => (cs j, ent i j))) =
        .ok (List.ofFn fun i => (cs i, List.ofFn fun j => (rs j, X i j))) ∧
      (∀ i j, inShape S (X i j)) ∧
      ∀ e, InRange S e → (Matrix.of fun i j => (ent i j).atB e) * (Matrix.of fun i j => (X j i).atB e) = 1 := by
  have hone : ∀ i, ∃ r, SA.stack (List.ofFn (ent i)) "_column" = .ok r ∧ inShape (("_column", n) :: S) r ∧
      get? r.shape "_column" = some n ∧ (∀ j, FitsIn (ent i j).shape r.shape) ∧ ∀ e, ∀ h : e "_column" < n, r.atB e = (ent i ⟨e "_column", h⟩).atB e := by
    intro i
    obtain ⟨r, h1, h2, h3, -, h4, h5⟩ := SA.stack_fits (S := S) (arrays := List.ofFn (ent i)) (by
      intro a ha
      obtain ⟨j, rfl⟩ := List.mem_ofFn.1 ha
      exact hent i j) (by
        intro h
        have := congrArg List.length h
        simp at this
        omega) hcol
    simp only [List.length_ofFn] at h2 h3 h5
    refine ⟨r, h1, h2, h3, fun j => h4 _ (List.mem_ofFn.2 ⟨j, rfl⟩), fun e h => ?_⟩
    rw [h5 e h]
    simp
  choose st hst1 hst2 hst3 hstf hst4 using hone
  have hrow' : "_row" ∉ keys (("_column", n) :: S) := by
    intro h
    rcases List.mem_cons.1 h with h | h
    · exact absurd (show "_row" = "_column" from h) (by decide : ¬ "_row" = "_column")
    · exact hrow h
  obtain ⟨v, v1, v2, v3, v4, vf, v5⟩ := SA.stack_fits (S := ("_column", n) :: S) (arrays := List.ofFn st) (by
      intro a ha
      obtain ⟨j, rfl⟩ := List.mem_ofFn.1 ha
      exact hst2 j) (by
        intro h
        have := congrArg List.length h
        simp at this
        omega) hrow'
  simp only [List.length_ofFn] at v2 v3 v5
  have vc : get? v.shape "_column" = some n := v4 "_column" n (by decide) (by
    intro a ha
    obtain ⟨j, rfl⟩ := List.mem_ofFn.1 ha
    exact hst3 j)
  have hval : ∀ e, ∀ h : e "_row" < n, ∀ h' : e "_column" < n, v.atB e = (ent ⟨e "_row", h⟩ ⟨e "_column", h'⟩).atB e := by
    intro e h h'
    rw [v5 e h]
    simp only [List.getElem_ofFn]
    exact hst4 _ e h'
  have hrc : "_row" ≠ "_column" := by decide
  have hvfit : ∀ i j, FitsIn (ent i j).shape v.shape := fun i j =>
    fitsIn_trans (hstf i j) (vf _ (List.mem_ofFn.2 ⟨i, rfl⟩))
  have hnot : ∀ i j, ∀ x ∈ (ent i j).axes, x ≠ "_row" ∧ x ≠ "_column" := by
    intro i j x hx
    rw [← SA.keys_shape (hent i j).1] at hx
    obtain ⟨m, hm⟩ := exists_get?_of_mem hx
    obtain ⟨k, hk, -⟩ := (hent i j).2 x m hm
    have := mem_keys_of_get? hk
    exact ⟨fun h => hrow (h ▸ this), fun h => hcol (h ▸ this)⟩
  obtain ⟨T, hT'⟩ : ∃ T, T = v.shape.filter (fun p => p.1 ∉ ["_row", "_column"]) := ⟨_, rfl⟩
  have hT : ∀ x, get? T x = if x ∈ ["_row", "_column"] then none else get? v.shape x := by
    intro x
    rw [hT']
    have := get?_filter_key (SA.wf_shape v2.1) (fun x => x ∉ ["_row", "_column"]) x
    rw [this]
    by_cases hx : x ∈ ["_row", "_column"]
    · rw [if_neg (fun h => h hx), if_pos hx]
    · rw [if_pos hx, if_neg hx]
  have hTS : FitsIn T S := by
    intro x m hm
    rw [hT] at hm
    by_cases hx : x ∈ ["_row", "_column"]
    · rw [if_pos hx] at hm; cases hm
    · rw [if_neg hx] at hm
      simp only [List.mem_cons, List.not_mem_nil, or_false, not_or] at hx
      obtain ⟨k, hk, hmk⟩ := v2.2 x m hm
      rw [get?_cons, if_neg (Ne.symm hx.1), get?_cons, if_neg (Ne.symm hx.2)] at hk
      exact ⟨k, hk, hmk⟩
  have hentT : ∀ i j, FitsIn (ent i j).shape T := by
    intro i j x m hm
    obtain ⟨k, hk, hmk⟩ := hvfit i j x m hm
    refine ⟨k, ?_, hmk⟩
    have := hnot i j x (by rw [← SA.keys_shape (hent i j).1]; exact mem_keys_of_get? hm)
    rw [hT, if_neg (by simp [this.1, this.2]), hk]
  have hothers : ∀ e, SA.InOthers v.shape "_row" "_column" e ↔ InRange T e := by
    intro e
    constructor
    · intro h x m hm
      rw [hT] at hm
      by_cases hx : x ∈ ["_row", "_column"]
      · rw [if_pos hx] at hm; cases hm
      · rw [if_neg hx] at hm
        simp only [List.mem_cons, List.not_mem_nil, or_false, not_or] at hx
        exact h x m hx.1 hx.2 hm
    · intro h x m h1 h2 hm
      exact h x m (by rw [hT, if_neg (by simp [h1, h2]), hm])
  have hmat : ∀ e, InRange T e → v.matrixAt "_row" "_column" n e = Matrix.of fun i j => (ent i j).atB e := by
    intro e he
    ext i j
    simp only [SA.matrixAt, Matrix.of_apply]
    have hr : SA.atPair "_row" "_column" e i j "_row" = i := by simp [SA.atPair]
    have hc : SA.atPair "_row" "_column" e i j "_column" = j := by simp [SA.atPair]
    rw [← SA.atB_eq_at' v2.1, hval _ (by rw [hr]; exact i.2) (by rw [hc]; exact j.2)]
    · simp only [hr, hc]
      apply SA.atB_congr
      intro x hx
      have := hnot i j x hx
      simp [SA.atPair, this.1, this.2]
    · intro x m hm
      by_cases h1 : x = "_row"
      · subst h1
        rw [v3] at hm
        cases hm
        rw [hr]; exact i.2
      · by_cases h2 : x = "_column"
        · subst h2
          rw [vc] at hm
          cases hm
          rw [hc]; exact j.2
        · have := (hothers e).2 he x m h1 h2 hm
          simpa [SA.atPair, h1, h2] using this
  have hdetT : ∀ e, InRange T e → (Matrix.of fun i j => (ent i j).atB e).det ≠ 0 := by
    intro e he
    obtain ⟨e', h1, h2⟩ := exists_inRange (K := K) hS hTS he
    have := hdet e' h1
    simpa only [h2 _ (hent _ _).1 (hentT _ _)] using this
  have hmr : "_row" ∈ v.axes := by rw [← SA.keys_shape v2.1]; exact mem_keys_of_get? v3
  have hmc : "_column" ∈ v.axes := by rw [← SA.keys_shape v2.1]; exact mem_keys_of_get? vc
  obtain ⟨b, b1, b2, -, b4, b5⟩ := SA.C96_matrix_inverse v2.1 hmr hmc hrc hinv v3 vc (fun e he => by
    rw [hmat e ((hothers e).1 he)]
    exact hdetT e ((hothers e).1 he))
  have hget : ∀ i j : Fin n, ∃ x, b.getitem [("_row", .int (i : Nat)), ("_column", .int (j : Nat))] = .ok x ∧ x.WF ∧
      Same x.shape T ∧ ∀ e, x.at' e = b.matrixAt "_column" "_row" n e j i := by
    intro i j
    obtain ⟨x, x1, x2, -, x4, x5⟩ := SA.getitem_itemAt b b2 (O := ["_row", "_column"]) (by decide)
      (e := SA.atPair "_row" "_column" (fun _ => 0) i j) (by
        intro ax hax m hm
        rw [b4] at hm
        rcases List.mem_cons.1 hax with rfl | hax
        · rw [v3] at hm
          cases hm
          simp [SA.atPair]
        · rcases List.mem_cons.1 hax with rfl | hax
          · rw [vc] at hm
            cases hm
            simp [SA.atPair]
          · cases hax)
    refine ⟨x, ?_, x2, fun y => by rw [x4, b4, hT], fun e => ?_⟩
    · rw [← x1]
      simp [itemAt, SA.atPair]
    · rw [x5]
      simp only [SA.matrixAt, Matrix.of_apply]
      congr 1
      funext y
      by_cases h1 : y = "_row"
      · simp [SA.atPair, h1]
      · by_cases h2 : y = "_column"
        · simp [SA.atPair, h2]
        · simp [SA.atPair, h1, h2]
  choose X hX1 hX2 hX3 hX4 using hget
  refine ⟨X, ?_, fun i j => ⟨hX2 i j, fun x m hm => hTS x m (by rw [← hX3 i j x]; exact hm)⟩, fun e he => ?_⟩
  · unfold Mat.inverseStack
    have hk : keys (List.ofFn fun i => (rs i, List.ofFn fun j => (cs j, ent i j))) = List.ofFn rs := by
      unfold keys; rw [List.map_ofFn]; rfl
    have hh : keys ((values (List.ofFn fun i => (rs i, List.ofFn fun j => (cs j, ent i j)))).headD []) = List.ofFn cs := by
      obtain ⟨n, rfl⟩ : ∃ k, n = k + 1 := ⟨n - 1, by omega⟩
      rw [List.ofFn_succ]
      show keys (List.ofFn fun j => (cs j, ent 0 j)) = _
      unfold keys; rw [List.map_ofFn]; rfl
    rw [mapM_ofFn (h := st) (fun i => by
      have : values (List.ofFn fun j => (cs j, ent i j)) = List.ofFn (ent i) := by
        unfold values; rw [List.map_ofFn]; rfl
      rw [this]; exact hst1 i)]
    simp only [bind, Except.bind, v1, b1]
    rw [hh, hk, zipIdx_ofFn, zipIdx_ofFn]
    apply mapM_ofFn
    intro i
    simp only
    rw [mapM_ofFn (h := fun j => (rs j, X i j)) (fun j => by simp only [hX1])]
  · obtain ⟨f, hf⟩ : ∃ f : String → Nat, f = fun ax => if get? T ax = some 1 then 0 else e ax := ⟨_, rfl⟩
    have hfT : InRange T f := by
      intro x m hm
      obtain ⟨k, hk, hmk⟩ := hTS x m hm
      have := he x k hk
      rw [hf]
      dsimp only
      rw [hm]
      by_cases h1 : m = 1
      · simp [h1]
      · rw [if_neg (by simpa using h1)]
        omega
    have h1 : ∀ i j, (ent i j).atB f = (ent i j).atB e := by
      intro i j
      have := atB_clip (a := ent i j) (r := X i j) (hent i j).1 (fun x m hm => by
        rw [hX3]; exact hentT i j x m hm) e
      rw [← this, hf]
      congr 1
      funext x
      rw [hX3]
    have h2 : ∀ i j, (X i j).atB e = b.matrixAt "_column" "_row" n f j i := by
      intro i j
      rw [← hX4]
      unfold SA.atB
      congr 1
      rw [hf]
      funext x
      rw [hX3]
    have := (b5 f ((hothers f).2 hfT)).1
    rw [hmat f hfT] at this
    simp only [h1] at this
    rw [← this]
    congr 1
    ext i j
    simp only [Matrix.of_apply, h2]

section inverse
variable [Field K] [DecidableEq K] {inv : Nat → (Nat → Nat → K) → Option (Nat → Nat → K)} {dv : K → K → K} {R C : Finset String}

/-- **C96**: what the inverse of a matrix with four or more rows is: at every named index, its transpose is the inverse of the
matrix.  (The rows of the result are named like the columns of the matrix, as they should be.) -/
theorem C96_inverse_transposed (hinv : Inverter inv) (S : Shape) (hS : ∃ e, InRange S e) (hrow : "_row" ∉ keys S)
    (hcol : "_column" ∉ keys S) (sig : String → Option (List String)) (M : Mat (SA K)) (hM : IsMat (inShape S) R C M.rows)
    (hs : ∀ cls l, (leavesL M.rows).head? = some (.node cls l) → SigOk sig M.cls (keys l))
    {n : Nat} (hn : 4 ≤ n) (rs cs : Fin n → String) (hord : Ordered M (List.ofFn rs) (List.ofFn cs))
    (hdet : ∀ e, InRange S e → (toMatrix (fun a => a.atB e) M rs cs).det ≠ 0) :
    ∃ P, M.inverseNamed dv inv sig = .ok P ∧ P.cls = M.cls ∧ IsMat (inShape S) C R P.rows ∧
      ∀ e, InRange S e → toMatrix (fun a => a.atB e) M rs cs * (toMatrix (fun a => a.atB e) P cs rs).transpose = 1 := by
  obtain ⟨-, -, hir, hic⟩ := ordered_names (by omega) hM hord
  have hnorm : ∀ rows : Dict (Dict (SA K)), keys rows = List.ofFn rs → (∀ p ∈ rows, keys p.2 = List.ofFn cs ∧ ∀ q ∈ p.2, inShape S q.2) →
      ∃ ent : Fin n → Fin n → SA K, rows = (List.ofFn fun i => (rs i, List.ofFn fun j => (cs j, ent i j))) ∧
        ∀ i j, inShape S (ent i j) := by
    intro rows hk hp
    obtain ⟨f, hf⟩ := eq_ofFn hk
    have h1 : ∀ i, keys (f i) = List.ofFn cs ∧ ∀ q ∈ f i, inShape S q.2 := fun i =>
      hp (rs i, f i) (by rw [hf]; exact List.mem_ofFn.2 ⟨i, rfl⟩)
    choose ent hent using fun i => eq_ofFn (h1 i).1
    refine ⟨ent, ?_, fun i j => (h1 i).2 (cs j, ent i j) (by rw [hent i]; exact List.mem_ofFn.2 ⟨j, rfl⟩)⟩
    rw [hf]
    congr 1
    funext i
    rw [hent i]
  have hlook : ∀ (u w : Fin n → String), Function.Injective u → Function.Injective w → ∀ (N : Mat (SA K)) (x : Fin n → Fin n → SA K),
      (∀ r c, entry N.rows r c = (get? (List.ofFn fun i => (u i, List.ofFn fun j => (w j, x i j))) r).bind (fun d => get? d c)) →
      ∀ e, toMatrix (fun a => a.atB e) N u w = Matrix.of fun i j => (x i j).atB e := by
    intro u w hu hw N x h e
    ext i j
    simp only [toMatrix, Matrix.of_apply, mval, h]
    rw [get?_ofFn hu (fun i => List.ofFn fun j => (w j, x i j)) i]
    simp only [Option.bind_some]
    rw [get?_ofFn hw (fun j => x i j) j]
    rfl
  have hflat : ∀ rows : Dict (Dict (SA K)), keys rows = List.ofFn rs → (∀ p ∈ rows, keys p.2 = List.ofFn cs ∧ ∀ q ∈ p.2, inShape S q.2) →
      (∀ r c, (get? rows r).bind (fun d => get? d c) = entry M.rows r c) →
      ∃ X : Fin n → Fin n → SA K, (if rows.length ∈ [1, 2, 3] then Mat.inverseFlat (Ops.named dv) rows else Mat.inverseStack inv rows) =
          .ok (List.ofFn fun i => (cs i, List.ofFn fun j => (rs j, X i j))) ∧ (∀ i j, inShape S (X i j)) ∧
        ∀ e, InRange S e → toMatrix (fun a => a.atB e) M rs cs * (Matrix.of fun i j => (X j i).atB e) = 1 := by
    intro rows hk hp hentry
    obtain ⟨ent, rfl, h2⟩ := hnorm rows hk hp
    have hmat := hlook rs cs hir hic M ent (fun r c => (hentry r c).symm)
    obtain ⟨X, x1, x2, x3⟩ := inverseStack_main hinv hS hrow hcol (by omega) rs cs ent h2 (fun e he => by
      rw [← hmat]; exact hdet e he)
    refine ⟨X, ?_, x2, fun e he => by rw [hmat]; exact x3 e he⟩
    rw [if_neg, x1]
    simp only [List.length_ofFn, List.mem_cons, List.not_mem_nil, or_false]
    omega
  obtain ⟨rows, P, res, h1, h2, h3, h4, h5, h6, h7, h8⟩ := inverse_of_flat
    (flat := fun rows => if rows.length ∈ [1, 2, 3] then Mat.inverseFlat (Ops.named dv) rows else Mat.inverseStack inv rows)
    (o := Ops.named dv) hM hs hord (by simp) (by
      intro h
      have := congrArg List.length h
      simp at this
      omega) (fun rows hk hp hentry => by
      obtain ⟨X, x1, x2, -⟩ := hflat rows hk hp hentry
      refine ⟨_, x1, by unfold keys; rw [List.map_ofFn]; rfl, ?_⟩
      intro p hp
      obtain ⟨i, rfl⟩ := List.mem_ofFn.1 hp
      refine ⟨by unfold keys; rw [List.map_ofFn]; rfl, ?_⟩
      intro q hq
      obtain ⟨j, rfl⟩ := List.mem_ofFn.1 hq
      exact x2 i j)
  obtain ⟨X, x1, -, x3⟩ := hflat rows h2 h3 h1
  rw [h4] at x1
  injection x1 with x1
  subst x1
  refine ⟨P, h5, h6, h7.1, fun e he => ?_⟩
  rw [hlook cs rs hic hir P X h8 e]
  exact x3 e he

/-- **C96**: the inverse of a matrix with four or more rows is right exactly for symmetric matrices. -/
theorem C96_inverse_iff (hinv : Inverter inv) (S : Shape) (hS : ∃ e, InRange S e) (hrow : "_row" ∉ keys S)
    (hcol : "_column" ∉ keys S) (sig : String → Option (List String)) (M : Mat (SA K)) (hM : IsMat (inShape S) R C M.rows)
    (hs : ∀ cls l, (leavesL M.rows).head? = some (.node cls l) → SigOk sig M.cls (keys l))
    {n : Nat} (hn : 4 ≤ n) (rs cs : Fin n → String) (hord : Ordered M (List.ofFn rs) (List.ofFn cs))
    (hdet : ∀ e, InRange S e → (toMatrix (fun a => a.atB e) M rs cs).det ≠ 0) :
    ∃ P, M.inverseNamed dv inv sig = .ok P ∧ ∀ e, InRange S e →
      (toMatrix (fun a => a.atB e) M rs cs * toMatrix (fun a => a.atB e) P cs rs = 1 ↔
        ∀ i j, mval (fun a => a.atB e) M.rows (rs i) (cs j) = mval (fun a => a.atB e) M.rows (rs j) (cs i)) := by
  obtain ⟨P, h1, -, -, h4⟩ := C96_inverse_transposed (dv := dv) hinv S hS hrow hcol sig M hM hs hn rs cs hord hdet
  refine ⟨P, h1, fun e he => ?_⟩
  have h := h4 e he
  obtain ⟨A, hA⟩ : ∃ A, A = toMatrix (fun a => a.atB e) M rs cs := ⟨_, rfl⟩
  obtain ⟨X, hX⟩ : ∃ X, X = toMatrix (fun a => a.atB e) P cs rs := ⟨_, rfl⟩
  have hsymm : (∀ i j, mval (fun a => a.atB e) M.rows (rs i) (cs j) = mval (fun a => a.atB e) M.rows (rs j) (cs i)) ↔ A.transpose = A := by
    rw [hA]
    constructor
    · intro h
      ext i j
      exact h j i
    · intro h i j
      exact congrFun (congrFun h j) i
  rw [hsymm, ← hA, ← hX]
  rw [← hA, ← hX] at h
  have h' : X * A.transpose = 1 := by
    have := congrArg Matrix.transpose h
    rwa [Matrix.transpose_mul, Matrix.transpose_transpose, Matrix.transpose_one] at this
  constructor
  · intro hAX
    calc A.transpose = (A * X) * A.transpose := by rw [hAX, one_mul]
      _ = A := by rw [mul_assoc, h', mul_one]
  · intro hs
    rw [hs] at h'
    exact mul_eq_one_comm.1 h'

/-- **C96**: the inverse of a symmetric matrix with four or more rows is a two-sided inverse. -/
theorem C96_inverse_symmetric_partial (hinv : Inverter inv) (S : Shape) (hS : ∃ e, InRange S e) (hrow : "_row" ∉ keys S)
    (hcol : "_column" ∉ keys S) (sig : String → Option (List String)) (M : Mat (SA K)) (hM : IsMat (inShape S) R C M.rows)
    (hs : ∀ cls l, (leavesL M.rows).head? = some (.node cls l) → SigOk sig M.cls (keys l))
    {n : Nat} (hn : 4 ≤ n) (rs cs : Fin n → String) (hord : Ordered M (List.ofFn rs) (List.ofFn cs))
    (hdet : ∀ e, InRange S e → (toMatrix (fun a => a.atB e) M rs cs).det ≠ 0)
    (hsym : ∀ e, InRange S e → ∀ i j, mval (fun a => a.atB e) M.rows (rs i) (cs j) = mval (fun a => a.atB e) M.rows (rs j) (cs i)) :
    ∃ P, M.inverseNamed dv inv sig = .ok P ∧ ∀ e, InRange S e →
      toMatrix (fun a => a.atB e) M rs cs * toMatrix (fun a => a.atB e) P cs rs = 1 ∧
      toMatrix (fun a => a.atB e) P cs rs * toMatrix (fun a => a.atB e) M rs cs = 1 := by
  obtain ⟨P, h1, h2⟩ := C96_inverse_iff (dv := dv) hinv S hS hrow hcol sig M hM hs hn rs cs hord hdet
  refine ⟨P, h1, fun e he => ?_⟩
  have := (h2 e he).2 (hsym e he)
  exact ⟨this, mul_eq_one_comm.1 this⟩

/-- **C96**: matrices with at most three rows are inverted without numpy (see C39). -/
theorem C96_inverse_small (sig : String → Option (List String)) (M : Mat (SA K)) {n : Nat} (hn : 1 ≤ n ∧ n ≤ 3)
    (rs cs : Fin n → String) (hord : Ordered M (List.ofFn rs) (List.ofFn cs)) :
    M.inverseNamed dv inv sig = M.inverse (Ops.named dv) sig := by
  obtain ⟨rows, a1, a2⟩ := mapDict_ok (d := cartesianNd M.rows) (g := fun p => p.2.flatRow) (by
    intro p hp
    obtain ⟨cls, l, h, _⟩ := hord.2 p hp
    exact ⟨cartesianNd l, by rw [h]; rfl⟩)
  have hlen : rows.length = n := by
    have := congrArg List.length ((keys_of_steps a2).trans hord.1)
    simpa [keys] using this
  unfold Mat.inverseNamed Mat.inverse Mat.inverseWith
  cases M.isSquare with
  | error e => rfl
  | ok b =>
    cases b with
    | false => rfl
    | true =>
      simp only [bind, Except.bind, if_true] at a1 ⊢
      simp only [a1]
      rw [if_pos (by rw [hlen]; simp; omega)]

end inverse

/-! ### Cases which meet the hypotheses -/

/-- the names of four components -/
abbrev abcd : Fin 4 → String := ![ "a", "b", "c", "d" ]

/-- A matrix with four rows and four columns. -/
def mk4 {α : Type} (f : Fin 4 → Fin 4 → α) : Mat α := ⟨"CartesianNd", List.ofFn fun i =>
  (abcd i, .leaf (.node "CartesianNd" (List.ofFn fun j => (abcd j, .leaf (f i j)))))⟩

theorem isMat_mk4 {α : Type} {good : α → Prop} {f : Fin 4 → Fin 4 → α} (hf : ∀ i j, good (f i j)) :
    IsMat good {"a", "b", "c", "d"} {"a", "b", "c", "d"} (mk4 f).rows := by
  have hrow : ∀ i, IsVec good {"a", "b", "c", "d"} (.node "CartesianNd" (List.ofFn fun j => (abcd j, .leaf (f i j)))) := by
    intro i
    refine ⟨_, _, rfl, (by decide : (["a", "b", "c", "d"] : List String).Nodup),
      ⟨by decide, trivial, by decide, trivial, by decide, trivial, by decide, trivial, trivial⟩, ?_, ?_,
      by simp, trivial, trivial, trivial, trivial, trivial⟩
    · show (["a", "b", "c", "d"] : List String).toFinset = _
      decide
    · show ∀ p ∈ [("a", f i 0), ("b", f i 1), ("c", f i 2), ("d", f i 3)], good p.2
      simp [hf]
  refine ⟨(by decide : (["a", "b", "c", "d"] : List String).Nodup),
    ⟨by decide, trivial, by decide, trivial, by decide, trivial, by decide, trivial, trivial⟩,
    ⟨by simp [mk4], trivial, trivial, trivial, trivial, trivial⟩, ?_, ?_⟩
  · show (["a", "b", "c", "d"] : List String).toFinset = _
    decide
  · show ∀ p ∈ [("a", Comp.node "CartesianNd" (List.ofFn fun j => (abcd j, .leaf (f 0 j)))),
      ("b", Comp.node "CartesianNd" (List.ofFn fun j => (abcd j, .leaf (f 1 j)))),
      ("c", Comp.node "CartesianNd" (List.ofFn fun j => (abcd j, .leaf (f 2 j)))),
      ("d", Comp.node "CartesianNd" (List.ofFn fun j => (abcd j, .leaf (f 3 j))))], IsVec good _ p.2
    intro p hp
    simp only [List.mem_cons, List.not_mem_nil, or_false] at hp
    rcases hp with rfl | rfl | rfl | rfl <;> exact hrow _

theorem ordered_mk4 {α : Type} (f : Fin 4 → Fin 4 → α) : Ordered (mk4 f) (List.ofFn abcd) (List.ofFn abcd) := by
  refine ⟨rfl, ?_⟩
  show ∀ p ∈ [("a", Comp.node "CartesianNd" (List.ofFn fun j => (abcd j, .leaf (f 0 j)))),
    ("b", Comp.node "CartesianNd" (List.ofFn fun j => (abcd j, .leaf (f 1 j)))),
    ("c", Comp.node "CartesianNd" (List.ofFn fun j => (abcd j, .leaf (f 2 j)))),
    ("d", Comp.node "CartesianNd" (List.ofFn fun j => (abcd j, .leaf (f 3 j))))], _
  intro p hp
  simp only [List.mem_cons, List.not_mem_nil, or_false] at hp
  rcases hp with rfl | rfl | rfl | rfl <;> exact ⟨_, _, rfl, rfl⟩

theorem toMatrix_mk4 [Zero K] {α : Type} (val : α → K) (f : Fin 4 → Fin 4 → α) :
    toMatrix val (mk4 f) abcd abcd = Matrix.of fun i j => val (f i j) := by
  ext i j
  fin_cases i <;> fin_cases j <;> rfl

/-- `1` and `2` along the axis `t` -/
def exGrow : SA ℚ := ⟨["t"], ⟨[2], fun i => (i.headD 0 : Nat) + 1⟩⟩

/-- The identity, with `1` and `2` at the two positions of the axis `t` as a further entry in the row `a` and the column `b`. -/
def exShear : Mat (SA ℚ) := mk4 fun i j =>
  if i = 0 ∧ j = 1 then exGrow else if i = j then SA.scalar 1 else SA.scalar 0

/-- The assumption about numpy can be met. -/
theorem exists_inverter (K : Type) [Field K] : ∃ inv : Nat → (Nat → Nat → K) → Option (Nat → Nat → K), Inverter inv := by
  classical
  refine ⟨fun n A => if (Matrix.of fun i j : Fin n => A i j).det = 0 then none else
    some fun i j => if h : i < n ∧ j < n then (Matrix.of fun i j : Fin n => A i j)⁻¹ ⟨i, h.1⟩ ⟨j, h.2⟩ else 0, ?_, ?_⟩
  · intro n A B h
    split at h
    · cases h
    · next hd =>
      injection h with h
      have hB : (Matrix.of fun i j : Fin n => B i j) = (Matrix.of fun i j : Fin n => A i j)⁻¹ := by
        ext i j
        rw [Matrix.of_apply, ← h]
        exact dif_pos ⟨i.2, j.2⟩
      rw [hB, Matrix.mul_nonsing_inv _ (isUnit_iff_ne_zero.2 hd)]
  · intro n A hd
    rw [if_neg hd]
    rfl

theorem exShear_matrix (e : String → Nat) : toMatrix (fun a => a.atB e) exShear abcd abcd =
    !![1, exGrow.atB e, 0, 0; 0, 1, 0, 0; 0, 0, 1, 0; 0, 0, 0, 1] := by
  unfold exShear
  rw [toMatrix_mk4]
  ext i j
  fin_cases i <;> fin_cases j <;> rfl

theorem exShear_det (e : String → Nat) : (toMatrix (fun a => a.atB e) exShear abcd abcd).det = 1 := by
  rw [exShear_matrix]
  simp [Matrix.det_succ_row_zero, Fin.sum_univ_succ, Fin.succAbove]

theorem exShear_isMat : IsMat (inShape [("t", 2)]) {"a", "b", "c", "d"} {"a", "b", "c", "d"} exShear.rows := by
  apply isMat_mk4
  intro i j
  split_ifs
  · exact ⟨⟨rfl, by decide⟩, fun x m hm => ⟨m, hm, .inl rfl⟩⟩
  · exact scalar_fits _ _
  · exact scalar_fits _ _

/-- **C96** does not hold for matrices with four rows: the inverse of a shear is not its inverse. -/
theorem C96_inverse_refuted {inv : Nat → (Nat → Nat → ℚ) → Option (Nat → Nat → ℚ)} (hinv : Inverter inv) (dv : ℚ → ℚ → ℚ) :
    ∃ P, exShear.inverseNamed dv inv (fun _ => none) = .ok P ∧
      ∀ e, InRange [("t", 2)] e → toMatrix (fun a => a.atB e) exShear abcd abcd * toMatrix (fun a => a.atB e) P abcd abcd ≠ 1 := by
  obtain ⟨P, h1, h2⟩ := C96_inverse_iff (dv := dv) hinv [("t", 2)] ⟨fun _ => 0, by
      intro x m hm
      rw [get?_cons] at hm
      split at hm
      · cases hm; exact Nat.succ_pos 1
      · cases hm⟩ (by decide) (by decide) (fun _ => none) exShear exShear_isMat (fun _ _ _ => .inl rfl) le_rfl abcd abcd (ordered_mk4 _)
    (fun e _ => by rw [exShear_det]; exact one_ne_zero)
  refine ⟨P, h1, fun e he h => ?_⟩
  have h3 := (h2 e he).1 h 0 1
  have h4 := congrFun (congrFun (exShear_matrix e) 0) 1
  have h5 := congrFun (congrFun (exShear_matrix e) 1) 0
  simp only [toMatrix, Matrix.of_apply] at h4 h5
  rw [h4, h5] at h3
  have ht : e "t" < 2 := he "t" 2 rfl
  have hv : exGrow.atB e ≠ 0 := Nat.cast_add_one_ne_zero _
  exact hv h3

/-- An array of three matrices with two rows: the determinants are `1`, `2` and `3`. -/
def exTwoRows : SA ℚ := ⟨["r", "s", "c"], ⟨[2, 3, 2], fun i =>
  if i.getD 0 0 = i.getD 2 0 then (if i.getD 0 0 = 0 then (i.getD 1 0 : Nat) + 1 else 1) else 0⟩⟩

example : exTwoRows.WF ∧ "r" ∈ exTwoRows.axes ∧ "c" ∈ exTwoRows.axes ∧ get? exTwoRows.shape "r" = some 2 ∧
    get? exTwoRows.shape "c" = some 2 ∧ (∀ e, SA.InOthers exTwoRows.shape "r" "c" e → (exTwoRows.matrixAt "r" "c" 2 e).det ≠ 0) ∧
    (exTwoRows.matrixDeterminant "r" "c").map (fun d => (d.axes, d.nd.toList)) = .ok (["s"], [1, 2, 3]) := by
  refine ⟨⟨rfl, by decide⟩, by decide, by decide, rfl, rfl, fun e _ => ?_, by decide +kernel⟩
  rw [Matrix.det_fin_two]
  have h00 : exTwoRows.matrixAt "r" "c" 2 e 0 0 = (e "s" : Nat) + 1 := rfl
  have h01 : exTwoRows.matrixAt "r" "c" 2 e 0 1 = 0 := rfl
  have h11 : exTwoRows.matrixAt "r" "c" 2 e 1 1 = 1 := rfl
  rw [h00, h01, h11, mul_one, zero_mul, sub_zero]
  exact Nat.cast_add_one_ne_zero _

/-- A symmetric matrix with four rows. -/
def exDiagonal : Mat (SA ℚ) := mk4 fun i j => if i = j then (if i = 0 then exGrow else SA.scalar 1) else SA.scalar 0

example : ∃ P inv, Inverter inv ∧ exDiagonal.inverseNamed (· / ·) inv (fun _ => none) = .ok P ∧ ∀ e, InRange [("t", 2)] e →
    toMatrix (fun a => a.atB e) exDiagonal abcd abcd * toMatrix (fun a => a.atB e) P abcd abcd = 1 := by
  obtain ⟨inv, hinv⟩ := exists_inverter ℚ
  have hm : ∀ e, toMatrix (fun a => a.atB e) exDiagonal abcd abcd =
      !![exGrow.atB e, 0, 0, 0; 0, 1, 0, 0; 0, 0, 1, 0; 0, 0, 0, 1] := by
    intro e
    unfold exDiagonal
    rw [toMatrix_mk4]
    ext i j
    fin_cases i <;> fin_cases j <;> rfl
  obtain ⟨P, h1, h2⟩ := C96_inverse_symmetric_partial (dv := (· / ·)) hinv [("t", 2)] ⟨fun _ => 0, by
      intro x m hm
      rw [get?_cons] at hm
      split at hm
      · cases hm; exact Nat.succ_pos 1
      · cases hm⟩ (by decide) (by decide) (fun _ => none) exDiagonal (isMat_mk4 (by
        intro i j
        split_ifs
        · exact ⟨⟨rfl, by decide⟩, fun x m hm => ⟨m, hm, .inl rfl⟩⟩
        · exact scalar_fits _ _
        · exact scalar_fits _ _)) (fun _ _ _ => .inl rfl) le_rfl abcd abcd (ordered_mk4 _)
    (fun e _ => by
      rw [hm]
      have : exGrow.atB e ≠ 0 := Nat.cast_add_one_ne_zero _
      simpa [Matrix.det_succ_row_zero, Fin.sum_univ_succ, Fin.succAbove] using this)
    (fun e _ i j => by
      have h1 := congrFun (congrFun (hm e) i) j
      have h2 := congrFun (congrFun (hm e) j) i
      simp only [toMatrix, Matrix.of_apply] at h1 h2
      rw [h1, h2]
      fin_cases i <;> fin_cases j <;> rfl)
  exact ⟨P, inv, hinv, h1, fun e he => (h2 e he).1⟩

/-- A singular matrix among regular ones. -/
def exSingular : SA ℚ := ⟨["r", "s", "c"], ⟨[2, 3, 2], fun i =>
  if i.getD 0 0 = i.getD 2 0 then (if i.getD 0 0 = 0 then (i.getD 1 0 : Nat) else 1) else 0⟩⟩

example (inv : Nat → (Nat → Nat → ℚ) → Option (Nat → Nat → ℚ)) (hinv : Inverter inv) :
    exSingular.matrixInverse inv "r" "c" = .error .other := by
  refine SA.C96_matrix_inverse_error ⟨rfl, by decide⟩ (by decide) (by decide) (by decide) hinv (n := 2) (m := 2) rfl rfl
    (.inr ⟨fun _ => 0, fun x m h1 h2 hm => ?_, ?_⟩)
  · show 0 < m
    have : x = "s" := by
      have := mem_keys_of_get? hm
      simp only [show keys exSingular.shape = ["r", "s", "c"] from rfl, List.mem_cons, List.not_mem_nil, or_false] at this
      tauto
    subst this
    cases hm
    decide
  · rw [Matrix.det_fin_two]
    have h00 : exSingular.matrixAt "r" "c" 2 (fun _ => 0) 0 0 = 0 := rfl
    have h01 : exSingular.matrixAt "r" "c" 2 (fun _ => 0) 0 1 = 0 := rfl
    rw [h00, h01, zero_mul, zero_mul, sub_zero]

example : exTwoRows.matrixDeterminant "r" "x" = .error .keyError ∧ exTwoRows.matrixDeterminant "r" "s" = .error .valueError ∧
    ("x" ∉ exTwoRows.axes) := ⟨rfl, rfl, by decide⟩

end NA
