import Verif.ND
import Verif.ShapeLemmas
import Mathlib.Tactic.Ring

/-! Helper lemmas about the numpy primitives. -/

namespace NA
namespace ND
variable {α β : Type}

theorem equiv_refl (a : ND α) : Equiv a a := ⟨rfl, fun _ _ => rfl⟩
theorem Equiv.symm {a b : ND α} (h : Equiv a b) : Equiv b a :=
  ⟨h.1.symm, fun i hi => (h.2 i (h.1 ▸ hi)).symm⟩
theorem Equiv.trans {a b c : ND α} (h : Equiv a b) (h' : Equiv b c) : Equiv a c :=
  ⟨h.1.trans h'.1, fun i hi => (h.2 i hi).trans (h'.2 i (h.1 ▸ hi))⟩

theorem inRange_length {s i : List Nat} (h : InRange s i) : i.length = s.length := h.length_eq

theorem inRange_iff {s i : List Nat} :
    InRange s i ↔ i.length = s.length ∧ ∀ (k : Nat) (h : k < i.length) (h' : k < s.length), i[k] < s[k] := by
  unfold InRange
  rw [List.forall₂_iff_get]
  simp

theorem length_unravel (s : List Nat) (k : Nat) : (unravel s k).length = s.length := by
  induction s generalizing k with
  | nil => rfl
  | cons n s ih => simp [unravel, ih]

theorem ravel_lt {s i : List Nat} (h : InRange s i) : ravel s i < s.prod := by
  induction h with
  | nil => simp [ravel]
  | @cons a n is s h1 _ ih =>
    simp only [ravel, List.prod_cons]
    calc a * s.prod + ravel s is < a * s.prod + s.prod := by omega
      _ = (a + 1) * s.prod := by ring
      _ ≤ n * s.prod := Nat.mul_le_mul_right _ h1

theorem unravel_ravel {s i : List Nat} (h : InRange s i) : unravel s (ravel s i) = i := by
  induction h with
  | nil => rfl
  | @cons a n is s h1 h2 ih =>
    have hlt := ravel_lt h2
    simp only [ravel, unravel]
    rw [Nat.mul_comm, Nat.mul_add_div (by omega), Nat.div_eq_of_lt hlt, Nat.mul_add_mod,
      Nat.mod_eq_of_lt hlt, ih]
    simp

theorem inRange_unravel {s : List Nat} {k : Nat} (h : k < s.prod) : InRange s (unravel s k) := by
  induction s generalizing k with
  | nil => exact .nil
  | cons n s ih =>
    simp only [List.prod_cons] at h
    have hs : 0 < s.prod := by
      rcases Nat.eq_zero_or_pos s.prod with h0 | h0
      · rw [h0] at h; simp at h
      · exact h0
    refine .cons ?_ (ih (Nat.mod_lt _ hs))
    exact Nat.div_lt_of_lt_mul (by rw [Nat.mul_comm]; exact h)

theorem ravel_unravel {s : List Nat} {k : Nat} (h : k < s.prod) : ravel s (unravel s k) = k := by
  induction s generalizing k with
  | nil => simp at h; simp [ravel, h]
  | cons n s ih =>
    simp only [List.prod_cons] at h
    have hs : 0 < s.prod := by
      rcases Nat.eq_zero_or_pos s.prod with h0 | h0
      · rw [h0] at h; simp at h
      · exact h0
    simp only [unravel, ravel]
    rw [ih (Nat.mod_lt _ hs), Nat.mul_comm]
    exact Nat.div_add_mod _ _

theorem length_ndIndices (s : List Nat) : (ndIndices s).length = s.prod := by
  induction s with
  | nil => rfl
  | cons n s ih =>
    simp [ndIndices, List.length_flatMap, ih]

theorem getElem?_flatMap_const {γ δ : Type} (l : List γ) (f : γ → List δ) (m : Nat)
    (hf : ∀ x ∈ l, (f x).length = m) (a b : Nat) (hb : b < m) :
    (l.flatMap f)[a * m + b]? = l[a]?.bind (fun x => (f x)[b]?) := by
  induction l generalizing a with
  | nil => simp
  | cons x l ih =>
    have hx : (f x).length = m := hf x (by simp)
    rw [List.flatMap_cons]
    cases a with
    | zero =>
      rw [List.getElem?_append_left (by omega)]
      simp
    | succ a =>
      rw [List.getElem?_append_right (by rw [hx, Nat.succ_mul]; omega)]
      have : (a + 1) * m + b - (f x).length = a * m + b := by
        rw [hx, Nat.succ_mul]; omega
      rw [this, ih (fun y hy => hf y (by simp [hy]))]
      simp

/-- The `k`-th multi-index in row-major order is `unravel s k`. -/
theorem getElem?_ndIndices {s : List Nat} {k : Nat} (h : k < s.prod) :
    (ndIndices s)[k]? = some (unravel s k) := by
  induction s generalizing k with
  | nil => simp at h; subst h; rfl
  | cons n s ih =>
    simp only [List.prod_cons] at h
    have hs : 0 < s.prod := by
      rcases Nat.eq_zero_or_pos s.prod with h0 | h0
      · rw [h0] at h; simp at h
      · exact h0
    have hk : k = (k / s.prod) * s.prod + k % s.prod := by
      rw [Nat.mul_comm]; exact (Nat.div_add_mod _ _).symm
    have hd : k / s.prod < n := Nat.div_lt_of_lt_mul (by rw [Nat.mul_comm]; exact h)
    have hm : k % s.prod < s.prod := Nat.mod_lt _ hs
    simp only [ndIndices, unravel]
    conv => lhs; rw [hk]
    rw [getElem?_flatMap_const _ _ s.prod (by simp [length_ndIndices]) _ _ hm,
      List.getElem?_range hd]
    simp [ih hm]

theorem ndIndices_eq_map_unravel (s : List Nat) :
    ndIndices s = (List.range s.prod).map (unravel s) := by
  apply List.ext_getElem?
  intro k
  by_cases h : k < s.prod
  · rw [getElem?_ndIndices h, List.getElem?_map, List.getElem?_range h]; rfl
  · rw [List.getElem?_eq_none (by rw [length_ndIndices]; omega),
      List.getElem?_eq_none (by simp; omega)]

theorem length_toList (a : ND α) : a.toList.length = a.shape.prod := by
  simp [toList, length_ndIndices]

theorem toList_getElem? {a : ND α} {k : Nat} (h : k < a.shape.prod) :
    a.toList[k]? = some (a.get (unravel a.shape k)) := by
  simp [toList, getElem?_ndIndices h]

theorem equiv_iff_toList {a b : ND α} : Equiv a b ↔ a.shape = b.shape ∧ a.toList = b.toList := by
  constructor
  · rintro ⟨h1, h2⟩
    refine ⟨h1, ?_⟩
    unfold toList
    rw [← h1]
    exact List.map_congr_left (fun i hi => h2 i (mem_ndIndices.1 hi))
  · rintro ⟨h1, h2⟩
    refine ⟨h1, fun i hi => ?_⟩
    have hr := ravel_lt hi
    have ha := toList_getElem? hr
    have hb := toList_getElem? (a := b) (k := ravel a.shape i) (by rw [← h1]; exact hr)
    rw [h2, hb, ← h1, unravel_ravel hi] at ha
    exact (Option.some.inj ha).symm

/-! ### moveaxis -/

theorem insertLoop_perm (r : List Nat) (ps : List (Nat × Nat)) :
    (insertLoop r ps).Perm (r ++ ps.map Prod.snd) := by
  unfold insertLoop
  induction ps generalizing r with
  | nil => simp
  | cons p ps ih =>
    rw [List.foldl_cons]
    refine (ih _).trans ?_
    have h : (r.take p.1 ++ p.2 :: r.drop p.1).Perm (p.2 :: r) := by
      refine List.perm_middle.trans ?_
      rw [List.take_append_drop]
    refine (h.append_right _).trans ?_
    simp only [List.map_cons]
    exact List.perm_middle.symm

theorem insertLoop_preserve {r : List Nat} {ps : List (Nat × Nat)} {i : Nat}
    (hi : ∀ p ∈ ps, i < p.1) (hl : i < r.length) : (insertLoop r ps)[i]? = r[i]? := by
  unfold insertLoop
  induction ps generalizing r with
  | nil => rfl
  | cons p ps ih =>
    rw [List.foldl_cons]
    have hp := hi p (by simp)
    rw [ih (fun q hq => hi q (by simp [hq])) (by simp; omega)]
    rw [List.getElem?_append_left (by simp; omega), List.getElem?_take_of_lt hp]

theorem head_add_length_le {l : List Nat} {B : Nat} (hs : l.Pairwise (· < ·)) (hB : ∀ x ∈ l, x < B)
    {a : Nat} {t : List Nat} (h : l = a :: t) : a + l.length ≤ B := by
  induction l generalizing a t with
  | nil => cases h
  | cons x l ih =>
    injection h with h1 h2
    subst h1; subst h2
    cases l with
    | nil => have := hB x (by simp); simp; omega
    | cons b t =>
      have h1 := ih (List.Pairwise.of_cons hs) (fun y hy => hB y (by simp [hy])) rfl
      have h2 : x < b := List.rel_of_pairwise_cons hs (by simp)
      simp at h1 ⊢
      omega

theorem insertLoop_get {r : List Nat} {ps : List (Nat × Nat)}
    (hs : (ps.map Prod.fst).Pairwise (· < ·)) (hB : ∀ p ∈ ps, p.1 < r.length + ps.length)
    {d s : Nat} (hp : (d, s) ∈ ps) : (insertLoop r ps)[d]? = some s := by
  induction ps generalizing r with
  | nil => cases hp
  | cons p ps ih =>
    have hle : p.1 ≤ r.length := by
      have := head_add_length_le (B := r.length + (p :: ps).length) hs
        (by intro x hx; obtain ⟨q, hq, rfl⟩ := List.mem_map.1 hx; exact hB q hq) rfl
      simp at this
      omega
    have hlt : ∀ q ∈ ps, p.1 < q.1 := fun q hq =>
      List.rel_of_pairwise_cons hs (List.mem_map.2 ⟨q, hq, rfl⟩)
    have hl : (r.take p.1 ++ p.2 :: r.drop p.1).length = r.length + 1 := by
      simp; omega
    have hstep : insertLoop r (p :: ps) = insertLoop (r.take p.1 ++ p.2 :: r.drop p.1) ps := rfl
    rw [hstep]
    rcases List.mem_cons.1 hp with rfl | hp
    · rw [insertLoop_preserve hlt (by rw [hl]; omega)]
      simp only at hle ⊢
      rw [List.getElem?_append_right (by simp)]
      simp [Nat.min_eq_left hle]
    · apply ih (List.Pairwise.of_cons hs) _ hp
      intro q hq
      have := hB q (by simp [hq])
      rw [hl]
      simp at this
      omega

theorem sortedPairs {source destination : List Nat} (hd : destination.Nodup)
    (hl : source.length = destination.length) :
    let ps := List.insertionSort (fun p q : Nat × Nat => p.1 ≤ q.1) (destination.zip source)
    (ps.map Prod.fst).Pairwise (· < ·) ∧ ps.Perm (destination.zip source) := by
  intro ps
  have hperm : ps.Perm (destination.zip source) := List.perm_insertionSort _ _
  refine ⟨?_, hperm⟩
  have hle : ps.Pairwise (fun p q => p.1 ≤ q.1) := by
    have : Std.Total (fun p q : Nat × Nat => p.1 ≤ q.1) := ⟨fun a b => Nat.le_total _ _⟩
    have : IsTrans (Nat × Nat) (fun p q : Nat × Nat => p.1 ≤ q.1) := ⟨fun a b c => Nat.le_trans⟩
    exact List.pairwise_insertionSort _ _
  have hnd : (ps.map Prod.fst).Nodup := by
    have h1 : (ps.map Prod.fst).Perm destination := by
      have := hperm.map Prod.fst
      rwa [List.map_fst_zip (by omega)] at this
    exact h1.nodup_iff.2 hd
  rw [List.pairwise_map]
  rw [List.Nodup, List.pairwise_map] at hnd
  exact (hle.and hnd).imp (fun h => by omega)

/-- Valid arguments of `np.moveaxis`. -/
structure MoveValid (n : Nat) (source destination : List Nat) : Prop where
  src_nodup : source.Nodup
  dst_nodup : destination.Nodup
  src_lt : ∀ s ∈ source, s < n
  dst_lt : ∀ d ∈ destination, d < n
  len : source.length = destination.length

theorem length_filter_not_mem {n : Nat} {source : List Nat} (h1 : source.Nodup)
    (h2 : ∀ s ∈ source, s < n) :
    ((List.range n).filter (· ∉ source)).length + source.length = n := by
  have hp : (((List.range n).filter (· ∉ source)) ++ source).Perm (List.range n) := by
    rw [List.perm_ext_iff_of_nodup]
    · intro a
      simp only [List.mem_append, List.mem_filter, List.mem_range]
      constructor
      · rintro (h | h)
        · exact h.1
        · exact h2 a h
      · intro h
        by_cases ha : a ∈ source
        · exact Or.inr ha
        · exact Or.inl ⟨h, by simpa using ha⟩
    · rw [List.nodup_append]
      refine ⟨List.nodup_range.filter _, h1, ?_⟩
      intro a ha b hb
      rintro rfl
      simp at ha
      exact ha.2 hb
    · exact List.nodup_range
  have := hp.length_eq
  simpa using this

theorem moveOrder_perm {n : Nat} {source destination : List Nat}
    (h : MoveValid n source destination) : (moveOrder n source destination).Perm (List.range n) := by
  unfold moveOrder
  refine (insertLoop_perm _ _).trans ?_
  have h1 : (List.map Prod.snd (List.insertionSort (fun p q : Nat × Nat => p.1 ≤ q.1)
      (destination.zip source))).Perm source := by
    have := (sortedPairs h.dst_nodup h.len).2.map Prod.snd
    rwa [List.map_snd_zip (by rw [h.len])] at this
  refine (h1.append_left _).trans ?_
  rw [List.perm_ext_iff_of_nodup]
  · intro a
    simp only [List.mem_append, List.mem_filter, List.mem_range]
    constructor
    · rintro (h' | h')
      · exact h'.1
      · exact h.src_lt a h'
    · intro h'
      by_cases ha : a ∈ source
      · exact Or.inr ha
      · exact Or.inl ⟨h', by simpa using ha⟩
  · rw [List.nodup_append]
    refine ⟨List.nodup_range.filter _, h.src_nodup, ?_⟩
    intro a ha b hb
    rintro rfl
    simp at ha
    exact ha.2 hb
  · exact List.nodup_range

theorem moveOrder_nodup {n : Nat} {source destination : List Nat}
    (h : MoveValid n source destination) : (moveOrder n source destination).Nodup :=
  (moveOrder_perm h).nodup_iff.2 List.nodup_range

theorem length_moveOrder {n : Nat} {source destination : List Nat}
    (h : MoveValid n source destination) : (moveOrder n source destination).length = n := by
  simpa using (moveOrder_perm h).length_eq

theorem mem_moveOrder {n : Nat} {source destination : List Nat}
    (h : MoveValid n source destination) {j : Nat} : j ∈ moveOrder n source destination ↔ j < n := by
  rw [(moveOrder_perm h).mem_iff, List.mem_range]

/-- Source axis `source[k]` ends up at position `destination[k]`. -/
theorem moveOrder_get {n : Nat} {source destination : List Nat}
    (h : MoveValid n source destination) {d s : Nat} (hp : (d, s) ∈ destination.zip source) :
    (moveOrder n source destination)[d]? = some s := by
  unfold moveOrder
  obtain ⟨h1, h2⟩ := sortedPairs h.dst_nodup h.len
  apply insertLoop_get h1
  · intro p hp
    have hp' := h2.mem_iff.1 hp
    have := h.dst_lt p.1 (List.of_mem_zip hp').1
    have hl := length_filter_not_mem h.src_nodup h.src_lt
    rw [h2.length_eq, List.length_zip, ← h.len, Nat.min_self]
    omega
  · exact h2.mem_iff.2 hp

theorem moveOrder_idxOf {n : Nat} {source destination : List Nat}
    (h : MoveValid n source destination) {d s : Nat} (hp : (d, s) ∈ destination.zip source) :
    (moveOrder n source destination).idxOf s = d := by
  have hg := moveOrder_get h hp
  rw [List.getElem?_eq_some_iff] at hg
  obtain ⟨hd, hg⟩ := hg
  rw [← hg]
  exact (moveOrder_nodup h).idxOf_getElem _ _

theorem moveaxis_ok {a b : ND α} {source destination : List Nat}
    (h : a.moveaxis source destination = .ok b) :
    MoveValid a.ndim source destination ∧ b = a.transpose (moveOrder a.ndim source destination) := by
  unfold moveaxis at h
  split at h
  · next hv =>
    injection h with h
    exact ⟨⟨hv.1, hv.2.1, hv.2.2.1, hv.2.2.2.1, hv.2.2.2.2⟩, h.symm⟩
  · cases h

theorem moveaxis_of_valid (a : ND α) {source destination : List Nat}
    (h : MoveValid a.ndim source destination) :
    a.moveaxis source destination = .ok (a.transpose (moveOrder a.ndim source destination)) := by
  unfold moveaxis
  rw [if_pos ⟨h.src_nodup, h.dst_nodup, h.src_lt, h.dst_lt, h.len⟩]

@[simp] theorem shape_newaxes (a : ND α) (k : Nat) :
    (a.newaxes k).shape = a.shape ++ List.replicate k 1 := rfl
@[simp] theorem ndim_newaxes (a : ND α) (k : Nat) : (a.newaxes k).ndim = a.ndim + k := by
  simp [ndim]
@[simp] theorem shape_transpose (a : ND α) (o : List Nat) :
    (a.transpose o).shape = o.map (fun j => a.shape.getD j 0) := rfl
@[simp] theorem ndim_transpose (a : ND α) (o : List Nat) : (a.transpose o).ndim = o.length := by
  simp [ndim]

/-! ### Row-major order of concatenated shapes -/

theorem ravel_append {s t i j : List Nat} (h : i.length = s.length) :
    ravel (s ++ t) (i ++ j) = ravel s i * t.prod + ravel t j := by
  induction s generalizing i with
  | nil =>
    have : i = [] := List.eq_nil_of_length_eq_zero (by simpa using h)
    subst this; simp [ravel]
  | cons n s ih =>
    cases i with
    | nil => simp at h
    | cons a i =>
      simp only [List.cons_append, ravel, List.prod_append]
      rw [ih (by simpa using h)]
      ring

theorem inRange_append {s t i j : List Nat} (h : i.length = s.length) :
    InRange (s ++ t) (i ++ j) ↔ InRange s i ∧ InRange t j := by
  unfold InRange
  induction s generalizing i with
  | nil =>
    have : i = [] := List.eq_nil_of_length_eq_zero (by simpa using h)
    subst this; simp
  | cons n s ih =>
    cases i with
    | nil => simp at h
    | cons a i => simp [ih (i := i) (by simpa using h), and_assoc]

theorem ravel_singleton (n k : Nat) : ravel [n] [k] = k := by simp [ravel]

/-- Splitting the last dimension of a row-major index. -/
theorem unravel_combined {rs as ri : List Nat} {k : Nat} (hr : InRange rs ri) (hk : k < as.prod) :
    unravel (rs ++ as) (ravel (rs ++ [as.prod]) (ri ++ [k])) = ri ++ unravel as k := by
  have hl := inRange_length hr
  have h1 : ravel (rs ++ [as.prod]) (ri ++ [k]) = ravel (rs ++ as) (ri ++ unravel as k) := by
    rw [ravel_append hl, ravel_append hl, ravel_singleton, ravel_unravel hk]
    simp
  rw [h1, unravel_ravel ((inRange_append hl).2 ⟨hr, inRange_unravel hk⟩)]

theorem toList_eq_map (a : ND α) :
    a.toList = (List.range a.shape.prod).map (fun k => a.get (unravel a.shape k)) := by
  unfold toList
  rw [ndIndices_eq_map_unravel, List.map_map]
  rfl

theorem reshape_ok {a b : ND α} {s : List Nat} (h : a.reshape s = .ok b) :
    s.prod = a.shape.prod ∧ b.shape = s ∧ b.toList = a.toList ∧
    ∀ i, b.get i = a.get (unravel a.shape (ravel s i)) := by
  unfold reshape at h
  split at h
  · next hp =>
    injection h with h
    subst h
    refine ⟨hp, rfl, ?_, fun i => rfl⟩
    rw [toList_eq_map, toList_eq_map]
    simp only [hp]
    apply List.map_congr_left
    intro k hk
    rw [ravel_unravel (by rw [hp]; simpa using hk)]
  · cases h

/-! ### Moving a block of axes -/

theorem insertLoop_block (pre rest source : List Nat) :
    insertLoop (pre ++ rest) ((List.range' pre.length source.length).zip source) =
      pre ++ source ++ rest := by
  unfold insertLoop
  induction source generalizing pre with
  | nil => simp
  | cons s source ih =>
    simp only [List.length_cons, List.range'_succ, List.zip_cons_cons, List.foldl_cons]
    rw [List.take_left, List.drop_left]
    have := ih (pre ++ [s])
    simp only [List.length_append, List.length_singleton, List.append_assoc,
      List.singleton_append] at this
    rw [this]
    simp

theorem moveOrder_block {n k : Nat} {source : List Nat}
    (hk : k ≤ ((List.range n).filter (· ∉ source)).length) :
    moveOrder n source (List.range' k source.length) =
      ((List.range n).filter (· ∉ source)).take k ++ source ++
      ((List.range n).filter (· ∉ source)).drop k := by
  unfold moveOrder
  have hsort : List.insertionSort (fun p q : Nat × Nat => p.1 ≤ q.1)
      ((List.range' k source.length).zip source) = (List.range' k source.length).zip source := by
    apply List.Pairwise.insertionSort_eq
    have h1 : (((List.range' k source.length).zip source).map Prod.fst).Pairwise (· ≤ ·) := by
      rw [List.map_fst_zip (by simp)]
      exact List.pairwise_le_range'
    exact List.pairwise_map.1 h1
  rw [hsort]
  have := insertLoop_block (((List.range n).filter (· ∉ source)).take k)
    (((List.range n).filter (· ∉ source)).drop k) source
  rw [List.take_append_drop, List.length_take, Nat.min_eq_left hk] at this
  exact this

end ND
end NA
