import Verif.Uncertain.Partition
import Verif.Props.Trimmed
import Verif.Props.UncertainSort

/-!
# Partitions (C117)

`np.partition` rearranges each line along an axis so that the elements at the given positions are the ones which sorting would put there.
-/

namespace NA
open Dict
open SA (InRange FitsIn)

section
variable {α : Type}

/-! ### Specification -/

/-- The elements along an axis through the index `e`, of an array given by its elements. -/
def lineThrough (f : (String → Nat) → α) (axis : String) (n : Nat) (e : String → Nat) : List α :=
  (List.range n).map (fun i => f (Function.update e axis i))

variable [LinearOrder α]

/-- `l'` is a rearrangement of `l` which has at each of the positions (from the end, if they are negative) an element which is not below those
before it and not above those after it. -/
def Partitioned (kth : List Int) (l l' : List α) : Prop :=
  l'.Perm l ∧ ∀ k ∈ kth, ∀ p : Nat, (p : Int) = (if k < 0 then k + l.length else k) → ∀ x, l'[p]? = some x →
    (∀ (i : Nat) y, i < p → l'[i]? = some y → y ≤ x) ∧ ∀ (i : Nat) y, p < i → l'[i]? = some y → x ≤ y

/-- The assumption about numpy's function for a line; the positions are not negative. -/
def Partitions (part : List Nat → List α → List α) : Prop :=
  ∀ (ks : List Nat) l, (∀ k ∈ ks, k < l.length) → Partitioned (ks.map Int.ofNat) l (part ks l)

/-- The element at one of the positions is the one which sorting puts there. -/
theorem partitioned_select {kth : List Int} {l l' s : List α} (h : Partitioned kth l l') (hs : s.Perm l) (hso : s.Pairwise (· ≤ ·)) {k : Int}
    (hk : k ∈ kth) {p : Nat} (hp : (p : Int) = if k < 0 then k + l.length else k) : l'[p]? = s[p]? := by
  have hlen : s.length = l'.length := by rw [hs.length_eq, h.1.length_eq]
  cases hx : l'[p]? with
  | none =>
    rw [List.getElem?_eq_none_iff] at hx
    exact (List.getElem?_eq_none_iff.2 (by omega)).symm
  | some x =>
    obtain ⟨h1, h2⟩ := h.2 k hk p hp x hx
    obtain ⟨hlt, hx'⟩ := List.getElem?_eq_some_iff.1 hx
    have hsplit : l' = l'.take p ++ x :: l'.drop (p + 1) := by
      rw [← hx', List.getElem_cons_drop, List.take_append_drop]
    have hA : ∀ y ∈ l'.take p, y ≤ x := by
      intro y hy
      obtain ⟨i, hi⟩ := List.mem_iff_getElem?.1 hy
      rw [List.getElem?_take] at hi
      split at hi
      · next hlt' => exact h1 i y hlt' hi
      · cases hi
    have hB : ∀ y ∈ l'.drop (p + 1), x ≤ y := by
      intro y hy
      obtain ⟨i, hi⟩ := List.mem_iff_getElem?.1 hy
      rw [List.getElem?_drop] at hi
      exact h2 _ y (by omega) hi
    set A := (l'.take p).insertionSort (· ≤ ·) with hAdef
    set B := (l'.drop (p + 1)).insertionSort (· ≤ ·) with hBdef
    have hAp : A.Perm (l'.take p) := List.perm_insertionSort _ _
    have hBp : B.Perm (l'.drop (p + 1)) := List.perm_insertionSort _ _
    have hsorted : (A ++ x :: B).Pairwise (· ≤ ·) := by
      rw [List.pairwise_append]
      refine ⟨List.pairwise_insertionSort _ _, List.pairwise_cons.2 ⟨fun y hy => hB y (hBp.mem_iff.1 hy), List.pairwise_insertionSort _ _⟩, ?_⟩
      intro a ha b hb
      rcases List.mem_cons.1 hb with rfl | hb
      · exact hA a (hAp.mem_iff.1 ha)
      · exact le_trans (hA a (hAp.mem_iff.1 ha)) (hB b (hBp.mem_iff.1 hb))
    have hperm : s.Perm (A ++ x :: B) := by
      refine (hs.trans h.1.symm).trans ?_
      have := (hAp.append (hBp.cons x)).symm
      rwa [← hsplit] at this
    have heq : s = A ++ x :: B := hperm.eq_of_pairwise (fun a b _ _ h1 h2 => le_antisymm h1 h2) hso hsorted
    have hAl : A.length = p := by rw [hAp.length_eq, List.length_take]; omega
    rw [heq, List.getElem?_append_right (by omega), hAl]
    simp

/-- With several equal outcomes the positions may be negative. -/
theorem partitioned_of {part : List Nat → List α → List α} (hp : Partitions part) {kth : List Int} {l : List α}
    (hk : ∀ k ∈ kth, ND.ValidIndex l.length k) : Partitioned kth l (part (kth.map (ND.pyIndex l.length)) l) := by
  obtain ⟨h1, h2⟩ := hp (kth.map (ND.pyIndex l.length)) l (by
    intro k hk'
    obtain ⟨k', k1, rfl⟩ := List.mem_map.1 hk'
    have := hk k' k1
    unfold ND.ValidIndex at this
    unfold ND.pyIndex
    split <;> omega)
  refine ⟨h1, fun k hkm p hpk => ?_⟩
  refine h2 (p : Int) (List.mem_map.2 ⟨p, List.mem_map.2 ⟨k, hkm, ?_⟩, rfl⟩) p (by rw [if_neg (by omega)])
  unfold ND.pyIndex
  split at hpk
  · next h => rw [if_pos h]; omega
  · next h => rw [if_neg h]; omega
end
namespace SA
variable {α : Type}

theorem partition_main {part : List Nat → List α → List α} {dflt : α} {a : SA α} (ha : a.WF) {axis : String} {n : Nat}
    (hn : get? a.shape axis = some n) {kth : List Int} (hk : ∀ k ∈ kth, ND.ValidIndex n k) :
    ∃ r, a.partition part dflt kth axis = .ok r ∧ r.WF ∧ r.axes = a.axes ∧ (∀ ax, get? r.shape ax = get? a.shape ax) ∧
      ∀ e, r.at' e = (part (kth.map (ND.pyIndex n)) (lineThrough a.at' axis n e)).getD (e axis) dflt := by
  have hax : axis ∈ a.axes := by rw [← keys_shape ha]; exact mem_keys_of_get? hn
  have hsz : a.sizeOf' axis = n := by simp [sizeOf', hn]
  have hg : a.nd.shape.getD (a.axes.idxOf axis) 0 = n := by
    rw [shape_eq_map ha, getD_map_idxOf _ hax, hsz]
  obtain ⟨nd, n1, n2, n3⟩ := ND.alongAxis_named ha.2 (shape_eq_map ha) hax n (fun l k => (part (kth.map (ND.pyIndex n)) l).getD k dflt)
  obtain ⟨w1, w2⟩ := mk_map ha.2 n2
  have hks : kth.mapM (kthIndex n) = .ok (kth.map (ND.pyIndex n)) := by
    refine mapM_map_ok ?_
    intro k hk'
    unfold kthIndex
    rw [if_pos (hk k hk')]
  refine ⟨⟨a.axes, nd⟩, ?_, w1, rfl, ?_, fun e => ?_⟩
  · unfold partition
    rw [if_neg (not_not.2 hax)]
    simp only [hg, hks, bind, Except.bind, n1]
    exact mk?_of_wf w1.1 w1.2
  · intro ax
    rw [w2]
    by_cases h : ax ∈ a.axes
    · obtain ⟨m, hm⟩ := exists_get?_of_mem (d := a.shape) (by rw [keys_shape ha]; exact h)
      have : (if ax = axis then n else a.sizeOf' ax) = a.sizeOf' ax := by split_ifs with h' <;> simp [*]
      rw [if_pos h, this, hm]
      simp [sizeOf', hm]
    · rw [if_neg h, get?_eq_none.2]
      rw [keys_shape ha]; exact h
  · have := n3 e
    rw [hsz] at this
    exact this

variable [LinearOrder α]

/-- **C117** Every line along the axis is partitioned at the given positions; the shape stays the same. -/
theorem C117_partition (part : List Nat → List α → List α) (hp : Partitions part) (dflt : α) (a : SA α) (ha : a.WF) (axis : String) (n : Nat)
    (hn : get? a.shape axis = some n) (kth : List Int) (hk : ∀ k ∈ kth, ND.ValidIndex n k) :
    ∃ r, a.partition part dflt kth axis = .ok r ∧ r.WF ∧ r.shape = a.shape ∧
      ∀ e, Partitioned kth (lineThrough a.at' axis n e) (lineThrough r.at' axis n e) := by
  obtain ⟨r, r1, r2, r3, r4, r5⟩ := partition_main (part := part) (dflt := dflt) ha hn hk
  refine ⟨r, r1, r2, ?_, fun e => ?_⟩
  · refine NA.dict_ext (wf_shape r2) ?_ r4
    rw [keys_shape r2, keys_shape ha, r3]
  · have hl : (lineThrough a.at' axis n e).length = n := by simp [lineThrough]
    have hpart := partitioned_of hp (kth := kth) (l := lineThrough a.at' axis n e) (by rw [hl]; exact hk)
    rw [hl] at hpart
    have hline : lineThrough r.at' axis n e = part (kth.map (ND.pyIndex n)) (lineThrough a.at' axis n e) := by
      apply List.ext_getElem
      · rw [hpart.1.length_eq, hl]; simp [lineThrough]
      · intro i h1 h2
        have hi : i < n := by simpa [lineThrough] using h1
        have hsame : lineThrough a.at' axis n (Function.update e axis i) = lineThrough a.at' axis n e := by simp [lineThrough]
        have hlhs : (lineThrough r.at' axis n e)[i] = r.at' (Function.update e axis i) := by simp [lineThrough]
        rw [hlhs, r5, hsame, Function.update_self, List.getD_eq_getElem?_getD, List.getElem?_eq_getElem h2]
        rfl
    rw [hline]
    exact hpart

/-- **C117** The elements at the given positions are those which sorting the line puts there. -/
theorem C117_select (part : List Nat → List α → List α) (hp : Partitions part) (dflt : α) (a : SA α) (ha : a.WF) (axis : String) (n : Nat)
    (hn : get? a.shape axis = some n) (kth : List Int) (hk : ∀ k ∈ kth, ND.ValidIndex n k) (r : SA α)
    (hr : a.partition part dflt kth axis = .ok r) (e : String → Nat) (s : List α) (hs : s.Perm (lineThrough a.at' axis n e))
    (hso : s.Pairwise (· ≤ ·)) (k : Int) (hkm : k ∈ kth) (p : Nat) (hpk : (p : Int) = if k < 0 then k + n else k) :
    s[p]? = some (r.at' (Function.update e axis p)) := by
  obtain ⟨r', r1, _, _, r4⟩ := C117_partition part hp dflt a ha axis n hn kth hk
  rw [hr] at r1
  cases r1
  have hv := hk k hkm
  unfold ND.ValidIndex at hv
  have hpn : p < n := by split at hpk <;> omega
  rw [← partitioned_select (r4 e) hs hso hkm (by simpa [lineThrough] using hpk)]
  simp [lineThrough, hpn]

omit [LinearOrder α] in
/-- **C117** An absent axis and a position outside of the line raise a `ValueError`. -/
theorem C117_error (part : List Nat → List α → List α) (dflt : α) (a : SA α) (ha : a.WF) (axis : String) (kth : List Int) :
    (axis ∉ a.axes → a.partition part dflt kth axis = .error .valueError) ∧
    ∀ n, get? a.shape axis = some n → (∃ k ∈ kth, ¬ ND.ValidIndex n k) → a.partition part dflt kth axis = .error .valueError := by
  refine ⟨fun h => by unfold partition; rw [if_pos h], fun n hn ⟨k, hk, hv⟩ => ?_⟩
  have hax : axis ∈ a.axes := by rw [← keys_shape ha]; exact mem_keys_of_get? hn
  have hg : a.nd.shape.getD (a.axes.idxOf axis) 0 = n := by
    rw [shape_eq_map ha, getD_map_idxOf _ hax]; simp [sizeOf', hn]
  have hks : kth.mapM (kthIndex n) = .error .valueError := by
    clear hg hax hn
    induction kth with
    | nil => cases hk
    | cons k' l ih =>
      rw [List.mapM_cons]
      by_cases h : ND.ValidIndex n k'
      · have hk'' : k ∈ l := by
          rcases List.mem_cons.1 hk with rfl | h'
          · exact absurd h hv
          · exact h'
        have : kthIndex n k' = .ok (ND.pyIndex n k') := by unfold kthIndex; rw [if_pos h]
        rw [this, ih ⟨k, hk'', hv⟩ hk'']
        rfl
      · have : kthIndex n k' = .error .valueError := by unfold kthIndex; rw [if_neg h]
        rw [this]
        rfl
  unfold partition
  rw [if_neg (not_not.2 hax)]
  simp only [hg, hks, bind, Except.bind]

/-- A component of an uncertain scalar which is extended along an axis first. -/
theorem extended_main {part : List Nat → List α → List α} (hp : Partitions part) (dflt : α) {c : SA α} (hc : c.WF) {axis : String} {n : Nat}
    (hn : ∀ m, get? c.shape axis = some m → m = n ∨ m = 1) {kth : List Int} (hk : ∀ k ∈ kth, ND.ValidIndex n k) :
    ∃ b r, c.broadcastTo (c.shape.set axis n) = .ok b ∧ b.partition part dflt kth axis = .ok r ∧ r.WF ∧ r.shape = c.shape.set axis n ∧
      ∀ e, Partitioned kth (lineThrough c.atB axis n e) (lineThrough r.at' axis n e) := by
  have hw : Dict.WF (c.shape.set axis n) := wf_set (wf_shape hc) _ _
  rcases C10_broadcast_to c hc _ hw with ⟨_, b, b1, b2, b3, b4⟩ | ⟨h, _⟩
  · obtain ⟨r, r1, r2, r3, r4⟩ := C117_partition part hp dflt b b2 axis n (by rw [b3, get?_set, if_pos rfl]) kth hk
    refine ⟨b, r, b1, r1, r2, by rw [r3, b3], fun e => ?_⟩
    have : lineThrough b.at' axis n e = lineThrough c.atB axis n e := by simp only [lineThrough, b4]
    rw [← this]
    exact r4 e
  · refine absurd (fun ax m hm => ?_) h
    by_cases hx : ax = axis
    · subst hx
      exact ⟨n, by rw [get?_set, if_pos rfl], hn m hm⟩
    · exact ⟨m, by rw [get?_set, if_neg (by first | exact hx | exact Ne.symm hx), hm], .inl rfl⟩
end SA

namespace UA
variable {α : Type}

/-- What the shape of an uncertain scalar says about an axis of its components. -/
theorem shape_axis {u : UA α} (hu : u.Valid) {s : Shape} (hs : u.shape = .ok s) {axis : String} {n : Nat} (hn : get? s axis = some n) :
    axis ≠ axisD ∧ (∃ t, broadcastShapes [u.nominal.shape, u.distribution.shape] = .ok t ∧ get? t axis = some n) ∧
      (∀ m, get? u.nominal.shape axis = some m → m = n ∨ m = 1) ∧ ∀ m, get? u.distribution.shape axis = some m → m = n ∨ m = 1 := by
  rcases shape_cases hu with ⟨_, _, h⟩ | ⟨_, t, s', sd, h1, h2, h3, h4, h5⟩
  · rw [h] at hs; cases hs
  have : s' = s := by rw [h5.shape] at hs; cases hs; rfl
  subst this
  have hD : axis ≠ axisD := by
    rintro rfl
    exact h5.noD (mem_keys_of_get? hn)
  refine ⟨hD, ⟨t, h1, ?_⟩, fun m hm => ?_, fun m hm => ?_⟩
  · rw [h3, get?_erase, if_neg (by first | exact hD | exact Ne.symm hD)] at hn
    exact hn
  · obtain ⟨n', k1, k2⟩ := h5.nom axis m hm
    rw [hn] at k1
    cases k1
    exact k2
  · obtain ⟨n', k1, k2⟩ := h5.dist axis m hm
    rw [h5.get, if_neg hD, hn] at k1
    cases k1
    exact k2

/-- The elements of an array in the lines through an index within the array. -/
theorem line_at {a : SA α} (ha : a.WF) {axis : String} {n : Nat} (hn : get? a.shape axis = some n) {e : String → Nat} (he : InRange a.shape e) :
    lineThrough a.atB axis n e = lineThrough a.at' axis n e := by
  unfold lineThrough
  refine List.map_congr_left fun i hi => ?_
  refine SA.atB_eq_at' ha fun ax m hm => ?_
  by_cases hx : ax = axis
  · subst hx
    rw [hn] at hm
    cases hm
    rw [Function.update_self]
    exact List.mem_range.1 hi
  · rw [Function.update_of_ne hx]
    exact he ax m hm

theorem line_sample (u : UA α) {axis : String} (hD : axis ≠ axisD) (n k : Nat) (e : String → Nat) :
    lineThrough (u.sampleAt k) axis n e = lineThrough u.distribution.atB axis n (Function.update e axisD k) := by
  unfold lineThrough sampleAt
  refine List.map_congr_left fun i _ => ?_
  rw [Function.update_comm hD]

variable [LinearOrder α]

/-- **C117** (uncertain scalars) The nominal values along the axis are partitioned, and so are the `k`-th samples, for every `k`. -/
theorem C117_uncertain_partial (part : List Nat → List α → List α) (hp : Partitions part) (dflt : α) (u : UA α) (hu : u.Valid) (s : Shape)
    (hs : u.shape = .ok s) (axis : String) (n : Nat) (hn : get? s axis = some n) (kth : List Int) (hk : ∀ k ∈ kth, ND.ValidIndex n k) :
    ∃ r, u.partition part dflt kth axis = .ok r ∧ r.Valid ∧
      (∀ ax, get? r.nominal.shape ax = if ax = axis then some n else get? u.nominal.shape ax) ∧
      (∀ ax, get? r.distribution.shape ax = if ax = axis then some n else get? u.distribution.shape ax) ∧
      (∀ e, InRange r.nominal.shape e → Partitioned kth (lineThrough u.nominalAt axis n e) (lineThrough r.nominalAt axis n e)) ∧
      ∀ k e, InRange r.distribution.shape (Function.update e axisD k) →
        Partitioned kth (lineThrough (u.sampleAt k) axis n e) (lineThrough (r.sampleAt k) axis n e) := by
  obtain ⟨hD, ⟨t, t1, t2⟩, hN, hDs⟩ := shape_axis hu hs hn
  obtain ⟨a, ra, a1, a2, a3, a4, a5⟩ := SA.extended_main hp dflt hu.1 hN hk
  obtain ⟨b, rb, b1, b2, b3, b4, b5⟩ := SA.extended_main hp dflt hu.2.1 hDs hk
  have hget : ∀ (A : Shape) ax, get? (A.set axis n) ax = if ax = axis then some n else get? A ax := by
    intro A ax
    rw [get?_set]
    by_cases h : ax = axis
    · subst h; simp
    · simp [h, Ne.symm h]
  have hno : axisD ∉ ra.axes := by
    rw [← SA.keys_shape a3]
    intro h
    obtain ⟨m, hm⟩ := exists_get?_of_mem h
    rw [a4, hget, if_neg (Ne.symm hD)] at hm
    exact hu.2.2 (by rw [← SA.keys_shape hu.1]; exact mem_keys_of_get? hm)
  refine ⟨⟨ra, rb⟩, ?_, ⟨a3, b3, hno⟩, fun ax => by rw [a4, hget], fun ax => by rw [b4, hget], fun e he => ?_, fun k e he => ?_⟩
  · unfold partition
    simp only [t1, hs, bind, Except.bind]
    rw [if_neg (not_not.2 (mem_keys_of_get? hn))]
    simp only [t2, a1, b1, a2, b2]
    exact mk?_of_valid a3 hno
  · have h := a5 e
    rw [← line_at a3 (by rw [a4, hget, if_pos rfl]) he] at h
    exact h
  · have h := b5 (Function.update e axisD k)
    rw [← line_at b3 (by rw [b4, hget, if_pos rfl]) he] at h
    rw [line_sample u hD, line_sample _ hD]
    exact h

omit [LinearOrder α] in
/-- **C117** An absent axis, among them the one of the samples, raises a `ValueError`. -/
theorem C117_uncertain_error (part : List Nat → List α → List α) (dflt : α) (u : UA α) (hu : u.Valid) (s : Shape) (hs : u.shape = .ok s)
    (axis : String) (kth : List Int) (h : axis ∉ keys s ∨ axis = axisD) : u.partition part dflt kth axis = .error .valueError := by
  rcases shape_cases hu with ⟨_, _, h'⟩ | ⟨_, t, s', sd, h1, h2, h3, h4, h5⟩
  · rw [h'] at hs; cases hs
  have : s' = s := by rw [h5.shape] at hs; cases hs; rfl
  subst this
  have h1' : broadcastShapes [u.nominal.shape, u.distribution.shape] = .ok t := h1
  unfold partition
  simp only [h1', hs, bind, Except.bind]
  rw [if_pos]
  rcases h with h | rfl
  · exact h
  · exact h5.noD

/-! ### Examples -/

/-- A partition which sorts. -/
def exSelect (_ : List Nat) (l : List Nat) : List Nat := SA.exSort l

theorem exSelect_ok : Partitions exSelect := by
  intro ks l _
  have hsort : (l.insertionSort (· ≤ ·)).Pairwise (· ≤ ·) := List.pairwise_insertionSort _ _
  refine ⟨List.perm_insertionSort _ _, fun k _ p _ x hx => ⟨fun i y hi hy => ?_, fun i y hi hy => ?_⟩⟩
  · change (l.insertionSort (· ≤ ·))[i]? = some y at hy
    change (l.insertionSort (· ≤ ·))[p]? = some x at hx
    obtain ⟨a1, rfl⟩ := List.getElem?_eq_some_iff.1 hx
    obtain ⟨a2, rfl⟩ := List.getElem?_eq_some_iff.1 hy
    exact List.pairwise_iff_getElem.1 hsort _ _ a2 a1 hi
  · change (l.insertionSort (· ≤ ·))[i]? = some y at hy
    change (l.insertionSort (· ≤ ·))[p]? = some x at hx
    obtain ⟨a1, rfl⟩ := List.getElem?_eq_some_iff.1 hx
    obtain ⟨a2, rfl⟩ := List.getElem?_eq_some_iff.1 hy
    exact List.pairwise_iff_getElem.1 hsort _ _ a1 a2 hi

/-- The assumptions can be met. -/
example : ∃ r, exSorted.partition exSelect 0 [1, -1] "x" = .ok r ∧ r.Valid := by
  obtain ⟨r, h1, h2, _⟩ := C117_uncertain_partial exSelect exSelect_ok 0 exSorted ⟨by decide, by decide, by decide⟩ [("x", 3)] rfl "x" 3 rfl [1, -1] (by
    intro k hk
    simp only [List.mem_cons, List.not_mem_nil, or_false] at hk
    rcases hk with rfl | rfl <;> decide)
  exact ⟨r, h1, h2⟩
example : exSorted.partition exSelect 0 [0] axisD = .error .valueError :=
  C117_uncertain_error exSelect 0 exSorted ⟨by decide, by decide, by decide⟩ [("x", 3)] rfl axisD [0] (.inr rfl)
example : ∃ r, (⟨["x"], ND.ofList [3] [9, 7, 8] 0⟩ : SA Nat).partition exSelect 0 [-2] "x" = .ok r ∧ some (r.at' (fun _ => 1)) = some 8 := by
  obtain ⟨r, h1, h2, h3, _⟩ := SA.C117_partition exSelect exSelect_ok 0 (⟨["x"], ND.ofList [3] [9, 7, 8] 0⟩ : SA Nat) (by decide) "x" 3 rfl [-2]
    (by intro k hk; simp only [List.mem_cons, List.not_mem_nil, or_false] at hk; subst hk; decide)
  refine ⟨r, h1, ?_⟩
  have := SA.C117_select exSelect exSelect_ok 0 (⟨["x"], ND.ofList [3] [9, 7, 8] 0⟩ : SA Nat) (by decide) "x" 3 rfl [-2]
    (by intro k hk; simp only [List.mem_cons, List.not_mem_nil, or_false] at hk; subst hk; decide) r h1 (fun _ => 1) [7, 8, 9] (by decide) (by decide)
    (-2) (by simp) 1 rfl
  have he : Function.update (fun _ : String => 1) "x" 1 = fun _ => 1 := by funext y; simp [Function.update_apply]
  rw [he] at this
  rw [← this]
  rfl

/-- The nominal value and the two samples of each of the three elements. -/
def exTriples (r : UA Nat) : List (List Nat) :=
  (List.range 3).map (fun i => [r.nominalAt (fun _ => i), r.sampleAt 0 (fun _ => i), r.sampleAt 1 (fun _ => i)])

/-- **C117** (refuted) Uncertain scalars are not rearranged as a whole: the element with the nominal value 7 has the samples 5 and 5 before, but 1
and 2 afterwards; `np.sort` keeps them together. -/
theorem C117_elements_refuted :
    exTriples exSorted = [[7, 5, 5], [8, 1, 2], [9, 2, 2]] ∧
    ((exSorted.partition exSelect 0 [0, 1, 2] "x").toOption.map exTriples) = some [[7, 1, 2], [8, 2, 2], [9, 5, 5]] ∧
    ((exSorted.sort List.sum SA.exArgsort (some ["x"])).toOption.map exTriples) = some [[8, 1, 2], [9, 2, 2], [7, 5, 5]] := by
  refine ⟨by decide +kernel, by decide +kernel, by decide +kernel⟩
end UA
end NA
