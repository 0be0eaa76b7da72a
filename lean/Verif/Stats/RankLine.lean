import Mathlib.Data.List.Perm.Basic
import Mathlib.Data.Finset.Dedup
import Verif.Stats.RankNamed

/-! Ranks along one axis. -/

namespace NA
open Dict
open SA (FitsIn InRange)

/-- The contract of `np.argsort`: the positions of a list, each once, in the order of the elements. -/
def Argsorts {β : Type} (le : β → β → Prop) (asrt : List β → List Nat) : Prop :=
  ∀ l, (asrt l).Perm (List.range l.length) ∧
    (asrt l).Pairwise (fun i j => ∀ x y, l[i]? = some x → l[j]? = some y → le x y)

section
variable {β : Type} {le : β → β → Prop} {asrt : List β → List Nat}

theorem Argsorts.length (h : Argsorts le asrt) (l : List β) : (asrt l).length = l.length := by
  have := (h l).1.length_eq
  simpa using this

theorem Argsorts.lt (h : Argsorts le asrt) (l : List β) : ∀ i ∈ asrt l, i < l.length := by
  intro i hi
  have := (h l).1.mem_iff.1 hi
  simpa using this

theorem map_getD_perm {γ : Type} {q : List Nat} {l : List γ} (d : γ) (hq : q.Perm (List.range l.length)) :
    (q.map (fun i => l.getD i d)).Perm l := by
  have h1 : (q.map (fun i => l.getD i d)).Perm ((List.range l.length).map (fun i => l.getD i d)) := hq.map _
  have h2 : (List.range l.length).map (fun i => l.getD i d) = l := by
    apply List.ext_getElem
    · simp
    · intro i h3 h4
      simp only [List.getElem_map, List.getElem_range]
      rw [List.getD_eq_getElem _ _ h4]
  rwa [h2] at h1

/-- sorting the positions of a permutation inverts it -/
theorem argsort_inverse {asrtI : List Int → List Nat} (h : Argsorts (· ≤ ·) asrtI) {p : List Nat} {n : Nat}
    (hp : p.Perm (List.range n)) {k : Nat} (hk : k < n) :
    (asrtI (p.map (fun i : Nat => (i : Int)))).getD k 0 < n ∧ p.getD ((asrtI (p.map (fun i : Nat => (i : Int)))).getD k 0) 0 = k := by
  set q := asrtI (p.map (fun i : Nat => (i : Int))) with hq
  have hlen : p.length = n := by simpa using hp.length_eq
  obtain ⟨h1, h2⟩ := h (p.map (fun i : Nat => (i : Int)))
  rw [← hq] at h1 h2
  rw [List.length_map] at h1
  have hql : q.length = n := by rw [h1.length_eq]; simpa using hlen
  have h3 : (q.map (fun i => p.getD i 0)).Perm (List.range n) := (map_getD_perm 0 h1).trans hp
  have h4 : (q.map (fun i => p.getD i 0)).Pairwise (· ≤ ·) := by
    rw [List.pairwise_map]
    refine List.Pairwise.imp_of_mem ?_ h2
    intro i j hi hj hij
    have hi' : i < p.length := by simpa using h1.mem_iff.1 hi
    have hj' : j < p.length := by simpa using h1.mem_iff.1 hj
    have := hij p[i] p[j] (by simp [hi']) (by simp [hj'])
    rw [List.getD_eq_getElem _ _ hi', List.getD_eq_getElem _ _ hj']
    omega
  have h5 : q.map (fun i => p.getD i 0) = List.range n :=
    List.Perm.eq_of_pairwise (fun a b _ _ h6 h7 => le_antisymm h6 h7) h4 List.pairwise_le_range h3
  have hk' : k < q.length := by omega
  have hmem := h1.mem_iff.1 (List.getElem_mem hk')
  rw [List.getD_eq_getElem _ _ hk']
  refine ⟨by simpa [hlen] using hmem, ?_⟩
  have h6 := congrArg (fun l => l[k]?) h5
  simpa [hk', hk] using h6
end

variable {α : Type} [LinearOrder α]

/-- The rank of `v` among the values `l`, where the ranks of equal values are averaged, or the
smallest or largest one is used, or the different values are numbered. -/
def rankOf {K : Type} [Field K] (method : String) (l : List α) (v : α) : K :=
  let less := l.countP (fun y => decide (y < v))
  let leq := l.countP (fun y => decide (y ≤ v))
  if method = "average" then ((less : K) + leq + 1) / 2
  else if method = "min" then (less : K) + 1
  else if method = "max" then (leq : K)
  else ((l.toFinset.filter (fun y => y ≤ v)).card : K)

theorem countP_some (l : List (Option α)) (p : α → Bool) :
    l.countP (fun x => x.any p) = (l.filterMap id).countP p := by
  induction l with
  | nil => rfl
  | cons x l ih =>
    cases x with
    | none => simp [List.countP_cons, ih]
    | some y => simp [List.countP_cons, ih]

/-- the sorted line `s` of `l` and its groups -/
theorem rank_line {s : Nat → Option α} {n : Nat} (hs : ∀ i j, i ≤ j → j < n → leFloat (s i) (s j))
    {l : List (Option α)} (hl : ((List.range n).map s).Perm l) {i : Nat} (hi : i < n) {v : α} (hv : s i = some v)
    {K : Type} [Field K] {h : Nat → K}
    (h0 : ∀ g, (∀ k < n, groupOf s k ≠ g) → h g = 0)
    (h1 : ∀ g L, L < n → groupOf s L = g → (∀ k < n, groupOf s k = g → k ≤ L) → h g = ((L + 1 : Nat) : K)) :
    h (groupOf s i) = ((l.filterMap id).countP (fun y => decide (y ≤ v)) : K) ∧
    h (groupOf s i - 1) = ((l.filterMap id).countP (fun y => decide (y < v)) : K) ∧
    groupOf s i = ((l.filterMap id).toFinset.filter (fun y => y ≤ v)).card := by
  have hcnt : ∀ p : Option α → Bool, (List.range n).countP (fun j => p (s j)) = l.countP p := by
    intro p
    rw [← hl.countP_eq p, List.countP_map]; rfl
  refine ⟨?_, ?_, ?_⟩
  · obtain ⟨L, hL, hgL, hlast⟩ := exists_last s hi
    rw [h1 _ L hL hgL hlast, ← count_leq hs hL hgL hlast hi hv, hcnt (leqTo v), ← countP_some]
    rfl
  · by_cases hg : groupOf s i = 1
    · rw [hg, h0 _ (fun k _ hk => by have := groupOf_pos s k; omega), ← countP_some]
      have := count_less_first hs hi hg hv
      rw [hcnt (lessThan v)] at this
      have h2 : l.countP (fun x => x.any (fun y => decide (y < v))) = 0 := this
      rw [h2]; simp
    · have hp := groupOf_pos s i
      obtain ⟨j, hj, hgj⟩ := group_surj s (i := i) (g := groupOf s i - 1) (by omega) (by omega)
      obtain ⟨L, hL, hgL, hlast⟩ := exists_last s (show j < n by omega)
      rw [h1 _ L hL (by omega) (fun k hk hgk => hlast k hk (by omega)),
        ← count_less hs hL (by omega) (fun k hk hgk => hlast k hk (by omega)) hi hv, hcnt (lessThan v), ← countP_some]
      rfl
  · rw [← group_distinct hs hi hv]
    have himg : (Finset.range (i + 1)).image s = ((l.filterMap id).toFinset.filter (fun y => y ≤ v)).image some := by
      ext o
      simp only [Finset.mem_image, Finset.mem_range, Finset.mem_filter, List.mem_toFinset, List.mem_filterMap, id]
      constructor
      · rintro ⟨k, hk, rfl⟩
        have h2 := hs k i (by omega) hi
        rw [hv] at h2
        cases hsk : s k with
        | none => rw [hsk] at h2; simp [leFloat] at h2
        | some y =>
          rw [hsk] at h2
          refine ⟨y, ⟨⟨_, hl.mem_iff.1 (List.mem_map.2 ⟨k, by simp; omega, rfl⟩), hsk⟩, h2⟩, rfl⟩
      · rintro ⟨y, ⟨⟨o', ho', rfl⟩, hy⟩, rfl⟩
        obtain ⟨k, hk, hks⟩ := List.mem_map.1 (hl.mem_iff.2 ho')
        have hk' : k < n := List.mem_range.1 hk
        by_cases hki : k ≤ i
        · exact ⟨k, by omega, hks⟩
        · have h2 := hs i k (by omega) hk'
          rw [hv, hks] at h2
          have : y = v := le_antisymm hy h2
          exact ⟨i, by omega, by rw [hv, this]⟩
    rw [himg, Finset.card_image_of_injective _ (Option.some_injective _)]


theorem entry_ok {β : Type} {d : Dict β} {x : String} {v : β} (h : get? d x = some v) : SA.entry d x = .ok v := by
  unfold SA.entry; rw [h]

theorem lineOf_update {β : Type} (f : (String → Nat) → β) (x : String) (n : Nat) (e : String → Nat) (k : Nat) :
    lineOf f x n (Function.update e x k) = lineOf f x n e := by
  unfold lineOf; simp [Function.update_idem]

theorem length_lineOf {β : Type} (f : (String → Nat) → β) (x : String) (n : Nat) (e : String → Nat) :
    (lineOf f x n e).length = n := by
  unfold lineOf; simp

theorem getElem_lineOf {β : Type} (f : (String → Nat) → β) (x : String) (n : Nat) (e : String → Nat) {k : Nat} (hk : k < n) :
    (lineOf f x n e)[k]? = some (f (Function.update e x k)) := by
  unfold lineOf; simp [hk]

/-- the ranks of a sorted array -/
theorem is_rankSorted {K : Type} [Field K] {S : Shape} {b : SA Int} {c : SA K} {g : (String → Nat) → Nat}
    {h : (String → Nat) → K} {x : String} {n : Nat} (hx : get? S x = some n)
    (hb : Is S b (fun e => (g e : Int))) (hc : Is (set S x (n + 1)) c h)
    (hg : ∀ e, InRange S e → 1 ≤ g e ∧ g e ≤ n) (method : String) :
    ∃ r, SA.rankSorted (K := K) method x c b = .ok r ∧ Is S r (fun e =>
      if method = "average" then (h (Function.update e x (g e - 1)) + h (Function.update e x (g e)) + 1) / 2
      else if method = "min" then h (Function.update e x (g e - 1)) + 1
      else if method = "max" then h (Function.update e x (g e))
      else (g e : K)) := by
  have hx' : get? (set S x (n + 1)) x = some (n + 1) := by rw [get?_set, if_pos rfl]
  have hss : Same (set (set S x (n + 1)) x n) S := by
    intro ax
    rw [get?_set, get?_set]
    split
    · rename_i hax; rw [← hax, hx]
    · rfl
  obtain ⟨u, u1, u2⟩ := is_take hx' hc (hb.same (same_symm hss)) (fun e he => by
    have := (hg e (inRange_same hss he)).2; omega)
  obtain ⟨d, d1, d2⟩ := is_ufunc1 (fun g : Int => g - 1) hb
  have d3 : Is S d (fun e => ((g e - 1 : Nat) : Int)) := d2.congr (fun e he => by
    have := (hg e he).1; omega)
  obtain ⟨v, v1, v2⟩ := is_take hx' hc (d3.same (same_symm hss)) (fun e he => by
    have := (hg e (inRange_same hss he)).2; omega)
  have u3 := u2.same hss
  have v3 := v2.same hss
  unfold SA.rankSorted
  simp only [bind, Except.bind, u1, d1, v1]
  by_cases m1 : method = "average"
  · simp only [m1, if_true]
    exact is_ufunc2 _ v3 u3
  · simp only [m1, if_false]
    by_cases m2 : method = "min"
    · simp only [m2, if_true]
      exact is_ufunc1 (fun u : K => u + 1) v3
    · simp only [m2, if_false]
      by_cases m3 : method = "max"
      · simp only [m3, if_true]
        exact ⟨u, rfl, u3⟩
      · simp only [m3, if_false]
        obtain ⟨w, w1, w2⟩ := is_ufunc1 (fun g : Int => (g : K)) hb
        exact ⟨w, w1, w2.congr (fun e he => by simp)⟩

/-- the ranks along an axis -/
theorem is_rankAlong {K : Type} [Field K] {S : Shape} {a : SA (Option α)} {f : (String → Nat) → Option α} {x : String}
    {n : Nat} (hx : get? S x = some n) (hn : 0 < n) (ha : Is S a f)
    (hpos : ∀ ax m, ax ≠ x → get? S ax = some m → m ≠ 0)
    {asrt : List (Option α) → List Nat} {asrtI : List Int → List Nat}
    (h1 : Argsorts leFloat asrt) (h2 : Argsorts (· ≤ ·) asrtI) (method : String) :
    ∃ r h, SA.rankAlong (K := K) asrt asrtI neFloat method a x = .ok r ∧ Is S r h ∧
      ∀ e, InRange S e → ∀ v, f e = some v → h e = rankOf method ((lineOf f x n e).filterMap id) v := by
  have hself : Same (set S x n) S := by
    intro ax
    rw [get?_set]
    split
    · rename_i hax; rw [← hax, hx]
    · rfl
  obtain ⟨d, sorter, s1, s2, s3⟩ := is_argsort hx ha hpos asrt h1.length h1.lt
  obtain ⟨d', inverse, i1, i2, i3⟩ := is_argsort hx s3 hpos asrtI h2.length h2.lt
  have hlt : ∀ e, InRange S e → (asrt (lineOf f x n e)).getD (e x) 0 < n := by
    intro e he
    have hl : e x < (asrt (lineOf f x n e)).length := by
      rw [h1.length, length_lineOf]; exact he x n hx
    rw [List.getD_eq_getElem _ _ hl]
    have := h1.lt _ _ (List.getElem_mem hl)
    rwa [length_lineOf] at this
  obtain ⟨srt, t1, t2⟩ := is_take hx ha (s3.same (same_symm hself)) (fun e he => hlt e (inRange_same hself he))
  have t3 := t2.same hself
  obtain ⟨g, g1, g2⟩ := is_rankGroups hx hn t3
  have hgb : ∀ e, InRange S e → 1 ≤ groupOf (fun k => f (Function.update (Function.update e x k) x
      ((asrt (lineOf f x n (Function.update e x k))).getD ((Function.update e x k) x) 0))) (e x) ∧
      groupOf (fun k => f (Function.update (Function.update e x k) x
      ((asrt (lineOf f x n (Function.update e x k))).getD ((Function.update e x k) x) 0))) (e x) ≤ n := by
    intro e he
    have := he x n hx
    have h3 := groupOf_pos (fun k => f (Function.update (Function.update e x k) x
      ((asrt (lineOf f x n (Function.update e x k))).getD ((Function.update e x k) x) 0))) (e x)
    have h4 := groupOf_le (fun k => f (Function.update (Function.update e x k) x
      ((asrt (lineOf f x n (Function.update e x k))).getD ((Function.update e x k) x) 0))) (e x)
    exact ⟨by omega, by omega⟩
  obtain ⟨c, h, c1, c2, c3⟩ := is_rankCounts (K := K) hx t3 g2 (fun e he => (hgb e he).2)
  obtain ⟨r, r1, r2⟩ := is_rankSorted hx g2 c2 hgb method
  -- the positions of the sorted elements
  have hinv : ∀ e, InRange S e → (asrtI (lineOf (fun e => (((asrt (lineOf f x n e)).getD (e x) 0 : Nat) : Int)) x n e)).getD (e x) 0 < n ∧
      (asrt (lineOf f x n e)).getD ((asrtI (lineOf (fun e => (((asrt (lineOf f x n e)).getD (e x) 0 : Nat) : Int)) x n e)).getD (e x) 0) 0 = e x := by
    intro e he
    have hl : lineOf (fun e => (((asrt (lineOf f x n e)).getD (e x) 0 : Nat) : Int)) x n e =
        (asrt (lineOf f x n e)).map (fun i : Nat => (i : Int)) := by
      apply List.ext_getElem?
      intro k
      have hll : (asrt (lineOf f x n e)).length = n := by rw [h1.length, length_lineOf]
      by_cases hk : k < n
      · rw [getElem_lineOf _ _ _ _ hk, List.getElem?_map, lineOf_update, Function.update_self,
          List.getElem?_eq_getElem (by omega), List.getD_eq_getElem _ _ (by omega)]
        rfl
      · rw [List.getElem?_eq_none (by rw [length_lineOf]; omega), List.getElem?_eq_none (by simp; omega)]
    rw [hl]
    have hp := (h1 (lineOf f x n e)).1
    rw [length_lineOf] at hp
    exact argsort_inverse h2 hp (he x n hx)
  obtain ⟨q, q1, q2⟩ := is_take hx r2 (i3.same (same_symm hself)) (fun e he => (hinv e (inRange_same hself he)).1)
  refine ⟨q, _, ?_, q2.same hself, ?_⟩
  · unfold SA.rankAlong
    simp only [bind, Except.bind, entry_ok ((ha.shape x).trans hx), s1, entry_ok s2, i1, entry_ok i2, t1, g1, c1, r1, q1]
  · intro e he v hv
    obtain ⟨hi, hpi⟩ := hinv e he
    set i := (asrtI (lineOf (fun e => (((asrt (lineOf f x n e)).getD (e x) 0 : Nat) : Int)) x n e)).getD (e x) 0 with hidef
    set p := asrt (lineOf f x n e) with hp
    have hpl : p.length = n := by rw [hp, h1.length, length_lineOf]
    have hs : (fun k => f (Function.update (Function.update e x k) x
      ((asrt (lineOf f x n (Function.update e x k))).getD ((Function.update e x k) x) 0))) =
        fun k => f (Function.update e x (p.getD k 0)) := by
      funext k
      rw [lineOf_update, Function.update_self, Function.update_idem]
    have hu : ∀ j : Nat, (fun k => f (Function.update (Function.update (Function.update e x j) x k) x
      ((asrt (lineOf f x n (Function.update (Function.update e x j) x k))).getD ((Function.update (Function.update e x j) x k) x) 0))) =
        fun k => f (Function.update e x (p.getD k 0)) := by
      intro j
      funext k
      rw [lineOf_update, lineOf_update, Function.update_self, Function.update_idem, Function.update_idem]
    set s : Nat → Option α := fun k => f (Function.update e x (p.getD k 0)) with hsdef
    have hsi : s i = some v := by
      rw [hsdef]; simp only [hpi, Function.update_eq_self]; exact hv
    have hsorted : ∀ i j, i ≤ j → j < n → leFloat (s i) (s j) := by
      intro j k hjk hk
      rcases Nat.eq_or_lt_of_le hjk with rfl | hlt'
      · exact leFloat_refl _
      · have hpw := (h1 (lineOf f x n e)).2
        rw [← hp] at hpw
        have h3 := List.pairwise_iff_getElem.1 hpw j k (by omega) (by omega) hlt'
        have hb : ∀ m (hm : m < p.length), p[m] < n := by
          intro m hm
          have := h1.lt _ _ (List.getElem_mem (by rw [← hp]; exact hm) : (asrt (lineOf f x n e))[m]'(by rw [← hp]; exact hm) ∈ _)
          rwa [length_lineOf] at this
        have h4 := h3 _ _ (getElem_lineOf f x n e (hb j (by omega))) (getElem_lineOf f x n e (hb k (by omega)))
        rw [hsdef]
        simp only
        rw [List.getD_eq_getElem _ _ (by omega : j < p.length), List.getD_eq_getElem _ _ (by omega : k < p.length)]
        exact h4
    have hperm : ((List.range n).map s).Perm (lineOf f x n e) := by
      have h3 : ((List.range n).map s) = p.map (fun j => (lineOf f x n e).getD j none) := by
        apply List.ext_getElem
        · simp [hpl]
        · intro k hk hk'
          have hk2 : k < n := by simpa using hk
          have hk3 : k < p.length := by omega
          have hb : p[k] < n := by
            have := h1.lt _ _ (List.getElem_mem (by rw [← hp]; exact hk3) : (asrt (lineOf f x n e))[k]'(by rw [← hp]; exact hk3) ∈ _)
            rwa [length_lineOf] at this
          simp only [List.getElem_map, List.getElem_range]
          rw [hsdef]
          simp only
          rw [List.getD_eq_getElem _ _ hk3, List.getD_eq_getElem?_getD, getElem_lineOf f x n e hb]
          rfl
      rw [h3]
      exact map_getD_perm none (h1 _).1
    have hin : ∀ m, m < n + 1 → InRange (set S x (n + 1)) (Function.update e x m) := by
      intro m hm
      rw [inRange_set]
      refine ⟨by rw [Function.update_self]; exact hm, fun ax k hax hk => ?_⟩
      rw [Function.update_of_ne hax]; exact he ax k hk
    have hgl : ∀ k < n, groupOf s k < n + 1 := by
      intro k hk
      have := groupOf_le s k
      omega
    obtain ⟨e1, e2, e3⟩ := rank_line hsorted hperm hi hsi (K := K) (h := fun m => if m < n + 1 then h (Function.update e x m) else 0)
      (by
        intro m hm
        split
        · rename_i hm'
          apply (c3 _ (hin m hm')).1
          intro k hk
          rw [Function.update_self, Function.update_idem, Function.update_self, hu]
          exact hm k hk
        · rfl)
      (by
        intro m L hL hgL hlast
        have hm' : m < n + 1 := by rw [← hgL]; exact hgl L hL
        rw [if_pos hm']
        apply (c3 _ (hin m hm')).2 L hL
        · rw [Function.update_self, Function.update_idem, Function.update_self, hu]; exact hgL
        · intro k hk
          rw [Function.update_self, Function.update_idem, Function.update_self, hu]
          exact hlast k hk)
    simp only [if_pos (hgl i hi)] at e1
    have hgl' : groupOf s i - 1 < n + 1 := by have := hgl i hi; omega
    simp only [if_pos hgl'] at e2
    simp only [Function.update_self, Function.update_idem]
    have hu2 : (fun k => f (Function.update e x ((asrt (lineOf f x n (Function.update e x k))).getD k 0))) = s := by
      funext k
      rw [lineOf_update]
    rw [hu2]
    unfold rankOf
    simp only
    rw [e1, e2, e3]

end NA
