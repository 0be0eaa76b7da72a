import Verif.Stats.RankLine
import Verif.Props.Ordering
import Verif.Scalar.RepReduce

/-! Combining the axes along which an array is ranked. -/

namespace NA
open Dict
open SA (FitsIn InRange)

variable {α β : Type}

/-- `S` with the axes `A` replaced by one axis, named after them, whose size is the number of their indices -/
def combined (S : Shape) (A : List String) : Shape :=
  S.filter (fun p => p.1 ∉ A) ++ [("*".intercalate A, (A.map (sizeIn S)).prod)]

/-- The named index of the element which is at the index `e` after combining the axes `A`: the
axes `A` get the digits of the index along the combined axis. -/
def original (S : Shape) (A : List String) (e : String → Nat) : String → Nat :=
  SA.splitIndex A (A.map (sizeIn S)) ("*".intercalate A) e

theorem get?_combined {S : Shape} {A : List String} (hcoll : ∀ ax ∈ keys S, ax ∉ A → ax ≠ "*".intercalate A) (ax : String) :
    get? (combined S A) ax = if ax = "*".intercalate A then some (A.map (sizeIn S)).prod
      else if ax ∈ A then none else get? S ax := by
  unfold combined
  rw [SA.get?_append, SA.get?_filter S (fun k => k ∉ A), get?_cons, get?_nil]
  by_cases h1 : ax = "*".intercalate A
  · have h2 : ax ∈ A ∨ get? S ax = none := by
      by_cases h3 : ax ∈ A
      · exact .inl h3
      · right
        rw [get?_eq_none]
        intro h4
        exact hcoll ax h4 h3 h1
    rw [← h1]
    rcases h2 with h2 | h2 <;> simp [h2]
  · have h1' : ¬ "*".intercalate A = ax := fun h => h1 h.symm
    by_cases h3 : ax ∈ A <;> simp [h1, h1', h3]

theorem is_combineAxes {S : Shape} {a : SA α} {f : (String → Nat) → α} (ha : Is S a f) {A : List String}
    (hA : A.Nodup) (hAs : ∀ ax ∈ A, ax ∈ keys S)
    (hcoll : ∀ ax ∈ keys S, ax ∉ A → ax ≠ "*".intercalate A) (hpos : ∀ ax n, get? S ax = some n → n ≠ 0) :
    ∃ b, a.combineAxes (some A) (some ("*".intercalate A)) = .ok b ∧ Is (combined S A) b (fun e => f (original S A e)) := by
  have hkeys : ∀ ax, ax ∈ a.axes ↔ ax ∈ keys S := by
    intro ax
    rw [← SA.keys_shape ha.wf]
    have h0 := ha.shape ax
    constructor
    · intro h
      obtain ⟨n, hn⟩ := exists_get?_of_mem h
      exact mem_keys_of_get? (h0 ▸ hn)
    · intro h
      obtain ⟨n, hn⟩ := exists_get?_of_mem h
      exact mem_keys_of_get? (h0.symm ▸ hn)
  have hsz : A.map (fun ax => (get? a.shape ax).getD 0) = A.map (sizeIn S) := by
    apply List.map_congr_left
    intro ax _
    unfold sizeIn
    rw [ha.shape]
  obtain ⟨r, r1, r2, r3, r4, r5, r6⟩ := SA.C11_combine_axes_partial a ha.wf A hA (fun ax hax => (hkeys ax).2 (hAs ax hax))
    ("*".intercalate A) (by
      intro h
      simp only [List.mem_filter, decide_eq_true_eq] at h
      exact hcoll _ ((hkeys _).1 h.1) h.2 rfl) (fun ax _ _ h0 => hpos ax 0 (by rw [← ha.shape]; exact h0) rfl)
  have hsame : Same r.shape (combined S A) := by
    intro ax
    rw [get?_combined hcoll]
    by_cases h2 : ax = "*".intercalate A
    · rw [if_pos h2, h2, r4, hsz]
    · rw [if_neg h2]
      by_cases h3 : ax ∈ A
      · rw [if_pos h3]
        apply (SA.get?_shape_none r2).2
        rw [r3]
        simp [h3, h2]
      · rw [if_neg h3]
        by_cases h4 : ax ∈ a.axes
        · rw [r5 ax h4 h3, ha.shape]
        · rw [(SA.get?_shape_none r2).2 (by rw [r3]; simp [h4, h2])]
          symm
          rw [get?_eq_none]
          exact fun h => h4 ((hkeys ax).2 h)
  refine ⟨r, r1, r2, hsame, ?_⟩
  intro e he
  rw [r6 e (inRange_same (same_symm hsame) he), hsz]
  apply ha.elem
  intro ax m hm
  unfold SA.splitIndex
  split
  · rename_i h
    have hlt : e ("*".intercalate A) < (A.map (sizeIn S)).prod := he _ _ (by rw [get?_combined hcoll, if_pos rfl])
    have h3 := ND.inRange_unravel hlt
    have h4 : A.map (SA.splitIndex A (A.map (sizeIn S)) ("*".intercalate A) e) = ND.unravel (A.map (sizeIn S)) (e ("*".intercalate A)) := by
      have := map_slabEnv hA (i := ND.unravel (A.map (sizeIn S)) (e ("*".intercalate A))) (by simp [ND.length_unravel]) e
      exact this
    rw [← h4] at h3
    have h5 := (SA.inRange_map (axes := A) (e := SA.splitIndex A (A.map (sizeIn S)) ("*".intercalate A) e) (sz := sizeIn S)).1 h3 ax h
    unfold SA.splitIndex at h5
    rw [if_pos h] at h5
    have : sizeIn S ax = m := by unfold sizeIn; rw [hm]; rfl
    omega
  · rename_i h
    apply he
    rw [get?_combined hcoll, if_neg (hcoll ax (mem_keys_of_get? hm) h), if_neg h]
    exact hm

theorem is_combineMany {S : Shape} {a : SA α} {f : (String → Nat) → α} (ha : Is S a f) {A : List String}
    (hA : A.Nodup) (hAne : A ≠ []) (hAs : ∀ ax ∈ A, ax ∈ keys S)
    (hcoll : ∀ ax ∈ keys S, ax ∉ A → ax ≠ "*".intercalate A) (hpos : ∀ ax n, get? S ax = some n → n ≠ 0) :
    ∃ b, a.combineMany A ("*".intercalate A) = .ok b ∧ Is (combined S A) b (fun e => f (original S A e)) := by
  have hkeys : ∀ ax, ax ∈ a.axes ↔ ax ∈ keys S := by
    intro ax
    rw [← SA.keys_shape ha.wf]
    have h0 := ha.shape ax
    constructor
    · intro h
      obtain ⟨n, hn⟩ := exists_get?_of_mem h
      exact mem_keys_of_get? (h0 ▸ hn)
    · intro h
      obtain ⟨n, hn⟩ := exists_get?_of_mem h
      exact mem_keys_of_get? (h0.symm ▸ hn)
  have hsz : A.map (fun ax => (get? a.shape ax).getD 0) = A.map (sizeIn S) := by
    apply List.map_congr_left
    intro ax _
    unfold sizeIn
    rw [ha.shape]
  unfold SA.combineMany
  by_cases h1 : A.length = 1
  · obtain ⟨x, rfl⟩ := List.length_eq_one_iff.1 h1
    rw [if_pos h1]
    have hic : "*".intercalate [x] = x := rfl
    obtain ⟨n, hn⟩ := exists_get?_of_mem (hAs x (by simp))
    refine ⟨a, rfl, ha.wf, ?_, ?_⟩
    · intro ax
      rw [get?_combined hcoll, ha.shape, hic]
      by_cases hax : ax = x
      · subst hax; simp [hn, sizeIn]
      · simp [hax]
    · intro e he
      have hex : e x < n := he x n (by rw [get?_combined hcoll, hic]; simp [hn, sizeIn])
      have : original S [x] e = e := by
        funext ax
        unfold original SA.splitIndex
        rw [hic]
        split
        · rename_i h
          have h2 := List.mem_singleton.1 h
          subst h2
          simp [ND.unravel]
        · rfl
      rw [this]
      apply ha.elem
      intro ax m hm
      apply he
      rw [get?_combined hcoll, hic]
      by_cases hax : ax = x
      · subst hax; rw [hn] at hm; cases hm; simp [hn, sizeIn]
      · simp [hax, hm]
  · rw [if_neg h1]
    exact is_combineAxes ha hA hAs hcoll hpos

end NA
