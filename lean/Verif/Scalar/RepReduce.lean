import Verif.Scalar.Rep
import Verif.Props.Reductions

/-! Reductions of arrays which represent functions of named indices. -/

namespace NA
open Dict
open SA (FitsIn InRange)

variable {α β γ : Type}

/-- the size of an axis -/
def sizeIn (S : Shape) (ax : String) : Nat := (get? S ax).getD 0

/-- `S` without the axes `A` -/
def without (S : Shape) (A : List String) : Shape := S.filter (fun p => p.1 ∉ A)

theorem get?_without (S : Shape) (A : List String) (ax : String) :
    get? (without S A) ax = if ax ∈ A then none else get? S ax := by
  unfold without
  rw [SA.get?_filter S (fun k => k ∉ A)]
  by_cases h : ax ∈ A <;> simp [h]

theorem inRange_without {S : Shape} (A : List String) {e : String → Nat} (he : InRange S e) : InRange (without S A) e := by
  intro ax n hn
  rw [get?_without] at hn
  split at hn
  · cases hn
  · exact he ax n hn

/-- The axes over which a reduction with the argument `axis` goes. -/
def Reduces (axis : Option (List String)) (axes : List String) (A : List String) : Prop :=
  match axis with
  | some A' => A' = A
  | none => ∀ ax, ax ∈ A ↔ ax ∈ axes

theorem reduce_axis {a : SA α} (ha : a.WF) {wh : Option (SA Bool)} (hw : SA.WhereOk a wh) {axis : Option (List String)}
    {A : List String} (hA : A.Nodup) (hax : Reduces axis a.axes A) (need : Bool) (f : List α → β) (kd : Bool) :
    SA.reduce need f a axis kd wh none = SA.reduce need f a (some A) kd wh none := by
  cases axis with
  | some A' => cases hax; rfl
  | none =>
    rw [SA.C17_axis_none a ha wh hw]
    apply SA.C17_axis_order
    rw [List.perm_ext_iff_of_nodup ha.2 hA]
    exact fun ax => (hax ax).symm

theorem slabEnvs_congr {A : List String} {sz sz' : String → Nat} (h : ∀ ax ∈ A, sz ax = sz' ax) {e e' : String → Nat}
    (he : ∀ ax, ax ∉ A → e ax = e' ax) : slabEnvs A sz e = slabEnvs A sz' e' := by
  unfold slabEnvs
  rw [List.map_congr_left h]
  apply List.map_congr_left
  intro i _
  funext ax
  unfold slabEnv
  split
  · rfl
  · exact he ax ‹_›

/-- Indices of a slab are in range. -/
theorem slab_inRange {S : Shape} {A : List String} (hA : A.Nodup) {e i : String → Nat} (he : InRange (without S A) e)
    (hi : i ∈ slabEnvs A (sizeIn S) e) : InRange S i := by
  obtain ⟨h1, h2⟩ := (mem_slabEnvs hA).1 hi
  intro ax n hn
  by_cases hax : ax ∈ A
  · have := h1 ax hax
    rwa [sizeIn, hn] at this
  · rw [h2 ax hax]
    exact he ax n (by rw [get?_without, if_neg hax]; exact hn)

/-- the elements which are reduced -/
def reduced (S : Shape) (A : List String) (wh : Option (SA Bool)) (e : String → Nat) : List (String → Nat) :=
  (slabEnvs A (sizeIn S) e).filter (SA.selected wh)

theorem reduced_congr {S : Shape} {A : List String} {wh : Option (SA Bool)} {e e' : String → Nat}
    (he : ∀ ax, ax ∉ A → e ax = e' ax) : reduced S A wh e = reduced S A wh e' := by
  unfold reduced
  rw [slabEnvs_congr (fun _ _ => rfl) he]

theorem rep_reduce {S : Shape} {P : String → Prop} {a : SA α} {f : (String → Nat) → α} (ha : Rep S P a f)
    {A : List String} (hA : A.Nodup) (hAP : ∀ ax ∈ A, P ax) (hAs : ∀ ax ∈ A, ax ∈ keys S)
    {wh : Option (SA Bool)} (hw : SA.WhereOk a wh) {axis : Option (List String)} (hax : Reduces axis a.axes A)
    {k : List α → β} (hk : SA.Orderless k) :
    ∃ r, SA.reduce false k a axis false wh none = .ok r ∧
      Rep (without S A) (fun ax => P ax ∧ ax ∉ A) r (fun e => k ((reduced S A wh e).map f)) := by
  rw [reduce_axis ha.wf hw hA hax]
  have hAa : A ⊆ a.axes := by
    intro ax h
    rw [← SA.keys_shape ha.wf]
    obtain ⟨n, hn⟩ := exists_get?_of_mem (hAs ax h)
    exact mem_keys_of_get? ((ha.full ax (hAP ax h)).trans hn)
  obtain ⟨r, r1, r2, r3, r4, _⟩ := SA.C17_reduce a ha.wf wh hw A hA hAa false k false (by simp)
  have hsz : ∀ ax ∈ A, sizeIn a.shape ax = sizeIn S ax := by
    intro ax h
    unfold sizeIn
    rw [ha.full ax (hAP ax h)]
  refine ⟨r, r1, r2, ?_, ?_, ?_⟩
  · intro ax m hm
    rw [r4] at hm
    rw [get?_without]
    split at hm
    · simp at hm
    · rename_i h
      rw [if_neg h]
      exact ha.fits ax m hm
  · intro ax hPax
    rw [r4, get?_without, if_neg hPax.2, if_neg hPax.2]
    exact ha.full ax hPax.1
  · intro e he
    unfold SA.atB
    set e' : String → Nat := fun ax => if get? r.shape ax = some 1 then 0 else e ax with he'
    have hslab : SA.IsSlab a A e' (slabEnvs A (sizeIn S) e') := by
      refine ⟨nodup_slabEnvs hA _ _, fun i => ?_⟩
      rw [mem_slabEnvs hA]
      refine and_congr ?_ Iff.rfl
      refine forall_congr' fun ax => forall_congr' fun h => ?_
      obtain ⟨n, hn⟩ := exists_get?_of_mem (hAs ax h)
      have h2 : get? a.shape ax = some n := (ha.full ax (hAP ax h)).trans hn
      rw [h2]
      simp [sizeIn, hn]
    rw [SA.C17_reduce_orderless a ha.wf wh hw A hA hAa false k hk false r r1 e' _ hslab]
    congr 1
    -- the two slabs correspond to each other element by element
    have hcorr : ∀ i, SA.selected wh (slabEnv A i e') = SA.selected wh (slabEnv A i e) := by
      intro i
      cases wh with
      | none => rfl
      | some w =>
        obtain ⟨w1, w2⟩ := hw w rfl
        unfold SA.selected SA.atB
        apply SA.at'_congr
        intro ax hax'
        by_cases h1 : get? w.shape ax = some 1
        · simp [h1]
        · simp only [h1, if_false]
          unfold slabEnv
          split
          · rfl
          · rename_i hA'
            rw [he']
            simp only
            split
            · rename_i h2
              rw [r4, if_neg hA'] at h2
              obtain ⟨m, hm⟩ := exists_get?_of_mem (d := w.shape) (by rw [SA.keys_shape w1]; exact hax')
              obtain ⟨n, hn, hmn⟩ := w2 ax m hm
              rw [h2] at hn
              injection hn with hn
              exact absurd (show get? w.shape ax = some 1 by rw [hm]; congr 1; omega) h1
            · rfl
    have hval : ∀ i, ND.InRange (A.map (sizeIn S)) i → a.at' (slabEnv A i e') = f (slabEnv A i e) := by
      intro i hi
      have hil : i.length = A.length := by simpa using ND.inRange_length hi
      have hiA : ∀ ax ∈ A, slabEnv A i e ax < sizeIn S ax := by
        have h5 := map_slabEnv hA hil e
        rw [← h5] at hi
        exact SA.inRange_map.1 hi
      have hin : InRange S (slabEnv A i e) := by
        intro ax n hn
        by_cases hax' : ax ∈ A
        · have := hiA ax hax'
          rwa [sizeIn, hn] at this
        · unfold slabEnv
          rw [if_neg hax']
          exact he ax n (by rw [get?_without, if_neg hax']; exact hn)
      rw [← ha.val _ hin]
      unfold SA.atB
      apply SA.at'_congr
      intro ax hax'
      unfold slabEnv
      by_cases hAx : ax ∈ A
      · rw [if_pos hAx]
        split
        · rename_i h1
          have := hiA ax hAx
          rw [← hsz ax hAx, sizeIn, h1] at this
          unfold slabEnv at this
          rw [if_pos hAx] at this
          have h7 : (some 1 : Option Nat).getD 0 = 1 := rfl
          rw [h7] at this
          omega
        · rfl
      · rw [if_neg hAx, if_neg hAx, he']
        simp only
        rw [r4, if_neg hAx]
    unfold reduced slabEnvs
    rw [List.filter_map, List.filter_map, List.map_map, List.map_map]
    have h6 : (SA.selected wh ∘ fun i => slabEnv A i e') = (SA.selected wh ∘ fun i => slabEnv A i e) := by
      funext i; exact hcorr i
    rw [h6]
    apply List.map_congr_left
    intro i hi
    exact hval i (ND.mem_ndIndices_iff.1 (List.mem_of_mem_filter hi))

/-- the same on a larger shape -/
theorem Rep.extend {S : Shape} {A : List String} {P : String → Prop} {a : SA α} {f : (String → Nat) → α} (h : Rep (without S A) P a f) :
    Rep S (fun _ => False) a f :=
  ⟨h.wf, fun ax m hm => by
    obtain ⟨n, hn, hmn⟩ := h.fits ax m hm
    rw [get?_without] at hn
    split at hn
    · cases hn
    · exact ⟨n, hn, hmn⟩, fun _ hf => hf.elim, fun e he => h.val e (inRange_without A he)⟩

end NA
