import Verif.Props.Uncertain
import Verif.Props.Sorting
import Verif.Props.Reductions
import Verif.Props.Indexing

/-!
# Sorting uncertain scalars (C62)
-/

namespace NA
open Dict
open SA (FitsIn InRange)

namespace SA
variable {α β : Type}

/-- The positions found by `argsort`: a dictionary of index arrays of a common shape `T`, which select the
element `σ e` for the position `e`. -/
theorem argsort_positions {a : SA α} (ha : a.WF) {A : List String} (hA : A.Nodup) (hAne : A ≠ [])
    (hAs : A ⊆ a.axes) (hcoll : ∀ ax ∈ a.axes, ax ∉ A → ax ≠ "*".intercalate A)
    (hpos : ∀ ax ∈ a.axes, ax ∉ A → get? a.shape ax ≠ some 0)
    (asrt : List α → List Nat) (hasrt : ∀ l, (asrt l).Perm (List.range l.length)) :
    ∃ (d : Dict (SA Int)) (T : Shape) (σ : (String → Nat) → String → Nat),
      argsort asrt a (some A) = .ok d ∧ Dict.WF d ∧ (∀ ax, ax ∈ keys d ↔ ax ∈ a.axes) ∧
      (∀ b ∈ d.values, b.WF) ∧ broadcastShapes (d.values.map SA.shape) = .ok T ∧ Dict.WF T ∧
      keys T = a.axes.filter (· ∉ A) ++ ["*".intercalate A] ∧
      get? T ("*".intercalate A) = some (A.map a.sizeOf').prod ∧
      (∀ ax ∈ a.axes, ax ∉ A → get? T ax = get? a.shape ax) ∧
      (∀ e ax, ax ∉ A → σ e ax = e ax) ∧
      (∀ e, InRange T e → ∀ ax b, get? d ax = some b → b.atB e = (σ e ax : Int)) ∧
      (∀ ax b, get? d ax = some b → ∀ e, InRange b.shape e → ND.ValidIndex (a.sizeOf' ax) (b.at' e)) ∧
      ∀ e, InRange T e → ∃ p, (asrt (slabList a A e))[e ("*".intercalate A)]? = some p ∧
        ∀ ax ∈ A, σ e ax = (ND.unravel (A.map a.sizeOf') p).getD (A.idxOf ax) 0 := by
  have hnewr : "*".intercalate A ∉ a.axes.filter (· ∉ A) := by
    intro h
    simp only [List.mem_filter, decide_eq_true_eq] at h
    exact hcoll _ h.1 h.2 rfl
  obtain ⟨flat, nd, h1, h2, h3, h4, h5, h6, h7, h8⟩ := along_combined ha hA hAs hnewr hpos
    (fun l k => (asrt l).getD k 0)
  set indices : SA Nat := ⟨flat.axes, nd⟩ with hind
  have hrange : ∀ e, InRange indices.shape e → (∀ ax ∈ a.axes, ax ∉ A → e ax < a.sizeOf' ax) := by
    intro e he ax hax hx
    obtain ⟨n, hn⟩ := exists_get?_of_mem (d := a.shape) (by rw [keys_shape ha]; exact hax)
    have := he ax n (by rw [h7 ax hax hx, hn])
    simpa [sizeOf', hn] using this
  have hal : ∀ l, (asrt l).length = l.length := by
    intro l
    simpa using (hasrt l).length_eq
  have hlt : ∀ e, InRange indices.shape e →
      ∃ h : e ("*".intercalate A) < (asrt (slabList a A e)).length,
        indices.at' e = (asrt (slabList a A e))[e ("*".intercalate A)] := by
    intro e he
    have h : e ("*".intercalate A) < (asrt (slabList a A e)).length := by
      rw [hal, length_slabList]
      exact he _ _ h6
    exact ⟨h, by rw [h8 e (hrange e he), List.getD_eq_getElem _ _ h]⟩
  have hval : ∀ e, InRange indices.shape e → indices.at' e < (A.map a.sizeOf').prod := by
    intro e he
    obtain ⟨h, heq⟩ := hlt e he
    rw [heq, ← length_slabList a A e]
    have := (hasrt (slabList a A e)).mem_iff.1 (List.getElem_mem h)
    exact List.mem_range.1 this
  obtain ⟨d, k1, k2, k3, k4, k5, k6, _⟩ := getitem_unravel' ha hA hAne hAs h5 h7 hval
  have hargs : argsort asrt a (some A) = .ok (a.completeIndex d) := by
    unfold argsort
    simp only [bind, Except.bind, Option.getD_some, Option.isSome_some, true_and]
    rw [if_neg (by
      rintro (h | h)
      · cases A <;> simp_all
      · exact h (fun ax hax => hAs hax))]
    simp only [Option.isNone_some, Bool.false_eq_true, false_and, if_false]
    rw [flattenAxes_ok hAne]
    have hmk : mk? nd flat.axes = .ok indices := mk?_of_wf h5.1 h5.2
    simp only [h1, pyTupleIndex, if_pos h3, h4, hmk]
    have : A.map (fun ax => (ax, (get? a.shape ax).getD 0)) = A.map (fun ax => (ax, a.sizeOf' ax)) := rfl
    rw [this, k1]
  refine ⟨a.completeIndex d, indices.shape,
    fun e => slabEnv A (ND.unravel (A.map a.sizeOf') (indices.at' e)) e, hargs, k5, k2, ?_, k6, wf_shape h5,
    by rw [keys_shape h5]; exact h2, h6, h7, ?_, ?_, ?_, ?_⟩
  · intro b hb
    obtain ⟨p, hp, rfl⟩ := List.mem_map.1 hb
    have hg := get?_of_mem k5 hp
    have hpk := (k2 p.1).1 (mem_keys_of_get? hg)
    by_cases hx : p.1 ∈ A
    · obtain ⟨b', g1, g2, _⟩ := k3 p.1 hx
      rw [hg] at g1
      injection g1 with g1
      rw [g1]; exact g2
    · have g1 := k4 p.1 hpk hx
      rw [hg] at g1
      injection g1 with g1
      rw [g1]; exact wf_arange _ _
  · intro e ax hx
    simp [slabEnv, hx]
  · intro e he ax b hb
    have hax := (k2 ax).1 (mem_keys_of_get? hb)
    by_cases hx : ax ∈ A
    · obtain ⟨b', g1, g2, _, g3, g4⟩ := k3 ax hx
      rw [hb] at g1
      injection g1 with g1
      subst g1
      rw [atB_eq_at' g2 (by rw [g3]; exact he), g4]
      simp only [slabEnv, if_pos hx]
    · have g1 := k4 ax hax hx
      rw [hb] at g1
      injection g1 with g1
      subst g1
      rw [atB_eq_at' (wf_arange _ _)]
      · simp only [slabEnv, if_neg hx]
        rfl
      · intro ax' m hm
        rw [shape_arange, get?_cons, get?_nil] at hm
        split at hm
        · next h =>
          subst h
          injection hm with hm
          subst hm
          exact hrange e he ax hax hx
        · cases hm
  · intro ax b hb e he
    have hax := (k2 ax).1 (mem_keys_of_get? hb)
    by_cases hx : ax ∈ A
    · obtain ⟨b', g1, g2, _, g3, g4⟩ := k3 ax hx
      rw [hb] at g1
      injection g1 with g1
      subst g1
      rw [g3] at he
      have hir := ND.inRange_unravel (hval e he)
      have hl : (ND.unravel (A.map a.sizeOf') (indices.at' e)).length = A.length := by
        rw [ND.length_unravel]; simp
      rw [← map_envOf hA hl, inRange_map] at hir
      have h9 := hir ax hx
      rw [g4]
      unfold envOf at h9
      unfold ND.ValidIndex
      omega
    · have g1 := k4 ax hax hx
      rw [hb] at g1
      injection g1 with g1
      subst g1
      have h9 := he ax _ (by rw [shape_arange, get?_cons, if_pos rfl])
      show ND.ValidIndex _ ((e ax : Nat) : Int)
      unfold ND.ValidIndex
      omega
  · intro e he
    obtain ⟨h, heq⟩ := hlt e he
    refine ⟨indices.at' e, by rw [heq, List.getElem?_eq_getElem h], fun ax hx => ?_⟩
    simp only [slabEnv, if_pos hx]

/-- Indexing an array, which may have more axes, by such a dictionary. -/
theorem getitem_positions {c : SA β} (hc : c.WF) {d : Dict (SA Int)} (hd : Dict.WF d)
    (hk : ∀ ax ∈ keys d, ax ∈ c.axes) (hb : ∀ b ∈ d.values, b.WF) {T : Shape}
    (hT : broadcastShapes (d.values.map SA.shape) = .ok T)
    (hTc : ∀ ax ∈ keys T, ax ∈ c.axes → ax ∈ keys d) {σ : (String → Nat) → String → Nat}
    (h1 : ∀ e, InRange T e → ∀ ax b, get? d ax = some b → b.atB e = (σ e ax : Int))
    (h2 : ∀ ax b, get? d ax = some b → ∀ e, InRange b.shape e → ND.ValidIndex (c.sizeOf' ax) (b.at' e))
    (h3 : ∀ e ax, ax ∈ c.axes → ax ∉ keys d → σ e ax = e ax) :
    ∃ r, c.getitem (asItem d) = .ok r ∧ r.WF ∧
      r.axes = keys T ++ c.axes.filter (· ∉ keys d) ∧
      (∀ ax ∈ keys T, get? r.shape ax = get? T ax) ∧
      (∀ ax ∈ c.axes, ax ∉ keys d → get? r.shape ax = get? c.shape ax) ∧
      ∀ e, InRange T e → r.at' e = c.at' (σ e) := by
  have hTw : Dict.WF T := by
    refine (C01_broadcast_shapes_ok _ ?_ T hT).1
    intro s hs
    obtain ⟨b, hb', rfl⟩ := List.mem_map.1 hs
    exact wf_shape (hb b hb')
  have hg : ∀ ax, get? (asItem d) ax = (get? d ax).map IndexVal.arr := by
    intro ax
    unfold asItem
    exact get?_map_pair d (fun _ b => IndexVal.arr b) ax
  have hkk : keys (asItem d) = keys d := by
    unfold asItem keys; rw [List.map_map]; rfl
  have hiw : ItemWF (asItem d) := by
    refine ⟨by unfold Dict.WF; rw [hkk]; exact hd, fun ax b hm => ?_⟩
    unfold asItem at hm
    obtain ⟨p, hp, he⟩ := List.mem_map.1 hm
    cases he
    exact hb _ (List.mem_map.2 ⟨p, hp, rfl⟩)
  have hkn : known c.axes (asItem d) = asItem d := by
    unfold known
    rw [List.filter_eq_self]
    intro p hp
    have : p.1 ∈ keys (asItem d) := List.mem_map.2 ⟨p, hp, rfl⟩
    rw [hkk] at this
    simpa using hk _ this
  have har : arrayShapes (asItem d) = d.values.map SA.shape := by
    unfold arrayShapes asItem Dict.values
    rw [List.filterMap_map, List.map_map]
    induction d with
    | nil => rfl
    | cons p d ih => simp
  have hint : ∀ ax, ¬ IntAt (asItem d) ax := by
    rintro ax ⟨i, hi⟩
    rw [hg] at hi
    cases h : get? d ax with
    | none => rw [h] at hi; cases hi
    | some b => rw [h] at hi; cases hi
  have hslice : ∀ ax sl, get? (asItem d) ax ≠ some (.slice sl) := by
    intro ax sl hi
    rw [hg] at hi
    cases h : get? d ax with
    | none => rw [h] at hi; cases hi
    | some b => rw [h] at hi; cases hi
  obtain ⟨r, rest, r1, r2, r3, r4, r5, r6, r7, r8⟩ := C14_getitem_arrays c hc (asItem d) hiw T
    (by rw [hkn, har]; exact hT) (fun ax _ sl h => absurd h (hslice ax sl)) (by
      intro ax n hn
      refine ⟨fun i hi => absurd ⟨i, hi⟩ (hint ax), fun b hb' e he => ?_⟩
      rw [hg] at hb'
      cases h : get? d ax with
      | none => rw [h] at hb'; cases hb'
      | some b' =>
        rw [h] at hb'
        injection hb' with hb'
        injection hb' with hb'
        subst hb'
        have := h2 ax b' h e he
        simpa [sizeOf', hn] using this) (by
      intro ax hT' hax
      right
      obtain ⟨b, hb'⟩ := exists_get?_of_mem (hTc ax hT' hax)
      exact ⟨b, by rw [hg, hb']; rfl⟩)
  have hmem : ∀ ax, ax ∈ rest ↔ ax ∈ c.axes ∧ ax ∉ keys d := by
    intro ax
    rw [r5]
    refine and_congr_right fun _ => ?_
    constructor
    · rintro ⟨_, h⟩ hk'
      obtain ⟨b, hb'⟩ := exists_get?_of_mem hk'
      exact h b (by rw [hg, hb']; rfl)
    · intro h
      refine ⟨hint ax, fun b hb' => h ?_⟩
      rw [hg] at hb'
      cases h' : get? d ax with
      | none => rw [h'] at hb'; cases hb'
      | some b => exact mem_keys_of_get? h'
  have hrest : rest = c.axes.filter (· ∉ keys d) := by
    have e1 : rest = rest.filter (· ∉ keys d) := by
      symm
      rw [List.filter_eq_self]
      intro ax h
      simpa using ((hmem ax).1 h).2
    have e2 : List.Sublist rest (c.axes.filter (· ∉ keys d)) := by
      have := r4.filter (· ∉ keys d)
      rw [← e1] at this
      exact this
    refine e2.eq_of_length_le ?_
    refine (List.Nodup.subperm (hc.2.filter _) ?_).length_le
    intro ax h
    rw [List.mem_filter, decide_eq_true_eq] at h
    exact (hmem ax).2 h
  refine ⟨r, r1, r2, by rw [r3, hrest], r6, ?_, fun e he => ?_⟩
  · intro ax hax hn
    rw [r7 ax ((hmem ax).2 ⟨hax, hn⟩)]
    have : get? (asItem d) ax = none := by rw [hg, get?_eq_none.2 hn]; rfl
    unfold selLen
    rw [this]
    obtain ⟨n, hn⟩ := exists_get?_of_mem (d := c.shape) (by rw [keys_shape hc]; exact hax)
    simp [hn]
  · rw [r8 e]
    refine at'_congr fun ax hax => ?_
    unfold selIdx
    rw [hg]
    by_cases hn : ax ∈ keys d
    · obtain ⟨b, hb'⟩ := exists_get?_of_mem hn
      simp only [hb', Option.map_some]
      rw [h1 e he ax b hb', pyIndex_nat]
    · simp only [get?_eq_none.2 hn, Option.map_none]
      exact (h3 e ax hax hn).symm

end SA

namespace UA
variable {α : Type}

/-- `np.argsort` of a list: each position once, in the order of the values. -/
def ArgSorts (le : α → α → Prop) (asrt : List α → List Nat) : Prop :=
  ∀ l, (asrt l).Perm (List.range l.length) ∧ ((asrt l).filterMap (l[·]?)).Pairwise le

/-- The mean of the `K` samples of the element at a named index. -/
def meanAt (mean : List α → α) (u : UA α) (K : Nat) (e : String → Nat) : α :=
  mean ((List.range K).map (fun k => u.sampleAt k e))

/-- the size of an axis of a shape -/
def sizeIn (s : Shape) (ax : String) : Nat := (get? s ax).getD 0

/-- The means of the samples. -/
theorem mean_main {u : UA α} (hu : u.Valid) {s : Shape} (hs : u.shape = .ok s) {K : Nat}
    (hK : get? u.distribution.shape axisD = some K) (mean : List α → α) (hm : SA.Orderless mean) {v : UA α}
    (hb : u.broadcasted = .ok v) :
    ∃ m, (v.distribution.reduce false mean (some [axisD]) false none none) = .ok m ∧ m.WF ∧ m.shape = s ∧
      ∀ e, m.at' e = meanAt mean u K e := by
  obtain ⟨sd, v', hS, hb', hv, v1, v2, v3, v4, v5⟩ := broadcasted_main hu hs
  have : v' = v := by rw [hb] at hb'; cases hb'; rfl
  subst this
  have hDd : axisD ∈ u.distribution.axes := by rw [← SA.keys_shape hu.2.1]; exact mem_keys_of_get? hK
  have hax : v'.distribution.axes = keys s ++ [axisD] := by
    rw [← SA.keys_shape hv.2.1, v2, hS.last, if_pos hDd]
  have hwo : SA.WhereOk v'.distribution none := by intro w h; cases h
  obtain ⟨m, m1, m2, m3, m4, _⟩ := SA.C17_reduce v'.distribution hv.2.1 none hwo [axisD] (by simp)
    (by intro ax h; rw [hax]; simp at h; simp [h]) false mean false (by simp)
  have hgK : get? v'.distribution.shape axisD = some K := by rw [v2, hS.get, if_pos rfl, hK]
  refine ⟨m, m1, m2, ?_, fun e => ?_⟩
  · refine dict_ext (SA.wf_shape m2) ?_ fun ax => ?_
    · rw [SA.keys_shape m2, m3, hax, if_neg (by simp), List.filter_append, List.filter_eq_self.2]
      · simp
      · intro ax h
        have : ax ≠ axisD := by rintro rfl; exact hS.noD h
        simpa using this
    · rw [m4, v2, hS.get]
      by_cases h : ax = axisD
      · subst h
        simp [get?_eq_none.2 hS.noD]
      · simp [h]
  · rw [SA.C17_reduce_orderless v'.distribution hv.2.1 none hwo [axisD] (by simp)
      (by intro ax h; rw [hax]; simp at h; simp [h]) false mean hm false m m1 e
      ((List.range K).map (fun k => Function.update e axisD k)) ⟨?_, ?_⟩]
    · unfold meanAt sampleAt
      congr 1
      have : ∀ l : List (String → Nat), l.filter (SA.selected none) = l := fun l =>
        List.filter_eq_self.2 fun _ _ => rfl
      rw [this, List.map_map]
      exact List.map_congr_left fun k _ => v5 _
    · refine List.Nodup.map_on ?_ List.nodup_range
      intro i _ j _ hij
      have := congrFun hij axisD
      simpa using this
    · intro e'
      simp only [List.mem_map, List.mem_range, List.mem_singleton, forall_eq, hgK]
      constructor
      · rintro ⟨k, hk, rfl⟩
        exact ⟨⟨K, rfl, by simpa using hk⟩, fun ax h => by simp [h]⟩
      · rintro ⟨⟨n, hn, h⟩, h'⟩
        cases hn
        refine ⟨e' axisD, h, ?_⟩
        funext ax
        by_cases hx : ax = axisD
        · subst hx; simp
        · simp [hx, h' ax hx]

/-- **C62**. Sorting an uncertain scalar along the axes `A` (all axes by default) permutes the elements, each
together with all of its samples, into the order of the means of the samples.  `σ e` is the element of the
array which is found at position `e` of the sorted array.  The sorted axis is named `"*".join(A)`. -/
theorem C62_sort (u : UA α) (hu : u.Valid) (s : Shape) (hs : u.shape = .ok s) (K : Nat)
    (hK : get? u.distribution.shape axisD = some K) (mean : List α → α) (hm : SA.Orderless mean)
    (le : α → α → Prop) (asrt : List α → List Nat) (hasrt : ArgSorts le asrt)
    (axis : Option (List String)) (A : List String) (hAA : A = axis.getD (keys s)) (hA : A.Nodup) (hAne : A ≠ [])
    (hAs : A ⊆ keys s) (hcoll : ∀ ax ∈ keys s, ax ∉ A → ax ≠ "*".intercalate A)
    (hpos : ∀ ax ∈ keys s, ax ∉ A → get? s ax ≠ some 0) :
    ∃ (r : UA α) (σ : (String → Nat) → String → Nat), u.sort mean asrt axis = .ok r ∧ r.Valid ∧
      -- the shape
      (∀ ax, ax ∈ r.nominal.axes ↔ (ax ∈ keys s ∧ ax ∉ A) ∨ ax = "*".intercalate A) ∧
      get? r.nominal.shape ("*".intercalate A) = some (A.map (sizeIn s)).prod ∧
      (∀ ax ∈ keys s, ax ∉ A → get? r.nominal.shape ax = get? s ax) ∧
      (∀ ax, get? r.distribution.shape ax = if ax = axisD then some K else get? r.nominal.shape ax) ∧
      -- the elements
      (∀ e, InRange r.nominal.shape e →
        r.nominal.at' e = u.nominal.atB (σ e) ∧ r.distribution.at' e = u.distribution.atB (σ e)) ∧
      -- they are a permutation of the elements which only differ along `A`
      (∀ e ax, ax ∉ A → σ e ax = e ax) ∧
      (∀ e, (∀ ax ∈ keys s, ax ∉ A → e ax < sizeIn s ax) →
        ∀ e' : String → Nat, (∀ ax ∈ A, e' ax < sizeIn s ax) →
          ∃! j, j < (A.map (sizeIn s)).prod ∧
            ∀ ax ∈ A, σ (Function.update e ("*".intercalate A) j) ax = e' ax) ∧
      -- in the order of the means
      ∀ e, (∀ ax ∈ keys s, ax ∉ A → e ax < sizeIn s ax) →
        ∀ i j, i < j → j < (A.map (sizeIn s)).prod →
          le (u.meanAt mean K (σ (Function.update e ("*".intercalate A) i)))
            (u.meanAt mean K (σ (Function.update e ("*".intercalate A) j))) := by
  obtain ⟨sd, v, hS, hb, hv, v1, v2, v3, v4, v5⟩ := broadcasted_main hu hs
  have hDd : axisD ∈ u.distribution.axes := by rw [← SA.keys_shape hu.2.1]; exact mem_keys_of_get? hK
  have hgK : get? v.distribution.shape axisD = some K := by rw [v2, hS.get, if_pos rfl, hK]
  have hdax : v.distribution.axes = keys s ++ [axisD] := by
    rw [← SA.keys_shape hv.2.1, v2, hS.last, if_pos hDd]
  have hnax : v.nominal.axes = keys s := by rw [← SA.keys_shape hv.1, v1]
  have hDA : axisD ∉ A := fun h => hS.noD (hAs h)
  have hnewD := flat_ne_axisD hDA
  -- argsort broadcasts once more
  obtain ⟨sd', v', hS', hb', _⟩ := broadcasted_main hv v3
  obtain ⟨m, m1, m2, m3, m4⟩ := mean_main hv v3 hgK mean hm hb'
  have hsame : ∀ k e, v.sampleAt k e = u.sampleAt k e := by
    intro k e
    unfold sampleAt
    rw [show ∀ e, v.distribution.atB e = v.distribution.at' (fun ax => if get? v.distribution.shape ax = some 1 then 0
      else e ax) from fun _ => rfl, v5]
    exact atB_clip hu.2.1 (by rw [v2]; exact hS.dist) _
  have m4' : ∀ e, m.at' e = u.meanAt mean K e := by
    intro e
    rw [m4]
    unfold meanAt
    simp only [hsame]
  have hmax : m.axes = keys s := by rw [← SA.keys_shape m2, m3]
  have hsz : ∀ ax, m.sizeOf' ax = sizeIn s ax := by intro ax; unfold SA.sizeOf' sizeIn; rw [m3]
  obtain ⟨d, T, σ, a1, a2, a3, a4, a5, a6, a7, a8, a9, a10, a11, a12, a13⟩ :=
    SA.argsort_positions m2 hA hAne (by rw [hmax]; exact hAs) (by rw [hmax]; exact hcoll)
      (by rw [hmax, m3]; exact hpos) asrt (fun l => (hasrt l).1)
  rw [hmax] at a3 a7 a9
  rw [m3] at a9
  have hmapsz : A.map m.sizeOf' = A.map (sizeIn s) := List.map_congr_left fun ax _ => hsz ax
  rw [hmapsz] at a8 a13
  have hargs : v.argsort mean asrt axis = .ok d := by
    unfold argsort
    simp only [hb', bind, Except.bind, m1]
    cases axis with
    | some B =>
      simp only [Option.getD_some] at hAA
      rw [← hAA]; exact a1
    | none =>
      simp only [Option.getD_none] at hAA
      rw [SA.C21_argsort_none m m2 (by rw [hmax, ← hAA]; exact hAne), hmax, ← hAA]
      exact a1
  have hTk : ∀ ax, ax ∈ keys T ↔ (ax ∈ keys s ∧ ax ∉ A) ∨ ax = "*".intercalate A := by
    intro ax
    rw [a7]
    simp
  obtain ⟨n, n1, n2, n3, n4, _, n5⟩ := SA.getitem_positions (c := v.nominal) hv.1 a2
    (by intro ax h; rw [hnax]; exact (a3 ax).1 h) a4 a5
    (by intro ax _ h; rw [hnax] at h; exact (a3 ax).2 h) a11
    (by
      intro ax b hb e he
      have := a12 ax b hb e he
      rw [hsz] at this
      unfold SA.sizeOf'
      rw [v1]
      exact this)
    (by intro e ax h h'; rw [hnax] at h; exact absurd ((a3 ax).2 h) h')
  obtain ⟨q, q1, q2, q3, q4, q6, q5⟩ := SA.getitem_positions (c := v.distribution) hv.2.1 a2
    (by intro ax h; rw [hdax]; simp [(a3 ax).1 h]) a4 a5
    (by
      intro ax hT h
      rw [hdax] at h
      simp only [List.mem_append, List.mem_singleton] at h
      rcases h with h | rfl
      · exact (a3 ax).2 h
      · exfalso
        rcases (hTk axisD).1 hT with h | h
        · exact hS.noD h.1
        · exact hnewD h.symm) a11
    (by
      intro ax b hb e he
      have := a12 ax b hb e he
      rw [hsz] at this
      unfold SA.sizeOf'
      rw [v2, hS.get, if_neg]
      · exact this
      · rintro rfl
        exact hS.noD ((a3 _).1 (mem_keys_of_get? hb)))
    (by
      intro e ax h h'
      rw [hdax] at h
      simp only [List.mem_append, List.mem_singleton] at h
      rcases h with h | rfl
      · exact absurd ((a3 ax).2 h) h'
      · exact a10 e _ hDA)
  have hnax' : n.axes = keys T := by
    rw [n3, List.filter_eq_nil_iff.2, List.append_nil]
    intro ax h
    rw [hnax] at h
    simpa using (a3 ax).2 h
  have hqax : q.axes = keys T ++ [axisD] := by
    rw [q3, hdax, List.filter_append, List.filter_eq_nil_iff.2, List.nil_append, List.filter_eq_self.2]
    · intro ax h
      simp only [List.mem_singleton] at h
      subst h
      simpa using fun h => hS.noD ((a3 _).1 h)
    · intro ax h
      simpa using (a3 ax).2 h
  have hnT : n.shape = T := by
    refine dict_ext (SA.wf_shape n2) (by rw [SA.keys_shape n2, hnax']) fun ax => ?_
    by_cases h : ax ∈ keys T
    · exact n4 ax h
    · rw [get?_eq_none.2 h, get?_eq_none.2 (by rw [SA.keys_shape n2, hnax']; exact h)]
  have hDT : axisD ∉ keys T := by
    rw [hTk]
    rintro (h | h)
    · exact hS.noD h.1
    · exact hnewD h.symm
  have hnD : axisD ∉ n.axes := by rw [hnax']; exact hDT
  -- lines of the sorted axis
  have hrangeT : ∀ e, (∀ ax ∈ keys s, ax ∉ A → e ax < sizeIn s ax) → ∀ j, j < (A.map (sizeIn s)).prod →
      InRange T (Function.update e ("*".intercalate A) j) := by
    intro e he j hj ax k hk
    by_cases hx : ax = "*".intercalate A
    · subst hx
      rw [a8] at hk
      cases hk
      simpa using hj
    · rcases (hTk ax).1 (mem_keys_of_get? hk) with h | h
      · rw [a9 ax h.1 h.2] at hk
        have := he ax h.1 h.2
        rw [sizeIn, hk] at this
        simpa [hx] using this
      · exact absurd h hx
  have hline : ∀ e j, SA.slabList m A (Function.update e ("*".intercalate A) j) = SA.slabList m A e := by
    intro e j
    refine SA.slabList_congr fun ax hax hx => ?_
    rw [hmax] at hax
    simp [hcoll ax hax hx]
  have hlen : ∀ e, (SA.slabList m A e).length = (A.map (sizeIn s)).prod := by
    intro e; rw [SA.length_slabList, hmapsz]
  have hposn : ∀ e, (∀ ax ∈ keys s, ax ∉ A → e ax < sizeIn s ax) → ∀ j, j < (A.map (sizeIn s)).prod →
      ∃ p, (asrt (SA.slabList m A e))[j]? = some p ∧ p < (A.map (sizeIn s)).prod ∧
        (∀ ax ∈ A, σ (Function.update e ("*".intercalate A) j) ax =
          (ND.unravel (A.map (sizeIn s)) p).getD (A.idxOf ax) 0) := by
    intro e he j hj
    obtain ⟨p, p1, p2⟩ := a13 _ (hrangeT e he j hj)
    rw [hline, Function.update_self] at p1
    refine ⟨p, p1, ?_, p2⟩
    have := (hasrt (SA.slabList m A e)).1.mem_iff.1 (List.mem_of_getElem? p1)
    rw [List.mem_range, hlen] at this
    exact this
  refine ⟨⟨n, q⟩, σ, ?_, ⟨n2, q2, hnD⟩, ?_, ?_, ?_, ?_, ?_, a10, ?_, ?_⟩
  · unfold UA.sort
    simp only [hb, bind, Except.bind, hargs, n1, q1]
    exact mk?_of_valid n2 hnD
  · intro ax
    show ax ∈ n.axes ↔ _
    rw [hnax', hTk]
  · show get? n.shape _ = _
    rw [hnT, a8]
  · intro ax h1 h2
    show get? n.shape _ = _
    rw [hnT, a9 ax h1 h2]
  · intro ax
    show get? q.shape ax = if ax = axisD then some K else get? n.shape ax
    by_cases h : ax = axisD
    · subst h
      rw [if_pos rfl, q6 axisD (by rw [hdax]; simp) (fun h => hS.noD ((a3 _).1 h)), hgK]
    · rw [if_neg h, hnT]
      by_cases h' : ax ∈ keys T
      · exact q4 ax h'
      · rw [get?_eq_none.2 h', get?_eq_none.2 (by rw [SA.keys_shape q2, hqax]; simp [h, h'])]
  · intro e he
    have he' : InRange T e := by rw [← hnT]; exact he
    exact ⟨by rw [n5 e he', v4], by rw [q5 e he', v5]⟩
  · intro e he e' he'
    have hl := hlen e
    have hir : ND.InRange (A.map (sizeIn s)) (A.map e') := SA.inRange_map.2 he'
    have hp : ND.ravel (A.map (sizeIn s)) (A.map e') < (A.map (sizeIn s)).prod := ND.ravel_lt hir
    have hmem := (hasrt (SA.slabList m A e)).1.mem_iff.2 (List.mem_range.2 (by rw [hl]; exact hp))
    obtain ⟨j, hj⟩ := List.mem_iff_getElem?.1 hmem
    have hjl : j < (A.map (sizeIn s)).prod := by
      have h1 := (List.getElem?_eq_some_iff.1 hj).1
      rw [(hasrt (SA.slabList m A e)).1.length_eq, List.length_range, hl] at h1
      exact h1
    refine ⟨j, ⟨hjl, fun ax hax => ?_⟩, ?_⟩
    · obtain ⟨p, p1, _, p2⟩ := hposn e he j hjl
      rw [p2 ax hax]
      have : p = ND.ravel (A.map (sizeIn s)) (A.map e') := by rw [hj] at p1; cases p1; rfl
      rw [this, ND.unravel_ravel hir]
      exact getD_map_idxOf e' hax
    · rintro i ⟨hi, hie⟩
      obtain ⟨p, p1, p3, p2⟩ := hposn e he i hi
      have hpe : ND.unravel (A.map (sizeIn s)) p = A.map e' := by
        have hl' : (ND.unravel (A.map (sizeIn s)) p).length = A.length := by rw [ND.length_unravel]; simp
        rw [← map_envOf hA hl']
        refine List.map_congr_left fun ax hax => ?_
        rw [← hie ax hax, p2 ax hax]
        rfl
      have hpp : p = ND.ravel (A.map (sizeIn s)) (A.map e') := by rw [← hpe, ND.ravel_unravel p3]
      have hnd : (asrt (SA.slabList m A e)).Nodup := (hasrt (SA.slabList m A e)).1.nodup_iff.2 List.nodup_range
      have h1 := (List.getElem?_eq_some_iff.1 p1)
      have h2 := (List.getElem?_eq_some_iff.1 hj)
      exact (hnd.getElem_inj_iff (hi := h1.1) (hj := h2.1)).1 (by rw [h1.2, h2.2, hpp])
  · intro e he i j hij hj
    have hval : ∀ j, j < (A.map (sizeIn s)).prod →
        ((asrt (SA.slabList m A e)).filterMap ((SA.slabList m A e)[·]?))[j]? =
          some (u.meanAt mean K (σ (Function.update e ("*".intercalate A) j))) := by
      intro j hj
      obtain ⟨p, p1, p3, p2⟩ := hposn e he j hj
      have hfm : (asrt (SA.slabList m A e)).filterMap ((SA.slabList m A e)[·]?) =
          (asrt (SA.slabList m A e)).map (fun p => m.at' (slabEnv A (ND.unravel (A.map (sizeIn s)) p) e)) := by
        rw [← List.filterMap_eq_map]
        refine List.filterMap_congr fun p hp => ?_
        have hp' := (hasrt (SA.slabList m A e)).1.mem_iff.1 hp
        rw [List.mem_range] at hp'
        rw [List.getElem?_eq_getElem hp', SA.slabList_getElem, hmapsz]
        rfl
      rw [hfm, List.getElem?_map, p1, Option.map_some, ← m4']
      congr 1
      refine SA.at'_congr fun ax hax => ?_
      rw [hmax] at hax
      unfold slabEnv
      by_cases hx : ax ∈ A
      · rw [if_pos hx, p2 ax hx]
      · rw [if_neg hx, a10 _ ax hx]
        simp [hcoll ax hax hx]
    have hpw := (hasrt (SA.slabList m A e)).2
    rw [List.pairwise_iff_getElem] at hpw
    have h1 := List.getElem?_eq_some_iff.1 (hval i (by omega))
    have h2 := List.getElem?_eq_some_iff.1 (hval j hj)
    rw [← h1.2, ← h2.2]
    exact hpw i j h1.1 h2.1 hij

theorem exArgsort_sorts : ArgSorts (· ≤ ·) SA.exArgsort := by
  intro l
  refine ⟨List.perm_insertionSort _ _, ?_⟩
  have h := (SA.exArgsort_isArgSort l).2
  have : (SA.exArgsort l).filterMap (l[·]?) = SA.exSort l := by
    have h' : ((SA.exArgsort l).map (fun i => l[i]?)).filterMap id = ((SA.exSort l).map some).filterMap id := by
      rw [h]
    simpa [List.filterMap_map] using h'
  rw [this]
  exact List.pairwise_insertionSort _ _

/-- the sum of two samples orders them like the mean -/
def exSorted : UA Nat :=
  ⟨⟨["x"], ND.ofList [3] [7, 8, 9] 0⟩, ⟨[axisD, "x"], ND.ofList [2, 3] [5, 1, 2, 5, 2, 2] 0⟩⟩

example : exSorted.Valid ∧ exSorted.shape = .ok [("x", 3)] ∧ get? exSorted.distribution.shape axisD = some 2 :=
  ⟨⟨by decide, by decide, by decide⟩, rfl, rfl⟩
example : SA.Orderless (List.sum : List Nat → Nat) := fun _ _ h => h.sum_eq
/-- the elements 1, 2, 0 in the order of their samples, each with all of its samples; the nominal value itself is
not in order -/
example : (exSorted.sort List.sum SA.exArgsort none).map (fun r =>
    (r.nominal.axes, r.nominal.nd.toList, r.distribution.axes, r.distribution.nd.toList)) =
    .ok (["x"], [8, 9, 7], ["x", axisD], [1, 2, 2, 2, 5, 5]) := by decide +kernel

end UA
end NA
