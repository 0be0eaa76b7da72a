import Verif.Props.UncertainArrays
import Verif.Props.UncertainAxes
import Verif.Props.Ordering
import Verif.Props.Sorting

/-!
# Positions of the smallest and largest elements of uncertain scalars (C65)
-/

namespace NA
open Dict
open SA (FitsIn InRange selIdx selLen ValidItem StepsOk ItemWF IntAt known arrayShapes asItem)

namespace UA
variable {α : Type}

/-- A component which has each of its axes with the full size, and index arrays for all of its axes. -/
theorem arg_select {c : SA α} (hc : c.WF) {t T : Shape} {i : Dict IndexVal} (hi : ItemWF i)
    (hfull : ∀ ax ∈ c.axes, get? c.shape ax = get? t ax) (pos : (String → Nat) → String → Nat)
    (hall : ∀ ax ∈ c.axes, ∃ b, get? i ax = some (.arr b) ∧ FitsIn b.shape T ∧
      ∀ e, InRange T e → b.atB e = (pos e ax : Int))
    (hsteps : StepsOk t i) (hvalid : ValidItem t i) :
    ∃ S, Selects c t i S ∧ FitsIn S T ∧
      (∀ ax ∈ c.axes, ∀ b, get? i ax = some (.arr b) → ∀ x ∈ keys b.shape, x ∈ keys S) ∧
      (∀ x n, get? S x = some n → ∃ ax ∈ c.axes, ∃ b, get? i ax = some (.arr b) ∧ get? b.shape x = some n) ∧
      ∀ e, InRange T e → c.at' (selIdx t i e) = c.at' (pos e) := by
  have hmem : ∀ q, q ∈ arrayShapes (known c.axes i) ↔ ∃ ax ∈ c.axes, ∃ b, get? i ax = some (.arr b) ∧ q = b.shape := by
    intro q
    unfold SA.arrayShapes SA.known
    rw [List.mem_filterMap]
    constructor
    · rintro ⟨p, hp, h⟩
      obtain ⟨hp, hax⟩ := List.mem_filter.1 hp
      obtain ⟨ax, v⟩ := p
      cases v with
      | arr b =>
        injection h with h
        exact ⟨ax, by simpa using hax, b, get?_of_mem hi.1 hp, h.symm⟩
      | int i => cases h
      | slice s => cases h
      | none => cases h
    · rintro ⟨ax, hax, b, hb, rfl⟩
      exact ⟨(ax, .arr b), List.mem_filter.2 ⟨mem_of_get? hb, by simpa using hax⟩, rfl⟩
  have hwf : ∀ q ∈ arrayShapes (known c.axes i), WF q := by
    intro q hq
    obtain ⟨ax, _, b, hb, rfl⟩ := (hmem q).1 hq
    exact SA.wf_shape (hi.2 ax b (mem_of_get? hb))
  have hfits : ∀ q ∈ arrayShapes (known c.axes i), FitsIn q T := by
    intro q hq
    obtain ⟨ax, hax, b, hb, rfl⟩ := (hmem q).1 hq
    obtain ⟨b', hb', hf, _⟩ := hall ax hax
    rw [hb] at hb'
    injection hb' with hb'
    injection hb' with hb'
    subst hb'
    exact hf
  cases hS : broadcastShapes (arrayShapes (known c.axes i)) with
  | error e =>
    exfalso
    obtain ⟨x, m, n, ⟨p, hp, hm⟩, ⟨q, hq, hn⟩, h⟩ := (C01_broadcast_shapes_error_iff _ hwf).1 ⟨e, hS⟩
    obtain ⟨k, hk, h1⟩ := hfits p hp x m hm
    obtain ⟨k', hk', h2⟩ := hfits q hq x n hn
    rw [hk] at hk'
    injection hk' with hk'
    omega
  | ok S =>
    obtain ⟨s1, s2, s3⟩ := C01_broadcast_shapes_ok _ hwf S hS
    refine ⟨S, ⟨hi, fun ax _ hax => hfull ax hax, hS, hsteps, hvalid, fun ax _ hax => ?_⟩, ?_, ?_, ?_, ?_⟩
    · obtain ⟨b, hb, _⟩ := hall ax hax
      exact .inr ⟨b, hb⟩
    · intro x n hn
      obtain ⟨⟨q, hq, hqn⟩, _⟩ := s3 x n hn
      exact hfits q hq x n hqn
    · intro ax hax b hb x hx
      exact (s2 x).2 ⟨b.shape, (hmem _).2 ⟨ax, hax, b, hb, rfl⟩, hx⟩
    · intro x n hx
      obtain ⟨⟨q, hq, hx⟩, _⟩ := s3 x n hx
      obtain ⟨ax, hax, b, hb, rfl⟩ := (hmem q).1 hq
      exact ⟨ax, hax, b, hb, hx⟩
    · intro e he
      apply SA.at'_congr
      intro ax hax
      obtain ⟨b, hb, _, h⟩ := hall ax hax
      unfold SA.selIdx
      rw [hb]
      simp only [h e he]
      unfold ND.pyIndex
      rw [if_neg (by omega)]
      simp

theorem wf_argReduce {a : SA α} (ha : a.WF) {A : List String} (hA : A.Nodup) {g : List α → Nat} {d : Dict (SA Int)}
    (h : SA.argReduce g a (some A) = .ok d) : WF d := by
  unfold SA.argReduce at h
  simp only at h
  split at h
  · simp only [bind, Except.bind] at h
    repeat' (split at h; · cases h)
    rename_i q hq
    injection h with h
    subst h
    have hk : keys q = A := by
      rw [SA.keys_unravelIndex hq]
      unfold keys
      rw [List.map_map]
      simp [Function.comp_def]
    unfold SA.completeIndex Dict.WF keys
    rw [List.map_append, List.nodup_append]
    refine ⟨by rw [← keys, hk]; exact hA, ?_, ?_⟩
    · rw [List.map_map]
      have : ((fun p : String × SA Int => p.1) ∘ fun p : String × Nat => (p.1, SA.arange p.1 p.2)) = Prod.fst := rfl
      exact (List.filter_sublist.map _).nodup (SA.wf_shape ha)
    · intro x hx y hy hxy
      obtain ⟨p, hp, rfl⟩ := List.mem_map.1 hy
      obtain ⟨r, hr, rfl⟩ := List.mem_map.1 hp
      have := (List.mem_filter.1 hr).2
      simp only [decide_eq_true_eq] at this
      exact this (by rw [← hxy]; exact hx)
  · cases h

/-- The named index of the element which is selected from the slab of `c` through `e`. -/
def argPos (g : List α → Nat) (c : SA α) (A : List String) (e : String → Nat) : String → Nat :=
  slabEnv A (ND.unravel (A.map c.sizeOf') (g (SA.slabList c A e))) e

/-- What is known of the index arrays of a component. -/
structure ArgOf (g : List α → Nat) (c : SA α) (A : List String) (d : Dict (SA Int)) : Prop where
  wf : WF d
  mem : ∀ ax, ax ∈ keys d ↔ ax ∈ c.axes
  entry : ∀ ax ∈ c.axes, ∃ b, get? d ax = some b ∧ b.WF ∧
    (∀ x, get? b.shape x = if x ∈ A ∨ (ax ∉ A ∧ x ≠ ax) then none else get? c.shape x) ∧
    ∀ e, InRange b.shape e → b.at' e = (argPos g c A e ax : Int) ∧ argPos g c A e ax < c.sizeOf' ax

theorem arg_entries {c : SA α} (hc : c.WF) {A : List String} (hA : A.Nodup) (hAne : A ≠ []) (hAs : A ⊆ c.axes)
    (hcoll : ∀ ax ∈ c.axes, ax ∉ A → ax ≠ "*".intercalate A) (hne : ∀ ax, get? c.shape ax ≠ some 0)
    (g : List α → Nat) (f : List α → α) (hf : SA.Orderless f) (hgf : SA.IsArgOf g f) :
    ∃ d m, SA.argReduce g c (some A) = .ok d ∧ ArgOf g c A d ∧
      SA.reduce true f c (some A) false none none = .ok m ∧ m.WF ∧
      (∀ x, get? m.shape x = if x ∈ A then none else get? c.shape x) ∧
      (∀ e, InRange m.shape e → m.at' e = c.at' (argPos g c A e)) ∧
      ∀ e, InRange m.shape e → InRange c.shape (argPos g c A e) := by
  have hg : ∀ l, l ≠ [] → g l < l.length := fun l hl => (hgf l hl).1
  obtain ⟨d, h1, h2, h3, h4, r, h5, h6, h7, h8, h9⟩ := SA.argReduce_main hc hA hAne hAs hcoll hne g hg
  obtain ⟨d', r', m, k1, k2, k3, k4, k5, k6⟩ := SA.C20_indexing c hc A hA hAne hAs hcoll hne g f hf hgf
  rw [h1] at k1
  injection k1 with k1
  subst k1
  rw [h5] at k2
  injection k2 with k2
  subst k2
  have hmw : m.WF := by
    have hw : SA.WhereOk c none := by intro w h; cases h
    have hes : ¬ (true = true ∧ SA.EmptySlab c A) := by
      rintro ⟨_, ⟨ax, _, h0⟩, _⟩
      exact hne ax h0
    obtain ⟨m', m1, m2, _⟩ := SA.C17_reduce c hc none hw A hA hAs true f false hes
    rw [k3] at m1
    injection m1 with m1
    rw [m1]; exact m2
  have hms : ∀ x, get? m.shape x = if x ∈ A then none else get? c.shape x := fun x => by rw [← k5, h8]
  have hlt : ∀ e, ∀ ax ∈ A, (ND.unravel (A.map c.sizeOf') (g (SA.slabList c A e))).getD (A.idxOf ax) 0 < c.sizeOf' ax := by
    intro e ax hax
    have h := ND.inRange_unravel (s := A.map c.sizeOf') (k := g (SA.slabList c A e)) (by
      rw [← SA.length_slabList c A e]
      exact hg _ (SA.slabList_ne_nil hc hAs hne e))
    unfold ND.InRange at h
    rw [List.forall₂_iff_get] at h
    have hi : A.idxOf ax < A.length := List.idxOf_lt_length_iff.2 hax
    have hl : (ND.unravel (A.map c.sizeOf') (g (SA.slabList c A e))).length = A.length := by rw [h.1]; simp
    have := h.2 (A.idxOf ax) (by rw [hl]; exact hi) (by simpa using hi)
    simp only [List.get_eq_getElem, List.getElem_map, List.getElem_idxOf] at this
    rw [List.getD_eq_getElem?_getD, List.getElem?_eq_getElem (by rw [hl]; exact hi)]
    exact this
  refine ⟨d, m, h1, ⟨wf_argReduce hc hA h1, h2, ?_⟩, k3, hmw, hms, ?_, ?_⟩
  rotate_left
  · intro e he
    have he' : InRange r.shape e := fun x n hn => he x n (by rw [← k5]; exact hn)
    rw [← k6 e he', h9 e he']
    rfl
  · intro e he x n hn
    unfold argPos slabEnv
    split
    · next hx =>
      have := hlt e x hx
      unfold SA.sizeOf' at this
      rwa [hn] at this
    · next hx => exact he x n (by rw [hms, if_neg hx]; exact hn)
  · intro ax hax
    by_cases hA' : ax ∈ A
    · obtain ⟨b, b1, b2, b3, b4, b5⟩ := h3 ax hA'
      refine ⟨b, b1, b2, fun x => ?_, fun e he => ⟨?_, ?_⟩⟩
      · rw [b4]
        simp [hA']
      · rw [b5 e he]
        unfold argPos slabEnv
        rw [if_pos hA']
      · unfold argPos slabEnv
        rw [if_pos hA']
        exact hlt e ax hA'
    · refine ⟨_, h4 ax hax hA', ?_, fun x => ?_, fun e he => ?_⟩
      · exact ⟨rfl, by simp [SA.arange]⟩
      · obtain ⟨n, hn⟩ := exists_get?_of_mem (d := c.shape) (by rw [SA.keys_shape hc]; exact hax)
        have hsh : (SA.arange ax (c.sizeOf' ax)).shape = [(ax, n)] := by
          unfold SA.sizeOf'
          rw [hn]
          rfl
        rw [hsh, get?_cons, get?_nil]
        by_cases hx : ax = x
        · subst hx
          simp [hA', hn]
        · have hx' : x ≠ ax := fun h => hx h.symm
          simp [hA', hx, hx']
      · have hlt' : e ax < c.sizeOf' ax := he ax _ (by
          show get? [(ax, c.sizeOf' ax)] ax = _
          simp [get?_cons])
        unfold argPos slabEnv
        rw [if_neg hA']
        exact ⟨rfl, hlt'⟩

/-- The index array with the axis of the samples. -/
def withD (b : SA Int) : SA Int :=
  match b.addAxes [axisD] with
  | .ok b' => b'
  | .error _ => b

theorem withD_spec {b : SA Int} (hb : b.WF) : b.addAxes [axisD] = .ok (withD b) ∧ (withD b).WF ∧
    (∀ x, get? (withD b).shape x = if x ∈ b.axes then get? b.shape x else if x = axisD then some 1 else none) ∧
    ∀ e, (withD b).at' e = b.at' e := by
  obtain ⟨r, r1, r2, r3, r4⟩ := SA.C10_add_axes b hb [axisD]
  have : withD b = r := by unfold withD; rw [r1]
  rw [this]
  exact ⟨r1, r2, by simpa using r3, r4⟩

/-- The components of the array have each of their axes with the full size. -/
def FullSizes (u : UA α) (s : Shape) : Prop :=
  (∀ ax ∈ u.nominal.axes, get? u.nominal.shape ax = get? s ax) ∧
  ∀ ax ∈ u.distribution.axes, ax ≠ axisD → get? u.distribution.shape ax = get? s ax

theorem Taken.get {c r : SA α} {t : Shape} {i : Dict IndexVal} {S : Shape} (h : Taken c r t i S)
    (hall : ∀ ax ∈ c.axes, ∃ b, get? i ax = some (.arr b)) (x : String) : get? r.shape x = get? S x := by
  obtain ⟨rest, h1, h2, h3⟩ := h.axes
  have hrest : rest = [] := by
    rw [List.eq_nil_iff_forall_not_mem]
    intro ax hax
    obtain ⟨hc, _, hb⟩ := (h3 ax).1 hax
    obtain ⟨b, hb'⟩ := hall ax hc
    exact hb b hb'
  subst hrest
  rw [List.append_nil] at h1
  by_cases hx : x ∈ keys S
  · exact h.new x hx
  · rw [get?_eq_none.2 hx, get?_eq_none, SA.keys_shape h.wf, h1]
    exact hx

theorem arg_core (u : UA α) (hu : u.Valid) (s : Shape) (hs : u.shape = .ok s) (hfull : FullSizes u s)
    (A : List String) (hAs : A ⊆ keys s)
    (hD : get? u.distribution.shape axisD ≠ some 0) (g : List α → Nat)
    (sd : Shape) (v : UA α) (h : Shapes u s sd) (v1 : u.broadcasted = .ok v) (v2 : v.Valid) (v3 : v.nominal.shape = s)
    (v4 : v.distribution.shape = sd) (v6 : ∀ e, v.nominal.at' e = u.nominal.atB e)
    (v7 : ∀ e, v.distribution.at' e = u.distribution.atB e)
    (dn dd : Dict (SA Int)) (gn : ArgOf g v.nominal A dn) (gd : ArgOf g v.distribution A dd)
    (mn md : SA α) (n5 : mn.WF) (n6 : ∀ x, get? mn.shape x = if x ∈ A then none else get? v.nominal.shape x)
    (n7 : ∀ e, InRange mn.shape e → mn.at' e = v.nominal.at' (argPos g v.nominal A e))
    (n8 : ∀ e, InRange mn.shape e → InRange v.nominal.shape (argPos g v.nominal A e))
    (d6 : ∀ x, get? md.shape x = if x ∈ A then none else get? v.distribution.shape x)
    (d7 : ∀ e, InRange md.shape e → md.at' e = v.distribution.at' (argPos g v.distribution A e))
    (d8 : ∀ e, InRange md.shape e → InRange v.distribution.shape (argPos g v.distribution A e)) :
    ∃ d r, dd.mapM (fun p => do
        let b ← p.2.addAxes [axisD]
        let w ← mk? ((dn.get? p.1).getD ⟨[], ⟨[], fun _ => 0⟩⟩) b
        .ok (p.1, UIndex.unc w)) = .ok d ∧ u.getitem d = .ok r ∧ r.Valid ∧ axisD ∉ mn.axes ∧
      (∃ s', r.shape = .ok s' ∧ ∀ ax, get? s' ax = if ax ∈ A then none else get? s ax) ∧
      (∀ e, InRange mn.shape e → r.nominal.at' e = mn.at' e) ∧
      ∀ e, InRange md.shape e → e axisD < (get? u.distribution.shape axisD).getD 1 →
        r.distribution.at' e = md.at' e := by
  have hnax : v.nominal.axes = keys s := by rw [← SA.keys_shape v2.1, v3]
  have hdax : v.distribution.axes = keys sd := by rw [← SA.keys_shape v2.2.1, v4]
  have hssd : ∀ x ∈ keys s, x ∈ keys sd := by
    intro x hx; rw [h.last]; exact List.mem_append_left _ hx
  have hDA : axisD ∉ A := fun hx => h.noD (hAs hx)
  obtain ⟨n2, n3, n9⟩ := gn
  obtain ⟨d2, d3, d9⟩ := gd
  rcases shape_cases hu with ⟨_, _, hbad⟩ | ⟨_, t, s', sd', h1, h2, h3, h4, h5⟩
  · rw [hbad] at hs; cases hs
  have : s' = s := by rw [h5.shape] at hs; cases hs; rfl
  subst this
  have hst : ∀ ax, ax ≠ axisD → get? t ax = get? s' ax := by
    intro ax hne
    rw [h3, get?_erase, if_neg hne.symm]
  have htD := shapeDistribution_D hu h1
  have htsd : ∀ ax, get? t ax = get? sd ax := by
    intro ax
    rw [h.get]
    split
    · next hx => rw [hx, htD]
    · next hx => exact hst ax hx
  -- the item
  set z : SA Int := ⟨[], ⟨[], fun _ => 0⟩⟩ with hz
  set d : Dict UIndex := dd.map (fun p => (p.1, UIndex.unc ⟨(get? dn p.1).getD z, withD p.2⟩)) with hd
  have hitemN : nominalItem d = dd.map (fun p => (p.1, (fun k (_ : SA Int) => IndexVal.arr ((get? dn k).getD z)) p.1 p.2)) := by
    unfold nominalItem
    rw [hd, List.map_map]
    rfl
  have hitemD : samplesItem d = dd.map (fun p => (p.1, (fun (_ : String) b => IndexVal.arr (withD b)) p.1 p.2)) := by
    unfold samplesItem
    rw [hd, List.map_map]
    rfl
  have getN : ∀ x, get? (nominalItem d) x = (get? dd x).map (fun _ => IndexVal.arr ((get? dn x).getD z)) := by
    intro x
    rw [hitemN]
    exact SA.get?_map_pair dd (fun k (_ : SA Int) => IndexVal.arr ((get? dn k).getD z)) x
  have getD : ∀ x, get? (samplesItem d) x = (get? dd x).map (fun b => IndexVal.arr (withD b)) := by
    intro x
    rw [hitemD]
    exact SA.get?_map_pair dd (fun (_ : String) b => IndexVal.arr (withD b)) x
  have keysN : keys (nominalItem d) = keys dd := by
    rw [hitemN]; unfold keys; rw [List.map_map]; rfl
  have keysD : keys (samplesItem d) = keys dd := by
    rw [hitemD]; unfold keys; rw [List.map_map]; rfl
  have entN : ∀ ax b, get? (nominalItem d) ax = some (.arr b) → (get? dn ax = some b) ∨ (ax ∉ keys s' ∧ b = z) := by
    intro ax b hb
    rw [getN] at hb
    cases hdd : get? dd ax with
    | none => rw [hdd] at hb; cases hb
    | some q =>
      rw [hdd] at hb
      injection hb with hb
      injection hb with hb
      cases hdn : get? dn ax with
      | none =>
        right
        rw [hdn] at hb
        refine ⟨fun hx => ?_, hb.symm⟩
        rw [get?_eq_none, n3, hnax] at hdn
        exact hdn hx
      | some w => left; rw [hdn] at hb; rw [← hb]; rfl
  have entD : ∀ ax b, get? (samplesItem d) ax = some (.arr b) → ∃ q, get? dd ax = some q ∧ b = withD q := by
    intro ax b hb
    rw [getD] at hb
    cases hdd : get? dd ax with
    | none => rw [hdd] at hb; cases hb
    | some q =>
      rw [hdd] at hb
      injection hb with hb
      injection hb with hb
      exact ⟨q, rfl, hb.symm⟩
  have wfN : ∀ ax b, get? dn ax = some b → ax ∈ v.nominal.axes := fun ax b hb => (n3 ax).1 (mem_keys_of_get? hb)
  have wfD : ∀ ax b, get? dd ax = some b → ax ∈ v.distribution.axes := fun ax b hb => (d3 ax).1 (mem_keys_of_get? hb)
  have itemWFN : ItemWF (nominalItem d) := by
    have hw : Dict.WF (nominalItem d) := by unfold Dict.WF; rw [keysN]; exact d2
    refine ⟨hw, fun ax b hb => ?_⟩
    rcases entN ax b (get?_of_mem hw hb) with hb | ⟨_, hb⟩
    · obtain ⟨b', b1, b2, _⟩ := n9 ax (wfN ax b hb)
      rw [hb] at b1
      injection b1 with b1
      rw [b1]; exact b2
    · rw [hb]; exact ⟨rfl, List.nodup_nil⟩
  have itemWFD : ItemWF (samplesItem d) := by
    have hw : Dict.WF (samplesItem d) := by unfold Dict.WF; rw [keysD]; exact d2
    refine ⟨hw, fun ax b hb => ?_⟩
    obtain ⟨q, hq, rfl⟩ := entD ax b (get?_of_mem hw hb)
    obtain ⟨b', b1, b2, _⟩ := d9 ax (wfD ax q hq)
    rw [hq] at b1
    injection b1 with b1
    rw [b1]; exact (withD_spec b2).2.1
  have stepsN : StepsOk t (nominalItem d) := by
    intro ax _ sl hsl
    rw [getN] at hsl
    cases hdd : get? dd ax <;> rw [hdd] at hsl <;> cases hsl
  have stepsD : StepsOk t (samplesItem d) := by
    intro ax _ sl hsl
    rw [getD] at hsl
    cases hdd : get? dd ax <;> rw [hdd] at hsl <;> cases hsl
  have validN : ValidItem t (nominalItem d) := by
    intro ax n hn
    refine ⟨fun i hi => ?_, fun b hb e he => ?_⟩
    · rw [getN] at hi
      cases hdd : get? dd ax <;> rw [hdd] at hi <;> cases hi
    · rcases entN ax b hb with hb | ⟨hax, hbz⟩
      · obtain ⟨b', b1, b2, b3, b4⟩ := n9 ax (wfN ax b hb)
        rw [hb] at b1
        injection b1 with b1
        subst b1
        obtain ⟨q1, q2⟩ := b4 e he
        have hsz : v.nominal.sizeOf' ax = n := by
          have hx : ax ≠ axisD := by
            rintro rfl
            have := wfN _ b hb
            rw [hnax] at this
            exact h.noD this
          unfold SA.sizeOf'
          rw [v3, ← hst ax hx, hn]
          rfl
        rw [q1]
        unfold ND.ValidIndex
        omega
      · have hx : ax = axisD := by
          by_contra hx
          rw [hst ax hx] at hn
          exact hax (mem_keys_of_get? hn)
        subst hx
        rw [htD] at hn
        have hn0 : n ≠ 0 := by rintro rfl; exact hD hn
        rw [hbz]
        show ND.ValidIndex n 0
        unfold ND.ValidIndex
        omega
  have validD : ValidItem t (samplesItem d) := by
    intro ax n hn
    refine ⟨fun i hi => ?_, fun b hb e he => ?_⟩
    · rw [getD] at hi
      cases hdd : get? dd ax <;> rw [hdd] at hi <;> cases hi
    · obtain ⟨q, hq, rfl⟩ := entD ax b hb
      obtain ⟨b', b1, b2, b3, b4⟩ := d9 ax (wfD ax q hq)
      rw [hq] at b1
      injection b1 with b1
      subst b1
      obtain ⟨w1, w2, w3, w4⟩ := withD_spec b2
      obtain ⟨q1, q2⟩ := b4 e (fun x m hm => he x m (by
        rw [w3, if_pos (by rw [← SA.keys_shape b2]; exact mem_keys_of_get? hm)]; exact hm))
      have hsz : v.distribution.sizeOf' ax = n := by
        unfold SA.sizeOf'
        rw [v4, ← htsd, hn]
        rfl
      rw [w4, q1]
      unfold ND.ValidIndex
      omega
  have hnsub : ∀ ax ∈ u.nominal.axes, ax ∈ keys s' := by
    intro ax hax
    rw [← SA.keys_shape hu.1] at hax
    obtain ⟨m, hm⟩ := exists_get?_of_mem hax
    obtain ⟨n, hn, _⟩ := h.nom ax m hm
    exact mem_keys_of_get? hn
  have hdsub : ∀ ax ∈ u.distribution.axes, ax ∈ keys sd := by
    intro ax hax
    rw [← SA.keys_shape hu.2.1] at hax
    obtain ⟨m, hm⟩ := exists_get?_of_mem hax
    obtain ⟨n, hn, _⟩ := h.dist ax m hm
    exact mem_keys_of_get? hn
  have fullN : ∀ ax ∈ u.nominal.axes, get? u.nominal.shape ax = get? t ax := by
    intro ax hax
    rw [hfull.1 ax hax, hst ax (by rintro rfl; exact hu.2.2 hax)]
  have fullD : ∀ ax ∈ u.distribution.axes, get? u.distribution.shape ax = get? t ax := by
    intro ax hax
    by_cases hx : ax = axisD
    · rw [hx, htD]
    · rw [hfull.2 ax hax hx, hst ax hx]
  obtain ⟨Sn, sn1, sn2, sn3, sn4, sn5⟩ := arg_select hu.1 (T := mn.shape) itemWFN fullN (argPos g v.nominal A) (by
    intro ax hax
    obtain ⟨b, b1, b2, b3, b4⟩ := n9 ax (by rw [hnax]; exact hnsub ax hax)
    obtain ⟨q, hq⟩ := exists_get?_of_mem ((d3 ax).2 (by rw [hdax]; exact hssd ax (hnsub ax hax)))
    have hsub : ∀ x m, get? b.shape x = some m → get? mn.shape x = some m := by
      intro x m hm
      rw [b3] at hm
      rw [n6]
      split at hm
      · cases hm
      · next hx => rw [if_neg (fun hh => hx (.inl hh))]; exact hm
    refine ⟨b, by rw [getN, hq, b1]; rfl, fun x m hm => ⟨m, hsub x m hm, .inl rfl⟩, fun e he => ?_⟩
    have he' : InRange b.shape e := fun x m hm => he x m (hsub x m hm)
    rw [SA.atB_eq_at' b2 he']
    exact (b4 e he').1) stepsN validN
  obtain ⟨Sd, sd1, sd2, sd3, sd4, sd5⟩ := arg_select hu.2.1
    (T := md.shape.set axisD ((get? u.distribution.shape axisD).getD 1)) itemWFD fullD (argPos g v.distribution A) (by
    intro ax hax
    obtain ⟨b, b1, b2, b3, b4⟩ := d9 ax (by rw [hdax]; exact hdsub ax hax)
    obtain ⟨w1, w2, w3, w4⟩ := withD_spec b2
    have hsub : ∀ x m, get? b.shape x = some m →
        get? (md.shape.set axisD ((get? u.distribution.shape axisD).getD 1)) x = some m := by
      intro x m hm
      rw [b3] at hm
      rw [get?_set, d6]
      split at hm
      · cases hm
      · next hx =>
        split
        · next hxD =>
          subst hxD
          rw [v4, h.get, if_pos rfl] at hm
          rw [hm]; rfl
        · rw [if_neg (fun hh => hx (.inl hh))]; exact hm
    refine ⟨withD b, by rw [getD, b1]; rfl, fun x m hm => ?_, fun e he => ?_⟩
    · rw [w3] at hm
      split at hm
      · exact ⟨m, hsub x m hm, .inl rfl⟩
      · split at hm
        · next hx =>
          subst hx
          injection hm with hm
          exact ⟨_, by rw [get?_set, if_pos rfl], .inr hm.symm⟩
        · cases hm
    · have he' : InRange b.shape e := fun x m hm => he x m (hsub x m hm)
      rw [← (b4 e he').1]
      unfold SA.atB
      rw [w4]
      apply SA.at'_congr
      intro x hx
      split
      · next h1 =>
        rw [w3, if_pos hx] at h1
        have := he' x 1 h1
        omega
      · rfl) stepsD validD
  have hDSn : axisD ∉ keys Sn := by
    intro hx
    obtain ⟨n, hn⟩ := exists_get?_of_mem hx
    obtain ⟨m, hm, _⟩ := sn2 axisD n hn
    rw [n6, if_neg hDA, v3] at hm
    exact h.noD (mem_keys_of_get? hm)
  obtain ⟨r, r1, r2, r3, r4⟩ := C60_arrays_partial u hu t h1 d (by
    intro x hx
    unfold Dict.values at hx
    rw [hd, List.map_map] at hx
    obtain ⟨p, _, rfl⟩ := List.mem_map.1 hx
    rfl) Sn Sd sn1 sd1 hDSn
  have hmn : axisD ∉ mn.axes := by
    rw [← SA.keys_shape n5, ← get?_eq_none, n6, if_neg hDA, v3, get?_eq_none]
    exact h.noD
  refine ⟨d, r, ?_, r1, r2, hmn, ?_, ?_, ?_⟩
  · rw [hd]
    apply SA.mapM_map_ok
    rintro ⟨ax, q⟩ hp
    have hq := get?_of_mem d2 hp
    obtain ⟨b', b1, b2, _⟩ := d9 ax (wfD ax q hq)
    rw [hq] at b1
    injection b1 with b1
    subst b1
    have hmk : mk? ((get? dn ax).getD z) (withD q) = .ok ⟨(get? dn ax).getD z, withD q⟩ := by
      cases hdn : get? dn ax with
      | none => exact mk?_of_valid ⟨rfl, List.nodup_nil⟩ (by simp [hz])
      | some b =>
        obtain ⟨b', c1, c2, c3, _⟩ := n9 ax (wfN ax b hdn)
        rw [hdn] at c1
        injection c1 with c1
        subst c1
        refine mk?_of_valid c2 ?_
        show axisD ∉ b.axes
        rw [← SA.keys_shape c2, ← get?_eq_none, c3]
        split
        · rfl
        · rw [v3, get?_eq_none]; exact h.noD
    simp only [bind, Except.bind, (withD_spec b2).1]
    rw [hz] at hmk
    rw [hmk]
  · have gN := fun x => r3.get (fun ax hax => by
      obtain ⟨q, hq⟩ := exists_get?_of_mem ((d3 ax).2 (by rw [hdax]; exact hssd ax (hnsub ax hax)))
      exact ⟨_, by rw [getN, hq]; rfl⟩) x
    have gD := fun x => r4.get (fun ax hax => by
      obtain ⟨q, hq⟩ := exists_get?_of_mem ((d3 ax).2 (by rw [hdax]; exact hdsub ax hax))
      exact ⟨_, by rw [getD, hq]; rfl⟩) x
    have szN : ∀ x n, get? Sn x = some n → x ∉ A ∧ get? s' x = some n := by
      intro x n hn
      obtain ⟨ax, hax, b, hb, hbn⟩ := sn4 x n hn
      obtain ⟨b', b1, b2, b3, _⟩ := n9 ax (by rw [hnax]; exact hnsub ax hax)
      rcases entN ax b hb with hb | ⟨hb, _⟩
      · rw [hb] at b1
        injection b1 with b1
        subst b1
        rw [b3] at hbn
        split at hbn
        · cases hbn
        · next hx => rw [v3] at hbn; exact ⟨fun hh => hx (.inl hh), hbn⟩
      · exact absurd (hnsub ax hax) hb
    have szD : ∀ x n, x ≠ axisD → get? Sd x = some n → x ∉ A ∧ get? s' x = some n := by
      intro x n hxD hn
      obtain ⟨ax, hax, b, hb, hbn⟩ := sd4 x n hn
      obtain ⟨q, hq, rfl⟩ := entD ax b hb
      obtain ⟨b', b1, b2, b3, _⟩ := d9 ax (wfD ax q hq)
      rw [hq] at b1
      injection b1 with b1
      subst b1
      rw [(withD_spec b2).2.2.1, if_neg hxD] at hbn
      split at hbn
      · rw [b3] at hbn
        split at hbn
        · cases hbn
        · next hx => rw [v4, h.get, if_neg hxD] at hbn; exact ⟨fun hh => hx (.inl hh), hbn⟩
      · cases hbn
    have hnoD : get? r.nominal.shape axisD = none := by rw [gN, get?_eq_none]; exact hDSn
    rcases shape_cases r2 with ⟨hc, _⟩ | ⟨_, t', q', _, k1, k2, k3, _, k5⟩
    · exfalso
      obtain ⟨x, m, n, ⟨p, hp, hm⟩, ⟨q, hq, hn⟩, hmn⟩ := hc
      have key : ∀ p ∈ [r.nominal.shape, r.distribution.shape], ∀ m, get? p x = some m → x ≠ axisD → get? s' x = some m := by
        intro p hp m hm hx
        simp only [List.mem_cons, List.not_mem_nil, or_false] at hp
        rcases hp with rfl | rfl
        · rw [gN] at hm; exact (szN x m hm).2
        · rw [gD] at hm; exact (szD x m hx hm).2
      by_cases hx : x = axisD
      · subst hx
        have key' : ∀ p ∈ [r.nominal.shape, r.distribution.shape], ∀ m, get? p axisD = some m →
            get? r.distribution.shape axisD = some m := by
          intro p hp m hm
          simp only [List.mem_cons, List.not_mem_nil, or_false] at hp
          rcases hp with rfl | rfl
          · rw [hnoD] at hm; cases hm
          · exact hm
        have e1 := key' p hp m hm
        rw [key' q hq n hn] at e1
        injection e1 with e1
        omega
      · have e1 := key p hp m hm hx
        rw [key q hq n hn hx] at e1
        injection e1 with e1
        omega
    · refine ⟨q', k5.shape, fun ax => ?_⟩
      have hwr : ∀ q ∈ [r.nominal.shape, r.distribution.shape], WF q := by
        intro q hq
        simp only [List.mem_cons, List.not_mem_nil, or_false] at hq
        rcases hq with rfl | rfl
        · exact SA.wf_shape r2.1
        · exact SA.wf_shape r2.2.1
      obtain ⟨_, c2, c3⟩ := C01_broadcast_shapes_ok _ hwr t' k1
      by_cases hx : ax = axisD
      · subst hx
        rw [get?_eq_none.2 k5.noD, get?_eq_none.2 h.noD]
        simp
      · have hq' : get? q' ax = get? t' ax := by rw [k3, get?_erase, if_neg (fun hh => hx hh.symm)]
        rw [hq']
        cases ht' : get? t' ax with
        | some n =>
          obtain ⟨⟨p, hp, hpn⟩, _⟩ := c3 ax n ht'
          simp only [List.mem_cons, List.not_mem_nil, or_false] at hp
          have : ax ∉ A ∧ get? s' ax = some n := by
            rcases hp with rfl | rfl
            · rw [gN] at hpn; exact szN ax n hpn
            · rw [gD] at hpn; exact szD ax n hx hpn
          rw [if_neg this.1, this.2]
        | none =>
          split
          · rfl
          · next hA' =>
            symm
            rw [get?_eq_none]
            intro hk
            have hnt : ax ∉ keys t' := get?_eq_none.1 ht'
            -- one of the components has the axis
            have hor : ax ∈ u.nominal.axes ∨ ax ∈ u.distribution.axes := by
              have hwu : ∀ q ∈ [u.nominal.shape, u.distribution.shape], WF q := by
                intro q hq
                simp only [List.mem_cons, List.not_mem_nil, or_false] at hq
                rcases hq with rfl | rfl
                · exact SA.wf_shape hu.1
                · exact SA.wf_shape hu.2.1
              have hkt : ax ∈ keys t := by
                obtain ⟨n, hn⟩ := exists_get?_of_mem hk
                exact mem_keys_of_get? (by rw [hst ax hx]; exact hn)
              obtain ⟨p, hp, hpk⟩ := ((C01_broadcast_shapes_ok _ hwu t h1).2.1 ax).1 hkt
              simp only [List.mem_cons, List.not_mem_nil, or_false] at hp
              rcases hp with rfl | rfl
              · left; rwa [SA.keys_shape hu.1] at hpk
              · right; rwa [SA.keys_shape hu.2.1] at hpk
            rcases hor with hor | hor
            · obtain ⟨b, b1, b2, b3, _⟩ := n9 ax (by rw [hnax]; exact hk)
              obtain ⟨q, hq⟩ := exists_get?_of_mem ((d3 ax).2 (by rw [hdax]; exact hssd ax hk))
              have := sn3 ax hor b (by rw [getN, hq, b1]; rfl) ax (by
                obtain ⟨n, hn⟩ := exists_get?_of_mem hk
                exact mem_keys_of_get? (v := n) (by rw [b3, if_neg (by simp [hA']), v3]; exact hn))
              obtain ⟨n, hn⟩ := exists_get?_of_mem this
              exact hnt ((c2 ax).2 ⟨r.nominal.shape, by simp, mem_keys_of_get? (by rw [gN]; exact hn)⟩)
            · obtain ⟨b, b1, b2, b3, _⟩ := d9 ax (by rw [hdax]; exact hssd ax hk)
              have := sd3 ax hor (withD b) (by rw [getD, b1]; rfl) ax (by
                obtain ⟨n, hn⟩ := exists_get?_of_mem hk
                have hbs : get? b.shape ax = some n := by
                  rw [b3, if_neg (by simp [hA']), v4, h.get, if_neg hx]; exact hn
                exact mem_keys_of_get? (by
                  rw [(withD_spec b2).2.2.1, if_pos (by rw [← SA.keys_shape b2]; exact mem_keys_of_get? hbs)]
                  exact hbs))
              obtain ⟨n, hn⟩ := exists_get?_of_mem this
              exact hnt ((c2 ax).2 ⟨r.distribution.shape, by simp, mem_keys_of_get? (by rw [gD]; exact hn)⟩)
  · intro e he
    have he' : InRange mn.shape e := he
    rw [r3.values e, sn5 e he', n7 e he', v6, SA.atB_eq_at' hu.1]
    intro x n hn
    have hx : x ∈ u.nominal.axes := by rw [← SA.keys_shape hu.1]; exact mem_keys_of_get? hn
    refine n8 e he' x n ?_
    rw [v3, ← hst x (by rintro rfl; exact hu.2.2 hx), ← fullN x hx]
    exact hn
  · intro e he heD
    have he' : InRange md.shape e := he
    have he'' : InRange (md.shape.set axisD ((get? u.distribution.shape axisD).getD 1)) e := by
      intro x n hn
      rw [get?_set] at hn
      split at hn
      · next hx =>
        injection hn with hn
        rw [← hx, ← hn]; exact heD
      · exact he' x n hn
    rw [r4.values e, sd5 e he'', d7 e he', v7, SA.atB_eq_at' hu.2.1]
    intro x n hn
    have hx : x ∈ u.distribution.axes := by rw [← SA.keys_shape hu.2.1]; exact mem_keys_of_get? hn
    refine d8 e he' x n ?_
    rw [v4, ← htsd, ← fullD x hx]
    exact hn

/-- **C65** (along axes). `u[np.argmin(u, axis=A)]` is `np.min(u, axis=A)`: the smallest nominal value, and in each sample the
smallest value of that sample.  (`g` returns the position of an element in a list, `f` the element.) -/
theorem C65_arg (u : UA α) (hu : u.Valid) (s : Shape) (hs : u.shape = .ok s) (hfull : FullSizes u s)
    (A : List String) (hA : A.Nodup) (hAne : A ≠ []) (hAs : A ⊆ keys s)
    (hcoll : ∀ ax ∈ axisD :: keys s, ax ∉ A → ax ≠ "*".intercalate A)
    (hne : ∀ ax, get? s ax ≠ some 0) (hD : get? u.distribution.shape axisD ≠ some 0)
    (g : List α → Nat) (f : List α → α) (hf : SA.Orderless f) (hgf : SA.IsArgOf g f) :
    ∃ d r m, u.argReduce g (some A) = .ok d ∧ u.getitem d = .ok r ∧ r.Valid ∧
      u.reduce true f (some A) false none = .ok m ∧
      (∃ s', r.shape = .ok s' ∧ ∀ ax, get? s' ax = if ax ∈ A then none else get? s ax) ∧
      (∀ e, InRange m.nominal.shape e → r.nominal.at' e = m.nominal.at' e) ∧
      ∀ e, InRange m.distribution.shape e → e axisD < (get? u.distribution.shape axisD).getD 1 →
        r.distribution.at' e = m.distribution.at' e := by
  obtain ⟨sd, v, h, v1, v2, v3, v4, v5, v6, v7⟩ := broadcasted_main hu hs
  have hnax : v.nominal.axes = keys s := by rw [← SA.keys_shape v2.1, v3]
  have hdax : v.distribution.axes = keys sd := by rw [← SA.keys_shape v2.2.1, v4]
  have hssd : ∀ x ∈ keys s, x ∈ keys sd := by
    intro x hx; rw [h.last]; exact List.mem_append_left _ hx
  have hsds : ∀ x ∈ keys sd, x = axisD ∨ x ∈ keys s := by
    intro x hx
    rw [h.last, List.mem_append] at hx
    rcases hx with hx | hx
    · exact .inr hx
    · split at hx
      · exact .inl (List.mem_singleton.1 hx)
      · cases hx
  have hDA : axisD ∉ A := fun hx => h.noD (hAs hx)
  obtain ⟨dn, mn, n1, gn, n4, n5, n6, n7, n8⟩ := arg_entries v2.1 hA hAne (by rw [hnax]; exact hAs)
    (by rw [hnax]; exact fun ax hx => hcoll ax (List.mem_cons_of_mem _ hx)) (by rw [v3]; exact hne) g f hf hgf
  obtain ⟨dd, md, d1, gd, d4, d5, d6, d7, d8⟩ := arg_entries v2.2.1 hA hAne
    (by rw [hdax]; exact fun x hx => hssd x (hAs hx))
    (by
      rw [hdax]
      intro ax hx
      rcases hsds ax hx with rfl | hx
      · exact hcoll _ (List.mem_cons_self ..)
      · exact hcoll ax (List.mem_cons_of_mem _ hx))
    (by
      intro ax
      rw [v4, h.get]
      split
      · exact hD
      · exact hne ax) g f hf hgf
  obtain ⟨d, r, c1, c2, c3, c4, c5, c6, c7⟩ := arg_core u hu s hs hfull A hAs hD g sd v h v1 v2 v3 v4 v6 v7 dn dd gn gd mn md n5
    n6 n7 n8 d6 d7 d8
  refine ⟨d, r, ⟨mn, md⟩, ?_, c2, c3, ?_, c5, c6, c7⟩
  · unfold argReduce
    simp only [bind, Except.bind, v1, n1, d1]
    exact c1
  · unfold reduce
    simp only [bind, Except.bind, v1, v5, Option.getD_some, Option.map_none, n4, d4]
    exact mk?_of_valid n5 c4

theorem unravel_lt {A : List String} {c : SA α} {k : Nat} (hk : k < (A.map c.sizeOf').prod) {ax : String} (hax : ax ∈ A) :
    (ND.unravel (A.map c.sizeOf') k).getD (A.idxOf ax) 0 < c.sizeOf' ax := by
  have h := ND.inRange_unravel (s := A.map c.sizeOf') hk
  unfold ND.InRange at h
  rw [List.forall₂_iff_get] at h
  have hi : A.idxOf ax < A.length := List.idxOf_lt_length_iff.2 hax
  have hl : (ND.unravel (A.map c.sizeOf') k).length = A.length := by rw [h.1]; simp
  have := h.2 (A.idxOf ax) (by rw [hl]; exact hi) (by simpa using hi)
  simp only [List.get_eq_getElem, List.getElem_map, List.getElem_idxOf] at this
  rw [List.getD_eq_getElem?_getD, List.getElem?_eq_getElem (by rw [hl]; exact hi)]
  exact this

/-- The index arrays made from flat indices. -/
theorem argOf_unravel {c : SA α} (hc : c.WF) {A : List String} (hA : A.Nodup) (hAne : A ≠ []) (hAs : A ⊆ c.axes)
    (hne : ∀ ax, get? c.shape ax ≠ some 0)
    {g : List α → Nat} (hg : ∀ l, l ≠ [] → g l < l.length) {indices : SA Nat} (hi : indices.WF)
    (hsh : ∀ ax, get? indices.shape ax = if ax ∈ A then none else get? c.shape ax)
    (hat : ∀ e, InRange indices.shape e → indices.at' e = g (SA.slabList c A e)) :
    ∃ d, SA.unravelIndex indices (A.map (fun ax => (ax, c.sizeOf' ax))) = .ok d ∧ ArgOf g c A (c.completeIndex d) := by
  have hlt : ∀ e, g (SA.slabList c A e) < (A.map c.sizeOf').prod := by
    intro e
    rw [← SA.length_slabList c A e]
    exact hg _ (SA.slabList_ne_nil hc hAs hne e)
  obtain ⟨d, k1, k2, k3, k4, _⟩ := SA.getitem_unravel hc hA hAne hAs hi
    (fun ax hax hx => by rw [hsh, if_neg hx]) (fun e he => by rw [hat e he]; exact hlt e)
  refine ⟨d, k1, ?_, k2, ?_⟩
  · have hk : keys d = A := by
      rw [SA.keys_unravelIndex k1]
      unfold keys
      rw [List.map_map]
      simp [Function.comp_def]
    unfold SA.completeIndex Dict.WF keys
    rw [List.map_append, List.nodup_append]
    refine ⟨by rw [← keys, hk]; exact hA, ?_, ?_⟩
    · rw [List.map_map]
      exact (List.filter_sublist.map _).nodup (SA.wf_shape hc)
    · intro x hx y hy hxy
      obtain ⟨p, hp, rfl⟩ := List.mem_map.1 hy
      obtain ⟨r, hr, rfl⟩ := List.mem_map.1 hp
      have := (List.mem_filter.1 hr).2
      simp only [decide_eq_true_eq] at this
      exact this (by rw [← hxy]; exact hx)
  · intro ax hax
    by_cases hA' : ax ∈ A
    · obtain ⟨b, b1, b2, b3, b4, b5⟩ := k3 ax hA'
      refine ⟨b, b1, b2, fun x => ?_, fun e he => ⟨?_, ?_⟩⟩
      · rw [b4, hsh]
        simp [hA']
      · rw [b5, hat e (by rw [← b4]; exact he)]
        unfold argPos slabEnv
        rw [if_pos hA']
      · unfold argPos slabEnv
        rw [if_pos hA']
        exact unravel_lt (hlt e) hA'
    · refine ⟨_, k4 ax hax hA', ?_, fun x => ?_, fun e he => ?_⟩
      · exact ⟨rfl, by simp [SA.arange]⟩
      · obtain ⟨n, hn⟩ := exists_get?_of_mem (d := c.shape) (by rw [SA.keys_shape hc]; exact hax)
        have hsh : (SA.arange ax (c.sizeOf' ax)).shape = [(ax, n)] := by
          unfold SA.sizeOf'
          rw [hn]
          rfl
        rw [hsh, get?_cons, get?_nil]
        by_cases hx : ax = x
        · subst hx
          simp [hA', hn]
        · have hx' : x ≠ ax := fun h => hx h.symm
          simp [hA', hx, hx']
      · have hlt' : e ax < c.sizeOf' ax := he ax _ (by
          show get? [(ax, c.sizeOf' ax)] ax = _
          simp [get?_cons])
        unfold argPos slabEnv
        rw [if_neg hA']
        exact ⟨rfl, hlt'⟩

theorem map_sizeOf' {c : SA α} (hc : c.WF) : c.axes.map (fun ax => (ax, c.sizeOf' ax)) = c.shape := by
  unfold SA.shape
  rw [SA.shape_eq_map hc, List.zip_map_right]
  apply List.ext_getElem
  · simp
  · intro i i1 i2; simp

/-- The indices of the nominal value without an axis. -/
theorem arg_none {c : SA α} (hc : c.WF) (hax : c.axes ≠ []) (hne : ∀ ax, get? c.shape ax ≠ some 0)
    {g : List α → Nat} (hg : ∀ l, l ≠ [] → g l < l.length) :
    ∃ d, SA.argReduce g c none = .ok d ∧ ArgOf g c c.axes d := by
  have h1 : c.shape.isEmpty = false := by
    have := SA.keys_shape hc
    cases h : c.shape with
    | nil => rw [h] at this; exact absurd this.symm hax
    | cons _ _ => rfl
  have hf : c.axes.filter (· ∉ c.axes) = [] := by
    rw [List.filter_eq_nil_iff]
    intro x hx; simpa using hx
  have hf' : c.axes.filter (· ∈ c.axes) = c.axes := by
    rw [List.filter_eq_self]
    intro x hx; simpa using hx
  have hpos : c.axes.map c.axes.idxOf = List.range c.nd.ndim := by
    rw [hc.1]
    apply List.ext_getElem
    · simp
    · intro i i1 i2
      simp [hc.2.idxOf_getElem]
  have hes : ∀ e, SA.slabList c c.axes e ≠ [] := SA.slabList_ne_nil hc (fun _ h => h) hne
  have hP : (c.axes.map c.sizeOf').prod ≠ 0 := by
    have := hes (fun _ => 0)
    rwa [Ne, ← List.length_eq_zero_iff, SA.length_slabList] at this
  obtain ⟨nd, hnd, hnds, hndg⟩ : ∃ nd, c.nd.reduce true g (List.range c.nd.ndim) false none = .ok nd ∧
      nd.shape = [] ∧ ∀ e, nd.get [] = g (SA.slabList c c.axes e) := by
    have hr := ND.reduce_named hc.2 (SA.shape_eq_map hc) hc.2 (fun _ h => h) true g false none
    simp only [hf, hf', hpos, Bool.false_eq_true, if_false, List.map_nil] at hr
    rcases hr with ⟨_, hz, _⟩ | ⟨_, nd, q1, q2, q3⟩
    · exact absurd hz hP
    · refine ⟨nd, q1, q2, fun e => ?_⟩
      rw [q3 e]
      have : ∀ l : List (String → Nat), l.filter (fun e' => ND.maskAt none (c.axes.map e')) = l := by
        intro l; rw [List.filter_eq_self]; intro _ _; rfl
      rw [this]
      rfl
  have hiw : (SA.mk [] nd).WF := ⟨by simp [ND.ndim, hnds], by simp⟩
  obtain ⟨d, k1, k2⟩ := argOf_unravel hc hc.2 hax (fun _ h => h) hne hg hiw (by
    intro ax
    show get? [] ax = _
    rw [get?_nil]
    by_cases hx : ax ∈ c.axes
    · rw [if_pos hx]
    · rw [if_neg hx, (SA.get?_shape_none hc).2 hx]) (fun e _ => hndg e)
  rw [map_sizeOf' hc] at k1
  have hkd : keys d = c.axes := by rw [SA.keys_unravelIndex k1, SA.keys_shape hc]
  have hcd : c.completeIndex d = d := by
    unfold SA.completeIndex
    have : c.shape.filter (fun p => p.1 ∉ keys d) = [] := by
      rw [List.filter_eq_nil_iff]
      intro p hp
      have : p.1 ∈ keys c.shape := List.mem_map.2 ⟨p, hp, rfl⟩
      rw [SA.keys_shape hc] at this
      simpa [hkd] using this
    rw [this]; simp
  rw [hcd] at k2
  refine ⟨d, ?_, k2⟩
  unfold SA.argReduce
  simp only [bind, Except.bind, h1, Bool.false_eq_true, if_false, hnd, SA.mk?_of_wf hiw.1 hiw.2]
  exact k1

/-- The indices of the samples without an axis. -/
theorem arg_all {v : UA α} (hv : v.Valid) {s : Shape} (hs : v.shape = .ok s) (hws : WF s) (hsD : axisD ∉ keys s) (hsne : keys s ≠ [])
    (hsz : ∀ ax ∈ keys s, get? v.distribution.shape ax = get? s ax)
    (hax : ∀ ax ∈ v.distribution.axes, ax = axisD ∨ ax ∈ keys s)
    (hcoll : axisD ≠ "*".intercalate (keys s)) (hne : ∀ ax, get? v.distribution.shape ax ≠ some 0)
    {g : List α → Nat} (hg : ∀ l, l ≠ [] → g l < l.length) :
    ∃ d, argAll g v = .ok d ∧ ArgOf g v.distribution (keys s) d := by
  set c := v.distribution with hc
  have hcw : c.WF := hv.2.1
  set flat := "*".intercalate (keys s) with hflat
  have hAs : keys s ⊆ c.axes := by
    intro ax hx
    obtain ⟨n, hn⟩ := exists_get?_of_mem hx
    rw [← SA.keys_shape hcw]
    exact mem_keys_of_get? (by rw [hsz ax hx]; exact hn)
  have hrest : ∀ ax, ax ∈ c.axes.filter (· ∉ keys s) → ax = axisD := by
    intro ax hx
    simp only [List.mem_filter, decide_eq_true_eq] at hx
    exact (hax ax hx.1).resolve_right hx.2
  have hnew : flat ∉ c.axes.filter (· ∉ keys s) := fun hx => hcoll (hrest _ hx).symm
  obtain ⟨r, h1, h2, h3, h4, h5, h6⟩ := SA.combined_line hcw hws hAs hnew (fun ax _ _ => hne ax)
  have hP : (keys s |>.map c.sizeOf').prod ≠ 0 := by
    have := SA.slabList_ne_nil hcw hAs hne (fun _ => 0)
    rwa [Ne, ← List.length_eq_zero_iff, SA.length_slabList] at this
  have hflatm : flat ∈ r.axes := by rw [h3]; simp
  have hrsh : ∀ ax, get? r.shape ax ≠ some 0 := by
    intro ax h0
    have hm : ax ∈ r.axes := by rw [← SA.keys_shape h2]; exact mem_keys_of_get? h0
    rw [h3, List.mem_append] at hm
    rcases hm with hm | hm
    · have hm' := List.mem_filter.1 hm
      rw [h5 ax hm'.1 (by simpa using hm'.2)] at h0
      exact hne ax h0
    · rw [List.mem_singleton] at hm
      subst hm
      unfold SA.sizeOf' at h4
      rw [h0] at h4
      exact hP h4.symm
  have hinter : "*".intercalate [flat] = flat := by simp
  obtain ⟨d1, k1, k2, k3, k4, _⟩ := SA.argReduce_main h2 (A := [flat]) (by simp) (by simp) (by simpa using hflatm)
    (by
      intro ax _ hx
      rw [hinter]
      simpa using hx) hrsh g hg
  obtain ⟨b, b1, b2, b3, b4, b5⟩ := k3 flat (by simp)
  set indices : SA Nat := ⟨b.axes, b.nd.map Int.toNat⟩ with hind
  have hiw : indices.WF := ⟨b2.1, b2.2⟩
  have hish : indices.shape = b.shape := rfl
  have hiat : ∀ e, indices.at' e = (b.at' e).toNat := fun e => rfl
  have hsh : ∀ ax, get? indices.shape ax = if ax ∈ keys s then none else get? c.shape ax := by
    intro ax
    rw [hish, b4]
    by_cases hx : ax = flat
    · subst hx
      rw [if_pos (by simp)]
      split
      · rfl
      · next hk =>
        rw [(SA.get?_shape_none hcw).2]
        intro hm
        exact hnew (List.mem_filter.2 ⟨hm, by simpa using hk⟩)
    · rw [if_neg (by simpa using hx)]
      by_cases hk : ax ∈ keys s
      · rw [if_pos hk, (SA.get?_shape_none h2).2]
        rw [h3, List.mem_append]
        rintro (hm | hm)
        · exact (by simpa using (List.mem_filter.1 hm).2 : ax ∉ keys s) hk
        · exact hx (List.mem_singleton.1 hm)
      · rw [if_neg hk]
        by_cases hm : ax ∈ c.axes
        · exact h5 ax hm hk
        · rw [(SA.get?_shape_none hcw).2 hm, (SA.get?_shape_none h2).2]
          rw [h3, List.mem_append]
          rintro (hm' | hm')
          · exact hm (List.mem_filter.1 hm').1
          · exact hx (List.mem_singleton.1 hm')
  have hline : ∀ e, InRange indices.shape e → SA.slabList r [flat] e = SA.slabList c (keys s) e := by
    intro e he
    rw [← h6 e (fun ax hm hk => by
      obtain ⟨n, hn⟩ := exists_get?_of_mem (d := c.shape) (by rw [SA.keys_shape hcw]; exact hm)
      have := he ax n (by rw [hsh, if_neg hk]; exact hn)
      unfold SA.sizeOf'
      rw [hn]; exact this)]
    unfold SA.slabList
    rw [SA.slabEnvs_singleton, List.map_map]
    rfl
  have hglt : ∀ e, g (SA.slabList c (keys s) e) < ((keys s).map c.sizeOf').prod := by
    intro e
    rw [← SA.length_slabList c (keys s) e]
    exact hg _ (SA.slabList_ne_nil hcw hAs hne e)
  have hat : ∀ e, InRange indices.shape e → indices.at' e = g (SA.slabList c (keys s) e) := by
    intro e he
    rw [hiat, b5 e he, hline e he]
    have : (ND.unravel [r.sizeOf' flat] (g (SA.slabList c (keys s) e))).getD 0 0 = g (SA.slabList c (keys s) e) := by
      rw [h4]
      simp [ND.unravel, Nat.mod_eq_of_lt (hglt e)]
    have e0 : List.map r.sizeOf' [flat] = [r.sizeOf' flat] := rfl
    have e1 : [flat].idxOf flat = 0 := by simp
    rw [e0, e1, this]
    rfl
  obtain ⟨q, q1, q2⟩ := argOf_unravel hcw hws hsne hAs hne hg hiw hsh hat
  have hss : (keys s).map (fun ax => (ax, c.sizeOf' ax)) = s := by
    have : ∀ p ∈ s, (p.1, c.sizeOf' p.1) = p := by
      intro p hp
      have hg := get?_of_mem hws (show (p.1, p.2) ∈ s from hp)
      unfold SA.sizeOf'
      rw [hsz p.1 (mem_keys_of_get? hg), hg]
      rfl
    unfold keys
    rw [List.map_map]
    conv_rhs => rw [← List.map_id s]
    exact List.map_congr_left this
  rw [hss] at q1
  have hkq : keys q = keys s := SA.keys_unravelIndex q1
  have hwq : WF q := by unfold Dict.WF; rw [hkq]; exact hws
  have hwd1 : WF d1 := wf_argReduce h2 (by simp) k1
  have hwe : WF (d1.erase flat) := Dict.wf_erase hwd1 flat
  refine ⟨q.union (d1.erase flat), ?_, ?_⟩
  · unfold argAll
    simp only [bind, Except.bind, hs, SA.flattenAxes_ok hsne]
    rw [← hflat, ← hc, h1]
    simp only [k1, b1]
    rw [q1]
  · have hsame : ∀ x, get? (q.union (d1.erase flat)) x = get? (c.completeIndex q) x := by
      intro x
      rw [get?_union_of_wf _ _ hwe]
      unfold SA.completeIndex
      rw [SA.get?_append, SA.get?_map_pair _ (fun k n => SA.arange k n), SA.get?_filter c.shape (fun k => k ∉ keys q), get?_erase, hkq]
      have hqx : (get? q x).isSome = true ↔ x ∈ keys s := by rw [get?_isSome, hkq]
      by_cases hk : x ∈ keys s
      · have hd1 : (if flat = x then none else get? d1 x) = none := by
          split
          · rfl
          · next hx =>
            rw [get?_eq_none, k2, h3, List.mem_append]
            rintro (hm | hm)
            · exact (by simpa using (List.mem_filter.1 hm).2 : x ∉ keys s) hk
            · exact hx (List.mem_singleton.1 hm).symm
        rw [hd1, if_neg (by simpa using hk)]
        simp
      · have hq0 : get? q x = none := by
          rw [get?_eq_none, hkq]; exact hk
        rw [hq0]
        have hif : (if x ∉ keys s then get? c.shape x else none) = get? c.shape x := if_pos hk
        rw [hif]
        by_cases hx : flat = x
        · subst hx
          rw [if_pos rfl, (SA.get?_shape_none hcw).2 (fun hm => hnew (List.mem_filter.2 ⟨hm, by simpa using hk⟩))]
          rfl
        · rw [if_neg hx]
          by_cases hm : x ∈ c.axes
          · have hmr : x ∈ r.axes := by
              rw [h3, List.mem_append]
              exact .inl (List.mem_filter.2 ⟨hm, by simpa using hk⟩)
            rw [k4 x hmr (by simpa using fun h => hx h.symm)]
            obtain ⟨n, hn⟩ := exists_get?_of_mem (d := c.shape) (by rw [SA.keys_shape hcw]; exact hm)
            unfold SA.sizeOf'
            rw [h5 x hm hk, hn]
            rfl
          · rw [(SA.get?_shape_none hcw).2 hm, get?_eq_none.2]
            · rfl
            · rw [k2, h3, List.mem_append]
              rintro (hm' | hm')
              · exact hm (List.mem_filter.1 hm').1
              · exact hx (List.mem_singleton.1 hm').symm
    obtain ⟨m1, m2, m3⟩ := q2
    refine ⟨wf_union hwq _, fun ax => ?_, fun ax hax => ?_⟩
    · rw [← m2]
      constructor
      · intro hx
        obtain ⟨w, hw⟩ := exists_get?_of_mem hx
        exact mem_keys_of_get? (by rw [← hsame]; exact hw)
      · intro hx
        obtain ⟨w, hw⟩ := exists_get?_of_mem hx
        exact mem_keys_of_get? (by rw [hsame]; exact hw)
    · rw [hsame]
      exact m3 ax hax

/-- **C65** (without an axis). `u[np.argmin(u)]` is `np.min(u)`: the smallest nominal value, and in each sample the smallest value of
that sample. -/
theorem C65_arg_none (u : UA α) (hu : u.Valid) (s : Shape) (hs : u.shape = .ok s) (hfull : FullSizes u s)
    (hsne : keys s ≠ []) (hcoll : axisD ≠ "*".intercalate (keys s))
    (hne : ∀ ax, get? s ax ≠ some 0) (hD : get? u.distribution.shape axisD ≠ some 0)
    (g : List α → Nat) (f : List α → α) (hf : SA.Orderless f) (hgf : SA.IsArgOf g f) :
    ∃ d r m, u.argReduce g none = .ok d ∧ u.getitem d = .ok r ∧ r.Valid ∧
      u.reduce true f none false none = .ok m ∧ r.shape = .ok [] ∧
      (∀ e, r.nominal.at' e = m.nominal.at' e) ∧
      ∀ e, e axisD < (get? u.distribution.shape axisD).getD 1 → r.distribution.at' e = m.distribution.at' e := by
  obtain ⟨sd, v, h, v1, v2, v3, v4, v5, v6, v7⟩ := broadcasted_main hu hs
  have hg : ∀ l, l ≠ [] → g l < l.length := fun l hl => (hgf l hl).1
  have hnax : v.nominal.axes = keys s := by rw [← SA.keys_shape v2.1, v3]
  have hdax : v.distribution.axes = keys sd := by rw [← SA.keys_shape v2.2.1, v4]
  have hssd : ∀ x ∈ keys s, x ∈ keys sd := by
    intro x hx; rw [h.last]; exact List.mem_append_left _ hx
  have hsds : ∀ x ∈ keys sd, x = axisD ∨ x ∈ keys s := by
    intro x hx
    rw [h.last, List.mem_append] at hx
    rcases hx with hx | hx
    · exact .inr hx
    · split at hx
      · exact .inl (List.mem_singleton.1 hx)
      · cases hx
  have hned : ∀ ax, get? v.distribution.shape ax ≠ some 0 := by
    intro ax
    rw [v4, h.get]
    split
    · exact hD
    · exact hne ax
  obtain ⟨_, mn, _, _, n4, n5, n6, n7, n8⟩ := arg_entries v2.1 h.wf hsne (by rw [hnax]; exact fun _ hx => hx)
    (by rw [hnax]; exact fun ax hx hx' => absurd hx hx') (by rw [v3]; exact hne) g f hf hgf
  obtain ⟨_, md, _, _, d4, d5, d6, d7, d8⟩ := arg_entries v2.2.1 h.wf hsne
    (by rw [hdax]; exact hssd)
    (by
      rw [hdax]
      intro ax hx hx'
      rcases hsds ax hx with rfl | hx
      · exact hcoll
      · exact absurd hx hx') hned g f hf hgf
  obtain ⟨dn, n1, gn⟩ := arg_none v2.1 (by rw [hnax]; exact hsne) (by rw [v3]; exact hne) hg
  rw [hnax] at gn
  obtain ⟨dd, d1, gd⟩ := arg_all v2 v5 h.wf h.noD hsne
    (fun ax hx => by rw [v4, h.get, if_neg (fun hh : ax = axisD => h.noD (hh ▸ hx))])
    (by rw [hdax]; exact hsds) hcoll hned hg
  obtain ⟨d, r, c1, c2, c3, c4, ⟨s', c5, c5'⟩, c6, c7⟩ := arg_core u hu s hs hfull (keys s) (fun _ hx => hx) hD g sd v h v1 v2 v3
    v4 v6 v7 dn dd gn gd mn md n5 n6 n7 n8 d6 d7 d8
  have hmn : ∀ x, get? mn.shape x = none := by
    intro x
    rw [n6]
    split
    · rfl
    · next hx => rw [v3, get?_eq_none]; exact hx
  have hs' : s' = [] := by
    have : keys s' = [] := by
      rw [List.eq_nil_iff_forall_not_mem]
      intro x hx
      obtain ⟨n, hn⟩ := exists_get?_of_mem hx
      rw [c5'] at hn
      split at hn
      · cases hn
      · next hx' => exact hx' (mem_keys_of_get? hn)
    unfold keys at this
    exact List.map_eq_nil_iff.1 this
  refine ⟨d, r, ⟨mn, md⟩, ?_, c2, c3, ?_, by rw [c5, hs'], fun e => c6 e (fun x n hn => by rw [hmn] at hn; cases hn),
    fun e he => c7 e (fun x n hn => ?_) he⟩
  · unfold argReduce
    simp only [bind, Except.bind, v1, n1, d1]
    exact c1
  · unfold reduce
    simp only [bind, Except.bind, v1, v5, Option.getD_none, Option.map_none, n4, d4]
    exact mk?_of_valid n5 c4
  · rw [d6] at hn
    split at hn
    · cases hn
    · next hx =>
      rw [v4, h.get] at hn
      split at hn
      · next hxD =>
        subst hxD
        rw [hn] at he
        exact he
      · exact absurd (mem_keys_of_get? hn) hx

/-- **C65** For a linear order, `np.argmin` and `np.argmax` select the smallest and the largest elements. -/
theorem C65_argmin_argmax [LinearOrder α] (dflt : α) :
    SA.IsArgOf (ND.argmin (fun x y : α => decide (x ≤ y))) (SA.fold1 min dflt) ∧ SA.Orderless (SA.fold1 min dflt) ∧
    SA.IsArgOf (ND.argmin (fun x y : α => decide (y ≤ x))) (SA.fold1 max dflt) ∧ SA.Orderless (SA.fold1 max dflt) := by
  have hmin := SA.argmin_spec (α := α) min dflt (fun x y => decide (x ≤ y))
    (by simpa using fun x y z => le_trans) (by simpa using fun x y => le_antisymm) (by simp)
    (fun x y => min_choice x y) (by simp) (by simp)
  have hmax := SA.argmin_spec (α := α) max dflt (fun x y => decide (y ≤ x))
    (by simpa using fun x y z h1 h2 => le_trans h2 h1) (by simpa using fun x y h1 h2 => le_antisymm h2 h1)
    (by simp) (fun x y => max_choice x y) (by simp) (by simp)
  refine ⟨fun l hl => ?_, (SA.nestable_semigroup min dflt min_assoc min_comm).1, fun l hl => ?_,
    (SA.nestable_semigroup max dflt max_assoc max_comm).1⟩
  · obtain ⟨h1, h2, _⟩ := hmin l hl
    exact ⟨h1, h2⟩
  · obtain ⟨h1, h2, _⟩ := hmax l hl
    exact ⟨h1, h2⟩

/-- nominal values `5, 3, 7`; samples `1, 9, 4` and `8, 2, 6` -/
def exArg : UA Int :=
  ⟨⟨["x"], ND.ofList [3] [5, 3, 7] 0⟩, ⟨["x", axisD], ND.ofList [3, 2] [1, 8, 9, 2, 4, 6] 0⟩⟩

example : exArg.Valid ∧ exArg.shape = .ok [("x", 3)] ∧ FullSizes exArg [("x", 3)] :=
  ⟨⟨by decide, by decide, by decide⟩, rfl, by unfold FullSizes; decide +kernel⟩

example : (do let d ← exArg.argReduce (ND.argmin (fun x y : Int => decide (x ≤ y))) (some ["x"])
              let r ← exArg.getitem d
              pure (r.nominal.nd.toList, r.distribution.nd.toList)) = .ok ([3], [1, 2]) := by decide +kernel

example : (do let d ← exArg.argReduce (ND.argmin (fun x y : Int => decide (x ≤ y))) none
              let r ← exArg.getitem d
              pure (r.nominal.nd.toList, r.distribution.nd.toList)) = .ok ([3], [1, 2]) := by decide +kernel

end UA
end NA
