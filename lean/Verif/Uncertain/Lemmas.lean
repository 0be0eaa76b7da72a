import Verif.Uncertain.Basic
import Verif.Scalar.Arith
import Verif.Vector.Lift

/-!
# Lemmas about uncertain scalars
-/

namespace NA
open Dict
open SA (FitsIn InRange)

namespace UA
variable {α β : Type}

/-- What the constructors guarantee: both components are well-formed arrays and the nominal value does not
have the axis of the samples. -/
def Valid (u : UA α) : Prop := u.nominal.WF ∧ u.distribution.WF ∧ axisD ∉ u.nominal.axes

theorem mk?_of_valid {n d : SA α} (hn : n.WF) (h : axisD ∉ n.axes) : mk? n d = .ok ⟨n, d⟩ := by
  unfold mk?
  rw [SA.keys_shape hn, if_neg h]

theorem mk?_ok {n d : SA α} (hn : n.WF) {u : UA α} (h : mk? n d = .ok u) : u = ⟨n, d⟩ ∧ axisD ∉ n.axes := by
  unfold mk? at h
  rw [SA.keys_shape hn] at h
  split at h
  · cases h
  · next h' => cases h; exact ⟨rfl, h'⟩

/-- Merging axes which are already there, except for the axis of the samples. -/
theorem fold_absorb {s : Shape} (hs : axisD ∉ keys s) :
    ∀ (d : Shape), WF d →
      (∀ ax m, ax ≠ axisD → get? d ax = some m → ∃ n, get? s ax = some n ∧ (m = n ∨ m = 1)) →
      (axisD ∉ keys d → d.foldlM bcAxis s = .ok s) ∧
      (∀ k, get? d axisD = some k → d.foldlM bcAxis s = .ok (s ++ [(axisD, k)])) := by
  -- a general statement about the accumulator
  have key : ∀ (d acc : Shape), WF d →
      (∀ ax m, get? d ax = some m → ax ≠ axisD → ∃ n, get? acc ax = some n ∧ (m = n ∨ m = 1)) →
      axisD ∉ keys d → d.foldlM bcAxis acc = .ok acc := by
    intro d
    induction d with
    | nil => intros; rfl
    | cons p d ih =>
      intro acc hw h hD
      obtain ⟨ax, m⟩ := p
      rw [wf_cons] at hw
      have hax : ax ≠ axisD := by rintro rfl; exact hD (by simp)
      obtain ⟨n, hn, hmn⟩ := h ax m (by simp [get?_cons]) hax
      have hb : bcAxis acc (ax, m) = .ok acc := by
        unfold bcAxis
        simp only [hn]
        rcases hmn with rfl | rfl
        · simp
        · by_cases h1 : n = 1 <;> simp [h1]
      rw [List.foldlM_cons, hb]
      refine ih acc hw.2 (fun ax' m' hg hne => ?_) (fun h => hD (by simp [h]))
      have : ax ≠ ax' := by rintro rfl; exact hw.1 (mem_keys_of_get? hg)
      exact h ax' m' (by rw [get?_cons, if_neg this]; exact hg) hne
  have key2 : ∀ (d acc : Shape), WF d → axisD ∉ keys acc →
      (∀ ax m, get? d ax = some m → ax ≠ axisD → ∃ n, get? acc ax = some n ∧ (m = n ∨ m = 1)) →
      ∀ k, get? d axisD = some k → d.foldlM bcAxis acc = .ok (acc ++ [(axisD, k)]) := by
    intro d
    induction d with
    | nil => intro acc _ _ _ k hk; cases hk
    | cons p d ih =>
      intro acc hw hacc h k hk
      obtain ⟨ax, m⟩ := p
      rw [wf_cons] at hw
      rw [List.foldlM_cons]
      by_cases hax : ax = axisD
      · subst hax
        have hm : m = k := by simpa [get?_cons] using hk
        subst hm
        have hb : bcAxis acc (axisD, m) = .ok (acc ++ [(axisD, m)]) := by
          unfold bcAxis
          simp only [get?_eq_none.2 hacc]
          rw [set_of_not_mem hacc]
        rw [hb]
        refine key d _ hw.2 (fun ax' m' hg hne => ?_) hw.1
        have hx : axisD ≠ ax' := hne.symm
        obtain ⟨n, hn, hmn⟩ := h ax' m' (by rw [get?_cons, if_neg hx]; exact hg) hne
        refine ⟨n, ?_, hmn⟩
        rw [← set_of_not_mem hacc, get?_set, if_neg hne.symm]
        exact hn
      · obtain ⟨n, hn, hmn⟩ := h ax m (by simp [get?_cons]) hax
        have hb : bcAxis acc (ax, m) = .ok acc := by
          unfold bcAxis
          simp only [hn]
          rcases hmn with rfl | rfl
          · simp
          · by_cases h1 : n = 1 <;> simp [h1]
        rw [hb]
        refine ih acc hw.2 hacc (fun ax' m' hg hne => ?_) k ?_
        · have : ax ≠ ax' := by rintro rfl; exact hw.1 (mem_keys_of_get? hg)
          exact h ax' m' (by rw [get?_cons, if_neg this]; exact hg) hne
        · rwa [get?_cons, if_neg hax] at hk
  intro d hd h
  exact ⟨fun hD => key d s hd (fun ax m hg hne => h ax m hne hg) hD,
    fun k hk => key2 d s hd hs (fun ax m hg hne => h ax m hne hg) k hk⟩

theorem bs_absorb {s d : Shape} (hs : axisD ∉ keys s) (hd : WF d)
    (h : ∀ ax m, ax ≠ axisD → get? d ax = some m → ∃ n, get? s ax = some n ∧ (m = n ∨ m = 1)) :
    (axisD ∉ keys d → broadcastShapes [s, d] = .ok s) ∧
    (∀ k, get? d axisD = some k → broadcastShapes [s, d] = .ok (s ++ [(axisD, k)])) := by
  have hf := fold_absorb hs d hd h
  have hb : broadcastShapes [s, d] = bcShape s d := by
    simp [broadcastShapes, List.foldlM_cons]
  rw [hb]
  unfold bcShape
  constructor
  · intro hD
    split
    · rfl
    · exact hf.1 hD
  · intro k hk
    rw [if_neg, hf.2 k hk]
    intro he
    simp only [eqv, Bool.and_eq_true, List.all_eq_true] at he
    have := he.2 (axisD, k) (mem_of_get? hk)
    simp only [beq_iff_eq] at this
    exact hs (mem_keys_of_get? this)

/-- the shape of an uncertain scalar and the shape of its distribution after broadcasting -/
structure Shapes (u : UA α) (s sd : Shape) : Prop where
  wf : WF s
  noD : axisD ∉ keys s
  wfd : WF sd
  get : ∀ ax, get? sd ax = if ax = axisD then get? u.distribution.shape axisD else get? s ax
  nom : FitsIn u.nominal.shape s
  dist : FitsIn u.distribution.shape sd
  shape : u.shape = .ok s
  absorb : broadcastShapes [s, u.distribution.shape] = .ok sd
  last : keys sd = keys s ++ if axisD ∈ u.distribution.axes then [axisD] else []

theorem shape_cases {u : UA α} (hu : u.Valid) :
    (Clash [u.nominal.shape, u.distribution.shape] ∧ u.shapeDistribution = .error .valueError ∧
      u.shape = .error .valueError) ∨
    (¬ Clash [u.nominal.shape, u.distribution.shape] ∧ ∃ t s sd, u.shapeDistribution = .ok t ∧ WF t ∧
      s = t.erase axisD ∧ broadcastShapes [s, t] = .ok sd ∧ Shapes u s sd) := by
  obtain ⟨h1, h2, h3⟩ := hu
  have hw : ∀ s ∈ [u.nominal.shape, u.distribution.shape], WF s := by
    intro s hs
    simp only [List.mem_cons, List.not_mem_nil, or_false] at hs
    rcases hs with rfl | rfl
    · exact SA.wf_shape h1
    · exact SA.wf_shape h2
  unfold UA.shape UA.shapeDistribution
  cases hb : broadcastShapes [u.nominal.shape, u.distribution.shape] with
  | error e =>
    left
    have := C01_broadcast_shapes_error_kind _ hw e hb
    subst this
    exact ⟨(C01_broadcast_shapes_error_iff _ hw).1 ⟨_, hb⟩, rfl, rfl⟩
  | ok t =>
    right
    refine ⟨fun hc => ?_, t, t.erase axisD, ?_⟩
    · obtain ⟨e, he⟩ := (C01_broadcast_shapes_error_iff _ hw).2 hc
      rw [hb] at he; cases he
    obtain ⟨g1, g2, g3⟩ := C01_broadcast_shapes_ok _ hw t hb
    have hnomD : get? u.nominal.shape axisD = none := by
      rw [get?_eq_none, SA.keys_shape h1]; exact h3
    -- the size of the axis of the samples
    have htD : get? t axisD = get? u.distribution.shape axisD := by
      cases hd : get? u.distribution.shape axisD with
      | none =>
        rw [get?_eq_none]
        intro hk
        obtain ⟨s, hs, hsk⟩ := (g2 axisD).1 hk
        simp only [List.mem_cons, List.not_mem_nil, or_false] at hs
        rcases hs with rfl | rfl
        · exact get?_eq_none.1 hnomD hsk
        · exact get?_eq_none.1 hd hsk
      | some k =>
        have hk : axisD ∈ keys t := (g2 axisD).2 ⟨_, by simp, mem_keys_of_get? hd⟩
        obtain ⟨m, hm⟩ := exists_get?_of_mem hk
        obtain ⟨⟨s, hs, hsm⟩, _⟩ := g3 axisD m hm
        simp only [List.mem_cons, List.not_mem_nil, or_false] at hs
        rcases hs with rfl | rfl
        · rw [hnomD] at hsm; cases hsm
        · rw [hm, ← hsm, hd]
    have hsw : WF (t.erase axisD) := by
      unfold Dict.WF at g1 ⊢
      exact g1.sublist (by unfold Dict.erase Dict.keys; exact (List.filter_sublist).map _)
    have hsD : axisD ∉ keys (t.erase axisD) := by
      rw [← get?_eq_none, get?_erase]; simp
    have hget : ∀ ax, ax ≠ axisD → get? (t.erase axisD) ax = get? t ax := by
      intro ax hne
      rw [get?_erase, if_neg hne.symm]
    have hfn : FitsIn u.nominal.shape t := SA.fitsIn_of_broadcastShapes hw hb (by simp)
    have hfd : FitsIn u.distribution.shape t := SA.fitsIn_of_broadcastShapes hw hb (by simp)
    have hab1 := bs_absorb (s := t.erase axisD) (d := t) hsD g1 (by
      intro ax m hne hg
      exact ⟨m, by rw [hget ax hne]; exact hg, .inl rfl⟩)
    have hab2 := bs_absorb (s := t.erase axisD) (d := u.distribution.shape) hsD (SA.wf_shape h2) (by
      intro ax m hne hg
      obtain ⟨n, hn, h⟩ := hfd ax m hg
      exact ⟨n, by rw [hget ax hne]; exact hn, h⟩)
    have hfs : FitsIn u.nominal.shape (t.erase axisD) := by
      intro ax m hg
      obtain ⟨n, hn, h⟩ := hfn ax m hg
      refine ⟨n, ?_, h⟩
      rw [hget ax (by rintro rfl; rw [hnomD] at hg; cases hg)]
      exact hn
    have hdist : ∀ sd : Shape, (∀ ax, get? sd ax = get? t ax) → FitsIn u.distribution.shape sd := by
      intro sd hsd ax m hg
      obtain ⟨n, hn, h⟩ := hfd ax m hg
      exact ⟨n, by rw [hsd]; exact hn, h⟩
    cases hd : get? u.distribution.shape axisD with
    | none =>
      have hDt : axisD ∉ keys t := by rw [← get?_eq_none, htD]; exact hd
      have hDd : axisD ∉ keys u.distribution.shape := get?_eq_none.1 hd
      have hsame : ∀ ax, get? (t.erase axisD) ax = get? t ax := by
        intro ax
        by_cases h : ax = axisD
        · subst h; rw [get?_eq_none.2 hsD, get?_eq_none.2 hDt]
        · exact hget ax h
      refine ⟨t.erase axisD, rfl, g1, rfl, hab1.1 hDt, ?_⟩
      refine ⟨hsw, hsD, hsw, ?_, hfs, hdist _ hsame, ?_, hab2.1 hDd, ?_⟩
      · intro ax
        split
        · next h => subst h; rw [hd]; exact get?_eq_none.2 hsD
        · rfl
      · unfold UA.shape UA.shapeDistribution; rw [hb]; rfl
      · rw [SA.keys_shape h2] at hDd
        simp [hDd]
    | some k =>
      have hDd : axisD ∈ u.distribution.axes := by
        rw [← SA.keys_shape h2]; exact mem_keys_of_get? hd
      have hg : ∀ ax, get? (t.erase axisD ++ [(axisD, k)]) ax =
          if ax = axisD then some k else get? (t.erase axisD) ax := by
        intro ax
        rw [← set_of_not_mem hsD, get?_set]
        simp only [eq_comm]
      refine ⟨t.erase axisD ++ [(axisD, k)], rfl, g1, rfl, hab1.2 k (by rw [htD]; exact hd), ?_⟩
      refine ⟨hsw, hsD, ?_, ?_, hfs, hdist _ ?_, ?_, hab2.2 k hd, ?_⟩
      · rw [← set_of_not_mem hsD]; exact wf_set hsw _ _
      · intro ax
        rw [hg, hd]
      · intro ax
        rw [hg]
        split
        · next h => subst h; rw [htD, hd]
        · next h => exact hget ax h
      · unfold UA.shape UA.shapeDistribution; rw [hb]; rfl
      · simp [hDd]

theorem broadcasted_main {u : UA α} (hu : u.Valid) {s : Shape} (hs : u.shape = .ok s) :
    ∃ sd v, Shapes u s sd ∧ u.broadcasted = .ok v ∧ v.Valid ∧ v.nominal.shape = s ∧ v.distribution.shape = sd ∧
      v.shape = .ok s ∧
      (∀ e, v.nominal.at' e = u.nominal.atB e) ∧ ∀ e, v.distribution.at' e = u.distribution.atB e := by
  rcases shape_cases hu with ⟨_, _, h⟩ | ⟨_, t, s', sd, h1, h2, h3, h4, h5⟩
  · rw [h] at hs; cases hs
  have : s' = s := by rw [h5.shape] at hs; cases hs; rfl
  subst this
  refine ⟨sd, ?_⟩
  rcases SA.C10_broadcast_to u.nominal hu.1 s' h5.wf with ⟨_, n, n1, n2, n3, n4⟩ | ⟨hn, _⟩
  swap
  · exact absurd h5.nom hn
  rcases SA.C10_broadcast_to u.distribution hu.2.1 sd h5.wfd with ⟨_, d, d1, d2, d3, d4⟩ | ⟨hd, _⟩
  swap
  · exact absurd h5.dist hd
  have hnD : axisD ∉ n.axes := by rw [← SA.keys_shape n2, n3]; exact h5.noD
  have hv : Valid (⟨n, d⟩ : UA α) := ⟨n2, d2, hnD⟩
  refine ⟨⟨n, d⟩, h5, ?_, hv, n3, d3, ?_, n4, d4⟩
  · unfold broadcasted broadcastTo
    rw [hs, h1]
    simp only [bind, Except.bind, h4, n1, d1]
    exact mk?_of_valid n2 hnD
  · unfold UA.shape UA.shapeDistribution
    have : broadcastShapes [n.shape, d.shape] = .ok sd := by
      rw [n3, d3]
      cases hg : get? sd axisD with
      | none =>
        have hsds : sd = s' := by
          have h := (bs_absorb h5.noD h5.wfd (fun ax m hne hg' => ⟨m, by
            rw [h5.get ax, if_neg hne] at hg'; exact hg', .inl rfl⟩)).1 (get?_eq_none.1 hg)
          have h' := h5.absorb
          have hdn : get? u.distribution.shape axisD = none := by
            have := h5.get axisD; rw [hg] at this; simpa using this.symm
          have h'' := (bs_absorb h5.noD (SA.wf_shape hu.2.1) (fun ax m hne hg' => by
            obtain ⟨k, hk, hk'⟩ := h5.dist ax m hg'
            exact ⟨k, by rw [h5.get ax, if_neg hne] at hk; exact hk, hk'⟩)).1 (get?_eq_none.1 hdn)
          rw [h'] at h''; cases h''; rfl
        rw [hsds]
        refine (bs_absorb h5.noD h5.wf (fun ax m _ hg' => ⟨m, hg', .inl rfl⟩)).1 h5.noD
      | some k =>
        have hdn : get? u.distribution.shape axisD = some k := by
          have := h5.get axisD; rw [hg] at this; simpa using this.symm
        have h := (bs_absorb h5.noD h5.wfd (fun ax m hne hg' => ⟨m, by
            rw [h5.get ax, if_neg hne] at hg'; exact hg', .inl rfl⟩)).2 k hg
        have h'' := (bs_absorb h5.noD (SA.wf_shape hu.2.1) (fun ax m hne hg' => by
            obtain ⟨k, hk, hk'⟩ := h5.dist ax m hg'
            exact ⟨k, by rw [h5.get ax, if_neg hne] at hk; exact hk, hk'⟩)).2 k hdn
        rw [h5.absorb] at h''
        rw [h, ← h'']
    rw [this]
    show Except.ok (sd.erase axisD) = _
    congr 1
    have hk := h5.last
    have hb := h5.absorb
    by_cases hD : axisD ∈ u.distribution.axes
    · obtain ⟨k, hk⟩ := exists_get?_of_mem (d := u.distribution.shape) (by rw [SA.keys_shape hu.2.1]; exact hD)
      have h'' := (bs_absorb h5.noD (SA.wf_shape hu.2.1) (fun ax m hne hg' => by
            obtain ⟨k, hk, hk'⟩ := h5.dist ax m hg'
            exact ⟨k, by rw [h5.get ax, if_neg hne] at hk; exact hk, hk'⟩)).2 k hk
      rw [h5.absorb] at h''
      cases h''
      unfold Dict.erase
      rw [List.filter_append, List.filter_eq_self.2]
      · simp
      · intro p hp
        simp only [ne_eq, decide_eq_true_eq]
        rintro h
        exact h5.noD (by rw [← h]; exact List.mem_map.2 ⟨p, hp, rfl⟩)
    · have h'' := (bs_absorb h5.noD (SA.wf_shape hu.2.1) (fun ax m hne hg' => by
            obtain ⟨k, hk, hk'⟩ := h5.dist ax m hg'
            exact ⟨k, by rw [h5.get ax, if_neg hne] at hk; exact hk, hk'⟩)).1 (by rw [SA.keys_shape hu.2.1]; exact hD)
      rw [h5.absorb] at h''
      cases h''
      unfold Dict.erase
      rw [List.filter_eq_self.2]
      intro p hp
      simp only [ne_eq, decide_eq_true_eq]
      rintro h
      exact h5.noD (by rw [← h]; exact List.mem_map.2 ⟨p, hp, rfl⟩)

theorem ufuncN_atB {inputs : List (SA α)} (h : ∀ a ∈ inputs, a.WF) {f : List α → β} {r : SA β}
    (hr : SA.ufuncN f inputs = .ok r) : r.WF ∧ broadcastShapes (inputs.map SA.shape) = .ok r.shape ∧
      ∀ e, r.atB e = f (inputs.map (fun a => a.atB e)) := by
  obtain ⟨h1, h2, h3⟩ := SA.ufuncN_ok h hr
  have hw : ∀ s ∈ inputs.map SA.shape, Dict.WF s := by
    intro s hs
    obtain ⟨a, ha, rfl⟩ := List.mem_map.1 hs
    exact SA.wf_shape (h a ha)
  refine ⟨h1, h2, fun e => ?_⟩
  rw [show r.atB e = r.at' (fun ax => if get? r.shape ax = some 1 then 0 else e ax) from rfl, h3]
  congr 1
  refine List.map_congr_left fun a ha => ?_
  exact atB_clip (h a ha) (SA.fitsIn_of_broadcastShapes hw h2 (List.mem_map.2 ⟨a, ha, rfl⟩)) e

theorem flat_ne_axisD {A : List String} (hD : axisD ∉ A) : "*".intercalate A ≠ axisD := by
  intro h
  cases A with
  | nil => exact absurd h (by decide)
  | cons x l =>
    cases l with
    | nil =>
      rw [String.intercalate_singleton] at h
      exact hD (by simp [h])
    | cons y l =>
      have := congrArg String.toList h
      rw [String.toList_intercalate] at this
      have hm : '*' ∈ axisD.toList := by
        rw [← this]
        simp [List.intercalate]
      exact absurd hm (by decide)

end UA
end NA
