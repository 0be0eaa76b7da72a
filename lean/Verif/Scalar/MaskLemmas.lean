import Verif.Scalar.SetLemmas

/-! Helper lemmas about boolean masks. -/

namespace NA
open Dict

namespace SA
variable {α : Type}

/-- The `k`-th true index of a mask, as a named index. -/
def trueEnv (mask : SA Bool) (k : Nat) : String → Nat := envOf mask.axes (mask.nd.trues.getD k [])

/-- The index of `a` read at index `e` of `a[mask]`. -/
def maskIdx (mask : SA Bool) (axisNew : String) (e : String → Nat) : String → Nat := fun ax =>
  if ax ∈ mask.axes then trueEnv mask (e axisNew) ax else e ax

theorem trues_spec {mask : SA Bool} (hm : mask.WF) :
    (∀ k < mask.nd.trues.length, InRange mask.shape (trueEnv mask k) ∧ mask.at' (trueEnv mask k) = true) ∧
    (∀ k k', k < k' → k' < mask.nd.trues.length →
      List.Lex (· < ·) (mask.axes.map (trueEnv mask k)) (mask.axes.map (trueEnv mask k'))) ∧
    (∀ e, InRange mask.shape e → mask.at' e = true →
      ∃ k < mask.nd.trues.length, ∀ ax ∈ mask.axes, trueEnv mask k ax = e ax) := by
  have hmem : ∀ k, (h : k < mask.nd.trues.length) → mask.axes.map (trueEnv mask k) = mask.nd.trues[k] ∧
      ND.InRange mask.nd.shape mask.nd.trues[k] ∧ mask.nd.get mask.nd.trues[k] = true := by
    intro k hk
    have h1 := List.getElem_mem hk
    unfold ND.trues at h1
    rw [List.mem_filter, ND.mem_ndIndices_iff] at h1
    refine ⟨?_, h1.1, h1.2⟩
    unfold trueEnv
    rw [List.getD_eq_getElem _ _ hk, map_envOf hm.2]
    exact (ND.inRange_length h1.1).trans hm.1
  refine ⟨fun k hk => ?_, fun k k' h h' => ?_, fun e he ht => ?_⟩
  · obtain ⟨h1, h2, h3⟩ := hmem k hk
    refine ⟨?_, ?_⟩
    · rw [inRange_nd hm, h1]; exact h2
    · unfold at'; rw [h1]; exact h3
  · rw [(hmem k (by omega)).1, (hmem k' h').1]
    have hp : mask.nd.trues.Pairwise (List.Lex (· < ·)) := by
      unfold ND.trues
      exact (sorted_ndIndices _).filter _
    exact List.pairwise_iff_getElem.1 hp k k' (by omega) h' h
  · have : mask.axes.map e ∈ mask.nd.trues := by
      unfold ND.trues
      rw [List.mem_filter, ND.mem_ndIndices_iff]
      exact ⟨(inRange_nd hm).1 he, ht⟩
    obtain ⟨k, hk, hke⟩ := List.mem_iff_getElem.1 this
    refine ⟨k, hk, ?_⟩
    have h1 := (hmem k hk).1
    rw [hke, List.map_inj_left] at h1
    exact h1

theorem maskAxis_ok (mask : SA Bool) : maskAxis mask =
    .ok (if mask.axes = [] then "boolean" else "*".intercalate mask.axes) := by
  unfold maskAxis flattenAxes
  cases h : mask.axes <;> rfl

/-- Everything about `getMask`. -/
theorem getMask_main {a : SA α} (ha : a.WF) {mask : SA Bool} (hm : mask.WF) :
    (¬ mask.axes ⊆ a.axes → a.getMask mask = .error .valueError) ∧
    (mask.axes ⊆ a.axes →
      ((∃ ax ∈ mask.axes, get? mask.shape ax ≠ get? a.shape ax) → a.getMask mask = .error .indexError) ∧
      ((∀ ax ∈ mask.axes, get? mask.shape ax = get? a.shape ax) →
        ∃ s, maskAxis mask = .ok s ∧
        (s ∈ a.axes.filter (· ∉ mask.axes) → a.getMask mask = .error .valueError) ∧
        (s ∉ a.axes.filter (· ∉ mask.axes) →
          ∃ r, a.getMask mask = .ok r ∧ r.WF ∧ r.axes = a.axes.filter (· ∉ mask.axes) ++ [s] ∧
            (∀ ax ∈ a.axes, ax ∉ mask.axes → get? r.shape ax = get? a.shape ax) ∧
            get? r.shape s = some mask.nd.trues.length ∧
            ∀ e, e s < mask.nd.trues.length → r.at' e = a.at' (maskIdx mask s e)))) := by
  constructor
  · intro h
    unfold getMask
    rw [if_neg]
    intro h'
    apply h
    intro x hx
    rw [List.all_eq_true] at h'
    simpa using h' x hx
  · intro hsub
    have hall : mask.axes.all (· ∈ a.axes) = true := by
      rw [List.all_eq_true]; intro x hx; simpa using hsub hx
    obtain ⟨v, hv, hvs, hvg⟩ := moveaxis_block ha hm.2 hsub (k := 0) (by omega)
    simp only [List.take_zero, List.nil_append, List.drop_zero] at hvs hvg
    rw [← List.range_eq_range'] at hv
    set rest := a.axes.filter (· ∉ mask.axes) with hrest
    obtain ⟨s, hs⟩ : ∃ s, maskAxis mask = .ok s := ⟨_, maskAxis_ok mask⟩
    have hg : a.getMask mask = (do
        let nd ← v.getMask mask.nd
        let nd ← nd.moveaxis [0] [nd.ndim - 1]
        mk? nd (rest ++ [s])) := by
      unfold getMask
      rw [if_pos hall]
      simp only [bind, Except.bind]
      rw [hv]
      simp only
      rw [hs]
    have htake : v.shape.take mask.nd.ndim = mask.axes.map a.sizeOf' := by
      rw [hvs, List.map_append, List.take_left']
      simp [hm.1]
    have hdrop : v.shape.drop mask.nd.ndim = rest.map a.sizeOf' := by
      rw [hvs, List.map_append, List.drop_left']
      simp [hm.1]
    have hiff : (v.shape.take mask.nd.ndim = mask.nd.shape) ↔
        ∀ ax ∈ mask.axes, get? mask.shape ax = get? a.shape ax := by
      rw [htake, shape_eq_map hm, List.map_inj_left]
      constructor
      · intro h ax hax
        have := h ax hax
        obtain ⟨n, hn⟩ := exists_get?_of_mem (d := a.shape) (by rw [keys_shape ha]; exact hsub hax)
        obtain ⟨n', hn'⟩ := exists_get?_of_mem (d := mask.shape) (by rw [keys_shape hm]; exact hax)
        simp only [sizeOf', hn, hn', Option.getD_some] at this
        rw [hn, hn', this]
      · intro h ax hax
        unfold sizeOf'
        rw [h ax hax]
    refine ⟨?_, ?_⟩
    · rintro ⟨ax, hax, hne⟩
      rw [hg]
      unfold ND.getMask
      rw [if_neg (fun h => hne (hiff.1 h ax hax))]
      rfl
    · intro heq
      refine ⟨s, hs, ?_, ?_⟩
      · intro hin
        rw [hg]
        unfold ND.getMask
        rw [if_pos (hiff.2 heq)]
        simp only [bind, Except.bind]
        have hnn : ¬ (rest ++ [s]).Nodup := by
          intro h
          exact (List.nodup_append.1 h).2.2 s hin s (by simp) rfl
        unfold ND.moveaxis
        by_cases hc : ([0] : List Nat).Nodup ∧ [(ND.ndim (⟨mask.nd.trues.length :: v.shape.drop mask.nd.ndim,
          fun i => v.get (mask.nd.trues.getD (i.headD 0) [] ++ i.tail)⟩ : ND α) - 1)].Nodup ∧
          (∀ x ∈ ([0] : List Nat), x < ND.ndim (⟨mask.nd.trues.length :: v.shape.drop mask.nd.ndim,
          fun i => v.get (mask.nd.trues.getD (i.headD 0) [] ++ i.tail)⟩ : ND α)) ∧
          (∀ d ∈ [(ND.ndim (⟨mask.nd.trues.length :: v.shape.drop mask.nd.ndim,
          fun i => v.get (mask.nd.trues.getD (i.headD 0) [] ++ i.tail)⟩ : ND α) - 1)],
            d < ND.ndim (⟨mask.nd.trues.length :: v.shape.drop mask.nd.ndim,
          fun i => v.get (mask.nd.trues.getD (i.headD 0) [] ++ i.tail)⟩ : ND α)) ∧
          ([0] : List Nat).length = [(ND.ndim (⟨mask.nd.trues.length :: v.shape.drop mask.nd.ndim,
          fun i => v.get (mask.nd.trues.getD (i.headD 0) [] ++ i.tail)⟩ : ND α) - 1)].length
        · rw [if_pos hc]
          simp only
          unfold mk?
          split
          · rfl
          · rfl
        · rw [if_neg hc]
      · intro hnin
        have hrn : rest.Nodup := ha.2.filter _
        have hsr : ([s] ++ rest).Nodup := by
          simpa [hrn] using hnin
        have hrs : (rest ++ [s]).Nodup := by
          rw [List.nodup_append]
          refine ⟨hrn, by simp, ?_⟩
          intro x hx y hy hxy
          simp at hy; subst hy; subst hxy; exact hnin hx
        set sz : String → Nat := fun ax => if ax = s then mask.nd.trues.length else a.sizeOf' ax with hsz
        set u : ND α := ⟨mask.nd.trues.length :: v.shape.drop mask.nd.ndim,
          fun i => v.get (mask.nd.trues.getD (i.headD 0) [] ++ i.tail)⟩ with hu
        have hus : u.shape = ([s] ++ rest).map sz := by
          simp only [hu, hdrop, List.map_append, List.map_cons, List.map_nil, List.singleton_append]
          congr 1
          · simp [hsz]
          · apply List.map_congr_left
            intro ax hax
            have : ax ≠ s := by rintro rfl; exact hnin hax
            simp [hsz, this]
        obtain ⟨hbw, hbs⟩ := mk_map hsr hus
        obtain ⟨w, hw, hws, hwg⟩ := moveaxis_block hbw (S := [s]) (by simp) (by simp)
          (k := rest.length) (by
            have : ([s] ++ rest).filter (· ∉ [s]) = rest := by
              simp only [List.singleton_append, List.filter_cons]
              simp only [List.mem_singleton, not_true_eq_false, decide_false]
              rw [if_neg (by simp), List.filter_eq_self]
              intro x hx
              have : x ≠ s := by rintro rfl; exact hnin hx
              simp [this]
            simp only [this]; exact le_refl _)
        have hfil : ([s] ++ rest).filter (· ∉ [s]) = rest := by
          simp only [List.singleton_append, List.filter_cons]
          simp only [List.mem_singleton, not_true_eq_false, decide_false]
          rw [if_neg (by simp), List.filter_eq_self]
          intro x hx
          have : x ≠ s := by rintro rfl; exact hnin hx
          simp [this]
        simp only [hfil, List.take_length, List.drop_length, List.append_nil] at hws hwg
        have hwm : u.moveaxis [0] [u.ndim - 1] = .ok w := by
          have h1 : ([s].map (([s] ++ rest).idxOf)) = [0] := by simp
          have h2 : List.range' rest.length [s].length = [u.ndim - 1] := by
            simp [ND.ndim, hus, List.range']
          rw [← h1, ← h2]
          exact hw
        have hszs : ∀ ax ∈ [s] ++ rest, (SA.mk ([s] ++ rest) u).sizeOf' ax = sz ax := by
          intro ax hax
          unfold sizeOf'
          rw [hbs, if_pos hax]; rfl
        have hws' : w.shape = (rest ++ [s]).map sz := by
          rw [hws]
          apply List.map_congr_left
          intro ax hax
          apply hszs
          simp at hax ⊢
          tauto
        obtain ⟨hrw, hrsz⟩ := mk_map hrs hws'
        refine ⟨⟨rest ++ [s], w⟩, ?_, hrw, rfl, ?_, ?_, ?_⟩
        · rw [hg]
          unfold ND.getMask
          rw [if_pos (hiff.2 heq)]
          simp only [bind, Except.bind]
          rw [hwm]
          exact mk?_of_wf (by simp [ND.ndim, hws']) hrs
        · intro ax hax hax2
          have hr : ax ∈ rest := by simp [hrest, hax, hax2]
          have : ax ≠ s := by rintro rfl; exact hnin hr
          obtain ⟨n, hn⟩ := exists_get?_of_mem (d := a.shape) (by rw [keys_shape ha]; exact hax)
          rw [hrsz, if_pos (by simp [hr]), hn]
          simp [hsz, this, sizeOf', hn]
        · rw [hrsz, if_pos (by simp)]; simp [hsz]
        · intro e hes
          show w.get ((rest ++ [s]).map e) = _
          rw [hwg]
          show u.get (([s] ++ rest).map e) = _
          rw [← hvg]
          simp only [hu, List.singleton_append, List.map_cons, List.headD_cons, List.tail_cons,
            List.map_append]
          congr 2
          · have h1 := List.getElem_mem hes
            unfold ND.trues at h1
            rw [List.mem_filter, ND.mem_ndIndices_iff] at h1
            have h2 : mask.axes.map (trueEnv mask (e s)) = mask.nd.trues.getD (e s) [] := by
              unfold trueEnv
              apply map_envOf hm.2
              rw [List.getD_eq_getElem _ _ hes]
              exact (ND.inRange_length h1.1).trans hm.1
            rw [← h2]
            apply List.map_congr_left
            intro ax hax
            simp [maskIdx, hax]
          · apply List.map_congr_left
            intro ax hax
            simp [hrest] at hax
            simp [maskIdx, hax.2]

/-- Everything about `setMask`. -/
theorem setMask_main {a value : SA α} (ha : a.WF) (hval : value.WF) {mask : SA Bool} (hm : mask.WF) :
    (¬ mask.axes ⊆ a.axes → a.setMask mask value = .error .valueError) ∧
    (mask.axes ⊆ a.axes →
      ∃ s, maskAxis mask = .ok s ∧ (s ∉ a.axes.filter (· ∉ mask.axes) →
      (¬ value.axes ⊆ s :: a.axes.filter (· ∉ mask.axes) → a.setMask mask value = .error .valueError) ∧
      (value.axes ⊆ s :: a.axes.filter (· ∉ mask.axes) →
      ((∃ ax ∈ mask.axes, get? mask.shape ax ≠ get? a.shape ax) → a.setMask mask value = .error .indexError) ∧
      ((∀ ax ∈ mask.axes, get? mask.shape ax = get? a.shape ax) →
      ((∃ m, get? value.shape s = some m ∧ m ≠ mask.nd.trues.length ∧ m ≠ 1) ∨
        (∃ ax m, ax ∈ a.axes ∧ ax ∉ mask.axes ∧ get? value.shape ax = some m ∧
          get? a.shape ax ≠ some m ∧ m ≠ 1) → a.setMask mask value = .error .valueError) ∧
      ((∀ m, get? value.shape s = some m → m = mask.nd.trues.length ∨ m = 1) →
        (∀ ax m, ax ∈ a.axes → ax ∉ mask.axes → get? value.shape ax = some m →
          get? a.shape ax = some m ∨ m = 1) →
        ∃ r, a.setMask mask value = .ok r ∧ r.WF ∧ r.axes = a.axes ∧ r.shape = a.shape ∧
          (∀ e, InRange a.shape e → mask.at' e = false → r.at' e = a.at' e) ∧
          (∀ e, (∀ ax n, ax ∉ mask.axes → get? a.shape ax = some n → e ax < n) → e s < mask.nd.trues.length →
            r.at' (maskIdx mask s e) = value.atB e)))))) := by
  constructor
  · intro h
    unfold setMask
    rw [if_neg]
    intro h'
    apply h
    intro x hx
    rw [List.all_eq_true] at h'
    simpa using h' x hx
  · intro hsub
    have hall : mask.axes.all (· ∈ a.axes) = true := by
      rw [List.all_eq_true]; intro x hx; simpa using hsub hx
    obtain ⟨s, hs⟩ : ∃ s, maskAxis mask = .ok s := ⟨_, maskAxis_ok mask⟩
    refine ⟨s, hs, ?_⟩
    set rest := a.axes.filter (· ∉ mask.axes) with hrest
    intro hnin
    have hrn : rest.Nodup := ha.2.filter _
    have hT : (s :: rest).Nodup := by simpa [hrn] using hnin
    have hrest' : ∀ ax ∈ rest, ax ∈ a.axes ∧ ax ∉ mask.axes := by
      intro ax hax; simpa [hrest] using hax
    have hKB : (mask.axes ++ rest).Nodup := by
      rw [List.nodup_append]
      exact ⟨hm.2, hrn, fun x hx y hy hxy => (hrest' y hy).2 (hxy ▸ hx)⟩
    have hperm1 : mask.axes ++ rest ⊆ a.axes := by
      intro x hx
      rcases List.mem_append.1 hx with h | h
      · exact hsub h
      · exact (hrest' x h).1
    have hperm2 : a.axes ⊆ mask.axes ++ rest := by
      intro x hx
      by_cases h : x ∈ mask.axes
      · simp [h]
      · simp [hrest, h, hx]
    obtain ⟨v, hv⟩ := aligned_isOk ha hKB hperm2
    obtain ⟨_, hvs, hvg⟩ := aligned_ok ha hKB hv
    have hvs' : v.shape = (mask.axes ++ rest).map a.sizeOf' := by
      rw [hvs]
      apply List.map_congr_left
      intro ax hax
      obtain ⟨n, hn⟩ := exists_get?_of_mem (d := a.shape) (by rw [keys_shape ha]; exact hperm1 hax)
      simp [sizeOf', hn]
    have htake : v.shape.take mask.nd.ndim = mask.axes.map a.sizeOf' := by
      rw [hvs', List.map_append, List.take_left']
      simp [hm.1]
    have hdrop : v.shape.drop mask.nd.ndim = rest.map a.sizeOf' := by
      rw [hvs', List.map_append, List.drop_left']
      simp [hm.1]
    have hiff : (v.shape.take mask.nd.ndim = mask.nd.shape) ↔
        ∀ ax ∈ mask.axes, get? mask.shape ax = get? a.shape ax := by
      rw [htake, shape_eq_map hm, List.map_inj_left]
      constructor
      · intro h ax hax
        have := h ax hax
        obtain ⟨n, hn⟩ := exists_get?_of_mem (d := a.shape) (by rw [keys_shape ha]; exact hsub hax)
        obtain ⟨n', hn'⟩ := exists_get?_of_mem (d := mask.shape) (by rw [keys_shape hm]; exact hax)
        simp only [sizeOf', hn, hn', Option.getD_some] at this
        rw [hn, hn', this]
      · intro h ax hax
        unfold sizeOf'
        rw [h ax hax]
    have hset : a.setMask mask value = (do
        let w ← value.aligned (s :: rest)
        let u ← v.setMask mask.nd w
        a.throughView (mask.axes ++ rest) u) := by
      unfold setMask
      rw [if_pos hall]
      simp only [bind, Except.bind]
      rw [hs]
      simp only [← hrest]
      rw [hv]
    constructor
    · intro hvsub
      rw [hset]
      cases hw : value.aligned (s :: rest) with
      | ok w => exact absurd (aligned_ok hval hT hw).1 hvsub
      | error e =>
        have := aligned_error_kind hw
        subst this; rfl
    · intro hvsub
      obtain ⟨w, hw⟩ := aligned_isOk hval hT hvsub
      obtain ⟨_, hws, _⟩ := aligned_ok hval hT hw
      rw [hset, hw]
      simp only [bind, Except.bind]
      unfold ND.setMask
      refine ⟨?_, ?_⟩
      · rintro ⟨ax, hax, hne⟩
        rw [if_neg (fun h => hne (hiff.1 h ax hax))]
      · intro heq
        rw [if_pos (hiff.2 heq)]
        set sz : String → Nat := fun ax => if ax = s then mask.nd.trues.length else a.sizeOf' ax with hsz
        have hshape : mask.nd.trues.length :: v.shape.drop mask.nd.ndim = (s :: rest).map sz := by
          simp only [hdrop, List.map_cons]
          congr 1
          · simp [hsz]
          · apply List.map_congr_left
            intro ax hax
            have : ax ≠ s := by rintro rfl; exact hnin hax
            simp [hsz, this]
        have hfits : ND.fits w.shape (mask.nd.trues.length :: v.shape.drop mask.nd.ndim) ↔
            ∀ ax ∈ s :: rest, (get? value.shape ax).getD 1 = sz ax ∨ (get? value.shape ax).getD 1 = 1 := by
          rw [hws, hshape, fits_map]
        constructor
        · intro hbad
          dsimp only
          rw [if_neg]
          rw [hfits]
          intro h
          rcases hbad with ⟨m, h1, h2, h3⟩ | ⟨ax, m, h1, h2, h3, h4, h5⟩
          · have := h s (by simp)
            simp [h1, hsz] at this
            tauto
          · have hr : ax ∈ rest := by simp [hrest, h1, h2]
            have hne : ax ≠ s := by rintro rfl; exact hnin hr
            have := h ax (by simp [hr])
            obtain ⟨n, hn⟩ := exists_get?_of_mem (d := a.shape) (by rw [keys_shape ha]; exact h1)
            simp [h3, hsz, hne, sizeOf', hn] at this
            rw [hn] at h4
            simp at h4
            omega
        · intro hf1 hf2
          dsimp only
          rw [if_pos]
          · simp only
            obtain ⟨r, hr, hrw, hra, hrs, hre⟩ := throughView_ok ha hKB hperm1 hperm2
              (v := v.writeAll (fun i => mask.nd.trues.getD (i.headD 0) [] ++ i.tail)
                (fun t => w.get (ND.clipIdx w.shape t))
                (ndIndices (mask.nd.trues.length :: v.shape.drop mask.nd.ndim))) hvs'
            have htr : ∀ k, (h : k < mask.nd.trues.length) →
                mask.axes.map (trueEnv mask k) = mask.nd.trues.getD k [] ∧
                ND.InRange mask.nd.shape (mask.nd.trues.getD k []) := by
              intro k hk
              have h1 := List.getElem_mem hk
              unfold ND.trues at h1
              rw [List.mem_filter, ND.mem_ndIndices_iff] at h1
              have h2 : ND.InRange mask.nd.shape (mask.nd.trues.getD k []) := by
                rw [List.getD_eq_getElem _ _ hk]; exact h1.1
              exact ⟨map_envOf hm.2 ((ND.inRange_length h2).trans hm.1), h2⟩
            refine ⟨r, hr, hrw, hra, hrs, ?_, ?_⟩
            · intro e he hmf
              rw [hre, ND.writeAll_untouched, hvg]
              intro t ht hft
              rw [ND.mem_ndIndices_iff, hshape] at ht
              obtain ⟨e', rfl, he'⟩ := exists_env hT ht
              simp only [List.map_cons, List.headD_cons, List.tail_cons, List.map_append] at hft
              have hk : e' s < mask.nd.trues.length := by
                have := he' s (by simp)
                simpa [hsz] using this
              obtain ⟨h1, h2⟩ := htr _ hk
              have hlen : (mask.nd.trues.getD (e' s) []).length = (mask.axes.map e).length := by
                rw [← h1]; simp
              have := (List.append_inj hft hlen).1
              have h3 := ((trues_spec hm).1 _ hk).2
              unfold at' at h3 hmf
              rw [h1, this, hmf] at h3
              cases h3
            · intro e he hk
              have hin : ∃ t ∈ ndIndices (mask.nd.trues.length :: v.shape.drop mask.nd.ndim),
                  (fun i => mask.nd.trues.getD (i.headD 0) [] ++ i.tail) t =
                    (mask.axes ++ rest).map (maskIdx mask s e) := by
                refine ⟨(s :: rest).map e, ?_, ?_⟩
                · rw [ND.mem_ndIndices_iff, hshape, inRange_map]
                  intro ax hax
                  by_cases h : ax = s
                  · subst h; simpa [hsz] using hk
                  · have hr : ax ∈ rest := by simpa [h] using hax
                    obtain ⟨n, hn⟩ := exists_get?_of_mem (d := a.shape)
                      (by rw [keys_shape ha]; exact (hrest' ax hr).1)
                    simp only [hsz, h, if_false, sizeOf', hn]
                    exact he ax n (hrest' ax hr).2 hn
                · simp only [List.map_cons, List.headD_cons, List.tail_cons, List.map_append]
                  rw [← (htr _ hk).1]
                  congr 1
                  · apply List.map_congr_left
                    intro ax hax
                    simp [maskIdx, hax]
                  · apply List.map_congr_left
                    intro ax hax
                    simp [maskIdx, (hrest' ax hax).2]
              obtain ⟨t, ht, hft, hw'⟩ := ND.writeAll_touched (a := v)
                (w := fun t => w.get (ND.clipIdx w.shape t)) hin
              rw [hre, hw']
              rw [ND.mem_ndIndices_iff, hshape] at ht
              obtain ⟨e', rfl, he'⟩ := exists_env hT ht
              rw [aligned_clip hval hT hw]
              simp only [List.map_cons, List.headD_cons, List.tail_cons, List.map_append] at hft
              have hk' : e' s < mask.nd.trues.length := by
                have := he' s (by simp)
                simpa [hsz] using this
              obtain ⟨h1, h2⟩ := htr _ hk'
              have hlen : (mask.nd.trues.getD (e' s) []).length =
                  (mask.axes.map (maskIdx mask s e)).length := by
                rw [← h1]; simp
              obtain ⟨h3, h4⟩ := List.append_inj hft hlen
              have h5 : mask.axes.map (maskIdx mask s e) = mask.axes.map (trueEnv mask (e s)) := by
                apply List.map_congr_left
                intro ax hax
                simp [maskIdx, hax]
              rw [h5, (htr _ hk).1, List.getD_eq_getElem _ _ hk', List.getD_eq_getElem _ _ hk] at h3
              have hnd : mask.nd.trues.Nodup := (nodup_ndIndices _).filter _
              have hes : e' s = e s := (hnd.getElem_inj_iff).1 h3
              apply atB_congr
              intro ax hax
              rcases List.mem_cons.1 (hvsub hax) with rfl | hax'
              · exact hes
              · rw [List.map_inj_left] at h4
                rw [h4 ax hax']
                simp [maskIdx, (hrest' ax hax').2]
          · rw [hfits]
            intro ax hax
            cases hg : get? value.shape ax with
            | none => simp
            | some m =>
              simp only [Option.getD_some]
              by_cases h : ax = s
              · subst h
                simpa [hsz] using hf1 m hg
              · have hr : ax ∈ rest := by simpa [h] using hax
                rcases hf2 ax m (hrest' ax hr).1 (hrest' ax hr).2 hg with h1 | h1
                · left; simp [hsz, h, sizeOf', h1]
                · right; exact h1

end SA
end NA
