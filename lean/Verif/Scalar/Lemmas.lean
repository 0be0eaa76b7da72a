import Verif.Scalar.Basic
import Verif.NDLemmas
import Mathlib.Data.List.GetD

/-! Helper lemmas about scalar arrays: alignment, named indices, elementwise operations. -/

namespace NA
open Dict

/-- The named index which reads position `axes.idxOf ax` of a positional index. -/
def envOf (axes : List String) (idx : List Nat) : String → Nat :=
  fun ax => idx.getD (axes.idxOf ax) 0

theorem map_envOf {axes : List String} {idx : List Nat} (hn : axes.Nodup)
    (hl : idx.length = axes.length) : axes.map (envOf axes idx) = idx := by
  apply List.ext_getElem
  · simp [hl]
  · intro i h1 h2
    simp only [List.getElem_map, envOf]
    rw [hn.idxOf_getElem, List.getD_eq_getElem _ _ h2]

theorem idxOf_lt {l : List String} {a : String} (h : a ∈ l) : l.idxOf a < l.length :=
  List.idxOf_lt_length_of_mem h

theorem getD_map_idxOf {l : List String} (e : String → Nat) {a : String} (h : a ∈ l) :
    (l.map e).getD (l.idxOf a) 0 = e a := by
  have hl := idxOf_lt h
  rw [List.getD_eq_getElem _ _ (by simpa using hl)]
  simp

theorem zip_fst_take {δ ε : Type} (l : List δ) (s : List ε) :
    (l.zip s).map Prod.fst = l.take s.length := by
  induction l generalizing s with
  | nil => simp
  | cons a l ih => cases s with
    | nil => simp
    | cons b s => simp [ih]

theorem get?_zip_getElem {axes : List String} {s : List Nat} (hn : axes.Nodup) {i : Nat}
    (h1 : i < axes.length) (h2 : i < s.length) : get? (axes.zip s) axes[i] = some s[i] := by
  apply get?_of_mem
  · unfold Dict.WF keys
    rw [zip_fst_take]
    exact hn.sublist (List.take_sublist _ _)
  · rw [List.mem_iff_getElem]
    exact ⟨i, by simp; omega, by simp⟩

namespace SA
variable {α β γ : Type}

theorem mk?_ok {nd : ND α} {axes : List String} {a : SA α} (h : mk? nd axes = .ok a) :
    a = ⟨axes, nd⟩ ∧ a.WF := by
  unfold mk? at h
  split at h
  · cases h
  · next h1 =>
    split at h
    · cases h
    · next h2 =>
      injection h with h
      subst h
      exact ⟨rfl, by simpa using h1, by simpa using h2⟩

theorem mk?_of_wf {nd : ND α} {axes : List String} (h1 : nd.ndim = axes.length) (h2 : axes.Nodup) :
    mk? nd axes = .ok ⟨axes, nd⟩ := by
  unfold mk?
  simp [h1, h2]

theorem keys_shape {a : SA α} (h : a.WF) : keys a.shape = a.axes := by
  unfold keys shape
  exact List.map_fst_zip (by have := h.1; simp [ND.ndim] at this; omega)

theorem values_shape {a : SA α} (h : a.WF) : values a.shape = a.nd.shape := by
  unfold values shape
  exact List.map_snd_zip (by have := h.1; simp [ND.ndim] at this; omega)

theorem wf_shape {a : SA α} (h : a.WF) : Dict.WF a.shape := by
  unfold Dict.WF; rw [keys_shape h]; exact h.2

theorem length_shape {a : SA α} (h : a.WF) : a.nd.shape.length = a.axes.length := h.1

theorem get?_shape {a : SA α} (h : a.WF) {i : Nat} (h1 : i < a.axes.length) :
    get? a.shape a.axes[i] = some (a.nd.shape[i]'(by have := h.1; simp [ND.ndim] at this; omega)) :=
  get?_zip_getElem h.2 _ _

theorem get?_shape_none {a : SA α} (h : a.WF) {ax : String} : get? a.shape ax = none ↔ ax ∉ a.axes := by
  rw [get?_eq_none, keys_shape h]

theorem get?_shape_of_mem {a : SA α} (h : a.WF) {ax : String} (hm : ax ∈ a.axes) :
    get? a.shape ax = some (a.nd.shape.getD (a.axes.idxOf ax) 0) := by
  have hl := idxOf_lt hm
  have := get?_shape h hl
  simp only [List.getElem_idxOf] at this
  rw [this, List.getD_eq_getElem]

/-- named range = positional range -/
theorem inRange_iff_nd {s : Shape} (hs : Dict.WF s) {e : String → Nat} :
    InRange s e ↔ ND.InRange s.values (s.keys.map e) := by
  induction s with
  | nil => simp [InRange, ND.InRange]
  | cons p s ih =>
    rw [Dict.wf_cons] at hs
    unfold ND.InRange at *
    simp only [values_cons, keys_cons, List.map_cons, List.forall₂_cons]
    rw [← ih hs.2]
    constructor
    · intro h
      refine ⟨h p.1 p.2 (by simp [get?_cons]), fun ax n hn => ?_⟩
      have hne : p.1 ≠ ax := by rintro rfl; exact hs.1 (mem_keys_of_get? hn)
      exact h ax n (by simp [get?_cons, hne, hn])
    · rintro ⟨h1, h2⟩ ax n hn
      rw [get?_cons] at hn
      split at hn
      · next h => cases hn; subst h; exact h1
      · exact h2 ax n hn

theorem inRange_nd {a : SA α} (h : a.WF) {e : String → Nat} :
    InRange a.shape e ↔ ND.InRange a.nd.shape (a.axes.map e) := by
  rw [inRange_iff_nd (wf_shape h), values_shape h, keys_shape h]

theorem at'_congr {a : SA α} {e e' : String → Nat} (h : ∀ ax ∈ a.axes, e ax = e' ax) :
    a.at' e = a.at' e' := by
  unfold at'
  rw [List.map_congr_left h]

theorem atB_congr {a : SA α} {e e' : String → Nat} (h : ∀ ax ∈ a.axes, e ax = e' ax) :
    a.atB e = a.atB e' := by
  unfold atB
  apply at'_congr
  intro ax hax
  simp only [h ax hax]

theorem atB_eq_at' {a : SA α} (ha : a.WF) {e : String → Nat} (h : InRange a.shape e) :
    a.atB e = a.at' e := by
  unfold atB
  apply at'_congr
  intro ax hax
  split
  · next h1 =>
    have := h ax 1 h1
    omega
  · rfl

theorem sameByName_refl (a : SA α) : SameByName a a := ⟨fun _ => rfl, fun _ _ => rfl⟩
theorem SameByName.symm {a b : SA α} (h : SameByName a b) : SameByName b a :=
  ⟨fun x => (h.1 x).symm, fun e he => (h.2 e (fun ax n hn => he ax n (by rw [← h.1]; exact hn))).symm⟩
theorem SameByName.trans {a b c : SA α} (h : SameByName a b) (h' : SameByName b c) :
    SameByName a c :=
  ⟨fun x => (h.1 x).trans (h'.1 x), fun e he =>
    (h.2 e he).trans (h'.2 e (fun ax n hn => he ax n (by rw [h.1]; exact hn)))⟩

/-! ### Transposition -/

theorem idxOf_map_getD {axes : List String} {order : List Nat} (hn : axes.Nodup)
    (ho : ∀ j ∈ order, j < axes.length) {i : Nat} (hi : i < axes.length) :
    (order.map (fun j => axes.getD j "")).idxOf axes[i] = order.idxOf i := by
  induction order with
  | nil => rfl
  | cons j order ih =>
    rw [List.map_cons, List.idxOf_cons, List.idxOf_cons, ih (fun k hk => ho k (by simp [hk]))]
    have hj := ho j (by simp)
    rw [List.getD_eq_getElem _ _ hj]
    have : (axes[j] == axes[i]) = (j == i) := by
      rw [Bool.eq_iff_iff]
      simp [hn.getElem_inj_iff]
    rw [this]

/-- Transposing the ndarray and the names alike keeps every element at its named index. -/
theorem transpose_get {nd : ND α} {axes : List String} (hl : nd.ndim = axes.length)
    (hn : axes.Nodup) {order : List Nat} (ho : order.Perm (List.range nd.ndim)) (e : String → Nat) :
    (nd.transpose order).get ((order.map (fun j => axes.getD j "")).map e) = nd.get (axes.map e) := by
  unfold ND.transpose
  simp only
  congr 1
  apply List.ext_getElem
  · simp [hl]
  · intro i h1 h2
    simp only [List.length_map] at h2
    simp only [List.getElem_map, List.getElem_range]
    have hi : i ∈ order := ho.mem_iff.2 (by simpa [hl] using h2)
    have hlt : ∀ j ∈ order, j < axes.length := fun j hj => by
      have := ho.mem_iff.1 hj; rw [← hl]; simpa using this
    rw [← idxOf_map_getD hn hlt h2]
    apply getD_map_idxOf
    exact List.mem_map.2 ⟨i, hi, by rw [List.getD_eq_getElem _ _ h2]⟩

/-! ### Alignment -/

theorem aligned_ok {a : SA α} (ha : a.WF) {axes : List String} (hn : axes.Nodup) {v : ND α}
    (h : a.aligned axes = .ok v) :
    a.axes ⊆ axes ∧
    v.shape = axes.map (fun ax => (get? a.shape ax).getD 1) ∧
    ∀ e, v.get (axes.map e) = a.at' e := by
  unfold aligned at h
  split at h
  · next he =>
    injection h with h
    subst h; subst he
    refine ⟨List.Subset.refl _, ?_, fun e => rfl⟩
    apply List.ext_getElem
    · simpa using length_shape ha
    · intro i h1 h2
      simp at h2
      simp [get?_shape ha h2]
  · split at h
    · next hsub =>
      simp only [List.all_eq_true, decide_eq_true_eq] at hsub
      have hsubset : a.axes ⊆ axes := fun x hx => hsub x hx
      have hlen : a.axes.length ≤ axes.length := (List.subperm_of_subset ha.2 hsubset).length_le
      obtain ⟨hv, rfl⟩ := ND.moveaxis_ok h
      have hnd : a.nd.ndim + (axes.length - a.nd.ndim) = axes.length := by rw [ha.1]; omega
      rw [ND.ndim_newaxes, hnd] at hv ⊢
      set order := ND.moveOrder axes.length (List.range a.axes.length) (a.axes.map axes.idxOf) with hord
      -- position of own axis i in the result
      have hzip : ∀ i (hi : i < a.axes.length),
          (axes.idxOf a.axes[i], i) ∈ (a.axes.map axes.idxOf).zip (List.range a.axes.length) := by
        intro i hi
        rw [List.mem_iff_getElem]
        exact ⟨i, by simp [hi], by simp⟩
      have hidx : ∀ i (hi : i < a.axes.length), order.idxOf i = axes.idxOf a.axes[i] :=
        fun i hi => ND.moveOrder_idxOf hv (hzip i hi)
      have hget : ∀ i (hi : i < a.axes.length), order[axes.idxOf a.axes[i]]? = some i :=
        fun i hi => ND.moveOrder_get hv (hzip i hi)
      have hol : order.length = axes.length := ND.length_moveOrder hv
      refine ⟨hsubset, ?_, fun e => ?_⟩
      · rw [ND.shape_transpose]
        apply List.ext_getElem
        · simp [hol]
        · intro p h1 h2
          simp only [List.length_map] at h1 h2
          simp only [List.getElem_map, ND.shape_newaxes]
          by_cases hj : order[p] < a.axes.length
          · have hj' : order[p] < a.nd.shape.length := by rw [length_shape ha]; exact hj
            rw [List.getD_eq_getElem _ _ (by simp; omega), List.getElem_append_left hj']
            have hpos : axes.idxOf a.axes[order[p]] = p := by
              rw [← hidx _ hj]
              exact (ND.moveOrder_nodup hv).idxOf_getElem _ _
            have hax : axes[p] = a.axes[order[p]] := by
              have hm : a.axes[order[p]] ∈ axes := hsubset (List.getElem_mem _)
              have := List.getElem_idxOf (idxOf_lt hm)
              rw [← this]
              congr 1
              exact hpos.symm
            rw [hax, get?_shape ha hj]
            rfl
          · have hlt : order[p] < axes.length := (ND.mem_moveOrder hv).1 (List.getElem_mem _)
            have hnone : get? a.shape axes[p] = none := by
              rw [get?_shape_none ha]
              intro hmem
              obtain ⟨i, hi, hia⟩ := List.mem_iff_getElem.1 hmem
              have h3 := hget i hi
              rw [hia, hn.idxOf_getElem, List.getElem?_eq_getElem h1] at h3
              injection h3 with h3
              omega
            rw [hnone]
            have hlen2 := length_shape ha
            have h0 := ha.1
            rw [List.getD_eq_getElem _ _ (by simp [hlen2]; omega),
              List.getElem_append_right (by omega)]
            simp
      · simp only [ND.transpose, ND.newaxes, at']
        congr 1
        have hm : (ND.ndim (⟨a.nd.shape ++ List.replicate (axes.length - a.nd.ndim) 1,
            fun i => a.nd.get (List.take a.nd.ndim i)⟩ : ND α)) = axes.length := by
          simp only [ND.ndim, List.length_append, List.length_replicate]
          exact hnd
        rw [hm, ← List.map_take, List.take_range]
        apply List.ext_getElem
        · simp [ha.1]; omega
        · intro i h1 h2
          simp only [List.length_map] at h2
          simp only [List.getElem_map, List.getElem_range]
          rw [hidx i h2]
          exact getD_map_idxOf e (hsubset (List.getElem_mem _))
    · simp only at h; cases h

theorem aligned_error_iff {a : SA α} (ha : a.WF) {axes : List String} (hn : axes.Nodup) :
    (∃ e, a.aligned axes = .error e) ↔ ¬ a.axes ⊆ axes := by
  unfold aligned
  split
  · next h => subst h; simp
  · split
    · next hsub =>
      simp only [List.all_eq_true, decide_eq_true_eq] at hsub
      have hsubset : a.axes ⊆ axes := fun x hx => hsub x hx
      have hlen : a.axes.length ≤ axes.length := (List.subperm_of_subset ha.2 hsubset).length_le
      have hv : ND.MoveValid (a.nd.newaxes (axes.length - a.nd.ndim)).ndim
          (List.range a.axes.length) (a.axes.map axes.idxOf) := by
        have hnd : a.nd.ndim + (axes.length - a.nd.ndim) = axes.length := by rw [ha.1]; omega
        rw [ND.ndim_newaxes, hnd]
        refine ⟨List.nodup_range, ?_, ?_, ?_, by simp⟩
        · refine List.Nodup.map_on ?_ ha.2
          intro x hx y hy hxy
          have h1 := List.getElem_idxOf (idxOf_lt (hsubset hx))
          have h2 := List.getElem_idxOf (idxOf_lt (hsubset hy))
          rw [← h1, ← h2]
          congr 1
        · intro s hs; simp at hs; omega
        · intro d hd
          obtain ⟨x, hx, rfl⟩ := List.mem_map.1 hd
          exact idxOf_lt (hsubset hx)
      rw [ND.moveaxis_of_valid _ hv]
      simp [hsubset]
    · next hsub =>
      simp only [List.all_eq_true, decide_eq_true_eq] at hsub
      constructor
      · intro _ h; exact hsub (fun x hx => h hx)
      · intro _; exact ⟨_, rfl⟩

theorem aligned_error_kind {a : SA α} {axes : List String} {e : Err}
    (h : a.aligned axes = .error e) : e = .valueError := by
  unfold aligned at h
  split at h
  · cases h
  · split at h
    · dsimp only at h
      unfold ND.moveaxis at h
      split at h
      · cases h
      · cases h; rfl
    · simp only at h; cases h; rfl

theorem aligned_isOk {a : SA α} (ha : a.WF) {axes : List String} (hn : axes.Nodup)
    (hs : a.axes ⊆ axes) : ∃ v, a.aligned axes = .ok v := by
  cases h : a.aligned axes with
  | ok v => exact ⟨v, rfl⟩
  | error e => exact absurd hs ((aligned_error_iff ha hn).1 ⟨e, h⟩)

theorem aligned_ndim {a : SA α} (ha : a.WF) {axes : List String} (hn : axes.Nodup) {v : ND α}
    (h : a.aligned axes = .ok v) : v.ndim = axes.length := by
  obtain ⟨_, h2, _⟩ := aligned_ok ha hn h
  simp [ND.ndim, h2]

/-- Reading an aligned array with the numpy broadcasting convention = `atB`. -/
theorem aligned_clip {a : SA α} (ha : a.WF) {axes : List String} (hn : axes.Nodup) {v : ND α}
    (h : a.aligned axes = .ok v) (e : String → Nat) :
    v.get (ND.clipIdx v.shape (axes.map e)) = a.atB e := by
  obtain ⟨h1, h2, h3⟩ := aligned_ok ha hn h
  have : ND.clipIdx v.shape (axes.map e) =
      axes.map (fun ax => if (get? a.shape ax).getD 1 = 1 then 0 else e ax) := by
    rw [h2]
    unfold ND.clipIdx
    rw [List.zipWith_map]
    simp
  rw [this, h3]
  unfold atB
  apply at'_congr
  intro ax hax
  rw [← keys_shape ha] at hax
  obtain ⟨n, hn⟩ := exists_get?_of_mem hax
  simp [hn]

/-! ### Elementwise operations -/

theorem mapM_ok {δ ε : Type} {f : δ → R ε} {l : List δ} {l' : List ε} (h : l.mapM f = .ok l') :
    List.Forall₂ (fun x y => f x = .ok y) l l' := by
  induction l generalizing l' with
  | nil =>
    simp only [List.mapM_nil] at h
    cases h
    exact .nil
  | cons x l ih =>
    rw [List.mapM_cons] at h
    cases hx : f x with
    | error e => rw [hx] at h; cases h
    | ok y =>
      rw [hx] at h
      cases hl : l.mapM f with
      | error e => rw [hl] at h; cases h
      | ok ys =>
        rw [hl] at h
        cases h
        exact .cons hx (ih hl)

theorem mapM_isOk {δ ε : Type} {f : δ → R ε} {l : List δ} (h : ∀ x ∈ l, ∃ y, f x = .ok y) :
    ∃ l', l.mapM f = .ok l' := by
  induction l with
  | nil => exact ⟨[], rfl⟩
  | cons x l ih =>
    obtain ⟨y, hy⟩ := h x (by simp)
    obtain ⟨ys, hys⟩ := ih (fun z hz => h z (by simp [hz]))
    exact ⟨y :: ys, by rw [List.mapM_cons, hy, hys]; rfl⟩

theorem wf_shapes {inputs : List (SA α)} (h : ∀ a ∈ inputs, a.WF) :
    ∀ s ∈ inputs.map SA.shape, Dict.WF s := by
  intro s hs
  obtain ⟨a, ha, rfl⟩ := List.mem_map.1 hs
  exact wf_shape (h a ha)

theorem mem_of_mem_input {inputs : List (SA α)} (h : ∀ a ∈ inputs, a.WF) {s : Shape}
    (hb : broadcastShapes (inputs.map SA.shape) = .ok s) {a : SA α} (ha : a ∈ inputs) :
    a.axes ⊆ keys s := by
  intro ax hax
  have hj := (broadcastShapes_joinOf (wf_shapes h) hb).2 ax
  have hk : ax ∈ keys a.shape := by rw [keys_shape (h a ha)]; exact hax
  obtain ⟨n, hn⟩ := exists_get?_of_mem hk
  have hmem : n ∈ sizesOf (inputs.map SA.shape) ax := by
    unfold sizesOf
    rw [List.mem_filterMap]
    exact ⟨a.shape, List.mem_map.2 ⟨a, ha, rfl⟩, hn⟩
  cases hs : get? s ax with
  | none => rw [hs] at hj; simp only [JoinOf] at hj; rw [hj] at hmem; simp at hmem
  | some m => exact mem_keys_of_get? hs

theorem shape_of_mk {s : Shape} (hs : Dict.WF s) {nd : ND α} (h : nd.shape = s.values) :
    (SA.mk s.keys nd).shape = s := by
  unfold shape
  rw [h]
  unfold keys values
  exact (List.zip_of_prod (xs := s) rfl rfl).symm

theorem bdim_of_joinOpt {r s t : Option Nat} (h : joinOpt r s = some t) :
    ND.bdim (r.getD 1) (s.getD 1) = .ok (t.getD 1) := by
  cases r with
  | none => cases s with
    | none => simp at h; subst h; rfl
    | some n => simp at h; subst h; simp [ND.bdim]
  | some m => cases s with
    | none => simp at h; subst h; simp only [ND.bdim, Option.getD_some, Option.getD_none]; grind
    | some n =>
      simp only [joinOpt] at h
      simp only [ND.bdim, Option.getD_some]
      grind

/-- the positional shape of an operand of named shape `s`, aligned to `axes` -/
def posShape (axes : List String) (s : Shape) : List Nat := axes.map (fun ax => (get? s ax).getD 1)

theorem bshape_of_join {r s t : Shape} (h : ∀ x, joinOpt (get? r x) (get? s x) = some (get? t x))
    (axes : List String) :
    ND.bshape (posShape axes r) (posShape axes s) = .ok (posShape axes t) := by
  induction axes with
  | nil => rfl
  | cons ax axes ih =>
    simp only [posShape, List.map_cons, ND.bshape] at ih ⊢
    rw [bdim_of_joinOpt (h ax), ih]
    rfl

theorem foldlM_bshape {r t : Shape} {ss : List Shape} (hr : Dict.WF r) (hss : ∀ s ∈ ss, Dict.WF s)
    (h : ss.foldlM bcShape r = .ok t) (axes : List String) :
    (ss.map (posShape axes)).foldlM ND.bshape (posShape axes r) = .ok (posShape axes t) := by
  induction ss generalizing r with
  | nil => simp [pure, Except.pure] at h; subst h; rfl
  | cons s ss ih =>
    rw [List.foldlM_cons] at h
    cases hb : bcShape r s with
    | error e => rw [hb] at h; cases h
    | ok r' =>
      rw [hb] at h
      obtain ⟨h1, h2, _⟩ := bcShape_ok hr (hss s (by simp)) hb
      rw [List.map_cons, List.foldlM_cons, bshape_of_join h1]
      exact ih h2 (fun s hs => hss s (by simp [hs])) h

theorem posShape_keys {s : Shape} (hs : Dict.WF s) : posShape (keys s) s = values s := by
  unfold posShape
  apply List.ext_getElem
  · simp [keys, values]
  · intro i h1 h2
    simp only [values, List.length_map] at h2
    have : get? s s[i].1 = some s[i].2 := get?_of_mem hs (List.getElem_mem _)
    simp [keys, values, this]

/-- The positional broadcast of aligned operands is the named broadcast. -/
theorem bshapes_posShape {ss : List Shape} (hss : ∀ s ∈ ss, Dict.WF s) {t : Shape}
    (h : broadcastShapes ss = .ok t) :
    ND.bshapes (ss.map (posShape (keys t))) = .ok (values t) := by
  have hw := (broadcastShapes_joinOf hss h).1
  cases ss with
  | nil => simp only [broadcastShapes] at h; cases h; rfl
  | cons s ss =>
    simp only [broadcastShapes] at h
    have := foldlM_bshape (hss s (by simp)) (fun s hs => hss s (by simp [hs])) h (keys t)
    rw [posShape_keys hw] at this
    exact this

theorem mapM_aligned_shapes {inputs : List (SA α)} (h : ∀ a ∈ inputs, a.WF) {axes : List String}
    (hn : axes.Nodup) {nds : List (ND α)}
    (hf : List.Forall₂ (fun a v => aligned a axes = .ok v) inputs nds) :
    nds.map ND.shape = (inputs.map SA.shape).map (posShape axes) := by
  induction hf with
  | nil => rfl
  | cons hx hl ih =>
    simp only [List.map_cons]
    rw [ih (fun a ha => h a (by simp [ha])), (aligned_ok (h _ (by simp)) hn hx).2.1]
    rfl

theorem ufuncN_isOk {inputs : List (SA α)} (h : ∀ a ∈ inputs, a.WF) {s : Shape}
    (hb : broadcastShapes (inputs.map SA.shape) = .ok s) (f : List α → β) :
    ∃ r, ufuncN f inputs = .ok r := by
  have hw := (broadcastShapes_joinOf (wf_shapes h) hb).1
  obtain ⟨nds, hnds⟩ := mapM_isOk (l := inputs) (f := fun a => a.aligned (keys s))
    (fun a ha => aligned_isOk (h a ha) hw (mem_of_mem_input h hb ha))
  refine ⟨⟨keys s, ⟨values s, fun i => f (nds.map (fun a => a.get (ND.clipIdx a.shape i)))⟩⟩, ?_⟩
  unfold ufuncN
  rw [hb]
  simp only [bind, Except.bind]
  rw [hnds]
  simp only [ND.ufuncN]
  rw [mapM_aligned_shapes h hw (mapM_ok hnds), bshapes_posShape (wf_shapes h) hb]
  exact mk?_of_wf (by simp [ND.ndim]) hw

theorem ufuncN_ok {inputs : List (SA α)} (h : ∀ a ∈ inputs, a.WF) {f : List α → β} {r : SA β}
    (hr : ufuncN f inputs = .ok r) :
    r.WF ∧ broadcastShapes (inputs.map SA.shape) = .ok r.shape ∧
    ∀ e, r.at' e = f (inputs.map (fun a => a.atB e)) := by
  unfold ufuncN at hr
  cases hb : broadcastShapes (inputs.map SA.shape) with
  | error e => rw [hb] at hr; cases hr
  | ok s =>
    rw [hb] at hr
    simp only [bind, Except.bind] at hr
    have hw := (broadcastShapes_joinOf (wf_shapes h) hb).1
    cases hm : inputs.mapM (fun a => a.aligned (keys s)) with
    | error e => rw [hm] at hr; cases hr
    | ok nds =>
      rw [hm] at hr
      have hf := mapM_ok hm
      simp only [ND.ufuncN] at hr
      rw [mapM_aligned_shapes h hw hf, bshapes_posShape (wf_shapes h) hb] at hr
      obtain ⟨rfl, hwf⟩ := mk?_ok hr
      refine ⟨hwf, ?_, fun e => ?_⟩
      · rw [shape_of_mk hw rfl]
      · simp only [at']
        congr 1
        clear hm hb hwf hr
        induction hf with
        | nil => rfl
        | cons hx hl ih =>
          simp only [List.map_cons]
          rw [ih (fun a ha => h a (by simp [ha])), aligned_clip (h _ (by simp)) hw hx e]

theorem ufuncN_error {inputs : List (SA α)} (h : ∀ a ∈ inputs, a.WF) {f : List α → β} {e : Err}
    (hr : ufuncN f inputs = .error e) :
    broadcastShapes (inputs.map SA.shape) = .error e := by
  cases hb : broadcastShapes (inputs.map SA.shape) with
  | error e' => unfold ufuncN at hr; rw [hb] at hr; cases hr; rfl
  | ok s =>
    obtain ⟨r, hr'⟩ := ufuncN_isOk h hb f
    rw [hr] at hr'; cases hr'

theorem mem_of_mem_pair {a : SA α} {b : SA β} (ha : a.WF) (hb : b.WF) {s : Shape}
    (h : broadcastShapes [a.shape, b.shape] = .ok s) : a.axes ⊆ keys s ∧ b.axes ⊆ keys s := by
  have hss : ∀ t ∈ [a.shape, b.shape], Dict.WF t := by
    intro t ht
    simp at ht
    rcases ht with rfl | rfl
    · exact wf_shape ha
    · exact wf_shape hb
  have hj := (broadcastShapes_joinOf hss h).2
  constructor
  · intro ax hax
    rw [← keys_shape ha] at hax
    obtain ⟨n, hn⟩ := exists_get?_of_mem hax
    have := hj ax
    cases hs : get? s ax with
    | none => rw [hs] at this; simp [JoinOf, sizesOf, hn] at this
    | some m => exact mem_keys_of_get? hs
  · intro ax hax
    rw [← keys_shape hb] at hax
    obtain ⟨n, hn⟩ := exists_get?_of_mem hax
    have := hj ax
    cases hs : get? s ax with
    | none => rw [hs] at this; simp [JoinOf, sizesOf, hn] at this
    | some m => exact mem_keys_of_get? hs

theorem wf_pair {a : SA α} {b : SA β} (ha : a.WF) (hb : b.WF) :
    ∀ t ∈ [a.shape, b.shape], Dict.WF t := by
  intro t ht
  simp at ht
  rcases ht with rfl | rfl
  · exact wf_shape ha
  · exact wf_shape hb

theorem bshape_pair {a : SA α} {b : SA β} (ha : a.WF) (hb : b.WF) {s : Shape}
    (h : broadcastShapes [a.shape, b.shape] = .ok s) {v : ND α} {w : ND β}
    (hv : a.aligned (keys s) = .ok v) (hw : b.aligned (keys s) = .ok w) :
    ND.bshape v.shape w.shape = .ok (values s) := by
  have hwf := (broadcastShapes_joinOf (wf_pair ha hb) h).1
  have := bshapes_posShape (wf_pair ha hb) h
  simp only [ND.bshapes, List.map_cons, List.map_nil, List.foldlM_cons, List.foldlM_nil] at this
  rw [(aligned_ok ha hwf hv).2.1, (aligned_ok hb hwf hw).2.1]
  simp only [posShape] at this
  cases hq : ND.bshape (List.map (fun ax => (get? a.shape ax).getD 1) (keys s))
    (List.map (fun ax => (get? b.shape ax).getD 1) (keys s)) with
  | error e => rw [hq] at this; cases this
  | ok q => rw [hq] at this; cases this; rfl

theorem ufunc2_isOk {a : SA α} {b : SA β} (ha : a.WF) (hb : b.WF) {s : Shape}
    (h : broadcastShapes [a.shape, b.shape] = .ok s) (f : α → β → γ) :
    ∃ r, ufunc2 f a b = .ok r := by
  have hwf := (broadcastShapes_joinOf (wf_pair ha hb) h).1
  obtain ⟨h1, h2⟩ := mem_of_mem_pair ha hb h
  obtain ⟨v, hv⟩ := aligned_isOk ha hwf h1
  obtain ⟨w, hw⟩ := aligned_isOk hb hwf h2
  unfold ufunc2
  rw [h]
  simp only [bind, Except.bind]
  rw [hv, hw]
  simp only [ND.ufunc2, bshape_pair ha hb h hv hw, bind, Except.bind]
  exact ⟨_, mk?_of_wf (by simp [ND.ndim]) hwf⟩

theorem ufunc2_ok {a : SA α} {b : SA β} (ha : a.WF) (hb : b.WF) {f : α → β → γ} {r : SA γ}
    (hr : ufunc2 f a b = .ok r) :
    r.WF ∧ broadcastShapes [a.shape, b.shape] = .ok r.shape ∧
    ∀ e, r.at' e = f (a.atB e) (b.atB e) := by
  unfold ufunc2 at hr
  cases h : broadcastShapes [a.shape, b.shape] with
  | error e => rw [h] at hr; cases hr
  | ok s =>
    have hwf := (broadcastShapes_joinOf (wf_pair ha hb) h).1
    obtain ⟨h1, h2⟩ := mem_of_mem_pair ha hb h
    obtain ⟨v, hv⟩ := aligned_isOk ha hwf h1
    obtain ⟨w, hw⟩ := aligned_isOk hb hwf h2
    rw [h] at hr
    simp only [bind, Except.bind, hv, hw, ND.ufunc2, bshape_pair ha hb h hv hw] at hr
    obtain ⟨rfl, hrw⟩ := mk?_ok hr
    refine ⟨hrw, by rw [shape_of_mk hwf rfl], fun e => ?_⟩
    simp only [at']
    rw [aligned_clip ha hwf hv, aligned_clip hb hwf hw]

theorem ufunc2_error {a : SA α} {b : SA β} (ha : a.WF) (hb : b.WF) {f : α → β → γ} {e : Err}
    (hr : ufunc2 f a b = .error e) : broadcastShapes [a.shape, b.shape] = .error e := by
  cases h : broadcastShapes [a.shape, b.shape] with
  | error e' => unfold ufunc2 at hr; rw [h] at hr; cases hr; rfl
  | ok s =>
    obtain ⟨r, hr'⟩ := ufunc2_isOk ha hb h f
    rw [hr] at hr'; cases hr'

/-- a unary ufunc never fails -/
theorem ufunc1_eq {a : SA α} (ha : a.WF) (f : α → β) :
    ufunc1 f a = .ok ⟨a.axes, a.nd.map f⟩ := by
  unfold ufunc1
  simp only [broadcastShapes, List.foldlM_nil, bind, Except.bind, pure, Except.pure, keys_shape ha]
  unfold aligned
  simp only [if_pos]
  exact mk?_of_wf ha.1 ha.2

/-! ### Moving a block of named axes -/

/-- `a.shape[ax]` for an axis of `a` -/
def sizeOf' (a : SA α) (ax : String) : Nat := (get? a.shape ax).getD 0

theorem axes_eq_map_range (l : List String) : (List.range l.length).map (fun j => l.getD j "") = l := by
  apply List.ext_getElem
  · simp
  · intro i h1 h2
    simp [List.getElem?_eq_getElem h2]

theorem filter_map_getD {axes S : List String} (hn : axes.Nodup) (hsub : S ⊆ axes) :
    ((List.range axes.length).filter (· ∉ S.map axes.idxOf)).map (fun j => axes.getD j "") =
      axes.filter (· ∉ S) := by
  conv_rhs => rw [← axes_eq_map_range axes]
  rw [List.filter_map]
  congr 1
  apply List.filter_congr
  intro j hj
  have hj' : j < axes.length := by simpa using hj
  simp only [Function.comp, List.getD_eq_getElem _ _ hj', decide_not, Bool.not_eq_eq_eq_not,
    Bool.not_not, decide_eq_decide]
  rw [List.mem_map]
  constructor
  · rintro ⟨x, hx, rfl⟩
    rw [List.getElem_idxOf]; exact hx
  · intro h
    exact ⟨_, h, hn.idxOf_getElem _ _⟩

theorem shape_eq_map {a : SA α} (ha : a.WF) : a.nd.shape = a.axes.map a.sizeOf' := by
  apply List.ext_getElem
  · simp [length_shape ha]
  · intro i h1 h2
    simp only [List.length_map] at h2
    simp [sizeOf', get?_shape ha h2]

theorem sizeOf'_getD {a : SA α} (ha : a.WF) {j : Nat} (hj : j < a.axes.length) :
    a.nd.shape.getD j 0 = a.sizeOf' (a.axes.getD j "") := by
  have h1 : j < a.nd.shape.length := by rw [length_shape ha]; exact hj
  rw [List.getD_eq_getElem _ _ h1, List.getD_eq_getElem _ _ hj]
  simp [sizeOf', get?_shape ha hj]

theorem nodup_map_idxOf {l S : List String} (hS : S.Nodup) (hsub : S ⊆ l) :
    (S.map l.idxOf).Nodup := by
  refine List.Nodup.map_on ?_ hS
  intro x hx y hy hxy
  rw [← List.getElem_idxOf (idxOf_lt (hsub hx)), ← List.getElem_idxOf (idxOf_lt (hsub hy))]
  congr 1

theorem moveaxis_block {a : SA α} (ha : a.WF) {S : List String} (hS : S.Nodup) (hsub : S ⊆ a.axes)
    {k : Nat} (hk : k ≤ (a.axes.filter (· ∉ S)).length) :
    ∃ v, a.nd.moveaxis (S.map a.axes.idxOf) (List.range' k S.length) = .ok v ∧
      v.shape = ((a.axes.filter (· ∉ S)).take k ++ S ++ (a.axes.filter (· ∉ S)).drop k).map a.sizeOf' ∧
      ∀ e, v.get (((a.axes.filter (· ∉ S)).take k ++ S ++ (a.axes.filter (· ∉ S)).drop k).map e) =
        a.at' e := by
  have hfm := filter_map_getD ha.2 hsub
  have hlen : ((List.range a.nd.ndim).filter (· ∉ S.map a.axes.idxOf)).length =
      (a.axes.filter (· ∉ S)).length := by
    rw [← hfm, List.length_map, ha.1]
  have hlt : ∀ s ∈ S.map a.axes.idxOf, s < a.nd.ndim := by
    intro s hs
    obtain ⟨x, hx, rfl⟩ := List.mem_map.1 hs
    rw [ha.1]; exact idxOf_lt (hsub hx)
  have hSn := nodup_map_idxOf hS hsub
  have hcount := ND.length_filter_not_mem hSn hlt
  have hv : ND.MoveValid a.nd.ndim (S.map a.axes.idxOf) (List.range' k S.length) := by
    refine ⟨hSn, List.nodup_range', hlt, ?_, by simp⟩
    intro d hd
    rw [List.mem_range'_1] at hd
    rw [List.length_map] at hcount
    omega
  have hblock := ND.moveOrder_block (n := a.nd.ndim) (k := k) (source := S.map a.axes.idxOf)
    (by rw [hlen]; exact hk)
  rw [List.length_map] at hblock
  refine ⟨_, ND.moveaxis_of_valid _ hv, ?_, ?_⟩
  all_goals
    have hnames : (ND.moveOrder a.nd.ndim (S.map a.axes.idxOf) (List.range' k S.length)).map
        (fun j => a.axes.getD j "") =
        (a.axes.filter (· ∉ S)).take k ++ S ++ (a.axes.filter (· ∉ S)).drop k := by
      rw [hblock, List.map_append, List.map_append, List.map_take, List.map_drop, ha.1, hfm]
      congr 2
      rw [List.map_map]
      conv_rhs => rw [← List.map_id S]
      apply List.map_congr_left
      intro x hx
      simp only [Function.comp, id]
      rw [List.getD_eq_getElem _ _ (idxOf_lt (hsub hx))]
      exact List.getElem_idxOf _
    have hperm := ND.moveOrder_perm hv
  · rw [← hnames, ND.shape_transpose, List.map_map]
    apply List.map_congr_left
    intro j hj
    have : j < a.axes.length := by
      have := (ND.mem_moveOrder hv).1 hj; rwa [ha.1] at this
    exact sizeOf'_getD ha this
  · intro e
    rw [← hnames]
    exact transpose_get ha.1 ha.2 hperm e

theorem map_idxOf_append {rest S : List String} (hS : S.Nodup) (hd : ∀ x ∈ S, x ∉ rest) :
    S.map (rest ++ S).idxOf = List.range' rest.length S.length := by
  apply List.ext_getElem
  · simp
  · intro i h1 h2
    simp only [List.length_map] at h1
    simp only [List.getElem_map, List.getElem_range', Nat.one_mul]
    rw [List.idxOf_append_of_notMem (hd _ (List.getElem_mem _)), hS.idxOf_getElem]

theorem map_idxOf_self {S : List String} (hS : S.Nodup) :
    S.map S.idxOf = List.range' 0 S.length := by
  have := map_idxOf_append (rest := []) hS (by simp)
  simpa using this

theorem erase_filter {l : List String} (hl : l.Nodup) (x : String) :
    l.erase x = l.filter (· ≠ x) := by
  rw [List.Nodup.erase_eq_filter hl]
  apply List.filter_congr
  intro y _
  simp [bne_iff_ne, bne]
  grind

theorem foldlM_popAppend {l S : List String} (hl : l.Nodup) (hS : S.Nodup) (hsub : S ⊆ l) :
    S.foldlM popAppend l = .ok (l.filter (· ∉ S) ++ S) := by
  induction S generalizing l with
  | nil => simp [pure, Except.pure]
  | cons x S ih =>
    rw [List.nodup_cons] at hS
    have hx : x ∈ l := hsub (by simp)
    rw [List.foldlM_cons]
    simp only [popAppend, if_pos hx, bind, Except.bind]
    rw [ih (l := l.erase x ++ [x]) ?_ hS.2 ?_]
    · rw [List.filter_append, erase_filter hl, List.filter_filter]
      simp only [hS.1, List.filter_cons, List.filter_nil, not_false_eq_true, decide_true, if_true,
        List.append_assoc, List.singleton_append]
      congr 2
      apply List.filter_congr
      intro y _
      grind
    · rw [List.nodup_append]
      refine ⟨hl.erase x, by simp, ?_⟩
      intro a ha b hb
      simp at hb; subst hb
      exact fun h => (hl.not_mem_erase) (h ▸ ha)
    · intro y hy
      rw [List.mem_append]
      by_cases h : y = x
      · right; simp [h]
      · left; exact (List.mem_erase_of_ne h).2 (hsub (by simp [hy]))

theorem foldlM_pyRemove {l S : List String} (hl : l.Nodup) (hS : S.Nodup) (hsub : S ⊆ l) :
    S.foldlM pyRemove l = .ok (l.filter (· ∉ S)) := by
  induction S generalizing l with
  | nil => simp [pure, Except.pure]
  | cons x S ih =>
    rw [List.nodup_cons] at hS
    have hx : x ∈ l := hsub (by simp)
    rw [List.foldlM_cons]
    simp only [pyRemove, if_pos hx, bind, Except.bind]
    rw [ih (l := l.erase x) (hl.erase x) hS.2 ?_]
    · rw [erase_filter hl, List.filter_filter]
      congr 1
      apply List.filter_congr
      intro y _
      grind
    · intro y hy
      exact (List.mem_erase_of_ne (by rintro rfl; exact hS.1 hy)).2 (hsub (by simp [hy]))

end SA
end NA
