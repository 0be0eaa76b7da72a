import Verif.Pdf.Basic
import Verif.Scalar.RepReduce
import Verif.Stats.RankLine
import Verif.Props.UncertainArg

/-! Lemmas about cumulative sums with an initial element, positions of a maximum and index arrays. -/

namespace NA
open Dict
open SA (FitsIn InRange)

variable {α β γ : Type}

theorem Is.rep {S T : Shape} {a : SA α} {f : (String → Nat) → α} (h : Is S a f)
    (hST : ∀ ax n, get? S ax = some n → get? T ax = some n) : Rep T (fun ax => ax ∈ keys S) a f := by
  refine ⟨h.wf, fun ax m hm => ⟨m, hST ax m ((h.shape ax).symm.trans hm), .inl rfl⟩, fun ax hax => ?_, fun e he => ?_⟩
  · obtain ⟨n, hn⟩ := exists_get?_of_mem hax
    rw [h.shape, hn, hST ax n hn]
  · exact h.atB (fun ax n hn => he ax n (hST ax n hn))

theorem Rep.is {S : Shape} {A : String → Prop} {a : SA α} {f : (String → Nat) → α} (h : Rep S A a f)
    (hA : ∀ ax ∈ keys S, A ax) : Is S a f := by
  have hf := h.to_full hA
  exact ⟨h.wf, hf.2, fun e he => by rw [← hf.atB he]; exact h.val e he⟩

theorem is_cumulativeInitial {S : Shape} {a : SA α} {f : (String → Nat) → α} {x : String} {n : Nat} (hx : get? S x = some n)
    (ha : Is S a f) (g : List α → α) :
    ∃ r, a.cumulativeInitial g (some [x]) = .ok r ∧ Is (set S x (n + 1)) r (fun e => g (lineOf f x (e x) e)) := by
  have hw := ha.wf
  have hm : x ∈ a.axes := ha.mem_axes hx
  have hsz : a.sizeOf' x = n := by unfold SA.sizeOf'; rw [ha.shape, hx]; rfl
  obtain ⟨nd, h1, h2, h3⟩ := ND.alongAxis_named hw.2 (SA.shape_eq_map hw) hm (a.sizeOf' x + 1)
    (fun l k => g (l.take k))
  have hg : a.nd.shape.getD (a.axes.idxOf x) 0 = a.sizeOf' x := by
    rw [SA.shape_eq_map hw, getD_map_idxOf _ hm]
  have hwf : (SA.mk a.axes nd).WF := ⟨by
    simp only [ND.ndim]; rw [h2, List.length_map], hw.2⟩
  have hc : a.cumulativeInitial g (some [x]) = .ok ⟨a.axes, nd⟩ := by
    unfold SA.cumulativeInitial
    simp only [axisNormalized]
    rw [if_neg (by simp [hm])]
    simp only [SA.keys_shape hw, SA.pyTupleIndex, if_pos hm, bind, Except.bind, hg, h1]
    exact SA.mk?_of_wf hwf.1 hwf.2
  refine ⟨_, hc, hwf, ?_, fun e he => ?_⟩
  · apply same_set
    intro ax
    rw [(SA.mk_map hw.2 h2).2, hsz]
    by_cases hax : ax ∈ a.axes
    · rw [if_pos hax]
      by_cases h : ax = x
      · rw [if_pos h, if_pos h]
      · rw [if_neg h, if_neg h, ← ha.shape]
        obtain ⟨k, hk⟩ := exists_get?_of_mem (d := a.shape) (by rw [SA.keys_shape hw]; exact hax)
        simp [SA.sizeOf', hk]
    · rw [if_neg hax, if_neg (fun h : ax = x => hax (h ▸ hm)), ← ha.shape, (SA.get?_shape_none hw).2 hax]
  · obtain ⟨he1, he2⟩ := inRange_set.1 he
    have : (SA.mk a.axes nd).at' e = nd.get (a.axes.map e) := rfl
    rw [this, h3, ← List.map_take, List.take_range, Nat.min_eq_left (by omega)]
    congr 1
    apply List.map_congr_left
    intro k hk
    have := List.mem_range.1 hk
    exact ha.elem _ (inRange_update hx he2 (by omega))

theorem ufunc2_is_scalar {S : Shape} (g : α → β → γ) {a : SA α} {f : (String → Nat) → α} (ha : Is S a f) (v : β) :
    ∃ c, SA.ufunc2 g a (SA.scalar v) = .ok c ∧ Is S c (fun e => g (f e) v) := by
  obtain ⟨c, h1, h2, h3⟩ := ufunc2_full g ha.full (fits_scalar S v)
  exact ⟨c, h1, h2.1, h2.2, fun e he => by rw [← h2.atB he, h3, ha.atB he]; rfl⟩

/-- one element along an axis, counted from the end -/
theorem is_last {S : Shape} {a : SA α} {f : (String → Nat) → α} {x : String} {n : Nat} (hx : get? S x = some (n + 1))
    (ha : Is S a f) :
    ∃ r, a.getitem [(x, .int (-1))] = .ok r ∧ Is (without S [x]) r (fun e => f (Function.update e x n)) := by
  have hw := ha.wf
  have hxa : get? a.shape x = some (n + 1) := (ha.shape x).trans hx
  have hb : SA.BasicItem [(x, .int (-1))] := by
    refine ⟨by unfold Dict.WF keys; simp, fun ax b h => ?_⟩
    rw [get?_cons] at h
    split at h
    · injection h with h; cases h
    · cases h
  have hInt : ∀ ax, SA.IntAt [(x, .int (-1))] ax ↔ ax = x := by
    intro ax
    unfold SA.IntAt
    rw [get?_cons]
    by_cases h : x = ax
    · simp [h]
    · simp [h, get?_nil, Ne.symm h]
  obtain ⟨r, r1, r2, r3, r4, r5, r6⟩ := SA.C13_getitem_basic a hw [(x, .int (-1))] hb (by
      intro ax _ sl h
      rw [get?_cons] at h
      split at h
      · injection h with h; cases h
      · cases h) (by
      intro ax m hm
      rw [get?_cons]
      refine ⟨fun i hi => ?_, fun b hb => ?_⟩
      · split at hi <;> rename_i h
        · injection hi with hi
          injection hi with hi
          subst h
          rw [hxa] at hm
          injection hm with hm
          unfold ND.ValidIndex
          omega
        · cases hi
      · split at hb
        · injection hb with hb; cases hb
        · cases hb)
  have hsh : Same r.shape (without S [x]) := by
    intro ax
    rw [get?_without]
    by_cases h : ax = x
    · rw [if_pos (by simp [h]), get?_eq_none, SA.keys_shape r2, r3, hInt]
      exact fun h' => h'.2 h
    · rw [if_neg (by simp [h]), ← ha.shape]
      by_cases hm : ax ∈ a.axes
      · rw [r5 ax ((r3 ax).2 ⟨hm, fun h' => h ((hInt ax).1 h')⟩)]
        obtain ⟨k, hk⟩ := exists_get?_of_mem (d := a.shape) (by rw [SA.keys_shape hw]; exact hm)
        unfold SA.selLen
        rw [get?_cons, if_neg (Ne.symm h), get?_nil, hk]
        rfl
      · rw [(SA.get?_shape_none hw).2 hm, (SA.get?_shape_none r2).2 (fun h' => hm ((r3 ax).1 h').1)]
  refine ⟨r, r1, r2, hsh, fun e he => ?_⟩
  rw [r6]
  rw [← ha.elem]
  · apply SA.at'_congr
    intro ax hax
    unfold SA.selIdx
    rw [get?_cons]
    by_cases h : x = ax
    · subst h
      rw [if_pos rfl, hxa, Function.update_self]
      simp [ND.pyIndex]
    · rw [if_neg h, get?_nil, Function.update_of_ne (Ne.symm h)]
  · apply inRange_update hx _ (Nat.lt_succ_self n)
    intro ax m hne hm
    exact he ax m (by rw [get?_without, if_neg (by simpa using hne)]; exact hm)

/-- positions along one axis -/
theorem is_argReduce {T : Shape} {b : SA α} {p : (String → Nat) → α} {x : String} {n : Nat} (hx : get? T x = some n)
    (hb : Is T b p) (hpos : ∀ ax, get? T ax ≠ some 0) {g : List α → Nat} (hg : ∀ l, l ≠ [] → g l < l.length) :
    ∃ d J, SA.argReduce g b (some [x]) = .ok d ∧ WF d ∧ get? d x = some J ∧
      Is (without T [x]) J (fun e => ((g (lineOf p x n e) : Nat) : Int)) ∧
      (∀ ax m, ax ≠ x → get? T ax = some m → get? d ax = some (SA.arange ax m)) ∧
      ∀ ax v, get? d ax = some v → v.WF := by
  have hsz : b.sizeOf' x = n := by unfold SA.sizeOf'; rw [hb.shape, hx]; rfl
  have hic : "*".intercalate [x] = x := rfl
  obtain ⟨d, h1, h2, h3, h4, -⟩ := SA.argReduce_main hb.wf (A := [x]) (by simp) (by simp)
    (by intro y hy; rw [List.mem_singleton.1 hy]; exact hb.mem_axes hx)
    (by intro ax _ h; rw [hic]; simpa using h) (fun ax => by rw [hb.shape]; exact hpos ax) g hg
  obtain ⟨J, j1, j2, j3, j4, j5⟩ := h3 x (by simp)
  refine ⟨d, J, h1, UA.wf_argReduce hb.wf (by simp) h1, j1, ⟨j2, fun ax => ?_, fun e he => ?_⟩, ?_, fun ax v hv => ?_⟩
  · rw [j4, get?_without, hb.shape]
  · have he' : InRange J.shape e := by
      intro ax m hm
      exact he ax m (by rw [get?_without, ← hb.shape, ← j4]; exact hm)
    have hl : SA.slabList b [x] e = lineOf p x n e := by
      apply slabList_line hx hb
      intro ax m hne hm
      exact he ax m (by rw [get?_without, if_neg (by simpa using hne)]; exact hm)
    rw [j5 e he', hl]
    have hlt : g (lineOf p x n e) < n := by
      have hn0 : n ≠ 0 := fun h => hpos x (by rw [hx, h])
      have := hg (lineOf p x n e) (by intro h; apply hn0; simpa [lineOf] using congrArg List.length h)
      simpa [lineOf] using this
    simp [ND.unravel, hsz, Nat.mod_eq_of_lt hlt]
  · intro ax m hne hm
    have hm' : get? b.shape ax = some m := (hb.shape ax).trans hm
    rw [h4 ax (hb.mem_axes hm) (by simpa using hne)]
    simp [SA.sizeOf', hm']
  · by_cases h : ax = x
    · subst h; rw [j1] at hv; injection hv with hv; rw [← hv]; exact j2
    · rw [h4 ax ((h2 ax).1 (mem_keys_of_get? hv)) (by simpa using h)] at hv
      injection hv with hv
      rw [← hv]
      exact SA.wf_arange _ _

theorem get?_asItem (d : Dict (SA Int)) (ax : String) : get? (SA.asItem d) ax = (get? d ax).map IndexVal.arr := by
  unfold SA.asItem
  induction d with
  | nil => rfl
  | cons p d ih =>
    rw [List.map_cons, get?_cons, get?_cons]
    by_cases h : p.1 = ax
    · simp [h]
    · simp only [if_neg h]; exact ih

/-- reading an array at positions along one axis -/
theorem is_gather {C U : Shape} {c : SA α} {f : (String → Nat) → α} (hc : Is C c f) {x : String} {n : Nat}
    (hx : get? C x = some n) (hxU : get? U x = none) (hCU : ∀ ax m, ax ≠ x → get? C ax = some m → get? U ax = some m)
    {d : Dict (SA Int)} (hd : WF d) (hdw : ∀ ax b, get? d ax = some b → b.WF) {J : SA Int} (hJ : get? d x = some J)
    {g : (String → Nat) → Nat} (hJI : Is U J (fun e => (g e : Int))) (hg : ∀ e, InRange U e → g e < n)
    (hdr : ∀ ax m, ax ≠ x → get? C ax = some m → get? d ax = some (SA.arange ax m)) :
    ∃ r, c.getitem (SA.asItem d) = .ok r ∧ Is U r (fun e => f (Function.update e x (g e))) := by
  have hw := hc.wf
  have hkd : keys (SA.asItem d) = keys d := by unfold SA.asItem keys; rw [List.map_map]; rfl
  have hiw : SA.ItemWF (SA.asItem d) := by
    refine ⟨by unfold Dict.WF; rw [hkd]; exact hd, fun ax b hb => ?_⟩
    unfold SA.asItem at hb
    obtain ⟨p, hp, hpe⟩ := List.mem_map.1 hb
    injection hpe with h1 h2
    injection h2 with h2
    rw [← h2]
    exact hdw p.1 p.2 (get?_of_mem hd hp)
  have hshapes : ∀ s, s ∈ SA.arrayShapes (SA.known c.axes (SA.asItem d)) ↔ ∃ ax ∈ c.axes, ∃ b, get? d ax = some b ∧ s = b.shape := by
    intro s
    unfold SA.arrayShapes SA.known SA.asItem
    simp only [List.mem_filterMap, List.mem_filter, List.mem_map]
    constructor
    · rintro ⟨p, ⟨⟨q, hq, rfl⟩, hm⟩, hs⟩
      exact ⟨q.1, by simpa using hm, q.2, get?_of_mem hd hq, by simpa using hs.symm⟩
    · rintro ⟨ax, hax, b, hb, rfl⟩
      exact ⟨(ax, .arr b), ⟨⟨(ax, b), mem_of_get? hb, rfl⟩, by simpa using hax⟩, rfl⟩
  have hmem : ∀ ax, ax ∈ c.axes → ax ≠ x → ∃ m, get? C ax = some m := by
    intro ax hax _
    obtain ⟨m, hm⟩ := exists_get?_of_mem (d := c.shape) (by rw [SA.keys_shape hw]; exact hax)
    exact ⟨m, (hc.shape ax).symm.trans hm⟩
  have hent : ∀ ax ∈ c.axes, ∀ b, get? d ax = some b → b.WF ∧ FitsIn b.shape U := by
    intro ax hax b hb
    refine ⟨hdw ax b hb, ?_⟩
    by_cases h : ax = x
    · subst h
      rw [hJ] at hb
      injection hb with hb
      subst hb
      exact hJI.full.fits.2
    · obtain ⟨m, hm⟩ := hmem ax hax h
      rw [hdr ax m h hm] at hb
      injection hb with hb
      subst hb
      intro ax' k hk
      rw [SA.shape_arange, get?_cons] at hk
      split at hk <;> rename_i h'
      · injection hk with hk
        subst hk; subst h'
        exact ⟨m, hCU ax m h hm, .inl rfl⟩
      · cases hk
  obtain ⟨S, hS, hSw, hSU⟩ := bs_full (S := U) (t := J.shape) (ss := SA.arrayShapes (SA.known c.axes (SA.asItem d))) (by
      intro s hs
      obtain ⟨ax, hax, b, hb, rfl⟩ := (hshapes s).1 hs
      exact SA.wf_shape (hent ax hax b hb).1) (by
      intro s hs
      obtain ⟨ax, hax, b, hb, rfl⟩ := (hshapes s).1 hs
      exact (hent ax hax b hb).2) ((hshapes _).2 ⟨x, hc.mem_axes hx, J, hJ, rfl⟩) hJI.shape
  have hall : ∀ ax ∈ c.axes, ∃ b, get? (SA.asItem d) ax = some (.arr b) := by
    intro ax hax
    by_cases h : ax = x
    · subst h; exact ⟨J, by rw [get?_asItem, hJ]; rfl⟩
    · obtain ⟨m, hm⟩ := hmem ax hax h
      exact ⟨_, by rw [get?_asItem, hdr ax m h hm]; rfl⟩
  obtain ⟨r, rest, r1, r2, r3, r4, r5, r6, r7, r8⟩ := SA.C14_getitem_arrays c hw (SA.asItem d) hiw S hS (by
      intro ax _ sl h
      rw [get?_asItem] at h
      cases hh : get? d ax with
      | none => rw [hh] at h; cases h
      | some b => rw [hh] at h; injection h with h; cases h) (by
      intro ax m hm
      have hax : ax ∈ c.axes := by rw [← SA.keys_shape hw]; exact mem_keys_of_get? hm
      rw [get?_asItem]
      refine ⟨fun i hi => ?_, fun b hb => ?_⟩
      · cases hh : get? d ax with
        | none => rw [hh] at hi; cases hi
        | some b => rw [hh] at hi; injection hi with hi; cases hi
      · cases hh : get? d ax with
        | none => rw [hh] at hb; cases hb
        | some b' =>
          rw [hh] at hb
          injection hb with hb
          injection hb with hb
          subst hb
          intro e he
          have hm' : get? C ax = some m := (hc.shape ax).symm.trans hm
          by_cases h : ax = x
          · subst h
            rw [hJ] at hh
            injection hh with hh
            subst hh
            rw [hx] at hm'
            injection hm' with hm'
            subst hm'
            have heU := inRange_same hJI.shape he
            rw [hJI.elem e heU]
            have := hg e heU
            unfold ND.ValidIndex
            omega
          · rw [hdr ax m h hm'] at hh
            injection hh with hh
            subst hh
            have := he ax m (by rw [SA.shape_arange, get?_cons, if_pos rfl])
            have hv : (SA.arange ax m).at' e = (e ax : Int) := rfl
            rw [hv]
            unfold ND.ValidIndex
            omega) (fun ax _ hax => .inr (hall ax hax))
  have hrest : rest = [] := by
    rw [List.eq_nil_iff_forall_not_mem]
    intro ax hax
    obtain ⟨h1, _, h3⟩ := (r5 ax).1 hax
    obtain ⟨b, hb⟩ := hall ax h1
    exact h3 b hb
  rw [hrest, List.append_nil] at r3
  have hsh : Same r.shape U := by
    intro ax
    by_cases h : ax ∈ keys S
    · rw [r6 ax h]; exact hSU ax
    · rw [(SA.get?_shape_none r2).2 (by rw [r3]; exact h), ← hSU, get?_eq_none.2 h]
  refine ⟨r, r1, r2, hsh, fun e he => ?_⟩
  rw [r8]
  have hin : InRange C (Function.update e x (g e)) := by
    apply inRange_update hx _ (hg e he)
    intro ax m hne hm
    exact he ax m (hCU ax m hne hm)
  rw [← hc.elem _ hin]
  apply SA.at'_congr
  intro ax hax
  unfold SA.selIdx
  rw [get?_asItem]
  by_cases h : ax = x
  · subst h
    rw [hJ, Function.update_self]
    simp only [Option.map_some]
    rw [hJI.atB he]
    simp [ND.pyIndex]
  · obtain ⟨m, hm⟩ := hmem ax hax h
    rw [hdr ax m h hm, Function.update_of_ne h]
    simp only [Option.map_some]
    have hea := he ax m (hCU ax m h hm)
    have hv : (SA.arange ax m).atB e = (e ax : Int) := by
      rw [SA.atB_eq_at' (SA.wf_arange ax m)]
      · rfl
      · intro ax' k hk
        rw [SA.shape_arange, get?_cons] at hk
        split at hk <;> rename_i h'
        · injection hk with hk
          subst hk; subst h'; exact hea
        · cases hk
    rw [hv]
    simp [ND.pyIndex]

end NA
