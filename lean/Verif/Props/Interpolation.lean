import Verif.Interp.Linear
import Mathlib.Data.Rat.Floor

/-!
# C31: linear interpolation at fractional indices

`a(item)` gives a fractional position `x` for each of some axes of `a`.  `node n v` is the lower end of the cell which is used for
the position `v` along an axis of length `n`: the integer part, kept within `0 .. n - 2`.
-/

namespace NA
open Dict
open SA (FitsIn InRange)

variable {K : Type} [Field K] [LinearOrder K] [FloorRing K]

/-- The position along an axis, at a named index of the result. -/
def posAt (item : Dict (SA K)) (e : String → Nat) (ax : String) : K :=
  match get? item ax with
  | some x => x.atB e
  | none => 0

/-- The index of `a` along the axes which are not interpolated (an axis of length one is broadcast). -/
def keptIdx (a : SA K) (e : String → Nat) : String → Nat := fun ax => if get? a.shape ax = some 1 then 0 else e ax

/-- The lower corner of the cell which is used. -/
def cellIdx (a : SA K) (item : Dict (SA K)) (e : String → Nat) : String → Nat := fun ax =>
  if ax ∈ keys item then node ((get? a.shape ax).getD 0) (posAt item e ax) else keptIdx a e ax

/-- The shapes which are broadcast: those of the positions and that of the remaining axes. -/
def interpShapes (a : SA K) (item : Dict (SA K)) : List Shape :=
  item.map (fun p => p.2.shape) ++ [a.shape.filter (fun p => p.1 ∉ keys item)]

/-- The positions are for distinct axes which the array has, of length at least two. -/
structure InterpItem (a : SA K) (item : Dict (SA K)) : Prop where
  wf : WF item
  ne : item ≠ []
  pos : ∀ p ∈ item, p.2.WF
  size : ∀ p ∈ item, ∃ n, get? a.shape p.1 = some n ∧ 2 ≤ n

theorem interpShapes_wf {a : SA K} (ha : a.WF) {item : Dict (SA K)} (hi : InterpItem a item) :
    ∀ s ∈ interpShapes a item, WF s := by
  intro s hs
  unfold interpShapes at hs
  rw [List.mem_append, List.mem_map, List.mem_singleton] at hs
  rcases hs with ⟨p, hp, rfl⟩ | rfl
  · exact SA.wf_shape (hi.pos p hp)
  · exact List.Nodup.sublist (List.Sublist.map _ List.filter_sublist) (SA.wf_shape ha)

variable [IsStrictOrderedRing K]

/-- **C31** `a(item)`, for positions which broadcast with each other and with the remaining axes of `a`, has the shape of this
broadcast, and each element is the multilinear interpolation of `a` in the cell which contains the position (in the outermost
cell for positions outside). -/
theorem C31_interp (a : SA K) (ha : a.WF) (item : Dict (SA K)) (hi : InterpItem a item) (S : Shape)
    (hS : broadcastShapes (interpShapes a item) = .ok S) :
    ∃ r, a.interpLinear item = .ok r ∧ r.WF ∧ Same r.shape S ∧
      ∀ e, InRange S e → r.at' e = multilerp (keys item).toFinset
        (fun ax => posAt item e ax - (cellIdx a item e ax : K)) a.at' (cellIdx a item e) := by
  have hkey0 : keys (item.map (fun p => (p.1, IndexVal.int 0))) = keys item := by
    unfold keys; rw [List.map_map]; rfl
  have hget0 : ∀ ax v, get? (item.map (fun p => (p.1, IndexVal.int 0))) ax = some v → v = .int 0 := by
    intro ax v h
    obtain ⟨p, _, hp⟩ := List.mem_map.1 (mem_of_get? h)
    cases hp
    rfl
  have hint : ∀ ax, SA.IntAt (item.map (fun p => (p.1, IndexVal.int 0))) ax ↔ ax ∈ keys item := by
    intro ax
    unfold SA.IntAt
    rw [← hkey0]
    constructor
    · rintro ⟨i, h⟩; exact mem_keys_of_get? h
    · intro h
      obtain ⟨v, hv⟩ := exists_get?_of_mem h
      have := hget0 ax v hv
      subst this
      exact ⟨0, hv⟩
  obtain ⟨rest, g1, g2, g3, _, g5, _⟩ := SA.C13_getitem_basic a ha (item.map (fun p => (p.1, .int 0)))
    ⟨by unfold WF; rw [hkey0]; exact hi.wf, by
      intro ax b h
      have := hget0 ax _ h
      cases this⟩
    (by intro ax _ sl h; have := hget0 ax _ h; cases this)
    (by
      intro ax n hn
      constructor
      · intro i h
        have h' := hget0 ax _ h
        cases h'
        have hm := mem_keys_of_get? h
        rw [hkey0] at hm
        obtain ⟨p, hp, rfl⟩ := List.mem_map.1 hm
        obtain ⟨m, hm, hm2⟩ := hi.size p hp
        rw [hn] at hm
        cases hm
        unfold ND.ValidIndex
        omega
      · intro b h
        have h' := hget0 ax _ h
        cases h')
  have hrs : ∀ ax, get? rest.shape ax = if ax ∈ keys item then none else get? a.shape ax := by
    intro ax
    by_cases hm : ax ∈ rest.axes
    · have h1 := (g3 ax).1 hm
      rw [hint] at h1
      rw [g5 ax hm, if_neg h1.2]
      obtain ⟨n, hn⟩ := exists_get?_of_mem (show ax ∈ keys a.shape by rw [SA.keys_shape ha]; exact h1.1)
      have h2 : get? (item.map (fun p => (p.1, IndexVal.int 0))) ax = none := by
        rw [get?_eq_none, hkey0]; exact h1.2
      simp only [SA.selLen, h2, hn, Option.getD_some]
    · have h0 : get? rest.shape ax = none := by rw [get?_eq_none, SA.keys_shape g2]; exact hm
      rw [h0]
      split
      · rfl
      · next h =>
        symm
        rw [get?_eq_none, SA.keys_shape ha]
        intro h'
        exact hm ((g3 ax).2 ⟨h', by rw [hint]; exact h⟩)
  set base : Dict IndexVal := rest.shape.map (fun p => (p.1, .arr (SA.arange p.1 p.2))) with hbase
  have hbk : keys base = keys rest.shape := by unfold keys; rw [hbase, List.map_map]; rfl
  have hbw : WF base := by unfold WF; rw [hbk]; exact SA.wf_shape g2
  have hbg : ∀ ax v, get? base ax = some v ↔ ∃ n, get? rest.shape ax = some n ∧ v = .arr (SA.arange ax n) := by
    intro ax v
    constructor
    · intro h
      obtain ⟨p, hp, he⟩ := List.mem_map.1 (mem_of_get? h)
      cases he
      exact ⟨p.2, get?_of_mem (SA.wf_shape g2) hp, rfl⟩
    · rintro ⟨n, hn, rfl⟩
      exact get?_of_mem hbw (List.mem_map.2 ⟨(ax, n), mem_of_get? hn, rfl⟩)
  have hfit : ∀ s ∈ interpShapes a item, FitsIn s S := fun s hs =>
    SA.fitsIn_of_broadcastShapes (interpShapes_wf ha hi) hS hs
  have hfilt : ∀ ax, get? (a.shape.filter (fun p => p.1 ∉ keys item)) ax = get? rest.shape ax := by
    intro ax
    rw [hrs ax]
    have := SA.get?_filter a.shape (fun x => x ∉ keys item) ax
    simp only [ite_not] at this
    exact this
  have hsh1 : ∀ ax n x, get? (SA.arange ax n).shape x = if ax = x then some n else none := by
    intro ax n x
    simp only [SA.arange, SA.shape, List.zip_cons_cons, List.zip_nil_left]
    rw [get?_cons]
    simp [get?]
  have har : ∀ ax n, get? rest.shape ax = some n → Fits S (SA.arange ax n) := by
    intro ax n hn
    refine ⟨by unfold SA.WF SA.arange; simp [ND.ndim], ?_⟩
    intro x m hm
    rw [hsh1] at hm
    split at hm
    · next h =>
      subst h
      cases hm
      refine hfit (a.shape.filter (fun p => p.1 ∉ keys item)) (by simp [interpShapes]) ax n ?_
      rw [hfilt]
      exact hn
    · cases hm
  have harv : ∀ ax n e, (SA.arange ax n).atB e = if n = 1 then 0 else (e ax : Int) := by
    intro ax n e
    unfold SA.atB
    simp only [hsh1]
    simp only [SA.at', SA.arange, List.map_cons, List.map_nil, List.headD_cons]
    by_cases h : n = 1 <;> simp [h]
  obtain ⟨r, r1, r2, r3⟩ := interpRec_ok ha (interpShapes a item) (interpShapes_wf ha hi) hS item hi.wf base hbw
    (by
      intro ax
      rw [hbk, ← get?_isSome (d := rest.shape), hrs, ← SA.keys_shape ha]
      constructor
      · rintro (h | h)
        · obtain ⟨p, hp, rfl⟩ := List.mem_map.1 h
          obtain ⟨n, hn, _⟩ := hi.size p hp
          exact mem_keys_of_get? hn
        · split at h
          · cases h
          · exact get?_isSome.1 h
      · intro h
        by_cases h' : ax ∈ keys item
        · exact .inl h'
        · right
          rw [if_neg h']
          exact get?_isSome.2 h)
    (by
      intro ax h
      rw [hbk, ← get?_isSome, hrs, if_pos h]
      simp)
    (by
      intro ax v n hv hn
      obtain ⟨m, hm, rfl⟩ := (hbg ax v).1 hv
      have hmn : m = n := by
        have := hrs ax
        rw [hm] at this
        split at this
        · cases this
        · rw [hn] at this; cases this; rfl
      subst hmn
      refine ⟨.inr ⟨_, rfl, har ax m hm⟩, ?_⟩
      intro e he
      have hlt := he ax m (by simp only [ishape]; rw [hsh1]; simp)
      simp only [ival, harv]
      split <;> omega)
    (by
      intro p hp
      exact ⟨hi.pos p hp, hfit _ (by
        unfold interpShapes
        rw [List.mem_append]
        exact .inl (List.mem_map.2 ⟨p, hp, rfl⟩))⟩)
    (by
      intro p hp n hn
      obtain ⟨m, hm, h2⟩ := hi.size p hp
      rw [hn] at hm
      cases hm
      exact h2)
    (by
      intro ax m
      unfold HasSize HasSz interpShapes
      constructor
      · rintro ⟨s, hs, h⟩
        rw [List.mem_append, List.mem_map, List.mem_singleton] at hs
        rcases hs with ⟨p, hp, rfl⟩ | rfl
        · exact .inl ⟨p, hp, h⟩
        · rw [hfilt] at h
          refine .inr ⟨ax, _, (hbg ax _).2 ⟨m, h, rfl⟩, ?_⟩
          simp only [ishape]
          rw [hsh1]
          simp
      · rintro (⟨p, hp, h⟩ | ⟨k, v, h1, h2⟩)
        · exact ⟨_, by rw [List.mem_append]; exact .inl (List.mem_map.2 ⟨p, hp, rfl⟩), h⟩
        · obtain ⟨n, hn, rfl⟩ := (hbg k v).1 h1
          simp only [ishape] at h2
          rw [hsh1] at h2
          split at h2
          · next hk =>
            subst hk
            cases h2
            exact ⟨_, by rw [List.mem_append, List.mem_singleton]; exact .inr rfl, by rw [hfilt]; exact hn⟩
          · cases h2)
  have hemp : item.isEmpty = false := by
    cases h : item with
    | nil => exact absurd h hi.ne
    | cons p q => rfl
  rw [hemp] at r1
  refine ⟨r, ?_, r2.1, r2.2, fun e he => ?_⟩
  · unfold SA.interpLinear
    rw [hemp]
    simp only [Bool.false_eq_true, if_false, bind, Except.bind, g1] at r1 ⊢
    exact r1
  · have hidx : ∀ ax ∈ a.axes, baseIdx a item base e ax = cellIdx a item e ax := by
      intro ax hax
      unfold baseIdx cellIdx posAt
      by_cases h : ax ∈ keys item
      · obtain ⟨x, hx⟩ := exists_get?_of_mem h
        simp only [hx, h, if_true]
      · have h0 := get?_eq_none.2 h
        obtain ⟨n, hn⟩ := exists_get?_of_mem (show ax ∈ keys a.shape by rw [SA.keys_shape ha]; exact hax)
        have h1 : get? base ax = some (.arr (SA.arange ax n)) := (hbg ax _).2 ⟨n, by rw [hrs, if_neg h]; exact hn, rfl⟩
        simp only [h0, h1, h, if_false, ival, harv, keptIdx, hn]
        by_cases hn1 : n = 1 <;> simp [hn1]
    have hsub : ∀ ax ∈ (keys item).toFinset, ax ∈ a.axes := by
      intro ax h
      rw [List.mem_toFinset] at h
      obtain ⟨p, hp, rfl⟩ := List.mem_map.1 h
      obtain ⟨n, hn, _⟩ := hi.size p hp
      rw [← SA.keys_shape ha]
      exact mem_keys_of_get? hn
    rw [← r2.atB he, r3 e he]
    unfold multilerp
    apply Finset.sum_congr rfl
    intro T hT
    rw [Finset.mem_powerset] at hT
    have hu : ∀ ax ∈ (keys item).toFinset, frac item e (baseIdx a item base e) ax = posAt item e ax - (cellIdx a item e ax : K) := by
      intro ax h
      unfold frac posAt
      obtain ⟨x, hx⟩ := exists_get?_of_mem (List.mem_toFinset.1 h)
      rw [hx]
      simp only [hidx ax (hsub ax h)]
    rw [Finset.prod_congr rfl (fun ax h => hu ax (hT h)),
      Finset.prod_congr (s₁ := (keys item).toFinset \ T) rfl (fun ax h => by rw [hu ax (Finset.mem_sdiff.1 h).1])]
    congr 1
    apply SA.at'_congr
    intro ax h
    unfold corner
    rw [hidx ax h]

/-- The corners which are read are in range, when all the arrays which are broadcast are not empty. -/
theorem cellIdx_inRange {a : SA K} (ha : a.WF) {item : Dict (SA K)} (hi : InterpItem a item) {S : Shape}
    (hS : broadcastShapes (interpShapes a item) = .ok S) {e : String → Nat} (he : InRange S e) {T : Finset String}
    (hT : T ⊆ (keys item).toFinset) : InRange a.shape (corner T (cellIdx a item e)) := by
  intro ax n hn
  unfold corner cellIdx
  by_cases h : ax ∈ keys item
  · obtain ⟨p, hp, rfl⟩ := List.mem_map.1 h
    obtain ⟨m, hm, h2⟩ := hi.size p hp
    rw [hn] at hm
    cases hm
    have := node_lt h2 (posAt item e p.1)
    simp only [h, if_true, hn, Option.getD_some]
    split <;> omega
  · have h' : ax ∉ T := fun hx => h (List.mem_toFinset.1 (hT hx))
    rw [if_neg h', if_neg h]
    unfold keptIdx
    obtain ⟨k, hk, hkn⟩ := SA.fitsIn_of_broadcastShapes (interpShapes_wf ha hi) hS
      (show a.shape.filter (fun p => p.1 ∉ keys item) ∈ _ by simp [interpShapes]) ax n (by
        have := SA.get?_filter a.shape (fun x => x ∉ keys item) ax
        rw [this, if_pos h]
        exact hn)
    rw [hn]
    by_cases h1 : n = 1
    · simp [h1]
    · rw [if_neg (by simpa using h1)]
      rcases hkn with rfl | h2
      · exact he ax _ hk
      · exact absurd h2 h1

/-- **C31** (no position).  Without any position the array itself is the result. -/
theorem C31_no_position (a : SA K) (ha : a.WF) : ∃ r, a.interpLinear [] = .ok r ∧ r.WF ∧ r.shape = a.shape ∧
    ∀ e, r.at' e = a.at' e := ⟨a, rfl, ha, rfl, fun _ => rfl⟩

/-- **C31** (nodes). At integer positions the elements of the array are returned. -/
theorem C31_nodes (a : SA K) (ha : a.WF) (item : Dict (SA K)) (hi : InterpItem a item) (S : Shape)
    (hS : broadcastShapes (interpShapes a item) = .ok S) (r : SA K) (hr : a.interpLinear item = .ok r)
    (e : String → Nat) (he : InRange S e) (k : String → Nat)
    (hk : ∀ ax ∈ keys item, posAt item e ax = k ax ∧ ∀ n, get? a.shape ax = some n → k ax < n) :
    r.at' e = a.at' (fun ax => if ax ∈ keys item then k ax else keptIdx a e ax) := by
  obtain ⟨r', h1, _, _, h4⟩ := C31_interp a ha item hi S hS
  rw [hr] at h1
  cases h1
  have hnode : ∀ ax ∈ keys item, cellIdx a item e ax = k ax ∨ cellIdx a item e ax + 1 = k ax := by
    intro ax hax
    obtain ⟨hp, hlt⟩ := hk ax hax
    obtain ⟨p, hp', rfl⟩ := List.mem_map.1 hax
    obtain ⟨n, hn, h2⟩ := hi.size p hp'
    have := hlt n hn
    unfold cellIdx node
    rw [if_pos hax, hp, hn]
    simp only [Option.getD_some]
    rw [if_neg (not_lt.2 (Nat.cast_nonneg _))]
    split
    · next h =>
      have h3 : (n : K) ≤ ((k p.1 + 1 : Nat) : K) := by push_cast; linarith
      have h4 : n ≤ k p.1 + 1 := by exact_mod_cast h3
      omega
    · left
      rw [Int.floor_natCast]
      simp
  rw [h4 e he, multilerp_corner (keys item).toFinset
    ((keys item).toFinset.filter (fun ax => cellIdx a item e ax + 1 = k ax))]
  · apply SA.at'_congr
    intro ax _
    unfold corner
    by_cases hax : ax ∈ keys item
    · rcases hnode ax hax with h | h
      · have : ¬ cellIdx a item e ax + 1 = k ax := by omega
        simp [hax, this, h]
      · simp [hax, h]
    · simp [hax, cellIdx]
  · intro ax _ h
    rw [Finset.mem_filter, List.mem_toFinset] at h
    rw [(hk ax h.1).1, ← h.2]
    push_cast
    ring
  · intro ax hax h
    rw [List.mem_toFinset] at hax
    rw [Finset.mem_filter, List.mem_toFinset] at h
    rcases hnode ax hax with h' | h'
    · rw [(hk ax hax).1, h', sub_self]
    · exact absurd ⟨hax, h'⟩ h

/-- **C31** (linear data). On data which are affine in the indices along the interpolated axes (with an intercept and slopes which
may depend on the other indices) the affine function is returned at every position, inside or outside of the array. -/
theorem C31_linear (a : SA K) (ha : a.WF) (item : Dict (SA K)) (hi : InterpItem a item) (S : Shape)
    (hS : broadcastShapes (interpShapes a item) = .ok S) (r : SA K) (hr : a.interpLinear item = .ok r)
    (c : (String → Nat) → K) (g : String → (String → Nat) → K)
    (hlin : ∀ e, InRange a.shape e → a.at' e = c (offAxes (keys item).toFinset e) +
      ∑ ax ∈ (keys item).toFinset, g ax (offAxes (keys item).toFinset e) * (e ax : K))
    (e : String → Nat) (he : InRange S e) :
    r.at' e = c (offAxes (keys item).toFinset (keptIdx a e)) +
      ∑ ax ∈ (keys item).toFinset, g ax (offAxes (keys item).toFinset (keptIdx a e)) * posAt item e ax := by
  obtain ⟨r', h1, _, _, h4⟩ := C31_interp a ha item hi S hS
  rw [hr] at h1
  cases h1
  have hoff : offAxes (keys item).toFinset (cellIdx a item e) = offAxes (keys item).toFinset (keptIdx a e) := by
    funext ax
    unfold offAxes cellIdx
    simp only [List.mem_toFinset]
    split <;> simp_all
  have := multilerp_affine (keys item).toFinset (fun ax => posAt item e ax - (cellIdx a item e ax : K))
    (c (offAxes (keys item).toFinset (keptIdx a e))) (fun ax => g ax (offAxes (keys item).toFinset (keptIdx a e)))
    (cellIdx a item e)
  simp only [add_sub_cancel] at this
  rw [h4 e he, ← this]
  apply multilerp_congr (fun _ _ => rfl)
  intro T hT
  rw [hlin _ (cellIdx_inRange ha hi hS he hT), offAxes_corner hT, hoff]

/-- **C31** (bounds). Between the nodes the interpolated values lie between any bounds of the surrounding elements. -/
theorem C31_bounds (a : SA K) (ha : a.WF) (item : Dict (SA K)) (hi : InterpItem a item) (S : Shape)
    (hS : broadcastShapes (interpShapes a item) = .ok S) (r : SA K) (hr : a.interpLinear item = .ok r)
    (e : String → Nat) (he : InRange S e)
    (hin : ∀ ax ∈ keys item, 0 ≤ posAt item e ax ∧ ∀ n, get? a.shape ax = some n → posAt item e ax ≤ (n : K) - 1) (lo hi' : K)
    (hb : ∀ T ⊆ (keys item).toFinset, lo ≤ a.at' (corner T (cellIdx a item e)) ∧ a.at' (corner T (cellIdx a item e)) ≤ hi') :
    lo ≤ r.at' e ∧ r.at' e ≤ hi' := by
  obtain ⟨r', h1, _, _, h4⟩ := C31_interp a ha item hi S hS
  rw [hr] at h1
  cases h1
  rw [h4 e he]
  apply multilerp_mem_Icc _ _ _ _ _ _ _ hb
  intro ax hax
  rw [List.mem_toFinset] at hax
  obtain ⟨h0, h1⟩ := hin ax hax
  obtain ⟨p, hp', rfl⟩ := List.mem_map.1 hax
  obtain ⟨n, hn, h2⟩ := hi.size p hp'
  have hle := h1 n hn
  unfold cellIdx node
  rw [if_pos hax, hn]
  simp only [Option.getD_some]
  rw [if_neg (not_lt.2 h0)]
  split
  · next h =>
    have : ((n - 2 : Nat) : K) = (n : K) - 2 := by push_cast [h2]; rfl
    rw [this]
    constructor <;> linarith
  · have hf : ((⌊posAt item e p.1⌋.toNat : Nat) : K) = (⌊posAt item e p.1⌋ : K) := by
      have := Int.toNat_of_nonneg (Int.floor_nonneg.2 h0)
      exact_mod_cast congrArg (Int.cast : Int → K) this
    rw [hf]
    have h5 := Int.floor_le (posAt item e p.1)
    have h6 := Int.lt_floor_add_one (posAt item e p.1)
    constructor <;> linarith

/-- **C31** (order). The order in which the positions are given does not matter. -/
theorem C31_order (a : SA K) (ha : a.WF) (item item' : Dict (SA K)) (hi : InterpItem a item) (hp : item.Perm item') (S : Shape)
    (hS : broadcastShapes (interpShapes a item) = .ok S) :
    ∃ r r', a.interpLinear item = .ok r ∧ a.interpLinear item' = .ok r' ∧ r.SameByName r' := by
  have hk : ∀ ax, ax ∈ keys item ↔ ax ∈ keys item' := by
    intro ax
    exact (hp.map Prod.fst).mem_iff
  have hi' : InterpItem a item' := ⟨(hp.map Prod.fst).nodup_iff.1 hi.wf, by
    intro h
    rw [h] at hp
    exact hi.ne hp.eq_nil, fun p h => hi.pos p (hp.mem_iff.2 h), fun p h => hi.size p (hp.mem_iff.2 h)⟩
  have hg : ∀ ax, get? item ax = get? item' ax := by
    intro ax
    cases h : get? item ax with
    | none =>
      symm
      rw [get?_eq_none] at h ⊢
      rw [← hk]
      exact h
    | some x => exact (get?_of_mem hi'.wf (hp.mem_iff.1 (mem_of_get? h))).symm
  have hsame := broadcastShapes_sameOutcome_of_sizes (interpShapes a item) (interpShapes a item') (interpShapes_wf ha hi)
    (interpShapes_wf ha hi') (by
      have hf : a.shape.filter (fun p => p.1 ∉ keys item) = a.shape.filter (fun p => p.1 ∉ keys item') := by
        apply List.filter_congr
        intro p _
        simp only [hk]
      intro ax n
      unfold HasSize interpShapes
      rw [hf]
      have := fun s => (hp.map (fun p => p.2.shape)).mem_iff (a := s)
      simp only [List.mem_append, this])
  rw [hS] at hsame
  cases hS' : broadcastShapes (interpShapes a item') with
  | error e => rw [hS'] at hsame; exact hsame.elim
  | ok S' =>
    rw [hS'] at hsame
    have hSS : Same S S' := hsame
    obtain ⟨r, h1, h2, h3, h4⟩ := C31_interp a ha item hi S hS
    obtain ⟨r', h1', h2', h3', h4'⟩ := C31_interp a ha item' hi' S' hS'
    refine ⟨r, r', h1, h1', fun ax => by rw [h3 ax, h3' ax, hSS ax], fun e he => ?_⟩
    have heS : InRange S e := fun ax n hn => he ax n (by rw [h3 ax]; exact hn)
    have heS' : InRange S' e := fun ax n hn => heS ax n (by rw [hSS ax]; exact hn)
    have hpos : posAt item e = posAt item' e := by
      funext ax
      unfold posAt
      rw [hg]
    have hcell : cellIdx a item e = cellIdx a item' e := by
      funext ax
      unfold cellIdx
      simp only [hk, hpos]
    have hfin : (keys item).toFinset = (keys item').toFinset := by
      ext x; rw [List.mem_toFinset, List.mem_toFinset, hk]
    rw [h4 e heS, h4' e heS', hpos, hcell, hfin]

/-! ### Non-vacuity -/

/-- `x ^ 2` along `x` (4 points) plus `10 y` (2 points) -/
def interpEx : SA Rat := ⟨["x", "y"], ⟨[4, 2], fun i => (i.getD 0 0 : Rat) ^ 2 + 10 * i.getD 1 0⟩⟩

/-- positions along a new axis `t`: outside, at a node, between nodes, at the last node, outside -/
def interpPos : SA Rat := ⟨["t"], ND.vec [-1, 1, 3 / 2, 3, 4]⟩

example : InterpItem interpEx [("x", interpPos)] :=
  ⟨by decide, by decide, by intro p hp; rw [List.mem_singleton.1 hp]; decide,
    by intro p hp; rw [List.mem_singleton.1 hp]; exact ⟨4, by decide, by decide⟩⟩
example : broadcastShapes (interpShapes interpEx [("x", interpPos)]) = .ok [("t", 5), ("y", 2)] := by decide +kernel
example : ((interpEx.interpLinear [("x", interpPos)]).toOption.map (fun r => (r.axes, r.nd.toList))) =
    some (["y", "t"], [-1, 1, 5 / 2, 9, 14, 9, 11, 25 / 2, 19, 24]) := by decide +kernel
example : ((interpEx.interpLinear [("y", SA.scalar (1 / 2)), ("x", SA.scalar (5 / 2))]).toOption.map
    (fun r => (r.axes, r.nd.toList))) = some ([], [23 / 2]) := by decide +kernel

end NA
