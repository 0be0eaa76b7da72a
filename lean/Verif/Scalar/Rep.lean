import Verif.Interp.Centers

/-!
# Arrays which represent functions of named indices

Helper notions to follow the elements and the axes through long computations.
-/

namespace NA
open Dict
open SA (FitsIn InRange)

variable {α β γ : Type}

/-- `a` can be broadcast to `S`, has the full size along the axes of `A`, and represents `f` at the indices of `S`. -/
structure Rep (S : Shape) (A : String → Prop) (a : SA α) (f : (String → Nat) → α) : Prop where
  wf : a.WF
  fits : FitsIn a.shape S
  full : ∀ ax, A ax → get? a.shape ax = get? S ax
  val : ∀ e, InRange S e → a.atB e = f e

namespace Rep

theorem congr {S : Shape} {A : String → Prop} {a : SA α} {f g : (String → Nat) → α} (h : Rep S A a f)
    (hfg : ∀ e, InRange S e → f e = g e) : Rep S A a g :=
  ⟨h.wf, h.fits, h.full, fun e he => (h.val e he).trans (hfg e he)⟩

theorem mono {S : Shape} {A B : String → Prop} {a : SA α} {f : (String → Nat) → α} (h : Rep S A a f)
    (hAB : ∀ ax, B ax → A ax) : Rep S B a f :=
  ⟨h.wf, h.fits, fun ax hax => h.full ax (hAB ax hax), h.val⟩

theorem scalar (S : Shape) (x : α) : Rep S (fun _ => False) (SA.scalar x) (fun _ => x) :=
  ⟨(scalar_fits S x).1, (scalar_fits S x).2, fun _ h => h.elim, fun _ _ => rfl⟩

/-- An array which has, along each of its axes, the size of `S`. -/
theorem of_sub {S : Shape} {a : SA α} (ha : a.WF) (h : ∀ ax n, get? a.shape ax = some n → get? S ax = some n) :
    Rep S (fun ax => ax ∈ a.axes) a a.atB := by
  refine ⟨ha, fun ax m hm => ⟨m, h ax m hm, .inl rfl⟩, fun ax hax => ?_, fun _ _ => rfl⟩
  rw [← SA.keys_shape ha] at hax
  obtain ⟨n, hn⟩ := exists_get?_of_mem hax
  rw [hn, h ax n hn]

theorem to_full {S : Shape} {A : String → Prop} {a : SA α} {f : (String → Nat) → α} (h : Rep S A a f)
    (hA : ∀ ax ∈ keys S, A ax) : Full S a := by
  refine ⟨h.wf, fun ax => ?_⟩
  by_cases hax : ax ∈ keys S
  · exact h.full ax (hA ax hax)
  · rw [get?_eq_none.2 hax, get?_eq_none]
    intro hk
    obtain ⟨n, hn⟩ := exists_get?_of_mem hk
    obtain ⟨k, hk', _⟩ := h.fits ax n hn
    exact hax (mem_keys_of_get? hk')

theorem ufunc2 {S : Shape} {A B : String → Prop} {a : SA α} {b : SA β} {f : (String → Nat) → α} {g : (String → Nat) → β}
    (op : α → β → γ) (ha : Rep S A a f) (hb : Rep S B b g) :
    ∃ c, SA.ufunc2 op a b = .ok c ∧ Rep S (fun ax => A ax ∨ B ax) c (fun e => op (f e) (g e)) := by
  obtain ⟨c, h1, h2, h3⟩ := ufunc2_fits op ha.wf hb.wf ha.fits hb.fits
  have hs := (SA.ufunc2_ok ha.wf hb.wf h1).2.1
  have hw : ∀ u ∈ [a.shape, b.shape], WF u := by
    intro u hu
    simp only [List.mem_cons, List.not_mem_nil, or_false] at hu
    rcases hu with rfl | rfl
    · exact SA.wf_shape ha.wf
    · exact SA.wf_shape hb.wf
  refine ⟨c, h1, h2.1, h2.2, fun ax hax => ?_, fun e he => by rw [h3, ha.val e he, hb.val e he]⟩
  have key : ∀ t : Shape, FitsIn t c.shape → get? t ax = get? S ax → get? c.shape ax = get? S ax := by
    intro t ht htS
    cases hS : get? S ax with
    | none =>
      rw [get?_eq_none]
      intro hk
      obtain ⟨n, hn⟩ := exists_get?_of_mem hk
      obtain ⟨k, hk', _⟩ := h2.2 ax n hn
      rw [hS] at hk'; cases hk'
    | some n =>
      rw [hS] at htS
      obtain ⟨k, hk, hk'⟩ := ht ax n htS
      obtain ⟨n', hn', hk''⟩ := h2.2 ax k hk
      rw [hS] at hn'
      injection hn' with hn'
      rw [hk]
      congr 1
      omega
  rcases hax with h | h
  · exact key a.shape (SA.fitsIn_of_broadcastShapes hw hs (by simp)) (ha.full ax h)
  · exact key b.shape (SA.fitsIn_of_broadcastShapes hw hs (by simp)) (hb.full ax h)

theorem ufunc1 {S : Shape} {A : String → Prop} {a : SA α} {f : (String → Nat) → α} (op : α → β) (ha : Rep S A a f) :
    ∃ c, SA.ufunc1 op a = .ok c ∧ Rep S A c (fun e => op (f e)) := by
  obtain ⟨c, h1, h2, h3, h4⟩ := ufunc1_fits' (S := S) op ⟨ha.wf, ha.fits⟩
  exact ⟨c, h1, h2.1, h2.2, fun ax hax => by rw [h3]; exact ha.full ax hax, fun e he => by rw [h4, ha.val e he]⟩

end Rep

/-! ### Slices which drop one end -/

/-- The item with `slice(1, None)` (`true`) or `slice(None, -1)` (`false`) along the given axes. -/
def endsItem (d : Dict Bool) : Dict IndexVal :=
  d.map (fun p => (p.1, .slice (if p.2 then ⟨some 1, none, none⟩ else ⟨none, some (-1), none⟩)))

/-- The shape with one element less along the given axes. -/
def shrink (S : Shape) (l : List String) : Shape := S.map (fun p => (p.1, if p.1 ∈ l then p.2 - 1 else p.2))

/-- The index moved by one along the axes which are marked. -/
def shift (d : Dict Bool) (e : String → Nat) : String → Nat := fun ax => if get? d ax = some true then e ax + 1 else e ax

theorem keys_shrink (S : Shape) (l : List String) : keys (shrink S l) = keys S := by
  unfold shrink keys; rw [List.map_map]; rfl

theorem wf_shrink {S : Shape} (hS : WF S) (l : List String) : WF (shrink S l) := by
  unfold WF; rw [keys_shrink]; exact hS

theorem get?_shrink (S : Shape) (l : List String) (ax : String) :
    get? (shrink S l) ax = if ax ∈ l then (get? S ax).map (· - 1) else get? S ax := by
  induction S with
  | nil => simp [shrink, get?]
  | cons p S ih =>
    have : shrink (p :: S) l = (p.1, if p.1 ∈ l then p.2 - 1 else p.2) :: shrink S l := rfl
    rw [this, get?_cons, get?_cons]
    by_cases h : p.1 = ax
    · subst h; simp only [if_true]; split <;> rfl
    · simp only [if_neg h]; exact ih

theorem get?_endsItem (d : Dict Bool) (ax : String) :
    get? (endsItem d) ax = (get? d ax).map (fun b => .slice (if b then ⟨some 1, none, none⟩ else ⟨none, some (-1), none⟩)) := by
  unfold endsItem
  induction d with
  | nil => rfl
  | cons p d ih =>
    rw [List.map_cons, get?_cons, get?_cons]
    by_cases h : p.1 = ax
    · simp only [if_pos h]; rfl
    · simp only [if_neg h]; exact ih

theorem keys_endsItem (d : Dict Bool) : keys (endsItem d) = keys d := by
  unfold endsItem keys; rw [List.map_map]; rfl

theorem getitem_ends {a : SA α} (ha : a.WF) (d : Dict Bool) (hd : WF d) :
    ∃ r, a.getitem (endsItem d) = .ok r ∧ r.WF ∧ r.axes = a.axes ∧
      (∀ ax, get? r.shape ax = if ax ∈ keys d then (get? a.shape ax).map (· - 1) else get? a.shape ax) ∧
      ∀ e, (∀ ax ∈ a.axes, get? a.shape ax ≠ some 0) → r.at' e = a.at' (shift d e) := by
  have hi : SA.BasicItem (endsItem d) := by
    refine ⟨by unfold WF; rw [keys_endsItem]; exact hd, fun ax b h => ?_⟩
    rw [get?_endsItem] at h
    cases hg : get? d ax with
    | none => rw [hg] at h; cases h
    | some v => rw [hg] at h; cases h
  have hns : ∀ ax, ¬ SA.IntAt (endsItem d) ax := by
    rintro ax ⟨i, h⟩
    rw [get?_endsItem] at h
    cases hg : get? d ax with
    | none => rw [hg] at h; cases h
    | some v => rw [hg] at h; cases h
  obtain ⟨r, h1, h2, h3, h4, h5, h6⟩ := SA.C13_getitem_basic a ha (endsItem d) hi
    (by
      intro ax _ s' h
      rw [get?_endsItem] at h
      cases hg : get? d ax with
      | none => rw [hg] at h; cases h
      | some v =>
        rw [hg] at h
        injection h with h
        injection h with h
        subst h
        cases v <;> simp)
    (by
      intro ax n hn
      refine ⟨fun i h => hns ax ⟨i, h⟩ |>.elim, fun b h => hi.2 ax b h |>.elim⟩)
  have hax : r.axes = a.axes := h4.eq_of_length_le (by
    have := (List.subperm_of_subset ha.2 (l₂ := r.axes) (fun x hx => (h3 x).2 ⟨hx, hns x⟩)).length_le
    exact this)
  refine ⟨r, h1, h2, hax, fun ax => ?_, fun e hne => ?_⟩
  · by_cases hm : ax ∈ a.axes
    · obtain ⟨n, hn⟩ := exists_get?_of_mem (show ax ∈ keys a.shape by rw [SA.keys_shape ha]; exact hm)
      rw [h5 ax (by rw [hax]; exact hm), hn]
      unfold SA.selLen
      rw [get?_endsItem, hn]
      cases hg : get? d ax with
      | none => rw [if_neg (get?_eq_none.1 hg)]; simp
      | some v =>
        rw [if_pos (mem_keys_of_get? hg)]
        cases v
        · simp [sliceLen_init]
        · simp [sliceLen_tail]
    · have e1 : get? a.shape ax = none := by
        rw [get?_eq_none, SA.keys_shape ha]; exact hm
      have e2 : get? r.shape ax = none := by
        rw [get?_eq_none, SA.keys_shape h2, hax]; exact hm
      rw [e1, e2]; simp
  · rw [h6]
    apply SA.at'_congr
    intro ax hm
    obtain ⟨n, hn⟩ := exists_get?_of_mem (show ax ∈ keys a.shape by rw [SA.keys_shape ha]; exact hm)
    have hn0 : 0 < n := by
      rcases Nat.eq_zero_or_pos n with rfl | h
      · exact absurd hn (hne ax hm)
      · exact h
    unfold SA.selIdx shift
    rw [get?_endsItem]
    cases hg : get? d ax with
    | none => simp
    | some v =>
      cases v
      · simp [slicePos_init]
      · simp [hn, slicePos_tail _ _ hn0]

theorem inRange_shift {S : Shape} {d : Dict Bool} {e : String → Nat} (he : InRange (shrink S (keys d)) e) :
    InRange S (shift d e) := by
  intro ax n hn
  have := he ax
  rw [get?_shrink, hn] at this
  unfold shift
  by_cases hk : ax ∈ keys d
  · rw [if_pos hk] at this
    have := this (n - 1) rfl
    split <;> omega
  · rw [if_neg hk] at this
    have := this n rfl
    have hg := get?_eq_none.2 hk
    rw [hg]; simpa using this

/-- Indexing an array which represents a function, along axes of full size (or axes which it lacks). -/
theorem Rep.ends {S : Shape} {A : String → Prop} {a : SA α} {f : (String → Nat) → α} (h : Rep S A a f)
    (d : Dict Bool) (hd : WF d) (hk : ∀ ax ∈ keys d, A ax ∨ ax ∉ a.axes) :
    ∃ r, a.getitem (endsItem d) = .ok r ∧ Rep (shrink S (keys d)) A r (fun e => f (shift d e)) ∧ r.axes = a.axes := by
  obtain ⟨r, r1, r2, r3, r4, r5⟩ := getitem_ends h.wf d hd
  have hnone : ∀ ax, ax ∉ a.axes → get? a.shape ax = none := fun ax hax => by
    rw [get?_eq_none, SA.keys_shape h.wf]; exact hax
  have hsz : ∀ ax ∈ keys d, ∀ n, get? a.shape ax = some n → get? S ax = some n := by
    intro ax hax n hn
    rcases hk ax hax with h' | h'
    · rw [← h.full ax h', hn]
    · rw [hnone ax h'] at hn; cases hn
  refine ⟨r, r1, ⟨r2, fun ax m hm => ?_, fun ax hax => ?_, fun e he => ?_⟩, r3⟩
  · rw [r4] at hm
    rw [get?_shrink]
    by_cases hax : ax ∈ keys d
    · rw [if_pos hax] at hm ⊢
      obtain ⟨n, hn, rfl⟩ := Option.map_eq_some_iff.1 hm
      exact ⟨n - 1, by rw [hsz ax hax n hn]; rfl, .inl rfl⟩
    · rw [if_neg hax] at hm ⊢
      exact h.fits ax m hm
  · rw [r4, get?_shrink, h.full ax hax]
  · rw [← h.val _ (inRange_shift he)]
    have hin := inRange_shift he
    have hpos : ∀ ax ∈ a.axes, get? a.shape ax ≠ some 0 := by
      intro ax _ h0
      obtain ⟨k, hk1, hk2⟩ := h.fits ax 0 h0
      have := hin ax k hk1
      omega
    unfold SA.atB
    rw [r5 _ hpos]
    refine SA.at'_congr fun ax hax => ?_
    rw [← SA.keys_shape h.wf] at hax
    obtain ⟨n, hn⟩ := exists_get?_of_mem hax
    rw [hn]
    unfold shift
    simp only [r4]
    by_cases hkd : ax ∈ keys d
    · have hS := hsz ax hkd n hn
      have hlt := he ax (n - 1) (by rw [get?_shrink, if_pos hkd, hS]; rfl)
      rw [if_pos hkd, hn]
      simp only [Option.map_some, Option.some.injEq]
      have h1 : ¬ n = 1 := by omega
      rw [if_neg h1]
      by_cases h2 : n - 1 = 1
      · have : e ax = 0 := by omega
        rw [if_pos h2, this]
      · rw [if_neg h2]
    · have hg := get?_eq_none.2 hkd
      rw [if_neg hkd, hg, hn]
      simp

end NA
