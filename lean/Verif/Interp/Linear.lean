import Verif.Interp.Basic
import Verif.Interp.Spec
import Verif.Scalar.Arith
import Mathlib.Tactic.Linarith

/-! Lemmas about `interpLinear`. -/

namespace NA
open Dict
open SA (FitsIn InRange)

/-- `a[mask] = v` for one value `v` and a mask of the same shape. -/
theorem SA.setMask_scalar {α : Type} {a : SA α} (ha : a.WF) {mask : SA Bool} (hm : mask.WF) (hsh : mask.shape = a.shape) (v : α) :
    ∃ r, a.setMask mask (SA.scalar v) = .ok r ∧ r.WF ∧ r.shape = a.shape ∧
      ∀ e, InRange a.shape e → r.at' e = if mask.at' e then v else a.at' e := by
  have hax : mask.axes = a.axes := by
    rw [← SA.keys_shape hm, ← SA.keys_shape ha, hsh]
  obtain ⟨r, sel, h1, h2, h2', h3, h4, h5, h6, h7, h8⟩ := SA.C16_set_mask a (SA.scalar v) ha (fits_scalar [] v).1 mask hm
    (by rw [hax]; exact fun _ h => h) (by intro ax _; rw [hsh]) _ (SA.maskAxis_ok mask)
    (by intro ax h h'; exact absurd (hax ▸ h) h')
    (by intro ax h; simp [SA.scalar] at h)
    (by intro m h; simp [SA.scalar, SA.shape, get?] at h)
    (by intro ax m _ _ h; simp [SA.scalar, SA.shape, get?] at h)
  refine ⟨r, h1, h2, h3, fun e he => ?_⟩
  cases hb : mask.at' e with
  | false => simp only [Bool.false_eq_true, if_false]; exact h7 e he hb
  | true =>
    simp only [if_true]
    obtain ⟨k, hk, hk'⟩ := h6 e (by rw [hsh]; exact he) hb
    have := h8 (fun _ => k) (by
      intro ax n hn hg
      exfalso
      apply hn
      rw [hax, ← SA.keys_shape ha]
      exact mem_keys_of_get? hg) hk
    rw [← h2'] at hax
    rw [← SA.at'_congr (e := fun ax => if ax ∈ mask.axes then sel k ax else k) (e' := e), this]
    · rfl
    · intro ax hx
      rw [← hax] at hx
      simp only [hx, if_true]
      exact hk' ax hx

theorem clip_inRange {s S : Shape} (h : FitsIn s S) {e : String → Nat} (he : InRange S e) :
    InRange s (fun ax => if get? s ax = some 1 then 0 else e ax) := by
  intro ax n hn
  obtain ⟨m, hm, hmn⟩ := h ax n hn
  simp only [hn]
  by_cases h1 : n = 1
  · simp [h1]
  · have : some n ≠ some 1 := by simpa using h1
    rw [if_neg this]
    rcases hmn with rfl | h2
    · exact he ax _ hm
    · exact absurd h2 h1

section
variable {K : Type} [Field K] [LinearOrder K] [FloorRing K]

/-- The lower neighbour of the position `v` along an axis of length `n`: the integer part, at least `0` and at most `n - 2`. -/
def node (n : Nat) (v : K) : Nat := if v < 0 then 0 else if (n : K) - 1 ≤ v then n - 2 else ⌊v⌋.toNat

variable [IsStrictOrderedRing K]

theorem node_lt {n : Nat} (hn : 2 ≤ n) (v : K) : node n v + 1 < n := by
  unfold node
  split
  · omega
  · next h0 =>
    split
    · omega
    · next h1 =>
      have h3 : ⌊v⌋ < (n : Int) - 1 := by
        rw [Int.floor_lt]
        push_cast
        exact not_le.1 h1
      have h4 : 0 ≤ ⌊v⌋ := Int.floor_nonneg.2 (not_lt.1 h0)
      omega

theorem node_int {n : Nat} (hn : 2 ≤ n) (v : K) :
    (if v < 0 then 0 else if (n : K) - 1 ≤ v then (n : Int) - 2 else ⌊v⌋) = (node n v : Int) := by
  unfold node
  split
  · rfl
  · next h0 =>
    split
    · omega
    · have h4 : 0 ≤ ⌊v⌋ := Int.floor_nonneg.2 (not_lt.1 h0)
      omega

/-- the value of an index at a named index -/
def ival (v : IndexVal) (e : String → Nat) : Int :=
  match v with
  | .int i => i
  | .arr b => b.atB e
  | _ => 0

def ishape : IndexVal → Shape
  | .arr b => b.shape
  | _ => []

/-- an integer or an integer array which fits in `S`, all values being in `[0, n)` -/
def GoodIdx (S : Shape) (n : Nat) (v : IndexVal) : Prop :=
  ((∃ i, v = .int i) ∨ ∃ b, v = .arr b ∧ Fits S b) ∧ ∀ e, InRange (ishape v) e → 0 ≤ ival v e ∧ ival v e < n

theorem ival_clip {S : Shape} {n : Nat} {v : IndexVal} (h : GoodIdx S n v) (e : String → Nat) (he : InRange S e) :
    0 ≤ ival v e ∧ ival v e < n := by
  obtain ⟨h1, h2⟩ := h
  rcases h1 with ⟨i, rfl⟩ | ⟨b, rfl, hb⟩
  · exact h2 e (by intro ax n hn; simp [ishape, get?] at hn)
  · have := h2 _ (clip_inRange hb.2 he)
    simp only [ival] at this
    rw [SA.atB_eq_at' hb.1 (clip_inRange hb.2 he)] at this
    exact this

theorem lowerNode_ok {S : Shape} {n : Nat} (hn : 2 ≤ n) {x : SA K} (hx : Fits S x) :
    ∃ v, SA.lowerNode n x = .ok v ∧ GoodIdx S n v ∧ ishape v = x.shape ∧
      (∀ e, InRange x.shape e → ival v e + 1 < n) ∧ ∀ e, InRange S e → ival v e = node n (x.atB e) := by
  unfold SA.lowerNode
  by_cases hs : x.shape.isEmpty
  · rw [if_pos hs]
    rw [List.isEmpty_iff] at hs
    have hax : x.axes = [] := by rw [← SA.keys_shape hx.1, hs]; rfl
    have hv : ∀ e, x.atB e = x.nd.get [] := by
      intro e; unfold SA.atB SA.at'; rw [hax]; rfl
    have h1 := node_int hn (x.nd.get [])
    have h2 := node_lt hn (x.nd.get [])
    refine ⟨_, rfl, ⟨.inl ⟨_, rfl⟩, ?_⟩, hs.symm, ?_, ?_⟩
    · intro e _
      simp only [ival, ge_iff_le]
      rw [h1]; omega
    · intro e _
      simp only [ival, ge_iff_le]
      rw [h1]; omega
    · intro e _
      simp only [ival, ge_iff_le, hv]
      exact h1
  · rw [if_neg hs]
    obtain ⟨below, b1, b2, b3, b4⟩ := SA.C07_ufunc1_values (fun v : K => decide (v < 0)) x hx.1
    obtain ⟨above, a1, a2, a3, a4⟩ := SA.C07_ufunc1_values (fun v : K => decide ((n : K) - 1 ≤ v)) x hx.1
    obtain ⟨x0, c1, c2, c3, c4⟩ := SA.C07_ufunc1_values (fun v : K => ⌊v⌋) x hx.1
    obtain ⟨x1, d1, d2, d3, d4⟩ := SA.setMask_scalar c2 b2 (b3.trans c3.symm) (0 : Int)
    obtain ⟨x2, f1, f2, f3, f4⟩ := SA.setMask_scalar d2 a2 (a3.trans (d3.trans c3).symm) ((n : Int) - 2)
    have hsh : x2.shape = x.shape := f3.trans (d3.trans c3)
    have hval : ∀ e, InRange x.shape e → x2.at' e = node n (x.at' e) := by
      intro e he
      rw [f4 e (by rw [d3, c3]; exact he), d4 e (by rw [c3]; exact he), a4, b4, c4, ← node_int hn]
      simp only [decide_eq_true_eq]
      by_cases h0 : x.at' e < 0
      · have hno : ¬ (n : K) - 1 ≤ x.at' e := by
          have : (2 : K) ≤ n := by exact_mod_cast hn
          intro h
          linarith
        simp [h0, hno]
      · simp [h0]
    refine ⟨.arr x2, ?_, ⟨.inr ⟨x2, rfl, f2, by rw [hsh]; exact hx.2⟩, ?_⟩, hsh, ?_, ?_⟩
    · simp only [bind, Except.bind, b1, a1, c1, d1, f1]
    · intro e he
      simp only [ival, ishape] at he ⊢
      rw [SA.atB_eq_at' f2 he, hval e (by rw [← hsh]; exact he)]
      have := node_lt hn (x.at' e)
      omega
    · intro e he
      simp only [ival]
      rw [SA.atB_eq_at' f2 (by rw [hsh]; exact he), hval e he]
      have := node_lt hn (x.at' e)
      omega
    · intro e he
      simp only [ival]
      unfold SA.atB
      rw [hsh, hval _ (clip_inRange hx.2 he)]

theorem nextNode_ok {S : Shape} {n : Nat} {v : IndexVal} (h : GoodIdx S n v) (hs : ∀ e, InRange (ishape v) e → ival v e + 1 < n) :
    ∃ w, SA.nextNode v = .ok w ∧ GoodIdx S n w ∧ ishape w = ishape v ∧ ∀ e, InRange S e → ival w e = ival v e + 1 := by
  obtain ⟨h1, h2⟩ := h
  rcases h1 with ⟨i, rfl⟩ | ⟨b, rfl, hb⟩
  · refine ⟨_, rfl, ⟨.inl ⟨_, rfl⟩, ?_⟩, rfl, fun _ _ => rfl⟩
    intro e he
    have := h2 e he
    have := hs e he
    simp only [ival] at *
    omega
  · obtain ⟨c, c1, c2, c3, c4⟩ := ufunc1_fits' (· + (1 : Int)) hb
    refine ⟨.arr c, ?_, ⟨.inr ⟨c, rfl, c2⟩, ?_⟩, c3, ?_⟩
    · simp only [SA.nextNode, bind, Except.bind, c1]
    · intro e he
      simp only [ishape, c3] at he
      have := h2 e he
      have := hs e he
      simp only [ival, c4] at *
      omega
    · intro e _
      simp only [ival, c4]

theorem offset_ok {S : Shape} {n : Nat} {v : IndexVal} (h : GoodIdx S n v) {x : SA K} (hx : Fits S x) :
    ∃ t, SA.offset x v = .ok t ∧ Fits S t ∧ ∀ e, t.atB e = x.atB e - (ival v e : K) := by
  obtain ⟨h1, _⟩ := h
  rcases h1 with ⟨i, rfl⟩ | ⟨b, rfl, hb⟩
  · obtain ⟨c, c1, c2, c3⟩ := ufunc2_fits' (fun (v : K) (i : Int) => v - (i : K)) hx (fits_scalar S i)
    exact ⟨c, c1, c2, c3⟩
  · obtain ⟨c, c1, c2, c3⟩ := ufunc2_fits' (fun (v : K) (i : Int) => v - (i : K)) hx hb
    exact ⟨c, c1, c2, c3⟩

theorem blend_ok {S : Shape} {y0 y1 t : SA K} (h0 : Full S y0) (h1 : Full S y1) (ht : Fits S t) :
    ∃ r, SA.blend y0 y1 t = .ok r ∧ Full S r ∧ ∀ e, r.atB e = y0.atB e + t.atB e * (y1.atB e - y0.atB e) := by
  obtain ⟨c, c1, c2, c3⟩ := ufunc2_full (· - ·) h1 h0.fits
  obtain ⟨d, d1, d2, d3⟩ := ufunc2_full' (· * ·) ht c2
  obtain ⟨f, f1, f2, f3⟩ := ufunc2_full (· + ·) h0 d2.fits
  refine ⟨f, ?_, f2, fun e => by rw [f3, d3, c3]⟩
  simp only [SA.blend, bind, Except.bind, c1, d1, f1]

/-- The index of `a` which is read at the named index `e` of the result. -/
def baseIdx (a : SA K) (item : Dict (SA K)) (base : Dict IndexVal) (e : String → Nat) : String → Nat := fun ax =>
  match get? item ax with
  | some x => node ((get? a.shape ax).getD 0) (x.atB e)
  | none => match get? base ax with
    | some v => (ival v e).toNat
    | none => e ax

/-- The position in the cell with the lower corner `b`. -/
def frac (item : Dict (SA K)) (e b : String → Nat) (ax : String) : K :=
  match get? item ax with
  | some x => x.atB e - (b ax : K)
  | none => 0

/-- The axis has this length in a position of the item or in an index array of the base. -/
def HasSz (item : Dict (SA K)) (base : Dict IndexVal) (ax : String) (m : Nat) : Prop :=
  (∃ p ∈ item, get? p.2.shape ax = some m) ∨ ∃ k v, get? base k = some v ∧ get? (ishape v) ax = some m

theorem getitem_leaf {S : Shape} {a : SA K} (ha : a.WF) (ss : List Shape) (hss : ∀ s ∈ ss, WF s) (hS : broadcastShapes ss = .ok S)
    {base : Dict IndexVal} (hw : WF base) (hk : ∀ ax, ax ∈ keys base ↔ ax ∈ a.axes)
    (hg : ∀ ax v n, get? base ax = some v → get? a.shape ax = some n → GoodIdx S n v)
    (hsz : ∀ ax m, HasSize ss ax m ↔ HasSz ([] : Dict (SA K)) base ax m) :
    ∃ r, a.getitem base = .ok r ∧ Full S r ∧ ∀ e, InRange S e → r.atB e = a.at' (baseIdx a [] base e) := by
  have hkn : SA.known a.axes base = base := by
    unfold SA.known
    rw [List.filter_eq_self]
    intro p hp
    simp only [decide_eq_true_eq]
    exact (hk p.1).1 (List.mem_map.2 ⟨p, hp, rfl⟩)
  have hgood : ∀ ax v, get? base ax = some v → ∃ n, get? a.shape ax = some n ∧ GoodIdx S n v := by
    intro ax v hv
    obtain ⟨n, hn⟩ := exists_get?_of_mem (show ax ∈ keys a.shape by
      rw [SA.keys_shape ha]; exact (hk ax).1 (mem_keys_of_get? hv))
    exact ⟨n, hn, hg ax v n hv hn⟩
  have hb : ∀ ax b, get? base ax = some (.arr b) → Fits S b := by
    intro ax b hv
    obtain ⟨n, hn, h1, _⟩ := hgood ax _ hv
    rcases h1 with ⟨i, h⟩ | ⟨b', h, hf⟩
    · cases h
    · injection h with h; rw [h]; exact hf
  have hiw : SA.ItemWF base := ⟨hw, fun ax b hm => (hb ax b (get?_of_mem hw hm)).1⟩
  have hmem : ∀ s, s ∈ SA.arrayShapes base ↔ ∃ ax b, get? base ax = some (.arr b) ∧ b.shape = s := by
    intro s
    unfold SA.arrayShapes
    rw [List.mem_filterMap]
    constructor
    · rintro ⟨⟨ax, v⟩, hm, hs⟩
      cases v with
      | arr b => exact ⟨ax, b, get?_of_mem hw hm, by simpa using hs⟩
      | int i => simp at hs
      | slice i => simp at hs
      | none => simp at hs
    · rintro ⟨ax, b, hg, rfl⟩
      exact ⟨(ax, .arr b), mem_of_get? hg, rfl⟩
  have hsame := broadcastShapes_sameOutcome_of_sizes ss (SA.arrayShapes base) hss
    (by
      intro s hs
      obtain ⟨ax, b, h1, rfl⟩ := (hmem s).1 hs
      exact SA.wf_shape (hb ax b h1).1)
    (by
      intro ax m
      rw [hsz]
      unfold HasSz HasSize
      constructor
      · rintro (⟨p, hp, _⟩ | ⟨k, v, h1, h2⟩)
        · simp at hp
        · cases v with
          | arr b => exact ⟨b.shape, (hmem _).2 ⟨k, b, h1, rfl⟩, h2⟩
          | int i => simp [ishape, get?] at h2
          | slice i => simp [ishape, get?] at h2
          | none => simp [ishape, get?] at h2
      · rintro ⟨s, hs, h⟩
        obtain ⟨k, b, h1, rfl⟩ := (hmem s).1 hs
        exact .inr ⟨k, _, h1, h⟩)
  rw [hS] at hsame
  cases hS' : broadcastShapes (SA.arrayShapes base) with
  | error e => rw [hS'] at hsame; exact hsame.elim
  | ok S' =>
    rw [hS'] at hsame
    have hno : ∀ ax ∈ a.axes, SA.IntAt base ax ∨ ∃ b, get? base ax = some (.arr b) := by
      intro ax h2
      obtain ⟨v, hv⟩ := exists_get?_of_mem ((hk ax).2 h2)
      obtain ⟨n, hn, h1, _⟩ := hgood ax v hv
      rcases h1 with ⟨i, rfl⟩ | ⟨b, rfl, _⟩
      · exact .inl ⟨i, hv⟩
      · exact .inr ⟨b, hv⟩
    obtain ⟨r, rest, h1, h2, h3, h4, h5, h6, h7, h8⟩ := SA.C14_getitem_arrays a ha base hiw S' (by rw [hkn]; exact hS')
      (by
        intro ax _ sl hsl
        obtain ⟨n, _, h1, _⟩ := hgood ax _ hsl
        rcases h1 with ⟨i, h⟩ | ⟨b, h, _⟩ <;> cases h)
      (by
        intro ax n hn
        constructor
        · intro i hi
          have := (hg ax _ n hi hn).2 (fun _ => 0) (by intro ax n hn; simp [ishape, get?] at hn)
          simp only [ival] at this
          unfold ND.ValidIndex
          omega
        · intro b hi e he
          have := (hg ax _ n hi hn).2 e he
          simp only [ival] at this
          rw [SA.atB_eq_at' (hb ax b hi).1 he] at this
          unfold ND.ValidIndex
          omega)
      (fun ax _ h2 => hno ax h2)
    have hrest : rest = [] := by
      rw [List.eq_nil_iff_forall_not_mem]
      intro ax hax
      obtain ⟨hr1, hr2, hr3⟩ := (h5 ax).1 hax
      rcases hno ax hr1 with h | ⟨b, h⟩
      · exact hr2 h
      · exact hr3 b h
    rw [hrest, List.append_nil] at h3
    have hfull : Full S r := by
      refine ⟨h2, fun ax => ?_⟩
      rw [show get? S ax = get? S' ax from hsame ax]
      by_cases h : ax ∈ keys S'
      · exact h6 ax h
      · rw [get?_eq_none.2 h, get?_eq_none, SA.keys_shape h2, h3]
        exact h
    refine ⟨r, h1, hfull, fun e he => ?_⟩
    rw [hfull.atB he, h8]
    apply SA.at'_congr
    intro ax hax
    obtain ⟨v, hv⟩ := exists_get?_of_mem ((hk ax).2 hax)
    obtain ⟨n, hn, hgi⟩ := hgood ax v hv
    have hiv := ival_clip hgi e he
    simp only [SA.selIdx, baseIdx, hv, hn, Option.getD_some, get?]
    rcases hgi.1 with ⟨i, rfl⟩ | ⟨b, rfl, _⟩
    · simp only [ival] at hiv ⊢
      unfold ND.pyIndex
      rw [if_neg (by omega)]
    · simp only [ival] at hiv ⊢
      unfold ND.pyIndex
      rw [if_neg (by omega)]

theorem interpRec_ok {S : Shape} {a : SA K} (ha : a.WF) (ss : List Shape) (hss : ∀ s ∈ ss, WF s) (hS : broadcastShapes ss = .ok S)
    (item : Dict (SA K)) : ∀ (_ : WF item) (base : Dict IndexVal) (_ : WF base)
    (_ : ∀ ax, ax ∈ keys item ∨ ax ∈ keys base ↔ ax ∈ a.axes) (_ : ∀ ax, ax ∈ keys item → ax ∉ keys base)
    (_ : ∀ ax v n, get? base ax = some v → get? a.shape ax = some n → GoodIdx S n v)
    (_ : ∀ p ∈ item, Fits S p.2) (_ : ∀ p ∈ item, ∀ n, get? a.shape p.1 = some n → 2 ≤ n)
    (_ : ∀ ax m, HasSize ss ax m ↔ HasSz item base ax m),
    ∃ r, (if item.isEmpty then a.getitem base else SA.interpRec a item base) = .ok r ∧ Full S r ∧
      ∀ e, InRange S e → r.atB e = multilerp (keys item).toFinset
        (frac item e (baseIdx a item base e)) a.at' (baseIdx a item base e) := by
  induction item with
  | nil =>
    intro _ base hw hk _ hg _ _ hsz
    obtain ⟨r, h1, h2, h3⟩ := getitem_leaf ha ss hss hS hw (by intro ax; rw [← hk ax]; simp [keys]) hg hsz
    refine ⟨r, h1, h2, fun e he => ?_⟩
    rw [h3 e he]
    simp only [keys, List.map_nil, List.toFinset_nil, multilerp_empty]
  | cons p item ih =>
    obtain ⟨axis, x⟩ := p
    intro hwi base hw hk hd hg hx hn2 hsz
    obtain ⟨hax, hwi'⟩ := (wf_cons).1 hwi
    have haxb : axis ∉ keys base := hd axis (by simp [keys])
    obtain ⟨n, hn⟩ := exists_get?_of_mem (show axis ∈ keys a.shape by
      rw [SA.keys_shape ha]; exact (hk axis).1 (.inl (by simp [keys])))
    have hn2' := hn2 (axis, x) (by simp) n hn
    have hxf : Fits S x := hx (axis, x) (by simp)
    obtain ⟨x0, l1, l2, l3, l4, l5⟩ := lowerNode_ok hn2' hxf
    obtain ⟨x1, m1, m2, m3, m4⟩ := nextNode_ok l2 (by rw [l3]; exact l4)
    obtain ⟨t, t1, t2, t3⟩ := offset_ok l2 hxf
    have step : ∀ v, GoodIdx S n v → ishape v = x.shape →
        ∃ r, (if item.isEmpty then a.getitem (base.set axis v) else SA.interpRec a item (base.set axis v)) = .ok r ∧ Full S r ∧
          ∀ e, InRange S e → r.atB e = multilerp (keys item).toFinset
            (frac item e (baseIdx a item (base.set axis v) e)) a.at' (baseIdx a item (base.set axis v) e) := by
      intro v hv hvs
      apply ih hwi' (base.set axis v) (wf_set hw _ _)
      · intro ax
        rw [← hk ax]
        rw [← get?_isSome (d := base.set axis v), get?_set, ← get?_isSome (d := base)]
        by_cases h : axis = ax
        · subst h; simp [keys]
        · have : ax ≠ axis := fun h' => h h'.symm
          simp [keys, h, this]
      · intro ax hm
        rw [← get?_isSome, get?_set]
        have : axis ≠ ax := by
          rintro rfl
          exact hax hm
        have h' := hd ax (by simp only [keys, List.map_cons, List.mem_cons]; exact .inr hm)
        rw [← get?_isSome] at h'
        simpa [this] using h'
      · intro ax w k hw' hk'
        rw [get?_set] at hw'
        by_cases h : axis = ax
        · subst h
          simp at hw'
          rw [hn] at hk'
          cases hk'
          rw [← hw']
          exact hv
        · rw [if_neg h] at hw'
          exact hg ax w k hw' hk'
      · intro p hp; exact hx p (by simp [hp])
      · intro p hp; exact hn2 p (by simp [hp])
      · intro ax m
        rw [hsz]
        unfold HasSz
        constructor
        · rintro (⟨p, hp, h⟩ | ⟨k, w, h1, h2⟩)
          · rw [List.mem_cons] at hp
            rcases hp with rfl | hp
            · exact .inr ⟨axis, v, by rw [get?_set]; simp, by rw [hvs]; exact h⟩
            · exact .inl ⟨p, hp, h⟩
          · refine .inr ⟨k, w, ?_, h2⟩
            rw [get?_set, if_neg]
            · exact h1
            · rintro rfl
              exact haxb (mem_keys_of_get? h1)
        · rintro (⟨p, hp, h⟩ | ⟨k, w, h1, h2⟩)
          · exact .inl ⟨p, by simp [hp], h⟩
          · rw [get?_set] at h1
            split at h1
            · cases h1
              exact .inl ⟨(axis, x), by simp, by rw [← hvs]; exact h2⟩
            · exact .inr ⟨k, w, h1, h2⟩
    obtain ⟨y0, p1, p2, p3⟩ := step x0 l2 l3
    obtain ⟨y1, q1, q2, q3⟩ := step x1 m2 (m3.trans l3)
    obtain ⟨r, r1, r2, r3⟩ := blend_ok p2 q2 t2
    refine ⟨r, ?_, r2, fun e he => ?_⟩
    · rw [if_neg (by simp), SA.interpRec]
      simp only [hn, bind, Except.bind, l1, m1]
      by_cases hem : item.isEmpty
      · simp only [hem, if_true] at p1 q1 ⊢
        simp only [p1, q1, t1, r1]
      · simp only [hem, if_false, Bool.false_eq_true] at p1 q1 ⊢
        simp only [p1, q1, t1, r1]
    · have hb0 : baseIdx a item (base.set axis x0) e = baseIdx a ((axis, x) :: item) base e := by
        funext ax
        unfold baseIdx
        rw [get?_set, get?_cons]
        by_cases h : axis = ax
        · subst h
          rw [get?_eq_none.2 hax]
          simp only [if_true, hn, Option.getD_some, l5 e he]
          omega
        · rw [if_neg h, if_neg h]
      have hb1 : baseIdx a item (base.set axis x1) e = corner {axis} (baseIdx a ((axis, x) :: item) base e) := by
        funext ax
        simp only [baseIdx, corner]
        rw [get?_set, get?_cons]
        by_cases h : axis = ax
        · subst h
          rw [get?_eq_none.2 hax]
          simp only [if_true, hn, Option.getD_some, m4 e he, l5 e he, Finset.mem_singleton]
          omega
        · rw [if_neg h, if_neg h, if_neg (by simpa using Ne.symm h)]
      have hkey : (keys ((axis, x) :: item)).toFinset = insert axis (keys item).toFinset := by
        simp [keys]
      have hu : ∀ (b : String → Nat), (∀ ax ∈ (keys item).toFinset, b ax = baseIdx a ((axis, x) :: item) base e ax) →
          ∀ ax ∈ (keys item).toFinset,
          frac item e b ax = frac ((axis, x) :: item) e (baseIdx a ((axis, x) :: item) base e) ax := by
        intro b hb ax hm
        have hne : axis ≠ ax := by
          rintro rfl
          exact hax (List.mem_toFinset.1 hm)
        unfold frac
        rw [hb ax hm, get?_cons, if_neg hne]
      rw [r3, p3 e he, q3 e he, hkey, multilerp_insert (by rw [List.mem_toFinset]; exact hax), hb0, hb1, t3, l5 e he]
      have e0 := multilerp_congr (f := a.at') (g := a.at') (e := baseIdx a ((axis, x) :: item) base e)
        (hu _ (fun _ _ => rfl)) (fun _ _ => rfl)
      have e1 := multilerp_congr (f := a.at') (g := a.at') (e := corner {axis} (baseIdx a ((axis, x) :: item) base e))
        (hu (corner {axis} (baseIdx a ((axis, x) :: item) base e)) (by
          intro ax hm
          unfold corner
          rw [if_neg]
          intro h
          rw [Finset.mem_singleton] at h
          subst h
          exact hax (List.mem_toFinset.1 hm))) (fun _ _ => rfl)
      rw [e0, e1]
      have h1 : get? ((axis, x) :: item) axis = some x := by rw [get?_cons]; simp
      have h2 : baseIdx a ((axis, x) :: item) base e axis = node n (x.atB e) := by
        unfold baseIdx
        rw [h1]
        simp only [hn, Option.getD_some]
      have h3 : frac ((axis, x) :: item) e (baseIdx a ((axis, x) :: item) base e) axis = x.atB e - (node n (x.atB e) : K) := by
        unfold frac
        rw [h1]
        simp only [h2]
      rw [h3]
      simp only [Int.cast_natCast]
      ring

end
end NA
