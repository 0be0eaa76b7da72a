import Verif.Props.Joining

/-! Elementwise operations on arrays which fit in a common shape, read at named indices. -/

namespace NA
open Dict
open SA (FitsIn InRange)

theorem broadcast_of_fits {s t S : Shape} (hs : WF s) (ht : WF t) (h1 : FitsIn s S) (h2 : FitsIn t S) :
    ∃ r, broadcastShapes [s, t] = .ok r ∧ FitsIn r S := by
  have hss : ∀ u ∈ [s, t], WF u := by
    intro u hu
    simp only [List.mem_cons, List.not_mem_nil, or_false] at hu
    rcases hu with rfl | rfl <;> assumption
  have hsz : ∀ ax m, HasSize [s, t] ax m → ∃ n, get? S ax = some n ∧ (m = n ∨ m = 1) := by
    rintro ax m ⟨u, hu, hm⟩
    simp only [List.mem_cons, List.not_mem_nil, or_false] at hu
    rcases hu with rfl | rfl
    · exact h1 ax m hm
    · exact h2 ax m hm
  cases hb : broadcastShapes [s, t] with
  | error e =>
    exfalso
    obtain ⟨ax, m, n, hm, hn, h3, h4, h5⟩ := (C01_broadcast_shapes_error_iff _ hss).1 ⟨e, hb⟩
    obtain ⟨k, hk, h6⟩ := hsz ax m hm
    obtain ⟨k', hk', h7⟩ := hsz ax n hn
    rw [hk] at hk'
    cases hk'
    omega
  | ok r =>
    refine ⟨r, rfl, ?_⟩
    obtain ⟨_, _, h3⟩ := C01_broadcast_shapes_ok _ hss r hb
    intro ax m hm
    exact hsz ax m (h3 ax m hm).1

/-- Clipping an index twice is clipping it once. -/
theorem atB_clip {α β : Type} {a : SA α} {r : SA β} (ha : a.WF) (h : FitsIn a.shape r.shape) (e : String → Nat) :
    a.atB (fun ax => if get? r.shape ax = some 1 then 0 else e ax) = a.atB e := by
  unfold SA.atB
  apply SA.at'_congr
  intro ax hax
  by_cases h1 : get? a.shape ax = some 1
  · simp [h1]
  · simp only [h1, if_false]
    split
    · next h2 =>
      obtain ⟨m, hm⟩ := exists_get?_of_mem (show ax ∈ keys a.shape by rw [SA.keys_shape ha]; exact hax)
      obtain ⟨n, hn, hmn⟩ := h ax m hm
      rw [h2] at hn
      cases hn
      rcases hmn with rfl | rfl <;> exact absurd hm h1
    · rfl

theorem ufunc2_fits {α β γ : Type} {S : Shape} (f : α → β → γ) {a : SA α} {b : SA β} (ha : a.WF) (hb : b.WF)
    (h1 : FitsIn a.shape S) (h2 : FitsIn b.shape S) :
    ∃ c, SA.ufunc2 f a b = .ok c ∧ (c.WF ∧ FitsIn c.shape S) ∧ ∀ e, c.atB e = f (a.atB e) (b.atB e) := by
  have hwa := SA.wf_shape ha
  have hwb := SA.wf_shape hb
  obtain ⟨r, hr, hf⟩ := broadcast_of_fits hwa hwb h1 h2
  obtain ⟨c, hc⟩ := SA.ufunc2_isOk ha hb hr f
  obtain ⟨h3, h4, h5⟩ := SA.ufunc2_ok ha hb hc
  have hss : ∀ u ∈ [a.shape, b.shape], WF u := by
    intro u hu
    simp only [List.mem_cons, List.not_mem_nil, or_false] at hu
    rcases hu with rfl | rfl <;> assumption
  rw [hr] at h4
  cases h4
  refine ⟨c, hc, ⟨h3, hf⟩, fun e => ?_⟩
  rw [SA.atB, h5, atB_clip ha (SA.fitsIn_of_broadcastShapes hss hr (by simp)),
    atB_clip hb (SA.fitsIn_of_broadcastShapes hss hr (by simp))]

theorem ufunc1_fits {α β : Type} {S : Shape} (f : α → β) {a : SA α} (ha : a.WF) (h1 : FitsIn a.shape S) :
    ∃ c, SA.ufunc1 f a = .ok c ∧ (c.WF ∧ FitsIn c.shape S) ∧ ∀ e, c.atB e = f (a.atB e) := by
  obtain ⟨c, h2, h3, h4, h5⟩ := SA.C07_ufunc1_values f a ha
  refine ⟨c, h2, ⟨h3, by rw [h4]; exact h1⟩, fun e => ?_⟩
  unfold SA.atB
  rw [h5, h4]

theorem scalar_fits {α : Type} (S : Shape) (x : α) : (SA.scalar x).WF ∧ FitsIn (SA.scalar x).shape S := by
  constructor
  · unfold SA.WF SA.scalar ND.scalar
    simp [ND.ndim]
  · intro ax m hm
    simp [SA.scalar, SA.shape] at hm

/-- An array which can be broadcast to the shape `S`. -/
def Fits {α : Type} (S : Shape) (a : SA α) : Prop := a.WF ∧ FitsIn a.shape S

/-- An array of shape `S` (in any order of the axes). -/
def Full {α : Type} (S : Shape) (a : SA α) : Prop := a.WF ∧ Same a.shape S

theorem Full.fits {α : Type} {S : Shape} {a : SA α} (h : Full S a) : Fits S a :=
  ⟨h.1, fun ax m hm => ⟨m, by rw [← h.2 ax]; exact hm, .inl rfl⟩⟩

theorem Full.atB {α : Type} {S : Shape} {a : SA α} (h : Full S a) {e : String → Nat} (he : InRange S e) :
    a.atB e = a.at' e := SA.atB_eq_at' h.1 (fun ax n hn => he ax n (by rw [← h.2 ax]; exact hn))

theorem fits_scalar {α : Type} (S : Shape) (x : α) : Fits S (SA.scalar x) := scalar_fits S x

theorem same_of_fits {s t S : Shape} (h1 : Same s S) (h2 : FitsIn t S) (hs : WF s) (ht : WF t) {r : Shape}
    (h : broadcastShapes [s, t] = .ok r) : Same r S := by
  have hss : ∀ u ∈ [s, t], WF u := by
    intro u hu
    simp only [List.mem_cons, List.not_mem_nil, or_false] at hu
    rcases hu with rfl | rfl <;> assumption
  obtain ⟨_, hkk, h3⟩ := C01_broadcast_shapes_ok _ hss r h
  intro ax
  cases hg : get? r ax with
  | none =>
    symm
    rw [← h1 ax, get?_eq_none]
    intro hx
    rw [get?_eq_none] at hg
    exact hg ((hkk ax).2 ⟨s, by simp, hx⟩)
  | some n =>
    obtain ⟨⟨u, hu, hm⟩, h5⟩ := h3 ax n hg
    have key : ∃ k, get? S ax = some k := by
      simp only [List.mem_cons, List.not_mem_nil, or_false] at hu
      rcases hu with rfl | rfl
      · exact ⟨n, by rw [← h1 ax]; exact hm⟩
      · obtain ⟨k, hk, _⟩ := h2 ax n hm
        exact ⟨k, hk⟩
    obtain ⟨k, hk⟩ := key
    rw [hk]
    have hs : get? s ax = some k := by rw [h1 ax]; exact hk
    have h6 := h5 k ⟨s, by simp, hs⟩
    simp only [List.mem_cons, List.not_mem_nil, or_false] at hu
    rcases hu with rfl | rfl
    · rw [hs] at hm; exact hm.symm
    · obtain ⟨k', hk', h7⟩ := h2 ax n hm
      rw [hk] at hk'
      cases hk'
      rcases h6 with rfl | rfl
      · rfl
      · rcases h7 with rfl | rfl <;> rfl

theorem ufunc2_fits' {α β γ : Type} {S : Shape} (f : α → β → γ) {a : SA α} {b : SA β} (ha : Fits S a) (hb : Fits S b) :
    ∃ c, SA.ufunc2 f a b = .ok c ∧ Fits S c ∧ ∀ e, c.atB e = f (a.atB e) (b.atB e) :=
  ufunc2_fits f ha.1 hb.1 ha.2 hb.2

theorem ufunc2_full {α β γ : Type} {S : Shape} (f : α → β → γ) {a : SA α} {b : SA β} (ha : Full S a) (hb : Fits S b) :
    ∃ c, SA.ufunc2 f a b = .ok c ∧ Full S c ∧ ∀ e, c.atB e = f (a.atB e) (b.atB e) := by
  obtain ⟨c, h1, h2, h3⟩ := ufunc2_fits' f ha.fits hb
  refine ⟨c, h1, ⟨h2.1, ?_⟩, h3⟩
  exact same_of_fits ha.2 hb.2 (SA.wf_shape ha.1) (SA.wf_shape hb.1) (SA.ufunc2_ok ha.1 hb.1 h1).2.1

theorem ufunc2_full' {α β γ : Type} {S : Shape} (f : α → β → γ) {a : SA α} {b : SA β} (ha : Fits S a) (hb : Full S b) :
    ∃ c, SA.ufunc2 f a b = .ok c ∧ Full S c ∧ ∀ e, c.atB e = f (a.atB e) (b.atB e) := by
  obtain ⟨c, h1, h2, h3⟩ := ufunc2_fits' f ha hb.fits
  refine ⟨c, h1, ⟨h2.1, ?_⟩, h3⟩
  have h4 := (SA.ufunc2_ok ha.1 hb.1 h1).2.1
  have h5 := C02_order_and_repetition [a.shape, b.shape] [b.shape, a.shape] (by
    intro u hu
    simp only [List.mem_cons, List.not_mem_nil, or_false] at hu
    rcases hu with rfl | rfl
    · exact SA.wf_shape ha.1
    · exact SA.wf_shape hb.1) (by intro s; simp [or_comm])
  rw [h4] at h5
  cases h6 : broadcastShapes [b.shape, a.shape] with
  | error e => rw [h6] at h5; exact h5.elim
  | ok r =>
    rw [h6] at h5
    have := same_of_fits hb.2 ha.2 (SA.wf_shape hb.1) (SA.wf_shape ha.1) h6
    exact fun ax => (h5 ax).trans (this ax)

theorem ufunc1_full {α β : Type} {S : Shape} (f : α → β) {a : SA α} (ha : Full S a) :
    ∃ c, SA.ufunc1 f a = .ok c ∧ Full S c ∧ ∀ e, c.atB e = f (a.atB e) := by
  obtain ⟨c, h2, h3, h4, h5⟩ := SA.C07_ufunc1_values f a ha.1
  refine ⟨c, h2, ⟨h3, by rw [h4]; exact ha.2⟩, fun e => ?_⟩
  unfold SA.atB
  rw [h5, h4]

theorem ufunc1_fits' {α β : Type} {S : Shape} (f : α → β) {a : SA α} (ha : Fits S a) :
    ∃ c, SA.ufunc1 f a = .ok c ∧ Fits S c ∧ c.shape = a.shape ∧ ∀ e, c.atB e = f (a.atB e) := by
  obtain ⟨c, h2, h3, h4, h5⟩ := SA.C07_ufunc1_values f a ha.1
  refine ⟨c, h2, ⟨h3, by rw [h4]; exact ha.2⟩, h4, fun e => ?_⟩
  unfold SA.atB
  rw [h5, h4]

end NA
