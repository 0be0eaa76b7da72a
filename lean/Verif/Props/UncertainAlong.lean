import Mathlib.Algebra.BigOperators.Group.List.Lemmas
import Verif.Props.UncertainStructure
import Verif.Props.UncertainReduce
import Verif.Props.Reductions
import Verif.Props.Sorting
import Verif.Props.ArrayPercentiles
import Verif.Props.Fourier
import Verif.Uncertain.Along

/-!
# Cumulative sums, percentiles, Fourier transforms and nonzero elements of uncertain scalars (C84)
-/

namespace NA
open Dict
open SA (FitsIn InRange)

namespace UA
variable {α β κ : Type}

/-- A component is broadcast along the axes `A` of the array and no others. -/
theorem extend_ok {c : SA α} (hc : c.WF) {s : Shape} {A : List String} (hA : A ⊆ keys s)
    (hfit : ∀ ax ∈ A, ∀ m n, get? c.shape ax = some m → get? s ax = some n → m = n ∨ m = 1) :
    ∃ v, extend (Comp.shapeBase s A) c = .ok v ∧ v.WF ∧
      (∀ ax, get? v.shape ax = if ax ∈ A then get? s ax else get? c.shape ax) ∧
      (∀ ax, ax ∈ v.axes ↔ ax ∈ A ∨ ax ∈ c.axes) ∧
      ∀ e, v.at' e = c.atB e := by
  set B := Comp.shapeBase s A with hB
  have hBg : ∀ ax, get? B ax = if ax ∈ A then get? s ax else none := fun ax => Comp.get?_shapeBase s A ax hA
  have hBw : WF B := wf_union wf_nil _
  have hw : ∀ q ∈ [c.shape, B], WF q := by simp [hBw, SA.wf_shape hc]
  obtain ⟨T, hT⟩ : ∃ T, broadcastShapes [c.shape, B] = .ok T := by
    cases hb : broadcastShapes [c.shape, B] with
    | ok r => exact ⟨r, rfl⟩
    | error e =>
      obtain ⟨ax, m, n, ⟨s1, hs1, hm⟩, ⟨s2, hs2, hn⟩, hne, hm1, hn1⟩ :=
        (C01_broadcast_shapes_error_iff _ hw).1 ⟨e, hb⟩
      exfalso
      simp only [List.mem_cons, List.not_mem_nil, or_false] at hs1 hs2
      rcases hs1 with rfl | rfl <;> rcases hs2 with rfl | rfl
      · rw [hm] at hn; cases hn; exact hne rfl
      · rw [hBg] at hn
        split at hn
        · next h => rcases hfit ax h m n hm hn with h | h <;> contradiction
        · cases hn
      · rw [hBg] at hm
        split at hm
        · next h => rcases hfit ax h n m hn hm with h | h <;> simp_all
        · cases hm
      · rw [hm] at hn; cases hn; exact hne rfl
  obtain ⟨t1, t2, t3⟩ := C01_broadcast_shapes_ok _ hw T hT
  have hget : ∀ ax, get? T ax = if ax ∈ A then get? s ax else get? c.shape ax := by
    intro ax
    cases hg : get? T ax with
    | none =>
      have hno := mt (t2 ax).2 (get?_eq_none.1 hg)
      have h1 : get? c.shape ax = none := get?_eq_none.2 fun h => hno ⟨_, by simp, h⟩
      have h2 : get? B ax = none := get?_eq_none.2 fun h => hno ⟨_, by simp, h⟩
      rw [hBg] at h2
      split
      · next h => rw [if_pos h] at h2; exact h2.symm
      · exact h1.symm
    | some n =>
      obtain ⟨⟨q, hq, hqn⟩, h2⟩ := t3 ax n hg
      simp only [List.mem_cons, List.not_mem_nil, or_false] at hq
      split
      · next h =>
        obtain ⟨N, hN⟩ := exists_get?_of_mem (hA h)
        have hBN : get? B ax = some N := by rw [hBg, if_pos h, hN]
        rw [hN]
        rcases hq with rfl | rfl
        · rcases h2 N ⟨_, by simp, hBN⟩ with h3 | h3
          · rw [h3]
          · rcases hfit ax h n N hqn hN with h4 | h4
            · rw [h4]
            · rw [h3, h4]
        · rw [hBN] at hqn; exact hqn.symm
      · next h =>
        rcases hq with rfl | rfl
        · exact hqn.symm
        · rw [hBg, if_neg h] at hqn; cases hqn
  have hfits : FitsIn c.shape T := SA.fitsIn_of_broadcastShapes hw hT (by simp)
  rcases SA.C10_broadcast_to c hc T t1 with ⟨_, v, v1, v2, v3, v4⟩ | ⟨hn, _⟩
  swap
  · exact absurd hfits hn
  refine ⟨v, ?_, v2, fun ax => by rw [v3]; exact hget ax, fun ax => ?_, v4⟩
  · unfold extend
    rw [hT]
    exact v1
  · rw [← SA.keys_shape v2, v3, t2 ax, ← SA.keys_shape hc]
    constructor
    · rintro ⟨q, hq, h⟩
      simp only [List.mem_cons, List.not_mem_nil, or_false] at hq
      rcases hq with rfl | rfl
      · exact .inr h
      · obtain ⟨m, hm⟩ := exists_get?_of_mem h
        rw [hBg] at hm
        split at hm
        · next h => exact .inl h
        · cases hm
    · rintro (h | h)
      · obtain ⟨N, hN⟩ := exists_get?_of_mem (hA h)
        exact ⟨B, by simp, mem_keys_of_get? (v := N) (by rw [hBg, if_pos h, hN])⟩
      · exact ⟨_, by simp, h⟩

/-- Both components are broadcast along the axes `A` of the array. -/
theorem extend_both {u : UA α} (hu : u.Valid) {s : Shape} (hs : u.shape = .ok s) {A : List String} (hA : A ⊆ keys s) :
    axisD ∉ A ∧ axisD ∉ keys s ∧ WF s ∧ (∀ ax, ax ∈ u.nominal.axes → ax ∈ keys s) ∧
    (∀ ax, ax ∈ u.distribution.axes → ax = axisD ∨ ax ∈ keys s) ∧
    (∀ ax ∈ keys s, ax ∈ u.nominal.axes ∨ ax ∈ u.distribution.axes) ∧
    (∃ v, extend (Comp.shapeBase s A) u.nominal = .ok v ∧ v.WF ∧
      (∀ ax, get? v.shape ax = if ax ∈ A then get? s ax else get? u.nominal.shape ax) ∧
      (∀ ax, ax ∈ v.axes ↔ ax ∈ A ∨ ax ∈ u.nominal.axes) ∧ ∀ e, v.at' e = u.nominal.atB e) ∧
    ∃ v, extend (Comp.shapeBase s A) u.distribution = .ok v ∧ v.WF ∧
      (∀ ax, get? v.shape ax = if ax ∈ A then get? s ax else get? u.distribution.shape ax) ∧
      (∀ ax, ax ∈ v.axes ↔ ax ∈ A ∨ ax ∈ u.distribution.axes) ∧ ∀ e, v.at' e = u.distribution.atB e := by
  rcases shape_cases hu with ⟨_, _, h⟩ | ⟨_, t, s', sd, h1, h2, h3, h4, h⟩
  · rw [h] at hs; cases hs
  have : s' = s := by rw [h.shape] at hs; cases hs; rfl
  subst this
  have hDA : axisD ∉ A := fun hh => h.noD (hA hh)
  have hn : ∀ ax, ax ∈ u.nominal.axes → ax ∈ keys s' := by
    intro ax hax
    rw [← SA.keys_shape hu.1] at hax
    obtain ⟨m, hm⟩ := exists_get?_of_mem hax
    obtain ⟨n, hn, _⟩ := h.nom ax m hm
    exact mem_keys_of_get? hn
  refine ⟨hDA, h.noD, h.wf, hn, ?_, ?_, ?_, ?_⟩
  · intro ax hax
    rw [← SA.keys_shape hu.2.1] at hax
    obtain ⟨m, hm⟩ := exists_get?_of_mem hax
    obtain ⟨n, hn, _⟩ := h.dist ax m hm
    rw [h.get] at hn
    split at hn
    · exact .inl ‹_›
    · exact .inr (mem_keys_of_get? hn)
  · intro ax hax
    have hwq : ∀ q ∈ [u.nominal.shape, u.distribution.shape], WF q := by
      simp [SA.wf_shape hu.1, SA.wf_shape hu.2.1]
    have hk : ax ∈ keys t := by
      obtain ⟨n, hn⟩ := exists_get?_of_mem hax
      rw [h3, get?_erase] at hn
      split at hn
      · cases hn
      · exact mem_keys_of_get? hn
    obtain ⟨q, hq, hh⟩ := ((C01_broadcast_shapes_ok _ hwq t h1).2.1 ax).1 hk
    simp only [List.mem_cons, List.not_mem_nil, or_false] at hq
    rcases hq with rfl | rfl
    · exact .inl (by rw [← SA.keys_shape hu.1]; exact hh)
    · exact .inr (by rw [← SA.keys_shape hu.2.1]; exact hh)
  · refine extend_ok hu.1 hA fun ax hax m n hm hn => ?_
    obtain ⟨k, hk, hor⟩ := h.nom ax m hm
    rw [hn] at hk; cases hk; exact hor
  · refine extend_ok hu.2.1 hA fun ax hax m n hm hn => ?_
    obtain ⟨k, hk, hor⟩ := h.dist ax m hm
    rw [h.get, if_neg (by rintro rfl; exact hDA hax), hn] at hk; cases hk; exact hor

/-! ### Cumulative sums -/

/-- The first `k + 1` elements along an axis through a named index, with the broadcasting convention. -/
def upTo (a : SA α) (ax : String) (e : String → Nat) : List α :=
  (List.range (e ax + 1)).map (fun k => a.atB (Function.update e ax k))

/-- **C84** (`np.cumsum`, `np.cumprod`). Along an axis `ax` of the array (by default its only axis) the nominal value and
every sample hold the reductions of the elements up to the position, also if only one of the two depends on the axis. -/
theorem C84_cumulative (f : List α → α) (u : UA α) (hu : u.Valid) (s : Shape) (hs : u.shape = .ok s)
    (axis : Option (List String)) (ax : String) (hax : axis.getD (keys s) = [ax]) (n : Nat) (hn : get? s ax = some n) :
    ∃ r, u.cumulative f axis = .ok r ∧ r.Valid ∧
      (∀ x, get? r.nominal.shape x = if x = ax then some n else get? u.nominal.shape x) ∧
      (∀ x, get? r.distribution.shape x = if x = ax then some n else get? u.distribution.shape x) ∧
      ∀ e, e ax < n → r.nominal.at' e = f (upTo u.nominal ax e) ∧ r.distribution.at' e = f (upTo u.distribution ax e) := by
  obtain ⟨hD, hDs, hw, _, _, _, ⟨v, v1, v2, v3, v4, v5⟩, ⟨w, w1, w2, w3, w4, w5⟩⟩ :=
    extend_both hu hs (A := [ax]) (by simpa using mem_keys_of_get? hn)
  have hbase : Comp.shapeBase s [ax] = [(ax, n)] := by
    unfold Comp.shapeBase
    simp [hn, union, Dict.set]
  have hb1 : u.nominal.broadcastTo [(ax, n)] true = .ok v := by
    rw [← v1, hbase]; rfl
  have hb2 : u.distribution.broadcastTo [(ax, n)] true = .ok w := by
    rw [← w1, hbase]; rfl
  have hvn : get? v.shape ax = some n := by rw [v3]; simp [hn]
  have hwn : get? w.shape ax = some n := by rw [w3]; simp [hn]
  obtain ⟨a, a1, a2, a3, a4, a5⟩ := SA.C19_cumulative_partial v v2 f ax n hvn none (by simp)
  obtain ⟨b, b1, b2, b3, b4, b5⟩ := SA.C19_cumulative_partial w w2 f ax n hwn none (by simp)
  have hDa : axisD ∉ a.axes := by
    rw [a3, v4]
    rintro (h | h)
    · exact hD h
    · exact hu.2.2 h
  refine ⟨⟨a, b⟩, ?_, ⟨a2, b2, hDa⟩, fun x => ?_, fun x => ?_, fun e he => ⟨?_, ?_⟩⟩
  · unfold cumulative
    rw [hs]
    simp only [bind, Except.bind, hax, hn, hb1, hb2, a1, b1]
    exact mk?_of_valid a2 hDa
  · show get? a.shape x = _
    rw [a4, v3]
    by_cases h : x = ax
    · subst h; simp [hn]
    · simp [h]
  · show get? b.shape x = _
    rw [b4, w3]
    by_cases h : x = ax
    · subst h; simp [hn]
    · simp [h]
  · show a.at' e = _
    rw [a5 e he]
    unfold upTo
    simp only [v5]
  · show b.at' e = _
    rw [b5 e he]
    unfold upTo
    simp only [w5]

/-- **C84** (`np.cumsum`, errors). Other than one axis raises `ValueError`, an axis which the array lacks (also the axis of
the samples) `KeyError`. -/
theorem C84_cumulative_error (f : List α → α) (u : UA α) (hu : u.Valid) (s : Shape) (hs : u.shape = .ok s)
    (axis : Option (List String)) :
    ((axis.getD (keys s)).length ≠ 1 → u.cumulative f axis = .error .valueError) ∧
    (∀ ax, axis = some [ax] → ax ∉ keys s ∨ ax = axisD → u.cumulative f axis = .error .keyError) := by
  constructor
  · intro h
    unfold cumulative
    rw [hs]
    simp only [bind, Except.bind]
    split
    · next h' => rw [h'] at h; simp at h
    · rfl
  · rintro ax rfl h
    have h' : ax ∉ keys s := by
      rcases h with h | h
      · exact h
      · rw [h]; exact (extend_both hu hs (A := []) (by simp)).2.1
    unfold cumulative
    rw [hs]
    simp only [bind, Except.bind, Option.getD_some, get?_eq_none.2 h']

/-! ### Percentiles -/

/-- `q` is a valid argument for the component `c` reduced over `A`: no axis in common, at most two axes, and percentiles as
elements. -/
structure GoodFor (valid : κ → Bool) (c : SA α) (A : List String) (q : SA κ) : Prop where
  wf : q.WF
  few : q.axes.length ≤ 2
  apart : ∀ ax, ax ∈ A ∨ ax ∈ c.axes → ax ∉ q.axes
  good : ∀ e, InRange q.shape e → valid (q.at' e) = true

/-- An uncertain scalar whose shape has no empty axis, and which has samples, has no empty component. -/
theorem nonempty_components {u : UA α} (hu : u.Valid) {s : Shape} (hs : u.shape = .ok s) (hne : ∀ ax ∈ keys s, get? s ax ≠ some 0)
    (hsam : get? u.distribution.shape axisD ≠ some 0) :
    (∀ ax, get? u.nominal.shape ax ≠ some 0) ∧ ∀ ax, get? u.distribution.shape ax ≠ some 0 := by
  rcases shape_cases hu with ⟨_, _, h⟩ | ⟨_, t, s', sd, h1, h2, h3, h4, h⟩
  · rw [h] at hs; cases hs
  have : s' = s := by rw [h.shape] at hs; cases hs; rfl
  subst this
  have hs0 : ∀ ax, get? s' ax ≠ some 0 := fun ax h0 => hne ax (mem_keys_of_get? h0) h0
  refine ⟨fun ax h0 => ?_, fun ax h0 => ?_⟩
  · obtain ⟨n, hn, h' | h'⟩ := h.nom ax 0 h0
    · subst h'; exact hs0 ax hn
    · omega
  · by_cases hD : ax = axisD
    · subst hD; exact hsam h0
    · obtain ⟨n, hn, h' | h'⟩ := h.dist ax 0 h0
      · subst h'
        rw [h.get, if_neg hD] at hn
        exact hs0 ax hn
      · omega

/-- One component. -/
theorem percentile_component {valid : κ → Bool} {pct : κ → List α → β} {c v : SA α} {s : Shape} {A : List String} (hA : A.Nodup)
    (hAs : A ⊆ keys s) (hne : ∀ ax ∈ keys s, get? s ax ≠ some 0) (hc0 : ∀ ax, get? c.shape ax ≠ some 0) (kd : Bool) {q : SA κ}
    (hq : GoodFor valid c A q) (hv : v.WF)
    (hvs : ∀ ax, get? v.shape ax = if ax ∈ A then get? s ax else get? c.shape ax) (hc : c.WF)
    (hva : ∀ ax, ax ∈ v.axes ↔ ax ∈ A ∨ ax ∈ c.axes) (hve : ∀ e, v.at' e = c.atB e) :
    ∃ r, v.percentileLike valid pct q (some A) kd none = .ok r ∧ r.WF ∧
      (∀ ax, ax ∈ r.axes → ax ∈ A ∨ ax ∈ c.axes ∨ ax ∈ q.axes) ∧
      (∀ ax, get? r.shape ax =
        if ax ∈ A then (if kd then some 1 else none) else if ax ∈ c.axes then get? c.shape ax else get? q.shape ax) ∧
      ∀ e, ∃ l, Comp.SlabOf s A e l ∧ r.at' e = pct (q.at' e) (l.map c.atB) := by
  obtain ⟨r, r1, r2, r3, r4, r5⟩ := SA.C81_percentile valid pct v hv q
    ⟨hq.wf, hq.few, fun ax h => hq.apart ax ((hva ax).1 h), hq.good⟩ (some A) A rfl hA (fun ax h => (hva ax).2 (.inl h))
    (by
      intro ax _
      rw [hvs]
      split
      · rename_i h
        exact hne ax (hAs h)
      · exact hc0 ax) kd
  refine ⟨r, r1, r2, fun ax h => ?_, fun ax => ?_, fun e => ?_⟩
  · rw [r3, List.mem_append] at h
    rcases h with h | h
    · exact .inr (.inr h)
    · have : ax ∈ v.axes := by
        split at h
        · exact h
        · exact (List.mem_filter.1 h).1
      rcases (hva ax).1 this with h | h
      · exact .inl h
      · exact .inr (.inl h)
  · rw [r4, hvs]
    by_cases h : ax ∈ A
    · simp [h]
    · simp [h, hva]
  · obtain ⟨l, ⟨l1, l2⟩, h⟩ := r5 e
    refine ⟨l, ⟨l1, fun e' => ?_⟩, ?_⟩
    · rw [l2 e']
      have : (∀ ax ∈ A, ∃ n, get? v.shape ax = some n ∧ e' ax < n) ↔ ∀ ax ∈ A, ∃ n, get? s ax = some n ∧ e' ax < n := by
        refine forall₂_congr fun ax h => ?_
        rw [hvs, if_pos h]
      rw [this]
    · rw [h]
      congr 1
      exact List.map_congr_left fun e' _ => hve e'

/-- **C84** (`np.percentile`, `np.quantile`, ...; part which holds). The nominal value of the result holds the percentiles
of the nominal value of the array, and each sample those of the sample, taken over the whole slab of the array along the axes
`A` (all of them by default); a plain array or plain percentiles take part in both.  (What is missing: percentiles with
samples for an array with samples, which raise, see `C84_percentile_refuted`.) -/
theorem C84_percentile_partial (valid : κ → Bool) (pct : κ → List α → β) (a : UArg α) (ha : a.Ok) (har : ¬ a.Reserved) (s : Shape)
    (hs : a.shape = .ok s) (q : UArg κ) (axis : Option (List String)) (A : List String) (hax : A = axis.getD (keys s))
    (hA : A.Nodup) (hAs : A ⊆ keys s) (hne : ∀ ax ∈ keys s, get? s ax ≠ some 0)
    (hqn : GoodFor valid a.nominal A q.nominal) (hqd : GoodFor valid a.distribution A q.distribution)
    (hqr : axisD ∉ q.nominal.axes) (hsam : get? a.distribution.shape axisD ≠ some 0) (kd : Bool) :
    ∃ r, percentile valid pct a q axis kd = .ok r ∧ r.Valid ∧
      (∀ ax, get? r.nominal.shape ax = if ax ∈ A then (if kd then some 1 else none)
        else if ax ∈ a.nominal.axes then get? a.nominal.shape ax else get? q.nominal.shape ax) ∧
      (∀ ax, get? r.distribution.shape ax = if ax ∈ A then (if kd then some 1 else none)
        else if ax ∈ a.distribution.axes then get? a.distribution.shape ax else get? q.distribution.shape ax) ∧
      (∀ e, ∃ l, Comp.SlabOf s A e l ∧ r.nominal.at' e = pct (q.nominal.at' e) (l.map a.nominal.atB)) ∧
      ∀ e, ∃ l, Comp.SlabOf s A e l ∧ r.distribution.at' e = pct (q.distribution.at' e) (l.map a.distribution.atB) := by
  obtain ⟨h1, h2⟩ := norm_ok ha har
  have hsh := shape_norm ha har hs
  obtain ⟨hD, hDs, hw, _, _, _, ⟨v, v1, v2, v3, v4, v5⟩, ⟨w, w1, w2, w3, w4, w5⟩⟩ := extend_both h2 hsh hAs
  obtain ⟨hn0, hd0⟩ := nonempty_components h2 hsh hne hsam
  obtain ⟨r, r1, r2, r3, r4, r5⟩ := percentile_component (pct := pct) hA hAs hne hn0 kd hqn v2 v3 h2.1 v4 v5
  obtain ⟨d, d1, d2, d3, d4, d5⟩ := percentile_component (pct := pct) hA hAs hne hd0 kd hqd w2 w3 h2.2.1 w4 w5
  have hDr : axisD ∉ r.axes := by
    intro h
    rcases r3 _ h with h | h | h
    · exact hD h
    · exact h2.2.2 h
    · exact hqr h
  refine ⟨⟨r, d⟩, ?_, ⟨r2, d2, hDr⟩, r4, d4, r5, d5⟩
  unfold percentile
  have hall : (axis.isSome && !((axis.getD (keys s)).all (· ∈ keys s))) = false := by
    rw [← hax]
    have : A.all (· ∈ keys s) = true := by
      rw [List.all_eq_true]; intro x hx; simpa using hAs hx
    simp [this]
  simp only [bind, Except.bind, h1, hsh]
  rw [hall]
  simp only [Bool.false_eq_true, if_false]
  rw [← hax]
  simp only [v1, w1, r1, d1]
  exact mk?_of_valid r2 hDr

/-- **C84** (`np.percentile`, errors). An axis which the array lacks (also that of the samples) raises `ValueError`. -/
theorem C84_percentile_error (valid : κ → Bool) (pct : κ → List α → β) (a : UArg α) (ha : a.Ok) (har : ¬ a.Reserved) (s : Shape)
    (hs : a.shape = .ok s) (q : UArg κ) (A : List String) (hA : ¬ A ⊆ keys s) (kd : Bool) :
    percentile valid pct a q (some A) kd = .error .valueError := by
  unfold percentile
  have : A.all (· ∈ keys s) = false := by
    rw [Bool.eq_false_iff]
    intro hh
    simp only [List.all_eq_true, decide_eq_true_eq] at hh
    exact hA (fun x hx => hh x hx)
  simp only [bind, Except.bind, (norm_ok ha har).1, shape_norm ha har hs, Option.getD_some, this]
  rfl

/-- **C84** (refuted for percentiles with samples). The percentiles, with samples, of any array with samples raise `ValueError`:
each component of `q` must not share an axis with that of the array, but the samples of both are along the same axis. -/
theorem C84_percentile_refuted (valid : κ → Bool) (pct : κ → List α → β) (u : UA α) (hu : u.Valid) (s : Shape)
    (hs : u.shape = .ok s) (q : UA κ) (hq : q.Valid) (axis : Option (List String))
    (A : List String) (hax : A = axis.getD (keys s)) (hA : A.Nodup) (hAs : A ⊆ keys s) (hne : ∀ ax ∈ keys s, get? s ax ≠ some 0)
    (hqn : GoodFor valid u.nominal A q.nominal) (kd : Bool)
    (hsam : get? u.distribution.shape axisD ≠ some 0)
    (hus : axisD ∈ u.distribution.axes) (hqs : axisD ∈ q.distribution.axes) :
    percentile valid pct (.unc u) (.unc q) axis kd = .error .valueError := by
  obtain ⟨hD, hDs, hw, _, _, _, ⟨v, v1, v2, v3, v4, v5⟩, ⟨w, w1, w2, w3, w4, w5⟩⟩ := extend_both hu hs hAs
  obtain ⟨r, r1, r2, r3, r4, r5⟩ := percentile_component (pct := pct) hA hAs hne (nonempty_components hu hs hne hsam).1 kd hqn v2 v3 hu.1 v4 v5
  have hd := SA.C81_error valid pct w q.distribution hq.2.1 A kd none
    (.inr (.inr (.inl ⟨axisD, (w4 _).2 (.inr hus), hqs⟩)))
  unfold percentile
  have hall : (axis.isSome && !((axis.getD (keys s)).all (· ∈ keys s))) = false := by
    rw [← hax]
    have : A.all (· ∈ keys s) = true := by
      rw [List.all_eq_true]; intro x hx; simpa using hAs hx
    simp [this]
  have hnorm : norm (.unc u) = .ok u := rfl
  simp only [bind, Except.bind, hnorm, hs]
  rw [hall]
  simp only [Bool.false_eq_true, if_false]
  rw [← hax]
  simp only [v1, w1, UArg.nominal, UArg.distribution, r1, hd]

/-! ### Fourier transforms -/

/-- **C84** (`np.fft.fft`, ...). A transform along `x` with the new name `y` transforms the nominal value and every sample along
all `m` positions of the axis, also if only one of the two depends on it. -/
theorem C84_fft (t : ND.Line α) (u : UA α) (hu : u.Valid) (s : Shape) (hs : u.shape = .ok s) (x y : String) (m : Nat)
    (hx : get? s x = some m) (hy : y = x ∨ (y ∉ keys s ∧ y ≠ axisD)) (n : Option Nat) (N : Nat)
    (hN : N = n.getD (t.default m)) (hpos : 1 ≤ N) :
    ∃ r, u.fft t (x, y) n = .ok r ∧ r.Valid ∧
      (∀ ax, get? r.nominal.shape ax =
        if ax = y then some (t.size N) else if ax = x then none else get? u.nominal.shape ax) ∧
      (∀ ax, get? r.distribution.shape ax =
        if ax = y then some (t.size N) else if ax = x then none else get? u.distribution.shape ax) ∧
      ∀ e, r.nominal.at' e = t.fn N (lineB u.nominal x m e) (e y) ∧
        r.distribution.at' e = t.fn N (lineB u.distribution x m e) (e y) := by
  have hxs : x ∈ keys s := mem_keys_of_get? hx
  obtain ⟨hD, hDs, hw, hn', hd', _, ⟨v, v1, v2, v3, v4, v5⟩, ⟨w, w1, w2, w3, w4, w5⟩⟩ :=
    extend_both hu hs (A := [x]) (by simpa using hxs)
  have key : ∀ (c v : SA α), v.WF → (∀ ax, get? v.shape ax = if ax ∈ [x] then get? s ax else get? c.shape ax) →
      (∀ ax, ax ∈ v.axes ↔ ax ∈ [x] ∨ ax ∈ c.axes) → (∀ ax, ax ∈ c.axes → ax = axisD ∨ ax ∈ keys s) →
      (∀ e, v.at' e = c.atB e) →
      ∃ r, v.fftLike t (x, y) n = .ok r ∧ r.WF ∧ (∀ ax, ax ∈ r.axes → ax = y ∨ ax ∈ c.axes) ∧
      (∀ ax, get? r.shape ax = if ax = y then some (t.size N) else if ax = x then none else get? c.shape ax) ∧
      ∀ e, r.at' e = t.fn N (lineB c x m e) (e y) := by
    intro c v g1 g2 g3 g4 g5
    obtain ⟨r, r1, r2, r3, r4, r5, r6, r7⟩ := SA.C82_fft t v g1 x y m (by rw [g2]; simp [hx]) (by
      rcases hy with hy | ⟨hy, hyD⟩
      · exact .inl hy
      · refine .inr fun h => ?_
        rcases (g3 y).1 h with h | h
        · rw [List.mem_singleton] at h; exact hy (h ▸ hxs)
        · rcases g4 y h with h | h
          · exact hyD h
          · exact hy h) n N hN hpos
    refine ⟨r, r1, r2, fun ax hax => ?_, fun ax => ?_, fun e => ?_⟩
    · rw [r3, List.mem_map] at hax
      obtain ⟨ax', h1, h2⟩ := hax
      split at h2
      · exact .inl h2.symm
      · next h =>
        subst h2
        rcases (g3 ax').1 h1 with h' | h'
        · exact absurd (List.mem_singleton.1 h') h
        · exact .inr h'
    · by_cases h1 : ax = y
      · subst h1; rw [if_pos rfl]; exact r4
      · rw [if_neg h1]
        by_cases h2 : ax = x
        · subst h2; rw [if_pos rfl]; exact r6 (Ne.symm h1)
        · rw [if_neg h2, r5 ax h2 h1, g2, if_neg (by simpa using h2)]
    · rw [r7]
      unfold SA.lineAlong lineB
      simp only [g5]
  obtain ⟨a, a1, a2, a3, a4, a5⟩ := key u.nominal v v2 v3 v4 (fun ax h => .inr (hn' ax h)) v5
  obtain ⟨b, b1, b2, b3, b4, b5⟩ := key u.distribution w w2 w3 w4 hd' w5
  have hDa : axisD ∉ a.axes := by
    intro h
    rcases a3 _ h with h | h
    · rcases hy with hy | ⟨_, hy⟩
      · exact hDs (by rw [h, hy]; exact hxs)
      · exact hy h.symm
    · exact hu.2.2 h
  refine ⟨⟨a, b⟩, ?_, ⟨a2, b2, hDa⟩, a4, b4, fun e => ⟨a5 e, b5 e⟩⟩
  unfold fft
  simp only [bind, Except.bind, hs, hxs, not_true_eq_false, if_false, v1, w1, a1, b1]
  exact mk?_of_valid a2 hDa

/-- **C84** (`np.fft.fft`, errors). An axis which the array lacks (also that of the samples), no points, and a new name which
another axis of the array has, or which is reserved for the samples, raise `ValueError`. -/
theorem C84_fft_error (t : ND.Line α) (u : UA α) (hu : u.Valid) (s : Shape) (hs : u.shape = .ok s) (x y : String) (n : Option Nat)
    (h : x ∉ keys s ∨ n = some 0 ∨ (y ≠ x ∧ y ∈ keys s) ∨ y = axisD) : u.fft t (x, y) n = .error .valueError := by
  unfold fft
  simp only [bind, Except.bind, hs]
  by_cases hx : x ∈ keys s
  swap
  · simp [hx]
  obtain ⟨hD, hDs, hw, hn', hd', hnd, ⟨v, v1, v2, v3, v4, v5⟩, ⟨w, w1, w2, w3, w4, w5⟩⟩ :=
    extend_both hu hs (A := [x]) (by simpa using hx)
  simp only [hx, not_true_eq_false, if_false, v1, w1]
  have only : ∀ c : SA α, c.WF → get? c.shape x = get? s x → (∃ r, c.fftLike t (x, y) n = .ok r) ∨ c.fftLike t (x, y) n = .error .valueError := by
    intro c hc hcx
    obtain ⟨m, hm⟩ := exists_get?_of_mem hx
    by_cases hN : 1 ≤ n.getD (t.default m)
    · by_cases hy : y = x ∨ y ∉ c.axes
      · obtain ⟨r, hr, _⟩ := SA.C82_fft t c hc x y m (by rw [hcx, hm]) hy n _ rfl hN
        exact .inl ⟨r, hr⟩
      · exact .inr (SA.C82_fft_error t c hc x y n (.inr (.inr ⟨fun h => hy (.inl h), by
          by_contra h; exact hy (.inr h)⟩)))
    · right
      have hxc : x ∈ c.axes := by rw [← SA.keys_shape hc]; exact mem_keys_of_get? (hcx.trans hm)
      have hsz : c.nd.shape.getD (c.axes.idxOf x) 0 = m := by
        have := SA.get?_shape_of_mem hc hxc
        rw [hcx, hm] at this
        injection this with this
        exact this.symm
      unfold SA.fftLike
      simp only [SA.pyTupleIndex, if_pos hxc, bind, Except.bind, ND.fft1, hsz]
      rw [if_pos (by omega)]
  rcases only v v2 (by rw [v3]; simp) with ⟨a, ha⟩ | ha
  swap
  · rw [ha]
  rw [ha]
  dsimp only
  rcases only w w2 (by rw [w3]; simp) with ⟨b, hb⟩ | hb
  swap
  · rw [hb]
  rw [hb]
  dsimp only
  have ok : ∀ c r : SA α, c.WF → c.fftLike t (x, y) n = .ok r → ¬ (x ∉ c.axes ∨ n = some 0 ∨ (y ≠ x ∧ y ∈ c.axes)) := by
    intro c r hc hr hh
    rw [SA.C82_fft_error t c hc x y n hh] at hr
    cases hr
  have oka := ok v a v2 ha
  have okb := ok w b w2 hb
  rcases h with h | h | ⟨h1, h2⟩ | h
  · exact absurd hx h
  · exact absurd (.inr (.inl h)) oka
  · rcases hnd y h2 with h3 | h3
    · exact absurd (.inr (.inr ⟨h1, (v4 y).2 (.inr h3)⟩)) oka
    · exact absurd (.inr (.inr ⟨h1, (w4 y).2 (.inr h3)⟩)) okb
  · subst h
    have hxv : x ∈ v.axes := (v4 x).2 (.inl (by simp))
    have hxD : axisD ≠ x := fun h => hDs (h ▸ hx)
    obtain ⟨m, hm⟩ := exists_get?_of_mem hx
    have hN : 1 ≤ n.getD (t.default m) := by
      by_contra hN
      have hsz : v.nd.shape.getD (v.axes.idxOf x) 0 = m := by
        have := SA.get?_shape_of_mem v2 hxv
        rw [v3, if_pos (by simp), hm] at this
        injection this with this
        exact this.symm
      have : v.fftLike t (x, axisD) n = .error .valueError := by
        unfold SA.fftLike
        simp only [SA.pyTupleIndex, if_pos hxv, bind, Except.bind, ND.fft1, hsz]
        rw [if_pos (by omega)]
      rw [this] at ha; cases ha
    obtain ⟨r, r1, r2, r3, _⟩ := SA.C82_fft t v v2 x axisD m (by rw [v3]; simp [hm]) (by
      by_contra hh
      rw [not_or, not_not] at hh
      exact oka (.inr (.inr hh))) n _ rfl hN
    rw [r1] at ha
    injection ha with ha
    subst ha
    unfold mk?
    rw [if_pos]
    rw [SA.keys_shape r2, r3, List.mem_map]
    exact ⟨x, hxv, by simp⟩

/-- The number of points `N` for every transformed axis of an array of shape `s`, by default its size. -/
def PointsIn (s : Shape) (axes : Dict String) (sizes : Option (Dict Nat)) (N : String → Nat) : Prop :=
  match sizes with
  | none => ∀ ax ∈ axes.keys, get? s ax = some (N ax)
  | some d => (∀ ax, ax ∈ d.keys ↔ ax ∈ axes.keys) ∧ ∀ ax ∈ axes.keys, get? d ax = some (N ax)

/-- Specification: the Fourier sum over the slab of the component `c` of an array of shape `s` along the listed axes. -/
def IsFourierSum {K : Type} [CommRing K] (w : Nat → Nat → Nat → K) (s : Shape) (axes : Dict String) (N : String → Nat) (c : SA K)
    (e : String → Nat) (z : K) : Prop :=
  ∀ l, Comp.SlabOf s axes.keys (fun ax => e (SA.renamed axes ax)) l →
    z = (l.map (fun i =>
      (axes.keys.map (fun ax => SA.coefficient w (N ax) (e (SA.renamed axes ax)) (i ax))).prod * c.atB i)).sum

/-- **C84** (`np.fft.fftn`, `np.fft.ifftn`). Every listed axis is renamed and gets the requested number of points in both
components, and the nominal value and every sample are transformed along all listed axes of the array. -/
theorem C84_fftn {K : Type} [CommRing K] (w : Nat → Nat → Nat → K) (u : UA K) (hu : u.Valid) (s : Shape) (hs : u.shape = .ok s)
    (axes : Dict String) (hd : axes.WF) (hsub : axes.keys ⊆ keys s) (sizes : Option (Dict Nat)) (N : String → Nat)
    (hp : PointsIn s axes sizes N) (hN : ∀ ax ∈ axes.keys, 1 ≤ N ax)
    (hnew : ∀ a ∈ axisD :: keys s, ∀ b ∈ axisD :: keys s, SA.renamed axes a = SA.renamed axes b → a = b) :
    ∃ r, u.fftn (ND.fftnPlan (ND.dft w)) axes sizes = .ok r ∧ r.Valid ∧
      (∀ x, x ∈ r.nominal.axes ↔ ∃ ax, (ax ∈ axes.keys ∨ ax ∈ u.nominal.axes) ∧ SA.renamed axes ax = x) ∧
      (∀ x, x ∈ r.distribution.axes ↔ ∃ ax, (ax ∈ axes.keys ∨ ax ∈ u.distribution.axes) ∧ SA.renamed axes ax = x) ∧
      (∀ ax, ax ∈ axes.keys ∨ ax ∈ u.nominal.axes → get? r.nominal.shape (SA.renamed axes ax) =
        if ax ∈ axes.keys then some (N ax) else get? u.nominal.shape ax) ∧
      (∀ ax, ax ∈ axes.keys ∨ ax ∈ u.distribution.axes → get? r.distribution.shape (SA.renamed axes ax) =
        if ax ∈ axes.keys then some (N ax) else get? u.distribution.shape ax) ∧
      ∀ e, IsFourierSum w s axes N u.nominal e (r.nominal.at' e) ∧
        IsFourierSum w s axes N u.distribution e (r.distribution.at' e) := by
  obtain ⟨hD, hDs, hw, hn', hd', _, ⟨v, v1, v2, v3, v4, v5⟩, ⟨v', w1, w2, w3, w4, w5⟩⟩ := extend_both hu hs hsub
  have hrD : SA.renamed axes axisD = axisD := by
    unfold SA.renamed
    rw [get?_eq_none.2 hD]; rfl
  have key : ∀ (c v : SA K), v.WF → (∀ ax, get? v.shape ax = if ax ∈ axes.keys then get? s ax else get? c.shape ax) →
      (∀ ax, ax ∈ v.axes ↔ ax ∈ axes.keys ∨ ax ∈ c.axes) → (∀ ax, ax ∈ c.axes → ax = axisD ∨ ax ∈ keys s) →
      (∀ e, v.at' e = c.atB e) →
      ∃ r, v.fftnLike (ND.fftnPlan (ND.dft w)) axes sizes = .ok r ∧ r.WF ∧
      (∀ x, x ∈ r.axes ↔ ∃ ax, (ax ∈ axes.keys ∨ ax ∈ c.axes) ∧ SA.renamed axes ax = x) ∧
      (∀ ax, ax ∈ axes.keys ∨ ax ∈ c.axes → get? r.shape (SA.renamed axes ax) =
        if ax ∈ axes.keys then some (N ax) else get? c.shape ax) ∧
      ∀ e, IsFourierSum w s axes N c e (r.at' e) := by
    intro c v g1 g2 g3 g4 g5
    have hin : ∀ ax ∈ v.axes, ax ∈ axisD :: keys s := by
      intro ax hax
      rcases (g3 ax).1 hax with h | h
      · exact List.mem_cons_of_mem _ (hsub h)
      · rcases g4 ax h with h | h
        · rw [h]; exact List.mem_cons_self
        · exact List.mem_cons_of_mem _ h
    obtain ⟨r, r1, r2, r3, r4, r5⟩ := SA.C82_fftn w v g1 axes hd (fun ax h => (g3 ax).2 (.inl h)) sizes N (by
      unfold SA.Points
      unfold PointsIn at hp
      cases sizes with
      | none =>
        intro ax hax
        rw [g2, if_pos hax]
        exact hp ax hax
      | some d => exact hp) hN (List.Nodup.map_on (fun a ha b hb h => hnew a (hin a ha) b (hin b hb) h) g1.2)
    refine ⟨r, r1, r2, fun x => ?_, fun ax hax => ?_, fun e l hl => ?_⟩
    · rw [r3, List.mem_map]
      simp only [g3]
    · rw [r4 ax ((g3 ax).2 hax)]
      by_cases h : ax ∈ axes.keys
      · rw [if_pos h, if_pos h]
      · rw [if_neg h, if_neg h, g2, if_neg h]
    · rw [r5 e l]
      · simp only [g5]
      · refine ⟨hl.1, fun e' => ?_⟩
        rw [hl.2 e']
        have : (∀ ax ∈ axes.keys, ∃ n, get? v.shape ax = some n ∧ e' ax < n) ↔
            ∀ ax ∈ axes.keys, ∃ n, get? s ax = some n ∧ e' ax < n := by
          refine forall₂_congr fun ax h => ?_
          rw [g2, if_pos h]
        rw [this]
  obtain ⟨a, a1, a2, a3, a4, a5⟩ := key u.nominal v v2 v3 v4 (fun ax h => .inr (hn' ax h)) v5
  obtain ⟨b, b1, b2, b3, b4, b5⟩ := key u.distribution v' w2 w3 w4 hd' w5
  have hDa : axisD ∉ a.axes := by
    intro h
    obtain ⟨ax, h1, h2⟩ := (a3 _).1 h
    have h3 : ax ∈ keys s := by
      rcases h1 with h1 | h1
      · exact hsub h1
      · exact hn' ax h1
    have := hnew ax (List.mem_cons_of_mem _ h3) axisD List.mem_cons_self (h2.trans hrD.symm)
    exact hDs (this ▸ h3)
  refine ⟨⟨a, b⟩, ?_, ⟨a2, b2, hDa⟩, a3, b3, a4, b4, fun e => ⟨a5 e, b5 e⟩⟩
  unfold fftn
  simp only [bind, Except.bind, hs]
  rw [if_neg (not_not.2 hsub)]
  simp only [v1, w1, a1, b1]
  exact mk?_of_valid a2 hDa

/-- **C84** (`np.fft.fftn`, ..., errors). Listing an axis which the array lacks (also that of the samples), and sizes for other
axes than the listed ones, raise `ValueError`. -/
theorem C84_fftn_error (plan : List (Nat × Nat) → R (List (ND.Step α))) (u : UA α) (hu : u.Valid) (s : Shape) (hs : u.shape = .ok s)
    (axes : Dict String) (sizes : Option (Dict Nat))
    (h : ¬ axes.keys ⊆ keys s ∨ ∃ d, sizes = some d ∧ ∃ ax, ¬ (ax ∈ d.keys ↔ ax ∈ axes.keys)) :
    u.fftn plan axes sizes = .error .valueError := by
  unfold fftn
  simp only [bind, Except.bind, hs]
  by_cases hsub : axes.keys ⊆ keys s
  · obtain ⟨hD, hDs, hw, hn', hd', _, ⟨v, v1, v2, v3, v4, v5⟩, ⟨v', w1, w2, w3, w4, w5⟩⟩ := extend_both hu hs hsub
    rw [if_neg (not_not.2 hsub)]
    simp only [v1, w1]
    rw [SA.C82_fftn_error plan v v2 axes sizes (.inr (h.resolve_left (not_not.2 hsub)))]
  · rw [if_pos hsub]

/-! ### Nonzero elements -/

theorem lex_irrefl (l : List Nat) : ¬ List.Lex (· < ·) l l := by
  induction l with
  | nil => intro h; cases h
  | cons a l ih =>
    intro h
    cases h with
    | rel h => omega
    | cons h => exact ih h

/-- The products of the samples. -/
theorem samples_prod {u : UA α} (hu : u.Valid) {prod : List α → α} (hprod : SA.Orderless prod) {K : Nat}
    (hK : get? u.distribution.shape axisD = some K) :
    ∃ p, u.distribution.reduce false prod (some [axisD]) false none none = .ok p ∧ p.WF ∧
      (∀ ax, get? p.shape ax = if ax = axisD then none else get? u.distribution.shape ax) ∧
      ∀ e, p.atB e = prod ((List.range K).map (fun k => u.distribution.atB (Function.update e axisD k))) := by
  have hDd : axisD ∈ u.distribution.axes := by rw [← SA.keys_shape hu.2.1]; exact mem_keys_of_get? hK
  have hwo : SA.WhereOk u.distribution none := by intro w h; cases h
  obtain ⟨p, p1, p2, _, p4, _⟩ := SA.C17_reduce u.distribution hu.2.1 none hwo [axisD] (by simp)
    (by simpa using hDd) false prod false (by simp)
  have hps : ∀ ax, get? p.shape ax = if ax = axisD then none else get? u.distribution.shape ax := by
    intro ax; rw [p4]; simp
  refine ⟨p, p1, p2, hps, fun e => ?_⟩
  show p.at' (SA.clipEnv p.shape e) = _
  rw [SA.C17_reduce_orderless u.distribution hu.2.1 none hwo [axisD] (by simp) (by simpa using hDd) false prod hprod false p p1 _
    ((List.range K).map (fun k => Function.update (SA.clipEnv p.shape e) axisD k)) ⟨?_, ?_⟩]
  · congr 1
    have : ∀ l : List (String → Nat), l.filter (SA.selected none) = l := fun l =>
      List.filter_eq_self.2 fun _ _ => rfl
    rw [this, List.map_map]
    refine List.map_congr_left fun k hk => ?_
    show _ = u.distribution.at' (SA.clipEnv u.distribution.shape (Function.update e axisD k))
    apply SA.at'_congr
    intro ax _
    unfold SA.clipEnv
    by_cases h : ax = axisD
    · subst h
      simp only [Function.update_self, hK]
      split
      · next h1 => injection h1 with h1; rw [List.mem_range] at hk; omega
      · rfl
    · simp only [Function.update_of_ne h, hps, if_neg h]
  · refine List.Nodup.map_on ?_ List.nodup_range
    intro i _ j _ hij
    have := congrFun hij axisD
    simpa using this
  · intro e'
    simp only [List.mem_map, List.mem_range, List.mem_singleton, forall_eq, hK]
    constructor
    · rintro ⟨k, hk, rfl⟩
      exact ⟨⟨K, rfl, by simpa using hk⟩, fun ax h => by simp [h]⟩
    · rintro ⟨⟨n, hn, h⟩, h'⟩
      cases hn
      refine ⟨e' axisD, h, ?_⟩
      funext ax
      by_cases hx : ax = axisD
      · subst hx; simp
      · simp [hx, h' ax hx]

/-- **C84** (`np.nonzero`, part which holds). For an array with `K` samples, in an arithmetic in which a product is nonzero exactly
if all factors are, the result enumerates, each once, the named indices at which the nominal value and all samples are nonzero.
(What is missing: arrays whose samples are all equal, without the axis of the samples, see `C84_nonzero_refuted`.) -/
theorem C84_nonzero_partial (isNonzero : α → Bool) (mul : α → α → α) (prod : List α → α) (hprod : SA.Orderless prod)
    (hmul : ∀ a l, isNonzero (mul a (prod l)) = (isNonzero a && l.all isNonzero))
    (u : UA α) (hu : u.Valid) (s : Shape) (hs : u.shape = .ok s) (hne : s ≠ []) (K : Nat)
    (hK : get? u.distribution.shape axisD = some K) :
    ∃ (d : Dict (SA Int)) (name : String) (n : Nat) (sel : Nat → String → Nat), u.nonzero isNonzero mul prod = .ok d ∧
      (∀ ax, ax ∈ keys d ↔ ax ∈ keys s) ∧
      (∀ ax ∈ keys s, ∃ b, get? d ax = some b ∧ b.WF ∧ b.shape = [(name, n)] ∧
        ∀ e, e name < n → b.at' e = (sel (e name) ax : Int)) ∧
      (∀ k < n, InRange s (sel k) ∧ isNonzero (u.nominal.atB (sel k)) = true ∧
        ∀ j < K, isNonzero (u.distribution.atB (Function.update (sel k) axisD j)) = true) ∧
      (∀ k < n, ∀ k' < n, (∀ ax ∈ keys s, sel k ax = sel k' ax) → k = k') ∧
      (∀ e, InRange s e → isNonzero (u.nominal.atB e) = true →
        (∀ j < K, isNonzero (u.distribution.atB (Function.update e axisD j)) = true) →
        ∃ k < n, ∀ ax ∈ keys s, sel k ax = e ax) := by
  obtain ⟨p, p1, p2, p3, p4⟩ := samples_prod hu hprod hK
  rcases shape_cases hu with ⟨_, _, h⟩ | ⟨hcl, t, s', sd, h1, h2, h3, _, h⟩
  · rw [h] at hs; cases hs
  have : s' = s := by rw [h.shape] at hs; cases hs; rfl
  subst this
  have hwq : ∀ q ∈ [u.nominal.shape, u.distribution.shape], WF q := by
    simp [SA.wf_shape hu.1, SA.wf_shape hu.2.1]
  have hwp : ∀ q ∈ [u.nominal.shape, p.shape], WF q := by
    simp [SA.wf_shape hu.1, SA.wf_shape p2]
  have hDn : get? u.nominal.shape axisD = none := get?_eq_none.2 (by rw [SA.keys_shape hu.1]; exact hu.2.2)
  have hsize : ∀ ax, ax ≠ axisD → ∀ n, HasSize [u.nominal.shape, p.shape] ax n ↔ HasSize [u.nominal.shape, u.distribution.shape] ax n := by
    intro ax hax n
    unfold HasSize
    simp only [List.mem_cons, List.not_mem_nil, or_false, exists_eq_or_imp, exists_eq_left, p3, if_neg hax]
  obtain ⟨v', hv'⟩ : ∃ v', broadcastShapes [u.nominal.shape, p.shape] = .ok v' := by
    cases hb : broadcastShapes [u.nominal.shape, p.shape] with
    | ok r => exact ⟨r, rfl⟩
    | error e =>
      obtain ⟨ax, m, n, hm, hn, hr⟩ := (C01_broadcast_shapes_error_iff _ hwp).1 ⟨e, hb⟩
      by_cases hax : ax = axisD
      · subst hax
        obtain ⟨q, hq, hqm⟩ := hm
        simp only [List.mem_cons, List.not_mem_nil, or_false] at hq
        rcases hq with rfl | rfl
        · rw [hDn] at hqm; cases hqm
        · rw [p3, if_pos rfl] at hqm; cases hqm
      · exact absurd ⟨ax, m, n, (hsize ax hax m).1 hm, (hsize ax hax n).1 hn, hr⟩ hcl
  obtain ⟨v, hv⟩ := SA.ufunc2_isOk hu.1 p2 hv' mul
  obtain ⟨v1, v2, v3⟩ := SA.ufunc2_ok hu.1 p2 hv
  have hget : ∀ ax, get? v.shape ax = get? s' ax := by
    intro ax
    by_cases hax : ax = axisD
    · subst hax
      rw [get?_eq_none.2 h.noD]
      refine get?_eq_none.2 fun hh => ?_
      obtain ⟨q, hq, hqm⟩ := ((C01_broadcast_shapes_ok _ hwp _ v2).2.1 _).1 hh
      simp only [List.mem_cons, List.not_mem_nil, or_false] at hq
      rcases hq with rfl | rfl
      · exact (get?_eq_none.1 hDn) hqm
      · exact (get?_eq_none.1 (by rw [p3, if_pos rfl])) hqm
    · rw [h3, get?_erase, if_neg (Ne.symm hax)]
      exact get?_bs_unique hwp hwq v2 h1 (hsize ax hax)
  have hmem : ∀ ax, ax ∈ v.axes ↔ ax ∈ keys s' := by
    intro ax
    rw [← SA.keys_shape v1, ← not_iff_not, ← get?_eq_none, ← get?_eq_none, hget]
  have hvne : v.axes ≠ [] := by
    intro hh
    cases s' with
    | nil => exact hne rfl
    | cons q l =>
      have := (hmem q.1).2 (by simp [keys])
      rw [hh] at this
      cases this
  have hin : ∀ e, InRange v.shape e ↔ InRange s' e := by
    intro e
    unfold InRange
    simp only [hget]
  have hnz : ∀ e, isNonzero (v.at' e) = true ↔ isNonzero (u.nominal.atB e) = true ∧
      ∀ j < K, isNonzero (u.distribution.atB (Function.update e axisD j)) = true := by
    intro e
    rw [v3, p4, hmul, Bool.and_eq_true, List.all_map, List.all_eq_true]
    simp only [List.mem_range, Function.comp]
  obtain ⟨d, n, sel, d1, d2, d3, d4, d5, d6⟩ := SA.C22_nonzero_partial v v1 hvne isNonzero
  refine ⟨d, "*".intercalate v.axes, n, sel, ?_, ?_, ?_, ?_, ?_, ?_⟩
  · unfold nonzero
    simp only [bind, Except.bind, p1, hv]
    exact d1
  · intro ax; rw [d2, hmem]
  · intro ax hax; exact d3 ax ((hmem ax).2 hax)
  · intro k hk
    obtain ⟨g1, g2⟩ := d4 k hk
    exact ⟨(hin _).1 g1, (hnz _).1 g2⟩
  · intro k hk k' hk' heq
    have he : v.axes.map (sel k) = v.axes.map (sel k') :=
      List.map_congr_left fun ax hax => heq ax ((hmem ax).1 hax)
    rcases Nat.lt_trichotomy k k' with hlt | hlt | hlt
    · have := d5 k k' hlt hk'
      rw [he] at this
      exact absurd this (lex_irrefl _)
    · exact hlt
    · have := d5 k' k hlt hk
      rw [he] at this
      exact absurd this (lex_irrefl _)
  · intro e he h1 h2
    obtain ⟨k, hk, g⟩ := d6 e ((hin e).2 he) ((hnz e).2 ⟨h1, h2⟩)
    exact ⟨k, hk, fun ax hax => g ax ((hmem ax).2 hax)⟩

/-- **C84** (`np.nonzero`, refuted without the axis of the samples). Any array with a distribution without the axis of the samples,
such as `na.UncertainScalarArray(a, a)`, raises `ValueError`. -/
theorem C84_nonzero_refuted (isNonzero : α → Bool) (mul : α → α → α) (prod : List α → α) (u : UA α) (hu : u.Valid)
    (hD : axisD ∉ u.distribution.axes) : u.nonzero isNonzero mul prod = .error .valueError := by
  unfold nonzero
  rw [SA.C17_error u.distribution hu.2.1 none (by intro w h; cases h) [axisD] false prod false (.inl (by simpa using hD))]
  rfl

/-! ### Examples -/

/-- A nominal value along `"x"` with three samples for each of two positions along `"y"`. -/
def exAcross : UA Int := ⟨⟨["x"], ND.ofList [2] [1, 2] 0⟩, ⟨[axisD, "y"], ND.ofList [3, 2] [1, 2, 0, 4, 5, 6] 0⟩⟩

def exAcrossShape : Shape := [("x", 2), ("y", 2)]

theorem exAcross_valid : exAcross.Valid := ⟨⟨rfl, by decide⟩, ⟨rfl, by decide⟩, by decide⟩

theorem exAcross_shape : exAcross.shape = .ok exAcrossShape := by rfl

/-- cumulative sums along an axis which only the nominal value has: the samples are repeated along it -/
example : ∃ r, exAcross.cumulative List.sum (some ["x"]) = .ok r ∧ r.Valid ∧
    (∀ x, get? r.nominal.shape x = if x = "x" then some 2 else get? exAcross.nominal.shape x) ∧
    (∀ x, get? r.distribution.shape x = if x = "x" then some 2 else get? exAcross.distribution.shape x) ∧
    ∀ e, e "x" < 2 → r.nominal.at' e = (upTo exAcross.nominal "x" e).sum ∧
      r.distribution.at' e = (upTo exAcross.distribution "x" e).sum :=
  C84_cumulative List.sum exAcross exAcross_valid _ exAcross_shape (some ["x"]) "x" rfl 2 rfl

example : (exAcross.cumulative List.sum (some ["x"])).map (fun r => (r.nominal.axes, r.nominal.nd.toList, r.distribution.axes,
    r.distribution.nd.toList)) =
    .ok (["x"], [1, 3], [axisD, "y", "x"], [1, 2, 2, 4, 0, 0, 4, 8, 5, 10, 6, 12]) := by decide +kernel

example : exAcross.cumulative List.sum none = .error .valueError ∧
    exAcross.cumulative List.sum (some [axisD]) = .error .keyError :=
  ⟨(C84_cumulative_error _ _ exAcross_valid _ exAcross_shape none).1 (by decide),
    (C84_cumulative_error _ _ exAcross_valid _ exAcross_shape _).2 _ rfl (.inr rfl)⟩

/-- the medians along both axes -/
example : (percentile (fun _ => true) (fun (_ : Unit) (l : List Int) => (l.insertionSort (· ≤ ·)).getD (l.length / 2) 0)
    (.unc exAcross) (.plain (SA.scalar ())) none false).map (fun r => (r.nominal.axes, r.nominal.nd.toList, r.distribution.axes,
    r.distribution.nd.toList)) = .ok ([], [2], [axisD], [2, 4, 6]) := by decide +kernel

example : GoodFor (fun _ => true) (UArg.unc exAcross).nominal ["x", "y"] (SA.scalar ()) ∧
    GoodFor (fun _ => true) (UArg.unc exAcross).distribution ["x", "y"] (SA.scalar ()) :=
  ⟨⟨by constructor <;> decide, by decide, fun _ _ => by simp [SA.scalar], fun _ _ => rfl⟩,
    ⟨by constructor <;> decide, by decide, fun _ _ => by simp [SA.scalar], fun _ _ => rfl⟩⟩

/-- percentiles with samples -/
example : percentile (fun _ => true) (fun (_ : Unit) (l : List Int) => l.sum) (.unc exAcross)
    (.unc ⟨SA.scalar (), ⟨[axisD], ND.ofList [3] [(), (), ()] ()⟩⟩) none false = .error .valueError :=
  C84_percentile_refuted _ _ exAcross exAcross_valid _ exAcross_shape _
    ⟨⟨rfl, by decide⟩, ⟨rfl, by decide⟩, by decide⟩ none ["x", "y"] rfl (by decide) (by decide) (by decide)
    ⟨by constructor <;> decide, by decide, fun _ _ => by simp [SA.scalar], fun _ _ => rfl⟩ false (by decide) (by decide) (by decide)

/-- the transform with coefficients `1, 1; 1, -1` along `"x"` -/
example : (exAcross.fft (ND.dft (fun _ k j => if k = 1 ∧ j = 1 then -1 else 1)) ("x", "k") none).map
    (fun r => (r.nominal.axes, r.nominal.nd.toList, r.distribution.axes, r.distribution.nd.toList)) =
    .ok (["k"], [3, -1], [axisD, "y", "k"], [2, 0, 4, 0, 0, 0, 8, 0, 10, 0, 12, 0]) := by decide +kernel

example : (1 : Nat) ≤ (none : Option Nat).getD ((ND.dft (fun _ _ _ => (1 : Int))).default 2) ∧ "k" ∉ keys exAcrossShape ∧ "k" ≠ axisD := by
  decide

/-- transforms along both axes -/
example : (exAcross.fftn (ND.fftnPlan (ND.dft (fun _ k j => if k = 1 ∧ j = 1 then -1 else 1))) [("x", "k"), ("y", "l")] none).map
    (fun r => (r.nominal.axes, r.nominal.nd.toList, r.distribution.axes, r.distribution.nd.toList)) =
    .ok (["k", "l"], [6, 0, -2, 0], [axisD, "l", "k"], [6, 0, -2, 0, 8, 0, -8, 0, 22, 0, -2, 0]) := by decide +kernel

example : PointsIn exAcrossShape [("x", "k"), ("y", "l")] none (fun _ => 2) ∧
    ∀ a ∈ axisD :: keys exAcrossShape, ∀ b ∈ axisD :: keys exAcrossShape,
      SA.renamed [("x", "k"), ("y", "l")] a = SA.renamed [("x", "k"), ("y", "l")] b → a = b := by
  constructor
  · intro ax hax
    simp only [keys, List.map_cons, List.map_nil, List.mem_cons, List.not_mem_nil, or_false] at hax
    rcases hax with rfl | rfl <;> rfl
  · decide

/-- the nonzero elements: one sample is zero at `y = 0` -/
example : (exAcross.nonzero (· != 0) (· * ·) List.prod).map (fun d => d.map (fun p => (p.1, p.2.axes, p.2.nd.toList))) =
    .ok [("x", ["x*y"], [0, 1]), ("y", ["x*y"], [1, 1])] := by decide +kernel

theorem prod_orderless : SA.Orderless (List.prod : List Int → Int) := fun _ _ h => h.prod_eq

theorem prod_nonzero (a : Int) (l : List Int) : ((a * l.prod) != 0) = ((a != 0) && l.all (· != 0)) := by
  induction l with
  | nil => simp
  | cons b l ih =>
    rw [List.prod_cons, List.all_cons, mul_left_comm]
    have h : (b * (a * l.prod) != 0) = ((b != 0) && (a * l.prod != 0)) := by
      rw [Bool.eq_iff_iff]
      simp [not_or]
    rw [h, ih]
    cases (b != 0) <;> cases (a != 0) <;> rfl

example := C84_nonzero_partial (· != 0) (· * ·) _ prod_orderless prod_nonzero exAcross exAcross_valid _ exAcross_shape (by decide) 3 rfl

end UA
end NA
