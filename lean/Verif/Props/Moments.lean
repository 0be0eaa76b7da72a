import Verif.Stats.Moments
import Verif.Props.UncertainReduce
import Verif.Props.Trimmed
import Verif.Props.Units
import Verif.Props.OutWhere
import Verif.Props.LiftedKernels
import Verif.Uncertain.RootsLemmas

/-!
# C110: variance-to-mean ratio and root mean square
-/

namespace NA
open Dict
open SA (FitsIn InRange)

namespace SA
variable {α β γ : Type}

/-- Specification: the elements which a reduction of `a` sees at the named indices `l`: those which the mask selects. -/
def seen (a : SA α) (wh : Option (SA Bool)) (l : List (String → Nat)) : List α := (l.filter (selected wh)).map a.at'

theorem seen_perm (a : SA α) (wh : Option (SA Bool)) {l l' : List (String → Nat)} (h : l.Perm l') :
    (seen a wh l).Perm (seen a wh l') := (h.filter _).map _

theorem reduce_default {a : SA α} (ha : a.WF) {wh : Option (SA Bool)} (hw : WhereOk a wh) (need : Bool) (f : List α → β)
    (axis : Option (List String)) (kd : Bool) (out : Option (SA β)) :
    reduce need f a axis kd wh out = reduce need f a (some (axis.getD a.axes)) kd wh out := by
  cases axis with
  | none => exact C17_axis_none a ha wh hw need f kd out
  | some A => rfl

theorem reduce_seen {a : SA α} (ha : a.WF) {wh : Option (SA Bool)} (hw : WhereOk a wh) {axis : Option (List String)}
    (hA : (axis.getD a.axes).Nodup) (hAs : axis.getD a.axes ⊆ a.axes) (f : List α → β) (hf : Orderless f) (kd : Bool) :
    ∃ r, reduce false f a axis kd wh none = .ok r ∧ r.WF ∧
      (∀ ax, get? r.shape ax = if ax ∈ axis.getD a.axes then (if kd then some 1 else none) else get? a.shape ax) ∧
      ∀ e l, IsSlab a (axis.getD a.axes) e l → r.at' e = f (seen a wh l) := by
  rw [reduce_default ha hw]
  obtain ⟨r, h1, h2, _, h3, _⟩ := C17_reduce a ha wh hw _ hA hAs false f kd (by simp)
  exact ⟨r, h1, h2, h3, fun e l hl => C17_reduce_orderless a ha wh hw _ hA hAs false f hf kd r h1 e l hl⟩

/-- **C110** (scalars). The variance-to-mean ratio along the given axes (all axes by default) is, at every index of the other
axes, the variance divided by the mean of the same elements: those which agree with this index and which the mask selects. -/
theorem C110_vmr (a : SA α) (ha : a.WF) (wh : Option (SA Bool)) (hw : WhereOk a wh) (axis : Option (List String))
    (hA : (axis.getD a.axes).Nodup) (hAs : axis.getD a.axes ⊆ a.axes) (var mean : List α → β) (hvar : Orderless var)
    (hmean : Orderless mean) (div : β → β → γ) (kd : Bool) :
    ∃ r, vmr var mean div a axis kd wh = .ok r ∧ r.WF ∧
      (∀ ax, get? r.shape ax = if ax ∈ axis.getD a.axes then (if kd then some 1 else none) else get? a.shape ax) ∧
      ∀ e, InRange r.shape e → ∀ l, IsSlab a (axis.getD a.axes) e l →
        r.at' e = div (var (seen a wh l)) (mean (seen a wh l)) := by
  obtain ⟨v, v1, v2, v3, v4⟩ := reduce_seen ha hw hA hAs var hvar kd
  obtain ⟨m, m1, m2, m3, m4⟩ := reduce_seen ha hw hA hAs mean hmean kd
  have hm : NA.Full v.shape m := ⟨m2, fun ax => by rw [m3, v3]⟩
  have hv : NA.Full v.shape v := ⟨v2, fun _ => rfl⟩
  obtain ⟨r, r1, r2, r3⟩ := ufunc2_full div hv hm.fits
  refine ⟨r, ?_, r2.1, fun ax => by rw [r2.2, v3], fun e he l hl => ?_⟩
  · simp only [vmr, v1, m1, bind, Except.bind]
    exact r1
  · have hev : InRange v.shape e := fun ax n h => he ax n (by rw [r2.2]; exact h)
    have hem : InRange m.shape e := fun ax n h => he ax n (by rw [r2.2, ← hm.2]; exact h)
    rw [← atB_eq_at' r2.1 he, r3, atB_eq_at' v2 hev, atB_eq_at' m2 hem, v4 e l hl, m4 e l hl]

/-- **C110** (`out`). With an array `out` which has the shape of the result, with its axes in any order, `out` keeps its axes and
gets the elements of the result, by name. -/
theorem C110_vmr_out (a : SA α) (ha : a.WF) (wh : Option (SA Bool)) (hw : WhereOk a wh) (axis : Option (List String))
    (hA : (axis.getD a.axes).Nodup) (hAs : axis.getD a.axes ⊆ a.axes) (var mean : List α → β) (hvar : Orderless var)
    (hmean : Orderless mean) (div : β → β → β) (kd : Bool) (out : SA β) (ho : out.WF)
    (hos : ∀ ax, get? out.shape ax = if ax ∈ axis.getD a.axes then (if kd then some 1 else none) else get? a.shape ax) :
    ∃ r, vmrOut var mean div a axis kd wh out = .ok r ∧ r.WF ∧ r.axes = out.axes ∧ Dict.Same r.shape out.shape ∧
      ∀ e, InRange out.shape e → ∀ l, IsSlab a (axis.getD a.axes) e l →
        r.at' e = div (var (seen a wh l)) (mean (seen a wh l)) := by
  obtain ⟨v, v1, v2, v3, v4⟩ := reduce_seen ha hw hA hAs var hvar kd
  obtain ⟨m, m1, m2, m3, m4⟩ := reduce_seen ha hw hA hAs mean hmean kd
  have v1' := v1
  rw [reduce_default ha hw] at v1'
  obtain ⟨v', w1, w2, w3, w4, w5⟩ := C17_out a ha wh hw _ hA hAs false var hvar kd v v1' out ho
    (fun ax => by rw [hos, v3])
  rw [← reduce_default ha hw] at w1
  have hfit : FitsIn m.shape v'.shape := by
    intro ax n hn
    refine ⟨n, ?_, .inl rfl⟩
    rw [← w4 ax, v3, ← m3]
    exact hn
  rcases C79_in_place div v' m w3 m2 with ⟨_, r, r1, r2, r3, r4, r5⟩ | ⟨h, _⟩
  swap
  · exact absurd hfit h
  refine ⟨r, ?_, r2, r3.trans w2, fun ax => ?_, fun e he l hl => ?_⟩
  · simp only [vmrOut, w1, m1, bind, Except.bind]
    exact r1
  · rw [r4, ← w4 ax, v3, hos]
  · have hev : InRange v.shape e := fun ax n h => he ax n (by rw [hos, ← v3]; exact h)
    have hew : InRange v'.shape e := fun ax n h => hev ax n (by rw [w4 ax]; exact h)
    have hem : InRange m.shape e := fun ax n h => he ax n (by rw [hos, ← m3]; exact h)
    rw [r5 e hew, ← w5 e hev, atB_eq_at' m2 hem, v4 e l hl, m4 e l hl]

/-- **C110** (root mean square of scalars). `a.rms(axis)` is, at every index of the other axes, the root of the mean of the
squares of the elements which agree with this index and which the mask selects. -/
theorem C110_rms (a : SA α) (ha : a.WF) (wh : Option (SA Bool)) (hw : WhereOk a wh) (axis : Option (List String))
    (hA : (axis.getD a.axes).Nodup) (hAs : axis.getD a.axes ⊆ a.axes) (sq : α → β) (mean : List β → β)
    (hmean : Orderless mean) (root : β → γ) :
    ∃ r, rms sq mean root a axis wh = .ok r ∧ r.WF ∧
      (∀ ax, get? r.shape ax = if ax ∈ axis.getD a.axes then none else get? a.shape ax) ∧
      ∀ e l, IsSlab a (axis.getD a.axes) e l → r.at' e = root (mean ((seen a wh l).map sq)) := by
  obtain ⟨s, s1, s2, s3, s4⟩ := C07_ufunc1_values sq a ha
  have hax : s.axes = a.axes := by rw [← keys_shape s2, s3, keys_shape ha]
  obtain ⟨m, m1, m2, m3, m4⟩ := reduce_seen (axis := axis) s2 (wh := wh) (by
    intro w h; obtain ⟨h1, h2⟩ := hw w h; exact ⟨h1, by rw [s3]; exact h2⟩) (by rw [hax]; exact hA) (by rw [hax]; exact hAs)
    mean hmean false
  rw [hax] at m3 m4
  obtain ⟨r, r1, r2, r3, r4⟩ := C07_ufunc1_values root m m2
  refine ⟨r, ?_, r2, fun ax => ?_, fun e l hl => ?_⟩
  · simp only [rms, s1, m1, bind, Except.bind]
    exact r1
  · rw [r3, m3, s3]
    simp
  · rw [r4, m4 e l (by unfold IsSlab at hl ⊢; rw [s3]; exact hl)]
    unfold seen
    rw [List.map_map]
    congr 2
    exact List.map_congr_left fun e' _ => s4 e'

/-- **C110** (failure). An axis which the array lacks and an axis given twice raise `ValueError`. -/
theorem C110_error (a : SA α) (ha : a.WF) (wh : Option (SA Bool)) (hw : WhereOk a wh) (A : List String)
    (h : ¬ A ⊆ a.axes ∨ ¬ A.Nodup) :
    (∀ (var mean : List α → β) (div : β → β → γ) (kd : Bool), vmr var mean div a (some A) kd wh = .error .valueError) ∧
    ∀ (sq : α → β) (mean : List β → β) (root : β → γ), rms sq mean root a (some A) wh = .error .valueError := by
  constructor
  · intro var mean div kd
    have := C17_error a ha wh hw A false var kd (by rcases h with h | h; exacts [.inl h, .inr (.inl h)])
    simp only [vmr, this, bind, Except.bind]
  · intro sq mean root
    obtain ⟨s, s1, s2, s3, s4⟩ := C07_ufunc1_values sq a ha
    have hax : s.axes = a.axes := by rw [← keys_shape s2, s3, keys_shape ha]
    have := C17_error s s2 wh (by intro w h; obtain ⟨h1, h2⟩ := hw w h; exact ⟨h1, by rw [s3]; exact h2⟩) A false mean false
      (by rw [hax]; rcases h with h | h; exacts [.inl h, .inr (.inl h)])
    simp only [rms, s1, this, bind, Except.bind]

end SA

/-! ### Uncertain scalars -/

namespace UA
variable {α β γ : Type}

/-- Specification: the nominal values (the samples) which a reduction of `u` sees at the named indices `l`. -/
def seenNominal (u : UA α) (wh : Option (UArg Bool)) (l : List (String → Nat)) : List α :=
  (l.filter (SA.selected (wh.map UArg.nominal))).map u.nominal.atB

@[inherit_doc seenNominal]
def seenSamples (u : UA α) (wh : Option (UArg Bool)) (l : List (String → Nat)) : List α :=
  (l.filter (SA.selected (wh.map UArg.distribution))).map u.distribution.atB

theorem slabOf_perm {S : Shape} {A : List String} {e : String → Nat} {l l' : List (String → Nat)} (h : Comp.SlabOf S A e l)
    (h' : Comp.SlabOf S A e l') : l.Perm l' := by
  rw [List.perm_ext_iff_of_nodup h.1 h'.1]
  intro e'
  rw [h.2, h'.2]

theorem reduce_seen (u : UA α) (hu : u.Valid) (s : Shape) (hs : u.shape = .ok s) (axis : Option (List String))
    (hA : (reducedAxes s axis).Nodup) (hAs : reducedAxes s axis ⊆ keys s) (wh : Option (UArg Bool))
    (hw : MaskFits s u wh) (f : List α → β) (hf : SA.Orderless f) (kd : Bool) :
    ∃ r, u.reduce false f axis kd wh = .ok r ∧ r.Valid ∧
      (∀ ax, get? r.nominal.shape ax =
        if ax ∈ reducedAxes s axis then (if kd then some 1 else none) else get? s ax) ∧
      (∀ ax, get? r.distribution.shape ax =
        if ax = axisD then get? u.distribution.shape axisD
        else if ax ∈ reducedAxes s axis then (if kd then some 1 else none) else get? s ax) ∧
      ∀ e l, Comp.SlabOf s (reducedAxes s axis) e l →
        r.nominal.at' e = f (seenNominal u wh l) ∧ r.distribution.at' e = f (seenSamples u wh l) := by
  obtain ⟨r, h1, h2, h3, h4, h5, h6⟩ := C61_reduce u hu s hs axis hA hAs wh hw false f kd (by simp)
  refine ⟨r, h1, h2, h3, h4, fun e l hl => ⟨?_, ?_⟩⟩
  · obtain ⟨l', hl', h⟩ := h5 e
    rw [h]
    exact hf _ _ (((slabOf_perm hl' hl).filter _).map _)
  · obtain ⟨l', hl', h⟩ := h6 e
    rw [h]
    exact hf _ _ (((slabOf_perm hl' hl).filter _).map _)

/-- **C110** (uncertain scalars). The variance-to-mean ratio of an uncertain scalar has as nominal value the ratio of the nominal
values, and as `k`-th sample the ratio of the `k`-th samples (`e axisD = k`); the samples are never mixed. -/
theorem C110_vmr (u : UA α) (hu : u.Valid) (s : Shape) (hs : u.shape = .ok s) (axis : Option (List String))
    (hA : (reducedAxes s axis).Nodup) (hAs : reducedAxes s axis ⊆ keys s) (wh : Option (UArg Bool))
    (hw : MaskFits s u wh) (var mean : List α → β) (hvar : SA.Orderless var) (hmean : SA.Orderless mean)
    (div : β → β → γ) (kd : Bool) :
    ∃ r, u.vmr var mean div axis kd wh = .ok r ∧ r.Valid ∧
      (∀ ax, get? r.nominal.shape ax =
        if ax ∈ reducedAxes s axis then (if kd then some 1 else none) else get? s ax) ∧
      (∀ ax, get? r.distribution.shape ax =
        if ax = axisD then get? u.distribution.shape axisD
        else if ax ∈ reducedAxes s axis then (if kd then some 1 else none) else get? s ax) ∧
      ∀ e l, Comp.SlabOf s (reducedAxes s axis) e l →
        (InRange r.nominal.shape e → r.nominal.at' e = div (var (seenNominal u wh l)) (mean (seenNominal u wh l))) ∧
        (InRange r.distribution.shape e →
          r.distribution.at' e = div (var (seenSamples u wh l)) (mean (seenSamples u wh l))) := by
  obtain ⟨v, v1, v2, v3, v4, v5⟩ := reduce_seen u hu s hs axis hA hAs wh hw var hvar kd
  obtain ⟨m, m1, m2, m3, m4, m5⟩ := reduce_seen u hu s hs axis hA hAs wh hw mean hmean kd
  have hmn : NA.Full v.nominal.shape m.nominal := ⟨m2.1, fun ax => by rw [m3, v3]⟩
  have hmd : NA.Full v.distribution.shape m.distribution := ⟨m2.2.1, fun ax => by rw [m4, v4]⟩
  obtain ⟨n, n1, n2, n3⟩ := ufunc2_full div (⟨v2.1, fun _ => rfl⟩ : NA.Full v.nominal.shape v.nominal) hmn.fits
  obtain ⟨d, d1, d2, d3⟩ := ufunc2_full div (⟨v2.2.1, fun _ => rfl⟩ : NA.Full v.distribution.shape v.distribution) hmd.fits
  have hnD : axisD ∉ n.axes := by
    rw [← SA.keys_shape n2.1, ← get?_eq_none, n2.2, get?_eq_none, SA.keys_shape v2.1]
    exact v2.2.2
  refine ⟨⟨n, d⟩, ?_, ⟨n2.1, d2.1, hnD⟩, fun ax => by rw [← v3]; exact n2.2 ax, fun ax => by rw [← v4]; exact d2.2 ax,
    fun e l hl => ⟨fun he => ?_, fun he => ?_⟩⟩
  · simp only [vmr, v1, m1, op2, n1, d1, bind, Except.bind]
    exact mk?_of_valid n2.1 hnD
  · have he : InRange n.shape e := he
    have hev : InRange v.nominal.shape e := fun ax k h => he ax k (by rw [n2.2]; exact h)
    have hem : InRange m.nominal.shape e := fun ax k h => he ax k (by rw [n2.2, ← hmn.2]; exact h)
    show n.at' e = _
    rw [← SA.atB_eq_at' n2.1 he, n3, SA.atB_eq_at' v2.1 hev, SA.atB_eq_at' m2.1 hem, (v5 e l hl).1, (m5 e l hl).1]
  · have he : InRange d.shape e := he
    have hev : InRange v.distribution.shape e := fun ax k h => he ax k (by rw [d2.2]; exact h)
    have hem : InRange m.distribution.shape e := fun ax k h => he ax k (by rw [d2.2, ← hmd.2]; exact h)
    show d.at' e = _
    rw [← SA.atB_eq_at' d2.1 he, d3, SA.atB_eq_at' v2.2.1 hev, SA.atB_eq_at' m2.2.1 hem, (v5 e l hl).2, (m5 e l hl).2]

/-- **C110** (root mean square of uncertain scalars). -/
theorem C110_rms (u : UA α) (hu : u.Valid) (s : Shape) (hs : u.shape = .ok s) (axis : Option (List String))
    (hA : (reducedAxes s axis).Nodup) (hAs : reducedAxes s axis ⊆ keys s) (wh : Option (UArg Bool))
    (hw : MaskFits s u wh) (sq : α → β) (mean : List β → β) (hmean : SA.Orderless mean) (root : β → γ) :
    ∃ r, u.rms sq mean root axis wh = .ok r ∧ r.Valid ∧
      (∀ ax, get? r.nominal.shape ax = if ax ∈ reducedAxes s axis then none else get? s ax) ∧
      (∀ ax, get? r.distribution.shape ax =
        if ax = axisD then get? u.distribution.shape axisD
        else if ax ∈ reducedAxes s axis then none else get? s ax) ∧
      ∀ e l, Comp.SlabOf s (reducedAxes s axis) e l →
        r.nominal.at' e = root (mean ((seenNominal u wh l).map sq)) ∧
        r.distribution.at' e = root (mean ((seenSamples u wh l).map sq)) := by
  obtain ⟨n, n1, n2, n3, n4⟩ := SA.C07_ufunc1_values sq u.nominal hu.1
  obtain ⟨d, d1, d2, d3, d4⟩ := SA.C07_ufunc1_values sq u.distribution hu.2.1
  have hnD : axisD ∉ n.axes := by
    rw [← SA.keys_shape n2, n3, SA.keys_shape hu.1]
    exact hu.2.2
  have ht : op1 sq u = .ok ⟨n, d⟩ := by
    simp only [op1, n1, d1, bind, Except.bind]
    exact mk?_of_valid n2 hnD
  have hts : (⟨n, d⟩ : UA β).shape = .ok s := by
    rw [← hs]
    simp only [shape, shapeDistribution, n3, d3]
  obtain ⟨m, m1, m2, m3, m4, m5⟩ := reduce_seen (⟨n, d⟩ : UA β) ⟨n2, d2, hnD⟩ s hts axis hA hAs wh (by
    intro w h
    obtain ⟨h1, h2, h3⟩ := hw w h
    refine ⟨h1, h2, ?_⟩
    show ∀ ax k, _ → ∃ n, (if ax = axisD then get? d.shape axisD else get? s ax) = some n ∧ _
    rw [d3]
    exact h3) mean hmean false
  obtain ⟨p, p1, p2, p3, p4⟩ := SA.C07_ufunc1_values root m.nominal m2.1
  obtain ⟨q, q1, q2, q3, q4⟩ := SA.C07_ufunc1_values root m.distribution m2.2.1
  have hpD : axisD ∉ p.axes := by
    rw [← SA.keys_shape p2, p3, SA.keys_shape m2.1]
    exact m2.2.2
  refine ⟨⟨p, q⟩, ?_, ⟨p2, q2, hpD⟩, fun ax => ?_, fun ax => ?_, fun e l hl => ⟨?_, ?_⟩⟩
  · have hq : op1 root m = .ok ⟨p, q⟩ := by
      simp only [op1, p1, q1, bind, Except.bind]
      exact mk?_of_valid p2 hpD
    simp only [rms, ht, m1, hq, bind, Except.bind]
  · show get? p.shape ax = _
    rw [p3, m3]
    simp
  · show get? q.shape ax = _
    rw [q3, m4]
    show (if ax = axisD then get? d.shape axisD else _) = _
    rw [d3]
    simp
  · show p.at' e = _
    rw [p4, (m5 e l hl).1]
    unfold seenNominal
    rw [List.map_map]
    congr 2
    refine List.map_congr_left fun e' _ => ?_
    show n.atB e' = sq (u.nominal.atB e')
    unfold SA.atB
    rw [n4, n3]
  · show q.at' e = _
    rw [q4, (m5 e l hl).2]
    unfold seenSamples
    rw [List.map_map]
    congr 2
    refine List.map_congr_left fun e' _ => ?_
    show d.atB e' = sq (u.distribution.atB e')
    unfold SA.atB
    rw [d4, d3]

end UA

/-! ### Vectors -/

namespace Comp
variable {α β γ : Type}

theorem reduce_seen (v : Comp (SA α)) (hw : v.WFLeaves) (hf : v.Full) (S : Shape) (hS : v.shape = .ok S)
    (axis : Option (List String)) (hA : (axis.getD (keys S)).Nodup) (hAs : axis.getD (keys S) ⊆ keys S) (kd : Bool)
    (hk : axis = none → kd = false) :
    ∃ T : Shape, (∀ ax, get? T ax = if ax ∈ axis.getD (keys S) then (if kd then some 1 else none) else get? S ax) ∧
      ∀ f : List α → β, SA.Orderless f → ∃ r, v.reduce false f axis kd = .ok r ∧
        v.Lift (fun a ra => ra.WF ∧ FitsIn ra.shape T ∧
          ∀ e l, SlabOf S (axis.getD (keys S)) e l → ra.atB e = f (l.map a.atB)) r := by
  have hSw : WF S := shape_wf v hw S hS
  generalize hAA : axis.getD (keys S) = A at *
  have hT : ∃ T : Shape, ∀ ax, get? T ax = if ax ∈ A then (if kd then some 1 else none) else get? S ax := by
    cases kd with
    | false =>
      refine ⟨S.filter (fun p => p.1 ∉ A), fun ax => ?_⟩
      rw [SA.get?_filter S (fun k => k ∉ A)]
      by_cases h : ax ∈ A <;> simp [h]
    | true =>
      refine ⟨S.map (fun p => (p.1, if p.1 ∈ A then 1 else p.2)), fun ax => ?_⟩
      clear hS hf hk hAA hA
      by_cases hax : ax ∈ A
      · obtain ⟨n, hn⟩ := exists_get?_of_mem (hAs hax)
        rw [if_pos hax]
        have hm := mem_of_get? hn
        apply get?_of_mem
        · show (keys _).Nodup
          have : keys (S.map (fun p => (p.1, if p.1 ∈ A then 1 else p.2))) = keys S := by
            unfold keys
            rw [List.map_map]
            rfl
          rw [this]
          exact hSw
        · exact List.mem_map.2 ⟨_, hm, by simp [hax]⟩
      · rw [if_neg hax]
        clear hAs hSw hw
        induction S with
        | nil => rfl
        | cons p S ih =>
          rw [List.map_cons, get?_cons, get?_cons, ih]
          by_cases hp : p.1 = ax
          · rw [if_pos hp, if_pos hp, if_neg (by rw [hp]; exact hax)]
          · rw [if_neg hp, if_neg hp]
  obtain ⟨T, hT⟩ := hT
  refine ⟨T, hT, fun f hfo => ?_⟩
  cases axis with
  | some A' =>
    have : A' = A := hAA
    subst this
    obtain ⟨r, h1, h2⟩ := C37_reduce v hw hf S hS A' hA hAs false f kd (by simp)
    refine ⟨r, h1, lift_mono ?_ v r h2⟩
    rintro a ra ⟨g1, _, g2, g3, g4⟩
    refine ⟨g1, fun ax m hm => ?_, fun e l hl => ?_⟩
    · by_cases hax : ax ∈ A'
      · have := g2 ax hax
        rw [hm] at this
        cases kd with
        | false => simp at this
        | true =>
          refine ⟨1, by rw [hT, if_pos hax]; rfl, .inl ?_⟩
          simpa using this
      · obtain ⟨n, hn, h⟩ := g3 ax m hax hm
        exact ⟨n, by rw [hT, if_neg hax]; exact hn, h⟩
    · obtain ⟨l', hl', h⟩ := g4 e
      rw [h]
      exact hfo _ _ ((UA.slabOf_perm hl' hl).map _)
  | none =>
    have : keys S = A := hAA
    subst this
    obtain rfl := hk rfl
    obtain ⟨r, h1, h2⟩ := C37_reduce_none v hw hf S hS false f false (by simp)
    refine ⟨r, h1, lift_mono ?_ v r h2⟩
    rintro a ra ⟨g1, g2, g4⟩
    refine ⟨g1, fun ax m hm => ?_, fun e l hl => ?_⟩
    · have := mem_keys_of_get? hm
      rw [SA.keys_shape g1, g2 rfl] at this
      cases this
    · obtain ⟨l', hl', h⟩ := g4 e
      rw [h]
      exact hfo _ _ ((UA.slabOf_perm hl' hl).map _)

/-- **C110** (vectors). The variance-to-mean ratio of a vector is the vector of the ratios of its components, each over all the
positions of the shape `S` of the vector along the reduced axes: a component which lacks one of them counts as constant along it.
(`keepdims` together with the default of `axis` is left out.) -/
theorem C110_vmr (v : Comp (SA α)) (hw : v.WFLeaves) (hf : v.Full) (hD : v.Dicts) (S : Shape) (hS : v.shape = .ok S)
    (axis : Option (List String)) (hA : (axis.getD (keys S)).Nodup) (hAs : axis.getD (keys S) ⊆ keys S) (kd : Bool)
    (hk : axis = none → kd = false) (var mean : List α → β) (hvar : SA.Orderless var) (hmean : SA.Orderless mean)
    (div : β → β → γ) :
    ∃ (r : Comp (SA γ)) (T : Shape), v.vmr var mean div axis kd = .ok r ∧
      (∀ ax, get? T ax = if ax ∈ axis.getD (keys S) then (if kd then some 1 else none) else get? S ax) ∧
      v.Lift (fun a ra => ra.WF ∧ FitsIn ra.shape T ∧
        ∀ e l, SlabOf S (axis.getD (keys S)) e l → ra.atB e = div (var (l.map a.atB)) (mean (l.map a.atB))) r := by
  obtain ⟨T, hT, h⟩ := reduce_seen (β := β) v hw hf S hS axis hA hAs kd hk
  obtain ⟨s, s1, s2⟩ := h var hvar
  obtain ⟨m, m1, m2⟩ := h mean hmean
  obtain ⟨r, r1, r2⟩ := ufunc2_lift (SA.ufunc2 div) (T := fun a ra => ra.WF ∧ FitsIn ra.shape T ∧
      ∀ e l, SlabOf S (axis.getD (keys S)) e l → ra.atB e = div (var (l.map a.atB)) (mean (l.map a.atB))) v s m hD s2 m2 (by
    rintro a _ x y ⟨x1, x2, x3⟩ ⟨y1, y2, y3⟩
    obtain ⟨c, c1, c2, c3⟩ := ufunc2_fits' div (⟨x1, x2⟩ : Fits T x) (⟨y1, y2⟩ : Fits T y)
    refine ⟨c, c1, c2.1, c2.2, fun e l hl => ?_⟩
    rw [c3, x3 e l hl, y3 e l hl])
  refine ⟨r, T, ?_, hT, r2⟩
  simp only [vmr, s1, m1, bind, Except.bind]
  exact r1

/-- **C110** (root mean square of vectors). -/
theorem C110_rms (v : Comp (SA α)) (hw : v.WFLeaves) (hf : v.Full) (S : Shape) (hS : v.shape = .ok S)
    (axis : Option (List String)) (hA : (axis.getD (keys S)).Nodup) (hAs : axis.getD (keys S) ⊆ keys S)
    (sq : α → β) (mean : List β → β) (hmean : SA.Orderless mean) (root : β → γ) :
    ∃ (r : Comp (SA γ)) (T : Shape), v.rms sq mean root axis = .ok r ∧
      (∀ ax, get? T ax = if ax ∈ axis.getD (keys S) then none else get? S ax) ∧
      v.Lift (fun a ra => ra.WF ∧ FitsIn ra.shape T ∧
        ∀ e l, SlabOf S (axis.getD (keys S)) e l → ra.atB e = root (mean ((l.map a.atB).map sq))) r := by
  obtain ⟨w, hw1⟩ := mapM_isOk' (SA.ufunc1 sq) v (fun a ha => (SA.C07_ufunc1_values sq a (hw a ha)).imp (fun _ h => h.1))
  have hwl := (mapM_lift _ _ _).1 hw1
  have hwl' : v.Lift (fun a b => b.WF ∧ b.shape = a.shape ∧ ∀ e, b.atB e = sq (a.atB e)) w := by
    refine lift_mono ?_ _ _ (lift_with (Q := fun a : SA α => a.WF) v w (fun a ha => hw a ha) hwl)
    rintro a b ⟨h1, h2⟩
    obtain ⟨c, c1, c2, c3, c4⟩ := SA.C07_ufunc1_values sq a h1
    rw [c1] at h2
    cases h2
    refine ⟨c2, c3, fun e => ?_⟩
    unfold SA.atB
    rw [c4, c3]
  have hww : w.WFLeaves := by
    intro b hb
    obtain ⟨a, _, h⟩ := lift_mem_leaves hwl' hb
    exact h.1
  have hws : w.shape = .ok S := by
    rw [shape_of_lift v w (lift_mono (fun a b h => h.2.1) _ _ hwl')]
    exact hS
  obtain ⟨T, hT, h⟩ := reduce_seen (β := β) w hww (lift_full _ _ hwl' hf) S hws axis hA hAs false (fun _ => rfl)
  obtain ⟨m, m1, m2⟩ := h mean hmean
  have hm3 := lift_trans _ _ _ hwl' m2
  obtain ⟨r, hr1⟩ := mapM_isOk' (SA.ufunc1 root) m (fun b hb => by
    obtain ⟨a, _, _, _, h⟩ := lift_mem_leaves hm3 hb
    exact (SA.C07_ufunc1_values root b h.1).imp (fun _ h => h.1))
  have hrl := lift_trans _ _ _ hm3 ((mapM_lift _ _ _).1 hr1)
  refine ⟨r, T, ?_, fun ax => by rw [hT]; simp, lift_mono ?_ _ _ hrl⟩
  · simp only [rms, hw1, m1, bind, Except.bind]
    exact hr1
  · rintro a ra ⟨b, ⟨b', ⟨_, _, g1⟩, g2, g3, g4⟩, g5⟩
    obtain ⟨c, c1, c2, c3, c4⟩ := SA.C07_ufunc1_values root b g2
    rw [c1] at g5
    cases g5
    refine ⟨c2, by rw [c3]; exact g3, fun e l hl => ?_⟩
    unfold SA.atB
    rw [c4, c3]
    show root (b.atB e) = _
    rw [g4 e l hl, List.map_map]
    congr 2
    exact List.map_congr_left fun e' _ => g1 e'

end Comp

/-! ### Arithmetic: means and variances in an ordered field -/

namespace SA
variable {K : Type} [Field K] [LinearOrder K] [IsStrictOrderedRing K]

/-- Specification: the variance of a list, the mean of the squared deviations from the mean. -/
def varianceOf (l : List K) : K := meanOf (l.map (fun x => (x - meanOf l) ^ 2))

theorem orderless_mean : Orderless (meanOf (K := K)) := by
  intro l l' h
  unfold meanOf
  rw [h.sum_eq, h.length_eq]

theorem orderless_variance : Orderless (varianceOf (K := K)) := by
  intro l l' h
  unfold varianceOf
  rw [orderless_mean l l' h]
  exact orderless_mean _ _ (h.map _)

theorem sum_sq_dev (l : List K) (c : K) :
    (l.map (fun x => (x - c) ^ 2)).sum = (l.map (fun x => x ^ 2)).sum - 2 * c * l.sum + l.length * c ^ 2 := by
  induction l with
  | nil => simp
  | cons x l ih =>
    simp only [List.map_cons, List.sum_cons, ih, List.length_cons]
    push_cast
    ring

theorem length_ne {l : List K} (h : l ≠ []) : (l.length : K) ≠ 0 := by
  rw [Nat.cast_ne_zero]
  exact fun h' => h (List.length_eq_zero_iff.1 h')

/-- the mean of the squares is the square of the mean plus the variance -/
theorem mean_sq (l : List K) (h : l ≠ []) : meanOf (l.map (fun x => x ^ 2)) = meanOf l ^ 2 + varianceOf l := by
  have hn := length_ne h
  unfold varianceOf
  simp only [meanOf, List.length_map, sum_sq_dev]
  field_simp
  ring

theorem meanOf_nonneg {l : List K} (h : ∀ x ∈ l, 0 ≤ x) : 0 ≤ meanOf l :=
  div_nonneg (List.sum_nonneg h) (Nat.cast_nonneg _)

theorem varianceOf_nonneg (l : List K) : 0 ≤ varianceOf l := by
  apply meanOf_nonneg
  intro x hx
  obtain ⟨y, _, rfl⟩ := List.mem_map.1 hx
  exact sq_nonneg _

theorem meanOf_const {l : List K} (hl : l ≠ []) {c : K} (h : ∀ x ∈ l, x = c) : meanOf l = c := by
  have hn := length_ne hl
  have : l = List.replicate l.length c := List.eq_replicate_iff.2 ⟨rfl, h⟩
  unfold meanOf
  rw [this]
  simp only [List.sum_replicate, List.length_replicate, nsmul_eq_mul]
  field_simp

theorem meanOf_scale (c : K) (l : List K) : meanOf (l.map (fun x => c * x)) = c * meanOf l := by
  unfold meanOf
  rw [List.length_map, List.sum_map_mul_left]
  simp only [List.map_id', mul_div_assoc]

theorem varianceOf_scale (c : K) (l : List K) : varianceOf (l.map (fun x => c * x)) = c ^ 2 * varianceOf l := by
  unfold varianceOf
  rw [meanOf_scale, ← meanOf_scale (c ^ 2)]
  simp only [List.map_map]
  congr 1
  refine List.map_congr_left fun x _ => ?_
  show (c * x - c * meanOf l) ^ 2 = c ^ 2 * (x - meanOf l) ^ 2
  ring

theorem varianceOf_eq_zero {l : List K} (hl : l ≠ []) : varianceOf l = 0 ↔ ∀ x ∈ l, x = meanOf l := by
  have hn := length_ne hl
  unfold varianceOf
  constructor
  · intro h x hx
    have hs : (l.map (fun x => (x - meanOf l) ^ 2)).sum = 0 := by
      unfold meanOf at h
      rw [List.length_map, div_eq_zero_iff] at h
      exact h.resolve_right hn
    have := List.all_zero_of_le_zero_le_of_sum_eq_zero (l := l.map (fun x => (x - meanOf l) ^ 2)) (by
      intro y hy
      obtain ⟨z, _, rfl⟩ := List.mem_map.1 hy
      exact sq_nonneg _) hs (List.mem_map.2 ⟨x, hx, rfl⟩)
    exact sub_eq_zero.1 (pow_eq_zero_iff (two_ne_zero) |>.1 this)
  · intro h
    refine meanOf_const (by simpa using hl) ?_
    intro y hy
    obtain ⟨z, hz, rfl⟩ := List.mem_map.1 hy
    rw [h z hz, ← h z hz]
    simp

/-- **C110** (the three statistics agree). Wherever an element is selected, the square of the root mean square is the square of
the mean plus the variance, for a root function with `√x ^ 2 = x`. -/
theorem C110_rms_mean_var (a : SA K) (ha : a.WF) (wh : Option (SA Bool)) (hw : WhereOk a wh) (axis : Option (List String))
    (hA : (axis.getD a.axes).Nodup) (hAs : axis.getD a.axes ⊆ a.axes) (root : K → K) (hroot : ∀ x, 0 ≤ x → root x ^ 2 = x)
    (r m v : SA K) (hr : rms (fun x => x ^ 2) meanOf root a axis wh = .ok r)
    (hm : reduce false meanOf a axis false wh none = .ok m) (hv : reduce false varianceOf a axis false wh none = .ok v)
    (e : String → Nat) (l : List (String → Nat)) (hl : IsSlab a (axis.getD a.axes) e l) (hne : seen a wh l ≠ []) :
    r.at' e ^ 2 = m.at' e ^ 2 + v.at' e := by
  obtain ⟨r', h1, _, _, h2⟩ := C110_rms a ha wh hw axis hA hAs (fun x : K => x ^ 2) meanOf orderless_mean root
  obtain ⟨m', h3, _, _, h4⟩ := reduce_seen ha hw hA hAs meanOf orderless_mean false
  obtain ⟨v', h5, _, _, h6⟩ := reduce_seen ha hw hA hAs varianceOf orderless_variance false
  rw [h1] at hr
  rw [h3] at hm
  rw [h5] at hv
  cases hr; cases hm; cases hv
  rw [h2 e l hl, h4 e l hl, h6 e l hl, hroot, mean_sq _ hne]
  apply meanOf_nonneg
  intro x hx
  obtain ⟨y, _, rfl⟩ := List.mem_map.1 hx
  exact sq_nonneg _

/-- **C110** (scaling). Multiplying an array by a number `c ≠ 0` multiplies its variance-to-mean ratio by `c`: the ratio has the
unit of the array. -/
theorem C110_scale (a b : SA K) (ha : a.WF) (c : K) (hc : c ≠ 0) (hb : ufunc1 (fun x => c * x) a = .ok b)
    (wh : Option (SA Bool)) (hw : WhereOk a wh) (axis : Option (List String))
    (hA : (axis.getD a.axes).Nodup) (hAs : axis.getD a.axes ⊆ a.axes) (kd : Bool) (r r' : SA K)
    (hr : vmr varianceOf meanOf (· / ·) a axis kd wh = .ok r) (hr' : vmr varianceOf meanOf (· / ·) b axis kd wh = .ok r') :
    Dict.Same r'.shape r.shape ∧ ∀ e, InRange r.shape e → r'.at' e = c * r.at' e := by
  obtain ⟨b', b1, b2, b3, b4⟩ := C07_ufunc1_values (fun x => c * x) a ha
  rw [b1] at hb
  cases hb
  have hax : b.axes = a.axes := by rw [← keys_shape b2, b3, keys_shape ha]
  obtain ⟨s, h1, _, h2, h3⟩ := C110_vmr a ha wh hw axis hA hAs varianceOf meanOf orderless_variance orderless_mean
    (· / · : K → K → K) kd
  obtain ⟨s', h4, _, h5, h6⟩ := C110_vmr b b2 wh
    (by intro w h; obtain ⟨h1, h2⟩ := hw w h; exact ⟨h1, by rw [b3]; exact h2⟩) axis (by rw [hax]; exact hA)
    (by rw [hax]; exact hAs) varianceOf meanOf orderless_variance orderless_mean (· / · : K → K → K) kd
  rw [h1] at hr
  rw [h4] at hr'
  cases hr; cases hr'
  rw [hax, b3] at h5
  rw [hax] at h6
  refine ⟨fun ax => by rw [h5, h2], fun e he => ?_⟩
  obtain ⟨_, _, _, _, _, h7⟩ := C17_reduce a ha wh hw _ hA hAs false (fun _ => ()) kd (by simp)
  obtain ⟨l, hl, _⟩ := h7 e
  have hs : seen b wh l = (seen a wh l).map (fun x => c * x) := by
    unfold seen
    rw [List.map_map]
    exact List.map_congr_left fun e' _ => b4 e'
  rw [h3 e he l hl, h6 e (fun ax n h => he ax n (by rw [h2, ← h5]; exact h)) l (by unfold IsSlab at hl ⊢; rw [b3]; exact hl),
    hs, meanOf_scale, varianceOf_scale]
  rw [pow_two, mul_assoc, mul_div_mul_left _ _ hc, mul_div_assoc]

/-- **C110** (range). Where the selected elements are positive the variance-to-mean ratio is non-negative, and it is zero exactly
if all of them are equal. -/
theorem C110_range (a : SA K) (ha : a.WF) (wh : Option (SA Bool)) (hw : WhereOk a wh) (axis : Option (List String))
    (hA : (axis.getD a.axes).Nodup) (hAs : axis.getD a.axes ⊆ a.axes) (kd : Bool) (r : SA K)
    (hr : vmr varianceOf meanOf (· / ·) a axis kd wh = .ok r) (e : String → Nat) (he : InRange r.shape e)
    (l : List (String → Nat)) (hl : IsSlab a (axis.getD a.axes) e l) (hne : seen a wh l ≠ [])
    (hpos : ∀ x ∈ seen a wh l, 0 < x) :
    0 ≤ r.at' e ∧ (r.at' e = 0 ↔ ∀ x ∈ seen a wh l, ∀ y ∈ seen a wh l, x = y) := by
  obtain ⟨s, h1, _, h2, h3⟩ := C110_vmr a ha wh hw axis hA hAs varianceOf meanOf orderless_variance orderless_mean
    (· / · : K → K → K) kd
  rw [h1] at hr
  cases hr
  rw [h3 e he l hl]
  generalize seen a wh l = L at *
  have hm : 0 < meanOf L := div_pos (List.sum_pos L hpos hne) (lt_of_le_of_ne (Nat.cast_nonneg _) (length_ne hne).symm)
  refine ⟨div_nonneg (varianceOf_nonneg L) hm.le, ?_⟩
  rw [div_eq_zero_iff, or_iff_left hm.ne', varianceOf_eq_zero hne]
  constructor
  · intro h x hx y hy
    rw [h x hx, h y hy]
  · intro h x hx
    exact (meanOf_const hne (fun y hy => h y hy x hx)).symm

/-- a 2×3 array -/
def exCounts : SA Rat := ⟨["t", "x"], ND.ofList [2, 3] [1, 2, 3, 4, 4, 4] 0⟩
/-- a mask which leaves out the last column -/
def exCountsMask : SA Bool := ⟨["x"], ND.ofList [3] [true, true, false] false⟩
/-- an output array -/
def exCountsOut : SA Rat := ⟨["t"], ND.ofList [2] [7, 7] 0⟩

example : exCounts.WF ∧ WhereOk exCounts (some exCountsMask) ∧ (["x"] : List String).Nodup ∧ ["x"] ⊆ exCounts.axes ∧
    exCountsOut.WF := by
  refine ⟨by decide, ?_, by decide, by decide, by decide⟩
  intro w h
  cases h
  refine ⟨by decide, fun ax m hm => ?_⟩
  have : ax ∈ keys exCountsMask.shape := mem_keys_of_get? hm
  have : ax = "x" := by simpa [exCountsMask, shape, keys, ND.ofList] using this
  subst this
  exact ⟨3, by decide, .inl (by simpa [exCountsMask, shape, get?, ND.ofList] using hm.symm)⟩
example : ((vmr varianceOf meanOf (· / ·) exCounts (some ["x"]) false none).map (fun r => (r.shape, r.nd.toList))) =
    .ok ([("t", 2)], [1 / 3, 0]) := by decide +kernel
example : ((vmr varianceOf meanOf (· / ·) exCounts (some ["x"]) true (some exCountsMask)).map (fun r => (r.shape, r.nd.toList))) =
    .ok ([("t", 2), ("x", 1)], [1 / 6, 0]) := by decide +kernel
example : ((vmrOut varianceOf meanOf (· / ·) exCounts (some ["x"]) false none exCountsOut).map (fun r => (r.shape, r.nd.toList))) =
    .ok ([("t", 2)], [1 / 3, 0]) := by decide +kernel
example : ((rms (fun x => x ^ 2) meanOf id exCounts (some ["x"]) none).map (fun r => (r.shape, r.nd.toList))) =
    .ok ([("t", 2)], [14 / 3, 16]) := by decide +kernel
example : (vmr varianceOf meanOf (fun x y => x / y) exCounts (some ["z"]) false none) = .error .valueError := by
  with_unfolding_all rfl

end SA

/-- nominal value without axes, three samples along `x` -/
def UA.exRate : UA Rat := ⟨⟨["x"], ND.ofList [2] [1, 3] 0⟩, ⟨[axisD, "x"], ND.ofList [2, 2] [1, 1, 2, 6] 0⟩⟩

example : UA.exRate.Valid ∧ UA.exRate.shape = .ok [("x", 2)] := by
  refine ⟨⟨by decide, by decide, by decide⟩, by decide⟩
example : ((UA.exRate.vmr SA.varianceOf SA.meanOf (· / ·) none false none).map
    (fun r => (r.nominal.nd.toList, r.distribution.axes, r.distribution.nd.toList))) = .ok ([1 / 2], [axisD], [0, 1]) := by
  decide +kernel
example : ((UA.exRate.rms (fun x => x ^ 2) SA.meanOf id none none).map
    (fun r => (r.nominal.nd.toList, r.distribution.axes, r.distribution.nd.toList))) = .ok ([5], [axisD], [1, 20]) := by
  decide +kernel

/-- a vector, one component of which is a number -/
def Comp.exDrift : Comp (SA Rat) := .node "Cartesian2d"
  [("x", .leaf ⟨["t"], ND.ofList [2] [1, 3] 0⟩), ("y", .leaf (SA.scalar 5))]

example : Comp.exDrift.WFLeaves ∧ Comp.exDrift.Full ∧ Comp.exDrift.Dicts ∧ Comp.exDrift.shape = .ok [("t", 2)] := by
  refine ⟨?_, by simp [Comp.exDrift, Comp.Full, Comp.FullL], ?_, by decide⟩
  · intro a ha
    simp only [Comp.exDrift, Comp.leaves, Comp.leavesL, List.append_nil, List.cons_append, List.nil_append, List.mem_cons,
      List.not_mem_nil, or_false] at ha
    rcases ha with rfl | rfl
    · decide
    · exact (scalar_fits [] _).1
  · simp only [Comp.exDrift, Comp.Dicts, Comp.DictsL, and_true]
    decide
example : ((Comp.exDrift.vmr SA.varianceOf SA.meanOf (· / ·) none false).map (fun r => r.leaves.map (fun a => a.nd.toList))) =
    .ok [[1 / 2], [0]] := by decide +kernel
example : ((Comp.exDrift.rms (fun x => x ^ 2) SA.meanOf id (some ["t"])).map (fun r => r.leaves.map (fun a => a.nd.toList))) =
    .ok [[5], [25]] := by decide +kernel
end NA
