import Verif.Function.Percentile
import Verif.Props.FunctionReductions
import Verif.Props.ArrayPercentiles
import Verif.Props.UncertainCopy

/-!
# Percentiles of function arrays, and copying into them (C89)
-/

namespace NA
open Dict
open SA (FitsIn InRange)

namespace FA
variable {α β γ κ K : Type}

/-! ### Percentiles -/

theorem percentile_run [Field K] {f : FA K β} (hf : f.Fine) (axis : Option (List String)) (A : List String)
    (hA : f.Selects axis A) (valid : κ → Bool) (pct : κ → List β → γ) (q : SA κ) (kd : Bool) :
    ∃ B, (∀ ax, ax ∈ B ↔ ax ∈ A) ∧ f.percentile valid pct q axis kd = (do
      let i ← f.percentileInputs B kd
      let o ← f.outputs.percentileLike valid pct q (some (f.outputs.shape.keys.filter (· ∈ B))) kd none
      .ok ⟨i, o⟩) := by
  obtain ⟨s, _, hs, _, _, _, hk, _⟩ := shape_main hf
  refine ⟨axis.getD s.keys, ?_, ?_⟩
  · intro ax
    cases axis with
    | none => rw [Option.getD_none, hk]; exact (hA ax).symm
    | some l => rw [Option.getD_some, hA.1]
  · unfold percentile
    rw [hs]
    simp only [bind, Except.bind]
    rw [if_neg]
    cases axis with
    | none => simp
    | some l =>
      simp only [Option.isSome_some, Option.getD_some, Bool.true_and, Bool.not_eq_true', Bool.not_eq_false]
      rw [List.all_eq_true]
      intro x hx
      rw [decide_eq_true_eq, hk]
      exact hA.2 x hx

theorem percentileInputs_main [Field K] {f : FA K β} (hf : f.Fine) (A : List String) :
    ∃ i, f.percentileInputs A false = .ok i ∧ i.WF ∧
      (∀ ax, get? i.shape ax = if ax ∈ A then none else get? f.inputs.shape ax) ∧
      ∀ e l, SA.IsSlab f.inputs (f.inputs.axes.filter (· ∈ A)) e l → i.at' e = SA.meanOf (l.map f.inputs.at') := by
  obtain ⟨i, h1, h2, h3, h4⟩ := reduceOutputs_main hf.1.1 A false (mean (K := K)) false (by simp)
  refine ⟨i, h1, h2, fun ax => ?_, fun e l hl => ?_⟩
  · rw [h3]; simp
  · obtain ⟨l', hl', h5⟩ := h4 e
    rw [h5]
    exact orderless_mean _ _ ((hl'.perm hl).map _)

theorem percentileOutputs_main {valid : κ → Bool} {pct : κ → List β → γ} {a : SA β} (ha : a.WF) {q : SA κ}
    (hq : SA.GoodQ valid a q) (hne : ∀ ax ∈ a.axes, get? a.shape ax ≠ some 0) (A : List String) (kd : Bool) :
    ∃ o, a.percentileLike valid pct q (some (a.shape.keys.filter (· ∈ A))) kd none = .ok o ∧ o.WF ∧
      (∀ ax, get? o.shape ax = if ax ∈ q.axes then get? q.shape ax
        else if ax ∈ A then (if kd = true ∧ ax ∈ a.axes then some 1 else none) else get? a.shape ax) ∧
      ∀ e, ∃ l, SA.IsSlab a (a.axes.filter (· ∈ A)) e l ∧ o.at' e = pct (q.at' e) (l.map a.at') := by
  rw [SA.keys_shape ha]
  obtain ⟨o, h1, h2, _, h4, h5⟩ := SA.C81_percentile valid pct a ha q hq (some (a.axes.filter (· ∈ A))) _ rfl
    (ha.2.filter _) (List.filter_subset' _) hne kd
  refine ⟨o, h1, h2, fun ax => ?_, h5⟩
  rw [h4]
  simp only [Option.getD_some]
  by_cases hx : ax ∈ q.axes
  · have hxa : ax ∉ a.axes := fun h => hq.apart ax h hx
    simp [hx, hxa]
  · rw [if_neg hx]
    by_cases hA : ax ∈ A
    · rw [if_pos hA]
      by_cases hxa : ax ∈ a.axes
      · simp [hA, hxa]
      · rw [if_neg (fun h => hxa (List.mem_filter.1 h).1), if_neg hxa, if_neg (fun h => hxa h.2), get?_eq_none, SA.keys_shape hq.wf]
        exact hx
    · rw [if_neg hA]
      by_cases hxa : ax ∈ a.axes
      · simp [hA, hxa]
      · rw [if_neg (fun h => hxa (List.mem_filter.1 h).1), if_neg hxa, get?_eq_none.2 (by rw [SA.keys_shape hq.wf]; exact hx), get?_eq_none.2 (by rw [SA.keys_shape ha]; exact hxa)]

/-- **C89** (percentiles). For percentiles `q` along axes which the function lacks, the outputs of the result are the percentiles of the
outputs over each slab along the axes `A` (all of them by default), and its inputs are the means of the inputs over each slab.  What is
missing: along axes on which the inputs are vertices the inputs should be the means of the *centers*, as those of every other reduction
(`C89_vertex_refuted`). -/
theorem C89_percentile_partial [Field K] (valid : κ → Bool) (pct : κ → List β → γ) (f : FA K β) (hf : f.Fine) (q : SA κ)
    (hq : SA.GoodQ valid f.outputs q) (hqi : ∀ ax ∈ q.axes, ax ∉ f.inputs.axes)
    (hne : ∀ ax ∈ f.outputs.axes, get? f.outputs.shape ax ≠ some 0)
    (axis : Option (List String)) (A : List String) (hA : f.Selects axis A) :
    ∃ r, f.percentile valid pct q axis false = .ok r ∧ r.Fine ∧
      (∀ ax, get? r.inputs.shape ax = if ax ∈ A then none else get? f.inputs.shape ax) ∧
      (∀ ax, get? r.outputs.shape ax = if ax ∈ q.axes then get? q.shape ax else if ax ∈ A then none else get? f.outputs.shape ax) ∧
      (∀ e l, SA.IsSlab f.inputs (f.inputs.axes.filter (· ∈ A)) e l → l ≠ [] →
        r.inputs.at' e = SA.meanOf (l.map f.inputs.at')) ∧
      ∀ e, ∃ l, SA.IsSlab f.outputs (f.outputs.axes.filter (· ∈ A)) e l ∧
        r.outputs.at' e = pct (q.at' e) (l.map f.outputs.at') := by
  obtain ⟨B, hB, hrun⟩ := percentile_run hf axis A hA valid pct q false
  have hfil : ∀ m : List String, m.filter (· ∈ B) = m.filter (· ∈ A) := fun m => by
    apply List.filter_congr
    intro x _
    simp [hB]
  obtain ⟨i, h1, h2, h3, h4⟩ := percentileInputs_main hf B
  obtain ⟨o, o1, o2, o3, o4⟩ := percentileOutputs_main (pct := pct) hf.1.2 hq hne B false
  have hi : ∀ ax, get? i.shape ax = if ax ∈ A then none else get? f.inputs.shape ax := fun ax => by
    rw [h3]; simp [hB]
  have ho : ∀ ax, get? o.shape ax = if ax ∈ q.axes then get? q.shape ax else if ax ∈ A then none else get? f.outputs.shape ax :=
    fun ax => by rw [o3]; simp [hB]
  refine ⟨⟨i, o⟩, ?_, ⟨⟨h2, o2⟩, ?_⟩, hi, ho, ?_, ?_⟩
  · rw [hrun, h1]
    simp only [bind, Except.bind]
    rw [o1]
  · rintro ax ⟨m, k, g1, g2, g3⟩
    simp only at g1 g2
    rw [hi] at g1
    rw [ho] at g2
    by_cases hx : ax ∈ A
    · rw [if_pos hx] at g1; cases g1
    · rw [if_neg hx] at g1
      by_cases hxq : ax ∈ q.axes
      · exact hqi ax hxq (by rw [← SA.keys_shape hf.1.1]; exact mem_keys_of_get? g1)
      · rw [if_neg hxq, if_neg hx] at g2
        exact hf.2 ax ⟨m, k, g1, g2, g3⟩
  · intro e l hl _
    exact h4 e l (by rw [hfil]; exact hl)
  · intro e
    obtain ⟨l, hl, h5⟩ := o4 e
    exact ⟨l, by rw [← hfil]; exact hl, h5⟩

/-- **C89** (percentiles, `keepdims=True`). The inputs are unchanged. -/
theorem C89_percentile_keepdims [Field K] (valid : κ → Bool) (pct : κ → List β → γ) (f : FA K β) (hf : f.Fine) (q : SA κ)
    (hq : SA.GoodQ valid f.outputs q) (hne : ∀ ax ∈ f.outputs.axes, get? f.outputs.shape ax ≠ some 0)
    (axis : Option (List String)) (A : List String) (hA : f.Selects axis A) :
    ∃ r, f.percentile valid pct q axis true = .ok r ∧ r.Valid ∧ r.inputs = f.inputs ∧
      (∀ ax, get? r.outputs.shape ax = if ax ∈ q.axes then get? q.shape ax
        else if ax ∈ A ∧ ax ∈ f.outputs.axes then some 1 else get? f.outputs.shape ax) ∧
      ∀ e, ∃ l, SA.IsSlab f.outputs (f.outputs.axes.filter (· ∈ A)) e l ∧
        r.outputs.at' e = pct (q.at' e) (l.map f.outputs.at') := by
  obtain ⟨B, hB, hrun⟩ := percentile_run hf axis A hA valid pct q true
  have hfil : ∀ m : List String, m.filter (· ∈ B) = m.filter (· ∈ A) := fun m => by
    apply List.filter_congr
    intro x _
    simp [hB]
  obtain ⟨o, o1, o2, o3, o4⟩ := percentileOutputs_main (pct := pct) hf.1.2 hq hne B true
  refine ⟨⟨f.inputs, o⟩, ?_, ⟨hf.1.1, o2⟩, rfl, fun ax => ?_, fun e => ?_⟩
  · rw [hrun]
    simp only [percentileInputs, if_pos, bind, Except.bind]
    rw [o1]
  · show get? o.shape ax = _
    rw [o3]
    simp only [hB, true_and]
    by_cases hxq : ax ∈ q.axes
    · simp only [hxq, if_true]
    · simp only [hxq, if_false]
      by_cases h : ax ∈ A
      · by_cases h' : ax ∈ f.outputs.axes
        · simp [h, h']
        · rw [if_pos h, if_neg h', if_neg (fun q => h' q.2)]
          symm
          rw [get?_eq_none, SA.keys_shape hf.1.2]
          exact h'
      · simp [h]
  · obtain ⟨l, hl, h5⟩ := o4 e
    exact ⟨l, by rw [← hfil]; exact hl, h5⟩

/-- **C89** (percentiles, the same inputs as other reductions). Along axes on which the inputs are not vertices, the inputs of a percentile are those
of a reduction such as `np.mean`. -/
theorem C89_same_inputs [Field K] [NeZero (2 : K)] {δ : Type} (valid : κ → Bool) (pct : κ → List β → γ) (f : FA K β) (hf : f.Fine) (q : SA κ)
    (axis : Option (List String)) (A : List String) (hA : f.Selects axis A) (hV : ∀ ax ∈ A, ¬ f.Vertex ax) (g : List β → δ)
    (need : Bool) (r : FA K γ) (hr : f.percentile valid pct q axis false = .ok r) (r' : FA K δ)
    (hr' : f.reduce need g axis false = .ok r') (e : String → Nat) (he : InRange r.inputs.shape e) :
    (∀ ax, get? r.inputs.shape ax = get? r'.inputs.shape ax) ∧ r.inputs.at' e = r'.inputs.at' e := by
  obtain ⟨B, hB, hrun⟩ := percentile_run hf axis A hA valid pct q false
  obtain ⟨B', hB', hrun'⟩ := reduce_run hf axis A hA need g false
  obtain ⟨i, h1, h2, h3, h4⟩ := percentileInputs_main hf B
  obtain ⟨i', c, g1, g2, g3, g4, g5⟩ := reduceInputs_main hf B' ∅ (fun ax => by
    simp only [Finset.notMem_empty, false_iff, not_and]
    intro h
    exact hV ax ((hB' ax).1 h))
  have hri : r.inputs = i := by
    rw [hrun, h1] at hr
    simp only [bind, Except.bind] at hr
    split at hr
    · cases hr
    · injection hr with hr
      rw [← hr]
  have hri' : r'.inputs = i' := by
    rw [hrun', g1] at hr'
    simp only [bind, Except.bind] at hr'
    split at hr'
    · cases hr'
    · injection hr' with hr'
      rw [← hr']
  rw [hri] at he ⊢
  rw [hri']
  refine ⟨fun ax => by rw [h3, g3]; simp only [hB, hB'], ?_⟩
  obtain ⟨c1, c2, c3⟩ := g4
  have hsz : ∀ ax, get? c.shape ax = get? f.inputs.shape ax := by
    intro ax
    have := c2 ax
    simpa using this
  have hax : ∀ ax, ax ∈ c.axes ↔ ax ∈ f.inputs.axes := fun ax => by
    rw [← not_iff_not, ← SA.get?_shape_none c1, hsz, SA.get?_shape_none hf.1.1]
  have hfil : f.inputs.axes.filter (· ∈ B) = f.inputs.axes.filter (· ∈ B') := by
    apply List.filter_congr
    intro x _
    simp [hB, hB']
  obtain ⟨l, hl⟩ : ∃ l, SA.IsSlab f.inputs (f.inputs.axes.filter (· ∈ B)) e l :=
    ⟨_, SA.isSlab_slabEnvs hf.1.1 (hf.1.1.2.filter _) (List.filter_subset' _) (fun _ => Iff.rfl) e⟩
  have hl' : SA.IsSlab c (f.inputs.axes.filter (· ∈ B')) e l := by
    refine ⟨hl.1, fun e' => ?_⟩
    rw [hl.2 e', hfil]
    simp only [hsz]
  rw [h4 e l hl, g5 e l hl']
  congr 1
  apply List.map_congr_left
  intro e' he'
  have hin : InRange c.shape e' := by
    obtain ⟨k1, k2⟩ := (hl'.2 e').1 he'
    intro ax n hn
    by_cases hm : ax ∈ f.inputs.axes.filter (· ∈ B')
    · obtain ⟨n', hn', hlt⟩ := k1 ax hm
      rw [hn] at hn'
      injection hn' with hn'
      rw [hn']; exact hlt
    · rw [k2 ax hm]
      refine he ax n ?_
      rw [h3, if_neg, ← hsz]
      · exact hn
      · intro h
        refine hm (List.mem_filter.2 ⟨(hax ax).1 ?_, by simpa [hB'] using (hB ax).1 h⟩)
        rw [← SA.keys_shape c1]
        exact mem_keys_of_get? hn
  rw [c3 e' hin]
  have hc : corner ∅ e' = e' := by
    funext ax
    simp [corner]
  simp [hc]

/-- **C89** (percentiles, errors). An axis which the function lacks, and percentiles along an axis of the outputs, raise `ValueError`. -/
theorem C89_percentile_error [Field K] (valid : κ → Bool) (pct : κ → List β → γ) (f : FA K β) (hf : f.Fine) (q : SA κ) (hq : q.WF)
    (kd : Bool) (A : List String)
    (h : (∃ ax ∈ A, ax ∉ f.inputs.axes ∧ ax ∉ f.outputs.axes) ∨ (∃ ax ∈ q.axes, ax ∈ f.outputs.axes)) :
    f.percentile valid pct q (some A) kd = .error .valueError := by
  by_cases hA : ∀ ax ∈ A, ax ∈ f.inputs.axes ∨ ax ∈ f.outputs.axes
  · obtain ⟨ax, hx1, hx2⟩ : ∃ ax ∈ q.axes, ax ∈ f.outputs.axes := by
      rcases h with ⟨ax, h1, h2, h3⟩ | h
      · rcases hA ax h1 with h | h
        · exact absurd h h2
        · exact absurd h h3
      · exact h
    obtain ⟨B, hB, hrun⟩ := percentile_run hf (some A) A ⟨rfl, hA⟩ valid pct q kd
    have ho := SA.C81_error valid pct f.outputs q hq (f.outputs.shape.keys.filter (· ∈ B)) kd none
      (.inr (.inr (.inl ⟨ax, hx2, hx1⟩)))
    obtain ⟨i, hi⟩ : ∃ i, f.percentileInputs B kd = .ok i := by
      cases kd with
      | true => exact ⟨f.inputs, rfl⟩
      | false =>
        obtain ⟨i, h, _⟩ := percentileInputs_main hf B
        exact ⟨i, h⟩
    rw [hrun, hi]
    simp only [bind, Except.bind]
    rw [ho]
  · simp only [not_forall, not_or] at hA
    obtain ⟨ax, h1, h2, h3⟩ := hA
    obtain ⟨s, _, hs, _, _, _, hk, _⟩ := shape_main hf
    unfold percentile
    rw [hs]
    simp only [bind, Except.bind]
    rw [if_pos]
    simp only [Option.isSome_some, Option.getD_some, Bool.true_and, Bool.not_eq_true', List.all_eq_false]
    exact ⟨ax, h1, by rw [decide_eq_true_eq, hk]; simp [h2, h3]⟩

/-! ### Copies -/

theorem scalar_mask_fits (b : Bool) (S : Shape) : FitsIn (SA.scalar b).shape S := by
  intro ax m h
  simp [SA.scalar, SA.shape, get?_nil] at h

theorem wf_scalar_mask (b : Bool) : (SA.scalar b).WF := by
  constructor <;> simp [SA.scalar, ND.scalar, ND.ndim]

/-- **C89** (`np.copyto` with a python boolean). If numpy allows the casts, `True` copies the inputs and the outputs of the source, by axis
name, and `False` copies nothing; `ValueError` if they do not broadcast to those of the destination. -/
theorem C89_copyto_bool (ne : α → α → Bool) (asMask : Option (α → Bool)) (dst src : FA α β) (hd : dst.Valid) (hs : src.Valid) (b : Bool) :
    (FitsIn src.inputs.shape dst.inputs.shape ∧ FitsIn src.outputs.shape dst.outputs.shape ∧
      ∃ r, copyto ne true true asMask dst src (.bool b) = (r, none) ∧ r.Valid ∧
        r.inputs.shape = dst.inputs.shape ∧ r.outputs.shape = dst.outputs.shape ∧
        (∀ e, InRange dst.inputs.shape e → r.inputs.at' e = if b then src.inputs.atB e else dst.inputs.at' e) ∧
        ∀ e, InRange dst.outputs.shape e → r.outputs.at' e = if b then src.outputs.atB e else dst.outputs.at' e) ∨
    (¬ (FitsIn src.inputs.shape dst.inputs.shape ∧ FitsIn src.outputs.shape dst.outputs.shape) ∧
      (copyto ne true true asMask dst src (.bool b)).2 = some .valueError ∧
      (copyto ne true true asMask dst src (.bool b)).1.outputs = dst.outputs) := by
  have hat : ∀ e, (SA.scalar b).atB e = b := fun e => rfl
  rcases SA.C49_scalar_partial dst.inputs src.inputs (SA.scalar b) hd.1 hs.1 (wf_scalar_mask b) with
    ⟨a1, a2, i, a3, a4, a5, a6⟩ | ⟨a1, a2⟩
  · rcases SA.C49_scalar_partial dst.outputs src.outputs (SA.scalar b) hd.2 hs.2 (wf_scalar_mask b) with
      ⟨b1, b2, o, b3, b4, b5, b6⟩ | ⟨b1, b2⟩
    · left
      refine ⟨a1, b1, ⟨i, o⟩, by simp only [copyto, a3, b3, copyBoth], ⟨a4, b4⟩, a5, b5, ?_, ?_⟩
      · intro e he
        have := a6 e he
        rwa [hat] at this
      · intro e he
        have := b6 e he
        rwa [hat] at this
    · right
      refine ⟨fun h => b1 ⟨h.2, scalar_mask_fits b _⟩, ?_, ?_⟩ <;> simp only [copyto, a3, b2, copyBoth]
  · right
    refine ⟨fun h => a1 ⟨h.1, scalar_mask_fits b _⟩, ?_, ?_⟩ <;> simp only [copyto, a2, copyBoth]

/-- **C89** (`np.copyto` with a function as the mask; part which holds). If the inputs of the mask agree with those of the source, and the inputs of
the destination have the axes of the source's (in the same order) and are numbers, the outputs change exactly where the outputs of the mask
are true.  (The inputs are always replaced, see `C89_copyto_inputs_refuted`.) -/
theorem C89_copyto_function_partial (ne : α → α → Bool) (allowedI : Bool) (dst src : FA α β) (hd : dst.Valid) (hs : src.Valid)
    (w : FA α Bool) (hw : w.Valid) (hag : Agree ne w.inputs src.inputs) (hin : src.inputs.shape = dst.inputs.shape)
    (hwi : FitsIn w.inputs.shape dst.inputs.shape)
    (ho : FitsIn src.outputs.shape dst.outputs.shape) (hwo : FitsIn w.outputs.shape dst.outputs.shape) :
    ∃ r, copyto ne allowedI true none dst src (.function w) = (r, none) ∧ r.Valid ∧
      (∀ ax, get? r.inputs.shape ax = get? dst.inputs.shape ax) ∧
      (∀ e, r.inputs.at' e = src.inputs.at' e) ∧ r.outputs.shape = dst.outputs.shape ∧
      ∀ e, InRange dst.outputs.shape e → r.outputs.at' e = if w.outputs.atB e then src.outputs.atB e else dst.outputs.at' e := by
  have hdiff : differ ne w.inputs src.inputs = .ok false := by
    rcases differ_main ne w.inputs src.inputs hw.1 hs.1 with ⟨h, _⟩ | ⟨_, h, _⟩ | ⟨_, _, h⟩
    · obtain ⟨S, hS, _⟩ := hag
      have hww : ∀ s ∈ [w.inputs.shape, src.inputs.shape], WF s := by
        intro s hs'
        simp only [List.mem_cons, List.not_mem_nil, or_false] at hs'
        rcases hs' with rfl | rfl
        · exact SA.wf_shape hw.1
        · exact SA.wf_shape hs.1
      obtain ⟨e, h'⟩ := (C01_broadcast_shapes_error_iff _ hww).2 h
      rw [hS] at h'
      cases h'
    · exact absurd hag h
    · exact h
  have haxes : src.inputs.axes = dst.inputs.axes := by
    rw [← SA.keys_shape hs.1, hin, SA.keys_shape hd.1]
  have hnds : src.inputs.nd.shape = dst.inputs.nd.shape := by
    rw [← SA.values_shape hs.1, hin, SA.values_shape hd.1]
  have hrep : SA.mk dst.inputs.axes src.inputs.nd = src.inputs := by rw [← haxes]
  obtain ⟨v, hv⟩ : ∃ v, src.inputs.aligned dst.inputs.shape.keys = .ok v := by
    rcases SA.aligned_broadcast (a := dst.inputs) hs.1 hd.1 with ⟨_, v, _, h, _⟩ | ⟨h, _⟩
    · exact ⟨v, h⟩
    · exact absurd (fun ax m hm => ⟨m, by rw [← hin]; exact hm, .inl rfl⟩) h
  obtain ⟨v', hv'⟩ : ∃ v, w.inputs.aligned dst.inputs.shape.keys = .ok v := by
    rcases SA.aligned_broadcast (a := dst.inputs) hw.1 hd.1 with ⟨_, v, _, h, _⟩ | ⟨h, _⟩
    · exact ⟨v, h⟩
    · exact absurd hwi h
  rcases SA.C49_scalar_partial dst.outputs src.outputs w.outputs hd.2 hs.2 hw.2 with ⟨b1, b2, o, b3, b4, b5, b6⟩ | ⟨b1, b2⟩
  · refine ⟨⟨src.inputs, o⟩, ?_, ⟨hs.1, b4⟩, fun ax => by rw [← hin], fun _ => rfl, b5, b6⟩
    simp only [copyto, hdiff, copyInputs, hv, hv', bind, Except.bind, b3, copyBoth, hrep]
  · exact absurd ⟨ho, hwo⟩ b1

/-- **C89** (`np.copyto`, errors). A mask which is neither a python boolean nor a function raises `TypeError`; a mask whose inputs differ from
those of the source, or do not broadcast against them, raises `ValueError`; nothing is copied. -/
theorem C89_copyto_error (ne : α → α → Bool) (allowedI allowedO : Bool) (asMask : Option (α → Bool)) (dst src : FA α β)
    (hs : src.Valid) :
    copyto ne allowedI allowedO asMask dst src .array = (dst, some .typeError) ∧
    ∀ w : FA α Bool, w.Valid → ¬ Agree ne w.inputs src.inputs →
      copyto ne allowedI allowedO asMask dst src (.function w) = (dst, some .valueError) := by
  refine ⟨rfl, fun w hw h => ?_⟩
  rcases differ_main ne w.inputs src.inputs hw.1 hs.1 with ⟨_, h'⟩ | ⟨_, _, h'⟩ | ⟨h', _⟩
  · simp only [copyto, h']
  · simp only [copyto, h']
  · exact absurd h' h

/-! ### Refutations -/

/-- **C89** is violated along vertex axes: the inputs of the median over the cells between 0, 1 and 4 are not those of the mean. -/
theorem C89_vertex_refuted :
    ((⟨⟨["x"], ND.ofList [3] [0, 1, 4] 0⟩, ⟨["x"], ND.ofList [2] [5, 7] 0⟩⟩ : FA ℚ ℚ).percentile (fun _ => true)
      (fun (_ : Unit) l => l.headD 0) (SA.scalar ()) (some ["x"]) false).map (fun r => r.inputs.nd.toList) = .ok [5 / 3] ∧
    ((⟨⟨["x"], ND.ofList [3] [0, 1, 4] 0⟩, ⟨["x"], ND.ofList [2] [5, 7] 0⟩⟩ : FA ℚ ℚ).reduce false
      (fun l => l.headD 0) (some ["x"]) false).map (fun r => r.inputs.nd.toList) = .ok [3 / 2] := by
  decide +kernel

/-- Percentiles along an axis of the inputs which the outputs lack are accepted, and give a function whose inputs and outputs do not belong
together: its shape raises `ValueError`. -/
theorem C89_axis_refuted :
    ∃ (f : FA ℚ ℚ) (q : SA Unit), f.Fine ∧ SA.GoodQ (fun _ => true) f.outputs q ∧
      (f.percentile (fun _ => true) (fun (_ : Unit) l => l.headD 0) q (some []) false).map
        (fun r => (get? r.inputs.shape "x", get? r.outputs.shape "x", r.shape)) = .ok (some 3, some 5, .error .valueError) :=
  ⟨exFlat, ⟨["x"], ⟨[5], fun _ => ()⟩⟩, fine_exFlat,
    ⟨⟨rfl, by decide⟩, by decide, fun ax h => by simp [exFlat, SA.scalar] at h, fun _ _ => rfl⟩, by decide +kernel⟩

/-- **C89** is violated by `np.copyto` with a function as the mask: the inputs are all replaced although the mask is false everywhere. -/
theorem C89_copyto_inputs_refuted :
    ∃ (dst src : FA ℚ ℚ) (w : FA ℚ Bool), dst.Fine ∧ src.Fine ∧ w.Fine ∧ w.inputs = src.inputs ∧ (∀ e, w.outputs.at' e = false) ∧
      (copyto (fun a b => decide (a ≠ b)) true true none dst src (.function w)).2 = none ∧
      (copyto (fun a b => decide (a ≠ b)) true true none dst src (.function w)).1.inputs.nd.toList = [7, 8] ∧
      dst.inputs.nd.toList = [1, 2] := by
  have hfine : ∀ {γ : Type} (i : SA ℚ) (o : SA γ), i.WF → o.WF → i.shape = o.shape → (⟨i, o⟩ : FA ℚ γ).Fine := by
    intro γ i o hi ho h
    refine ⟨⟨hi, ho⟩, ?_⟩
    rintro ax ⟨m, n, h1, h2, h3⟩
    simp only at h1 h2
    rw [h, h2] at h1
    injection h1 with h1
    omega
  refine ⟨⟨⟨["x"], ND.ofList [2] [1, 2] 0⟩, ⟨["x"], ND.ofList [2] [5, 6] 0⟩⟩, ⟨⟨["x"], ND.ofList [2] [7, 8] 0⟩, ⟨["x"], ND.ofList [2] [9, 9] 0⟩⟩,
    ⟨⟨["x"], ND.ofList [2] [7, 8] 0⟩, ⟨["x"], ⟨[2], fun _ => false⟩⟩⟩, hfine _ _ (by decide) (by decide) (by decide),
    hfine _ _ (by decide) (by decide) (by decide), hfine _ _ ⟨rfl, by decide⟩ ⟨rfl, by decide⟩ (by decide), rfl, fun _ => rfl, by decide +kernel,
    by decide +kernel, by decide +kernel⟩

/-- **C89** is violated by `np.copyto` when it raises `ValueError`: the inputs have been replaced, the outputs have not. -/
theorem C89_copyto_atomic_refuted :
    ∃ (dst src : FA ℚ ℚ), dst.Fine ∧ src.Fine ∧
      (copyto (fun a b => decide (a ≠ b)) true true none dst src (.bool true)).2 = some .valueError ∧
      dst.inputs.nd.toList = [0, 1, 2] ∧ dst.outputs.nd.toList = [5] ∧
      (copyto (fun a b => decide (a ≠ b)) true true none dst src (.bool true)).1.inputs.nd.toList = [4, 4, 4] ∧
      (copyto (fun a b => decide (a ≠ b)) true true none dst src (.bool true)).1.outputs.nd.toList = [5] := by
  refine ⟨exFlat, ⟨SA.scalar 4, ⟨["x"], ND.ofList [3] [1, 2, 3] 0⟩⟩, fine_exFlat, ⟨⟨by decide, by decide⟩, ?_⟩, by decide +kernel, by decide +kernel,
    by decide +kernel, by decide +kernel, by decide +kernel⟩
  rintro ax ⟨m, n, h1, _, _⟩
  simp [SA.scalar, SA.shape, get?_nil] at h1

/-! ### Examples -/

/-- The medians (of three elements) along `"x"`: the inputs become their means. -/
def exTable : FA ℚ ℚ :=
  ⟨⟨["x"], ND.ofList [3] [1, 2, 6] 0⟩, ⟨["y", "x"], ND.ofList [2, 3] [3, 1, 2, 10, 30, 20] 0⟩⟩

theorem fine_exTable : exTable.Fine := by
  have hi : exTable.inputs.shape = [("x", 3)] := by decide
  have ho : exTable.outputs.shape = [("y", 2), ("x", 3)] := by decide
  refine ⟨⟨by constructor <;> decide, by constructor <;> decide⟩, ?_⟩
  rintro ax ⟨m, n, h1, h2, h3⟩
  rw [hi] at h1
  rw [ho] at h2
  simp only [get?_cons, get?_nil] at h1 h2
  split at h1
  · next h =>
    subst h
    simp at h1 h2
    omega
  · cases h1

theorem selects_exTable : exTable.Selects (some ["x"]) ["x"] :=
  ⟨rfl, fun ax h => by simp at h; simp [exTable, h]⟩

theorem goodQ_exTable : SA.GoodQ (fun _ => true) exTable.outputs (⟨["q"], ⟨[2], fun i => i.headD 0⟩⟩ : SA Nat) :=
  ⟨⟨rfl, by decide⟩, by decide, fun ax h => by simp [exTable] at h ⊢; rcases h with rfl | rfl <;> decide, fun _ _ => rfl⟩

example : ∃ r, exTable.percentile (fun _ => true) (fun (k : Nat) l => (l.insertionSort (· ≤ ·)).getD k 0)
    (⟨["q"], ⟨[2], fun i => i.headD 0⟩⟩ : SA Nat) (some ["x"]) false = .ok r ∧ r.Fine := by
  obtain ⟨r, h1, h2, _⟩ := C89_percentile_partial (fun _ => true) (fun (k : Nat) (l : List ℚ) => (l.insertionSort (· ≤ ·)).getD k 0) exTable fine_exTable
    (⟨["q"], ⟨[2], fun i => i.headD 0⟩⟩ : SA Nat) goodQ_exTable (by decide) (by decide) (some ["x"]) ["x"] selects_exTable
  exact ⟨r, h1, h2⟩

example : list' (exTable.percentile (fun _ => true) (fun (k : Nat) l => (l.insertionSort (· ≤ ·)).getD k 0)
    (⟨["q"], ⟨[2], fun i => i.headD 0⟩⟩ : SA Nat) (some ["x"]) false) = some ([3], [1, 10, 2, 20]) := by decide +kernel

example : ∀ ax ∈ ["x"], ¬ exTable.Vertex ax := by
  rintro ax h ⟨m, h1, h2⟩
  simp at h
  subst h
  have hi : exTable.inputs.shape = [("x", 3)] := by decide
  have ho : exTable.outputs.shape = [("y", 2), ("x", 3)] := by decide
  rw [hi] at h1
  rw [ho] at h2
  simp [get?_cons] at h1 h2
  omega

/-- A copy with the outputs of the mask true for `"y" = 1`. -/
example : (copyto (fun a b => decide (a ≠ b)) true true none exTable ⟨exTable.inputs, ⟨["x"], ND.ofList [3] [7, 8, 9] 0⟩⟩
    (.function ⟨exTable.inputs, ⟨["y"], ND.ofList [2] [false, true] false⟩⟩)).1.outputs.nd.toList = [3, 1, 2, 7, 8, 9] := by decide +kernel

example : Agree (fun a b => decide (a ≠ b)) exTable.inputs exTable.inputs :=
  ⟨[("x", 3)], by decide +kernel, fun e _ => by simp⟩

end FA
end NA
