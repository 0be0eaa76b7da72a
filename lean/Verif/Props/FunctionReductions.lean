import Verif.Function.Reduce
import Verif.Props.FunctionStructure
import Verif.Props.CellCenters
import Verif.Props.Reductions
import Verif.Props.Trimmed

/-!
# Reducing function arrays (C75)
-/

namespace NA
open Dict
open SA (FitsIn InRange)

namespace FA
variable {α β γ K : Type}

/-! ### Specification -/

/-- The centers of the cells of an array along the axes `L`: means of the surrounding vertices. -/
def IsCenters [Field K] (a : SA K) (L : Finset String) (c : SA K) : Prop :=
  c.WF ∧ CentersOf a.shape L c.shape ∧
    ∀ e, InRange c.shape e → c.at' e = (∑ T ∈ L.powerset, a.at' (corner T e)) / 2 ^ L.card

/-! ### Helpers -/

theorem filter_none (l : List (String → Nat)) : l.filter (SA.selected none) = l :=
  List.filter_eq_self.2 (fun _ _ => rfl)

theorem axesCenter_main {f : FA α β} (hf : f.Fine) : ∃ c, f.axesCenter = .ok c ∧
    ∀ ax, ax ∈ c ↔ (ax ∈ f.inputs.axes ∨ ax ∈ f.outputs.axes) ∧ ¬ f.Vertex ax := by
  obtain ⟨⟨hi, ho⟩, hm⟩ := hf
  obtain ⟨c, v, s, h1, _, _, h4, h5, h6, _⟩ :=
    C52_axes f.inputs.shape f.outputs.shape (SA.wf_shape hi) (SA.wf_shape ho) hm
  refine ⟨c, h1, fun ax => ?_⟩
  rw [← SA.keys_shape hi, ← SA.keys_shape ho, ← h5, List.mem_append]
  have hd := (List.nodup_append.1 h4).2.2
  constructor
  · intro h
    exact ⟨Or.inl h, fun hV => hd ax h ax ((h6 ax).2 hV) rfl⟩
  · rintro ⟨h | h, hV⟩
    · exact h
    · exact absurd ((h6 ax).1 h) hV

theorem orderless_mean [Field K] : SA.Orderless (mean (K := K)) := by
  intro l l' h
  unfold mean
  rw [h.sum_eq, h.length_eq]

/-- The inputs of a reduced function, without `keepdims`. -/
theorem reduceInputs_main [Field K] [NeZero (2 : K)] {f : FA K β} (hf : f.Fine) (A : List String) (L : Finset String)
    (hL : ∀ ax, ax ∈ L ↔ ax ∈ A ∧ f.Vertex ax) :
    ∃ i c, f.reduceInputs A false = .ok i ∧ i.WF ∧
      (∀ ax, get? i.shape ax = if ax ∈ A then none else get? f.inputs.shape ax) ∧ IsCenters f.inputs L c ∧
      ∀ e l, SA.IsSlab c (f.inputs.axes.filter (· ∈ A)) e l → i.at' e = SA.meanOf (l.map c.at') := by
  obtain ⟨cs, hcs, hcm⟩ := axesCenter_main hf
  obtain ⟨c, c1, c2, c3, c4⟩ := C32_cell_centers f.inputs hf.1.1 (some (A.filter (· ∉ cs)))
  have hLc : centerAxes f.inputs (some (A.filter (· ∉ cs))) = L := by
    ext ax
    rw [hL]
    have : ax ∈ centerAxes f.inputs (some (A.filter (· ∉ cs))) ↔ (ax ∈ A ∧ ax ∉ cs) ∧ ax ∈ f.inputs.axes := by
      simp [centerAxes, and_comm]
    rw [this, hcm]
    constructor
    · rintro ⟨⟨h1, h2⟩, h3⟩
      refine ⟨h1, ?_⟩
      by_contra hV
      exact h2 ⟨Or.inl h3, hV⟩
    · rintro ⟨h1, h2⟩
      refine ⟨⟨h1, fun h => h.2 h2⟩, ?_⟩
      obtain ⟨n, h3, _⟩ := h2
      rw [← SA.keys_shape hf.1.1]
      exact mem_keys_of_get? h3
  rw [hLc] at c3 c4
  have hax : ∀ ax, ax ∈ c.axes ↔ ax ∈ f.inputs.axes := by
    intro ax
    rw [← SA.keys_shape c2, ← SA.keys_shape hf.1.1, ← get?_isSome, ← get?_isSome, c3 ax]
    split <;> simp
  have hsub : c.shape.keys.filter (· ∈ A) ⊆ c.axes := by
    rw [SA.keys_shape c2]; exact List.filter_subset' _
  have hnd : (c.shape.keys.filter (· ∈ A)).Nodup := (SA.wf_shape c2).filter _
  obtain ⟨r, r1, r2, r3, r4, _⟩ := SA.C17_reduce c c2 none (by intro w h; cases h) _ hnd hsub false mean false (by simp)
  refine ⟨r, c, ?_, r2, ?_, ⟨c2, c3, c4⟩, ?_⟩
  · unfold reduceInputs
    rw [if_neg (by simp), hcs]
    simp only [bind, Except.bind]
    rw [c1]
    exact r1
  · intro ax
    rw [r4, SA.keys_shape c2, c3]
    have hno : ax ∉ f.inputs.axes → get? f.inputs.shape ax = none := fun h => by
      rw [get?_eq_none, SA.keys_shape hf.1.1]; exact h
    by_cases h : ax ∈ A
    · rw [if_pos h]
      by_cases h' : ax ∈ c.axes
      · rw [if_pos (by simp [h, h'])]; rfl
      · rw [if_neg (by simp [h']), hno (fun h2 => h' ((hax ax).2 h2))]
        simp
    · rw [if_neg (by simp [h]), if_neg (fun h2 => h ((hL ax).1 h2).1), if_neg h]
  · intro e l hl
    rw [SA.C17_reduce_orderless c c2 none (by intro w h; cases h) _ hnd hsub false mean orderless_mean false r r1 e l
      (by
        refine ⟨hl.1, fun e' => (hl.2 e').trans ?_⟩
        have : ∀ ax, ax ∈ c.shape.keys.filter (· ∈ A) ↔ ax ∈ f.inputs.axes.filter (· ∈ A) := by
          intro ax
          rw [SA.keys_shape c2, List.mem_filter, List.mem_filter, hax]
        simp only [this])]
    rw [filter_none]
    rfl

/-- The outputs of a reduced function. -/
theorem reduceOutputs_main {a : SA β} (ha : a.WF) (A : List String) (need : Bool) (g : List β → γ) (kd : Bool)
    (hne : ¬ (need = true ∧ SA.EmptySlab a (a.axes.filter (· ∈ A)))) :
    ∃ o, a.reduce need g (some (a.shape.keys.filter (· ∈ A))) kd none none = .ok o ∧ o.WF ∧
      (∀ ax, get? o.shape ax =
        if ax ∈ A then (if kd = true ∧ ax ∈ a.axes then some 1 else none) else get? a.shape ax) ∧
      ∀ e, ∃ l, SA.IsSlab a (a.axes.filter (· ∈ A)) e l ∧ o.at' e = g (l.map a.at') := by
  rw [SA.keys_shape ha]
  obtain ⟨o, h1, h2, _, h4, h5⟩ := SA.C17_reduce a ha none (by intro w h; cases h) (a.axes.filter (· ∈ A))
    (ha.2.filter _) (List.filter_subset' _) need g kd hne
  refine ⟨o, h1, h2, fun ax => ?_, fun e => ?_⟩
  · rw [h4]
    by_cases h : ax ∈ A
    · rw [if_pos h]
      by_cases h' : ax ∈ a.axes
      · rw [if_pos (by simp [h, h'])]; simp [h']
      · rw [if_neg (by simp [h']), if_neg (by simp [h'])]
        rw [get?_eq_none, SA.keys_shape ha]; exact h'
    · rw [if_neg (by simp [h]), if_neg h]
  · obtain ⟨l, hl, h6⟩ := h5 e
    refine ⟨l, hl, ?_⟩
    rw [h6, filter_none]

/-! ### C75 -/

/-- The axes which `axis` selects: all axes of the function if it is `None`. -/
def Selects (f : FA α β) (axis : Option (List String)) (A : List String) : Prop :=
  match axis with
  | none => ∀ ax, ax ∈ A ↔ ax ∈ f.inputs.axes ∨ ax ∈ f.outputs.axes
  | some l => A = l ∧ ∀ ax ∈ l, ax ∈ f.inputs.axes ∨ ax ∈ f.outputs.axes

theorem reduce_run [Field K] {f : FA K β} (hf : f.Fine) (axis : Option (List String)) (A : List String)
    (hA : f.Selects axis A) (need : Bool) (g : List β → γ) (kd : Bool) :
    ∃ B, (∀ ax, ax ∈ B ↔ ax ∈ A) ∧ f.reduce need g axis kd = (do
      let i ← f.reduceInputs B kd
      let o ← f.outputs.reduce need g (some (f.outputs.shape.keys.filter (· ∈ B))) kd none none
      .ok ⟨i, o⟩) := by
  obtain ⟨s, _, hs, _, _, _, hk, _⟩ := shape_main hf
  refine ⟨axis.getD s.keys, ?_, ?_⟩
  · intro ax
    cases axis with
    | none => rw [Option.getD_none, hk]; exact (hA ax).symm
    | some l => rw [Option.getD_some, hA.1]
  · unfold reduce
    rw [hs]
    simp only [bind, Except.bind]
    rw [if_neg]
    cases axis with
    | none => simp
    | some l =>
      simp only [Option.isSome_some, Option.getD_some, Bool.true_and, Bool.not_eq_true', Bool.not_eq_false]
      rw [List.all_eq_true]
      intro x hx
      rw [decide_eq_true_eq, hk]
      exact hA.2 x hx

/-- **C75** Reducing a function with `keepdims=False` drops the axes of both its inputs and outputs. An output is the
reduction of the outputs which it replaces, an input is the mean of the centers of the cells which it replaces. -/
theorem C75_reduce [Field K] [NeZero (2 : K)] (f : FA K β) (hf : f.Fine) (axis : Option (List String))
    (A : List String) (hA : f.Selects axis A) (L : Finset String) (hL : ∀ ax, ax ∈ L ↔ ax ∈ A ∧ f.Vertex ax)
    (need : Bool) (g : List β → γ)
    (hne : ¬ (need = true ∧ SA.EmptySlab f.outputs (f.outputs.axes.filter (· ∈ A)))) :
    ∃ r c, f.reduce need g axis false = .ok r ∧ r.Fine ∧
      (∀ ax, get? r.inputs.shape ax = if ax ∈ A then none else get? f.inputs.shape ax) ∧
      (∀ ax, get? r.outputs.shape ax = if ax ∈ A then none else get? f.outputs.shape ax) ∧
      IsCenters f.inputs L c ∧
      (∀ e l, SA.IsSlab c (f.inputs.axes.filter (· ∈ A)) e l → l ≠ [] →
        r.inputs.at' e = SA.meanOf (l.map c.at')) ∧
      ∀ e, ∃ l, SA.IsSlab f.outputs (f.outputs.axes.filter (· ∈ A)) e l ∧
        r.outputs.at' e = g (l.map f.outputs.at') := by
  obtain ⟨B, hB, hrun⟩ := reduce_run hf axis A hA need g false
  have hfil : ∀ m : List String, m.filter (· ∈ B) = m.filter (· ∈ A) := fun m => by
    apply List.filter_congr
    intro x _
    simp [hB]
  obtain ⟨i, c, h1, h2, h3, h4, h5⟩ := reduceInputs_main hf B L (fun ax => by rw [hL, hB])
  obtain ⟨o, o1, o2, o3, o4⟩ := reduceOutputs_main hf.1.2 B need g false (by rw [hfil]; exact hne)
  have hi : ∀ ax, get? i.shape ax = if ax ∈ A then none else get? f.inputs.shape ax := fun ax => by
    rw [h3]; simp [hB]
  have ho : ∀ ax, get? o.shape ax = if ax ∈ A then none else get? f.outputs.shape ax := fun ax => by
    rw [o3]; simp [hB]
  refine ⟨⟨i, o⟩, c, ?_, ⟨⟨h2, o2⟩, ?_⟩, hi, ho, h4, ?_, ?_⟩
  · rw [hrun, h1]
    simp only [bind, Except.bind]
    rw [o1]
  · rintro ax ⟨m, n, g1, g2, g3⟩
    have g1' : get? i.shape ax = some m := g1
    have g2' : get? o.shape ax = some n := g2
    by_cases h : ax ∈ A
    · rw [hi, if_pos h] at g1'; cases g1'
    · rw [hi, if_neg h] at g1'
      rw [ho, if_neg h] at g2'
      exact hf.2 ax ⟨m, n, g1', g2', g3⟩
  · intro e l hl _
    exact h5 e l (by rw [hfil]; exact hl)
  · intro e
    obtain ⟨l, hl, h⟩ := o4 e
    rw [hfil] at hl
    exact ⟨l, hl, h⟩

/-- **C75** If the outputs have all of the reduced axes (with the sizes of the function), then for a function which
does not depend on the order, an output of the result is the reduction of the outputs of all cells of the function. -/
theorem C75_reduce_cells [Field K] [NeZero (2 : K)] (f : FA K β) (hf : f.Fine) (s : Shape) (hs : f.shape = .ok s)
    (A : List String) (hout : ∀ ax ∈ A, ax ∈ f.outputs.axes ∧ get? f.outputs.shape ax = get? s ax)
    (need : Bool) (g : List β → γ) (hg : SA.Orderless g) (r : FA K γ) (hr : f.reduce need g (some A) false = .ok r)
    (e : String → Nat) (l : List (String → Nat)) (hl : l.Nodup)
    (hcells : ∀ e', e' ∈ l ↔ (∀ ax ∈ A, ∃ n, get? s ax = some n ∧ e' ax < n) ∧ ∀ ax, ax ∉ A → e' ax = e ax) :
    r.outputs.at' e = g (l.map f.outputs.at') := by
  obtain ⟨B, hB, hrun⟩ := reduce_run hf (some A) A ⟨rfl, fun ax h => Or.inr (hout ax h).1⟩ need g false
  rw [hrun] at hr
  cases hi : f.reduceInputs B false with
  | error x => rw [hi] at hr; cases hr
  | ok i =>
    rw [hi] at hr
    simp only [bind, Except.bind] at hr
    cases ho : f.outputs.reduce need g (some (f.outputs.shape.keys.filter (· ∈ B))) false none none with
    | error x => rw [ho] at hr; cases hr
    | ok o =>
      rw [ho] at hr
      injection hr with hr
      subst hr
      rw [SA.keys_shape hf.1.2] at ho
      have := SA.C17_reduce_orderless f.outputs hf.1.2 none (by intro w h; cases h) (f.outputs.axes.filter (· ∈ B))
        (hf.1.2.2.filter _) (List.filter_subset' _) need g hg false o ho e l ⟨hl, fun e' => (hcells e').trans (by
          have hm : ∀ ax, ax ∈ f.outputs.axes.filter (· ∈ B) ↔ ax ∈ A := fun ax => by
            simp only [List.mem_filter, decide_eq_true_eq, hB]
            exact ⟨fun h => h.2, fun h => ⟨(hout ax h).1, h⟩⟩
          simp only [hm]
          refine and_congr_left (fun _ => forall_congr' (fun ax => forall_congr' (fun h => ?_)))
          rw [(hout ax h).2])⟩
      rw [show FA.outputs ⟨i, o⟩ = o from rfl, this, filter_none]

/-- **C75** Reducing along an axis which the function does not have, or reducing no elements with a function which has no
value there (`np.min`, `np.max`), is an error. -/
theorem C75_error [Field K] [NeZero (2 : K)] (f : FA K β) (hf : f.Fine) (need : Bool) (g : List β → γ) (kd : Bool) :
    (∀ A : List String, (∃ ax ∈ A, ax ∉ f.inputs.axes ∧ ax ∉ f.outputs.axes) →
      f.reduce need g (some A) kd = .error .valueError) ∧
    ∀ axis A, f.Selects axis A → need = true → SA.EmptySlab f.outputs (f.outputs.axes.filter (· ∈ A)) →
      f.reduce need g axis kd = .error .valueError := by
  refine ⟨fun A hA => ?_, fun axis A hA hn hE => ?_⟩
  · obtain ⟨s, _, hs, _, _, _, hk, _⟩ := shape_main hf
    obtain ⟨ax, h1, h2, h3⟩ := hA
    unfold reduce
    rw [hs]
    simp only [bind, Except.bind]
    rw [if_pos]
    simp only [Option.isSome_some, Option.getD_some, Bool.true_and, Bool.not_eq_true', List.all_eq_false]
    exact ⟨ax, h1, by rw [decide_eq_true_eq, hk]; simp [h2, h3]⟩
  · obtain ⟨B, hB, hrun⟩ := reduce_run hf axis A hA need g kd
    have hfil : f.outputs.shape.keys.filter (· ∈ B) = f.outputs.axes.filter (· ∈ A) := by
      rw [SA.keys_shape hf.1.2]
      apply List.filter_congr
      intro x _
      simp [hB]
    have hi : ∃ i, f.reduceInputs B kd = .ok i := by
      cases kd with
      | true => exact ⟨f.inputs, rfl⟩
      | false =>
        classical
        obtain ⟨i, c, h, _⟩ := reduceInputs_main hf B (B.toFinset.filter (fun ax => f.Vertex ax)) (fun ax => by simp)
        exact ⟨i, h⟩
    obtain ⟨i, hi⟩ := hi
    rw [hrun, hi]
    simp only [bind, Except.bind]
    rw [hfil, SA.C17_error f.outputs hf.1.2 none (by intro w h; cases h) _ need g kd (Or.inr (Or.inr ⟨hn, hE⟩))]

/-- **C75** With `keepdims=True`, the default, the inputs are not changed and the outputs have size one along the reduced
axes which they have. -/
theorem C75_keepdims [Field K] (f : FA K β) (hf : f.Fine) (axis : Option (List String))
    (A : List String) (hA : f.Selects axis A) (need : Bool) (g : List β → γ)
    (hne : ¬ (need = true ∧ SA.EmptySlab f.outputs (f.outputs.axes.filter (· ∈ A)))) :
    ∃ r, f.reduce need g axis true = .ok r ∧ r.Valid ∧ r.inputs = f.inputs ∧
      (∀ ax, get? r.outputs.shape ax =
        if ax ∈ A ∧ ax ∈ f.outputs.axes then some 1 else get? f.outputs.shape ax) ∧
      ∀ e, ∃ l, SA.IsSlab f.outputs (f.outputs.axes.filter (· ∈ A)) e l ∧
        r.outputs.at' e = g (l.map f.outputs.at') := by
  obtain ⟨B, hB, hrun⟩ := reduce_run hf axis A hA need g true
  have hfil : ∀ m : List String, m.filter (· ∈ B) = m.filter (· ∈ A) := fun m => by
    apply List.filter_congr
    intro x _
    simp [hB]
  obtain ⟨o, o1, o2, o3, o4⟩ := reduceOutputs_main hf.1.2 B need g true (by rw [hfil]; exact hne)
  refine ⟨⟨f.inputs, o⟩, ?_, ⟨hf.1.1, o2⟩, rfl, fun ax => ?_, fun e => ?_⟩
  · rw [hrun]
    simp only [reduceInputs, if_pos, bind, Except.bind]
    rw [o1]
  · show get? o.shape ax = _
    rw [o3]
    simp only [hB, true_and]
    by_cases h : ax ∈ A
    · by_cases h' : ax ∈ f.outputs.axes
      · simp [h, h']
      · rw [if_pos h, if_neg h', if_neg (fun q => h' q.2)]
        symm
        rw [get?_eq_none, SA.keys_shape hf.1.2]; exact h'
    · simp [h]
  · obtain ⟨l, hl, h⟩ := o4 e
    rw [hfil] at hl
    exact ⟨l, hl, h⟩

/-- **C75** The cells of a function are lost with `keepdims=True`: along a vertex axis of `n ≥ 2` cells, the result has
`n + 1` points, at each of which it has the value of the whole axis. -/
theorem C75_keepdims_refuted [Field K] (f : FA K β) (hf : f.Fine) (ax : String) (n : Nat) (hV : f.Vertex ax)
    (hn : get? f.outputs.shape ax = some n) (h2 : 2 ≤ n) (g : List β → γ) :
    ∃ r s s', f.reduce false g (some [ax]) true = .ok r ∧ r.Fine ∧ ¬ r.Vertex ax ∧ f.shape = .ok s ∧
      get? s ax = some n ∧ r.shape = .ok s' ∧ get? s' ax = some (n + 1) := by
  obtain ⟨s, _, hs, _, _, _, _, hVs, _⟩ := shape_main hf
  obtain ⟨n', v1, v2, v3⟩ := hVs ax hV
  rw [hn] at v2
  injection v2 with v2
  subst v2
  have hox : ax ∈ f.outputs.axes := by rw [← SA.keys_shape hf.1.2]; exact mem_keys_of_get? hn
  obtain ⟨r, r1, r2, r3, r4, _⟩ := C75_keepdims f hf (some [ax]) [ax]
    ⟨rfl, fun x hx => by rw [List.mem_singleton.1 hx]; exact Or.inr hox⟩ false g (by simp)
  have hro : get? r.outputs.shape ax = some 1 := by rw [r4, if_pos ⟨by simp, hox⟩]
  have hri : get? r.inputs.shape ax = some (n + 1) := by rw [r3]; exact v3
  have hnv : ¬ r.Vertex ax := by
    rintro ⟨m, h, h'⟩
    rw [hri] at h
    rw [hro] at h'
    injection h with h
    injection h' with h'
    omega
  have hrf : r.Fine := by
    refine ⟨r2, ?_⟩
    rintro x ⟨m, k, g1, g2, g3⟩
    by_cases hx : x = ax
    · subst hx
      rw [hri] at g1
      rw [hro] at g2
      injection g1 with g1
      injection g2 with g2
      omega
    · rw [r3] at g1
      rw [r4, if_neg (by simp [hx])] at g2
      exact hf.2 x ⟨m, k, g1, g2, g3⟩
  obtain ⟨s', _, hs', _, _, _, hk', _, hN⟩ := shape_main hrf
  have hmem : ax ∈ keys s' := (hk' ax).2 (Or.inl (by rw [← SA.keys_shape r2.1]; exact mem_keys_of_get? hri))
  obtain ⟨k, hk⟩ := exists_get?_of_mem hmem
  have := (hN ax k hnv hk).2
  refine ⟨r, s, s', r1, hrf, hnv, hs, v1, hs', ?_⟩
  rw [hk]
  rcases this.1 _ hri with h | h
  · rw [h]
  · omega

/-- **C75** `np.cumsum` and `np.cumprod` of a function keep its inputs; the output at a position along the axis is the
reduction of the outputs up to this position, where outputs without this axis are repeated along it. -/
theorem C75_cumulative (f : FA α β) (hf : f.Fine) (s : Shape) (hs : f.shape = .ok s) (ax : String) (n : Nat)
    (hn : get? s ax = some n) (g : List β → β) :
    ∃ r, f.cumulative g (some [ax]) = .ok r ∧ r.Valid ∧ r.inputs = f.inputs ∧
      r.outputs.shape = f.outputs.shape.set ax n ∧
      ∀ e, e ax < n → r.outputs.at' e =
        g ((List.range (e ax + 1)).map (fun k => f.outputs.atB (Function.update e ax k))) := by
  obtain ⟨s', v, hs', _, _, _, _, hV, hN⟩ := shape_main hf
  rw [hs] at hs'
  injection hs' with hs'
  subst hs'
  have hfit : ∀ m, get? f.outputs.shape ax = some m → m = n ∨ m = 1 := by
    intro m hm
    by_cases hx : f.Vertex ax
    · obtain ⟨n', v1, v2, _⟩ := hV ax hx
      rw [hn] at v1
      rw [hm] at v2
      injection v1 with v1
      injection v2 with v2
      exact Or.inl (by omega)
    · exact (hN ax n hx hn).2.2 m hm
  obtain ⟨b, b1, b2, b3, b4⟩ := broadcastTo_single f.outputs hf.1.2 hfit
  obtain ⟨o, o1, o2, _, o4, o5⟩ := SA.C19_cumulative_partial b b2 g ax n
    (by rw [b3, get?_set, if_pos rfl]) none (by intro o h; cases h)
  refine ⟨⟨f.inputs, o⟩, ?_, ⟨hf.1.1, o2⟩, rfl, ?_, ?_⟩
  · unfold cumulative
    rw [hs]
    simp only [bind, Except.bind, Option.getD_some]
    rw [hn]
    dsimp only
    rw [b1]
    dsimp only
    rw [o1]
  · rw [← b3]; exact o4
  · intro e he
    show o.at' e = _
    rw [o5 e he]
    simp only [b4]

/-- **C75** Cumulative reductions along an axis which the function does not have raise a `KeyError`, along several axes or
none a `ValueError`. -/
theorem C75_cumulative_error (f : FA α β) (hf : f.Fine) (g : List β → β) :
    (∀ ax, ax ∉ f.inputs.axes → ax ∉ f.outputs.axes → f.cumulative g (some [ax]) = .error .keyError) ∧
    ∀ A : List String, A.length ≠ 1 → f.cumulative g (some A) = .error .valueError := by
  obtain ⟨s, _, hs, _, _, _, hk, _⟩ := shape_main hf
  constructor
  · intro ax h1 h2
    unfold cumulative
    rw [hs]
    simp only [bind, Except.bind, Option.getD_some]
    rw [(get?_eq_none).2 (by rw [hk]; simp [h1, h2])]
  · intro A hA
    unfold cumulative
    rw [hs]
    simp only [bind, Except.bind, Option.getD_some]
    match A, hA with
    | [], _ => rfl
    | [x], h => exact absurd rfl h
    | x :: y :: l, _ => rfl

/-- **C75** An axis which only the inputs have does not count: the reduction is the one of a single output, however many
points the function has along this axis. -/
theorem C75_absent_axis [Field K] [NeZero (2 : K)] (f : FA K β) (hf : f.Fine) (ax : String)
    (hi : ax ∈ f.inputs.axes) (ho : ax ∉ f.outputs.axes) (need : Bool) (g : List β → γ) (kd : Bool) :
    ∃ r, f.reduce need g (some [ax]) kd = .ok r ∧ r.Valid ∧ ∀ e, r.outputs.at' e = g [f.outputs.at' e] := by
  have hfil : f.outputs.axes.filter (· ∈ [ax]) = [] := by
    rw [List.filter_eq_nil_iff]
    intro x hx
    simp only [List.mem_singleton, decide_eq_true_eq]
    rintro rfl
    exact ho hx
  have hsel : f.Selects (some [ax]) [ax] := ⟨rfl, fun x hx => by rw [List.mem_singleton.1 hx]; exact Or.inl hi⟩
  have hne : ¬ (need = true ∧ SA.EmptySlab f.outputs (f.outputs.axes.filter (· ∈ [ax]))) := by
    rw [hfil]
    rintro ⟨_, ⟨x, hx, _⟩, _⟩
    cases hx
  have key : ∀ e l, SA.IsSlab f.outputs (f.outputs.axes.filter (· ∈ [ax])) e l → l = [e] := by
    intro e l hl
    rw [hfil] at hl
    have h1 : ∀ x, x ∈ l ↔ x = e := fun x => (hl.2 x).trans
      ⟨fun h => funext (fun a => h.2 a (by simp)), fun h => by subst h; simp⟩
    match l, hl.1, h1 with
    | [], _, h1 => exact absurd ((h1 e).2 rfl) (by simp)
    | [x], _, h1 => rw [(h1 x).1 (by simp)]
    | x :: y :: t, hn, h1 =>
      have := (h1 x).1 (by simp)
      have := (h1 y).1 (by simp)
      simp_all
  cases kd with
  | true =>
    obtain ⟨r, r1, r2, _, _, r5⟩ := C75_keepdims f hf (some [ax]) [ax] hsel need g hne
    refine ⟨r, r1, r2, fun e => ?_⟩
    obtain ⟨l, hl, h⟩ := r5 e
    rw [h, key e l hl]; rfl
  | false =>
    classical
    obtain ⟨r, c, r1, r2, _, _, _, _, r5⟩ := C75_reduce f hf (some [ax]) [ax] hsel
      (([ax] : List String).toFinset.filter (fun x => f.Vertex x)) (fun x => by simp) need g hne
    refine ⟨r, r1, r2.1, fun e => ?_⟩
    obtain ⟨l, hl, h⟩ := r5 e
    rw [h, key e l hl]; rfl

/-! ### Examples -/

/-- Five on three points of an axis: the outputs lack this axis. -/
def exFlat : FA ℚ ℚ := ⟨⟨["x"], ⟨[3], fun i => i.headD 0⟩⟩, SA.scalar 5⟩

/-- Three cells with edges 0, 2, 6, 8, and the outputs 1, 10, 100. -/
def exEdges : FA ℚ ℚ :=
  ⟨⟨["x"], ⟨[4], fun i => ([0, 2, 6, 8] : List ℚ).getD (i.headD 0) 0⟩⟩,
    ⟨["x"], ⟨[3], fun i => ([1, 10, 100] : List ℚ).getD (i.headD 0) 0⟩⟩⟩

def list' (r : R (FA ℚ ℚ)) : Option (List ℚ × List ℚ) :=
  match r with
  | .ok f => some (f.inputs.nd.toList, f.outputs.nd.toList)
  | .error _ => none

theorem fine_exEdges : exEdges.Fine ∧ exEdges.Vertex "x" := by
  have hi : exEdges.inputs.shape = [("x", 4)] := by decide
  have ho : exEdges.outputs.shape = [("x", 3)] := by decide
  refine ⟨⟨⟨by constructor <;> decide, by constructor <;> decide⟩, ?_⟩, 3, by rw [hi]; rfl, by rw [ho]; rfl⟩
  rintro ax ⟨m, n, h1, h2, h3⟩
  rw [hi] at h1
  rw [ho] at h2
  simp only [get?_cons, get?_nil] at h1 h2
  split at h1
  · next h =>
    rw [if_pos h] at h2
    injection h1 with h1
    injection h2 with h2
    omega
  · cases h1

theorem fine_exFlat : exFlat.Fine := by
  refine ⟨⟨by constructor <;> decide, by constructor <;> decide⟩, ?_⟩
  rintro ax ⟨m, n, _, h2, _⟩
  have ho : exFlat.outputs.shape = [] := by decide
  rw [ho] at h2
  cases h2

/-- The inputs are the mean of the centers 1, 4 and 7; the outputs add up. -/
example : list' (exEdges.reduce false List.sum (some ["x"]) false) = some ([4], [111]) := by decide +kernel
example : list' (exEdges.reduce false List.sum none true) = some ([0, 2, 6, 8], [111]) := by decide +kernel
example : list' (exEdges.cumulative List.sum none) = some ([0, 2, 6, 8], [1, 11, 111]) := by decide +kernel
example : exEdges.Selects none ["x"] ∧ exEdges.Selects (some ["x"]) ["x"] := by
  constructor
  · intro ax
    simp [exEdges]
  · exact ⟨rfl, fun ax h => by simp at h; simp [exEdges, h]⟩

/-- **C75** The sum of a function is not the sum over its points if the outputs lack the axis: it is 5 instead of 15, the sum
of the broadcasted function and the last element of the cumulative sum. -/
theorem C75_sum_refuted : ∃ f : FA ℚ ℚ, f.Fine ∧ f.shape = .ok [("x", 3)] ∧
    list' (f.reduce false List.sum (some ["x"]) false) = some ([1], [5]) ∧
    list' (do let b ← f.broadcasted; b.reduce false List.sum (some ["x"]) false) = some ([1], [15]) ∧
    list' (f.cumulative List.sum (some ["x"])) = some ([0, 1, 2], [5, 10, 15]) :=
  ⟨exFlat, fine_exFlat, by decide +kernel, by decide +kernel, by decide +kernel, by decide +kernel⟩

end FA
end NA
