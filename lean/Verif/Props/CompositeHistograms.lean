import Verif.Props.HistogramBins
import Verif.Props.UncertainRoots
import Verif.Props.Convolution
import Verif.Uncertain.Histogram
import Verif.Vector.Histogram

/-!
# Histograms of uncertain scalars and of vectors (C108)
-/

namespace NA
open Dict
open SA (FitsIn InRange)
open NA.Comp (SlabOf)

section
variable {K : Type} [Field K] [LinearOrder K]

/-! ### Specification -/

/-- One dimension of a histogram which is given by the smallest and the largest edge and by the number of equal bins. -/
structure Span (K : Type) where
  lo : SA K
  hi : SA K
  axis : String
  num : Nat

/-- The edges of the dimension `D` are equidistant from `lo` to `hi`. -/
def Equidistant (S : Shape) (A : List String) (g : Span K) (D : Dim K) : Prop :=
  D.axis = g.axis ∧ D.num = g.num ∧
    ∀ e, OutsideRange S A e → ∀ k ≤ g.num, D.edge e k = g.lo.atB e + (k : K) * ((g.hi.atB e - g.lo.atB e) / (g.num : K))

/-- The sum of the weights (the number, without weights) of the samples at the indices `l` which satisfy `P`. -/
def weightOf (weights : Option (SA K)) (l : List (String → Nat)) (P : (String → Nat) → Prop) [DecidablePred P] : K :=
  ((l.filter (fun e' => decide (P e'))).map (weightsOf weights).atB).sum

/-- The array `hist` is the histogram of samples of shape `S` over the axes `A`: it has one axis of bins for each dimension, next to the
axes which are not summed over, and each element is the sum of the weights of the samples whose coordinates are all in the bin. -/
def IsHistogram (S : Shape) (A : List String) (samples : List (SA K)) (weights : Option (SA K)) (dims : List (Dim K)) (hist : SA K) :
    Prop :=
  hist.WF ∧ HistShape S A dims hist.shape ∧
    (∀ e, InRange hist.shape e → ∃ l, SlabOf S A e l ∧
      hist.at' e = weightOf weights l (fun e' => Sampled dims e (samples.map (fun s => s.atB e')))) ∧
    ((∀ D ∈ dims, 0 < D.num) → ∀ e, OutsideRange S A e → ∀ L l, SlabOf hist.shape (dims.map Dim.axis) e L → SlabOf S A e l →
      (L.map hist.at').sum = weightOf weights l (fun e' => Covered dims e (samples.map (fun s => s.atB e'))))

/-- The shapes `T` of the nominal values and of the samples of several operands together: every component broadcasts to them, no size is
larger than necessary, and both have the same axes besides the axis of the samples. -/
structure JointShape {α : Type} (args : List (UArg α)) (T : Side → Shape) : Prop where
  paired : UA.Paired T
  wfs : Dict.WF (T .samples)
  ok : ∀ a ∈ args, a.Ok ∧ ¬ a.Reserved
  fits : ∀ a ∈ args, ∀ p, FitsIn (a.side p).shape (T p)
  exact : ∀ ax n, get? (T .samples) ax = some n → ∃ a ∈ args, ∃ p, get? (a.side p).shape ax = some n

/-- The axes `A` are those over which a histogram sums: the given ones, or all of them. -/
structure SumAxes (S : Shape) (axis : Option (List String)) (A : List String) : Prop where
  nodup : A.Nodup
  sub : A ⊆ keys S
  axes : axis = some A ∨ (axis = none ∧ ∀ x ∈ keys S, x ∈ A)

/-- One dimension of a histogram of uncertain scalars: the edges, their new axis, and the number of bins. -/
structure UDim (K : Type) where
  edges : UArg K
  axis : String
  num : Nat

/-- The dimension for the nominal value or for the samples. -/
def UDim.side (D : UDim K) (p : Side) : Dim K := ⟨D.edges.side p, D.axis, D.num⟩

/-- The dimensions of a histogram of uncertain scalars. -/
structure GoodUDims (T : Side → Shape) (A : List String) (dims : List (UDim K)) : Prop where
  ok : ∀ D ∈ dims, D.edges.Ok ∧ ¬ D.edges.Reserved
  axis : ∀ D ∈ dims, D.axis ≠ axisD
  good : ∀ p, GoodDims (T p) A (dims.map (·.side p))

/-- The nominal value of `hist` is the histogram of the nominal values, and each sample is the histogram of this sample. -/
def IsUHistogram (T : Side → Shape) (A : List String) (samples : List (UArg K)) (weights : Option (UArg K)) (dims : List (UDim K))
    (hist : UA K) : Prop :=
  hist.Valid ∧ ∀ p, IsHistogram (T p) A (samples.map (·.side p)) (weights.map (·.side p)) (dims.map (·.side p)) (hist.side p)

/-! ### Equal bins -/

variable [IsStrictOrderedRing K] {S : Shape} {A : List String}

theorem spans_ok (hS : WF S) : ∀ gs : List (Span K), (∀ g ∈ gs, Bounds S A g.lo g.hi) → (∀ g ∈ gs, g.axis ∈ keys S → g.axis ∈ A) →
    (gs.map Span.axis).Nodup →
    ∃ dims, List.Forall₂ (Equidistant S A) gs dims ∧ GoodDims S A dims ∧
      (((gs.map Span.lo).zip (gs.map Span.hi)).zip (gs.map fun g => (g.axis, ((g.num + 1 : Nat) : Int)))).mapM
        (fun q => SA.linspace q.1.1 q.1.2 q.2.1 q.2.2 true false) = .ok (dims.map Dim.edges) := by
  intro gs hb hax hn
  have key : ∃ dims, List.Forall₂ (Equidistant S A) gs dims ∧ (∀ D ∈ dims, GoodDims S A [D]) ∧
      (((gs.map Span.lo).zip (gs.map Span.hi)).zip (gs.map fun g => (g.axis, ((g.num + 1 : Nat) : Int)))).mapM
        (fun q => SA.linspace q.1.1 q.1.2 q.2.1 q.2.2 true false) = .ok (dims.map Dim.edges) := by
    clear hn
    induction gs with
    | nil => exact ⟨[], .nil, by simp, rfl⟩
    | cons g gs ih =>
      obtain ⟨dims, d1, d2, d3⟩ := ih (fun g hg => hb g (by simp [hg])) (fun g hg => hax g (by simp [hg]))
      obtain ⟨r, r1, r2, r3⟩ := linspace_dim hS (hb g (by simp)) (hax g (by simp)) g.num
      refine ⟨⟨r, g.axis, g.num⟩ :: dims, .cons ⟨rfl, rfl, r3⟩ d1, ?_, ?_⟩
      · intro D hD
        rcases List.mem_cons.1 hD with rfl | hD
        · exact r2
        · exact d2 D hD
      · simp only [List.map_cons, List.zip_cons_cons]
        rw [List.mapM_cons, d3]
        simp only [bind, Except.bind, r1]
        rfl
  obtain ⟨dims, d1, d2, d3⟩ := key
  refine ⟨dims, d1, GoodDims.single d2 ?_, d3⟩
  have : dims.map Dim.axis = gs.map Span.axis := by
    clear * - d1
    induction d1 with
    | nil => rfl
    | cons h _ ih => simp only [List.map_cons, ih, h.1]
  rw [this]
  exact hn

theorem wf_of_samples {samples : List (SA K)} {weights : Option (SA K)} {axis : Option (List String)}
    (hs : GoodSamples samples weights axis S A) : WF S :=
  (C01_broadcast_shapes_ok _ (by
    intro s hm
    rw [List.mem_append, List.mem_singleton] at hm
    rcases hm with hm | rfl
    · obtain ⟨a, ha, rfl⟩ := List.mem_map.1 hm
      exact SA.wf_shape (hs.wf a ha)
    · exact SA.wf_shape hs.wfw) S hs.shape).1

/-- `na.histogramdd` with numbers of bins and bounds is `na.histogramdd` with equidistant edges. -/
theorem histogramdd_spans {samples : List (SA K)} {weights : Option (SA K)} {axis : Option (List String)}
    (hs : GoodSamples samples weights axis S A) {gs : List (Span K)} (hl : samples.length = gs.length)
    (hb : ∀ g ∈ gs, Bounds S A g.lo g.hi) (hax : ∀ g ∈ gs, g.axis ∈ keys S → g.axis ∈ A) (hn : (gs.map Span.axis).Nodup)
    (min max : Option (List (SA K)))
    (hbounds : ∀ ss p, pairUp samples weights = .ok p → samples.mapM (fun s => s.broadcastTo p.shape) = .ok ss →
      boundsOf listMin ss (axis.getD p.shape.keys) min = .ok (gs.map Span.lo) ∧
      boundsOf listMax ss (axis.getD p.shape.keys) max = .ok (gs.map Span.hi)) :
    ∃ dims, List.Forall₂ (Equidistant S A) gs dims ∧ GoodDims S A dims ∧ ∀ (density : Bool) (garbage : List Nat → K),
      histogramdd samples (.counts (gs.map fun g => (g.axis, ((g.num + 1 : Nat) : Int)))) axis min max density weights garbage =
        histogramdd samples (.edges (dims.map Dim.edges)) axis none none density weights garbage := by
  obtain ⟨dims, d1, d2, d3⟩ := spans_ok (wf_of_samples hs) gs hb hax hn
  obtain ⟨p, p1, p2, p3, p4⟩ := pairUp_ok samples hs.wf weights hs.wfw hs.shape
  obtain ⟨ss, s1, s2, _⟩ := histBroadcast hs (SA.wf_shape p2) p3
  obtain ⟨b1, b2⟩ := hbounds ss p p1 s1
  refine ⟨dims, d1, d2, fun density garbage => ?_⟩
  refine histogramdd_counts p1 s1 (E := dims.map Dim.edges) ?_ rfl
  simp only [edgesOf, bind, Except.bind, b1, b2]
  rw [if_neg (by rw [s2, hl]; simp)]
  exact d3

/-- The histogram of the scalars. -/
theorem histogramdd_is {samples : List (SA K)} {weights : Option (SA K)} {axis : Option (List String)}
    (hs : GoodSamples samples weights axis S A) {dims : List (Dim K)} (hd : GoodDims S A dims) (hl : samples.length = dims.length)
    (min max : Option (List (SA K))) (garbage : List Nat → K) :
    ∃ hist, histogramdd samples (.edges (dims.map Dim.edges)) axis min max false weights garbage = .ok (hist, dims.map Dim.edges) ∧
      IsHistogram S A samples weights dims hist := by
  obtain ⟨hist, h1, h2, h3, h4⟩ := C58_counts samples weights axis S A hs dims hd hl min max garbage
  exact ⟨hist, h1, h2, h3, h4, fun hpos e he L l hL hsl =>
    C58_total samples weights axis S A hs dims hd hl hpos min max garbage hist _ h1 e he L l hL hsl⟩


theorem histShape_congr {S' : Shape} {A' : List String} (hS : ∀ ax, get? S' ax = get? S ax) (hA : ∀ x, x ∈ A ↔ x ∈ A')
    {dims : List (Dim K)} {X : Shape} (h : HistShape S A dims X) : HistShape S' A' dims X := by
  intro x n
  rw [h x n, hS, hA]

theorem slabOf_congr {S' : Shape} {A' : List String} (hS : ∀ ax, get? S' ax = get? S ax) (hA : ∀ x, x ∈ A ↔ x ∈ A')
    {e : String → Nat} {l : List (String → Nat)} (h : SlabOf S A e l) : SlabOf S' A' e l := by
  refine ⟨h.1, fun e' => ?_⟩
  rw [h.2]
  simp only [hS, hA]

/-- The histogram only depends on the sizes of the axes, the set of the summed axes, and the elements of the samples. -/
theorem IsHistogram.congr {S' : Shape} {A' : List String} (hS : ∀ ax, get? S' ax = get? S ax) (hA : ∀ x, x ∈ A ↔ x ∈ A')
    {samples samples' : List (SA K)} (hs : ∀ e, samples.map (fun s => s.atB e) = samples'.map (fun s => s.atB e))
    {weights weights' : Option (SA K)} (hw : ∀ e, (weightsOf weights).atB e = (weightsOf weights').atB e)
    {dims : List (Dim K)} {hist : SA K} (h : IsHistogram S A samples weights dims hist) :
    IsHistogram S' A' samples' weights' dims hist := by
  obtain ⟨h1, h2, h3, h4⟩ := h
  have hw' : (weightsOf weights).atB = (weightsOf weights').atB := funext hw
  refine ⟨h1, histShape_congr hS hA h2, fun e he => ?_, fun hpos e he L l hL hl => ?_⟩
  · obtain ⟨l, l1, l2⟩ := h3 e he
    refine ⟨l, slabOf_congr hS hA l1, l2.trans ?_⟩
    unfold weightOf
    simp only [hs, hw']
  · have := h4 hpos e (fun x n hx hn => he x n (fun h => hx ((hA x).2 h)) (by rw [hS]; exact hn)) L l hL
      (slabOf_congr (fun ax => (hS ax).symm) (fun x => (hA x).symm) hl)
    rw [this]
    unfold weightOf
    simp only [hs, hw']

/-! ### Shapes -/

section
variable {α : Type}
open UA
open NA.Optimize (ofArg side_ofArg valid_ofArg norm_ofArg bs_of_fits nominal_fits shapeDistribution_fits)

/-- The shape of an operand which broadcasts to `T`. -/
theorem shape_fits {T : Side → Shape} (hT : Paired T) {u : UA α} (hu : FitsU T u) :
    ∃ s, u.shape = .ok s ∧ Dict.WF s ∧ axisD ∉ keys s ∧ FitsIn s (T .nominal) ∧ FitsIn u.nominal.shape s ∧
      (∀ ax m, ax ≠ axisD → get? u.distribution.shape ax = some m → ∃ n, get? s ax = some n ∧ (m = n ∨ m = 1)) ∧
      ∀ ax n p, ax ≠ axisD → get? (u.side p).shape ax = some n → get? (T .nominal) ax = some n → get? s ax = some n := by
  have hv := valid_of_fits hT.noD hu
  obtain ⟨t, t1, t2, t3, t4, t5, _⟩ := shapeDistribution_fits hT hu
  have hs : u.shape = .ok (t.erase axisD) := by
    unfold UA.shape
    simp only [bind, Except.bind, t1]
  obtain ⟨sd, hsd⟩ := shapes_of hv hs
  refine ⟨t.erase axisD, hs, hsd.wf, hsd.noD, t5, hsd.nom, ?_, ?_⟩
  · intro ax m hx hm
    obtain ⟨n, hn, h⟩ := hsd.dist ax m hm
    rw [hsd.get, if_neg hx] at hn
    exact ⟨n, hn, h⟩
  · intro ax n p hx hn hTn
    have : ∃ k, get? (t.erase axisD) ax = some k ∧ (n = k ∨ n = 1) := by
      cases p with
      | nominal => exact hsd.nom ax n hn
      | samples =>
        obtain ⟨k, hk, h⟩ := hsd.dist ax n hn
        rw [hsd.get, if_neg hx] at hk
        exact ⟨k, hk, h⟩
    obtain ⟨k, hk, h⟩ := this
    obtain ⟨j, hj, h'⟩ := t5 ax k hk
    rw [hTn] at hj
    cases hj
    rw [hk]
    congr 1
    omega

/-- Broadcasting an operand to a shape `X` which is not larger than the common shape. -/
theorem spreadTo {T : Side → Shape} (hT : Paired T) {u : UA α} (hu : FitsU T u) {s X : Shape} (hs : u.shape = .ok s) (hX : Dict.WF X)
    (hXT : FitsIn X (T .nominal)) (hsX : FitsIn s X) :
    ∃ v, u.broadcastTo X = .ok v ∧ v.Valid ∧ (∀ ax, get? v.nominal.shape ax = get? X ax) ∧ v.shape = .ok X ∧
      (∀ ax, get? v.distribution.shape ax = if ax = axisD then get? u.distribution.shape axisD else get? X ax) ∧
      FitsU T v ∧ ∀ p e, (v.side p).atB e = (u.side p).atB e := by
  have hv := valid_of_fits hT.noD hu
  have hnoX : axisD ∉ keys X := by
    intro h
    obtain ⟨n, hn⟩ := exists_get?_of_mem h
    obtain ⟨m, hm, _⟩ := hXT _ _ hn
    exact hT.noD (mem_keys_of_get? hm)
  obtain ⟨sd, hsd⟩ := shapes_of hv hs
  obtain ⟨t, t1, t2, t3, t4, t5, _⟩ := shapeDistribution_fits hT hu
  have hst : s = t.erase axisD := by
    unfold UA.shape at hs
    simp only [bind, Except.bind, t1] at hs
    cases hs
    rfl
  -- the sizes of `t` off the samples fit into `X`
  have htX : ∀ ax m, ax ≠ axisD → get? t ax = some m → ∃ n, get? X ax = some n ∧ (m = n ∨ m = 1) := by
    intro ax m hx hm
    refine hsX ax m ?_
    rw [hst, get?_erase_ne hx, hm]
  have htD : get? t axisD = get? u.distribution.shape axisD := by
    have hw : ∀ s ∈ [u.nominal.shape, u.distribution.shape], Dict.WF s := by
      intro s hs
      simp only [List.mem_cons, List.not_mem_nil, or_false] at hs
      rcases hs with rfl | rfl
      · exact SA.wf_shape hv.1
      · exact SA.wf_shape hv.2.1
    have hj := (broadcastShapes_joinOf hw t1).2 axisD
    have hn : get? u.nominal.shape axisD = none := get?_eq_none.2 (by rw [SA.keys_shape hv.1]; exact hv.2.2)
    have : sizesOf [u.nominal.shape, u.distribution.shape] axisD = (get? u.distribution.shape axisD).toList := by
      cases h : get? u.distribution.shape axisD <;> simp [sizesOf, hn, h]
    rw [this] at hj
    exact joinOf_unique (fun _ => Iff.rfl) hj (by cases get? u.distribution.shape axisD <;> simp [JoinOf])
  obtain ⟨c1, c2⟩ := bs_absorb hnoX t2 htX
  obtain ⟨Y, y1, y2⟩ : ∃ Y, broadcastShapes [X, t] = .ok Y ∧
      ∀ ax, get? Y ax = if ax = axisD then get? u.distribution.shape axisD else get? X ax := by
    cases hD : get? t axisD with
    | none =>
      refine ⟨X, c1 (get?_eq_none.1 hD), fun ax => ?_⟩
      split
      · next h => rw [h, ← htD, hD, get?_eq_none.2 hnoX]
      · rfl
    | some k =>
      refine ⟨X ++ [(axisD, k)], c2 k hD, fun ax => ?_⟩
      rw [SA.get?_append]
      split
      · next h =>
        rw [h, ← htD, hD, get?_eq_none.2 hnoX]
        simp [get?_cons]
      · next h =>
        cases get? X ax with
        | some n => rfl
        | none => simp [get?_cons, get?_nil, Ne.symm h]
  have hY : Dict.WF Y := (broadcastShapes_joinOf (ss := [X, t]) (by
    intro s hs
    simp only [List.mem_cons, List.not_mem_nil, or_false] at hs
    rcases hs with rfl | rfl <;> assumption) y1).1
  rcases SA.C10_broadcast_to u.nominal hv.1 X hX with ⟨_, n, n1, n2, n3, n4⟩ | ⟨hn, _⟩
  swap
  · exact absurd (Comp.fitsIn_trans hsd.nom hsX) hn
  have hdY : FitsIn u.distribution.shape Y := by
    intro ax m hm
    by_cases hx : ax = axisD
    · exact ⟨m, by rw [y2, if_pos hx, ← hx, hm], .inl rfl⟩
    · obtain ⟨k, hk, h⟩ := hsd.dist ax m hm
      rw [hsd.get, if_neg hx] at hk
      obtain ⟨j, hj, h'⟩ := hsX ax k hk
      refine ⟨j, by rw [y2, if_neg hx, hj], ?_⟩
      omega
  rcases SA.C10_broadcast_to u.distribution hv.2.1 Y hY with ⟨_, d, d1, d2, d3, d4⟩ | ⟨hd, _⟩
  swap
  · exact absurd hdY hd
  have hnD : axisD ∉ n.axes := by rw [← SA.keys_shape n2, n3]; exact hnoX
  have hval : Valid (⟨n, d⟩ : UA α) := ⟨n2, d2, hnD⟩
  refine ⟨⟨n, d⟩, ?_, hval, fun ax => by rw [n3], ?_, fun ax => by rw [d3]; exact y2 ax, ?_, ?_⟩
  · simp only [UA.broadcastTo, bind, Except.bind, t1, y1, n1, d1]
    exact mk?_of_valid n2 hnD
  · obtain ⟨c1, c2⟩ := bs_absorb hnoX hY (fun ax m hx hm => by
      rw [y2, if_neg hx] at hm
      exact ⟨m, hm, .inl rfl⟩)
    unfold UA.shape UA.shapeDistribution
    simp only [bind, Except.bind, n3, d3]
    cases hD : get? Y axisD with
    | none =>
      rw [c1 (get?_eq_none.1 hD)]
      simp only
      congr 1
      exact erase_noD hnoX
    | some k =>
      rw [c2 k hD]
      simp only
      congr 1
      unfold Dict.erase
      rw [List.filter_append]
      have : Dict.erase X axisD = X := erase_noD hnoX
      unfold Dict.erase at this
      rw [this]
      simp
  · intro p
    cases p with
    | nominal => exact ⟨n2, by show FitsIn n.shape _; rw [n3]; exact hXT⟩
    | samples =>
      refine ⟨d2, ?_⟩
      show FitsIn d.shape _
      rw [d3]
      intro ax m hm
      rw [y2] at hm
      by_cases hx : ax = axisD
      · rw [if_pos hx] at hm
        obtain ⟨j, hj, h⟩ := (hu .samples).2 axisD m hm
        exact ⟨j, by rw [hx]; exact hj, h⟩
      · rw [if_neg hx] at hm
        obtain ⟨j, hj, h⟩ := hXT ax m hm
        exact ⟨j, by rw [hT.same ax hx, hj], h⟩
  · intro p e
    cases p with
    | nominal => exact Comp.atB_of_broadcast hv.1 (by rw [n3]; exact Comp.fitsIn_trans hsd.nom hsX) n4 e
    | samples => exact Comp.atB_of_broadcast hv.2.1 (by rw [d3]; exact hdY) d4 e

/-- What the first half of `UA.histogramdd` prepares. -/
structure Prepared (samples : List (UArg K)) (weights : Option (UArg K)) (axis : Option (List String)) (A : List String)
    (T : Side → Shape) (shape X : Shape) (vs : List (UA K)) (w' : Option (UA K)) : Prop where
  run : ∃ shapes ws shapeHist X0, (samples.map ofArg).mapM UA.shape = .ok shapes ∧
    UA.optionShape (weights.map ofArg) = .ok ws ∧ broadcastShapes (shapes ++ [ws]) = .ok shape ∧
    pickAxes shape (axis.getD shape.keys) = .ok shapeHist ∧ broadcastShapes shapes = .ok X0 ∧
    broadcastShapes [X0, shapeHist] = .ok X ∧ (samples.map ofArg).mapM (fun u => u.broadcastTo X) = .ok vs ∧
    spreadWeights shapeHist (weights.map ofArg) = .ok w'
  nodup : (axis.getD shape.keys).Nodup
  axes : ∀ x, x ∈ A ↔ x ∈ axis.getD shape.keys
  common : ∀ ax, get? shape ax = get? (T .nominal) ax
  wf : Dict.WF X
  fit : FitsIn X (T .nominal)
  full : ∀ x ∈ A, get? X x = get? (T .nominal) x
  each : List.Forall₂ (fun a v => v.Valid ∧ FitsU T v ∧ v.shape = .ok X ∧
    (∀ ax, get? v.nominal.shape ax = get? X ax) ∧
    (∀ ax, get? v.distribution.shape ax = if ax = axisD then get? a.distribution.shape axisD else get? X ax) ∧
    ∀ p e, (v.side p).atB e = (UArg.side a p).atB e) samples vs
  weight : ∀ p e, (weightsOf (w'.map (·.side p))).atB e = (weightsOf (weights.map (·.side p))).atB e
  good : ∀ p, ∃ S, (∀ ax, get? S ax = get? (T p) ax) ∧
    GoodSamples (vs.map (·.side p)) (w'.map (·.side p)) (some (axis.getD shape.keys)) S (axis.getD shape.keys)

theorem prepare {samples : List (UArg K)} {weights : Option (UArg K)} {axis : Option (List String)} {T : Side → Shape}
    (hJ : JointShape (samples ++ weights.toList) T) (hA : SumAxes (T .nominal) axis A) :
    ∃ shape X vs w', Prepared samples weights axis A T shape X vs w' := by
  have hT := hJ.paired
  have hfit : ∀ a ∈ samples ++ weights.toList, FitsU T (ofArg a) := by
    intro a ha p
    refine ⟨(valid_ofArg (hJ.ok a ha).1 (hJ.ok a ha).2).side p, ?_⟩
    rw [side_ofArg]
    exact hJ.fits a ha p
  -- the shapes of the samples
  have hsh : ∀ l : List (UArg K), (∀ a ∈ l, FitsU T (ofArg a)) → ∃ shapes, (l.map ofArg).mapM UA.shape = .ok shapes ∧
      List.Forall₂ (fun a s => (ofArg a).shape = .ok s ∧ Dict.WF s ∧ axisD ∉ keys s ∧ FitsIn s (T .nominal) ∧
        ∀ ax n p, ax ≠ axisD → get? (UArg.side a p).shape ax = some n → get? (T .nominal) ax = some n → get? s ax = some n) l shapes := by
    intro l hl
    induction l with
    | nil => exact ⟨[], rfl, .nil⟩
    | cons a l ih =>
      obtain ⟨ss, s1, s2⟩ := ih (fun a ha => hl a (by simp [ha]))
      obtain ⟨s, q1, q2, q3, q4, _, _, q5⟩ := shape_fits hT (hl a (by simp))
      refine ⟨s :: ss, ?_, .cons ⟨q1, q2, q3, q4, fun ax n p => ?_⟩ s2⟩
      · rw [List.map_cons, List.mapM_cons, q1, s1]; rfl
      · rw [← side_ofArg]; exact q5 ax n p
  obtain ⟨shapes, s1, s2⟩ := hsh samples (fun a ha => hfit a (by simp [ha]))
  have hws : ∃ ws, UA.optionShape (weights.map ofArg) = .ok ws ∧ Dict.WF ws ∧ FitsIn ws (T .nominal) ∧
      ∀ a, weights = some a → (ofArg a).shape = .ok ws ∧
        ∀ ax n p, ax ≠ axisD → get? (UArg.side a p).shape ax = some n → get? (T .nominal) ax = some n → get? ws ax = some n := by
    cases weights with
    | none => exact ⟨[], rfl, wf_nil, fun ax m hm => by simp [get?_nil] at hm, fun a ha => by cases ha⟩
    | some a =>
      obtain ⟨s, q1, q2, q3, q4, _, _, q5⟩ := shape_fits hT (hfit a (by simp))
      refine ⟨s, q1, q2, q4, fun b hb => ?_⟩
      cases hb
      exact ⟨q1, fun ax n p => by rw [← side_ofArg]; exact q5 ax n p⟩
  obtain ⟨ws, w1, w2, w3, w4⟩ := hws
  have hmem : ∀ s ∈ shapes, Dict.WF s ∧ axisD ∉ keys s ∧ FitsIn s (T .nominal) := by
    clear * - s2
    induction s2 with
    | nil => simp
    | cons h _ ih =>
      intro s hs
      rcases List.mem_cons.1 hs with rfl | hs
      · exact ⟨h.2.1, h.2.2.1, h.2.2.2.1⟩
      · exact ih s hs
  have hin : ∀ a ∈ samples, ∃ s ∈ shapes, (ofArg a).shape = .ok s ∧
      ∀ ax n p, ax ≠ axisD → get? (UArg.side a p).shape ax = some n → get? (T .nominal) ax = some n → get? s ax = some n := by
    clear * - s2
    induction s2 with
    | nil => simp
    | cons h _ ih =>
      intro a ha
      rcases List.mem_cons.1 ha with rfl | ha
      · exact ⟨_, by simp, h.1, h.2.2.2.2⟩
      · obtain ⟨s, hs, h'⟩ := ih a ha
        exact ⟨s, by simp [hs], h'⟩
  -- the shape of all
  obtain ⟨shape, c1, c2, c3⟩ := broadcast_exact (ss := shapes ++ [ws]) (T := T .nominal)
    (by
      intro s hs
      rw [List.mem_append, List.mem_singleton] at hs
      rcases hs with hs | rfl
      exacts [(hmem s hs).1, w2])
    (by
      intro s hs
      rw [List.mem_append, List.mem_singleton] at hs
      rcases hs with hs | rfl
      exacts [(hmem s hs).2.2, w3])
    (by
      intro ax n hn
      have hx : ax ≠ axisD := by rintro rfl; exact hT.noD (mem_keys_of_get? hn)
      obtain ⟨a, ha, p, hp⟩ := hJ.exact ax n (by rw [hT.same ax hx]; exact hn)
      rw [List.mem_append] at ha
      rcases ha with ha | ha
      · obtain ⟨s, hs, _, h⟩ := hin a ha
        exact ⟨s, by simp [hs], h ax n p hx hp hn⟩
      · rw [Option.mem_toList] at ha
        exact ⟨ws, by simp, (w4 a ha).2 ax n p hx hp hn⟩)
  have hk : ∀ ax, ax ∈ keys shape ↔ ax ∈ keys (T .nominal) := by
    intro ax
    rw [← not_iff_not, ← get?_eq_none, ← get?_eq_none, c3]
  have hA' : (axis.getD shape.keys).Nodup ∧ (∀ x, x ∈ A ↔ x ∈ axis.getD shape.keys) := by
    rcases hA.axes with rfl | ⟨rfl, hall⟩
    · exact ⟨hA.nodup, fun x => Iff.rfl⟩
    · exact ⟨c2, fun x => ⟨fun h => (hk x).2 (hA.sub h), fun h => hall x ((hk x).1 h)⟩⟩
  have hsub : axis.getD shape.keys ⊆ keys shape := fun x hx => (hk x).2 (hA.sub ((hA'.2 x).2 hx))
  have hpick := pickAxes_ok hA'.1 hsub
  have hgh := get?_sizesFor hsub
  have hwh : Dict.WF (sizesFor shape (axis.getD shape.keys)) := by
    unfold Dict.WF; rw [keys_sizesFor]; exact hA'.1
  generalize sizesFor shape (axis.getD shape.keys) = shapeHist at hpick hgh hwh
  have hfh : FitsIn shapeHist (T .nominal) := by
    intro ax m hm
    rw [hgh] at hm
    split at hm
    · exact ⟨m, by rw [← c3]; exact hm, .inl rfl⟩
    · cases hm
  -- the shape of the samples
  obtain ⟨X0, x1, x2⟩ := bs_of_fits (ss := shapes) (fun s hs => (hmem s hs).1) (fun s hs => (hmem s hs).2.2)
  have hX0 : Dict.WF X0 := (broadcastShapes_joinOf (fun s hs => (hmem s hs).1) x1).1
  obtain ⟨X, y1, y2⟩ := broadcast_of_fits hX0 hwh x2 hfh
  have hw2 : ∀ s ∈ [X0, shapeHist], Dict.WF s := by
    intro s hs
    simp only [List.mem_cons, List.not_mem_nil, or_false] at hs
    rcases hs with rfl | rfl <;> assumption
  have hX : Dict.WF X := (broadcastShapes_joinOf hw2 y1).1
  have hX0X : FitsIn X0 X := SA.fitsIn_of_broadcastShapes hw2 y1 (by simp)
  have hhX : FitsIn shapeHist X := SA.fitsIn_of_broadcastShapes hw2 y1 (by simp)
  -- sizes which are attained stay
  have hgrow : ∀ {Y Z : Shape}, FitsIn Y Z → FitsIn Z (T .nominal) → ∀ ax n, get? Y ax = some n → get? (T .nominal) ax = some n →
      get? Z ax = some n := by
    intro Y Z h1 h2 ax n hn hTn
    obtain ⟨k, hk, h⟩ := h1 ax n hn
    obtain ⟨j, hj, h'⟩ := h2 ax k hk
    rw [hTn] at hj
    cases hj
    rw [hk]
    congr 1
    omega
  have hfull : ∀ x ∈ A, get? X x = get? (T .nominal) x := by
    intro x hx
    obtain ⟨n, hn⟩ := exists_get?_of_mem (hA.sub hx)
    rw [hn]
    exact hgrow hhX y2 x n (by rw [hgh, if_pos ((hA'.2 x).1 hx), c3, hn]) hn
  -- the samples
  obtain ⟨vs, v1, v2⟩ : ∃ vs, (samples.map ofArg).mapM (fun u => u.broadcastTo X) = .ok vs ∧
      List.Forall₂ (fun a v => v.Valid ∧ FitsU T v ∧ v.shape = .ok X ∧ (∀ ax, get? v.nominal.shape ax = get? X ax) ∧
        (∀ ax, get? v.distribution.shape ax = if ax = axisD then get? a.distribution.shape axisD else get? X ax) ∧
        ∀ p e, (v.side p).atB e = (UArg.side a p).atB e) samples vs := by
    have : ∀ a ∈ samples, ∃ v, (ofArg a).broadcastTo X = .ok v ∧ (v.Valid ∧ FitsU T v ∧ v.shape = .ok X ∧
        (∀ ax, get? v.nominal.shape ax = get? X ax) ∧
        (∀ ax, get? v.distribution.shape ax = if ax = axisD then get? a.distribution.shape axisD else get? X ax) ∧
        ∀ p e, (v.side p).atB e = (UArg.side a p).atB e) := by
      intro a ha
      obtain ⟨s, hs, h1, _⟩ := hin a ha
      obtain ⟨v, q1, q2, q3, q4, q5, q6, q7⟩ := spreadTo hT (hfit a (by simp [ha])) h1 hX y2
        (Comp.fitsIn_trans (SA.fitsIn_of_broadcastShapes (fun s hs => (hmem s hs).1) x1 hs) hX0X)
      exact ⟨v, q1, q2, q6, q4, q3, q5, fun p e => by rw [q7, side_ofArg]⟩
    clear * - this
    induction samples with
    | nil => exact ⟨[], rfl, .nil⟩
    | cons a l ih =>
      obtain ⟨v, h1, h2⟩ := this a (by simp)
      obtain ⟨vs, h3, h4⟩ := ih (fun a ha => this a (by simp [ha]))
      exact ⟨v :: vs, by rw [List.map_cons, List.mapM_cons, h1, h3]; rfl, .cons h2 h4⟩
  -- the weights
  obtain ⟨w', u1, u2, u3, u4⟩ : ∃ w', spreadWeights shapeHist (weights.map ofArg) = .ok w' ∧
      (∀ p e, (weightsOf (w'.map (·.side p))).atB e = (weightsOf (weights.map (·.side p))).atB e) ∧
      (∀ p, (weightsOf (w'.map (·.side p))).WF ∧ FitsIn (weightsOf (w'.map (·.side p))).shape (T p)) ∧
      ∀ a, weights = some a → ∃ b, w' = some b ∧
        (∀ ax n, get? ws ax = some n → get? (T .nominal) ax = some n → ∀ p, get? (b.side p).shape ax = some n) ∧
        get? b.distribution.shape axisD = get? a.distribution.shape axisD := by
    cases weights with
    | none =>
      exact ⟨none, rfl, fun _ _ => rfl, fun p => ⟨(scalar_fits [] (1 : K)).1, (scalar_fits _ (1 : K)).2⟩, fun a ha => by cases ha⟩
    | some a =>
      obtain ⟨h1, _⟩ := w4 a rfl
      obtain ⟨Z, z1, z2⟩ := broadcast_of_fits w2 hwh w3 hfh
      have hw3 : ∀ s ∈ [ws, shapeHist], Dict.WF s := by
        intro s hs
        simp only [List.mem_cons, List.not_mem_nil, or_false] at hs
        rcases hs with rfl | rfl <;> assumption
      have hwZ : FitsIn ws Z := SA.fitsIn_of_broadcastShapes hw3 z1 (by simp)
      obtain ⟨v, q1, q2, q3, q4, q5, q6, q7⟩ := spreadTo hT (hfit a (by simp)) h1 (broadcastShapes_joinOf hw3 z1).1 z2 hwZ
      refine ⟨some v, ?_, fun p e => ?_, fun p => ⟨(q6 p).1, (q6 p).2⟩, fun b hb => ⟨v, rfl, fun ax n hn hTn p => ?_, ?_⟩⟩
      · simp only [spreadWeights, Option.map_some, bind, Except.bind, h1, z1, q1]
      · show (v.side p).atB e = (UArg.side a p).atB e
        rw [q7, side_ofArg]
      · have hZ := hgrow hwZ z2 ax n hn hTn
        cases p with
        | nominal => show get? v.nominal.shape ax = _; rw [q3, hZ]
        | samples =>
          show get? v.distribution.shape ax = _
          rw [q5, if_neg (by rintro rfl; exact hT.noD (mem_keys_of_get? hTn)), hZ]
      · cases hb
        rw [q5, if_pos rfl]
        rfl
  refine ⟨shape, X, vs, w', ⟨shapes, ws, shapeHist, X0, s1, w1, c1, hpick, x1, y1, v1, u1⟩, hA'.1, hA'.2, c3, hX, y2, hfull, v2, u2, fun p => ?_⟩
  -- the shape of one side
  have hvm : ∀ v ∈ vs, (v.side p).WF ∧ FitsIn (v.side p).shape (T p) := by
    clear * - v2
    induction v2 with
    | nil => simp
    | cons h _ ih =>
      intro v hv
      rcases List.mem_cons.1 hv with rfl | hv
      · exact ⟨(h.2.1 p).1, (h.2.1 p).2⟩
      · exact ih v hv
  have hvin : ∀ a ∈ samples, ∃ v ∈ vs, (∀ ax, get? v.nominal.shape ax = get? X ax) ∧
        (∀ ax, get? v.distribution.shape ax = if ax = axisD then get? a.distribution.shape axisD else get? X ax) := by
    clear * - v2
    induction v2 with
    | nil => simp
    | cons h _ ih =>
      intro a ha
      rcases List.mem_cons.1 ha with rfl | ha
      · exact ⟨_, by simp, h.2.2.2.1, h.2.2.2.2.1⟩
      · obtain ⟨v, hv, h'⟩ := ih a ha
        exact ⟨v, by simp [hv], h'⟩
  obtain ⟨S, b1, b2, b3⟩ := broadcast_exact (T := T p)
    (ss := (vs.map (·.side p)).map SA.shape ++ [(weightsOf (w'.map (·.side p))).shape])
    (by
      intro s hs
      rw [List.mem_append, List.mem_singleton, List.map_map] at hs
      rcases hs with hs | rfl
      · obtain ⟨v, hv, rfl⟩ := List.mem_map.1 hs
        exact SA.wf_shape (hvm v hv).1
      · exact SA.wf_shape (u3 p).1)
    (by
      intro s hs
      rw [List.mem_append, List.mem_singleton, List.map_map] at hs
      rcases hs with hs | rfl
      · obtain ⟨v, hv, rfl⟩ := List.mem_map.1 hs
        exact (hvm v hv).2
      · exact (u3 p).2)
    (by
      intro ax n hn
      by_cases hx : ax = axisD
      · subst hx
        cases p with
        | nominal => exact absurd (mem_keys_of_get? hn) hT.noD
        | samples =>
          obtain ⟨a, ha, p, hp⟩ := hJ.exact _ n hn
          have hD : get? a.distribution.shape axisD = some n := by
            cases p with
            | samples => exact hp
            | nominal =>
              obtain ⟨m, hm, _⟩ := hJ.fits a ha .nominal axisD n hp
              exact absurd (mem_keys_of_get? hm) hT.noD
          rw [List.mem_append] at ha
          rcases ha with ha | ha
          · obtain ⟨v, hv, _, h⟩ := hvin a ha
            refine ⟨v.distribution.shape, ?_, by rw [h, if_pos rfl, hD]⟩
            rw [List.mem_append, List.map_map]
            exact .inl (List.mem_map.2 ⟨v, hv, rfl⟩)
          · rw [Option.mem_toList] at ha
            obtain ⟨b, rfl, _, h⟩ := u4 a ha
            exact ⟨b.distribution.shape, by rw [List.mem_append]; exact .inr (List.mem_singleton.2 rfl), by rw [h, hD]⟩
      · have hn' : get? (T .nominal) ax = some n := by
          cases p with
          | nominal => exact hn
          | samples => rw [← hT.same ax hx]; exact hn
        obtain ⟨a, ha, p', hp⟩ := hJ.exact ax n (by rw [hT.same ax hx]; exact hn')
        rw [List.mem_append] at ha
        rcases ha with ha | ha
        · obtain ⟨s, hs, _, h⟩ := hin a ha
          have h1 := h ax n p' hx hp hn'
          have h2 := hgrow (SA.fitsIn_of_broadcastShapes (fun s hs => (hmem s hs).1) x1 hs) x2 ax n h1 hn'
          have h3 := hgrow hX0X y2 ax n h2 hn'
          obtain ⟨v, hv, g1, g2⟩ := hvin a ha
          refine ⟨(v.side p).shape, ?_, ?_⟩
          · rw [List.mem_append, List.map_map]
            exact .inl (List.mem_map.2 ⟨v, hv, rfl⟩)
          · cases p with
            | nominal => show get? v.nominal.shape ax = _; rw [g1, h3]
            | samples => show get? v.distribution.shape ax = _; rw [g2, if_neg hx, h3]
        · rw [Option.mem_toList] at ha
          obtain ⟨b, rfl, h, _⟩ := u4 a ha
          refine ⟨(b.side p).shape, by rw [List.mem_append]; exact .inr (List.mem_singleton.2 rfl), ?_⟩
          exact h ax n ((w4 a ha).2 ax n p' hx hp hn') hn' p)
  refine ⟨S, b3, ⟨?_, (u3 p).1, b1, hA'.1, ?_, .inl rfl⟩⟩
  · intro s hs
    obtain ⟨v, hv, rfl⟩ := List.mem_map.1 hs
    exact (hvm v hv).1
  · intro x hx
    have hxA := (hA'.2 x).2 hx
    obtain ⟨n, hn⟩ := exists_get?_of_mem (hA.sub hxA)
    refine mem_keys_of_get? (v := n) ?_
    rw [b3]
    cases p with
    | nominal => exact hn
    | samples => rw [hT.same x (by rintro rfl; exact hT.noD (mem_keys_of_get? hn)), hn]

/-- The result of `UA.histogramdd`, given the results for the nominal values and for the samples. -/
theorem uhistogramdd_run {samples : List (UArg K)} {weights : Option (UArg K)} {axis : Option (List String)} {T : Side → Shape}
    {shape X : Shape} {vs : List (UA K)} {w' : Option (UA K)} (hok : ∀ a ∈ samples ++ weights.toList, a.Ok ∧ ¬ a.Reserved)
    (hp : Prepared samples weights axis A T shape X vs w') {bins : UBins K} {bs : Bins K × Bins K} (hb : binParts bins = .ok bs)
    {min max : Option (List (UArg K))} {mins maxs : List (UA K)}
    (hmin : boundParts listMin vs (axis.getD shape.keys) min = .ok mins)
    (hmax : boundParts listMax vs (axis.getD shape.keys) max = .ok maxs)
    {density : Bool} {garbage garbageD : List Nat → K} {histN histD : SA K} {edgesN edgesD : List (SA K)}
    (hN : NA.histogramdd (vs.map (·.side .nominal)) bs.1 (some (axis.getD shape.keys)) (some (mins.map nominal))
      (some (maxs.map nominal)) density (w'.map (·.side .nominal)) garbage = .ok (histN, edgesN))
    (hD : NA.histogramdd (vs.map (·.side .samples)) bs.2 (some (axis.getD shape.keys)) (some (mins.map distribution))
      (some (maxs.map distribution)) density (w'.map (·.side .samples)) garbageD = .ok (histD, edgesD))
    (hno : axisD ∉ histN.axes) (hw : histN.WF) {edges : List (UA K)}
    (he : (edgesN.zip edgesD).mapM (fun p => mk? p.1 p.2) = .ok edges) :
    UA.histogramdd samples bins axis min max density weights garbage garbageD = .ok (⟨histN, histD⟩, edges) := by
  obtain ⟨shapes, ws, shapeHist, X0, r1, r2, r3, r4, r5, r6, r7, r8⟩ := hp.run
  have hns : samples.mapM norm = .ok (samples.map ofArg) := by
    have : ∀ a ∈ samples, norm a = .ok (ofArg a) := fun a ha =>
      norm_ofArg (hok a (by simp [ha])).1 (hok a (by simp [ha])).2
    clear * - this
    induction samples with
    | nil => rfl
    | cons a l ih =>
      rw [List.mapM_cons, this a (by simp), ih (fun a ha => this a (by simp [ha]))]
      rfl
  have hnw : normOpt weights = .ok (weights.map ofArg) := by
    cases weights with
    | none => rfl
    | some a =>
      simp only [normOpt, bind, Except.bind, norm_ofArg (hok a (by simp)).1 (hok a (by simp)).2]
      rfl
  have hN' : NA.histogramdd (vs.map nominal) bs.1 (some (axis.getD shape.keys)) (some (mins.map nominal))
      (some (maxs.map nominal)) density (w'.map nominal) garbage = .ok (histN, edgesN) := hN
  have hD' : NA.histogramdd (vs.map distribution) bs.2 (some (axis.getD shape.keys)) (some (mins.map distribution))
      (some (maxs.map distribution)) density (w'.map distribution) garbageD = .ok (histD, edgesD) := hD
  unfold UA.histogramdd
  simp only [bind, Except.bind, hns, hb, hnw, r1, r2, r3, r4, r5, r6, r7, r8, hmin, hmax, hN', hD', mk?_of_valid hw hno, he]

/-- A bound can be computed if the samples are not empty; a bound which is given need not be meaningful when the edges are given. -/
def Bounding (T : Side → Shape) (A : List String) : Option (List (UArg K)) → Prop
  | none => ∀ x ∈ A, get? (T .nominal) x ≠ some 0
  | some l => ∀ b ∈ l, b.Ok ∧ ¬ b.Reserved

/-- The elements of a reduced array, also where its axes of size one are repeated. -/
theorem slab_atB {S : Shape} {m a v : SA K} {f : List K → K} (hv : ∀ e, v.atB e = a.atB e) (hin : ∀ x ∈ A, get? m.shape x = none)
    (hout : ∀ x, x ∉ A → get? m.shape x = get? v.shape x) (h : ∀ e, ∃ l, SlabOf S A e l ∧ m.at' e = f (l.map a.atB)) (e : String → Nat) :
    ∃ l, SlabOf S A e l ∧ m.atB e = f (l.map a.atB) := by
  obtain ⟨l, l1, l2⟩ := h (fun ax => if get? m.shape ax = some 1 then 0 else e ax)
  let g : (String → Nat) → String → Nat := fun e' ax => if ax ∈ A then e' ax else e ax
  have hout' : ∀ e' ∈ l, ∀ ax, ax ∉ A → e' ax = if get? m.shape ax = some 1 then 0 else e ax := fun e' he' => ((l1.2 e').1 he').2
  refine ⟨l.map g, ⟨?_, fun e' => ?_⟩, ?_⟩
  · refine List.Nodup.map_on ?_ l1.1
    intro x hx y hy hxy
    funext ax
    by_cases hax : ax ∈ A
    · have := congrFun hxy ax
      simpa [g, hax] using this
    · rw [hout' x hx ax hax, hout' y hy ax hax]
  · constructor
    · intro he'
      obtain ⟨x, hx, rfl⟩ := List.mem_map.1 he'
      refine ⟨fun ax hax => ?_, fun ax hax => if_neg hax⟩
      obtain ⟨n, hn, h⟩ := ((l1.2 x).1 hx).1 ax hax
      exact ⟨n, hn, by simpa [g, hax] using h⟩
    · rintro ⟨h1, h2⟩
      refine List.mem_map.2 ⟨fun ax => if ax ∈ A then e' ax else if get? m.shape ax = some 1 then 0 else e ax, (l1.2 _).2 ⟨fun ax hax => ?_, fun ax hax => if_neg hax⟩, ?_⟩
      · obtain ⟨n, hn, h⟩ := h1 ax hax
        exact ⟨n, hn, by rw [if_pos hax]; exact h⟩
      · funext ax
        by_cases hax : ax ∈ A
        · simp [g, hax]
        · simp [g, hax, h2 ax hax]
  · show m.at' _ = _
    rw [l2, List.map_map]
    congr 1
    refine List.map_congr_left fun e' he' => ?_
    show a.atB e' = a.atB (g e')
    rw [← hv, ← hv]
    unfold SA.atB
    apply SA.at'_congr
    intro ax _
    by_cases h1 : get? v.shape ax = some 1
    · simp [h1]
    · rw [if_neg h1, if_neg h1]
      by_cases hax : ax ∈ A
      · simp [g, hax]
      · have h2 : g e' ax = e ax := if_neg hax
        rw [h2, hout' e' he' ax hax, hout ax hax, if_neg h1]

/-- The extremes of prepared samples. -/
theorem reduce_prepared {samples : List (UArg K)} {weights : Option (UArg K)} {axis : Option (List String)} {T : Side → Shape}
    {shape X : Shape} {vs : List (UA K)} {w' : Option (UA K)} (hT : Paired T) (hsub : A ⊆ keys (T .nominal))
    (hp : Prepared samples weights axis A T shape X vs w') (hne : ∀ x ∈ A, get? (T .nominal) x ≠ some 0) (f : List K → K) :
    ∃ ms, vs.mapM (fun u => u.reduce true f (some (axis.getD shape.keys)) false none) = .ok ms ∧
      List.Forall₂ (fun a m => m.Valid ∧ (∀ p, IsBound (T p) A (m.side p)) ∧ ∀ p e, ∃ l, SlabOf (T p) A e l ∧
        (m.side p).atB e = f (l.map (UArg.side a p).atB)) samples ms := by
  have hDA : axisD ∉ A := fun h => hT.noD (hsub h)
  have key : ∀ a v, v.Valid ∧ FitsU T v ∧ v.shape = .ok X ∧ (∀ ax, get? v.nominal.shape ax = get? X ax) ∧
      (∀ ax, get? v.distribution.shape ax = if ax = axisD then get? a.distribution.shape axisD else get? X ax) ∧
      (∀ p e, (v.side p).atB e = (UArg.side a p).atB e) →
      ∃ m, v.reduce true f (some (axis.getD shape.keys)) false none = .ok m ∧ m.Valid ∧ (∀ p, IsBound (T p) A (m.side p)) ∧
        ∀ p e, ∃ l, SlabOf (T p) A e l ∧ (m.side p).atB e = f (l.map (UArg.side a p).atB) := by
    intro a v ⟨v1, v2, v3, v4, v5, v6⟩
    have hXk : axis.getD shape.keys ⊆ keys X := by
      intro x hx
      have hxA := (hp.axes x).2 hx
      obtain ⟨n, hn⟩ := exists_get?_of_mem (hsub hxA)
      exact mem_keys_of_get? ((hp.full x hxA).trans hn)
    have hX0 : axisD ∉ keys X := by
      intro h
      obtain ⟨n, hn⟩ := exists_get?_of_mem h
      obtain ⟨m, hm, _⟩ := hp.fit _ _ hn
      exact hT.noD (mem_keys_of_get? hm)
    obtain ⟨m, m1, m2, m3, m4, m5, m6⟩ := C61_reduce v v1 X v3 (some (axis.getD shape.keys)) hp.nodup hXk none
      (by intro w hw; cases hw) true f false (by
        rintro ⟨_, ⟨x, hx, h0⟩, _⟩
        have hxA := (hp.axes x).2 hx
        exact hne x hxA (by rw [← hp.full x hxA]; exact h0))
    have hred : reducedAxes X (some (axis.getD shape.keys)) = axis.getD shape.keys := rfl
    simp only [hred] at m3 m4 m5 m6
    refine ⟨m, m1, m2, fun p => ?_, fun p e => ?_⟩
    · refine ⟨m2.side p, fun x n hx => ?_⟩
      cases p with
      | nominal =>
        have hx : get? m.nominal.shape x = some n := hx
        rw [m3] at hx
        by_cases h : x ∈ axis.getD shape.keys
        · rw [if_pos h] at hx; cases hx
        · rw [if_neg h] at hx
          exact ⟨fun h' => h ((hp.axes x).1 h'), hp.fit x n hx⟩
      | samples =>
        have hx : get? m.distribution.shape x = some n := hx
        rw [m4] at hx
        by_cases hxD : x = axisD
        · rw [if_pos hxD] at hx
          refine ⟨by rw [hxD]; exact hDA, ?_⟩
          have h1 : get? v.distribution.shape axisD = some n := hx
          obtain ⟨k, hk, h⟩ := (v2 .samples).2 axisD n h1
          exact ⟨k, by rw [hxD]; exact hk, h⟩
        · rw [if_neg hxD] at hx
          by_cases h : x ∈ axis.getD shape.keys
          · rw [if_pos h] at hx; cases hx
          · rw [if_neg h] at hx
            refine ⟨fun h' => h ((hp.axes x).1 h'), ?_⟩
            rw [hT.same x hxD]
            exact hp.fit x n hx
    · refine slab_atB (v := v.side p) (v6 p) (fun x hx => ?_) (fun x hx => ?_) (fun e => ?_) e
      · have hx' := (hp.axes x).1 hx
        cases p with
        | nominal => exact (m3 x).trans (if_pos hx')
        | samples => exact (m4 x).trans ((if_neg (by rintro rfl; exact hDA hx)).trans (if_pos hx'))
      · have hx' := fun h => hx ((hp.axes x).2 h)
        cases p with
        | nominal => exact (m3 x).trans ((if_neg hx').trans (v4 x).symm)
        | samples =>
          refine (m4 x).trans (Eq.trans ?_ (v5 x).symm)
          by_cases hxD : x = axisD
          · rw [if_pos hxD, if_pos hxD, v5, if_pos rfl]
          · rw [if_neg hxD, if_neg hxD, if_neg hx']
      have hslab : ∀ l, SlabOf X (axis.getD shape.keys) e l → SlabOf (T p) A e l := by
        intro l hl
        refine ⟨hl.1, fun e' => (hl.2 e').trans (and_congr ⟨fun h x hx => ?_, fun h x hx => ?_⟩ ?_)⟩
        · obtain ⟨n, hn, h'⟩ := h x ((hp.axes x).1 hx)
          refine ⟨n, ?_, h'⟩
          cases p with
          | nominal => rw [← hp.full x hx, hn]
          | samples => rw [hT.same x (by rintro rfl; exact hDA hx), ← hp.full x hx, hn]
        · have hxA := (hp.axes x).2 hx
          obtain ⟨n, hn, h'⟩ := h x hxA
          refine ⟨n, ?_, h'⟩
          rw [hp.full x hxA]
          cases p with
          | nominal => exact hn
          | samples => rw [← hT.same x (by rintro rfl; exact hDA hxA), hn]
        · simp only [hp.axes]
      cases p with
      | nominal =>
        obtain ⟨l, l1, l2⟩ := m5 e
        refine ⟨l, hslab l l1, ?_⟩
        rw [show (m.side .nominal).at' e = _ from l2]
        congr 1
        rw [List.filter_eq_self.2 (by intro _ _; rfl)]
        exact List.map_congr_left fun e' _ => v6 .nominal e'
      | samples =>
        obtain ⟨l, l1, l2⟩ := m6 e
        refine ⟨l, hslab l l1, ?_⟩
        rw [show (m.side .samples).at' e = _ from l2]
        congr 1
        rw [List.filter_eq_self.2 (by intro _ _; rfl)]
        exact List.map_congr_left fun e' _ => v6 .samples e'
  have heach := hp.each
  clear * - heach key
  induction heach with
  | nil => exact ⟨[], rfl, .nil⟩
  | cons h _ ih =>
    obtain ⟨ms, h1, h2⟩ := ih
    obtain ⟨m, k1, k2⟩ := key _ _ h
    exact ⟨m :: ms, by rw [List.mapM_cons, k1, h1]; rfl, .cons k2 h2⟩

/-- The bounds exist. -/
theorem bounds_ok {samples : List (UArg K)} {weights : Option (UArg K)} {axis : Option (List String)} {T : Side → Shape}
    {shape X : Shape} {vs : List (UA K)} {w' : Option (UA K)} (hT : Paired T) (hsub : A ⊆ keys (T .nominal))
    (hp : Prepared samples weights axis A T shape X vs w') (f : List K → K) {b : Option (List (UArg K))} (hb : Bounding T A b) :
    ∃ ms, boundParts f vs (axis.getD shape.keys) b = .ok ms := by
  cases b with
  | none =>
    obtain ⟨ms, h, _⟩ := reduce_prepared hT hsub hp hb f
    exact ⟨ms, h⟩
  | some l =>
    refine ⟨l.map ofArg, ?_⟩
    have hb : ∀ b ∈ l, b.Ok ∧ ¬ b.Reserved := hb
    show l.mapM norm = _
    clear * - hb
    induction l with
    | nil => rfl
    | cons a l ih =>
      rw [List.mapM_cons, norm_ofArg (hb a (by simp)).1 (hb a (by simp)).2, ih (fun b h => hb b (by simp [h]))]
      rfl

/-- the axes of a histogram of the nominal values -/
theorem noD_hist {T : Side → Shape} (hT : Paired T) {dims : List (Dim K)} (hax : ∀ D ∈ dims, D.axis ≠ axisD) {S : Shape}
    (hS : ∀ ax, get? S ax = get? (T .nominal) ax) {hist : SA K} (hw : hist.WF) {A' : List String}
    (hs : HistShape S A' dims hist.shape) : axisD ∉ hist.axes := by
  rw [← SA.keys_shape hw]
  intro h
  obtain ⟨n, hn⟩ := exists_get?_of_mem h
  rcases (hs _ _).1 hn with ⟨D, hD, h1, _⟩ | ⟨_, _, h1⟩
  · exact hax D hD h1
  · rw [hS] at h1
    exact hT.noD (mem_keys_of_get? h1)

theorem binParts_edges {l : List (UArg K)} (h : ∀ b ∈ l, b.Ok ∧ ¬ b.Reserved) :
    binParts (.edges l) = .ok (.edges (l.map (UArg.side · .nominal)), .edges (l.map (UArg.side · .samples))) := by
  have : l.mapM norm = .ok (l.map ofArg) := by
    clear * - h
    induction l with
    | nil => rfl
    | cons a l ih =>
      rw [List.mapM_cons, norm_ofArg (h a (by simp)).1 (h a (by simp)).2, ih (fun b hb => h b (by simp [hb]))]
      rfl
  simp only [binParts, bind, Except.bind, this, List.map_map]
  rfl

theorem mk_edges {l : List (UArg K)} (h : ∀ b ∈ l, b.Ok ∧ ¬ b.Reserved) :
    ((l.map (UArg.side · .nominal)).zip (l.map (UArg.side · .samples))).mapM (fun p => mk? p.1 p.2) = .ok (l.map ofArg) := by
  induction l with
  | nil => rfl
  | cons a l ih =>
    have hv := valid_ofArg (h a (by simp)).1 (h a (by simp)).2
    have h1 : mk? (UArg.side a .nominal) (UArg.side a .samples) = .ok (ofArg a) := mk?_of_valid hv.1 hv.2.2
    simp only [List.map_cons, List.zip_cons_cons]
    rw [List.mapM_cons, h1, ih (fun b hb => h b (by simp [hb]))]
    rfl

/-- **C108** (edges given). `na.histogramdd(*samples, bins=edges, axis, min, max, weights)` of uncertain scalars, some of which may be
exact: the nominal value is the histogram of the nominal values, with the nominal edges and weights, and each sample is the histogram of
this sample, with the edges and weights of this sample.  In particular the axis of the samples is not summed over, even if all the axes
are. -/
theorem C108_counts (samples : List (UArg K)) (weights : Option (UArg K)) (axis : Option (List String)) (T : Side → Shape)
    (A : List String) (hJ : JointShape (samples ++ weights.toList) T) (hA : SumAxes (T .nominal) axis A) (dims : List (UDim K))
    (hd : GoodUDims T A dims) (hl : samples.length = dims.length) (min max : Option (List (UArg K))) (hmin : Bounding T A min)
    (hmax : Bounding T A max) (garbage garbageD : List Nat → K) :
    ∃ hist, UA.histogramdd samples (.edges (dims.map UDim.edges)) axis min max false weights garbage garbageD =
        .ok (hist, dims.map (fun D => ofArg D.edges)) ∧ IsUHistogram T A samples weights dims hist := by
  have hT := hJ.paired
  obtain ⟨shape, X, vs, w', hp⟩ := prepare hJ hA
  obtain ⟨mins, m1⟩ := bounds_ok hT hA.sub hp listMin hmin
  obtain ⟨maxs, m2⟩ := bounds_ok hT hA.sub hp listMax hmax
  have hside : ∀ p, ∀ (min max : Option (List (SA K))) (g : List Nat → K), ∃ hist,
      NA.histogramdd (vs.map (·.side p)) (.edges (dims.map fun D => UArg.side D.edges p)) (some (axis.getD shape.keys)) min max false
        (w'.map (·.side p)) g = .ok (hist, dims.map fun D => UArg.side D.edges p) ∧
      (∃ S, (∀ ax, get? S ax = get? (T p) ax) ∧ HistShape S (axis.getD shape.keys) (dims.map (·.side p)) hist.shape) ∧
      IsHistogram (T p) A (samples.map (UArg.side · p)) (weights.map (UArg.side · p)) (dims.map (·.side p)) hist := by
    intro p min max g
    obtain ⟨S, s1, s2⟩ := hp.good p
    have hgd : GoodDims S (axis.getD shape.keys) (dims.map (·.side p)) :=
      ((hd.good p).congr s1).congr_axes (fun x => hp.axes x)
    have hlen : (vs.map (·.side p)).length = (dims.map (·.side p)).length := by
      rw [List.length_map, List.length_map, ← hl, hp.each.length_eq]
    obtain ⟨hist, h1, h2⟩ := histogramdd_is s2 hgd hlen min max g
    have hE : (dims.map (·.side p)).map Dim.edges = dims.map fun D => UArg.side D.edges p := by rw [List.map_map]; rfl
    rw [hE] at h1
    refine ⟨hist, h1, ⟨S, s1, h2.2.1⟩, h2.congr (fun ax => (s1 ax).symm) (fun x => (hp.axes x).symm) (fun e => ?_) (hp.weight p)⟩
    have heach := hp.each
    clear * - heach
    induction heach with
    | nil => rfl
    | cons h _ ih =>
      simp only [List.map_cons]
      rw [ih, h.2.2.2.2.2]
  obtain ⟨hN, n1, ⟨S, n2, n3⟩, n4⟩ := hside .nominal (some (mins.map nominal)) (some (maxs.map nominal)) garbage
  obtain ⟨hD, d1, _, d4⟩ := hside .samples (some (mins.map distribution)) (some (maxs.map distribution)) garbageD
  have hE : ∀ b ∈ dims.map UDim.edges, b.Ok ∧ ¬ b.Reserved := by
    intro b hb
    obtain ⟨D, hD, rfl⟩ := List.mem_map.1 hb
    exact hd.ok D hD
  have hno := noD_hist hT (dims := dims.map (·.side .nominal)) (by
    intro D hD
    obtain ⟨D', h, rfl⟩ := List.mem_map.1 hD
    exact hd.axis D' h) n2 n4.1 n3
  refine ⟨⟨hN, hD⟩, ?_, ⟨n4.1, d4.1, hno⟩, fun p => by cases p; exacts [n4, d4]⟩
  have hmk := mk_edges hE
  refine uhistogramdd_run hJ.ok hp (binParts_edges hE) m1 m2 (histN := hN) (histD := hD)
    (edgesN := dims.map fun D => UArg.side D.edges .nominal) (edgesD := dims.map fun D => UArg.side D.edges .samples) ?_ ?_ hno n4.1 ?_
  · simp only [List.map_map]; exact n1
  · simp only [List.map_map]; exact d1
  · rw [List.map_map, List.map_map, List.map_map] at hmk
    exact hmk

/-- One dimension of a histogram of uncertain scalars which is given by the smallest and the largest edge and by the number of bins. -/
structure USpan (K : Type) where
  lo : UArg K
  hi : UArg K
  axis : String
  num : Nat

/-- ... for the nominal value or for the samples. -/
def USpan.side (g : USpan K) (p : Side) : Span K := ⟨UArg.side g.lo p, UArg.side g.hi p, g.axis, g.num⟩

/-- Bounds for the nominal values and for the samples. -/
structure GoodUSpans (T : Side → Shape) (A : List String) (gs : List (USpan K)) : Prop where
  ok : ∀ g ∈ gs, (g.lo.Ok ∧ ¬ g.lo.Reserved) ∧ g.hi.Ok ∧ ¬ g.hi.Reserved
  axis : ∀ g ∈ gs, g.axis ≠ axisD
  new : ∀ g ∈ gs, g.axis ∈ keys (T .nominal) → g.axis ∈ A
  nodup : (gs.map USpan.axis).Nodup
  bounds : ∀ g ∈ gs, ∀ p, Bounds (T p) A (UArg.side g.lo p) (UArg.side g.hi p)

/-- The edges of `D` are equidistant from `g.lo` to `g.hi`, for the nominal value and for each sample. -/
def UEquidistant (T : Side → Shape) (A : List String) (g : USpan K) (D : UDim K) : Prop :=
  D.axis = g.axis ∧ D.num = g.num ∧ ∀ p, Equidistant (T p) A (g.side p) (D.side p)

theorem zip_dims {T : Side → Shape} {gs : List (USpan K)} : ∀ {dN dD : List (Dim K)},
    List.Forall₂ (fun g D => Equidistant (T .nominal) A (g.side .nominal) D) gs dN →
    List.Forall₂ (fun g D => Equidistant (T .samples) A (g.side .samples) D) gs dD →
    ∃ dims : List (UDim K), dims.map (·.side .nominal) = dN ∧ dims.map (·.side .samples) = dD ∧
      (∀ D ∈ dims, ∃ u, D.edges = .unc u) ∧ List.Forall₂ (UEquidistant T A) gs dims := by
  induction gs with
  | nil =>
    intro dN dD h1 h2
    cases h1
    cases h2
    exact ⟨[], rfl, rfl, by simp, .nil⟩
  | cons g gs ih =>
    intro dN dD h1 h2
    cases h1 with
    | cons a1 a2 =>
    cases h2 with
    | cons b1 b2 =>
    rename_i DN _ DD _
    obtain ⟨dims, q1, q2, q3, q4⟩ := ih a2 b2
    have eN : (⟨DN.edges, g.axis, g.num⟩ : Dim K) = DN := by
      obtain ⟨c1, c2, _⟩ := a1
      cases DN
      simp only [USpan.side] at c1 c2
      subst c1
      subst c2
      rfl
    have eD : (⟨DD.edges, g.axis, g.num⟩ : Dim K) = DD := by
      obtain ⟨c1, c2, _⟩ := b1
      cases DD
      simp only [USpan.side] at c1 c2
      subst c1
      subst c2
      rfl
    refine ⟨⟨.unc ⟨DN.edges, DD.edges⟩, g.axis, g.num⟩ :: dims, ?_, ?_, ?_, .cons ⟨rfl, rfl, fun p => ?_⟩ q4⟩
    · rw [List.map_cons, q1]
      congr 1
    · rw [List.map_cons, q2]
      congr 1
    · intro D hD
      rcases List.mem_cons.1 hD with rfl | hD
      · exact ⟨_, rfl⟩
      · exact q3 D hD
    · cases p with
      | nominal =>
        show Equidistant _ _ _ (⟨DN.edges, g.axis, g.num⟩ : Dim K)
        rw [eN]; exact a1
      | samples =>
        show Equidistant _ _ _ (⟨DD.edges, g.axis, g.num⟩ : Dim K)
        rw [eD]; exact b1

/-- Numbers of bins, with bounds which have been found. -/
theorem uhistogramdd_spans {samples : List (UArg K)} {weights : Option (UArg K)} {axis : Option (List String)} {T : Side → Shape}
    {shape X : Shape} {vs : List (UA K)} {w' : Option (UA K)} (hJ : JointShape (samples ++ weights.toList) T)
    (hp : Prepared samples weights axis A T shape X vs w') {gs : List (USpan K)} (hg : GoodUSpans T A gs)
    (hl : samples.length = gs.length) {min max : Option (List (UArg K))}
    (hmin : boundParts listMin vs (axis.getD shape.keys) min = .ok (gs.map fun g => ofArg g.lo))
    (hmax : boundParts listMax vs (axis.getD shape.keys) max = .ok (gs.map fun g => ofArg g.hi)) (garbage garbageD : List Nat → K) :
    ∃ dims, List.Forall₂ (UEquidistant T A) gs dims ∧ GoodUDims T A dims ∧ ∃ hist,
      UA.histogramdd samples (.counts (gs.map fun g => (g.axis, ((g.num + 1 : Nat) : Int)))) axis min max false weights garbage garbageD =
        .ok (hist, dims.map (fun D => ofArg D.edges)) ∧ IsUHistogram T A samples weights dims hist := by
  have hT := hJ.paired
  have hside : ∀ p, ∃ dims, List.Forall₂ (fun g D => Equidistant (T p) A (USpan.side g p) D) gs dims ∧ GoodDims (T p) A dims ∧
      ∀ g : List Nat → K, ∃ hist, NA.histogramdd (vs.map (·.side p)) (.counts (gs.map fun g => (g.axis, ((g.num + 1 : Nat) : Int))))
        (some (axis.getD shape.keys)) (some (gs.map fun g => UArg.side g.lo p)) (some (gs.map fun g => UArg.side g.hi p)) false
        (w'.map (·.side p)) g = .ok (hist, dims.map Dim.edges) ∧
      (∃ S, (∀ ax, get? S ax = get? (T p) ax) ∧ HistShape S (axis.getD shape.keys) dims hist.shape) ∧
      IsHistogram (T p) A (samples.map (UArg.side · p)) (weights.map (UArg.side · p)) dims hist := by
    intro p
    obtain ⟨S, s1, s2⟩ := hp.good p
    have hk : ∀ x, x ≠ axisD → (x ∈ keys S ↔ x ∈ keys (T .nominal)) := by
      intro x hx
      rw [← not_iff_not, ← get?_eq_none, ← get?_eq_none, s1]
      cases p with
      | nominal => rfl
      | samples => rw [hT.same x hx]
    have hlen : (vs.map (·.side p)).length = (gs.map (USpan.side · p)).length := by
      rw [List.length_map, List.length_map, ← hl, hp.each.length_eq]
    have hb : ∀ g ∈ gs.map (USpan.side · p), Bounds S (axis.getD shape.keys) g.lo g.hi := by
      intro g hg'
      obtain ⟨g, hgm, rfl⟩ := List.mem_map.1 hg'
      have hB := hg.bounds g hgm p
      have hbd : ∀ a : SA K, IsBound (T p) A a → IsBound S (axis.getD shape.keys) a := fun a ha =>
        ⟨ha.1, fun x n hx => by rw [← hp.axes, s1]; exact ha.2 x n hx⟩
      exact ⟨hbd _ hB.lower, hbd _ hB.upper, fun e he => hB.le e fun x n hx hn =>
        he x n (fun h => hx ((hp.axes x).2 h)) (by rw [s1]; exact hn)⟩
    obtain ⟨dims, d1, d2, d3⟩ := histogramdd_spans s2 hlen hb (by
        intro g hg'
        obtain ⟨g, hgm, rfl⟩ := List.mem_map.1 hg'
        intro hx
        exact (hp.axes _).1 (hg.new g hgm ((hk _ (hg.axis g hgm)).1 hx))) (by
        rw [List.map_map]
        exact hg.nodup) (some (gs.map fun g => UArg.side g.lo p)) (some (gs.map fun g => UArg.side g.hi p)) (by
        intro ss q _ _
        constructor
        · show Except.ok _ = Except.ok _
          rw [List.map_map]
          rfl
        · show Except.ok _ = Except.ok _
          rw [List.map_map]
          rfl)
    have hgd : GoodDims (T p) A dims := (d2.congr (fun ax => (s1 ax).symm)).congr_axes (fun x => (hp.axes x).symm)
    have d1' : List.Forall₂ (fun g D => Equidistant (T p) A (USpan.side g p) D) gs dims := by
      rw [List.forall₂_map_left_iff] at d1
      refine d1.imp (fun {g D} h => ⟨h.1, h.2.1, fun e he => h.2.2 e fun x n hx hn =>
        he x n (fun h => hx ((hp.axes x).1 h)) (by rw [← s1]; exact hn)⟩)
    refine ⟨dims, d1', hgd, fun g => ?_⟩
    have hlen' : (vs.map (·.side p)).length = dims.length := by
      rw [hlen, List.length_map, d1'.length_eq]
    obtain ⟨hist, h1, h2⟩ := histogramdd_is s2 d2 hlen' none none g
    refine ⟨hist, ?_, ⟨S, s1, h2.2.1⟩, h2.congr (fun ax => (s1 ax).symm) (fun x => (hp.axes x).symm) (fun e => ?_) (hp.weight p)⟩
    · rw [← h1, ← d3 false g, List.map_map]
      rfl
    · have heach := hp.each
      clear * - heach
      induction heach with
      | nil => rfl
      | cons h _ ih =>
        simp only [List.map_cons]
        rw [ih, h.2.2.2.2.2]
  obtain ⟨dN, a1, a2, a3⟩ := hside .nominal
  obtain ⟨dD, b1, b2, b3⟩ := hside .samples
  obtain ⟨hN, n1, ⟨S, n2, n3⟩, n4⟩ := a3 garbage
  obtain ⟨hD, m1, _, m4⟩ := b3 garbageD
  obtain ⟨dims, rfl, rfl, q3, q4⟩ := zip_dims a1 b1
  have haxes : ∀ D ∈ dims, D.axis ≠ axisD := by
    have hax := hg.axis
    clear * - q4 hax
    induction q4 with
    | nil => simp
    | cons h _ ih =>
      intro D hD
      rcases List.mem_cons.1 hD with rfl | hD
      · rw [h.1]; exact hax _ (by simp)
      · exact ih (fun g hg => hax g (by simp [hg])) D hD
  have hdok : ∀ D ∈ dims, D.edges.Ok ∧ ¬ D.edges.Reserved := by
    intro D hD
    have hn1 := a2.wf (D.side .nominal) (List.mem_map.2 ⟨D, hD, rfl⟩)
    have hd1 := b2.wf (D.side .samples) (List.mem_map.2 ⟨D, hD, rfl⟩)
    have ho := a2.other (D.side .nominal) (List.mem_map.2 ⟨D, hD, rfl⟩)
    obtain ⟨u, hu⟩ := q3 D hD
    rw [hu]
    refine ⟨⟨?_, ?_, ?_⟩, fun h => h⟩
    · have : (D.side .nominal).edges = u.nominal := by simp only [UDim.side, hu]; rfl
      rw [← this]; exact hn1
    · have : (D.side .samples).edges = u.distribution := by simp only [UDim.side, hu]; rfl
      rw [← this]; exact hd1
    · have hE : (D.side .nominal).edges = u.nominal := by simp only [UDim.side, hu]; rfl
      rw [← hE, ← SA.keys_shape hn1]
      intro h
      obtain ⟨n, hn⟩ := exists_get?_of_mem h
      obtain ⟨_, k, hk, _⟩ := ho axisD n (Ne.symm (haxes D hD)) hn
      exact hT.noD (mem_keys_of_get? hk)
  have hgood : GoodUDims T A dims := ⟨hdok, haxes, fun p => by cases p; exacts [a2, b2]⟩
  have hE : ∀ b ∈ dims.map UDim.edges, b.Ok ∧ ¬ b.Reserved := by
    intro b hb
    obtain ⟨D, hD, rfl⟩ := List.mem_map.1 hb
    exact hdok D hD
  have hno := noD_hist hT (dims := dims.map (·.side .nominal)) (by
    intro D hD
    obtain ⟨D', h, rfl⟩ := List.mem_map.1 hD
    exact haxes D' h) n2 n4.1 n3
  refine ⟨dims, q4, hgood, ⟨hN, hD⟩, ?_, ⟨n4.1, m4.1, hno⟩, fun p => by cases p; exacts [n4, m4]⟩
  have hmk := mk_edges hE
  refine uhistogramdd_run hJ.ok hp rfl hmin hmax (histN := hN) (histD := hD)
    (edgesN := (dims.map (·.side .nominal)).map Dim.edges) (edgesD := (dims.map (·.side .samples)).map Dim.edges) ?_ ?_ hno n4.1 ?_
  · simp only [List.map_map]
    rw [List.map_map] at n1
    exact n1
  · simp only [List.map_map]
    rw [List.map_map] at m1
    exact m1
  · rw [List.map_map, List.map_map, List.map_map] at hmk
    rw [List.map_map, List.map_map]
    exact hmk

/-- **C108** (partial: `bins={ax: n + 1}` gives `n` bins, see `C58_number_of_bins_refuted`). With numbers of bins and with bounds, the
edges are equidistant from the lower to the upper bound, for the nominal value and for each sample separately. -/
theorem C108_bins_partial (samples : List (UArg K)) (weights : Option (UArg K)) (axis : Option (List String)) (T : Side → Shape)
    (A : List String) (hJ : JointShape (samples ++ weights.toList) T) (hA : SumAxes (T .nominal) axis A) (gs : List (USpan K))
    (hg : GoodUSpans T A gs) (hl : samples.length = gs.length) (garbage garbageD : List Nat → K) :
    ∃ dims, List.Forall₂ (UEquidistant T A) gs dims ∧ GoodUDims T A dims ∧ ∃ hist,
      UA.histogramdd samples (.counts (gs.map fun g => (g.axis, ((g.num + 1 : Nat) : Int)))) axis (some (gs.map USpan.lo))
        (some (gs.map USpan.hi)) false weights garbage garbageD = .ok (hist, dims.map (fun D => ofArg D.edges)) ∧
      IsUHistogram T A samples weights dims hist := by
  obtain ⟨shape, X, vs, w', hp⟩ := prepare hJ hA
  have hn : ∀ (f : USpan K → UArg K), (∀ g ∈ gs, (f g).Ok ∧ ¬ (f g).Reserved) → (gs.map f).mapM norm = .ok (gs.map fun g => ofArg (f g)) := by
    intro f h
    clear * - h
    induction gs with
    | nil => rfl
    | cons a l ih =>
      rw [List.map_cons, List.mapM_cons, norm_ofArg (h a (by simp)).1 (h a (by simp)).2, ih (fun b hb => h b (by simp [hb]))]
      rfl
  exact uhistogramdd_spans (min := some (gs.map USpan.lo)) (max := some (gs.map USpan.hi)) hJ hp hg hl (hn _ fun g h => (hg.ok g h).1) (hn _ fun g h => (hg.ok g h).2) garbage garbageD

/-- the last edge is the upper bound -/
theorem equidistant_inside {T : Shape} {g : Span K} {D : Dim K} (h : Equidistant T A g D) (hpos : 0 < D.num) {e : String → Nat}
    (he : OutsideRange T A e) {x : K} (h1 : g.lo.atB e ≤ x) (h2 : x ≤ g.hi.atB e) : D.Inside e x := by
  obtain ⟨_, hn, hE⟩ := h
  have hne : (g.num : K) ≠ 0 := by
    have : g.num ≠ 0 := by omega
    exact_mod_cast this
  constructor
  · rw [hE e he 0 (Nat.zero_le _)]
    simpa using h1
  · rw [hn, hE e he g.num le_rfl, mul_div_cancel₀ _ hne]
    linarith

/-- **C108** (partial). Without `min` and `max` the edges range from the smallest to the largest sample (along the summed axes), for the
nominal value and for each sample separately, and no sample is lost: if there are bins in each dimension then the sum over the bins is
the sum of all the weights. -/
theorem C108_default_partial (samples : List (UArg K)) (weights : Option (UArg K)) (axis : Option (List String)) (T : Side → Shape)
    (A : List String) (hJ : JointShape (samples ++ weights.toList) T) (hA : SumAxes (T .nominal) axis A)
    (hne : ∀ x ∈ A, get? (T .nominal) x ≠ some 0) (bins : List (String × Nat)) (hl : samples.length = bins.length)
    (hax : ∀ b ∈ bins, b.1 ≠ axisD ∧ (b.1 ∈ keys (T .nominal) → b.1 ∈ A)) (hnd : (bins.map Prod.fst).Nodup)
    (garbage garbageD : List Nat → K) :
    ∃ gs dims, gs.map (fun g => (g.axis, g.num)) = bins ∧
      List.Forall₂ (fun a g => ∀ p, Extremes (T p) A (UArg.side a p) (UArg.side g.lo p) (UArg.side g.hi p)) samples gs ∧
      List.Forall₂ (UEquidistant T A) gs dims ∧ GoodUDims T A dims ∧ ∃ hist,
      UA.histogramdd samples (.counts (bins.map fun b => (b.1, ((b.2 + 1 : Nat) : Int)))) axis none none false weights garbage garbageD =
        .ok (hist, dims.map (fun D => ofArg D.edges)) ∧ IsUHistogram T A samples weights dims hist ∧
      ((∀ b ∈ bins, 0 < b.2) → ∀ p e, OutsideRange (T p) A e → ∀ L l, SlabOf (hist.side p).shape (dims.map UDim.axis) e L →
        SlabOf (T p) A e l → (L.map (hist.side p).at').sum = (l.map (weightsOf (weights.map (UArg.side · p))).atB).sum) := by
  have hT := hJ.paired
  obtain ⟨shape, X, vs, w', hp⟩ := prepare hJ hA
  obtain ⟨ms, m1, m2⟩ := reduce_prepared hT hA.sub hp hne listMin
  obtain ⟨Ms, M1, M2⟩ := reduce_prepared hT hA.sub hp hne listMax
  have hslab : ∀ p e l l', SlabOf (T p) A e l → SlabOf (T p) A e l' → l.Perm l' := fun p e l l' h h' =>
    (List.perm_ext_iff_of_nodup h.1 h'.1).2 fun e' => by rw [h.2, h'.2]
  have hsub : ∀ p, A ⊆ keys (T p) ∧ ∀ x ∈ A, get? (T p) x = get? (T .nominal) x := by
    intro p
    have hDA : axisD ∉ A := fun h => hT.noD (hA.sub h)
    have : ∀ x ∈ A, get? (T p) x = get? (T .nominal) x := by
      intro x hx
      cases p with
      | nominal => rfl
      | samples => exact hT.same x (by rintro rfl; exact hDA hx)
    refine ⟨fun x hx => ?_, this⟩
    obtain ⟨n, hn⟩ := exists_get?_of_mem (hA.sub hx)
    exact mem_keys_of_get? ((this x hx).trans hn)
  have hex : ∀ p e l, SlabOf (T p) A e l → l ≠ [] := by
    intro p e l hl h
    have : (fun x => if x ∈ A then 0 else e x) ∈ l := (hl.2 _).2 ⟨fun x hx => by
      obtain ⟨n, hn⟩ := exists_get?_of_mem (hA.sub hx)
      refine ⟨n, ((hsub p).2 x hx).trans hn, ?_⟩
      rw [if_pos hx]
      exact Nat.pos_of_ne_zero fun h0 => hne x hx (h0 ▸ hn), fun x hx => if_neg hx⟩
    rw [h] at this
    cases this
  -- the spans
  obtain ⟨gs, g1, g2, g3, g4⟩ : ∃ gs : List (USpan K), gs.map (fun g => (g.axis, g.num)) = bins ∧ gs.map (fun g => ofArg g.lo) = ms ∧
      gs.map (fun g => ofArg g.hi) = Ms ∧ List.Forall₂ (fun a g => ((g.lo.Ok ∧ ¬ g.lo.Reserved) ∧ g.hi.Ok ∧ ¬ g.hi.Reserved) ∧
        ∀ p, (IsBound (T p) A (UArg.side g.lo p) ∧ IsBound (T p) A (UArg.side g.hi p)) ∧
          ∀ e, (∃ l, SlabOf (T p) A e l ∧ (UArg.side g.lo p).atB e = listMin (l.map (UArg.side a p).atB)) ∧
            ∃ l, SlabOf (T p) A e l ∧ (UArg.side g.hi p).atB e = listMax (l.map (UArg.side a p).atB)) samples gs := by
    clear * - m2 M2 hl
    induction m2 generalizing bins Ms with
    | nil =>
      cases M2
      cases bins with
      | nil => exact ⟨[], rfl, rfl, rfl, .nil⟩
      | cons b bs => simp at hl
    | cons h _ ih =>
      cases M2 with
      | cons H H' =>
      cases bins with
      | nil => simp at hl
      | cons b bs =>
        obtain ⟨gs, g1, g2, g3, g4⟩ := ih bs (by simpa using hl) _ H'
        rename_i a m _ _ _ M _
        refine ⟨⟨.unc m, .unc M, b.1, b.2⟩ :: gs, by rw [List.map_cons, g1], by rw [List.map_cons, g2]; rfl,
          by rw [List.map_cons, g3]; rfl, .cons ⟨⟨⟨h.1, fun h => h⟩, H.1, fun h => h⟩, fun p => ⟨⟨?_, ?_⟩, fun e => ⟨?_, ?_⟩⟩⟩ g4⟩
        · rw [show UArg.side (.unc m) p = m.side p by cases p <;> rfl]
          exact h.2.1 p
        · rw [show UArg.side (.unc M) p = M.side p by cases p <;> rfl]
          exact H.2.1 p
        · rw [show UArg.side (.unc m) p = m.side p by cases p <;> rfl]
          exact h.2.2 p e
        · rw [show UArg.side (.unc M) p = M.side p by cases p <;> rfl]
          exact H.2.2 p e
  have g5 : List.Forall₂ (fun a g => ((g.lo.Ok ∧ ¬ g.lo.Reserved) ∧ g.hi.Ok ∧ ¬ g.hi.Reserved) ∧
      (∀ p, Extremes (T p) A (UArg.side a p) (UArg.side g.lo p) (UArg.side g.hi p)) ∧
      ∀ p, Bounds (T p) A (UArg.side g.lo p) (UArg.side g.hi p)) samples gs := by
    refine g4.imp (fun {a g} ⟨h1, h2⟩ => ?_)
    have hE : ∀ p e l, SlabOf (T p) A e l → (∃ e' ∈ l, (UArg.side a p).atB e' = (UArg.side g.lo p).atB e) ∧
        (∃ e' ∈ l, (UArg.side a p).atB e' = (UArg.side g.hi p).atB e) ∧
        ∀ e' ∈ l, (UArg.side g.lo p).atB e ≤ (UArg.side a p).atB e' ∧ (UArg.side a p).atB e' ≤ (UArg.side g.hi p).atB e := by
      intro p e l hl
      obtain ⟨⟨l1, q1, q2⟩, l2, q3, q4⟩ := (h2 p).2 e
      have p1 := listMin_spec (l := l1.map (UArg.side a p).atB) (by simpa using hex p e l1 q1)
      have p2 := listMax_spec (l := l2.map (UArg.side a p).atB) (by simpa using hex p e l2 q3)
      rw [q2, q4]
      refine ⟨?_, ?_, fun e' he' => ⟨?_, ?_⟩⟩
      · obtain ⟨e', he', h⟩ := List.mem_map.1 p1.1
        exact ⟨e', (hslab p e l1 l q1 hl).mem_iff.1 he', h⟩
      · obtain ⟨e', he', h⟩ := List.mem_map.1 p2.1
        exact ⟨e', (hslab p e l2 l q3 hl).mem_iff.1 he', h⟩
      · exact p1.2 _ (List.mem_map.2 ⟨e', (hslab p e l1 l q1 hl).mem_iff.2 he', rfl⟩)
      · exact p2.2 _ (List.mem_map.2 ⟨e', (hslab p e l2 l q3 hl).mem_iff.2 he', rfl⟩)
    refine ⟨h1, fun p e _ l hl => hE p e l hl, fun p => ⟨(h2 p).1.1, (h2 p).1.2, fun e _ => ?_⟩⟩
    obtain ⟨⟨l1, q1, _⟩, _⟩ := (h2 p).2 e
    obtain ⟨_, ⟨e', he', _⟩, h⟩ := hE p e l1 q1
    exact (h e' he').1.trans (h e' he').2
  have hmem : ∀ g ∈ gs, ∃ a, ((g.lo.Ok ∧ ¬ g.lo.Reserved) ∧ g.hi.Ok ∧ ¬ g.hi.Reserved) ∧
      (∀ p, Extremes (T p) A (UArg.side a p) (UArg.side g.lo p) (UArg.side g.hi p)) ∧
      ∀ p, Bounds (T p) A (UArg.side g.lo p) (UArg.side g.hi p) := by
    clear * - g5
    induction g5 with
    | nil => simp
    | cons h _ ih =>
      intro g hg
      rcases List.mem_cons.1 hg with rfl | hg
      · exact ⟨_, h⟩
      · exact ih g hg
  have hgm : ∀ g ∈ gs, (g.axis, g.num) ∈ bins := fun g hg => by rw [← g1]; exact List.mem_map.2 ⟨g, hg, rfl⟩
  have hg : GoodUSpans T A gs := by
    refine ⟨fun g hg => ?_, fun g hg => (hax _ (hgm g hg)).1, fun g hg => (hax _ (hgm g hg)).2, ?_, fun g hg => ?_⟩
    · obtain ⟨_, h, _⟩ := hmem g hg
      exact h
    · rw [← g1, List.map_map] at hnd
      exact hnd
    · obtain ⟨_, _, _, h⟩ := hmem g hg
      exact h
  obtain ⟨dims, d1, d2, hist, d3, d4⟩ := uhistogramdd_spans (min := none) (max := none) hJ hp hg g4.length_eq
    (by rw [g2]; exact m1) (by rw [g3]; exact M1) garbage garbageD
  refine ⟨gs, dims, g1, g5.imp (fun {a g} h => h.2.1), d1, d2, hist, ?_, d4, fun hpos p e he L l hL hl' => ?_⟩
  · rw [← g1, List.map_map]
    exact d3
  · have hdpos : ∀ D ∈ dims, 0 < D.num := by
      clear * - d1 hgm hpos
      induction d1 with
      | nil => simp
      | cons h _ ih =>
        intro D hD
        rcases List.mem_cons.1 hD with rfl | hD
        · rw [h.2.1]; exact hpos _ (hgm _ (by simp))
        · exact ih (fun g hg => hgm g (by simp [hg])) D hD
    have := (d4.2 p).2.2.2 (by
      intro D hD
      obtain ⟨D', h, rfl⟩ := List.mem_map.1 hD
      exact hdpos D' h) e he L l (by rw [List.map_map]; exact hL) hl'
    rw [this]
    unfold weightOf
    rw [List.filter_eq_self.2]
    intro e' he'
    rw [decide_eq_true_iff]
    show Covered _ _ _
    rw [List.map_map]
    clear * - g5 d1 hdpos he he' hl'
    induction g5 generalizing dims with
    | nil => intro q hq; simp at hq
    | cons h _ ih =>
      cases d1 with
      | cons k1 k2 =>
      intro q hq
      simp only [List.map_cons, List.zip_cons_cons, List.mem_cons] at hq
      rcases hq with rfl | hq
      · have hx := (h.2.1 p e he l hl').2.2 e' he'
        exact equidistant_inside (k1.2.2 p) (hdpos _ (by simp)) he hx.1 hx.2
      · exact ih _ k2 (fun D hD => hdpos D (by simp [hD])) q hq

/-- **C108** (unknown axes). An axis which no operand has is a `KeyError`, also if it is the axis of the samples. -/
theorem C108_unknown_axis (samples : List (UArg K)) (weights : Option (UArg K)) (A : List String) (T : Side → Shape)
    (hJ : JointShape (samples ++ weights.toList) T) (hA : ¬ A ⊆ keys (T .nominal)) (edges : List (UArg K))
    (hb : ∀ b ∈ edges, b.Ok ∧ ¬ b.Reserved) (min max : Option (List (UArg K))) (density : Bool) (garbage garbageD : List Nat → K) :
    UA.histogramdd samples (.edges edges) (some A) min max density weights garbage garbageD = .error .keyError := by
  obtain ⟨shape, X, vs, w', hp⟩ := prepare (A := []) (axis := some []) hJ ⟨.nil, by simp, .inl rfl⟩
  obtain ⟨shapes, ws, shapeHist, X0, r1, r2, r3, _⟩ := hp.run
  have hok := hJ.ok
  have hns : samples.mapM norm = .ok (samples.map ofArg) := by
    have : ∀ a ∈ samples, norm a = .ok (ofArg a) := fun a ha =>
      norm_ofArg (hok a (by simp [ha])).1 (hok a (by simp [ha])).2
    clear * - this
    induction samples with
    | nil => rfl
    | cons a l ih =>
      rw [List.mapM_cons, this a (by simp), ih (fun a ha => this a (by simp [ha]))]
      rfl
  have hnw : normOpt weights = .ok (weights.map ofArg) := by
    cases weights with
    | none => rfl
    | some a =>
      simp only [normOpt, bind, Except.bind, norm_ofArg (hok a (by simp)).1 (hok a (by simp)).2]
      rfl
  have hA' : ¬ A ⊆ keys shape := by
    intro h
    apply hA
    intro x hx
    obtain ⟨n, hn⟩ := exists_get?_of_mem (h hx)
    exact mem_keys_of_get? ((hp.common x).symm.trans hn)
  unfold UA.histogramdd
  simp only [bind, Except.bind, hns, binParts_edges hb, hnw, r1, r2, r3, Option.getD_some, pickAxes_error hA']

/-- **C108** (one uncertain scalar). `na.histogram(a, bins=edges, axis, min, max, weights)`. -/
theorem C108_single (a : UArg K) (weights : Option (UArg K)) (axis : Option (List String)) (T : Side → Shape)
    (A : List String) (hJ : JointShape (a :: weights.toList) T) (hA : SumAxes (T .nominal) axis A) (D : UDim K)
    (hd : GoodUDims T A [D]) (min max : Option (UArg K)) (hmin : Bounding T A (min.map fun m => [m]))
    (hmax : Bounding T A (max.map fun m => [m])) (garbage garbageD : List Nat → K) :
    ∃ hist, UA.histogram a (.edges [D.edges]) axis min max false weights garbage garbageD = .ok (hist, ofArg D.edges) ∧
      IsUHistogram T A [a] weights [D] hist := by
  obtain ⟨hist, h1, h2⟩ := C108_counts [a] weights axis T A hJ hA [D] hd rfl _ _ hmin hmax garbage garbageD
  refine ⟨hist, ?_, h2⟩
  have h1' : UA.histogramdd [a] (.edges [D.edges]) axis (min.map fun m => [m]) (max.map fun m => [m]) false weights garbage garbageD =
    .ok (hist, [ofArg D.edges]) := h1
  unfold UA.histogram
  simp only [bind, Except.bind, h1']

end

/-! ### Vectors -/

section
open NA.Comp (cartesianNd fromCartesianNd NamedL skelL wf_cartesianNd flatParts flatOption flatBins)

theorem vector_run {cls : String} {cs : List (String × Comp (SA K))} (hw : Dict.WF cs) (hn : NamedL cs) {bins : VBins K} {bs : Bins K}
    (hb : flatBins cls (keys cs) bins = .ok bs) {min max : Option (Comp (SA K))} {mins maxs : Option (List (SA K))}
    (hmin : flatOption cls (keys cs) min = .ok mins) (hmax : flatOption cls (keys cs) max = .ok maxs) {axis : Option (List String)}
    {density : Bool} {weights : Option (SA K)} {garbage : List Nat → K} {hist : SA K} {E : List (SA K)}
    (hl : E.length = (cartesianNd cs).values.length)
    (h : histogramdd (cartesianNd cs).values bs axis mins maxs density weights garbage = .ok (hist, E)) :
    ∃ rs, Comp.histogram cls cs bins axis min max density weights garbage = .ok (.node cls rs, hist) ∧ skelL rs = skelL cs ∧
      keys (cartesianNd rs) = keys (cartesianNd cs) ∧
      ∀ q, get? (cartesianNd rs) q = get? ((keys (cartesianNd cs)).zip E) q := by
  have hlen : E.length = (keys (cartesianNd cs)).length := by
    rw [hl]; simp [Dict.values, Dict.keys]
  have hkeys : keys ((keys (cartesianNd cs)).zip E) = keys (cartesianNd cs) := by
    show ((keys (cartesianNd cs)).zip E).map Prod.fst = _
    rw [List.map_fst_zip (by omega)]
  have hnd : Dict.WF ((keys (cartesianNd cs)).zip E) := by
    unfold Dict.WF; rw [hkeys]; exact wf_cartesianNd cs
  obtain ⟨r, h1, h2, h3, h4⟩ := Comp.C38_roundtrip_flat_partial cs hw hn _ hnd (fun q => by rw [hkeys])
  refine ⟨r, ?_, h2, h3, h4⟩
  unfold Comp.histogram
  simp only [bind, Except.bind, hb, hmin, hmax, h, h1]

/-- A bound for the components of the vector: a vector of the same type with the same names, or, if no component is a vector, a scalar. -/
inductive BoundVec (cls : String) (cs : List (String × Comp (SA K))) : Comp (SA K) → List (SA K) → Prop
  | scalar (b : SA K) (h : keys (cartesianNd cs) = keys cs) : BoundVec cls cs (.leaf b) ((keys (cartesianNd cs)).map fun _ => b)
  | vector (bs : List (String × Comp (SA K))) (h : keys (cartesianNd bs) = keys (cartesianNd cs)) :
      BoundVec cls cs (.node cls bs) (cartesianNd bs).values

theorem flatParts_ok {cls : String} {cs : List (String × Comp (SA K))} {v : Comp (SA K)} {l : List (SA K)}
    (h : BoundVec cls cs v l) : flatParts cls (keys cs) v = .ok l := by
  cases h with
  | scalar b h => rw [h]; rfl
  | vector bs h => exact if_pos rfl

/-- **C108** (vectors, edges given). `na.histogram(a, bins=edges, axis, weights)` counts the points whose components, at any depth, are
in the bin; the inputs of the result are the given edges, with the layout of `a`.
Full claim: for edges whose components are in another order; this is false, see `C108_order_mislabelled`. -/
theorem C108_vector_partial (cls : String) (cs : List (String × Comp (SA K))) (hw : Dict.WF cs) (hn : NamedL cs)
    (weights : Option (SA K)) (axis : Option (List String)) (S : Shape) (A : List String)
    (hs : GoodSamples (cartesianNd cs).values weights axis S A) (es : List (String × Comp (SA K)))
    (hk : keys (cartesianNd es) = keys (cartesianNd cs)) (dims : List (Dim K)) (hE : (cartesianNd es).values = dims.map Dim.edges)
    (hd : GoodDims S A dims) (garbage : List Nat → K) :
    ∃ rs hist, Comp.histogram cls cs (.edges (.node cls es)) axis none none false weights garbage = .ok (.node cls rs, hist) ∧
      skelL rs = skelL cs ∧ (∀ q, get? (cartesianNd rs) q = get? (cartesianNd es) q) ∧
      IsHistogram S A (cartesianNd cs).values weights dims hist := by
  have hlen : (cartesianNd cs).values.length = dims.length := by
    have h1 := congrArg List.length hk
    have h2 := congrArg List.length hE
    simp only [Dict.keys, Dict.values, List.length_map] at h1 h2 ⊢
    omega
  obtain ⟨hist, h1, h2⟩ := histogramdd_is hs hd hlen none none garbage
  obtain ⟨rs, r1, r2, r3, r4⟩ := vector_run (cls := cls) hw hn (bins := .edges (.node cls es)) (bs := .edges (dims.map Dim.edges))
    (min := none) (max := none) (mins := none) (maxs := none)
    (by simp only [flatBins, flatParts, bind, Except.bind, if_true, hE]) rfl rfl (by rw [List.length_map, hlen]) h1
  refine ⟨rs, hist, r1, r2, fun q => ?_, h2⟩
  rw [r4, ← hE, ← hk]
  congr 1
  generalize cartesianNd es = l
  induction l with
  | nil => rfl
  | cons p l ih =>
    exact congrArg (p :: ·) ih

/-- **C108** (vectors, partial). With numbers of bins and with bounds, the edges of each component are equidistant from its lower to its
upper bound.  Full claim: for scalar bounds also if `a` has components which are vectors, and for bounds whose components are in another
order; both are false, see `C108_nested_bounds_refuted` and `C108_order_mislabelled`. -/
theorem C108_vector_bins_partial (cls : String) (cs : List (String × Comp (SA K))) (hw : Dict.WF cs) (hn : NamedL cs)
    (weights : Option (SA K)) (axis : Option (List String)) (S : Shape) (A : List String)
    (hs : GoodSamples (cartesianNd cs).values weights axis S A) (gs : List (Span K)) (min max : Comp (SA K))
    (hmin : BoundVec cls cs min (gs.map Span.lo)) (hmax : BoundVec cls cs max (gs.map Span.hi))
    (hb : ∀ g ∈ gs, Bounds S A g.lo g.hi) (hax : ∀ g ∈ gs, g.axis ∈ keys S → g.axis ∈ A) (hnd : (gs.map Span.axis).Nodup)
    (garbage : List Nat → K) :
    ∃ dims rs hist, Comp.histogram cls cs (.counts (gs.map fun g => (g.axis, ((g.num + 1 : Nat) : Int)))) axis (some min) (some max) false
        weights garbage = .ok (.node cls rs, hist) ∧
      List.Forall₂ (Equidistant S A) gs dims ∧ GoodDims S A dims ∧ skelL rs = skelL cs ∧ keys (cartesianNd rs) = keys (cartesianNd cs) ∧
      (cartesianNd rs).values = dims.map Dim.edges ∧ IsHistogram S A (cartesianNd cs).values weights dims hist := by
  have hlen : (cartesianNd cs).values.length = gs.length := by
    have : ∀ {v l}, BoundVec cls cs v l → l.length = (cartesianNd cs).values.length := by
      intro v l h
      cases h with
      | scalar b h => simp [Dict.values, Dict.keys]
      | vector bs h =>
        have h1 := congrArg List.length h
        simp only [Dict.keys, Dict.values, List.length_map] at h1 ⊢
        exact h1
    rw [← this hmin, List.length_map]
  obtain ⟨dims, d1, d2, d3⟩ := histogramdd_spans hs hlen hb hax hnd (some (gs.map Span.lo)) (some (gs.map Span.hi))
    (fun _ _ _ _ => ⟨rfl, rfl⟩)
  have hlen' : (cartesianNd cs).values.length = dims.length := by rw [hlen, d1.length_eq]
  obtain ⟨hist, h1, h2⟩ := histogramdd_is hs d2 hlen' none none garbage
  rw [← d3] at h1
  obtain ⟨rs, r1, r2, r3, r4⟩ := vector_run (cls := cls) hw hn (bins := .counts (gs.map fun g => (g.axis, ((g.num + 1 : Nat) : Int))))
    (min := some min) (max := some max) rfl
    (by simp only [flatOption, bind, Except.bind, flatParts_ok hmin]) (by simp only [flatOption, bind, Except.bind, flatParts_ok hmax])
    (by rw [List.length_map, hlen']) h1
  refine ⟨dims, rs, hist, r1, d1, d2, r2, r3, ?_, h2⟩
  have hl : (dims.map Dim.edges).length = (keys (cartesianNd cs)).length := by
    rw [List.length_map, ← hlen']; simp [Dict.values, Dict.keys]
  have hkz : keys ((keys (cartesianNd cs)).zip (dims.map Dim.edges)) = keys (cartesianNd cs) := List.map_fst_zip (by omega)
  have : cartesianNd rs = (keys (cartesianNd cs)).zip (dims.map Dim.edges) :=
    NA.dict_ext (wf_cartesianNd rs) (by rw [r3, hkz]) r4
  rw [this]
  exact List.map_snd_zip (by omega)

/-- Smallest and largest samples as the bounds of several dimensions. -/
theorem default_spans {samples : List (SA K)} {weights : Option (SA K)} {axis : Option (List String)}
    (hs : GoodSamples samples weights axis S A) (hne : ∀ x ∈ A, get? S x ≠ some 0) (bins : List (String × Nat))
    (hl : samples.length = bins.length) :
    ∃ gs : List (Span K), gs.map (fun g => (g.axis, g.num)) = bins ∧
      List.Forall₂ (fun a g => Extremes S A a g.lo g.hi) samples gs ∧ (∀ g ∈ gs, Bounds S A g.lo g.hi) ∧
      ∀ ss p, pairUp samples weights = .ok p → samples.mapM (fun s => s.broadcastTo p.shape) = .ok ss →
        boundsOf listMin ss (axis.getD p.shape.keys) none = .ok (gs.map Span.lo) ∧
        boundsOf listMax ss (axis.getD p.shape.keys) none = .ok (gs.map Span.hi) := by
  obtain ⟨p, p1, p2, p3, p4⟩ := pairUp_ok samples hs.wf weights hs.wfw hs.shape
  obtain ⟨ss, s1, s2, s3⟩ := histBroadcast hs (SA.wf_shape p2) p3
  obtain ⟨q1, q2⟩ := axes_of_samples hs (SA.wf_shape p2) p3
  have key : ∃ gs : List (Span K), gs.map (fun g => (g.axis, g.num)) = bins ∧
      List.Forall₂ (fun a g => Extremes S A a g.lo g.hi) samples gs ∧ (∀ g ∈ gs, Bounds S A g.lo g.hi) ∧
      ss.mapM (fun s => s.reduce true listMin (some (axis.getD p.shape.keys)) false none none) = .ok (gs.map Span.lo) ∧
      ss.mapM (fun s => s.reduce true listMax (some (axis.getD p.shape.keys)) false none none) = .ok (gs.map Span.hi) := by
    have hnd := hs.nodup
    have hsub := hs.sub
    clear s1 s2 p1 p4 hs
    induction s3 generalizing bins with
    | nil =>
      cases bins with
      | nil => exact ⟨[], rfl, .nil, by simp, rfl, rfl⟩
      | cons b bs => simp at hl
    | cons h _ ih =>
      cases bins with
      | nil => simp at hl
      | cons b bs =>
        obtain ⟨gs, g1, g2, g3, g4, g5⟩ := ih bs (by simpa using hl)
        obtain ⟨h1, h2, h3⟩ := h
        obtain ⟨lo, hi, k1, k2, k3, k4⟩ := default_bounds hnd hsub hne q1 q2 h1 (fun x => by rw [h2, p3]) h3
        refine ⟨⟨lo, hi, b.1, b.2⟩ :: gs, by rw [List.map_cons, g1], .cons k4 g2, ?_, ?_, ?_⟩
        · intro g hg
          rcases List.mem_cons.1 hg with rfl | hg
          · exact k3
          · exact g3 g hg
        · rw [List.mapM_cons, k1, g4]; rfl
        · rw [List.mapM_cons, k2, g5]; rfl
  obtain ⟨gs, g1, g2, g3, g4, g5⟩ := key
  refine ⟨gs, g1, g2, g3, fun ss' p' hp' hss' => ?_⟩
  rw [p1] at hp'
  injection hp' with hp'
  subst hp'
  rw [s1] at hss'
  injection hss' with hss'
  subst hss'
  exact ⟨g4, g5⟩

/-- **C108** (vectors, partial). Without `min` and `max` the edges of each component range from its smallest to its largest value (along
the summed axes) and no point is lost: if there are bins along each component, then the sum over all the bins is the sum of all the
weights. -/
theorem C108_vector_default_partial (cls : String) (cs : List (String × Comp (SA K))) (hw : Dict.WF cs) (hn : NamedL cs)
    (weights : Option (SA K)) (axis : Option (List String)) (S : Shape) (A : List String)
    (hs : GoodSamples (cartesianNd cs).values weights axis S A) (hne : ∀ x ∈ A, get? S x ≠ some 0) (bins : List (String × Nat))
    (hl : (cartesianNd cs).values.length = bins.length) (hax : ∀ b ∈ bins, b.1 ∈ keys S → b.1 ∈ A) (hnd : (bins.map Prod.fst).Nodup)
    (garbage : List Nat → K) :
    ∃ gs dims rs hist, Comp.histogram cls cs (.counts (bins.map fun b => (b.1, ((b.2 + 1 : Nat) : Int)))) axis none none false
        weights garbage = .ok (.node cls rs, hist) ∧ gs.map (fun g => (g.axis, g.num)) = bins ∧
      List.Forall₂ (fun a g => Extremes S A a g.lo g.hi) (cartesianNd cs).values gs ∧
      List.Forall₂ (Equidistant S A) gs dims ∧ skelL rs = skelL cs ∧ keys (cartesianNd rs) = keys (cartesianNd cs) ∧
      (cartesianNd rs).values = dims.map Dim.edges ∧ IsHistogram S A (cartesianNd cs).values weights dims hist ∧
      ((∀ b ∈ bins, 0 < b.2) → ∀ e, OutsideRange S A e → ∀ L l, SlabOf hist.shape (dims.map Dim.axis) e L → SlabOf S A e l →
        (L.map hist.at').sum = (l.map (weightsOf weights).atB).sum) := by
  obtain ⟨gs, g1, g2, g3, g4⟩ := default_spans hs hne bins hl
  have hgm : ∀ g ∈ gs, (g.axis, g.num) ∈ bins := fun g hg => by rw [← g1]; exact List.mem_map.2 ⟨g, hg, rfl⟩
  have hlg : (cartesianNd cs).values.length = gs.length := g2.length_eq
  obtain ⟨dims, d1, d2, d3⟩ := histogramdd_spans hs hlg g3 (fun g hg => hax _ (hgm g hg)) (by
    rw [← g1, List.map_map] at hnd
    exact hnd) none none g4
  have hlen' : (cartesianNd cs).values.length = dims.length := by rw [hlg, d1.length_eq]
  obtain ⟨hist, h1, h2⟩ := histogramdd_is hs d2 hlen' none none garbage
  rw [← d3] at h1
  obtain ⟨rs, r1, r2, r3, r4⟩ := vector_run (cls := cls) hw hn (bins := .counts (gs.map fun g => (g.axis, ((g.num + 1 : Nat) : Int))))
    (min := none) (max := none) (mins := none) (maxs := none) rfl rfl rfl (by rw [List.length_map, hlen']) h1
  refine ⟨gs, dims, rs, hist, ?_, g1, g2, d1, r2, r3, ?_, h2, fun hpos e he L l hL hl' => ?_⟩
  · rw [← g1, List.map_map]
    exact r1
  · have hl : (dims.map Dim.edges).length = (keys (cartesianNd cs)).length := by
      rw [List.length_map, ← hlen']; simp [Dict.values, Dict.keys]
    have hkz : keys ((keys (cartesianNd cs)).zip (dims.map Dim.edges)) = keys (cartesianNd cs) := List.map_fst_zip (by omega)
    have : cartesianNd rs = (keys (cartesianNd cs)).zip (dims.map Dim.edges) :=
      NA.dict_ext (wf_cartesianNd rs) (by rw [r3, hkz]) r4
    rw [this]
    exact List.map_snd_zip (by omega)
  · have hdpos : ∀ D ∈ dims, 0 < D.num := by
      clear * - d1 hgm hpos
      induction d1 with
      | nil => simp
      | cons h _ ih =>
        intro D hD
        rcases List.mem_cons.1 hD with rfl | hD
        · rw [h.2.1]; exact hpos _ (hgm _ (by simp))
        · exact ih (fun g hg => hgm g (by simp [hg])) D hD
    rw [h2.2.2.2 hdpos e he L l hL hl']
    unfold weightOf
    rw [List.filter_eq_self.2]
    intro e' he'
    rw [decide_eq_true_iff]
    show Covered _ _ _
    clear * - g2 d1 hdpos he he' hl'
    generalize (cartesianNd cs).values = samples at g2
    induction g2 generalizing dims with
    | nil => intro q hq; simp at hq
    | cons h _ ih =>
      cases d1 with
      | cons k1 k2 =>
      intro q hq
      simp only [List.map_cons, List.zip_cons_cons, List.mem_cons] at hq
      rcases hq with rfl | hq
      · have hx := (h e he l hl').2.2 e' he'
        exact equidistant_inside k1 (hdpos _ (by simp)) he hx.1 hx.2
      · exact ih _ k2 (fun D hD => hdpos D (by simp [hD])) q hq

/-- **C108** (vectors of another type). Edges or bounds which are a vector of another type are a `TypeError`. -/
theorem C108_vector_other_type (cls cls' : String) (hc : cls' ≠ cls) (cs es : List (String × Comp (SA K))) (bins : VBins K)
    (axis : Option (List String)) (min max : Option (Comp (SA K))) (density : Bool) (weights : Option (SA K)) (garbage : List Nat → K)
    (h : bins = .edges (.node cls' es) ∨ (∃ d, bins = .counts d) ∧ min = some (.node cls' es)) :
    Comp.histogram cls cs bins axis min max density weights garbage = .error .typeError := by
  unfold Comp.histogram
  rcases h with rfl | ⟨⟨d, rfl⟩, rfl⟩
  · simp only [flatBins, flatParts, bind, Except.bind, if_neg hc]
  · simp only [flatBins, flatOption, flatParts, bind, Except.bind, if_neg hc]

end

/-! ### Concrete histograms of uncertain scalars and of vectors -/

/-- four measurements with two samples each -/
def exNoisyTimes : UA ℚ := ⟨⟨["t"], ND.ofList [4] [0, 1, 2, 3] 0⟩, ⟨["t", axisD], ND.ofList [4, 2] [0, 1, 1, 1, 2, 1, 3, 4] 0⟩⟩
/-- the edges of two bins -/
def exTwoBins : SA ℚ := ⟨["x"], ND.ofList [3] [0, 2, 4] 0⟩
/-- the common shapes -/
def exNoisyShape : Side → Shape
  | .nominal => [("t", 4)]
  | .samples => [("t", 4), (axisD, 2)]

theorem exJoint : JointShape ([.unc exNoisyTimes] ++ (none : Option (UArg ℚ)).toList) exNoisyShape := by
  have hsh : ∀ p, (UArg.side (.unc exNoisyTimes) p).shape = exNoisyShape p := by intro p; cases p <;> rfl
  have hok : (UArg.unc exNoisyTimes).Ok ∧ ¬ (UArg.unc exNoisyTimes).Reserved := ⟨⟨by decide, by decide, by decide⟩, fun h => h⟩
  refine ⟨⟨by decide, by decide, fun ax hx => ?_⟩, by decide, ?_, ?_, fun ax n hn => ⟨.unc exNoisyTimes, by simp, .samples, ?_⟩⟩
  · show get? [("t", 4), (axisD, 2)] ax = get? [("t", 4)] ax
    simp only [get?_cons, get?_nil, if_neg (Ne.symm hx)]
  · intro a ha
    simp only [Option.toList_none, List.append_nil, List.mem_singleton] at ha
    subst ha
    exact hok
  · intro a ha p
    simp only [Option.toList_none, List.append_nil, List.mem_singleton] at ha
    subst ha
    rw [hsh]
    exact fun ax m hm => ⟨m, hm, .inl rfl⟩
  · rw [hsh]; exact hn

example : SumAxes (exNoisyShape .nominal) none ["t"] := ⟨by decide, by decide, .inr ⟨rfl, by decide⟩⟩

example : GoodUDims exNoisyShape ["t"] [(⟨.plain exTwoBins, "x", 2⟩ : UDim ℚ)] := by
  have hsh : exTwoBins.shape = [("x", 3)] := rfl
  have hE : ∀ p, UArg.side (.plain exTwoBins) p = exTwoBins := by intro p; cases p <;> rfl
  refine ⟨?_, ?_, fun p => ⟨by simp [UDim.side], ?_, ?_, ?_, ?_, ?_⟩⟩
  · intro D hD; rw [List.mem_singleton] at hD; subst hD
    exact ⟨show exTwoBins.WF by decide, show axisD ∉ exTwoBins.axes by decide⟩
  · intro D hD; rw [List.mem_singleton] at hD; subst hD; show "x" ≠ axisD; decide
  · intro D hD; rw [List.map_singleton, List.mem_singleton] at hD; subst hD; cases p <;> decide
  · intro D hD; rw [List.map_singleton, List.mem_singleton] at hD; subst hD; cases p <;> decide
  · intro D hD; rw [List.map_singleton, List.mem_singleton] at hD; subst hD; cases p <;> decide
  · intro D hD x n hx hn; rw [List.map_singleton, List.mem_singleton] at hD; subst hD
    simp only [UDim.side, hE, hsh] at hn hx
    rw [get?_cons, if_neg (fun h => hx h.symm), get?_nil] at hn
    cases hn
  · intro D hD e _ k hk; rw [List.map_singleton, List.mem_singleton] at hD; subst hD
    have hk' : k < 2 := hk
    have he : ∀ j, Dim.edge ((⟨.plain exTwoBins, "x", 2⟩ : UDim ℚ).side p) e j = exTwoBins.nd.get [j] := by
      intro j
      unfold Dim.edge SA.atB SA.at'
      simp only [UDim.side, hE, hsh, get?_cons]
      show exTwoBins.nd.get [_] = _
      simp
    rw [he, he]
    interval_cases k <;> decide +kernel

example : Bounding exNoisyShape ["t"] (none : Option (List (UArg ℚ))) := by
  intro x hx
  rw [List.mem_singleton] at hx
  subst hx
  decide

/-- each of the two samples has its own histogram -/
example : (UA.histogramdd [.unc exNoisyTimes] (.edges [.plain exTwoBins]) none none none false none (fun _ => 7) (fun _ => 7)).map
    (fun r => ((r.1.nominal.shape, r.1.nominal.nd.toList), r.1.distribution.shape, r.1.distribution.nd.toList)) =
    .ok (([("x", 2)], [2, 2]), [(axisD, 2), ("x", 2)], [2, 2, 3, 1]) := by decide +kernel

/-- each of the two samples has its own edges, from its smallest to its largest value -/
example : (UA.histogramdd [.unc exNoisyTimes] (.counts [("x", 2)]) none none none false none (fun _ => 7) (fun _ => 7)).map
    (fun r => r.2.map fun e => (e.nominal.nd.toList, e.distribution.axes, e.distribution.nd.toList)) =
    .ok [([0, 3], [axisD, "x"], [0, 3, 1, 4])] := by decide +kernel

/-- bounds for the measurements -/
example : GoodUSpans exNoisyShape ["t"] [(⟨.plain (SA.scalar 0), .plain (SA.scalar 4), "x", 2⟩ : USpan ℚ)] := by
  have hb : ∀ p (c : ℚ), IsBound (exNoisyShape p) ["t"] (SA.scalar c) := fun p c =>
    ⟨(scalar_fits [] c).1, fun x n hx => by cases hx⟩
  refine ⟨?_, ?_, ?_, by decide, ?_⟩
  · intro g hg; rw [List.mem_singleton] at hg; subst hg
    exact ⟨⟨(scalar_fits [] (0 : ℚ)).1, show axisD ∉ [] by decide⟩, (scalar_fits [] (4 : ℚ)).1, show axisD ∉ [] by decide⟩
  · intro g hg; rw [List.mem_singleton] at hg; subst hg; show "x" ≠ axisD; decide
  · intro g hg; rw [List.mem_singleton] at hg; subst hg; decide
  · intro g hg p; rw [List.mem_singleton] at hg; subst hg
    have hl : UArg.side (.plain (SA.scalar (0 : ℚ))) p = SA.scalar 0 := by cases p <;> rfl
    have hh : UArg.side (.plain (SA.scalar (4 : ℚ))) p = SA.scalar 4 := by cases p <;> rfl
    show Bounds _ _ (UArg.side (.plain (SA.scalar (0 : ℚ))) p) (UArg.side (.plain (SA.scalar (4 : ℚ))) p)
    rw [hl, hh]
    exact ⟨hb p 0, hb p 4, fun e _ => show (0 : ℚ) ≤ 4 by norm_num⟩

/-- **C108** (refuted: no measurements). The histogram of no measurements with given edges is zero everywhere for a scalar, but for an
uncertain scalar (or if only the edges are uncertain) it is a `ValueError`, since the smallest measurement is computed although it is not
needed. -/
theorem C108_no_samples_refuted : ∃ a E : SA ℚ, a.WF ∧ E.WF ∧
    ((histogramdd [a] (.edges [E]) none none none false none (fun _ => 7)).map (fun r => (r.1.shape, r.1.nd.toList)) =
      .ok ([("x", 2)], [0, 0])) ∧
    UA.histogramdd [.unc ⟨a, a⟩] (.edges [.plain E]) none none none false none (fun _ => 7) (fun _ => 7) = .error .valueError :=
  ⟨⟨["t"], ND.ofList [0] [] 0⟩, exTwoBins, by decide, by decide, by decide +kernel, by with_unfolding_all rfl⟩

/-- **C108** (refuted: two dimensions). Without `axis`, `na.histogram2d` of uncertain scalars also sums over the samples: the histogram of
the samples has no axis of samples and counts each of the four measurements once for each of the two samples.  `na.histogram` of the same
measurements keeps the samples apart. -/
theorem C108_pooled_refuted : ∃ u hist ex ey : UA ℚ, u.Valid ∧
    UA.histogram2d (.unc u) (.unc u) (.counts [("x", 1), ("y", 1)]) none (some (.plain (SA.scalar 0), .plain (SA.scalar 0)))
      (some (.plain (SA.scalar 4), .plain (SA.scalar 4))) false none (fun _ => 7) (fun _ => 7) = .ok (hist, ex, ey) ∧
    get? u.distribution.shape axisD = some 2 ∧ get? hist.distribution.shape axisD = none ∧
    hist.nominal.nd.toList = [4] ∧ hist.distribution.nd.toList = [8] := by
  have h : (UA.histogram2d (.unc exNoisyTimes) (.unc exNoisyTimes) (.counts [("x", 1), ("y", 1)]) none
      (some (.plain (SA.scalar 0), .plain (SA.scalar 0))) (some (.plain (SA.scalar 4), .plain (SA.scalar 4))) false none (fun _ => 7)
      (fun _ => 7)).map (fun r => (get? r.1.distribution.shape axisD, r.1.nominal.nd.toList, r.1.distribution.nd.toList)) =
      .ok (none, [4], [8]) := by decide +kernel
  cases hr : UA.histogram2d (.unc exNoisyTimes) (.unc exNoisyTimes) (.counts [("x", 1), ("y", 1)]) none
      (some (.plain (SA.scalar 0), .plain (SA.scalar 0))) (some (.plain (SA.scalar 4), .plain (SA.scalar 4))) false none (fun _ => 7)
      (fun _ => 7) with
  | error e => rw [hr] at h; cases h
  | ok r =>
    rw [hr] at h
    have h' := Except.ok.inj h
    refine ⟨exNoisyTimes, r.1, r.2.1, r.2.2, ⟨by decide, by decide, by decide⟩, hr, by decide, congrArg Prod.fst h',
      congrArg (fun q => q.2.1) h', congrArg (fun q => q.2.2) h'⟩

/-- with `axis` the samples are kept apart -/
example : (UA.histogram2d (.unc exNoisyTimes) (.unc exNoisyTimes) (.counts [("x", 1), ("y", 1)]) (some ["t"])
      (some (.plain (SA.scalar 0), .plain (SA.scalar 0))) (some (.plain (SA.scalar 4), .plain (SA.scalar 4))) false none (fun _ => 7)
      (fun _ => 7)).map (fun r => (r.1.distribution.shape, r.1.nominal.nd.toList, r.1.distribution.nd.toList)) =
      .ok ([(axisD, 2), ("x", 1), ("y", 1)], [4], [4, 4]) := by decide +kernel

/-- three points -/
def exThree : List (String × Comp (SA ℚ)) :=
  [("x", .leaf ⟨["t"], ND.ofList [3] [0, 1, 3] 0⟩), ("y", .leaf ⟨["t"], ND.ofList [3] [10, 10, 30] 0⟩)]

example : Dict.WF exThree ∧ Comp.NamedL exThree := ⟨by decide, by simp [exThree, Comp.NamedL, Comp.Named]⟩

example : GoodSamples (Comp.cartesianNd exThree).values none none [("t", 3)] ["t"] := by
  refine ⟨fun s hs => ?_, by decide, by decide +kernel, by decide, by decide, .inr ⟨rfl, by decide⟩⟩
  have hs : s ∈ [(⟨["t"], ND.ofList [3] [0, 1, 3] 0⟩ : SA ℚ), ⟨["t"], ND.ofList [3] [10, 10, 30] 0⟩] := hs
  simp only [List.mem_cons, List.not_mem_nil, or_false] at hs
  rcases hs with rfl | rfl <;> decide

/-- scalar bounds apply to both components -/
example : BoundVec "Cartesian2dVectorArray" exThree (.leaf (SA.scalar 40))
    (([⟨SA.scalar 0, SA.scalar 40, "i", 2⟩, ⟨SA.scalar 0, SA.scalar 40, "j", 2⟩] : List (Span ℚ)).map Span.hi) :=
  .scalar _ (by decide)

example : ((Comp.histogram "Cartesian2dVectorArray" exThree (.counts [("i", 2), ("j", 3)]) none none none false none (fun _ => 7)).map
    (fun r => (r.2.shape, r.2.nd.toList, r.1.leaves.map fun a => (a.axes, a.nd.toList)))) =
    .ok ([("i", 1), ("j", 2)], [2, 1], [(["i"], [0, 3]), (["j"], [10, 20, 30])]) := by decide +kernel

/-- **C108** (mislabelled). The components of the bounds are not matched by name: with the bounds `x` from 0 to 4 and `y` from 5 to 40,
given as vectors whose first component is `y`, none of the points is in the histogram; with the same bounds in the order of `a` all three
are. -/
theorem C108_order_mislabelled : ∃ (cs lo hi lo' hi' : List (String × Comp (SA ℚ))),
    (∀ q, get? lo' q = get? lo q) ∧ (∀ q, get? hi' q = get? hi q) ∧
    ((Comp.histogram "CartesianNdVectorArray" cs (.counts [("i", 2), ("j", 2)]) none (some (.node "CartesianNdVectorArray" lo))
      (some (.node "CartesianNdVectorArray" hi)) false none (fun _ => 7)).map (fun r => r.2.nd.toList)) = .ok [3] ∧
    ((Comp.histogram "CartesianNdVectorArray" cs (.counts [("i", 2), ("j", 2)]) none (some (.node "CartesianNdVectorArray" lo'))
      (some (.node "CartesianNdVectorArray" hi')) false none (fun _ => 7)).map (fun r => r.2.nd.toList)) = .ok [0] := by
  refine ⟨exThree, [("x", .leaf (SA.scalar 0)), ("y", .leaf (SA.scalar 5))], [("x", .leaf (SA.scalar 4)), ("y", .leaf (SA.scalar 40))],
    [("y", .leaf (SA.scalar 5)), ("x", .leaf (SA.scalar 0))], [("y", .leaf (SA.scalar 40)), ("x", .leaf (SA.scalar 4))],
    fun q => ?_, fun q => ?_, by decide +kernel, by decide +kernel⟩
  · simp only [get?_cons, get?_nil]
    by_cases h1 : "x" = q
    · subst h1; simp
    · simp [h1]
  · simp only [get?_cons, get?_nil]
    by_cases h1 : "x" = q
    · subst h1; simp
    · simp [h1]

/-- a wavelength and a position -/
def exDeepThree : List (String × Comp (SA ℚ)) :=
  [("w", .leaf ⟨["t"], ND.ofList [3] [0, 1, 3] 0⟩), ("p", .node "Cartesian2dVectorArray" exThree)]

/-- **C108** (refuted: scalar bounds of vectors of vectors). A vector with a component which is a vector has no histogram with scalar
bounds, since the bounds are repeated for each of the components of the vector, not for each of the scalars. -/
theorem C108_nested_bounds_refuted : ∃ cs : List (String × Comp (SA ℚ)), Dict.WF cs ∧
    ((Comp.histogram "SpectralPositionalVectorArray" cs (.counts [("i", 2), ("j", 2), ("k", 2)]) none none none false none
      (fun _ => 7)).map (fun r => r.2.nd.toList)) = .ok [3] ∧
    ((Comp.histogram "SpectralPositionalVectorArray" cs (.counts [("i", 2), ("j", 2), ("k", 2)]) none (some (.leaf (SA.scalar 0)))
      (some (.leaf (SA.scalar 40))) false none (fun _ => 7)).map (fun r => r.2.nd.toList)) = .error .valueError :=
  ⟨exDeepThree, by decide, by decide +kernel, by decide +kernel⟩

end
end NA
