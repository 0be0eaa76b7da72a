import Verif.Props.RandomSamples
import Verif.Props.UncertainAxes
import Verif.Props.UncertainRoots
import Verif.Random.Choice
import Verif.Props.VectorAlong
import Verif.Transform.Lemmas

/-!
# C111: choosing elements of uncertain scalars and of vectors

`na.random.choice` treats the nominal values and the samples of an uncertain scalar, and the components of a vector, as
separate arrays.  Each of them contains elements of the corresponding array (`C111_choice_partial`, `C111_vector_partial`), but
they come from different positions: an element of the result need not be an element of the array (`C111_uncertain_refuted`,
`C111_samples_refuted`, `C111_vector_refuted`).
-/

namespace NA
open Dict
open SA (FitsIn InRange)

section choice
variable {α K σ : Type} [Field K] [LinearOrder K] [IsStrictOrderedRing K]

/-- The number of elements of one slice of an array of the shape `T`, from which the choices are made. -/
def population (T : Shape) (along : List String) : Nat := (values (T.filter (fun q => q.1 ∈ along))).prod

/-- Specification of acceptable weights `p` for `count` choices from each slice along `along` of an array of the shape `T`:
there is something to choose from; the weights are not negative, and one of them in every slice is not zero; without replacement
there are enough elements, none of which has the weight zero. -/
structure Drawable (T : Shape) (along : List String) (count : Nat) (replace : Bool) (p : Option (SA K)) : Prop where
  size : count = 0 ∨ 0 < population T along
  neg : ∀ q, p = some q → ∀ f, InRange T f → 0 ≤ q.atB f
  rep : replace = true ∨ (count ≤ population T along ∧ ∀ q, p = some q → ∀ f, InRange T f → q.atB f ≠ 0)
  pos : ∀ q, p = some q → ∀ e, InRange (T.filter (fun q => q.1 ∉ along)) e →
    ∃ f, InRange T f ∧ (∀ ax ∈ keys T, ax ∉ along → f ax = e ax) ∧ q.atB f ≠ 0

/-- Specification of choices: every element of `r` is an element of `a` with the same index outside `along`, whose weight is
not zero; without replacement elements of `r` with different indices come from elements of `a` with different indices. -/
def Chosen (T : Shape) (along : List String) (replace : Bool) (a : SA α) (p : Option (SA K)) (r : SA α) : Prop :=
  ∃ src : (String → Nat) → String → Nat,
    (∀ f, InRange r.shape f → InRange T (src f) ∧ (∀ ax ∈ keys T, ax ∉ along → src f ax = f ax) ∧
      r.at' f = a.atB (src f) ∧ ∀ q, p = some q → q.atB (src f) ≠ 0) ∧
    (replace = false → ∀ f f', InRange r.shape f → InRange r.shape f' → (∀ ax ∈ keys T, src f ax = src f' ax) →
      ∀ ax ∈ keys r.shape, f ax = f' ax)

theorem perm_of_get? {d d' : Dict β} (h : Dict.WF d) (h' : Dict.WF d') (hg : ∀ x, get? d x = get? d' x) : d.Perm d' := by
  have n1 : d.Nodup := List.Nodup.of_map _ h
  have n2 : d'.Nodup := List.Nodup.of_map _ h'
  rw [List.perm_ext_iff_of_nodup n1 n2]
  rintro ⟨k, v⟩
  constructor
  · intro hm
    exact mem_of_get? (by rw [← hg]; exact get?_of_mem h hm)
  · intro hm
    exact mem_of_get? (by rw [hg]; exact get?_of_mem h' hm)

theorem population_congr {T T' : Shape} (h : Dict.WF T) (h' : Dict.WF T') (hg : ∀ x, get? T x = get? T' x)
    (along : List String) : population T along = population T' along :=
  ((perm_of_get? h h' hg).filter _ |>.map _).prod_eq

theorem mem_keys_iff {d d' : Dict β} (hg : ∀ x, get? d x = get? d' x) (ax : String) : ax ∈ keys d ↔ ax ∈ keys d' := by
  rw [← not_iff_not, ← get?_eq_none, ← get?_eq_none, hg]

theorem inRange_congr' {T T' : Shape} (hg : ∀ x, get? T x = get? T' x) {f : String → Nat} : InRange T f ↔ InRange T' f := by
  simp only [InRange, hg]

theorem get?_filter_congr {T T' : Shape} (hg : ∀ x, get? T x = get? T' x) (along : List String) (ax : String) :
    get? (T.filter (fun q => q.1 ∉ along)) ax = get? (T'.filter (fun q => q.1 ∉ along)) ax := by
  rw [SA.get?_filter T (fun k => k ∉ along), SA.get?_filter T' (fun k => k ∉ along), hg]

namespace SA

/-- Choices from an array which, together with the weights, has the shape `T`, for requests which have no axes in common with
the ones outside `along`. -/
theorem choice_chosen {pick : Option (List K) → Nat → Nat → Bool → σ → R (List Nat × σ)} (hpick : Picks pick) (garbage : α)
    (s : σ) (a : SA α) (ha : a.WF) (p : Option (SA K)) (hp : ∀ q, p = some q → q.WF) (along : List String)
    (replace : Bool) (shapeRandom : Shape) (hr : Dict.WF shapeRandom) (T Ap : Shape) (hT : Dict.WF T)
    (hAp : broadcastShapes (a.shape :: (p.map SA.shape).toList) = .ok Ap) (hg : ∀ ax, get? Ap ax = get? T ax)
    (hdis : ∀ ax ∈ keys shapeRandom, ax ∈ keys T → ax ∈ along)
    (hd : Drawable T along (values shapeRandom).prod replace p) :
    ∃ r, choice pick garbage s a p (some along) replace shapeRandom = .ok r ∧ r.WF ∧
      (∀ ax, get? r.shape ax = if ax ∈ along ∨ ax ∉ keys T then get? shapeRandom ax else get? T ax) ∧
      Chosen T along replace a p r := by
  have hApw : Dict.WF Ap := (broadcastShapes_joinOf (by
    intro t ht
    cases p with
    | none => simp only [Option.map_none, Option.toList_none, List.mem_singleton] at ht; subst ht; exact wf_shape ha
    | some q =>
      simp only [Option.map_some, Option.toList_some, List.mem_cons, List.not_mem_nil, or_false] at ht
      rcases ht with rfl | rfl
      · exact wf_shape ha
      · exact wf_shape (hp q rfl)) hAp).1
  have hk : ∀ ax, ax ∈ keys Ap ↔ ax ∈ keys T := mem_keys_iff hg
  have hdis' : ∀ ax ∈ keys shapeRandom, ax ∈ keys Ap → ax ∈ along := fun ax h1 h2 => hdis ax h1 ((hk ax).1 h2)
  have hfil : shapeRandom.filter (fun q => ¬ (q.1 ∈ keys Ap ∧ q.1 ∉ along)) = shapeRandom := by
    rw [List.filter_eq_self]
    intro q hq
    rw [decide_eq_true_iff]
    rintro ⟨h1, h2⟩
    exact h2 (hdis' q.1 (List.mem_map.2 ⟨q, hq, rfl⟩) h1)
  have how : Dict.WF (Ap.filter (fun q => q.1 ∉ along)) := wf_filter hApw _
  have hws : ∀ t ∈ [shapeRandom, Ap.filter (fun q => q.1 ∉ along)], Dict.WF t := by
    intro t ht
    simp only [List.mem_cons, List.not_mem_nil, or_false] at ht
    rcases ht with rfl | rfl <;> assumption
  have hog : ∀ ax, get? (Ap.filter (fun q => q.1 ∉ along)) ax = if ax ∉ along then get? Ap ax else none :=
    fun ax => SA.get?_filter Ap (fun k => k ∉ along) ax
  have hnot : ∀ ax m n, get? shapeRandom ax = some m → get? (Ap.filter (fun q => q.1 ∉ along)) ax = some n → False := by
    intro ax m n h1 h2
    rw [hog] at h2
    split at h2
    · next h => exact h (hdis' ax (mem_keys_of_get? h1) (mem_keys_of_get? h2))
    · cases h2
  obtain ⟨S, hS⟩ : ∃ S, broadcastShapes [shapeRandom, Ap.filter (fun q => q.1 ∉ along)] = .ok S := by
    cases h : broadcastShapes [shapeRandom, Ap.filter (fun q => q.1 ∉ along)] with
    | ok S => exact ⟨S, rfl⟩
    | error e =>
      obtain ⟨ax, m, n, ⟨t, ht, h1⟩, ⟨u, hu, h2⟩, hne, _⟩ := (C01_broadcast_shapes_error_iff _ hws).1 ⟨e, h⟩
      simp only [List.mem_cons, List.not_mem_nil, or_false] at ht hu
      rcases ht with rfl | rfl <;> rcases hu with rfl | rfl
      · rw [h1] at h2; exact absurd (Option.some.inj h2) hne
      · exact (hnot ax _ _ h1 h2).elim
      · exact (hnot ax _ _ h2 h1).elim
      · rw [h1] at h2; exact absurd (Option.some.inj h2) hne
  obtain ⟨s1, s2, s3⟩ := C01_broadcast_shapes_ok _ hws S hS
  have hSg : ∀ ax, get? S ax = if ax ∈ along ∨ ax ∉ keys T then get? shapeRandom ax else get? T ax := by
    intro ax
    have hmem := s2 ax
    simp only [List.mem_cons, List.not_mem_nil, or_false, exists_eq_or_imp, exists_eq_left] at hmem
    cases hx : get? S ax with
    | none =>
      have hn := get?_eq_none.1 hx
      rw [hmem] at hn
      push Not at hn
      have h2 := get?_eq_none.2 hn.2
      rw [hog] at h2
      split
      · exact (get?_eq_none.2 hn.1).symm
      · next h =>
        push Not at h
        rw [if_pos h.1, hg] at h2
        exact h2.symm
    | some n =>
      obtain ⟨⟨t, ht, h1⟩, _⟩ := s3 ax n hx
      simp only [List.mem_cons, List.not_mem_nil, or_false] at ht
      rcases ht with rfl | rfl
      · split
        · exact h1.symm
        · next h =>
          push Not at h
          exact absurd (hdis ax (mem_keys_of_get? h1) h.2) h.1
      · rw [hog] at h1
        split at h1
        · next h =>
          rw [if_neg, ← hg, h1]
          push Not
          exact ⟨h, (hk ax).1 (mem_keys_of_get? h1)⟩
        · cases h1
  have hfr : ∀ f, InRange Ap f ↔ InRange T f := fun f => inRange_congr' hg
  have hor : ∀ f, InRange (Ap.filter (fun q => q.1 ∉ along)) f ↔ InRange (T.filter (fun q => q.1 ∉ along)) f :=
    fun f => inRange_congr' (get?_filter_congr hg along)
  have hpop : (values (Ap.filter (fun q => q.1 ∈ along))).prod = population T along := population_congr hApw hT hg along
  have hin : ∀ f, InRange S f → InRange (Ap.filter (fun q => q.1 ∉ along)) f := by
    intro f hf ax n hn
    rw [hog] at hn
    split at hn
    · next h =>
      refine hf ax n ?_
      rw [hSg, if_neg, ← hg, hn]
      push Not
      exact ⟨h, (hk ax).1 (mem_keys_of_get? hn)⟩
    · cases hn
  obtain ⟨r, r1, r2, r3, src, t1, _, t3⟩ := C92_choice_partial hpick garbage s a ha p hp (some along) replace shapeRandom hr Ap S
    hAp along rfl hS
    (fun ax h1 h2 h3 => absurd (hdis' ax (mem_keys_of_get? h3) h1) h2)
    (by rw [hfil, hpop]; exact hd.size)
    (fun q hq f hf => hd.neg q hq f ((hfr f).1 hf))
    (by
      rw [hfil, hpop]
      exact hd.rep.imp id (fun h => ⟨h.1, fun q hq f hf => h.2 q hq f ((hfr f).1 hf)⟩))
    (fun q hq e he => by
      obtain ⟨f, f1, f2, f3⟩ := hd.pos q hq e ((hor e).1 he)
      exact ⟨f, (hfr f).2 f1, fun ax h1 h2 => f2 ax ((hk ax).1 h1) h2, f3⟩)
  refine ⟨r, r1, r2, fun ax => by rw [r3]; exact hSg ax, src, fun f hf => ?_, fun h f f' hf hf' he ax hax => ?_⟩
  · rw [r3] at hf
    obtain ⟨u1, u2, u3, u4⟩ := t1 f hf (hin f hf)
    exact ⟨(hfr _).1 u1, fun ax h1 h2 => u2 ax ((hk ax).2 h1) h2, u3, u4⟩
  · rw [r3] at hf hf' hax
    exact t3 h f f' hf hf' (hin f hf) (hin f' hf') (fun ax h1 => he ax ((hk ax).1 h1)) ax hax

end SA

namespace UA

/-- The axis of the samples, if there is one. -/
def samplesAxis (u : UA γ) : Shape := u.distribution.shape.filter (fun q => q.1 = axisD)

theorem get?_samplesAxis (u : UA γ) (ax : String) :
    get? u.samplesAxis ax = if ax = axisD then get? u.distribution.shape ax else none :=
  SA.get?_filter u.distribution.shape (fun k => k = axisD) ax

/-- The shape of the arrays of samples which belong to arrays of the shape `Ap`. -/
theorem get?_with {Ap Nd : Shape} (hD : axisD ∉ keys Ap) (hN : ∀ ax ∈ keys Nd, ax = axisD) (ax : String) :
    get? (Ap ++ Nd) ax = if ax = axisD then get? Nd axisD else get? Ap ax := by
  rw [SA.get?_append]
  split
  · next h =>
    subst h
    rw [get?_eq_none.2 hD]
    rfl
  · next h =>
    cases h1 : get? Ap ax with
    | some n => rfl
    | none =>
      have : get? Nd ax = none := get?_eq_none.2 (fun h2 => h (hN ax h2))
      rw [this]
      rfl

/-- What `na.broadcast_to` does to the elements and the weights. -/
theorem broadcastTo_sides {u : UA γ} (hu : u.Valid) {s Ap : Shape} (hs : u.shape = .ok s) (hAp : Dict.WF Ap)
    (hD : axisD ∉ keys Ap) (hf : FitsIn s Ap) :
    ∃ v, u.broadcastTo Ap = .ok v ∧ v.Valid ∧ v.nominal.shape = Ap ∧
      (∀ ax, get? v.distribution.shape ax = if ax = axisD then get? u.distribution.shape axisD else get? Ap ax) ∧
      (∀ e, v.nominal.atB e = u.nominal.atB e) ∧ ∀ e, v.distribution.atB e = u.distribution.atB e := by
  obtain ⟨v, v1, v2, v3, v4, _, v5, v6⟩ := (C66_broadcast_to_partial u hu s hs Ap hAp).1 hf hD
  obtain ⟨_, _, w3, _, _⟩ := Optimize.broadcastTo_ok hu hAp v1
  rcases shape_cases hu with ⟨_, _, h⟩ | ⟨_, t, s', sd', h1, h2, h3, h4, h5⟩
  · rw [h] at hs; cases hs
  have : s' = s := by rw [h5.shape] at hs; cases hs; rfl
  subst this
  refine ⟨v, v1, v2, v3, v4, Comp.atB_of_broadcast hu.1 ?_ v5, Comp.atB_of_broadcast hu.2.1 w3 v6⟩
  rw [v3]
  exact Comp.fitsIn_trans h5.nom hf

/-- **C111** (uncertain scalars). Let the array and the weights have the shape `Ap` together, and let their samples have the
axis `Nd`.  If the weights of the nominal values and of every sample are acceptable, then `na.random.choice` returns an
uncertain scalar with the axes of `shape_random` and the axes of `Ap` outside `axis`: its nominal values are nominal values of
the array, and its samples with the number `k` are samples of the array with the number `k`, each of them with the same index
outside `axis` and a weight other than zero, and without replacement none of them twice.
(What is missing: that a nominal value and its samples come from the same element, refuted below.) -/
theorem C111_choice_partial {pick : Option (List K) → Nat → Nat → Bool → σ → R (List Nat × σ)} (hpick : Picks pick) (garbage : α)
    (rng : Int → σ) (a : UArg α) (u : UA α) (ha : norm a = .ok u) (hu : u.Valid) (p : Option (UArg K)) (w : Option (UA K))
    (hp : normOpt p = .ok w) (hw : ∀ q, w = some q → q.Valid) (axis : Option (List String)) (replace : Bool)
    (shapeRandom : Shape) (hr : Dict.WF shapeRandom) (seed : Int)
    (sa : Shape) (sp : List Shape) (hsa : u.shape = .ok sa) (hsp : weightsShape w = .ok sp) (Ap : Shape)
    (hAp : broadcastShapes (sa :: sp) = .ok Ap) (Nd : Shape)
    (hNd : broadcastShapes (u.samplesAxis :: (w.map samplesAxis).toList) = .ok Nd)
    (along : List String) (halong : along = axis.getD (keys Ap)) (hD : axisD ∉ along) (hrD : axisD ∉ keys shapeRandom)
    (hdis : ∀ ax ∈ keys shapeRandom, ax ∈ keys Ap → ax ∈ along)
    (hn : Drawable Ap along (values shapeRandom).prod replace (w.map UA.nominal))
    (hd : Drawable (Ap ++ Nd) along (values shapeRandom).prod replace (w.map UA.distribution)) :
    ∃ r, UA.choice pick garbage rng a p axis replace shapeRandom seed = .ok r ∧ r.Valid ∧
      (∀ ax, get? r.nominal.shape ax = if ax ∈ along ∨ ax ∉ keys Ap then get? shapeRandom ax else get? Ap ax) ∧
      (∀ ax, get? r.distribution.shape ax = if ax = axisD then get? Nd axisD else get? r.nominal.shape ax) ∧
      Chosen Ap along replace u.nominal (w.map UA.nominal) r.nominal ∧
      Chosen (Ap ++ Nd) along replace u.distribution (w.map UA.distribution) r.distribution := by
  -- the shapes
  have shapeOf : ∀ {γ : Type} {x : UA γ} {s : Shape}, x.Valid → x.shape = .ok s → Dict.WF s ∧ axisD ∉ keys s := by
    intro γ x s hx hs
    rcases shape_cases hx with ⟨_, _, h⟩ | ⟨_, t, s', sd', h1, h2, h3, h4, h5⟩
    · rw [h] at hs; cases hs
    have : s' = s := by rw [h5.shape] at hs; cases hs; rfl
    subst this
    exact ⟨h5.wf, h5.noD⟩
  have hspw : ∀ t ∈ sp, Dict.WF t ∧ axisD ∉ keys t := by
    cases w with
    | none => simp only [weightsShape, Except.ok.injEq] at hsp; subst hsp; simp
    | some q =>
      simp only [weightsShape, bind, Except.bind] at hsp
      cases hq : q.shape with
      | error e => rw [hq] at hsp; cases hsp
      | ok t =>
        rw [hq] at hsp
        simp only [Except.ok.injEq] at hsp
        subst hsp
        intro t' ht'
        rw [List.mem_singleton] at ht'
        subst ht'
        exact shapeOf (hw q rfl) hq
  have hws : ∀ t ∈ sa :: sp, Dict.WF t := by
    intro t ht
    rcases List.mem_cons.1 ht with rfl | ht
    · exact (shapeOf hu hsa).1
    · exact (hspw t ht).1
  have hApw : Dict.WF Ap := (broadcastShapes_joinOf hws hAp).1
  have hApD : axisD ∉ keys Ap := by
    intro h
    obtain ⟨t, ht, h1⟩ := ((C01_broadcast_shapes_ok _ hws Ap hAp).2.1 axisD).1 h
    rcases List.mem_cons.1 ht with rfl | ht
    · exact (shapeOf hu hsa).2 h1
    · exact (hspw t ht).2 h1
  have hsw : ∀ {γ : Type} {x : UA γ}, x.Valid → Dict.WF x.samplesAxis := fun hx => wf_filter (SA.wf_shape hx.2.1) _
  have hwn : ∀ t ∈ u.samplesAxis :: (w.map samplesAxis).toList, Dict.WF t := by
    intro t ht
    rcases List.mem_cons.1 ht with rfl | ht
    · exact hsw hu
    · cases w with
      | none => simp at ht
      | some q =>
        simp only [Option.map_some, Option.toList_some, List.mem_singleton] at ht
        subst ht
        exact hsw (hw q rfl)
  obtain ⟨n1, n2, n3⟩ := C01_broadcast_shapes_ok _ hwn Nd hNd
  have hNk : ∀ ax ∈ keys Nd, ax = axisD := by
    intro ax hax
    obtain ⟨t, ht, h1⟩ := (n2 ax).1 hax
    have key : ∀ {γ : Type} (x : UA γ), ax ∈ keys x.samplesAxis → ax = axisD := by
      intro γ x hx
      by_contra hne
      obtain ⟨m, hm⟩ := exists_get?_of_mem hx
      rw [get?_samplesAxis, if_neg hne] at hm
      cases hm
    rcases List.mem_cons.1 ht with rfl | ht
    · exact key _ h1
    · cases w with
      | none => simp at ht
      | some q =>
        simp only [Option.map_some, Option.toList_some, List.mem_singleton] at ht
        subst ht
        exact key _ h1
  have hTg := get?_with hApD hNk
  have hTw : Dict.WF (Ap ++ Nd) := by
    show (keys (Ap ++ Nd)).Nodup
    unfold keys
    rw [List.map_append]
    refine List.nodup_append.2 ⟨hApw, n1, ?_⟩
    intro x hx y hy he
    subst he
    exact hApD ((hNk x hy) ▸ hx)
  -- broadcasting
  obtain ⟨u', u1, u2, u3, u4, u5, u6⟩ := broadcastTo_sides hu hsa hApw hApD
    (SA.fitsIn_of_broadcastShapes hws hAp (List.mem_cons_self ..))
  obtain ⟨w', w1, w2, w3⟩ : ∃ w', broadcastWeights Ap w = .ok w' ∧ (w = none → w' = none) ∧
      ∀ q, w = some q → ∃ q', w' = some q' ∧ q'.Valid ∧ q'.nominal.shape = Ap ∧
        (∀ ax, get? q'.distribution.shape ax = if ax = axisD then get? q.distribution.shape axisD else get? Ap ax) ∧
        (∀ e, q'.nominal.atB e = q.nominal.atB e) ∧ ∀ e, q'.distribution.atB e = q.distribution.atB e := by
    cases w with
    | none => exact ⟨none, rfl, fun _ => rfl, fun q h => by cases h⟩
    | some q =>
      simp only [weightsShape, bind, Except.bind] at hsp
      cases hq : q.shape with
      | error e => rw [hq] at hsp; cases hsp
      | ok t =>
        rw [hq] at hsp
        simp only [Except.ok.injEq] at hsp
        subst hsp
        obtain ⟨q', q1, q2⟩ := broadcastTo_sides (hw q rfl) hq hApw hApD
          (SA.fitsIn_of_broadcastShapes hws hAp (by simp))
        refine ⟨some q', ?_, fun h => (by cases h), fun x hx => ?_⟩
        · simp only [broadcastWeights, q1, bind, Except.bind]
        · obtain rfl := Option.some.inj hx
          exact ⟨q', rfl, q2⟩
  -- the two calls
  have call : ∀ (s : σ) (x : SA α) (x0 : SA α) (y : Option (SA K)) (y0 : Option (SA K)) (T : Shape), x.WF →
      (∀ q, y = some q → q.WF) → Dict.WF T →
      (∀ ax, ax ≠ axisD → get? x.shape ax = get? T ax ∧ ∀ q, y = some q → get? q.shape ax = get? T ax) →
      (∃ B, broadcastShapes ([(x.shape.filter (fun q => q.1 = axisD))] ++
        (y.map (fun q => q.shape.filter (fun q => q.1 = axisD))).toList) = .ok B ∧ get? B axisD = get? T axisD) →
      (∀ e, x.atB e = x0.atB e) → (y0 = none → y = none) → (∀ q, y0 = some q → ∃ q', y = some q' ∧ ∀ e, q'.atB e = q.atB e) →
      (∀ ax ∈ keys shapeRandom, ax ∈ keys T → ax ∈ along) →
      Drawable T along (values shapeRandom).prod replace y0 →
      ∃ r, SA.choice pick garbage s x y (some along) replace shapeRandom = .ok r ∧ r.WF ∧
        (∀ ax, get? r.shape ax = if ax ∈ along ∨ ax ∉ keys T then get? shapeRandom ax else get? T ax) ∧
        Chosen T along replace x0 y0 r := by
    intro s x x0 y y0 T hx hy hT hg ⟨B, hB, hBD⟩ hxv hyn hys hdT hdr
    have hwx : ∀ t ∈ x.shape :: (y.map SA.shape).toList, Dict.WF t := by
      intro t ht
      rcases List.mem_cons.1 ht with rfl | ht
      · exact SA.wf_shape hx
      · cases y with
        | none => simp at ht
        | some q =>
          simp only [Option.map_some, Option.toList_some, List.mem_singleton] at ht
          subst ht
          exact SA.wf_shape (hy q rfl)
    have hwB : ∀ t ∈ [(x.shape.filter (fun q => q.1 = axisD))] ++
        (y.map (fun q => q.shape.filter (fun q => q.1 = axisD))).toList, Dict.WF t := by
      intro t ht
      rcases List.mem_append.1 ht with ht | ht
      · rw [List.mem_singleton] at ht; subst ht; exact wf_filter (SA.wf_shape hx) _
      · cases y with
        | none => simp at ht
        | some q =>
          simp only [Option.map_some, Option.toList_some, List.mem_singleton] at ht
          subst ht
          exact wf_filter (SA.wf_shape (hy q rfl)) _
    have hsz : ∀ ax n, HasSize (x.shape :: (y.map SA.shape).toList) ax n →
        (ax ≠ axisD → get? T ax = some n) ∧ (ax = axisD → HasSize ([(x.shape.filter (fun q => q.1 = axisD))] ++
          (y.map (fun q => q.shape.filter (fun q => q.1 = axisD))).toList) ax n) := by
      rintro ax n ⟨t, ht, h⟩
      rcases List.mem_cons.1 ht with rfl | ht
      · refine ⟨fun hne => by rw [← (hg ax hne).1]; exact h, fun he => ⟨x.shape.filter (fun q => q.1 = axisD), List.mem_append_left _ (by simp), ?_⟩⟩
        rw [SA.get?_filter x.shape (fun k => k = axisD), if_pos he]
        exact h
      · cases y with
        | none => simp at ht
        | some q =>
          simp only [Option.map_some, Option.toList_some, List.mem_singleton] at ht
          subst ht
          refine ⟨fun hne => by rw [← (hg ax hne).2 q rfl]; exact h, fun he => ⟨q.shape.filter (fun q => q.1 = axisD), List.mem_append_right _ (by simp), ?_⟩⟩
          rw [SA.get?_filter q.shape (fun k => k = axisD), if_pos he]
          exact h
    obtain ⟨A, hA⟩ : ∃ A, broadcastShapes (x.shape :: (y.map SA.shape).toList) = .ok A := by
      cases h : broadcastShapes (x.shape :: (y.map SA.shape).toList) with
      | ok A => exact ⟨A, rfl⟩
      | error e =>
        obtain ⟨ax, m, n, h1, h2, h3⟩ := (C01_broadcast_shapes_error_iff _ hwx).1 ⟨e, h⟩
        by_cases he : ax = axisD
        · obtain ⟨e', he'⟩ := (C01_broadcast_shapes_error_iff _ hwB).2 ⟨ax, m, n, (hsz _ _ h1).2 he, (hsz _ _ h2).2 he, h3⟩
          rw [hB] at he'; cases he'
        · have g1 := (hsz _ _ h1).1 he
          have g2 := (hsz _ _ h2).1 he
          rw [g1] at g2
          exact absurd (Option.some.inj g2) h3.1
    obtain ⟨a1, a2, a3⟩ := C01_broadcast_shapes_ok _ hwx A hA
    obtain ⟨b1, b2, b3⟩ := C01_broadcast_shapes_ok _ hwB B hB
    have hAg : ∀ ax, get? A ax = get? T ax := by
      intro ax
      by_cases he : ax = axisD
      · subst he
        rw [← hBD]
        cases h1 : get? A axisD with
        | none =>
          symm
          rw [get?_eq_none] at h1 ⊢
          intro h2
          obtain ⟨t, ht, h3⟩ := (b2 axisD).1 h2
          apply h1
          rw [a2]
          rcases List.mem_append.1 ht with ht | ht
          · rw [List.mem_singleton] at ht
            subst ht
            obtain ⟨m, hm⟩ := exists_get?_of_mem h3
            rw [SA.get?_filter x.shape (fun k => k = axisD), if_pos rfl] at hm
            exact ⟨_, List.mem_cons_self .., mem_keys_of_get? hm⟩
          · cases y with
            | none => simp at ht
            | some q =>
              simp only [Option.map_some, Option.toList_some, List.mem_singleton] at ht
              subst ht
              obtain ⟨m, hm⟩ := exists_get?_of_mem h3
              rw [SA.get?_filter q.shape (fun k => k = axisD), if_pos rfl] at hm
              exact ⟨q.shape, by simp, mem_keys_of_get? hm⟩
        | some n =>
          obtain ⟨h2, h3⟩ := a3 axisD n h1
          have h4 := (hsz _ _ h2).2 rfl
          obtain ⟨t, ht, h5⟩ := h4
          obtain ⟨m, hm⟩ := exists_get?_of_mem ((b2 axisD).2 ⟨t, ht, mem_keys_of_get? h5⟩)
          obtain ⟨⟨t', ht', h6⟩, h7⟩ := b3 axisD m hm
          have h8 : HasSize (x.shape :: (y.map SA.shape).toList) axisD m := by
            rcases List.mem_append.1 ht' with ht' | ht'
            · rw [List.mem_singleton] at ht'
              subst ht'
              rw [SA.get?_filter x.shape (fun k => k = axisD), if_pos rfl] at h6
              exact ⟨_, List.mem_cons_self .., h6⟩
            · cases y with
              | none => simp at ht'
              | some q =>
                simp only [Option.map_some, Option.toList_some, List.mem_singleton] at ht'
                subst ht'
                rw [SA.get?_filter q.shape (fun k => k = axisD), if_pos rfl] at h6
                exact ⟨q.shape, by simp, h6⟩
          rw [hm]
          have h9 := h3 m h8
          have h10 := h7 n ⟨t, ht, h5⟩
          congr 1
          omega
      · have hx' := (hg ax he).1
        cases h1 : get? A ax with
        | none =>
          rw [← hx']
          symm
          rw [get?_eq_none] at h1 ⊢
          exact fun h2 => h1 ((a2 ax).2 ⟨_, List.mem_cons_self .., h2⟩)
        | some n => rw [(hsz ax n (a3 ax n h1).1).1 he]
    have hyv : ∀ q', y = some q' → ∃ q, y0 = some q ∧ ∀ e, q'.atB e = q.atB e := by
      intro q' hq'
      cases y0 with
      | none => rw [hyn rfl] at hq'; cases hq'
      | some q =>
        obtain ⟨q'', h1, h2⟩ := hys q rfl
        rw [hq'] at h1
        obtain rfl := Option.some.inj h1
        exact ⟨q, rfl, h2⟩
    obtain ⟨r, r1, r2, r3, src, r4, r5⟩ := SA.choice_chosen hpick garbage s x hx y hy along replace shapeRandom hr T A hT hA hAg
      hdT ⟨hdr.size, fun q hq f hf => by
          obtain ⟨q0, h1, h2⟩ := hyv q hq
          rw [h2]; exact hdr.neg q0 h1 f hf,
        hdr.rep.imp id (fun h => ⟨h.1, fun q hq f hf => by
          obtain ⟨q0, h1, h2⟩ := hyv q hq
          rw [h2]; exact h.2 q0 h1 f hf⟩),
        fun q hq e he => by
          obtain ⟨q0, h1, h2⟩ := hyv q hq
          obtain ⟨f, f1, f2, f3⟩ := hdr.pos q0 h1 e he
          exact ⟨f, f1, f2, by rw [h2]; exact f3⟩⟩
    refine ⟨r, r1, r2, r3, src, fun f hf => ?_, r5⟩
    obtain ⟨g1, g2, g3, g4⟩ := r4 f hf
    refine ⟨g1, g2, by rw [g3, hxv], fun q hq => ?_⟩
    obtain ⟨q', h1, h2⟩ := hys q hq
    rw [← h2]
    exact g4 q' h1
  have noD : ∀ {T : Shape}, axisD ∉ keys T → T.filter (fun q => q.1 = axisD) = [] := by
    intro T hT
    rw [List.filter_eq_nil_iff]
    intro q hq
    rw [decide_eq_true_iff]
    intro he
    exact hT (he ▸ List.mem_map.2 ⟨q, hq, rfl⟩)
  obtain ⟨n, c1, c2, c3, c4⟩ := call (rng seed) u'.nominal u.nominal (w'.map UA.nominal) (w.map UA.nominal) Ap u2.1
    (by
      intro q hq
      cases w with
      | none => rw [w2 rfl] at hq; cases hq
      | some q0 =>
        obtain ⟨q', h1, h2, _⟩ := w3 q0 rfl
        rw [h1] at hq
        obtain rfl := Option.some.inj hq
        exact h2.1) hApw
    (by
      intro ax _
      refine ⟨by rw [u3], fun q hq => ?_⟩
      cases w with
      | none => rw [w2 rfl] at hq; cases hq
      | some q0 =>
        obtain ⟨q', h1, h2, h3, _⟩ := w3 q0 rfl
        rw [h1] at hq
        obtain rfl := Option.some.inj hq
        rw [h3])
    (by
      refine ⟨[], ?_, (get?_eq_none.2 hApD).symm⟩
      rw [u3, noD hApD]
      cases w with
      | none => rw [w2 rfl]; rfl
      | some q0 =>
        obtain ⟨q', h1, h2, h3, _⟩ := w3 q0 rfl
        rw [h1]
        simp only [Option.map_some, Option.toList_some, h3, noD hApD]
        rfl)
    u5 (by intro h; cases w with | none => rw [w2 rfl]; rfl | some q => cases h)
    (by
      intro q hq
      cases w with
      | none => cases hq
      | some q0 =>
        obtain rfl := Option.some.inj hq
        obtain ⟨q', h1, _, _, _, h4, _⟩ := w3 q0 rfl
        exact ⟨q'.nominal, by rw [h1]; rfl, h4⟩) hdis hn
  obtain ⟨d, d1, d2, d3, d4⟩ := call (rng (seed + 1)) u'.distribution u.distribution (w'.map UA.distribution)
    (w.map UA.distribution) (Ap ++ Nd) u2.2.1
    (by
      intro q hq
      cases w with
      | none => rw [w2 rfl] at hq; cases hq
      | some q0 =>
        obtain ⟨q', h1, h2, _⟩ := w3 q0 rfl
        rw [h1] at hq
        obtain rfl := Option.some.inj hq
        exact h2.2.1) hTw
    (by
      intro ax hne
      refine ⟨by rw [u4, hTg, if_neg hne, if_neg hne], fun q hq => ?_⟩
      cases w with
      | none => rw [w2 rfl] at hq; cases hq
      | some q0 =>
        obtain ⟨q', h1, h2, h3, h4, _⟩ := w3 q0 rfl
        rw [h1] at hq
        obtain rfl := Option.some.inj hq
        rw [h4, hTg, if_neg hne, if_neg hne])
    (by
      have same : ∀ {γ : Type} {x y : UA γ}, x.Valid → y.Valid →
          (∀ ax, get? y.distribution.shape ax = if ax = axisD then get? x.distribution.shape axisD else get? Ap ax) →
          y.distribution.shape.filter (fun q => q.1 = axisD) = x.samplesAxis := by
        intro γ x y hx hy h
        have e1 : (y.distribution.shape.filter (fun q => q.1 = axisD)).Perm x.samplesAxis := by
          refine perm_of_get? (wf_filter (SA.wf_shape hy.2.1) _) (hsw hx) (fun k => ?_)
          rw [SA.get?_filter y.distribution.shape (fun k => k = axisD), get?_samplesAxis]
          split
          · next hk => rw [h, if_pos hk, hk]
          · rfl
        have e2 : x.samplesAxis.length ≤ 1 := by
          have hnd := hsw hx
          have hk : ∀ q ∈ x.samplesAxis, q.1 = axisD := fun q hq => by
            have := (List.mem_filter.1 hq).2
            simpa using this
          rcases hl : x.samplesAxis with _ | ⟨q1, _ | ⟨q2, l⟩⟩
          · simp
          · simp
          · rw [hl] at hnd hk
            have h1 := hk q1 (by simp)
            have h2 := hk q2 (by simp)
            simp [Dict.WF, keys, h1, h2] at hnd
        rcases hl : x.samplesAxis with _ | ⟨q1, _ | ⟨q2, l⟩⟩
        · rw [hl] at e1; exact List.perm_nil.1 e1
        · rw [hl] at e1; exact List.perm_singleton.1 e1
        · rw [hl] at e2; simp at e2
      refine ⟨Nd, ?_, by rw [hTg, if_pos rfl]⟩
      rw [same hu u2 u4, ← hNd]
      congr 1
      cases w with
      | none => rw [w2 rfl]; rfl
      | some q0 =>
        obtain ⟨q', h1, h2, h3, h4, _⟩ := w3 q0 rfl
        rw [h1]
        simp only [Option.map_some, Option.toList_some, same (hw q0 rfl) h2 h4, List.cons_append, List.nil_append])
    u6 (by intro h; cases w with | none => rw [w2 rfl]; rfl | some q => cases h)
    (by
      intro q hq
      cases w with
      | none => cases hq
      | some q0 =>
        obtain rfl := Option.some.inj hq
        obtain ⟨q', h1, _, _, _, _, h4⟩ := w3 q0 rfl
        exact ⟨q'.distribution, by rw [h1]; rfl, h4⟩)
    (by
      intro ax h1 h2
      refine hdis ax h1 ?_
      obtain ⟨m, hm⟩ := exists_get?_of_mem h2
      rw [hTg, if_neg (fun h : ax = axisD => hrD (h ▸ h1))] at hm
      exact mem_keys_of_get? hm) hd
  have hnD : axisD ∉ n.axes := by
    rw [← SA.keys_shape c2, ← get?_eq_none, c3, if_pos (Or.inr hApD)]
    exact get?_eq_none.2 hrD
  refine ⟨⟨n, d⟩, ?_, ⟨c2, d2, hnD⟩, c3, fun ax => ?_, c4, d4⟩
  · unfold UA.choice
    simp only [ha, hp, hsa, hsp, hAp, u1, w1, bind, Except.bind, ← halong, c1, d1]
    exact mk?_of_valid c2 hnD
  · show get? d.shape ax = if ax = axisD then get? Nd axisD else get? n.shape ax
    rw [d3, c3]
    have hk : ax ≠ axisD → (ax ∈ keys (Ap ++ Nd) ↔ ax ∈ keys Ap) := by
      intro hne
      rw [← not_iff_not, ← get?_eq_none, ← get?_eq_none, hTg, if_neg hne]
    by_cases he : ax = axisD
    · subst he
      rw [if_pos rfl]
      split
      · next h =>
        rcases h with h | h
        · exact absurd h hD
        · rw [← get?_eq_none, hTg, if_pos rfl] at h
          rw [h]
          exact get?_eq_none.2 hrD
      · rw [hTg, if_pos rfl]
    · rw [if_neg he, hTg, if_neg he]
      simp only [hk he]

end UA

namespace Comp

theorem lift_map (f : γ → δ) : ∀ c : Comp γ, c.Lift (fun a b => b = f a) (c.map f) := by
  refine ind ?_ ?_
  · intro a; simp [map, Lift]
  · intro cls cs ih
    simp only [map, Lift, liftL_iff, true_and]
    rw [mapL_eq]
    clear * - ih
    induction cs with
    | nil => exact .nil
    | cons p cs ihl => exact .cons ⟨rfl, ih p (by simp)⟩ (ihl (fun q hq => ih q (by simp [hq])))

theorem leafAt_map (f : γ → δ) (p : List String) : ∀ c : Comp γ, (c.map f).leafAt p = (c.leafAt p).map f := by
  induction p with
  | nil => intro c; cases c <;> simp [map, leafAt]
  | cons k p ih =>
    intro c
    cases c with
    | leaf a => simp [map, leafAt]
    | node cls cs =>
      simp only [map, leafAt, get?_mapL]
      cases get? cs k with
      | none => rfl
      | some c => exact ih c

theorem leafB_map (f : γ → δ) (p : List String) : ∀ c : Comp γ, (c.map f).leafB p = (c.leafB p).map f := by
  induction p with
  | nil => intro c; cases c <;> simp [map, leafB]
  | cons k p ih =>
    intro c
    cases c with
    | leaf a => simp [map, leafB]
    | node cls cs =>
      simp only [map, leafB, get?_mapL]
      cases get? cs k with
      | none => rfl
      | some c => exact ih c

theorem offset_map (f : γ → δ) (p : List String) : ∀ c : Comp γ, (c.map f).offset p = c.offset p := by
  induction p with
  | nil => intro c; cases c <;> simp [map, offset]
  | cons k p ih =>
    intro c
    cases c with
    | leaf a => simp [map, offset]
    | node cls cs =>
      simp only [map]
      rw [offset, offset, keys_mapL, get?_mapL]
      cases get? cs k with
      | none => rfl
      | some c => simp only [Option.map_some, ih c]

/-- **C111** (vectors). If the choices from every component succeed, then `na.random.choice` returns a vector of the same classes
whose components are the choices from the components of `a`, with the weights of the same component (or the same weights if
they are not a vector), and with a seed which exceeds the given one by the sum of the positions along the path.
(What is missing: that the components of an element come from the same element, refuted below.) -/
theorem C111_vector_partial (pick : Option (List K) → Nat → Nat → Bool → σ → R (List Nat × σ)) (garbage : α) (rng : Int → σ)
    (a : Comp (SA α)) (hD : a.Dicts) (p : Option (Comp (SA K))) (hp : ∀ q, p = some q → a.Along q)
    (axis : Option (List String)) (replace : Bool) (shapeRandom : Shape) (seed : Int)
    (hok : ∀ path x y, a.leafAt path = some x → (p = none ∧ y = none ∨ ∃ q, p = some q ∧ q.leafB path = y) →
      ∃ r, SA.choice pick garbage (rng (seed + a.offset path)) x y axis replace shapeRandom = .ok r) :
    ∃ r, choice pick garbage rng a p axis replace shapeRandom seed = .ok r ∧ a.Similar r ∧
      ∀ path x, a.leafAt path = some x → ∃ y z, (p = none ∧ y = none ∨ ∃ q, p = some q ∧ q.leafB path = y) ∧
        r.leafAt path = some z ∧
        SA.choice pick garbage (rng (seed + a.offset path)) x y axis replace shapeRandom = .ok z := by
  have hsim : ∀ {δ : Type} (f : SA α → δ), a.Similar (a.map f) := fun f => similar_lift (similar_refl a) (lift_map f a)
  have hbase : ∀ path x, a.leafAt path = some x → (a.map (Sum.inl : SA α → SA α ⊕ SA K)).leafAt path = some (.inl x) := by
    intro path x h
    rw [leafAt_map, h]; rfl
  have hback : ∀ path, ((a.map (Sum.inl : SA α → SA α ⊕ SA K)).leafAt path).isSome → ∃ x, a.leafAt path = some x := by
    intro path h
    rw [leafAt_map, Option.isSome_map] at h
    exact Option.isSome_iff_exists.1 h
  have hleafB : ∀ path x, a.leafAt path = some x → (a.map (Sum.inl : SA α → SA α ⊕ SA K)).leafB path = some (.inl x) := by
    intro path x h
    rw [leafB_map, leafB_of_leafAt h]; rfl
  have along_map : ∀ {q : Comp (SA K)}, a.Along q → ∀ {δ : Type} (f : SA α → δ), (a.map f).Along (q.map (Sum.inr : SA K → SA α ⊕ SA K)) := by
    intro q hq δ f
    have h1 := along_lift a q _ hq (lift_map (Sum.inr : SA K → SA α ⊕ SA K) q)
    clear hq hbase hback hleafB hok hsim hD hp p
    generalize q.map (Sum.inr : SA K → SA α ⊕ SA K) = w at h1
    clear q
    revert w
    refine ind (P := fun a : Comp (SA α) => ∀ w, a.Along w → (a.map f).Along w) ?_ ?_ a
    · rintro x (b | _) h <;> simp_all [Along, map]
    · rintro cls cs ih (b | ⟨cls', cs'⟩) h
      · exact along_leaf _ _
      · simp only [Along, map, alongL_iff, mapL_eq] at *
        refine ⟨h.1, ?_⟩
        have h2 := h.2
        clear h
        induction h2 with
        | nil => exact .nil
        | cons g1 _ ihl => exact .cons ⟨g1.1, ih _ (by simp) _ g1.2⟩ (ihl (fun q hq => ih q (by simp [hq])))
  -- what the scalars at one path are
  have hqs : ∀ path x, a.leafAt path = some x → ∀ qs : List (SA α ⊕ SA K),
      List.Forall₂ (fun (v : Comp (SA α ⊕ SA K)) q => v.leafB path = some q)
        (a.map Sum.inl :: (p.map (map Sum.inr)).toList) qs →
      (p = none ∧ qs = [.inl x]) ∨ ∃ q y, p = some q ∧ q.leafB path = some y ∧ qs = [.inl x, .inr y] := by
    intro path x hx qs h
    cases p with
    | none =>
      cases h with
      | cons h1 h2 =>
        cases h2
        rw [hleafB path x hx] at h1
        exact .inl ⟨rfl, by rw [← Option.some.inj h1]⟩
    | some q =>
      cases h with
      | cons h1 h2 =>
        cases h2 with
        | cons h3 h4 =>
          cases h4
          rw [hleafB path x hx] at h1
          rw [leafB_map] at h3
          cases hy : q.leafB path with
          | none => rw [hy] at h3; cases h3
          | some y =>
            rw [hy] at h3
            exact .inr ⟨q, y, rfl, hy, by rw [← Option.some.inj h1, ← Option.some.inj h3]⟩
  have hrun : ∀ path x, a.leafAt path = some x → ∀ qs : List (SA α ⊕ SA K),
      List.Forall₂ (fun (v : Comp (SA α ⊕ SA K)) q => v.leafB path = some q)
        (a.map Sum.inl :: (p.map (map Sum.inr)).toList) qs →
      ∃ y, (p = none ∧ y = none ∨ ∃ q, p = some q ∧ q.leafB path = y) ∧
        choiceOf pick garbage rng axis replace shapeRandom (some (seed + a.offset path)) qs =
          SA.choice pick garbage (rng (seed + a.offset path)) x y axis replace shapeRandom := by
    intro path x hx qs h
    rcases hqs path x hx qs h with ⟨h1, rfl⟩ | ⟨q, y, h1, h2, rfl⟩
    · exact ⟨none, .inl ⟨h1, rfl⟩, rfl⟩
    · exact ⟨some y, .inr ⟨q, h1, h2⟩, rfl⟩
  obtain ⟨r, r1, r2, r3⟩ := C92_vector (choiceOf pick garbage rng axis replace shapeRandom)
    (a.map Sum.inl :: (p.map (map Sum.inr)).toList) (a.map Sum.inl) (List.mem_cons_self ..)
    (lift_dicts _ _ (lift_map _ a) hD)
    (by
      intro v hv
      rcases List.mem_cons.1 hv with rfl | hv
      · exact along_of_similar _ _ (similar_refl _)
      · cases p with
        | none => simp at hv
        | some q =>
          simp only [Option.map_some, Option.toList_some, List.mem_singleton] at hv
          subst hv
          exact along_map (hp q rfl) _) (some seed)
    (by
      intro path qs hsome h
      obtain ⟨x, hx⟩ := hback path hsome
      obtain ⟨y, y1, y2⟩ := hrun path x hx qs h
      simp only [Option.map_some, offset_map]
      rw [y2]
      exact hok path x y hx y1)
  refine ⟨r, r1, ?_, fun path x hx => ?_⟩
  · exact lift_mono (fun _ _ _ => trivial) _ _ (lift_trans _ _ _ (hsim (Sum.inl : SA α → SA α ⊕ SA K)) r2)
  · obtain ⟨z, qs, z1, z2, z3⟩ := r3 path (by rw [hbase path x hx]; rfl)
    obtain ⟨y, y1, y2⟩ := hrun path x hx qs z2
    simp only [Option.map_some, offset_map] at z3
    rw [y2] at z3
    exact ⟨y, z, y1, z1, z3⟩

end Comp
end choice

/-- A generator for examples, whose state counts the calls: without replacement the allowed positions from the one with the
number of the state on, with replacement always this one. -/
def pickNext (w : Option (List ℚ)) (n count : Nat) (replace : Bool) (s : Nat) : R (List Nat × Nat) :=
  .ok (if replace then List.replicate count (((SA.allowed w n).rotate s).headD 0) else ((SA.allowed w n).rotate s).take count, s + 1)

/-- It satisfies the assumption about generators. -/
theorem picks_pickNext : Picks pickNext := by
  intro w n count replace s h1 h2 h3
  obtain ⟨ks, _, k1, k2, k3, k4⟩ := SA.picks_pickFirst w n count replace () h1 h2 h3
  simp only [SA.pickFirst, Except.ok.injEq, Prod.mk.injEq] at k1
  have hmem : ∀ k ∈ SA.allowed w n, k < n ∧ ∀ l, w = some l → l.getD k 0 ≠ 0 := by
    intro k hk
    obtain ⟨g1, g2⟩ := List.mem_filter.1 hk
    refine ⟨List.mem_range.1 g1, fun l hl => ?_⟩
    subst hl
    simpa using g2
  refine ⟨_, s + 1, rfl, ?_⟩
  cases replace with
  | true =>
    simp only [if_true] at k1 ⊢
    refine ⟨List.length_replicate, fun k hk => ?_, fun h => by cases h⟩
    obtain ⟨hc, rfl⟩ := List.mem_replicate.1 hk
    have hne : SA.allowed w n ≠ [] := by
      intro he
      rw [he] at k1
      have hcount : 0 < count := by omega
      have h0 := k3 0 (by rw [← k1.1]; exact List.mem_replicate.2 ⟨hc, rfl⟩)
      have : 0 ∈ SA.allowed w n := by
        refine List.mem_filter.2 ⟨List.mem_range.2 h0.1, ?_⟩
        cases w with
        | none => rfl
        | some l => simpa using h0.2 l rfl
      rw [he] at this
      cases this
    have hne' : (SA.allowed w n).rotate s ≠ [] := by
      intro he
      exact hne (List.rotate_eq_nil_iff.1 he)
    apply hmem
    rw [← List.mem_rotate (n := s)]
    cases hal : (SA.allowed w n).rotate s with
    | nil => exact absurd hal hne'
    | cons x l => simp
  | false =>
    simp only [Bool.false_eq_true, if_false] at k1 ⊢
    refine ⟨?_, fun k hk => hmem k (List.mem_rotate.1 (List.mem_of_mem_take hk)), fun _ => ?_⟩
    · rw [List.length_take, List.length_rotate, ← List.length_take, k1.1]
      exact k2
    · have : (SA.allowed w n).Nodup := List.Nodup.filter _ List.nodup_range
      exact (List.nodup_rotate.2 this).sublist (List.take_sublist _ _)

namespace UA

/-- An uncertain scalar along `x` with the elements `10 ± 1` (samples `9` and `11`) and `20 ± 1` (samples `19` and `21`). -/
def exChoices : UA ℚ := ⟨⟨["x"], ND.ofList [2] [10, 20] 0⟩, ⟨["x", axisD], ND.ofList [2, 2] [9, 11, 19, 21] 0⟩⟩

/-- The state of the generator for a seed. -/
def exRng (seed : Int) : Nat := seed.toNat

/-- **C111 is false of the code** for uncertain scalars: one choice from the elements `10` (samples `9`, `11`) and `20` (samples
`19`, `21`) is the nominal value `10` with the samples `19` and `11`, which belong to different elements.  The nominal value is
chosen with another seed than the samples, and every sample is chosen by itself. -/
theorem C111_uncertain_refuted : ∃ r, UA.choice pickNext 0 exRng (.unc exChoices) none none true [] 0 = .ok r ∧
    r.shape = .ok [] ∧ r.nominal.nd.toList = [10] ∧ r.distribution.nd.toList = [19, 11] ∧
    ¬ ∃ i, i < 2 ∧ r.nominal.at' (fun _ => 0) = exChoices.nominal.at' (fun _ => i) ∧
      ∀ k, k < 2 → r.distribution.at' (fun ax => if ax = axisD then k else 0) =
        exChoices.distribution.at' (fun ax => if ax = axisD then k else i) := by
  have h : (UA.choice pickNext 0 exRng (.unc exChoices) none none true [] 0).map
      (fun r => ((r.nominal.axes, r.nominal.nd.shape, r.nominal.nd.toList), r.distribution.axes, r.distribution.nd.shape,
        r.distribution.nd.toList)) = .ok (([], [], [10]), [axisD], [2], [19, 11]) := by decide +kernel
  cases hr : UA.choice pickNext 0 exRng (.unc exChoices) none none true [] 0 with
  | error e => rw [hr] at h; cases h
  | ok r =>
    rw [hr] at h
    simp only [Except.map, Except.ok.injEq, Prod.mk.injEq] at h
    obtain ⟨⟨h1, h2, h3⟩, h4, h5, h6⟩ := h
    have g0 : r.nominal.at' (fun _ => 0) = 10 := by
      have : r.nominal.nd.toList.getD 0 0 = r.nominal.at' (fun _ => 0) := by
        rw [ND.toList_eq_map]
        simp [SA.at', h1, h2, ND.unravel, ND.size]
      rw [← this, h3]; rfl
    refine ⟨r, rfl, ?_, h3, h6, ?_⟩
    · simp only [UA.shape, UA.shapeDistribution, SA.shape, h1, h2, h4, h5]
      rfl
    · rintro ⟨i, hi, hn, hs⟩
      have hi0 : i = 0 := by
        rw [g0] at hn
        have : i = 0 ∨ i = 1 := by omega
        rcases this with rfl | rfl
        · rfl
        · exact absurd hn (by decide +kernel)
      subst hi0
      have g1 := hs 0 (by omega)
      have : r.distribution.nd.toList.getD 0 0 = r.distribution.at' (fun ax => if ax = axisD then 0 else 0) := by
        rw [ND.toList_eq_map]
        simp [SA.at', h4, h5, ND.unravel, ND.size]
      rw [← this, h6] at g1
      exact absurd g1 (by decide +kernel)

/-- **C111 is false of the code** for the samples by themselves: in the example of `C111_uncertain_refuted` the two samples of
the chosen element belong to different elements of the array. -/
theorem C111_samples_refuted : ∃ r, UA.choice pickNext 0 exRng (.unc exChoices) none none true [] 0 = .ok r ∧
    r.distribution.nd.toList = [19, 11] ∧ [19, 11] ≠ [(9 : ℚ), 11] ∧ [19, 11] ≠ [(19 : ℚ), 21] := by
  obtain ⟨r, r1, _, _, r2, _⟩ := C111_uncertain_refuted
  exact ⟨r, r1, r2, by decide +kernel, by decide +kernel⟩

end UA

namespace Comp

/-- Points of the plane along `t`: `(10, 1)` and `(20, 2)`. -/
def exTwoPoints : Comp (SA ℚ) := .node "Cartesian2d"
  [("x", .leaf ⟨["t"], ND.ofList [2] [10, 20] 0⟩), ("y", .leaf ⟨["t"], ND.ofList [2] [1, 2] 0⟩)]

/-- **C111 is false of the code** for vectors: one choice from the points `(10, 1)` and `(20, 2)` is the point `(10, 2)`, since
the components are chosen with different seeds. -/
theorem C111_vector_refuted : ∃ r x y, choice pickNext (0 : ℚ) UA.exRng exTwoPoints none none true [] 0 = .ok r ∧
    r.leafAt ["x"] = some x ∧ r.leafAt ["y"] = some y ∧ x.shape = [] ∧ y.shape = [] ∧ x.nd.toList = [10] ∧ y.nd.toList = [2] := by
  obtain ⟨r, r1, _, r2⟩ := C111_vector_partial pickNext (0 : ℚ) UA.exRng exTwoPoints (by simp [exTwoPoints, Dicts, DictsL]; decide) none
    (by intro q h; cases h) none true [] 0 (by
      intro path x y hx hy
      rcases hy with ⟨_, rfl⟩ | ⟨q, h, _⟩
      · rcases path with _ | ⟨k, _ | ⟨k', l⟩⟩
        · simp [exTwoPoints, leafAt] at hx
        · simp only [exTwoPoints, leafAt, get?_cons, get?_nil] at hx
          by_cases h1 : "x" = k
          · subst h1
            simp [leafAt] at hx
            subst hx
            exact ⟨_, rfl⟩
          · by_cases h2 : "y" = k
            · subst h2
              simp [leafAt] at hx
              subst hx
              exact ⟨_, rfl⟩
            · simp [h1, h2] at hx
        · simp only [exTwoPoints, leafAt, get?_cons, get?_nil] at hx
          by_cases h1 : "x" = k <;> by_cases h2 : "y" = k <;> simp [h1, h2, leafAt] at hx
      · cases h)
  obtain ⟨y1, x, y2, x1, x2⟩ := r2 ["x"] ⟨["t"], ND.ofList [2] [10, 20] 0⟩ (by simp [exTwoPoints, leafAt, get?_cons])
  obtain ⟨y3, y, y4, y5, y6⟩ := r2 ["y"] ⟨["t"], ND.ofList [2] [1, 2] 0⟩ (by simp [exTwoPoints, leafAt, get?_cons])
  obtain rfl : y1 = none := by
    rcases y2 with ⟨_, h⟩ | ⟨q, h, _⟩
    · exact h
    · cases h
  obtain rfl : y3 = none := by
    rcases y4 with ⟨_, h⟩ | ⟨q, h, _⟩
    · exact h
    · cases h
  have o1 : exTwoPoints.offset ["x"] = 0 := by simp [exTwoPoints, offset, get?_cons, keys]
  have o2 : exTwoPoints.offset ["y"] = 1 := by simp [exTwoPoints, offset, get?_cons, keys]
  rw [o1] at x2
  rw [o2] at y6
  have e1 : (SA.choice pickNext 0 (UA.exRng (0 + (0 : Nat))) ⟨["t"], ND.ofList [2] [10, 20] 0⟩ none none true []).map
      (fun r : SA ℚ => (r.shape, r.nd.toList)) = .ok ([], [10]) := by decide +kernel
  have e2 : (SA.choice pickNext 0 (UA.exRng (0 + (1 : Nat))) ⟨["t"], ND.ofList [2] [1, 2] 0⟩ none none true []).map
      (fun r : SA ℚ => (r.shape, r.nd.toList)) = .ok ([], [2]) := by decide +kernel
  rw [x2] at e1
  rw [y6] at e2
  simp only [Except.map, Except.ok.injEq, Prod.mk.injEq] at e1 e2
  exact ⟨r, x, y, r1, x1, y5, e1.1, e2.1, e1.2, e2.2⟩

end Comp

namespace UA

/-- Weights along `x` without uncertainty. -/
def exChoiceWeights : SA ℚ := ⟨["x"], ND.ofList [2] [1/4, 3/4] 0⟩

theorem exChoiceWeights_pos (f : String → Nat) (hf : f "x" < 2) : 0 < exChoiceWeights.atB f := by
  have h : f "x" = 0 ∨ f "x" = 1 := by omega
  have e : exChoiceWeights.atB f = exChoiceWeights.nd.get [f "x"] := by
    simp [SA.atB, SA.at', exChoiceWeights, SA.shape, get?_cons, ND.ofList]
  rw [e]
  rcases h with h | h <;> rw [h] <;> simp [exChoiceWeights, ND.ofList, ND.ravel]

theorem exChoices_drawable (T : Shape) (hT : get? T "x" = some 2) (hp : population T ["x"] = 2) :
    Drawable T ["x"] 2 false (some exChoiceWeights) where
  size := .inr (by omega)
  neg := by
    intro q hq f hf
    obtain rfl := Option.some.inj hq
    exact (exChoiceWeights_pos f (hf "x" 2 hT)).le
  rep := .inr ⟨by omega, by
    intro q hq f hf
    obtain rfl := Option.some.inj hq
    exact (exChoiceWeights_pos f (hf "x" 2 hT)).ne'⟩
  pos := by
    intro q hq e he
    obtain rfl := Option.some.inj hq
    refine ⟨fun ax => if ax = "x" then 0 else e ax, fun ax n hn => ?_, fun ax _ hne => ?_,
      (exChoiceWeights_pos _ (by simp)).ne'⟩
    · by_cases h : ax = "x"
      · subst h
        rw [hT] at hn
        obtain rfl := Option.some.inj hn
        simp
      · simp only [h, if_false]
        refine he ax n ?_
        rw [SA.get?_filter T (fun k => k ∉ ["x"]), if_pos (by simpa using h)]
        exact hn
    · dsimp only
      rw [if_neg (by simpa using hne)]

/-- Two choices without replacement, along the new axis `n`. -/
example : ∃ r, UA.choice pickNext 0 exRng (.unc exChoices) (some (.plain exChoiceWeights)) none false [("n", 2)] 7 = .ok r ∧
    r.Valid ∧ (∀ ax, get? r.nominal.shape ax = if ax ∈ ["x"] ∨ ax ∉ ["x"] then get? [("n", 2)] ax else get? [("x", 2)] ax) ∧
    (∀ ax, get? r.distribution.shape ax = if ax = axisD then some 2 else get? r.nominal.shape ax) ∧
    Chosen [("x", 2)] ["x"] false exChoices.nominal (some exChoiceWeights) r.nominal ∧
    Chosen [("x", 2), (axisD, 2)] ["x"] false exChoices.distribution (some exChoiceWeights) r.distribution :=
  C111_choice_partial picks_pickNext 0 exRng (.unc exChoices) exChoices rfl ⟨by decide, by decide, by decide⟩
    (some (.plain exChoiceWeights)) (some ⟨exChoiceWeights, exChoiceWeights⟩) rfl
    (by
      intro q hq
      obtain rfl := Option.some.inj hq
      exact ⟨by decide, by decide, by decide⟩) none false [("n", 2)] (by decide) 7 [("x", 2)] [[("x", 2)]] rfl rfl
    [("x", 2)] rfl [(axisD, 2)] rfl ["x"] rfl (by decide) (by decide) (by decide)
    (exChoices_drawable _ rfl rfl) (exChoices_drawable _ rfl rfl)

end UA

namespace UA
variable {α K σ : Type} [Field K] [LinearOrder K] [IsStrictOrderedRing K]

/-- **C111** (errors). Elements and weights whose shapes contradict each other raise `ValueError`, as does a plain array with
the axis of the samples. -/
theorem C111_error (pick : Option (List K) → Nat → Nat → Bool → σ → R (List Nat × σ)) (garbage : α)
    (rng : Int → σ) (axis : Option (List String)) (replace : Bool) (shapeRandom : Shape) (seed : Int) :
    (∀ (u : UA α) (w : UA K) (sa sp : Shape), u.Valid → w.Valid → u.shape = .ok sa → w.shape = .ok sp → Clash [sa, sp] →
      UA.choice pick garbage rng (.unc u) (some (.unc w)) axis replace shapeRandom seed = .error .valueError) ∧
    (∀ (a : SA α) (p : Option (UArg K)), axisD ∈ keys a.shape →
      UA.choice pick garbage rng (.plain a) p axis replace shapeRandom seed = .error .valueError) := by
  constructor
  · intro u w sa sp hu hw hsa hsp hc
    have shapeOf : ∀ {γ : Type} {x : UA γ} {s : Shape}, x.Valid → x.shape = .ok s → Dict.WF s := by
      intro γ x s hx hs
      rcases shape_cases hx with ⟨_, _, h⟩ | ⟨_, t, s', sd', h1, h2, h3, h4, h5⟩
      · rw [h] at hs; cases hs
      have : s' = s := by rw [h5.shape] at hs; cases hs; rfl
      subst this
      exact h5.wf
    have hws : ∀ t ∈ [sa, sp], Dict.WF t := by
      intro t ht
      simp only [List.mem_cons, List.not_mem_nil, or_false] at ht
      rcases ht with rfl | rfl
      · exact shapeOf hu hsa
      · exact shapeOf hw hsp
    obtain ⟨e, he⟩ := (C01_broadcast_shapes_error_iff _ hws).2 hc
    have := C01_broadcast_shapes_error_kind _ hws e he
    subst this
    simp only [UA.choice, norm, normOpt, weightsShape, hsa, hsp, he, bind, Except.bind]
  · intro a p ha
    simp only [UA.choice, norm, mk?, if_pos ha, bind, Except.bind]

/-- Two elements, three weights. -/
example : UA.choice pickNext 0 exRng (.unc exChoices)
    (some (.unc ⟨⟨["x"], ND.ofList [3] [1, 2, 3] 0⟩, ⟨["x"], ND.ofList [3] [1, 2, 3] 0⟩⟩)) none true [] 0 = .error .valueError :=
  (C111_error pickNext 0 exRng none true [] 0).1 exChoices _ [("x", 2)] [("x", 3)] ⟨by decide, by decide, by decide⟩
    ⟨by decide, by decide, by decide⟩ rfl rfl ⟨"x", 2, 3, ⟨[("x", 2)], by simp, rfl⟩, ⟨[("x", 3)], by simp, rfl⟩, by decide, by decide, by decide⟩

end UA
end NA
