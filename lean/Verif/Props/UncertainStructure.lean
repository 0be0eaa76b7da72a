import Verif.Props.UncertainAxes
import Verif.Props.Selecting
import Verif.Props.Joining
import Verif.Props.VectorReduce
import Verif.Props.FunctionStructure
import Verif.Uncertain.Structure

/-!
# Joining, selecting and rearranging uncertain scalars (C83)
-/

namespace NA
open Dict
open SA (FitsIn InRange)

namespace UA
variable {α : Type}

/-! ### Specification -/

/-- The shape `s` together with the axis of the samples of an operand, if it has one. -/
def sampleShape (x : UArg α) (s : Shape) : Shape :=
  match get? x.distribution.shape axisD with
  | some k => s ++ [(axisD, k)]
  | none => s

theorem get?_sampleShape {x : UArg α} {s : Shape} (hs : axisD ∉ keys s) (ax : String) :
    get? (sampleShape x s) ax = if ax = axisD then get? x.distribution.shape axisD else get? s ax := by
  unfold sampleShape
  cases h : get? x.distribution.shape axisD with
  | none =>
    simp only
    split
    · next h' => rw [h']; exact get?_eq_none.2 hs
    · rfl
  | some k =>
    simp only
    rw [SA.get?_append]
    split
    · next h' => subst h'; rw [get?_eq_none.2 hs]; simp [get?_cons]
    · next h' =>
      cases get? s ax with
      | some m => rfl
      | none => simp [get?_cons, get?_nil, Ne.symm h']

theorem wf_sampleShape {x : UArg α} {s : Shape} (hw : WF s) (hs : axisD ∉ keys s) : WF (sampleShape x s) := by
  unfold sampleShape
  cases h : get? x.distribution.shape axisD with
  | none => exact hw
  | some k =>
    show (keys (s ++ [(axisD, k)])).Nodup
    simp only [keys, List.map_append, List.map_cons, List.map_nil]
    exact List.nodup_append.2 ⟨hw, by simp, by rintro a ha b hb rfl; simp only [List.mem_singleton] at hb; exact hs (hb ▸ ha)⟩

theorem norm_ok {x : UArg α} (hx : x.Ok) (hr : ¬ x.Reserved) :
    norm x = .ok ⟨x.nominal, x.distribution⟩ ∧ Valid (⟨x.nominal, x.distribution⟩ : UA α) := by
  cases x with
  | plain a => exact ⟨mk?_of_valid hx hr, hx, hx, hr⟩
  | unc u => exact ⟨rfl, hx⟩

theorem norm_error {x : UArg α} (hx : x.Ok) (hr : x.Reserved) : norm x = .error .valueError := by
  cases x with
  | plain a =>
    show mk? a a = _
    unfold mk?
    exact if_pos (by rw [SA.keys_shape hx]; exact hr)
  | unc u => exact hr.elim

theorem noD_nominal {x : UArg α} (hx : x.Ok) (hr : ¬ x.Reserved) : axisD ∉ x.nominal.axes :=
  fun h => hr ((UArg.reserved_iff hx).2 h)

/-- The shape of an operand, as that of the uncertain scalar made of it. -/
theorem shape_norm {x : UArg α} (hx : x.Ok) (hr : ¬ x.Reserved) {t : Shape} (ht : x.shape = .ok t) :
    (⟨x.nominal, x.distribution⟩ : UA α).shape = .ok t := by
  cases x with
  | unc u => exact ht
  | plain a =>
    cases ht
    have hD : axisD ∉ keys a.shape := by rw [SA.keys_shape hx]; exact hr
    have hb := (bs_absorb hD (SA.wf_shape hx) (fun ax m _ hm => ⟨m, hm, .inl rfl⟩)).1 hD
    unfold UA.shape UA.shapeDistribution
    show (do
      let shape ← broadcastShapes [a.shape, a.shape]
      .ok (shape.erase axisD) : R Shape) = .ok a.shape
    rw [hb]
    simp only [bind, Except.bind]
    congr 1
    unfold Dict.erase
    rw [List.filter_eq_self]
    intro p hp
    have : p.1 ∈ keys a.shape := List.mem_map_of_mem hp
    simp only [decide_eq_true_eq]
    rintro h
    exact hD (h ▸ this)

/-- Broadcasting an operand. -/
theorem norm_broadcasted {x : UArg α} (hx : x.Ok) (hr : ¬ x.Reserved) {t : Shape} (ht : x.shape = .ok t) :
    WF t ∧ axisD ∉ keys t ∧ FitsIn x.nominal.shape t ∧ FitsIn x.distribution.shape (sampleShape x t) ∧
    ∃ v, (⟨x.nominal, x.distribution⟩ : UA α).broadcasted = .ok v ∧ v.Valid ∧ v.nominal.shape = t ∧
      v.distribution.shape = sampleShape x t ∧ (∀ e, v.nominal.at' e = x.nominal.atB e) ∧
      ∀ e, v.distribution.at' e = x.distribution.atB e := by
  obtain ⟨h1, h2⟩ := norm_ok hx hr
  obtain ⟨sd, v, h, v1, v2, v3, v4, v5, v6, v7⟩ := broadcasted_main h2 (shape_norm hx hr ht)
  have hsd : sd = sampleShape x t := by
    refine NA.dict_ext h.wfd ?_ ?_
    · rw [h.last]
      show _ = keys (sampleShape x t)
      unfold sampleShape
      have hk := SA.keys_shape hx.distribution
      by_cases hm : axisD ∈ x.distribution.axes
      · obtain ⟨k, hk⟩ := exists_get?_of_mem (d := x.distribution.shape) (x := axisD) (by rw [hk]; exact hm)
        rw [if_pos hm, hk]
        simp [keys]
      · rw [if_neg hm, get?_eq_none.2 (by rw [hk]; exact hm)]
        simp
    · intro ax
      rw [h.get, get?_sampleShape h.noD]
  refine ⟨h.wf, h.noD, h.nom, by rw [← hsd]; exact h.dist, v, v1, v2, v3, by rw [v4, hsd], v6, v7⟩

theorem component_main {x : UArg α} (hx : x.Ok) (hr : ¬ x.Reserved) {t : Shape} (ht : x.shape = .ok t) :
    ∃ v, component x = .ok v ∧ v.Valid ∧ v.nominal.shape = t ∧
      v.distribution.shape = sampleShape x t ∧ (∀ e, v.nominal.atB e = x.nominal.atB e) ∧
      ∀ e, v.distribution.atB e = x.distribution.atB e := by
  cases x with
  | unc u =>
    obtain ⟨_, _, f1, f2, v, v1, v2, v3, v4, v5, v6⟩ := norm_broadcasted hx hr ht
    exact ⟨v, v1, v2, v3, v4, Comp.atB_of_broadcast hx.1 (by rw [v3]; exact f1) v5,
      Comp.atB_of_broadcast hx.2.1 (by rw [v4]; exact f2) v6⟩
  | plain a =>
    cases ht
    have hw := SA.wf_shape hx
    have hD : axisD ∉ keys a.shape := by rw [SA.keys_shape hx]; exact hr
    rcases SA.C10_broadcast_to a hx a.shape hw with ⟨f, r, r1, r2, r3, r4⟩ | ⟨hn, _⟩
    swap
    · exact absurd (fun ax m hm => ⟨m, hm, .inl rfl⟩) hn
    refine ⟨⟨r, r⟩, ?_, ⟨r2, r2, ?_⟩, r3, ?_, Comp.atB_of_broadcast hx (by rw [r3]; exact f) r4,
      Comp.atB_of_broadcast hx (by rw [r3]; exact f) r4⟩
    · show (do let b ← a.broadcastTo a.shape; .ok ⟨b, b⟩ : R (UA α)) = _
      rw [r1]; rfl
    · show axisD ∉ r.axes
      rw [← SA.keys_shape r2, r3]; exact hD
    · show r.shape = _
      unfold sampleShape
      rw [show get? (UArg.plain a).distribution.shape axisD = none from get?_eq_none.2 hD]
      exact r3

/-! ### where -/

/-- **C83** (`np.where`). The nominal value of the result chooses between the nominal values of `x` and `y` by the nominal
value of the condition, and each sample between their samples by the sample of the condition; plain operands take part in
both.  Contradicting sizes raise `ValueError`. -/
theorem C83_where (dflt : α) (c : UArg Bool) (x y : UArg α) (hc : c.Ok) (hx : x.Ok) (hy : y.Ok) (hcr : ¬ c.Reserved)
    (hxr : ¬ x.Reserved) (hyr : ¬ y.Reserved) :
    (∃ s sd r, broadcastShapes [c.nominal.shape, x.nominal.shape, y.nominal.shape] = .ok s ∧
      broadcastShapes [c.distribution.shape, x.distribution.shape, y.distribution.shape] = .ok sd ∧
      where' dflt c x y = .ok r ∧ r.Valid ∧ r.nominal.shape = s ∧ r.distribution.shape = sd ∧
      (∀ e, r.nominal.at' e = if c.nominal.atB e = true then x.nominal.atB e else y.nominal.atB e) ∧
      ∀ e, r.distribution.at' e =
        if c.distribution.atB e = true then x.distribution.atB e else y.distribution.atB e) ∨
    ((Clash [c.nominal.shape, x.nominal.shape, y.nominal.shape] ∨
      Clash [c.distribution.shape, x.distribution.shape, y.distribution.shape]) ∧
      where' dflt c x y = .error .valueError) := by
  unfold where'
  simp only [bind, Except.bind, (norm_ok hc hcr).1, (norm_ok hx hxr).1, (norm_ok hy hyr).1]
  rcases SA.C57_where dflt c.nominal x.nominal y.nominal hc.nominal hx.nominal hy.nominal with
    ⟨s, n, n1, n2, n3, n4, n5⟩ | ⟨n1, n2⟩
  swap
  · exact .inr ⟨.inl n1, by simp only [n2]⟩
  simp only [n2]
  rcases SA.C57_where dflt c.distribution x.distribution y.distribution hc.distribution hx.distribution hy.distribution with
    ⟨sd, d, d1, d2, d3, d4, d5⟩ | ⟨d1, d2⟩
  swap
  · exact .inr ⟨.inr d1, by simp only [d2]⟩
  simp only [d2]
  have hw : ∀ q ∈ [c.nominal.shape, x.nominal.shape, y.nominal.shape], WF q := by
    intro q hq
    simp only [List.mem_cons, List.not_mem_nil, or_false] at hq
    rcases hq with rfl | rfl | rfl
    · exact SA.wf_shape hc.nominal
    · exact SA.wf_shape hx.nominal
    · exact SA.wf_shape hy.nominal
  have hD : axisD ∉ n.axes := by
    rw [← SA.keys_shape n3, n4]
    intro h
    obtain ⟨q, hq, h⟩ := ((C01_broadcast_shapes_ok _ hw s n1).2.1 axisD).1 h
    simp only [List.mem_cons, List.not_mem_nil, or_false] at hq
    rcases hq with rfl | rfl | rfl
    · rw [SA.keys_shape hc.nominal] at h; exact noD_nominal hc hcr h
    · rw [SA.keys_shape hx.nominal] at h; exact noD_nominal hx hxr h
    · rw [SA.keys_shape hy.nominal] at h; exact noD_nominal hy hyr h
  exact .inl ⟨s, sd, ⟨n, d⟩, n1, d1, mk?_of_valid n3 hD, ⟨n3, d3, hD⟩, n4, d4, n5, d5⟩

/-! ### repeat -/

theorem counts_unique {repeats : SA Nat} {n : Nat} {c c' : List Nat} (hr : repeats.WF) (h : SA.Counts repeats n c)
    (h' : SA.Counts repeats n c') : c = c' := by
  have h1 := SA.counts_repeatCounts hr h
  have h2 := SA.counts_repeatCounts hr h'
  rw [h1] at h2
  exact Except.ok.inj h2

/-- **C83** (`np.repeat`). Along an axis of the array (of size `n`), with one count or one for each position, the copies of
position `i` of the nominal value and of every sample are the block of `counts[i]` positions which follows the copies of the
positions before it; other counts raise `ValueError`. -/
theorem C83_repeat (u : UA α) (hu : u.Valid) (s : Shape) (hs : u.shape = .ok s) (repeats : SA Nat) (hr : repeats.WF)
    (axis : String) (n : Nat) (hn : get? s axis = some n) :
    (∀ counts, SA.Counts repeats n counts → ∃ r, u.repeat' repeats axis = .ok r ∧ r.Valid ∧
      (∀ ax, get? r.nominal.shape ax = if ax = axis then some counts.sum else get? s ax) ∧
      (∀ ax, get? r.distribution.shape ax =
        if ax = axis then some counts.sum else if ax = axisD then get? u.distribution.shape axisD else get? s ax) ∧
      ∀ (i : Nat) (hi : i < counts.length) (k : Nat), k < counts[i] →
        ∀ e, e axis = (counts.take i).sum + k →
          r.nominal.at' e = u.nominal.atB (Function.update e axis i) ∧
          r.distribution.at' e = u.distribution.atB (Function.update e axis i)) ∧
    ((¬ ∃ counts, SA.Counts repeats n counts) → u.repeat' repeats axis = .error .valueError) := by
  obtain ⟨sd, v, h, v1, v2, v3, v4, v5, v6, v7⟩ := broadcasted_main hu hs
  have hne : axis ≠ axisD := fun hh => h.noD (hh ▸ mem_keys_of_get? hn)
  have hn1 : get? v.nominal.shape axis = some n := by rw [v3]; exact hn
  have hd1 : get? v.distribution.shape axis = some n := by rw [v4, h.get, if_neg hne]; exact hn
  have hrun : u.repeat' repeats axis = (do
      let n ← v.nominal.repeat' repeats axis
      let d ← v.distribution.repeat' repeats axis
      mk? n d) := by
    unfold repeat'
    rw [v1]
    rfl
  refine ⟨fun counts hc => ?_, fun hc => ?_⟩
  · obtain ⟨a, ha⟩ := (SA.C57_repeat_succeeds v.nominal v2.1 repeats hr axis n hn1).1 ⟨counts, hc⟩
    obtain ⟨b, hb⟩ := (SA.C57_repeat_succeeds v.distribution v2.2.1 repeats hr axis n hd1).1 ⟨counts, hc⟩
    obtain ⟨c1, hc1, hl1, a1, a2, a3, a4⟩ := SA.C57_repeat v.nominal v2.1 repeats hr axis n hn1 a ha
    obtain ⟨c2, hc2, hl2, b1, b2, b3, b4⟩ := SA.C57_repeat v.distribution v2.2.1 repeats hr axis n hd1 b hb
    obtain rfl := counts_unique hr hc hc1
    obtain rfl := counts_unique hr hc hc2
    have hD : axisD ∉ a.axes := by rw [a2]; exact v2.2.2
    refine ⟨⟨a, b⟩, ?_, ⟨a1, b1, hD⟩, fun ax => by rw [a3, v3], fun ax => ?_, fun i hi k hk e he => ⟨?_, ?_⟩⟩
    · rw [hrun, ha]
      simp only [bind, Except.bind, hb]
      exact mk?_of_valid a1 hD
    · show get? b.shape ax = _
      rw [b3, v4, h.get]
    · rw [← v6]; exact a4 i hi k hk e he
    · rw [← v7]; exact b4 i hi k hk e he
  · rw [hrun, (SA.C57_repeat_succeeds v.nominal v2.1 repeats hr axis n hn1).2 hc]
    rfl

/-- **C83** (`np.repeat`, absent axis). `ValueError`, also for the axis of the samples. -/
theorem C83_repeat_error (u : UA α) (hu : u.Valid) (s : Shape) (hs : u.shape = .ok s) (repeats : SA Nat)
    (axis : String) (h : axis ∉ keys s) : u.repeat' repeats axis = .error .valueError := by
  obtain ⟨sd, v, _, v1, v2, v3, v4, v5, v6, v7⟩ := broadcasted_main hu hs
  unfold repeat'
  rw [v1]
  simp only [bind, Except.bind]
  rw [SA.C57_repeat_error v.nominal repeats axis (by rw [← SA.keys_shape v2.1, v3]; exact h)]

/-! ### diff -/

/-- Specification: the `m` elements along an axis through a named index, with the broadcasting convention. -/
def lineB (a : SA α) (ax : String) (m : Nat) (e : String → Nat) : List α :=
  (List.range m).map (fun k => a.atB (Function.update e ax k))

theorem line_eq_lineB {a v : SA α} {ax : String} {m : Nat} (hm : get? v.shape ax = some m)
    (h : ∀ e, v.at' e = a.atB e) (e : String → Nat) : SA.line v ax e = lineB a ax m e := by
  unfold SA.line lineB SA.sizeOf'
  rw [hm]
  simp only [h, Option.getD_some]

theorem normOpt_ok {b : Option (UArg α)} (hb : ∀ x, b = some x → x.Ok ∧ ¬ x.Reserved) :
    ∃ b', normOpt b = .ok b' ∧ b'.map UA.nominal = b.map UArg.nominal ∧
      b'.map UA.distribution = b.map UArg.distribution := by
  cases b with
  | none => exact ⟨none, rfl, rfl, rfl⟩
  | some x =>
    refine ⟨some ⟨x.nominal, x.distribution⟩, ?_, rfl, rfl⟩
    show (do .ok (some (← norm x)) : R (Option (UA α))) = _
    rw [(norm_ok (hb x rfl).1 (hb x rfl).2).1]
    rfl

theorem fitsIn_ends {x : Shape} {v : SA α} {S : Shape} (hS : v.shape = S) {axis : String} {m : Nat}
    (hm : get? S axis = some m) (h : FitsIn x (S.set axis 1)) : FitsIn x (SA.endsShape v axis) := by
  intro ax k hk
  obtain ⟨j, hj, hor⟩ := h ax k hk
  refine ⟨j, ?_, hor⟩
  rw [SA.get?_endsShape, hS]
  rw [get?_set] at hj
  by_cases ha : axis = ax
  · subst ha
    rw [if_pos rfl] at hj
    rw [hm, ← hj]; simp
  · rw [if_neg ha] at hj
    rw [hj]; simp [Ne.symm ha]

/-- **C83** (`np.diff`, part which holds). If the ends can be broadcast to the array with one position along the axis, the
nominal value and every sample of the result are, along the axis, the `n`-fold differences of the nominal value and of the
sample of the array with those of the ends attached.  (What is missing: ends with samples for an array without, which raise,
see `C83_diff_refuted`.) -/
theorem C83_diff_partial (sub : α → α → α) (a : UArg α) (ha : a.Ok) (har : ¬ a.Reserved) (s : Shape)
    (hs : a.shape = .ok s) (axis : String) (m : Nat) (hm : get? s axis = some m) (n : Nat) (hn : n ≠ 0)
    (prepend append : Option (UArg α))
    (hp : ∀ x, prepend = some x → x.Ok ∧ ¬ x.Reserved ∧ FitsIn x.nominal.shape (s.set axis 1) ∧
      FitsIn x.distribution.shape ((sampleShape a s).set axis 1))
    (hq : ∀ x, append = some x → x.Ok ∧ ¬ x.Reserved ∧ FitsIn x.nominal.shape (s.set axis 1) ∧
      FitsIn x.distribution.shape ((sampleShape a s).set axis 1)) :
    ∃ r, diff sub a axis n prepend append = .ok r ∧ r.Valid ∧
      (∀ ax, get? r.nominal.shape ax = if ax = axis then
        some (prepend.toList.length + m + append.toList.length - n) else get? s ax) ∧
      (∀ ax, get? r.distribution.shape ax = if ax = axis then
        some (prepend.toList.length + m + append.toList.length - n) else get? (sampleShape a s) ax) ∧
      (∀ e, SA.line r.nominal axis e = (SA.diffList sub)^[n]
        (SA.endLine (prepend.map UArg.nominal) e axis ++ lineB a.nominal axis m e ++
          SA.endLine (append.map UArg.nominal) e axis)) ∧
      ∀ e, SA.line r.distribution axis e = (SA.diffList sub)^[n]
        (SA.endLine (prepend.map UArg.distribution) e axis ++ lineB a.distribution axis m e ++
          SA.endLine (append.map UArg.distribution) e axis) := by
  obtain ⟨hw, hD, _, _, v, v1, v2, v3, v4, v5, v6⟩ := norm_broadcasted ha har hs
  have hne : axis ≠ axisD := fun hh => hD (hh ▸ mem_keys_of_get? hm)
  have hmd : get? (sampleShape a s) axis = some m := by rw [get?_sampleShape hD, if_neg hne]; exact hm
  obtain ⟨p, p1, p2, p3⟩ := normOpt_ok (fun x hx => ⟨(hp x hx).1, (hp x hx).2.1⟩)
  obtain ⟨q, q1, q2, q3⟩ := normOpt_ok (fun x hx => ⟨(hq x hx).1, (hq x hx).2.1⟩)
  have hn1 : get? v.nominal.shape axis = some m := by rw [v3]; exact hm
  have hd1 : get? v.distribution.shape axis = some m := by rw [v4]; exact hmd
  obtain ⟨b, b1, b2, b3, b4, b5⟩ := SA.C57_diff sub v.nominal v2.1 axis m hn1 n hn
    (prepend.map UArg.nominal) (append.map UArg.nominal)
    (fun x hx => by
      obtain ⟨y, hy, rfl⟩ := Option.map_eq_some_iff.1 hx
      exact ⟨(hp y hy).1.nominal, fitsIn_ends v3 hm (hp y hy).2.2.1⟩)
    (fun x hx => by
      obtain ⟨y, hy, rfl⟩ := Option.map_eq_some_iff.1 hx
      exact ⟨(hq y hy).1.nominal, fitsIn_ends v3 hm (hq y hy).2.2.1⟩)
  obtain ⟨d, d1, d2, d3, d4, d5⟩ := SA.C57_diff sub v.distribution v2.2.1 axis m hd1 n hn
    (prepend.map UArg.distribution) (append.map UArg.distribution)
    (fun x hx => by
      obtain ⟨y, hy, rfl⟩ := Option.map_eq_some_iff.1 hx
      exact ⟨(hp y hy).1.distribution, fitsIn_ends v4 hmd (hp y hy).2.2.2⟩)
    (fun x hx => by
      obtain ⟨y, hy, rfl⟩ := Option.map_eq_some_iff.1 hx
      exact ⟨(hq y hy).1.distribution, fitsIn_ends v4 hmd (hq y hy).2.2.2⟩)
  have hDb : axisD ∉ b.axes := by rw [b3]; exact v2.2.2
  have hlen : ∀ (o : Option (UArg α)) (f : UArg α → SA α), (o.map f).toList.length = o.toList.length := by
    intro o f; cases o <;> rfl
  refine ⟨⟨b, d⟩, ?_, ⟨b2, d2, hDb⟩, fun ax => ?_, fun ax => ?_, fun e => ?_, fun e => ?_⟩
  · unfold diff
    simp only [bind, Except.bind, (norm_ok ha har).1, p1, q1, v1, p2, p3, q2, q3, b1, d1]
    exact mk?_of_valid b2 hDb
  · show get? b.shape ax = _
    rw [b4, v3, hlen, hlen]
  · show get? d.shape ax = _
    rw [d4, v4, hlen, hlen]
  · rw [b5, line_eq_lineB hn1 v5]
  · rw [d5, line_eq_lineB hd1 v6]

/-- **C83** (`np.diff`, absent axis). `ValueError`, also for the axis of the samples. -/
theorem C83_diff_error (sub : α → α → α) (a : UArg α) (ha : a.Ok) (har : ¬ a.Reserved) (s : Shape)
    (hs : a.shape = .ok s) (axis : String) (hx : axis ∉ keys s) (n : Nat) (prepend append : Option (UArg α))
    (hp : ∀ x, prepend = some x → x.Ok ∧ ¬ x.Reserved) (hq : ∀ x, append = some x → x.Ok ∧ ¬ x.Reserved) :
    diff sub a axis n prepend append = .error .valueError := by
  obtain ⟨hw, hD, _, _, v, v1, v2, v3, v4, v5, v6⟩ := norm_broadcasted ha har hs
  obtain ⟨p, p1, p2, p3⟩ := normOpt_ok hp
  obtain ⟨q, q1, q2, q3⟩ := normOpt_ok hq
  unfold diff
  simp only [bind, Except.bind, (norm_ok ha har).1, p1, q1, v1]
  rw [SA.C57_diff_error sub v.nominal v2.1 axis n _ _ (by rw [← SA.keys_shape v2.1, v3]; exact hx)]

/-! ### clip -/

/-- Specification: an element limited by optional bounds. -/
def limited (mx mn : α → α → α) (lo hi : Option α) (x : α) : α :=
  let y := match lo with
    | some l => mx x l
    | none => x
  match hi with
  | some h => mn y h
  | none => y

theorem clip_limited {mx mn : α → α → α} {x y z : α} {lo hi : Option (SA α)} {e : String → Nat}
    (h1 : lo = none ∧ y = x ∨ ∃ l, lo = some l ∧ y = mx x (l.atB e))
    (h2 : hi = none ∧ z = y ∨ ∃ h, hi = some h ∧ z = mn y (h.atB e)) :
    z = limited mx mn (lo.map (fun l => l.atB e)) (hi.map (fun h => h.atB e)) x := by
  rcases h1 with ⟨rfl, rfl⟩ | ⟨l, rfl, rfl⟩ <;> rcases h2 with ⟨rfl, rfl⟩ | ⟨h, rfl, rfl⟩ <;> rfl

/-- **C83** (`np.clip`, part which holds). If the nominal values of the bounds can be broadcast to the nominal value of the
array and their samples to its samples, then the shape of neither changes, the nominal value is limited by the nominal values
of the bounds and every sample by their samples; otherwise `ValueError` is raised, also where the bounds could be broadcast
to the shape of the array (`C83_clip_refuted`). -/
theorem C83_clip_partial (mx mn : α → α → α) (a : UArg α) (ha : a.Ok) (har : ¬ a.Reserved) (lo hi : Option (UArg α))
    (hlo : ∀ x, lo = some x → x.Ok ∧ ¬ x.Reserved) (hhi : ∀ x, hi = some x → x.Ok ∧ ¬ x.Reserved) :
    ((∀ x, lo = some x ∨ hi = some x → FitsIn x.nominal.shape a.nominal.shape ∧
        FitsIn x.distribution.shape a.distribution.shape) ∧
      ∃ r, clip mx mn a lo hi = .ok r ∧ r.Valid ∧ r.nominal.shape = a.nominal.shape ∧
        r.distribution.shape = a.distribution.shape ∧
        (∀ e, InRange a.nominal.shape e → r.nominal.at' e =
          limited mx mn (lo.map (fun x => x.nominal.atB e)) (hi.map (fun x => x.nominal.atB e)) (a.nominal.at' e)) ∧
        ∀ e, InRange a.distribution.shape e → r.distribution.at' e =
          limited mx mn (lo.map (fun x => x.distribution.atB e)) (hi.map (fun x => x.distribution.atB e))
            (a.distribution.at' e)) ∨
    ((∃ x, (lo = some x ∨ hi = some x) ∧ ¬ (FitsIn x.nominal.shape a.nominal.shape ∧
        FitsIn x.distribution.shape a.distribution.shape)) ∧
      clip mx mn a lo hi = .error .valueError) := by
  obtain ⟨p, p1, p2, p3⟩ := normOpt_ok hlo
  obtain ⟨q, q1, q2, q3⟩ := normOpt_ok hhi
  have hwn : ∀ x, lo.map UArg.nominal = some x → x.WF := by
    intro x hx
    obtain ⟨y, hy, rfl⟩ := Option.map_eq_some_iff.1 hx
    exact (hlo y hy).1.nominal
  have hwn' : ∀ x, hi.map UArg.nominal = some x → x.WF := by
    intro x hx
    obtain ⟨y, hy, rfl⟩ := Option.map_eq_some_iff.1 hx
    exact (hhi y hy).1.nominal
  have hwd : ∀ x, lo.map UArg.distribution = some x → x.WF := by
    intro x hx
    obtain ⟨y, hy, rfl⟩ := Option.map_eq_some_iff.1 hx
    exact (hlo y hy).1.distribution
  have hwd' : ∀ x, hi.map UArg.distribution = some x → x.WF := by
    intro x hx
    obtain ⟨y, hy, rfl⟩ := Option.map_eq_some_iff.1 hx
    exact (hhi y hy).1.distribution
  have hrun : clip mx mn a lo hi = (do
      let n ← a.nominal.clip mx mn (lo.map UArg.nominal) (hi.map UArg.nominal)
      let d ← a.distribution.clip mx mn (lo.map UArg.distribution) (hi.map UArg.distribution)
      mk? n d) := by
    unfold clip
    simp only [bind, Except.bind, (norm_ok ha har).1, p1, q1, p2, p3, q2, q3]
  by_cases hN : ∀ x, lo = some x ∨ hi = some x → FitsIn x.nominal.shape a.nominal.shape
  swap
  · push Not at hN
    obtain ⟨x, hx, hnf⟩ := hN
    refine .inr ⟨⟨x, hx, fun h => hnf h.1⟩, ?_⟩
    rw [hrun, SA.C57_clip_error mx mn a.nominal ha.nominal _ _ hwn hwn' ?_]
    · rfl
    · rcases hx with hx | hx
      · exact .inl ⟨x.nominal, by rw [hx]; rfl, hnf⟩
      · exact .inr ⟨x.nominal, by rw [hx]; rfl, hnf⟩
  obtain ⟨n, n1, n2, n3, n4⟩ := SA.C57_clip mx mn a.nominal ha.nominal (lo.map UArg.nominal) (hi.map UArg.nominal)
    (fun x hx => ⟨hwn x hx, by
      obtain ⟨y, hy, rfl⟩ := Option.map_eq_some_iff.1 hx
      exact hN y (.inl hy)⟩)
    (fun x hx => ⟨hwn' x hx, by
      obtain ⟨y, hy, rfl⟩ := Option.map_eq_some_iff.1 hx
      exact hN y (.inr hy)⟩)
  by_cases hS : ∀ x, lo = some x ∨ hi = some x → FitsIn x.distribution.shape a.distribution.shape
  swap
  · push Not at hS
    obtain ⟨x, hx, hnf⟩ := hS
    refine .inr ⟨⟨x, hx, fun h => hnf h.2⟩, ?_⟩
    rw [hrun, n1]
    simp only [bind, Except.bind]
    rw [SA.C57_clip_error mx mn a.distribution ha.distribution _ _ hwd hwd' ?_]
    rcases hx with hx | hx
    · exact .inl ⟨x.distribution, by rw [hx]; rfl, hnf⟩
    · exact .inr ⟨x.distribution, by rw [hx]; rfl, hnf⟩
  obtain ⟨d, d1, d2, d3, d4⟩ := SA.C57_clip mx mn a.distribution ha.distribution (lo.map UArg.distribution)
    (hi.map UArg.distribution)
    (fun x hx => ⟨hwd x hx, by
      obtain ⟨y, hy, rfl⟩ := Option.map_eq_some_iff.1 hx
      exact hS y (.inl hy)⟩)
    (fun x hx => ⟨hwd' x hx, by
      obtain ⟨y, hy, rfl⟩ := Option.map_eq_some_iff.1 hx
      exact hS y (.inr hy)⟩)
  have hD : axisD ∉ n.axes := by
    rw [← SA.keys_shape n2, n3, SA.keys_shape ha.nominal]
    exact noD_nominal ha har
  refine .inl ⟨fun x hx => ⟨hN x hx, hS x hx⟩, ⟨n, d⟩, ?_, ⟨n2, d2, hD⟩, n3, d3, fun e he => ?_, fun e he => ?_⟩
  · rw [hrun, n1]
    simp only [bind, Except.bind, d1]
    exact mk?_of_valid n2 hD
  · obtain ⟨y, h1, h2⟩ := n4 e he
    have := clip_limited h1 h2
    rw [Option.map_map, Option.map_map] at this
    exact this
  · obtain ⟨y, h1, h2⟩ := d4 e he
    have := clip_limited h1 h2
    rw [Option.map_map, Option.map_map] at this
    exact this

/-! ### stack and concatenate -/

theorem get?_bs_unique {D T : List Shape} (hD : ∀ q ∈ D, WF q) (hT : ∀ q ∈ T, WF q) {d t : Shape}
    (h1 : broadcastShapes D = .ok d) (h2 : broadcastShapes T = .ok t) {ax ax' : String}
    (h : ∀ n, HasSize D ax n ↔ HasSize T ax' n) : get? d ax = get? t ax' := by
  obtain ⟨_, a2, a3⟩ := C01_broadcast_shapes_ok _ hD d h1
  obtain ⟨_, b2, b3⟩ := C01_broadcast_shapes_ok _ hT t h2
  cases hd : get? d ax with
  | some n =>
    obtain ⟨c1, c2⟩ := a3 ax n hd
    obtain ⟨q, hq, hqn⟩ := (h n).1 c1
    obtain ⟨m, hm⟩ := exists_get?_of_mem ((b2 ax').2 ⟨q, hq, mem_keys_of_get? hqn⟩)
    obtain ⟨c3, c4⟩ := b3 ax' m hm
    rw [hm]
    have e1 := c2 m ((h m).2 c3)
    have e2 := c4 n ((h n).1 c1)
    congr 1
    omega
  | none =>
    symm
    rw [get?_eq_none]
    intro hx
    obtain ⟨q, hq, hx⟩ := (b2 ax').1 hx
    obtain ⟨m, hm⟩ := exists_get?_of_mem hx
    obtain ⟨q', hq', hm'⟩ := (h m).2 ⟨q, hq, hm⟩
    exact (get?_eq_none.1 hd) ((a2 ax).2 ⟨q', hq', mem_keys_of_get? hm'⟩)

/-- Shapes `D` which have the sizes of `T` along ordinary axes and those of `P` along the axis of the samples. -/
theorem joint_shapes {D T P : List Shape} (hD : ∀ q ∈ D, WF q) (hT : ∀ q ∈ T, WF q) (hP : ∀ q ∈ P, WF q)
    (h1 : ∀ ax n, ax ≠ axisD → (HasSize D ax n ↔ HasSize T ax n)) (h2 : ∀ n, HasSize D axisD n ↔ HasSize P axisD n)
    (h3 : ∀ q ∈ T, axisD ∉ keys q) (h4 : ∀ q ∈ P, ∀ ax, ax ∈ keys q → ax = axisD) :
    (Clash D ↔ Clash T ∨ Clash P) ∧
    ∀ s p, broadcastShapes T = .ok s → broadcastShapes P = .ok p → ∃ d, broadcastShapes D = .ok d ∧
      ∀ ax, get? d ax = if ax = axisD then get? p axisD else get? s ax := by
  have hc : Clash D ↔ Clash T ∨ Clash P := by
    constructor
    · rintro ⟨ax, m, n, hm, hn, h⟩
      by_cases ha : ax = axisD
      · subst ha
        exact .inr ⟨axisD, m, n, (h2 m).1 hm, (h2 n).1 hn, h⟩
      · exact .inl ⟨ax, m, n, (h1 ax m ha).1 hm, (h1 ax n ha).1 hn, h⟩
    · rintro (⟨ax, m, n, hm, hn, h⟩ | ⟨ax, m, n, hm, hn, h⟩)
      · have ha : ax ≠ axisD := by
          rintro rfl
          obtain ⟨q, hq, hq'⟩ := hm
          exact h3 q hq (mem_keys_of_get? hq')
        exact ⟨ax, m, n, (h1 ax m ha).2 hm, (h1 ax n ha).2 hn, h⟩
      · have ha : ax = axisD := by
          obtain ⟨q, hq, hq'⟩ := hm
          exact h4 q hq ax (mem_keys_of_get? hq')
        subst ha
        exact ⟨axisD, m, n, (h2 m).2 hm, (h2 n).2 hn, h⟩
  refine ⟨hc, fun s p hs hp => ?_⟩
  cases hd : broadcastShapes D with
  | error e =>
    rcases hc.1 ((C01_broadcast_shapes_error_iff _ hD).1 ⟨e, hd⟩) with h | h
    · obtain ⟨e, he⟩ := (C01_broadcast_shapes_error_iff _ hT).2 h
      rw [hs] at he; cases he
    · obtain ⟨e, he⟩ := (C01_broadcast_shapes_error_iff _ hP).2 h
      rw [hp] at he; cases he
  | ok d =>
    refine ⟨d, rfl, fun ax => ?_⟩
    split
    · next ha => subst ha; exact get?_bs_unique hD hP hd hp h2
    · next ha => exact get?_bs_unique hD hT hd hs (fun n => h1 ax n ha)

/-- An operand, and what it is broadcast to. -/
structure Prepared (x : UArg α) (t : Shape) (v : UA α) : Prop where
  ok : x.Ok
  valid : v.Valid
  wf : WF t
  noD : axisD ∉ keys t
  nominal : v.nominal.shape = t
  distribution : v.distribution.shape = sampleShape x t
  atN : ∀ e, v.nominal.atB e = x.nominal.atB e
  atD : ∀ e, v.distribution.atB e = x.distribution.atB e

theorem components_main {arrays : List (UArg α)} (hok : ∀ x ∈ arrays, x.Ok) (hr : ∀ x ∈ arrays, ¬ x.Reserved)
    {ts : List Shape} (hts : arrays.mapM UArg.shape = .ok ts) :
    ∃ l, arrays.mapM component = .ok l ∧ arrays.length = l.length ∧ arrays.length = ts.length ∧
      l.map (fun v => v.nominal.shape) = ts ∧
      l.map (fun v => v.distribution.shape) = List.zipWith sampleShape arrays ts ∧
      ∀ (i : Nat) (h1 : i < arrays.length) (h2 : i < ts.length) (h3 : i < l.length), Prepared arrays[i] ts[i] l[i] := by
  have h := SA.mapM_ok hts
  clear hts
  induction h with
  | nil => exact ⟨[], rfl, rfl, rfl, rfl, rfl, fun i h1 => absurd h1 (by simp)⟩
  | cons hx hl ih =>
    next x t xs ts' =>
    obtain ⟨l, l1, l2, l3, l4, l5, l6⟩ := ih (fun y hy => hok y (by simp [hy])) (fun y hy => hr y (by simp [hy]))
    obtain ⟨v, v1, v2, v3, v4, v5, v6⟩ := component_main (hok x (by simp)) (hr x (by simp)) hx
    obtain ⟨w1, w2, _⟩ := norm_broadcasted (hok x (by simp)) (hr x (by simp)) hx
    refine ⟨v :: l, ?_, by simp [l2], by simp [l3], by simp [v3, l4], by simp [v4, l5], ?_⟩
    · rw [List.mapM_cons, v1, l1]; rfl
    · intro i h1 h2 h3
      cases i with
      | zero => exact ⟨hok x (by simp), v2, w1, w2, v3, v4, v5, v6⟩
      | succ i => exact l6 i (by simpa using h1) (by simpa using h2) (by simpa using h3)

theorem mem_zipWith_sample {arrays : List (UArg α)} {ts : List Shape} (hl : arrays.length = ts.length) (q : Shape) :
    q ∈ List.zipWith sampleShape arrays ts ↔
      ∃ i, ∃ h1 : i < arrays.length, ∃ h2 : i < ts.length, q = sampleShape arrays[i] ts[i] := by
  constructor
  · intro h
    obtain ⟨i, hi, rfl⟩ := List.getElem_of_mem h
    simp only [List.length_zipWith] at hi
    exact ⟨i, by omega, by omega, by simp⟩
  · rintro ⟨i, h1, h2, rfl⟩
    rw [List.mem_iff_getElem]
    exact ⟨i, by simp; omega, by simp⟩

/-- The numbers of samples of the operands. -/
def samples (arrays : List (UArg α)) : List Shape := arrays.map (fun x => sampleShape x [])

theorem samples_wf (arrays : List (UArg α)) : (∀ q ∈ samples arrays, WF q) ∧
    ∀ q ∈ samples arrays, ∀ ax, ax ∈ keys q → ax = axisD := by
  constructor
  · intro q hq
    obtain ⟨x, _, rfl⟩ := List.mem_map.1 hq
    exact wf_sampleShape wf_nil (by simp [keys])
  · intro q hq ax hx
    obtain ⟨x, _, rfl⟩ := List.mem_map.1 hq
    by_contra hne
    have := get?_sampleShape (x := x) (s := []) (by simp [keys]) ax
    rw [if_neg hne] at this
    exact (get?_eq_none.1 (this.trans rfl)) hx

/-- Joint shapes of the samples, where the sizes along the ordinary axes are modified by `g`. -/
theorem samples_shapes {arrays : List (UArg α)} {ts : List Shape} (hl : arrays.length = ts.length)
    (hw : ∀ t ∈ ts, WF t) (hD : ∀ t ∈ ts, axisD ∉ keys t) (g : Shape → Shape) (hg : ∀ t, WF t → WF (g t))
    (hgD : ∀ t, get? (g t) axisD = get? t axisD)
    (hgx : ∀ (x : UArg α) t ax, t ∈ ts → ax ≠ axisD → get? (g (sampleShape x t)) ax = get? (g t) ax) :
    (Clash ((List.zipWith sampleShape arrays ts).map g) ↔ Clash (ts.map g) ∨ Clash (samples arrays)) ∧
    ∀ s p, broadcastShapes (ts.map g) = .ok s → broadcastShapes (samples arrays) = .ok p →
      ∃ d, broadcastShapes ((List.zipWith sampleShape arrays ts).map g) = .ok d ∧
        ∀ ax, get? d ax = if ax = axisD then get? p axisD else get? s ax := by
  refine joint_shapes ?_ ?_ (samples_wf arrays).1 ?_ ?_ ?_ (samples_wf arrays).2
  · intro q hq
    obtain ⟨q', hq', rfl⟩ := List.mem_map.1 hq
    obtain ⟨i, h1, h2, rfl⟩ := (mem_zipWith_sample hl q').1 hq'
    exact hg _ (wf_sampleShape (hw _ (List.getElem_mem h2)) (hD _ (List.getElem_mem h2)))
  · intro q hq
    obtain ⟨t, ht, rfl⟩ := List.mem_map.1 hq
    exact hg _ (hw t ht)
  · intro ax n hne
    constructor
    · rintro ⟨q, hq, hn⟩
      obtain ⟨q', hq', rfl⟩ := List.mem_map.1 hq
      obtain ⟨i, h1, h2, rfl⟩ := (mem_zipWith_sample hl q').1 hq'
      exact ⟨g ts[i], List.mem_map_of_mem (List.getElem_mem h2), by rw [← hgx arrays[i] _ _ (List.getElem_mem h2) hne]; exact hn⟩
    · rintro ⟨q, hq, hn⟩
      obtain ⟨t, ht, rfl⟩ := List.mem_map.1 hq
      obtain ⟨i, hi, rfl⟩ := List.getElem_of_mem ht
      exact ⟨g (sampleShape arrays[i] ts[i]),
        List.mem_map_of_mem ((mem_zipWith_sample hl _).2 ⟨i, by omega, hi, rfl⟩), by rw [hgx _ _ _ ht hne]; exact hn⟩
  · intro n
    constructor
    · rintro ⟨q, hq, hn⟩
      obtain ⟨q', hq', rfl⟩ := List.mem_map.1 hq
      obtain ⟨i, h1, h2, rfl⟩ := (mem_zipWith_sample hl q').1 hq'
      rw [hgD, get?_sampleShape (hD _ (List.getElem_mem h2)), if_pos rfl] at hn
      refine ⟨sampleShape arrays[i] [], List.mem_map_of_mem (List.getElem_mem h1), ?_⟩
      rw [get?_sampleShape (by simp [keys]), if_pos rfl]
      exact hn
    · rintro ⟨q, hq, hn⟩
      obtain ⟨x, hx, rfl⟩ := List.mem_map.1 hq
      obtain ⟨i, hi, rfl⟩ := List.getElem_of_mem hx
      rw [get?_sampleShape (by simp [keys]), if_pos rfl] at hn
      refine ⟨g (sampleShape arrays[i] ts[i]),
        List.mem_map_of_mem ((mem_zipWith_sample hl _).2 ⟨i, hi, by omega, rfl⟩), ?_⟩
      rw [hgD, get?_sampleShape (hD _ (List.getElem_mem (by omega))), if_pos rfl]
      exact hn
  · intro q hq
    obtain ⟨t, ht, rfl⟩ := List.mem_map.1 hq
    rw [← get?_eq_none, hgD, get?_eq_none]
    exact hD t ht

theorem stack_cases (l : List (SA α)) (hw : ∀ a ∈ l, a.WF) (axis : String) :
    ¬ (l = [] ∨ (∃ a ∈ l, axis ∈ a.axes) ∨ Clash (l.map SA.shape)) ∧
      (∃ s, broadcastShapes (l.map SA.shape) = .ok s) ∨
    (l = [] ∨ (∃ a ∈ l, axis ∈ a.axes) ∨ Clash (l.map SA.shape)) ∧ SA.stack l axis = .error .valueError := by
  by_cases h : l = [] ∨ (∃ a ∈ l, axis ∈ a.axes) ∨ Clash (l.map SA.shape)
  · exact .inr ⟨h, SA.C23_stack_error l hw axis h⟩
  · refine .inl ⟨h, ?_⟩
    cases hb : broadcastShapes (l.map SA.shape) with
    | ok s => exact ⟨s, rfl⟩
    | error e => exact absurd (.inr (.inr ((C01_broadcast_shapes_error_iff _ (SA.wf_shapes hw)).1 ⟨e, hb⟩))) h

/-- **C83** (`np.stack`). Stacking uncertain and plain scalars along a new axis: position `i` of the nominal value and of every
sample of the result is the nominal value and the sample of the `i`-th array, broadcast by name.  An existing axis, the axis
of the samples, contradicting sizes or numbers of samples, and an empty list raise `ValueError`. -/
theorem C83_stack (arrays : List (UArg α)) (hok : ∀ x ∈ arrays, x.Ok) (hr : ∀ x ∈ arrays, ¬ x.Reserved)
    (ts : List Shape) (hts : arrays.mapM UArg.shape = .ok ts) (axis : String) :
    (arrays ≠ [] ∧ axis ≠ axisD ∧ (∀ t ∈ ts, axis ∉ keys t) ∧
      ∃ s p r, broadcastShapes ts = .ok s ∧ broadcastShapes (samples arrays) = .ok p ∧ stack arrays axis = .ok r ∧
        r.Valid ∧ r.nominal.shape = (axis, arrays.length) :: s ∧
        (∀ ax, get? r.distribution.shape ax =
          if ax = axis then some arrays.length else if ax = axisD then get? p axisD else get? s ax) ∧
        ∀ e, ∀ h : e axis < arrays.length, r.nominal.at' e = arrays[e axis].nominal.atB e ∧
          r.distribution.at' e = arrays[e axis].distribution.atB e) ∨
    ((arrays = [] ∨ axis = axisD ∨ (∃ t ∈ ts, axis ∈ keys t) ∨ Clash ts ∨ Clash (samples arrays)) ∧
      stack arrays axis = .error .valueError) := by
  obtain ⟨l, l1, l2, l3, l4, l5, l6⟩ := components_main hok hr hts
  have hmem : ∀ v ∈ l, ∃ i, ∃ h1 : i < arrays.length, ∃ h2 : i < ts.length, Prepared arrays[i] ts[i] v := by
    intro v hv
    obtain ⟨i, hi, rfl⟩ := List.getElem_of_mem hv
    exact ⟨i, by omega, by omega, l6 i (by omega) (by omega) hi⟩
  have hwn : ∀ a ∈ l.map UA.nominal, a.WF := by
    intro a ha
    obtain ⟨v, hv, rfl⟩ := List.mem_map.1 ha
    obtain ⟨i, h1, h2, h⟩ := hmem v hv
    exact h.valid.1
  have hwd : ∀ a ∈ l.map UA.distribution, a.WF := by
    intro a ha
    obtain ⟨v, hv, rfl⟩ := List.mem_map.1 ha
    obtain ⟨i, h1, h2, h⟩ := hmem v hv
    exact h.valid.2.1
  have hwt : ∀ t ∈ ts, WF t ∧ axisD ∉ keys t := by
    intro t ht
    obtain ⟨i, hi, rfl⟩ := List.getElem_of_mem ht
    have := l6 i (by omega) hi (by omega)
    exact ⟨this.wf, this.noD⟩
  have hsn : (l.map UA.nominal).map SA.shape = ts := by rw [List.map_map]; exact l4
  have hsd : (l.map UA.distribution).map SA.shape = List.zipWith sampleShape arrays ts := by rw [List.map_map]; exact l5
  obtain ⟨hcl, hjoin⟩ := samples_shapes l3 (fun t ht => (hwt t ht).1) (fun t ht => (hwt t ht).2) id (fun _ h => h)
    (fun _ => rfl) (fun x t ax ht hne => by
      show get? (sampleShape x t) ax = get? t ax
      rw [get?_sampleShape (hwt t ht).2, if_neg hne])
  rw [List.map_id, List.map_id] at hcl
  rw [List.map_id, List.map_id] at hjoin
  have hrun : stack arrays axis = (do
      let n ← SA.stack (l.map UA.nominal) axis
      let d ← SA.stack (l.map UA.distribution) axis
      mk? n d) := by
    unfold stack stackLike
    rw [l1]; rfl
  have hnil : l = [] ↔ arrays = [] := by
    rw [← List.length_eq_zero_iff, ← List.length_eq_zero_iff, l2]
  have haxn : (∃ a ∈ l.map UA.nominal, axis ∈ a.axes) ↔ ∃ t ∈ ts, axis ∈ keys t := by
    rw [← l4]
    constructor
    · rintro ⟨a, ha, hx⟩
      obtain ⟨v, hv, rfl⟩ := List.mem_map.1 ha
      exact ⟨_, List.mem_map_of_mem hv, by rw [SA.keys_shape (hwn _ ha)]; exact hx⟩
    · rintro ⟨t, ht, hx⟩
      obtain ⟨v, hv, rfl⟩ := List.mem_map.1 ht
      exact ⟨_, List.mem_map_of_mem hv, by rw [← SA.keys_shape (hwn _ (List.mem_map_of_mem hv))]; exact hx⟩
  rcases stack_cases _ hwn axis with ⟨n1, s, hs⟩ | ⟨n1, n2⟩
  swap
  · refine .inr ⟨?_, by rw [hrun, n2]; rfl⟩
    rcases n1 with h | h | h
    · exact .inl (hnil.1 (List.map_eq_nil_iff.1 h))
    · exact .inr (.inr (.inl (haxn.1 h)))
    · rw [hsn] at h
      exact .inr (.inr (.inr (.inl h)))
  push Not at n1
  obtain ⟨n, e1, e2, e3, e4⟩ := SA.C23_stack _ hwn n1.1 axis s hs n1.2.1
  have hne : arrays ≠ [] := fun h => n1.1 (by rw [List.map_eq_nil_iff]; exact hnil.2 h)
  have hts' : ∀ t ∈ ts, axis ∉ keys t := by
    intro t ht hx
    obtain ⟨a, ha, hx⟩ := haxn.2 ⟨t, ht, hx⟩
    exact n1.2.1 a ha hx
  rw [hsn] at hs
  by_cases hD : axis = axisD
  · refine .inr ⟨.inr (.inl hD), ?_⟩
    rw [hrun, e1]
    simp only [bind, Except.bind]
    rcases stack_cases _ hwd axis with ⟨d1, sd, hsd'⟩ | ⟨d1, d2⟩
    · push Not at d1
      obtain ⟨d, f1, _⟩ := SA.C23_stack _ hwd d1.1 axis sd hsd' d1.2.1
      rw [f1]
      simp only
      unfold mk?
      rw [if_pos (by rw [e3, hD]; simp [keys])]
    · rw [d2]
  · have haxd : (∃ a ∈ l.map UA.distribution, axis ∈ a.axes) ↔ ∃ t ∈ ts, axis ∈ keys t := by
      constructor
      · rintro ⟨a, ha, hx⟩
        obtain ⟨v, hv, rfl⟩ := List.mem_map.1 ha
        obtain ⟨i, h1, h2, h⟩ := hmem v hv
        refine ⟨ts[i], List.getElem_mem h2, ?_⟩
        rw [← SA.keys_shape h.valid.2.1, h.distribution] at hx
        obtain ⟨k, hk⟩ := exists_get?_of_mem hx
        rw [get?_sampleShape h.noD, if_neg hD] at hk
        exact mem_keys_of_get? hk
      · rintro ⟨t, ht, hx⟩
        exact absurd hx (hts' t ht)
    rcases stack_cases _ hwd axis with ⟨d1, sd, hsd'⟩ | ⟨d1, d2⟩
    swap
    · refine .inr ⟨?_, by rw [hrun, e1]; simp only [bind, Except.bind, d2]⟩
      rcases d1 with h | h | h
      · exact absurd (hnil.1 (List.map_eq_nil_iff.1 h)) hne
      · exact .inr (.inr (.inl (haxd.1 h)))
      · rw [hsd] at h
        rcases hcl.1 h with h | h
        · exact .inr (.inr (.inr (.inl h)))
        · exact .inr (.inr (.inr (.inr h)))
    push Not at d1
    obtain ⟨d, f1, f2, f3, f4⟩ := SA.C23_stack _ hwd d1.1 axis sd hsd' d1.2.1
    have hp : ∃ p, broadcastShapes (samples arrays) = .ok p := by
      cases hb : broadcastShapes (samples arrays) with
      | ok p => exact ⟨p, rfl⟩
      | error e =>
        have := (C01_broadcast_shapes_error_iff _ (samples_wf arrays).1).1 ⟨e, hb⟩
        exact absurd (by rw [hsd]; exact hcl.2 (.inr this)) d1.2.2
    obtain ⟨p, hp⟩ := hp
    obtain ⟨sd', hsd'', hget⟩ := hjoin s p hs hp
    rw [hsd, hsd''] at hsd'
    cases hsd'
    have hDn : axisD ∉ n.axes := by
      rw [← SA.keys_shape e2, e3]
      simp only [keys, List.map_cons, List.mem_cons, not_or]
      refine ⟨fun h => hD h.symm, fun h => ?_⟩
      obtain ⟨t, ht, h⟩ := ((C01_broadcast_shapes_ok _ (fun t ht => (hwt t ht).1) s hs).2.1 axisD).1 h
      exact (hwt t ht).2 h
    refine .inl ⟨hne, hD, hts', s, p, ⟨n, d⟩, hs, hp, ?_, ⟨e2, f2, hDn⟩, ?_, fun ax => ?_, fun e he => ⟨?_, ?_⟩⟩
    · rw [hrun, e1]
      simp only [bind, Except.bind, f1]
      exact mk?_of_valid e2 hDn
    · rw [e3, List.length_map, l2]
    · show get? d.shape ax = _
      rw [f3, get?_cons]
      by_cases ha : axis = ax
      · subst ha
        rw [if_pos rfl, if_pos rfl, List.length_map, l2]
      · rw [if_neg ha, if_neg (Ne.symm ha), hget]
    · have h' : e axis < (l.map UA.nominal).length := by rw [List.length_map]; omega
      show n.at' e = _
      rw [e4 e h', List.getElem_map]
      exact (l6 (e axis) he (by omega) (by omega)).atN e
    · have h' : e axis < (l.map UA.distribution).length := by rw [List.length_map]; omega
      show d.at' e = _
      rw [f4 e h', List.getElem_map]
      exact (l6 (e axis) he (by omega) (by omega)).atD e

/-- The sizes of the operands along an axis. -/
def sizes (ts : List Shape) (axis : String) : List Nat := ts.map (fun t => (get? t axis).getD 0)

/-- **C83** (`np.concatenate`). Concatenating uncertain and plain scalars which all have the axis: the `k`-th position of the
nominal value and of every sample of the `i`-th array is found at `k` plus the sizes of the arrays before it, the other axes
are broadcast by name.  A missing axis, contradicting sizes or numbers of samples, and an empty list raise `ValueError`. -/
theorem C83_concatenate (arrays : List (UArg α)) (hok : ∀ x ∈ arrays, x.Ok) (hr : ∀ x ∈ arrays, ¬ x.Reserved)
    (ts : List Shape) (hts : arrays.mapM UArg.shape = .ok ts) (axis : String) :
    (arrays ≠ [] ∧ (∀ t ∈ ts, axis ∈ keys t) ∧
      ∃ s p r, broadcastShapes (ts.map (fun t => t.set axis 1)) = .ok s ∧ broadcastShapes (samples arrays) = .ok p ∧
        concatenate arrays axis = .ok r ∧ r.Valid ∧ r.nominal.shape = s.set axis (sizes ts axis).sum ∧
        (∀ ax, get? r.distribution.shape ax =
          if ax = axis then some (sizes ts axis).sum else if ax = axisD then get? p axisD else get? s ax) ∧
        ∀ (i : Nat) (hi : i < arrays.length) (hi' : i < ts.length) (k : Nat), k < (get? ts[i] axis).getD 0 →
          ∀ e, e axis = ((sizes ts axis).take i).sum + k →
            r.nominal.at' e = arrays[i].nominal.atB (Function.update e axis k) ∧
            r.distribution.at' e = arrays[i].distribution.atB (Function.update e axis k)) ∨
    ((arrays = [] ∨ (∃ t ∈ ts, axis ∉ keys t) ∨ Clash (ts.map (fun t => t.set axis 1)) ∨ Clash (samples arrays)) ∧
      concatenate arrays axis = .error .valueError) := by
  obtain ⟨l, l1, l2, l3, l4, l5, l6⟩ := components_main hok hr hts
  have hmem : ∀ v ∈ l, ∃ i, ∃ h1 : i < arrays.length, ∃ h2 : i < ts.length, Prepared arrays[i] ts[i] v := by
    intro v hv
    obtain ⟨i, hi, rfl⟩ := List.getElem_of_mem hv
    exact ⟨i, by omega, by omega, l6 i (by omega) (by omega) hi⟩
  have hwn : ∀ a ∈ l.map UA.nominal, a.WF := by
    intro a ha
    obtain ⟨v, hv, rfl⟩ := List.mem_map.1 ha
    obtain ⟨i, h1, h2, h⟩ := hmem v hv
    exact h.valid.1
  have hwd : ∀ a ∈ l.map UA.distribution, a.WF := by
    intro a ha
    obtain ⟨v, hv, rfl⟩ := List.mem_map.1 ha
    obtain ⟨i, h1, h2, h⟩ := hmem v hv
    exact h.valid.2.1
  have hwt : ∀ t ∈ ts, WF t ∧ axisD ∉ keys t := by
    intro t ht
    obtain ⟨i, hi, rfl⟩ := List.getElem_of_mem ht
    have := l6 i (by omega) hi (by omega)
    exact ⟨this.wf, this.noD⟩
  have hrun : concatenate arrays axis = (do
      let n ← SA.concatenate (l.map UA.nominal) axis
      let d ← SA.concatenate (l.map UA.distribution) axis
      mk? n d) := by
    unfold concatenate stackLike
    rw [l1]; rfl
  have hnil : l = [] ↔ arrays = [] := by
    rw [← List.length_eq_zero_iff, ← List.length_eq_zero_iff, l2]
  by_cases hne : arrays = []
  · refine .inr ⟨.inl hne, ?_⟩
    rw [hrun, SA.C24_concatenate_error _ hwn axis (.inl (List.map_eq_nil_iff.2 (hnil.2 hne)))]
    rfl
  by_cases hax : ∀ t ∈ ts, axis ∈ keys t
  swap
  · push Not at hax
    refine .inr ⟨.inr (.inl hax), ?_⟩
    obtain ⟨t, ht, hx⟩ := hax
    rw [← l4] at ht
    obtain ⟨v, hv, rfl⟩ := List.mem_map.1 ht
    rw [hrun, SA.C24_concatenate_error _ hwn axis (.inr (.inl ⟨v.nominal, List.mem_map_of_mem hv, by
      rw [← SA.keys_shape (hwn _ (List.mem_map_of_mem hv))]; exact hx⟩))]
    rfl
  have hD : axis ≠ axisD := by
    rintro rfl
    obtain ⟨x, hx⟩ := List.exists_mem_of_ne_nil _ hne
    obtain ⟨i, hi, rfl⟩ := List.getElem_of_mem hx
    have := ts[i]'(by omega)
    exact (hwt _ (List.getElem_mem (by omega : i < ts.length))).2 (hax _ (List.getElem_mem (by omega)))
  have hsn : (l.map UA.nominal).map (fun a => a.shape.set axis 1) = ts.map (fun t => t.set axis 1) := by
    rw [← l4, List.map_map, List.map_map]; rfl
  have hsd : (l.map UA.distribution).map (fun a => a.shape.set axis 1) =
      (List.zipWith sampleShape arrays ts).map (fun t => t.set axis 1) := by
    rw [← l5, List.map_map, List.map_map]; rfl
  obtain ⟨hcl, hjoin⟩ := samples_shapes l3 (fun t ht => (hwt t ht).1) (fun t ht => (hwt t ht).2)
    (fun t : Shape => t.set axis 1) (fun t h => wf_set h _ _)
    (fun t => by rw [get?_set, if_neg hD]) (fun x t ax ht hne => by
      rw [get?_set, get?_set, get?_sampleShape (hwt t ht).2, if_neg hne])
  have hwg : ∀ q ∈ ts.map (fun t => t.set axis 1), WF q := by
    intro q hq
    obtain ⟨t, ht, rfl⟩ := List.mem_map.1 hq
    exact wf_set (hwt t ht).1 _ _
  by_cases hc : Clash (ts.map (fun t => t.set axis 1))
  · refine .inr ⟨.inr (.inr (.inl hc)), ?_⟩
    rw [hrun, SA.C24_concatenate_error _ hwn axis (.inr (.inr (by rw [hsn]; exact hc)))]
    rfl
  have hbs : ∀ T : List Shape, (∀ q ∈ T, WF q) → ¬ Clash T → ∃ s, broadcastShapes T = .ok s := by
    intro T hT hn
    cases hb : broadcastShapes T with
    | ok s => exact ⟨s, rfl⟩
    | error e => exact absurd ((C01_broadcast_shapes_error_iff _ hT).1 ⟨e, hb⟩) hn
  obtain ⟨s, hs⟩ := hbs _ hwg hc
  have haxn : ∀ a ∈ l.map UA.nominal, axis ∈ a.axes := by
    intro a ha
    obtain ⟨v, hv, rfl⟩ := List.mem_map.1 ha
    rw [← SA.keys_shape (hwn _ ha)]
    apply hax
    rw [← l4]
    exact List.mem_map_of_mem hv
  have haxd : ∀ a ∈ l.map UA.distribution, axis ∈ a.axes := by
    intro a ha
    obtain ⟨v, hv, rfl⟩ := List.mem_map.1 ha
    obtain ⟨i, h1, h2, h⟩ := hmem v hv
    obtain ⟨k, hk⟩ := exists_get?_of_mem (hax ts[i] (List.getElem_mem h2))
    rw [← SA.keys_shape (hwd _ ha), h.distribution]
    exact mem_keys_of_get? (v := k) (by rw [get?_sampleShape h.noD, if_neg hD]; exact hk)
  have hln : l.map UA.nominal ≠ [] := fun h => hne (hnil.1 (List.map_eq_nil_iff.1 h))
  have hld : l.map UA.distribution ≠ [] := fun h => hne (hnil.1 (List.map_eq_nil_iff.1 h))
  obtain ⟨n, n1, n2, n3, n4⟩ := SA.C24_concatenate _ hwn hln axis haxn s (by rw [hsn]; exact hs)
  by_cases hp : Clash (samples arrays)
  · refine .inr ⟨.inr (.inr (.inr hp)), ?_⟩
    rw [hrun, n1]
    simp only [bind, Except.bind]
    rw [SA.C24_concatenate_error _ hwd axis (.inr (.inr (by rw [hsd]; exact hcl.2 (.inr hp))))]
  obtain ⟨p, hp⟩ := hbs _ (samples_wf arrays).1 hp
  obtain ⟨sd, hsd', hget⟩ := hjoin s p hs hp
  obtain ⟨d, d1, d2, d3, d4⟩ := SA.C24_concatenate _ hwd hld axis haxd sd (by rw [hsd]; exact hsd')
  have hDn : axisD ∉ n.axes := by
    rw [← SA.keys_shape n2, n3, ← get?_eq_none, get?_set, if_neg hD, get?_eq_none]
    intro h
    obtain ⟨t, ht, h⟩ := ((C01_broadcast_shapes_ok _ hwg s hs).2.1 axisD).1 h
    obtain ⟨t', ht', rfl⟩ := List.mem_map.1 ht
    exact absurd h (by rw [← get?_eq_none, get?_set, if_neg hD, get?_eq_none]; exact (hwt t' ht').2)
  have hzn : SA.sizesAlong (l.map UA.nominal) axis = sizes ts axis := by
    unfold SA.sizesAlong sizes
    rw [← l4, List.map_map, List.map_map]; rfl
  have hzd : SA.sizesAlong (l.map UA.distribution) axis = sizes ts axis := by
    unfold SA.sizesAlong sizes
    rw [List.map_map]
    refine List.ext_getElem (by simp; omega) ?_
    intro i h1 h2
    simp only [List.length_map] at h1 h2
    have h := l6 i (by omega) h2 h1
    simp only [List.getElem_map, Function.comp]
    rw [h.distribution, get?_sampleShape h.noD, if_neg hD]
  refine .inl ⟨hne, hax, s, p, ⟨n, d⟩, hs, hp, ?_, ⟨n2, d2, hDn⟩, by rw [n3, hzn], fun ax => ?_, ?_⟩
  · rw [hrun, n1]
    simp only [bind, Except.bind, d1]
    exact mk?_of_valid n2 hDn
  · show get? d.shape ax = _
    rw [d3, get?_set, hzd]
    by_cases ha : axis = ax
    · subst ha
      rw [if_pos rfl, if_pos rfl]
    · rw [if_neg ha, if_neg (Ne.symm ha), hget]
  · intro i hi hi' k hk e he
    have h := l6 i hi hi' (by omega)
    constructor
    · show n.at' e = _
      rw [n4 i (by simp; omega) k (by rw [List.getElem_map, h.nominal]; exact hk) e (by rw [hzn]; exact he),
        List.getElem_map]
      exact h.atN _
    · show d.at' e = _
      rw [d4 i (by simp; omega) k (by rw [List.getElem_map, h.distribution, get?_sampleShape h.noD, if_neg hD]; exact hk) e
        (by rw [hzd]; exact he), List.getElem_map]
      exact h.atD _

/-! ### take_along_axis -/

theorem get?_erase_ne {s : Shape} {axis ax : String} (h : ax ≠ axis) : get? (s.erase axis) ax = get? s ax := by
  rw [get?_erase, if_neg (Ne.symm h)]

theorem get?_erase_self {s : Shape} {axis : String} : get? (s.erase axis) axis = none := by
  rw [get?_erase, if_pos rfl]

/-- **C83** (`np.take_along_axis`). Along an axis of the array (of size `m`): each element of the nominal value is read at the
position given by the nominal value of the indices at the same named index, and each element of a sample at the position given
by the sample of the indices; an index out of range raises `IndexError`. -/
theorem C83_take_along_axis (arr : UArg α) (indices : UArg Int) (ha : arr.Ok) (har : ¬ arr.Reserved) (hi : indices.Ok)
    (hir : ¬ indices.Reserved) (s : Shape) (hs : arr.shape = .ok s) (axis : String) (m : Nat) (hm : get? s axis = some m)
    (sn sd : Shape)
    (hsn : broadcastShapes [arr.nominal.shape.erase axis, indices.nominal.shape.erase axis] = .ok sn)
    (hsd : broadcastShapes [(sampleShape arr s).erase axis, indices.distribution.shape.erase axis] = .ok sd) :
    ((∀ e, InRange indices.nominal.shape e → ND.ValidIndex m (indices.nominal.at' e)) ∧
      (∀ e, InRange indices.distribution.shape e → ND.ValidIndex m (indices.distribution.at' e)) ∧
      ∃ r, takeAlongAxis arr indices axis = .ok r ∧ r.Valid ∧
        (∀ ax, get? r.nominal.shape ax =
          if ax = axis then some ((get? indices.nominal.shape axis).getD 1) else get? sn ax) ∧
        (∀ ax, get? r.distribution.shape ax =
          if ax = axis then some ((get? indices.distribution.shape axis).getD 1) else get? sd ax) ∧
        (∀ e, InRange r.nominal.shape e → r.nominal.at' e =
          arr.nominal.atB (Function.update e axis (ND.pyIndex m (indices.nominal.atB e)))) ∧
        ∀ e, InRange r.distribution.shape e → r.distribution.at' e =
          arr.distribution.atB (Function.update e axis (ND.pyIndex m (indices.distribution.atB e)))) ∨
    (¬ ((∀ e, InRange indices.nominal.shape e → ND.ValidIndex m (indices.nominal.at' e)) ∧
      ∀ e, InRange indices.distribution.shape e → ND.ValidIndex m (indices.distribution.at' e)) ∧
      takeAlongAxis arr indices axis = .error .indexError) := by
  obtain ⟨hnorm, hv⟩ := norm_ok ha har
  obtain ⟨inorm, hiv⟩ := norm_ok hi hir
  have hshape := shape_norm ha har hs
  rcases shape_cases hv with ⟨_, _, h⟩ | ⟨hncl, t, s', sd', t1, t2, t3, t4, t5⟩
  · rw [hshape] at h; cases h
  have : s' = s := by rw [t5.shape] at hshape; cases hshape; rfl
  subst this
  have hne : axis ≠ axisD := fun hh => t5.noD (hh ▸ mem_keys_of_get? hm)
  have hw2 : ∀ q ∈ [arr.nominal.shape, arr.distribution.shape], WF q := by
    intro q hq
    simp only [List.mem_cons, List.not_mem_nil, or_false] at hq
    rcases hq with rfl | rfl
    · exact SA.wf_shape ha.nominal
    · exact SA.wf_shape ha.distribution
  have hwa : WF ([(axis, m)] : Shape) := by simp [WF, keys]
  have hw3 : ∀ q ∈ [arr.nominal.shape, arr.distribution.shape, [(axis, m)]], WF q := by
    intro q hq
    simp only [List.mem_cons, List.not_mem_nil, or_false] at hq
    rcases hq with rfl | rfl | rfl
    · exact SA.wf_shape ha.nominal
    · exact SA.wf_shape ha.distribution
    · exact hwa
  have htm : get? t axis = some m := by
    rw [t3, get?_erase_ne hne] at hm; exact hm
  have hjm : HasSize [arr.nominal.shape, arr.distribution.shape] axis m :=
    ((C01_broadcast_shapes_ok _ hw2 t t1).2.2 axis m htm).1
  have hsz : ∀ ax n, HasSize [arr.nominal.shape, arr.distribution.shape, [(axis, m)]] ax n ↔
      HasSize [arr.nominal.shape, arr.distribution.shape] ax n := by
    intro ax n
    constructor
    · rintro ⟨q, hq, hn⟩
      simp only [List.mem_cons, List.not_mem_nil, or_false] at hq
      rcases hq with rfl | rfl | rfl
      · exact ⟨_, by simp, hn⟩
      · exact ⟨_, by simp, hn⟩
      · by_cases hax : axis = ax
        · subst hax
          simp only [get?_cons, if_true, Option.some.injEq] at hn
          subst hn
          exact hjm
        · simp [get?_cons, get?_nil, hax] at hn
    · rintro ⟨q, hq, hn⟩
      exact ⟨q, by simp at hq ⊢; tauto, hn⟩
  rcases C66_broadcast_to_append _ hv [(axis, m)] hwa (by simp [keys, Ne.symm hne]) with
    ⟨n, d, w, n1, n2, w1, w2, w3, w4, w5, w6⟩ | ⟨hc, _⟩
  swap
  · refine absurd ?_ hncl
    obtain ⟨ax, p, q, hp, hq, h⟩ := hc
    exact ⟨ax, p, q, (hsz ax p).1 hp, (hsz ax q).1 hq, h⟩
  have hnm : ∀ k, get? arr.nominal.shape axis = some k → k = m ∨ k = 1 := by
    intro k hk
    obtain ⟨j, hj, hor⟩ := t5.nom axis k hk
    rw [hm] at hj
    cases hj
    exact hor
  have hn' : n = arr.nominal.shape.set axis m := by
    have := FA.bs_single (SA.wf_shape ha.nominal) hnm
    rw [show broadcastShapes [arr.nominal.shape, [(axis, m)]] = .ok n from n1] at this
    exact Except.ok.inj this
  have hwdist : ∀ ax, get? w.distribution.shape ax = get? (sampleShape arr s') ax := by
    intro ax
    rw [w4, get?_bs_unique hw3 hw2 n2 t1 (hsz ax), get?_sampleShape t5.noD]
    split
    · next h => rw [h]; exact shapeDistribution_D hv t1
    · next h => rw [t3, get?_erase_ne h]
  have hwnm : get? w.nominal.shape axis = some m := by rw [w3, hn', get?_set, if_pos rfl]
  have hwdm : get? w.distribution.shape axis = some m := by
    rw [hwdist, get?_sampleShape t5.noD, if_neg hne]; exact hm
  have hsn' : broadcastShapes [w.nominal.shape.erase axis, indices.nominal.shape.erase axis] = .ok sn := by
    rw [w3, hn', FA.erase_set (SA.wf_shape ha.nominal)]; exact hsn
  have hwe : WF ((sampleShape arr s').erase axis) := wf_erase (wf_sampleShape t5.wf t5.noD) _
  have hwi : WF (indices.distribution.shape.erase axis) := wf_erase (SA.wf_shape hi.distribution) _
  have hwp : ∀ {a b : Shape}, WF a → WF b → ∀ q ∈ [a, b], WF q := by
    intro a b ha hb q hq
    simp only [List.mem_cons, List.not_mem_nil, or_false] at hq
    rcases hq with rfl | rfl <;> assumption
  have hso := broadcastShapes_sameOutcome_of_sizes
    [w.distribution.shape.erase axis, indices.distribution.shape.erase axis]
    [(sampleShape arr s').erase axis, indices.distribution.shape.erase axis]
    (hwp (wf_erase (SA.wf_shape w2.2.1) _) hwi) (hwp hwe hwi) (by
      intro ax k
      have : get? (w.distribution.shape.erase axis) ax = get? ((sampleShape arr s').erase axis) ax := by
        rw [get?_erase, get?_erase, hwdist]
      simp only [HasSize, List.mem_cons, List.not_mem_nil, or_false, exists_eq_or_imp, exists_eq_left, this])
  obtain ⟨sd2, hsd2, hsame⟩ := sameOutcome_ok hso hsd
  have hDi : axisD ∉ keys sn := by
    intro h
    have hww := hwp (wf_erase (SA.wf_shape ha.nominal) axis) (wf_erase (SA.wf_shape hi.nominal) axis)
    obtain ⟨q, hq, h⟩ := ((C01_broadcast_shapes_ok _ hww sn hsn).2.1 axisD).1 h
    simp only [List.mem_cons, List.not_mem_nil, or_false] at hq
    rcases hq with rfl | rfl
    · rw [keys_erase] at h
      have := (List.mem_filter.1 h).1
      rw [SA.keys_shape ha.nominal] at this
      exact noD_nominal ha har this
    · rw [keys_erase] at h
      have := (List.mem_filter.1 h).1
      rw [SA.keys_shape hi.nominal] at this
      exact noD_nominal hi hir this
  have hrun : takeAlongAxis arr indices axis = (do
      let n ← w.nominal.takeAlongAxis indices.nominal axis
      let d ← w.distribution.takeAlongAxis indices.distribution axis
      mk? n d) := by
    unfold takeAlongAxis
    simp only [bind, Except.bind, hnorm, inorm, hshape, hm, w1]
  have hfn : FitsIn arr.nominal.shape w.nominal.shape := by
    rw [w3, hn']
    intro ax k hk
    by_cases hax : axis = ax
    · subst hax
      exact ⟨m, by rw [get?_set, if_pos rfl], hnm k hk⟩
    · exact ⟨k, by rw [get?_set, if_neg hax]; exact hk, .inl rfl⟩
  have hfd : FitsIn arr.distribution.shape w.distribution.shape := by
    intro ax k hk
    obtain ⟨_, _, _, f, _⟩ := norm_broadcasted ha har hs
    rw [hwdist]
    exact f ax k hk
  rcases SA.C57_take_along_axis w.nominal indices.nominal w2.1 hi.nominal axis m hwnm sn hsn' with
    ⟨a1, a, a2, a3, a4, a5⟩ | ⟨a1, a2⟩
  swap
  · exact .inr ⟨fun h => a1 h.1, by rw [hrun, a2]; rfl⟩
  rcases SA.C57_take_along_axis w.distribution indices.distribution w2.2.1 hi.distribution axis m hwdm sd2 hsd2 with
    ⟨b1, b, b2, b3, b4, b5⟩ | ⟨b1, b2⟩
  swap
  · exact .inr ⟨fun h => b1 h.2, by rw [hrun, a2]; simp only [bind, Except.bind, b2]⟩
  have hDa : axisD ∉ a.axes := by
    rw [← SA.keys_shape a3, a4]
    simp only [keys, List.map_cons, List.mem_cons, not_or]
    exact ⟨Ne.symm hne, hDi⟩
  refine .inl ⟨a1, b1, ⟨a, b⟩, ?_, ⟨a3, b3, hDa⟩, fun ax => ?_, fun ax => ?_, fun e he => ?_, fun e he => ?_⟩
  · rw [hrun, a2]
    simp only [bind, Except.bind, b2]
    exact mk?_of_valid a3 hDa
  · show get? a.shape ax = _
    rw [a4, get?_cons]
    by_cases hax : axis = ax
    · rw [if_pos hax, if_pos hax.symm]
    · rw [if_neg hax, if_neg (Ne.symm hax)]
  · show get? b.shape ax = _
    rw [b4, get?_cons]
    by_cases hax : axis = ax
    · rw [if_pos hax, if_pos hax.symm]
    · rw [if_neg hax, if_neg (Ne.symm hax), hsame ax]
  · show a.at' e = _
    rw [a5 e he]
    exact Comp.atB_of_broadcast ha.nominal hfn w5 _
  · show b.at' e = _
    rw [b5 e he]
    exact Comp.atB_of_broadcast ha.distribution hfd w6 _

/-- **C83** (`np.take_along_axis`, absent axis). `ValueError`, also for the axis of the samples. -/
theorem C83_take_along_axis_error (arr : UArg α) (indices : UArg Int) (ha : arr.Ok) (har : ¬ arr.Reserved)
    (hi : indices.Ok) (hir : ¬ indices.Reserved) (s : Shape) (hs : arr.shape = .ok s) (axis : String)
    (hx : axis ∉ keys s) : takeAlongAxis arr indices axis = .error .valueError := by
  unfold takeAlongAxis
  simp only [bind, Except.bind, (norm_ok ha har).1, (norm_ok hi hir).1, shape_norm ha har hs, get?_eq_none.2 hx]

/-! ### moveaxis -/

theorem rename_renames {a : SA α} {source destination : List String} {x : String} (hx : x ∈ a.axes) :
    SA.rename (renames a source destination) x = SA.rename (source.zip destination) x := by
  unfold SA.rename renames
  rw [List.find?_filter]
  have : (source.zip destination).find? (fun p => decide (decide (p.1 ∈ a.axes) = true ∧ decide (p.1 = x) = true)) =
      (source.zip destination).find? (fun p => decide (p.1 = x)) := by
    congr 1
    funext p
    by_cases h : p.1 = x
    · simp [h, hx]
    · simp [h]
  rw [this]

theorem zip_renames (l : List (String × String)) : (l.map Prod.fst).zip (l.map Prod.snd) = l := by
  induction l with
  | nil => rfl
  | cons p l ih => simp [ih]

theorem moveaxis_component {a : SA α} (ha : a.WF) {source destination : List String}
    (hl : source.length = destination.length) (hsn : source.Nodup)
    (hpw : (source.zip destination).Pairwise (fun p q => p.2 ≠ q.1)) :
    ((a.axes.map (SA.rename (source.zip destination))).Nodup →
      ∃ r, a.moveaxis ((renames a source destination).map Prod.fst) ((renames a source destination).map Prod.snd) = .ok r ∧
        r.WF ∧ r.axes = a.axes.map (SA.rename (source.zip destination)) ∧ r.nd = a.nd ∧
        ∀ e, r.at' e = a.at' (e ∘ SA.rename (source.zip destination))) ∧
    (¬ (a.axes.map (SA.rename (source.zip destination))).Nodup →
      a.moveaxis ((renames a source destination).map Prod.fst) ((renames a source destination).map Prod.snd) =
        .error .valueError) := by
  have hmap : a.axes.map (SA.rename (renames a source destination)) =
      a.axes.map (SA.rename (source.zip destination)) :=
    List.map_congr_left (fun x hx => rename_renames hx)
  have hsub : (renames a source destination).Sublist (source.zip destination) := List.filter_sublist
  have h := SA.C25_moveaxis_partial a ha ((renames a source destination).map Prod.fst)
    ((renames a source destination).map Prod.snd) (by simp)
    ((hsub.map Prod.fst).nodup (by rw [List.map_fst_zip (by omega)]; exact hsn))
    (by
      intro x hx
      obtain ⟨p, hp, rfl⟩ := List.mem_map.1 hx
      simpa using (List.mem_filter.1 hp).2)
    (by rw [zip_renames]; exact hpw.sublist hsub)
  rw [zip_renames, hmap] at h
  refine ⟨fun hn => ?_, h.2⟩
  obtain ⟨r, r1, r2, r3, r4, r5⟩ := h.1 hn
  refine ⟨r, r1, r2, r3, r4, fun e => ?_⟩
  rw [r5]
  apply SA.at'_congr
  intro x hx
  simp only [Function.comp]
  rw [rename_renames hx]

theorem get?_renamed {a r : SA α} (ha : a.WF) (hr : r.WF) {ρ : String → String} (h1 : r.axes = a.axes.map ρ)
    (h2 : r.nd = a.nd) {x : String} (hinj : ∀ y ∈ a.axes, ρ y = ρ x → y = x) :
    get? r.shape (ρ x) = get? a.shape x := by
  obtain ⟨axes, nd⟩ := r
  subst h1 h2
  have hl := ha.1
  unfold SA.shape
  obtain ⟨axes, nd⟩ := a
  simp only at hinj hl ⊢
  have hl' : nd.shape.length = axes.length := hl
  generalize nd.shape = sh at hl'
  clear ha hr hl
  induction axes generalizing sh with
  | nil => rfl
  | cons y l ih =>
    cases sh with
    | nil => simp at hl'
    | cons n sh =>
      simp only [List.map_cons, List.zip_cons_cons, get?_cons]
      by_cases hy : y = x
      · subst hy; simp
      · rw [if_neg hy, if_neg (fun h => hy (hinj y (by simp) h))]
        exact ih (fun z hz => hinj z (by simp [hz])) sh (by simpa using hl')

/-- **C83** (`np.moveaxis`, part which holds). If the new names are all distinct from each other, from the names of the other
axes of the array and from the axis of the samples (and no new name is one of the later source names, see C25), the axes of
the nominal value and of every sample are renamed alike and nothing else changes; names which are not axes of the array raise
`ValueError`.  (What is missing: a new name which is an axis of the other component only, see `C83_moveaxis_refuted`.) -/
theorem C83_moveaxis_partial (u : UA α) (hu : u.Valid) (s : Shape) (hs : u.shape = .ok s)
    (source destination : List String) (hl : source.length = destination.length) :
    (¬ (∀ x ∈ source, x ∈ keys s) → u.moveaxis source destination = .error .valueError) ∧
    ((∀ x ∈ source, x ∈ keys s) → source.Nodup → (source.zip destination).Pairwise (fun p q => p.2 ≠ q.1) →
      ((keys s).map (SA.rename (source.zip destination))).Nodup → axisD ∉ destination →
      ∃ r s', u.moveaxis source destination = .ok r ∧ r.Valid ∧ r.shape = .ok s' ∧
        (∀ x, x ∈ keys s' ↔ ∃ y ∈ keys s, x = SA.rename (source.zip destination) y) ∧
        (∀ x ∈ keys s, get? s' (SA.rename (source.zip destination) x) = get? s x) ∧
        r.nominal.axes = u.nominal.axes.map (SA.rename (source.zip destination)) ∧
        r.distribution.axes = u.distribution.axes.map (SA.rename (source.zip destination)) ∧
        (∀ e, r.nominal.at' e = u.nominal.at' (e ∘ SA.rename (source.zip destination))) ∧
        ∀ e, r.distribution.at' e = u.distribution.at' (e ∘ SA.rename (source.zip destination))) := by
  rcases shape_cases hu with ⟨_, _, h⟩ | ⟨hncl, t, s', sd', t1, t2, t3, t4, t5⟩
  · rw [h] at hs; cases hs
  have : s' = s := by have := t5.shape; rw [hs] at this; cases this; rfl
  subst this
  refine ⟨fun hx => ?_, fun hx hsn hpw hnd hD => ?_⟩
  · unfold moveaxis
    rw [hs]
    simp only [bind, Except.bind]
    rw [if_pos (by simpa using hx)]
  set ρ := SA.rename (source.zip destination) with hρ
  have hnD : axisD ∉ source := fun h => t5.noD (hx _ h)
  have hρD : ρ axisD = axisD := by
    rw [hρ]
    unfold SA.rename
    rw [List.find?_eq_none.2]
    intro p hp
    simp only [decide_eq_true_eq]
    intro h
    exact hnD (h ▸ (List.of_mem_zip hp).1)
  have hρne : ∀ x, x ≠ axisD → ρ x ≠ axisD := by
    intro x hxD
    rw [hρ]
    unfold SA.rename
    cases hf : (source.zip destination).find? (fun p => decide (p.1 = x)) with
    | none => exact hxD
    | some p =>
      simp only
      intro h
      exact hD (h ▸ (List.of_mem_zip (List.mem_of_find?_eq_some hf)).2)
  have hinj : ∀ x, x ∈ keys s' ∨ x = axisD → ∀ y, y ∈ keys s' ∨ y = axisD → ρ x = ρ y → x = y := by
    rintro x (hx | rfl) y (hy | rfl) h
    · exact List.inj_on_of_nodup_map hnd hx hy h
    · rw [hρD] at h
      exact absurd h (hρne x (fun hh => t5.noD (hh ▸ hx)))
    · rw [hρD] at h
      exact absurd h.symm (hρne y (fun hh => t5.noD (hh ▸ hy)))
    · rfl
  have hsubn : ∀ x ∈ u.nominal.axes, x ∈ keys s' ∨ x = axisD := by
    intro x hx
    rw [← SA.keys_shape hu.1] at hx
    obtain ⟨n, hn⟩ := exists_get?_of_mem hx
    obtain ⟨m, hm, _⟩ := t5.nom x n hn
    exact .inl (mem_keys_of_get? hm)
  have hsubd : ∀ x ∈ u.distribution.axes, x ∈ keys s' ∨ x = axisD := by
    intro x hx
    by_cases hxD : x = axisD
    · exact .inr hxD
    rw [← SA.keys_shape hu.2.1] at hx
    obtain ⟨n, hn⟩ := exists_get?_of_mem hx
    obtain ⟨m, hm, _⟩ := t5.dist x n hn
    rw [t5.get, if_neg hxD] at hm
    exact .inl (mem_keys_of_get? hm)
  obtain ⟨n, n1, n2, n3, n4, n5⟩ := (moveaxis_component hu.1 hl hsn hpw).1
    (List.Nodup.map_on (fun x hx y hy h => hinj x (hsubn x hx) y (hsubn y hy) h) hu.1.2)
  obtain ⟨d, d1, d2, d3, d4, d5⟩ := (moveaxis_component hu.2.1 hl hsn hpw).1
    (List.Nodup.map_on (fun x hx y hy h => hinj x (hsubd x hx) y (hsubd y hy) h) hu.2.1.2)
  have hDn : axisD ∉ n.axes := by
    rw [n3]
    intro h
    obtain ⟨x, hx, h⟩ := List.mem_map.1 h
    exact hρne x (fun hh => hu.2.2 (hh ▸ hx)) h
  have hrv : Valid (⟨n, d⟩ : UA α) := ⟨n2, d2, hDn⟩
  have hgn : ∀ x, x ∈ keys s' ∨ x = axisD → get? n.shape (ρ x) = get? u.nominal.shape x := fun x hx =>
    get?_renamed hu.1 n2 n3 n4 (fun y hy h => hinj y (hsubn y hy) x hx h)
  have hgd : ∀ x, x ∈ keys s' ∨ x = axisD → get? d.shape (ρ x) = get? u.distribution.shape x := fun x hx =>
    get?_renamed hu.2.1 d2 d3 d4 (fun y hy h => hinj y (hsubd y hy) x hx h)
  have hsz : ∀ x, x ∈ keys s' ∨ x = axisD → ∀ k, HasSize [n.shape, d.shape] (ρ x) k ↔
      HasSize [u.nominal.shape, u.distribution.shape] x k := by
    intro x hx k
    simp only [HasSize, List.mem_cons, List.not_mem_nil, or_false, exists_eq_or_imp, exists_eq_left, hgn x hx, hgd x hx]
  have hax : ∀ y k, HasSize [n.shape, d.shape] y k → ∃ x, (x ∈ keys s' ∨ x = axisD) ∧ y = ρ x := by
    rintro y k ⟨q, hq, hk⟩
    simp only [List.mem_cons, List.not_mem_nil, or_false] at hq
    rcases hq with rfl | rfl
    · have := mem_keys_of_get? hk
      rw [SA.keys_shape n2, n3] at this
      obtain ⟨x, hx, rfl⟩ := List.mem_map.1 this
      exact ⟨x, hsubn x hx, rfl⟩
    · have := mem_keys_of_get? hk
      rw [SA.keys_shape d2, d3] at this
      obtain ⟨x, hx, rfl⟩ := List.mem_map.1 this
      exact ⟨x, hsubd x hx, rfl⟩
  have hww : ∀ (v : UA α), v.Valid → ∀ q ∈ [v.nominal.shape, v.distribution.shape], WF q := by
    intro v hv q hq
    simp only [List.mem_cons, List.not_mem_nil, or_false] at hq
    rcases hq with rfl | rfl
    · exact SA.wf_shape hv.1
    · exact SA.wf_shape hv.2.1
  rcases shape_cases hrv with ⟨hc, _, _⟩ | ⟨_, t', s'', sd'', c1, c2, c3, c4, c5⟩
  · refine absurd ?_ hncl
    obtain ⟨ax, p, q, hp, hq, h⟩ := hc
    obtain ⟨x, hx, rfl⟩ := hax ax p hp
    exact ⟨x, p, q, (hsz x hx p).1 hp, (hsz x hx q).1 hq, h⟩
  have hgt : ∀ x, x ∈ keys s' ∨ x = axisD → get? t' (ρ x) = get? t x := fun x hx =>
    get?_bs_unique (hww _ hrv) (hww u hu) c1 t1 (hsz x hx)
  have hgs : ∀ x ∈ keys s', get? s'' (ρ x) = get? s' x := by
    intro x hx
    have hxD : x ≠ axisD := fun hh => t5.noD (hh ▸ hx)
    rw [c3, t3, get?_erase_ne (hρne x hxD), get?_erase_ne hxD]
    exact hgt x (.inl hx)
  refine ⟨⟨n, d⟩, s'', ?_, hrv, c5.shape, fun y => ⟨fun hy => ?_, ?_⟩, hgs, n3, d3, n5, d5⟩
  · unfold moveaxis
    rw [hs]
    simp only [bind, Except.bind]
    rw [if_neg (by simpa using hx), if_neg (by omega), n1]
    simp only [d1]
    exact mk?_of_valid n2 hDn
  · have hyD : y ≠ axisD := fun hh => c5.noD (hh ▸ hy)
    obtain ⟨k, hk⟩ := exists_get?_of_mem hy
    rw [c3, get?_erase_ne hyD] at hk
    obtain ⟨x, hx, rfl⟩ := hax y k ((C01_broadcast_shapes_ok _ (hww _ hrv) t' c1).2.2 y k hk).1
    rcases hx with hx | rfl
    · exact ⟨x, hx, rfl⟩
    · exact absurd hρD hyD
  · rintro ⟨x, hx, rfl⟩
    obtain ⟨k, hk⟩ := exists_get?_of_mem hx
    rw [← hgs x hx] at hk
    exact mem_keys_of_get? hk

/-! ### Refutations and examples -/

/-- nominal value along `x`, samples along `y` -/
def exCross : UA Int := ⟨⟨["x"], ND.ofList [2] [1, 2] 0⟩, ⟨["y", axisD], ND.ofList [2, 3] [1, 2, 3, 4, 5, 6] 0⟩⟩

/-- **C83** (refuted for `np.moveaxis`). Renaming `x` to `y`, which the array already has, should raise `ValueError` as it does
for a plain array; if only the nominal value has `x` and only the samples have `y`, the two axes are silently merged: an array
with the axes `x` and `y` becomes one with the single axis `y`. -/
theorem C83_moveaxis_refuted : exCross.Valid ∧ exCross.shape = .ok [("x", 2), ("y", 2)] ∧
    ∃ r, exCross.moveaxis ["x"] ["y"] = .ok r ∧ r.shape = .ok [("y", 2)] := by
  refine ⟨⟨by decide, by decide, by decide⟩, rfl, ?_⟩
  have h : (exCross.moveaxis ["x"] ["y"]).map (fun r => (r.shape : R (Dict Nat))) = .ok (.ok [("y", 2)]) := by
    decide +kernel
  cases hr : exCross.moveaxis ["x"] ["y"] with
  | error e => rw [hr] at h; cases h
  | ok r =>
    rw [hr] at h
    injection h with h
    exact ⟨r, rfl, h⟩

/-- **C83** (refuted for `np.clip`). A bound along `x` for an array with the axis `x` raises `ValueError` if only the samples of
the array have `x`, and an uncertain bound for a plain array always does, although the limited array would be well defined. -/
theorem C83_clip_refuted :
    (exWide.Valid ∧ exWide.shape = .ok [("x", 3)] ∧
      (clip max min (.unc exWide) (some (.plain ⟨["x"], ND.ofList [3] [1, 2, 3] 0⟩)) none).map (fun _ => ()) =
        .error .valueError) ∧
    (clip max min (.plain (SA.scalar 1)) (some (.unc ⟨SA.scalar 2, ⟨[axisD], ND.ofList [2] [1, 3] 0⟩⟩)) none).map
      (fun _ => ()) = .error .valueError := by
  refine ⟨⟨⟨by decide, by decide, by decide⟩, rfl, ?_⟩, ?_⟩ <;> decide +kernel

/-- **C83** (refuted for `np.diff`). An uncertain first element prepended to a plain array raises `ValueError`. -/
theorem C83_diff_refuted :
    (diff (· - ·) (.plain (⟨["x"], ND.ofList [2] [1, 4] 0⟩ : SA Int)) "x" 1
      (some (.unc ⟨SA.scalar 0, ⟨[axisD], ND.ofList [2] [1, -1] 0⟩⟩)) none).map (fun _ => ()) =
      .error .valueError := by decide +kernel

/-- lists of the elements of both components -/
def both (r : R (UA Int)) : R ((List (String × Nat) × List Int) × List (String × Nat) × List Int) :=
  r.map (fun r => ((r.nominal.shape, r.nominal.nd.toList), r.distribution.shape, r.distribution.nd.toList))

def exLine : UA Int := ⟨⟨["x"], ND.ofList [2] [1, 4] 0⟩, ⟨["x", axisD], ND.ofList [2, 2] [0, 2, 3, 5] 0⟩⟩

example : exLine.Valid ∧ exLine.shape = .ok [("x", 2)] := ⟨⟨by decide, by decide, by decide⟩, rfl⟩
example : both (stack [.unc exLine, .plain (SA.scalar 7)] "n") =
    .ok (([("n", 2), ("x", 2)], [1, 4, 7, 7]), [("n", 2), ("x", 2), (axisD, 2)], [0, 2, 3, 5, 7, 7, 7, 7]) := by
  decide +kernel
example : both (concatenate [.unc exLine, .plain ⟨["x"], ND.ofList [1] [9] 0⟩] "x") =
    .ok (([("x", 3)], [1, 4, 9]), [("x", 3), (axisD, 2)], [0, 2, 3, 5, 9, 9]) := by
  decide +kernel
example : both (where' 0 (.plain ⟨["x"], ND.ofList [2] [true, false] true⟩) (.unc exLine) (.plain (SA.scalar 7))) =
    .ok (([("x", 2)], [1, 7]), [("x", 2), (axisD, 2)], [0, 2, 7, 7]) := by
  decide +kernel
example : both (diff (· - ·) (.unc exLine) "x" 1 none (some (.plain (SA.scalar 10)))) =
    .ok (([("x", 2)], [3, 6]), [("x", 2), (axisD, 2)], [3, 3, 7, 5]) := by
  decide +kernel
example : both (exLine.repeat' (SA.scalar 2) "x") =
    .ok (([("x", 4)], [1, 1, 4, 4]), [("x", 4), (axisD, 2)], [0, 2, 0, 2, 3, 5, 3, 5]) := by
  decide +kernel
example : both (clip max min (.unc exLine) (some (.plain (SA.scalar 1))) (some (.plain (SA.scalar 3)))) =
    .ok (([("x", 2)], [1, 3]), [("x", 2), (axisD, 2)], [1, 2, 3, 3]) := by
  decide +kernel
example : both (takeAlongAxis (.unc exLine) (.plain ⟨["x"], ND.ofList [3] [-1, 0, 1] 0⟩) "x") =
    .ok (([("x", 3)], [4, 1, 4]), [("x", 3), (axisD, 2)], [3, 5, 0, 2, 3, 5]) := by
  decide +kernel
example : both (exCross.moveaxis ["x"] ["z"]) =
    .ok (([("z", 2)], [1, 2]), [("y", 2), (axisD, 3)], [1, 2, 3, 4, 5, 6]) := by
  decide +kernel
example : ([UArg.unc exLine, .plain (SA.scalar 7)].mapM UArg.shape) = .ok [[("x", 2)], []] := rfl

end UA
end NA
