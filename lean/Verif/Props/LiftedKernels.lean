import Verif.Uncertain.Kernels
import Verif.Props.UncertainStructure
import Verif.Props.Kernels
import Verif.Vector.Kernels
import Verif.Function.Kernels
import Verif.Props.VectorStructure
import Verif.Props.FunctionSet

/-!
# Polygons, expressions, filters and cosmic rays of uncertain scalars, vectors and functions (C99)
-/

namespace NA
open Dict
open SA (FitsIn InRange putNamed)

namespace UA
variable {α β : Type}

/-! ### Uncertain scalars -/

/-- Arguments which `_normalize` accepts. -/
def Fit (x : UArg α) : Prop := x.Ok ∧ ¬ x.Reserved

/-- **C99** (points in polygons, uncertain scalars). The nominal value of the result uses the nominal points and the nominal vertices,
and each sample the sample of the points and the sample of the vertices. -/
theorem C99_uncertain_polygon (inside : α → α → List α → List α → Bool) (default : α) (x y vx vy : UArg α) (axis : String)
    (hx : Fit x) (hy : Fit y) (hvx : Fit vx) (hvy : Fit vy) (B C : Shape)
    (hB : broadcastShapes [x.nominal.shape, y.nominal.shape, vx.nominal.shape, vy.nominal.shape] = .ok B)
    (hC : broadcastShapes [x.distribution.shape, y.distribution.shape, vx.distribution.shape, vy.distribution.shape] = .ok C)
    (m n : Nat) (hm : get? B axis = some m) (hn : get? C axis = some n) (hm0 : m ≠ 0) (hn0 : n ≠ 0)
    (hxa : axis ∉ x.nominal.axes ∧ axis ∉ x.distribution.axes) (hya : axis ∉ y.nominal.axes ∧ axis ∉ y.distribution.axes) :
    ∃ r, pointInPolygon inside default x y vx vy axis = .ok r ∧ r.Valid ∧
      r.nominal.shape = orthogonal B [axis] ∧ r.distribution.shape = orthogonal C [axis] ∧
      (∀ e, InRange r.nominal.shape e → r.nominal.at' e = inside (x.nominal.atB e) (y.nominal.atB e)
        ((List.range m).map (fun k => vx.nominal.atB (fun ax => if ax = axis then k else e ax)))
        ((List.range m).map (fun k => vy.nominal.atB (fun ax => if ax = axis then k else e ax)))) ∧
      ∀ e, InRange r.distribution.shape e → r.distribution.at' e = inside (x.distribution.atB e) (y.distribution.atB e)
        ((List.range n).map (fun k => vx.distribution.atB (fun ax => if ax = axis then k else e ax)))
        ((List.range n).map (fun k => vy.distribution.atB (fun ax => if ax = axis then k else e ax))) := by
  obtain ⟨h1, g1⟩ := norm_ok hx.1 hx.2
  obtain ⟨h2, g2⟩ := norm_ok hy.1 hy.2
  obtain ⟨h3, g3⟩ := norm_ok hvx.1 hvx.2
  obtain ⟨h4, g4⟩ := norm_ok hvy.1 hvy.2
  obtain ⟨p, p1, p2, p3, p4⟩ := SA.C93_polygon inside default _ _ _ _ g1.1 g2.1 g3.1 g4.1 axis B hB m hm hm0 hxa.1 hya.1
  obtain ⟨q, q1, q2, q3, q4⟩ := SA.C93_polygon inside default _ _ _ _ g1.2.1 g2.2.1 g3.2.1 g4.2.1 axis C hC n hn hn0 hxa.2 hya.2
  have hno : axisD ∉ p.axes := by
    rw [← SA.keys_shape p2, p3, SA.mem_keys_orthogonal]
    rintro ⟨h, _⟩
    have hss : ∀ u ∈ [x.nominal.shape, y.nominal.shape, vx.nominal.shape, vy.nominal.shape], Dict.WF u := by
      simp [SA.wf_shape g1.1, SA.wf_shape g2.1, SA.wf_shape g3.1, SA.wf_shape g4.1]
    obtain ⟨s, hs, h⟩ := ((C01_broadcast_shapes_ok _ hss B hB).2.1 axisD).1 h
    simp only [List.mem_cons, List.not_mem_nil, or_false] at hs
    rcases hs with rfl | rfl | rfl | rfl
    · rw [SA.keys_shape g1.1] at h; exact noD_nominal hx.1 hx.2 h
    · rw [SA.keys_shape g2.1] at h; exact noD_nominal hy.1 hy.2 h
    · rw [SA.keys_shape g3.1] at h; exact noD_nominal hvx.1 hvx.2 h
    · rw [SA.keys_shape g4.1] at h; exact noD_nominal hvy.1 hvy.2 h
  refine ⟨⟨p, q⟩, ?_, ⟨p2, q2, hno⟩, p3, q3, p4, q4⟩
  unfold pointInPolygon
  rw [h1, h2, h3, h4]
  simp only [bind, Except.bind]
  rw [p1, q1]
  exact mk?_of_valid p2 hno

/-- The parts of the variables of an expression. -/
theorem norm_all (arrays : Dict (UArg α)) (h : ∀ p ∈ arrays, Fit p.2) :
    arrays.mapM (fun p => do
      let u ← norm p.2
      .ok (p.1, u) : String × UArg α → R (String × UA α)) =
    .ok (arrays.map (fun p => (p.1, ⟨p.2.nominal, p.2.distribution⟩))) := by
  induction arrays with
  | nil => rfl
  | cons p l ih =>
    have hp := h p (by simp)
    rw [List.mapM_cons, (norm_ok hp.1 hp.2).1, ih (fun q hq => h q (by simp [hq]))]
    rfl

theorem noD_broadcast {l : List (SA α)} (hw : ∀ a ∈ l, a.WF) (hD : ∀ a ∈ l, axisD ∉ a.axes) {B : Shape}
    (hB : broadcastShapes (l.map SA.shape) = .ok B) : axisD ∉ keys B := by
  intro h
  have hss : ∀ u ∈ l.map SA.shape, Dict.WF u := by
    intro u hu
    obtain ⟨a, ha, rfl⟩ := List.mem_map.1 hu
    exact SA.wf_shape (hw a ha)
  obtain ⟨s, hs, h⟩ := ((C01_broadcast_shapes_ok _ hss B hB).2.1 axisD).1 h
  obtain ⟨a, ha, rfl⟩ := List.mem_map.1 hs
  rw [SA.keys_shape (hw a ha)] at h
  exact hD a ha h

/-- **C99** (expressions, uncertain scalars). The nominal value is the value of the expression for the nominal values of the
variables, and each sample its value for their samples. -/
theorem C99_uncertain_evaluate (ex : Dict α → β) (arrays : Dict (UArg α)) (h : ∀ p ∈ arrays, Fit p.2) (B C : Shape)
    (hB : broadcastShapes (arrays.map (fun p => p.2.nominal.shape)) = .ok B)
    (hC : broadcastShapes (arrays.map (fun p => p.2.distribution.shape)) = .ok C) :
    ∃ r, evaluate ex arrays = .ok r ∧ r.Valid ∧ r.nominal.shape = B ∧ r.distribution.shape = C ∧
      (∀ e, r.nominal.at' e = ex (arrays.map (fun p => (p.1, p.2.nominal.atB e)))) ∧
      ∀ e, r.distribution.at' e = ex (arrays.map (fun p => (p.1, p.2.distribution.atB e))) := by
  obtain ⟨p, p1, p2, p3, p4⟩ := SA.C93_evaluate ex (arrays.map (fun p => (p.1, p.2.nominal)))
    (by
      intro q hq
      obtain ⟨x, hx, rfl⟩ := List.mem_map.1 hq
      exact (norm_ok (h x hx).1 (h x hx).2).2.1) B (by rw [List.map_map]; exact hB)
  obtain ⟨q, q1, q2, q3, q4⟩ := SA.C93_evaluate ex (arrays.map (fun p => (p.1, p.2.distribution)))
    (by
      intro q hq
      obtain ⟨x, hx, rfl⟩ := List.mem_map.1 hq
      exact (norm_ok (h x hx).1 (h x hx).2).2.2.1) C (by rw [List.map_map]; exact hC)
  have hno : axisD ∉ p.axes := by
    rw [← SA.keys_shape p2, p3]
    refine noD_broadcast (l := arrays.map (fun p => p.2.nominal)) ?_ ?_ (by rw [List.map_map]; exact hB)
    · intro a ha
      obtain ⟨x, hx, rfl⟩ := List.mem_map.1 ha
      exact (norm_ok (h x hx).1 (h x hx).2).2.1
    · intro a ha
      obtain ⟨x, hx, rfl⟩ := List.mem_map.1 ha
      exact noD_nominal (h x hx).1 (h x hx).2
  refine ⟨⟨p, q⟩, ?_, ⟨p2, q2, hno⟩, p3, q3, fun e => ?_, fun e => ?_⟩
  · unfold evaluate
    rw [norm_all arrays h]
    simp only [bind, Except.bind, List.map_map, Function.comp_def]
    rw [p1, q1]
    exact mk?_of_valid p2 hno
  · have := p4 e
    rw [List.map_map] at this
    exact this
  · have := q4 e
    rw [List.map_map] at this
    exact this

/-- **C99** (filters, uncertain scalars). The nominal values are filtered with the nominal mask, and each set of samples with the
sample of the mask. The array and the mask are first broadcast separately, so that an axis of the windows may be in the nominal value
only or in the samples only. -/
theorem C99_uncertain_filter (g : List Nat → List Nat → (List Nat → α × Bool) → List Nat → β) (array : UArg α) (size : Dict Nat)
    (wh : UArg Bool) (ha : Fit array) (hw : Fit wh) (sa sw B C : Shape) (hsa : array.shape = .ok sa) (hsw : wh.shape = .ok sw)
    (hB : broadcastShapes [sa, sw] = .ok B) (hC : broadcastShapes [sampleShape array sa, sampleShape wh sw] = .ok C)
    (hsize : ∀ ax ∈ keys size, ax ∈ keys B) :
    ∃ r, ndfilter g array size wh = .ok r ∧ r.Valid ∧ r.nominal.shape = B ∧ r.distribution.shape = C ∧
      (∀ e, r.nominal.at' e = g (size.map (·.2)) (size.map (fun p => (get? B p.1).getD 0))
        (fun ks => (array.nominal.atB (putNamed e (keys size) ks), wh.nominal.atB (putNamed e (keys size) ks)))
        (size.map (fun p => e p.1))) ∧
      ∀ e, r.distribution.at' e = g (size.map (·.2)) (size.map (fun p => (get? B p.1).getD 0))
        (fun ks => (array.distribution.atB (putNamed e (keys size) ks), wh.distribution.atB (putNamed e (keys size) ks)))
        (size.map (fun p => e p.1)) := by
  obtain ⟨h1, _⟩ := norm_ok ha.1 ha.2
  obtain ⟨h2, _⟩ := norm_ok hw.1 hw.2
  obtain ⟨wa, da, fa, fa', u, u1, u2, u3, u4, u5, u6⟩ := norm_broadcasted ha.1 ha.2 hsa
  obtain ⟨ww, dw, fw, fw', v, v1, v2, v3, v4, v5, v6⟩ := norm_broadcasted hw.1 hw.2 hsw
  have hss : ∀ s ∈ [sa, sw], Dict.WF s := by simp [wa, ww]
  have hsd : ∀ s ∈ [sampleShape array sa, sampleShape wh sw], Dict.WF s := by
    simp [wf_sampleShape (x := array) wa da, wf_sampleShape (x := wh) ww dw]
  have hgood : ∀ ax, ax ≠ axisD → get? C ax = get? B ax := by
    intro ax hne
    refine get?_bs_unique hsd hss hC hB (fun n => ?_)
    simp [HasSize, get?_sampleShape da, get?_sampleShape dw, hne]
  obtain ⟨p, p1, p2, p3, p4⟩ := SA.C93_filter g u.nominal size v.nominal u2.1 v2.1 B (by rw [u3, v3]; exact hB) hsize
  have hno : axisD ∉ keys B := by
    intro h
    obtain ⟨s, hs, h⟩ := ((C01_broadcast_shapes_ok _ hss B hB).2.1 axisD).1 h
    simp only [List.mem_cons, List.not_mem_nil, or_false] at hs
    rcases hs with rfl | rfl
    · exact da h
    · exact dw h
  have hne : ∀ ax ∈ keys size, ax ≠ axisD := fun ax hax h => hno (h ▸ hsize ax hax)
  have hsizeC : ∀ ax ∈ keys size, ax ∈ keys C := by
    intro ax hax
    rw [← get?_isSome, hgood ax (hne ax hax), get?_isSome]
    exact hsize ax hax
  obtain ⟨q, q1, q2, q3, q4⟩ := SA.C93_filter g u.distribution size v.distribution u2.2.1 v2.2.1 C (by rw [u4, v4]; exact hC) hsizeC
  have hnoD : axisD ∉ p.axes := by rw [← SA.keys_shape p2, p3]; exact hno
  have b1 := Comp.atB_of_broadcast (norm_ok ha.1 ha.2).2.1 (by rw [u3]; exact fa) u5
  have b2 := Comp.atB_of_broadcast (norm_ok ha.1 ha.2).2.2.1 (by rw [u4]; exact fa') u6
  have b3 := Comp.atB_of_broadcast (norm_ok hw.1 hw.2).2.1 (by rw [v3]; exact fw) v5
  have b4 := Comp.atB_of_broadcast (norm_ok hw.1 hw.2).2.2.1 (by rw [v4]; exact fw') v6
  refine ⟨⟨p, q⟩, ?_, ⟨p2, q2, hnoD⟩, p3, q3, fun e => ?_, fun e => ?_⟩
  · unfold ndfilter
    rw [h1, h2]
    simp only [bind, Except.bind]
    rw [u1]
    simp only
    rw [v1]
    simp only
    rw [p1]
    simp only
    rw [q1]
    exact mk?_of_valid p2 hnoD
  · have := p4 e
    simp only [b1, b3] at this
    exact this
  · have := q4 e
    simp only [b2, b4] at this
    rw [show size.map (fun p => (get? C p.1).getD 0) = size.map (fun p => (get? B p.1).getD 0) from
      List.map_congr_left (fun p hp => by rw [hgood p.1 (hne p.1 (List.mem_map_of_mem hp))])] at this
    exact this

/-- The nominal part of an optional argument, and its samples. -/
theorem normOpt_fit {x : Option (UArg α)} (h : ∀ a, x = some a → Fit a) :
    ∃ y, normOpt x = .ok y ∧ y.map UA.nominal = x.map UArg.nominal ∧ y.map UA.distribution = x.map UArg.distribution := by
  cases x with
  | none => exact ⟨none, rfl, rfl, rfl⟩
  | some a =>
    refine ⟨some ⟨a.nominal, a.distribution⟩, ?_, rfl, rfl⟩
    show (do let u ← norm a; .ok (some u) : R (Option (UA α))) = _
    rw [(norm_ok (h a rfl).1 (h a rfl).2).1]
    rfl

/-- **C99** (cosmic rays, uncertain scalars). `na.despike` succeeds exactly if it does for the nominal values of all the arguments and
for their samples, and returns these two results (see C93 for the scalars). -/
theorem C99_uncertain_despike (clean : ND α → Option (ND Bool) → Option (ND α) → Option (ND α) → Option (ND α) → R (ND α))
    (array : UArg α) (axis : List String) (wh : Option (UArg Bool)) (inbkg invar psfk : Option (UArg α)) (ha : Fit array)
    (hw : ∀ a, wh = some a → Fit a) (hb : ∀ a, inbkg = some a → Fit a) (hv : ∀ a, invar = some a → Fit a)
    (hk : ∀ a, psfk = some a → Fit a) (r : UA α) :
    despike clean array axis wh inbkg invar psfk = .ok r ↔
      SA.despike clean array.nominal axis (wh.map UArg.nominal) (inbkg.map UArg.nominal) (invar.map UArg.nominal)
        (psfk.map UArg.nominal) = .ok r.nominal ∧
      SA.despike clean array.distribution axis (wh.map UArg.distribution) (inbkg.map UArg.distribution)
        (invar.map UArg.distribution) (psfk.map UArg.distribution) = .ok r.distribution := by
  obtain ⟨w, w1, w2, w3⟩ := normOpt_fit hw
  obtain ⟨b, b1, b2, b3⟩ := normOpt_fit hb
  obtain ⟨v, v1, v2, v3⟩ := normOpt_fit hv
  obtain ⟨k, k1, k2, k3⟩ := normOpt_fit hk
  rw [← w2, ← w3, ← b2, ← b3, ← v2, ← v3, ← k2, ← k3]
  unfold despike
  rw [(norm_ok ha.1 ha.2).1]
  simp only [bind, Except.bind]
  rw [w1, b1, v1, k1]
  simp only
  cases h1 : SA.despike clean array.nominal axis (w.map UA.nominal) (b.map UA.nominal) (v.map UA.nominal) (k.map UA.nominal) with
  | error e => simp
  | ok n =>
    simp only
    cases h2 : SA.despike clean array.distribution axis (w.map UA.distribution) (b.map UA.distribution) (v.map UA.distribution)
      (k.map UA.distribution) with
    | error e => simp
    | ok d =>
      obtain ⟨rn, rd⟩ := r
      simp

/-- **C99** (a plain argument with the axis of the samples). All four functions raise a `ValueError`. -/
theorem C99_uncertain_reserved (inside : α → α → List α → List α → Bool) (default : α) (x y vx vy : UArg α) (axis : String)
    (hx : x.Ok) (hr : x.Reserved) (g : List Nat → List Nat → (List Nat → α × Bool) → List Nat → β) (size : Dict Nat)
    (wh : UArg Bool) (clean : ND α → Option (ND Bool) → Option (ND α) → Option (ND α) → Option (ND α) → R (ND α))
    (ax : List String) (wh' : Option (UArg Bool)) (inbkg invar psfk : Option (UArg α)) (ex : Dict α → β) (name : String)
    (rest : Dict (UArg α)) :
    pointInPolygon inside default x y vx vy axis = .error .valueError ∧ ndfilter g x size wh = .error .valueError ∧
    despike clean x ax wh' inbkg invar psfk = .error .valueError ∧ evaluate ex ((name, x) :: rest) = .error .valueError := by
  refine ⟨?_, ?_, ?_, ?_⟩
  · unfold pointInPolygon; rw [norm_error hx hr]; rfl
  · unfold ndfilter; rw [norm_error hx hr]; rfl
  · unfold despike; rw [norm_error hx hr]; rfl
  · unfold evaluate; rw [List.mapM_cons, norm_error hx hr]; rfl

/-! ### A case which fails -/

/-- A point with two samples, and a polygon whose nominal vertices are the same point, but whose samples are not. -/
def exCloud : UA Int := ⟨SA.scalar 1, ⟨[axisD], ND.vec [1, 9]⟩⟩
def exPolygon : UA Int := ⟨SA.scalar 0, ⟨["v"], ND.vec [0, 2, 2, 0]⟩⟩

theorem valid_exCloud : exCloud.Valid := ⟨⟨rfl, by decide⟩, ⟨rfl, by decide⟩, by decide⟩
theorem valid_exPolygon : exPolygon.Valid := ⟨⟨rfl, by decide⟩, ⟨rfl, by decide⟩, by decide⟩

/-- **C99** (points in polygons, refuted). An uncertain scalar has the axes of its nominal value and of its samples, but the vertices
must have `axis` in both: a polygon with an axis of vertices in the samples only, with enough vertices, raises a `KeyError`. (The
filters broadcast both parts first, and other functions as well.) -/
theorem C99_uncertain_polygon_refuted : ¬ ∀ (inside : Int → Int → List Int → List Int → Bool) (x y vx vy : UArg Int) (axis : String)
    (S : Shape), Fit x → Fit y → Fit vx → Fit vy → axis ≠ axisD → vx.shape = .ok S → axis ∈ keys S →
      (∀ n, get? S axis = some n → n ≠ 0) → vy.shape = .ok S → x.shape = .ok [] → y.shape = .ok [] →
      ∃ r, pointInPolygon inside 0 x y vx vy axis = .ok r := by
  intro h
  have hP : Fit (.unc exPolygon) := ⟨valid_exPolygon, fun h => h⟩
  have hC : Fit (.unc exCloud) := ⟨valid_exCloud, fun h => h⟩
  obtain ⟨r, hr⟩ := h SA.exInside (.unc exCloud) (.unc exCloud) (.unc exPolygon) (.unc exPolygon) "v" [("v", 4)] hC hC hP hP
    (by decide) (by decide) (by decide) (by decide) (by decide) (by decide) (by decide)
  have he : (pointInPolygon SA.exInside 0 (.unc exCloud) (.unc exCloud) (.unc exPolygon) (.unc exPolygon) "v").map
      (fun r => r.nominal.shape) = .error .keyError := by decide +kernel
  rw [hr] at he
  cases he

end UA

namespace Comp
variable {α β γ δ ρ : Type}

/-! ### Vectors -/

/-- The scalars which stand for the variables of an expression at a path. -/
def VariablesAt (arrays : Dict (Comp γ)) (path : List String) (as : Dict γ) : Prop :=
  List.Forall₂ (fun (v : String × Comp γ) (a : String × γ) => a.1 = v.1 ∧ v.2.leafB path = some a.2) arrays as

theorem at_zip {arrays : Dict (Comp γ)} {path : List String} {as : List γ} (h : At arrays.values path as) :
    VariablesAt arrays path (arrays.keys.zip as) := by
  induction arrays generalizing as with
  | nil => cases h; exact .nil
  | cons v l ih =>
    cases h with
    | cons h1 h2 => exact .cons ⟨rfl, h1⟩ (ih h2)

theorem variablesAt_unique {arrays : Dict (Comp γ)} {path : List String} {as bs : Dict γ} (h : VariablesAt arrays path as)
    (h' : VariablesAt arrays path bs) : as = bs := by
  induction h generalizing bs with
  | nil => cases h'; rfl
  | @cons v a l l' h1 _ ih =>
    cases h' with
    | @cons _ b _ _ g1 g2 =>
      rw [ih g2]
      congr 1
      refine Prod.ext (h1.1.trans g1.1.symm) ?_
      have := h1.2.symm.trans g1.2
      injection this

theorem variablesAt_mem {arrays : Dict (Comp γ)} {path : List String} {as : Dict γ} (h : VariablesAt arrays path as) {a : String × γ}
    (ha : a ∈ as) : ∃ v ∈ arrays, v.2.leafB path = some a.2 := by
  induction h with
  | nil => cases ha
  | @cons v b l l' h1 _ ih =>
    rcases List.mem_cons.1 ha with rfl | ha
    · exact ⟨v, by simp, h1.2⟩
    · obtain ⟨w, hw, h⟩ := ih ha
      exact ⟨w, by simp [hw], h⟩

/-- **C99** (expressions, vectors). The variables are vectors which are structured like `P`, or scalars standing for all the
components inside. The result is structured like `P`; its component at every path is the value of the expression for the components of
the variables at this path, each under its own name. If those do not broadcast at some path, a `ValueError` is raised. -/
theorem C99_vector_evaluate (ex : Dict α → β) (P : Comp ρ) (hD : P.Dicts) (arrays : Dict (Comp (SA α)))
    (hw : ∀ v ∈ arrays, v.2.WFLeaves) (hA : ∀ v ∈ arrays, P.Along v.2) (hex : ∃ v ∈ arrays, P.Similar v.2) :
    (∃ r, evaluate ex arrays = .ok r ∧ P.Similar r ∧ ∀ p, (P.leafAt p).isSome → ∃ b as s, r.leafAt p = some b ∧
        VariablesAt arrays p as ∧ broadcastShapes (as.map (fun a => a.2.shape)) = .ok s ∧ b.WF ∧ b.shape = s ∧
        ∀ e, b.at' e = ex (as.map (fun a => (a.1, a.2.atB e)))) ∨
    ((∃ p as, (P.leafAt p).isSome ∧ VariablesAt arrays p as ∧ Clash (as.map (fun a => a.2.shape))) ∧
      evaluate ex arrays = .error .valueError) := by
  have hm : ∀ c ∈ arrays.values, ∃ v ∈ arrays, v.2 = c := fun c hc => by
    simpa [values] using hc
  obtain ⟨h1, h2⟩ := nary_plain (op := fun as => SA.evaluate ex (arrays.keys.zip as)) P hD arrays.values
    (fun c hc => by obtain ⟨v, hv, rfl⟩ := hm c hc; exact hA v hv)
    (by obtain ⟨v, hv, h⟩ := hex; exact ⟨v.2, List.mem_map_of_mem hv, h⟩)
  have hwf : ∀ p as, VariablesAt arrays p as → ∀ a ∈ as, a.2.WF := by
    intro p as h a ha
    obtain ⟨v, hv, h⟩ := variablesAt_mem h ha
    exact hw v hv _ (leafB_mem_leaves _ _ _ h)
  have hop : ∀ p as, VariablesAt arrays p as →
      (∃ s b, broadcastShapes (as.map (fun a => a.2.shape)) = .ok s ∧ SA.evaluate ex as = .ok b ∧ b.WF ∧ b.shape = s ∧
        ∀ e, b.at' e = ex (as.map (fun a => (a.1, a.2.atB e)))) ∨
      (Clash (as.map (fun a => a.2.shape)) ∧ SA.evaluate ex as = .error .valueError) := by
    intro p as h
    have hw' := hwf p as h
    cases hB : broadcastShapes (as.map (fun a => a.2.shape)) with
    | ok B =>
      obtain ⟨b, b1, b2, b3, b4⟩ := SA.C93_evaluate ex as hw' B hB
      exact Or.inl ⟨B, b, rfl, b1, b2, b3, b4⟩
    | error e =>
      have hc : Clash (as.map (fun a => a.2.shape)) := by
        refine (C01_broadcast_shapes_error_iff _ ?_).1 ⟨e, hB⟩
        intro u hu
        obtain ⟨a, ha, rfl⟩ := List.mem_map.1 hu
        exact SA.wf_shape (hw' a ha)
      exact Or.inr ⟨hc, SA.C93_evaluate_error ex as hw' hc⟩
  by_cases hcl : ∃ p as, (P.leafAt p).isSome ∧ VariablesAt arrays p as ∧ Clash (as.map (fun a => a.2.shape))
  · right
    refine ⟨hcl, ?_⟩
    obtain ⟨p, as, hp, has, hcl⟩ := hcl
    refine h2 .valueError (fun p as hp h => ?_) ⟨p, hp, fun as' h => ?_⟩
    · rcases hop p _ (at_zip h) with ⟨s, b, _, hb, _⟩ | ⟨_, hb⟩
      · exact Or.inl ⟨b, hb⟩
      · exact Or.inr hb
    · rw [variablesAt_unique (at_zip h) has]
      exact SA.C93_evaluate_error ex as (hwf p as has) hcl
  · left
    obtain ⟨r, r1, r2, r3⟩ := h1 (fun p as hp h => by
      rcases hop p _ (at_zip h) with ⟨s, b, _, hb, _⟩ | ⟨hc, _⟩
      · exact ⟨b, hb⟩
      · exact absurd ⟨p, _, hp, at_zip h, hc⟩ hcl)
    refine ⟨r, r1, r2, fun p hp => ?_⟩
    obtain ⟨b, as, hb, has, hev⟩ := r3 p hp
    rcases hop p _ (at_zip has) with ⟨s, b', hs, hb', w1, w2, w3⟩ | ⟨hc, _⟩
    · obtain rfl : b' = b := by
        have : (Except.ok b' : NA.R _) = .ok b := hb'.symm.trans hev
        injection this
      exact ⟨b', _, s, hb, at_zip has, hs, w1, w2, w3⟩
    · exact absurd ⟨p, _, hp, at_zip has, hc⟩ hcl

theorem shape_of_lift : ∀ (x : Comp (SA α)) (y : Comp (SA β)), x.Lift (fun a b => b.shape = a.shape) y → y.shape = x.shape := by
  refine ind ?_ ?_
  · rintro a (b | _) h
    · simp only [Lift] at h
      simp only [shape, h]
    · simp [Lift] at h
  · rintro cls cs ih (_ | ⟨cls', cs'⟩) h
    · simp [Lift] at h
    · simp only [Lift, liftL_iff] at h
      have hs : shapes cs' = shapes cs := by
        obtain ⟨_, h⟩ := h
        clear * - h ih
        induction h with
        | nil => rfl
        | @cons p q l m h1 _ ihl =>
          obtain ⟨k, c⟩ := p
          obtain ⟨k', c'⟩ := q
          simp only [shapes]
          rw [ih (k, c) (by simp) _ h1.2, ihl (fun q hq => ih q (by simp [hq]))]
      simp only [shape]
      rw [hs]

/-- **C99** (filters, vectors). The array and the mask are vectors which are structured like `P`, or scalars standing for all the
components inside. Every component is filtered with the component of the mask at the same path, after both vectors were broadcast to
their shapes. -/
theorem C99_vector_filter (g : List Nat → List Nat → (List Nat → α × Bool) → List Nat → β) (default : α) (P : Comp ρ) (hD : P.Dicts)
    (array : Comp (SA α)) (size : Dict Nat) (wh : Comp (SA Bool)) (S T B : Shape) (ha : array.Fine S) (hw : wh.Fine T)
    (haA : P.Along array) (hwA : P.Along wh) (hex : P.Similar array ∨ P.Similar wh) (hB : broadcastShapes [S, T] = .ok B)
    (hsize : ∀ ax ∈ keys size, ax ∈ keys B) :
    ∃ r, ndfilter g default array size wh = .ok r ∧ P.Similar r ∧ ∀ p, (P.leafAt p).isSome → ∃ b a w, r.leafAt p = some b ∧
      array.leafB p = some a ∧ wh.leafB p = some w ∧ b.WF ∧ b.shape = B ∧
      ∀ e, b.at' e = g (size.map (·.2)) (size.map (fun p => (get? B p.1).getD 0))
        (fun ks => (a.atB (putNamed e (keys size) ks), w.atB (putNamed e (keys size) ks))) (size.map (fun p => e p.1)) := by
  have hm : ∀ {γ : Type} (f : γ → α ⊕ Bool) (v : Comp (SA γ)) (S : Shape), v.Fine S → ∃ v',
      v.mapM (fun x => .ok (⟨x.axes, x.nd.map f⟩ : SA (α ⊕ Bool))) = .ok v' ∧
      v.Lift (fun a b => b = ⟨a.axes, a.nd.map f⟩) v' ∧ InvS S v' := by
    intro γ f v S hv
    obtain ⟨v', hv'⟩ := mapM_isOk' (fun x : SA γ => (.ok (⟨x.axes, x.nd.map f⟩ : SA (α ⊕ Bool)) : NA.R _)) v (fun a _ => ⟨_, rfl⟩)
    have hl : v.Lift (fun a b => b = (⟨a.axes, a.nd.map f⟩ : SA (α ⊕ Bool))) v' := lift_mono (fun a b h => by
      injection h with h
      exact h.symm) _ _ ((mapM_lift _ v v').1 hv')
    refine ⟨v', hv', hl, ?_, lift_full _ _ hl hv.full, ?_⟩
    · intro b hb
      obtain ⟨a, ha, rfl⟩ := lift_mem_leaves hl hb
      exact hv.wf a ha
    · rw [shape_of_lift _ _ (lift_mono (fun a b h => by rw [h]; rfl) _ _ hl)]
      exact hv.shape
  obtain ⟨a2, ha2, hal, hai⟩ := hm (Sum.inl : α → α ⊕ Bool) array S ha
  obtain ⟨w2, hw2, hwl, hwi⟩ := hm (Sum.inr : Bool → α ⊕ Bool) wh T hw
  have hd : P.depth ≤ maxDepth [a2, w2] := by
    rcases hex with h | h
    · rw [similar_depth (similar_lift h hal)]
      exact maxDepth_ge (by simp)
    · rw [similar_depth (similar_lift h hwl)]
      exact maxDepth_ge (by simp)
  have key : ∀ p (qs : List (SA (α ⊕ Bool) × SA (α ⊕ Bool))),
      List.Forall₂ (fun (x : Shape × Comp (SA (α ⊕ Bool))) q => x.2.leafB p = some q.1 ∧ RelS x.1 q.1 q.2) [(S, a2), (T, w2)] qs →
      ∃ a w b, array.leafB p = some a ∧ wh.leafB p = some w ∧ filterScalars g default size (qs.map Prod.snd) = .ok b ∧ b.WF ∧
        b.shape = B ∧ ∀ e, b.at' e = g (size.map (·.2)) (size.map (fun p => (get? B p.1).getD 0))
        (fun ks => (a.atB (putNamed e (keys size) ks), w.atB (putNamed e (keys size) ks))) (size.map (fun p => e p.1)) := by
    intro p qs h
    cases h with
    | @cons _ q1 _ _ g1 h =>
      cases h with
      | @cons _ q2 _ _ g2 h =>
        cases h
        obtain ⟨a, e1, e2⟩ := lift_leafB hal p _ g1.1
        obtain ⟨w, e3, e4⟩ := lift_leafB hwl p _ g2.1
        obtain ⟨r1, r2, r3⟩ := g1.2
        obtain ⟨t1, t2, t3⟩ := g2.2
        obtain ⟨b, b1, b2, b3, b4⟩ := SA.C93_filter g ⟨q1.2.axes, q1.2.nd.map (Sum.elim id (fun _ => default))⟩ size
          ⟨q2.2.axes, q2.2.nd.map (Sum.elim (fun _ => false) id)⟩ r1 t1 B (by
            have r2' : q1.2.shape = S := r2
            have t2' : q2.2.shape = T := t2
            rw [← hB, ← r2', ← t2']; rfl) hsize
        refine ⟨a, w, b, e1, e3, b1, b2, b3, fun e => ?_⟩
        rw [b4 e]
        congr 1
        funext ks
        refine Prod.ext ?_ ?_
        · show Sum.elim id (fun _ => default) (q1.2.atB _) = _
          rw [r3, e2]
          rfl
        · show Sum.elim (fun _ => false) id (q2.2.atB _) = _
          rw [t3, e4]
          rfl
  obtain ⟨r, r1, r2, r3⟩ := naryAux_ok (ι := Shape) broadcasted (filterScalars g default size) InvS RelS (fun S a h => relS_refl a h)
    (fun S a b c => relS_trans a b c) (fun S c h => broadcasted_ok c h) (maxDepth [a2, w2]) P hd hD [(S, a2), (T, w2)]
    (by simp [hai, hwi]) (by
      intro x hx
      simp only [List.mem_cons, List.not_mem_nil, or_false] at hx
      rcases hx with rfl | rfl
      · exact along_lift P array _ haA hal
      · exact along_lift P wh _ hwA hwl)
    (by
      rcases hex with h | h
      · exact ⟨(S, a2), by simp, similar_lift h hal⟩
      · exact ⟨(T, w2), by simp, similar_lift h hwl⟩)
    (fun p qs hp h => by
      obtain ⟨_, _, b, _, _, hb, _⟩ := key p qs h
      exact ⟨b, hb⟩)
  refine ⟨r, ?_, r2, fun p hp => ?_⟩
  · unfold ndfilter
    rw [ha2]
    simp only [bind, Except.bind]
    rw [hw2]
    exact r1
  · obtain ⟨b, qs, hb, hqs, hop⟩ := r3 p hp
    obtain ⟨a, w, b', h1, h2, h3, h4⟩ := key p qs hqs
    obtain rfl : b' = b := by
      have : (Except.ok b' : NA.R _) = .ok b := h3.symm.trans hop
      injection this
    exact ⟨b', a, w, hb, h1, h2, h4⟩

end Comp

namespace FA
variable {α β γ : Type}

/-! ### Functions -/

/-- **C99** (filters, functions). With a boolean, or with a mask which is a function with the same inputs (at least one), the outputs
are filtered and the inputs are kept. The full statement would also have an error for every mask with other inputs, which is false
(see `C99_function_filter_refuted`). -/
theorem C99_function_filter_partial (ne : α → α → Bool) (g : List Nat → List Nat → (List Nat → β × Bool) → List Nat → γ) (f : FA α β)
    (size : Dict Nat) (mask : FilterMask α) (w : SA Bool) (hfi : f.inputs.WF) (hf : f.outputs.WF) (hw : w.WF)
    (hmask : (∃ b, mask = .bool b ∧ w = SA.scalar b) ∨
      ∃ m, mask = .func m ∧ w = m.outputs ∧ m.inputs.WF ∧ Agree ne m.inputs f.inputs ∧
        ∀ S, broadcastShapes [m.inputs.shape, f.inputs.shape] = .ok S → ∃ e, InRange S e)
    (B : Shape) (hB : broadcastShapes [f.outputs.shape, w.shape] = .ok B) (hsize : ∀ ax ∈ keys size, ax ∈ keys B) :
    ∃ r, ndfilter ne g f size mask = .ok r ∧ r.inputs = f.inputs ∧ r.outputs.WF ∧ r.outputs.shape = B ∧
      ∀ e, r.outputs.at' e = g (size.map (·.2)) (size.map (fun p => (get? B p.1).getD 0))
        (fun ks => (f.outputs.atB (putNamed e (keys size) ks), w.atB (putNamed e (keys size) ks))) (size.map (fun p => e p.1)) := by
  obtain ⟨o, o1, o2, o3, o4⟩ := SA.C93_filter g f.outputs size w hf hw B hB hsize
  refine ⟨⟨f.inputs, o⟩, ?_, rfl, o2, o3, o4⟩
  rcases hmask with ⟨b, rfl, rfl⟩ | ⟨m, rfl, rfl, hm, ⟨S, hS, hag⟩, hne⟩
  · show (do let o ← SA.ndfilter g f.outputs size (SA.scalar b); .ok ⟨f.inputs, o⟩ : R (FA α γ)) = _
    rw [o1]
    rfl
  · have hd : differAll ne m.inputs f.inputs = .ok false := by
      unfold differAll
      obtain ⟨e, he⟩ := hne S hS
      rcases equalAll_main ne m.inputs f.inputs hm hfi with ⟨⟨S', hS', h⟩, _⟩ | ⟨_, h | h⟩
      · rw [hS] at hS'
        injection hS' with hS'
        have := h e (hS' ▸ he)
        rw [hag e he] at this
        cases this
      · exact h
      · exfalso
        have hu : ∃ d, SA.ufunc2 ne m.inputs f.inputs = .ok d := by
          cases hd : SA.ufunc2 ne m.inputs f.inputs with
          | ok d => exact ⟨d, rfl⟩
          | error e => have := SA.ufunc2_error hm hfi hd; rw [hS] at this; cases this
        obtain ⟨d, hd⟩ := hu
        obtain ⟨d1, _, _⟩ := SA.ufunc2_ok hm hfi hd
        obtain ⟨r, r1, _⟩ := reduce_all d d1
        unfold equalAll at h
        rw [hd] at h
        simp only [bind, Except.bind] at h
        rw [r1] at h
        cases h
    unfold ndfilter
    simp only [bind, Except.bind]
    rw [hd]
    simp only [Bool.false_eq_true, if_false]
    rw [o1]

/-- **C99** (filters, functions with other inputs). If the inputs of the mask differ from those of the array at every index, or the
inputs do not broadcast, a `ValueError` is raised. -/
theorem C99_function_filter_error (ne : α → α → Bool) (g : List Nat → List Nat → (List Nat → β × Bool) → List Nat → γ) (f : FA α β)
    (size : Dict Nat) (m : FA α Bool) (hf : f.inputs.WF) (hm : m.inputs.WF)
    (h : Clash [m.inputs.shape, f.inputs.shape] ∨ ∀ S, broadcastShapes [m.inputs.shape, f.inputs.shape] = .ok S →
      ∀ e, InRange S e → ne (m.inputs.atB e) (f.inputs.atB e) = true) :
    ndfilter ne g f size (.func m) = .error .valueError := by
  have hww : ∀ s ∈ [m.inputs.shape, f.inputs.shape], WF s := by simp [SA.wf_shape hm, SA.wf_shape hf]
  have hd : differAll ne m.inputs f.inputs = .ok true ∨ differAll ne m.inputs f.inputs = .error .valueError := by
    cases hS : broadcastShapes [m.inputs.shape, f.inputs.shape] with
    | error e =>
      right
      unfold differAll equalAll
      have : SA.ufunc2 ne m.inputs f.inputs = .error .valueError := by
        cases hd : SA.ufunc2 ne m.inputs f.inputs with
        | ok d =>
          have := (SA.ufunc2_ok hm hf hd).2.1
          rw [hS] at this
          cases this
        | error e' => rw [C01_broadcast_shapes_error_kind _ hww e' (SA.ufunc2_error hm hf hd)]
      rw [this]
      rfl
    | ok S =>
      left
      rcases h with h | h
      · rw [SA.bs_clash hww h] at hS
        cases hS
      · rcases equalAll_main ne m.inputs f.inputs hm hf with ⟨_, h'⟩ | ⟨h', _⟩
        · exact h'
        · exact absurd ⟨S, hS, h S hS⟩ h'
  unfold ndfilter
  simp only [bind, Except.bind]
  rcases hd with hd | hd
  · rw [hd]; rfl
  · rw [hd]

/-- A spectrum on three wavelengths, and a mask whose last wavelength is another one. -/
def exLight : FA Int Int := ⟨⟨["w"], ND.vec [1, 2, 3]⟩, ⟨["w"], ND.vec [5, 3, 4]⟩⟩
def exOther : FA Int Bool := ⟨⟨["w"], ND.vec [1, 2, 9]⟩, ⟨["w"], ND.vec [true, false, true]⟩⟩
def exNever : FA Int Bool := ⟨⟨["w"], ND.vec [7, 8, 9]⟩, ⟨["w"], ND.vec [true, false, true]⟩⟩
def exAlways : FA Int Bool := ⟨⟨["w"], ND.vec [1, 2, 3]⟩, ⟨["w"], ND.vec [true, false, true]⟩⟩

/-- **C99** (filters, refuted). A mask whose inputs differ from those of the array is accepted, unless they differ everywhere. -/
theorem C99_function_filter_refuted : ¬ ∀ (g : List Nat → List Nat → (List Nat → Int × Bool) → List Nat → Int) (f : FA Int Int)
    (m : FA Int Bool) (size : Dict Nat), f.inputs.WF → f.outputs.WF → m.inputs.WF → m.outputs.WF →
      Differ (fun a b => decide (a ≠ b)) m.inputs f.inputs →
      ndfilter (fun a b => decide (a ≠ b)) g f size (.func m) = .error .valueError := by
  intro h
  have h1 := h SA.exFilter exLight exOther [("w", 3)] ⟨rfl, by decide⟩ ⟨rfl, by decide⟩ ⟨rfl, by decide⟩ ⟨rfl, by decide⟩
    ⟨[("w", 3)], by decide, fun _ => 2, by
      intro ax n hn
      have : n = 3 := by
        rw [get?_cons] at hn
        split at hn
        · injection hn with hn; exact hn.symm
        · cases hn
      subst this; exact (by decide : 2 < 3), by decide⟩
  have h2 : (ndfilter (fun a b => decide (a ≠ b)) SA.exFilter exLight [("w", 3)] (.func exOther)).map (fun r => r.outputs.nd.toList)
      = .ok [5, 4, 4] := by decide +kernel
  rw [h1] at h2
  cases h2

/-- An image without pixels. -/
def exNone : FA Int Int := ⟨⟨["w"], ND.vec []⟩, ⟨["w"], ND.vec []⟩⟩

/-- **C99** (filters, refuted for empty arrays). A mask with the same inputs as the array is refused if the array is empty. -/
theorem C99_function_filter_empty_refuted : ¬ ∀ (g : List Nat → List Nat → (List Nat → Int × Bool) → List Nat → Int) (f : FA Int Int)
    (m : FA Int Bool) (size : Dict Nat), f.inputs.WF → f.outputs.WF → m.outputs.WF → m.inputs = f.inputs →
      (∀ ax ∈ keys size, ax ∈ f.outputs.axes) → m.outputs.shape = f.outputs.shape →
      ∃ r, ndfilter (fun a b => decide (a ≠ b)) g f size (.func m) = .ok r := by
  intro h
  obtain ⟨r, hr⟩ := h SA.exFilter exNone ⟨exNone.inputs, ⟨["w"], ND.vec []⟩⟩ [("w", 3)] ⟨rfl, by decide⟩ ⟨rfl, by decide⟩ ⟨rfl, by decide⟩
    rfl (by decide) rfl
  have h2 : (ndfilter (fun a b => decide (a ≠ b)) SA.exFilter exNone [("w", 3)] (.func ⟨exNone.inputs, ⟨["w"], ND.vec []⟩⟩)).map
      (fun r => r.outputs.nd.toList) = .error .valueError := by decide +kernel
  rw [hr] at h2
  cases h2

/-- **C99** (cosmic rays, functions). If the array is a function, its outputs are cleaned, using the outputs of the other arguments which
are functions, and its inputs are kept. The full statement would have the same for a plain array with a mask which is a function, which
is false (see `C99_function_despike_refuted`). -/
theorem C99_function_despike_partial (clean : ND β → Option (ND Bool) → Option (ND β) → Option (ND β) → Option (ND β) → R (ND β))
    (f : FA α β) (axis : List String) (wh : Option (Arg α Bool)) (inbkg invar : Option (Arg α β)) (psfk : Option (SA β)) :
    (∀ r, despike clean (.func f) axis wh inbkg invar psfk = .ok r ↔ ∃ o, r = .func ⟨f.inputs, o⟩ ∧
      SA.despike clean f.outputs axis (wh.map Arg.outputs) (inbkg.map Arg.outputs) (invar.map Arg.outputs) psfk = .ok o) ∧
    ∀ (a : SA β) (w : Option (SA Bool)) (b v : Option (SA β)) (r : Arg α β),
      despike clean (.plain a) axis (w.map Arg.plain) (b.map Arg.plain) (v.map Arg.plain) psfk = .ok r ↔
      ∃ o, r = .plain o ∧ SA.despike clean a axis w b v psfk = .ok o := by
  constructor
  · intro r
    have : despike clean (.func f) axis wh inbkg invar psfk = despikeFunction clean (.func f) axis wh inbkg invar psfk := by
      unfold despike
      rw [if_pos (by simp [isFunction])]
    rw [this]
    unfold despikeFunction
    show (do
      let o ← SA.despike clean f.outputs axis (wh.map Arg.outputs) (inbkg.map Arg.outputs) (invar.map Arg.outputs) psfk
      .ok (.func ⟨f.inputs, o⟩) : R (Arg α β)) = .ok r ↔ _
    cases SA.despike clean f.outputs axis (wh.map Arg.outputs) (inbkg.map Arg.outputs) (invar.map Arg.outputs) psfk with
    | error e => simp [bind, Except.bind]
    | ok o => simp [bind, Except.bind, eq_comm]
  · intro a w b v r
    have hp : ∀ {δ : Type} (x : Option (SA δ)), (x.map (Arg.plain (α := α))).map Arg.outputs = x := by
      intro δ x; cases x <;> rfl
    have hi : ∀ {δ : Type} (x : Option (SA δ)), isFunction (x.map (Arg.plain (α := α))) = false := by
      intro δ x; cases x <;> rfl
    unfold despike
    rw [hi, hi, hi, hp, hp, hp]
    rw [if_neg (by simp [isFunction])]
    show (do
      let r ← SA.despike clean a axis w b v psfk
      .ok (.plain r) : R (Arg α β)) = .ok r ↔ _
    cases SA.despike clean a axis w b v psfk with
    | error e => simp [bind, Except.bind]
    | ok o => simp [bind, Except.bind, eq_comm]

/-- A mask of an image as a function of the position. -/
def exFine : FA Int Bool := ⟨⟨["x"], ND.vec [10, 20]⟩, ⟨["x"], ND.vec [true, true]⟩⟩

/-- **C99** (cosmic rays, refuted). A plain array with a mask which is a function is not cleaned: the array is returned as it is. -/
theorem C99_function_despike_refuted : ¬ ∀ (clean : ND Int → Option (ND Bool) → Option (ND Int) → Option (ND Int) → Option (ND Int) →
      R (ND Int)) (a o r : SA Int) (m : FA Int Bool), a.WF → m.inputs.WF → m.outputs.WF →
      SA.despike clean a ["x", "y"] (some m.outputs) none none none = .ok o →
      despike clean (.plain a) ["x", "y"] (some (.func m)) none none none = .ok (.plain r) → SA.SameByName o r := by
  intro h
  have h1 : (SA.despike SA.exRows (SA.exKernel ["x", "y"]) ["x", "y"] (some exFine.outputs) none none none).map
      (fun r => (r.shape, r.at' (fun _ => 0))) = .ok ([("x", 2), ("y", 2)], 2) := by decide +kernel
  have h2 : ∀ o, SA.despike SA.exRows (SA.exKernel ["x", "y"]) ["x", "y"] (some exFine.outputs) none none none = .ok o →
      despike (α := Int) SA.exRows (.plain (SA.exKernel ["x", "y"])) ["x", "y"] (some (.func exFine)) none none none
        = .ok (.plain (SA.exKernel ["x", "y"])) := by
    intro o ho
    show (do
      let _ ← SA.despike SA.exRows (SA.exKernel ["x", "y"]) ["x", "y"] (some exFine.outputs) none none none
      .ok (.plain (SA.exKernel ["x", "y"])) : R (Arg Int Int)) = _
    rw [ho]
    rfl
  cases ho : SA.despike SA.exRows (SA.exKernel ["x", "y"]) ["x", "y"] (some exFine.outputs) none none none with
  | error e => rw [ho] at h1; cases h1
  | ok o =>
    have := h SA.exRows _ o _ exFine SA.wf_exKernel.1 ⟨rfl, by decide⟩ ⟨rfl, by decide⟩ ho (h2 o ho)
    rw [ho] at h1
    injection h1 with h1
    have h3 := this.2 (fun _ => 0) (by
      intro ax n hn
      rw [(Prod.mk.inj h1).1] at hn
      simp only [get?_cons, get?_nil] at hn
      split at hn
      · injection hn with hn; show 0 < n; omega
      · split at hn
        · injection hn with hn; show 0 < n; omega
        · cases hn)
    rw [(Prod.mk.inj h1).2] at h3
    exact absurd h3 (by decide)

end FA
end NA

namespace NA
open Dict
open SA (InRange putNamed)

namespace UA

/-- Squares with the corners `0` and `s`, for an uncertain size `s`. -/
def exSquareX : UA Int := ⟨⟨["v"], ND.vec [0, 2, 2, 0]⟩, ⟨["v", axisD], ⟨[4, 2], fun i =>
  if i.getD 0 0 = 1 ∨ i.getD 0 0 = 2 then (if i.getD 1 0 = 0 then 2 else 10) else 0⟩⟩⟩
def exSquareY : UA Int := ⟨⟨["v"], ND.vec [0, 0, 2, 2]⟩, ⟨["v", axisD], ⟨[4, 2], fun i =>
  if 2 ≤ i.getD 0 0 then (if i.getD 1 0 = 0 then 2 else 10) else 0⟩⟩⟩

theorem fit_exSquareX : Fit (.unc exSquareX) := ⟨⟨⟨rfl, by decide⟩, ⟨rfl, by decide⟩, by decide⟩, fun h => h⟩
theorem fit_exSquareY : Fit (.unc exSquareY) := ⟨⟨⟨rfl, by decide⟩, ⟨rfl, by decide⟩, by decide⟩, fun h => h⟩
theorem fit_exCloud : Fit (.unc exCloud) := ⟨valid_exCloud, fun h => h⟩
theorem fit_plain : Fit (.plain SA.exPolyX) := ⟨⟨rfl, by decide⟩, (by decide : axisD ∉ SA.exPolyX.axes)⟩

example : ∃ r, pointInPolygon SA.exInside 0 (.unc exCloud) (.plain SA.exPolyX) (.unc exSquareX) (.unc exSquareY) "v" = .ok r ∧
    r.Valid ∧ r.nominal.shape = [("p", 3)] ∧ r.distribution.shape = [(axisD, 2), ("p", 3)] :=
  Exists.imp (fun _ h => ⟨h.1, h.2.1, h.2.2.1, h.2.2.2.1⟩) <|
  C99_uncertain_polygon SA.exInside 0 (.unc exCloud) (.plain SA.exPolyX) (.unc exSquareX) (.unc exSquareY) "v" fit_exCloud fit_plain
    fit_exSquareX fit_exSquareY [("p", 3), ("v", 4)] [(axisD, 2), ("p", 3), ("v", 4)] (by decide) (by decide) 4 4 (by decide) (by decide)
    (by decide) (by decide) ⟨by decide, by decide⟩ ⟨by decide, by decide⟩

example : (pointInPolygon SA.exInside 0 (.unc exCloud) (.plain SA.exPolyX) (.unc exSquareX) (.unc exSquareY) "v").map
    (fun r => (r.nominal.nd.toList, r.distribution.nd.toList))
    = .ok ([true, false, false], [true, false, false, true, true, true]) := by decide +kernel

example : ∃ r, evaluate (fun d => (get? d "a").getD 0 - (get? d "b").getD 0) [("b", .unc exCloud), ("a", .plain SA.exPolyX)] = .ok r ∧
    r.Valid ∧ r.nominal.shape = [("p", 3)] ∧ r.distribution.shape = [(axisD, 2), ("p", 3)] :=
  Exists.imp (fun _ h => ⟨h.1, h.2.1, h.2.2.1, h.2.2.2.1⟩) <|
  C99_uncertain_evaluate _ [("b", .unc exCloud), ("a", .plain SA.exPolyX)] (by
    intro p hp
    simp only [List.mem_cons, List.not_mem_nil, or_false] at hp
    rcases hp with rfl | rfl
    · exact fit_exCloud
    · exact fit_plain) _ _ (by decide) (by decide)

/-- A mask for the samples, which is the same for all the vertices. -/
def exSampleMask : UA Bool := ⟨SA.scalar true, ⟨[axisD], ND.vec [true, false]⟩⟩
theorem fit_exSampleMask : Fit (.unc exSampleMask) := ⟨⟨⟨rfl, by decide⟩, ⟨rfl, by decide⟩, by decide⟩, fun h => h⟩

example : ∃ r, ndfilter SA.exFilter (.unc exPolygon) [("v", 3)] (.unc exSampleMask) = .ok r ∧
    r.Valid ∧ r.nominal.shape = [("v", 4)] ∧ r.distribution.shape = [("v", 4), (axisD, 2)] :=
  Exists.imp (fun _ h => ⟨h.1, h.2.1, h.2.2.1, h.2.2.2.1⟩) <|
  C99_uncertain_filter SA.exFilter (.unc exPolygon) [("v", 3)] (.unc exSampleMask) ⟨valid_exPolygon, fun h => h⟩ fit_exSampleMask
    [("v", 4)] [] [("v", 4)] [("v", 4), (axisD, 2)] (by decide) (by decide) (by decide) (by decide) (by decide)

/-- Two samples of an image. -/
def exNoisy : UA Int := ⟨SA.exKernel ["x", "y"], ⟨["x", "y", axisD], ⟨[2, 2, 2], fun i => 4 * i.getD 0 0 + i.getD 2 0⟩⟩⟩

example : (despike SA.exRows (.unc exNoisy) ["x", "y"] (some (.plain (SA.scalar true))) none none none).map
    (fun r => (r.nominal.nd.toList, r.distribution.nd.toList)) = .ok ([2, 2, 2, 2], [4, 4, 4, 4, 4, 4, 4, 4]) := by decide +kernel

example : ∀ r, despike SA.exRows (.unc exNoisy) ["x", "y"] (some (.plain (SA.scalar true))) none none none = .ok r ↔
    SA.despike SA.exRows exNoisy.nominal ["x", "y"] (some (SA.scalar true)) none none none = .ok r.nominal ∧
    SA.despike SA.exRows exNoisy.distribution ["x", "y"] (some (SA.scalar true)) none none none = .ok r.distribution :=
  C99_uncertain_despike SA.exRows (.unc exNoisy) ["x", "y"] (some (.plain (SA.scalar true))) none none none
    ⟨⟨⟨rfl, by decide⟩, ⟨rfl, by decide⟩, by decide⟩, fun h => h⟩
    (fun a h => by injection h with h; subst h; exact ⟨⟨rfl, by decide⟩, (by decide : axisD ∉ (SA.scalar true).axes)⟩)
    (fun a h => by cases h) (fun a h => by cases h) (fun a h => by cases h)

example : (UArg.plain (⟨[axisD], ND.vec [1, 2]⟩ : SA Int)).Ok ∧ (UArg.plain (⟨[axisD], ND.vec [1, 2]⟩ : SA Int)).Reserved :=
  ⟨⟨rfl, by decide⟩, (by decide : axisD ∈ [axisD])⟩

end UA

namespace Comp

/-- A vector with a component inside a component. -/
def exDeep : Comp (SA Int) := .node "Outer" [("a", .leaf SA.exPolyX), ("b", .node "Inner" [("c", .leaf SA.exPolyV)])]
theorem dicts_exDeep : exDeep.Dicts := by simp [exDeep, Dicts, DictsL]; decide
theorem wf_exDeep : exDeep.WFLeaves := by
  intro a ha
  simp only [exDeep, leaves, leavesL, List.append_nil, List.cons_append, List.nil_append, List.mem_cons, List.not_mem_nil, or_false] at ha
  rcases ha with rfl | rfl <;> exact ⟨rfl, by decide⟩

example : (∃ r, evaluate (fun d => (get? d "u").getD 0 - (get? d "v").getD 0) [("u", .leaf SA.exPolyX), ("v", exDeep)] = .ok r) := by
  rcases C99_vector_evaluate (fun d => (get? d "u").getD 0 - (get? d "v").getD 0) exDeep dicts_exDeep
    [("u", .leaf SA.exPolyX), ("v", exDeep)] (by
      intro v hv
      simp only [List.mem_cons, List.not_mem_nil, or_false] at hv
      rcases hv with rfl | rfl
      · intro a ha
        simp only [leaves, List.mem_cons, List.not_mem_nil, or_false] at ha
        subst ha
        exact ⟨rfl, by decide⟩
      · exact wf_exDeep) (by
      intro v hv
      simp only [List.mem_cons, List.not_mem_nil, or_false] at hv
      rcases hv with rfl | rfl
      · exact along_leaf _ _
      · exact along_of_similar _ _ (similar_refl _)) ⟨("v", exDeep), by simp, similar_refl _⟩ with ⟨r, h, _⟩ | ⟨_, h⟩
  · exact ⟨r, h⟩
  · exfalso
    have : (evaluate (fun d => (get? d "u").getD 0 - (get? d "v").getD 0) [("u", .leaf SA.exPolyX), ("v", exDeep)]).map
      (fun r => r.leaves.map SA.shape) = .ok [[("p", 3)], [("p", 3), ("v", 4), ("s", 2)]] := by decide +kernel
    rw [h] at this
    cases this

example : ∃ r, ndfilter SA.exFilter 0 exDeep [("v", 3)] (.leaf (SA.scalar true)) = .ok r ∧ exDeep.Similar r :=
  Exists.imp (fun _ h => ⟨h.1, h.2.1⟩) <|
  C99_vector_filter SA.exFilter 0 exDeep dicts_exDeep exDeep [("v", 3)] (.leaf (SA.scalar true))
    [("p", 3), ("v", 4), ("s", 2)] [] [("p", 3), ("v", 4), ("s", 2)] ⟨wf_exDeep, by simp [exDeep, Full, FullL], dicts_exDeep, by decide +kernel⟩
    ⟨by intro a ha; simp only [leaves, List.mem_cons, List.not_mem_nil, or_false] at ha; subst ha; exact ⟨rfl, by decide⟩,
      by simp [Full], by simp [Dicts], by decide⟩ (along_of_similar _ _ (similar_refl _)) (along_leaf _ _) (Or.inl (similar_refl _)) (by decide) (by decide)

end Comp

namespace FA

example : ∃ r, ndfilter (fun a b => decide (a ≠ b)) SA.exFilter exLight [("w", 3)] (.func exAlways) = .ok r ∧ r.inputs = exLight.inputs ∧
    r.outputs.WF ∧ r.outputs.shape = [("w", 3)] :=
  Exists.imp (fun _ h => ⟨h.1, h.2.1, h.2.2.1, h.2.2.2.1⟩) <|
  C99_function_filter_partial (fun a b => decide (a ≠ b)) SA.exFilter exLight [("w", 3)] (.func exAlways) exAlways.outputs ⟨rfl, by decide⟩
    ⟨rfl, by decide⟩ ⟨rfl, by decide⟩ (Or.inr ⟨exAlways, rfl, rfl, ⟨rfl, by decide⟩, ⟨[("w", 3)], by decide, fun e _ => by
      show decide (exLight.inputs.atB e ≠ exLight.inputs.atB e) = false
      simp⟩, fun S hS => ⟨fun _ => 0, by
        have : S = [("w", 3)] := by
          have h : (Except.ok [("w", 3)] : NA.R Shape) = .ok S := hS ▸ (by decide)
          injection h with h
          exact h.symm
        subst this
        intro ax n hn
        rw [get?_cons] at hn
        split at hn
        · injection hn with hn; show 0 < n; omega
        · cases hn⟩⟩) [("w", 3)] (by decide) (by decide)

example : ndfilter (fun a b => decide (a ≠ b)) SA.exFilter exLight [("w", 3)] (.func exNever) = .error .valueError :=
  C99_function_filter_error _ _ _ _ _ ⟨rfl, by decide⟩ ⟨rfl, by decide⟩ (Or.inr (by
    intro S hS e he
    have : S = [("w", 3)] := by
      have h : (Except.ok [("w", 3)] : NA.R Shape) = .ok S := hS ▸ (by decide)
      injection h with h
      exact h.symm
    subst this
    have hlt := he "w" 3 (by decide)
    have : ∀ k, k < 3 → decide ((ND.vec [7, 8, 9] : ND Int).get [k] ≠ (ND.vec [1, 2, 3] : ND Int).get [k]) = true := by decide
    exact this (e "w") hlt))

end FA
end NA
