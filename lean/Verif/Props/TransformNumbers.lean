import Verif.Props.TransformInverses

/-!
# C42, C43, C44 for vectors of numbers and for vectors of named arrays
-/

namespace NA
open Dict Comp
open SA (FitsIn InRange)
variable {K : Type} {τ σ μ : Comp Unit}

section numbers
variable [CommRing K] (dv : K → K → K)

/-- **C42** For vectors of numbers, `(f @ g)(x)` and `f(g(x))` are the same vector. -/
theorem C42_numbers (f g : Tr K) (hg : g.Typed anyNum τ μ) (hf : f.Typed anyNum μ σ) :
    ∃ h, f.matmul (Ops.num dv) g = .ok h ∧ h.Typed anyNum τ σ ∧ ∀ x, IsV anyNum τ x → ∃ u y,
      g.call (Ops.num dv) x = .ok u ∧ f.call (Ops.num dv) u = .ok y ∧ h.call (Ops.num dv) x = .ok y ∧ IsV anyNum σ y := by
  obtain ⟨h, h1, h2, h3⟩ := C42_compose (Ops.num_sound dv) f g hg hf
  refine ⟨h, h1, h2, fun x hx => ?_⟩
  obtain ⟨u, y, z, a1, a2, a3, -, a5, a6⟩ := h3 x hx
  obtain ⟨z', _, b1, -, b2, -⟩ := C44_list (Ops.num_sound dv) h h2 hx
  rw [a3] at b1; cases b1
  rw [a6.eq b2.1 a5.1] at a3
  exact ⟨u, y, a1, a2, a3, a5⟩

/-- **C44** For vectors of numbers, a list of transformations and its members one by one give the same vector. -/
theorem C44_numbers (t : Tr K) (ht : t.Typed anyNum τ σ) {x : Vec K} (hx : IsV anyNum τ x) :
    ∃ y, t.call (Ops.num dv) x = .ok y ∧ t.apply (Ops.num dv) x = .ok y ∧ IsV anyNum σ y := by
  obtain ⟨y, z, h1, h2, h3, h4, h5⟩ := C44_list (Ops.num_sound dv) t ht hx
  rw [← h5.eq h3.1 h4.1] at h2
  exact ⟨y, h1, h2, h3⟩

end numbers

section named
variable [CommRing K] [DecidableEq K] (dv : K → K → K) (S : Shape)

/-- **C42** For vectors and matrices of named arrays which broadcast to a common shape, `(f @ g)(x)` and `f(g(x))` have the same
class and layout, and the same components at each named index. -/
theorem C42_named (f g : Tr (SA K)) (hg : g.Typed (inShape S) τ μ) (hf : f.Typed (inShape S) μ σ) :
    ∃ h, f.matmul (Ops.named dv) g = .ok h ∧ h.Typed (inShape S) τ σ ∧ ∀ x, IsV (inShape S) τ x → ∃ u y z,
      g.call (Ops.named dv) x = .ok u ∧ f.call (Ops.named dv) u = .ok y ∧ h.call (Ops.named dv) x = .ok z ∧
      IsV (inShape S) σ y ∧ IsV (inShape S) σ z ∧ ∀ e, InRange S e → SameVec (fun a => a.atB e) z y := by
  obtain ⟨h, h1, h2, h3⟩ := C42_compose (Ops.named_total dv S) f g hg hf
  refine ⟨h, h1, h2, fun x hx => ?_⟩
  obtain ⟨u, y, z, a1, a2, a3, -, a5, -⟩ := h3 x hx
  obtain ⟨z', _, b1, -, b2, -⟩ := C44_list (Ops.named_total dv S) h h2 hx
  rw [a3] at b1; cases b1
  refine ⟨u, y, z, a1, a2, a3, a5, b2, fun e he => ?_⟩
  obtain ⟨h', c1, -, c3⟩ := C42_compose (Ops.named_sound dv S he) f g hg hf
  rw [h1] at c1; cases c1
  obtain ⟨u', y', z', d1, d2, d3, -, -, d6⟩ := c3 x hx
  rw [a1] at d1; cases d1
  rw [a2] at d2; cases d2
  rw [a3] at d3; cases d3
  exact d6

/-- **C44** Lists of transformations of vectors of named arrays. -/
theorem C44_named (t : Tr (SA K)) (ht : t.Typed (inShape S) τ σ) {x : Vec (SA K)} (hx : IsV (inShape S) τ x) :
    ∃ y z, t.call (Ops.named dv) x = .ok y ∧ t.apply (Ops.named dv) x = .ok z ∧ IsV (inShape S) σ y ∧
      IsV (inShape S) σ z ∧ ∀ e, InRange S e → SameVec (fun a => a.atB e) y z := by
  obtain ⟨y, z, h1, h2, h3, h4, -⟩ := C44_list (Ops.named_total dv S) t ht hx
  refine ⟨y, z, h1, h2, h3, h4, fun e he => ?_⟩
  obtain ⟨y', z', g1, g2, -, -, g5⟩ := C44_list (Ops.named_sound dv S he) t ht hx
  rw [h1] at g1; cases g1
  rw [h2] at g2; cases g2
  exact g5

end named

/-- **C43** Inverses of transformations of vectors of named arrays, whose linear parts are invertible at each named index. -/
theorem C43_named_partial [Field K] [DecidableEq K] {sig : String → Option (List String)} (dv : K → K → K)
    (hdv : ∀ a b, b ≠ 0 → dv a b = a / b) (S : Shape) (hS : ∃ e, InRange S e) (t : Tr (SA K))
    (ht : ∀ e, InRange S e → t.Inv sig (inShape S) (fun a => a.atB e) τ σ) :
    ∃ i, t.inverse (Ops.named dv) sig = .ok i ∧ i.Typed (inShape S) σ τ ∧
      (∀ x, IsV (inShape S) τ x → ∃ y z, t.call (Ops.named dv) x = .ok y ∧ i.call (Ops.named dv) y = .ok z ∧
        ∀ e, InRange S e → SameValues (fun a => a.atB e) z x) ∧
      ∀ y, IsV (inShape S) σ y → ∃ x z, i.call (Ops.named dv) y = .ok x ∧ t.call (Ops.named dv) x = .ok z ∧
        ∀ e, InRange S e → SameValues (fun a => a.atB e) z y := by
  obtain ⟨e0, he0⟩ := hS
  obtain ⟨i, h1, h2, h3, h4⟩ := C43_inverse_partial (Ops.named_sound dv S he0) hdv t (ht e0 he0)
  refine ⟨i, h1, h2, fun x hx => ?_, fun x hx => ?_⟩
  · obtain ⟨y, z, a1, a2, -⟩ := h3 x hx
    refine ⟨y, z, a1, a2, fun e he => ?_⟩
    obtain ⟨i', g1, -, g3, -⟩ := C43_inverse_partial (Ops.named_sound dv S he) hdv t (ht e he)
    rw [h1] at g1; cases g1
    obtain ⟨y', z', b1, b2, b3⟩ := g3 x hx
    rw [a1] at b1; cases b1
    rw [a2] at b2; cases b2
    exact b3
  · obtain ⟨y, z, a1, a2, -⟩ := h4 x hx
    refine ⟨y, z, a1, a2, fun e he => ?_⟩
    obtain ⟨i', g1, -, -, g3⟩ := C43_inverse_partial (Ops.named_sound dv S he) hdv t (ht e he)
    rw [h1] at g1; cases g1
    obtain ⟨y', z', b1, b2, b3⟩ := g3 x hx
    rw [a1] at b1; cases b1
    rw [a2] at b2; cases b2
    exact b3

/-! ### Cases which meet the hypotheses -/

/-- the kind of the vectors of the plane -/
def plane : Comp Unit := .node "Cartesian2d" [("x", .leaf ()), ("y", .leaf ())]

/-- a vector of the plane -/
def vec2 {α : Type} (a b : α) : Vec α := ⟨"Cartesian2d", [("x", .leaf a), ("y", .leaf b)]⟩

theorem kindNames_plane : kindNames plane = sxy := by decide

theorem isV_vec2 {α : Type} {good : α → Prop} {a b : α} (ha : good a) (hb : good b) : IsV good plane (vec2 a b) := by
  refine ⟨?_, alike_of_skel rfl⟩
  rw [kindNames_plane]
  refine ⟨_, _, rfl, (by decide : (["x", "y"] : List String).Nodup), ⟨by decide, trivial, by decide, trivial, trivial⟩, ?_, ?_,
    by simp [vec2], trivial, trivial, trivial⟩
  · show (["x", "y"] : List String).toFinset = _
    decide
  · show ∀ p ∈ [("x", a), ("y", b)], good p.2
    simp [ha, hb]

theorem isM_mk2 {α : Type} {good : α → Prop} {a b c d : α} (ha : good a) (hb : good b) (hc : good c) (hd : good d) :
    IsM good plane plane (Mat.mk2 a b c d) := by
  refine ⟨?_, alike_of_skel rfl, ?_⟩
  · rw [kindNames_plane]
    exact isMat_mk2 ha hb hc hd
  · show ∀ row ∈ [Comp.node "Cartesian2d" [("x", .leaf a), ("y", .leaf b)],
      Comp.node "Cartesian2d" [("x", .leaf c), ("y", .leaf d)]], row.Alike plane
    simp only [List.mem_cons, List.not_mem_nil, or_false]
    rintro row (rfl | rfl) <;> exact alike_of_skel rfl

theorem invM_mk2 {α : Type} [Field K] {good : α → Prop} {val : α → K} {a b c d : α} (ha : good a) (hb : good b) (hc : good c)
    (hd : good d) (h : val a * val d - val b * val c ≠ 0) : InvM sigEx good val plane plane (Mat.mk2 a b c d) where
  typed := isM_mk2 ha hb hc hd
  ok := by
    intro cls l h
    cases h
    exact ⟨rfl, .inr ⟨_, rfl, List.Perm.refl _⟩⟩
  order := ⟨2, by decide, xy, xy, listed_ordered (isMat_mk2 ha hb hc hd) (listed_mk2 _ _ _ _)⟩
  inv := by
    have hD : val a * val d - val b * val c ≠ 0 := h
    let D := val a * val d - val b * val c
    have h1 := isMat_mk2 (good := fun _ : K => True) (a := val d / D) (b := -val b / D) (c := -val c / D) (d := val a / D)
      trivial trivial trivial trivial
    refine ⟨fun r c' => toMatrix id (Mat.mk2 (val d / D) (-val b / D) (-val c / D) (val a / D)) xy xy
      (if r = "x" then 0 else 1) (if c' = "x" then 0 else 1), ?_, ?_⟩
    all_goals
      rw [kindNames_plane]
      simp only [toMatrix_mk2]
      have hs : sxy = {"x", "y"} := by decide
      rw [hs]
      have hxy : ("x" : String) ≠ "y" := by decide
      have hyx : ("y" : String) ≠ "x" := by decide
      have e1 : mval val (Mat.mk2 a b c d).rows "x" "x" = val a := rfl
      have e2 : mval val (Mat.mk2 a b c d).rows "x" "y" = val b := rfl
      have e3 : mval val (Mat.mk2 a b c d).rows "y" "x" = val c := rfl
      have e4 : mval val (Mat.mk2 a b c d).rows "y" "y" = val d := rfl
      have hD' : D ≠ 0 := hD
      intro r hr r' hr'
      rw [Finset.sum_pair hxy]
      simp only [Finset.mem_insert, Finset.mem_singleton] at hr hr'
      rcases hr with rfl | rfl <;> rcases hr' with rfl | rfl <;>
        simp only [e1, e2, e3, e4, hxy, hyx, if_true, if_false, id, Matrix.of_apply, Matrix.cons_val', Matrix.cons_val_zero,
          Matrix.cons_val_one, Matrix.cons_val_fin_one] <;> field_simp <;> first | (show _ = _; simp only [D]; ring) | ring

/-- an intrinsic list of a translation and an extrinsic list of a linear and an affine transformation -/
def nested : Tr ℚ := .list true [.simple (.translation (vec2 1 2)),
  .list false [.simple (.linear (Mat.mk2 1 2 3 4)), .simple (.affine (Mat.mk2 0 1 (-1) 0) (vec2 5 6)), .list true []],
  .simple .identity]

theorem nested_inv : nested.Inv sigEx anyNum id plane plane := by
  simp only [nested, Tr.Inv, Tr.InvFwd, Tr.InvRev, Simple.Inv]
  refine ⟨plane, ⟨rfl, isV_vec2 trivial trivial⟩, plane, ⟨plane, ⟨plane, ⟨plane, rfl, rfl⟩, ?_, isV_vec2 trivial trivial⟩, ?_⟩,
    plane, rfl, rfl⟩
  · exact invM_mk2 trivial trivial trivial trivial (by norm_num)
  · exact invM_mk2 trivial trivial trivial trivial (by norm_num)

theorem nested_typed : nested.Typed anyNum plane plane := by
  simp only [nested, Tr.Typed, Tr.TypedFwd, Tr.TypedRev, Simple.Typed]
  exact ⟨plane, ⟨rfl, isV_vec2 trivial trivial⟩, plane, ⟨plane, ⟨plane, ⟨plane, rfl, rfl⟩,
    isM_mk2 trivial trivial trivial trivial, isV_vec2 trivial trivial⟩, isM_mk2 trivial trivial trivial trivial⟩,
    plane, rfl, rfl⟩

/-- composing the nested list with a rotation by a right angle -/
example : ∃ h, nested.matmul (Ops.num dvQ) (.simple (.linear (Mat.mk2 0 (-1) 1 0))) = .ok h ∧ h.Typed anyNum plane plane ∧
    ∀ x, IsV anyNum plane x → ∃ u y, (Tr.simple (.linear (Mat.mk2 0 (-1) 1 0))).call (Ops.num dvQ) x = .ok u ∧
      nested.call (Ops.num dvQ) u = .ok y ∧ h.call (Ops.num dvQ) x = .ok y ∧ IsV anyNum plane y :=
  C42_numbers dvQ _ _ (isM_mk2 trivial trivial trivial trivial) nested_typed

example : ∃ i, nested.inverse (Ops.num dvQ) sigEx = .ok i ∧ i.Typed anyNum plane plane ∧
    (∀ x, IsV anyNum plane x → ∃ y z, nested.call (Ops.num dvQ) x = .ok y ∧ i.call (Ops.num dvQ) y = .ok z ∧
      SameValues id z x) ∧
    ∀ y, IsV anyNum plane y → ∃ x z, i.call (Ops.num dvQ) y = .ok x ∧ nested.call (Ops.num dvQ) x = .ok z ∧
      SameValues id z y :=
  C43_inverse_partial (Ops.num_sound dvQ) (fun _ _ _ => rfl) nested nested_inv

/-- a shear which varies along an axis, followed by a translation -/
example (a : SA ℚ) (ha : inShape [("t", 3)] a) (e : String → Nat) :
    (Tr.list true [.simple (.linear (Mat.mk2 (SA.scalar (1 : ℚ)) a (SA.scalar 0) (SA.scalar 1))),
      .simple (.translation (vec2 a (SA.scalar 2)))]).Inv sigEx (inShape [("t", 3)]) (fun a => a.atB e) plane plane := by
  simp only [Tr.Inv, Tr.InvFwd, Simple.Inv]
  refine ⟨plane, invM_mk2 (scalar_fits _ _) ha (scalar_fits _ _) (scalar_fits _ _) ?_, plane,
    ⟨rfl, isV_vec2 ha (scalar_fits _ _)⟩, rfl⟩
  have h1 : (SA.scalar (1 : ℚ)).atB e = 1 := rfl
  have h0 : (SA.scalar (0 : ℚ)).atB e = 0 := rfl
  simp only [h1, h0, mul_one, mul_zero, sub_zero]
  exact one_ne_zero

/-- the order matters: intrinsic and extrinsic lists differ -/
example :
    ((Tr.list true [.simple (.translation (vec2 (1 : ℚ) 0)), .simple (.linear (Mat.mk2 0 (-1) 1 0))]).call (Ops.num dvQ)
      (vec2 0 0)).toOption.map (fun v => cartesianNd v.comps) = some [("x", 0), ("y", 1)] ∧
    ((Tr.list false [.simple (.translation (vec2 (1 : ℚ) 0)), .simple (.linear (Mat.mk2 0 (-1) 1 0))]).call (Ops.num dvQ)
      (vec2 0 0)).toOption.map (fun v => cartesianNd v.comps) = some [("x", 1), ("y", 0)] := by
  constructor <;> decide +kernel

end NA
