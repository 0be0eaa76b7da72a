import Verif.Transform.Shape
import Verif.Matrix.Named
import Verif.Props.Transformations
import Verif.Props.Joining

/-!
# C124: shapes of transformations
-/

namespace NA
open Dict NA.Comp
open SA (InRange FitsIn)

/-- The scalars of a matrix. -/
def Mat.scalars {α : Type} (M : Mat α) : List α := (leavesL M.rows).flatMap leaves

/-- The scalars in the vectors and matrices of a transformation. -/
def Simple.scalars {α : Type} : Simple α → List α
  | .identity => []
  | .translation v => v.toComp.leaves
  | .linear M => M.scalars
  | .affine M v => M.scalars ++ v.toComp.leaves

mutual
/-- The scalars in the vectors and matrices of all members, at every depth. -/
def Tr.scalars {α : Type} : Tr α → List α
  | .simple s => s.scalars
  | .list _ ts => Tr.scalarsL ts
def Tr.scalarsL {α : Type} : List (Tr α) → List α
  | [] => []
  | t :: ts => t.scalars ++ Tr.scalarsL ts
end

section shape
variable {K : Type}

mutual
/-- the rows put into one tree -/
def Comp.joinRows {α : Type} : Comp (Comp α) → Comp α
  | .leaf row => row
  | .node cls cs => .node cls (Comp.joinRowsL cs)
def Comp.joinRowsL {α : Type} : List (String × Comp (Comp α)) → List (String × Comp α)
  | [] => []
  | (k, c) :: l => (k, c.joinRows) :: Comp.joinRowsL l
end

/-- the vectors and matrices put into one tree -/
def Simple.tree {α : Type} : Simple α → Comp α
  | .identity => .node "" []
  | .translation v => v.toComp
  | .linear M => Comp.joinRows (.node M.cls M.rows)
  | .affine M v => .node "" [("", Comp.joinRows (.node M.cls M.rows)), ("", v.toComp)]

mutual
def Tr.tree {α : Type} : Tr α → Comp α
  | .simple s => s.tree
  | .list _ ts => .node "" (Tr.treeL ts)
def Tr.treeL {α : Type} : List (Tr α) → List (String × Comp α)
  | [] => []
  | t :: ts => ("", t.tree) :: Tr.treeL ts
end

mutual
theorem leaves_joinRows {α : Type} : ∀ c : Comp (Comp α), c.joinRows.leaves = c.leaves.flatMap leaves
  | .leaf row => by simp [Comp.joinRows, leaves]
  | .node cls cs => by simp only [Comp.joinRows, leaves]; exact leaves_joinRowsL cs
theorem leaves_joinRowsL {α : Type} : ∀ l : List (String × Comp (Comp α)), leavesL (Comp.joinRowsL l) = (leavesL l).flatMap leaves
  | [] => by simp [Comp.joinRowsL, leavesL]
  | (k, c) :: l => by simp only [Comp.joinRowsL, leavesL, List.flatMap_append, leaves_joinRows c, leaves_joinRowsL l]
end

mutual
theorem shape_joinRows : ∀ c : Comp (Comp (SA K)), c.joinRows.shape = c.rowsShape
  | .leaf row => by simp only [Comp.joinRows, Comp.rowsShape]
  | .node cls cs => by simp only [Comp.joinRows, Comp.rowsShape, Comp.shape, shapes_joinRowsL cs]
theorem shapes_joinRowsL : ∀ l : List (String × Comp (Comp (SA K))), Comp.shapes (Comp.joinRowsL l) = Comp.rowsShapes l
  | [] => by simp only [Comp.joinRowsL, Comp.rowsShapes, Comp.shapes]
  | (k, c) :: l => by simp only [Comp.joinRowsL, Comp.rowsShapes, Comp.shapes, shape_joinRows c, shapes_joinRowsL l]
end

theorem Simple.leaves_tree {α : Type} (s : Simple α) : s.tree.leaves = s.scalars := by
  cases s with
  | identity => simp [Simple.tree, Simple.scalars, leaves, leavesL]
  | translation v => rfl
  | linear M => simp only [Simple.tree, Simple.scalars, leaves_joinRows, leaves, Mat.scalars]
  | affine M v => simp only [Simple.tree, Simple.scalars, leaves, leavesL, leaves_joinRows, Mat.scalars, List.append_nil]

theorem Simple.shape_tree (s : Simple (SA K)) : s.tree.shape = s.trShape := by
  cases s with
  | identity => simp [Simple.tree, Simple.trShape, Comp.shape, Comp.shapes, bind, Except.bind, broadcastShapes]
  | translation v => rfl
  | linear M => simp only [Simple.tree, Simple.trShape, shape_joinRows, Mat.matShape]
  | affine M v =>
    simp only [Simple.tree, Simple.trShape, Comp.shape, Comp.shapes, shape_joinRows, Mat.matShape, bind, Except.bind]
    cases Comp.rowsShape (.node M.cls M.rows) with
    | error x => rfl
    | ok a =>
      cases v.toComp.shape <;> rfl

mutual
theorem Tr.leaves_tree {α : Type} : ∀ t : Tr α, t.tree.leaves = t.scalars
  | .simple s => by simp only [Tr.tree, Tr.scalars, s.leaves_tree]
  | .list _ ts => by simp only [Tr.tree, Tr.scalars, leaves]; exact Tr.leaves_treeL ts
theorem Tr.leaves_treeL {α : Type} : ∀ ts : List (Tr α), leavesL (Tr.treeL ts) = Tr.scalarsL ts
  | [] => by simp only [Tr.treeL, Tr.scalarsL, leavesL]
  | t :: ts => by simp only [Tr.treeL, Tr.scalarsL, leavesL, Tr.leaves_tree t, Tr.leaves_treeL ts]
end

mutual
theorem Tr.shape_tree : ∀ t : Tr (SA K), t.tree.shape = t.trShape
  | .simple s => by simp only [Tr.tree, Tr.trShape, s.shape_tree]
  | .list _ ts => by simp only [Tr.tree, Tr.trShape, Comp.shape, Tr.shapes_treeL ts]
theorem Tr.shapes_treeL : ∀ ts : List (Tr (SA K)), Comp.shapes (Tr.treeL ts) = Tr.trShapes ts
  | [] => by simp only [Tr.treeL, Tr.trShapes, Comp.shapes]
  | t :: ts => by simp only [Tr.treeL, Tr.trShapes, Comp.shapes, Tr.shape_tree t, Tr.shapes_treeL ts]
end

/-- **C124** (shape). The shape of a transformation, an affine one or a list of lists of any depth, is the broadcast of the shapes of all scalars in its
vectors and matrices, and raises `ValueError` exactly if these do not broadcast. -/
theorem C124_shape (t : Tr (SA K)) (h : ∀ a ∈ t.scalars, a.WF) : SameOutcome t.trShape (broadcastShapes (t.scalars.map SA.shape)) := by
  rw [← Tr.shape_tree, ← Tr.leaves_tree]
  exact shape_leaves _ (fun a ha => h a (by rwa [← Tr.leaves_tree]))

theorem Tr.mem_scalarsL {α : Type} {ts : List (Tr α)} {a : α} : a ∈ Tr.scalarsL ts ↔ ∃ t ∈ ts, a ∈ t.scalars := by
  induction ts with
  | nil => simp [Tr.scalarsL]
  | cons t ts ih => simp [Tr.scalarsL, ih]

/-- **C124** (order). The shape of a list depends neither on the flag `intrinsic` nor on the order and the repetition of the members. -/
theorem C124_order (b b' : Bool) (ts ts' : List (Tr (SA K))) (h : ∀ t, t ∈ ts ↔ t ∈ ts') (hw : ∀ a ∈ (Tr.list b ts).scalars, a.WF) :
    SameOutcome (Tr.list b ts).trShape (Tr.list b' ts').trShape := by
  have hm : ∀ a, a ∈ (Tr.list b ts).scalars ↔ a ∈ (Tr.list b' ts').scalars := by
    intro a
    simp only [Tr.scalars, Tr.mem_scalarsL, h]
  refine sameOutcome_trans (C124_shape _ hw) (sameOutcome_trans ?_ (sameOutcome_symm (C124_shape _ (fun a ha => hw a ((hm a).2 ha)))))
  refine C02_order_and_repetition _ _ ?_ ?_
  · intro s hs
    obtain ⟨a, ha, rfl⟩ := List.mem_map.1 hs
    exact SA.wf_shape (hw a ha)
  · intro s
    simp only [List.mem_map, hm]

end shape

section call
variable {α : Type} {good good' : α → Prop}

theorem isVec_good {C : Finset String} {v : Comp α} (h : IsVec good C v) (hg : ∀ a ∈ v.leaves, good' a) : IsVec good' C v := by
  obtain ⟨cls, cs, rfl, h1, h2, h3, h4, h5⟩ := h
  refine ⟨cls, cs, rfl, h1, h2, h3, fun p hp => hg _ ?_, h5⟩
  simp only [leaves]
  rw [← values_cartesianNd h1 h2]
  exact List.mem_map_of_mem hp

theorem good_of_isVec {C : Finset String} {v : Comp α} (h : IsVec good C v) : ∀ a ∈ v.leaves, good a := by
  obtain ⟨cls, cs, rfl, h1, h2, h3, h4, h5⟩ := h
  intro a ha
  simp only [leaves] at ha
  rw [← values_cartesianNd h1 h2] at ha
  obtain ⟨p, hp, rfl⟩ := List.mem_map.1 ha
  exact h4 p hp

theorem isM_good {τ σ : Comp Unit} {M : Mat α} (h : IsM good τ σ M) (hg : ∀ a ∈ M.scalars, good' a) : IsM good' τ σ M := by
  obtain ⟨⟨h1, h2, h3, h4, h5⟩, h6⟩ := h
  refine ⟨⟨h1, h2, h3, h4, fun p hp => isVec_good (h5 p hp) (fun a ha => hg a ?_)⟩, h6⟩
  refine List.mem_flatMap.2 ⟨p.2, ?_, ha⟩
  rw [← values_cartesianNd h1 h2]
  exact List.mem_map_of_mem hp

theorem Simple.typed_good {τ σ : Comp Unit} {s : Simple α} (h : s.Typed good τ σ) (hg : ∀ a ∈ s.scalars, good' a) : s.Typed good' τ σ := by
  cases s with
  | identity => exact h
  | translation v => exact ⟨h.1, isVec_good h.2.1 hg, h.2.2⟩
  | linear M => exact isM_good h hg
  | affine M v =>
    exact ⟨isM_good h.1 (fun a ha => hg a (List.mem_append_left _ ha)),
      isVec_good h.2.1 (fun a ha => hg a (List.mem_append_right _ ha)), h.2.2⟩

mutual
theorem Tr.typed_good : ∀ (t : Tr α) {τ σ : Comp Unit}, t.Typed good τ σ → (∀ a ∈ t.scalars, good' a) → t.Typed good' τ σ
  | .simple s, _, _, h, hg => by
    simp only [Tr.Typed] at h ⊢
    exact Simple.typed_good h (by simpa only [Tr.scalars] using hg)
  | .list true ts, _, _, h, hg => by
    simp only [Tr.Typed] at h ⊢
    exact Tr.typedFwd_good ts h (by simpa only [Tr.scalars] using hg)
  | .list false ts, _, _, h, hg => by
    simp only [Tr.Typed] at h ⊢
    exact Tr.typedRev_good ts h (by simpa only [Tr.scalars] using hg)
theorem Tr.typedFwd_good : ∀ (ts : List (Tr α)) {τ σ : Comp Unit}, Tr.TypedFwd good ts τ σ → (∀ a ∈ Tr.scalarsL ts, good' a) →
    Tr.TypedFwd good' ts τ σ
  | [], _, _, h, _ => by simpa only [Tr.TypedFwd] using h
  | t :: ts, _, _, h, hg => by
    simp only [Tr.TypedFwd] at h ⊢
    simp only [Tr.scalarsL, List.mem_append] at hg
    obtain ⟨μ, h1, h2⟩ := h
    exact ⟨μ, Tr.typed_good t h1 (fun a ha => hg a (.inl ha)), Tr.typedFwd_good ts h2 (fun a ha => hg a (.inr ha))⟩
theorem Tr.typedRev_good : ∀ (ts : List (Tr α)) {τ σ : Comp Unit}, Tr.TypedRev good ts τ σ → (∀ a ∈ Tr.scalarsL ts, good' a) →
    Tr.TypedRev good' ts τ σ
  | [], _, _, h, _ => by simpa only [Tr.TypedRev] using h
  | t :: ts, _, _, h, hg => by
    simp only [Tr.TypedRev] at h ⊢
    simp only [Tr.scalarsL, List.mem_append] at hg
    obtain ⟨μ, h1, h2⟩ := h
    exact ⟨μ, Tr.typedRev_good ts h1 (fun a ha => hg a (.inr ha)), Tr.typed_good t h2 (fun a ha => hg a (.inl ha))⟩
end

end call

section fits
variable {K : Type}

theorem fits_of_outcome {ss : List Shape} (hss : ∀ s ∈ ss, WF s) {x : R Shape} {T : Shape} (h : SameOutcome x (broadcastShapes ss)) (hx : x = .ok T) :
    ∀ s ∈ ss, FitsIn s T := by
  subst hx
  cases hb : broadcastShapes ss with
  | error e => rw [hb] at h; exact absurd h id
  | ok T' =>
    rw [hb] at h
    intro s hs ax m hm
    obtain ⟨n, hn, hmn⟩ := SA.fitsIn_of_broadcastShapes hss hb hs ax m hm
    exact ⟨n, by rw [h ax]; exact hn, hmn⟩

theorem broadcast_all_fit {ss : List Shape} (hss : ∀ s ∈ ss, WF s) {S : Shape} (h : ∀ s ∈ ss, FitsIn s S) :
    ∃ r, broadcastShapes ss = .ok r ∧ FitsIn r S := by
  cases hb : broadcastShapes ss with
  | error e =>
    obtain ⟨ax, m, n, ⟨s, hs, hm⟩, ⟨s', hs', hn⟩, h1, h2, h3⟩ := (C01_broadcast_shapes_error_iff ss hss).1 ⟨e, hb⟩
    obtain ⟨k, hk, hmk⟩ := h s hs ax m hm
    obtain ⟨k', hk', hnk⟩ := h s' hs' ax n hn
    rw [hk] at hk'; cases hk'
    omega
  | ok r =>
    refine ⟨r, rfl, fun ax n hn => ?_⟩
    obtain ⟨⟨s, hs, hm⟩, _⟩ := (C01_broadcast_shapes_ok ss hss r hb).2.2 ax n hn
    exact h s hs ax n hm

/-- **C124** (application). If the shape of the transformation and the shape of the vector broadcast to a shape `S` with at least one element, then
the transformation can be applied, however its lists are nested, and the result has a shape which broadcasts to this one.
Missing for the full property: that the shape of the result is the broadcast shape (`C124_zero_refuted`). -/
theorem C124_application_partial [CommRing K] [DecidableEq K] (dv : K → K → K) (t : Tr (SA K)) {τ σ : Comp Unit} (ht : t.Typed (fun a => a.WF) τ σ)
    (hw : ∀ a ∈ t.scalars, a.WF) {x : Vec (SA K)} (hx : IsV (fun a => a.WF) τ x) {T X S : Shape} (hT : t.trShape = .ok T) (hX : x.toComp.shape = .ok X)
    (hS : broadcastShapes [T, X] = .ok S) {e : String → Nat} (he : InRange S e) :
    ∃ y, t.call (Ops.named dv) x = .ok y ∧ IsV (fun a => a.WF) σ y ∧ ∃ Y, y.toComp.shape = .ok Y ∧ FitsIn Y S := by
  have hwx : x.toComp.WFLeaves := good_of_isVec hx.1
  have hwt : WF T := shape_wf t.tree (fun a ha => hw a (by rwa [← Tr.leaves_tree])) T (by rw [Tr.shape_tree]; exact hT)
  have hss : ∀ s ∈ [T, X], WF s := by
    intro s hs
    simp only [List.mem_cons, List.not_mem_nil, or_false] at hs
    rcases hs with rfl | rfl
    · exact hwt
    · exact shape_wf _ hwx _ hX
  have hTX : FitsIn T S := SA.fitsIn_of_broadcastShapes hss hS (by simp)
  have hXS : FitsIn X S := SA.fitsIn_of_broadcastShapes hss hS (by simp)
  have h1 : ∀ a ∈ t.scalars, a.WF ∧ FitsIn a.shape S := fun a ha =>
    ⟨hw a ha, Comp.fitsIn_trans (fits_of_outcome (fun s hs => by
      obtain ⟨b, hb, rfl⟩ := List.mem_map.1 hs
      exact SA.wf_shape (hw b hb)) (C124_shape t hw) hT _ (List.mem_map_of_mem ha)) hTX⟩
  have h2 : ∀ a ∈ x.toComp.leaves, a.WF ∧ FitsIn a.shape S := fun a ha =>
    ⟨hwx a ha, Comp.fitsIn_trans (fits_of_outcome hwx.shapes (shape_leaves _ hwx) hX _ (List.mem_map_of_mem ha)) hXS⟩
  obtain ⟨y, _, y1, _, y2, _⟩ := C44_list (Ops.named_sound dv S he) t (Tr.typed_good t ht h1) (x := x) ⟨isVec_good hx.1 h2, hx.2⟩
  have hy := good_of_isVec y2.1
  have hwy : y.toComp.WFLeaves := fun a ha => (hy a ha).1
  obtain ⟨r, r1, r2⟩ := broadcast_all_fit (S := S) hwy.shapes (by
    intro s hs
    obtain ⟨a, ha, rfl⟩ := List.mem_map.1 hs
    exact (hy a ha).2)
  refine ⟨y, y1, ⟨isVec_good y2.1 (fun a ha => (hy a ha).1), y2.2⟩, ?_⟩
  have := shape_leaves _ hwy
  rw [r1] at this
  cases hs : y.toComp.shape with
  | error x => rw [hs] at this; exact absurd this id
  | ok Y =>
    rw [hs] at this
    refine ⟨Y, rfl, fun ax n hn => r2 ax n ?_⟩
    rw [← this ax]; exact hn

end fits

/-! ### Examples -/

/-- two numbers along `t` -/
def exAlongT (a b : Int) : SA Int := ⟨["t"], ND.ofList [2] [a, b] 0⟩
/-- a translation by a vector of one component -/
def exShiftBy (a : SA Int) : Vec (SA Int) := ⟨"V", [("x", .leaf a)]⟩
/-- a matrix of one row and one column -/
def exScaleBy (a : SA Int) : Mat (SA Int) := ⟨"V", [("x", .leaf (.node "V" [("x", .leaf a)]))]⟩
def exAlongU : SA Int := ⟨["u"], ND.ofList [3] [1, 2, 3] 0⟩

/-- a list with an affine transformation and a list -/
def exMovements : Tr (SA Int) :=
  .list true [.simple (.affine (exScaleBy (exAlongT 2 3)) (exShiftBy (SA.scalar 1))), .list false [.simple .identity, .simple (.translation (exShiftBy exAlongU))]]

theorem scalars_exMovements : exMovements.scalars = [exAlongT 2 3, SA.scalar 1, exAlongU] := by
  simp [exMovements, Tr.scalars, Tr.scalarsL, Simple.scalars, Mat.scalars, exScaleBy, exShiftBy, leaves, leavesL, Vec.toComp]
theorem wf_exMovements : ∀ a ∈ exMovements.scalars, a.WF := by
  rw [scalars_exMovements]
  intro a ha
  simp only [List.mem_cons, List.not_mem_nil, or_false] at ha
  rcases ha with rfl | rfl | rfl
  · exact ⟨rfl, (by decide : ["t"].Nodup)⟩
  · exact ⟨rfl, List.nodup_nil⟩
  · exact ⟨rfl, (by decide : ["u"].Nodup)⟩
example : SameOutcome exMovements.trShape (.ok [("t", 2), ("u", 3)]) := by
  have := C124_shape exMovements wf_exMovements
  rw [scalars_exMovements] at this
  exact this
example : SameOutcome (Tr.list true [exMovements, .simple .identity]).trShape (Tr.list false [.simple .identity, exMovements, exMovements]).trShape :=
  C124_order _ _ _ _ (fun t => by simp; tauto) (by
    simp only [Tr.scalars, Tr.scalarsL, Simple.scalars, List.append_nil]
    exact wf_exMovements)

/-- the kind of these vectors -/
def exKindV : Comp Unit := .node "V" [("x", .leaf ())]

theorem isVec_one {a : SA Int} (ha : a.WF) : IsVec (fun a => a.WF) {"x"} (.node "V" [("x", .leaf a)]) := by
  refine ⟨"V", _, rfl, (by decide : ["x"].Nodup), ?_, rfl, ?_, by simp, ?_⟩
  · simp [NamedL, Named]
  · intro p hp
    have : p = ("x", a) := by simpa [cartesianNd, entries, entriesOf, Dict.union, Dict.set] using hp
    rw [this]; exact ha
  · simp [NoEmptyL, NoEmpty]

theorem alike_one {β γ : Type} (a : β) (b : γ) : (Comp.node "V" [("x", Comp.leaf a)]).Alike (Comp.node "V" [("x", Comp.leaf b)]) := by
  intro p
  cases p with
  | nil => simp only [kindAt]
  | cons k p =>
    simp only [kindAt, get?]
    by_cases h : "x" = k
    · simp only [h, if_true]
      cases p <;> simp only [kindAt]
    · simp only [h, if_false]

theorem isV_one {a : SA Int} (ha : a.WF) : IsV (fun a => a.WF) exKindV (exShiftBy a) := ⟨isVec_one ha, alike_one _ _⟩
theorem isM_one {a : SA Int} (ha : a.WF) : IsM (fun a => a.WF) exKindV exKindV (exScaleBy a) := by
  refine ⟨⟨(by decide : ["x"].Nodup), ?_, ⟨by simp [exScaleBy], ?_⟩, rfl, ?_⟩, alike_one _ _, ?_⟩
  · simp [exScaleBy, NamedL, Named]
  · simp [exScaleBy, NoEmptyL, NoEmpty]
  · intro p hp
    have : p = ("x", .node "V" [("x", .leaf a)]) := by simpa [exScaleBy, cartesianNd, entries, entriesOf, Dict.union, Dict.set] using hp
    rw [this]; exact isVec_one ha
  · intro row hrow
    have : row = .node "V" [("x", .leaf a)] := by simpa [exScaleBy, leavesL, leaves] using hrow
    rw [this]; exact alike_one _ _

theorem typed_exMovements : exMovements.Typed (fun a => a.WF) exKindV exKindV := by
  simp only [exMovements, Tr.Typed, Tr.TypedFwd, Tr.TypedRev, Simple.Typed]
  exact ⟨exKindV, ⟨isM_one ⟨rfl, (by decide : ["t"].Nodup)⟩, isV_one ⟨rfl, List.nodup_nil⟩⟩, exKindV,
    ⟨exKindV, ⟨exKindV, rfl, rfl, isV_one ⟨rfl, (by decide : ["u"].Nodup)⟩⟩, rfl⟩, rfl⟩

theorem shape_exMovements : exMovements.trShape = .ok [("t", 2), ("u", 3)] := by
  simp only [exMovements, Tr.trShape, Tr.trShapes, Simple.trShape, Mat.matShape, Comp.rowsShape, Comp.rowsShapes, exScaleBy, exShiftBy, Vec.toComp, Comp.shape,
    Comp.shapes, bind, Except.bind]
  rfl

example : ∃ y, exMovements.call (Ops.named (· / ·)) (exShiftBy (exAlongT 7 8)) = .ok y ∧ ∃ Y, y.toComp.shape = .ok Y ∧ FitsIn Y [("t", 2), ("u", 3)] := by
  obtain ⟨y, h1, _, h2⟩ := C124_application_partial (· / ·) exMovements typed_exMovements wf_exMovements (x := exShiftBy (exAlongT 7 8))
    (isV_one ⟨rfl, (by decide : ["t"].Nodup)⟩) shape_exMovements (X := [("t", 2)]) (by simp only [exShiftBy, Vec.toComp, Comp.shape, Comp.shapes, bind, Except.bind]; rfl)
    (S := [("t", 2), ("u", 3)]) (by decide) (e := fun _ => 0) (by
      intro ax n hn
      simp only [get?] at hn
      split at hn
      · cases hn; show 0 < 2; omega
      · split at hn
        · cases hn; show 0 < 3; omega
        · cases hn)
  exact ⟨y, h1, h2⟩

/-- **C124** is false of the shape of the result: a linear transformation whose matrix vanishes along `t` has the axis `t`, but the vectors which it
returns do not, since a product with a zero is the number zero. -/
theorem C124_zero_refuted : ∃ (t : Tr (SA Int)) (x : Vec (SA Int)), t.Typed (fun a => a.WF) exKindV exKindV ∧ IsV (fun a => a.WF) exKindV x ∧
    t.trShape = .ok [("t", 2)] ∧ x.toComp.shape = .ok [] ∧
    ∃ y, t.call (Ops.named (· / ·)) x = .ok y ∧ y.toComp.shape = .ok [] := by
  have hy : (do let y ← (Tr.simple (.linear (exScaleBy (exAlongT 0 0)))).call (Ops.named (· / ·)) (exShiftBy (SA.scalar 5)); y.toComp.shape) = .ok [] := by
    simp only [Tr.call, Tr.composed, Simple.call, Mat.matVec, Mat.rowPrototype, exScaleBy, exShiftBy]
    decide +kernel
  refine ⟨.simple (.linear (exScaleBy (exAlongT 0 0))), exShiftBy (SA.scalar 5), ?_, isV_one ⟨rfl, List.nodup_nil⟩, ?_, ?_, ?_⟩
  · simp only [Tr.Typed, Simple.Typed]
    exact isM_one ⟨rfl, (by decide : ["t"].Nodup)⟩
  · simp only [Tr.trShape, Simple.trShape, Mat.matShape, Comp.rowsShape, Comp.rowsShapes, exScaleBy, Comp.shape, Comp.shapes, bind, Except.bind]
    rfl
  · simp only [exShiftBy, Vec.toComp, Comp.shape, Comp.shapes, bind, Except.bind]
    rfl
  · cases h : (Tr.simple (.linear (exScaleBy (exAlongT 0 0)))).call (Ops.named (· / ·)) (exShiftBy (SA.scalar 5)) with
    | error x => rw [h] at hy; cases hy
    | ok y => rw [h] at hy; exact ⟨y, rfl, hy⟩

end NA
