import Verif.Transform.Lemmas

/-!
# Transformations between kinds of vectors
-/

namespace NA
open Dict Comp
variable {α β K : Type}

/-! ### Specification vocabulary -/

/-- A kind of vectors: the classes and component names at every level.  Here are its flattened component names. -/
def kindNames : Comp Unit → Finset String
  | .leaf _ => ∅
  | .node _ cs => (keys (cartesianNd cs)).toFinset

/-- A vector of a kind (the order of the components does not matter), with good components. -/
def IsV (good : α → Prop) (τ : Comp Unit) (v : Vec α) : Prop :=
  IsVec good (kindNames τ) v.toComp ∧ v.toComp.Alike τ

/-- A matrix with columns of kind `σ` and rows of kind `τ`, that is a matrix which takes vectors of kind `τ` to vectors of
kind `σ`. -/
def IsM (good : α → Prop) (τ σ : Comp Unit) (M : Mat α) : Prop :=
  IsMat good (kindNames σ) (kindNames τ) M.rows ∧ (Comp.node M.cls M.rows).Alike σ ∧ ∀ row ∈ leavesL M.rows, row.Alike τ

/-- A transformation takes vectors of kind `τ` to vectors of kind `σ`. -/
def Simple.Typed (good : α → Prop) : Simple α → Comp Unit → Comp Unit → Prop
  | .identity, τ, σ => τ = σ
  | .translation v, τ, σ => τ = σ ∧ IsV good τ v
  | .linear M, τ, σ => IsM good τ σ M
  | .affine M v, τ, σ => IsM good τ σ M ∧ IsV good σ v

mutual
/-- A transformation takes vectors of kind `τ` to vectors of kind `σ`.  The members of a list fit together in the order in which
they are applied. -/
def Tr.Typed (good : α → Prop) : Tr α → Comp Unit → Comp Unit → Prop
  | .simple s, τ, σ => s.Typed good τ σ
  | .list true ts, τ, σ => Tr.TypedFwd good ts τ σ
  | .list false ts, τ, σ => Tr.TypedRev good ts τ σ
/-- ... in order -/
def Tr.TypedFwd (good : α → Prop) : List (Tr α) → Comp Unit → Comp Unit → Prop
  | [], τ, σ => τ = σ
  | t :: ts, τ, σ => ∃ μ, t.Typed good τ μ ∧ Tr.TypedFwd good ts μ σ
/-- ... in reverse order -/
def Tr.TypedRev (good : α → Prop) : List (Tr α) → Comp Unit → Comp Unit → Prop
  | [], τ, σ => τ = σ
  | t :: ts, τ, σ => ∃ μ, Tr.TypedRev good ts τ μ ∧ t.Typed good μ σ
end

mutual
/-- Apply the members of a list one by one. -/
def Tr.apply (o : Ops α) : Tr α → Vec α → R (Vec α)
  | .simple s, x => s.call o x
  | .list true ts, x => Tr.applyFwd o ts x
  | .list false ts, x => Tr.applyRev o ts x
/-- ... the first member first -/
def Tr.applyFwd (o : Ops α) : List (Tr α) → Vec α → R (Vec α)
  | [], x => .ok x
  | t :: ts, x => do Tr.applyFwd o ts (← t.apply o x)
/-- ... the last member first -/
def Tr.applyRev (o : Ops α) : List (Tr α) → Vec α → R (Vec α)
  | [], x => .ok x
  | t :: ts, x => do t.apply o (← Tr.applyRev o ts x)
end

/-! ### The values -/

section
variable [CommRing K]

/-- The values of `s(x)` in terms of the values of `x`. -/
def Simple.act (val : α → K) (C : Finset String) : Simple α → (String → K) → String → K
  | .identity, x => x
  | .translation v, x => fun c => x c + v.toComp.vval val c
  | .linear M, x => fun r => ∑ c ∈ C, mval val M.rows r c * x c
  | .affine M v, x => fun r => ∑ c ∈ C, mval val M.rows r c * x c + v.toComp.vval val r

/-- The class and the layout of `s(x)`. -/
def Simple.out : Simple α → Vec α → String × List (String × Comp Unit)
  | .identity, x => (x.cls, skelL x.comps)
  | .translation _, x => (x.cls, skelL x.comps)
  | .linear M, _ => (M.cls, skelL M.rows)
  | .affine M _, _ => (M.cls, skelL M.rows)

variable {o : Ops α} {dv : K → K → K} {good : α → Prop} {val : α → K} {τ σ μ : Comp Unit}

theorem IsV.of_layout {x y : Vec α} (hx : IsVec good (kindNames τ) x.toComp) (hy : y.toComp.Alike τ) (hc : x.cls = y.cls)
    (hl : skelL x.comps = skelL y.comps) : IsV good τ x :=
  ⟨hx, (alike_of_skel (v := x.toComp) (w := y.toComp) (by
    unfold Vec.toComp; rw [skel_node, skel_node, hc, hl])).trans hy⟩

theorem matVec_typed (ho : o.Sound dv good val) {M : Mat α} {x : Vec α} (hM : IsM good τ σ M) (hx : IsV good τ x) :
    ∃ y, M.matVec o x = .ok y ∧ y.cls = M.cls ∧ skelL y.comps = skelL M.rows ∧ IsV good σ y ∧
      ∀ r ∈ kindNames σ, y.toComp.vval val r =
        ∑ c ∈ kindNames τ, mval val M.rows r c * x.toComp.vval val c := by
  have hc : M.RowClass x.cls := by
    obtain ⟨row, -, ⟨cls, cs, rfl, -⟩, hp3⟩ := hM.1.proto
    have h1 := hM.2.2 _ (List.mem_of_head? hp3)
    have h2 := (h1.trans hx.2.symm).node
    exact ⟨cs, by rw [hp3, h2.1]⟩
  obtain ⟨y, h1, h2, h3, h4, h5⟩ := C40_matVec ho M x hM.1 hx.1 hc
  refine ⟨y, h1, h2, h3, ⟨h4, ?_⟩, h5⟩
  exact (alike_of_skel (v := y.toComp) (w := Comp.node M.cls M.rows) (by
    unfold Vec.toComp; rw [skel_node, skel_node, h2, h3])).trans hM.2.1

theorem matMat_typed (ho : o.Sound dv good val) {M N : Mat α} (hM : IsM good μ σ M) (hN : IsM good τ μ N) :
    ∃ P, M.matMat o N = .ok P ∧ P.cls = M.cls ∧ skelL P.rows = skelL M.rows ∧ IsM good τ σ P ∧
      ∀ r ∈ kindNames σ, ∀ d ∈ kindNames τ, mval val P.rows r d =
        ∑ c ∈ kindNames μ, mval val M.rows r c * mval val N.rows c d := by
  obtain ⟨P, row, h1, h2, h3, h4, h5, h6⟩ := C40_matMat ho M N hM.1 hN.1
  have hs : skelL P.rows = skelL M.rows := by
    rw [← skelL_layout P.rows, h5]
    exact Mat.skelL_mapL _ _
  refine ⟨P, h2, h3, hs, ⟨h4, ?_, ?_⟩, h6⟩
  · exact (alike_of_skel (v := Comp.node P.cls P.rows) (w := Comp.node M.cls M.rows) (by
      rw [skel_node, skel_node, h3, hs])).trans hM.2.1
  · intro r hr
    have hrow := hN.2.2 row (List.mem_of_head? h1)
    have h7 : r.skel ∈ leavesL (layout P.rows) := by
      unfold layout; rw [Mat.leavesL_mapL]; exact List.mem_map.2 ⟨r, hr, rfl⟩
    rw [h5, Mat.leavesL_mapL] at h7
    obtain ⟨_, _, h8⟩ := List.mem_map.1 h7
    exact (alike_of_skel h8.symm).trans hrow

theorem add_typed (ho : o.Sound dv good val) {v w : Vec α} (hv : IsV good τ v) (hw : IsV good τ w) :
    ∃ r, v.add o w = .ok r ∧ r.cls = v.cls ∧ skelL r.comps = skelL v.comps ∧ IsV good τ r ∧
      ∀ c ∈ kindNames τ, r.toComp.vval val c = v.toComp.vval val c + w.toComp.vval val c := by
  obtain ⟨r, h1, h2, h3, h4, h5⟩ := Vec.add_ok ho hv.1 hw.1 (hv.2.trans hw.2.symm)
  exact ⟨r, h1, h2, h3, IsV.of_layout h4 hv.2 h2 h3, h5⟩

theorem neg_typed (ho : o.Sound dv good val) {v : Vec α} (hv : IsV good τ v) :
    ∃ r, v.neg o = .ok r ∧ r.cls = v.cls ∧ skelL r.comps = skelL v.comps ∧ IsV good τ r ∧
      ∀ c ∈ kindNames τ, r.toComp.vval val c = - v.toComp.vval val c := by
  obtain ⟨r, h1, h2, h3, h4, h5⟩ := Vec.neg_ok ho hv.1
  exact ⟨r, h1, h2, h3, IsV.of_layout h4 hv.2 h2 h3, h5⟩

theorem sameVec_typed {v w : Vec α} (hv : IsV good τ v) (hw : IsV good τ w)
    (ho : (v.cls, skelL v.comps) = (w.cls, skelL w.comps))
    (h : ∀ c ∈ kindNames τ, v.toComp.vval val c = w.toComp.vval val c) : SameVec val v w := by
  injection ho with h1 h2
  exact sameVec_of hv.1 hw.1 h1 h2 h

namespace Simple

/-- A transformation can be applied to a vector of its kind. -/
theorem call_ok (ho : o.Sound dv good val) {s : Simple α} {x : Vec α} (hs : s.Typed good τ σ) (hx : IsV good τ x) :
    ∃ y, s.call o x = .ok y ∧ IsV good σ y ∧ (y.cls, skelL y.comps) = s.out x ∧
      ∀ c ∈ kindNames σ, y.toComp.vval val c = s.act val (kindNames τ) (fun c => x.toComp.vval val c) c := by
  cases s with
  | identity =>
    cases hs
    exact ⟨x, rfl, hx, rfl, fun _ _ => rfl⟩
  | translation v =>
    obtain ⟨rfl, hv⟩ := hs
    obtain ⟨r, h1, h2, h3, h4, h5⟩ := add_typed ho hx hv
    exact ⟨r, h1, h4, by rw [h2, h3]; rfl, h5⟩
  | linear M =>
    obtain ⟨y, h1, h2, h3, h4, h5⟩ := matVec_typed ho hs hx
    exact ⟨y, h1, h4, by rw [h2, h3]; rfl, h5⟩
  | affine M v =>
    obtain ⟨y, h1, h2, h3, h4, h5⟩ := matVec_typed ho hs.1 hx
    obtain ⟨r, g1, g2, g3, g4, g5⟩ := add_typed ho h4 hs.2
    refine ⟨r, ?_, g4, by rw [g2, g3, h2, h3]; rfl, ?_⟩
    · simp only [call, h1, bind, Except.bind, g1]
    · intro c hc
      rw [g5 c hc, h5 c hc]
      rfl

theorem act_congr {s : Simple α} (hs : s.Typed good τ σ) {x x' : String → K} (h : ∀ c ∈ kindNames τ, x c = x' c) :
    ∀ c ∈ kindNames σ, s.act val (kindNames τ) x c = s.act val (kindNames τ) x' c := by
  intro c hc
  cases s with
  | identity => cases hs; exact h c hc
  | translation v => obtain ⟨rfl, -⟩ := hs; simp only [act]; rw [h c hc]
  | linear M => simp only [act]; exact Finset.sum_congr rfl (fun d hd => by rw [h d hd])
  | affine M v =>
    simp only [act]
    rw [Finset.sum_congr rfl (fun d hd => by rw [h d hd])]

theorem sum_mul_sum {R' C D : Finset String} (M N P : String → String → K) (x : String → K)
    (h : ∀ r ∈ R', ∀ d ∈ D, P r d = ∑ c ∈ C, M r c * N c d) : ∀ r ∈ R',
    ∑ d ∈ D, P r d * x d = ∑ c ∈ C, M r c * ∑ d ∈ D, N c d * x d := by
  intro r hr
  rw [Finset.sum_congr rfl (fun d hd => by rw [h r hr d hd, Finset.sum_mul]), Finset.sum_comm]
  refine Finset.sum_congr rfl (fun c _ => ?_)
  rw [Finset.mul_sum]
  exact Finset.sum_congr rfl (fun d _ => by ring)

/-- Composition: the value of the composition is the composition of the values. -/
theorem matmul_ok (ho : o.Sound dv good val) {f g : Simple α} (hg : g.Typed good τ μ) (hf : f.Typed good μ σ) :
    ∃ h, f.matmul o g = .ok h ∧ h.Typed good τ σ ∧
      (∀ x y : Vec α, (y.cls, skelL y.comps) = g.out x → h.out x = f.out y) ∧
      ∀ (x : String → K), ∀ c ∈ kindNames σ,
        h.act val (kindNames τ) x c = f.act val (kindNames μ) (g.act val (kindNames τ) x) c := by
  cases f with
  | identity =>
    cases hf
    exact ⟨g, rfl, hg, fun x y h => h.symm, fun _ _ _ => rfl⟩
  | translation v =>
    obtain ⟨rfl, hv⟩ := hf
    cases g with
    | identity =>
      cases hg
      exact ⟨.translation v, rfl, ⟨rfl, hv⟩, fun x y h => h.symm, fun _ _ _ => rfl⟩
    | translation w =>
      obtain ⟨rfl, hw⟩ := hg
      obtain ⟨r, h1, h2, h3, h4, h5⟩ := add_typed ho hv hw
      refine ⟨.translation r, by simp only [matmul, h1, bind, Except.bind], ⟨rfl, h4⟩, fun x y h => h.symm, ?_⟩
      intro x c hc
      simp only [act]
      rw [h5 c hc]
      ring
    | linear M => exact ⟨.affine M v, rfl, ⟨hg, hv⟩, fun x y h => h.symm, fun _ _ _ => rfl⟩
    | affine M w =>
      obtain ⟨r, h1, h2, h3, h4, h5⟩ := add_typed ho hv hg.2
      refine ⟨.affine M r, by simp only [matmul, h1, bind, Except.bind], ⟨hg.1, h4⟩, fun x y h => h.symm, ?_⟩
      intro x c hc
      simp only [act]
      rw [h5 c hc]
      ring
  | linear M =>
    cases g with
    | identity =>
      cases hg
      exact ⟨.linear M, rfl, hf, fun x y h => rfl, fun _ _ _ => rfl⟩
    | translation w =>
      obtain ⟨rfl, hw⟩ := hg
      obtain ⟨r, h1, h2, h3, h4, h5⟩ := matVec_typed ho hf hw
      refine ⟨.affine M r, by simp only [matmul, h1, bind, Except.bind], ⟨hf, h4⟩, fun x y h => rfl, ?_⟩
      intro x c hc
      simp only [act]
      rw [h5 c hc, ← Finset.sum_add_distrib]
      exact Finset.sum_congr rfl (fun d _ => by ring)
    | linear N =>
      obtain ⟨P, h1, h2, h3, h4, h5⟩ := matMat_typed ho hf hg
      refine ⟨.linear P, by simp only [matmul, h1, bind, Except.bind], h4, fun x y h => ?_, ?_⟩
      · simp only [out]; rw [h2, h3]
      · intro x c hc
        exact sum_mul_sum _ _ _ x h5 c hc
    | affine N w =>
      obtain ⟨P, h1, h2, h3, h4, h5⟩ := matMat_typed ho hf hg.1
      obtain ⟨r, g1, g2, g3, g4, g5⟩ := matVec_typed ho hf hg.2
      refine ⟨.affine P r, by simp only [matmul, h1, g1, bind, Except.bind], ⟨h4, g4⟩, fun x y h => ?_, ?_⟩
      · simp only [out]; rw [h2, h3]
      · intro x c hc
        simp only [act]
        rw [g5 c hc, sum_mul_sum _ _ _ x h5 c hc, ← Finset.sum_add_distrib]
        exact Finset.sum_congr rfl (fun d _ => by ring)
  | affine M v =>
    obtain ⟨hM, hv⟩ := hf
    cases g with
    | identity =>
      cases hg
      exact ⟨.affine M v, rfl, ⟨hM, hv⟩, fun x y h => rfl, fun _ _ _ => rfl⟩
    | translation w =>
      obtain ⟨rfl, hw⟩ := hg
      obtain ⟨r, h1, h2, h3, h4, h5⟩ := matVec_typed ho hM hw
      obtain ⟨s, s1, s2, s3, s4, s5⟩ := add_typed ho h4 hv
      refine ⟨.affine M s, by simp only [matmul, h1, s1, bind, Except.bind], ⟨hM, s4⟩, fun x y h => rfl, ?_⟩
      intro x c hc
      simp only [act]
      rw [s5 c hc, h5 c hc, ← add_assoc, ← Finset.sum_add_distrib]
      congr 1
      exact Finset.sum_congr rfl (fun d _ => by ring)
    | linear N =>
      obtain ⟨P, h1, h2, h3, h4, h5⟩ := matMat_typed ho hM hg
      refine ⟨.affine P v, by simp only [matmul, h1, bind, Except.bind], ⟨h4, hv⟩, fun x y h => ?_, ?_⟩
      · simp only [out]; rw [h2, h3]
      · intro x c hc
        simp only [act]
        rw [sum_mul_sum _ _ _ x h5 c hc]
    | affine N w =>
      obtain ⟨P, h1, h2, h3, h4, h5⟩ := matMat_typed ho hM hg.1
      obtain ⟨r, g1, g2, g3, g4, g5⟩ := matVec_typed ho hM hg.2
      obtain ⟨s, s1, s2, s3, s4, s5⟩ := add_typed ho g4 hv
      refine ⟨.affine P s, by simp only [matmul, h1, g1, s1, bind, Except.bind], ⟨h4, s4⟩, fun x y h => ?_, ?_⟩
      · simp only [out]; rw [h2, h3]
      · intro x c hc
        simp only [act]
        rw [s5 c hc, g5 c hc, sum_mul_sum _ _ _ x h5 c hc, ← add_assoc, ← Finset.sum_add_distrib]
        congr 1
        exact Finset.sum_congr rfl (fun d _ => by ring)

/-- Transformations take the same vectors to the same vectors. -/
theorem call_same (ho : o.Sound dv good val) {s : Simple α} {x x' y y' : Vec α} (hs : s.Typed good τ σ) (hx : IsV good τ x)
    (hx' : IsV good τ x') (h : SameVec val x x') (hy : s.call o x = .ok y) (hy' : s.call o x' = .ok y') :
    SameVec val y y' := by
  obtain ⟨z, a1, a2, a3, a4⟩ := call_ok ho hs hx
  obtain ⟨z', b1, b2, b3, b4⟩ := call_ok ho hs hx'
  rw [hy] at a1; cases a1
  rw [hy'] at b1; cases b1
  refine sameVec_typed a2 b2 ?_ ?_
  · rw [a3, b3]
    cases s <;> simp only [out] <;> rw [h.1, h.2.1]
  · intro c hc
    rw [a4 c hc, b4 c hc]
    exact act_congr hs (fun d _ => h.2.2 d) c hc

/-- Composition. -/
theorem call_matmul (ho : o.Sound dv good val) {f g : Simple α} (hg : g.Typed good τ μ) (hf : f.Typed good μ σ) {x : Vec α}
    (hx : IsV good τ x) : ∃ h u y z, f.matmul o g = .ok h ∧ h.Typed good τ σ ∧ g.call o x = .ok u ∧ f.call o u = .ok y ∧
      h.call o x = .ok z ∧ IsV good μ u ∧ IsV good σ y ∧ IsV good σ z ∧ SameVec val z y := by
  obtain ⟨h, h1, h2, h3, h4⟩ := matmul_ok ho hg hf
  obtain ⟨u, u1, u2, u3, u4⟩ := call_ok ho hg hx
  obtain ⟨y, y1, y2, y3, y4⟩ := call_ok ho hf u2
  obtain ⟨z, z1, z2, z3, z4⟩ := call_ok ho h2 hx
  refine ⟨h, u, y, z, h1, h2, u1, y1, z1, u2, y2, z2, sameVec_typed z2 y2 ?_ ?_⟩
  · rw [z3, y3, h3 x u u3]
  · intro c hc
    rw [z4 c hc, y4 c hc, h4 _ c hc]
    exact act_congr hf (fun d hd => (u4 d hd).symm) c hc

end Simple

end
end NA
