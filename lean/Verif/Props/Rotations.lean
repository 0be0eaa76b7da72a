import Verif.Props.Inverses
import Mathlib.Analysis.Complex.Trigonometric

/-!
# C41: rotation matrices

The theorems hold for scalars of any kind the arithmetic, `cos` and `sin` of which agree with the real numbers
(`Ops.Sound`, `TrigSound`): the real numbers themselves and named arrays of real numbers, at each named index.
-/

namespace NA

open Dict Comp Mat
open SA (FitsIn InRange)

variable {α : Type}

/-! ### Specification -/

/-- `np.cos` and `np.sin` compute the cosine and the sine of the value. -/
structure TrigSound (cos sin : α → R α) (good : α → Prop) (val : α → ℝ) : Prop where
  cos : ∀ a, good a → ∃ c, cos a = .ok c ∧ good c ∧ val c = Real.cos (val a)
  sin : ∀ a, good a → ∃ c, sin a = .ok c ∧ good c ∧ val c = Real.sin (val a)

namespace Mat.Rotation

/-- the number of components -/
abbrev dim : Rotation → Nat
  | d2 => 2
  | x | y | z => 3

/-- the names of the components -/
abbrev names : (k : Rotation) → Fin k.dim → String
  | d2 => xy
  | x => xyz
  | y => xyz
  | z => xyz

/-- the names of the components -/
abbrev set : Rotation → Finset String
  | d2 => sxy
  | x | y | z => sxyz

/-- the class of the vectors which can be rotated -/
abbrev cls : Rotation → String
  | d2 => "Cartesian2d"
  | x | y | z => "Cartesian3d"

/-- The rotation of the plane, and of the space about the axes `x`, `y` and `z`, counterclockwise if the axis points to
the observer: the columns are the images of the unit vectors. -/
noncomputable def spec : (k : Rotation) → ℝ → Matrix (Fin k.dim) (Fin k.dim) ℝ
  | d2, t => !![Real.cos t, -Real.sin t; Real.sin t, Real.cos t]
  | x, t => !![1, 0, 0; 0, Real.cos t, -Real.sin t; 0, Real.sin t, Real.cos t]
  | y, t => !![Real.cos t, 0, Real.sin t; 0, 1, 0; -Real.sin t, 0, Real.cos t]
  | z, t => !![Real.cos t, -Real.sin t, 0; Real.sin t, Real.cos t, 0; 0, 0, 1]

theorem spec_add (k : Rotation) (s t : ℝ) : k.spec s * k.spec t = k.spec (s + t) := by
  cases k <;> simp only [spec, Real.cos_add, Real.sin_add] <;> ext i j <;> fin_cases i <;> fin_cases j <;>
    simp [Matrix.mul_apply, Fin.sum_univ_succ] <;> ring

theorem spec_zero (k : Rotation) : k.spec 0 = 1 := by
  cases k <;> simp only [spec, Real.cos_zero, Real.sin_zero, neg_zero]
  · exact Matrix.one_fin_two.symm
  all_goals exact Matrix.one_fin_three.symm

theorem spec_neg (k : Rotation) (t : ℝ) : k.spec (-t) = (k.spec t).transpose := by
  cases k <;> simp only [spec, Real.cos_neg, Real.sin_neg] <;> ext i j <;> fin_cases i <;> fin_cases j <;> simp

theorem spec_det (k : Rotation) (t : ℝ) : (k.spec t).det = 1 := by
  have h := Real.sin_sq_add_cos_sq t
  cases k <;> simp only [spec]
  · rw [Matrix.det_fin_two_of]; linarith
  all_goals
    rw [Matrix.det_fin_three]
    simp
    linarith

theorem names_spec (k : Rotation) : Finset.univ.image k.names = k.set ∧ Function.Injective k.names := by
  cases k
  · exact xy_names
  all_goals exact xyz_names

/-- rows of a rotation matrix, without entries -/
def form : Rotation → Mat Unit
  | d2 => mk2 () () () ()
  | x | y | z => mk3 () () () () () () () () ()

end Mat.Rotation

section general

variable {o : Ops α} {dv : ℝ → ℝ → ℝ} {good : α → Prop} {val : α → ℝ} {cos sin : α → R α}

/-- what is known about a rotation matrix -/
structure IsRot (good : α → Prop) (val : α → ℝ) (k : Rotation) (t : ℝ) (M : Mat α) : Prop where
  cls : M.cls = k.cls
  mat : IsMat good k.set k.set M.rows
  lay : layout M.rows = layout k.form.rows
  row : ∃ row, (leavesL M.rows).head? = some row ∧ ∃ row', (leavesL k.form.rows).head? = some row' ∧ row.skel = row'.skel
  values : toMatrix val M k.names k.names = k.spec t

/-- **C41** The matrix of a rotation exists, has rows and columns named like the components of the vectors it rotates, and its
entries are those of the rotation. -/
theorem C41_rotation (ho : o.Sound dv good val) (ht : TrigSound cos sin good val) (k : Rotation) {a : α} (ha : good a) :
    ∃ M, rotation o cos sin k a = .ok M ∧ IsRot good val k (val a) M ∧ M.RowClass k.cls ∧
      Listed M (List.ofFn k.names) (List.ofFn k.names) := by
  obtain ⟨c, c1, c2, c3⟩ := ht.cos a ha
  obtain ⟨s, s1, s2, s3⟩ := ht.sin a ha
  obtain ⟨m, m1, m2, m3⟩ := ho.neg s s2
  have h0 := ho.zero
  have h1 := ho.one
  unfold rotation
  simp only [c1, s1, m1, bind, Except.bind]
  cases k
  · refine ⟨_, rfl, ⟨rfl, isMat_mk2 c2 m2 s2 c2, rfl, ⟨_, rfl, _, rfl, rfl⟩, ?_⟩, ⟨_, rfl⟩, listed_mk2 _ _ _ _⟩
    show toMatrix val _ xy xy = _
    rw [toMatrix_mk2, c3, m3, s3]
    rfl
  · refine ⟨_, rfl, ⟨rfl, isMat_mk3 h1.1 h0.1 h0.1 h0.1 c2 m2 h0.1 s2 c2, rfl, ⟨_, rfl, _, rfl, rfl⟩, ?_⟩, ⟨_, rfl⟩, listed_mk3 _ _ _ _ _ _ _ _ _⟩
    show toMatrix val _ xyz xyz = _
    rw [toMatrix_mk3, c3, m3, s3, h0.2, h1.2]
    rfl
  · refine ⟨_, rfl, ⟨rfl, isMat_mk3 c2 h0.1 s2 h0.1 h1.1 h0.1 m2 h0.1 c2, rfl, ⟨_, rfl, _, rfl, rfl⟩, ?_⟩, ⟨_, rfl⟩, listed_mk3 _ _ _ _ _ _ _ _ _⟩
    show toMatrix val _ xyz xyz = _
    rw [toMatrix_mk3, c3, m3, s3, h0.2, h1.2]
    rfl
  · refine ⟨_, rfl, ⟨rfl, isMat_mk3 c2 m2 h0.1 s2 c2 h0.1 h0.1 h0.1 h1.1, rfl, ⟨_, rfl, _, rfl, rfl⟩, ?_⟩, ⟨_, rfl⟩, listed_mk3 _ _ _ _ _ _ _ _ _⟩
    show toMatrix val _ xyz xyz = _
    rw [toMatrix_mk3, c3, m3, s3, h0.2, h1.2]
    rfl

theorem mval_of_toMatrix {M N : Mat α} {k : Rotation}
    (h : toMatrix val M k.names k.names = toMatrix val N k.names k.names) :
    ∀ r ∈ k.set, ∀ c ∈ k.set, mval val M.rows r c = mval val N.rows r c := by
  intro r hr c hc
  rw [← k.names_spec.1] at hr hc
  obtain ⟨i, -, rfl⟩ := Finset.mem_image.1 hr
  obtain ⟨j, -, rfl⟩ := Finset.mem_image.1 hc
  exact congrFun (congrFun h i) j

theorem layout_const {rows rows' : List (String × Comp (Comp α))} {k : Rotation} (h : layout rows = layout k.form.rows)
    {row : Comp α} {row' : Comp Unit} (h' : (leavesL k.form.rows).head? = some row') (h'' : row.skel = row'.skel) :
    mapL (fun _ => row.skel) rows = layout k.form.rows := by
  have : mapL (fun _ => row.skel) rows = mapL (fun _ => row.skel) (layout rows) := by unfold layout; rw [mapL_mapL]; rfl
  rw [this, h, h'']
  cases k <;> (cases h'; rfl)

/-- The product of two rotations about the same axis is the rotation by the sum of the angles. -/
theorem IsRot.mul (ho : o.Sound dv good val) {k : Rotation} {s t : ℝ} {A B : Mat α} (hA : IsRot good val k s A)
    (hB : IsRot good val k t B) : ∃ P, A.matMat o B = .ok P ∧ P.cls = k.cls ∧ IsMat good k.set k.set P.rows ∧
      layout P.rows = layout k.form.rows ∧ toMatrix val P k.names k.names = k.spec (s + t) := by
  obtain ⟨P, row, p1, p2, p3, p4, p5, p6⟩ := C40_matMat ho A B hA.mat hB.mat
  have hm : ∀ i, k.names i ∈ k.set := fun i => by
    rw [← k.names_spec.1]; exact Finset.mem_image_of_mem _ (Finset.mem_univ i)
  refine ⟨P, p2, p3.trans hA.cls, p4, ?_, ?_⟩
  · obtain ⟨row1, h1, row', h2, h3⟩ := hB.row
    rw [p1] at h1
    cases h1
    rw [p5, layout_const (rows' := A.rows) hA.lay h2 h3]
  · rw [toMatrix_mul (good := good) (M := A) (N := B) (cs := k.names) k.names_spec.2 k.names_spec.1
      (fun i j => p6 _ (hm i) _ (hm j)), hA.values, hB.values, k.spec_add]

/-- **C41** Rotating by `b` and then by `a` about the same axis is rotating by `a + b`: the matrices are the same. -/
theorem C41_compose (ho : o.Sound dv good val) (ht : TrigSound cos sin good val) (k : Rotation) {a b : α} (ha : good a)
    (hb : good b) : ∃ A B c C P, rotation o cos sin k a = .ok A ∧ rotation o cos sin k b = .ok B ∧ o.add a b = .ok c ∧
      rotation o cos sin k c = .ok C ∧ A.matMat o B = .ok P ∧ SameMat val P C := by
  obtain ⟨A, A1, A2, -⟩ := C41_rotation ho ht k ha
  obtain ⟨B, B1, B2, -⟩ := C41_rotation ho ht k hb
  obtain ⟨c, c1, c2, c3⟩ := ho.add a b ha hb
  obtain ⟨C, C1, C2, -⟩ := C41_rotation ho ht k c2
  obtain ⟨P, p1, p2, p3, p4, p5⟩ := A2.mul ho B2
  refine ⟨A, B, c, C, P, A1, B1, c1, C1, p1, ?_⟩
  refine sameMat_of p3 C2.mat (p2.trans C2.cls.symm) (p4.trans C2.lay.symm) (mval_of_toMatrix ?_)
  rw [p5, C2.values, c3]

/-- **C41** Rotations about the same axis commute. -/
theorem C41_commute (ho : o.Sound dv good val) (ht : TrigSound cos sin good val) (k : Rotation) {a b : α} (ha : good a)
    (hb : good b) : ∃ A B P Q, rotation o cos sin k a = .ok A ∧ rotation o cos sin k b = .ok B ∧
      A.matMat o B = .ok P ∧ B.matMat o A = .ok Q ∧ SameMat val P Q := by
  obtain ⟨A, A1, A2, -⟩ := C41_rotation ho ht k ha
  obtain ⟨B, B1, B2, -⟩ := C41_rotation ho ht k hb
  obtain ⟨P, p1, p2, p3, p4, p5⟩ := A2.mul ho B2
  obtain ⟨Q, q1, q2, q3, q4, q5⟩ := B2.mul ho A2
  refine ⟨A, B, P, Q, A1, B1, p1, q1, ?_⟩
  refine sameMat_of p3 q3 (p2.trans q2.symm) (p4.trans q4.symm) (mval_of_toMatrix ?_)
  rw [p5, q5, add_comm]

/-- **C41** The transpose of a rotation is the rotation by the opposite angle, and it is the two-sided inverse. -/
theorem C41_orthogonal (ho : o.Sound dv good val) (ht : TrigSound cos sin good val) (k : Rotation) {a : α} (ha : good a) :
    ∃ A T n N P Q, rotation o cos sin k a = .ok A ∧ A.transpose o = .ok T ∧ o.neg a = .ok n ∧
      rotation o cos sin k n = .ok N ∧ SameMat val T N ∧ A.matMat o T = .ok P ∧ T.matMat o A = .ok Q ∧
      IsIdentity val k.set P ∧ IsIdentity val k.set Q := by
  obtain ⟨A, A1, A2, -⟩ := C41_rotation ho ht k ha
  obtain ⟨n, n1, n2, n3⟩ := ho.neg a ha
  obtain ⟨N, N1, N2, -⟩ := C41_rotation ho ht k n2
  obtain ⟨T, cls, cs, t1, t2, t3, t4, t5, t6⟩ := C40_transpose o A A2.mat
  have hT : toMatrix val T k.names k.names = k.spec (-val a) := by
    rw [k.spec_neg, ← A2.values]
    ext i j
    simp only [toMatrix, Matrix.of_apply, Matrix.transpose_apply]
    unfold mval
    rw [t6]
  obtain ⟨row, r1, row', r2, r3⟩ := A2.row
  rw [t1] at r1
  cases r1
  have hTr : IsRot good val k (-val a) T := by
    have hl : layout T.rows = layout k.form.rows := by
      have hA := A2.lay
      have hc := A2.cls
      rw [t5]
      have hsk : skelL A.rows = skelL k.form.rows := by rw [← skelL_layout, hA, skelL_layout]
      rw [hsk, hc]
      have h2 : mapL (fun _ => Comp.node k.cls (skelL k.form.rows)) cs =
          mapL (fun _ => Comp.node k.cls (skelL k.form.rows)) (skelL cs) := by unfold skelL; rw [mapL_mapL]; rfl
      rw [h2]
      cases k <;> (cases r2; simp only [skel, map, Comp.node.injEq] at r3; show mapL _ (mapL _ cs) = _; rw [r3.2]; rfl)
    have hcls : T.cls = k.cls := by
      rw [t3]
      cases k <;> (cases r2; simp only [skel, map, Comp.node.injEq] at r3; exact r3.1)
    have hrows : ∃ row, (leavesL T.rows).head? = some row ∧
        ∃ row', (leavesL k.form.rows).head? = some row' ∧ row.skel = row'.skel := by
      obtain ⟨row, -, -, hrow⟩ := t4.proto
      refine ⟨row, hrow, ?_⟩
      have h3 : (leavesL (layout T.rows)).head? = some row.skel := by
        unfold layout; rw [Mat.leavesL_mapL, List.head?_map, hrow]; rfl
      rw [hl] at h3
      unfold layout at h3
      rw [Mat.leavesL_mapL, List.head?_map] at h3
      cases hh : (leavesL k.form.rows).head? with
      | none => rw [hh] at h3; cases h3
      | some row' => rw [hh] at h3; refine ⟨row', rfl, ?_⟩; injection h3 with h3; exact h3.symm
    exact ⟨hcls, t4, hl, hrows, hT⟩
  obtain ⟨P, p1, p2, p3, p4, p5⟩ := A2.mul ho hTr
  obtain ⟨Q, q1, q2, q3, q4, q5⟩ := hTr.mul ho A2
  refine ⟨A, T, n, N, P, Q, A1, t2, n1, N1, ?_, p1, q1, ?_, ?_⟩
  · refine sameMat_of t4 N2.mat (hTr.cls.trans N2.cls.symm) (hTr.lay.trans N2.lay.symm) (mval_of_toMatrix ?_)
    rw [hT, N2.values, n3]
  · rw [isIdentity_iff k.names_spec.1 k.names_spec.2, p5, add_neg_cancel, k.spec_zero]
  · rw [isIdentity_iff k.names_spec.1 k.names_spec.2, q5, neg_add_cancel, k.spec_zero]

/-- **C41** The determinant of a rotation is one. -/
theorem C41_determinant (ho : o.Sound dv good val) (ht : TrigSound cos sin good val) (k : Rotation) {a : α} (ha : good a) :
    ∃ A d, rotation o cos sin k a = .ok A ∧ (if k.dim = 2 then A.determinant2 o else A.determinant3 o) = .ok d ∧
      good d ∧ val d = 1 := by
  obtain ⟨A, A1, A2, -, A4⟩ := C41_rotation ho ht k ha
  cases k
  · obtain ⟨d, d1, d2, d3⟩ := C40_determinant2 ho A A2.mat xy xy xy_names.2 A4
    exact ⟨A, d, A1, d1, d2, by rw [d3, A2.values]; exact Rotation.spec_det .d2 (val a)⟩
  · obtain ⟨d, d1, d2, d3⟩ := C40_determinant3 ho A A2.mat xyz xyz xyz_names.2 A4
    exact ⟨A, d, A1, d1, d2, by rw [d3, A2.values]; exact Rotation.spec_det .x (val a)⟩
  · obtain ⟨d, d1, d2, d3⟩ := C40_determinant3 ho A A2.mat xyz xyz xyz_names.2 A4
    exact ⟨A, d, A1, d1, d2, by rw [d3, A2.values]; exact Rotation.spec_det .y (val a)⟩
  · obtain ⟨d, d1, d2, d3⟩ := C40_determinant3 ho A A2.mat xyz xyz xyz_names.2 A4
    exact ⟨A, d, A1, d1, d2, by rw [d3, A2.values]; exact Rotation.spec_det .z (val a)⟩

/-- **C41** The `inverse` of a rotation is the rotation by the opposite angle. -/
theorem C41_inverse (ho : o.Sound dv good val) (ht : TrigSound cos sin good val)
    (hdv : ∀ a b, b ≠ 0 → dv a b = a / b) (k : Rotation) {a : α} (ha : good a) :
    ∃ A inv n N, rotation o cos sin k a = .ok A ∧ A.inverse o sigEx = .ok inv ∧ o.neg a = .ok n ∧
      rotation o cos sin k n = .ok N ∧ ∀ r c, mval val inv.rows r c = mval val N.rows r c := by
  obtain ⟨A, A1, A2, ⟨cs, A3⟩, A4⟩ := C41_rotation ho ht k ha
  obtain ⟨n, n1, n2, n3⟩ := ho.neg a ha
  obtain ⟨N, N1, N2, -⟩ := C41_rotation ho ht k n2
  have hsig : ∀ cls l, (leavesL A.rows).head? = some (.node cls l) → SigOk sigEx A.cls (keys l) := by
    intro cls l h
    obtain ⟨row, r1, row', r2, r3⟩ := A2.row
    rw [r1] at h
    cases h
    have hk : keys l = keys (skelL l) := (keys_mapL _ _).symm
    rw [hk, A2.cls]
    cases k <;> (cases r2; simp only [skel, map, Comp.node.injEq] at r3; unfold skelL; rw [r3.2]
                 exact .inr ⟨_, rfl, List.Perm.refl _⟩)
  have hdet : (toMatrix val A k.names k.names).det ≠ 0 := by rw [A2.values, k.spec_det]; exact one_ne_zero
  obtain ⟨inv, i1, i2, i3, i4, i5⟩ := C39_inverse_partial ho hdv sigEx A A2.mat hsig
    (n := k.dim) (by cases k <;> decide) k.names k.names (listed_ordered A2.mat A4) hdet
  refine ⟨A, inv, n, N, A1, i1, n1, N1, ?_⟩
  have hv : toMatrix val inv k.names k.names = toMatrix val N k.names k.names := by
    have h1 : toMatrix val N k.names k.names * toMatrix val A k.names k.names = 1 := by
      rw [N2.values, A2.values, k.spec_add, n3, neg_add_cancel, k.spec_zero]
    exact (left_inv_eq_right_inv h1 i4).symm
  intro r c
  by_cases hrc : r ∈ k.set ∧ c ∈ k.set
  · exact mval_of_toMatrix hv r hrc.1 c hrc.2
  · have : r ∉ k.set ∨ c ∉ k.set := by tauto
    rw [mval_out i3 this, mval_out N2.mat this]

/-- **C41** A rotation preserves dot products, in particular squared lengths. -/
theorem C41_dot (ho : o.Sound dv good val) (ht : TrigSound cos sin good val) (k : Rotation) {a : α} (ha : good a)
    (v w : Vec α) (hv : IsVec good k.set v.toComp) (hw : IsVec good k.set w.toComp) (hcv : v.cls = k.cls)
    (hcw : w.cls = k.cls) :
    ∃ A v' w' s t, rotation o cos sin k a = .ok A ∧ A.matVec o v = .ok v' ∧ A.matVec o w = .ok w' ∧
      dot o v.toComp w.toComp = .ok s ∧ dot o v'.toComp w'.toComp = .ok t ∧ val t = val s ∧
      v'.cls = k.cls ∧ IsVec good k.set v'.toComp := by
  obtain ⟨A, A1, A2, A3, -⟩ := C41_rotation ho ht k ha
  obtain ⟨v', v1, v2, -, v4, v5⟩ := C40_matVec ho A v A2.mat hv (hcv ▸ A3)
  obtain ⟨w', w1, w2, -, w4, w5⟩ := C40_matVec ho A w A2.mat hw (hcw ▸ A3)
  obtain ⟨s, s1, -, s3⟩ := C40_dot ho hv hw
  obtain ⟨t, t1, -, t3⟩ := C40_dot ho v4 w4
  refine ⟨A, v', w', s, t, A1, v1, w1, s1, t1, ?_, v2.trans A2.cls, v4⟩
  rw [t3, s3]
  have hsum : ∀ f : String → ℝ, ∑ c ∈ k.set, f c = ∑ i, f (k.names i) := fun f => by
    rw [← k.names_spec.1, Finset.sum_image (fun _ _ _ _ h => k.names_spec.2 h)]
  have hm : ∀ i, k.names i ∈ k.set := fun i => by
    rw [← k.names_spec.1]; exact Finset.mem_image_of_mem _ (Finset.mem_univ i)
  have hv' : (fun i => v'.toComp.vval val (k.names i)) =
      (k.spec (val a)).mulVec (fun i => v.toComp.vval val (k.names i)) := by
    funext i
    rw [v5 _ (hm i), hsum, ← A2.values]
    rfl
  have hw' : (fun i => w'.toComp.vval val (k.names i)) =
      (k.spec (val a)).mulVec (fun i => w.toComp.vval val (k.names i)) := by
    funext i
    rw [w5 _ (hm i), hsum, ← A2.values]
    rfl
  rw [hsum, hsum]
  show dotProduct (fun i => v'.toComp.vval val (k.names i)) (fun i => w'.toComp.vval val (k.names i)) =
    dotProduct (fun i => v.toComp.vval val (k.names i)) (fun i => w.toComp.vval val (k.names i))
  rw [hv', hw', Matrix.dotProduct_mulVec, ← Matrix.mulVec_transpose, Matrix.mulVec_mulVec, ← k.spec_neg, k.spec_add,
    neg_add_cancel, k.spec_zero, Matrix.one_mulVec]

end general

/-! ### Real numbers and named arrays -/

/-- real division -/
noncomputable def dvR (a b : ℝ) : ℝ := a / b

theorem trig_num : TrigSound (fun t => .ok (Real.cos t)) (fun t => .ok (Real.sin t)) anyNum id :=
  ⟨fun a _ => ⟨_, rfl, trivial, rfl⟩, fun a _ => ⟨_, rfl, trivial, rfl⟩⟩

theorem trig_named {S : Shape} {e : String → Nat} :
    TrigSound (SA.ufunc1 Real.cos) (SA.ufunc1 Real.sin) (inShape S) (fun a => a.atB e) where
  cos a ha := by
    obtain ⟨c, h1, h2, h3⟩ := ufunc1_fits Real.cos ha.1 ha.2
    exact ⟨c, h1, h2, h3 e⟩
  sin a ha := by
    obtain ⟨c, h1, h2, h3⟩ := ufunc1_fits Real.sin ha.1 ha.2
    exact ⟨c, h1, h2, h3 e⟩

/-- the rotation by a real angle -/
noncomputable abbrev rotR (k : Rotation) (a : ℝ) : R (Mat ℝ) :=
  rotation (Ops.num dvR) (fun t => .ok (Real.cos t)) (fun t => .ok (Real.sin t)) k a

/-- **C41** For numbers: `R(a) @ R(b)` is the very matrix `R(a + b)`. -/
theorem C41_compose_numbers (k : Rotation) (a b : ℝ) : ∃ A B C, rotR k a = .ok A ∧ rotR k b = .ok B ∧
    rotR k (a + b) = .ok C ∧ A.matMat (Ops.num dvR) B = .ok C := by
  obtain ⟨A, A1, A2, -⟩ := C41_rotation (Ops.num_sound dvR) trig_num k (a := a) trivial
  obtain ⟨B, B1, B2, -⟩ := C41_rotation (Ops.num_sound dvR) trig_num k (a := b) trivial
  obtain ⟨C, C1, C2, -⟩ := C41_rotation (Ops.num_sound dvR) trig_num k (a := a + b) trivial
  obtain ⟨P, p1, p2, p3, p4, p5⟩ := A2.mul (Ops.num_sound dvR) B2
  refine ⟨A, B, C, A1, B1, C1, ?_⟩
  have : SameMat id P C := sameMat_of p3 C2.mat (p2.trans C2.cls.symm) (p4.trans C2.lay.symm)
    (mval_of_toMatrix (by rw [p5, C2.values]; rfl))
  rw [p1, this.eq p3 C2.mat]

/-- **C41** For named arrays of angles which broadcast to a common shape: at each named index, `R(a) @ R(b)` is the rotation by
the sum of the angles at this index. -/
theorem C41_compose_named (k : Rotation) (S : Shape) (hS : ∃ e, InRange S e) (a b : SA ℝ) (ha : inShape S a) (hb : inShape S b) :
    ∃ A B c C P, rotation (Ops.named dvR) (SA.ufunc1 Real.cos) (SA.ufunc1 Real.sin) k a = .ok A ∧
      rotation (Ops.named dvR) (SA.ufunc1 Real.cos) (SA.ufunc1 Real.sin) k b = .ok B ∧
      (Ops.named dvR).add a b = .ok c ∧
      rotation (Ops.named dvR) (SA.ufunc1 Real.cos) (SA.ufunc1 Real.sin) k c = .ok C ∧
      A.matMat (Ops.named dvR) B = .ok P ∧
      ∀ e, InRange S e → SameMat (fun a => a.atB e) P C ∧
        toMatrix (fun a => a.atB e) P k.names k.names = k.spec (a.atB e + b.atB e) := by
  obtain ⟨e0, he0⟩ := hS
  obtain ⟨A, B, c, C, P, h1, h2, h3, h4, h5, -⟩ :=
    C41_compose (Ops.named_sound dvR S he0) (trig_named (S := S) (e := e0)) k ha hb
  refine ⟨A, B, c, C, P, h1, h2, h3, h4, h5, fun e he => ?_⟩
  obtain ⟨A', B', c', C', P', g1, g2, g3, g4, g5, g6⟩ :=
    C41_compose (Ops.named_sound dvR S he) (trig_named (S := S) (e := e)) k ha hb
  rw [h1] at g1; cases g1
  rw [h2] at g2; cases g2
  rw [h3] at g3; cases g3
  rw [h4] at g4; cases g4
  rw [h5] at g5; cases g5
  refine ⟨g6, ?_⟩
  obtain ⟨A', A1, A2, -⟩ := C41_rotation (Ops.named_sound dvR S he) (trig_named (S := S) (e := e)) k ha
  rw [h1] at A1; cases A1
  obtain ⟨B', B1, B2, -⟩ := C41_rotation (Ops.named_sound dvR S he) (trig_named (S := S) (e := e)) k hb
  rw [h2] at B1; cases B1
  obtain ⟨P', p1, -, -, -, p5⟩ := A2.mul (Ops.named_sound dvR S he) B2
  rw [h5] at p1; cases p1
  exact p5

/-- two vectors of the space -/
example : ∃ A v' w' s t, rotR .z 1 = .ok A ∧
    A.matVec (Ops.num dvR) ⟨"Cartesian3d", [("x", .leaf 1), ("y", .leaf 2), ("z", .leaf 3)]⟩ = .ok v' ∧
    A.matVec (Ops.num dvR) ⟨"Cartesian3d", [("x", .leaf 4), ("y", .leaf 5), ("z", .leaf 6)]⟩ = .ok w' ∧
    dot (Ops.num dvR) (.node "Cartesian3d" [("x", .leaf 1), ("y", .leaf 2), ("z", .leaf 3)])
      (.node "Cartesian3d" [("x", .leaf 4), ("y", .leaf 5), ("z", .leaf 6)]) = .ok s ∧
    dot (Ops.num dvR) v'.toComp w'.toComp = .ok t ∧ t = s ∧ v'.cls = "Cartesian3d" ∧ IsVec anyNum sxyz v'.toComp :=
  C41_dot (Ops.num_sound dvR) trig_num .z (a := 1) trivial
    ⟨"Cartesian3d", [("x", .leaf 1), ("y", .leaf 2), ("z", .leaf 3)]⟩
    ⟨"Cartesian3d", [("x", .leaf 4), ("y", .leaf 5), ("z", .leaf 6)]⟩
    (isVec_mk3 trivial trivial trivial) (isVec_mk3 trivial trivial trivial) rfl rfl

/-- the angle may be an array -/
example : inShape [("t", 3)] (SA.scalar (1 : ℝ)) ∧ ∃ e, InRange [("t", 3)] e :=
  ⟨scalar_fits _ _, fun _ => 0, by
    intro ax n h
    have := mem_of_get? h
    simp only [List.mem_singleton, Prod.mk.injEq] at this
    show 0 < n
    omega⟩

end NA
