import Verif.Props.Matrices
import Verif.Matrix.Named

/-!
# Matrices: the laws of products and transposes (C40)

Each law is proved first for any sound arithmetic, then for numbers (where it is an equality of matrices) and
for named arrays (where it holds at each named index; the shapes of the entries may differ because the product with an array
of zeros has no axes).
-/

namespace NA
open Dict Comp
open SA (FitsIn InRange)

variable {α K : Type}

/-- Two matrices of the same class and layout whose entries have the same values. -/
def SameMat [Zero K] (val : α → K) (M N : Mat α) : Prop :=
  M.cls = N.cls ∧ layout M.rows = layout N.rows ∧ ∀ r c, mval val M.rows r c = mval val N.rows r c

/-- Two vectors of the same class and layout whose components have the same values. -/
def SameVec [Zero K] (val : α → K) (v w : Vec α) : Prop :=
  v.cls = w.cls ∧ skelL v.comps = skelL w.comps ∧ ∀ c, v.toComp.vval val c = w.toComp.vval val c

/-- All rows have the same layout (the same class and the same names in the same order). -/
def Uniform (rows : List (String × Comp (Comp α))) : Prop :=
  ∀ row ∈ leavesL rows, ∀ row' ∈ leavesL rows, row.skel = row'.skel

/-! ### Helpers -/

theorem mval_out [Zero K] {val : α → K} {good : α → Prop} {R C : Finset String}
    {rows : List (String × Comp (Comp α))} (h : IsMat good R C rows) {r c : String} (hrc : r ∉ R ∨ c ∉ C) :
    mval val rows r c = 0 := by
  unfold mval entry
  cases hr : get? (cartesianNd rows) r with
  | none => rfl
  | some row =>
    have hR : r ∈ R := by rw [← h.2.2.2.1, List.mem_toFinset]; exact mem_keys_of_get? hr
    rcases hrc with hrc | hrc
    · exact absurd hR hrc
    · rw [Option.bind_some, (coef_of_isVec (h.2.2.2.2 _ (mem_of_get? hr))).2 c hrc]
      rfl

theorem vval_out [Zero K] {val : α → K} {good : α → Prop} {C : Finset String} {v : Comp α} (h : IsVec good C v)
    {c : String} (hc : c ∉ C) : v.vval val c = 0 := by
  unfold vval
  rw [(coef_of_isVec h).2 c hc]
  rfl

theorem sameMat_of [Zero K] {val : α → K} {good : α → Prop} {R C : Finset String} {M N : Mat α}
    (hM : IsMat good R C M.rows) (hN : IsMat good R C N.rows) (hc : M.cls = N.cls)
    (hl : layout M.rows = layout N.rows)
    (h : ∀ r ∈ R, ∀ c ∈ C, mval val M.rows r c = mval val N.rows r c) : SameMat val M N := by
  refine ⟨hc, hl, fun r c => ?_⟩
  by_cases hrc : r ∈ R ∧ c ∈ C
  · exact h r hrc.1 c hrc.2
  · rw [mval_out hM (by tauto), mval_out hN (by tauto)]

theorem sameVec_of [Zero K] {val : α → K} {good : α → Prop} {C : Finset String} {v w : Vec α}
    (hv : IsVec good C v.toComp) (hw : IsVec good C w.toComp) (hc : v.cls = w.cls)
    (hl : skelL v.comps = skelL w.comps)
    (h : ∀ c ∈ C, v.toComp.vval val c = w.toComp.vval val c) : SameVec val v w := by
  refine ⟨hc, hl, fun c => ?_⟩
  by_cases hrc : c ∈ C
  · exact h c hrc
  · rw [vval_out hv hrc, vval_out hw hrc]

/-- For numbers, the same values are the same matrix. -/
theorem SameMat.eq [CommRing K] {good : K → Prop} {R C : Finset String} {M N : Mat K} (h : SameMat id M N)
    (hM : IsMat good R C M.rows) (hN : IsMat good R C N.rows) : M = N := by
  refine mat_ext hM hN h.1 h.2.1 (fun r hr c hc => ?_)
  obtain ⟨a, ha, _⟩ := entry_of_isMat hM hr hc
  obtain ⟨b, hb, _⟩ := entry_of_isMat hN hr hc
  have := h.2.2 r c
  unfold mval at this
  rw [ha, hb] at this ⊢
  exact congrArg some this

theorem SameVec.eq [CommRing K] {good : K → Prop} {C : Finset String} {v w : Vec K} (h : SameVec id v w)
    (hv : IsVec good C v.toComp) (hw : IsVec good C w.toComp) : v = w := by
  refine vec_ext hv hw h.1 h.2.1 (fun c hc => ?_)
  obtain ⟨a, ha, _⟩ := (coef_of_isVec hv).1 c hc
  obtain ⟨b, hb, _⟩ := (coef_of_isVec hw).1 c hc
  have := h.2.2 c
  unfold vval at this
  rw [ha, hb] at this ⊢
  exact congrArg some this

theorem skelL_layout (rows : List (String × Comp (Comp α))) : skelL (layout rows) = skelL rows := Mat.skelL_mapL _ _

theorem mapL_const_of_skelL {β γ δ : Type} {a : List (String × Comp β)} {b : List (String × Comp γ)}
    (h : skelL a = skelL b) (x : δ) : mapL (fun _ => x) a = mapL (fun _ => x) b := by
  have h1 : mapL (fun _ => x) a = mapL (fun _ => x) (skelL a) := by unfold skelL; rw [mapL_mapL]; rfl
  have h2 : mapL (fun _ => x) b = mapL (fun _ => x) (skelL b) := by unfold skelL; rw [mapL_mapL]; rfl
  rw [h1, h2, h]

theorem mapL_congr_leaves {β γ : Type} (f g : β → γ) (rows : List (String × Comp β))
    (h : ∀ row ∈ leavesL rows, f row = g row) : mapL f rows = mapL g rows := by
  have hc : ∀ c : Comp β, (∀ row ∈ c.leaves, f row = g row) → c.map f = c.map g := by
    refine ind ?_ ?_
    · intro a h; simp only [map]; rw [h a (by simp [leaves])]
    · intro cls cs ih h
      simp only [map]
      congr 1
      rw [mapL_eq, mapL_eq]
      refine List.map_congr_left (fun p hp => ?_)
      rw [ih p hp (fun row hr => h row (by
        simp only [leaves]; rw [leavesL_eq]; exact List.mem_flatMap.2 ⟨p, hp, hr⟩))]
  have := hc (.node "" rows) h
  simp only [map] at this
  injection this

theorem leaves_layout (rows : List (String × Comp (Comp α))) : leavesL (layout rows) = (leavesL rows).map skel :=
  Mat.leavesL_mapL _ _

theorem skel_of_layout {β : Type} {rows : List (String × Comp (Comp α))} {N : List (String × Comp β)}
    {s : Comp Unit} (hl : layout rows = mapL (fun _ => s) N) {row : Comp α} (hr : row ∈ leavesL rows) :
    row.skel = s := by
  have h1 := leaves_layout rows
  rw [hl, Mat.leavesL_mapL] at h1
  have h2 : row.skel ∈ (leavesL rows).map skel := List.mem_map.2 ⟨row, hr, rfl⟩
  rw [← h1] at h2
  obtain ⟨_, _, h3⟩ := List.mem_map.1 h2
  exact h3.symm

theorem mval_transpose [Zero K] {val : α → K} {M T : Mat α} (h : ∀ r c, entry T.rows c r = entry M.rows r c)
    (r c : String) : mval val T.rows c r = mval val M.rows r c := by unfold mval; rw [h]

theorem skel_inj {cls cls' : String} {cs : List (String × Comp α)} {cs' : List (String × Comp Unit)}
    (h : (node cls cs).skel = .node cls' cs') : cls = cls' ∧ skelL cs = cs' := by
  rw [skel_node] at h
  injection h with h1 h2
  exact ⟨h1, h2⟩

/-! ### The laws for a sound arithmetic -/

section sound
variable [CommRing K] {o : Ops α} {dv : K → K → K} {good : α → Prop} {val : α → K} {R C D E : Finset String}

/-- Products are associative. -/
theorem sound_assoc (ho : o.Sound dv good val) (M N P : Mat α) (hM : IsMat good R C M.rows)
    (hN : IsMat good C D N.rows) (hP : IsMat good D E P.rows) :
    ∃ MN NP X Y, M.matMat o N = .ok MN ∧ N.matMat o P = .ok NP ∧ MN.matMat o P = .ok X ∧ M.matMat o NP = .ok Y ∧
      IsMat good R E X.rows ∧ IsMat good R E Y.rows ∧ SameMat val X Y := by
  obtain ⟨MN, r1, a1, a2, a3, a4, a5, a6⟩ := C40_matMat ho M N hM hN
  obtain ⟨NP, r2, b1, b2, b3, b4, b5, b6⟩ := C40_matMat ho N P hN hP
  obtain ⟨X, r3, c1, c2, c3, c4, c5, c6⟩ := C40_matMat ho MN P a4 hP
  obtain ⟨Y, r4, d1, d2, d3, d4, d5, d6⟩ := C40_matMat ho M NP hM b4
  refine ⟨MN, NP, X, Y, a2, b2, c2, d2, c4, d4, sameMat_of c4 d4 (by rw [c3, a3, d3]) ?_ ?_⟩
  · have h1 : skelL MN.rows = skelL M.rows := by rw [← skelL_layout, a5, Mat.skelL_mapL]
    rw [c5, d5, mapL_const_of_skelL h1, skel_of_layout b5 (List.mem_of_head? d1)]
    rw [b1] at c1
    cases c1
    rfl
  · intro r hr e he
    rw [c6 r hr e he, d6 r hr e he]
    have h1 : ∀ d ∈ D, mval val MN.rows r d * mval val P.rows d e =
        ∑ c ∈ C, mval val M.rows r c * mval val N.rows c d * mval val P.rows d e := fun d hd => by
      rw [a6 r hr d hd, Finset.sum_mul]
    have h2 : ∀ c ∈ C, mval val M.rows r c * mval val NP.rows c e =
        ∑ d ∈ D, mval val M.rows r c * mval val N.rows c d * mval val P.rows d e := fun c hc => by
      rw [b6 c hc e he, Finset.mul_sum]
      exact Finset.sum_congr rfl (fun d _ => (mul_assoc _ _ _).symm)
    rw [Finset.sum_congr rfl h1, Finset.sum_congr rfl h2, Finset.sum_comm]

/-- Transposing reverses products. -/
theorem sound_transpose_product (ho : o.Sound dv good val) (M N : Mat α) (hM : IsMat good R C M.rows)
    (hN : IsMat good C D N.rows) :
    ∃ MN Mt Nt X Y, M.matMat o N = .ok MN ∧ M.transpose o = .ok Mt ∧ N.transpose o = .ok Nt ∧
      MN.transpose o = .ok X ∧ Nt.matMat o Mt = .ok Y ∧
      IsMat good D R X.rows ∧ IsMat good D R Y.rows ∧ SameMat val X Y := by
  obtain ⟨MN, r1, a1, a2, a3, a4, a5, a6⟩ := C40_matMat ho M N hM hN
  obtain ⟨Mt, cls2, cs2, b1, b2, b3, b4, b5, b6⟩ := C40_transpose o M hM
  obtain ⟨Nt, cls3, cs3, c1, c2, c3, c4, c5, c6⟩ := C40_transpose o N hN
  obtain ⟨X, cls4, cs4, d1, d2, d3, d4, d5, d6⟩ := C40_transpose o MN a4
  obtain ⟨Y, r5, e1, e2, e3, e4, e5, e6⟩ := C40_matMat ho Nt Mt c4 b4
  have hcls : r1 = .node cls3 cs3 := by rw [a1] at c1; exact Option.some.inj c1
  have h4 := skel_inj ((skel_of_layout a5 (List.mem_of_head? d1)).trans (by rw [hcls, skel_node]))
  have hskM : skelL MN.rows = skelL M.rows := by rw [← skelL_layout, a5, Mat.skelL_mapL]
  have hskN : skelL Nt.rows = skelL cs3 := by rw [← skelL_layout, c5, Mat.skelL_mapL]
  refine ⟨MN, Mt, Nt, X, Y, a2, b2, c2, d2, e2, d4, e4, sameMat_of d4 e4 ?_ ?_ ?_⟩
  · rw [d3, e3, c3, h4.1]
  · rw [d5, e5, skel_of_layout b5 (List.mem_of_head? e1), hskM, a3]
    exact mapL_const_of_skelL (h4.2.trans hskN.symm) _
  · intro d hd r hr
    rw [mval_transpose d6, a6 r hr d hd, e6 d hd r hr]
    refine Finset.sum_congr rfl (fun c _ => ?_)
    rw [mval_transpose b6, mval_transpose c6, mul_comm]

/-- Applying a product is applying its factors one after the other. -/
theorem sound_matVec_assoc (ho : o.Sound dv good val) (M N : Mat α) (x : Vec α) (hM : IsMat good R C M.rows)
    (hN : IsMat good C D N.rows) (hx : IsVec good D x.toComp) (h1 : N.RowClass x.cls) (h2 : M.RowClass N.cls) :
    ∃ MN Nx y z, M.matMat o N = .ok MN ∧ N.matVec o x = .ok Nx ∧ MN.matVec o x = .ok y ∧ M.matVec o Nx = .ok z ∧
      IsVec good R y.toComp ∧ IsVec good R z.toComp ∧ SameVec val y z := by
  obtain ⟨MN, r1, a1, a2, a3, a4, a5, a6⟩ := C40_matMat ho M N hM hN
  obtain ⟨Nx, b1, b2, b3, b4, b5⟩ := C40_matVec ho N x hN hx h1
  obtain ⟨cs, h1⟩ := h1
  rw [a1] at h1
  cases h1
  have hc : MN.RowClass x.cls := by
    obtain ⟨row, -, ⟨cls', cs', e, -⟩, hrow⟩ := a4.proto
    subst e
    have := skel_inj ((skel_of_layout a5 (List.mem_of_head? hrow)).trans (skel_node _ _))
    exact ⟨cs', by rw [hrow, this.1]⟩
  obtain ⟨y, c1, c2, c3, c4, c5⟩ := C40_matVec ho MN x a4 hx hc
  obtain ⟨z, d1, d2, d3, d4, d5⟩ := C40_matVec ho M Nx hM b4 (by rw [b2]; exact h2)
  refine ⟨MN, Nx, y, z, a2, b1, c1, d1, c4, d4, sameVec_of c4 d4 (by rw [c2, a3, d2]) ?_ ?_⟩
  · rw [c3, d3, ← skelL_layout, a5, Mat.skelL_mapL]
  · intro r hr
    rw [c5 r hr, d5 r hr]
    have e1 : ∀ d ∈ D, mval val MN.rows r d * x.toComp.vval val d =
        ∑ c ∈ C, mval val M.rows r c * mval val N.rows c d * x.toComp.vval val d := fun d hd => by
      rw [a6 r hr d hd, Finset.sum_mul]
    have e2 : ∀ c ∈ C, mval val M.rows r c * Nx.toComp.vval val c =
        ∑ d ∈ D, mval val M.rows r c * mval val N.rows c d * x.toComp.vval val d := fun c hc => by
      rw [b5 c hc, Finset.mul_sum]
      exact Finset.sum_congr rfl (fun d _ => (mul_assoc _ _ _).symm)
    rw [Finset.sum_congr rfl e1, Finset.sum_congr rfl e2, Finset.sum_comm]

/-- `(x @ M) @ y` is `x @ (M @ y)`. -/
theorem sound_adjoint (ho : o.Sound dv good val) (M : Mat α) (x y : Vec α) (hM : IsMat good R C M.rows)
    (hx : IsVec good R x.toComp) (hy : IsVec good C y.toComp) (hc : M.RowClass y.cls) :
    ∃ xM My s t, Mat.vecMat o x M = .ok xM ∧ M.matVec o y = .ok My ∧ dot o xM.toComp y.toComp = .ok s ∧
      dot o x.toComp My.toComp = .ok t ∧ val s = val t := by
  obtain ⟨xM, _, _, -, a1, -, -, a2, a3⟩ := C40_vecMat ho x M hM hx
  obtain ⟨My, b1, -, -, b2, b3⟩ := C40_matVec ho M y hM hy hc
  obtain ⟨s, c1, -, c2⟩ := C40_dot ho a2 hy
  obtain ⟨t, d1, -, d2⟩ := C40_dot ho hx b2
  refine ⟨xM, My, s, t, a1, b1, c1, d1, ?_⟩
  rw [c2, d2]
  have e1 : ∀ c ∈ C, xM.toComp.vval val c * y.toComp.vval val c =
      ∑ r ∈ R, x.toComp.vval val r * mval val M.rows r c * y.toComp.vval val c := fun c hc => by
    rw [a3 c hc, Finset.sum_mul]
  have e2 : ∀ r ∈ R, x.toComp.vval val r * My.toComp.vval val r =
      ∑ c ∈ C, x.toComp.vval val r * mval val M.rows r c * y.toComp.vval val c := fun r hr => by
    rw [b3 r hr, Finset.mul_sum]
    exact Finset.sum_congr rfl (fun d _ => (mul_assoc _ _ _).symm)
  rw [Finset.sum_congr rfl e1, Finset.sum_congr rfl e2, Finset.sum_comm]

/-- A matrix with the entries of an identity matrix. -/
def IsIdentity [Zero K] [One K] (val : α → K) (R : Finset String) (M : Mat α) : Prop :=
  ∀ r ∈ R, ∀ c ∈ R, mval val M.rows r c = if r = c then 1 else 0

/-- Identity matrices are neutral on the left: the entries of the product are those of the other matrix. -/
theorem sound_identity_left (ho : o.Sound dv good val) (I M : Mat α) (hI : IsMat good R R I.rows)
    (h1 : IsIdentity val R I) (hM : IsMat good R C M.rows) :
    ∃ X, I.matMat o M = .ok X ∧ IsMat good R C X.rows ∧ X.cls = I.cls ∧
      (skelL I.rows = skelL M.rows → Uniform M.rows → layout X.rows = layout M.rows) ∧
      ∀ r c, mval val X.rows r c = mval val M.rows r c := by
  obtain ⟨X, row, a1, a2, a3, a4, a5, a6⟩ := C40_matMat ho I M hI hM
  refine ⟨X, a2, a4, a3, ?_, fun r c => ?_⟩
  · intro hs hu
    rw [a5, mapL_const_of_skelL hs]
    unfold layout
    exact mapL_congr_leaves _ _ _ (fun r hr => (hu r hr row (List.mem_of_head? a1)).symm)
  · by_cases hrc : r ∈ R ∧ c ∈ C
    · rw [a6 r hrc.1 c hrc.2, Finset.sum_eq_single r]
      · rw [h1 r hrc.1 r hrc.1, if_pos rfl, one_mul]
      · intro b hb hne
        rw [h1 r hrc.1 b hb, if_neg (Ne.symm hne), zero_mul]
      · intro h; exact absurd hrc.1 h
    · rw [mval_out a4 (by tauto), mval_out hM (by tauto)]

/-- Identity matrices are neutral on the right. -/
theorem sound_identity_right (ho : o.Sound dv good val) (I M : Mat α) (hI : IsMat good C C I.rows)
    (h1 : IsIdentity val C I) (hM : IsMat good R C M.rows) :
    ∃ X, M.matMat o I = .ok X ∧ IsMat good R C X.rows ∧ X.cls = M.cls ∧
      ((∀ row ∈ leavesL M.rows, ∀ row' ∈ leavesL I.rows, row.skel = row'.skel) → layout X.rows = layout M.rows) ∧
      ∀ r c, mval val X.rows r c = mval val M.rows r c := by
  obtain ⟨X, row, a1, a2, a3, a4, a5, a6⟩ := C40_matMat ho M I hM hI
  refine ⟨X, a2, a4, a3, ?_, fun r c => ?_⟩
  · intro hu
    rw [a5]
    unfold layout
    exact mapL_congr_leaves _ _ _ (fun r hr => (hu r hr row (List.mem_of_head? a1)).symm)
  · by_cases hrc : r ∈ R ∧ c ∈ C
    · rw [a6 r hrc.1 c hrc.2, Finset.sum_eq_single c]
      · rw [h1 c hrc.2 c hrc.2, if_pos rfl, mul_one]
      · intro b hb hne
        rw [h1 b hb c hrc.2, if_neg hne, mul_zero]
      · intro h; exact absurd hrc.2 h
    · rw [mval_out a4 (by tauto), mval_out hM (by tauto)]

end sound

/-! ### Transposing twice -/

/-- **C40** `matrix_transpose` is an involution, for matrices whose rows all have the same layout.  (Otherwise the
entries are still the same, and all rows get the layout of the first one.) -/
theorem C40_transpose_involution (o : Ops α) {good : α → Prop} {R C : Finset String} (M : Mat α)
    (h : IsMat good R C M.rows) :
    ∃ T X, M.transpose o = .ok T ∧ T.transpose o = .ok X ∧ X.cls = M.cls ∧
      (∀ r c, entry X.rows r c = entry M.rows r c) ∧ (Uniform M.rows → X = M) := by
  obtain ⟨T, cls, cs, a1, a2, a3, a4, a5, a6⟩ := C40_transpose o M h
  obtain ⟨X, cls', cs', b1, b2, b3, b4, b5, b6⟩ := C40_transpose o T a4
  have hs := skel_inj (skel_of_layout a5 (List.mem_of_head? b1))
  have hX : X.cls = M.cls := by rw [b3, hs.1]
  have hsk : skelL T.rows = skelL cs := by rw [← skelL_layout, a5, Mat.skelL_mapL]
  refine ⟨T, X, a2, b2, hX, fun r c => by rw [b6 c r, a6 r c], fun hu => ?_⟩
  refine mat_ext b4 h hX ?_ (fun r _ c _ => by rw [b6 c r, a6 r c])
  rw [b5, mapL_const_of_skelL hs.2, hsk, a3]
  unfold layout
  refine mapL_congr_leaves _ _ _ (fun row hr => ?_)
  have := hu row hr _ (List.mem_of_head? a1)
  rw [this]
  rfl

/-! ### Numbers -/

/-- Any number is an entry. -/
abbrev anyNum {K : Type} : K → Prop := fun _ => True

section numbers
variable [CommRing K] (dv : K → K → K) {R C D E : Finset String}

/-- **C40** Products of matrices of numbers are associative. -/
theorem C40_assoc (M N P : Mat K) (hM : IsMat anyNum R C M.rows) (hN : IsMat anyNum C D N.rows)
    (hP : IsMat anyNum D E P.rows) :
    ∃ MN NP X, M.matMat (Ops.num dv) N = .ok MN ∧ N.matMat (Ops.num dv) P = .ok NP ∧
      MN.matMat (Ops.num dv) P = .ok X ∧ M.matMat (Ops.num dv) NP = .ok X := by
  obtain ⟨MN, NP, X, Y, h1, h2, h3, h4, h5, h6, h7⟩ := sound_assoc (Ops.num_sound dv) M N P hM hN hP
  rw [h7.eq h5 h6] at h3
  exact ⟨MN, NP, Y, h1, h2, h3, h4⟩

/-- **C40** Transposing reverses products. -/
theorem C40_transpose_product (M N : Mat K) (hM : IsMat anyNum R C M.rows) (hN : IsMat anyNum C D N.rows) :
    ∃ MN Mt Nt X, M.matMat (Ops.num dv) N = .ok MN ∧ M.transpose (Ops.num dv) = .ok Mt ∧
      N.transpose (Ops.num dv) = .ok Nt ∧ MN.transpose (Ops.num dv) = .ok X ∧ Nt.matMat (Ops.num dv) Mt = .ok X := by
  obtain ⟨MN, Mt, Nt, X, Y, h1, h2, h3, h4, h5, h6, h7, h8⟩ := sound_transpose_product (Ops.num_sound dv) M N hM hN
  rw [h8.eq h6 h7] at h4
  exact ⟨MN, Mt, Nt, Y, h1, h2, h3, h4, h5⟩

/-- **C40** Applying a product of matrices to a vector is applying one after the other. -/
theorem C40_matVec_assoc (M N : Mat K) (x : Vec K) (hM : IsMat anyNum R C M.rows) (hN : IsMat anyNum C D N.rows)
    (hx : IsVec anyNum D x.toComp) (h1 : N.RowClass x.cls) (h2 : M.RowClass N.cls) :
    ∃ MN Nx y, M.matMat (Ops.num dv) N = .ok MN ∧ N.matVec (Ops.num dv) x = .ok Nx ∧
      MN.matVec (Ops.num dv) x = .ok y ∧ M.matVec (Ops.num dv) Nx = .ok y := by
  obtain ⟨MN, Nx, y, z, a1, a2, a3, a4, a5, a6, a7⟩ := sound_matVec_assoc (Ops.num_sound dv) M N x hM hN hx h1 h2
  rw [a7.eq a5 a6] at a3
  exact ⟨MN, Nx, z, a1, a2, a3, a4⟩

/-- **C40** `(x @ M) @ y` is `x @ (M @ y)`. -/
theorem C40_adjoint (M : Mat K) (x y : Vec K) (hM : IsMat anyNum R C M.rows) (hx : IsVec anyNum R x.toComp)
    (hy : IsVec anyNum C y.toComp) (hc : M.RowClass y.cls) :
    ∃ xM My s, Mat.vecMat (Ops.num dv) x M = .ok xM ∧ M.matVec (Ops.num dv) y = .ok My ∧
      dot (Ops.num dv) xM.toComp y.toComp = .ok s ∧ dot (Ops.num dv) x.toComp My.toComp = .ok s := by
  obtain ⟨xM, My, s, t, h1, h2, h3, h4, h5⟩ := sound_adjoint (Ops.num_sound dv) M x y hM hx hy hc
  have : s = t := h5
  subst this
  exact ⟨xM, My, s, h1, h2, h3, h4⟩

/-- **C40** Identity matrices are neutral.  The product is the other matrix itself if the layouts agree. -/
theorem C40_identity (I J M : Mat K) (hI : IsMat anyNum R R I.rows) (hI' : IsIdentity id R I)
    (hJ : IsMat anyNum C C J.rows) (hJ' : IsIdentity id C J) (hM : IsMat anyNum R C M.rows) :
    (∃ X, I.matMat (Ops.num dv) M = .ok X ∧ (∀ r c, mval id X.rows r c = mval id M.rows r c) ∧
      (I.cls = M.cls → skelL I.rows = skelL M.rows → Uniform M.rows → X = M)) ∧
    (∃ X, M.matMat (Ops.num dv) J = .ok X ∧ (∀ r c, mval id X.rows r c = mval id M.rows r c) ∧
      ((∀ row ∈ leavesL M.rows, ∀ row' ∈ leavesL J.rows, row.skel = row'.skel) → X = M)) := by
  constructor
  · obtain ⟨X, h1, h2, h3, h4, h5⟩ := sound_identity_left (Ops.num_sound dv) I M hI hI' hM
    exact ⟨X, h1, h5, fun a b c => SameMat.eq ⟨h3.trans a, h4 b c, h5⟩ h2 hM⟩
  · obtain ⟨X, h1, h2, h3, h4, h5⟩ := sound_identity_right (Ops.num_sound dv) J M hJ hJ' hM
    exact ⟨X, h1, h5, fun a => SameMat.eq ⟨h3, h4 a, h5⟩ h2 hM⟩

end numbers

/-! ### Named arrays -/

/-- A well-formed named array which can be broadcast to the shape `S`. -/
abbrev inShape {K : Type} (S : Shape) : SA K → Prop := fun a => a.WF ∧ FitsIn a.shape S

section named
variable [CommRing K] [DecidableEq K] (dv : K → K → K) {R C D E : Finset String} (S : Shape)

/-- **C40** Products of matrices of named arrays are associative at each named index. -/
theorem C40_assoc_named (M N P : Mat (SA K)) (hM : IsMat (inShape S) R C M.rows) (hN : IsMat (inShape S) C D N.rows)
    (hP : IsMat (inShape S) D E P.rows) :
    ∃ MN NP X Y, M.matMat (Ops.named dv) N = .ok MN ∧ N.matMat (Ops.named dv) P = .ok NP ∧
      MN.matMat (Ops.named dv) P = .ok X ∧ M.matMat (Ops.named dv) NP = .ok Y ∧
      IsMat (inShape S) R E X.rows ∧ IsMat (inShape S) R E Y.rows ∧
      ∀ e, InRange S e → SameMat (fun a => a.atB e) X Y := by
  obtain ⟨MN, NP, X, Y, h1, h2, h3, h4, h5, h6, h7⟩ := sound_assoc (Ops.named_total dv S) M N P hM hN hP
  refine ⟨MN, NP, X, Y, h1, h2, h3, h4, h5, h6, fun e he => ?_⟩
  obtain ⟨MN', NP', X', Y', a1, a2, a3, a4, _, _, a7⟩ := sound_assoc (Ops.named_sound dv S he) M N P hM hN hP
  rw [h1] at a1; cases a1
  rw [h2] at a2; cases a2
  rw [h3] at a3; cases a3
  rw [h4] at a4; cases a4
  exact a7

/-- **C40** Transposing reverses products of matrices of named arrays. -/
theorem C40_transpose_product_named (M N : Mat (SA K)) (hM : IsMat (inShape S) R C M.rows)
    (hN : IsMat (inShape S) C D N.rows) :
    ∃ MN Mt Nt X Y, M.matMat (Ops.named dv) N = .ok MN ∧ M.transpose (Ops.named dv) = .ok Mt ∧
      N.transpose (Ops.named dv) = .ok Nt ∧ MN.transpose (Ops.named dv) = .ok X ∧ Nt.matMat (Ops.named dv) Mt = .ok Y ∧
      IsMat (inShape S) D R X.rows ∧ IsMat (inShape S) D R Y.rows ∧
      ∀ e, InRange S e → SameMat (fun a => a.atB e) X Y := by
  obtain ⟨MN, Mt, Nt, X, Y, h1, h2, h3, h4, h5, h6, h7, h8⟩ := sound_transpose_product (Ops.named_total dv S) M N hM hN
  refine ⟨MN, Mt, Nt, X, Y, h1, h2, h3, h4, h5, h6, h7, fun e he => ?_⟩
  obtain ⟨MN', Mt', Nt', X', Y', a1, a2, a3, a4, a5, _, _, a8⟩ :=
    sound_transpose_product (Ops.named_sound dv S he) M N hM hN
  rw [h1] at a1; cases a1
  rw [h2] at a2; cases a2
  rw [h3] at a3; cases a3
  rw [h4] at a4; cases a4
  rw [h5] at a5; cases a5
  exact a8

/-- **C40** Applying a product of matrices of named arrays to a vector of named arrays. -/
theorem C40_matVec_assoc_named (M N : Mat (SA K)) (x : Vec (SA K)) (hM : IsMat (inShape S) R C M.rows)
    (hN : IsMat (inShape S) C D N.rows) (hx : IsVec (inShape S) D x.toComp) (h1 : N.RowClass x.cls)
    (h2 : M.RowClass N.cls) :
    ∃ MN Nx y z, M.matMat (Ops.named dv) N = .ok MN ∧ N.matVec (Ops.named dv) x = .ok Nx ∧
      MN.matVec (Ops.named dv) x = .ok y ∧ M.matVec (Ops.named dv) Nx = .ok z ∧
      IsVec (inShape S) R y.toComp ∧ IsVec (inShape S) R z.toComp ∧
      ∀ e, InRange S e → SameVec (fun a => a.atB e) y z := by
  obtain ⟨MN, Nx, y, z, a1, a2, a3, a4, a5, a6, a7⟩ :=
    sound_matVec_assoc (Ops.named_total dv S) M N x hM hN hx h1 h2
  refine ⟨MN, Nx, y, z, a1, a2, a3, a4, a5, a6, fun e he => ?_⟩
  obtain ⟨MN', Nx', y', z', b1, b2, b3, b4, _, _, b7⟩ :=
    sound_matVec_assoc (Ops.named_sound dv S he) M N x hM hN hx h1 h2
  rw [a1] at b1; cases b1
  rw [a2] at b2; cases b2
  rw [a3] at b3; cases b3
  rw [a4] at b4; cases b4
  exact b7

/-- **C40** The entries of a product of matrices of named arrays are the sums of products of the entries, at each named
index. -/
theorem C40_matMat_named (M N : Mat (SA K)) (hM : IsMat (inShape S) R C M.rows) (hN : IsMat (inShape S) C D N.rows) :
    ∃ P, M.matMat (Ops.named dv) N = .ok P ∧ IsMat (inShape S) R D P.rows ∧
      ∀ e, InRange S e → ∀ r ∈ R, ∀ d ∈ D, mval (fun a => a.atB e) P.rows r d =
        ∑ c ∈ C, mval (fun a => a.atB e) M.rows r c * mval (fun a => a.atB e) N.rows c d := by
  obtain ⟨P, row, _, h2, _, h4, _, _⟩ := C40_matMat (Ops.named_total dv S) M N hM hN
  refine ⟨P, h2, h4, fun e he => ?_⟩
  obtain ⟨P', row, _, a2, _, _, _, a6⟩ := C40_matMat (Ops.named_sound dv S he) M N hM hN
  rw [h2] at a2; cases a2
  exact a6

/-- **C40** The components of a product of a matrix of named arrays and a vector of named arrays. -/
theorem C40_matVec_named (M : Mat (SA K)) (x : Vec (SA K)) (hM : IsMat (inShape S) R C M.rows)
    (hx : IsVec (inShape S) C x.toComp) (hc : M.RowClass x.cls) :
    ∃ y, M.matVec (Ops.named dv) x = .ok y ∧ y.cls = M.cls ∧ skelL y.comps = skelL M.rows ∧
      IsVec (inShape S) R y.toComp ∧
      ∀ e, InRange S e → ∀ r ∈ R, y.toComp.vval (fun a => a.atB e) r =
        ∑ c ∈ C, mval (fun a => a.atB e) M.rows r c * x.toComp.vval (fun a => a.atB e) c := by
  obtain ⟨y, h1, h2, h3, h4, h5⟩ := C40_matVec (Ops.named_total dv S) M x hM hx hc
  refine ⟨y, h1, h2, h3, h4, fun e he => ?_⟩
  obtain ⟨y', a1, _, _, _, a5⟩ := C40_matVec (Ops.named_sound dv S he) M x hM hx hc
  rw [h1] at a1; cases a1
  exact a5

end named

end NA
