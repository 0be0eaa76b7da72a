import Verif.Matrix.Lemmas
import Verif.Props.Vectors
import Verif.Props.VectorReduce
import Mathlib.LinearAlgebra.Matrix.Determinant.Basic

/-!
# Matrices: products, transposes, laws (C40)

A matrix is described by its entries `entry M.rows r c` (the dictionary `matrix.entries` of the API), with the
flattened names `r` of its rows and `c` of its columns, and by its layout (`layout M.rows`: the classes and
names of its blocks and rows).  `IsMat good R C M.rows` says that the rows have the (flattened) names `R`,
that each row has the names `C`, and that the entries are good.  `Ops.Sound` says that the
arithmetic of good entries computes with their values in a commutative ring; it holds for numbers, and for named arrays at each
named index (at the end of this file).
-/

namespace NA
open Dict Comp
open SA (FitsIn InRange)

variable {α K : Type}

/-- The class of the rows, that is of the first row, of a matrix. -/
def Mat.RowClass (M : Mat α) (cls : String) : Prop := ∃ cs, (leavesL M.rows).head? = some (.node cls cs)

theorem mat_ext {R C : Finset String} {good : α → Prop} {M N : Mat α} (hM : IsMat good R C M.rows)
    (hN : IsMat good R C N.rows) (hc : M.cls = N.cls) (hl : layout M.rows = layout N.rows)
    (he : ∀ r ∈ R, ∀ c ∈ C, entry M.rows r c = entry N.rows r c) : M = N := by
  obtain ⟨cm, rm⟩ := M
  obtain ⟨cn, rn⟩ := N
  simp only at *
  subst hc
  congr 1
  have hsk : skelL rm = skelL rn := by
    have := congrArg skelL hl
    unfold layout at this
    rwa [Mat.skelL_mapL, Mat.skelL_mapL] at this
  refine ext_entriesL hM.2.1 hN.2.1 hsk ?_
  rw [← cartesianNd_eq hM.1 hM.2.1, ← cartesianNd_eq hN.1 hN.2.1]
  have hl' : (cartesianNd rm).map (fun p => (p.1, p.2.skel)) = (cartesianNd rn).map (fun p => (p.1, p.2.skel)) := by
    rw [← cartesianNd_mapL _ hM.1 hM.2.1, ← cartesianNd_mapL _ hN.1 hN.2.1]
    exact congrArg cartesianNd hl
  refine List.ext_getElem (by simpa using congrArg List.length hl') ?_
  intro i hi hi'
  have h1 := List.getElem_of_eq hl' (i := i) (by simpa using hi)
  simp only [List.getElem_map, Prod.mk.injEq] at h1
  refine Prod.ext h1.1 ?_
  obtain ⟨cls, cs, e1, hw, hn, hk, -⟩ := hM.2.2.2.2 _ (List.getElem_mem hi)
  obtain ⟨cls', cs', e2, hw', hn', hk', -⟩ := hN.2.2.2.2 _ (List.getElem_mem hi')
  rw [e1, e2, skel_node, skel_node] at h1
  rw [e1, e2]
  have h2 := h1.2
  simp only [node.injEq] at h2
  rw [h2.1]
  congr 1
  refine ext_entriesL hn hn' h2.2 ?_
  rw [← cartesianNd_eq hw hn, ← cartesianNd_eq hw' hn']
  have hkk : keys (cartesianNd cs) = keys (cartesianNd cs') := by
    have : cartesianNd (skelL cs) = cartesianNd (skelL cs') := by rw [h2.2]
    unfold skelL at this
    rw [cartesianNd_mapL _ hw hn, cartesianNd_mapL _ hw' hn'] at this
    have := congrArg keys this
    rwa [keys_map_snd (f := fun _ => ()), keys_map_snd (f := fun _ => ())] at this
  have hget : ∀ c, get? (cartesianNd cs) c = get? (cartesianNd cs') c := by
    intro c
    by_cases hc : c ∈ C
    · have hr : (cartesianNd rm)[i].1 ∈ R := by
        rw [← hM.2.2.2.1, List.mem_toFinset]
        exact List.mem_map.2 ⟨_, List.getElem_mem hi, rfl⟩
      have := he _ hr c hc
      unfold entry at this
      rw [get?_getElem (wf_cartesianNd rm) hi, h1.1,
        get?_getElem (wf_cartesianNd rn) hi', e1, e2] at this
      exact this
    · rw [get?_eq_none.2 (by rw [← List.mem_toFinset, hk]; exact hc),
        get?_eq_none.2 (by rw [← List.mem_toFinset, hk']; exact hc)]
  refine List.ext_getElem (by simpa using congrArg List.length hkk) ?_
  intro j hj hj'
  have h3 := List.getElem_of_eq hkk (i := j) (by simpa using hj)
  simp only [keys, List.getElem_map] at h3
  refine Prod.ext h3 ?_
  have h4 := get?_getElem (wf_cartesianNd cs) hj
  have h5 := get?_getElem (wf_cartesianNd cs') hj'
  rw [hget, h3, h5] at h4
  exact (Option.some.inj h4).symm

theorem vec_ext {C : Finset String} {good : α → Prop} {v w : Vec α} (hv : IsVec good C v.toComp)
    (hw : IsVec good C w.toComp) (hc : v.cls = w.cls) (hl : skelL v.comps = skelL w.comps)
    (he : ∀ c ∈ C, v.toComp.coef c = w.toComp.coef c) : v = w := by
  obtain ⟨c1, cs1⟩ := v
  obtain ⟨c2, cs2⟩ := w
  obtain ⟨_, _, e1, hw1, hn1, hk1, -⟩ := hv
  obtain ⟨_, _, e2, hw2, hn2, hk2, -⟩ := hw
  cases e1; cases e2
  simp only at *
  subst hc
  congr 1
  refine ext_entriesL hn1 hn2 hl ?_
  rw [← cartesianNd_eq hw1 hn1, ← cartesianNd_eq hw2 hn2]
  have hkk : keys (cartesianNd cs1) = keys (cartesianNd cs2) := by
    have : cartesianNd (skelL cs1) = cartesianNd (skelL cs2) := by rw [hl]
    unfold skelL at this
    rw [cartesianNd_mapL _ hw1 hn1, cartesianNd_mapL _ hw2 hn2] at this
    have := congrArg keys this
    rwa [keys_map_snd (f := fun _ => ()), keys_map_snd (f := fun _ => ())] at this
  refine List.ext_getElem (by simpa using congrArg List.length hkk) ?_
  intro j hj hj'
  have h3 := List.getElem_of_eq hkk (i := j) (by simpa using hj)
  simp only [keys, List.getElem_map] at h3
  refine Prod.ext h3 ?_
  have h4 := get?_getElem (wf_cartesianNd cs1) hj
  have h5 := get?_getElem (wf_cartesianNd cs2) hj'
  have hc : (cartesianNd cs1)[j].1 ∈ C := by
    rw [← hk1, List.mem_toFinset]
    exact List.mem_map.2 ⟨_, List.getElem_mem hj, rfl⟩
  have := he _ hc
  simp only [Vec.toComp, coef] at this
  rw [h4, h3, h5] at this
  exact Option.some.inj this

/-! ### Transposes -/

/-- **C40** `matrix_transpose` never raises for a consistent matrix; it swaps the two names of each entry and
does not change the entry; its class is the class of the rows, and its rows look like the columns of the matrix. -/
theorem C40_transpose (o : Ops α) {good : α → Prop} {R C : Finset String} (M : Mat α)
    (h : IsMat good R C M.rows) :
    ∃ T cls cs, (leavesL M.rows).head? = some (.node cls cs) ∧ M.transpose o = .ok T ∧ T.cls = cls ∧
      IsMat good C R T.rows ∧ layout T.rows = mapL (fun _ => .node M.cls (skelL M.rows)) cs ∧
      ∀ r c, entry T.rows c r = entry M.rows r c := by
  obtain ⟨row, hp1, ⟨cls, cs, rfl, hw, hn, hk, hg, hne⟩, hp3⟩ := h.proto
  have hR : (keys (cartesianNd (mapL (fun _ => o.zero) M.rows))).toFinset = R := by
    rw [keys_cartesianNd_mapL _ h.1 h.2.1]; exact h.2.2.2.1
  have hkz : keys (cartesianNd (mapL (fun _ => o.zero) M.rows)) = keys (cartesianNd M.rows) := by
    rw [keys_cartesianNd_mapL _ h.1 h.2.1]
  have hinit : ∀ c, get? ((cartesianNd cs).map (fun p => (p.1, cartesianNd (mapL (fun _ => o.zero) M.rows)))) c =
      (get? (cartesianNd cs) c).map (fun _ => cartesianNd (mapL (fun _ => o.zero) M.rows)) := fun c =>
    get?_map_snd (fun _ => cartesianNd (mapL (fun _ => o.zero) M.rows)) (cartesianNd cs) c
  have hki : keys ((cartesianNd cs).map (fun p => (p.1, cartesianNd (mapL (fun _ => o.zero) M.rows)))) =
      keys (cartesianNd cs) := keys_map_snd (fun _ => cartesianNd (mapL (fun _ => o.zero) M.rows)) (cartesianNd cs)
  obtain ⟨res, hr1, hr2, hr3⟩ := transposeLoop_ok (good := good) (C := C) (wf_cartesianNd M.rows) h.2.2.2.2
    (res := (cartesianNd cs).map (fun p => (p.1, cartesianNd (mapL (fun _ => o.zero) M.rows))))
    (by rw [hki]; exact hk)
    (K0 := keys (cartesianNd M.rows)) (fun k hk => hk) (by
      intro c d hd
      rw [hinit] at hd
      obtain ⟨_, _, rfl⟩ := Option.map_eq_some_iff.1 hd
      exact hkz)
  have hres : ∀ c d, get? res c = some d → keys d = keys (cartesianNd M.rows) ∧
      ∀ r, get? d r = entry M.rows r c := by
    intro c d hd
    have hc : c ∈ keys (cartesianNd cs) := by rw [← hki, ← hr2]; exact mem_keys_of_get? hd
    obtain ⟨v, hv⟩ := exists_get?_of_mem hc
    obtain ⟨d', h1, h2, h3⟩ := hr3 c _ (by rw [hinit, hv]; rfl)
    rw [h1] at hd
    cases hd
    refine ⟨h2, fun r => ?_⟩
    rw [h3 r]
    unfold entry
    cases hr : get? (cartesianNd M.rows) r with
    | none =>
      exact get?_eq_none.2 (by rw [hkz]; exact get?_eq_none.1 hr)
    | some row => rfl
  have hwr : WF res := wf_of_keys (hr2.trans hki) (wf_cartesianNd cs)
  have hwm : WF (mapL (fun _ => Comp.node M.cls (mapL (fun _ => o.zero) M.rows)) cs) := wf_of_keys (keys_mapL _ _) hw
  have hcol : IsVec (fun _ => True) R (.node M.cls (mapL (fun _ => o.zero) M.rows)) :=
    ⟨M.cls, _, rfl, wf_of_keys (keys_mapL _ _) h.1, namedL_mapL h.2.1, hR, fun _ _ => trivial, Mat.noEmptyL_mapL _ h.2.2.1⟩
  obtain ⟨rows, h1, h2, h3, h4⟩ := fromNdRows_ok (good := good) (C := R)
    (like := mapL (fun _ => Comp.node M.cls (mapL (fun _ => o.zero) M.rows)) cs) hwm (namedL_mapL hn)
    (Mat.noEmptyL_mapL _ hne) (by
      rw [Mat.leavesL_mapL]
      intro row hr
      obtain ⟨_, _, rfl⟩ := List.mem_map.1 hr
      exact hcol) (nd := res) hwr (by rw [keys_cartesianNd_mapL _ hw hn, hr2, hki]) (by
      intro p hp
      obtain ⟨h5, h6⟩ := hres p.1 p.2 (get?_of_mem hwr hp)
      refine ⟨wf_of_keys h5 (wf_cartesianNd _), by rw [h5]; exact h.2.2.2.1, ?_⟩
      intro q hq
      have h7 := h6 q.1
      rw [get?_of_mem (wf_of_keys h5 (wf_cartesianNd _)) hq] at h7
      have hqr : q.1 ∈ R := by
        rw [← h.2.2.2.1, List.mem_toFinset, ← h5]
        exact List.mem_map.2 ⟨q, hq, rfl⟩
      have hpc : p.1 ∈ C := by
        rw [← hk, List.mem_toFinset, ← hki, ← hr2]
        exact List.mem_map.2 ⟨p, hp, rfl⟩
      obtain ⟨a, ha, hga⟩ := entry_of_isMat h hqr hpc
      rw [ha] at h7
      cases h7
      exact hga)
  refine ⟨⟨cls, rows⟩, cls, cs, hp3, ?_, rfl, ?_, ?_, ?_⟩
  · unfold Mat.transpose Mat.rowPrototype Mat.columnPrototype
    simp only [h.consistent, hp1, bind, Except.bind, if_true] at hr1 ⊢
    simp only [hr1, h1]
  · rw [hr2, hki, hk] at h2
    exact h2
  · rw [h3]
    unfold layout
    rw [mapL_mapL]
    congr 1
    funext x
    simp only [Function.comp_apply, skel_node, Mat.skelL_mapL]
  · intro r c
    rw [h4 c r]
    cases hd : get? res c with
    | none =>
      have hc : c ∉ C := by
        rw [← hk, List.mem_toFinset, ← hki, ← hr2]; exact get?_eq_none.1 hd
      unfold entry
      cases hr : get? (cartesianNd M.rows) r with
      | none => rfl
      | some row =>
        exact ((coef_of_isVec (h.2.2.2.2 _ (mem_of_get? hr))).2 c hc).symm
    | some d => exact (hres c d hd).2 r

/-! ### Products -/

section products
variable [CommRing K] {o : Ops α} {dv : K → K → K} {good : α → Prop} {val : α → K} {R C D : Finset String}

/-- **C40** `matrix @ vector`: the class and layout of the result are those of the columns of the matrix, and its
components are the sums of products. -/
theorem C40_matVec (ho : o.Sound dv good val) (M : Mat α) (x : Vec α) (hM : IsMat good R C M.rows)
    (hx : IsVec good C x.toComp) (hc : M.RowClass x.cls) :
    ∃ y, M.matVec o x = .ok y ∧ y.cls = M.cls ∧ skelL y.comps = skelL M.rows ∧ IsVec good R y.toComp ∧
      ∀ r ∈ R, y.toComp.vval val r = ∑ c ∈ C, mval val M.rows r c * x.toComp.vval val c := by
  obtain ⟨row, hp1, hp2, hp3⟩ := hM.proto
  obtain ⟨cs, hcs⟩ := hc
  rw [hp3] at hcs
  cases hcs
  obtain ⟨res, hr1, hr2⟩ := mapDict_ok (d := cartesianNd M.rows) (g := fun p => dot o p.2 x.toComp) (by
    intro p hp
    obtain ⟨s, hs, _⟩ := dot_ok ho (hM.2.2.2.2 p hp) hx
    exact ⟨s, hs⟩)
  have hwr : WF res := wf_of_keys (keys_of_steps hr2) (wf_cartesianNd _)
  have hval : ∀ q s, get? res q = some s → good s ∧ val s = ∑ c ∈ C, mval val M.rows q c * x.toComp.vval val c := by
    intro q s hs
    rcases get?_of_steps hr2 q with ⟨_, h2⟩ | ⟨row', s', h1, h2, h3⟩
    · rw [h2] at hs; cases hs
    · rw [h2] at hs; cases hs
      obtain ⟨s'', h4, h5, h6⟩ := dot_ok ho (hM.2.2.2.2 _ (mem_of_get? h1)) hx
      simp only at h3 h4
      rw [h4] at h3
      cases h3
      refine ⟨h5, h6.trans (Finset.sum_congr rfl (fun c _ => ?_))⟩
      rw [mval_of_row h1 c]
  obtain ⟨r, h1, h2, h3, h4⟩ := fromCartesianNd_ok (good := good) (like := mapL (fun _ => o.zero) M.rows)
    (wf_of_keys (keys_mapL _ _) hM.1) (namedL_mapL hM.2.1) (Mat.noEmptyL_mapL _ hM.2.2.1) hwr
    (by rw [keys_cartesianNd_mapL _ hM.1 hM.2.1, keys_of_steps hr2])
    (fun p hp => (hval p.1 p.2 (get?_of_mem hwr hp)).1) M.cls
  refine ⟨⟨M.cls, r⟩, ?_, rfl, by rw [h3, Mat.skelL_mapL], ?_, ?_⟩
  · unfold Mat.matVec Mat.rowPrototype Mat.columnPrototype
    simp only [hp1, bind, Except.bind] at hr1 ⊢
    simp only [if_true, hr1, h1]
  · rw [keys_of_steps hr2, hM.2.2.2.1] at h2
    exact h2
  · intro q hq
    have hq' : q ∈ keys res := by rw [keys_of_steps hr2, ← List.mem_toFinset, hM.2.2.2.1]; exact hq
    obtain ⟨s, hs⟩ := exists_get?_of_mem hq'
    rw [vval_of_coef (a := s) (by rw [← hs]; exact h4 q)]
    exact (hval q s hs).2

/-- **C40** A vector of another class than the rows is rejected. -/
theorem C40_matVec_class (M : Mat α) (x : Vec α) (hM : IsMat good R C M.rows) (hc : ¬ M.RowClass x.cls) :
    M.matVec o x = .error .typeError := by
  obtain ⟨row, hp1, ⟨cls, cs, rfl, _⟩, hp3⟩ := hM.proto
  have hne : cls ≠ x.cls := fun h => hc ⟨cs, by rw [← h]; exact hp3⟩
  unfold Mat.matVec Mat.rowPrototype
  simp only [hp1, bind, Except.bind, if_neg hne]

/-- **C40** `matrix @ matrix`: the result has the rows of the first and the columns of the second matrix, and its
entries are the sums of products. -/
theorem C40_matMat (ho : o.Sound dv good val) (M N : Mat α) (hM : IsMat good R C M.rows)
    (hN : IsMat good C D N.rows) :
    ∃ P row, (leavesL N.rows).head? = some row ∧ M.matMat o N = .ok P ∧ P.cls = M.cls ∧ IsMat good R D P.rows ∧
      layout P.rows = mapL (fun _ => row.skel) M.rows ∧
      ∀ r ∈ R, ∀ d ∈ D, mval val P.rows r d = ∑ c ∈ C, mval val M.rows r c * mval val N.rows c d := by
  obtain ⟨row, hp1, ⟨cls, cs, rfl, hw, hn, hk, hg, hne⟩, hp3⟩ := hM.proto
  obtain ⟨rowN, hq1, hq2, hq3⟩ := hN.proto
  obtain ⟨T, clsN, csN, ht1, ht2, ht3, ht4, ht5, ht6⟩ := C40_transpose o N hN
  have hdot : ∀ p ∈ cartesianNd M.rows, ∀ q ∈ cartesianNd T.rows, ∃ s, dot o p.2 q.2 = .ok s ∧ good s ∧
      val s = ∑ c ∈ C, p.2.vval val c * q.2.vval val c := fun p hp q hq =>
    dot_ok ho (hM.2.2.2.2 p hp) (ht4.2.2.2.2 q hq)
  have hinner : ∀ p ∈ cartesianNd M.rows, ∃ d' : Dict α,
      (cartesianNd T.rows).mapM (fun q => do .ok (q.1, ← dot o p.2 q.2)) = (.ok d' : Except Err _) ∧
      List.Forall₂ (Step (fun k b => dot o p.2 (Prod.snd (k, b)))) (cartesianNd T.rows) d' := by
    intro p hp
    exact mapDict_ok (d := cartesianNd T.rows) (g := fun q => dot o p.2 q.2) (fun q hq => by
      obtain ⟨s, hs, _⟩ := hdot p hp q hq
      exact ⟨s, hs⟩)
  obtain ⟨res, hr1, hr2⟩ := mapDict_ok (d := cartesianNd M.rows)
    (g := fun p => (cartesianNd T.rows).mapM (fun q => do .ok (q.1, ← dot o p.2 q.2))) (by
      intro p hp
      obtain ⟨d', h1, _⟩ := hinner p hp
      exact ⟨d', h1⟩)
  have hwr : WF res := wf_of_keys (keys_of_steps hr2) (wf_cartesianNd _)
  have hval : ∀ q d, get? res q = some d → keys d = keys (cartesianNd T.rows) ∧ ∀ c s, get? d c = some s →
      good s ∧ val s = ∑ i ∈ C, mval val M.rows q i * mval val N.rows i c := by
    intro q d hd
    rcases get?_of_steps hr2 q with ⟨_, h2⟩ | ⟨row', d1, h1, h2, h3⟩
    · rw [h2] at hd; cases hd
    · rw [h2] at hd; cases hd
      obtain ⟨d2, h4, h5⟩ := hinner (q, row') (mem_of_get? h1)
      simp only at h3
      rw [h4] at h3
      cases h3
      refine ⟨keys_of_steps h5, ?_⟩
      intro c s hs
      rcases get?_of_steps h5 c with ⟨_, h7⟩ | ⟨col, s1, h6, h7, h8⟩
      · rw [h7] at hs; cases hs
      · rw [h7] at hs; cases hs
        obtain ⟨s2, h9, h10, h11⟩ := hdot (q, row') (mem_of_get? h1) (c, col) (mem_of_get? h6)
        simp only at h8 h9
        rw [h9] at h8
        cases h8
        refine ⟨h10, h11.trans (Finset.sum_congr rfl (fun i _ => ?_))⟩
        rw [mval_of_row h1 i]
        congr 1
        have := ht6 i c
        unfold entry at this
        rw [h6] at this
        unfold vval mval entry
        rw [← this]
        rfl
  have hkN : (keys (cartesianNd T.rows)).toFinset = D := ht4.2.2.2.1
  obtain ⟨rows, h1, h2, h3, h4⟩ := fromNdRows_ok (good := good) (C := D) (like := mapL (fun _ => rowN) M.rows)
    (wf_of_keys (keys_mapL _ _) hM.1) (namedL_mapL hM.2.1) (Mat.noEmptyL_mapL _ hM.2.2.1) (by
      rw [Mat.leavesL_mapL]
      intro row hr
      obtain ⟨_, _, rfl⟩ := List.mem_map.1 hr
      obtain ⟨cls', cs', e, a1, a2, a3, a4, a5⟩ := hq2
      exact ⟨cls', cs', e, a1, a2, a3, fun _ _ => trivial, a5⟩) hwr
    (by rw [keys_cartesianNd_mapL _ hM.1 hM.2.1, keys_of_steps hr2]) (by
      intro p hp
      obtain ⟨h5, h6⟩ := hval p.1 p.2 (get?_of_mem hwr hp)
      have hwp : WF p.2 := wf_of_keys h5 (wf_cartesianNd _)
      exact ⟨hwp, by rw [h5, hkN], fun q hq => (h6 q.1 q.2 (get?_of_mem hwp hq)).1⟩)
  refine ⟨⟨M.cls, rows⟩, rowN, hq3, ?_, rfl, ?_, ?_, ?_⟩
  · unfold Mat.matMat Mat.rowPrototype Mat.columnPrototype
    have hsk : sameKeys (cartesianNd cs) (cartesianNd (mapL (fun _ => o.zero) N.rows)) = true := by
      rw [sameKeys_iff, keys_cartesianNd_mapL _ hN.1 hN.2.1, hk]
      exact hN.2.2.2.1.symm
    simp only [hp1, flatRow, bind, Except.bind, hsk, if_true, hq1, ht2] at hr1 ⊢
    simp only [hr1, h1]
  · rw [keys_of_steps hr2, hM.2.2.2.1] at h2
    exact h2
  · rw [h3]
    unfold layout
    rw [mapL_mapL]
    rfl
  · intro q hq c hc
    have hq' : q ∈ keys res := by rw [keys_of_steps hr2, ← List.mem_toFinset, hM.2.2.2.1]; exact hq
    obtain ⟨d, hd⟩ := exists_get?_of_mem hq'
    obtain ⟨h5, h6⟩ := hval q d hd
    have hc' : c ∈ keys d := by rw [h5, ← List.mem_toFinset, hkN]; exact hc
    obtain ⟨s, hs⟩ := exists_get?_of_mem hc'
    rw [← (h6 c s hs).2]
    unfold mval
    rw [h4 q c, hd, Option.bind_some, hs]
    rfl

/-- **C40** `vector @ matrix`. -/
theorem C40_vecMat (ho : o.Sound dv good val) (x : Vec α) (M : Mat α) (hM : IsMat good R C M.rows)
    (hx : IsVec good R x.toComp) :
    ∃ y cls cs, (leavesL M.rows).head? = some (.node cls cs) ∧ Mat.vecMat o x M = .ok y ∧ y.cls = cls ∧
      skelL y.comps = skelL cs ∧ IsVec good C y.toComp ∧
      ∀ c ∈ C, y.toComp.vval val c = ∑ r ∈ R, x.toComp.vval val r * mval val M.rows r c := by
  obtain ⟨T, cls, cs, ht1, ht2, ht3, ht4, ht5, ht6⟩ := C40_transpose o M hM
  obtain ⟨res, hr1, hr2⟩ := mapDict_ok (d := cartesianNd T.rows) (g := fun p => dot o x.toComp p.2) (by
    intro p hp
    obtain ⟨s, hs, _⟩ := dot_ok ho hx (ht4.2.2.2.2 p hp)
    exact ⟨s, hs⟩)
  have hwr : WF res := wf_of_keys (keys_of_steps hr2) (wf_cartesianNd _)
  have hval : ∀ q s, get? res q = some s → good s ∧ val s = ∑ r ∈ R, x.toComp.vval val r * mval val M.rows r q := by
    intro q s hs
    rcases get?_of_steps hr2 q with ⟨_, h2⟩ | ⟨row', s', h1, h2, h3⟩
    · rw [h2] at hs; cases hs
    · rw [h2] at hs; cases hs
      obtain ⟨s'', h4, h5, h6⟩ := dot_ok ho hx (ht4.2.2.2.2 _ (mem_of_get? h1))
      simp only at h3 h4
      rw [h4] at h3
      cases h3
      refine ⟨h5, h6.trans (Finset.sum_congr rfl (fun r _ => ?_))⟩
      congr 1
      have := ht6 r q
      unfold entry at this
      rw [h1] at this
      unfold vval mval entry
      rw [← this]
      rfl
  obtain ⟨r, h1, h2, h3, h4⟩ := fromCartesianNd_ok (good := good) (like := mapL (fun _ => o.zero) T.rows)
    (wf_of_keys (keys_mapL _ _) ht4.1) (namedL_mapL ht4.2.1) (Mat.noEmptyL_mapL _ ht4.2.2.1) hwr
    (by rw [keys_cartesianNd_mapL _ ht4.1 ht4.2.1, keys_of_steps hr2])
    (fun p hp => (hval p.1 p.2 (get?_of_mem hwr hp)).1) T.cls
  refine ⟨⟨T.cls, r⟩, cls, cs, ht1, ?_, ht3, ?_, ?_, ?_⟩
  · unfold Mat.vecMat Mat.columnPrototype
    simp only [ht2, bind, Except.bind] at hr1 ⊢
    simp only [hr1, h1]
  · have := congrArg skelL ht5
    unfold layout at this
    rw [Mat.skelL_mapL, Mat.skelL_mapL] at this
    rw [h3, Mat.skelL_mapL, this]
  · rw [keys_of_steps hr2, ht4.2.2.2.1] at h2
    exact h2
  · intro q hq
    have hq' : q ∈ keys res := by rw [keys_of_steps hr2, ← List.mem_toFinset, ht4.2.2.2.1]; exact hq
    obtain ⟨s, hs⟩ := exists_get?_of_mem hq'
    rw [vval_of_coef (a := s) (by rw [← hs]; exact h4 q)]
    exact (hval q s hs).2

/-- **C40** `vector @ vector`. -/
theorem C40_dot (ho : o.Sound dv good val) {v w : Comp α} (hv : IsVec good C v) (hw : IsVec good C w) :
    ∃ s, dot o v w = .ok s ∧ good s ∧ val s = ∑ c ∈ C, v.vval val c * w.vval val c := dot_ok ho hv hw

theorem rowPrototypeL_nil_aux {rows : List (String × Comp (Comp α))} (h : cartesianNd rows = []) :
    rowPrototypeL rows = .error .other := by
  cases rows with
  | nil => rfl
  | cons p l =>
    obtain ⟨k, c⟩ := p
    simp only [rowPrototypeL, isConsistent, h, bind, Except.bind]

/-- **C40** `vector @ vector` with different (flattened) component names is rejected. -/
theorem C40_dot_mismatch {v w : Comp α} (hv : IsVec good C v) (hw : IsVec good D w) (h : C ≠ D) :
    dot o v w = .error .typeError := by
  obtain ⟨cls, cs, rfl, -, -, hk, -⟩ := hv
  obtain ⟨cls', cs', rfl, -, -, hk', -⟩ := hw
  simp only [dot, flatRow, bind, Except.bind, dotFlat]
  rw [if_neg]
  rw [sameKeys_iff, hk, hk']
  exact h

/-- **C40** `matrix @ vector` with different (flattened) names of the columns and of the vector is rejected. -/
theorem C40_matVec_mismatch (M : Mat α) (x : Vec α) (hM : IsMat good R C M.rows) (hx : IsVec good D x.toComp) (h : C ≠ D) :
    M.matVec o x = .error .typeError := by
  by_cases hc : M.RowClass x.cls
  · obtain ⟨row, hp1, hp2, hp3⟩ := hM.proto
    obtain ⟨cs, hcs⟩ := hc
    rw [hp3] at hcs
    cases hcs
    have hne : cartesianNd M.rows ≠ [] := by
      intro h0
      rw [rowPrototypeL_nil_aux h0] at hp1
      cases hp1
    unfold Mat.matVec Mat.rowPrototype Mat.columnPrototype
    simp only [hp1, bind, Except.bind, if_true]
    obtain ⟨p, ps, hps⟩ := List.exists_cons_of_ne_nil hne
    have := C40_dot_mismatch (o := o) (hM.2.2.2.2 p (by rw [hps]; simp)) hx h
    rw [hps]
    simp only [List.mapM_cons, this, bind, Except.bind]
  · exact C40_matVec_class M x hM hc

/-- **C40** `matrix @ matrix` is rejected if the columns of the first and the rows of the second matrix have different
(flattened) names. -/
theorem C40_matMat_mismatch {C' : Finset String} (M N : Mat α) (hM : IsMat good R C M.rows) (hN : IsMat good C' D N.rows)
    (h : C ≠ C') : M.matMat o N = .error .typeError := by
  obtain ⟨row, hp1, ⟨cls, cs, rfl, hw, hn, hk, hg, hne⟩, hp3⟩ := hM.proto
  unfold Mat.matMat Mat.rowPrototype Mat.columnPrototype
  simp only [hp1, bind, Except.bind, flatRow]
  rw [if_neg]
  rw [sameKeys_iff, keys_cartesianNd_mapL _ hN.1 hN.2.1, hk, hN.2.2.2.1]
  exact h

/-- **C40** `vector @ matrix` is rejected if the vector and the rows of the matrix have different (flattened) names. -/
theorem C40_vecMat_mismatch (x : Vec α) (M : Mat α) (hM : IsMat good R C M.rows) (hx : IsVec good D x.toComp) (h : R ≠ D) :
    Mat.vecMat o x M = .error .typeError := by
  obtain ⟨T, cls, cs, ht1, ht2, ht3, ht4, ht5, ht6⟩ := C40_transpose o M hM
  obtain ⟨row, hp1, hp2, hp3⟩ := ht4.proto
  have hne : cartesianNd T.rows ≠ [] := by
    intro h0
    rw [rowPrototypeL_nil_aux h0] at hp1
    cases hp1
  unfold Mat.vecMat
  simp only [ht2, bind, Except.bind]
  obtain ⟨p, ps, hps⟩ := List.exists_cons_of_ne_nil hne
  have := C40_dot_mismatch (o := o) hx (ht4.2.2.2.2 p (by rw [hps]; simp)) (fun h' => h h'.symm)
  rw [hps]
  simp only [List.mapM_cons, this, bind, Except.bind]

end products

end NA
