import Verif.Scalar.RegridTranspose
import Verif.Props.Regridding
import Verif.Props.FunctionRegridding

/-!
# Resampling back with conservatively transposed weights (C113)
-/

namespace NA
open Dict
open SA (FitsIn InRange)
variable {α β γ K : Type}
namespace SA

/-- **C113** (transposed weights, partial). The transposed weights at an index along the axes which are not resampled are computed from the
weights and the images of the coordinates at the same index, and the shapes of input and output are exchanged.
Missing: axes in an order other than in the shape of the coordinates, and `weights_input`. -/
theorem C113_transpose_partial (normalise : Entries K → List (ND α) → List (ND α) → Entries K) (w : SA (Entries K)) (sI sO : Shape)
    (cI cO : List (SA α)) (axisInput axisOutput : Option (List String)) (hw : w.WF) (hI : ∀ c ∈ cI, c.WF) (hO : ∀ c ∈ cO, c.WF) (SI SO : Shape)
    (hSI : broadcastShapes (cI.map SA.shape) = .ok SI) (hSO : broadcastShapes (cO.map SA.shape) = .ok SO)
    (AI AO : List String) (hAI : AI = axisInput.getD (keys SI)) (hAO : AO = axisOutput.getD (keys SO))
    (hordI : AI = (keys SI).filter (· ∈ AI)) (hordO : AO = (keys SO).filter (· ∈ AO)) (hlen : AI.length = AO.length)
    (S : Shape) (hS : broadcastShapes [SI.filter (fun p => p.1 ∉ AI), SO.filter (fun p => p.1 ∉ AO), w.shape] = .ok S)
    (hdI : ∀ ax ∈ AI, ax ∈ keys SO → ax ∈ AO) (hdO : ∀ ax ∈ AO, ax ∈ keys SI → ax ∈ AI)
    (hwI : ∀ ax ∈ AI, ax ∉ w.axes) (hwO : ∀ ax ∈ AO, ax ∉ w.axes) :
    ∃ r, transposeWeightsConservative normalise (w, sI, sO) cI cO axisInput axisOutput = .ok (r, sO, sI) ∧
      r.WF ∧ r.shape = S ∧ ∀ e, ∃ mI mO, r.at' e = normalise (w.atB e) mI mO ∧
        List.Forall₂ (fun c m => IsImage AI SI c.atB e m) cI mI ∧ List.Forall₂ (fun c m => IsImage AO SO c.atB e m) cO mO := by
  have hssI : ∀ u ∈ cI.map SA.shape, Dict.WF u := by
    intro u hu
    obtain ⟨c, hc, rfl⟩ := List.mem_map.1 hu
    exact wf_shape (hI c hc)
  have hssO : ∀ u ∈ cO.map SA.shape, Dict.WF u := by
    intro u hu
    obtain ⟨c, hc, rfl⟩ := List.mem_map.1 hu
    exact wf_shape (hO c hc)
  have hSIw := (broadcastShapes_joinOf hssI hSI).1
  have hSOw := (broadcastShapes_joinOf hssO hSO).1
  have hS' : broadcastShapes [orthogonal SI AI, orthogonal SO AO, w.shape] = .ok S := hS
  have hss : ∀ u ∈ [orthogonal SI AI, orthogonal SO AO, w.shape], Dict.WF u := by simp [wf_orthogonal hSIw, wf_orthogonal hSOw, wf_shape hw]
  have hSw := (broadcastShapes_joinOf hss hS').1
  have hkS : ∀ x, x ∈ keys S ↔ (x ∈ keys SI ∧ x ∉ AI) ∨ (x ∈ keys SO ∧ x ∉ AO) ∨ x ∈ w.axes := by
    intro x
    rw [(C01_broadcast_shapes_ok _ hss S hS').2.1 x]
    simp [mem_keys_orthogonal, keys_shape hw]
  have hmI : ∀ x ∈ AI, x ∈ keys SI := fun x hx => by rw [hordI] at hx; exact (List.mem_filter.1 hx).1
  have hmO : ∀ x ∈ AO, x ∈ keys SO := fun x hx => by rw [hordO] at hx; exact (List.mem_filter.1 hx).1
  have hnI : ∀ x ∈ AI, x ∉ keys S := by
    intro x hx h
    rcases (hkS x).1 h with h | h | h
    · exact h.2 hx
    · exact h.2 (hdI x hx h.1)
    · exact hwI x hx h
  have hnO : ∀ x ∈ AO, x ∉ keys S := by
    intro x hx h
    rcases (hkS x).1 h with h | h | h
    · exact h.2 (hdO x hx h.1)
    · exact h.2 hx
    · exact hwO x hx h
  have hext : ∀ (s : Shape) (A : List String), Dict.WF s → (∀ x ∈ A, x ∉ keys S) → orthogonal s A ∈ [orthogonal SI AI, orthogonal SO AO, w.shape] →
      broadcastShapes [S, s] = .ok (S ++ s.filter (fun p => p.1 ∈ A)) := by
    intro s A hs hA hm
    rw [bs_extend hSw hs]
    · congr 2
      apply List.filter_congr
      intro p hp
      have hp' : p.1 ∈ keys s := List.mem_map_of_mem hp
      by_cases hx : p.1 ∈ A
      · simp [hx, hA p.1 hx]
      · have : p.1 ∈ keys S := by
          rw [(C01_broadcast_shapes_ok _ hss S hS').2.1]
          exact ⟨_, hm, by rw [mem_keys_orthogonal]; exact ⟨hp', hx⟩⟩
        simp [hx, this]
    · intro ax m hmm n hn
      have hx : ax ∉ A := fun h => hA ax h (mem_keys_of_get? hn)
      obtain ⟨k, k1, k2⟩ := fitsIn_of_broadcastShapes hss hS' hm ax m (by rw [get?_orthogonal hs, if_neg hx]; exact hmm)
      rw [hn] at k1
      injection k1 with k1
      subst k1
      exact k2
  have hEI := hext SI AI hSIw hnI (by simp)
  have hEO := hext SO AO hSOw hnO (by simp)
  have hkTI : AI = keys (SI.filter (fun p => p.1 ∈ AI)) := by
    rw [keys_filter_key SI (fun x => x ∈ AI)]
    exact hordI
  have hkTO : AO = keys (SO.filter (fun p => p.1 ∈ AO)) := by
    rw [keys_filter_key SO (fun x => x ∈ AO)]
    exact hordO
  have hBIw : Dict.WF (S ++ SI.filter (fun p => p.1 ∈ AI)) := (broadcastShapes_joinOf (by simp [hSw, hSIw]) hEI).1
  have hBOw : Dict.WF (S ++ SO.filter (fun p => p.1 ∈ AO)) := (broadcastShapes_joinOf (by simp [hSw, hSOw]) hEO).1
  have hfit : ∀ (l : List (SA α)) (s B : Shape), (∀ u ∈ l.map SA.shape, Dict.WF u) → broadcastShapes (l.map SA.shape) = .ok s →
      Dict.WF s → broadcastShapes [S, s] = .ok B → ∀ c ∈ l, FitsIn c.shape B := by
    intro l s B hl hls hs hB c hc ax m hm
    obtain ⟨n, n1, n2⟩ := fitsIn_of_broadcastShapes hl hls (List.mem_map_of_mem hc) ax m hm
    obtain ⟨k, k1, k2⟩ := fitsIn_of_broadcastShapes (by simp [hSw, hs]) hB (s := s) (by simp) ax n n1
    refine ⟨k, k1, ?_⟩
    omega
  obtain ⟨bI, bI1, bI2⟩ := mapM_bc hI hBIw (hfit cI SI _ hssI hSI hSIw hEI)
  obtain ⟨bO, bO1, bO2⟩ := mapM_bc hO hBOw (hfit cO SO _ hssO hSO hSOw hEO)
  obtain ⟨TI, hTI⟩ : ∃ T, T = SI.filter (fun p => p.1 ∈ AI) := ⟨_, rfl⟩
  obtain ⟨TO, hTO⟩ : ∃ T, T = SO.filter (fun p => p.1 ∈ AO) := ⟨_, rfl⟩
  rw [← hTI] at hEI hkTI hBIw bI1 bI2
  rw [← hTO] at hEO hkTO hBOw bO1 bO2
  have hkey : ∀ T : Shape, keys (S ++ T) = keys S ++ keys T := fun T => by simp [keys]
  have hsub : ∀ (A : List String) (T : Shape), A = keys T → A ⊆ keys (S ++ T) := by
    intro A T h
    rw [hkey, h]
    exact List.subset_append_right _ _
  have hfil : ∀ (A : List String) (T : Shape), A = keys T → (∀ x ∈ A, x ∉ keys S) → (keys (S ++ T)).filter (· ∉ A) = keys S := by
    intro A T h hA
    rw [hkey, ← h, List.filter_append, List.filter_eq_self.2, List.filter_eq_nil_iff.2, List.append_nil]
    · simp
    · intro x hx
      simp only [decide_eq_true_eq]
      exact fun h => hA x h hx
  have hrest : ∀ (A : List String) (T : Shape), A = keys T → (∀ x ∈ A, x ∉ keys S) → Dict.WF (S ++ T) →
      ND.rest (A.map (keys (S ++ T)).idxOf) (values (S ++ T)) = values S := by
    intro A T h hA hw
    rw [values_eq_map hw, ND.rest_named hw (hsub A T h), hfil A T h hA, values_eq_map hSw]
    apply List.map_congr_left
    intro x hx
    obtain ⟨m, hm⟩ := exists_get?_of_mem hx
    rw [get?_append, hm]
    rfl
  have himg : ∀ (A : List String) (T s : Shape) (c b : List (SA α)), A = keys T → T = s.filter (fun p => p.1 ∈ A) → Dict.WF s →
      Dict.WF (S ++ T) →
      List.Forall₂ (fun c b => b.WF ∧ b.shape = S ++ T ∧ ∀ e, b.at' e = c.atB e) c b → ∀ e : String → Nat,
      List.Forall₂ (fun c m => IsImage A s c.atB e m) c
        ((b.map SA.nd).map (fun a => a.image (A.map (keys (S ++ T)).idxOf) ((keys S).map e))) := by
    intro A T s c b hA hT hs hw h e
    induction h with
    | nil => exact .nil
    | cons h _ ih =>
      refine .cons ?_ ih
      have hi := nd_image hw hA _ h.1 h.2.1 e
      refine ⟨hi.1.trans ?_, fun ks hks => by rw [hi.2 ks hks, h.2.2]⟩
      apply List.map_congr_left
      intro x hx
      rw [hT, get?_filter_key hs (fun x => x ∈ A), if_pos hx]
  obtain ⟨W, W1, W2, W3, W4⟩ : ∃ W, w.broadcastTo S = .ok W ∧ W.WF ∧ W.shape = S ∧ ∀ e, W.at' e = w.atB e := by
    obtain ⟨_, b, b1, b2, b3, b4⟩ | ⟨h, _⟩ := C10_broadcast_to w hw S hSw
    · exact ⟨b, b1, b2, b3, b4⟩
    · exact absurd (fitsIn_of_broadcastShapes hss hS' (by simp)) h
  have hrun : ND.transposeConservative normalise W.nd (values (S ++ TI)) (values (S ++ TO)) (bI.map SA.nd) (bO.map SA.nd)
      (AI.map (keys (S ++ TI)).idxOf) (AO.map (keys (S ++ TO)).idxOf) =
      .ok ⟨values S, fun i => normalise (W.nd.get i) ((bI.map SA.nd).map (fun a => a.image (AI.map (keys (S ++ TI)).idxOf) i))
        ((bO.map SA.nd).map (fun a => a.image (AO.map (keys (S ++ TO)).idxOf) i))⟩ := by
    unfold ND.transposeConservative
    rw [if_pos, hrest AI TI hkTI hnI hBIw]
    refine ⟨by simpa using hlen, ND.ascending_named hBIw ?_, ND.ascending_named hBOw ?_, ?_, ?_⟩
    · rw [hkey, ← hkTI]; exact List.sublist_append_right _ _
    · rw [hkey, ← hkTO]; exact List.sublist_append_right _ _
    · rw [hrest AI TI hkTI hnI hBIw, hrest AO TO hkTO hnO hBOw]
    · rw [hrest AI TI hkTI hnI hBIw, ← values_shape W2, W3]
  have hk := mk?_of_wf (nd := (⟨values S, fun i => normalise (W.nd.get i)
        ((bI.map SA.nd).map (fun a => a.image (AI.map (keys (S ++ TI)).idxOf) i))
        ((bO.map SA.nd).map (fun a => a.image (AO.map (keys (S ++ TO)).idxOf) i))⟩ : ND (Entries K))) (axes := keys S)
        (by simp [ND.ndim, keys, values]) hSw
  refine ⟨_, ?_, (mk?_ok hk).2, shape_of_mk hSw rfl, fun e => ⟨_, _, ?_, himg AI TI SI cI bI hkTI hTI hSIw hBIw bI2 e,
    himg AO TO SO cO bO hkTO hTO hSOw hBOw bO2 e⟩⟩
  swap
  · rw [← W4 e]
    unfold at'
    rw [← keys_shape W2, W3]
  unfold transposeWeightsConservative
  rw [hSI, hSO]
  simp only [bind, Except.bind]
  rw [← hAI, ← hAO, hS']
  simp only []
  rw [hEI, hEO, W1]
  simp only []
  rw [bI1, bO1]
  simp only []
  rw [if_pos ⟨List.all_eq_true.2 fun x hx => decide_eq_true (hsub AI TI hkTI hx),
    List.all_eq_true.2 fun x hx => decide_eq_true (hsub AO TO hkTO hx)⟩, hrun]
  simp only []
  rw [hk]

end SA
end NA

namespace NA
open Dict
open SA (FitsIn InRange)
variable {α β γ K : Type}
namespace SA

/-- Broadcasting a shape with what it was made from. -/
theorem bs_again {A B S : Shape} (hSw : Dict.WF S) (h : broadcastShapes [A, B] = .ok S) : broadcastShapes [A, B, S] = .ok S := by
  have h1 : bcShape A B = .ok S := by
    change List.foldlM bcShape A [B] = _ at h
    rw [List.foldlM_cons] at h
    cases hb : bcShape A B with
    | error e => rw [hb] at h; cases h
    | ok r => rw [hb] at h; exact h
  have h2 : bcShape S S = .ok S := by
    unfold bcShape
    rw [if_pos]
    simp only [Dict.eqv, BEq.rfl, Bool.true_and, List.all_eq_true, beq_iff_eq]
    exact fun p hp => get?_of_mem hSw hp
  show List.foldlM bcShape A [B, S] = _
  rw [List.foldlM_cons, h1]
  show List.foldlM bcShape S [S] = _
  rw [List.foldlM_cons, h2]
  rfl

theorem keys_cellShape (cells : Nat → Nat) {A : List String} {s : Shape} (h : A = (keys s).filter (· ∈ A)) : keys (cellShape cells A s) = A := by
  conv_rhs => rw [h, ← keys_filter_key s (fun x => x ∈ A)]
  unfold cellShape keys
  rw [List.map_map]
  rfl

/-- What resampling from the grid of `TO` to the grid of `TI` with weights of the shape `S` needs. -/
theorem back_conditions {w : SA (Entries K)} (hw : w.WF) {S TI TO : Shape} (hs : w.shape = S) (hIw : Dict.WF (S ++ TI)) (hOw : Dict.WF (S ++ TO))
    {y : SA K} (T : Shape) (hT : broadcastShapes [y.shape.filter (fun p => p.1 ∉ keys TO), S] = .ok T)
    (hval : ∀ ax n m, get? TO ax = some n → get? y.shape ax = some m → m = n ∨ m = 1)
    (hnew : ∀ ax ∈ y.axes, ax ∈ keys TI → ax ∈ keys TO) :
    broadcastShapes [y.shape.filter (fun p => p.1 ∉ keys (S ++ TO) ∨ p.1 ∈ w.axes), w.shape] = .ok T ∧
    (∀ ax ∈ w.axes, ∀ n, get? (S ++ TO) ax = some n → n = 1 ∨ get? w.shape ax = some n) ∧
    (∀ ax ∈ w.axes, ∀ n, get? (S ++ TI) ax = some n → n = 1 ∨ get? w.shape ax = some n) ∧
    (∀ ax n m, ax ∉ w.axes → get? (S ++ TO) ax = some n → get? y.shape ax = some m → m = n ∨ m = 1) ∧
    (∀ ax ∈ y.axes, ax ∈ keys (S ++ TI) → ax ∈ keys (S ++ TO) ∨ ax ∈ w.axes) ∧
    (keys (S ++ TO)).filter (· ∉ w.axes) = keys TO ∧ (keys (S ++ TI)).filter (· ∉ w.axes) = keys TI ∧
    (S ++ TO).filter (fun p => p.1 ∉ w.axes) = TO ∧ (S ++ TI).filter (fun p => p.1 ∉ w.axes) = TI := by
  have haxes : w.axes = keys S := by rw [← keys_shape hw, hs]
  have hkk : ∀ T : Shape, keys (S ++ T) = keys S ++ keys T := fun T => by simp [keys]
  have hdis : ∀ T : Shape, Dict.WF (S ++ T) → ∀ x ∈ keys T, x ∉ keys S := by
    intro T h x hx h'
    unfold Dict.WF at h
    rw [hkk, List.nodup_append] at h
    exact h.2.2 x h' x hx rfl
  have hfil : ∀ T : Shape, Dict.WF (S ++ T) → (S ++ T).filter (fun p => p.1 ∉ w.axes) = T := by
    intro T h
    rw [List.filter_append, List.filter_eq_nil_iff.2, List.filter_eq_self.2, List.nil_append]
    · intro p hp
      simp [haxes, hdis T h p.1 (List.mem_map_of_mem hp)]
    · intro p hp
      have : p.1 ∈ keys S := List.mem_map_of_mem hp
      simp [haxes, this]
  have hin : ∀ T : Shape, ∀ ax ∈ w.axes, ∀ n, get? (S ++ T) ax = some n → n = 1 ∨ get? w.shape ax = some n := by
    intro T ax hax n hn
    rw [haxes] at hax
    obtain ⟨m, hm⟩ := exists_get?_of_mem hax
    rw [get?_append, hm, Option.some_or] at hn
    right
    rw [hs, hm, hn]
  refine ⟨?_, hin TO, hin TI, ?_, ?_, ?_, ?_, hfil TO hOw, hfil TI hIw⟩
  · rw [hs, ← hT]
    congr 2
    apply List.filter_congr
    intro p _
    rw [hkk, haxes]
    by_cases h2 : p.1 ∈ keys TO
    · simp [h2, hdis TO hOw p.1 h2]
    · by_cases h3 : p.1 ∈ keys S <;> simp [h2, h3]
  · intro ax n m hax hn hm
    rw [get?_append, get?_eq_none.2 (haxes ▸ hax), Option.none_or] at hn
    exact hval ax n m hn hm
  · intro ax hax h
    rw [hkk, List.mem_append] at h
    rw [hkk, List.mem_append]
    rcases h with h | h
    · exact Or.inl (Or.inl h)
    · exact Or.inl (Or.inr (hnew ax hax h))
  · rw [← keys_filter_key _ (fun x => x ∉ w.axes), hfil TO hOw]
  · rw [← keys_filter_key _ (fun x => x ∉ w.axes), hfil TI hIw]

/-- **C113** (back and forth, partial). Weights are computed for two grids, transposed with the same grids, and applied to values `y` on the
output grid: each element of the result, on the input grid, is a sum of elements of `y` with the same index along the axes which are not
resampled, with the weights which belong to the grids at this index.  If these add up to one for each cell of the output grid, the total of
`y` at this index is conserved.
Missing: axes in an order other than in the shape of the coordinates, and `weights_input`. -/
theorem C113_back_partial [CommSemiring K] (matrix : List (ND α) → List (ND α) → Entries K)
    (normalise : Entries K → List (ND α) → List (ND α) → Entries K) (cells : Nat → Nat) (cI cO : List (SA α)) (y : SA K)
    (axisInput axisOutput : Option (List String)) (hI : ∀ c ∈ cI, c.WF) (hO : ∀ c ∈ cO, c.WF) (hy : y.WF) (SI SO : Shape)
    (hSI : broadcastShapes (cI.map SA.shape) = .ok SI) (hSO : broadcastShapes (cO.map SA.shape) = .ok SO)
    (AI AO : List String) (hAI : AI = axisInput.getD (keys SI)) (hAO : AO = axisOutput.getD (keys SO))
    (hordI : AI = (keys SI).filter (· ∈ AI)) (hordO : AO = (keys SO).filter (· ∈ AO)) (hlen : AI.length = AO.length)
    (S : Shape) (hS : broadcastShapes [SI.filter (fun p => p.1 ∉ AI), SO.filter (fun p => p.1 ∉ AO)] = .ok S)
    (hdI : ∀ ax ∈ AI, ax ∈ keys SO → ax ∈ AO) (hdO : ∀ ax ∈ AO, ax ∈ keys SI → ax ∈ AI)
    (T : Shape) (hT : broadcastShapes [y.shape.filter (fun p => p.1 ∉ AO), S] = .ok T)
    (hval : ∀ ax n m, ax ∈ AO → get? SO ax = some n → get? y.shape ax = some m → m = cells n ∨ m = 1)
    (hnew : ∀ ax ∈ y.axes, ax ∈ AI → ax ∈ AO) (nI nO : List Nat)
    (hnI : nI = (cellShape cells AI SI).map (·.2)) (hnO : nO = (cellShape cells AO SO).map (·.2)) :
    ∃ w w' sI sO r, regridWeights matrix cells cI cO axisInput axisOutput = .ok (w, sI, sO) ∧
      transposeWeightsConservative normalise (w, sI, sO) cI cO axisInput axisOutput = .ok (w', sO, sI) ∧
      regridFromWeights w' sO sI y = .ok r ∧ r.WF ∧ r.shape = T ++ cellShape cells AI SI ∧
      ∀ e, InRange S e → ∃ mI mO mI' mO',
        (List.Forall₂ (fun c m => IsImage AI SI c.atB e m) cI mI ∧ List.Forall₂ (fun c m => IsImage AO SO c.atB e m) cO mO ∧
          List.Forall₂ (fun c m => IsImage AI SI c.atB e m) cI mI' ∧ List.Forall₂ (fun c m => IsImage AO SO c.atB e m) cO mO') ∧
        r.at' e = applyEntries (normalise (matrix mI mO) mI' mO') (fun q => y.atB (putNamed e AO (ND.unravel nO q)))
          (ND.ravel nI (AI.map e)) ∧
        ((∀ t ∈ normalise (matrix mI mO) mI' mO', t.1 < nO.prod ∧ t.2.1 < nI.prod) →
          (∀ q, q < nO.prod → (((normalise (matrix mI mO) mI' mO').filter (fun t => t.1 = q)).map (fun t => t.2.2)).sum = 1) →
          ((List.range nI.prod).map (fun p => r.at' (putNamed e AI (ND.unravel nI p)))).sum =
            ((List.range nO.prod).map (fun q => y.atB (putNamed e AO (ND.unravel nO q)))).sum) := by
  obtain ⟨w, w1, w2, w3, w4⟩ := C94_weights_partial matrix cells cI cO axisInput axisOutput hI hO SI SO hSI hSO AI AO hAI hAO hordI hordO
    hlen S hS hdI hdO
  have hssI : ∀ u ∈ cI.map SA.shape, Dict.WF u := by
    intro u hu
    obtain ⟨c, hc, rfl⟩ := List.mem_map.1 hu
    exact wf_shape (hI c hc)
  have hssO : ∀ u ∈ cO.map SA.shape, Dict.WF u := by
    intro u hu
    obtain ⟨c, hc, rfl⟩ := List.mem_map.1 hu
    exact wf_shape (hO c hc)
  have hSIw := (broadcastShapes_joinOf hssI hSI).1
  have hSOw := (broadcastShapes_joinOf hssO hSO).1
  have hss : ∀ u ∈ [SI.filter (fun p => p.1 ∉ AI), SO.filter (fun p => p.1 ∉ AO)], Dict.WF u := by
    simp [wf_filter hSIw, wf_filter hSOw]
  have hSw := (broadcastShapes_joinOf hss hS).1
  have hkS : ∀ x, x ∈ keys S ↔ (x ∈ keys SI ∧ x ∉ AI) ∨ (x ∈ keys SO ∧ x ∉ AO) := by
    intro x
    rw [(C01_broadcast_shapes_ok _ hss S hS).2.1 x]
    have h1 := keys_filter_key SI (fun x => x ∉ AI)
    have h2 := keys_filter_key SO (fun x => x ∉ AO)
    simp only [List.mem_cons, List.not_mem_nil, or_false, exists_eq_or_imp, exists_eq_left]
    rw [h1, h2]
    simp
  have hdisI : ∀ x ∈ AI, x ∉ keys S := by
    intro x hx h
    rcases (hkS x).1 h with h | h
    · exact h.2 hx
    · exact h.2 (hdI x hx h.1)
  have hdisO : ∀ x ∈ AO, x ∉ keys S := by
    intro x hx h
    rcases (hkS x).1 h with h | h
    · exact h.2 (hdO x hx h.1)
    · exact h.2 hx
  have haxes : w.axes = keys S := by rw [← keys_shape w2, w3]
  obtain ⟨w', t1, t2, t3, t4⟩ := C113_transpose_partial normalise w (S ++ cellShape cells AI SI) (S ++ cellShape cells AO SO) cI cO
    axisInput axisOutput w2 hI hO SI SO hSI hSO AI AO hAI hAO hordI hordO hlen S (by rw [w3]; exact bs_again hSw hS) hdI hdO
    (by rw [haxes]; exact hdisI) (by rw [haxes]; exact hdisO)
  have hcI := keys_cellShape cells hordI
  have hcO := keys_cellShape cells hordO
  have hAIn : AI.Nodup := by rw [hordI]; exact hSIw.filter _
  have hAOn : AO.Nodup := by rw [hordO]; exact hSOw.filter _
  have hsw : ∀ (A : List String) (s : Shape), keys (cellShape cells A s) = A → A.Nodup → (∀ x ∈ A, x ∉ keys S) →
      Dict.WF (S ++ cellShape cells A s) := by
    intro A s hk hn hd
    unfold Dict.WF
    have : keys (S ++ cellShape cells A s) = keys S ++ keys (cellShape cells A s) := by simp [keys]
    rw [this, hk, List.nodup_append]
    exact ⟨hSw, hn, fun a ha b hb hab => hd b hb (hab ▸ ha)⟩
  have hIw := hsw AI SI hcI hAIn hdisI
  have hOw := hsw AO SO hcO hAOn hdisO
  obtain ⟨q1, q2, q3, q4, q5, q6, q7, q8, q9⟩ := back_conditions (TI := cellShape cells AI SI) (TO := cellShape cells AO SO) t2 t3 hIw hOw
    (y := y) T (by rw [hcO]; exact hT)
    (by
      intro ax n m hn hm
      unfold cellShape at hn
      rw [get?_map_pair _ (fun _ v => cells v), get?_filter_key hSOw (fun x => x ∈ AO)] at hn
      split at hn
      · next hx =>
        cases hz : get? SO ax with
        | none => rw [hz] at hn; cases hn
        | some z =>
          rw [hz] at hn
          injection hn with hn
          rw [← hn]
          exact hval ax z m hx hz hm
      · cases hn)
    (by rw [hcI, hcO]; exact hnew)
  obtain ⟨r, r1, r2, r3, r4⟩ := C94_regrid_from_weights w' (S ++ cellShape cells AO SO) (S ++ cellShape cells AI SI) y t2 hOw hIw hy T q1 q2 q3
    q4 q5 (by rw [q6, q7, hcI, hcO]; exact hlen.symm)
  obtain ⟨r', r1', r4'⟩ := C97_conserved w' (S ++ cellShape cells AO SO) (S ++ cellShape cells AI SI) y t2 hOw hIw hy T q1 q2 q3 q4 q5
    AO AI (by rw [q6, hcO]) (by rw [q7, hcI]) hlen.symm nO.prod nI.prod nO nI (by rw [q8, hnO]) (by rw [q9, hnI]) rfl
  have hrr : r' = r := by rw [r1] at r1'; exact (Except.ok.inj r1').symm
  subst hrr
  refine ⟨w, w', _, _, r', w1, t1, r1, r2, by rw [r3, q9], fun e he => ?_⟩
  obtain ⟨mI, mO, m1, m2, m3⟩ := w4 e
  obtain ⟨mI', mO', m1', m2', m3'⟩ := t4 e
  have hwe : w.atB e = w.at' e := atB_eq_at' w2 (by rw [w3]; exact he)
  have hwe' : w'.atB e = w'.at' e := atB_eq_at' t2 (by rw [t3]; exact he)
  have hN : w'.atB e = normalise (matrix mI mO) mI' mO' := by rw [hwe', m1', hwe, m1]
  refine ⟨mI, mO, mI', mO', ⟨m2, m3, m2', m3'⟩, ?_, ?_⟩
  · rw [r4 e, hN, q6, q7, q8, q9, hcI, hcO, ← hnI, ← hnO]
  · intro h1 h2
    exact r4' e (by rw [hN]; exact h1) (by rw [hN]; exact h2)

/-! ### Errors -/

/-- **C113** (errors). Coordinates whose components cannot be broadcast together raise `ValueError`. -/
theorem C113_error (normalise : Entries K → List (ND α) → List (ND α) → Entries K) (w : SA (Entries K)) (sI sO : Shape)
    (cI cO : List (SA α)) (axisInput axisOutput : Option (List String)) (hI : ∀ c ∈ cI, c.WF) (hO : ∀ c ∈ cO, c.WF)
    (h : Clash (cI.map SA.shape) ∨ Clash (cO.map SA.shape)) :
    transposeWeightsConservative normalise (w, sI, sO) cI cO axisInput axisOutput = .error .valueError := by
  have hssI : ∀ u ∈ cI.map SA.shape, Dict.WF u := by
    intro u hu
    obtain ⟨c, hc, rfl⟩ := List.mem_map.1 hu
    exact wf_shape (hI c hc)
  have hssO : ∀ u ∈ cO.map SA.shape, Dict.WF u := by
    intro u hu
    obtain ⟨c, hc, rfl⟩ := List.mem_map.1 hu
    exact wf_shape (hO c hc)
  unfold transposeWeightsConservative
  cases hbI : broadcastShapes (cI.map SA.shape) with
  | error e =>
    rw [(C01_broadcast_shapes_error_kind _ hssI e hbI)]
    rfl
  | ok SI =>
    cases hbO : broadcastShapes (cO.map SA.shape) with
    | error e =>
      rw [(C01_broadcast_shapes_error_kind _ hssO e hbO)]
      rfl
    | ok SO =>
      exfalso
      rcases h with h | h
      · obtain ⟨e, he⟩ := (C01_broadcast_shapes_error_iff _ hssI).2 h
        rw [hbI] at he; cases he
      · obtain ⟨e, he⟩ := (C01_broadcast_shapes_error_iff _ hssO).2 h
        rw [hbO] at he; cases he

end SA
end NA

namespace NA
open Dict
namespace SA

/-- Weights back from two output cells to three input cells which add up to one for each output cell, and a term from each grid. -/
def exNormalise (w : Entries Int) (mI mO : List (ND Int)) : Entries Int :=
  [(0, 0, (mI.map (fun m => m.get [1])).sum), (0, 1, 1 - (mI.map (fun m => m.get [1])).sum), (1, 2, 1 - w.length),
    (1, 1, w.length + (mO.map (fun m => m.get [1])).sum - 6)]

example : ∃ r, transposeWeightsConservative exNormalise (exWeights, [("t", 2), ("x", 3)], [("t", 2), ("u", 2)]) [exGridIn] [exGridOut]
        (some ["x"]) none = .ok (r, [("t", 2), ("u", 2)], [("t", 2), ("x", 3)]) ∧
      r.WF ∧ r.shape = [("t", 2)] ∧ ∀ e, ∃ mI mO, r.at' e = exNormalise (exWeights.atB e) mI mO ∧
        List.Forall₂ (fun c m => IsImage ["x"] [("t", 2), ("x", 3)] c.atB e m) [exGridIn] mI ∧
        List.Forall₂ (fun c m => IsImage ["u"] [("u", 2)] c.atB e m) [exGridOut] mO :=
  C113_transpose_partial exNormalise exWeights [("t", 2), ("x", 3)] [("t", 2), ("u", 2)] [exGridIn] [exGridOut] (some ["x"]) none wf_exWeights
    (by simpa using wf_exGridIn) (by simpa using wf_exGridOut) [("t", 2), ("x", 3)] [("u", 2)] rfl rfl ["x"] ["u"] rfl rfl (by decide)
    (by decide) rfl [("t", 2)] rfl (by decide) (by decide) (by decide) (by decide)

/-- The weights of the example at `t = 1`. -/
example : (transposeWeightsConservative exNormalise (exWeights, [("t", 2), ("x", 3)], [("t", 2), ("u", 2)]) [exGridIn] [exGridOut]
    (some ["x"]) none).map (fun r => (r.1.axes, (r.1.nd.get [1]).map (fun t => (t.1, t.2.1, t.2.2)), keys r.2.1)) =
      .ok (["t"], [(0, 0, 11), (0, 1, -10), (1, 2, -3), (1, 1, 4)], ["t", "u"]) := by decide +kernel

example : ∃ w w' sI sO r, regridWeights exMatrix (fun n => n) [exGridIn] [exGridOut] (some ["x"]) none = .ok (w, sI, sO) ∧
      transposeWeightsConservative exNormalise (w, sI, sO) [exGridIn] [exGridOut] (some ["x"]) none = .ok (w', sO, sI) ∧
      regridFromWeights w' sO sI exGridBack = .ok r ∧ r.WF ∧ r.shape = [("t", 2), ("x", 3)] ∧
      ∀ e, InRange [("t", 2)] e → ∃ mI mO mI' mO',
        (List.Forall₂ (fun c m => IsImage ["x"] [("t", 2), ("x", 3)] c.atB e m) [exGridIn] mI ∧
          List.Forall₂ (fun c m => IsImage ["u"] [("u", 2)] c.atB e m) [exGridOut] mO ∧
          List.Forall₂ (fun c m => IsImage ["x"] [("t", 2), ("x", 3)] c.atB e m) [exGridIn] mI' ∧
          List.Forall₂ (fun c m => IsImage ["u"] [("u", 2)] c.atB e m) [exGridOut] mO') ∧
        r.at' e = applyEntries (exNormalise (exMatrix mI mO) mI' mO') (fun q => exGridBack.atB (putNamed e ["u"] (ND.unravel [2] q)))
          (ND.ravel [3] (["x"].map e)) ∧
        ((∀ t ∈ exNormalise (exMatrix mI mO) mI' mO', t.1 < [2].prod ∧ t.2.1 < [3].prod) →
          (∀ q, q < [2].prod → (((exNormalise (exMatrix mI mO) mI' mO').filter (fun t => t.1 = q)).map (fun t => t.2.2)).sum = 1) →
          ((List.range [3].prod).map (fun p => r.at' (putNamed e ["x"] (ND.unravel [3] p)))).sum =
            ((List.range [2].prod).map (fun q => exGridBack.atB (putNamed e ["u"] (ND.unravel [2] q)))).sum) :=
  C113_back_partial exMatrix exNormalise (fun n => n) [exGridIn] [exGridOut] exGridBack (some ["x"]) none (by simpa using wf_exGridIn)
    (by simpa using wf_exGridOut) wf_exGridBack [("t", 2), ("x", 3)] [("u", 2)] rfl rfl ["x"] ["u"] rfl rfl (by decide) (by decide) rfl
    [("t", 2)] rfl (by decide) (by decide) [("t", 2)] rfl
    (by
      intro ax n m hax hn hm
      have : ax = "u" := by simpa using hax
      subst this
      have h1 : some 2 = some n := hn
      have h2 : some 2 = some m := hm
      simp at h1 h2
      omega)
    (by decide) [3] [2] rfl rfl

/-- The values of the example are 2 and 5 on the output grid; their total is also the total on the input grid, for each `t`. -/
example : (do
    let w ← regridWeights exMatrix (fun n => n) [exGridIn] [exGridOut] (some ["x"]) none
    let w' ← transposeWeightsConservative exNormalise w [exGridIn] [exGridOut] (some ["x"]) none
    let r ← regridFromWeights w'.1 w'.2.1 w'.2.2 exGridBack
    .ok (r.axes, r.nd.toList)) = (.ok (["t", "x"], [2, 20, -15, 22, 0, -15]) : R (List String × List Int)) := by decide +kernel

example : transposeWeightsConservative exNormalise (exWeights, [("t", 2), ("x", 3)], [("t", 2), ("u", 2)])
      [exGridIn, ⟨["x"], ⟨[2], fun _ => 0⟩⟩] [exGridOut] (some ["x"]) none = .error .valueError :=
  C113_error exNormalise exWeights _ _ _ _ _ _
    (by
      intro c hc
      simp only [List.mem_cons, List.not_mem_nil, or_false] at hc
      rcases hc with rfl | rfl
      · exact wf_exGridIn
      · exact ⟨rfl, by decide⟩)
    (by simpa using wf_exGridOut) (.inl ⟨"x", 3, 2, ⟨_, List.mem_cons_self, rfl⟩, ⟨_, List.mem_cons_of_mem _ List.mem_cons_self, rfl⟩, by decide⟩)

end SA
end NA
