import Verif.Scalar.Regrid
import Verif.Props.Kernels
import Mathlib.Tactic.Ring

/-!
# Resampling (C94)
-/

namespace NA
open Dict
open SA (FitsIn InRange)

variable {α β γ K : Type}

theorem bs_extend {S T : Shape} (hS : WF S) (hT : WF T) (h : ∀ ax m, get? T ax = some m → ∀ n, get? S ax = some n → m = n ∨ m = 1) :
    broadcastShapes [S, T] = .ok (S ++ T.filter (fun p => p.1 ∉ keys S)) := by
  have hss : ∀ u ∈ [S, T], WF u := by simp [hS, hT]
  cases hB : broadcastShapes [S, T] with
  | error e =>
    exfalso
    obtain ⟨ax, m, n, ⟨s1, hs1, g1⟩, ⟨s2, hs2, g2⟩, hne, h3, h4⟩ := (C01_broadcast_shapes_error_iff _ hss).1 ⟨e, hB⟩
    simp only [List.mem_cons, List.not_mem_nil, or_false] at hs1 hs2
    rcases hs1 with rfl | rfl <;> rcases hs2 with rfl | rfl
    · rw [g1] at g2; injection g2 with g2; exact hne g2
    · rcases h ax n g2 m g1 with h | h
      · exact hne h.symm
      · exact h4 h
    · rcases h ax m g1 n g2 with h | h
      · exact hne h
      · exact h3 h
    · rw [g1] at g2; injection g2 with g2; exact hne g2
  | ok B =>
    obtain ⟨hBw, hj⟩ := broadcastShapes_joinOf hss hB
    congr 1
    apply dict_ext hBw
    · rw [C03_axis_order _ hss B hB, List.flatMap_cons, eraseDups_append_filter, eraseDups_of_nodup hS]
      simp only [List.flatMap_cons, List.flatMap_nil, List.append_nil]
      rw [eraseDups_of_nodup (hT.filter _)]
      show keys S ++ _ = keys (S ++ _)
      have : keys (S ++ T.filter (fun p => p.1 ∉ keys S)) = keys S ++ (keys T).filter (· ∉ keys S) := by
        rw [← keys_filter_key T (fun x => x ∉ keys S)]
        simp [keys]
      rw [this]
    · intro x
      have := hj x
      rw [SA.get?_append, get?_filter_key hT (fun x => x ∉ keys S)]
      cases hs : get? S x with
      | none =>
        have hx : x ∉ keys S := get?_eq_none.1 hs
        simp only [hx, not_false_eq_true, if_true, Option.none_or]
        cases ht : get? T x with
        | none => 
          simp only [sizesOf, List.filterMap_cons, hs, ht, List.filterMap_nil] at this
          cases hb : get? B x with
          | none => rfl
          | some b => rw [hb] at this; simp [JoinOf] at this
        | some t =>
          simp only [sizesOf, List.filterMap_cons, hs, ht, List.filterMap_nil] at this
          cases hb : get? B x with
          | none => rw [hb] at this; simp [JoinOf] at this
          | some b => rw [hb] at this; simp [JoinOf] at this; rw [this.1]
      | some s =>
        simp only [Option.some_or]
        cases ht : get? T x with
        | none => 
          simp only [sizesOf, List.filterMap_cons, hs, ht, List.filterMap_nil] at this
          cases hb : get? B x with
          | none => rw [hb] at this; simp [JoinOf] at this
          | some b => rw [hb] at this; simp [JoinOf] at this; rw [this.1]
        | some t =>
          simp only [sizesOf, List.filterMap_cons, hs, ht, List.filterMap_nil] at this
          cases hb : get? B x with
          | none => rw [hb] at this; simp [JoinOf] at this
          | some b =>
            rw [hb] at this
            simp only [JoinOf, List.mem_cons, List.not_mem_nil, or_false, forall_eq_or_imp, forall_eq] at this
            have h2 := h x t ht s hs
            congr 1
            omega

namespace ND

/-- Positions of named axes. -/
theorem map_others {axes names : List String} (hn : axes.Nodup) (hsub : names ⊆ axes) :
    (others axes.length (names.map axes.idxOf)).map (axes.getD · "") = axes.filter (· ∉ names) := by
  have h1 : axes = (List.range axes.length).map (axes.getD · "") := by
    apply List.ext_getElem
    · simp
    · intro i h1 h2
      simp [h1]
  conv_rhs => rw [h1, List.filter_map]
  unfold others
  congr 1
  apply List.filter_congr
  intro i hi
  have hi' : i < axes.length := List.mem_range.1 hi
  have hmem : i ∈ names.map axes.idxOf ↔ axes[i] ∈ names := by
    constructor
    · intro h
      obtain ⟨x, hx, hxi⟩ := List.mem_map.1 h
      have : axes[i] = x := by
        have := List.getElem_idxOf (List.idxOf_lt_length_iff.2 (hsub hx))
        simp only [hxi] at this
        exact this
      rw [this]
      exact hx
    · intro h
      exact List.mem_map.2 ⟨_, h, hn.idxOf_getElem i hi'⟩
  simp only [Function.comp_apply, List.getD_eq_getElem _ _ hi']
  rw [decide_eq_decide, not_iff_not]
  exact hmem

theorem rest_named {axes names : List String} (hn : axes.Nodup) (hsub : names ⊆ axes) (f : String → Nat) :
    rest (names.map axes.idxOf) (axes.map f) = (axes.filter (· ∉ names)).map f := by
  rw [← map_others hn hsub, List.map_map]
  unfold rest
  rw [List.length_map]
  apply List.map_congr_left
  intro i hi
  have hi' : i < axes.length := List.mem_range.1 (List.mem_filter.1 hi).1
  simp [hi']

theorem ascending_named {axes names : List String} (hn : axes.Nodup) (h : names.Sublist axes) :
    (names.map axes.idxOf).Pairwise (· < ·) := by
  rw [List.pairwise_map]
  refine List.Pairwise.sublist h ?_
  rw [List.pairwise_iff_getElem]
  intro i j hi hj hij
  rw [hn.idxOf_getElem i hi, hn.idxOf_getElem j hj]
  exact hij

theorem at_named {axes names : List String} (hsub : names ⊆ axes) (f : String → Nat) :
    (names.map axes.idxOf).map ((axes.map f).getD · 0) = names.map f := by
  rw [List.map_map]
  apply List.map_congr_left
  intro x hx
  exact getD_map_idxOf f (hsub hx)

theorem merge_named {axes names : List String} (hn : axes.Nodup) (hsub : names ⊆ axes) (e : String → Nat) (ks : List Nat) :
    merge axes.length (names.map axes.idxOf) ks ((axes.filter (· ∉ names)).map e) = axes.map (SA.putNamed e names ks) := by
  rw [SA.map_putNamed hn hsub]
  unfold merge putAt
  rw [List.length_map]
  apply List.map_congr_left
  intro p hp
  have hp' : p < axes.length := List.mem_range.1 hp
  split
  · rfl
  · next h =>
    have hm : p ∈ others axes.length (names.map axes.idxOf) := List.mem_filter.2 ⟨hp, by simpa using h⟩
    rw [← map_others hn hsub, List.map_map, getD_map_lt _ _ _ (List.idxOf_lt_length_iff.2 hm), List.getElem_idxOf]
    simp [hp']

end ND

namespace SA

theorem values_eq_map {S : Shape} (hS : Dict.WF S) : values S = (keys S).map (fun x => (get? S x).getD 0) := by
  simp only [values, keys, List.map_map]
  apply List.map_congr_left
  intro q hq
  simp [get?_of_mem hS hq]

/-- Specification: the element `q` of the product of a sparse matrix and a vector. -/
def applyEntries [Semiring K] (l : Entries K) (x : Nat → K) (q : Nat) : K := ((l.filter (fun t => t.2.1 = q)).map (fun t => t.2.2 * x t.1)).sum

/-- **C94** (resampling with given weights). Each element of the result is the sum of the elements which the entries of the weights
with the same index along the other axes name, times their weights. -/
theorem C94_regrid_from_weights [Semiring K] (weights : SA (Entries K)) (sI sO : Shape) (values : SA K) (hw : weights.WF)
    (hI : Dict.WF sI) (hO : Dict.WF sO) (hv : values.WF) (S : Shape)
    (hS : broadcastShapes [values.shape.filter (fun p => p.1 ∉ keys sI ∨ p.1 ∈ weights.axes), weights.shape] = .ok S)
    (hin : ∀ ax ∈ weights.axes, ∀ n, get? sI ax = some n → n = 1 ∨ get? weights.shape ax = some n)
    (hout : ∀ ax ∈ weights.axes, ∀ n, get? sO ax = some n → n = 1 ∨ get? weights.shape ax = some n)
    (hval : ∀ ax n m, ax ∉ weights.axes → get? sI ax = some n → get? values.shape ax = some m → m = n ∨ m = 1)
    (hnew : ∀ ax ∈ values.axes, ax ∈ keys sO → ax ∈ keys sI ∨ ax ∈ weights.axes)
    (hlen : ((keys sI).filter (· ∉ weights.axes)).length = ((keys sO).filter (· ∉ weights.axes)).length) :
    ∃ r, regridFromWeights weights sI sO values = .ok r ∧ r.WF ∧ r.shape = S ++ sO.filter (fun p => p.1 ∉ weights.axes) ∧
      ∀ e, r.at' e = applyEntries (weights.atB e)
        (fun p => values.atB (putNamed e ((keys sI).filter (· ∉ weights.axes))
          (ND.unravel ((sI.filter (fun p => p.1 ∉ weights.axes)).map (·.2)) p)))
        (ND.ravel ((sO.filter (fun p => p.1 ∉ weights.axes)).map (·.2)) (((keys sO).filter (· ∉ weights.axes)).map e)) := by
  have hww := wf_shape hw
  have hvw := wf_shape hv
  have hkw : keys weights.shape = weights.axes := keys_shape hw
  set AI := (keys sI).filter (· ∉ weights.axes) with hAI
  set AO := (keys sO).filter (· ∉ weights.axes) with hAO
  set I := sI.filter (fun p => p.1 ∉ weights.axes) with hIdef
  set P := sO.filter (fun p => p.1 ∉ weights.axes) with hPdef
  have hkI : keys I = AI := keys_filter_key sI (fun x => x ∉ weights.axes)
  have hkP : keys P = AO := keys_filter_key sO (fun x => x ∉ weights.axes)
  have hIw : Dict.WF I := wf_filter hI _
  have hPw : Dict.WF P := wf_filter hO _
  have hmI : ∀ x, x ∈ AI ↔ x ∈ keys sI ∧ x ∉ weights.axes := fun x => by simp [hAI]
  have hmO : ∀ x, x ∈ AO ↔ x ∈ keys sO ∧ x ∉ weights.axes := fun x => by simp [hAO]
  have horth : orthogonal values.shape AI = values.shape.filter (fun p => p.1 ∉ keys sI ∨ p.1 ∈ weights.axes) := by
    unfold orthogonal
    apply List.filter_congr
    intro p _
    have := hmI p.1
    by_cases h1 : p.1 ∈ keys sI <;> by_cases h2 : p.1 ∈ weights.axes <;> simp [this, h1, h2]
  rw [← horth] at hS
  have hss : ∀ u ∈ [orthogonal values.shape AI, weights.shape], Dict.WF u := by simp [wf_orthogonal hvw, hww]
  obtain ⟨hSw, hSj⟩ := broadcastShapes_joinOf hss hS
  have hkS : ∀ x, x ∈ keys S ↔ (x ∈ values.axes ∧ x ∉ AI) ∨ x ∈ weights.axes := by
    intro x
    rw [(C01_broadcast_shapes_ok _ hss S hS).2.1 x]
    simp [mem_keys_orthogonal, keys_shape hv, hkw]
  have hfW : ∀ ax n, get? weights.shape ax = some n → ∃ m, get? S ax = some m ∧ (n = m ∨ n = 1) :=
    fun ax n h => fitsIn_of_broadcastShapes hss hS (by simp) ax n h
  have hfV : ∀ ax n, get? values.shape ax = some n → ax ∉ AI → ∃ m, get? S ax = some m ∧ (n = m ∨ n = 1) := by
    intro ax n h hax
    refine fitsIn_of_broadcastShapes hss hS (s := orthogonal values.shape AI) (by simp) ax n ?_
    rw [get?_orthogonal hvw, if_neg hax]
    exact h
  have hext : ∀ (s : Shape) (A : List String) (J : Shape), Dict.WF s → A = (keys s).filter (· ∉ weights.axes) →
      J = s.filter (fun p => p.1 ∉ weights.axes) →
      (∀ ax ∈ weights.axes, ∀ n, get? s ax = some n → n = 1 ∨ get? weights.shape ax = some n) →
      (∀ x ∈ A, x ∉ keys S) → broadcastShapes [S, s] = .ok (S ++ J) := by
    intro s A J hs hA hJ h1 h2
    rw [bs_extend hSw hs]
    · congr 2
      rw [hJ]
      apply List.filter_congr
      intro p hp
      have hp' : p.1 ∈ keys s := List.mem_map_of_mem hp
      by_cases hx : p.1 ∈ weights.axes
      · simp [hx, (hkS p.1).2 (Or.inr hx)]
      · have := h2 p.1 (by rw [hA]; simp [hp', hx])
        simp [hx, this]
    · intro ax m hm n hn
      by_cases hx : ax ∈ weights.axes
      · rcases h1 ax hx m hm with h | h
        · exact Or.inr h
        · obtain ⟨m', g1, g2⟩ := hfW ax m h
          rw [hn] at g1
          injection g1 with g1
          subst g1
          exact g2
      · exact absurd (mem_keys_of_get? hn) (h2 ax (by rw [hA]; simp [hx, mem_keys_of_get? hm]))
  have hdI : ∀ x ∈ AI, x ∉ keys S := by
    intro x hx h
    rcases (hkS x).1 h with h | h
    · exact h.2 hx
    · exact ((hmI x).1 hx).2 h
  have hdO : ∀ x ∈ AO, x ∉ keys S := by
    intro x hx h
    rcases (hkS x).1 h with h | h
    · rcases hnew x h.1 ((hmO x).1 hx).1 with h' | h'
      · exact h.2 ((hmI x).2 ⟨h', ((hmO x).1 hx).2⟩)
      · exact ((hmO x).1 hx).2 h'
    · exact ((hmO x).1 hx).2 h
  have hSI := hext sI AI I hI rfl rfl hin hdI
  have hSO := hext sO AO P hO rfl rfl hout hdO
  have hkSI : keys (S ++ I) = keys S ++ AI := by rw [← hkI]; simp [keys]
  have hkSO : keys (S ++ P) = keys S ++ AO := by rw [← hkP]; simp [keys]
  have hSIw : Dict.WF (S ++ I) := by
    unfold Dict.WF
    rw [hkSI, List.nodup_append]
    exact ⟨hSw, hkI ▸ hIw, fun a ha b hb hab => hdI b hb (hab ▸ ha)⟩
  have hSOw : Dict.WF (S ++ P) := by
    unfold Dict.WF
    rw [hkSO, List.nodup_append]
    exact ⟨hSw, hkP ▸ hPw, fun a ha b hb hab => hdO b hb (hab ▸ ha)⟩
  have hfS : ∀ (A : List String), (∀ x ∈ A, x ∉ keys S) → (keys S ++ A).filter (· ∉ A) = keys S := by
    intro A hA
    rw [List.filter_append, List.filter_eq_self.2, List.filter_eq_nil_iff.2, List.append_nil]
    · simp
    · intro x hx
      simp only [decide_eq_true_eq]
      exact fun h => hA x h hx
  have horthI : orthogonal (S ++ I) AI = S := by
    unfold orthogonal
    rw [List.filter_append, List.filter_eq_self.2, List.filter_eq_nil_iff.2, List.append_nil]
    · intro p hp
      have : p.1 ∈ AI := by rw [← hkI]; exact List.mem_map_of_mem hp
      simp [this]
    · intro p hp
      have : p.1 ∉ AI := fun h => hdI p.1 h (List.mem_map_of_mem hp)
      simp [this]
  obtain ⟨_, W, W1, W2, W3, W4⟩ | ⟨h, _⟩ := C10_broadcast_to weights hw S hSw
  swap
  · exact absurd (fun ax n hn => hfW ax n hn) h
  obtain ⟨_, V, V1, V2, V3, V4⟩ | ⟨h, _⟩ := C10_broadcast_to values hv (S ++ I) hSIw
  swap
  · refine absurd (fun ax n hn => ?_) h
    rw [get?_append]
    by_cases hax : ax ∈ AI
    · have hx := (hmI ax).1 hax
      obtain ⟨m, hm⟩ := exists_get?_of_mem hx.1
      refine ⟨m, ?_, hval ax m n hx.2 hm hn⟩
      rw [get?_eq_none.2 (hdI ax hax), Option.none_or, hIdef, get?_filter_key hI (fun x => x ∉ weights.axes), if_pos hx.2, hm]
    · obtain ⟨m, hm, hmn⟩ := hfV ax n hn hax
      exact ⟨m, by rw [hm]; rfl, hmn⟩
  -- positions
  have hsubI : AI ⊆ keys (S ++ I) := by rw [hkSI]; exact List.subset_append_right _ _
  have hsubO : AO ⊆ keys (S ++ P) := by rw [hkSO]; exact List.subset_append_right _ _
  have hrI : ND.rest (AI.map (keys (S ++ I)).idxOf) (Dict.values (S ++ I)) = Dict.values S := by
    rw [values_eq_map hSIw, ND.rest_named hSIw hsubI, hkSI, hfS AI hdI, values_eq_map hSw]
    apply List.map_congr_left
    intro x hx
    obtain ⟨m, hm⟩ := exists_get?_of_mem hx
    rw [get?_append, hm]
    rfl
  have hrO : ND.rest (AO.map (keys (S ++ P)).idxOf) (Dict.values (S ++ P)) = Dict.values S := by
    rw [values_eq_map hSOw, ND.rest_named hSOw hsubO, hkSO, hfS AO hdO, values_eq_map hSw]
    apply List.map_congr_left
    intro x hx
    obtain ⟨m, hm⟩ := exists_get?_of_mem hx
    rw [get?_append, hm]
    rfl
  have hsI : (AI.map (keys (S ++ I)).idxOf).map ((Dict.values (S ++ I)).getD · 0) = I.map (·.2) := by
    rw [values_eq_map hSIw, ND.at_named hsubI]
    show _ = Dict.values I
    rw [values_eq_map hIw, hkI]
    apply List.map_congr_left
    intro x hx
    rw [get?_append, get?_eq_none.2 (hdI x hx), Option.none_or]
  have hsO : (AO.map (keys (S ++ P)).idxOf).map ((Dict.values (S ++ P)).getD · 0) = P.map (·.2) := by
    rw [values_eq_map hSOw, ND.at_named hsubO]
    show _ = Dict.values P
    rw [values_eq_map hPw, hkP]
    apply List.map_congr_left
    intro x hx
    rw [get?_append, get?_eq_none.2 (hdO x hx), Option.none_or]
  have hWs : W.nd.shape = Dict.values S := by rw [← values_shape W2, W3]
  have hrun : ND.regrid W.nd (Dict.values (S ++ I)) (Dict.values (S ++ P)) V.nd (AI.map (keys (S ++ I)).idxOf)
      (AO.map (keys (S ++ P)).idxOf) = .ok ⟨Dict.values (S ++ P), fun i => (((W.nd.get (ND.rest (AO.map (keys (S ++ P)).idxOf) i)).filter
      (fun t => t.2.1 = ND.ravel (P.map (·.2)) ((AO.map (keys (S ++ P)).idxOf).map (i.getD · 0)))).map
        (fun t => t.2.2 * V.nd.get (ND.merge (Dict.values (S ++ I)).length (AI.map (keys (S ++ I)).idxOf)
          (ND.unravel (I.map (·.2)) t.1) (ND.rest (AO.map (keys (S ++ P)).idxOf) i)))).sum⟩ := by
    unfold ND.regrid
    rw [if_pos ⟨by simpa using hlen, ND.ascending_named hSIw (by rw [hkSI]; exact List.sublist_append_right _ _),
      ND.ascending_named hSOw (by rw [hkSO]; exact List.sublist_append_right _ _), by rw [hrI, hrO], by rw [hWs, hrI]⟩, hsI, hsO]
  have hk := mk?_of_wf (nd := ⟨Dict.values (S ++ P), fun i => (((W.nd.get (ND.rest (AO.map (keys (S ++ P)).idxOf) i)).filter
      (fun t => t.2.1 = ND.ravel (P.map (·.2)) ((AO.map (keys (S ++ P)).idxOf).map (i.getD · 0)))).map
        (fun t => t.2.2 * V.nd.get (ND.merge (Dict.values (S ++ I)).length (AI.map (keys (S ++ I)).idxOf)
          (ND.unravel (I.map (·.2)) t.1) (ND.rest (AO.map (keys (S ++ P)).idxOf) i)))).sum⟩) (axes := keys (S ++ P))
    (by simp [ND.ndim, keys, Dict.values]) hSOw
  refine ⟨_, ?_, (mk?_ok hk).2, shape_of_mk hSOw rfl, fun e => ?_⟩
  · unfold regridFromWeights
    simp only [hkw, bind, Except.bind]
    rw [← hAI, ← hAO, hS]
    simp only []
    rw [hSI]
    simp only []
    rw [hSO]
    simp only []
    rw [horthI, W1]
    simp only []
    rw [V1]
    simp only []
    rw [hrun]
    exact hk
  · have hi : ND.rest (AO.map (keys (S ++ P)).idxOf) ((keys (S ++ P)).map e) = (keys S).map e := by
      rw [ND.rest_named hSOw hsubO, hkSO, hfS AO hdO]
    have hlenI : (Dict.values (S ++ I)).length = (keys (S ++ I)).length := by simp [keys, Dict.values]
    have hmerge : ∀ ks, ND.merge (Dict.values (S ++ I)).length (AI.map (keys (S ++ I)).idxOf) ks ((keys S).map e)
        = (keys (S ++ I)).map (putNamed e AI ks) := by
      intro ks
      rw [hlenI, ← ND.merge_named hSIw hsubI]
      conv_rhs => rw [hkSI, hfS AI hdI]
      rw [hkSI]
    show (List.map _ (List.filter _ (W.nd.get _))).sum = _
    unfold applyEntries
    rw [hi, ← W4 e]
    unfold at'
    rw [← keys_shape W2, W3, ND.at_named hsubO]
    congr 1
    apply List.map_congr_left
    intro t _
    simp only []
    rw [hmerge, ← V4]
    unfold at'
    rw [← keys_shape V2, V3]

end SA
end NA

namespace NA
open Dict
open SA (FitsIn InRange)
variable {α β γ K : Type}
namespace SA

/-- Specification: the sizes of the values, for the sizes of the coordinates along the axes `A`. -/
def cellShape (cells : Nat → Nat) (A : List String) (S : Shape) : Shape :=
  (S.filter (fun p => p.1 ∈ A)).map (fun p => (p.1, cells p.2))

theorem nd_image {S T : Shape} {A : List String} (hSw : Dict.WF (S ++ T)) (hA : A = keys T) (b : SA α) (hb : b.WF)
    (hs : b.shape = S ++ T) (e : String → Nat) :
    IsImage A T b.at' e (b.nd.image (A.map (keys (S ++ T)).idxOf) ((keys S).map e)) := by
  have hkey : keys (S ++ T) = keys S ++ keys T := by simp [keys]
  have hsub : A ⊆ keys (S ++ T) := by rw [hkey, hA]; exact List.subset_append_right _ _
  have hdis : ∀ x ∈ A, x ∉ keys S := by
    intro x hx h
    unfold Dict.WF at hSw
    rw [hkey, List.nodup_append] at hSw
    exact hSw.2.2 x h x (hA ▸ hx) rfl
  have hnd : b.nd.shape = values (S ++ T) := by rw [← values_shape hb, hs]
  have hfil : (keys (S ++ T)).filter (· ∉ A) = keys S := by
    rw [hkey, ← hA, List.filter_append, List.filter_eq_self.2, List.filter_eq_nil_iff.2, List.append_nil]
    · simp
    · intro x hx
      simp only [decide_eq_true_eq]
      exact fun h => hdis x h hx
  refine ⟨?_, fun ks hks => ?_⟩
  · show (A.map (keys (S ++ T)).idxOf).map (b.nd.shape.getD · 0) = _
    rw [hnd, values_eq_map hSw, ND.at_named hsub]
    apply List.map_congr_left
    intro x hx
    rw [get?_append, get?_eq_none.2 (hdis x hx), Option.none_or]
  · show b.nd.get (ND.merge b.nd.shape.length _ ks _) = _
    have hl : b.nd.shape.length = (keys (S ++ T)).length := by rw [hnd]; simp [keys, values]
    have := ND.merge_named (axes := keys (S ++ T)) hSw hsub e ks
    rw [hfil] at this
    rw [hl, this]
    unfold at'
    rw [← keys_shape hb, hs]

theorem mapM_bc {l : List (SA α)} (hw : ∀ c ∈ l, c.WF) {B : Shape} (hB : Dict.WF B) (hf : ∀ c ∈ l, FitsIn c.shape B) :
    ∃ l', l.mapM (fun c => c.broadcastTo B) = .ok l' ∧
      List.Forall₂ (fun c b => b.WF ∧ b.shape = B ∧ ∀ e, b.at' e = c.atB e) l l' := by
  induction l with
  | nil => exact ⟨[], rfl, .nil⟩
  | cons c l ih =>
    obtain ⟨l', h1, h2⟩ := ih (fun c hc => hw c (by simp [hc])) (fun c hc => hf c (by simp [hc]))
    obtain ⟨_, b, b1, b2, b3, b4⟩ | ⟨h, _⟩ := C10_broadcast_to c (hw c (by simp)) B hB
    · refine ⟨b :: l', ?_, .cons ⟨b2, b3, b4⟩ h2⟩
      rw [List.mapM_cons, b1]
      simp only [bind, Except.bind]
      rw [h1]
      rfl
    · exact absurd (hf c (by simp)) h

theorem resized_named (cells : Nat → Nat) {S T : Shape} {A : List String} (hSw : Dict.WF (S ++ T)) (hA : A = keys T) :
    (keys (S ++ T)).zip (ND.resized cells (A.map (keys (S ++ T)).idxOf) (values (S ++ T))) = S ++ T.map (fun p => (p.1, cells p.2)) := by
  have hkey : keys (S ++ T) = keys S ++ keys T := by simp [keys]
  have hdis : ∀ x ∈ A, x ∉ keys S := by
    intro x hx h
    unfold Dict.WF at hSw
    rw [hkey, List.nodup_append] at hSw
    exact hSw.2.2 x h x (hA ▸ hx) rfl
  have hlen : (values (S ++ T)).length = (S ++ T).length := by simp [values]
  apply List.ext_getElem
  · simp [ND.resized, keys, values]
  · intro i h1 h2
    have hi : i < (S ++ T).length := by
      simpa using h2
    have hik : i < (keys (S ++ T)).length := by simpa [keys] using hi
    have hpos : i ∈ A.map (keys (S ++ T)).idxOf ↔ S.length ≤ i := by
      constructor
      · intro h
        obtain ⟨x, hx, hxi⟩ := List.mem_map.1 h
        by_contra hlt
        have hx' : x ∉ keys S := hdis x hx
        rw [hkey, List.idxOf_append_of_notMem hx'] at hxi
        have : (keys S).length = S.length := by simp [keys]
        omega
      · intro h
        refine List.mem_map.2 ⟨(keys (S ++ T))[i], ?_, hSw.idxOf_getElem i hik⟩
        rw [hA]
        have : (keys (S ++ T))[i] = (keys T)[i - S.length]'(by simp [keys] at hik ⊢; omega) := by
          simp only [keys, List.getElem_map]
          rw [List.getElem_append_right h]
        rw [this]
        exact List.getElem_mem _
    simp only [List.getElem_zip, ND.resized, List.getElem_map, List.getElem_range]
    rw [List.getD_eq_getElem _ _ (by omega)]
    by_cases h : S.length ≤ i
    · rw [if_pos (hpos.2 h), List.getElem_append_right h]
      simp only [keys, values, List.getElem_map]
      rw [List.getElem_append_right h]
    · rw [if_neg (fun h' => h (hpos.1 h')), List.getElem_append_left (by omega)]
      simp only [keys, values, List.getElem_map]
      rw [List.getElem_append_left (by omega)]

/-- **C94** (weights, partial). The weights at an index along the axes which are not resampled are computed from the images of the
coordinates at the same index.  Missing: axes in an order other than in the shape of the coordinates. -/
theorem C94_weights_partial (matrix : List (ND α) → List (ND α) → Entries K) (cells : Nat → Nat) (cI cO : List (SA α))
    (axisInput axisOutput : Option (List String)) (hI : ∀ c ∈ cI, c.WF) (hO : ∀ c ∈ cO, c.WF) (SI SO : Shape)
    (hSI : broadcastShapes (cI.map SA.shape) = .ok SI) (hSO : broadcastShapes (cO.map SA.shape) = .ok SO)
    (AI AO : List String) (hAI : AI = axisInput.getD (keys SI)) (hAO : AO = axisOutput.getD (keys SO))
    (hordI : AI = (keys SI).filter (· ∈ AI)) (hordO : AO = (keys SO).filter (· ∈ AO)) (hlen : AI.length = AO.length)
    (S : Shape) (hS : broadcastShapes [SI.filter (fun p => p.1 ∉ AI), SO.filter (fun p => p.1 ∉ AO)] = .ok S)
    (hdI : ∀ ax ∈ AI, ax ∈ keys SO → ax ∈ AO) (hdO : ∀ ax ∈ AO, ax ∈ keys SI → ax ∈ AI) :
    ∃ w, regridWeights matrix cells cI cO axisInput axisOutput = .ok (w, S ++ cellShape cells AI SI, S ++ cellShape cells AO SO) ∧
      w.WF ∧ w.shape = S ∧ ∀ e, ∃ mI mO, w.at' e = matrix mI mO ∧
        List.Forall₂ (fun c m => IsImage AI SI c.atB e m) cI mI ∧ List.Forall₂ (fun c m => IsImage AO SO c.atB e m) cO mO := by
  have hssI : ∀ u ∈ cI.map SA.shape, Dict.WF u := by
    intro u hu
    obtain ⟨c, hc, rfl⟩ := List.mem_map.1 hu
    exact wf_shape (hI c hc)
  have hssO : ∀ u ∈ cO.map SA.shape, Dict.WF u := by
    intro u hu
    obtain ⟨c, hc, rfl⟩ := List.mem_map.1 hu
    exact wf_shape (hO c hc)
  have hSIw := (broadcastShapes_joinOf hssI hSI).1
  have hSOw := (broadcastShapes_joinOf hssO hSO).1
  have hS' : broadcastShapes [orthogonal SI AI, orthogonal SO AO] = .ok S := hS
  have hss : ∀ u ∈ [orthogonal SI AI, orthogonal SO AO], Dict.WF u := by simp [wf_orthogonal hSIw, wf_orthogonal hSOw]
  have hSw := (broadcastShapes_joinOf hss hS').1
  have hkS : ∀ x, x ∈ keys S ↔ (x ∈ keys SI ∧ x ∉ AI) ∨ (x ∈ keys SO ∧ x ∉ AO) := by
    intro x
    rw [(C01_broadcast_shapes_ok _ hss S hS').2.1 x]
    simp [mem_keys_orthogonal]
  have hmI : ∀ x ∈ AI, x ∈ keys SI := fun x hx => by rw [hordI] at hx; exact (List.mem_filter.1 hx).1
  have hmO : ∀ x ∈ AO, x ∈ keys SO := fun x hx => by rw [hordO] at hx; exact (List.mem_filter.1 hx).1
  have hnI : ∀ x ∈ AI, x ∉ keys S := by
    intro x hx h
    rcases (hkS x).1 h with h | h
    · exact h.2 hx
    · exact h.2 (hdI x hx h.1)
  have hnO : ∀ x ∈ AO, x ∉ keys S := by
    intro x hx h
    rcases (hkS x).1 h with h | h
    · exact h.2 (hdO x hx h.1)
    · exact h.2 hx
  have hext : ∀ (s : Shape) (A : List String), Dict.WF s → (∀ x ∈ A, x ∉ keys S) → orthogonal s A ∈ [orthogonal SI AI, orthogonal SO AO] →
      broadcastShapes [S, s] = .ok (S ++ s.filter (fun p => p.1 ∈ A)) := by
    intro s A hs hA hm
    rw [bs_extend hSw hs]
    · congr 2
      apply List.filter_congr
      intro p hp
      have hp' : p.1 ∈ keys s := List.mem_map_of_mem hp
      by_cases hx : p.1 ∈ A
      · simp [hx, hA p.1 hx]
      · have : p.1 ∈ keys S := by
          rw [(C01_broadcast_shapes_ok _ hss S hS').2.1]
          exact ⟨_, hm, by rw [mem_keys_orthogonal]; exact ⟨hp', hx⟩⟩
        simp [hx, this]
    · intro ax m hmm n hn
      have hx : ax ∉ A := fun h => hA ax h (mem_keys_of_get? hn)
      obtain ⟨k, k1, k2⟩ := fitsIn_of_broadcastShapes hss hS' hm ax m (by rw [get?_orthogonal hs, if_neg hx]; exact hmm)
      rw [hn] at k1
      injection k1 with k1
      subst k1
      exact k2
  have hEI := hext SI AI hSIw hnI (by simp)
  have hEO := hext SO AO hSOw hnO (by simp)
  have hkTI : AI = keys (SI.filter (fun p => p.1 ∈ AI)) := by
    rw [keys_filter_key SI (fun x => x ∈ AI)]
    exact hordI
  have hkTO : AO = keys (SO.filter (fun p => p.1 ∈ AO)) := by
    rw [keys_filter_key SO (fun x => x ∈ AO)]
    exact hordO
  have hBIw : Dict.WF (S ++ SI.filter (fun p => p.1 ∈ AI)) := (broadcastShapes_joinOf (by simp [hSw, hSIw]) hEI).1
  have hBOw : Dict.WF (S ++ SO.filter (fun p => p.1 ∈ AO)) := (broadcastShapes_joinOf (by simp [hSw, hSOw]) hEO).1
  have hfit : ∀ (l : List (SA α)) (s B : Shape), (∀ u ∈ l.map SA.shape, Dict.WF u) → broadcastShapes (l.map SA.shape) = .ok s →
      Dict.WF s → broadcastShapes [S, s] = .ok B → ∀ c ∈ l, FitsIn c.shape B := by
    intro l s B hl hls hs hB c hc ax m hm
    obtain ⟨n, n1, n2⟩ := fitsIn_of_broadcastShapes hl hls (List.mem_map_of_mem hc) ax m hm
    obtain ⟨k, k1, k2⟩ := fitsIn_of_broadcastShapes (by simp [hSw, hs]) hB (s := s) (by simp) ax n n1
    refine ⟨k, k1, ?_⟩
    omega
  obtain ⟨bI, bI1, bI2⟩ := mapM_bc hI hBIw (hfit cI SI _ hssI hSI hSIw hEI)
  obtain ⟨bO, bO1, bO2⟩ := mapM_bc hO hBOw (hfit cO SO _ hssO hSO hSOw hEO)
  obtain ⟨TI, hTI⟩ : ∃ T, T = SI.filter (fun p => p.1 ∈ AI) := ⟨_, rfl⟩
  obtain ⟨TO, hTO⟩ : ∃ T, T = SO.filter (fun p => p.1 ∈ AO) := ⟨_, rfl⟩
  rw [← hTI] at hEI hkTI hBIw bI1 bI2
  rw [← hTO] at hEO hkTO hBOw bO1 bO2
  have hkey : ∀ T : Shape, keys (S ++ T) = keys S ++ keys T := fun T => by simp [keys]
  have hsub : ∀ (A : List String) (T : Shape), A = keys T → A ⊆ keys (S ++ T) := by
    intro A T h
    rw [hkey, h]
    exact List.subset_append_right _ _
  have hfil : ∀ (A : List String) (T : Shape), A = keys T → (∀ x ∈ A, x ∉ keys S) → (keys (S ++ T)).filter (· ∉ A) = keys S := by
    intro A T h hA
    rw [hkey, ← h, List.filter_append, List.filter_eq_self.2, List.filter_eq_nil_iff.2, List.append_nil]
    · simp
    · intro x hx
      simp only [decide_eq_true_eq]
      exact fun h => hA x h hx
  have hrest : ∀ (A : List String) (T : Shape), A = keys T → (∀ x ∈ A, x ∉ keys S) → Dict.WF (S ++ T) →
      ND.rest (A.map (keys (S ++ T)).idxOf) (values (S ++ T)) = values S := by
    intro A T h hA hw
    rw [values_eq_map hw, ND.rest_named hw (hsub A T h), hfil A T h hA, values_eq_map hSw]
    apply List.map_congr_left
    intro x hx
    obtain ⟨m, hm⟩ := exists_get?_of_mem hx
    rw [get?_append, hm]
    rfl
  have himg : ∀ (A : List String) (T s : Shape) (c b : List (SA α)), A = keys T → T = s.filter (fun p => p.1 ∈ A) → Dict.WF s →
      Dict.WF (S ++ T) →
      List.Forall₂ (fun c b => b.WF ∧ b.shape = S ++ T ∧ ∀ e, b.at' e = c.atB e) c b → ∀ e : String → Nat,
      List.Forall₂ (fun c m => IsImage A s c.atB e m) c
        ((b.map SA.nd).map (fun a => a.image (A.map (keys (S ++ T)).idxOf) ((keys S).map e))) := by
    intro A T s c b hA hT hs hw h e
    induction h with
    | nil => exact .nil
    | cons h _ ih =>
      refine .cons ?_ ih
      have hi := nd_image hw hA _ h.1 h.2.1 e
      refine ⟨hi.1.trans ?_, fun ks hks => by rw [hi.2 ks hks, h.2.2]⟩
      apply List.map_congr_left
      intro x hx
      rw [hT, get?_filter_key hs (fun x => x ∈ A), if_pos hx]
  have hrun : ND.regridWeights matrix cells (values (S ++ TI)) (values (S ++ TO)) (bI.map SA.nd) (bO.map SA.nd)
      (AI.map (keys (S ++ TI)).idxOf) (AO.map (keys (S ++ TO)).idxOf) =
      .ok (⟨values S, fun i => matrix ((bI.map SA.nd).map (fun a => a.image (AI.map (keys (S ++ TI)).idxOf) i))
        ((bO.map SA.nd).map (fun a => a.image (AO.map (keys (S ++ TO)).idxOf) i))⟩,
        ND.resized cells (AI.map (keys (S ++ TI)).idxOf) (values (S ++ TI)),
        ND.resized cells (AO.map (keys (S ++ TO)).idxOf) (values (S ++ TO))) := by
    unfold ND.regridWeights
    rw [if_pos, hrest AI TI hkTI hnI hBIw]
    refine ⟨by simpa using hlen, ND.ascending_named hBIw ?_, ND.ascending_named hBOw ?_, ?_⟩
    · rw [hkey, ← hkTI]; exact List.sublist_append_right _ _
    · rw [hkey, ← hkTO]; exact List.sublist_append_right _ _
    · rw [hrest AI TI hkTI hnI hBIw, hrest AO TO hkTO hnO hBOw]
  have hk := mk?_of_wf (nd := (⟨values S, fun i => matrix ((bI.map SA.nd).map (fun a => a.image (AI.map (keys (S ++ TI)).idxOf) i))
        ((bO.map SA.nd).map (fun a => a.image (AO.map (keys (S ++ TO)).idxOf) i))⟩ : ND (Entries K))) (axes := keys S)
        (by simp [ND.ndim, keys, values]) hSw
  refine ⟨_, ?_, (mk?_ok hk).2, shape_of_mk hSw rfl, fun e => ⟨_, _, rfl, himg AI TI SI cI bI hkTI hTI hSIw hBIw bI2 e,
    himg AO TO SO cO bO hkTO hTO hSOw hBOw bO2 e⟩⟩
  unfold regridWeights
  rw [hSI, hSO]
  simp only [bind, Except.bind]
  rw [← hAI, ← hAO, hS']
  simp only []
  rw [hEI, hEO]
  simp only []
  rw [bI1, bO1]
  simp only []
  rw [if_pos ⟨List.all_eq_true.2 fun x hx => decide_eq_true (hsub AI TI hkTI hx),
    List.all_eq_true.2 fun x hx => decide_eq_true (hsub AO TO hkTO hx)⟩, hrun]
  simp only []
  rw [hk]
  simp only [resized_named cells hBIw hkTI, resized_named cells hBOw hkTO]
  unfold cellShape
  rw [← hTI, ← hTO]

end SA
end NA

namespace NA
open Dict
open SA (FitsIn InRange)
variable {α β γ K : Type}
namespace SA

theorem atB_clip_of {a : SA γ} {S : Shape} {e : String → Nat} (f : String → Nat)
    (h : ∀ ax, f ax ≠ e ax → get? S ax = some 1 ∨ ax ∉ a.axes) (ha : a.WF)
    (hf : ∀ ax n, get? a.shape ax = some n → get? S ax = some 1 → n = 1) : a.atB f = a.atB e := by
  unfold atB
  apply at'_congr
  intro ax hax
  by_cases hfe : f ax = e ax
  · rw [hfe]
  · rcases h ax hfe with h | h
    · obtain ⟨n, hn⟩ := exists_get?_of_mem (show ax ∈ keys a.shape by rw [keys_shape ha]; exact hax)
      have := hf ax n hn h
      subst this
      simp [hn]
    · exact absurd hax h

/-- **C94** (resampling, partial). Each element of the result is the sum of elements of the values with the same index along the
axes which are not resampled, with the weights which belong to the grids at this index.  Missing: axes in an order other than in
the shape of the coordinates. -/
theorem C94_regrid_partial [Semiring K] (matrix : List (ND α) → List (ND α) → Entries K) (cells : Nat → Nat) (cI cO : List (SA α))
    (values : SA K) (axisInput axisOutput : Option (List String)) (hI : ∀ c ∈ cI, c.WF) (hO : ∀ c ∈ cO, c.WF) (hv : values.WF)
    (SI SO : Shape) (hSI : broadcastShapes (cI.map SA.shape) = .ok SI) (hSO : broadcastShapes (cO.map SA.shape) = .ok SO)
    (AI AO : List String) (hAI : AI = axisInput.getD (keys SI)) (hAO : AO = axisOutput.getD (keys SO))
    (hordI : AI = (keys SI).filter (· ∈ AI)) (hordO : AO = (keys SO).filter (· ∈ AO)) (hlen : AI.length = AO.length)
    (S : Shape) (hS : broadcastShapes [SI.filter (fun p => p.1 ∉ AI), SO.filter (fun p => p.1 ∉ AO)] = .ok S)
    (hdI : ∀ ax ∈ AI, ax ∈ keys SO → ax ∈ AO) (hdO : ∀ ax ∈ AO, ax ∈ keys SI → ax ∈ AI)
    (T : Shape) (hT : broadcastShapes [values.shape.filter (fun p => p.1 ∉ AI), S] = .ok T)
    (hval : ∀ ax n m, ax ∈ AI → get? SI ax = some n → get? values.shape ax = some m → m = cells n ∨ m = 1)
    (hnew : ∀ ax ∈ values.axes, ax ∈ AO → ax ∈ AI) :
    ∃ r, regrid matrix cells cI cO values axisInput axisOutput = .ok r ∧ r.WF ∧ r.shape = T ++ cellShape cells AO SO ∧
      ∀ e, ∃ mI mO, List.Forall₂ (fun c m => IsImage AI SI c.atB e m) cI mI ∧ List.Forall₂ (fun c m => IsImage AO SO c.atB e m) cO mO ∧
        r.at' e = applyEntries (matrix mI mO)
          (fun p => values.atB (putNamed e AI (ND.unravel ((cellShape cells AI SI).map (·.2)) p)))
          (ND.ravel ((cellShape cells AO SO).map (·.2)) (AO.map e)) := by
  obtain ⟨w, w1, w2, w3, w4⟩ := C94_weights_partial matrix cells cI cO axisInput axisOutput hI hO SI SO hSI hSO AI AO hAI hAO hordI hordO
    hlen S hS hdI hdO
  have hssI : ∀ u ∈ cI.map SA.shape, Dict.WF u := by
    intro u hu
    obtain ⟨c, hc, rfl⟩ := List.mem_map.1 hu
    exact wf_shape (hI c hc)
  have hssO : ∀ u ∈ cO.map SA.shape, Dict.WF u := by
    intro u hu
    obtain ⟨c, hc, rfl⟩ := List.mem_map.1 hu
    exact wf_shape (hO c hc)
  have hSIw := (broadcastShapes_joinOf hssI hSI).1
  have hSOw := (broadcastShapes_joinOf hssO hSO).1
  have hss : ∀ u ∈ [SI.filter (fun p => p.1 ∉ AI), SO.filter (fun p => p.1 ∉ AO)], Dict.WF u := by
    simp [wf_filter hSIw, wf_filter hSOw]
  have hSw := (broadcastShapes_joinOf hss hS).1
  have hkS : ∀ x, x ∈ keys S ↔ (x ∈ keys SI ∧ x ∉ AI) ∨ (x ∈ keys SO ∧ x ∉ AO) := by
    intro x
    rw [(C01_broadcast_shapes_ok _ hss S hS).2.1 x]
    have h1 := keys_filter_key SI (fun x => x ∉ AI)
    have h2 := keys_filter_key SO (fun x => x ∉ AO)
    simp only [List.mem_cons, List.not_mem_nil, or_false, exists_eq_or_imp, exists_eq_left]
    rw [h1, h2]
    simp
  have hnI : ∀ x ∈ AI, x ∉ keys S := by
    intro x hx h
    rcases (hkS x).1 h with h | h
    · exact h.2 hx
    · exact h.2 (hdI x hx h.1)
  have hnO : ∀ x ∈ AO, x ∉ keys S := by
    intro x hx h
    rcases (hkS x).1 h with h | h
    · exact h.2 (hdO x hx h.1)
    · exact h.2 hx
  have hcell : ∀ (A : List String) (s : Shape), A = (keys s).filter (· ∈ A) → keys (cellShape cells A s) = A := by
    intro A s h
    conv_rhs => rw [h, ← keys_filter_key s (fun x => x ∈ A)]
    unfold cellShape keys
    rw [List.map_map]
    rfl
  have hcI := hcell AI SI hordI
  have hcO := hcell AO SO hordO
  have hget : ∀ (A : List String) (s : Shape), Dict.WF s → ∀ x, get? (cellShape cells A s) x = if x ∈ A then (get? s x).map cells else none := by
    intro A s hs x
    unfold cellShape
    rw [get?_map_pair _ (fun _ v => cells v), get?_filter_key hs (fun x => x ∈ A)]
    split <;> rfl
  have haxes : w.axes = keys S := by rw [← keys_shape w2, w3]
  have hsw : ∀ (A : List String) (s : Shape), keys (cellShape cells A s) = A → A.Nodup → (∀ x ∈ A, x ∉ keys S) →
      Dict.WF (S ++ cellShape cells A s) := by
    intro A s hk hn hd
    unfold Dict.WF
    have : keys (S ++ cellShape cells A s) = keys S ++ keys (cellShape cells A s) := by simp [keys]
    rw [this, hk, List.nodup_append]
    exact ⟨hSw, hn, fun a ha b hb hab => hd b hb (hab ▸ ha)⟩
  have hkk : ∀ (A : List String) (s : Shape), keys (cellShape cells A s) = A → keys (S ++ cellShape cells A s) = keys S ++ A := by
    intro A s hk
    have : keys (S ++ cellShape cells A s) = keys S ++ keys (cellShape cells A s) := by simp [keys]
    rw [this, hk]
  have hfil : ∀ (A : List String) (s : Shape), keys (cellShape cells A s) = A → (∀ x ∈ A, x ∉ keys S) →
      (S ++ cellShape cells A s).filter (fun p => p.1 ∉ w.axes) = cellShape cells A s := by
    intro A s hk hd
    rw [List.filter_append, List.filter_eq_nil_iff.2, List.filter_eq_self.2, List.nil_append]
    · intro p hp
      have : p.1 ∈ A := by rw [← hk]; exact List.mem_map_of_mem hp
      simp [haxes, hd p.1 this]
    · intro p hp
      have : p.1 ∈ keys S := List.mem_map_of_mem hp
      simp [haxes, this]
  have hfilk : ∀ (A : List String) (s : Shape), keys (cellShape cells A s) = A → (∀ x ∈ A, x ∉ keys S) →
      (keys (S ++ cellShape cells A s)).filter (· ∉ w.axes) = A := by
    intro A s hk hd
    rw [← keys_filter_key _ (fun x => x ∉ w.axes), hfil A s hk hd, hk]
  have hAIn : AI.Nodup := by rw [hordI]; exact hSIw.filter _
  have hAOn : AO.Nodup := by rw [hordO]; exact hSOw.filter _
  have hin : ∀ (A : List String) (s : Shape), Dict.WF s → (∀ x ∈ A, x ∉ keys S) → ∀ ax ∈ w.axes, ∀ n,
      get? (S ++ cellShape cells A s) ax = some n → n = 1 ∨ get? w.shape ax = some n := by
    intro A s hs hd ax hax n hn
    rw [haxes] at hax
    obtain ⟨m, hm⟩ := exists_get?_of_mem hax
    rw [get?_append, hm, Option.some_or] at hn
    right
    rw [w3, hm, hn]
  obtain ⟨r, r1, r2, r3, r4⟩ := C94_regrid_from_weights w (S ++ cellShape cells AI SI) (S ++ cellShape cells AO SO) values w2
    (hsw AI SI hcI hAIn hnI) (hsw AO SO hcO hAOn hnO) hv T (by
      rw [w3, ← hT]
      congr 2
      apply List.filter_congr
      intro p _
      have h1 := hkk AI SI hcI
      rw [h1, haxes]
      by_cases h2 : p.1 ∈ AI
      · simp [h2, hnI p.1 h2]
      · by_cases h3 : p.1 ∈ keys S <;> simp [h2, h3])
    (hin AI SI hSIw hnI) (hin AO SO hSOw hnO) (by
      intro ax n m hax hn hm
      rw [get?_append, get?_eq_none.2 (haxes ▸ hax), Option.none_or, hget AI SI hSIw] at hn
      split at hn
      · next hx =>
        cases hz : get? SI ax with
        | none => rw [hz] at hn; cases hn
        | some z =>
          rw [hz] at hn
          injection hn with hn
          rw [← hn]
          exact hval ax z m hx hz hm
      · cases hn) (by
      intro ax hax h
      rw [hkk AO SO hcO, List.mem_append] at h
      rw [hkk AI SI hcI, List.mem_append]
      rcases h with h | h
      · exact Or.inl (Or.inl h)
      · exact Or.inl (Or.inr (hnew ax hax h))) (by
      rw [hfilk AI SI hcI hnI, hfilk AO SO hcO hnO]
      exact hlen)
  refine ⟨r, ?_, r2, ?_, fun e => ?_⟩
  · unfold regrid
    rw [w1]
    exact r1
  · rw [r3, hfil AO SO hcO hnO]
  · obtain ⟨mI, mO, m1, m2, m3⟩ := w4 (fun ax => if get? S ax = some 1 then 0 else e ax)
    have hconv : ∀ (A : List String) (s : Shape) (c : List (SA α)) (m : List (ND α)), (∀ x ∈ c, x.WF) →
        (∀ x ∈ A, x ∉ keys S) → (∀ u ∈ c.map SA.shape, Dict.WF u) → broadcastShapes (c.map SA.shape) = .ok s → Dict.WF s →
        (∀ x n, x ∉ A → get? s x = some n → get? S x = some 1 → n = 1) →
        List.Forall₂ (fun c m => IsImage A s c.atB (fun ax => if get? S ax = some 1 then 0 else e ax) m) c m →
        List.Forall₂ (fun c m => IsImage A s c.atB e m) c m := by
      intro A s c m hc hd hu hcs hs h1 h
      have hfit : ∀ x ∈ c, ∀ ax n, get? x.shape ax = some n → get? S ax = some 1 → n = 1 := by
        intro x hx ax n hn hS1
        obtain ⟨z, z1, z2⟩ := fitsIn_of_broadcastShapes hu hcs (List.mem_map_of_mem hx) ax n hn
        have := h1 ax z (fun h => hd ax h (mem_keys_of_get? hS1)) z1 hS1
        omega
      clear hcs hu
      induction h with
      | nil => exact .nil
      | @cons a b l l' h _ ih =>
        refine .cons ⟨h.1, fun ks hks => ?_⟩ (ih (fun x hx => hc x (by simp [hx])) (fun x hx => hfit x (by simp [hx])))
        rw [h.2 ks hks]
        refine atB_clip_of (S := S) _ (fun ax hax => ?_) (hc a (by simp)) (hfit a (by simp))
        left
        by_contra hne
        apply hax
        unfold putNamed
        by_cases hA : ax ∈ A <;> simp [hA, hne]
    have hfS : ∀ (A : List String) (s : Shape), Dict.WF s → s.filter (fun p => p.1 ∉ A) ∈ [SI.filter (fun p => p.1 ∉ AI), SO.filter (fun p => p.1 ∉ AO)] →
        ∀ x n, x ∉ A → get? s x = some n → get? S x = some 1 → n = 1 := by
      intro A s hs hm x n hx hn h1
      obtain ⟨z, z1, z2⟩ := fitsIn_of_broadcastShapes hss hS hm x n (by
        rw [get?_filter_key hs (fun x => x ∉ A), if_pos hx]; exact hn)
      rw [h1] at z1
      injection z1 with z1
      omega
    refine ⟨mI, mO, hconv AI SI cI mI hI hnI hssI hSI hSIw (hfS AI SI hSIw (by simp)) m2,
      hconv AO SO cO mO hO hnO hssO hSO hSOw (hfS AO SO hSOw (by simp)) m3, ?_⟩
    rw [r4 e, hfilk AI SI hcI hnI, hfilk AO SO hcO hnO, hfil AI SI hcI hnI, hfil AO SO hcO hnO]
    have : w.atB e = matrix mI mO := by
      rw [← m1]
      unfold atB
      rw [w3]
    rw [this]

/-- The entries with the positions exchanged. -/
theorem C94_transpose_weights (w : SA (Entries K)) (hw : w.WF) (sI sO : Shape) :
    ∃ w', transposeWeights (w, sI, sO) = .ok (w', sO, sI) ∧ w'.WF ∧ w'.axes = w.axes ∧ w'.shape = w.shape ∧
      ∀ e, w'.at' e = (w.at' e).map (fun t => (t.2.1, t.1, t.2.2)) := by
  have hk := mk?_of_wf (nd := (⟨w.nd.shape, fun i => (w.nd.get i).map (fun t => (t.2.1, t.1, t.2.2))⟩ : ND (Entries K)))
    (axes := w.axes) hw.1 hw.2
  refine ⟨⟨w.axes, _⟩, ?_, (mk?_ok hk).2, rfl, rfl, fun e => rfl⟩
  unfold transposeWeights
  simp only [bind, Except.bind]
  rw [hk]

theorem applyEntries_nil [Semiring K] (x : Nat → K) (q : Nat) : applyEntries [] x q = 0 := by
  simp [applyEntries]

theorem applyEntries_cons [Semiring K] (t : Nat × Nat × K) (l : Entries K) (x : Nat → K) (q : Nat) :
    applyEntries (t :: l) x q = (if t.2.1 = q then t.2.2 * x t.1 else 0) + applyEntries l x q := by
  unfold applyEntries
  by_cases h : t.2.1 = q <;> simp [h]

theorem sum_range_single [Semiring K] (Q q : Nat) (h : q < Q) (y : Nat → K) (c : K) :
    ((List.range Q).map (fun i => y i * (if q = i then c else 0))).sum = y q * c := by
  induction Q with
  | zero => omega
  | succ Q ih =>
    rw [List.range_succ, List.map_append, List.sum_append]
    by_cases hq : q = Q
    · subst hq
      have : ((List.range q).map (fun i => y i * (if q = i then c else 0))) = (List.range q).map (fun _ => 0) := by
        apply List.map_congr_left
        intro i hi
        rw [if_neg (by have := List.mem_range.1 hi; omega), mul_zero]
      rw [this]
      simp
    · rw [ih (by omega)]
      simp [hq]

theorem sum_map_add' [Semiring K] (l : List Nat) (f g : Nat → K) :
    (l.map (fun i => f i + g i)).sum = (l.map f).sum + (l.map g).sum := by
  induction l with
  | nil => simp
  | cons a l ih => simp only [List.map_cons, List.sum_cons, ih]; rw [add_add_add_comm]

/-- The matrix with exchanged positions is the adjoint. -/
theorem adjoint_entries [CommSemiring K] (l : Entries K) (P Q : Nat) (h : ∀ t ∈ l, t.1 < P ∧ t.2.1 < Q) (x y : Nat → K) :
    ((List.range Q).map (fun q => y q * applyEntries l x q)).sum =
      ((List.range P).map (fun p => x p * applyEntries (l.map (fun t => (t.2.1, t.1, t.2.2))) y p)).sum := by
  induction l with
  | nil => simp [applyEntries_nil]
  | cons t l ih =>
    rw [List.map_cons]
    simp only [applyEntries_cons, mul_add]
    rw [sum_map_add', sum_map_add', ih (fun t ht => h t (by simp [ht])), sum_range_single Q _ (h t (by simp)).2,
      sum_range_single P _ (h t (by simp)).1]
    congr 1
    ring

end SA
end NA

namespace NA
open Dict
open SA (FitsIn InRange)
variable {α β γ K : Type}
namespace SA

/-- **C94** (transposed weights). Resampling with the transposed weights is the adjoint of resampling: at each index along the axes
which are not resampled, the sum of `y * W(x)` over the output grid is the sum of `x * W^T(y)` over the input grid. -/
theorem C94_adjoint [CommSemiring K] (w : SA (Entries K)) (sI sO : Shape) (x y : SA K) (hw : w.WF) (hI : Dict.WF sI) (hO : Dict.WF sO)
    (hx : x.WF) (hy : y.WF) (Sx Sy : Shape)
    (hSx : broadcastShapes [x.shape.filter (fun p => p.1 ∉ keys sI ∨ p.1 ∈ w.axes), w.shape] = .ok Sx)
    (hSy : broadcastShapes [y.shape.filter (fun p => p.1 ∉ keys sO ∨ p.1 ∈ w.axes), w.shape] = .ok Sy)
    (hin : ∀ ax ∈ w.axes, ∀ n, get? sI ax = some n → n = 1 ∨ get? w.shape ax = some n)
    (hout : ∀ ax ∈ w.axes, ∀ n, get? sO ax = some n → n = 1 ∨ get? w.shape ax = some n)
    (hvx : ∀ ax n m, ax ∉ w.axes → get? sI ax = some n → get? x.shape ax = some m → m = n ∨ m = 1)
    (hvy : ∀ ax n m, ax ∉ w.axes → get? sO ax = some n → get? y.shape ax = some m → m = n ∨ m = 1)
    (hnx : ∀ ax ∈ x.axes, ax ∈ keys sO → ax ∈ keys sI ∨ ax ∈ w.axes)
    (hny : ∀ ax ∈ y.axes, ax ∈ keys sI → ax ∈ keys sO ∨ ax ∈ w.axes)
    (AI AO : List String) (hAI : AI = (keys sI).filter (· ∉ w.axes)) (hAO : AO = (keys sO).filter (· ∉ w.axes))
    (hlen : AI.length = AO.length) (P Q : Nat) (nI nO : List Nat)
    (hnI : nI = (sI.filter (fun p => p.1 ∉ w.axes)).map (·.2)) (hnO : nO = (sO.filter (fun p => p.1 ∉ w.axes)).map (·.2))
    (hP : P = nI.prod) (hQ : Q = nO.prod) :
    ∃ w' r r', transposeWeights (w, sI, sO) = .ok (w', sO, sI) ∧ regridFromWeights w sI sO x = .ok r ∧
      regridFromWeights w' sO sI y = .ok r' ∧ ∀ e, (∀ t ∈ w.atB e, t.1 < P ∧ t.2.1 < Q) →
        ((List.range Q).map (fun q => y.atB (putNamed e AO (ND.unravel nO q)) * r.at' (putNamed e AO (ND.unravel nO q)))).sum =
          ((List.range P).map (fun p => x.atB (putNamed e AI (ND.unravel nI p)) * r'.at' (putNamed e AI (ND.unravel nI p)))).sum := by
  obtain ⟨w', t1, t2, t3, t4, t5⟩ := C94_transpose_weights w hw sI sO
  obtain ⟨r, r1, _, _, r4⟩ := C94_regrid_from_weights w sI sO x hw hI hO hx Sx hSx hin hout hvx hnx (by rw [← hAI, ← hAO]; exact hlen)
  obtain ⟨r', r1', _, _, r4'⟩ := C94_regrid_from_weights w' sO sI y t2 hO hI hy Sy (by rw [t3, t4]; exact hSy)
    (by rw [t3, t4]; exact hout) (by rw [t3, t4]; exact hin) (by rw [t3]; exact hvy) (by rw [t3]; exact hny)
    (by rw [t3, ← hAI, ← hAO]; exact hlen.symm)
  refine ⟨w', r, r', t1, r1, r1', fun e he => ?_⟩
  rw [← hAI, ← hAO, ← hnI, ← hnO] at r4
  rw [t3, ← hAI, ← hAO, ← hnI, ← hnO] at r4'
  have hnAI : AI.Nodup := by rw [hAI]; exact hI.filter _
  have hnAO : AO.Nodup := by rw [hAO]; exact hO.filter _
  have hlI : ∀ p, (ND.unravel nI p).length = AI.length := by
    intro p
    rw [ND.length_unravel, hnI, hAI, ← keys_filter_key sI (fun x => x ∉ w.axes)]
    simp [keys]
  have hlO : ∀ p, (ND.unravel nO p).length = AO.length := by
    intro p
    rw [ND.length_unravel, hnO, hAO, ← keys_filter_key sO (fun x => x ∉ w.axes)]
    simp [keys]
  have hwe : ∀ (u : SA (Entries K)) (A : List String) ks, u.axes = w.axes → (∀ ax ∈ A, ax ∉ w.axes) →
      u.atB (putNamed e A ks) = u.atB e := by
    intro u A ks hu hA
    apply atB_congr
    intro ax hax
    unfold putNamed
    rw [if_neg]
    intro h
    exact hA ax h (hu ▸ hax)
  have hdI : ∀ ax ∈ AI, ax ∉ w.axes := by intro ax h; rw [hAI] at h; simpa using (List.mem_filter.1 h).2
  have hdO : ∀ ax ∈ AO, ax ∉ w.axes := by intro ax h; rw [hAO] at h; simpa using (List.mem_filter.1 h).2
  have hput : ∀ (a : SA K) (A B : List String) ks ks', (∀ ax ∈ a.axes, ax ∈ B → ax ∈ A) →
      a.atB (putNamed (putNamed e B ks) A ks') = a.atB (putNamed e A ks') := by
    intro a A B ks ks' h
    apply atB_congr
    intro ax hax
    unfold putNamed
    by_cases hA : ax ∈ A
    · simp [hA]
    · have hB : ax ∉ B := fun hB => hA (h ax hax hB)
      simp [hA, hB]
  have hxO : ∀ ax ∈ x.axes, ax ∈ AO → ax ∈ AI := by
    intro ax hax h
    have h' := h
    rw [hAO] at h'
    rw [hAI]
    have hk := (List.mem_filter.1 h').1
    have hnw := hdO ax h
    rcases hnx ax hax hk with hh | hh
    · simp [hh, hnw]
    · exact absurd hh hnw
  have hyI : ∀ ax ∈ y.axes, ax ∈ AI → ax ∈ AO := by
    intro ax hax h
    have h' := h
    rw [hAI] at h'
    rw [hAO]
    have hk := (List.mem_filter.1 h').1
    have hnw := hdI ax h
    rcases hny ax hax hk with hh | hh
    · simp [hh, hnw]
    · exact absurd hh hnw
  have hw'e : w'.atB e = (w.atB e).map (fun t => (t.2.1, t.1, t.2.2)) := by
    unfold atB
    rw [t4, t5]
  have hl : ∀ q, q < Q → r.at' (putNamed e AO (ND.unravel nO q)) =
      applyEntries (w.atB e) (fun p => x.atB (putNamed e AI (ND.unravel nI p))) q := by
    intro q hq
    rw [r4, hwe w AO _ rfl hdO, map_putNamed_self hnAO e (hlO q), ND.ravel_unravel (by rw [← hQ]; exact hq)]
    congr 1
    funext p
    exact hput x AI AO _ _ hxO
  have hr : ∀ p, p < P → r'.at' (putNamed e AI (ND.unravel nI p)) =
      applyEntries ((w.atB e).map (fun t => (t.2.1, t.1, t.2.2))) (fun q => y.atB (putNamed e AO (ND.unravel nO q))) p := by
    intro p hp
    rw [r4', hwe w' AI _ t3 hdI, map_putNamed_self hnAI e (hlI p), ND.ravel_unravel (by rw [← hP]; exact hp), hw'e]
    congr 1
    funext q
    exact hput y AO AI _ _ hyI
  have hL : (List.range Q).map (fun q => y.atB (putNamed e AO (ND.unravel nO q)) * r.at' (putNamed e AO (ND.unravel nO q))) =
      (List.range Q).map (fun q => y.atB (putNamed e AO (ND.unravel nO q)) *
        applyEntries (w.atB e) (fun p => x.atB (putNamed e AI (ND.unravel nI p))) q) := by
    apply List.map_congr_left
    intro q hq
    rw [hl q (List.mem_range.1 hq)]
  have hR : (List.range P).map (fun p => x.atB (putNamed e AI (ND.unravel nI p)) * r'.at' (putNamed e AI (ND.unravel nI p))) =
      (List.range P).map (fun p => x.atB (putNamed e AI (ND.unravel nI p)) *
        applyEntries ((w.atB e).map (fun t => (t.2.1, t.1, t.2.2))) (fun q => y.atB (putNamed e AO (ND.unravel nO q))) p) := by
    apply List.map_congr_left
    intro p hp
    rw [hr p (List.mem_range.1 hp)]
  rw [hL, hR]
  exact adjoint_entries (w.atB e) P Q he (fun p => x.atB (putNamed e AI (ND.unravel nI p)))
    (fun q => y.atB (putNamed e AO (ND.unravel nO q)))

/-- **C94** (linearity). Resampling with given weights is linear. -/
theorem applyEntries_linear [CommSemiring K] (l : Entries K) (x y : Nat → K) (a b : K) (q : Nat) :
    applyEntries l (fun p => a * x p + b * y p) q = a * applyEntries l x q + b * applyEntries l y q := by
  induction l with
  | nil => simp [applyEntries_nil]
  | cons t l ih =>
    simp only [applyEntries_cons, ih]
    split <;> ring

/-- **C94** (errors). Values and weights which cannot be broadcast, and values which do not fit the input grid, are a `ValueError`. -/
theorem C94_regrid_from_weights_error [Semiring K] (weights : SA (Entries K)) (sI sO : Shape) (values : SA K) (hw : weights.WF)
    (hI : Dict.WF sI) (hO : Dict.WF sO) (hv : values.WF)
    (h : Clash [values.shape.filter (fun p => p.1 ∉ keys sI ∨ p.1 ∈ weights.axes), weights.shape] ∨
      ∃ ax n m, ax ∉ weights.axes ∧ get? sI ax = some n ∧ get? values.shape ax = some m ∧ m ≠ n ∧ m ≠ 1) :
    regridFromWeights weights sI sO values = .error .valueError := by
  have hww := wf_shape hw
  have hvw := wf_shape hv
  have hkw : keys weights.shape = weights.axes := keys_shape hw
  have hmI : ∀ x, x ∈ (keys sI).filter (· ∉ weights.axes) ↔ x ∈ keys sI ∧ x ∉ weights.axes := fun x => by simp
  have horth : orthogonal values.shape ((keys sI).filter (· ∉ weights.axes)) =
      values.shape.filter (fun p => p.1 ∉ keys sI ∨ p.1 ∈ weights.axes) := by
    unfold orthogonal
    apply List.filter_congr
    intro p _
    have := hmI p.1
    by_cases h1 : p.1 ∈ keys sI <;> by_cases h2 : p.1 ∈ weights.axes <;> simp [h1, h2]
  have hss : ∀ u ∈ [values.shape.filter (fun p => p.1 ∉ keys sI ∨ p.1 ∈ weights.axes), weights.shape], Dict.WF u := by
    simp [wf_filter hvw, hww]
  unfold regridFromWeights
  simp only [hkw, bind, Except.bind]
  rw [horth]
  cases hS : broadcastShapes [values.shape.filter (fun p => p.1 ∉ keys sI ∨ p.1 ∈ weights.axes), weights.shape] with
  | error er => 
    rw [C01_broadcast_shapes_error_kind _ hss er hS]
  | ok S =>
    simp only []
    have hSw := (broadcastShapes_joinOf hss hS).1
    rcases h with h | ⟨ax, n, m, h1, h2, h3, h4, h5⟩
    · rw [bs_clash hss h] at hS
      cases hS
    · cases hB : broadcastShapes [S, sI] with
      | error er => rw [C01_broadcast_shapes_error_kind _ (by simp [hSw, hI]) er hB]
      | ok SI =>
        simp only []
        cases hB' : broadcastShapes [S, sO] with
        | error er => rw [C01_broadcast_shapes_error_kind _ (by simp [hSw, hO]) er hB']
        | ok SO =>
          simp only []
          have hSIw := (broadcastShapes_joinOf (by simp [hSw, hI]) hB).1
          obtain ⟨_, W, W1, _⟩ | ⟨_, W1⟩ := C10_broadcast_to weights hw (orthogonal SI ((keys sI).filter (· ∉ weights.axes)))
            (wf_orthogonal hSIw _)
          swap
          · rw [W1]
          rw [W1]
          simp only []
          obtain ⟨hf, _⟩ | ⟨_, V1⟩ := C10_broadcast_to values hv SI hSIw
          swap
          · rw [V1]
          exfalso
          obtain ⟨k, k1, k2⟩ := hf ax m h3
          have hj := (broadcastShapes_joinOf (by simp [hSw, hI]) hB).2 ax
          have hnS : ax ∉ keys S := by
            rw [(C01_broadcast_shapes_ok _ hss S hS).2.1 ax]
            have h6 := keys_filter_key values.shape (fun x => x ∉ keys sI ∨ x ∈ weights.axes)
            simp only [List.mem_cons, List.not_mem_nil, or_false, exists_eq_or_imp, exists_eq_left]
            rw [h6, hkw]
            simp [h1, mem_keys_of_get? h2]
          rw [k1] at hj
          simp only [sizesOf, List.filterMap_cons, get?_eq_none.2 hnS, h2, List.filterMap_nil, JoinOf, List.mem_singleton] at hj
          omega

end SA
end NA

namespace NA
open Dict
open SA (FitsIn InRange)
variable {α β γ K : Type}
namespace SA

/-- **C94** (linearity). Resampling a linear combination of two arrays with the same weights gives the linear combination of the
results. -/
theorem C94_linear [CommSemiring K] (weights : SA (Entries K)) (sI sO : Shape) (x y z : SA K) (a b : K) (hw : weights.WF)
    (hI : Dict.WF sI) (hO : Dict.WF sO) (hx : x.WF) (hy : y.WF) (hz : z.WF) (hsy : y.shape = x.shape) (hsz : z.shape = x.shape)
    (hxyz : ∀ e, z.atB e = a * x.atB e + b * y.atB e) (S : Shape)
    (hS : broadcastShapes [x.shape.filter (fun p => p.1 ∉ keys sI ∨ p.1 ∈ weights.axes), weights.shape] = .ok S)
    (hin : ∀ ax ∈ weights.axes, ∀ n, get? sI ax = some n → n = 1 ∨ get? weights.shape ax = some n)
    (hout : ∀ ax ∈ weights.axes, ∀ n, get? sO ax = some n → n = 1 ∨ get? weights.shape ax = some n)
    (hval : ∀ ax n m, ax ∉ weights.axes → get? sI ax = some n → get? x.shape ax = some m → m = n ∨ m = 1)
    (hnew : ∀ ax ∈ x.axes, ax ∈ keys sO → ax ∈ keys sI ∨ ax ∈ weights.axes)
    (hlen : ((keys sI).filter (· ∉ weights.axes)).length = ((keys sO).filter (· ∉ weights.axes)).length) :
    ∃ rx ry rz, regridFromWeights weights sI sO x = .ok rx ∧ regridFromWeights weights sI sO y = .ok ry ∧
      regridFromWeights weights sI sO z = .ok rz ∧ rz.shape = rx.shape ∧ ry.shape = rx.shape ∧
      ∀ e, rz.at' e = a * rx.at' e + b * ry.at' e := by
  have hay : y.axes = x.axes := by rw [← keys_shape hy, ← keys_shape hx, hsy]
  have haz : z.axes = x.axes := by rw [← keys_shape hz, ← keys_shape hx, hsz]
  obtain ⟨rx, x1, _, x3, x4⟩ := C94_regrid_from_weights weights sI sO x hw hI hO hx S hS hin hout hval hnew hlen
  obtain ⟨ry, y1, _, y3, y4⟩ := C94_regrid_from_weights weights sI sO y hw hI hO hy S (by rw [hsy]; exact hS) hin hout
    (by rw [hsy]; exact hval) (by rw [hay]; exact hnew) hlen
  obtain ⟨rz, z1, _, z3, z4⟩ := C94_regrid_from_weights weights sI sO z hw hI hO hz S (by rw [hsz]; exact hS) hin hout
    (by rw [hsz]; exact hval) (by rw [haz]; exact hnew) hlen
  refine ⟨rx, ry, rz, x1, y1, z1, by rw [x3, z3], by rw [x3, y3], fun e => ?_⟩
  rw [x4, y4, z4, ← applyEntries_linear]
  congr 1
  funext p
  exact hxyz _

/-- **C94** (errors of the weights). Coordinates which cannot be broadcast against each other, other axes which cannot be broadcast,
and axes which the coordinates do not have are a `ValueError`. -/
theorem C94_weights_error (matrix : List (ND α) → List (ND α) → Entries K) (cells : Nat → Nat) (cI cO : List (SA α))
    (axisInput axisOutput : Option (List String)) (hI : ∀ c ∈ cI, c.WF) (hO : ∀ c ∈ cO, c.WF)
    (h : Clash (cI.map SA.shape) ∨ Clash (cO.map SA.shape) ∨
      (∃ SI SO, broadcastShapes (cI.map SA.shape) = .ok SI ∧ broadcastShapes (cO.map SA.shape) = .ok SO ∧
        (Clash [SI.filter (fun p => p.1 ∉ axisInput.getD (keys SI)), SO.filter (fun p => p.1 ∉ axisOutput.getD (keys SO))] ∨
          (∃ ax ∈ axisInput.getD (keys SI), ax ∉ keys SI ∧ (ax ∈ keys SO → ax ∈ axisOutput.getD (keys SO))) ∨
          (∃ ax ∈ axisOutput.getD (keys SO), ax ∉ keys SO ∧ (ax ∈ keys SI → ax ∈ axisInput.getD (keys SI)))))) :
    regridWeights matrix cells cI cO axisInput axisOutput = .error .valueError := by
  have hssI : ∀ u ∈ cI.map SA.shape, Dict.WF u := by
    intro u hu
    obtain ⟨c, hc, rfl⟩ := List.mem_map.1 hu
    exact wf_shape (hI c hc)
  have hssO : ∀ u ∈ cO.map SA.shape, Dict.WF u := by
    intro u hu
    obtain ⟨c, hc, rfl⟩ := List.mem_map.1 hu
    exact wf_shape (hO c hc)
  unfold regridWeights
  simp only [bind, Except.bind]
  rcases h with h | h | ⟨SI, SO, h1, h2, h⟩
  · rw [bs_clash hssI h]
  · cases hB : broadcastShapes (cI.map SA.shape) with
    | error er => rw [C01_broadcast_shapes_error_kind _ hssI er hB]
    | ok SI =>
      simp only []
      rw [bs_clash hssO h]
  · rw [h1, h2]
    simp only []
    have hSIw := (broadcastShapes_joinOf hssI h1).1
    have hSOw := (broadcastShapes_joinOf hssO h2).1
    have hss : ∀ u ∈ [orthogonal SI (axisInput.getD (keys SI)), orthogonal SO (axisOutput.getD (keys SO))], Dict.WF u := by
      simp [wf_orthogonal hSIw, wf_orthogonal hSOw]
    rcases h with h | h
    · rw [bs_clash hss h]
    · cases hB : broadcastShapes [orthogonal SI (axisInput.getD (keys SI)), orthogonal SO (axisOutput.getD (keys SO))] with
      | error er => rw [C01_broadcast_shapes_error_kind _ hss er hB]
      | ok S =>
        simp only []
        have hSw := (broadcastShapes_joinOf hss hB).1
        have hkS := (C01_broadcast_shapes_ok _ hss S hB).2.1
        have hs1 : ∀ u ∈ [S, SI], Dict.WF u := by simp [hSw, hSIw]
        have hs2 : ∀ u ∈ [S, SO], Dict.WF u := by simp [hSw, hSOw]
        cases hB1 : broadcastShapes [S, SI] with
        | error er => rw [C01_broadcast_shapes_error_kind _ hs1 er hB1]
        | ok TI =>
          simp only []
          cases hB2 : broadcastShapes [S, SO] with
          | error er => rw [C01_broadcast_shapes_error_kind _ hs2 er hB2]
          | ok TO =>
            simp only []
            have hTI := (broadcastShapes_joinOf hs1 hB1).1
            have hTO := (broadcastShapes_joinOf hs2 hB2).1
            have hb : ∀ (l : List (SA α)) (T : Shape), (∀ c ∈ l, c.WF) → Dict.WF T →
                (∃ l', l.mapM (fun c => c.broadcastTo T) = .ok l') ∨ l.mapM (fun c => c.broadcastTo T) = .error .valueError := by
              intro l T hl hT
              induction l with
              | nil => exact .inl ⟨[], rfl⟩
              | cons c l ih =>
                rw [List.mapM_cons]
                rcases C10_broadcast_to c (hl c (by simp)) T hT with ⟨_, r, h, _⟩ | ⟨_, h⟩
                · rw [h]
                  rcases ih (fun d hd => hl d (by simp [hd])) with ⟨l', h'⟩ | h'
                  · rw [h']
                    exact .inl ⟨_, rfl⟩
                  · rw [h']
                    exact .inr rfl
                · rw [h]
                  exact .inr rfl
            rcases hb cI TI hI hTI with ⟨l1, hl1⟩ | hl1
            swap
            · rw [hl1]
            rcases hb cO TO hO hTO with ⟨l2, hl2⟩ | hl2
            swap
            · rw [hl1, hl2]
            rw [hl1, hl2]
            simp only []
            rw [if_neg]
            rintro ⟨g1, g2⟩
            rcases h with ⟨ax, p1, p2, p3⟩ | ⟨ax, p1, p2, p3⟩
            · have := of_decide_eq_true (List.all_eq_true.1 g1 ax p1)
              rw [(C01_broadcast_shapes_ok _ hs1 TI hB1).2.1 ax] at this
              simp only [List.mem_cons, List.not_mem_nil, or_false, exists_eq_or_imp, exists_eq_left, p2, hkS, mem_keys_orthogonal] at this
              rcases this with h | h
              · exact absurd h.1 (by simp)
              · exact h.2 (p3 h.1)
            · have := of_decide_eq_true (List.all_eq_true.1 g2 ax p1)
              rw [(C01_broadcast_shapes_ok _ hs2 TO hB2).2.1 ax] at this
              simp only [List.mem_cons, List.not_mem_nil, or_false, exists_eq_or_imp, exists_eq_left, p2, hkS, mem_keys_orthogonal] at this
              rcases this with h | h
              · exact h.2 (p3 h.1)
              · exact absurd h.1 (by simp)

/-- Coordinates of an input grid with three points along `x`, for each of two points along `t`. -/
def exGridIn : SA Int := ⟨["t", "x"], ⟨[2, 3], fun i => 10 * i.getD 0 0 + i.getD 1 0⟩⟩

/-- Coordinates of an output grid with two points along `u`. -/
def exGridOut : SA Int := ⟨["u"], ⟨[2], fun i => 5 * i.getD 0 0 + 1⟩⟩

/-- Values on the input grid, for each of two channels. -/
def exGridValues : SA Int := ⟨["x", "c"], ⟨[3, 2], fun i => i.getD 0 0 + 7 * i.getD 1 0 + 1⟩⟩

/-- Values on the output grid. -/
def exGridBack : SA Int := ⟨["u"], ⟨[2], fun i => 3 * i.getD 0 0 + 2⟩⟩

/-- Weights depending on the grids. -/
def exMatrix (mI mO : List (ND Int)) : Entries Int :=
  [(0, 0, (mI.map (fun m => m.get [1])).sum), (1, 0, 2), (2, 1, (mO.map (fun m => m.get [1])).sum), (0, 1, 3)]

def exWeights : SA (Entries Int) := ⟨["t"], ⟨[2], fun i => [(0, 0, 10 * i.getD 0 0 + 1), (1, 0, 2), (2, 1, 6), (0, 1, 3)]⟩⟩

theorem wf_exGridIn : exGridIn.WF := ⟨rfl, by decide⟩
theorem wf_exGridOut : exGridOut.WF := ⟨rfl, by decide⟩
theorem wf_exGridValues : exGridValues.WF := ⟨rfl, by decide⟩
theorem wf_exGridBack : exGridBack.WF := ⟨rfl, by decide⟩
theorem wf_exWeights : exWeights.WF := ⟨rfl, by decide⟩

theorem exWeights_no (s : Shape) (h : "t" ∉ keys s) :
    ∀ ax ∈ exWeights.axes, ∀ n, get? s ax = some n → n = 1 ∨ get? exWeights.shape ax = some n := by
  intro ax hax n hn
  have : ax = "t" := by simpa [exWeights] using hax
  subst this
  exact absurd (mem_keys_of_get? hn) h

example : ∃ w, regridWeights exMatrix (fun n => n) [exGridIn] [exGridOut] (some ["x"]) none =
      .ok (w, [("t", 2), ("x", 3)], [("t", 2), ("u", 2)]) ∧ w.WF ∧ w.shape = [("t", 2)] ∧
      ∀ e, ∃ mI mO, w.at' e = exMatrix mI mO ∧ List.Forall₂ (fun c m => IsImage ["x"] [("t", 2), ("x", 3)] c.atB e m) [exGridIn] mI ∧
        List.Forall₂ (fun c m => IsImage ["u"] [("u", 2)] c.atB e m) [exGridOut] mO :=
  C94_weights_partial exMatrix (fun n => n) [exGridIn] [exGridOut] (some ["x"]) none (by simpa using wf_exGridIn) (by simpa using wf_exGridOut)
    [("t", 2), ("x", 3)] [("u", 2)] rfl rfl ["x"] ["u"] rfl rfl (by decide) (by decide) rfl [("t", 2)] rfl (by decide) (by decide)

example : ∃ r, regrid exMatrix (fun n => n) [exGridIn] [exGridOut] exGridValues (some ["x"]) none = .ok r ∧ r.WF ∧
      r.shape = [("c", 2), ("t", 2), ("u", 2)] ∧
      ∀ e, ∃ mI mO, List.Forall₂ (fun c m => IsImage ["x"] [("t", 2), ("x", 3)] c.atB e m) [exGridIn] mI ∧
        List.Forall₂ (fun c m => IsImage ["u"] [("u", 2)] c.atB e m) [exGridOut] mO ∧
        r.at' e = applyEntries (exMatrix mI mO) (fun p => exGridValues.atB (putNamed e ["x"] (ND.unravel [3] p)))
          (ND.ravel [2] (["u"].map e)) :=
  C94_regrid_partial exMatrix (fun n => n) [exGridIn] [exGridOut] exGridValues (some ["x"]) none (by simpa using wf_exGridIn)
    (by simpa using wf_exGridOut) wf_exGridValues
    [("t", 2), ("x", 3)] [("u", 2)] rfl rfl ["x"] ["u"] rfl rfl (by decide) (by decide) rfl [("t", 2)] rfl (by decide) (by decide)
    [("c", 2), ("t", 2)] rfl
    (by
      intro ax n m hax hn hm
      have : ax = "x" := by simpa using hax
      subst this
      have h1 : some 3 = some n := hn
      have h2 : some 3 = some m := hm
      simp at h1 h2
      omega)
    (by decide)

/-- The result of the example: at `t = 1`, `u = 0`, `c = 1` the weights are 11 and 2, and the values 8 and 9. -/
example : (regrid exMatrix (fun n => n) [exGridIn] [exGridOut] exGridValues (some ["x"]) none).map
    (fun r => r.at' (fun ax => if ax = "t" ∨ ax = "c" then 1 else 0)) = .ok (11 * 8 + 2 * 9) := by decide +kernel

example : ∃ w' r r', transposeWeights (exWeights, [("t", 2), ("x", 3)], [("t", 2), ("u", 2)]) =
        .ok (w', [("t", 2), ("u", 2)], [("t", 2), ("x", 3)]) ∧
      regridFromWeights exWeights [("t", 2), ("x", 3)] [("t", 2), ("u", 2)] exGridValues = .ok r ∧
      regridFromWeights w' [("t", 2), ("u", 2)] [("t", 2), ("x", 3)] exGridBack = .ok r' ∧
      ∀ e, (∀ t ∈ exWeights.atB e, t.1 < 3 ∧ t.2.1 < 2) →
        ((List.range 2).map (fun q => exGridBack.atB (putNamed e ["u"] (ND.unravel [2] q)) * r.at' (putNamed e ["u"] (ND.unravel [2] q)))).sum =
          ((List.range 3).map (fun p => exGridValues.atB (putNamed e ["x"] (ND.unravel [3] p)) *
            r'.at' (putNamed e ["x"] (ND.unravel [3] p)))).sum :=
  C94_adjoint exWeights [("t", 2), ("x", 3)] [("t", 2), ("u", 2)] exGridValues exGridBack wf_exWeights (by decide) (by decide)
    wf_exGridValues wf_exGridBack [("c", 2), ("t", 2)] [("t", 2)] rfl rfl
    (by
      intro ax hax n hn
      have : ax = "t" := by simpa [exWeights] using hax
      subst this
      exact .inr hn)
    (by
      intro ax hax n hn
      have : ax = "t" := by simpa [exWeights] using hax
      subst this
      exact .inr hn)
    (by
      intro ax n m hax hn hm
      have h1 := mem_keys_of_get? hm
      have h2 := mem_keys_of_get? hn
      have h3 : ax = "x" ∨ ax = "c" := by simpa [exGridValues, shape, keys] using h1
      rcases h3 with rfl | rfl
      · have h1 : some 3 = some n := hn
        have h2 : some 3 = some m := hm
        simp at h1 h2
        omega
      · exact absurd h2 (by decide))
    (by
      intro ax n m hax hn hm
      have h1 := mem_keys_of_get? hm
      have h3 : ax = "u" := by simpa [exGridBack, shape, keys] using h1
      subst h3
      have h1 : some 2 = some n := hn
      have h2 : some 2 = some m := hm
      simp at h1 h2
      omega)
    (by decide) (by decide) ["x"] ["u"] rfl rfl rfl 3 2 [3] [2] rfl rfl rfl rfl

/-- The entries of the example are in range. -/
example : ∀ e, ∀ t ∈ exWeights.atB e, t.1 < 3 ∧ t.2.1 < 2 := by
  intro e t ht
  rcases List.mem_cons.1 ht with rfl | ht
  · simp
  · have h : ∀ t ∈ [((1 : Nat), (0 : Nat), (2 : Int)), (2, 1, 6), (0, 1, 3)], t.1 < 3 ∧ t.2.1 < 2 := by decide
    exact h t ht

example : ∃ w', transposeWeights (exWeights, [("t", 2), ("x", 3)], [("t", 2), ("u", 2)]) =
      .ok (w', [("t", 2), ("u", 2)], [("t", 2), ("x", 3)]) ∧ w'.WF ∧ w'.axes = exWeights.axes ∧ w'.shape = exWeights.shape ∧
      ∀ e, w'.at' e = (exWeights.at' e).map (fun t => (t.2.1, t.1, t.2.2)) :=
  C94_transpose_weights exWeights wf_exWeights _ _

example : ∃ rx ry rz, regridFromWeights exWeights [("x", 3)] [("u", 2)] exGridValues = .ok rx ∧
      regridFromWeights exWeights [("x", 3)] [("u", 2)] exGridValues = .ok ry ∧
      regridFromWeights exWeights [("x", 3)] [("u", 2)] ⟨["x", "c"], ⟨[3, 2], fun i => 2 * exGridValues.nd.get i + 3 * exGridValues.nd.get i⟩⟩ =
        .ok rz ∧ rz.shape = rx.shape ∧ ry.shape = rx.shape ∧ ∀ e, rz.at' e = 2 * rx.at' e + 3 * ry.at' e :=
  C94_linear exWeights [("x", 3)] [("u", 2)] exGridValues exGridValues
    ⟨["x", "c"], ⟨[3, 2], fun i => 2 * exGridValues.nd.get i + 3 * exGridValues.nd.get i⟩⟩ 2 3 wf_exWeights (by decide) (by decide)
    wf_exGridValues wf_exGridValues ⟨rfl, by decide⟩ rfl rfl (fun _ => rfl) [("c", 2), ("t", 2)] rfl
    (exWeights_no [("x", 3)] (by decide)) (exWeights_no [("u", 2)] (by decide))
    (by
      intro ax n m _ hn hm
      have h2 := mem_keys_of_get? hn
      have h3 : ax = "x" := by simpa [keys] using h2
      subst h3
      have h1 : some 3 = some n := hn
      have h2 : some 3 = some m := hm
      simp at h1 h2
      omega)
    (by decide) rfl

/-- Values along the input grid with the wrong number of points. -/
example : regridFromWeights exWeights [("x", 4)] [("u", 2)] exGridValues = .error .valueError :=
  C94_regrid_from_weights_error exWeights [("x", 4)] [("u", 2)] exGridValues wf_exWeights (by decide) (by decide) wf_exGridValues
    (.inr ⟨"x", 4, 3, by decide, rfl, rfl, by decide, by decide⟩)

example : regridWeights exMatrix (fun n => n) [exGridIn] [exGridOut] (some ["z"]) none = .error .valueError :=
  C94_weights_error exMatrix (fun n => n) [exGridIn] [exGridOut] (some ["z"]) none (by simpa using wf_exGridIn) (by simpa using wf_exGridOut)
    (.inr (.inr ⟨[("t", 2), ("x", 3)], [("u", 2)], rfl, rfl, .inr (.inl ⟨"z", by decide, by decide, by decide⟩)⟩))

end SA
end NA
