import Verif.Function.Regrid
import Verif.Props.Regridding
import Verif.Props.Convolution
import Verif.Matrix.Lemmas

/-!
# C97: resampling functions
-/

namespace NA
open Dict

namespace GridFunction
open NA.Comp (coordinates Named)
variable {α K γ : Type}

/-- Specification: the pairs of new and old coordinates which are resampled, those whose new value varies along one of the axes. -/
def selected (A : List String) (old : Dict (SA α)) (new : Dict (Option (SA α))) : List (SA α × SA α) :=
  new.filterMap (fun p => p.2.bind (fun a => if ∃ ax ∈ A, ax ∈ a.axes then (get? old p.1).map (fun b => (a, b)) else none))

theorem meets_iff (A axes : List String) : meets A axes = true ↔ ∃ ax ∈ A, ax ∈ axes := by
  simp [meets]

theorem resampled_ok (A : List String) (old : Dict (SA α)) (new : Dict (Option (SA α))) (hk : ∀ p ∈ new, p.1 ∈ keys old)
    (hsep : ∀ p ∈ new, p.2 = none → ∀ b, get? old p.1 = some b → ∀ ax ∈ A, ax ∉ b.axes) :
    resampled A old new = .ok (selected A old new) := by
  induction new with
  | nil => rfl
  | cons p l ih =>
    have ih := ih (fun p hp => hk p (by simp [hp])) (fun p hp => hsep p (by simp [hp]))
    obtain ⟨c, x⟩ := p
    obtain ⟨b, hb⟩ := exists_get?_of_mem (hk (c, x) (by simp))
    cases x with
    | none =>
      have h := hsep (c, none) (by simp) rfl b hb
      have hm : ¬ meets A b.axes = true := by
        rw [meets_iff]
        rintro ⟨ax, h1, h2⟩
        exact h ax h1 h2
      simp only [resampled]
      simp only at hb
      rw [hb]
      simp only [if_neg hm]
      rw [ih]
      simp [selected]
    | some a =>
      simp only at hb
      simp only [resampled]
      by_cases hm : meets A a.axes = true
      · rw [if_pos hm, hb]
        simp only
        rw [ih]
        have hm' := (meets_iff _ _).1 hm
        simp [selected, bind, Except.bind, hm', hb]
      · rw [if_neg hm, ih]
        have hm' := fun h => hm ((meets_iff A a.axes).2 h)
        simp only [selected, List.filterMap_cons, Option.bind_some, if_neg hm']

theorem wf_coordinates : ∀ (c : Comp γ), Dict.WF c.coordinates
  | .leaf _ => by simp [coordinates, Dict.WF]
  | .node _ cs => Comp.wf_cartesianNd cs

theorem sameKeys_of {δ : Type} {d : Dict γ} {d' : Dict δ} (h : ∀ x, x ∈ keys d ↔ x ∈ keys d') : sameKeys d d' = true := by
  simp only [sameKeys, Bool.and_eq_true, List.all_eq_true, decide_eq_true_eq]
  exact ⟨fun x hx => (h x).1 hx, fun x hx => (h x).2 hx⟩

/-- Specification: `A` are the axes which `axis` names: all axes of the new inputs if it is `None`. -/
def IsAxis (new : Dict (Option (SA α))) (axis : AxisArg) (A : List String) : Prop :=
  match axis with
  | .none => ∃ s, broadcastShapes (((values new).filterMap id).map SA.shape) = .ok s ∧ A = keys s
  | .one s => s.length = 1 ∧ A = [s]
  | .many l => A = l

theorem axisOr_ok (new : Comp (Option (SA α))) (axis : AxisArg) (A : List String) (h : IsAxis new.coordinates axis A) :
    ∃ axis', axisOr new axis = .ok axis' ∧ axis'.items [] = A ∧ axis'.names [] = A := by
  cases axis with
  | none =>
    obtain ⟨s, h1, rfl⟩ := h
    refine ⟨.many (keys s), ?_, rfl, rfl⟩
    simp only [axisOr, bind, Except.bind]
    rw [h1]
  | one s =>
    obtain ⟨h1, rfl⟩ := h
    exact ⟨.one s, rfl, (AxisArg.plain_items (axis := .one s) h1 []).1, rfl⟩
  | many l => exact ⟨.many l, rfl, h.symm, h.symm⟩

theorem regridArgs_ok (f : GridFunction α K) (new : Comp (Option (SA α))) (axis : AxisArg) (A : List String)
    (hnew : ∀ x, new = .leaf x → x ≠ none) (hA : IsAxis new.coordinates axis A)
    (hk : ∀ x, x ∈ keys new.coordinates ↔ x ∈ keys f.inputs.coordinates)
    (hsep : ∀ q, get? new.coordinates q = some none → ∀ b, get? f.inputs.coordinates q = some b → ∀ ax ∈ A, ax ∉ b.axes)
    (hP : selected A f.inputs.coordinates new.coordinates ≠ []) :
    ∃ axis', f.regridArgs new axis = .ok (selected A f.inputs.coordinates new.coordinates, axis') ∧ axis'.names [] = A := by
  obtain ⟨axis', h1, h2, h3⟩ := axisOr_ok new axis A hA
  refine ⟨axis', ?_, h3⟩
  have hr := resampled_ok A f.inputs.coordinates new.coordinates (fun p hp => (hk p.1).1 (List.mem_map_of_mem hp))
    (fun p hp hn => by
      obtain ⟨q, x⟩ := p
      simp only at hn
      subst hn
      exact hsep q (get?_of_mem (wf_coordinates new) hp))
  have hmain : (do
      let axis ← axisOr new axis
      if sameKeys new.coordinates f.inputs.coordinates then do
        let pairs ← resampled (axis.items []) f.inputs.coordinates new.coordinates
        if (isScalar new || isScalar f.inputs) && pairs.isEmpty then .error .keyError
        else .ok (pairs, axis)
      else .error .valueError : R (List (SA α × SA α) × AxisArg)) = .ok (selected A f.inputs.coordinates new.coordinates, axis') := by
    simp only [bind, Except.bind]
    rw [h1]
    simp only
    rw [if_pos (sameKeys_of hk), h2, hr]
    simp only
    rw [if_neg]
    simp [List.isEmpty_iff, hP]
  cases new with
  | node cls cs => exact hmain
  | leaf x =>
    cases x with
    | none => exact absurd rfl (hnew none rfl)
    | some a => exact hmain

theorem bs_nil {X : Shape} (hX : Dict.WF X) : broadcastShapes [X, []] = .ok X := by
  rw [bs_extend hX wf_nil (by intro ax m h; simp [get?_nil] at h)]
  simp

end GridFunction

namespace Comp
variable {α β γ K : Type}

/-- The components of the resampled vector. -/
theorem regridFromWeights_ok [Semiring K] (w : SA (Entries K)) (sI sO : Shape) (v : Comp (SA K)) (hv : v.Named)
    (h : ∀ q a, get? v.coordinates q = some a → ∃ b, SA.regridFromWeights w sI sO a = .ok b) :
    ∃ r, v.regridFromWeights w sI sO = .ok r ∧ r.Named ∧ r.skel = v.skel ∧
      ∀ q a, get? v.coordinates q = some a → ∃ b, get? r.coordinates q = some b ∧ SA.regridFromWeights w sI sO a = .ok b := by
  cases v with
  | leaf a =>
    obtain ⟨b, hb⟩ := h "_dummy" a rfl
    refine ⟨.leaf b, ?_, trivial, rfl, ?_⟩
    · simp only [regridFromWeights, bind, Except.bind]
      rw [hb]
    · intro q a' hq
      simp only [coordinates, get?_cons, get?_nil] at hq
      split at hq
      · rename_i hqd
        injection hq with hq
        subst hq
        subst hqd
        exact ⟨b, by simp [coordinates, get?_cons], hb⟩
      · exact absurd hq (by simp)
  | node cls cs =>
    have hw := hv.1
    have hn := hv.2
    have hwc := wf_cartesianNd cs
    have hm : ∃ nd, (cartesianNd cs).mapM (fun p => do .ok (p.1, ← SA.regridFromWeights w sI sO p.2) : String × SA K → R (String × SA K)) = .ok nd ∧
        keys nd = keys (cartesianNd cs) ∧ ∀ q a, get? (cartesianNd cs) q = some a → ∃ b, get? nd q = some b ∧ SA.regridFromWeights w sI sO a = .ok b := by
      have hgen : ∀ l : Dict (SA K), (∀ p ∈ l, ∃ b, SA.regridFromWeights w sI sO p.2 = .ok b) →
          ∃ nd, l.mapM (fun p => do .ok (p.1, ← SA.regridFromWeights w sI sO p.2) : String × SA K → R (String × SA K)) = .ok nd ∧
            keys nd = keys l ∧ ∀ q a, get? l q = some a → ∃ b, get? nd q = some b ∧ SA.regridFromWeights w sI sO a = .ok b := by
        intro l
        induction l with
        | nil => intro _; exact ⟨[], rfl, rfl, fun q a h => by simp [get?_nil] at h⟩
        | cons p l ih =>
          intro hl
          obtain ⟨nd, n1, n2, n3⟩ := ih (fun p hp => hl p (by simp [hp]))
          obtain ⟨b, hb⟩ := hl p (by simp)
          refine ⟨(p.1, b) :: nd, ?_, by simp [keys] at n2 ⊢; exact n2, ?_⟩
          · rw [List.mapM_cons, n1]
            simp only [bind, Except.bind]
            rw [hb]
            rfl
          · intro q a hq
            rw [get?_cons] at hq ⊢
            by_cases hqp : p.1 = q
            · rw [if_pos hqp] at hq
              injection hq with hq
              subst hq
              exact ⟨b, by simp [hqp], hb⟩
            · rw [if_neg hqp] at hq
              obtain ⟨b', h1, h2⟩ := n3 q a hq
              exact ⟨b', by simp [hqp, h1], h2⟩
      exact hgen _ (fun p hp => h p.1 p.2 (get?_of_mem hwc hp))
    obtain ⟨nd, n1, n2, n3⟩ := hm
    obtain ⟨r, r1, r2, r3, r4, r5, r6⟩ := fromNdL_ok (h := fun (_ : SA K) (v : SA K) => (.ok v : R (SA K))) hw hn (nd := nd)
      (by unfold WF; rw [n2]; exact hwc) (fun q hq => by rw [n2]; exact hq) (fun _ _ v _ _ => ⟨v, rfl⟩)
    refine ⟨.node cls r, ?_, ⟨r2, r3⟩, by rw [skel_node, skel_node, r4], ?_⟩
    · simp only [regridFromWeights, bind, Except.bind] at n1 ⊢
      rw [n1]
      simp only [fromCartesianNd]
      rw [r1]
    · intro q a hq
      obtain ⟨v, b, h1, h2, h3⟩ := r6 q a hq
      obtain ⟨b', h4, h5⟩ := n3 q a hq
      rw [h1] at h4
      injection h4 with h4
      injection h3 with h3
      subst h3 h4
      exact ⟨v, h2, h5⟩

end Comp

namespace GridFunction
open NA.Comp (coordinates Named)
variable {α K γ : Type}

theorem finalInputs_ok (f : GridFunction α K) (new : Comp (Option (SA α))) (pairs : List (SA α × SA α)) (hf : f.inputs.Named)
    (hs : isScalar new = isScalar f.inputs)
    (hk : ∀ x, x ∈ keys new.coordinates ↔ x ∈ keys f.inputs.coordinates)
    (hp : ∀ x b, new = .leaf x → f.inputs = .leaf b → ∃ a l, x = some a ∧ pairs = (a, b) :: l) :
    ∃ r, f.finalInputs new pairs = .ok r ∧ r.Named ∧ r.skel = f.inputs.skel ∧
      ∀ q b, get? f.inputs.coordinates q = some b → ∃ x, get? new.coordinates q = some x ∧ get? r.coordinates q = some (x.getD b) := by
  obtain ⟨old, outputs⟩ := f
  simp only at hf hs hk hp ⊢
  cases old with
  | leaf b =>
    cases new with
    | node cls cs => simp [isScalar] at hs
    | leaf x =>
      obtain ⟨a, l, rfl, rfl⟩ := hp x b rfl rfl
      refine ⟨.leaf a, rfl, trivial, rfl, ?_⟩
      intro q b' hq
      simp only [coordinates, get?_cons, get?_nil] at hq
      split at hq
      · rename_i hqd
        subst hqd
        exact ⟨some a, by simp [coordinates, get?_cons], by simp [coordinates, get?_cons]⟩
      · exact absurd hq (by simp)
  | node cls cs =>
    cases new with
    | leaf x => simp [isScalar] at hs
    | node cls' ns =>
      have hwc := Comp.wf_cartesianNd cs
      have hgen : ∀ l : Dict (SA α), (∀ p ∈ l, p.1 ∈ keys (coordinates (.node cls' ns))) →
          ∃ nd, l.mapM (finalCoordinate (coordinates (.node cls' ns))) = .ok nd ∧
            keys nd = keys l ∧ ∀ q b, get? l q = some b → ∃ x, get? (coordinates (.node cls' ns)) q = some x ∧ get? nd q = some (x.getD b) := by
        intro l
        induction l with
        | nil => intro _; exact ⟨[], rfl, rfl, fun q a h => by simp [get?_nil] at h⟩
        | cons p l ih =>
          intro hl
          obtain ⟨nd, n1, n2, n3⟩ := ih (fun p hp => hl p (by simp [hp]))
          obtain ⟨x, hx⟩ := exists_get?_of_mem (hl p (by simp))
          have hfc : finalCoordinate (coordinates (.node cls' ns)) p = .ok (p.1, x.getD p.2) := by
            unfold finalCoordinate
            rw [hx]
            cases x <;> rfl
          refine ⟨(p.1, x.getD p.2) :: nd, ?_, by simp [keys] at n2 ⊢; exact n2, ?_⟩
          · rw [List.mapM_cons, n1, hfc]
            rfl
          · intro q a hq
            rw [get?_cons] at hq ⊢
            by_cases hqp : p.1 = q
            · rw [if_pos hqp] at hq
              injection hq with hq
              subst hq
              exact ⟨x, by rw [← hqp]; exact hx, by simp [hqp]⟩
            · rw [if_neg hqp] at hq
              obtain ⟨b', h1, h2⟩ := n3 q a hq
              exact ⟨b', h1, by simp [hqp, h2]⟩
      obtain ⟨nd, n1, n2, n3⟩ := hgen (Comp.cartesianNd cs) (fun p hp => (hk p.1).2 (List.mem_map_of_mem hp))
      obtain ⟨r, r1, r2, r3, r4, r5, r6⟩ := Comp.fromNdL_ok (h := fun (_ : SA α) (v : SA α) => (.ok v : R (SA α))) hf.1 hf.2 (nd := nd)
        (by unfold Dict.WF; rw [n2]; exact hwc) (fun q hq => by rw [n2]; exact hq) (fun _ _ v _ _ => ⟨v, rfl⟩)
      refine ⟨.node cls r, ?_, ⟨r2, r3⟩, by rw [Comp.skel_node, Comp.skel_node, r4], ?_⟩
      · simp only [finalInputs, bind, Except.bind]
        rw [n1]
        simp only [Comp.fromCartesianNd]
        rw [r1]
      · intro q b hq
        obtain ⟨v, b', h1, h2, h3⟩ := r6 q b hq
        obtain ⟨x, h4, h5⟩ := n3 q b hq
        injection h3 with h3
        subst h3
        rw [h1] at h5
        exact ⟨x, h4, by rw [← h5]; exact h2⟩

/-- **C97** (weights, partial). The weights are those of the old and of the new coordinates which vary along the axes, and they
belong to the index along the other axes of the old coordinates.  Missing: axes in an order other than in the shape of the
coordinates. -/
theorem C97_weights_partial (matrix : List (ND α) → List (ND α) → Entries K) (cells : Nat → Nat) (f : GridFunction α K)
    (new : Comp (Option (SA α))) (axis : AxisArg) (A : List String) (hnew : ∀ x, new = .leaf x → x ≠ none)
    (hA : IsAxis new.coordinates axis A) (hk : ∀ x, x ∈ keys new.coordinates ↔ x ∈ keys f.inputs.coordinates)
    (hsep : ∀ q, get? new.coordinates q = some none → ∀ b, get? f.inputs.coordinates q = some b → ∀ ax ∈ A, ax ∉ b.axes)
    (P : List (SA α × SA α)) (hP : P = selected A f.inputs.coordinates new.coordinates) (hne : P ≠ [])
    (hw : ∀ p ∈ P, p.1.WF ∧ p.2.WF) (SI SO : Shape) (hSI : broadcastShapes (P.map (fun p => p.2.shape)) = .ok SI)
    (hSO : broadcastShapes (P.map (fun p => p.1.shape)) = .ok SO)
    (hord : A = (keys SI).filter (· ∈ A)) (hlen : A.length = SO.length) (hd : ∀ ax ∈ keys SO, ax ∈ keys SI → ax ∈ A) :
    ∃ w, f.weights matrix cells new axis =
        .ok (w, SI.filter (fun p => p.1 ∉ A) ++ SA.cellShape cells A SI, SI.filter (fun p => p.1 ∉ A) ++ SA.cellShape cells (keys SO) SO) ∧
      w.WF ∧ w.shape = SI.filter (fun p => p.1 ∉ A) ∧ ∀ e, ∃ mI mO, w.at' e = matrix mI mO ∧
        List.Forall₂ (fun p m => SA.IsImage A SI p.2.atB e m) P mI ∧ List.Forall₂ (fun p m => SA.IsImage (keys SO) SO p.1.atB e m) P mO := by
  obtain ⟨axis', h1, h2⟩ := regridArgs_ok f new axis A hnew hA hk hsep (hP ▸ hne)
  have hI : ∀ c ∈ P.map (·.2), c.WF := by
    intro c hc
    obtain ⟨p, hp, rfl⟩ := List.mem_map.1 hc
    exact (hw p hp).2
  have hO : ∀ c ∈ P.map (·.1), c.WF := by
    intro c hc
    obtain ⟨p, hp, rfl⟩ := List.mem_map.1 hc
    exact (hw p hp).1
  have hSI' : broadcastShapes ((P.map (·.2)).map SA.shape) = .ok SI := by rw [List.map_map]; exact hSI
  have hSO' : broadcastShapes ((P.map (·.1)).map SA.shape) = .ok SO := by rw [List.map_map]; exact hSO
  have hSIw : Dict.WF SI := by
    refine (broadcastShapes_joinOf ?_ hSI').1
    intro u hu
    obtain ⟨c, hc, rfl⟩ := List.mem_map.1 hu
    exact SA.wf_shape (hI c hc)
  have hnil : SO.filter (fun p => p.1 ∉ keys SO) = [] := by
    rw [List.filter_eq_nil_iff]
    intro p hp
    have : p.1 ∈ keys SO := List.mem_map_of_mem hp
    simp [this]
  obtain ⟨w, w1, w2, w3, w4⟩ := SA.C94_weights_partial matrix cells (P.map (·.2)) (P.map (·.1)) (some A) none hI hO SI SO hSI' hSO'
    A (keys SO) rfl rfl hord (List.filter_eq_self.2 (fun _ h => decide_eq_true h)).symm (hlen.trans (List.length_map ..).symm) (SI.filter (fun p => p.1 ∉ A))
    (by rw [hnil]; exact bs_nil (wf_filter hSIw _)) (fun _ _ h => h) hd
  refine ⟨w, ?_, w2, w3, fun e => ?_⟩
  · unfold weights
    rw [h1]
    simp only [bind, Except.bind]
    rw [h2, ← hP]
    exact w1
  · obtain ⟨mI, mO, q1, q2, q3⟩ := w4 e
    rw [List.forall₂_map_left_iff] at q2 q3
    exact ⟨mI, mO, q1, q2, q3⟩

/-- **C97** (resampling a function, partial). Each component of the outputs is resampled from the old coordinates which vary along
the axes to the new ones, separately for each index along the other axes; the inputs of the result are the new coordinates, and the
old ones where `None` was given.  Missing: axes in an order other than in the shape of the coordinates. -/
theorem C97_regrid_partial [Semiring K] (matrix : List (ND α) → List (ND α) → Entries K) (cells : Nat → Nat) (f : GridFunction α K)
    (new : Comp (Option (SA α))) (axis : AxisArg) (A : List String) (hnew : ∀ x, new = .leaf x → x ≠ none)
    (hA : IsAxis new.coordinates axis A) (hs : isScalar new = isScalar f.inputs)
    (hk : ∀ x, x ∈ keys new.coordinates ↔ x ∈ keys f.inputs.coordinates)
    (hsep : ∀ q, get? new.coordinates q = some none → ∀ b, get? f.inputs.coordinates q = some b → ∀ ax ∈ A, ax ∉ b.axes)
    (P : List (SA α × SA α)) (hP : P = selected A f.inputs.coordinates new.coordinates) (hne : P ≠ [])
    (hw : ∀ p ∈ P, p.1.WF ∧ p.2.WF) (SI SO : Shape) (hSI : broadcastShapes (P.map (fun p => p.2.shape)) = .ok SI)
    (hSO : broadcastShapes (P.map (fun p => p.1.shape)) = .ok SO)
    (hord : A = (keys SI).filter (· ∈ A)) (hlen : A.length = SO.length) (hd : ∀ ax ∈ keys SO, ax ∈ keys SI → ax ∈ A)
    (hi : f.inputs.Named) (ho : f.outputs.Named)
    (hv : ∀ q v, get? f.outputs.coordinates q = some v → v.WF ∧
      (∃ T, broadcastShapes [v.shape.filter (fun p => p.1 ∉ A), SI.filter (fun p => p.1 ∉ A)] = .ok T) ∧
      (∀ ax n m, ax ∈ A → get? SI ax = some n → get? v.shape ax = some m → m = cells n ∨ m = 1) ∧
      (∀ ax ∈ v.axes, ax ∈ keys SO → ax ∈ A)) :
    ∃ r, f.regrid matrix cells new axis none = .ok r ∧ r.inputs.Named ∧ r.outputs.Named ∧
      r.inputs.skel = f.inputs.skel ∧ r.outputs.skel = f.outputs.skel ∧
      (∀ q b, get? f.inputs.coordinates q = some b →
        ∃ x, get? new.coordinates q = some x ∧ get? r.inputs.coordinates q = some (x.getD b)) ∧
      (∀ q v T, get? f.outputs.coordinates q = some v →
        broadcastShapes [v.shape.filter (fun p => p.1 ∉ A), SI.filter (fun p => p.1 ∉ A)] = .ok T →
        ∃ b, get? r.outputs.coordinates q = some b ∧ b.WF ∧ b.shape = T ++ SA.cellShape cells (keys SO) SO ∧
          ∀ e, ∃ mI mO, List.Forall₂ (fun p m => SA.IsImage A SI p.2.atB e m) P mI ∧
            List.Forall₂ (fun p m => SA.IsImage (keys SO) SO p.1.atB e m) P mO ∧
            b.at' e = SA.applyEntries (matrix mI mO)
              (fun p => v.atB (SA.putNamed e A (ND.unravel ((SA.cellShape cells A SI).map (·.2)) p)))
              (ND.ravel ((SA.cellShape cells (keys SO) SO).map (·.2)) ((keys SO).map e))) := by
  obtain ⟨axis', h1, h2⟩ := regridArgs_ok f new axis A hnew hA hk hsep (hP ▸ hne)
  have hI : ∀ c ∈ P.map (·.2), c.WF := by
    intro c hc
    obtain ⟨p, hp, rfl⟩ := List.mem_map.1 hc
    exact (hw p hp).2
  have hO : ∀ c ∈ P.map (·.1), c.WF := by
    intro c hc
    obtain ⟨p, hp, rfl⟩ := List.mem_map.1 hc
    exact (hw p hp).1
  have hSI' : broadcastShapes ((P.map (·.2)).map SA.shape) = .ok SI := by rw [List.map_map]; exact hSI
  have hSO' : broadcastShapes ((P.map (·.1)).map SA.shape) = .ok SO := by rw [List.map_map]; exact hSO
  have hSIw : Dict.WF SI := by
    refine (broadcastShapes_joinOf ?_ hSI').1
    intro u hu
    obtain ⟨c, hc, rfl⟩ := List.mem_map.1 hu
    exact SA.wf_shape (hI c hc)
  have hnil : SO.filter (fun p => p.1 ∉ keys SO) = [] := by
    rw [List.filter_eq_nil_iff]
    intro p hp
    have : p.1 ∈ keys SO := List.mem_map_of_mem hp
    simp [this]
  have hbs : broadcastShapes [SI.filter (fun p => p.1 ∉ A), SO.filter (fun p => p.1 ∉ keys SO)] = .ok (SI.filter (fun p => p.1 ∉ A)) := by
    rw [hnil]; exact bs_nil (wf_filter hSIw _)
  obtain ⟨w, w1, w2, w3, w4⟩ := SA.C94_weights_partial matrix cells (P.map (·.2)) (P.map (·.1)) (some A) none hI hO SI SO hSI' hSO'
    A (keys SO) rfl rfl hord (List.filter_eq_self.2 (fun _ h => decide_eq_true h)).symm (hlen.trans (List.length_map ..).symm) (SI.filter (fun p => p.1 ∉ A)) hbs (fun _ _ h => h) hd
  have hreg : ∀ v, SA.regrid matrix cells (P.map (·.2)) (P.map (·.1)) v (some A) none =
      SA.regridFromWeights w (SI.filter (fun p => p.1 ∉ A) ++ SA.cellShape cells A SI)
        (SI.filter (fun p => p.1 ∉ A) ++ SA.cellShape cells (keys SO) SO) v := by
    intro v
    unfold SA.regrid
    rw [w1]
    rfl
  have hone : ∀ q v T, get? f.outputs.coordinates q = some v →
      broadcastShapes [v.shape.filter (fun p => p.1 ∉ A), SI.filter (fun p => p.1 ∉ A)] = .ok T → _ :=
    fun q v T hq hT => SA.C94_regrid_partial matrix cells (P.map (·.2)) (P.map (·.1)) v (some A) none hI hO (hv q v hq).1 SI SO hSI' hSO'
      A (keys SO) rfl rfl hord (List.filter_eq_self.2 (fun _ h => decide_eq_true h)).symm (hlen.trans (List.length_map ..).symm) (SI.filter (fun p => p.1 ∉ A)) hbs (fun _ _ h => h) hd T hT
      (hv q v hq).2.2.1 (hv q v hq).2.2.2
  obtain ⟨r, r1, r2, r3, r4⟩ := Comp.regridFromWeights_ok w (SI.filter (fun p => p.1 ∉ A) ++ SA.cellShape cells A SI)
    (SI.filter (fun p => p.1 ∉ A) ++ SA.cellShape cells (keys SO) SO) f.outputs ho (by
      intro q v hq
      obtain ⟨T, hT⟩ := (hv q v hq).2.1
      obtain ⟨b, hb, _⟩ := hone q v T hq hT
      exact ⟨b, by rw [← hreg]; exact hb⟩)
  obtain ⟨i, i1, i2, i3, i4⟩ := finalInputs_ok f new P hi hs hk (by
    intro x b hx hb
    subst hx
    cases x with
    | none => exact absurd rfl (hnew none rfl)
    | some a =>
      rw [hb] at hP
      have : P = (if ∃ ax ∈ A, ax ∈ a.axes then [(a, b)] else []) := by
        rw [hP]
        by_cases h : ∃ ax ∈ A, ax ∈ a.axes
        · simp only [selected, coordinates, List.filterMap_cons, List.filterMap_nil, Option.bind_some, if_pos h, get?_cons]
          rfl
        · simp only [selected, coordinates, List.filterMap_cons, List.filterMap_nil, Option.bind_some, if_neg h]
      by_cases h : ∃ ax ∈ A, ax ∈ a.axes
      · rw [if_pos h] at this
        exact ⟨a, [], rfl, this⟩
      · rw [if_neg h] at this
        exact absurd this hne)
  refine ⟨⟨i, r⟩, ?_, i2, r2, i3, r3, i4, ?_⟩
  · unfold regrid weights
    rw [h1]
    simp only [bind, Except.bind]
    rw [h2, ← hP, w1]
    simp only
    rw [r1]
    simp only
    rw [i1]
  · intro q v T hq hT
    obtain ⟨b, b1, b2⟩ := r4 q v hq
    obtain ⟨b', c1, c2, c3, c4⟩ := hone q v T hq hT
    rw [hreg, b2] at c1
    injection c1 with c1
    subst c1
    refine ⟨b, b1, c2, c3, fun e => ?_⟩
    obtain ⟨mI, mO, q1, q2, q3⟩ := c4 e
    rw [List.forall₂_map_left_iff] at q1 q2
    exact ⟨mI, mO, q1, q2, q3⟩

/-- **C97** (weights computed in advance). Resampling with the weights which `weights` returns for the same inputs and axis is the
same as resampling without them, also for other functions with the same inputs, and whatever the method is. -/
theorem C97_precomputed [Semiring K] (matrix matrix' : List (ND α) → List (ND α) → Entries K) (cells cells' : Nat → Nat)
    (f g : GridFunction α K) (new : Comp (Option (SA α))) (axis : AxisArg) (w : SA (Entries K) × Shape × Shape)
    (hg : g.inputs = f.inputs) (hw : f.weights matrix cells new axis = .ok w) :
    g.regrid matrix' cells' new axis (some w) = g.regrid matrix cells new axis none := by
  have hargs : g.regridArgs new axis = f.regridArgs new axis := by
    unfold regridArgs
    rw [hg]
  have hw' : g.weights matrix cells new axis = .ok w := by
    unfold weights at hw ⊢
    rw [hargs]
    exact hw
  unfold regrid
  simp only [bind, Except.bind]
  rw [hw']

theorem wf_new {new : Comp (Option (SA α))} (h : ∀ q a, get? new.coordinates q = some (some a) → a.WF) :
    ∀ u ∈ ((values new.coordinates).filterMap id).map SA.shape, Dict.WF u := by
  intro u hu
  obtain ⟨a, ha, rfl⟩ := List.mem_map.1 hu
  obtain ⟨x, hx, hxa⟩ := List.mem_filterMap.1 ha
  obtain ⟨p, hp, rfl⟩ := List.mem_map.1 hx
  have hp2 : p.2 = some a := hxa
  refine SA.wf_shape (h p.1 a ?_)
  rw [get?_of_mem (wf_coordinates new) hp, hp2]

/-- The errors of the first step are the errors of the method. -/
theorem regrid_of_args_error [Semiring K] (matrix : List (ND α) → List (ND α) → Entries K) (cells : Nat → Nat) (f : GridFunction α K)
    (new : Comp (Option (SA α))) (axis : AxisArg) (er : Err) (h : f.regridArgs new axis = .error er) :
    (∀ w, f.regrid matrix cells new axis w = .error er) ∧ f.weights matrix cells new axis = .error er := by
  refine ⟨fun w => ?_, ?_⟩
  · unfold regrid
    rw [h]
    rfl
  · unfold weights
    rw [h]
    rfl

/-- **C97** (other components). New inputs whose components have other names than the old inputs are a `ValueError`. -/
theorem C97_names_error [Semiring K] (matrix : List (ND α) → List (ND α) → Entries K) (cells : Nat → Nat) (f : GridFunction α K)
    (new : Comp (Option (SA α))) (axis : AxisArg) (hnew : ∀ x, new = .leaf x → x ≠ none)
    (hw : ∀ q a, get? new.coordinates q = some (some a) → a.WF)
    (hk : ∃ x, ¬ (x ∈ keys new.coordinates ↔ x ∈ keys f.inputs.coordinates)) :
    (∀ w, f.regrid matrix cells new axis w = .error .valueError) ∧ f.weights matrix cells new axis = .error .valueError := by
  refine regrid_of_args_error matrix cells f new axis .valueError ?_
  have hs : ¬ sameKeys new.coordinates f.inputs.coordinates = true := by
    simp only [sameKeys, Bool.and_eq_true, List.all_eq_true, decide_eq_true_eq]
    rintro ⟨h1, h2⟩
    obtain ⟨x, hx⟩ := hk
    exact hx ⟨h1 x, h2 x⟩
  have hmain : (do
      let axis ← axisOr new axis
      if sameKeys new.coordinates f.inputs.coordinates then do
        let pairs ← resampled (axis.items []) f.inputs.coordinates new.coordinates
        if (isScalar new || isScalar f.inputs) && pairs.isEmpty then .error .keyError
        else .ok (pairs, axis)
      else .error .valueError : R (List (SA α × SA α) × AxisArg)) = .error .valueError := by
    simp only [bind, Except.bind]
    cases ha : axisOr new axis with
    | ok a => simp only [if_neg hs]
    | error er =>
      cases axis with
      | none =>
        simp only [axisOr, bind, Except.bind] at ha
        cases hb : broadcastShapes (((values new.coordinates).filterMap id).map SA.shape) with
        | ok s => rw [hb] at ha; simp at ha
        | error er' =>
          rw [hb] at ha
          injection ha with ha
          rw [← ha, C01_broadcast_shapes_error_kind _ (wf_new hw) er' hb]
      | one s => simp [axisOr] at ha
      | many l => simp [axisOr] at ha
  cases new with
  | node cls cs => exact hmain
  | leaf x =>
    cases x with
    | none => exact absurd rfl (hnew none rfl)
    | some a => exact hmain

theorem resampled_error (A : List String) (old : Dict (SA α)) (new : Dict (Option (SA α))) (hk : ∀ p ∈ new, p.1 ∈ keys old)
    (h : ∃ p ∈ new, p.2 = none ∧ ∃ b, get? old p.1 = some b ∧ ∃ ax ∈ A, ax ∈ b.axes) :
    resampled A old new = .error .valueError := by
  induction new with
  | nil => simp at h
  | cons p l ih =>
    have ih := ih (fun p hp => hk p (by simp [hp]))
    obtain ⟨c, x⟩ := p
    obtain ⟨b, hb⟩ := exists_get?_of_mem (hk (c, x) (by simp))
    simp only at hb
    have hrest : (c, x) = (c, none) ∧ (∃ ax ∈ A, ax ∈ b.axes) ∨ resampled A old l = .error .valueError := by
      obtain ⟨p, hp, h1, b', h2, h3⟩ := h
      rcases List.mem_cons.1 hp with rfl | hp
      · simp only at h1 h2
        rw [hb] at h2
        injection h2 with h2
        subst h2
        exact Or.inl ⟨by rw [h1], h3⟩
      · exact Or.inr (ih ⟨p, hp, h1, b', h2, h3⟩)
    cases x with
    | none =>
      simp only [resampled]
      rw [hb]
      simp only
      by_cases hm : meets A b.axes = true
      · rw [if_pos hm]
      · rw [if_neg hm]
        rcases hrest with h | h
        · exact absurd ((meets_iff _ _).2 h.2) hm
        · exact h
    | some a =>
      simp only [resampled]
      rcases hrest with h | h
      · simp at h
      · by_cases hm : meets A a.axes = true
        · rw [if_pos hm, hb]
          simp only
          rw [h]
          rfl
        · rw [if_neg hm, h]

/-- **C97** (components which are kept). A component which is `None` in the new inputs must not vary along the axes which are
resampled, otherwise there is a `ValueError`. -/
theorem C97_separable_error [Semiring K] (matrix : List (ND α) → List (ND α) → Entries K) (cells : Nat → Nat) (f : GridFunction α K)
    (cls : String) (cs : List (String × Comp (Option (SA α)))) (axis : AxisArg) (A : List String)
    (hA : IsAxis (coordinates (.node cls cs)) axis A)
    (hk : ∀ x, x ∈ keys (coordinates (.node cls cs)) ↔ x ∈ keys f.inputs.coordinates)
    (h : ∃ q b, get? (coordinates (.node cls cs)) q = some none ∧ get? f.inputs.coordinates q = some b ∧ ∃ ax ∈ A, ax ∈ b.axes) :
    (∀ w, f.regrid matrix cells (.node cls cs) axis w = .error .valueError) ∧
      f.weights matrix cells (.node cls cs) axis = .error .valueError := by
  refine regrid_of_args_error matrix cells f _ axis .valueError ?_
  obtain ⟨axis', h1, h2, h3⟩ := axisOr_ok _ axis A hA
  obtain ⟨q, b, g1, g2, g3⟩ := h
  unfold regridArgs
  simp only [bind, Except.bind]
  rw [h1]
  simp only
  rw [if_pos (sameKeys_of hk), h2, resampled_error A _ _ (fun p hp => (hk p.1).1 (List.mem_map_of_mem hp))
    ⟨(q, none), mem_of_get? g1, rfl, b, g2, g3⟩]

/-- **C97** (an axis which the new inputs lack). If the inputs are scalars and the new inputs have none of the axes, there is a
`KeyError`.  A string is compared by its characters, so that this holds for the name of an axis with several characters. -/
theorem C97_axis_missing [Semiring K] (matrix : List (ND α) → List (ND α) → Entries K) (cells : Nat → Nat) (old new : SA α)
    (outputs : Comp (SA K)) (axis : AxisArg) (hn : ∀ s, broadcastShapes [new.shape] = .ok s → ∀ ax ∈ axis.items (keys s), ax ∉ new.axes)
    (hw : new.WF) :
    (∀ w, regrid matrix cells ⟨.leaf old, outputs⟩ (.leaf (some new)) axis w = .error .keyError) ∧
      weights matrix cells ⟨.leaf old, outputs⟩ (.leaf (some new)) axis = .error .keyError := by
  refine regrid_of_args_error matrix cells _ _ axis .keyError ?_
  obtain ⟨s, hs⟩ : ∃ s, broadcastShapes [new.shape] = .ok s := by
    cases h : broadcastShapes [new.shape] with
    | ok s => exact ⟨s, rfl⟩
    | error er =>
      exfalso
      have hss : ∀ u ∈ [new.shape], Dict.WF u := by simpa using SA.wf_shape hw
      obtain ⟨ax, m, n, ⟨u, hu, h1⟩, ⟨v, hv, h2⟩, h3, h4, h5⟩ := (C01_broadcast_shapes_error_iff _ hss).1 ⟨er, h⟩
      simp only [List.mem_singleton] at hu hv
      subst hu hv
      exact h3 (Option.some.inj (h1.symm.trans h2))
  have hitems : ∃ axis', axisOr (.leaf (some new)) axis = .ok axis' ∧ axis'.items [] = axis.items (keys s) := by
    cases axis with
    | none =>
      refine ⟨.many (keys s), ?_, rfl⟩
      simp only [axisOr, coordinates, values, List.map_cons, List.map_nil, List.filterMap_cons, List.filterMap_nil, id, bind, Except.bind]
      rw [hs]
    | one s => exact ⟨.one s, rfl, rfl⟩
    | many l => exact ⟨.many l, rfl, rfl⟩
  obtain ⟨axis', h1, h2⟩ := hitems
  have hm : ¬ meets (axis.items (keys s)) new.axes = true := by
    rw [meets_iff]
    rintro ⟨ax, g1, g2⟩
    exact hn s hs ax g1 g2
  unfold regridArgs
  simp only [bind, Except.bind]
  rw [h1]
  simp only
  rw [if_pos (sameKeys_of (by simp [coordinates, keys])), h2]
  simp only [coordinates, resampled]
  rw [if_neg hm]
  simp [isScalar]

/-- **C97** (other axes). A function of one scalar cannot be resampled to inputs along other axes, whatever `axis` is. -/
theorem C97_renamed_axis [Semiring K] (matrix : List (ND α) → List (ND α) → Entries K) (cells : Nat → Nat) (old new : SA α)
    (outputs : Comp (SA K)) (axis : AxisArg) (ho : old.WF) (hw : new.WF) (hp : axis.Plain) (hd : ∀ ax ∈ new.axes, ax ∉ old.axes) :
    ∃ er, weights matrix cells ⟨.leaf old, outputs⟩ (.leaf (some new)) axis = .error er ∧
      regrid matrix cells ⟨.leaf old, outputs⟩ (.leaf (some new)) axis none = .error er := by
  have hbs : ∀ (a : SA α), a.WF → broadcastShapes [a.shape] = .ok a.shape := fun a _ => by simp [broadcastShapes]; rfl
  by_cases h : ∀ ax ∈ axis.items (keys new.shape), ax ∉ new.axes
  · obtain ⟨h1, h2⟩ := C97_axis_missing matrix cells old new outputs axis (by
      intro s hs
      rw [hbs new hw] at hs
      injection hs with hs
      subst hs
      exact h) hw
    exact ⟨.keyError, h2, h1 none⟩
  · push Not at h
    obtain ⟨ax, h1, h2⟩ := h
    have hA : IsAxis (coordinates (.leaf (some new))) axis (axis.items (keys new.shape)) := by
      cases axis with
      | none => exact ⟨new.shape, hbs new hw, rfl⟩
      | one s => exact ⟨hp, (AxisArg.plain_items (axis := .one s) hp []).1⟩
      | many l => exact rfl
    have hsel : selected (axis.items (keys new.shape)) (coordinates (.leaf old)) (coordinates (.leaf (some new))) = [(new, old)] := by
      have : ∃ ax ∈ axis.items (keys new.shape), ax ∈ new.axes := ⟨ax, h1, h2⟩
      simp only [selected, coordinates, List.filterMap_cons, List.filterMap_nil, Option.bind_some, if_pos this, get?_cons]
      rfl
    obtain ⟨axis', a1, a2⟩ := regridArgs_ok (⟨.leaf old, outputs⟩ : GridFunction α K) (.leaf (some new)) axis _
      (by intro x hx; injection hx with hx; rw [← hx]; simp) hA (by simp [coordinates, keys])
      (by
        intro q hq
        simp only [coordinates, get?_cons, get?_nil] at hq
        split at hq <;> simp at hq) (by rw [hsel]; simp)
    have hwt : weights matrix cells ⟨.leaf old, outputs⟩ (.leaf (some new)) axis = .error .valueError := by
      unfold weights
      rw [a1]
      simp only [bind, Except.bind]
      rw [a2, hsel]
      refine SA.C94_weights_error matrix cells [old] [new] (some _) none (by simpa using ho) (by simpa using hw)
        (.inr (.inr ⟨old.shape, new.shape, hbs old ho, hbs new hw, .inr (.inl ⟨ax, h1, ?_, fun h => h⟩)⟩))
      rw [SA.keys_shape ho]
      exact hd ax h2
    refine ⟨_, hwt, ?_⟩
    unfold regrid
    rw [a1]
    simp only [bind, Except.bind]
    rw [hwt]

theorem resampled_selected (A : List String) (old : Dict (SA α)) (new : Dict (Option (SA α))) (P : List (SA α × SA α))
    (h : resampled A old new = .ok P) : P = selected A old new := by
  induction new generalizing P with
  | nil =>
    injection h with h
    rw [← h]
    rfl
  | cons p l ih =>
    obtain ⟨c, x⟩ := p
    cases x with
    | none =>
      simp only [resampled] at h
      cases hb : get? old c with
      | none => rw [hb] at h; simp at h
      | some b =>
        rw [hb] at h
        simp only at h
        by_cases hm : meets A b.axes = true
        · rw [if_pos hm] at h; simp at h
        · rw [if_neg hm] at h
          rw [ih P h]
          simp [selected]
    | some a =>
      simp only [resampled] at h
      by_cases hm : meets A a.axes = true
      · rw [if_pos hm] at h
        cases hb : get? old c with
        | none => rw [hb] at h; simp at h
        | some b =>
          rw [hb] at h
          simp only [bind, Except.bind] at h
          cases hr : resampled A old l with
          | error er => rw [hr] at h; simp at h
          | ok Q =>
            rw [hr] at h
            injection h with h
            rw [← h, ih Q hr]
            have hm' := (meets_iff _ _).1 hm
            simp [selected, hm', hb]
      · rw [if_neg hm] at h
        rw [ih P h]
        have hm' := fun h => hm ((meets_iff A a.axes).2 h)
        simp only [selected, List.filterMap_cons, Option.bind_some, if_neg hm']

theorem regridArgs_many (f : GridFunction α K) (cls : String) (cs : List (String × Comp (Option (SA α)))) (A : List String)
    (P : List (SA α × SA α)) (axis : AxisArg) (h : f.regridArgs (.node cls cs) (.many A) = .ok (P, axis)) :
    P = selected A f.inputs.coordinates (coordinates (.node cls cs)) ∧ axis = .many A := by
  simp only [regridArgs, axisOr, bind, Except.bind] at h
  split at h
  · cases hr : resampled ((AxisArg.many A).items []) f.inputs.coordinates (coordinates (.node cls cs)) with
    | error er => rw [hr] at h; simp at h
    | ok Q =>
      rw [hr] at h
      simp only at h
      split at h
      · simp at h
      · injection h with h
        injection h with h1 h2
        subst h1 h2
        exact ⟨resampled_selected _ _ _ _ hr, rfl⟩
  · simp at h

/-- **C97** (components which do not vary). The outputs of the result do not depend on the new components which do not vary along the
axes which are resampled. -/
theorem C97_constant_components [Semiring K] (matrix : List (ND α) → List (ND α) → Entries K) (cells : Nat → Nat) (f r r' : GridFunction α K)
    (cls : String) (cs cs' : List (String × Comp (Option (SA α)))) (A : List String)
    (hsame : List.Forall₂ (fun p p' => p.1 = p'.1 ∧ (p.2 = p'.2 ∨
      (∀ a, p.2 = some a → ∀ ax ∈ A, ax ∉ a.axes) ∧ (∀ a, p'.2 = some a → ∀ ax ∈ A, ax ∉ a.axes)))
      (Comp.cartesianNd cs) (Comp.cartesianNd cs'))
    (h : f.regrid matrix cells (.node cls cs) (.many A) none = .ok r) (h' : f.regrid matrix cells (.node cls cs') (.many A) none = .ok r') :
    r.outputs = r'.outputs := by
  have hsel : selected A f.inputs.coordinates (Comp.cartesianNd cs) = selected A f.inputs.coordinates (Comp.cartesianNd cs') := by
    unfold selected
    generalize f.inputs.coordinates = old
    generalize Comp.cartesianNd cs = N at hsame
    generalize Comp.cartesianNd cs' = N' at hsame
    induction hsame with
    | nil => rfl
    | @cons p p' l l' hp _ ih =>
      obtain ⟨c, x⟩ := p
      obtain ⟨c', x'⟩ := p'
      obtain ⟨h1, h2⟩ := hp
      simp only at h1 h2
      subst h1
      rw [List.filterMap_cons, List.filterMap_cons, ih]
      rcases h2 with h2 | ⟨h2, h3⟩
      · rw [h2]
      · have hnone : ∀ y : Option (SA α), (∀ a, y = some a → ∀ ax ∈ A, ax ∉ a.axes) →
            y.bind (fun a => if ∃ ax ∈ A, ax ∈ a.axes then (get? old c).map (fun b => (a, b)) else none) = none := by
          intro y hy
          cases y with
          | none => rfl
          | some a =>
            simp only [Option.bind_some]
            rw [if_neg]
            rintro ⟨ax, g1, g2⟩
            exact hy a rfl ax g1 g2
        rw [hnone x h2, hnone x' h3]
  have hrun : ∀ (cs : List (String × Comp (Option (SA α)))) (r : GridFunction α K),
      f.regrid matrix cells (.node cls cs) (.many A) none = .ok r →
      ∃ w, SA.regridWeights matrix cells ((selected A f.inputs.coordinates (Comp.cartesianNd cs)).map (·.2))
          ((selected A f.inputs.coordinates (Comp.cartesianNd cs)).map (·.1)) (some A) none = .ok w ∧
        f.outputs.regridFromWeights w.1 w.2.1 w.2.2 = .ok r.outputs := by
    intro cs r h
    unfold regrid weights at h
    cases ha : f.regridArgs (.node cls cs) (.many A) with
    | error er => rw [ha] at h; simp [bind, Except.bind] at h
    | ok args =>
      obtain ⟨P, axis⟩ := args
      obtain ⟨e1, e2⟩ := regridArgs_many f cls cs A P axis ha
      subst e1 e2
      rw [ha] at h
      simp only [bind, Except.bind] at h
      have hn : (AxisArg.many A).names [] = A := rfl
      have hc : coordinates (.node cls cs) = Comp.cartesianNd cs := rfl
      rw [hn, hc] at h
      cases hw : SA.regridWeights matrix cells ((selected A f.inputs.coordinates (Comp.cartesianNd cs)).map (·.2))
          ((selected A f.inputs.coordinates (Comp.cartesianNd cs)).map (·.1)) (some A) none with
      | error er =>
        rw [hw] at h
        simp at h
      | ok w =>
        rw [hw] at h
        simp only at h
        cases ho : f.outputs.regridFromWeights w.1 w.2.1 w.2.2 with
        | error er => rw [ho] at h; simp at h
        | ok o =>
          rw [ho] at h
          simp only at h
          split at h
          · simp at h
          · injection h with h
            exact ⟨w, rfl, by rw [← h, ho]⟩
  obtain ⟨w, g1, g2⟩ := hrun cs r h
  obtain ⟨w', g1', g2'⟩ := hrun cs' r' h'
  rw [hsel, g1'] at g1
  injection g1 with g1
  subst g1
  rw [g2'] at g2
  injection g2 with g2
  exact g2.symm

/-- Specification: the identity matrix. -/
def unitEntries (K : Type) [Semiring K] (n : Nat) : Entries K := (List.range n).map (fun p => (p, p, 1))

theorem applyEntries_unit [Semiring K] (n : Nat) (x : Nat → K) (q : Nat) (h : q < n) : SA.applyEntries (unitEntries K n) x q = x q := by
  unfold SA.applyEntries unitEntries
  rw [List.filter_map, List.map_map]
  have : (List.range n).filter ((fun t : Nat × Nat × K => decide (t.2.1 = q)) ∘ fun p => (p, p, 1)) = [q] := by
    have h1 : (List.range n).filter ((fun t : Nat × Nat × K => decide (t.2.1 = q)) ∘ fun p => (p, p, 1)) =
        (List.range n).filter (fun p => p = q) := by
      apply List.filter_congr
      intro p _
      rfl
    rw [h1]
    have h2 := List.Nodup.filter (fun p => decide (p = q)) (List.nodup_range (n := n))
    have h3 : ∀ p, p ∈ (List.range n).filter (fun p => decide (p = q)) ↔ p = q := by
      intro p
      rw [List.mem_filter]
      simp only [List.mem_range, decide_eq_true_eq]
      constructor
      · exact fun h => h.2
      · rintro rfl; exact ⟨h, rfl⟩
    exact (List.perm_singleton.1 ((List.perm_ext_iff_of_nodup h2 (List.nodup_singleton q)).2 (by simpa using h3)))
  rw [this]
  simp

/-- **C97** (the same inputs, partial). If the weights for equal grids are those of the identity, resampling a function to its own
inputs does not change the outputs.  Missing: methods whose values belong to the cells between the coordinates. -/
theorem C97_same_inputs_partial [Semiring K] (matrix : List (ND α) → List (ND α) → Entries K) (f : GridFunction α K)
    (hi : f.inputs.Named) (ho : f.outputs.Named)
    (hw : ∀ q a, get? f.inputs.coordinates q = some a → a.WF ∧ a.axes ≠ []) (hne : f.inputs.coordinates ≠ [])
    (S : Shape) (hS : broadcastShapes ((values f.inputs.coordinates).map SA.shape) = .ok S)
    (hv : ∀ q v, get? f.outputs.coordinates q = some v → v.WF ∧
      (∀ ax n m, get? S ax = some n → get? v.shape ax = some m → m = n ∨ m = 1))
    (hunit : ∀ mI mO s, mI ≠ [] → (∀ m ∈ mI, m.shape = s) → List.Forall₂ (fun m m' : ND α => m'.shape = m.shape ∧
      ∀ ks, ks.length = m.shape.length → m'.get ks = m.get ks) mI mO → matrix mI mO = unitEntries K s.prod) :
    ∃ r, f.call matrix (fun n => n) (f.inputs.map some) .none none = .ok r ∧ r.inputs.skel = f.inputs.skel ∧
      r.outputs.skel = f.outputs.skel ∧ (∀ q b, get? f.inputs.coordinates q = some b → get? r.inputs.coordinates q = some b) ∧
      ∀ q v, get? f.outputs.coordinates q = some v → ∃ b, get? r.outputs.coordinates q = some b ∧ b.WF ∧
        b.shape = v.shape.filter (fun p => p.1 ∉ keys S) ++ S ∧ ∀ e, SA.InRange S e → b.at' e = v.atB e := by
  show ∃ r, f.regrid matrix (fun n => n) (f.inputs.map some) .none none = .ok r ∧ _
  have hcoord : (f.inputs.map some).coordinates = f.inputs.coordinates.map (fun p => (p.1, some p.2)) := by
    cases hfi : f.inputs with
    | leaf a => rfl
    | node cls cs =>
      rw [hfi] at hi
      exact Comp.cartesianNd_mapL some hi.1 hi.2
  have hOw := wf_coordinates f.inputs
  have hget : ∀ q, get? (f.inputs.map some).coordinates q = (get? f.inputs.coordinates q).map some := by
    intro q
    rw [hcoord]
    exact SA.get?_map_pair _ (fun _ v => some v) q
  have hss : ∀ u ∈ (values f.inputs.coordinates).map SA.shape, Dict.WF u := by
    intro u hu
    obtain ⟨a, ha, rfl⟩ := List.mem_map.1 hu
    obtain ⟨p, hp, rfl⟩ := List.mem_map.1 ha
    exact SA.wf_shape (hw p.1 p.2 (get?_of_mem hOw hp)).1
  have hSw := (broadcastShapes_joinOf hss hS).1
  have hvals : (values (f.inputs.map some).coordinates).filterMap id = values f.inputs.coordinates := by
    rw [hcoord]
    simp [values, List.filterMap_map, Function.comp_def]
  have hsel : f.inputs.coordinates.map (fun p => (p.2, p.2)) = selected (keys S) f.inputs.coordinates (f.inputs.map some).coordinates := by
    unfold selected
    rw [hcoord, List.filterMap_map, ← List.filterMap_eq_map]
    apply List.filterMap_congr
    intro p hp
    have hg := get?_of_mem hOw hp
    obtain ⟨h1, h2⟩ := hw p.1 p.2 hg
    have hex : ∃ ax ∈ keys S, ax ∈ p.2.axes := by
      obtain ⟨ax, l, hl⟩ := List.exists_cons_of_ne_nil h2
      refine ⟨ax, ?_, by simp [hl]⟩
      rw [(C01_broadcast_shapes_ok _ hss S hS).2.1 ax]
      exact ⟨p.2.shape, List.mem_map.2 ⟨p.2, List.mem_map_of_mem hp, rfl⟩, by rw [SA.keys_shape h1]; simp [hl]⟩
    simp only [Function.comp, Option.bind_some, if_pos hex, hg, Option.map_some]
  have hPw : ∀ p ∈ f.inputs.coordinates.map (fun p => (p.2, p.2)), p.1.WF ∧ p.2.WF := by
    intro p hp
    obtain ⟨q, hq, rfl⟩ := List.mem_map.1 hp
    exact ⟨(hw q.1 q.2 (get?_of_mem hOw hq)).1, (hw q.1 q.2 (get?_of_mem hOw hq)).1⟩
  have hSI : broadcastShapes ((f.inputs.coordinates.map (fun p => (p.2, p.2))).map (fun p => p.2.shape)) = .ok S := by
    rw [List.map_map, ← hS]
    simp [values, Function.comp_def]
  have hnil : S.filter (fun p => p.1 ∉ keys S) = [] := by
    rw [List.filter_eq_nil_iff]
    intro p hp
    have : p.1 ∈ keys S := List.mem_map_of_mem hp
    simp [this]
  have hall : SA.cellShape (fun n => n) (keys S) S = S := by
    unfold SA.cellShape
    have hf : S.filter (fun p => p.1 ∈ keys S) = S := List.filter_eq_self.2 (fun p hp => decide_eq_true (List.mem_map_of_mem hp))
    rw [hf]
    simp
  have hT : ∀ v : SA K, v.WF → broadcastShapes [v.shape.filter (fun p => p.1 ∉ keys S), S.filter (fun p => p.1 ∉ keys S)] =
      .ok (v.shape.filter (fun p => p.1 ∉ keys S)) := by
    intro v hv
    rw [hnil]
    exact bs_nil (wf_filter (SA.wf_shape hv) _)
  obtain ⟨r, r1, _, _, r2, r3, r4, r5⟩ := C97_regrid_partial matrix (fun n => n) f (f.inputs.map some) .none (keys S)
    (by
      intro x hx
      cases hfi : f.inputs with
      | leaf a => rw [hfi] at hx; injection hx with hx; rw [← hx]; simp
      | node cls cs => rw [hfi] at hx; injection hx)
    ⟨S, by rw [hvals]; exact hS, rfl⟩ (by cases f.inputs <;> rfl)
    (by
      intro x
      rw [hcoord]
      simp [keys])
    (by
      intro q hq
      rw [hget] at hq
      cases hg : get? f.inputs.coordinates q with
      | none => rw [hg] at hq; simp at hq
      | some a => rw [hg] at hq; simp at hq)
    _ hsel (by simpa using hne) hPw S S hSI (by rw [List.map_map] at hSI ⊢; exact hSI) (List.filter_eq_self.2 (fun _ h => decide_eq_true h)).symm (by simp [keys])
    (fun _ h _ => h) hi ho
    (fun q v hq => ⟨(hv q v hq).1, ⟨_, hT v (hv q v hq).1⟩, fun ax n m _ => (hv q v hq).2 ax n m, fun ax _ h => h⟩)
  refine ⟨r, r1, r2, r3, ?_, ?_⟩
  · intro q b hq
    obtain ⟨x, h1, h2⟩ := r4 q b hq
    rw [hget, hq] at h1
    injection h1 with h1
    subst h1
    exact h2
  · intro q v hq
    obtain ⟨b, b1, b2, b3, b4⟩ := r5 q v _ hq (hT v (hv q v hq).1)
    rw [hall] at b3 b4
    refine ⟨b, b1, b2, b3, fun e he => ?_⟩
    obtain ⟨mI, mO, h1, h2, h3⟩ := b4 e
    have hval : S.map (·.2) = values S := rfl
    have hlen : (keys S).length = (values S).length := by simp [keys, values]
    have hvk : (keys S).map (fun ax => (get? S ax).getD 0) = values S := (SA.values_eq_map hSw).symm
    have hunit' : matrix mI mO = unitEntries K (values S).prod := by
      refine hunit mI mO (values S) ?_ ?_ ?_
      · rintro rfl
        have := h1.length_eq
        simp only [List.length_map, List.length_nil, List.length_eq_zero_iff] at this
        exact hne this
      · intro m hm
        have hgen : ∀ (l : List (SA α × SA α)) (ms : List (ND α)), List.Forall₂ (fun p m => SA.IsImage (keys S) S p.2.atB e m) l ms →
            ∀ m ∈ ms, m.shape = values S := by
          intro l ms h
          induction h with
          | nil => simp
          | cons h _ ih =>
            intro m hm
            rcases List.mem_cons.1 hm with rfl | hm
            · rw [h.shape, hvk]
            · exact ih m hm
        exact hgen _ _ h1 m hm
      · have hgen : ∀ (l : List (SA α)) (ms ms' : List (ND α)),
            List.Forall₂ (fun p m => SA.IsImage (keys S) S p.2.atB e m) (l.map (fun a => (a, a))) ms →
            List.Forall₂ (fun p m => SA.IsImage (keys S) S p.1.atB e m) (l.map (fun a => (a, a))) ms' →
            List.Forall₂ (fun m m' : ND α => m'.shape = m.shape ∧ ∀ ks, ks.length = m.shape.length → m'.get ks = m.get ks) ms ms' := by
          intro l
          induction l with
          | nil => intro ms ms' h h'; cases h; cases h'; exact .nil
          | cons a l ih =>
            intro ms ms' h h'
            cases h with
            | cons g g' =>
              cases h' with
              | cons k k' =>
                refine .cons ⟨by rw [k.shape, g.shape], fun ks hks => ?_⟩ (ih _ _ g' k')
                rw [g.shape, List.length_map] at hks
                rw [k.elem ks hks, g.elem ks hks]
        have := hgen (values f.inputs.coordinates) mI mO
        simp only [values, List.map_map, Function.comp_def] at this
        exact this h1 h2
    have hin : ND.InRange (values S) ((keys S).map e) := (SA.inRange_iff_nd hSw).1 he
    rw [h3, hunit', hval, applyEntries_unit _ _ _ (ND.ravel_lt hin), ND.unravel_ravel hin]
    apply SA.atB_congr
    intro ax _
    unfold SA.putNamed
    by_cases hax : ax ∈ keys S
    · rw [if_pos hax]
      exact getD_map_idxOf e hax
    · rw [if_neg hax]

end GridFunction

namespace SA
variable {K : Type}

/-- **C97** (conservation). If, at an index along the other axes, the weights of each element of the input grid add up to one, the
sum over the output grid is the sum over the input grid. -/
theorem C97_conserved [CommSemiring K] (w : SA (Entries K)) (sI sO : Shape) (x : SA K) (hw : w.WF) (hI : Dict.WF sI) (hO : Dict.WF sO)
    (hx : x.WF) (Sx : Shape)
    (hSx : broadcastShapes [x.shape.filter (fun p => p.1 ∉ keys sI ∨ p.1 ∈ w.axes), w.shape] = .ok Sx)
    (hin : ∀ ax ∈ w.axes, ∀ n, get? sI ax = some n → n = 1 ∨ get? w.shape ax = some n)
    (hout : ∀ ax ∈ w.axes, ∀ n, get? sO ax = some n → n = 1 ∨ get? w.shape ax = some n)
    (hvx : ∀ ax n m, ax ∉ w.axes → get? sI ax = some n → get? x.shape ax = some m → m = n ∨ m = 1)
    (hnx : ∀ ax ∈ x.axes, ax ∈ keys sO → ax ∈ keys sI ∨ ax ∈ w.axes)
    (AI AO : List String) (hAI : AI = (keys sI).filter (· ∉ w.axes)) (hAO : AO = (keys sO).filter (· ∉ w.axes))
    (hlen : AI.length = AO.length) (P Q : Nat) (nI nO : List Nat)
    (hnI : nI = (sI.filter (fun p => p.1 ∉ w.axes)).map (·.2)) (hnO : nO = (sO.filter (fun p => p.1 ∉ w.axes)).map (·.2))
    (hQ : Q = nO.prod) :
    ∃ r, regridFromWeights w sI sO x = .ok r ∧ ∀ e, (∀ t ∈ w.atB e, t.1 < P ∧ t.2.1 < Q) →
      (∀ p, p < P → (((w.atB e).filter (fun t => t.1 = p)).map (fun t => t.2.2)).sum = 1) →
      ((List.range Q).map (fun q => r.at' (putNamed e AO (ND.unravel nO q)))).sum =
        ((List.range P).map (fun p => x.atB (putNamed e AI (ND.unravel nI p)))).sum := by
  obtain ⟨r, r1, _, _, r4⟩ := C94_regrid_from_weights w sI sO x hw hI hO hx Sx hSx hin hout hvx hnx (by rw [← hAI, ← hAO]; exact hlen)
  refine ⟨r, r1, fun e he hsum => ?_⟩
  rw [← hAI, ← hAO, ← hnI, ← hnO] at r4
  have hnAO : AO.Nodup := by rw [hAO]; exact hO.filter _
  have hlO : ∀ p, (ND.unravel nO p).length = AO.length := by
    intro p
    rw [ND.length_unravel, hnO, hAO, ← keys_filter_key sO (fun x => x ∉ w.axes)]
    simp [keys]
  have hcol : ∀ p, p < P → applyEntries ((w.atB e).map (fun t => (t.2.1, t.1, t.2.2))) (fun _ => (1 : K)) p = 1 := by
    intro p hp
    refine Eq.trans ?_ (hsum p hp)
    unfold applyEntries
    rw [List.filter_map, List.map_map]
    have hm : ∀ t : Nat × Nat × K, ((fun t : Nat × Nat × K => t.2.2 * (1 : K)) ∘ fun t : Nat × Nat × K => (t.2.1, t.1, t.2.2)) t = t.2.2 :=
      fun t => mul_one _
    rw [List.map_congr_left (fun t _ => hm t)]
    rfl
  have hadj := adjoint_entries (w.atB e) P Q he (fun p => x.atB (putNamed e AI (ND.unravel nI p))) (fun _ => 1)
  have hdO : ∀ ax ∈ AO, ax ∉ w.axes := by intro ax h; rw [hAO] at h; simpa using (List.mem_filter.1 h).2
  have hl : ∀ q, q < Q → r.at' (putNamed e AO (ND.unravel nO q)) =
      applyEntries (w.atB e) (fun p => x.atB (putNamed e AI (ND.unravel nI p))) q := by
    intro q hq
    have hwe : w.atB (putNamed e AO (ND.unravel nO q)) = w.atB e := by
      apply atB_congr
      intro ax hax
      unfold putNamed
      rw [if_neg]
      exact fun h => hdO ax h hax
    rw [r4, hwe, map_putNamed_self hnAO e (hlO q), ND.ravel_unravel (by rw [← hQ]; exact hq)]
    congr 1
    funext p
    apply atB_congr
    intro ax hax
    unfold putNamed
    by_cases hA : ax ∈ AI
    · simp [hA]
    · have hB : ax ∉ AO := by
        intro hB
        have h' := hB
        rw [hAO] at h'
        rcases hnx ax hax (List.mem_filter.1 h').1 with hh | hh
        · exact hA (by rw [hAI]; simp [hh, hdO ax hB])
        · exact hdO ax hB hh
      simp [hA, hB]
  have hL : (List.range Q).map (fun q => r.at' (putNamed e AO (ND.unravel nO q))) =
      (List.range Q).map (fun q => 1 * applyEntries (w.atB e) (fun p => x.atB (putNamed e AI (ND.unravel nI p))) q) := by
    apply List.map_congr_left
    intro q hq
    rw [hl q (List.mem_range.1 hq), one_mul]
  have hR : (List.range P).map (fun p => x.atB (putNamed e AI (ND.unravel nI p))) =
      (List.range P).map (fun p => x.atB (putNamed e AI (ND.unravel nI p)) *
        applyEntries ((w.atB e).map (fun t => (t.2.1, t.1, t.2.2))) (fun _ => (1 : K)) p) := by
    apply List.map_congr_left
    intro p hp
    rw [hcol p (List.mem_range.1 hp), mul_one]
  rw [hL, hR]
  exact hadj

end SA

namespace GridFunction

open NA.Comp (coordinates Named)
open NA.SA (exMatrix exGridOut exGridValues wf_exGridOut wf_exGridValues)

/-- A function of `x` along `wave`, with two channels. -/
def exSpectrum : GridFunction Int Int :=
  ⟨.leaf ⟨["wave"], ⟨[3], fun i => i.getD 0 0⟩⟩, .leaf ⟨["wave", "c"], ⟨[3, 2], fun i => i.getD 0 0 + 7 * i.getD 1 0 + 1⟩⟩⟩

/-- A new grid with two points. -/
def exFiner : SA Int := ⟨["wave"], ⟨[2], fun i => 5 * i.getD 0 0 + 1⟩⟩

/-- A function of two coordinates, each of which varies along its own axis. -/
def exPlane : GridFunction Int Int :=
  ⟨.node "Cartesian2d" [("x", .leaf ⟨["x"], ⟨[2], fun i => i.getD 0 0⟩⟩), ("y", .leaf ⟨["y"], ⟨[2], fun i => i.getD 0 0⟩⟩)],
    .node "Cartesian2d" [("x", .leaf ⟨["x", "y"], ⟨[2, 2], fun i => i.getD 0 0 + 10 * i.getD 1 0⟩⟩), ("y", .leaf ⟨["y"], ⟨[2], fun i => i.getD 0 0⟩⟩)]⟩

/-- New coordinates along `x`, and a number (or `None`) for the other coordinate. -/
def exCut (y : Option Int) : Comp (Option (SA Int)) :=
  .node "Cartesian2d" [("x", .leaf (some ⟨["x"], ⟨[2], fun i => i.getD 0 0⟩⟩)), ("y", .leaf (y.map SA.scalar))]

/-- Weights of the identity. -/
def exUnit (mI _ : List (ND Int)) : Entries Int := unitEntries Int ((mI.map (fun m => m.shape.prod)).headD 1)

theorem exUnit_unit : ∀ (mI mO : List (ND Int)) (s : List Nat), mI ≠ [] → (∀ m ∈ mI, m.shape = s) →
    List.Forall₂ (fun m m' : ND Int => m'.shape = m.shape ∧ ∀ ks, ks.length = m.shape.length → m'.get ks = m.get ks) mI mO →
    exUnit mI mO = unitEntries Int s.prod := by
  intro mI mO s hne hs _
  cases mI with
  | nil => exact absurd rfl hne
  | cons m l =>
    simp only [exUnit, List.map_cons, List.headD_cons]
    rw [hs m (by simp)]

/-- The coordinates of a vector with two components. -/
theorem coordinates_two {γ : Type} (cls : String) (a b : γ) :
    coordinates (.node cls [("x", .leaf a), ("y", .leaf b)]) = [("x", a), ("y", b)] := rfl

theorem get?_two {γ : Type} {a b c : γ} {q : String} (h : get? [("x", a), ("y", b)] q = some c) : (q = "x" ∧ c = a) ∨ (q = "y" ∧ c = b) := by
  rw [get?_cons] at h
  by_cases h1 : "x" = q
  · rw [if_pos h1] at h
    injection h with h
    exact .inl ⟨h1.symm, h.symm⟩
  · rw [if_neg h1, get?_cons] at h
    by_cases h2 : "y" = q
    · rw [if_pos h2] at h
      injection h with h
      exact .inr ⟨h2.symm, h.symm⟩
    · rw [if_neg h2, get?_nil] at h
      exact absurd h (by simp)

theorem get?_dummy {γ : Type} {a c : γ} {q : String} (h : get? [("_dummy", a)] q = some c) : q = "_dummy" ∧ c = a := by
  rw [get?_cons] at h
  by_cases h1 : "_dummy" = q
  · rw [if_pos h1] at h
    injection h with h
    exact ⟨h1.symm, h.symm⟩
  · rw [if_neg h1, get?_nil] at h
    exact absurd h (by simp)

theorem named_exPlane : exPlane.inputs.Named ∧ exPlane.outputs.Named := by
  unfold exPlane
  refine ⟨⟨by decide, ?_⟩, ⟨by decide, ?_⟩⟩ <;> simp [Comp.NamedL, Comp.Named]

/-- The function of one scalar is resampled along `wave` by name in a tuple. -/
example : ∃ r, exSpectrum.regrid exMatrix (fun n => n) (.leaf (some exFiner)) (.many ["wave"]) none = .ok r ∧ r.inputs.Named ∧ r.outputs.Named :=
  Exists.imp (fun _ h => ⟨h.1, h.2.1, h.2.2.1⟩) <| C97_regrid_partial exMatrix (fun n => n) exSpectrum (.leaf (some exFiner)) (.many ["wave"]) ["wave"]
    (by intro x hx; injection hx with hx; rw [← hx]; simp) rfl rfl (fun _ => Iff.rfl)
    (by intro q hq; exact absurd (get?_dummy hq).2 (by simp)) [(exFiner, ⟨["wave"], ⟨[3], fun i => i.getD 0 0⟩⟩)] rfl (by simp)
    (by intro p hp; rw [List.mem_singleton] at hp; subst hp; exact ⟨⟨rfl, by decide⟩, ⟨rfl, by decide⟩⟩)
    [("wave", 3)] [("wave", 2)] rfl rfl (by decide) rfl (by decide) trivial trivial
    (by
      intro q v hq
      obtain ⟨_, rfl⟩ := get?_dummy hq
      refine ⟨⟨rfl, by decide⟩, ⟨[("c", 2)], rfl⟩, ?_, by decide⟩
      intro ax n m hax hn hm
      have : ax = "wave" := by simpa using hax
      subst this
      have h1 : some 3 = some n := hn
      have h2 : some 3 = some m := hm
      simp at h1 h2
      omega)

/-- The result of the example. -/
example : (exSpectrum.regrid exMatrix (fun n => n) (.leaf (some exFiner)) (.many ["wave"]) none).map (fun r => match r.inputs, r.outputs with
    | .leaf i, .leaf o => (i.at' (fun _ => 1), o.shape, o.at' (fun ax => if ax = "wave" then 1 else 0))
    | _, _ => (0, [], 0)) = .ok (6, [("c", 2), ("wave", 2)], 6 * 3 + 3 * 1) := by decide +kernel

/-- **C97** (the name of an axis, refuted). The documentation allows a string for `axis`; with a name of several characters the
call which succeeds for a tuple of this name is a `KeyError`. -/
theorem C97_axis_string_refuted :
    exSpectrum.regrid exMatrix (fun n => n) (.leaf (some exFiner)) (.one "wave") none = .error .keyError ∧
      ∃ r, exSpectrum.regrid exMatrix (fun n => n) (.leaf (some exFiner)) (.many ["wave"]) none = .ok r := by
  refine ⟨?_, ?_⟩
  · exact (C97_axis_missing exMatrix (fun n => n) ⟨["wave"], ⟨[3], fun i => i.getD 0 0⟩⟩ exFiner _ (.one "wave")
      (by intro s _; show ∀ ax ∈ ["w", "a", "v", "e"], ax ∉ ["wave"]; decide) ⟨rfl, by decide⟩).1 none
  · cases h : exSpectrum.regrid exMatrix (fun n => n) (.leaf (some exFiner)) (.many ["wave"]) none with
    | ok r => exact ⟨r, rfl⟩
    | error er =>
      have h1 : (exSpectrum.regrid exMatrix (fun n => n) (.leaf (some exFiner)) (.many ["wave"]) none).isOk = true := by decide +kernel
      rw [h] at h1
      exact absurd h1 (by simp [Except.isOk, Except.toBool])

example : ∃ er, exSpectrum.weights exMatrix (fun n => n) (.leaf (some exGridOut)) (.many ["wave"]) = .error er ∧
    exSpectrum.regrid exMatrix (fun n => n) (.leaf (some exGridOut)) (.many ["wave"]) none = .error er :=
  C97_renamed_axis exMatrix (fun n => n) ⟨["wave"], ⟨[3], fun i => i.getD 0 0⟩⟩ exGridOut _ (.many ["wave"]) ⟨rfl, by decide⟩
    wf_exGridOut trivial (by decide)

/-- The second coordinate is kept. -/
example : ∃ r, exPlane.regrid exUnit (fun n => n) (exCut none) (.one "x") none = .ok r ∧ r.inputs.Named ∧ r.outputs.Named :=
  Exists.imp (fun _ h => ⟨h.1, h.2.1, h.2.2.1⟩) <| C97_regrid_partial exUnit (fun n => n) exPlane (exCut none) (.one "x")
    ["x"] (by intro x hx; injection hx) ⟨rfl, rfl⟩ rfl (fun _ => Iff.rfl)
    (by
      intro q hq b hb
      rcases get?_two hq with ⟨rfl, h⟩ | ⟨rfl, _⟩
      · exact absurd h (by simp)
      · rcases get?_two hb with ⟨h, _⟩ | ⟨_, rfl⟩
        · exact absurd h (by decide)
        · decide)
    [(⟨["x"], ⟨[2], fun i => i.getD 0 0⟩⟩, ⟨["x"], ⟨[2], fun i => i.getD 0 0⟩⟩)] rfl (by simp)
    (by intro p hp; rw [List.mem_singleton] at hp; subst hp; exact ⟨⟨rfl, by decide⟩, ⟨rfl, by decide⟩⟩)
    [("x", 2)] [("x", 2)] rfl rfl (by decide) rfl (by decide) named_exPlane.1 named_exPlane.2
    (by
      intro q v hq
      have key : ∀ v : SA Int, v.WF → (∃ T, broadcastShapes [v.shape.filter (fun p => p.1 ∉ ["x"]), []] = .ok T) →
          (get? v.shape "x" = some 2 ∨ get? v.shape "x" = none) → v.WF ∧
          (∃ T, broadcastShapes [v.shape.filter (fun p => p.1 ∉ ["x"]), [("x", 2)].filter (fun p => p.1 ∉ ["x"])] = .ok T) ∧
          (∀ ax n m, ax ∈ ["x"] → get? [("x", 2)] ax = some n → get? v.shape ax = some m → m = n ∨ m = 1) ∧
          (∀ ax ∈ v.axes, ax ∈ keys [("x", 2)] → ax ∈ ["x"]) := by
        intro v h1 h2 h3
        refine ⟨h1, h2, ?_, fun ax _ h => h⟩
        intro ax n m hax hn hm
        have : ax = "x" := by simpa using hax
        subst this
        have hn' : some 2 = some n := hn
        simp only [Option.some.injEq] at hn'
        rcases h3 with h3 | h3
        · rw [h3] at hm
          simp only [Option.some.injEq] at hm
          omega
        · rw [h3] at hm
          simp at hm
      rcases get?_two hq with ⟨_, rfl⟩ | ⟨_, rfl⟩
      · exact key _ ⟨rfl, by decide⟩ ⟨[("y", 2)], rfl⟩ (.inl rfl)
      · exact key _ ⟨rfl, by decide⟩ ⟨[("y", 2)], rfl⟩ (.inr rfl))

/-- **C97** (a coordinate which does not vary, refuted). Resampling to new inputs with a constant coordinate returns a function
whose inputs contain this constant, but whose outputs were not resampled to it: at `y = 1` the function has the value 10, but
the value in the result, whose only coordinate `y` is 1, is 0. -/
theorem C97_constant_mislabelled :
    (exPlane.regrid exUnit (fun n => n) (exCut (some 1)) .none none).map (fun r =>
      ((get? r.inputs.coordinates "y").map (fun a => (a.shape, a.at' (fun _ => 0))),
        (get? r.outputs.coordinates "x").map (fun a => a.at' (fun _ => 0)))) = .ok (some ([], 1), some 0) ∧
    (get? exPlane.inputs.coordinates "y").map (fun a => a.at' (fun _ => 1)) = some 1 ∧
    (get? exPlane.outputs.coordinates "x").map (fun a => a.at' (fun ax => if ax = "y" then 1 else 0)) = some 10 := by
  refine ⟨by decide +kernel, by decide +kernel, by decide +kernel⟩

example (y z : Int) (r r' : GridFunction Int Int) (h : exPlane.regrid exUnit (fun n => n) (exCut (some y)) (.many ["x"]) none = .ok r)
    (h' : exPlane.regrid exUnit (fun n => n) (exCut (some z)) (.many ["x"]) none = .ok r') : r.outputs = r'.outputs :=
  C97_constant_components exUnit (fun n => n) exPlane r r' "Cartesian2d" _ _ ["x"]
    (.cons ⟨rfl, .inl rfl⟩ (.cons ⟨rfl, .inr ⟨by intro a ha; injection ha with ha; subst ha; simp [SA.scalar],
      by intro a ha; injection ha with ha; subst ha; simp [SA.scalar]⟩⟩ .nil)) h h'

/-- Both calls of the example succeed. -/
example : (exPlane.regrid exUnit (fun n => n) (exCut (some 4)) (.many ["x"]) none).isOk = true ∧
    (exPlane.regrid exUnit (fun n => n) (exCut (some 5)) (.many ["x"]) none).isOk = true := by decide +kernel

example : ∃ r, exPlane.call exUnit (fun n => n) (exPlane.inputs.map some) .none none = .ok r ∧ r.inputs.skel = exPlane.inputs.skel ∧
      r.outputs.skel = exPlane.outputs.skel ∧ (∀ q b, get? exPlane.inputs.coordinates q = some b → get? r.inputs.coordinates q = some b) ∧
      ∀ q v, get? exPlane.outputs.coordinates q = some v → ∃ b, get? r.outputs.coordinates q = some b ∧ b.WF ∧
        b.shape = v.shape.filter (fun p => p.1 ∉ ["x", "y"]) ++ [("x", 2), ("y", 2)] ∧
        ∀ e, SA.InRange [("x", 2), ("y", 2)] e → b.at' e = v.atB e :=
  C97_same_inputs_partial exUnit exPlane named_exPlane.1 named_exPlane.2
    (by
      intro q a hq
      rcases get?_two hq with ⟨_, rfl⟩ | ⟨_, rfl⟩ <;> exact ⟨⟨rfl, by decide⟩, by simp⟩)
    (by rw [show exPlane.inputs.coordinates = _ from coordinates_two _ _ _]; simp) [("x", 2), ("y", 2)] rfl
    (by
      intro q v hq
      have key : ∀ v : SA Int, v.WF → (∀ p ∈ v.shape, p.2 = 2) → v.WF ∧
          (∀ ax n m, get? [("x", 2), ("y", 2)] ax = some n → get? v.shape ax = some m → m = n ∨ m = 1) := by
        intro v h1 h2
        refine ⟨h1, fun ax n m hn hm => .inl ?_⟩
        have := h2 _ (mem_of_get? hm)
        rcases get?_two hn with ⟨_, rfl⟩ | ⟨_, rfl⟩ <;> exact this
      rcases get?_two hq with ⟨_, rfl⟩ | ⟨_, rfl⟩ <;> exact key _ ⟨rfl, by decide⟩ (by decide))
    exUnit_unit

/-- A component which varies along the axis cannot be kept. -/
example : (∀ w, exPlane.regrid exUnit (fun n => n) (exCut none) (.many ["x", "y"]) w = .error .valueError) ∧
    exPlane.weights exUnit (fun n => n) (exCut none) (.many ["x", "y"]) = .error .valueError :=
  C97_separable_error exUnit (fun n => n) exPlane "Cartesian2d" _ (.many ["x", "y"]) ["x", "y"] rfl (fun _ => Iff.rfl)
    ⟨"y", ⟨["y"], ⟨[2], fun i => i.getD 0 0⟩⟩, rfl, rfl, "y", by decide, by decide⟩

/-- A scalar instead of a vector. -/
example : (∀ w, exPlane.regrid exUnit (fun n => n) (.leaf (some exFiner)) .none w = .error .valueError) ∧
    exPlane.weights exUnit (fun n => n) (.leaf (some exFiner)) .none = .error .valueError :=
  C97_names_error exUnit (fun n => n) exPlane (.leaf (some exFiner)) .none (by intro x hx; injection hx with hx; rw [← hx]; simp)
    (by intro q a hq; obtain ⟨_, h⟩ := get?_dummy hq; injection h with h; subst h; exact ⟨rfl, by decide⟩)
    ⟨"x", by rw [show exPlane.inputs.coordinates = _ from coordinates_two _ _ _]; simp [coordinates, keys]⟩

example (w) (h : exSpectrum.weights exMatrix (fun n => n) (.leaf (some exFiner)) .none = .ok w) :
    exSpectrum.regrid exMatrix (fun n => n - 1) (.leaf (some exFiner)) .none (some w) =
      exSpectrum.regrid exMatrix (fun n => n) (.leaf (some exFiner)) .none none :=
  C97_precomputed exMatrix exMatrix (fun n => n) (fun n => n - 1) exSpectrum exSpectrum _ .none w rfl h

/-- There are weights in the example. -/
example : (exSpectrum.weights exMatrix (fun n => n) (.leaf (some exFiner)) .none).isOk = true := by decide +kernel

/-- Weights which spread each of three elements over two. -/
def exHalves : SA (Entries Int) := ⟨["t"], ⟨[2], fun i => [(0, 0, 1), (1, 0, i.getD 0 0), (1, 1, 1 - i.getD 0 0), (2, 1, 1)]⟩⟩

example : ∃ r, SA.regridFromWeights exHalves [("x", 3)] [("u", 2)] exGridValues = .ok r ∧ ∀ e, (∀ t ∈ exHalves.atB e, t.1 < 3 ∧ t.2.1 < 2) →
      (∀ p, p < 3 → (((exHalves.atB e).filter (fun t => t.1 = p)).map (fun t => t.2.2)).sum = 1) →
      ((List.range 2).map (fun q => r.at' (SA.putNamed e ["u"] (ND.unravel [2] q)))).sum =
        ((List.range 3).map (fun p => exGridValues.atB (SA.putNamed e ["x"] (ND.unravel [3] p)))).sum :=
  SA.C97_conserved exHalves [("x", 3)] [("u", 2)] exGridValues ⟨rfl, by decide⟩ (by decide) (by decide) wf_exGridValues
    [("c", 2), ("t", 2)] rfl
    (by
      intro ax hax n hn
      have : ax = "t" := by simpa [exHalves] using hax
      subst this
      exact absurd (mem_keys_of_get? hn) (by decide))
    (by
      intro ax hax n hn
      have : ax = "t" := by simpa [exHalves] using hax
      subst this
      exact absurd (mem_keys_of_get? hn) (by decide))
    (by
      intro ax n m hax hn hm
      have h2 := mem_keys_of_get? hn
      have h3 : ax = "x" := by simpa [keys] using h2
      subst h3
      have h1 : some 3 = some n := hn
      have h2 : some 3 = some m := hm
      simp at h1 h2
      omega)
    (by decide) ["x"] ["u"] rfl rfl rfl 3 2 [3] [2] rfl rfl rfl

/-- The weights of the example are in range and add up to one. -/
example : ∀ e, (∀ t ∈ exHalves.atB e, t.1 < 3 ∧ t.2.1 < 2) ∧
    ∀ p, p < 3 → (((exHalves.atB e).filter (fun t => t.1 = p)).map (fun t => t.2.2)).sum = 1 := by
  intro e
  obtain ⟨k, hk⟩ : ∃ k : Int, exHalves.atB e = [(0, 0, 1), (1, 0, k), (1, 1, 1 - k), (2, 1, 1)] := ⟨_, rfl⟩
  rw [hk]
  refine ⟨by simp, fun p hp => ?_⟩
  have : p = 0 ∨ p = 1 ∨ p = 2 := by omega
  rcases this with rfl | rfl | rfl <;> simp

end GridFunction
end NA
