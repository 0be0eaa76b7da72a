import Verif.Scalar.HistogramLemmas
import Verif.Props.Spaces
import Verif.Props.Reductions
import Verif.Props.VectorReduce

/-!
# C58: histograms
-/

namespace NA
open Dict
open SA (FitsIn InRange)
open Comp (SlabOf)

variable {K : Type} [Field K] [LinearOrder K]

/-- One dimension of a histogram: the array of the edges, its new axis, and the number of bins. -/
structure Dim (K : Type) where
  edges : SA K
  axis : String
  num : Nat

namespace Dim

/-- the `k`-th edge -/
def edge (D : Dim K) (e : String → Nat) (k : Nat) : K := D.edges.atB (Function.update e D.axis k)

/-- `x` is in the bin of index `e` along the axis: the bins contain their lower edge but not the upper one, except for the last
bin which contains both. -/
def InBin (D : Dim K) (e : String → Nat) (x : K) : Prop :=
  D.edge e (e D.axis) ≤ x ∧ (x < D.edge e (e D.axis + 1) ∨ (e D.axis + 1 = D.num ∧ x = D.edge e D.num))

/-- `x` is between the first and the last edge. -/
def Inside (D : Dim K) (e : String → Nat) (x : K) : Prop := D.edge e 0 ≤ x ∧ x ≤ D.edge e D.num

instance (D : Dim K) (e : String → Nat) (x : K) : Decidable (D.InBin e x) := by unfold InBin; infer_instance
instance (D : Dim K) (e : String → Nat) (x : K) : Decidable (D.Inside e x) := by unfold Inside; infer_instance

end Dim

/-- The index is in range along the axes which are not summed over. -/
def OutsideRange (S : Shape) (A : List String) (e : String → Nat) : Prop := ∀ x n, x ∉ A → get? S x = some n → e x < n

/-- The dimensions of a histogram of samples of shape `S` over the axes `A`: the edges vary along one new axis each, besides
axes which are not summed over, and are in order. -/
structure GoodDims (S : Shape) (A : List String) (dims : List (Dim K)) : Prop where
  nodup : (dims.map Dim.axis).Nodup
  new : ∀ D ∈ dims, D.axis ∈ keys S → D.axis ∈ A
  wf : ∀ D ∈ dims, D.edges.WF
  size : ∀ D ∈ dims, get? D.edges.shape D.axis = some (D.num + 1)
  other : ∀ D ∈ dims, ∀ x n, x ≠ D.axis → get? D.edges.shape x = some n → x ∉ A ∧ ∃ k, get? S x = some k ∧ (n = k ∨ n = 1)
  order : ∀ D ∈ dims, ∀ e, OutsideRange S A e → ∀ k < D.num, D.edge e k ≤ D.edge e (k + 1)

/-- The shape of a histogram. -/
def HistShape (S : Shape) (A : List String) (dims : List (Dim K)) (T : Shape) : Prop :=
  ∀ x n, get? T x = some n ↔ (∃ D ∈ dims, D.axis = x ∧ D.num = n) ∨
    (x ∉ dims.map Dim.axis ∧ x ∉ A ∧ get? S x = some n)

/-- the sample is in the bin -/
def Sampled (dims : List (Dim K)) (e : String → Nat) (xs : List K) : Prop := ∀ q ∈ dims.zip xs, q.1.InBin e q.2

/-- the sample is in the range of the histogram -/
def Covered (dims : List (Dim K)) (e : String → Nat) (xs : List K) : Prop := ∀ q ∈ dims.zip xs, q.1.Inside e q.2

instance (dims : List (Dim K)) (e : String → Nat) (xs : List K) : Decidable (Sampled dims e xs) := by
  unfold Sampled; infer_instance
instance (dims : List (Dim K)) (e : String → Nat) (xs : List K) : Decidable (Covered dims e xs) := by
  unfold Covered; infer_instance

/-! ### Helpers -/

/-- the edges of one dimension as a list -/
def Dim.list (D : Dim K) (e : String → Nat) : List K := (List.range (D.num + 1)).map (D.edge e)

theorem Dim.length_list (D : Dim K) (e : String → Nat) : (D.list e).length = D.num + 1 := by simp [Dim.list]

theorem Dim.getElem_list (D : Dim K) (e : String → Nat) (k : Nat) (h : k < (D.list e).length) :
    (D.list e)[k] = D.edge e k := by simp [Dim.list]

variable {S : Shape} {A : List String} {dims : List (Dim K)}

theorem GoodDims.inOrder (h : GoodDims S A dims) {D : Dim K} (hD : D ∈ dims) {e : String → Nat} (he : OutsideRange S A e) :
    inOrder (D.list e) = true := by
  rw [inOrder_iff]
  intro i hi
  rw [D.getElem_list, D.getElem_list]
  rw [D.length_list] at hi
  exact h.order D hD e he i (by omega)

theorem outsideRange_iff {e : String → Nat} : OutsideRange S A e ↔ InRange (orthogonal S A) e := by
  constructor
  · intro h x n hn
    rw [get?_orthogonal] at hn
    split at hn
    · next hx => exact h x n hx hn
    · cases hn
  · intro h x n hx hn
    exact h x n (by rw [get?_orthogonal, if_pos hx, hn])

/-- The shape of the broadcast edges. -/
theorem GoodDims.broadcast (h : GoodDims S A dims) (hS : WF S) {D : Dim K} (hD : D ∈ dims) :
    ∃ b, (do D.edges.broadcastTo (← broadcastShapes [orthogonal S A, D.edges.shape])) = .ok b ∧ b.WF ∧
      (∀ x, get? b.shape x = if x = D.axis then some (D.num + 1) else get? (orthogonal S A) x) ∧
      ∀ e, b.at' e = D.edges.atB e := by
  have hO := wf_orthogonal hS A
  have hnew : D.axis ∉ keys (orthogonal S A) := fun hk =>
    (mem_orthogonal.1 hk).2 (h.new D hD (mem_orthogonal.1 hk).1)
  have hw : ∀ s ∈ [orthogonal S A, D.edges.shape], WF s := by
    intro s hs
    simp only [List.mem_cons, List.not_mem_nil, or_false] at hs
    rcases hs with rfl | rfl
    · exact hO
    · exact SA.wf_shape (h.wf D hD)
  have hget : ∀ x, get? ((D.axis, D.num + 1) :: orthogonal S A) x =
      if x = D.axis then some (D.num + 1) else get? (orthogonal S A) x := by
    intro x
    rw [get?_cons]
    by_cases hx : x = D.axis
    · subst hx; simp
    · rw [if_neg hx, if_neg (fun h => hx h.symm)]
  obtain ⟨T, t1, t2, t3⟩ := broadcast_exact hw (T := (D.axis, D.num + 1) :: orthogonal S A)
    (by
      intro s hs x m hm
      rw [hget]
      simp only [List.mem_cons, List.not_mem_nil, or_false] at hs
      rcases hs with rfl | rfl
      · rw [if_neg (fun hx : x = D.axis => hnew (hx ▸ mem_keys_of_get? hm))]
        exact ⟨m, hm, .inl rfl⟩
      · by_cases hx : x = D.axis
        · subst hx
          rw [h.size D hD] at hm
          exact ⟨D.num + 1, by simp, .inl (by injection hm with hm; exact hm.symm)⟩
        · rw [if_neg hx]
          obtain ⟨h1, k, h2, h3⟩ := h.other D hD x m hx hm
          exact ⟨k, by rw [get?_orthogonal, if_pos h1, h2], h3⟩)
    (by
      intro x n hn
      rw [hget] at hn
      by_cases hx : x = D.axis
      · rw [if_pos hx] at hn
        exact ⟨D.edges.shape, by simp, by rw [hx, h.size D hD, hn]⟩
      · rw [if_neg hx] at hn
        exact ⟨_, by simp, hn⟩)
  rcases SA.C10_broadcast_to D.edges (h.wf D hD) T t2 with ⟨_, b, b1, b2, b3, b4⟩ | ⟨hno, _⟩
  · refine ⟨b, ?_, b2, fun x => by rw [b3, t3, hget], b4⟩
    simp only [bind, Except.bind, t1, b1]
  · exact absurd (SA.fitsIn_of_broadcastShapes hw t1 (by simp)) hno

/-- the broadcast edges of a dimension -/
def EdgesB (S : Shape) (A : List String) (D : Dim K) (b : SA K) : Prop :=
  b.WF ∧ (∀ x, get? b.shape x = if x = D.axis then some (D.num + 1) else get? (orthogonal S A) x) ∧ ∀ e, b.at' e = D.edges.atB e

theorem edgesB_slice {D : Dim K} {b : SA K} (hb : EdgesB S A D b) (hS : WF S) (hnew : D.axis ∉ keys (orthogonal S A))
    {e : String → Nat} (he : OutsideRange S A e)
    (hoth : ∀ x ∈ D.edges.axes, x ≠ D.axis → x ∈ keys (orthogonal S A)) :
    ∃ r, b.getitem (itemAt (keys (orthogonal S A)) e) = .ok r ∧ r.axes = [D.axis] ∧ edgeList r = .ok (D.list e) := by
  obtain ⟨b1, b2, b3⟩ := hb
  have hO := wf_orthogonal hS A
  obtain ⟨r, r1, r2, r3, r4, r5⟩ := SA.getitem_itemAt b b1 hO (e := e) (by
    intro ax hax n hn
    rw [b2, if_neg (fun h : ax = D.axis => hnew (h ▸ hax))] at hn
    exact outsideRange_iff.1 he ax n hn)
  have hax : r.axes = [D.axis] := by
    have hmem : ∀ x, x ∈ r.axes ↔ x = D.axis := by
      intro x
      rw [← SA.keys_shape r2]
      constructor
      · intro hx
        obtain ⟨n, hn⟩ := exists_get?_of_mem hx
        rw [r4] at hn
        by_contra hne
        split at hn
        · cases hn
        · next hx =>
          rw [b2, if_neg hne] at hn
          exact hx (mem_keys_of_get? hn)
      · rintro rfl
        exact mem_keys_of_get? (v := D.num + 1) (by rw [r4, if_neg hnew, b2, if_pos rfl])
    have := List.perm_ext_iff_of_nodup r2.2 (List.nodup_singleton D.axis)
    exact List.perm_singleton.1 (this.2 fun x => by rw [hmem]; simp)
  refine ⟨r, r1, hax, ?_⟩
  rw [edgeList_ok r2 hax (n := D.num + 1) (by rw [r4, if_neg hnew, b2, if_pos rfl])]
  congr 1
  apply List.map_congr_left
  intro k _
  rw [r5, b3]
  unfold Dim.edge
  apply SA.atB_congr
  intro x hx
  by_cases hxa : x = D.axis
  · subst hxa; simp [hnew]
  · rw [if_pos (hoth x hx hxa), Function.update_of_ne hxa]

theorem zipWith_binNumber (h : GoodDims S A dims) {e : String → Nat} (he : OutsideRange S A e)
    (hr : ∀ D ∈ dims, e D.axis < D.num) {xs : List K} (hl : xs.length = dims.length) :
    List.zipWith binNumber (dims.map (Dim.list · e)) xs = (dims.map Dim.axis |>.map e).map (· + 1) ↔ Sampled dims e xs := by
  have hin : ∀ D ∈ dims, inOrder (D.list e) = true := fun D hD => h.inOrder hD he
  clear h
  unfold Sampled
  induction dims generalizing xs with
  | nil => simp
  | cons D dims ih =>
    cases xs with
    | nil => simp at hl
    | cons x xs =>
      simp only [List.map_cons, List.zipWith_cons_cons, List.cons.injEq, List.zip_cons_cons, List.mem_cons, forall_eq_or_imp]
      have hD := hr D (by simp)
      refine and_congr ?_ (ih (fun D hD => hr D (by simp [hD])) (by simpa using hl) (fun D hD => hin D (by simp [hD])))
      rw [binNumber_iff (hin D (by simp)) D.num (D.length_list e) x _ hD, D.getElem_list, D.getElem_list, D.getElem_list]
      rfl

theorem mapM_exists {δ ε : Type} {f : δ → R ε} {P : δ → ε → Prop} {l : List δ} (h : ∀ x ∈ l, ∃ y, f x = .ok y ∧ P x y) :
    ∃ r, l.mapM f = .ok r ∧ List.Forall₂ P l r := by
  induction l with
  | nil => exact ⟨[], rfl, .nil⟩
  | cons x l ih =>
    obtain ⟨y, hy, hP⟩ := h x (by simp)
    obtain ⟨r, hr, hF⟩ := ih (fun x hx => h x (by simp [hx]))
    refine ⟨y :: r, ?_, .cons hP hF⟩
    rw [List.mapM_cons, hy]
    simp only [bind, Except.bind, hr]
    rfl

theorem mapM_map_exists {δ ε ζ : Type} {g : δ → ε} {f : ε → R ζ} {P : δ → ζ → Prop} {l : List δ}
    (h : ∀ x ∈ l, ∃ y, f (g x) = .ok y ∧ P x y) : ∃ r, (l.map g).mapM f = .ok r ∧ List.Forall₂ P l r := by
  rw [List.mapM_map]
  exact mapM_exists h

/-- the elements of `np.histogramdd` -/
def histValue (density : Bool) (samples : List (List K × K)) (edges : List (List K)) (k : List Nat) : K :=
  if density then binCount samples edges k / binVolume edges k /
      ((ndIndices (edges.map (fun es => es.length - 1))).map (binCount samples edges)).sum
    else binCount samples edges k

theorem histSlice_ok (h : GoodDims S A dims) (hS : WF S) (p : SA (List K × K)) (hp : p.WF) (hpS : p.shape = S) (hA : A.Nodup)
    (hAs : A ⊆ keys S) (bs : List (SA K)) (hbs : List.Forall₂ (EdgesB S A) dims bs) (density : Bool) {e : String → Nat}
    (he : OutsideRange S A e) :
    histSlice p A bs dims.length density (itemAt (keys (orthogonal S A)) e) = .ok ⟨dims.map Dim.axis, ⟨dims.map Dim.num,
      histValue density ((slabEnvs A p.size1 e).map p.at') (dims.map (Dim.list · e))⟩⟩ := by
  have hsl : sampleList p A (itemAt (keys (orthogonal S A)) e) = .ok ((slabEnvs A p.size1 e).map p.at') := by
    subst hpS
    exact sampleList_ok p hp hA (by rw [← SA.keys_shape hp]; exact hAs) (outsideRange_iff.1 he)
  have hb : ∃ rs, bs.mapM (fun b => b.getitem (itemAt (keys (orthogonal S A)) e)) = .ok rs ∧
      List.Forall₂ (fun D r => r.axes = [D.axis] ∧ edgeList r = .ok (D.list e)) dims rs := by
    have hmem : ∀ D ∈ dims, D.axis ∉ keys (orthogonal S A) ∧
        ∀ x ∈ D.edges.axes, x ≠ D.axis → x ∈ keys (orthogonal S A) := by
      intro D hD
      refine ⟨fun hk => (mem_orthogonal.1 hk).2 (h.new D hD (mem_orthogonal.1 hk).1), fun x hx hne => ?_⟩
      rw [← SA.keys_shape (h.wf D hD)] at hx
      obtain ⟨n, hn⟩ := exists_get?_of_mem hx
      obtain ⟨h1, k, h2, _⟩ := h.other D hD x n hne hn
      exact mem_orthogonal.2 ⟨mem_keys_of_get? h2, h1⟩
    clear h hsl
    induction hbs with
    | nil => exact ⟨[], rfl, .nil⟩
    | @cons D b dims bs hDb _ ih =>
      obtain ⟨r, r1, r2, r3⟩ := edgesB_slice hDb hS (hmem D (by simp)).1 he (hmem D (by simp)).2
      obtain ⟨rs, q1, q2⟩ := ih (fun D hD => hmem D (by simp [hD]))
      refine ⟨r :: rs, ?_, .cons ⟨r2, r3⟩ q2⟩
      rw [List.mapM_cons, r1]
      simp only [bind, Except.bind, q1]
      rfl
  obtain ⟨rs, q1, q2⟩ := hb
  have he1 : rs.mapM edgeList = .ok (dims.map (Dim.list · e)) := by
    clear q1 h hbs
    induction q2 with
    | nil => rfl
    | @cons D r dims rs hDr _ ih =>
      rw [List.mapM_cons, hDr.2]
      simp only [bind, Except.bind, ih]
      rfl
  have hax : rs.flatMap SA.axes = dims.map Dim.axis := by
    clear q1 h hbs he1
    induction q2 with
    | nil => rfl
    | @cons D r dims rs hDr _ ih => rw [List.flatMap_cons, ih, hDr.1]; rfl
  have hsort : (dims.map (Dim.list · e)).all inOrder = true := by
    rw [List.all_eq_true]
    intro l hl
    obtain ⟨D, hD, rfl⟩ := List.mem_map.1 hl
    exact h.inOrder hD he
  have hsh : (dims.map (Dim.list · e)).map (fun es => es.length - 1) = dims.map Dim.num := by
    rw [List.map_map]
    apply List.map_congr_left
    intro D _
    simp [D.length_list]
  unfold histSlice
  simp only [bind, Except.bind, hsl, q1, he1]
  unfold npHistogramdd
  rw [if_neg (by simp), if_pos hsort]
  simp only
  rw [hax, SA.mk?_of_wf (by simp [ND.ndim]) h.nodup, hsh]
  congr 3
  funext k
  unfold histValue
  rw [hsh]

theorem get?_dims (hn : (dims.map Dim.axis).Nodup) {D : Dim K} (hD : D ∈ dims) (g : Dim K → Nat) :
    get? (dims.map (fun D => (D.axis, g D))) D.axis = some (g D) := by
  apply get?_of_mem
  · unfold WF keys
    rw [List.map_map]
    exact hn
  · exact List.mem_map.2 ⟨D, hD, rfl⟩

theorem GoodDims.histShape (h : GoodDims S A dims) (hS : WF S) :
    ∃ T, NA.histShape (orthogonal S A) (dims.map Dim.edges) = .ok T ∧ WF T ∧ HistShape S A dims T := by
  have hO := wf_orthogonal hS A
  have hnew : ∀ D ∈ dims, D.axis ∉ keys (orthogonal S A) := fun D hD hk =>
    (mem_orthogonal.1 hk).2 (h.new D hD (mem_orthogonal.1 hk).1)
  have hmemk : ∀ x, x ∈ dims.map Dim.axis ↔ ∃ D ∈ dims, D.axis = x := fun x => List.mem_map
  have hw : ∀ s ∈ (dims.map Dim.edges).map SA.shape, WF s := by
    intro s hs
    simp only [List.map_map, List.mem_map, Function.comp_apply] at hs
    obtain ⟨D, hD, rfl⟩ := hs
    exact SA.wf_shape (h.wf D hD)
  -- the broadcast shape of the edges
  have hclash : ∃ U, broadcastShapes ((dims.map Dim.edges).map SA.shape) = .ok U := by
    cases hU : broadcastShapes ((dims.map Dim.edges).map SA.shape) with
    | ok U => exact ⟨U, rfl⟩
    | error err =>
      exfalso
      obtain ⟨ax, m, n, ⟨s, hs, hm⟩, ⟨t, ht, hn⟩, h1, h2, h3⟩ := (C01_broadcast_shapes_error_iff _ hw).1 ⟨err, hU⟩
      simp only [List.map_map, List.mem_map, Function.comp_apply] at hs ht
      obtain ⟨D, hD, rfl⟩ := hs
      obtain ⟨E, hE, rfl⟩ := ht
      have key : ∀ D ∈ dims, ∀ m, get? D.edges.shape ax = some m → ax ≠ D.axis →
          ax ∉ dims.map Dim.axis ∧ ∃ k, get? S ax = some k ∧ (m = k ∨ m = 1) := by
        intro D hD m hm hne
        obtain ⟨h4, k, h5, h6⟩ := h.other D hD ax m hne hm
        refine ⟨fun hk => ?_, k, h5, h6⟩
        obtain ⟨E, hE, rfl⟩ := (hmemk ax).1 hk
        exact h4 (h.new E hE (mem_keys_of_get? h5))
      by_cases ha : ax = D.axis
      · by_cases hb : ax = E.axis
        · have : D = E := List.inj_on_of_nodup_map h.nodup hD hE (by rw [← ha, ← hb])
          subst this
          rw [hm] at hn
          injection hn with hn
          exact h1 hn
        · exact (key E hE n hn hb).1 ((hmemk ax).2 ⟨D, hD, ha.symm⟩)
      · by_cases hb : ax = E.axis
        · exact (key D hD m hm ha).1 ((hmemk ax).2 ⟨E, hE, hb.symm⟩)
        · obtain ⟨_, k, h5, h6⟩ := key D hD m hm ha
          obtain ⟨_, k', h5', h6'⟩ := key E hE n hn hb
          rw [h5] at h5'
          injection h5' with h5'
          omega
  obtain ⟨U, hU⟩ := hclash
  obtain ⟨u1, u2, u3⟩ := C01_broadcast_shapes_ok _ hw U hU
  have hown : ∀ x, x ∈ keys U → x ∉ keys (orthogonal S A) → ∃ D ∈ dims, D.axis = x := by
    intro x hx hno
    obtain ⟨s, hs, hk⟩ := (u2 x).1 hx
    simp only [List.map_map, List.mem_map, Function.comp_apply] at hs
    obtain ⟨D, hD, rfl⟩ := hs
    obtain ⟨n, hn⟩ := exists_get?_of_mem hk
    by_contra hne
    obtain ⟨h4, k, h5, _⟩ := h.other D hD x n (fun hx => hne ⟨D, hD, hx.symm⟩) hn
    exact hno (mem_orthogonal.2 ⟨mem_keys_of_get? h5, h4⟩)
  have hsize : ∀ D ∈ dims, get? U D.axis = some (D.num + 1) := by
    intro D hD
    have hsz : HasSize ((dims.map Dim.edges).map SA.shape) D.axis (D.num + 1) :=
      ⟨D.edges.shape, by simp only [List.map_map, List.mem_map, Function.comp_apply]; exact ⟨D, hD, rfl⟩, h.size D hD⟩
    obtain ⟨s, hs, hk⟩ := hsz
    obtain ⟨n, hn⟩ := exists_get?_of_mem ((u2 D.axis).2 ⟨s, hs, mem_keys_of_get? hk⟩)
    obtain ⟨⟨t, ht, htn⟩, h5⟩ := u3 D.axis n hn
    have h6 := h5 _ ⟨s, hs, hk⟩
    simp only [List.map_map, List.mem_map, Function.comp_apply] at ht
    obtain ⟨E, hE, rfl⟩ := ht
    by_cases hDE : D.axis = E.axis
    · have : D = E := List.inj_on_of_nodup_map h.nodup hD hE hDE
      subst this
      rw [h.size D hD] at htn
      rw [hn, ← htn]
    · exfalso
      obtain ⟨h7, k, h8, _⟩ := h.other E hE D.axis n hDE htn
      exact h7 (h.new D hD (mem_keys_of_get? h8))
  have hgetown : ∀ x, get? ((U.filter (fun p => p.1 ∉ keys (orthogonal S A))).map (fun p => (p.1, p.2 - 1))) x =
      if x ∉ keys (orthogonal S A) then (get? U x).map (· - 1) else none := by
    intro x
    rw [SA.get?_map_pair _ (fun _ n => n - 1), SA.get?_filter U (· ∉ keys (orthogonal S A)) x]
    split <;> rfl
  have hwown : WF ((U.filter (fun p => p.1 ∉ keys (orthogonal S A))).map (fun p => (p.1, p.2 - 1))) := by
    unfold WF keys
    rw [List.map_map]
    exact List.Nodup.sublist (List.filter_sublist.map _) u1
  have hpos : ((U.filter (fun p => p.1 ∉ keys (orthogonal S A))).any (fun p => p.2 = 0)) = false := by
    rw [List.any_eq_false]
    rintro ⟨x, n⟩ hp
    rw [List.mem_filter, decide_eq_true_eq] at hp
    obtain ⟨D, hD, hx⟩ := hown x (List.mem_map.2 ⟨_, hp.1, rfl⟩) hp.2
    have := hsize D hD
    rw [hx, get?_of_mem u1 hp.1] at this
    injection this with this
    simp [this]
  have hT : ∀ x, get? (dims.map (fun D => (D.axis, D.num)) ++ orthogonal S A) x =
      (get? (dims.map (fun D => (D.axis, D.num))) x).or (get? (orthogonal S A) x) := fun x => SA.get?_append _ _ x
  have hTD : ∀ D ∈ dims, get? (dims.map (fun D => (D.axis, D.num)) ++ orthogonal S A) D.axis = some D.num := by
    intro D hD
    rw [hT, get?_dims h.nodup hD Dim.num]
    rfl
  have hTo : ∀ x, x ∉ dims.map Dim.axis → get? (dims.map (fun D => (D.axis, D.num)) ++ orthogonal S A) x =
      get? (orthogonal S A) x := by
    intro x hx
    rw [hT, get?_eq_none.2]
    · rfl
    · unfold keys
      rw [List.map_map]
      exact hx
  have hdisj : ∀ x, x ∈ keys (orthogonal S A) → x ∉ dims.map Dim.axis := by
    intro x hx hk
    obtain ⟨D, hD, rfl⟩ := (hmemk x).1 hk
    exact hnew D hD hx
  have hw2 : ∀ s ∈ [orthogonal S A, (U.filter (fun p => p.1 ∉ keys (orthogonal S A))).map (fun p => (p.1, p.2 - 1))], WF s := by
    intro s hs
    simp only [List.mem_cons, List.not_mem_nil, or_false] at hs
    rcases hs with rfl | rfl
    · exact hO
    · exact hwown
  obtain ⟨T, t1, t2, t3⟩ := broadcast_exact hw2 (T := dims.map (fun D => (D.axis, D.num)) ++ orthogonal S A)
    (by
      intro s hs x m hm
      simp only [List.mem_cons, List.not_mem_nil, or_false] at hs
      rcases hs with rfl | rfl
      · exact ⟨m, by rw [hTo x (hdisj x (mem_keys_of_get? hm)), hm], .inl rfl⟩
      · rw [hgetown] at hm
        split at hm
        · next hx =>
          cases hUx : get? U x with
          | none => rw [hUx] at hm; cases hm
          | some n =>
            obtain ⟨D, hD, rfl⟩ := hown x (mem_keys_of_get? hUx) hx
            rw [hsize D hD] at hm
            exact ⟨D.num, hTD D hD, .inl (by simpa using hm.symm)⟩
        · cases hm)
    (by
      intro x n hn
      by_cases hx : x ∈ dims.map Dim.axis
      · obtain ⟨D, hD, rfl⟩ := (hmemk x).1 hx
        rw [hTD D hD] at hn
        refine ⟨_, List.mem_cons_of_mem _ (List.mem_singleton.2 rfl), ?_⟩
        rw [hgetown, if_pos (hnew D hD), hsize D hD]
        simpa using hn
      · rw [hTo x hx] at hn
        exact ⟨_, by simp, hn⟩)
  refine ⟨T, ?_, t2, fun x n => ?_⟩
  · unfold NA.histShape
    simp only [bind, Except.bind, hU]
    rw [hpos]
    exact t1
  · rw [t3]
    by_cases hx : x ∈ dims.map Dim.axis
    · obtain ⟨D, hD, rfl⟩ := (hmemk x).1 hx
      rw [hTD D hD]
      constructor
      · intro hn
        injection hn with hn
        exact .inl ⟨D, hD, rfl, hn⟩
      · rintro (⟨E, hE, hEx, hn⟩ | ⟨h1, _⟩)
        · have : E = D := List.inj_on_of_nodup_map h.nodup hE hD hEx
          rw [← this, hn]
        · exact absurd hx h1
    · rw [hTo x hx, get?_orthogonal]
      constructor
      · intro hn
        split at hn
        · next hxA => exact .inr ⟨hx, hxA, hn⟩
        · cases hn
      · rintro (⟨E, hE, hEx, hn⟩ | ⟨_, h2, h3⟩)
        · exact absurd ((hmemk x).2 ⟨E, hE, hEx⟩) hx
        · rw [if_pos h2, h3]

theorem histLoop_ok (h : GoodDims S A dims) (hS : WF S) (p : SA (List K × K)) (hp : p.WF) (hpS : p.shape = S) (hA : A.Nodup)
    (hAs : A ⊆ keys S) (density : Bool) (garbage : List Nat → K) :
    ∃ r, histLoop p A (dims.map Dim.edges) dims.length density garbage = .ok r ∧ r.WF ∧ HistShape S A dims r.shape ∧
      ∀ e, InRange r.shape e → r.at' e = histValue density ((slabEnvs A p.size1 e).map p.at') (dims.map (Dim.list · e))
        ((dims.map Dim.axis).map e) := by
  obtain ⟨T, t1, t2, t3⟩ := h.histShape hS
  obtain ⟨bs, b1, b2⟩ := mapM_map_exists (g := Dim.edges)
    (f := fun b : SA K => do b.broadcastTo (← broadcastShapes [orthogonal S A, b.shape])) (P := EdgesB S A)
    (fun D hD => h.broadcast hS hD)
  have hwf0 : (⟨T.keys, ⟨T.values, garbage⟩⟩ : SA K).WF := ⟨by simp [ND.ndim, keys, values], t2⟩
  have hsh0 : (⟨T.keys, ⟨T.values, garbage⟩⟩ : SA K).shape = T := SA.shape_of_mk t2 rfl
  have hOT : ∀ ax n, get? (orthogonal S A) ax = some n → get? T ax = some n := by
    intro ax n hn
    rw [t3]
    rw [get?_orthogonal] at hn
    split at hn
    · next hx =>
      refine .inr ⟨fun hk => ?_, hx, hn⟩
      obtain ⟨D, hD, rfl⟩ := List.mem_map.1 hk
      exact hx (h.new D hD (mem_keys_of_get? hn))
    · cases hn
  have hvw : ∀ e, (⟨dims.map Dim.axis, ⟨dims.map Dim.num, e⟩⟩ : SA K).WF := fun e => ⟨by simp [ND.ndim], h.nodup⟩
  have hvs : ∀ e, (⟨dims.map Dim.axis, ⟨dims.map Dim.num, e⟩⟩ : SA K).shape = dims.map (fun D => (D.axis, D.num)) := by
    intro e
    unfold SA.shape
    simp only
    clear hvw hOT hwf0 hsh0 b2 b1 t3 t1 h
    induction dims with
    | nil => rfl
    | cons D dims ih => rw [List.map_cons, List.map_cons, List.map_cons, List.zip_cons_cons, ih]
  have hvg : ∀ x m, get? (dims.map (fun D => (D.axis, D.num))) x = some m → ∃ D ∈ dims, D.axis = x ∧ D.num = m := by
    intro x m hm
    have := mem_of_get? hm
    simp only [List.mem_map, Prod.mk.injEq] at this
    exact this
  obtain ⟨r, r1, r2, r3, r4, r5⟩ := SA.forEach_ok (orthogonal S A) (wf_orthogonal hS A)
    (histSlice p A bs dims.length density) ⟨T.keys, ⟨T.values, garbage⟩⟩ hwf0 (by rw [hsh0]; exact hOT)
    (by
      intro e he
      refine ⟨_, histSlice_ok h hS p hp hpS hA hAs bs b2 density (outsideRange_iff.2 he), hvw _, fun x m hm => ?_⟩
      rw [hvs] at hm
      obtain ⟨D, hD, rfl, rfl⟩ := hvg x m hm
      refine ⟨fun hk => (mem_orthogonal.1 hk).2 (h.new D hD (mem_orthogonal.1 hk).1), D.num, ?_, .inl rfl⟩
      rw [hsh0, t3]
      exact .inl ⟨D, hD, rfl, rfl⟩)
  rw [hsh0] at r4 r5
  refine ⟨r, ?_, r2, by rw [r4]; exact t3, fun e he => ?_⟩
  · unfold histLoop
    rw [hpS]
    simp only [bind, Except.bind] at b1 ⊢
    rw [b1]
    simp only [t1]
    exact r1
  · rw [r4] at he
    have heO : OutsideRange S A e := outsideRange_iff.2 fun x n hn => he x n (hOT x n hn)
    rw [r5 e he _ (histSlice_ok h hS p hp hpS hA hAs bs b2 density heO), SA.atB_eq_at' (hvw _)]
    · rfl
    · intro x m hm
      rw [hvs] at hm
      obtain ⟨D, hD, rfl, rfl⟩ := hvg x m hm
      exact he D.axis D.num ((t3 _ _).2 (.inl ⟨D, hD, rfl, rfl⟩))

/-! ### Sums over all the bins -/

theorem sum_single {l : List (List Nat)} (hl : l.Nodup) (z : List Nat) (w : K) :
    (l.map (fun k => if z = k.map (· + 1) then w else 0)).sum = if z ∈ l.map (List.map (· + 1)) then w else 0 := by
  induction l with
  | nil => simp
  | cons k l ih =>
    rw [List.nodup_cons] at hl
    rw [List.map_cons, List.sum_cons, ih hl.2, List.map_cons]
    by_cases h : z = k.map (· + 1)
    · have hno : z ∉ l.map (List.map (· + 1)) := by
        intro hm
        obtain ⟨k', hk', h'⟩ := List.mem_map.1 hm
        rw [h] at h'
        have := (List.map_injective_iff.2 (fun a b (hab : a + 1 = b + 1) => by omega)) h'
        exact hl.1 (this ▸ hk')
      rw [if_pos h, if_neg hno, if_pos (by rw [h]; simp)]
      simp
    · rw [if_neg h, zero_add]
      by_cases hm : z ∈ l.map (List.map (· + 1))
      · rw [if_pos hm, if_pos (by simp [hm])]
      · rw [if_neg hm, if_neg (by rw [List.mem_cons]; rintro (h' | h'); exacts [h h', hm h'])]

theorem sum_binCount (samples : List (List K × K)) (edges : List (List K)) (nums : List Nat) :
    ((ndIndices nums).map (binCount samples edges)).sum =
      ((samples.filter (fun p => decide (List.zipWith binNumber edges p.1 ∈ (ndIndices nums).map (List.map (· + 1))))).map
        Prod.snd).sum := by
  induction samples with
  | nil =>
    have : (ndIndices nums).map (binCount ([] : List (List K × K)) edges) = (ndIndices nums).map (fun _ => (0 : K)) :=
      List.map_congr_left fun k _ => rfl
    rw [this]
    simp
  | cons s ss ih =>
    have hc : ∀ k, binCount (s :: ss) edges k =
        (if List.zipWith binNumber edges s.1 = k.map (· + 1) then s.2 else 0) + binCount ss edges k := by
      intro k
      unfold binCount
      rw [List.filter_cons]
      by_cases h : List.zipWith binNumber edges s.1 = k.map (· + 1)
      · simp [h]
      · simp [h]
    have : (ndIndices nums).map (binCount (s :: ss) edges) = (ndIndices nums).map (fun k =>
        (if List.zipWith binNumber edges s.1 = k.map (· + 1) then s.2 else 0) + binCount ss edges k) :=
      List.map_congr_left fun k _ => hc k
    rw [this, List.sum_map_add, ih, sum_single (nodup_ndIndices _), List.filter_cons]
    by_cases h : List.zipWith binNumber edges s.1 ∈ (ndIndices nums).map (List.map (· + 1))
    · rw [if_pos h, if_pos (by simpa using h)]
      simp
    · rw [if_neg h, if_neg (by simpa using h), zero_add]

theorem mem_bins (h : GoodDims S A dims) {e : String → Nat} (he : OutsideRange S A e) (hpos : ∀ D ∈ dims, 0 < D.num)
    {xs : List K} (hl : xs.length = dims.length) :
    List.zipWith binNumber (dims.map (Dim.list · e)) xs ∈ (ndIndices (dims.map Dim.num)).map (List.map (· + 1)) ↔
      Covered dims e xs := by
  have hin : ∀ D ∈ dims, inOrder (D.list e) = true := fun D hD => h.inOrder hD he
  clear h
  unfold Covered
  induction dims generalizing xs with
  | nil =>
    cases xs with
    | nil => simp [ndIndices]
    | cons x xs => simp at hl
  | cons D dims ih =>
    cases xs with
    | nil => simp at hl
    | cons x xs =>
      simp only [List.map_cons, List.zipWith_cons_cons, List.zip_cons_cons, List.mem_cons, forall_eq_or_imp]
      have ih' := ih (fun D hD => hpos D (by simp [hD])) (xs := xs) (by simpa using hl) (fun D hD => hin D (by simp [hD]))
      have hb : (1 ≤ binNumber (D.list e) x ∧ binNumber (D.list e) x ≤ D.num) ↔ D.Inside e x := by
        rw [binNumber_range (hin D (by simp)) D.num (D.length_list e) (hpos D (by simp)) x, D.getElem_list, D.getElem_list]
        rfl
      refine Iff.trans ?_ (and_congr hb ih')
      simp only [List.mem_map, ndIndices, List.mem_flatMap, List.mem_range]
      constructor
      · rintro ⟨k, ⟨i, hi, ⟨k', hk', rfl⟩⟩, hk⟩
        rw [List.map_cons, List.cons.injEq] at hk
        exact ⟨⟨by omega, by omega⟩, k', hk', hk.2⟩
      · rintro ⟨⟨h1, h2⟩, k', hk', h3⟩
        refine ⟨(binNumber (D.list e) x - 1) :: k', ⟨binNumber (D.list e) x - 1, by omega, k', hk', rfl⟩, ?_⟩
        rw [List.map_cons, h3]
        congr 1
        omega

/-! ### The samples -/

/-- the weights; each sample counts once if there are none -/
def weightsOf (weights : Option (SA K)) : SA K := weights.getD (SA.scalar 1)

theorem pairUp_ok (samples : List (SA K)) (hs : ∀ s ∈ samples, s.WF) (weights : Option (SA K)) (hw : (weightsOf weights).WF)
    (hS : broadcastShapes (samples.map SA.shape ++ [(weightsOf weights).shape]) = .ok S) :
    ∃ p, pairUp samples weights = .ok p ∧ p.WF ∧ (∀ ax, get? p.shape ax = get? S ax) ∧
      ∀ e, p.at' e = (samples.map (fun s => s.atB e), (weightsOf weights).atB e) := by
  have hwf : ∀ s ∈ samples.map SA.shape ++ [(weightsOf weights).shape], WF s := by
    intro s hm
    rw [List.mem_append, List.mem_singleton] at hm
    rcases hm with hm | rfl
    · obtain ⟨a, ha, rfl⟩ := List.mem_map.1 hm
      exact SA.wf_shape (hs a ha)
    · exact SA.wf_shape hw
  obtain ⟨s1, s2, s3⟩ := C01_broadcast_shapes_ok _ hwf S hS
  have hX : ∃ X, broadcastShapes (samples.map SA.shape) = .ok X := by
    cases hX : broadcastShapes (samples.map SA.shape) with
    | ok X => exact ⟨X, rfl⟩
    | error err =>
      exfalso
      obtain ⟨ax, m, n, ⟨s, hs', hm⟩, ⟨t, ht, hn⟩, h1⟩ :=
        (C01_broadcast_shapes_error_iff _ (fun s h => hwf s (by simp [h]))).1 ⟨err, hX⟩
      obtain ⟨err', he⟩ := (C01_broadcast_shapes_error_iff _ hwf).2
        ⟨ax, m, n, ⟨s, by rw [List.mem_append]; exact .inl hs', hm⟩, ⟨t, by rw [List.mem_append]; exact .inl ht, hn⟩, h1⟩
      rw [hS] at he
      cases he
  obtain ⟨X, hX⟩ := hX
  obtain ⟨x1, x2, x3⟩ := C01_broadcast_shapes_ok _ (fun s h => hwf s (by simp [h])) X hX
  obtain ⟨xs, hxs⟩ := SA.ufuncN_isOk hs hX id
  obtain ⟨q1, q2, q3⟩ := SA.ufuncN_ok hs hxs
  have hXs : X = xs.shape := by rw [hX] at q2; injection q2
  subst hXs
  have hw2 : ∀ s ∈ [xs.shape, (weightsOf weights).shape], WF s := by
    intro s hm
    simp only [List.mem_cons, List.not_mem_nil, or_false] at hm
    rcases hm with rfl | rfl
    · exact x1
    · exact SA.wf_shape hw
  obtain ⟨T, t1, t2, t3⟩ := broadcast_exact hw2 (T := S)
    (by
      intro s hm ax m hsm
      simp only [List.mem_cons, List.not_mem_nil, or_false] at hm
      rcases hm with rfl | rfl
      · obtain ⟨⟨t, ht, htm⟩, _⟩ := x3 ax m hsm
        exact SA.fitsIn_of_broadcastShapes hwf hS (s := t) (by rw [List.mem_append]; exact .inl ht) ax m htm
      · exact SA.fitsIn_of_broadcastShapes hwf hS (by simp) ax m hsm)
    (by
      intro ax n hn
      obtain ⟨⟨t, ht, htn⟩, h5⟩ := s3 ax n hn
      rw [List.mem_append, List.mem_singleton] at ht
      rcases ht with ht | rfl
      · obtain ⟨k, hk⟩ := exists_get?_of_mem ((x2 ax).2 ⟨t, ht, mem_keys_of_get? htn⟩)
        obtain ⟨⟨u, hu, huk⟩, h6⟩ := x3 ax k hk
        have h7 := h6 n ⟨t, ht, htn⟩
        have h8 := h5 k ⟨u, by rw [List.mem_append]; exact .inl hu, huk⟩
        refine ⟨_, List.mem_cons_self .., ?_⟩
        rw [hk]
        congr 1
        omega
      · exact ⟨_, by simp, htn⟩)
  obtain ⟨p, hp⟩ := SA.ufunc2_isOk q1 hw t1 Prod.mk
  obtain ⟨p1, p2, p3⟩ := SA.ufunc2_ok q1 hw hp
  have hTp : T = p.shape := by rw [t1] at p2; injection p2
  refine ⟨p, ?_, p1, by rw [← hTp]; exact t3, fun e => ?_⟩
  · unfold pairUp
    simp only [bind, Except.bind, hxs]
    exact hp
  · rw [p3]
    congr 1
    unfold SA.atB
    rw [q3]
    show samples.map _ = samples.map _
    apply List.map_congr_left
    intro s hsm
    exact atB_clip (hs s hsm) (SA.fitsIn_of_broadcastShapes (fun s h => hwf s (by simp [h])) hX (List.mem_map_of_mem hsm)) e

theorem GoodDims.congr {S' : Shape} (h : GoodDims S A dims) (hSS : ∀ ax, get? S' ax = get? S ax) : GoodDims S' A dims := by
  have hk : ∀ ax, ax ∈ keys S' ↔ ax ∈ keys S := by
    intro ax
    rw [← not_iff_not, ← get?_eq_none, ← get?_eq_none, hSS]
  refine ⟨h.nodup, fun D hD hx => h.new D hD ((hk _).1 hx), h.wf, h.size, fun D hD x n hx hn => ?_, fun D hD e he => ?_⟩
  · rw [hSS]; exact h.other D hD x n hx hn
  · exact h.order D hD e fun x n hx hn => he x n hx (by rw [hSS, hn])

theorem slabOf_slabEnvs {α : Type} {p : SA α} (hp : p.WF) (hpS : ∀ ax, get? p.shape ax = get? S ax) (hA : A.Nodup)
    (hAs : A ⊆ keys S) (e : String → Nat) : SlabOf S A e (slabEnvs A p.size1 e) := by
  refine ⟨nodup_slabEnvs hA _ _, fun e' => ?_⟩
  rw [mem_slabEnvs hA]
  refine and_congr_left fun _ => ?_
  refine forall_congr' fun ax => imp_congr_right fun hax => ?_
  obtain ⟨n, hn⟩ := exists_get?_of_mem (hAs hax)
  simp [SA.size1, hpS, hn]

theorem slabOf_perm {l l' : List (String → Nat)} {e : String → Nat} (h : SlabOf S A e l) (h' : SlabOf S A e l') : l.Perm l' := by
  rw [List.perm_ext_iff_of_nodup h.1 h'.1]
  intro e'
  rw [h.2, h'.2]

theorem binCount_slab (h : GoodDims S A dims) {e : String → Nat} (he : OutsideRange S A e)
    (hr : ∀ D ∈ dims, e D.axis < D.num) (samples : List (SA K)) (hl : samples.length = dims.length) (W : SA K)
    (l : List (String → Nat)) :
    binCount (l.map (fun e' => (samples.map (fun s => s.atB e'), W.atB e'))) (dims.map (Dim.list · e)) ((dims.map Dim.axis).map e) =
      ((l.filter (fun e' => decide (Sampled dims e (samples.map (fun s => s.atB e'))))).map W.atB).sum := by
  unfold binCount
  rw [List.filter_map, List.map_map]
  congr 1
  have : (l.filter ((fun p : List K × K => decide (List.zipWith binNumber (dims.map (Dim.list · e)) p.1 =
      ((dims.map Dim.axis).map e).map (· + 1))) ∘ fun e' => (samples.map (fun s => s.atB e'), W.atB e'))) =
      l.filter (fun e' => decide (Sampled dims e (samples.map (fun s => s.atB e')))) := by
    apply List.filter_congr
    intro e' _
    simp only [Function.comp_apply]
    rw [decide_eq_decide]
    exact zipWith_binNumber h he hr (by simpa using hl)
  rw [this]
  rfl

theorem outside_of_hist {T : Shape} (h : GoodDims S A dims) (hT : HistShape S A dims T) {e : String → Nat} (he : InRange T e) :
    OutsideRange S A e ∧ ∀ D ∈ dims, e D.axis < D.num := by
  refine ⟨fun x n hx hn => he x n ((hT x n).2 (.inr ⟨fun hk => ?_, hx, hn⟩)), fun D hD => ?_⟩
  · obtain ⟨D, hD, rfl⟩ := List.mem_map.1 hk
    exact hx (h.new D hD (mem_keys_of_get? hn))
  · exact he D.axis D.num ((hT _ _).2 (.inl ⟨D, hD, rfl, rfl⟩))

theorem total_slab (h : GoodDims S A dims) {e : String → Nat} (he : OutsideRange S A e) (hpos : ∀ D ∈ dims, 0 < D.num)
    (samples : List (SA K)) (hl : samples.length = dims.length) (W : SA K) (l : List (String → Nat)) :
    ((ndIndices (dims.map Dim.num)).map (binCount (l.map (fun e' => (samples.map (fun s => s.atB e'), W.atB e')))
      (dims.map (Dim.list · e)))).sum =
      ((l.filter (fun e' => decide (Covered dims e (samples.map (fun s => s.atB e'))))).map W.atB).sum := by
  rw [sum_binCount, List.filter_map, List.map_map]
  congr 1
  have : (l.filter ((fun p : List K × K => decide (List.zipWith binNumber (dims.map (Dim.list · e)) p.1 ∈
      (ndIndices (dims.map Dim.num)).map (List.map (· + 1)))) ∘ fun e' => (samples.map (fun s => s.atB e'), W.atB e'))) =
      l.filter (fun e' => decide (Covered dims e (samples.map (fun s => s.atB e')))) := by
    apply List.filter_congr
    intro e' _
    simp only [Function.comp_apply]
    rw [decide_eq_decide]
    exact mem_bins h he hpos (by simpa using hl)
  rw [this]
  rfl

/-- The volume of the bin of index `e`. -/
def cellVolume (dims : List (Dim K)) (e : String → Nat) : K :=
  (dims.map (fun D => D.edge e (e D.axis + 1) - D.edge e (e D.axis))).prod

theorem binVolume_dims {e : String → Nat} (hr : ∀ D ∈ dims, e D.axis < D.num) :
    binVolume (dims.map (Dim.list · e)) ((dims.map Dim.axis).map e) = cellVolume dims e := by
  unfold binVolume cellVolume
  congr 1
  induction dims with
  | nil => rfl
  | cons D dims ih =>
    rw [List.map_cons, List.map_cons, List.map_cons, List.zipWith_cons_cons, ih (fun D hD => hr D (by simp [hD])),
      List.map_cons]
    congr 1
    have hD := hr D (by simp)
    rw [List.getD_eq_getElem _ _ (by rw [D.length_list]; omega), List.getD_eq_getElem _ _ (by rw [D.length_list]; omega),
      D.getElem_list, D.getElem_list]

/-- The conditions on the samples, the weights and the axes of a histogram: all have shape `S` together, and the axes `A` which
are summed over are different axes of `S` (all of them by default). -/
structure GoodSamples (samples : List (SA K)) (weights : Option (SA K)) (axis : Option (List String)) (S : Shape)
    (A : List String) : Prop where
  wf : ∀ s ∈ samples, s.WF
  wfw : (weightsOf weights).WF
  shape : broadcastShapes (samples.map SA.shape ++ [(weightsOf weights).shape]) = .ok S
  nodup : A.Nodup
  sub : A ⊆ keys S
  axes : axis = some A ∨ (axis = none ∧ ∀ x ∈ keys S, x ∈ A)

theorem SlabOf.congr_axes {A' : List String} (h : ∀ x, x ∈ A ↔ x ∈ A') {e : String → Nat} {l : List (String → Nat)}
    (hl : SlabOf S A e l) : SlabOf S A' e l := by
  refine ⟨hl.1, fun e' => ?_⟩
  rw [hl.2]
  simp only [h]

theorem GoodDims.congr_axes {A' : List String} (hA : ∀ x, x ∈ A ↔ x ∈ A') (h : GoodDims S A dims) : GoodDims S A' dims := by
  refine ⟨h.nodup, fun D hD hx => (hA _).1 (h.new D hD hx), h.wf, h.size, fun D hD x n hx hn => ?_, fun D hD e he => ?_⟩
  · rw [← hA]; exact h.other D hD x n hx hn
  · exact h.order D hD e fun x n hx hn => he x n (by rw [← hA]; exact hx) hn

/-- the loop, for the samples and the weights of a histogram -/
theorem histogram_main {samples : List (SA K)} {weights : Option (SA K)} {axis : Option (List String)}
    (hs : GoodSamples samples weights axis S A) (hd : GoodDims S A dims)
    (density : Bool) (garbage : List Nat → K) :
    ∃ p hist, pairUp samples weights = .ok p ∧ WF p.shape ∧ (∀ ax, get? p.shape ax = get? S ax) ∧
      histLoop p (axis.getD p.shape.keys) (dims.map Dim.edges) dims.length density garbage = .ok hist ∧ hist.WF ∧
      HistShape S A dims hist.shape ∧
      ∀ e, InRange hist.shape e → ∃ l, SlabOf S A e l ∧ hist.at' e =
        histValue density (l.map (fun e' => (samples.map (fun s => s.atB e'), (weightsOf weights).atB e')))
          (dims.map (Dim.list · e)) ((dims.map Dim.axis).map e) := by
  obtain ⟨p, p1, p2, p3, p4⟩ := pairUp_ok samples hs.wf weights hs.wfw hs.shape
  have hk : ∀ ax, ax ∈ keys p.shape ↔ ax ∈ keys S := by
    intro ax
    rw [← not_iff_not, ← get?_eq_none, ← get?_eq_none, p3]
  have hA' : ∃ A', axis.getD p.shape.keys = A' ∧ (∀ x, x ∈ A ↔ x ∈ A') ∧ A'.Nodup ∧ A' ⊆ keys p.shape := by
    rcases hs.axes with rfl | ⟨rfl, hall⟩
    · exact ⟨A, rfl, fun x => Iff.rfl, hs.nodup, fun x hx => (hk x).2 (hs.sub hx)⟩
    · exact ⟨keys p.shape, rfl, fun x => ⟨fun h => (hk x).2 (hs.sub h), fun h => hall x ((hk x).1 h)⟩, SA.wf_shape p2,
        fun x hx => hx⟩
  obtain ⟨A', a1, a2, a3, a4⟩ := hA'
  have hd' : GoodDims p.shape A' dims := (hd.congr p3).congr_axes a2
  obtain ⟨r, r1, r2, r3, r4⟩ := histLoop_ok hd' (SA.wf_shape p2) p p2 rfl a3 a4 density garbage
  refine ⟨p, r, p1, SA.wf_shape p2, p3, by rw [a1]; exact r1, r2, fun x n => ?_, fun e he => ?_⟩
  · rw [r3 x n, p3, a2]
  · refine ⟨slabEnvs A' p.size1 e, ?_, ?_⟩
    · have := slabOf_slabEnvs p2 p3 a3 (fun x hx => (hk x).1 (a4 hx)) e
      exact SlabOf.congr_axes (fun x => (a2 x).symm) this
    · rw [r4 e he]
      congr 1
      exact List.map_congr_left fun e' _ => p4 e'

theorem histBroadcast {samples : List (SA K)} {weights : Option (SA K)} {axis : Option (List String)}
    (hs : GoodSamples samples weights axis S A) {T : Shape} (hT : WF T) (hTS : ∀ ax, get? T ax = get? S ax) :
    ∃ ss, samples.mapM (fun s => s.broadcastTo T) = .ok ss ∧ ss.length = samples.length ∧
      List.Forall₂ (fun s b => b.WF ∧ b.shape = T ∧ ∀ e, b.at' e = s.atB e) samples ss := by
  have hwf : ∀ s ∈ samples.map SA.shape ++ [(weightsOf weights).shape], WF s := by
    intro s hm
    rw [List.mem_append, List.mem_singleton] at hm
    rcases hm with hm | rfl
    · obtain ⟨a, ha, rfl⟩ := List.mem_map.1 hm
      exact SA.wf_shape (hs.wf a ha)
    · exact SA.wf_shape hs.wfw
  obtain ⟨ss, s1, s2⟩ := mapM_exists (l := samples) (f := fun s => s.broadcastTo T)
    (P := fun s b => b.WF ∧ b.shape = T ∧ ∀ e, b.at' e = s.atB e) (by
      intro s hsm
      have hfit := SA.fitsIn_of_broadcastShapes hwf hs.shape (s := s.shape) (by
        rw [List.mem_append]; exact .inl (List.mem_map_of_mem hsm))
      rcases SA.C10_broadcast_to s (hs.wf s hsm) T hT with ⟨_, b, b1, b2, b3, b4⟩ | ⟨hno, _⟩
      · exact ⟨b, b1, b2, b3, b4⟩
      · exact absurd (fun ax m hm => by
          obtain ⟨n, hn, h⟩ := hfit ax m hm
          exact ⟨n, by rw [hTS, hn], h⟩) hno)
  exact ⟨ss, s1, s2.length_eq.symm, s2⟩

/-! ### The properties -/

/-- **C58** (counts). `na.histogramdd` with given edges: the histogram has one axis of `num` bins for each dimension, next to
the axes which are not summed over, and each element is the sum of the weights (the number, without weights) of those samples
along the summed axes whose coordinates are all in the bin. -/
theorem C58_counts (samples : List (SA K)) (weights : Option (SA K)) (axis : Option (List String)) (S : Shape) (A : List String)
    (hs : GoodSamples samples weights axis S A) (dims : List (Dim K)) (hd : GoodDims S A dims)
    (hl : samples.length = dims.length) (min max : Option (List (SA K))) (garbage : List Nat → K) :
    ∃ hist, histogramdd samples (.edges (dims.map Dim.edges)) axis min max false weights garbage =
        .ok (hist, dims.map Dim.edges) ∧ hist.WF ∧ HistShape S A dims hist.shape ∧
      ∀ e, InRange hist.shape e → ∃ l, SlabOf S A e l ∧ hist.at' e =
        ((l.filter (fun e' => decide (Sampled dims e (samples.map (fun s => s.atB e'))))).map (weightsOf weights).atB).sum := by
  obtain ⟨p, hist, h1, h2, h3, h4, h5, h6, h7⟩ := histogram_main hs hd false garbage
  have hb := histBroadcast hs h2 h3
  refine ⟨hist, ?_, h5, h6, fun e he => ?_⟩
  · obtain ⟨ss, s1, s2, _⟩ := hb
    unfold histogramdd
    simp only [bind, Except.bind, h1, s1, edgesOf, s2, hl, h4]
  · obtain ⟨l, l1, l2⟩ := h7 e he
    obtain ⟨o1, o2⟩ := outside_of_hist hd h6 he
    exact ⟨l, l1, l2.trans (binCount_slab hd o1 o2 samples hl _ l)⟩

/-! ### Totals -/

theorem vals_congr {samples : List (SA K)} {weights : Option (SA K)} {axis : Option (List String)}
    (hs : GoodSamples samples weights axis S A) {e e' : String → Nat} (h : ∀ x ∈ keys S, e x = e' x) :
    (samples.map (fun s => s.atB e), (weightsOf weights).atB e) = (samples.map (fun s => s.atB e'), (weightsOf weights).atB e') := by
  have hwf : ∀ s ∈ samples.map SA.shape ++ [(weightsOf weights).shape], WF s := by
    intro s hm
    rw [List.mem_append, List.mem_singleton] at hm
    rcases hm with hm | rfl
    · obtain ⟨a, ha, rfl⟩ := List.mem_map.1 hm
      exact SA.wf_shape (hs.wf a ha)
    · exact SA.wf_shape hs.wfw
  have key : ∀ a : SA K, a.WF → a.shape ∈ samples.map SA.shape ++ [(weightsOf weights).shape] → a.atB e = a.atB e' := by
    intro a ha hm
    apply SA.atB_congr
    intro x hx
    rw [← SA.keys_shape ha] at hx
    exact h x ((C01_broadcast_shapes_ok _ hwf S hs.shape).2.1 x |>.2 ⟨_, hm, hx⟩)
  refine Prod.ext ?_ (key _ hs.wfw (by simp))
  exact List.map_congr_left fun s hsm => key s (hs.wf s hsm) (by rw [List.mem_append]; exact .inl (List.mem_map_of_mem hsm))

theorem slab_vals {samples : List (SA K)} {weights : Option (SA K)} {axis : Option (List String)}
    (hs : GoodSamples samples weights axis S A) {e e' : String → Nat} (h : ∀ x ∈ keys S, x ∉ A → e x = e' x)
    {l l' : List (String → Nat)} (hl : SlabOf S A e l) (hl' : SlabOf S A e' l') :
    (l.map (fun e => (samples.map (fun s => s.atB e), (weightsOf weights).atB e))).Perm
      (l'.map (fun e => (samples.map (fun s => s.atB e), (weightsOf weights).atB e))) := by
  have hsl : ∀ e, SlabOf S A e (slabEnvs A (fun ax => (get? S ax).getD 0) e) := by
    intro e
    refine ⟨nodup_slabEnvs hs.nodup _ _, fun e' => ?_⟩
    rw [mem_slabEnvs hs.nodup]
    refine and_congr_left fun _ => forall_congr' fun ax => imp_congr_right fun hax => ?_
    obtain ⟨n, hn⟩ := exists_get?_of_mem (hs.sub hax)
    simp [hn]
  refine ((slabOf_perm hl (hsl e)).map _).trans (List.Perm.trans ?_ ((slabOf_perm (hsl e') hl').map _))
  apply List.Perm.of_eq
  unfold slabEnvs
  rw [List.map_map, List.map_map]
  apply List.map_congr_left
  intro i _
  refine vals_congr hs fun x hx => ?_
  unfold slabEnv
  by_cases hxA : x ∈ A
  · simp [hxA]
  · simp [hxA, h x hx hxA]

theorem binCount_perm {V V' : List (List K × K)} (h : V.Perm V') (E : List (List K)) (k : List Nat) :
    binCount V E k = binCount V' E k := ((h.filter _).map _).sum_eq

theorem list_congr (h : GoodDims S A dims) {e e' : String → Nat} (hee : ∀ x ∈ keys S, x ∉ A → e x = e' x) :
    dims.map (Dim.list · e) = dims.map (Dim.list · e') := by
  apply List.map_congr_left
  intro D hD
  unfold Dim.list
  apply List.map_congr_left
  intro k _
  unfold Dim.edge
  apply SA.atB_congr
  intro x hx
  rw [← SA.keys_shape (h.wf D hD)] at hx
  obtain ⟨n, hn⟩ := exists_get?_of_mem hx
  by_cases hxa : x = D.axis
  · subst hxa; simp
  · rw [Function.update_of_ne hxa, Function.update_of_ne hxa]
    obtain ⟨h1, m, h2, _⟩ := h.other D hD x n hxa hn
    exact hee x (mem_keys_of_get? h2) h1

/-- **C58** (totals). If there is at least one bin in each dimension, the sum over all of the bins is the sum of the weights (the
number, without weights) of those samples along the summed axes which are between the first and the last edge (inclusive) in
each dimension. -/
theorem C58_total (samples : List (SA K)) (weights : Option (SA K)) (axis : Option (List String)) (S : Shape) (A : List String)
    (hs : GoodSamples samples weights axis S A) (dims : List (Dim K)) (hd : GoodDims S A dims)
    (hl : samples.length = dims.length) (hpos : ∀ D ∈ dims, 0 < D.num) (min max : Option (List (SA K))) (garbage : List Nat → K)
    (hist : SA K) (E : List (SA K))
    (hh : histogramdd samples (.edges (dims.map Dim.edges)) axis min max false weights garbage = .ok (hist, E))
    (e : String → Nat) (he : OutsideRange S A e) (L l : List (String → Nat)) (hL : SlabOf hist.shape (dims.map Dim.axis) e L)
    (hsl : SlabOf S A e l) :
    (L.map hist.at').sum =
      ((l.filter (fun e' => decide (Covered dims e (samples.map (fun s => s.atB e'))))).map (weightsOf weights).atB).sum := by
  obtain ⟨p, hist', h1, h2, h3, h4, h5, h6, h7⟩ := histogram_main hs hd false garbage
  have : hist' = hist := by
    obtain ⟨ss, s1, s2, _⟩ := histBroadcast hs h2 h3
    unfold histogramdd at hh
    simp only [bind, Except.bind, h1, s1, edgesOf, s2, hl, h4] at hh
    injection hh with hh
    injection hh
  subst this
  have hnum : ∀ D ∈ dims, get? hist'.shape D.axis = some D.num := fun D hD => (h6 _ _).2 (.inl ⟨D, hD, rfl, rfl⟩)
  have hnew : ∀ x ∈ keys S, x ∉ A → x ∉ dims.map Dim.axis := by
    intro x hx hxA hk
    obtain ⟨D, hD, rfl⟩ := List.mem_map.1 hk
    exact hxA (hd.new D hD hx)
  have hL2 : L.Perm (slabEnvs (dims.map Dim.axis) (fun ax => (get? hist'.shape ax).getD 0) e) := by
    refine slabOf_perm hL ⟨nodup_slabEnvs hd.nodup _ _, fun e' => ?_⟩
    rw [mem_slabEnvs hd.nodup]
    refine and_congr_left fun _ => forall_congr' fun ax => imp_congr_right fun hax => ?_
    obtain ⟨D, hD, rfl⟩ := List.mem_map.1 hax
    simp [hnum D hD]
  have hsz : (dims.map Dim.axis).map (fun ax => (get? hist'.shape ax).getD 0) = dims.map Dim.num := by
    rw [List.map_map]
    apply List.map_congr_left
    intro D hD
    simp [hnum D hD]
  have hat : ∀ e'' ∈ L, hist'.at' e'' = binCount (l.map (fun e' => (samples.map (fun s => s.atB e'), (weightsOf weights).atB e')))
      (dims.map (Dim.list · e)) ((dims.map Dim.axis).map e'') := by
    intro e'' hm
    obtain ⟨m1, m2⟩ := (hL.2 e'').1 hm
    have hr : InRange hist'.shape e'' := by
      intro x n hn
      rcases (h6 x n).1 hn with ⟨D, hD, rfl, rfl⟩ | ⟨g1, g2, g3⟩
      · obtain ⟨k, hk, hlt⟩ := m1 D.axis (List.mem_map_of_mem hD)
        rw [hnum D hD] at hk
        injection hk with hk
        omega
      · rw [m2 x g1]
        exact he x n g2 g3
    have hag : ∀ x ∈ keys S, x ∉ A → e'' x = e x := fun x hx hxA => m2 x (hnew x hx hxA)
    obtain ⟨l', l1, l2⟩ := h7 e'' hr
    rw [l2]
    show binCount _ _ _ = _
    rw [list_congr hd hag]
    exact binCount_perm (slab_vals hs hag l1 hsl) _ _
  rw [← total_slab hd he hpos samples hl (weightsOf weights) l, List.map_congr_left hat, (hL2.map _).sum_eq]
  unfold slabEnvs
  rw [List.map_map, hsz]
  congr 1
  apply List.map_congr_left
  intro i hi
  simp only [Function.comp_apply]
  rw [map_slabEnv hd.nodup (by simpa using ND.inRange_length (ND.mem_ndIndices_iff.1 hi))]

/-- **C58** (densities). With `density=True` each count is divided by the volume of the bin and by the total of the counts. -/
theorem C58_density (samples : List (SA K)) (weights : Option (SA K)) (axis : Option (List String)) (S : Shape) (A : List String)
    (hs : GoodSamples samples weights axis S A) (dims : List (Dim K)) (hd : GoodDims S A dims)
    (hl : samples.length = dims.length) (hpos : ∀ D ∈ dims, 0 < D.num) (min max : Option (List (SA K)))
    (garbage : List Nat → K) :
    ∃ hist, histogramdd samples (.edges (dims.map Dim.edges)) axis min max true weights garbage =
        .ok (hist, dims.map Dim.edges) ∧ hist.WF ∧ HistShape S A dims hist.shape ∧
      ∀ e, InRange hist.shape e → ∃ l, SlabOf S A e l ∧ hist.at' e =
        ((l.filter (fun e' => decide (Sampled dims e (samples.map (fun s => s.atB e'))))).map (weightsOf weights).atB).sum /
          cellVolume dims e /
          ((l.filter (fun e' => decide (Covered dims e (samples.map (fun s => s.atB e'))))).map (weightsOf weights).atB).sum := by
  obtain ⟨p, hist, h1, h2, h3, h4, h5, h6, h7⟩ := histogram_main hs hd true garbage
  have hb := histBroadcast hs h2 h3
  refine ⟨hist, ?_, h5, h6, fun e he => ?_⟩
  · obtain ⟨ss, s1, s2, _⟩ := hb
    unfold histogramdd
    simp only [bind, Except.bind, h1, s1, edgesOf, s2, hl, h4]
  · obtain ⟨l, l1, l2⟩ := h7 e he
    obtain ⟨o1, o2⟩ := outside_of_hist hd h6 he
    refine ⟨l, l1, l2.trans ?_⟩
    unfold histValue
    rw [if_pos rfl]
    have hsh : (dims.map (Dim.list · e)).map (fun es => es.length - 1) = dims.map Dim.num := by
      rw [List.map_map]
      apply List.map_congr_left
      intro D _
      simp [D.length_list]
    rw [hsh, total_slab hd o1 hpos samples hl, binCount_slab hd o1 o2 samples hl, binVolume_dims o2]

end NA
