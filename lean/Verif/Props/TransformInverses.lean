import Verif.Props.Transformations

/-!
# C43: the inverse of a transformation

The linear parts must be matrices which the package can invert (see `InvM` and C39): what is missing are matrices with more than
three rows and the matrices of `C39_fails_order` and `C39_fails_class`.
-/

namespace NA
open Dict Comp
open SA (FitsIn InRange)
variable {α K : Type}

section general
variable [Field K] {o : Ops α} {dv : K → K → K} {good : α → Prop} {val : α → K} {τ σ μ : Comp Unit}
  {sig : String → Option (List String)}

/-- `B` is the two-sided inverse of the values of a matrix. -/
def InverseValues (τ σ : Comp Unit) (A B : String → String → K) : Prop :=
  (∀ r ∈ kindNames σ, ∀ r' ∈ kindNames σ, ∑ c ∈ kindNames τ, A r c * B c r' = if r = r' then 1 else 0) ∧
  ∀ c ∈ kindNames τ, ∀ c' ∈ kindNames τ, ∑ r ∈ kindNames σ, B c r * A r c' = if c = c' then 1 else 0

/-- A matrix which takes vectors of kind `τ` to vectors of kind `σ` and which the package can invert:
it has at most three rows, all rows list their components in the same order, the class of the rows is the class of the matrix,
and the values are those of an invertible matrix. -/
structure InvM (sig : String → Option (List String)) (good : α → Prop) (val : α → K) (τ σ : Comp Unit) (M : Mat α) :
    Prop where
  typed : IsM good τ σ M
  ok : ∀ cls l, (leavesL M.rows).head? = some (.node cls l) → cls = M.cls ∧ SigOk sig M.cls (keys l)
  order : ∃ n, (1 ≤ n ∧ n ≤ 3) ∧ ∃ rs cs : Fin n → String, Ordered M (List.ofFn rs) (List.ofFn cs)
  inv : ∃ B, InverseValues τ σ (mval val M.rows) B

/-- A transformation with invertible linear part. -/
def Simple.Inv (sig : String → Option (List String)) (good : α → Prop) (val : α → K) :
    Simple α → Comp Unit → Comp Unit → Prop
  | .identity, τ, σ => τ = σ
  | .translation v, τ, σ => τ = σ ∧ IsV good τ v
  | .linear M, τ, σ => InvM sig good val τ σ M
  | .affine M v, τ, σ => InvM sig good val τ σ M ∧ IsV good σ v

mutual
/-- All linear parts are invertible. -/
def Tr.Inv (sig : String → Option (List String)) (good : α → Prop) (val : α → K) :
    Tr α → Comp Unit → Comp Unit → Prop
  | .simple s, τ, σ => s.Inv sig good val τ σ
  | .list true ts, τ, σ => Tr.InvFwd sig good val ts τ σ
  | .list false ts, τ, σ => Tr.InvRev sig good val ts τ σ
/-- ... in order -/
def Tr.InvFwd (sig : String → Option (List String)) (good : α → Prop) (val : α → K) :
    List (Tr α) → Comp Unit → Comp Unit → Prop
  | [], τ, σ => τ = σ
  | t :: ts, τ, σ => ∃ μ, t.Inv sig good val τ μ ∧ Tr.InvFwd sig good val ts μ σ
/-- ... in reverse order -/
def Tr.InvRev (sig : String → Option (List String)) (good : α → Prop) (val : α → K) :
    List (Tr α) → Comp Unit → Comp Unit → Prop
  | [], τ, σ => τ = σ
  | t :: ts, τ, σ => ∃ μ, Tr.InvRev sig good val ts τ μ ∧ t.Inv sig good val μ σ
end

/-- Two vectors with the same class, component names (in any order) and values. -/
def SameValues (val : α → K) (v w : Vec α) : Prop :=
  v.toComp.Alike w.toComp ∧ ∀ c, v.toComp.vval val c = w.toComp.vval val c

/-! ### Helpers -/

theorem Simple.Inv.typed {s : Simple α} (h : s.Inv sig good val τ σ) : s.Typed good τ σ := by
  cases s with
  | identity => exact h
  | translation v => exact h
  | linear M => exact InvM.typed h
  | affine M v => exact ⟨InvM.typed h.1, h.2⟩

theorem toMatrix_det {M : Mat α} {n : Nat} {rs cs : Fin n → String} (hrs : Function.Injective rs)
    (hcs : Function.Injective cs) (hR : Finset.univ.image rs = kindNames σ) (hC : Finset.univ.image cs = kindNames τ)
    {B : String → String → K} (h : InverseValues τ σ (mval val M.rows) B) : (toMatrix val M rs cs).det ≠ 0 := by
  have h1 : toMatrix val M rs cs * Matrix.of (fun i j => B (cs i) (rs j)) = 1 := by
    ext i j
    rw [Matrix.mul_apply]
    simp only [toMatrix, Matrix.of_apply]
    have := h.1 (rs i) (by rw [← hR]; simp) (rs j) (by rw [← hR]; simp)
    rw [← hC, Finset.sum_image (fun _ _ _ _ h => hcs h)] at this
    rw [this, Matrix.one_apply]
    by_cases hij : i = j
    · simp [hij]
    · rw [if_neg hij, if_neg (fun h => hij (hrs h))]
  have h2 := congrArg Matrix.det h1
  rw [Matrix.det_mul, Matrix.det_one] at h2
  intro h0
  rw [h0, zero_mul] at h2
  exact zero_ne_one h2

theorem inverseValues_of_toMatrix {M N : Mat α} {n : Nat} {rs cs : Fin n → String} (hrs : Function.Injective rs)
    (hcs : Function.Injective cs) (hR : Finset.univ.image rs = kindNames σ) (hC : Finset.univ.image cs = kindNames τ)
    (h1 : toMatrix val M rs cs * toMatrix val N cs rs = 1) (h2 : toMatrix val N cs rs * toMatrix val M rs cs = 1) :
    InverseValues τ σ (mval val M.rows) (mval val N.rows) := by
  constructor
  · intro r hr r' hr'
    rw [← hR] at hr hr'
    obtain ⟨i, -, rfl⟩ := Finset.mem_image.1 hr
    obtain ⟨j, -, rfl⟩ := Finset.mem_image.1 hr'
    rw [← hC, Finset.sum_image (fun _ _ _ _ h => hcs h)]
    have := congrFun (congrFun h1 i) j
    rw [Matrix.mul_apply, Matrix.one_apply] at this
    simp only [toMatrix, Matrix.of_apply] at this
    rw [this]
    by_cases hij : i = j
    · simp [hij]
    · rw [if_neg hij, if_neg (fun h => hij (hrs h))]
  · intro r hr r' hr'
    rw [← hC] at hr hr'
    obtain ⟨i, -, rfl⟩ := Finset.mem_image.1 hr
    obtain ⟨j, -, rfl⟩ := Finset.mem_image.1 hr'
    rw [← hR, Finset.sum_image (fun _ _ _ _ h => hrs h)]
    have := congrFun (congrFun h2 i) j
    rw [Matrix.mul_apply, Matrix.one_apply] at this
    simp only [toMatrix, Matrix.of_apply] at this
    rw [this]
    by_cases hij : i = j
    · simp [hij]
    · rw [if_neg hij, if_neg (fun h => hij (hcs h))]

/-- The inverse of a matrix takes vectors of kind `σ` to vectors of kind `τ`. -/
theorem inverse_typed (ho : o.Sound dv good val) (hdv : ∀ a b, b ≠ 0 → dv a b = a / b) {M : Mat α}
    (hM : InvM sig good val τ σ M) : ∃ N, M.inverse o sig = .ok N ∧ IsM good σ τ N ∧
      InverseValues τ σ (mval val M.rows) (mval val N.rows) := by
  obtain ⟨n, hn, rs, cs, hord⟩ := hM.order
  obtain ⟨hR, hC, ir, ic⟩ := ordered_names hn.1 hM.typed.1 hord
  obtain ⟨B, hB⟩ := hM.inv
  obtain ⟨N, h1, h2, ⟨h3, cls, l, r, t1, tw, t2, t3⟩, h4, h5⟩ := inverse_main ho hdv sig M hM.typed.1
    (fun cls l h => (hM.ok cls l h).2) hn rs cs hord (toMatrix_det ir ic hR hC hB)
  refine ⟨N, h1, ⟨h3, ?_, ?_⟩, inverseValues_of_toMatrix ir ic hR hC h4 h5⟩
  · have hrow := hM.typed.2.2 _ (List.mem_of_head? t1)
    have hcls := (hM.ok cls l t1).1
    have hs : skelL r = skelL l := by
      rw [← skelL_layout r, t3]
      exact Mat.skelL_mapL _ _
    have a1 : (Comp.node N.cls N.rows).Alike (Comp.node N.cls r) := (alike_of_perm t2 tw).symm
    have a2 : (Comp.node N.cls r).Alike (Comp.node cls l) := alike_of_skel (by
      rw [skel_node, skel_node, hs, h2, hcls])
    exact a1.trans (a2.trans hrow)
  · intro row hrow
    have hp : row ∈ leavesL r := by
      rw [leavesL_eq] at hrow ⊢
      exact (t2.flatMap_right (fun p => p.2.leaves)).mem_iff.2 hrow
    have h7 : row.skel ∈ leavesL (layout r) := by
      unfold layout; rw [Mat.leavesL_mapL]; exact List.mem_map.2 ⟨row, hp, rfl⟩
    rw [t3, Mat.leavesL_mapL] at h7
    obtain ⟨_, _, h8⟩ := List.mem_map.1 h7
    exact (alike_of_skel (w := Comp.node M.cls M.rows) (by rw [skel_node]; exact h8.symm)).trans hM.typed.2.1

/-- Products of invertible matrices are invertible. -/
theorem InvM.mul (ho : o.Sound dv good val) {M N P : Mat α} (hM : InvM sig good val μ σ M) (hN : InvM sig good val τ μ N)
    (hP : M.matMat o N = .ok P) : InvM sig good val τ σ P := by
  obtain ⟨P', row, h1, h2, h3, h4, h5, h6⟩ := C40_matMat ho M N hM.typed.1 hN.typed.1
  rw [hP] at h2; cases h2
  obtain ⟨P', p1, p2, p3, p4, p5⟩ := matMat_typed ho hM.typed hN.typed
  rw [hP] at p1; cases p1
  have hcls : M.cls = N.cls := by
    obtain ⟨rowM, -, ⟨cls, l, rfl, -⟩, hrow⟩ := hM.typed.1.proto
    have a1 := hM.typed.2.2 _ (List.mem_of_head? hrow)
    have a2 := (a1.trans hN.typed.2.1.symm).node
    rw [← (hM.ok _ _ hrow).1, a2.1]
  have hskel : ∀ rowP ∈ leavesL P.rows, rowP.skel = row.skel := by
    intro rowP hp
    have h7 : rowP.skel ∈ leavesL (layout P.rows) := by
      unfold layout; rw [Mat.leavesL_mapL]; exact List.mem_map.2 ⟨rowP, hp, rfl⟩
    rw [h5, Mat.leavesL_mapL] at h7
    obtain ⟨_, _, h8⟩ := List.mem_map.1 h7
    exact h8.symm
  obtain ⟨clsN, lN, rfl, hwN, hnN, -⟩ := hN.typed.1.leaves row (List.mem_of_head? h1)
  refine ⟨p4, ?_, ?_, ?_⟩
  · intro cls l hl
    have h8 := hskel _ (List.mem_of_head? hl)
    rw [skel_node, skel_node] at h8
    injection h8 with h8 h9
    have := hN.ok clsN lN h1
    refine ⟨by rw [h8, this.1, p2, hcls], ?_⟩
    rw [keys_of_skelL h9, p2, hcls]
    exact this.2
  · obtain ⟨n, hn, rs, cs, hord⟩ := hM.order
    obtain ⟨m, hm, rs', ds, hord'⟩ := hN.order
    obtain ⟨hR, hC, ir, ic⟩ := ordered_names hn.1 hM.typed.1 hord
    obtain ⟨hR', hC', ir', ic'⟩ := ordered_names hm.1 hN.typed.1 hord'
    have hnm : n = m := by
      have := congrArg Finset.card (hC.trans hR'.symm)
      rw [Finset.card_image_of_injective _ ic, Finset.card_image_of_injective _ ir'] at this
      simpa using this
    subst hnm
    refine ⟨n, hn, rs, ds, ?_, ?_⟩
    · obtain ⟨-, -, hk, -⟩ := of_skelL (cls := "") (cls' := "") p3 hM.typed.1.1 hM.typed.1.2.1
      rw [hk]
      exact hord.1
    · intro p hp
      have hpl : p.2 ∈ leavesL P.rows := by
        rw [← values_cartesianNd h4.1 h4.2.1]
        exact List.mem_map.2 ⟨p, hp, rfl⟩
      have h8 := hskel _ hpl
      obtain ⟨cls, l, e, hw, hn', -⟩ := h4.leaves _ hpl
      rw [e, skel_node, skel_node] at h8
      injection h8 with h8 h9
      refine ⟨cls, l, e, ?_⟩
      obtain ⟨-, -, hk, -⟩ := of_skelL (cls := "") (cls' := "") h9 hwN hnN
      rw [hk]
      have hrow : Comp.node clsN lN ∈ leavesL N.rows := List.mem_of_head? h1
      rw [← values_cartesianNd hN.typed.1.1 hN.typed.1.2.1] at hrow
      obtain ⟨q, hq, hq'⟩ := List.mem_map.1 hrow
      obtain ⟨cls2, l2, e2, hk2⟩ := hord'.2 q hq
      rw [hq'] at e2
      cases e2
      exact hk2
  · obtain ⟨A, hA⟩ := hM.inv
    obtain ⟨B, hB⟩ := hN.inv
    refine ⟨fun c r => ∑ m ∈ kindNames μ, B c m * A m r, ?_, ?_⟩
    · intro r hr r' hr'
      have e1 := Simple.sum_mul_sum (R' := kindNames σ) (C := kindNames μ) (D := kindNames τ) (mval val M.rows)
        (mval val N.rows) (mval val P.rows) (fun d => ∑ m ∈ kindNames μ, B d m * A m r') p5 r hr
      rw [e1, ← hA.1 r hr r' hr']
      refine Finset.sum_congr rfl (fun m hm => ?_)
      congr 1
      have e2 := Simple.sum_mul_sum (R' := kindNames μ) (C := kindNames τ) (D := kindNames μ) (mval val N.rows) B
        (fun r c => if r = c then 1 else 0) (fun m => A m r') (fun a ha b hb => (hB.1 a ha b hb).symm) m hm
      rw [← e2]
      simp [hm]
    · intro c hc c' hc'
      have e1 := Simple.sum_mul_sum (R' := kindNames τ) (C := kindNames μ) (D := kindNames σ) B A
        (fun c r => ∑ m ∈ kindNames μ, B c m * A m r) (fun r => mval val P.rows r c') (fun _ _ _ _ => rfl) c hc
      rw [e1, ← hB.2 c hc c' hc']
      refine Finset.sum_congr rfl (fun m hm => ?_)
      congr 1
      rw [Finset.sum_congr rfl (fun r hr => by rw [p5 r hr c' hc'])]
      have e2 := Simple.sum_mul_sum (R' := kindNames μ) (C := kindNames σ) (D := kindNames μ) A (mval val M.rows)
        (fun r c => if r = c then 1 else 0) (fun m => mval val N.rows m c') (fun a ha b hb => (hA.2 a ha b hb).symm) m hm
      rw [← e2]
      simp [hm]

theorem Simple.Inv.matmul (ho : o.Sound dv good val) {f g h : Simple α} (hg : g.Inv sig good val τ μ)
    (hf : f.Inv sig good val μ σ) (hm : f.matmul o g = .ok h) : h.Inv sig good val τ σ := by
  obtain ⟨h', a1, a2, -⟩ := Simple.matmul_ok ho hg.typed hf.typed
  rw [hm] at a1; cases a1
  have hmat : ∀ {M N P : Mat α}, InvM sig good val μ σ M → InvM sig good val τ μ N → M.matMat o N = .ok P →
    InvM sig good val τ σ P := fun hM hN => InvM.mul ho hM hN
  cases f with
  | identity => cases hf; cases hm; exact hg
  | translation v =>
    obtain ⟨rfl, hv⟩ := hf
    cases g with
    | identity => cases hm; exact ⟨hg, hg ▸ hv⟩
    | translation w =>
      simp only [Simple.matmul, bind, Except.bind] at hm
      split at hm
      · cases hm
      · cases hm; exact a2
    | linear M => cases hm; exact ⟨hg, hv⟩
    | affine M w =>
      simp only [Simple.matmul, bind, Except.bind] at hm
      split at hm
      · cases hm
      · cases hm; exact ⟨hg.1, a2.2⟩
  | linear M =>
    cases g with
    | identity => cases hg; cases hm; exact hf
    | translation w =>
      obtain ⟨rfl, hw⟩ := hg
      simp only [Simple.matmul, bind, Except.bind] at hm
      split at hm
      · cases hm
      · cases hm; exact ⟨hf, a2.2⟩
    | linear N =>
      simp only [Simple.matmul, bind, Except.bind] at hm
      split at hm
      · cases hm
      · rename_i P hP; cases hm; exact hmat hf hg hP
    | affine N w =>
      simp only [Simple.matmul, bind, Except.bind] at hm
      split at hm
      · cases hm
      · rename_i P hP
        split at hm
        · cases hm
        · cases hm; exact ⟨hmat hf hg.1 hP, a2.2⟩
  | affine M v =>
    cases g with
    | identity => cases hg; cases hm; exact hf
    | translation w =>
      obtain ⟨rfl, hw⟩ := hg
      simp only [Simple.matmul, bind, Except.bind] at hm
      split at hm
      · cases hm
      · split at hm
        · cases hm
        · cases hm; exact ⟨hf.1, a2.2⟩
    | linear N =>
      simp only [Simple.matmul, bind, Except.bind] at hm
      split at hm
      · cases hm
      · rename_i P hP; cases hm; exact ⟨hmat hf.1 hg hP, a2.2⟩
    | affine N w =>
      simp only [Simple.matmul, bind, Except.bind] at hm
      split at hm
      · cases hm
      · rename_i P hP
        split at hm
        · cases hm
        · split at hm
          · cases hm
          · cases hm; exact ⟨hmat hf.1 hg.1 hP, a2.2⟩

mutual
theorem composed_inv (ho : o.Sound dv good val) : (t : Tr α) → ∀ {τ σ : Comp Unit}, t.Inv sig good val τ σ →
    t.Typed good τ σ ∧ ∃ s, t.composed o = .ok s ∧ s.Inv sig good val τ σ
  | .simple s, τ, σ, h => by
    simp only [Tr.Inv] at h
    exact ⟨by simp only [Tr.Typed]; exact h.typed, s, by simp only [Tr.composed], h⟩
  | .list true ts, τ, σ, h => by
    simp only [Tr.Inv] at h
    obtain ⟨h1, s, h2, h3⟩ := composeFwd_inv ho ts (acc := .identity) (τ := τ) rfl h
    exact ⟨by simp only [Tr.Typed]; exact h1, s, by simp only [Tr.composed]; exact h2, h3⟩
  | .list false ts, τ, σ, h => by
    simp only [Tr.Inv] at h
    obtain ⟨h1, s, h2, h3⟩ := composeRev_inv ho ts h
    exact ⟨by simp only [Tr.Typed]; exact h1, s, by simp only [Tr.composed]; exact h2, h3⟩
theorem composeFwd_inv (ho : o.Sound dv good val) : (ts : List (Tr α)) → ∀ {τ μ σ : Comp Unit} {acc : Simple α},
    acc.Inv sig good val τ μ → Tr.InvFwd sig good val ts μ σ →
    Tr.TypedFwd good ts μ σ ∧ ∃ s, Tr.composeFwd o acc ts = .ok s ∧ s.Inv sig good val τ σ
  | [], τ, μ, σ, acc, ha, h => by
    simp only [Tr.InvFwd] at h
    subst h
    exact ⟨by simp only [Tr.TypedFwd], acc, by simp only [Tr.composeFwd], ha⟩
  | t :: ts, τ, μ, σ, acc, ha, h => by
    simp only [Tr.InvFwd] at h
    obtain ⟨μ', h1, h2⟩ := h
    obtain ⟨g1, s, g2, g3⟩ := composed_inv ho t h1
    obtain ⟨r, r1, -⟩ := Simple.matmul_ok ho ha.typed g3.typed
    obtain ⟨k1, q, k2, k3⟩ := composeFwd_inv ho ts (Simple.Inv.matmul ho ha g3 r1) h2
    exact ⟨by simp only [Tr.TypedFwd]; exact ⟨μ', g1, k1⟩, q, by simp only [Tr.composeFwd, g2, r1, bind, Except.bind, k2], k3⟩
theorem composeRev_inv (ho : o.Sound dv good val) : (ts : List (Tr α)) → ∀ {τ σ : Comp Unit},
    Tr.InvRev sig good val ts τ σ →
    Tr.TypedRev good ts τ σ ∧ ∃ s, Tr.composeRev o ts = .ok s ∧ s.Inv sig good val τ σ
  | [], τ, σ, h => by
    simp only [Tr.InvRev] at h
    subst h
    exact ⟨by simp only [Tr.TypedRev], .identity, by simp only [Tr.composeRev], rfl⟩
  | t :: ts, τ, σ, h => by
    simp only [Tr.InvRev] at h
    obtain ⟨μ', h1, h2⟩ := h
    obtain ⟨k1, q, k2, k3⟩ := composeRev_inv ho ts h1
    obtain ⟨g1, s, g2, g3⟩ := composed_inv ho t h2
    obtain ⟨r, r1, -⟩ := Simple.matmul_ok ho k3.typed g3.typed
    exact ⟨by simp only [Tr.TypedRev]; exact ⟨μ', k1, g1⟩, r, by simp only [Tr.composeRev, k2, g2, r1, bind, Except.bind],
      Simple.Inv.matmul ho k3 g3 r1⟩
end

theorem sameValues_of {v w : Vec α} (hv : IsV good τ v) (hw : IsV good τ w)
    (h : ∀ c ∈ kindNames τ, v.toComp.vval val c = w.toComp.vval val c) : SameValues val v w := by
  refine ⟨hv.2.trans hw.2.symm, fun c => ?_⟩
  by_cases hc : c ∈ kindNames τ
  · exact h c hc
  · rw [vval_out hv.1 hc, vval_out hw.1 hc]

theorem sum_delta {C : Finset String} {x : String → K} {c : String} (hc : c ∈ C) :
    ∑ d ∈ C, (if c = d then 1 else 0) * x d = x c := by
  simp [hc]

/-- The inverse of a transformation which is not a list. -/
theorem Simple.inverse_ok (ho : o.Sound dv good val) (hdv : ∀ a b, b ≠ 0 → dv a b = a / b) {s : Simple α}
    (hs : s.Inv sig good val τ σ) : ∃ i, s.inverse o sig = .ok i ∧ i.Typed good σ τ ∧
      (∀ (x : String → K), ∀ c ∈ kindNames τ,
        i.act val (kindNames σ) (s.act val (kindNames τ) x) c = x c) ∧
      ∀ (x : String → K), ∀ c ∈ kindNames σ,
        s.act val (kindNames τ) (i.act val (kindNames σ) x) c = x c := by
  cases s with
  | identity => exact ⟨.identity, rfl, hs.symm, fun _ _ _ => rfl, fun _ _ _ => rfl⟩
  | translation v =>
    obtain ⟨rfl, hv⟩ := hs
    obtain ⟨w, h1, -, -, h4, h5⟩ := neg_typed ho hv
    refine ⟨.translation w, by simp only [inverse, h1, bind, Except.bind], ⟨rfl, h4⟩, ?_, ?_⟩
    · intro x c hc; simp only [act]; rw [h5 c hc]; ring
    · intro x c hc; simp only [act]; rw [h5 c hc]; ring
  | linear M =>
    obtain ⟨N, h1, h2, h3⟩ := inverse_typed ho hdv hs
    refine ⟨.linear N, by simp only [inverse, h1, bind, Except.bind], h2, ?_, ?_⟩
    · intro x c hc
      simp only [act]
      rw [← sum_mul_sum _ _ (fun r c => if r = c then 1 else 0) x (fun a ha b hb => (h3.2 a ha b hb).symm) c hc]
      exact sum_delta hc
    · intro x c hc
      simp only [act]
      rw [← sum_mul_sum _ _ (fun r c => if r = c then 1 else 0) x (fun a ha b hb => (h3.1 a ha b hb).symm) c hc]
      exact sum_delta hc
  | affine M v =>
    obtain ⟨N, h1, h2, h3⟩ := inverse_typed ho hdv hs.1
    obtain ⟨w, g1, -, -, g4, g5⟩ := neg_typed ho hs.2
    obtain ⟨z, z1, -, -, z4, z5⟩ := matVec_typed ho h2 g4
    refine ⟨.affine N z, by simp only [inverse, h1, g1, z1, bind, Except.bind], ⟨h2, z4⟩, ?_, ?_⟩
    · intro x c hc
      simp only [act]
      rw [z5 c hc, ← Finset.sum_add_distrib]
      have : ∀ r ∈ kindNames σ, mval val N.rows c r * (∑ d ∈ kindNames τ, mval val M.rows r d * x d + v.toComp.vval val r) +
          mval val N.rows c r * w.toComp.vval val r = mval val N.rows c r * ∑ d ∈ kindNames τ, mval val M.rows r d * x d := by
        intro r hr
        rw [g5 r hr]
        ring
      rw [Finset.sum_congr rfl this,
        ← sum_mul_sum _ _ (fun r c => if r = c then 1 else 0) x (fun a ha b hb => (h3.2 a ha b hb).symm) c hc]
      exact sum_delta hc
    · intro x c hc
      simp only [act]
      have : ∀ d ∈ kindNames τ, mval val M.rows c d * (∑ r ∈ kindNames σ, mval val N.rows d r * x r + z.toComp.vval val d) =
          mval val M.rows c d * ∑ r ∈ kindNames σ, mval val N.rows d r * x r +
          mval val M.rows c d * ∑ r ∈ kindNames σ, mval val N.rows d r * w.toComp.vval val r := by
        intro d hd
        rw [z5 d hd]
        ring
      rw [Finset.sum_congr rfl this, Finset.sum_add_distrib,
        ← sum_mul_sum _ _ (fun r c => if r = c then 1 else 0) x (fun a ha b hb => (h3.1 a ha b hb).symm) c hc,
        ← sum_mul_sum _ _ (fun r c => if r = c then 1 else 0) (fun r => w.toComp.vval val r)
          (fun a ha b hb => (h3.1 a ha b hb).symm) c hc, sum_delta hc, sum_delta hc, g5 c hc]
      ring

/-- **C43** `t.inverse(t(x))` is `x` and `t(t.inverse(y))` is `y`, for lists of any length nested to any depth, intrinsic or
not.  The result has the same class and component names as `x`; the order of the names of a `CartesianNd` vector may change. -/
theorem C43_inverse_partial (ho : o.Sound dv good val) (hdv : ∀ a b, b ≠ 0 → dv a b = a / b) (t : Tr α)
    (ht : t.Inv sig good val τ σ) : ∃ i, t.inverse o sig = .ok i ∧ i.Typed good σ τ ∧
      (∀ x, IsV good τ x → ∃ y z, t.call o x = .ok y ∧ i.call o y = .ok z ∧ SameValues val z x) ∧
      ∀ y, IsV good σ y → ∃ x z, i.call o y = .ok x ∧ t.call o x = .ok z ∧ SameValues val z y := by
  obtain ⟨h1, s, h2, h3⟩ := composed_inv ho t ht
  obtain ⟨i, i1, i2, i3, i4⟩ := Simple.inverse_ok ho hdv h3
  have hcall : ∀ x, t.call o x = s.call o x := fun x => by simp only [Tr.call, h2, bind, Except.bind]
  have hcall' : ∀ x, (Tr.simple i).call o x = i.call o x := fun x => by
    simp only [Tr.call, Tr.composed, bind, Except.bind]
  refine ⟨.simple i, by simp only [Tr.inverse, h2, i1, bind, Except.bind], by simp only [Tr.Typed]; exact i2, ?_, ?_⟩
  · intro x hx
    obtain ⟨y, y1, y2, -, y4⟩ := Simple.call_ok ho h3.typed hx
    obtain ⟨z, z1, z2, -, z4⟩ := Simple.call_ok ho i2 y2
    refine ⟨y, z, by rw [hcall, y1], by rw [hcall', z1], sameValues_of z2 hx (fun c hc => ?_)⟩
    rw [z4 c hc, ← i3 (fun c => x.toComp.vval val c) c hc]
    exact Simple.act_congr i2 y4 c hc
  · intro x hx
    obtain ⟨y, y1, y2, -, y4⟩ := Simple.call_ok ho i2 hx
    obtain ⟨z, z1, z2, -, z4⟩ := Simple.call_ok ho h3.typed y2
    refine ⟨y, z, by rw [hcall', y1], by rw [hcall, z1], sameValues_of z2 hx (fun c hc => ?_)⟩
    rw [z4 c hc, ← i4 (fun c => x.toComp.vval val c) c hc]
    exact Simple.act_congr h3.typed y4 c hc

end general
end NA
