import Verif.Scalar.Reduce
import Verif.Scalar.MaskLemmas

/-!
# Lemmas about reductions
-/

namespace NA
open Dict

/-- The named index which is `i` on the axes `A` and `e` elsewhere. -/
def slabEnv (A : List String) (i : List Nat) (e : String → Nat) : String → Nat :=
  fun ax => if ax ∈ A then i.getD (A.idxOf ax) 0 else e ax

/-- The named indices which agree with `e` off `A`, in row-major order with respect to `A`. -/
def slabEnvs (A : List String) (sz : String → Nat) (e : String → Nat) : List (String → Nat) :=
  (ndIndices (A.map sz)).map (fun i => slabEnv A i e)

theorem map_slabEnv {A : List String} (hA : A.Nodup) {i : List Nat} (hl : i.length = A.length)
    (e : String → Nat) : A.map (slabEnv A i e) = i := by
  conv_rhs => rw [← map_envOf hA hl]
  apply List.map_congr_left
  intro ax hax
  simp [slabEnv, hax, envOf]

theorem mem_slabEnvs {A : List String} (hA : A.Nodup) {sz e e' : String → Nat} :
    e' ∈ slabEnvs A sz e ↔ (∀ ax ∈ A, e' ax < sz ax) ∧ ∀ ax, ax ∉ A → e' ax = e ax := by
  unfold slabEnvs
  rw [List.mem_map]
  constructor
  · rintro ⟨i, hi, rfl⟩
    rw [ND.mem_ndIndices_iff] at hi
    have hl : i.length = A.length := by simpa using ND.inRange_length hi
    refine ⟨?_, ?_⟩
    · rw [← map_slabEnv hA hl e, SA.inRange_map] at hi
      exact hi
    · intro ax hax
      simp [slabEnv, hax]
  · rintro ⟨h1, h2⟩
    refine ⟨A.map e', ?_, ?_⟩
    · rw [ND.mem_ndIndices_iff, SA.inRange_map]; exact h1
    · funext ax
      unfold slabEnv
      split
      · next h => exact getD_map_idxOf e' h
      · next h => exact (h2 ax h).symm

theorem nodup_slabEnvs {A : List String} (hA : A.Nodup) (sz e : String → Nat) :
    (slabEnvs A sz e).Nodup := by
  unfold slabEnvs
  refine List.Nodup.map_on ?_ (nodup_ndIndices _)
  intro i hi j hj hij
  rw [ND.mem_ndIndices_iff] at hi hj
  rw [← map_slabEnv (i := i) hA (by simpa using ND.inRange_length hi) e, hij,
    map_slabEnv hA (by simpa using ND.inRange_length hj) e]

theorem slabEnvs_perm {A A' : List String} (hA : A.Nodup) (hA' : A'.Nodup)
    (h : ∀ ax, ax ∈ A ↔ ax ∈ A') {sz sz' : String → Nat} (hsz : ∀ ax ∈ A, sz ax = sz' ax)
    (e : String → Nat) :
    (slabEnvs A sz e).Perm (slabEnvs A' sz' e) := by
  rw [List.perm_ext_iff_of_nodup (nodup_slabEnvs hA _ _) (nodup_slabEnvs hA' _ _)]
  intro e'
  rw [mem_slabEnvs hA, mem_slabEnvs hA']
  constructor
  · rintro ⟨h1, h2⟩
    exact ⟨fun ax hax => hsz ax ((h ax).2 hax) ▸ h1 ax ((h ax).2 hax),
      fun ax hax => h2 ax (fun hh => hax ((h ax).1 hh))⟩
  · rintro ⟨h1, h2⟩
    exact ⟨fun ax hax => (hsz ax hax).symm ▸ h1 ax ((h ax).1 hax),
      fun ax hax => h2 ax (fun hh => hax ((h ax).2 hh))⟩

theorem slabEnvs_flatMap {A B : List String} (hA : A.Nodup) (hB : B.Nodup)
    (hd : ∀ ax ∈ B, ax ∉ A) (sz e : String → Nat) :
    (slabEnvs (A ++ B) sz e).Perm ((slabEnvs B sz e).flatMap (slabEnvs A sz)) := by
  have hAB : (A ++ B).Nodup := by
    rw [List.nodup_append]
    exact ⟨hA, hB, fun a ha b hb hab => hd b hb (hab ▸ ha)⟩
  have hn : ((slabEnvs B sz e).flatMap (slabEnvs A sz)).Nodup := by
    rw [List.nodup_flatMap]
    refine ⟨fun x _ => nodup_slabEnvs hA _ _, ?_⟩
    have := nodup_slabEnvs hB sz e
    refine List.Pairwise.imp_of_mem ?_ this
    intro x y hx hy hxy
    rw [mem_slabEnvs hB] at hx hy
    intro z hz1 hz2
    rw [mem_slabEnvs hA] at hz1 hz2
    apply hxy
    funext ax
    by_cases hax : ax ∈ B
    · rw [← hz1.2 ax (hd ax hax), hz2.2 ax (hd ax hax)]
    · rw [hx.2 ax hax, hy.2 ax hax]
  rw [List.perm_ext_iff_of_nodup (nodup_slabEnvs hAB _ _) hn]
  intro e'
  rw [mem_slabEnvs hAB, List.mem_flatMap]
  constructor
  · rintro ⟨h1, h2⟩
    refine ⟨fun ax => if ax ∈ B then e' ax else e ax, ?_, ?_⟩
    · rw [mem_slabEnvs hB]
      exact ⟨fun ax hax => by simp [hax, h1], fun ax hax => by simp [hax]⟩
    · rw [mem_slabEnvs hA]
      refine ⟨fun ax hax => h1 ax (by simp [hax]), fun ax hax => ?_⟩
      by_cases hb : ax ∈ B
      · simp [hb]
      · simp only [hb, if_false]; exact h2 ax (by simp [hax, hb])
  · rintro ⟨e1, h1, h2⟩
    rw [mem_slabEnvs hB] at h1
    rw [mem_slabEnvs hA] at h2
    refine ⟨?_, ?_⟩
    · intro ax hax
      by_cases ha : ax ∈ A
      · exact h2.1 ax ha
      · rw [h2.2 ax ha]
        exact h1.1 ax (by simpa [ha] using hax)
    · intro ax hax
      simp only [List.mem_append, not_or] at hax
      rw [h2.2 ax hax.1, h1.2 ax hax.2]

namespace ND
variable {α β : Type}

theorem mem_positions {axes A : List String} (hn : axes.Nodup) (hsub : A ⊆ axes) {p : Nat}
    (hp : p < axes.length) : p ∈ A.map axes.idxOf ↔ axes[p] ∈ A := by
  rw [List.mem_map]
  constructor
  · rintro ⟨x, hx, hxp⟩
    have := List.getElem_idxOf (idxOf_lt (hsub hx))
    simp only [hxp] at this
    rw [this]; exact hx
  · intro h
    exact ⟨_, h, hn.idxOf_getElem _ _⟩

theorem filter_mem_map_getD {axes S : List String} (hn : axes.Nodup) (hsub : S ⊆ axes) :
    ((List.range axes.length).filter (· ∈ S.map axes.idxOf)).map (fun j => axes.getD j "") =
      axes.filter (· ∈ S) := by
  conv_rhs => rw [← SA.axes_eq_map_range axes]
  rw [List.filter_map]
  congr 1
  apply List.filter_congr
  intro j hj
  have hj' : j < axes.length := by simpa using hj
  have := mem_positions hn hsub hj'
  simp only [Function.comp_apply, List.getD_eq_getElem _ _ hj', this]

theorem map_sz_filter {axes : List String} {sz : String → Nat} {shape : List Nat}
    (hs : shape = axes.map sz) {l : List Nat} (hl : ∀ j ∈ l, j < axes.length) :
    l.map (fun p => shape.getD p 0) = (l.map (fun j => axes.getD j "")).map sz := by
  rw [List.map_map]
  apply List.map_congr_left
  intro j hj
  have hj' := hl j hj
  subst hs
  simp [List.getElem?_eq_getElem hj']

theorem mergeIdx_named {axes A : List String} (hn : axes.Nodup) (hsub : A ⊆ axes) (kd : Bool)
    (e : String → Nat) (j : List Nat) :
    mergeIdx axes.length (A.map axes.idxOf) kd
        ((if kd then axes else axes.filter (· ∉ A)).map e) j =
      axes.map (slabEnv (axes.filter (· ∈ A)) j e) := by
  unfold mergeIdx
  apply List.ext_getElem
  · simp
  · intro p h1 h2
    have hp : p < axes.length := by simpa using h2
    simp only [List.getElem_map, List.getElem_range, mem_positions hn hsub hp]
    have e1 : (axes.filter (· ∈ A)).idxOf axes[p] =
        ((List.range axes.length).filter (· ∈ A.map axes.idxOf)).idxOf p := by
      rw [← filter_mem_map_getD hn hsub]
      exact SA.idxOf_map_getD hn (fun k hk => by
        have := List.mem_of_mem_filter hk
        simpa using this) hp
    have e2 : (axes.filter (· ∉ A)).idxOf axes[p] =
        ((List.range axes.length).filter (· ∉ A.map axes.idxOf)).idxOf p := by
      rw [← SA.filter_map_getD hn hsub]
      exact SA.idxOf_map_getD hn (fun k hk => by
        have := List.mem_of_mem_filter hk
        simpa using this) hp
    unfold slabEnv
    by_cases hpA : axes[p] ∈ A
    · rw [if_pos hpA, if_pos (by simp [hpA]), e1]
    · have hpA' : axes[p] ∉ axes.filter (· ∈ A) := by simp [hpA]
      simp only [if_neg hpA, if_neg hpA']
      cases kd with
      | true => simp [List.getElem?_eq_getElem hp]
      | false =>
        simp only [Bool.false_eq_true, if_false]
        rw [← e2]
        exact getD_map_idxOf e (by simp [hpA])

theorem reduce_named {v : ND α} {axes : List String} (hn : axes.Nodup) {sz : String → Nat}
    (hs : v.shape = axes.map sz) {A : List String} (hA : A.Nodup) (hsub : A ⊆ axes)
    (need : Bool) (f : List α → β) (kd : Bool) (mask : Option (ND Bool)) :
    (need = true ∧ ((axes.filter (· ∈ A)).map sz).prod = 0 ∧ ((axes.filter (· ∉ A)).map sz).prod ≠ 0 ∧
      v.reduce need f (A.map axes.idxOf) kd mask = .error .valueError) ∨
    (¬ (need = true ∧ ((axes.filter (· ∈ A)).map sz).prod = 0 ∧
        ((axes.filter (· ∉ A)).map sz).prod ≠ 0) ∧
      ∃ r, v.reduce need f (A.map axes.idxOf) kd mask = .ok r ∧
        r.shape = (if kd then axes else axes.filter (· ∉ A)).map (fun ax => if ax ∈ A then 1 else sz ax) ∧
        ∀ e, r.get ((if kd then axes else axes.filter (· ∉ A)).map e) =
          f (((slabEnvs (axes.filter (· ∈ A)) sz e).filter (fun e' => maskAt mask (axes.map e'))).map (fun e' => v.get (axes.map e')))) := by
  have hlen : v.ndim = axes.length := by simp [ndim, hs]
  have hred : ((List.range v.ndim).filter (· ∈ A.map axes.idxOf)).map (fun p => v.shape.getD p 0) =
      (axes.filter (· ∈ A)).map sz := by
    rw [hlen, map_sz_filter hs (fun j hj => by
      have := List.mem_of_mem_filter hj
      simpa using this), filter_mem_map_getD hn hsub]
  have hkept : ((List.range v.ndim).filter (· ∉ A.map axes.idxOf)).map (fun p => v.shape.getD p 0) =
      (axes.filter (· ∉ A)).map sz := by
    rw [hlen, map_sz_filter hs (fun j hj => by
      have := List.mem_of_mem_filter hj
      simpa using this), SA.filter_map_getD hn hsub]
  have hpos : (A.map axes.idxOf).Nodup ∧ ∀ p ∈ A.map axes.idxOf, p < v.ndim := by
    refine ⟨SA.nodup_map_idxOf hA hsub, ?_⟩
    intro p hp
    obtain ⟨x, hx, rfl⟩ := List.mem_map.1 hp
    rw [hlen]; exact idxOf_lt (hsub hx)
  unfold reduce
  simp only [if_pos hpos, hred, hkept]
  by_cases hc : need = true ∧ ((axes.filter (· ∈ A)).map sz).prod = 0 ∧
      ((axes.filter (· ∉ A)).map sz).prod ≠ 0
  · left
    refine ⟨hc.1, hc.2.1, hc.2.2, ?_⟩
    rw [if_pos hc]
  · right
    refine ⟨hc, _, if_neg hc, ?_, ?_⟩
    · cases kd with
      | true =>
        simp only [if_true]
        apply List.ext_getElem
        · simp [hlen]
        · intro p h1 h2
          have hp : p < axes.length := by simpa using h2
          have hps : p < v.shape.length := by rw [hs]; simpa using hp
          simp only [List.getElem_map, List.getElem_range, mem_positions hn hsub hp]
          congr 1
          rw [List.getD_eq_getElem _ _ hps]
          simp [hs]
      | false =>
        simp only [Bool.false_eq_true, if_false]
        apply List.map_congr_left
        intro ax hax
        simp only [List.mem_filter, decide_eq_true_eq] at hax
        simp [hax.2]
    · intro e
      simp only
      congr 1
      have : (ndIndices ((axes.filter (· ∈ A)).map sz)).map (mergeIdx v.ndim (A.map axes.idxOf) kd
          ((if kd then axes else axes.filter (· ∉ A)).map e)) =
          (slabEnvs (axes.filter (· ∈ A)) sz e).map (fun e' => axes.map e') := by
        unfold slabEnvs
        rw [List.map_map]
        apply List.map_congr_left
        intro j _
        rw [hlen]
        exact mergeIdx_named hn hsub kd e j
      rw [this, List.filter_map, List.map_map]
      rfl

theorem alongAxis_named {v : ND α} {axes : List String} (hn : axes.Nodup) {sz : String → Nat}
    (hs : v.shape = axes.map sz) {ax : String} (hax : ax ∈ axes) (m : Nat) (g : List α → Nat → β) :
    ∃ r, v.alongAxis (axes.idxOf ax) m g = .ok r ∧
      r.shape = axes.map (fun x => if x = ax then m else sz x) ∧
      ∀ e, r.get (axes.map e) =
        g ((List.range (sz ax)).map (fun k => v.get (axes.map (Function.update e ax k)))) (e ax) := by
  have hlen : v.ndim = axes.length := by simp [ndim, hs]
  have hlt := idxOf_lt hax
  have hset : ∀ {δ : Type} (e : String → δ) (k : δ), (axes.map e).set (axes.idxOf ax) k =
      axes.map (Function.update e ax k) := by
    intro δ e k
    apply List.ext_getElem
    · simp
    · intro i h1 h2
      simp only [List.length_map] at h2
      rw [List.getElem_set]
      simp only [List.getElem_map, Function.update_apply]
      by_cases hi : axes[i] = ax
      · have : axes.idxOf ax = i := by subst hi; exact hn.idxOf_getElem _ _
        simp [hi, this]
      · have : axes.idxOf ax ≠ i := by
          intro h; apply hi; subst h; exact List.getElem_idxOf _
        simp [hi, this]
  unfold alongAxis
  rw [if_pos (by rw [hlen]; exact hlt)]
  refine ⟨_, rfl, ?_, ?_⟩
  · simp only [hs]
    rw [hset]
    apply List.map_congr_left
    intro x _
    simp [Function.update_apply]
  · intro e
    simp only [line]
    rw [getD_map_idxOf e hax, hs, getD_map_idxOf sz hax]
    congr 1
    apply List.map_congr_left
    intro k _
    rw [hset]

end ND

/-- a shape which fits in the first one does not change it -/
theorem broadcastShapes_fits {s t : Shape}
    (h : ∀ ax m, get? t ax = some m → ∃ n, get? s ax = some n ∧ (m = n ∨ m = 1)) (ht : Dict.WF t) :
    broadcastShapes [s, t] = .ok s := by
  have key : ∀ t' : Shape, (∀ p ∈ t', ∃ n, get? s p.1 = some n ∧ (p.2 = n ∨ p.2 = 1)) →
      t'.foldlM bcAxis s = .ok s := by
    intro t' ht'
    induction t' with
    | nil => rfl
    | cons p t' ih =>
      obtain ⟨n, hn, hp⟩ := ht' p (by simp)
      have hb : bcAxis s p = .ok s := by
        unfold bcAxis
        rw [hn]
        simp only
        split
        · rfl
        · split
          · rfl
          · next h1 h2 => exact absurd hp (by grind)
      rw [List.foldlM_cons, hb]
      exact ih (fun q hq => ht' q (by simp [hq]))
  simp only [broadcastShapes, List.foldlM_cons, List.foldlM_nil, bcShape]
  have := key t (fun p hp => h p.1 p.2 (get?_of_mem ht hp))
  rw [this]
  split <;> rfl

namespace SA
variable {α β : Type}

/-- The condition that the `where` argument fits in the array. -/
def WhereOk (a : SA α) (wh : Option (SA Bool)) : Prop :=
  ∀ w, wh = some w → w.WF ∧
    ∀ ax m, get? w.shape ax = some m → ∃ n, get? a.shape ax = some n ∧ (m = n ∨ m = 1)

/-- Whether the element at a named index is selected. -/
def selected (wh : Option (SA Bool)) (e : String → Nat) : Bool :=
  match wh with
  | none => true
  | some w => w.atB e

theorem pyTupleIndex_mapM {l S : List String} (h : S ⊆ l) :
    S.mapM (pyTupleIndex l) = .ok (S.map l.idxOf) := by
  induction S with
  | nil => rfl
  | cons x S ih =>
    rw [List.mapM_cons, ih (fun y hy => h (by simp [hy]))]
    simp only [pyTupleIndex, if_pos (h (List.mem_cons_self))]
    rfl

theorem pyTupleIndex_mapM_error {l S : List String} (h : ¬ S ⊆ l) :
    S.mapM (pyTupleIndex l) = .error .valueError := by
  induction S with
  | nil => simp at h
  | cons x S ih =>
    rw [List.mapM_cons]
    by_cases hx : x ∈ l
    · simp only [pyTupleIndex, if_pos hx]
      have : ¬ S ⊆ l := fun hS => h (by simp [hx, hS])
      rw [ih this]
      rfl
    · simp only [pyTupleIndex, if_neg hx]
      rfl

theorem whereOk_broadcast {a : SA α} {wh : Option (SA Bool)} (hw : WhereOk a wh) :
    broadcastShapes (a.shape :: (wh.map SA.shape).toList) = .ok a.shape := by
  cases wh with
  | none => rfl
  | some w =>
    obtain ⟨h1, h2⟩ := hw w rfl
    exact broadcastShapes_fits h2 (wf_shape h1)

/-- `a.shape[ax]`, or 1 -/
def size1 (a : SA α) (ax : String) : Nat := (get? a.shape ax).getD 1

theorem reduceNd_main {a : SA α} (ha : a.WF) {wh : Option (SA Bool)} (hw : WhereOk a wh)
    {axesNd : List String} (hn : axesNd.Nodup) (hsub : a.axes ⊆ axesNd)
    {A : List String} (hA : A.Nodup) (hAs : A ⊆ axesNd) (need : Bool) (f : List α → β) (kd : Bool) :
    (need = true ∧ ((axesNd.filter (· ∈ A)).map a.size1).prod = 0 ∧
        ((axesNd.filter (· ∉ A)).map a.size1).prod ≠ 0 ∧
      reduceNd need f a A kd wh axesNd = .error .valueError) ∨
    (¬ (need = true ∧ ((axesNd.filter (· ∈ A)).map a.size1).prod = 0 ∧
        ((axesNd.filter (· ∉ A)).map a.size1).prod ≠ 0) ∧
      ∃ r, reduceNd need f a A kd wh axesNd = .ok r ∧
        r.shape = (if kd then axesNd else axesNd.filter (· ∉ A)).map
          (fun ax => if ax ∈ A then 1 else a.size1 ax) ∧
        ∀ e, r.get ((if kd then axesNd else axesNd.filter (· ∉ A)).map e) =
          f (((slabEnvs (axesNd.filter (· ∈ A)) a.size1 e).filter (selected wh)).map a.at')) := by
  obtain ⟨v, hv⟩ := aligned_isOk ha hn hsub
  obtain ⟨_, hvs, hvg⟩ := aligned_ok ha hn hv
  have hmask : ∃ mask, alignMask axesNd wh = .ok mask ∧ maskFits v mask = true ∧
      ∀ e, ND.maskAt mask (axesNd.map e) = selected wh e := by
    cases wh with
    | none => exact ⟨none, rfl, rfl, fun _ => rfl⟩
    | some w =>
      obtain ⟨h1, h2⟩ := hw w rfl
      have hws : w.axes ⊆ axesNd := by
        intro ax hax
        rw [← keys_shape h1] at hax
        obtain ⟨m, hm⟩ := exists_get?_of_mem hax
        obtain ⟨n, hn', _⟩ := h2 ax m hm
        have := mem_keys_of_get? hn'
        rw [keys_shape ha] at this
        exact hsub this
      obtain ⟨m, hm⟩ := aligned_isOk h1 hn hws
      refine ⟨some m, by simp [alignMask, hm, Except.map], ?_, ?_⟩
      · simp only [maskFits, decide_eq_true_eq]
        obtain ⟨_, hms, _⟩ := aligned_ok h1 hn hm
        rw [hvs, hms]
        refine bshape_of_join (t := a.shape) (r := a.shape) (s := w.shape) ?_ axesNd
        intro x
        cases hx : get? w.shape x with
        | none => simp
        | some m =>
          obtain ⟨n, hn', hmn⟩ := h2 x m hx
          rw [hn']
          simp only [joinOpt]
          grind
      · intro e
        exact aligned_clip h1 hn hm e
  obtain ⟨mask, hm1, hm2, hm3⟩ := hmask
  have hred : reduceNd need f a A kd wh axesNd = v.reduce need f (A.map axesNd.idxOf) kd mask := by
    unfold reduceNd
    rw [pyTupleIndex_mapM hAs]
    simp only [bind, Except.bind, hm1, hv, hm2, if_true]
  rw [hred]
  rcases ND.reduce_named hn (sz := a.size1) hvs hA hAs need f kd mask with h | ⟨h1, r, h2, h3, h4⟩
  · left; exact h
  · right
    refine ⟨h1, r, h2, h3, ?_⟩
    intro e
    rw [h4]
    congr 1
    rw [List.filter_congr (q := selected wh) (fun e' _ => hm3 e')]
    apply List.map_congr_left
    intro e' _
    exact hvg e'

theorem reduce_dup {a : SA α} (ha : a.WF) {wh : Option (SA Bool)} (hw : WhereOk a wh)
    {axesNd : List String} (hn : axesNd.Nodup) {A : List String} (hA : ¬ A.Nodup)
    (hsub : a.axes ⊆ axesNd) (need : Bool) (f : List α → β) (kd : Bool) :
    reduceNd need f a A kd wh axesNd = .error .valueError := by
  by_cases hAs : A ⊆ axesNd
  · obtain ⟨v, hv⟩ := aligned_isOk ha hn hsub
    obtain ⟨_, hvs, hvg⟩ := aligned_ok ha hn hv
    unfold reduceNd
    rw [pyTupleIndex_mapM hAs]
    simp only [bind, Except.bind]
    have hdup : ¬ (A.map axesNd.idxOf).Nodup := fun h => hA (List.Nodup.of_map _ h)
    have hr : ∀ mask, v.reduce need f (A.map axesNd.idxOf) kd mask = .error .valueError := by
      intro mask
      unfold ND.reduce
      simp only
      rw [if_neg (fun h => hdup h.1)]
    rcases reduceNd_main ha hw hn hsub (A := []) (by simp) (by simp) false f kd with h | ⟨_, r, h, _⟩
    · exact absurd h.1 (by simp)
    · unfold reduceNd at h
      simp only [List.mapM_nil, bind, Except.bind, pure, Except.pure, hv] at h
      cases hwa : alignMask axesNd wh with
      | error e => simp [hwa] at h
      | ok m =>
        simp only [hwa] at h ⊢
        split at h
        · next hmf => simp only [hv, hr, hmf, if_true]
        · cases h
  · unfold reduceNd
    rw [pyTupleIndex_mapM_error hAs]
    rfl

theorem size1_eq {a : SA α} (ha : a.WF) {ax : String} (h : ax ∈ a.axes) : a.size1 ax = a.sizeOf' ax := by
  unfold size1 sizeOf'
  rw [← keys_shape ha] at h
  obtain ⟨n, hn⟩ := exists_get?_of_mem h
  simp [hn]

end SA
end NA
