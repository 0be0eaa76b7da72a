import Mathlib.Algebra.BigOperators.Ring.List
import Mathlib.Algebra.BigOperators.Group.List.Lemmas
import Verif.Scalar.ReduceLemmas
import Verif.Props.Indexing

/-!
# Reductions over named axes (C17, C18) and cumulative reductions (C19)
-/

namespace NA
open Dict
namespace SA
variable {α β : Type}

/-! ### Specification -/

/-- `l` lists, each exactly once, the named indices which agree with `e` off the axes `A` and are in
range of the array on the axes `A`. -/
def IsSlab (a : SA α) (A : List String) (e : String → Nat) (l : List (String → Nat)) : Prop :=
  l.Nodup ∧ ∀ e', e' ∈ l ↔
    (∀ ax ∈ A, ∃ n, get? a.shape ax = some n ∧ e' ax < n) ∧ ∀ ax, ax ∉ A → e' ax = e ax

/-- A function of a list which does not depend on the order of the elements. -/
def Orderless (f : List α → β) : Prop := ∀ l l', l.Perm l' → f l = f l'

/-- A function without identity, such as `min`, is applied to no element somewhere: an axis of `A` is
empty but the result is not. -/
def EmptySlab (a : SA α) (A : List String) : Prop :=
  (∃ ax ∈ A, get? a.shape ax = some 0) ∧ ∀ ax, ax ∉ A → get? a.shape ax ≠ some 0

/-! ### Helpers -/

theorem isSlab_slabEnvs {a : SA α} (ha : a.WF) {A B : List String} (hB : B.Nodup) (hBs : B ⊆ a.axes)
    (h : ∀ ax, ax ∈ B ↔ ax ∈ A) (e : String → Nat) : IsSlab a A e (slabEnvs B a.size1 e) := by
  refine ⟨nodup_slabEnvs hB _ _, fun e' => ?_⟩
  rw [mem_slabEnvs hB]
  refine and_congr ?_ ?_
  · refine forall_congr' fun ax => ?_
    rw [h ax]
    refine imp_congr_right fun hax => ?_
    have hk : ax ∈ keys a.shape := by rw [keys_shape ha]; exact hBs ((h ax).2 hax)
    obtain ⟨n, hn⟩ := exists_get?_of_mem hk
    simp [size1, hn]
  · refine forall_congr' fun ax => ?_
    rw [h ax]

theorem IsSlab.perm {a : SA α} {A : List String} {e : String → Nat} {l l' : List (String → Nat)}
    (h : IsSlab a A e l) (h' : IsSlab a A e l') : l.Perm l' := by
  rw [List.perm_ext_iff_of_nodup h.1 h'.1]
  intro e'
  rw [h.2, h'.2]

theorem emptySlab_iff {a : SA α} (ha : a.WF) {A : List String} (hAs : A ⊆ a.axes) :
    EmptySlab a A ↔ ((a.axes.filter (· ∈ A)).map a.size1).prod = 0 ∧
      ((a.axes.filter (· ∉ A)).map a.size1).prod ≠ 0 := by
  have hs : ∀ ax, a.size1 ax = 0 ↔ get? a.shape ax = some 0 := by
    intro ax
    unfold size1
    cases get? a.shape ax <;> simp
  rw [Ne, List.prod_eq_zero_iff, List.prod_eq_zero_iff]
  unfold EmptySlab
  simp only [List.mem_map, List.mem_filter, decide_eq_true_eq, hs]
  refine and_congr ?_ ?_
  · constructor
    · rintro ⟨ax, h1, h2⟩; exact ⟨ax, ⟨hAs h1, h1⟩, h2⟩
    · rintro ⟨ax, ⟨_, h1⟩, h2⟩; exact ⟨ax, h1, h2⟩
  · constructor
    · rintro h ⟨ax, ⟨_, h1⟩, h2⟩; exact h ax h1 h2
    · intro h ax h1 h2
      have := mem_keys_of_get? h2
      rw [keys_shape ha] at this
      exact h ⟨ax, ⟨this, h1⟩, h2⟩

theorem reduce_eq_none {a : SA α} (ha : a.WF) {wh : Option (SA Bool)} (hw : WhereOk a wh)
    {A : List String} (hAs : A ⊆ a.axes) (need : Bool) (f : List α → β) (kd : Bool) :
    reduce need f a (some A) kd wh none =
      match reduceNd need f a A kd wh a.axes with
      | .error e => .error e
      | .ok nd => mk? nd (if kd then a.axes else a.axes.filter (· ∉ A)) := by
  have hc : A.all (· ∈ a.axes) = true := by
    simp only [List.all_eq_true, decide_eq_true_eq]; exact fun ax h => hAs h
  unfold reduce
  rw [whereOk_broadcast hw]
  simp only [bind, Except.bind, axisNormalized, keys_shape ha, hc, Option.isSome_some, Bool.not_true,
    Bool.and_false, Bool.false_eq_true, if_false]
  cases reduceNd need f a A kd wh _ <;> rfl

theorem reduce_eq_some {a : SA α} (ha : a.WF) {wh : Option (SA Bool)} (hw : WhereOk a wh)
    {A : List String} (hAs : A ⊆ a.axes) (need : Bool) (f : List α → β) (kd : Bool) (o : SA β) :
    reduce need f a (some A) kd wh (some o) =
      match reduceNd need f a A kd wh
        (if kd then o.axes else o.axes ++ a.axes.filter (· ∉ o.axes)) with
      | .error e => .error e
      | .ok nd => if nd.shape = o.nd.shape then .ok ⟨o.axes, nd⟩ else .error .valueError := by
  have hc : A.all (· ∈ a.axes) = true := by
    simp only [List.all_eq_true, decide_eq_true_eq]; exact fun ax h => hAs h
  unfold reduce
  rw [whereOk_broadcast hw]
  simp only [bind, Except.bind, axisNormalized, keys_shape ha, hc, Option.isSome_some, Bool.not_true,
    Bool.and_false, Bool.false_eq_true, if_false]
  cases reduceNd need f a A kd wh _ <;> rfl

theorem reduce_main {a : SA α} (ha : a.WF) {wh : Option (SA Bool)} (hw : WhereOk a wh)
    {A : List String} (hA : A.Nodup) (hAs : A ⊆ a.axes) (need : Bool) (f : List α → β) (kd : Bool) :
    (need = true ∧ EmptySlab a A ∧ reduce need f a (some A) kd wh none = .error .valueError) ∨
    (¬ (need = true ∧ EmptySlab a A) ∧
      ∃ r, reduce need f a (some A) kd wh none = .ok r ∧ r.WF ∧
        r.axes = (if kd then a.axes else a.axes.filter (· ∉ A)) ∧
        (∀ ax, get? r.shape ax = if ax ∈ A then (if kd then some 1 else none) else get? a.shape ax) ∧
        ∀ e, r.at' e =
          f (((slabEnvs (a.axes.filter (· ∈ A)) a.size1 e).filter (selected wh)).map a.at')) := by
  rw [emptySlab_iff ha hAs, reduce_eq_none ha hw hAs]
  rcases reduceNd_main ha hw ha.2 (fun _ h => h) hA hAs need f kd with ⟨h1, h2, h3, h4⟩ | ⟨h1, r, h2, h3, h4⟩
  · left
    exact ⟨h1, ⟨h2, h3⟩, by rw [h4]⟩
  · right
    refine ⟨h1, ?_⟩
    rw [h2]
    simp only
    have hnd : (if kd = true then a.axes else a.axes.filter (· ∉ A)).Nodup := by
      split
      · exact ha.2
      · exact ha.2.filter _
    obtain ⟨hwf, hsh⟩ := mk_map hnd h3
    refine ⟨_, mk?_of_wf hwf.1 hwf.2, hwf, rfl, ?_, ?_⟩
    · intro ax
      rw [hsh]
      by_cases hax : ax ∈ A
      · cases kd with
        | true => simp [hax, hAs hax]
        | false => simp [hax]
      · by_cases hm : ax ∈ a.axes
        · obtain ⟨n, hn⟩ := exists_get?_of_mem (d := a.shape) (by rw [keys_shape ha]; exact hm)
          have : ax ∈ (if kd = true then a.axes else a.axes.filter (· ∉ A)) := by
            split
            · exact hm
            · simp [hm, hax]
          rw [if_pos this, if_neg hax, if_neg hax, size1, hn]; rfl
        · have : ax ∉ (if kd = true then a.axes else a.axes.filter (· ∉ A)) := by
            split
            · exact hm
            · simp [hm]
          rw [if_neg this, if_neg hax, (get?_shape_none ha).2 hm]
    · intro e
      exact h4 e

/-! ### C17 -/

/-- **C17** The result of a reduction over the axes `A` keeps exactly the other axes (in their order);
with `keepdims` it keeps all the axes, the reduced ones with size 1.  Its element at a named index is the
reduction of the elements of `a` which agree with that index on the other axes and which are selected
by `where`. -/
theorem C17_reduce (a : SA α) (ha : a.WF) (wh : Option (SA Bool)) (hw : WhereOk a wh)
    (A : List String) (hA : A.Nodup) (hAs : A ⊆ a.axes) (need : Bool) (f : List α → β) (kd : Bool)
    (hne : ¬ (need = true ∧ EmptySlab a A)) :
    ∃ r, reduce need f a (some A) kd wh none = .ok r ∧ r.WF ∧
      r.axes = (if kd then a.axes else a.axes.filter (· ∉ A)) ∧
      (∀ ax, get? r.shape ax = if ax ∈ A then (if kd then some 1 else none) else get? a.shape ax) ∧
      ∀ e, ∃ l, IsSlab a A e l ∧ r.at' e = f ((l.filter (selected wh)).map a.at') := by
  rcases reduce_main ha hw hA hAs need f kd with ⟨h1, h2, _⟩ | ⟨_, r, h1, h2, h3, h4, h5⟩
  · exact absurd ⟨h1, h2⟩ hne
  · refine ⟨r, h1, h2, h3, h4, fun e => ⟨_, ?_, h5 e⟩⟩
    exact isSlab_slabEnvs ha (ha.2.filter _) (by simp) (by
      intro ax
      simp only [List.mem_filter, decide_eq_true_eq, and_iff_right_iff_imp]
      exact fun h => hAs h) e

/-- **C17** For an order-insensitive function the element is the reduction of *any* enumeration of the
slab. -/
theorem C17_reduce_orderless (a : SA α) (ha : a.WF) (wh : Option (SA Bool)) (hw : WhereOk a wh)
    (A : List String) (hA : A.Nodup) (hAs : A ⊆ a.axes) (need : Bool) (f : List α → β)
    (hf : Orderless f) (kd : Bool) (r : SA β) (hr : reduce need f a (some A) kd wh none = .ok r)
    (e : String → Nat) (l : List (String → Nat)) (hl : IsSlab a A e l) :
    r.at' e = f ((l.filter (selected wh)).map a.at') := by
  rcases reduce_main ha hw hA hAs need f kd with ⟨_, _, h⟩ | ⟨h0, _⟩
  · rw [h] at hr; cases hr
  · obtain ⟨r', h1, _, _, _, h5⟩ := C17_reduce a ha wh hw A hA hAs need f kd h0
    rw [h1] at hr
    injection hr with hr
    subst hr
    obtain ⟨l', hl', h6⟩ := h5 e
    rw [h6]
    exact hf _ _ (((hl'.perm hl).filter _).map _)

/-- **C17** The order in which the axes are listed does not matter, with or without `out`. -/
theorem C17_axis_order (a : SA α) (wh : Option (SA Bool)) (A A' : List String) (h : A.Perm A')
    (need : Bool) (f : List α → β) (kd : Bool) (out : Option (SA β)) :
    reduce need f a (some A) kd wh out = reduce need f a (some A') kd wh out := by
  have hmem : ∀ x, x ∈ A ↔ x ∈ A' := fun x => h.mem_iff
  have hnd : ∀ axesNd : List String,
      reduceNd need f a A kd wh axesNd = reduceNd need f a A' kd wh axesNd := by
    intro axesNd
    unfold reduceNd
    by_cases hs : A ⊆ axesNd
    · have hs' : A' ⊆ axesNd := fun x hx => hs ((hmem x).2 hx)
      rw [pyTupleIndex_mapM hs, pyTupleIndex_mapM hs']
      have hp : (A.map axesNd.idxOf).Perm (A'.map axesNd.idxOf) := h.map _
      have hpm : ∀ x, x ∈ A.map axesNd.idxOf ↔ x ∈ A'.map axesNd.idxOf := fun x => hp.mem_iff
      have : ∀ (v : ND α) mask, v.reduce need f (A.map axesNd.idxOf) kd mask =
          v.reduce need f (A'.map axesNd.idxOf) kd mask := by
        intro v mask
        unfold ND.reduce
        have hm : ∀ i, ND.mergeIdx v.ndim (A.map axesNd.idxOf) kd i =
            ND.mergeIdx v.ndim (A'.map axesNd.idxOf) kd i := by
          intro i; funext j
          unfold ND.mergeIdx
          simp only [hpm]
        simp only [hp.nodup_iff, hm, hpm]
      simp only [bind, Except.bind, this]
    · have hs' : ¬ A' ⊆ axesNd := fun hh => hs (fun x hx => hh ((hmem x).1 hx))
      rw [pyTupleIndex_mapM_error hs, pyTupleIndex_mapM_error hs']
  have hall : ∀ l : List String, A.all (· ∈ l) = A'.all (· ∈ l) := by
    intro l
    rw [Bool.eq_iff_iff]
    simp [hmem]
  have hfil : ∀ l : List String, l.filter (· ∉ A) = l.filter (· ∉ A') := by
    intro l
    simp only [hmem]
  unfold reduce
  show (broadcastShapes _ >>= fun shape => if (some A).isSome && !(A.all (· ∈ shape.keys)) then _ else _) =
    (broadcastShapes _ >>= fun shape => if (some A').isSome && !(A'.all (· ∈ shape.keys)) then _ else _)
  simp only [axisNormalized, hnd, Option.isSome_some, hall]
  congr! 7
  congr 1
  split
  · rfl
  · exact hfil _

/-- **C17** `axis=None` reduces all the axes of the array. -/
theorem C17_axis_none (a : SA α) (ha : a.WF) (wh : Option (SA Bool)) (hw : WhereOk a wh)
    (need : Bool) (f : List α → β) (kd : Bool) (out : Option (SA β)) :
    reduce need f a none kd wh out = reduce need f a (some a.axes) kd wh out := by
  have hc : a.axes.all (· ∈ a.axes) = true := by simp
  unfold reduce
  rw [whereOk_broadcast hw]
  simp only [axisNormalized, keys_shape ha, bind, Except.bind, hc, Option.isSome_none, Bool.false_and,
    Bool.not_true, Bool.and_false]
  rfl

/-- **C17** Naming an axis which the array lacks, naming an axis twice, and reducing no elements by a
function without identity all raise `ValueError`. -/
theorem C17_error (a : SA α) (ha : a.WF) (wh : Option (SA Bool)) (hw : WhereOk a wh)
    (A : List String) (need : Bool) (f : List α → β) (kd : Bool)
    (h : ¬ A ⊆ a.axes ∨ ¬ A.Nodup ∨ (need = true ∧ EmptySlab a A)) :
    reduce need f a (some A) kd wh none = .error .valueError := by
  by_cases hAs : A ⊆ a.axes
  · by_cases hA : A.Nodup
    · rcases reduce_main ha hw hA hAs need f kd with ⟨_, _, h'⟩ | ⟨h', _⟩
      · exact h'
      · exact absurd h (by simp only [not_or, not_not]; exact ⟨hAs, hA, h'⟩)
    · rw [reduce_eq_none ha hw hAs, reduce_dup ha hw ha.2 hA (fun _ h => h)]
  · unfold reduce
    rw [whereOk_broadcast hw]
    have hc : A.all (· ∈ a.axes) = false := by
      rw [Bool.eq_false_iff]
      intro hh
      simp only [List.all_eq_true, decide_eq_true_eq] at hh
      exact hAs (fun x hx => hh x hx)
    simp only [bind, Except.bind, axisNormalized, keys_shape ha, hc, Option.isSome_some, Bool.not_false,
      Bool.and_true, if_true]

/-- **C17** Two arrays which are the same by name (for instance one is a transpose of the other) have
the same reductions by name. -/
theorem C17_layout (a a' : SA α) (ha : a.WF) (ha' : a'.WF) (hs : SameByName a a')
    (A : List String) (hA : A.Nodup) (hAs : A ⊆ a.axes) (need : Bool) (f : List α → β)
    (hf : Orderless f) (kd : Bool) (r : SA β) (hr : reduce need f a (some A) kd none none = .ok r) :
    ∃ r', reduce need f a' (some A) kd none none = .ok r' ∧ SameByName r r' := by
  have hw : WhereOk a none := by intro w h; cases h
  have hw' : WhereOk a' none := by intro w h; cases h
  have hax : ∀ ax, ax ∈ a.axes ↔ ax ∈ a'.axes := by
    intro ax
    rw [← keys_shape ha, ← keys_shape ha', ← not_iff_not, ← get?_eq_none, ← get?_eq_none, hs.1 ax]
  have hAs' : A ⊆ a'.axes := fun x hx => (hax x).1 (hAs hx)
  rcases reduce_main ha hw hA hAs need f kd with ⟨_, _, h⟩ | ⟨h0, r0, h1, h2, _, h4, h5⟩
  · rw [h] at hr; cases hr
  · rw [h1] at hr; injection hr with hr; subst hr
    have he : ¬ (need = true ∧ EmptySlab a' A) := by
      rintro ⟨g1, ⟨g2, g3⟩⟩
      refine h0 ⟨g1, ?_, ?_⟩
      · obtain ⟨ax, g4, g5⟩ := g2; exact ⟨ax, g4, by rw [hs.1]; exact g5⟩
      · intro ax g4; rw [hs.1]; exact g3 ax g4
    obtain ⟨r', k1, k2, _, k4, k5⟩ := C17_reduce a' ha' none hw' A hA hAs' need f kd he
    refine ⟨r', k1, ?_, ?_⟩
    · intro ax; rw [h4, k4, hs.1]
    · intro e hein
      obtain ⟨l, hl, hl2⟩ := k5 e
      rw [hl2]
      have hl3 : IsSlab a A e l := by
        refine ⟨hl.1, fun e' => ?_⟩
        rw [hl.2]
        have : ∀ ax, get? a.shape ax = get? a'.shape ax := hs.1
        simp only [this]
      rw [C17_reduce_orderless a ha none hw A hA hAs need f hf kd r0 h1 e l hl3]
      congr 1
      apply List.map_congr_left
      intro e' he'
      refine hs.2 e' ?_
      intro ax n hn
      have hm := (hl3.2 e').1 (List.mem_of_mem_filter he')
      by_cases hxA : ax ∈ A
      · obtain ⟨n', hn', hlt⟩ := hm.1 ax hxA
        rw [hn] at hn'; injection hn' with hn'; omega
      · rw [hm.2 ax hxA]
        exact hein ax n (by rw [h4, if_neg hxA]; exact hn)

/-- **C17** With an `out` array whose axes are the other axes in any order (all the axes with
`keepdims`), the result has the axes of `out` in its order and the elements by name are those of the
reduction without `out`. -/
theorem C17_out (a : SA α) (ha : a.WF) (wh : Option (SA Bool)) (hw : WhereOk a wh)
    (A : List String) (hA : A.Nodup) (hAs : A ⊆ a.axes) (need : Bool) (f : List α → β)
    (hf : Orderless f) (kd : Bool) (r : SA β) (hr : reduce need f a (some A) kd wh none = .ok r)
    (out : SA β) (ho : out.WF) (hos : ∀ ax, get? out.shape ax = get? r.shape ax) :
    ∃ r', reduce need f a (some A) kd wh (some out) = .ok r' ∧ r'.axes = out.axes ∧ r'.WF ∧
      SameByName r r' := by
  rcases reduce_main ha hw hA hAs need f kd with ⟨_, _, h⟩ | ⟨h0, r0, h1, h2, h3, h4, h5⟩
  · rw [h] at hr; cases hr
  rw [h1] at hr; injection hr with hr; subst hr
  have hoax : ∀ ax, ax ∈ out.axes ↔ ax ∈ r0.axes := by
    intro ax
    rw [← keys_shape ho, ← keys_shape h2, ← not_iff_not, ← get?_eq_none, ← get?_eq_none, hos]
  have hnd : ∃ axesNd, (if kd = true then out.axes else out.axes ++ a.axes.filter (· ∉ out.axes)) = axesNd ∧
      axesNd.Nodup ∧ (∀ ax, ax ∈ axesNd ↔ ax ∈ a.axes) ∧
      (if kd = true then axesNd else axesNd.filter (· ∉ A)) = out.axes := by
    cases kd with
    | true =>
      refine ⟨out.axes, rfl, ho.2, ?_, rfl⟩
      intro ax; rw [hoax, h3]; rfl
    | false =>
      have h3' : ∀ ax, ax ∈ out.axes ↔ ax ∈ a.axes ∧ ax ∉ A := by
        intro ax; rw [hoax, h3]; simp
      refine ⟨_, rfl, ?_, ?_, ?_⟩
      · simp only [Bool.false_eq_true, if_false]
        rw [List.nodup_append]
        refine ⟨ho.2, ha.2.filter _, ?_⟩
        intro x hx y hy hxy
        subst hxy
        simp at hy
        exact hy.2 hx
      · intro ax
        simp only [Bool.false_eq_true, if_false, List.mem_append, List.mem_filter, decide_eq_true_eq]
        constructor
        · rintro (h | h)
          · exact ((h3' ax).1 h).1
          · exact h.1
        · intro h
          by_cases hh : ax ∈ out.axes
          · exact .inl hh
          · exact .inr ⟨h, hh⟩
      · simp only [Bool.false_eq_true, if_false, List.filter_append]
        have e1 : out.axes.filter (· ∉ A) = out.axes := by
          rw [List.filter_eq_self]
          intro x hx
          simpa using ((h3' x).1 hx).2
        have e2 : (a.axes.filter (· ∉ out.axes)).filter (· ∉ A) = [] := by
          rw [List.filter_eq_nil_iff]
          intro x hx hxA
          simp only [List.mem_filter, decide_eq_true_eq] at hx hxA
          exact hx.2 ((h3' x).2 ⟨hx.1, hxA⟩)
        rw [e1, e2, List.append_nil]
  obtain ⟨axesNd, hx1, hx2, hx3, hx4⟩ := hnd
  rw [reduce_eq_some ha hw hAs, hx1]
  have hAs' : A ⊆ axesNd := fun x hx => (hx3 x).2 (hAs hx)
  have hpf : ∀ S : String → Bool, (axesNd.filter S).Perm (a.axes.filter S) := by
    intro S
    rw [List.perm_ext_iff_of_nodup (hx2.filter _) (ha.2.filter _)]
    intro x; simp [hx3]
  have hcond : ∀ S : String → Bool, ((axesNd.filter S).map a.size1).prod = ((a.axes.filter S).map a.size1).prod :=
    fun S => ((hpf S).map _).prod_eq
  rcases reduceNd_main ha hw hx2 (fun x hx => (hx3 x).2 hx) hA hAs' need f kd with
    ⟨g1, g2, g3, _⟩ | ⟨_, nd, g2, g3, g4⟩
  · exact absurd ⟨g1, (emptySlab_iff ha hAs).2 ⟨by rw [← hcond]; exact g2, by rw [← hcond]; exact g3⟩⟩ h0
  · rw [g2]
    simp only
    rw [hx4] at g3 g4
    have hsz : nd.shape = out.nd.shape := by
      rw [g3, shape_eq_map ho]
      apply List.map_congr_left
      intro ax hax
      have hk := hoax ax
      unfold sizeOf'
      rw [hos, h4]
      by_cases hxA : ax ∈ A
      · rw [if_pos hxA, if_pos hxA]
        cases kd with
        | true => rfl
        | false =>
          have := hk.1 hax
          rw [h3] at this
          simp [hxA] at this
      · rw [if_neg hxA, if_neg hxA]
        have h7 : ax ∈ a.axes := by
          have := hk.1 hax
          rw [h3] at this
          split at this
          · exact this
          · exact List.mem_of_mem_filter this
        rw [size1_eq ha h7]
        rfl
    rw [if_pos hsz]
    have hsh : (SA.mk out.axes nd).shape = out.shape := by unfold shape; simp [hsz]
    have hndwf : (SA.mk out.axes nd).WF := ⟨by have := ho.1; simp only [ND.ndim] at this ⊢; rw [hsz]; exact this, ho.2⟩
    refine ⟨_, rfl, rfl, hndwf, ?_, ?_⟩
    · intro ax; rw [hsh, hos]
    · intro e _
      rw [h5]
      have : (SA.mk out.axes nd).at' e = nd.get (out.axes.map e) := rfl
      rw [this, g4]
      refine hf _ _ (((slabEnvs_perm (ha.2.filter _) (hx2.filter _) ?_ (fun _ _ => rfl) e).filter _).map _)
      intro ax
      simp [hx3]


/-- A 2 x 3 x 2 array: `100 x + 10 y + z`. -/
def exR : SA Nat := ⟨["x", "y", "z"], ⟨[2, 3, 2], fun i =>
  100 * i.getD 0 0 + 10 * i.getD 1 0 + i.getD 2 0⟩⟩

/-- The mask `y != 1`. -/
def exRW : SA Bool := ⟨["y"], ⟨[3], fun i => i.getD 0 0 != 1⟩⟩

theorem exRW_ok : WhereOk exR (some exRW) := by
  intro w h
  cases h
  refine ⟨by decide, ?_⟩
  intro ax m hm
  have := mem_keys_of_get? hm
  have : ax = "y" := by simpa [exRW, shape, keys] using this
  subst this
  exact ⟨3, by decide, .inl (by have : get? exRW.shape "y" = some 3 := by decide
                                rw [this] at hm; injection hm with hm; exact hm.symm)⟩

-- the hypotheses of `C17_reduce` with a mask, and the value it gives
example : exR.WF ∧ ["z", "y"].Nodup ∧ ["z", "y"] ⊆ exR.axes ∧ WhereOk exR (some exRW) :=
  ⟨by decide, by decide, by decide, exRW_ok⟩
example : (reduce false List.sum exR (some ["z", "y"]) false (some exRW) none).toOption.map
    (fun r => (r.axes, r.nd.shape, r.nd.toList)) = some (["x"], [2], [42, 442]) := by decide
example : (reduce false List.sum exR (some ["z", "y"]) true none none).toOption.map
    (fun r => (r.axes, r.nd.shape, r.nd.toList)) = some (["x", "y", "z"], [2, 1, 1], [63, 663]) := by
  decide
-- `out` with the axes in another order
example : (reduce false List.sum exR (some ["y"]) false none
      (some ⟨["z", "x"], ⟨[2, 2], fun _ => 0⟩⟩)).toOption.map
    (fun r => (r.axes, r.nd.shape, r.nd.toList)) = some (["z", "x"], [2, 2], [30, 330, 33, 333]) := by
  decide
example : ¬ ["w"] ⊆ exR.axes := by decide
example : Orderless (List.sum (α := Nat)) := fun _ _ h => h.sum_eq
-- a reduction without identity over an empty axis
example : EmptySlab (⟨["x", "y"], ⟨[0, 2], fun _ => 0⟩⟩ : SA Nat) ["x"] := by
  refine ⟨⟨"x", by decide, by decide⟩, ?_⟩
  intro ax hax h
  have := mem_keys_of_get? h
  simp [shape, keys] at this hax
  rcases this with rfl | rfl
  · exact hax rfl
  · exact absurd h (by decide)

/-- **C17** limit: an `out` array with the right shape but the wrong axis names is filled silently: the
sum over `x` of an array with axes `x, y` is stored in an array labelled `x`. -/
theorem C17_out_mislabelled : ∃ (a : SA Nat) (out r : SA Nat), a.WF ∧ out.WF ∧
    reduce false List.sum a (some ["x"]) false none (some out) = .ok r ∧
    r.axes = ["x"] ∧ r.nd.toList = [0 + 10, 1 + 11] ∧ a.axes = ["x", "y"] := by
  refine ⟨⟨["x", "y"], ⟨[2, 2], fun i => 10 * i.getD 0 0 + i.getD 1 0⟩⟩,
    ⟨["x"], ⟨[2], fun _ => 0⟩⟩, ?_⟩
  refine ⟨_, by decide, by decide, rfl, by decide, by decide, by decide⟩

/-! ### C18 -/

/-- Reducing the reductions of several lists is reducing their concatenation (lists must not be empty
for a function without identity). -/
def Nestable (need : Bool) (f : List α → α) : Prop :=
  ∀ L : List (List α), (need = true → ∀ l ∈ L, l ≠ []) → f (L.map f) = f L.flatten

theorem slabEnvs_ne_nil {A : List String} (hA : A.Nodup) {sz : String → Nat}
    (h : ∀ ax ∈ A, sz ax ≠ 0) (e : String → Nat) : slabEnvs A sz e ≠ [] := by
  apply List.ne_nil_of_mem (a := fun ax => if ax ∈ A then 0 else e ax)
  rw [mem_slabEnvs hA]
  refine ⟨fun ax hax => ?_, fun ax hax => by simp [hax]⟩
  have := h ax hax
  simp only [hax, if_true]
  omega

/-- **C18** Reducing over `A` and then over `B` equals reducing once over `A ++ B`, for every
order-insensitive reduction which can be nested (sum, product, min, max, all, any). -/
theorem C18_successive (a : SA α) (ha : a.WF) (A B : List String) (hA : A.Nodup) (hAs : A ⊆ a.axes)
    (hB : B.Nodup) (need : Bool) (f : List α → α) (hf : Orderless f) (hn : Nestable need f)
    (r1 r2 : SA α) (h1 : reduce need f a (some A) false none none = .ok r1)
    (h2 : reduce need f r1 (some B) false none none = .ok r2) :
    ∃ r, reduce need f a (some (A ++ B)) false none none = .ok r ∧ r.axes = r2.axes ∧ SameByName r r2 := by
  have hw : ∀ a : SA α, WhereOk a none := by intro a w h; cases h
  rcases reduce_main ha (hw a) hA hAs need f false with ⟨_, _, h⟩ | ⟨he1, r1', h1', hwf1, hax1, hsh1, hat1⟩
  · rw [h] at h1; cases h1
  rw [h1'] at h1; injection h1 with h1; subst h1
  have hBs : B ⊆ r1'.axes := by
    by_contra hb
    rw [C17_error r1' hwf1 none (hw _) B need f false (.inl hb)] at h2
    cases h2
  rcases reduce_main hwf1 (hw r1') hB hBs need f false with ⟨_, _, h⟩ | ⟨he2, r2', h2', hwf2, hax2, hsh2, hat2⟩
  · rw [h] at h2; cases h2
  rw [h2'] at h2; injection h2 with h2; subst h2
  simp only [Bool.false_eq_true, if_false] at hax1 hax2 hsh1 hsh2
  have hBA : ∀ ax ∈ B, ax ∈ a.axes ∧ ax ∉ A := by
    intro ax hax
    have := hBs hax
    rw [hax1] at this
    simpa using this
  have hAB : (A ++ B).Nodup := by
    rw [List.nodup_append]
    exact ⟨hA, hB, fun x hx y hy hxy => (hBA y hy).2 (hxy ▸ hx)⟩
  have hABs : A ++ B ⊆ a.axes := by
    intro ax hax
    rcases List.mem_append.1 hax with h | h
    · exact hAs h
    · exact (hBA ax h).1
  have he3 : ¬ (need = true ∧ EmptySlab a (A ++ B)) := by
    rintro ⟨hneed, ⟨ax, hax, h0⟩, hrest⟩
    rcases List.mem_append.1 hax with h | h
    · refine he1 ⟨hneed, ⟨ax, h, h0⟩, ?_⟩
      intro x hx hx0
      by_cases hxB : x ∈ B
      · refine he2 ⟨hneed, ⟨x, hxB, ?_⟩, ?_⟩
        · rw [hsh1, if_neg hx, hx0]
        · intro z hz hz0
          rw [hsh1] at hz0
          split at hz0
          · cases hz0
          · next hzA => exact hrest z (by simp [hzA, hz]) hz0
      · exact hrest x (by simp [hx, hxB]) hx0
    · refine he2 ⟨hneed, ⟨ax, h, ?_⟩, ?_⟩
      · rw [hsh1, if_neg (hBA ax h).2, h0]
      · intro z hz hz0
        rw [hsh1] at hz0
        split at hz0
        · cases hz0
        · next hzA => exact hrest z (by simp [hzA, hz]) hz0
  rcases reduce_main ha (hw a) hAB hABs need f false with ⟨g1, g2, _⟩ | ⟨_, r, h3, hwf3, hax3, hsh3, hat3⟩
  · exact absurd ⟨g1, g2⟩ he3
  simp only [Bool.false_eq_true, if_false] at hax3 hsh3
  refine ⟨r, h3, ?_, ?_, ?_⟩
  · rw [hax3, hax2, hax1, List.filter_filter]
    apply List.filter_congr
    intro x _
    simp only [List.mem_append, not_or, ← Bool.decide_and]
    exact decide_eq_decide.2 (and_comm)
  · intro ax
    rw [hsh3, hsh2, hsh1]
    by_cases hxA : ax ∈ A <;> by_cases hxB : ax ∈ B <;> simp [hxA, hxB]
  · intro e hein
    rw [hat3, hat2]
    have hfil : ∀ l : List (String → Nat), l.filter (selected none) = l := by
      intro l; rw [List.filter_eq_self]; intro _ _; rfl
    simp only [hfil]
    have hszB : ∀ ax ∈ B, r1'.size1 ax = a.size1 ax := by
      intro ax hax
      unfold size1
      rw [hsh1, if_neg (hBA ax hax).2]
    have hp1 : (slabEnvs (r1'.axes.filter (· ∈ B)) r1'.size1 e).Perm (slabEnvs B a.size1 e) := by
      apply slabEnvs_perm (hwf1.2.filter _) hB
      · intro ax; simp only [List.mem_filter, decide_eq_true_eq, and_iff_right_iff_imp]; exact fun h => hBs h
      · intro ax hax
        exact hszB ax (by simpa using (List.mem_filter.1 hax).2)
    have hp2 : ∀ e', (slabEnvs (a.axes.filter (· ∈ A)) a.size1 e').Perm (slabEnvs A a.size1 e') := by
      intro e'
      apply slabEnvs_perm (ha.2.filter _) hA
      · intro ax; simp only [List.mem_filter, decide_eq_true_eq, and_iff_right_iff_imp]; exact fun h => hAs h
      · intro ax _; rfl
    have hp3 : (slabEnvs (a.axes.filter (· ∈ A ++ B)) a.size1 e).Perm (slabEnvs (A ++ B) a.size1 e) := by
      apply slabEnvs_perm (ha.2.filter _) hAB
      · intro ax
        simp only [List.mem_filter, decide_eq_true_eq, and_iff_right_iff_imp]; exact fun h => hABs h
      · intro ax _; rfl
    rw [hf _ _ (hp1.map _)]
    have hr1 : ∀ e', r1'.at' e' = f ((slabEnvs A a.size1 e').map a.at') := by
      intro e'
      rw [hat1, hfil]
      exact hf _ _ ((hp2 e').map _)
    have : (slabEnvs B a.size1 e).map r1'.at' =
        ((slabEnvs B a.size1 e).map (fun e' => (slabEnvs A a.size1 e').map a.at')).map f := by
      rw [List.map_map]
      apply List.map_congr_left
      intro e' _
      exact hr1 e'
    rw [this, hn]
    · apply hf
      refine (hp3.map _).trans ?_
      refine ((slabEnvs_flatMap hA hB (fun ax hax => (hBA ax hax).2) a.size1 e).map _).trans ?_
      rw [List.map_flatMap, List.flatMap_def]
    · intro hneed l hl hl0
      obtain ⟨e', he', rfl⟩ := List.mem_map.1 hl
      rw [List.map_eq_nil_iff] at hl0
      -- some axis of `A` is empty, hence some other axis is, which contradicts the range of `e`
      have hzero : ∃ ax ∈ A, get? a.shape ax = some 0 := by
        by_contra hcon
        apply slabEnvs_ne_nil hA ?_ e' hl0
        intro ax hax h0
        apply hcon
        refine ⟨ax, hax, ?_⟩
        obtain ⟨n, hn'⟩ := exists_get?_of_mem (d := a.shape) (by rw [keys_shape ha]; exact hAs hax)
        rw [size1, hn'] at h0
        rw [hn']; simpa using h0
      have hnz : ∀ ax, ax ∉ A → get? a.shape ax ≠ some 0 := by
        intro ax hax h0
        by_cases hxB : ax ∈ B
        · rw [mem_slabEnvs hB] at he'
          have := he'.1 ax hxB
          rw [size1, h0] at this
          simp at this
        · have := hein ax 0 (by rw [hsh3, if_neg (by simp [hax, hxB])]; exact h0)
          omega
      exact he1 ⟨hneed, hzero, hnz⟩

/-- Sums and products: a commutative operation with an identity. -/
theorem nestable_monoid (op : α → α → α) (unit : α) (hassoc : ∀ x y z, op (op x y) z = op x (op y z))
    (hcomm : ∀ x y, op x y = op y x) (hunit : ∀ x, op unit x = x) :
    Orderless (fun l => l.foldr op unit) ∧ Nestable false (fun l => l.foldr op unit) := by
  have hlc : LeftCommutative op := ⟨fun x y z => by rw [← hassoc, hcomm x y, hassoc]⟩
  have happ : ∀ l x, List.foldr op x l = op (l.foldr op unit) x := by
    intro l x
    induction l with
    | nil => simp [hunit]
    | cons y l ih => rw [List.foldr_cons, List.foldr_cons, ih, hassoc]
  refine ⟨fun l l' h => h.foldr_eq unit, ?_⟩
  intro L _
  induction L with
  | nil => rfl
  | cons l L ih =>
    simp only [List.map_cons, List.foldr_cons, List.flatten_cons, List.foldr_append] at ih ⊢
    rw [ih (by simp), happ l (List.foldr op unit L.flatten)]

/-- The reduction of a non-empty list by an operation without identity. -/
def fold1 (op : α → α → α) (dflt : α) : List α → α
  | [] => dflt
  | x :: l => l.foldr op x

/-- Minimum, maximum, logical or, ...: a commutative operation which needs no identity. -/
theorem nestable_semigroup (op : α → α → α) (dflt : α)
    (hassoc : ∀ x y z, op (op x y) z = op x (op y z)) (hcomm : ∀ x y, op x y = op y x) :
    Orderless (fold1 op dflt) ∧ Nestable true (fold1 op dflt) := by
  have hlc : LeftCommutative op := ⟨fun x y z => by rw [← hassoc, hcomm x y, hassoc]⟩
  have hmove : ∀ (l : List α) (x y : α), l.foldr op (op x y) = op x (l.foldr op y) := by
    intro l x y
    induction l with
    | nil => rfl
    | cons z l ih => rw [List.foldr_cons, List.foldr_cons, ih, ← hassoc, hcomm z x, hassoc]
  have happ : ∀ l l' : List α, l ≠ [] → l' ≠ [] →
      fold1 op dflt (l ++ l') = op (fold1 op dflt l) (fold1 op dflt l') := by
    intro l l' h h'
    cases l with
    | nil => exact absurd rfl h
    | cons x l =>
      cases l' with
      | nil => exact absurd rfl h'
      | cons y l' =>
        simp only [fold1, List.cons_append, List.foldr_append, List.foldr_cons]
        have : op y (List.foldr op x l') = op x (List.foldr op y l') := by
          rw [← hmove, ← hmove, hcomm]
        rw [this, hcomm x, hmove, hcomm]
  have hord : Orderless (fold1 op dflt) := by
    intro l l' h
    induction h with
    | nil => rfl
    | cons x h ih =>
      simp only [fold1]
      exact h.foldr_eq x
    | swap x y l =>
      simp only [fold1, List.foldr_cons]
      rw [← hmove, ← hmove, hcomm]
    | trans _ _ ih1 ih2 => rw [ih1, ih2]
  refine ⟨hord, ?_⟩
  intro L hL
  induction L with
  | nil => rfl
  | cons l L ih =>
    have hl := hL rfl l (by simp)
    cases L with
    | nil => simp [fold1]
    | cons l' L =>
      have hne : (l' :: L).flatten ≠ [] := by
        have := hL rfl l' (by simp)
        simp [this]
      rw [List.flatten_cons, happ _ _ hl hne, ← ih (fun _ m hm => hL rfl m (by simp [hm])),
        List.map_cons]
      have : l :: [] ≠ ([] : List (List α)) := by simp
      have h2 := happ [fold1 op dflt l] ((l' :: L).map (fold1 op dflt)) (by simp) (by simp)
      simpa [fold1] using h2

/-- **C18** `np.sum(np.sum(a, axis=A), axis=B) = np.sum(a, axis=A + B)`, in any commutative monoid (also
products, `np.all` and `np.any`). -/
theorem C18_sum [AddCommMonoid α] (a : SA α) (ha : a.WF) (A B : List String) (hA : A.Nodup)
    (hAs : A ⊆ a.axes) (hB : B.Nodup) (r1 r2 : SA α)
    (h1 : reduce false List.sum a (some A) false none none = .ok r1)
    (h2 : reduce false List.sum r1 (some B) false none none = .ok r2) :
    ∃ r, reduce false List.sum a (some (A ++ B)) false none none = .ok r ∧ SameByName r r2 := by
  obtain ⟨h3, h4⟩ := nestable_monoid (α := α) (· + ·) 0 add_assoc add_comm zero_add
  have heq : (fun l : List α => l.foldr (· + ·) 0) = List.sum := by
    funext l; rfl
  rw [heq] at h3 h4
  obtain ⟨r, g1, _, g2⟩ := C18_successive a ha A B hA hAs hB false _ h3 h4 r1 r2 h1 h2
  exact ⟨r, g1, g2⟩

/-- **C18** The same for the minimum, the maximum and every other associative and commutative
operation, with or without identity. -/
theorem C18_min_max (op : α → α → α) (dflt : α)
    (hassoc : ∀ x y z, op (op x y) z = op x (op y z)) (hcomm : ∀ x y, op x y = op y x)
    (a : SA α) (ha : a.WF) (A B : List String) (hA : A.Nodup)
    (hAs : A ⊆ a.axes) (hB : B.Nodup) (r1 r2 : SA α)
    (h1 : reduce true (fold1 op dflt) a (some A) false none none = .ok r1)
    (h2 : reduce true (fold1 op dflt) r1 (some B) false none none = .ok r2) :
    ∃ r, reduce true (fold1 op dflt) a (some (A ++ B)) false none none = .ok r ∧ SameByName r r2 := by
  obtain ⟨h3, h4⟩ := nestable_semigroup (α := α) op dflt hassoc hcomm
  obtain ⟨r, g1, _, g2⟩ := C18_successive a ha A B hA hAs hB true _ h3 h4 r1 r2 h1 h2
  exact ⟨r, g1, g2⟩

-- both steps succeed on a concrete array
example : ((reduce false List.sum exR (some ["z"]) false none none).bind
      (fun r => reduce false List.sum r (some ["x"]) false none none)).toOption.map
    (fun r => (r.axes, r.nd.toList)) = some (["y"], [202, 242, 282]) := by decide
example : ((reduce true (fold1 max 0) exR (some ["z"]) false none none).bind
      (fun r => reduce true (fold1 max 0) r (some ["x"]) false none none)).toOption.map
    (fun r => (r.axes, r.nd.toList)) = some (["y"], [101, 111, 121]) := by decide
example : (∀ x y z : Nat, max (max x y) z = max x (max y z)) ∧ ∀ x y : Nat, max x y = max y x :=
  ⟨fun _ _ _ => by omega, fun _ _ => by omega⟩

/-! ### C19 -/

/-- **C19** Without `out`, or with an `out` array whose axes are in the same order, a cumulative
reduction has at index `k` along the axis the reduction of the elements `0..k` along it, whatever the
position of the axis.
Full claim: also for an `out` array with the axes in another order; this is false, see
`C19_refuted`. -/
theorem C19_cumulative_partial (a : SA α) (ha : a.WF) (f : List α → α) (ax : String) (n : Nat)
    (hn : get? a.shape ax = some n) (out : Option (SA α))
    (hout : ∀ o, out = some o → o.axes = a.axes ∧ o.nd.shape = a.nd.shape) :
    ∃ r, cumulative f a (some [ax]) out = .ok r ∧ r.WF ∧ r.axes = a.axes ∧ r.shape = a.shape ∧
      ∀ e, e ax < n → r.at' e =
        f ((List.range (e ax + 1)).map (fun k => a.at' (Function.update e ax k))) := by
  have hm : ax ∈ a.axes := by rw [← keys_shape ha]; exact mem_keys_of_get? hn
  have hsz : a.sizeOf' ax = n := by simp [sizeOf', hn]
  obtain ⟨nd, h1, h2, h3⟩ := ND.alongAxis_named ha.2 (shape_eq_map ha) hm (a.sizeOf' ax)
    (fun l k => f (l.take (k + 1)))
  have hg : a.nd.shape.getD (a.axes.idxOf ax) 0 = a.sizeOf' ax := by
    rw [shape_eq_map ha, getD_map_idxOf _ hm]
  have h2' : nd.shape = a.nd.shape := by
    rw [h2, shape_eq_map ha]
    apply List.map_congr_left
    intro x _
    split
    · next h => rw [h]
    · rfl
  have hwf : (SA.mk a.axes nd).WF := ⟨by
    have := ha.1; simp only [ND.ndim] at this ⊢; rw [h2']; exact this, ha.2⟩
  have hc : cumulative f a (some [ax]) out = .ok ⟨a.axes, nd⟩ := by
    unfold cumulative
    simp only [axisNormalized]
    rw [if_neg (by simp [hm])]
    cases out with
    | none =>
      simp only [keys_shape ha, pyTupleIndex, if_pos hm, bind, Except.bind, hg, h1]
      exact mk?_of_wf hwf.1 hwf.2
    | some o =>
      obtain ⟨ho1, ho2⟩ := hout o rfl
      simp only [ho1, pyTupleIndex, if_pos hm, bind, Except.bind, hg, h1]
      rw [if_pos (by rw [h2', ho2])]
  refine ⟨_, hc, hwf, rfl, by unfold shape; simp [h2'], ?_⟩
  intro e he
  have : (SA.mk a.axes nd).at' e = nd.get (a.axes.map e) := rfl
  rw [this, h3]
  rw [← List.map_take, List.take_range, Nat.min_eq_left (by omega)]
  rfl

/-- **C19** An absent axis, or another number of axes than one, raises `ValueError`. -/
theorem C19_error (a : SA α) (ha : a.WF) (f : List α → α) (axis : Option (List String))
    (out : Option (SA α))
    (h : (axisNormalized a.axes axis).length ≠ 1 ∨ ∃ ax, axis = some [ax] ∧ ax ∉ a.axes) :
    cumulative f a axis out = .error .valueError := by
  unfold cumulative
  rcases h with h | ⟨ax, rfl, h⟩
  · split
    · next hh => rw [hh] at h; simp at h
    · rfl
  · simp [axisNormalized, h]

/-- **C19** is false with an `out` array whose axes are in another order: the position of the axis is
looked up in `out.axes`, but the function is applied to the unaligned array, so that it accumulates
along the other axis. -/
theorem C19_refuted : ∃ (a out r : SA Nat), a.WF ∧ out.WF ∧ Dict.Same a.shape out.shape ∧
    cumulative List.sum a (some ["x"]) (some out) = .ok r ∧
    ∃ e, InRange a.shape e ∧ r.at' e ≠
      ((List.range (e "x" + 1)).map (fun k => a.at' (Function.update e "x" k))).sum := by
  refine ⟨⟨["x", "y"], ⟨[2, 2], fun i => 10 * i.getD 0 0 + i.getD 1 0⟩⟩,
    ⟨["y", "x"], ⟨[2, 2], fun _ => 0⟩⟩, _, by decide, by decide, ?_, rfl,
    fun ax => if ax = "x" then 1 else 0, ?_, by decide⟩
  · intro ax
    simp only [shape, List.zip_cons_cons, List.zip_nil_right, get?_cons]
    grind
  · intro ax n h
    simp only [shape, List.zip_cons_cons, List.zip_nil_right, get?_cons, get?_nil] at h
    grind

example : (cumulative List.sum exR (some ["y"]) none).toOption.map (fun r => (r.axes, r.nd.toList)) =
    some (["x", "y", "z"], [0, 1, 10, 12, 30, 33, 100, 101, 210, 212, 330, 333]) := by decide

end SA
end NA
