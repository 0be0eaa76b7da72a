import Verif.Vector.Combine
import Verif.Props.VectorStructure
import Verif.Props.FunctionFlatten
import Verif.Uncertain.Lemmas

/-!
# Combining and adding axes of uncertain scalars and vectors (C109)
-/

namespace NA
open Dict
open SA (FitsIn InRange splitIndex)

variable {α : Type}

/-! ### Specification -/

/-- The name of the combined axis: the given one, or the names of the axes joined with `*`. -/
def NewName (axes : List String) : Option String → String → Prop
  | some s, name => name = s
  | none, name => axes ≠ [] ∧ name = "*".intercalate axes

/-- The size of an axis of a shape. -/
def axisSize (S : Shape) (ax : String) : Nat := (get? S ax).getD 0

/-- The axes can be combined: distinct axes of the shape, a name which none of the other axes has, and no other axis is
empty. -/
structure Combinable (S : Shape) (axes : List String) (name : String) : Prop where
  nodup : axes.Nodup
  sub : ∀ ax ∈ axes, ax ∈ keys S
  new : name ∈ keys S → name ∈ axes
  pos : ∀ ax ∈ keys S, ax ∉ axes → get? S ax ≠ some 0

/-- `S` without the axes, and with one new axis which has as many elements as the axes together. -/
def mergedShape (S : Shape) (axes : List String) (name : String) : Shape :=
  S.filter (fun p => p.1 ∉ axes) ++ [(name, (axes.map (axisSize S)).prod)]

/-- The index, before combining, of the element which has the index `e` afterwards: along the new axis the elements are in
row-major order, the last of the given axes fastest. -/
def splitAt (S : Shape) (axes : List String) (name : String) (e : String → Nat) : String → Nat :=
  splitIndex axes (axes.map (axisSize S)) name e

/-! ### Scalars: failures -/

namespace SA

theorem foldlM_popAppend_missing {l A : List String} {ax : String} (h : ax ∈ A) (hl : ax ∉ l) :
    A.foldlM popAppend l = .error .valueError := by
  induction A generalizing l with
  | nil => simp at h
  | cons x A ih =>
    rw [List.foldlM_cons]
    by_cases hx : x ∈ l
    · have hne : ax ≠ x := fun h' => hl (h' ▸ hx)
      have h1 : popAppend l x = .ok (l.erase x ++ [x]) := by unfold popAppend; rw [if_pos hx]
      rw [h1]
      refine ih ?_ ?_
      · simpa [hne] using h
      · simp only [List.mem_append, List.mem_singleton, not_or]
        exact ⟨fun h' => hl (List.mem_of_mem_erase h'), hne⟩
    · have h1 : popAppend l x = .error .valueError := by unfold popAppend; rw [if_neg hx]
      rw [h1]; rfl

theorem foldlM_pyRemove_missing {l A : List String} {ax : String} (h : ax ∈ A) (hl : ax ∉ l) :
    A.foldlM pyRemove l = .error .valueError := by
  induction A generalizing l with
  | nil => simp at h
  | cons x A ih =>
    rw [List.foldlM_cons]
    by_cases hx : x ∈ l
    · have hne : ax ≠ x := fun h' => hl (h' ▸ hx)
      have h1 : pyRemove l x = .ok (l.erase x) := by unfold pyRemove; rw [if_pos hx]
      rw [h1]
      refine ih ?_ (fun h' => hl (List.mem_of_mem_erase h'))
      simpa [hne] using h
    · have h1 : pyRemove l x = .error .valueError := by unfold pyRemove; rw [if_neg hx]
      rw [h1]; rfl

theorem foldlM_pyRemove_twice {l A : List String} (hl : l.Nodup) (hA : ¬ A.Nodup) :
    A.foldlM pyRemove l = .error .valueError := by
  induction A generalizing l with
  | nil => simp at hA
  | cons x A ih =>
    rw [List.foldlM_cons]
    by_cases hx : x ∈ l
    · have h1 : pyRemove l x = .ok (l.erase x) := by unfold pyRemove; rw [if_pos hx]
      rw [h1]
      show A.foldlM pyRemove (l.erase x) = _
      by_cases hxA : x ∈ A
      · exact foldlM_pyRemove_missing hxA (fun h => ((List.Nodup.mem_erase_iff hl).1 h).1 rfl)
      · exact ih (hl.erase x) (fun h => hA (List.nodup_cons.2 ⟨hxA, h⟩))
    · have h1 : pyRemove l x = .error .valueError := by unfold pyRemove; rw [if_neg hx]
      rw [h1]; rfl

theorem foldlM_popAppend_nodup {l A : List String} (hl : l.Nodup) :
    (∃ l', A.foldlM popAppend l = .ok l' ∧ l'.Nodup) ∨ A.foldlM popAppend l = .error .valueError := by
  induction A generalizing l with
  | nil => exact .inl ⟨l, rfl, hl⟩
  | cons x A ih =>
    rw [List.foldlM_cons]
    by_cases hx : x ∈ l
    · have h1 : popAppend l x = .ok (l.erase x ++ [x]) := by unfold popAppend; rw [if_pos hx]
      rw [h1]
      apply ih
      rw [List.nodup_append]
      refine ⟨hl.erase x, by simp, ?_⟩
      intro y hy z hz hyz
      simp only [List.mem_singleton] at hz
      subst hz; subst hyz
      exact ((List.Nodup.mem_erase_iff hl).1 hy).1 rfl
    · have h1 : popAppend l x = .error .valueError := by unfold popAppend; rw [if_neg hx]
      rw [h1]; exact .inr rfl

/-- The name is taken care of before anything else. -/
theorem combine_named {a : SA α} {axes : List String} {axisNew : Option String} {name : String} (h : NewName axes axisNew name) :
    a.combineAxes (some axes) axisNew = a.combineAxes (some axes) (some name) := by
  cases axisNew with
  | some s => simp only [NewName] at h; rw [h]
  | none =>
    obtain ⟨h1, h2⟩ := h
    unfold combineAxes
    simp only [Option.getD_some, SA.flattenAxes_ok h1, h2]

theorem combine_no_name {a : SA α} {axes : List String} {axisNew : Option String} (h : ∀ name, ¬ NewName axes axisNew name) :
    a.combineAxes (some axes) axisNew = .error .valueError := by
  cases axisNew with
  | some s => exact absurd rfl (h s)
  | none =>
    have : axes = [] := by
      by_contra h1
      exact h _ ⟨h1, rfl⟩
    subst this
    rfl

/-- Axes of a scalar array which cannot be combined. -/
theorem combine_fails {a : SA α} (ha : a.WF) {axes : List String} {name : String} (h : ¬ Combinable a.shape axes name) :
    a.combineAxes (some axes) (some name) = .error .valueError := by
  have hk := keys_shape ha
  by_cases h1 : axes.Nodup
  · by_cases h2 : ∀ ax ∈ axes, ax ∈ a.axes
    · have hsub : axes ⊆ a.axes := h2
      by_cases h3 : name ∈ keys a.shape → name ∈ axes
      · have h4 : ∃ ax ∈ a.axes, ax ∉ axes ∧ get? a.shape ax = some 0 := by
          by_contra h4
          apply h
          refine ⟨h1, fun ax hax => hk ▸ h2 ax hax, h3, fun ax hax hn h0 => h4 ⟨ax, hk ▸ hax, hn, h0⟩⟩
        obtain ⟨ax, hax, hn, h0⟩ := h4
        exact C11_combine_axes_empty_rest a ha axes h1 hsub name ax hax hn h0
      · rw [_root_.not_imp, hk] at h3
        have hdisj : ∀ x ∈ axes, x ∉ a.axes.filter (· ∉ axes) := by intro x hx; simp [hx]
        have hwfn : (a.axes.filter (· ∉ axes) ++ axes).Nodup := by
          rw [List.nodup_append]
          exact ⟨ha.2.filter _, h1, fun x hx y hy hxy => hdisj y hy (hxy ▸ hx)⟩
        unfold combineAxes
        simp only [bind, Except.bind, Option.getD_some]
        rw [foldlM_popAppend ha.2 h1 hsub]
        simp only
        rw [foldlM_pyRemove hwfn h1 (by intro x hx; simp [hx])]
        simp only
        rw [if_pos]
        simp [h3.1, h3.2]
    · push Not at h2
      obtain ⟨ax, hax, hn⟩ := h2
      unfold combineAxes
      simp only [bind, Except.bind, Option.getD_some]
      rw [foldlM_popAppend_missing hax hn]
  · unfold combineAxes
    simp only [bind, Except.bind, Option.getD_some]
    rcases foldlM_popAppend_nodup (A := axes) ha.2 with ⟨l', h2, h3⟩ | h2
    · rw [h2]
      simp only
      rw [foldlM_pyRemove_twice h3 h1]
    · rw [h2]

/-- Axes of a scalar array which can be combined. -/
theorem combine_ok {a : SA α} (ha : a.WF) {axes : List String} {name : String} (h : Combinable a.shape axes name) :
    ∃ r, a.combineAxes (some axes) (some name) = .ok r ∧ r.WF ∧
      (∀ ax, get? r.shape ax = if ax = name then some (axes.map (axisSize a.shape)).prod
        else if ax ∈ axes then none else get? a.shape ax) ∧
      ∀ e, InRange r.shape e → r.at' e = a.at' (splitAt a.shape axes name e) := by
  have hk := keys_shape ha
  obtain ⟨r, r1, r2, r3, r4, r5, r6⟩ := C11_combine_axes_partial a ha axes h.nodup
    (fun ax hax => hk ▸ h.sub ax hax) name
    (by
      intro h1
      rw [List.mem_filter, decide_eq_true_eq] at h1
      exact h1.2 (h.new (by rw [hk]; exact h1.1)))
    (fun ax h1 h2 => h.pos ax (by rw [hk]; exact h1) h2)
  refine ⟨r, r1, r2, fun ax => ?_, r6⟩
  by_cases h1 : ax = name
  · rw [if_pos h1, h1]; exact r4
  · rw [if_neg h1]
    by_cases h2 : ax ∈ axes
    · rw [if_pos h2, get?_eq_none, keys_shape r2, r3]
      simp [h1, h2]
    · rw [if_neg h2]
      by_cases h3 : ax ∈ a.axes
      · exact r5 ax h3 h2
      · rw [get?_eq_none.2 (by rw [keys_shape r2, r3]; simp [h1, h3]), get?_eq_none.2 (by rw [hk]; exact h3)]

end SA

/-! ### Indices -/

theorem get?_mergedShape {S : Shape} {axes : List String} {name : String} (hnew : name ∈ keys S → name ∈ axes) (ax : String) :
    get? (mergedShape S axes name) ax = if ax = name then some (axes.map (axisSize S)).prod
      else if ax ∈ axes then none else get? S ax := by
  unfold mergedShape
  rw [SA.get?_append, SA.get?_filter S (fun k => k ∉ axes), get?_cons, get?_nil]
  by_cases h1 : ax = name
  · have h2 : ax ∈ axes ∨ get? S ax = none := by
      by_cases h3 : ax ∈ axes
      · exact .inl h3
      · right
        rw [get?_eq_none]
        intro h4
        exact h3 (h1 ▸ hnew (h1 ▸ h4))
    rw [← h1]
    rcases h2 with h2 | h2 <;> simp [h2]
  · have h1' : ¬ name = ax := fun h => h1 h.symm
    by_cases h3 : ax ∈ axes <;> simp [h1, h1', h3]

theorem splitAt_lt {S : Shape} {axes : List String} (hn : axes.Nodup) {name : String} {e : String → Nat}
    (he : e name < (axes.map (axisSize S)).prod) {ax : String} (hax : ax ∈ axes) :
    splitAt S axes name e ax < axisSize S ax := by
  have h3 := ND.inRange_unravel he
  have h4 : axes.map (splitAt S axes name e) = ND.unravel (axes.map (axisSize S)) (e name) :=
    map_slabEnv hn (i := ND.unravel (axes.map (axisSize S)) (e name)) (by simp [ND.length_unravel]) e
  rw [← h4] at h3
  exact (SA.inRange_map (axes := axes) (e := splitAt S axes name e) (sz := axisSize S)).1 h3 ax hax

theorem axisSize_of_get? {S : Shape} {ax : String} {n : Nat} (h : get? S ax = some n) : axisSize S ax = n := by
  unfold axisSize; rw [h]; rfl

/-- Indices of the combined array belong to indices of the array. -/
theorem splitAt_inRange {S : Shape} {axes : List String} {name : String} (h : Combinable S axes name) {e : String → Nat}
    (he : InRange (mergedShape S axes name) e) : InRange S (splitAt S axes name e) := by
  intro ax n hn
  by_cases hax : ax ∈ axes
  · rw [← axisSize_of_get? hn]
    exact splitAt_lt h.nodup (he _ _ (by rw [get?_mergedShape h.new, if_pos rfl])) hax
  · have hne : ax ≠ name := fun h1 => hax (h1 ▸ h.new (h1 ▸ mem_keys_of_get? hn))
    unfold splitAt splitIndex
    rw [if_neg hax]
    exact he _ _ (by rw [get?_mergedShape h.new, if_neg hne, if_neg hax]; exact hn)

/-- Every index of the array belongs to exactly one index of the combined array. -/
theorem splitAt_unique {S : Shape} {axes : List String} {name : String} (h : Combinable S axes name) (i : String → Nat)
    (hi : InRange S i) :
    (∃ e, InRange (mergedShape S axes name) e ∧ ∀ ax ∈ keys S, splitAt S axes name e ax = i ax) ∧
    ∀ e e', InRange (mergedShape S axes name) e → InRange (mergedShape S axes name) e' →
      (∀ ax ∈ keys S, splitAt S axes name e ax = i ax) → (∀ ax ∈ keys S, splitAt S axes name e' ax = i ax) →
      ∀ ax ∈ keys (mergedShape S axes name), e ax = e' ax := by
  have hr : ND.InRange (axes.map (axisSize S)) (axes.map i) := by
    rw [SA.inRange_map]
    intro ax hax
    obtain ⟨n, hn⟩ := exists_get?_of_mem (h.sub ax hax)
    rw [axisSize_of_get? hn]
    exact hi ax n hn
  constructor
  · refine ⟨fun ax => if ax = name then ND.ravel (axes.map (axisSize S)) (axes.map i) else i ax, ?_, ?_⟩
    · intro ax n hn
      rw [get?_mergedShape h.new] at hn
      dsimp only
      split at hn
      · next hx =>
        rw [if_pos hx]
        injection hn with hn
        rw [← hn]
        exact ND.ravel_lt hr
      · next hx =>
        rw [if_neg hx]
        split at hn
        · cases hn
        · exact hi ax n hn
    · intro ax hax
      unfold splitAt splitIndex
      by_cases hx : ax ∈ axes
      · rw [if_pos hx]
        dsimp only
        rw [if_pos rfl, ND.unravel_ravel hr, List.getD_eq_getElem _ _ (by simpa using List.idxOf_lt_length_of_mem hx)]
        simp
      · rw [if_neg hx]
        dsimp only
        rw [if_neg (fun h1 : ax = name => hx (h1 ▸ h.new (h1 ▸ hax)))]
  · intro e e' he he' h1 h2 ax hax
    obtain ⟨n, hn⟩ := exists_get?_of_mem hax
    have hmap : ∀ e : String → Nat, InRange (mergedShape S axes name) e → (∀ ax ∈ keys S, splitAt S axes name e ax = i ax) →
        ND.unravel (axes.map (axisSize S)) (e name) = axes.map i := by
      intro e _ h1
      have h4 : axes.map (splitAt S axes name e) = ND.unravel (axes.map (axisSize S)) (e name) :=
        map_slabEnv h.nodup (i := ND.unravel (axes.map (axisSize S)) (e name)) (by simp [ND.length_unravel]) e
      rw [← h4]
      exact List.map_congr_left (fun ax hax => h1 ax (h.sub ax hax))
    have hlt : ∀ e : String → Nat, InRange (mergedShape S axes name) e → e name < (axes.map (axisSize S)).prod :=
      fun e he => he _ _ (by rw [get?_mergedShape h.new, if_pos rfl])
    by_cases hx : ax = name
    · rw [hx]
      have e1 := ND.ravel_unravel (hlt e he)
      have e2 := ND.ravel_unravel (hlt e' he')
      rw [hmap e he h1] at e1
      rw [hmap e' he' h2] at e2
      rw [← e1, ← e2]
    · rw [get?_mergedShape h.new, if_neg hx] at hn
      split at hn
      · cases hn
      · next hx' =>
        have hk := mem_keys_of_get? hn
        have g1 := h1 ax hk
        have g2 := h2 ax hk
        unfold splitAt splitIndex at g1 g2
        rw [if_neg hx'] at g1 g2
        rw [g1, g2]

/-! ### One scalar -/

/-- `b` is `a`, repeated along the axes which are to be combined (and perhaps others). -/
structure Stretched (S : Shape) (axes : List String) (a b : SA α) : Prop where
  wf : b.WF
  along : ∀ ax ∈ axes, get? b.shape ax = get? S ax
  fits : FitsIn b.shape S
  old : FitsIn a.shape b.shape
  val : ∀ e, b.atB e = a.atB e

/-- What combining axes does with a scalar whose shape fits `S`. -/
structure MergedTo (S : Shape) (axes : List String) (name : String) (a r : SA α) : Prop where
  wf : r.WF
  fits : FitsIn r.shape (mergedShape S axes name)
  size : get? r.shape name = some (axes.map (axisSize S)).prod
  keep : ∀ ax m, get? a.shape ax = some m → ax ∉ axes → ∃ n, get? r.shape ax = some n ∧ (m = n ∨ m = 1)
  val : ∀ e, InRange (mergedShape S axes name) e → r.atB e = a.atB (splitAt S axes name e)

theorem Stretched.combinable {S : Shape} {axes : List String} {name : String} {a b : SA α} (hb : Stretched S axes a b)
    (h : Combinable S axes name) : Combinable b.shape axes name where
  nodup := h.nodup
  sub := fun ax hax => by
    obtain ⟨n, hn⟩ := exists_get?_of_mem (h.sub ax hax)
    exact mem_keys_of_get? ((hb.along ax hax).trans hn)
  new := fun h1 => by
    obtain ⟨n, hn⟩ := exists_get?_of_mem h1
    obtain ⟨m, hm, _⟩ := hb.fits _ _ hn
    exact h.new (mem_keys_of_get? hm)
  pos := fun ax hax hn h0 => by
    obtain ⟨m, hm, h1⟩ := hb.fits _ _ h0
    rcases h1 with h1 | h1
    · exact h.pos ax (mem_keys_of_get? hm) hn (by rw [hm, ← h1])
    · cases h1

theorem Stretched.merge {S : Shape} {axes : List String} {name : String} {a b : SA α} (hb : Stretched S axes a b)
    (h : Combinable S axes name) :
    ∃ r, b.combineAxes (some axes) (some name) = .ok r ∧ MergedTo S axes name a r := by
  obtain ⟨r, r1, r2, r3, r4⟩ := SA.combine_ok hb.wf (hb.combinable h)
  have hsz : axes.map (axisSize b.shape) = axes.map (axisSize S) :=
    List.map_congr_left fun ax hax => by unfold axisSize; rw [hb.along ax hax]
  have hspl : ∀ e, splitAt b.shape axes name e = splitAt S axes name e := by
    intro e; unfold splitAt; rw [hsz]
  rw [hsz] at r3
  have hfit : FitsIn r.shape (mergedShape S axes name) := by
    intro ax m hm
    rw [r3] at hm
    rw [get?_mergedShape h.new]
    split at hm
    · next hx => exact ⟨m, by rw [if_pos hx]; exact hm, .inl rfl⟩
    · next hx =>
      rw [if_neg hx]
      split at hm
      · cases hm
      · next hx' =>
        rw [if_neg hx']
        exact hb.fits ax m hm
  have hnb : ∀ ax, ax ∈ keys b.shape → ax ∉ axes → ax ≠ name :=
    fun ax h1 h2 h3 => h2 (h3 ▸ (hb.combinable h).new (h3 ▸ h1))
  refine ⟨r, r1, r2, hfit, by rw [r3, if_pos rfl], fun ax m hm hax => ?_, fun e he => ?_⟩
  · obtain ⟨n, hn, h1⟩ := hb.old ax m hm
    exact ⟨n, by rw [r3, if_neg (hnb ax (mem_keys_of_get? hn) hax), if_neg hax]; exact hn, h1⟩
  · rw [← hb.val]
    have hin : InRange r.shape (fun ax => if get? r.shape ax = some 1 then 0 else e ax) := by
      intro ax m hm
      obtain ⟨k, hk, h1⟩ := hfit ax m hm
      dsimp only
      split
      · next h2 =>
        rw [hm] at h2
        injection h2 with h2
        omega
      · next h2 =>
        have := he ax k hk
        rcases h1 with h1 | h1
        · omega
        · exact absurd (by rw [hm, h1]) h2
    have h1 : r.atB e = r.at' (fun ax => if get? r.shape ax = some 1 then 0 else e ax) := rfl
    rw [h1, r4 _ hin, hspl]
    unfold SA.atB
    apply SA.at'_congr
    intro ax hax
    have hlt : e name < (axes.map (axisSize S)).prod := he _ _ (by rw [get?_mergedShape h.new, if_pos rfl])
    have hname : (if get? r.shape name = some 1 then 0 else e name) = e name := by
      split
      · next h2 =>
        rw [r3, if_pos rfl] at h2
        injection h2 with h2
        omega
      · rfl
    by_cases hx : ax ∈ axes
    · have h3 : splitAt S axes name (fun ax => if get? r.shape ax = some 1 then 0 else e ax) ax = splitAt S axes name e ax := by
        unfold splitAt splitIndex
        rw [if_pos hx, if_pos hx]
        dsimp only
        rw [hname]
      rw [h3]
      split
      · next h4 =>
        have := splitAt_lt h.nodup hlt hx
        rw [axisSize_of_get? ((hb.along ax hx).symm.trans h4)] at this
        omega
      · rfl
    · have hk : ax ∈ keys b.shape := by rw [SA.keys_shape hb.wf]; exact hax
      unfold splitAt splitIndex
      rw [if_neg hx, if_neg hx]
      dsimp only
      rw [r3, if_neg (hnb ax hk hx), if_neg hx]

/-- The arrays give `S` its sizes. -/
def Attained (S : Shape) (as : List (SA α)) : Prop :=
  as ≠ [] ∧ ∀ ax n, get? S ax = some n → ∃ a ∈ as, get? a.shape ax = some n

theorem Attained.fails {S : Shape} {as : List (SA α)} (hA : Attained S as) {axes : List String} {name : String}
    (h : ¬ Combinable S axes name) :
    ∃ a ∈ as, ∀ b, Stretched S axes a b → b.combineAxes (some axes) (some name) = .error .valueError := by
  obtain ⟨a0, ha0⟩ := List.exists_mem_of_ne_nil _ hA.1
  by_cases h1 : axes.Nodup
  · by_cases h2 : ∀ ax ∈ axes, ax ∈ keys S
    · by_cases h3 : name ∈ keys S → name ∈ axes
      · have h4 : ∃ ax ∈ keys S, ax ∉ axes ∧ get? S ax = some 0 := by
          by_contra h4
          exact h ⟨h1, h2, h3, fun ax hax hn h0 => h4 ⟨ax, hax, hn, h0⟩⟩
        obtain ⟨ax, hax, hn, h0⟩ := h4
        obtain ⟨a, ha, hs⟩ := hA.2 ax 0 h0
        refine ⟨a, ha, fun b hb => SA.combine_fails hb.wf (fun hc => ?_)⟩
        obtain ⟨m, hm, h5⟩ := hb.old ax 0 hs
        rcases h5 with h5 | h5
        · exact hc.pos ax (mem_keys_of_get? hm) hn (by rw [hm, ← h5])
        · cases h5
      · rw [_root_.not_imp] at h3
        obtain ⟨n, hn⟩ := exists_get?_of_mem h3.1
        obtain ⟨a, ha, hs⟩ := hA.2 name n hn
        refine ⟨a, ha, fun b hb => SA.combine_fails hb.wf (fun hc => ?_)⟩
        obtain ⟨m, hm, h5⟩ := hb.old name n hs
        exact h3.2 (hc.new (mem_keys_of_get? hm))
    · push Not at h2
      obtain ⟨ax, hax, hn⟩ := h2
      refine ⟨a0, ha0, fun b hb => SA.combine_fails hb.wf (fun hc => ?_)⟩
      have := hb.along ax hax
      rw [get?_eq_none.2 hn, get?_eq_none] at this
      exact this (hc.sub ax hax)
  · exact ⟨a0, ha0, fun b hb => SA.combine_fails hb.wf (fun hc => h1 hc.nodup)⟩

/-- Shapes which fit a shape, and of which each size of it is attained, broadcast to it. -/
theorem bs_of_cover {ss : List Shape} (hw : ∀ s ∈ ss, WF s) {U : Shape}
    (hsz : ∀ ax m, HasSize ss ax m → ∃ k, get? U ax = some k ∧ (m = k ∨ m = 1))
    (hatt : ∀ ax k, get? U ax = some k → HasSize ss ax k) : ∃ T, broadcastShapes ss = .ok T ∧ Same T U := by
  cases hb : broadcastShapes ss with
  | error e =>
    exfalso
    obtain ⟨ax, m1, m2, h1, h2, hne⟩ := (C01_broadcast_shapes_error_iff _ hw).1 ⟨e, hb⟩
    obtain ⟨k1, g1, g2⟩ := hsz ax m1 h1
    obtain ⟨k2, g3, g4⟩ := hsz ax m2 h2
    rw [g1] at g3
    injection g3 with g3
    omega
  | ok T =>
    refine ⟨T, rfl, fun ax => ?_⟩
    obtain ⟨_, hT2, hT3⟩ := C01_broadcast_shapes_ok _ hw T hb
    cases hg : get? T ax with
    | some n =>
      obtain ⟨h1, h2⟩ := hT3 ax n hg
      obtain ⟨k, hk, h3⟩ := hsz ax n h1
      rw [hk]
      congr 1
      have := h2 k (hatt ax k hk)
      omega
    | none =>
      cases hm : get? U ax with
      | none => rfl
      | some k =>
        exfalso
        obtain ⟨s, hs, hsk⟩ := hatt ax k hm
        exact (get?_eq_none.1 hg) ((hT2 ax).2 ⟨s, hs, mem_keys_of_get? hsk⟩)

/-- The shape of the combined scalars together. -/
theorem merged_shape {S : Shape} {axes : List String} {name : String} (h : Combinable S axes name) {as rs : List (SA α)}
    (hA : Attained S as) (hr : List.Forall₂ (MergedTo S axes name) as rs) :
    ∃ T, broadcastShapes (rs.map SA.shape) = .ok T ∧ Same T (mergedShape S axes name) := by
  have hof : ∀ r ∈ rs, ∃ a ∈ as, MergedTo S axes name a r := by
    intro r hr'
    obtain ⟨i, hi, rfl⟩ := List.mem_iff_getElem.1 hr'
    have hl := hr.length_eq
    exact ⟨as[i], List.getElem_mem _, List.forall₂_iff_get.1 hr |>.2 i (by omega) hi⟩
  have hto : ∀ a ∈ as, ∃ r ∈ rs, MergedTo S axes name a r := by
    intro a ha'
    obtain ⟨i, hi, rfl⟩ := List.mem_iff_getElem.1 ha'
    have hl := hr.length_eq
    exact ⟨rs[i], List.getElem_mem _, List.forall₂_iff_get.1 hr |>.2 i hi (by omega)⟩
  have hw : ∀ s ∈ rs.map SA.shape, WF s := by
    intro s hs
    obtain ⟨r, hr', rfl⟩ := List.mem_map.1 hs
    obtain ⟨a, _, ha⟩ := hof r hr'
    exact SA.wf_shape ha.wf
  have hsz : ∀ ax m, HasSize (rs.map SA.shape) ax m → ∃ k, get? (mergedShape S axes name) ax = some k ∧ (m = k ∨ m = 1) := by
    rintro ax m ⟨s, hs, hm⟩
    obtain ⟨r, hr', rfl⟩ := List.mem_map.1 hs
    obtain ⟨a, _, ha⟩ := hof r hr'
    exact ha.fits ax m hm
  have hatt : ∀ ax k, get? (mergedShape S axes name) ax = some k → HasSize (rs.map SA.shape) ax k := by
    intro ax k hk
    by_cases hx : ax = name
    · subst hx
      obtain ⟨a, ha⟩ := List.exists_mem_of_ne_nil _ hA.1
      obtain ⟨r, hr', h1⟩ := hto a ha
      refine ⟨_, List.mem_map_of_mem hr', ?_⟩
      rw [h1.size, ← hk, get?_mergedShape h.new, if_pos rfl]
    · have hk' := hk
      rw [get?_mergedShape h.new, if_neg hx] at hk'
      split at hk'
      · cases hk'
      · next hx' =>
        obtain ⟨a, ha, hs⟩ := hA.2 ax k hk'
        obtain ⟨r, hr', h1⟩ := hto a ha
        obtain ⟨n, hn, h2⟩ := h1.keep ax k hs hx'
        obtain ⟨k2, hk2, h3⟩ := h1.fits ax n hn
        rw [hk] at hk2
        injection hk2 with hk2
        have : n = k := by omega
        exact ⟨_, List.mem_map_of_mem hr', by rw [hn, this]⟩
  exact bs_of_cover hw hsz hatt

/-! ### Uncertain scalars -/

theorem get?_onlyAxes (s : Shape) (axes : List String) (ax : String) :
    get? (onlyAxes s axes) ax = if ax ∈ axes then get? s ax else none := by
  unfold onlyAxes
  rw [SA.get?_filter s (fun k => k ∈ axes)]

theorem wf_onlyAxes {s : Shape} (hs : WF s) (axes : List String) : WF (onlyAxes s axes) :=
  List.Nodup.sublist (List.Sublist.map _ List.filter_sublist) hs

/-- Broadcasting an array along the axes which are to be combined. -/
theorem stretch {S t T : Shape} (ht : WF t) (hT : WF T) {axes : List String} (hTS : FitsIn T S)
    (hA : ∀ ax ∈ axes, get? T ax = get? S ax) (htT : FitsIn t T) {a : SA α} (ha : a.WF) (hat : FitsIn a.shape t) :
    WF (t.union (onlyAxes T axes)) ∧ (∀ ax ∈ axes, get? (t.union (onlyAxes T axes)) ax = get? S ax) ∧
    FitsIn (t.union (onlyAxes T axes)) S ∧
    ∃ b, a.broadcastTo (t.union (onlyAxes T axes)) = .ok b ∧ b.shape = t.union (onlyAxes T axes) ∧ Stretched S axes a b := by
  have hw := wf_union ht (onlyAxes T axes)
  have hg : ∀ ax, get? (t.union (onlyAxes T axes)) ax = if ax ∈ axes then get? S ax else get? t ax := by
    intro ax
    rw [get?_union_of_wf _ _ (wf_onlyAxes hT _), get?_onlyAxes]
    by_cases h : ax ∈ axes
    · rw [if_pos h, if_pos h, hA ax h]
      cases hs : get? S ax with
      | some n => rfl
      | none =>
        rw [Option.none_or, get?_eq_none]
        intro h1
        obtain ⟨n, hn⟩ := exists_get?_of_mem h1
        obtain ⟨m, hm, _⟩ := htT ax n hn
        rw [hA ax h, hs] at hm
        cases hm
    · rw [if_neg h, if_neg h, Option.none_or]
  have hin : FitsIn t S := Comp.fitsIn_trans htT hTS
  have hfit : FitsIn (t.union (onlyAxes T axes)) S := by
    intro ax m hm
    rw [hg] at hm
    split at hm
    · exact ⟨m, hm, .inl rfl⟩
    · exact hin ax m hm
  have hfa : FitsIn a.shape (t.union (onlyAxes T axes)) := by
    intro ax m hm
    obtain ⟨n, hn, h1⟩ := hat ax m hm
    rw [hg]
    split
    · next hax =>
      obtain ⟨k, hk, h2⟩ := hin ax n hn
      exact ⟨k, hk, by omega⟩
    · exact ⟨n, hn, h1⟩
  obtain ⟨_, b, b1, b2, b3, b4⟩ := (SA.C10_broadcast_to a ha _ hw).resolve_right (fun h => h.1 hfa)
  refine ⟨hw, fun ax hax => by rw [hg, if_pos hax], hfit, b, b1, b3, b2, fun ax hax => by rw [b3, hg, if_pos hax],
    by rw [b3]; exact hfit, by rw [b3]; exact hfa, fun e => ?_⟩
  exact Comp.atB_of_broadcast ha (by rw [b3]; exact hfa) b4 e

theorem SA.combine_total {a : SA α} (ha : a.WF) (axes : List String) (name : String) :
    (∃ r, a.combineAxes (some axes) (some name) = .ok r ∧ r.WF ∧ name ∈ r.axes) ∨
      a.combineAxes (some axes) (some name) = .error .valueError := by
  by_cases h : Combinable a.shape axes name
  · obtain ⟨r, r1, r2, r3, _⟩ := SA.combine_ok ha h
    refine .inl ⟨r, r1, r2, ?_⟩
    rw [← SA.keys_shape r2]
    exact mem_keys_of_get? (by rw [r3, if_pos rfl])
  · exact .inr (SA.combine_fails ha h)

/-- **C109** (uncertain scalars). Combining axes succeeds exactly if they are distinct axes of the uncertain scalar, the name
is not that of another axis (the reserved name of the sample axis included), and neither another axis nor the set of samples is
empty; otherwise it is a `ValueError`.  The result has the other axes and one axis with all the elements of the combined ones
in row-major order, nominally and in every sample, also if only the samples (or only the nominal value) depend on an axis. -/
theorem C109_uncertain (u : UA α) (hu : u.Valid) (S : Shape) (hS : u.shape = .ok S) (axes : List String)
    (axisNew : Option String) (name : String) (hname : NewName axes axisNew name) :
    ((Combinable S axes name ∧ name ≠ axisD ∧ get? u.distribution.shape axisD ≠ some 0) ∧
      ∃ r, u.combineAxes (some axes) axisNew = .ok r ∧ r.Valid ∧
        (∃ T, r.shape = .ok T ∧ Same T (mergedShape S axes name)) ∧
        get? r.distribution.shape axisD = get? u.distribution.shape axisD ∧
        (∀ e, InRange (mergedShape S axes name) e → r.nominal.atB e = u.nominal.atB (splitAt S axes name e)) ∧
        ∀ e, InRange (mergedShape S axes name) e → (∀ n, get? u.distribution.shape axisD = some n → e axisD < n) →
          r.distribution.atB e = u.distribution.atB (splitAt S axes name e)) ∨
    (¬ (Combinable S axes name ∧ name ≠ axisD ∧ get? u.distribution.shape axisD ≠ some 0) ∧
      u.combineAxes (some axes) axisNew = .error .valueError) := by
  obtain ⟨hu1, hu2, hu3⟩ := hu
  have hw : ∀ s ∈ [u.nominal.shape, u.distribution.shape], WF s := by
    intro s hs
    simp only [List.mem_cons, List.not_mem_nil, or_false] at hs
    rcases hs with rfl | rfl
    · exact SA.wf_shape hu1
    · exact SA.wf_shape hu2
  have hnoD : get? u.nominal.shape axisD = none := by rw [get?_eq_none, SA.keys_shape hu1]; exact hu3
  obtain ⟨t, ht, hSt⟩ : ∃ t, u.shapeDistribution = .ok t ∧ S = t.erase axisD := by
    unfold UA.shape at hS
    cases h : u.shapeDistribution with
    | error e => rw [h] at hS; cases hS
    | ok t => rw [h] at hS; exact ⟨t, rfl, (Except.ok.inj hS).symm⟩
  have htw : WF t := (C01_broadcast_shapes_ok _ hw t ht).1
  obtain ⟨_, hb2, hb3⟩ := C01_broadcast_shapes_ok _ hw t ht
  have hfn : FitsIn u.nominal.shape t := SA.fitsIn_of_broadcastShapes hw ht (by simp)
  have hfd : FitsIn u.distribution.shape t := SA.fitsIn_of_broadcastShapes hw ht (by simp)
  have hgS : ∀ ax, get? S ax = if ax = axisD then none else get? t ax := by
    intro ax
    rw [hSt, get?_erase]
    simp only [eq_comm]
  have htD : get? t axisD = get? u.distribution.shape axisD := by
    cases h : get? t axisD with
    | some n =>
      obtain ⟨⟨s, hs, hn⟩, _⟩ := hb3 axisD n h
      simp only [List.mem_cons, List.not_mem_nil, or_false] at hs
      rcases hs with rfl | rfl
      · rw [hnoD] at hn; cases hn
      · exact hn.symm
    | none =>
      cases h2 : get? u.distribution.shape axisD with
      | none => rfl
      | some n =>
        obtain ⟨k, hk, _⟩ := hfd axisD n h2
        rw [h] at hk; cases hk
  have hfnS : FitsIn u.nominal.shape S := by
    intro ax m hm
    obtain ⟨k, hk, h1⟩ := hfn ax m hm
    refine ⟨k, ?_, h1⟩
    rw [hgS, if_neg (fun h => by rw [h, hnoD] at hm; cases hm)]
    exact hk
  have hSw : WF S := by rw [hSt]; exact wf_erase htw _
  have hAtt : Attained t [u.nominal, u.distribution] := by
    refine ⟨by simp, fun ax n hn => ?_⟩
    obtain ⟨⟨s, hs, hn⟩, _⟩ := hb3 ax n hn
    simp only [List.mem_cons, List.not_mem_nil, or_false] at hs
    rcases hs with rfl | rfl
    · exact ⟨_, by simp, hn⟩
    · exact ⟨_, by simp, hn⟩
  have hrefl : ∀ s : Shape, FitsIn s s := fun s ax m hm => ⟨m, hm, .inl rfl⟩
  -- the nominal value
  obtain ⟨_, _, _, n1, hn1, hn1s, hsn⟩ := stretch (SA.wf_shape hu1) hSw (hrefl S) (axes := axes) (fun _ _ => rfl) hfnS hu1
    (hrefl _)
  have hrun : u.combineAxes (some axes) axisNew = (do
      let d ← u.distribution.broadcastTo (u.distribution.shape.union (onlyAxes S axes))
      let n ← n1.combineAxes (some axes) (some name)
      let d ← d.combineAxes (some axes) (some name)
      UA.mk? n d) := by
    unfold UA.combineAxes
    rw [hS]
    simp only [bind, Except.bind, Option.getD_some, hn1, SA.combine_named hname]
  rw [hrun]
  by_cases hD : axisD ∈ axes
  · right
    have hno : ¬ Combinable S axes name := by
      intro h
      obtain ⟨n, hn⟩ := exists_get?_of_mem (h.sub _ hD)
      rw [hgS, if_pos rfl] at hn
      cases hn
    refine ⟨fun h => hno h.1, ?_⟩
    have hn2 : n1.combineAxes (some axes) (some name) = .error .valueError := by
      refine SA.combine_fails hsn.wf (fun h => ?_)
      obtain ⟨n, hn⟩ := exists_get?_of_mem (h.sub _ hD)
      rw [hsn.along _ hD, hgS, if_pos rfl] at hn
      cases hn
    rcases SA.C10_broadcast_to u.distribution hu2 (u.distribution.shape.union (onlyAxes S axes))
      (wf_union (SA.wf_shape hu2) _) with ⟨_, d, hd, _⟩ | ⟨_, hd⟩
    · simp only [bind, Except.bind, hd, hn2]
    · simp only [bind, Except.bind, hd]
  · have hbase : onlyAxes S axes = onlyAxes t axes := by
      unfold onlyAxes
      rw [hSt]
      unfold Dict.erase
      rw [List.filter_filter]
      apply List.filter_congr
      intro p _
      by_cases h : p.1 ∈ axes
      · have : p.1 ≠ axisD := fun h1 => hD (h1 ▸ h)
        simp [h, this]
      · simp [h]
    have hsz : ∀ ax ∈ axes, axisSize S ax = axisSize t ax := by
      intro ax hax
      unfold axisSize
      rw [hgS, if_neg (fun h : ax = axisD => hD (h ▸ hax))]
    have hszs : axes.map (axisSize S) = axes.map (axisSize t) := List.map_congr_left hsz
    have hspl : ∀ e, splitAt S axes name e = splitAt t axes name e := by
      intro e; unfold splitAt; rw [hszs]
    obtain ⟨_, _, _, d1, hd1, hd1s, hsd⟩ := stretch (SA.wf_shape hu2) htw (hrefl t) (axes := axes) (fun _ _ => rfl) hfd hu2
      (hrefl _)
    rw [← hbase] at hd1
    have hsn' : Stretched t axes u.nominal n1 := by
      obtain ⟨_, _, _, n2, hn2, _, h⟩ := stretch (SA.wf_shape hu1) htw (hrefl t) (axes := axes) (fun _ _ => rfl) hfn hu1
        (hrefl _)
      rw [← hbase, hn1] at hn2
      injection hn2 with hn2
      rw [hn2]; exact h
    simp only [bind, Except.bind, hd1]
    have himp : Combinable t axes name → Combinable S axes name ∧ get? u.distribution.shape axisD ≠ some 0 := by
      intro h
      refine ⟨⟨h.nodup, fun ax hax => ?_, fun h1 => h.new ?_, fun ax hax hn h0 => ?_⟩, fun h0 => ?_⟩
      · obtain ⟨n, hn⟩ := exists_get?_of_mem (h.sub ax hax)
        exact mem_keys_of_get? (by rw [hgS, if_neg (fun h : ax = axisD => hD (h ▸ hax))]; exact hn)
      · obtain ⟨n, hn⟩ := exists_get?_of_mem h1
        rw [hgS] at hn
        split at hn
        · cases hn
        · exact mem_keys_of_get? hn
      · rw [hgS] at h0
        split at h0
        · cases h0
        · exact h.pos ax (mem_keys_of_get? h0) hn h0
      · rw [← htD] at h0
        exact h.pos axisD (mem_keys_of_get? h0) hD h0
    by_cases hc : Combinable S axes name ∧ name ≠ axisD ∧ get? u.distribution.shape axisD ≠ some 0
    · left
      refine ⟨hc, ?_⟩
      obtain ⟨hc1, hc2, hc3⟩ := hc
      have hct : Combinable t axes name := by
        refine ⟨hc1.nodup, fun ax hax => ?_, fun h1 => hc1.new ?_, fun ax hax hn h0 => ?_⟩
        · obtain ⟨n, hn⟩ := exists_get?_of_mem (hc1.sub ax hax)
          rw [hgS, if_neg (fun h : ax = axisD => hD (h ▸ hax))] at hn
          exact mem_keys_of_get? hn
        · obtain ⟨n, hn⟩ := exists_get?_of_mem h1
          exact mem_keys_of_get? (by rw [hgS, if_neg hc2]; exact hn)
        · by_cases hx : ax = axisD
          · rw [hx, htD] at h0
            exact hc3 h0
          · have h0' : get? S ax = some 0 := by rw [hgS, if_neg hx]; exact h0
            exact hc1.pos ax (mem_keys_of_get? h0') hn h0'
      obtain ⟨rn, hrn, hmn⟩ := hsn.merge hc1
      obtain ⟨rn', hrn', hmn'⟩ := hsn'.merge hct
      rw [hrn] at hrn'
      injection hrn' with hrn'
      subst hrn'
      obtain ⟨rd, hrd, hmd⟩ := hsd.merge hct
      have hDn : axisD ∉ rn.axes := by
        rw [← SA.keys_shape hmn.wf]
        intro h
        obtain ⟨n, hn⟩ := exists_get?_of_mem h
        obtain ⟨k, hk, _⟩ := hmn.fits axisD n hn
        rw [get?_mergedShape hc1.new, if_neg (fun h => hc2 h.symm), if_neg hD, hgS, if_pos rfl] at hk
        cases hk
      obtain ⟨T, hT1, hT2⟩ := merged_shape hct hAtt (.cons hmn' (.cons hmd .nil))
      have hTw : WF T := (C01_broadcast_shapes_ok _ (by
        intro s hs
        simp only [List.map_cons, List.map_nil, List.mem_cons, List.not_mem_nil, or_false] at hs
        rcases hs with rfl | rfl
        · exact SA.wf_shape hmn.wf
        · exact SA.wf_shape hmd.wf) T hT1).1
      refine ⟨⟨rn, rd⟩, ?_, ⟨hmn.wf, hmd.wf, hDn⟩, ⟨T.erase axisD, ?_, fun ax => ?_⟩, ?_, hmn.val, fun e he hes => ?_⟩
      · rw [hrn, hrd]
        exact UA.mk?_of_valid hmn.wf hDn
      · unfold UA.shape UA.shapeDistribution
        have : broadcastShapes [rn.shape, rd.shape] = .ok T := hT1
        rw [this]
        rfl
      · rw [get?_erase, hT2 ax, get?_mergedShape hct.new, get?_mergedShape hc1.new, hszs, hgS]
        by_cases hx : ax = axisD
        · subst hx
          rw [if_pos rfl, if_neg (fun h => hc2 h.symm), if_neg hD, if_pos rfl]
        · rw [if_neg (fun h => hx h.symm), if_neg hx]
      · show get? rd.shape axisD = _
        cases h : get? u.distribution.shape axisD with
        | some n =>
          obtain ⟨m, hm, h1⟩ := hmd.keep axisD n h hD
          obtain ⟨k, hk, h2⟩ := hmd.fits axisD m hm
          rw [get?_mergedShape hct.new, if_neg (fun h => hc2 h.symm), if_neg hD, htD, h] at hk
          injection hk with hk
          rw [hm]
          congr 1
          omega
        | none =>
          cases h2 : get? rd.shape axisD with
          | none => rfl
          | some m =>
            obtain ⟨k, hk, h2⟩ := hmd.fits axisD m h2
            rw [get?_mergedShape hct.new, if_neg (fun h => hc2 h.symm), if_neg hD, htD, h] at hk
            cases hk
      · rw [hspl]
        refine hmd.val e (fun ax n hn => ?_)
        rw [get?_mergedShape hct.new] at hn
        split at hn
        · next hx =>
          rw [← hszs] at hn
          exact he ax n (by rw [get?_mergedShape hc1.new, if_pos hx]; exact hn)
        · next hx =>
          split at hn
          · cases hn
          · next hx' =>
            by_cases hx2 : ax = axisD
            · subst hx2
              exact hes n (by rw [← htD]; exact hn)
            · exact he ax n (by rw [get?_mergedShape hc1.new, if_neg hx, if_neg hx', hgS, if_neg hx2]; exact hn)
    · right
      refine ⟨hc, ?_⟩
      rcases SA.combine_total hsn.wf axes name with ⟨rn, hrn, hrnw, hrna⟩ | hrn
      · rcases SA.combine_total hsd.wf axes name with ⟨rd, hrd, _, _⟩ | hrd
        · rw [hrn, hrd]
          have hct : Combinable t axes name := by
            by_contra h
            obtain ⟨a, ha, hf⟩ := hAtt.fails h
            simp only [List.mem_cons, List.not_mem_nil, or_false] at ha
            rcases ha with rfl | rfl
            · rw [hf n1 hsn'] at hrn; cases hrn
            · rw [hf d1 hsd] at hrd; cases hrd
          have hnD : name = axisD := by
            by_contra h
            exact hc ⟨(himp hct).1, h, (himp hct).2⟩
          show UA.mk? rn rd = _
          unfold UA.mk?
          rw [if_pos]
          rw [SA.keys_shape hrnw, ← hnD]
          exact hrna
        · rw [hrn, hrd]
      · rw [hrn]

/-! ### Vectors -/

namespace Comp

/-- What is needed to combine the axes of a part of a vector. -/
def InvC (S : Shape) (axes : List String) (c : Comp (SA α)) : Prop :=
  c.WFLeaves ∧ c.Full ∧ ∃ T, c.shape = .ok T ∧ (∀ ax ∈ axes, get? T ax = get? S ax) ∧ FitsIn T S

theorem stretched_refl {S : Shape} {axes : List String} (a : SA α) (h : InvC S axes (.leaf a)) : Stretched S axes a a := by
  obtain ⟨h1, _, T, h3, h4, h5⟩ := h
  simp only [shape, Except.ok.injEq] at h3
  subst h3
  exact ⟨h1 a (by simp [leaves]), h4, h5, fun ax m hm => ⟨m, hm, .inl rfl⟩, fun _ => rfl⟩

theorem stretched_trans {S : Shape} {axes : List String} (a b c : SA α) (h : Stretched S axes a b) (h' : Stretched S axes b c) :
    Stretched S axes a c :=
  ⟨h'.wf, h'.along, h'.fits, fitsIn_trans h.old h'.old, fun e => (h'.val e).trans (h.val e)⟩

/-- The components of a vector fit its shape. -/
theorem part_fits {cls : String} {cs : List (String × Comp (SA α))} (hw : (Comp.node cls cs).WFLeaves) {T : Shape}
    (hT : (Comp.node cls cs).shape = .ok T) {p : String × Comp (SA α)} (hp : p ∈ cs) :
    p.2.WFLeaves ∧ ∃ t, p.2.shape = .ok t ∧ WF t ∧ FitsIn t T := by
  have hpw : p.2.WFLeaves := fun a ha => hw a (by simp only [leaves]; exact mem_leavesL.2 ⟨p, hp, ha⟩)
  simp only [shape, bind, Except.bind] at hT
  cases hss : shapes cs with
  | error e => rw [hss] at hT; cases hT
  | ok ss =>
    rw [hss] at hT
    simp only at hT
    have h2 := shapes_ok.1 hss
    have hall : ∀ s ∈ ss, WF s := by
      intro s hs
      obtain ⟨i, hi, rfl⟩ := List.mem_iff_getElem.1 hs
      have hl := h2.length_eq
      have h3 := (List.forall₂_iff_get.1 h2).2 i (by omega) hi
      exact shape_wf _ (fun a ha => hw a (by simp only [leaves]; exact mem_leavesL.2 ⟨_, List.getElem_mem _, ha⟩)) _ h3
    obtain ⟨i, hi, rfl⟩ := List.mem_iff_getElem.1 hp
    have hl := h2.length_eq
    have h3 := (List.forall₂_iff_get.1 h2).2 i hi (by omega)
    refine ⟨hpw, ss[i], h3, hall _ (List.getElem_mem _), ?_⟩
    exact SA.fitsIn_of_broadcastShapes hall hT (List.getElem_mem _)

theorem leafAt_of_mem : ∀ (c : Comp (SA α)), c.Dicts → ∀ a ∈ c.leaves, ∃ p, c.leafAt p = some a := by
  refine ind ?_ ?_
  · intro a _ b hb
    simp only [leaves, List.mem_cons, List.not_mem_nil, or_false] at hb
    exact ⟨[], by rw [hb]; rfl⟩
  · intro cls cs ih hD b hb
    simp only [leaves] at hb
    obtain ⟨p, hp, h1⟩ := mem_leavesL.1 hb
    have hD' : WF cs ∧ DictsL cs := hD
    obtain ⟨path, h2⟩ := ih p hp (dicts_of_mem hD'.2 p hp) b h1
    refine ⟨p.1 :: path, ?_⟩
    simp only [leafAt, get?_of_mem hD'.1 hp]
    exact h2

theorem alongAxes_ok {S : Shape} {axes : List String} (c : Comp (SA α)) (h : InvC S axes c) :
    ∃ c', c.alongAxes axes = .ok c' ∧ c.Lift (Stretched S axes) c' ∧ ∀ q ∈ c'.parts, InvC S axes q := by
  cases c with
  | leaf a =>
    refine ⟨.leaf a, rfl, stretched_refl a h, fun q hq => ?_⟩
    simp only [parts, List.mem_cons, List.not_mem_nil, or_false] at hq
    rw [hq]; exact h
  | node cls cs =>
    obtain ⟨hw, hf, T, hT, hA, hTS⟩ := h
    have hTw := shape_wf _ hw T hT
    simp only [Full, fullL_iff] at hf
    have key : ∀ p ∈ cs, ∃ q, (do
        let sc ← p.2.shape
        let c ← p.2.broadcastTo (sc.union (onlyAxes T axes))
        .ok (p.1, c) : R (String × Comp (SA α))) = .ok q ∧ p.1 = q.1 ∧ p.2.Lift (Stretched S axes) q.2 ∧ InvC S axes q.2 := by
      intro p hp
      obtain ⟨hpw, t, ht, htw, htT⟩ := part_fits hw hT hp
      have hb : ∀ a ∈ p.2.leaves, ∃ b, a.broadcastTo (t.union (onlyAxes T axes)) = .ok b ∧
          b.shape = t.union (onlyAxes T axes) ∧ Stretched S axes a b := by
        intro a ha
        obtain ⟨_, _, _, h⟩ := stretch htw hTw hTS hA htT (hpw a ha) (leaf_fits hpw ht ha)
        exact h
      obtain ⟨c', hc'⟩ := mapM_isOk' (fun a => a.broadcastTo (t.union (onlyAxes T axes))) p.2 (fun a ha => by
        obtain ⟨b, hb, _⟩ := hb a ha
        exact ⟨b, hb⟩)
      have hl := (mapM_lift (fun a : SA α => a.broadcastTo (t.union (onlyAxes T axes))) p.2 c').1 hc'
      have hl' : p.2.Lift (fun a b => b.shape = t.union (onlyAxes T axes) ∧ Stretched S axes a b) c' :=
        lift_mono (fun a b h => by
          obtain ⟨b', h1, h2⟩ := hb a h.1
          have h3 : a.broadcastTo (t.union (onlyAxes T axes)) = .ok b := h.2
          rw [h1] at h3
          injection h3 with h3
          exact h3 ▸ h2) _ _ (lift_with p.2 c' (fun a ha => ha) hl)
      refine ⟨(p.1, c'), ?_, rfl, lift_mono (fun _ _ h => h.2) _ _ hl', ?_⟩
      · rw [ht]
        simp only [bind, Except.bind]
        have : p.2.broadcastTo (t.union (onlyAxes T axes)) = .ok c' := hc'
        rw [this]
      · have hcf := lift_full _ _ hl' (hf.2 p hp)
        have hleaf : ∀ b ∈ c'.leaves, b.WF ∧ b.shape = t.union (onlyAxes T axes) := by
          intro b hb
          obtain ⟨a, _, h1⟩ := lift_mem_leaves hl' hb
          exact ⟨h1.2.wf, h1.1⟩
        obtain ⟨b, hbm⟩ := List.exists_mem_of_ne_nil _ (full_leaves c' hcf)
        obtain ⟨a, ham, h1⟩ := lift_mem_leaves hl' hbm
        obtain ⟨g1, g2, g3, _⟩ := stretch htw hTw hTS hA htT (hpw a ham) (leaf_fits hpw ht ham)
        exact ⟨fun b hb => (hleaf b hb).1, hcf, _, shape_const g1 c' hcf (fun b hb => (hleaf b hb).2), g2, g3⟩
    have hall : ∃ cs', cs.mapM (fun p => (do
        let sc ← p.2.shape
        let c ← p.2.broadcastTo (sc.union (onlyAxes T axes))
        .ok (p.1, c) : R (String × Comp (SA α)))) = .ok cs' ∧
        List.Forall₂ (fun p q => p.1 = q.1 ∧ p.2.Lift (Stretched S axes) q.2 ∧ InvC S axes q.2) cs cs' := by
      clear hT hf hw
      induction cs with
      | nil => exact ⟨[], rfl, .nil⟩
      | cons p cs ih =>
        obtain ⟨q, h1, h2⟩ := key p (by simp)
        obtain ⟨cs', h3, h4⟩ := ih (fun p hp => key p (by simp [hp]))
        refine ⟨q :: cs', ?_, .cons h2 h4⟩
        rw [List.mapM_cons, h1, h3]
        rfl
    obtain ⟨cs', h1, h2⟩ := hall
    refine ⟨.node cls cs', ?_, ?_, fun q hq => ?_⟩
    · simp only [alongAxes, hT]
      simp only [bind, Except.bind] at h1 ⊢
      rw [h1]
    · simp only [Lift, liftL_iff, true_and]
      exact h2.imp (fun {a b} hab => ⟨hab.1, hab.2.1⟩)
    · simp only [parts, List.mem_map] at hq
      obtain ⟨x, hx, rfl⟩ := hq
      obtain ⟨i, hi, rfl⟩ := List.mem_iff_getElem.1 hx
      have hl := h2.length_eq
      exact ((List.forall₂_iff_get.1 h2).2 i (by omega) hi).2.2

theorem attained {v : Comp (SA α)} {S : Shape} (hv : v.Fine S) : Attained S v.leaves := by
  refine ⟨full_leaves v hv.full, fun ax n hn => ?_⟩
  have hsl := shape_leaves v hv.wf
  rw [hv.shape] at hsl
  cases hb : broadcastShapes (v.leaves.map SA.shape) with
  | error e => rw [hb] at hsl; simp [SameOutcome] at hsl
  | ok R' =>
    rw [hb] at hsl
    have hsame : Same S R' := hsl
    obtain ⟨_, _, hR⟩ := C01_broadcast_shapes_ok _ hv.wf.shapes R' hb
    obtain ⟨⟨s, hs, hsn⟩, _⟩ := hR ax n (by rw [← hsame ax]; exact hn)
    obtain ⟨a, ha, rfl⟩ := List.mem_map.1 hs
    exact ⟨a, ha, hsn⟩

/-- **C109** (vectors). Combining axes succeeds exactly if they are distinct axes of the vector, the name is not that of
another axis, and no other axis is empty; otherwise it is a `ValueError`.  The result has the other axes and one axis with all
the elements of the combined ones, in the same (row-major) order in every component, however deep it is nested and whichever of
the axes the component has. -/
theorem C109_vector (v : Comp (SA α)) (S : Shape) (hv : v.Fine S) (axes : List String) (axisNew : Option String) (name : String)
    (hname : NewName axes axisNew name) :
    (Combinable S axes name ∧ ∃ r, v.combineAxes (some axes) axisNew = .ok r ∧
      (∃ T, r.shape = .ok T ∧ Same T (mergedShape S axes name)) ∧
      v.Lift (fun a b => b.WF ∧ FitsIn b.shape (mergedShape S axes name) ∧ ∀ e, InRange (mergedShape S axes name) e →
        b.atB e = a.atB (splitAt S axes name e)) r) ∨
    (¬ Combinable S axes name ∧ v.combineAxes (some axes) axisNew = .error .valueError) := by
  have hI : InvC S axes v := ⟨hv.wf, hv.full, S, hv.shape, fun _ _ => rfl, fun ax m hm => ⟨m, hm, .inl rfl⟩⟩
  have hrun : v.combineAxes (some axes) axisNew =
      nary (alongAxes axes) (single (fun a => a.combineAxes (some axes) (some name))) [v] := by
    unfold combineAxes
    rw [hv.shape]
    simp only [bind, Except.bind, Option.getD_some]
    have : (fun a : SA α => a.combineAxes (some axes) axisNew) = fun a => a.combineAxes (some axes) (some name) :=
      funext fun a => SA.combine_named hname
    rw [this]
  obtain ⟨h1, h2⟩ := nary_single (op := fun a : SA α => a.combineAxes (some axes) (some name)) stretched_refl stretched_trans
    alongAxes_ok v hv.dicts hI
  have hatt : Attained S v.leaves := attained hv
  rw [hrun]
  by_cases hc : Combinable S axes name
  · left
    refine ⟨hc, ?_⟩
    obtain ⟨r, g1, g2⟩ := h1 (fun a ha a' hr => by
      obtain ⟨b, hb, _⟩ := hr.merge hc
      exact ⟨b, hb⟩)
    have g3 : v.Lift (MergedTo S axes name) r := lift_mono (fun a b h => by
      obtain ⟨a', hr, hb⟩ := h
      obtain ⟨b', hb', hm⟩ := hr.merge hc
      have hb2 : a'.combineAxes (some axes) (some name) = .ok b := hb
      rw [hb'] at hb2
      injection hb2 with hb2
      exact hb2 ▸ hm) _ _ g2
    have g4 := lift_leaves _ _ g3
    obtain ⟨T, hT1, hT2⟩ := merged_shape hc hatt g4
    refine ⟨r, g1, ?_, lift_mono (fun a b h => ⟨h.wf, h.fits, h.val⟩) _ _ g3⟩
    have hrw : r.WFLeaves := fun b hb => by
      obtain ⟨a, _, h⟩ := lift_mem_leaves g3 hb
      exact h.wf
    have hsl := shape_leaves r hrw
    rw [hT1] at hsl
    cases hrs : r.shape with
    | error e => rw [hrs] at hsl; simp [SameOutcome] at hsl
    | ok T' =>
      rw [hrs] at hsl
      have : Same T' T := hsl
      exact ⟨T', rfl, fun ax => (this ax).trans (hT2 ax)⟩
  · right
    refine ⟨hc, ?_⟩
    obtain ⟨a, ha, hf⟩ := hatt.fails hc
    obtain ⟨p, hp⟩ := leafAt_of_mem v hv.dicts a ha
    exact h2 .valueError (fun a _ a' hr => by
      rcases SA.combine_total hr.wf axes name with ⟨b, hb, _⟩ | hb
      · exact .inl ⟨b, hb⟩
      · exact .inr hb) ⟨p, a, hp, fun a' hr => hf a' hr⟩

end Comp

/-! ### Defaults and other failures -/

/-- **C109** (defaults). Without `axes` all the axes of the uncertain scalar are combined, never that of the samples; without
`axis_new` the names are joined with `*` (see `NewName`). -/
theorem C109_uncertain_default (u : UA α) (hu : u.Valid) (S : Shape) (hS : u.shape = .ok S) (axisNew : Option String) :
    u.combineAxes none axisNew = u.combineAxes (some (keys S)) axisNew ∧ axisD ∉ keys S := by
  constructor
  · unfold UA.combineAxes
    rw [hS]
    rfl
  · unfold UA.shape at hS
    cases h : u.shapeDistribution with
    | error e => rw [h] at hS; cases hS
    | ok t =>
      rw [h] at hS
      have : S = t.erase axisD := (Except.ok.inj hS).symm
      rw [this, ← get?_eq_none, get?_erase, if_pos rfl]

/-- **C109** (defaults). Without `axes` all the axes of the vector are combined, also those which a component lacks. -/
theorem C109_vector_default (v : Comp (SA α)) (S : Shape) (hS : v.shape = .ok S) (axisNew : Option String) :
    v.combineAxes none axisNew = v.combineAxes (some (keys S)) axisNew := by
  unfold Comp.combineAxes
  rw [hS]
  rfl

/-- **C109** (no name). Without axes there is no default name: `ValueError`, for uncertain scalars and vectors. -/
theorem C109_no_name (u : UA α) (hu : u.Valid) (v : Comp (SA α)) (S : Shape) (hv : v.Fine S) :
    u.combineAxes (some []) none = .error .valueError ∧ v.combineAxes (some []) none = .error .valueError := by
  constructor
  · unfold UA.combineAxes
    rcases UA.shape_cases hu with ⟨_, _, h⟩ | ⟨_, t, s, sd, h1, h2, h3, h4, h5⟩
    · rw [h]; rfl
    · rw [h5.shape]
      simp only [bind, Except.bind, Option.getD_some]
      have hfa : ∀ a : SA α, FitsIn a.shape (a.shape.union (onlyAxes s [])) := by
        intro a ax m hm
        refine ⟨m, ?_, .inl rfl⟩
        have : onlyAxes s [] = [] := by unfold onlyAxes; simp
        rw [this]
        exact hm
      rcases SA.C10_broadcast_to u.nominal hu.1 _ (wf_union (SA.wf_shape hu.1) (onlyAxes s [])) with ⟨_, n, hn, _⟩ | ⟨h, _⟩
      · rcases SA.C10_broadcast_to u.distribution hu.2.1 _ (wf_union (SA.wf_shape hu.2.1) (onlyAxes s []))
          with ⟨_, d, hd, _⟩ | ⟨h, _⟩
        · rw [hn]
          simp only
          rw [hd]
          rfl
        · exact absurd (hfa _) h
      · exact absurd (hfa _) h
  · unfold Comp.combineAxes
    rw [hv.shape]
    simp only [bind, Except.bind, Option.getD_some]
    have hI : Comp.InvC S [] v := ⟨hv.wf, hv.full, S, hv.shape, fun _ _ => rfl, fun ax m hm => ⟨m, hm, .inl rfl⟩⟩
    obtain ⟨_, h2⟩ := Comp.nary_single (op := fun a : SA α => a.combineAxes (some []) none) Comp.stretched_refl
      Comp.stretched_trans Comp.alongAxes_ok v hv.dicts hI
    obtain ⟨p, a, ha⟩ := hv.path
    exact h2 .valueError (fun a _ a' _ => .inr rfl) ⟨p, a, ha, fun a' _ => rfl⟩

/-- **C109** (no shape). Uncertain scalars and vectors whose parts do not broadcast have no combined axes either. -/
theorem C109_no_shape (u : UA α) (v : Comp (SA α)) (e : Err) (axes : Option (List String)) (axisNew : Option String) :
    (u.shape = .error e → u.combineAxes axes axisNew = .error e) ∧
    (v.shape = .error e → v.combineAxes axes axisNew = .error e) := by
  constructor
  · intro h; unfold UA.combineAxes; rw [h]; rfl
  · intro h; unfold Comp.combineAxes; rw [h]; rfl

/-- **C109** (nothing lost, nothing twice). The elements of the combined array are exactly those of the array: every index of
the array belongs to one and only one index of the combined array. -/
theorem C109_elements (S : Shape) (axes : List String) (name : String) (h : Combinable S axes name) :
    (∀ e, InRange (mergedShape S axes name) e → InRange S (splitAt S axes name e)) ∧
    ∀ i, InRange S i →
      (∃ e, InRange (mergedShape S axes name) e ∧ ∀ ax ∈ keys S, splitAt S axes name e ax = i ax) ∧
      ∀ e e', InRange (mergedShape S axes name) e → InRange (mergedShape S axes name) e' →
        (∀ ax ∈ keys S, splitAt S axes name e ax = i ax) → (∀ ax ∈ keys S, splitAt S axes name e' ax = i ax) →
        ∀ ax ∈ keys (mergedShape S axes name), e ax = e' ax :=
  ⟨fun _ he => splitAt_inRange h he, fun i hi => splitAt_unique h i hi⟩

/-! ### Adding axes -/

/-- Specification: `S` with axes of size 1 added, as far as they are not there. -/
def withOnes' (S : Shape) (axes : List String) : Shape := S ++ axes.map (fun ax => (ax, 1))

theorem get?_withOnes' (S : Shape) (axes : List String) (ax : String) :
    get? (withOnes' S axes) ax = (get? S ax).or (if ax ∈ axes then some 1 else none) := by
  unfold withOnes'
  rw [SA.get?_append]
  congr 1
  induction axes with
  | nil => rfl
  | cons x axes ih =>
    rw [List.map_cons, get?_cons, ih]
    by_cases h : x = ax
    · simp [h]
    · have h' : ¬ ax = x := fun h2 => h h2.symm
      simp [h, h']

theorem added_shape {S : Shape} {axes : List String} {as rs : List (SA α)} (hA : Attained S as)
    (hfit : ∀ a ∈ as, FitsIn a.shape S)
    (hr : List.Forall₂ (fun a r : SA α => a.WF ∧ r.WF ∧ ∀ ax, get? r.shape ax = if ax ∈ a.axes then get? a.shape ax
      else if ax ∈ axes then some 1 else none) as rs) :
    ∃ T, broadcastShapes (rs.map SA.shape) = .ok T ∧ Same T (withOnes' S axes) := by
  have hof : ∀ r ∈ rs, ∃ a ∈ as, a.WF ∧ r.WF ∧ ∀ ax, get? r.shape ax = if ax ∈ a.axes then get? a.shape ax
      else if ax ∈ axes then some 1 else none := by
    intro r hr'
    obtain ⟨i, hi, rfl⟩ := List.mem_iff_getElem.1 hr'
    have hl := hr.length_eq
    exact ⟨as[i], List.getElem_mem _, List.forall₂_iff_get.1 hr |>.2 i (by omega) hi⟩
  have hto : ∀ a ∈ as, ∃ r ∈ rs, a.WF ∧ r.WF ∧ ∀ ax, get? r.shape ax = if ax ∈ a.axes then get? a.shape ax
      else if ax ∈ axes then some 1 else none := by
    intro a ha'
    obtain ⟨i, hi, rfl⟩ := List.mem_iff_getElem.1 ha'
    have hl := hr.length_eq
    exact ⟨rs[i], List.getElem_mem _, List.forall₂_iff_get.1 hr |>.2 i hi (by omega)⟩
  refine bs_of_cover ?_ ?_ ?_
  · intro s hs
    obtain ⟨r, hr', rfl⟩ := List.mem_map.1 hs
    obtain ⟨a, _, _, h, _⟩ := hof r hr'
    exact SA.wf_shape h
  · rintro ax m ⟨s, hs, hm⟩
    obtain ⟨r, hr', rfl⟩ := List.mem_map.1 hs
    obtain ⟨a, ha, _, _, h⟩ := hof r hr'
    rw [h] at hm
    rw [get?_withOnes']
    split at hm
    · obtain ⟨k, hk, h1⟩ := hfit a ha ax m hm
      exact ⟨k, by rw [hk]; rfl, h1⟩
    · split at hm
      · next h2 =>
        injection hm with hm
        cases hS : get? S ax with
        | some k => exact ⟨k, rfl, .inr hm.symm⟩
        | none => exact ⟨1, by rw [if_pos h2]; rfl, .inr hm.symm⟩
      · cases hm
  · intro ax k hk
    rw [get?_withOnes'] at hk
    cases hS : get? S ax with
    | some k' =>
      rw [hS] at hk
      injection hk with hk
      subst hk
      obtain ⟨a, ha, h1⟩ := hA.2 ax k' hS
      obtain ⟨r, hr', haw, _, h2⟩ := hto a ha
      refine ⟨_, List.mem_map_of_mem hr', ?_⟩
      rw [h2, if_pos (by rw [← SA.keys_shape haw]; exact mem_keys_of_get? h1)]
      exact h1
    | none =>
      rw [hS, Option.none_or] at hk
      split at hk
      · next h2 =>
        obtain ⟨a, ha⟩ := List.exists_mem_of_ne_nil _ hA.1
        obtain ⟨r, hr', haw, _, h3⟩ := hto a ha
        refine ⟨_, List.mem_map_of_mem hr', ?_⟩
        rw [h3, if_neg, if_pos h2]
        · exact hk
        · rw [← SA.keys_shape haw]
          intro h4
          obtain ⟨n, hn⟩ := exists_get?_of_mem h4
          obtain ⟨k, hk, _⟩ := hfit a ha ax n hn
          rw [hS] at hk
          cases hk
      · cases hk

/-- **C109** (adding axes to vectors). It always succeeds; every component gets the axes which it lacks, with size 1, and no
element changes; the shape of the vector gets exactly the axes which it lacks. -/
theorem C109_add_vector (v : Comp (SA α)) (S : Shape) (hv : v.Fine S) (axes : List String) :
    ∃ r, v.addAxes axes = .ok r ∧ (∃ T, r.shape = .ok T ∧ Same T (withOnes' S axes)) ∧
      v.Lift (fun a b => b.WF ∧ (∀ ax, get? b.shape ax = if ax ∈ a.axes then get? a.shape ax
        else if ax ∈ axes then some 1 else none) ∧ ∀ e, b.at' e = a.at' e) r := by
  obtain ⟨r, hr⟩ := Comp.mapM_isOk' (fun a => a.addAxes axes) v (fun a ha => by
    obtain ⟨b, hb, _⟩ := SA.addAxes_ok a (hv.wf a ha) axes
    exact ⟨b, hb⟩)
  have hl := (Comp.mapM_lift (fun a : SA α => a.addAxes axes) v r).1 hr
  have hl' : v.Lift (fun a b => a.WF ∧ b.WF ∧ (∀ ax, get? b.shape ax = if ax ∈ a.axes then get? a.shape ax
      else if ax ∈ axes then some 1 else none) ∧ ∀ e, b.at' e = a.at' e) r := Comp.lift_mono (fun a b h => by
    obtain ⟨b', h1, h2⟩ := SA.addAxes_ok a (hv.wf a h.1) axes
    have h3 : a.addAxes axes = .ok b := h.2
    rw [h1] at h3
    injection h3 with h3
    exact ⟨hv.wf a h.1, h3 ▸ h2⟩) _ _ (Comp.lift_with v r (fun a ha => ha) hl)
  have hatt : Attained S v.leaves := Comp.attained hv
  obtain ⟨T, hT1, hT2⟩ := added_shape (axes := axes) hatt (fun a ha => Comp.leaf_fits hv.wf hv.shape ha)
    ((Comp.lift_leaves _ _ hl').imp (fun {a b} h => ⟨h.1, h.2.1, h.2.2.1⟩))
  refine ⟨r, hr, ?_, Comp.lift_mono (fun a b h => h.2) _ _ hl'⟩
  have hrw : r.WFLeaves := fun b hb => by
    obtain ⟨a, _, h⟩ := Comp.lift_mem_leaves hl' hb
    exact h.2.1
  have hsl := Comp.shape_leaves r hrw
  rw [hT1] at hsl
  cases hrs : r.shape with
  | error e => rw [hrs] at hsl; simp [SameOutcome] at hsl
  | ok T' =>
    rw [hrs] at hsl
    have : Same T' T := hsl
    exact ⟨T', rfl, fun ax => (this ax).trans (hT2 ax)⟩

/-- **C109** (adding axes to uncertain scalars). It succeeds unless one of the names is reserved for the samples, and changes
neither the nominal values nor the samples. -/
theorem C109_add_uncertain (u : UA α) (hu : u.Valid) (S : Shape) (hS : u.shape = .ok S) (axes : List String) :
    (axisD ∉ axes ∧ ∃ r, u.addAxes axes = .ok r ∧ r.Valid ∧ (∃ T, r.shape = .ok T ∧ Same T (withOnes' S axes)) ∧
      (∀ e, r.nominal.at' e = u.nominal.at' e) ∧ (∀ e, r.distribution.at' e = u.distribution.at' e) ∧
      get? r.distribution.shape axisD = get? u.distribution.shape axisD) ∨
    (axisD ∈ axes ∧ u.addAxes axes = .error .valueError) := by
  obtain ⟨hu1, hu2, hu3⟩ := hu
  obtain ⟨n, n1, n2, n3, n4⟩ := SA.addAxes_ok u.nominal hu1 axes
  obtain ⟨d, d1, d2, d3, d4⟩ := SA.addAxes_ok u.distribution hu2 axes
  have hrun : u.addAxes axes = UA.mk? n d := by
    unfold UA.addAxes
    rw [n1, d1]
    rfl
  rw [hrun]
  have hD : axisD ∈ n.axes ↔ axisD ∈ axes := by
    rw [← SA.keys_shape n2, ← get?_isSome, n3, if_neg hu3]
    by_cases h : axisD ∈ axes <;> simp [h]
  by_cases h : axisD ∈ axes
  · right
    refine ⟨h, ?_⟩
    unfold UA.mk?
    rw [if_pos (by rw [SA.keys_shape n2]; exact hD.2 h)]
  · left
    have hw : ∀ s ∈ [u.nominal.shape, u.distribution.shape], WF s := by
      intro s hs
      simp only [List.mem_cons, List.not_mem_nil, or_false] at hs
      rcases hs with rfl | rfl
      · exact SA.wf_shape hu1
      · exact SA.wf_shape hu2
    obtain ⟨t, ht, hSt⟩ : ∃ t, u.shapeDistribution = .ok t ∧ S = t.erase axisD := by
      unfold UA.shape at hS
      cases h : u.shapeDistribution with
      | error e => rw [h] at hS; cases hS
      | ok t => rw [h] at hS; exact ⟨t, rfl, (Except.ok.inj hS).symm⟩
    obtain ⟨_, _, hb3⟩ := C01_broadcast_shapes_ok _ hw t ht
    have hatt : Attained t [u.nominal, u.distribution] := by
      refine ⟨by simp, fun ax n hn => ?_⟩
      obtain ⟨⟨s, hs, hn⟩, _⟩ := hb3 ax n hn
      simp only [List.mem_cons, List.not_mem_nil, or_false] at hs
      rcases hs with rfl | rfl
      · exact ⟨_, by simp, hn⟩
      · exact ⟨_, by simp, hn⟩
    obtain ⟨T, hT1, hT2⟩ := added_shape (axes := axes) hatt (fun a ha => by
      simp only [List.mem_cons, List.not_mem_nil, or_false] at ha
      rcases ha with rfl | rfl
      · exact SA.fitsIn_of_broadcastShapes hw ht (by simp)
      · exact SA.fitsIn_of_broadcastShapes hw ht (by simp))
      (.cons ⟨hu1, n2, n3⟩ (.cons ⟨hu2, d2, d3⟩ .nil))
    refine ⟨h, ⟨n, d⟩, UA.mk?_of_valid n2 (fun h' => h (hD.1 h')), ⟨n2, d2, fun h' => h (hD.1 h')⟩,
      ⟨T.erase axisD, ?_, fun ax => ?_⟩, n4, d4, ?_⟩
    · unfold UA.shape UA.shapeDistribution
      have : broadcastShapes [n.shape, d.shape] = .ok T := hT1
      rw [this]
      rfl
    · rw [get?_erase, hT2 ax, get?_withOnes', get?_withOnes', hSt, get?_erase]
      by_cases hx : axisD = ax
      · subst hx
        simp [h]
      · simp [hx]
    · show get? d.shape axisD = _
      rw [d3]
      by_cases h' : axisD ∈ u.distribution.axes
      · rw [if_pos h']
      · rw [if_neg h', if_neg h, get?_eq_none.2 (by rw [SA.keys_shape hu2]; exact h')]

/-! ### Examples -/

/-- nominal values along `x`, two samples along `y` -/
def exTilted : UA Nat := ⟨⟨["x"], ND.ofList [2] [10, 20] 0⟩, ⟨["y", axisD], ND.ofList [3, 2] [1, 2, 3, 4, 5, 6] 0⟩⟩

theorem valid_exTilted : exTilted.Valid := ⟨by decide, by decide, by decide⟩

theorem exTilted_combinable : Combinable [("x", 2), ("y", 3)] ["y", "x"] "p" := by
  refine ⟨by decide, by decide, by decide, by decide⟩

/-- the nominal values are repeated along `y`, the samples along `x`; `x` varies fastest, as it is named last -/
example : (exTilted.combineAxes (some ["y", "x"]) (some "p")).map (fun r => (r.nominal.shape, r.nominal.nd.toList,
    r.distribution.shape, r.distribution.nd.toList)) = .ok ([("p", 6)], [10, 20, 10, 20, 10, 20], [(axisD, 2), ("p", 6)],
    [1, 1, 3, 3, 5, 5, 2, 2, 4, 4, 6, 6]) := by decide +kernel

/-- the theorem applies to it -/
example : ∃ r, exTilted.combineAxes (some ["y", "x"]) (some "p") = .ok r ∧ r.Valid ∧
    ∀ e : String → Nat, e "p" < 6 → e axisD < 2 →
      r.distribution.atB e = exTilted.distribution.atB (splitAt [("x", 2), ("y", 3)] ["y", "x"] "p" e) := by
  rcases C109_uncertain exTilted valid_exTilted [("x", 2), ("y", 3)] (by decide) ["y", "x"] (some "p") "p" rfl with
    ⟨_, r, h1, h2, _, _, _, h6⟩ | ⟨h, _⟩
  · refine ⟨r, h1, h2, fun e hp hd => h6 e (fun ax n hn => ?_) (fun n hn => ?_)⟩
    · rw [get?_mergedShape exTilted_combinable.new] at hn
      split at hn
      · next hx => subst hx; injection hn with hn; rw [← hn]; exact hp
      · split at hn
        · cases hn
        · next h1 h2 =>
          have : ax ≠ "x" ∧ ax ≠ "y" := by
            simp only [List.mem_cons, List.not_mem_nil, or_false, not_or] at h2
            exact ⟨h2.2, h2.1⟩
          rw [get?_cons, if_neg (fun h => this.1 h.symm), get?_cons, if_neg (fun h => this.2 h.symm), get?_nil] at hn
          cases hn
    · have : get? exTilted.distribution.shape axisD = some 2 := by decide
      rw [this] at hn
      injection hn with hn
      omega
  · exact absurd ⟨exTilted_combinable, by decide, by decide⟩ h

/-- by default both axes are combined, but not the one of the samples -/
example : (exTilted.combineAxes none none).map (fun r => (r.nominal.shape, r.distribution.shape)) =
    .ok ([("x*y", 6)], [(axisD, 2), ("x*y", 6)]) := by decide +kernel
/-- failures: an axis which is not there, the axis of the samples, its name, an axis twice -/
example : exTilted.combineAxes (some ["z"]) (some "p") = .error .valueError ∧
    exTilted.combineAxes (some ["x", axisD]) (some "p") = .error .valueError ∧
    exTilted.combineAxes (some ["x"]) (some axisD) = .error .valueError ∧
    exTilted.combineAxes (some ["x"]) (some "y") = .error .valueError ∧
    exTilted.combineAxes (some ["x", "x"]) (some "p") = .error .valueError := by
  refine ⟨?_, ?_, ?_, ?_, ?_⟩
  · exact ((C109_uncertain exTilted valid_exTilted [("x", 2), ("y", 3)] (by decide) ["z"] (some "p") "p" rfl).resolve_left
      (fun h => absurd (h.1.1.sub "z" (by simp)) (by decide))).2
  · exact ((C109_uncertain exTilted valid_exTilted [("x", 2), ("y", 3)] (by decide) ["x", axisD] (some "p") "p" rfl).resolve_left
      (fun h => absurd (h.1.1.sub axisD (by simp)) (by decide))).2
  · exact ((C109_uncertain exTilted valid_exTilted [("x", 2), ("y", 3)] (by decide) ["x"] (some axisD) axisD rfl).resolve_left
      (fun h => h.1.2.1 rfl)).2
  · exact ((C109_uncertain exTilted valid_exTilted [("x", 2), ("y", 3)] (by decide) ["x"] (some "y") "y" rfl).resolve_left
      (fun h => absurd (h.1.1.new (by decide)) (by decide))).2
  · exact ((C109_uncertain exTilted valid_exTilted [("x", 2), ("y", 3)] (by decide) ["x", "x"] (some "p") "p" rfl).resolve_left
      (fun h => absurd h.1.1.nodup (by decide))).2

/-- a time along `t` and a position whose coordinates have axes of their own -/
def exJourney : Comp (SA Nat) := .node "TemporalPositional"
  [("time", .leaf ⟨["t"], ND.ofList [2] [7, 8] 0⟩),
   ("position", .node "Cartesian2d" [("x", .leaf ⟨["x"], ND.ofList [3] [1, 2, 3] 0⟩), ("y", .leaf (SA.scalar 5))])]

theorem exJourney_fine : exJourney.Fine [("t", 2), ("x", 3)] where
  wf := by
    intro a ha
    simp only [exJourney, Comp.leaves, Comp.leavesL, List.cons_append, List.nil_append, List.append_nil, List.mem_cons,
      List.not_mem_nil, or_false] at ha
    rcases ha with rfl | rfl | rfl <;> exact ⟨by decide, by decide⟩
  full := by simp [exJourney, Comp.Full, Comp.FullL]
  dicts := by simp [exJourney, Comp.Dicts, Comp.DictsL, WF, keys]
  shape := by decide

example : Comp.valuesAt (exJourney.combineAxes (some ["x", "t"]) (some "p")) ["time"] = some (["p"], [7, 8, 7, 8, 7, 8]) ∧
    Comp.valuesAt (exJourney.combineAxes (some ["x", "t"]) (some "p")) ["position", "x"] = some (["p"], [1, 1, 2, 2, 3, 3]) ∧
    Comp.valuesAt (exJourney.combineAxes (some ["x", "t"]) (some "p")) ["position", "y"] = some (["p"], [5, 5, 5, 5, 5, 5]) := by
  decide +kernel
/-- one axis only: the time keeps its axis and is repeated along the renamed one -/
example : Comp.valuesAt (exJourney.combineAxes (some ["x"]) (some "p")) ["time"] = some (["t", "p"], [7, 7, 7, 8, 8, 8]) ∧
    Comp.valuesAt (exJourney.combineAxes (some ["x"]) (some "p")) ["position", "y"] = some (["p"], [5, 5, 5]) := by
  decide +kernel
/-- the theorem applies to it, also with the default name -/
example : ∃ r, exJourney.combineAxes none none = .ok r ∧ ∃ T, r.shape = .ok T ∧ Same T [("t*x", 6)] := by
  have hc : Combinable [("t", 2), ("x", 3)] ["t", "x"] "t*x" := ⟨by decide, by decide, by decide, by decide⟩
  rw [C109_vector_default exJourney _ exJourney_fine.shape]
  rcases Comp.C109_vector exJourney _ exJourney_fine ["t", "x"] none "t*x" ⟨by decide, by decide⟩ with ⟨_, r, h1, h2, _⟩ | ⟨h, _⟩
  · exact ⟨r, h1, h2⟩
  · exact absurd hc h
example : exJourney.combineAxes (some ["x"]) (some "t") = .error .valueError :=
  ((Comp.C109_vector exJourney _ exJourney_fine ["x"] (some "t") "t" rfl).resolve_left
    (fun h => absurd (h.1.new (by decide)) (by decide))).2
example : Comp.valuesAt (exJourney.addAxes ["t", "z"]) ["position", "x"] = some (["t", "z", "x"], [1, 2, 3]) := by decide +kernel
example : ∃ r, exJourney.addAxes ["t", "z"] = .ok r ∧ ∃ T, r.shape = .ok T ∧ Same T (withOnes' [("t", 2), ("x", 3)] ["t", "z"]) := by
  obtain ⟨r, h1, h2, _⟩ := C109_add_vector exJourney _ exJourney_fine ["t", "z"]
  exact ⟨r, h1, h2⟩
example : exTilted.addAxes ["z", axisD] = .error .valueError :=
  ((C109_add_uncertain exTilted valid_exTilted [("x", 2), ("y", 3)] (by decide) ["z", axisD]).resolve_left
    (fun h => h.1 (by simp))).2
example : (exTilted.addAxes ["z"]).map (fun r => (r.nominal.shape, r.distribution.shape, r.nominal.nd.toList)) =
    .ok ([("z", 1), ("x", 2)], [("z", 1), ("y", 3), (axisD, 2)], [10, 20]) := by decide +kernel
/-- two axes of two and three elements: six indices -/
example : splitAt [("t", 2), ("x", 3)] ["x", "t"] "p" (fun _ => 3) "x" = 1 ∧
    splitAt [("t", 2), ("x", 3)] ["x", "t"] "p" (fun _ => 3) "t" = 1 := by decide

end NA
