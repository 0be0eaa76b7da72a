import Verif.Scalar.MaskLemmas
import Verif.Props.Elementwise

/-!
# Properties C13–C16: indexing and assignment by name

The specification vocabulary (`selIdx`, `selLen`, `ValidItem`, `StepsOk`, `sliceLen`, `slicePos`) is
at the top of `Verif/Scalar/IndexSpec.lean`; it does not mention axis positions.
-/

namespace NA
open Dict

/-! ### Python slices -/

/-- python's rule for a slice bound: negative bounds count from the end, then clamp to `[0, n]`. -/
def sliceBound (n : Nat) (b : Int) : Int := if b < 0 then max (b + n) 0 else min b n

/-- **C13** (slices, positive step). The slice `lo:hi:step` selects exactly the positions
`lo, lo + step, ...` below `hi`, in increasing order, with the bounds normalised as python does. -/
theorem C13_slice_positions (s : Slice) (n : Nat) (step : Int) (hstep : s.step.getD 1 = step)
    (hpos : 0 < step) :
    let lo := (s.start.map (sliceBound n)).getD 0
    let hi := (s.stop.map (sliceBound n)).getD n
    (∀ k < sliceLen n s, slicePos n s k < n ∧ (slicePos n s k : Int) = lo + k * step) ∧
    (∀ p : Nat, (∃ k < sliceLen n s, slicePos n s k = p) ↔
      lo ≤ p ∧ (p : Int) < hi ∧ step ∣ (p - lo)) := by
  intro lo hi
  have hcl : ∀ b, Slice.clampBound n 0 n b = sliceBound n b := by
    intro b
    unfold Slice.clampBound sliceBound
    dsimp only
    split <;> split <;> (try split) <;> omega
  have hlo : (s.start.map (Slice.clampBound n 0 n)).getD 0 = lo := by
    simp only [lo]; congr 2; funext b; exact hcl b
  have hhi : (s.stop.map (Slice.clampBound n 0 n)).getD n = hi := by
    simp only [hi]; congr 2; funext b; exact hcl b
  have hlo0 := getD_clamp (n := n) (lo := 0) (hi := n) (d := 0) (by omega) (by omega) s.start
  have hhi0 := getD_clamp (n := n) (lo := 0) (hi := n) (d := n) (by omega) (by omega) s.stop
  rw [hlo] at hlo0
  rw [hhi] at hhi0
  have hres : s.resolve n = .ok ⟨lo, step, if lo < hi then ((hi - lo - 1) / step + 1).toNat else 0⟩ := by
    unfold Slice.resolve
    simp only [hstep, hlo, hhi]
    rw [if_neg (by omega), if_pos hpos]
  have hlen : sliceLen n s = if lo < hi then ((hi - lo - 1) / step + 1).toNat else 0 := by
    unfold sliceLen; rw [hres]
  have hp : ∀ k, slicePos n s k = (lo + k * step).toNat := by
    intro k; unfold slicePos; rw [hres]; rfl
  have hk : ∀ k : Nat, k < sliceLen n s ↔ lo + k * step < hi := by
    intro k
    rw [hlen]
    split
    · next h =>
      have h0 : 0 ≤ (hi - lo - 1) / step := Int.ediv_nonneg (by omega) (by omega)
      have := Int.le_ediv_iff_mul_le (a := k) (b := hi - lo - 1) hpos
      constructor
      · intro hk
        have := this.1 (by omega)
        omega
      · intro hk
        have := this.2 (by omega)
        omega
    · next h =>
      have : 0 ≤ (k : Int) * step := by positivity
      constructor
      · intro hk; omega
      · intro hk; omega
  have hnn : ∀ k : Nat, 0 ≤ (k : Int) * step := fun k => by positivity
  constructor
  · intro k hkl
    have h1 := (hk k).1 hkl
    have h2 := hnn k
    rw [hp]
    omega
  · intro p
    constructor
    · rintro ⟨k, hkl, hkp⟩
      have h1 := (hk k).1 hkl
      have h2 := hnn k
      rw [hp] at hkp
      refine ⟨by omega, by omega, ⟨k, ?_⟩⟩
      rw [mul_comm]; omega
    · rintro ⟨h1, h2, c, hc⟩
      have hc0 : 0 ≤ c := by
        by_contra hneg
        have : step * c < 0 := Int.mul_neg_of_pos_of_neg hpos (by omega)
        omega
      obtain ⟨k, rfl⟩ := Int.eq_ofNat_of_zero_le hc0
      have hc' : (k : Int) * step = p - lo := by rw [mul_comm]; exact hc.symm
      refine ⟨k, ?_, ?_⟩
      · rw [hk]; omega
      · rw [hp]; omega

/-- python's rule for a slice bound when the step is negative: clamp to `[-1, n - 1]`. -/
def sliceBoundNeg (n : Nat) (b : Int) : Int := if b < 0 then max (b + n) (-1) else min b (n - 1)

/-- **C13** (slices, negative step): the positions `hi, hi - |step|, ...` above `lo`. -/
theorem C13_slice_positions_negative (s : Slice) (n : Nat) (step : Int) (hstep : s.step.getD 1 = step)
    (hneg : step < 0) :
    let hi := (s.start.map (sliceBoundNeg n)).getD (n - 1)
    let lo := (s.stop.map (sliceBoundNeg n)).getD (-1)
    (∀ k < sliceLen n s, slicePos n s k < n ∧ (slicePos n s k : Int) = hi + k * step) ∧
    (∀ p : Nat, (∃ k < sliceLen n s, slicePos n s k = p) ↔
      lo < p ∧ (p : Int) ≤ hi ∧ step ∣ (p - hi)) := by
  intro hi lo
  have hcl : ∀ b, Slice.clampBound n (-1) (n - 1) b = sliceBoundNeg n b := by
    intro b
    unfold Slice.clampBound sliceBoundNeg
    dsimp only
    split <;> split <;> (try split) <;> omega
  have hhi : (s.start.map (Slice.clampBound n (-1) (n - 1))).getD (n - 1) = hi := by
    simp only [hi]; congr 2; funext b; exact hcl b
  have hlo : (s.stop.map (Slice.clampBound n (-1) (n - 1))).getD (-1) = lo := by
    simp only [lo]; congr 2; funext b; exact hcl b
  have hhi0 := getD_clamp (n := n) (lo := -1) (hi := n - 1) (d := n - 1) (by omega) (by omega) s.start
  have hlo0 := getD_clamp (n := n) (lo := -1) (hi := n - 1) (d := -1) (by omega) (by omega) s.stop
  rw [hlo] at hlo0
  rw [hhi] at hhi0
  have hres : s.resolve n = .ok ⟨hi, step, if lo < hi then ((hi - lo - 1) / (-step) + 1).toNat else 0⟩ := by
    unfold Slice.resolve
    simp only [hstep, hlo, hhi]
    rw [if_neg (by omega), if_neg (by omega)]
  have hlen : sliceLen n s = if lo < hi then ((hi - lo - 1) / (-step) + 1).toNat else 0 := by
    unfold sliceLen; rw [hres]
  have hp : ∀ k, slicePos n s k = (hi + k * step).toNat := by
    intro k; unfold slicePos; rw [hres]; rfl
  have hnn : ∀ k : Nat, 0 ≤ (k : Int) * (-step) := fun k => by
    apply Int.mul_nonneg <;> omega
  have hmn : ∀ k : Nat, (k : Int) * (-step) = - (k * step) := fun k => by ring
  have hk : ∀ k : Nat, k < sliceLen n s ↔ lo < hi + k * step := by
    intro k
    rw [hlen]
    split
    · next h =>
      have h0 : 0 ≤ (hi - lo - 1) / (-step) := Int.ediv_nonneg (by omega) (by omega)
      have hq := Int.le_ediv_iff_mul_le (a := k) (b := hi - lo - 1) (c := -step) (by omega)
      have hm := hmn k
      constructor
      · intro hk
        have := hq.1 (by omega)
        omega
      · intro hk
        have := hq.2 (by omega)
        omega
    · next h =>
      have := hmn k
      have := hnn k
      constructor
      · intro hk; omega
      · intro hk; omega
  constructor
  · intro k hkl
    have h1 := (hk k).1 hkl
    have h2 := hnn k
    have h3 := hmn k
    rw [hp]
    omega
  · intro p
    constructor
    · rintro ⟨k, hkl, hkp⟩
      have h1 := (hk k).1 hkl
      have h2 := hnn k
      have h3 := hmn k
      rw [hp] at hkp
      refine ⟨by omega, by omega, ⟨k, ?_⟩⟩
      rw [mul_comm]; omega
    · rintro ⟨h1, h2, c, hc⟩
      have hc0 : 0 ≤ c := by
        by_contra hneg'
        have : 0 < step * c := Int.mul_pos_of_neg_of_neg hneg (by omega)
        omega
      obtain ⟨k, rfl⟩ := Int.eq_ofNat_of_zero_le hc0
      have hc' : (k : Int) * step = p - hi := by rw [mul_comm]; exact hc.symm
      refine ⟨k, ?_, ?_⟩
      · rw [hk]; omega
      · rw [hp]; omega

example : (List.range (sliceLen 10 ⟨some 1, some (-2), some 3⟩)).map
    (slicePos 10 ⟨some 1, some (-2), some 3⟩) = [1, 4, 7] := by decide
example : (List.range (sliceLen 5 ⟨none, none, some (-2)⟩)).map
    (slicePos 5 ⟨none, none, some (-2)⟩) = [4, 2, 0] := by decide

/-- a one-dimensional array with the given elements (for examples) -/
def ND.vec {α : Type} [Inhabited α] (l : List α) : ND α := ND.ofList [l.length] l default

namespace SA
variable {α : Type}

theorem selIdx_known {a : SA α} {item : Dict IndexVal} {e : String → Nat} {ax : String}
    (h : ax ∈ a.axes) : selIdx a.shape (known a.axes item) e ax = selIdx a.shape item e ax := by
  unfold selIdx; rw [get?_known, if_pos h]

theorem selLen_known {a : SA α} {item : Dict IndexVal} {ax : String}
    (h : ax ∈ a.axes) : selLen a.shape (known a.axes item) ax = selLen a.shape item ax := by
  unfold selLen; rw [get?_known, if_pos h]

theorem validItem_known {a : SA α} (ha : a.WF) {item : Dict IndexVal} :
    ValidItem a.shape (known a.axes item) ↔ ValidItem a.shape item := by
  unfold ValidItem
  constructor <;> intro h ax n hn <;> have := h ax n hn <;>
    rw [get?_known, if_pos (by rw [← keys_shape ha]; exact mem_keys_of_get? hn)] at * <;> exact this

theorem stepsOk_known {a : SA α} (ha : a.WF) {item : Dict IndexVal} :
    StepsOk a.shape (known a.axes item) ↔ StepsOk a.shape item := by
  unfold StepsOk
  constructor <;> intro h ax hax <;> have := h ax hax <;>
    rw [get?_known, if_pos (by rw [← keys_shape ha]; exact hax)] at * <;> exact this

/-! ### C13: integers and slices -/

/-- Only integers and slices (and `None`, which is the same as an absent key). -/
def BasicItem (item : Dict IndexVal) : Prop :=
  Dict.WF item ∧ ∀ ax b, get? item ax ≠ some (.arr b)

/-- an integer is given for this axis -/
def IntAt (item : Dict IndexVal) (ax : String) : Prop := ∃ i, get? item ax = some (.int i)

theorem BasicItem.itemWF {item : Dict IndexVal} (h : BasicItem item) : ItemWF item :=
  ⟨h.1, fun ax b hb => absurd (get?_of_mem h.1 hb) (h.2 ax b)⟩

theorem BasicItem.arrayShapes {item : Dict IndexVal} (h : BasicItem item) (axes : List String) :
    arrayShapes (known axes item) = [] := by
  unfold SA.arrayShapes
  rw [List.filterMap_eq_nil_iff]
  rintro ⟨ax, v⟩ hp
  have hm : (ax, v) ∈ item := List.mem_of_mem_filter hp
  cases v with
  | arr b => exact absurd (get?_of_mem h.1 hm) (h.2 ax b)
  | int i => rfl
  | slice s => rfl
  | none => rfl

theorem mem_basicAxes_known {axes : List String} {item : Dict IndexVal} (h : Dict.WF item) {ax : String} :
    ax ∈ basicAxes axes (known axes item) ↔
      ax ∈ axes ∧ (∀ i, get? item ax ≠ some (.int i)) ∧ ∀ b, get? item ax ≠ some (.arr b) := by
  unfold basicAxes advAxes
  rw [List.mem_filter]
  have hw : Dict.WF (known axes item) := by
    unfold known Dict.WF keys
    exact h.sublist (List.filter_sublist.map _)
  simp only [decide_eq_true_eq]
  rw [mem_keys_advItem hw, get?_known]
  constructor
  · rintro ⟨h1, h2⟩
    rw [if_pos h1] at h2
    push Not at h2
    exact ⟨h1, h2⟩
  · rintro ⟨h1, h2⟩
    rw [if_pos h1]
    push Not
    exact ⟨h1, h2⟩

/-- **C13**. `a[item]` for a dictionary of integers and slices: it succeeds exactly when all
integers (of axes which `a` has) are in range and no slice step is zero; the axes indexed by an
integer disappear, the others keep their order, sliced axes have the length of the slice; keys
which are not axes of `a` are ignored; and each element is read at the substituted index. -/
theorem C13_getitem_basic (a : SA α) (ha : a.WF) (item : Dict IndexVal) (hi : BasicItem item)
    (hsteps : StepsOk a.shape item) (hvalid : ValidItem a.shape item) :
    ∃ r, a.getitem item = .ok r ∧ r.WF ∧
      (∀ ax, ax ∈ r.axes ↔ ax ∈ a.axes ∧ ¬ IntAt item ax) ∧ List.Sublist r.axes a.axes ∧
      (∀ ax ∈ r.axes, get? r.shape ax = some (selLen a.shape item ax)) ∧
      ∀ e, r.at' e = a.at' (selIdx a.shape item e) := by
  have hm := getitem_main ha hi.itemWF
  dsimp only at hm
  rw [hi.arrayShapes] at hm
  have hS : broadcastShapes [] = .ok [] := rfl
  rw [hS] at hm
  obtain ⟨_, _, h3⟩ := hm
  have hB : keys ([] : Shape) ++ basicAxes a.axes (known a.axes item) = basicAxes a.axes (known a.axes item) := rfl
  have hnd : (basicAxes a.axes (known a.axes item)).Nodup := ha.2.filter _
  obtain ⟨r, hr, hw, hax, hsz, hel⟩ := (h3 ((stepsOk_known ha).2 hsteps) ((validItem_known ha).2 hvalid)).2
    (by rw [hB]; exact hnd)
  rw [hB] at hax
  refine ⟨r, hr, hw, ?_, ?_, ?_, ?_⟩
  · intro ax
    rw [hax, mem_basicAxes_known hi.1]
    constructor
    · rintro ⟨h1, h2, _⟩; exact ⟨h1, fun ⟨i, h⟩ => h2 i h⟩
    · rintro ⟨h1, h2⟩; exact ⟨h1, fun i h => h2 ⟨i, h⟩, hi.2 ax⟩
  · rw [hax]; exact List.filter_sublist
  · intro ax hm
    rw [hax] at hm
    rw [hsz, if_pos hm, selLen_known ((mem_basicAxes_known hi.1).1 hm).1]
  · intro e
    rw [hel]
    exact at'_congr (fun ax h => selIdx_known h)

/-- **C13** (errors). An out-of-range integer raises `IndexError`, a zero step `ValueError`. -/
theorem C13_getitem_basic_error (a : SA α) (ha : a.WF) (item : Dict IndexVal) (hi : BasicItem item) :
    (¬ StepsOk a.shape item → a.getitem item = .error .valueError) ∧
    (StepsOk a.shape item → ¬ ValidItem a.shape item → a.getitem item = .error .indexError) := by
  have hm := getitem_main ha hi.itemWF
  dsimp only at hm
  rw [hi.arrayShapes] at hm
  have hS : broadcastShapes [] = .ok [] := rfl
  rw [hS] at hm
  rw [stepsOk_known ha, validItem_known ha] at hm
  exact ⟨hm.1, hm.2.1⟩

/-- **C13** (absent axes). Keys which are not axes of the array have no effect at all. -/
theorem C13_getitem_ignores_absent (a : SA α) (item item' : Dict IndexVal)
    (h : item.filter (fun p => p.1 ∈ a.axes) = item'.filter (fun p => p.1 ∈ a.axes)) :
    a.getitem item = a.getitem item' := by
  unfold getitem
  simp only [h]

/-- The reads are in range: an in-range index of the result is mapped to an in-range index of the
array (so that `at'` above is never evaluated outside of the array). -/
theorem C13_reads_in_range (a : SA α) (ha : a.WF) (item : Dict IndexVal) (hi : BasicItem item)
    (hsteps : StepsOk a.shape item) (hvalid : ValidItem a.shape item) (r : SA α)
    (hr : a.getitem item = .ok r) (e : String → Nat) (he : InRange r.shape e) :
    InRange a.shape (selIdx a.shape item e) := by
  obtain ⟨r', hr', hw, hax, _, hsz, _⟩ := C13_getitem_basic a ha item hi hsteps hvalid
  rw [hr] at hr'
  cases hr'
  intro ax n hn
  have hmem : ax ∈ a.axes := by rw [← keys_shape ha]; exact mem_keys_of_get? hn
  unfold selIdx
  rw [hn]
  simp only [Option.getD_some]
  have hval := hvalid ax n hn
  have hrest : ¬ IntAt item ax → e ax < selLen a.shape item ax := by
    intro h
    exact he ax _ (hsz ax ((hax ax).2 ⟨hmem, h⟩))
  cases hg : get? item ax with
  | none =>
    have := hrest (by rintro ⟨i, h⟩; rw [hg] at h; cases h)
    simpa [selLen, hg, hn] using this
  | some v =>
    cases v with
    | int i => exact pyIndex_lt (hval.1 i hg)
    | arr b => exact absurd hg (hi.2 ax b)
    | none =>
      have := hrest (by rintro ⟨i, h⟩; rw [hg] at h; cases h)
      simpa [selLen, hg, hn] using this
    | slice s =>
      have := hrest (by rintro ⟨i, h⟩; rw [hg] at h; cases h)
      simp only [selLen, hg, hn, Option.getD_some, sliceLen] at this
      dsimp only
      unfold slicePos
      cases hs : s.resolve n with
      | error e' => rw [hs] at this; exact absurd this (Nat.not_lt_zero _)
      | ok r' => rw [hs] at this; exact resolve_pos_lt hs this

/-- a 2×3 array with elements `10 * x + y` -/
def exG : SA Int := ⟨["x", "y"], ⟨[2, 3], fun i => 10 * (i.getD 0 0) + i.getD 1 0⟩⟩

example : exG.WF ∧ BasicItem [("x", .int (-1)), ("z", .int 7), ("y", .slice ⟨some 1, none, none⟩)] ∧
    StepsOk exG.shape [("x", .int (-1)), ("z", .int 7), ("y", .slice ⟨some 1, none, none⟩)] := by
  refine ⟨by decide, ⟨by unfold Dict.WF; decide, ?_⟩, ?_⟩
  · intro ax b h
    simp only [get?] at h
    split at h <;> [cases h; split at h <;> [cases h; split at h <;> cases h]]
  · intro ax _ sl h
    simp only [get?] at h
    split at h <;> [cases h; split at h <;> [cases h; (split at h <;> cases h; decide)]]

example : (do let r ← exG.getitem [("x", .int (-1)), ("z", .int 7), ("y", .slice ⟨some 1, none, none⟩)]
              .ok (r.axes, r.nd.toList)) = .ok (["y"], [11, 12]) := by decide
example : (do let r ← exG.getitem [("x", .int 2)]; .ok r.axes) = .error .indexError := by decide

/-! ### C14: index arrays -/

/-- **C14**. Indexing with integer arrays (mixed with integers and slices): when the index arrays
(for axes which `a` has) broadcast against each other to the shape `S`, no step is zero, all the
integers are in range and no axis of the index arrays is also a remaining axis of `a`, the result
has the axes of `S` followed by the remaining axes, and each element is read at the index obtained
by reading every index array at the same named index. -/
theorem C14_getitem_arrays (a : SA α) (ha : a.WF) (item : Dict IndexVal) (hi : ItemWF item)
    (S : Shape) (hS : broadcastShapes (arrayShapes (known a.axes item)) = .ok S)
    (hsteps : StepsOk a.shape item) (hvalid : ValidItem a.shape item)
    (hdisj : ∀ ax ∈ keys S, ax ∈ a.axes → IntAt item ax ∨ ∃ b, get? item ax = some (.arr b)) :
    ∃ r rest, a.getitem item = .ok r ∧ r.WF ∧ r.axes = keys S ++ rest ∧ List.Sublist rest a.axes ∧
      (∀ ax, ax ∈ rest ↔ ax ∈ a.axes ∧ ¬ IntAt item ax ∧ ∀ b, get? item ax ≠ some (.arr b)) ∧
      (∀ ax ∈ keys S, get? r.shape ax = get? S ax) ∧
      (∀ ax ∈ rest, get? r.shape ax = some (selLen a.shape item ax)) ∧
      ∀ e, r.at' e = a.at' (selIdx a.shape item e) := by
  have hm := getitem_main ha hi
  dsimp only at hm
  rw [hS] at hm
  obtain ⟨_, _, h3⟩ := hm
  have hSw := (broadcastShapes_joinOf (arrayShapes_wf (itemWF_known hi)) hS).1
  have hd : ∀ ax ∈ keys S, ax ∉ basicAxes a.axes (known a.axes item) := by
    intro ax h1 h2
    rw [mem_basicAxes_known hi.1] at h2
    rcases hdisj ax h1 h2.1 with ⟨i, h⟩ | ⟨b, h⟩
    · exact h2.2.1 i h
    · exact h2.2.2 b h
  have hnd : (keys S ++ basicAxes a.axes (known a.axes item)).Nodup := by
    rw [List.nodup_append]
    exact ⟨hSw, ha.2.filter _, fun x hx y hy hxy => hd x hx (hxy ▸ hy)⟩
  obtain ⟨r, hr, hw, hax, hsz, hel⟩ := (h3 ((stepsOk_known ha).2 hsteps) ((validItem_known ha).2 hvalid)).2 hnd
  refine ⟨r, _, hr, hw, hax, List.filter_sublist, ?_, ?_, ?_, ?_⟩
  · intro ax
    show ax ∈ basicAxes a.axes (known a.axes item) ↔ _
    rw [mem_basicAxes_known hi.1]
    constructor
    · rintro ⟨h1, h2, h3⟩; exact ⟨h1, fun ⟨i, h⟩ => h2 i h, h3⟩
    · rintro ⟨h1, h2, h3⟩; exact ⟨h1, fun i h => h2 ⟨i, h⟩, h3⟩
  · intro ax hk
    rw [hsz, if_neg (hd ax hk)]
  · intro ax hm
    rw [hsz, if_pos hm, selLen_known ((mem_basicAxes_known hi.1).1 hm).1]
  · intro e
    rw [hel]
    exact at'_congr (fun ax h => selIdx_known h)

/-- **C14** (errors). Index arrays which do not broadcast, a zero step, or an axis of the index
arrays which is also a remaining axis of `a` raise `ValueError`; an out-of-range integer raises
`IndexError`. -/
theorem C14_getitem_arrays_error (a : SA α) (ha : a.WF) (item : Dict IndexVal) (hi : ItemWF item) :
    (∀ e, broadcastShapes (arrayShapes (known a.axes item)) = .error e →
      a.getitem item = .error .valueError) ∧
    (∀ S, broadcastShapes (arrayShapes (known a.axes item)) = .ok S →
      (¬ StepsOk a.shape item → a.getitem item = .error .valueError) ∧
      (StepsOk a.shape item → ¬ ValidItem a.shape item → a.getitem item = .error .indexError) ∧
      (StepsOk a.shape item → ValidItem a.shape item → ∀ ax ∈ keys S, ax ∈ a.axes → ¬ IntAt item ax →
        (∀ b, get? item ax ≠ some (.arr b)) → a.getitem item = .error .valueError)) := by
  have hm := getitem_main ha hi
  dsimp only at hm
  constructor
  · intro e he
    rw [he] at hm
    have := (broadcastShapes_error (arrayShapes_wf (itemWF_known hi)) he).1
    subst this
    exact hm
  · intro S hS
    rw [hS] at hm
    rw [stepsOk_known ha, validItem_known ha] at hm
    refine ⟨hm.1, hm.2.1, ?_⟩
    intro h1 h2 ax hk hax hni hna
    apply (hm.2.2 h1 h2).1
    intro hnd
    refine (List.nodup_append.1 hnd).2.2 ax hk ax ?_ rfl
    rw [mem_basicAxes_known hi.1]
    exact ⟨hax, fun i h => hni ⟨i, h⟩, hna⟩

/-- index arrays along the new axis `t` -/
def exI (l : List Int) : SA Int := ⟨["t"], ND.vec l⟩

example : (do let r ← exG.getitem [("x", .arr (exI [1, 0, -1])), ("y", .arr (exI [2, 0, 1]))]
              .ok (r.axes, r.nd.toList)) = .ok (["t"], [12, 0, 11]) := by decide
example : (do let r ← exG.getitem [("y", .arr (exI [2, 0]))]
              .ok (r.axes, r.nd.toList)) = .ok (["t", "x"], [2, 12, 0, 10]) := by decide
example : broadcastShapes (arrayShapes (known exG.axes [("y", .arr (exI [2, 0]))])) = .ok [("t", 2)] := by decide
example : (do let r ← exG.getitem [("y", .arr ⟨["x"], ND.vec [2, 0]⟩)]; .ok r.axes) =
    .error .valueError := by decide

/-! ### C15: masks -/

/-- **C15**. For a mask whose axes are axes of `a` with equal sizes, and a new name which is not
one of the remaining axes: `a[mask]` keeps the remaining axes and appends the new axis `s`, whose
entries are numbered by an enumeration `sel` of the true indices of the mask: each `sel k` is a true
index, they are in strictly increasing row-major order (so each occurs once) and every true index
occurs. -/
theorem C15_mask (a : SA α) (ha : a.WF) (mask : SA Bool) (hm : mask.WF)
    (hsub : mask.axes ⊆ a.axes) (hsize : ∀ ax ∈ mask.axes, get? mask.shape ax = get? a.shape ax) :
    ∃ s, maskAxis mask = .ok s ∧ ((∀ ax ∈ a.axes, ax ∉ mask.axes → ax ≠ s) →
      ∃ (r : SA α) (n : Nat) (sel : Nat → String → Nat), a.getMask mask = .ok r ∧ r.WF ∧ r.axes = a.axes.filter (· ∉ mask.axes) ++ [s] ∧
        get? r.shape s = some n ∧
        (∀ ax ∈ a.axes, ax ∉ mask.axes → get? r.shape ax = get? a.shape ax) ∧
        (∀ k < n, InRange mask.shape (sel k) ∧ mask.at' (sel k) = true) ∧
        (∀ k k', k < k' → k' < n → List.Lex (· < ·) (mask.axes.map (sel k)) (mask.axes.map (sel k'))) ∧
        (∀ e, InRange mask.shape e → mask.at' e = true → ∃ k < n, ∀ ax ∈ mask.axes, sel k ax = e ax) ∧
        ∀ e, InRange r.shape e →
          r.at' e = a.at' (fun ax => if ax ∈ mask.axes then sel (e s) ax else e ax)) := by
  obtain ⟨s, hs, _, h2⟩ := ((getMask_main ha hm).2 hsub).2 hsize
  refine ⟨s, hs, fun hne => ?_⟩
  obtain ⟨r, hr, hw, hax, hsz, hszs, hel⟩ := h2 (by
    intro h
    simp at h
    exact hne s h.1 h.2 rfl)
  obtain ⟨t1, t2, t3⟩ := trues_spec hm
  exact ⟨r, _, trueEnv mask, hr, hw, hax, hszs, hsz, t1, t2, t3, fun e he => hel e (he s _ hszs)⟩

/-- **C15** (name of the new axis): the names of the mask joined by `*`. -/
theorem C15_mask_axis (mask : SA Bool) : maskAxis mask =
    .ok (if mask.axes = [] then "boolean" else "*".intercalate mask.axes) := maskAxis_ok mask

/-- **C15** (errors). A mask with an axis which `a` lacks raises `ValueError`, one of a different
size `IndexError`, and a new name which collides with a remaining axis `ValueError`. -/
theorem C15_mask_error (a : SA α) (ha : a.WF) (mask : SA Bool) (hm : mask.WF) :
    (¬ mask.axes ⊆ a.axes → a.getMask mask = .error .valueError) ∧
    (mask.axes ⊆ a.axes → (∃ ax ∈ mask.axes, get? mask.shape ax ≠ get? a.shape ax) →
      a.getMask mask = .error .indexError) ∧
    (mask.axes ⊆ a.axes → (∀ ax ∈ mask.axes, get? mask.shape ax = get? a.shape ax) →
      (∃ ax ∈ a.axes, ax ∉ mask.axes ∧ maskAxis mask = .ok ax) →
      a.getMask mask = .error .valueError) := by
  obtain ⟨h1, h2⟩ := getMask_main ha hm
  refine ⟨h1, fun hs => (h2 hs).1, fun hs he hc => ?_⟩
  obtain ⟨s, hs', h3, _⟩ := (h2 hs).2 he
  obtain ⟨ax, hax, hn, hm'⟩ := hc
  rw [hs'] at hm'
  cases hm'
  exact h3 (by simp [hax, hn])

/-- mask along `y`, then along both axes -/
def exM : SA Bool := ⟨["y"], ND.vec [true, false, true]⟩
def exM2 : SA Bool := ⟨["y", "x"], ⟨[3, 2], fun i => i.getD 0 0 ≠ i.getD 1 0⟩⟩
example : (do let r ← exG.getMask exM; .ok (r.axes, r.nd.shape, r.nd.toList)) =
    .ok (["x", "y"], [2, 2], [0, 2, 10, 12]) := by decide
example : (do let r ← exG.getMask exM2; .ok (r.axes, r.nd.toList)) =
    .ok (["y*x"], [10, 1, 2, 12]) := by decide
example : exM2.WF ∧ exM2.axes ⊆ exG.axes ∧ ∀ ax ∈ exM2.axes, get? exM2.shape ax = get? exG.shape ax := by
  refine ⟨by decide, by decide, by decide⟩

/-! ### C16: assignment -/

/-- the named shape addressed by an item: the shape of the index arrays and the remaining axes -/
def addressed (a : SA α) (item : Dict IndexVal) (S : Shape) : Shape := selShape a item S

/-- the index `e` of `a` is addressed by the item at the selection index `f` -/
def Addresses (a : SA α) (item : Dict IndexVal) (S : Shape) (f e : String → Nat) : Prop :=
  InRange (addressed a item S) f ∧ ∀ ax ∈ a.axes, selIdx a.shape item f ax = e ax

/-- **C16**. Assignment by a dictionary of integers, slices and index arrays, all of whose keys are
axes of `a`: if the value broadcasts to the addressed shape then the shape of `a` is unchanged, every
element which is not addressed is unchanged, and every addressed element holds the value at the last
(in row-major order) of the selection indices which address it. -/
theorem C16_setitem (a value : SA α) (ha : a.WF) (hv : value.WF) (item : Dict IndexVal)
    (hi : ItemWF item) (hnone : ∀ v ∈ values item, v.isNone = false) (hsub : keys item ⊆ a.axes)
    (S : Shape) (hS : broadcastShapes (arrayShapes item) = .ok S)
    (hdisj : (keys (addressed a item S)).Nodup)
    (hsteps : StepsOk a.shape item) (hvalid : ValidItem a.shape item)
    (hfit : FitsIn value.shape (addressed a item S)) :
    ∃ r, a.setitem item value = .ok r ∧ r.WF ∧ r.axes = a.axes ∧ r.shape = a.shape ∧
      (∀ e, (¬ ∃ f, Addresses a item S f e) → r.at' e = a.at' e) ∧
      (∀ e, (∃ f, Addresses a item S f e) → ∃ f, Addresses a item S f e ∧ r.at' e = value.atB f ∧
        ∀ f', Addresses a item S f' e →
          (keys (addressed a item S)).map f' = (keys (addressed a item S)).map f ∨
          List.Lex (· < ·) ((keys (addressed a item S)).map f') ((keys (addressed a item S)).map f)) := by
  have hm := setitem_main ha hv hi hnone hsub
  rw [hS] at hm
  dsimp only at hm
  unfold addressed at hdisj hfit
  rw [keys_selShape] at hdisj
  have hsubv : value.axes ⊆ keys S ++ basicAxes a.axes item := by
    intro ax hax
    rw [← keys_selShape]
    obtain ⟨m, hm'⟩ := exists_get?_of_mem (d := value.shape) (by rw [keys_shape hv]; exact hax)
    obtain ⟨n, hn, _⟩ := hfit ax m hm'
    exact mem_keys_of_get? hn
  obtain ⟨r, hr, hw, hax, hsh, hel⟩ := (((hm hdisj).2 hsubv).2.2 hsteps hvalid).2 (by
    intro ax m n hm' hn
    obtain ⟨n', hn', h⟩ := hfit ax m hm'
    rw [hn] at hn'
    cases hn'
    tauto)
  refine ⟨r, hr, hw, hax, hsh, ?_, ?_⟩
  · intro e hno
    apply (hel e).1
    intro f hf
    by_contra hc
    push Not at hc
    exact hno ⟨f, hf, hc⟩
  · rintro e ⟨f, hf, hfe⟩
    obtain ⟨f', h1, h2, h3, h4⟩ := (hel e).2 ⟨f, hf, hfe⟩
    exact ⟨f', ⟨h1, h2⟩, h3, fun f'' hf'' => h4 f'' hf''.1 hf''.2⟩

/-- Without index arrays different selection indices address different elements. -/
theorem addresses_unique {a : SA α} (ha : a.WF) {item : Dict IndexVal} (hi : BasicItem item)
    {f f' e : String → Nat} (h : Addresses a item [] f e) (h' : Addresses a item [] f' e) {ax : String}
    (hax : ax ∈ keys (addressed a item [])) : f ax = f' ax := by
  unfold addressed at hax
  rw [keys_selShape] at hax
  have hax' : ax ∈ basicAxes a.axes item := hax
  have hmem : ax ∈ a.axes := by
    unfold basicAxes at hax'; exact List.mem_of_mem_filter hax'
  have hnk : ax ∉ advAxes item := by
    unfold basicAxes at hax'; simpa using (List.mem_filter.1 hax').2
  have hget : get? (addressed a item []) ax = some (selLen a.shape item ax) := by
    unfold addressed selShape
    rw [List.nil_append, get?_map_self, if_pos hax']
  have h1 := h.2 ax hmem
  have h1' := h'.2 ax hmem
  have hb := h.1 ax _ hget
  have hb' := h'.1 ax _ hget
  have heq : selIdx a.shape item f ax = selIdx a.shape item f' ax := by rw [h1, h1']
  unfold selIdx at heq
  cases hg : get? item ax with
  | none => simpa [hg] using heq
  | some v =>
    cases v with
    | int i => exact absurd ((mem_keys_advItem hi.1).2 (.inl ⟨i, hg⟩)) hnk
    | arr b => exact absurd hg (hi.2 ax b)
    | none => simpa [hg] using heq
    | slice s =>
      rw [hg] at heq
      simp only [selLen, hg, sliceLen] at hb hb'
      simp only [slicePos] at heq
      cases hs : s.resolve ((get? a.shape ax).getD 0) with
      | error e' => rw [hs] at hb; simp at hb
      | ok r => rw [hs] at heq hb hb'; exact resolve_pos_inj hs hb hb' heq

/-- **C16** (integers and slices). Every selection index `f` receives exactly its own value. -/
theorem C16_setitem_basic (a value : SA α) (ha : a.WF) (hv : value.WF) (item : Dict IndexVal)
    (hi : BasicItem item) (hnone : ∀ v ∈ values item, v.isNone = false) (hsub : keys item ⊆ a.axes)
    (hsteps : StepsOk a.shape item) (hvalid : ValidItem a.shape item)
    (hfit : FitsIn value.shape (addressed a item [])) :
    ∃ r, a.setitem item value = .ok r ∧ r.WF ∧ r.axes = a.axes ∧ r.shape = a.shape ∧
      (∀ e, (¬ ∃ f, Addresses a item [] f e) → r.at' e = a.at' e) ∧
      (∀ f, InRange (addressed a item []) f → r.at' (selIdx a.shape item f) = value.atB f) := by
  have hS : broadcastShapes (arrayShapes item) = .ok [] := by
    have : arrayShapes item = [] := by
      have := hi.arrayShapes (axes := keys item)
      rw [show known (keys item) item = item from ?_] at this
      · exact this
      · unfold known
        rw [List.filter_eq_self]
        intro p hp
        simp only [decide_eq_true_eq]
        exact List.mem_map_of_mem hp
    rw [this]; rfl
  have hnd : (keys (addressed a item [])).Nodup := by
    unfold addressed
    rw [keys_selShape]
    exact ha.2.filter _
  obtain ⟨r, hr, hw, hax, hsh, h1, h2⟩ := C16_setitem a value ha hv item hi.itemWF hnone hsub [] hS
    hnd hsteps hvalid hfit
  refine ⟨r, hr, hw, hax, hsh, h1, fun f hf => ?_⟩
  obtain ⟨f', hf', hval, -⟩ := h2 (selIdx a.shape item f) ⟨f, hf, fun _ _ => rfl⟩
  rw [hval]
  apply atB_congr
  intro ax hmem
  refine addresses_unique ha hi hf' ⟨hf, fun _ _ => rfl⟩ ?_
  obtain ⟨m, hm'⟩ := exists_get?_of_mem (d := value.shape) (by rw [keys_shape hv]; exact hmem)
  obtain ⟨n, hn, _⟩ := hfit ax m hm'
  exact mem_keys_of_get? hn

/-- **C16** (errors). A key which is not an axis of `a`, index arrays which do not broadcast, or a
value which does not broadcast to the addressed shape raise `ValueError`; an out-of-range integer
raises `IndexError`.  (The array is unchanged, since the errors precede the write.) -/
theorem C16_setitem_error (a value : SA α) (ha : a.WF) (hv : value.WF) (item : Dict IndexVal)
    (hi : ItemWF item) (hnone : ∀ v ∈ values item, v.isNone = false) :
    (¬ keys item ⊆ a.axes → a.setitem item value = .error .valueError) ∧
    (keys item ⊆ a.axes → ∀ e, broadcastShapes (arrayShapes item) = .error e →
      a.setitem item value = .error .valueError) ∧
    (keys item ⊆ a.axes → ∀ S, broadcastShapes (arrayShapes item) = .ok S →
      (keys (addressed a item S)).Nodup →
      (¬ value.axes ⊆ keys (addressed a item S) → a.setitem item value = .error .valueError) ∧
      (value.axes ⊆ keys (addressed a item S) → StepsOk a.shape item →
        (¬ ValidItem a.shape item → a.setitem item value = .error .indexError) ∧
        (ValidItem a.shape item → ¬ FitsIn value.shape (addressed a item S) →
          a.setitem item value = .error .valueError))) := by
  refine ⟨?_, ?_, ?_⟩
  · intro hs
    have hnone' : item.values.any IndexVal.isNone = false := by
      rw [List.any_eq_false]
      intro v hv
      simp [hnone v hv]
    unfold setitem
    rw [if_neg (by simp [hnone']), if_neg]
    intro h
    apply hs
    intro x hx
    rw [List.all_eq_true] at h
    simpa using h x hx
  · intro hs e he
    have hm := setitem_main ha hv hi hnone hs
    rw [he] at hm
    have := (broadcastShapes_error (arrayShapes_wf hi) he).1
    subst this
    exact hm
  · intro hs S hS hnd
    have hm := setitem_main ha hv hi hnone hs
    rw [hS] at hm
    dsimp only at hm
    unfold addressed at *
    rw [keys_selShape] at *
    obtain ⟨h1, h2⟩ := hm hnd
    refine ⟨h1, fun hsub hst => ⟨(h2 hsub).2.1 hst, fun hva hnf => ?_⟩⟩
    apply ((h2 hsub).2.2 hst hva).1
    unfold FitsIn at hnf
    push Not at hnf
    obtain ⟨ax, m, hm', hnf⟩ := hnf
    have hax : ax ∈ value.axes := by rw [← keys_shape hv]; exact mem_keys_of_get? hm'
    obtain ⟨n, hn⟩ := exists_get?_of_mem (d := selShape a item S) (by rw [keys_selShape]; exact hsub hax)
    have := hnf n hn
    exact ⟨ax, m, n, hm', hn, by tauto, by tauto⟩

example : (do let r ← exG.setitem [("x", .int (-1)), ("y", .slice ⟨some 1, none, none⟩)]
                (⟨["y"], ND.vec [7, 8]⟩ : SA Int)
              .ok (r.axes, r.nd.toList)) = .ok (["x", "y"], [0, 1, 2, 10, 7, 8]) := by decide
example : (do let r ← exG.setitem [("y", .arr (exI [2, 0, 2]))] (⟨["t"], ND.vec [7, 8, 9]⟩ : SA Int)
              .ok (r.axes, r.nd.toList)) = .ok (["x", "y"], [8, 1, 9, 8, 11, 9]) := by decide
example : FitsIn (⟨["y"], ND.vec [7, 8]⟩ : SA Int).shape
    (addressed exG [("x", .int (-1)), ("y", .slice ⟨some 1, none, none⟩)] []) := by
  have h1 : (⟨["y"], ND.vec [7, 8]⟩ : SA Int).shape = [("y", 2)] := by decide
  have h2 : addressed exG [("x", .int (-1)), ("y", .slice ⟨some 1, none, none⟩)] [] = [("y", 2)] := by
    decide
  rw [h1, h2]
  intro ax m hm
  exact ⟨m, hm, by tauto⟩

/-- **C16** (masks). `a[mask] = value`: elements where the mask is false are unchanged, and the
element at the `k`-th true index of the mask (in row-major order) holds the value at index `k` of the
new axis `s`. -/
theorem C16_set_mask (a value : SA α) (ha : a.WF) (hv : value.WF) (mask : SA Bool) (hm : mask.WF)
    (hsub : mask.axes ⊆ a.axes) (hsize : ∀ ax ∈ mask.axes, get? mask.shape ax = get? a.shape ax)
    (s : String) (hs : maskAxis mask = .ok s) (hne : ∀ ax ∈ a.axes, ax ∉ mask.axes → ax ≠ s)
    (hvs : ∀ ax ∈ value.axes, ax = s ∨ ax ∈ a.axes ∧ ax ∉ mask.axes)
    (hfit1 : ∀ m, get? value.shape s = some m → m = mask.nd.trues.length ∨ m = 1)
    (hfit2 : ∀ ax m, ax ∈ a.axes → ax ∉ mask.axes → get? value.shape ax = some m →
      get? a.shape ax = some m ∨ m = 1) :
    ∃ (r : SA α) (sel : Nat → String → Nat), a.setMask mask value = .ok r ∧ r.WF ∧ r.axes = a.axes ∧ r.shape = a.shape ∧
      (∀ k < mask.nd.trues.length, InRange mask.shape (sel k) ∧ mask.at' (sel k) = true) ∧
      (∀ k k', k < k' → k' < mask.nd.trues.length →
        List.Lex (· < ·) (mask.axes.map (sel k)) (mask.axes.map (sel k'))) ∧
      (∀ e, InRange mask.shape e → mask.at' e = true →
        ∃ k < mask.nd.trues.length, ∀ ax ∈ mask.axes, sel k ax = e ax) ∧
      (∀ e, InRange a.shape e → mask.at' e = false → r.at' e = a.at' e) ∧
      (∀ e, (∀ ax n, ax ∉ mask.axes → get? a.shape ax = some n → e ax < n) → e s < mask.nd.trues.length →
        r.at' (fun ax => if ax ∈ mask.axes then sel (e s) ax else e ax) = value.atB e) := by
  obtain ⟨s', hs', h⟩ := (setMask_main ha hv hm).2 hsub
  rw [hs] at hs'
  cases hs'
  obtain ⟨_, h2⟩ := h (by
    intro h
    simp at h
    exact hne s h.1 h.2 rfl)
  obtain ⟨r, hr, hw, hax, hsh, h3, h4⟩ := ((h2 (by
    intro ax hax
    simp only [List.mem_cons, List.mem_filter, decide_eq_true_eq]
    exact hvs ax hax)).2 hsize).2 hfit1 hfit2
  obtain ⟨t1, t2, t3⟩ := trues_spec hm
  exact ⟨r, trueEnv mask, hr, hw, hax, hsh, t1, t2, t3, h3, h4⟩

example : (do let r ← exG.setMask exM2 (⟨["y*x"], ND.vec [5, 6, 7, 8]⟩ : SA Int)
              .ok (r.axes, r.nd.toList)) = .ok (["x", "y"], [0, 6, 7, 5, 11, 8]) := by decide
example : (do let r ← exG.setMask exM (SA.scalar 5); .ok (r.axes, r.nd.toList)) =
    .ok (["x", "y"], [5, 1, 5, 5, 11, 5]) := by decide

end SA
end NA
