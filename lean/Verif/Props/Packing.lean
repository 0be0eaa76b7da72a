import Verif.Nested.Basic
import Verif.NDLemmas
import Mathlib.Algebra.Order.Ring.Unbundled.Rat

/-!
# C29: `pack` and `unpack`

Specification: two leaves are the same if they have the same kind, unit, axes, shape and elements; two structures are the same
if they have the same containers, keys and other values, and the same leaves.
-/

namespace NA
variable {κ L L' V K U : Type}

/-! ### Specification vocabulary -/

mutual
/-- Two structures with the same containers, keys and other values, and related leaves. -/
def Nest.Rel (r : L → L' → Prop) : Nest κ L V → Nest κ L' V → Prop
  | .arr a, .arr b => r a b
  | .node k cs, .node k' cs' => k = k' ∧ Nest.RelL r cs cs'
  | .other x, .other y => x = y
  | _, _ => False
/-- ... for the elements -/
def Nest.RelL (r : L → L' → Prop) : List (String × Nest κ L V) → List (String × Nest κ L' V) → Prop
  | [], [] => True
  | (k, c) :: l, (k', c') :: l' => k = k' ∧ c.Rel r c' ∧ Nest.RelL r l l'
  | _, _ => False
end

mutual
/-- All leaves satisfy a condition. -/
def Nest.All (p : L → Prop) : Nest κ L V → Prop
  | .arr a => p a
  | .node _ cs => Nest.AllL p cs
  | .other _ => True
/-- ... in all elements -/
def Nest.AllL (p : L → Prop) : List (String × Nest κ L V) → Prop
  | [] => True
  | (_, c) :: l => c.All p ∧ Nest.AllL p l
end

mutual
/-- All containers satisfy a condition. -/
def Nest.AllKinds (p : κ → Prop) : Nest κ L V → Prop
  | .arr _ => True
  | .node k cs => p k ∧ Nest.AllKindsL p cs
  | .other _ => True
/-- ... in all elements -/
def Nest.AllKindsL (p : κ → Prop) : List (String × Nest κ L V) → Prop
  | [] => True
  | (_, c) :: l => c.AllKinds p ∧ Nest.AllKindsL p l
end

/-- A container which can be rebuilt: not a `NamedTuple`. -/
def PackKind.Plain : PackKind → Prop
  | .box (.namedTuple _) => False
  | _ => True

namespace PLeaf

/-- The same kind, unit, axes, shape and elements. -/
def Same : PLeaf K U → PLeaf K U → Prop
  | .named u a, .named u' b => u = u' ∧ a.axes = b.axes ∧ a.nd.Equiv b.nd
  | .bare k u a, .bare k' u' b => k = k' ∧ u = u' ∧ a.Equiv b
  | _, _ => False

/-- A number which python can hold as a number of this kind. -/
def KindOk [Zero K] [One K] (trunc : K → K) : PyKind → K → Prop
  | .bool, x => x = 0 ∨ x = 1
  | .int, x => trunc x = x
  | _, _ => True

/-- A leaf which holds real numbers: a well-formed scalar array, a python number or an array. -/
def Real [Zero K] [One K] (trunc : K → K) : PLeaf K U → Prop
  | .named _ a => a.WF ∧ ∀ x ∈ a.nd.toList, x.im = 0
  | .bare k _ a => (∀ x ∈ a.toList, x.im = 0 ∧ KindOk trunc k x.re) ∧ (k ≠ .array → a.shape = [])
  | .unsupported => False

/-- A scalar array, a number or an array: a leaf which `pack` supports. -/
def Supported : PLeaf K U → Prop
  | .named _ a => a.WF
  | .bare k _ a => k ≠ .array → a.shape = []
  | .unsupported => False

/-- A leaf whose type can hold any real number: not a python `int` or `bool`. -/
def Continuous : PLeaf K U → Prop
  | .bare k _ _ => k ≠ .int ∧ k ≠ .bool
  | _ => True

/-- The number of elements. -/
def size : PLeaf K U → Nat
  | .named _ a => a.nd.size
  | .bare _ _ a => a.size
  | .unsupported => 0

end PLeaf

mutual
/-- The number of numbers in a structure. -/
def Nest.size : PNest K U V → Nat
  | .arr a => a.size
  | .node _ cs => Nest.sizeL cs
  | .other _ => 0
/-- ... in all elements -/
def Nest.sizeL : List (String × PNest K U V) → Nat
  | [] => 0
  | (_, c) :: l => c.size + Nest.sizeL l
end

/-! ### Leaves -/

namespace ND

theorem toList_ofList {α : Type} (shape : List Nat) (l : List α) (d : α) (h : l.length = shape.prod) :
    (ofList shape l d).toList = l := by
  apply List.ext_getElem?
  intro k
  by_cases hk : k < shape.prod
  · rw [toList_getElem? (a := ofList shape l d) hk]
    simp only [ofList]
    rw [ravel_unravel hk, List.getD_eq_getElem?_getD, List.getElem?_eq_getElem (by omega)]
    rfl
  · rw [List.getElem?_eq_none (by rw [length_toList]; exact Nat.le_of_not_lt hk),
      List.getElem?_eq_none (by omega)]

theorem ofList_equiv {α : Type} (a : ND α) (l : List α) (d : α) (h : a.toList = l) : a.Equiv (ofList a.shape l d) := by
  rw [equiv_iff_toList]
  refine ⟨rfl, ?_⟩
  rw [toList_ofList _ _ _ (by rw [← h, length_toList]), h]

end ND

namespace PLeaf
variable [Zero K] [One K] [DecidableEq K] {trunc : K → K}

theorem reshapeList_ok {chunk : List K} {shape : List Nat} (h : chunk.length = shape.prod) :
    reshapeList chunk shape = .ok (ND.ofList shape (chunk.map (fun x => ⟨x, 0⟩)) ⟨0, 0⟩) := by
  unfold reshapeList
  rw [if_pos h]

theorem map_re (l : List (Cx K)) (h : ∀ x ∈ l, x.im = 0) : (l.map Cx.re).map (fun x => (⟨x, 0⟩ : Cx K)) = l := by
  rw [List.map_map]
  conv => rhs; rw [← List.map_id l]
  apply List.map_congr_left
  intro x hx
  cases x with
  | mk r i =>
    have := h _ hx
    simp only at this
    subst this
    rfl

theorem re_map (l : List K) : (l.map (fun x => (⟨x, 0⟩ : Cx K))).map Cx.re = l := by
  rw [List.map_map]
  exact List.map_id l

theorem shape_values {α : Type} {a : SA α} (h : a.WF) : Dict.values a.shape = a.nd.shape := by
  unfold SA.shape Dict.values
  exact List.map_snd_zip (le_of_eq h.1)

theorem shape_keys {α : Type} {a : SA α} (h : a.WF) : Dict.keys a.shape = a.axes := by
  unfold SA.shape Dict.keys
  exact List.map_fst_zip (le_of_eq h.1.symm)

theorem unpack_pack (l : PLeaf K U) (hl : l.Real trunc) : ∃ x, l.pack = .ok x ∧ ∀ rest, ∃ l',
    l.unpack trunc (x ++ rest) = .ok (l', rest) ∧ l.Same l' := by
  cases l with
  | named u a =>
    refine ⟨_, rfl, fun rest => ?_⟩
    have hlen : (a.nd.toList.map Cx.re).length = a.nd.shape.prod := by rw [List.length_map, ND.length_toList]
    refine ⟨.named u ⟨a.axes, ND.ofList a.nd.shape ((a.nd.toList.map Cx.re).map (fun x => ⟨x, 0⟩)) ⟨0, 0⟩⟩, ?_, rfl, rfl, ?_⟩
    · simp only [unpack]
      rw [shape_values hl.1, shape_keys hl.1, List.take_left' hlen, reshapeList_ok hlen, List.drop_left' hlen]
      simp only [bind, Except.bind, SA.mk?]
      rw [if_neg (by rw [not_not]; exact hl.1.1), if_neg (by rw [not_not]; exact hl.1.2)]
    · exact ND.ofList_equiv _ _ _ (map_re _ hl.2).symm
  | bare k u a =>
    refine ⟨_, rfl, fun rest => ?_⟩
    have hlen : (a.toList.map Cx.re).length = a.shape.prod := by rw [List.length_map, ND.length_toList]
    simp only [unpack]
    rw [List.take_left' hlen, List.drop_left' hlen]
    cases hs : a.shape with
    | nil =>
      have ht : a.toList = [a.get []] := by
        unfold ND.toList
        rw [hs]
        rfl
      rw [ht]
      refine ⟨_, rfl, rfl, rfl, ?_⟩
      refine ⟨hs, fun i hi => ?_⟩
      rw [hs] at hi
      cases hi
      have h1 := hl.1 (a.get []) (by rw [ht]; simp)
      show a.get [] = restore trunc k (a.get []).re
      cases hx : a.get [] with
      | mk r i =>
        rw [hx] at h1
        obtain ⟨h1, h2⟩ := h1
        simp only at h1 h2
        subst h1
        cases k with
        | bool =>
          simp only [KindOk] at h2
          simp only [restore]
          split
          · next h => rw [h]
          · next h =>
            rcases h2 with h2 | h2
            · exact absurd h2 h
            · rw [h2]
        | int => simp only [KindOk] at h2; simp only [restore, h2]
        | _ => rfl
    | cons n s =>
      rw [if_neg (by simp)]
      rw [← hs]
      refine ⟨.bare k u (ND.ofList a.shape ((a.toList.map Cx.re).map (fun x => ⟨x, 0⟩)) ⟨0, 0⟩), ?_, rfl, rfl, ?_⟩
      · rw [reshapeList_ok hlen]
        rfl
      · exact ND.ofList_equiv _ _ _ (map_re _ (fun x hx => (hl.1 x hx).1)).symm
  | unsupported => exact hl.elim

theorem pack_length (l : PLeaf K U) (x : List K) (h : l.pack = .ok x) : x.length = l.size := by
  cases l with
  | named u a => cases h; rw [List.length_map, ND.length_toList]; rfl
  | bare k u a => cases h; rw [List.length_map, ND.length_toList]; rfl
  | unsupported => cases h

/-- A leaf uses up as many elements as it has, or raises. -/
theorem unpack_ok (l : PLeaf K U) (hl : l.Supported) (flat : List K) :
    (l.size ≤ flat.length → ∃ l', l.unpack trunc flat = .ok (l', flat.drop l.size) ∧ l'.size = l.size ∧ l'.Supported ∧
      (l.Continuous → l'.pack = .ok (flat.take l.size) ∧ l'.Continuous)) ∧
    (flat.length < l.size → l.unpack trunc flat = .error .valueError ∨ l.unpack trunc flat = .error .indexError) := by
  cases l with
  | named u a =>
    have hWF : a.WF := hl
    simp only [unpack]
    rw [shape_values hWF, shape_keys hWF]
    simp only [size, ND.size]
    constructor
    · intro h
      have hlen : (flat.take a.nd.shape.prod).length = a.nd.shape.prod := by rw [List.length_take]; omega
      refine ⟨.named u ⟨a.axes, ND.ofList a.nd.shape ((flat.take a.nd.shape.prod).map (fun x => ⟨x, 0⟩)) ⟨0, 0⟩⟩, ?_, rfl,
        ⟨hWF.1, hWF.2⟩, fun _ => ⟨?_, trivial⟩⟩
      · rw [reshapeList_ok hlen]
        simp only [bind, Except.bind, SA.mk?]
        rw [if_neg (by rw [not_not]; exact hWF.1), if_neg (by rw [not_not]; exact hWF.2)]
      · simp only [pack]
        rw [ND.toList_ofList _ _ _ (by rw [List.length_map, hlen]), re_map]
    · intro h
      left
      unfold reshapeList
      rw [if_neg (by rw [List.length_take]; omega)]
      rfl
  | bare k u a =>
    simp only [unpack, size, ND.size]
    cases hs : a.shape with
    | nil =>
      simp only [List.prod_nil]
      constructor
      · intro h
        cases flat with
        | nil => simp at h
        | cons x flat =>
          refine ⟨_, rfl, by simp [size, ND.scalar, ND.size], fun _ => rfl, fun hc => ⟨?_, hc⟩⟩
          simp only [pack]
          show Except.ok [(restore trunc k x).re] = Except.ok [x]
          cases k with
          | int => exact absurd rfl hc.1
          | bool => exact absurd rfl hc.2
          | _ => rfl
      · intro h
        have : flat = [] := by
          cases flat with
          | nil => rfl
          | cons => simp at h
        subst this
        right
        rfl
    | cons n s =>
      have hk : k = .array := by
        by_contra hk
        have := hl hk
        rw [hs] at this
        cases this
      rw [if_neg (by simp), ← hs]
      constructor
      · intro h
        have hlen : (flat.take a.shape.prod).length = a.shape.prod := by rw [List.length_take]; omega
        refine ⟨.bare k u (ND.ofList a.shape ((flat.take a.shape.prod).map (fun x => ⟨x, 0⟩)) ⟨0, 0⟩), ?_, rfl,
          fun h => absurd hk h, fun hc => ⟨?_, hc⟩⟩
        · rw [reshapeList_ok hlen]; rfl
        · simp only [pack]
          rw [ND.toList_ofList _ _ _ (by rw [List.length_map, hlen]), re_map]
      · intro h
        left
        unfold reshapeList
        rw [if_neg (by rw [List.length_take]; omega)]
        rfl
  | unsupported => exact hl.elim

end PLeaf

/-! ### Structures -/

namespace Nest
variable [Zero K] [One K] [DecidableEq K] {trunc : K → K}

theorem checkBuild_ok {kind : PackKind} (h : kind.Plain) (n : Nat) : checkBuild kind n = .ok () := by
  cases kind with
  | vector => rfl
  | box b => cases b with
    | namedTuple => exact h.elim
    | _ => rfl

mutual
theorem unpackFrom_pack : (v : PNest K U V) → v.All (PLeaf.Real trunc) → v.AllKinds PackKind.Plain → ∃ x, v.pack = .ok x ∧
    ∀ rest, ∃ v', v.unpackFrom trunc (x ++ rest) = .ok (v', rest) ∧ v.Rel PLeaf.Same v'
  | .arr l, h, _ => by
    simp only [All] at h
    obtain ⟨x, h1, h2⟩ := PLeaf.unpack_pack l h
    refine ⟨x, by simp only [pack]; exact h1, fun rest => ?_⟩
    obtain ⟨l', h3, h4⟩ := h2 rest
    exact ⟨.arr l', by simp only [unpackFrom, h3, bind, Except.bind], by simp only [Rel]; exact h4⟩
  | .other y, _, _ => ⟨[], by simp only [pack], fun rest => ⟨.other y, by simp only [unpackFrom, List.nil_append], by simp only [Rel]⟩⟩
  | .node k cs, h, hk => by
    simp only [All] at h
    simp only [AllKinds] at hk
    obtain ⟨x, h1, h2⟩ := unpackFromL_pack cs h hk.2
    refine ⟨x, by simp only [pack]; exact h1, fun rest => ?_⟩
    obtain ⟨cs', h3, h4⟩ := h2 rest
    exact ⟨.node k cs', by simp only [unpackFrom, checkBuild_ok hk.1, h3, bind, Except.bind],
      by simp only [Rel]; exact ⟨trivial, h4⟩⟩
theorem unpackFromL_pack : (cs : List (String × PNest K U V)) → AllL (PLeaf.Real trunc) cs → AllKindsL PackKind.Plain cs →
    ∃ x, packL cs = .ok x ∧ ∀ rest, ∃ cs', unpackFromL trunc (x ++ rest) cs = .ok (cs', rest) ∧ RelL PLeaf.Same cs cs'
  | [], _, _ => ⟨[], by simp only [packL], fun rest => ⟨[], by simp only [unpackFromL, List.nil_append], by simp only [RelL]⟩⟩
  | (k, c) :: l, h, hk => by
    simp only [AllL] at h
    simp only [AllKindsL] at hk
    obtain ⟨x, h1, h2⟩ := unpackFrom_pack c h.1 hk.1
    obtain ⟨y, h3, h4⟩ := unpackFromL_pack l h.2 hk.2
    refine ⟨x ++ y, by simp only [packL, h1, h3, bind, Except.bind], fun rest => ?_⟩
    obtain ⟨c', g1, g2⟩ := h2 (y ++ rest)
    obtain ⟨l', g3, g4⟩ := h4 rest
    exact ⟨(k, c') :: l', by simp only [unpackFromL, List.append_assoc, g1, g3, bind, Except.bind],
      by simp only [RelL]; exact ⟨trivial, g2, g4⟩⟩
end

mutual
theorem unpackFrom_ok : (v : PNest K U V) → v.All PLeaf.Supported → v.AllKinds PackKind.Plain → ∀ flat : List K,
    (v.size ≤ flat.length → ∃ v', v.unpackFrom trunc flat = .ok (v', flat.drop v.size) ∧
      (v.All PLeaf.Continuous → v'.pack = .ok (flat.take v.size))) ∧
    (flat.length < v.size → v.unpackFrom trunc flat = .error .valueError ∨ v.unpackFrom trunc flat = .error .indexError)
  | .arr l, h, _, flat => by
    simp only [All] at h
    obtain ⟨h1, h2⟩ := PLeaf.unpack_ok (trunc := trunc) l h flat
    simp only [size, unpackFrom, All]
    refine ⟨fun hf => ?_, fun hf => ?_⟩
    · obtain ⟨l', g1, -, -, g4⟩ := h1 hf
      exact ⟨.arr l', by simp only [g1, bind, Except.bind], fun hc => by simp only [pack]; exact (g4 hc).1⟩
    · rcases h2 hf with h | h <;> simp [h, bind, Except.bind]
  | .other y, _, _, flat => by
    simp only [size, unpackFrom]
    exact ⟨fun _ => ⟨.other y, by simp, fun _ => by simp [pack]⟩, fun h => absurd h (by omega)⟩
  | .node k cs, h, hk, flat => by
    simp only [All] at h
    simp only [AllKinds] at hk
    obtain ⟨h1, h2⟩ := unpackFromL_ok cs h hk.2 flat
    simp only [size, unpackFrom, checkBuild_ok hk.1, bind, Except.bind, All]
    refine ⟨fun hf => ?_, fun hf => ?_⟩
    · obtain ⟨cs', g1, g2⟩ := h1 hf
      exact ⟨.node k cs', by simp only [g1], fun hc => by simp only [pack]; exact g2 hc⟩
    · rcases h2 hf with h | h <;> simp [h]
theorem unpackFromL_ok : (cs : List (String × PNest K U V)) → AllL PLeaf.Supported cs → AllKindsL PackKind.Plain cs →
    ∀ flat : List K,
    (sizeL cs ≤ flat.length → ∃ cs', unpackFromL trunc flat cs = .ok (cs', flat.drop (sizeL cs)) ∧
      (AllL PLeaf.Continuous cs → packL cs' = .ok (flat.take (sizeL cs)))) ∧
    (flat.length < sizeL cs → unpackFromL trunc flat cs = .error .valueError ∨
      unpackFromL trunc flat cs = .error .indexError)
  | [], _, _, flat => by
    simp only [sizeL, unpackFromL]
    exact ⟨fun _ => ⟨[], by simp, fun _ => by simp [packL]⟩, fun h => absurd h (by omega)⟩
  | (k, c) :: l, h, hk, flat => by
    simp only [AllL] at h
    simp only [AllKindsL] at hk
    obtain ⟨h1, h2⟩ := unpackFrom_ok c h.1 hk.1 flat
    simp only [sizeL, unpackFromL, AllL]
    by_cases hc : c.size ≤ flat.length
    · obtain ⟨c', g1, g2⟩ := h1 hc
      obtain ⟨h3, h4⟩ := unpackFromL_ok l h.2 hk.2 (flat.drop c.size)
      rw [List.length_drop] at h3 h4
      simp only [g1, bind, Except.bind]
      refine ⟨fun hf => ?_, fun hf => ?_⟩
      · obtain ⟨l', g3, g4⟩ := h3 (by omega)
        refine ⟨(k, c') :: l', by simp only [g3, List.drop_drop], fun hcont => ?_⟩
        simp only [packL, g2 hcont.1, g4 hcont.2, bind, Except.bind]
        rw [← List.take_add]
      · rcases h4 (by omega) with h | h <;> simp [h]
    · refine ⟨fun hf => absurd hf (by omega), fun _ => ?_⟩
      rcases h2 (by omega) with h | h <;> simp [h, bind, Except.bind]
end

end Nest

/-! ### Theorems -/

section
variable [Zero K] [One K] [DecidableEq K] (trunc : K → K)

/-- **C29** `unpack(pack(v), v)` is `v`, for every nesting of dicts, lists, tuples, dataclasses and vectors, with leaves which
hold real numbers. -/
theorem C29_roundtrip (v : PNest K U V) (hv : v.All (PLeaf.Real trunc)) (hk : v.AllKinds PackKind.Plain) :
    ∃ x v', v.pack = .ok x ∧ v.unpack trunc x = .ok v' ∧ v.Rel PLeaf.Same v' := by
  obtain ⟨x, h1, h2⟩ := Nest.unpackFrom_pack v hv hk
  obtain ⟨v', h3, h4⟩ := h2 []
  rw [List.append_nil] at h3
  exact ⟨x, v', h1, by simp [Nest.unpack, h3, bind, Except.bind], h4⟩

/-- **C29** `pack(unpack(flat, like))` is `flat`, when no leaf of `like` is a python `int` or `bool` (which would be
truncated). -/
theorem C29_pack_unpack_partial (like : PNest K U V) (hv : like.All PLeaf.Supported) (hc : like.All PLeaf.Continuous)
    (hk : like.AllKinds PackKind.Plain) (flat : List K) (hf : flat.length = like.size) :
    ∃ v, like.unpack trunc flat = .ok v ∧ v.pack = .ok flat := by
  obtain ⟨v, h1, h2⟩ := (Nest.unpackFrom_ok (trunc := trunc) like hv hk flat).1 (by omega)
  refine ⟨v, ?_, ?_⟩
  · simp only [Nest.unpack, h1, bind, Except.bind]
    rw [if_pos (by rw [← hf, List.drop_length]; rfl)]
  · rw [h2 hc, ← hf, List.take_length]

/-- **C29** `unpack` raises exactly if the flat array is too long or too short; if it is too long, it raises `ValueError`, if it is
too short `ValueError` or `IndexError` (see `C29_short_refuted`). -/
theorem C29_length_partial (like : PNest K U V) (hv : like.All PLeaf.Supported) (hk : like.AllKinds PackKind.Plain)
    (flat : List K) :
    (flat.length = like.size → ∃ v, like.unpack trunc flat = .ok v) ∧
    (like.size < flat.length → like.unpack trunc flat = .error .valueError) ∧
    (flat.length < like.size → like.unpack trunc flat = .error .valueError ∨ like.unpack trunc flat = .error .indexError) := by
  obtain ⟨h1, h2⟩ := Nest.unpackFrom_ok (trunc := trunc) like hv hk flat
  refine ⟨fun hf => ?_, fun hf => ?_, fun hf => ?_⟩
  · obtain ⟨v, g1, -⟩ := h1 (by omega)
    exact ⟨v, by simp [Nest.unpack, g1, bind, Except.bind, ← hf]⟩
  · obtain ⟨v, g1, -⟩ := h1 (by omega)
    simp only [Nest.unpack, g1, bind, Except.bind]
    rw [if_neg]
    simp only [List.isEmpty_iff, List.drop_eq_nil_iff]
    omega
  · rcases h2 hf with h | h <;> simp [Nest.unpack, h, bind, Except.bind]

end

/-! ### Where C29 fails -/

/-- truncation of rationals -/
def truncQ (x : ℚ) : ℚ := (x.num.tdiv x.den : ℤ)

/-- **C29** is false for python integers: `unpack` truncates. -/
theorem C29_int_refuted : ∃ (like : PNest ℚ Unit Unit) (flat : List ℚ), like.All PLeaf.Supported ∧
    like.AllKinds PackKind.Plain ∧ flat.length = like.size ∧
    ∃ v, like.unpack truncQ flat = .ok v ∧ v.pack ≠ .ok flat := by
  refine ⟨.arr (.bare .int none (ND.scalar ⟨0, 0⟩)), [1 / 2], fun _ => rfl, trivial, rfl, _, rfl, ?_⟩
  show Except.ok [truncQ (1 / 2)] ≠ Except.ok [1 / 2]
  decide +kernel

/-- **C29** A flat array which is too short for a python number gives `IndexError` instead of `ValueError`. -/
theorem C29_short_refuted : ∃ (like : PNest ℚ Unit Unit) (flat : List ℚ), like.All PLeaf.Supported ∧
    like.AllKinds PackKind.Plain ∧ flat.length < like.size ∧ like.unpack truncQ flat = .error .indexError :=
  ⟨.arr (.bare .float none (ND.scalar ⟨0, 0⟩)), [], fun _ => rfl, trivial, by decide, rfl⟩

/-- **C29** The imaginary part of complex numbers is lost. -/
theorem C29_complex_refuted : ∃ (v : PNest ℚ Unit Unit) (x : List ℚ), v.All PLeaf.Supported ∧ v.AllKinds PackKind.Plain ∧
    v.pack = .ok x ∧ ∃ v', v.unpack truncQ x = .ok v' ∧ ¬ v.Rel PLeaf.Same v' := by
  refine ⟨.arr (.bare .complex none (ND.scalar ⟨1, 2⟩)), [1], fun _ => rfl, trivial, rfl, _, rfl, ?_⟩
  simp only [Nest.Rel, PLeaf.Same, ND.Equiv]
  rintro ⟨-, -, -, h⟩
  have := h [] (by exact List.Forall₂.nil)
  simp only [ND.scalar, PLeaf.restore] at this
  exact absurd this (by decide +kernel)

/-- **C29** A `NamedTuple` can be packed but not unpacked. -/
theorem C29_namedTuple_refuted : ∃ (v : PNest ℚ Unit Unit) (x : List ℚ), v.All (PLeaf.Real truncQ) ∧ v.pack = .ok x ∧
    v.unpack truncQ x = .error .typeError := by
  refine ⟨.node (.box (.namedTuple "Point")) [("x", .arr (.bare .float none (ND.scalar ⟨1, 0⟩))),
    ("y", .arr (.bare .float none (ND.scalar ⟨2, 0⟩)))], [1, 2], ?_, rfl, rfl⟩
  refine ⟨⟨?_, fun _ => rfl⟩, ⟨?_, fun _ => rfl⟩, trivial⟩ <;>
  · intro x hx
    simp only [ND.scalar, ND.toList, ndIndices, List.map_cons, List.map_nil, List.mem_singleton] at hx
    subst hx
    exact ⟨rfl, trivial⟩

/-! ### A case which meets the hypotheses -/

/-- a dict of a list with a vector, a python integer and a string -/
def packEx : PNest ℚ String String := .node (.box .dict) [
  ("a", .node (.box .list) [
    ("", .node (.vector "Cartesian2d") [
      ("x", .arr (.named (some "mm") ⟨["t"], ND.ofList [2] [⟨1, 0⟩, ⟨2, 0⟩] ⟨0, 0⟩⟩)),
      ("y", .arr (.bare .float none (ND.scalar ⟨3, 0⟩)))]),
    ("", .arr (.bare .int none (ND.scalar ⟨4, 0⟩)))]),
  ("b", .other "text")]

example : packEx.AllKinds PackKind.Plain ∧ packEx.All PLeaf.Supported ∧ packEx.size = 4 ∧ packEx.pack = .ok [1, 2, 3, 4] := by
  refine ⟨⟨trivial, ⟨trivial, ⟨trivial, trivial, trivial, trivial⟩, trivial, trivial⟩, trivial, trivial⟩,
    ⟨⟨⟨(by decide : (1 = 1 ∧ (["t"] : List String).Nodup)), fun _ => rfl, trivial⟩, fun _ => rfl, trivial⟩, trivial, trivial⟩, rfl, rfl⟩

example : packEx.All (PLeaf.Real truncQ) := by
  refine ⟨⟨⟨⟨(by decide : (1 = 1 ∧ (["t"] : List String).Nodup)), ?_⟩, ⟨?_, fun _ => rfl⟩, trivial⟩, ⟨?_, fun _ => rfl⟩, trivial⟩, trivial, trivial⟩
  · show ∀ x ∈ [(⟨1, 0⟩ : Cx ℚ), ⟨2, 0⟩], x.im = 0
    simp
  · show ∀ x ∈ [(⟨3, 0⟩ : Cx ℚ)], x.im = 0 ∧ True
    simp
  · show ∀ x ∈ [(⟨4, 0⟩ : Cx ℚ)], x.im = 0 ∧ truncQ x.re = x.re
    intro x hx
    simp only [List.mem_singleton] at hx
    subst hx
    exact ⟨rfl, by decide +kernel⟩

end NA
