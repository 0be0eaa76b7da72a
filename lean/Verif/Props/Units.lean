import Verif.Units.Basic
import Verif.Vector.Nary
import Verif.Props.Elementwise
import Verif.Props.Vectors
import Verif.Props.VectorAlong
import Verif.Props.Regridding
import Mathlib.Tactic.FieldSimp
import Mathlib.Tactic.Ring
import Mathlib.Algebra.Group.Prod
import Mathlib.Algebra.Field.Rat

/-!
# C98: physical units

Specification: `QA.phys` is the physical value of an element in base units, `QA.dim` the dimension of an array.
-/

namespace NA
open Dict

variable {K D : Type}

namespace QA

/-- The dimension of an array; an array without unit is dimensionless. -/
def dim [One K] [Zero D] (q : QA K D) : D := q.unitNormalized.dim

/-- The physical value at a named index, in base units. -/
def phys [Field K] [Zero D] (q : QA K D) (e : String → Nat) : K := q.data.atB e * q.unitNormalized.scale

/-- The unit, if there is one, has a size. -/
def Valid [Zero K] (q : QA K D) : Prop := ∀ u, q.unit = some u → u.scale ≠ 0

/-- The same axes and sizes, the same dimension and the same physical values. -/
structure Same [Field K] [Zero D] (q r : QA K D) : Prop where
  wf : q.data.WF → r.data.WF
  shape : r.data.shape = q.data.shape
  dim : r.dim = q.dim
  phys : ∀ e, r.phys e = q.phys e

theorem wf_withUnit {q : QA K D} {f : K → K} {u : Option (PhysUnit K D)} (h : q.data.WF) : (q.withUnit f u).data.WF := h

theorem shape_withUnit (q : QA K D) (f : K → K) (u : Option (PhysUnit K D)) : (q.withUnit f u).data.shape = q.data.shape := rfl

theorem atB_withUnit (q : QA K D) (f : K → K) (u : Option (PhysUnit K D)) (e : String → Nat) :
    (q.withUnit f u).data.atB e = f (q.data.atB e) := rfl

theorem Same.refl [Field K] [Zero D] (q : QA K D) : Same q q := ⟨id, rfl, rfl, fun _ => rfl⟩

theorem Same.trans [Field K] [Zero D] {q r s : QA K D} (h : Same q r) (h' : Same r s) : Same q s :=
  ⟨fun hq => h'.wf (h.wf hq), h'.shape.trans h.shape, h'.dim.trans h.dim, fun e => (h'.phys e).trans (h.phys e)⟩

variable [Field K] [AddCommGroup D] [DecidableEq D]

theorem scale_ne {q : QA K D} (h : q.Valid) : q.unitNormalized.scale ≠ 0 := by
  unfold unitNormalized
  cases hq : q.unit with
  | none => exact one_ne_zero
  | some u => exact h u hq

theorem converter_same {u v : PhysUnit K D} (h : u.dim = v.dim) (eqs : List (Equivalency K D)) :
    u.converter v eqs = some (fun x => x * (u.scale / v.scale)) := by
  unfold PhysUnit.converter
  exact if_pos h

theorem converter_nil {u v : PhysUnit K D} (h : u.dim ≠ v.dim) : u.converter v [] = none := by
  unfold PhysUnit.converter
  rw [if_neg h]
  rfl

/-- **C98** (conversion). `a.to(unit)` succeeds exactly if the dimensions agree (an array without unit is dimensionless); the result
has this unit, and every element has the same physical value. -/
theorem C98_to (q : QA K D) (u : PhysUnit K D) (hu : u.scale ≠ 0) (eqs : List (Equivalency K D)) :
    (q.dim = u.dim → ∃ r, q.toUnit u eqs = .ok r ∧ r.unit = some u ∧ Same q r) ∧
    (q.dim ≠ u.dim → q.toUnit u [] = .error .other) := by
  refine ⟨fun h => ?_, fun h => ?_⟩
  · refine ⟨q.withUnit (fun x => x * (q.unitNormalized.scale / u.scale)) (some u), ?_, rfl, ⟨wf_withUnit, rfl, h.symm, fun e => ?_⟩⟩
    · unfold toUnit
      rw [converter_same h eqs]
    · show q.data.atB e * (q.unitNormalized.scale / u.scale) * u.scale = q.data.atB e * q.unitNormalized.scale
      field_simp
  · unfold toUnit
    rw [converter_nil h]

/-- **C98** (numbers). `a.to_value(unit)` returns the numbers of `a.to(unit)`. -/
theorem C98_to_value (q : QA K D) (u : PhysUnit K D) (hu : u.scale ≠ 0) (eqs : List (Equivalency K D)) :
    (q.dim = u.dim → ∃ r, q.toValue u eqs = .ok r ∧ r.unit = none ∧ r.data.shape = q.data.shape ∧ (q.data.WF → r.data.WF) ∧
      (∀ e, r.data.atB e * u.scale = q.phys e) ∧ q.toUnit u eqs = .ok (r.mulUnit u)) ∧
    (q.dim ≠ u.dim → q.toValue u [] = .error .other) := by
  refine ⟨fun h => ?_, fun h => ?_⟩
  · refine ⟨q.withUnit (fun x => x * (q.unitNormalized.scale / u.scale)) none, ?_, rfl, rfl, wf_withUnit, fun e => ?_, ?_⟩
    · unfold toValue
      rw [converter_same h eqs]
    · show q.data.atB e * (q.unitNormalized.scale / u.scale) * u.scale = q.data.atB e * q.unitNormalized.scale
      field_simp
    · unfold toUnit
      rw [converter_same h eqs]
      rfl
  · unfold toValue
    rw [converter_nil h]

/-- **C98** (conversions compose). Converting twice is converting once. -/
theorem C98_to_to (q r : QA K D) (u v : PhysUnit K D) (hu : u.scale ≠ 0) (h : q.toUnit u [] = .ok r) :
    r.toUnit v [] = q.toUnit v [] := by
  by_cases hq : q.dim = u.dim
  · unfold toUnit at h
    rw [converter_same hq] at h
    simp only [Except.ok.injEq] at h
    subst h
    by_cases hv : u.dim = v.dim
    · unfold toUnit
      rw [converter_same (u := q.unitNormalized) (hq.trans hv)]
      have h2 : (q.withUnit (fun x => x * (q.unitNormalized.scale / u.scale)) (some u)).unitNormalized = u := rfl
      rw [h2, converter_same hv]
      simp only [withUnit, ND.map, Except.ok.injEq, QA.mk.injEq, SA.mk.injEq, ND.mk.injEq, true_and, and_true]
      funext i
      field_simp
    · unfold toUnit
      have h2 : (q.withUnit (fun x => x * (q.unitNormalized.scale / u.scale)) (some u)).unitNormalized = u := rfl
      have h3 : q.unitNormalized.dim ≠ v.dim := fun h3 => hv (hq.symm.trans h3)
      rw [h2, converter_nil hv, converter_nil h3]
  · rw [(C98_to q u hu []).2 hq] at h
    simp at h

/-- **C98** (own unit). Converting to the own unit changes nothing. -/
theorem C98_to_own (q : QA K D) (u : PhysUnit K D) (hu : u.scale ≠ 0) (h : q.unit = some u) (eqs : List (Equivalency K D)) :
    q.toUnit u eqs = .ok q := by
  obtain ⟨⟨axes, ⟨s, g⟩⟩, w⟩ := q
  simp only at h
  subst h
  unfold toUnit
  have h2 : (⟨⟨axes, ⟨s, g⟩⟩, some u⟩ : QA K D).unitNormalized = u := rfl
  rw [h2, converter_same rfl]
  simp only [withUnit, ND.map, Except.ok.injEq, QA.mk.injEq, SA.mk.injEq, ND.mk.injEq, true_and, and_true]
  funext i
  rw [div_self hu, mul_one]

/-- **C98** (equivalencies). An equivalency between the dimensions is applied to the numbers in its own units. -/
theorem C98_equivalency (q : QA K D) (u : PhysUnit K D) (hu : u.scale ≠ 0) (E : Equivalency K D) (hd : q.dim ≠ u.dim) :
    (q.dim = E.fst.dim → u.dim = E.snd.dim → ∃ r, q.toUnit u [E] = .ok r ∧ r.unit = some u ∧ r.data.shape = q.data.shape ∧
      (q.data.WF → r.data.WF) ∧ ∀ e, r.phys e = E.forward (q.phys e / E.fst.scale) * E.snd.scale) ∧
    (q.dim = E.snd.dim → u.dim = E.fst.dim → ∃ r, q.toUnit u [E] = .ok r ∧ r.unit = some u ∧ r.data.shape = q.data.shape ∧
      (q.data.WF → r.data.WF) ∧ ∀ e, r.phys e = E.backward (q.phys e / E.snd.scale) * E.fst.scale) := by
  refine ⟨fun h1 h2 => ?_, fun h1 h2 => ?_⟩
  · refine ⟨q.withUnit (fun x => E.forward (x * (q.unitNormalized.scale / E.fst.scale)) * (E.snd.scale / u.scale)) (some u), ?_, rfl, rfl,
      wf_withUnit, fun e => ?_⟩
    · unfold toUnit PhysUnit.converter
      have hd' : q.unitNormalized.dim ≠ u.dim := hd
      have hc : q.unitNormalized.dim = E.fst.dim ∧ u.dim = E.snd.dim := ⟨h1, h2⟩
      rw [if_neg hd']
      simp only [List.findSome?]
      rw [if_pos hc]
    · show E.forward (q.data.atB e * (q.unitNormalized.scale / E.fst.scale)) * (E.snd.scale / u.scale) * u.scale =
        E.forward (q.data.atB e * q.unitNormalized.scale / E.fst.scale) * E.snd.scale
      rw [mul_div_assoc]
      field_simp
  · refine ⟨q.withUnit (fun x => E.backward (x * (q.unitNormalized.scale / E.snd.scale)) * (E.fst.scale / u.scale)) (some u), ?_, rfl, rfl,
      wf_withUnit, fun e => ?_⟩
    · unfold toUnit PhysUnit.converter
      have hd' : q.unitNormalized.dim ≠ u.dim := hd
      have hn : ¬ (q.unitNormalized.dim = E.fst.dim ∧ u.dim = E.snd.dim) := fun h3 => hd (h1.trans h3.2.symm)
      have hc : u.dim = E.fst.dim ∧ q.unitNormalized.dim = E.snd.dim := ⟨h2, h1⟩
      rw [if_neg hd']
      simp only [List.findSome?]
      rw [if_neg hn, if_pos hc]
    · show E.backward (q.data.atB e * (q.unitNormalized.scale / E.snd.scale)) * (E.fst.scale / u.scale) * u.scale =
        E.backward (q.data.atB e * q.unitNormalized.scale / E.snd.scale) * E.fst.scale
      rw [mul_div_assoc]
      field_simp

/-- **C98** (units as factors). `a * unit` and `a / unit` change the dimension and multiply or divide the physical values by the size
of the unit; the numbers stay the same. -/
theorem C98_mul_unit (q : QA K D) (u : PhysUnit K D) :
    ((q.mulUnit u).dim = q.dim + u.dim ∧ (q.mulUnit u).data.shape = q.data.shape ∧ (q.data.WF → (q.mulUnit u).data.WF) ∧
      (∀ e, (q.mulUnit u).data.atB e = q.data.atB e) ∧ ∀ e, (q.mulUnit u).phys e = q.phys e * u.scale) ∧
    ((q.divUnit u).dim = q.dim - u.dim ∧ (q.divUnit u).data.shape = q.data.shape ∧ (q.data.WF → (q.divUnit u).data.WF) ∧
      (∀ e, (q.divUnit u).data.atB e = q.data.atB e) ∧ ∀ e, (q.divUnit u).phys e = q.phys e / u.scale) := by
  refine ⟨?_, rfl, rfl, id, fun e => rfl, fun e => ?_⟩
  · unfold mulUnit dim phys unitNormalized
    cases hq : q.unit with
    | none =>
      refine ⟨(zero_add u.dim).symm, rfl, id, fun e => rfl, fun e => ?_⟩
      show q.data.atB e * u.scale = q.data.atB e * 1 * u.scale
      rw [mul_one]
    | some v =>
      refine ⟨rfl, rfl, id, fun e => rfl, fun e => ?_⟩
      show q.data.atB e * (v.scale * u.scale) = q.data.atB e * v.scale * u.scale
      rw [mul_assoc]
  · show q.data.atB e * (q.unitNormalized.scale / u.scale) = q.data.atB e * q.unitNormalized.scale / u.scale
    rw [mul_div_assoc]

/-- **C98** (multiplying and dividing). `a * unit / unit` is `a`. -/
theorem C98_mul_div_unit (q : QA K D) (u : PhysUnit K D) (hu : u.scale ≠ 0) : Same q ((q.mulUnit u).divUnit u) := by
  obtain ⟨⟨h1, h2, h3, h4, h5⟩, _⟩ := C98_mul_unit q u
  obtain ⟨_, g1, g2, g3, g4, g5⟩ := C98_mul_unit (q.mulUnit u) u
  refine ⟨fun h => g3 (h3 h), g2.trans h2, ?_, fun e => ?_⟩
  · rw [g1, h1, add_sub_cancel_right]
  · rw [g5, h5]
    field_simp

/-- **C98** (`<<`). An array without unit gets the unit, a quantity is converted. -/
theorem C98_shift_unit (q : QA K D) (u : PhysUnit K D) :
    (q.unit = none → q.shiftUnit u = .ok (q.mulUnit u)) ∧ (q.unit ≠ none → q.shiftUnit u = q.toUnit u []) := by
  unfold shiftUnit mulUnit
  cases q.unit with
  | none => exact ⟨fun _ => rfl, fun h => absurd rfl h⟩
  | some v => exact ⟨fun h => by simp at h, fun _ => rfl⟩

/-- **C98** (number and unit). An array is its value times its unit. -/
theorem C98_value_unit (q : QA K D) : q.value.unit = none ∧ (∀ e, q.value.data.atB e = q.data.atB e) ∧
    Same q (q.value.mulUnit q.unitNormalized) := by
  refine ⟨rfl, fun e => rfl, id, rfl, rfl, fun e => rfl⟩

variable [DecidableEq K]

/-- Two operands of the same dimension have a common unit. -/
theorem common_ok (a b : QA K D) (ha : a.Valid) (h : a.dim = b.dim) :
    ∃ x y w, common a b = .ok (x, y, w) ∧ x.shape = a.data.shape ∧ y.shape = b.data.shape ∧ (a.data.WF → x.WF) ∧ (b.data.WF → y.WF) ∧
      (w.getD .dimensionless).dim = a.dim ∧ ((w.getD .dimensionless).scale = 1 ∨ w = a.unit) ∧
      (∀ e, x.atB e * (w.getD .dimensionless).scale = a.phys e) ∧ ∀ e, y.atB e * (w.getD .dimensionless).scale = b.phys e := by
  unfold common
  unfold dim unitNormalized at h
  cases hau : a.unit with
  | none =>
    cases hbu : b.unit with
    | none =>
      refine ⟨a.data, b.data, none, rfl, rfl, rfl, id, id, ?_, .inl rfl, fun e => ?_, fun e => ?_⟩
      · unfold dim unitNormalized
        rw [hau]
      · unfold phys unitNormalized
        rw [hau]
      · unfold phys unitNormalized
        rw [hbu]
    | some v =>
      rw [hau, hbu] at h
      have h' : v.dim = (PhysUnit.dimensionless : PhysUnit K D).dim := h.symm
      simp only
      rw [converter_same h' []]
      refine ⟨a.data, _, some .dimensionless, rfl, rfl, rfl, id, wf_withUnit, ?_, .inl rfl, fun e => ?_, fun e => ?_⟩
      · unfold dim unitNormalized
        rw [hau]
        rfl
      · unfold phys unitNormalized
        rw [hau]
        rfl
      · unfold phys unitNormalized
        rw [hbu]
        show b.data.atB e * (v.scale / 1) * 1 = b.data.atB e * v.scale
        rw [div_one, mul_one]
  | some w =>
    have hw : w.scale ≠ 0 := ha w hau
    cases hbu : b.unit with
    | none =>
      rw [hau, hbu] at h
      have h' : w.dim = (PhysUnit.dimensionless : PhysUnit K D).dim := h
      simp only
      rw [converter_same h' []]
      refine ⟨_, b.data, some .dimensionless, rfl, rfl, rfl, wf_withUnit, id, ?_, .inl rfl, fun e => ?_, fun e => ?_⟩
      · unfold dim unitNormalized
        rw [hau]
        exact h'.symm
      · unfold phys unitNormalized
        rw [hau]
        show a.data.atB e * (w.scale / 1) * 1 = a.data.atB e * w.scale
        rw [div_one, mul_one]
      · unfold phys unitNormalized
        rw [hbu]
        rfl
    | some v =>
      rw [hau, hbu] at h
      have h' : v.dim = w.dim := h.symm
      simp only
      rw [converter_same h' []]
      refine ⟨a.data, _, some w, rfl, rfl, rfl, id, wf_withUnit, ?_, .inr rfl, fun e => ?_, fun e => ?_⟩
      · unfold dim unitNormalized
        rw [hau]
      · unfold phys unitNormalized
        rw [hau]
      · unfold phys unitNormalized
        rw [hbu]
        show b.data.atB e * (v.scale / w.scale) * w.scale = b.data.atB e * v.scale
        field_simp

/-- Whether a plain array of zeros meets a quantity with a dimension. -/
def ZeroPlain (a b : QA K D) : Prop := a.unit = none ∧ b.unit ≠ none ∧ a.allZero = true

theorem common_error (a b : QA K D) (h : a.dim ≠ b.dim) (h1 : ¬ ZeroPlain a b) (h2 : ¬ ZeroPlain b a) : common a b = .error .other := by
  unfold common
  unfold dim unitNormalized at h
  unfold ZeroPlain at h1 h2
  cases hau : a.unit with
  | none =>
    cases hbu : b.unit with
    | none =>
      rw [hau, hbu] at h
      exact absurd rfl h
    | some v =>
      rw [hau, hbu] at h
      have h' : v.dim ≠ (PhysUnit.dimensionless : PhysUnit K D).dim := fun h3 => h h3.symm
      simp only
      rw [converter_nil h']
      exact if_neg (fun h3 => h1 ⟨hau, by simp [hbu], h3⟩)
  | some w =>
    cases hbu : b.unit with
    | none =>
      rw [hau, hbu] at h
      have h' : w.dim ≠ (PhysUnit.dimensionless : PhysUnit K D).dim := fun h3 => h h3
      simp only
      rw [converter_nil h']
      exact if_neg (fun h3 => h2 ⟨hbu, by simp [hau], h3⟩)
    | some v =>
      rw [hau, hbu] at h
      have h' : v.dim ≠ w.dim := fun h3 => h h3.symm
      simp only
      rw [converter_nil h']

/-- **C98** (sums). Sums and differences of arrays of the same dimension, with any units, are aligned by name, have this dimension,
and their physical values are the sums and differences of the physical values. (`f` may be any function which does not depend
on the choice of the unit.) -/
theorem C98_sum (f : K → K → K) (a b : QA K D) (ha : a.data.WF) (hb : b.data.WF) (hva : a.Valid)
    (hf : ∀ c, (c = 1 ∨ ∃ u, a.unit = some u ∧ c = u.scale) → ∀ x y, f (x * c) (y * c) = f x y * c)
    (S : Shape) (hS : broadcastShapes [a.data.shape, b.data.shape] = .ok S) (h : a.dim = b.dim) :
    ∃ r, sumLike f a b = .ok r ∧ r.data.WF ∧ r.data.shape = S ∧ r.dim = a.dim ∧
      ∀ e, SA.InRange S e → r.phys e = f (a.phys e) (b.phys e) := by
  obtain ⟨x, y, w, c1, c2, c3, c4, c5, c6, c7, c8, c9⟩ := common_ok a b hva h
  have hS' : broadcastShapes [x.shape, y.shape] = .ok S := by rw [c2, c3]; exact hS
  obtain ⟨r, hr⟩ := SA.ufunc2_isOk (c4 ha) (c5 hb) hS' f
  obtain ⟨r1, r2, r3⟩ := SA.ufunc2_ok (c4 ha) (c5 hb) hr
  have hshape : r.shape = S := Except.ok.inj (r2.symm.trans hS')
  refine ⟨⟨r, w⟩, ?_, r1, hshape, c6, fun e he => ?_⟩
  · unfold sumLike
    simp only [bind, Except.bind]
    rw [hS]
    simp only
    rw [c1]
    simp only
    rw [hr]
  · have h1 : (⟨r, w⟩ : QA K D).phys e = r.atB e * (w.getD .dimensionless).scale := rfl
    rw [h1, SA.atB_eq_at' r1 (by rw [hshape]; exact he), r3 e, ← c8 e, ← c9 e]
    refine (hf _ ?_ _ _).symm
    rcases c7 with c7 | c7
    · exact .inl c7
    · cases w with
      | none => exact .inl rfl
      | some w => exact .inr ⟨w, c7.symm, rfl⟩

/-- **C98** (different dimensions). Adding or comparing arrays of different dimensions is a `UnitConversionError`, unless one of them
has no unit and only zeros. -/
theorem C98_sum_error (f : K → K → K) (g : K → K → Bool) (a b : QA K D) (S : Shape)
    (hS : broadcastShapes [a.data.shape, b.data.shape] = .ok S) (h : a.dim ≠ b.dim) (h1 : ¬ ZeroPlain a b) (h2 : ¬ ZeroPlain b a) :
    sumLike f a b = .error .other ∧ compare g a b = .error .other := by
  unfold sumLike compare
  simp only [bind, Except.bind]
  rw [hS]
  simp only
  rw [common_error a b h h1 h2]
  exact ⟨rfl, rfl⟩

theorem zero_of_all {a : QA K D} (ha : a.data.WF) (h : a.allZero = true) (e : String → Nat) (he : SA.InRange a.data.shape e) :
    a.data.at' e = 0 := by
  unfold allZero at h
  rw [List.all_eq_true] at h
  have h1 : a.data.at' e ∈ a.data.nd.toList := by
    rw [ND.toList_eq_map]
    have hin := (SA.inRange_nd ha).1 he
    refine List.mem_map.2 ⟨ND.ravel a.data.nd.shape (a.data.axes.map e), List.mem_range.2 (ND.ravel_lt hin), ?_⟩
    rw [ND.unravel_ravel hin]
    rfl
  simpa using h _ h1

/-- **C98** (zeros). A plain array of zeros may be added to any quantity. -/
theorem C98_sum_zero (a b : QA K D) (ha : a.data.WF) (hb : b.data.WF) (S : Shape) 
    (hS : broadcastShapes [a.data.shape, b.data.shape] = .ok S) (h : a.dim ≠ b.dim) (hz : ZeroPlain a b) :
    ∃ r, sumLike (· + ·) a b = .ok r ∧ r.data.WF ∧ r.data.shape = S ∧ r.unit = b.unit ∧ ∀ e, SA.InRange S e → r.phys e = b.phys e := by
  obtain ⟨z1, z2, z3⟩ := hz
  obtain ⟨v, hv⟩ := Option.ne_none_iff_exists'.1 z2
  have hc : common a b = .ok (a.data, b.data, some v) := by
    unfold common
    unfold dim unitNormalized at h
    rw [z1, hv] at h ⊢
    have h' : v.dim ≠ (PhysUnit.dimensionless : PhysUnit K D).dim := fun h3 => h h3.symm
    simp only
    rw [converter_nil h']
    exact if_pos z3
  obtain ⟨r, hr⟩ := SA.ufunc2_isOk ha hb hS (fun x y : K => x + y)
  obtain ⟨r1, r2, r3⟩ := SA.ufunc2_ok ha hb hr
  have hshape : r.shape = S := Except.ok.inj (r2.symm.trans hS)
  refine ⟨⟨r, some v⟩, ?_, r1, hshape, hv.symm, fun e he => ?_⟩
  · unfold sumLike
    simp only [bind, Except.bind]
    rw [hS]
    simp only
    rw [hc]
    simp only
    rw [hr]
  · have h1 : (⟨r, some v⟩ : QA K D).phys e = r.atB e * v.scale := rfl
    have h2 : b.phys e = b.data.atB e * v.scale := by
      unfold phys unitNormalized
      rw [hv]
      rfl
    have hzero : a.data.atB e = 0 := by
      have hss : ∀ s ∈ [a.data.shape, b.data.shape], Dict.WF s := by
        intro s hs
        rcases List.mem_cons.1 hs with rfl | hs
        · exact SA.wf_shape ha
        · rw [List.mem_singleton] at hs
          subst hs
          exact SA.wf_shape hb
      have := SA.inRange_clipEnv hss hS (s := a.data.shape) (by simp) he
      exact zero_of_all ha z3 _ this
    rw [h1, h2, SA.atB_eq_at' r1 (by rw [hshape]; exact he), r3 e, hzero, zero_add]

/-- **C98** (comparisons). Arrays of the same dimension are compared by their physical values. -/
theorem C98_compare (f : K → K → Bool) (a b : QA K D) (ha : a.data.WF) (hb : b.data.WF) (hva : a.Valid)
    (hf : ∀ c, (c = 1 ∨ ∃ u, a.unit = some u ∧ c = u.scale) → ∀ x y, f (x * c) (y * c) = f x y)
    (S : Shape) (hS : broadcastShapes [a.data.shape, b.data.shape] = .ok S) (h : a.dim = b.dim) :
    ∃ r, compare f a b = .ok r ∧ r.WF ∧ r.shape = S ∧ ∀ e, r.at' e = f (a.phys e) (b.phys e) := by
  obtain ⟨x, y, w, c1, c2, c3, c4, c5, c6, c7, c8, c9⟩ := common_ok a b hva h
  have hS' : broadcastShapes [x.shape, y.shape] = .ok S := by rw [c2, c3]; exact hS
  obtain ⟨r, hr⟩ := SA.ufunc2_isOk (c4 ha) (c5 hb) hS' f
  obtain ⟨r1, r2, r3⟩ := SA.ufunc2_ok (c4 ha) (c5 hb) hr
  have hshape : r.shape = S := Except.ok.inj (r2.symm.trans hS')
  refine ⟨r, ?_, r1, hshape, fun e => ?_⟩
  · unfold compare
    simp only [bind, Except.bind]
    rw [hS]
    simp only
    rw [c1]
    simp only
    rw [hr]
  · rw [r3 e, ← c8 e, ← c9 e]
    refine (hf _ ?_ _ _).symm
    rcases c7 with c7 | c7
    · exact .inl c7
    · cases w with
      | none => exact .inl rfl
      | some w => exact .inr ⟨w, c7.symm, rfl⟩

omit [DecidableEq K] [DecidableEq D] in
/-- **C98** (products). The dimension of a product is the sum of the dimensions, that of a quotient the difference, and the physical
values are multiplied and divided. -/
theorem C98_product (a b : QA K D) (ha : a.data.WF) (hb : b.data.WF) (S : Shape)
    (hS : broadcastShapes [a.data.shape, b.data.shape] = .ok S) :
    (∃ r, mul a b = .ok r ∧ r.data.WF ∧ r.data.shape = S ∧ r.dim = a.dim + b.dim ∧
      ∀ e, SA.InRange S e → r.phys e = a.phys e * b.phys e) ∧
    (∃ r, div a b = .ok r ∧ r.data.WF ∧ r.data.shape = S ∧ r.dim = a.dim - b.dim ∧
      ∀ e, SA.InRange S e → r.phys e = a.phys e / b.phys e) := by
  refine ⟨?_, ?_⟩
  · obtain ⟨r, hr⟩ := SA.ufunc2_isOk ha hb hS (fun x y : K => x * y)
    obtain ⟨r1, r2, r3⟩ := SA.ufunc2_ok ha hb hr
    have hshape : r.shape = S := Except.ok.inj (r2.symm.trans hS)
    refine ⟨_, by unfold mul; simp only [bind, Except.bind]; rw [hr], r1, hshape, ?_, fun e he => ?_⟩
    · unfold dim unitNormalized
      cases a.unit <;> cases b.unit <;> simp [PhysUnit.times, PhysUnit.dimensionless]
    · unfold phys
      simp only
      rw [SA.atB_eq_at' r1 (by rw [hshape]; exact he), r3 e]
      unfold unitNormalized
      cases a.unit <;> cases b.unit <;> simp [PhysUnit.times, PhysUnit.dimensionless] <;> ring
  · obtain ⟨r, hr⟩ := SA.ufunc2_isOk ha hb hS (fun x y : K => x / y)
    obtain ⟨r1, r2, r3⟩ := SA.ufunc2_ok ha hb hr
    have hshape : r.shape = S := Except.ok.inj (r2.symm.trans hS)
    refine ⟨_, by unfold div; simp only [bind, Except.bind]; rw [hr], r1, hshape, ?_, fun e he => ?_⟩
    · unfold dim unitNormalized
      cases a.unit <;> cases b.unit <;> simp [PhysUnit.over, PhysUnit.dimensionless]
    · unfold phys
      simp only
      rw [SA.atB_eq_at' r1 (by rw [hshape]; exact he), r3 e]
      unfold unitNormalized
      cases a.unit <;> cases b.unit <;> simp [PhysUnit.over, PhysUnit.dimensionless] <;> ring

end QA

namespace UnitSpec

/-- The unit which a specification gives to the scalar with this path: `none` if there is none, `some none` if it is to be kept. -/
def lookup : UnitSpec K D → List String → Option (Option (PhysUnit K D))
  | .keep, _ => some none
  | .unit u, _ => some (some u)
  | .dict _, [] => none
  | .dict d, k :: p => match get? d k with
    | none => none
    | some s => s.lookup p

end UnitSpec

namespace Comp

theorem lookup_cons (s : UnitSpec K D) (k : String) (p : List String) :
    s.lookup (k :: p) = match specOf s k with | .ok s' => s'.lookup p | .error _ => none := by
  cases s with
  | keep => simp [UnitSpec.lookup, specOf]
  | unit u => simp [UnitSpec.lookup, specOf]
  | dict d =>
    simp only [UnitSpec.lookup, specOf]
    cases get? d k <;> rfl

/-- What the loop does with one component. -/
def convertPart (conv : PhysUnit K D → QA K D → R (QA K D)) (s : UnitSpec K D) (c : Comp (QA K D)) : R (Comp (QA K D)) :=
  match s with
  | .keep => .ok c
  | s => c.convert conv s

theorem convertL_iff (conv : PhysUnit K D → QA K D → R (QA K D)) (s : UnitSpec K D) (cs rs : List (String × Comp (QA K D))) :
    convertL conv s cs = .ok rs ↔
      List.Forall₂ (fun p r => p.1 = r.1 ∧ ∃ s', specOf s p.1 = .ok s' ∧ convertPart conv s' p.2 = .ok r.2) cs rs := by
  induction cs generalizing rs with
  | nil => cases rs <;> simp [convertL]
  | cons p l ih =>
    obtain ⟨k, c⟩ := p
    have hd : convertL conv s ((k, c) :: l) = (do
      let s' ← specOf s k
      let r ← convertPart conv s' c
      .ok ((k, r) :: (← convertL conv s l))) := by
      simp only [convertL, convertPart, bind, Except.bind]
      cases specOf s k with
      | error er => rfl
      | ok s' => cases s' <;> rfl
    rw [hd]
    simp only [bind, Except.bind]
    cases h1 : specOf s k with
    | error er =>
      simp only [reduceCtorEq, false_iff]
      intro h
      cases h with
      | cons h _ =>
        obtain ⟨_, s', h2, _⟩ := h
        simp only at h2
        rw [h1] at h2
        simp at h2
    | ok s' =>
      simp only
      cases h2 : convertPart conv s' c with
      | error er =>
        simp only [reduceCtorEq, false_iff]
        intro h
        cases h with
        | cons h _ =>
          obtain ⟨_, s'', h3, h4⟩ := h
          simp only at h3 h4
          rw [h1] at h3
          injection h3 with h3
          subst h3
          rw [h2] at h4
          simp at h4
      | ok r =>
        simp only
        constructor
        · intro h
          cases h3 : convertL conv s l with
          | error er => rw [h3] at h; simp at h
          | ok rs' =>
            rw [h3] at h
            simp only [Except.ok.injEq] at h
            subst h
            exact .cons ⟨rfl, s', h1, h2⟩ ((ih rs').1 h3)
        · intro h
          cases h with
          | @cons _ b _ rs' h h' =>
            rw [(ih rs').2 h']
            obtain ⟨h3, s'', h4, h5⟩ := h
            simp only at h3 h4 h5
            rw [h1] at h4
            injection h4 with h4
            subst h4
            rw [h2] at h5
            injection h5 with h5
            obtain ⟨b1, b2⟩ := b
            simp only at h3 h5
            subst h3 h5
            rfl

/-- What the parts of a converted vector are. -/
theorem convertPart_inv (conv : PhysUnit K D → QA K D → R (QA K D)) : ∀ (c : Comp (QA K D)) (s : UnitSpec K D) (r : Comp (QA K D)),
    convertPart conv s c = .ok r → c.Lift (fun _ _ => True) r ∧ ∀ p q, c.leafAt p = some q → ∃ x, s.lookup p = some x ∧
      (x = none → r.leafAt p = some q) ∧ ∀ u, x = some u → ∃ q', r.leafAt p = some q' ∧ conv u q = .ok q' := by
  refine ind ?_ ?_
  · intro a s r h
    cases s with
    | keep =>
      simp only [convertPart, Except.ok.injEq] at h
      subst h
      refine ⟨trivial, fun p q hq => ⟨none, by simp only [UnitSpec.lookup], fun _ => hq, fun u hu => by simp at hu⟩⟩
    | unit u =>
      simp only [convertPart, convert, bind, Except.bind] at h
      cases hc : conv u a with
      | error er => rw [hc] at h; simp at h
      | ok b =>
        rw [hc] at h
        simp only [Except.ok.injEq] at h
        subst h
        refine ⟨trivial, fun p q hq => ⟨some u, by simp only [UnitSpec.lookup], fun h => by simp at h, fun v hv => ?_⟩⟩
        injection hv with hv
        subst hv
        cases p with
        | cons k p => simp [leafAt] at hq
        | nil =>
          simp only [leafAt, Option.some.injEq] at hq
          subst hq
          exact ⟨b, rfl, hc⟩
    | dict d => simp [convertPart, convert] at h
  · intro cls cs ih s r h
    by_cases hk : s = .keep
    · subst hk
      simp only [convertPart, Except.ok.injEq] at h
      subst h
      exact ⟨lift_refl (fun _ => trivial) _, fun p q hq => ⟨none, by simp only [UnitSpec.lookup], fun _ => hq, fun u hu => by simp at hu⟩⟩
    · have h' : (node cls cs).convert conv s = .ok r := by
        cases s with
        | keep => exact absurd rfl hk
        | unit u => exact h
        | dict d => exact h
      simp only [convert, bind, Except.bind] at h'
      cases hl : convertL conv s cs with
      | error er => rw [hl] at h'; simp at h'
      | ok rs =>
        rw [hl] at h'
        simp only [Except.ok.injEq] at h'
        subst h'
        have hf := (convertL_iff conv s cs rs).1 hl
        refine ⟨⟨rfl, liftL_iff.2 ?_⟩, ?_⟩
        · clear hl h
          induction hf with
          | nil => exact .nil
          | @cons a b l l' hab _ ihl =>
            obtain ⟨h1, s', _, h3⟩ := hab
            exact .cons ⟨h1, (ih a (by simp) s' b.2 h3).1⟩ (ihl (fun p hp => ih p (by simp [hp])))
        · intro p q hq
          cases p with
          | nil => simp [leafAt] at hq
          | cons k p =>
            simp only [leafAt] at hq
            cases hg : get? cs k with
            | none => rw [hg] at hq; simp at hq
            | some c =>
              rw [hg] at hq
              have hf' : List.Forall₂ (fun p r => p.1 = r.1 ∧ (fun k c r => ∃ s', specOf s k = .ok s' ∧ convertPart conv s' c = .ok r) p.1 p.2 r.2)
                cs rs := hf
              rcases get?_of_forall₂ (P := fun k c r => ∃ s', specOf s k = .ok s' ∧ convertPart conv s' c = .ok r) hf' k with ⟨h1, _⟩ | ⟨c', d, h1, h2, s', h3, h4⟩
              · rw [hg] at h1; simp at h1
              · rw [hg] at h1
                injection h1 with h1
                subst h1
                obtain ⟨x, g1, g2, g3⟩ := (ih (k, c) (mem_of_get? hg) s' d h4).2 p q hq
                refine ⟨x, ?_, ?_, ?_⟩
                · rw [lookup_cons, h3]
                  exact g1
                · intro hx
                  simp only [leafAt, h2]
                  exact g2 hx
                · intro u hu
                  simp only [leafAt, h2]
                  exact g3 u hu

theorem convertPart_ok (conv : PhysUnit K D → QA K D → R (QA K D)) : ∀ (c : Comp (QA K D)) (s : UnitSpec K D), c.Full → c.Dicts →
    (∀ p q, c.leafAt p = some q → ∃ x, s.lookup p = some x ∧ ∀ u, x = some u → ∃ q', conv u q = .ok q') →
    ∃ r, convertPart conv s c = .ok r := by
  refine ind ?_ ?_
  · intro a s _ _ h
    obtain ⟨x, h1, h2⟩ := h [] a rfl
    cases s with
    | keep => exact ⟨_, rfl⟩
    | unit u =>
      simp only [UnitSpec.lookup, Option.some.injEq] at h1
      obtain ⟨q', h3⟩ := h2 u h1.symm
      exact ⟨.leaf q', by simp only [convertPart, convert, bind, Except.bind, h3]⟩
    | dict d => simp [UnitSpec.lookup] at h1
  · intro cls cs ih s hF hD h
    simp only [Full, fullL_iff] at hF
    simp only [Dicts] at hD
    have hDL := dictsL_iff.1 hD.2
    have hparts : ∀ kc ∈ cs, ∃ r : String × Comp (QA K D), kc.1 = r.1 ∧ ∃ s', specOf s kc.1 = .ok s' ∧ convertPart conv s' kc.2 = .ok r.2 := by
      intro kc hkc
      have hget := get?_of_mem hD.1 hkc
      have hleaf : ∀ p q, kc.2.leafAt p = some q → (node cls cs).leafAt (kc.1 :: p) = some q := by
        intro p q hq
        simp only [leafAt, hget]
        exact hq
      obtain ⟨p0, q0, h0⟩ := exists_leafAt kc.2 (hF.2 kc hkc)
      obtain ⟨x0, hx0, _⟩ := h _ q0 (hleaf p0 q0 h0)
      rw [lookup_cons] at hx0
      cases hs : specOf s kc.1 with
      | error er => rw [hs] at hx0; simp at hx0
      | ok s' =>
        obtain ⟨r, hr⟩ := ih kc hkc s' (hF.2 kc hkc) (hDL kc hkc) (by
          intro p q hq
          obtain ⟨x, h1, h2⟩ := h _ q (hleaf p q hq)
          rw [lookup_cons, hs] at h1
          exact ⟨x, h1, h2⟩)
        exact ⟨(kc.1, r), rfl, s', rfl, hr⟩
    obtain ⟨rs, hrs⟩ := exists_forall₂ hparts
    have hl := (convertL_iff conv s cs rs).2 hrs
    by_cases hk : s = .keep
    · subst hk
      exact ⟨_, rfl⟩
    · refine ⟨.node cls rs, ?_⟩
      have h' : convertPart conv s (node cls cs) = (node cls cs).convert conv s := by
        cases s with
        | keep => exact absurd rfl hk
        | unit u => rfl
        | dict d => rfl
      rw [h']
      simp only [convert, bind, Except.bind]
      rw [hl]

theorem convertNode_inv (conv : PhysUnit K D → QA K D → R (QA K D)) (cls : String) (cs : List (String × Comp (QA K D)))
    (spec : UnitSpec K D) (r : Comp (QA K D)) (h : (node cls cs).convert conv spec = .ok r) :
    (node cls cs).Lift (fun _ _ => True) r ∧ ∀ p q, (node cls cs).leafAt p = some q → ∃ x, spec.lookup p = some x ∧
      (x = none → r.leafAt p = some q) ∧ ∀ u, x = some u → ∃ q', r.leafAt p = some q' ∧ conv u q = .ok q' := by
  simp only [convert, bind, Except.bind] at h
  cases hl : convertL conv spec cs with
  | error er => rw [hl] at h; simp at h
  | ok rs =>
    rw [hl] at h
    simp only [Except.ok.injEq] at h
    subst h
    have hf := (convertL_iff _ spec cs rs).1 hl
    refine ⟨⟨rfl, liftL_iff.2 (hf.imp (fun {a b} hab => ⟨hab.1, hab.2.elim (fun s' h3 => (convertPart_inv _ a.2 s' b.2 h3.2).1)⟩))⟩, ?_⟩
    intro p q hq
    cases p with
    | nil => simp [leafAt] at hq
    | cons k p =>
      simp only [leafAt] at hq
      cases hg : get? cs k with
      | none => rw [hg] at hq; simp at hq
      | some c =>
        rw [hg] at hq
        rcases get?_of_forall₂ (P := fun k c r => ∃ s', specOf spec k = .ok s' ∧ convertPart conv s' c = .ok r) hf k with
          ⟨h1, _⟩ | ⟨c', d, h1, h2, s', h3, h4⟩
        · rw [hg] at h1; simp at h1
        · rw [hg] at h1
          injection h1 with h1
          subst h1
          obtain ⟨x, g1, g2, g3⟩ := (convertPart_inv _ c s' d h4).2 p q hq
          refine ⟨x, ?_, ?_, ?_⟩
          · rw [lookup_cons, h3]
            exact g1
          · intro hx
            simp only [leafAt, h2]
            exact g2 hx
          · intro u hu
            simp only [leafAt, h2]
            exact g3 u hu

theorem convertNode_ok (conv : PhysUnit K D → QA K D → R (QA K D)) (cls : String) (cs : List (String × Comp (QA K D)))
    (hF : (node cls cs).Full) (hD : (node cls cs).Dicts) (spec : UnitSpec K D)
    (h : ∀ p q, (node cls cs).leafAt p = some q → ∃ x, spec.lookup p = some x ∧ ∀ u, x = some u → ∃ q', conv u q = .ok q') :
    ∃ r, (node cls cs).convert conv spec = .ok r := by
  simp only [Full, fullL_iff] at hF
  simp only [Dicts] at hD
  have hDL := dictsL_iff.1 hD.2
  have hparts : ∀ kc ∈ cs, ∃ r : String × Comp (QA K D), kc.1 = r.1 ∧ ∃ s', specOf spec kc.1 = .ok s' ∧ convertPart conv s' kc.2 = .ok r.2 := by
    intro kc hkc
    have hget := get?_of_mem hD.1 hkc
    have hleaf : ∀ p q, kc.2.leafAt p = some q → (node cls cs).leafAt (kc.1 :: p) = some q := by
      intro p q hq
      simp only [leafAt, hget]
      exact hq
    obtain ⟨p0, q0, h0⟩ := exists_leafAt kc.2 (hF.2 kc hkc)
    obtain ⟨x0, hx0, _⟩ := h _ q0 (hleaf p0 q0 h0)
    rw [lookup_cons] at hx0
    cases hs : specOf spec kc.1 with
    | error er => rw [hs] at hx0; simp at hx0
    | ok s' =>
      obtain ⟨r, hr⟩ := convertPart_ok conv kc.2 s' (hF.2 kc hkc) (hDL kc hkc) (by
        intro p q hq
        obtain ⟨x, h1, h2⟩ := h _ q (hleaf p q hq)
        rw [lookup_cons, hs] at h1
        exact ⟨x, h1, h2⟩)
      exact ⟨(kc.1, r), rfl, s', rfl, hr⟩
  obtain ⟨rs, hrs⟩ := exists_forall₂ hparts
  refine ⟨.node cls rs, ?_⟩
  simp only [convert, bind, Except.bind]
  rw [(convertL_iff _ spec cs rs).2 hrs]

variable [Field K] [AddCommGroup D] [DecidableEq D]

/-- The specification has a unit of the right dimension, or `None`, for every scalar in the vector. -/
def Fitting (spec : UnitSpec K D) (v : Comp (QA K D)) : Prop :=
  ∀ p q, v.leafAt p = some q → ∃ x, spec.lookup p = some x ∧ ∀ u, x = some u → u.scale ≠ 0 ∧ q.dim = u.dim

/-- **C98** (vectors). `vector.to(unit)`, where the unit may be a dictionary (nested for nested vectors) and `None` stands for a
component which is to be kept: the result has the same components, those which are kept are not changed, all others have the unit
given for them and the same physical values. -/
theorem C98_vector_to (cls : String) (cs : List (String × Comp (QA K D))) (hF : (node cls cs).Full) (hD : (node cls cs).Dicts)
    (spec : UnitSpec K D) (eqs : List (Equivalency K D)) (h : Fitting spec (node cls cs)) :
    ∃ r, (node cls cs).toUnit spec eqs = .ok r ∧ (node cls cs).Lift (fun _ _ => True) r ∧
      ∀ p q, (node cls cs).leafAt p = some q →
        (spec.lookup p = some none → r.leafAt p = some q) ∧
        ∀ u, spec.lookup p = some (some u) → ∃ q', r.leafAt p = some q' ∧ q'.unit = some u ∧ QA.Same q q' := by
  obtain ⟨r, hr⟩ := convertNode_ok (fun u q => QA.toUnit q u eqs) cls cs hF hD spec (by
    intro p q hq
    obtain ⟨x, h1, h2⟩ := h p q hq
    refine ⟨x, h1, fun u hu => ?_⟩
    obtain ⟨q', h3, _⟩ := (QA.C98_to q u (h2 u hu).1 eqs).1 (h2 u hu).2
    exact ⟨q', h3⟩)
  obtain ⟨h1, h2⟩ := convertNode_inv _ cls cs spec r hr
  refine ⟨r, hr, h1, fun p q hq => ?_⟩
  obtain ⟨x, g1, g2, g3⟩ := h2 p q hq
  refine ⟨fun hx => g2 (Option.some.inj (g1.symm.trans hx)), fun u hx => ?_⟩
  have hxu := Option.some.inj (g1.symm.trans hx)
  obtain ⟨q', g4, g5⟩ := g3 u hxu
  obtain ⟨y, hy1, hy2⟩ := h p q hq
  have hyu := hy2 u (Option.some.inj (hy1.symm.trans hx))
  obtain ⟨q'', g6, g7, g8⟩ := (QA.C98_to q u hyu.1 eqs).1 hyu.2
  have : q'' = q' := Except.ok.inj (g6.symm.trans g5)
  subst this
  exact ⟨q'', g4, g7, g8⟩

/-- **C98** (values of vectors). `vector.to_value(unit)` has the numbers of `vector.to(unit)`, without units. -/
theorem C98_vector_to_value (cls : String) (cs : List (String × Comp (QA K D))) (hF : (node cls cs).Full) (hD : (node cls cs).Dicts)
    (spec : UnitSpec K D) (eqs : List (Equivalency K D)) (h : Fitting spec (node cls cs)) :
    ∃ r, (node cls cs).toValue spec eqs = .ok r ∧ (node cls cs).Lift (fun _ _ => True) r ∧
      ∀ p q, (node cls cs).leafAt p = some q →
        (spec.lookup p = some none → r.leafAt p = some q) ∧
        ∀ u, spec.lookup p = some (some u) → ∃ q', r.leafAt p = some q' ∧ q'.unit = none ∧ (q.data.WF → q'.data.WF) ∧
          q'.data.shape = q.data.shape ∧ ∀ e, q'.data.atB e * u.scale = q.phys e := by
  obtain ⟨r, hr⟩ := convertNode_ok (fun u q => QA.toValue q u eqs) cls cs hF hD spec (by
    intro p q hq
    obtain ⟨x, h1, h2⟩ := h p q hq
    refine ⟨x, h1, fun u hu => ?_⟩
    obtain ⟨q', h3, _⟩ := (QA.C98_to_value q u (h2 u hu).1 eqs).1 (h2 u hu).2
    exact ⟨q', h3⟩)
  obtain ⟨h1, h2⟩ := convertNode_inv _ cls cs spec r hr
  refine ⟨r, hr, h1, fun p q hq => ?_⟩
  obtain ⟨x, g1, g2, g3⟩ := h2 p q hq
  refine ⟨fun hx => g2 (Option.some.inj (g1.symm.trans hx)), fun u hx => ?_⟩
  have hxu := Option.some.inj (g1.symm.trans hx)
  obtain ⟨q', g4, g5⟩ := g3 u hxu
  obtain ⟨y, hy1, hy2⟩ := h p q hq
  have hyu := hy2 u (Option.some.inj (hy1.symm.trans hx))
  obtain ⟨q'', g6, g7, g8, g9, g10, _⟩ := (QA.C98_to_value q u hyu.1 eqs).1 hyu.2
  have : q'' = q' := Except.ok.inj (g6.symm.trans g5)
  subst this
  exact ⟨q'', g4, g7, g9, g8, g10⟩

/-- **C98** (vectors, errors). A missing name, or a unit of another dimension, for any component is an error. -/
theorem C98_vector_to_error (cls : String) (cs : List (String × Comp (QA K D))) (spec : UnitSpec K D)
    (h : ∃ p q, (node cls cs).leafAt p = some q ∧ (spec.lookup p = none ∨ ∃ u, spec.lookup p = some (some u) ∧ u.scale ≠ 0 ∧ q.dim ≠ u.dim)) :
    (∃ er, (node cls cs).toUnit spec [] = .error er) ∧ ∃ er, (node cls cs).toValue spec [] = .error er := by
  obtain ⟨p, q, hq, hbad⟩ := h
  refine ⟨?_, ?_⟩
  · cases hr : (node cls cs).toUnit spec [] with
    | error er => exact ⟨er, rfl⟩
    | ok r =>
      exfalso
      obtain ⟨x, g1, _, g3⟩ := (convertNode_inv _ cls cs spec r hr).2 p q hq
      rcases hbad with hbad | ⟨u, hu, h0, hd⟩
      · rw [g1] at hbad; simp at hbad
      · obtain ⟨q', _, g5⟩ := g3 u (Option.some.inj (g1.symm.trans hu))
        simp [(QA.C98_to q u h0 []).2 hd] at g5
  · cases hr : (node cls cs).toValue spec [] with
    | error er => exact ⟨er, rfl⟩
    | ok r =>
      exfalso
      obtain ⟨x, g1, _, g3⟩ := (convertNode_inv _ cls cs spec r hr).2 p q hq
      rcases hbad with hbad | ⟨u, hu, h0, hd⟩
      · rw [g1] at hbad; simp at hbad
      · obtain ⟨q', _, g5⟩ := g3 u (Option.some.inj (g1.symm.trans hu))
        simp [(QA.C98_to_value q u h0 []).2 hd] at g5

/-- **C98** (vectors times a unit). Every component is multiplied or divided by the unit, or converted to it. -/
theorem C98_vector_mul_unit (v : Comp (QA K D)) (u : PhysUnit K D) :
    (∃ r, v.mulUnit u = .ok r ∧ v.Lift (fun q q' => q'.dim = q.dim + u.dim ∧ q'.data.shape = q.data.shape ∧ (q.data.WF → q'.data.WF) ∧
      ∀ e, q'.phys e = q.phys e * u.scale) r) ∧
    (∃ r, v.divUnit u = .ok r ∧ v.Lift (fun q q' => q'.dim = q.dim - u.dim ∧ q'.data.shape = q.data.shape ∧ (q.data.WF → q'.data.WF) ∧
      ∀ e, q'.phys e = q.phys e / u.scale) r) := by
  refine ⟨?_, ?_⟩
  · obtain ⟨r, hr⟩ := mapM_isOk' (fun q : QA K D => (.ok (q.mulUnit u) : R (QA K D))) v (fun a _ => ⟨_, rfl⟩)
    refine ⟨r, hr, lift_mono (fun q q' h => ?_) v r ((mapM_lift _ v r).1 hr)⟩
    injection h with h
    subst h
    obtain ⟨⟨h1, h2, h3, _, h5⟩, _⟩ := QA.C98_mul_unit q u
    exact ⟨h1, h2, h3, h5⟩
  · obtain ⟨r, hr⟩ := mapM_isOk' (fun q : QA K D => (.ok (q.divUnit u) : R (QA K D))) v (fun a _ => ⟨_, rfl⟩)
    refine ⟨r, hr, lift_mono (fun q q' h => ?_) v r ((mapM_lift _ v r).1 hr)⟩
    injection h with h
    subst h
    obtain ⟨_, h1, h2, h3, _, h5⟩ := QA.C98_mul_unit q u
    exact ⟨h1, h2, h3, h5⟩


/-- **C98** (vectors, `<<`). Every component is converted, or given the unit if it has none. -/
theorem C98_vector_shift_unit (v r : Comp (QA K D)) (u : PhysUnit K D) :
    v.shiftUnit u = .ok r ↔ v.Lift (fun q q' => q.shiftUnit u = .ok q') r := mapM_lift _ v r

theorem ufunc2_lift {α β γ δ : Type} (f : β → γ → R δ) {P : α → β → Prop} {Q : α → γ → Prop} {T : α → δ → Prop} :
    ∀ (v : Comp α) (w : Comp β) (un : Comp γ), v.Dicts → v.Lift P w → v.Lift Q un →
      (∀ q ∈ v.leaves, ∀ a b, P q a → Q q b → ∃ c, f a b = .ok c ∧ T q c) → ∃ r, w.ufunc2 f un = .ok r ∧ v.Lift T r := by
  refine ind ?_ ?_
  · intro q w un _ hw hun h
    cases w with
    | node cls cs => exact absurd hw (by simp [Lift])
    | leaf a =>
      cases un with
      | node cls cs => exact absurd hun (by simp [Lift])
      | leaf b =>
        obtain ⟨c, h1, h2⟩ := h q (by simp [leaves]) a b hw hun
        refine ⟨.leaf c, ?_, h2⟩
        simp only [ufunc2, bind, Except.bind, h1]
  · intro cls cs ih w un hD hw hun h
    cases w with
    | leaf a => exact absurd hw (by simp [Lift])
    | node cls' ws =>
      cases un with
      | leaf b => exact absurd hun (by simp [Lift])
      | node cls'' us =>
        simp only [Lift, liftL_iff] at hw hun
        obtain ⟨rfl, hw⟩ := hw
        obtain ⟨rfl, hun⟩ := hun
        simp only [Dicts] at hD
        have hDL := dictsL_iff.1 hD.2
        have hlook : ∀ p ∈ cs, ∃ d, get? us p.1 = some d ∧ p.2.Lift Q d := by
          intro p hp
          have hg := get?_of_mem hD.1 hp
          rcases get?_of_forall₂ (P := fun _ (c : Comp α) (d : Comp γ) => c.Lift Q d) hun p.1 with ⟨h1, _⟩ | ⟨c, d, h1, h2, h3⟩
          · rw [hg] at h1; simp at h1
          · rw [hg] at h1
            injection h1 with h1
            subst h1
            exact ⟨d, h2, h3⟩
        have hw' := hw
        have key : ∃ rs, ufunc2L f ws us = .ok rs ∧ List.Forall₂ (fun p r => p.1 = r.1 ∧ p.2.Lift T r.2) cs rs := by
          clear hun
          simp only [leaves, leavesL_eq] at h
          clear hD
          clear hw
          revert h
          revert hlook
          revert hDL
          revert ih
          induction hw' with
          | nil => exact fun _ _ _ _ => ⟨[], by simp [ufunc2L], .nil⟩
          | @cons a b l l' hab _ ihl =>
            intro ih hDL hlook h
            obtain ⟨rs, r1, r2⟩ := ihl (fun p hp => ih p (by simp [hp]))
              (fun p hp => hDL p (by simp [hp])) (fun p hp => hlook p (by simp [hp]))
              (fun q hq => h q (by simp only [List.flatMap_cons, List.mem_append]; exact Or.inr hq))
            obtain ⟨d, d1, d2⟩ := hlook a (by simp)
            obtain ⟨r, r3, r4⟩ := ih a (by simp) b.2 d (hDL a (by simp)) hab.2 d2
              (fun q hq => h q (by simp only [List.flatMap_cons, List.mem_append]; exact Or.inl hq))
            refine ⟨(a.1, r) :: rs, ?_, .cons ⟨rfl, r4⟩ r2⟩
            obtain ⟨k, c⟩ := b
            simp only at hab r3
            simp only [ufunc2L, bind, Except.bind]
            rw [← hab.1, d1]
            simp only
            rw [r3, r1]
        obtain ⟨rs, r1, r2⟩ := key
        refine ⟨.node cls rs, ?_, rfl, liftL_iff.2 r2⟩
        simp only [ufunc2, bind, Except.bind, if_pos]
        rw [r1]

/-- **C98** (number and unit, vectors). The value of a vector has no units; times the vector of units, which is what
`na.unit(vector, squeeze=False)` returns, it is the vector again. -/
theorem C98_vector_value_unit (v : Comp (QA K D)) (hD : v.Dicts) (hw : ∀ q ∈ v.leaves, q.data.WF) :
    ∃ w un r, v.value = .ok w ∧ v.unitVector = .ok un ∧ w.ufunc2 QA.mul un = .ok r ∧
      v.Lift (fun q q' => q' = q.value) w ∧
      v.Lift (fun q q' => q'.data.WF ∧ q'.data.shape = q.data.shape ∧ q'.dim = q.dim ∧
        ∀ e, SA.InRange q.data.shape e → q'.phys e = q.phys e) r := by
  obtain ⟨w, h1⟩ := mapM_isOk' (fun q : QA K D => (.ok q.value : R (QA K D))) v (fun a _ => ⟨_, rfl⟩)
  obtain ⟨un, h2⟩ := mapM_isOk' (fun q : QA K D => (.ok ⟨SA.scalar 1, q.unit⟩ : R (QA K D))) v (fun a _ => ⟨_, rfl⟩)
  have l1 := lift_mono (Q := fun q q' => q' = q.value) (fun q q' h => by injection h with h; exact h.symm) v w ((mapM_lift _ v w).1 h1)
  have l2 := lift_mono (Q := fun q q' => q' = ⟨SA.scalar 1, q.unit⟩) (fun q q' h => by injection h with h; exact h.symm) v un
    ((mapM_lift _ v un).1 h2)
  obtain ⟨r, h3, h4⟩ := ufunc2_lift QA.mul (T := fun q q' => q'.data.WF ∧ q'.data.shape = q.data.shape ∧ q'.dim = q.dim ∧
        ∀ e, SA.InRange q.data.shape e → q'.phys e = q.phys e) v w un hD l1 l2 (by
    rintro q hq a b rfl rfl
    have hS : broadcastShapes [q.value.data.shape, (SA.scalar (1 : K)).shape] = .ok q.data.shape := by
      have h5 : (SA.scalar (1 : K)).shape = [] := rfl
      have h6 : Dict.WF q.value.data.shape := SA.wf_shape (hw q hq)
      rw [h5, bs_extend h6 Dict.wf_nil (by intro ax m h; simp [get?_nil] at h)]
      simp
      rfl
    obtain ⟨c, c1, c2, c3, c4, c5⟩ := (QA.C98_product q.value ⟨SA.scalar 1, q.unit⟩ (hw q hq) (scalar_fits [] (1 : K)).1 q.data.shape hS).1
    refine ⟨c, c1, c2, c3, ?_, fun e he => ?_⟩
    · rw [c4]
      show (0 : D) + q.dim = q.dim
      exact zero_add _
    · rw [c5 e he]
      show q.data.atB e * 1 * (1 * q.unitNormalized.scale) = q.data.atB e * q.unitNormalized.scale
      ring)
  exact ⟨w, un, r, h1, h2, h3, l1, h4⟩

/-- **C98** (the unit of a vector). `na.unit(vector)` is a single unit exactly if all of the components have this unit (or all of them
have none). -/
theorem C98_unit_squeezed [DecidableEq K] (cls : String) (cs : List (String × QA K D)) (hne : cs ≠ []) :
    (∀ u, unitSqueezed cls cs = .ok (.inl u) ↔ ∀ p ∈ cs, p.2.unit = u) ∧
    ∀ w, unitSqueezed cls cs = .ok (.inr w) →
      unitVector (.node cls (cs.map (fun p => (p.1, .leaf p.2)))) = .ok w ∧ ∃ p ∈ cs, ∃ q ∈ cs, p.2.unit ≠ q.2.unit := by
  cases cs with
  | nil => exact absurd rfl hne
  | cons p l =>
    have hd : unitSqueezed cls (p :: l) = if (p :: l).all (fun q => p.2.unit = q.2.unit) then .ok (.inl p.2.unit)
      else (do
        let w ← unitVector (.node cls ((p :: l).map (fun q => (q.1, .leaf q.2))))
        .ok (.inr w)) := rfl
    by_cases h : (p :: l).all (fun q => p.2.unit = q.2.unit) = true
    · rw [hd, if_pos h]
      rw [List.all_eq_true] at h
      refine ⟨fun u => ⟨fun hu q hq => ?_, fun hu => ?_⟩, fun w hw => by simp at hw⟩
      · simp only [Except.ok.injEq, Sum.inl.injEq] at hu
        exact (of_decide_eq_true (h q hq)).symm.trans hu
      · rw [hu p (by simp)]
    · rw [hd, if_neg h]
      have h' : ∃ q ∈ p :: l, p.2.unit ≠ q.2.unit := by
        by_contra hc
        push Not at hc
        exact h (List.all_eq_true.2 (fun q hq => decide_eq_true (hc q hq)))
      obtain ⟨q, hq, hpq⟩ := h'
      refine ⟨fun u => ⟨fun hu => ?_, fun hu => absurd ((hu p (by simp)).trans (hu q hq).symm) hpq⟩, fun w hw => ?_⟩
      · simp only [bind, Except.bind] at hu
        split at hu <;> simp at hu
      · simp only [bind, Except.bind] at hw
        split at hw
        · simp at hw
        · rename_i w' hw'
          simp only [Except.ok.injEq, Sum.inr.injEq] at hw
          subst hw
          exact ⟨hw', p, by simp, q, hq, hpq⟩

end Comp

namespace QU

variable [Field K] [AddCommGroup D] [DecidableEq D]

/-- **C98** (uncertain scalars). Conversion without equivalencies changes neither the nominal values nor the samples. -/
theorem C98_uncertain_to (q : QU K D) (u : PhysUnit K D) (hu : u.scale ≠ 0) :
    (q.nominal.dim = u.dim → q.distribution.dim = u.dim → ∃ r, q.toUnit u = .ok r ∧ r.nominal.unit = some u ∧ r.distribution.unit = some u ∧
      QA.Same q.nominal r.nominal ∧ QA.Same q.distribution r.distribution) ∧
    (q.nominal.dim ≠ u.dim ∨ q.distribution.dim ≠ u.dim → q.toUnit u = .error .other ∧ q.toValue u = .error .other) := by
  refine ⟨fun h1 h2 => ?_, fun h => ?_⟩
  · obtain ⟨n, a1, a2, a3⟩ := (QA.C98_to q.nominal u hu []).1 h1
    obtain ⟨d, b1, b2, b3⟩ := (QA.C98_to q.distribution u hu []).1 h2
    refine ⟨⟨n, d⟩, ?_, a2, b2, a3, b3⟩
    unfold toUnit
    rw [a1, b1]
    rfl
  · unfold toUnit toValue
    by_cases h1 : q.nominal.dim = u.dim
    · have h2 : q.distribution.dim ≠ u.dim := h.resolve_left (fun h' => h' h1)
      obtain ⟨n, a1, _⟩ := (QA.C98_to q.nominal u hu []).1 h1
      obtain ⟨m, c1, _⟩ := (QA.C98_to_value q.nominal u hu []).1 h1
      rw [a1, c1, (QA.C98_to q.distribution u hu []).2 h2, (QA.C98_to_value q.distribution u hu []).2 h2]
      exact ⟨rfl, rfl⟩
    · rw [(QA.C98_to q.nominal u hu []).2 h1, (QA.C98_to_value q.nominal u hu []).2 h1]
      exact ⟨rfl, rfl⟩

/-- **C98** (uncertain scalars, values). The numbers of the nominal values and of the samples in the given unit. -/
theorem C98_uncertain_to_value (q : QU K D) (u : PhysUnit K D) (hu : u.scale ≠ 0)
    (h1 : q.nominal.dim = u.dim) (h2 : q.distribution.dim = u.dim) :
    ∃ r, q.toValue u = .ok r ∧ q.nominal.toValue u = .ok r.nominal ∧ q.distribution.toValue u = .ok r.distribution := by
  obtain ⟨n, a1, _⟩ := (QA.C98_to_value q.nominal u hu []).1 h1
  obtain ⟨d, b1, _⟩ := (QA.C98_to_value q.distribution u hu []).1 h2
  refine ⟨⟨n, d⟩, ?_, a1, b1⟩
  unfold toValue
  rw [a1, b1]
  rfl

/-- **C98** (uncertain scalars and units). The operators with a unit act on the nominal values and on the samples. -/
theorem C98_uncertain_mul_unit (q : QU K D) (u : PhysUnit K D) :
    (q.mulUnit u).nominal = q.nominal.mulUnit u ∧ (q.mulUnit u).distribution = q.distribution.mulUnit u ∧
    (q.divUnit u).nominal = q.nominal.divUnit u ∧ (q.divUnit u).distribution = q.distribution.divUnit u ∧
    ∀ r, q.shiftUnit u = .ok r ↔ q.nominal.shiftUnit u = .ok r.nominal ∧ q.distribution.shiftUnit u = .ok r.distribution := by
  refine ⟨rfl, rfl, rfl, rfl, fun r => ?_⟩
  obtain ⟨rn, rd⟩ := r
  unfold shiftUnit
  simp only [bind, Except.bind]
  cases q.nominal.shiftUnit u with
  | error er => simp
  | ok n =>
    cases q.distribution.shiftUnit u with
    | error er => simp
    | ok d => simp

/-- **C98** (number and unit, uncertain scalars), proved for arrays whose nominal values and samples have the same unit.
`C98_uncertain_unit_refuted` shows that this is needed. -/
theorem C98_uncertain_value_unit_partial (q : QU K D) (h : q.distribution.unitNormalized = q.nominal.unitNormalized) :
    QA.Same q.nominal (q.value.mulUnit q.unitNormalized).nominal ∧
    QA.Same q.distribution (q.value.mulUnit q.unitNormalized).distribution := by
  refine ⟨(QA.C98_value_unit q.nominal).2.2, ?_⟩
  have := (QA.C98_value_unit q.distribution).2.2
  rw [h] at this
  exact this

end QU

namespace QFunction

variable [Field K] [AddCommGroup D] [DecidableEq D]

/-- **C98** (functions). The outputs are converted, the inputs keep their units. -/
theorem C98_function_to (f r : QFunction K D) (spec : UnitSpec K D) (eqs : List (Equivalency K D)) (u : PhysUnit K D) :
    (f.toUnit spec eqs = .ok r ↔ r.inputs = f.inputs ∧ f.outputs.toUnit spec eqs = .ok r.outputs) ∧
    (f.toValue spec eqs = .ok r ↔ r.inputs = f.inputs ∧ f.outputs.toValue spec eqs = .ok r.outputs) ∧
    (f.value = .ok r ↔ r.inputs = f.inputs ∧ f.outputs.value = .ok r.outputs) ∧
    (f.mulUnit u = .ok r ↔ r.inputs = f.inputs ∧ f.outputs.mulUnit u = .ok r.outputs) := by
  obtain ⟨ri, ro⟩ := r
  unfold toUnit toValue value mulUnit
  simp only [bind, Except.bind]
  refine ⟨?_, ?_, ?_, ?_⟩
  · cases f.outputs.toUnit spec eqs with
    | error er => simp
    | ok x => simp [eq_comm]
  · cases f.outputs.toValue spec eqs with
    | error er => simp
    | ok x => simp [eq_comm]
  · cases f.outputs.value with
    | error er => simp
    | ok x => simp [eq_comm]
  · cases f.outputs.mulUnit u with
    | error er => simp
    | ok x => simp [eq_comm]

end QFunction

/-! ## Examples and refutations -/

/-- Units of length and time. -/
abbrev exMetre : PhysUnit ℚ (ℤ × ℤ) := ⟨1, (1, 0)⟩
abbrev exKm : PhysUnit ℚ (ℤ × ℤ) := ⟨1000, (1, 0)⟩
abbrev exSecond : PhysUnit ℚ (ℤ × ℤ) := ⟨1, (0, 1)⟩
abbrev exHertz : PhysUnit ℚ (ℤ × ℤ) := ⟨1, (0, -1)⟩
/-- Two distances in kilometres. -/
abbrev exTrack : QA ℚ (ℤ × ℤ) := ⟨⟨["t"], ⟨[2], fun i => if i = [0] then 1 else 5/2⟩⟩, some exKm⟩
/-- A distance in metres for three colours. -/
abbrev exShift : QA ℚ (ℤ × ℤ) := ⟨⟨["c"], ⟨[3], fun i => if i = [0] then 100 else 200⟩⟩, some exMetre⟩
/-- A time. -/
abbrev exTime : QA ℚ (ℤ × ℤ) := ⟨⟨["t"], ⟨[2], fun i => if i = [0] then 2 else 4⟩⟩, some exSecond⟩
/-- Zeros without unit. -/
abbrev exZeros : QA ℚ (ℤ × ℤ) := ⟨⟨["t"], ⟨[2], fun _ => 0⟩⟩, none⟩
/-- Frequencies are inverse times. -/
abbrev exInverse : Equivalency ℚ (ℤ × ℤ) := ⟨exSecond, exHertz, fun x => 1 / x, fun x => 1 / x⟩
/-- A position and a nested vector of a time and a distance. -/
abbrev exEvent : Comp (QA ℚ (ℤ × ℤ)) :=
  .node "Event" [("position", .leaf exTrack), ("observer", .node "Observer" [("time", .leaf exTime), ("offset", .leaf exShift)])]
/-- Metres for the position, the time kept. -/
abbrev exSpec : UnitSpec ℚ (ℤ × ℤ) := .dict [("position", .unit exMetre), ("observer", .dict [("time", .keep), ("offset", .unit exKm)])]

theorem exTrack_wf : exTrack.data.WF := ⟨rfl, by decide⟩
theorem exShift_wf : exShift.data.WF := ⟨rfl, by decide⟩
theorem exTime_wf : exTime.data.WF := ⟨rfl, by decide⟩
theorem exZeros_wf : exZeros.data.WF := ⟨rfl, by decide⟩
theorem exTrack_valid : exTrack.Valid := by
  intro u hu
  injection hu with hu
  subst hu
  norm_num

example : ∃ r, exTrack.toUnit exMetre [] = .ok r ∧ r.unit = some exMetre ∧ QA.Same exTrack r :=
  (QA.C98_to exTrack exMetre one_ne_zero []).1 rfl
example : exTrack.toUnit exSecond [] = .error .other := (QA.C98_to exTrack exSecond one_ne_zero []).2 (by decide)
example : (exTrack.toUnit exMetre).map (fun r => (r.data.shape, r.data.at' (fun _ => 0), r.data.at' (fun _ => 1)))
    = .ok ([("t", 2)], 1000, 2500) := by decide +kernel
example : exTrack.toValue exSecond [] = .error .other := (QA.C98_to_value exTrack exSecond one_ne_zero []).2 (by decide)
example : ∃ r, exTrack.toUnit exMetre = .ok r ∧ r.toUnit exKm [] = exTrack.toUnit exKm [] :=
  Exists.imp (fun r h => ⟨h.1, QA.C98_to_to exTrack r exMetre exKm one_ne_zero h.1⟩) ((QA.C98_to exTrack exMetre one_ne_zero []).1 rfl)
example : exTrack.toUnit exKm [] = .ok exTrack := QA.C98_to_own exTrack exKm (by norm_num) rfl []
example : ∃ r, exTime.toUnit exHertz [exInverse] = .ok r ∧ r.unit = some exHertz ∧ r.phys (fun _ => 1) = 1 / 4 :=
  Exists.imp (fun r h => ⟨h.1, h.2.1, by
    rw [h.2.2.2.2]
    decide +kernel⟩) ((QA.C98_equivalency exTime exHertz one_ne_zero exInverse (by decide)).1 rfl rfl)
example : exTime.toUnit exHertz [] = .error .other := (QA.C98_to exTime exHertz one_ne_zero []).2 (by decide)
example : (exTrack.mulUnit exSecond).dim = (1, 1) := (QA.C98_mul_unit exTrack exSecond).1.1
example : QA.Same exTrack ((exTrack.mulUnit exSecond).divUnit exSecond) := QA.C98_mul_div_unit exTrack exSecond one_ne_zero
example : exZeros.shiftUnit exKm = .ok (exZeros.mulUnit exKm) := (QA.C98_shift_unit exZeros exKm).1 rfl
example : ∃ r, QA.sumLike (· + ·) exTrack exShift = .ok r ∧ r.data.shape = [("t", 2), ("c", 3)] ∧ r.dim = (1, 0) ∧
    r.phys (fun _ => 1) = 2700 :=
  Exists.imp (fun r h => ⟨h.1, h.2.2.1, h.2.2.2.1, (h.2.2.2.2 (fun _ => 1) (by
      intro ax n hn
      by_cases h1 : "t" = ax
      · subst h1; simp [get?] at hn; subst hn; decide
      · by_cases h2 : "c" = ax
        · subst h2; simp [get?] at hn; subst hn; decide
        · simp [get?, h1, h2] at hn)).trans (by decide +kernel)⟩) <|
    QA.C98_sum (· + ·) exTrack exShift exTrack_wf exShift_wf exTrack_valid (fun c _ x y => (add_mul x y c).symm)
      [("t", 2), ("c", 3)] (by decide) rfl
example : QA.sumLike (· + ·) exTrack exTime = .error .other ∧ QA.compare (fun x y => x < y) exTrack exTime = .error .other :=
  QA.C98_sum_error _ _ exTrack exTime [("t", 2)] (by decide) (by decide) (fun h => by simp [QA.ZeroPlain] at h)
    (fun h => by simp [QA.ZeroPlain] at h)
example : ∃ r, QA.sumLike (· + ·) exZeros exTrack = .ok r ∧ r.unit = some exKm :=
  Exists.imp (fun _ h => ⟨h.1, h.2.2.2.1⟩) <|
    QA.C98_sum_zero exZeros exTrack exZeros_wf exTrack_wf [("t", 2)] (by decide) (by decide) ⟨rfl, by simp, by decide +kernel⟩
example : ∃ r, QA.compare (fun x y => x < y) exShift exTrack = .ok r ∧ r.shape = [("c", 3), ("t", 2)] ∧ r.at' (fun _ => 0) = true :=
  Exists.imp (fun r h => ⟨h.1, h.2.2.1, (h.2.2.2 _).trans (by decide +kernel)⟩) <|
    QA.C98_compare (fun x y => decide (x < y)) exShift exTrack exShift_wf exTrack_wf
      (by intro u hu; injection hu with hu; subst hu; norm_num)
      (by
        intro c hc x y
        have : c = 1 := by
          rcases hc with h | ⟨u, h1, h2⟩
          · exact h
          · injection h1 with h1
            subst h1
            exact h2
        subst this
        simp)
      [("c", 3), ("t", 2)] (by decide) rfl
example : ∃ r, QA.div exTrack exTime = .ok r ∧ r.dim = (1, -1) :=
  Exists.imp (fun _ h => ⟨h.1, h.2.2.2.1⟩) (QA.C98_product exTrack exTime exTrack_wf exTime_wf [("t", 2)] (by decide)).2

theorem exEvent_fitting : Comp.Fitting exSpec exEvent := by
  intro p q hq
  rcases p with _ | ⟨k, p⟩
  · simp [Comp.leafAt] at hq
  · by_cases h1 : "position" = k
    · subst h1
      rcases p with _ | ⟨k', p⟩
      · simp [Comp.leafAt, get?] at hq
        subst hq
        refine ⟨some exMetre, by simp [UnitSpec.lookup, get?], fun u hu => ?_⟩
        injection hu with hu
        subst hu
        exact ⟨one_ne_zero, rfl⟩
      · simp [Comp.leafAt, get?] at hq
    · by_cases h2 : "observer" = k
      · subst h2
        rcases p with _ | ⟨k', p⟩
        · simp [Comp.leafAt, get?] at hq
        · by_cases h3 : "time" = k'
          · subst h3
            refine ⟨none, by simp [UnitSpec.lookup, get?], fun u hu => by simp at hu⟩
          · by_cases h4 : "offset" = k'
            · subst h4
              rcases p with _ | ⟨k'', p⟩
              · simp [Comp.leafAt, get?] at hq
                subst hq
                refine ⟨some exKm, by simp [UnitSpec.lookup, get?], fun u hu => ?_⟩
                injection hu with hu
                subst hu
                exact ⟨by norm_num, rfl⟩
              · simp [Comp.leafAt, get?] at hq
            · simp [Comp.leafAt, get?, h3, h4] at hq
      · simp [Comp.leafAt, get?, h1, h2] at hq

theorem exEvent_full : exEvent.Full := by simp [Comp.Full, Comp.FullL]
theorem exEvent_dicts : exEvent.Dicts := by
  simp only [Comp.Dicts, Comp.DictsL, and_true]
  decide

example : ∃ r, exEvent.toUnit exSpec [] = .ok r ∧ r.leafAt ["observer", "time"] = some exTime ∧
    ∃ q, r.leafAt ["position"] = some q ∧ q.unit = some exMetre ∧ QA.Same exTrack q :=
  Exists.imp (fun r h => ⟨h.1, (h.2.2 ["observer", "time"] exTime rfl).1 rfl, (h.2.2 ["position"] exTrack rfl).2 exMetre rfl⟩) <|
    Comp.C98_vector_to _ _ exEvent_full exEvent_dicts exSpec [] exEvent_fitting
example : ∃ r, exEvent.toValue exSpec [] = .ok r ∧ ∃ q, r.leafAt ["position"] = some q ∧ q.unit = none :=
  Exists.imp (fun r h => ⟨h.1, Exists.imp (fun _ g => ⟨g.1, g.2.1⟩) ((h.2.2 ["position"] exTrack rfl).2 exMetre rfl)⟩) <|
    Comp.C98_vector_to_value _ _ exEvent_full exEvent_dicts exSpec [] exEvent_fitting
example : ∃ er, exEvent.toUnit (.unit exMetre) [] = .error er :=
  (Comp.C98_vector_to_error _ _ _ ⟨["observer", "time"], exTime, rfl, Or.inr ⟨exMetre, rfl, one_ne_zero, by decide⟩⟩).1
example : ∃ er, exEvent.toUnit (.dict [("position", .keep)]) [] = .error er :=
  (Comp.C98_vector_to_error _ _ _ ⟨["observer", "time"], exTime, rfl, Or.inl rfl⟩).1
example : ∃ w un r, exEvent.value = .ok w ∧ exEvent.unitVector = .ok un ∧ w.ufunc2 QA.mul un = .ok r :=
  Exists.imp (fun _ h => Exists.imp (fun _ h => Exists.imp (fun _ h => ⟨h.1, h.2.1, h.2.2.1⟩) h) h) <|
    Comp.C98_vector_value_unit exEvent exEvent_dicts (by
      intro q hq
      simp [Comp.leaves, Comp.leavesL] at hq
      rcases hq with rfl | rfl | rfl
      · exact exTrack_wf
      · exact exTime_wf
      · exact exShift_wf)
example : Comp.unitSqueezed "V" [("x", exTrack), ("y", exTrack)] = .ok (.inl (some exKm)) :=
  ((Comp.C98_unit_squeezed "V" [("x", exTrack), ("y", exTrack)] (by simp)).1 (some exKm)).2 (by simp)
example : Comp.unitSqueezed "V" [("x", exTrack), ("y", exShift)] ≠ .ok (.inl (some exKm)) := fun h =>
  absurd (((Comp.C98_unit_squeezed "V" [("x", exTrack), ("y", exShift)] (by simp)).1 (some exKm)).1 h ("y", exShift) (by simp)) (by decide)

/-- **C98**: an uncertain scalar is not always its value times its unit: with nominal values in metres and samples in kilometres the
unit of the nominal values is used for both. -/
theorem C98_uncertain_unit_refuted : ∃ q : QU ℚ (ℤ × ℤ), ¬ QA.Same q.distribution (q.value.mulUnit q.unitNormalized).distribution :=
  ⟨⟨exShift, exTrack⟩, fun h => absurd (h.phys (fun _ => 0)) (by decide +kernel)⟩

/-- **C98**: an equivalency which converts the nominal values and also the samples does not convert the uncertain scalar, since it is
not passed on to the samples. -/
theorem C98_uncertain_equivalencies_refuted : ∃ (q : QU ℚ (ℤ × ℤ)) (u : PhysUnit ℚ (ℤ × ℤ)) (E : Equivalency ℚ (ℤ × ℤ)),
    (∃ n, q.nominal.toUnit u [E] = .ok n) ∧ (∃ d, q.distribution.toUnit u [E] = .ok d) ∧
    q.toUnit u [E] = .error .other ∧ q.toValue u [E] = .error .other :=
  ⟨⟨exTime, exTime⟩, exHertz, exInverse, ⟨_, rfl⟩, ⟨_, rfl⟩, rfl, rfl⟩

example : ∃ r, (⟨exShift, exTrack⟩ : QU ℚ (ℤ × ℤ)).toUnit exKm = .ok r ∧ r.nominal.unit = some exKm ∧ r.distribution.unit = some exKm :=
  Exists.imp (fun _ h => ⟨h.1, h.2.1, h.2.2.1⟩) ((QU.C98_uncertain_to ⟨exShift, exTrack⟩ exKm (by norm_num)).1 rfl rfl)
example : (⟨exShift, exTime⟩ : QU ℚ (ℤ × ℤ)).toUnit exKm = .error .other :=
  ((QU.C98_uncertain_to ⟨exShift, exTime⟩ exKm (by norm_num)).2 (Or.inr (by decide))).1
example : QA.Same exTrack ((⟨exTrack, exTrack⟩ : QU ℚ (ℤ × ℤ)).value.mulUnit exKm).distribution :=
  (QU.C98_uncertain_value_unit_partial ⟨exTrack, exTrack⟩ rfl).2
example : ∃ r, (⟨.leaf exTime, exEvent⟩ : QFunction ℚ (ℤ × ℤ)).toUnit exSpec [] = .ok r ∧ r.inputs = .leaf exTime :=
  (Comp.C98_vector_to _ _ exEvent_full exEvent_dicts exSpec [] exEvent_fitting).elim (fun w h =>
    ⟨⟨.leaf exTime, w⟩, (QFunction.C98_function_to ⟨.leaf exTime, exEvent⟩ ⟨.leaf exTime, w⟩ exSpec [] exKm).1.2 ⟨rfl, h.1⟩, rfl⟩)

end NA
