import Verif.Vector.NanToNum
import Verif.Uncertain.Lemmas
import Verif.Scalar.Lemmas

/-!
# C123: replacement of the numbers which are not finite
-/

namespace NA.Clean
open Dict
open SA (InRange)
variable {K : Type}

/-- What shall become of one number. -/
def Meant (o : Options K) (x y : Num K) : Prop :=
  (∀ k, x = .fin k → y = .fin k) ∧ (x = .nan → y = o.nan) ∧
  (x = .posInf → (∀ z, o.posinf = some z → y = z) ∧ (o.posinf = none → y = .fin o.largest)) ∧
  (x = .negInf → (∀ z, o.neginf = some z → y = z) ∧ (o.neginf = none → y = .fin o.smallest))

/-- What shall become of one scalar. -/
def Cleaned (o : Options K) (a b : SA (Num K)) : Prop :=
  b.WF ∧ b.axes = a.axes ∧ b.shape = a.shape ∧ ∀ e, InRange a.shape e → Meant o (a.at' e) (b.at' e)

mutual
/-- The two objects have the same structure, and their scalars are related by `P`. -/
def Related (P : SA (Num K) → SA (Num K) → Prop) : Tree K → Tree K → Prop
  | .scalar _ a, .scalar _ b => P a b
  | .uncertain _ _ n _ d, .uncertain _ _ n' _ d' => P n n' ∧ P d d'
  | .vector _ cls cs, .vector _ cls' cs' => cls = cls' ∧ RelatedL P cs cs'
  | _, _ => False
def RelatedL (P : SA (Num K) → SA (Num K) → Prop) : List (String × Tree K) → List (String × Tree K) → Prop
  | [], [] => True
  | (k, c) :: l, (k', c') :: l' => k = k' ∧ Related P c c' ∧ RelatedL P l l'
  | _, _ => False
end

mutual
/-- The scalars are well-formed, and nominal values do not have the axis of the samples. -/
def Wellformed : Tree K → Prop
  | .scalar _ a => a.WF
  | .uncertain _ _ n _ d => UA.Valid ⟨n, d⟩
  | .vector _ _ cs => WellformedL cs
def WellformedL : List (String × Tree K) → Prop
  | [] => True
  | (_, c) :: l => Wellformed c ∧ WellformedL l
end

mutual
/-- No part of the object is computed on demand. -/
def Explicit : Tree K → Prop
  | .scalar kind _ => kind ≠ .implicit
  | .uncertain explicit kn _ kd _ => explicit = true ∧ kn ≠ .implicit ∧ kd ≠ .implicit
  | .vector explicit _ cs => explicit = true ∧ ExplicitL cs
def ExplicitL : List (String × Tree K) → Prop
  | [] => True
  | (_, c) :: l => Explicit c ∧ ExplicitL l
end

mutual
/-- No scalar of the object is stored as a number. -/
def Stored : Tree K → Prop
  | .scalar kind _ => kind ≠ .number
  | .uncertain _ kn _ kd _ => kn ≠ .number ∧ kd ≠ .number
  | .vector _ _ cs => StoredL cs
def StoredL : List (String × Tree K) → Prop
  | [] => True
  | (_, c) :: l => Stored c ∧ StoredL l
end

theorem meant_replace (o : Options K) (x : Num K) : Meant o x (o.replace x) := by
  refine ⟨?_, ?_, ?_, ?_⟩
  · rintro k rfl; rfl
  · rintro rfl; rfl
  · rintro rfl
    exact ⟨fun z h => by simp [Options.replace, h], fun h => by simp [Options.replace, h]⟩
  · rintro rfl
    exact ⟨fun z h => by simp [Options.replace, h], fun h => by simp [Options.replace, h]⟩

theorem cleaned_map (o : Options K) {a : SA (Num K)} (ha : a.WF) : Cleaned o a ⟨a.axes, a.nd.map o.replace⟩ :=
  ⟨ha, rfl, rfl, fun _ _ => meant_replace o _⟩

theorem scalarCopy_ok (o : Options K) {a : SA (Num K)} (ha : a.WF) : scalarCopy o a = .ok ⟨a.axes, a.nd.map o.replace⟩ :=
  SA.mk?_of_wf ha.1 ha.2

theorem kindOf_ne (a : SA (Num K)) : kindOf a ≠ .implicit := by
  unfold kindOf
  split <;> simp

mutual
/-- **C123** (copy). `np.nan_to_num(x)` always succeeds; the result is explicit, and has the structure and the names of `x` with every scalar
replaced: the same axes and sizes, finite numbers kept, and the others replaced as asked for. -/
theorem C123_copy (o : Options K) : ∀ t : Tree K, Wellformed t →
    ∃ r, nanToNum o t = .ok r ∧ Related (Cleaned o) t r ∧ Wellformed r ∧ Explicit r
  | .scalar _ a, h => by
    refine ⟨.scalar (kindOf ⟨a.axes, a.nd.map o.replace⟩) ⟨a.axes, a.nd.map o.replace⟩, ?_, ?_, ?_, ?_⟩
    · rw [nanToNum, scalarCopy_ok o h]; rfl
    · rw [Related]; exact cleaned_map o h
    · rw [Wellformed]; exact h
    · rw [Explicit]; exact kindOf_ne _
  | .uncertain _ _ n _ d, h => by
    rw [Wellformed] at h
    refine ⟨.uncertain true (kindOf ⟨n.axes, n.nd.map o.replace⟩) ⟨n.axes, n.nd.map o.replace⟩ (kindOf ⟨d.axes, d.nd.map o.replace⟩)
      ⟨d.axes, d.nd.map o.replace⟩, ?_, ?_, ?_, ?_⟩
    · rw [nanToNum, scalarCopy_ok o h.1, scalarCopy_ok o h.2.1]
      simp only [bind, Except.bind]
      rw [UA.mk?_of_valid (n := ⟨n.axes, n.nd.map o.replace⟩) h.1 h.2.2]
    · rw [Related]; exact ⟨cleaned_map o h.1, cleaned_map o h.2.1⟩
    · rw [Wellformed]; exact h
    · rw [Explicit]; exact ⟨rfl, kindOf_ne _, kindOf_ne _⟩
  | .vector _ cls cs, h => by
    rw [Wellformed] at h
    obtain ⟨r, h1, h2, h3, h4⟩ := copy_list o cs h
    refine ⟨.vector true cls r, ?_, ?_, ?_, ?_⟩
    · rw [nanToNum, h1]; rfl
    · rw [Related]; exact ⟨rfl, h2⟩
    · rw [Wellformed]; exact h3
    · rw [Explicit]; exact ⟨rfl, h4⟩
theorem copy_list (o : Options K) : ∀ l : List (String × Tree K), WellformedL l →
    ∃ r, nanToNumL o l = .ok r ∧ RelatedL (Cleaned o) l r ∧ WellformedL r ∧ ExplicitL r
  | [], _ => ⟨[], by rw [nanToNumL], by simp [RelatedL], by simp [WellformedL], by simp [ExplicitL]⟩
  | (k, c) :: l, h => by
    rw [WellformedL] at h
    obtain ⟨c', h1, h2, h3, h4⟩ := C123_copy o c h.1
    obtain ⟨l', g1, g2, g3, g4⟩ := copy_list o l h.2
    refine ⟨(k, c') :: l', ?_, ?_, ?_, ?_⟩
    · rw [nanToNumL, h1, g1]; rfl
    · rw [RelatedL]; exact ⟨rfl, h2, g2⟩
    · rw [WellformedL]; exact ⟨h3, g3⟩
    · rw [ExplicitL]; exact ⟨h4, g4⟩
end

theorem scalar_inPlace (o : Options K) {kind : Kind} {a : SA (Num K)} (ha : a.WF) (h1 : kind ≠ .implicit) (h2 : kind ≠ .number) :
    Cleaned o a (scalarInPlace o kind a).1 ∧ (scalarInPlace o kind a).2 = none := by
  cases kind with
  | array => exact ⟨cleaned_map o ha, rfl⟩
  | number => exact absurd rfl h2
  | implicit => exact absurd rfl h1

mutual
/-- **C123** (in place). If no part of `x` is implicit and no scalar is stored as a number, `np.nan_to_num(x, copy=False)` succeeds and leaves in `x`
what `np.nan_to_num(x)` returns.
Missing for the full property: scalars which are stored as numbers (`C123_number_refuted`). -/
theorem C123_in_place_partial (o : Options K) : ∀ t : Tree K, Wellformed t → Explicit t → Stored t →
    (inPlace o t).2 = none ∧ Related (Cleaned o) t (inPlace o t).1
  | .scalar kind a, h, he, hs => by
    rw [Wellformed] at h
    rw [Explicit] at he
    rw [Stored] at hs
    obtain ⟨h1, h2⟩ := scalar_inPlace o h he hs
    rw [inPlace]
    exact ⟨h2, by rw [Related]; exact h1⟩
  | .uncertain explicit kn n kd d, h, he, hs => by
    rw [Wellformed] at h
    rw [Explicit] at he
    rw [Stored] at hs
    obtain ⟨h1, h2⟩ := scalar_inPlace o h.1 he.2.1 hs.1
    obtain ⟨g1, g2⟩ := scalar_inPlace o h.2.1 he.2.2 hs.2
    rw [inPlace, if_pos he.1]
    generalize scalarInPlace o kn n = p at h1 h2
    obtain ⟨n', e⟩ := p
    simp only at h2
    subst h2
    exact ⟨g2, by rw [Related]; exact ⟨h1, g1⟩⟩
  | .vector explicit cls cs, h, he, hs => by
    rw [Wellformed] at h
    rw [Explicit] at he
    rw [Stored] at hs
    obtain ⟨h1, h2⟩ := in_place_list o cs h he.2 hs
    rw [inPlace, if_pos he.1]
    exact ⟨h1, by rw [Related]; exact ⟨rfl, h2⟩⟩
theorem in_place_list (o : Options K) : ∀ l : List (String × Tree K), WellformedL l → ExplicitL l → StoredL l →
    (inPlaceL o l).2 = none ∧ RelatedL (Cleaned o) l (inPlaceL o l).1
  | [], _, _, _ => by rw [inPlaceL]; exact ⟨rfl, by simp [RelatedL]⟩
  | (k, c) :: l, h, he, hs => by
    rw [WellformedL] at h
    rw [ExplicitL] at he
    rw [StoredL] at hs
    obtain ⟨h1, h2⟩ := C123_in_place_partial o c h.1 he.1 hs.1
    obtain ⟨g1, g2⟩ := in_place_list o l h.2 he.2 hs.2
    rw [inPlaceL]
    generalize inPlace o c = p at h1 h2
    obtain ⟨c', e⟩ := p
    simp only at h1
    subst h1
    exact ⟨g1, by rw [RelatedL]; exact ⟨rfl, h2, g2⟩⟩
end

theorem scalar_error (o : Options K) (kind : Kind) (a : SA (Num K)) : (scalarInPlace o kind a).2 = none ↔ kind ≠ .implicit := by
  cases kind <;> simp [scalarInPlace]

mutual
/-- **C123** (errors). `np.nan_to_num(x, copy=False)` raises an error exactly if some part of `x`, at any depth, is implicit. -/
theorem C123_error (o : Options K) : ∀ t : Tree K, (inPlace o t).2 = none ↔ Explicit t
  | .scalar kind a => by rw [inPlace, Explicit]; exact scalar_error o kind a
  | .uncertain explicit kn n kd d => by
    rw [Explicit, ← scalar_error o kn n, ← scalar_error o kd d, inPlace]
    cases explicit with
    | false => simp
    | true =>
      simp only [if_true, true_and]
      generalize scalarInPlace o kn n = p
      obtain ⟨n', e⟩ := p
      cases e <;> simp
  | .vector explicit cls cs => by
    rw [Explicit, ← error_list o cs, inPlace]
    cases explicit <;> simp
theorem error_list (o : Options K) : ∀ l : List (String × Tree K), (inPlaceL o l).2 = none ↔ ExplicitL l
  | [] => by simp [inPlaceL, ExplicitL]
  | (k, c) :: l => by
    rw [ExplicitL, ← C123_error o c, ← error_list o l, inPlaceL]
    generalize inPlace o c = p
    obtain ⟨c', e⟩ := p
    cases e <;> simp
end

/-- **C123** (finite results). If the replacements are finite, so are all elements of a scalar which has been treated. -/
theorem C123_finite {o : Options K} {a b : SA (Num K)} (h : Cleaned o a b) (hn : ∃ k, o.nan = .fin k)
    (hp : ∀ z, o.posinf = some z → ∃ k, z = .fin k) (hm : ∀ z, o.neginf = some z → ∃ k, z = .fin k) :
    ∀ e, InRange b.shape e → ∃ k, b.at' e = .fin k := by
  intro e he
  rw [h.2.2.1] at he
  obtain ⟨h1, h2, h3, h4⟩ := h.2.2.2 e he
  cases hx : a.at' e with
  | nan => rw [h2 hx]; exact hn
  | fin k => exact ⟨k, h1 k hx⟩
  | posInf =>
    cases hq : o.posinf with
    | none => exact ⟨_, (h3 hx).2 hq⟩
    | some z => rw [(h3 hx).1 z hq]; exact hp z hq
  | negInf =>
    cases hq : o.neginf with
    | none => exact ⟨_, (h4 hx).2 hq⟩
    | some z => rw [(h4 hx).1 z hq]; exact hm z hq

/-! ### Examples -/

def exReplace : Options Int := ⟨.fin 0, none, some (.fin (-7)), 100, -100⟩
def exDirty : SA (Num Int) := ⟨["t"], ND.ofList [4] [.nan, .fin 3, .posInf, .negInf] .nan⟩
def exSamples : SA (Num Int) := ⟨[axisD], ND.ofList [2] [.nan, .fin 5] .nan⟩
def exDirtyVector : Tree Int :=
  .vector true "V" [("x", .scalar .array exDirty), ("y", .vector true "W" [("z", .uncertain true .array exDirty .array exSamples)])]

mutual
def flat : Tree Int → List (List (Num Int))
  | .scalar _ a => [a.nd.toList]
  | .uncertain _ _ n _ d => [n.nd.toList, d.nd.toList]
  | .vector _ _ cs => flatL cs
def flatL : List (String × Tree Int) → List (List (Num Int))
  | [] => []
  | (_, c) :: l => flat c ++ flatL l
end

theorem wellformed_exDirtyVector : Wellformed exDirtyVector := by
  simp only [exDirtyVector, Wellformed, WellformedL, and_true]
  exact ⟨⟨rfl, (by decide : ["t"].Nodup)⟩, ⟨rfl, (by decide : ["t"].Nodup)⟩, ⟨rfl, (by decide : [axisD].Nodup)⟩, by decide⟩
example : (inPlace exReplace exDirtyVector).2 = none ∧ Related (Cleaned exReplace) exDirtyVector (inPlace exReplace exDirtyVector).1 :=
  C123_in_place_partial _ _ wellformed_exDirtyVector (by simp [exDirtyVector, Explicit, ExplicitL]) (by simp [exDirtyVector, Stored, StoredL])
example : ∃ r, nanToNum exReplace exDirtyVector = .ok r ∧ Explicit r := by
  obtain ⟨r, h1, _, _, h2⟩ := C123_copy exReplace exDirtyVector wellformed_exDirtyVector
  exact ⟨r, h1, h2⟩
example : flat (inPlace exReplace exDirtyVector).1 =
    [[.fin 0, .fin 3, .fin 100, .fin (-7)], [.fin 0, .fin 3, .fin 100, .fin (-7)], [.fin 0, .fin 5]] := by
  simp only [exDirtyVector, inPlace, inPlaceL, scalarInPlace, if_true, flat, flatL]
  decide +kernel
example : ∀ e, InRange exDirty.shape e → ∃ k, (⟨exDirty.axes, exDirty.nd.map exReplace.replace⟩ : SA (Num Int)).at' e = .fin k :=
  C123_finite (o := exReplace) (cleaned_map exReplace (a := exDirty) ⟨rfl, (by decide : ["t"].Nodup)⟩) ⟨0, rfl⟩ (fun z h => by cases h)
    (fun z h => by cases h; exact ⟨-7, rfl⟩)
example : ¬ Explicit (.vector true "V" [("x", .scalar .implicit exDirty)] : Tree Int) := by simp [Explicit, ExplicitL]

/-- **C123** is false in place for a number: `np.nan_to_num(na.ScalarArray(np.nan), copy=False)` succeeds and returns its argument, which is still `nan`,
although the copy would be 0. -/
theorem C123_number_refuted : ∃ t : Tree Int, Wellformed t ∧ Explicit t ∧ (inPlace exReplace t).2 = none ∧ flat (inPlace exReplace t).1 = [[.nan]] ∧
    (nanToNum exReplace t).toOption.map flat = some [[.fin 0]] := by
  refine ⟨.scalar .number ⟨[], ND.scalar .nan⟩, ?_, ?_, ?_, ?_, ?_⟩
  · rw [Wellformed]; exact ⟨rfl, List.nodup_nil⟩
  · simp [Explicit]
  · rfl
  · rw [inPlace, flat]; rfl
  · rw [nanToNum, scalarCopy_ok _ ⟨rfl, List.nodup_nil⟩]
    simp only [bind, Except.bind, Except.toOption, Option.map, flat]
    rfl

/-- **C123**: an error does not leave the vector as it was: the component `x` has been overwritten when the implicit component `y` raises
`ValueError`. -/
theorem C123_atomic_refuted : ∃ t : Tree Int, Wellformed t ∧ (inPlace exReplace t).2 = some .valueError ∧
    flat t = [[.nan, .fin 3, .posInf, .negInf], [.nan, .fin 3, .posInf, .negInf]] ∧
    flat (inPlace exReplace t).1 = [[.fin 0, .fin 3, .fin 100, .fin (-7)], [.nan, .fin 3, .posInf, .negInf]] := by
  refine ⟨.vector true "V" [("x", .scalar .array exDirty), ("y", .scalar .implicit exDirty)], ?_, ?_, ?_, ?_⟩
  · simp only [Wellformed, WellformedL, and_true]
    exact ⟨⟨rfl, (by decide : ["t"].Nodup)⟩, ⟨rfl, (by decide : ["t"].Nodup)⟩⟩
  · simp only [inPlace, inPlaceL, scalarInPlace, if_true]
  · simp only [flat, flatL]
    decide +kernel
  · simp only [inPlace, inPlaceL, scalarInPlace, if_true, flat, flatL]
    decide +kernel

/-- **C123**: the type of the error depends on the kind of the implicit part: `ValueError` for a scalar, `TypeError` for an uncertain scalar. -/
theorem C123_error_type_refuted : ∃ s t : Tree Int, (inPlace exReplace s).2 = some .valueError ∧ (inPlace exReplace t).2 = some .typeError ∧
    ¬ Explicit s ∧ ¬ Explicit t :=
  ⟨.scalar .implicit exDirty, .uncertain false .array exDirty .array exSamples, by rw [inPlace]; rfl, by rw [inPlace]; rfl,
    by simp [Explicit], by simp [Explicit]⟩

end NA.Clean
