import Verif.Vector.Inplace
import Verif.Props.OutWhere
import Verif.Props.VectorSet

/-!
# C80: operations in place on uncertain scalars and vectors
-/

namespace NA
open Dict Comp
open SA (FitsIn InRange)

namespace UA
variable {α γ : Type}

/-! ### Uncertain scalars -/

/-- All operands broadcast to `S`. -/
def AllFit (S : Shape) (inputs : List (SA α)) (wh : SA Bool) : Prop :=
  (∀ a ∈ inputs, FitsIn a.shape S) ∧ FitsIn wh.shape S

/-- Specification: `r` is `o` with the elements at which the mask is true replaced by the function of the elements of the
inputs with the same names. -/
def Replaces (f : List α → γ) (inputs : List (SA α)) (wh : SA Bool) (o r : SA γ) : Prop :=
  r.WF ∧ r.axes = o.axes ∧ r.shape = o.shape ∧
    ∀ e, r.at' e = if wh.atB e then f (inputs.map (fun a => a.atB e)) else o.at' e

theorem wfs_nominal {inputs : List (UArg α)} (h : ∀ x ∈ inputs, x.Ok) : ∀ a ∈ inputs.map UArg.nominal, a.WF := by
  intro a ha
  obtain ⟨x, hx, rfl⟩ := List.mem_map.1 ha
  exact (h x hx).nominal

theorem wfs_distribution {inputs : List (UArg α)} (h : ∀ x ∈ inputs, x.Ok) : ∀ a ∈ inputs.map UArg.distribution, a.WF := by
  intro a ha
  obtain ⟨x, hx, rfl⟩ := List.mem_map.1 ha
  exact (h x hx).distribution

/-- **C80** (uncertain scalars). If the nominal values of the operands broadcast to the nominal value of the output, and
their samples to its distribution, `ufunc(*inputs, where=wh, out=o)` (also `o += x`) succeeds: nominal value and
distribution of `o` keep their axes and shapes, the nominal value is computed from the nominal values and each sample from
the samples of the same number, where the mask is true; all other elements stay. -/
theorem C80_uncertain (f : List α → γ) (junk : Nat → List Nat → γ) (inputs : List (UArg α)) (hi : ∀ x ∈ inputs, x.Ok)
    (wh : UArg Bool) (hw : wh.Ok) (o : UA γ) (ho : o.Valid)
    (hn : AllFit o.nominal.shape (inputs.map UArg.nominal) wh.nominal)
    (hd : AllFit o.distribution.shape (inputs.map UArg.distribution) wh.distribution) :
    ∃ r, ufuncOut f junk inputs wh o true true = (r, none) ∧ r.Valid ∧
      Replaces f (inputs.map UArg.nominal) wh.nominal o.nominal r.nominal ∧
      Replaces f (inputs.map UArg.distribution) wh.distribution o.distribution r.distribution := by
  rcases SA.C79_out f junk _ wh.nominal o.nominal (wfs_nominal hi) hw.nominal ho.1 with
    ⟨_, n, n1, n2, n3, n4, n5⟩ | ⟨h, _⟩
  swap
  · exact absurd hn h
  rcases SA.C79_out f junk _ wh.distribution o.distribution (wfs_distribution hi) hw.distribution ho.2.1 with
    ⟨_, d, d1, d2, d3, d4, d5⟩ | ⟨h, _⟩
  swap
  · exact absurd hd h
  have hmk : mk? n d = .ok ⟨n, d⟩ := mk?_of_valid n2 (by rw [n3]; exact ho.2.2)
  refine ⟨⟨n, d⟩, ?_, ⟨n2, d2, by rw [n3]; exact ho.2.2⟩, ⟨n2, n3, n4, n5⟩, ⟨d2, d3, d4, d5⟩⟩
  simp only [ufuncOut, partOut, if_true, n1, d1, List.headD_cons, hmk]

/-- **C80** (uncertain scalars, errors). If the nominal values do not broadcast to the nominal value of the output there is a
`ValueError` and nothing changes.  If only the samples do not broadcast to its distribution there is a `ValueError`, and
the distribution does not change, but the nominal value has already been replaced. -/
theorem C80_uncertain_error_partial (f : List α → γ) (junk : Nat → List Nat → γ) (inputs : List (UArg α))
    (hi : ∀ x ∈ inputs, x.Ok) (wh : UArg Bool) (hw : wh.Ok) (o : UA γ) (ho : o.Valid) :
    (¬ AllFit o.nominal.shape (inputs.map UArg.nominal) wh.nominal →
      ufuncOut f junk inputs wh o true true = (o, some .valueError)) ∧
    (AllFit o.nominal.shape (inputs.map UArg.nominal) wh.nominal →
      ¬ AllFit o.distribution.shape (inputs.map UArg.distribution) wh.distribution →
      ∃ n, ufuncOut f junk inputs wh o true true = (⟨n, o.distribution⟩, some .valueError) ∧
        Replaces f (inputs.map UArg.nominal) wh.nominal o.nominal n) := by
  refine ⟨fun h => ?_, fun hn h => ?_⟩
  · rcases SA.C79_out f junk _ wh.nominal o.nominal (wfs_nominal hi) hw.nominal ho.1 with ⟨h', _⟩ | ⟨_, n1⟩
    · exact absurd h' h
    · simp only [ufuncOut, partOut, if_true, n1]
  · rcases SA.C79_out f junk _ wh.nominal o.nominal (wfs_nominal hi) hw.nominal ho.1 with
      ⟨_, n, n1, n2, n3, n4, n5⟩ | ⟨h', _⟩
    swap
    · exact absurd hn h'
    rcases SA.C79_out f junk _ wh.distribution o.distribution (wfs_distribution hi) hw.distribution ho.2.1 with
      ⟨h', _⟩ | ⟨_, d1⟩
    · exact absurd h' h
    refine ⟨n, ?_, n2, n3, n4, n5⟩
    simp only [ufuncOut, partOut, if_true, n1, d1, List.headD_cons]

/-- **C80** (a nominal value which is a number). The nominal value of the output is replaced by the result, which may have
other axes: the shape of the output then changes in place. -/
theorem C80_number_nominal (f : List α → γ) (junk : Nat → List Nat → γ) (inputs : List (UArg α)) (hne : inputs ≠ [])
    (hi : ∀ x ∈ inputs, x.Ok) (o : UA γ) (ho : o.Valid) (S : Shape)
    (hS : broadcastShapes (inputs.map (fun x => x.nominal.shape)) = .ok S) (hSD : axisD ∉ S.keys)
    (hd : AllFit o.distribution.shape (inputs.map UArg.distribution) (SA.scalar true)) :
    ∃ r, ufuncOut f junk inputs (.plain (SA.scalar true)) o false true = (r, none) ∧ r.Valid ∧ r.nominal.shape = S ∧
      (∀ e, r.nominal.at' e = f ((inputs.map UArg.nominal).map (fun a => a.atB e))) ∧
      Replaces f (inputs.map UArg.distribution) (SA.scalar true) o.distribution r.distribution := by
  have hwf : (SA.scalar true).WF := by constructor <;> decide
  have hS' : broadcastShapes ((inputs.map UArg.nominal).map SA.shape) = .ok S := by
    rw [List.map_map]; exact hS
  have hSwf := (broadcastShapes_joinOf (SA.wf_shapes (wfs_nominal hi)) hS').1
  have hbc : broadcastShapes ((inputs.map UArg.nominal).map SA.shape ++ [(SA.scalar true).shape]) = .ok S := by
    rw [SA.bcShape_append (by simpa using hne) hS']
    have : (SA.scalar true).shape = [] := rfl
    rw [this]
    unfold bcShape
    split <;> rfl
  rcases SA.C79_where f junk (inputs.map UArg.nominal) (by simpa using hne) (SA.scalar true) (wfs_nominal hi) hwf S hS' with
    ⟨_, n, n1, n2, n3, n4⟩ | ⟨h, _⟩
  swap
  · exfalso
    rcases h with h | h
    · exact h (by simp [SA.scalar])
    · rw [hbc] at h; cases h
  rw [hbc] at n1
  injection n1 with n1
  rcases SA.C79_out f junk _ (SA.scalar true) o.distribution (wfs_distribution hi) hwf ho.2.1 with
    ⟨_, d, d1, d2, d3, d4, d5⟩ | ⟨h, _⟩
  swap
  · exact absurd hd h
  have hnD : axisD ∉ n.axes := by rw [← SA.keys_shape n3, ← n1]; exact hSD
  have hmk : mk? n d = .ok ⟨n, d⟩ := mk?_of_valid n3 hnD
  refine ⟨⟨n, d⟩, ?_, ⟨n3, d2, hnD⟩, n1.symm, fun e => n4 e rfl, ⟨d2, d3, d4, d5⟩⟩
  simp only [ufuncOut, partOut, UArg.nominal, UArg.distribution, if_true, Bool.false_eq_true, if_false, n2, d1,
    List.headD_cons, hmk]

/-- An uncertain scalar with an array of nominal values, and samples which do not depend on `x`. -/
def exTarget : UA Int := ⟨⟨["x"], ND.ofList [2] [5, 6] 0⟩, ⟨[axisD], ND.ofList [3] [1, 2, 3] 0⟩⟩

/-- `[10, 20]` along `x`. -/
def exAdded : SA Int := ⟨["x"], ND.ofList [2] [10, 20] 0⟩

/-- **C80** (atomic, negation). `u += a` fails because the samples of `u` do not have the axis of `a`; the nominal value of `u` has
been modified nevertheless. -/
theorem C80_uncertain_atomic_refuted : exTarget.Valid ∧ exAdded.WF ∧ ∃ r,
    ufuncOut (fun l => l.sum) (fun _ _ => 0) [.unc exTarget, .plain exAdded] (.plain (SA.scalar true)) exTarget true true =
      (r, some .valueError) ∧ r.nominal.nd.toList = [15, 26] ∧ exTarget.nominal.nd.toList = [5, 6] :=
  ⟨by unfold Valid; decide, by decide, _, rfl, by decide, by decide⟩

/-- an uncertain output whose samples have the axis `x` -/
def exTarget' : UA Int := ⟨⟨["x"], ND.ofList [2] [5, 6] 0⟩, ⟨[axisD, "x"], ND.ofList [2, 2] [1, 2, 3, 4] 0⟩⟩

example : exTarget'.Valid ∧ exAdded.WF := ⟨by unfold Valid; decide, by decide⟩

example : AllFit exTarget'.nominal.shape [exTarget'.nominal, exAdded] (SA.scalar true) ∧
    AllFit exTarget'.distribution.shape [exTarget'.distribution, exAdded] (SA.scalar true) := by
  have h : ∀ (s : Shape), FitsIn s s := fun s ax m h => ⟨m, h, .inl rfl⟩
  have h0 : ∀ (s : Shape), FitsIn (SA.scalar true).shape s := by
    intro s ax m h; exact absurd h (by simp [SA.shape, SA.scalar])
  refine ⟨⟨?_, h0 _⟩, ⟨?_, h0 _⟩⟩
  · intro a ha
    simp only [List.mem_cons, List.not_mem_nil, or_false] at ha
    rcases ha with rfl | rfl <;> exact h _
  · intro a ha
    simp only [List.mem_cons, List.not_mem_nil, or_false] at ha
    rcases ha with rfl | rfl
    · exact h _
    · intro ax m hm
      have : exAdded.shape = [("x", 2)] := by decide
      rw [this, get?_cons] at hm
      split at hm
      next hx => subst hx; injection hm with hm; subst hm; exact ⟨2, by decide, .inl rfl⟩
      · cases hm

example : (fun r : UA Int × Option Err => (r.1.nominal.nd.toList, r.1.distribution.nd.toList, r.2))
    (ufuncOut (fun l => l.sum) (fun _ _ => 0) [.unc exTarget', .plain exAdded] (.plain (SA.scalar true)) exTarget' true true) =
    ([15, 26], [11, 22, 13, 24], none) := by decide

end UA

namespace Comp
variable {α : Type}

/-! ### Vectors -/

/-- Specification: the scalar component `a` at path `p` becomes `b` by the operation in place with its part of `w`. -/
def Updated (f : α → α → α) (w : Comp (Part α)) (p : List String) (a b : Part α) : Prop :=
  ∃ y, w.leafB p = some y ∧ leafInplace f y a = .ok b

theorem inplaceL_any {f : α → α → α} {ws : Dict (Comp (Part α))} (l : List (String × Comp (Part α)))
    (ih : ∀ q ∈ l, ∀ (w r : Comp (Part α)) (e : Option Err), q.2.inplace f w = (r, e) →
      q.2.Lift (fun _ _ => True) r ∧
      ∀ p a, q.2.leafAt p = some a → (r.leafAt p = some a ∧ e ≠ none) ∨ ∃ b, Updated f w p a b ∧ r.leafAt p = some b)
    (r : List (String × Comp (Part α))) (e : Option Err) (h : inplaceL f l ws = (r, e)) :
    LiftL (fun _ _ => True) l r ∧
    ∀ k c, get? l k = some c → ∃ c', get? r k = some c' ∧ ∀ p a, c.leafAt p = some a →
      (c'.leafAt p = some a ∧ e ≠ none) ∨
      ∃ w b, get? ws k = some w ∧ Updated f w p a b ∧ c'.leafAt p = some b := by
  induction l generalizing r e with
  | nil =>
    simp only [inplaceL] at h
    cases h
    exact ⟨by simp [LiftL], by simp [get?]⟩
  | cons q l ih' =>
    obtain ⟨k0, c0⟩ := q
    simp only [inplaceL] at h
    split at h
    next w hv =>
      have hc0 := ih (k0, c0) (by simp) w
      split at h
      next c' e' hs =>
        cases h
        obtain ⟨h1, h2⟩ := hc0 _ _ hs
        refine ⟨⟨rfl, h1, liftL_refl (fun _ => trivial) l⟩, fun k c hk => ?_⟩
        simp only [get?_cons] at hk ⊢
        by_cases hkk : k0 = k
        · subst hkk
          simp only [if_true, Option.some.injEq] at hk
          subst hk
          refine ⟨c', by simp, fun p a hp => ?_⟩
          rcases h2 p a hp with ⟨h3, _⟩ | ⟨b, h3, h4⟩
          · exact .inl ⟨h3, by simp⟩
          · exact .inr ⟨w, b, hv, h3, h4⟩
        · rw [if_neg hkk] at hk ⊢
          exact ⟨c, hk, fun p a hp => .inl ⟨hp, by simp⟩⟩
      next c' hs =>
        cases h
        obtain ⟨h1, h2⟩ := hc0 _ _ hs
        obtain ⟨h5, h6⟩ := ih' (fun q hq => ih q (List.mem_cons_of_mem _ hq)) _ _ rfl
        refine ⟨⟨rfl, h1, h5⟩, fun k c hk => ?_⟩
        simp only [get?_cons] at hk ⊢
        by_cases hkk : k0 = k
        · subst hkk
          simp only [if_true, Option.some.injEq] at hk
          subst hk
          refine ⟨c', by simp, fun p a hp => ?_⟩
          rcases h2 p a hp with ⟨h3, h4⟩ | ⟨b, h3, h4⟩
          · exact absurd rfl h4
          · exact .inr ⟨w, b, hv, h3, h4⟩
        · rw [if_neg hkk] at hk ⊢
          exact h6 k c hk
    · cases h
      exact ⟨liftL_refl (fun _ => trivial) _, fun k c hk => ⟨c, hk, fun p a hp => .inl ⟨hp, by simp⟩⟩⟩

/-- Whatever the outcome: each scalar is unchanged or updated, and updated if there is no error. -/
theorem inplace_any {f : α → α → α} : ∀ (v : Comp (Part α)), v.Dicts → ∀ (w r : Comp (Part α)) (e : Option Err),
    v.inplace f w = (r, e) →
    v.Lift (fun _ _ => True) r ∧
    ∀ p a, v.leafAt p = some a → (r.leafAt p = some a ∧ e ≠ none) ∨ ∃ b, Updated f w p a b ∧ r.leafAt p = some b := by
  refine ind ?_ ?_
  · intro a _ w r e h
    cases w with
    | node cls cs =>
      simp only [inplace] at h
      cases h
      exact ⟨by simp [Lift], fun p a' hp => .inl ⟨hp, by simp⟩⟩
    | leaf b =>
      simp only [inplace] at h
      cases hl : leafInplace f b a with
      | error e' =>
        rw [hl] at h
        cases h
        exact ⟨by simp [Lift], fun p a' hp => .inl ⟨hp, by simp⟩⟩
      | ok b' =>
        rw [hl] at h
        cases h
        refine ⟨by simp [Lift], fun p a' hp => ?_⟩
        cases p with
        | cons k p => simp [leafAt] at hp
        | nil =>
          simp only [leafAt, Option.some.injEq] at hp
          subst hp
          exact .inr ⟨b', ⟨b, rfl, hl⟩, rfl⟩
  · intro cls cs ih hd w r e h
    obtain ⟨hw, hdL⟩ := hd
    have hrefl : LiftL (fun _ _ => True) cs cs := liftL_refl (fun _ => trivial) cs
    rw [inplace.eq_def] at h
    dsimp only at h
    cases hv : componentsOf cls (keys cs) w with
    | error e' =>
      rw [hv] at h
      cases h
      exact ⟨⟨rfl, hrefl⟩, fun p a hp => .inl ⟨hp, by simp⟩⟩
    | ok ws =>
      rw [hv] at h
      dsimp only at h
      cases h
      obtain ⟨h1, h2⟩ := inplaceL_any cs (fun q hq => ih q hq (dictsL_mem hdL q hq)) _ _ (rfl : inplaceL f cs ws = _)
      refine ⟨⟨rfl, h1⟩, fun p a hp => ?_⟩
      cases p with
      | nil => simp [leafAt] at hp
      | cons k p =>
        simp only [leafAt] at hp ⊢
        cases hk : get? cs k with
        | none => rw [hk] at hp; cases hp
        | some c =>
          rw [hk] at hp
          obtain ⟨c', hc', h3⟩ := h2 k c hk
          rw [hc']
          rcases h3 p a hp with h4 | ⟨x, b, h4, ⟨y, h5, h6⟩, h9⟩
          · exact .inl h4
          · exact .inr ⟨b, ⟨y, by rw [← componentsOf_at hv h4]; exact h5, h6⟩, h9⟩

theorem inplace_isOk {f : α → α → α} : ∀ (v : Comp (Part α)), v.Dicts → ∀ (w : Comp (Part α)), v.Accepts w →
    (∀ p a, v.leafAt p = some a → ∃ b, Updated f w p a b) → ∃ r, v.inplace f w = (r, none) := by
  refine ind ?_ ?_
  · intro a _ w hv h
    cases w with
    | node cls cs => simp [Accepts] at hv
    | leaf b =>
      obtain ⟨b', y, hy, hb⟩ := h [] a rfl
      simp only [leafB, Option.some.injEq] at hy
      subst hy
      exact ⟨.leaf b', by simp only [inplace, hb]⟩
  · intro cls cs ih hd w hv h
    obtain ⟨hw, hdL⟩ := hd
    obtain ⟨ws, hv1, hv2⟩ := componentsOf_accepts hv
    have key : ∀ l, (∀ q ∈ l, q ∈ cs) → ∃ r, inplaceL f l ws = (r, none) := by
      intro l
      induction l with
      | nil => exact fun _ => ⟨[], rfl⟩
      | cons q l ih' =>
        intro hsub
        obtain ⟨k, c⟩ := q
        have hq := hsub (k, c) (by simp)
        obtain ⟨x, h3, h4⟩ := hv2 _ hq
        obtain ⟨r, hr⟩ := ih _ hq (dictsL_mem hdL _ hq) x h4 (by
          intro p a hp
          have hg : get? cs k = some c := get?_of_mem hw hq
          obtain ⟨b, y, h5, h6⟩ := h (k :: p) a (by simpa [leafAt, hg] using hp)
          exact ⟨b, y, by rw [componentsOf_at hv1 h3]; exact h5, h6⟩)
        obtain ⟨r', hr'⟩ := ih' (fun q hq => hsub q (List.mem_cons_of_mem _ hq))
        simp only at h3 hr
        exact ⟨(k, r) :: r', by simp only [inplaceL, h3, hr, hr']⟩
    obtain ⟨r, hr⟩ := key cs (fun _ h => h)
    refine ⟨.node cls r, ?_⟩
    rw [inplace.eq_def]
    simp only [hv1, hr]

/-- **C80** (vectors). If `w` is a scalar, or a vector like `v` (the same types and component names), and the components of `v`
are named arrays to which the corresponding components of `w` broadcast, then `v += w` succeeds: `v` keeps its type, its components
and all their axes and shapes, and every element is combined with the element of the corresponding component of `w` with
the same names. -/
theorem C80_vector_partial (f : α → α → α) (v w : Comp (Part α)) (hd : v.Dicts) (hacc : v.Accepts w)
    (h : ∀ p a, v.leafAt p = some a → ∃ x y, a = .named x ∧ w.leafB p = some y ∧ x.WF ∧ y.array.WF ∧
      FitsIn y.array.shape x.shape) :
    ∃ r, v.inplace f w = (r, none) ∧ v.Lift (fun _ _ => True) r ∧
      ∀ p x y, v.leafAt p = some (.named x) → w.leafB p = some y → ∃ z, r.leafAt p = some (.named z) ∧ z.WF ∧
        z.axes = x.axes ∧ z.shape = x.shape ∧ ∀ e, InRange x.shape e → z.at' e = f (x.at' e) (y.array.atB e) := by
  have hrun : ∀ x y : SA α, x.WF → y.WF → FitsIn y.shape x.shape → ∃ z, SA.inplace f x y = .ok z ∧ z.WF ∧
      z.axes = x.axes ∧ z.shape = x.shape ∧ ∀ e, InRange x.shape e → z.at' e = f (x.at' e) (y.atB e) := by
    intro x y hx hy hfit
    rcases SA.C79_in_place f x y hx hy with ⟨_, r⟩ | ⟨hn, _⟩
    · exact r
    · exact absurd hfit hn
  obtain ⟨r, hr⟩ := inplace_isOk (f := f) v hd w hacc (by
    intro p a hp
    obtain ⟨x, y, rfl, hy, hx, hyw, hfit⟩ := h p a hp
    obtain ⟨z, hz, _⟩ := hrun x y.array hx hyw hfit
    exact ⟨.named z, y, hy, by simp only [leafInplace, bind, Except.bind, hz]⟩)
  obtain ⟨h1, h2⟩ := inplace_any v hd w r none hr
  refine ⟨r, hr, h1, fun p x y hp hy => ?_⟩
  obtain ⟨x', y', he, hy', hx, hyw, hfit⟩ := h p _ hp
  injection he with he
  subst he
  rw [hy] at hy'
  injection hy' with hy'
  subst hy'
  obtain ⟨z, hz, hz'⟩ := hrun x y.array hx hyw hfit
  rcases h2 p _ hp with ⟨_, hn⟩ | ⟨b, ⟨y', hy', hb⟩, hrb⟩
  · exact absurd rfl hn
  · rw [hy] at hy'
    injection hy' with hy'
    subst hy'
    simp only [leafInplace, bind, Except.bind, hz, Except.ok.injEq] at hb
    subst hb
    exact ⟨z, hrb, hz'⟩

/-- **C80** (vectors, any outcome). After `v += w` the vector has the type and the components it had, and each scalar
component is unchanged or completely updated; without an error all of them are updated. -/
theorem C80_vector_effects (f : α → α → α) (v w r : Comp (Part α)) (hd : v.Dicts) (e : Option Err)
    (h : v.inplace f w = (r, e)) :
    v.Lift (fun _ _ => True) r ∧
    ∀ p a, v.leafAt p = some a → (r.leafAt p = some a ∧ e ≠ none) ∨
      ∃ x y z, a = .named x ∧ w.leafB p = some y ∧ SA.inplace f x y.array = .ok z ∧ r.leafAt p = some (.named z) := by
  obtain ⟨h1, h2⟩ := inplace_any v hd w r e h
  refine ⟨h1, fun p a hp => ?_⟩
  rcases h2 p a hp with h3 | ⟨b, ⟨y, hy, hb⟩, hrb⟩
  · exact .inl h3
  · right
    cases a with
    | number x => cases hb
    | named x =>
      simp only [leafInplace, bind, Except.bind] at hb
      cases hz : SA.inplace f x y.array with
      | error e => rw [hz] at hb; cases hb
      | ok z =>
        rw [hz] at hb
        simp only [Except.ok.injEq] at hb
        subst hb
        exact ⟨x, y, z, rfl, hy, hz, hrb⟩

/-- **C80** (type mismatch). A vector of another type is a `TypeError`, and nothing changes. -/
theorem C80_type_error (f : α → α → α) (cls cls' : String) (cs cs' : List (String × Comp (Part α))) (h : cls' ≠ cls) :
    (Comp.node cls cs).inplace f (.node cls' cs') = (.node cls cs, some .typeError) := by
  rw [inplace.eq_def]
  simp only [componentsOf, if_neg h]

/-- **C80** (missing component). If the first component of `v` is missing in `w` there is a `KeyError`, and nothing changes. -/
theorem C80_missing_component (f : α → α → α) (cls k : String) (c : Comp (Part α)) (cs cs' : List (String × Comp (Part α)))
    (h : k ∉ keys cs') :
    (Comp.node cls ((k, c) :: cs)).inplace f (.node cls cs') = (.node cls ((k, c) :: cs), some .keyError) := by
  rw [inplace.eq_def]
  simp only [componentsOf, if_true, inplaceL, get?_eq_none.2 h]

/-- **C80** (scalar output). A scalar array cannot take the result of an operation with a vector: an `AttributeError`. -/
theorem C80_scalar_output (f : α → α → α) (a : Part α) (cls : String) (cs : List (String × Comp (Part α))) :
    (Comp.leaf a).inplace f (.node cls cs) = (.leaf a, some .other) := by
  rw [inplace.eq_def]

/-- `[1, 2]` along `x` and `[3, 4]` along `y`. -/
def exMixed : Comp (Part Int) := .node "Cartesian2dVectorArray"
  [("x", .leaf (.named ⟨["x"], ND.ofList [2] [1, 2] 0⟩)), ("y", .leaf (.named ⟨["y"], ND.ofList [2] [3, 4] 0⟩))]

/-- `[10, 20]` along `x`. -/
def exAlongX : Comp (Part Int) := .leaf (.named ⟨["x"], ND.ofList [2] [10, 20] 0⟩)

/-- The elements of the components of a vector of named arrays. -/
def elements : Comp (Part α) → List (List α)
  | .leaf (.named a) => [a.nd.toList]
  | .leaf (.number x) => [[x]]
  | .node _ cs => cs.flatMap (fun p => match p with
    | (_, .leaf (.named a)) => [a.nd.toList]
    | (_, .leaf (.number x)) => [[x]]
    | _ => [])

/-- **C80** (vectors, negation of atomicity). `v += a` fails because the component `y` of `v` does not have the axis of `a`, although
`v` as a whole does; the component `x` has been modified nevertheless. -/
theorem C80_vector_atomic_refuted : ∃ r, exMixed.inplace (· + ·) exAlongX = (r, some .valueError) ∧
    elements r = [[11, 22], [3, 4]] ∧ elements exMixed = [[1, 2], [3, 4]] :=
  ⟨_, rfl, by decide, by decide⟩

/-- **C80** (numbers as components, negation). A vector whose components are plain numbers cannot be modified in place: `v += 1` is
a `TypeError`. -/
theorem C80_number_refuted (f : α → α → α) (x y z : α) :
    (Comp.node "Cartesian2dVectorArray" [("x", .leaf (.number x)), ("y", .leaf (.number y))]).inplace f (.leaf (.number z)) =
      (.node "Cartesian2dVectorArray" [("x", .leaf (.number x)), ("y", .leaf (.number y))], some .typeError) := rfl

example : (fun r : Comp (Part Int) × Option Err => (elements r.1, r.2)) (exMixed.inplace (· * ·) exMixed) =
    ([[1, 4], [9, 16]], none) := by decide

example : exMixed.Dicts ∧ exMixed.Accepts exMixed :=
  ⟨⟨by decide, trivial, trivial, trivial⟩, rfl, ⟨_, rfl, trivial⟩, ⟨_, rfl, trivial⟩, trivial⟩

end Comp
end NA
