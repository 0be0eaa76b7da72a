import Verif.Uncertain.Space
import Verif.Props.Uncertain
import Verif.Props.Spaces

/-!
# Linear spaces between uncertain ends (C116)

The nominal values of the points lie between the nominal ends, and each sample of the points between the samples of the ends.
-/

namespace NA
open Dict
open SA (InRange)
namespace UA
variable {α β γ : Type}

/-! ### Helpers -/

theorem ufunc2_noD {f : α → β → γ} {a : SA α} {b : SA β} {r : SA γ} (ha : a.WF) (hb : b.WF) (h : SA.ufunc2 f a b = .ok r) (hna : axisD ∉ a.axes)
    (hnb : axisD ∉ b.axes) : r.WF ∧ axisD ∉ r.axes := by
  obtain ⟨h1, h2, _⟩ := SA.ufunc2_ok ha hb h
  refine ⟨h1, fun hx => ?_⟩
  obtain ⟨_, h3, _⟩ := C01_broadcast_shapes_ok _ (SA.wf_pair ha hb) _ h2
  rw [← SA.keys_shape h1, h3] at hx
  obtain ⟨s, hs, hx⟩ := hx
  simp only [List.mem_cons, List.not_mem_nil, or_false] at hs
  rcases hs with rfl | rfl
  · exact hna (by rwa [SA.keys_shape ha] at hx)
  · exact hnb (by rwa [SA.keys_shape hb] at hx)

/-- A ufunc computes the nominal value and the samples separately. -/
theorem ufunc2_eq {f : α → β → γ} {x : UArg α} {y : UArg β} {n d : SA γ} (hx : x.Ok) (hy : y.Ok) (hrx : ¬ x.Reserved) (hry : ¬ y.Reserved)
    (hn : SA.ufunc2 f x.nominal y.nominal = .ok n) (hd : SA.ufunc2 f x.distribution y.distribution = .ok d) :
    ufunc2 f x y = .ok ⟨n, d⟩ ∧ (UArg.unc ⟨n, d⟩).Ok ∧ ¬ (UArg.unc (⟨n, d⟩ : UA γ)).Reserved := by
  obtain ⟨h1, h2⟩ := ufunc2_noD hx.nominal hy.nominal hn (fun h => hrx ((UArg.reserved_iff hx).2 h)) (fun h => hry ((UArg.reserved_iff hy).2 h))
  obtain ⟨h3, _⟩ := SA.ufunc2_ok hx.distribution hy.distribution hd
  refine ⟨?_, ⟨h1, h3, h2⟩, id⟩
  simp only [ufunc2, hn, hd, bind, Except.bind]
  exact mk?_of_valid h1 h2

section
variable {K : Type} [Field K]

theorem ok_scalar (x : K) : (UArg.plain (SA.scalar x)).Ok ∧ ¬ (UArg.plain (SA.scalar x)).Reserved :=
  ⟨⟨rfl, List.nodup_nil⟩, by simp [UArg.Reserved, SA.scalar]⟩

theorem step_eq {start stop : UArg K} {num : Int} {endpoint centers : Bool} {n d : SA K} (hx : start.Ok) (hy : stop.Ok) (hrx : ¬ start.Reserved)
    (hry : ¬ stop.Reserved) (hn : SA.step start.nominal stop.nominal num endpoint centers = .ok n)
    (hd : SA.step start.distribution stop.distribution num endpoint centers = .ok d) :
    step start stop num endpoint centers = .ok ⟨n, d⟩ ∧ (UArg.unc ⟨n, d⟩).Ok ∧ ¬ (UArg.unc (⟨n, d⟩ : UA K)).Reserved := by
  unfold step
  simp only [SA.step, bind, Except.bind] at hn hd ⊢
  generalize (if centers = true then (if endpoint = true then num - 1 else num) + 1 else if endpoint = true then num - 1 else num) = m at hn hd ⊢
  split at hn
  · cases hn
  · next vn h1 =>
    split at hd
    · cases hd
    · next vd h2 =>
      split at hn
      · cases hn
      · next h0 =>
        rw [if_neg h0] at hd
        obtain ⟨q1, q2, q3⟩ := ufunc2_eq hy hx hry hrx h1 h2
        obtain ⟨p1, p2, p3⟩ := ufunc2_eq (x := .unc ⟨vn, vd⟩) q2 (ok_scalar _).1 q3 (ok_scalar _).2 hn hd
        refine ⟨?_, p2, p3⟩
        simp only [q1]
        rw [if_neg h0]
        exact p1

theorem linspace_eq {start stop : UArg K} {axis : String} {num : Int} {endpoint centers : Bool} {n d : SA K} (hx : start.Ok) (hy : stop.Ok)
    (hrx : ¬ start.Reserved) (hry : ¬ stop.Reserved) (hn : SA.linspace start.nominal stop.nominal axis num endpoint centers = .ok n)
    (hd : SA.linspace start.distribution stop.distribution axis num endpoint centers = .ok d) :
    linspace start stop axis num endpoint centers = mk? n d := by
  cases centers with
  | false =>
    simp only [SA.linspace, Bool.false_eq_true, if_false] at hn hd
    simp only [linspace, Bool.false_eq_true, if_false, npLinspace, hn, hd, bind, Except.bind]
  | true =>
    simp only [SA.linspace, if_true, bind, Except.bind] at hn hd
    split at hn
    · cases hn
    · next wn h1 =>
    split at hn
    · cases hn
    · next hn' h2 =>
    split at hn
    · cases hn
    · next an h3 =>
    split at hn
    · cases hn
    · next bn h4 =>
    split at hd
    · cases hd
    · next wd k1 =>
    split at hd
    · cases hd
    · next hd' k2 =>
    split at hd
    · cases hd
    · next ad k3 =>
    split at hd
    · cases hd
    · next bd k4 =>
    obtain ⟨q1, q2, q3⟩ := step_eq hx hy hrx hry h1 k1
    obtain ⟨p1, p2, p3⟩ := ufunc2_eq (x := .unc ⟨wn, wd⟩) q2 (ok_scalar 2).1 q3 (ok_scalar 2).2 h2 k2
    obtain ⟨s1, s2, s3⟩ := ufunc2_eq (y := .unc ⟨hn', hd'⟩) hx p2 hrx p3 h3 k3
    obtain ⟨t1, t2, t3⟩ := ufunc2_eq (y := .unc ⟨hn', hd'⟩) hy p2 hry p3 h4 k4
    simp only [linspace, if_true, q1, p1, s1, t1, bind, Except.bind, npLinspace, UArg.nominal, UArg.distribution, hn, hd]

variable [LinearOrder K] [IsStrictOrderedRing K]

omit [Field K] [LinearOrder K] [IsStrictOrderedRing K] in
theorem nominalAt_eq (x : UArg K) (e : String → Nat) : x.nominalAt e = x.nominal.atB e := by cases x <;> rfl
omit [Field K] [LinearOrder K] [IsStrictOrderedRing K] in
theorem sampleAt_eq (x : UArg K) (k : Nat) (e : String → Nat) : x.sampleAt k e = x.distribution.atB (Function.update e axisD k) := by
  cases x <;> rfl

/-! ### The properties -/

/-- **C116** The linear space between two ends: its nominal values are equidistant points between the nominal ends, and the `k`-th sample of its points
are equidistant points between the `k`-th samples of the ends, at every index. -/
theorem C116_linspace (start stop : UArg K) (hx : start.Ok) (hy : stop.Ok) (hrx : ¬ start.Reserved) (hry : ¬ stop.Reserved) (S SD : Shape)
    (hS : broadcastShapes [start.nominal.shape, stop.nominal.shape] = .ok S)
    (hSD : broadcastShapes [start.distribution.shape, stop.distribution.shape] = .ok SD) (axis : String) (hD : axis ≠ axisD) (hax : axis ∉ keys S)
    (haxD : axis ∉ keys SD) (n : Nat) (endpoint centers : Bool) (hc : centers = true → cells n endpoint centers ≠ 0) :
    ∃ r, linspace start stop axis n endpoint centers = .ok r ∧ r.Valid ∧
      (∀ ax, get? r.nominal.shape ax = if ax = axis then some n else get? S ax) ∧
      (∀ ax, get? r.distribution.shape ax = if ax = axis then some n else get? SD ax) ∧
      (∀ e, InRange r.nominal.shape e →
        let w := spacing n endpoint centers (start.nominalAt e) (stop.nominalAt e)
        r.nominalAt e = start.nominalAt e + (if centers then w / 2 else 0) + (e axis : K) * w) ∧
      ∀ k e, InRange r.distribution.shape (Function.update e axisD k) →
        let w := spacing n endpoint centers (start.sampleAt k e) (stop.sampleAt k e)
        r.sampleAt k e = start.sampleAt k e + (if centers then w / 2 else 0) + (e axis : K) * w := by
  obtain ⟨rn, a1, a2, a3, a4⟩ := C33_linspace _ _ hx.nominal hy.nominal S hS axis hax n endpoint centers hc
  obtain ⟨rd, b1, b2, b3, b4⟩ := C33_linspace _ _ hx.distribution hy.distribution SD hSD axis haxD n endpoint centers hc
  have hno : axisD ∉ rn.axes := by
    intro h
    rw [← SA.keys_shape a2] at h
    obtain ⟨m, hm⟩ := exists_get?_of_mem h
    rw [a3, if_neg (Ne.symm hD)] at hm
    obtain ⟨_, h3, _⟩ := C01_broadcast_shapes_ok _ (SA.wf_pair hx.nominal hy.nominal) _ hS
    obtain ⟨s, hs, h4⟩ := (h3 axisD).1 (mem_keys_of_get? hm)
    simp only [List.mem_cons, List.not_mem_nil, or_false] at hs
    rcases hs with rfl | rfl
    · exact hrx ((UArg.reserved_iff hx).2 (by rwa [SA.keys_shape hx.nominal] at h4))
    · exact hry ((UArg.reserved_iff hy).2 (by rwa [SA.keys_shape hy.nominal] at h4))
  refine ⟨⟨rn, rd⟩, ?_, ⟨a2, b2, hno⟩, a3, b3, fun e he => ?_, fun k e he => ?_⟩
  · rw [linspace_eq hx hy hrx hry a1 b1]
    exact mk?_of_valid a2 hno
  · simp only [nominalAt_eq]
    change rn.atB e = _
    rw [SA.atB_eq_at' a2 he]
    exact a4 e he
  · simp only [sampleAt_eq]
    change rd.atB (Function.update e axisD k) = _
    rw [SA.atB_eq_at' b2 he, b4 _ he, Function.update_of_ne hD]

/-- **C116** The step of a linear space is the distance of its consecutive points, for the nominal values and for every sample. -/
theorem C116_step (start stop : UArg K) (hx : start.Ok) (hy : stop.Ok) (hrx : ¬ start.Reserved) (hry : ¬ stop.Reserved) (S SD : Shape)
    (hS : broadcastShapes [start.nominal.shape, stop.nominal.shape] = .ok S)
    (hSD : broadcastShapes [start.distribution.shape, stop.distribution.shape] = .ok SD) (axis : String) (hD : axis ≠ axisD) (hax : axis ∉ keys S)
    (haxD : axis ∉ keys SD) (n : Nat) (endpoint centers : Bool) (hc : cells n endpoint centers ≠ 0) :
    ∃ w r, step start stop n endpoint centers = .ok w ∧ linspace start stop axis n endpoint centers = .ok r ∧ w.Valid ∧
      Same w.nominal.shape S ∧ Same w.distribution.shape SD ∧
      (∀ e, InRange r.nominal.shape e → e axis + 1 < n →
        r.nominalAt (Function.update e axis (e axis + 1)) - r.nominalAt e = w.nominalAt e) ∧
      ∀ k e, InRange r.distribution.shape (Function.update e axisD k) → e axis + 1 < n →
        r.sampleAt k (Function.update e axis (e axis + 1)) - r.sampleAt k e = w.sampleAt k e := by
  obtain ⟨r, r1, r2, r3, r4, _⟩ := C116_linspace start stop hx hy hrx hry S SD hS hSD axis hD hax haxD n endpoint centers (fun _ => hc)
  obtain ⟨wn, rn, a1, a2, a3, a4, _, a5⟩ := C33_step _ _ hx.nominal hy.nominal S hS axis hax n endpoint centers hc
  obtain ⟨wd, rd, b1, b2, b3, b4, _, b5⟩ := C33_step _ _ hx.distribution hy.distribution SD hSD axis haxD n endpoint centers hc
  obtain ⟨w1, w2, _⟩ := step_eq hx hy hrx hry a1 b1
  obtain ⟨rn', c1, c2, _⟩ := C33_linspace _ _ hx.nominal hy.nominal S hS axis hax n endpoint centers (fun _ => hc)
  rw [a2] at c1
  cases c1
  have hr : r = ⟨rn, rd⟩ := by
    rw [linspace_eq hx hy hrx hry a2 b2] at r1
    exact (mk?_ok c2 r1).1
  subst hr
  have shift : ∀ (A : Shape) (e : String → Nat) (x : SA K), (∀ ax, get? x.shape ax = if ax = axis then some n else get? A ax) → InRange x.shape e →
      e axis + 1 < n → InRange x.shape (Function.update e axis (e axis + 1)) := by
    intro A e x h he hlt ax m hm
    by_cases hh : ax = axis
    · subst hh
      rw [h, if_pos rfl] at hm
      cases hm
      simpa using hlt
    · rw [Function.update_of_ne hh]
      exact he ax m hm
  have small : ∀ (A : Shape) (e : String → Nat) (x w : SA K), (∀ ax, get? x.shape ax = if ax = axis then some n else get? A ax) → axis ∉ keys A →
      Same w.shape A → InRange x.shape e → InRange w.shape e := by
    intro A e x w h hA hw he ax m hm
    rw [hw ax] at hm
    refine he ax m ?_
    rw [h, if_neg, hm]
    rintro rfl
    exact hA (mem_keys_of_get? hm)
  refine ⟨⟨wn, wd⟩, ⟨rn, rd⟩, w1, r1, w2, a4, b4, fun e he hlt => ?_, fun k e he hlt => ?_⟩
  · change rn.atB _ - rn.atB e = wn.atB e
    rw [SA.atB_eq_at' r2.1 he, SA.atB_eq_at' r2.1 (shift S e rn r3 he hlt), SA.atB_eq_at' a3 (small S e rn wn r3 hax a4 he)]
    exact a5 e he hlt
  · change rd.atB _ - rd.atB _ = wd.atB _
    have hlt' : (Function.update e axisD k) axis + 1 < n := by rw [Function.update_of_ne hD]; exact hlt
    have hcomm : Function.update (Function.update e axis (e axis + 1)) axisD k =
        Function.update (Function.update e axisD k) axis ((Function.update e axisD k) axis + 1) := by
      rw [Function.update_comm (Ne.symm hD), Function.update_of_ne hD]
    rw [hcomm, SA.atB_eq_at' r2.2.1 he, SA.atB_eq_at' r2.2.1 (shift SD _ rd r4 he hlt'),
      SA.atB_eq_at' b3 (small SD _ rd wd r4 haxD b4 he)]
    exact b5 _ he hlt'

/-- **C116** An axis of the ends, or the axis of the samples, raises a `ValueError`. -/
theorem C116_error (start stop : UArg K) (hx : start.Ok) (hy : stop.Ok) (S SD : Shape)
    (hS : broadcastShapes [start.nominal.shape, stop.nominal.shape] = .ok S)
    (hSD : broadcastShapes [start.distribution.shape, stop.distribution.shape] = .ok SD) (axis : String)
    (h : axis = axisD ∨ axis ∈ keys S ∨ axis ∈ keys SD) (n : Nat) (endpoint : Bool) :
    linspace start stop axis n endpoint false = .error .valueError := by
  simp only [linspace, Bool.false_eq_true, if_false, npLinspace]
  by_cases h1 : axis ∈ keys S
  · have := C33_linspace_axis _ _ hx.nominal hy.nominal S hS axis h1 n endpoint
    simp only [SA.linspace, Bool.false_eq_true, if_false] at this
    rw [this]
    rfl
  · obtain ⟨rn, a1, a2, a3, _⟩ := C33_linspace _ _ hx.nominal hy.nominal S hS axis h1 n endpoint false (by simp)
    simp only [SA.linspace, Bool.false_eq_true, if_false] at a1
    rw [a1]
    by_cases h2 : axis ∈ keys SD
    · have := C33_linspace_axis _ _ hx.distribution hy.distribution SD hSD axis h2 n endpoint
      simp only [SA.linspace, Bool.false_eq_true, if_false] at this
      simp only [bind, Except.bind]
      rw [this]
    · obtain ⟨rd, b1, _⟩ := C33_linspace _ _ hx.distribution hy.distribution SD hSD axis h2 n endpoint false (by simp)
      simp only [SA.linspace, Bool.false_eq_true, if_false] at b1
      simp only [bind, Except.bind]
      rw [b1]
      have hd : axis = axisD := by tauto
      change mk? rn rd = _
      unfold mk?
      rw [if_pos (mem_keys_of_get? (by rw [a3, if_pos hd.symm]))]
end

/-! ### Examples -/

/-- An end at 0 with the samples -1, 0 and 1. -/
def exUncertainEnd : UA ℚ := ⟨SA.scalar 0, ⟨[axisD], ⟨[3], fun i => (i.headD 0 : ℚ) - 1⟩⟩⟩

/-- The assumptions can be met: from an uncertain end to the number 4 in five points, the last sample in steps of 3/4. -/
example : ∃ w r, step (.unc exUncertainEnd) (.plain (SA.scalar 4)) (5 : Nat) true false = .ok w ∧
    linspace (.unc exUncertainEnd) (.plain (SA.scalar 4)) "x" (5 : Nat) true false = .ok r ∧ w.Valid ∧ w.sampleAt 2 (fun _ => 0) = 3 / 4 := by
  obtain ⟨w, r, h1, h2, h3, _⟩ := C116_step (K := ℚ) (.unc exUncertainEnd) (.plain (SA.scalar 4)) ⟨⟨rfl, List.nodup_nil⟩, ⟨rfl, by simp [exUncertainEnd]⟩,
      by simp [exUncertainEnd, SA.scalar]⟩ (ok_scalar 4).1 id (ok_scalar 4).2 [] [(axisD, 3)] rfl (by rfl) "x" (by decide) (by simp [keys])
      (by simp [keys, axisD]) 5 true false (by decide)
  refine ⟨w, r, h1, h2, h3, ?_⟩
  have : (step (.unc exUncertainEnd) (.plain (SA.scalar 4)) (5 : Nat) true false).toOption.map (fun w => w.sampleAt 2 (fun _ => 0)) = some (3 / 4) := by
    decide +kernel
  rw [h1] at this
  simpa [Except.toOption] using this

/-- ... and the axis of the samples is rejected. -/
example : linspace (.unc exUncertainEnd) (.plain (SA.scalar 4)) axisD (5 : Nat) true false = .error .valueError :=
  C116_error (K := ℚ) (.unc exUncertainEnd) (.plain (SA.scalar 4)) ⟨⟨rfl, List.nodup_nil⟩, ⟨rfl, by simp [exUncertainEnd]⟩,
      by simp [exUncertainEnd, SA.scalar]⟩ (ok_scalar 4).1 [] [(axisD, 3)] rfl (by rfl) axisD (.inl rfl) 5 true
end UA
end NA
