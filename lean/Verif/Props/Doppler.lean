import Verif.Vector.Doppler
import Verif.Scalar.Arith
import Mathlib.Tactic.FieldSimp
import Mathlib.Tactic.Ring

/-!
# Doppler shifts (C55)
-/

namespace NA
open Dict
open SA (FitsIn InRange)

namespace Doppler
variable {K : Type} [Field K]

/-! ### Specification -/

/-- No element vanishes (read at the indices of the broadcast shape `S`). -/
def NoZero (S : Shape) (a : SA K) : Prop := ∀ e, InRange S e → a.atB e ≠ 0

/-- `r` is `a`, possibly broadcast further: it fits in the shape, and has the element of `a` at each index. -/
def Repeats (S : Shape) (a r : SA K) : Prop := Fits S r ∧ FitsIn a.shape r.shape ∧ ∀ e, InRange S e → r.atB e = a.atB e

/-! ### Helpers -/

theorem fitsIn_trans {a b c : Shape} (h1 : FitsIn a b) (h2 : FitsIn b c) : FitsIn a c := by
  intro ax m hm
  obtain ⟨n, hn, h⟩ := h1 ax m hm
  obtain ⟨k, hk, h'⟩ := h2 ax n hn
  exact ⟨k, hk, by omega⟩

theorem ufunc2_grow {S : Shape} (f : K → K → K) {a b : SA K} (ha : Fits S a) (hb : Fits S b) :
    ∃ c, SA.ufunc2 f a b = .ok c ∧ Fits S c ∧ FitsIn a.shape c.shape ∧ FitsIn b.shape c.shape ∧
      ∀ e, c.atB e = f (a.atB e) (b.atB e) := by
  obtain ⟨c, h1, h2, h3⟩ := ufunc2_fits' f ha hb
  have hs := (SA.ufunc2_ok ha.1 hb.1 h1).2.1
  have hw : ∀ u ∈ [a.shape, b.shape], WF u := by
    intro u hu
    simp only [List.mem_cons, List.not_mem_nil, or_false] at hu
    rcases hu with rfl | rfl
    · exact SA.wf_shape ha.1
    · exact SA.wf_shape hb.1
  exact ⟨c, h1, h2, SA.fitsIn_of_broadcastShapes hw hs (by simp), SA.fitsIn_of_broadcastShapes hw hs (by simp), h3⟩

/-! ### C55 -/

/-- **C55** (velocity to wavelength and back). `from_velocity` followed by `velocity` gives back the velocities. -/
theorem C55_velocity_wavelength (c : K) (hc : c ≠ 0) (S : Shape) (v w0 : SA K) (hv : Fits S v) (hw : Fits S w0)
    (h0 : NoZero S w0) :
    ∃ d r, fromVelocity c v w0 = .ok d ∧ d.wavelengthRest = w0 ∧ d.velocity c = .ok r ∧ Repeats S v r := by
  obtain ⟨q, q1, q2, q3, _, q4⟩ := ufunc2_grow (· / ·) hv (fits_scalar S c)
  obtain ⟨s, s1, s2, _, s3, s4⟩ := ufunc2_grow (· + ·) (fits_scalar S 1) q2
  obtain ⟨w, w1, w2, w3, _, w4⟩ := ufunc2_grow (· * ·) s2 hw
  obtain ⟨q', p1, p2, p3, _, p4⟩ := ufunc2_grow (· / ·) w2 hw
  obtain ⟨d, d1, d2, d3, _, d4⟩ := ufunc2_grow (· - ·) p2 (fits_scalar S 1)
  obtain ⟨r, r1, r2, _, r3, r4⟩ := ufunc2_grow (· * ·) (fits_scalar S c) d2
  refine ⟨⟨w, w0⟩, r, ?_, rfl, ?_, r2, ?_, fun e he => ?_⟩
  · simp only [fromVelocity, bind, Except.bind, q1, s1, w1]
  · simp only [velocity, bind, Except.bind, p1, d1, r1]
  · exact fitsIn_trans q3 (fitsIn_trans s3 (fitsIn_trans w3 (fitsIn_trans p3 (fitsIn_trans d3 r3))))
  · have hn := h0 e he
    have e1 : (SA.scalar c).atB e = c := rfl
    have e2 : (SA.scalar (1 : K)).atB e = 1 := rfl
    rw [r4, d4, p4, w4, s4, q4, e1, e2]
    field_simp
    ring

/-- **C55** (wavelength to velocity and back). `velocity` followed by `from_velocity` with the same rest wavelength gives
back the wavelengths. -/
theorem C55_wavelength_velocity (c : K) (hc : c ≠ 0) (S : Shape) (w w0 : SA K) (hw : Fits S w) (hw0 : Fits S w0)
    (h0 : NoZero S w0) :
    ∃ v d, (⟨w, w0⟩ : Doppler K).velocity c = .ok v ∧ fromVelocity c v w0 = .ok d ∧ d.wavelengthRest = w0 ∧
      Repeats S w d.wavelength := by
  obtain ⟨q', p1, p2, p3, _, p4⟩ := ufunc2_grow (· / ·) hw hw0
  obtain ⟨d, d1, d2, d3, _, d4⟩ := ufunc2_grow (· - ·) p2 (fits_scalar S 1)
  obtain ⟨v, v1, v2, _, v3, v4⟩ := ufunc2_grow (· * ·) (fits_scalar S c) d2
  obtain ⟨q, q1, q2, q3, _, q4⟩ := ufunc2_grow (· / ·) v2 (fits_scalar S c)
  obtain ⟨s, s1, s2, _, s3, s4⟩ := ufunc2_grow (· + ·) (fits_scalar S 1) q2
  obtain ⟨r, r1, r2, r3, _, r4⟩ := ufunc2_grow (· * ·) s2 hw0
  refine ⟨v, ⟨r, w0⟩, ?_, ?_, rfl, r2, ?_, fun e he => ?_⟩
  · simp only [velocity, bind, Except.bind, p1, d1, v1]
  · simp only [fromVelocity, bind, Except.bind, q1, s1, r1]
  · exact fitsIn_trans p3 (fitsIn_trans d3 (fitsIn_trans v3 (fitsIn_trans q3 (fitsIn_trans s3 r3))))
  · have hn := h0 e he
    have e1 : (SA.scalar c).atB e = c := rfl
    have e2 : (SA.scalar (1 : K)).atB e = 1 := rfl
    show r.atB e = _
    rw [r4, s4, q4, v4, d4, p4, e1, e2]
    field_simp
    ring

/-- **C55** (the relation). The wavelength is the rest wavelength times one plus the velocity in units of the speed of
light; in particular at rest it is the rest wavelength. -/
theorem C55_from_velocity (c : K) (S : Shape) (v w0 : SA K) (hv : Fits S v) (hw : Fits S w0) :
    ∃ d, fromVelocity c v w0 = .ok d ∧ Fits S d.wavelength ∧
      ∀ e, InRange S e → d.wavelength.atB e = (1 + v.atB e / c) * w0.atB e := by
  obtain ⟨q, q1, q2, q3, _, q4⟩ := ufunc2_grow (· / ·) hv (fits_scalar S c)
  obtain ⟨s, s1, s2, _, s3, s4⟩ := ufunc2_grow (· + ·) (fits_scalar S 1) q2
  obtain ⟨w, w1, w2, w3, _, w4⟩ := ufunc2_grow (· * ·) s2 hw
  refine ⟨⟨w, w0⟩, ?_, w2, fun e _ => ?_⟩
  · simp only [fromVelocity, bind, Except.bind, q1, s1, w1]
  · show w.atB e = _
    rw [w4, s4, q4]
    rfl

/-- three velocities and two lines -/
def exV : SA ℚ := ⟨["v"], ND.ofList [3] [-30, 0, 60] 0⟩
def exLines : SA ℚ := ⟨["line"], ND.ofList [2] [100, 200] 0⟩
def exShape : Shape := [("v", 3), ("line", 2)]

example : Fits exShape exV ∧ Fits exShape exLines := by
  refine ⟨⟨by decide, ?_⟩, ⟨by decide, ?_⟩⟩
  · intro ax m hm
    have : exV.shape = [("v", 3)] := by decide +kernel
    rw [this, get?_cons] at hm
    split at hm
    · next h => subst h; cases hm; exact ⟨3, by decide, by omega⟩
    · cases hm
  · intro ax m hm
    have : exLines.shape = [("line", 2)] := by decide +kernel
    rw [this, get?_cons] at hm
    split at hm
    · next h => subst h; cases hm; exact ⟨2, by decide, by omega⟩
    · cases hm
example : NoZero exShape exLines := by
  intro e he
  have h : e "line" < 2 := he "line" 2 rfl
  have hk : exLines.atB e = if e "line" = 0 then 100 else 200 := by
    obtain h0 | h0 : e "line" = 0 ∨ e "line" = 1 := by omega
    all_goals
      unfold SA.atB SA.at' exLines
      simp [h0, SA.shape, ND.ofList, get?]
      decide +kernel
  rw [hk]
  split <;> norm_num
example : ((fromVelocity 300 exV exLines).map (fun d => (d.wavelength.axes, d.wavelength.nd.toList))) =
    .ok (["v", "line"], [90, 180, 100, 200, 120, 240]) := by decide +kernel
example : ((do (← fromVelocity 300 exV exLines).velocity 300).map (fun r : SA ℚ => (r.axes, r.nd.toList))) =
    .ok (["v", "line"], [-30, -30, 0, 0, 60, 60]) := by decide +kernel

end Doppler
end NA
