import Verif.Matrix.Lemmas
import Verif.Scalar.Arith
import Verif.Props.VectorReduce
import Mathlib.Algebra.Ring.PUnit

/-! The arithmetic of named arrays as arithmetic of their elements at each named index. -/

namespace NA
open Dict Comp
open SA (FitsIn InRange)

variable {K : Type}

theorem allZero_atB [Zero K] [DecidableEq K] {S : Shape} {a : SA K} (ha : a.WF) (h : FitsIn a.shape S)
    (hz : a.allZero = true) {e : String → Nat} (he : InRange S e) : a.atB e = 0 := by
  unfold SA.atB SA.at'
  have hin : InRange a.shape (fun ax => if get? a.shape ax = some 1 then 0 else e ax) := by
    intro ax n hn
    obtain ⟨k, hk, hnk⟩ := h ax n hn
    have := he ax k hk
    simp only [hn, Option.some.injEq]
    split <;> omega
  rw [SA.inRange_nd ha] at hin
  unfold SA.allZero ND.toList at hz
  rw [List.all_eq_true] at hz
  have := hz (a.nd.get (a.axes.map _)) (List.mem_map.2 ⟨_, ND.mem_ndIndices_iff.2 hin, rfl⟩)
  simpa using this

variable [CommRing K] [DecidableEq K]

/-- The arithmetic of named arrays which fit in a common shape is the arithmetic of the elements at each
named index of this shape. -/
theorem Ops.named_sound (dv : K → K → K) (S : Shape) {e : String → Nat} (he : InRange S e) :
    (Ops.named dv).Sound dv (fun a => a.WF ∧ FitsIn a.shape S) (fun a => a.atB e) where
  zero := ⟨scalar_fits S 0, rfl⟩
  one := ⟨scalar_fits S 1, rfl⟩
  add a b ha hb := by
    obtain ⟨c, h1, h2, h3⟩ := ufunc2_fits (S := S) (· + ·) ha.1 hb.1 ha.2 hb.2
    exact ⟨c, h1, h2, h3 e⟩
  sub a b ha hb := by
    obtain ⟨c, h1, h2, h3⟩ := ufunc2_fits (S := S) (· - ·) ha.1 hb.1 ha.2 hb.2
    exact ⟨c, h1, h2, h3 e⟩
  mul a b ha hb := by
    obtain ⟨c, h1, h2, h3⟩ := ufunc2_fits (S := S) (· * ·) ha.1 hb.1 ha.2 hb.2
    exact ⟨c, h1, h2, h3 e⟩
  div a b ha hb := by
    obtain ⟨c, h1, h2, h3⟩ := ufunc2_fits (S := S) dv ha.1 hb.1 ha.2 hb.2
    exact ⟨c, h1, h2, h3 e⟩
  neg a ha := by
    obtain ⟨c, h1, h2, h3⟩ := ufunc1_fits (S := S) (fun x : K => -x) ha.1 ha.2
    exact ⟨c, h1, h2, h3 e⟩
  matmul a b ha hb := by
    show ∃ c, SA.matmul a b = .ok c ∧ _
    unfold SA.matmul
    by_cases hz : (a.allZero || b.allZero) = true
    · rw [if_pos hz]
      refine ⟨_, rfl, scalar_fits S 0, ?_⟩
      have h0 : (SA.scalar (0 : K)).atB e = 0 := rfl
      simp only [h0]
      rcases Bool.or_eq_true_iff.1 hz with h | h
      · rw [allZero_atB ha.1 ha.2 h he, zero_mul]
      · rw [allZero_atB hb.1 hb.2 h he, mul_zero]
    · rw [if_neg hz]
      obtain ⟨c, h1, h2, h3⟩ := ufunc2_fits (S := S) (· * ·) ha.1 hb.1 ha.2 hb.2
      exact ⟨c, h1, h2, h3 e⟩

/-- ... and it does not raise, also if the common shape is empty. -/
theorem Ops.named_total (dv : K → K → K) (S : Shape) :
    (Ops.named dv).Sound (K := PUnit) (fun _ _ => 0) (fun a => a.WF ∧ FitsIn a.shape S) (fun _ => 0) where
  zero := ⟨scalar_fits S 0, rfl⟩
  one := ⟨scalar_fits S 1, rfl⟩
  add a b ha hb := by
    obtain ⟨c, h1, h2, h3⟩ := ufunc2_fits (S := S) (· + ·) ha.1 hb.1 ha.2 hb.2
    exact ⟨c, h1, h2, rfl⟩
  sub a b ha hb := by
    obtain ⟨c, h1, h2, h3⟩ := ufunc2_fits (S := S) (· - ·) ha.1 hb.1 ha.2 hb.2
    exact ⟨c, h1, h2, rfl⟩
  mul a b ha hb := by
    obtain ⟨c, h1, h2, h3⟩ := ufunc2_fits (S := S) (· * ·) ha.1 hb.1 ha.2 hb.2
    exact ⟨c, h1, h2, rfl⟩
  div a b ha hb := by
    obtain ⟨c, h1, h2, h3⟩ := ufunc2_fits (S := S) dv ha.1 hb.1 ha.2 hb.2
    exact ⟨c, h1, h2, rfl⟩
  neg a ha := by
    obtain ⟨c, h1, h2, h3⟩ := ufunc1_fits (S := S) (fun x : K => -x) ha.1 ha.2
    exact ⟨c, h1, h2, rfl⟩
  matmul a b ha hb := by
    show ∃ c, SA.matmul a b = .ok c ∧ _
    unfold SA.matmul
    by_cases hz : (a.allZero || b.allZero) = true
    · rw [if_pos hz]
      exact ⟨_, rfl, scalar_fits S 0, rfl⟩
    · rw [if_neg hz]
      obtain ⟨c, h1, h2, h3⟩ := ufunc2_fits (S := S) (· * ·) ha.1 hb.1 ha.2 hb.2
      exact ⟨c, h1, h2, rfl⟩

end NA
