import Verif.Matrix.Power
import Verif.Scalar.Arith
import Verif.Scalar.SetLemmas
import Verif.Props.Joining
import Mathlib.Tactic.FieldSimp
import Mathlib.Tactic.Ring
import Mathlib.Tactic.LinearCombination
import Mathlib.Tactic.NormNum

/-!
# C90: powers of matrices with two rows and two columns
-/

namespace NA
namespace Power2
open Matrix

/-- the matrix with the rows `(a, b)` and `(c, d)`, as a matrix of complex numbers -/
def mat (a b c d : ℝ) : Matrix (Fin 2) (Fin 2) ℂ := !![(a : ℂ), (b : ℂ); (c : ℂ), (d : ℂ)]

theorem root_sq (x : ℝ) : root x * root x = (x : ℂ) := by
  unfold root
  split
  · next h => rw [← Complex.ofReal_mul, Real.mul_self_sqrt h]
  · next h =>
    have h' : 0 ≤ -x := by linarith
    have : Complex.I * ((√(-x) : ℝ) : ℂ) * (Complex.I * ((√(-x) : ℝ) : ℂ)) =
        (Complex.I * Complex.I) * (((√(-x) : ℝ) : ℂ) * ((√(-x) : ℝ) : ℂ)) := by ring
    rw [this, ← Complex.ofReal_mul, Real.mul_self_sqrt h', Complex.I_mul_I]
    push_cast; ring

theorem root_ne {x : ℝ} (h : x ≠ 0) : root x ≠ 0 := by
  intro h0
  have := root_sq x
  rw [h0, zero_mul] at this
  exact h (by exact_mod_cast this.symm)

/-- the first eigenvalue -/
noncomputable def e1 (a b c d : ℝ) : ℂ := ((a + d) / 2 : ℝ) + root (disc a b c d)
/-- the second eigenvalue -/
noncomputable def e2 (a b c d : ℝ) : ℂ := ((a + d) / 2 : ℝ) - root (disc a b c d)

theorem e_sum (a b c d : ℝ) : e1 a b c d + e2 a b c d = a + d := by
  unfold e1 e2; push_cast; ring

theorem e_prod (a b c d : ℝ) : e1 a b c d * e2 a b c d = a * d - b * c := by
  have h := root_sq (disc a b c d)
  unfold e1 e2
  have : (disc a b c d : ℂ) = (a + d) ^ 2 / 4 - (a * d - b * c) := by unfold disc; push_cast; ring
  rw [this] at h
  push_cast
  linear_combination -h

theorem e_sub {a b c d : ℝ} (h : disc a b c d ≠ 0) : e1 a b c d - e2 a b c d ≠ 0 := by
  have h2 : e1 a b c d - e2 a b c d = 2 * root (disc a b c d) := by unfold e1 e2; ring
  rw [h2]
  exact mul_ne_zero two_ne_zero (root_ne h)

/-- The function of the matrix with the values `p1` and `p2` at the eigenvalues. -/
noncomputable def form (a b c d : ℝ) (p1 p2 : ℂ) : Matrix (Fin 2) (Fin 2) ℂ :=
  (e1 a b c d - e2 a b c d)⁻¹ • (p1 • (mat a b c d - e2 a b c d • 1) - p2 • (mat a b c d - e1 a b c d • 1))

theorem cayley (a b c d : ℝ) :
    (mat a b c d - e1 a b c d • 1) * (mat a b c d - e2 a b c d • 1) = 0 := by
  have hs := e_sum a b c d
  have hp := e_prod a b c d
  generalize e1 a b c d = u at *
  generalize e2 a b c d = v at *
  ext i j
  fin_cases i <;> fin_cases j <;>
    simp [mat, Matrix.mul_apply, Fin.sum_univ_two, Matrix.one_apply]
  · linear_combination hp - (a : ℂ) * hs
  · linear_combination -(b : ℂ) * hs
  · linear_combination -(c : ℂ) * hs
  · linear_combination hp - (d : ℂ) * hs

theorem form_mul {a b c d : ℝ} (h : disc a b c d ≠ 0) (p1 p2 q1 q2 : ℂ) :
    form a b c d p1 p2 * form a b c d q1 q2 = form a b c d (p1 * q1) (p2 * q2) := by
  have hD := e_sub h
  have hc := cayley a b c d
  unfold form
  generalize e1 a b c d = u at *
  generalize e2 a b c d = v at *
  generalize mat a b c d = M at *
  obtain ⟨A, hA⟩ : ∃ A, A = M - v • (1 : Matrix (Fin 2) (Fin 2) ℂ) := ⟨_, rfl⟩
  have hB : M - u • (1 : Matrix (Fin 2) (Fin 2) ℂ) = A - (u - v) • 1 := by rw [hA, sub_smul]; abel
  rw [hB, ← hA] at hc
  rw [hB, ← hA]
  generalize u - v = D at *
  have hAA : A * A = D • A := by
    rw [sub_mul, smul_mul_assoc, one_mul] at hc
    exact sub_eq_zero.1 hc
  simp only [smul_mul_assoc, mul_smul_comm, sub_mul, mul_sub, smul_sub, hAA, one_mul, mul_one, smul_smul]
  match_scalars
  · field_simp
    ring
  · field_simp

theorem form_id {a b c d : ℝ} (h : disc a b c d ≠ 0) : form a b c d 1 1 = 1 := by
  have hD := e_sub h
  unfold form
  generalize e1 a b c d = u at *
  generalize e2 a b c d = v at *
  generalize mat a b c d = M at *
  match_scalars
  · ring
  · field_simp
    ring

theorem form_self {a b c d : ℝ} (h : disc a b c d ≠ 0) :
    form a b c d (e1 a b c d) (e2 a b c d) = mat a b c d := by
  have hD := e_sub h
  unfold form
  generalize e1 a b c d = u at *
  generalize e2 a b c d = v at *
  generalize mat a b c d = M at *
  match_scalars
  · field_simp
  · ring

theorem form_pow {a b c d : ℝ} (h : disc a b c d ≠ 0) (p1 p2 : ℂ) (n : ℕ) :
    form a b c d p1 p2 ^ n = form a b c d (p1 ^ n) (p2 ^ n) := by
  induction n with
  | zero => simp [form_id h]
  | succ n ih => rw [_root_.pow_succ, ih, form_mul h, _root_.pow_succ, _root_.pow_succ]

/-- The code computes the function of the matrix with the powers of the eigenvalues. -/
theorem elem_form {cplx : Bool} {a b c d z : ℝ} {p1 p2 q1 q2 : ℂ} (h : disc a b c d ≠ 0)
    (h1 : pow cplx (e1 a b c d) z = some p1) (h2 : pow cplx (e2 a b c d) z = some p2)
    (h3 : pow cplx (e1 a b c d) (z - 1) = some q1) (h4 : pow cplx (e2 a b c d) (z - 1) = some q2)
    (hq1 : e1 a b c d * q1 = p1 ∨ e1 a b c d * q1 * e2 a b c d = p1 * e2 a b c d)
    (hq2 : e2 a b c d * q2 = p2 ∨ e2 a b c d * q2 * e1 a b c d = p2 * e1 a b c d) :
    elem cplx a b c d z = some (form a b c d p1 p2) := by
  have hD := e_sub h
  replace hq1 : e1 a b c d * q1 * e2 a b c d = p1 * e2 a b c d := by
    rcases hq1 with h | h
    · rw [h]
    · exact h
  replace hq2 : e2 a b c d * q2 * e1 a b c d = p2 * e1 a b c d := by
    rcases hq2 with h | h
    · rw [h]
    · exact h
  have hm : !![(1 : ℂ), 0; 0, 1] = (1 : Matrix (Fin 2) (Fin 2) ℂ) := Matrix.one_fin_two.symm
  have hrun : elem cplx a b c d z = (do
      let p1 ← pow cplx (e1 a b c d) z
      let p2 ← pow cplx (e2 a b c d) z
      let s1 ← div (p1 - p2) (e1 a b c d - e2 a b c d)
      let q1 ← pow cplx (e1 a b c d) (z - 1)
      let q2 ← pow cplx (e2 a b c d) (z - 1)
      let s2 ← div (e1 a b c d * e2 a b c d * (q1 - q2)) (e1 a b c d - e2 a b c d)
      some (s1 • mat a b c d - s2 • !![(1 : ℂ), 0; 0, 1])) := rfl
  rw [hrun, h1, h2, h3, h4]
  simp only [Option.bind_eq_bind, Option.bind_some, div, if_neg hD, hm]
  congr 1
  unfold form
  generalize e1 a b c d = u at *
  generalize e2 a b c d = v at *
  generalize mat a b c d = M at *
  match_scalars
  · field_simp
  · field_simp
    linear_combination hq2 - hq1

/-- The roots are computed as complex numbers if the matrix has no real eigenvalues. -/
def Coherent (cplx : Bool) (a b c d : ℝ) : Prop := disc a b c d < 0 → cplx = true

/-- The eigenvalues are different positive numbers. -/
def Positive (a b c d : ℝ) : Prop := 0 < disc a b c d ∧ 0 < a + d ∧ 0 < a * d - b * c

theorem e1_real {a b c d : ℝ} (h : 0 ≤ disc a b c d) : e1 a b c d = (((a + d) / 2 + √(disc a b c d) : ℝ) : ℂ) := by
  unfold e1 root; rw [if_pos h]; push_cast; rfl

theorem e2_real {a b c d : ℝ} (h : 0 ≤ disc a b c d) : e2 a b c d = (((a + d) / 2 - √(disc a b c d) : ℝ) : ℂ) := by
  unfold e2 root; rw [if_pos h]; push_cast; rfl

/-- an eigenvalue is real, or the powers are computed as complex numbers -/
def Typed (cplx : Bool) (e : ℂ) : Prop := cplx = true ∨ ∃ x : ℝ, e = x

theorem typed {cplx : Bool} {a b c d : ℝ} (h : Coherent cplx a b c d) :
    Typed cplx (e1 a b c d) ∧ Typed cplx (e2 a b c d) := by
  rcases lt_or_ge (disc a b c d) 0 with h0 | h0
  · exact ⟨.inl (h h0), .inl (h h0)⟩
  · exact ⟨.inr ⟨_, e1_real h0⟩, .inr ⟨_, e2_real h0⟩⟩

theorem pow_int {cplx : Bool} {e : ℂ} (h : Typed cplx e) (he : e ≠ 0) (n : ℤ) : pow cplx e n = some (e ^ n) := by
  unfold pow
  rw [if_neg he]
  split
  · push_cast; rw [Complex.cpow_intCast]
  · next hc =>
    obtain ⟨x, rfl⟩ := h.resolve_left hc
    rw [if_pos (.inr ⟨n, rfl⟩), Complex.ofReal_re, Real.rpow_intCast]
    push_cast; rfl

theorem pow_nat {cplx : Bool} {e : ℂ} (h : Typed cplx e) (n : ℕ) : pow cplx e n = some (e ^ n) := by
  by_cases he : e = 0
  · subst he
    unfold pow
    rw [if_pos rfl]
    rcases Nat.eq_zero_or_pos n with rfl | hn
    · simp
    · have h1 : (n : ℝ) ≠ 0 := by exact_mod_cast hn.ne'
      have h2 : (0 : ℝ) < n := by exact_mod_cast hn
      rw [if_neg h1, if_pos h2, zero_pow hn.ne']
  · simpa using pow_int h he n

/-- **C90** (natural powers).  If the eigenvalues are different, `matrix.power(n)` for `n ≥ 1` is the product of `n`
copies of the matrix; and `matrix.power(0)` is the identity matrix if the matrix is regular. -/
theorem C90_natural_partial {cplx : Bool} {a b c d : ℝ} (hc : Coherent cplx a b c d) (h : disc a b c d ≠ 0) (n : ℕ)
    (hn : 1 ≤ n ∨ a * d - b * c ≠ 0) : elem cplx a b c d n = some (mat a b c d ^ n) := by
  obtain ⟨t1, t2⟩ := typed hc
  rw [← form_self h, form_pow h]
  rcases Nat.eq_zero_or_pos n with rfl | hn1
  · have hp : e1 a b c d * e2 a b c d ≠ 0 := by
      rw [e_prod]
      have := hn.resolve_left (by omega)
      exact_mod_cast this
    have hm : ((0 : ℕ) : ℝ) - 1 = ((-1 : ℤ) : ℝ) := by norm_num
    have n1 := left_ne_zero_of_mul hp
    have n2 := right_ne_zero_of_mul hp
    refine elem_form h (pow_nat t1 0) (pow_nat t2 0) (hm ▸ pow_int t1 n1 (-1)) (hm ▸ pow_int t2 n2 (-1)) (.inl ?_)
      (.inl ?_)
    · rw [zpow_neg_one, mul_inv_cancel₀ n1, pow_zero]
    · rw [zpow_neg_one, mul_inv_cancel₀ n2, pow_zero]
  · obtain ⟨m, rfl⟩ : ∃ m, n = m + 1 := ⟨n - 1, by omega⟩
    have hm : ((m + 1 : ℕ) : ℝ) - 1 = (m : ℝ) := by push_cast; ring
    refine elem_form h (pow_nat t1 _) (pow_nat t2 _) (hm ▸ pow_nat t1 m) (hm ▸ pow_nat t2 m) (.inl ?_) (.inl ?_)
    · rw [_root_.pow_succ, mul_comm]
    · rw [_root_.pow_succ, mul_comm]

theorem regular {a b c d : ℝ} (h : a * d - b * c ≠ 0) : e1 a b c d ≠ 0 ∧ e2 a b c d ≠ 0 := by
  have hp : e1 a b c d * e2 a b c d ≠ 0 := by rw [e_prod]; exact_mod_cast h
  exact ⟨left_ne_zero_of_mul hp, right_ne_zero_of_mul hp⟩

/-- **C90** (negative powers).  If the eigenvalues are different and the matrix is regular, `matrix.power(-n)` is the inverse of
the product of `n` copies of the matrix. -/
theorem C90_inverse_partial {cplx : Bool} {a b c d : ℝ} (hc : Coherent cplx a b c d) (h : disc a b c d ≠ 0)
    (hdet : a * d - b * c ≠ 0) (n : ℕ) : ∃ P, elem cplx a b c d (-n) = some P ∧
      P * mat a b c d ^ n = 1 ∧ mat a b c d ^ n * P = 1 := by
  obtain ⟨t1, t2⟩ := typed hc
  obtain ⟨n1, n2⟩ := regular hdet
  have hz : (-n : ℝ) = ((-n : ℤ) : ℝ) := by push_cast; rfl
  have hz1 : (-n : ℝ) - 1 = ((-n - 1 : ℤ) : ℝ) := by push_cast; rfl
  refine ⟨_, elem_form h (hz ▸ pow_int t1 n1 _) (hz ▸ pow_int t2 n2 _) (hz1 ▸ pow_int t1 n1 _)
    (hz1 ▸ pow_int t2 n2 _) (.inl ?_) (.inl ?_), ?_, ?_⟩
  · rw [zpow_sub_one₀ n1]; field_simp
  · rw [zpow_sub_one₀ n2]; field_simp
  · conv_lhs => rw [← form_self h, form_pow h, form_mul h]
    rw [← zpow_natCast, ← zpow_natCast, ← zpow_add₀ n1, ← zpow_add₀ n2]
    simp [form_id h]
  · conv_lhs => rw [← form_self h, form_pow h, form_mul h]
    rw [← zpow_natCast, ← zpow_natCast, ← zpow_add₀ n1, ← zpow_add₀ n2]
    simp [form_id h]

theorem positive_real {a b c d : ℝ} (h : Positive a b c d) : ∃ x y : ℝ, 0 < x ∧ 0 < y ∧ e1 a b c d = x ∧ e2 a b c d = y := by
  obtain ⟨h1, h2, h3⟩ := h
  have hs := Real.sqrt_nonneg (disc a b c d)
  have hx : 0 < (a + d) / 2 + √(disc a b c d) := by linarith
  refine ⟨_, _, hx, ?_, e1_real h1.le, e2_real h1.le⟩
  have hp := e_prod a b c d
  rw [e1_real h1.le, e2_real h1.le] at hp
  have hp' : ((a + d) / 2 + √(disc a b c d)) * ((a + d) / 2 - √(disc a b c d)) = a * d - b * c := by exact_mod_cast hp
  exact (mul_pos_iff_of_pos_left hx).1 (hp' ▸ h3)

/-- The power of an eigenvalue is the principal value. -/
theorem pow_principal {cplx : Bool} {e : ℂ} (h : cplx = true ∨ ∃ x : ℝ, 0 < x ∧ e = x) (he : e ≠ 0) (z : ℝ) :
    pow cplx e z = some (e ^ (z : ℂ)) := by
  unfold pow
  rw [if_neg he]
  split
  · rfl
  · next hc =>
    obtain ⟨x, hx, rfl⟩ := h.resolve_left hc
    rw [if_pos (.inl (by simpa using hx)), Complex.ofReal_re, Complex.ofReal_cpow hx.le]

theorem elem_principal {cplx : Bool} {a b c d : ℝ} (hc : cplx = true ∨ Positive a b c d) (h : disc a b c d ≠ 0)
    (hdet : a * d - b * c ≠ 0) (z : ℝ) :
    elem cplx a b c d z = some (form a b c d (e1 a b c d ^ (z : ℂ)) (e2 a b c d ^ (z : ℂ))) := by
  obtain ⟨n1, n2⟩ := regular hdet
  have t : (cplx = true ∨ ∃ x : ℝ, 0 < x ∧ e1 a b c d = x) ∧ (cplx = true ∨ ∃ x : ℝ, 0 < x ∧ e2 a b c d = x) := by
    rcases hc with hc | hc
    · exact ⟨.inl hc, .inl hc⟩
    · obtain ⟨x, y, hx, hy, h1, h2⟩ := positive_real hc
      exact ⟨.inr ⟨x, hx, h1⟩, .inr ⟨y, hy, h2⟩⟩
  refine elem_form h (pow_principal t.1 n1 z) (pow_principal t.2 n2 z) (pow_principal t.1 n1 _) (pow_principal t.2 n2 _)
    (.inl ?_) (.inl ?_)
  · push_cast; rw [Complex.cpow_sub _ _ n1, Complex.cpow_one]; field_simp
  · push_cast; rw [Complex.cpow_sub _ _ n2, Complex.cpow_one]; field_simp

/-- **C90** (sums of exponents).  If the eigenvalues are different and not zero, and if they are positive or the powers are
computed as complex numbers, then the power of a sum of exponents is the product of the powers. -/
theorem C90_add_partial {cplx : Bool} {a b c d : ℝ} (hc : cplx = true ∨ Positive a b c d) (h : disc a b c d ≠ 0)
    (hdet : a * d - b * c ≠ 0) (z w : ℝ) : ∃ P Q, elem cplx a b c d z = some P ∧ elem cplx a b c d w = some Q ∧
      elem cplx a b c d (z + w) = some (P * Q) ∧ P * Q = Q * P := by
  obtain ⟨n1, n2⟩ := regular hdet
  refine ⟨_, _, elem_principal hc h hdet z, elem_principal hc h hdet w, ?_, ?_⟩
  · rw [elem_principal hc h hdet (z + w), form_mul h]
    push_cast
    rw [Complex.cpow_add _ _ n1, Complex.cpow_add _ _ n2]
  · rw [form_mul h, form_mul h, mul_comm, mul_comm (e2 a b c d ^ (z : ℂ))]

/-- **C90** (roots).  Under the same conditions `matrix.power(1 / n)` is a matrix whose `n`-th power is the matrix. -/
theorem C90_root_partial {cplx : Bool} {a b c d : ℝ} (hc : cplx = true ∨ Positive a b c d) (h : disc a b c d ≠ 0)
    (hdet : a * d - b * c ≠ 0) (n : ℕ) (hn : 1 ≤ n) :
    ∃ P, elem cplx a b c d (1 / n) = some P ∧ P ^ n = mat a b c d := by
  refine ⟨_, elem_principal hc h hdet _, ?_⟩
  have hn' : (n : ℂ) ≠ 0 := by exact_mod_cast (by omega : n ≠ 0)
  have hz : ((1 / n : ℝ) : ℂ) = (n : ℂ)⁻¹ := by push_cast; rw [one_div]
  rw [form_pow h, hz, Complex.cpow_nat_inv_pow _ (by omega), Complex.cpow_nat_inv_pow _ (by omega), form_self h]

/-- **C90** (types).  For positive eigenvalues it does not matter whether the powers are computed as real or as complex
numbers. -/
theorem C90_types {a b c d : ℝ} (hc : Positive a b c d) (z : ℝ) : elem false a b c d z = elem true a b c d z := by
  rw [elem_principal (.inr hc) hc.1.ne' hc.2.2.ne', elem_principal (.inl rfl) hc.1.ne' hc.2.2.ne']

/-- **C90** (repeated eigenvalues).  If the eigenvalues agree, no power can be computed: all entries are `nan`. -/
theorem C90_repeated_refuted (cplx : Bool) {a b c d : ℝ} (h : disc a b c d = 0) (z : ℝ) : elem cplx a b c d z = none := by
  have h0 : e1 a b c d - e2 a b c d = 0 := by
    have h2 : e1 a b c d - e2 a b c d = 2 * root (disc a b c d) := by unfold e1 e2; ring
    rw [h2, h]; simp [root]
  have hrun : elem cplx a b c d z = (do
      let p1 ← pow cplx (e1 a b c d) z
      let p2 ← pow cplx (e2 a b c d) z
      let s1 ← div (p1 - p2) (e1 a b c d - e2 a b c d)
      let q1 ← pow cplx (e1 a b c d) (z - 1)
      let q2 ← pow cplx (e2 a b c d) (z - 1)
      let s2 ← div (e1 a b c d * e2 a b c d * (q1 - q2)) (e1 a b c d - e2 a b c d)
      some (s1 • mat a b c d - s2 • !![(1 : ℂ), 0; 0, 1])) := rfl
  rw [hrun]
  simp only [div, if_pos h0]
  cases pow cplx (e1 a b c d) z <;> cases pow cplx (e2 a b c d) z <;> rfl

/-- **C90** (singular matrices).  If the matrix is singular, no power with an exponent below 1 can be computed, although `0 ** z`
is defined for `z ≥ 0`. -/
theorem C90_singular_refuted (cplx : Bool) {a b c d z : ℝ} (h : a * d - b * c = 0) (hz : z < 1) :
    elem cplx a b c d z = none := by
  have hp : e1 a b c d = 0 ∨ e2 a b c d = 0 := by
    have := e_prod a b c d
    rw [← mul_eq_zero, this]
    exact_mod_cast h
  have h0 : pow cplx 0 (z - 1) = none := by
    unfold pow
    rw [if_pos rfl, if_neg (by linarith), if_neg (by linarith)]
  have hrun : elem cplx a b c d z = (do
      let p1 ← pow cplx (e1 a b c d) z
      let p2 ← pow cplx (e2 a b c d) z
      let s1 ← div (p1 - p2) (e1 a b c d - e2 a b c d)
      let q1 ← pow cplx (e1 a b c d) (z - 1)
      let q2 ← pow cplx (e2 a b c d) (z - 1)
      let s2 ← div (e1 a b c d * e2 a b c d * (q1 - q2)) (e1 a b c d - e2 a b c d)
      some (s1 • mat a b c d - s2 • !![(1 : ℂ), 0; 0, 1])) := rfl
  rw [hrun]
  cases pow cplx (e1 a b c d) z with
  | none => rfl
  | some p1 =>
    cases pow cplx (e2 a b c d) z with
    | none => rfl
    | some p2 =>
      simp only [Option.bind_eq_bind, Option.bind_some]
      cases div (p1 - p2) (e1 a b c d - e2 a b c d) with
      | none => rfl
      | some s1 =>
        simp only [Option.bind_some]
        rcases hp with hp | hp
        · rw [hp, h0]; rfl
        · rw [hp, h0]
          cases pow cplx (e1 a b c d) (z - 1) <;> rfl

/-- **C90** (negative eigenvalues).  If the eigenvalues are real and one of them is negative, and the powers are computed as
real numbers, then only integer exponents are possible. -/
theorem C90_negative_refuted {a b c d z : ℝ} (h : 0 ≤ disc a b c d) (hneg : a + d < 0 ∨ a * d - b * c < 0)
    (hz : ∀ n : ℤ, z ≠ n) : elem false a b c d z = none := by
  have hs := Real.sqrt_nonneg (disc a b c d)
  have he : (a + d) / 2 - √(disc a b c d) < 0 := by
    rcases hneg with hneg | hneg
    · linarith
    · have hp := e_prod a b c d
      rw [e1_real h, e2_real h] at hp
      have hp' : ((a + d) / 2 + √(disc a b c d)) * ((a + d) / 2 - √(disc a b c d)) = a * d - b * c := by exact_mod_cast hp
      by_contra hge
      have : 0 ≤ ((a + d) / 2 + √(disc a b c d)) * ((a + d) / 2 - √(disc a b c d)) :=
        mul_nonneg (by linarith) (by linarith)
      linarith
  have h0 : pow false (e2 a b c d) z = none := by
    rw [e2_real h]
    unfold pow
    rw [if_neg (by exact_mod_cast he.ne), if_neg (by simp), if_neg]
    rintro (h1 | ⟨n, hn⟩)
    · rw [Complex.ofReal_re] at h1; linarith
    · exact hz n hn
  have hrun : elem false a b c d z = (do
      let p1 ← pow false (e1 a b c d) z
      let p2 ← pow false (e2 a b c d) z
      let s1 ← div (p1 - p2) (e1 a b c d - e2 a b c d)
      let q1 ← pow false (e1 a b c d) (z - 1)
      let q2 ← pow false (e2 a b c d) (z - 1)
      let s2 ← div (e1 a b c d * e2 a b c d * (q1 - q2)) (e1 a b c d - e2 a b c d)
      some (s1 • mat a b c d - s2 • !![(1 : ℂ), 0; 0, 1])) := rfl
  rw [hrun, h0]
  cases pow false (e1 a b c d) z <;> rfl

/-- the rows `(2, 1)` and `(1, 2)`: the eigenvalues are 3 and 1 -/
example : Positive 2 1 1 2 ∧ disc 2 1 1 2 ≠ 0 ∧ (2 : ℝ) * 2 - 1 * 1 ≠ 0 ∧ Coherent false 2 1 1 2 := by
  refine ⟨⟨?_, ?_, ?_⟩, ?_, ?_, ?_⟩ <;> norm_num [disc, Coherent]

/-- the third power of this matrix -/
example : elem false 2 1 1 2 3 = some !![14, 13; 13, 14] := by
  have h := C90_natural_partial (cplx := false) (a := 2) (b := 1) (c := 1) (d := 2) (by norm_num [disc, Coherent])
    (by norm_num [disc]) 3 (.inl (by norm_num))
  norm_num at h
  rw [h]
  congr 1
  ext i j
  fin_cases i <;> fin_cases j <;> norm_num [mat, _root_.pow_succ, Matrix.mul_apply, Fin.sum_univ_two]

/-- a rotation by 90°: the eigenvalues are not real -/
example : Coherent true 0 (-1) 1 0 ∧ disc 0 (-1) 1 0 ≠ 0 ∧ disc 0 (-1) 1 0 < 0 ∧ (0 : ℝ) * 0 - -1 * 1 ≠ 0 := by
  refine ⟨fun _ => rfl, ?_, ?_, ?_⟩ <;> norm_num [disc]

/-- the identity matrix has no powers, not even the first one -/
example : elem false 1 0 0 1 1 = none := C90_repeated_refuted false (by norm_num [disc]) 1

/-- the root of the projection to the first axis, which is the projection, is not found -/
example : elem false 1 0 0 0 (1 / 2) = none ∧ mat 1 0 0 0 * mat 1 0 0 0 = mat 1 0 0 0 := by
  refine ⟨C90_singular_refuted false (by norm_num) (by norm_num), ?_⟩
  ext i j
  fin_cases i <;> fin_cases j <;> norm_num [mat, Matrix.mul_apply, Fin.sum_univ_two]

/-! ### Arrays of matrices -/

open Dict
open SA (FitsIn InRange)

theorem complexRoots_iff {x : SA ℝ} (hx : x.WF) :
    complexRoots x = true ↔ ∃ e, InRange x.shape e ∧ x.at' e < 0 := by
  unfold complexRoots ND.toList
  simp only [List.any_eq_true, List.mem_map, decide_eq_true_eq]
  constructor
  · rintro ⟨v, ⟨i, hi, rfl⟩, hv⟩
    have hi' := ND.mem_ndIndices_iff.1 hi
    have hl : i.length = x.axes.length := by rw [ND.inRange_length hi', ← hx.1, ND.ndim]
    have hm := map_envOf hx.2 hl
    refine ⟨envOf x.axes i, (SA.inRange_nd hx).2 (hm.symm ▸ hi'), ?_⟩
    unfold SA.at'
    rw [hm]
    exact hv
  · rintro ⟨e, he, hv⟩
    exact ⟨_, ⟨_, ND.mem_ndIndices_iff.2 ((SA.inRange_nd hx).1 he), rfl⟩, hv⟩

/-- An array into which all shapes fit, and which fits into the broadcast shape, has the broadcast shape. -/
theorem same_join {ss : List Shape} (hss : ∀ s ∈ ss, WF s) {T X : Shape} (h : broadcastShapes ss = .ok T)
    (hX : FitsIn X T) (hs : ∀ s ∈ ss, FitsIn s X) : Same X T := by
  obtain ⟨_, hk, hsz⟩ := C01_broadcast_shapes_ok ss hss T h
  intro ax
  cases hT : get? T ax with
  | none =>
    cases hx : get? X ax with
    | none => rfl
    | some m => obtain ⟨n, hn, _⟩ := hX ax m hx; rw [hT] at hn; cases hn
  | some n =>
    obtain ⟨⟨s, hsm, hn⟩, _⟩ := hsz ax n hT
    obtain ⟨m, hm, hmn⟩ := hs s hsm ax n hn
    obtain ⟨n', hn', hmn'⟩ := hX ax m hm
    rw [hT] at hn'
    cases hn'
    rw [hm]
    congr 1
    omega

theorem fits_pair {α β γ : Type} {a : SA α} {b : SA β} (ha : a.WF) (hb : b.WF) {f : α → β → γ} {r : SA γ}
    (hr : SA.ufunc2 f a b = .ok r) : FitsIn a.shape r.shape ∧ FitsIn b.shape r.shape :=
  have h := (SA.ufunc2_ok ha hb hr).2.1
  ⟨SA.fitsIn_of_broadcastShapes (SA.wf_pair ha hb) h (by simp), SA.fitsIn_of_broadcastShapes (SA.wf_pair ha hb) h (by simp)⟩

theorem fits_trans {s t u : Shape} (h1 : FitsIn s t) (h2 : FitsIn t u) : FitsIn s u := by
  intro ax m hm
  obtain ⟨n, hn, hmn⟩ := h1 ax m hm
  obtain ⟨k, hk, hnk⟩ := h2 ax n hn
  exact ⟨k, hk, by omega⟩

/-- The arguments of the square roots: one number for each element of the matrix. -/
theorem discs {a b c d : SA ℝ} (ha : a.WF) (hb : b.WF) (hc : c.WF) (hd : d.WF) {T : Shape}
    (hT : broadcastShapes [a.shape, d.shape, b.shape, c.shape] = .ok T) :
    ∃ chi p q delta chi' x, a.ufunc2 (· + ·) d = .ok chi ∧ a.ufunc2 (· * ·) d = .ok p ∧ b.ufunc2 (· * ·) c = .ok q ∧
      p.ufunc2 (· - ·) q = .ok delta ∧ chi.ufunc1 (fun v => v ^ 2 / 4) = .ok chi' ∧ chi'.ufunc2 (· - ·) delta = .ok x ∧
      Full T x ∧ ∀ e, x.atB e = disc (a.atB e) (b.atB e) (c.atB e) (d.atB e) := by
  have hss : ∀ s ∈ [a.shape, d.shape, b.shape, c.shape], WF s := by
    intro s hs
    simp only [List.mem_cons, List.not_mem_nil, or_false] at hs
    rcases hs with rfl | rfl | rfl | rfl <;> exact SA.wf_shape (by assumption)
  have fa : Fits T a := ⟨ha, SA.fitsIn_of_broadcastShapes hss hT (by simp)⟩
  have fb : Fits T b := ⟨hb, SA.fitsIn_of_broadcastShapes hss hT (by simp)⟩
  have fc : Fits T c := ⟨hc, SA.fitsIn_of_broadcastShapes hss hT (by simp)⟩
  have fd : Fits T d := ⟨hd, SA.fitsIn_of_broadcastShapes hss hT (by simp)⟩
  obtain ⟨chi, h1, f1, v1⟩ := ufunc2_fits' (· + ·) fa fd
  obtain ⟨p, h2, f2, v2⟩ := ufunc2_fits' (· * ·) fa fd
  obtain ⟨q, h3, f3, v3⟩ := ufunc2_fits' (· * ·) fb fc
  obtain ⟨delta, h4, f4, v4⟩ := ufunc2_fits' (· - ·) f2 f3
  obtain ⟨chi', h5, f5, v5⟩ := ufunc1_fits' (fun v : ℝ => v ^ 2 / 4) f1
  obtain ⟨x, h6, f6, v6⟩ := ufunc2_fits' (· - ·) f5 f4
  refine ⟨chi, p, q, delta, chi', x, h1, h2, h3, h4, h5, h6, ⟨f6.1, ?_⟩, fun e => ?_⟩
  · have g2 := fits_pair ha hd h2
    have g3 := fits_pair hb hc h3
    have g4 := fits_pair f2.1 f3.1 h4
    have g6 := fits_pair f5.1 f4.1 h6
    refine same_join hss hT f6.2 ?_
    intro s hs
    simp only [List.mem_cons, List.not_mem_nil, or_false] at hs
    rcases hs with rfl | rfl | rfl | rfl
    · exact fits_trans g2.1 (fits_trans g4.1 g6.2)
    · exact fits_trans g2.2 (fits_trans g4.1 g6.2)
    · exact fits_trans g3.1 (fits_trans g4.2 g6.2)
    · exact fits_trans g3.2 (fits_trans g4.2 g6.2)
  · rw [v6, v5.2, v4, v3, v2, v1]; rfl

/-- **C90** (arrays).  If the entries and the exponent can be broadcast against each other, `matrix.power(exponent)` is the
matrix whose entries have the broadcast shape, and each element is the power of the element of the matrix with the element
of the exponent; the eigenvalues are treated as complex numbers if one of the matrices has eigenvalues which are not real. -/
theorem C90_power {a b c d z : SA ℝ} (ha : a.WF) (hb : b.WF) (hc : c.WF) (hd : d.WF) (hz : z.WF) {S : Shape}
    (hS : broadcastShapes [a.shape, d.shape, b.shape, c.shape, z.shape] = .ok S) :
    ∃ T cplx xx xy yx yy, broadcastShapes [a.shape, d.shape, b.shape, c.shape] = .ok T ∧
      power2 a b c d z = .ok (Mat.mk2 xx xy yx yy) ∧
      (cplx = true ↔ ∃ e, InRange T e ∧ disc (a.atB e) (b.atB e) (c.atB e) (d.atB e) < 0) ∧
      (∀ r ∈ [xx, xy, yx, yy], SA.WF r ∧ r.shape = S) ∧
      ∀ e, InRange S e →
        Coherent cplx (a.atB e) (b.atB e) (c.atB e) (d.atB e) ∧
        xx.at' e = (elem cplx (a.atB e) (b.atB e) (c.atB e) (d.atB e) (z.atB e)).map (fun P => P 0 0) ∧
        xy.at' e = (elem cplx (a.atB e) (b.atB e) (c.atB e) (d.atB e) (z.atB e)).map (fun P => P 0 1) ∧
        yx.at' e = (elem cplx (a.atB e) (b.atB e) (c.atB e) (d.atB e) (z.atB e)).map (fun P => P 1 0) ∧
        yy.at' e = (elem cplx (a.atB e) (b.atB e) (c.atB e) (d.atB e) (z.atB e)).map (fun P => P 1 1) := by
  have hall : ∀ r ∈ [a, d, b, c, z], SA.WF r := by
    intro s hs
    simp only [List.mem_cons, List.not_mem_nil, or_false] at hs
    rcases hs with rfl | rfl | rfl | rfl | rfl <;> assumption
  have hss := SA.wf_shapes hall
  have hss4 : ∀ s ∈ [a.shape, d.shape, b.shape, c.shape], WF s := fun s hs => hss s (by
    simp only [List.mem_cons, List.not_mem_nil, or_false, List.map_cons, List.map_nil] at hs ⊢; tauto)
  have hT : ∃ T, broadcastShapes [a.shape, d.shape, b.shape, c.shape] = .ok T := by
    cases h : broadcastShapes [a.shape, d.shape, b.shape, c.shape] with
    | ok T => exact ⟨T, rfl⟩
    | error e =>
      obtain ⟨ax, m, n, ⟨s, hs, hm⟩, ⟨t, ht, hn⟩, hne⟩ := (C01_broadcast_shapes_error_iff _ hss4).1 ⟨e, h⟩
      obtain ⟨e', he'⟩ := (C01_broadcast_shapes_error_iff _ hss).2 ⟨ax, m, n,
        ⟨s, by simp only [List.mem_cons, List.not_mem_nil, or_false, List.map_cons, List.map_nil] at hs ⊢; tauto, hm⟩,
        ⟨t, by simp only [List.mem_cons, List.not_mem_nil, or_false, List.map_cons, List.map_nil] at ht ⊢; tauto, hn⟩, hne⟩
      exact absurd (he'.symm.trans hS) (by simp)
  obtain ⟨T, hT⟩ := hT
  obtain ⟨chi, p, q, delta, chi', x, h1, h2, h3, h4, h5, h6, fx, vx⟩ := discs ha hb hc hd hT
  obtain ⟨xx, k1⟩ := SA.ufuncN_isOk hall hS (entry (complexRoots x) 0 0)
  obtain ⟨xy, k2⟩ := SA.ufuncN_isOk hall hS (entry (complexRoots x) 0 1)
  obtain ⟨yx, k3⟩ := SA.ufuncN_isOk hall hS (entry (complexRoots x) 1 0)
  obtain ⟨yy, k4⟩ := SA.ufuncN_isOk hall hS (entry (complexRoots x) 1 1)
  have hcx : complexRoots x = true ↔ ∃ e, InRange T e ∧ disc (a.atB e) (b.atB e) (c.atB e) (d.atB e) < 0 := by
    rw [complexRoots_iff fx.1]
    constructor
    · rintro ⟨e, he, hv⟩
      have he' : InRange T e := fun ax n hn => he ax n (by rw [fx.2 ax]; exact hn)
      exact ⟨e, he', by rw [← vx, fx.atB he']; exact hv⟩
    · rintro ⟨e, he, hv⟩
      exact ⟨e, fun ax n hn => he ax n (by rw [← fx.2 ax]; exact hn), by rw [← fx.atB he, vx]; exact hv⟩
  refine ⟨T, complexRoots x, xx, xy, yx, yy, hT, ?_, hcx, ?_, fun e he => ⟨?_, ?_⟩⟩
  · unfold power2
    simp only [h1, h2, h3, h4, h5, h6, k1, k2, k3, k4, bind, Except.bind]
  · have key : ∀ {f} {r : SA (Option ℂ)}, SA.ufuncN f [a, d, b, c, z] = .ok r → r.WF ∧ r.shape = S := by
      intro f r h
      obtain ⟨w, hs, _⟩ := SA.ufuncN_ok hall h
      have := hs.symm.trans hS
      injection this with this
      exact ⟨w, this⟩
    intro r hr
    simp only [List.mem_cons, List.not_mem_nil, or_false] at hr
    rcases hr with rfl | rfl | rfl | rfl
    · exact key k1
    · exact key k2
    · exact key k3
    · exact key k4
  · intro hneg
    rw [complexRoots_iff fx.1]
    have hbx : x.atB e = x.at' (SA.clipEnv x.shape e) := rfl
    refine ⟨_, ?_, by rw [← hbx, vx]; exact hneg⟩
    have hf : FitsIn x.shape S := by
      have g : FitsIn T S := by
        intro ax m hm
        obtain ⟨⟨s, hs, hs'⟩, _⟩ := (C01_broadcast_shapes_ok _ hss4 T hT).2.2 ax m hm
        exact SA.fitsIn_of_broadcastShapes hss hS (by
          simp only [List.mem_cons, List.not_mem_nil, or_false, List.map_cons, List.map_nil] at hs ⊢; tauto) ax m hs'
      intro ax m hm
      exact g ax m (by rw [← fx.2 ax]; exact hm)
    intro ax m hm
    obtain ⟨n, hn, hmn⟩ := hf ax m hm
    have := he ax n hn
    unfold SA.clipEnv
    split
    · next h => rw [hm] at h; cases h; omega
    · next h =>
      rcases hmn with rfl | rfl
      · exact this
      · exact absurd hm h
  · exact ⟨(SA.ufuncN_ok hall k1).2.2 e, (SA.ufuncN_ok hall k2).2.2 e, (SA.ufuncN_ok hall k3).2.2 e,
      (SA.ufuncN_ok hall k4).2.2 e⟩

theorem ufunc2_cases {α β γ : Type} {a : SA α} {b : SA β} (ha : a.WF) (hb : b.WF) (f : α → β → γ) :
    (∃ r, SA.ufunc2 f a b = .ok r ∧ r.WF) ∨ SA.ufunc2 f a b = .error .valueError := by
  cases h : SA.ufunc2 f a b with
  | ok r => exact .inl ⟨r, rfl, (SA.ufunc2_ok ha hb h).1⟩
  | error e => exact .inr (by rw [(broadcastShapes_error (SA.wf_pair ha hb) (SA.ufunc2_error ha hb h)).1])

/-- **C90** (failure).  If the entries and the exponent cannot be broadcast against each other, `ValueError` is raised. -/
theorem C90_error {a b c d z : SA ℝ} (ha : a.WF) (hb : b.WF) (hc : c.WF) (hd : d.WF) (hz : z.WF)
    (h : Clash [a.shape, d.shape, b.shape, c.shape, z.shape]) : power2 a b c d z = .error .valueError := by
  have hall : ∀ r ∈ [a, d, b, c, z], SA.WF r := by
    intro s hs
    simp only [List.mem_cons, List.not_mem_nil, or_false] at hs
    rcases hs with rfl | rfl | rfl | rfl | rfl <;> assumption
  have hlast : ∀ f : List ℝ → Option ℂ, SA.ufuncN f [a, d, b, c, z] = .error .valueError := by
    intro f
    obtain ⟨e, he⟩ := (SA.C07_ufunc_error f _ hall).1.2 h
    rw [he, (SA.C07_ufunc_error f _ hall).2 e he]
  unfold power2
  rcases ufunc2_cases ha hd (· + ·) with ⟨chi, h1, w1⟩ | h1
  · rcases ufunc2_cases ha hd (· * ·) with ⟨p, h2, w2⟩ | h2
    · rcases ufunc2_cases hb hc (· * ·) with ⟨q, h3, w3⟩ | h3
      · rcases ufunc2_cases w2 w3 (· - ·) with ⟨delta, h4, w4⟩ | h4
        · have h5 := SA.ufunc1_eq w1 (fun v : ℝ => v ^ 2 / 4)
          have w5 : SA.WF (⟨chi.axes, chi.nd.map (fun v : ℝ => v ^ 2 / 4)⟩ : SA ℝ) := ⟨w1.1, w1.2⟩
          rcases ufunc2_cases w5 w4 (· - ·) with ⟨x, h6, w6⟩ | h6
          · simp only [h1, h2, h3, h4, h5, h6, bind, Except.bind, hlast]
          · simp only [h1, h2, h3, h4, h5, h6, bind, Except.bind]
        · simp only [h1, h2, h3, h4, bind, Except.bind]
      · simp only [h1, h2, h3, bind, Except.bind]
    · simp only [h1, h2, bind, Except.bind]
  · simp only [h1, bind, Except.bind]

/-- an array with `n` elements: the first one is `x`, the others are `y` -/
def exPair (n : Nat) (x y : ℝ) : SA ℝ := ⟨["s"], ⟨[n], fun i => if i.headD 0 = 0 then x else y⟩⟩

theorem wf_exPair (n : Nat) (x y : ℝ) : (exPair n x y).WF := ⟨rfl, List.nodup_singleton _⟩

theorem atB_exPair {n : Nat} (hn : n = 1 ∨ n = 2) (x y : ℝ) (k : Nat) (hk : k < n) :
    (exPair n x y).atB (fun _ => k) = if k = 0 then x else y := by
  rcases hn with rfl | rfl
  · obtain rfl : k = 0 := by omega
    rfl
  · rcases (by omega : k = 0 ∨ k = 1) with rfl | rfl <;> rfl

/-- The power of the matrix with the rows `(-1, 0)` and `(0, -4)` in an array with `n` elements, whose other element, if there is one, is a
rotation by 90°. -/
theorem exPair_power (n : Nat) (hn : n = 1 ∨ n = 2) : ∃ cplx xx xy yx yy,
    power2 (exPair n (-1) 0) (exPair n 0 (-1)) (exPair n 0 1) (exPair n (-4) 0) (SA.scalar (1 / 2)) =
      .ok (Mat.mk2 xx xy yx yy) ∧ (cplx = true ↔ n = 2) ∧
      xx.at' (fun _ => 0) = (elem cplx (-1) 0 0 (-4) (1 / 2)).map (fun P => P 0 0) := by
  have hshape : broadcastShapes [(exPair n (-1) 0).shape, (exPair n (-4) 0).shape, (exPair n 0 (-1)).shape,
      (exPair n 0 1).shape, (SA.scalar (1 / 2 : ℝ)).shape] = .ok [("s", n)] := by
    rcases hn with rfl | rfl <;> rfl
  have hshape' : broadcastShapes [(exPair n (-1) 0).shape, (exPair n (-4) 0).shape, (exPair n 0 (-1)).shape,
      (exPair n 0 1).shape] = .ok [("s", n)] := by
    rcases hn with rfl | rfl <;> rfl
  obtain ⟨T, cplx, xx, xy, yx, yy, hT, hrun, hc, hr, hv⟩ := C90_power (wf_exPair n (-1) 0) (wf_exPair n 0 (-1)) (wf_exPair n 0 1)
    (wf_exPair n (-4) 0) (scalar_fits [] (1 / 2 : ℝ)).1 hshape
  have hT' := hT.symm.trans hshape'
  injection hT' with hT'
  subst hT'
  have hin : ∀ k, k < n → InRange [("s", n)] (fun _ => k) := by
    intro k hk ax m hm
    simp only [get?_cons, get?_nil] at hm
    split at hm
    · cases hm; exact hk
    · cases hm
  refine ⟨cplx, xx, xy, yx, yy, hrun, hc.trans ⟨?_, ?_⟩, ?_⟩
  · rintro ⟨e, he, hlt⟩
    by_contra h2
    obtain rfl : n = 1 := hn.resolve_right h2
    have h1 : ∀ x y : ℝ, (exPair 1 x y).atB e = x := fun x y => rfl
    simp only [h1] at hlt
    norm_num [disc] at hlt
  · rintro rfl
    refine ⟨fun _ => 1, hin 1 (by omega), ?_⟩
    simp only [atB_exPair hn _ _ 1 (by omega)]
    norm_num [disc]
  · have h0 : 0 < n := by omega
    rw [(hv (fun _ => 0) (hin 0 h0)).2.1]
    simp only [atB_exPair hn _ _ 0 h0]
    rfl

/-- **C90** (independence of the elements).  The power of one element of an array depends on the other elements: the root of the matrix
with the rows `(-1, 0)` and `(0, -4)` is not found if this is the only element, but it is found if another element
of the array is a rotation. -/
theorem C90_elements_refuted : ∃ xx xy yx yy xx' xy' yx' yy',
    power2 (exPair 1 (-1) 0) (exPair 1 0 (-1)) (exPair 1 0 1) (exPair 1 (-4) 0) (SA.scalar (1 / 2)) =
      .ok (Mat.mk2 xx xy yx yy) ∧
    power2 (exPair 2 (-1) 0) (exPair 2 0 (-1)) (exPair 2 0 1) (exPair 2 (-4) 0) (SA.scalar (1 / 2)) =
      .ok (Mat.mk2 xx' xy' yx' yy') ∧
    xx.at' (fun _ => 0) = none ∧ (xx'.at' (fun _ => 0)).isSome := by
  obtain ⟨c1, xx, xy, yx, yy, h1, hc1, hv1⟩ := exPair_power 1 (.inl rfl)
  obtain ⟨c2, xx', xy', yx', yy', h2, hc2, hv2⟩ := exPair_power 2 (.inr rfl)
  obtain rfl : c1 = false := by
    cases c1 with
    | false => rfl
    | true => exact absurd (hc1.1 rfl) (by decide)
  obtain rfl : c2 = true := hc2.2 rfl
  refine ⟨xx, xy, yx, yy, xx', xy', yx', yy', h1, h2, ?_, ?_⟩
  · rw [hv1, C90_negative_refuted (by norm_num [disc]) (.inl (by norm_num))]
    · rfl
    · intro n hn
      have h3 : ((2 * n : ℤ) : ℝ) = ((1 : ℤ) : ℝ) := by push_cast; rw [← hn]; norm_num
      have h4 : 2 * n = 1 := by exact_mod_cast h3
      omega
  · obtain ⟨P, hP, _⟩ := C90_root_partial (cplx := true) (a := -1) (b := 0) (c := 0) (d := -4) (.inl rfl) (by norm_num [disc])
      (by norm_num) 2 (by norm_num)
    have h3 : ((1 : ℝ) / ((2 : ℕ) : ℝ)) = 1 / 2 := by norm_num
    rw [h3] at hP
    rw [hv2, hP]
    rfl

end Power2
end NA
