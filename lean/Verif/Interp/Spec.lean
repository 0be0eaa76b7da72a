import Mathlib.Algebra.BigOperators.Ring.Finset
import Mathlib.Algebra.Field.Basic
import Mathlib.Tactic.Ring
import Mathlib.Tactic.LinearCombination
import Mathlib.Algebra.Order.BigOperators.Ring.Finset
import Mathlib.Algebra.Order.Field.Basic
import Mathlib.Algebra.BigOperators.Field
import Mathlib.Algebra.BigOperators.Group.Finset.Powerset
import Mathlib.Tactic.FieldSimp

/-!
# Specification of multilinear interpolation

`multilerp L u f e` is the multilinear interpolation of the function `f` of named indices in the cell with the lower corner `e`
along the axes `L`, at the fractional position `u` in the cell: the sum over the `2 ^ |L|` corners of the cell of the value at
the corner times its weight.
-/

namespace NA
variable {K : Type} [Field K]

/-- The corner of the cell at `e` which is moved up by one along the axes in `T`. -/
def corner (T : Finset String) (e : String → Nat) : String → Nat := fun ax => if ax ∈ T then e ax + 1 else e ax

def multilerp (L : Finset String) (u : String → K) (f : (String → Nat) → K) (e : String → Nat) : K :=
  ∑ T ∈ L.powerset, (∏ ax ∈ T, u ax) * (∏ ax ∈ L \ T, (1 - u ax)) * f (corner T e)

theorem multilerp_empty (u : String → K) (f : (String → Nat) → K) (e : String → Nat) : multilerp ∅ u f e = f e := by
  simp only [multilerp, Finset.powerset_empty, Finset.sum_singleton, Finset.prod_empty, Finset.sdiff_empty, one_mul]
  rfl

theorem multilerp_insert {L : Finset String} {ax : String} (h : ax ∉ L) (u : String → K) (f : (String → Nat) → K)
    (e : String → Nat) : multilerp (insert ax L) u f e =
      multilerp L u f e * (1 - u ax) + multilerp L u f (corner {ax} e) * u ax := by
  unfold multilerp
  rw [Finset.sum_powerset_insert h, Finset.sum_mul, Finset.sum_mul]
  congr 1
  · apply Finset.sum_congr rfl
    intro T hT
    have hT' : ax ∉ T := fun hx => h (Finset.mem_powerset.1 hT hx)
    have : insert ax L \ T = insert ax (L \ T) := Finset.insert_sdiff_of_notMem _ hT'
    rw [this, Finset.prod_insert (by simp [h])]
    ring
  · apply Finset.sum_congr rfl
    intro T hT
    have hT' : ax ∉ T := fun hx => h (Finset.mem_powerset.1 hT hx)
    have h1 : insert ax L \ insert ax T = L \ T := by
      ext x
      simp only [Finset.mem_sdiff, Finset.mem_insert, not_or]
      constructor
      · rintro ⟨h1 | h1, h2, h3⟩
        · exact absurd h1 h2
        · exact ⟨h1, h3⟩
      · rintro ⟨h1, h2⟩
        exact ⟨.inr h1, fun hx => h (hx ▸ h1), h2⟩
    have h2 : corner (insert ax T) e = corner T (corner {ax} e) := by
      funext x
      simp only [corner, Finset.mem_insert, Finset.mem_singleton]
      by_cases hx : x = ax
      · subst hx; simp [hT']
      · simp [hx]
    rw [h1, Finset.prod_insert hT', h2]
    ring

theorem multilerp_congr {L : Finset String} {u u' : String → K} {f g : (String → Nat) → K} {e : String → Nat}
    (hu : ∀ ax ∈ L, u ax = u' ax) (hf : ∀ T ⊆ L, f (corner T e) = g (corner T e)) :
    multilerp L u f e = multilerp L u' g e := by
  unfold multilerp
  apply Finset.sum_congr rfl
  intro T hT
  rw [Finset.mem_powerset] at hT
  have h1 : ∏ ax ∈ T, u ax = ∏ ax ∈ T, u' ax := Finset.prod_congr rfl (fun ax hax => hu ax (hT hax))
  have h2 : ∏ ax ∈ L \ T, (1 - u ax) = ∏ ax ∈ L \ T, (1 - u' ax) :=
    Finset.prod_congr rfl (fun ax hax => by rw [hu ax (Finset.mem_sdiff.1 hax).1])
  rw [hf T hT, h1, h2]

/-- At the lower corner. -/
theorem multilerp_zero (L : Finset String) (u : String → K) (f : (String → Nat) → K) (e : String → Nat)
    (h : ∀ ax ∈ L, u ax = 0) : multilerp L u f e = f e := by
  induction L using Finset.induction_on with
  | empty => exact multilerp_empty u f e
  | insert ax L hax ih =>
    rw [multilerp_insert hax, ih (fun x hx => h x (Finset.mem_insert_of_mem hx)), h ax (Finset.mem_insert_self _ _)]
    ring

/-- At any corner. -/
theorem multilerp_corner (L T : Finset String) (u : String → K) (f : (String → Nat) → K) (e : String → Nat)
    (h1 : ∀ ax ∈ L, ax ∈ T → u ax = 1) (h0 : ∀ ax ∈ L, ax ∉ T → u ax = 0) :
    multilerp L u f e = f (corner (L ∩ T) e) := by
  induction L using Finset.induction_on generalizing e with
  | empty => rw [multilerp_empty, Finset.empty_inter]; rfl
  | insert ax L hax ih =>
    have ih' := fun e => ih e (fun x hx => h1 x (Finset.mem_insert_of_mem hx)) (fun x hx => h0 x (Finset.mem_insert_of_mem hx))
    rw [multilerp_insert hax, ih', ih']
    by_cases hT : ax ∈ T
    · rw [h1 ax (Finset.mem_insert_self _ _) hT, sub_self, mul_zero, zero_add, mul_one]
      congr 1
      funext x
      simp only [corner, Finset.mem_inter, Finset.mem_insert, Finset.mem_singleton]
      by_cases hx : x = ax
      · subst hx; simp [hT, hax]
      · simp [hx]
    · rw [h0 ax (Finset.mem_insert_self _ _) hT, sub_zero, mul_zero, add_zero, mul_one]
      congr 1
      funext x
      simp only [corner, Finset.mem_inter, Finset.mem_insert]
      by_cases hx : x = ax
      · subst hx; simp [hT, hax]
      · simp [hx]

/-- The index with the coordinates along `L` removed. -/
def offAxes (L : Finset String) (e : String → Nat) : String → Nat := fun ax => if ax ∈ L then 0 else e ax

theorem offAxes_corner {L T : Finset String} (h : T ⊆ L) (e : String → Nat) : offAxes L (corner T e) = offAxes L e := by
  funext ax
  unfold offAxes corner
  by_cases hx : ax ∈ L
  · simp [hx]
  · have hx' : ax ∉ T := fun h' => hx (h h')
    simp [hx, hx']

/-- Functions which are affine along the axes are reproduced at every position. -/
theorem multilerp_affine (L : Finset String) (u : String → K) (c : K) (g : String → K) (e : String → Nat) :
    multilerp L u (fun e => c + ∑ ax ∈ L, g ax * (e ax : K)) e = c + ∑ ax ∈ L, g ax * ((e ax : K) + u ax) := by
  suffices h : ∀ M : Finset String, L ⊆ M → ∀ e, multilerp L u (fun e => c + ∑ ax ∈ M, g ax * (e ax : K)) e =
      c + ∑ ax ∈ L, g ax * u ax + ∑ ax ∈ M, g ax * (e ax : K) by
    rw [h L (Finset.Subset.refl _)]
    simp only [mul_add, Finset.sum_add_distrib]
    ring
  induction L using Finset.induction_on with
  | empty => intro M _ e; rw [multilerp_empty]; simp
  | insert ax L hax ih =>
    intro M hM e
    have hM' : L ⊆ M := fun x hx => hM (Finset.mem_insert_of_mem hx)
    have hax' : ax ∈ M := hM (Finset.mem_insert_self _ _)
    rw [multilerp_insert hax, ih M hM', ih M hM', Finset.sum_insert hax]
    have : ∑ x ∈ M, g x * ((corner {ax} e x : Nat) : K) = (∑ x ∈ M, g x * (e x : K)) + g ax := by
      rw [← Finset.add_sum_erase _ _ hax', ← Finset.add_sum_erase (a := ax) M (fun x => g x * (e x : K)) hax']
      have h2 : ∑ x ∈ M.erase ax, g x * ((corner {ax} e x : Nat) : K) = ∑ x ∈ M.erase ax, g x * (e x : K) := by
        apply Finset.sum_congr rfl
        intro x hx
        have := Finset.ne_of_mem_erase hx
        simp [corner, this]
      rw [h2]
      simp only [corner, Finset.mem_singleton, if_true, Nat.cast_add, Nat.cast_one]
      ring
    rw [this]
    ring

/-- The weights are a partition of one. -/
theorem multilerp_const (L : Finset String) (u : String → K) (c : K) (e : String → Nat) :
    multilerp L u (fun _ => c) e = c := by
  have := multilerp_affine L u c (fun _ => 0) e
  simpa using this

/-- Inside of the cell the interpolation lies between any bounds of the values at the corners. -/
theorem multilerp_mem_Icc [LinearOrder K] [IsStrictOrderedRing K] (L : Finset String) (u : String → K)
    (f : (String → Nat) → K) (e : String → Nat) (hu : ∀ ax ∈ L, 0 ≤ u ax ∧ u ax ≤ 1) (lo hi : K)
    (hf : ∀ T ⊆ L, lo ≤ f (corner T e) ∧ f (corner T e) ≤ hi) : lo ≤ multilerp L u f e ∧ multilerp L u f e ≤ hi := by
  have hw : ∀ T ∈ L.powerset, 0 ≤ (∏ ax ∈ T, u ax) * (∏ ax ∈ L \ T, (1 - u ax)) := by
    intro T hT
    rw [Finset.mem_powerset] at hT
    exact mul_nonneg (Finset.prod_nonneg (fun ax hax => (hu ax (hT hax)).1))
      (Finset.prod_nonneg (fun ax hax => sub_nonneg.2 (hu ax (Finset.mem_sdiff.1 hax).1).2))
  constructor
  · rw [← multilerp_const L u lo e]
    exact Finset.sum_le_sum (fun T hT => mul_le_mul_of_nonneg_left (hf T (Finset.mem_powerset.1 hT)).1 (hw T hT))
  · rw [← multilerp_const L u hi e]
    exact Finset.sum_le_sum (fun T hT => mul_le_mul_of_nonneg_left (hf T (Finset.mem_powerset.1 hT)).2 (hw T hT))

/-- At the center: the mean of the corners. -/
theorem multilerp_half (L : Finset String) (u : String → K) (f : (String → Nat) → K) (e : String → Nat)
    (h2 : (2 : K) ≠ 0) (h : ∀ ax ∈ L, u ax = 1 / 2) :
    multilerp L u f e = (∑ T ∈ L.powerset, f (corner T e)) / 2 ^ L.card := by
  unfold multilerp
  rw [Finset.sum_div]
  apply Finset.sum_congr rfl
  intro T hT
  rw [Finset.mem_powerset] at hT
  have h4 : ∏ ax ∈ T, u ax = ∏ ax ∈ T, (1 / 2 : K) := Finset.prod_congr rfl (fun ax hax => h ax (hT hax))
  have h5 : ∏ ax ∈ L \ T, (1 - u ax) = ∏ ax ∈ L \ T, (1 - 1 / 2 : K) :=
    Finset.prod_congr rfl (fun ax hax => by rw [h ax (Finset.mem_sdiff.1 hax).1])
  rw [h4, h5, Finset.prod_const, Finset.prod_const]
  have h3 : (1 : K) - 1 / 2 = 1 / 2 := by field_simp; ring
  rw [h3, ← pow_add, ← Finset.card_sdiff_add_card_eq_card hT, add_comm]
  rw [one_div, inv_pow, div_eq_inv_mul]

end NA
