import Verif.Vector.SolidAngle
import Verif.Props.CellVolumes
import Mathlib.Analysis.SpecialFunctions.Complex.Arg
import Mathlib.Analysis.SpecialFunctions.Trigonometric.Arctan

/-!
# Solid angles of cells (C103)
-/

namespace NA
open Dict
open SA (FitsIn InRange)

/-! ### Specification -/
section
variable {K : Type} [Field K]

/-- The scalar product. -/
def dot3 (p q : K × K × K) : K := p.1 * q.1 + p.2.1 * q.2.1 + p.2.2 * q.2.2

/-- The length of a vector. -/
def Trig.norm (m : Trig K) (p : K × K × K) : K := m.sqrt (m.abs p.1 * m.abs p.1 + m.abs p.2.1 * m.abs p.2.1 + m.abs p.2.2 * m.abs p.2.2)

/-- The denominator of the formula of Eriksson. -/
def Trig.denominator (m : Trig K) (p q r : K × K × K) : K :=
  m.norm p * m.norm q * m.norm r + dot3 p q * m.norm r + dot3 p r * m.norm q + dot3 q r * m.norm p

/-- The solid angle of the triangle with the vertices `p`, `q`, `r`. -/
def Trig.triangle (m : Trig K) (p q r : K × K × K) : K := 2 * m.arctan2 (det3 p q r) (m.denominator p q r)

/-- The solid angle of the quadrilateral with the vertices `p`, `q`, `r`, `s`, which is divided along a diagonal. -/
def Trig.quadrilateral (m : Trig K) (p q r s : K × K × K) : K := m.triangle p q r + m.triangle r s p

/-! ### Helpers -/
variable [DecidableEq K]

theorem orZero_rep {S : Shape} {A : String → Prop} {a : Option (SA K)} {f : (String → Nat) → K} (h : RepO S A a f) :
    Rep S (fun _ => False) (V3.orZero a) f := by
  cases a with
  | none => exact (Rep.scalar S (0 : K)).congr fun e he => (h e he).symm
  | some a => exact Rep.mono h fun _ h => h.elim

theorem dot_plain {S : Shape} {A B C A' B' C' : String → Prop} {a b : V3 K} {f g : (String → Nat) → K × K × K}
    (ha : RepV S A B C a f) (hb : RepV S A' B' C' b g) :
    ∃ r, V3.dot a b = .ok r ∧ RepO S (fun _ => False) r (fun e => dot3 (f e) (g e)) := by
  have h0 : RepO S (fun _ => False) (none : Option (SA K)) (fun _ => 0) := fun _ _ => rfl
  obtain ⟨r, r1, r2⟩ := addProduct_rep h0 ha.x hb.x (fun ax h => h.elim)
  obtain ⟨s, s1, s2⟩ := addProduct_rep r2 ha.y hb.y (fun ax h => h.elim)
  obtain ⟨t, t1, t2⟩ := addProduct_rep s2 ha.z hb.z (fun ax h => h.elim)
  refine ⟨t, by simp only [V3.dot, bind, Except.bind, r1, s1, t1], ?_⟩
  cases t with
  | none => exact fun e he => by have := t2 e he; simpa [dot3] using this
  | some t => exact Rep.congr t2 fun e _ => by simp [dot3]

theorem addSquare_rep (m : Trig K) {S : Shape} {A B : String → Prop} {r c : SA K} {f g : (String → Nat) → K} (hr : Rep S A r f) (hc : Rep S B c g) :
    ∃ s, V3.addSquare m r c = .ok s ∧ Rep S (fun ax => A ax ∨ B ax) s (fun e => f e + m.abs (g e) * m.abs (g e)) := by
  obtain ⟨t, t1, t2⟩ := hc.ufunc1 (fun t => m.abs t * m.abs t)
  obtain ⟨s, s1, s2⟩ := hr.ufunc2 (· + ·) t2
  exact ⟨s, by simp only [V3.addSquare, bind, Except.bind, t1, s1], s2⟩

theorem length_rep (m : Trig K) {S : Shape} {A B C : String → Prop} {a : V3 K} {f : (String → Nat) → K × K × K} (ha : RepV S A B C a f) :
    ∃ r, V3.length m a = .ok r ∧ Rep S (fun ax => A ax ∨ B ax ∨ C ax) r (fun e => m.norm (f e)) := by
  obtain ⟨r, r1, r2⟩ := addSquare_rep m (Rep.scalar S (0 : K)) ha.x
  obtain ⟨s, s1, s2⟩ := addSquare_rep m r2 ha.y
  obtain ⟨t, t1, t2⟩ := addSquare_rep m s2 ha.z
  obtain ⟨u, u1, u2⟩ := t2.ufunc1 m.sqrt
  refine ⟨u, by simp only [V3.length, bind, Except.bind, r1, s1, t1, u1], (u2.mono fun ax h => by tauto).congr fun e _ => ?_⟩
  simp [Trig.norm]

theorem dotTimes_rep {S : Shape} {A B C A' B' C' D : String → Prop} {a b : V3 K} {c : SA K} {f g : (String → Nat) → K × K × K}
    {n : (String → Nat) → K} (ha : RepV S A B C a f) (hb : RepV S A' B' C' b g) (hc : Rep S D c n) :
    ∃ r, V3.dotTimes a b c = .ok r ∧ Rep S D r (fun e => dot3 (f e) (g e) * n e) := by
  obtain ⟨d, d1, d2⟩ := dot_plain ha hb
  obtain ⟨r, r1, r2⟩ := (orZero_rep d2).ufunc2 (· * ·) hc
  exact ⟨r, by simp only [V3.dotTimes, bind, Except.bind, d1, r1], r2.mono fun ax h => .inr h⟩

theorem solidAngle_rep (m : Trig K) {S : Shape} {A B C : String → Prop} {a b c : V3 K} {f g h : (String → Nat) → K × K × K}
    (ha : RepV S A B C a f) (hb : RepV S A B C b g) (hc : RepV S A B C c h) :
    ∃ r, V3.solidAngle m a b c = .ok r ∧ Rep S (fun ax => A ax ∨ B ax ∨ C ax) r (fun e => m.triangle (f e) (g e) (h e)) := by
  obtain ⟨bc, x1, x2⟩ := cross_rep hb hc
  obtain ⟨n, n1, n2⟩ := dot_plain ha x2
  obtain ⟨la, a1, a2⟩ := length_rep m ha
  obtain ⟨lb, b1, b2⟩ := length_rep m hb
  obtain ⟨lc, c1, c2⟩ := length_rep m hc
  obtain ⟨ab, p1, p2⟩ := a2.ufunc2 (· * ·) b2
  obtain ⟨d0, q1, q2⟩ := p2.ufunc2 (· * ·) c2
  obtain ⟨d1, r1, r2⟩ := dotTimes_rep ha hb c2
  obtain ⟨d2, s1, s2⟩ := dotTimes_rep ha hc b2
  obtain ⟨d3, t1, t2⟩ := dotTimes_rep hb hc a2
  obtain ⟨e0, u1, u2⟩ := q2.ufunc2 (· + ·) r2
  obtain ⟨e1, v1, v2⟩ := u2.ufunc2 (· + ·) s2
  obtain ⟨e2, w1, w2⟩ := v2.ufunc2 (· + ·) t2
  obtain ⟨r, y1, y2⟩ := (orZero_rep n2).ufunc2 (fun y x => 2 * m.arctan2 y x) w2
  refine ⟨r, ?_, (y2.mono fun ax h => .inr (.inr h)).congr fun e _ => ?_⟩
  · simp only [V3.solidAngle, bind, Except.bind, x1, n1, a1, b1, c1, p1, q1, r1, s1, t1, u1, v1, w1, y1]
  · unfold Trig.triangle Trig.denominator
    congr 2
    unfold dot3 det3
    ring

/-! ### C103 -/

/-- **C103** (solid angles of cells). The solid angles of a grid of three-dimensional vertices along two different axes: the shape has one element
less along these axes, and each element is the solid angle of the quadrilateral of the four vertices.
Partial: components of size one along a longer axis are not covered. -/
theorem C103_solid_angle_partial (m : Trig K) (v : V3 K) (S : Shape) (hS : broadcastShapes [v.x.shape, v.y.shape, v.z.shape] = .ok S)
    (hv : v.FullAxes S) (ax ay : String) (hxy : ax ≠ ay) (hx : ax ∈ keys S) (hy : ay ∈ keys S) (axis : Option (List String))
    (haxis : axis = some [ax, ay] ∨ axis = none ∧ keys S = [ax, ay]) :
    ∃ r, v.solidAngleCell m axis = .ok r ∧ r.WF ∧ CentersOf S {ax, ay} r.shape ∧
      ∀ e, InRange r.shape e → r.at' e =
        m.quadrilateral (v.vertex e) (v.vertex (corner {ax} e)) (v.vertex (corner {ax, ay} e)) (v.vertex (corner {ay} e)) := by
  have hrx := Rep.of_sub (hv v.x (by simp)).1 (hv v.x (by simp)).2
  have hry := Rep.of_sub (hv v.y (by simp)).1 (hv v.y (by simp)).2
  have hrz := Rep.of_sub (hv v.z (by simp)).1 (hv v.z (by simp)).2
  have hV : RepV S (· ∈ v.x.axes) (· ∈ v.y.axes) (· ∈ v.z.axes) v v.vertex := ⟨hrx, hry, hrz⟩
  have hw : ∀ u ∈ [v.x.shape, v.y.shape, v.z.shape], WF u := by
    intro u hu
    simp only [List.mem_cons, List.not_mem_nil, or_false] at hu
    rcases hu with rfl | rfl | rfl
    · exact SA.wf_shape (hv v.x (by simp)).1
    · exact SA.wf_shape (hv v.y (by simp)).1
    · exact SA.wf_shape (hv v.z (by simp)).1
  obtain ⟨hSw, hSk, _⟩ := C01_broadcast_shapes_ok _ hw S hS
  have hall : ∀ a ∈ keys S, a ∈ v.x.axes ∨ a ∈ v.y.axes ∨ a ∈ v.z.axes := by
    intro a ha
    obtain ⟨s, hs, hs'⟩ := (hSk a).1 ha
    simp only [List.mem_cons, List.not_mem_nil, or_false] at hs
    rcases hs with rfl | rfl | rfl
    · left; rw [← SA.keys_shape (hv v.x (by simp)).1]; exact hs'
    · right; left; rw [← SA.keys_shape (hv v.y (by simp)).1]; exact hs'
    · right; right; rw [← SA.keys_shape (hv v.z (by simp)).1]; exact hs'
  have em : ∀ (a : SA K) x, x ∈ a.axes ∨ x ∉ a.axes := fun a x => Classical.em _
  obtain ⟨a, a1, a2⟩ := hV.corner hxy (em _) (em _) (em _) false false
  obtain ⟨b, b1, b2⟩ := hV.corner hxy (em _) (em _) (em _) true false
  obtain ⟨c, c1, c2⟩ := hV.corner hxy (em _) (em _) (em _) true true
  obtain ⟨d, d1, d2⟩ := hV.corner hxy (em _) (em _) (em _) false true
  have hc0 : ∀ e, corner ∅ e = e := fun e => by funext ax; simp [corner]
  have hu : ({ax} : Finset String) ∪ {ay} = {ax, ay} := rfl
  simp only [if_true, Bool.false_eq_true, if_false, Finset.empty_union, Finset.union_empty, hc0, hu] at a2 b2 c2 d2
  obtain ⟨r1, g1, g2⟩ := solidAngle_rep m a2 b2 c2
  obtain ⟨r2, g3, g4⟩ := solidAngle_rep m c2 d2 a2
  obtain ⟨r, q1, q2⟩ := g2.ufunc2 (· + ·) g4
  have hfull : Full (shrink S [ax, ay]) r := q2.to_full fun a h => by rw [keys_shrink] at h; exact .inl (hall a h)
  refine ⟨r, ?_, q2.wf, ?_, fun e he => ?_⟩
  · unfold V3.solidAngleCell
    have hg : axis.getD (keys S) = [ax, ay] := by
      rcases haxis with rfl | ⟨rfl, h⟩
      · rfl
      · exact h
    simp only [hS, bind, Except.bind, hg, hx, hy, and_self, if_true, a1, b1, c1, d1, g1, g3]
    exact q1
  · intro a
    rw [hfull.2 a, get?_shrink]
    simp
  · have he' : InRange (shrink S [ax, ay]) e := fun a n hn => he a n (by rw [hfull.2 a]; exact hn)
    rw [← hfull.atB he', q2.val e he']
    rfl

/-- **C103** Axes which the vector lacks, and another number of axes than two, raise `ValueError`. -/
theorem C103_axes (m : Trig K) (v : V3 K) (S : Shape) (hS : broadcastShapes [v.x.shape, v.y.shape, v.z.shape] = .ok S) (axis : Option (List String))
    (h : (axis.getD (keys S)).length ≠ 2 ∨ ∃ a ∈ axis.getD (keys S), a ∉ keys S) : v.solidAngleCell m axis = .error .valueError := by
  unfold V3.solidAngleCell
  simp only [hS, bind, Except.bind]
  split
  · rename_i ax ay hax
    rw [if_neg]
    rw [hax] at h
    rcases h with h | ⟨a, h1, h2⟩
    · simp at h
    · simp only [List.mem_cons, List.not_mem_nil, or_false] at h1
      rintro ⟨h3, h4⟩
      rcases h1 with rfl | rfl
      · exact h2 h3
      · exact h2 h4
  · rfl

/-- **C103** The components must broadcast. -/
theorem C103_clash (m : Trig K) (v : V3 K) (axis : Option (List String)) (e : Err)
    (h : broadcastShapes [v.x.shape, v.y.shape, v.z.shape] = .error e) : v.solidAngleCell m axis = .error e := by
  unfold V3.solidAngleCell
  simp only [h, bind, Except.bind]

end

/-! ### Angles -/
section Angles
open Complex (arg)
open Real (pi)

/-- The functions of real numbers which numpy approximates; `np.arctan2(y, x)` is the argument of `x + i y`. -/
noncomputable def realTrig : Trig ℝ := ⟨Real.sqrt, fun x => |x|, fun y x => arg ⟨x, y⟩⟩

theorem norm_real (p : ℝ × ℝ × ℝ) : realTrig.norm p = Real.sqrt (dot3 p p) := by
  simp only [Trig.norm, realTrig, abs_mul_abs_self, dot3]

/-- The product of a vector with a number. -/
def scaled {K : Type} [Mul K] (s : K) (p : K × K × K) : K × K × K := (s * p.1, s * p.2.1, s * p.2.2)

theorem norm_scaled {s : ℝ} (hs : 0 < s) (p : ℝ × ℝ × ℝ) : realTrig.norm (scaled s p) = s * realTrig.norm p := by
  rw [norm_real, norm_real]
  have : dot3 (scaled s p) (scaled s p) = s ^ 2 * dot3 p p := by simp only [dot3, scaled]; ring
  rw [this, Real.sqrt_mul (by positivity), Real.sqrt_sq hs.le]

/-- **C103** (spec) The solid angle depends on the directions of the vertices only. -/
theorem triangle_scaled {s t u : ℝ} (hs : 0 < s) (ht : 0 < t) (hu : 0 < u) (p q r : ℝ × ℝ × ℝ) :
    realTrig.triangle (scaled s p) (scaled t q) (scaled u r) = realTrig.triangle p q r := by
  unfold Trig.triangle
  have h1 : det3 (scaled s p) (scaled t q) (scaled u r) = s * t * u * det3 p q r := by simp only [det3, scaled]; ring
  have h2 : realTrig.denominator (scaled s p) (scaled t q) (scaled u r) = s * t * u * realTrig.denominator p q r := by
    unfold Trig.denominator
    rw [norm_scaled hs, norm_scaled ht, norm_scaled hu]
    simp only [dot3, scaled]
    ring
  rw [h1, h2]
  congr 1
  show arg ⟨_, _⟩ = arg ⟨_, _⟩
  have : (⟨s * t * u * realTrig.denominator p q r, s * t * u * det3 p q r⟩ : ℂ) =
      ((s * t * u : ℝ) : ℂ) * ⟨realTrig.denominator p q r, det3 p q r⟩ := by
    apply Complex.ext <;> simp
  rw [this, Complex.arg_real_mul _ (by positivity)]

/-- The image of a vector under a matrix. -/
def image3 {K : Type} [Field K] (m : Fin 3 → Fin 3 → K) (v : K × K × K) : K × K × K :=
  (m 0 0 * v.1 + m 0 1 * v.2.1 + m 0 2 * v.2.2, m 1 0 * v.1 + m 1 1 * v.2.1 + m 1 2 * v.2.2, m 2 0 * v.1 + m 2 1 * v.2.1 + m 2 2 * v.2.2)

/-- The determinant of a matrix. -/
def matDet {K : Type} [Field K] (m : Fin 3 → Fin 3 → K) : K := det3 (m 0 0, m 0 1, m 0 2) (m 1 0, m 1 1, m 1 2) (m 2 0, m 2 1, m 2 2)

theorem denominator_image {m : Fin 3 → Fin 3 → ℝ} (hm : ∀ p q, dot3 (image3 m p) (image3 m q) = dot3 p q) (p q r : ℝ × ℝ × ℝ) :
    realTrig.denominator (image3 m p) (image3 m q) (image3 m r) = realTrig.denominator p q r := by
  unfold Trig.denominator
  simp only [norm_real, hm]

/-- **C103** (spec) The solid angle does not change under rotations. -/
theorem triangle_rotated {m : Fin 3 → Fin 3 → ℝ} (hm : ∀ p q, dot3 (image3 m p) (image3 m q) = dot3 p q) (hd : matDet m = 1) (p q r : ℝ × ℝ × ℝ) :
    realTrig.triangle (image3 m p) (image3 m q) (image3 m r) = realTrig.triangle p q r := by
  unfold Trig.triangle
  rw [denominator_image hm]
  have : det3 (image3 m p) (image3 m q) (image3 m r) = matDet m * det3 p q r := det3_linear m p q r
  rw [this, hd, one_mul]

/-- A triangle is degenerate if it is half of a great circle or more: the formula gives `2 π` for both orientations. -/
def Degenerate (p q r : ℝ × ℝ × ℝ) : Prop := det3 p q r = 0 ∧ realTrig.denominator p q r < 0

theorem arctan2_neg {y x : ℝ} (h : ¬ (y = 0 ∧ x < 0)) : realTrig.arctan2 (-y) x = -realTrig.arctan2 y x := by
  show arg ⟨x, -y⟩ = -arg ⟨x, y⟩
  have hc : (⟨x, -y⟩ : ℂ) = (starRingEnd ℂ) ⟨x, y⟩ := rfl
  rw [hc, Complex.arg_conj, if_neg]
  intro h'
  rw [Complex.arg_eq_pi_iff] at h'
  exact h ⟨h'.2, h'.1⟩

/-- **C103** (spec) The solid angle of a triangle does not depend on the first vertex, and the orientation gives its sign. -/
theorem triangle_cyclic (p q r : ℝ × ℝ × ℝ) : realTrig.triangle q r p = realTrig.triangle p q r := by
  unfold Trig.triangle
  have h1 : det3 q r p = det3 p q r := by simp only [det3]; ring
  have h2 : realTrig.denominator q r p = realTrig.denominator p q r := by
    unfold Trig.denominator
    simp only [dot3]
    ring
  rw [h1, h2]

theorem denominator_swap (p q r : ℝ × ℝ × ℝ) : realTrig.denominator q p r = realTrig.denominator p q r := by
  unfold Trig.denominator
  simp only [dot3]
  ring

theorem triangle_swap {p q r : ℝ × ℝ × ℝ} (h : ¬ Degenerate p q r) : realTrig.triangle q p r = -realTrig.triangle p q r := by
  unfold Trig.triangle
  have h1 : det3 q p r = -det3 p q r := by simp only [det3]; ring
  rw [denominator_swap, h1, arctan2_neg h]
  ring

/-- The complex number whose argument is half of the solid angle. -/
theorem arg_add_of_same_side {z w u : ℂ} {k : ℝ} (hk : 0 < k) (h : z * w = (k : ℂ) * u) (hz : 0 < z.im) (hw : 0 < w.im) (hu : 0 < u.im) :
    arg z + arg w = arg u := by
  have z0 : z ≠ 0 := fun h => by rw [h] at hz; simp at hz
  have w0 : w ≠ 0 := fun h => by rw [h] at hw; simp at hw
  have key : ∀ v : ℂ, 0 < v.im → 0 < arg v ∧ arg v < pi := by
    intro v hv
    refine ⟨lt_of_le_of_ne (Complex.arg_nonneg_iff.2 hv.le) fun h => ?_, lt_of_le_of_ne (Complex.arg_le_pi v) fun h => ?_⟩
    · have := (Complex.arg_eq_zero_iff.1 h.symm).2
      exact hv.ne' this
    · have := (Complex.arg_eq_pi_iff.1 h).2
      exact hv.ne' this
  have hle : arg z + arg w ≤ pi := by
    by_contra hc
    push Not at hc
    have hs : Real.sin (arg z + arg w) < 0 := by
      have h1 := (key z hz).2
      have h2 := (key w hw).2
      have := Real.sin_neg_of_neg_of_neg_pi_lt (x := arg z + arg w - 2 * pi) (by linarith) (by linarith)
      rwa [Real.sin_sub_two_pi] at this
    rw [Real.sin_add, Complex.sin_arg, Complex.sin_arg, Complex.cos_arg z0, Complex.cos_arg w0] at hs
    have him : 0 < (z * w).im := by rw [h]; simpa using mul_pos hk hu
    rw [Complex.mul_im] at him
    have hn : 0 < ‖z‖ * ‖w‖ := mul_pos (norm_pos_iff.2 z0) (norm_pos_iff.2 w0)
    have : z.im / ‖z‖ * (w.re / ‖w‖) + z.re / ‖z‖ * (w.im / ‖w‖) = (z.re * w.im + z.im * w.re) / (‖z‖ * ‖w‖) := by
      field_simp
      ring
    rw [this] at hs
    exact absurd (div_pos him hn) (not_lt.2 hs.le)
  have hpi := Real.pi_pos
  rw [← Complex.arg_mul z0 w0 ⟨by linarith [(key z hz).1, (key w hw).1], hle⟩, h, Complex.arg_real_mul _ hk]

/-- The point which divides an edge in the given proportion. -/
def between (β γ : ℝ) (q r : ℝ × ℝ × ℝ) : ℝ × ℝ × ℝ := (β * q.1 + γ * r.1, β * q.2.1 + γ * r.2.1, β * q.2.2 + γ * r.2.2)

theorem dot3_between (β γ : ℝ) (p q r : ℝ × ℝ × ℝ) : dot3 p (between β γ q r) = β * dot3 p q + γ * dot3 p r := by
  simp only [dot3, between]; ring

theorem dot3_comm (p q : ℝ × ℝ × ℝ) : dot3 p q = dot3 q p := by simp only [dot3]; ring

theorem gram (p q r : ℝ × ℝ × ℝ) : det3 p q r ^ 2 = dot3 p p * dot3 q q * dot3 r r + 2 * dot3 p q * dot3 p r * dot3 q r -
    dot3 p q ^ 2 * dot3 r r - dot3 p r ^ 2 * dot3 q q - dot3 q r ^ 2 * dot3 p p := by
  simp only [dot3, det3]; ring

theorem dot3_self_nonneg (p : ℝ × ℝ × ℝ) : 0 ≤ dot3 p p := by
  simp only [dot3]; nlinarith [mul_self_nonneg p.1, mul_self_nonneg p.2.1, mul_self_nonneg p.2.2]

theorem norm_sq (p : ℝ × ℝ × ℝ) : realTrig.norm p ^ 2 = dot3 p p := by
  rw [norm_real, Real.sq_sqrt (dot3_self_nonneg p)]

theorem norm_nonneg' (p : ℝ × ℝ × ℝ) : 0 ≤ realTrig.norm p := by rw [norm_real]; exact Real.sqrt_nonneg _

/-- the strict inequality of Cauchy and Schwarz, if the vectors are part of a basis -/
theorem cauchy {p d q : ℝ × ℝ × ℝ} (h : det3 p q d ≠ 0) : 0 < realTrig.norm p * realTrig.norm d + dot3 p d := by
  by_contra hc
  push Not at hc
  have h1 : (realTrig.norm p * realTrig.norm d) ^ 2 ≤ dot3 p d ^ 2 := by
    have := mul_nonneg (norm_nonneg' p) (norm_nonneg' d)
    nlinarith
  rw [mul_pow, norm_sq, norm_sq] at h1
  have h2 : (p.2.1 * d.2.2 - p.2.2 * d.2.1) ^ 2 + (p.1 * d.2.2 - p.2.2 * d.1) ^ 2 + (p.1 * d.2.1 - p.2.1 * d.1) ^ 2 ≤ 0 := by
    simp only [dot3] at h1
    nlinarith
  have e1 : p.2.1 * d.2.2 - p.2.2 * d.2.1 = 0 := by
    apply pow_eq_zero_iff (n := 2) (by norm_num) |>.1
    nlinarith [sq_nonneg (p.2.1 * d.2.2 - p.2.2 * d.2.1), sq_nonneg (p.1 * d.2.2 - p.2.2 * d.1), sq_nonneg (p.1 * d.2.1 - p.2.1 * d.1)]
  have e2 : p.1 * d.2.2 - p.2.2 * d.1 = 0 := by
    apply pow_eq_zero_iff (n := 2) (by norm_num) |>.1
    nlinarith [sq_nonneg (p.2.1 * d.2.2 - p.2.2 * d.2.1), sq_nonneg (p.1 * d.2.2 - p.2.2 * d.1), sq_nonneg (p.1 * d.2.1 - p.2.1 * d.1)]
  have e3 : p.1 * d.2.1 - p.2.1 * d.1 = 0 := by
    apply pow_eq_zero_iff (n := 2) (by norm_num) |>.1
    nlinarith [sq_nonneg (p.2.1 * d.2.2 - p.2.2 * d.2.1), sq_nonneg (p.1 * d.2.2 - p.2.2 * d.1), sq_nonneg (p.1 * d.2.1 - p.2.1 * d.1)]
  apply h
  simp only [det3]
  linear_combination (-q.1) * e1 + q.2.1 * e2 - q.2.2 * e3

theorem additive_pos {p q r : ℝ × ℝ × ℝ} {β γ : ℝ} (hβ : 0 < β) (hγ : 0 < γ) (h : 0 < det3 p q r) :
    realTrig.triangle p q (between β γ q r) + realTrig.triangle p (between β γ q r) r = realTrig.triangle p q r := by
  have v1 : det3 p q (between β γ q r) = γ * det3 p q r := by simp only [det3, between]; ring
  have v2 : det3 p (between β γ q r) r = β * det3 p q r := by simp only [det3, between]; ring
  have hP := norm_sq p
  have hQ := norm_sq q
  have hR := norm_sq r
  have hD := norm_sq (between β γ q r)
  have hk0 := cauchy (p := p) (d := between β γ q r) (q := q) (by rw [v1]; exact (mul_pos hγ h).ne')
  have hQ0 := norm_nonneg' q
  have hR0 := norm_nonneg' r
  have hD0 := norm_nonneg' (between β γ q r)
  have hDpos : 0 < realTrig.norm (between β γ q r) := by
    refine lt_of_le_of_ne hD0 fun h0 => ?_
    have hz : dot3 (between β γ q r) (between β γ q r) = 0 := by rw [← hD, ← h0]; norm_num
    have := gram p q (between β γ q r)
    rw [v1, hz] at this
    have hs : ∀ x : ℝ × ℝ × ℝ, dot3 x (between β γ q r) = 0 := by
      intro x
      simp only [dot3] at hz
      have a1 : (between β γ q r).1 = 0 := by nlinarith [mul_self_nonneg (between β γ q r).1, mul_self_nonneg (between β γ q r).2.1, mul_self_nonneg (between β γ q r).2.2]
      have a2 : (between β γ q r).2.1 = 0 := by nlinarith [mul_self_nonneg (between β γ q r).1, mul_self_nonneg (between β γ q r).2.1, mul_self_nonneg (between β γ q r).2.2]
      have a3 : (between β γ q r).2.2 = 0 := by nlinarith [mul_self_nonneg (between β γ q r).1, mul_self_nonneg (between β γ q r).2.1, mul_self_nonneg (between β γ q r).2.2]
      simp only [dot3, a1, a2, a3, mul_zero, add_zero]
    rw [hs, hs] at this
    have := mul_pos hγ h
    nlinarith
  have hd : dot3 (between β γ q r) (between β γ q r) = β ^ 2 * dot3 q q + 2 * β * γ * dot3 q r + γ ^ 2 * dot3 r r := by
    simp only [dot3, between]; ring
  have hg := gram p q r
  have hw := dot3_between β γ p q r
  have hqd := dot3_between β γ q q r
  have hdr : dot3 (between β γ q r) r = β * dot3 q r + γ * dot3 r r := by simp only [dot3, between]; ring
  unfold Trig.triangle
  rw [← mul_add]
  congr 1
  show arg ⟨_, _⟩ + arg ⟨_, _⟩ = arg ⟨_, _⟩
  refine arg_add_of_same_side (k := (realTrig.norm p * realTrig.norm (between β γ q r) + dot3 p (between β γ q r)) *
    (realTrig.norm (between β γ q r) + β * realTrig.norm q + γ * realTrig.norm r)) (mul_pos hk0 ?_) ?_ ?_ ?_ h
  · have := mul_nonneg hβ.le hQ0
    have := mul_nonneg hγ.le hR0
    linarith
  · unfold Trig.denominator
    rw [v1, v2, hw, hqd, hdr]
    rw [hd] at hD
    rw [← hP, ← hQ, ← hR] at hg
    rw [← hQ, ← hR] at hD ⊢
    generalize realTrig.norm p = P at *
    generalize realTrig.norm q = Q at *
    generalize realTrig.norm r = T at *
    generalize realTrig.norm (between β γ q r) = D at *
    generalize det3 p q r = v at *
    generalize dot3 p q = s at *
    generalize dot3 p r = t at *
    generalize dot3 q r = u at *
    apply Complex.ext
    · simp only [Complex.mul_re, Complex.ofReal_re, Complex.ofReal_im, zero_mul, sub_zero]
      linear_combination (s * t - u * P ^ 2) * hD - β * γ * hg
    · simp only [Complex.mul_im, Complex.ofReal_re, Complex.ofReal_im, zero_mul, add_zero]
      linear_combination (-v * P) * hD
  · show 0 < det3 p q (between β γ q r)
    rw [v1]; exact mul_pos hγ h
  · show 0 < det3 p (between β γ q r) r
    rw [v2]; exact mul_pos hβ h

/-- **C103** (spec) Solid angles add up: if a triangle is divided by a line from a vertex to a point of the opposite edge, then its solid angle is the
sum of the solid angles of the two parts. -/
theorem C103_additive (p q r : ℝ × ℝ × ℝ) (β γ : ℝ) (hβ : 0 < β) (hγ : 0 < γ) (h : det3 p q r ≠ 0) :
    realTrig.triangle p q (between β γ q r) + realTrig.triangle p (between β γ q r) r = realTrig.triangle p q r := by
  rcases lt_or_gt_of_ne h with h | h
  · have hb : between γ β r q = between β γ q r := by simp only [between, add_comm]
    have h' : 0 < det3 p r q := by
      have : det3 p r q = -det3 p q r := by simp only [det3]; ring
      linarith
    have key := additive_pos hγ hβ h'
    rw [hb] at key
    have flip : ∀ x y : ℝ × ℝ × ℝ, det3 p x y ≠ 0 → realTrig.triangle p y x = -realTrig.triangle p x y := by
      intro x y hxy
      rw [← triangle_cyclic p y x, ← triangle_swap (p := p) (q := x) (r := y) (fun hd => hxy hd.1), ← triangle_cyclic y x p, ← triangle_cyclic x p y]
    have v1 : det3 p q (between β γ q r) = γ * det3 p q r := by simp only [det3, between]; ring
    have v2 : det3 p (between β γ q r) r = β * det3 p q r := by simp only [det3, between]; ring
    have e1 := flip q r h.ne
    have e2 := flip q (between β γ q r) (by rw [v1]; exact mul_ne_zero hγ.ne' h.ne)
    have e3 := flip (between β γ q r) r (by rw [v2]; exact mul_ne_zero hβ.ne' h.ne)
    linarith
  · exact additive_pos hβ hγ h

/-- The vertices of the second grid are the images of the vertices of the first grid under a map of the space, which may depend on the vertex. -/
def MapsGrid (S : Shape) (v w : V3 ℝ) (T : (String → Nat) → ℝ × ℝ × ℝ → ℝ × ℝ × ℝ) : Prop :=
  ∀ e, InRange S e → w.vertex e = T e (v.vertex e)

open Classical in
theorem mapped_cells (v w : V3 ℝ) (S S' : Shape) (hS : broadcastShapes [v.x.shape, v.y.shape, v.z.shape] = .ok S)
    (hS' : broadcastShapes [w.x.shape, w.y.shape, w.z.shape] = .ok S') (hSS : Same S S') (hv : v.FullAxes S) (hw : w.FullAxes S')
    (ax ay : String) (hxy : ax ≠ ay) (hx : ax ∈ keys S) (hy : ay ∈ keys S) (T : (String → Nat) → ℝ × ℝ × ℝ → ℝ × ℝ × ℝ) (hT : MapsGrid S v w T)
    (hinv : ∀ e f g p q r, realTrig.triangle (T e p) (T f q) (T g r) = realTrig.triangle p q r) :
    ∃ r r', v.solidAngleCell realTrig (some [ax, ay]) = .ok r ∧ w.solidAngleCell realTrig (some [ax, ay]) = .ok r' ∧ SA.SameByName r r' := by
  have hk : ∀ a, a ∈ keys S → a ∈ keys S' := by
    intro a h
    obtain ⟨n, hn⟩ := exists_get?_of_mem h
    exact mem_keys_of_get? (v := n) (by rw [← hSS a]; exact hn)
  obtain ⟨r, r1, r2, r3, r4⟩ := C103_solid_angle_partial realTrig v S hS hv ax ay hxy hx hy _ (.inl rfl)
  obtain ⟨r', g1, g2, g3, g4⟩ := C103_solid_angle_partial realTrig w S' hS' hw ax ay hxy (hk _ hx) (hk _ hy) _ (.inl rfl)
  have hsame : Same r.shape r'.shape := fun a => by rw [r3 a, g3 a, hSS a]
  refine ⟨r, r', r1, g1, hsame, fun e he => ?_⟩
  have hin : ∀ L : Finset String, L ⊆ {ax, ay} → InRange S (corner L e) := fun L hL => corner_inRange r3 hL he
  rw [r4 e he, g4 e (fun a n hn => he a n (by rw [hsame a]; exact hn))]
  have h0 : InRange S e := by
    have := hin ∅ (by simp)
    rwa [show corner ∅ e = e from by funext a; simp [corner]] at this
  rw [hT _ h0, hT _ (hin {ax} (by simp)), hT _ (hin {ax, ay} (by simp)), hT _ (hin {ay} (by simp))]
  unfold Trig.quadrilateral
  rw [hinv, hinv]

open Classical in
/-- **C103** (directions). If the vertices are moved along the lines of sight, each by a positive factor of its own, then the solid angles of the
cells do not change. -/
theorem C103_directions_partial (v w : V3 ℝ) (S S' : Shape) (hS : broadcastShapes [v.x.shape, v.y.shape, v.z.shape] = .ok S)
    (hS' : broadcastShapes [w.x.shape, w.y.shape, w.z.shape] = .ok S') (hSS : Same S S') (hv : v.FullAxes S) (hw : w.FullAxes S')
    (ax ay : String) (hxy : ax ≠ ay) (hx : ax ∈ keys S) (hy : ay ∈ keys S) (factor : (String → Nat) → ℝ) (hpos : ∀ e, 0 < factor e)
    (hT : MapsGrid S v w (fun e p => scaled (factor e) p)) :
    ∃ r r', v.solidAngleCell realTrig (some [ax, ay]) = .ok r ∧ w.solidAngleCell realTrig (some [ax, ay]) = .ok r' ∧ SA.SameByName r r' :=
  mapped_cells v w S S' hS hS' hSS hv hw ax ay hxy hx hy _ hT (fun e f g p q r => triangle_scaled (hpos e) (hpos f) (hpos g) p q r)

open Classical in
/-- **C103** (rotations). If all vertices are rotated about the origin, then the solid angles of the cells do not change. -/
theorem C103_rotation_partial (v w : V3 ℝ) (S S' : Shape) (hS : broadcastShapes [v.x.shape, v.y.shape, v.z.shape] = .ok S)
    (hS' : broadcastShapes [w.x.shape, w.y.shape, w.z.shape] = .ok S') (hSS : Same S S') (hv : v.FullAxes S) (hw : w.FullAxes S')
    (ax ay : String) (hxy : ax ≠ ay) (hx : ax ∈ keys S) (hy : ay ∈ keys S) (m : Fin 3 → Fin 3 → ℝ)
    (hm : ∀ p q, dot3 (image3 m p) (image3 m q) = dot3 p q) (hd : matDet m = 1) (hT : MapsGrid S v w (fun _ => image3 m)) :
    ∃ r r', v.solidAngleCell realTrig (some [ax, ay]) = .ok r ∧ w.solidAngleCell realTrig (some [ax, ay]) = .ok r' ∧ SA.SameByName r r' :=
  mapped_cells v w S S' hS hS' hSS hv hw ax ay hxy hx hy _ hT (fun _ _ _ p q r => triangle_rotated hm hd p q r)

open Classical in
/-- **C103** (orientation). Exchanging the two axes changes the signs of the solid angles, where no triangle is degenerate. -/
theorem C103_orientation_partial (v : V3 ℝ) (S : Shape) (hS : broadcastShapes [v.x.shape, v.y.shape, v.z.shape] = .ok S) (hv : v.FullAxes S)
    (ax ay : String) (hxy : ax ≠ ay) (hx : ax ∈ keys S) (hy : ay ∈ keys S) :
    ∃ r r', v.solidAngleCell realTrig (some [ax, ay]) = .ok r ∧ v.solidAngleCell realTrig (some [ay, ax]) = .ok r' ∧ Same r.shape r'.shape ∧
      ∀ e, InRange r.shape e → ¬ Degenerate (v.vertex e) (v.vertex (corner {ax} e)) (v.vertex (corner {ax, ay} e)) →
        ¬ Degenerate (v.vertex (corner {ax, ay} e)) (v.vertex (corner {ay} e)) (v.vertex e) → r'.at' e = -r.at' e := by
  obtain ⟨r, r1, r2, r3, r4⟩ := C103_solid_angle_partial realTrig v S hS hv ax ay hxy hx hy _ (.inl rfl)
  obtain ⟨r', g1, g2, g3, g4⟩ := C103_solid_angle_partial realTrig v S hS hv ay ax hxy.symm hy hx _ (.inl rfl)
  have hp : ({ay, ax} : Finset String) = {ax, ay} := Finset.pair_comm _ _
  have hsame : Same r.shape r'.shape := fun a => by rw [r3 a, g3 a, hp]
  refine ⟨r, r', r1, g1, hsame, fun e he h1 h2 => ?_⟩
  rw [r4 e he, g4 e (fun a n hn => he a n (by rw [hsame a]; exact hn)), hp]
  unfold Trig.quadrilateral
  generalize v.vertex e = p at *
  generalize v.vertex (corner {ax} e) = q at *
  generalize v.vertex (corner {ax, ay} e) = t at *
  generalize v.vertex (corner {ay} e) = u at *
  have a1 := triangle_swap h1
  have a2 := triangle_swap h2
  have b1 : realTrig.triangle p u t = realTrig.triangle u t p := (triangle_cyclic p u t).symm
  have b2 : realTrig.triangle t q p = realTrig.triangle q p t := (triangle_cyclic t q p).symm
  linarith

end Angles

/-! ### Examples -/
section Examples
open Complex (arg)
open Real (pi)

/-- an eighth of the sphere -/
example : realTrig.triangle (1, 0, 0) (0, 1, 0) (0, 0, 1) = pi / 2 := by
  have hn : ∀ p : ℝ × ℝ × ℝ, dot3 p p = 1 → realTrig.norm p = 1 := fun p h => by rw [norm_real, h, Real.sqrt_one]
  have h1 := hn (1, 0, 0) (by norm_num [dot3])
  have h2 := hn (0, 1, 0) (by norm_num [dot3])
  have h3 := hn (0, 0, 1) (by norm_num [dot3])
  unfold Trig.triangle Trig.denominator
  rw [h1, h2, h3]
  show 2 * arg ⟨_, _⟩ = _
  have : (⟨1 * 1 * 1 + dot3 (1, 0, 0) (0, 1, 0) * 1 + dot3 (1, 0, 0) (0, 0, 1) * 1 + dot3 (0, 1, 0) (0, 0, 1) * 1,
      det3 (1, 0, 0) (0, 1, 0) (0, 0, 1)⟩ : ℂ) = ((Real.sqrt 2 : ℝ) : ℂ) * (Complex.cos ((pi / 4 : ℝ)) + Complex.sin ((pi / 4 : ℝ)) * Complex.I) := by
    have hs : Real.sqrt 2 * Real.sqrt 2 = 2 := Real.mul_self_sqrt (by norm_num)
    apply Complex.ext
    · rw [← Complex.ofReal_cos, ← Complex.ofReal_sin]
      simp [dot3, Real.cos_pi_div_four]
      linarith
    · rw [← Complex.ofReal_cos, ← Complex.ofReal_sin]
      simp [det3, Real.sin_pi_div_four]
      linarith
  rw [this, Complex.arg_mul_cos_add_sin_mul_I (by positivity) ⟨by linarith [Real.pi_pos], by linarith [Real.pi_pos]⟩]
  ring

/-- a face of a cube around the origin -/
def exFace (K : Type) [Field K] : V3 K := 
  ⟨⟨["i"], ⟨[2], fun i => if i.getD 0 0 = 0 then -1 else 1⟩⟩, ⟨["j"], ⟨[2], fun j => if j.getD 0 0 = 0 then -1 else 1⟩⟩, ⟨[], ⟨[], fun _ => 1⟩⟩⟩

/-- other functions instead of the square root and the angle, to see the computation -/
def exTrig : Trig ℚ := ⟨id, fun x => if x < 0 then -x else x, fun y x => y / x⟩

example : ((exFace ℚ).solidAngleCell exTrig (some ["i", "j"])).map (fun r => (r.axes, r.nd.toList)) = .ok (["i", "j"], [8 / 15]) := by decide +kernel

example : exTrig.quadrilateral (-1, -1, 1) (1, -1, 1) (1, 1, 1) (-1, 1, 1) = 8 / 15 := by decide +kernel

example (K : Type) [Field K] : broadcastShapes [(exFace K).x.shape, (exFace K).y.shape, (exFace K).z.shape] = .ok [("i", 2), ("j", 2)] := by rfl

example (K : Type) [Field K] : (exFace K).FullAxes [("i", 2), ("j", 2)] := by
  intro c hc
  simp only [List.mem_cons, List.not_mem_nil, or_false] at hc
  rcases hc with rfl | rfl | rfl
  · refine ⟨⟨rfl, by simp [exFace]⟩, fun a n h => ?_⟩
    have h1 : (exFace K).x.shape = [("i", 2)] := rfl
    rw [h1, get?_cons] at h
    split at h
    · next h' => subst h'; cases h; decide
    · cases h
  · refine ⟨⟨rfl, by simp [exFace]⟩, fun a n h => ?_⟩
    have h1 : (exFace K).y.shape = [("j", 2)] := rfl
    rw [h1, get?_cons] at h
    split at h
    · next h' => subst h'; cases h; decide
    · cases h
  · exact ⟨⟨rfl, by simp [exFace]⟩, fun a n h => nomatch h⟩

/-- the solid angle of the face is a sixth of the sphere -/
example : realTrig.quadrilateral (-1, -1, 1) (1, -1, 1) (1, 1, 1) (-1, 1, 1) = 4 * pi / 6 := by
  have hn : ∀ p : ℝ × ℝ × ℝ, dot3 p p = 3 → realTrig.norm p = Real.sqrt 3 := fun p h => by rw [norm_real, h]
  have h1 := hn (-1, -1, 1) (by norm_num [dot3])
  have h2 := hn (1, -1, 1) (by norm_num [dot3])
  have h3 := hn (1, 1, 1) (by norm_num [dot3])
  have h4 := hn (-1, 1, 1) (by norm_num [dot3])
  have hs : Real.sqrt 3 * Real.sqrt 3 = 3 := Real.mul_self_sqrt (by norm_num)
  have hangle : arg (⟨4 * Real.sqrt 3, 4⟩ : ℂ) = pi / 6 := by
    have : (⟨4 * Real.sqrt 3, 4⟩ : ℂ) = ((8 : ℝ) : ℂ) * (Complex.cos ((pi / 6 : ℝ)) + Complex.sin ((pi / 6 : ℝ)) * Complex.I) := by
      apply Complex.ext
      · rw [← Complex.ofReal_cos, ← Complex.ofReal_sin]
        simp [Real.cos_pi_div_six]
        ring
      · rw [← Complex.ofReal_cos, ← Complex.ofReal_sin]
        simp [Real.sin_pi_div_six]
        norm_num
    rw [this, Complex.arg_mul_cos_add_sin_mul_I (by positivity) ⟨by linarith [Real.pi_pos], by linarith [Real.pi_pos]⟩]
  have t1 : realTrig.triangle (-1, -1, 1) (1, -1, 1) (1, 1, 1) = 2 * (pi / 6) := by
    unfold Trig.triangle Trig.denominator
    rw [h1, h2, h3, ← hangle]
    show 2 * arg ⟨_, _⟩ = _
    congr 3
    · simp only [dot3]; linear_combination (Real.sqrt 3) * hs
    · norm_num [det3]
  have t2 : realTrig.triangle (1, 1, 1) (-1, 1, 1) (-1, -1, 1) = 2 * (pi / 6) := by
    unfold Trig.triangle Trig.denominator
    rw [h1, h3, h4, ← hangle]
    show 2 * arg ⟨_, _⟩ = _
    congr 3
    · simp only [dot3]; linear_combination (Real.sqrt 3) * hs
    · norm_num [det3]
  unfold Trig.quadrilateral
  rw [t1, t2]
  ring

/-- the hypotheses of `C103_rotation_partial` -/
example : (∀ p q : ℝ × ℝ × ℝ, dot3 (image3 (fun i j => if j = i + 1 then 1 else 0) p) (image3 (fun i j => if j = i + 1 then 1 else 0) q) = dot3 p q) ∧
    matDet (fun i j : Fin 3 => if j = i + 1 then (1 : ℝ) else 0) = 1 := by
  constructor
  · intro p q
    simp [dot3, image3]
    ring
  · simp [matDet, det3]

/-- **C103** Refuted (orientation of degenerate triangles): three directions around a great circle have the solid angle `2 π` in both
orientations. -/
theorem C103_degenerate_refuted : ∃ p q r : ℝ × ℝ × ℝ, realTrig.triangle p q r = 2 * pi ∧ realTrig.triangle q p r = 2 * pi := by
  have hn : ∀ p : ℝ × ℝ × ℝ, dot3 p p = 1 → realTrig.norm p = 1 := fun p h => by rw [norm_real, h, Real.sqrt_one]
  have h1 := hn (1, 0, 0) (by norm_num [dot3])
  have h2 := hn (-3 / 5, 4 / 5, 0) (by norm_num [dot3])
  have h3 := hn (-3 / 5, -4 / 5, 0) (by norm_num [dot3])
  refine ⟨(1, 0, 0), (-3 / 5, 4 / 5, 0), (-3 / 5, -4 / 5, 0), ?_, ?_⟩
  all_goals
    unfold Trig.triangle Trig.denominator
    rw [h1, h2, h3]
    congr 1
    refine Complex.arg_eq_pi_iff.2 ⟨?_, ?_⟩
    · norm_num [dot3]
    · norm_num [det3]

end Examples
end NA
