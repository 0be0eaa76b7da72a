import Verif.Props.CellAreas
import Verif.Matrix.Named

/-!
# Volumes of three-dimensional cells (C64)
-/

namespace NA
open Dict
open SA (FitsIn InRange)

variable {K : Type} [Field K]

/-! ### Specification -/

/-- The determinant of three vectors. -/
def det3 (p q r : K × K × K) : K :=
  p.1 * (q.2.1 * r.2.2 - q.2.2 * r.2.1) - p.2.1 * (q.1 * r.2.2 - q.2.2 * r.1) + p.2.2 * (q.1 * r.2.1 - q.2.1 * r.1)

/-- Six times the signed volume between the origin and a quadrilateral, which is divided along a diagonal. -/
def pyramid (p q r s : K × K × K) : K := det3 p q r + det3 r s p

/-- The signed volume of a hexahedron with the corners `P i j k`, `i, j, k = 0, 1`: the pyramids over its six faces, all
of them seen with the same orientation from outside. -/
def hexVolume (P : Bool → Bool → Bool → K × K × K) : K :=
  ((pyramid (P false false true) (P true false true) (P true true true) (P false true true) -
      pyramid (P false false false) (P true false false) (P true true false) (P false true false)) +
    (pyramid (P true false false) (P true true false) (P true true true) (P true false true) -
      pyramid (P false false false) (P false true false) (P false true true) (P false false true)) +
    (pyramid (P false true false) (P false true true) (P true true true) (P true true false) -
      pyramid (P false false false) (P false false true) (P true false true) (P true false false))) / 6

/-- A vertex of the grid. -/
def V3.vertex (v : V3 K) (e : String → Nat) : K × K × K := (v.x.atB e, v.y.atB e, v.z.atB e)

/-- The index moved by one along some of three axes. -/
def moved (ax ay az : String) (e : String → Nat) (i j k : Bool) : String → Nat :=
  fun a => if a = ax ∧ i ∨ a = ay ∧ j ∨ a = az ∧ k then e a + 1 else e a

/-- The volume of a cell of the grid. -/
def V3.gridVolume (v : V3 K) (ax ay az : String) (e : String → Nat) : K :=
  hexVolume (fun i j k => v.vertex (moved ax ay az e i j k))

/-- The vertices of the quadrilaterals along `a1` and `a2`: there are a cell face `e` and a triangle of this face which
does not lie in a plane through the origin. -/
def V3.Spans (v : V3 K) (S : Shape) (a1 a2 : String) : Prop :=
  (∃ e, InRange (shrink S [a1, a2]) e ∧
    det3 (v.vertex e) (v.vertex (corner {a1} e)) (v.vertex (corner {a1, a2} e)) ≠ 0) ∧
  ∃ e, InRange (shrink S [a1, a2]) e ∧
    det3 (v.vertex (corner {a1, a2} e)) (v.vertex (corner {a2} e)) (v.vertex e) ≠ 0

/-- Each component has the full size along its axes among the three (no component of size one is broadcast). -/
def V3.FullAxes (v : V3 K) (S : Shape) : Prop :=
  ∀ c ∈ [v.x, v.y, v.z], c.WF ∧ ∀ a n, get? c.shape a = some n → get? S a = some n

/-! ### Facts about the specification -/

theorem det3_linear (m : Fin 3 → Fin 3 → K) (p q r : K × K × K) :
    let M : K × K × K → K × K × K := fun v => (m 0 0 * v.1 + m 0 1 * v.2.1 + m 0 2 * v.2.2,
      m 1 0 * v.1 + m 1 1 * v.2.1 + m 1 2 * v.2.2, m 2 0 * v.1 + m 2 1 * v.2.1 + m 2 2 * v.2.2)
    det3 (M p) (M q) (M r) =
      det3 (m 0 0, m 0 1, m 0 2) (m 1 0, m 1 1, m 1 2) (m 2 0, m 2 1, m 2 2) * det3 p q r := by
  simp only [det3]
  ring

theorem hexVolume_translate (P : Bool → Bool → Bool → K × K × K) (t : K × K × K) :
    hexVolume (fun i j k => ((P i j k).1 + t.1, (P i j k).2.1 + t.2.1, (P i j k).2.2 + t.2.2)) = hexVolume P := by
  simp only [hexVolume, pyramid, det3]
  congr 1
  ring

theorem hexVolume_box [NeZero (6 : K)] (x0 x1 y0 y1 z0 z1 : K) :
    hexVolume (fun i j k => (if i then x1 else x0, if j then y1 else y0, if k then z1 else z0)) =
      (x1 - x0) * (y1 - y0) * (z1 - z0) := by
  have : (6 : K) ≠ 0 := NeZero.ne _
  simp only [hexVolume, pyramid, det3, if_true, Bool.false_eq_true, if_false]
  field_simp
  ring

/-! ### Helpers -/

/-- An optional array which represents a function; `none` is the number zero. -/
def RepO (S : Shape) (A : String → Prop) (a : Option (SA K)) (f : (String → Nat) → K) : Prop :=
  match a with
  | none => ∀ e, InRange S e → f e = 0
  | some a => Rep S A a f

variable [DecidableEq K]

theorem addProduct_rep {S : Shape} {A B U : String → Prop} {r : Option (SA K)} {a b : SA K}
    {fr fa fb : (String → Nat) → K} (hr : RepO S U r fr) (ha : Rep S A a fa) (hb : Rep S B b fb) (hU : ∀ ax, U ax → A ax ∨ B ax) :
    ∃ c, V3.addProduct r a b = .ok c ∧ RepO S U c (fun e => fr e + fa e * fb e) := by
  unfold V3.addProduct
  by_cases hz : (a.allZero || b.allZero) = true
  · rw [if_pos hz]
    have h0 : ∀ e, InRange S e → fa e * fb e = 0 := by
      intro e he
      rw [← ha.val e he, ← hb.val e he]
      rcases Bool.or_eq_true_iff.1 hz with h | h
      · rw [allZero_atB ha.wf ha.fits h he, zero_mul]
      · rw [allZero_atB hb.wf hb.fits h he, mul_zero]
    refine ⟨r, rfl, ?_⟩
    cases r with
    | none => exact fun e he => by show fr e + fa e * fb e = 0; rw [h0 e he, hr e he, add_zero]
    | some a => exact Rep.congr hr fun e he => by rw [h0 e he, add_zero]
  · rw [if_neg hz]
    obtain ⟨p, p1, p2⟩ := ha.ufunc2 (· * ·) hb
    have p3 := p2.mono hU
    cases r with
    | none =>
      refine ⟨some p, by simp only [p1, bind, Except.bind], ?_⟩
      exact Rep.congr p3 fun e he => by rw [hr e he, zero_add]
    | some a' =>
      obtain ⟨s, s1, s2⟩ := Rep.ufunc2 (· + ·) hr p3
      exact ⟨some s, by simp only [p1, bind, Except.bind, s1], s2.mono fun ax h => .inl h⟩

/-- A vector whose components represent functions. -/
structure RepV (S : Shape) (A B C : String → Prop) (v : V3 K) (f : (String → Nat) → K × K × K) : Prop where
  x : Rep S A v.x (fun e => (f e).1)
  y : Rep S B v.y (fun e => (f e).2.1)
  z : Rep S C v.z (fun e => (f e).2.2)

theorem minor_rep {S : Shape} {A B C D : String → Prop} {a b c d : SA K} {fa fb fc fd : (String → Nat) → K}
    (ha : Rep S A a fa) (hb : Rep S B b fb) (hc : Rep S C c fc) (hd : Rep S D d fd) :
    ∃ r, V3.minor a b c d = .ok r ∧ Rep S (fun ax => (A ax ∨ B ax) ∨ (C ax ∨ D ax)) r (fun e => fa e * fb e - fc e * fd e) := by
  obtain ⟨p, p1, p2⟩ := ha.ufunc2 (· * ·) hb
  obtain ⟨q, q1, q2⟩ := hc.ufunc2 (· * ·) hd
  obtain ⟨r, r1, r2⟩ := p2.ufunc2 (· - ·) q2
  exact ⟨r, by simp only [V3.minor, bind, Except.bind, p1, q1, r1], r2⟩

theorem cross_rep {S : Shape} {A B C : String → Prop} {a b : V3 K} {f g : (String → Nat) → K × K × K}
    (ha : RepV S A B C a f) (hb : RepV S A B C b g) :
    ∃ r, V3.cross a b = .ok r ∧ RepV S (fun ax => B ax ∨ C ax) (fun ax => A ax ∨ C ax) (fun ax => A ax ∨ B ax) r
      (fun e => ((f e).2.1 * (g e).2.2 - (f e).2.2 * (g e).2.1, -((f e).1 * (g e).2.2 - (f e).2.2 * (g e).1),
        (f e).1 * (g e).2.1 - (f e).2.1 * (g e).1)) := by
  obtain ⟨x, x1, x2⟩ := minor_rep ha.y hb.z ha.z hb.y
  obtain ⟨y, y1, y2⟩ := minor_rep ha.x hb.z ha.z hb.x
  obtain ⟨y', y3, y4⟩ := y2.ufunc1 (fun t => -t)
  obtain ⟨z, z1, z2⟩ := minor_rep ha.x hb.y ha.y hb.x
  exact ⟨⟨x, y', z⟩, by simp only [V3.cross, bind, Except.bind, x1, y1, y3, z1], x2.mono fun ax h => .inl h,
    y4.mono fun ax h => .inl h, z2.mono fun ax h => .inl h⟩

theorem dot_rep {S : Shape} {A B C : String → Prop} {a b : V3 K} {f g : (String → Nat) → K × K × K}
    (ha : RepV S A B C a f) (hb : RepV S (fun ax => B ax ∨ C ax) (fun ax => A ax ∨ C ax) (fun ax => A ax ∨ B ax) b g) :
    ∃ r, V3.dot a b = .ok r ∧ RepO S (fun ax => A ax ∨ B ax ∨ C ax) r
      (fun e => (f e).1 * (g e).1 + (f e).2.1 * (g e).2.1 + (f e).2.2 * (g e).2.2) := by
  have h0 : RepO S (fun ax => A ax ∨ B ax ∨ C ax) (none : Option (SA K)) (fun _ => 0) := fun _ _ => rfl
  obtain ⟨r, r1, r2⟩ := addProduct_rep h0 ha.x hb.x (fun ax h => h)
  obtain ⟨s, s1, s2⟩ := addProduct_rep r2 ha.y hb.y (fun ax h => by tauto)
  obtain ⟨t, t1, t2⟩ := addProduct_rep s2 ha.z hb.z (fun ax h => by tauto)
  refine ⟨t, by simp only [V3.dot, bind, Except.bind, r1, s1, t1], ?_⟩
  cases t with
  | none => exact fun e he => by have := t2 e he; simpa using this
  | some t => exact Rep.congr t2 fun e _ => by simp

theorem triangle_rep {S : Shape} {A B C R : String → Prop} {t1 t2 t3 : V3 K} {f1 f2 f3 : (String → Nat) → K × K × K}
    {a3 : String} {result : SA K} {fr : (String → Nat) → K}
    (h1 : RepV S A B C t1 f1) (h2 : RepV S A B C t2 f2) (h3 : RepV S A B C t3 f3) (ha3 : A a3 ∨ B a3 ∨ C a3)
    (hne : ∃ e, InRange S e ∧ det3 (f1 e) (f2 e) (f3 e) ≠ 0) (hr : Rep (shrink S [a3]) R result fr) :
    ∃ r, V3.triangleStep a3 result (t1, t2, t3) = .ok r ∧
      Rep (shrink S [a3]) (fun ax => R ax ∨ A ax ∨ B ax ∨ C ax) r (fun e => fr e +
        (det3 (f1 (corner {a3} e)) (f2 (corner {a3} e)) (f3 (corner {a3} e)) - det3 (f1 e) (f2 e) (f3 e))) := by
  obtain ⟨c, c1, c2⟩ := cross_rep h2 h3
  obtain ⟨d, d1, d2⟩ := dot_rep h1 c2
  have hdet : ∀ e, (f1 e).1 * ((f2 e).2.1 * (f3 e).2.2 - (f2 e).2.2 * (f3 e).2.1) +
      (f1 e).2.1 * -((f2 e).1 * (f3 e).2.2 - (f2 e).2.2 * (f3 e).1) +
      (f1 e).2.2 * ((f2 e).1 * (f3 e).2.1 - (f2 e).2.1 * (f3 e).1) = det3 (f1 e) (f2 e) (f3 e) := by
    intro e; unfold det3; ring
  cases d with
  | none =>
    obtain ⟨e, he, hne⟩ := hne
    have := (hdet e).symm.trans (d2 e he)
    exact absurd this hne
  | some d =>
    have d3 : Rep S (fun ax => A ax ∨ B ax ∨ C ax) d (fun e => det3 (f1 e) (f2 e) (f3 e)) := Rep.congr d2 fun e _ => hdet e
    have hsh : ∀ b : Bool, ∃ r, d.getitem [(a3, sliceEnd b)] = .ok r ∧ Rep (shrink S [a3]) (fun ax => A ax ∨ B ax ∨ C ax) r
        (fun e => det3 (f1 (corner (if b then {a3} else ∅) e)) (f2 (corner (if b then {a3} else ∅) e))
          (f3 (corner (if b then {a3} else ∅) e))) := by
      intro b
      obtain ⟨r, r1, r2, _⟩ := d3.ends [(a3, b)] (by unfold WF keys; simp) (by
        intro ax hax
        simp only [keys, List.map_cons, List.map_nil, List.mem_singleton] at hax
        subst hax; exact .inl ha3)
      refine ⟨r, r1, r2.congr fun e _ => ?_⟩
      have : shift [(a3, b)] e = corner (if b then {a3} else ∅) e := by
        funext ax
        unfold shift corner
        rw [get?_cons]
        by_cases h : a3 = ax
        · subst h; cases b <;> simp
        · cases b <;> simp [h, Ne.symm h, get?]
      rw [this]
    obtain ⟨lo, l1, l2⟩ := hsh false
    obtain ⟨hi, u1, u2⟩ := hsh true
    obtain ⟨r, r1, r2⟩ := hr.ufunc2 (· - ·) l2
    obtain ⟨s, s1, s2⟩ := r2.ufunc2 (· + ·) u2
    have hc0 : ∀ e, corner ∅ e = e := fun e => by funext ax; simp [corner]
    refine ⟨s, ?_, (s2.mono fun ax h => .inl h).congr fun e _ => ?_⟩
    · simp only [V3.triangleStep, bind, Except.bind, c1, d1, V3.index, l1, r1, u1, s1]
    · simp only [if_true, Bool.false_eq_true, if_false, hc0]
      ring

theorem RepV.corner {S : Shape} {A B C : String → Prop} {v : V3 K} {f : (String → Nat) → K × K × K} (h : RepV S A B C v f)
    {a1 a2 : String} (hne : a1 ≠ a2) (hA : ∀ ax, A ax ∨ ax ∉ v.x.axes) (hB : ∀ ax, B ax ∨ ax ∉ v.y.axes)
    (hC : ∀ ax, C ax ∨ ax ∉ v.z.axes) (b1 b2 : Bool) :
    ∃ r, v.getitem (cornerItem a1 a2 (b1, b2)) = .ok r ∧ RepV (shrink S [a1, a2]) A B C r
      (fun e => f (NA.corner ((if b1 then {a1} else ∅) ∪ (if b2 then {a2} else ∅)) e)) := by
  obtain ⟨x, x1, x2, _⟩ := h.x.ends [(a1, b1), (a2, b2)] (wf_two hne b1 b2) (fun ax _ => hA ax)
  obtain ⟨y, y1, y2, _⟩ := h.y.ends [(a1, b1), (a2, b2)] (wf_two hne b1 b2) (fun ax _ => hB ax)
  obtain ⟨z, z1, z2, _⟩ := h.z.ends [(a1, b1), (a2, b2)] (wf_two hne b1 b2) (fun ax _ => hC ax)
  refine ⟨⟨x, y, z⟩, ?_, x2.congr fun e _ => ?_, y2.congr fun e _ => ?_, z2.congr fun e _ => ?_⟩
  · rw [cornerItem_ends hne]
    simp only [V3.getitem, bind, Except.bind, x1, y1, z1]
  all_goals rw [shift_two hne]

theorem shrink_append (S : Shape) (l l' : List String) (h : ∀ x ∈ l', x ∉ l) : shrink (shrink S l) l' = shrink S (l ++ l') := by
  unfold shrink
  rw [List.map_map]
  refine List.map_congr_left fun p _ => ?_
  simp only [Function.comp, List.mem_append]
  by_cases h1 : p.1 ∈ l
  · have : p.1 ∉ l' := fun h2 => h _ h2 h1
    simp [h1, this]
  · simp [h1]

theorem shrink_perm (S : Shape) (l l' : List String) (h : ∀ x, x ∈ l ↔ x ∈ l') : shrink S l = shrink S l' := by
  unfold shrink
  refine List.map_congr_left fun p _ => ?_
  simp only [h]

theorem face_rep {S : Shape} {A B C R : String → Prop} {v : V3 K} {f : (String → Nat) → K × K × K} (h : RepV S A B C v f)
    (hA : ∀ ax, A ax ∨ ax ∉ v.x.axes) (hB : ∀ ax, B ax ∨ ax ∉ v.y.axes) (hC : ∀ ax, C ax ∨ ax ∉ v.z.axes)
    {a1 a2 a3 : String} (h12 : a1 ≠ a2) (h13 : a1 ≠ a3) (h23 : a2 ≠ a3) (ha3 : A a3 ∨ B a3 ∨ C a3)
    (hs1 : ∃ e, InRange (shrink S [a1, a2]) e ∧ det3 (f e) (f (corner {a1} e)) (f (corner {a1, a2} e)) ≠ 0)
    (hs2 : ∃ e, InRange (shrink S [a1, a2]) e ∧ det3 (f (corner {a1, a2} e)) (f (corner {a2} e)) (f e) ≠ 0)
    {result : SA K} {fr : (String → Nat) → K} (hr : Rep (shrink S [a1, a2, a3]) R result fr) :
    ∃ r, V3.faceStep v result (a1, a2, a3) = .ok r ∧
      Rep (shrink S [a1, a2, a3]) (fun ax => A ax ∨ B ax ∨ C ax) r (fun e => fr e +
        (pyramid (f (corner {a3} e)) (f (corner {a1, a3} e)) (f (corner {a1, a2, a3} e)) (f (corner {a2, a3} e)) -
          pyramid (f e) (f (corner {a1} e)) (f (corner {a1, a2} e)) (f (corner {a2} e)))) := by
  obtain ⟨v0, v01, v02⟩ := h.corner h12 hA hB hC false false
  obtain ⟨v1, v11, v12⟩ := h.corner h12 hA hB hC true false
  obtain ⟨v2, v21, v22⟩ := h.corner h12 hA hB hC true true
  obtain ⟨v3, v31, v32⟩ := h.corner h12 hA hB hC false true
  have hS : shrink (shrink S [a1, a2]) [a3] = shrink S [a1, a2, a3] := shrink_append S _ _ (by simp [h13.symm, h23.symm])
  have hc0 : ∀ e, corner ∅ e = e := fun e => by funext ax; simp [corner]
  have hu : ({a1} : Finset String) ∪ {a2} = {a1, a2} := rfl
  simp only [if_true, Bool.false_eq_true, if_false, Finset.empty_union, Finset.union_empty, hc0, hu] at v02 v12 v22 v32
  rw [← hS] at hr
  obtain ⟨r, r1, r2⟩ := triangle_rep v02 v12 v22 ha3 hs1 hr
  obtain ⟨s, s1, s2⟩ := triangle_rep v22 v32 v02 ha3 hs2 r2
  rw [hS] at s2
  refine ⟨s, ?_, (s2.mono fun ax h => .inr h).congr fun e _ => ?_⟩
  · simp only [V3.faceStep, bind, Except.bind, v01, v11, v21, v31, r1, s1]
  · have hcc : ∀ T : Finset String, a3 ∉ T → corner T (corner {a3} e) = corner (T ∪ {a3}) e := by
      intro T hT
      funext ax
      unfold corner
      by_cases h3 : ax = a3
      · subst h3; simp [hT]
      · simp [h3]
    rw [hcc {a1} (by simp [h13.symm]), hcc {a1, a2} (by simp [h13.symm, h23.symm]), hcc {a2} (by simp [h23.symm])]
    have e1 : ({a1} : Finset String) ∪ {a3} = {a1, a3} := rfl
    have e2 : ({a1, a2} : Finset String) ∪ {a3} = {a1, a2, a3} := by ext x; simp [or_assoc]
    have e3 : ({a2} : Finset String) ∪ {a3} = {a2, a3} := rfl
    rw [e1, e2, e3]
    unfold pyramid
    ring

/-! ### C64 -/

theorem moved_eq (ax ay az : String) (e : String → Nat) (i j k : Bool) : moved ax ay az e i j k =
    corner ((if i then {ax} else ∅) ∪ ((if j then {ay} else ∅) ∪ (if k then {az} else ∅))) e := by
  funext a
  unfold moved corner
  cases i <;> cases j <;> cases k <;> simp [or_left_comm]

/-- **C64** (cell volumes). The cell volumes of a grid of three-dimensional vertices along three different axes: the shape
has one element less along these axes, and each element is the signed volume of the hexahedron of the eight vertices.
Partial: components of size one along a longer axis are not covered, nor are grids for which all of the faces in one
direction lie in planes through the origin. -/
theorem C64_volume_partial (v : V3 K) (S : Shape) (hS : broadcastShapes [v.x.shape, v.y.shape, v.z.shape] = .ok S)
    (hv : v.FullAxes S) (ax ay az : String) (hxy : ax ≠ ay) (hyz : ay ≠ az) (hxz : ax ≠ az)
    (hx : ax ∈ keys S) (hy : ay ∈ keys S) (hz : az ∈ keys S)
    (h1 : v.Spans S ax ay) (h2 : v.Spans S ay az) (h3 : v.Spans S az ax) :
    ∃ r, v.volumeCell (some [ax, ay, az]) = .ok r ∧ r.WF ∧ CentersOf S {ax, ay, az} r.shape ∧
      ∀ e, InRange r.shape e → r.at' e = v.gridVolume ax ay az e := by
  have hrx := Rep.of_sub (hv v.x (by simp)).1 (hv v.x (by simp)).2
  have hry := Rep.of_sub (hv v.y (by simp)).1 (hv v.y (by simp)).2
  have hrz := Rep.of_sub (hv v.z (by simp)).1 (hv v.z (by simp)).2
  have hV : RepV S (· ∈ v.x.axes) (· ∈ v.y.axes) (· ∈ v.z.axes) v v.vertex := ⟨hrx, hry, hrz⟩
  have hw : ∀ u ∈ [v.x.shape, v.y.shape, v.z.shape], WF u := by
    intro u hu
    simp only [List.mem_cons, List.not_mem_nil, or_false] at hu
    rcases hu with rfl | rfl | rfl
    · exact SA.wf_shape (hv v.x (by simp)).1
    · exact SA.wf_shape (hv v.y (by simp)).1
    · exact SA.wf_shape (hv v.z (by simp)).1
  obtain ⟨hSw, hSk, _⟩ := C01_broadcast_shapes_ok _ hw S hS
  have hall : ∀ a ∈ keys S, a ∈ v.x.axes ∨ a ∈ v.y.axes ∨ a ∈ v.z.axes := by
    intro a ha
    obtain ⟨s, hs, hs'⟩ := (hSk a).1 ha
    simp only [List.mem_cons, List.not_mem_nil, or_false] at hs
    rcases hs with rfl | rfl | rfl
    · left; rw [← SA.keys_shape (hv v.x (by simp)).1]; exact hs'
    · right; left; rw [← SA.keys_shape (hv v.y (by simp)).1]; exact hs'
    · right; right; rw [← SA.keys_shape (hv v.z (by simp)).1]; exact hs'
  have em : ∀ (a : SA K) x, x ∈ a.axes ∨ x ∉ a.axes := fun a x => Classical.em _
  obtain ⟨r1, g1, g2⟩ := face_rep hV (em _) (em _) (em _) hxy hxz hyz (hall az hz) h1.1 h1.2
    (Rep.scalar (shrink S [ax, ay, az]) (0 : K))
  rw [shrink_perm S [ax, ay, az] [ay, az, ax] (by intro x; simp; tauto)] at g2
  obtain ⟨r2, g3, g4⟩ := face_rep hV (em _) (em _) (em _) hyz hxy.symm hxz.symm (hall ax hx) h2.1 h2.2 g2
  rw [shrink_perm S [ay, az, ax] [az, ax, ay] (by intro x; simp; tauto)] at g4
  obtain ⟨r3, g5, g6⟩ := face_rep hV (em _) (em _) (em _) hxz.symm hyz.symm hxy (hall ay hy) h3.1 h3.2 g4
  rw [shrink_perm S [az, ax, ay] [ax, ay, az] (by intro x; simp; tauto)] at g6
  obtain ⟨r, q1, q2⟩ := g6.ufunc2 (· / ·) (Rep.scalar _ (6 : K))
  have hfull : Full (shrink S [ax, ay, az]) r := q2.to_full fun a h => by rw [keys_shrink] at h; exact .inl (hall a h)
  refine ⟨r, ?_, q2.wf, ?_, fun e he => ?_⟩
  · unfold V3.volumeCell
    simp only [hS, bind, Except.bind, Option.getD_some, hx, hy, hz, and_self, if_true, List.foldlM_cons, List.foldlM_nil, g1,
      g3, g5]
    exact q1
  · intro a
    rw [hfull.2 a, get?_shrink]
    simp
  · have he' : InRange (shrink S [ax, ay, az]) e := fun a n hn => he a n (by rw [hfull.2 a]; exact hn)
    rw [← hfull.atB he', q2.val e he']
    simp only [V3.gridVolume, hexVolume, moved_eq, if_true, Bool.false_eq_true, if_false, Finset.empty_union,
      Finset.union_empty, zero_add]
    have hc0 : corner ∅ e = e := by funext a; simp [corner]
    have p1 : ({ax} : Finset String) ∪ {ay} = {ax, ay} := rfl
    have p2 : ({ax} : Finset String) ∪ {az} = {ax, az} := rfl
    have p3 : ({ay} : Finset String) ∪ {az} = {ay, az} := rfl
    have p4 : ({ax} : Finset String) ∪ {ay, az} = {ax, ay, az} := rfl
    have s1 : ({az, ax} : Finset String) = {ax, az} := Finset.pair_comm _ _
    have s2 : ({ay, ax} : Finset String) = {ax, ay} := Finset.pair_comm _ _
    have s3 : ({az, ay} : Finset String) = {ay, az} := Finset.pair_comm _ _
    have s4 : ({ay, ax, az} : Finset String) = {ax, ay, az} := by ext x; simp; tauto
    have s5 : ({az, ax, ay} : Finset String) = {ax, ay, az} := by ext x; simp; tauto
    simp only [hc0, p1, p2, p3, p4, s1, s2, s3, s4, s5]

/-- **C64** (boxes). If the components change each along its own axis only, a cell volume is the product of the three
differences. -/
theorem C64_box_partial [NeZero (6 : K)] (v : V3 K) (S : Shape)
    (hS : broadcastShapes [v.x.shape, v.y.shape, v.z.shape] = .ok S)
    (hv : v.FullAxes S) (ax ay az : String) (hxy : ax ≠ ay) (hyz : ay ≠ az) (hxz : ax ≠ az)
    (hx : ax ∈ keys S) (hy : ay ∈ keys S) (hz : az ∈ keys S)
    (h1 : v.Spans S ax ay) (h2 : v.Spans S ay az) (h3 : v.Spans S az ax)
    (ox : ay ∉ v.x.axes ∧ az ∉ v.x.axes) (oy : ax ∉ v.y.axes ∧ az ∉ v.y.axes) (oz : ax ∉ v.z.axes ∧ ay ∉ v.z.axes) :
    ∃ r, v.volumeCell (some [ax, ay, az]) = .ok r ∧ r.WF ∧ CentersOf S {ax, ay, az} r.shape ∧
      ∀ e, InRange r.shape e → r.at' e = (v.x.atB (corner {ax} e) - v.x.atB e) * (v.y.atB (corner {ay} e) - v.y.atB e) *
        (v.z.atB (corner {az} e) - v.z.atB e) := by
  obtain ⟨r, r1, r2, r3, r4⟩ := C64_volume_partial v S hS hv ax ay az hxy hyz hxz hx hy hz h1 h2 h3
  refine ⟨r, r1, r2, r3, fun e he => ?_⟩
  rw [r4 e he, ← hexVolume_box]
  unfold V3.gridVolume
  congr 1
  funext i j k
  have hc0 : corner ∅ e = e := by funext a; simp [corner]
  have kx : v.x.atB (moved ax ay az e i j k) = if i then v.x.atB (corner {ax} e) else v.x.atB e := by
    have : ∀ b : Bool, v.x.atB (moved ax ay az e b j k) = v.x.atB (corner (if b then {ax} else ∅) e) := fun b =>
      SA.atB_congr fun a ha => by
        have n1 : a ≠ ay := fun h => ox.1 (h ▸ ha)
        have n2 : a ≠ az := fun h => ox.2 (h ▸ ha)
        cases b <;> simp [moved, corner, n1, n2]
    rw [this]; cases i <;> simp [hc0]
  have ky : v.y.atB (moved ax ay az e i j k) = if j then v.y.atB (corner {ay} e) else v.y.atB e := by
    have : ∀ b : Bool, v.y.atB (moved ax ay az e i b k) = v.y.atB (corner (if b then {ay} else ∅) e) := fun b =>
      SA.atB_congr fun a ha => by
        have n1 : a ≠ ax := fun h => oy.1 (h ▸ ha)
        have n2 : a ≠ az := fun h => oy.2 (h ▸ ha)
        cases b <;> simp [moved, corner, n1, n2]
    rw [this]; cases j <;> simp [hc0]
  have kz : v.z.atB (moved ax ay az e i j k) = if k then v.z.atB (corner {az} e) else v.z.atB e := by
    have : ∀ b : Bool, v.z.atB (moved ax ay az e i j b) = v.z.atB (corner (if b then {az} else ∅) e) := fun b =>
      SA.atB_congr fun a ha => by
        have n1 : a ≠ ax := fun h => oz.1 (h ▸ ha)
        have n2 : a ≠ ay := fun h => oz.2 (h ▸ ha)
        cases b <;> simp [moved, corner, n1, n2]
    rw [this]; cases k <;> simp [hc0]
  simp only [V3.vertex, kx, ky, kz]

/-- **C64** (affine maps). If the vertices of a second grid are the images of the vertices under an affine map of the
space, its cell volumes are those of the first grid times the determinant. -/
theorem C64_affine_partial (v w : V3 K) (S S' : Shape) (hS : broadcastShapes [v.x.shape, v.y.shape, v.z.shape] = .ok S)
    (hS' : broadcastShapes [w.x.shape, w.y.shape, w.z.shape] = .ok S') (hSS : Same S S')
    (hv : v.FullAxes S) (hw : w.FullAxes S') (ax ay az : String) (hxy : ax ≠ ay) (hyz : ay ≠ az) (hxz : ax ≠ az)
    (hx : ax ∈ keys S) (hy : ay ∈ keys S) (hz : az ∈ keys S)
    (h1 : v.Spans S ax ay) (h2 : v.Spans S ay az) (h3 : v.Spans S az ax)
    (h1' : w.Spans S' ax ay) (h2' : w.Spans S' ay az) (h3' : w.Spans S' az ax)
    (m : Fin 3 → Fin 3 → K) (t : K × K × K)
    (hmap : ∀ e, InRange S e → w.vertex e =
      (m 0 0 * v.x.atB e + m 0 1 * v.y.atB e + m 0 2 * v.z.atB e + t.1,
        m 1 0 * v.x.atB e + m 1 1 * v.y.atB e + m 1 2 * v.z.atB e + t.2.1,
        m 2 0 * v.x.atB e + m 2 1 * v.y.atB e + m 2 2 * v.z.atB e + t.2.2)) :
    ∃ r r', v.volumeCell (some [ax, ay, az]) = .ok r ∧ w.volumeCell (some [ax, ay, az]) = .ok r' ∧ Same r.shape r'.shape ∧
      ∀ e, InRange r.shape e → r'.at' e =
        det3 (m 0 0, m 0 1, m 0 2) (m 1 0, m 1 1, m 1 2) (m 2 0, m 2 1, m 2 2) * r.at' e := by
  have hk : ∀ a, a ∈ keys S → a ∈ keys S' := by
    intro a h
    obtain ⟨n, hn⟩ := exists_get?_of_mem h
    exact mem_keys_of_get? (v := n) (by rw [← hSS a]; exact hn)
  obtain ⟨r, r1, r2, r3, r4⟩ := C64_volume_partial v S hS hv ax ay az hxy hyz hxz hx hy hz h1 h2 h3
  obtain ⟨r', g1, g2, g3, g4⟩ := C64_volume_partial w S' hS' hw ax ay az hxy hyz hxz (hk _ hx) (hk _ hy) (hk _ hz) h1' h2' h3'
  have hsame : Same r.shape r'.shape := fun a => by rw [r3 a, g3 a, hSS a]
  refine ⟨r, r', r1, g1, hsame, fun e he => ?_⟩
  rw [r4 e he, g4 e (fun a n hn => he a n (by rw [hsame a]; exact hn))]
  unfold V3.gridVolume
  have hin : ∀ i j k, InRange S (moved ax ay az e i j k) := fun i j k => by
    rw [moved_eq]
    refine corner_inRange r3 ?_ he
    cases i <;> cases j <;> cases k <;> intro x <;> simp <;> tauto
  have hp : (fun i j k => w.vertex (moved ax ay az e i j k)) = fun i j k =>
      ((m 0 0 * v.x.atB (moved ax ay az e i j k) + m 0 1 * v.y.atB (moved ax ay az e i j k) +
          m 0 2 * v.z.atB (moved ax ay az e i j k)) + t.1,
        (m 1 0 * v.x.atB (moved ax ay az e i j k) + m 1 1 * v.y.atB (moved ax ay az e i j k) +
          m 1 2 * v.z.atB (moved ax ay az e i j k)) + t.2.1,
        (m 2 0 * v.x.atB (moved ax ay az e i j k) + m 2 1 * v.y.atB (moved ax ay az e i j k) +
          m 2 2 * v.z.atB (moved ax ay az e i j k)) + t.2.2) := by
    funext i j k
    exact hmap _ (hin i j k)
  rw [hp]
  rw [hexVolume_translate (fun i j k => (m 0 0 * v.x.atB (moved ax ay az e i j k) + m 0 1 * v.y.atB (moved ax ay az e i j k) +
          m 0 2 * v.z.atB (moved ax ay az e i j k),
        m 1 0 * v.x.atB (moved ax ay az e i j k) + m 1 1 * v.y.atB (moved ax ay az e i j k) +
          m 1 2 * v.z.atB (moved ax ay az e i j k),
        m 2 0 * v.x.atB (moved ax ay az e i j k) + m 2 1 * v.y.atB (moved ax ay az e i j k) +
          m 2 2 * v.z.atB (moved ax ay az e i j k))) t]
  have hdet := fun p q s => det3_linear m p q s
  simp only at hdet
  have key : ∀ e1 e2 e3 : String → Nat, det3
      (m 0 0 * v.x.atB e1 + m 0 1 * v.y.atB e1 + m 0 2 * v.z.atB e1, m 1 0 * v.x.atB e1 + m 1 1 * v.y.atB e1 + m 1 2 * v.z.atB e1,
        m 2 0 * v.x.atB e1 + m 2 1 * v.y.atB e1 + m 2 2 * v.z.atB e1)
      (m 0 0 * v.x.atB e2 + m 0 1 * v.y.atB e2 + m 0 2 * v.z.atB e2, m 1 0 * v.x.atB e2 + m 1 1 * v.y.atB e2 + m 1 2 * v.z.atB e2,
        m 2 0 * v.x.atB e2 + m 2 1 * v.y.atB e2 + m 2 2 * v.z.atB e2)
      (m 0 0 * v.x.atB e3 + m 0 1 * v.y.atB e3 + m 0 2 * v.z.atB e3, m 1 0 * v.x.atB e3 + m 1 1 * v.y.atB e3 + m 1 2 * v.z.atB e3,
        m 2 0 * v.x.atB e3 + m 2 1 * v.y.atB e3 + m 2 2 * v.z.atB e3) =
      det3 (m 0 0, m 0 1, m 0 2) (m 1 0, m 1 1, m 1 2) (m 2 0, m 2 1, m 2 2) *
        det3 (v.vertex e1) (v.vertex e2) (v.vertex e3) := fun e1 e2 e3 => hdet (v.vertex e1) (v.vertex e2) (v.vertex e3)
  simp only [hexVolume, pyramid, key]
  ring

/-! ### Examples -/

/-- a box of one by one by two cells, away from the origin -/
def exBox : V3 ℚ := ⟨⟨["i"], ND.ofList [2] [1, 3] 0⟩, ⟨["j"], ND.ofList [2] [1, 2] 0⟩, ⟨["k"], ND.ofList [3] [1, 2, 5] 0⟩⟩

example : (exBox.volumeCell (some ["i", "j", "k"])).map (fun r => (r.axes, r.nd.toList)) = .ok (["i", "j", "k"], [2, 6]) := by
  decide +kernel

example : broadcastShapes [exBox.x.shape, exBox.y.shape, exBox.z.shape] = .ok [("i", 2), ("j", 2), ("k", 3)] := by
  decide +kernel
example : exBox.FullAxes [("i", 2), ("j", 2), ("k", 3)] := by
  intro c hc
  simp only [List.mem_cons, List.not_mem_nil, or_false] at hc
  have h1 : exBox.x.shape = [("i", 2)] := by decide +kernel
  have h2 : exBox.y.shape = [("j", 2)] := by decide +kernel
  have h3 : exBox.z.shape = [("k", 3)] := by decide +kernel
  rcases hc with rfl | rfl | rfl
  · refine ⟨by decide, fun a n h => ?_⟩
    rw [h1, get?_cons] at h
    split at h
    · next h' => subst h'; cases h; decide
    · cases h
  · refine ⟨by decide, fun a n h => ?_⟩
    rw [h2, get?_cons] at h
    split at h
    · next h' => subst h'; cases h; decide
    · cases h
  · refine ⟨by decide, fun a n h => ?_⟩
    rw [h3, get?_cons] at h
    split at h
    · next h' => subst h'; cases h; decide
    · cases h
example : exBox.Spans [("i", 2), ("j", 2), ("k", 3)] "i" "j" ∧ exBox.Spans [("i", 2), ("j", 2), ("k", 3)] "j" "k" ∧
    exBox.Spans [("i", 2), ("j", 2), ("k", 3)] "k" "i" := by
  have hin : ∀ s : Shape, (∀ p ∈ s, p.2 ≠ 0) → InRange s (fun _ => 0) := by
    intro s h ax n hn
    exact Nat.pos_of_ne_zero (h _ (mem_of_get? hn))
  refine ⟨⟨⟨fun _ => 0, hin _ (by decide), ?_⟩, ⟨fun _ => 0, hin _ (by decide), ?_⟩⟩,
    ⟨⟨fun _ => 0, hin _ (by decide), ?_⟩, ⟨fun _ => 0, hin _ (by decide), ?_⟩⟩,
    ⟨⟨fun _ => 0, hin _ (by decide), ?_⟩, ⟨fun _ => 0, hin _ (by decide), ?_⟩⟩⟩
  all_goals decide +kernel

/-- **C64** (flat grids, counterexample). A grid with vertices in a plane through the origin has cells of volume zero, but
`IndexError` is raised (the product of two vectors with a vanishing factor in each component is a plain number). -/
theorem C64_flat_refuted : ∃ v : V3 ℚ, (∀ c ∈ [v.x, v.y, v.z], c.WF) ∧
    broadcastShapes [v.x.shape, v.y.shape, v.z.shape] = .ok [("i", 2), ("j", 2), ("k", 2)] ∧
    (∀ e, v.gridVolume "i" "j" "k" e = 0) ∧
    (v.volumeCell (some ["i", "j", "k"])).map (fun r => (r.axes, r.nd.toList)) = .error .indexError := by
  refine ⟨⟨⟨["i"], ND.ofList [2] [1, 3] 0⟩, ⟨["j"], ND.ofList [2] [1, 2] 0⟩, ⟨["k"], ND.ofList [2] [0, 0] 0⟩⟩, ?_, ?_, ?_, ?_⟩
  · intro c hc
    simp only [List.mem_cons, List.not_mem_nil, or_false] at hc
    rcases hc with rfl | rfl | rfl <;> decide
  · decide +kernel
  · intro e
    have hz : ∀ e, (⟨["k"], ND.ofList [2] [0, 0] 0⟩ : SA ℚ).atB e = 0 := by
      intro e
      unfold SA.atB SA.at' ND.ofList
      simp
      rcases h : ND.ravel [2] _ with _ | _ | n <;> simp
    simp only [V3.gridVolume, hexVolume, pyramid, det3, V3.vertex, hz]
    ring
  · decide +kernel

end NA
