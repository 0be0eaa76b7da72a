import Verif.Vector.Volume
import Verif.Scalar.Rep
import Verif.Props.Integrals
import Mathlib.Tactic.Ring

/-!
# Volumes and areas of cells (C56)
-/

namespace NA
open Dict
open SA (FitsIn InRange)

variable {K : Type} [Field K]

/-! ### Specification -/

/-- The signed area spanned by two vectors of the plane. -/
def wedge (p q : K × K) : K := p.1 * q.2 - p.2 * q.1

/-- The signed area of a quadrilateral (positive if its corners are in counterclockwise order). -/
def quadArea (p q r s : K × K) : K := (wedge p q + wedge q r + wedge r s + wedge s p) / 2

/-- A vertex of the grid. -/
def vertex (x y : SA K) (e : String → Nat) : K × K := (x.atB e, y.atB e)

/-- The area of a cell of the grid. -/
def gridArea (a1 a2 : String) (P : (String → Nat) → K × K) (e : String → Nat) : K :=
  quadArea (P (corner ∅ e)) (P (corner {a1} e)) (P (corner {a1, a2} e)) (P (corner {a2} e))

/-! ### Helpers -/

theorem cornerItem_ends {a1 a2 : String} (h : a1 ≠ a2) (c : Bool × Bool) :
    cornerItem a1 a2 c = endsItem [(a1, c.1), (a2, c.2)] := by
  unfold cornerItem
  have h1 : Dict.set ([] : Dict IndexVal) a1 (sliceEnd c.1) = [(a1, sliceEnd c.1)] := rfl
  rw [h1, set_of_not_mem (by simp [keys, h.symm])]
  rfl

theorem shift_two {a1 a2 : String} (h : a1 ≠ a2) (b1 b2 : Bool) (e : String → Nat) :
    shift [(a1, b1), (a2, b2)] e = corner ((if b1 then {a1} else ∅) ∪ (if b2 then {a2} else ∅)) e := by
  funext ax
  unfold shift corner
  rw [get?_cons, get?_cons]
  by_cases h1 : a1 = ax
  · subst h1
    cases b1 <;> cases b2 <;> simp [h]
  · by_cases h2 : a2 = ax
    · subst h2
      cases b1 <;> cases b2 <;> simp [h1, h.symm]
    · cases b1 <;> cases b2 <;> simp [h1, h2, Ne.symm h1, Ne.symm h2, get?]

theorem wf_two {a1 a2 : String} (h : a1 ≠ a2) (b1 b2 : Bool) : WF [(a1, b1), (a2, b2)] := by
  unfold WF keys; simp [h]

theorem area_rep {S : Shape} {A : String → Prop} {x y : SA K} {f g : (String → Nat) → K} {a1 a2 : String} (hne : a1 ≠ a2)
    (hx : Rep S A x f) (hy : Rep S A y g) (h1 : A a1) (h2 : A a2) :
    ∃ r, cellArea a1 a2 x y = .ok r ∧ Rep (shrink S [a1, a2]) A r (gridArea a1 a2 (fun e => (f e, g e))) := by
  have hend : ∀ (b1 b2 : Bool) {z : SA K} {k : (String → Nat) → K}, Rep S A z k →
      ∃ r, z.getitem (cornerItem a1 a2 (b1, b2)) = .ok r ∧ Rep (shrink S [a1, a2]) A r
        (fun e => k (corner ((if b1 then {a1} else ∅) ∪ (if b2 then {a2} else ∅)) e)) := by
    intro b1 b2 z k hz
    obtain ⟨r, r1, r2, _⟩ := hz.ends [(a1, b1), (a2, b2)] (wf_two hne b1 b2) (by
      intro ax hax
      simp only [keys, List.map_cons, List.map_nil, List.mem_cons, List.not_mem_nil, or_false] at hax
      rcases hax with rfl | rfl
      · exact .inl h1
      · exact .inl h2)
    refine ⟨r, by rw [cornerItem_ends hne]; exact r1, r2.congr fun e _ => by rw [shift_two hne]⟩
  obtain ⟨x0, x01, x02⟩ := hend false false hx
  obtain ⟨x1, x11, x12⟩ := hend true false hx
  obtain ⟨x2, x21, x22⟩ := hend true true hx
  obtain ⟨x3, x31, x32⟩ := hend false true hx
  obtain ⟨y0, y01, y02⟩ := hend false false hy
  obtain ⟨y1, y11, y12⟩ := hend true false hy
  obtain ⟨y2, y21, y22⟩ := hend true true hy
  obtain ⟨y3, y31, y32⟩ := hend false true hy
  have step : ∀ {B : String → Prop} {c xa xb yi : SA K} {fc fa fb fi : (String → Nat) → K}, Rep (shrink S [a1, a2]) B c fc →
      Rep (shrink S [a1, a2]) A xa fa → Rep (shrink S [a1, a2]) A xb fb → Rep (shrink S [a1, a2]) A yi fi →
      ∃ r, (do let d ← SA.ufunc2 (· - ·) xa xb; let p ← SA.ufunc2 (· * ·) yi d; SA.ufunc2 (· + ·) c p) = .ok r ∧
        Rep (shrink S [a1, a2]) A r (fun e => fc e + fi e * (fa e - fb e)) := by
    intro B c xa xb yi fc fa fb fi hc ha hb hi
    obtain ⟨d, d1, d2⟩ := ha.ufunc2 (· - ·) hb
    obtain ⟨p, p1, p2⟩ := hi.ufunc2 (· * ·) d2
    obtain ⟨r, r1, r2⟩ := hc.ufunc2 (· + ·) p2
    exact ⟨r, by simp only [bind, Except.bind, d1, p1, r1], r2.mono fun ax h => .inr (.inl h)⟩
  obtain ⟨r0, r01, r02⟩ := step (Rep.scalar _ (0 : K)) x32 x12 y02
  obtain ⟨r1, r11, r12⟩ := step r02 x02 x22 y12
  obtain ⟨r2, r21, r22⟩ := step r12 x12 x32 y22
  obtain ⟨r3, r31, r32⟩ := step r22 x22 x02 y32
  obtain ⟨r, hr1, hr2⟩ := r32.ufunc2 (· / ·) (Rep.scalar _ (2 : K))
  refine ⟨r, ?_, (hr2.mono fun ax h => .inl h).congr fun e _ => ?_⟩
  · have e0 : shoelaceStep [x0, x1, x2, x3] [y0, y1, y2, y3] (SA.scalar 0) 0 = .ok r0 := r01
    have e1 : shoelaceStep [x0, x1, x2, x3] [y0, y1, y2, y3] r0 1 = .ok r1 := r11
    have e2 : shoelaceStep [x0, x1, x2, x3] [y0, y1, y2, y3] r1 2 = .ok r2 := r21
    have e3 : shoelaceStep [x0, x1, x2, x3] [y0, y1, y2, y3] r2 3 = .ok r3 := r31
    have hxs : corners.mapM (fun c => x.getitem (cornerItem a1 a2 c)) = .ok [x0, x1, x2, x3] := by
      simp only [corners, List.mapM_cons, List.mapM_nil, x01, x11, x21, x31]; rfl
    have hys : corners.mapM (fun c => y.getitem (cornerItem a1 a2 c)) = .ok [y0, y1, y2, y3] := by
      simp only [corners, List.mapM_cons, List.mapM_nil, y01, y11, y21, y31]; rfl
    have hf : (List.range 4).foldlM (shoelaceStep [x0, x1, x2, x3] [y0, y1, y2, y3]) (SA.scalar 0) = .ok r3 := by
      have : List.range 4 = [0, 1, 2, 3] := by decide
      simp only [this, List.foldlM_cons, List.foldlM_nil, e0, bind, Except.bind, e1, e2, e3]
      rfl
    simp only [cellArea, hxs, hys, bind, Except.bind, hf, hr1]
  · simp only [gridArea, quadArea, wedge, if_true, Bool.false_eq_true, if_false, Finset.empty_union, Finset.union_empty]
    have : ({a1} : Finset String) ∪ {a2} = {a1, a2} := rfl
    rw [this]
    ring

/-! ### C56 -/

/-- **C56** (lengths of cells). The cell volumes of a scalar array along an axis add up to the last minus the first
vertex. -/
theorem C56_scalar_sum (a : SA K) (ha : a.WF) (ax : String) (m : Nat) (hm : get? a.shape ax = some (m + 1)) :
    ∃ v s, a.volumeCell (some [ax]) = .ok v ∧ v.WF ∧ CentersOf a.shape {ax} v.shape ∧
      v.reduce false List.sum (some [ax]) false none none = .ok s ∧ s.WF ∧
      (∀ x, get? s.shape x = if x = ax then none else get? a.shape x) ∧
      ∀ e, InRange s.shape e → s.at' e = a.at' (Function.update e ax m) - a.at' (Function.update e ax 0) := by
  obtain ⟨d, d1, d2, d3, d4, d5⟩ := FA.diff_at a ha ax (m + 1) hm
  have hda : ax ∈ d.axes := by rw [d3, ← SA.keys_shape ha]; exact mem_keys_of_get? hm
  have hwo : SA.WhereOk d none := by intro w h; cases h
  obtain ⟨s, q1, q2, q3, q4, _⟩ := SA.C17_reduce d d2 none hwo [ax] (by simp) (by simpa using hda) false List.sum false (by simp)
  refine ⟨d, s, d1, d2, ?_, q1, q2, fun x => ?_, fun e he => ?_⟩
  · intro x
    rw [d4]
    by_cases h : x = ax
    · subst h; simp [hm]
    · simp [h]
  · rw [q4, d4]
    by_cases h : x = ax
    · subst h; simp
    · simp [h]
  · have hdax : get? d.shape ax = some m := by rw [d4, if_pos rfl]; rfl
    rw [SA.C17_reduce_orderless d d2 none hwo [ax] (by simp) (by simpa using hda) false List.sum
      (fun _ _ h => h.sum_eq) false s q1 e ((List.range m).map (fun k => Function.update e ax k)) ⟨?_, ?_⟩]
    · have : ∀ l : List (String → Nat), l.filter (SA.selected none) = l := fun l =>
        List.filter_eq_self.2 fun _ _ => rfl
      rw [this, List.map_map, FA.sum_range_list]
      have hin : ∀ (b : SA K) (n k : Nat), get? b.shape ax = some n → k < n →
          (∀ x, x ≠ ax → get? b.shape x = get? a.shape x) → InRange b.shape (Function.update e ax k) := by
        intro b n k hn hk hb x n' hn'
        by_cases hx : x = ax
        · subst hx; rw [hn] at hn'; cases hn'; simpa using hk
        · rw [Function.update_of_ne hx]
          refine he x n' ?_
          rw [q4, d4]
          simp only [List.mem_singleton, if_neg hx, Bool.false_eq_true, if_false]
          rw [← hb x hx]; exact hn'
      have ha' : ∀ k, k < m + 1 → FA.along a ax e k = a.at' (Function.update e ax k) := fun k hk =>
        SA.atB_eq_at' ha (hin a _ k hm hk fun _ _ => rfl)
      have hk : ∀ k ∈ Finset.range m, (d.at' ∘ fun k => Function.update e ax k) k =
          FA.along a ax e (k + 1) - FA.along a ax e k := by
        intro k hk
        have hk' : k < m := by simpa using hk
        rw [← d5 e k (by simpa using hk')]
        exact (SA.atB_eq_at' d2 (hin d m k hdax hk' fun x hx => by rw [d4, if_neg hx])).symm
      rw [Finset.sum_congr rfl hk, Finset.sum_range_sub, ha' m (by omega), ha' 0 (by omega)]
    · refine List.Nodup.map_on ?_ List.nodup_range
      intro i _ j _ hij
      have := congrFun hij ax
      simpa using this
    · intro e'
      simp only [List.mem_map, List.mem_range, List.mem_singleton, forall_eq, hdax]
      constructor
      · rintro ⟨k, hk, rfl⟩
        exact ⟨⟨m, rfl, by simpa using hk⟩, fun x h => by simp [h]⟩
      · rintro ⟨⟨n, hn, h⟩, h'⟩
        cases hn
        refine ⟨e' ax, h, ?_⟩
        funext x
        by_cases hx : x = ax
        · subst hx; simp
        · simp [hx, h' x hx]

/-- **C56** (failure). `ValueError` for an axis which the array lacks, and without an axis unless the array is
one-dimensional. -/
theorem C56_scalar_error (a : SA K) (ha : a.WF) :
    (∀ ax, ax ∉ a.axes → a.volumeCell (some [ax]) = .error .valueError) ∧
    (a.axes.length ≠ 1 → a.volumeCell none = .error .valueError) ∧
    ∀ ax, a.axes = [ax] → a.volumeCell none = a.volumeCell (some [ax]) := by
  refine ⟨fun ax h => SA.C57_diff_error _ a ha ax 1 none none h, fun h => ?_, fun ax h => ?_⟩
  · unfold SA.volumeCell
    simp only [Option.getD_none]
    split
    · next ax h' => rw [h'] at h; simp at h
    · rfl
  · unfold SA.volumeCell
    simp [h]

/-- **C56** (areas of cells). The cell areas of a grid of two-dimensional vertices: the shape has one element less along
the two axes, and each element is the signed area of the quadrilateral of the four vertices. -/
theorem C56_area (x y : SA K) (hx : x.WF) (hy : y.WF) (S : Shape) (hS : broadcastShapes [x.shape, y.shape] = .ok S)
    (a1 a2 : String) (hne : a1 ≠ a2) (h1 : a1 ∈ keys S) (h2 : a2 ∈ keys S) :
    ∃ r, volumeCell2d x y (some [a1, a2]) = .ok r ∧ r.WF ∧ CentersOf S {a1, a2} r.shape ∧
      ∀ e, InRange r.shape e → r.at' e = gridArea a1 a2 (vertex x y) e := by
  have hw : ∀ u ∈ [x.shape, y.shape], WF u := by
    intro u hu
    simp only [List.mem_cons, List.not_mem_nil, or_false] at hu
    rcases hu with rfl | rfl
    · exact SA.wf_shape hx
    · exact SA.wf_shape hy
  obtain ⟨hSw, _, _⟩ := C01_broadcast_shapes_ok _ hw S hS
  have hb : ∀ z : SA K, z.WF → z.shape ∈ [x.shape, y.shape] →
      ∃ r, z.broadcastTo S = .ok r ∧ Rep S (fun ax => ax ∈ keys S) r z.atB := by
    intro z hz hmem
    have hfit := SA.fitsIn_of_broadcastShapes hw hS hmem
    rcases SA.C10_broadcast_to z hz S hSw with ⟨_, r, r1, r2, r3, r4⟩ | ⟨h, _⟩
    · have hfull : Full S r := ⟨r2, fun ax => by rw [r3]⟩
      refine ⟨r, r1, r2, hfull.fits.2, fun ax _ => by rw [r3], fun e he => ?_⟩
      rw [hfull.atB he, r4]
    · exact absurd hfit h
  obtain ⟨x', x1, x2⟩ := hb x hx (by simp)
  obtain ⟨y', y1, y2⟩ := hb y hy (by simp)
  obtain ⟨r, r1, r2⟩ := area_rep hne x2 y2 h1 h2
  have hfull : Full (shrink S [a1, a2]) r := r2.to_full fun ax h => by rw [keys_shrink] at h; exact h
  refine ⟨r, ?_, r2.wf, ?_, fun e he => ?_⟩
  · unfold volumeCell2d
    simp only [hS, bind, Except.bind, Option.getD_some, if_pos (And.intro h1 h2), x1, y1, r1]
  · intro ax
    rw [hfull.2 ax, get?_shrink]
    simp
  · have he' : InRange (shrink S [a1, a2]) e := fun ax n hn => he ax n (by rw [hfull.2 ax]; exact hn)
    rw [← hfull.atB he', r2.val e he']
    rfl

/-- **C56** (failure). `ValueError` for an axis which the grid lacks, for another number of axes than two, and for clashing
components. -/
theorem C56_area_error (x y : SA K) (hx : x.WF) (hy : y.WF) (axis : Option (List String)) :
    (Clash [x.shape, y.shape] → volumeCell2d x y axis = .error .valueError) ∧
    ∀ S, broadcastShapes [x.shape, y.shape] = .ok S →
      ((axis.getD (keys S)).length ≠ 2 → volumeCell2d x y axis = .error .valueError) ∧
      ((∃ ax ∈ axis.getD (keys S), ax ∉ keys S) → volumeCell2d x y axis = .error .valueError) := by
  have hw : ∀ u ∈ [x.shape, y.shape], WF u := by
    intro u hu
    simp only [List.mem_cons, List.not_mem_nil, or_false] at hu
    rcases hu with rfl | rfl
    · exact SA.wf_shape hx
    · exact SA.wf_shape hy
  refine ⟨fun h => ?_, fun S hS => ⟨fun h => ?_, fun h => ?_⟩⟩
  · obtain ⟨e, he⟩ := (C01_broadcast_shapes_error_iff _ hw).2 h
    have := C01_broadcast_shapes_error_kind _ hw e he
    subst this
    unfold volumeCell2d
    simp only [he, bind, Except.bind]
  · unfold volumeCell2d
    simp only [hS, bind, Except.bind]
    split
    · next h' => rw [h'] at h; simp at h
    · rfl
  · unfold volumeCell2d
    simp only [hS, bind, Except.bind]
    split
    · next a b h' =>
      rw [h'] at h
      rw [if_neg]
      rintro ⟨g1, g2⟩
      obtain ⟨ax, hax, hn⟩ := h
      simp only [List.mem_cons, List.not_mem_nil, or_false] at hax
      rcases hax with rfl | rfl
      · exact hn g1
      · exact hn g2
    · rfl

theorem corner_two_inRange {S r : Shape} {a1 a2 : String} (hr : CentersOf S {a1, a2} r) {e : String → Nat} (he : InRange r e)
    {T : Finset String} (hT : T ⊆ {a1, a2}) : InRange S (corner T e) := corner_inRange hr hT he

/-- **C56** (affine maps). If the vertices of a second grid are the images of the vertices under an affine map of the
plane, its cell areas are those of the first grid times the determinant. -/
theorem C56_affine (x y x' y' : SA K) (hx : x.WF) (hy : y.WF) (hx' : x'.WF) (hy' : y'.WF) (S S' : Shape)
    (hS : broadcastShapes [x.shape, y.shape] = .ok S) (hS' : broadcastShapes [x'.shape, y'.shape] = .ok S') (hSS : Same S S')
    (m11 m12 m21 m22 t1 t2 : K)
    (hmap : ∀ e, InRange S e → vertex x' y' e =
      (m11 * (vertex x y e).1 + m12 * (vertex x y e).2 + t1, m21 * (vertex x y e).1 + m22 * (vertex x y e).2 + t2))
    (a1 a2 : String) (hne : a1 ≠ a2) (h1 : a1 ∈ keys S) (h2 : a2 ∈ keys S) :
    ∃ r r', volumeCell2d x y (some [a1, a2]) = .ok r ∧ volumeCell2d x' y' (some [a1, a2]) = .ok r' ∧
      Same r.shape r'.shape ∧ ∀ e, InRange r.shape e → r'.at' e = (m11 * m22 - m12 * m21) * r.at' e := by
  have hk : ∀ ax, ax ∈ keys S → ax ∈ keys S' := by
    intro ax h
    obtain ⟨n, hn⟩ := exists_get?_of_mem h
    exact mem_keys_of_get? (v := n) (by rw [← hSS ax]; exact hn)
  obtain ⟨r, r1, r2, r3, r4⟩ := C56_area x y hx hy S hS a1 a2 hne h1 h2
  obtain ⟨r', g1, g2, g3, g4⟩ := C56_area x' y' hx' hy' S' hS' a1 a2 hne (hk a1 h1) (hk a2 h2)
  have hsame : Same r.shape r'.shape := fun ax => by rw [r3 ax, g3 ax, hSS ax]
  refine ⟨r, r', r1, g1, hsame, fun e he => ?_⟩
  rw [r4 e he, g4 e (fun ax n hn => he ax n (by rw [hsame ax]; exact hn))]
  unfold gridArea
  rw [hmap _ (corner_inRange r3 (Finset.empty_subset _) he), hmap _ (corner_inRange r3 (by simp) he),
    hmap _ (corner_inRange r3 (Finset.Subset.refl _) he), hmap _ (corner_inRange r3 (by simp) he)]
  simp only [quadArea, wedge]
  ring

/-- **C56** (translations). Moving all vertices by the same vector does not change the cell areas. -/
theorem C56_translation (x y x' y' : SA K) (hx : x.WF) (hy : y.WF) (hx' : x'.WF) (hy' : y'.WF) (S S' : Shape)
    (hS : broadcastShapes [x.shape, y.shape] = .ok S) (hS' : broadcastShapes [x'.shape, y'.shape] = .ok S') (hSS : Same S S')
    (t1 t2 : K) (hmap : ∀ e, InRange S e → x'.atB e = x.atB e + t1 ∧ y'.atB e = y.atB e + t2)
    (a1 a2 : String) (hne : a1 ≠ a2) (h1 : a1 ∈ keys S) (h2 : a2 ∈ keys S) :
    ∃ r r', volumeCell2d x y (some [a1, a2]) = .ok r ∧ volumeCell2d x' y' (some [a1, a2]) = .ok r' ∧
      Same r.shape r'.shape ∧ ∀ e, InRange r.shape e → r'.at' e = r.at' e := by
  obtain ⟨r, r', h3, h4, h5, h6⟩ := C56_affine x y x' y' hx hy hx' hy' S S' hS hS' hSS 1 0 0 1 t1 t2
    (fun e he => by simp [vertex, hmap e he]) a1 a2 hne h1 h2
  exact ⟨r, r', h3, h4, h5, fun e he => by rw [h6 e he]; ring⟩

/-- **C56** (rectangles). If `x` changes along the first axis only, and `y` along the second axis only, each area is the
width times the height. -/
theorem C56_rectangle [NeZero (2 : K)] (x y : SA K) (hx : x.WF) (hy : y.WF) (S : Shape)
    (hS : broadcastShapes [x.shape, y.shape] = .ok S)
    (a1 a2 : String) (hne : a1 ≠ a2) (h1 : a1 ∈ keys S) (h2 : a2 ∈ keys S) (hx2 : a2 ∉ x.axes) (hy1 : a1 ∉ y.axes) :
    ∃ r, volumeCell2d x y (some [a1, a2]) = .ok r ∧ r.WF ∧ CentersOf S {a1, a2} r.shape ∧
      ∀ e, InRange r.shape e → r.at' e = (x.atB (corner {a1} e) - x.atB e) * (y.atB (corner {a2} e) - y.atB e) := by
  obtain ⟨r, r1, r2, r3, r4⟩ := C56_area x y hx hy S hS a1 a2 hne h1 h2
  refine ⟨r, r1, r2, r3, fun e he => ?_⟩
  have hcx : x.atB (corner {a1, a2} e) = x.atB (corner {a1} e) := SA.atB_congr fun ax hax => by
    unfold corner
    have : ax ≠ a2 := fun h => hx2 (h ▸ hax)
    simp [this]
  have hcx' : x.atB (corner {a2} e) = x.atB e := SA.atB_congr fun ax hax => by
    unfold corner
    have : ax ≠ a2 := fun h => hx2 (h ▸ hax)
    simp [this]
  have hcy : y.atB (corner {a1, a2} e) = y.atB (corner {a2} e) := SA.atB_congr fun ax hax => by
    unfold corner
    have : ax ≠ a1 := fun h => hy1 (h ▸ hax)
    simp [this]
  have hcy' : y.atB (corner {a1} e) = y.atB e := SA.atB_congr fun ax hax => by
    unfold corner
    have : ax ≠ a1 := fun h => hy1 (h ▸ hax)
    simp [this]
  have h0 : corner ∅ e = e := by funext ax; simp [corner]
  rw [r4 e he]
  simp only [gridArea, quadArea, wedge, vertex, h0, hcx, hcx', hcy, hcy']
  have h2' : (2 : K) ≠ 0 := NeZero.ne _
  field_simp
  ring

/-! ### The total area -/

/-- The signed area within the boundary of a grid of `n` times `m` cells: along the first edge, up the last column, and
back along the last row and the first column. -/
def boundaryArea (P : Nat → Nat → K × K) (n m : Nat) : K :=
  ((∑ i ∈ Finset.range n, wedge (P i 0) (P (i + 1) 0)) + (∑ j ∈ Finset.range m, wedge (P n j) (P n (j + 1))) +
    (∑ i ∈ Finset.range n, wedge (P (i + 1) m) (P i m)) + ∑ j ∈ Finset.range m, wedge (P 0 (j + 1)) (P 0 j)) / 2

theorem wedge_swap (p q : K × K) : wedge p q = - wedge q p := by unfold wedge; ring

/-- The cells tile the grid. -/
theorem sum_quadArea (P : Nat → Nat → K × K) (n m : Nat) :
    ∑ i ∈ Finset.range n, ∑ j ∈ Finset.range m, quadArea (P i j) (P (i + 1) j) (P (i + 1) (j + 1)) (P i (j + 1)) =
      boundaryArea P n m := by
  unfold boundaryArea quadArea
  simp only [← Finset.sum_div]
  congr 1
  have h : ∀ i j, wedge (P i j) (P (i + 1) j) + wedge (P (i + 1) j) (P (i + 1) (j + 1)) +
      wedge (P (i + 1) (j + 1)) (P i (j + 1)) + wedge (P i (j + 1)) (P i j) =
      - (wedge (P i (j + 1)) (P (i + 1) (j + 1)) - wedge (P i j) (P (i + 1) j)) +
        (wedge (P (i + 1) j) (P (i + 1) (j + 1)) - wedge (P i j) (P i (j + 1))) := by
    intro i j
    rw [wedge_swap (P (i + 1) (j + 1)) (P i (j + 1)), wedge_swap (P i (j + 1)) (P i j)]
    ring
  simp only [h, Finset.sum_add_distrib, Finset.sum_neg_distrib]
  have h1 : ∀ i, ∑ j ∈ Finset.range m, (wedge (P i (j + 1)) (P (i + 1) (j + 1)) - wedge (P i j) (P (i + 1) j)) =
      wedge (P i m) (P (i + 1) m) - wedge (P i 0) (P (i + 1) 0) := fun i =>
    Finset.sum_range_sub (fun j => wedge (P i j) (P (i + 1) j)) m
  simp only [h1]
  rw [Finset.sum_comm]
  have h2 : ∀ j, ∑ i ∈ Finset.range n, (wedge (P (i + 1) j) (P (i + 1) (j + 1)) - wedge (P i j) (P i (j + 1))) =
      wedge (P n j) (P n (j + 1)) - wedge (P 0 j) (P 0 (j + 1)) := fun j =>
    Finset.sum_range_sub (fun i => wedge (P i j) (P i (j + 1))) n
  simp only [h2, Finset.sum_sub_distrib]
  have h3 : ∀ i, wedge (P (i + 1) m) (P i m) = - wedge (P i m) (P (i + 1) m) := fun i => wedge_swap _ _
  have h4 : ∀ j, wedge (P 0 (j + 1)) (P 0 j) = - wedge (P 0 j) (P 0 (j + 1)) := fun j => wedge_swap _ _
  simp only [h3, h4, Finset.sum_neg_distrib]
  ring

theorem corner_update {a1 a2 : String} (hne : a1 ≠ a2) (e : String → Nat) (i j : Nat) :
    corner ∅ (Function.update (Function.update e a1 i) a2 j) = Function.update (Function.update e a1 i) a2 j ∧
    corner {a1} (Function.update (Function.update e a1 i) a2 j) = Function.update (Function.update e a1 (i + 1)) a2 j ∧
    corner {a1, a2} (Function.update (Function.update e a1 i) a2 j) =
      Function.update (Function.update e a1 (i + 1)) a2 (j + 1) ∧
    corner {a2} (Function.update (Function.update e a1 i) a2 j) = Function.update (Function.update e a1 i) a2 (j + 1) := by
  refine ⟨?_, ?_, ?_, ?_⟩ <;> funext ax <;> unfold corner
  · simp
  all_goals
    by_cases h1 : ax = a1
    · subst h1; simp [hne]
    · by_cases h2 : ax = a2
      · subst h2; simp [h1]
      · simp [h1, h2]

/-- **C56** (total area). The cell areas of a grid with `n` times `m` cells add up to the area within the boundary. -/
theorem C56_total (x y : SA K) (hx : x.WF) (hy : y.WF) (S : Shape) (hS : broadcastShapes [x.shape, y.shape] = .ok S)
    (a1 a2 : String) (hne : a1 ≠ a2) (n m : Nat) (h1 : get? S a1 = some (n + 1)) (h2 : get? S a2 = some (m + 1)) :
    ∃ r s, volumeCell2d x y (some [a1, a2]) = .ok r ∧ r.reduce false List.sum (some [a1, a2]) false none none = .ok s ∧
      s.WF ∧ (∀ ax, get? s.shape ax = if ax = a1 ∨ ax = a2 then none else get? S ax) ∧
      ∀ e, InRange s.shape e → s.at' e =
        boundaryArea (fun i j => vertex x y (Function.update (Function.update e a1 i) a2 j)) n m := by
  obtain ⟨r, r1, r2, r3, r4⟩ := C56_area x y hx hy S hS a1 a2 hne (mem_keys_of_get? h1) (mem_keys_of_get? h2)
  have hr1 : get? r.shape a1 = some n := by rw [r3, h1]; simp
  have hr2 : get? r.shape a2 = some m := by rw [r3, h2]; simp
  have hax : ∀ a ∈ [a1, a2], a ∈ r.axes := by
    intro a ha
    rw [← SA.keys_shape r2]
    simp only [List.mem_cons, List.not_mem_nil, or_false] at ha
    rcases ha with rfl | rfl
    · exact mem_keys_of_get? hr1
    · exact mem_keys_of_get? hr2
  have hwo : SA.WhereOk r none := by intro w h; cases h
  obtain ⟨s, q1, q2, q3, q4, _⟩ := SA.C17_reduce r r2 none hwo [a1, a2] (by simp [hne]) hax false List.sum false (by simp)
  have q4' : ∀ ax, get? s.shape ax = if ax = a1 ∨ ax = a2 then none else get? S ax := by
    intro ax
    rw [q4, r3]
    by_cases h : ax = a1 ∨ ax = a2
    · simp [h]
    · simp [h]
  refine ⟨r, s, r1, q1, q2, q4', fun e he => ?_⟩
  rw [SA.C17_reduce_orderless r r2 none hwo [a1, a2] (by simp [hne]) hax false List.sum
      (fun _ _ h => h.sum_eq) false s q1 e
      ((List.range n).flatMap (fun i => (List.range m).map (fun j => Function.update (Function.update e a1 i) a2 j))) ⟨?_, ?_⟩]
  · have : ∀ l : List (String → Nat), l.filter (SA.selected none) = l := fun l =>
      List.filter_eq_self.2 fun _ _ => rfl
    rw [this, List.map_flatMap]
    have hflat : ∀ (l : List Nat) (g : Nat → List K), (l.flatMap g).sum = (l.map (fun i => (g i).sum)).sum := by
      intro l g
      induction l with
      | nil => rfl
      | cons a l ih => rw [List.flatMap_cons, List.sum_append, ih, List.map_cons, List.sum_cons]
    rw [hflat, FA.sum_range_list]
    simp only [List.map_map, FA.sum_range_list]
    rw [← sum_quadArea]
    refine Finset.sum_congr rfl fun i hi => Finset.sum_congr rfl fun j hj => ?_
    have hi' : i < n := by simpa using hi
    have hj' : j < m := by simpa using hj
    obtain ⟨c0, c1, c2, c3⟩ := corner_update hne e i j
    show r.at' (Function.update (Function.update e a1 i) a2 j) = _
    rw [r4 _ ?_, gridArea, c0, c1, c2, c3]
    intro ax k hk
    by_cases e1 : ax = a1
    · subst e1
      rw [hr1] at hk; cases hk
      simpa [hne] using hi'
    · by_cases e2 : ax = a2
      · subst e2
        rw [hr2] at hk; cases hk
        simpa using hj'
      · rw [Function.update_of_ne e2, Function.update_of_ne e1]
        refine he ax k ?_
        rw [q4', if_neg (by simp [e1, e2]), ← hk, r3, if_neg (by simp [e1, e2])]
  · rw [List.nodup_flatMap]
    refine ⟨fun i _ => List.Nodup.map_on ?_ List.nodup_range, List.Nodup.pairwise_of_forall_ne List.nodup_range ?_⟩
    · intro j _ j' _ h
      have := congrFun h a2
      simpa using this
    · intro i _ i' _ hii
      rw [Function.onFun, List.disjoint_left]
      intro z hz hz'
      obtain ⟨j, _, rfl⟩ := List.mem_map.1 hz
      obtain ⟨j', _, h⟩ := List.mem_map.1 hz'
      have := congrFun h a1
      simp only [Function.update_of_ne hne, Function.update_self] at this
      exact hii this.symm
  · intro e'
    simp only [List.mem_flatMap, List.mem_map, List.mem_range, List.mem_cons, List.not_mem_nil, or_false, forall_eq_or_imp,
      forall_eq, hr1, hr2]
    constructor
    · rintro ⟨i, hi, j, hj, rfl⟩
      refine ⟨⟨⟨n, rfl, by simpa [hne] using hi⟩, ⟨m, rfl, by simpa using hj⟩⟩, fun x h => ?_⟩
      rw [not_or] at h
      simp [h.1, h.2]
    · rintro ⟨⟨⟨n', hn', h⟩, ⟨m', hm', h'⟩⟩, h''⟩
      cases hn'
      cases hm'
      refine ⟨e' a1, h, e' a2, h', ?_⟩
      funext x
      by_cases e2 : x = a2
      · subst e2; simp
      · by_cases e1 : x = a1
        · subst e1; simp [e2]
        · simp [e1, e2, h'' x (by simp [e1, e2])]

/-! ### Examples -/

/-- a rectangular grid of two by one cells and a sheared copy -/
def exX : SA ℚ := ⟨["i"], ND.ofList [3] [0, 1, 3] 0⟩
def exY : SA ℚ := ⟨["j"], ND.ofList [2] [1, 5] 0⟩
def exX' : SA ℚ := ⟨["j", "i"], ND.ofList [2, 3] [2, 4, 8, 6, 8, 12] 0⟩

example : exX.WF ∧ exY.WF ∧ exX'.WF := by decide
example : broadcastShapes [exX.shape, exY.shape] = .ok [("i", 3), ("j", 2)] := by decide +kernel
example : (volumeCell2d exX exY (some ["i", "j"])).map (fun r => (r.axes, r.nd.toList)) = .ok (["i", "j"], [4, 8]) := by
  decide +kernel
/-- the other orientation -/
example : (volumeCell2d exX exY (some ["j", "i"])).map (fun r => (r.axes, r.nd.toList)) = .ok (["i", "j"], [-4, -8]) := by
  decide +kernel
/-- `x' = 2 x + y + 1` -/
example : (volumeCell2d exX' exY (some ["i", "j"])).map (fun r => (r.axes, r.nd.toList)) = .ok (["j", "i"], [8, 16]) := by
  decide +kernel
example : (volumeCell2d exX exY (some ["i"])).map (fun r => (r.axes, r.nd.toList)) = .error .valueError := by decide +kernel
example : (exX.volumeCell none).map (fun r => (r.axes, r.nd.toList)) = .ok (["i"], [1, 2]) := by decide +kernel

end NA
