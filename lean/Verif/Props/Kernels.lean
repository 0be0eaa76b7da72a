import Verif.Scalar.Kernels
import Verif.Props.RandomSamples

/-!
# Functions of other packages along named axes (C93)
-/

namespace NA
open Dict
open SA (FitsIn InRange)

variable {α β γ δ : Type}

theorem getD_map_lt {α β : Type} (f : α → β) (l : List α) (i : Nat) (h : i < l.length) (d : β) :
    (l.map f).getD i d = f (l[i]) := by
  rw [List.getD_eq_getElem _ _ (by simpa using h), List.getElem_map]

namespace ND

theorem getD_toList {a : ND α} {i : List Nat} (h : InRange a.shape i) (d : α) : a.toList.getD (ravel a.shape i) d = a.get i := by
  rw [List.getD_eq_getElem?_getD, toList_getElem? (ravel_lt h), unravel_ravel h]
  rfl

/-- A row of the flattened vertices. -/
theorem row_toList {a : ND α} {s : List Nat} {n : Nat} (hs : a.shape = s ++ [n]) {i : List Nat} (h : InRange s i) :
    (a.toList.drop (ravel s i * n)).take n = (List.range n).map (fun k => a.get (i ++ [k])) := by
  have hlen : i.length = s.length := inRange_length h
  have hlt : ∀ k, k < n → ravel s i * n + k < a.shape.prod := by
    intro k hk
    have := ravel_lt h
    rw [hs, List.prod_append, List.prod_singleton]
    calc ravel s i * n + k < ravel s i * n + n := by omega
      _ = (ravel s i + 1) * n := by ring
      _ ≤ s.prod * n := Nat.mul_le_mul_right n this
  apply List.ext_getElem?
  intro k
  by_cases hk : k < n
  · rw [List.getElem?_take, if_pos hk, List.getElem?_drop, toList_getElem? (hlt k hk), List.getElem?_map,
      List.getElem?_range hk, Option.map_some]
    congr 2
    have hr : ravel a.shape (i ++ [k]) = ravel s i * n + k := by
      rw [hs, ravel_append hlen]
      simp [ravel]
    rw [← hr, unravel_ravel]
    rw [hs, inRange_append hlen]
    exact ⟨h, List.Forall₂.cons hk List.Forall₂.nil⟩
  · rw [List.getElem?_eq_none (by simp; omega), List.getElem?_eq_none (by simp; omega)]

end ND

namespace SA

theorem wf_orthogonal {S : Shape} (hS : Dict.WF S) (axis : List String) : Dict.WF (orthogonal S axis) := wf_filter hS _

theorem get?_orthogonal {S : Shape} (hS : Dict.WF S) (axis : List String) (x : String) :
    get? (orthogonal S axis) x = if x ∈ axis then none else get? S x := by
  unfold orthogonal
  rw [get?_filter_key hS (fun x => x ∉ axis)]
  by_cases h : x ∈ axis <;> simp [h]

theorem mem_keys_orthogonal (S : Shape) (axis : List String) (x : String) :
    x ∈ keys (orthogonal S axis) ↔ x ∈ keys S ∧ x ∉ axis := by
  unfold orthogonal
  rw [keys_filter_key S (fun x => x ∉ axis)]
  simp

theorem bs_clash {ss : List Shape} (hss : ∀ u ∈ ss, Dict.WF u) (h : Clash ss) : broadcastShapes ss = .error .valueError := by
  obtain ⟨e, he⟩ := (C01_broadcast_shapes_error_iff ss hss).2 h
  rw [he, C01_broadcast_shapes_error_kind ss hss e he]

/-- **C93** (polygons). Each point is compared with the polygon at its own index: the vertices of the polygon are the elements
along `axis` for the same index along the other axes. -/
theorem C93_polygon (inside : α → α → List α → List α → Bool) (default : α) (x y vx vy : SA α) (hx : x.WF) (hy : y.WF)
    (hvx : vx.WF) (hvy : vy.WF) (axis : String) (B : Shape)
    (hB : broadcastShapes [x.shape, y.shape, vx.shape, vy.shape] = .ok B) (n : Nat) (hn : get? B axis = some n) (h0 : n ≠ 0)
    (hxa : axis ∉ x.axes) (hya : axis ∉ y.axes) :
    ∃ r, pointInPolygon inside default x y vx vy axis = .ok r ∧ r.WF ∧ r.shape = orthogonal B [axis] ∧
      ∀ e, InRange r.shape e → r.at' e = inside (x.atB e) (y.atB e)
        ((List.range n).map (fun k => vx.atB (fun ax => if ax = axis then k else e ax)))
        ((List.range n).map (fun k => vy.atB (fun ax => if ax = axis then k else e ax))) := by
  have hss : ∀ u ∈ [x.shape, y.shape, vx.shape, vy.shape], Dict.WF u := by
    simp [wf_shape hx, wf_shape hy, wf_shape hvx, wf_shape hvy]
  have hBw := (broadcastShapes_joinOf hss hB).1
  have hOw := wf_orthogonal hBw [axis]
  have hnot : axis ∉ keys (orthogonal B [axis]) := by rw [mem_keys_orthogonal]; simp
  have hset : Dict.set (orthogonal B [axis]) axis n = orthogonal B [axis] ++ [(axis, n)] := set_of_not_mem hnot
  have hVw : Dict.WF (Dict.set (orthogonal B [axis]) axis n) := wf_set hOw _ _
  have hfit : ∀ a : SA α, a.shape ∈ [x.shape, y.shape, vx.shape, vy.shape] → a.WF → axis ∉ a.axes →
      FitsIn a.shape (orthogonal B [axis]) := by
    intro a ha haw hna ax m hm
    obtain ⟨k, hk, hmk⟩ := fitsIn_of_broadcastShapes hss hB ha ax m hm
    refine ⟨k, ?_, hmk⟩
    rw [get?_orthogonal hBw, if_neg, hk]
    intro hax
    rw [List.mem_singleton] at hax
    subst hax
    exact hna (by rw [← keys_shape haw]; exact mem_keys_of_get? hm)
  have hfitV : ∀ a : SA α, a.shape ∈ [x.shape, y.shape, vx.shape, vy.shape] →
      FitsIn a.shape (Dict.set (orthogonal B [axis]) axis n) := by
    intro a ha ax m hm
    obtain ⟨k, hk, hmk⟩ := fitsIn_of_broadcastShapes hss hB ha ax m hm
    refine ⟨k, ?_, hmk⟩
    rw [get?_set]
    by_cases hax : axis = ax
    · rw [if_pos hax]
      subst hax
      rw [← hn, hk]
    · rw [if_neg hax, get?_orthogonal hBw, if_neg (by simpa using Ne.symm hax), hk]
  obtain ⟨_, x', x1, x2, x3, x4⟩ | ⟨h, _⟩ := C10_broadcast_to x hx _ hOw
  swap
  · exact absurd (hfit x (by simp) hx hxa) h
  obtain ⟨_, y', y1, y2, y3, y4⟩ | ⟨h, _⟩ := C10_broadcast_to y hy _ hOw
  swap
  · exact absurd (hfit y (by simp) hy hya) h
  obtain ⟨_, vx', vx1, vx2, vx3, vx4⟩ | ⟨h, _⟩ := C10_broadcast_to vx hvx _ hVw
  swap
  · exact absurd (hfitV vx (by simp)) h
  obtain ⟨_, vy', vy1, vy2, vy3, vy4⟩ | ⟨h, _⟩ := C10_broadcast_to vy hvy _ hVw
  swap
  · exact absurd (hfitV vy (by simp)) h
  have hs : ∀ a : SA α, a.WF → a.shape = orthogonal B [axis] → a.nd.shape = values (orthogonal B [axis]) ∧
      a.axes = keys (orthogonal B [axis]) := fun a ha h => ⟨by rw [← values_shape ha, h], by rw [← keys_shape ha, h]⟩
  have hv : ∀ a : SA α, a.WF → a.shape = Dict.set (orthogonal B [axis]) axis n →
      a.nd.shape = values (orthogonal B [axis]) ++ [n] ∧ a.axes = keys (orthogonal B [axis]) ++ [axis] := by
    intro a ha h
    rw [hset] at h
    exact ⟨by rw [← values_shape ha, h]; simp [values], by rw [← keys_shape ha, h]; simp [keys]⟩
  set l := (List.range x'.nd.shape.prod).map (fun i =>
      inside (x'.nd.toList.getD i default) (y'.nd.toList.getD i default) ((vx'.nd.toList.drop (i * n)).take n)
        ((vy'.nd.toList.drop (i * n)).take n)) with hl
  have hm := mk?_of_wf (nd := ND.ofList x'.nd.shape l false) (axes := keys (orthogonal B [axis]))
    (by rw [(hs x' x2 x3).1]; simp [ND.ofList, ND.ndim, keys, values]) hOw
  have hsh : (SA.mk (keys (orthogonal B [axis])) (ND.ofList x'.nd.shape l false)).shape = orthogonal B [axis] :=
    shape_of_mk hOw (by rw [(hs x' x2 x3).1]; rfl)
  refine ⟨_, ?_, (mk?_ok hm).2, hsh, fun e he => ?_⟩
  · unfold pointInPolygon
    rw [hB]
    simp only [bind, Except.bind, hn]
    rw [x1, y1, vx1, vy1]
    simp only [ND.pointInPolygon, if_neg h0]
    exact hm
  · rw [hsh] at he
    have hi := (inRange_iff_nd hOw).1 he
    have hvals : ∀ (v v' : SA α), v'.WF → v'.shape = Dict.set (orthogonal B [axis]) axis n → (∀ e, v'.at' e = v.atB e) →
        (v'.nd.toList.drop (ND.ravel (values (orthogonal B [axis])) ((keys (orthogonal B [axis])).map e) * n)).take n =
          (List.range n).map (fun k => v.atB (fun ax => if ax = axis then k else e ax)) := by
      intro v v' hw hsv hat
      rw [ND.row_toList (hv v' hw hsv).1 hi]
      apply List.map_congr_left
      intro k hk
      rw [← hat]
      show v'.nd.get _ = v'.nd.get _
      rw [(hv v' hw hsv).2, List.map_append]
      congr 2
      · apply List.map_congr_left
        intro ax hax
        rw [if_neg]
        rintro rfl
        exact hnot hax
      · simp
    have hpt : ∀ (v v' : SA α), v'.WF → v'.shape = orthogonal B [axis] → (∀ e, v'.at' e = v.atB e) →
        v'.nd.toList.getD (ND.ravel (values (orthogonal B [axis])) ((keys (orthogonal B [axis])).map e)) default = v.atB e := by
      intro v v' hw hsv hat
      rw [← (hs v' hw hsv).1, ND.getD_toList (by rw [(hs v' hw hsv).1]; exact hi), ← hat, ← (hs v' hw hsv).2]
      rfl
    show l.getD (ND.ravel x'.nd.shape _) false = _
    have hlt : ND.ravel x'.nd.shape ((keys (orthogonal B [axis])).map e) < x'.nd.shape.prod := by
      rw [(hs x' x2 x3).1]; exact ND.ravel_lt hi
    rw [hl, getD_map_lt _ _ _ (by rw [List.length_range]; exact hlt), List.getElem_range, (hs x' x2 x3).1,
      hpt x x' x2 x3 x4, hpt y y' y2 y3 y4, hvals vx vx' vx2 vx3 vx4, hvals vy vy' vy2 vy3 vy4]

/-- **C93** (polygons, errors). Shapes which do not broadcast, points which have the axis of the vertices, and polygons without
vertices are a `ValueError`; an axis which none of the arguments has is a `KeyError`. -/
theorem C93_polygon_error (inside : α → α → List α → List α → Bool) (default : α) (x y vx vy : SA α) (hx : x.WF) (hy : y.WF)
    (hvx : vx.WF) (hvy : vy.WF) (axis : String) :
    (Clash [x.shape, y.shape, vx.shape, vy.shape] → pointInPolygon inside default x y vx vy axis = .error .valueError) ∧
    (¬ Clash [x.shape, y.shape, vx.shape, vy.shape] →
      (axis ∉ x.axes → axis ∉ y.axes → axis ∉ vx.axes → axis ∉ vy.axes →
        pointInPolygon inside default x y vx vy axis = .error .keyError) ∧
      (axis ∈ x.axes ∨ axis ∈ y.axes → pointInPolygon inside default x y vx vy axis = .error .valueError) ∧
      (∀ a ∈ [vx, vy], get? a.shape axis = some 0 → pointInPolygon inside default x y vx vy axis = .error .valueError)) := by
  have hss : ∀ u ∈ [x.shape, y.shape, vx.shape, vy.shape], Dict.WF u := by
    simp [wf_shape hx, wf_shape hy, wf_shape hvx, wf_shape hvy]
  refine ⟨fun h => ?_, fun h => ?_⟩
  · unfold pointInPolygon
    rw [bs_clash hss h]
    rfl
  · obtain ⟨B, hB⟩ : ∃ B, broadcastShapes [x.shape, y.shape, vx.shape, vy.shape] = .ok B := by
      cases hB : broadcastShapes [x.shape, y.shape, vx.shape, vy.shape] with
      | ok B => exact ⟨B, rfl⟩
      | error e => exact absurd ((C01_broadcast_shapes_error_iff _ hss).1 ⟨e, hB⟩) h
    have hBw := (broadcastShapes_joinOf hss hB).1
    have hOw := wf_orthogonal hBw [axis]
    have hVw : ∀ n, Dict.WF (Dict.set (orthogonal B [axis]) axis n) := fun n => wf_set hOw _ _
    have hkeys : ∀ ax, ax ∈ keys B ↔ ax ∈ x.axes ∨ ax ∈ y.axes ∨ ax ∈ vx.axes ∨ ax ∈ vy.axes := by
      intro ax
      obtain ⟨_, h2, _⟩ := C01_broadcast_shapes_ok _ hss B hB
      rw [h2]
      simp [keys_shape hx, keys_shape hy, keys_shape hvx, keys_shape hvy]
    have hno : ∀ a : SA α, a.WF → axis ∈ a.axes → ¬ FitsIn a.shape (orthogonal B [axis]) := by
      intro a ha hax hf
      rw [← keys_shape ha] at hax
      obtain ⟨n, hn⟩ := exists_get?_of_mem hax
      obtain ⟨m, hm, _⟩ := hf axis n hn
      rw [get?_orthogonal hBw, if_pos (by simp)] at hm
      cases hm
    have hok : ∀ (a : SA α) (s : Shape), a.WF → Dict.WF s → (∃ b, a.broadcastTo s = .ok b) ∨ a.broadcastTo s = .error .valueError := by
      intro a s ha hs
      obtain ⟨_, b, b1, _⟩ | ⟨_, h⟩ := C10_broadcast_to a ha s hs
      · exact Or.inl ⟨b, b1⟩
      · exact Or.inr h
    refine ⟨fun h1 h2 h3 h4 => ?_, fun hax => ?_, fun a ha hz => ?_⟩
    · unfold pointInPolygon
      rw [hB]
      simp only [bind, Except.bind]
      rw [get?_eq_none.2 (by rw [hkeys]; tauto)]
    · obtain ⟨n, hn⟩ := exists_get?_of_mem ((hkeys axis).2 (by tauto))
      unfold pointInPolygon
      rw [hB]
      simp only [bind, Except.bind, hn]
      rcases hok x _ hx hOw with ⟨x', x1⟩ | x1
      · rw [x1]
        simp only []
        rcases hok y _ hy hOw with ⟨y', y1⟩ | y1
        · exfalso
          rcases hax with hax | hax
          · obtain ⟨h, _⟩ | ⟨_, h⟩ := C10_broadcast_to x hx _ hOw
            · exact hno x hx hax h
            · rw [h] at x1; cases x1
          · obtain ⟨h, _⟩ | ⟨_, h⟩ := C10_broadcast_to y hy _ hOw
            · exact hno y hy hax h
            · rw [h] at y1; cases y1
        · rw [y1]
      · rw [x1]
    · have haw : a.WF := by
        simp only [List.mem_cons, List.not_mem_nil, or_false] at ha
        rcases ha with rfl | rfl <;> assumption
      have hmem : a.shape ∈ [x.shape, y.shape, vx.shape, vy.shape] := by
        simp only [List.mem_cons, List.not_mem_nil, or_false] at ha
        rcases ha with rfl | rfl <;> simp
      obtain ⟨n, hn, hn0⟩ := fitsIn_of_broadcastShapes hss hB hmem axis 0 hz
      have : n = 0 := by omega
      subst this
      unfold pointInPolygon
      rw [hB]
      simp only [bind, Except.bind, hn]
      rcases hok x _ hx hOw with ⟨x', x1⟩ | x1
      swap
      · rw [x1]
      rw [x1]
      simp only []
      rcases hok y _ hy hOw with ⟨y', y1⟩ | y1
      swap
      · rw [y1]
      rw [y1]
      simp only []
      rcases hok vx _ hvx (hVw 0) with ⟨vx', vx1⟩ | vx1
      swap
      · rw [vx1]
      rw [vx1]
      simp only []
      rcases hok vy _ hvy (hVw 0) with ⟨vy', vy1⟩ | vy1
      swap
      · rw [vy1]
      rw [vy1]
      rfl

end SA
end NA

namespace NA
open Dict
open SA (FitsIn InRange)
variable {α β γ δ : Type}
namespace SA

/-- **C93** (expressions). `na.numexpr.evaluate` combines the elements with the same named index. -/
theorem C93_evaluate (ex : Dict α → β) (arrays : Dict (SA α)) (hw : ∀ p ∈ arrays, p.2.WF) (B : Shape)
    (hB : broadcastShapes (arrays.map (fun p => p.2.shape)) = .ok B) :
    ∃ r, evaluate ex arrays = .ok r ∧ r.WF ∧ r.shape = B ∧
      ∀ e, r.at' e = ex (arrays.map (fun p => (p.1, p.2.atB e))) := by
  have hss : ∀ u ∈ arrays.map (fun p => p.2.shape), Dict.WF u := by
    intro u hu
    obtain ⟨p, hp, rfl⟩ := List.mem_map.1 hu
    exact wf_shape (hw p hp)
  have hBw := (broadcastShapes_joinOf hss hB).1
  have hb : ∀ p : String × SA α, p ∈ arrays → ∃ b, p.2.broadcastTo B = .ok b ∧ b.WF ∧ b.shape = B ∧ ∀ e, b.at' e = p.2.atB e := by
    intro p hp
    obtain ⟨_, b, b1, b2, b3, b4⟩ | ⟨h, _⟩ := C10_broadcast_to p.2 (hw p hp) B hBw
    · exact ⟨b, b1, b2, b3, b4⟩
    · exact absurd (fitsIn_of_broadcastShapes hss hB (List.mem_map_of_mem hp)) h
  have hb' : ∀ p : String × SA α, ∃ b, p ∈ arrays → p.2.broadcastTo B = .ok b ∧ b.WF ∧ b.shape = B ∧
      ∀ e, b.at' e = p.2.atB e := by
    intro p
    by_cases hp : p ∈ arrays
    · obtain ⟨b, hb⟩ := hb p hp
      exact ⟨b, fun _ => hb⟩
    · exact ⟨p.2, fun h => absurd h hp⟩
  choose g hg using hb'
  have hm : arrays.mapM (fun p => do
      let b ← p.2.broadcastTo B
      .ok (p.1, b.nd)) = (.ok (arrays.map (fun p => (p.1, (g p).nd))) : R _) := by
    apply mapM_map_ok
    intro p hp
    rw [(hg p hp).1]
    rfl
  have hk := mk?_of_wf (nd := (⟨values B, fun i => ex ((arrays.map (fun p => (p.1, (g p).nd))).map (fun p => (p.1, p.2.get i)))⟩ :
    ND β)) (axes := keys B) (by simp [ND.ndim, keys, values]) hBw
  refine ⟨_, ?_, (mk?_ok hk).2, shape_of_mk hBw rfl, fun e => ?_⟩
  · unfold evaluate
    have : arrays.values.map SA.shape = arrays.map (fun p => p.2.shape) := by simp [values]
    rw [this, hB]
    simp only [bind, Except.bind] at hm ⊢
    rw [hm]
    exact hk
  · show ex _ = ex _
    rw [List.map_map]
    congr 1
    apply List.map_congr_left
    intro p hp
    simp only [Function.comp_apply, Prod.mk.injEq, true_and]
    rw [← (hg p hp).2.2.2 e]
    unfold at'
    rw [← keys_shape (hg p hp).2.1, (hg p hp).2.2.1]

/-- **C93** (expressions, errors). -/
theorem C93_evaluate_error (ex : Dict α → β) (arrays : Dict (SA α)) (hw : ∀ p ∈ arrays, p.2.WF)
    (h : Clash (arrays.map (fun p => p.2.shape))) : evaluate ex arrays = .error .valueError := by
  unfold evaluate
  have : arrays.values.map SA.shape = arrays.map (fun p => p.2.shape) := by simp [values]
  rw [this, bs_clash _ h]
  · rfl
  · intro u hu
    obtain ⟨p, hp, rfl⟩ := List.mem_map.1 hu
    exact wf_shape (hw p hp)

/-- Specification: replace some coordinates of a named index. -/
def putNamed (e : String → Nat) (names : List String) (ks : List Nat) : String → Nat :=
  fun x => if x ∈ names then ks.getD (names.idxOf x) 0 else e x

theorem map_putNamed {axes names : List String} (hn : axes.Nodup) (hsub : names ⊆ axes) (e : String → Nat) (ks : List Nat) :
    axes.map (putNamed e names ks) = ND.putAt (axes.map e) (names.map axes.idxOf) ks := by
  apply List.ext_getElem
  · simp [ND.putAt]
  · intro i h1 h2
    have hi : i < axes.length := by simpa using h1
    simp only [ND.putAt, List.getElem_map, List.getElem_range]
    have hidx : axes.idxOf axes[i] = i := hn.idxOf_getElem i hi
    have hmem : i ∈ names.map axes.idxOf ↔ axes[i] ∈ names := by
      constructor
      · intro h
        obtain ⟨x, hx, hxi⟩ := List.mem_map.1 h
        have : axes[i] = x := by
          have := List.getElem_idxOf (List.idxOf_lt_length_iff.2 (hsub hx))
          simp only [hxi] at this
          exact this
        rw [this]
        exact hx
      · intro h
        exact List.mem_map.2 ⟨_, h, hidx⟩
    unfold putNamed
    by_cases h : axes[i] ∈ names
    · rw [if_pos h, if_pos (hmem.2 h)]
      congr 1
      have hlt := List.idxOf_lt_length_iff.2 h
      have hnd : (names.map axes.idxOf).idxOf i = names.idxOf axes[i] := by
        clear hmem h1 h2
        induction names with
        | nil => simp at h
        | cons x l ih =>
          rw [List.map_cons]
          by_cases hx : x = axes[i]
          · subst hx
            rw [hidx, List.idxOf_cons_self, List.idxOf_cons_self]
          · have hx' : axes.idxOf x ≠ i := by
              intro he
              apply hx
              have := List.getElem_idxOf (List.idxOf_lt_length_iff.2 (hsub (by simp : x ∈ x :: l)))
              simp only [he] at this
              exact this.symm
            rw [List.idxOf_cons_ne _ hx', List.idxOf_cons_ne _ hx]
            have h' : axes[i] ∈ l := by
              rcases List.mem_cons.1 h with h | h
              · exact absurd h.symm hx
              · exact h
            rw [ih (fun y hy => hsub (by simp [hy])) h' (List.idxOf_lt_length_iff.2 h')]
      exact hnd.symm
    · rw [if_neg h, if_neg (fun h' => h (hmem.1 h')), List.getD_eq_getElem _ _ (by simpa using hi), List.getElem_map]

/-- **C93** (filters). An element of the filtered array depends on the elements (and the mask) with the same index along the axes
which are not filtered, and every axis is filtered with its own size. -/
theorem C93_filter (g : List Nat → List Nat → (List Nat → α × Bool) → List Nat → β) (array : SA α) (size : Dict Nat) (wh : SA Bool)
    (ha : array.WF) (hwh : wh.WF) (B : Shape) (hB : broadcastShapes [array.shape, wh.shape] = .ok B)
    (hsize : ∀ ax ∈ keys size, ax ∈ keys B) :
    ∃ r, ndfilter g array size wh = .ok r ∧ r.WF ∧ r.shape = B ∧
      ∀ e, r.at' e = g (size.map (·.2)) (size.map (fun p => (get? B p.1).getD 0))
        (fun ks => (array.atB (putNamed e (keys size) ks), wh.atB (putNamed e (keys size) ks))) (size.map (fun p => e p.1)) := by
  have hss : ∀ u ∈ [array.shape, wh.shape], Dict.WF u := by simp [wf_shape ha, wf_shape hwh]
  have hBw := (broadcastShapes_joinOf hss hB).1
  obtain ⟨_, a, a1, a2, a3, a4⟩ | ⟨h, _⟩ := C10_broadcast_to array ha B hBw
  swap
  · exact absurd (fitsIn_of_broadcastShapes hss hB (by simp)) h
  obtain ⟨_, w, w1, w2, w3, w4⟩ | ⟨h, _⟩ := C10_broadcast_to wh hwh B hBw
  swap
  · exact absurd (fitsIn_of_broadcastShapes hss hB (by simp)) h
  have handa : a.nd.shape = values B := by rw [← values_shape a2, a3]
  have hk := mk?_of_wf (nd := ND.ndfilter g size.values (size.keys.map (keys B).idxOf) a.nd w.nd) (axes := keys B)
    (by simp [ND.ndfilter, ND.ndim, handa, keys, values]) hBw
  refine ⟨_, ?_, (mk?_ok hk).2, shape_of_mk hBw (by simp [ND.ndfilter, handa]), fun e => ?_⟩
  · unfold ndfilter
    rw [hB]
    simp only [bind, Except.bind]
    rw [if_pos (by simpa using hsize), a1, w1]
    exact hk
  · show g _ _ _ _ = g _ _ _ _
    have hpos : ∀ ax ∈ keys size, (keys B).idxOf ax < (keys B).length := fun ax hax => List.idxOf_lt_length_iff.2 (hsize ax hax)
    congr 1
    · rw [List.map_map, handa]
      simp only [keys, List.map_map]
      apply List.map_congr_left
      intro p hp
      simp only [Function.comp_apply]
      have hmem : p.1 ∈ keys B := hsize p.1 (List.mem_map_of_mem hp)
      have hv : values B = (keys B).map (fun x => (get? B x).getD 0) := by
        simp only [values, keys, List.map_map]
        apply List.map_congr_left
        intro q hq
        simp [get?_of_mem hBw hq]
      show (values B).getD ((keys B).idxOf p.1) 0 = _
      rw [hv]
      exact getD_map_idxOf _ hmem
    · funext ks
      have := map_putNamed hBw (names := keys size) hsize e ks
      rw [← a4, ← w4]
      unfold at'
      rw [← keys_shape a2, a3, ← keys_shape w2, w3, this]
    · rw [List.map_map]
      have : size.map (fun p => e p.1) = (keys size).map e := by simp [keys]
      rw [this]
      apply List.map_congr_left
      intro ax hax
      exact getD_map_idxOf e (hsize ax hax)

/-- **C93** (filters, errors). A size for an axis which neither the array nor the mask has is a `ValueError`. -/
theorem C93_filter_error (g : List Nat → List Nat → (List Nat → α × Bool) → List Nat → β) (array : SA α) (size : Dict Nat)
    (wh : SA Bool) (ha : array.WF) (hwh : wh.WF)
    (h : Clash [array.shape, wh.shape] ∨ ∃ ax ∈ keys size, ax ∉ array.axes ∧ ax ∉ wh.axes) :
    ndfilter g array size wh = .error .valueError := by
  have hss : ∀ u ∈ [array.shape, wh.shape], Dict.WF u := by simp [wf_shape ha, wf_shape hwh]
  unfold ndfilter
  cases hB : broadcastShapes [array.shape, wh.shape] with
  | error e =>
    rw [C01_broadcast_shapes_error_kind _ hss e hB]
    rfl
  | ok B =>
    rcases h with h | ⟨ax, h1, h2, h3⟩
    · rw [bs_clash hss h] at hB
      cases hB
    · simp only [bind, Except.bind]
      rw [if_neg]
      intro hall
      rw [List.all_eq_true] at hall
      have := of_decide_eq_true (hall ax h1)
      rw [(C01_broadcast_shapes_ok _ hss B hB).2.1 ax] at this
      simp [keys_shape ha, keys_shape hwh] at this
      tauto

end SA
end NA

namespace NA
open Dict
open SA (FitsIn InRange)
variable {α β γ δ : Type}
namespace SA

/-- Specification: `c` is the image of a named function along the axes `names`, at the index `e` along the other axes. -/
structure IsImage (names : List String) (S : Shape) (value : (String → Nat) → γ) (e : String → Nat) (c : ND γ) : Prop where
  shape : c.shape = names.map (fun ax => (get? S ax).getD 0)
  elem : ∀ ks, ks.length = names.length → c.get ks = value (putNamed e names ks)

theorem map_putNamed_self {names : List String} (hn : names.Nodup) (e : String → Nat) {ks : List Nat} (h : ks.length = names.length) :
    names.map (putNamed e names ks) = ks := by
  apply List.ext_getElem
  · simp [h]
  · intro i h1 h2
    have hi : i < names.length := by omega
    simp only [List.getElem_map, putNamed, List.getElem_mem, if_true]
    rw [hn.idxOf_getElem i hi, List.getD_eq_getElem _ _ h2]

theorem image_of (b : SA γ) (hb : b.WF) {O : List String} (hO : O.Nodup) {e : String → Nat}
    (h : ∀ ax ∈ O, ∀ n, get? b.shape ax = some n → e ax < n) :
    ∃ c, b.getitem (itemAt O e) = .ok c ∧ c.WF ∧ c.axes = b.axes.filter (· ∉ O) ∧
      IsImage (b.axes.filter (· ∉ O)) b.shape b.at' e c.nd := by
  obtain ⟨c, c1, c2, c3, c4, c5⟩ := getitem_itemAt b hb hO h
  have hn : (b.axes.filter (· ∉ O)).Nodup := hb.2.filter _
  refine ⟨c, c1, c2, c3, ?_, fun ks hks => ?_⟩
  · rw [← values_shape c2]
    have hv : values c.shape = (keys c.shape).map (fun x => (get? c.shape x).getD 0) := by
      simp only [values, keys, List.map_map]
      apply List.map_congr_left
      intro q hq
      simp [get?_of_mem (wf_shape c2) hq]
    rw [hv, keys_shape c2, c3]
    apply List.map_congr_left
    intro x hx
    have : x ∉ O := by simpa using (List.mem_filter.1 hx).2
    rw [c4, if_neg this]
  · have h1 := c5 (putNamed e (b.axes.filter (· ∉ O)) ks)
    unfold at' at h1
    rw [c3, map_putNamed_self hn e hks] at h1
    rw [h1]
    unfold at'
    congr 1
    apply List.map_congr_left
    intro x hx
    split
    · next hxO =>
      unfold putNamed
      rw [if_neg (by simp [hxO])]
    · rfl

theorem wf_optShape (o : Option (SA γ)) (h : ∀ a, o = some a → a.WF) : Dict.WF (optShape o) := by
  cases o with
  | none => exact wf_nil
  | some a => exact wf_shape (h a rfl)

theorem optM_rel {f : γ → R δ} {P : γ → δ → Prop} {x : Option γ} (h : ∀ a, x = some a → ∃ b, f a = .ok b ∧ P a b) :
    ∃ y, optM f x = .ok y ∧ Option.Rel P x y := by
  cases x with
  | none => exact ⟨none, rfl, .none⟩
  | some a =>
    obtain ⟨b, b1, b2⟩ := h a rfl
    refine ⟨some b, ?_, .some b2⟩
    simp [optM, b1, bind, Except.bind]

/-- **C93** (cosmic rays). Every image along `axis` is cleaned on its own: `detect_cosmics` is called with the image of the data, of
the mask (inverted), of the background and of the variance at one index of the other axes, and with the point spread function at
this index, and the result is stored at the same index. -/
theorem C93_despike (clean : ND α → Option (ND Bool) → Option (ND α) → Option (ND α) → Option (ND α) → R (ND α))
    (array : SA α) (axis : List String) (wh : Option (SA Bool)) (inbkg invar psfk : Option (SA α))
    (ha : array.WF) (hwh : ∀ a, wh = some a → a.WF) (hbkg : ∀ a, inbkg = some a → a.WF) (hvar : ∀ a, invar = some a → a.WF)
    (hpsf : ∀ a, psfk = some a → a.WF) (B : Shape)
    (hB : broadcastShapes [array.shape, optShape wh, optShape inbkg, optShape invar] = .ok B)
    (hK : ∀ a, psfk = some a → ¬ Clash [B.filter (fun p => p.1 ∉ axis), a.shape])
    (hzero : ∀ a, psfk = some a → ∀ ax, ax ∉ axis → get? a.shape ax ≠ some 0)
    (hclean : ∀ c m b v k, c.shape = ((keys B).filter (· ∈ axis)).map (fun ax => (get? B ax).getD 0) →
      ∃ q, clean c m b v k = .ok q ∧ q.shape = c.shape) :
    ∃ r, despike clean array axis wh inbkg invar psfk = .ok r ∧ r.WF ∧ r.shape = B ∧
      ∀ e, InRange B e → ∃ c m b v k q, clean c m b v k = .ok q ∧ r.at' e = q.get (((keys B).filter (· ∈ axis)).map e) ∧
        IsImage ((keys B).filter (· ∈ axis)) B array.atB e c ∧
        Option.Rel (fun a m => IsImage ((keys B).filter (· ∈ axis)) B (fun e => !a.atB e) e m) wh m ∧
        Option.Rel (fun a b => IsImage ((keys B).filter (· ∈ axis)) B a.atB e b) inbkg b ∧
        Option.Rel (fun a v => IsImage ((keys B).filter (· ∈ axis)) B a.atB e v) invar v ∧
        Option.Rel (fun a k => IsImage (a.axes.filter (fun ax => ax ∈ axis ∨ ax ∉ keys B)) a.shape a.atB e k) psfk k := by
  have hss : ∀ u ∈ [array.shape, optShape wh, optShape inbkg, optShape invar], Dict.WF u := by
    simp only [List.mem_cons, List.not_mem_nil, or_false, forall_eq_or_imp, forall_eq]
    exact ⟨wf_shape ha, wf_optShape _ hwh, wf_optShape _ hbkg, wf_optShape _ hvar⟩
  have hBw := (broadcastShapes_joinOf hss hB).1
  have hbc : ∀ {γ : Type} (a : SA γ), a.WF → a.shape ∈ [array.shape, optShape wh, optShape inbkg, optShape invar] →
      ∃ b, a.broadcastTo B = .ok b ∧ b.WF ∧ b.shape = B ∧ ∀ e, b.at' e = a.atB e := by
    intro γ a ha hm
    obtain ⟨_, b, b1, b2, b3, b4⟩ | ⟨h, _⟩ := C10_broadcast_to a ha B hBw
    · exact ⟨b, b1, b2, b3, b4⟩
    · exact absurd (fitsIn_of_broadcastShapes hss hB hm) h
  obtain ⟨A, A1, A2, A3, A4⟩ := hbc array ha (by simp)
  obtain ⟨W, W1, W2⟩ := optM_rel (f := fun a : SA Bool => a.broadcastTo B)
    (P := fun a b => b.WF ∧ b.shape = B ∧ ∀ e, b.at' e = a.atB e) (x := wh) (fun a h => hbc a (hwh a h) (by subst h; simp [optShape]))
  obtain ⟨G, G1, G2⟩ := optM_rel (f := fun a : SA α => a.broadcastTo B)
    (P := fun a b => b.WF ∧ b.shape = B ∧ ∀ e, b.at' e = a.atB e) (x := inbkg) (fun a h => hbc a (hbkg a h) (by subst h; simp [optShape]))
  obtain ⟨V, V1, V2⟩ := optM_rel (f := fun a : SA α => a.broadcastTo B)
    (P := fun a b => b.WF ∧ b.shape = B ∧ ∀ e, b.at' e = a.atB e) (x := invar) (fun a h => hbc a (hvar a h) (by subst h; simp [optShape]))
  have hOw : Dict.WF (orthogonal B axis) := wf_orthogonal hBw axis
  obtain ⟨K, K1, K2⟩ := optM_rel (f := despikePsf (orthogonal B axis)) (x := psfk)
    (P := fun a b => b.WF ∧ broadcastShapes [orthogonal B axis, a.shape] = .ok b.shape ∧ ∀ e, b.at' e = a.atB e) (by
      intro a h
      have haw := hpsf a h
      have hss' : ∀ u ∈ [orthogonal B axis, a.shape], Dict.WF u := by simp [hOw, wf_shape haw]
      cases hs : broadcastShapes [orthogonal B axis, a.shape] with
      | error er => exact absurd ((C01_broadcast_shapes_error_iff _ hss').1 ⟨er, hs⟩) (hK a h)
      | ok SP =>
        have hSP := (broadcastShapes_joinOf hss' hs).1
        obtain ⟨_, b, b1, b2, b3, b4⟩ | ⟨hf, _⟩ := C10_broadcast_to a haw SP hSP
        · refine ⟨b, ?_, b2, by rw [b3], b4⟩
          unfold despikePsf
          rw [hs]
          exact b1
        · exact absurd (fitsIn_of_broadcastShapes hss' hs (by simp)) hf)
  have hkO : ∀ x, x ∈ keys (orthogonal B axis) ↔ x ∈ keys B ∧ x ∉ axis := fun x => mem_keys_orthogonal B axis x
  have hfilter : (keys B).filter (· ∉ keys (orthogonal B axis)) = (keys B).filter (· ∈ axis) := by
    apply List.filter_congr
    intro x hx
    simp only [hkO, hx, true_and, not_not]
  have hrange : ∀ e, InRange (orthogonal B axis) e → ∀ ax ∈ keys (orthogonal B axis), ∀ n, get? B ax = some n → e ax < n := by
    intro e he ax hax n hn
    apply he ax n
    rw [get?_orthogonal hBw, if_neg ((hkO ax).1 hax).2]
    exact hn
  -- the image of an array with the shape `B`
  have himg : ∀ {γ : Type} (b : SA γ), b.WF → b.shape = B → ∀ e, InRange (orthogonal B axis) e →
      ∃ c, b.getitem (itemAt (keys (orthogonal B axis)) e) = .ok c ∧ c.WF ∧ c.axes = (keys B).filter (· ∈ axis) ∧
        IsImage ((keys B).filter (· ∈ axis)) B b.at' e c.nd := by
    intro γ b hb hs e he
    obtain ⟨c, c1, c2, c3, c4⟩ := image_of b hb hOw (e := e) (by rw [hs]; exact hrange e he)
    have hax : b.axes = keys B := by rw [← keys_shape hb, hs]
    rw [hax, hs, hfilter] at c4
    rw [hax, hfilter] at c3
    exact ⟨c, c1, c2, c3, c4⟩
  have hopt : ∀ {γ : Type} (o b : Option (SA γ)), Option.Rel (fun a b => b.WF ∧ b.shape = B ∧ ∀ e, b.at' e = a.atB e) o b →
      ∀ e, InRange (orthogonal B axis) e → ∃ c, optM (fun a => a.getitem (itemAt (keys (orthogonal B axis)) e)) b = .ok c ∧
        Option.Rel (fun a m => IsImage ((keys B).filter (· ∈ axis)) B a.atB e m) o (c.map SA.nd) := by
    intro γ o b h e he
    cases h with
    | none => exact ⟨none, rfl, .none⟩
    | some h =>
      next a b =>
      obtain ⟨c, c1, _, _, c4⟩ := himg b h.1 h.2.1 e he
      refine ⟨some c, by simp [optM, c1, bind, Except.bind], .some ⟨c4.1, fun ks hks => ?_⟩⟩
      rw [c4.2 ks hks, h.2.2]
  have hbody : ∀ e, InRange (orthogonal B axis) e → ∃ vv, despikeSlab clean A
      (W.map (fun a => (⟨a.axes, ⟨a.nd.shape, fun i => !a.nd.get i⟩⟩ : SA Bool))) G V K (itemAt (keys (orthogonal B axis)) e) = .ok vv ∧
      vv.WF ∧ vv.axes = (keys B).filter (· ∈ axis) ∧ vv.nd.shape = ((keys B).filter (· ∈ axis)).map (fun ax => (get? B ax).getD 0) ∧
      ∃ c m b v k q, clean c m b v k = .ok q ∧ vv.nd = q ∧
        IsImage ((keys B).filter (· ∈ axis)) B array.atB e c ∧
        Option.Rel (fun a m => IsImage ((keys B).filter (· ∈ axis)) B (fun e => !a.atB e) e m) wh m ∧
        Option.Rel (fun a b => IsImage ((keys B).filter (· ∈ axis)) B a.atB e b) inbkg b ∧
        Option.Rel (fun a v => IsImage ((keys B).filter (· ∈ axis)) B a.atB e v) invar v ∧
        Option.Rel (fun a k => IsImage (a.axes.filter (fun ax => ax ∈ axis ∨ ax ∉ keys B)) a.shape a.atB e k) psfk k := by
    intro e he
    obtain ⟨c, c1, c2, c3, c4⟩ := himg A A2 A3 e he
    have hc : IsImage ((keys B).filter (· ∈ axis)) B array.atB e c.nd :=
      ⟨c4.1, fun ks hks => by rw [c4.2 ks hks, A4]⟩
    have hm : ∃ m, optM (fun a => a.getitem (itemAt (keys (orthogonal B axis)) e))
        (W.map (fun a => (⟨a.axes, ⟨a.nd.shape, fun i => !a.nd.get i⟩⟩ : SA Bool))) = .ok m ∧
        Option.Rel (fun a m => IsImage ((keys B).filter (· ∈ axis)) B (fun e => !a.atB e) e m) wh (m.map SA.nd) := by
      cases W2 with
      | none => exact ⟨none, rfl, .none⟩
      | some h =>
        next a b =>
        obtain ⟨m, m1, _, _, m4⟩ := himg (⟨b.axes, ⟨b.nd.shape, fun i => !b.nd.get i⟩⟩ : SA Bool) ⟨h.1.1, h.1.2⟩ h.2.1 e he
        refine ⟨some m, by simp [optM, m1, bind, Except.bind], .some ⟨m4.1, fun ks hks => ?_⟩⟩
        rw [m4.2 ks hks]
        show (!b.at' _) = _
        rw [h.2.2]
    obtain ⟨m, m1, m2⟩ := hm
    obtain ⟨b, b1, b2⟩ := hopt inbkg G G2 e he
    obtain ⟨v, v1, v2⟩ := hopt invar V V2 e he
    have hk : ∃ k, optM (fun a => a.getitem (itemAt (keys (orthogonal B axis)) e)) K = .ok k ∧
        Option.Rel (fun a k => IsImage (a.axes.filter (fun ax => ax ∈ axis ∨ ax ∉ keys B)) a.shape a.atB e k) psfk
          (k.map SA.nd) := by
      have hpsf' := hpsf
      cases K2 with
      | none => exact ⟨none, rfl, .none⟩
      | some h =>
        next a b =>
        have haw := hpsf a rfl
        have hss' : ∀ u ∈ [orthogonal B axis, a.shape], Dict.WF u := by simp [hOw, wf_shape haw]
        obtain ⟨_, hkeys, hsz⟩ := C01_broadcast_shapes_ok _ hss' _ h.2.1
        obtain ⟨c', c1', _, c3', c4'⟩ := image_of b h.1 hOw (e := e) (by
          intro ax hax n hn
          obtain ⟨n', hn', hfit⟩ := fitsIn_of_broadcastShapes hss' h.2.1 (s := orthogonal B axis) (by simp) ax
            ((get? (orthogonal B axis) ax).getD 0) (by
              obtain ⟨z, hz⟩ := exists_get?_of_mem hax
              simp [hz])
          obtain ⟨z, hz⟩ := exists_get?_of_mem hax
          have := he ax z hz
          rw [hn] at hn'
          cases hn'
          rw [hz, Option.getD_some] at hfit
          rcases hfit with hfit | hfit
          · rw [← hfit]; exact this
          · rw [hfit] at this
            have h0 : e ax = 0 := by omega
            rw [h0]
            obtain ⟨hj1, _⟩ : n ∈ sizesOf [orthogonal B axis, a.shape] ax ∧ _ := by
              have := (broadcastShapes_joinOf hss' h.2.1).2 ax
              rw [hn] at this
              exact this
            simp only [sizesOf, List.mem_filterMap, List.mem_cons, List.not_mem_nil, or_false] at hj1
            obtain ⟨s, rfl | rfl, hs⟩ := hj1
            · rw [hz] at hs
              injection hs with hs
              omega
            · apply Nat.pos_of_ne_zero
              rintro rfl
              exact hzero a rfl ax ((hkO ax).1 hax).2 hs)
        have hax : b.axes.filter (· ∉ keys (orthogonal B axis)) = a.axes.filter (fun ax => ax ∈ axis ∨ ax ∉ keys B) := by
          rw [← keys_shape h.1, C03_axis_order _ hss' _ h.2.1, List.flatMap_cons, eraseDups_append_filter,
            eraseDups_of_nodup hOw, List.filter_append, List.filter_eq_nil_iff.2 (by simp), List.nil_append]
          simp only [List.flatMap_cons, List.flatMap_nil, List.append_nil]
          rw [keys_shape haw, eraseDups_of_nodup (haw.2.filter _), List.filter_filter]
          apply List.filter_congr
          intro x _
          have := hkO x
          by_cases h1 : x ∈ keys B <;> by_cases h2 : x ∈ axis <;> simp [this, h1, h2]
        refine ⟨some c', by simp [optM, c1', bind, Except.bind], .some ?_⟩
        rw [hax] at c4'
        refine ⟨c4'.1.trans ?_, fun ks hks => by rw [c4'.2 ks hks, h.2.2]⟩
        apply List.map_congr_left
        intro x hx
        have hxO : x ∉ keys (orthogonal B axis) := by
          have := (List.mem_filter.1 hx).2
          rw [hkO]
          have : x ∈ axis ∨ x ∉ keys B := by simpa using this
          tauto
        obtain ⟨z, hz⟩ := exists_get?_of_mem (show x ∈ keys a.shape by rw [keys_shape haw]; exact (List.mem_filter.1 hx).1)
        have hj := (broadcastShapes_joinOf hss' h.2.1).2 x
        simp only [sizesOf, List.filterMap_cons, get?_eq_none.2 hxO, hz, List.filterMap_nil] at hj
        cases hb : get? b.shape x with
        | none => rw [hb] at hj; simp [JoinOf] at hj
        | some w =>
          rw [hb] at hj
          simp only [JoinOf, List.mem_singleton] at hj
          rw [hz, hj.1]
    obtain ⟨k, k1, k2⟩ := hk
    obtain ⟨q, q1, q2⟩ := hclean c.nd (m.map SA.nd) (b.map SA.nd) (v.map SA.nd) (k.map SA.nd) hc.1
    have hmk := mk?_of_wf (nd := q) (axes := c.axes) (by
      rw [ND.ndim, q2]; exact c2.1) c2.2
    refine ⟨⟨c.axes, q⟩, ?_, (mk?_ok hmk).2, c3, by rw [q2, hc.1], c.nd, _, _, _, _, q, q1, rfl, hc, m2, b2, v2, k2⟩
    unfold despikeSlab
    rw [c1]
    simp only [bind, Except.bind]
    rw [m1]
    simp only []
    rw [b1]
    simp only []
    rw [v1]
    simp only []
    rw [k1]
    simp only []
    rw [q1]
    simp only [slabOfNd]
    rw [if_pos q2]
    exact hmk
  have hshape : ∀ vv : SA α, vv.axes = (keys B).filter (· ∈ axis) →
      vv.nd.shape = ((keys B).filter (· ∈ axis)).map (fun ax => (get? B ax).getD 0) →
      vv.shape = ((keys B).filter (· ∈ axis)).map (fun ax => (ax, (get? B ax).getD 0)) := by
    intro vv w3 w4
    unfold SA.shape
    rw [w3, w4]
    generalize (keys B).filter (· ∈ axis) = l
    induction l with
    | nil => rfl
    | cons x l ih => simp [ih]
  obtain ⟨r, r1, r2, r3, r4, r5⟩ := forEach_ok (orthogonal B axis) hOw (despikeSlab clean A
      (W.map (fun a => (⟨a.axes, ⟨a.nd.shape, fun i => !a.nd.get i⟩⟩ : SA Bool))) G V K) A A2 (by
      intro ax n hn
      rw [get?_orthogonal hBw] at hn
      rw [A3]
      split at hn
      · cases hn
      · exact hn) (by
      intro e he
      obtain ⟨vv, w1, w2, w3, w4, _⟩ := hbody e he
      refine ⟨vv, w1, w2, fun x mm hmm => ?_⟩
      have hx : x ∈ vv.axes := by rw [← keys_shape w2]; exact mem_keys_of_get? hmm
      rw [w3, List.mem_filter] at hx
      have hxa : x ∈ axis := by simpa using hx.2
      refine ⟨fun hxO => ((hkO x).1 hxO).2 hxa, ?_⟩
      obtain ⟨n, hn⟩ := exists_get?_of_mem hx.1
      refine ⟨n, by rw [A3]; exact hn, Or.inl ?_⟩
      rw [hshape vv w3 w4, get?_map_axes] at hmm
      split at hmm
      · injection hmm with hmm
        rw [← hmm, hn, Option.getD_some]
      · cases hmm)
  refine ⟨r, ?_, r2, by rw [r4, A3], fun e he => ?_⟩
  · unfold despike
    rw [hB]
    simp only [bind, Except.bind]
    rw [A1]
    simp only []
    rw [W1]
    simp only []
    rw [G1]
    simp only []
    rw [V1]
    simp only []
    rw [K1]
    simp only []
    rw [ndindex_ignored hBw axis]
    exact r1
  · have heO : InRange (orthogonal B axis) e := by
      intro ax n hn
      rw [get?_orthogonal hBw] at hn
      split at hn
      · cases hn
      · exact he ax n hn
    obtain ⟨vv, w1, w2, w3, w4, c, m, b, v, k, q, q1, q2, hrest⟩ := hbody e heO
    refine ⟨c, m, b, v, k, q, q1, ?_, hrest⟩
    have hev : InRange vv.shape e := by
      intro x n hn
      have hx : x ∈ vv.axes := by rw [← keys_shape w2]; exact mem_keys_of_get? hn
      rw [hshape vv w3 w4, get?_map_axes] at hn
      split at hn
      · next hx =>
        injection hn with hn
        obtain ⟨z, hz⟩ := exists_get?_of_mem (List.mem_filter.1 hx).1
        rw [hz, Option.getD_some] at hn
        rw [← hn]
        exact he x z hz
      · cases hn
    rw [r5 e (by rw [A3]; exact he) vv w1, atB_eq_at' w2 hev]
    unfold at'
    rw [w3, q2]

end SA
end NA

namespace NA
open Dict
open SA (FitsIn InRange)
variable {α β γ δ : Type}
namespace SA

/-- **C93** (cosmic rays, the order of `axis`). The images are passed in the order of the axes of the array: the order of the
argument `axis` has no effect. -/
theorem C93_despike_axis (clean : ND α → Option (ND Bool) → Option (ND α) → Option (ND α) → Option (ND α) → R (ND α))
    (array : SA α) (axis axis' : List String) (wh : Option (SA Bool)) (inbkg invar psfk : Option (SA α))
    (ha : array.WF) (hwh : ∀ a, wh = some a → a.WF) (hbkg : ∀ a, inbkg = some a → a.WF) (hvar : ∀ a, invar = some a → a.WF)
    (h : ∀ x, x ∈ axis ↔ x ∈ axis') :
    despike clean array axis wh inbkg invar psfk = despike clean array axis' wh inbkg invar psfk := by
  have h1 : ∀ S : Shape, orthogonal S axis = orthogonal S axis' := by
    intro S
    unfold orthogonal
    apply List.filter_congr
    intro x _
    simp [h]
  have h2 : ∀ S : Shape, Dict.WF S → ndindex S axis = ndindex S axis' := by
    intro S hS
    rw [ndindex_ignored hS axis, ndindex_ignored hS axis', h1]
  unfold despike
  cases hB : broadcastShapes [array.shape, optShape wh, optShape inbkg, optShape invar] with
  | error e => rfl
  | ok B =>
    have hBw : Dict.WF B := by
      refine (broadcastShapes_joinOf ?_ hB).1
      simp only [List.mem_cons, List.not_mem_nil, or_false, forall_eq_or_imp, forall_eq]
      exact ⟨wf_shape ha, wf_optShape _ hwh, wf_optShape _ hbkg, wf_optShape _ hvar⟩
    simp only [bind, Except.bind, h1, h2 B hBw]

/-- **C93** (cosmic rays, errors). -/
theorem C93_despike_error (clean : ND α → Option (ND Bool) → Option (ND α) → Option (ND α) → Option (ND α) → R (ND α))
    (array : SA α) (axis : List String) (wh : Option (SA Bool)) (inbkg invar psfk : Option (SA α))
    (ha : array.WF) (hwh : ∀ a, wh = some a → a.WF) (hbkg : ∀ a, inbkg = some a → a.WF) (hvar : ∀ a, invar = some a → a.WF)
    (h : Clash [array.shape, optShape wh, optShape inbkg, optShape invar]) :
    despike clean array axis wh inbkg invar psfk = .error .valueError := by
  unfold despike
  rw [bs_clash _ h]
  · rfl
  · simp only [List.mem_cons, List.not_mem_nil, or_false, forall_eq_or_imp, forall_eq]
    exact ⟨wf_shape ha, wf_optShape _ hwh, wf_optShape _ hbkg, wf_optShape _ hvar⟩

/-- The same array, with its axes in the other order. -/
def exKernel (axes : List String) : SA Int :=
  ⟨axes, ⟨[2, 2], fun i => if axes = ["x", "y"] then 2 * i.getD 0 0 + i.getD 1 0 else 2 * i.getD 1 0 + i.getD 0 0⟩⟩

theorem wf_exKernel : (exKernel ["x", "y"]).WF ∧ (exKernel ["y", "x"]).WF := ⟨⟨rfl, by decide⟩, ⟨rfl, by decide⟩⟩

theorem same_exKernel : SameByName (exKernel ["x", "y"]) (exKernel ["y", "x"]) := by
  refine ⟨?_, fun e _ => ?_⟩
  · intro x
    simp only [SA.shape, exKernel, List.zip_cons_cons, List.zip_nil_right, get?_cons, get?_nil]
    by_cases h1 : "x" = x <;> by_cases h2 : "y" = x <;> simp [h1, h2]
  · simp [at', exKernel]

/-- An image function which puts the second element of the first row of the kernel everywhere. -/
def exConvolve (c : ND Int) (_ : Option (ND Bool)) (_ _ k : Option (ND Int)) : R (ND Int) :=
  .ok ⟨c.shape, fun _ => (k.map (fun k => k.get [0, 1])).getD 0⟩

theorem differ_of_reads {m m' : R (SA Int)} {S : Shape} {u u' : Int}
    (h1 : m.map (fun r => (r.shape, r.at' (fun _ => 0))) = .ok ([("x", 2), ("y", 2)], u))
    (h2 : m'.map (fun r => (r.shape, r.at' (fun _ => 0))) = .ok (S, u'))
    (h : ∀ r r', m = .ok r → m' = .ok r' → SameByName r r') (hne : u ≠ u') : False := by
  cases hr : m with
  | error e => rw [hr] at h1; cases h1
  | ok r =>
    cases hr' : m' with
    | error e => rw [hr'] at h2; cases h2
    | ok r' =>
      rw [hr] at h1
      rw [hr'] at h2
      simp only [Except.map, Except.ok.injEq, Prod.mk.injEq] at h1 h2
      have hs := (h r r' hr hr').2 (fun _ => 0) (by
        rw [h1.1]
        intro x n hn
        simp only [get?_cons, get?_nil] at hn
        split at hn
        · injection hn with hn; show 0 < n; omega
        · split at hn
          · injection hn with hn; show 0 < n; omega
          · cases hn)
      rw [h1.2, h2.2] at hs
      exact hne hs

/-- **C93** (cosmic rays, refuted). Two point spread functions which are equal by name do not give the same result: the kernel is
passed in the order of its own axes, whatever the order of the axes of the array. -/
theorem C93_despike_kernel_refuted : ¬ ∀ (clean : ND Int → Option (ND Bool) → Option (ND Int) → Option (ND Int) → Option (ND Int) →
      R (ND Int)) (array k k' r r' : SA Int), array.WF → k.WF → k'.WF → SameByName k k' →
      despike clean array ["x", "y"] none none none (some k) = .ok r →
      despike clean array ["x", "y"] none none none (some k') = .ok r' → SameByName r r' := by
  intro h
  have h1 : (despike exConvolve (exKernel ["x", "y"]) ["x", "y"] none none none (some (exKernel ["x", "y"]))).map
      (fun r => (r.shape, r.at' (fun _ => 0))) = .ok ([("x", 2), ("y", 2)], 1) := by decide +kernel
  have h2 : (despike exConvolve (exKernel ["x", "y"]) ["x", "y"] none none none (some (exKernel ["y", "x"]))).map
      (fun r => (r.shape, r.at' (fun _ => 0))) = .ok ([("x", 2), ("y", 2)], 2) := by decide +kernel
  exact differ_of_reads h1 h2 (fun r r' hr hr' => h exConvolve _ _ _ r r' wf_exKernel.1 wf_exKernel.1 wf_exKernel.2 same_exKernel hr hr')
    (by decide)

/-- The first differences along the first dimension of the image. -/
def exRows (c : ND Int) (_ : Option (ND Bool)) (_ _ _ : Option (ND Int)) : R (ND Int) :=
  .ok ⟨c.shape, fun _ => c.get [1, 0] - c.get [0, 0]⟩

/-- **C93** (cosmic rays, refuted). Two arrays which are equal by name do not give the same result: with `axis=("x", "y")` the first
dimension of the image is not `x`, but the axis which the array has first. -/
theorem C93_despike_order_refuted : ¬ ∀ (clean : ND Int → Option (ND Bool) → Option (ND Int) → Option (ND Int) → Option (ND Int) →
      R (ND Int)) (array array' r r' : SA Int), array.WF → array'.WF → SameByName array array' →
      despike clean array ["x", "y"] none none none none = .ok r →
      despike clean array' ["x", "y"] none none none none = .ok r' → SameByName r r' := by
  intro h
  have h1 : (despike exRows (exKernel ["x", "y"]) ["x", "y"] none none none none).map
      (fun r => (r.shape, r.at' (fun _ => 0))) = .ok ([("x", 2), ("y", 2)], 2) := by decide +kernel
  have h2 : (despike exRows (exKernel ["y", "x"]) ["x", "y"] none none none none).map
      (fun r => (r.shape, r.at' (fun _ => 0))) = .ok ([("y", 2), ("x", 2)], 1) := by decide +kernel
  exact differ_of_reads h1 h2 (fun r r' hr hr' => h exRows _ _ r r' wf_exKernel.1 wf_exKernel.2 same_exKernel hr hr') (by decide)

end SA
end NA

namespace NA
open Dict
namespace SA

/-- Three points, and squares with the corners `0` and `s`, for two sizes `s`. -/
def exPolyX : SA Int := ⟨["p"], ND.vec [1, 3, 7]⟩
def exPolyV : SA Int := ⟨["v", "s"], ⟨[4, 2], fun i => if i.getD 0 0 = 1 ∨ i.getD 0 0 = 2 then (if i.getD 1 0 = 0 then 2 else 5) else 0⟩⟩
def exPolyW : SA Int := ⟨["v", "s"], ⟨[4, 2], fun i => if 2 ≤ i.getD 0 0 then (if i.getD 1 0 = 0 then 2 else 5) else 0⟩⟩

/-- The bounding box, which is enough for these squares. -/
def exInside (x y : Int) (vx vy : List Int) : Bool :=
  (vx.any (· ≤ x) && vx.any (x ≤ ·)) && (vy.any (· ≤ y) && vy.any (y ≤ ·))

example : ∃ r, pointInPolygon exInside 0 exPolyX (scalar 1) exPolyV exPolyW "v" = .ok r ∧ r.WF ∧ r.shape = [("p", 3), ("s", 2)] ∧
    ∀ e, InRange r.shape e → r.at' e = exInside (exPolyX.atB e) ((scalar 1).atB e)
        ((List.range 4).map (fun k => exPolyV.atB (fun ax => if ax = "v" then k else e ax)))
        ((List.range 4).map (fun k => exPolyW.atB (fun ax => if ax = "v" then k else e ax))) :=
  C93_polygon exInside 0 exPolyX (scalar 1) exPolyV exPolyW ⟨rfl, by decide⟩ (by constructor <;> decide) ⟨rfl, by decide⟩
    ⟨rfl, by decide⟩ "v" [("p", 3), ("v", 4), ("s", 2)] (by decide) 4 (by decide) (by decide) (by decide) (by decide)

example : (pointInPolygon exInside 0 exPolyX (scalar 1) exPolyV exPolyW "v").map (fun r => r.nd.toList)
    = .ok [true, true, false, true, false, false] := by decide +kernel

example : pointInPolygon exInside 0 exPolyX (scalar 1) exPolyV exPolyW "p" = .error .valueError :=
  ((C93_polygon_error exInside 0 exPolyX (scalar 1) exPolyV exPolyW ⟨rfl, by decide⟩ (by constructor <;> decide) ⟨rfl, by decide⟩
    ⟨rfl, by decide⟩ "p").2 (fun h => by
      obtain ⟨er, h⟩ := (C01_broadcast_shapes_error_iff _ (by decide)).2 h
      revert h
      rw [show broadcastShapes [exPolyX.shape, (scalar (1 : Int)).shape, exPolyV.shape, exPolyW.shape]
        = .ok [("p", 3), ("v", 4), ("s", 2)] by decide]
      intro h; cases h)).2.1 (Or.inl (by decide))

example : ∃ r, evaluate (fun d => (get? d "a").getD 0 - (get? d "b").getD 0) [("b", exPolyX), ("a", exPolyV)] = .ok r ∧ r.WF ∧
    r.shape = [("p", 3), ("v", 4), ("s", 2)] ∧
    ∀ e, r.at' e = (fun d => (get? d "a").getD 0 - (get? d "b").getD 0) [("b", exPolyX.atB e), ("a", exPolyV.atB e)] :=
  C93_evaluate _ [("b", exPolyX), ("a", exPolyV)] (by
    intro p hp
    simp only [List.mem_cons, List.not_mem_nil, or_false] at hp
    rcases hp with rfl | rfl <;> exact ⟨rfl, by decide⟩) _ (by decide)

example : evaluate (fun d => (get? d "a").getD 0) [("a", exPolyX), ("b", (⟨["p"], ND.vec [1, 2]⟩ : SA Int))] = .error .valueError :=
  C93_evaluate_error _ _ (by
    intro p hp
    simp only [List.mem_cons, List.not_mem_nil, or_false] at hp
    rcases hp with rfl | rfl <;> exact ⟨rfl, by decide⟩)
    ((C01_broadcast_shapes_error_iff _ (by decide)).1 ⟨.valueError, by decide⟩)

/-- A minimum filter along one dimension. -/
def exFilter (size shape : List Nat) (w : List Nat → Int × Bool) (k : List Nat) : Int :=
  (((List.range (shape.getD 0 0)).filter (fun j => k.getD 0 0 ≤ j + size.getD 0 0 / 2 ∧ j ≤ k.getD 0 0 + size.getD 0 0 / 2 ∧
    (w [j]).2)).map (fun j => (w [j]).1)).foldl min 9

example : ∃ r, ndfilter exFilter exPolyV [("v", 3)] (⟨["s"], ND.vec [true, false]⟩) = .ok r ∧ r.WF ∧ r.shape = [("v", 4), ("s", 2)] ∧
    ∀ e, r.at' e = exFilter [3] [4] (fun ks => (exPolyV.atB (putNamed e ["v"] ks),
      (⟨["s"], ND.vec [true, false]⟩ : SA Bool).atB (putNamed e ["v"] ks))) [e "v"] :=
  C93_filter exFilter exPolyV [("v", 3)] ⟨["s"], ND.vec [true, false]⟩ ⟨rfl, by decide⟩ ⟨rfl, by decide⟩ [("v", 4), ("s", 2)]
    (by decide) (by decide)

example : (ndfilter exFilter exPolyV [("v", 3)] (⟨["s"], ND.vec [true, false]⟩)).map (fun r => r.nd.toList)
    = .ok [0, 9, 0, 9, 0, 9, 0, 9] := by decide +kernel

example : ndfilter exFilter exPolyV [("w", 3)] (scalar true) = .error .valueError :=
  C93_filter_error _ _ _ _ ⟨rfl, by decide⟩ (by constructor <;> decide) (Or.inr ⟨"w", by decide, by decide, by decide⟩)

/-- Two images with a mask for each column, and a different kernel for each of them. -/
def exImages : SA Int := ⟨["x", "t", "y"], ⟨[2, 2, 2], fun i => 4 * i.getD 0 0 + 2 * i.getD 1 0 + i.getD 2 0⟩⟩

def exClean (c : ND Int) (m : Option (ND Bool)) (_ _ k : Option (ND Int)) : R (ND Int) :=
  .ok ⟨c.shape, fun i => if (m.map (fun m => m.get i)).getD false then (k.map (fun k => k.get [1])).getD 0 else c.get i⟩

example : ∃ r, despike exClean exImages ["y", "x"] (some ⟨["y"], ND.vec [true, false]⟩) none none
      (some ⟨["t", "k"], ⟨[2, 2], fun i => 100 + 10 * i.getD 0 0 + i.getD 1 0⟩⟩) = .ok r ∧ r.WF ∧
    r.shape = [("x", 2), ("t", 2), ("y", 2)] ∧
    ∀ e, InRange [("x", 2), ("t", 2), ("y", 2)] e → ∃ c m b v k q, exClean c m b v k = .ok q ∧ r.at' e = q.get [e "x", e "y"] ∧
        IsImage ["x", "y"] [("x", 2), ("t", 2), ("y", 2)] exImages.atB e c ∧
        Option.Rel (fun a m => IsImage ["x", "y"] [("x", 2), ("t", 2), ("y", 2)] (fun e => !a.atB e) e m)
          (some (⟨["y"], ND.vec [true, false]⟩ : SA Bool)) m ∧
        Option.Rel (fun a b => IsImage ["x", "y"] [("x", 2), ("t", 2), ("y", 2)] (SA.atB a) e b) none b ∧
        Option.Rel (fun a v => IsImage ["x", "y"] [("x", 2), ("t", 2), ("y", 2)] (SA.atB a) e v) none v ∧
        Option.Rel (fun a k => IsImage (a.axes.filter (fun ax => ax ∈ ["y", "x"] ∨ ax ∉ ["x", "t", "y"])) a.shape a.atB e k)
          (some (⟨["t", "k"], ⟨[2, 2], fun i => 100 + 10 * i.getD 0 0 + i.getD 1 0⟩⟩ : SA Int)) k :=
  C93_despike exClean exImages ["y", "x"] (some ⟨["y"], ND.vec [true, false]⟩) none none
    (some ⟨["t", "k"], ⟨[2, 2], fun i => 100 + 10 * i.getD 0 0 + i.getD 1 0⟩⟩) ⟨rfl, by decide⟩
    (fun a h => by injection h with h; subst h; exact ⟨rfl, by decide⟩) (fun a h => by cases h) (fun a h => by cases h)
    (fun a h => by injection h with h; subst h; exact ⟨rfl, by decide⟩) [("x", 2), ("t", 2), ("y", 2)] (by decide)
    (fun a h hc => by
      injection h with h
      subst h
      obtain ⟨er, h⟩ := (C01_broadcast_shapes_error_iff _ (by decide)).2 hc
      revert h
      rw [show broadcastShapes [List.filter (fun p => decide (p.1 ∉ ["y", "x"])) [("x", 2), ("t", 2), ("y", 2)],
        (⟨["t", "k"], ⟨[2, 2], fun i => 100 + 10 * i.getD 0 0 + i.getD 1 0⟩⟩ : SA Int).shape] = .ok [("t", 2), ("k", 2)] by decide]
      intro h; cases h)
    (fun a h ax _ => by
      injection h with h
      subst h
      simp only [SA.shape, List.zip_cons_cons, List.zip_nil_right, get?_cons, get?_nil]
      split
      · simp
      · split <;> simp)
    (fun c m b v k _ => ⟨_, rfl, rfl⟩)

example : (despike exClean exImages ["y", "x"] (some ⟨["y"], ND.vec [true, false]⟩) none none
      (some ⟨["t", "k"], ⟨[2, 2], fun i => 100 + 10 * i.getD 0 0 + i.getD 1 0⟩⟩)).map (fun r => r.nd.toList)
    = .ok [0, 101, 2, 111, 4, 101, 6, 111] := by decide +kernel

example : despike exClean exImages ["y", "x"] none none (some exPolyV) none = despike exClean exImages ["x", "y"] none none
    (some exPolyV) none :=
  C93_despike_axis _ _ _ _ _ _ _ _ ⟨rfl, by decide⟩ (fun a h => by cases h) (fun a h => by cases h)
    (fun a h => by injection h with h; subst h; exact ⟨rfl, by decide⟩) (fun x => by simp [or_comm])

example : despike exClean exImages ["y", "x"] none (some ⟨["x"], ND.vec [1, 2, 3]⟩) none none = .error .valueError :=
  C93_despike_error _ _ _ _ _ _ _ ⟨rfl, by decide⟩ (fun a h => by cases h)
    (fun a h => by injection h with h; subst h; exact ⟨rfl, by decide⟩) (fun a h => by cases h)
    ((C01_broadcast_shapes_error_iff _ (by decide)).1 ⟨.valueError, by decide⟩)

end SA
end NA
