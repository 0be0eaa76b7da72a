import Verif.Vector.Grid
import Verif.Props.Spaces
import Verif.Props.VectorStructure
import Verif.Props.Choices
import Verif.Props.CombinedAxes

/-!
# Grids of vectors (C115)

`np.linspace` and `na.arange` with vectors make a vector of grids, one for every component.
-/

namespace NA
open Dict
namespace Comp
variable {α β γ δ ρ τ : Type}

/-- The arguments of a function which makes a grid. -/
inductive GridArg (α τ : Type) where
  | value (a : SA α)
  | axis (x : String)
  | param (t : τ)

/-- The function for scalars, of a list of arguments. -/
def gridOp (op : SA α → SA α → String → τ → R (SA β)) : List (GridArg α τ) → R (SA β)
  | [.value a, .value b, .axis x, .param t] => op a b x t
  | _ => .error .other

/-- All four arguments. -/
def gridArgs (start stop : Comp (SA α)) (axis : Comp String) (num : Comp τ) : List (Comp (GridArg α τ)) :=
  [start.map .value, stop.map .value, axis.map .axis, num.map .param]

theorem similar_of_map {P : Comp ρ} {v : Comp γ} (f : γ → δ) (h : P.Similar v) : P.Similar (v.map f) := similar_lift h (lift_map f v)
theorem along_of_map {P : Comp ρ} {v : Comp γ} (f : γ → δ) (h : P.Along v) : P.Along (v.map f) := along_lift _ _ _ h (lift_map f v)

theorem depth_map (f : γ → δ) (v : Comp γ) : (v.map f).depth = v.depth := by
  have h := similar_depth (similar_of_map f (similar_refl v))
  exact h.symm

theorem component_map (f : γ → δ) (k : String) (v : Comp γ) : (v.map f).component k = (v.component k).map (Comp.map f) := by
  cases v with
  | leaf a => rfl
  | node cls cs =>
    simp only [Comp.map, component, mapL_eq]
    rw [get?_map_snd (fun c => Comp.map f c) cs k]
    cases get? cs k <;> rfl

theorem component_along {cls : String} {cs : List (String × Comp ρ)} {x : Comp γ} (hA : (Comp.node cls cs).Along x) (k : String) (c : Comp ρ)
    (hc : get? cs k = some c) : ∃ w, component k x = .ok w ∧ c.Along w ∧ ((Comp.node cls cs).Similar x → c.Similar w) := by
  obtain ⟨w, w1, _, w3, _, w5⟩ := component_ok (R := fun _ _ => True) hA (similar_refl x) k c hc
  exact ⟨w, w1, w3, w5⟩

theorem isOfType_along {cls : String} {cs : List (String × Comp ρ)} {x : Comp γ} (hA : (Comp.node cls cs).Along x) : x.isOfType cls = true := by
  cases x with
  | leaf a => rfl
  | node cls' cs' =>
    simp only [Along] at hA
    simp [isOfType, hA.1]

theorem leaf_along {z : ρ} {x : Comp γ} (hA : (Comp.leaf z).Along x) : ∃ a, x = .leaf a := by
  cases x with
  | leaf a => exact ⟨a, rfl⟩
  | node _ _ => simp [Along] at hA

theorem mapM_congr' {ι κ : Type} {f g : ι → R κ} {l : List ι} (h : ∀ x ∈ l, f x = g x) : l.mapM f = l.mapM g := by
  induction l with
  | nil => rfl
  | cons x l ih =>
    rw [List.mapM_cons, List.mapM_cons, h x (by simp), ih (fun y hy => h y (by simp [hy]))]

theorem gridArgs_along {P : Comp ρ} {start stop : Comp (SA α)} {axis : Comp String} {num : Comp τ} (h1 : P.Along start) (h2 : P.Along stop)
    (h3 : P.Along axis) (h4 : P.Along num) : ∀ v ∈ gridArgs start stop axis num, P.Along v := by
  intro v hv
  simp only [gridArgs, List.mem_cons, List.not_mem_nil, or_false] at hv
  rcases hv with rfl | rfl | rfl | rfl
  · exact along_of_map _ h1
  · exact along_of_map _ h2
  · exact along_of_map _ h3
  · exact along_of_map _ h4

theorem gridArgs_similar {P : Comp ρ} {start stop : Comp (SA α)} {axis : Comp String} {num : Comp τ} (hs : P.Similar start ∨ P.Similar stop) :
    ∃ v ∈ gridArgs start stop axis num, P.Similar v := by
  rcases hs with hs | hs
  · exact ⟨start.map .value, by simp [gridArgs], similar_of_map _ hs⟩
  · exact ⟨stop.map .value, by simp [gridArgs], similar_of_map _ hs⟩

/-- The common scheme, for one component. -/
theorem grid_component {op : List (GridArg α τ) → R (SA β)} {n : Nat} {k : String} {start stop a b : Comp (SA α)} {axis x : Comp String} {num m : Comp τ}
    (h1 : start.component k = .ok a) (h2 : stop.component k = .ok b) (h3 : axis.component k = .ok x) (h4 : num.component k = .ok m) :
    (do
      let ws ← (gridArgs start stop axis num).mapM (component k)
      let r ← naryAux .ok op n ws
      .ok (k, r)) = (do
      let r ← naryAux .ok op n (gridArgs a b x m)
      (.ok (k, r) : R (String × Comp (SA β)))) := by
  have : (gridArgs start stop axis num).mapM (component k) = .ok (gridArgs a b x m) := by
    simp only [gridArgs, List.mapM_cons, List.mapM_nil, component_map, h1, h2, h3, h4]
    rfl
  rw [this]
  rfl

/-- A sequence of vectors follows the common scheme. -/
theorem sequenceAux_eq (op : SA α → SA α → String → τ → R (SA β)) (n : Nat) (P : Comp ρ) (start stop : Comp (SA α)) (axis : Comp String)
    (num : Comp τ) (h1 : P.Along start) (h2 : P.Along stop) (h3 : P.Along axis) (h4 : P.Along num) (hs : P.Similar start ∨ P.Similar stop)
    (hD : P.Dicts) :
    sequenceAux op n start stop axis num = naryAux .ok (gridOp op) n (gridArgs start stop axis num) := by
  induction n generalizing P start stop axis num with
  | zero => rfl
  | succ n ih =>
    cases P with
    | leaf z =>
      obtain ⟨a, rfl⟩ := leaf_along h1
      obtain ⟨b, rfl⟩ := leaf_along h2
      obtain ⟨x, rfl⟩ := leaf_along h3
      obtain ⟨k, rfl⟩ := leaf_along h4
      rfl
    | node cls cs =>
      have hp := prototype_node (cls := cls) (cs := cs) (vs := [start, stop])
        (by
          intro v hv
          simp only [List.mem_cons, List.not_mem_nil, or_false] at hv
          rcases hv with rfl | rfl
          · exact h1
          · exact h2)
        (by
          rcases hs with hs | hs
          · exact ⟨start, by simp, hs⟩
          · exact ⟨stop, by simp, hs⟩)
      have hq := prototype_node (gridArgs_along h1 h2 h3 h4) (gridArgs_similar (axis := axis) (num := num) hs)
      have hok : (gridArgs start stop axis num).mapM (fun x => (.ok x : R _)) = .ok (gridArgs start stop axis num) := rfl
      simp only [sequenceAux, naryAux]
      rw [hp.1, hq.1]
      dsimp only
      rw [if_pos (by simp [isOfType_along h1, isOfType_along h2, isOfType_along h3, isOfType_along h4]), if_pos hq.2, hok]
      refine congrArg (fun m : R (List (String × Comp (SA β))) => m >>= fun rs => (Except.ok (Comp.node cls rs) : R _)) ?_
      refine mapM_congr' (fun k hk => ?_)
      obtain ⟨c, hc⟩ := exists_get?_of_mem hk
      obtain ⟨a, a1, a2, a3⟩ := component_along h1 k c hc
      obtain ⟨b, b1, b2, b3⟩ := component_along h2 k c hc
      obtain ⟨x, x1, x2, x3⟩ := component_along h3 k c hc
      obtain ⟨m, m1, m2, m3⟩ := component_along h4 k c hc
      rw [grid_component a1 b1 x1 m1, a1, b1, x1, m1]
      change (sequenceAux op n a b x m >>= fun r => (Except.ok (k, r) : R _)) = _
      rw [ih c a b x m a2 b2 x2 m2 (hs.imp a3 b3) (dicts_of_mem hD.2 (k, c) (mem_of_get? hc))]

/-- A range of vectors follows the common scheme if `start` is a vector. -/
theorem arangeAux_eq (op : SA α → SA α → String → τ → R (SA β)) (n : Nat) (start stop : Comp (SA α)) (axis : Comp String)
    (step : Comp τ) (h2 : start.Along stop) (h3 : start.Along axis) (h4 : start.Along step) (hD : start.Dicts) :
    arangeAux op n start stop axis step = naryAux .ok (gridOp op) n (gridArgs start stop axis step) := by
  induction n generalizing start stop axis step with
  | zero => rfl
  | succ n ih =>
    cases start with
    | leaf z =>
      obtain ⟨b, rfl⟩ := leaf_along h2
      obtain ⟨x, rfl⟩ := leaf_along h3
      obtain ⟨k, rfl⟩ := leaf_along h4
      rfl
    | node cls cs =>
      have h1 := along_of_similar _ _ (similar_refl (Comp.node cls cs))
      have hq := prototype_node (gridArgs_along h1 h2 h3 h4) (gridArgs_similar (stop := stop) (axis := axis) (num := step) (.inl (similar_refl _)))
      have hok : (gridArgs (.node cls cs) stop axis step).mapM (fun x => (.ok x : R _)) = .ok (gridArgs (.node cls cs) stop axis step) := rfl
      simp only [arangeAux, naryAux]
      rw [hq.1]
      dsimp only
      rw [if_pos (by simp [isOfType_along h2, isOfType_along h3, isOfType_along h4]), if_pos hq.2, hok]
      refine congrArg (fun m : R (List (String × Comp (SA β))) => m >>= fun rs => (Except.ok (Comp.node cls rs) : R _)) ?_
      refine mapM_congr' (fun k hk => ?_)
      obtain ⟨c, hc⟩ := exists_get?_of_mem hk
      have a1 : (Comp.node cls cs).component k = .ok c := by simp [component, hc]
      obtain ⟨b, b1, b2, b3⟩ := component_along h2 k c hc
      obtain ⟨x, x1, x2, x3⟩ := component_along h3 k c hc
      obtain ⟨m, m1, m2, m3⟩ := component_along h4 k c hc
      rw [grid_component a1 b1 x1 m1, a1, b1, x1, m1]
      change (arangeAux op n c b x m >>= fun r => (Except.ok (k, r) : R _)) = _
      rw [ih c b x m b2 x2 m2 (dicts_of_mem hD.2 (k, c) (mem_of_get? hc))]

theorem gridDepth_eq (start stop : Comp (SA α)) (axis : Comp String) (num : Comp τ) :
    gridDepth start stop axis num = maxDepth (gridArgs start stop axis num) := by
  simp [gridDepth, maxDepth, gridArgs, depth_map]

/-- The scalars of the four arguments at one path. -/
theorem at_grid {start stop : Comp (SA α)} {axis : Comp String} {num : Comp τ} {p : List String} {as : List (GridArg α τ)}
    (h : At (gridArgs start stop axis num) p as) : ∃ a b x t, as = [.value a, .value b, .axis x, .param t] ∧
      start.leafB p = some a ∧ stop.leafB p = some b ∧ axis.leafB p = some x ∧ num.leafB p = some t := by
  unfold At gridArgs at h
  rcases h with _ | ⟨h1, _ | ⟨h2, _ | ⟨h3, _ | ⟨h4, _ | _⟩⟩⟩⟩
  rw [leafB_map, Option.map_eq_some_iff] at h1 h2 h3 h4
  obtain ⟨a, a1, rfl⟩ := h1
  obtain ⟨b, b1, rfl⟩ := h2
  obtain ⟨x, x1, rfl⟩ := h3
  obtain ⟨t, t1, rfl⟩ := h4
  exact ⟨a, b, x, t, rfl, a1, b1, x1, t1⟩

/-- What a grid consists of. -/
theorem grid_main {op : SA α → SA α → String → τ → R (SA β)} {P : Comp ρ} (hD : P.Dicts) {start stop : Comp (SA α)} {axis : Comp String}
    {num : Comp τ} (h1 : P.Along start) (h2 : P.Along stop) (h3 : P.Along axis) (h4 : P.Along num) (hs : P.Similar start ∨ P.Similar stop)
    (Q : List String → SA β → Prop)
    (hop : ∀ p a b x t, (P.leafAt p).isSome → start.leafB p = some a → stop.leafB p = some b → axis.leafB p = some x → num.leafB p = some t →
      ∃ y, op a b x t = .ok y ∧ Q p y) :
    ∃ r, naryAux .ok (gridOp op) (gridDepth start stop axis num) (gridArgs start stop axis num) = .ok r ∧ P.Similar r ∧
      ∀ p, (P.leafAt p).isSome → ∃ y, r.leafAt p = some y ∧ Q p y := by
  rw [gridDepth_eq]
  obtain ⟨r, r1, r2, r3⟩ := (nary_plain (op := gridOp op) P hD (gridArgs start stop axis num) (gridArgs_along h1 h2 h3 h4)
    (gridArgs_similar hs)).1 (by
      intro p as hp has
      obtain ⟨a, b, x, t, rfl, q1, q2, q3, q4⟩ := at_grid has
      obtain ⟨y, y1, _⟩ := hop p a b x t hp q1 q2 q3 q4
      exact ⟨y, y1⟩)
  refine ⟨r, r1, r2, fun p hp => ?_⟩
  obtain ⟨y, as, y1, y2, y3⟩ := r3 p hp
  obtain ⟨a, b, x, t, rfl, q1, q2, q3, q4⟩ := at_grid y2
  obtain ⟨y', z1, z2⟩ := hop p a b x t hp q1 q2 q3 q4
  have : y' = y := by
    have h : op a b x t = .ok y := y3
    rw [z1] at h
    exact Except.ok.inj h
  subst this
  exact ⟨y', y1, z2⟩

/-- ... and its errors. -/
theorem grid_error {op : SA α → SA α → String → τ → R (SA β)} {P : Comp ρ} (hD : P.Dicts) {start stop : Comp (SA α)} {axis : Comp String}
    {num : Comp τ} (h1 : P.Along start) (h2 : P.Along stop) (h3 : P.Along axis) (h4 : P.Along num) (hs : P.Similar start ∨ P.Similar stop)
    (err : Err)
    (hop : ∀ p a b x t, (P.leafAt p).isSome → start.leafB p = some a → stop.leafB p = some b → axis.leafB p = some x → num.leafB p = some t →
      (∃ y, op a b x t = .ok y) ∨ op a b x t = .error err)
    (hex : ∃ p, (P.leafAt p).isSome ∧ ∀ a b x t, start.leafB p = some a → stop.leafB p = some b → axis.leafB p = some x →
      num.leafB p = some t → op a b x t = .error err) :
    naryAux .ok (gridOp op) (gridDepth start stop axis num) (gridArgs start stop axis num) = .error err := by
  rw [gridDepth_eq]
  refine (nary_plain (op := gridOp op) P hD (gridArgs start stop axis num) (gridArgs_along h1 h2 h3 h4) (gridArgs_similar hs)).2 err ?_ ?_
  · intro p as hp has
    obtain ⟨a, b, x, t, rfl, q1, q2, q3, q4⟩ := at_grid has
    exact hop p a b x t hp q1 q2 q3 q4
  · obtain ⟨p, hp, h⟩ := hex
    refine ⟨p, hp, fun as has => ?_⟩
    obtain ⟨a, b, x, t, rfl, q1, q2, q3, q4⟩ := at_grid has
    exact h a b x t q1 q2 q3 q4

/-! ### The shape of a grid -/

theorem dicts_similar {P : Comp ρ} {r : Comp γ} (hD : P.Dicts) (h : P.Similar r) : r.Dicts := lift_dicts P r h hD

/-- Every scalar of a vector like `P` is found at a path of `P`. -/
theorem leaf_path {P : Comp ρ} {r : Comp (SA α)} (hD : P.Dicts) (h : P.Similar r) {y : SA α} (hy : y ∈ r.leaves) :
    ∃ p, (P.leafAt p).isSome ∧ r.leafAt p = some y := by
  obtain ⟨p, hp⟩ := leafAt_of_mem r (dicts_similar hD h) y hy
  refine ⟨p, ?_, hp⟩
  cases hq : P.leafAt p with
  | some a => rfl
  | none => rw [(lift_leafAt h p).2 hq] at hp; cases hp

/-- A vector of ranges along axes of their own has a shape, with the sizes of the ranges. -/
theorem shape_ranges {P : Comp ρ} {r : Comp (SA α)} (hD : P.Dicts) (h : P.Similar r)
    (hr : ∀ p, (P.leafAt p).isSome → ∃ y x n, r.leafAt p = some y ∧ y.WF ∧ y.shape = [(x, n)])
    (hd : ∀ p p' y y' x n n', r.leafAt p = some y → r.leafAt p' = some y' → y.shape = [(x, n)] → y'.shape = [(x, n')] → n = n') :
    ∃ S, r.shape = .ok S ∧ WF S ∧ ∀ p y x n, r.leafAt p = some y → y.shape = [(x, n)] → get? S x = some n := by
  have hw : r.WFLeaves := by
    intro y hy
    obtain ⟨p, hp, hq⟩ := leaf_path hD h hy
    obtain ⟨y', x, n, q1, q2, q3⟩ := hr p hp
    rw [hq] at q1
    cases q1
    exact q2
  have hss : ∀ s ∈ r.leaves.map SA.shape, WF s := by
    intro s hs
    obtain ⟨y, y1, rfl⟩ := List.mem_map.1 hs
    exact SA.wf_shape (hw y y1)
  have hsz : ∀ x n, HasSize (r.leaves.map SA.shape) x n → ∃ p y, r.leafAt p = some y ∧ y.shape = [(x, n)] := by
    rintro x n ⟨s, hs, hx⟩
    obtain ⟨y, y1, rfl⟩ := List.mem_map.1 hs
    obtain ⟨p, hp, hq⟩ := leaf_path hD h y1
    obtain ⟨y', x', n', q1, q2, q3⟩ := hr p hp
    rw [hq] at q1
    cases q1
    rw [q3, get?_cons] at hx
    split at hx
    · next e =>
      simp only at e hx
      cases hx
      subst e
      exact ⟨p, y, hq, q3⟩
    · simp at hx
  have hun : ∀ x m n, HasSize (r.leaves.map SA.shape) x m → HasSize (r.leaves.map SA.shape) x n → m = n := by
    intro x m n hm hn
    obtain ⟨p, y, y1, y2⟩ := hsz x m hm
    obtain ⟨p', y', z1, z2⟩ := hsz x n hn
    exact hd p p' y y' x m n y1 z1 y2 z2
  have hS := shape_leaves r hw
  cases hb : broadcastShapes (r.leaves.map SA.shape) with
  | error e =>
    have : Clash (r.leaves.map SA.shape) := (C01_broadcast_shapes_error_iff _ hss).1 ⟨e, hb⟩
    obtain ⟨ax, m, n, c1, c2, c3, _⟩ := this
    exact absurd (hun ax m n c1 c2) c3
  | ok B =>
    rw [hb] at hS
    cases hc : r.shape with
    | error e => rw [hc] at hS; exact hS.elim
    | ok S =>
      rw [hc] at hS
      refine ⟨S, rfl, shape_wf r hw S hc, fun p y x n hp hy => ?_⟩
      have hx : HasSize (r.leaves.map SA.shape) x n := ⟨y.shape, List.mem_map.2 ⟨y, leafAt_mem_leaves hp, rfl⟩, by rw [hy, get?_cons]; simp⟩
      have hS' : Same S B := hS
      rw [hS' x]
      obtain ⟨_, k1, k2⟩ := C01_broadcast_shapes_ok _ hss B hb
      obtain ⟨m, hm⟩ := exists_get?_of_mem ((k1 x).2 ⟨y.shape, List.mem_map.2 ⟨y, leafAt_mem_leaves hp, rfl⟩, by simp [hy, keys]⟩)
      rw [hm, hun x m n (k2 x m hm).1 hx]

theorem along_left : ∀ (P : Comp ρ) (P' : Comp δ) (v : Comp γ), P.Similar P' → P.Along v → P'.Along v := by
  refine ind ?_ ?_
  · rintro a (b | _) (c | _) h1 h2 <;> simp_all [Along, Lift, Similar]
  · rintro cls cs ih (b | ⟨cls', cs'⟩) (c | ⟨cls'', cs''⟩) h1 h2
    · exact along_leaf _ _
    · simp [Similar, Lift] at h1
    · exact along_leaf _ _
    · simp only [Along, Lift, Similar, alongL_iff, liftL_iff] at *
      refine ⟨h1.1 ▸ h2.1, ?_⟩
      have h1' := h1.2
      have h2' := h2.2
      clear h1 h2
      induction h1' generalizing cs'' with
      | nil => cases h2'; exact .nil
      | cons h1 _ ihl =>
        cases h2' with
        | cons h3 h4 =>
          exact .cons ⟨h1.1 ▸ h3.1, ih _ (by simp) _ _ h1.2 h3.2⟩ (ihl (fun p hp => ih p (by simp [hp])) _ h4)

open SA (InRange)

section field
variable {K : Type} [Field K] [LinearOrder K] [IsStrictOrderedRing K]

/-- **C115** (`np.linspace`) `start` or `stop` is a vector, the others are vectors of the same type or scalars, which count for every component.  Then
the result is a vector of this type, and its component is the linear space between the components of `start` and `stop` along the component's axis:
it has all axes of the two, and that axis with the requested number of points; the points are equidistant, the first one at `start`.
Missing: points at the centres of the cells, which are another function for vectors. -/
theorem C115_linspace_partial (P : Comp ρ) (hD : P.Dicts) (start stop : Comp (SA K)) (axis : Comp String) (num : Comp Nat) (endpoint : Bool)
    (h1 : P.Along start) (h2 : P.Along stop) (h3 : P.Along axis) (h4 : P.Along num) (hs : P.Similar start ∨ P.Similar stop)
    (hop : ∀ p a b x, (P.leafAt p).isSome → start.leafB p = some a → stop.leafB p = some b → axis.leafB p = some x →
      a.WF ∧ b.WF ∧ ∃ S, broadcastShapes [a.shape, b.shape] = .ok S ∧ x ∉ keys S) :
    ∃ r, linspace endpoint start stop axis (num.map Int.ofNat) = .ok r ∧ P.Similar r ∧
      ∀ p a b x n S, (P.leafAt p).isSome → start.leafB p = some a → stop.leafB p = some b → axis.leafB p = some x → num.leafB p = some n →
        broadcastShapes [a.shape, b.shape] = .ok S →
        ∃ y, r.leafAt p = some y ∧ y.WF ∧ (∀ ax, get? y.shape ax = if ax = x then some n else get? S ax) ∧
          ∀ e, InRange y.shape e → y.at' e = a.atB e + (e x : K) * spacing n endpoint false (a.atB e) (b.atB e) := by
  obtain ⟨r, r1, r2, r3⟩ := grid_main (op := fun a b x n => SA.linspace a b x n endpoint false) hD h1 h2 h3
    (along_of_map Int.ofNat h4) hs
    (fun p y => ∀ a b x n S, start.leafB p = some a → stop.leafB p = some b → axis.leafB p = some x → num.leafB p = some n →
        broadcastShapes [a.shape, b.shape] = .ok S → y.WF ∧ (∀ ax, get? y.shape ax = if ax = x then some n else get? S ax) ∧
          ∀ e, InRange y.shape e → y.at' e = a.atB e + (e x : K) * spacing n endpoint false (a.atB e) (b.atB e)) (by
      intro p a b x t hp q1 q2 q3 q4
      rw [leafB_map, Option.map_eq_some_iff] at q4
      obtain ⟨n, q4, rfl⟩ := q4
      obtain ⟨ha, hb, S, s1, s2⟩ := hop p a b x hp q1 q2 q3
      obtain ⟨y, y1, y2, y3, y4⟩ := C33_linspace a b ha hb S s1 x s2 n endpoint false (by simp)
      refine ⟨y, y1, fun a' b' x' n' S' q1' q2' q3' q4' s1' => ?_⟩
      rw [q1] at q1'; rw [q2] at q2'; rw [q3] at q3'; rw [q4] at q4'
      cases q1'; cases q2'; cases q3'; cases q4'
      rw [s1] at s1'
      cases s1'
      refine ⟨y2, y3, fun e he => ?_⟩
      have := y4 e he
      simp only [Bool.false_eq_true, if_false, add_zero] at this
      exact this)
  refine ⟨r, ?_, r2, ?_⟩
  · unfold linspace sequence
    rw [sequenceAux_eq _ _ P _ _ _ _ h1 h2 h3 (along_of_map Int.ofNat h4) hs hD]
    exact r1
  · intro p a b x n S hp q1 q2 q3 q4 s1
    obtain ⟨y, y1, y2⟩ := r3 p hp
    exact ⟨y, y1, y2 a b x n S q1 q2 q3 q4 s1⟩

/-- **C115** If the axis of some component is an axis of its end points already, a `ValueError` is raised. -/
theorem C115_linspace_error (P : Comp ρ) (hD : P.Dicts) (start stop : Comp (SA K)) (axis : Comp String) (num : Comp Nat) (endpoint : Bool)
    (h1 : P.Along start) (h2 : P.Along stop) (h3 : P.Along axis) (h4 : P.Along num) (hs : P.Similar start ∨ P.Similar stop)
    (hop : ∀ p a b, (P.leafAt p).isSome → start.leafB p = some a → stop.leafB p = some b →
      a.WF ∧ b.WF ∧ ∃ S, broadcastShapes [a.shape, b.shape] = .ok S)
    (hex : ∃ p a b x S, (P.leafAt p).isSome ∧ start.leafB p = some a ∧ stop.leafB p = some b ∧ axis.leafB p = some x ∧
      broadcastShapes [a.shape, b.shape] = .ok S ∧ x ∈ keys S) :
    linspace endpoint start stop axis (num.map Int.ofNat) = .error .valueError := by
  unfold linspace sequence
  rw [sequenceAux_eq _ _ P _ _ _ _ h1 h2 h3 (along_of_map Int.ofNat h4) hs hD]
  refine grid_error hD h1 h2 h3 (along_of_map Int.ofNat h4) hs .valueError ?_ ?_
  · intro p a b x t hp q1 q2 q3 q4
    rw [leafB_map, Option.map_eq_some_iff] at q4
    obtain ⟨n, q4, rfl⟩ := q4
    obtain ⟨ha, hb, S, s1⟩ := hop p a b hp q1 q2
    by_cases hx : x ∈ keys S
    · exact .inr (C33_linspace_axis a b ha hb S s1 x hx _ endpoint)
    · obtain ⟨y, y1, _⟩ := C33_linspace a b ha hb S s1 x hx n endpoint false (by simp)
      exact .inl ⟨y, y1⟩
  · obtain ⟨p, a, b, x, S, hp, q1, q2, q3, s1, hx⟩ := hex
    refine ⟨p, hp, fun a' b' x' t q1' q2' q3' _ => ?_⟩
    rw [q1] at q1'; rw [q2] at q2'; rw [q3] at q3'
    cases q1'; cases q2'; cases q3'
    obtain ⟨ha, hb, _⟩ := hop p a b hp q1 q2
    exact C33_linspace_axis a b ha hb S s1 x hx _ endpoint

variable [FloorRing K]

/-- **C115** (`na.arange`) `start` is a vector of numbers; the others are vectors of its type or single values, which count for every component.  The
result is a vector of this type, and its component consists of the multiples of the step from `start` up to, but excluding, `stop` along the
component's axis. -/
theorem C115_arange_partial (start stop : Comp K) (axis : Comp String) (step : Comp K) (hD : start.Dicts) (h2 : start.Along stop)
    (h3 : start.Along axis) (h4 : start.Along step) (hs : ∀ p d, (start.leafAt p).isSome → step.leafB p = some d → d ≠ 0) :
    ∃ r, arange (start.map SA.scalar) (stop.map SA.scalar) axis step = .ok r ∧ start.Similar r ∧
      ∀ p a b x d, start.leafAt p = some a → stop.leafB p = some b → axis.leafB p = some x → step.leafB p = some d →
        ∃ y n, r.leafAt p = some y ∧ y.WF ∧ y.shape = [(x, n)] ∧ (∀ e, y.at' e = a + (e x : K) * d) ∧
          (∀ e, e x < n → (0 < d → a ≤ y.at' e ∧ y.at' e < b) ∧ (d < 0 → y.at' e ≤ a ∧ b < y.at' e)) ∧
          ((0 < d → b ≤ a + (n : K) * d) ∧ (d < 0 → a + (n : K) * d ≤ b)) := by
  have hsim : start.Similar (start.map SA.scalar) := similar_of_map _ (similar_refl start)
  have hal : start.Along (start.map SA.scalar) := along_of_map _ (along_of_similar _ _ (similar_refl start))
  have hal2 : start.Along (stop.map SA.scalar) := along_of_map _ h2
  obtain ⟨r, r1, r2, r3⟩ := grid_main (op := SA.arangeOf) hD hal hal2 h3 h4 (.inl hsim)
    (fun p y => ∀ a b x d, start.leafAt p = some a → stop.leafB p = some b → axis.leafB p = some x → step.leafB p = some d →
        ∃ n, y.WF ∧ y.shape = [(x, n)] ∧ (∀ e, y.at' e = a + (e x : K) * d) ∧
          (∀ e, e x < n → (0 < d → a ≤ y.at' e ∧ y.at' e < b) ∧ (d < 0 → y.at' e ≤ a ∧ b < y.at' e)) ∧
          ((0 < d → b ≤ a + (n : K) * d) ∧ (d < 0 → a + (n : K) * d ≤ b))) (by
      intro p a b x t hp q1 q2 q3 q4
      rw [leafB_map, Option.map_eq_some_iff] at q1 q2
      obtain ⟨a, q1, rfl⟩ := q1
      obtain ⟨b, q2, rfl⟩ := q2
      obtain ⟨y, n, y1, y2⟩ := C33_arange a b t x (hs p t hp q4)
      refine ⟨y, y1, fun a' b' x' d' q1' q2' q3' q4' => ?_⟩
      rw [leafB_of_leafAt q1'] at q1; rw [q2] at q2'; rw [q3] at q3'; rw [q4] at q4'
      cases q1; cases q2'; cases q3'; cases q4'
      exact ⟨n, y2⟩)
  refine ⟨r, ?_, r2, ?_⟩
  · have hD' : (start.map SA.scalar).Dicts := dicts_similar hD hsim
    unfold arange
    rw [arangeAux_eq _ _ _ _ _ _ (along_left _ _ _ hsim hal2) (along_left _ _ _ hsim h3) (along_left _ _ _ hsim h4) hD']
    exact r1
  · intro p a b x d q1 q2 q3 q4
    obtain ⟨y, y1, y2⟩ := r3 p (by rw [q1]; rfl)
    obtain ⟨n, y2⟩ := y2 a b x d q1 q2 q3 q4
    exact ⟨y, n, y1, y2⟩

/-- **C115** If the components have axes of their own, the ranges span a grid: its shape consists of the axes of all components with the lengths of
their ranges. -/
theorem C115_arange_grid (start stop : Comp K) (axis : Comp String) (step : Comp K) (hD : start.Dicts) (h2 : start.Along stop)
    (h3 : start.Along axis) (h4 : start.Along step) (hs : ∀ p d, (start.leafAt p).isSome → step.leafB p = some d → d ≠ 0)
    (hx : ∀ p p' x, (start.leafAt p).isSome → (start.leafAt p').isSome → axis.leafB p = some x → axis.leafB p' = some x → p = p') :
    ∃ r S, arange (start.map SA.scalar) (stop.map SA.scalar) axis step = .ok r ∧ r.shape = .ok S ∧ WF S ∧
      ∀ p x, (start.leafAt p).isSome → axis.leafB p = some x → ∃ y n, r.leafAt p = some y ∧ y.shape = [(x, n)] ∧ get? S x = some n := by
  obtain ⟨r, r1, r2, r3⟩ := C115_arange_partial start stop axis step hD h2 h3 h4 hs
  have hr : ∀ p, (start.leafAt p).isSome → ∃ y x n, axis.leafB p = some x ∧ r.leafAt p = some y ∧ y.WF ∧ y.shape = [(x, n)] := by
    intro p hp
    obtain ⟨a, ha⟩ := Option.isSome_iff_exists.1 hp
    obtain ⟨b, hb⟩ := along_leafB _ _ h2 p hp
    obtain ⟨x, hx⟩ := along_leafB _ _ h3 p hp
    obtain ⟨d, hd⟩ := along_leafB _ _ h4 p hp
    obtain ⟨y, n, y1, y2, y3, _⟩ := r3 p a b x d ha hb hx hd
    exact ⟨y, x, n, hx, y1, y2, y3⟩
  have hpath : ∀ p y, r.leafAt p = some y → (start.leafAt p).isSome := by
    intro p y hy
    cases hq : start.leafAt p with
    | some a => rfl
    | none => rw [(lift_leafAt r2 p).2 hq] at hy; cases hy
  obtain ⟨S, s1, s2, s3⟩ := shape_ranges hD r2 (fun p hp => by
      obtain ⟨y, x, n, _, q⟩ := hr p hp
      exact ⟨y, x, n, q⟩) (by
      intro p p' y y' x n n' hy hy' hn hn'
      obtain ⟨z, x1, n1, q1, q2, _, q3⟩ := hr p (hpath p y hy)
      obtain ⟨z', x2, n2, q1', q2', _, q3'⟩ := hr p' (hpath p' y' hy')
      rw [hy] at q2; rw [hy'] at q2'
      cases q2; cases q2'
      rw [hn] at q3; rw [hn'] at q3'
      cases q3; cases q3'
      have := hx p p' x (hpath p y hy) (hpath p' y' hy') q1 q1'
      subst this
      rw [hy] at hy'
      cases hy'
      rw [hn] at hn'
      cases hn'
      rfl)
  refine ⟨r, S, r1, s1, s2, fun p x hp hpx => ?_⟩
  obtain ⟨y, x', n, q1, q2, _, q3⟩ := hr p hp
  rw [hpx] at q1
  cases q1
  exact ⟨y, n, q2, q3, s3 p y x n q2 q3⟩
end field

/-! ### Examples -/

/-- `Cartesian2dVectorArray(3, 2)`. -/
def exUpTo : Comp ℚ := .node "Cartesian2d" [("x", .leaf 3), ("y", .leaf 2)]
def exFrom : Comp ℚ := .node "Cartesian2d" [("x", .leaf 0), ("y", .leaf 0)]
def exGridAxes : Comp String := .node "Cartesian2d" [("x", .leaf "i"), ("y", .leaf "j")]

/-- **C115** (refuted) Single values count for every component, but not as the start of a range: the same call works with the vector as `start`. -/
theorem C115_arange_start_refuted :
    (∃ r, arange (exFrom.map SA.scalar) (.leaf (SA.scalar 2)) exGridAxes (.leaf 1) = .ok r) ∧
    arange (.leaf (SA.scalar 0)) (exUpTo.map SA.scalar) exGridAxes (.leaf 1) = .error .typeError ∧
    ∃ r, linspace true (.leaf (SA.scalar 0)) (exUpTo.map SA.scalar) exGridAxes (.leaf 5) = .ok r := by
  refine ⟨?_, rfl, ?_⟩
  · obtain ⟨r, h, _⟩ := C115_arange_partial exFrom (.leaf 2) exGridAxes (.leaf 1) (by simp [exFrom, Dicts, DictsL, WF, keys])
      (along_leaf _ _) (by simp [exFrom, exGridAxes, Along, AlongL]) (along_leaf _ _) (by
        intro p d _ h
        have h' : (Comp.leaf (1 : ℚ)).leafB p = some 1 := by cases p <;> rfl
        rw [h'] at h
        cases h
        decide)
    exact ⟨r, h⟩
  · obtain ⟨r, h, _⟩ := C115_linspace_partial exUpTo (by simp [exUpTo, Dicts, DictsL, WF, keys]) (.leaf (SA.scalar 0)) (exUpTo.map SA.scalar)
      exGridAxes (.leaf 5) true (along_leaf _ _) (along_of_map _ (along_of_similar _ _ (similar_refl _)))
      (by simp [exUpTo, exGridAxes, Along, AlongL]) (along_leaf _ _) (.inr (similar_of_map _ (similar_refl _))) (by
        intro p a b x _ h1 h2 _
        have h' : (Comp.leaf (SA.scalar (0 : ℚ))).leafB p = some (SA.scalar 0) := by cases p <;> rfl
        rw [h'] at h1
        cases h1
        rw [leafB_map, Option.map_eq_some_iff] at h2
        obtain ⟨c, _, rfl⟩ := h2
        exact ⟨⟨rfl, List.nodup_nil⟩, ⟨rfl, List.nodup_nil⟩, [], rfl, by simp [keys]⟩)
    exact ⟨r, h⟩

/-- The result of a function, if there is one, has the property. -/
def okAnd {γ : Type} (f : γ → Bool) : R γ → Bool
  | .ok r => f r
  | .error _ => false

/-- The shape of the vector cannot be computed. -/
def noShape (r : Comp (SA α)) : Bool := match r.shape with
  | .error .valueError => true
  | _ => false

/-- **C115** (refuted) With one axis for components of different lengths, the function returns a vector which has no shape. -/
theorem C115_same_axis_refuted :
    ∃ r, arange (exFrom.map SA.scalar) (exUpTo.map SA.scalar) (.leaf "i") (.leaf 1) = .ok r ∧ r.shape = .error .valueError := by
  have h : okAnd noShape (arange (exFrom.map SA.scalar) (exUpTo.map SA.scalar) (.leaf "i") (.leaf 1)) = true := by decide +kernel
  generalize arange (exFrom.map SA.scalar) (exUpTo.map SA.scalar) (.leaf "i") (.leaf 1) = m at *
  cases m with
  | error e => cases h
  | ok r =>
    refine ⟨r, rfl, ?_⟩
    simp only [okAnd, noShape] at h
    split at h
    · assumption
    · cases h

/-- The assumptions of `C115_arange_grid` can be met: a grid of 3 × 2 points. -/
example : ∃ r S, arange (exFrom.map SA.scalar) (exUpTo.map SA.scalar) exGridAxes (.leaf 1) = .ok r ∧ r.shape = .ok S ∧ WF S ∧
    ∃ y n, r.leafAt ["x"] = some y ∧ y.shape = [("i", n)] ∧ get? S "i" = some n := by
  obtain ⟨r, S, h1, h2, h3, h4⟩ := C115_arange_grid exFrom exUpTo exGridAxes (.leaf 1) (by simp [exFrom, Dicts, DictsL, WF, keys])
    (by simp [exFrom, exUpTo, Along, AlongL]) (by simp [exFrom, exGridAxes, Along, AlongL]) (along_leaf _ _) (by
      intro p d _ h
      have h' : (Comp.leaf (1 : ℚ)).leafB p = some 1 := by cases p <;> rfl
      rw [h'] at h
      cases h
      decide) (by
      have key : ∀ p x, (exFrom.leafAt p).isSome → exGridAxes.leafB p = some x → (p = ["x"] ∧ x = "i") ∨ (p = ["y"] ∧ x = "j") := by
        intro p x hp hx
        rcases p with _ | ⟨k, _ | ⟨k', p⟩⟩
        · simp [exFrom, leafAt] at hp
        · simp only [exGridAxes, leafB, get?_cons, get?_nil] at hx
          by_cases h1 : "x" = k
          · subst h1; simp [leafB] at hx; exact .inl ⟨rfl, hx.symm⟩
          · by_cases h2 : "y" = k
            · subst h2; simp [leafB] at hx; exact .inr ⟨rfl, hx.symm⟩
            · simp [h1, h2] at hx
        · simp only [exFrom, leafAt, get?_cons, get?_nil] at hp
          by_cases h1 : "x" = k
          · subst h1; simp [leafAt] at hp
          · by_cases h2 : "y" = k
            · subst h2; simp [leafAt] at hp
            · simp [h1, h2] at hp
      intro p p' x hp hp' hx hx'
      rcases key p x hp hx with ⟨rfl, rfl⟩ | ⟨rfl, rfl⟩ <;> rcases key p' _ hp' hx' with ⟨rfl, h⟩ | ⟨rfl, h⟩ <;> first | rfl | (revert h; decide))
  exact ⟨r, S, h1, h2, h3, h4 ["x"] "i" rfl rfl⟩

/-- ... and of `C115_linspace_error`: the axis of the points is an axis of `start`. -/
example : linspace true (.leaf (⟨["i"], ⟨[2], fun _ => 0⟩⟩ : SA ℚ)) (exUpTo.map SA.scalar) (.leaf "i") (.leaf 5) = .error .valueError := by
  refine C115_linspace_error exUpTo (by simp [exUpTo, Dicts, DictsL, WF, keys]) _ _ (.leaf "i") (.leaf 5) true (along_leaf _ _)
    (along_of_map _ (along_of_similar _ _ (similar_refl _))) (along_leaf _ _) (along_leaf _ _) (.inr (similar_of_map _ (similar_refl _))) ?_
    ⟨["x"], _, SA.scalar 3, "i", [("i", 2)], rfl, rfl, rfl, rfl, rfl, by simp [keys]⟩
  intro p a b _ h1 h2
  have h' : (Comp.leaf (⟨["i"], ⟨[2], fun _ => 0⟩⟩ : SA ℚ)).leafB p = some ⟨["i"], ⟨[2], fun _ => 0⟩⟩ := by cases p <;> rfl
  rw [h'] at h1
  cases h1
  rw [leafB_map, Option.map_eq_some_iff] at h2
  obtain ⟨c, _, rfl⟩ := h2
  exact ⟨⟨rfl, by simp⟩, ⟨rfl, List.nodup_nil⟩, [("i", 2)], rfl⟩

end Comp
end NA
