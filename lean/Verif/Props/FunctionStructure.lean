import Verif.Function.Structure
import Verif.Props.Functions
import Verif.Props.Axes
import Verif.Props.Joining
import Verif.Props.Selecting
import Verif.Scalar.Arith

/-!
# Rearranging function arrays keeps every input with its output (C74)
-/

namespace NA
open Dict
open SA (FitsIn InRange)

namespace FA
variable {α β : Type}

/-! ### Specification -/

/-- Both components are well-formed arrays. -/
def Valid (f : FA α β) : Prop := f.inputs.WF ∧ f.outputs.WF

/-- The sizes of the inputs and outputs are compatible: the shape of the function exists. -/
def Fine (f : FA α β) : Prop := f.Valid ∧ ∀ ax, ¬ Mismatch f.inputs.shape f.outputs.shape ax

/-- The inputs are on vertices along this axis. -/
def Vertex (f : FA α β) (ax : String) : Prop := IsVertex f.inputs.shape f.outputs.shape ax

/-- The element of `g` at the named index `e` is the one of `f` at the named index `φ e`, both for the inputs and
for the outputs. -/
def Moves (f g : FA α β) (φ : (String → Nat) → String → Nat) : Prop :=
  (∀ e, InRange g.inputs.shape e → g.inputs.at' e = f.inputs.atB (φ e)) ∧
  ∀ e, InRange g.outputs.shape e → g.outputs.at' e = f.outputs.atB (φ e)

/-- The outputs of `g` have exactly the sizes `s`; the inputs have these sizes too, but one more along the axes for
which `V` holds. -/
def Occupies (g : FA α β) (s : Shape) (V : String → Prop) : Prop :=
  ∀ ax, get? g.outputs.shape ax = get? s ax ∧
    (V ax → get? g.inputs.shape ax = (get? s ax).map (· + 1)) ∧ (¬ V ax → get? g.inputs.shape ax = get? s ax)

/-- The named indices of a shape in row-major order. -/
def rowMajor (s : Shape) : List (String → Nat) := (ndIndices s.values).map (envOf s.keys)

/-! ### Helpers -/

theorem bs_single {s : Shape} {axis : String} {n : Nat} (hs : WF s)
    (h : ∀ m, get? s axis = some m → m = n ∨ m = 1) : broadcastShapes [s, [(axis, n)]] = .ok (s.set axis n) := by
  have hb : broadcastShapes [s, [(axis, n)]] = bcShape s [(axis, n)] := by
    simp [broadcastShapes, List.foldlM_cons]
  rw [hb]
  unfold bcShape
  have hw1 : WF [(axis, n)] := by unfold WF keys; simp
  split
  · next hq =>
    rw [eqv_iff hw1 hs] at hq
    have : get? s axis = some n := by rw [← hq axis]; simp [get?_cons]
    rw [set_of_get? this]
  · simp only [List.foldlM_cons, List.foldlM_nil, bind, Except.bind, bcAxis]
    cases hg : get? s axis with
    | none => rfl
    | some m =>
      dsimp only
      rcases h m hg with rfl | rfl
      · rw [if_pos rfl, set_of_get? hg]; rfl
      · by_cases h1 : (1 : Nat) = n
        · subst h1
          rw [if_pos rfl, set_of_get? hg]; rfl
        · rw [if_neg h1]
          by_cases h2 : n = 1
          · exact absurd h2.symm h1
          · rw [if_neg h2, if_pos rfl]; rfl

theorem broadcastTo_single (a : SA α) (ha : a.WF) {axis : String} {n : Nat}
    (h : ∀ m, get? a.shape axis = some m → m = n ∨ m = 1) :
    ∃ r, a.broadcastTo [(axis, n)] true = .ok r ∧ r.WF ∧ r.shape = a.shape.set axis n ∧ ∀ e, r.at' e = a.atB e := by
  have hb := bs_single (SA.wf_shape ha) h
  have hw1 : WF [(axis, n)] := by unfold WF keys; simp
  rcases SA.C10_broadcast_to_append a ha [(axis, n)] hw1 with ⟨s, r, h1, h2, h3, h4, h5⟩ | ⟨hc, _⟩
  · rw [hb] at h1
    injection h1 with h1
    subst h1
    exact ⟨r, h2, h3, h4, h5⟩
  · exfalso
    have hww : ∀ t ∈ [a.shape, [(axis, n)]], WF t := by
      intro t ht
      simp only [List.mem_cons, List.not_mem_nil, or_false] at ht
      rcases ht with rfl | rfl
      · exact SA.wf_shape ha
      · exact hw1
    obtain ⟨e, he⟩ := (C01_broadcast_shapes_error_iff _ hww).2 hc
    rw [hb] at he
    cases he

/-- What the shape of a function says about the shapes of its components. -/
theorem shape_main {f : FA α β} (hf : f.Fine) : ∃ s v, f.shape = .ok s ∧ f.axesVertex = .ok v ∧ WF s ∧
    (∀ ax, ax ∈ v ↔ f.Vertex ax) ∧
    (∀ ax, ax ∈ keys s ↔ ax ∈ f.inputs.axes ∨ ax ∈ f.outputs.axes) ∧
    (∀ ax, f.Vertex ax → ∃ n, get? s ax = some n ∧ get? f.outputs.shape ax = some n ∧
      get? f.inputs.shape ax = some (n + 1)) ∧
    (∀ ax n, ¬ f.Vertex ax → get? s ax = some n →
      (get? f.inputs.shape ax = some n ∨ get? f.outputs.shape ax = some n) ∧
      (∀ m, get? f.inputs.shape ax = some m → m = n ∨ m = 1) ∧
      ∀ m, get? f.outputs.shape ax = some m → m = n ∨ m = 1) := by
  obtain ⟨⟨hi, ho⟩, hm⟩ := hf
  obtain ⟨c, v, s, _, h2, h3, _, _, h6, h7, h8, h9, h10⟩ :=
    C52_axes f.inputs.shape f.outputs.shape (SA.wf_shape hi) (SA.wf_shape ho) hm
  refine ⟨s, v, h3, h2, h7, h6, fun ax => by rw [h8, SA.keys_shape hi, SA.keys_shape ho], ?_, ?_⟩
  · rintro ax ⟨n, g1, g2⟩
    exact ⟨n, by rw [h9 ax ⟨n, g1, g2⟩, g2], g2, g1⟩
  · intro ax n hV hn
    obtain ⟨g1, g2⟩ := h10 ax hV n hn
    refine ⟨?_, fun m h => g2 m ⟨_, by simp, h⟩, fun m h => g2 m ⟨f.outputs.shape, by simp, h⟩⟩
    obtain ⟨d, hd, h⟩ := g1
    simp only [List.mem_cons, List.not_mem_nil, or_false] at hd
    rcases hd with rfl | rfl
    · exact Or.inl h
    · exact Or.inr h

/-- A function whose shape does not exist. -/
theorem shape_error {f : FA α β} (hv : f.Valid) (hf : ¬ f.Fine) : f.shape = .error .valueError ∧
    f.axesVertex = .error .valueError ∧ f.broadcasted = .error .valueError := by
  have hm : ∃ ax, Mismatch f.inputs.shape f.outputs.shape ax := by
    by_contra h
    exact hf ⟨hv, fun ax hax => h ⟨ax, hax⟩⟩
  obtain ⟨ax, hax⟩ := hm
  obtain ⟨_, h2, h3⟩ := C52_mismatch _ _ (SA.wf_shape hv.2) ax hax
  refine ⟨h3, h2, ?_⟩
  unfold broadcasted shape
  rw [h3]
  rfl

theorem broadcasted_main {f : FA α β} (hf : f.Fine) : ∃ s g, f.shape = .ok s ∧ WF s ∧ f.broadcasted = .ok g ∧
    g.Valid ∧ g.outputs.shape = s ∧ keys g.inputs.shape = keys s ∧ g.Occupies s f.Vertex ∧
    (∀ e, g.inputs.at' e = f.inputs.atB e) ∧ ∀ e, g.outputs.at' e = f.outputs.atB e := by
  obtain ⟨s, v, hs, hv, hsw, hvm, hk, hV, hC⟩ := shape_main hf
  obtain ⟨⟨hi, ho⟩, hm⟩ := hf
  have hmap : s.map (fun p => if p.1 ∈ v then (p.1, (get? f.inputs.shape p.1).getD 0) else p) =
      s.map (fun p => (p.1, (fun (ax : String) (n : Nat) => if ax ∈ v then (get? f.inputs.shape ax).getD 0 else n) p.1 p.2)) := by
    apply List.map_congr_left
    intro p _
    dsimp only
    split <;> rfl
  have hsi : ∀ ax, get? (s.map (fun p => if p.1 ∈ v then (p.1, (get? f.inputs.shape p.1).getD 0) else p)) ax =
      (get? s ax).map (fun n => if ax ∈ v then (get? f.inputs.shape ax).getD 0 else n) := by
    intro ax
    rw [hmap]
    exact SA.get?_map_pair s (fun (ax : String) (n : Nat) => if ax ∈ v then (get? f.inputs.shape ax).getD 0 else n) ax
  have hki : keys (s.map (fun p => if p.1 ∈ v then (p.1, (get? f.inputs.shape p.1).getD 0) else p)) = keys s := by
    rw [hmap]
    unfold keys
    rw [List.map_map]
    rfl
  have hwi : WF (s.map (fun p => if p.1 ∈ v then (p.1, (get? f.inputs.shape p.1).getD 0) else p)) := by
    unfold WF; rw [hki]; exact hsw
  have hfi : FitsIn f.inputs.shape (s.map (fun p => if p.1 ∈ v then (p.1, (get? f.inputs.shape p.1).getD 0) else p)) := by
    intro ax m hm'
    rw [hsi]
    by_cases hx : f.Vertex ax
    · obtain ⟨n, g1, _, g3⟩ := hV ax hx
      rw [g1, g3]
      rw [g3] at hm'
      injection hm' with hm'
      exact ⟨n + 1, by simp [(hvm ax).2 hx], Or.inl hm'.symm⟩
    · obtain ⟨n, hn⟩ := exists_get?_of_mem ((hk ax).2 (Or.inl (by rw [← SA.keys_shape hi]; exact mem_keys_of_get? hm')))
      refine ⟨n, ?_, (hC ax n hx hn).2.1 m hm'⟩
      rw [hn, Option.map_some, if_neg (fun h => hx ((hvm ax).1 h))]
  have hfo : FitsIn f.outputs.shape s := by
    intro ax m hm'
    by_cases hx : f.Vertex ax
    · obtain ⟨n, g1, g2, _⟩ := hV ax hx
      rw [g2] at hm'
      injection hm' with hm'
      exact ⟨n, g1, Or.inl hm'.symm⟩
    · obtain ⟨n, hn⟩ := exists_get?_of_mem ((hk ax).2 (Or.inr (by rw [← SA.keys_shape ho]; exact mem_keys_of_get? hm')))
      exact ⟨n, hn, (hC ax n hx hn).2.2 m hm'⟩
  obtain ⟨_, i, i1, i2, i3, i4⟩ := (SA.C10_broadcast_to f.inputs hi _ hwi).resolve_right (fun h => h.1 hfi)
  obtain ⟨_, o, o1, o2, o3, o4⟩ := (SA.C10_broadcast_to f.outputs ho _ hsw).resolve_right (fun h => h.1 hfo)
  refine ⟨s, ⟨i, o⟩, hs, hsw, ?_, ⟨i2, o2⟩, o3, by rw [i3, hki], ?_, i4, o4⟩
  · unfold broadcasted
    rw [hs, hv]
    simp only [bind, Except.bind]
    rw [i1]
    dsimp only
    rw [o1]
  · intro ax
    refine ⟨by rw [o3], fun hx => ?_, fun hx => ?_⟩
    · obtain ⟨n, g1, _, g3⟩ := hV ax hx
      rw [i3, hsi, g1, g3, Option.map_some, if_pos ((hvm ax).2 hx)]
      rfl
    · rw [i3, hsi]
      cases get? s ax with
      | none => rfl
      | some n => rw [Option.map_some, if_neg (fun h => hx ((hvm ax).1 h))]

/-- A function whose components have the sizes `s`, apart from the vertices, is fine and has these sizes. -/
theorem occupies_shape {g : FA α β} (hg : g.Valid) {s : Shape} {V : String → Prop} (h : g.Occupies s V)
    (hV : ∀ ax, V ax → ax ∈ keys s) :
    g.Fine ∧ (∀ ax, g.Vertex ax ↔ V ax) ∧ ∃ s', g.shape = .ok s' ∧ Same s' s := by
  have hVx : ∀ ax, g.Vertex ax ↔ V ax := by
    intro ax
    obtain ⟨h1, h2, h3⟩ := h ax
    unfold Vertex IsVertex
    by_cases hv : V ax
    · obtain ⟨n, hn⟩ := exists_get?_of_mem (hV ax hv)
      rw [h2 hv, h1, hn]
      simp [hv]
    · rw [h3 hv, h1]
      simp only [hv, iff_false]
      rintro ⟨n, a, b⟩
      rw [b] at a
      injection a with a
      omega
  have hfine : g.Fine := by
    refine ⟨hg, fun ax => ?_⟩
    obtain ⟨h1, h2, h3⟩ := h ax
    rintro ⟨m, n, g1, g2, g3, g4, _, _⟩
    by_cases hv : V ax
    · rw [h2 hv, ← h1, g2] at g1
      injection g1 with g1
      exact g4 g1.symm
    · rw [h3 hv, ← h1, g2] at g1
      injection g1 with g1
      exact g3 g1.symm
  refine ⟨hfine, hVx, ?_⟩
  obtain ⟨s', v, hs, hv, hsw, hvm, hk, hVs, hC⟩ := shape_main hfine
  refine ⟨s', hs, fun ax => ?_⟩
  obtain ⟨h1, h2, h3⟩ := h ax
  by_cases hv : g.Vertex ax
  · obtain ⟨n, g1, g2, _⟩ := hVs ax hv
    rw [g1, ← h1, g2]
  · have h3' := h3 (fun h => hv ((hVx ax).2 h))
    cases hs' : get? s' ax with
    | none =>
      rw [get?_eq_none, hk, not_or] at hs'
      rw [← h1, eq_comm, get?_eq_none, SA.keys_shape hg.2]
      exact hs'.2
    | some n =>
      obtain ⟨g1, _, _⟩ := hC ax n hv hs'
      rcases g1 with g1 | g1
      · rw [← h3', g1]
      · rw [← h1, g1]

/-! ### C74 -/

/-- **C74** (`f.broadcasted`). If the shape of the function exists, both components are broadcast to it, apart from
the additional vertices of the inputs, and every element stays at its named index. -/
theorem C74_broadcasted (f : FA α β) (hf : f.Fine) : ∃ s g, f.shape = .ok s ∧ f.broadcasted = .ok g ∧ g.Fine ∧
    g.Occupies s f.Vertex ∧ (∀ ax, g.Vertex ax ↔ f.Vertex ax) ∧ (∃ s', g.shape = .ok s' ∧ Same s' s) ∧
    f.Moves g id := by
  obtain ⟨s, g, hs, hsw, hg, hgv, hgo, _, hocc, hgi, hgo'⟩ := broadcasted_main hf
  obtain ⟨_, _, hs', _, _, _, _, hV, _⟩ := shape_main hf
  rw [hs] at hs'
  injection hs' with hs'
  subst hs'
  obtain ⟨h1, h2, h3⟩ := occupies_shape hgv hocc (fun ax hax => by
    obtain ⟨n, hn, _⟩ := hV ax hax
    exact mem_keys_of_get? hn)
  exact ⟨s, g, hs, hg, h1, hocc, h2, h3, fun e _ => hgi e, fun e _ => hgo' e⟩

/-- **C74** (`na.broadcast_to`). It succeeds exactly if each component broadcasts to the requested shape, with one
more element along the axes on vertices for the inputs; every element stays at its named index, and the axes on
vertices stay on vertices. -/
theorem C74_broadcast_to (f : FA α β) (hf : f.Fine) (s : Shape) (hs : WF s) :
    (FitsIn f.outputs.shape s ∧ (∀ ax m, get? f.inputs.shape ax = some m → ∃ n, get? s ax = some n ∧
        ((f.Vertex ax ∧ m = n + 1) ∨ (¬ f.Vertex ax ∧ m = n) ∨ m = 1)) ∧
      ∃ g, f.broadcastTo s = .ok g ∧ g.Fine ∧ g.Occupies s f.Vertex ∧ (∀ ax, g.Vertex ax ↔ f.Vertex ax) ∧
        f.Moves g id) ∨
    (¬ (FitsIn f.outputs.shape s ∧ ∀ ax m, get? f.inputs.shape ax = some m → ∃ n, get? s ax = some n ∧
        ((f.Vertex ax ∧ m = n + 1) ∨ (¬ f.Vertex ax ∧ m = n) ∨ m = 1)) ∧
      f.broadcastTo s = .error .valueError) := by
  obtain ⟨_, v, _, hv, _, hvm, _, hV, _⟩ := shape_main hf
  obtain ⟨⟨hi, ho⟩, hm⟩ := hf
  have hmap : s.map (fun p => if p.1 ∈ v then (p.1, p.2 + 1) else p) =
      s.map (fun p => (p.1, (fun (ax : String) (n : Nat) => if ax ∈ v then n + 1 else n) p.1 p.2)) := by
    apply List.map_congr_left
    intro p _
    dsimp only
    split <;> rfl
  have hsi : ∀ ax, get? (s.map (fun p => if p.1 ∈ v then (p.1, p.2 + 1) else p)) ax =
      (get? s ax).map (fun n => if ax ∈ v then n + 1 else n) := by
    intro ax
    rw [hmap]
    exact SA.get?_map_pair s (fun (ax : String) (n : Nat) => if ax ∈ v then n + 1 else n) ax
  have hwi : WF (s.map (fun p => if p.1 ∈ v then (p.1, p.2 + 1) else p)) := by
    unfold WF
    rw [hmap]
    unfold keys
    rw [List.map_map]
    exact hs
  have hiff : FitsIn f.inputs.shape (s.map (fun p => if p.1 ∈ v then (p.1, p.2 + 1) else p)) ↔
      ∀ ax m, get? f.inputs.shape ax = some m → ∃ n, get? s ax = some n ∧
        ((f.Vertex ax ∧ m = n + 1) ∨ (¬ f.Vertex ax ∧ m = n) ∨ m = 1) := by
    constructor
    · intro h ax m hm'
      obtain ⟨n, h1, h2⟩ := h ax m hm'
      rw [hsi] at h1
      cases hn : get? s ax with
      | none => rw [hn] at h1; cases h1
      | some k =>
        rw [hn, Option.map_some] at h1
        injection h1 with h1
        refine ⟨k, rfl, ?_⟩
        by_cases hx : f.Vertex ax
        · rw [if_pos ((hvm ax).2 hx)] at h1
          rcases h2 with h2 | h2
          · exact Or.inl ⟨hx, by omega⟩
          · exact Or.inr (Or.inr h2)
        · rw [if_neg (fun h => hx ((hvm ax).1 h))] at h1
          rcases h2 with h2 | h2
          · exact Or.inr (Or.inl ⟨hx, by omega⟩)
          · exact Or.inr (Or.inr h2)
    · intro h ax m hm'
      obtain ⟨n, h1, h2⟩ := h ax m hm'
      rw [hsi, h1]
      refine ⟨_, rfl, ?_⟩
      rcases h2 with ⟨hx, h2⟩ | ⟨hx, h2⟩ | h2
      · left; dsimp only; rw [if_pos ((hvm ax).2 hx)]; exact h2
      · left; dsimp only; rw [if_neg (fun h => hx ((hvm ax).1 h))]; exact h2
      · exact Or.inr h2
  rw [← hiff]
  unfold broadcastTo
  rw [hv]
  simp only [bind, Except.bind]
  rcases SA.C10_broadcast_to f.inputs hi _ hwi with ⟨hfi, i, i1, i2, i3, i4⟩ | ⟨hfi, i1⟩
  · rw [i1]
    dsimp only
    rcases SA.C10_broadcast_to f.outputs ho _ hs with ⟨hfo, o, o1, o2, o3, o4⟩ | ⟨hfo, o1⟩
    · left
      have hocc : (FA.mk i o).Occupies s f.Vertex := by
        intro ax
        refine ⟨by rw [o3], fun hx => ?_, fun hx => ?_⟩
        · rw [i3, hsi]
          simp [(hvm ax).2 hx]
        · rw [i3, hsi]
          have : ax ∉ v := fun h => hx ((hvm ax).1 h)
          simp [this]
      obtain ⟨h1, h2, _⟩ := occupies_shape (g := ⟨i, o⟩) ⟨i2, o2⟩ hocc (fun ax hax => by
        obtain ⟨n, _, hn, _⟩ := hV ax hax
        obtain ⟨k, hk, _⟩ := hfo ax n hn
        exact mem_keys_of_get? hk)
      exact ⟨hfo, hfi, ⟨i, o⟩, by rw [o1], h1, hocc, h2, fun e _ => i4 e, fun e _ => o4 e⟩
    · right
      exact ⟨fun h => hfo h.1, by rw [o1]⟩
  · right
    exact ⟨fun h => hfi h.2, by rw [i1]⟩

/-- **C74** (`np.transpose` with `axes`). It succeeds exactly if the names are distinct and include all the axes of
the function; then the axes of both components are the given ones, and every element stays at its named index. -/
theorem C74_transpose (f : FA α β) (hf : f.Fine) (axes : List String) :
    (axes.Nodup ∧ (∀ x, x ∈ f.inputs.axes ∨ x ∈ f.outputs.axes → x ∈ axes) ∧
      ∃ s g, f.shape = .ok s ∧ f.transpose (some axes) = .ok g ∧ g.Fine ∧ g.inputs.axes = axes ∧
        g.outputs.axes = axes ∧ g.Occupies (axes.map (fun ax => (ax, (get? s ax).getD 1))) f.Vertex ∧
        (∀ ax, g.Vertex ax ↔ f.Vertex ax) ∧ f.Moves g id) ∨
    (¬ (axes.Nodup ∧ ∀ x, x ∈ f.inputs.axes ∨ x ∈ f.outputs.axes → x ∈ axes) ∧
      f.transpose (some axes) = .error .valueError) := by
  obtain ⟨s, b, hs, hsw, hb, hbv, hbo, hbk, hocc, hbi, hbo'⟩ := broadcasted_main hf
  obtain ⟨s0, v, hs0, _, _, _, hk, hV, _⟩ := shape_main hf
  rw [hs] at hs0
  injection hs0 with hs0
  subst hs0
  have hbf := (occupies_shape hbv hocc (fun ax hax => by
    obtain ⟨n, hn, _⟩ := hV ax hax
    exact mem_keys_of_get? hn)).2.2
  obtain ⟨s', hs', _⟩ := hbf
  have hoa : b.outputs.axes = keys s := by rw [← SA.keys_shape hbv.2, hbo]
  have hia : b.inputs.axes = keys s := by rw [← SA.keys_shape hbv.1, hbk]
  have hiff : (∀ x ∈ keys s, x ∈ axes) ↔ ∀ x, x ∈ f.inputs.axes ∨ x ∈ f.outputs.axes → x ∈ axes :=
    ⟨fun h x hx => h x ((hk x).2 hx), fun h x hx => h x ((hk x).1 hx)⟩
  rw [← hiff]
  unfold transpose
  rw [hb]
  simp only [bind, Except.bind]
  rw [hs']
  dsimp only [Option.getD_some]
  rcases SA.C10_transpose b.inputs hbv.1 axes with ⟨hn, hsub, i, i1, i2, i3, i4, i5⟩ | ⟨hn, i1⟩
  · rw [hia] at hsub
    rcases SA.C10_transpose b.outputs hbv.2 axes with ⟨_, _, o, o1, o2, o3, o4, o5⟩ | ⟨hn', _⟩
    · left
      have hg : ∀ ax, get? (axes.map (fun ax => (ax, (get? s ax).getD 1))) ax =
          if ax ∈ axes then some ((get? s ax).getD 1) else none := by
        intro ax
        exact SA.get?_map_self (f := fun ax => (get? s ax).getD 1)
      have hocc' : (FA.mk i o).Occupies (axes.map (fun ax => (ax, (get? s ax).getD 1))) f.Vertex := by
        intro ax
        rw [hg]
        by_cases hm : ax ∈ axes
        · rw [if_pos hm]
          refine ⟨by rw [o4 ax hm, (hocc ax).1], fun hx => ?_, fun hx => ?_⟩
          · obtain ⟨n, hn', _⟩ := hV ax hx
            rw [i4 ax hm, (hocc ax).2.1 hx, hn']
            rfl
          · rw [i4 ax hm, (hocc ax).2.2 hx]
        · rw [if_neg hm]
          refine ⟨(SA.get?_shape_none o2).2 (by rw [o3]; exact hm), fun hx => ?_, fun hx => ?_⟩
          · exact (SA.get?_shape_none i2).2 (by rw [i3]; exact hm)
          · exact (SA.get?_shape_none i2).2 (by rw [i3]; exact hm)
      obtain ⟨h1, h2, _⟩ := occupies_shape (g := ⟨i, o⟩) ⟨i2, o2⟩ hocc' (fun ax hax => by
        obtain ⟨n, hn, _⟩ := hV ax hax
        have hm := hsub ax (mem_keys_of_get? hn)
        rw [← get?_isSome, hg, if_pos hm]
        rfl)
      refine ⟨hn, hsub, s, ⟨i, o⟩, hs, by rw [i1]; dsimp only; rw [o1], h1, i3, o3, hocc', h2, ?_, ?_⟩
      · intro e _
        show i.at' e = _
        rw [i5, hbi]
        rfl
      · intro e _
        show o.at' e = _
        rw [o5, hbo']
        rfl
    · exact absurd ⟨hn, by rw [hoa]; exact hsub⟩ hn'
  · right
    rw [hia] at hn
    exact ⟨hn, by rw [i1]⟩

/-- **C74** (`np.transpose` without `axes`) is the same as giving the axes of the function in reverse. -/
theorem C74_transpose_default (f : FA α β) (hf : f.Fine) :
    ∃ b s, f.broadcasted = .ok b ∧ b.shape = .ok s ∧ s.keys.Nodup ∧
      (∀ ax, ax ∈ s.keys ↔ ax ∈ f.inputs.axes ∨ ax ∈ f.outputs.axes) ∧
      f.transpose none = f.transpose (some s.keys.reverse) := by
  obtain ⟨s, b, hs, hb, hbf, hocc, _, ⟨s', hs', hsame⟩, _⟩ := C74_broadcasted f hf
  obtain ⟨s0, v, hs0, _, _, _, hk, _, _⟩ := shape_main hf
  rw [hs] at hs0
  injection hs0 with hs0
  subst hs0
  refine ⟨b, s', hb, hs', ?_, fun ax => ?_, ?_⟩
  · obtain ⟨s1, _, hs1, _, hw, _⟩ := shape_main hbf
    rw [hs'] at hs1
    injection hs1 with hs1
    rw [hs1]; exact hw
  · rw [← hk, ← get?_isSome, ← get?_isSome, hsame ax]
  · unfold transpose
    rw [hb]
    simp only [bind, Except.bind]
    rw [hs']
    rfl

theorem toList_rowMajor {a : SA α} (ha : a.WF) : a.nd.toList = (rowMajor a.shape).map a.at' := by
  unfold ND.toList rowMajor
  rw [List.map_map, SA.values_shape ha, SA.keys_shape ha]
  apply List.map_congr_left
  intro i hi
  rw [ND.mem_ndIndices_iff] at hi
  have hl : i.length = a.axes.length := by rw [hi.length_eq]; exact ha.1
  show _ = a.nd.get (a.axes.map (envOf a.axes i))
  rw [map_envOf ha.2 hl]

/-- **C74** (`np.reshape`). A function without axes on vertices is broadcast to its shape `s`; if the number of
elements is right, then both components get the requested shape, and their elements are those at the named indices
of `s` in row-major order: the `k`-th input still belongs to the `k`-th output. -/
theorem C74_reshape (f : FA α β) (hf : f.Fine) (hV : ∀ ax, ¬ f.Vertex ax) (t : Shape) (ht : WF t) :
    ∃ s, f.shape = .ok s ∧
      ((t.values.prod = s.values.prod ∧ ∃ g, f.reshape t = .ok g ∧ g.Fine ∧ g.inputs.shape = t ∧
          g.outputs.shape = t ∧ g.inputs.nd.toList = (rowMajor s).map f.inputs.atB ∧
          g.outputs.nd.toList = (rowMajor s).map f.outputs.atB) ∨
        (t.values.prod ≠ s.values.prod ∧ f.reshape t = .error .valueError)) := by
  obtain ⟨s, b, hs, hsw, hb, hbv, hbo, hbk, hocc, hbi, hbo'⟩ := broadcasted_main hf
  obtain ⟨_, v, _, hv, _, hvm, _⟩ := shape_main hf
  have hve : v = [] := List.eq_nil_iff_forall_not_mem.2 (fun ax h => hV ax ((hvm ax).1 h))
  subst hve
  have hbs : b.inputs.shape = s := dict_ext (SA.wf_shape hbv.1) hbk (fun ax => (hocc ax).2.2 (hV ax))
  refine ⟨s, hs, ?_⟩
  unfold reshape
  rw [hv, hb]
  simp only [bind, Except.bind, List.isEmpty_nil, if_true]
  rcases SA.C12_reshape b.inputs hbv.1 t ht with ⟨hp, i, i1, i2, i3, i4⟩ | ⟨hp, i1⟩
  · rcases SA.C12_reshape b.outputs hbv.2 t ht with ⟨_, o, o1, o2, o3, o4⟩ | ⟨hp', _⟩
    · left
      rw [hbs] at hp
      rw [toList_rowMajor hbv.1, hbs, funext hbi] at i4
      rw [toList_rowMajor hbv.2, hbo, funext hbo'] at o4
      refine ⟨hp, ⟨i, o⟩, by rw [i1]; dsimp only; rw [o1], ⟨⟨i2, o2⟩, fun ax => ?_⟩, i3, o3, i4, o4⟩
      show ¬ Mismatch i.shape o.shape ax
      rw [i3, o3]
      rintro ⟨m, n, h1, h2, h3, _⟩
      rw [h1] at h2
      injection h2 with h2
      exact h3 h2
    · rw [hbs] at hp
      rw [hbo] at hp'
      exact absurd hp hp'
  · right
    rw [hbs] at hp
    exact ⟨hp, by rw [i1]⟩

/-- **C74** (vertices). A function with an axis on vertices cannot be reshaped; and it can neither be repeated, nor
have elements taken, nor be concatenated along that axis. -/
theorem C74_vertex_error (f : FA α β) (hf : f.Fine) (ax : String) (hV : f.Vertex ax) :
    (∀ t, f.reshape t = .error .valueError) ∧
    (∀ repeats, f.repeat' repeats ax = .error .valueError) ∧
    (∀ indices, f.takeAlongAxis indices ax = .error .valueError) ∧
    ∀ fs, f ∈ fs → (∀ g ∈ fs, g.Valid) → concatenate fs ax = .error .valueError := by
  obtain ⟨s, v, hs, hv, _, hvm, _, hVs, _⟩ := shape_main hf
  have hmem := (hvm ax).2 hV
  obtain ⟨n, hn, _⟩ := hVs ax hV
  refine ⟨fun t => ?_, fun r => ?_, fun i => ?_, fun fs hfs hfv => ?_⟩
  · unfold reshape
    rw [hv]
    simp only [bind, Except.bind]
    rw [if_neg]
    intro h
    rw [List.isEmpty_iff] at h
    rw [h] at hmem
    cases hmem
  · unfold repeat'
    rw [hv]
    simp only [bind, Except.bind]
    rw [if_pos hmem]
  · unfold takeAlongAxis
    rw [hs, hv]
    simp only [bind, Except.bind, hn]
    rw [if_pos hmem]
  · have herr : ∀ g : FA α β, g.Valid → ∀ e, prepared ax g = .error e → e = .valueError := by
      intro g hg e he
      by_cases hgf : g.Fine
      · obtain ⟨s', v', hs', hv', _, hvm', _, hVs', hC'⟩ := shape_main hgf
        unfold prepared at he
        rw [hs', hv'] at he
        simp only [bind, Except.bind] at he
        cases hn' : get? s' ax with
        | none => rw [hn'] at he; cases he; rfl
        | some k =>
          rw [hn'] at he
          dsimp only at he
          by_cases hx : ax ∈ v'
          · rw [if_pos hx] at he; cases he; rfl
          · rw [if_neg hx] at he
            unfold broadcastTo at he
            rw [hv'] at he
            simp only [bind, Except.bind, List.map_cons, List.map_nil, hx, if_false] at he
            have hnv : ¬ g.Vertex ax := fun h => hx ((hvm' ax).2 h)
            obtain ⟨_, c1, c2⟩ := hC' ax k hnv hn'
            obtain ⟨i, i1, _⟩ := broadcastTo_single g.inputs hg.1 c1
            obtain ⟨o, o1, _⟩ := broadcastTo_single g.outputs hg.2 c2
            rw [i1] at he
            dsimp only at he
            rw [o1] at he
            cases he
      · unfold prepared at he
        rw [(shape_error hg hgf).1] at he
        cases he
        rfl
    have hpf : prepared ax f = .error .valueError := by
      unfold prepared
      rw [hs, hv]
      simp only [bind, Except.bind, hn]
      rw [if_pos hmem]
    have hmap : fs.mapM (prepared ax) = .error .valueError := by
      clear hf hV hs hv hvm hVs hn hmem
      induction fs with
      | nil => cases hfs
      | cons g l ih =>
        rw [List.mapM_cons]
        cases hg : prepared ax g with
        | error e =>
          rw [herr g (hfv g (by simp)) e hg]
          rfl
        | ok b =>
          rcases List.mem_cons.1 hfs with rfl | hfs
          · rw [hpf] at hg; cases hg
          · rw [ih hfs (fun g hg => hfv g (by simp [hg]))]
            rfl
    unfold concatenate
    rw [hmap]
    rfl

/-- **C74** (`np.repeat`). Along an axis on centers, of size `n` for the function, both components are repeated by
the same counts: the copies of position `i` of the function are the block of `counts[i]` positions which follows the
copies of the positions before it. -/
theorem C74_repeat (f : FA α β) (hf : f.Fine) (s : Shape) (hs : f.shape = .ok s) (repeats : SA Nat)
    (hr : repeats.WF) (axis : String) (n : Nat) (hn : get? s axis = some n) (hV : ¬ f.Vertex axis) :
    (∃ counts, SA.Counts repeats n counts ∧ counts.length = n ∧
      ∃ g, f.repeat' repeats axis = .ok g ∧ g.Fine ∧ g.Occupies (s.set axis counts.sum) f.Vertex ∧
        (∀ ax, g.Vertex ax ↔ f.Vertex ax) ∧
        ∀ (i : Nat) (hi : i < counts.length) (k : Nat), k < counts[i] →
          ∀ e, e axis = (counts.take i).sum + k →
            (InRange g.inputs.shape e → g.inputs.at' e = f.inputs.atB (Function.update e axis i)) ∧
            (InRange g.outputs.shape e → g.outputs.at' e = f.outputs.atB (Function.update e axis i))) ∨
    ((¬ ∃ counts, SA.Counts repeats n counts) ∧ f.repeat' repeats axis = .error .valueError) := by
  obtain ⟨s0, b, hs0, hsw, hb, hbv, hbo, hbk, hocc, hbi, hbo'⟩ := broadcasted_main hf
  rw [hs] at hs0
  injection hs0 with hs0
  subst hs0
  obtain ⟨s1, v, hs1, hv, _, hvm, _, hVs, _⟩ := shape_main hf
  rw [hs] at hs1
  injection hs1 with hs1
  subst hs1
  have hni : get? b.inputs.shape axis = some n := by rw [(hocc axis).2.2 hV, hn]
  have hno : get? b.outputs.shape axis = some n := by rw [hbo, hn]
  have hrun : f.repeat' repeats axis = (do
      let i ← b.inputs.repeat' repeats axis
      let o ← b.outputs.repeat' repeats axis
      .ok ⟨i, o⟩) := by
    unfold repeat'
    rw [hv, hb]
    simp only [bind, Except.bind]
    rw [if_neg (fun h => hV ((hvm axis).1 h))]
  rw [hrun]
  by_cases hc : ∃ counts, SA.Counts repeats n counts
  · left
    obtain ⟨i, i1⟩ := (SA.C57_repeat_succeeds b.inputs hbv.1 repeats hr axis n hni).1 hc
    obtain ⟨o, o1⟩ := (SA.C57_repeat_succeeds b.outputs hbv.2 repeats hr axis n hno).1 hc
    obtain ⟨c, c1, c2, i2, i3, i4, i5⟩ := SA.C57_repeat b.inputs hbv.1 repeats hr axis n hni i i1
    obtain ⟨c', d1, _, o2, o3, o4, o5⟩ := SA.C57_repeat b.outputs hbv.2 repeats hr axis n hno o o1
    have hcc : c' = c := by
      have h1 := SA.counts_repeatCounts hr c1
      have h2 := SA.counts_repeatCounts hr d1
      rw [h1] at h2
      injection h2 with h2
      exact h2.symm
    subst hcc
    have hocc' : (FA.mk i o).Occupies (s.set axis c'.sum) f.Vertex := by
      intro ax
      by_cases hx : ax = axis
      · subst hx
        refine ⟨by rw [o4, if_pos rfl, get?_set, if_pos rfl], fun h => absurd h hV, fun _ => ?_⟩
        rw [i4, if_pos rfl, get?_set, if_pos rfl]
      · have hg : get? (s.set axis c'.sum) ax = get? s ax := by
          rw [get?_set]
          exact if_neg (by first | exact hx | exact Ne.symm hx)
        rw [hg]
        refine ⟨by rw [o4, if_neg hx, hbo], fun h => ?_, fun h => ?_⟩
        · rw [i4, if_neg hx, (hocc ax).2.1 h]
        · rw [i4, if_neg hx, (hocc ax).2.2 h]
    obtain ⟨h1, h2, _⟩ := occupies_shape (g := ⟨i, o⟩) ⟨i2, o2⟩ hocc' (fun ax hax => by
      obtain ⟨m, hm, _⟩ := hVs ax hax
      have hx : ax ≠ axis := by rintro rfl; exact hV hax
      rw [← get?_isSome, get?_set]
      rw [if_neg (by first | exact hx | exact Ne.symm hx), hm]
      rfl)
    refine ⟨c', c1, c2, ⟨i, o⟩, ?_, h1, hocc', h2, fun j hj k hk e he => ⟨fun _ => ?_, fun _ => ?_⟩⟩
    · rw [i1]; simp only [bind, Except.bind]; rw [o1]
    · rw [← hbi]
      exact i5 j hj k hk e he
    · rw [← hbo']
      exact o5 j hj k hk e he
  · right
    refine ⟨hc, ?_⟩
    rw [(SA.C57_repeat_succeeds b.inputs hbv.1 repeats hr axis n hni).2 hc]
    rfl

theorem erase_set {s : Shape} (hs : WF s) (axis : String) (n : Nat) : (s.set axis n).erase axis = s.erase axis := by
  apply dict_ext (Dict.wf_erase (wf_set hs _ _) _)
  · rw [keys_erase, keys_erase, keys_set]
    split
    · rfl
    · simp
  · intro x
    rw [get?_erase, get?_erase]
    split
    · rfl
    · next h => rw [get?_set, if_neg h]

theorem set_set {s : Shape} (hs : WF s) (axis : String) (n m : Nat) : (s.set axis n).set axis m = s.set axis m := by
  apply dict_ext (wf_set (wf_set hs _ _) _ _)
  · rw [keys_set, if_pos]
    · rw [keys_set, keys_set]
    · rw [keys_set]
      split
      · assumption
      · simp
  · intro x
    rw [get?_set, get?_set, get?_set]
    split <;> rfl

theorem atB_broadcast {γ : Type} {a b : SA γ} {axis : String} {n : Nat} (ha : a.WF)
    (hs : b.shape = a.shape.set axis n) (hb : ∀ e, b.at' e = a.atB e)
    (hc : ∀ m, get? a.shape axis = some m → m = n ∨ m = 1) (e : String → Nat) : b.atB e = a.atB e := by
  have hfit : FitsIn a.shape b.shape := by
    intro ax m hm
    rw [hs, get?_set]
    by_cases hx : axis = ax
    · subst hx
      exact ⟨n, if_pos rfl, hc m hm⟩
    · exact ⟨m, by rw [if_neg hx, hm], Or.inl rfl⟩
  have := atB_clip ha hfit e
  rw [← this, ← hb]
  rfl

/-- **C74** (`np.take_along_axis`). Along an axis on centers, of size `n` for the function, the same position is
read from the inputs and from the outputs, whether or not they vary along the axis. -/
theorem C74_take_along_axis (f : FA α β) (hf : f.Fine) (s : Shape) (hs : f.shape = .ok s) (indices : SA Int)
    (hi : indices.WF) (axis : String) (n : Nat) (hn : get? s axis = some n) (hV : ¬ f.Vertex axis) (si so : Shape)
    (hsi : broadcastShapes [f.inputs.shape.erase axis, indices.shape.erase axis] = .ok si)
    (hso : broadcastShapes [f.outputs.shape.erase axis, indices.shape.erase axis] = .ok so) :
    ((∀ e, InRange indices.shape e → ND.ValidIndex n (indices.at' e)) ∧
      ∃ g, f.takeAlongAxis indices axis = .ok g ∧ g.Valid ∧
        g.inputs.shape = (axis, (get? indices.shape axis).getD 1) :: si ∧
        g.outputs.shape = (axis, (get? indices.shape axis).getD 1) :: so ∧
        f.Moves g (fun e => Function.update e axis (ND.pyIndex n (indices.atB e)))) ∨
    (¬ (∀ e, InRange indices.shape e → ND.ValidIndex n (indices.at' e)) ∧
      f.takeAlongAxis indices axis = .error .indexError) := by
  obtain ⟨s1, v, hs1, hv, _, hvm, _, _, hC⟩ := shape_main hf
  rw [hs] at hs1
  injection hs1 with hs1
  subst hs1
  obtain ⟨_, ci, co⟩ := hC axis n hV hn
  obtain ⟨bi, i1, i2, i3, i4⟩ := broadcastTo_single f.inputs hf.1.1 ci
  obtain ⟨bo, o1, o2, o3, o4⟩ := broadcastTo_single f.outputs hf.1.2 co
  have hrun : f.takeAlongAxis indices axis = (do
      let i ← bi.takeAlongAxis indices axis
      let o ← bo.takeAlongAxis indices axis
      .ok ⟨i, o⟩) := by
    unfold takeAlongAxis
    rw [hs, hv]
    simp only [bind, Except.bind, hn]
    rw [if_neg (fun h => hV ((hvm axis).1 h)), i1]
    dsimp only
    rw [o1]
  rw [hrun]
  have hni : get? bi.shape axis = some n := by rw [i3, get?_set, if_pos rfl]
  have hno : get? bo.shape axis = some n := by rw [o3, get?_set, if_pos rfl]
  have hsi' : broadcastShapes [bi.shape.erase axis, indices.shape.erase axis] = .ok si := by
    rw [i3, erase_set (SA.wf_shape hf.1.1), hsi]
  have hso' : broadcastShapes [bo.shape.erase axis, indices.shape.erase axis] = .ok so := by
    rw [o3, erase_set (SA.wf_shape hf.1.2), hso]
  have hbi := atB_broadcast hf.1.1 i3 i4 ci
  have hbo := atB_broadcast hf.1.2 o3 o4 co
  rcases SA.C57_take_along_axis bi indices i2 hi axis n hni si hsi' with ⟨hok, i, j1, j2, j3, j4⟩ | ⟨hbad, j1⟩
  · rcases SA.C57_take_along_axis bo indices o2 hi axis n hno so hso' with ⟨_, o, k1, k2, k3, k4⟩ | ⟨hbad, _⟩
    · left
      refine ⟨hok, ⟨i, o⟩, ?_, ⟨j2, k2⟩, j3, k3, fun e he => ?_, fun e he => ?_⟩
      · rw [j1]; simp only [bind, Except.bind]; rw [k1]
      · exact (j4 e he).trans (hbi _)
      · exact (k4 e he).trans (hbo _)
    · exact absurd hok hbad
  · right
    refine ⟨hbad, ?_⟩
    rw [j1]
    rfl

/-- **C74** (`np.stack`). The inputs and the outputs of the `k`-th function are at position `k` along the new axis,
at their own named indices. -/
theorem C74_stack (fs : List (FA α β)) (hw : ∀ f ∈ fs, f.Valid) (hne : fs ≠ []) (axis : String)
    (hax : ∀ f ∈ fs, axis ∉ f.inputs.axes ∧ axis ∉ f.outputs.axes) (si so : Shape)
    (hsi : broadcastShapes (fs.map (fun f => f.inputs.shape)) = .ok si)
    (hso : broadcastShapes (fs.map (fun f => f.outputs.shape)) = .ok so) :
    ∃ g, stack fs axis = .ok g ∧ g.Valid ∧ g.inputs.shape = (axis, fs.length) :: si ∧
      g.outputs.shape = (axis, fs.length) :: so ∧
      ∀ e, ∀ h : e axis < fs.length, g.inputs.at' e = fs[e axis].inputs.atB e ∧
        g.outputs.at' e = fs[e axis].outputs.atB e := by
  have hi : broadcastShapes ((fs.map FA.inputs).map SA.shape) = .ok si := by rw [List.map_map]; exact hsi
  have ho : broadcastShapes ((fs.map FA.outputs).map SA.shape) = .ok so := by rw [List.map_map]; exact hso
  obtain ⟨i, i1, i2, i3, i4⟩ := SA.C23_stack (fs.map FA.inputs)
    (fun a ha => by obtain ⟨f, hf, rfl⟩ := List.mem_map.1 ha; exact (hw f hf).1) (by simpa using hne) axis si hi
    (fun a ha => by obtain ⟨f, hf, rfl⟩ := List.mem_map.1 ha; exact (hax f hf).1)
  obtain ⟨o, o1, o2, o3, o4⟩ := SA.C23_stack (fs.map FA.outputs)
    (fun a ha => by obtain ⟨f, hf, rfl⟩ := List.mem_map.1 ha; exact (hw f hf).2) (by simpa using hne) axis so ho
    (fun a ha => by obtain ⟨f, hf, rfl⟩ := List.mem_map.1 ha; exact (hax f hf).2)
  rw [List.length_map] at i3 o3
  refine ⟨⟨i, o⟩, ?_, ⟨i2, o2⟩, i3, o3, fun e h => ⟨?_, ?_⟩⟩
  · unfold stack; rw [i1]; simp only [bind, Except.bind]; rw [o1]
  · have := i4 e (by rw [List.length_map]; exact h)
    rw [List.getElem_map] at this
    exact this
  · have := o4 e (by rw [List.length_map]; exact h)
    rw [List.getElem_map] at this
    exact this

/-- **C74** (`np.stack`, failure). -/
theorem C74_stack_error (fs : List (FA α β)) (hw : ∀ f ∈ fs, f.Valid) (axis : String)
    (h : fs = [] ∨ (∃ f ∈ fs, axis ∈ f.inputs.axes ∨ axis ∈ f.outputs.axes) ∨
      Clash (fs.map (fun f => f.inputs.shape)) ∨ Clash (fs.map (fun f => f.outputs.shape))) :
    stack fs axis = .error .valueError := by
  have hwi : ∀ a ∈ fs.map FA.inputs, a.WF := fun a ha => by
    obtain ⟨f, hf, rfl⟩ := List.mem_map.1 ha; exact (hw f hf).1
  have hwo : ∀ a ∈ fs.map FA.outputs, a.WF := fun a ha => by
    obtain ⟨f, hf, rfl⟩ := List.mem_map.1 ha; exact (hw f hf).2
  have key : SA.stack (fs.map FA.inputs) axis = .error .valueError ∨
      SA.stack (fs.map FA.outputs) axis = .error .valueError := by
    rcases h with rfl | ⟨f, hf, hx | hx⟩ | hc | hc
    · left; exact SA.C23_stack_error _ hwi axis (Or.inl rfl)
    · left; exact SA.C23_stack_error _ hwi axis (Or.inr (Or.inl ⟨_, List.mem_map_of_mem hf, hx⟩))
    · right; exact SA.C23_stack_error _ hwo axis (Or.inr (Or.inl ⟨_, List.mem_map_of_mem hf, hx⟩))
    · left; exact SA.C23_stack_error _ hwi axis (Or.inr (Or.inr (by rw [List.map_map]; exact hc)))
    · right; exact SA.C23_stack_error _ hwo axis (Or.inr (Or.inr (by rw [List.map_map]; exact hc)))
  unfold stack
  rcases key with h | h
  · rw [h]; rfl
  · cases hi : SA.stack (fs.map FA.inputs) axis with
    | error e =>
      have : e = .valueError := by
        by_contra hne
        by_cases hb : fs.map FA.inputs = [] ∨ (∃ a ∈ fs.map FA.inputs, axis ∈ a.axes) ∨
            Clash ((fs.map FA.inputs).map SA.shape)
        · rw [SA.C23_stack_error _ hwi axis hb] at hi
          injection hi with hi
          exact hne hi.symm
        · rw [not_or, not_or] at hb
          have hss : ∀ t ∈ (fs.map FA.inputs).map SA.shape, WF t := by
            intro t ht
            obtain ⟨a, ha, rfl⟩ := List.mem_map.1 ht
            exact SA.wf_shape (hwi a ha)
          cases hbs : broadcastShapes ((fs.map FA.inputs).map SA.shape) with
          | error e' => exact hb.2.2 ((C01_broadcast_shapes_error_iff _ hss).1 ⟨e', hbs⟩)
          | ok s =>
            obtain ⟨r, hr, _⟩ := SA.C23_stack _ hwi hb.1 axis s hbs (fun a ha hx => hb.2.1 ⟨a, ha, hx⟩)
            rw [hi] at hr
            cases hr
      rw [this]
      rfl
    | ok i => simp only [bind, Except.bind]; rw [h]

/-- The number of elements of a function along an axis. -/
def sizeAlong (f : FA α β) (axis : String) : Nat :=
  match f.shape with
  | .ok s => (get? s axis).getD 0
  | .error _ => 0

/-- One function of a concatenation. -/
theorem prepared_main {f : FA α β} (hf : f.Fine) {axis : String} (hx : axis ∈ f.inputs.axes ∨ axis ∈ f.outputs.axes)
    (hV : ¬ f.Vertex axis) :
    ∃ b, prepared axis f = .ok b ∧ b.Valid ∧ b.inputs.shape = f.inputs.shape.set axis (f.sizeAlong axis) ∧
      b.outputs.shape = f.outputs.shape.set axis (f.sizeAlong axis) ∧
      (∀ e, b.inputs.atB e = f.inputs.atB e) ∧ ∀ e, b.outputs.atB e = f.outputs.atB e := by
  obtain ⟨s, v, hs, hv, _, hvm, hk, _, hC⟩ := shape_main hf
  obtain ⟨n, hn⟩ := exists_get?_of_mem ((hk axis).2 hx)
  have hsz : f.sizeAlong axis = n := by unfold sizeAlong; rw [hs]; simp [hn]
  obtain ⟨_, ci, co⟩ := hC axis n hV hn
  obtain ⟨bi, i1, i2, i3, i4⟩ := broadcastTo_single f.inputs hf.1.1 ci
  obtain ⟨bo, o1, o2, o3, o4⟩ := broadcastTo_single f.outputs hf.1.2 co
  rw [hsz]
  refine ⟨⟨bi, bo⟩, ?_, ⟨i2, o2⟩, i3, o3, atB_broadcast hf.1.1 i3 i4 ci, atB_broadcast hf.1.2 o3 o4 co⟩
  have hnv : axis ∉ v := fun h => hV ((hvm axis).1 h)
  unfold prepared
  rw [hs, hv]
  simp only [bind, Except.bind, hn]
  rw [if_neg hnv]
  unfold broadcastTo
  rw [hv]
  simp only [bind, Except.bind, List.map_cons, List.map_nil, hnv, if_false]
  rw [i1]
  dsimp only
  rw [o1]

/-- **C74** (`np.concatenate`). Along an axis on centers, which all the functions have, the inputs and the outputs of
a function both occupy the block of positions which follows those of the functions before it, at their own named
indices. -/
theorem C74_concatenate (fs : List (FA α β)) (hw : ∀ f ∈ fs, f.Fine) (hne : fs ≠ []) (axis : String)
    (hax : ∀ f ∈ fs, axis ∈ f.inputs.axes ∨ axis ∈ f.outputs.axes) (hV : ∀ f ∈ fs, ¬ f.Vertex axis) (si so : Shape)
    (hsi : broadcastShapes (fs.map (fun f => f.inputs.shape.set axis 1)) = .ok si)
    (hso : broadcastShapes (fs.map (fun f => f.outputs.shape.set axis 1)) = .ok so) :
    ∃ g, concatenate fs axis = .ok g ∧ g.Valid ∧
      g.inputs.shape = si.set axis (fs.map (fun f => f.sizeAlong axis)).sum ∧
      g.outputs.shape = so.set axis (fs.map (fun f => f.sizeAlong axis)).sum ∧
      ∀ (i : Nat) (hi : i < fs.length) (k : Nat), k < fs[i].sizeAlong axis →
        ∀ e, e axis = ((fs.map (fun f => f.sizeAlong axis)).take i).sum + k →
          g.inputs.at' e = fs[i].inputs.atB (Function.update e axis k) ∧
          g.outputs.at' e = fs[i].outputs.atB (Function.update e axis k) := by
  classical
  have hp : ∀ f ∈ fs, ∃ b, prepared axis f = .ok b ∧ b.Valid ∧
      b.inputs.shape = f.inputs.shape.set axis (f.sizeAlong axis) ∧
      b.outputs.shape = f.outputs.shape.set axis (f.sizeAlong axis) ∧
      (∀ e, b.inputs.atB e = f.inputs.atB e) ∧ ∀ e, b.outputs.atB e = f.outputs.atB e :=
    fun f hf => prepared_main (hw f hf) (hax f hf) (hV f hf)
  let P : FA α β → FA α β := fun f => if h : f ∈ fs then (hp f h).choose else f
  have hP : ∀ f ∈ fs, prepared axis f = .ok (P f) ∧ (P f).Valid ∧
      (P f).inputs.shape = f.inputs.shape.set axis (f.sizeAlong axis) ∧
      (P f).outputs.shape = f.outputs.shape.set axis (f.sizeAlong axis) ∧
      (∀ e, (P f).inputs.atB e = f.inputs.atB e) ∧ ∀ e, (P f).outputs.atB e = f.outputs.atB e := by
    intro f hf
    have : P f = (hp f hf).choose := dif_pos hf
    rw [this]
    exact (hp f hf).choose_spec
  have hmap : fs.mapM (prepared axis) = .ok (fs.map P) := SA.mapM_map_ok (fun f hf => (hP f hf).1)
  have hget : ∀ (t : Shape) n, get? (t.set axis n) axis = some n := fun t n => by rw [get?_set, if_pos rfl]
  have hwi : ∀ a ∈ (fs.map P).map FA.inputs, a.WF := fun a ha => by
    obtain ⟨b, hb, rfl⟩ := List.mem_map.1 ha
    obtain ⟨f, hf, rfl⟩ := List.mem_map.1 hb
    exact (hP f hf).2.1.1
  have hwo : ∀ a ∈ (fs.map P).map FA.outputs, a.WF := fun a ha => by
    obtain ⟨b, hb, rfl⟩ := List.mem_map.1 ha
    obtain ⟨f, hf, rfl⟩ := List.mem_map.1 hb
    exact (hP f hf).2.1.2
  have hxi : ∀ a ∈ (fs.map P).map FA.inputs, axis ∈ a.axes := fun a ha => by
    have hwa := hwi a ha
    obtain ⟨b, hb, rfl⟩ := List.mem_map.1 ha
    obtain ⟨f, hf, rfl⟩ := List.mem_map.1 hb
    rw [← SA.keys_shape hwa, (hP f hf).2.2.1]
    exact mem_keys_of_get? (hget _ _)
  have hxo : ∀ a ∈ (fs.map P).map FA.outputs, axis ∈ a.axes := fun a ha => by
    have hwa := hwo a ha
    obtain ⟨b, hb, rfl⟩ := List.mem_map.1 ha
    obtain ⟨f, hf, rfl⟩ := List.mem_map.1 hb
    rw [← SA.keys_shape hwa, (hP f hf).2.2.2.1]
    exact mem_keys_of_get? (hget _ _)
  have hbi : broadcastShapes (((fs.map P).map FA.inputs).map (fun a => a.shape.set axis 1)) = .ok si := by
    rw [List.map_map, List.map_map, ← hsi]
    congr 1
    apply List.map_congr_left
    intro f hf
    show (P f).inputs.shape.set axis 1 = _
    rw [(hP f hf).2.2.1, set_set (SA.wf_shape (hw f hf).1.1)]
  have hbo : broadcastShapes (((fs.map P).map FA.outputs).map (fun a => a.shape.set axis 1)) = .ok so := by
    rw [List.map_map, List.map_map, ← hso]
    congr 1
    apply List.map_congr_left
    intro f hf
    show (P f).outputs.shape.set axis 1 = _
    rw [(hP f hf).2.2.2.1, set_set (SA.wf_shape (hw f hf).1.2)]
  have hzi : SA.sizesAlong ((fs.map P).map FA.inputs) axis = fs.map (fun f => f.sizeAlong axis) := by
    unfold SA.sizesAlong
    rw [List.map_map, List.map_map]
    apply List.map_congr_left
    intro f hf
    show (get? (P f).inputs.shape axis).getD 0 = _
    rw [(hP f hf).2.2.1, hget]
    rfl
  have hzo : SA.sizesAlong ((fs.map P).map FA.outputs) axis = fs.map (fun f => f.sizeAlong axis) := by
    unfold SA.sizesAlong
    rw [List.map_map, List.map_map]
    apply List.map_congr_left
    intro f hf
    show (get? (P f).outputs.shape axis).getD 0 = _
    rw [(hP f hf).2.2.2.1, hget]
    rfl
  obtain ⟨i, i1, i2, i3, i4⟩ := SA.C24_concatenate _ hwi (by simpa using hne) axis hxi si hbi
  obtain ⟨o, o1, o2, o3, o4⟩ := SA.C24_concatenate _ hwo (by simpa using hne) axis hxo so hbo
  rw [hzi] at i3 i4
  rw [hzo] at o3 o4
  refine ⟨⟨i, o⟩, ?_, ⟨i2, o2⟩, i3, o3, fun j hj k hk e he => ?_⟩
  · unfold concatenate
    rw [hmap]
    simp only [bind, Except.bind]
    rw [i1]
    dsimp only
    rw [o1]
  · have hm : fs[j] ∈ fs := List.getElem_mem hj
    have h1 := i4 j (by simpa using hj) k (by
      simp only [List.getElem_map]
      rw [(hP _ hm).2.2.1, hget]
      exact hk) e he
    have h2 := o4 j (by simpa using hj) k (by
      simp only [List.getElem_map]
      rw [(hP _ hm).2.2.2.1, hget]
      exact hk) e he
    simp only [List.getElem_map] at h1 h2
    exact ⟨h1.trans ((hP _ hm).2.2.2.2.1 _), h2.trans ((hP _ hm).2.2.2.2.2 _)⟩

/-- The renaming of the axes of one component of a function. -/
theorem moveaxis_component {γ : Type} (a : SA γ) (ha : a.WF) (source destination : List String)
    (hl : source.length = destination.length) (hsn : source.Nodup) (hex : ∃ x ∈ source, x ∈ a.axes)
    (hpw : (source.zip destination).Pairwise (fun p q => p.2 ≠ q.1))
    (hinj : (a.axes.map (SA.rename (source.zip destination))).Nodup) :
    ∃ ps r, unzipPairs ((source.zip destination).filter (fun p => p.1 ∈ a.shape.keys)) = .ok ps ∧
      a.moveaxis ps.1 ps.2 = .ok r ∧ r.WF ∧ r.axes = a.axes.map (SA.rename (source.zip destination)) ∧
      r.nd = a.nd ∧ ∀ e, r.at' e = a.at' (e ∘ SA.rename (source.zip destination)) := by
  set pairs := source.zip destination with hpairs
  set qs := pairs.filter (fun p => p.1 ∈ a.shape.keys) with hqs
  have hfst : pairs.map Prod.fst = source := List.map_fst_zip (by omega)
  have hne : qs.isEmpty = false := by
    obtain ⟨x, hx, hxa⟩ := hex
    rw [← hfst] at hx
    obtain ⟨p, hp, rfl⟩ := List.mem_map.1 hx
    have : p ∈ qs := List.mem_filter.2 ⟨hp, by rw [SA.keys_shape ha]; simpa using hxa⟩
    cases h : qs with
    | nil => rw [h] at this; cases this
    | cons _ _ => rfl
  have hzip : (qs.map Prod.fst).zip (qs.map Prod.snd) = qs := by
    rw [List.zip_map']
    exact List.map_id' qs
  have hren : ∀ ax ∈ a.axes, SA.rename qs ax = SA.rename pairs ax := by
    intro ax hax
    unfold SA.rename
    have : qs.find? (fun p => p.1 = ax) = pairs.find? (fun p => p.1 = ax) := by
      rw [hqs]
      clear_value pairs
      clear hpw hinj hpairs hqs qs hfst hne hzip
      induction pairs with
      | nil => rfl
      | cons p l ih =>
        by_cases hp : p.1 ∈ a.shape.keys
        · rw [List.filter_cons_of_pos (by simpa using hp), List.find?_cons, List.find?_cons, ih]
        · have hpx : ¬ p.1 = ax := by
            rintro rfl
            exact hp (by rw [SA.keys_shape ha]; exact hax)
          rw [List.filter_cons_of_neg (by simpa using hp), List.find?_cons_of_neg (by simpa using hpx), ih]
    rw [this]
  have hmap : a.axes.map (SA.rename qs) = a.axes.map (SA.rename pairs) := List.map_congr_left hren
  obtain ⟨r, h1, h2, h3, h4, h5⟩ := (SA.C25_moveaxis_partial a ha (qs.map Prod.fst) (qs.map Prod.snd) (by simp)
    (by
      have : List.Sublist (qs.map Prod.fst) (pairs.map Prod.fst) := List.Sublist.map _ List.filter_sublist
      rw [hfst] at this
      exact this.nodup hsn)
    (fun x hx => by
      obtain ⟨p, hp, rfl⟩ := List.mem_map.1 hx
      have := (List.mem_filter.1 hp).2
      rw [SA.keys_shape ha] at this
      simpa using this)
    (by rw [hzip]; exact hpw.sublist List.filter_sublist)).1 (by rw [hzip, hmap]; exact hinj)
  rw [hzip] at h3 h5
  refine ⟨(qs.map Prod.fst, qs.map Prod.snd), r, ?_, h1, h2, h3.trans hmap, h4, fun e => ?_⟩
  · unfold unzipPairs
    rw [hne]
    rfl
  · rw [h5]
    apply SA.at'_congr
    intro ax hax
    simp only [Function.comp, hren ax hax]

/-- **C74** (`np.moveaxis`), partial: the axes are renamed in both components, so that every element stays at its
(renamed) index, provided that each component has some of the axes to rename, that no axis is renamed to one which
is renamed later (C25), and that the new names are distinct in each component.  The first condition should not be
necessary, see `C74_moveaxis_refuted`. -/
theorem C74_moveaxis_partial (f : FA α β) (hf : f.Fine) (source destination : List String)
    (hl : source.length = destination.length) (hsn : source.Nodup)
    (hsub : ∀ x ∈ source, x ∈ f.inputs.axes ∨ x ∈ f.outputs.axes)
    (hei : ∃ x ∈ source, x ∈ f.inputs.axes) (heo : ∃ x ∈ source, x ∈ f.outputs.axes)
    (hpw : (source.zip destination).Pairwise (fun p q => p.2 ≠ q.1))
    (hii : (f.inputs.axes.map (SA.rename (source.zip destination))).Nodup)
    (hio : (f.outputs.axes.map (SA.rename (source.zip destination))).Nodup) :
    ∃ g, f.moveaxis source destination = .ok g ∧ g.Valid ∧
      g.inputs.axes = f.inputs.axes.map (SA.rename (source.zip destination)) ∧
      g.outputs.axes = f.outputs.axes.map (SA.rename (source.zip destination)) ∧
      g.inputs.nd.shape = f.inputs.nd.shape ∧ g.outputs.nd.shape = f.outputs.nd.shape ∧
      (∀ e, g.inputs.at' e = f.inputs.at' (e ∘ SA.rename (source.zip destination))) ∧
      ∀ e, g.outputs.at' e = f.outputs.at' (e ∘ SA.rename (source.zip destination)) := by
  obtain ⟨s, _, hs, _, _, _, hk, _⟩ := shape_main hf
  obtain ⟨pi, i, i0, i1, i2, i3, i4, i5⟩ :=
    moveaxis_component f.inputs hf.1.1 source destination hl hsn hei hpw hii
  obtain ⟨po, o, o0, o1, o2, o3, o4, o5⟩ :=
    moveaxis_component f.outputs hf.1.2 source destination hl hsn heo hpw hio
  refine ⟨⟨i, o⟩, ?_, ⟨i2, o2⟩, i3, o3, by rw [i4], by rw [o4], i5, o5⟩
  unfold moveaxis
  rw [hs]
  simp only [bind, Except.bind]
  rw [if_pos (by
    rw [List.all_eq_true]
    intro x hx
    simpa using (hk x).2 (hsub x hx)), i0]
  dsimp only
  rw [o0]
  dsimp only
  rw [i1]
  dsimp only
  rw [o1]

/-- **C74** (`np.moveaxis`, failure): an axis which the function lacks. -/
theorem C74_moveaxis_absent (f : FA α β) (hf : f.Fine) (source destination : List String) (x : String)
    (hx : x ∈ source) (hxi : x ∉ f.inputs.axes) (hxo : x ∉ f.outputs.axes) :
    f.moveaxis source destination = .error .valueError := by
  obtain ⟨s, _, hs, _, _, _, hk, _⟩ := shape_main hf
  unfold moveaxis
  rw [hs]
  simp only [bind, Except.bind]
  rw [if_neg]
  rw [List.all_eq_true]
  intro h
  have := h x hx
  rw [decide_eq_true_eq, hk] at this
  rcases this with h | h
  · exact hxi h
  · exact hxo h

/-- **C74 is false of the code** for `np.moveaxis`: if the inputs (or the outputs) have none of the axes to rename, it
raises `ValueError`, although the axes are axes of the function and could be renamed in the other component. -/
theorem C74_moveaxis_refuted (f : FA α β) (hf : f.Fine) (source destination : List String)
    (h : (∀ x ∈ source, x ∉ f.inputs.axes) ∨ ∀ x ∈ source, x ∉ f.outputs.axes) :
    f.moveaxis source destination = .error .valueError := by
  obtain ⟨s, _, hs, _⟩ := shape_main hf
  have key : ∀ {γ : Type} (a : SA γ), a.WF → (∀ x ∈ source, x ∉ a.axes) →
      unzipPairs ((source.zip destination).filter (fun p => p.1 ∈ a.shape.keys)) = .error .valueError := by
    intro γ a ha hno
    have : (source.zip destination).filter (fun p => p.1 ∈ a.shape.keys) = [] := by
      rw [List.filter_eq_nil_iff]
      intro p hp
      rw [SA.keys_shape ha]
      simpa using hno p.1 (List.of_mem_zip (a := p.1) (b := p.2) hp).1
    unfold unzipPairs
    rw [this]
    rfl
  unfold moveaxis
  rw [hs]
  simp only [bind, Except.bind]
  split
  · rcases h with h | h
    · rw [key f.inputs hf.1.1 h]
    · have : ∀ ps, unzipPairs ps = .error .valueError ∨ ∃ q, unzipPairs ps = .ok q := by
        intro ps
        unfold unzipPairs
        split
        · exact Or.inl rfl
        · exact Or.inr ⟨_, rfl⟩
      rcases this ((source.zip destination).filter (fun p => p.1 ∈ f.inputs.shape.keys)) with h' | ⟨q, h'⟩
      · rw [h']
      · rw [h']
        dsimp only
        rw [key f.outputs hf.1.2 h]
  · rfl

/-- temperatures on the vertices of two cells along `x`, repeated for three times `t` which only the outputs have -/
def exCells : FA Nat Nat :=
  ⟨⟨["x"], ND.ofList [3] [10, 20, 30] 0⟩, ⟨["t", "x"], ND.ofList [3, 2] [1, 2, 3, 4, 5, 6] 0⟩⟩

/-- centers along `x`, and outputs which do not depend on `y` -/
def exPoints : FA Nat Nat :=
  ⟨⟨["x", "y"], ND.ofList [2, 2] [10, 20, 30, 40] 0⟩, ⟨["x"], ND.ofList [2] [1, 2] 0⟩⟩

/-- The shapes and the elements of a function, for examples. -/
def show' (r : R (FA Nat Nat)) : R (Shape × List Nat × Shape × List Nat) :=
  r.map (fun g => (g.inputs.shape, g.inputs.nd.toList, g.outputs.shape, g.outputs.nd.toList))

theorem fine_exCells : exCells.Fine := by
  refine ⟨⟨by decide, by decide⟩, ?_⟩
  rintro ax ⟨m, n, h1, h2, h3, h4, h5, h6⟩
  have hs : exCells.inputs.shape = [("x", 3)] := by decide
  rw [hs, get?_cons] at h1
  split at h1
  · next hx =>
    injection h1 with h1
    have hx' : ax = "x" := hx.symm
    subst hx'
    have ho : get? exCells.outputs.shape "x" = some 2 := by decide
    rw [ho] at h2
    injection h2 with h2
    omega
  · cases h1

/-- The hypotheses are met by `exCells`, which is on vertices along `x` only. -/
example : exCells.Vertex "x" ∧ ¬ exCells.Vertex "t" ∧ exCells.shape = .ok [("t", 3), ("x", 2)] := by
  refine ⟨⟨2, by decide, by decide⟩, ?_, by decide⟩
  rintro ⟨n, h, _⟩
  revert h
  have : get? exCells.inputs.shape "t" = none := by decide
  rw [this]
  intro h
  cases h
example : show' exCells.broadcasted =
    .ok ([("t", 3), ("x", 3)], [10, 20, 30, 10, 20, 30, 10, 20, 30], [("t", 3), ("x", 2)], [1, 2, 3, 4, 5, 6]) := by
  decide
example : show' (exCells.transpose none) =
    .ok ([("x", 3), ("t", 3)], [10, 10, 10, 20, 20, 20, 30, 30, 30], [("x", 2), ("t", 3)], [1, 3, 5, 2, 4, 6]) := by
  decide
example : show' (exCells.broadcastTo [("y", 1), ("x", 2), ("t", 3)]) =
    .ok ([("y", 1), ("x", 3), ("t", 3)], [10, 10, 10, 20, 20, 20, 30, 30, 30],
      [("y", 1), ("x", 2), ("t", 3)], [1, 3, 5, 2, 4, 6]) := by decide
example : (exCells.reshape [("z", 6)]).isOk = false := by decide
example : show' (exPoints.reshape [("z", 4)]) = .ok ([("z", 4)], [10, 20, 30, 40], [("z", 4)], [1, 1, 2, 2]) := by decide
example : show' (exCells.repeat' ⟨[], ND.scalar 2⟩ "t") =
    .ok ([("t", 6), ("x", 3)], [10, 20, 30, 10, 20, 30, 10, 20, 30, 10, 20, 30, 10, 20, 30, 10, 20, 30],
      [("t", 6), ("x", 2)], [1, 2, 1, 2, 3, 4, 3, 4, 5, 6, 5, 6]) := by decide
example : show' (exPoints.takeAlongAxis ⟨["y"], ND.ofList [2] [1, 0] 0⟩ "y") =
    .ok ([("y", 2), ("x", 2)], [20, 40, 10, 30], [("y", 2), ("x", 2)], [1, 2, 1, 2]) := by decide
example : show' (stack [exPoints, exPoints] "s") =
    .ok ([("s", 2), ("x", 2), ("y", 2)], [10, 20, 30, 40, 10, 20, 30, 40], [("s", 2), ("x", 2)], [1, 2, 1, 2]) := by
  decide
example : show' (concatenate [exPoints, exPoints] "y") =
    .ok ([("x", 2), ("y", 4)], [10, 20, 10, 20, 30, 40, 30, 40], [("x", 2), ("y", 4)], [1, 1, 1, 1, 2, 2, 2, 2]) := by
  decide
example : show' (exCells.moveaxis ["x", "t"] ["z", "x"]) =
    .ok ([("z", 3)], [10, 20, 30], [("x", 3), ("z", 2)], [1, 2, 3, 4, 5, 6]) := by decide
/-- renaming the time axis of `exCells` raises -/
example : exCells.moveaxis ["t"] ["time"] = .error .valueError :=
  C74_moveaxis_refuted exCells fine_exCells _ _ (Or.inl (by decide))

/-- **C74 is false of the code** for `np.stack`: the sizes of the inputs of one function and of the outputs of
another are not compared.  Two functions with the sizes 3 and 2 along `x`, which do not broadcast, are stacked to a
function which is on vertices along `x`. -/
theorem C74_stack_sizes_refuted : ∃ f g : FA Nat Nat, f.Fine ∧ g.Fine ∧
    f.shape = .ok [("x", 3)] ∧ g.shape = .ok [("x", 2)] ∧ ¬ f.Vertex "x" ∧ ¬ g.Vertex "x" ∧
    ∃ r, stack [f, g] "s" = .ok r ∧ r.Vertex "x" := by
  have hx : ∀ (i : SA Nat) (o : SA Nat), i.WF → o.WF → (i.axes = [] ∨ o.axes = []) → (FA.mk i o).Fine ∧
      ¬ (FA.mk i o).Vertex "x" := by
    intro i o hi ho h
    constructor
    · refine ⟨⟨hi, ho⟩, ?_⟩
      rintro ax ⟨m, n, h1, h2, _⟩
      have k1 := mem_keys_of_get? h1
      have k2 := mem_keys_of_get? h2
      rw [SA.keys_shape hi] at k1
      rw [SA.keys_shape ho] at k2
      rcases h with h | h
      · rw [h] at k1; cases k1
      · rw [h] at k2; cases k2
    · rintro ⟨n, h1, h2⟩
      have k1 := mem_keys_of_get? h1
      have k2 := mem_keys_of_get? h2
      rw [SA.keys_shape hi] at k1
      rw [SA.keys_shape ho] at k2
      rcases h with h | h
      · rw [h] at k1; cases k1
      · rw [h] at k2; cases k2
  refine ⟨⟨⟨["x"], ND.ofList [3] [10, 20, 30] 0⟩, ⟨[], ND.scalar 7⟩⟩,
    ⟨⟨[], ND.scalar 5⟩, ⟨["x"], ND.ofList [2] [1, 2] 0⟩⟩, (hx _ _ (by decide) (by decide) (by decide)).1,
    (hx _ _ (by decide) (by decide) (by decide)).1, by decide, by decide,
    (hx _ _ (by decide) (by decide) (by decide)).2, (hx _ _ (by decide) (by decide) (by decide)).2, ?_⟩
  have h : (stack [(⟨⟨["x"], ND.ofList [3] [10, 20, 30] 0⟩, ⟨[], ND.scalar 7⟩⟩ : FA Nat Nat),
      ⟨⟨[], ND.scalar 5⟩, ⟨["x"], ND.ofList [2] [1, 2] 0⟩⟩] "s").map
        (fun g => (get? g.inputs.shape "x", get? g.outputs.shape "x")) = .ok (some 3, some 2) := by decide
  revert h
  generalize stack [(⟨⟨["x"], ND.ofList [3] [10, 20, 30] 0⟩, ⟨[], ND.scalar 7⟩⟩ : FA Nat Nat),
      ⟨⟨[], ND.scalar 5⟩, ⟨["x"], ND.ofList [2] [1, 2] 0⟩⟩] "s" = r
  intro h
  cases r with
  | error e => cases h
  | ok r =>
    injection h with h
    injection h with h1 h2
    exact ⟨r, rfl, 2, h1, h2⟩

end FA
end NA
