import Verif.Transform.Typed
import Verif.Props.Inverses

/-!
# C42, C43, C44: transformations

`SameVec val y z` says that two vectors have the same class and layout and the same values; for numbers they are then
equal (`C42_numbers` in `TransformNumbers`), for named arrays they agree at each named index (`C42_named`).
-/

namespace NA
open Dict Comp
open SA (FitsIn InRange)
variable {α K : Type}

theorem SameVec.rfl' [Zero K] {val : α → K} (v : Vec α) : SameVec val v v := ⟨rfl, rfl, fun _ => rfl⟩
theorem SameVec.symm [Zero K] {val : α → K} {v w : Vec α} (h : SameVec val v w) : SameVec val w v :=
  ⟨h.1.symm, h.2.1.symm, fun c => (h.2.2 c).symm⟩
theorem SameVec.trans [Zero K] {val : α → K} {u v w : Vec α} (h : SameVec val u v) (h' : SameVec val v w) :
    SameVec val u w := ⟨h.1.trans h'.1, h.2.1.trans h'.2.1, fun c => (h.2.2 c).trans (h'.2.2 c)⟩

section general
variable [CommRing K] {o : Ops α} {dv : K → K → K} {good : α → Prop} {val : α → K} {τ σ μ : Comp Unit}

/-- `t.composed` is `s`, which takes the same vectors to the same vectors as the members one by one -/
def Composes (o : Ops α) (good : α → Prop) (val : α → K) (τ σ : Comp Unit) (s : Simple α) (f : Vec α → R (Vec α)) :
    Prop :=
  s.Typed good τ σ ∧ ∀ x, IsV good τ x → ∃ y z, s.call o x = .ok y ∧ f x = .ok z ∧ IsV good σ y ∧ IsV good σ z ∧
    SameVec val y z

theorem Composes.same (ho : o.Sound dv good val) {s : Simple α} {f : Vec α → R (Vec α)} (h : Composes o good val τ σ s f)
    {x x' : Vec α} (hx : IsV good τ x) (hx' : IsV good τ x') (hs : SameVec val x x') :
    ∃ y z, s.call o x = .ok y ∧ f x' = .ok z ∧ IsV good σ y ∧ IsV good σ z ∧ SameVec val y z := by
  obtain ⟨y, z, h1, h2, h3, h4, h5⟩ := h.2 x hx
  obtain ⟨y', z', g1, g2, g3, g4, g5⟩ := h.2 x' hx'
  exact ⟨y, z', h1, g2, h3, g4, (Simple.call_same ho h.1 hx hx' hs h1 g1).trans g5⟩

theorem Composes.matmul (ho : o.Sound dv good val) {s acc : Simple α} {f g : Vec α → R (Vec α)}
    (hg : Composes o good val τ μ acc g) (hf : Composes o good val μ σ s f) :
    ∃ h, s.matmul o acc = .ok h ∧ Composes o good val τ σ h (fun x => do f (← g x)) := by
  obtain ⟨h, h1, h2, -⟩ := Simple.matmul_ok ho hg.1 hf.1
  refine ⟨h, h1, h2, fun x hx => ?_⟩
  obtain ⟨h', u, y, z, g1, -, g2, g3, g4, g5, g6, g7, g8⟩ := Simple.call_matmul ho hg.1 hf.1 hx
  rw [h1] at g1; cases g1
  obtain ⟨u', v, a1, a2, a3, a4, a5⟩ := hg.2 x hx
  rw [g2] at a1; cases a1
  obtain ⟨y', w, b1, b2, b3, b4, b5⟩ := hf.same ho g5 a4 a5
  rw [g3] at b1; cases b1
  exact ⟨z, w, g4, by simp only [a2, bind, Except.bind, b2], g7, b4, g8.trans b5⟩

mutual
theorem composed_ok (ho : o.Sound dv good val) : (t : Tr α) → ∀ {τ σ : Comp Unit}, t.Typed good τ σ →
    ∃ s, t.composed o = .ok s ∧ Composes o good val τ σ s (t.apply o)
  | .simple s, τ, σ, h => by
    refine ⟨s, by simp only [Tr.composed], h, fun x hx => ?_⟩
    obtain ⟨y, y1, y2, -⟩ := Simple.call_ok ho h hx
    exact ⟨y, y, y1, by simp only [Tr.apply]; exact y1, y2, y2, SameVec.rfl' y⟩
  | .list true ts, τ, σ, h => by
    obtain ⟨s, h1, h2⟩ := composeFwd_ok ho ts (τ := τ) (μ := τ) (σ := σ) (acc := .identity) (g := fun x => .ok x)
      ⟨rfl, fun x hx => ⟨x, x, rfl, rfl, hx, hx, SameVec.rfl' x⟩⟩ (by simpa only [Tr.Typed] using h)
    refine ⟨s, by simp only [Tr.composed]; exact h1, ?_⟩
    have : Tr.apply o (.list true ts) = (fun x => do Tr.applyFwd o ts (← (Except.ok x : R (Vec α)))) := by
      funext x; simp only [Tr.apply, bind, Except.bind]
    rw [this]
    exact h2
  | .list false ts, τ, σ, h => by
    obtain ⟨s, h1, h2⟩ := composeRev_ok ho ts (by simpa only [Tr.Typed] using h)
    refine ⟨s, by simp only [Tr.composed]; exact h1, ?_⟩
    have : Tr.apply o (.list false ts) = Tr.applyRev o ts := by
      funext x; simp only [Tr.apply]
    rw [this]
    exact h2
theorem composeFwd_ok (ho : o.Sound dv good val) : (ts : List (Tr α)) → ∀ {τ μ σ : Comp Unit} {acc : Simple α}
    {g : Vec α → R (Vec α)}, Composes o good val τ μ acc g → Tr.TypedFwd good ts μ σ →
    ∃ s, Tr.composeFwd o acc ts = .ok s ∧ Composes o good val τ σ s (fun x => do Tr.applyFwd o ts (← g x))
  | [], τ, μ, σ, acc, g, hg, h => by
    simp only [Tr.TypedFwd] at h
    subst h
    refine ⟨acc, by simp only [Tr.composeFwd], hg.1, fun x hx => ?_⟩
    obtain ⟨y, z, h1, h2, h3⟩ := hg.2 x hx
    exact ⟨y, z, h1, by simp only [h2, bind, Except.bind, Tr.applyFwd], h3⟩
  | t :: ts, τ, μ, σ, acc, g, hg, h => by
    simp only [Tr.TypedFwd] at h
    obtain ⟨μ', h1, h2⟩ := h
    obtain ⟨s, s1, s2⟩ := composed_ok ho t h1
    obtain ⟨acc', a1, a2⟩ := hg.matmul ho s2
    obtain ⟨r, r1, r2⟩ := composeFwd_ok ho ts a2 h2
    refine ⟨r, by simp only [Tr.composeFwd, s1, bind, Except.bind, a1, r1], ?_⟩
    have : (fun x => do Tr.applyFwd o (t :: ts) (← g x)) =
        (fun x => do Tr.applyFwd o ts (← (do t.apply o (← g x) : R (Vec α)))) := by
      funext x
      simp only [bind, Except.bind]
      cases g x with
      | error e => rfl
      | ok u => simp only [Tr.applyFwd, bind, Except.bind]
    rw [this]
    exact r2
theorem composeRev_ok (ho : o.Sound dv good val) : (ts : List (Tr α)) → ∀ {τ σ : Comp Unit}, Tr.TypedRev good ts τ σ →
    ∃ s, Tr.composeRev o ts = .ok s ∧ Composes o good val τ σ s (Tr.applyRev o ts)
  | [], τ, σ, h => by
    simp only [Tr.TypedRev] at h
    subst h
    exact ⟨.identity, by simp only [Tr.composeRev], rfl, fun x hx =>
      ⟨x, x, rfl, by simp only [Tr.applyRev], hx, hx, SameVec.rfl' x⟩⟩
  | t :: ts, τ, σ, h => by
    simp only [Tr.TypedRev] at h
    obtain ⟨μ, h1, h2⟩ := h
    obtain ⟨r, r1, r2⟩ := composeRev_ok ho ts h1
    obtain ⟨s, s1, s2⟩ := composed_ok ho t h2
    obtain ⟨acc', a1, a2⟩ := r2.matmul ho s2
    refine ⟨acc', by simp only [Tr.composeRev, r1, s1, bind, Except.bind, a1], ?_⟩
    have : Tr.applyRev o (t :: ts) = (fun x => do t.apply o (← Tr.applyRev o ts x)) := by
      funext x; simp only [Tr.applyRev]
    rw [this]
    exact a2
end

/-- **C44** Applying a transformation (a list of any length, nested to any depth) is applying the members one by one. -/
theorem C44_list (ho : o.Sound dv good val) (t : Tr α) (ht : t.Typed good τ σ) {x : Vec α} (hx : IsV good τ x) :
    ∃ y z, t.call o x = .ok y ∧ t.apply o x = .ok z ∧ IsV good σ y ∧ IsV good σ z ∧ SameVec val y z := by
  obtain ⟨s, h1, -, h2⟩ := composed_ok ho t ht
  obtain ⟨y, z, h3, h4⟩ := h2 x hx
  exact ⟨y, z, by simp only [Tr.call, h1, bind, Except.bind, h3], h4⟩

/-- **C44** The order in which the members are applied: an intrinsic list applies the first member first. -/
theorem C44_intrinsic (o : Ops α) (ts : List (Tr α)) (x : Vec α) :
    (Tr.list true ts).apply o x = ts.foldlM (fun x t => t.apply o x) x := by
  simp only [Tr.apply]
  induction ts generalizing x with
  | nil => simp only [Tr.applyFwd, List.foldlM]; rfl
  | cons t ts ih =>
    simp only [Tr.applyFwd, List.foldlM]
    cases t.apply o x with
    | error e => rfl
    | ok u => exact ih u

/-- **C44** ... and the other lists apply the last member first. -/
theorem C44_extrinsic (o : Ops α) (ts : List (Tr α)) (x : Vec α) :
    (Tr.list false ts).apply o x = ts.reverse.foldlM (fun x t => t.apply o x) x := by
  simp only [Tr.apply]
  induction ts generalizing x with
  | nil => simp only [Tr.applyRev, List.foldlM, List.reverse_nil]; rfl
  | cons t ts ih =>
    rw [List.reverse_cons, List.foldlM_append, ← ih]
    simp only [Tr.applyRev, List.foldlM]
    cases Tr.applyRev o ts x with
    | error e => rfl
    | ok u =>
      simp only [bind, Except.bind]
      cases t.apply o u <;> rfl

/-- **C42** `(f @ g)(x)` is `f(g(x))`. -/
theorem C42_compose (ho : o.Sound dv good val) (f g : Tr α) (hg : g.Typed good τ μ) (hf : f.Typed good μ σ) :
    ∃ h, f.matmul o g = .ok h ∧ h.Typed good τ σ ∧ ∀ x, IsV good τ x → ∃ u y z, g.call o x = .ok u ∧
      f.call o u = .ok y ∧ h.call o x = .ok z ∧ IsV good μ u ∧ IsV good σ y ∧ SameVec val z y := by
  obtain ⟨sf, f1, f2, -⟩ := composed_ok ho f hf
  obtain ⟨sg, g1, g2, -⟩ := composed_ok ho g hg
  obtain ⟨sh, h1, h2, -⟩ := Simple.matmul_ok ho g2 f2
  have hcall : ∀ x, IsV good τ x → ∃ u y z, g.call o x = .ok u ∧
      f.call o u = .ok y ∧ sh.call o x = .ok z ∧ IsV good μ u ∧ IsV good σ y ∧ SameVec val z y := by
    intro x hx
    obtain ⟨sh', u, y, z, a1, -, a2, a3, a4, a5, a6, -, a8⟩ := Simple.call_matmul ho g2 f2 hx
    rw [h1] at a1; cases a1
    exact ⟨u, y, z, by simp only [Tr.call, g1, bind, Except.bind, a2], by simp only [Tr.call, f1, bind, Except.bind, a3],
      a4, a5, a6, a8⟩
  by_cases hid : sf = .identity
  · subst hid
    cases f2
    simp only [Simple.matmul, Except.ok.injEq] at h1
    subst h1
    refine ⟨g, by simp only [Tr.matmul, f1, bind, Except.bind, Tr.matmulSimple], hg, fun x hx => ?_⟩
    obtain ⟨u, y, z, b1, b2, b3, b4⟩ := hcall x hx
    exact ⟨u, y, z, b1, b2, by simp only [Tr.call, g1, bind, Except.bind, b3], b4⟩
  · refine ⟨.simple sh, ?_, by simpa only [Tr.Typed] using h2, fun x hx => ?_⟩
    · simp only [Tr.matmul, f1, bind, Except.bind]
      cases sf with
      | identity => exact absurd rfl hid
      | _ => simp only [Tr.matmulSimple, g1, bind, Except.bind, h1]
    · obtain ⟨u, y, z, b1, b2, b3, b4⟩ := hcall x hx
      exact ⟨u, y, z, b1, b2, by simp only [Tr.call, Tr.composed, bind, Except.bind, b3], b4⟩

/-- `transformation(x)`, where `None` is the identity -/
def callOption (o : Ops α) : Option (Tr α) → Vec α → R (Vec α)
  | none, x => .ok x
  | some t, x => t.call o x

/-- **C42** `compose(f, g)` composes the functions; `None` is the identity. -/
theorem C42_compose_none (ho : o.Sound dv good val) (f g : Option (Tr α))
    (hg : match g with | none => τ = μ | some g => g.Typed good τ μ)
    (hf : match f with | none => μ = σ | some f => f.Typed good μ σ) :
    ∃ h, Tr.compose o f g = .ok h ∧ (h = none ↔ f = none ∧ g = none) ∧ ∀ x, IsV good τ x → ∃ u y z,
      callOption o g x = .ok u ∧ callOption o f u = .ok y ∧ callOption o h x = .ok z ∧ IsV good σ y ∧ SameVec val z y := by
  cases f with
  | none =>
    simp only at hf
    subst hf
    refine ⟨g, rfl, by simp, fun x hx => ?_⟩
    cases g with
    | none =>
      simp only at hg
      subst hg
      exact ⟨x, x, x, rfl, rfl, rfl, hx, SameVec.rfl' x⟩
    | some g =>
      obtain ⟨y, _, h1, -, h2, -⟩ := C44_list ho g hg hx
      exact ⟨y, y, y, h1, rfl, h1, h2, SameVec.rfl' y⟩
  | some f =>
    cases g with
    | none =>
      simp only at hg
      subst hg
      refine ⟨some f, rfl, by simp, fun x hx => ?_⟩
      obtain ⟨y, _, h1, -, h2, -⟩ := C44_list ho f hf hx
      exact ⟨x, y, y, rfl, h1, h1, h2, SameVec.rfl' y⟩
    | some g =>
      obtain ⟨h, h1, -, h2⟩ := C42_compose ho f g hg hf
      refine ⟨some h, by simp only [Tr.compose, h1, bind, Except.bind], by simp, fun x hx => ?_⟩
      obtain ⟨u, y, z, a1, a2, a3, -, a5, a6⟩ := h2 x hx
      exact ⟨u, y, z, a1, a2, a3, a5, a6⟩

/-- **C42** Composition is associative (as functions). -/
theorem C42_assoc (ho : o.Sound dv good val) {ρ : Comp Unit} (f g k : Tr α) (hk : k.Typed good τ μ) (hg : g.Typed good μ σ)
    (hf : f.Typed good σ ρ) : ∃ fg gk l r, f.matmul o g = .ok fg ∧ g.matmul o k = .ok gk ∧ fg.matmul o k = .ok l ∧
      f.matmul o gk = .ok r ∧ ∀ x, IsV good τ x → ∃ y z, l.call o x = .ok y ∧ r.call o x = .ok z ∧ SameVec val y z := by
  obtain ⟨fg, a1, a2, a3⟩ := C42_compose ho f g hg hf
  obtain ⟨gk, b1, b2, b3⟩ := C42_compose ho g k hk hg
  obtain ⟨l, c1, c2, c3⟩ := C42_compose ho fg k hk a2
  obtain ⟨r, d1, d2, d3⟩ := C42_compose ho f gk b2 hf
  refine ⟨fg, gk, l, r, a1, b1, c1, d1, fun x hx => ?_⟩
  obtain ⟨u, y, z, e1, e2, e3, e4, e5, e6⟩ := c3 x hx
  obtain ⟨v, y', z', f1, f2, f3, f4, f5, f6⟩ := a3 u e4
  rw [e2] at f3; cases f3
  obtain ⟨v', y2, z2, g1, g2, g3, g4, g5, g6⟩ := d3 x hx
  obtain ⟨u', y3, z3, h1, h2, h3, h4, h5, h6⟩ := b3 x hx
  rw [e1] at h1; cases h1
  rw [f1] at h2; cases h2
  rw [g1] at h3; cases h3
  refine ⟨z, z2, e3, g3, ?_⟩
  obtain ⟨sf, s1, s2, -⟩ := composed_ok ho f hf
  simp only [Tr.call, s1, bind, Except.bind] at f2 g2
  exact e6.trans (f6.trans ((Simple.call_same ho s2 f4 g4 h6.symm f2 g2).trans g6.symm))

end general

end NA
