import Verif.Props.VectorStructure
import Verif.Props.UncertainAlong
import Verif.Props.VectorSet
import Verif.Vector.Along
import Mathlib.Tactic.IntervalCases

/-!
# C85: percentiles, Fourier transforms, sorting and limits of vectors
-/

namespace NA
open Dict
open SA (FitsIn InRange)
namespace Comp
variable {α β γ κ ρ : Type}

/-! ### Helpers -/

/-- What is known about the components of a vector of known shape. -/
theorem node_part {cls : String} {cs : List (String × Comp (SA α))} (hw : (Comp.node cls cs).WFLeaves)
    (hf : (Comp.node cls cs).Full) {T : Shape} (hT : (Comp.node cls cs).shape = .ok T) {p : String × Comp (SA α)} (hp : p ∈ cs) :
    (∀ a ∈ p.2.leaves, a ∈ (Comp.node cls cs).leaves) ∧ p.2.WFLeaves ∧ p.2.Full ∧ ∃ Sc, p.2.shape = .ok Sc ∧ FitsIn Sc T := by
  have hpl : ∀ a ∈ p.2.leaves, a ∈ (Comp.node cls cs).leaves := fun a ha => by
    simp only [leaves]; exact mem_leavesL.2 ⟨p, hp, ha⟩
  simp only [Full, fullL_iff] at hf
  refine ⟨hpl, fun a ha => hw a (hpl a ha), hf.2 p hp, ?_⟩
  simp only [shape, bind, Except.bind] at hT
  cases hsh : Comp.shapes cs with
  | error e => rw [hsh] at hT; simp at hT
  | ok ss =>
    rw [hsh] at hT
    simp only at hT
    rw [shapes_ok] at hsh
    obtain ⟨i, hi, rfl⟩ := List.mem_iff_getElem.1 hp
    have hl := hsh.length_eq
    have h1 := hsh.get (i := i) hi (by omega)
    refine ⟨_, h1, ?_⟩
    have hssw : ∀ s ∈ ss, WF s := by
      intro s hs
      obtain ⟨j, hj, rfl⟩ := List.mem_iff_getElem.1 hs
      refine shape_wf _ ?_ _ (hsh.get (i := j) (by omega) hj)
      intro a ha
      exact hw a (by simp only [leaves]; exact mem_leavesL.2 ⟨_, List.get_mem _ _, ha⟩)
    obtain ⟨_, h2, h3⟩ := C01_broadcast_shapes_ok ss hssw T hT
    intro ax m hm
    have hin : ss[i]'(by omega) ∈ ss := List.getElem_mem _
    obtain ⟨k, hk⟩ := exists_get?_of_mem ((h2 ax).2 ⟨_, hin, mem_keys_of_get? hm⟩)
    exact ⟨k, hk, (h3 ax k hk).2 m ⟨_, hin, hm⟩⟩

theorem mapM_of_forall₂ {ι κ : Type} {f : ι → R κ} {l : List ι} {m : List κ} (h : List.Forall₂ (fun x y => f x = .ok y) l m) :
    l.mapM f = .ok m := by
  induction h with
  | nil => rfl
  | cons h1 _ ih => rw [List.mapM_cons, h1, ih]; rfl

theorem broadcastAlong_trans {S : Shape} {A : List String} {a b a' : SA α}
    (h : a.WF ∧ b.WF ∧ FitsIn a.shape b.shape ∧ ∀ e, b.atB e = a.atB e) (h' : BroadcastAlong S A b a') : BroadcastAlong S A a a' := by
  obtain ⟨_, _, h1, h2⟩ := h
  obtain ⟨h3, h4, h5, h6, h7⟩ := h'
  exact ⟨h3, fun e => (h4 e).trans (h2 e), h5, fitsIn_trans h1 h6, h7⟩

/-- A component of a vector of shape `T`, broadcast along the axes concerned. -/
theorem part_ok {S : Shape} {A : List String} (hA : A ⊆ keys S) {cls : String} {cs : List (String × Comp (SA α))}
    (hw : (Comp.node cls cs).WFLeaves)
    (hf : (Comp.node cls cs).Full) {T : Shape} (hT : (Comp.node cls cs).shape = .ok T) (hTS : FitsIn T S)
    (hTA : ∀ ax ∈ A, get? T ax = get? S ax) {A' : List String} (hAA : ∀ ax, ax ∈ A' ↔ ax ∈ A) {n : Nat}
    (hn : (Comp.node cls cs).depth ≤ n + 1) {p : String × Comp (SA α)} (hp : p ∈ cs) :
    ∃ c' T', broadcastBase (shapeBase T A') p.2 = .ok c' ∧ c'.depth ≤ n ∧ c'.WFLeaves ∧ c'.Full ∧ c'.shape = .ok T' ∧ FitsIn T' S ∧
      (∀ ax ∈ A, get? T' ax = get? S ax) ∧
      p.2.Lift (fun a a' => a.WF ∧ a'.WF ∧ FitsIn a.shape a'.shape ∧ ∀ e, a'.atB e = a.atB e) c' := by
  obtain ⟨_, h1, h2, Sc, h3, h4⟩ := node_part hw hf hT hp
  have hTw := shape_wf _ hw T hT
  have hA'T : A' ⊆ keys T := by
    intro ax h
    have h1 := (hAA ax).1 h
    obtain ⟨k, hk⟩ := exists_get?_of_mem (hA h1)
    exact mem_keys_of_get? ((hTA ax h1).trans hk)
  obtain ⟨c', T', hb, hw', hf', hT', hT'w, hT'T, hT'A, hl'⟩ := broadcastBase_ok h1 h2 hTw h3 h4 hA'T
  refine ⟨c', T', hb, ?_, hw', hf', hT', fitsIn_trans hT'T hTS, fun ax h => ?_, hl'⟩
  · rw [← lift_depth _ _ hl']
    simp only [depth] at hn
    have := depth_le_of_mem hp
    omega
  · rw [hT'A ax ((hAA ax).2 h), hTA ax h]

/-- The common scheme, errors: if the function for scalars raises the same exception whenever it fails, and it fails for one of the scalars,
the exception is raised. -/
theorem deepAux_error (axesOf : Shape → R (List String)) (op : SA α → R (SA β)) (S : Shape)
    (A : List String) (hA : A ⊆ keys S)
    (hax : ∀ T, WF T → FitsIn T S → (∀ ax ∈ A, get? T ax = get? S ax) →
      ∃ A', axesOf T = .ok A' ∧ ∀ ax, ax ∈ A' ↔ ax ∈ A)
    (n : Nat) (c : Comp (SA α)) (hn : c.depth ≤ n) (hw : c.WFLeaves) (hf : c.Full) (T : Shape)
    (hT : c.shape = .ok T) (hTS : FitsIn T S) (hTA : ∀ ax ∈ A, get? T ax = get? S ax) (err : Err)
    (hop : ∀ a ∈ c.leaves, ∀ a', BroadcastAlong S A a a' → (∃ ra, op a' = .ok ra) ∨ op a' = .error err) :
    ((∃ r, deepAux axesOf op n c = .ok r) ∨ deepAux axesOf op n c = .error err) ∧
    ((∃ a ∈ c.leaves, ∀ a', BroadcastAlong S A a a' → op a' = .error err) → deepAux axesOf op n c = .error err) := by
  induction n generalizing c T with
  | zero => have := depth_pos c; omega
  | succ n ih =>
    cases c with
    | leaf a =>
      simp only [shape, Except.ok.injEq] at hT
      have haw := hw a (by simp [leaves])
      have hb : BroadcastAlong S A a a :=
        ⟨haw, fun _ => rfl, by rw [hT]; exact hTS, fitsIn_refl _, by rw [hT]; exact hTA⟩
      refine ⟨?_, ?_⟩
      · rcases hop a (by simp [leaves]) a hb with ⟨ra, hra⟩ | hra
        · exact .inl ⟨.leaf ra, by simp [deepAux, hra, bind, Except.bind]⟩
        · exact .inr (by simp [deepAux, hra, bind, Except.bind])
      · rintro ⟨b, hb', h⟩
        simp only [leaves, List.mem_singleton] at hb'
        subst hb'
        simp [deepAux, h b hb, bind, Except.bind]
    | node cls cs =>
      have hTw := shape_wf _ hw T hT
      obtain ⟨A', hA', hAA⟩ := hax T hTw hTS hTA
      have key : ∀ p ∈ cs, ((∃ q : String × Comp (SA β),
          (do let c ← broadcastBase (shapeBase T A') p.2
              let r ← deepAux axesOf op n c
              Except.ok (p.1, r) : R (String × Comp (SA β))) = .ok q) ∨
          (do let c ← broadcastBase (shapeBase T A') p.2
              let r ← deepAux axesOf op n c
              Except.ok (p.1, r) : R (String × Comp (SA β))) = .error err) ∧
          ((∃ a ∈ p.2.leaves, ∀ a', BroadcastAlong S A a a' → op a' = .error err) →
          (do let c ← broadcastBase (shapeBase T A') p.2
              let r ← deepAux axesOf op n c
              Except.ok (p.1, r) : R (String × Comp (SA β))) = .error err) := by
        intro p hp
        obtain ⟨c', T', h1, h2, h3, h4, h5, h6, h7, h8⟩ := part_ok hA hw hf hT hTS hTA hAA hn hp
        have hfor := lift_leaves _ _ h8
        have hlen := hfor.length_eq
        have hpl := (node_part hw hf hT hp).1
        obtain ⟨g1, g2⟩ := ih c' h2 h3 h4 T' h5 h6 h7 (by
          intro b hb' a' ha'
          obtain ⟨i, hi, rfl⟩ := List.mem_iff_getElem.1 hb'
          have h1 := hfor.get (i := i) (by omega) hi
          exact hop _ (hpl _ (List.get_mem _ ⟨i, by omega⟩)) a' (broadcastAlong_trans h1 ha'))
        refine ⟨?_, ?_⟩
        · rcases g1 with ⟨r, hr⟩ | hr
          · exact .inl ⟨(p.1, r), by simp [h1, hr, bind, Except.bind]⟩
          · exact .inr (by simp [h1, hr, bind, Except.bind])
        · rintro ⟨a, ha, hbad⟩
          obtain ⟨i, hi, rfl⟩ := List.mem_iff_getElem.1 ha
          have h9 := hfor.get (i := i) hi (by omega)
          have := g2 ⟨_, List.get_mem _ ⟨i, by omega⟩, fun a' ha' => hbad a' (broadcastAlong_trans h9 ha')⟩
          simp [h1, this, bind, Except.bind]
      obtain ⟨m1, m2⟩ := mapM_outcome (fun p hp => (key p hp).1)
      have hrun : deepAux axesOf op (n + 1) (.node cls cs) = (do
          let rs ← cs.mapM (fun p => do
            let c ← broadcastBase (shapeBase T A') p.2
            let r ← deepAux axesOf op n c
            Except.ok (p.1, r) : _ → R (String × Comp (SA β)))
          .ok (.node cls rs)) := by
        simp only [deepAux, hT, hA', bind, Except.bind]
      rw [hrun]
      refine ⟨?_, ?_⟩
      · rcases m1 with ⟨m, hm⟩ | hm
        · exact .inl ⟨.node cls m, by rw [hm]; rfl⟩
        · exact .inr (by rw [hm]; rfl)
      · rintro ⟨a, ha, hbad⟩
        simp only [leaves] at ha
        obtain ⟨p, hp, hap⟩ := mem_leavesL.1 ha
        rw [m2 ⟨p, hp, (key p hp).2 ⟨a, hap, hbad⟩⟩]
        rfl

/-! ### Percentiles -/

theorem dictsL_iff {cs : List (String × Comp γ)} : DictsL cs ↔ ∀ p ∈ cs, p.2.Dicts := by
  induction cs with
  | nil => simp [DictsL]
  | cons p l ih => obtain ⟨k, c⟩ := p; simp [DictsL, ih]

theorem lift_dicts {P : γ → ρ → Prop} : ∀ (x : Comp γ) (y : Comp ρ), x.Lift P y → x.Dicts → y.Dicts := by
  refine ind ?_ ?_
  · rintro a (b | _) h1 h2
    · trivial
    · simp [Lift] at h1
  · rintro cls cs ih (b | ⟨cls', cs'⟩) h1 h2
    · trivial
    · simp only [Lift, liftL_iff] at h1
      simp only [Dicts, dictsL_iff] at h2 ⊢
      have hfor := h1.2
      have hk : keys cs' = keys cs := by
        clear * - hfor
        induction hfor with
        | nil => rfl
        | cons h1 _ ih => simp only [keys, List.map_cons] at ih ⊢; rw [h1.1, ih]
      refine ⟨by unfold WF; rw [hk]; exact h2.1, fun p hp => ?_⟩
      obtain ⟨i, hi, rfl⟩ := List.mem_iff_getElem.1 hp
      have hlen := hfor.length_eq
      have h3 := hfor.get (i := i) (by omega) hi
      exact ih _ (List.get_mem _ ⟨i, by omega⟩) _ h3.2 (h2.2 _ (List.get_mem _ ⟨i, by omega⟩))

theorem exists_leafAt : ∀ (c : Comp γ), c.Full → ∃ p a, c.leafAt p = some a := by
  refine ind ?_ ?_
  · intro a _; exact ⟨[], a, rfl⟩
  · intro cls cs ih hf
    simp only [Full, fullL_iff] at hf
    cases cs with
    | nil => exact absurd rfl hf.1
    | cons q l =>
      obtain ⟨p, a, h⟩ := ih q (by simp) (hf.2 q (by simp))
      exact ⟨q.1 :: p, a, by simp only [leafAt, get?_cons, if_true]; exact h⟩

/-- a scalar `q`: the common scheme -/
theorem percentileAux_leaf (valid : κ → Bool) (pct : κ → List α → β) (axis : Option (List String)) (kd : Bool) (q : SA κ) (n : Nat)
    (c : Comp (SA α)) : percentileAux valid pct axis kd n (.leaf q) c =
      deepAux (reduceAxes axis) (fun a => a.percentileLike valid pct q axis kd none) n c := by
  induction n generalizing c with
  | zero => cases c <;> rfl
  | succ n ih =>
    cases c with
    | leaf a => rfl
    | node cls cs =>
      simp only [percentileAux, deepAux, componentQ, ih, bind, Except.bind]

/-- The component of `q` for the component `k`. -/
theorem componentQ_ok {q : Comp (SA κ)} {k : String} {p : List String} {b : SA κ} (h : q.leafB (k :: p) = some b) :
    ∃ qc, componentQ k q = .ok qc ∧ ∀ p', qc.leafB p' = q.leafB (k :: p') := by
  cases q with
  | leaf q => exact ⟨.leaf q, rfl, fun p' => by rw [leafB_leaf, leafB_leaf]⟩
  | node _ qs =>
    simp only [leafB] at h
    cases hg : get? qs k with
    | none => rw [hg] at h; cases h
    | some qc =>
      exact ⟨qc, by simp only [componentQ, hg], fun p' => by simp only [leafB, hg]⟩

theorem percentileAux_ok (valid : κ → Bool) (pct : κ → List α → β) (axis : Option (List String)) (kd : Bool) (S : Shape)
    (A : List String) (hA : A ⊆ keys S)
    (hax : ∀ T, WF T → FitsIn T S → (∀ ax ∈ A, get? T ax = get? S ax) →
      ∃ A', reduceAxes axis T = .ok A' ∧ ∀ ax, ax ∈ A' ↔ ax ∈ A)
    (n : Nat) (c : Comp (SA α)) (q : Comp (SA κ)) (hn : c.depth ≤ n) (hw : c.WFLeaves) (hf : c.Full) (hD : c.Dicts) (T : Shape)
    (hT : c.shape = .ok T) (hTS : FitsIn T S) (hTA : ∀ ax ∈ A, get? T ax = get? S ax)
    (hop : ∀ p a, c.leafAt p = some a → ∃ q', q.leafB p = some q' ∧ ∀ a', BroadcastAlong S A a a' →
      ∃ ra, a'.percentileLike valid pct q' axis kd none = .ok ra) :
    ∃ r, percentileAux valid pct axis kd n q c = .ok r ∧ c.Similar r ∧ ∀ p a, c.leafAt p = some a →
      ∃ q' a' ra, q.leafB p = some q' ∧ r.leafAt p = some ra ∧ BroadcastAlong S A a a' ∧
        a'.percentileLike valid pct q' axis kd none = .ok ra := by
  induction n generalizing c q T with
  | zero => have := depth_pos c; omega
  | succ n ih =>
    cases c with
    | leaf a =>
      simp only [shape, Except.ok.injEq] at hT
      have haw := hw a (by simp [leaves])
      have hb : BroadcastAlong S A a a :=
        ⟨haw, fun _ => rfl, by rw [hT]; exact hTS, fitsIn_refl _, by rw [hT]; exact hTA⟩
      obtain ⟨q', hq', h1⟩ := hop [] a rfl
      obtain ⟨ra, hra⟩ := h1 a hb
      cases q with
      | node _ _ => simp [leafB] at hq'
      | leaf q =>
        have : q = q' := by simpa [leafB] using hq'
        subst this
        refine ⟨.leaf ra, by simp [percentileAux, hra, bind, Except.bind], by simp [Similar, Lift], ?_⟩
        intro p b hpb
        cases p with
        | cons _ _ => simp [leafAt] at hpb
        | nil =>
          simp only [leafAt, Option.some.injEq] at hpb
          subst hpb
          exact ⟨q, a, ra, rfl, rfl, hb, hra⟩
    | node cls cs =>
      have hTw := shape_wf _ hw T hT
      obtain ⟨A', hA', hAA⟩ := hax T hTw hTS hTA
      simp only [Dicts] at hD
      have hDL := dicts_of_mem hD.2
      have key : ∀ p ∈ cs, ∃ y : String × Comp (SA β),
          (do let c ← broadcastBase (shapeBase T A') p.2
              let qc ← componentQ p.1 q
              let r ← percentileAux valid pct axis kd n qc c
              Except.ok (p.1, r) : R (String × Comp (SA β))) = .ok y ∧ y.1 = p.1 ∧ p.2.Similar y.2 ∧
            ∀ p' a, p.2.leafAt p' = some a → ∃ q' a' ra, q.leafB (p.1 :: p') = some q' ∧ y.2.leafAt p' = some ra ∧
              BroadcastAlong S A a a' ∧ a'.percentileLike valid pct q' axis kd none = .ok ra := by
        intro p hp
        have hget : get? cs p.1 = some p.2 := get?_of_mem hD.1 hp
        obtain ⟨c', T', h1, h2, h3, h4, h5, h6, h7, h8⟩ := part_ok hA hw hf hT hTS hTA hAA hn hp
        obtain ⟨p0, a0, hp0⟩ := exists_leafAt p.2 (node_part hw hf hT hp).2.2.1
        have hcomp : ∀ p' a, p.2.leafAt p' = some a → (Comp.node cls cs).leafAt (p.1 :: p') = some a := by
          intro p' a h
          simp only [leafAt, hget]
          exact h
        obtain ⟨q0, hq0, _⟩ := hop _ _ (hcomp p0 a0 hp0)
        obtain ⟨qc, hqc, hqB⟩ := componentQ_ok hq0
        have hDc : c'.Dicts := lift_dicts _ _ h8 (hDL p hp)
        obtain ⟨r, g1, g2, g3⟩ := ih c' qc h2 h3 h4 hDc T' h5 h6 h7 (by
          intro p' b hb
          obtain ⟨a, ha, hab⟩ : ∃ a, p.2.leafAt p' = some a ∧ _ := by
            cases h0 : p.2.leafAt p' with
            | none => rw [(lift_leafAt h8 p').2 h0] at hb; cases hb
            | some a =>
              obtain ⟨b', hb', h9⟩ := (lift_leafAt h8 p').1 a h0
              rw [hb] at hb'
              injection hb' with hb'
              subst hb'
              exact ⟨a, rfl, h9⟩
          obtain ⟨q', hq', hok⟩ := hop _ _ (hcomp p' a ha)
          exact ⟨q', by rw [hqB]; exact hq', fun a' ha' => hok a' (broadcastAlong_trans hab ha')⟩)
        refine ⟨(p.1, r), by simp [h1, hqc, g1, bind, Except.bind], rfl, ?_, ?_⟩
        · exact lift_mono (fun _ _ _ => trivial) _ _ (lift_trans _ _ _ h8 g2)
        · intro p' a ha
          obtain ⟨b, hb, hab⟩ := (lift_leafAt h8 p').1 a ha
          obtain ⟨q', a', ra, k1, k2, k3, k4⟩ := g3 p' b hb
          exact ⟨q', a', ra, by rw [← hqB]; exact k1, k2, broadcastAlong_trans hab k3, k4⟩
      obtain ⟨ys, hys⟩ := exists_forall₂ key
      have hm := mapM_of_forall₂ (hys.imp (fun _ _ h => h.1))
      refine ⟨.node cls ys, ?_, ?_, ?_⟩
      · simp only [percentileAux, hT, hA', bind, Except.bind] at hm ⊢
        rw [hm]
      · simp only [Similar, Lift, liftL_iff, true_and]
        exact hys.imp (fun _ _ h => ⟨h.2.1.symm, h.2.2.1⟩)
      · intro p a ha
        cases p with
        | nil => simp [leafAt] at ha
        | cons k p =>
          simp only [leafAt] at ha
          cases hg : get? cs k with
          | none => rw [hg] at ha; cases ha
          | some c =>
            rw [hg] at ha
            dsimp only at ha
            have hfor : List.Forall₂ (fun (x : String × Comp (SA α)) (y : String × Comp (SA β)) => y.1 = x.1 ∧
                (∀ p' a, x.2.leafAt p' = some a → ∃ q' a' ra, q.leafB (x.1 :: p') = some q' ∧ y.2.leafAt p' = some ra ∧
              BroadcastAlong S A a a' ∧ a'.percentileLike valid pct q' axis kd none = .ok ra)) cs ys :=
              hys.imp (fun _ _ h => ⟨h.2.1, h.2.2.2⟩)
            have : ∃ y, get? ys k = some y ∧ ∀ p' a, c.leafAt p' = some a → ∃ q' a' ra, q.leafB (k :: p') = some q' ∧ y.leafAt p' = some ra ∧
              BroadcastAlong S A a a' ∧ a'.percentileLike valid pct q' axis kd none = .ok ra := by
              clear * - hfor hg
              induction hfor with
              | nil => cases hg
              | @cons x y l l' h1 _ ihl =>
                obtain ⟨k1, d⟩ := x
                obtain ⟨k2, d'⟩ := y
                obtain ⟨hk, h1⟩ := h1
                have hk' : k2 = k1 := hk
                subst hk'
                simp only [get?_cons] at hg ⊢
                by_cases h : k2 = k
                · rw [if_pos h] at hg ⊢
                  injection hg with hg
                  subst hg h
                  exact ⟨d', rfl, h1⟩
                · rw [if_neg h] at hg ⊢
                  exact ihl hg
            obtain ⟨y, hy, h9⟩ := this
            obtain ⟨q', a', ra, k1, k2, k3, k4⟩ := h9 p a ha
            exact ⟨q', a', ra, k1, by simp only [leafAt, hy]; exact k2, k3, k4⟩

/-- Specification: `q` is a valid argument for an array of shape `S`: no axis in common, at most two axes, and percentiles as elements. -/
structure QFor (valid : κ → Bool) (S : Shape) (q : SA κ) : Prop where
  wf : q.WF
  few : q.axes.length ≤ 2
  apart : ∀ ax ∈ keys S, ax ∉ q.axes
  good : ∀ e, InRange q.shape e → valid (q.at' e) = true

/-- What is known about the axes of a broadcast scalar. -/
theorem axes_broadcast {S : Shape} {A : List String} (hA : A ⊆ keys S) {a a' : SA α} (hb : BroadcastAlong S A a a') :
    A ⊆ a'.axes ∧ a'.axes ⊆ keys S ∧ ∀ ax m, get? a.shape ax = some m → ax ∈ a'.axes := by
  obtain ⟨hw, hat, hfS, hfa, hAS⟩ := hb
  refine ⟨?_, ?_, ?_⟩
  · intro ax h
    rw [← SA.keys_shape hw]
    obtain ⟨n, hn⟩ := exists_get?_of_mem (hA h)
    exact mem_keys_of_get? ((hAS ax h).trans hn)
  · intro ax h
    rw [← SA.keys_shape hw] at h
    obtain ⟨m, hm⟩ := exists_get?_of_mem h
    obtain ⟨n, hn, _⟩ := hfS ax m hm
    exact mem_keys_of_get? hn
  · intro ax m hm
    obtain ⟨n, hn, _⟩ := hfa ax m hm
    rw [← SA.keys_shape hw]
    exact mem_keys_of_get? hn

/-- Percentiles of a broadcast scalar, in terms of the original one. -/
theorem percentile_broadcast {valid : κ → Bool} {pct : κ → List α → β} {S : Shape} {axis : Option (List String)} {A : List String}
    (hax : A = axis.getD (keys S)) (hAn : A.Nodup) (hA : A ⊆ keys S) (hne : ∀ ax ∈ keys S, get? S ax ≠ some 0)
    {q : SA κ} (hq : QFor valid S q) (kd : Bool) {a a' : SA α} (hb : BroadcastAlong S A a a') :
    ∃ ra, a'.percentileLike valid pct q axis kd none = .ok ra ∧ ra.WF ∧
      (∀ ax ∈ A, get? ra.shape ax = if kd then some 1 else none) ∧
      (∀ ax ∈ q.axes, get? ra.shape ax = get? q.shape ax) ∧
      (∀ ax m, ax ∉ A → ax ∉ q.axes → get? ra.shape ax = some m → ∃ n, get? S ax = some n ∧ (m = n ∨ m = 1)) ∧
      (∀ ax m, ax ∉ A → get? a.shape ax = some m → ∃ m', get? ra.shape ax = some m' ∧ (m = m' ∨ m = 1)) ∧
      ∀ e, InRange ra.shape e → ∃ l, SlabOf S A e l ∧ ra.at' e = pct (q.at' e) (l.map a.atB) := by
  obtain ⟨x1, x2, x3⟩ := axes_broadcast hA hb
  obtain ⟨hw, hat, hfS, hfa, hAS⟩ := hb
  obtain ⟨A', hA', hAA⟩ : ∃ A', A' = axis.getD a'.axes ∧ ∀ ax, ax ∈ A' ↔ ax ∈ A := by
    refine ⟨_, rfl, fun ax => ?_⟩
    cases axis with
    | some B => rw [hax]; rfl
    | none =>
      have : A = keys S := hax
      subst this
      exact ⟨fun h => x2 h, fun h => x1 h⟩
  have hA'n : A'.Nodup := by
    cases axis with
    | some B =>
      have h1 : A = B := hax
      have h2 : A' = B := hA'
      rw [h2, ← h1]; exact hAn
    | none =>
      have h2 : A' = a'.axes := hA'
      rw [h2]; exact hw.2
  obtain ⟨ra, r1, r2, r3, r4, r5⟩ := SA.C81_percentile valid pct a' hw q
    ⟨hq.wf, hq.few, fun ax h => hq.apart ax (x2 h), hq.good⟩ axis A' hA' hA'n (fun ax h => x1 ((hAA ax).1 h))
    (by
      intro ax _ h0
      obtain ⟨n, hn, h' | h'⟩ := hfS ax 0 h0
      · subst h'; exact hne ax (mem_keys_of_get? hn) hn
      · omega) kd
  simp only [hAA] at r4
  refine ⟨ra, r1, r2, fun ax h => by rw [r4, if_pos h], ?_, ?_, ?_, ?_⟩
  · intro ax h
    have h1 : ax ∉ a'.axes := fun h' => hq.apart ax (x2 h') h
    rw [r4, if_neg (fun h' => h1 (x1 h')), if_neg h1]
  · intro ax m h1 h2 hm
    rw [r4, if_neg h1] at hm
    split at hm
    · exact hfS ax m hm
    · rw [(SA.get?_shape_none hq.wf).2 h2] at hm; cases hm
  · intro ax m h1 hm
    rw [r4, if_neg h1, if_pos (x3 ax m hm)]
    exact hfa ax m hm
  · intro e he
    obtain ⟨l, ⟨hl1, hl2⟩, hl3⟩ := r5 e
    have hl : SlabOf S A e l := by
      refine ⟨hl1, fun e' => ?_⟩
      rw [hl2]
      simp only [hAA]
      constructor
      · rintro ⟨h1, h2⟩
        exact ⟨fun ax h => by rw [← hAS ax h]; exact h1 ax h, h2⟩
      · rintro ⟨h1, h2⟩
        exact ⟨fun ax h => by rw [hAS ax h]; exact h1 ax h, h2⟩
    refine ⟨l, hl, ?_⟩
    rw [hl3]
    congr 1
    apply List.map_congr_left
    intro e' he'
    rw [← hat, SA.atB_eq_at' hw]
    intro ax n hn
    obtain ⟨h1, h2⟩ := (hl.2 e').1 he'
    by_cases h : ax ∈ A
    · obtain ⟨m, hm, hlt⟩ := h1 ax h
      rw [← hAS ax h, hn] at hm
      injection hm with hm
      omega
    · rw [h2 ax h]
      refine he ax n ?_
      rw [r4, if_neg h, if_pos]
      · exact hn
      · rw [← SA.keys_shape hw]; exact mem_keys_of_get? hn

theorem reduceAxes_ok {S : Shape} {axis : Option (List String)} {A : List String} (hax : A = axis.getD (keys S)) (hA : A ⊆ keys S)
    (T : Shape) (hTS : FitsIn T S) (hTA : ∀ ax ∈ A, get? T ax = get? S ax) :
    ∃ A', reduceAxes axis T = .ok A' ∧ ∀ ax, ax ∈ A' ↔ ax ∈ A := by
  cases axis with
  | some B =>
    have h1 : A = B := hax
    subst h1
    refine ⟨A, ?_, fun _ => Iff.rfl⟩
    have : A.all (· ∈ keys T) = true := by
      simp only [List.all_eq_true, decide_eq_true_eq]
      intro ax hax
      obtain ⟨n, hn⟩ := exists_get?_of_mem (hA hax)
      exact mem_keys_of_get? ((hTA ax hax).trans hn)
    simp only [reduceAxes, axisNormalized, this]
    rfl
  | none =>
    have h1 : A = keys S := hax
    subst h1
    refine ⟨keys T, by simp [reduceAxes, axisNormalized], fun ax => ⟨fun h => ?_, fun h => ?_⟩⟩
    · obtain ⟨m, hm⟩ := exists_get?_of_mem h
      obtain ⟨n, hn, _⟩ := hTS ax m hm
      exact mem_keys_of_get? hn
    · obtain ⟨n, hn⟩ := exists_get?_of_mem h
      exact mem_keys_of_get? ((hTA ax h).trans hn)

/-- **C85** (percentiles). `q` is a scalar or a vector with scalars for the components of `v`.  The result is structured like `v`; a component
has the axes of its `q` and the remaining axes of the component, and its element at a named index is the percentile, for the element of `q`
at this index, of the elements (read with broadcasting) of the component over all positions of the shape of the *vector* along the reduced axes.
Without `axis`, all axes of the vector are reduced. -/
theorem C85_percentile (valid : κ → Bool) (pct : κ → List α → β) (v : Comp (SA α)) (hw : v.WFLeaves) (hf : v.Full) (hD : v.Dicts)
    (S : Shape) (hS : v.shape = .ok S) (q : Comp (SA κ)) (axis : Option (List String)) (A : List String)
    (hax : A = axis.getD (keys S)) (hAn : A.Nodup) (hA : A ⊆ keys S) (hne : ∀ ax ∈ keys S, get? S ax ≠ some 0)
    (hq : ∀ p a, v.leafAt p = some a → ∃ q', q.leafB p = some q' ∧ QFor valid S q') (kd : Bool) :
    ∃ r, v.percentile valid pct q axis kd = .ok r ∧ v.Similar r ∧ ∀ p a, v.leafAt p = some a →
      ∃ q' ra, q.leafB p = some q' ∧ r.leafAt p = some ra ∧ ra.WF ∧
        (∀ ax ∈ A, get? ra.shape ax = if kd then some 1 else none) ∧
        (∀ ax ∈ q'.axes, get? ra.shape ax = get? q'.shape ax) ∧
        (∀ ax m, ax ∉ A → ax ∉ q'.axes → get? ra.shape ax = some m → ∃ n, get? S ax = some n ∧ (m = n ∨ m = 1)) ∧
        (∀ ax m, ax ∉ A → get? a.shape ax = some m → ∃ m', get? ra.shape ax = some m' ∧ (m = m' ∨ m = 1)) ∧
        ∀ e, InRange ra.shape e → ∃ l, SlabOf S A e l ∧ ra.at' e = pct (q'.at' e) (l.map a.atB) := by
  obtain ⟨r, h1, h2, h3⟩ := percentileAux_ok valid pct axis kd S A hA
    (fun T _ hTS hTA => reduceAxes_ok hax hA T hTS hTA) v.depth v q le_rfl hw hf hD S hS (fitsIn_refl S) (fun _ _ => rfl) (by
      intro p a ha
      obtain ⟨q', hq', hQ⟩ := hq p a ha
      exact ⟨q', hq', fun a' hb => (percentile_broadcast (pct := pct) hax hAn hA hne hQ kd hb).imp (fun _ h => h.1)⟩)
  refine ⟨r, h1, h2, fun p a ha => ?_⟩
  obtain ⟨q', a', ra, g1, g2, g3, g4⟩ := h3 p a ha
  obtain ⟨q'', hq'', hQ⟩ := hq p a ha
  rw [g1] at hq''
  injection hq'' with hq''
  subst hq''
  obtain ⟨ra', k1, k2⟩ := percentile_broadcast (pct := pct) hax hAn hA hne hQ kd g3
  rw [g4] at k1
  cases k1
  exact ⟨q', ra, g1, g2, k2⟩

/-- An axis of the vector is an axis of one of the scalars. -/
theorem leaf_with_axis {c : Comp (SA α)} (hw : c.WFLeaves) {S : Shape} (hS : c.shape = .ok S) {ax : String} (hax : ax ∈ keys S) :
    ∃ a ∈ c.leaves, ∃ m, get? a.shape ax = some m := by
  have h := shape_leaves c hw
  rw [hS] at h
  cases hb : broadcastShapes (c.leaves.map SA.shape) with
  | error e => rw [hb] at h; simp [SameOutcome] at h
  | ok r =>
    rw [hb] at h
    obtain ⟨_, h1, h2⟩ := C01_broadcast_shapes_ok _ hw.shapes r hb
    obtain ⟨n, hn⟩ := exists_get?_of_mem hax
    obtain ⟨s, hs, hk⟩ := (h1 ax).1 (mem_keys_of_get? ((h ax).symm.trans hn))
    obtain ⟨a, ha, rfl⟩ := List.mem_map.1 hs
    exact ⟨a, ha, exists_get?_of_mem hk⟩

theorem subset_error {S : Shape} {A : List String} (hA : ¬ A ⊆ keys S) : A.all (· ∈ keys S) = false := by
  rw [← Bool.not_eq_true, List.all_eq_true]
  intro h
  apply hA
  intro x hx
  simpa using h x hx

/-- **C85** (percentiles, errors). An axis which no component has raises `ValueError`, and so does a scalar `q` which shares an axis with the
vector, has more than two axes, or has an element which is not a percentile. -/
theorem C85_percentile_error (valid : κ → Bool) (pct : κ → List α → β) (cls : String) (cs : List (String × Comp (SA α)))
    (hw : (Comp.node cls cs).WFLeaves) (hf : (Comp.node cls cs).Full)
    (S : Shape) (hS : (Comp.node cls cs).shape = .ok S) (q : SA κ) (hqw : q.WF) (A : List String) (hAn : A.Nodup)
    (hne : ∀ ax ∈ keys S, get? S ax ≠ some 0) (kd : Bool)
    (h : ¬ A ⊆ keys S ∨ (∃ ax ∈ keys S, ax ∈ q.axes) ∨ 2 < q.axes.length ∨ ∃ e, InRange q.shape e ∧ valid (q.at' e) = false) :
    (Comp.node cls cs).percentile valid pct (.leaf q) (some A) kd = .error .valueError := by
  unfold percentile
  rw [percentileAux_leaf]
  by_cases hA : A ⊆ keys S
  swap
  · simp only [depth, deepAux, hS, reduceAxes, axisNormalized, subset_error hA, bind, Except.bind]
    rfl
  replace h := h.resolve_left (not_not.2 hA)
  set v := Comp.node cls cs with hv
  refine (deepAux_error (reduceAxes (some A)) (fun a => a.percentileLike valid pct q (some A) kd none) S A hA
    (fun T _ hTS hTA => reduceAxes_ok (axis := some A) rfl hA T hTS hTA) v.depth v le_rfl hw hf S hS (fitsIn_refl S) (fun _ _ => rfl) .valueError ?_).2 ?_
  · intro a ha a' hb
    obtain ⟨x1, x2, x3⟩ := axes_broadcast hA hb
    by_cases hbad : (∃ ax ∈ a'.axes, ax ∈ q.axes) ∨ 2 < q.axes.length ∨ ∃ e, InRange q.shape e ∧ valid (q.at' e) = false
    · exact .inr (SA.C81_error valid pct a' q hqw A kd none (.inr (.inr hbad)))
    · simp only [not_or, not_exists, not_and] at hbad
      obtain ⟨b1, b2, b3⟩ := hbad
      obtain ⟨ra, h1, _⟩ := SA.C81_percentile valid pct a' hb.1 q
        ⟨hqw, by omega, b1, fun e he => by simpa using b3 e he⟩ (some A) A rfl hAn x1
        (by
          intro ax _ h0
          obtain ⟨n, hn, h' | h'⟩ := hb.2.2.1 ax 0 h0
          · subst h'; exact hne ax (mem_keys_of_get? hn) hn
          · omega) kd
      exact .inl ⟨ra, h1⟩
  · rcases h with ⟨ax, h1, h2⟩ | h
    · obtain ⟨n, hn⟩ := exists_get?_of_mem h1
      obtain ⟨a, ha, m, hm⟩ := leaf_with_axis hw hS h1
      refine ⟨a, ha, fun a' hb => SA.C81_error valid pct a' q hqw A kd none (.inr (.inr (.inl ⟨ax, ?_, h2⟩)))⟩
      exact (axes_broadcast hA hb).2.2 ax m hm
    · have hne' := full_leaves v hf
      obtain ⟨a, l, hl⟩ : ∃ a l, v.leaves = a :: l := by
        cases hl : v.leaves with
        | nil => exact absurd hl hne'
        | cons a l => exact ⟨a, l, rfl⟩
      exact ⟨a, by simp [hl], fun a' hb => SA.C81_error valid pct a' q hqw A kd none (.inr (.inr (.inr h)))⟩

/-- **C85** (percentiles, missing components). If `q` is a vector which lacks a component of `v`, and is valid for the other components, `KeyError`
is raised. -/
theorem C85_percentile_missing (valid : κ → Bool) (pct : κ → List α → β) (cls cls' : String) (cs : List (String × Comp (SA α)))
    (hw : (Comp.node cls cs).WFLeaves) (hf : (Comp.node cls cs).Full) (hD : (Comp.node cls cs).Dicts)
    (S : Shape) (hS : (Comp.node cls cs).shape = .ok S) (qs : List (String × Comp (SA κ)))
    (axis : Option (List String)) (A : List String)
    (hax : A = axis.getD (keys S)) (hAn : A.Nodup) (hA : A ⊆ keys S) (hne : ∀ ax ∈ keys S, get? S ax ≠ some 0)
    (hq : ∀ k ∈ keys qs, ∀ p a, (Comp.node cls cs).leafAt (k :: p) = some a →
      ∃ q', (Comp.node cls' qs).leafB (k :: p) = some q' ∧ QFor valid S q') (kd : Bool)
    (hmiss : ∃ k ∈ keys cs, k ∉ keys qs) :
    (Comp.node cls cs).percentile valid pct (.node cls' qs) axis kd = .error .keyError := by
  obtain ⟨A', hA', hAA⟩ := reduceAxes_ok hax hA S (fitsIn_refl S) (fun _ _ => rfl)
  simp only [Dicts] at hD
  have key : ∀ p ∈ cs, ((∃ y : String × Comp (SA β),
      (do let c ← broadcastBase (shapeBase S A') p.2
          let qc ← componentQ p.1 (.node cls' qs)
          let r ← percentileAux valid pct axis kd (depthL cs) qc c
          Except.ok (p.1, r) : R (String × Comp (SA β))) = .ok y) ∨
      (do let c ← broadcastBase (shapeBase S A') p.2
          let qc ← componentQ p.1 (.node cls' qs)
          let r ← percentileAux valid pct axis kd (depthL cs) qc c
          Except.ok (p.1, r) : R (String × Comp (SA β))) = .error .keyError) ∧
      (p.1 ∉ keys qs → (do let c ← broadcastBase (shapeBase S A') p.2
                           let qc ← componentQ p.1 (.node cls' qs)
                           let r ← percentileAux valid pct axis kd (depthL cs) qc c
                           Except.ok (p.1, r) : R (String × Comp (SA β))) = .error .keyError) := by
    intro p hp
    have hget : get? cs p.1 = some p.2 := get?_of_mem hD.1 hp
    obtain ⟨c', T', h1, h2, h3, h4, h5, h6, h7, h8⟩ := part_ok hA hw hf hS (fitsIn_refl S) (fun _ _ => rfl) hAA
      (n := depthL cs) (by simp [depth]) hp
    by_cases hk : p.1 ∈ keys qs
    · refine ⟨.inl ?_, fun h => absurd hk h⟩
      obtain ⟨qc, hqc⟩ := exists_get?_of_mem hk
      have hcomp : ∀ p' a, p.2.leafAt p' = some a → (Comp.node cls cs).leafAt (p.1 :: p') = some a := by
        intro p' a h
        simp only [leafAt, hget]
        exact h
      obtain ⟨r, g1, _⟩ := percentileAux_ok valid pct axis kd S A hA
        (fun T _ hTS hTA => reduceAxes_ok hax hA T hTS hTA) (depthL cs) c' qc h2 h3 h4
        (lift_dicts _ _ h8 (dicts_of_mem hD.2 p hp)) T' h5 h6 h7 (by
          intro p' b hb
          obtain ⟨a, ha, hab⟩ : ∃ a, p.2.leafAt p' = some a ∧ _ := by
            cases h0 : p.2.leafAt p' with
            | none => rw [(lift_leafAt h8 p').2 h0] at hb; cases hb
            | some a =>
              obtain ⟨b', hb', h9⟩ := (lift_leafAt h8 p').1 a h0
              rw [hb] at hb'
              injection hb' with hb'
              subst hb'
              exact ⟨a, rfl, h9⟩
          obtain ⟨q', hq', hQ⟩ := hq p.1 hk p' a (hcomp p' a ha)
          refine ⟨q', by simpa only [leafB, hqc] using hq', fun a' ha' => ?_⟩
          exact (percentile_broadcast (pct := pct) hax hAn hA hne hQ kd (broadcastAlong_trans hab ha')).imp (fun _ h => h.1))
      exact ⟨(p.1, r), by simp [h1, componentQ, hqc, g1, bind, Except.bind]⟩
    · have : componentQ p.1 (Comp.node cls' qs) = .error .keyError := by
        simp only [componentQ, get?_eq_none.2 hk]
      refine ⟨.inr ?_, fun _ => ?_⟩ <;> simp [h1, this, bind, Except.bind]
  obtain ⟨_, m2⟩ := mapM_outcome (fun p hp => (key p hp).1)
  obtain ⟨k, hk, hkq⟩ := hmiss
  obtain ⟨c, hc⟩ := exists_get?_of_mem hk
  have hm := m2 ⟨(k, c), mem_of_get? hc, (key (k, c) (mem_of_get? hc)).2 hkq⟩
  simp only [percentile, depth, percentileAux, hS, hA', bind, Except.bind] at hm ⊢
  rw [hm]

/-! ### Fourier transforms -/

theorem fftAxes_ok {S : Shape} {x y : String} (hx : x ∈ keys S) (T : Shape) (hTA : ∀ ax ∈ [x], get? T ax = get? S ax) :
    ∃ A', fftAxes (x, y) T = .ok A' ∧ ∀ ax, ax ∈ A' ↔ ax ∈ [x] := by
  refine ⟨[x], ?_, fun _ => Iff.rfl⟩
  obtain ⟨n, hn⟩ := exists_get?_of_mem hx
  exact if_pos (mem_keys_of_get? ((hTA x (by simp)).trans hn))

theorem fft_broadcast {t : ND.Line α} {S : Shape} {x y : String} {m : Nat} (hx : get? S x = some m) (hy : y = x ∨ y ∉ keys S)
    {n : Option Nat} {N : Nat} (hN : N = n.getD (t.default m)) (hpos : 1 ≤ N) {a a' : SA α} (hb : BroadcastAlong S [x] a a') :
    ∃ ra, a'.fftLike t (x, y) n = .ok ra ∧ ra.WF ∧ get? ra.shape y = some (t.size N) ∧ (y ≠ x → get? ra.shape x = none) ∧
      (∀ ax m, ax ≠ x → ax ≠ y → get? ra.shape ax = some m → ∃ n, get? S ax = some n ∧ (m = n ∨ m = 1)) ∧
      (∀ ax m, ax ≠ x → get? a.shape ax = some m → ∃ m', get? ra.shape ax = some m' ∧ (m = m' ∨ m = 1)) ∧
      ∀ e, InRange ra.shape e → ra.at' e = t.fn N ((List.range m).map (fun k => a.atB (Function.update e x k))) (e y) := by
  have hxS : [x] ⊆ keys S := by
    intro z hz
    rw [List.mem_singleton] at hz
    subst hz
    exact mem_keys_of_get? hx
  obtain ⟨x1, x2, x3⟩ := axes_broadcast hxS hb
  obtain ⟨hw, hat, hfS, hfa, hAS⟩ := hb
  have hxa : get? a'.shape x = some m := (hAS x (by simp)).trans hx
  obtain ⟨ra, r1, r2, r3, r4, r5, r6, r7⟩ := SA.C82_fft t a' hw x y m hxa (hy.imp id (fun h h' => h (x2 h'))) n N hN hpos
  refine ⟨ra, r1, r2, r4, r6, ?_, ?_, ?_⟩
  · intro ax k h1 h2 hk
    rw [r5 ax h1 h2] at hk
    exact hfS ax k hk
  · intro ax k h1 hk
    have h2 : ax ≠ y := by
      rintro rfl
      rcases hy with hy | hy
      · exact h1 hy
      · exact hy (x2 (x3 ax k hk))
    rw [r5 ax h1 h2]
    exact hfa ax k hk
  · intro e he
    rw [r7 e]
    congr 1
    unfold SA.lineAlong
    apply List.map_congr_left
    intro k hk
    rw [List.mem_range] at hk
    rw [← hat, SA.atB_eq_at' hw]
    intro ax j hj
    by_cases h : ax = x
    · subst h
      rw [hxa] at hj
      injection hj with hj
      rw [Function.update_self]
      omega
    · rw [Function.update_of_ne h]
      have h2 : ax ≠ y := by
        rintro rfl
        rcases hy with hy | hy
        · exact h hy
        · exact hy (x2 (by rw [← SA.keys_shape hw]; exact mem_keys_of_get? hj))
      exact he ax j ((r5 ax h h2).trans hj)

/-- **C85** (Fourier transforms). Every component is broadcast along the axis `x` of the vector and transformed along it; the result has the axis `y` in
its place, and its elements are those of the transform of the line of the component (read with broadcasting) along the `m` positions of `x` in the
vector. -/
theorem C85_fft (t : ND.Line α) (v : Comp (SA α)) (hw : v.WFLeaves) (hf : v.Full) (S : Shape) (hS : v.shape = .ok S)
    (x y : String) (m : Nat) (hx : get? S x = some m) (hy : y = x ∨ y ∉ keys S) (n : Option Nat) (N : Nat)
    (hN : N = n.getD (t.default m)) (hpos : 1 ≤ N) :
    ∃ r, v.fft t (x, y) n = .ok r ∧ v.Lift (fun a ra => ra.WF ∧
      get? ra.shape y = some (t.size N) ∧ (y ≠ x → get? ra.shape x = none) ∧
      (∀ ax m, ax ≠ x → ax ≠ y → get? ra.shape ax = some m → ∃ n, get? S ax = some n ∧ (m = n ∨ m = 1)) ∧
      (∀ ax m, ax ≠ x → get? a.shape ax = some m → ∃ m', get? ra.shape ax = some m' ∧ (m = m' ∨ m = 1)) ∧
      ∀ e, InRange ra.shape e →
        ra.at' e = t.fn N ((List.range m).map (fun k => a.atB (Function.update e x k))) (e y)) r := by
  have hxk : x ∈ keys S := mem_keys_of_get? hx
  have hxS : [x] ⊆ keys S := by
    intro z hz
    rw [List.mem_singleton] at hz
    subst hz
    exact hxk
  obtain ⟨r, hr, hl⟩ := deepAux_ok (fftAxes (x, y)) (fun a => a.fftLike t (x, y) n) S (shape_wf v hw S hS) [x] hxS
    (fun T _ _ hTA => fftAxes_ok hxk T hTA) v.depth v le_rfl hw hf S hS (fitsIn_refl S) (fun _ _ => rfl)
    (fun a _ a' hb => (fft_broadcast (t := t) hx hy hN hpos hb).imp (fun _ h => h.1))
  refine ⟨r, hr, lift_mono ?_ v r hl⟩
  rintro a ra ⟨a', hb, hra⟩
  obtain ⟨ra', h1, h2⟩ := fft_broadcast (t := t) hx hy hN hpos hb
  rw [hra] at h1
  cases h1
  exact h2

/-- **C85** (Fourier transforms, errors). An axis which no component has, no points, and a new name which is already the name of another axis of
the vector raise `ValueError`. -/
theorem C85_fft_error (t : ND.Line α) (cls : String) (cs : List (String × Comp (SA α))) (hw : (Comp.node cls cs).WFLeaves)
    (hf : (Comp.node cls cs).Full) (S : Shape) (hS : (Comp.node cls cs).shape = .ok S) (x y : String) (n : Option Nat)
    (h : x ∉ keys S ∨ n = some 0 ∨ (y ≠ x ∧ y ∈ keys S)) : (Comp.node cls cs).fft t (x, y) n = .error .valueError := by
  by_cases hxk : x ∈ keys S
  swap
  · simp only [fft, deep, depth, deepAux, hS, fftAxes, if_neg hxk, bind, Except.bind]
  replace h := h.resolve_left (not_not.2 hxk)
  have hxS : [x] ⊆ keys S := by
    intro z hz
    rw [List.mem_singleton] at hz
    subst hz
    exact hxk
  set v := Comp.node cls cs with hv
  refine (deepAux_error (fftAxes (x, y)) (fun a => a.fftLike t (x, y) n) S [x] hxS
    (fun T _ _ hTA => fftAxes_ok hxk T hTA) v.depth v le_rfl hw hf S hS (fitsIn_refl S) (fun _ _ => rfl) .valueError ?_).2 ?_
  · intro a ha a' hb
    obtain ⟨x1, x2, x3⟩ := axes_broadcast hxS hb
    obtain ⟨m, hm⟩ := exists_get?_of_mem (show x ∈ keys a'.shape by rw [SA.keys_shape hb.1]; exact x1 (by simp))
    by_cases hy : y = x ∨ y ∉ a'.axes
    · by_cases hpos : 1 ≤ n.getD (t.default m)
      · obtain ⟨ra, h1, _⟩ := SA.C82_fft t a' hb.1 x y m hm hy n _ rfl hpos
        exact .inl ⟨ra, h1⟩
      · right
        have hsz : a'.nd.shape.getD (a'.axes.idxOf x) 0 = m := by
          have := SA.get?_shape_of_mem hb.1 (x1 (by simp : x ∈ [x]))
          rw [hm] at this
          injection this with this
          exact this.symm
        simp only [SA.fftLike, SA.pyTupleIndex, if_pos (x1 (by simp : x ∈ [x])), bind, Except.bind, ND.fft1, hsz]
        rw [if_pos (by omega)]
    · simp only [not_or, not_not] at hy
      exact .inr (SA.C82_fft_error t a' hb.1 x y n (.inr (.inr hy)))
  · rcases h with h | ⟨h1, h2⟩
    · obtain ⟨a, l, hl⟩ : ∃ a l, v.leaves = a :: l := by
        cases hl : v.leaves with
        | nil => exact absurd hl (full_leaves v hf)
        | cons a l => exact ⟨a, l, rfl⟩
      exact ⟨a, by simp [hl], fun a' hb => SA.C82_fft_error t a' hb.1 x y n (.inr (.inl h))⟩
    · obtain ⟨a, ha, m, hm⟩ := leaf_with_axis hw hS h2
      exact ⟨a, ha, fun a' hb => SA.C82_fft_error t a' hb.1 x y n (.inr (.inr ⟨h1, (axes_broadcast hxS hb).2.2 y m hm⟩))⟩

section linear
variable {K : Type} [CommRing K]

theorem fftn_broadcast {w : Nat → Nat → Nat → K} {S : Shape} {axes : Dict String} (hd : axes.WF) (hsub : axes.keys ⊆ keys S)
    {s : Option (Dict Nat)} {N : String → Nat} (hs : UA.PointsIn S axes s N) (hN : ∀ ax ∈ axes.keys, 1 ≤ N ax)
    (hnew : ∀ a ∈ keys S, ∀ b ∈ keys S, SA.renamed axes a = SA.renamed axes b → a = b) {a a' : SA K}
    (hb : BroadcastAlong S axes.keys a a') :
    ∃ ra, a'.fftnLike (ND.fftnPlan (ND.dft w)) axes s = .ok ra ∧ ra.WF ∧
      (∀ z, z ∈ ra.axes ↔ ∃ ax ∈ a'.axes, SA.renamed axes ax = z) ∧
      (∀ ax ∈ axes.keys, get? ra.shape (SA.renamed axes ax) = some (N ax)) ∧
      (∀ ax ∈ a'.axes, ax ∉ axes.keys → get? ra.shape (SA.renamed axes ax) = get? a'.shape ax) ∧
      ∀ e, InRange ra.shape e → ∀ l, SlabOf S axes.keys (fun ax => e (SA.renamed axes ax)) l →
        ra.at' e = (l.map (fun i =>
          (axes.keys.map (fun ax => SA.coefficient w (N ax) (e (SA.renamed axes ax)) (i ax))).prod * a.atB i)).sum := by
  obtain ⟨x1, x2, x3⟩ := axes_broadcast hsub hb
  obtain ⟨hw, hat, hfS, hfa, hAS⟩ := hb
  have hp : SA.Points a' axes s N := by
    unfold UA.PointsIn at hs
    unfold SA.Points
    cases s with
    | none => exact fun ax hax => (hAS ax hax).trans (hs ax hax)
    | some d => exact hs
  have hnod : (a'.axes.map (SA.renamed axes)).Nodup :=
    (List.nodup_map_iff_inj_on hw.2).2 (fun u hu v hv huv => hnew u (x2 hu) v (x2 hv) huv)
  obtain ⟨ra, r1, r2, r3, r4, r5⟩ := SA.C82_fftn w a' hw axes hd x1 s N hp hN hnod
  refine ⟨ra, r1, r2, ?_, ?_, ?_, ?_⟩
  · intro z; rw [r3, List.mem_map]
  · intro ax hax; rw [r4 ax (x1 hax), if_pos hax]
  · intro ax hax hk; rw [r4 ax hax, if_neg hk]
  · intro e he l hl
    have hl' : SA.IsSlab a' axes.keys (fun ax => e (SA.renamed axes ax)) l := by
      refine ⟨hl.1, fun e' => ?_⟩
      rw [hl.2]
      constructor
      · rintro ⟨h1, h2⟩
        exact ⟨fun ax h => by rw [hAS ax h]; exact h1 ax h, h2⟩
      · rintro ⟨h1, h2⟩
        exact ⟨fun ax h => by rw [← hAS ax h]; exact h1 ax h, h2⟩
    rw [r5 e l hl']
    refine congrArg List.sum (List.map_congr_left (fun i hi => ?_))
    refine congrArg _ ?_
    rw [← hat, SA.atB_eq_at' hw]
    intro ax j hj
    obtain ⟨h1, h2⟩ := (hl.2 i).1 hi
    by_cases h : ax ∈ axes.keys
    · obtain ⟨k, hk, hlt⟩ := h1 ax h
      rw [← hAS ax h, hj] at hk
      injection hk with hk
      omega
    · rw [h2 ax h]
      refine he _ j ?_
      rw [r4 ax (by rw [← SA.keys_shape hw]; exact mem_keys_of_get? hj), if_neg h]
      exact hj

theorem fftnAxes_ok {S : Shape} {axes : Dict String} (hsub : axes.keys ⊆ keys S) (T : Shape)
    (hTA : ∀ ax ∈ axes.keys, get? T ax = get? S ax) :
    ∃ A', fftnAxes axes T = .ok A' ∧ ∀ ax, ax ∈ A' ↔ ax ∈ axes.keys := by
  refine ⟨axes.keys, if_pos ?_, fun _ => Iff.rfl⟩
  intro ax hax
  obtain ⟨n, hn⟩ := exists_get?_of_mem (hsub hax)
  exact mem_keys_of_get? ((hTA ax hax).trans hn)

/-- **C85** (Fourier transforms along several axes). Every component is broadcast along the listed axes of the vector; each of these gets the requested number of
points and its new name, other axes are unchanged, and the element at an index is the sum over all positions of the *vector* along the listed axes
of the elements of the component (read with broadcasting), each with the product of the coefficients for every listed axis. -/
theorem C85_fftn (w : Nat → Nat → Nat → K) (v : Comp (SA K)) (hw : v.WFLeaves) (hf : v.Full) (S : Shape) (hS : v.shape = .ok S)
    (axes : Dict String) (hd : axes.WF) (hsub : axes.keys ⊆ keys S) (s : Option (Dict Nat)) (N : String → Nat)
    (hs : UA.PointsIn S axes s N) (hN : ∀ ax ∈ axes.keys, 1 ≤ N ax)
    (hnew : ∀ a ∈ keys S, ∀ b ∈ keys S, SA.renamed axes a = SA.renamed axes b → a = b) :
    ∃ r, v.fftn (ND.fftnPlan (ND.dft w)) axes s = .ok r ∧ v.Lift (fun a ra => ra.WF ∧
      (∀ ax ∈ axes.keys, get? ra.shape (SA.renamed axes ax) = some (N ax)) ∧
      (∀ ax m, ax ∉ axes.keys → get? a.shape ax = some m → ∃ m', get? ra.shape ax = some m' ∧ (m = m' ∨ m = 1)) ∧
      (∀ z m, get? ra.shape z = some m → (∃ ax ∈ axes.keys, SA.renamed axes ax = z) ∨
        z ∉ axes.keys ∧ ∃ n, get? S z = some n ∧ (m = n ∨ m = 1)) ∧
      ∀ e, InRange ra.shape e → ∀ l, SlabOf S axes.keys (fun ax => e (SA.renamed axes ax)) l →
        ra.at' e = (l.map (fun i =>
          (axes.keys.map (fun ax => SA.coefficient w (N ax) (e (SA.renamed axes ax)) (i ax))).prod * a.atB i)).sum) r := by
  obtain ⟨r, hr, hl⟩ := deepAux_ok (fftnAxes axes) (fun a => a.fftnLike (ND.fftnPlan (ND.dft w)) axes s) S (shape_wf v hw S hS)
    axes.keys hsub (fun T _ _ hTA => fftnAxes_ok hsub T hTA) v.depth v le_rfl hw hf S hS (fitsIn_refl S) (fun _ _ => rfl)
    (fun a _ a' hb => (fftn_broadcast (w := w) hd hsub hs hN hnew hb).imp (fun _ h => h.1))
  refine ⟨r, hr, lift_mono ?_ v r hl⟩
  rintro a ra ⟨a', hb, hra⟩
  obtain ⟨ra', h1, h2, h3, h4, h5, h6⟩ := fftn_broadcast (w := w) hd hsub hs hN hnew hb
  rw [hra] at h1
  cases h1
  obtain ⟨x1, x2, x3⟩ := axes_broadcast hsub hb
  have hself : ∀ ax, ax ∉ axes.keys → SA.renamed axes ax = ax := fun ax h => by
    unfold SA.renamed; rw [get?_eq_none.2 h]; rfl
  refine ⟨h2, h4, ?_, ?_, h6⟩
  · intro ax m hax hm
    have := h5 ax (x3 ax m hm) hax
    rw [hself ax hax] at this
    rw [this]
    exact hb.2.2.2.1 ax m hm
  · intro z m hm
    obtain ⟨ax, hax, rfl⟩ := (h3 z).1 (by rw [← SA.keys_shape h2]; exact mem_keys_of_get? hm)
    by_cases hk : ax ∈ axes.keys
    · exact .inl ⟨ax, hk, rfl⟩
    · right
      have := h5 ax hax hk
      rw [hself ax hk] at this hm ⊢
      rw [this] at hm
      exact ⟨hk, hb.2.2.1 ax m hm⟩

end linear

/-- **C85** (Fourier transforms along several axes, errors). Listing an axis which no component has, and sizes for other axes than the listed ones, raise
`ValueError`. -/
theorem C85_fftn_error (plan : List (Nat × Nat) → R (List (ND.Step α))) (cls : String) (cs : List (String × Comp (SA α)))
    (hw : (Comp.node cls cs).WFLeaves) (hf : (Comp.node cls cs).Full)
    (S : Shape) (hS : (Comp.node cls cs).shape = .ok S) (axes : Dict String) (s : Option (Dict Nat))
    (h : ¬ axes.keys ⊆ keys S ∨ ∃ d, s = some d ∧ ∃ ax, ¬ (ax ∈ d.keys ↔ ax ∈ axes.keys)) :
    (Comp.node cls cs).fftn plan axes s = .error .valueError := by
  by_cases hsub : axes.keys ⊆ keys S
  swap
  · simp only [fftn, deep, depth, deepAux, hS, fftnAxes, if_neg hsub, bind, Except.bind]
  replace h := h.resolve_left (not_not.2 hsub)
  set v := Comp.node cls cs with hv
  refine (deepAux_error (fftnAxes axes) (fun a => a.fftnLike plan axes s) S axes.keys hsub
    (fun T _ _ hTA => fftnAxes_ok hsub T hTA) v.depth v le_rfl hw hf S hS (fitsIn_refl S) (fun _ _ => rfl) .valueError ?_).2 ?_
  · exact fun a _ a' hb => .inr (SA.C82_fftn_error plan a' hb.1 axes s (.inr h))
  · obtain ⟨a, l, hl⟩ : ∃ a l, v.leaves = a :: l := by
      cases hl : v.leaves with
      | nil => exact absurd hl (full_leaves v hf)
      | cons a l => exact ⟨a, l, rfl⟩
    exact ⟨a, by simp [hl], fun a' hb => SA.C82_fftn_error plan a' hb.1 axes s (.inr h)⟩

/-! ### Sorting -/

theorem slabOf_perm {S : Shape} {A : List String} {e : String → Nat} {l l' : List (String → Nat)} (h : SlabOf S A e l)
    (h' : SlabOf S A e l') : l.Perm l' := by
  rw [List.perm_ext_iff_of_nodup h.1 h'.1]
  intro e'
  rw [h.2, h'.2]

/-- A scalar which lacks the sorted axes, or a sorted one. -/
def SortedLeaf (srt : List α → List α) (dflt : α) (S : Shape) (A : List String) (a ra : SA α) : Prop :=
  (ra.WF ∧ (∀ e, ra.atB e = a.atB e) ∧ FitsIn a.shape ra.shape ∧ FitsIn ra.shape S ∧ ∀ ax ∈ A, ax ∉ ra.axes) ∨
    ∃ a', BroadcastAlong S A a a' ∧ a'.sort srt dflt (some A) = .ok ra

theorem sortAux_ok (srt : List α → List α) (dflt : α) (S : Shape) (A : List String) (hA : A ⊆ keys S) (hAne : A ≠ [])
    (hop : ∀ a a' : SA α, BroadcastAlong S A a a' → ∃ ra, a'.sort srt dflt (some A) = .ok ra)
    (n : Nat) (c : Comp (SA α)) (hn : c.depth ≤ n) (hw : c.WFLeaves) (hf : c.Full) (T : Shape)
    (hT : c.shape = .ok T) (hTS : FitsIn T S) (hTA : ∀ ax ∈ A, get? T ax = get? S ax) :
    ∃ r, sortAux srt dflt A n c = .ok r ∧ c.Lift (SortedLeaf srt dflt S A) r := by
  induction n generalizing c T with
  | zero => have := depth_pos c; omega
  | succ n ih =>
    cases c with
    | leaf a =>
      simp only [shape, Except.ok.injEq] at hT
      have haw := hw a (by simp [leaves])
      have hb : BroadcastAlong S A a a :=
        ⟨haw, fun _ => rfl, by rw [hT]; exact hTS, fitsIn_refl _, by rw [hT]; exact hTA⟩
      obtain ⟨ra, hra⟩ := hop a a hb
      exact ⟨.leaf ra, by simp [sortAux, hra, bind, Except.bind], by simp only [Lift]; exact .inr ⟨a, hb, hra⟩⟩
    | node cls cs =>
      have hTw := shape_wf _ hw T hT
      have hAT : A ⊆ keys T := by
        intro ax h
        obtain ⟨k, hk⟩ := exists_get?_of_mem (hA h)
        exact mem_keys_of_get? ((hTA ax h).trans hk)
      have key : ∀ p ∈ cs, ∃ q : String × Comp (SA α),
          (do let s ← p.2.shape
              if s.keys.any (· ∈ A) then do
                let c ← broadcastBase (shapeBase T A) p.2
                let r ← sortAux srt dflt A n c
                Except.ok (p.1, r)
              else Except.ok p : R (String × Comp (SA α))) = .ok q ∧ p.1 = q.1 ∧ p.2.Lift (SortedLeaf srt dflt S A) q.2 := by
        intro p hp
        obtain ⟨hpl, hpw, hpf, Sc, hSc, hScT⟩ := node_part hw hf hT hp
        by_cases hany : Sc.keys.any (· ∈ A) = true
        · obtain ⟨c', T', h1, h2, h3, h4, h5, h6, h7, h8⟩ := part_ok hA hw hf hT hTS hTA (fun _ => Iff.rfl) hn hp
          obtain ⟨r, g1, g2⟩ := ih c' h2 h3 h4 T' h5 h6 h7
          refine ⟨(p.1, r), by simp [hSc, hany, h1, g1, bind, Except.bind], rfl, ?_⟩
          refine lift_mono ?_ _ _ (lift_trans _ _ _ h8 g2)
          rintro a ra ⟨b, hab, h | ⟨a', h9, h10⟩⟩
          · exact .inl ⟨h.1, fun e => (h.2.1 e).trans (hab.2.2.2 e), fitsIn_trans hab.2.2.1 h.2.2.1, h.2.2.2⟩
          · exact .inr ⟨a', broadcastAlong_trans hab h9, h10⟩
        · refine ⟨p, by simp [hSc, hany, bind, Except.bind], rfl, ?_⟩
          refine lift_mono ?_ _ _ (lift_with p.2 p.2 (Q := fun a => a ∈ p.2.leaves) (fun a ha => ha) (lift_refl (P := (· = ·)) (fun _ => rfl) p.2))
          rintro a ra ⟨ha, rfl⟩
          have hfit := leaf_fits hpw hSc ha
          refine .inl ⟨hpw a ha, fun _ => rfl, fitsIn_refl _, fitsIn_trans hfit (fitsIn_trans hScT hTS), ?_⟩
          intro ax hax hax'
          rw [← SA.keys_shape (hpw a ha)] at hax'
          obtain ⟨m, hm⟩ := exists_get?_of_mem hax'
          obtain ⟨k, hk, _⟩ := hfit ax m hm
          apply hany
          rw [List.any_eq_true]
          exact ⟨ax, mem_keys_of_get? hk, by simpa using hax⟩
      obtain ⟨qs, hqs⟩ := exists_forall₂ key
      have hm := mapM_of_forall₂ (hqs.imp (fun _ _ h => h.1))
      refine ⟨.node cls qs, ?_, ?_⟩
      · have he : A.isEmpty = false := by cases A <;> simp_all
        simp only [sortAux, hT, he, bind, Except.bind] at hm ⊢
        rw [if_neg (by simp), if_neg (not_not.2 hAT), hm]
      · simp only [Lift, liftL_iff, true_and]
        exact hqs.imp (fun _ _ h => h.2)

/-- Sorting a broadcast scalar, in terms of the original one. -/
theorem sort_broadcast {le : α → α → Prop} {srt : List α → List α} (hsrt : SA.IsSort le srt) (dflt : α) {S : Shape}
    {A : List String} (hAn : A.Nodup) (hAne : A ≠ []) (hA : A ⊆ keys S)
    (hcoll : ∀ ax ∈ keys S, ax ∉ A → ax ≠ "*".intercalate A) (hpos : ∀ ax ∈ keys S, ax ∉ A → get? S ax ≠ some 0)
    {a a' : SA α} (hb : BroadcastAlong S A a a') :
    ∃ ra n, a'.sort srt dflt (some A) = .ok ra ∧ ra.WF ∧ ra.axes = a'.axes.filter (· ∉ A) ++ ["*".intercalate A] ∧
      get? ra.shape ("*".intercalate A) = some n ∧ (∀ ax ∈ a'.axes, ax ∉ A → get? ra.shape ax = get? a'.shape ax) ∧
      ∀ e, (∀ ax m, ax ∉ A → get? S ax = some m → e ax < m) → ∀ l, SlabOf S A e l → l.length = n ∧
        ((List.range n).map (fun k => ra.atB (Function.update e ("*".intercalate A) k))).Perm (l.map a.atB) ∧
        ((List.range n).map (fun k => ra.atB (Function.update e ("*".intercalate A) k))).Pairwise le := by
  obtain ⟨x1, x2, x3⟩ := axes_broadcast hA hb
  obtain ⟨hw, hat, hfS, hfa, hAS⟩ := hb
  obtain ⟨ra, n, r1, r2, r3, r4, r5, r6⟩ := SA.C21_sort a' hw A hAn hAne x1 (fun ax h h' => hcoll ax (x2 h) h') (by
    intro ax h h' h0
    obtain ⟨k, hk, h1⟩ := hfS ax 0 h0
    have hk0 : k = 0 := by omega
    exact hpos ax (x2 h) h' (by rw [hk, hk0])) le srt hsrt dflt
  refine ⟨ra, n, r1, r2, r3, r4, r5, ?_⟩
  intro e he l hl
  set name := "*".intercalate A with hname
  let e0 : String → Nat := fun ax => if ax ∉ A ∧ get? a'.shape ax = some 1 then 0 else e ax
  have h1 := r6 e0 (by
    intro ax m hax hm
    simp only [e0]
    by_cases h1 : m = 1
    · subst h1
      rw [if_pos ⟨hax, hm⟩]; omega
    · rw [if_neg (by rintro ⟨_, h⟩; rw [hm] at h; injection h with h; exact h1 h)]
      obtain ⟨k, hk, h2⟩ := hfS ax m hm
      have := he ax k hax hk
      omega)
  have hline : (List.range n).map (fun k => ra.at' (Function.update e0 name k)) =
      (List.range n).map (fun k => ra.atB (Function.update e name k)) := by
    apply List.map_congr_left
    intro k hk
    rw [List.mem_range] at hk
    unfold SA.atB
    apply SA.at'_congr
    intro ax hax
    by_cases hx : ax = name
    · subst hx
      rw [Function.update_self, Function.update_self, r4]
      split
      · next h => injection h with h; omega
      · rfl
    · rw [Function.update_of_ne hx, Function.update_of_ne hx]
      rw [r3] at hax
      simp only [List.mem_append, List.mem_filter, decide_eq_true_eq, List.mem_singleton, hx, or_false] at hax
      rw [r5 ax hax.1 hax.2]
      simp only [e0]
      by_cases h1 : get? a'.shape ax = some 1
      · rw [if_pos ⟨hax.2, h1⟩, if_pos h1]
      · rw [if_neg (fun h => h1 h.2), if_neg h1]
  have hsz : ∀ ax ∈ A, get? S ax = some (a'.sizeOf' ax) := by
    intro ax hax
    rw [← hAS ax hax]
    obtain ⟨m, hm⟩ := exists_get?_of_mem (show ax ∈ keys a'.shape by rw [SA.keys_shape hw]; exact x1 hax)
    rw [hm]
    unfold SA.sizeOf'
    rw [hm]
    rfl
  have hslab : SlabOf S A e (slabEnvs A a'.sizeOf' e) := by
    refine ⟨nodup_slabEnvs hAn _ _, fun e' => ?_⟩
    rw [mem_slabEnvs hAn]
    refine and_congr ?_ Iff.rfl
    refine forall_congr' fun ax => imp_congr_right fun hax => ?_
    rw [hsz ax hax]
    simp
  have hlist : SA.slabList a' A e0 = (slabEnvs A a'.sizeOf' e).map a.atB := by
    unfold SA.slabList slabEnvs
    rw [List.map_map, List.map_map]
    apply List.map_congr_left
    intro i hi
    have hmem : slabEnv A i e ∈ slabEnvs A a'.sizeOf' e := by
      unfold slabEnvs; exact List.mem_map.2 ⟨i, hi, rfl⟩
    rw [mem_slabEnvs hAn] at hmem
    show a'.at' (slabEnv A i e0) = a.atB (slabEnv A i e)
    rw [← hat]
    unfold SA.atB
    apply SA.at'_congr
    intro ax hax
    by_cases hxA : ax ∈ A
    · have h2 := hmem.1 ax hxA
      have h3 : slabEnv A i e0 ax = slabEnv A i e ax := by simp only [slabEnv, if_pos hxA]
      rw [h3, hAS ax hxA, hsz ax hxA]
      split
      · next h => injection h with h; omega
      · rfl
    · have h3 : slabEnv A i e0 ax = e0 ax := by simp only [slabEnv, if_neg hxA]
      have h4 : slabEnv A i e ax = e ax := by simp only [slabEnv, if_neg hxA]
      rw [h3, h4]
      simp only [e0]
      by_cases h1 : get? a'.shape ax = some 1
      · rw [if_pos ⟨hxA, h1⟩, if_pos h1]
      · rw [if_neg (fun h => h1 h.2), if_neg h1]
  dsimp only at h1
  rw [hline, hlist] at h1
  have hperm := (slabOf_perm hslab hl).map a.atB
  refine ⟨?_, h1.1.trans hperm, h1.2⟩
  have := (h1.1.trans hperm).length_eq
  simp at this
  exact this.symm

/-- **C85** (sorting). `A` are the given axes, or all axes of the vector.  Each component is sorted on its own: along the combined axis (for a single axis `x`,
`x` itself) the result has a non-decreasing rearrangement of the elements (read with broadcasting) of the component over the positions of the vector along
`A`; a component without these axes may be left without the combined axis. -/
theorem C85_sort (v : Comp (SA α)) (hw : v.WFLeaves) (hf : v.Full) (S : Shape) (hS : v.shape = .ok S)
    (axis : Option (List String)) (A : List String) (hax : A = axis.getD (keys S)) (hAn : A.Nodup) (hAne : A ≠ []) (hA : A ⊆ keys S)
    (hcoll : ∀ ax ∈ keys S, ax ∉ A → ax ≠ "*".intercalate A) (hpos : ∀ ax ∈ keys S, ax ∉ A → get? S ax ≠ some 0)
    (le : α → α → Prop) (hle : ∀ x, le x x) (srt : List α → List α) (hsrt : SA.IsSort le srt) (dflt : α) :
    ∃ r, v.sort srt dflt axis = .ok r ∧ v.Lift (fun a ra => ra.WF ∧
      (∀ ax m, ax ∉ A → get? a.shape ax = some m → ∃ m', get? ra.shape ax = some m' ∧ (m = m' ∨ m = 1)) ∧
      (∀ ax m, ax ≠ "*".intercalate A → get? ra.shape ax = some m → ax ∉ A ∧ ∃ n, get? S ax = some n ∧ (m = n ∨ m = 1)) ∧
      ∀ e, (∀ ax m, ax ∉ A → get? S ax = some m → e ax < m) → ∀ l, SlabOf S A e l →
        (∀ m, get? ra.shape ("*".intercalate A) = some m → m = l.length) ∧
        ((List.range l.length).map (fun k => ra.atB (Function.update e ("*".intercalate A) k))).Perm (l.map a.atB) ∧
        ((List.range l.length).map (fun k => ra.atB (Function.update e ("*".intercalate A) k))).Pairwise le) r := by
  obtain ⟨r, hr, hl⟩ := sortAux_ok srt dflt S A hA hAne (fun a a' hb => by
    obtain ⟨ra, n, h, _⟩ := sort_broadcast hsrt dflt hAn hAne hA hcoll hpos hb
    exact ⟨ra, h⟩) v.depth v le_rfl hw hf S hS (fitsIn_refl S) (fun _ _ => rfl)
  refine ⟨r, ?_, lift_mono ?_ v r hl⟩
  · cases axis with
    | some B =>
      have h1 : A = B := hax
      subst h1
      exact hr
    | none =>
      have h1 : A = keys S := hax
      subst h1
      have he : (keys S).isEmpty = false := by
        rw [Bool.eq_false_iff]
        intro h
        exact hAne (List.isEmpty_iff.1 h)
      simp only [sort, hS, he, bind, Except.bind]
      exact hr
  · rintro a ra (⟨h1, h2, h3, h4, h5⟩ | ⟨a', hb, hra⟩)
    · have hname : "*".intercalate A ∉ ra.axes := by
        intro h
        by_cases hA' : "*".intercalate A ∈ A
        · exact h5 _ hA' h
        · rw [← SA.keys_shape h1] at h
          obtain ⟨m, hm⟩ := exists_get?_of_mem h
          obtain ⟨k, hk, _⟩ := h4 _ m hm
          exact hcoll _ (mem_keys_of_get? hk) hA' rfl
      refine ⟨h1, fun ax m _ hm => h3 ax m hm, ?_, ?_⟩
      · intro ax m _ hm
        refine ⟨fun h => h5 ax h ?_, h4 ax m hm⟩
        rw [← SA.keys_shape h1]; exact mem_keys_of_get? hm
      · intro e he l hl
        have hconst : ∀ e' : String → Nat, (∀ ax ∈ ra.axes, e' ax = e ax) → ra.atB e' = ra.atB e :=
          fun e' h => SA.atB_congr (fun ax hax => h ax hax)
        have hL : (List.range l.length).map (fun k => ra.atB (Function.update e ("*".intercalate A) k)) =
            List.replicate l.length (ra.atB e) := by
          rw [List.eq_replicate_iff]
          refine ⟨by simp, ?_⟩
          intro b hb
          obtain ⟨k, _, rfl⟩ := List.mem_map.1 hb
          exact hconst _ (fun ax hax => Function.update_of_ne (by rintro rfl; exact hname hax) _ _)
        have hR : l.map a.atB = List.replicate l.length (ra.atB e) := by
          rw [List.eq_replicate_iff]
          refine ⟨by simp, ?_⟩
          intro b hb
          obtain ⟨e', he', rfl⟩ := List.mem_map.1 hb
          rw [← h2]
          exact hconst _ (fun ax hax => ((hl.2 e').1 he').2 ax (fun h => h5 ax h hax))
        refine ⟨?_, ?_, ?_⟩
        · intro m hm
          exact absurd (by rw [← SA.keys_shape h1]; exact mem_keys_of_get? hm) hname
        · rw [hL, hR]
        · rw [hL, List.pairwise_replicate]
          exact .inr (hle _)
    · obtain ⟨ra', n, k1, k2, k3, k4, k5, k6⟩ := sort_broadcast hsrt dflt hAn hAne hA hcoll hpos hb
      rw [hra] at k1
      cases k1
      obtain ⟨x1, x2, x3⟩ := axes_broadcast hA hb
      refine ⟨k2, ?_, ?_, ?_⟩
      · intro ax m h1 hm
        rw [k5 ax (x3 ax m hm) h1]
        exact hb.2.2.2.1 ax m hm
      · intro ax m h1 hm
        have hmem : ax ∈ ra.axes := by rw [← SA.keys_shape k2]; exact mem_keys_of_get? hm
        rw [k3] at hmem
        simp only [List.mem_append, List.mem_filter, decide_eq_true_eq, List.mem_singleton, h1, or_false] at hmem
        refine ⟨hmem.2, ?_⟩
        rw [k5 ax hmem.1 hmem.2] at hm
        exact hb.2.2.1 ax m hm
      · intro e he l hl
        obtain ⟨g1, g2, g3⟩ := k6 e he l hl
        subst g1
        refine ⟨?_, g2, g3⟩
        intro m hm
        rw [k4] at hm
        injection hm with hm
        exact hm.symm

/-- **C85** (sorting, no axes). Without `axis`, a vector without axes is returned as it is. -/
theorem C85_sort_zero_dim (v : Comp (SA α)) (S : Shape) (hS : v.shape = .ok S) (h : keys S = []) (srt : List α → List α) (dflt : α) :
    v.sort srt dflt none = .ok v := by
  simp [sort, hS, h, bind, Except.bind]

/-- **C85** (sorting, errors). No axes, and an axis which no component has, raise `ValueError`. -/
theorem C85_sort_error (cls : String) (cs : List (String × Comp (SA α))) (S : Shape) (hS : (Comp.node cls cs).shape = .ok S)
    (A : List String) (h : A = [] ∨ ¬ A ⊆ keys S) (srt : List α → List α) (dflt : α) :
    (Comp.node cls cs).sort srt dflt (some A) = .error .valueError := by
  simp only [sort, depth, sortAux, hS, bind, Except.bind]
  by_cases he : A.isEmpty = true
  · rw [if_pos he]
  · rw [if_neg he, if_pos]
    rcases h with rfl | h
    · simp at he
    · exact h

/-! ### Limits -/

/-- Specification: the bound at a path is `None`, or a well-formed scalar which can be broadcast to `a`. -/
def BoundFits (a : SA α) (b : Option (SA α)) : Prop := ∀ x, b = some x → FitsIn x.shape a.shape

/-- **C85** (`np.clip`). The array and the bounds are vectors which are structured like `P`, or scalars (`None` for a bound) standing for all the
components inside.  If at every path the bounds can be broadcast to the array, the result is structured like `P`, its component at
every path has the shape of the array's component, and each element is limited by the bounds at the same path and the same named index.
If at some path a bound has an axis or a size which the component of the array lacks, `ValueError` is raised. -/
theorem C85_clip_partial (mx mn : α → α → α) (P : Comp ρ) (hD : P.Dicts) (a : Comp (SA α)) (lo hi : Comp (Option (SA α)))
    (ha : a.WFLeaves) (hlo : ∀ x, some x ∈ lo.leaves → x.WF) (hhi : ∀ x, some x ∈ hi.leaves → x.WF)
    (haA : P.Along a) (hlA : P.Along lo) (hhA : P.Along hi) (hex : P.Similar a ∨ P.Similar lo ∨ P.Similar hi) :
    ((∀ p a' l' h', (P.leafAt p).isSome → a.leafB p = some a' → lo.leafB p = some l' → hi.leafB p = some h' →
        BoundFits a' l' ∧ BoundFits a' h') →
      ∃ r, clip mx mn a lo hi = .ok r ∧ P.Similar r ∧ ∀ p, (P.leafAt p).isSome → ∃ b a' l' h', r.leafAt p = some b ∧
        a.leafB p = some a' ∧ lo.leafB p = some l' ∧ hi.leafB p = some h' ∧ b.WF ∧ b.shape = a'.shape ∧
        ∀ e, InRange a'.shape e → ∃ y,
          (l' = none ∧ y = a'.at' e ∨ ∃ l, l' = some l ∧ y = mx (a'.at' e) (l.atB e)) ∧
          (h' = none ∧ b.at' e = y ∨ ∃ h, h' = some h ∧ b.at' e = mn y (h.atB e))) ∧
    ((∃ p a' l' h', (P.leafAt p).isSome ∧ a.leafB p = some a' ∧ lo.leafB p = some l' ∧ hi.leafB p = some h' ∧
        ¬ (BoundFits a' l' ∧ BoundFits a' h')) → clip mx mn a lo hi = .error .valueError) := by
  obtain ⟨a2, ha2⟩ := mapM_isOk' (fun a => (.ok (some a) : R (Option (SA α)))) a (fun a _ => ⟨_, rfl⟩)
  have hal : a.Lift (fun a b => b = some a) a2 := lift_mono (fun a b h => by injection h with h; exact h.symm) _ _
    ((mapM_lift _ a a2).1 ha2)
  have hrun : clip mx mn a lo hi = nary .ok (clipScalars mx mn) [a2, lo, hi] := by
    unfold clip
    rw [ha2]
    rfl
  have hA : ∀ v ∈ [a2, lo, hi], P.Along v := by
    intro v hv
    simp only [List.mem_cons, List.not_mem_nil, or_false] at hv
    rcases hv with rfl | rfl | rfl
    · exact along_lift P a _ haA hal
    · exact hlA
    · exact hhA
  have hex' : ∃ v ∈ [a2, lo, hi], P.Similar v := by
    rcases hex with h | h | h
    · exact ⟨a2, by simp, similar_lift h hal⟩
    · exact ⟨lo, by simp, h⟩
    · exact ⟨hi, by simp, h⟩
  obtain ⟨h1, h2⟩ := nary_plain (op := clipScalars mx mn) P hD [a2, lo, hi] hA hex'
  have hat : ∀ p as, At [a2, lo, hi] p as → ∃ a' l' h', as = [some a', l', h'] ∧
      a.leafB p = some a' ∧ lo.leafB p = some l' ∧ hi.leafB p = some h' := by
    intro p as h
    cases h with
    | cons g1 h =>
      cases h with
      | cons g2 h =>
        cases h with
        | cons g3 h =>
          cases h
          obtain ⟨a', e1, e2⟩ := lift_leafB hal p _ g1
          exact ⟨a', _, _, by rw [e2], e1, g2, g3⟩
  have hgood : ∀ p a' l' h', a.leafB p = some a' → lo.leafB p = some l' → hi.leafB p = some h' →
      BoundFits a' l' ∧ BoundFits a' h' → ∃ b, SA.clip mx mn a' l' h' = .ok b ∧ b.WF ∧ b.shape = a'.shape ∧
        ∀ e, InRange a'.shape e → ∃ y,
          (l' = none ∧ y = a'.at' e ∨ ∃ l, l' = some l ∧ y = mx (a'.at' e) (l.atB e)) ∧
          (h' = none ∧ b.at' e = y ∨ ∃ h, h' = some h ∧ b.at' e = mn y (h.atB e)) := by
    intro p a' l' h' e1 e2 e3 hfit
    exact SA.C57_clip mx mn a' (ha a' (leafB_mem_leaves a p a' e1)) l' h'
      (fun x hx => ⟨hlo x (by rw [← hx]; exact leafB_mem_leaves lo p l' e2), hfit.1 x hx⟩)
      (fun x hx => ⟨hhi x (by rw [← hx]; exact leafB_mem_leaves hi p h' e3), hfit.2 x hx⟩)
  have hbad : ∀ p a' l' h', a.leafB p = some a' → lo.leafB p = some l' → hi.leafB p = some h' →
      ¬ (BoundFits a' l' ∧ BoundFits a' h') → SA.clip mx mn a' l' h' = .error .valueError := by
    intro p a' l' h' e1 e2 e3 hfit
    refine SA.C57_clip_error mx mn a' (ha a' (leafB_mem_leaves a p a' e1)) l' h'
      (fun x hx => hlo x (by rw [← hx]; exact leafB_mem_leaves lo p l' e2))
      (fun x hx => hhi x (by rw [← hx]; exact leafB_mem_leaves hi p h' e3)) ?_
    by_contra hc
    simp only [not_or, not_exists, not_and, not_not] at hc
    exact hfit ⟨fun x hx => hc.1 x hx, fun x hx => hc.2 x hx⟩
  refine ⟨fun hall => ?_, ?_⟩
  · rw [hrun]
    obtain ⟨r, g1, g2, g3⟩ := h1 (fun p as hp h => by
      obtain ⟨a', l', h', rfl, e1, e2, e3⟩ := hat p as h
      obtain ⟨b, hb, _⟩ := hgood p a' l' h' e1 e2 e3 (hall p a' l' h' hp e1 e2 e3)
      exact ⟨b, hb⟩)
    refine ⟨r, g1, g2, fun p hp => ?_⟩
    obtain ⟨b, as, g4, g5, g6⟩ := g3 p hp
    obtain ⟨a', l', h', rfl, e1, e2, e3⟩ := hat p as g5
    obtain ⟨b', hb', k⟩ := hgood p a' l' h' e1 e2 e3 (hall p a' l' h' hp e1 e2 e3)
    have g6' : SA.clip mx mn a' l' h' = .ok b := g6
    rw [hb'] at g6'
    cases g6'
    exact ⟨b, a', l', h', g4, e1, e2, e3, k⟩
  · rintro ⟨p, a', l', h', hp, e1, e2, e3, hfit⟩
    rw [hrun]
    refine h2 .valueError (fun p as hp h => ?_) ⟨p, hp, fun as h => ?_⟩
    · obtain ⟨a', l', h', rfl, e1, e2, e3⟩ := hat p as h
      by_cases hf : BoundFits a' l' ∧ BoundFits a' h'
      · obtain ⟨b, hb, _⟩ := hgood p a' l' h' e1 e2 e3 hf
        exact .inl ⟨b, hb⟩
      · exact .inr (hbad p a' l' h' e1 e2 e3 hf)
    · obtain ⟨a1, l1, h1, rfl, f1, f2, f3⟩ := hat p as h
      rw [e1] at f1; rw [e2] at f2; rw [e3] at f3
      injection f1 with f1; injection f2 with f2; injection f3 with f3
      subst f1 f2 f3
      exact hbad p a' l' h' e1 e2 e3 hfit

/-- **C85 is false of the code** for limits which depend on an axis that a component lacks: the bound can be broadcast to the vector, and the call succeeds
once the components have been broadcast against each other, but it is a `ValueError` for the vector itself. -/
theorem C85_clip_refuted : exGrid.shape = .ok [("t", 2), ("w", 2)] ∧
    FitsIn (SA.shape (⟨["t"], ND.vec [1, 0]⟩ : SA Nat)) [("t", 2), ("w", 2)] ∧
    clip max min exGrid (.leaf none) (.leaf (some ⟨["t"], ND.vec [1, 0]⟩)) = .error .valueError ∧
    ∃ b r, exGrid.broadcasted = .ok b ∧ clip max min b (.leaf none) (.leaf (some ⟨["t"], ND.vec [1, 0]⟩)) = .ok r := by
  have h0 : exGrid.shape = .ok [("t", 2), ("w", 2)] := by decide
  have hw : exGrid.WFLeaves := by
    intro a ha
    simp only [exGrid, leaves, leavesL, List.mem_append, List.mem_singleton, List.not_mem_nil, or_false] at ha
    rcases ha with rfl | rfl <;> constructor <;> decide
  have hD : exGrid.Dicts := by
    simp only [exGrid, Dicts, DictsL, and_true]
    decide
  refine ⟨h0, ?_, ?_, ?_⟩
  · intro ax m hm
    have hm' : get? [("t", 2)] ax = some m := hm
    rw [get?_cons, get?_nil] at hm'
    split at hm'
    · next h =>
      subst h
      injection hm' with hm'
      subst hm'
      exact ⟨2, rfl, .inl rfl⟩
    · cases hm'
  · refine (C85_clip_partial max min exGrid hD exGrid (.leaf none) (.leaf (some ⟨["t"], ND.vec [1, 0]⟩)) hw ?_ ?_
      (along_of_similar _ _ (similar_refl _)) (along_leaf _ _) (along_leaf _ _) (.inl (similar_refl _))).2
      ⟨["y"], ⟨["w"], ⟨[2], fun i => 5 * i.getD 0 0⟩⟩, none, some ⟨["t"], ND.vec [1, 0]⟩, rfl, rfl, rfl, rfl, ?_⟩
    · intro x hx; simp [leaves] at hx
    · intro x hx
      simp only [leaves, List.mem_singleton, Option.some.injEq] at hx
      subst hx
      constructor <;> decide
    · intro h
      obtain ⟨n, hn, _⟩ := h.2 _ rfl "t" 2 rfl
      exact absurd (hn.symm.trans (show _ = none by decide)) (by simp)
  · cases hb : exGrid.broadcasted with
    | error e =>
      exact absurd (show (exGrid.broadcasted).isOk = true by decide) (by rw [hb]; simp [Except.isOk, Except.toBool])
    | ok b =>
      cases hc : clip max min b (.leaf none) (.leaf (some ⟨["t"], ND.vec [1, 0]⟩)) with
      | ok r => exact ⟨b, r, rfl, hc⟩
      | error e =>
        have : (do let b ← exGrid.broadcasted
                   clip max min b (.leaf none) (.leaf (some ⟨["t"], ND.vec [1, 0]⟩)) : R _).isOk = true := by decide +kernel
        rw [hb] at this
        simp only [bind, Except.bind, hc] at this
        simp [Except.isOk, Except.toBool] at this

/-! ### Examples -/

/-- a component along `t`, and a position with a constant component and one along `t` and `w` -/
def exLevels : Comp (SA Nat) := .node "Spectral"
  [("h", .leaf ⟨["t"], ND.vec [3, 1, 2]⟩),
   ("p", .node "Cartesian2d" [("x", .leaf ⟨[], ⟨[], fun _ => 7⟩⟩),
     ("y", .leaf ⟨["w", "t"], ⟨[2, 3], fun i => 10 * i.getD 0 0 + (3 - i.getD 1 0)⟩⟩)])]

theorem exLevels_shape : exLevels.shape = .ok [("t", 3), ("w", 2)] := by decide

theorem exLevels_ok : exLevels.WFLeaves ∧ exLevels.Full ∧ exLevels.Dicts := by
  refine ⟨?_, by simp [exLevels, Full, FullL], ?_⟩
  · intro a ha
    simp only [exLevels, leaves, leavesL, List.append_nil, List.mem_append, List.mem_singleton] at ha
    rcases ha with rfl | rfl | rfl <;> constructor <;> decide
  · simp only [exLevels, Dicts, DictsL, and_true]
    decide

example := C85_sort exLevels exLevels_ok.1 exLevels_ok.2.1 _ exLevels_shape (some ["t"]) ["t"] rfl (by simp) (by simp)
  (by decide) (by decide) (by decide) (· ≤ ·) (fun _ => le_rfl) SA.exSort SA.exSort_isSort 0
example := C85_sort exLevels exLevels_ok.1 exLevels_ok.2.1 _ exLevels_shape none ["t", "w"] rfl (by simp) (by simp)
  (by decide) (by decide) (by decide) (· ≤ ·) (fun _ => le_rfl) SA.exSort SA.exSort_isSort 0
example : valuesAt (exLevels.sort SA.exSort 0 (some ["t"])) ["h"] = some (["t"], [1, 2, 3]) := by decide
example : valuesAt (exLevels.sort SA.exSort 0 (some ["t"])) ["p", "x"] = some (["w", "t"], [7, 7, 7, 7, 7, 7]) := by decide
example : valuesAt (exLevels.sort SA.exSort 0 (some ["t"])) ["p", "y"] = some (["w", "t"], [1, 2, 3, 11, 12, 13]) := by decide
example : valuesAt (exLevels.sort SA.exSort 0 (some ["w"])) ["h"] = some (["t"], [3, 1, 2]) := by decide
example : valuesAt (exLevels.sort SA.exSort 0 none) ["p", "y"] = some (["t*w"], [1, 2, 3, 11, 12, 13]) := by decide

/-- a choice of an order statistic for each number -/
def exPick (q : Nat) (l : List Nat) : Nat := (SA.exSort l).getD q 0

/-- a vector of numbers -/
def exRanks : Comp (SA Nat) := .node "Spectral"
  [("h", .leaf ⟨[], ⟨[], fun _ => 0⟩⟩), ("p", .leaf ⟨["q"], ND.vec [0, 2]⟩)]

theorem exRanks_ok : ∀ p a, exLevels.leafAt p = some a →
    ∃ q', exRanks.leafB p = some q' ∧ QFor (fun q => decide (q ≤ 2)) [("t", 3), ("w", 2)] q' := by
  have h1 : QFor (fun q => decide (q ≤ 2)) [("t", 3), ("w", 2)] (⟨[], ⟨[], fun _ => 0⟩⟩ : SA Nat) :=
    ⟨by constructor <;> decide, by decide, by decide, fun _ _ => rfl⟩
  have h2 : QFor (fun q => decide (q ≤ 2)) [("t", 3), ("w", 2)] (⟨["q"], ND.vec [0, 2]⟩ : SA Nat) := by
    refine ⟨by constructor <;> decide, by decide, by decide, fun e he => ?_⟩
    have := he "q" 2 rfl
    simp only [SA.at', ND.vec, List.map_cons, List.map_nil]
    interval_cases h : e "q" <;> decide
  intro p a ha
  cases p with
  | nil => simp [exLevels, leafAt] at ha
  | cons k p =>
    simp only [exLevels, leafAt, get?_cons, get?_nil] at ha
    by_cases hk : "h" = k
    · subst hk
      exact ⟨⟨[], ⟨[], fun _ => 0⟩⟩, by simp only [exRanks, leafB, get?_cons, if_true, leafB_leaf], h1⟩
    · rw [if_neg hk] at ha
      by_cases hp : "p" = k
      · subst hp
        exact ⟨⟨["q"], ND.vec [0, 2]⟩, by simp only [exRanks, leafB, get?_cons, if_neg hk, if_true, leafB_leaf], h2⟩
      · simp [hp] at ha

example := C85_percentile (fun q => decide (q ≤ 2)) exPick exLevels exLevels_ok.1 exLevels_ok.2.1 exLevels_ok.2.2 _ exLevels_shape
  exRanks (some ["t"]) ["t"] rfl (by simp) (by decide) (by decide) exRanks_ok false
example : valuesAt (exLevels.percentile (fun q => decide (q ≤ 2)) exPick exRanks (some ["t"]) false) ["h"] = some ([], [1]) := by decide
example : valuesAt (exLevels.percentile (fun q => decide (q ≤ 2)) exPick exRanks (some ["t"]) false) ["p", "x"] =
    some (["q", "w"], [7, 7, 7, 7]) := by decide
example : valuesAt (exLevels.percentile (fun q => decide (q ≤ 2)) exPick exRanks (some ["t"]) false) ["p", "y"] =
    some (["q", "w"], [1, 11, 3, 13]) := by decide
example : valuesAt (exLevels.percentile (fun q => decide (q ≤ 2)) exPick exRanks none true) ["p", "y"] =
    some (["q", "w", "t"], [1, 3]) := by decide
example : (exLevels.percentile (fun q => decide (q ≤ 2)) exPick (.leaf ⟨["w"], ND.vec [0, 2]⟩) (some ["t"]) false).map (fun _ => 0) =
    .error .valueError := by decide
example : (exLevels.percentile (fun q => decide (q ≤ 2)) exPick (.node "Spectral" [("h", .leaf ⟨[], ⟨[], fun _ => 0⟩⟩)])
    (some ["t"]) false).map (fun _ => 0) = .error .keyError := by decide

/-- a transform of lines: the sum of the first `k + 1` elements -/
def exPrefix : ND.Line Nat := ⟨fun n => n, fun m => m, fun _ l k => (l.take (k + 1)).sum⟩

example := C85_fft exPrefix exLevels exLevels_ok.1 exLevels_ok.2.1 _ exLevels_shape "t" "f" 3 rfl (.inr (by decide)) none 3 rfl (by decide)
example : valuesAt (exLevels.fft exPrefix ("t", "f") none) ["p", "x"] = some (["w", "f"], [7, 14, 21, 7, 14, 21]) := by decide
example : valuesAt (exLevels.fft exPrefix ("t", "f") none) ["p", "y"] = some (["w", "f"], [3, 5, 6, 13, 25, 36]) := by decide
example : (exLevels.fft exPrefix ("t", "w") none).map (fun _ => 0) = .error .valueError := by decide

/-- coefficients -/
def exCoefficients (_ k j : Nat) : Int := if k = j then 1 else 2

/-- two components along one axis each -/
def exSpread : Comp (SA Int) := .node "Cartesian2d" [("x", .leaf ⟨["t"], ND.vec [1, 5]⟩), ("y", .leaf ⟨["w"], ND.vec [3, 4]⟩)]

example := C85_fftn exCoefficients exSpread (by
    intro a ha
    simp only [exSpread, leaves, leavesL, List.append_nil, List.mem_append, List.mem_singleton] at ha
    rcases ha with rfl | rfl <;> constructor <;> decide) (by simp [exSpread, Full, FullL]) [("t", 2), ("w", 2)] (by decide)
  [("t", "f"), ("w", "g")] (by decide) (by decide) none (fun _ => 2) (by simp [UA.PointsIn, keys, get?_cons]) (by decide) (by decide)

example : ∃ r, clip max min exLevels (.leaf none) (.leaf (some (SA.scalar 8))) = .ok r ∧ exLevels.Similar r := by
  obtain ⟨r, h1, h2, _⟩ := (C85_clip_partial max min exLevels exLevels_ok.2.2 exLevels (.leaf none) (.leaf (some (SA.scalar 8))) exLevels_ok.1
    (by intro x hx; simp [leaves] at hx) (by
      intro x hx
      simp only [leaves, List.mem_singleton, Option.some.injEq] at hx
      subst hx
      constructor <;> decide)
    (along_of_similar _ _ (similar_refl _)) (along_leaf _ _) (along_leaf _ _) (.inl (similar_refl _))).1 (by
      intro p a' l' h' _ _ hl hh
      rw [leafB_leaf] at hl hh
      injection hl with hl
      injection hh with hh
      subst hl hh
      refine ⟨fun x hx => by (cases hx), fun x hx => ?_⟩
      injection hx with hx
      subst hx
      intro ax m hm
      cases hm)
  exact ⟨r, h1, h2⟩
example : valuesAt (clip max min exLevels (.leaf none)
    (.node "Spectral" [("h", .leaf (some ⟨["t"], ND.vec [2, 2, 1]⟩)), ("p", .leaf (some (SA.scalar 8)))])) ["h"] =
    some (["t"], [2, 1, 1]) := by decide
example : valuesAt (clip max min exLevels (.leaf none)
    (.node "Spectral" [("h", .leaf (some ⟨["t"], ND.vec [2, 2, 1]⟩)), ("p", .leaf (some (SA.scalar 8)))])) ["p", "y"] =
    some (["w", "t"], [3, 2, 1, 8, 8, 8]) := by decide

end Comp
end NA
