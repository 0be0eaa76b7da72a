import Verif.Vector.CopyTo
import Verif.Props.VectorSet
import Verif.Props.UncertainCopy
import Verif.Props.VectorArgsort

/-!
# C88: `np.copyto` for vectors
-/

namespace NA
open Dict Comp
open SA (FitsIn InRange)
namespace Comp
variable {α : Type}

/-- Specification: the destination is a scalar array, and numpy allows the cast of the source. -/
def Copies (allowed : SA α → Slot α → Bool) (d s : Slot α) : Prop :=
  ∃ a, d = .array a ∧ a.WF ∧ s.toSA.WF ∧ allowed a s = true

theorem copyInto_main (allowed : SA α → Slot α → Bool) {a : SA α} (ha : a.WF) {w : SA Bool} (hw : w.WF) {s : Slot α} (hs : s.toSA.WF)
    (hal : allowed a s = true) :
    (UA.CopyFits a s.toSA w ∧ ∃ r, s.copyInto allowed a w = .ok r ∧ UA.MaskedCopy r a s.toSA w) ∨
      (¬ UA.CopyFits a s.toSA w ∧ s.copyInto allowed a w = .error .valueError) := by
  have hrun : s.copyInto allowed a w = a.copyto true s.toSA (some w) := by
    cases s with
    | number x => simp only [Slot.copyInto, hal, if_true, Slot.toSA]
    | array b => simp only [Slot.copyInto, hal, Slot.toSA]
  rw [hrun]
  rcases SA.C49_scalar_partial a s.toSA w ha hs hw with ⟨h1, h2, r, h3, h4⟩ | ⟨h1, h2⟩
  · exact .inl ⟨⟨h1, h2⟩, r, h3, h4⟩
  · exact .inr ⟨h1, h2⟩

/-- The outcome: everything is copied, or `ValueError` is raised. -/
theorem copytoAux_outcome (allowed : SA α → Slot α → Bool) (w : SA Bool) (hw : w.WF) : ∀ (dst src : Comp (Slot α)), dst.Dicts →
    dst.Accepts src → (∀ p d s, dst.leafAt p = some d → src.leafB p = some s → Copies allowed d s) →
    ∃ r o, copytoAux allowed w dst src = (r, o) ∧ dst.Similar r ∧
      (∀ p a, dst.leafAt p = some (.array a) → ∃ s r', src.leafB p = some s ∧ r.leafAt p = some (.array r') ∧
        (UA.MaskedCopy r' a s.toSA w ∨ (o ≠ none ∧ r' = a))) ∧
      ((o = none ∧ ∀ p a s, dst.leafAt p = some (.array a) → src.leafB p = some s → UA.CopyFits a s.toSA w) ∨
        (o = some .valueError ∧ ∃ p a s, dst.leafAt p = some (.array a) ∧ src.leafB p = some s ∧ ¬ UA.CopyFits a s.toSA w)) := by
  refine ind ?_ ?_
  · rintro d (s | ⟨_, _⟩) _ hacc h
    · obtain ⟨a, rfl, ha, hs, hal⟩ := h [] d s rfl rfl
      have hone : ∀ p (b : Slot α), (Comp.leaf (Slot.array a)).leafAt p = some b → p = [] ∧ b = .array a := by
        intro p b hb
        cases p with
        | nil => simp only [leafAt, Option.some.injEq] at hb; exact ⟨rfl, hb.symm⟩
        | cons _ _ => simp [leafAt] at hb
      rcases copyInto_main allowed ha hw hs hal with ⟨h1, r, h2, h3⟩ | ⟨h1, h2⟩
      · refine ⟨.leaf (.array r), none, by simp only [copytoAux, h2], by simp [Similar, Lift], ?_, .inl ⟨rfl, ?_⟩⟩
        · intro p b hb
          obtain ⟨rfl, hba⟩ := hone p _ hb
          obtain rfl : b = a := by injection hba
          exact ⟨s, r, rfl, rfl, .inl h3⟩
        · intro p b s' hb hs'
          obtain ⟨rfl, hba⟩ := hone p _ hb
          obtain rfl : b = a := by injection hba
          simp only [leafB, Option.some.injEq] at hs'
          subst hs'
          exact h1
      · refine ⟨.leaf (.array a), some .valueError, by simp only [copytoAux, h2], by simp [Similar, Lift], ?_,
          .inr ⟨rfl, [], a, s, rfl, rfl, h1⟩⟩
        intro p b hb
        obtain ⟨rfl, hba⟩ := hone p _ hb
        obtain rfl : b = a := by injection hba
        exact ⟨s, b, rfl, rfl, .inr ⟨by simp, rfl⟩⟩
    · simp [Accepts] at hacc
  · intro cls cs ih src hD hacc h
    obtain ⟨srcs, hsrcs, hcs⟩ := componentsOf_accepts hacc
    simp only [Dicts, dictsL_iff] at hD
    -- the loop
    have key : ∀ l : List (String × Comp (Slot α)), (∀ q ∈ l, q ∈ cs) → Dict.WF l →
        ∃ l' o, copytoL allowed w l srcs = (l', o) ∧ List.Forall₂ (fun q q' => q.1 = q'.1 ∧ q.2.Similar q'.2 ∧
          ∀ p a, q.2.leafAt p = some (.array a) → ∃ s r', src.leafB (q.1 :: p) = some s ∧ q'.2.leafAt p = some (.array r') ∧
            (UA.MaskedCopy r' a s.toSA w ∨ (o ≠ none ∧ r' = a))) l l' ∧
          ((o = none ∧ ∀ q ∈ l, ∀ p a s, q.2.leafAt p = some (.array a) → src.leafB (q.1 :: p) = some s → UA.CopyFits a s.toSA w) ∨
            (o = some .valueError ∧ ∃ q ∈ l, ∃ p a s, q.2.leafAt p = some (.array a) ∧ src.leafB (q.1 :: p) = some s ∧
              ¬ UA.CopyFits a s.toSA w)) := by
      intro l
      induction l with
      | nil =>
        intro _ _
        exact ⟨[], none, rfl, .nil, .inl ⟨rfl, by simp⟩⟩
      | cons q l ihl =>
        intro hsub hwf
        obtain ⟨k, c⟩ := q
        have hq : (k, c) ∈ cs := hsub _ List.mem_cons_self
        obtain ⟨s, hs, hsacc⟩ := hcs _ hq
        simp only at hs hsacc
        have hat := componentsOf_at hsrcs hs
        have hget : get? cs k = some c := get?_of_mem hD.1 hq
        obtain ⟨r, o, h1, h2, h3, h4⟩ := ih _ hq s (hD.2 _ hq) hsacc (by
          intro p d s' hd hs'
          refine h (k :: p) d s' ?_ ?_
          · simp only [leafAt, hget]; exact hd
          · rw [← hat]; exact hs')
        simp only at h1 h2 h3 h4
        rcases h4 with ⟨rfl, h4⟩ | ⟨rfl, p, a, s', h4, h5, h6⟩
        · obtain ⟨l', o, g1, g2, g3⟩ := ihl (fun q hq => hsub q (List.mem_cons_of_mem _ hq)) (wf_cons.1 hwf).2
          refine ⟨(k, r) :: l', o, by simp only [copytoL, hs, h1, g1], .cons ⟨rfl, h2, ?_⟩ g2, ?_⟩
          · intro p a ha
            obtain ⟨s', r', e1, e2, e3⟩ := h3 p a ha
            refine ⟨s', r', by rw [← hat]; exact e1, e2, ?_⟩
            rcases e3 with e3 | ⟨e3, _⟩
            · exact .inl e3
            · exact absurd rfl e3
          · rcases g3 with ⟨rfl, g3⟩ | ⟨rfl, q', hq', g3⟩
            · refine .inl ⟨rfl, ?_⟩
              intro q' hq' p a s' ha hs'
              rcases List.mem_cons.1 hq' with rfl | hq'
              · exact h4 p a s' ha (by rw [hat]; exact hs')
              · exact g3 q' hq' p a s' ha hs'
            · exact .inr ⟨rfl, q', List.mem_cons_of_mem _ hq', g3⟩
        · refine ⟨(k, r) :: l, some .valueError, by simp only [copytoL, hs, h1], .cons ⟨rfl, h2, ?_⟩ ?_, ?_⟩
          · intro p a ha
            obtain ⟨s', r', e1, e2, e3⟩ := h3 p a ha
            exact ⟨s', r', by rw [← hat]; exact e1, e2, e3⟩
          · have hrest : ∀ q ∈ l, q ∈ cs := fun q hq => hsub q (List.mem_cons_of_mem _ hq)
            rw [List.forall₂_same]
            intro q hq'
            refine ⟨rfl, similar_refl _, ?_⟩
            intro p a ha
            obtain ⟨s', hs', hsacc'⟩ := hcs _ (hrest q hq')
            obtain ⟨x, hx⟩ := accepts_leafB q.2 s' hsacc' p _ ha
            exact ⟨x, a, by rw [← componentsOf_at hsrcs hs']; exact hx, ha, .inr ⟨by simp, rfl⟩⟩
          · exact .inr ⟨rfl, (k, c), List.mem_cons_self, p, a, s', h4, by rw [← hat]; exact h5, h6⟩
    obtain ⟨l', o, g1, g2, g3⟩ := key cs (fun _ h => h) hD.1
    refine ⟨.node cls l', o, by simp only [copytoAux, hsrcs, g1], ?_, ?_, ?_⟩
    · simp only [Similar, Lift, liftL_iff, true_and]
      exact g2.imp (fun _ _ h => ⟨h.1, h.2.1⟩)
    · intro p a ha
      cases p with
      | nil => simp [leafAt] at ha
      | cons k p =>
        simp only [leafAt] at ha ⊢
        rcases get?_of_forall₂ (P := fun k (c c' : Comp (Slot α)) => ∀ p a, c.leafAt p = some (.array a) → ∃ s r', src.leafB (k :: p) = some s ∧
            c'.leafAt p = some (.array r') ∧ (UA.MaskedCopy r' a s.toSA w ∨ (o ≠ none ∧ r' = a)))
            (g2.imp (fun _ _ h => ⟨h.1, h.2.2⟩)) k with ⟨h1, _⟩ | ⟨c, c', h1, h2, h3⟩
        · rw [h1] at ha; simp at ha
        · rw [h1] at ha
          rw [h2]
          exact h3 p a ha
    · rcases g3 with ⟨rfl, g3⟩ | ⟨rfl, q, hq, p, a, s, h1, h2, h3⟩
      · refine .inl ⟨rfl, ?_⟩
        intro p a s ha hs
        cases p with
        | nil => simp [leafAt] at ha
        | cons k p =>
          simp only [leafAt] at ha
          cases hg : get? cs k with
          | none => rw [hg] at ha; simp at ha
          | some c =>
            rw [hg] at ha
            exact g3 (k, c) (mem_of_get? hg) p a s ha hs
      · exact .inr ⟨rfl, q.1 :: p, a, s, by simp only [leafAt, get?_of_mem hD.1 hq]; exact h1, h2, h3⟩

/-- **C88** If the source is a scalar or a vector of the type of the destination, all components of the destination are arrays, numpy allows
the casts, and the source and the mask broadcast to each component of the destination, `np.copyto(dst, src, where=w)` changes exactly the
elements of each component at which the mask is true, to the elements of the source of the same names. -/
theorem C88_copyto_partial (allowed : SA α → Slot α → Bool) (dst src : Comp (Slot α)) (w : SA Bool) (hw : w.WF) (hD : dst.Dicts)
    (hacc : dst.Accepts src)
    (h : ∀ p d s, dst.leafAt p = some d → src.leafB p = some s → ∃ a, d = .array a ∧ a.WF ∧ s.toSA.WF ∧ allowed a s = true ∧
      FitsIn s.toSA.shape a.shape ∧ FitsIn w.shape a.shape) :
    ∃ r, copyto allowed dst src (.leaf w) = (r, none) ∧ dst.Similar r ∧
      ∀ p a, dst.leafAt p = some (.array a) → ∃ s r', src.leafB p = some s ∧ r.leafAt p = some (.array r') ∧ r'.WF ∧ r'.shape = a.shape ∧
        ∀ e, InRange a.shape e → r'.at' e = if w.atB e then s.toSA.atB e else a.at' e := by
  obtain ⟨r, o, h1, h2, h3, h4⟩ := copytoAux_outcome allowed w hw dst src hD hacc (fun p d s hd hs => by
    obtain ⟨a, h1, h2, h3, h4, _⟩ := h p d s hd hs
    exact ⟨a, h1, h2, h3, h4⟩)
  rcases h4 with ⟨rfl, _⟩ | ⟨_, p, a, s, g1, g2, g3⟩
  · refine ⟨r, h1, h2, ?_⟩
    intro p a ha
    obtain ⟨s, r', e1, e2, e3⟩ := h3 p a ha
    rcases e3 with e3 | ⟨e3, _⟩
    · exact ⟨s, r', e1, e2, e3⟩
    · exact absurd rfl e3
  · obtain ⟨a', e1, _, _, _, e5⟩ := h p _ s g1 g2
    injection e1 with e1
    subst e1
    exact absurd e5 g3

/-- **C88** (errors). If the source or the mask does not broadcast to some component, `ValueError` is raised; every component is then
either unchanged or copied completely. -/
theorem C88_error (allowed : SA α → Slot α → Bool) (dst src : Comp (Slot α)) (w : SA Bool) (hw : w.WF) (hD : dst.Dicts)
    (hacc : dst.Accepts src)
    (h : ∀ p d s, dst.leafAt p = some d → src.leafB p = some s → ∃ a, d = .array a ∧ a.WF ∧ s.toSA.WF ∧ allowed a s = true)
    (p : List String) (a : SA α) (s : Slot α) (ha : dst.leafAt p = some (.array a)) (hs : src.leafB p = some s)
    (hmis : ¬ (FitsIn s.toSA.shape a.shape ∧ FitsIn w.shape a.shape)) :
    ∃ r, copyto allowed dst src (.leaf w) = (r, some .valueError) ∧ dst.Similar r ∧
      ∀ p a, dst.leafAt p = some (.array a) → ∃ s r', src.leafB p = some s ∧ r.leafAt p = some (.array r') ∧
        (r' = a ∨ (r'.WF ∧ r'.shape = a.shape ∧ ∀ e, InRange a.shape e → r'.at' e = if w.atB e then s.toSA.atB e else a.at' e)) := by
  obtain ⟨r, o, h1, h2, h3, h4⟩ := copytoAux_outcome allowed w hw dst src hD hacc h
  rcases h4 with ⟨rfl, h4⟩ | ⟨rfl, _⟩
  · exact absurd (h4 p a s ha hs) hmis
  · refine ⟨r, h1, h2, ?_⟩
    intro p a ha
    obtain ⟨s, r', e1, e2, e3⟩ := h3 p a ha
    rcases e3 with e3 | ⟨_, e3⟩
    · exact ⟨s, r', e1, e2, .inr e3⟩
    · exact ⟨s, r', e1, e2, .inl e3⟩

/-- **C88** (types). A source which is a vector of another type raises `TypeError` and changes nothing. -/
theorem C88_type_error (allowed : SA α → Slot α → Bool) (cls cls' : String) (cs cs' : List (String × Comp (Slot α))) (w : SA Bool)
    (h : cls' ≠ cls) : copyto allowed (.node cls cs) (.node cls' cs') (.leaf w) = (.node cls cs, some .typeError) := by
  simp only [copyto, copytoAux, componentsOf, if_neg h]

/-- **C88** (masks, refuted). A mask which is a vector, which the signature promises, raises `TypeError` for every destination and every source,
and nothing is copied. -/
theorem C88_vector_mask_refuted (allowed : SA α → Slot α → Bool) (dst src : Comp (Slot α)) (cls : String)
    (ws : List (String × Comp (SA Bool))) : copyto allowed dst src (.node cls ws) = (dst, some .typeError) := rfl

theorem copytoL_typeError (allowed : SA α → Slot α → Bool) (w : SA Bool) (k : String) (c s : Comp (Slot α)) :
    ∀ (l : List (String × Comp (Slot α))) (srcs : Dict (Comp (Slot α))), get? l k = some c → get? srcs k = some s →
      (copytoAux allowed w c s).2 = some .typeError → (copytoL allowed w l srcs).2 = none → get? (copytoL allowed w l srcs).1 k = some s := by
  intro l
  induction l with
  | nil => intro srcs h; simp [get?_nil] at h
  | cons q l ih =>
    intro srcs hl hs he hn
    obtain ⟨k', c'⟩ := q
    rw [get?_cons] at hl
    simp only [copytoL] at hn ⊢
    by_cases hk : k' = k
    · subst hk
      rw [if_pos rfl] at hl
      injection hl with hl
      subst hl
      rw [hs] at hn ⊢
      simp only at hn ⊢
      rcases hr : copytoAux allowed w c' s with ⟨c'', o⟩
      rw [hr] at he hn
      simp only at he
      subst he
      simp only [get?_cons, if_true]
    · rw [if_neg hk] at hl
      cases hg : get? srcs k' with
      | none => rw [hg] at hn; simp at hn
      | some s' =>
        rw [hg] at hn
        simp only at hn ⊢
        rcases hr : copytoAux allowed w c' s' with ⟨c'', o⟩
        rw [hr] at hn
        cases o with
        | none =>
          simp only at hn ⊢
          rw [get?_cons, if_neg hk]
          exact ih srcs hl hs he hn
        | some e =>
          cases e with
          | typeError =>
            simp only at hn ⊢
            rw [get?_cons, if_neg hk]
            exact ih srcs hl hs he hn
          | _ => simp at hn

/-- **C88** (numbers). Whatever the mask is: a component which is a python number is replaced by the source's. -/
theorem C88_number (allowed : SA α → Slot α → Bool) (cls : String) (cs cs' : List (String × Comp (Slot α))) (w : SA Bool)
    (k : String) (x : α) (s : Comp (Slot α)) (hk : get? cs k = some (.leaf (.number x))) (hs : get? cs' k = some s) (r : Comp (Slot α))
    (hr : copyto allowed (.node cls cs) (.node cls cs') (.leaf w) = (r, none)) :
    ∃ rs, r = .node cls rs ∧ get? rs k = some s := by
  simp only [copyto, copytoAux, componentsOf, if_true] at hr
  injection hr with h1 h2
  exact ⟨_, h1.symm, copytoL_typeError allowed w k _ s cs cs' hk hs rfl h2⟩

/-- **C88** (structure). A scalar component for which the source has a vector is replaced by this vector, whatever the mask is. -/
theorem C88_structure (allowed : SA α → Slot α → Bool) (cls : String) (cs cs' : List (String × Comp (Slot α))) (w : SA Bool)
    (k : String) (a : Slot α) (cls'' : String) (cs'' : List (String × Comp (Slot α))) (hk : get? cs k = some (.leaf a))
    (hs : get? cs' k = some (.node cls'' cs'')) (r : Comp (Slot α))
    (hr : copyto allowed (.node cls cs) (.node cls cs') (.leaf w) = (r, none)) :
    ∃ rs, r = .node cls rs ∧ get? rs k = some (.node cls'' cs'') := by
  simp only [copyto, copytoAux, componentsOf, if_true] at hr
  injection hr with h1 h2
  refine ⟨_, h1.symm, copytoL_typeError allowed w k _ _ cs cs' hk hs ?_ h2⟩
  cases a <;> rfl

/-- **C88** (missing components). A source of the type of the destination which lacks one of its components raises. -/
theorem C88_missing (allowed : SA α → Slot α → Bool) (cls : String) (cs cs' : List (String × Comp (Slot α))) (w : SA Bool) (k : String)
    (hk : k ∈ Dict.keys cs) (hmiss : k ∉ Dict.keys cs') : (copyto allowed (.node cls cs) (.node cls cs') (.leaf w)).2 ≠ none := by
  simp only [copyto, copytoAux, componentsOf, if_true]
  induction cs with
  | nil => simp [keys] at hk
  | cons q l ih =>
    obtain ⟨k', c⟩ := q
    intro hn
    simp only [copytoL] at hn
    cases hg : get? cs' k' with
    | none => rw [hg] at hn; simp at hn
    | some s =>
      have hkl : k ∈ Dict.keys l := by
        rcases List.mem_cons.1 hk with h | h
        · simp only at h
          subst h
          exact absurd (mem_keys_of_get? hg) hmiss
        · exact h
      rw [hg] at hn
      simp only at hn
      rcases hr : copytoAux allowed w c s with ⟨c', o⟩
      rw [hr] at hn
      cases o with
      | none => exact ih hkl hn
      | some e =>
        cases e with
        | typeError => exact ih hkl hn
        | _ => simp at hn

/-! ### Refutations and examples -/

/-- **C88** is violated for components which are numbers: `np.copyto(dst, src, where=False)` changes the vector. -/
theorem C88_number_refuted : ∃ (dst src : Comp (Slot Nat)), dst.Dicts ∧ dst.Accepts src ∧
    (copyto (fun _ _ => true) dst src (.leaf (SA.scalar false))).2 = none ∧
    (dst.leafAt ["y"]).map (fun d => d.toSA.nd.toList) = some [2] ∧
    ((copyto (fun _ _ => true) dst src (.leaf (SA.scalar false))).1.leafAt ["y"]).map (fun d => d.toSA.nd.toList) = some [4] := by
  refine ⟨.node "C" [("x", .leaf (.array (SA.scalar 1))), ("y", .leaf (.number 2))],
    .node "C" [("x", .leaf (.number 3)), ("y", .leaf (.number 4))], ?_, ?_, by decide +kernel, by decide +kernel, by decide +kernel⟩
  · simp only [Dicts, DictsL]
    decide
  · exact ⟨rfl, ⟨_, rfl, trivial⟩, ⟨_, rfl, trivial⟩, trivial⟩

/-- **C88** is violated for casts which numpy does not allow: the mask is ignored. -/
theorem C88_cast_refuted : ∃ (dst src : Comp (Slot Nat)), dst.Dicts ∧ dst.Accepts src ∧
    (copyto (fun _ _ => false) dst src (.leaf (SA.scalar false))).2 = none ∧
    (dst.leafAt ["x"]).map (fun d => d.toSA.nd.toList) = some [1] ∧
    ((copyto (fun _ _ => false) dst src (.leaf (SA.scalar false))).1.leafAt ["x"]).map (fun d => d.toSA.nd.toList) = some [3] := by
  refine ⟨.node "C" [("x", .leaf (.array (SA.scalar 1)))], .node "C" [("x", .leaf (.array (SA.scalar 3)))], ?_, ?_, by decide +kernel,
    by decide +kernel, by decide +kernel⟩
  · simp only [Dicts, DictsL]
    decide
  · exact ⟨rfl, ⟨_, rfl, trivial⟩, trivial⟩

/-- A vector with a nested vector. -/
def exCopyTo : Comp (Slot Nat) :=
  .node "S" [("w", .leaf (.array ⟨["t"], ⟨[3], fun i => i.getD 0 0⟩⟩)),
    ("p", .node "C" [("x", .leaf (.array ⟨["t", "u"], ⟨[3, 2], fun i => 10 * i.getD 0 0 + i.getD 1 0⟩⟩)),
      ("y", .leaf (.array ⟨["u", "t"], ⟨[2, 3], fun _ => 5⟩⟩))])]

/-- A source. -/
def exCopyFrom : Comp (Slot Nat) :=
  .node "S" [("p", .leaf (.array ⟨["t"], ⟨[3], fun i => 70 + i.getD 0 0⟩⟩)), ("w", .leaf (.number 9))]

/-- A mask. -/
def exCopyMask : SA Bool := ⟨["t"], ⟨[3], fun i => i.getD 0 0 != 1⟩⟩

/-- **C88** is violated when an error is raised: the components before the one which does not fit are changed. -/
theorem C88_atomic_refuted :
    (copyto (fun _ _ => true) exCopyTo (.node "S" [("p", .leaf (.array ⟨["v"], ⟨[3], fun _ => 0⟩⟩)), ("w", .leaf (.number 9))])
        (.leaf exCopyMask)).2 = some .valueError ∧
    ((copyto (fun _ _ => true) exCopyTo (.node "S" [("p", .leaf (.array ⟨["v"], ⟨[3], fun _ => 0⟩⟩)), ("w", .leaf (.number 9))])
        (.leaf exCopyMask)).1.leafAt ["w"]).map (fun d => d.toSA.nd.toList) = some [9, 1, 9] := by
  refine ⟨by decide +kernel, by decide +kernel⟩

example : ∃ r, copyto (fun _ _ => true) exCopyTo exCopyFrom (.leaf exCopyMask) = (r, none) ∧ exCopyTo.Similar r ∧
    ∀ p a, exCopyTo.leafAt p = some (.array a) → ∃ s r', exCopyFrom.leafB p = some s ∧ r.leafAt p = some (.array r') ∧ r'.WF ∧
      r'.shape = a.shape ∧ ∀ e, InRange a.shape e → r'.at' e = if exCopyMask.atB e then s.toSA.atB e else a.at' e := by
  refine C88_copyto_partial (fun _ _ => true) exCopyTo exCopyFrom exCopyMask ⟨by decide, by decide⟩ ?_ ?_ ?_
  · simp only [exCopyTo, Dicts, DictsL]
    decide
  · exact ⟨rfl, ⟨_, rfl, trivial⟩, ⟨_, rfl, trivial⟩, trivial⟩
  · have hfit : ∀ (n : Nat) (s : Shape), get? s "t" = some n → FitsIn [("t", n)] s := by
      intro n s hs ax m hm
      rw [get?_cons] at hm
      split at hm
      · rename_i h
        subst h
        injection hm with hm
        subst hm
        exact ⟨_, hs, .inl rfl⟩
      · simp [get?_nil] at hm
    intro p d s hd hs
    have hleaf : (d, s) ∈ [((Slot.array ⟨["t"], ⟨[3], fun i => i.getD 0 0⟩⟩ : Slot Nat), (Slot.number 9 : Slot Nat)),
        (.array ⟨["t", "u"], ⟨[3, 2], fun i => 10 * i.getD 0 0 + i.getD 1 0⟩⟩, .array ⟨["t"], ⟨[3], fun i => 70 + i.getD 0 0⟩⟩),
        (.array ⟨["u", "t"], ⟨[2, 3], fun _ => 5⟩⟩, .array ⟨["t"], ⟨[3], fun i => 70 + i.getD 0 0⟩⟩)] := by
      match p, hd, hs with
      | [k], hd, hs =>
        simp only [exCopyTo, exCopyFrom, leafAt, leafB, get?_cons] at hd hs
        by_cases h1 : "w" = k
        · subst h1
          simp [leafAt, leafB] at hd hs
          simp [← hd, ← hs]
        · by_cases h2 : "p" = k
          · subst h2
            simp [leafAt] at hd
          · simp [h1, h2, get?_nil] at hd
      | [k, k'], hd, hs =>
        simp only [exCopyTo, exCopyFrom, leafAt, leafB, get?_cons] at hd hs
        by_cases h1 : "w" = k
        · subst h1
          simp [leafAt] at hd
        · by_cases h2 : "p" = k
          · subst h2
            simp only [leafAt, leafB, get?_cons, String.reduceEq, if_false, if_true, reduceIte] at hd hs
            by_cases h3 : "x" = k'
            · subst h3
              simp [leafAt, leafB] at hd hs
              simp [← hd, ← hs]
            · by_cases h4 : "y" = k'
              · subst h4
                simp [leafAt, leafB] at hd hs
                simp [← hd, ← hs]
              · simp [h3, h4, get?_nil] at hd
          · simp [h1, h2, get?_nil] at hd
      | [], hd, _ => simp [exCopyTo, leafAt] at hd
      | k :: k' :: k'' :: p, hd, _ =>
        simp only [exCopyTo, leafAt, get?_cons] at hd
        by_cases h1 : "w" = k
        · subst h1
          simp [leafAt] at hd
        · by_cases h2 : "p" = k
          · subst h2
            simp only [leafAt, get?_cons, String.reduceEq, if_false, if_true, reduceIte] at hd
            by_cases h3 : "x" = k'
            · subst h3
              simp [leafAt] at hd
            · by_cases h4 : "y" = k'
              · subst h4
                simp [leafAt] at hd
              · simp [h3, h4, get?_nil] at hd
          · simp [h1, h2, get?_nil] at hd
    simp only [List.mem_cons, List.not_mem_nil, or_false, Prod.mk.injEq] at hleaf
    rcases hleaf with ⟨rfl, rfl⟩ | ⟨rfl, rfl⟩ | ⟨rfl, rfl⟩
    · exact ⟨_, rfl, by decide, by decide, rfl, by intro ax m h; simp [Slot.toSA, SA.scalar, SA.shape, get?_nil] at h, hfit 3 _ rfl⟩
    · exact ⟨_, rfl, by decide, by decide, rfl, hfit 3 _ rfl, hfit 3 _ rfl⟩
    · exact ⟨_, rfl, by decide, by decide, rfl, hfit 3 _ rfl, hfit 3 _ rfl⟩

example : ((copyto (fun _ _ => true) exCopyTo exCopyFrom (.leaf exCopyMask)).1.leafAt ["p", "y"]).map (fun d => d.toSA.nd.toList) =
    some [70, 5, 72, 70, 5, 72] := by decide +kernel

example : (copyto (fun _ _ => true) exCopyTo (.node "S" [("w", .leaf (.number 9))]) (.leaf exCopyMask)).2 ≠ none :=
  C88_missing _ "S" _ _ _ "p" (by decide) (by decide)

example : (copyto (fun _ _ => true) exCopyTo (.node "S" [("w", .leaf (.number 9))]) (.leaf exCopyMask)).2 = some .keyError := by decide +kernel

end Comp
end NA
