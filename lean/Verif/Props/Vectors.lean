import Verif.Vector.Lift
import Verif.Props.Indexing

/-!
# C36, C37: vectors act component by component
-/

namespace NA
open Dict
namespace Comp
variable {α β γ : Type}

/-! ### Specification -/

/-- The scalar which is used at a path: the one at this path, or a scalar met on the way (which is
used for all the components below). -/
def leafB : Comp α → List String → Option α
  | .leaf a, _ => some a
  | .node _ _, [] => none
  | .node _ cs, k :: p => match get? cs k with
    | none => none
    | some c => c.leafB p

mutual
/-- The two operands have the same type and the same component names at every level, where none of
them is a scalar; a scalar is combined with a vector which has at least one scalar component. -/
def Conform : Comp α → Comp β → Prop
  | .leaf _, .leaf _ => True
  | .leaf _, .node _ cs' => 0 < numLeavesL cs'
  | .node _ cs, .leaf _ => 0 < numLeavesL cs
  | .node cls cs, .node cls' cs' => cls = cls' ∧ keys cs' ⊆ keys cs ∧ ConformL cs cs'
/-- ... for all components of the first operand. -/
def ConformL : List (String × Comp α) → List (String × Comp β) → Prop
  | [], _ => True
  | (k, c) :: l, l' => (∃ c', get? l' k = some c' ∧ c.Conform c') ∧ ConformL l l'
end

mutual
/-- Every level of the vector is a genuine `dict`. -/
def Dicts : Comp α → Prop
  | .leaf _ => True
  | .node _ cs => Dict.WF cs ∧ DictsL cs
/-- ... of all components. -/
def DictsL : List (String × Comp α) → Prop
  | [] => True
  | (_, c) :: l => c.Dicts ∧ DictsL l
end

/-! ### Helpers -/

theorem leafB_of_leafAt {c : Comp α} {p : List String} {a : α} (h : c.leafAt p = some a) :
    c.leafB p = some a := by
  induction p generalizing c with
  | nil => cases c <;> simp_all [leafAt, leafB]
  | cons k p ih =>
    cases c with
    | leaf b => simp [leafAt] at h
    | node cls cs =>
      simp only [leafAt, leafB] at h ⊢
      cases hg : get? cs k with
      | none => rw [hg] at h; simp at h
      | some c' => rw [hg] at h; simpa using ih h

theorem ufunc2L_ok {f : α → β → R γ} {l : List (String × Comp α)} {l' : List (String × Comp β)}
    {r : List (String × Comp γ)} :
    ufunc2L f l l' = .ok r ↔
      List.Forall₂ (fun p q => p.1 = q.1 ∧ ∃ c', get? l' p.1 = some c' ∧ p.2.ufunc2 f c' = .ok q.2) l r := by
  induction l generalizing r with
  | nil => cases r <;> simp [ufunc2L]
  | cons p l ih =>
    obtain ⟨k, c⟩ := p
    simp only [ufunc2L, bind, Except.bind]
    cases hk : get? l' k with
    | none => cases r <;> simp [hk]
    | some c' =>
      simp only
      cases hc : c.ufunc2 f c' with
      | error e => cases r <;> simp [hk, hc]
      | ok rc =>
        simp only
        cases hl : ufunc2L f l l' with
        | error e =>
          cases r with
          | nil => simp
          | cons q r =>
            simp only [List.forall₂_cons, ← ih, hl]
            simp
        | ok rl =>
          cases r with
          | nil => simp
          | cons q r =>
            obtain ⟨k', cq⟩ := q
            simp only [List.forall₂_cons, ← ih, hl, hk, hc, Except.ok.injEq, List.cons.injEq, Prod.mk.injEq,
              Option.some.injEq]
            constructor
            · rintro ⟨⟨rfl, rfl⟩, rfl⟩
              exact ⟨⟨rfl, c', rfl, hc⟩, rfl⟩
            · rintro ⟨⟨rfl, c'', rfl, h2⟩, rfl⟩
              rw [hc] at h2
              cases h2
              exact ⟨⟨rfl, rfl⟩, rfl⟩

theorem get?_of_forall₂ {P : String → γ → β → Prop} {l : List (String × γ)} {r : List (String × β)}
    (h : List.Forall₂ (fun p q => p.1 = q.1 ∧ P p.1 p.2 q.2) l r) (k : String) :
    (get? l k = none ∧ get? r k = none) ∨
    (∃ c d, get? l k = some c ∧ get? r k = some d ∧ P k c d) := by
  induction h with
  | nil => left; simp [get?]
  | @cons p q l r hpq _ ih =>
    obtain ⟨k1, c⟩ := p
    obtain ⟨k2, d⟩ := q
    obtain ⟨h1, h2⟩ := hpq
    simp only at h1 h2
    subst h1
    simp only [get?_cons]
    by_cases hk : k1 = k
    · subst hk
      right
      exact ⟨c, d, by simp, by simp, h2⟩
    · simpa only [hk, if_false] using ih

/-! ### C36 -/

/-- **C36** (one level). Between two vectors of the same type, the result is a vector of this type with
the component names of the first operand, and the component with name `k` is the result of the
operation on the components with the name `k`. -/
theorem C36_components (f : α → β → R γ) (cls : String) (cs : List (String × Comp α))
    (cs' : List (String × Comp β)) (r : Comp γ)
    (h : ufunc2 f (.node cls cs) (.node cls cs') = .ok r) :
    ∃ rs, r = .node cls rs ∧ keys rs = keys cs ∧
      ∀ k c, get? cs k = some c → ∃ c' v, get? cs' k = some c' ∧ get? rs k = some v ∧
        ufunc2 f c c' = .ok v := by
  simp only [ufunc2, if_true, bind, Except.bind] at h
  cases hl : ufunc2L f cs cs' with
  | error e => rw [hl] at h; simp at h
  | ok rs =>
    rw [hl] at h
    simp only [Except.ok.injEq] at h
    refine ⟨rs, h.symm, ?_, ?_⟩
    · rw [ufunc2L_ok] at hl
      clear h
      induction hl with
      | nil => rfl
      | cons hpq _ ih => simp only [keys, List.map_cons] at ih ⊢; rw [ih, hpq.1]
    · intro k c hk
      rcases get?_of_forall₂ (P := fun k (c : Comp α) (q : Comp γ) => ∃ c', get? cs' k = some c' ∧ c.ufunc2 f c' = .ok q)
        (ufunc2L_ok.1 hl) k with ⟨h1, _⟩ | ⟨c1, d, h1, h2, c', h3, h4⟩
      · rw [hk] at h1; cases h1
      · rw [hk] at h1
        cases h1
        exact ⟨c', d, h3, h2, h4⟩

/-- **C36** (a scalar operand is applied to every component). -/
theorem C36_scalar (f : α → β → R γ) (b : β) (cls : String) (cs : List (String × Comp α)) (r : Comp γ) :
    ufunc2 f (.node cls cs) (.leaf b) = .ok r ↔ (Comp.node cls cs).Lift (fun a v => f a b = .ok v) r := by
  rw [← mapM_lift]
  simp only [ufunc2, mapM]

/-- **C36** (a scalar first operand). -/
theorem C36_scalar_left (f : α → β → R γ) (a : α) (cls : String) (cs : List (String × Comp β)) (r : Comp γ) :
    ufunc2 f (.leaf a) (.node cls cs) = .ok r ↔ (Comp.node cls cs).Lift (fun b v => f a b = .ok v) r := by
  rw [← mapM_lift]
  simp only [ufunc2, mapM]

/-- **C36** (any depth). The scalar of the result at a path of component names is the operation on the
scalars of the operands at this path (a scalar operand, or a scalar component met on the way, is
used for all the components below), and there are no other scalars in the result. -/
theorem C36_at_path (f : α → β → R γ) (x : Comp α) (y : Comp β) (r : Comp γ) (h : ufunc2 f x y = .ok r)
    (p : List String) (v : γ) :
    r.leafAt p = some v ↔
      ∃ a b, x.leafB p = some a ∧ y.leafB p = some b ∧ (x.leafAt p = some a ∨ y.leafAt p = some b) ∧
        f a b = .ok v := by
  induction p generalizing x y r with
  | nil =>
    cases x with
    | leaf a =>
      cases y with
      | leaf b =>
        simp only [ufunc2, bind, Except.bind] at h
        cases hf : f a b with
        | error e => rw [hf] at h; simp at h
        | ok w =>
          rw [hf] at h
          simp only [Except.ok.injEq] at h
          subst h
          simp [leafAt, leafB, hf]
      | node cls cs =>
        simp only [ufunc2, bind, Except.bind] at h
        cases hf : mapML (f a) cs with
        | error e => rw [hf] at h; simp at h
        | ok w =>
          rw [hf] at h
          simp only [Except.ok.injEq] at h
          subst h
          simp [leafAt, leafB]
    | node cls cs =>
      cases y with
      | leaf b =>
        simp only [ufunc2, bind, Except.bind] at h
        cases hf : mapML (fun a => f a b) cs with
        | error e => rw [hf] at h; simp at h
        | ok w =>
          rw [hf] at h
          simp only [Except.ok.injEq] at h
          subst h
          simp [leafAt, leafB]
      | node cls' cs' =>
        simp only [ufunc2, bind, Except.bind] at h
        split at h
        · cases hf : ufunc2L f cs cs' with
          | error e => rw [hf] at h; simp at h
          | ok w =>
            rw [hf] at h
            simp only [Except.ok.injEq] at h
            subst h
            simp [leafAt, leafB]
        · cases h
  | cons k p ih =>
    cases x with
    | leaf a =>
      cases y with
      | leaf b =>
        simp only [ufunc2, bind, Except.bind] at h
        cases hf : f a b with
        | error e => rw [hf] at h; simp at h
        | ok w =>
          rw [hf] at h
          simp only [Except.ok.injEq] at h
          subst h
          simp [leafAt, leafB]
      | node cls cs =>
        have hl := (C36_scalar_left f a cls cs r).1 h
        have hp := lift_leafAt hl (k :: p)
        constructor
        · intro hv
          cases hy : (Comp.node cls cs).leafAt (k :: p) with
          | none => rw [hp.2 hy] at hv; cases hv
          | some b =>
            obtain ⟨w, hw, hfw⟩ := hp.1 b hy
            rw [hv] at hw
            cases hw
            exact ⟨a, b, rfl, leafB_of_leafAt hy, .inr rfl, hfw⟩
        · rintro ⟨a', b, h1, h2, h3, h4⟩
          simp only [leafB, Option.some.injEq] at h1
          subst h1
          simp only [leafAt, reduceCtorEq, false_or] at h3
          obtain ⟨w, hw, hfw⟩ := hp.1 b h3
          rw [h4] at hfw
          cases hfw
          exact hw
    | node cls cs =>
      cases y with
      | leaf b =>
        have hl := (C36_scalar f b cls cs r).1 h
        have hp := lift_leafAt hl (k :: p)
        constructor
        · intro hv
          cases hy : (Comp.node cls cs).leafAt (k :: p) with
          | none => rw [hp.2 hy] at hv; cases hv
          | some a =>
            obtain ⟨w, hw, hfw⟩ := hp.1 a hy
            rw [hv] at hw
            cases hw
            exact ⟨a, b, leafB_of_leafAt hy, rfl, .inl rfl, hfw⟩
        · rintro ⟨a, b', h1, h2, h3, h4⟩
          simp only [leafB, Option.some.injEq] at h2
          subst h2
          rw [show (Comp.leaf b : Comp β).leafAt (k :: p) = none from rfl] at h3
          simp only [reduceCtorEq, or_false] at h3
          obtain ⟨w, hw, hfw⟩ := hp.1 a h3
          rw [h4] at hfw
          cases hfw
          exact hw
      | node cls' cs' =>
        by_cases hcls : cls = cls'
        · subst hcls
          simp only [ufunc2, if_true, bind, Except.bind] at h
          cases hl : ufunc2L f cs cs' with
          | error e => rw [hl] at h; simp at h
          | ok rs =>
            rw [hl] at h
            simp only [Except.ok.injEq] at h
            subst h
            rcases get?_of_forall₂ (P := fun k (c : Comp α) (q : Comp γ) => ∃ c', get? cs' k = some c' ∧ c.ufunc2 f c' = .ok q)
              (ufunc2L_ok.1 hl) k with ⟨h1, h2⟩ | ⟨c1, d, h1, h2, c', h3, h4⟩
            · simp [leafAt, leafB, h1, h2]
            · simp only [leafAt, leafB, h1, h2, h3]
              exact ih c1 c' d h4
        · simp [ufunc2, hcls] at h

/-- **C36** (different types are rejected). -/
theorem C36_type_mismatch (f : α → β → R γ) (cls cls' : String) (cs : List (String × Comp α))
    (cs' : List (String × Comp β)) (h : cls ≠ cls') :
    ufunc2 f (.node cls cs) (.node cls' cs') = .error .typeError := by
  simp [ufunc2, h]

theorem conformL_iff {cs : List (String × Comp α)} {cs' : List (String × Comp β)} :
    ConformL cs cs' ↔ ∀ p ∈ cs, ∃ c', get? cs' p.1 = some c' ∧ p.2.Conform c' := by
  induction cs with
  | nil => simp [ConformL]
  | cons p cs ih => simp [ConformL, ih]

/-- **C36** (success). Operands of the same type with the same names can be combined whenever the
operation succeeds for the scalars. -/
theorem C36_isOk (f : α → β → R γ) : ∀ (x : Comp α) (y : Comp β), x.Conform y →
    (∀ a ∈ x.leaves, ∀ b ∈ y.leaves, ∃ v, f a b = .ok v) → ∃ r, ufunc2 f x y = .ok r := by
  refine ind ?_ ?_
  · rintro a (b | ⟨cls, cs⟩) _ h
    · obtain ⟨v, hv⟩ := h a (by simp [leaves]) b (by simp [leaves])
      exact ⟨.leaf v, by simp [ufunc2, hv, bind, Except.bind]⟩
    · exact mapM_isOk' (f a) (.node cls cs) (fun b hb => h a (by simp [leaves]) b hb)
  · rintro cls cs ih (b | ⟨cls', cs'⟩) hc h
    · exact mapM_isOk' (fun a => f a b) (.node cls cs) (fun a ha => h a ha b (by simp [leaves]))
    · obtain ⟨rfl, _, hcl⟩ := hc
      have key : ∃ rs, ufunc2L f cs cs' = .ok rs := by
        clear * - ih hcl h
        simp only [leaves] at h
        induction cs with
        | nil => exact ⟨[], rfl⟩
        | cons p cs ihl =>
          obtain ⟨k, c⟩ := p
          obtain ⟨⟨c', hk, hcc⟩, hcl'⟩ := hcl
          obtain ⟨l, hl⟩ := ihl (fun q hq => ih q (by simp [hq])) (fun a ha => h a (by simp [leavesL, ha])) hcl'
          obtain ⟨rc, hrc⟩ := ih (k, c) (by simp) c' hcc (fun a ha b hb => h a (by simp [leavesL, ha]) b
            (mem_leavesL.2 ⟨_, mem_of_get? hk, hb⟩))
          simp only at hrc
          exact ⟨(k, rc) :: l, by simp [ufunc2L, hk, hrc, hl, bind, Except.bind]⟩
      obtain ⟨rs, hrs⟩ := key
      exact ⟨.node cls rs, by simp [ufunc2, hrs, bind, Except.bind]⟩

/-- every scalar of the result comes from a pair of scalars -/
theorem ufunc2_leaves (f : α → β → R γ) : ∀ (x : Comp α) (y : Comp β) (r : Comp γ),
    ufunc2 f x y = .ok r → ∀ v ∈ r.leaves, ∃ a ∈ x.leaves, ∃ b ∈ y.leaves, f a b = .ok v := by
  have hmap : ∀ {α' : Type} (g : α' → R γ) (c : Comp α') (r : Comp γ), c.mapM g = .ok r →
      ∀ v ∈ r.leaves, ∃ a ∈ c.leaves, g a = .ok v := by
    intro α' g c r h v hv
    have h2 := lift_leaves _ _ ((mapM_lift g c r).1 h)
    obtain ⟨i, hi, rfl⟩ := List.mem_iff_getElem.1 hv
    have hl := h2.length_eq
    exact ⟨_, List.getElem_mem (by omega), h2.get (i := i) (by omega) hi⟩
  refine ind ?_ ?_
  · rintro a (b | ⟨cls, cs⟩) r h v hv
    · simp only [ufunc2, bind, Except.bind] at h
      cases hf : f a b with
      | error e => rw [hf] at h; simp at h
      | ok w =>
        rw [hf] at h
        simp only [Except.ok.injEq] at h
        subst h
        simp only [leaves, List.mem_singleton] at hv
        subst hv
        exact ⟨a, by simp [leaves], b, by simp [leaves], hf⟩
    · obtain ⟨b, hb, hf⟩ := hmap (f a) (.node cls cs) r h v hv
      exact ⟨a, by simp [leaves], b, hb, hf⟩
  · rintro cls cs ih (b | ⟨cls', cs'⟩) r h v hv
    · obtain ⟨a, ha, hf⟩ := hmap (fun a => f a b) (.node cls cs) r h v hv
      exact ⟨a, ha, b, by simp [leaves], hf⟩
    · by_cases hcls : cls = cls'
      · subst hcls
        simp only [ufunc2, if_true, bind, Except.bind] at h
        cases hl : ufunc2L f cs cs' with
        | error e => rw [hl] at h; simp at h
        | ok rs =>
          rw [hl] at h
          simp only [Except.ok.injEq] at h
          subst h
          simp only [leaves] at hv ⊢
          obtain ⟨q, hq, hvq⟩ := mem_leavesL.1 hv
          rw [ufunc2L_ok] at hl
          obtain ⟨i, hi, rfl⟩ := List.mem_iff_getElem.1 hq
          have hlen := hl.length_eq
          obtain ⟨_, c', hc', hu⟩ := hl.get (i := i) (by omega) hi
          have hm : cs.get ⟨i, by omega⟩ ∈ cs := List.get_mem _ _
          obtain ⟨a, ha, b, hb, hf⟩ := ih _ hm c' _ hu v hvq
          exact ⟨a, mem_leavesL.2 ⟨_, hm, ha⟩, b, mem_leavesL.2 ⟨_, mem_of_get? hc', hb⟩, hf⟩
      · simp [ufunc2, hcls] at h

theorem leaves_ne_nil {cs : List (String × Comp α)} (h : 0 < numLeavesL cs) : ∃ a, a ∈ leavesL cs := by
  have hlen : ∀ c : Comp α, c.leaves.length = c.numLeaves := by
    refine ind ?_ ?_
    · intro a; rfl
    · intro cls cs ih
      simp only [leaves, numLeaves]
      induction cs with
      | nil => rfl
      | cons p cs ihl =>
        simp only [leavesL, numLeavesL, List.length_append]
        rw [ih p (by simp), ihl (fun q hq => ih q (by simp [hq]))]
  have h1 := hlen (.node "" cs)
  simp only [leaves, numLeaves] at h1
  exact List.exists_mem_of_length_pos (by omega)

/-- every scalar of the operands is used -/
theorem ufunc2_leaves_used (f : α → β → R γ) : ∀ (x : Comp α) (y : Comp β) (r : Comp γ), y.Dicts →
    x.Conform y → ufunc2 f x y = .ok r →
      (∀ a ∈ x.leaves, ∃ b ∈ y.leaves, ∃ v ∈ r.leaves, f a b = .ok v) ∧
      (∀ b ∈ y.leaves, ∃ a ∈ x.leaves, ∃ v ∈ r.leaves, f a b = .ok v) := by
  have hmap : ∀ {α' : Type} (g : α' → R γ) (c : Comp α') (r : Comp γ), c.mapM g = .ok r →
      ∀ a ∈ c.leaves, ∃ v ∈ r.leaves, g a = .ok v := by
    intro α' g c r h v hv
    have h2 := lift_leaves _ _ ((mapM_lift g c r).1 h)
    obtain ⟨i, hi, rfl⟩ := List.mem_iff_getElem.1 hv
    have hl := h2.length_eq
    exact ⟨_, List.getElem_mem (by omega), h2.get (i := i) hi (by omega)⟩
  refine ind ?_ ?_
  · rintro a (b | ⟨cls, cs⟩) r hd hc h
    · simp only [ufunc2, bind, Except.bind] at h
      cases hf : f a b with
      | error e => rw [hf] at h; simp at h
      | ok w =>
        rw [hf] at h
        simp only [Except.ok.injEq] at h
        subst h
        simp [leaves, hf]
    · have h1 := hmap (f a) (.node cls cs) r h
      constructor
      · intro a' ha'
        simp only [leaves, List.mem_singleton] at ha'
        subst ha'
        obtain ⟨b, hb⟩ := leaves_ne_nil (show 0 < numLeavesL cs from hc)
        obtain ⟨v, hv, hf⟩ := h1 b hb
        exact ⟨b, hb, v, hv, hf⟩
      · intro b hb
        obtain ⟨v, hv, hf⟩ := h1 b hb
        exact ⟨a, by simp [leaves], v, hv, hf⟩
  · rintro cls cs ih (b | ⟨cls', cs'⟩) r hd hc h
    · have h1 := hmap (fun a => f a b) (.node cls cs) r h
      constructor
      · intro a ha
        obtain ⟨v, hv, hf⟩ := h1 a ha
        exact ⟨b, by simp [leaves], v, hv, hf⟩
      · intro b' hb'
        simp only [leaves, List.mem_singleton] at hb'
        subst hb'
        obtain ⟨a, ha⟩ := leaves_ne_nil (show 0 < numLeavesL cs from hc)
        obtain ⟨v, hv, hf⟩ := h1 a ha
        exact ⟨a, ha, v, hv, hf⟩
    · obtain ⟨rfl, hsub, hcl⟩ := hc
      have hdl : ∀ p ∈ cs', p.2.Dicts := by
        have := hd.2
        clear * - this
        induction cs' with
        | nil => simp
        | cons p l ih => simp only [DictsL] at this; simp [this.1]; exact fun a b h => ih this.2 _ h
      simp only [ufunc2, if_true, bind, Except.bind] at h
      cases hl : ufunc2L f cs cs' with
      | error e => rw [hl] at h; simp at h
      | ok rs =>
        rw [hl] at h
        simp only [Except.ok.injEq] at h
        subst h
        simp only [leaves]
        rw [conformL_iff] at hcl
        rw [ufunc2L_ok] at hl
        have hlen := hl.length_eq
        have key : ∀ (p : String × Comp α), p ∈ cs → ∃ c' q, get? cs' p.1 = some c' ∧ q ∈ rs ∧ p.2.Conform c' ∧
            p.2.ufunc2 f c' = .ok q.2 := by
          intro p hp
          obtain ⟨i, hi, rfl⟩ := List.mem_iff_getElem.1 hp
          obtain ⟨_, c', hc', hu⟩ := hl.get (i := i) hi (by omega)
          obtain ⟨c'', hc'', hcf⟩ := hcl _ hp
          simp only [List.get_eq_getElem] at hc' hu
          rw [hc'] at hc''
          cases hc''
          exact ⟨c', _, hc', List.getElem_mem (by omega), hcf, hu⟩
        constructor
        · intro a ha
          obtain ⟨p, hp, hap⟩ := mem_leavesL.1 ha
          obtain ⟨c', q, hc', hq, hcf, hu⟩ := key p hp
          obtain ⟨b, hb, v, hv, hf⟩ := (ih p hp c' q.2 (hdl _ (mem_of_get? hc')) hcf hu).1 a hap
          exact ⟨b, mem_leavesL.2 ⟨_, mem_of_get? hc', hb⟩, v, mem_leavesL.2 ⟨q, hq, hv⟩, hf⟩
        · intro b hb
          obtain ⟨p', hp', hbp⟩ := mem_leavesL.1 hb
          have hk : p'.1 ∈ keys cs := hsub (List.mem_map.2 ⟨p', hp', rfl⟩)
          obtain ⟨p, hp, hpk⟩ := List.mem_map.1 hk
          obtain ⟨c', q, hc', hq, hcf, hu⟩ := key p hp
          have hg := get?_of_mem hd.1 (show (p'.1, p'.2) ∈ cs' from hp')
          rw [hpk] at hc'
          rw [hg] at hc'
          cases hc'
          obtain ⟨a, ha, v, hv, hf⟩ := (ih p hp p'.2 q.2 (hdl _ hp') hcf hu).2 b hbp
          exact ⟨a, mem_leavesL.2 ⟨p, hp, ha⟩, v, mem_leavesL.2 ⟨q, hq, hv⟩, hf⟩

theorem exists_forall₂ {ι κ : Type} {P : ι → κ → Prop} {l : List ι} (h : ∀ v ∈ l, ∃ g, P v g) :
    ∃ gs, List.Forall₂ P l gs := by
  induction l with
  | nil => exact ⟨[], .nil⟩
  | cons v l ih =>
    obtain ⟨g, hg⟩ := h v (by simp)
    obtain ⟨gs, hgs⟩ := ih (fun w hw => h w (by simp [hw]))
    exact ⟨g :: gs, .cons hg hgs⟩

theorem error_append {l1 l2 : List Shape} {e : Err} (hw1 : ∀ s ∈ l1, WF s) (hw : ∀ s ∈ l2, WF s)
    (hs : ∀ s ∈ l1, s ∈ l2) (h : broadcastShapes l1 = .error e) : broadcastShapes l2 = .error e := by
  have hk := C01_broadcast_shapes_error_kind _ hw1 _ h
  obtain ⟨ax, m, n, ⟨s, hs1, hm⟩, ⟨s', hs2, hn⟩, hne⟩ := (C01_broadcast_shapes_error_iff _ hw1).1 ⟨_, h⟩
  obtain ⟨e', he'⟩ := (C01_broadcast_shapes_error_iff _ hw).2
    ⟨ax, m, n, ⟨s, hs s hs1, hm⟩, ⟨s', hs s' hs2, hn⟩, hne⟩
  rw [he', C01_broadcast_shapes_error_kind _ hw _ he', hk]

theorem outcome_pair {r1 r2 : R Shape} {l1 l2 : List Shape} (hw1 : ∀ s ∈ l1, WF s) (hw2 : ∀ s ∈ l2, WF s)
    (h1 : SameOutcome r1 (broadcastShapes l1)) (h2 : SameOutcome r2 (broadcastShapes l2))
    (hr1 : ∀ s, r1 = .ok s → WF s) (hr2 : ∀ s, r2 = .ok s → WF s) :
    SameOutcome (do let s ← r1; let t ← r2; broadcastShapes [s, t]) (broadcastShapes (l1 ++ l2)) := by
  have hw : ∀ s ∈ l1 ++ l2, WF s := by
    intro t ht
    rcases List.mem_append.1 ht with h | h
    · exact hw1 t h
    · exact hw2 t h
  cases r1 with
  | error e =>
    cases hb : broadcastShapes l1 with
    | ok s => rw [hb] at h1; simp [SameOutcome] at h1
    | error e' =>
      rw [hb] at h1
      simp only [SameOutcome] at h1
      subst h1
      rw [error_append hw1 hw (by simp +contextual) hb]
      simp [SameOutcome, bind, Except.bind]
  | ok s =>
    cases hb1 : broadcastShapes l1 with
    | error e' => rw [hb1] at h1; simp [SameOutcome] at h1
    | ok s' =>
      rw [hb1] at h1
      cases r2 with
      | error e =>
        cases hb : broadcastShapes l2 with
        | ok s => rw [hb] at h2; simp [SameOutcome] at h2
        | error e' =>
          rw [hb] at h2
          simp only [SameOutcome] at h2
          subst h2
          rw [error_append hw2 hw (by simp +contextual) hb]
          simp [SameOutcome, bind, Except.bind]
      | ok t =>
        cases hb2 : broadcastShapes l2 with
        | error e' => rw [hb2] at h2; simp [SameOutcome] at h2
        | ok t' =>
          rw [hb2] at h2
          have := broadcast_groups (gs := [l1, l2]) (ss := [s, t])
            (.cons ⟨s', hb1, h1, hr1 s rfl⟩ (.cons ⟨t', hb2, h2, hr2 t rfl⟩ .nil))
            (by simpa using ⟨hw1, hw2⟩) [] (by simp)
          simpa [bind, Except.bind] using this

/-- **C36** (shape). The shape of the result is the broadcast of the shapes of the operands (and the
shape of a vector is the broadcast of the shapes of its components, by definition). -/
theorem C36_shape (g : α → β → γ) (x : Comp (SA α)) (y : Comp (SA β)) (r : Comp (SA γ))
    (hx : x.WFLeaves) (hy : y.WFLeaves) (hd : y.Dicts) (hc : x.Conform y)
    (h : ufunc2 (SA.ufunc2 g) x y = .ok r) :
    r.WFLeaves ∧
    SameOutcome r.shape (do let s ← x.shape; let t ← y.shape; broadcastShapes [s, t]) := by
  have hback := ufunc2_leaves _ x y r h
  have hused := ufunc2_leaves_used _ x y r hd hc h
  have hrw : r.WFLeaves := by
    intro v hv
    obtain ⟨a, ha, b, hb, hf⟩ := hback v hv
    exact (SA.ufunc2_ok (hx a ha) (hy b hb) hf).1
  refine ⟨hrw, ?_⟩
  have h1 := shape_leaves r hrw
  have h2 := outcome_pair hx.shapes hy.shapes (shape_leaves x hx) (shape_leaves y hy)
    (shape_wf x hx) (shape_wf y hy)
  refine sameOutcome_trans h1 (sameOutcome_trans ?_ (sameOutcome_symm h2))
  classical
  let L := (x.leaves.flatMap (fun a => y.leaves.map (fun b => (a, b)))).filter
    (fun p => decide (∃ v ∈ r.leaves, SA.ufunc2 g p.1 p.2 = .ok v))
  have hL : ∀ a b, (a, b) ∈ L ↔ a ∈ x.leaves ∧ b ∈ y.leaves ∧ ∃ v ∈ r.leaves, SA.ufunc2 g a b = .ok v := by
    intro a b
    simp [L, and_assoc]
  obtain ⟨vs, hvs⟩ := exists_forall₂ (l := L) (P := fun p v => v ∈ r.leaves ∧ SA.ufunc2 g p.1 p.2 = .ok v)
    (by
      rintro ⟨a, b⟩ hp
      obtain ⟨_, _, v, hv, hf⟩ := (hL a b).1 hp
      exact ⟨v, hv, hf⟩)
  have hlen := hvs.length_eq
  have hvsmem : ∀ v, v ∈ vs ↔ v ∈ r.leaves := by
    intro v
    constructor
    · intro hv
      obtain ⟨i, hi, rfl⟩ := List.mem_iff_getElem.1 hv
      exact (hvs.get (i := i) (by omega) hi).1
    · intro hv
      obtain ⟨a, ha, b, hb, hf⟩ := hback v hv
      obtain ⟨i, hi, hie⟩ := List.mem_iff_getElem.1 ((hL a b).2 ⟨ha, hb, v, hv, hf⟩)
      have := (hvs.get (i := i) hi (by omega)).2
      simp only [List.get_eq_getElem, hie] at this
      rw [hf] at this
      cases this
      exact List.getElem_mem _
  have hvw : ∀ s ∈ vs.map SA.shape, WF s := by
    intro s hs
    obtain ⟨v, hv, rfl⟩ := List.mem_map.1 hs
    exact SA.wf_shape (hrw v ((hvsmem v).1 hv))
  have h3 : SameOutcome (broadcastShapes (r.leaves.map SA.shape)) (broadcastShapes (vs.map SA.shape)) := by
    refine C02_order_and_repetition _ _ hrw.shapes ?_
    intro s
    simp only [List.mem_map, hvsmem]
  refine sameOutcome_trans h3 ?_
  have hLw : ∀ a b, (a, b) ∈ L → WF a.shape ∧ WF b.shape := fun a b hab =>
    ⟨SA.wf_shape (hx a ((hL a b).1 hab).1), SA.wf_shape (hy b ((hL a b).1 hab).2.1)⟩
  have h4 := broadcast_groups (gs := L.map (fun p => [p.1.shape, p.2.shape])) (ss := vs.map SA.shape) ?_ ?_ [] (by simp)
  · simp only [List.nil_append] at h4
    refine sameOutcome_trans h4 (C02_order_and_repetition _ _ ?_ ?_)
    · intro s hs
      simp only [List.mem_flatten, List.mem_map] at hs
      obtain ⟨_, ⟨⟨a, b⟩, hp, rfl⟩, hs⟩ := hs
      simp only [List.mem_cons, List.not_mem_nil, or_false] at hs
      rcases hs with rfl | rfl
      · exact (hLw a b hp).1
      · exact (hLw a b hp).2
    · intro s
      simp only [List.mem_flatten, List.mem_map, List.mem_append]
      constructor
      · rintro ⟨_, ⟨⟨a, b⟩, hp, rfl⟩, hs⟩
        simp only [List.mem_cons, List.not_mem_nil, or_false] at hs
        rcases hs with rfl | rfl
        · exact .inl ⟨a, ((hL a b).1 hp).1, rfl⟩
        · exact .inr ⟨b, ((hL a b).1 hp).2.1, rfl⟩
      · rintro (⟨a, ha, rfl⟩ | ⟨b, hb, rfl⟩)
        · obtain ⟨b, hb, v, hv, hf⟩ := hused.1 a ha
          exact ⟨_, ⟨(a, b), (hL a b).2 ⟨ha, hb, v, hv, hf⟩, rfl⟩, by simp⟩
        · obtain ⟨a, ha, v, hv, hf⟩ := hused.2 b hb
          exact ⟨_, ⟨(a, b), (hL a b).2 ⟨ha, hb, v, hv, hf⟩, rfl⟩, by simp⟩
  · rw [List.forall₂_map_left_iff, List.forall₂_map_right_iff]
    refine List.forall₂_iff_get.2 ⟨hlen, fun i hi hi' => ?_⟩
    have hv := hvs.get (i := i) hi hi'
    have hm : L.get ⟨i, hi⟩ ∈ L := List.get_mem _ _
    obtain ⟨ha, hb, _⟩ := (hL (L.get ⟨i, hi⟩).1 (L.get ⟨i, hi⟩).2).1 hm
    have hok := SA.ufunc2_ok (hx _ ha) (hy _ hb) hv.2
    exact ⟨_, hok.2.1, fun _ => rfl, SA.wf_shape hok.1⟩
  · intro gl hg t ht
    obtain ⟨⟨a, b⟩, hp, rfl⟩ := List.mem_map.1 hg
    simp only [List.mem_cons, List.not_mem_nil, or_false] at ht
    rcases ht with rfl | rfl
    · exact (hLw a b hp).1
    · exact (hLw a b hp).2

/-! ### Limits and examples -/

/-- **C36** (a component which only the second operand has is dropped). Two `CartesianNdVectorArray`s may
have different component names.  Whenever the operation succeeds, the extra components of the second
operand are silently ignored (while extra components of the first one raise `KeyError`). -/
theorem C36_extra_components_dropped (f : α → β → R γ) (cls : String) (cs : List (String × Comp α))
    (cs' : List (String × Comp β)) (k : String) (hk : k ∉ keys cs) :
    (∀ r, ufunc2 f (.node cls cs) (.node cls cs') = .ok r → ∀ p, r.leafAt (k :: p) = none) := by
  intro r h p
  obtain ⟨rs, rfl, hkeys, _⟩ := C36_components f cls cs cs' r h
  simp only [leafAt]
  rw [get?_eq_none.2 (by rw [hkeys]; exact hk)]

/-- **C36** fails for vectors with different component names: the sum depends on the order of the
operands, in one order a component is lost, in the other `KeyError` is raised. -/
theorem C36_nd_asymmetric_refuted :
    ∃ x y : Comp Nat,
      (∃ r, ufunc2 (fun a b => .ok (a + b)) x y = .ok r ∧ y.leafAt ["b"] = some 5 ∧ r.leafAt ["b"] = none) ∧
      ufunc2 (fun a b => .ok (a + b) : Nat → Nat → R Nat) y x = .error .keyError :=
  ⟨.node "CartesianNd" [("a", .leaf 1)], .node "CartesianNd" [("a", .leaf 2), ("b", .leaf 5)],
    ⟨_, rfl, rfl, rfl⟩, rfl⟩

/-- a nested vector and a partly scalar one -/
def exX : Comp (SA Nat) := .node "Spectral"
  [("w", .leaf ⟨["w"], ⟨[2], fun i => i.getD 0 0⟩⟩),
   ("p", .node "Cartesian2d" [("x", .leaf ⟨["t"], ⟨[3], fun i => i.getD 0 0⟩⟩), ("y", .leaf ⟨[], ⟨[], fun _ => 4⟩⟩)])]
def exY : Comp (SA Nat) := .node "Spectral"
  [("p", .leaf ⟨["t"], ⟨[3], fun i => 10 * i.getD 0 0⟩⟩), ("w", .leaf ⟨[], ⟨[], fun _ => 100⟩⟩)]

example : exX.Conform exY ∧ exY.Dicts := by
  refine ⟨⟨rfl, by decide, ⟨_, rfl, trivial⟩, ⟨_, rfl, by simp [Conform, numLeavesL, numLeaves]⟩, trivial⟩, by simp [exY, Dicts, DictsL, WF, keys]⟩
example : (do let r ← ufunc2 (SA.ufunc2 (· + ·)) exX exY; r.shape) = .ok [("w", 2), ("t", 3)] := by decide
example : (match ufunc2 (SA.ufunc2 (· + ·)) exX exY with
    | .ok r => (r.leafAt ["p", "y"]).map (fun a => a.nd.toList)
    | .error _ => none) = some [4, 14, 24] := by decide

end Comp
end NA
