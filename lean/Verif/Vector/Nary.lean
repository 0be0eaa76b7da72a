import Verif.Vector.Structure
import Verif.Props.VectorReduce

/-! The common scheme of functions of vectors. -/

namespace NA
open Dict
namespace Comp
variable {α β γ δ ρ : Type}

mutual
/-- Specification: the argument `v` can be used for a vector which is structured like `P`: it is a scalar, or it has the same
class and component names, and the same holds for the components. -/
def Along : Comp ρ → Comp γ → Prop
  | .leaf _, .leaf _ => True
  | .node _ _, .leaf _ => True
  | .leaf _, .node _ _ => False
  | .node cls cs, .node cls' cs' => cls' = cls ∧ AlongL cs cs'
/-- ... for all components. -/
def AlongL : List (String × Comp ρ) → List (String × Comp γ) → Prop
  | [], [] => True
  | (k, c) :: l, (k', c') :: l' => k' = k ∧ c.Along c' ∧ AlongL l l'
  | [], _ :: _ => False
  | _ :: _, [] => False
end

/-- Specification: the two vectors have the same classes and component names. -/
def Similar (P : Comp ρ) (v : Comp γ) : Prop := P.Lift (fun _ _ => True) v

/-- The vectors and scalars which a vector consists of; a scalar consists of itself. -/
def parts : Comp γ → List (Comp γ)
  | .leaf a => [.leaf a]
  | .node _ cs => cs.map Prod.snd

theorem alongL_iff {cs : List (String × Comp ρ)} {cs' : List (String × Comp γ)} :
    AlongL cs cs' ↔ List.Forall₂ (fun p p' => p'.1 = p.1 ∧ p.2.Along p'.2) cs cs' := by
  induction cs generalizing cs' with
  | nil => cases cs' <;> simp [AlongL]
  | cons p cs ih => cases cs' <;> simp [AlongL, ih, and_assoc]

theorem along_leaf (P : Comp ρ) (a : γ) : P.Along (.leaf a) := by cases P <;> simp [Along]

/-- What is left of a vector by `Lift` can be used in the same places. -/
theorem along_lift {R : γ → δ → Prop} : ∀ (P : Comp ρ) (v : Comp γ) (v' : Comp δ), P.Along v → v.Lift R v' →
    P.Along v' := by
  refine ind ?_ ?_
  · rintro a (b | _) (c | _) h1 h2 <;> simp_all [Along, Lift]
  · rintro cls cs ih (b | ⟨cls', cs'⟩) (c | ⟨cls'', cs''⟩) h1 h2
    · exact along_leaf _ _
    · simp [Lift] at h2
    · simp [Lift] at h2
    · simp only [Along, Lift, alongL_iff, liftL_iff] at *
      refine ⟨h2.1 ▸ h1.1, ?_⟩
      have h1' := h1.2
      have h2' := h2.2
      clear h1 h2
      induction h1' generalizing cs'' with
      | nil => cases h2'; exact .nil
      | cons h1 _ ihl =>
        cases h2' with
        | cons h3 h4 =>
          exact .cons ⟨h3.1 ▸ h1.1, ih _ (by simp) _ _ h1.2 h3.2⟩ (ihl (fun p hp => ih p (by simp [hp])) _ h4)

theorem along_of_similar : ∀ (P : Comp ρ) (v : Comp γ), P.Similar v → P.Along v := by
  refine ind ?_ ?_
  · rintro a (b | _) h <;> simp_all [Along, Lift, Similar]
  · rintro cls cs ih (b | ⟨cls', cs'⟩) h
    · exact along_leaf _ _
    · simp only [Along, Lift, Similar, alongL_iff, liftL_iff] at *
      refine ⟨h.1.symm, ?_⟩
      have h1 := h.2
      clear h
      induction h1 with
      | nil => exact .nil
      | cons h1 _ ihl =>
        exact .cons ⟨h1.1.symm, ih _ (by simp) _ h1.2⟩ (ihl (fun p hp => ih p (by simp [hp])))

theorem similar_refl : ∀ (P : Comp ρ), P.Similar P := by
  refine ind ?_ ?_
  · intro a; simp [Similar, Lift]
  · intro cls cs ih
    simp only [Similar, Lift, liftL_iff, true_and] at *
    clear * - ih
    induction cs with
    | nil => exact .nil
    | cons p cs ihl => exact .cons ⟨rfl, ih p (by simp)⟩ (ihl (fun q hq => ih q (by simp [hq])))

theorem similar_lift {R : γ → δ → Prop} {P : Comp ρ} {v : Comp γ} {v' : Comp δ} (h : P.Similar v) (h' : v.Lift R v') :
    P.Similar v' := lift_mono (fun _ _ _ => trivial) _ _ (lift_trans _ _ _ h h')

/-- The scalar used at a path of related vectors. -/
theorem lift_leafB {R : γ → δ → Prop} {x : Comp γ} {y : Comp δ} (h : x.Lift R y) (p : List String) (b : δ)
    (hb : y.leafB p = some b) : ∃ a, x.leafB p = some a ∧ R a b := by
  induction p generalizing x y with
  | nil => cases x <;> cases y <;> simp_all [Lift, leafB]
  | cons k p ih =>
    cases x with
    | leaf a => cases y <;> simp_all [Lift, leafB]
    | node cls cs =>
      cases y with
      | leaf _ => simp [Lift] at h
      | node cls' cs' =>
        simp only [Lift, liftL_iff] at h
        simp only [leafB] at hb ⊢
        have h2 := h.2
        clear h
        induction h2 with
        | nil => simp at hb
        | @cons q q' l l' h1 _ ihl =>
          obtain ⟨k1, c⟩ := q
          obtain ⟨k2, c'⟩ := q'
          obtain ⟨rfl, h1⟩ := h1
          simp only [get?_cons] at hb ⊢
          by_cases hk : k1 = k
          · rw [if_pos hk] at hb ⊢
            exact ih h1 hb
          · rw [if_neg hk] at hb ⊢
            exact ihl hb

theorem leafB_leaf (a : γ) (p : List String) : (Comp.leaf a).leafB p = some a := by
  cases p <;> rfl

theorem keys_of_alongL {cs : List (String × Comp ρ)} {cs' : List (String × Comp γ)} (h : AlongL cs cs') :
    keys cs' = keys cs := by
  rw [alongL_iff] at h
  induction h with
  | nil => rfl
  | cons h1 _ ih => simp only [keys, List.map_cons] at ih ⊢; rw [h1.1, ih]

theorem get?_of_forall₂' {R : Comp ρ → Comp γ → Prop} {cs : List (String × Comp ρ)} {cs' : List (String × Comp γ)}
    (h : List.Forall₂ (fun p p' => p'.1 = p.1 ∧ R p.2 p'.2) cs cs') (k : String) (c : Comp ρ)
    (hc : get? cs k = some c) : ∃ c', get? cs' k = some c' ∧ R c c' ∧ c' ∈ cs'.map Prod.snd := by
  induction h with
  | nil => cases hc
  | @cons q q' l l' h1 _ ihl =>
    obtain ⟨k1, d⟩ := q
    obtain ⟨k2, d'⟩ := q'
    obtain ⟨hk, h1⟩ := h1
    have hk' : k2 = k1 := hk
    subst hk'
    simp only [get?_cons] at hc ⊢
    by_cases h : k2 = k
    · rw [if_pos h] at hc ⊢
      injection hc with hc
      subst hc
      exact ⟨d', rfl, h1, by simp⟩
    · rw [if_neg h] at hc ⊢
      obtain ⟨c', h2, h3, h4⟩ := ihl hc
      exact ⟨c', h2, h3, by simp only [List.map_cons, List.mem_cons]; exact Or.inr h4⟩

/-- The component of a prepared argument. -/
theorem component_ok {R : γ → γ → Prop} {cls : String} {cs : List (String × Comp ρ)} {x c' : Comp γ}
    (hA : (Comp.node cls cs).Along x) (hl : x.Lift R c') (k : String) (c : Comp ρ) (hc : get? cs k = some c) :
    ∃ w, component k c' = .ok w ∧ w ∈ c'.parts ∧ c.Along w ∧
      (∀ p b, w.leafB p = some b → ∃ a, x.leafB (k :: p) = some a ∧ R a b) ∧
      ((Comp.node cls cs).Similar x → c.Similar w) := by
  cases x with
  | leaf a =>
    cases c' with
    | node _ _ => simp [Lift] at hl
    | leaf a' =>
      refine ⟨.leaf a', rfl, by simp [parts], along_leaf _ _, ?_, ?_⟩
      · intro p b hb
        rw [leafB_leaf] at hb
        injection hb with hb
        subst hb
        exact ⟨a, rfl, by simpa [Lift] using hl⟩
      · intro h; simp [Similar, Lift] at h
  | node cls' cs' =>
    cases c' with
    | leaf _ => simp [Lift] at hl
    | node cls'' cs'' =>
      have hA' := along_lift _ _ _ hA hl
      simp only [Along, alongL_iff] at hA'
      obtain ⟨w, h1, h2, h3⟩ := get?_of_forall₂' hA'.2 k c hc
      refine ⟨w, by simp [component, h1], h3, h2, ?_, ?_⟩
      · intro p b hb
        have : (Comp.node cls'' cs'').leafB (k :: p) = some b := by simp only [leafB, h1]; exact hb
        exact lift_leafB hl (k :: p) b this
      · intro h
        have hs := similar_lift h hl
        simp only [Similar, Lift, liftL_iff] at hs
        obtain ⟨w', h4, h5, _⟩ := get?_of_forall₂' (R := fun a b => a.Similar b)
          (hs.2.imp (fun _ _ h => ⟨h.1.symm, h.2⟩)) k c hc
        rw [h1] at h4
        injection h4 with h4
        subst h4
        exact h5

theorem prototype_leaves {vs : List (Comp γ)} (h : ∀ v ∈ vs, ∃ a, v = .leaf a) : prototype vs = none := by
  induction vs with
  | nil => rfl
  | cons v vs ih =>
    obtain ⟨a, rfl⟩ := h v (by simp)
    exact ih (fun w hw => h w (by simp [hw]))

theorem prototype_node {cls : String} {cs : List (String × Comp ρ)} {vs : List (Comp γ)}
    (hA : ∀ v ∈ vs, (Comp.node cls cs).Along v) (hex : ∃ v ∈ vs, (Comp.node cls cs).Similar v) :
    prototype vs = some (cls, keys cs) ∧ vs.all (isOfType cls) = true := by
  constructor
  · induction vs with
    | nil => obtain ⟨v, hv, _⟩ := hex; cases hv
    | cons v vs ih =>
      cases v with
      | leaf a =>
        simp only [prototype]
        refine ih (fun w hw => hA w (by simp [hw])) ?_
        obtain ⟨v, hv, hs⟩ := hex
        rcases List.mem_cons.1 hv with rfl | hv
        · simp [Similar, Lift] at hs
        · exact ⟨v, hv, hs⟩
      | node cls' cs' =>
        have := hA _ (List.mem_cons_self ..)
        simp only [Along] at this
        simp only [prototype]
        rw [this.1, keys_of_alongL this.2]
  · rw [List.all_eq_true]
    intro v hv
    cases v with
    | leaf a => rfl
    | node cls' cs' =>
      have := hA _ hv
      simp only [Along] at this
      simp [isOfType, this.1]

theorem mapM_forall₂ {ι κ : Type} {f : ι → R κ} {l : List ι} {m : List κ}
    (h : List.Forall₂ (fun x y => f x = .ok y) l m) : l.mapM f = .ok m := by
  induction h with
  | nil => rfl
  | cons h1 _ ih => rw [List.mapM_cons, h1, ih]; rfl

/-- The components of the prepared arguments. -/
theorem parts_ok {ι : Type} {prep : Comp γ → R (Comp γ)} {Inv : ι → Comp γ → Prop} {Rel : ι → γ → γ → Prop}
    {cls : String} {cs : List (String × Comp ρ)} {vs : List (ι × Comp γ)} {vs' : List (Comp γ)}
    (hvs' : List.Forall₂ (fun (x : ι × Comp γ) c' => prep x.2 = .ok c' ∧ x.2.Lift (Rel x.1) c' ∧
        ∀ q ∈ c'.parts, Inv x.1 q) vs vs')
    (hA : ∀ x ∈ vs, (Comp.node cls cs).Along x.2) {kc : String × Comp ρ} (hget : get? cs kc.1 = some kc.2) :
    ∃ ws : List (ι × Comp γ), vs'.mapM (component kc.1) = .ok (ws.map Prod.snd) ∧
      List.Forall₂ (fun (x w : ι × Comp γ) => w.1 = x.1 ∧ Inv w.1 w.2 ∧ kc.2.Along w.2 ∧
        (∀ p b, w.2.leafB p = some b → ∃ a, x.2.leafB (kc.1 :: p) = some a ∧ Rel x.1 a b) ∧
        ((Comp.node cls cs).Similar x.2 → kc.2.Similar w.2)) vs ws := by
  induction hvs' with
  | nil => exact ⟨[], rfl, .nil⟩
  | @cons x c' l m h1 _ ihl =>
    obtain ⟨ws, h2, h3⟩ := ihl (fun y hy => hA y (by simp [hy]))
    obtain ⟨w, g1, g2, g3, g4, g5⟩ := component_ok (hA x (by simp)) h1.2.1 kc.1 kc.2 hget
    refine ⟨(x.1, w) :: ws, ?_, .cons ⟨rfl, h1.2.2 w g2, g3, g4, g5⟩ h3⟩
    rw [List.mapM_cons, g1, h2]
    rfl

/-- Scalars at the paths of the components are scalars at the paths of the arguments. -/
theorem pull_ok {ι : Type} {Inv : ι → Comp γ → Prop} {Rel : ι → γ → γ → Prop}
    {cls : String} {cs : List (String × Comp ρ)} {vs ws : List (ι × Comp γ)} {kc : String × Comp ρ}
    (htrans : ∀ i a b c, Rel i a b → Rel i b c → Rel i a c)
    (hw2 : List.Forall₂ (fun (x w : ι × Comp γ) => w.1 = x.1 ∧ Inv w.1 w.2 ∧ kc.2.Along w.2 ∧
        (∀ p b, w.2.leafB p = some b → ∃ a, x.2.leafB (kc.1 :: p) = some a ∧ Rel x.1 a b) ∧
        ((Comp.node cls cs).Similar x.2 → kc.2.Similar w.2)) vs ws) (p : List String) (qs : List (γ × γ))
    (hqs : List.Forall₂ (fun (x : ι × Comp γ) (q : γ × γ) => x.2.leafB p = some q.1 ∧ Rel x.1 q.1 q.2) ws qs) :
    ∃ qs', List.Forall₂ (fun (x : ι × Comp γ) (q : γ × γ) =>
      x.2.leafB (kc.1 :: p) = some q.1 ∧ Rel x.1 q.1 q.2) vs qs' ∧ qs'.map Prod.snd = qs.map Prod.snd := by
  induction hw2 generalizing qs with
  | nil => cases hqs; exact ⟨[], .nil, rfl⟩
  | @cons x w l m h1 _ ihl =>
    cases hqs with
    | @cons _ q _ qs h2 h3 =>
      obtain ⟨qs', h4, h5⟩ := ihl _ h3
      obtain ⟨a, h6, h7⟩ := h1.2.2.2.1 p q.1 h2.1
      refine ⟨(a, q.2) :: qs', .cons ⟨h6, htrans _ _ _ _ h7 (h1.1 ▸ h2.2)⟩ h4, ?_⟩
      simp [h5]

theorem dicts_of_mem {cs : List (String × Comp ρ)} (h : DictsL cs) : ∀ q ∈ cs, q.2.Dicts := by
  induction cs with
  | nil => intro q hq; cases hq
  | cons r cs ihl =>
    simp only [DictsL] at h
    intro q hq
    rcases List.mem_cons.1 hq with rfl | hq
    · exact h.1
    · exact ihl h.2 q hq

theorem mapM_outcome {ι κ : Type} {f : ι → R κ} {e : Err} {l : List ι} (h : ∀ x ∈ l, (∃ y, f x = .ok y) ∨ f x = .error e) :
    ((∃ m, l.mapM f = .ok m) ∨ l.mapM f = .error e) ∧ ((∃ x ∈ l, f x = .error e) → l.mapM f = .error e) := by
  induction l with
  | nil => exact ⟨Or.inl ⟨[], rfl⟩, by rintro ⟨x, hx, _⟩; cases hx⟩
  | cons x l ih =>
    obtain ⟨ih1, ih2⟩ := ih (fun y hy => h y (by simp [hy]))
    rw [List.mapM_cons]
    rcases h x (by simp) with ⟨y, hy⟩ | hx
    · rw [hy]
      refine ⟨?_, ?_⟩
      · rcases ih1 with ⟨m, hm⟩ | hm
        · rw [hm]; exact Or.inl ⟨y :: m, rfl⟩
        · rw [hm]; exact Or.inr rfl
      · rintro ⟨z, hz, hze⟩
        rcases List.mem_cons.1 hz with rfl | hz
        · rw [hy] at hze; cases hze
        · rw [ih2 ⟨z, hz, hze⟩]; rfl
    · rw [hx]
      exact ⟨Or.inr rfl, fun _ => rfl⟩

/-- The common scheme: if the arguments can be used together, the result is structured like the vectors among them, and the scalar
at each path is the one of the function for scalars, called with the prepared scalars at this path. -/
theorem naryAux_ok {ι : Type} (prep : Comp γ → R (Comp γ)) (op : List γ → R δ) (Inv : ι → Comp γ → Prop)
    (Rel : ι → γ → γ → Prop) (hrefl : ∀ i a, Inv i (.leaf a) → Rel i a a)
    (htrans : ∀ i a b c, Rel i a b → Rel i b c → Rel i a c)
    (hprep : ∀ i c, Inv i c → ∃ c', prep c = .ok c' ∧ c.Lift (Rel i) c' ∧ ∀ q ∈ c'.parts, Inv i q)
    (n : Nat) (P : Comp ρ) (hn : P.depth ≤ n) (hD : P.Dicts) (vs : List (ι × Comp γ))
    (hI : ∀ x ∈ vs, Inv x.1 x.2) (hA : ∀ x ∈ vs, P.Along x.2) (hex : ∃ x ∈ vs, P.Similar x.2)
    (hop : ∀ p qs, (P.leafAt p).isSome →
      List.Forall₂ (fun (x : ι × Comp γ) (q : γ × γ) => x.2.leafB p = some q.1 ∧ Rel x.1 q.1 q.2) vs qs →
      ∃ b, op (qs.map Prod.snd) = .ok b) :
    ∃ r, naryAux prep op n (vs.map Prod.snd) = .ok r ∧ P.Similar r ∧
      ∀ p, (P.leafAt p).isSome → ∃ b qs, r.leafAt p = some b ∧
        List.Forall₂ (fun (x : ι × Comp γ) (q : γ × γ) => x.2.leafB p = some q.1 ∧ Rel x.1 q.1 q.2) vs qs ∧
        op (qs.map Prod.snd) = .ok b := by
  induction n generalizing P vs with
  | zero => have := depth_pos P; omega
  | succ n ih =>
    cases P with
    | leaf z =>
      have hl : ∀ x ∈ vs, ∃ a, x.2 = .leaf a := by
        intro x hx
        have := hA x hx
        cases hx2 : x.2 with
        | leaf a => exact ⟨a, rfl⟩
        | node _ _ => rw [hx2] at this; simp [Along] at this
      obtain ⟨as, has⟩ := exists_forall₂ hl
      have hq : List.Forall₂ (fun (x : ι × Comp γ) (q : γ × γ) => x.2.leafB [] = some q.1 ∧ Rel x.1 q.1 q.2) vs
          (as.map (fun a => (a, a))) := by
        clear * - has hI hrefl
        induction has with
        | nil => exact .nil
        | @cons x a l m h1 _ ihl =>
          refine .cons ⟨by rw [h1]; rfl, hrefl _ _ (by rw [← h1]; exact hI x (by simp))⟩ (ihl (fun y hy => hI y (by simp [hy])))
      have hmap : (as.map (fun a => (a, a))).map Prod.snd = as := by
        rw [List.map_map]; exact List.map_id as
      have hsc : scalars (vs.map Prod.snd) = as := by
        clear * - has
        induction has with
        | nil => rfl
        | @cons x a l m h1 _ ihl =>
          simp only [List.map_cons, h1, scalars, ihl]
      obtain ⟨b, hb⟩ := hop [] _ rfl hq
      refine ⟨.leaf b, ?_, by simp [Similar, Lift], ?_⟩
      · simp only [naryAux]
        rw [prototype_leaves (by
          intro v hv
          obtain ⟨x, hx, rfl⟩ := List.mem_map.1 hv
          exact hl x hx)]
        simp only [bind, Except.bind]
        rw [hmap] at hb
        rw [hsc, hb]
      · intro p hp
        cases p with
        | cons k p => simp [leafAt] at hp
        | nil => exact ⟨b, _, rfl, hq, hb⟩
    | node cls cs =>
      simp only [Dicts] at hD
      have hDL := dicts_of_mem hD.2
      obtain ⟨vs', hvs'⟩ := exists_forall₂ (P := fun (x : ι × Comp γ) c' => prep x.2 = .ok c' ∧ x.2.Lift (Rel x.1) c' ∧
        ∀ q ∈ c'.parts, Inv x.1 q) (fun x hx => hprep x.1 x.2 (hI x hx))
      obtain ⟨hproto, hall⟩ := prototype_node (vs := vs.map Prod.snd) (cls := cls) (cs := cs)
        (by intro v hv; obtain ⟨x, hx, rfl⟩ := List.mem_map.1 hv; exact hA x hx)
        (by obtain ⟨x, hx, h⟩ := hex; exact ⟨x.2, List.mem_map_of_mem hx, h⟩)
      have hmapM : (vs.map Prod.snd).mapM prep = .ok vs' := by
        apply mapM_forall₂
        clear * - hvs'
        induction hvs' with
        | nil => exact .nil
        | cons h1 _ ihl => exact .cons h1.1 ihl
      -- one component
      have key : ∀ kc ∈ cs, ∃ r, (do
          let ws ← vs'.mapM (component kc.1)
          let r ← naryAux prep op n ws
          Except.ok (kc.1, r) : R (String × Comp δ)) = .ok (kc.1, r) ∧ kc.2.Similar r ∧
          ∀ p, (kc.2.leafAt p).isSome → ∃ b qs, r.leafAt p = some b ∧
            List.Forall₂ (fun (x : ι × Comp γ) (q : γ × γ) => x.2.leafB (kc.1 :: p) = some q.1 ∧ Rel x.1 q.1 q.2) vs qs ∧
            op (qs.map Prod.snd) = .ok b := by
        intro kc hkc
        have hget : get? cs kc.1 = some kc.2 := get?_of_mem hD.1 hkc
        obtain ⟨ws, hw1, hw2⟩ := parts_ok hvs' hA hget
        have hpull := pull_ok htrans hw2
        have hwmem : ∀ w ∈ ws, ∃ x ∈ vs, w.1 = x.1 ∧ Inv w.1 w.2 ∧ kc.2.Along w.2 := by
          intro w hw
          obtain ⟨i, hi, rfl⟩ := List.mem_iff_getElem.1 hw
          have hlen := hw2.length_eq
          have h1 := hw2.get (i := i) (by omega) hi
          exact ⟨_, List.get_mem _ ⟨i, by omega⟩, h1.1, h1.2.1, h1.2.2.1⟩
        have hdep : kc.2.depth ≤ n := by
          simp only [depth] at hn
          have := depth_le_of_mem hkc
          omega
        obtain ⟨r, hr1, hr2, hr3⟩ := ih kc.2 hdep (hDL kc hkc) ws (fun w hw => by
            obtain ⟨_, _, _, h, _⟩ := hwmem w hw; exact h)
          (fun w hw => by obtain ⟨_, _, _, _, h⟩ := hwmem w hw; exact h)
          (by
            obtain ⟨x, hx, hs⟩ := hex
            obtain ⟨i, hi, rfl⟩ := List.mem_iff_getElem.1 hx
            have hlen := hw2.length_eq
            have h1 := hw2.get (i := i) hi (by omega)
            exact ⟨_, List.get_mem _ ⟨i, by omega⟩, h1.2.2.2.2 hs⟩)
          (by
            intro p qs hp hqs
            obtain ⟨qs', h1, h2⟩ := hpull p qs hqs
            rw [← h2]
            exact hop (kc.1 :: p) qs' (by simp only [leafAt, hget]; exact hp) h1)
        refine ⟨r, ?_, hr2, ?_⟩
        · rw [hw1]
          simp only [bind, Except.bind]
          rw [hr1]
        · intro p hp
          obtain ⟨b, qs, h1, h2, h3⟩ := hr3 p hp
          obtain ⟨qs', h4, h5⟩ := hpull p qs h2
          exact ⟨b, qs', h1, h4, by rw [h5]; exact h3⟩
      have key' : ∀ kc ∈ cs, ∃ q : String × Comp δ, (do
          let ws ← vs'.mapM (component kc.1)
          let r ← naryAux prep op n ws
          Except.ok (kc.1, r) : R (String × Comp δ)) = .ok q ∧ q.1 = kc.1 ∧ kc.2.Similar q.2 ∧
          ∀ p, (kc.2.leafAt p).isSome → ∃ b qs, q.2.leafAt p = some b ∧
            List.Forall₂ (fun (x : ι × Comp γ) (q : γ × γ) => x.2.leafB (kc.1 :: p) = some q.1 ∧ Rel x.1 q.1 q.2) vs qs ∧
            op (qs.map Prod.snd) = .ok b := by
        intro kc hkc
        obtain ⟨r, h1, h2, h3⟩ := key kc hkc
        exact ⟨(kc.1, r), h1, rfl, h2, h3⟩
      obtain ⟨rs, hrs⟩ := exists_forall₂ key'
      have hrun : (keys cs).mapM (fun k => do
          let ws ← vs'.mapM (component k)
          let r ← naryAux prep op n ws
          Except.ok (k, r) : String → R (String × Comp δ)) = .ok rs := by
        apply mapM_forall₂
        clear * - hrs
        unfold keys
        induction hrs with
        | nil => exact .nil
        | cons h1 _ ihl => exact .cons h1.1 ihl
      refine ⟨.node cls rs, ?_, ?_, ?_⟩
      · simp only [naryAux]
        rw [hproto]
        dsimp only
        rw [if_pos hall, hmapM]
        simp only [bind, Except.bind] at hrun ⊢
        rw [hrun]
      · simp only [Similar, Lift, liftL_iff, true_and]
        exact hrs.imp (fun _ _ h => ⟨h.2.1.symm, h.2.2.1⟩)
      · intro p hp
        cases p with
        | nil => simp [leafAt] at hp
        | cons k p =>
          simp only [leafAt] at hp ⊢
          cases hg : get? cs k with
          | none => rw [hg] at hp; simp at hp
          | some c =>
            rw [hg] at hp
            have hfr : ∃ q, get? rs k = some q ∧ ∃ b qs, q.leafAt p = some b ∧
                List.Forall₂ (fun (x : ι × Comp γ) (q : γ × γ) => x.2.leafB (k :: p) = some q.1 ∧ Rel x.1 q.1 q.2) vs qs ∧
                op (qs.map Prod.snd) = .ok b := by
              clear * - hrs hg hp
              induction hrs with
              | nil => cases hg
              | @cons kc q l m h1 _ ihl =>
                obtain ⟨k1, c1⟩ := kc
                obtain ⟨k2, c2⟩ := q
                obtain ⟨_, hk, _, h4⟩ := h1
                have hk' : k2 = k1 := hk
                subst hk'
                simp only [get?_cons] at hg ⊢
                by_cases h : k2 = k
                · rw [if_pos h] at hg ⊢
                  injection hg with hg
                  subst hg h
                  exact ⟨c2, rfl, h4 p hp⟩
                · rw [if_neg h] at hg ⊢
                  exact ihl hg
            obtain ⟨q, h1, b, qs, h2, h3, h4⟩ := hfr
            refine ⟨b, qs, ?_, h3, h4⟩
            rw [h1]
            exact h2

/-- The common scheme, when the function for scalars can fail: if it fails at some path, the whole call fails. -/
theorem naryAux_outcome {ι : Type} (prep : Comp γ → R (Comp γ)) (op : List γ → R δ) (Inv : ι → Comp γ → Prop)
    (Rel : ι → γ → γ → Prop) (hrefl : ∀ i a, Inv i (.leaf a) → Rel i a a)
    (htrans : ∀ i a b c, Rel i a b → Rel i b c → Rel i a c)
    (hprep : ∀ i c, Inv i c → ∃ c', prep c = .ok c' ∧ c.Lift (Rel i) c' ∧ ∀ q ∈ c'.parts, Inv i q) (err : Err)
    (n : Nat) (P : Comp ρ) (hn : P.depth ≤ n) (hD : P.Dicts) (vs : List (ι × Comp γ))
    (hI : ∀ x ∈ vs, Inv x.1 x.2) (hA : ∀ x ∈ vs, P.Along x.2) (hex : ∃ x ∈ vs, P.Similar x.2)
    (hop : ∀ p qs, (P.leafAt p).isSome →
      List.Forall₂ (fun (x : ι × Comp γ) (q : γ × γ) => x.2.leafB p = some q.1 ∧ Rel x.1 q.1 q.2) vs qs →
      (∃ b, op (qs.map Prod.snd) = .ok b) ∨ op (qs.map Prod.snd) = .error err) :
    ((∃ r, naryAux prep op n (vs.map Prod.snd) = .ok r) ∨ naryAux prep op n (vs.map Prod.snd) = .error err) ∧
    ((∃ p, (P.leafAt p).isSome ∧ ∀ qs,
      List.Forall₂ (fun (x : ι × Comp γ) (q : γ × γ) => x.2.leafB p = some q.1 ∧ Rel x.1 q.1 q.2) vs qs →
      op (qs.map Prod.snd) = .error err) → naryAux prep op n (vs.map Prod.snd) = .error err) := by
  induction n generalizing P vs with
  | zero => have := depth_pos P; omega
  | succ n ih =>
    cases P with
    | leaf z =>
      have hl : ∀ x ∈ vs, ∃ a, x.2 = .leaf a := by
        intro x hx
        have := hA x hx
        cases hx2 : x.2 with
        | leaf a => exact ⟨a, rfl⟩
        | node _ _ => rw [hx2] at this; simp [Along] at this
      obtain ⟨as, has⟩ := exists_forall₂ hl
      have hq : List.Forall₂ (fun (x : ι × Comp γ) (q : γ × γ) => x.2.leafB [] = some q.1 ∧ Rel x.1 q.1 q.2) vs
          (as.map (fun a => (a, a))) := by
        clear * - has hI hrefl
        induction has with
        | nil => exact .nil
        | @cons x a l m h1 _ ihl =>
          refine .cons ⟨by rw [h1]; rfl, hrefl _ _ (by rw [← h1]; exact hI x (by simp))⟩ (ihl (fun y hy => hI y (by simp [hy])))
      have hmap : (as.map (fun a => (a, a))).map Prod.snd = as := by
        rw [List.map_map]; exact List.map_id as
      have hsc : scalars (vs.map Prod.snd) = as := by
        clear * - has
        induction has with
        | nil => rfl
        | @cons x a l m h1 _ ihl =>
          simp only [List.map_cons, h1, scalars, ihl]
      have hrun : naryAux prep op (n + 1) (vs.map Prod.snd) = (do .ok (.leaf (← op as))) := by
        simp only [naryAux]
        rw [prototype_leaves (by
          intro v hv
          obtain ⟨x, hx, rfl⟩ := List.mem_map.1 hv
          exact hl x hx)]
        rw [hsc]
      rw [hrun]
      constructor
      · rcases hop [] _ rfl hq with ⟨b, hb⟩ | hb
        · rw [hmap] at hb
          rw [hb]; exact Or.inl ⟨.leaf b, rfl⟩
        · rw [hmap] at hb
          rw [hb]; exact Or.inr rfl
      · rintro ⟨p, hp, h⟩
        cases p with
        | cons k p => simp [leafAt] at hp
        | nil =>
          have := h _ hq
          rw [hmap] at this
          rw [this]; rfl
    | node cls cs =>
      simp only [Dicts] at hD
      have hDL := dicts_of_mem hD.2
      obtain ⟨vs', hvs'⟩ := exists_forall₂ (P := fun (x : ι × Comp γ) c' => prep x.2 = .ok c' ∧ x.2.Lift (Rel x.1) c' ∧
        ∀ q ∈ c'.parts, Inv x.1 q) (fun x hx => hprep x.1 x.2 (hI x hx))
      obtain ⟨hproto, hall⟩ := prototype_node (vs := vs.map Prod.snd) (cls := cls) (cs := cs)
        (by intro v hv; obtain ⟨x, hx, rfl⟩ := List.mem_map.1 hv; exact hA x hx)
        (by obtain ⟨x, hx, h⟩ := hex; exact ⟨x.2, List.mem_map_of_mem hx, h⟩)
      have hmapM : (vs.map Prod.snd).mapM prep = .ok vs' := by
        apply mapM_forall₂
        clear * - hvs'
        induction hvs' with
        | nil => exact .nil
        | cons h1 _ ihl => exact .cons h1.1 ihl
      let F : String → R (String × Comp δ) := fun k => do
        let ws ← vs'.mapM (component k)
        let r ← naryAux prep op n ws
        Except.ok (k, r)
      have key : ∀ kc ∈ cs, ((∃ y, F kc.1 = .ok y) ∨ F kc.1 = .error err) ∧
          ((∃ p, (kc.2.leafAt p).isSome ∧ ∀ qs, List.Forall₂ (fun (x : ι × Comp γ) (q : γ × γ) =>
              x.2.leafB (kc.1 :: p) = some q.1 ∧ Rel x.1 q.1 q.2) vs qs →
            op (qs.map Prod.snd) = .error err) → F kc.1 = .error err) := by
        intro kc hkc
        have hget : get? cs kc.1 = some kc.2 := get?_of_mem hD.1 hkc
        obtain ⟨ws, hw1, hw2⟩ := parts_ok hvs' hA hget
        have hpull := pull_ok htrans hw2
        have hwmem : ∀ w ∈ ws, ∃ x ∈ vs, w.1 = x.1 ∧ Inv w.1 w.2 ∧ kc.2.Along w.2 := by
          intro w hw
          obtain ⟨i, hi, rfl⟩ := List.mem_iff_getElem.1 hw
          have hlen := hw2.length_eq
          have h1 := hw2.get (i := i) (by omega) hi
          exact ⟨_, List.get_mem _ ⟨i, by omega⟩, h1.1, h1.2.1, h1.2.2.1⟩
        have hdep : kc.2.depth ≤ n := by
          simp only [depth] at hn
          have := depth_le_of_mem hkc
          omega
        obtain ⟨h1, h2⟩ := ih kc.2 hdep (hDL kc hkc) ws (fun w hw => by
            obtain ⟨_, _, _, h, _⟩ := hwmem w hw; exact h)
          (fun w hw => by obtain ⟨_, _, _, _, h⟩ := hwmem w hw; exact h)
          (by
            obtain ⟨x, hx, hs⟩ := hex
            obtain ⟨i, hi, rfl⟩ := List.mem_iff_getElem.1 hx
            have hlen := hw2.length_eq
            have h1 := hw2.get (i := i) hi (by omega)
            exact ⟨_, List.get_mem _ ⟨i, by omega⟩, h1.2.2.2.2 hs⟩)
          (by
            intro p qs hp hqs
            obtain ⟨qs', h1, h2⟩ := hpull p qs hqs
            rw [← h2]
            exact hop (kc.1 :: p) qs' (by simp only [leafAt, hget]; exact hp) h1)
        have hF : F kc.1 = (do let r ← naryAux prep op n (ws.map Prod.snd); Except.ok (kc.1, r)) := by
          show (do
            let ws ← vs'.mapM (component kc.1)
            let r ← naryAux prep op n ws
            Except.ok (kc.1, r) : R (String × Comp δ)) = _
          rw [hw1]; rfl
        rw [hF]
        constructor
        · rcases h1 with ⟨r, hr⟩ | hr
          · rw [hr]; exact Or.inl ⟨_, rfl⟩
          · rw [hr]; exact Or.inr rfl
        · rintro ⟨p, hp, hbad⟩
          rw [h2 ⟨p, hp, fun qs hqs => by
            obtain ⟨qs', h3, h4⟩ := hpull p qs hqs
            rw [← h4]
            exact hbad qs' h3⟩]
          rfl
      have hrun : naryAux prep op (n + 1) (vs.map Prod.snd) = (do let rs ← (keys cs).mapM F; .ok (.node cls rs)) := by
        simp only [naryAux]
        rw [hproto]
        dsimp only
        rw [if_pos hall, hmapM]
        rfl
      obtain ⟨h1, h2⟩ := mapM_outcome (f := F) (e := err) (l := keys cs) (fun k hk => by
        obtain ⟨kc, hkc, rfl⟩ := List.mem_map.1 hk
        exact (key kc hkc).1)
      rw [hrun]
      constructor
      · rcases h1 with ⟨m, hm⟩ | hm
        · rw [hm]; exact Or.inl ⟨_, rfl⟩
        · rw [hm]; exact Or.inr rfl
      · rintro ⟨p, hp, hbad⟩
        cases p with
        | nil => simp [leafAt] at hp
        | cons k p =>
          simp only [leafAt] at hp
          cases hg : get? cs k with
          | none => rw [hg] at hp; simp at hp
          | some c =>
            rw [hg] at hp
            have hkc := mem_of_get? hg
            rw [h2 ⟨k, mem_keys_of_get? hg, (key (k, c) hkc).2 ⟨p, hp, hbad⟩⟩]
            rfl

theorem maxDepth_ge {vs : List (Comp γ)} {v : Comp γ} (h : v ∈ vs) : v.depth ≤ maxDepth vs := by
  induction vs with
  | nil => cases h
  | cons w vs ih =>
    simp only [maxDepth]
    rcases List.mem_cons.1 h with rfl | h
    · omega
    · have := ih h; omega

/-- Relating two similar vectors path by path. -/
theorem lift_of_paths {Q : ρ → δ → Prop} : ∀ (P : Comp ρ) (r : Comp δ), P.Dicts → P.Similar r →
    (∀ p a, P.leafAt p = some a → ∃ b, r.leafAt p = some b ∧ Q a b) → P.Lift Q r := by
  refine ind ?_ ?_
  · rintro a (b | _) _ h h2
    · obtain ⟨b', h3, h4⟩ := h2 [] a rfl
      simp only [leafAt, Option.some.injEq] at h3
      subst h3
      exact h4
    · simp [Similar, Lift] at h
  · rintro cls cs ih (b | ⟨cls', cs'⟩) hD h h2
    · simp [Similar, Lift] at h
    · simp only [Similar, Lift, liftL_iff] at h
      simp only [Lift, liftL_iff]
      refine ⟨h.1, ?_⟩
      simp only [Dicts] at hD
      have hDL := dicts_of_mem hD.2
      have hw := hD.1
      have h1 := h.2
      have h2' : ∀ k c, get? cs k = some c → ∀ p a, c.leafAt p = some a →
          ∃ c', get? cs' k = some c' ∧ ∃ b, c'.leafAt p = some b ∧ Q a b := by
        intro k c hc p a ha
        obtain ⟨b, hb, hq⟩ := h2 (k :: p) a (by simp only [leafAt, hc]; exact ha)
        simp only [leafAt] at hb
        cases hg : get? cs' k with
        | none => rw [hg] at hb; cases hb
        | some c' => rw [hg] at hb; exact ⟨c', rfl, b, hb, hq⟩
      clear h h2 hD
      induction h1 with
      | nil => exact .nil
      | @cons q q' l l' h3 h4 ihl =>
        obtain ⟨k, c⟩ := q
        obtain ⟨k', c'⟩ := q'
        obtain ⟨hk, h3⟩ := h3
        have hk' : k = k' := hk
        subst hk'
        have hw' := wf_cons.1 hw
        refine .cons ⟨rfl, ih (k, c) (by simp) c' (hDL _ (by simp)) h3 (fun p a ha => ?_)⟩
          (ihl (fun q hq => ih q (by simp [hq])) (fun q hq => hDL q (by simp [hq])) hw'.2 (fun k2 c2 hc2 p a ha => ?_))
        · obtain ⟨c'', h5, h6⟩ := h2' k c (by rw [get?_cons, if_pos rfl]) p a ha
          rw [get?_cons, if_pos rfl] at h5
          injection h5 with h5
          subst h5
          exact h6
        · have hne : k ≠ k2 := by
            rintro rfl
            exact hw'.1 (mem_keys_of_get? hc2)
          obtain ⟨c'', h5, h6⟩ := h2' k2 c2 (by rw [get?_cons, if_neg hne]; exact hc2) p a ha
          rw [get?_cons, if_neg hne] at h5
          exact ⟨c'', h5, h6⟩

theorem leafAt_of_lift {Q : ρ → δ → Prop} {P : Comp ρ} {r : Comp δ} (h : P.Lift Q r) {p : List String} {a : ρ}
    (ha : P.leafAt p = some a) : ∃ b, r.leafAt p = some b ∧ Q a b := (lift_leafAt h p).1 a ha

/-- One argument: the scalars are prepared, then the function for scalars is called. -/
theorem nary_single {prep : Comp γ → R (Comp γ)} {op : γ → R δ} {Inv : Comp γ → Prop} {Rel : γ → γ → Prop}
    (hrefl : ∀ a, Inv (.leaf a) → Rel a a) (htrans : ∀ a b c, Rel a b → Rel b c → Rel a c)
    (hprep : ∀ c, Inv c → ∃ c', prep c = .ok c' ∧ c.Lift Rel c' ∧ ∀ q ∈ c'.parts, Inv q)
    (v : Comp γ) (hD : v.Dicts) (hI : Inv v) :
    ((∀ a ∈ v.leaves, ∀ a', Rel a a' → ∃ b, op a' = .ok b) →
      ∃ r, nary prep (single op) [v] = .ok r ∧ v.Lift (fun a b => ∃ a', Rel a a' ∧ op a' = .ok b) r) ∧
    ∀ err, (∀ a ∈ v.leaves, ∀ a', Rel a a' → (∃ b, op a' = .ok b) ∨ op a' = .error err) →
      (∃ p a, v.leafAt p = some a ∧ ∀ a', Rel a a' → op a' = .error err) →
      nary prep (single op) [v] = .error err := by
  have hd : v.depth ≤ maxDepth [v] := maxDepth_ge (by simp)
  have key : ∀ p qs, (v.leafAt p).isSome → List.Forall₂ (fun (x : Unit × Comp γ) (q : γ × γ) =>
      x.2.leafB p = some q.1 ∧ Rel q.1 q.2) [((), v)] qs → ∃ a a', qs = [(a, a')] ∧ v.leafAt p = some a ∧ a ∈ v.leaves ∧
        Rel a a' := by
    intro p qs hp hqs
    cases hqs with
    | @cons _ q _ l h1 h2 =>
      cases h2
      obtain ⟨a, ha⟩ := Option.isSome_iff_exists.1 hp
      have := leafB_of_leafAt ha
      have h3 : v.leafB p = some q.1 := h1.1
      rw [this] at h3
      injection h3 with h3
      exact ⟨q.1, q.2, rfl, by rw [← h3]; exact ha, by rw [← h3]; exact leafAt_mem_leaves ha, h1.2⟩
  refine ⟨fun hop => ?_, fun err hop hbad => ?_⟩
  · obtain ⟨r, h1, h2, h3⟩ := naryAux_ok (ι := Unit) prep (single op) (fun _ => Inv) (fun _ => Rel) (fun _ => hrefl)
      (fun _ => htrans) (fun _ => hprep) (maxDepth [v]) v hd hD [((), v)] (by simpa using hI)
      (by simpa using along_of_similar v v (similar_refl v)) ⟨((), v), by simp, similar_refl v⟩
      (by
        intro p qs hp hqs
        obtain ⟨a, a', rfl, _, ha, hr⟩ := key p qs hp hqs
        exact hop a ha a' hr)
    refine ⟨r, h1, lift_of_paths v r hD h2 (fun p a ha => ?_)⟩
    obtain ⟨b, qs, h4, h5, h6⟩ := h3 p (by rw [ha]; rfl)
    obtain ⟨a1, a', rfl, h7, _, hr⟩ := key p qs (by rw [ha]; rfl) h5
    rw [ha] at h7
    injection h7 with h7
    subst h7
    exact ⟨b, h4, a', hr, h6⟩
  · refine (naryAux_outcome (ι := Unit) prep (single op) (fun _ => Inv) (fun _ => Rel) (fun _ => hrefl)
      (fun _ => htrans) (fun _ => hprep) err (maxDepth [v]) v hd hD [((), v)] (by simpa using hI)
      (by simpa using along_of_similar v v (similar_refl v)) ⟨((), v), by simp, similar_refl v⟩
      (by
        intro p qs hp hqs
        obtain ⟨a, a', rfl, _, ha, hr⟩ := key p qs hp hqs
        exact hop a ha a' hr)).2 ?_
    obtain ⟨p, a, ha, hb⟩ := hbad
    refine ⟨p, by rw [ha]; rfl, fun qs hqs => ?_⟩
    obtain ⟨a1, a', rfl, h7, _, hr⟩ := key p qs (by rw [ha]; rfl) hqs
    rw [ha] at h7
    injection h7 with h7
    subst h7
    exact hb a' hr

end Comp
end NA
