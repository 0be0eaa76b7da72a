import Verif.Vector.Set
import Verif.Props.Vectors
import Verif.Props.VectorReduce
import Verif.Props.Indexing

/-!
# C77: assignment to vectors
-/

namespace NA
open Dict Comp
open SA (FitsIn InRange)

namespace Comp
variable {α β γ : Type}

/-! ### Specification -/

mutual
/-- `y` can be given to the components of `x`: it is a scalar, or it has the type of `x` and (at least) its
components, at every level. -/
def Accepts : Comp α → Comp β → Prop
  | _, .leaf _ => True
  | .leaf _, .node _ _ => False
  | .node cls cs, .node cls' cs' => cls' = cls ∧ AcceptsL cs cs'
/-- ... for all components of `x`. -/
def AcceptsL : List (String × Comp α) → List (String × Comp β) → Prop
  | [], _ => True
  | (k, c) :: l, l' => (∃ c', get? l' k = some c' ∧ c.Accepts c') ∧ AcceptsL l l'
end

/-- An item can be given to the components of `x`. -/
def AcceptsItem (x : Comp α) : Item → Prop
  | .mask m => x.Accepts m
  | .dict d => ∀ q ∈ d, x.Accepts q.2

/-- The dictionary which is used for the scalar at a path: where the item has a vector, its scalar at this
path. -/
def itemAt (d : Dict (Comp IndexVal)) (p : List String) : Option (Dict IndexVal) :=
  d.mapM (fun q => (q.2.leafB p).map (fun i => (q.1, i)))

/-- The item which is used for the scalar at a path. -/
def Item.at (p : List String) : Item → Option ScalarItem
  | .mask m => (m.leafB p).map ScalarItem.mask
  | .dict d => (itemAt d p).map ScalarItem.dict

/-- The scalar `a` at the path `p` becomes `b` by the assignment of its part of the value at its part of
the item. -/
def Assigned (item : Item) (value : Comp (SA α)) (p : List String) (a b : SA α) : Prop :=
  ∃ i w, item.at p = some i ∧ value.leafB p = some w ∧ i.assign a w = .ok b

/-! ### Helpers -/

theorem acceptsL_iff {cs : List (String × Comp α)} {cs' : List (String × Comp β)} :
    AcceptsL cs cs' ↔ ∀ p ∈ cs, ∃ c', get? cs' p.1 = some c' ∧ p.2.Accepts c' := by
  induction cs with
  | nil => simp [AcceptsL]
  | cons p cs ih => obtain ⟨k, c⟩ := p; simp [AcceptsL, ih]

theorem get?_names {names : List String} {f : String → β} {k : String} (h : k ∈ names) :
    get? (names.map (fun c => (c, f c))) k = some (f k) := by
  induction names with
  | nil => simp at h
  | cons n names ih =>
    simp only [List.map_cons, get?_cons]
    by_cases hk : n = k
    · subst hk; simp
    · rw [if_neg hk]
      exact ih (by simpa [Ne.symm hk] using h)

theorem get?_names_none {names : List String} {f : String → β} {k : String} (h : k ∉ names) :
    get? (names.map (fun c => (c, f c))) k = none := by
  rw [get?_eq_none]
  simpa [keys] using h

theorem get?_mapItem (d : Dict (Comp (SA Bool))) (k : String) :
    get? (d.map (fun p => (p.1, Item.mask p.2))) k = (get? d k).map Item.mask := by
  induction d with
  | nil => simp [get?]
  | cons p d ih =>
    obtain ⟨k', c⟩ := p
    simp only [List.map_cons, get?_cons]
    by_cases hk : k' = k
    · simp [hk]
    · rw [if_neg hk, if_neg hk]; exact ih

/-- What a component takes from a scalar or vector is its part at the paths below it. -/
theorem componentsOf_at {cls : String} {names : List String} {y : Comp β} {d : Dict (Comp β)}
    (h : componentsOf cls names y = .ok d) {k : String} {c : Comp β} (hk : get? d k = some c) (p : List String) :
    c.leafB p = y.leafB (k :: p) := by
  cases y with
  | leaf b =>
    simp only [componentsOf, Except.ok.injEq] at h
    subst h
    by_cases hm : k ∈ names
    · rw [get?_names (f := fun _ => Comp.leaf b) hm] at hk
      cases hk
      simp [leafB]
    · rw [get?_names_none (f := fun _ => Comp.leaf b) hm] at hk
      cases hk
  | node cls' cs' =>
    simp only [componentsOf] at h
    split at h
    · cases h
      simp [leafB, hk]
    · cases h

theorem componentsOf_accepts {cls : String} {cs : List (String × Comp α)} {y : Comp β}
    (h : (Comp.node cls cs).Accepts y) :
    ∃ d, componentsOf cls (keys cs) y = .ok d ∧ ∀ q ∈ cs, ∃ c', get? d q.1 = some c' ∧ q.2.Accepts c' := by
  cases y with
  | leaf b =>
    refine ⟨_, rfl, fun q hq => ⟨.leaf b, get?_names (f := fun _ => Comp.leaf b) (List.mem_map_of_mem hq), ?_⟩⟩
    cases q.2 <;> simp [Accepts]
  | node cls' cs' =>
    simp only [Accepts] at h
    refine ⟨cs', by simp [componentsOf, h.1], acceptsL_iff.1 h.2⟩

theorem indexOf_ok {cls : String} {names : List String} {y : Comp IndexVal} {d : Dict (Comp IndexVal)}
    (h : indexOf cls names y = .ok d) : ∃ d0, componentsOf cls names y = .ok d0 ∧
      ∀ k ∈ names, ∃ c, get? d k = some c ∧ get? d0 k = some c := by
  unfold indexOf at h
  simp only [bind, Except.bind] at h
  cases hd : componentsOf cls names y with
  | error e => rw [hd] at h; cases h
  | ok d0 =>
    rw [hd] at h
    dsimp only at h
    have hall := SA.mapM_ok h
    clear h
    refine ⟨d0, rfl, ?_⟩
    clear hd
    induction hall with
    | nil => simp
    | @cons n q names d hq _ ih =>
      intro k hk
      cases hg : get? d0 n with
      | none => rw [hg] at hq; cases hq
      | some y' =>
        rw [hg] at hq
        simp only [Except.ok.injEq] at hq
        subst hq
        simp only [get?_cons]
        by_cases hn : n = k
        · subst hn; exact ⟨y', by simp, hg⟩
        · rw [if_neg hn]
          exact ih k (by simpa [Ne.symm hn] using hk)

theorem indexOf_accepts {cls : String} {cs : List (String × Comp α)} {y : Comp IndexVal}
    (h : (Comp.node cls cs).Accepts y) : ∃ d, indexOf cls (keys cs) y = .ok d ∧
      ∀ q ∈ cs, ∃ c', get? d q.1 = some c' ∧ q.2.Accepts c' := by
  obtain ⟨d0, hd0, hacc⟩ := componentsOf_accepts h
  have hrun : ∃ d, indexOf cls (keys cs) y = .ok d := by
    unfold indexOf
    simp only [bind, Except.bind, hd0]
    apply SA.mapM_isOk
    intro k hk
    simp only [keys, List.mem_map] at hk
    obtain ⟨q, hq, rfl⟩ := hk
    obtain ⟨c', hc', _⟩ := hacc q hq
    rw [hc']
    exact ⟨_, rfl⟩
  obtain ⟨d, hd⟩ := hrun
  refine ⟨d, hd, fun q hq => ?_⟩
  obtain ⟨d1, hd1, hget⟩ := indexOf_ok hd
  rw [hd0] at hd1
  cases hd1
  obtain ⟨c, h1, h2⟩ := hget q.1 (List.mem_map_of_mem hq)
  obtain ⟨c', h3, h4⟩ := hacc q hq
  rw [h3] at h2
  cases h2
  exact ⟨_, h1, h4⟩

/-- The item of a component is the part of the item at the paths below it. -/
theorem components_at {cls : String} {names : List String} {item : Item} {items : Dict Item}
    (h : item.components cls names = .ok items) {k : String} {i : Item} (hk : get? items k = some i)
    (p : List String) : i.at p = item.at (k :: p) := by
  cases item with
  | mask m =>
    simp only [Item.components, bind, Except.bind] at h
    cases hd : componentsOf cls names m with
    | error e => rw [hd] at h; cases h
    | ok d =>
      rw [hd] at h
      simp only [Except.ok.injEq] at h
      subst h
      rw [get?_mapItem] at hk
      cases hg : get? d k with
      | none => rw [hg] at hk; cases hk
      | some c =>
        rw [hg] at hk
        simp only [Option.map_some, Option.some.injEq] at hk
        subst hk
        simp only [Item.at]
        rw [componentsOf_at hd hg]
  | dict d =>
    simp only [Item.components, bind, Except.bind] at h
    split at h
    · cases h
    next table ht =>
      simp only [Except.ok.injEq] at h
      subst h
      by_cases hn : k ∈ names
      · rw [get?_names (f := fun c => Item.dict (table.filterMap (fun p => (p.2.get? c).map (fun y => (p.1, y))))) hn] at hk
        cases hk
        simp only [Item.at]
        congr 1
        have hall := SA.mapM_ok ht
        clear ht
        unfold itemAt
        induction hall with
        | nil => rfl
        | @cons q t d table hq _ ih =>
          cases hx : indexOf cls names q.2 with
          | error e => rw [hx] at hq; cases hq
          | ok x =>
            rw [hx] at hq
            simp only [Except.ok.injEq] at hq
            subst hq
            obtain ⟨d0, h1, h2⟩ := indexOf_ok hx
            obtain ⟨c, h3, h4⟩ := h2 k hn
            simp only [List.filterMap_cons, h3, Option.map_some, List.mapM_cons]
            rw [ih, componentsOf_at h1 h4]
      · rw [get?_names_none (f := fun c => Item.dict (table.filterMap (fun p => (p.2.get? c).map (fun y => (p.1, y))))) hn] at hk
        cases hk

theorem components_accepts {cls : String} {cs : List (String × Comp α)} {item : Item}
    (h : (Comp.node cls cs).AcceptsItem item) :
    ∃ items, item.components cls (keys cs) = .ok items ∧
      ∀ q ∈ cs, ∃ i, get? items q.1 = some i ∧ q.2.AcceptsItem i := by
  cases item with
  | mask m =>
    obtain ⟨d, hd, hacc⟩ := componentsOf_accepts (show (Comp.node cls cs).Accepts m from h)
    refine ⟨_, by simp only [Item.components, bind, Except.bind, hd]; rfl, fun q hq => ?_⟩
    obtain ⟨c', h1, h2⟩ := hacc q hq
    exact ⟨.mask c', by rw [get?_mapItem, h1]; rfl, h2⟩
  | dict d =>
    have h' : ∀ q ∈ d, (Comp.node cls cs).Accepts q.2 := h
    have hrun : ∃ table, d.mapM (fun p => do
        let x ← indexOf cls (keys cs) p.2
        .ok (p.1, x)) = (.ok table : R (List (String × Dict (Comp IndexVal)))) := by
      apply SA.mapM_isOk
      intro q hq
      obtain ⟨x, hx, _⟩ := indexOf_accepts (h' q hq)
      exact ⟨(q.1, x), by simp only [bind, Except.bind, hx]⟩
    obtain ⟨table, ht⟩ := hrun
    refine ⟨_, by simp only [Item.components]; rw [ht]; rfl, fun q hq => ⟨_, get?_names
      (f := fun c => Item.dict (table.filterMap (fun p => (p.2.get? c).map (fun y => (p.1, y)))))
      (List.mem_map_of_mem hq), ?_⟩⟩
    have hall := SA.mapM_ok ht
    clear ht
    show ∀ q' ∈ (table.filterMap (fun p => (p.2.get? q.1).map (fun y => (p.1, y)))), q.2.Accepts q'.2
    intro q' hq'
    simp only [List.mem_filterMap, Option.map_eq_some_iff] at hq'
    obtain ⟨t, ht, y, hy, rfl⟩ := hq'
    obtain ⟨q0, hq0, hrow⟩ : ∃ q0 ∈ d, (do
        let x ← indexOf cls (keys cs) q0.2
        .ok (q0.1, x) : R (String × Dict (Comp IndexVal))) = .ok t := by
      clear h h' hy
      induction hall with
      | nil => simp at ht
      | @cons a b d table hab _ ih =>
        rcases List.mem_cons.1 ht with rfl | ht
        · exact ⟨a, by simp, hab⟩
        · obtain ⟨q0, h1, h2⟩ := ih ht
          exact ⟨q0, List.mem_cons_of_mem _ h1, h2⟩
    obtain ⟨x, hx, hacc⟩ := indexOf_accepts (h' q0 hq0)
    simp only [bind, Except.bind, hx, Except.ok.injEq] at hrow
    subst hrow
    obtain ⟨c', h1, h2⟩ := hacc q hq
    simp only at hy
    rw [h1] at hy
    cases hy
    exact h2

/-- Assignment to one scalar component. -/
theorem leafSet_ok {a b : SA α} {item : Item} {value : Comp (SA α)} (h : leafSet a item value = .ok b) :
    (b = a ∧ ¬ (Comp.leaf a).AcceptsItem item) ∨ Assigned item value [] a b := by
  cases value with
  | node cls cs => cases item with
    | mask m => cases m <;> cases h
    | dict d => cases h
  | leaf w =>
    cases item with
    | mask m =>
      cases m with
      | node cls cs =>
        left
        simp only [leafSet, Except.ok.injEq] at h
        exact ⟨h.symm, by simp [AcceptsItem, Accepts]⟩
      | leaf m =>
        right
        exact ⟨.mask m, w, rfl, rfl, h⟩
    | dict d =>
      right
      simp only [leafSet] at h
      split at h
      · simp only [bind, Except.bind] at h
        split at h
        · cases h
        next d' hd' =>
          refine ⟨.dict d', w, ?_, rfl, h⟩
          have hall := SA.mapM_ok hd'
          clear hd' h
          simp only [Item.at]
          have : itemAt d [] = some d' := by
            unfold itemAt
            clear * - hall
            induction hall with
            | nil => rfl
            | @cons q t d d' hq _ ih =>
              obtain ⟨k, x⟩ := q
              cases x with
              | node cls cs => cases hq
              | leaf i =>
                simp only [Except.ok.injEq] at hq
                subst hq
                simp [List.mapM_cons, ih, leafB]
          rw [this]; rfl
      · cases h

theorem leafSet_isOk {a b : SA α} {item : Item} {value : Comp (SA α)} (hi : (Comp.leaf a).AcceptsItem item)
    (hv : (Comp.leaf a).Accepts value) (h : Assigned item value [] a b) : leafSet a item value = .ok b := by
  obtain ⟨i, w, h1, h2, h3⟩ := h
  cases value with
  | node cls cs => simp [Accepts] at hv
  | leaf w' =>
    simp only [leafB, Option.some.injEq] at h2
    subst h2
    cases item with
    | mask m =>
      cases m with
      | node cls cs => simp [AcceptsItem, Accepts] at hi
      | leaf m =>
        simp only [Item.at, leafB, Option.map_some, Option.some.injEq] at h1
        subst h1
        exact h3
    | dict d =>
      simp only [Item.at, Option.map_eq_some_iff] at h1
      obtain ⟨d', hd', rfl⟩ := h1
      have hrun : d.mapM (fun p => match p.2 with
          | .leaf i => (.ok (p.1, i) : R (String × IndexVal))
          | .node _ _ => .error .typeError) = .ok d' ∧ keys d' = keys d := by
        clear hi h3 hv
        unfold itemAt at hd'
        induction d generalizing d' with
        | nil => simp only [List.mapM_nil] at hd'; cases hd'; exact ⟨rfl, rfl⟩
        | cons q d ih =>
          obtain ⟨k, x⟩ := q
          cases x with
          | node cls cs => simp [List.mapM_cons, leafB] at hd'
          | leaf i =>
            simp only [List.mapM_cons, leafB, Option.map_some] at hd'
            cases hm : List.mapM (fun q => Option.map (fun i => (q.1, i)) (leafB q.2 [])) d with
            | none => simp [hm] at hd'
            | some d'' =>
              simp [hm] at hd'
              subst hd'
              obtain ⟨e1, e2⟩ := ih d'' hm
              refine ⟨?_, by simpa [keys] using e2⟩
              rw [List.mapM_cons]
              simp only [e1]
              rfl
      have hk : (keys d).all (· ∈ a.axes) = true := by
        have h3' : a.setitem d' w' = .ok b := h3
        unfold SA.setitem at h3'
        split at h3'
        · cases h3'
        · split at h3'
          next h => rw [← hrun.2]; exact h
          · cases h3'
      simp only [leafSet, hk, if_true]
      exact (congrArg (fun x : R (Dict IndexVal) => x >>= fun d' => a.setitem d' w') hrun.1).trans h3

/-- Every level of a component of a genuine dictionary is a genuine dictionary. -/
theorem dictsL_mem {cs : List (String × Comp α)} (h : DictsL cs) : ∀ q ∈ cs, q.2.Dicts := by
  induction cs with
  | nil => simp
  | cons q cs ih =>
    obtain ⟨k, c⟩ := q
    simp only [DictsL] at h
    intro q' hq'
    rcases List.mem_cons.1 hq' with rfl | hq'
    · exact h.1
    · exact ih h.2 q' hq'

theorem lift_refl {P : α → α → Prop} (hP : ∀ a, P a a) : ∀ x : Comp α, x.Lift P x := by
  refine ind (fun a => hP a) (fun cls cs ih => ⟨rfl, ?_⟩)
  induction cs with
  | nil => simp [LiftL]
  | cons q cs ih' =>
    obtain ⟨k, c⟩ := q
    exact ⟨rfl, ih (k, c) (by simp), ih' (fun p hp => ih p (List.mem_cons_of_mem _ hp))⟩

theorem liftL_refl {P : α → α → Prop} (hP : ∀ a, P a a) (cs : List (String × Comp α)) : LiftL P cs cs :=
  (lift_refl hP (.node "" cs)).2

/-- The loop over the components. -/
theorem setitemL_any {items : Dict Item} {values : Dict (Comp (SA α))} (l : List (String × Comp (SA α)))
    (ih : ∀ q ∈ l, ∀ (item : Item) (value r : Comp (SA α)) (e : Option Err), q.2.setitem item value = (r, e) →
      q.2.Lift (fun _ _ => True) r ∧
      ∀ p a, q.2.leafAt p = some a → (r.leafAt p = some a ∧ (e = none → ¬ q.2.AcceptsItem item)) ∨
        ∃ b, Assigned item value p a b ∧ r.leafAt p = some b)
    (r : List (String × Comp (SA α))) (e : Option Err) (h : setitemL l items values = (r, e)) :
    LiftL (fun _ _ => True) l r ∧
    ∀ k c, get? l k = some c → ∃ c', get? r k = some c' ∧ ∀ p a, c.leafAt p = some a →
      (c'.leafAt p = some a ∧ (e = none → ∃ q ∈ l, ∃ item, get? items q.1 = some item ∧ ¬ q.2.AcceptsItem item)) ∨
      ∃ item value b, get? items k = some item ∧ get? values k = some value ∧ Assigned item value p a b ∧
        c'.leafAt p = some b := by
  induction l generalizing r e with
  | nil =>
    simp only [setitemL] at h
    cases h
    exact ⟨by simp [LiftL], by simp [get?]⟩
  | cons q l ih' =>
    obtain ⟨k0, c0⟩ := q
    simp only [setitemL] at h
    split at h
    next item value hi hv =>
      have hc0 := ih (k0, c0) (by simp) item value
      split at h
      next c' e' hs =>
        cases h
        obtain ⟨h1, h2⟩ := hc0 _ _ hs
        refine ⟨⟨rfl, h1, liftL_refl (fun _ => trivial) l⟩, fun k c hk => ?_⟩
        simp only [get?_cons] at hk ⊢
        by_cases hkk : k0 = k
        · subst hkk
          simp only [if_true, Option.some.injEq] at hk
          subst hk
          refine ⟨c', by simp, fun p a hp => ?_⟩
          rcases h2 p a hp with ⟨h3, _⟩ | ⟨b, h3, h4⟩
          · exact .inl ⟨h3, by simp⟩
          · exact .inr ⟨item, value, b, hi, hv, h3, h4⟩
        · rw [if_neg hkk] at hk ⊢
          exact ⟨c, hk, fun p a hp => .inl ⟨hp, by simp⟩⟩
      next c' hs =>
        cases h
        obtain ⟨h1, h2⟩ := hc0 _ _ hs
        obtain ⟨h5, h6⟩ := ih' (fun q hq => ih q (List.mem_cons_of_mem _ hq)) _ _ rfl
        refine ⟨⟨rfl, h1, h5⟩, fun k c hk => ?_⟩
        simp only [get?_cons] at hk ⊢
        by_cases hkk : k0 = k
        · subst hkk
          simp only [if_true, Option.some.injEq] at hk
          subst hk
          refine ⟨c', by simp, fun p a hp => ?_⟩
          rcases h2 p a hp with ⟨h3, h4⟩ | ⟨b, h3, h4⟩
          · exact .inl ⟨h3, fun _ => ⟨(k0, c0), by simp, item, hi, h4 rfl⟩⟩
          · exact .inr ⟨item, value, b, hi, hv, h3, h4⟩
        · rw [if_neg hkk] at hk ⊢
          obtain ⟨c1, h7, h8⟩ := h6 k c hk
          refine ⟨c1, h7, fun p a hp => ?_⟩
          rcases h8 p a hp with ⟨h9, h10⟩ | h9
          · refine .inl ⟨h9, fun he => ?_⟩
            obtain ⟨q, hq, hq'⟩ := h10 he
            exact ⟨q, List.mem_cons_of_mem _ hq, hq'⟩
          · exact .inr h9
    · cases h
      exact ⟨liftL_refl (fun _ => trivial) _, fun k c hk => ⟨c, hk, fun p a hp => .inl ⟨hp, by simp⟩⟩⟩

/-- Whatever the outcome of an assignment: each scalar is unchanged or completely assigned, and completely assigned if
there is no error. -/
theorem setitem_any : ∀ (v : Comp (SA α)), v.Dicts → ∀ (item : Item) (value r : Comp (SA α)) (e : Option Err),
    v.setitem item value = (r, e) →
    v.Lift (fun _ _ => True) r ∧
    ∀ p a, v.leafAt p = some a → (r.leafAt p = some a ∧ (e = none → ¬ v.AcceptsItem item)) ∨
      ∃ b, Assigned item value p a b ∧ r.leafAt p = some b := by
  refine ind ?_ ?_
  · intro a _ item value r e h
    simp only [setitem] at h
    cases hl : leafSet a item value with
    | error e' =>
      rw [hl] at h
      cases h
      refine ⟨by simp [Lift], fun p a' hp => ?_⟩
      cases p with
      | cons k p => simp [leafAt] at hp
      | nil =>
        simp only [leafAt, Option.some.injEq] at hp
        subst hp
        exact .inl ⟨rfl, by simp⟩
    | ok b =>
      rw [hl] at h
      cases h
      refine ⟨by simp [Lift], fun p a' hp => ?_⟩
      cases p with
      | cons k p => simp [leafAt] at hp
      | nil =>
        simp only [leafAt, Option.some.injEq] at hp
        subst hp
        rcases leafSet_ok hl with ⟨rfl, hn⟩ | hb
        · exact .inl ⟨rfl, fun _ => hn⟩
        · exact .inr ⟨b, hb, rfl⟩
  · intro cls cs ih hd item value r e h
    obtain ⟨hw, hdL⟩ := hd
    have hrefl : LiftL (fun _ _ => True) cs cs := liftL_refl (fun _ => trivial) cs
    simp only [setitem] at h
    cases hi : item.components cls (keys cs) with
    | error e' =>
      rw [hi] at h
      cases h
      exact ⟨⟨rfl, hrefl⟩, fun p a hp => .inl ⟨hp, by simp⟩⟩
    | ok items =>
      rw [hi] at h
      dsimp only at h
      cases hv : componentsOf cls (keys cs) value with
      | error e' =>
        rw [hv] at h
        cases h
        exact ⟨⟨rfl, hrefl⟩, fun p a hp => .inl ⟨hp, by simp⟩⟩
      | ok values =>
        rw [hv] at h
        dsimp only at h
        cases h
        obtain ⟨h1, h2⟩ := setitemL_any cs (fun q hq => ih q hq (dictsL_mem hdL q hq)) _ _
          (rfl : setitemL cs items values = _)
        refine ⟨⟨rfl, h1⟩, fun p a hp => ?_⟩
        cases p with
        | nil => simp [leafAt] at hp
        | cons k p =>
          simp only [leafAt] at hp ⊢
          cases hk : get? cs k with
          | none => rw [hk] at hp; cases hp
          | some c =>
            rw [hk] at hp
            obtain ⟨c', hc', h3⟩ := h2 k c hk
            rw [hc']
            rcases h3 p a hp with ⟨h4, h5⟩ | ⟨i, w, b, h4, h5, ⟨j, x, h6, h7, h8⟩, h9⟩
            · refine .inl ⟨h4, fun he hacc => ?_⟩
              obtain ⟨q, hq, it, hit, hna⟩ := h5 he
              obtain ⟨items', hi', hall⟩ := components_accepts hacc
              rw [hi] at hi'
              cases hi'
              obtain ⟨it', h10, h11⟩ := hall q hq
              rw [hit] at h10
              cases h10
              exact hna h11
            · refine .inr ⟨b, ⟨j, x, ?_, ?_, h8⟩, h9⟩
              · rw [← components_at hi h4]; exact h6
              · rw [← componentsOf_at hv h5]; exact h7

/-- An assignment which is possible for every scalar succeeds. -/
theorem setitem_isOk : ∀ (v : Comp (SA α)), v.Dicts → ∀ (item : Item) (value : Comp (SA α)),
    v.AcceptsItem item → v.Accepts value → (∀ p a, v.leafAt p = some a → ∃ b, Assigned item value p a b) →
    ∃ r, v.setitem item value = (r, none) := by
  refine ind ?_ ?_
  · intro a _ item value hi hv h
    obtain ⟨b, hb⟩ := h [] a rfl
    exact ⟨.leaf b, by simp [setitem, leafSet_isOk hi hv hb]⟩
  · intro cls cs ih hd item value hi hv h
    obtain ⟨hw, hdL⟩ := hd
    obtain ⟨items, hi1, hi2⟩ := components_accepts hi
    obtain ⟨values, hv1, hv2⟩ := componentsOf_accepts hv
    have key : ∀ l, (∀ q ∈ l, q ∈ cs) → ∃ r, setitemL l items values = (r, none) := by
      intro l
      induction l with
      | nil => exact fun _ => ⟨[], rfl⟩
      | cons q l ih' =>
        intro hsub
        obtain ⟨k, c⟩ := q
        have hq := hsub (k, c) (by simp)
        obtain ⟨it, h1, h2⟩ := hi2 _ hq
        obtain ⟨w, h3, h4⟩ := hv2 _ hq
        obtain ⟨r, hr⟩ := ih _ hq (dictsL_mem hdL _ hq) it w h2 h4 (by
          intro p a hp
          have hg : get? cs k = some c := get?_of_mem hw hq
          obtain ⟨b, i, x, h5, h6, h7⟩ := h (k :: p) a (by simpa [leafAt, hg] using hp)
          exact ⟨b, i, x, by rw [components_at hi1 h1]; exact h5, by rw [componentsOf_at hv1 h3]; exact h6, h7⟩)
        obtain ⟨r', hr'⟩ := ih' (fun q hq => hsub q (List.mem_cons_of_mem _ hq))
        simp only at h1 h3 hr
        exact ⟨(k, r) :: r', by simp only [setitemL, h1, h3, hr, hr']⟩
    obtain ⟨r, hr⟩ := key cs (fun _ h => h)
    exact ⟨.node cls r, by simp only [setitem, hi1, hv1, hr]⟩

/-! ### C77 -/

/-- **C77** (every component is assigned). If the item and the value are scalars or vectors like `v`, the assignment
`v[item] = value` succeeds exactly if it is possible for every scalar component with its part of the item and its part of
the value.  Then the vector has the same type and components as before, and every scalar component is what the assignment to
this component gives. -/
theorem C77_components (v : Comp (SA α)) (hd : v.Dicts) (item : Item) (value : Comp (SA α)) (hi : v.AcceptsItem item)
    (hv : v.Accepts value) :
    ((v.setitem item value).2 = none ↔ ∀ p a, v.leafAt p = some a → ∃ b, Assigned item value p a b) ∧
    ∀ r, v.setitem item value = (r, none) → v.Lift (fun _ _ => True) r ∧
      ∀ p a, v.leafAt p = some a → ∃ b, Assigned item value p a b ∧ r.leafAt p = some b := by
  have h2 : ∀ r, v.setitem item value = (r, none) → v.Lift (fun _ _ => True) r ∧
      ∀ p a, v.leafAt p = some a → ∃ b, Assigned item value p a b ∧ r.leafAt p = some b := by
    intro r hr
    obtain ⟨h1, h2⟩ := setitem_any v hd item value r none hr
    refine ⟨h1, fun p a hp => ?_⟩
    rcases h2 p a hp with ⟨_, h⟩ | h
    · exact absurd hi (h rfl)
    · exact h
  refine ⟨⟨fun h p a hp => ?_, fun h => ?_⟩, h2⟩
  · obtain ⟨b, hb, _⟩ := (h2 (v.setitem item value).1 (by rw [← h])).2 p a hp
    exact ⟨b, hb⟩
  · obtain ⟨r, hr⟩ := setitem_isOk v hd item value hi hv h
    rw [hr]

/-- Specification: `a[i] = w` is a valid assignment by integers and slices: the indexed axes exist, the integers are in range,
and the value can be broadcast to the addressed elements. -/
structure Writable (a : SA α) (i : Dict IndexVal) (w : SA α) : Prop where
  wf : a.WF
  wfValue : w.WF
  basic : SA.BasicItem i
  noNone : ∀ x ∈ values i, x.isNone = false
  axes : keys i ⊆ a.axes
  steps : SA.StepsOk a.shape i
  valid : SA.ValidItem a.shape i
  fits : FitsIn w.shape (SA.addressed a i [])

/-- **C77** (elements). If at every scalar component of `v` the assignment by integers and slices is valid, then
`v[item] = value` succeeds, no shape changes, and in every component exactly the addressed elements are replaced by
the elements of the corresponding component of the value (of the value itself, if it is a scalar). -/
theorem C77_elements (v : Comp (SA α)) (hd : v.Dicts) (d : Dict (Comp IndexVal)) (value : Comp (SA α))
    (hi : ∀ q ∈ d, v.Accepts q.2) (hv : v.Accepts value)
    (h : ∀ p a, v.leafAt p = some a → ∃ i w, itemAt d p = some i ∧ value.leafB p = some w ∧ Writable a i w) :
    ∃ r, v.setitem (.dict d) value = (r, none) ∧ v.Lift (fun _ _ => True) r ∧
      ∀ p a, v.leafAt p = some a → ∃ i w b, itemAt d p = some i ∧ value.leafB p = some w ∧ r.leafAt p = some b ∧
        b.WF ∧ b.shape = a.shape ∧
        (∀ e, (¬ ∃ f, SA.Addresses a i [] f e) → b.at' e = a.at' e) ∧
        (∀ f, InRange (SA.addressed a i []) f → b.at' (SA.selIdx a.shape i f) = w.atB f) := by
  have hall : ∀ p a, v.leafAt p = some a → ∃ b, Assigned (.dict d) value p a b := by
    intro p a hp
    obtain ⟨i, w, h1, h2, h3⟩ := h p a hp
    obtain ⟨b, hb, _⟩ := SA.C16_setitem_basic a w h3.wf h3.wfValue i h3.basic h3.noNone h3.axes h3.steps h3.valid h3.fits
    exact ⟨b, .dict i, w, by simp [Item.at, h1], h2, hb⟩
  obtain ⟨c1, c2⟩ := C77_components v hd (.dict d) value hi hv
  have hn := c1.2 hall
  have hr : v.setitem (.dict d) value = ((v.setitem (.dict d) value).1, none) := by rw [← hn]
  obtain ⟨hl, hel⟩ := c2 _ hr
  refine ⟨_, hr, hl, fun p a hp => ?_⟩
  obtain ⟨i, w, h1, h2, h3⟩ := h p a hp
  obtain ⟨b, hb, hbw, _, hbs, ho, hin⟩ := SA.C16_setitem_basic a w h3.wf h3.wfValue i h3.basic h3.noNone h3.axes
    h3.steps h3.valid h3.fits
  obtain ⟨b', ⟨i', w', g1, g2, g3⟩, hb'⟩ := hel p a hp
  simp only [Item.at, h1, Option.map_some, Option.some.injEq] at g1
  subst g1
  rw [h2] at g2
  cases g2
  have g3' : a.setitem i w = .ok b' := g3
  rw [hb] at g3'
  cases g3'
  exact ⟨i, w, b, h1, h2, hb', hbw, hbs, ho, hin⟩

/-- Specification: `a[m] = w` is a valid assignment by a mask whose selected elements are along the axis `s`. -/
structure MaskWritable (a : SA α) (m : SA Bool) (w : SA α) (s : String) : Prop where
  wf : a.WF
  wfValue : w.WF
  wfMask : m.WF
  axes : m.axes ⊆ a.axes
  sizes : ∀ ax ∈ m.axes, get? m.shape ax = get? a.shape ax
  axis : SA.maskAxis m = .ok s
  new : ∀ ax ∈ a.axes, ax ∉ m.axes → ax ≠ s
  scalar : w.shape = []

theorem mask_fill {a w : SA α} {m : SA Bool} {s : String} (hm : MaskWritable a m w s) :
    ∃ b : SA α, a.setMask m w = .ok b ∧ b.WF ∧ b.shape = a.shape ∧
      ∀ e, InRange a.shape e → b.at' e = if m.at' e = true then w.atB (fun _ => 0) else a.at' e := by
  have hwax : w.axes = [] := by rw [← SA.keys_shape hm.wfValue, hm.scalar]; rfl
  obtain ⟨b, sel, h1, h2, _, h4, h5, _, h7, h8, h9⟩ := SA.C16_set_mask a w hm.wf hm.wfValue m hm.wfMask hm.axes hm.sizes s
    hm.axis hm.new (by simp [hwax]) (by simp [hm.scalar, get?]) (by simp [hm.scalar, get?])
  refine ⟨b, h1, h2, h4, fun e he => ?_⟩
  by_cases hme : m.at' e = true
  · rw [if_pos hme]
    have hem : InRange m.shape e := by
      intro ax n hn
      have hax : ax ∈ m.axes := by rw [← SA.keys_shape hm.wfMask]; exact mem_keys_of_get? hn
      exact he ax n ((hm.sizes ax hax).symm.trans hn)
    obtain ⟨k, hk, hsel⟩ := h7 e hem hme
    have h9' := h9 (fun ax => if ax = s then k else e ax) (by
      intro ax n hax hn
      have hax' : ax ∈ a.axes := by rw [← SA.keys_shape hm.wf]; exact mem_keys_of_get? hn
      simp only [if_neg (hm.new ax hax' hax)]
      exact he ax n hn) (by simpa using hk)
    simp only [if_true] at h9'
    have hbax : b.axes = a.axes := by rw [← SA.keys_shape h2, h4, SA.keys_shape hm.wf]
    rw [show w.atB (fun _ => 0) = w.atB (fun ax => if ax = s then k else e ax) from by
      unfold SA.atB; apply SA.at'_congr; simp [hwax]]
    rw [← h9']
    apply SA.at'_congr
    intro ax hax
    rw [hbax] at hax
    by_cases hmx : ax ∈ m.axes
    · simp only [if_pos hmx]; exact (hsel ax hmx).symm
    · simp only [if_neg hmx, if_neg (hm.new ax hax hmx)]
  · rw [if_neg hme]
    exact h8 e he (by simpa using hme)

/-- **C77** (masks). Filling by a boolean mask, which is a scalar array or a vector like `v`: if in every component the mask has
axes of the component with the same sizes, then `v[mask] = value` succeeds for a value without axes (per component); exactly the
elements where the mask of the component is true are replaced. -/
theorem C77_mask (v : Comp (SA α)) (hd : v.Dicts) (mask : Comp (SA Bool)) (value : Comp (SA α))
    (hi : v.Accepts mask) (hv : v.Accepts value)
    (h : ∀ p a, v.leafAt p = some a → ∃ m w s, mask.leafB p = some m ∧ value.leafB p = some w ∧ MaskWritable a m w s) :
    ∃ r, v.setitem (.mask mask) value = (r, none) ∧ v.Lift (fun _ _ => True) r ∧
      ∀ p a, v.leafAt p = some a → ∃ m w b, mask.leafB p = some m ∧ value.leafB p = some w ∧ r.leafAt p = some b ∧
        b.WF ∧ b.shape = a.shape ∧
        ∀ e, InRange a.shape e → b.at' e = if m.at' e = true then w.atB (fun _ => 0) else a.at' e := by
  have hall : ∀ p a, v.leafAt p = some a → ∃ b, Assigned (.mask mask) value p a b := by
    intro p a hp
    obtain ⟨m, w, s, h1, h2, h3⟩ := h p a hp
    obtain ⟨b, hb, _⟩ := mask_fill h3
    exact ⟨b, .mask m, w, by simp [Item.at, h1], h2, hb⟩
  obtain ⟨c1, c2⟩ := C77_components v hd (.mask mask) value hi hv
  have hn := c1.2 hall
  have hr : v.setitem (.mask mask) value = ((v.setitem (.mask mask) value).1, none) := by rw [← hn]
  obtain ⟨hl, hel⟩ := c2 _ hr
  refine ⟨_, hr, hl, fun p a hp => ?_⟩
  obtain ⟨m, w, s, h1, h2, h3⟩ := h p a hp
  obtain ⟨b, hb, hbw, hbs, hin⟩ := mask_fill h3
  obtain ⟨b', ⟨i', w', g1, g2, g3⟩, hb'⟩ := hel p a hp
  simp only [Item.at, h1, Option.map_some, Option.some.injEq] at g1
  subst g1
  rw [h2] at g2
  cases g2
  have g3' : a.setMask m w = .ok b' := g3
  rw [hb] at g3'
  cases g3'
  exact ⟨m, w, b, h1, h2, hb', hbw, hbs, hin⟩

/-- **C77** (type errors). A value which is a vector of another type, or an item with such a vector, raises `TypeError` and
nothing is changed. -/
theorem C77_type_error (cls cls' : String) (cs : List (String × Comp (SA α))) (hne : cls' ≠ cls) :
    (∀ ms value, (Comp.node cls cs).setitem (.mask (.node cls' ms)) value = (.node cls cs, some .typeError)) ∧
    (∀ (d1 d2 : Dict (Comp IndexVal)) ax xs value, (∀ q ∈ d1, (Comp.node cls cs).Accepts q.2) →
      (Comp.node cls cs).setitem (.dict (d1 ++ (ax, .node cls' xs) :: d2)) value = (.node cls cs, some .typeError)) ∧
    (∀ item vs, (Comp.node cls cs).AcceptsItem item →
      (Comp.node cls cs).setitem item (.node cls' vs) = (.node cls cs, some .typeError)) := by
  refine ⟨?_, ?_, ?_⟩
  · intro ms value
    simp [setitem, Item.components, componentsOf, hne, bind, Except.bind]
  · intro d1 d2 ax xs value h
    have : (Item.dict (d1 ++ (ax, .node cls' xs) :: d2)).components cls (keys cs) = .error .typeError := by
      have hm : (d1 ++ (ax, Comp.node cls' xs) :: d2).mapM (fun p => do
          let x ← indexOf cls (keys cs) p.2
          .ok (p.1, x)) = (.error .typeError : R (List (String × Dict (Comp IndexVal)))) := by
        induction d1 with
        | nil =>
          rw [List.nil_append, List.mapM_cons]
          simp [indexOf, componentsOf, hne, bind, Except.bind]
        | cons q d1 ih =>
          obtain ⟨x, hx, _⟩ := indexOf_accepts (h q (by simp))
          rw [List.cons_append, List.mapM_cons, ih (fun q hq => h q (List.mem_cons_of_mem _ hq))]
          simp [hx, bind, Except.bind]
      simp only [Item.components]
      rw [hm]
      rfl
    simp only [setitem, this]
  · intro item vs h
    obtain ⟨items, hi, _⟩ := components_accepts h
    simp [setitem, hi, componentsOf, hne]

/-- **C77** (effects of a failing assignment). Whatever the outcome, the type and the components of the vector stay, and every
scalar component is either unchanged or assigned completely. -/
theorem C77_effects (v : Comp (SA α)) (hd : v.Dicts) (item : Item) (value : Comp (SA α)) :
    v.Lift (fun _ _ => True) (v.setitem item value).1 ∧
    ∀ p a, v.leafAt p = some a → ∃ b, (v.setitem item value).1.leafAt p = some b ∧ (b = a ∨ Assigned item value p a b) := by
  obtain ⟨h1, h2⟩ := setitem_any v hd item value _ _ rfl
  refine ⟨h1, fun p a hp => ?_⟩
  rcases h2 p a hp with ⟨h, _⟩ | ⟨b, h, h'⟩
  · exact ⟨a, h, .inl rfl⟩
  · exact ⟨b, h', .inr h⟩

/-- A dictionary without vectors is given to all components as it is. -/
theorem components_plain (cls : String) (names : List String) (d : Dict IndexVal) :
    ∃ items, (Item.dict (d.map (fun x => (x.1, .leaf x.2)))).components cls names = .ok items ∧
      ∀ k ∈ names, get? items k = some (.dict (d.map (fun x => (x.1, .leaf x.2)))) := by
  have hidx : ∀ i, indexOf cls names (.leaf i) = .ok (names.map (fun c => (c, .leaf i))) := by
    intro i
    have : ∀ l, l ⊆ names → l.mapM (fun c => match get? (names.map (fun c => (c, (.leaf i : Comp IndexVal)))) c with
        | none => (.error .keyError : R (String × Comp IndexVal))
        | some y => .ok (c, y)) = .ok (l.map (fun c => (c, .leaf i))) := by
      intro l
      induction l with
      | nil => exact fun _ => rfl
      | cons c l ih =>
        intro hl
        rw [List.mapM_cons, ih (fun x hx => hl (List.mem_cons_of_mem _ hx)),
          get?_names (f := fun _ => (.leaf i : Comp IndexVal)) (hl (by simp))]
        rfl
    exact this names (fun _ h => h)
  have hm : (d.map (fun x => (x.1, Comp.leaf x.2))).mapM (fun p => do
      let x ← indexOf cls names p.2
      .ok (p.1, x)) = (.ok (d.map (fun x => (x.1, names.map (fun c => (c, .leaf x.2))))) :
        R (List (String × Dict (Comp IndexVal)))) := by
    induction d with
    | nil => rfl
    | cons q d ih =>
      rw [List.map_cons, List.mapM_cons, ih]
      simp [hidx, bind, Except.bind, pure, Except.pure]
  refine ⟨_, by simp only [Item.components]; rw [hm]; rfl, fun k hk => ?_⟩
  rw [get?_names (f := fun c => Item.dict ((d.map (fun x => (x.1, names.map (fun c => (c, (.leaf x.2 : Comp IndexVal)))))).filterMap
    (fun p => (get? p.2 c).map (fun y => (p.1, y))))) hk]
  congr 2
  clear hm
  induction d with
  | nil => rfl
  | cons q d ih =>
    rw [List.map_cons, List.filterMap_cons]
    simp only [get?_names (f := fun _ => (.leaf q.2 : Comp IndexVal)) hk, Option.map_some, List.map_cons]
    rw [ih]

/-- **C77** (order). The components are assigned in their order; the first one which raises an error ends the assignment: the
components before it are assigned, the components after it are unchanged. -/
theorem C77_order (cls : String) (l1 l2 : List (String × Comp (SA α))) (k : String) (c : Comp (SA α))
    (d : Dict IndexVal) (w : SA α) (l1' : List (String × Comp (SA α)))
    (hl1 : List.Forall₂ (fun q q' => q'.1 = q.1 ∧
      q.2.setitem (.dict (d.map (fun x => (x.1, .leaf x.2)))) (.leaf w) = (q'.2, none)) l1 l1')
    (c' : Comp (SA α)) (e : Err)
    (hc : c.setitem (.dict (d.map (fun x => (x.1, .leaf x.2)))) (.leaf w) = (c', some e)) :
    (Comp.node cls (l1 ++ (k, c) :: l2)).setitem (.dict (d.map (fun x => (x.1, .leaf x.2)))) (.leaf w) =
      (.node cls (l1' ++ (k, c') :: l2), some e) := by
  obtain ⟨items, hi, hget⟩ := components_plain cls (keys (l1 ++ (k, c) :: l2)) d
  have hgv : ∀ x ∈ keys (l1 ++ (k, c) :: l2),
      get? ((keys (l1 ++ (k, c) :: l2)).map (fun c => (c, (Comp.leaf w)))) x = some (.leaf w) :=
    fun x hx => get?_names (f := fun _ => Comp.leaf w) hx
  simp only [setitem, hi, componentsOf]
  generalize (keys (l1 ++ (k, c) :: l2)).map (fun c => (c, (Comp.leaf w))) = values at hgv
  have : setitemL (l1 ++ (k, c) :: l2) items values = (l1' ++ (k, c') :: l2, some e) := by
    clear hi
    generalize hN : keys (l1 ++ (k, c) :: l2) = N at hget hgv
    have hsub : keys (l1 ++ (k, c) :: l2) ⊆ N := by rw [hN]; exact fun _ h => h
    clear hN
    induction hl1 with
    | nil =>
      have hk : k ∈ N := hsub (by simp [keys])
      simp only [List.nil_append, setitemL, hget k hk, hgv k hk, hc]
    | @cons q q' l1 l1' hq _ ih =>
      obtain ⟨k1, c1⟩ := q
      obtain ⟨k1', c1'⟩ := q'
      obtain ⟨h1, h2⟩ := hq
      simp only at h1 h2
      subst h1
      have hk : k1' ∈ N := hsub (by simp [keys])
      simp only [List.cons_append, setitemL, hget k1' hk, hgv k1' hk, h2]
      rw [ih (fun x hx => hsub (by
        simp only [keys, List.cons_append, List.map_cons] at hx ⊢
        exact List.mem_cons_of_mem _ hx))]
  rw [this]

/-- **C77** (missing component). If the value lacks the first component of the vector, the assignment is a `KeyError` and changes
nothing. -/
theorem C77_missing_component (cls k : String) (c : Comp (SA α)) (cs vs : List (String × Comp (SA α)))
    (d : Dict IndexVal) (h : k ∉ keys vs) :
    (Comp.node cls ((k, c) :: cs)).setitem (.dict (d.map (fun x => (x.1, .leaf x.2)))) (.node cls vs) =
      (.node cls ((k, c) :: cs), some .keyError) := by
  obtain ⟨items, hi, hget⟩ := components_plain cls (keys ((k, c) :: cs)) d
  simp only [setitem, hi, componentsOf, if_true, setitemL, (get?_eq_none).2 h, hget k (by simp [keys])]

/-- A vector whose second component is constant along `t`. -/
def exConst : Comp (SA Nat) := .node "Cartesian2d"
  [("x", .leaf ⟨["t"], ⟨[3], fun i => i.getD 0 0⟩⟩), ("y", .leaf ⟨[], ⟨[], fun _ => 4⟩⟩)]

/-- the values (row-major) of a vector at a path -/
def dataAt (v : Comp (SA α)) (p : List String) : Option (List String × List α) :=
  (v.leafAt p).map (fun a => (a.axes, a.nd.toList))

/-- **C77 is false of the code** as an all-or-nothing claim: for a vector with a component which is constant along the axis,
`v[{"t": 0}]` can be read, but `v[{"t": 0}] = 9` raises `ValueError`, and the component `x` is modified nevertheless. -/
theorem C77_atomic_refuted : exConst.shape = .ok [("t", 3)] ∧
    (∃ r, exConst.getitem [("t", .int 0)] = .ok r) ∧
    (exConst.setitem (.dict [("t", .leaf (.int 0))]) (.leaf (SA.scalar 9))).2 = some .valueError ∧
    dataAt exConst ["x"] = some (["t"], [0, 1, 2]) ∧
    dataAt (exConst.setitem (.dict [("t", .leaf (.int 0))]) (.leaf (SA.scalar 9))).1 ["x"] = some (["t"], [9, 1, 2]) := by
  refine ⟨by decide, ?_, by decide, by decide, by decide⟩
  cases h : exConst.getitem [("t", .int 0)] with
  | ok r => exact ⟨r, rfl⟩
  | error e =>
    exfalso
    have : (exConst.getitem [("t", .int 0)]).isOk = true := by decide
    rw [h] at this
    cases this

/-- A vector of two masks. -/
def exMasks : List (String × Comp (SA Bool)) :=
  [("x", .leaf ⟨["t"], ND.vec [true, true, false]⟩), ("y", .leaf ⟨["t"], ND.vec [false, true, true]⟩)]

/-- A vector along `t`. -/
def exAlong : Comp (SA Nat) := .node "Cartesian2d"
  [("x", .leaf ⟨["t"], ND.vec [1, 2, 3]⟩), ("y", .leaf ⟨["t"], ND.vec [4, 5, 6]⟩)]

/-- **C77 is false of the code** for vectors as masks: reading with the mask gives the elements where all components of the
mask are true (here the second), but writing with the same mask replaces in each component the elements where the mask of this
component is true (here two in each component), and writing back what was read raises an error or changes other elements. -/
theorem C77_vector_mask_refuted :
    (match getMaskVector "Cartesian2d" exMasks exAlong with
      | .ok r => (dataAt r ["x"], dataAt r ["y"])
      | .error _ => (none, none)) = (some (["t"], [2]), some (["t"], [5])) ∧
    (match exAlong.setitem (.mask (.node "Cartesian2d" exMasks)) (.leaf (SA.scalar 0)) with
      | (r, none) => (dataAt r ["x"], dataAt r ["y"])
      | (_, some _) => (none, none)) = (some (["t"], [0, 0, 3]), some (["t"], [4, 0, 0])) ∧
    (match getMaskVector "Cartesian2d" exMasks exAlong with
      | .ok r => (match exAlong.setitem (.mask (.node "Cartesian2d" exMasks)) r with
        | (r, none) => (dataAt r ["x"], dataAt r ["y"])
        | (_, some _) => (none, none))
      | .error _ => (none, none)) = (some (["t"], [2, 2, 3]), some (["t"], [4, 5, 5])) := by
  refine ⟨by decide, by decide, by decide⟩

/-- **C77 is false of the code** for a vector as mask of a scalar component: the assignment is ignored without an error. -/
theorem C77_ignored_refuted : ∃ (v : Comp (SA Nat)) (mask : Comp (SA Bool)),
    v.setitem (.mask mask) (.leaf (SA.scalar 0)) = (v, none) ∧ dataAt v ["x"] = some (["t"], [1, 2]) ∧
    mask.leafAt ["x", "z"] = some ⟨["t"], ND.vec [true, true]⟩ :=
  ⟨.node "A" [("x", .leaf ⟨["t"], ND.vec [1, 2]⟩)], .node "A" [("x", .node "B" [("z", .leaf ⟨["t"], ND.vec [true, true]⟩)])],
    rfl, by decide, rfl⟩

/-! ### Non-vacuity -/

example : exAlong.Dicts := by simp [exAlong, Dicts, DictsL, WF, keys]
/-- the last elements of both components are assigned, from a vector -/
example : (match exAlong.setitem (.dict [("t", .leaf (.slice ⟨some 1, none, none⟩))])
      (.node "Cartesian2d" [("x", .leaf (SA.scalar 7)), ("y", .leaf ⟨["t"], ND.vec [8, 9]⟩)]) with
    | (r, none) => (dataAt r ["x"], dataAt r ["y"])
    | (_, some _) => (none, none)) = (some (["t"], [1, 7, 7]), some (["t"], [4, 8, 9])) := by decide
/-- an index which differs between the components -/
example : (match exAlong.setitem (.dict [("t", .node "Cartesian2d" [("x", .leaf (.int 0)), ("y", .leaf (.int (-1)))])])
      (.leaf (SA.scalar 0)) with
    | (r, none) => (dataAt r ["x"], dataAt r ["y"])
    | (_, some _) => (none, none)) = (some (["t"], [0, 2, 3]), some (["t"], [4, 5, 0])) := by decide
example : exAlong.Accepts (.node "Cartesian2d" [("x", .leaf (SA.scalar 7)), ("y", .leaf ⟨["t"], ND.vec [8, 9]⟩)]) := by
  exact ⟨rfl, ⟨_, rfl, trivial⟩, ⟨_, rfl, trivial⟩, trivial⟩

end Comp
end NA
