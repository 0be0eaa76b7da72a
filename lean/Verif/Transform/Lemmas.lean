import Verif.Transform.Basic
import Verif.Props.Vectors
import Verif.Props.Flattening
import Verif.Props.MatrixLaws

/-!
# Lemmas about transformations
-/

namespace NA
open Dict Comp
variable {α β K : Type}

namespace Comp

/-- What is at a path of component names: a vector of a class, or a scalar (`some none`), or nothing. -/
def kindAt : Comp α → List String → Option (Option String)
  | .leaf _, [] => some none
  | .leaf _, _ :: _ => none
  | .node cls _, [] => some (some cls)
  | .node _ cs, k :: p => match get? cs k with
    | none => none
    | some c => c.kindAt p

/-- Two vectors with the same classes and component names at every level, in any order. -/
def Alike (v : Comp α) (w : Comp β) : Prop := ∀ p, v.kindAt p = w.kindAt p

theorem Alike.refl (v : Comp α) : v.Alike v := fun _ => rfl
theorem Alike.symm {v : Comp α} {w : Comp β} (h : v.Alike w) : w.Alike v := fun p => (h p).symm
theorem Alike.trans {γ : Type} {v : Comp α} {w : Comp β} {u : Comp γ} (h : v.Alike w) (h' : w.Alike u) : v.Alike u :=
  fun p => (h p).trans (h' p)

theorem get?_mapL {γ δ : Type} (f : γ → δ) (cs : List (String × Comp γ)) (k : String) :
    get? (mapL f cs) k = (get? cs k).map (fun c => c.map f) := by
  rw [mapL_eq]
  exact get?_map_snd (fun c : Comp γ => c.map f) cs k

theorem kindAt_map {γ δ : Type} (f : γ → δ) (p : List String) : ∀ c : Comp γ, (c.map f).kindAt p = c.kindAt p := by
  induction p with
  | nil => rintro (a | ⟨cls, cs⟩) <;> rfl
  | cons k p ih =>
    rintro (a | ⟨cls, cs⟩)
    · rfl
    · simp only [map, kindAt]
      rw [get?_mapL]
      cases get? cs k with
      | none => rfl
      | some c => exact ih c

theorem alike_map {γ δ : Type} (f : γ → δ) (c : Comp γ) : (c.map f).Alike c := fun p => kindAt_map f p c

theorem alike_of_skel {v : Comp α} {w : Comp β} (h : v.skel = w.skel) : v.Alike w := fun p => by
  rw [← kindAt_map (fun _ => ()) p v, ← kindAt_map (fun _ => ()) p w]
  exact congrArg (fun c => kindAt c p) h

theorem alike_of_perm {cls : String} {cs cs' : List (String × Comp α)} (h : cs.Perm cs') (hw : WF cs) :
    (Comp.node cls cs).Alike (Comp.node cls cs') := by
  rintro (_ | ⟨k, p⟩)
  · rfl
  · simp only [kindAt]
    have hw' : WF cs' := (h.map Prod.fst).nodup_iff.1 hw
    have : get? cs' k = get? cs k := by
      cases hq : get? cs k with
      | none =>
        rw [get?_eq_none] at hq ⊢
        exact fun hq' => hq ((h.map Prod.fst).mem_iff.2 hq')
      | some a => exact get?_of_mem hw' (h.mem_iff.1 (mem_of_get? hq))
    rw [this]

theorem Alike.node {cls cls' : String} {cs : List (String × Comp α)} {cs' : List (String × Comp β)}
    (h : (Comp.node cls cs).Alike (Comp.node cls' cs')) :
    cls = cls' ∧ ∀ k, (get? cs k = none ∧ get? cs' k = none) ∨
      ∃ c c', get? cs k = some c ∧ get? cs' k = some c' ∧ c.Alike c' := by
  refine ⟨?_, fun k => ?_⟩
  · have := h []
    simpa [kindAt] using this
  · have hk : ∀ p, (match get? cs k with | none => none | some c => c.kindAt p) =
        (match get? cs' k with | none => none | some c => c.kindAt p) := fun p => h (k :: p)
    have hsome : ∀ {γ : Type} (c : Comp γ), c.kindAt [] ≠ none := by rintro _ (_ | _) <;> simp [kindAt]
    cases h1 : get? cs k with
    | none =>
      cases h2 : get? cs' k with
      | none => exact .inl ⟨rfl, rfl⟩
      | some c' =>
        have := hk []
        rw [h1, h2] at this
        exact absurd this.symm (hsome c')
    | some c =>
      cases h2 : get? cs' k with
      | none =>
        have := hk []
        rw [h1, h2] at this
        exact absurd this (hsome c)
      | some c' =>
        refine .inr ⟨c, c', rfl, rfl, fun p => ?_⟩
        have := hk p
        rw [h1, h2] at this
        exact this

theorem Alike.leaf {a : α} {c : Comp β} (h : (Comp.leaf a).Alike c) : ∃ b, c = .leaf b := by
  have := h []
  cases c with
  | leaf b => exact ⟨b, rfl⟩
  | node => simp [kindAt] at this

theorem leafAt_isSome (p : List String) : ∀ c : Comp α, (∃ a, c.leafAt p = some a) ↔ c.kindAt p = some none := by
  induction p with
  | nil => rintro (a | ⟨cls, cs⟩) <;> simp [leafAt, kindAt]
  | cons k p ih =>
    rintro (a | ⟨cls, cs⟩)
    · simp [leafAt, kindAt]
    · simp only [leafAt, kindAt]
      cases get? cs k with
      | none => simp
      | some c => exact ih c

theorem Alike.leafAt {v : Comp α} {w : Comp β} (h : v.Alike w) {p : List String} {a : α} (ha : v.leafAt p = some a) :
    ∃ b, w.leafAt p = some b := (leafAt_isSome p w).2 (by rw [← h p]; exact (leafAt_isSome p v).1 ⟨a, ha⟩)

/-- Alike vectors can be added. -/
theorem Alike.conform : ∀ (v : Comp α) (w : Comp β), v.Named → v.Alike w → v.Conform w := by
  refine ind ?_ ?_
  · intro a w _ h
    obtain ⟨b, rfl⟩ := h.leaf
    simp [Conform]
  · intro cls cs ih w hn h
    cases w with
    | leaf b => have := h []; simp [kindAt] at this
    | node cls' cs' =>
      obtain ⟨h1, h2⟩ := h.node
      refine ⟨h1, ?_, ?_⟩
      · intro k hk
        obtain ⟨c, hc⟩ := exists_get?_of_mem hk
        rcases h2 k with ⟨_, h⟩ | ⟨c1, _, h, _⟩
        · rw [h] at hc; cases hc
        · exact mem_keys_of_get? h
      · rw [conformL_iff]
        intro p hp
        have hg := get?_of_mem hn.1 hp
        rcases h2 p.1 with ⟨h, _⟩ | ⟨c1, c2, h3, h4, h5⟩
        · rw [hg] at h; cases h
        · rw [hg] at h3
          cases h3
          exact ⟨c2, h4, ih p hp c2 ((namedL_iff.1 hn.2 p hp).2) h5⟩

/-- The layout of a sum is the layout of the first vector. -/
theorem skel_ufunc2 {γ : Type} {f : α → β → R γ} : ∀ (v : Comp α) (w : Comp β) (r : Comp γ), v.Alike w →
    v.Named → ufunc2 f v w = .ok r → r.skel = v.skel := by
  refine ind ?_ ?_
  · intro a w r h _ hr
    obtain ⟨b, rfl⟩ := h.leaf
    simp only [ufunc2, bind, Except.bind] at hr
    cases hf : f a b with
    | error e => rw [hf] at hr; cases hr
    | ok c => rw [hf] at hr; cases hr; rfl
  · intro cls cs ih w r h hn hr
    cases w with
    | leaf b => have := h []; simp [kindAt] at this
    | node cls' cs' =>
      obtain ⟨rfl, h2⟩ := h.node
      simp only [ufunc2, if_true, bind, Except.bind] at hr
      cases hl : ufunc2L f cs cs' with
      | error e => rw [hl] at hr; cases hr
      | ok rs =>
        rw [hl] at hr
        cases hr
        rw [skel_node, skel_node]
        congr 1
        have hw := hn.1
        have key : ∀ p ∈ cs, ∀ c' q, get? cs' p.1 = some c' → p.2.ufunc2 f c' = .ok q → q.skel = p.2.skel := by
          intro p hp c' q hc' hq
          rcases h2 p.1 with ⟨h, _⟩ | ⟨c1, c2, h3, h4, h5⟩
          · rw [get?_of_mem hw hp] at h; cases h
          · rw [get?_of_mem hw hp] at h3
            cases h3
            rw [hc'] at h4
            cases h4
            exact ih p hp c' q h5 ((namedL_iff.1 hn.2 p hp).2) hq
        rw [ufunc2L_ok] at hl
        clear * - hl key
        unfold skelL
        rw [mapL_eq, mapL_eq]
        generalize cs' = d at *
        induction hl with
        | nil => rfl
        | @cons p q l r hpq _ ih =>
          obtain ⟨k1, c⟩ := p
          obtain ⟨k2, q⟩ := q
          obtain ⟨h1, c', h3, h4⟩ := hpq
          simp only at h1 h3 h4
          subst h1
          simp only [List.map_cons]
          rw [ih (fun p hp => key p (by simp [hp]))]
          have := key (k1, c) (by simp) c' q h3 h4
          unfold skel at this
          simp only at this
          rw [this]

theorem mem_keys_entries {cs : List (String × Comp α)} {q : String} (h : q ∈ keys (entries cs)) :
    ∃ p ∈ cs, q ∈ keys (p.2.entriesOf p.1) := by
  induction cs with
  | nil => simp [entries, keys] at h
  | cons p l ih =>
    obtain ⟨k, c⟩ := p
    simp only [entries, keys, List.map_append, List.mem_append] at h
    rcases h with h | h
    · exact ⟨(k, c), by simp, h⟩
    · obtain ⟨p, hp, hq⟩ := ih h
      exact ⟨p, by simp [hp], hq⟩

/-- Every flattened name is a path joined with dots. -/
theorem path_of_key : ∀ (c : Comp α), c.Named → ∀ k, '.' ∉ k.toList → ∀ q ∈ keys (c.entriesOf k), ∃ p,
    (∀ x ∈ k :: p, '.' ∉ x.toList) ∧ q = dotted (k :: p) := by
  refine ind ?_ ?_
  · intro a _ k hk q hq
    simp only [entriesOf, keys, List.map_cons, List.map_nil, List.mem_singleton] at hq
    exact ⟨[], by simpa using hk, hq⟩
  · intro cls cs ih hn k hk q hq
    rw [entriesOf_node hn.1 hn.2, keys_map_dot] at hq
    obtain ⟨q', hq', rfl⟩ := List.mem_map.1 hq
    obtain ⟨p, hp, hpq⟩ := mem_keys_entries hq'
    have hnp := namedL_iff.1 hn.2 p hp
    obtain ⟨path, h1, rfl⟩ := ih p hp hnp.2 p.1 hnp.1 q' hpq
    exact ⟨p.1 :: path, by
      intro x hx
      rcases List.mem_cons.1 hx with rfl | hx
      · exact hk
      · exact h1 x hx, rfl⟩

theorem path_of_keyL {cs : List (String × Comp α)} (hw : WF cs) (hn : NamedL cs) {q : String}
    (hq : q ∈ keys (cartesianNd cs)) : ∃ p, p ≠ [] ∧ (∀ x ∈ p, '.' ∉ x.toList) ∧ q = dotted p := by
  rw [cartesianNd_eq hw hn] at hq
  obtain ⟨p, hp, hpq⟩ := mem_keys_entries hq
  have hnp := namedL_iff.1 hn p hp
  obtain ⟨path, h1, h2⟩ := path_of_key p.2 hnp.2 p.1 hnp.1 q hpq
  exact ⟨p.1 :: path, by simp, h1, h2⟩

/-- Alike vectors have the same flattened names. -/
theorem Alike.keys_subset {cls cls' : String} {cs : List (String × Comp α)} {cs' : List (String × Comp β)} (hw : WF cs)
    (hn : NamedL cs) (hw' : WF cs') (hn' : NamedL cs') (h : (Comp.node cls cs).Alike (Comp.node cls' cs')) {q : String}
    (hq : q ∈ keys (cartesianNd cs)) : q ∈ keys (cartesianNd cs') := by
  obtain ⟨p, h1, h2, rfl⟩ := path_of_keyL hw hn hq
  obtain ⟨a, ha⟩ := exists_get?_of_mem hq
  rw [C38_entry_is_leaf_partial cls cs hw hn p h1 h2] at ha
  obtain ⟨b, hb⟩ := h.leafAt ha
  rw [← C38_entry_is_leaf_partial cls' cs' hw' hn' p h1 h2] at hb
  exact mem_keys_of_get? hb

theorem named_of_map {γ : Type} (f : α → γ) : ∀ c : Comp α, (c.map f).Named → c.Named := by
  refine ind ?_ ?_
  · intro a _; trivial
  · intro cls cs ih h
    simp only [map, Named] at h
    refine ⟨wf_of_keys (keys_mapL f cs).symm h.1, namedL_iff.2 (fun p hp => ?_)⟩
    have := namedL_iff.1 h.2 (p.1, p.2.map f) (by rw [mapL_eq]; exact List.mem_map.2 ⟨p, hp, rfl⟩)
    exact ⟨this.1, ih p hp this.2⟩

/-- Names and layout depend on the skeleton only. -/
theorem of_skelL {γ : Type} {cls cls' : String} {a : List (String × Comp α)} {b : List (String × Comp γ)}
    (h : skelL a = skelL b) (hw : WF b) (hn : NamedL b) :
    WF a ∧ NamedL a ∧ keys (cartesianNd a) = keys (cartesianNd b) ∧ (NoEmptyL b → NoEmptyL a) ∧
      (Comp.node cls a).Alike (Comp.node cls b) := by
  have hwa : WF a := wf_of_keys (keys_of_skelL h) hw
  have hna : NamedL a := by
    have h1 : (Comp.node "" (skelL b)).Named := ⟨wf_of_keys (keys_mapL _ b) hw, namedL_mapL hn⟩
    rw [← h] at h1
    exact (named_of_map (fun _ => ()) (Comp.node "" a) h1).2
  refine ⟨hwa, hna, ?_, ?_, alike_of_skel (by rw [skel_node, skel_node, h])⟩
  · rw [← keys_cartesianNd_mapL (fun _ => ()) hwa hna, ← keys_cartesianNd_mapL (fun _ => ()) hw hn]
    exact congrArg (fun x => keys (cartesianNd x)) h
  · intro hne
    cases a with
    | nil => trivial
    | cons p a =>
      cases b with
      | nil => simp [skelL, mapL] at h
      | cons q b =>
        exact (noEmpty_of_skel (Comp.node "" (q :: b)) (Comp.node "" (p :: a)) (by rw [skel_node, skel_node, h])
          ⟨by simp, hne⟩).2

end Comp

/-! ### Arithmetic of vectors -/

section arith
variable [CommRing K] {o : Ops α} {dv : K → K → K} {good : α → Prop} {val : α → K} {C : Finset String}

theorem Vec.add_ok (ho : o.Sound dv good val) {v w : Vec α} (hv : IsVec good C v.toComp) (hw : IsVec good C w.toComp)
    (ha : v.toComp.Alike w.toComp) : ∃ r, v.add o w = .ok r ∧ r.cls = v.cls ∧ skelL r.comps = skelL v.comps ∧
      IsVec good C r.toComp ∧ ∀ c ∈ C, r.toComp.vval val c = v.toComp.vval val c + w.toComp.vval val c := by
  obtain ⟨cv, v⟩ := v
  obtain ⟨cw, w⟩ := w
  obtain ⟨_, _, e, hw1, hn1, hk1, hg1, hne1, hno1⟩ := hv
  cases e
  obtain ⟨_, _, e, hw2, hn2, hk2, hg2, hne2, hno2⟩ := hw
  cases e
  simp only [Vec.toComp] at *
  have hgl : ∀ {l : List (String × Comp α)}, WF l → NamedL l → (∀ p ∈ cartesianNd l, good p.2) →
      ∀ a ∈ leavesL l, good a := by
    intro l hw hn hg a ha
    rw [← values_cartesianNd hw hn] at ha
    obtain ⟨p, hp, rfl⟩ := List.mem_map.1 ha
    exact hg p hp
  obtain ⟨r, hr⟩ := C36_isOk o.add (.node cv v) (.node cw w) (ha.conform _ _ ⟨hw1, hn1⟩) (by
    intro a ha b hb
    obtain ⟨c, hc, _⟩ := ho.add a b (hgl hw1 hn1 hg1 a (by simpa only [leaves] using ha))
      (hgl hw2 hn2 hg2 b (by simpa only [leaves] using hb))
    exact ⟨c, hc⟩)
  have hs := skel_ufunc2 _ _ _ ha ⟨hw1, hn1⟩ hr
  cases r with
  | leaf a => rw [skel_node] at hs; simp [skel, map] at hs
  | node cr r =>
    rw [skel_node, skel_node] at hs
    injection hs with h1 h2
    obtain ⟨b1, b2, b3, b4, -⟩ := of_skelL (cls := cr) (cls' := cr) h2 hw1 hn1
    have hval : ∀ c ∈ C, ∃ a b s, get? (cartesianNd v) c = some a ∧ get? (cartesianNd w) c = some b ∧
        get? (cartesianNd r) c = some s ∧ o.add a b = .ok s ∧ good a ∧ good b := by
      intro c hc
      rw [← hk1, List.mem_toFinset] at hc
      obtain ⟨p, p1, p2, rfl⟩ := path_of_keyL hw1 hn1 hc
      rw [← b3] at hc
      obtain ⟨s, hs⟩ := exists_get?_of_mem hc
      have hs' := hs
      rw [C38_entry_is_leaf_partial cr r b1 b2 p p1 p2] at hs'
      obtain ⟨a, b, x1, x2, x3, x4⟩ := (C36_at_path o.add _ _ _ hr p s).1 hs'
      have hx : (Comp.node cv v).leafAt p = some a := by
        rcases x3 with x3 | x3
        · exact x3
        · obtain ⟨a', ha'⟩ := ha.symm.leafAt x3
          rw [leafB_of_leafAt ha'] at x1
          rw [ha', x1]
      have hy : (Comp.node cw w).leafAt p = some b := by
        obtain ⟨b', hb'⟩ := ha.leafAt hx
        rw [leafB_of_leafAt hb'] at x2
        rw [hb', x2]
      rw [← C38_entry_is_leaf_partial cv v hw1 hn1 p p1 p2] at hx
      rw [← C38_entry_is_leaf_partial cw w hw2 hn2 p p1 p2] at hy
      exact ⟨a, b, s, hx, hy, hs, x4, hg1 _ (mem_of_get? hx), hg2 _ (mem_of_get? hy)⟩
    have hgood : ∀ c ∈ C, ∀ s, get? (cartesianNd r) c = some s → good s := by
      intro c hc s hs
      obtain ⟨a, b, s', y1, y2, y3, y4, y5, y6⟩ := hval c hc
      obtain ⟨s'', z1, z2, -⟩ := ho.add a b y5 y6
      rw [y3] at hs; cases hs
      rw [y4] at z1; cases z1
      exact z2
    refine ⟨⟨cr, r⟩, ?_, h1, h2, ⟨cr, r, rfl, b1, b2, by rw [b3, hk1], ?_, ?_, b4 hno1⟩, ?_⟩
    · unfold Vec.add
      simp only [Vec.toComp, hr, bind, Except.bind]
    · intro p hp
      have : p.1 ∈ C := by
        rw [← hk1, List.mem_toFinset, ← b3]
        exact mem_keys_of_get? (get?_of_mem (wf_cartesianNd _) hp)
      exact hgood p.1 this p.2 (get?_of_mem (wf_cartesianNd _) hp)
    · rintro rfl
      cases v with
      | nil => exact hne1 rfl
      | cons p v => simp [skelL, mapL] at h2
    · intro c hc
      obtain ⟨a, b, s, y1, y2, y3, y4, y5, y6⟩ := hval c hc
      obtain ⟨s', z1, -, z3⟩ := ho.add a b y5 y6
      rw [y4] at z1; cases z1
      rw [vval_of_coef (v := .node cr r) y3, vval_of_coef (v := .node cv v) y1, vval_of_coef (v := .node cw w) y2, z3]

theorem lift_skel {β : Type} {P : α → β → Prop} : ∀ (x : Comp α) (y : Comp β), x.Lift P y → y.skel = x.skel := by
  refine ind ?_ ?_
  · rintro a (b | ⟨cls, cs⟩) h
    · rfl
    · exact h.elim
  · rintro cls cs ih (b | ⟨cls', cs'⟩) h
    · exact h.elim
    · obtain ⟨rfl, h⟩ := h
      rw [liftL_iff] at h
      rw [skel_node, skel_node]
      congr 1
      unfold skelL
      rw [mapL_eq, mapL_eq]
      induction h with
      | nil => rfl
      | @cons p q l r hpq _ ih2 =>
        rw [List.map_cons, List.map_cons, ih2 (fun p hp => ih p (by simp [hp]))]
        have := ih p (by simp) q.2 hpq.2
        unfold skel at this
        rw [this, hpq.1]

theorem Vec.neg_ok (ho : o.Sound dv good val) {v : Vec α} (hv : IsVec good C v.toComp) :
    ∃ r, v.neg o = .ok r ∧ r.cls = v.cls ∧ skelL r.comps = skelL v.comps ∧
      IsVec good C r.toComp ∧ ∀ c ∈ C, r.toComp.vval val c = - v.toComp.vval val c := by
  obtain ⟨cv, v⟩ := v
  obtain ⟨_, _, e, hw1, hn1, hk1, hg1, hne1, hno1⟩ := hv
  cases e
  simp only [Vec.toComp] at *
  obtain ⟨y, hy⟩ := mapM_isOk' o.neg (.node cv v) (by
    intro a ha
    simp only [leaves] at ha
    rw [← values_cartesianNd hw1 hn1] at ha
    obtain ⟨p, hp, rfl⟩ := List.mem_map.1 ha
    obtain ⟨c, hc, _⟩ := ho.neg p.2 (hg1 p hp)
    exact ⟨c, hc⟩)
  have hl := (mapM_lift _ _ _).1 hy
  have hs := lift_skel _ _ hl
  cases y with
  | leaf a => rw [skel_node] at hs; simp [skel, map] at hs
  | node cr r =>
    rw [skel_node, skel_node] at hs
    injection hs with h1 h2
    obtain ⟨b1, b2, b3, b4, -⟩ := of_skelL (cls := cr) (cls' := cr) h2 hw1 hn1
    have hval : ∀ c ∈ C, ∃ a s, get? (cartesianNd v) c = some a ∧
        get? (cartesianNd r) c = some s ∧ o.neg a = .ok s ∧ good a := by
      intro c hc
      rw [← hk1, List.mem_toFinset] at hc
      obtain ⟨p, p1, p2, rfl⟩ := path_of_keyL hw1 hn1 hc
      obtain ⟨a, ha⟩ := exists_get?_of_mem hc
      have ha' := ha
      rw [C38_entry_is_leaf_partial cv v hw1 hn1 p p1 p2] at ha
      obtain ⟨b, hb, hab⟩ := (lift_leafAt hl p).1 a ha
      rw [← C38_entry_is_leaf_partial cr r b1 b2 p p1 p2] at hb
      exact ⟨a, b, ha', hb, hab, hg1 _ (mem_of_get? ha')⟩
    refine ⟨⟨cr, r⟩, ?_, h1, h2, ⟨cr, r, rfl, b1, b2, by rw [b3, hk1], ?_, ?_, b4 hno1⟩, ?_⟩
    · unfold Vec.neg
      simp only [mapM, bind, Except.bind] at hy ⊢
      cases hm : mapML o.neg v with
      | error e => rw [hm] at hy; cases hy
      | ok l => rw [hm] at hy; cases hy; rfl
    · intro p hp
      have : p.1 ∈ C := by
        rw [← hk1, List.mem_toFinset, ← b3]
        exact mem_keys_of_get? (get?_of_mem (wf_cartesianNd _) hp)
      obtain ⟨a, s, y1, y2, y3, y4⟩ := hval p.1 this
      rw [get?_of_mem (wf_cartesianNd _) hp] at y2
      injection y2 with y2
      obtain ⟨s', z1, z2, -⟩ := ho.neg a y4
      rw [y3] at z1
      cases z1
      rw [y2]
      exact z2
    · rintro rfl
      cases v with
      | nil => exact hne1 rfl
      | cons p v => simp [skelL, mapL] at h2
    · intro c hc
      obtain ⟨a, s, y1, y2, y3, y4⟩ := hval c hc
      obtain ⟨s', z1, -, z3⟩ := ho.neg a y4
      rw [y3] at z1; cases z1
      rw [vval_of_coef (v := .node cr r) y2, vval_of_coef (v := .node cv v) y1, z3]

end arith
end NA
