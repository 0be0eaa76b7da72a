import Verif.Optimize.Jacobian
import Verif.Props.TransformNumbers
import Verif.Props.Newton
import Mathlib.Tactic.FieldSimp

/-!
# C106: Jacobians by finite differences

The kinds of vectors (`IsV good τ`), matrices (`IsM good τ σ`) and their values (`vval`, `mval`) are those of
`Verif/Transform/Typed.lean` and `Verif/Matrix/Lemmas.lean`: `vval val v c` is the value of the component with the flattened
name `c`, `mval val M r c` the value in row `r` and column `c`.
-/

namespace NA
open Dict Comp
variable {α K : Type}

/-! ### Lemmas -/

namespace Comp

/-- An operation on two vectors of the same kind. -/
theorem ufunc2_vec {f : α → α → R α} {good : α → Prop} {C : Finset String}
    (hf : ∀ a b, good a → good b → ∃ c, f a b = .ok c ∧ good c) {v w : Comp α}
    (hv : IsVec good C v) (hw : IsVec good C w) (ha : v.Alike w) :
    ∃ r, Comp.ufunc2 f v w = .ok r ∧ r.skel = v.skel ∧ IsVec good C r ∧
      ∀ c ∈ C, ∃ a b s, v.coef c = some a ∧ w.coef c = some b ∧ r.coef c = some s ∧ f a b = .ok s ∧
        good a ∧ good b ∧ good s := by
  obtain ⟨cv, v, rfl, hw1, hn1, hk1, hg1, hne1, hno1⟩ := hv
  obtain ⟨cw, w, rfl, hw2, hn2, hk2, hg2, hne2, hno2⟩ := hw
  have hgl : ∀ {l : List (String × Comp α)}, WF l → NamedL l → (∀ p ∈ cartesianNd l, good p.2) →
      ∀ a ∈ leavesL l, good a := by
    intro l hw hn hg a ha
    rw [← values_cartesianNd hw hn] at ha
    obtain ⟨p, hp, rfl⟩ := List.mem_map.1 ha
    exact hg p hp
  obtain ⟨r, hr⟩ := C36_isOk f (.node cv v) (.node cw w) (ha.conform _ _ ⟨hw1, hn1⟩) (by
    intro a ha b hb
    obtain ⟨c, hc, _⟩ := hf a b (hgl hw1 hn1 hg1 a (by simpa only [leaves] using ha))
      (hgl hw2 hn2 hg2 b (by simpa only [leaves] using hb))
    exact ⟨c, hc⟩)
  have hs := skel_ufunc2 _ _ _ ha ⟨hw1, hn1⟩ hr
  have hs0 := hs
  cases r with
  | leaf a => rw [skel_node] at hs; simp [skel, map] at hs
  | node cr r =>
    rw [skel_node, skel_node] at hs
    injection hs with h1 h2
    obtain ⟨b1, b2, b3, b4, -⟩ := of_skelL (cls := cr) (cls' := cr) h2 hw1 hn1
    have hval : ∀ c ∈ C, ∃ a b s, get? (cartesianNd v) c = some a ∧ get? (cartesianNd w) c = some b ∧
        get? (cartesianNd r) c = some s ∧ f a b = .ok s ∧ good a ∧ good b ∧ good s := by
      intro c hc
      rw [← hk1, List.mem_toFinset] at hc
      obtain ⟨p, p1, p2, rfl⟩ := path_of_keyL hw1 hn1 hc
      rw [← b3] at hc
      obtain ⟨s, hs⟩ := exists_get?_of_mem hc
      have hs' := hs
      rw [C38_entry_is_leaf_partial cr r b1 b2 p p1 p2] at hs'
      obtain ⟨a, b, x1, x2, x3, x4⟩ := (C36_at_path f _ _ _ hr p s).1 hs'
      have hx : (Comp.node cv v).leafAt p = some a := by
        rcases x3 with x3 | x3
        · exact x3
        · obtain ⟨a', ha'⟩ := ha.symm.leafAt x3
          rw [leafB_of_leafAt ha'] at x1
          rw [ha', x1]
      have hy : (Comp.node cw w).leafAt p = some b := by
        obtain ⟨b', hb'⟩ := ha.leafAt hx
        rw [leafB_of_leafAt hb'] at x2
        rw [hb', x2]
      rw [← C38_entry_is_leaf_partial cv v hw1 hn1 p p1 p2] at hx
      rw [← C38_entry_is_leaf_partial cw w hw2 hn2 p p1 p2] at hy
      have ga := hg1 _ (mem_of_get? hx)
      have gb := hg2 _ (mem_of_get? hy)
      obtain ⟨s'', z1, z2⟩ := hf a b ga gb
      rw [x4] at z1; cases z1
      exact ⟨a, b, s, hx, hy, hs, x4, ga, gb, z2⟩
    refine ⟨.node cr r, hr, hs0, ⟨cr, r, rfl, b1, b2, by rw [b3, hk1], ?_, ?_, b4 hno1⟩, hval⟩
    · intro p hp
      have : p.1 ∈ C := by
        rw [← hk1, List.mem_toFinset, ← b3]
        exact mem_keys_of_get? (get?_of_mem (wf_cartesianNd _) hp)
      obtain ⟨_, _, s, _, _, y3, _, _, _, y7⟩ := hval p.1 this
      rw [get?_of_mem (wf_cartesianNd _) hp] at y3
      cases y3
      exact y7
    · rintro rfl
      cases v with
      | nil => exact hne1 rfl
      | cons p v => simp [skelL, mapL] at h2

/-- A vector is determined by its kind up to the order of its components. -/
theorem IsVec.vec {good : α → Prop} {C : Finset String} {v : Comp α} (h : IsVec good C v) : ∃ w : Vec α, v = w.toComp := by
  obtain ⟨cls, cs, rfl, -⟩ := h
  exact ⟨⟨cls, cs⟩, rfl⟩

end Comp

namespace Jac
variable [CommRing K] {o : Ops α} {dv : K → K → K} {good : α → Prop} {val : α → K} {τ σ : Comp Unit}

/-- The point with one component moved. -/
theorem moved_ok (ho : o.Sound dv good val) {x : Vec α} (hx : IsV good τ x) {p : String × α}
    (hp : p ∈ cartesianNd x.comps) {h : α} (hh : good h) :
    ∃ y : Vec α, moved o x.cls x.comps p h = .ok y.toComp ∧ IsV good τ y ∧
      ∀ c ∈ kindNames τ, y.toComp.vval val c =
        if c = p.1 then x.toComp.vval val c + val h else x.toComp.vval val c := by
  obtain ⟨⟨_, _, e, hw, hn, hk, hg, hne, hno⟩, ha⟩ := hx
  cases e
  obtain ⟨v, h1, h2, h3⟩ := ho.add p.2 h (hg p hp) hh
  have hpk : p.1 ∈ keys (cartesianNd x.comps) := mem_keys_of_get? (get?_of_mem (wf_cartesianNd _) hp)
  have hkeys : keys ((cartesianNd x.comps).set p.1 v) = keys (cartesianNd x.comps) := by
    rw [keys_set, if_pos hpk]
  obtain ⟨r, r1, r2, r3, r4⟩ := fromCartesianNd_ok (good := good) hw hn ⟨hne, hno⟩
    (wf_set (wf_cartesianNd x.comps) p.1 v) (by rw [hkeys]) (by
      intro q hq
      have hq' := get?_of_mem (wf_set (wf_cartesianNd x.comps) p.1 v) hq
      rw [get?_set] at hq'
      split at hq'
      · cases hq'; exact h2
      · exact hg _ (mem_of_get? hq')) x.cls
  rw [hkeys, hk] at r2
  refine ⟨⟨x.cls, r⟩, ?_, ⟨r2, (alike_of_skel (v := Comp.node x.cls r) (w := Comp.node x.cls x.comps) (by
    rw [skel_node, skel_node, r3])).trans ha⟩, ?_⟩
  · simp only [moved, asVector, h1, r1, bind, Except.bind]
    rfl
  · intro c hc
    have h4 := r4 c
    rw [get?_set] at h4
    have hx : get? (cartesianNd x.comps) p.1 = some p.2 := get?_of_mem (wf_cartesianNd _) hp
    by_cases hcp : c = p.1
    · subst hcp
      rw [if_pos rfl] at h4 ⊢
      rw [vval_of_coef (v := (⟨x.cls, r⟩ : Vec α).toComp) h4, vval_of_coef (v := x.toComp) hx, h3]
    · rw [if_neg (fun h => hcp h.symm)] at h4
      rw [if_neg hcp]
      unfold vval
      rw [show (⟨x.cls, r⟩ : Vec α).toComp.coef c = x.toComp.coef c from h4]

/-! ### Specification vocabulary -/

/-- `y` is the point `x` with the component `c` moved by `s`. -/
def IsMoved (val : α → K) (τ : Comp Unit) (x : Vec α) (c : String) (s : K) (y : Vec α) : Prop :=
  ∀ c' ∈ kindNames τ, y.toComp.vval val c' = if c' = c then x.toComp.vval val c' + s else x.toComp.vval val c'

/-- The step of the component `c`: a scalar `dx` is the step of every component. -/
def stepOf (val : α → K) (dx : Comp α) (c : String) : K :=
  match dx with
  | .leaf h => val h
  | .node _ _ => dx.vval val c

/-- A step which can be used for vectors of kind `τ`. -/
def IsStep (good : α → Prop) (τ : Comp Unit) (dx : Comp α) : Prop :=
  (∃ h, dx = .leaf h ∧ good h) ∨ ∃ v : Vec α, dx = v.toComp ∧ IsV good τ v

/-! ### More lemmas -/

/-- The step is given to every component. -/
theorem stepLike_ok {x : Vec α} (hx : IsV good τ x) {dx : Comp α} (hd : IsStep good τ dx) :
    ∃ cls ds, stepLike dx x.toComp = .ok (.node cls ds) ∧
      ∀ c ∈ kindNames τ, ∃ h, get? (cartesianNd ds) c = some h ∧ good h ∧ val h = stepOf val dx c := by
  rcases hd with ⟨h, rfl, hh⟩ | ⟨v, rfl, hv⟩
  · obtain ⟨⟨_, _, e, hw, hn, hk, hg, hne, hno⟩, ha⟩ := hx
    cases e
    refine ⟨x.cls, mapL (fun _ => h) x.comps, ?_, ?_⟩
    · unfold stepLike Vec.toComp Comp.ufunc2
      have key : mapML (fun _ : α => (.ok h : R α)) x.comps = .ok (mapL (fun _ => h) x.comps) := by
        have h1 : ∀ c : Comp α, c.mapM (fun _ => (.ok h : R α)) = .ok (c.map (fun _ => h)) := by
          refine ind ?_ ?_
          · intro a; rfl
          · intro cls cs ih
            unfold Comp.mapM Comp.map
            have h2 : ∀ l : List (String × Comp α), (∀ p ∈ l, p.2.mapM (fun _ => (.ok h : R α)) = .ok (p.2.map (fun _ => h))) →
                mapML (fun _ : α => (.ok h : R α)) l = .ok (mapL (fun _ => h) l) := by
              intro l hl
              induction l with
              | nil => rfl
              | cons p l ih2 =>
                obtain ⟨k, c⟩ := p
                have := hl (k, c) (by simp)
                simp only at this
                simp only [mapML, mapL, this, ih2 (fun q hq => hl q (by simp [hq])), bind, Except.bind]
            rw [h2 cs ih]; rfl
        have h3 := h1 (.node "" x.comps)
        unfold Comp.mapM Comp.map at h3
        cases hm : mapML (fun _ : α => (.ok h : R α)) x.comps with
        | error e => rw [hm] at h3; cases h3
        | ok r => rw [hm] at h3; cases h3; rfl
      rw [key]; rfl
    · intro c hc
      rw [cartesianNd_mapL _ hw hn]
      rw [← hk, List.mem_toFinset] at hc
      obtain ⟨a, ha⟩ := exists_get?_of_mem hc
      exact ⟨h, by rw [get?_map_snd (fun _ : α => h), ha]; rfl, hh, rfl⟩
  · obtain ⟨r, h1, h2, h3, h4⟩ := ufunc2_vec (f := fun _ h => .ok h) (good := good) (fun a b _ hb => ⟨b, rfl, hb⟩) hx.1 hv.1
      (hx.2.trans hv.2.symm)
    obtain ⟨⟨cls, ds⟩, rfl⟩ := h3.vec
    refine ⟨cls, ds, h1, fun c hc => ?_⟩
    obtain ⟨a, b, s, y1, y2, y3, y4, y5, y6, y7⟩ := h4 c hc
    cases y4
    exact ⟨b, y3, y6, (vval_of_coef y2).symm⟩

/-- The change of a vector. -/
theorem change_ok (ho : o.Sound dv good val) {function : Comp α → R (Comp α)}
    (hfun : ∀ y : Vec α, IsV good τ y → ∃ z : Vec α, function y.toComp = .ok z.toComp ∧ IsV good σ z)
    {x f : Vec α} (hx : IsV good τ x) (hf : IsV good σ f) {p : String × α} (hp : p ∈ cartesianNd x.comps) {h : α}
    (hh : good h) :
    ∃ (y z : Vec α) (cls : String) (ds : List (String × Comp α)), change o function x.cls x.comps f.toComp p h = .ok (.node cls ds) ∧
      IsV good τ y ∧ IsMoved val τ x p.1 (val h) y ∧ function y.toComp = .ok z.toComp ∧ IsV good σ z ∧
      ∀ r ∈ kindNames σ, ∃ d, get? (cartesianNd ds) r = some d ∧ good d ∧
        val d = z.toComp.vval val r - f.toComp.vval val r := by
  obtain ⟨y, h1, h2, h3⟩ := moved_ok ho hx hp hh
  obtain ⟨z, h4, h5⟩ := hfun y h2
  obtain ⟨r, h6, h7, h8, h9⟩ := ufunc2_vec (f := o.sub) (good := good) (fun a b ha hb => by
    obtain ⟨c, hc⟩ := ho.sub a b ha hb
    exact ⟨c, hc.1, hc.2.1⟩) h5.1 hf.1 (h5.2.trans hf.2.symm)
  obtain ⟨⟨cls, ds⟩, rfl⟩ := h8.vec
  refine ⟨y, z, cls, ds, ?_, h2, h3, h4, h5, fun r hr => ?_⟩
  · simp only [change, h1, h4, bind, Except.bind]
    exact h6
  · obtain ⟨a, b, s, y1, y2, y3, y4, y5, y6, y7⟩ := h9 r hr
    obtain ⟨s', z1, z2, z3⟩ := ho.sub a b y5 y6
    rw [y4] at z1; cases z1
    exact ⟨s, y3, y7, by rw [z3, vval_of_coef y1, vval_of_coef y2]⟩

/-- One column. -/
theorem column_ok (ho : o.Sound dv good val) {c : String} {h : α} (hh : good h) {cls : String}
    {ds : List (String × Comp α)} {names : Finset String} {k : String → K}
    (hd : ∀ r ∈ names, ∃ d, get? (cartesianNd ds) r = some d ∧ good d ∧ val d = k r)
    {rows : Dict (Dict α)} (hk : ∀ r ∈ keys rows, r ∈ names) :
    ∃ rows', column o c h (.node cls ds) rows = .ok rows' ∧ keys rows' = keys rows ∧
      ∀ r d', get? rows' r = some d' → ∃ d a, get? rows r = some d ∧ d' = d.set c a ∧ good a ∧ val a = dv (k r) (val h) := by
  obtain ⟨rows', h1, h2⟩ := mapDict_ok (d := rows) (g := quotient o c h (cartesianNd ds)) (by
    intro p hp
    obtain ⟨d, d1, d2, d3⟩ := hd p.1 (hk _ (List.mem_map.2 ⟨p, hp, rfl⟩))
    obtain ⟨a, a1, -⟩ := ho.div d h d2 hh
    exact ⟨p.2.set c a, by simp only [quotient, d1, a1, bind, Except.bind]⟩)
  refine ⟨rows', h1, keys_of_steps h2, fun r d' hr => ?_⟩
  rcases get?_of_steps h2 r with ⟨h5, h6⟩ | ⟨l, a, h5, h6, h7⟩
  · rw [h6] at hr; cases hr
  · rw [h6] at hr; cases hr
    obtain ⟨d, d1, d2, d3⟩ := hd r (hk _ (mem_keys_of_get? h5))
    obtain ⟨a, a1, a2, a3⟩ := ho.div d h d2 hh
    simp only [quotient, d1, a1, bind, Except.bind] at h7
    cases h7
    exact ⟨l, a, h5, rfl, a2, by rw [a3, d3]⟩

/-- All the columns. -/
theorem columns_ok (ho : o.Sound dv good val) {function : Comp α → R (Comp α)}
    (hfun : ∀ y : Vec α, IsV good τ y → ∃ z : Vec α, function y.toComp = .ok z.toComp ∧ IsV good σ z)
    {x f : Vec α} (hx : IsV good τ x) (hf : IsV good σ f) {steps : Dict α} {s : String → K}
    (hs : ∀ c ∈ kindNames τ, ∃ h, get? steps c = some h ∧ good h ∧ val h = s c) :
    ∀ (l : Dict α), (∀ p ∈ l, p ∈ cartesianNd x.comps) → ∀ (done : String → Prop) (rows : Dict (Dict α)),
      (∀ r ∈ keys rows, r ∈ kindNames σ) →
      (∀ r d, get? rows r = some d → WF d ∧ (∀ c, c ∈ keys d ↔ done c) ∧ ∀ c a, get? d c = some a → good a ∧
        ∃ y z : Vec α, IsV good τ y ∧ IsMoved val τ x c (s c) y ∧ function y.toComp = .ok z.toComp ∧ IsV good σ z ∧
          val a = dv (z.toComp.vval val r - f.toComp.vval val r) (s c)) →
      ∃ rows', l.foldlM (addColumn o function x.cls x.comps steps f.toComp) rows = .ok rows' ∧ keys rows' = keys rows ∧
      (∀ r d, get? rows' r = some d → WF d ∧ (∀ c, c ∈ keys d ↔ done c ∨ c ∈ keys l) ∧ ∀ c a, get? d c = some a → good a ∧
        ∃ y z : Vec α, IsV good τ y ∧ IsMoved val τ x c (s c) y ∧ function y.toComp = .ok z.toComp ∧ IsV good σ z ∧
          val a = dv (z.toComp.vval val r - f.toComp.vval val r) (s c)) := by
  intro l
  induction l with
  | nil =>
    intro _ done rows _ hrows
    exact ⟨rows, rfl, rfl, fun r d hr => by simpa using hrows r d hr⟩
  | cons p l ih =>
    intro hl done rows hk hrows
    have hp := hl p (by simp)
    have hpk : p.1 ∈ kindNames τ := by
      obtain ⟨⟨_, _, e, _, _, hkk, _⟩, -⟩ := hx
      cases e
      rw [← hkk, List.mem_toFinset]
      exact mem_keys_of_get? (get?_of_mem (wf_cartesianNd _) hp)
    obtain ⟨h, g1, g2, g3⟩ := hs p.1 hpk
    obtain ⟨y, z, cls, ds, c1, c2, c3, c4, c5, c6⟩ := change_ok ho hfun hx hf hp g2
    obtain ⟨rows1, r1, r2, r3⟩ := column_ok ho (c := p.1) g2 (cls := cls) c6 hk
    obtain ⟨rows', i1, i2, i3⟩ := ih (fun q hq => hl q (by simp [hq])) (fun c => done c ∨ c = p.1) rows1
      (by rw [r2]; exact hk) (by
        intro r d' hr
        obtain ⟨d, a, e1, rfl, e3, e4⟩ := r3 r d' hr
        obtain ⟨w1, w2, w3⟩ := hrows r d e1
        refine ⟨wf_set w1 _ _, ?_, ?_⟩
        · intro c
          rw [keys_set]
          split
          · next hc =>
            rw [w2]
            constructor
            · exact .inl
            · rintro (hd | rfl)
              · exact hd
              · exact (w2 _).1 hc
          · rw [List.mem_append, w2, List.mem_singleton]
        · intro c b hb
          rw [get?_set] at hb
          split at hb
          · next hc =>
            cases hb
            subst hc
            exact ⟨e3, y, z, c2, by rw [← g3]; exact c3, c4, c5, by rw [e4, g3]⟩
          · exact w3 c b hb)
    refine ⟨rows', ?_, i2.trans r2, ?_⟩
    · rw [List.foldlM_cons]
      simp only [addColumn, g1, c1, r1, bind, Except.bind]
      exact i1
    · intro r d hr
      obtain ⟨w1, w2, w3⟩ := i3 r d hr
      refine ⟨w1, fun c => ?_, w3⟩
      rw [w2, keys_cons, List.mem_cons, or_assoc]

/-! ### Theorems -/

/-- **C106** The Jacobian of a vector function of a vector is a matrix whose rows are of the kind of the argument and whose
columns are of the kind of the value; the entry in row `r` and column `c` is the difference quotient of the component `r` of
the value when the component `c` of the argument is moved by its step and all others are kept. -/
theorem C106_vector (ho : o.Sound dv good val) {function : Comp α → R (Comp α)}
    (hfun : ∀ y : Vec α, IsV good τ y → ∃ z : Vec α, function y.toComp = .ok z.toComp ∧ IsV good σ z)
    {x : Vec α} (hx : IsV good τ x) {dx : Comp α} (hd : IsStep good τ dx) :
    ∃ (M : Mat α) (f : Vec α), jacobian o function x.toComp dx = .ok (.matrix M) ∧ function x.toComp = .ok f.toComp ∧
      IsM good τ σ M ∧ M.cls = f.cls ∧ skelL M.rows = skelL f.comps ∧
      ∀ r ∈ kindNames σ, ∀ c ∈ kindNames τ, ∃ y z : Vec α, IsV good τ y ∧ IsMoved val τ x c (stepOf val dx c) y ∧
        function y.toComp = .ok z.toComp ∧ IsV good σ z ∧
        mval val M.rows r c = dv (z.toComp.vval val r - f.toComp.vval val r) (stepOf val dx c) := by
  obtain ⟨f, hf1, hf⟩ := hfun x hx
  obtain ⟨cls, ds, hs1, hs2⟩ := stepLike_ok (val := val) hx hd
  obtain ⟨rows, c1, c2, c3⟩ := columns_ok ho hfun hx hf hs2 (cartesianNd x.comps) (fun _ h => h) (fun _ => False)
    ((cartesianNd f.comps).map (fun p => (p.1, ([] : Dict α)))) (by
      obtain ⟨⟨_, _, e, _, _, hk, _⟩, -⟩ := hf
      cases e
      intro r hr
      rw [← hk, List.mem_toFinset]
      simpa [keys] using hr) (by
      intro r d hr
      rw [get?_map_snd (fun _ : α => ([] : Dict α))] at hr
      cases hq : get? (cartesianNd f.comps) r with
      | none => rw [hq] at hr; cases hr
      | some a =>
        rw [hq] at hr
        cases hr
        exact ⟨wf_nil, by simp [keys], by simp⟩)
  have hxk : (keys (cartesianNd x.comps)).toFinset = kindNames τ := by
    obtain ⟨⟨_, _, e, _, _, hk, _⟩, -⟩ := hx
    cases e
    exact hk
  have hfk : (keys (cartesianNd f.comps)).toFinset = kindNames σ := by
    obtain ⟨⟨_, _, e, _, _, hk, _⟩, -⟩ := hf
    cases e
    exact hk
  have hkr : keys rows = keys (cartesianNd f.comps) := by
    rw [c2]; simp [keys]
  have hwr : WF rows := wf_of_keys hkr (wf_cartesianNd _)
  have hrow : ∀ p ∈ rows, ∃ v, asVector x.cls x.comps p.2 = .ok v ∧ IsVec good (kindNames τ) v ∧ v.skel = x.toComp.skel ∧ ∀ q, v.coef q = get? p.2 q := by
    intro p hp
    obtain ⟨⟨_, _, e, hw, hn, hk, hg, hne, hno⟩, ha⟩ := hx
    cases e
    obtain ⟨w1, w2, w3⟩ := c3 p.1 p.2 (get?_of_mem hwr hp)
    have hkp : (keys p.2).toFinset = (keys (cartesianNd x.comps)).toFinset := by
      ext q
      rw [List.mem_toFinset, List.mem_toFinset, w2]
      simp
    obtain ⟨r, r1, r2, r3, r4⟩ := fromCartesianNd_ok (good := good) hw hn ⟨hne, hno⟩ w1 hkp
      (fun q hq => (w3 q.1 q.2 (get?_of_mem w1 hq)).1) x.cls
    rw [hkp, hxk] at r2
    exact ⟨.node x.cls r, by simp only [asVector, r1, bind, Except.bind], r2, by
      unfold Vec.toComp; rw [skel_node, skel_node, r3], r4⟩
  obtain ⟨rows2, m1, m2⟩ := mapDict_ok (d := rows)
    (g := fun p => asVector x.cls x.comps p.2) (fun p hp => by
      obtain ⟨v, hv, -⟩ := hrow p hp
      exact ⟨v, hv⟩)
  have hk2 : keys rows2 = keys (cartesianNd f.comps) := (keys_of_steps m2).trans hkr
  have hw2 : WF rows2 := wf_of_keys hk2 (wf_cartesianNd _)
  have hrow2 : ∀ r v, get? rows2 r = some v → ∃ d, get? rows r = some d ∧ IsVec good (kindNames τ) v ∧
      v.skel = x.toComp.skel ∧ ∀ q, v.coef q = get? d q := by
    intro r v hr
    rcases get?_of_steps m2 r with ⟨_, h6⟩ | ⟨l, a, h5, h6, h7⟩
    · rw [h6] at hr; cases hr
    · rw [h6] at hr; cases hr
      obtain ⟨v', e1, e2⟩ := hrow (r, l) (mem_of_get? h5)
      simp only at e1 h7
      rw [h7] at e1
      cases e1
      exact ⟨l, h5, e2⟩
  obtain ⟨⟨_, _, e, hw, hn, hk, hg, hne, hno⟩, ha⟩ := hf
  cases e
  obtain ⟨M, n1, n2, n3, n4, n5, n6⟩ := fromNdL_ok (h := fun (_ : α) (v : Comp α) => (.ok v : R (Comp α))) hw hn hw2
    (fun q hq => by rw [hk2]; exact hq) (fun _ _ v _ _ => ⟨v, rfl⟩)
  have hM : ∀ q v, get? (cartesianNd M) q = some v → get? rows2 q = some v := by
    intro q v hq
    have hq' : q ∈ keys (cartesianNd f.comps) := by rw [← n5]; exact mem_keys_of_get? hq
    obtain ⟨l, hl⟩ := exists_get?_of_mem hq'
    obtain ⟨v', a, g1, g2, g3⟩ := n6 q l hl
    cases g3
    rw [g2] at hq
    cases hq
    exact g1
  have hleaf : ∀ v ∈ leavesL M, ∃ r, get? rows2 r = some v := by
    intro v hv
    rw [← values_cartesianNd n2 n3] at hv
    obtain ⟨p, hp, rfl⟩ := List.mem_map.1 hv
    exact ⟨p.1, hM p.1 p.2 (get?_of_mem (wf_cartesianNd _) hp)⟩
  refine ⟨⟨f.cls, M⟩, f, ?_, hf1, ⟨⟨n2, n3, noEmpty_of_skel (.node "" f.comps) (.node "" M) (by
    rw [skel_node, skel_node, n4]) ⟨hne, hno⟩, by rw [n5]; exact hk, ?_⟩, ?_, ?_⟩, rfl, n4, ?_⟩
  · unfold jacobian
    simp only [hs1, bind, Except.bind, hf1]
    simp only [Vec.toComp] at c1 hf1 ⊢
    unfold ofVector
    simp only [c1, bind, Except.bind] at m1 ⊢
    simp only [m1]
    unfold fromCartesianNd
    simp only [n1]
  · intro p hp
    obtain ⟨d, -, h, -⟩ := hrow2 _ _ (hM p.1 p.2 (get?_of_mem (wf_cartesianNd _) hp))
    exact h
  · exact (alike_of_skel (v := Comp.node f.cls M) (w := Comp.node f.cls f.comps) (by
      rw [skel_node, skel_node, n4])).trans ha
  · intro v hv
    obtain ⟨r, hr⟩ := hleaf v hv
    obtain ⟨d, -, -, h, -⟩ := hrow2 r v hr
    exact (alike_of_skel h).trans hx.2
  · intro r hr c hc
    have hr' : r ∈ keys (cartesianNd M) := by rw [n5, ← List.mem_toFinset, hfk]; exact hr
    obtain ⟨v, hv⟩ := exists_get?_of_mem hr'
    obtain ⟨d, d1, d2, d3, d4⟩ := hrow2 r v (hM r v hv)
    obtain ⟨w1, w2, w3⟩ := c3 r d d1
    have hcd : c ∈ keys d := by
      rw [w2, ← List.mem_toFinset (a := c) (l := keys (cartesianNd x.comps)), hxk]
      exact .inr hc
    obtain ⟨a, ha⟩ := exists_get?_of_mem hcd
    obtain ⟨-, y, z, y1, y2, y3, y4, y5⟩ := w3 c a ha
    refine ⟨y, z, y1, y2, y3, y4, ?_⟩
    rw [mval_of_row hv, vval_of_coef (by rw [d4]; exact ha), y5]

/-- **C106** The gradient of a scalar function of a vector is a vector of the kind of the argument, whose component `c` is the
difference quotient when the component `c` of the argument is moved by its step. -/
theorem C106_gradient (ho : o.Sound dv good val) {function : Comp α → R (Comp α)}
    (hfun : ∀ y : Vec α, IsV good τ y → ∃ a, function y.toComp = .ok (.leaf a) ∧ good a)
    {x : Vec α} (hx : IsV good τ x) {dx : Comp α} (hd : IsStep good τ dx) :
    ∃ (g : Vec α) (f : α), jacobian o function x.toComp dx = .ok (.array g.toComp) ∧ function x.toComp = .ok (.leaf f) ∧
      IsV good τ g ∧ ∀ c ∈ kindNames τ, ∃ (y : Vec α) (a : α), IsV good τ y ∧ IsMoved val τ x c (stepOf val dx c) y ∧
        function y.toComp = .ok (.leaf a) ∧ g.toComp.vval val c = dv (val a - val f) (stepOf val dx c) := by
  obtain ⟨f, hf1, hf⟩ := hfun x hx
  obtain ⟨cls, ds, hs1, hs2⟩ := stepLike_ok (val := val) hx hd
  have hxk : (keys (cartesianNd x.comps)).toFinset = kindNames τ := by
    obtain ⟨⟨_, _, e, _, _, hk, _⟩, -⟩ := hx
    cases e
    exact hk
  have key : ∀ (l : Dict α), (∀ p ∈ l, p ∈ cartesianNd x.comps) → ∀ (done : String → Prop) (d : Dict α),
      (WF d ∧ (∀ c, c ∈ keys d ↔ done c) ∧ ∀ c a, get? d c = some a → good a ∧
        ∃ (y : Vec α) (b : α), IsV good τ y ∧ IsMoved val τ x c (stepOf val dx c) y ∧ function y.toComp = .ok (.leaf b) ∧
          val a = dv (val b - val f) (stepOf val dx c)) →
      ∃ d', l.foldlM (addDerivative o function x.cls x.comps (cartesianNd ds) (.leaf f)) d = .ok d' ∧
      WF d' ∧ (∀ c, c ∈ keys d' ↔ done c ∨ c ∈ keys l) ∧ ∀ c a, get? d' c = some a → good a ∧
        ∃ (y : Vec α) (b : α), IsV good τ y ∧ IsMoved val τ x c (stepOf val dx c) y ∧ function y.toComp = .ok (.leaf b) ∧
          val a = dv (val b - val f) (stepOf val dx c) := by
    intro l
    induction l with
    | nil => intro _ done d hd; exact ⟨d, rfl, by simpa using hd⟩
    | cons p l ih =>
      intro hl done d ⟨w1, w2, w3⟩
      have hp := hl p (by simp)
      have hpk : p.1 ∈ kindNames τ := by
        rw [← hxk, List.mem_toFinset]
        exact mem_keys_of_get? (get?_of_mem (wf_cartesianNd _) hp)
      obtain ⟨h, g1, g2, g3⟩ := hs2 p.1 hpk
      obtain ⟨y, y1, y2, y3⟩ := moved_ok ho hx hp g2
      obtain ⟨b, b1, b2⟩ := hfun y y2
      obtain ⟨s, s1, s2, s3⟩ := ho.sub b f b2 hf
      obtain ⟨q, q1, q2, q3⟩ := ho.div s h s2 g2
      obtain ⟨d', i1, i2, i3, i4⟩ := ih (fun q hq => hl q (by simp [hq])) (fun c => done c ∨ c = p.1) (d.set p.1 q) (by
        refine ⟨wf_set w1 _ _, ?_, ?_⟩
        · intro c
          rw [keys_set]
          split
          · next hc =>
            rw [w2]
            constructor
            · exact .inl
            · rintro (hd | rfl)
              · exact hd
              · exact (w2 _).1 hc
          · rw [List.mem_append, w2, List.mem_singleton]
        · intro c a ha
          rw [get?_set] at ha
          split at ha
          · next hc =>
            cases ha
            subst hc
            exact ⟨q2, y, b, y2, by rw [← g3]; exact y3, b1, by rw [q3, s3, g3]⟩
          · exact w3 c a ha)
      refine ⟨d', ?_, i2, ?_, i4⟩
      · rw [List.foldlM_cons]
        simp only [addDerivative, g1, change, y1, b1, bind, Except.bind, Comp.ufunc2, s1, q1]
        exact i1
      · intro c
        rw [i3, keys_cons, List.mem_cons, or_assoc]
  obtain ⟨d, k1, k2, k3, k4⟩ := key (cartesianNd x.comps) (fun _ h => h) (fun _ => False) []
    ⟨wf_nil, by simp [keys], by simp⟩
  obtain ⟨⟨_, _, e, hw, hn, hk, hg, hne, hno⟩, ha⟩ := hx
  cases e
  have hkd : (keys d).toFinset = (keys (cartesianNd x.comps)).toFinset := by
    ext q
    rw [List.mem_toFinset, List.mem_toFinset, k3]
    simp
  obtain ⟨r, r1, r2, r3, r4⟩ := fromCartesianNd_ok (good := good) hw hn ⟨hne, hno⟩ k2 hkd
    (fun q hq => (k4 q.1 q.2 (get?_of_mem k2 hq)).1) x.cls
  rw [hkd, hxk] at r2
  refine ⟨⟨x.cls, r⟩, f, ?_, hf1, ⟨r2, (alike_of_skel (v := Comp.node x.cls r) (w := Comp.node x.cls x.comps) (by
    rw [skel_node, skel_node, r3])).trans ha⟩, ?_⟩
  · unfold jacobian
    simp only [hs1, bind, Except.bind, hf1]
    simp only [Vec.toComp, ofScalar, k1, bind, Except.bind, asVector, r1]
  · intro c hc
    have hcd : c ∈ keys d := by
      rw [k3, ← List.mem_toFinset (a := c) (l := keys (cartesianNd x.comps)), hxk]
      exact .inr hc
    obtain ⟨a, ha⟩ := exists_get?_of_mem hcd
    obtain ⟨-, y, b, y1, y2, y3, y4⟩ := k4 c a ha
    refine ⟨y, b, y1, y2, y3, ?_⟩
    rw [vval_of_coef (v := (⟨x.cls, r⟩ : Vec α).toComp) (by rw [← ha]; exact r4 c), y4]

/-- **C106** The derivative of a scalar function of a scalar is the difference quotient. -/
theorem C106_scalar (ho : o.Sound dv good val) {function : Comp α → R (Comp α)}
    (hfun : ∀ a, good a → ∃ b, function (.leaf a) = .ok (.leaf b) ∧ good b) {x h : α} (hx : good x) (hh : good h) :
    ∃ q y b f, jacobian o function (.leaf x) (.leaf h) = .ok (.array (.leaf q)) ∧ good q ∧ good y ∧ val y = val x + val h ∧
      function (.leaf y) = .ok (.leaf b) ∧ function (.leaf x) = .ok (.leaf f) ∧ val q = dv (val b - val f) (val h) := by
  obtain ⟨f, f1, f2⟩ := hfun x hx
  obtain ⟨y, y1, y2, y3⟩ := ho.add x h hx hh
  obtain ⟨b, b1, b2⟩ := hfun y y2
  obtain ⟨s, s1, s2, s3⟩ := ho.sub b f b2 f2
  obtain ⟨q, q1, q2, q3⟩ := ho.div s h s2 hh
  refine ⟨q, y, b, f, ?_, q2, y2, y3, b1, f1, by rw [q3, s3]⟩
  simp only [jacobian, stepLike, Comp.ufunc2, bind, Except.bind, f1, y1, b1, s1, q1]

/-- **C106** An error of the function is passed on. -/
theorem C106_function_error {function : Comp α → R (Comp α)} {x dx d : Comp α} (hd : stepLike dx x = .ok d) {e : Err}
    (h : function x = .error e) : jacobian o function x dx = .error e := by
  simp only [jacobian, hd, h, bind, Except.bind]

end Jac

/-! ### Affine functions -/

namespace Jac
variable [Field K] {o : Ops α} {dv : K → K → K} {good : α → Prop} {val : α → K} {τ σ : Comp Unit}

/-- **C106** The Jacobian of an affine function is the matrix of its linear part, whatever the step and the point. -/
theorem C106_affine (ho : o.Sound dv good val) (hdv : ∀ a b, b ≠ 0 → dv a b = a / b) {function : Comp α → R (Comp α)}
    (hfun : ∀ y : Vec α, IsV good τ y → ∃ z : Vec α, function y.toComp = .ok z.toComp ∧ IsV good σ z)
    {A : String → String → K} {b : String → K}
    (haff : ∀ y z : Vec α, IsV good τ y → function y.toComp = .ok z.toComp → ∀ r ∈ kindNames σ,
      z.toComp.vval val r = ∑ c ∈ kindNames τ, A r c * y.toComp.vval val c + b r)
    {x : Vec α} (hx : IsV good τ x) {dx : Comp α} (hd : IsStep good τ dx) (hne : ∀ c ∈ kindNames τ, stepOf val dx c ≠ 0) :
    ∃ M : Mat α, jacobian o function x.toComp dx = .ok (.matrix M) ∧ IsM good τ σ M ∧
      ∀ r ∈ kindNames σ, ∀ c ∈ kindNames τ, mval val M.rows r c = A r c := by
  obtain ⟨M, f, h1, h2, h3, -, -, h4⟩ := C106_vector ho hfun hx hd
  refine ⟨M, h1, h3, fun r hr c hc => ?_⟩
  obtain ⟨y, z, y1, y2, y3, y4, y5⟩ := h4 r hr c hc
  rw [y5, hdv _ _ (hne c hc), haff y z y1 y3 r hr, haff x f hx h2 r hr]
  have : ∑ c' ∈ kindNames τ, A r c' * y.toComp.vval val c' =
      ∑ c' ∈ kindNames τ, A r c' * x.toComp.vval val c' + A r c * stepOf val dx c := by
    have h5 : ∀ c' ∈ kindNames τ, A r c' * y.toComp.vval val c' =
        A r c' * x.toComp.vval val c' + if c' = c then A r c * stepOf val dx c else 0 := by
      intro c' hc'
      rw [y2 c' hc']
      split
      · next h => subst h; ring
      · ring
    rw [Finset.sum_congr rfl h5, Finset.sum_add_distrib, Finset.sum_ite_eq' _ c, if_pos hc]
  rw [this]
  have := hne c hc
  field_simp
  ring

/-- The matrix of the linear part of a transformation. -/
def linearPart (val : α → K) : Simple α → String → String → K
  | .identity, r, c => if r = c then 1 else 0
  | .translation _, r, c => if r = c then 1 else 0
  | .linear M, r, c => mval val M.rows r c
  | .affine M _, r, c => mval val M.rows r c

/-- A transformation as a function of arrays. -/
def ofTransformation (o : Ops α) (s : Simple α) : Comp α → R (Comp α)
  | .leaf _ => .error .typeError
  | .node cls cs => do .ok (← s.call o ⟨cls, cs⟩).toComp

/-- **C106** The Jacobian of a transformation is its matrix (the unit matrix for a translation). -/
theorem C106_transformation (ho : o.Sound dv good val) (hdv : ∀ a b, b ≠ 0 → dv a b = a / b) {s : Simple α}
    (hs : s.Typed good τ σ) {x : Vec α} (hx : IsV good τ x) {dx : Comp α} (hd : IsStep good τ dx)
    (hne : ∀ c ∈ kindNames τ, stepOf val dx c ≠ 0) :
    ∃ M : Mat α, jacobian o (ofTransformation o s) x.toComp dx = .ok (.matrix M) ∧ IsM good τ σ M ∧
      ∀ r ∈ kindNames σ, ∀ c ∈ kindNames τ, mval val M.rows r c = linearPart val s r c := by
  refine C106_affine ho hdv (b := fun r => match s with
    | .translation v => v.toComp.vval val r
    | .affine _ v => v.toComp.vval val r
    | _ => 0) ?_ ?_ hx hd hne
  · intro y hy
    obtain ⟨z, z1, z2, -⟩ := Simple.call_ok ho hs hy
    exact ⟨z, by simp only [ofTransformation, Vec.toComp, z1, bind, Except.bind], z2⟩
  · intro y z hy hz r hr
    obtain ⟨z', z1, z2, -, z4⟩ := Simple.call_ok ho hs hy
    have : z.toComp = z'.toComp := by
      have h1 : ofTransformation o s y.toComp = .ok z'.toComp := by
        simp only [ofTransformation, Vec.toComp, z1, bind, Except.bind]
      rw [h1] at hz
      exact (Except.ok.inj hz).symm
    rw [this, z4 r hr]
    cases s with
    | identity =>
      cases hs
      simp only [Simple.act, linearPart, ite_mul, one_mul, zero_mul, Finset.sum_ite_eq, if_pos hr, add_zero]
    | translation v =>
      obtain ⟨rfl, -⟩ := hs
      simp only [Simple.act, linearPart, ite_mul, one_mul, zero_mul, Finset.sum_ite_eq, if_pos hr]
    | linear M => simp only [Simple.act, linearPart, add_zero]
    | affine M v => simp only [Simple.act, linearPart]

/-- **C106** Newton's correction with the default Jacobian: from any point, one step leads to the root of an affine vector
function whose Jacobian can be inverted. -/
theorem C106_newton_step (ho : o.Sound dv good val) (hdv : ∀ a b, b ≠ 0 → dv a b = a / b)
    {sig : String → Option (List String)} {function : Comp α → R (Comp α)}
    (hfun : ∀ y : Vec α, IsV good τ y → ∃ z : Vec α, function y.toComp = .ok z.toComp ∧ IsV good σ z)
    {A : String → String → K} {b : String → K}
    (haff : ∀ y z : Vec α, IsV good τ y → function y.toComp = .ok z.toComp → ∀ r ∈ kindNames σ,
      z.toComp.vval val r = ∑ c ∈ kindNames τ, A r c * y.toComp.vval val c + b r)
    {x f : Vec α} (hx : IsV good τ x) (hfx : function x.toComp = .ok f.toComp) {dx : Comp α} (hd : IsStep good τ dx)
    (hne : ∀ c ∈ kindNames τ, stepOf val dx c ≠ 0) {M : Mat α} (hM : jacobian o function x.toComp dx = .ok (.matrix M))
    (hinv : InvM sig good val τ σ M) :
    ∃ (N : Mat α) (corr y z : Vec α), M.inverse o sig = .ok N ∧ N.matVec o f = .ok corr ∧
      Comp.ufunc2 o.sub x.toComp corr.toComp = .ok y.toComp ∧ IsV good τ y ∧ function y.toComp = .ok z.toComp ∧
      ∀ r ∈ kindNames σ, z.toComp.vval val r = 0 := by
  obtain ⟨M', m1, m2, m3⟩ := C106_affine ho hdv hfun haff hx hd hne
  rw [hM] at m1; cases m1
  obtain ⟨N, n1, n2, n3⟩ := inverse_typed ho hdv hinv
  have hf : IsV good σ f := by
    obtain ⟨z, z1, z2⟩ := hfun x hx
    rw [hfx] at z1
    have h1 := Except.ok.inj z1
    unfold IsV
    rw [h1]
    exact z2
  obtain ⟨corr, c1, -, -, c4, c5⟩ := matVec_typed ho n2 hf
  obtain ⟨y', y1, y2, y3, y4⟩ := ufunc2_vec (f := o.sub) (good := good) (fun a b ha hb => by
    obtain ⟨c, hc⟩ := ho.sub a b ha hb
    exact ⟨c, hc.1, hc.2.1⟩) hx.1 c4.1 (hx.2.trans c4.2.symm)
  obtain ⟨y, rfl⟩ := y3.vec
  have hy : IsV good τ y := ⟨y3, (alike_of_skel y2).trans hx.2⟩
  obtain ⟨z, z1, z2⟩ := hfun y hy
  refine ⟨N, corr, y, z, n1, c1, y1, hy, z1, fun r hr => ?_⟩
  have hyv : ∀ c ∈ kindNames τ, y.toComp.vval val c = x.toComp.vval val c - corr.toComp.vval val c := by
    intro c hc
    obtain ⟨a, b, s, w1, w2, w3, w4, w5, w6, w7⟩ := y4 c hc
    obtain ⟨s', t1, t2, t3⟩ := ho.sub a b w5 w6
    rw [w4] at t1; cases t1
    rw [vval_of_coef w1, vval_of_coef w2, vval_of_coef w3, t3]
  rw [haff y z hy z1 r hr]
  have h1 : ∑ c ∈ kindNames τ, A r c * y.toComp.vval val c =
      ∑ c ∈ kindNames τ, A r c * x.toComp.vval val c - ∑ c ∈ kindNames τ, A r c * corr.toComp.vval val c := by
    rw [← Finset.sum_sub_distrib]
    exact Finset.sum_congr rfl (fun c hc => by rw [hyv c hc]; ring)
  have h2 : ∑ c ∈ kindNames τ, A r c * corr.toComp.vval val c = f.toComp.vval val r := by
    have e1 := Simple.sum_mul_sum (R' := kindNames σ) (C := kindNames τ) (D := kindNames σ) A (mval val N.rows)
      (fun r c => if r = c then 1 else 0) (fun r => f.toComp.vval val r) (fun a ha b hb => by
        rw [← n3.1 a ha b hb]
        exact Finset.sum_congr rfl (fun c hc => by rw [m3 a ha c hc])) r hr
    rw [Finset.sum_congr rfl (fun c hc => by rw [c5 c hc]), ← e1]
    simp [hr]
  rw [h1, h2, haff x f hx hfx r hr]
  ring

/-- **C106** The derivative of a quadratic function differs from the exact one by the step times the leading coefficient. -/
theorem C106_quadratic (ho : o.Sound dv good val) (hdv : ∀ a b, b ≠ 0 → dv a b = a / b) {function : Comp α → R (Comp α)}
    (hfun : ∀ a, good a → ∃ b, function (.leaf a) = .ok (.leaf b) ∧ good b) {a b c : K}
    (hq : ∀ x y, good x → function (.leaf x) = .ok (.leaf y) → val y = a * val x ^ 2 + b * val x + c)
    {x h : α} (hx : good x) (hh : good h) (hne : val h ≠ 0) :
    ∃ q, jacobian o function (.leaf x) (.leaf h) = .ok (.array (.leaf q)) ∧ good q ∧
      val q = (2 * a * val x + b) + a * val h := by
  obtain ⟨q, y, w, f, h1, h2, h3, h4, h5, h6, h7⟩ := C106_scalar ho hfun hx hh
  refine ⟨q, h1, h2, ?_⟩
  rw [h7, hdv _ _ hne, hq y w h3 h5, hq x f hx h6, h4]
  field_simp
  ring

end Jac

/-! ### Newton's method with the default Jacobian -/

namespace Optimize
open SA (FitsIn InRange)
variable [Field K] [LinearOrder K] [IsStrictOrderedRing K]

/-- The operations of an ordered field. -/
def fieldArith (K : Type) [Field K] [LinearOrder K] : Arith K where
  add := (· + ·)
  sub := (· - ·)
  mul := (· * ·)
  div := (· / ·)
  abs := fun a => |a|
  lt := fun a b => decide (a < b)
  eq := fun a b => decide (a = b)
  zero := 0
  ten := 10

/-- `na.jacobian(function, x, dx)` for scalars, which is the default of `root_newton`.
Models `/repo/named_arrays/optimize.py` lines 57-62. -/
def slope (function : SA K → R (SA K)) (dx a : SA K) : R (SA K) := do
  match ← Jac.jacobian (Ops.named (· / ·)) (onScalars function) (.leaf a) (.leaf dx) with
  | .array (.leaf j) => .ok j
  | _ => .error .other

omit [IsStrictOrderedRing K] in
/-- The slope of an affine function. -/
theorem slope_affine {S : Shape} {function : SA K → R (SA K)} {m b : (String → Nat) → K}
    (hfun : ∀ a, Fits S a → ∃ f, function a = .ok f ∧ Fits S f ∧ ∀ e, f.atB e = m e * a.atB e + b e)
    {dx : SA K} (hdx : Fits S dx) (hne : ∀ e, dx.atB e ≠ 0) {a : SA K} (ha : Fits S a) :
    ∃ j, slope function dx a = .ok j ∧ Fits S j ∧ ∀ e, j.atB e = m e := by
  obtain ⟨f, f1, f2, f3⟩ := hfun a ha
  obtain ⟨y, y1, y2, y3⟩ := ufunc2_fits' (· + ·) ha hdx
  obtain ⟨w, w1, w2, w3⟩ := hfun y y2
  obtain ⟨s, s1, s2, s3⟩ := ufunc2_fits' (· - ·) w2 f2
  obtain ⟨q, q1, q2, q3⟩ := ufunc2_fits' (· / ·) s2 hdx
  refine ⟨q, ?_, q2, fun e => ?_⟩
  · simp only [slope, Jac.jacobian, Jac.stepLike, Comp.ufunc2, bind, Except.bind, onScalars, f1, Ops.named, y1, w1, s1, q1]
  · rw [q3, s3, w3, y3, f3]
    have := hne e
    field_simp
    ring

/-- **C106** Newton's method with the default Jacobian finds the root of an affine function of a scalar with one correction:
two iterations are enough, the result is the guess if the tolerance is reached there, and the exact root otherwise, at every
named index. -/
theorem C106_newton_affine {S : Shape} {function : SA K → R (SA K)} {m b : (String → Nat) → K}
    (hfun : ∀ a, Fits S a → ∃ f, function a = .ok f ∧ Fits S f ∧ ∀ e, f.atB e = m e * a.atB e + b e)
    (hm : ∀ e, m e ≠ 0) {dx : SA K} (hdx : Fits S dx) (hne : ∀ e, dx.atB e ≠ 0) {guess err : SA K} (hg : Fits S guess)
    (he : err.WF) (hes : err.axes = []) (hpos : ∀ e, 0 < err.at' e) (n : Nat) :
    ∃ x, (rootNewton (fieldArith K) (onScalars function) (scalarCorrection (fieldArith K) (onScalars (slope function dx)))
        (.leaf guess) (.leaf err) (n + 2)).2 = .ok (.leaf x) ∧ Fits S x ∧
      ((∀ e, x.atB e = guess.atB e) ∨ ∀ e, x.atB e = - b e / m e) := by
  have hfun' : ∀ a, Fits S a → ∃ f, function a = .ok f ∧ Fits S f := fun a ha => by
    obtain ⟨f, h1, h2, _⟩ := hfun a ha
    exact ⟨f, h1, h2⟩
  have hjac : ∀ a, Fits S a → ∃ f, slope function dx a = .ok f ∧ Fits S f := fun a ha => by
    obtain ⟨f, h1, h2, _⟩ := slope_affine hfun hdx hne ha
    exact ⟨f, h1, h2⟩
  have hes' : err.shape = [] := by
    have := SA.keys_shape he
    rw [hes] at this
    cases hs : err.shape with
    | nil => rfl
    | cons p s => rw [hs] at this; simp at this
  obtain ⟨f0, g1, g2, g3⟩ := hfun guess hg
  obtain ⟨x0, conv0, hi, hx0, hxg⟩ := init_scalar (fieldArith K) hg g1 g2 hes'
  unfold rootNewton
  rw [hi]
  simp only
  rcases body_scalar (fieldArith K) hfun' hjac he hes (s := ⟨0, .leaf x0, .leaf f0, conv0⟩) rfl rfl hx0 g2 with
    ⟨_, hb⟩ | ⟨_, s', j, a', f', hb, hj, e1, e2, e3, e4, e5⟩
  · refine ⟨x0, ?_, hx0, .inl hxg⟩
    simp only [loop, hb]
  · obtain ⟨j', j1, j2, j3⟩ := slope_affine hfun hdx hne hx0
    rw [hj] at j1; cases j1
    have hroot : ∀ e, a'.atB e = - b e / m e := by
      intro e
      rw [e5 e, g3 e, j3 e, hxg e]
      have := hm e
      simp only [fieldArith]
      field_simp
      ring
    have hf' : function a' = .ok f' := by
      have := hb
      unfold newtonBody at this
      cases h1 : isSmall (fieldArith K) (.leaf f0) (.leaf err) with
      | error x => simp only [h1, bind, Except.bind] at this; cases this
      | ok conv =>
        simp only [h1, bind, Except.bind] at this
        cases h2 : allTrue conv with
        | error x => simp only [h2] at this; cases this
        | ok t =>
          simp only [h2] at this
          cases t with
          | true => simp at this
          | false =>
            simp only [Bool.false_eq_true, if_false] at this
            split at this
            · cases this
            · split at this
              · cases this
              · split at this
                · cases this
                · next hh =>
                  cases this
                  simp only at e1 e2
                  subst e1 e2
                  simp only [onScalars, bind, Except.bind] at hh
                  split at hh
                  · cases hh
                  · next hh2 => cases hh; exact hh2
    obtain ⟨f'', k1, k2, k3⟩ := hfun a' e3
    rw [hf'] at k1; cases k1
    refine ⟨a', ?_, e3, .inr hroot⟩
    rcases body_scalar (fieldArith K) hfun' hjac he hes e1 e2 e3 e4 with ⟨_, hb'⟩ | ⟨⟨e, w1, w2⟩, _⟩
    · simp only [loop, hb, hb', e1]
    · exfalso
      have h0 : f'.atB e = 0 := by
        rw [k3, hroot]
        have := hm e
        field_simp
        ring
      rw [← SA.atB_eq_at' e4.1 w1, h0] at w2
      simp only [fieldArith, abs_zero, decide_eq_false_iff_not] at w2
      exact w2 (hpos e)

end Optimize
/-! ### Examples -/

namespace Jac
open Optimize

/-- `(x², x y)` -/
def exSquares : Comp ℚ → R (Comp ℚ)
  | .node _ cs => match get? cs "x", get? cs "y" with
    | some (.leaf a), some (.leaf b) => .ok (vec2 (a * a) (a * b)).toComp
    | _, _ => .error .other
  | .leaf _ => .error .typeError

/-- `x y` -/
def exArea : Comp ℚ → R (Comp ℚ)
  | .node _ cs => match get? cs "x", get? cs "y" with
    | some (.leaf a), some (.leaf b) => .ok (.leaf (a * b))
    | _, _ => .error .other
  | .leaf _ => .error .typeError

/-- The entries of a Jacobian. -/
def exEntries : R (Jac ℚ) → Option (List (String × List (String × ℚ)))
  | .ok (.matrix M) => (cartesianNd M.rows).mapM (fun p => match p.2 with
    | .node _ cs => some (p.1, cartesianNd cs)
    | .leaf _ => none)
  | .ok (.array (.node _ cs)) => some [("", cartesianNd cs)]
  | _ => none

-- rows are components of the value, columns are components of the argument
example : exEntries (jacobian (Ops.num dvQ) exSquares (vec2 2 3).toComp (vec2 1 (1 / 2)).toComp) =
    some [("x", [("x", 5), ("y", 0)]), ("y", [("x", 3), ("y", 2)])] := by decide +kernel

-- a scalar step is used for all components; a scalar function has a gradient
example : exEntries (jacobian (Ops.num dvQ) exArea (vec2 2 3).toComp (.leaf (1 / 2))) =
    some [("", [("x", 3), ("y", 2)])] := by decide +kernel

-- the hypotheses of `C106_transformation`
example : ∃ M, jacobian (Ops.num dvQ) (ofTransformation (Ops.num dvQ) (.affine (Mat.mk2 2 3 1 (-1)) (vec2 5 7)))
      (vec2 1 2).toComp (.leaf (1 / 10)) = .ok (.matrix M) ∧ IsM anyNum plane plane M ∧
    ∀ r ∈ kindNames plane, ∀ c ∈ kindNames plane, mval id M.rows r c =
      linearPart id (.affine (Mat.mk2 (2 : ℚ) 3 1 (-1)) (vec2 5 7)) r c :=
  C106_transformation (Ops.num_sound dvQ) (fun _ _ _ => rfl) (s := .affine (Mat.mk2 2 3 1 (-1)) (vec2 5 7))
    (τ := plane) (σ := plane) ⟨isM_mk2 trivial trivial trivial trivial, isV_vec2 trivial trivial⟩ (isV_vec2 trivial trivial)
    (.inl ⟨_, rfl, trivial⟩) (fun _ _ => by simp [stepOf])

-- the matrix can be inverted, as is assumed in `C106_newton_step`
example : jacobian (Ops.num dvQ) (ofTransformation (Ops.num dvQ) (.affine (Mat.mk2 2 3 1 (-1)) (vec2 5 7)))
    (vec2 1 2).toComp (.leaf (1 / 10)) = .ok (.matrix (Mat.mk2 2 3 1 (-1))) := by
  with_unfolding_all rfl


example : InvM sigEx anyNum id plane plane (Mat.mk2 (2 : ℚ) 3 1 (-1)) :=
  invM_mk2 trivial trivial trivial trivial (by norm_num)

-- the hypotheses of `C106_vector` and `C106_gradient`
example : (∀ y : Vec ℚ, IsV anyNum plane y → ∃ z : Vec ℚ, ofTransformation (Ops.num dvQ)
      (.linear (Mat.mk2 2 3 1 (-1))) y.toComp = .ok z.toComp ∧ IsV anyNum plane z) ∧
    IsV anyNum plane (vec2 (1 : ℚ) 2) ∧ IsStep anyNum plane (vec2 (1 : ℚ) (1 / 2)).toComp := by
  refine ⟨fun y hy => ?_, isV_vec2 trivial trivial, .inr ⟨_, rfl, isV_vec2 trivial trivial⟩⟩
  obtain ⟨z, z1, z2, -⟩ := Simple.call_ok (Ops.num_sound dvQ) (s := .linear (Mat.mk2 (2 : ℚ) 3 1 (-1)))
    (τ := plane) (σ := plane) (isM_mk2 trivial trivial trivial trivial) hy
  exact ⟨z, by simp only [ofTransformation, Vec.toComp, z1, bind, Except.bind], z2⟩

/-- `x² + 1` for numbers -/
def exParabola : Comp ℚ → R (Comp ℚ)
  | .leaf a => .ok (.leaf (a ^ 2 + 1))
  | .node _ _ => .error .typeError

example : ∃ q, jacobian (Ops.num dvQ) exParabola (.leaf 3) (.leaf (1 / 10)) = .ok (.array (.leaf q)) ∧ True ∧
    (id q : ℚ) = (2 * 1 * id 3 + 0) + 1 * id (1 / 10) :=
  C106_quadratic (good := anyNum) (Ops.num_sound dvQ) (fun _ _ _ => rfl) (a := 1) (b := 0) (c := 1)
    (fun a _ => ⟨a ^ 2 + 1, rfl, trivial⟩) (fun x y _ h => by cases h; simp) trivial trivial (by norm_num)

end Jac

namespace Optimize

/-- the guesses `[0, 5]` -/
def exStarts : SA ℚ := ⟨["y"], ⟨[2], fun i => if i.getD 0 0 = 0 then 0 else 5⟩⟩

/-- `3 x - 7` -/
def exSlanted (x : SA ℚ) : R (SA ℚ) := SA.ufunc1 (fun v => 3 * v - 7) x

-- the hypotheses of `C106_newton_affine`
example : ∃ x, (rootNewton (fieldArith ℚ) (onScalars exSlanted) (scalarCorrection (fieldArith ℚ)
      (onScalars (slope exSlanted (SA.scalar (1 / 1000))))) (.leaf exStarts) (.leaf (SA.scalar (1 / 10))) 7).2 = .ok (.leaf x) ∧
    Fits [("y", 2)] x ∧ ((∀ e, x.atB e = exStarts.atB e) ∨ ∀ e, x.atB e = - (-7) / 3) :=
  C106_newton_affine (m := fun _ => 3) (b := fun _ => -7) (fun a ha => by
      obtain ⟨c, h1, h2, -, h3⟩ := ufunc1_fits' (fun v : ℚ => 3 * v - 7) ha
      exact ⟨c, h1, h2, fun e => by rw [h3]; ring⟩)
    (fun _ => by norm_num) (fits_scalar _ _) (fun _ => (by norm_num : (1 / 1000 : ℚ) ≠ 0))
    ⟨⟨rfl, by decide⟩, fun ax m hm => ⟨m, hm, .inl rfl⟩⟩ (fits_scalar [] _).1 rfl
    (fun _ => (by norm_num : (0 : ℚ) < 1 / 10)) 5

-- one correction is needed
example : (match (rootNewton (fieldArith ℚ) (onScalars exSlanted) (scalarCorrection (fieldArith ℚ)
      (onScalars (slope exSlanted (SA.scalar (1 / 1000))))) (.leaf exStarts) (.leaf (SA.scalar (1 / 10))) 2) with
    | (calls, .ok (.leaf x)) => some (calls.length, x.nd.toList)
    | _ => none) = some (2, [7 / 3, 7 / 3]) := by decide +kernel

end Optimize
end NA
