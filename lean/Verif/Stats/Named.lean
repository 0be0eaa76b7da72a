import Verif.Scalar.Arith
import Verif.Props.Selecting
import Verif.Props.Sorting
import Verif.Props.Joining
import Verif.Props.Reductions
import Verif.Interp.Centers
import Verif.Stats.Basic

/-! Arrays described by their named shape and by a function of the named index. -/

namespace NA
open Dict
open SA (FitsIn InRange)

/-- The array `a` has the shape `S` and the element `f e` at every named index `e`. -/
structure Is {α : Type} (S : Shape) (a : SA α) (f : (String → Nat) → α) : Prop where
  wf : a.WF
  shape : Same a.shape S
  elem : ∀ e, InRange S e → a.at' e = f e

variable {α β γ : Type}

theorem Is.full {S : Shape} {a : SA α} {f : (String → Nat) → α} (h : Is S a f) : Full S a := ⟨h.wf, h.shape⟩

theorem Is.self {a : SA α} (h : a.WF) : Is a.shape a a.at' := ⟨h, fun _ => rfl, fun _ _ => rfl⟩

theorem Is.congr {S : Shape} {a : SA α} {f g : (String → Nat) → α} (h : Is S a f)
    (hfg : ∀ e, InRange S e → f e = g e) : Is S a g :=
  ⟨h.wf, h.shape, fun e he => (h.elem e he).trans (hfg e he)⟩

theorem inRange_same {S T : Shape} (h : Same S T) {e : String → Nat} (he : InRange S e) : InRange T e :=
  fun ax n hn => he ax n (by rw [h ax]; exact hn)

theorem same_symm {S T : Shape} (h : Same S T) : Same T S := fun ax => (h ax).symm

theorem Is.same {S T : Shape} {a : SA α} {f : (String → Nat) → α} (h : Is S a f) (hST : Same S T) : Is T a f :=
  ⟨h.wf, fun ax => (h.shape ax).trans (hST ax), fun e he => h.elem e (inRange_same (same_symm hST) he)⟩

theorem Is.atB {S : Shape} {a : SA α} {f : (String → Nat) → α} (h : Is S a f) {e : String → Nat} (he : InRange S e) :
    a.atB e = f e := (h.full.atB he).trans (h.elem e he)

theorem Is.mem_axes {S : Shape} {a : SA α} {f : (String → Nat) → α} (h : Is S a f) {x : String} {n : Nat}
    (hx : get? S x = some n) : x ∈ a.axes := by
  rw [← SA.keys_shape h.wf]
  exact mem_keys_of_get? ((h.shape x).trans hx)

theorem is_ufunc2 {S : Shape} (g : α → β → γ) {a : SA α} {b : SA β} {f : (String → Nat) → α} {f' : (String → Nat) → β}
    (ha : Is S a f) (hb : Is S b f') : ∃ c, SA.ufunc2 g a b = .ok c ∧ Is S c (fun e => g (f e) (f' e)) := by
  obtain ⟨c, h1, h2, h3⟩ := ufunc2_full g ha.full hb.full.fits
  exact ⟨c, h1, h2.1, h2.2, fun e he => by rw [← h2.atB he, h3, ha.atB he, hb.atB he]⟩

theorem is_ufunc1 {S : Shape} (g : α → β) {a : SA α} {f : (String → Nat) → α} (ha : Is S a f) :
    ∃ c, SA.ufunc1 g a = .ok c ∧ Is S c (fun e => g (f e)) := by
  obtain ⟨c, h1, h2, h3⟩ := ufunc1_full g ha.full
  exact ⟨c, h1, h2.1, h2.2, fun e he => by rw [← h2.atB he, h3, ha.atB he]⟩

/-- `S` with the size `m` along `x` -/
theorem inRange_set {S : Shape} {x : String} {m : Nat} {e : String → Nat} :
    InRange (set S x m) e ↔ e x < m ∧ ∀ ax n, ax ≠ x → get? S ax = some n → e ax < n := by
  constructor
  · intro h
    refine ⟨h x m (by rw [get?_set, if_pos rfl]), fun ax n hax hn => h ax n ?_⟩
    rw [get?_set, if_neg hax.symm]; exact hn
  · rintro ⟨h1, h2⟩ ax n hn
    rw [get?_set] at hn
    split at hn <;> rename_i h
    · subst h; cases hn; exact h1
    · exact h2 ax n (fun h' => h h'.symm) hn

theorem same_set {S T : Shape} (h : ∀ ax, get? T ax = if ax = x then some m else get? S ax) : Same T (set S x m) := by
  intro ax
  rw [h, get?_set]
  by_cases hx : ax = x
  · rw [if_pos hx, if_pos hx.symm]
  · rw [if_neg hx, if_neg (fun h' => hx h'.symm)]

theorem set_self {S : Shape} {x : String} {n : Nat} (h : get? S x = some n) : Same (set S x n) S := by
  intro ax
  rw [get?_set]
  split <;> rename_i h'
  · subst h'; exact h.symm
  · rfl

theorem inRange_update {S : Shape} {x : String} {n k : Nat} {e : String → Nat} (hx : get? S x = some n)
    (h : ∀ ax m, ax ≠ x → get? S ax = some m → e ax < m) (hk : k < n) : InRange S (Function.update e x k) := by
  intro ax m hm
  by_cases hax : ax = x
  · subst hax; rw [hx] at hm; cases hm; rw [Function.update_self]; exact hk
  · rw [Function.update_of_ne hax]; exact h ax m hax hm

theorem Is.wf_set {S : Shape} {a : SA α} {f : (String → Nat) → α} (h : Is S a f) (x : String) (m : Nat) :
    Same (set a.shape x m) (set S x m) := by
  intro ax
  rw [get?_set, get?_set, h.shape ax]

/-- the shapes of the other axes -/
theorem bs_erase {S : Shape} {a : SA α} {b : SA β} {f : (String → Nat) → α} {g : (String → Nat) → β} {x : String} {m : Nat}
    (ha : Is S a f) (hb : Is (set S x m) b g) :
    ∃ s, broadcastShapes [a.shape.erase x, b.shape.erase x] = .ok s ∧ WF s ∧ Same s (S.erase x) := by
  have hw : ∀ s ∈ [a.shape.erase x, b.shape.erase x], WF s := by
    intro s hs
    simp only [List.mem_cons, List.not_mem_nil, or_false] at hs
    rcases hs with rfl | rfl
    · exact Dict.wf_erase (SA.wf_shape ha.wf) x
    · exact Dict.wf_erase (SA.wf_shape hb.wf) x
  have h1 : Same (a.shape.erase x) (S.erase x) := by
    intro ax; rw [get?_erase, get?_erase, ha.shape ax]
  have h2 : Same (b.shape.erase x) (S.erase x) := by
    intro ax
    rw [get?_erase, get?_erase, hb.shape ax, get?_set]
    split <;> rfl
  cases hs : broadcastShapes [a.shape.erase x, b.shape.erase x] with
  | error e =>
    exfalso
    obtain ⟨ax, m1, m2, ⟨s1, hs1, g1⟩, ⟨s2, hs2, g2⟩, hne, -⟩ := (C01_broadcast_shapes_error_iff _ hw).1 ⟨e, hs⟩
    have key : ∀ s ∈ [a.shape.erase x, b.shape.erase x], get? s ax = get? (S.erase x) ax := by
      intro s hs
      simp only [List.mem_cons, List.not_mem_nil, or_false] at hs
      rcases hs with rfl | rfl
      · exact h1 ax
      · exact h2 ax
    rw [key s1 hs1] at g1
    rw [key s2 hs2, g1] at g2
    exact hne (Option.some.inj g2)
  | ok s =>
    refine ⟨s, rfl, (broadcastShapes_joinOf hw hs).1, ?_⟩
    exact same_of_fits h1 (fun ax m hm => ⟨m, by rw [← h2 ax]; exact hm, .inl rfl⟩) (hw _ (by simp)) (hw _ (by simp)) hs

theorem is_take {S : Shape} {a : SA α} {b : SA Int} {f : (String → Nat) → α} {g : (String → Nat) → Nat} {x : String}
    {n m : Nat} (hx : get? S x = some n) (ha : Is S a f) (hb : Is (set S x m) b (fun e => (g e : Int)))
    (hg : ∀ e, InRange (set S x m) e → g e < n) :
    ∃ c, a.takeAlongAxis b x = .ok c ∧ Is (set S x m) c (fun e => f (Function.update e x (g e))) := by
  obtain ⟨s, hs, hsw, hss⟩ := bs_erase ha hb
  have hbx : get? b.shape x = some m := by rw [hb.shape, get?_set, if_pos rfl]
  obtain ⟨-, r, h1, h2, h3, h4⟩ | ⟨h1, -⟩ := SA.C57_take_along_axis a b ha.wf hb.wf x n
    ((ha.shape x).trans hx) s hs
  · have hsame : Same r.shape (set S x m) := by
      apply same_set
      intro ax
      rw [h3, hbx, get?_cons]
      by_cases hax : ax = x
      · subst hax; simp
      · have h' : ¬ x = ax := fun h' => hax h'.symm
        simp only [if_neg h', if_neg hax]
        rw [hss ax, get?_erase, if_neg h']
    refine ⟨r, h1, h2, hsame, fun e he => ?_⟩
    rw [h4 e (inRange_same (same_symm hsame) he), hb.atB he]
    have hp : ND.pyIndex n (g e : Int) = g e := by simp [ND.pyIndex]
    rw [hp, ha.atB]
    exact inRange_update hx (inRange_set.1 he).2 (hg e he)
  · exfalso
    apply h1
    intro e he
    have he' := inRange_same hb.shape he
    rw [hb.elem e he']
    have := hg e he'
    simp only [ND.ValidIndex]
    omega

/-- the elements along an axis -/
def lineOf (f : (String → Nat) → α) (x : String) (n : Nat) (e : String → Nat) : List α :=
  (List.range n).map (fun k => f (Function.update e x k))

theorem slabList_line {S : Shape} {a : SA α} {f : (String → Nat) → α} {x : String} {n : Nat} (hx : get? S x = some n)
    (ha : Is S a f) {e : String → Nat} (he : ∀ ax m, ax ≠ x → get? S ax = some m → e ax < m) :
    SA.slabList a [x] e = lineOf f x n e := by
  have hsz : a.sizeOf' x = n := by unfold SA.sizeOf'; rw [ha.shape, hx]; rfl
  apply List.ext_getElem
  · rw [SA.length_slabList]; simp [lineOf, hsz]
  · intro i h1 h2
    have hi : i < n := by simpa [lineOf] using h2
    rw [SA.slabList_getElem h1]
    simp only [lineOf, List.getElem_map, List.getElem_range, List.map_cons, List.map_nil, hsz]
    have hu : slabEnv [x] (ND.unravel [n] i) e = Function.update e x i := by
      funext ax
      unfold slabEnv
      by_cases hax : ax = x
      · subst hax
        simp [ND.unravel, Nat.mod_eq_of_lt hi]
      · simp [hax]
    rw [hu, ha.elem _ (inRange_update hx he hi)]

theorem is_argsort {S : Shape} {a : SA α} {f : (String → Nat) → α} {x : String} {n : Nat} (hx : get? S x = some n)
    (ha : Is S a f) (hpos : ∀ ax m, ax ≠ x → get? S ax = some m → m ≠ 0) (asrt : List α → List Nat)
    (hal : ∀ l, (asrt l).length = l.length) (hlt : ∀ l, ∀ i ∈ asrt l, i < l.length) :
    ∃ d b, a.argsort asrt (some [x]) = .ok d ∧ get? d x = some b ∧
      Is S b (fun e => (((asrt (lineOf f x n e)).getD (e x) 0 : Nat) : Int)) := by
  have hxa := ha.mem_axes hx
  have hAs : [x] ⊆ a.axes := by intro y hy; rw [List.mem_singleton.1 hy]; exact hxa
  have hic : "*".intercalate [x] = x := rfl
  have hsz : a.sizeOf' x = n := by unfold SA.sizeOf'; rw [ha.shape, hx]; rfl
  obtain ⟨flat, nd, h1, h2, h3, h4, h5, h6, h7, h8⟩ := SA.along_combined ha.wf (A := [x]) (by simp) hAs
    (new := x) (by simp) (by
      intro ax hax hne h0
      exact hpos ax 0 (by simpa using hne) (by rw [← ha.shape]; exact h0) rfl) (fun l k => (asrt l).getD k 0)
  set indices : SA Nat := ⟨flat.axes, nd⟩ with hind
  have hshape : Same indices.shape S := by
    intro ax
    by_cases hax : ax = x
    · subst hax; rw [h6, hx]; simp [hsz]
    · by_cases hm : ax ∈ a.axes
      · rw [h7 ax hm (by simpa using hax), ha.shape]
      · rw [← ha.shape, (SA.get?_shape_none ha.wf).2 hm, (SA.get?_shape_none h5).2]
        show ax ∉ flat.axes
        rw [h2]
        simp [hax, hm]
  have hval : ∀ e, InRange indices.shape e → indices.at' e = (asrt (lineOf f x n e)).getD (e x) 0 := by
    intro e he
    have he' := inRange_same hshape he
    rw [h8 e (by
      intro ax hm hne
      obtain ⟨k, hk⟩ := exists_get?_of_mem (d := a.shape) (by rw [SA.keys_shape ha.wf]; exact hm)
      have := he' ax k (by rw [← ha.shape]; exact hk)
      simpa [SA.sizeOf', hk] using this), slabList_line hx ha (fun ax m _ hm => he' ax m hm)]
  have hlt' : ∀ e, InRange indices.shape e → indices.at' e < n := by
    intro e he
    rw [hval e he]
    have hex : e x < (asrt (lineOf f x n e)).length := by
      rw [hal]
      simpa [lineOf] using inRange_same hshape he x n hx
    rw [List.getD_eq_getElem _ _ hex]
    simpa [lineOf] using hlt _ _ (List.getElem_mem hex)
  obtain ⟨d, k1, k2, k3, k4, -⟩ := SA.getitem_unravel ha.wf (A := [x]) (by simp) (by simp) hAs h5 h7 (by
    intro e he
    simpa [hsz] using hlt' e he)
  obtain ⟨b, b1, b2, b3, b4, b5⟩ := k3 x (by simp)
  have hargs : SA.argsort asrt a (some [x]) = .ok (a.completeIndex d) := by
    unfold SA.argsort
    simp only [bind, Except.bind, Option.getD_some, Option.isSome_some, true_and]
    rw [if_neg (by
      rintro (h | h)
      · simp at h
      · exact h (fun ax hax => hAs hax))]
    simp only [Option.isNone_some, Bool.false_eq_true, false_and, if_false]
    rw [SA.flattenAxes_ok (by simp), hic]
    have hmk : SA.mk? nd flat.axes = .ok indices := SA.mk?_of_wf h5.1 h5.2
    simp only [h1, SA.pyTupleIndex, if_pos h3, h4, hmk]
    have : [x].map (fun ax => (ax, (get? a.shape ax).getD 0)) = [x].map (fun ax => (ax, a.sizeOf' ax)) := rfl
    rw [this, k1]
  refine ⟨_, b, hargs, b1, b2, fun ax => by rw [b4]; exact hshape ax, fun e he => ?_⟩
  have he' := inRange_same (same_symm hshape) he
  rw [b5, ← hval e he']
  have := hlt' e he'
  simp [ND.unravel, hsz, Nat.mod_eq_of_lt this]

theorem is_cumulative {S : Shape} {a : SA α} {f : (String → Nat) → α} {x : String} {n : Nat} (hx : get? S x = some n)
    (ha : Is S a f) (g : List α → α) :
    ∃ r, a.cumulative g (some [x]) none = .ok r ∧ Is S r (fun e => g (lineOf f x (e x + 1) e)) := by
  obtain ⟨r, h1, h2, h3, h4, h5⟩ := SA.C19_cumulative_partial a ha.wf g x n ((ha.shape x).trans hx) none (by simp)
  refine ⟨r, h1, h2, fun ax => by rw [h4]; exact ha.shape ax, fun e he => ?_⟩
  have hex := he x n hx
  rw [h5 e hex]
  congr 1
  apply List.map_congr_left
  intro k hk
  have := List.mem_range.1 hk
  exact ha.elem _ (inRange_update hx (fun ax m _ hm => he ax m hm) (by omega))

/-- a slice along one axis -/
theorem is_slice {S : Shape} {a : SA α} {f : (String → Nat) → α} {x : String} {n : Nat} (hx : get? S x = some n)
    (ha : Is S a f) (s : Slice) (o m : Nat) (hlen : sliceLen n s = m) (hp : ∀ k, k < m → slicePos n s k = o + k) (hom : o + m ≤ n)
    (hstep : s.step ≠ some 0) :
    ∃ r, a.getitem [(x, .slice s)] = .ok r ∧ Is (set S x m) r (fun e => f (Function.update e x (o + e x))) := by
  obtain ⟨r, h1, h2, h3, h4, h5⟩ := SA.getitem_slice ha.wf x s hstep
  have hax : get? a.shape x = some n := (ha.shape x).trans hx
  have hsame : Same r.shape (set S x m) := by
    apply same_set
    intro ax
    rw [h4]
    by_cases h : ax = x
    · subst h; rw [if_pos rfl, if_pos rfl, hax, Option.map_some, hlen]
    · rw [if_neg h, if_neg h, ha.shape]
  refine ⟨r, h1, h2, hsame, fun e he => ?_⟩
  have hex := (inRange_set.1 he).1
  have hfun : (fun ax => if ax = x then slicePos ((get? a.shape ax).getD 0) s (e ax) else e ax) =
      Function.update e x (o + e x) := by
    funext ax
    by_cases h : ax = x
    · subst h; rw [if_pos rfl, hax, Option.getD_some, hp _ hex, Function.update_self]
    · rw [if_neg h, Function.update_of_ne h]
  rw [h5, hfun]
  refine ha.elem _ (inRange_update hx (inRange_set.1 he).2 ?_)
  omega

end NA
