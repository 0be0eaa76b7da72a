import Verif.Mixed.Spec

/-!
# The search for a method finds the combination
-/

namespace NA
open Dict
namespace Val
variable {ι α β γ : Type}

/-! ### Shapes -/

/-- Some scalar of the value has the size `m` along `ax`; the axis of the samples does not count. -/
inductive Size : Val ι α → String → Nat → Prop
  | sa {a : SA α} {ax : String} {m : Nat} (h : get? a.shape ax = some m) : Size (.sa a) ax m
  | nominal {u : UA α} {ax : String} {m : Nat} (h : get? u.nominal.shape ax = some m) : Size (.ua u) ax m
  | sample {u : UA α} {ax : String} {m : Nat} (hx : ax ≠ axisD)
      (h : get? u.distribution.shape ax = some m) : Size (.ua u) ax m
  | part {cls c : String} {cs : List (String × Val ι α)} {v : Val ι α} {ax : String} {m : Nat}
      (hc : get? cs c = some v) (h : Size v ax m) : Size (.vec cls cs) ax m

/-- `S` is the smallest shape for the given sizes. -/
def Joins (P : String → Nat → Prop) (S : Shape) : Prop :=
  WF S ∧ ∀ ax, (ax ∈ keys S ↔ ∃ m, P ax m) ∧ ∀ m, m ≠ 1 → (get? S ax = some m ↔ P ax m)

def Disagree (P : String → Nat → Prop) : Prop :=
  ∃ ax m n, P ax m ∧ P ax n ∧ m ≠ n ∧ m ≠ 1 ∧ n ≠ 1

theorem joins_same {P Q : String → Nat → Prop} {S T : Shape} (hS : Joins P S) (hT : Joins Q T)
    (he : ∀ ax, (∃ m, P ax m) ↔ ∃ m, Q ax m) (h1 : ∀ ax m, m ≠ 1 → (P ax m ↔ Q ax m)) : Same S T := by
  intro ax
  have hk : ax ∈ keys S ↔ ax ∈ keys T := by rw [(hS.2 ax).1, (hT.2 ax).1, he]
  cases hs : get? S ax with
  | none =>
    have : ax ∉ keys T := fun h => get?_eq_none.1 hs (hk.2 h)
    exact (get?_eq_none.2 this).symm
  | some m =>
    by_cases hm : m = 1
    · obtain ⟨n, hn⟩ := exists_get?_of_mem (hk.1 (mem_keys_of_get? hs))
      by_cases hn1 : n = 1
      · rw [hn, hm, hn1]
      · have := ((hS.2 ax).2 n hn1).2 ((h1 ax n hn1).2 (((hT.2 ax).2 n hn1).1 hn))
        rw [hs] at this
        rw [hn, this]
    · exact (((hT.2 ax).2 m hm).2 ((h1 ax m hm).1 (((hS.2 ax).2 m hm).1 hs))).symm

theorem joins_bs {ss : List Shape} (hss : ∀ s ∈ ss, WF s) {S : Shape} (h : broadcastShapes ss = .ok S) :
    Joins (HasSize ss) S := by
  obtain ⟨hw, hk, hs⟩ := C01_broadcast_shapes_ok ss hss S h
  refine ⟨hw, fun ax => ⟨?_, fun m hm => ⟨fun hg => (hs ax m hg).1, fun hp => ?_⟩⟩⟩
  · rw [hk]
    constructor
    · rintro ⟨s, h1, h2⟩
      obtain ⟨m, hm⟩ := exists_get?_of_mem h2
      exact ⟨m, s, h1, hm⟩
    · rintro ⟨m, s, h1, h2⟩
      exact ⟨s, h1, mem_keys_of_get? h2⟩
  · obtain ⟨s, h1, h2⟩ := hp
    obtain ⟨n, hn⟩ := exists_get?_of_mem ((hk ax).2 ⟨s, h1, mem_keys_of_get? h2⟩)
    rcases (hs ax n hn).2 m ⟨s, h1, h2⟩ with rfl | h
    · exact hn
    · exact absurd h hm

theorem clash_bs {ss : List Shape} (hss : ∀ s ∈ ss, WF s) {e : Err} (h : broadcastShapes ss = .error e) :
    e = .valueError ∧ Clash ss :=
  ⟨C01_broadcast_shapes_error_kind ss hss e h, (C01_broadcast_shapes_error_iff ss hss).1 ⟨e, h⟩⟩

/-- The list of shapes of the components. -/
theorem shapes_iff (C : Coordinates ι) (cs : List (String × Val ι α)) :
    (∀ ss, shapes C cs = .ok ss → List.Forall₂ (fun p s => p.2.shape C = .ok s) cs ss) ∧
    (∀ e, shapes C cs = .error e → ∃ p ∈ cs, p.2.shape C = .error e) := by
  induction cs with
  | nil =>
    refine ⟨fun ss h => ?_, fun e h => ?_⟩
    · simp only [shapes] at h; cases h; exact .nil
    · simp only [shapes] at h; cases h
  | cons p cs ih =>
    obtain ⟨k, v⟩ := p
    cases hv : shape C v with
    | error e' =>
      refine ⟨fun ss h => ?_, fun e h => ?_⟩
      · simp only [shapes, hv, bind, Except.bind] at h; cases h
      · simp only [shapes, hv, bind, Except.bind] at h
        cases h
        exact ⟨(k, v), by simp, hv⟩
    | ok s =>
      cases hr : shapes C cs with
      | error e' =>
        refine ⟨fun ss h => ?_, fun e h => ?_⟩
        · simp only [shapes, hv, hr, bind, Except.bind] at h; cases h
        · simp only [shapes, hv, hr, bind, Except.bind] at h
          cases h
          obtain ⟨p, hp, he⟩ := ih.2 _ hr
          exact ⟨p, by simp [hp], he⟩
      | ok ss' =>
        refine ⟨fun ss h => ?_, fun e h => ?_⟩
        · simp only [shapes, hv, hr, bind, Except.bind] at h
          cases h
          exact .cons hv (ih.1 ss' hr)
        · simp only [shapes, hv, hr, bind, Except.bind] at h; cases h

theorem forall₂_left {R : α → β → Prop} {l : List α} {l' : List β} (h : List.Forall₂ R l l') {x : α}
    (hx : x ∈ l) : ∃ y ∈ l', R x y := by
  induction h with
  | nil => cases hx
  | cons hr _ ih =>
    rcases List.mem_cons.1 hx with rfl | h
    · exact ⟨_, by simp, hr⟩
    · obtain ⟨y, hy, hr⟩ := ih h
      exact ⟨y, by simp [hy], hr⟩

theorem forall₂_right {R : α → β → Prop} {l : List α} {l' : List β} (h : List.Forall₂ R l l') {y : β}
    (hy : y ∈ l') : ∃ x ∈ l, R x y := by
  induction h with
  | nil => cases hy
  | cons hr _ ih =>
    rcases List.mem_cons.1 hy with rfl | h
    · exact ⟨_, by simp, hr⟩
    · obtain ⟨x, hx, hr⟩ := ih h
      exact ⟨x, by simp [hx], hr⟩

theorem shape_main (C : Coordinates ι) {L : String → List String} {v : Val ι α} (hv : Plain L v) :
    (∀ S, v.shape C = .ok S → Joins (Size v) S) ∧
    (∀ e, v.shape C = .error e → e = .valueError ∧ Disagree (Size v)) := by
  induction hv with
  | num x =>
    refine ⟨fun S h => ?_, fun e h => ?_⟩
    · simp only [shape] at h
      cases h
      refine ⟨wf_nil, fun ax => ⟨⟨fun h => (by simp at h), fun ⟨m, h⟩ => nomatch h⟩, fun m _ =>
        ⟨fun h => (by simp at h), fun h => nomatch h⟩⟩⟩
    · simp only [shape] at h; cases h
  | @sa a ha =>
    refine ⟨fun S h => ?_, fun e h => ?_⟩
    · simp only [shape] at h
      cases h
      refine ⟨SA.wf_shape ha, fun ax => ⟨⟨fun h => ?_, fun ⟨m, .sa h⟩ => mem_keys_of_get? h⟩, fun m _ =>
        ⟨fun h => .sa h, fun (.sa h) => h⟩⟩⟩
      obtain ⟨m, hm⟩ := exists_get?_of_mem h
      exact ⟨m, .sa hm⟩
    · simp only [shape] at h; cases h
  | @ua u hu =>
    have hw : ∀ s ∈ [u.nominal.shape, u.distribution.shape], WF s := by
      intro s hs
      simp only [List.mem_cons, List.not_mem_nil, or_false] at hs
      rcases hs with rfl | rfl
      · exact SA.wf_shape hu.1
      · exact SA.wf_shape hu.2.1
    have hnD : ∀ m, get? u.nominal.shape axisD ≠ some m := fun m h =>
      hu.2.2 (by have := mem_keys_of_get? h; rwa [SA.keys_shape hu.1] at this)
    have hsize : ∀ ax m, Size (ι := ι) (.ua u) ax m ↔ ax ≠ axisD ∧ HasSize [u.nominal.shape, u.distribution.shape] ax m := by
      intro ax m
      constructor
      · intro h
        cases h with
        | nominal h => exact ⟨fun hx => hnD m (hx ▸ h), _, by simp, h⟩
        | sample hx h => exact ⟨hx, _, by simp, h⟩
      · rintro ⟨hx, s, hs, h⟩
        simp only [List.mem_cons, List.not_mem_nil, or_false] at hs
        rcases hs with rfl | rfl
        · exact .nominal h
        · exact .sample hx h
    have hsh : shape C (.ua u) = u.shape := by simp only [shape]
    rw [hsh]
    unfold UA.shape UA.shapeDistribution
    cases hb : broadcastShapes [u.nominal.shape, u.distribution.shape] with
    | error e' =>
      obtain ⟨h1, ax, m, n, hm, hn, h2, h3, h4⟩ := clash_bs hw hb
      refine ⟨fun S h => (nomatch h), fun e h => ?_⟩
      cases h
      refine ⟨h1, ax, m, n, (hsize ax m).2 ⟨?_, hm⟩, (hsize ax n).2 ⟨?_, hn⟩, h2, h3, h4⟩ <;>
      · rintro rfl
        obtain ⟨s, hs, hm⟩ := hm
        obtain ⟨t, ht, hn⟩ := hn
        simp only [List.mem_cons, List.not_mem_nil, or_false] at hs ht
        rcases hs with rfl | rfl
        · exact hnD _ hm
        · rcases ht with rfl | rfl
          · exact hnD _ hn
          · rw [hm] at hn; cases hn; exact h2 rfl
    | ok T =>
      refine ⟨fun S h => ?_, fun e h => nomatch h⟩
      cases h
      obtain ⟨jw, j⟩ := joins_bs hw hb
      refine ⟨Dict.wf_erase jw _, fun ax => ?_⟩
      by_cases hx : ax = axisD
      · subst hx
        have hno : get? (T.erase axisD) axisD = none := by rw [get?_erase]; simp
        refine ⟨⟨fun h => absurd h (get?_eq_none.1 hno), fun ⟨m, h⟩ => absurd rfl ((hsize _ _).1 h).1⟩, fun m _ =>
          ⟨fun h => (by rw [hno] at h; cases h), fun h => absurd rfl ((hsize _ _).1 h).1⟩⟩
      · have hg : get? (T.erase axisD) ax = get? T ax := by
          rw [get?_erase]; simp [Ne.symm hx]
        refine ⟨?_, fun m hm => ?_⟩
        · constructor
          · intro h
            obtain ⟨m, hm⟩ := exists_get?_of_mem h
            obtain ⟨m', h'⟩ := (j ax).1.1 (mem_keys_of_get? (hg ▸ hm))
            exact ⟨m', (hsize ax m').2 ⟨hx, h'⟩⟩
          · rintro ⟨m, h⟩
            obtain ⟨n, hn⟩ := exists_get?_of_mem ((j ax).1.2 ⟨m, ((hsize ax m).1 h).2⟩)
            exact mem_keys_of_get? (hg.trans hn)
        · rw [hg, (j ax).2 m hm, hsize]
          simp [hx]
  | @vec cls cs hn hd h0 hall ih =>
    have hwf : WF cs := by rw [WF, hn]; exact hd
    have hget : ∀ p ∈ cs, get? cs p.1 = some p.2 := fun p hp => get?_of_mem hwf hp
    have hsz : ∀ p ∈ cs, ∀ ax m, Size p.2 ax m → Size (.vec cls cs) ax m := fun p hp ax m h =>
      .part (hget p hp) h
    obtain ⟨hok, herr⟩ := shapes_iff C cs
    cases hs : shapes C cs with
    | error e' =>
      refine ⟨fun S h => ?_, fun e h => ?_⟩
      · simp only [shape, hs, bind, Except.bind] at h; cases h
      · simp only [shape, hs, bind, Except.bind] at h
        cases h
        obtain ⟨p, hp, he⟩ := herr _ hs
        obtain ⟨h1, ax, m, n, hm, hn', h2⟩ := (ih p.1 p.2 (hget p hp)).2 _ he
        exact ⟨h1, ax, m, n, hsz p hp _ _ hm, hsz p hp _ _ hn', h2⟩
    | ok ss =>
      have hf := hok ss hs
      have hj : ∀ s ∈ ss, ∃ p ∈ cs, Joins (Size p.2) s := by
        intro s hs'
        obtain ⟨p, hp, he⟩ := forall₂_right hf hs'
        exact ⟨p, hp, (ih p.1 p.2 (hget p hp)).1 s he⟩
      have hw : ∀ s ∈ ss, WF s := fun s hs' => (hj s hs').elim fun _ h => h.2.1
      have hto : ∀ ax m, m ≠ 1 → HasSize ss ax m → Size (.vec cls cs) ax m := by
        rintro ax m hm ⟨s, hs', h⟩
        obtain ⟨p, hp, j⟩ := hj s hs'
        exact hsz p hp _ _ (((j.2 ax).2 m hm).1 h)
      have hshape : shape C (.vec cls cs) = broadcastShapes ss := by
        simp only [shape, hs, bind, Except.bind]
      rw [hshape]
      refine ⟨fun S h => ?_, fun e h => ?_⟩
      · obtain ⟨jw, j⟩ := joins_bs hw h
        refine ⟨jw, fun ax => ⟨?_, fun m hm => ?_⟩⟩
        · rw [(j ax).1]
          constructor
          · rintro ⟨m, s, hs', hg⟩
            obtain ⟨p, hp, j'⟩ := hj s hs'
            obtain ⟨m', h'⟩ := (j'.2 ax).1.1 (mem_keys_of_get? hg)
            exact ⟨m', hsz p hp _ _ h'⟩
          · rintro ⟨m, hz⟩
            cases hz with | part hc hm => ?_
            obtain ⟨s, hs', he⟩ := forall₂_left hf (mem_of_get? hc)
            obtain ⟨n, hn'⟩ := exists_get?_of_mem ((((ih _ _ hc).1 s he).2 ax).1.2 ⟨m, hm⟩)
            exact ⟨n, s, hs', hn'⟩
        · rw [(j ax).2 m hm]
          refine ⟨hto ax m hm, ?_⟩
          intro hz
          cases hz with | part hc hz => ?_
          obtain ⟨s, hs', he⟩ := forall₂_left hf (mem_of_get? hc)
          exact ⟨s, hs', ((((ih _ _ hc).1 s he).2 ax).2 m hm).2 hz⟩
      · obtain ⟨h1, ax, m, n, hm, hn', h2, h3, h4⟩ := clash_bs hw h
        exact ⟨h1, ax, m, n, hto ax m h3 hm, hto ax n h4 hn', h2, h3, h4⟩

/-! ### Scalars -/

theorem elementwise_iff {f : α → β → γ} {x : SA α} {y : SA β} (hx : x.WF) (hy : y.WF) :
    (∀ r, SA.ufunc2 f x y = .ok r → Elementwise f x y r) ∧
    (∀ r, Elementwise f x y r → ∃ r', SA.ufunc2 f x y = .ok r') ∧
    (∀ e, SA.ufunc2 f x y = .error e → e = .valueError ∧ Clash [x.shape, y.shape]) := by
  refine ⟨fun r h => ?_, fun r h => SA.ufunc2_isOk hx hy h.2.1 f, fun e h =>
    clash_bs (SA.wf_pair hx hy) (SA.ufunc2_error hx hy h)⟩
  obtain ⟨h1, h2, h3⟩ := SA.ufunc2_ok hx hy h
  exact ⟨h1, h2, fun e _ => h3 e⟩

theorem wf_scalar (x : α) : (SA.scalar x).WF := ⟨rfl, List.nodup_nil⟩

theorem asScalar_wf {L : String → List String} {a : Val ι α} (ha : Plain L a) {x : SA α}
    (h : a.asScalar = some x) : x.WF := by
  cases ha with
  | num x => cases h; exact wf_scalar _
  | sa hw => cases h; exact hw
  | ua => cases h
  | vec => cases h

theorem asUncertain_wf {L : String → List String} {a : Val ι α} (ha : Plain L a) {x : UArg α}
    (h : a.asUncertain = some x) : x.nominal.WF ∧ x.distribution.WF := by
  cases ha with
  | num x => cases h; exact ⟨wf_scalar _, wf_scalar _⟩
  | sa hw => cases h; exact ⟨hw, hw⟩
  | ua hu => cases h; exact ⟨hu.1, hu.2.1⟩
  | vec => cases h

theorem plain_combines {C : Coordinates ι} {L : String → List String} {f : α → β → γ} {a : Val ι α}
    {b : Val ι β} {r : Val ι γ} (h : Combines C f a b r) : Plain L a → Plain L b → Plain L r := by
  induction h with
  | number x y => intros; exact .num _
  | scalar hx hy hn h => intros; exact .sa h.1
  | uncertain hx hy hu hn hd h => intros; exact .ua ⟨hn.1, hd.1, h⟩
  | @vector a b cls names pa pb rs hx hy hv hk h ih =>
    intro ha hb
    have hnames : names = L cls ∧ names.Nodup ∧ names ≠ [] := by
      rcases hv with hv | hv
      · cases ha with
        | vec h1 h2 h3 h4 => obtain ⟨rfl, rfl, _⟩ := hx; rw [h1]; exact ⟨rfl, h2, h3⟩
        | _ => exact hv.elim
      · cases hb with
        | vec h1 h2 h3 h4 => obtain ⟨rfl, rfl, _⟩ := hy; rw [h1]; exact ⟨rfl, h2, h3⟩
        | _ => exact hv.elim
    obtain ⟨n1, n2, n3⟩ := hnames
    refine .vec (hk.trans n1) (n1 ▸ n2) (n1 ▸ n3) fun c v hc => ih c v hc ?_ ?_
    · have hm : c ∈ names := hk ▸ mem_keys_of_get? hc
      cases ha with
      | num x => rw [hx c hm]; exact .num x
      | sa h => rw [hx c hm]; exact .sa h
      | ua h => rw [hx c hm]; exact .ua h
      | vec h1 h2 h3 h4 => exact h4 _ _ (hx.2.2 c hm)
    · have hm : c ∈ names := hk ▸ mem_keys_of_get? hc
      cases hb with
      | num x => rw [hy c hm]; exact .num x
      | sa h => rw [hy c hm]; exact .sa h
      | ua h => rw [hy c hm]; exact .ua h
      | vec h1 h2 h3 h4 => exact h4 _ _ (hy.2.2 c hm)
  | functionLeft => intro ha; cases ha
  | functionRight => intro _ hb; cases hb
  | functions => intro ha; cases ha

/-! ### Sizes of a combination -/

/-- sizes of the scalar or uncertain scalar which stands for an operand -/
theorem size_scalar {a : Val ι α} {x : SA α} (h : a.asScalar = some x) (ax : String) (m : Nat) :
    Size a ax m ↔ get? x.shape ax = some m := by
  cases a with
  | num y =>
    cases h
    refine ⟨fun h => (nomatch h), fun h => ?_⟩
    have hs : (SA.scalar y).shape = [] := rfl
    rw [hs] at h; cases h
  | sa a => cases h; exact ⟨fun (.sa h) => h, fun h => .sa h⟩
  | ua u => cases h
  | vec cls cs => cases h
  | func i o => cases h

theorem size_uncertain {L : String → List String} {a : Val ι α} (ha : Plain L a) {x : UArg α}
    (h : a.asUncertain = some x) (ax : String) (hax : ax ≠ axisD) (m : Nat) :
    Size a ax m ↔ get? x.nominal.shape ax = some m ∨ get? x.distribution.shape ax = some m := by
  cases ha with
  | num y =>
    cases h
    refine ⟨fun h => (nomatch h), fun h => ?_⟩
    have hs : (SA.scalar y).shape = [] := rfl
    simp only [UArg.nominal, UArg.distribution] at h
    rw [hs] at h; rcases h with h | h <;> cases h
  | sa hw =>
    cases h
    exact ⟨fun (.sa h) => .inl h, fun h => .sa (h.elim id id)⟩
  | ua hu =>
    cases h
    constructor
    · intro h
      cases h with
      | nominal h => exact .inl h
      | sample _ h => exact .inr h
    · rintro (h | h)
      · exact .nominal h
      · exact .sample hax h
  | vec => cases h

theorem size_nominal {a : Val ι α} {x : UArg α} (h : a.asUncertain = some x) {m : Nat}
    (hs : Size a axisD m) : get? x.nominal.shape axisD = some m := by
  cases hs with
  | sa hs => cases h; exact hs
  | nominal hs => cases h; exact hs
  | sample hx => exact absurd rfl hx
  | part => cases h

/-- sizes of an elementwise result -/
theorem size_elementwise {f : α → β → γ} {x : SA α} {y : SA β} {r : SA γ} (hx : x.WF) (hy : y.WF)
    (h : Elementwise f x y r) (ax : String) :
    ((∃ m, get? r.shape ax = some m) ↔ (∃ m, get? x.shape ax = some m) ∨ ∃ m, get? y.shape ax = some m) ∧
    ∀ m, m ≠ 1 → (get? r.shape ax = some m ↔ get? x.shape ax = some m ∨ get? y.shape ax = some m) := by
  obtain ⟨_, j⟩ := joins_bs (SA.wf_pair hx hy) h.2.1
  have hh : ∀ m, HasSize [x.shape, y.shape] ax m ↔ get? x.shape ax = some m ∨ get? y.shape ax = some m := by
    intro m
    simp [HasSize]
  refine ⟨?_, fun m hm => ((j ax).2 m hm).trans (hh m)⟩
  constructor
  · rintro ⟨m, hm⟩
    obtain ⟨n, hn⟩ := (j ax).1.1 (mem_keys_of_get? hm)
    exact ((hh n).1 hn).imp (fun h => ⟨n, h⟩) fun h => ⟨n, h⟩
  · intro h
    have : ∃ m, HasSize [x.shape, y.shape] ax m := by
      rcases h with ⟨m, h⟩ | ⟨m, h⟩
      · exact ⟨m, (hh m).2 (.inl h)⟩
      · exact ⟨m, (hh m).2 (.inr h)⟩
    exact exists_get?_of_mem ((j ax).1.2 this)

/-- the parts of an operand have its sizes -/
theorem size_parts {cls : String} {names : List String} {p : String → Val ι α} {a : Val ι α}
    (h : Parts cls names p a) (h0 : names ≠ []) (ax : String) (m : Nat) :
    Size a ax m ↔ ∃ c ∈ names, Size (p c) ax m := by
  obtain ⟨c0, hc0⟩ := List.exists_mem_of_ne_nil _ h0
  have plain : (∀ c ∈ names, p c = a) → (Size a ax m ↔ ∃ c ∈ names, Size (p c) ax m) := fun h =>
    ⟨fun hs => ⟨c0, hc0, (h c0 hc0).symm ▸ hs⟩, fun ⟨c, hc, hs⟩ => h c hc ▸ hs⟩
  cases a with
  | num => exact plain h
  | sa => exact plain h
  | ua => exact plain h
  | func => exact h.elim
  | vec cls' cs =>
    obtain ⟨_, hk, hg⟩ := h
    constructor
    · intro hs
      cases hs with
      | part hc hs =>
        have hm := hk ▸ mem_keys_of_get? hc
        have := hg _ hm
        rw [hc] at this
        cases this
        exact ⟨_, hm, hs⟩
    · rintro ⟨c, hc, hs⟩
      exact .part (hg c hc) hs

theorem names_of {L : String → List String} {cls : String} {names : List String} {pa : String → Val ι α}
    {pb : String → Val ι β} {a : Val ι α} {b : Val ι β} (ha : Plain L a) (hb : Plain L b)
    (hx : Parts cls names pa a) (hy : Parts cls names pb b) (hv : a.isVector ∨ b.isVector) :
    names = L cls ∧ names.Nodup ∧ names ≠ [] := by
  rcases hv with hv | hv
  · cases ha with
    | vec h1 h2 h3 h4 => obtain ⟨rfl, rfl, _⟩ := hx; rw [h1]; exact ⟨rfl, h2, h3⟩
    | _ => exact hv.elim
  · cases hb with
    | vec h1 h2 h3 h4 => obtain ⟨rfl, rfl, _⟩ := hy; rw [h1]; exact ⟨rfl, h2, h3⟩
    | _ => exact hv.elim

theorem plain_part {L : String → List String} {cls : String} {names : List String} {p : String → Val ι α}
    {a : Val ι α} (ha : Plain L a) (hx : Parts cls names p a) {c : String} (hm : c ∈ names) :
    Plain L (p c) := by
  cases ha with
  | num x => rw [hx c hm]; exact .num x
  | sa h => rw [hx c hm]; exact .sa h
  | ua h => rw [hx c hm]; exact .ua h
  | vec h1 h2 h3 h4 => exact h4 _ _ (hx.2.2 c hm)

theorem size_combines {C : Coordinates ι} {L : String → List String} {f : α → β → γ} {a : Val ι α}
    {b : Val ι β} {r : Val ι γ} (h : Combines C f a b r) (ax : String) : Plain L a → Plain L b →
    ((∃ m, Size r ax m) ↔ (∃ m, Size a ax m) ∨ ∃ m, Size b ax m) ∧
    ∀ m, m ≠ 1 → (Size r ax m ↔ Size a ax m ∨ Size b ax m) := by
  induction h with
  | number x y =>
    intros
    exact ⟨⟨fun ⟨_, h⟩ => (nomatch h), fun h => h.elim (fun ⟨_, h⟩ => (nomatch h)) fun ⟨_, h⟩ => nomatch h⟩,
      fun m _ => ⟨fun h => (nomatch h), fun h => h.elim (fun h => (nomatch h)) fun h => nomatch h⟩⟩
  | @scalar a b x y r hx hy hn h =>
    intro ha hb
    have := size_elementwise (asScalar_wf ha hx) (asScalar_wf hb hy) h ax
    simp only [size_scalar hx, size_scalar hy, size_scalar (a := Val.sa (ι := ι) r) rfl]
    exact this
  | @uncertain a b x y r hx hy hu hn hd h =>
    intro ha hb
    obtain ⟨x1, x2⟩ := asUncertain_wf ha hx
    obtain ⟨y1, y2⟩ := asUncertain_wf hb hy
    have hr : Plain (ι := ι) L (.ua r) := .ua ⟨hn.1, hd.1, h⟩
    by_cases hax : ax = axisD
    · subst hax
      have e1 := size_elementwise x1 y1 hn axisD
      have hno : ∀ m, get? r.nominal.shape axisD ≠ some m := fun m hm =>
        h (by have := mem_keys_of_get? hm; rwa [SA.keys_shape hn.1] at this)
      have ha' : ∀ m, ¬ Size a axisD m := fun m hm => by
        obtain ⟨n, hn'⟩ := e1.1.2 (.inl ⟨m, size_nominal hx hm⟩)
        exact hno n hn'
      have hb' : ∀ m, ¬ Size b axisD m := fun m hm => by
        obtain ⟨n, hn'⟩ := e1.1.2 (.inr ⟨m, size_nominal hy hm⟩)
        exact hno n hn'
      have hr' : ∀ m, ¬ Size (.ua r : Val ι _) axisD m := fun m hm => hno m (size_nominal (x := .unc r) rfl hm)
      exact ⟨⟨fun ⟨m, hm⟩ => absurd hm (hr' m), fun h => h.elim (fun ⟨m, hm⟩ => absurd hm (ha' m))
        fun ⟨m, hm⟩ => absurd hm (hb' m)⟩, fun m _ => ⟨fun hm => absurd hm (hr' m), fun h =>
        h.elim (fun hm => absurd hm (ha' m)) fun hm => absurd hm (hb' m)⟩⟩
    · have e1 := size_elementwise x1 y1 hn ax
      have e2 := size_elementwise x2 y2 hd ax
      have hr' : ∀ m, Size (.ua r : Val ι _) ax m ↔ get? r.nominal.shape ax = some m ∨
          get? r.distribution.shape ax = some m := fun m => size_uncertain (x := .unc r) hr rfl ax hax m
      have ha' := fun m => size_uncertain ha hx ax hax m
      have hb' := fun m => size_uncertain hb hy ax hax m
      generalize get? r.nominal.shape ax = rn at *
      generalize get? r.distribution.shape ax = rd at *
      generalize get? x.nominal.shape ax = xn at *
      generalize get? x.distribution.shape ax = xd at *
      generalize get? y.nominal.shape ax = yn at *
      generalize get? y.distribution.shape ax = yd at *
      simp only [ha', hb', hr', exists_or]
      refine ⟨?_, fun m hm => ?_⟩
      · rw [e1.1, e2.1]
        exact or_or_or_comm
      · rw [e1.2 m hm, e2.2 m hm]
        exact or_or_or_comm
  | @vector a b cls names pa pb rs hx hy hv hk h ih =>
    intro ha hb
    obtain ⟨n1, n2, n3⟩ := names_of ha hb hx hy hv
    have hwf : WF rs := by rw [WF, hk]; exact n2
    have hr : ∀ m, Size (.vec cls rs) ax m ↔ ∃ c v, get? rs c = some v ∧ Size v ax m := by
      intro m
      exact ⟨fun (.part hc h) => ⟨_, _, hc, h⟩, fun ⟨c, v, hc, h⟩ => .part hc h⟩
    have hmem : ∀ c ∈ names, ∃ v, get? rs c = some v := fun c hc => exists_get?_of_mem (hk ▸ hc)
    have hI := fun c v (hc : get? rs c = some v) =>
      have hm : c ∈ names := hk ▸ mem_keys_of_get? hc
      ih c v hc (plain_part ha hx hm) (plain_part hb hy hm)
    simp only [size_parts hx n3, size_parts hy n3, hr]
    refine ⟨?_, fun m hm => ?_⟩
    · constructor
      · rintro ⟨m, c, v, hc, hs⟩
        have hm : c ∈ names := hk ▸ mem_keys_of_get? hc
        rcases (hI c v hc).1.1 ⟨m, hs⟩ with ⟨n, h⟩ | ⟨n, h⟩
        · exact .inl ⟨n, c, hm, h⟩
        · exact .inr ⟨n, c, hm, h⟩
      · rintro (⟨m, c, hc, hs⟩ | ⟨m, c, hc, hs⟩)
        · obtain ⟨v, hv'⟩ := hmem c hc
          obtain ⟨n, h⟩ := (hI c v hv').1.2 (.inl ⟨m, hs⟩)
          exact ⟨n, c, v, hv', h⟩
        · obtain ⟨v, hv'⟩ := hmem c hc
          obtain ⟨n, h⟩ := (hI c v hv').1.2 (.inr ⟨m, hs⟩)
          exact ⟨n, c, v, hv', h⟩
    · constructor
      · rintro ⟨c, v, hc, hs⟩
        have hm' : c ∈ names := hk ▸ mem_keys_of_get? hc
        rcases ((hI c v hc).2 m hm).1 hs with h | h
        · exact .inl ⟨c, hm', h⟩
        · exact .inr ⟨c, hm', h⟩
      · rintro (⟨c, hc, hs⟩ | ⟨c, hc, hs⟩)
        · obtain ⟨v, hv'⟩ := hmem c hc
          exact ⟨c, v, hv', ((hI c v hv').2 m hm).2 (.inl hs)⟩
        · obtain ⟨v, hv'⟩ := hmem c hc
          exact ⟨c, v, hv', ((hI c v hv').2 m hm).2 (.inr hs)⟩
  | functionLeft => intro ha; cases ha
  | functionRight => intro _ hb; cases hb
  | functions => intro ha; cases ha

/-! ### A scalar and any other operand -/

theorem fits_left {C : Coordinates ι} {f : α → β → γ} {a : Val ι α} {b : Val ι β} {r : Val ι γ}
    (h : Combines C f a b r) (L : String → List String) : Plain L a → Plain L b → ∀ x, a.asScalar = some x →
    ∀ ax m n, Size a ax m → Size b ax n → m = n ∨ m = 1 ∨ n = 1 := by
  induction h with
  | number x y => intro _ _ _ _ ax m n hm; cases hm
  | @scalar a b x y r hx hy hn h =>
    intro ha hb x' hx' ax m n hm hn'
    rw [size_scalar hx] at hm
    rw [size_scalar hy] at hn'
    have e := (size_elementwise (asScalar_wf ha hx) (asScalar_wf hb hy) h ax).2
    by_cases hm1 : m = 1
    · exact .inr (.inl hm1)
    · by_cases hn1 : n = 1
      · exact .inr (.inr hn1)
      · have h1 := (e m hm1).2 (.inl hm)
        have h2 := (e n hn1).2 (.inr hn')
        rw [h1] at h2
        cases h2
        exact .inl rfl
  | @uncertain a b x y r hx hy hu hn hd h =>
    intro ha hb x' hx' ax m n hm hn'
    obtain ⟨x1, x2⟩ := asUncertain_wf ha hx
    obtain ⟨y1, y2⟩ := asUncertain_wf hb hy
    have e1 := (size_elementwise x1 y1 hn ax).2
    have e2 := (size_elementwise x2 y2 hd ax).2
    have hxx : get? x.nominal.shape ax = some m ∧ get? x.distribution.shape ax = some m := by
      cases hm with
      | sa hm => cases hx; exact ⟨hm, hm⟩
      | _ => cases hx'
    have hyy : get? y.nominal.shape ax = some n ∨ get? y.distribution.shape ax = some n := by
      cases hn' with
      | sa hm => cases hy; exact .inl hm
      | nominal hm => cases hy; exact .inl hm
      | sample _ hm => cases hy; exact .inr hm
      | part => cases hy
    by_cases hm1 : m = 1
    · exact .inr (.inl hm1)
    · by_cases hn1 : n = 1
      · exact .inr (.inr hn1)
      · rcases hyy with hyy | hyy
        · have h1 := (e1 m hm1).2 (.inl hxx.1)
          have h2 := (e1 n hn1).2 (.inr hyy)
          rw [h1] at h2
          cases h2
          exact .inl rfl
        · have h1 := (e2 m hm1).2 (.inl hxx.2)
          have h2 := (e2 n hn1).2 (.inr hyy)
          rw [h1] at h2
          cases h2
          exact .inl rfl
  | @vector a b cls names pa pb rs hx hy hv hk h ih =>
    intro ha hb x' hx' ax m n hm hn'
    obtain ⟨n1, n2, n3⟩ := names_of ha hb hx hy hv
    obtain ⟨c, hc, hs⟩ := (size_parts hy n3 ax n).1 hn'
    obtain ⟨v, hv'⟩ := exists_get?_of_mem (hk ▸ hc : c ∈ keys rs)
    have hpc : pa c = a := by
      cases a with
      | num => exact hx c hc
      | sa => exact hx c hc
      | _ => cases hx'
    exact ih c v hv' (plain_part ha hx hc) (plain_part hb hy hc) x' (hpc ▸ hx') ax m n (hpc ▸ hm) hs
  | functionLeft => intro ha; cases ha
  | functionRight => intro _ hb; cases hb
  | functions => intro ha; cases ha

theorem same_pair {s t S T : Shape} (hs : WF s) (ht : WF t) (hS : broadcastShapes [s, t] = .ok S)
    (hT : broadcastShapes [t, s] = .ok T) : Same S T := by
  have hw : ∀ x ∈ [s, t], WF x := by simp [hs, ht]
  have hw' : ∀ x ∈ [t, s], WF x := by simp [hs, ht]
  have hh : ∀ ax m, HasSize [s, t] ax m ↔ HasSize [t, s] ax m := by
    intro ax m; simp [HasSize, or_comm]
  exact joins_same (joins_bs hw hS) (joins_bs hw' hT) (fun ax => exists_congr (hh ax)) fun ax m _ => hh ax m

theorem swap_elementwise {f : α → β → γ} {x : SA α} {y : SA β} {r : SA γ} (hx : x.WF) (hy : y.WF)
    (h : Elementwise f x y r) : ∃ r', Elementwise (fun q p => f p q) y x r' := by
  cases hb : SA.ufunc2 (fun q p => f p q) y x with
  | error e =>
    obtain ⟨_, ax, m, n, h1, h2, h3, h4, h5⟩ := clash_bs (SA.wf_pair hy hx) (SA.ufunc2_error hy hx hb)
    have hc : Clash [x.shape, y.shape] := ⟨ax, m, n, by simpa [HasSize, or_comm] using h1,
      by simpa [HasSize, or_comm] using h2, h3, h4, h5⟩
    obtain ⟨e, he⟩ := (C01_broadcast_shapes_error_iff _ (SA.wf_pair hx hy)).2 hc
    rw [h.2.1] at he
    cases he
  | ok r' =>
    obtain ⟨h1, h2, h3⟩ := SA.ufunc2_ok hy hx hb
    exact ⟨r', ⟨h1, h2, fun e _ => h3 e⟩⟩

theorem alike_elementwise {f : α → β → γ} {x : SA α} {y : SA β} {r r' : SA γ} (hx : x.WF) (hy : y.WF)
    (h : Elementwise f x y r) (h' : Elementwise (fun q p => f p q) y x r') : r.SameByName r' := by
  have hs := same_pair (SA.wf_shape hx) (SA.wf_shape hy) h.2.1 h'.2.1
  refine ⟨hs, fun e he => (h.2.2 e he).trans (h'.2.2 e fun ax n hn => he ax n ?_).symm⟩
  exact (hs ax).trans hn

theorem swap_combines {C : Coordinates ι} {f : α → β → γ} {a : Val ι α} {b : Val ι β} {r : Val ι γ}
    (h : Combines C f a b r) (L : String → List String) : Plain L a → Plain L b →
    ∃ r', Combines C (fun q p => f p q) b a r' := by
  induction h with
  | number x y => intros; exact ⟨_, .number y x⟩
  | @scalar a b x y r hx hy hn h =>
    intro ha hb
    obtain ⟨r', h1⟩ := swap_elementwise (asScalar_wf ha hx) (asScalar_wf hb hy) h
    exact ⟨_, .scalar hy hx (fun h => hn ⟨h.2, h.1⟩) h1⟩
  | @uncertain a b x y r hx hy hu hn hd h =>
    intro ha hb
    obtain ⟨x1, x2⟩ := asUncertain_wf ha hx
    obtain ⟨y1, y2⟩ := asUncertain_wf hb hy
    obtain ⟨n, n1⟩ := swap_elementwise x1 y1 hn
    obtain ⟨d, d1⟩ := swap_elementwise x2 y2 hd
    refine ⟨.ua ⟨n, d⟩, .uncertain hy hx hu.symm n1 d1 ?_⟩
    intro hm
    apply h
    rw [← SA.keys_shape n1.1] at hm
    obtain ⟨m, hm⟩ := exists_get?_of_mem hm
    rw [← (alike_elementwise x1 y1 hn n1).1 axisD] at hm
    have := mem_keys_of_get? hm
    rwa [SA.keys_shape hn.1] at this
  | @vector a b cls names pa pb rs hx hy hv hk h ih =>
    intro ha hb
    have hex : ∀ c, ∃ w, c ∈ names → Combines C (fun q p => f p q) (pb c) (pa c) w := by
      intro c
      by_cases hm : c ∈ names
      · obtain ⟨v, hc⟩ := exists_get?_of_mem (hk ▸ hm : c ∈ keys rs)
        obtain ⟨w, hw⟩ := ih c v hc (plain_part ha hx hm) (plain_part hb hy hm)
        exact ⟨w, fun _ => hw⟩
      · exact ⟨.vec "" [], fun h => absurd h hm⟩
    choose w hw using hex
    refine ⟨.vec cls (names.map fun c => (c, w c)), .vector hy hx hv.symm ?_ ?_⟩
    · simp [keys, Function.comp_def]
    · intro c v hc
      rw [SA.get?_map_list] at hc
      split at hc
      · cases hc; exact hw c ‹_›
      · cases hc
  | functionLeft => intro ha; cases ha
  | functionRight => intro _ hb; cases hb
  | functions => intro ha; cases ha

theorem parts_unique {cls cls' : String} {names names' : List String} {p q : String → Val ι α} {a : Val ι α}
    (h : Parts cls names p a) (h' : Parts cls' names' q a) (c : String) (hc : c ∈ names) (hc' : c ∈ names') :
    p c = q c := by
  cases a with
  | num => exact (h c hc).trans (h' c hc').symm
  | sa => exact (h c hc).trans (h' c hc').symm
  | ua => exact (h c hc).trans (h' c hc').symm
  | func => exact h.elim
  | vec k cs =>
    have h1 := h.2.2 c hc
    rw [h'.2.2 c hc'] at h1
    exact (Option.some.inj h1).symm

theorem parts_names {cls cls' : String} {names names' : List String} {p q : String → Val ι α} {a : Val ι α}
    (h : Parts cls names p a) (h' : Parts cls' names' q a) (hv : a.isVector) : cls = cls' ∧ names = names' := by
  cases a with
  | vec k cs => exact ⟨h.1.symm.trans h'.1, h.2.1.symm.trans h'.2.1⟩
  | _ => exact hv.elim

theorem parts_not {cls : String} {names : List String} {p : String → Val ι α} {a : Val ι α}
    (h : Parts cls names p a) : ¬ a.isFunction := by
  cases a <;> first | exact id | exact fun _ => h

theorem vector_not_scalar {a : Val ι α} (h : a.isVector) : a.asScalar = none ∧ a.asUncertain = none := by
  cases a with
  | vec => exact ⟨rfl, rfl⟩
  | _ => exact h.elim

theorem uncertain_not_scalar {a : Val ι α} (h : a.isUncertain) : a.asScalar = none ∧ ¬ a.isVector := by
  cases a with
  | ua => exact ⟨rfl, id⟩
  | _ => exact h.elim

theorem alike_combines {C : Coordinates ι} {f : α → β → γ} {a : Val ι α} {b : Val ι β} {r : Val ι γ}
    (h : Combines C f a b r) (L : String → List String) : Plain L a → Plain L b →
    ∀ r', Combines C (fun q p => f p q) b a r' → Alike C r r' := by
  induction h with
  | number x y =>
    intro _ _ r' h'
    cases h' with
    | number => exact .num _
    | scalar hx hy hn h => exact absurd ⟨trivial, trivial⟩ hn
    | uncertain hx hy hu => exact (hu.elim id id).elim
    | vector hx hy hv => exact (hv.elim id id).elim
  | @scalar a b x y r hx hy hn h =>
    intro ha hb r' h'
    cases h' with
    | number => exact absurd ⟨trivial, trivial⟩ hn
    | scalar hy' hx' hn h' =>
      rw [hx] at hx'; rw [hy] at hy'
      cases hx'; cases hy'
      exact .sa (alike_elementwise (asScalar_wf ha hx) (asScalar_wf hb hy) h h')
    | uncertain hx' hy' hu =>
      rcases hu with hu | hu
      · rw [(uncertain_not_scalar hu).1] at hy; cases hy
      · rw [(uncertain_not_scalar hu).1] at hx; cases hx
    | vector hx' hy' hv =>
      rcases hv with hu | hu
      · rw [(vector_not_scalar hu).1] at hy; cases hy
      · rw [(vector_not_scalar hu).1] at hx; cases hx
    | functionLeft => cases hb
    | functionRight => cases ha
    | functions => cases ha
  | @uncertain a b x y r hx hy hu hn hd h =>
    intro ha hb r' h'
    cases h' with
    | number => exact (hu.elim id id).elim
    | scalar hy' hx' hn h' =>
      rcases hu with hu | hu
      · rw [(uncertain_not_scalar hu).1] at hx'; cases hx'
      · rw [(uncertain_not_scalar hu).1] at hy'; cases hy'
    | uncertain hy' hx' hu hn' hd' h' =>
      rw [hx] at hx'; rw [hy] at hy'
      cases hx'; cases hy'
      obtain ⟨x1, x2⟩ := asUncertain_wf ha hx
      obtain ⟨y1, y2⟩ := asUncertain_wf hb hy
      exact .ua (alike_elementwise x1 y1 hn hn') (alike_elementwise x2 y2 hd hd')
    | vector hx' hy' hv =>
      rcases hv with hu | hu
      · rw [(vector_not_scalar hu).2] at hy; cases hy
      · rw [(vector_not_scalar hu).2] at hx; cases hx
    | functionLeft => cases hb
    | functionRight => cases ha
    | functions => cases ha
  | @vector a b cls names pa pb rs hx hy hv hk h ih =>
    intro ha hb r' h'
    cases h' with
    | number => exact (hv.elim id id).elim
    | scalar hy' hx' hn h' =>
      rcases hv with hu | hu
      · rw [(vector_not_scalar hu).1] at hx'; cases hx'
      · rw [(vector_not_scalar hu).1] at hy'; cases hy'
    | uncertain hy' hx' =>
      rcases hv with hu | hu
      · rw [(vector_not_scalar hu).2] at hx'; cases hx'
      · rw [(vector_not_scalar hu).2] at hy'; cases hy'
    | @vector _ _ cls' names' qb qa rs' hy' hx' hv' hk' h' =>
      have hname : cls = cls' ∧ names = names' := by
        rcases hv with hv | hv
        · exact parts_names hx hx' hv
        · exact parts_names hy hy' hv
      obtain ⟨rfl, rfl⟩ := hname
      refine .vec (hk.trans hk'.symm) fun c v w hc hc' => ?_
      have hm : c ∈ names := hk ▸ mem_keys_of_get? hc
      refine ih c v hc (plain_part ha hx hm) (plain_part hb hy hm) w ?_
      rw [parts_unique hx hx' c hm hm, parts_unique hy hy' c hm hm]
      exact h' c w hc'
    | functionLeft => cases hb
    | functionRight => cases ha
    | functions => cases ha
  | functionLeft => intro ha; cases ha
  | functionRight => intro _ hb; cases hb
  | functions => intro ha; cases ha

/-! ### The search for a method -/

/-- The only errors of an operation on values whose shapes exist. -/
def Expected (e : Err) : Prop := e = .valueError ∨ e = .typeError

/-- `X` computes something which satisfies `P`, whenever there is something. -/
def Meets {τ : Type} (X : R τ) (P : τ → Prop) : Prop :=
  (∀ r, X = .ok r → P r) ∧ ((∃ r, P r) → ∃ r', X = .ok r') ∧ ∀ e, X = .error e → Expected e

/-- What one method may answer: nothing, an error where there is no result, or the result. -/
def Reply {τ : Type} (t : R (Option τ)) (X : R τ) (P : τ → Prop) : Prop :=
  t = .ok none ∨ (∃ e, t = .error e ∧ Expected e ∧ ∀ r, ¬ P r) ∨
    t = (match X with | .ok r => .ok (some r) | .error e => .error e)

theorem ufunc2Aux_succ (C : Coordinates ι) (rf : Head → Head → Bool) (f : α → β → γ) (n : Nat)
    {a : Val ι α} {b : Val ι β} (h : ¬ (a.isNumber ∧ b.isNumber)) :
    ufunc2Aux C rf f (n + 1) a b = (do
      let first := if rf a.head b.head then b.head else a.head
      let second := if rf a.head b.head then a.head else b.head
      match ← attempt C f (ufunc2Aux C rf f n) first a b with
      | some r => .ok r
      | none =>
        match ← attempt C f (ufunc2Aux C rf f n) second a b with
        | some r => .ok r
        | none => .error .typeError) := by
  cases a <;> cases b <;> first | rfl | exact absurd ⟨trivial, trivial⟩ h

theorem search {C : Coordinates ι} {rf : Head → Head → Bool} {f : α → β → γ} {n : Nat} {a : Val ι α}
    {b : Val ι β} (hnn : ¬ (a.isNumber ∧ b.isNumber)) {X : R (Val ι γ)} {P : Val ι γ → Prop} (hX : Meets X P)
    (ha : Reply (attempt C f (ufunc2Aux C rf f n) a.head a b) X P)
    (hb : Reply (attempt C f (ufunc2Aux C rf f n) b.head a b) X P)
    (hor : attempt C f (ufunc2Aux C rf f n) a.head a b ≠ .ok none ∨
      attempt C f (ufunc2Aux C rf f n) b.head a b ≠ .ok none) :
    Meets (ufunc2Aux C rf f (n + 1) a b) P := by
  rw [ufunc2Aux_succ C rf f n hnn]
  generalize attempt C f (ufunc2Aux C rf f n) = g at *
  have main : ∀ h h' : Head, Reply (g h a b) X P → Reply (g h' a b) X P →
      (g h a b ≠ .ok none ∨ g h' a b ≠ .ok none) →
      Meets (do
        match ← g h a b with
        | some r => .ok r
        | none =>
          match ← g h' a b with
          | some r => .ok r
          | none => .error .typeError) P := by
    have one : ∀ t : R (Option (Val ι γ)), t ≠ .ok none → Reply t X P → ∀ k : R (Val ι γ),
        Meets (do
          match ← t with
          | some r => .ok r
          | none => k) P := by
      intro t ht hr k
      rcases hr with hr | ⟨e, rfl, he, hp⟩ | hr
      · exact absurd hr ht
      · refine ⟨fun r h => (nomatch h), fun ⟨r, h⟩ => absurd h (hp r), fun e' h => ?_⟩
        cases h
        exact he
      · cases hx : X with
        | error e =>
          rw [hx] at hr hX
          subst hr
          refine ⟨fun r h => (nomatch h), fun h => ?_, fun e' h => ?_⟩
          · obtain ⟨r, h⟩ := hX.2.1 h; cases h
          · cases h; exact hX.2.2 e rfl
        | ok r =>
          rw [hx] at hr hX
          subst hr
          exact ⟨fun r' h => by cases h; exact hX.1 r rfl, fun _ => ⟨r, rfl⟩, fun e h => nomatch h⟩
    intro h h' hr hr' hor
    by_cases h0 : g h a b = .ok none
    · rw [h0]
      have := one (g h' a b) (hor.resolve_left (fun k => k h0)) hr' (.error .typeError)
      exact this
    · exact one _ h0 hr _
  cases rf a.head b.head with
  | true => exact main _ _ hb ha hor.symm
  | false => exact main _ _ ha hb hor

theorem unanswered {C : Coordinates ι} {rf : Head → Head → Bool} {f : α → β → γ} {n : Nat} {a : Val ι α}
    {b : Val ι β} (hnn : ¬ (a.isNumber ∧ b.isNumber))
    (ha : attempt C f (ufunc2Aux C rf f n) a.head a b = .ok none)
    (hb : attempt C f (ufunc2Aux C rf f n) b.head a b = .ok none) :
    ufunc2Aux C rf f (n + 1) a b = .error .typeError := by
  rw [ufunc2Aux_succ C rf f n hnn]
  cases hrf : rf a.head b.head <;>
  · simp only [hrf, if_true, if_false, Bool.false_eq_true, ha, hb]
    rfl

/-! ### The methods -/

theorem shape_asScalar (C : Coordinates ι) {a : Val ι α} {x : SA α} (h : a.asScalar = some x) :
    a.shape C = .ok x.shape := by
  cases a with
  | num y => cases h; rfl
  | sa => cases h; rfl
  | _ => cases h

theorem attempt_scalar (C : Coordinates ι) (f : α → β → γ) (op : Val ι α → Val ι β → R (Val ι γ))
    {a : Val ι α} {b : Val ι β} {x : SA α} {y : SA β} (hx : a.asScalar = some x) (hy : b.asScalar = some y) :
    attempt C f op .scalar a b = (do let r ← SA.ufunc2 f x y; .ok (some (.sa r))) := by
  simp only [attempt, shape_asScalar C hx, shape_asScalar C hy, hx, hy, bind, Except.bind]
  cases hb : broadcastShapes [x.shape, y.shape] with
  | ok S => rfl
  | error e =>
    unfold SA.ufunc2
    rw [hb]
    rfl

/-- a scalar which is asked about a vector or an uncertain scalar -/
theorem reply_scalar {C : Coordinates ι} {L : String → List String} (f : α → β → γ)
    (op : Val ι α → Val ι β → R (Val ι γ)) {a : Val ι α} {b : Val ι β} (ha : Plain L a) (hb : Plain L b)
    {S T : Shape} (hS : a.shape C = .ok S) (hT : b.shape C = .ok T)
    (hone : (∃ x, a.asScalar = some x) ∨ ∃ y, b.asScalar = some y)
    (hnot : a.asScalar = none ∨ b.asScalar = none) (X : R (Val ι γ)) :
    Reply (attempt C f op .scalar a b) X (Combines C f a b) := by
  simp only [attempt, hS, hT, bind, Except.bind]
  obtain ⟨wS, jS⟩ := (shape_main C ha).1 S hS
  obtain ⟨wT, jT⟩ := (shape_main C hb).1 T hT
  have hw : ∀ s ∈ [S, T], WF s := by simp [wS, wT]
  cases hbs : broadcastShapes [S, T] with
  | ok U =>
    left
    rcases hnot with h | h
    · simp only [h]
    · cases hax : a.asScalar <;> simp only [h]
  | error e =>
    right; left
    refine ⟨e, rfl, .inl (clash_bs hw hbs).1, fun r hr => ?_⟩
    obtain ⟨_, ax, m, n, ⟨s, hs, hm⟩, ⟨t, ht, hn⟩, h2, h3, h4⟩ := clash_bs hw hbs
    have key : ∀ m n, get? S ax = some m → get? T ax = some n → m ≠ 1 → n ≠ 1 → m = n := by
      intro m n hm hn h1 h2
      have hm' := ((jS ax).2 m h1).1 hm
      have hn' := ((jT ax).2 n h2).1 hn
      rcases hone with ⟨x, hx⟩ | ⟨y, hy⟩
      · rcases fits_left hr L ha hb x hx ax m n hm' hn' with h | h | h
        · exact h
        · exact absurd h h1
        · exact absurd h h2
      · obtain ⟨r', hr'⟩ := swap_combines hr L ha hb
        rcases fits_left hr' L hb ha y hy ax n m hn' hm' with h | h | h
        · exact h.symm
        · exact absurd h h2
        · exact absurd h h1
    simp only [List.mem_cons, List.not_mem_nil, or_false] at hs ht
    rcases hs with rfl | rfl <;> rcases ht with rfl | rfl
    · rw [hm] at hn; cases hn; exact h2 rfl
    · exact h2 (key m n hm hn h3 h4)
    · exact h2 (key n m hn hm h4 h3).symm
    · rw [hm] at hn; cases hn; exact h2 rfl

theorem meets_scalar {C : Coordinates ι} {L : String → List String} {f : α → β → γ} {a : Val ι α}
    {b : Val ι β} (ha : Plain L a) (hb : Plain L b) {x : SA α} {y : SA β} (hx : a.asScalar = some x)
    (hy : b.asScalar = some y) (hn : ¬ (a.isNumber ∧ b.isNumber)) :
    Meets (do let r ← SA.ufunc2 f x y; .ok (.sa r)) (Combines C f a b) := by
  obtain ⟨h1, h2, h3⟩ := elementwise_iff (f := f) (asScalar_wf ha hx) (asScalar_wf hb hy)
  refine ⟨fun r h => ?_, ?_, fun e h => ?_⟩
  · cases hb' : SA.ufunc2 f x y with
    | error e => rw [hb'] at h; cases h
    | ok r' => rw [hb'] at h; cases h; exact .scalar hx hy hn (h1 r' hb')
  · rintro ⟨r, h⟩
    have : ∃ r', Elementwise f x y r' := by
      cases h with
      | number => exact absurd ⟨trivial, trivial⟩ hn
      | scalar hx' hy' _ h =>
        rw [hx] at hx'; rw [hy] at hy'
        cases hx'; cases hy'
        exact ⟨_, h⟩
      | uncertain hx' hy' hu =>
        rcases hu with hu | hu
        · rw [(uncertain_not_scalar hu).1] at hx; cases hx
        · rw [(uncertain_not_scalar hu).1] at hy; cases hy
      | vector hx' hy' hv =>
        rcases hv with hu | hu
        · rw [(vector_not_scalar hu).1] at hx; cases hx
        · rw [(vector_not_scalar hu).1] at hy; cases hy
      | functionLeft => cases ha
      | functionRight => cases hb
      | functions => cases ha
    obtain ⟨r', h'⟩ := this
    obtain ⟨r'', h''⟩ := h2 r' h'
    exact ⟨.sa r'', by rw [h'']; rfl⟩
  · cases hb' : SA.ufunc2 f x y with
    | error e' => rw [hb'] at h; cases h; exact .inl (h3 _ hb').1
    | ok r' => rw [hb'] at h; cases h

theorem meets_uncertain {C : Coordinates ι} {L : String → List String} {f : α → β → γ} {a : Val ι α}
    {b : Val ι β} (ha : Plain L a) (hb : Plain L b) {x : UArg α} {y : UArg β} (hx : a.asUncertain = some x)
    (hy : b.asUncertain = some y) (hu : a.isUncertain ∨ b.isUncertain) :
    Meets (do
      let n ← SA.ufunc2 f x.nominal y.nominal
      let d ← SA.ufunc2 f x.distribution y.distribution
      let r ← UA.mk? n d
      .ok (.ua r)) (Combines C f a b) := by
  obtain ⟨x1, x2⟩ := asUncertain_wf ha hx
  obtain ⟨y1, y2⟩ := asUncertain_wf hb hy
  obtain ⟨n1, n2, n3⟩ := elementwise_iff (f := f) x1 y1
  obtain ⟨d1, d2, d3⟩ := elementwise_iff (f := f) x2 y2
  have hP : ∀ r, Combines C f a b r → ∃ n d, Elementwise f x.nominal y.nominal n ∧
      Elementwise f x.distribution y.distribution d ∧ axisD ∉ n.axes := by
    intro r h
    cases h with
    | number => exact (hu.elim id id).elim
    | scalar hx' hy' _ h =>
      rcases hu with hu | hu
      · rw [(uncertain_not_scalar hu).1] at hx'; cases hx'
      · rw [(uncertain_not_scalar hu).1] at hy'; cases hy'
    | uncertain hx' hy' _ h1 h2 h3 =>
      rw [hx] at hx'; rw [hy] at hy'
      cases hx'; cases hy'
      exact ⟨_, _, h1, h2, h3⟩
    | vector hx' hy' hv =>
      rcases hv with hu | hu
      · rw [(vector_not_scalar hu).2] at hx; cases hx
      · rw [(vector_not_scalar hu).2] at hy; cases hy
    | functionLeft => cases ha
    | functionRight => cases hb
    | functions => cases ha
  cases hn : SA.ufunc2 f x.nominal y.nominal with
  | error e =>
    refine ⟨fun r h => (nomatch h), fun ⟨r, h⟩ => ?_, fun e' h => ?_⟩
    · obtain ⟨n, d, h1, _⟩ := hP r h
      obtain ⟨r', h'⟩ := n2 n h1
      rw [hn] at h'; cases h'
    · cases h; exact .inl (n3 e hn).1
  | ok n =>
    cases hd : SA.ufunc2 f x.distribution y.distribution with
    | error e =>
      refine ⟨fun r h => (nomatch h), fun ⟨r, h⟩ => ?_, fun e' h => ?_⟩
      · obtain ⟨n, d, _, h1, _⟩ := hP r h
        obtain ⟨r', h'⟩ := d2 d h1
        rw [hd] at h'; cases h'
      · cases h; exact .inl (d3 e hd).1
    | ok d =>
      have en := n1 n hn
      by_cases hD : axisD ∈ n.axes
      · have hmk : UA.mk? n d = .error .valueError := by
          unfold UA.mk?; rw [SA.keys_shape en.1, if_pos hD]
        refine ⟨fun r h => ?_, fun ⟨r, h⟩ => ?_, fun e' h => ?_⟩
        · have h' : (do let r ← UA.mk? n d; .ok (.ua r) : R (Val ι γ)) = .ok r := h
          rw [hmk] at h'; cases h'
        · obtain ⟨n', d', h1, h2, h3⟩ := hP r h
          refine absurd ?_ h3
          rw [← SA.keys_shape h1.1]
          rw [← SA.keys_shape en.1] at hD
          have he := en.2.1
          rw [h1.2.1] at he
          injection he with he
          rw [he]; exact hD
        · have h' : (do let r ← UA.mk? n d; .ok (.ua r) : R (Val ι γ)) = .error e' := h
          rw [hmk] at h'; cases h'; exact .inl rfl
      · have hmk : UA.mk? n d = .ok ⟨n, d⟩ := UA.mk?_of_valid en.1 hD
        have hres : (do let r ← UA.mk? n d; .ok (.ua r) : R (Val ι γ)) = .ok (.ua ⟨n, d⟩) := by
          rw [hmk]; rfl
        refine ⟨fun r h => ?_, fun _ => ⟨_, hres⟩, fun e' h => ?_⟩
        · have h' : (do let r ← UA.mk? n d; .ok (.ua r) : R (Val ι γ)) = .ok r := h
          rw [hres] at h'; cases h'
          exact .uncertain hx hy hu en (d1 d hd) hD
        · have h' : (do let r ← UA.mk? n d; .ok (.ua r) : R (Val ι γ)) = .error e' := h
          rw [hres] at h'; cases h'

theorem meets_parts {op : Val ι α → Val ι β → R (Val ι γ)} {pa' : String → R (Val ι α)}
    {pb' : String → R (Val ι β)} {pa : String → Val ι α} {pb : String → Val ι β}
    {P : String → Val ι γ → Prop} (names : List String) (hnd : names.Nodup)
    (ha : ∀ c ∈ names, pa' c = .ok (pa c)) (hb : ∀ c ∈ names, pb' c = .ok (pb c))
    (hop : ∀ c ∈ names, Meets (op (pa c) (pb c)) (P c)) :
    Meets (combineParts op pa' pb' names) (fun rs => keys rs = names ∧ ∀ c v, get? rs c = some v → P c v) := by
  induction names with
  | nil =>
    refine ⟨fun r h => ?_, fun _ => ⟨[], rfl⟩, fun e h => nomatch h⟩
    cases h
    exact ⟨rfl, fun c v h => nomatch h⟩
  | cons c names ih =>
    obtain ⟨hc, hnd'⟩ := List.nodup_cons.1 hnd
    have ih := ih hnd' (fun c hc => ha c (by simp [hc])) (fun c hc => hb c (by simp [hc]))
      fun c hc => hop c (by simp [hc])
    have ho := hop c (by simp)
    have hstep : combineParts op pa' pb' (c :: names) = (do
        let r ← op (pa c) (pb c)
        let rs ← combineParts op pa' pb' names
        .ok ((c, r) :: rs)) := by
      simp only [combineParts, ha c (by simp), hb c (by simp), bind, Except.bind]
    rw [hstep]
    have hsplit : ∀ rs, keys rs = c :: names → (∀ c v, get? rs c = some v → P c v) →
        (∃ r, P c r) ∧ ∃ rs', keys rs' = names ∧ ∀ c v, get? rs' c = some v → P c v := by
      intro rs hk hr
      cases rs with
      | nil => cases hk
      | cons p rs =>
        obtain ⟨k, v⟩ := p
        simp only [keys, List.map_cons, List.cons.injEq] at hk
        obtain ⟨rfl, hk⟩ := hk
        refine ⟨⟨v, hr k v (by rw [get?_cons]; simp)⟩, rs, hk, fun c' v' h' => hr c' v' ?_⟩
        have hne : k ≠ c' := fun h => hc (h ▸ hk ▸ mem_keys_of_get? h')
        rw [get?_cons]
        simpa [hne] using h'
    cases h1 : op (pa c) (pb c) with
    | error e =>
      refine ⟨fun r h => (nomatch h), fun ⟨rs, hk, hr⟩ => ?_, fun e' h => ?_⟩
      · obtain ⟨r, h⟩ := ho.2.1 (hsplit rs hk hr).1
        rw [h1] at h; cases h
      · cases h; exact ho.2.2 e h1
    | ok r =>
      cases h2 : combineParts op pa' pb' names with
      | error e =>
        refine ⟨fun r h => (nomatch h), fun ⟨rs, hk, hr⟩ => ?_, fun e' h => ?_⟩
        · obtain ⟨r, h⟩ := ih.2.1 (hsplit rs hk hr).2
          rw [h2] at h; cases h
        · cases h; exact ih.2.2 e h2
      | ok rs =>
        obtain ⟨k1, k2⟩ := ih.1 rs h2
        refine ⟨fun r' h => ?_, fun _ => ⟨_, rfl⟩, fun e h => nomatch h⟩
        cases h
        refine ⟨by simp [keys] at k1 ⊢; exact k1, fun c' v' h' => ?_⟩
        rw [get?_cons] at h'
        by_cases hcc : c = c'
        · subst hcc
          simp at h'
          subst h'
          exact ho.1 _ h1
        · exact k2 c' v' (by simpa [hcc] using h')

theorem parts_exist {L : String → List String} {a : Val ι α} (ha : Plain L a) {cls : String}
    {pa' : String → R (Val ι α)} (h : a.componentsFor cls = some pa') :
    ∃ pa, Parts cls (L cls) pa a ∧ ∀ c ∈ L cls, pa' c = .ok (pa c) := by
  cases ha with
  | num x => cases h; exact ⟨fun _ => .num x, fun c _ => rfl, fun c _ => rfl⟩
  | sa => cases h; exact ⟨fun _ => _, fun c _ => rfl, fun c _ => rfl⟩
  | ua => cases h; exact ⟨fun _ => _, fun c _ => rfl, fun c _ => rfl⟩
  | @vec cls' cs hn hd h0 hall =>
    simp only [componentsFor] at h
    split at h
    · rename_i hc
      subst hc
      cases h
      have hex : ∀ c, ∃ v, c ∈ L cls' → get? cs c = some v := by
        intro c
        by_cases hm : c ∈ L cls'
        · obtain ⟨v, hv⟩ := exists_get?_of_mem (hn ▸ hm : c ∈ keys cs)
          exact ⟨v, fun _ => hv⟩
        · exact ⟨.vec "" [], fun h => absurd h hm⟩
      choose p hp using hex
      exact ⟨p, ⟨rfl, hn, hp⟩, fun c hc => by simp only [hp c hc]⟩
    · cases h

theorem depths_get {cs : List (String × Val ι α)} {c : String} {v : Val ι α} (h : get? cs c = some v) :
    v.depth ≤ depths cs := by
  induction cs with
  | nil => cases h
  | cons p cs ih =>
    obtain ⟨k, w⟩ := p
    rw [get?_cons] at h
    simp only [depths]
    by_cases hk : k = c
    · simp [hk] at h; subst h; omega
    · have := ih (by simpa [hk] using h); omega

theorem depth_part {cls : String} {names : List String} {p : String → Val ι α} {a : Val ι α}
    (h : Parts cls names p a) {c : String} (hc : c ∈ names) :
    (p c).depth ≤ a.depth ∧ (a.isVector → (p c).depth < a.depth) := by
  cases a with
  | num => rw [h c hc]; exact ⟨le_rfl, fun h => h.elim⟩
  | sa => rw [h c hc]; exact ⟨le_rfl, fun h => h.elim⟩
  | ua => rw [h c hc]; exact ⟨le_rfl, fun h => h.elim⟩
  | func => exact h.elim
  | vec cls' cs =>
    have := depths_get (h.2.2 c hc)
    simp only [depth]
    exact ⟨by omega, fun _ => by omega⟩

theorem shape_part {C : Coordinates ι} {cls : String} {names : List String} {p : String → Val ι α}
    {a : Val ι α} (h : Parts cls names p a) {S : Shape} (hS : a.shape C = .ok S) {c : String}
    (hc : c ∈ names) : ∃ s, (p c).shape C = .ok s := by
  cases a with
  | num => rw [h c hc]; exact ⟨S, hS⟩
  | sa => rw [h c hc]; exact ⟨S, hS⟩
  | ua => rw [h c hc]; exact ⟨S, hS⟩
  | func => exact h.elim
  | vec cls' cs =>
    cases hs : shapes C cs with
    | error e => simp only [shape, hs, bind, Except.bind] at hS; cases hS
    | ok ss =>
      obtain ⟨s, _, he⟩ := forall₂_left ((shapes_iff C cs).1 ss hs) (mem_of_get? (h.2.2 c hc))
      exact ⟨s, he⟩

theorem meets_vector {C : Coordinates ι} {L : String → List String} {f : α → β → γ}
    {op : Val ι α → Val ι β → R (Val ι γ)} {a : Val ι α} {b : Val ι β} (ha : Plain L a) (hb : Plain L b)
    {cls : String} {pa' : String → R (Val ι α)} {pb' : String → R (Val ι β)}
    (hpa : a.componentsFor cls = some pa') (hpb : b.componentsFor cls = some pb')
    (hv : a.isVector ∨ b.isVector)
    (hop : ∀ pa pb, Parts cls (L cls) pa a → Parts cls (L cls) pb b → ∀ c ∈ L cls,
      Meets (op (pa c) (pb c)) (Combines C f (pa c) (pb c))) :
    Meets (do let rs ← combineParts op pa' pb' (L cls); .ok (.vec cls rs)) (Combines C f a b) := by
  obtain ⟨pa, hx, hpa⟩ := parts_exist ha hpa
  obtain ⟨pb, hy, hpb⟩ := parts_exist hb hpb
  obtain ⟨_, n2, n3⟩ := names_of ha hb hx hy hv
  obtain ⟨h1, h2, h3⟩ := meets_parts (L cls) n2 hpa hpb (hop pa pb hx hy)
  refine ⟨fun r h => ?_, fun ⟨r, h⟩ => ?_, fun e h => ?_⟩
  · cases hc : combineParts op pa' pb' (L cls) with
    | error e => rw [hc] at h; cases h
    | ok rs =>
      rw [hc] at h
      cases h
      obtain ⟨k1, k2⟩ := h1 rs hc
      exact .vector hx hy hv k1 k2
  · have : ∃ rs, keys rs = L cls ∧ ∀ c v, get? rs c = some v → Combines C f (pa c) (pb c) v := by
      cases h with
      | number => exact (hv.elim id id).elim
      | scalar hx' hy' =>
        rcases hv with hu | hu
        · rw [(vector_not_scalar hu).1] at hx'; cases hx'
        · rw [(vector_not_scalar hu).1] at hy'; cases hy'
      | uncertain hx' hy' =>
        rcases hv with hu | hu
        · rw [(vector_not_scalar hu).2] at hx'; cases hx'
        · rw [(vector_not_scalar hu).2] at hy'; cases hy'
      | @vector _ _ cls' names' qa qb rs' hx' hy' hv' hk' h' =>
        have hname : cls = cls' ∧ L cls = names' := by
          rcases hv with hv | hv
          · exact parts_names hx hx' hv
          · exact parts_names hy hy' hv
        refine ⟨rs', hk'.trans hname.2.symm, fun c v hc => ?_⟩
        have hm' : c ∈ names' := hk' ▸ mem_keys_of_get? hc
        have hm : c ∈ L cls := hname.2 ▸ hm'
        rw [parts_unique hx hx' c hm hm', parts_unique hy hy' c hm hm']
        exact h' c v hc
      | functionLeft => cases ha
      | functionRight => cases hb
      | functions => cases ha
    obtain ⟨rs, hrs⟩ := h2 this
    exact ⟨.vec cls rs, by rw [hrs]; rfl⟩
  · cases hc : combineParts op pa' pb' (L cls) with
    | error e' => rw [hc] at h; cases h; exact h3 _ hc
    | ok rs => rw [hc] at h; cases h

theorem reply_of_eq {τ : Type} {t : R (Option τ)} {X : R τ} {P : τ → Prop}
    (h : t = (do let r ← X; .ok (some r))) : Reply t X P ∧ t ≠ .ok none := by
  subst h
  cases X with
  | error e => exact ⟨.inr (.inr rfl), fun h => nomatch h⟩
  | ok r => exact ⟨.inr (.inr rfl), fun h => nomatch h⟩

theorem bind_assoc_ok {σ τ : Type} (X : R σ) (g : σ → τ) :
    (do let r ← X; .ok (some (g r)) : R (Option τ)) = (do let r ← (do let r ← X; .ok (g r) : R τ); .ok (some r)) := by
  cases X <;> rfl

/-- the method of a vector for operands both of which it accepts -/
theorem attempt_vector (C : Coordinates ι) (f : α → β → γ) (op : Val ι α → Val ι β → R (Val ι γ))
    {a : Val ι α} {b : Val ι β} {cls : String} {names : List String} {pa' : String → R (Val ι α)}
    {pb' : String → R (Val ι β)} (hpa : a.componentsFor cls = some pa') (hpb : b.componentsFor cls = some pb') :
    attempt C f op (.vector cls names) a b =
      (do let r ← (do let rs ← combineParts op pa' pb' names; .ok (.vec cls rs) : R (Val ι γ)); .ok (some r)) := by
  simp only [attempt, hpa, hpb]
  exact bind_assoc_ok _ _

theorem attempt_uncertain (C : Coordinates ι) (f : α → β → γ) (op : Val ι α → Val ι β → R (Val ι γ))
    {a : Val ι α} {b : Val ι β} {x : UArg α} {y : UArg β} (hx : a.asUncertain = some x)
    (hy : b.asUncertain = some y) :
    attempt C f op .uncertain a b = (do
      let r ← (do
        let n ← SA.ufunc2 f x.nominal y.nominal
        let d ← SA.ufunc2 f x.distribution y.distribution
        let r ← UA.mk? n d
        .ok (.ua r) : R (Val ι γ))
      .ok (some r)) := by
  simp only [attempt, hx, hy]
  cases SA.ufunc2 f x.nominal y.nominal with
  | error e => rfl
  | ok n =>
    cases SA.ufunc2 f x.distribution y.distribution with
    | error e => rfl
    | ok d =>
      show (do let r ← UA.mk? n d; .ok (some (.ua r)) : R (Option (Val ι γ))) =
        (do let r ← (do let r ← UA.mk? n d; .ok (.ua r) : R (Val ι γ)); .ok (some r))
      exact bind_assoc_ok _ _

theorem reply_none {τ : Type} {t : R (Option τ)} (X : R τ) (P : τ → Prop) (h : t = .ok none) :
    Reply t X P := .inl h

theorem main (C : Coordinates ι) (rf : Head → Head → Bool) (L : String → List String) (f : α → β → γ) :
    ∀ (n : Nat) (a : Val ι α) (b : Val ι β), Plain L a → Plain L b → a.depth + b.depth < n →
      (∃ S, a.shape C = .ok S) → (∃ T, b.shape C = .ok T) →
      Meets (ufunc2Aux C rf f n a b) (Combines C f a b) := by
  intro n
  induction n with
  | zero => intro a b _ _ h; omega
  | succ n ih =>
    intro a b ha hb hdep hS hT
    obtain ⟨S, hS⟩ := hS
    obtain ⟨T, hT⟩ := hT
    by_cases hnn : a.isNumber ∧ b.isNumber
    · cases ha with
      | num x =>
        cases hb with
        | num y =>
          refine ⟨fun r h => ?_, fun _ => ⟨_, rfl⟩, fun e h => nomatch h⟩
          cases h
          exact .number x y
        | _ => exact hnn.2.elim
      | _ => exact hnn.1.elim
    -- the method of a vector
    have vector : ∀ cls pa' pb', a.componentsFor cls = some pa' → b.componentsFor cls = some pb' →
        (a.isVector ∨ b.isVector) →
        Meets (do let rs ← combineParts (ufunc2Aux C rf f n) pa' pb' (L cls); .ok (.vec cls rs))
          (Combines C f a b) := by
      intro cls pa' pb' hpa hpb hv
      refine meets_vector ha hb hpa hpb hv fun pa pb hx hy c hc => ?_
      refine ih _ _ (plain_part ha hx hc) (plain_part hb hy hc) ?_ (shape_part hx hS hc) (shape_part hy hT hc)
      have d1 := depth_part hx hc
      have d2 := depth_part hy hc
      rcases hv with hv | hv
      · have := d1.2 hv; have := d2.1; omega
      · have := d2.2 hv; have := d1.1; omega
    have vecReply : ∀ cls pa' pb', a.componentsFor cls = some pa' → b.componentsFor cls = some pb' → _ :=
      fun cls pa' pb' hpa hpb => reply_of_eq (P := Combines C f a b)
        (attempt_vector C f (ufunc2Aux C rf f n) (names := L cls) hpa hpb)
    have scal : ∀ x y, a.asScalar = some x → b.asScalar = some y → _ := fun x y hx hy =>
      reply_of_eq (P := Combines C f a b)
        ((attempt_scalar C f (ufunc2Aux C rf f n) hx hy).trans (bind_assoc_ok _ _))
    have unc : ∀ x y, a.asUncertain = some x → b.asUncertain = some y → _ := fun x y hx hy =>
      reply_of_eq (P := Combines C f a b) (attempt_uncertain C f (ufunc2Aux C rf f n) hx hy)
    have ask := fun hone hnot X => reply_scalar f (ufunc2Aux C rf f n) ha hb hS hT hone hnot X
    have ha' := ha
    have hb' := hb
    cases ha' with
    | num x =>
      cases hb' with
      | num y => exact absurd ⟨trivial, trivial⟩ hnn
      | @sa y hy =>
        obtain ⟨r1, r2⟩ := scal _ _ rfl rfl
        exact search hnn (meets_scalar ha hb rfl rfl hnn) (.inl rfl) r1 (.inr r2)
      | @ua v hv =>
        obtain ⟨r1, r2⟩ := unc _ _ rfl rfl
        exact search hnn (meets_uncertain ha hb rfl rfl (.inr trivial)) (.inl rfl) r1 (.inr r2)
      | @vec cls cs hn hd h0 hall =>
        have hpb : componentsFor cls (.vec cls cs) = _ := if_pos rfl
        obtain ⟨r1, r2⟩ := vecReply cls _ _ rfl hpb
        rw [← hn] at r1 r2
        have hm := vector cls _ _ rfl hpb (.inr trivial)
        rw [← hn] at hm
        exact search hnn hm (.inl rfl) r1 (.inr r2)
    | @sa x hx =>
      cases hb' with
      | num y =>
        obtain ⟨r1, r2⟩ := scal _ _ rfl rfl
        exact search hnn (meets_scalar ha hb rfl rfl hnn) r1 (.inl rfl) (.inl r2)
      | @sa y hy =>
        obtain ⟨r1, r2⟩ := scal _ _ rfl rfl
        exact search hnn (meets_scalar ha hb rfl rfl hnn) r1 r1 (.inl r2)
      | @ua v hv =>
        obtain ⟨r1, r2⟩ := unc _ _ rfl rfl
        exact search hnn (meets_uncertain ha hb rfl rfl (.inr trivial)) (ask (.inl ⟨_, rfl⟩) (.inr rfl) _) r1
          (.inr r2)
      | @vec cls cs hn hd h0 hall =>
        have hpb : componentsFor cls (.vec cls cs) = _ := if_pos rfl
        obtain ⟨r1, r2⟩ := vecReply cls _ _ rfl hpb
        rw [← hn] at r1 r2
        have hm := vector cls _ _ rfl hpb (.inr trivial)
        rw [← hn] at hm
        exact search hnn hm (ask (.inl ⟨_, rfl⟩) (.inr rfl) _) r1 (.inr r2)
    | @ua u hu =>
      cases hb' with
      | num y =>
        obtain ⟨r1, r2⟩ := unc _ _ rfl rfl
        exact search hnn (meets_uncertain ha hb rfl rfl (.inl trivial)) r1 (.inl rfl) (.inl r2)
      | @sa y hy =>
        obtain ⟨r1, r2⟩ := unc _ _ rfl rfl
        exact search hnn (meets_uncertain ha hb rfl rfl (.inl trivial)) r1 (ask (.inr ⟨_, rfl⟩) (.inl rfl) _)
          (.inl r2)
      | @ua v hv =>
        obtain ⟨r1, r2⟩ := unc _ _ rfl rfl
        exact search hnn (meets_uncertain ha hb rfl rfl (.inl trivial)) r1 r1 (.inl r2)
      | @vec cls cs hn hd h0 hall =>
        have hpb : componentsFor cls (.vec cls cs) = _ := if_pos rfl
        obtain ⟨r1, r2⟩ := vecReply cls _ _ rfl hpb
        rw [← hn] at r1 r2
        have hm := vector cls _ _ rfl hpb (.inr trivial)
        rw [← hn] at hm
        exact search hnn hm (.inl rfl) r1 (.inr r2)
    | @vec cls cs hn hd h0 hall =>
      have hpa : componentsFor cls (.vec cls cs) = _ := if_pos rfl
      cases hb' with
      | num y =>
        obtain ⟨r1, r2⟩ := vecReply cls _ _ hpa rfl
        rw [← hn] at r1 r2
        have hm := vector cls _ _ hpa rfl (.inl trivial)
        rw [← hn] at hm
        exact search hnn hm r1 (.inl rfl) (.inl r2)
      | @sa y hy =>
        obtain ⟨r1, r2⟩ := vecReply cls _ _ hpa rfl
        rw [← hn] at r1 r2
        have hm := vector cls _ _ hpa rfl (.inl trivial)
        rw [← hn] at hm
        exact search hnn hm r1 (ask (.inr ⟨_, rfl⟩) (.inl rfl) _) (.inl r2)
      | @ua v hv =>
        obtain ⟨r1, r2⟩ := vecReply cls _ _ hpa rfl
        rw [← hn] at r1 r2
        have hm := vector cls _ _ hpa rfl (.inl trivial)
        rw [← hn] at hm
        exact search hnn hm r1 (.inl rfl) (.inl r2)
      | @vec cls' cs' hn' hd' h0' hall' =>
        by_cases hc : cls = cls'
        · subst hc
          have hpb : componentsFor cls (.vec cls cs') = _ := if_pos rfl
          obtain ⟨r1, r2⟩ := vecReply cls _ _ hpa hpb
          have hm := vector cls _ _ hpa hpb (.inl trivial)
          have hkk : keys cs' = keys cs := hn'.trans hn.symm
          rw [← hn] at r1 r2 hm
          refine search hnn hm r1 ?_ (.inl r2)
          show Reply (attempt C f (ufunc2Aux C rf f n) (.vector cls (keys cs')) _ _) _ _
          rw [hkk]
          exact r1
        · have hno : componentsFor cls (.vec cls' cs') = none := if_neg (Ne.symm hc)
          have hno' : componentsFor cls' (.vec cls cs) = none := if_neg hc
          have hcomb : ∀ r, ¬ Combines C f (.vec cls cs) (.vec cls' cs') r := by
            intro r h
            cases h with
            | scalar h => cases h
            | uncertain h => cases h
            | vector h1 h2 => exact hc (h1.1.trans h2.1.symm)
          rw [unanswered hnn (by simp only [head, attempt, hno]; cases componentsFor cls _ <;> rfl)
            (by simp only [head, attempt, hno'])]
          exact ⟨fun r h => (nomatch h), fun ⟨r, h⟩ => absurd h (hcomb r), fun e h => by cases h; exact .inr rfl⟩

/-- the method of a function for a function on the left -/
theorem attempt_left (C : Coordinates ι) (f : α → β → γ) (op : Val ι α → Val ι β → R (Val ι γ)) (i : ι)
    (o : Val ι α) {b : Val ι β} (hb : ¬ b.isFunction) :
    attempt C f op .function (.func i o) b =
      (do let r ← (do let r ← op o b; .ok (.func i r) : R (Val ι γ)); .ok (some r)) := by
  cases b with
  | func => exact absurd trivial hb
  | _ => exact bind_assoc_ok _ _

theorem attempt_right (C : Coordinates ι) (f : α → β → γ) (op : Val ι α → Val ι β → R (Val ι γ)) (j : ι)
    (o : Val ι β) {a : Val ι α} (ha : ¬ a.isFunction) :
    attempt C f op .function a (.func j o) =
      (do let r ← (do let r ← op a o; .ok (.func j r) : R (Val ι γ)); .ok (some r)) := by
  cases a with
  | func => exact absurd trivial ha
  | _ => exact bind_assoc_ok _ _

theorem meets_map {σ τ : Type} {X : R σ} {P : σ → Prop} {Q : τ → Prop} (g : σ → τ) (h : Meets X P)
    (h1 : ∀ r, P r → Q (g r)) (h2 : ∀ r, Q r → ∃ r', P r') : Meets (do let r ← X; .ok (g r)) Q := by
  cases hX : X with
  | error e =>
    rw [hX] at h
    refine ⟨fun r h => (nomatch h), fun ⟨r, hr⟩ => ?_, fun e' h' => by cases h'; exact h.2.2 e rfl⟩
    obtain ⟨r', h'⟩ := h.2.1 (h2 r hr)
    cases h'
  | ok x =>
    rw [hX] at h
    exact ⟨fun r h' => by cases h'; exact h1 x (h.1 x rfl), fun _ => ⟨_, rfl⟩, fun e h => nomatch h⟩

theorem plain_not_function {L : String → List String} {a : Val ι α} (ha : Plain L a) : ¬ a.isFunction := by
  cases ha <;> exact id

end Val
end NA
