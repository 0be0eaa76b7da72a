import Verif.Uncertain.Roots
import Verif.Props.Secant
import Verif.Props.UncertainReduce
import Verif.Props.UncertainStructure

/-!
# Roots of functions of uncertain scalars: helper lemmas
-/

namespace NA
open Dict
open SA (FitsIn InRange)

/-- The two components of an uncertain scalar. -/
inductive Side where
  | nominal
  | samples
deriving DecidableEq

namespace UA
variable {α β γ : Type}

/-- A component of an uncertain scalar. -/
def side (u : UA α) : Side → SA α
  | .nominal => u.nominal
  | .samples => u.distribution

/-- The components broadcast to the shapes `T`. -/
def FitsU (T : Side → Shape) (u : UA α) : Prop := ∀ p, Fits (T p) (u.side p)

/-- The components have the shapes `T`. -/
def FullU (T : Side → Shape) (u : UA α) : Prop := ∀ p, Full (T p) (u.side p)

theorem FullU.fits {T : Side → Shape} {u : UA α} (h : FullU T u) : FitsU T u := fun p => (h p).fits

theorem Valid.side {u : UA α} (h : u.Valid) (p : Side) : (u.side p).WF := by
  cases p
  · exact h.1
  · exact h.2.1

theorem valid_of_fits {T : Side → Shape} {u : UA α} (hD : axisD ∉ keys (T .nominal)) (h : FitsU T u) : u.Valid := by
  refine ⟨(h .nominal).1, (h .samples).1, fun hx => hD ?_⟩
  have hw : u.nominal.WF := (h .nominal).1
  have h2 : axisD ∈ keys u.nominal.shape := by rw [SA.keys_shape hw]; exact hx
  obtain ⟨n, hn⟩ := exists_get?_of_mem h2
  obtain ⟨m, hm, _⟩ := (h .nominal).2 axisD n hn
  exact mem_keys_of_get? hm

theorem mk?_side {T : Side → Shape} (hD : axisD ∉ keys (T .nominal)) {n d : SA α} (hn : Fits (T .nominal) n)
    (hd : Fits (T .samples) d) : mk? n d = .ok ⟨n, d⟩ := by
  have : FitsU T (⟨n, d⟩ : UA α) := fun p => by cases p; exacts [hn, hd]
  have := valid_of_fits hD this
  exact mk?_of_valid this.1 this.2.2

theorem op1_full {T : Side → Shape} (hD : axisD ∉ keys (T .nominal)) (f : α → β) {u : UA α} (h : FullU T u) :
    ∃ r, op1 f u = .ok r ∧ FullU T r ∧ ∀ p e, (r.side p).atB e = f ((u.side p).atB e) := by
  obtain ⟨n, n1, n2, n3⟩ := ufunc1_full f (h .nominal)
  obtain ⟨d, d1, d2, d3⟩ := ufunc1_full f (h .samples)
  refine ⟨⟨n, d⟩, ?_, fun p => by cases p; exacts [n2, d2], fun p => by cases p; exacts [n3, d3]⟩
  have n1' : SA.ufunc1 f u.nominal = .ok n := n1
  have d1' : SA.ufunc1 f u.distribution = .ok d := d1
  simp only [op1, bind, Except.bind, n1', d1']
  exact mk?_side hD n2.fits d2.fits

theorem op2_fits {T : Side → Shape} (hD : axisD ∉ keys (T .nominal)) (f : α → β → γ) {u : UA α} {v : UA β}
    (hu : FitsU T u) (hv : FitsU T v) :
    ∃ r, op2 f u v = .ok r ∧ FitsU T r ∧ ∀ p e, (r.side p).atB e = f ((u.side p).atB e) ((v.side p).atB e) := by
  obtain ⟨n, n1, n2, n3⟩ := ufunc2_fits' f (hu .nominal) (hv .nominal)
  obtain ⟨d, d1, d2, d3⟩ := ufunc2_fits' f (hu .samples) (hv .samples)
  refine ⟨⟨n, d⟩, ?_, fun p => by cases p; exacts [n2, d2], fun p => by cases p; exacts [n3, d3]⟩
  have n1' : SA.ufunc2 f u.nominal v.nominal = .ok n := n1
  have d1' : SA.ufunc2 f u.distribution v.distribution = .ok d := d1
  simp only [op2, bind, Except.bind, n1', d1']
  exact mk?_side hD n2 d2

theorem op1_fits {T : Side → Shape} (hD : axisD ∉ keys (T .nominal)) (f : α → β) {u : UA α} (h : FitsU T u) :
    ∃ r, op1 f u = .ok r ∧ FitsU T r ∧ ∀ p e, (r.side p).atB e = f ((u.side p).atB e) := by
  obtain ⟨n, n1, n2, _, n3⟩ := ufunc1_fits' f (h .nominal)
  obtain ⟨d, d1, d2, _, d3⟩ := ufunc1_fits' f (h .samples)
  refine ⟨⟨n, d⟩, ?_, fun p => by cases p; exacts [n2, d2], fun p => by cases p; exacts [n3, d3]⟩
  have n1' : SA.ufunc1 f u.nominal = .ok n := n1
  have d1' : SA.ufunc1 f u.distribution = .ok d := d1
  simp only [op1, bind, Except.bind, n1', d1']
  exact mk?_side hD n2 d2

theorem op2_full {T : Side → Shape} (hD : axisD ∉ keys (T .nominal)) (f : α → β → γ) {u : UA α} {v : UA β}
    (hu : FullU T u) (hv : FitsU T v) :
    ∃ r, op2 f u v = .ok r ∧ FullU T r ∧ ∀ p e, (r.side p).atB e = f ((u.side p).atB e) ((v.side p).atB e) := by
  obtain ⟨n, n1, n2, n3⟩ := ufunc2_full f (hu .nominal) (hv .nominal)
  obtain ⟨d, d1, d2, d3⟩ := ufunc2_full f (hu .samples) (hv .samples)
  refine ⟨⟨n, d⟩, ?_, fun p => by cases p; exacts [n2, d2], fun p => by cases p; exacts [n3, d3]⟩
  have n1' : SA.ufunc2 f u.nominal v.nominal = .ok n := n1
  have d1' : SA.ufunc2 f u.distribution v.distribution = .ok d := d1
  simp only [op2, bind, Except.bind, n1', d1']
  exact mk?_side hD n2.fits d2.fits

theorem op2_full' {T : Side → Shape} (hD : axisD ∉ keys (T .nominal)) (f : α → β → γ) {u : UA α} {v : UA β}
    (hu : FitsU T u) (hv : FullU T v) :
    ∃ r, op2 f u v = .ok r ∧ FullU T r ∧ ∀ p e, (r.side p).atB e = f ((u.side p).atB e) ((v.side p).atB e) := by
  obtain ⟨n, n1, n2, n3⟩ := ufunc2_full' f (hu .nominal) (hv .nominal)
  obtain ⟨d, d1, d2, d3⟩ := ufunc2_full' f (hu .samples) (hv .samples)
  refine ⟨⟨n, d⟩, ?_, fun p => by cases p; exacts [n2, d2], fun p => by cases p; exacts [n3, d3]⟩
  have n1' : SA.ufunc2 f u.nominal v.nominal = .ok n := n1
  have d1' : SA.ufunc2 f u.distribution v.distribution = .ok d := d1
  simp only [op2, bind, Except.bind, n1', d1']
  exact mk?_side hD n2.fits d2.fits

theorem number_fits (T : Side → Shape) (x : α) : FitsU T (number x) := fun p => by
  cases p <;> exact fits_scalar _ x

theorem number_at (x : α) (p : Side) (e : String → Nat) : ((number x).side p).atB e = x := by cases p <;> rfl

/-- What a successful elementwise function of two uncertain scalars returns. -/
theorem op2_ok {f : α → β → γ} {u : UA α} {v : UA β} {r : UA γ} (hu : u.Valid) (hv : v.Valid)
    (h : op2 f u v = .ok r) : r.Valid ∧ (∀ p, SA.ufunc2 f (u.side p) (v.side p) = .ok (r.side p)) ∧
      ∀ p e, (r.side p).atB e = f ((u.side p).atB e) ((v.side p).atB e) := by
  simp only [op2, bind, Except.bind] at h
  cases h1 : SA.ufunc2 f u.nominal v.nominal with
  | error x => rw [h1] at h; cases h
  | ok n =>
    rw [h1] at h
    simp only at h
    cases h2 : SA.ufunc2 f u.distribution v.distribution with
    | error x => rw [h2] at h; cases h
    | ok d =>
      rw [h2] at h
      simp only at h
      have t1 := Optimize.ufunc2_atB hu.1 hv.1 h1
      have t2 := Optimize.ufunc2_atB hu.2.1 hv.2.1 h2
      obtain ⟨rfl, h4⟩ := mk?_ok t1.1 h
      exact ⟨⟨t1.1, t2.1, h4⟩, fun p => by cases p; exacts [h1, h2], fun p => by cases p; exacts [t1.2, t2.2]⟩

theorem op1_ok (f : α → β) {u : UA α} (hu : u.Valid) :
    ∃ r, op1 f u = .ok r ∧ r.Valid ∧ (∀ p, SA.ufunc1 f (u.side p) = .ok (r.side p)) ∧
      (∀ p, (r.side p).shape = (u.side p).shape) ∧ ∀ p e, (r.side p).atB e = f ((u.side p).atB e) := by
  obtain ⟨n, n1, n2, n3, n4⟩ := ufunc1_fits' (S := u.nominal.shape) f (a := u.nominal) ⟨hu.1, Comp.fitsIn_refl _⟩
  obtain ⟨d, d1, d2, d3, d4⟩ := ufunc1_fits' (S := u.distribution.shape) f (a := u.distribution)
    ⟨hu.2.1, Comp.fitsIn_refl _⟩
  have hn : axisD ∉ n.axes := by rw [← SA.keys_shape n2.1, n3, SA.keys_shape hu.1]; exact hu.2.2
  refine ⟨⟨n, d⟩, ?_, ⟨n2.1, d2.1, hn⟩, fun p => by cases p; exacts [n1, d1], fun p => by cases p; exacts [n3, d3],
    fun p => by cases p; exacts [n4, d4]⟩
  simp only [op1, bind, Except.bind, n1, d1]
  exact mk?_of_valid n2.1 hn

theorem update2_ok {f : α → β → α} {u : UA α} {v : UA β} {r : UA α} (hu : u.Valid) (hv : v.Valid)
    (h : update2 f u v = .ok r) : r.Valid ∧ (∀ p, Optimize.inplace2 f (u.side p) (v.side p) = .ok (r.side p)) := by
  simp only [update2, bind, Except.bind] at h
  cases h1 : Optimize.inplace2 f u.nominal v.nominal with
  | error x => rw [h1] at h; cases h
  | ok n =>
    rw [h1] at h
    simp only at h
    cases h2 : Optimize.inplace2 f u.distribution v.distribution with
    | error x => rw [h2] at h; cases h
    | ok d =>
      rw [h2] at h
      simp only at h
      have t1 := Optimize.inplace2_ok hu.1 hv.1 h1
      have t2 := Optimize.inplace2_ok hu.2.1 hv.2.1 h2
      obtain ⟨rfl, h4⟩ := mk?_ok t1.1 h
      exact ⟨⟨t1.1, t2.1, h4⟩, fun p => by cases p; exacts [h1, h2]⟩

theorem update2_isOk (f : α → β → α) {u : UA α} {v : UA β} (hu : u.Valid) (hv : v.Valid)
    (h : ∀ p, FitsIn (v.side p).shape (u.side p).shape) : ∃ r, update2 f u v = .ok r := by
  obtain ⟨n, n1⟩ := Optimize.inplace2_isOk f hu.1 hv.1 (h .nominal)
  obtain ⟨d, d1⟩ := Optimize.inplace2_isOk f hu.2.1 hv.2.1 (h .samples)
  obtain ⟨n2, n3, _⟩ := Optimize.inplace2_ok hu.1 hv.1 n1
  refine ⟨⟨n, d⟩, ?_⟩
  simp only [update2, bind, Except.bind, n1, d1]
  exact mk?_of_valid n2 (by rw [n3]; exact hu.2.2)

theorem axes_nil {a : SA α} (ha : a.WF) (h : ∀ ax, get? a.shape ax = none) : a.axes = [] := by
  rw [← SA.keys_shape ha]
  rw [List.eq_nil_iff_forall_not_mem]
  exact fun ax hx => get?_eq_none.1 (h ax) hx

theorem truth_at {a : SA Bool} (h : a.axes = []) (e : String → Nat) : Optimize.truth a = a.at' e := by
  simp [Optimize.truth, SA.at', h]

/-- The truth value of `np.all(u)`. -/
theorem all_truth {u : UA Bool} (hu : u.Valid) {s : Shape} (hs : u.shape = .ok s) :
    ∃ r b, u.reduce false (fun l => l.all id) none false none = .ok r ∧ r.truth = .ok b ∧
      (b = true ↔ (∀ e, InRange s e → u.nominal.atB e = true) ∧
        ∀ e, InRange s e → (∀ k, get? u.distribution.shape axisD = some k → e axisD < k) →
          u.distribution.atB e = true) := by
  obtain ⟨sd, v, hS, _⟩ := broadcasted_main hu hs
  have hr : reducedAxes s none = keys s := rfl
  obtain ⟨r, h1, h2, h3, h4, h5, h6⟩ := C61_reduce u hu s hs none hS.wf (List.Subset.refl _) none
    (fun w hw => by cases hw) false (fun l => l.all id) false (by simp)
  rw [hr] at h3 h4 h5 h6
  have hk : ∀ ax, ax ∉ keys s → get? s ax = none := fun ax h => get?_eq_none.2 h
  have g3 : ∀ ax, get? r.nominal.shape ax = none := by
    intro ax
    rw [h3]
    by_cases h : ax ∈ keys s
    · simp [h]
    · simp [h, hk ax h]
  have g4 : ∀ ax, ax ≠ axisD → get? r.distribution.shape ax = none := by
    intro ax hx
    rw [h4, if_neg hx]
    by_cases h : ax ∈ keys s
    · simp [h]
    · simp [h, hk ax h]
  have g5 : get? r.distribution.shape axisD = get? u.distribution.shape axisD := by rw [h4, if_pos rfl]
  -- the elements of the slabs
  have mem : ∀ e l, Comp.SlabOf s (keys s) e l → ∀ e', e' ∈ l ↔ InRange s e' ∧ ∀ ax, ax ∉ keys s → e' ax = e ax := by
    intro e l hl e'
    rw [hl.2 e']
    refine and_congr_left fun _ => ⟨fun h ax n hn => ?_, fun h ax hax => ?_⟩
    · obtain ⟨m, hm, hlt⟩ := h ax (mem_keys_of_get? hn)
      rw [hn] at hm
      cases hm
      exact hlt
    · obtain ⟨n, hn⟩ := exists_get?_of_mem hax
      exact ⟨n, hn, h ax n hn⟩
  have hnom : Optimize.truth r.nominal = true ↔ ∀ e, InRange s e → u.nominal.atB e = true := by
    obtain ⟨l, l1, l2⟩ := h5 (fun _ => 0)
    rw [truth_at (axes_nil h2.1 g3) (fun _ => 0), l2]
    simp only [List.all_eq_true, List.mem_map, List.mem_filter, Option.map_none, SA.selected, and_true, id_eq]
    constructor
    · intro h e he
      have : u.nominal.atB e = u.nominal.atB (fun ax => if ax ∈ keys s then e ax else 0) := by
        refine SA.atB_congr (fun ax hax => ?_)
        rw [← SA.keys_shape hu.1] at hax
        obtain ⟨m, hm⟩ := exists_get?_of_mem hax
        obtain ⟨n, hn, _⟩ := hS.nom ax m hm
        simp [mem_keys_of_get? hn]
      rw [this]
      refine h _ ⟨_, (mem _ _ l1 _).2 ⟨fun ax n hn => ?_, fun ax hax => by simp [hax]⟩, rfl⟩
      simp only [mem_keys_of_get? hn, if_true]
      exact he ax n hn
    · rintro h x ⟨e', h7, rfl⟩
      exact h e' ((mem _ _ l1 _).1 h7).1
  have hdis : ∀ e, r.distribution.at' e = true ↔ ∀ e', InRange s e' → e' axisD = e axisD → u.distribution.atB e' = true := by
    intro e
    obtain ⟨l, l1, l2⟩ := h6 e
    rw [l2]
    simp only [List.all_eq_true, List.mem_map, List.mem_filter, Option.map_none, SA.selected, and_true, id_eq]
    constructor
    · intro h e' he' hD
      have : u.distribution.atB e' = u.distribution.atB (fun ax => if ax ∈ keys s then e' ax else e ax) := by
        refine SA.atB_congr (fun ax hax => ?_)
        by_cases hd : ax = axisD
        · subst hd; simp [hS.noD, hD]
        · rw [← SA.keys_shape hu.2.1] at hax
          obtain ⟨m, hm⟩ := exists_get?_of_mem hax
          obtain ⟨n, hn, _⟩ := hS.dist ax m hm
          rw [hS.get, if_neg hd] at hn
          simp [mem_keys_of_get? hn]
      rw [this]
      refine h _ ⟨_, (mem _ _ l1 _).2 ⟨fun ax n hn => ?_, fun ax hax => by simp [hax]⟩, rfl⟩
      simp only [mem_keys_of_get? hn, if_true]
      exact he' ax n hn
    · rintro h x ⟨e', h7, rfl⟩
      obtain ⟨h8, h9⟩ := (mem _ _ l1 _).1 h7
      exact h e' h8 (h9 _ hS.noD)
  by_cases hD : axisD ∈ keys r.distribution.shape
  · obtain ⟨k, hk'⟩ := exists_get?_of_mem hD
    have hDa : axisD ∈ r.distribution.axes := by rw [← SA.keys_shape h2.2.1]; exact hD
    obtain ⟨d, d1, d2, d3, d4, d5⟩ := SA.C17_reduce r.distribution h2.2.1 none (fun w hw => by cases hw) [axisD]
      (by simp) (by simpa using hDa) false (fun l => l.all id) false (by simp)
    have hd0 : d.axes = [] := by
      refine axes_nil d2 (fun ax => ?_)
      rw [d4]
      by_cases hx : ax = axisD
      · subst hx; simp
      · simp [hx, g4 ax hx]
    refine ⟨r, Optimize.truth r.nominal && Optimize.truth d, h1, ?_, ?_⟩
    · unfold truth
      simp only [bind, Except.bind, hD, if_true, d1]
    · rw [Bool.and_eq_true, hnom]
      refine and_congr_right fun _ => ?_
      obtain ⟨l, l1, l2⟩ := d5 (fun _ => 0)
      rw [truth_at hd0 (fun _ => 0), l2]
      simp only [List.all_eq_true, List.mem_map, List.mem_filter, SA.selected, and_true, id_eq]
      have l1' : ∀ e', e' ∈ l ↔ e' axisD < k ∧ ∀ ax, ax ≠ axisD → e' ax = 0 := by
        intro e'
        rw [l1.2 e']
        simp [hk']
      constructor
      · intro h e he hek
        have hlt := hek k (by rw [← g5]; exact hk')
        have := h _ ⟨fun ax => if ax = axisD then e axisD else 0, (l1' _).2 ⟨by simpa using hlt, fun ax hx => by simp [hx]⟩, rfl⟩
        exact (hdis _).1 this e he (by simp)
      · rintro h x ⟨e', h7, rfl⟩
        refine (hdis e').2 (fun e'' h8 h9 => h e'' h8 (fun k' hk'' => ?_))
        rw [← g5, hk'] at hk''
        cases hk''
        rw [h9]
        exact ((l1' _).1 h7).1
  · have hD0 : get? r.distribution.shape axisD = none := get?_eq_none.2 hD
    refine ⟨r, Optimize.truth r.nominal && Optimize.truth r.distribution, h1, ?_, ?_⟩
    · unfold truth
      simp only [bind, Except.bind, hD, if_false]
    · rw [Bool.and_eq_true, hnom]
      refine and_congr_right fun _ => ?_
      have hd0 : r.distribution.axes = [] := axes_nil h2.2.1 (fun ax => by
        by_cases hx : ax = axisD
        · rw [hx]; exact hD0
        · exact g4 ax hx)
      constructor
      · intro h e he _
        rw [truth_at hd0 e] at h
        exact (hdis _).1 h e he rfl
      · intro h
        rw [truth_at hd0 (fun _ => 0)]
        refine (hdis _).2 (fun e' he' _ => h e' he' (fun k hk' => ?_))
        rw [← g5, hD0] at hk'
        cases hk'

/-- The shapes of the components of an array whose components have been broadcast against each other. -/
structure Paired (T : Side → Shape) : Prop where
  wfn : Dict.WF (T .nominal)
  noD : axisD ∉ keys (T .nominal)
  same : ∀ ax, ax ≠ axisD → get? (T .samples) ax = get? (T .nominal) ax

theorem shape_full {T : Side → Shape} (hT : Paired T) {u : UA α} (h : FullU T u) :
    ∃ s, u.shape = .ok s ∧ Same s (T .nominal) := by
  have hn : Fits (T .samples) u.nominal := by
    refine ⟨(h .nominal).1, fun ax m hm => ⟨m, ?_, .inl rfl⟩⟩
    have h1 : get? (T .nominal) ax = some m := by rw [← (h .nominal).2 ax]; exact hm
    rw [hT.same ax (by rintro rfl; exact hT.noD (mem_keys_of_get? h1)), h1]
  obtain ⟨c, c1, c2, _⟩ := ufunc2_full' (fun _ b => b) hn (h .samples)
  have c3 : broadcastShapes [u.nominal.shape, u.distribution.shape] = .ok c.shape :=
    (SA.ufunc2_ok (h .nominal).1 (h .samples).1 c1).2.1
  refine ⟨c.shape.erase axisD, ?_, fun ax => ?_⟩
  · unfold UA.shape shapeDistribution
    simp only [bind, Except.bind, c3]
  · by_cases hx : ax = axisD
    · rw [hx, get?_erase_self, get?_eq_none.2 hT.noD]
    · rw [get?_erase_ne hx, c2.2 ax, hT.same ax hx]

/-- The truth value of `np.all(u)` for components of full shape. -/
theorem all_full {T : Side → Shape} (hT : Paired T) {u : UA Bool} (h : FullU T u) :
    ∃ r b, u.reduce false (fun l => l.all id) none false none = .ok r ∧ r.truth = .ok b ∧
      (b = true ↔ ∀ p e, InRange (T p) e → (u.side p).at' e = true) := by
  obtain ⟨s, h1, h2⟩ := shape_full hT h
  obtain ⟨r, b, h3, h4, h5⟩ := all_truth (valid_of_fits hT.noD h.fits) h1
  refine ⟨r, b, h3, h4, ?_⟩
  rw [h5]
  have hs : ∀ e, InRange s e ↔ InRange (T .nominal) e := by
    intro e
    unfold SA.InRange
    simp only [show ∀ ax, get? s ax = get? (T .nominal) ax from h2]
  have hd : ∀ ax, get? u.distribution.shape ax = get? (T .samples) ax := (h .samples).2
  have hsd : ∀ e, InRange (T .samples) e ↔
      InRange s e ∧ ∀ k, get? u.distribution.shape axisD = some k → e axisD < k := by
    intro e
    rw [hs]
    constructor
    · intro he
      refine ⟨fun ax n hn => he ax n ?_, fun k hk => he axisD k (by rw [← hd]; exact hk)⟩
      rw [hT.same ax (by rintro rfl; exact hT.noD (mem_keys_of_get? hn))]
      exact hn
    · rintro ⟨h6, h7⟩ ax n hn
      by_cases hx : ax = axisD
      · subst hx
        exact h7 n (by rw [hd]; exact hn)
      · exact h6 ax n (by rw [← hT.same ax hx]; exact hn)
  constructor
  · rintro ⟨h6, h7⟩ p e he
    cases p with
    | nominal =>
      rw [← (h .nominal).atB he]
      exact h6 e ((hs e).2 he)
    | samples =>
      rw [← (h .samples).atB he]
      exact h7 e ((hsd e).1 he).1 ((hsd e).1 he).2
  · intro h6
    refine ⟨fun e he => ?_, fun e he hk => ?_⟩
    · have := h6 .nominal e ((hs e).1 he)
      rw [← (h .nominal).atB ((hs e).1 he)] at this
      exact this
    · have := h6 .samples e ((hsd e).2 ⟨he, hk⟩)
      rw [← (h .samples).atB ((hsd e).2 ⟨he, hk⟩)] at this
      exact this

/-- The selected elements. -/
theorem select_full {T : Side → Shape} (hT : Paired T) {u : UA α} (h : FullU T u) {mask : UA Bool} (hm : FullU T mask)
    {m : Side → String} (hs : ∀ p, SA.maskAxis (mask.side p) = .ok (m p)) :
    ∃ r, u.select mask = .ok r ∧ FullU (fun p => [(m p, (mask.side p).nd.trues.length)]) r ∧
      axisD ∉ keys [(m .nominal, (mask.side .nominal).nd.trues.length)] ∧
      ∀ p e, e (m p) < (mask.side p).nd.trues.length →
        (r.side p).at' e = (u.side p).at' (SA.trueEnv (mask.side p) (e (m p))) := by
  obtain ⟨n, n1, n2, n3⟩ := Optimize.getMask_full (h .nominal) (hm .nominal) (hs .nominal)
  obtain ⟨d, d1, d2, d3⟩ := Optimize.getMask_full (h .samples) (hm .samples) (hs .samples)
  have hv := valid_of_fits hT.noD hm.fits
  have hname : m .nominal ≠ axisD := by
    have h1 := hs .nominal
    rw [SA.maskAxis_ok] at h1
    simp only [Except.ok.injEq] at h1
    rw [← h1]
    split
    · decide
    · exact flat_ne_axisD hv.2.2
  have hD : axisD ∉ keys [(m .nominal, (mask.side .nominal).nd.trues.length)] := by
    simpa [keys] using Ne.symm hname
  refine ⟨⟨n, d⟩, ?_, fun p => by cases p; exacts [n2, d2], hD, fun p => by cases p; exacts [n3, d3]⟩
  have n1' : u.nominal.getMask mask.nominal = .ok n := n1
  have d1' : u.distribution.getMask mask.distribution = .ok d := d1
  simp only [select, bind, Except.bind, n1', d1']
  exact mk?_side (T := fun p => [(m p, (mask.side p).nd.trues.length)]) hD n2.fits d2.fits

theorem select_ok {T : Side → Shape} {u r : UA α} (hu : FitsU T u) {mask : UA Bool} (hm : FullU T mask)
    (h : u.select mask = .ok r) : FullU T u := by
  simp only [select, bind, Except.bind] at h
  cases h1 : u.nominal.getMask mask.nominal with
  | error x => rw [h1] at h; cases h
  | ok n =>
    rw [h1] at h
    simp only at h
    cases h2 : u.distribution.getMask mask.distribution with
    | error x => rw [h2] at h; cases h
    | ok d =>
      intro p
      cases p
      · exact Optimize.getMask_ok_full (hu .nominal) (hm .nominal) h1
      · exact Optimize.getMask_ok_full (hu .samples) (hm .samples) h2

end UA

namespace Optimize
open UA
variable {F : Type}

/-- The variables for a component. -/
def USecantState.side (s : USecantState F) (p : Side) : SecantState F :=
  ⟨s.i, s.x0.side p, s.x1.side p, s.f0.side p, s.converged.side p⟩

/-- The convergence flags and the steps are computed for each component. -/
theorem usecantMark_side {o : Arith F} {minStep err f1 : UA F} {s : USecantState F} {conv : UA Bool} {dx : UA F}
    (hm : minStep.Valid) (he : err.Valid) (hf : f1.Valid) (h0 : s.x0.Valid) (h1 : s.x1.Valid) (hc : s.converged.Valid)
    (h : usecantMark o minStep err s f1 = .ok (conv, dx)) :
    conv.Valid ∧ dx.Valid ∧
      ∀ p, secantMark o (minStep.side p) (err.side p) (s.side p) (f1.side p) = .ok (conv.side p, dx.side p) := by
  obtain ⟨a, a1, a2, a3, _, _⟩ := op1_ok o.abs hf
  obtain ⟨m, m1, m2, m3, _, _⟩ := op1_ok o.abs hm
  simp only [usecantMark, bind, Except.bind, a1] at h
  cases h2 : op2 o.lt a err with
  | error x => rw [h2] at h; cases h
  | ok c =>
    rw [h2] at h
    simp only at h
    obtain ⟨c1, c2, _⟩ := op2_ok a2 he h2
    cases h3 : update2 or s.converged c with
    | error x => rw [h3] at h; cases h
    | ok w =>
      rw [h3] at h
      simp only at h
      obtain ⟨w1, w2⟩ := update2_ok hc c1 h3
      cases h4 : op2 o.sub s.x1 s.x0 with
      | error x => rw [h4] at h; cases h
      | ok d =>
        rw [h4] at h
        obtain ⟨d1, d2, _⟩ := op2_ok h1 h0 h4
        obtain ⟨b, b1, b2, b3, _, _⟩ := op1_ok o.abs d1
        simp only [b1, m1] at h
        cases h5 : op2 o.lt b m with
        | error x => rw [h5] at h; cases h
        | ok c' =>
          rw [h5] at h
          simp only at h
          obtain ⟨g1, g2, _⟩ := op2_ok b2 m2 h5
          cases h6 : update2 or w c' with
          | error x => rw [h6] at h; cases h
          | ok w' =>
            rw [h6] at h
            simp only [Except.ok.injEq, Prod.mk.injEq] at h
            obtain ⟨rfl, rfl⟩ := h
            obtain ⟨v1, v2⟩ := update2_ok w1 g1 h6
            refine ⟨v1, d1, fun p => ?_⟩
            simp only [secantMark, bind, Except.bind, USecantState.side, a3 p, c2 p, w2 p, d2 p, b3 p, m3 p, g2 p, v2 p]

theorem anyZero_ok (o : Arith F) {S : Shape} {a : SA F} (ha : Full S a) :
    ∃ b, anyZero o a = .ok b ∧ (b = true ↔ ∃ e, InRange S e ∧ o.eq (a.at' e) o.zero = true) := by
  obtain ⟨z, b1, b2, b3⟩ := ufunc1_full (fun v => o.eq v o.zero) ha
  obtain ⟨r, c1, c2⟩ := truth_any b2.1 (wh := none) (fun w hw => by cases hw)
  refine ⟨truth r, by simp only [anyZero, bind, Except.bind, b1, c1], ?_⟩
  rw [c2]
  refine exists_congr fun e => ?_
  rw [b2.inRange]
  refine and_congr_right fun he => ?_
  rw [← b2.atB he, b3, ha.atB he]
  simp [SA.selected]

theorem usecantCorrection_main (o : Arith F) (damping : Option F) {T : Side → Shape} (hD : axisD ∉ keys (T .nominal))
    {dx f0 f1 : UA F} (hx : FullU T dx) (h0 : FullU T f0) (h1 : FullU T f1) :
    ((∃ p e, InRange (T p) e ∧ o.eq (o.sub ((f1.side p).at' e) ((f0.side p).at' e)) o.zero = true) ∧
      usecantCorrection o damping dx f0 f1 = .error .valueError) ∨
    ((¬ ∃ p e, InRange (T p) e ∧ o.eq (o.sub ((f1.side p).at' e) ((f0.side p).at' e)) o.zero = true) ∧
      ∃ c, usecantCorrection o damping dx f0 f1 = .ok c ∧ FullU T c ∧
        ∀ p e, InRange (T p) e →
          (c.side p).at' e = correctionOf o damping ((dx.side p).at' e) ((f0.side p).at' e) ((f1.side p).at' e)) := by
  obtain ⟨df, a1, a2, a3⟩ := op2_full hD o.sub h1 h0.fits
  obtain ⟨zn, n1, n2⟩ := anyZero_ok o (a2 .nominal)
  obtain ⟨zd, d1, d2⟩ := anyZero_ok o (a2 .samples)
  obtain ⟨j, j1, j2, j3⟩ := op2_full hD o.div a2 hx.fits
  obtain ⟨q, g1, g2, g3⟩ := op2_full hD o.div h1 j2.fits
  have n1' : anyZero o df.nominal = .ok zn := n1
  have d1' : anyZero o df.distribution = .ok zd := d1
  have hdf : ∀ p e, InRange (T p) e → (df.side p).at' e = o.sub ((f1.side p).at' e) ((f0.side p).at' e) := by
    intro p e he
    rw [← (a2 p).atB he, a3, (h1 p).atB he, (h0 p).atB he]
  have hz : (zn || zd) = true ↔
      ∃ p e, InRange (T p) e ∧ o.eq (o.sub ((f1.side p).at' e) ((f0.side p).at' e)) o.zero = true := by
    rw [Bool.or_eq_true, n2, d2]
    constructor
    · rintro (⟨e, h2, h3⟩ | ⟨e, h2, h3⟩)
      · exact ⟨.nominal, e, h2, by rw [← hdf _ e h2]; exact h3⟩
      · exact ⟨.samples, e, h2, by rw [← hdf _ e h2]; exact h3⟩
    · rintro ⟨p, e, h2, h3⟩
      rw [← hdf p e h2] at h3
      cases p
      · exact .inl ⟨e, h2, h3⟩
      · exact .inr ⟨e, h2, h3⟩
  rw [← hz]
  cases ht : (zn || zd) with
  | true =>
    left
    refine ⟨rfl, ?_⟩
    simp only [usecantCorrection, bind, Except.bind, a1, n1', d1', ht, if_true]
  | false =>
    right
    refine ⟨by simp, ?_⟩
    have hq : ∀ p e, InRange (T p) e → (q.side p).at' e =
        o.div ((f1.side p).at' e) (o.div (o.sub ((f1.side p).at' e) ((f0.side p).at' e)) ((dx.side p).at' e)) := by
      intro p e he
      rw [← (g2 p).atB he, g3, j3, a3, (h1 p).atB he, (h0 p).atB he, (hx p).atB he]
    cases damping with
    | none =>
      refine ⟨q, ?_, g2, hq⟩
      simp only [usecantCorrection, bind, Except.bind, a1, n1', d1', ht, j1, g1, Bool.false_eq_true, if_false]
    | some d =>
      obtain ⟨u, u1, u2, u3⟩ := op2_full' hD o.mul (number_fits T d) g2
      refine ⟨u, ?_, u2, fun p e he => ?_⟩
      · simp only [usecantCorrection, bind, Except.bind, a1, n1', d1', ht, j1, g1, Bool.false_eq_true, if_false]
        exact u1
      · rw [← (u2 p).atB he, u3, (g2 p).atB he, hq p e he, number_at]
        rfl

theorem usecantUpdate_main (o : Arith F) {S : Shape} {x1 : SA F} {active : SA Bool} {correction : SA F} (hx : Full S x1)
    (ha : Full S active) {s : String} (hs : SA.maskAxis active = .ok s)
    (hc : Full [(s, active.nd.trues.length)] correction) :
    ∃ x2, usecantUpdate o x1 active correction = .ok x2 ∧ x2.WF ∧ x2.axes = x1.axes ∧ x2.shape = x1.shape ∧
      (∀ e, InRange S e → active.at' e = false → x2.at' e = x1.at' e) ∧
      ∀ k, k < active.nd.trues.length → x2.at' (SA.trueEnv active k) =
        o.sub (x1.at' (SA.trueEnv active k)) (correction.at' (fun _ => k)) := by
  obtain ⟨v, a1, a2, a3⟩ := getMask_full hx ha hs
  obtain ⟨w, b1, hw, b5⟩ := ufunc2_full o.sub a2 hc.fits
  have b2 := hw.1
  have hax : ∀ ax, ax ∈ x1.axes ↔ ax ∈ active.axes := by
    intro ax
    rw [← SA.keys_shape hx.1, ← SA.keys_shape ha.1, ← get?_isSome, ← get?_isSome, hx.2 ax, ha.2 ax]
  have hfil : x1.axes.filter (· ∉ active.axes) = [] := by
    simp only [List.filter_eq_nil_iff, decide_eq_true_eq, not_not]
    exact fun ax h => (hax ax).1 h
  have hwax : ∀ ax ∈ w.axes, ax = s := by
    intro ax h
    rw [← SA.keys_shape b2, ← get?_isSome, hw.2 ax] at h
    by_contra hne
    simp [get?_cons, Ne.symm hne] at h
  obtain ⟨s', c1, c2⟩ := (SA.setMask_main hx.1 b2 ha.1).2 (fun ax h => (hax ax).2 h)
  rw [hs] at c1
  cases c1
  rw [hfil] at c2
  obtain ⟨_, c4⟩ := (((c2 (by simp)).2 (fun ax h => by simp [hwax ax h])).2 (fun ax _ => by rw [hx.2 ax, ha.2 ax]))
  obtain ⟨x2, d1, d2, d3, d4, d5, d6⟩ := c4 (fun m hm => by
      rw [hw.2 s] at hm
      simp only [get?_cons, if_true, Option.some.injEq] at hm
      exact .inl hm.symm) (fun ax m h1 h2 _ => absurd ((hax ax).1 h1) h2)
  refine ⟨x2, ?_, d2, d3, d4, fun e he => d5 e (hx.inRange.2 he), fun k hk => ?_⟩
  · simp only [usecantUpdate, bind, Except.bind, a1, b1, d1]
  · have hin : InRange [(s, active.nd.trues.length)] (fun _ => k) := by
      intro ax n hn
      simp only [get?_cons, get?_nil] at hn
      split at hn
      · cases hn; exact hk
      · cases hn
    have h1 := d6 (fun _ => k) (fun ax n h2 h3 => absurd ((hax ax).1 (by
      rw [← SA.keys_shape hx.1]; exact mem_keys_of_get? h3)) h2) hk
    rw [show x2.at' (SA.maskIdx active s (fun _ => k)) = x2.at' (SA.trueEnv active k) from
      SA.at'_congr (fun ax h => by
        rw [d3] at h
        simp [SA.maskIdx, (hax ax).1 h])] at h1
    rw [h1, b5, a2.atB hin, a3 _ hk, hc.atB hin]

/-- Everything about one step, for values of full shape. -/
theorem usecantStep_main (o : Arith F) (damping : Option F) {T : Side → Shape} (hT : Paired T) (s : USecantState F)
    {f1 : UA F} {conv : UA Bool} {dx : UA F} (hx1 : FullU T s.x1) (hf0 : FullU T s.f0) (hf1 : FullU T f1)
    (hc : FullU T conv) (hdx : FullU T dx) :
    ((∃ p e, InRange (T p) e ∧ (conv.side p).at' e = false ∧
        o.eq (o.sub ((f1.side p).at' e) ((s.f0.side p).at' e)) o.zero = true) ∧
      usecantStep o damping s f1 conv dx = .error .valueError) ∨
    ((¬ ∃ p e, InRange (T p) e ∧ (conv.side p).at' e = false ∧
        o.eq (o.sub ((f1.side p).at' e) ((s.f0.side p).at' e)) o.zero = true) ∧
      ∃ x2, usecantStep o damping s f1 conv dx = .ok ⟨s.i + 1, s.x1, x2, f1, conv⟩ ∧ FullU T x2 ∧
        ∀ p e, InRange (T p) e → (x2.side p).at' e = if (conv.side p).at' e = true then (s.x1.side p).at' e
          else o.sub ((s.x1.side p).at' e)
            (correctionOf o damping ((dx.side p).at' e) ((s.f0.side p).at' e) ((f1.side p).at' e))) := by
  obtain ⟨active, a1, a2, a3⟩ := op1_full hT.noD not hc
  have hact : ∀ p e, InRange (T p) e → (active.side p).at' e = !(conv.side p).at' e := by
    intro p e he
    rw [← (a2 p).atB he, a3, (hc p).atB he]
  have hm : ∀ p, SA.maskAxis (active.side p) = .ok ((fun p => if (active.side p).axes = [] then "boolean" else
      "*".intercalate (active.side p).axes) p) := fun p => SA.maskAxis_ok _
  generalize (fun p => if (active.side p).axes = [] then "boolean" else
      "*".intercalate (active.side p).axes) = m at hm
  obtain ⟨dxA, e1, e2, hD', e3⟩ := select_full hT hdx a2 hm
  obtain ⟨f0A, g1, g2, _, g3⟩ := select_full hT hf0 a2 hm
  obtain ⟨f1A, i1, i2, _, i3⟩ := select_full hT hf1 a2 hm
  have hlt : ∀ p e, InRange [(m p, (active.side p).nd.trues.length)] e → e (m p) < (active.side p).nd.trues.length := by
    intro p e he
    exact he (m p) _ (by simp [get?_cons])
  have hin : ∀ p k, k < (active.side p).nd.trues.length →
      InRange [(m p, (active.side p).nd.trues.length)] (fun _ => k) := by
    intro p k hk ax n hn
    simp only [get?_cons, get?_nil] at hn
    split at hn
    · cases hn; exact hk
    · cases hn
  -- an active element is one of the selected ones
  have hsel : ∀ p e, InRange (T p) e → (conv.side p).at' e = false → ∃ k, k < (active.side p).nd.trues.length ∧
      ∀ {α : Type} {a : SA α}, Full (T p) a → a.at' (SA.trueEnv (active.side p) k) = a.at' e := by
    intro p e he hce
    obtain ⟨_, _, t3⟩ := SA.trues_spec (a2 p).1
    obtain ⟨k, hk, hek⟩ := t3 e ((a2 p).inRange.2 he) (by rw [hact p e he, hce]; rfl)
    refine ⟨k, hk, fun {α a} ha => ?_⟩
    refine SA.at'_congr (fun ax hax => hek ax ?_)
    rw [← SA.keys_shape ha.1, ← get?_isSome, ha.2 ax, ← (a2 p).2 ax, get?_isSome, SA.keys_shape (a2 p).1] at hax
    exact hax
  have hT' : ∀ p, (fun p => [(m p, (active.side p).nd.trues.length)]) p = [(m p, (active.side p).nd.trues.length)] :=
    fun _ => rfl
  rcases usecantCorrection_main o damping (T := fun p => [(m p, (active.side p).nd.trues.length)]) hD' e2 g2 i2 with
    ⟨⟨p, e, k1, k2⟩, k3⟩ | ⟨k0, corr, k1, k2, k3⟩
  · left
    refine ⟨⟨p, SA.trueEnv (active.side p) (e (m p)), ?_⟩, ?_⟩
    · have hk := hlt p e k1
      rw [g3 p e hk, i3 p e hk] at k2
      obtain ⟨t1, _, _⟩ := SA.trues_spec (a2 p).1
      obtain ⟨u1, u2⟩ := t1 _ hk
      have u3 := (a2 p).inRange.1 u1
      rw [hact p _ u3] at u2
      exact ⟨u3, by simpa using u2, k2⟩
    · simp only [usecantStep, bind, Except.bind, a1, e1, g1, i1, k3]
  · right
    obtain ⟨n, n1, n2, n3, n4, n5, n6⟩ := usecantUpdate_main o (hx1 .nominal) (a2 .nominal) (hm .nominal) (k2 .nominal)
    obtain ⟨d, d1, d2, d3, d4, d5, d6⟩ := usecantUpdate_main o (hx1 .samples) (a2 .samples) (hm .samples) (k2 .samples)
    have hn : Full (T .nominal) n := ⟨n2, fun ax => by rw [n4, (hx1 .nominal).2 ax]⟩
    have hd : Full (T .samples) d := ⟨d2, fun ax => by rw [d4, (hx1 .samples).2 ax]⟩
    have hx2 : FullU T (⟨n, d⟩ : UA F) := fun p => by cases p; exacts [hn, hd]
    refine ⟨?_, ⟨n, d⟩, ?_, hx2, ?_⟩
    · rintro ⟨p, e, he, hce, hz⟩
      obtain ⟨k, hk, hs⟩ := hsel p e he hce
      refine k0 ⟨p, fun _ => k, hin p k hk, ?_⟩
      rw [g3 p _ hk, i3 p _ hk, hs (hf1 p), hs (hf0 p)]
      exact hz
    · have n1' : usecantUpdate o s.x1.nominal active.nominal corr.nominal = .ok n := n1
      have d1' : usecantUpdate o s.x1.distribution active.distribution corr.distribution = .ok d := d1
      simp only [usecantStep, bind, Except.bind, a1, e1, g1, i1, k1, n1', d1']
    · intro p e he
      have h5 : (active.side p).at' e = false → ((⟨n, d⟩ : UA F).side p).at' e = (s.x1.side p).at' e := by
        cases p; exacts [n5 e he, d5 e he]
      have h6 : ∀ k, k < (active.side p).nd.trues.length → ((⟨n, d⟩ : UA F).side p).at' (SA.trueEnv (active.side p) k) =
          o.sub ((s.x1.side p).at' (SA.trueEnv (active.side p) k)) ((corr.side p).at' (fun _ => k)) := by
        cases p; exacts [n6, d6]
      by_cases hce : (conv.side p).at' e = true
      · rw [if_pos hce]
        exact h5 (by rw [hact p e he, hce]; rfl)
      · rw [if_neg hce]
        obtain ⟨k, hk, hs⟩ := hsel p e he (by simpa using hce)
        rw [← hs (hx2 p), h6 k hk, k3 p _ (hin p k hk), e3 p _ hk, g3 p _ hk, i3 p _ hk, hs (hx1 p), hs (hdx p),
          hs (hf0 p), hs (hf1 p)]

/-- A successful step uses values of full shape. -/
theorem usecantStep_full {o : Arith F} {damping : Option F} {T : Side → Shape} (hT : Paired T) {s s' : USecantState F}
    {f1 : UA F} {conv : UA Bool} {dx : UA F} (hf0 : FitsU T s.f0) (hf1 : FitsU T f1) (hc : FullU T conv)
    (h : usecantStep o damping s f1 conv dx = .ok s') : FullU T s.f0 ∧ FullU T f1 := by
  obtain ⟨active, a1, a2, a3⟩ := op1_full hT.noD not hc
  simp only [usecantStep, bind, Except.bind, a1] at h
  cases h1 : dx.select active with
  | error e => rw [h1] at h; cases h
  | ok dxA =>
    rw [h1] at h
    simp only at h
    cases h2 : s.f0.select active with
    | error e => rw [h2] at h; cases h
    | ok f0A =>
      rw [h2] at h
      simp only at h
      cases h3 : f1.select active with
      | error e => rw [h3] at h; cases h
      | ok f1A => exact ⟨select_ok hf0 a2 h2, select_ok hf1 a2 h3⟩

end Optimize
end NA
